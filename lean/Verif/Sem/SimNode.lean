import Verif.Sem.SimExpr

/-!
# Simulation: expressions without control flow
-/

namespace Quilt
variable {D : Type}

/-- The generated code of the expression simulates it. -/
def SimE (H : Host D) (S : SHost D) (call : SClos → List SVal → SM D SVal) (W : Nat) (B : Bd) (n : Node) : Prop :=
  ∀ ⦃al : Bool⦄ ⦃A : Act⦄ ⦃K : Nat → Prop⦄ ⦃γ slots : LocMap⦄ ⦃g g' : GState⦄ ⦃env : SEnv⦄ ⦃σ : SSt D⦄ ⦃s : VM D⦄ ⦃c : Code⦄,
    genNode H.cfg true .expr n g = .ok ((), c, g') → n.wf al = true → Bound H A K g' → CodeAt A.fn s.frame.ip c →
    St H A K γ slots g env σ s → (al = true → s.sp = A.st + g.cur.locals.length) →
    Post H A B K γ slots s (evalNode S call W n env σ) (EQ H K slots s (s.frame.ip + c.len))

def SimArgs (H : Host D) (S : SHost D) (call : SClos → List SVal → SM D SVal) (W : Nat) (B : Bd) (ns : List Node) : Prop :=
  ∀ ⦃al : Bool⦄ ⦃A : Act⦄ ⦃K : Nat → Prop⦄ ⦃γ slots : LocMap⦄ ⦃g g' : GState⦄ ⦃env : SEnv⦄ ⦃σ : SSt D⦄ ⦃s : VM D⦄ ⦃c : Code⦄,
    genArgs H.cfg true ns g = .ok ((), c, g') → wfArgs al ns = true → Bound H A K g' → CodeAt A.fn s.frame.ip c →
    St H A K γ slots g env σ s → (al = true → s.sp = A.st + g.cur.locals.length) →
    Post H A B K γ slots s (evalArgs S call W ns env σ) (EQs H K slots s (s.frame.ip + c.len))

def SimRev (H : Host D) (S : SHost D) (call : SClos → List SVal → SM D SVal) (W : Nat) (B : Bd) (ns : List Node) : Prop :=
  ∀ ⦃al : Bool⦄ ⦃A : Act⦄ ⦃K : Nat → Prop⦄ ⦃γ slots : LocMap⦄ ⦃g g' : GState⦄ ⦃env : SEnv⦄ ⦃σ : SSt D⦄ ⦃s : VM D⦄ ⦃c : Code⦄,
    genRev H.cfg true ns g = .ok ((), c, g') → wfRev al ns = true → Bound H A K g' → CodeAt A.fn s.frame.ip c →
    St H A K γ slots g env σ s → (al = true → s.sp = A.st + g.cur.locals.length) →
    Post H A B K γ slots s (evalRev S call W ns env σ) (fun vs => EQs H K slots s (s.frame.ip + c.len) vs.reverse)

section
variable {H : Host D} {S : SHost D} {call : SClos → List SVal → SM D SVal} {W : Nat} {B : Bd}

theorem sim_lit (hH : HRel H S) (sp : Span) (l : Literal) : SimE H S call W B (.lit sp l) := by
  intro al A K γ slots g g' env σ s c hg hw hb hc hst hal
  have hs : ∀ l loc, slots l = some loc → l < s.sp := fun l loc hl => hst.slotSp hl
  rcases gen_lit hg with ⟨rfl, rfl, rfl⟩ | ⟨i, hi, rfl⟩
  · refine Post.op (r := .ok .none) (r' := .ok .none) (sp := sp) (k := 0) (p := _) trivial ?_ hst.ok hst.openK hs (fun _ _ _ => rfl) rfl hst.le
    show _ = _
    rw [step_at hst.act.fn hc (by simp)]
    simp [VM.exec, VM.push_none hH.stack, VM.repl, VM.pushU]
  · refine Post.op (r := .ok l.toVal) (r' := .ok l.toVal) (sp := sp) (k := 0) (p := _) (Val.Rel.toVal l) ?_ hst.ok hst.openK hs (fun _ _ _ => rfl) rfl hst.le
    show _ = _
    rw [step_at hst.act.fn hc (by simp)]
    have := addConst_id hst.inv hi hb.consts hb.constsLen
    simp [VM.exec, hst.act.fn, this, VM.push_none hH.stack, VM.repl, VM.pushU]

theorem sim_ident (hH : HRel H S) (sp : Span) (x : String) : SimE H S call W B (.ident sp x) := by
  intro al A K γ slots g g' env σ s c hg hw hb hc hst hal
  obtain ⟨r, hr, rfl⟩ := gen_ident hg
  have href := resolve_sim hH hst.inv hst.frame hst.act.cells (by simpa [Node.wf] using hw) hr hb
  have := sim_load (B := B) hH hst.act hst.ok hst.openK hst.le href hc
  simpa [evalNode] using this

theorem sim_assign (hH : HRel H S) (sp : Span) (x : Name) (e : Node) (he : SimE H S call W B e) :
    SimE H S call W B (.assign sp x e) := by
  intro al A K γ slots g g' env σ s c hg hw hb hc hst hal
  obtain ⟨ce, ge, r, h1, h2, rfl⟩ := gen_assign hg
  simp only [Node.wf, Bool.and_eq_true] at hw
  have e1 := (ext_node H.cfg true e .expr hst.inv h1).e
  have f1 := free_node H.cfg true e .expr al hw.2 hst.free h1
  have e2 := resolve_ext e1.2 h2
  obtain ⟨x, xsp⟩ := x
  simp only [evalNode]
  refine Post.bind (he h1 hw.2 (hb.back e2.1.ext) hc.left hst hal) ?_
  intro v γ1 slots1 σ1 s1 hx hq
  obtain rfl := hq.eqSlots
  have hst1 := hst.nextE e1 f1 hx hq
  have href := resolve_sim hH hst1.inv hst1.frame hst1.act.cells hw.1 h2 hb
  have hc' := hc.right
  rw [← hq.ip] at hc'
  have hp := hq.sp
  have hlt : 0 < s1.sp := by omega
  have hv : VRel H.cfg H.syms.entries γ1 v (s1.stack (s1.sp - 1)) := by
    have : s1.sp - 1 = s.sp := by omega
    rw [this]; exact hq.val
  refine Post.bind (sim_store hH hst1.act hst1.ok hst1.openK href hc' hlt hv) ?_
  intro _ γ2 slots2 σ2 s2 hx2 hq2
  obtain ⟨rfl, rfl, hs2, hsp2, hip2, hok2, hk2⟩ := hq2
  apply Post.pure'
  have hn : slots2 s.sp = none := hst.slotNone (Nat.le_refl _)
  exact ⟨rfl, fun i hi hn => (hs2 i hn).trans (hq.same i hi hn), hsp2.trans hq.sp,
    by rw [hip2, hq.ip]; simp; omega, by rw [hs2 _ hn]; exact hq.val, hok2, hk2⟩

/-- Operators with two operands. -/
theorem sim_two (a b : Node) (ha : SimE H S call W B a) (hb : SimE H S call W B b)
    {al : Bool} {A : Act} {K : Nat → Prop} {γ slots : LocMap} {g ga g' : GState} {env : SEnv} {σ : SSt D} {s : VM D}
    {ca cb : Code} {i : Instr} {sp : Span} (h1 : genNode H.cfg true .expr a g = .ok ((), ca, ga))
    (h2 : genNode H.cfg true .expr b ga = .ok ((), cb, g')) (hwa : a.wf al = true) (hwb : b.wf false = true)
    (hbd : Bound H A K g') (hc : CodeAt A.fn s.frame.ip (ca ++ (cb ++ [.at' i sp])))
    (hst : St H A K γ slots g env σ s) (hal : al = true → s.sp = A.st + g.cur.locals.length)
    (hi : ∀ k us, i ≠ .createClosure k us) (f : SVal → SVal → SM D SVal) (r' : VM D → VVal → VVal → Res VVal)
    (hf : ∀ γ' (s' : VM D) x y x' y', VRel H.cfg H.syms.entries γ' x x' → VRel H.cfg H.syms.entries γ' y y' →
      f x y = SM.incomparable ∨ ∃ r, f x y = SM.lift r sp ∧ Res.Rel (VRel H.cfg H.syms.entries γ') r (r' s' x' y'))
    (hx : ∀ s' : VM D, 2 ≤ s'.sp →
      match r' s' (s'.stack (s'.sp - 2)) (s'.stack (s'.sp - 1)) with
      | .ok w => s'.exec H i = .next (s'.repl 2 w)
      | .err e => ∃ n, s'.exec H i = { s' with sp := n }.err1 e
      | .panic => s'.exec H i = .panic) :
    Post H A B K γ slots s ((evalNode S call W a env >>= fun x => evalNode S call W b env >>= fun y => f x y) σ)
      (EQ H K slots s (s.frame.ip + Code.len (ca ++ (cb ++ [.at' i sp])))) := by
  have e1 := (ext_node H.cfg true a .expr hst.inv h1).e
  have f1 := free_node H.cfg true a .expr al hwa hst.free h1
  have e2 := (ext_node H.cfg true b .expr e1.2 h2).e
  have f2 := free_node H.cfg true b .expr false hwb f1 h2
  refine Post.bind (ha h1 hwa (hbd.back e2.1.ext) hc.left hst hal) ?_
  intro x γ1 slots1 σ1 s1 hx1 hq1
  obtain rfl := hq1.eqSlots
  have hst1 := hst.nextE e1 f1 hx1 hq1
  have hc1 := hc.right
  rw [← hq1.ip] at hc1
  refine Post.bind (hb h2 hwb hbd hc1.left hst1 (by simp)) ?_
  intro y γ2 slots2 σ2 s2 hx2 hq2
  obtain rfl := hq2.eqSlots
  have hst2 := hst1.nextE e2 f2 hx2 hq2
  have hc2 := hc1.right
  rw [← hq2.ip] at hc2
  have hp1 := hq1.sp
  have hp2 := hq2.sp
  have hs1 : slots2 s.sp = none := hst.slotNone (Nat.le_refl _)
  have hvx : VRel H.cfg H.syms.entries γ2 x (s2.stack (s2.sp - 2)) := by
    have : s2.sp - 2 = s.sp := by omega
    rw [this, hq2.same _ (by omega) hs1]
    exact VRel.mono hx2.cells hq1.val
  have hvy : VRel H.cfg H.syms.entries γ2 y (s2.stack (s2.sp - 1)) := by
    have : s2.sp - 1 = s1.sp := by omega
    rw [this]; exact hq2.val
  rcases hf γ2 (s2.goto (s2.frame.ip + i.enc.length)) x y _ _ hvx hvy with h | ⟨r, h, hr⟩
  · rw [h]; trivial
  · rw [h]
    have hip : s.frame.ip + Code.len (ca ++ (cb ++ [.at' i sp])) = s2.frame.ip + i.enc.length := by
      rw [hq2.ip, hq1.ip]; simp; omega
    rw [hip]
    refine Post.op (k := 2) hr ?_ hq2.ok hq2.openK (fun l loc hl => hst.slotSp hl)
      (fun j hj hn => (hq2.same j (by omega) hn).trans (hq1.same j hj hn)) (by omega) hst.le
    have hstep := step_at (H := H) hst2.act.fn hc2 (by simpa using hi)
    have hspan := span_at hst2.act.fn hc2
    have h3 := hx (s2.goto (s2.frame.ip + i.enc.length)) (by simp; omega)
    simp only [VM.goto_stack, VM.goto_sp] at h3
    simp only at hstep hspan
    split at h3
    · rename_i w hw; rw [hw]; show _ = _; rw [hstep, h3]
    · rename_i e he
      rw [he]
      obtain ⟨n, h3⟩ := h3
      unfold OpStep
      rw [hstep, h3]
      simp only [VM.err1, VM.goto_fn, VM.goto_ip, hspan]
      exact ⟨_, _, _, rfl, rfl⟩
    · rename_i hp; rw [hp]; show _ = _; rw [hstep, h3]

theorem exec_pop2 {s : VM D} (h : 2 ≤ s.sp) (k : VVal → VVal → VM D → StepR D) :
    (s.pop fun b s => s.pop fun a s => k a b s) = k (s.stack (s.sp - 2)) (s.stack (s.sp - 1)) { s with sp := s.sp - 2 } := by
  simp only [VM.pop, if_neg (show s.sp ≠ 0 by omega), if_neg (show s.sp - 1 ≠ 0 by omega)]
  rfl

theorem sim_pair (sp : Span) (a b : Node) (ha : SimE H S call W B a) (hb : SimE H S call W B b) :
    SimE H S call W B (.pair sp a b) := by
  intro al A K γ slots g g' env σ s c hg hw hbd hc hst hal
  obtain ⟨ca, ga, cb, h1, h2, rfl⟩ := gen_pair hg
  simp only [Node.wf, Bool.and_eq_true] at hw
  simp only [evalNode]
  refine sim_two a b ha hb h1 h2 hw.1 hw.2 hbd hc hst hal (by simp) (fun x y => pure (.pair x y)) (fun _ x y => .ok (.pair x y)) ?_ ?_
  · intro γ' s' x y x' y' h1 h2
    exact .inr ⟨.ok (.pair x y), rfl, h1, h2⟩
  · intro s' h
    simp only [VM.exec]
    rw [exec_pop2 h (fun a b s => .next (s.pushU (.pair a b)))]
    rfl

theorem exec_lift2 (s : VM D) (r : Res VVal) :
    match r with
    | .ok w => ({ s with sp := s.sp - 2 } : VM D).lift r (fun v => .next (VM.pushU { s with sp := s.sp - 2 } v)) = .next (s.repl 2 w)
    | .err e => ∃ n, ({ s with sp := s.sp - 2 } : VM D).lift r (fun v => .next (VM.pushU { s with sp := s.sp - 2 } v)) =
        { s with sp := n }.err1 e
    | .panic => ({ s with sp := s.sp - 2 } : VM D).lift r (fun v => .next (VM.pushU { s with sp := s.sp - 2 } v)) = .panic := by
  cases r with
  | ok w => rfl
  | err e => exact ⟨_, rfl⟩
  | panic => rfl

theorem sim_range (hH : HRel H S) (sp : Span) (a b : Node) (ha : SimE H S call W B a) (hb : SimE H S call W B b) :
    SimE H S call W B (.range sp a b) := by
  intro al A K γ slots g g' env σ s c hg hw hbd hc hst hal
  obtain ⟨ca, ga, cb, h1, h2, rfl⟩ := gen_range hg
  simp only [Node.wf, Bool.and_eq_true] at hw
  simp only [evalNode]
  refine sim_two a b ha hb h1 h2 hw.1 hw.2 hbd hc hst hal (by simp) (fun x y => SM.lift (Val.mkRange x y) sp)
    (fun _ x y => Val.mkRange x y) ?_ ?_
  · intro γ' s' x y x' y' h1 h2
    exact .inr ⟨_, rfl, Val.rel_mkRange h1 h2⟩
  · intro s' h
    simp only [VM.exec, VM.push_none hH.stack]
    rw [exec_pop2 h (fun a b s => s.lift (Val.mkRange a b) fun v => .next (s.pushU v))]
    exact exec_lift2 _ _

theorem sim_index (hH : HRel H S) (sp : Span) (e i : Node) (he : SimE H S call W B e) (hi : SimE H S call W B i) :
    SimE H S call W B (.index sp e i) := by
  intro al A K γ slots g g' env σ s c hg hw hbd hc hst hal
  obtain ⟨ca, ga, cb, h1, h2, rfl⟩ := gen_index hg
  simp only [Node.wf, Bool.and_eq_true] at hw
  simp only [evalNode]
  refine sim_two i e hi he h1 h2 hw.1 hw.2 hbd hc hst hal (by simp) (fun x y => SM.lift (Val.indexGet S.cfg.chk y x) sp)
    (fun _ x y => Val.indexGet H.cfg.chk y x) ?_ ?_
  · intro γ' s' x y x' y' h1 h2
    rw [hH.cfg]
    exact .inr ⟨_, rfl, Val.rel_indexGet _ h2 h1⟩
  · intro s' h
    simp only [VM.exec, VM.push_none hH.stack]
    rw [exec_pop2 h (fun i e s => s.lift (Val.indexGet H.cfg.chk e i) fun v => .next (s.pushU v))]
    exact exec_lift2 _ _

theorem sim_bin (hH : HRel H S) (sp : Span) (op : Op) (a b : Node) (ha : SimE H S call W B a) (hb : SimE H S call W B b) :
    SimE H S call W B (.bin sp op a b) := by
  intro al A K γ slots g g' env σ s c hg hw hbd hc hst hal
  obtain ⟨ca, ga, cb, h1, h2, hop, rfl⟩ := gen_bin hg
  simp only [Node.wf, Bool.and_eq_true] at hw
  simp only [evalNode]
  refine sim_two a b ha hb h1 h2 hw.1 hw.2 hbd hc hst hal (by simp) (fun x y => evalBin S op sp x y)
    (fun s x y => Val.binary H.cfg H.opts.lim (s.ceq H) op x y) ?_ ?_
  · intro γ' s' x y x' y' h1 h2
    by_cases h3 : op = .eq
    · subst h3
      simp only [evalBin, eqVals, hH.cfg]
      cases he : Val.eqv H.cfg.F (fun _ _ => none) x y with
      | none => exact .inl rfl
      | some r =>
        refine .inr ⟨.ok (.bool r), rfl, ?_⟩
        have := Val.Rel.eqv H.cfg.F (s'.ceq H) h1 h2 he
        simp [Val.binary, Val.equal, this, Res.Rel, Val.Rel]
    · by_cases h4 : op = .neq
      · subst h4
        simp only [evalBin, eqVals, hH.cfg]
        cases he : Val.eqv H.cfg.F (fun _ _ => none) x y with
        | none => exact .inl rfl
        | some r =>
          refine .inr ⟨.ok (.bool !r), rfl, ?_⟩
          have := Val.Rel.eqv H.cfg.F (s'.ceq H) h1 h2 he
          simp [Val.binary, Val.notEqual, this, Res.Rel, Val.Rel]
      · have : evalBin S op sp x y = SM.lift (Val.binary S.cfg S.lim (fun _ _ => none) op x y) sp := by
          cases op <;> first | exact absurd rfl h3 | exact absurd rfl h4 | rfl
        rw [this, hH.cfg, hH.lim]
        exact .inr ⟨_, rfl, Val.rel_binary _ _ _ _ op h3 h4 h1 h2⟩
  · intro s' h
    simp only [VM.exec]
    rw [exec_pop2 h (fun a b s => s.lift (Val.binary H.cfg H.opts.lim (s.ceq H) op a b) fun v => .next (s.pushU v))]
    exact exec_lift2 _ _

theorem fold_sound (cfg : Cfg) (op : Op) (e : Node) (l : Literal) (hS : S.cfg = cfg)
    (h : foldUnary cfg op e = some (.ok l)) :
    ∃ sp0 l0, e = .lit sp0 l0 ∧ (l0.toVal : SVal).unary S.cfg op = .ok l.toVal := by
  unfold foldUnary at h
  split at h
  · rename_i sp0 n
    refine ⟨sp0, _, rfl, ?_⟩
    simp only [Option.some.injEq] at h
    split at h
    · cases h
    · rename_i hn
      simp only [Res.ok.injEq] at h
      subst h
      rw [hS]
      have hneg : BitVec.ofInt 64 (-n.toInt) = -n := by
        rw [BitVec.ofInt_neg, BitVec.ofInt_toInt]
      simp only [Literal.toVal, Val.unary, Val.negate, wrapI, hneg]
      by_cases hm : n = BitVec.intMin 64
      · have hc : cfg.chk = false := by
          cases hc : cfg.chk with
          | false => rfl
          | true => exact absurd ⟨hm, hc⟩ hn
        simp [hc]
      · have h1 := BitVec.le_toInt n
        have h2 := @BitVec.toInt_lt 64 n
        have h3 : n.toInt ≠ -2 ^ 63 := by
          intro h3
          apply hm
          apply BitVec.eq_of_toInt_eq
          rw [h3]; decide
        rw [if_pos]
        simp at h1 h2 h3 ⊢
        omega
  · rename_i sp0 n
    refine ⟨sp0, _, rfl, ?_⟩
    simp only [Option.some.injEq, Res.ok.injEq] at h
    subst h
    simp [Literal.toVal, Val.unary, Val.negate, hS]
  · rename_i sp0 n
    refine ⟨sp0, _, rfl, ?_⟩
    simp only [Option.some.injEq, Res.ok.injEq] at h
    subst h
    simp [Literal.toVal, Val.unary, Val.lnot]
  · cases h

theorem sim_un (hH : HRel H S) (sp : Span) (op : Op) (e : Node) (he : SimE H S call W B e) :
    SimE H S call W B (.un sp op e) := by
  intro al A K γ slots g g' env σ s c hg hw hbd hc hst hal
  simp only [Node.wf] at hw
  simp only [evalNode]
  rcases gen_un hg with ⟨l, i, hf, hi, rfl⟩ | ⟨ce, h1, hop, rfl⟩
  · obtain ⟨sp0, l0, rfl, h0⟩ := fold_sound H.cfg op e l hH.cfg hf
    have : (evalNode S call W (.lit sp0 l0) env >>= fun v => SM.lift (v.unary S.cfg op) sp) σ =
        evalNode S call W (.lit sp l) env σ := by
      simp only [evalNode]
      show SM.lift ((l0.toVal : SVal).unary S.cfg op) sp σ = _
      rw [h0]; rfl
    rw [this]
    have hs : ∀ l loc, slots l = some loc → l < s.sp := fun l loc hl => hst.slotSp hl
    refine Post.op (r := .ok l.toVal) (r' := .ok l.toVal) (sp := sp) (k := 0) (p := _) (Val.Rel.toVal l) ?_ hst.ok hst.openK hs (fun _ _ _ => rfl) rfl hst.le
    show _ = _
    rw [step_at hst.act.fn hc (by simp)]
    have := addConst_id hst.inv hi hbd.consts hbd.constsLen
    simp [VM.exec, hst.act.fn, this, VM.push_none hH.stack, VM.repl, VM.pushU]
  · have e1 := (ext_node H.cfg true e .expr hst.inv h1).e
    have f1 := free_node H.cfg true e .expr al hw hst.free h1
    refine Post.bind (he h1 hw hbd hc.left hst hal) ?_
    intro x γ1 slots1 σ1 s1 hx1 hq1
    obtain rfl := hq1.eqSlots
    have hst1 := hst.nextE e1 f1 hx1 hq1
    have hc1 := hc.right
    rw [← hq1.ip] at hc1
    have hp1 := hq1.sp
    have hip : s.frame.ip + Code.len (ce ++ [.at' (.unary op) sp]) = s1.frame.ip + (Instr.unary op).enc.length := by
      rw [hq1.ip]; simp; omega
    rw [hip, hH.cfg]
    refine Post.op (k := 1) (Val.rel_unary H.cfg op hq1.val) ?_ hq1.ok hq1.openK (fun l loc hl => hst.slotSp hl) hq1.same (by omega) hst.le
    have hstep := step_at (H := H) hst1.act.fn hc1 (by simp)
    have hspan := span_at hst1.act.fn hc1
    have hsp : s1.sp - 1 = s.sp := by omega
    have h0 : s1.sp ≠ 0 := by omega
    cases hr : (s1.stack s.sp).unary H.cfg op with
    | ok w =>
      show _ = _
      rw [hstep]
      simp only [VM.exec, VM.pop, VM.goto_sp, VM.goto_stack, h0, if_false, hsp, hr, VM.lift, VM.repl, VM.pushU]
    | err e =>
      unfold OpStep
      rw [hstep]
      simp only [VM.exec, VM.pop, VM.goto_sp, VM.goto_stack, h0, if_false, hsp, hr, VM.lift, VM.err1, VM.goto_fn, VM.goto_ip, hspan]
      exact ⟨_, _, _, rfl, rfl⟩
    | panic =>
      show _ = _
      rw [hstep]
      simp only [VM.exec, VM.pop, VM.goto_sp, VM.goto_stack, h0, if_false, hsp, hr, VM.lift]

/-! ## Lists of expressions -/

theorem sim_args_nil : SimArgs H S call W B [] := by
  intro al A K γ slots g g' env σ s c hg hw hbd hc hst hal
  obtain ⟨rfl, rfl⟩ := genArgs_nil hg
  simp only [evalArgs]
  apply Post.pure'
  exact ⟨rfl, fun _ _ _ => rfl, by simp, by simp, by simp [seg, Val.RelL], hst.ok, hst.openK⟩

theorem sim_args_cons (n : Node) (ns : List Node) (hn : SimE H S call W B n) (hns : SimArgs H S call W B ns) :
    SimArgs H S call W B (n :: ns) := by
  intro al A K γ slots g g' env σ s c hg hw hbd hc hst hal
  obtain ⟨c1, g1, c2, h1, h2, rfl⟩ := genArgs_cons hg
  simp only [wfArgs, Bool.and_eq_true] at hw
  simp only [evalArgs]
  have e1 := (ext_node H.cfg true n .expr hst.inv h1).e
  have f1 := free_node H.cfg true n .expr al hw.1 hst.free h1
  have e2 := ext_args H.cfg true ns e1.2 h2
  refine Post.bind (hn h1 hw.1 (hbd.back e2.1.ext) hc.left hst hal) ?_
  intro x γ1 slots1 σ1 s1 hx1 hq1
  obtain rfl := hq1.eqSlots
  have hst1 := hst.nextE e1 f1 hx1 hq1
  have hc1 := hc.right
  rw [← hq1.ip] at hc1
  refine Post.bind (hns h2 hw.2 hbd hc1 hst1 (by simp)) ?_
  intro xs γ2 slots2 σ2 s2 hx2 hq2
  obtain rfl := hq2.eqSlots
  apply Post.pure'
  have hp1 := hq1.sp
  have hp2 := hq2.sp
  refine ⟨rfl, fun j hj hn => (hq2.same j (by omega) hn).trans (hq1.same j hj hn), by simp; omega,
    by rw [hq2.ip, hq1.ip]; simp; omega, ?_, hq2.ok, hq2.openK⟩
  simp only [List.length_cons, seg_succ, Val.RelL]
  refine ⟨?_, by rw [← hp1]; exact hq2.val⟩
  rw [hq2.same _ (by omega) (hst.slotNone (Nat.le_refl _))]
  exact VRel.mono hx2.cells hq1.val

theorem sim_rev_nil : SimRev H S call W B [] := by
  intro al A K γ slots g g' env σ s c hg hw hbd hc hst hal
  obtain ⟨rfl, rfl⟩ := genRev_nil hg
  simp only [evalRev]
  apply Post.pure'
  exact ⟨rfl, fun _ _ _ => rfl, by simp, by simp, by simp [seg, Val.RelL], hst.ok, hst.openK⟩

theorem sim_rev_cons (n : Node) (ns : List Node) (hn : SimE H S call W B n) (hns : SimRev H S call W B ns)
    (hlen : ∀ (env : SEnv) (σ σ' : SSt D) vs, evalRev S call W ns env σ = (.ok vs, σ') → vs.length = ns.length) :
    SimRev H S call W B (n :: ns) := by
  intro al A K γ slots g g' env σ s c hg hw hbd hc hst hal
  obtain ⟨c1, g1, c2, h1, h2, rfl⟩ := genRev_cons hg
  simp only [wfRev, Bool.and_eq_true] at hw
  simp only [evalRev]
  have e1 := ext_rev H.cfg true ns hst.inv h1
  have f1 := free_rev H.cfg true ns al hw.1 hst.free h1
  have e2 := (ext_node H.cfg true n .expr e1.2 h2).e
  refine Post.bind_eq (hns h1 hw.1 (hbd.back e2.1.ext) hc.left hst hal) ?_
  intro xs γ1 slots1 σ1 s1 hev hx1 hq1
  obtain rfl := hq1.eqSlots
  have hst1 := hst.nextEs e1 f1 hx1 hq1
  have hc1 := hc.right
  rw [← hq1.ip] at hc1
  have hl := hlen _ _ _ _ hev
  have hp1 := hq1.sp
  simp only [List.length_reverse] at hp1
  refine Post.bind (hn h2 hw.2 hbd hc1 hst1 ?_) ?_
  · intro h
    simp only [Bool.and_eq_true, List.isEmpty_iff] at h
    obtain ⟨ha, rfl⟩ := h
    have := hal ha
    have hlo := e1.1.locals
    obtain ⟨old, k1, k2⟩ := hlo
    simp at k1
    rw [k1, ← k2.length_eq]
    simp at hl
    rw [hl] at hp1
    simp at hp1
    omega
  intro x γ2 slots2 σ2 s2 hx2 hq2
  obtain rfl := hq2.eqSlots
  apply Post.pure'
  have hp2 := hq2.sp
  refine ⟨rfl, fun j hj hn => (hq2.same j (by omega) hn).trans (hq1.same j hj hn), by simp; omega,
    by rw [hq2.ip, hq1.ip]; simp; omega, ?_, hq2.ok, hq2.openK⟩
  simp only [List.reverse_cons, List.length_append, List.length_cons, List.length_nil, List.length_reverse, seg_snoc, Nat.zero_add]
  refine Val.RelL.append ?_ ?_
  · have : seg s2.stack s.sp xs.length = seg s1.stack s.sp xs.length := by
      apply seg_congr
      intro i h1 h2
      exact hq2.same i (by omega) (hst.slotNone h1)
    rw [this]
    have hv := hq1.val
    simp only [List.length_reverse] at hv
    exact Val.RelL.mono (fun _ _ => CRel.mono hx2.cells) hv
  · simp only [Val.RelL, and_true]
    rw [← hp1]; exact hq2.val

theorem topN_eq (s : VM D) {n : Nat} (h : n ≤ s.sp) : s.topN n = (seg s.stack (s.sp - n) n).reverse := by
  apply List.ext_getElem
  · simp [VM.topN]
  · intro i h1 h2
    simp only [VM.topN, List.length_map, List.length_range] at h1
    simp [VM.topN, seg]
    congr 1; omega

theorem sim_array (hH : HRel H S) (sp : Span) (items : List Node) (hi : SimRev H S call W B items)
    (hlen : ∀ (env : SEnv) (σ σ' : SSt D) vs, evalRev S call W items env σ = (.ok vs, σ') → vs.length = items.length) :
    SimE H S call W B (.array sp items) := by
  intro al A K γ slots g g' env σ s c hg hw hbd hc hst hal
  obtain ⟨ca, hle, h1, rfl⟩ := gen_array hg
  simp only [Node.wf] at hw
  simp only [evalNode]
  have e1 := ext_rev H.cfg true items hst.inv h1
  have f1 := free_rev H.cfg true items al hw hst.free h1
  refine Post.bind_eq (hi h1 hw hbd hc.left hst hal) ?_
  intro xs γ1 slots1 σ1 s1 hev hx1 hq1
  obtain rfl := hq1.eqSlots
  have hst1 := hst.nextEs e1 f1 hx1 hq1
  have hc1 := hc.right
  rw [← hq1.ip] at hc1
  have hl := hlen _ _ _ _ hev
  have hp1 := hq1.sp
  simp only [List.length_reverse] at hp1
  have hip : s.frame.ip + Code.len (ca ++ [.at' (.createArray items.length) sp]) =
      s1.frame.ip + (Instr.createArray items.length).enc.length := by
    rw [hq1.ip]; simp; omega
  rw [hip, hH.lim]
  have hv : Val.RelL (CRel H.cfg H.syms.entries γ1) xs (s1.topN items.length) := by
    rw [topN_eq _ (by omega)]
    have := hq1.val.reverse
    simp only [List.reverse_reverse, List.length_reverse] at this
    rw [← hl]
    have h2 : s1.sp - xs.length = s.sp := by omega
    rw [h2]; exact this
  refine Post.op (k := items.length) (Val.rel_mkArray H.opts.lim hv) ?_ hq1.ok hq1.openK (fun l loc hl => hst.slotSp hl) hq1.same (by omega) hst.le
  have hstep := step_at (H := H) hst1.act.fn hc1 (by simp)
  have hspan := span_at hst1.act.fn hc1
  have h0 : ¬ s1.sp < items.length := by omega
  have ht : (s1.goto (s1.frame.ip + (Instr.createArray items.length).enc.length)).topN items.length = s1.topN items.length := rfl
  cases hr : Val.mkArray H.opts.lim (s1.topN items.length) with
  | ok w =>
    show _ = _
    rw [hstep]
    simp only [VM.exec, VM.goto_sp, h0, if_false, ht, hr, VM.lift, VM.push_none hH.stack, VM.repl, VM.pushU]
  | err e =>
    unfold OpStep
    rw [hstep]
    simp only [VM.exec, VM.goto_sp, h0, if_false, ht, hr, VM.lift, VM.err1, VM.goto_fn, VM.goto_ip, hspan]
    exact ⟨_, _, _, rfl, rfl⟩
  | panic =>
    show _ = _
    rw [hstep]
    simp only [VM.exec, VM.goto_sp, h0, if_false, ht, hr, VM.lift]

end

end Quilt
