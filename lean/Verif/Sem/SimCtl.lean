import Verif.Sem.SimStmt

/-!
# Simulation: conditionals, `switch`, `while`
-/

namespace Quilt
variable {D : Type}

section
variable {H : Host D} {S : SHost D} {call : SClos → List SVal → SM D SVal} {W : Nat} {B : Bd}
  {A : Act} {K : Nat → Prop} {γ slots : LocMap} {g g' : GState} {env : SEnv} {σ : SSt D} {s s0 : VM D} {v : SVal} {ip : Nat}

theorem St.goto (h : St H A K γ slots g env σ s) (p : Nat) : St H A K γ slots g env σ (s.goto p) :=
  ⟨h.inv, h.free, ⟨h.act.fn, h.act.ups, h.act.st, h.act.cells⟩, h.frame, h.ok, h.openK, h.le⟩

theorem EQ.from {γ' slots' : LocMap} {σ' : SSt D} {s' s4 : VM D} (h : EQ H K slots s4 ip v γ' slots' σ' s') (hsp : s4.sp = s0.sp)
    (hsame : ∀ i, i < s0.sp → slots i = none → s4.stack i = s0.stack i) : EQ H K slots s0 ip v γ' slots' σ' s' :=
  ⟨h.eqSlots, fun i hi hn => (h.same i (by omega) hn).trans (hsame i hi hn), by rw [h.sp, hsp], h.ip, by rw [← hsp]; exact h.val,
    h.ok, h.openK⟩

theorem EQ.goto {γ' slots' : LocMap} {σ' : SSt D} {s' : VM D} (h : EQ H K slots s0 ip v γ' slots' σ' s') (p : Nat) :
    EQ H K slots s0 p v γ' slots' σ' (s'.goto p) :=
  ⟨h.eqSlots, h.same, h.sp, rfl, h.val, h.ok, h.openK⟩

theorem Ext.goto (st : Nat) (γ slots : LocMap) (s : VM D) (p : Nat) : Ext st γ slots s γ slots (s.goto p) :=
  ⟨γ.le_refl, fun _ _ => rfl, rfl, rfl, rfl, rfl, rfl, fun _ _ _ => rfl⟩

/-- A jump forward. -/
theorem jump_step {o : Nat} {sp : Span} {rest : Code} (hfn : s.frame.fn = A.fn)
    (hc : CodeAt A.fn s.frame.ip (.at' (.jumpForward o) sp :: rest)) : s.step H = .next (s.goto (s.frame.ip + 3 + o)) := by
  rw [step_at hfn hc (by simp)]
  simp [VM.exec, VM.goto, Instr.enc, u16le]

/-- A jump backward. -/
theorem jumpBack_step {o : Nat} {sp : Span} {rest : Code} (hfn : s.frame.fn = A.fn)
    (hc : CodeAt A.fn s.frame.ip (.at' (.jumpBackward o) sp :: rest)) (ho : o ≤ s.frame.ip + 3) :
    s.step H = .next (s.goto (s.frame.ip + 3 - o)) := by
  rw [step_at hfn hc (by simp)]
  have : ¬ s.frame.ip + 3 < o := by omega
  simp [VM.exec, VM.goto, Instr.enc, u16le, this]

/-- Dropping temporaries. -/
theorem popMany_step {k : Nat} {sp : Span} {rest : Code} (hfn : s.frame.fn = A.fn)
    (hc : CodeAt A.fn s.frame.ip (.at' (.popMany k) sp :: rest)) (hk : k ≤ s.sp) :
    s.step H = .next { s.goto (s.frame.ip + 3) with sp := s.sp - k } := by
  rw [step_at hfn hc (by simp)]
  have : ¬ s.sp < k := by omega
  simp [VM.exec, Instr.enc, u16le, this]

theorem pop_step {sp : Span} {rest : Code} (hfn : s.frame.fn = A.fn)
    (hc : CodeAt A.fn s.frame.ip (.at' .pop sp :: rest)) (hk : 1 ≤ s.sp) :
    s.step H = .next { s.goto (s.frame.ip + 1) with sp := s.sp - 1 } := by
  rw [step_at hfn hc (by simp)]
  have : ¬ s.sp = 0 := by omega
  simp [VM.exec, VM.pop, Instr.enc, this]

/-- After the value comes a jump to the end. -/
theorem EQ.jump {γ' slots' : LocMap} {σ' : SSt D} {s' : VM D} (h : EQ H K slots s0 ip v γ' slots' σ' s') (hfn : s'.frame.fn = A.fn) {o : Nat} {sp : Span}
    {rest : Code} (hc : CodeAt A.fn ip (.at' (.jumpForward o) sp :: rest)) :
    Post H A B K γ' slots' s' ((.ok v, σ') : Out SVal × SSt D) (EQ H K slots s0 (ip + 3 + o)) := by
  rw [← h.ip] at hc
  have := jump_step (H := H) hfn hc
  rw [h.ip] at this
  exact ⟨γ', slots', _, (Reach.step this).mono (by omega), Ext.goto _ _ _ _ _, h.goto _⟩

/-- A conditional jump. -/
theorem sim_truthy (hH : HRel H S) (hst : St H A K γ slots g env σ s) {o : Nat} {sp : Span} {rest : Code}
    (hc : CodeAt A.fn s.frame.ip (.at' (.jumpIfFalse o) sp :: rest)) (hsp : 0 < s.sp)
    (hv : VRel H.cfg H.syms.entries γ v (s.stack (s.sp - 1))) :
    Post H A B K γ slots s (truthy S sp v σ) (fun b γ' slots' σ' s' => γ' = γ ∧ slots' = slots ∧ σ' = σ ∧
      s' = s.goto (s.frame.ip + 3 + if b then 0 else o)) := by
  have hstep := step_at (H := H) hst.act.fn hc (by simp)
  have hspan := span_at hst.act.fn hc
  have h0 : ¬ s.sp = 0 := by omega
  have ht := Val.Rel.isTruthy H.cfg.F hv
  simp only [VM.exec, VM.goto_sp, h0, if_false, VM.goto_stack, ← ht] at hstep
  unfold truthy
  rw [hH.cfg]
  cases hr : v.isTruthy H.cfg.F with
  | ok b =>
    rw [hr] at hstep
    simp only [VM.lift] at hstep
    refine ⟨γ, slots, s.goto (s.frame.ip + 3 + if b then 0 else o), (Reach.step (hstep.trans ?_)).mono (Nat.zero_le _),
      Ext.goto _ _ _ _ _, rfl, rfl, rfl, rfl⟩
    cases b <;> simp [VM.goto, Instr.enc, u16le]
  | err e =>
    rw [hr] at hstep
    simp only [VM.lift, VM.err1, VM.goto_fn, VM.goto_ip, hspan] at hstep
    exact Post.err hstep (fun x hx => by cases hx; rfl) hst.ok
  | panic =>
    rw [hr] at hstep
    exact Post.panic hstep

/-- Evaluation continues without the top `k` temporaries. -/
theorem St.drop {k p : Nat} (h : St H A K γ slots g env σ s) (hs : ∀ l loc, slots l = some loc → l < s.sp - k) (hle : A.st ≤ s.sp - k) :
    St H A K γ slots g env σ { s.goto p with sp := s.sp - k } :=
  h.quiet (lo := s.sp - k) ⟨rfl, rfl, rfl, rfl, rfl, rfl, rfl, rfl, rfl, rfl, rfl, fun _ _ => rfl⟩ hle
    fun l loc hl => ⟨hs l loc hl, hs l loc hl⟩

theorem Ext.drop (st : Nat) (γ slots : LocMap) (s : VM D) (p q : Nat) : Ext st γ slots s γ slots { s.goto p with sp := q } :=
  ⟨γ.le_refl, fun _ _ => rfl, rfl, rfl, rfl, rfl, rfl, fun _ _ _ => rfl⟩

/-- A state `s` with `k` temporaries on top of those of `s0`. -/
structure Above (slots : LocMap) (A : Act) (k : Nat) (s0 s : VM D) : Prop where
  sp : s.sp = s0.sp + k
  slot : ∀ l loc, slots l = some loc → l < s0.sp
  same : ∀ i, i < s0.sp → slots i = none → s.stack i = s0.stack i
  le : A.st ≤ s0.sp

end

/-- The code of a block simulates it, possibly after dropping temporaries. -/
def SimElse (H : Host D) (S : SHost D) (call : SClos → List SVal → SM D SVal) (W : Nat) (B : Bd) (el : Option (List Node)) : Prop :=
  ∀ ⦃al : Bool⦄ ⦃A : Act⦄ ⦃K : Nat → Prop⦄ ⦃γ slots : LocMap⦄ ⦃g g' : GState⦄ ⦃env : SEnv⦄ ⦃σ : SSt D⦄ ⦃s0 s : VM D⦄ ⦃c : Code⦄ ⦃sp : Span⦄,
    genElse H.cfg true sp el g = .ok ((), c, g') → wfOpt al el = true → Bound H A K g' → CodeAt A.fn s.frame.ip c →
    St H A K γ slots g env σ s → Above slots A 2 s0 s → s.stack s0.sp = .none → (al = true → s0.sp = A.st + g.cur.locals.length) →
    Post H A B K γ slots s (evalOpt S call W el env σ) (EQ H K slots s0 (s.frame.ip + c.len))

/-- The code of the cases and the default of a `switch` simulates them. -/
def SimCases (H : Host D) (S : SHost D) (call : SClos → List SVal → SM D SVal) (W : Nat) (B : Bd) (cs : List (Node × List Node)) : Prop :=
  ∀ ⦃dflt : Option (List Node)⦄, SimElse H S call W B dflt →
  ∀ ⦃al : Bool⦄ ⦃A : Act⦄ ⦃K : Nat → Prop⦄ ⦃γ slots : LocMap⦄ ⦃g gp g' : GState⦄ ⦃env : SEnv⦄ ⦃σ : SSt D⦄ ⦃s0 s : VM D⦄ ⦃cx d : Code⦄ ⦃sp : Span⦄
    ⦃ps : List (Code × Span)⦄ ⦃v : SVal⦄,
    genCases H.cfg true cs g = .ok (ps, cx, gp) → genElse H.cfg true sp dflt gp = .ok ((), d, g') → wfCases al cs = true → wfOpt al dflt = true →
    Bound H A K g' → CodeAt A.fn s.frame.ip (GM.assemble ps d) →
    St H A K γ slots g env σ s → Above slots A 2 s0 s → s.stack s0.sp = .none → VRel H.cfg H.syms.entries γ v (s.stack (s0.sp + 1)) →
    (al = true → s0.sp = A.st + g.cur.locals.length) →
    Post H A B K γ slots s (evalCases S call W cs v env (evalOpt S call W dflt env) σ) (EQ H K slots s0 (s.frame.ip + (GM.assemble ps d).len))

section
variable {H : Host D} {S : SHost D} {call : SClos → List SVal → SM D SVal} {W : Nat} {B : Bd}

theorem sim_else_none : SimElse H S call W B none := by
  intro al A K γ slots g g' env σ s0 s c sp hg hw hbd hc hst hab hnone hal
  obtain ⟨rfl, rfl⟩ := genElse_none hg
  simp only [evalOpt]
  have hsp := hab.sp
  have h1 := pop_step (H := H) hst.act.fn hc (by omega)
  refine Post.of_reach (Reach.step h1) (Ext.drop _ _ _ _ _ _) Bd.succ (Post.pure' ⟨rfl, hab.same, ?_, ?_, ?_, ?_, ?_⟩)
  · show s.sp - 1 = _; omega
  · simp [Instr.enc]
  · show VRel _ _ _ _ (s.stack s0.sp); rw [hnone]; simp [VRel, Val.Rel]
  · exact (hst.drop (k := 1) (p := s.frame.ip + 1) (fun l loc hl => by have := hab.slot l loc hl; omega) (by have := hab.le; omega)).ok
  · exact hst.openK

theorem sim_else_some (hH : HRel H S) {body : List Node} (hb : SimS H S call W B body) : SimElse H S call W B (some body) := by
  intro al A K γ slots g g' env σ s0 s c sp hg hw hbd hc hst hab hnone hal
  obtain ⟨c1, h1, rfl⟩ := genElse_some hg
  simp only [evalOpt]
  have hsp := hab.sp
  have h2 := popMany_step (H := H) hst.act.fn hc (by omega)
  have hst1 := hst.drop (k := 2) (p := s.frame.ip + 3) (fun l loc hl => by have := hab.slot l loc hl; omega) (by have := hab.le; omega)
  have e : s.sp - 2 = s0.sp := by omega
  have hc1 := hc.tail
  refine Post.of_reach (Reach.step h2) (Ext.drop _ _ _ _ _ _) Bd.succ ?_
  refine (sim_inScope hH hb h1 (by simpa [wfOpt] using hw) hbd hc1 hst1 (by intro ha; show s.sp - 2 = _; rw [e]; exact hal ha)).imp ?_
  intro a γ' slots' σ' s' _ hq
  have := hq.from (s0 := s0) e hab.same
  simpa [Instr.enc, u16le, Nat.add_assoc] using this

theorem sim_cond (hH : HRel H S) (sp : Span) (cn : Node) (th : List Node) (el : Option (List Node)) (hcn : SimE H S call W B cn)
    (hth : SimS H S call W B th) (hel : SimElse H S call W B el) : SimE H S call W B (.cond sp cn th el) := by
  intro al A K γ slots g g' env σ s c hg hw hbd hc hst hal
  obtain ⟨cc, gc, a, ga, b, h1, h2, h3, _, _, rfl⟩ := gen_cond hg
  simp only [Node.wf, Bool.and_eq_true] at hw
  obtain ⟨⟨hw1, hw2⟩, hw3⟩ := hw
  simp only [evalNode]
  have e1 := (ext_node H.cfg true cn .expr hst.inv h1).e
  have f1 := free_node H.cfg true cn .expr false hw1 hst.free h1
  have e2 := step_inScope e1.2 (fun h h' => ext_stmts H.cfg true th h h') h2
  have f2 := free_inScope f1 (fun h h' => free_stmts H.cfg true th al hw2 h h') h2
  have e3 := ext_else H.cfg true el e2.2 h3
  have hl1 := GExtE.len e1.1
  have hl2 := GExtE.len e2.1
  obtain ⟨γ0, slots0, s1, r1, x1, q1⟩ := sim_loadNone (B := B) hH hc hst
  obtain rfl := q1.eqSlots
  have hst1 := hst.nextE (StepE.refl hst.inv) hst.free x1 q1
  have hc1 := hc.tail
  have hi1 : s1.frame.ip = s.frame.ip + 1 := q1.ip
  rw [show s.frame.ip + (Piece.at' Instr.loadNone sp).i.enc.length = s1.frame.ip by rw [hi1]; rfl] at hc1
  refine Post.of_reach r1 x1 Bd.refl (Post.bind (hcn h1 hw1 (hbd.back (e2.trans e3).1.ext) hc1.left hst1 (by simp)) ?_)
  intro x γ2 slots2 σ2 s2 x2 q2
  obtain rfl := q2.eqSlots
  have hst2 := hst1.nextE e1 f1 x2 q2
  have hc2 := hc1.right
  rw [← q2.ip] at hc2
  have hp1 := q1.sp
  have hp2 := q2.sp
  have hv2 := q2.val
  have hs2 : s2.sp - 1 = s1.sp := by omega
  refine Post.bind (sim_truthy hH hst2 hc2 (by omega) (by rw [hs2]; exact hv2)) ?_
  intro bb γ3 slots3 σ3 s3 x3 q3
  obtain ⟨rfl, rfl, rfl, rfl⟩ := q3
  have hab : Above slots3 A 2 s (s2.goto (s2.frame.ip + 3 + if bb then 0 else a.len + 6)) :=
    ⟨by show s2.sp = _; omega, fun l loc hl => hst.slotSp hl, fun i hi hn => (q2.same i (by omega) hn).trans (q1.same i hi hn), hst.le⟩
  have hlen : s.frame.ip + Code.len (.at' .loadNone sp :: (cc ++ (.at' (.jumpIfFalse (a.len + 6)) sp :: .at' (.popMany 2) sp ::
        (a ++ (.at' (.jumpForward b.len) sp :: b))))) = s2.frame.ip + 3 + 3 + a.len + 3 + b.len := by
    rw [q2.ip, hi1]; simp [Instr.enc, u16le]; omega
  rw [hlen]
  have hc3 := hc2.tail
  have hc4 := hc3.tail
  have hc5 := hc4.right
  cases bb with
  | true =>
    simp only [if_true, Nat.add_zero] at x3 hab ⊢
    have hst3 := hst2.goto (s2.frame.ip + 3)
    have h4 := popMany_step (H := H) hst3.act.fn hc3 (by show _ ≤ s2.sp; omega)
    have hst4 := hst3.drop (k := 2) (p := s2.frame.ip + 3 + 3) (fun l loc hl => by have := hab.slot l loc hl; show _ < s2.sp - 2; omega) (by have := hab.le; show _ ≤ s2.sp - 2; omega)
    refine Post.of_reach (Reach.step h4) (Ext.drop _ _ _ _ _ _) Bd.succ ?_
    refine (sim_inScope hH hth h2 hw2 (hbd.back e3.1.ext) hc4.left hst4 ?_).andThen ?_
    · intro ha; have := hal ha; show s2.sp - 2 = _; omega
    intro v γ4 slots4 σ4 s4 x4 q4
    have q5 := q4.from (s0 := s) (by show s2.sp - 2 = _; omega) hab.same
    exact q5.jump (x4.fn.trans hst4.act.fn) hc5
  | false =>
    simp only [Bool.false_eq_true, if_false] at x3 hab ⊢
    have hst3 := (hst2.goto (s2.frame.ip + 3 + (a.len + 6))).step e2 f2
    have hc6 : CodeAt A.fn (s2.goto (s2.frame.ip + 3 + (a.len + 6))).frame.ip b := by
      have := hc5.tail
      have e : s2.frame.ip + 3 + (a.len + 6) = s2.frame.ip + (Piece.at' (Instr.jumpIfFalse (a.len + 6)) sp).i.enc.length +
        (Piece.at' (Instr.popMany 2) sp).i.enc.length + a.len + (Piece.at' (Instr.jumpForward b.len) sp).i.enc.length := by
        simp [Instr.enc, u16le]; omega
      rw [VM.goto_ip, e]; exact this
    have hnone : (s2.goto (s2.frame.ip + 3 + (a.len + 6))).stack s.sp = .none := by
      show s2.stack s.sp = _
      rw [q2.same _ (by omega) (hst.slotNone (Nat.le_refl _))]
      have := q1.val
      generalize s1.stack s.sp = w at this
      cases w <;> simp [VRel, Val.Rel] at this
      rfl
    have := hel h3 hw3 hbd hc6 hst3 hab hnone (by intro ha; have := hal ha; omega)
    have e : s2.frame.ip + 3 + 3 + a.len + 3 + b.len = (s2.goto (s2.frame.ip + 3 + (a.len + 6))).frame.ip + b.len := by
      rw [VM.goto_ip]; omega
    rw [e]; exact this

theorem VRel.none_inv {γ : LocMap} {w : VVal} (h : VRel H.cfg H.syms.entries γ .none w) : w = .none := by
  cases w <;> simp [VRel, Val.Rel] at h
  rfl

theorem genCases_code (cfg : Cfg) (strict : Bool) : ∀ (cs : List (Node × List Node)) {ps : List (Code × Span)} {c : Code} {g g' : GState},
    genCases cfg strict cs g = .ok (ps, c, g') → c = []
  | [], _, _, _, _, h => (genCases_nil h).2.1
  | (_, _) :: cs, _, _, _, _, h => by
    obtain ⟨_, _, _, _, _, _, _, _, h4, _⟩ := genCases_cons h
    exact genCases_code cfg strict cs h4

theorem sim_cases_nil : SimCases H S call W B [] := by
  intro dflt hd al A K γ slots g gp g' env σ s0 s cx d sp ps v hg hgd hw hwd hbd hc hst hab hnone hv hal
  obtain ⟨rfl, rfl, rfl⟩ := genCases_nil hg
  simp only [evalCases]
  exact hd hgd hwd hbd hc hst hab hnone hal

/-- Comparison in a `switch`. -/
theorem sim_jumpIfNotEq (hH : HRel H S) {A : Act} {K : Nat → Prop} {γ slots : LocMap} {g : GState} {env : SEnv} {σ : SSt D} {s : VM D} {v cv : SVal}
    (hst : St H A K γ slots g env σ s) {o : Nat} {sp : Span} {rest : Code}
    (hc : CodeAt A.fn s.frame.ip (.at' (.jumpIfNotEq o) sp :: rest)) (hsp : 2 ≤ s.sp)
    (hv : VRel H.cfg H.syms.entries γ v (s.stack (s.sp - 2))) (hcv : VRel H.cfg H.syms.entries γ cv (s.stack (s.sp - 1))) :
    Post H A B K γ slots s (eqVals S.cfg.F v cv σ) (fun b γ' slots' σ' s' => γ' = γ ∧ slots' = slots ∧ σ' = σ ∧
      s' = { s.goto (s.frame.ip + 3 + if b then 0 else o) with sp := s.sp - 1 }) := by
  have hstep := step_at (H := H) hst.act.fn hc (by simp)
  have h0 : ¬ s.sp < 2 := by omega
  have h1 : s.sp - 1 - 1 = s.sp - 2 := by omega
  simp only [VM.exec, VM.goto_sp, h0, if_false, VM.goto_stack, h1] at hstep
  unfold eqVals
  rw [hH.cfg]
  cases hr : Val.eqv H.cfg.F (fun _ _ => none) v cv with
  | none => trivial
  | some b =>
    generalize hq : VM.ceq H _ = q at hstep
    rw [Val.Rel.eqv H.cfg.F q hv hcv hr] at hstep
    refine ⟨γ, slots, { s.goto (s.frame.ip + 3 + if b then 0 else o) with sp := s.sp - 1 }, (Reach.step (hstep.trans ?_)).mono (Nat.zero_le _),
      Ext.drop _ _ _ _ _ _, rfl, rfl, rfl, rfl⟩
    cases b <;> simp [VM.goto, Instr.enc, u16le]

theorem sim_cases_cons (hH : HRel H S) (n : Node) (body : List Node) (cs : List (Node × List Node)) (hn : SimE H S call W B n)
    (hb : SimS H S call W B body) (hcs : SimCases H S call W B cs) : SimCases H S call W B ((n, body) :: cs) := by
  intro dflt hd al A K γ slots g gp g' env σ s0 s cx d sp ps v hg hgd hw hwd hbd hc hst hab hnone hv hal
  obtain ⟨cc, gc, b, gb, ps', h1, h2, _, h3, rfl⟩ := genCases_cons hg
  simp only [wfCases, Bool.and_eq_true] at hw
  obtain ⟨⟨hw1, hw2⟩, hw3⟩ := hw
  simp only [evalCases]
  have e1 := (ext_node H.cfg true n .expr hst.inv h1).e
  have f1 := free_node H.cfg true n .expr false hw1 hst.free h1
  have e2 := step_inScope e1.2 (fun h h' => ext_stmts H.cfg true body h h') h2
  have f2 := free_inScope f1 (fun h h' => free_stmts H.cfg true body al hw2 h h') h2
  have e3 := ext_cases H.cfg true cs e2.2 h3
  have e4 := ext_else H.cfg true dflt e3.2 hgd
  have hl1 := GExtE.len e1.1
  have hl2 := GExtE.len e2.1
  simp only [GM.assemble, List.append_assoc, List.cons_append, List.nil_append] at hc ⊢
  generalize ha : GM.assemble ps' d = rest at hc ⊢
  refine Post.bind (hn h1 hw1 (hbd.back (e2.trans (e3.trans e4)).1.ext) hc.left hst (by simp)) ?_
  intro x γ2 slots2 σ2 s2 x2 q2
  obtain rfl := q2.eqSlots
  have hst2 := hst.nextE e1 f1 x2 q2
  have hc2 := hc.right
  rw [← q2.ip] at hc2
  have hp := hab.sp
  have hp2 := q2.sp
  have hn1 : slots2 s0.sp = none := by
    cases h : slots2 s0.sp with
    | none => rfl
    | some l => have := hab.slot _ _ h; omega
  have hn2 : slots2 (s0.sp + 1) = none := by
    cases h : slots2 (s0.sp + 1) with
    | none => rfl
    | some l => have := hab.slot _ _ h; omega
  have t1 : s2.stack s0.sp = .none := by rw [q2.same _ (by omega) hn1]; exact hnone
  have t2 : VRel H.cfg H.syms.entries γ2 v (s2.stack (s0.sp + 1)) := by
    rw [q2.same _ (by omega) hn2]; exact VRel.mono x2.cells hv
  have e5 : s2.sp - 2 = s0.sp + 1 := by omega
  have e6 : s2.sp - 1 = s.sp := by omega
  refine Post.bind (sim_jumpIfNotEq hH hst2 hc2 (by omega) (by rw [e5]; exact t2) (by rw [e6]; exact q2.val)) ?_
  intro bb γ3 slots3 σ3 s3 x3 q3
  obtain ⟨rfl, rfl, rfl, rfl⟩ := q3
  have hab3 : Above slots3 A 2 s0 ({ s2.goto (s2.frame.ip + 3 + if bb then 0 else b.len + 6) with sp := s2.sp - 1 } : VM D) :=
    ⟨by show s2.sp - 1 = _; omega, hab.slot, fun i hi hn => (q2.same i (by omega) hn).trans (hab.same i hi hn), hab.le⟩
  have hlen : s.frame.ip + Code.len (cc ++ (.at' (.jumpIfNotEq (b.len + 6)) n.span :: .at' (.popMany 2) n.span ::
        (b ++ (.at' (.jumpForward rest.len) n.span :: rest)))) = s2.frame.ip + 3 + 3 + b.len + 3 + rest.len := by
    rw [q2.ip]; simp [Instr.enc, u16le]; omega
  rw [hlen]
  have hc3 := hc2.tail
  have hc4 := hc3.tail
  have hc5 := hc4.right
  have hst3 := hst2.drop (k := 1) (p := s2.frame.ip + 3 + if bb then 0 else b.len + 6)
    (fun l loc hl => by have := hab.slot l loc hl; omega) (by have := hab.le; omega)
  cases bb with
  | true =>
    simp only [if_true, Nat.add_zero] at x3 hab3 hst3 ⊢
    generalize hs3 : ({ s2.goto (s2.frame.ip + 3) with sp := s2.sp - 1 } : VM D) = s3 at x3 hab3 hst3 ⊢
    have i3 : s3.frame.ip = s2.frame.ip + 3 := by rw [← hs3]; rfl
    have p3 := hab3.sp
    have hc3' : CodeAt A.fn s3.frame.ip (.at' (.popMany 2) n.span :: (b ++ (.at' (.jumpForward rest.len) n.span :: rest))) := by rw [i3]; exact hc3
    have h4 := popMany_step (H := H) hst3.act.fn hc3' (by omega)
    have hst4 := hst3.drop (k := 2) (p := s3.frame.ip + 3) (fun l loc hl => by have := hab.slot l loc hl; omega) (by have := hab.le; omega)
    refine Post.of_reach (Reach.step h4) (Ext.drop _ _ _ _ _ _) Bd.succ ?_
    have hc4' : CodeAt A.fn (s3.frame.ip + 3) (b ++ (.at' (.jumpForward rest.len) n.span :: rest)) := by rw [i3]; exact hc4
    refine (sim_inScope hH hb h2 hw2 (hbd.back (e3.trans e4).1.ext) hc4'.left hst4 ?_).andThen ?_
    · intro ha; have := hal ha; show s3.sp - 2 = _; omega
    intro v γ4 slots4 σ4 s4 x4 q4
    have q5 := q4.from (s0 := s0) (by show s3.sp - 2 = _; omega) hab3.same
    have := q5.jump (B := B) (x4.fn.trans hst4.act.fn) (by rw [VM.goto_ip, i3]; exact hc5)
    rw [VM.goto_ip, i3] at this
    exact this
  | false =>
    simp only [Bool.false_eq_true, if_false] at x3 hab3 hst3 ⊢
    generalize hs3 : ({ s2.goto (s2.frame.ip + 3 + (b.len + 6)) with sp := s2.sp - 1 } : VM D) = s3 at x3 hab3 hst3 ⊢
    have i3 : s3.frame.ip = s2.frame.ip + 3 + (b.len + 6) := by rw [← hs3]; rfl
    have k3 : s3.stack = s2.stack := by rw [← hs3]; rfl
    have hst3 := hst3.step e2 f2
    have hc6 : CodeAt A.fn s3.frame.ip rest := by
      have := hc5.tail
      have e : s2.frame.ip + 3 + (b.len + 6) = s2.frame.ip + (Piece.at' (Instr.jumpIfNotEq (b.len + 6)) n.span).i.enc.length +
        (Piece.at' (Instr.popMany 2) n.span).i.enc.length + b.len + (Piece.at' (Instr.jumpForward rest.len) n.span).i.enc.length := by
        simp [Instr.enc, u16le]; omega
      rw [i3, e]; exact this
    subst ha
    have := hcs hd h3 hgd hw3 hwd hbd hc6 hst3 hab3 (by rw [k3]; exact t1) (by rw [k3]; exact t2) (by intro ha; have := hal ha; omega)
    have e : s2.frame.ip + 3 + 3 + b.len + 3 + (GM.assemble ps' d).len = s3.frame.ip + (GM.assemble ps' d).len := by
      rw [i3]; omega
    rw [e]; exact this

theorem sim_switch (hH : HRel H S) (sp : Span) (v : Node) (cs : List (Node × List Node)) (dflt : Option (List Node)) (hv : SimE H S call W B v)
    (hcs : SimCases H S call W B cs) (hd : SimElse H S call W B dflt) : SimE H S call W B (.switch sp v cs dflt) := by
  intro al A K γ slots g g' env σ s c hg hw hbd hc hst hal
  obtain ⟨cv, gv, ps, cx, gp, d, h1, h2, h3, _, rfl⟩ := gen_switch hg
  simp only [Node.wf, Bool.and_eq_true] at hw
  obtain ⟨⟨hw1, hw2⟩, hw3⟩ := hw
  simp only [evalNode]
  obtain rfl := genCases_code _ _ _ h2
  have e1 := (ext_node H.cfg true v .expr hst.inv h1).e
  have f1 := free_node H.cfg true v .expr false hw1 hst.free h1
  have e2 := ext_cases H.cfg true cs e1.2 h2
  have e3 := ext_else H.cfg true dflt e2.2 h3
  have hl1 := GExtE.len e1.1
  obtain ⟨γ0, slots0, s1, r1, x1, q1⟩ := sim_loadNone (B := B) hH hc hst
  obtain rfl := q1.eqSlots
  have hst1 := hst.nextE (StepE.refl hst.inv) hst.free x1 q1
  have hc1 := hc.tail
  have hi1 : s1.frame.ip = s.frame.ip + 1 := q1.ip
  rw [show s.frame.ip + (Piece.at' Instr.loadNone sp).i.enc.length = s1.frame.ip by rw [hi1]; rfl] at hc1
  refine Post.of_reach r1 x1 Bd.refl (Post.bind (hv h1 hw1 (hbd.back (e2.trans e3).1.ext) hc1.left hst1 (by simp)) ?_)
  intro x γ2 slots2 σ2 s2 x2 q2
  obtain rfl := q2.eqSlots
  have hst2 := hst1.nextE e1 f1 x2 q2
  have hc2 := hc1.right
  rw [← q2.ip] at hc2
  have hp1 := q1.sp
  have hp2 := q2.sp
  have hab : Above slots2 A 2 s s2 :=
    ⟨by omega, fun l loc hl => hst.slotSp hl, fun i hi hn => (q2.same i (by omega) hn).trans (q1.same i hi hn), hst.le⟩
  have hnone : s2.stack s.sp = .none := by
    rw [q2.same _ (by omega) (hst.slotNone (Nat.le_refl _))]
    exact VRel.none_inv q1.val
  have := hcs hd h2 h3 hw2 hw3 hbd hc2 hst2 hab hnone (by rw [← hp1]; exact q2.val) (by intro ha; have := hal ha; omega)
  have hlen : s.frame.ip + Code.len (.at' .loadNone sp :: (cv ++ ([] ++ GM.assemble ps d))) = s2.frame.ip + (GM.assemble ps d).len := by
    rw [q2.ip, hi1]; simp [Instr.enc]; omega
  rw [hlen]; exact this

/-- The loop of `while`, with the value of the last iteration on the stack. -/
theorem sim_whileN (hH : HRel H S) {al : Bool} {sp : Span} {cn : Node} {body : List Node} (hcn : SimE H S call W B cn) (hb : SimS H S call W B body)
    {A : Act} {K : Nat → Prop} {γ0 slots : LocMap} {g gc g' : GState} {env : SEnv} {σ0 : SSt D} {s0 : VM D} {cc b : Code}
    (h1 : genNode H.cfg true .expr cn g = .ok ((), cc, gc)) (h2 : GM.inScope (genStmts H.cfg true body) gc = .ok ((), b, g'))
    (hw1 : cn.wf false = true) (hw2 : wfStmts al body = true) (hbd : Bound H A K g') {p : Nat}
    (hc : CodeAt A.fn p (cc ++ (.at' (.jumpIfFalse (b.len + 6)) sp :: .at' (.popMany 2) cn.span ::
        (b ++ [.at' (.jumpBackward (cc.len + b.len + 9)) cn.span, .at' .pop cn.span]))))
    (hst : St H A K γ0 slots g env σ0 s0) (hal : al = true → s0.sp = A.st + g.cur.locals.length) :
    ∀ (W' : Nat) (B' : Bd) {γ : LocMap} {σ : SSt D} {s : VM D} {last : SVal}, B'.steps ≤ W' → B'.le B 0 → St H A K γ slots g env σ s → Above slots A 1 s0 s →
      s.frame.ip = p → VRel H.cfg H.syms.entries γ last (s.stack s0.sp) →
      Post H A B' K γ slots s (whileN S sp (evalNode S call W cn env) (evalStmts S call W body env) W' last σ)
        (EQ H K slots s0 (p + cc.len + 3 + 3 + b.len + 3 + 1))
  | 0, B', γ, σ, s, last, hB, _, _, _, _, _ => by
    simp only [whileN]
    exact ⟨s, (Reach.refl H s).mono hB⟩
  | W' + 1, B', γ, σ, s, last, hB, hB', hst1, hab, hip, hlast => by
    simp only [whileN]
    have e1 := (ext_node H.cfg true cn .expr hst.inv h1).e
    have f1 := free_node H.cfg true cn .expr false hw1 hst.free h1
    have e2 := step_inScope e1.2 (fun h h' => ext_stmts H.cfg true body h h') h2
    have hl1 := GExtE.len e1.1
    rw [← hip] at hc
    have hp := hab.sp
    refine Post.bind ((hcn h1 hw1 (hbd.back e2.1.ext) hc.left hst1 (by simp)).mono (fun _ _ _ _ _ _ h => h) (fun _ _ h => h) hB') ?_
    intro x γ2 slots2 σ2 s2 x2 q2
    obtain rfl := q2.eqSlots
    have hst2 := hst1.nextE e1 f1 x2 q2
    have hc2 := hc.right
    rw [← q2.ip] at hc2
    have hp2 := q2.sp
    have hn1 : slots2 s0.sp = none := by
      cases h : slots2 s0.sp with
      | none => rfl
      | some l => have := hab.slot _ _ h; omega
    have t1 : VRel H.cfg H.syms.entries γ2 last (s2.stack s0.sp) := by
      rw [q2.same _ (by omega) hn1]; exact VRel.mono x2.cells hlast
    have e6 : s2.sp - 1 = s.sp := by omega
    refine Post.bind (sim_truthy hH hst2 hc2 (by omega) (by rw [e6]; exact q2.val)) ?_
    intro bb γ3 slots3 σ3 s3 x3 q3
    obtain ⟨rfl, rfl, rfl, rfl⟩ := q3
    have hab3 : Above slots3 A 2 s0 (s2.goto (s2.frame.ip + 3 + if bb then 0 else b.len + 6)) :=
      ⟨by show s2.sp = _; omega, hab.slot, fun i hi hn => (q2.same i (by omega) hn).trans (hab.same i hi hn), hab.le⟩
    have hc3 := hc2.tail
    have hc4 := hc3.tail
    have hc5 := hc4.right
    have hi2 := q2.ip
    cases bb with
    | true =>
      simp only [if_true, Nat.add_zero] at x3 hab3 ⊢
      have hst3 := hst2.goto (s2.frame.ip + 3)
      have h4 := popMany_step (H := H) hst3.act.fn hc3 (by show _ ≤ s2.sp; omega)
      have hst4 := hst3.drop (k := 2) (p := s2.frame.ip + 3 + 3) (fun l loc hl => by have := hab.slot l loc hl; show _ < s2.sp - 2; omega) (by have := hab.le; show _ ≤ s2.sp - 2; omega)
      refine Post.of_reach (Reach.step h4) (Ext.drop _ _ _ _ _ _) Bd.succ ?_
      refine Post.bind ((sim_inScope hH hb h2 hw2 hbd hc4.left hst4 ?_).mono (fun _ _ _ _ _ _ h => h) (fun _ _ h => h) hB') ?_
      · intro ha; have := hal ha; show s2.sp - 2 = _; omega
      intro v γ4 slots4 σ4 s4 x4 q4
      obtain rfl := q4.eqSlots
      have q5 := q4.from (s0 := s0) (by show s2.sp - 2 = _; omega) hab3.same
      have i4 : s4.frame.ip = s2.frame.ip + 3 + 3 + b.len := q4.ip
      have hc5' : CodeAt A.fn s4.frame.ip [.at' (.jumpBackward (cc.len + b.len + 9)) cn.span, .at' .pop cn.span] := by rw [i4]; exact hc5
      have hb4 := jumpBack_step (H := H) (x4.fn.trans hst4.act.fn) hc5' (by omega)
      have e7 : s4.frame.ip + 3 - (cc.len + b.len + 9) = p := by rw [i4, hi2, hip]; omega
      rw [e7] at hb4
      have hst5 : St H A K γ4 slots4 g env σ4 (s4.goto p) := by
        have := (hst4.nextE e2 (free_inScope f1 (fun h h' => free_stmts H.cfg true body al hw2 h h') h2) x4 q4)
        exact ⟨hst.inv, hst.free, ⟨this.act.fn, this.act.ups, this.act.st, this.act.cells⟩, hst.frame, this.ok, this.openK, this.le⟩
      refine Post.of_reach (B' := ⟨B'.steps - 1, B'.depth⟩) (Reach.step hb4) (Ext.goto _ _ _ _ _) ⟨by show B'.steps ≤ B'.steps - 1 + 1; omega, rfl⟩
        (sim_whileN (g' := g') (al := al) hH hcn hb h1 h2 hw1 hw2 hbd (by rw [← hip]; exact hc) hst hal W' ⟨B'.steps - 1, B'.depth⟩ (by show B'.steps - 1 ≤ W'; omega) ⟨by show B'.steps - 1 ≤ B.steps; have := hB'.1; omega, hB'.2⟩ hst5
          ⟨q5.sp, hab.slot, q5.same, hab.le⟩ rfl q5.val)
    | false =>
      simp only [Bool.false_eq_true, if_false] at x3 hab3 ⊢
      have hc6 : CodeAt A.fn (s2.goto (s2.frame.ip + 3 + (b.len + 6))).frame.ip [.at' .pop cn.span] := by
        have := hc5.tail
        have e : s2.frame.ip + 3 + (b.len + 6) = s2.frame.ip + (Piece.at' (Instr.jumpIfFalse (b.len + 6)) sp).i.enc.length +
          (Piece.at' (Instr.popMany 2) cn.span).i.enc.length + b.len + (Piece.at' (Instr.jumpBackward (cc.len + b.len + 9)) cn.span).i.enc.length := by
          simp [Instr.enc, u16le]; omega
        rw [VM.goto_ip, e]; exact this
      have hst3 := hst2.goto (s2.frame.ip + 3 + (b.len + 6))
      have h4 := pop_step (H := H) hst3.act.fn hc6 (by show _ ≤ s2.sp; omega)
      refine Post.of_reach (Reach.step h4) (Ext.drop _ _ _ _ _ _) Bd.succ (Post.pure' ⟨rfl, hab3.same, ?_, ?_, t1, ?_, hst3.openK⟩)
      · show s2.sp - 1 = _; omega
      · show s2.frame.ip + 3 + (b.len + 6) + 1 = _; rw [hi2, hip]; omega
      · exact (hst3.drop (k := 1) (p := s2.frame.ip + 3 + (b.len + 6) + 1) (fun l loc hl => by have := hab.slot l loc hl; show _ < s2.sp - 1; omega)
          (by have := hab.le; show _ ≤ s2.sp - 1; omega)).ok

theorem sim_while (hH : HRel H S) (hBW : B.steps ≤ W) (sp : Span) (cn : Node) (body : List Node) (hcn : SimE H S call W B cn) (hb : SimS H S call W B body) :
    SimE H S call W B (.while sp cn body) := by
  intro al A K γ slots g g' env σ s c hg hw hbd hc hst hal
  obtain ⟨cc, gc, b, h1, h2, _, rfl⟩ := gen_while hg
  simp only [Node.wf, Bool.and_eq_true] at hw
  simp only [evalNode]
  obtain ⟨γ0, slots0, s1, r1, x1, q1⟩ := sim_loadNone (B := B) hH hc hst
  obtain rfl := q1.eqSlots
  have hst1 := hst.nextE (StepE.refl hst.inv) hst.free x1 q1
  have hi1 : s1.frame.ip = s.frame.ip + 1 := q1.ip
  have := sim_whileN (al := al) hH hcn hb h1 h2 hw.1 hw.2 hbd hc.tail hst hal W B hBW Bd.refl hst1
    ⟨q1.sp, fun l loc hl => hst.slotSp hl, q1.same, hst.le⟩ hi1 q1.val
  refine Post.of_reach r1 x1 Bd.refl (this.imp ?_)
  intro _ _ _ _ _ _ h
  refine Eq.mp (congrArg (fun p => EQ H K slots0 s p _ _ _ _ _) ?_) h
  simp [Instr.enc, u16le]; omega

end

end Quilt
