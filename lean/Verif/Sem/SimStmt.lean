import Verif.Sem.SimScope

/-!
# Simulation: statements
-/

namespace Quilt
variable {D : Type}

/-- After a declaration: the scope includes the new variables. -/
structure DQ (H : Host D) (A : Act) (K : Nat → Prop) (slots : LocMap) (g g' : GState) (s : VM D) (ip : Nat) (env' : SEnv)
    (γ' slots' : LocMap) (σ' : SSt D) (s' : VM D) : Prop where
  st : St H A K γ' slots' g' env' σ' s'
  sp : s'.sp = A.st + g'.cur.locals.length
  below : ∀ l, l < A.st + g.cur.locals.length → slots' l = slots l
  same : ∀ i, i < A.st + g.cur.locals.length → slots i = none → s'.stack i = s.stack i
  ip : s'.frame.ip = ip

section
variable {H : Host D} {S : SHost D} {call : SClos → List SVal → SM D SVal} {W : Nat} {B : Bd}

theorem sim_bindN {A : Act} {K : Nat → Prop} {γ slots : LocMap} {g : GState} {env : SEnv} {σ : SSt D} {s : VM D} {xs : List String}
    {vs : List SVal} (hst : St H A K γ slots g env σ s) (hlen : vs.length = xs.length) (hx : (xs.all nameOk) = true)
    (hsp : s.sp = A.st + g.cur.locals.length + xs.length)
    (hv : Val.RelL (CRel H.cfg H.syms.entries γ) vs (seg s.stack (A.st + g.cur.locals.length) vs.length)) :
    ∃ slots' env' σ', SM.bindVars (xs.zip vs) env σ = (.ok env', σ') ∧ St H A K γ slots' (g.defineLocals xs) env' σ' s ∧
      (∀ l, l < A.st + g.cur.locals.length → slots' l = slots l) := by
  obtain ⟨envL, rfl, a2, a3, a4⟩ := hst.frame
  obtain ⟨slots', envL', σ', h1, h2, h3, h4, h5⟩ := bindVars_sim (envC := A.envC) (d := g.cur.depth) xs hlen hx hst.ok a2 a3 (by omega) hv
  obtain ⟨b1, b2, b3, b4, b5, b6⟩ := defineLocals_spec g xs
  refine ⟨slots', envL' ++ A.envC, σ', h1, ⟨(defineLocals_ext hst.inv xs).2, free_defineLocals hst.free xs, hst.act,
    ⟨envL', rfl, by rw [b1]; exact h3, ?_, by rw [b5]; exact a4⟩, h2, hst.openK, hst.le⟩, h5⟩
  intro i hi
  rw [b1] at hi
  simp only [List.length_append, List.length_map] at hi
  exact h4 i (by omega)

theorem defineLocals_resolve (g : GState) (x : String) :
    (g.defineLocals [x]).resolve x = (.loc g.cur.locals.length, g.defineLocals [x]) := by
  obtain ⟨b1, _⟩ := defineLocals_spec g [x]
  unfold GState.resolve
  rw [b1]
  simp [lastIdx_snoc]

theorem upd_self {α : Type} (f : Nat → α) (i : Nat) : upd f i (f i) = f := by
  funext j
  by_cases h : j = i
  · subst h; simp
  · exact upd_other _ _ h

/-- Declaring one variable: its value stays where it is. -/
theorem sim_bind1 (hH : HRel H S) {A : Act} {K : Nat → Prop} {γ slots : LocMap} {g g' : GState} {env : SEnv} {σ : SSt D} {s : VM D} {x : String}
    {v : SVal} {r : GState.Ref} {sp : Span} (hst : St H A K γ slots g env σ s) (hx : nameOk x = true)
    (hsp : s.sp = A.st + g.cur.locals.length + 1) (hv : VRel H.cfg H.syms.entries γ v (s.stack (A.st + g.cur.locals.length)))
    (hr : (g.defineLocals [x]).resolve x = (r, g')) (hc : CodeAt A.fn s.frame.ip [.at' r.store sp]) :
    Post H A B K γ slots s (SM.bindVars [(x, v)] env σ) (DQ H A K slots g g' s (s.frame.ip + Code.len [.at' r.store sp])) := by
  rw [defineLocals_resolve] at hr
  simp only [Prod.mk.injEq] at hr
  obtain ⟨rfl, rfl⟩ := hr
  have hstep := step_at (H := H) hst.act.fn hc (by simp [GState.Ref.store])
  have h0 : ¬ s.sp = 0 := by omega
  have h0' : ¬ oob H.opts.stackSize s.sp (A.st + g.cur.locals.length) = true := by
    simp [oob, hH.stack]; omega
  simp only [GState.Ref.store, VM.exec, VM.goto_sp, VM.goto_st, hst.act.st, h0, h0', if_false, VM.goto_stack] at hstep
  have h1 : s.sp - 1 = A.st + g.cur.locals.length := by omega
  rw [h1, upd_self] at hstep
  have hstep2 : s.step H = .next (s.goto (s.frame.ip + Code.len [.at' (GState.Ref.store (.loc g.cur.locals.length)) sp])) := by
    rw [hstep]; simp [VM.goto, GState.Ref.store]
  generalize Code.len [.at' (GState.Ref.store (.loc g.cur.locals.length)) sp] = n at hstep2 ⊢
  have hst2 : St H A K γ slots g env σ (s.goto (s.frame.ip + n)) :=
    ⟨hst.inv, hst.free, ⟨hst.act.fn, hst.act.ups, hst.act.st, hst.act.cells⟩, hst.frame, hst.ok, hst.openK, hst.le⟩
  obtain ⟨slots', env', σ', k1, k2, k3⟩ := sim_bindN (xs := [x]) (vs := [v]) hst2 rfl (by simpa using hx) hsp (by
    refine ⟨?_, trivial⟩
    simpa using hv)
  have k1' : SM.bindVars [(x, v)] env σ = (.ok env', σ') := k1
  rw [k1']
  refine ⟨γ, slots', _, (Reach.step hstep2).mono (Nat.zero_le _), ?_, ⟨k2, ?_, k3, fun i _ _ => rfl, rfl⟩⟩
  · exact ⟨γ.le_refl, fun l hl => k3 l (by omega), rfl, rfl, rfl, rfl, rfl, fun l _ _ => rfl⟩
  · obtain ⟨b1, _⟩ := defineLocals_spec g [x]
    rw [b1]
    show s.sp = _
    simp; omega

theorem pushAll_sim (hH : H.opts.stackSize = none) : ∀ (ws : List VVal) (s : VM D),
    ∃ s', s.pushAll H ws = .next s' ∧ Quiet s.sp s s' ∧ s'.sp = s.sp + ws.length ∧ s'.frame.ip = s.frame.ip ∧
      seg s'.stack s.sp ws.length = ws
  | [], s => ⟨s, rfl, .refl _ _, rfl, rfl, rfl⟩
  | w :: ws, s => by
    obtain ⟨s', h1, h2, h3, h4, h5⟩ := pushAll_sim hH ws (s.pushU w)
    have hp : (s.pushU w).sp = s.sp + 1 := rfl
    refine ⟨s', ?_, ?_, ?_, h4, ?_⟩
    · simp only [VM.pushAll, VM.push_none hH]; exact h1
    · exact (Quiet.repl (s := s) (k := 0) (Nat.le_refl _) w).trans (h2.mono (by omega))
    · rw [h3, hp]; simp; omega
    · rw [List.length_cons, seg_succ, h2.stack _ (by omega)]
      rw [hp] at h5
      rw [h5]
      simp [VM.pushU]

theorem unpack_length {C : Type} {v : Val C} {n : Nat} {vs : List (Val C)} (h : v.unpack n = .ok vs) : vs.length = n := by
  cases v <;> simp only [Val.unpack] at h <;> try (cases h; done)
  all_goals
    repeat' split at h
  all_goals first
    | (cases h; done)
    | (simp only [Res.ok.injEq] at h; subst h; simp_all; done)
    | (simp only [Res.ok.injEq] at h; subst h; simp; omega)

theorem zip_reverse {α β : Type} : ∀ {a : List α} {b : List β}, a.length = b.length →
    (a.zip b).reverse = a.reverse.zip b.reverse
  | [], [], _ => rfl
  | x :: a, y :: b, h => by
    have h' : a.length = b.length := by simpa using h
    rw [List.zip_cons_cons, List.reverse_cons, zip_reverse h', List.reverse_cons, List.reverse_cons,
      List.zip_append (by simpa using h')]
    rfl
  | [], _ :: _, h | _ :: _, [], h => by simp at h

/-- After unpacking. -/
structure UQ (H : Host D) (γ slots : LocMap) (σ : SSt D) (base n : Nat) (s : VM D) (ip : Nat) (vs : List SVal) (γ' slots' : LocMap)
    (σ' : SSt D) (s' : VM D) : Prop where
  cells : γ' = γ
  slots : slots' = slots
  state : σ' = σ
  quiet : Quiet base s s'
  sp : s'.sp = base + n
  len : vs.length = n
  val : Val.RelL (CRel H.cfg H.syms.entries γ) vs.reverse (seg s'.stack base n)
  ip : s'.frame.ip = ip

theorem sim_unpack (hH : HRel H S) {A : Act} {K : Nat → Prop} {γ slots : LocMap} {g : GState} {env : SEnv} {σ : SSt D} {s : VM D} {n : Nat}
    {v : SVal} {sp : Span} {base : Nat} (hst : St H A K γ slots g env σ s) (hsp : s.sp = base + 1) (hb : A.st ≤ base)
    (hv : VRel H.cfg H.syms.entries γ v (s.stack base)) {rest : Code} (hc : CodeAt A.fn s.frame.ip (.at' (.unpack n) sp :: rest)) :
    Post H A B K γ slots s (SM.lift (v.unpack n) sp σ)
      (UQ H γ slots σ base n s (s.frame.ip + (Instr.unpack n).enc.length)) := by
  have hstep := step_at (H := H) hst.act.fn hc (by simp)
  have hspan := span_at hst.act.fn hc
  have h0 : s.sp ≠ 0 := by omega
  simp only [VM.exec, VM.popSwapOut, VM.goto_sp, h0, if_false, VM.goto_stack] at hstep
  have h1 : s.sp - 1 = base := by omega
  rw [h1] at hstep
  have hr := Val.rel_unpack n hv
  cases hu : v.unpack n <;> cases hu' : (s.stack base).unpack n <;> rw [hu, hu'] at hr <;> simp only [Res.Rel] at hr
  case ok.ok vs ws =>
    rw [hu'] at hstep
    simp only [VM.lift] at hstep
    have hl := unpack_length hu
    have hl' := unpack_length hu'
    obtain ⟨s', k1, k2, k3, k4, k5⟩ := pushAll_sim hH.stack ws.reverse
      ({ s.goto (s.frame.ip + (Instr.unpack n).enc.length) with sp := base, stack := upd s.stack base .none } : VM D)
    have hstep2 : s.step H = .next s' := hstep.trans k1
    have hq : Quiet base s s' := by
      have q0 : Quiet base s ({ s.goto (s.frame.ip + (Instr.unpack n).enc.length) with sp := base, stack := upd s.stack base .none } : VM D) :=
        ⟨rfl, rfl, rfl, rfl, rfl, rfl, rfl, rfl, rfl, rfl, rfl, fun i hi => upd_other _ _ (by omega)⟩
      exact q0.trans k2
    refine ⟨γ, slots, s', (Reach.step hstep2).mono (Nat.zero_le _), hq.ext hb, ⟨rfl, rfl, rfl, hq, ?_, hl, ?_, k4⟩⟩
    · rw [k3]; simp [hl']
    · rw [List.length_reverse, hl'] at k5
      have : seg s'.stack base n = ws.reverse := k5
      rw [this]
      exact hr.reverse
  case err.err e e' =>
    subst hr
    rw [hu'] at hstep
    simp only [VM.lift, VM.err1, VM.goto_fn, VM.goto_ip, hspan] at hstep
    exact Post.err hstep (fun x hx => by cases hx; rfl) hst.ok
  case panic.panic =>
    rw [hu'] at hstep
    exact Post.panic hstep

/-- Declaring several variables. -/
theorem sim_bindMany (hH : HRel H S) {A : Act} {K : Nat → Prop} {γ slots : LocMap} {g : GState} {env : SEnv} {σ : SSt D} {s : VM D}
    {xs : List Name} {v : SVal} {sp : Span} (hst : St H A K γ slots g env σ s) (hx : (xs.all fun x => nameOk x.1) = true)
    (hsp : s.sp = A.st + g.cur.locals.length + 1) (hv : VRel H.cfg H.syms.entries γ v (s.stack (A.st + g.cur.locals.length)))
    {rest : Code} (hc : CodeAt A.fn s.frame.ip (.at' (.unpack xs.length) sp :: rest)) :
    Post H A B K γ slots s (declVars (.many xs) sp v env σ) (DQ H A K slots g (g.defineLocals (xs.map Prod.fst).reverse) s
      (s.frame.ip + (Instr.unpack xs.length).enc.length)) := by
  simp only [declVars]
  refine Post.bind (sim_unpack hH hst hsp (by omega) hv hc) ?_
  intro vs γ1 slots1 σ1 s1 hx1 hq
  obtain ⟨rfl, rfl, rfl, q1, q2, q3, q4, q5⟩ := hq
  have hslot : ∀ l loc, slots1 l = some loc → l < A.st + g.cur.locals.length := fun l loc hl => hst.slotLt hl
  have hst1 := hst.quiet q1 (by omega) fun l loc hl => ⟨hslot l loc hl, by have := hslot l loc hl; omega⟩
  have hlen : vs.reverse.length = (xs.map Prod.fst).reverse.length := by simp [q3]
  have e : ((xs.map Prod.fst).zip vs).reverse = (xs.map Prod.fst).reverse.zip vs.reverse := by
    exact zip_reverse (by simp [q3])
  rw [e]
  obtain ⟨slots', env', σ', k1, k2, k3⟩ := sim_bindN hst1 hlen (by simpa [List.all_map] using hx) (by simp; omega)
    (by simpa [q3] using q4)
  rw [k1]
  obtain ⟨b1, _⟩ := defineLocals_spec g (xs.map Prod.fst).reverse
  refine ⟨γ1, slots', s1, Reach.refl _ _, ⟨γ1.le_refl, fun l hl => k3 l (by omega), rfl, rfl, rfl, rfl, rfl, fun _ _ _ => rfl⟩,
    ⟨k2, ?_, k3, fun i hi _ => q1.stack i hi, q5⟩⟩
  rw [b1]; simp; omega

theorem GExtE.len {g g' : GState} (h : GExtE g g') : g'.cur.locals.length = g.cur.locals.length := by
  obtain ⟨old, h1, h2⟩ := h.locals
  rw [h1, List.append_nil, ← h2.length_eq]

end

/-- The generated code of a statement in a local scope simulates it. -/
def SimD (H : Host D) (S : SHost D) (call : SClos → List SVal → SM D SVal) (W : Nat) (B : Bd) (n : Node) : Prop :=
  ∀ ⦃al : Bool⦄ ⦃A : Act⦄ ⦃K : Nat → Prop⦄ ⦃γ slots : LocMap⦄ ⦃g g' : GState⦄ ⦃env : SEnv⦄ ⦃σ : SSt D⦄ ⦃s : VM D⦄ ⦃c : Code⦄,
    genNode H.cfg true (.stmt true) n g = .ok ((), c, g') → n.wf al = true → g.cur.depth ≠ 0 → Bound H A K g' → CodeAt A.fn s.frame.ip c →
    St H A K γ slots g env σ s → (al = true → s.sp = A.st + g.cur.locals.length) →
    Post H A B K γ slots s (evalStmt S call W n env σ) (DQ H A K slots g g' s (s.frame.ip + c.len))

/-- The generated code of a statement list in a local scope simulates it. -/
def SimS (H : Host D) (S : SHost D) (call : SClos → List SVal → SM D SVal) (W : Nat) (B : Bd) (ns : List Node) : Prop :=
  ∀ ⦃al : Bool⦄ ⦃A : Act⦄ ⦃K : Nat → Prop⦄ ⦃γ slots : LocMap⦄ ⦃g g' : GState⦄ ⦃env : SEnv⦄ ⦃σ : SSt D⦄ ⦃s : VM D⦄ ⦃c : Code⦄ ⦃sp0 : Span⦄,
    genStmts H.cfg true ns g = .ok (sp0, c, g') → wfStmts al ns = true → g.cur.depth ≠ 0 → Bound H A K g' → CodeAt A.fn s.frame.ip c →
    St H A K γ slots g env σ s → (al = true → s.sp = A.st + g.cur.locals.length) →
    Post H A B K γ slots s (evalStmts S call W ns env σ) (SQ H A K slots g g' s (s.frame.ip + c.len))

/-- The generated code of an optional expression simulates it. -/
def SimO (H : Host D) (S : SHost D) (call : SClos → List SVal → SM D SVal) (W : Nat) (B : Bd) (e : Option Node) : Prop :=
  ∀ ⦃al : Bool⦄ ⦃A : Act⦄ ⦃K : Nat → Prop⦄ ⦃γ slots : LocMap⦄ ⦃g g' : GState⦄ ⦃env : SEnv⦄ ⦃σ : SSt D⦄ ⦃s : VM D⦄ ⦃c : Code⦄ ⦃sp : Span⦄,
    genOpt H.cfg true sp e g = .ok ((), c, g') → wfRet al e = true → Bound H A K g' → CodeAt A.fn s.frame.ip c →
    St H A K γ slots g env σ s → (al = true → s.sp = A.st + g.cur.locals.length) →
    Post H A B K γ slots s (evalRet S call W e env σ) (EQ H K slots s (s.frame.ip + c.len))

section
variable {H : Host D} {S : SHost D} {call : SClos → List SVal → SM D SVal} {W : Nat} {B : Bd}

/-- Pushing `none`. -/
theorem sim_loadNone (hH : HRel H S) {A : Act} {K : Nat → Prop} {γ slots : LocMap} {g : GState} {env : SEnv} {σ : SSt D} {s : VM D} {sp : Span}
    {rest : Code} (hc : CodeAt A.fn s.frame.ip (.at' .loadNone sp :: rest)) (hst : St H A K γ slots g env σ s) :
    Post H A B K γ slots s ((pure .none : SM D SVal) σ) (EQ H K slots s (s.frame.ip + 1)) := by
  refine Post.op (r := .ok .none) (r' := .ok .none) (sp := sp) (k := 0) (p := _) (by simp [Res.Rel, VRel, Val.Rel]) ?_ hst.ok hst.openK
    (fun l loc hl => hst.slotSp hl) (fun _ _ _ => rfl) rfl hst.le
  show _ = _
  rw [step_at hst.act.fn hc (by simp)]
  simp [VM.exec, VM.push_none hH.stack, VM.repl, VM.pushU, Instr.enc]

theorem sim_opt_none (hH : HRel H S) : SimO H S call W B none := by
  intro al A K γ slots g g' env σ s c sp hg hw hbd hc hst hal
  obtain ⟨rfl, rfl⟩ := genOpt_none hg
  simp only [evalRet]
  exact sim_loadNone hH hc hst

theorem sim_opt_some {e : Node} (he : SimE H S call W B e) : SimO H S call W B (some e) := by
  intro al A K γ slots g g' env σ s c sp hg hw hbd hc hst hal
  simp only [evalRet]
  exact he hg (by simpa [wfRet] using hw) hbd hc hst hal

theorem sim_ret (sp : Span) (e : Option Node) (he : SimO H S call W B e) : SimD H S call W B (.ret sp e) := by
  intro al A K γ slots g g' env σ s c hg hw hd hbd hc hst hal
  obtain ⟨ce, _, _, h1, rfl⟩ := gen_ret hg
  simp only [evalStmt]
  have e1 := ext_opt H.cfg true e hst.inv h1
  have f1 := free_opt H.cfg true e al (by simpa [Node.wf] using hw) hst.free h1
  refine Post.bind (he h1 (by simpa [Node.wf] using hw) hbd hc.left hst hal) ?_
  intro v γ1 slots1 σ1 s1 hx1 hq1
  obtain rfl := hq1.eqSlots
  have hst1 := hst.nextE e1 f1 hx1 hq1
  have hc1 := hc.right
  rw [← hq1.ip] at hc1
  have hp1 := hq1.sp
  have hle := hst.le
  refine ⟨γ1, slots1, s1, Reach.refl _ _, Ext.refl _ _ _ _, ⟨?_, by omega, ?_, ?_, hq1.ok, fun l _ hl => hq1.openK l hl⟩⟩
  · exact step_at hst1.act.fn hc1 (by simp)
  · exact hst.slotNone (by omega)
  · have : s1.sp - 1 = s.sp := by omega
    rw [this]; exact hq1.val

theorem DQ.change {A : Act} {K : Nat → Prop} {slots : LocMap} {g g1 g' : GState} {s s1 s' : VM D} {ip : Nat} {env' : SEnv} {γ' slots' : LocMap}
    {σ' : SSt D} (h : DQ H A K slots g1 g' s1 ip env' γ' slots' σ' s') (hl : g1.cur.locals.length = g.cur.locals.length)
    (hs : ∀ i, i < A.st + g.cur.locals.length → slots i = none → s1.stack i = s.stack i) :
    DQ H A K slots g g' s ip env' γ' slots' σ' s' :=
  ⟨h.st, h.sp, by rw [← hl]; exact h.below, fun i hi hn => (h.same i (by omega) hn).trans (hs i hi hn), h.ip⟩

theorem sim_decl (hH : HRel H S) (sp : Span) (v : Var) (e : Node) (he : SimE H S call W B e) : SimD H S call W B (.decl sp v e) := by
  intro al A K γ slots g g' env σ s c hg hw hd hbd hc hst hal
  obtain ⟨ce, ge, cv, _, h1, h2, rfl⟩ := gen_decl hg
  simp only [Node.wf, Bool.and_eq_true] at hw
  obtain ⟨⟨ha, hv⟩, hwe⟩ := hw
  have hal' := hal ha
  simp only [evalStmt]
  have e1 := (ext_node H.cfg true e .expr hst.inv h1).e
  have f1 := free_node H.cfg true e .expr al hwe hst.free h1
  have e2 := step_declVar e1.2 h2
  have hl := GExtE.len e1.1
  refine Post.bind (he h1 hwe (hbd.back e2.1) hc.left hst hal) ?_
  intro x γ1 slots1 σ1 s1 hx1 hq1
  obtain rfl := hq1.eqSlots
  have hst1 := hst.nextE e1 f1 hx1 hq1
  have hc1 := hc.right
  rw [← hq1.ip] at hc1
  have hp1 := hq1.sp
  have hvr := hq1.val
  rw [hal', ← hl] at hvr
  have hd1 : ge.cur.depth ≠ 0 := by rw [e1.1.depth]; exact hd
  have hip : s.frame.ip + Code.len (ce ++ cv) = s1.frame.ip + cv.len := by rw [hq1.ip]; simp; omega
  rw [hip]
  cases v with
  | one y =>
    rcases declVar_one h2 with ⟨h3, _⟩ | ⟨_, r, h3, rfl⟩
    · exact absurd h3 hd1
    · refine (sim_bind1 hH hst1 hv (by omega) hvr h3 hc1).imp ?_
      intro a γ' slots' σ' s' _ hq
      exact hq.change hl fun i hi hn => hq1.same i (by omega) hn
  | many ys =>
    obtain ⟨_, h3⟩ := declVar_many h2
    rcases h3 with ⟨h3, _⟩ | ⟨_, rfl, rfl⟩
    · exact absurd h3 hd1
    · refine (sim_bindMany hH hst1 hv (by omega) hvr hc1).imp ?_
      intro a γ' slots' σ' s' _ hq
      have := hq.change (s := s) hl fun i hi hn => hq1.same i (by omega) hn
      simpa using this

theorem sim_funcDecl (hH : HRel H S) (sp : Span) (name : Name) (params : List Name) (body : List Node) :
    SimD H S call W B (.func sp name params body) := by
  intro al A K γ slots g g' env σ s c hg hw hd hbd hc hst hal
  obtain ⟨cf, gf, cv, _, _, h1, h2, rfl⟩ := gen_func hg
  simp only [Node.wf, Bool.and_eq_true] at hw
  obtain ⟨⟨⟨ha, hn⟩, hp⟩, hwb⟩ := hw
  have hal' := hal ha
  have e1 := step_func hst.inv (fun h h' => ext_stmts H.cfg true body h h') h1
  have f1 := free_func hst.free (fun h h' => free_stmts H.cfg true body true hwb h h') h1
  have hl := GExtE.len e1.1
  have hd1 : gf.cur.depth ≠ 0 := by rw [e1.1.depth]; exact hd
  rw [if_neg hd1] at h2
  obtain ⟨r, h3, rfl⟩ := setVariable_inv h2
  have e2 : StepN gf g' := by
    have k1 := step_defineLocals e1.2 [name.1]
    exact k1.trans (step_setVariable k1.2 h2).n
  have h4 : Post H A B K γ slots s ((pure (.clos ⟨name.1, name.2, params.map Prod.fst, body, env⟩) >>= fun v =>
      SM.bindVars [(name.1, v)] env : SM D SEnv) σ) (DQ H A K slots g g' s (s.frame.ip + Code.len (cf ++ [.at' r.store sp]))) := by
    refine Post.bind (sim_func hH h1 hwb hn hp (hbd.back e2.1) hc.left hst) ?_
    intro x γ1 slots1 σ1 s1 hx1 hq1
    obtain rfl := hq1.eqSlots
    have hst1 := hst.nextE e1 f1 hx1 hq1
    have hc1 := hc.right
    rw [← hq1.ip] at hc1
    have hp1 := hq1.sp
    have hvr := hq1.val
    rw [hal', ← hl] at hvr
    have hip : s.frame.ip + Code.len (cf ++ [.at' r.store sp]) = s1.frame.ip + Code.len [.at' r.store sp] := by rw [hq1.ip]; simp; omega
    rw [hip]
    refine (sim_bind1 hH hst1 hn (by omega) hvr h3 hc1).imp ?_
    intro a γ' slots' σ' s' _ hq
    exact hq.change hl fun i hi hn => hq1.same i (by omega) hn
  exact h4

theorem EQ.sq {A : Act} {K : Nat → Prop} {slots : LocMap} {g g' : GState} {s : VM D} {ip : Nat} {v : SVal} {γ' slots' : LocMap}
    {σ' : SSt D} {s' : VM D} (h : EQ H K slots s ip v γ' slots' σ' s') (hl : g'.cur.locals.length = g.cur.locals.length)
    (ha : ∀ l, A.st + g.cur.locals.length ≤ l → slots l = none) : SQ H A K slots g g' s ip v γ' slots' σ' s' := by
  obtain rfl := h.eqSlots
  have hsp := h.sp
  refine ⟨fun _ _ => rfl, by rw [hl]; exact ha, h.same, by omega, .inr hl, h.ip, ?_, h.ok, h.openK⟩
  have : s'.sp - 1 = s.sp := by omega
  rw [this]; exact h.val

theorem sim_stmts_one (n : Node) (hn : SimE H S call W B n) (hs : SimD H S call W B n) : SimS H S call W B [n] := by
  intro al A K γ slots g g' env σ s c sp0 hg hw hd hbd hc hst hal
  obtain ⟨h1, rfl⟩ := genStmts_one hg
  simp only [wfStmts, Bool.and_eq_true] at hw
  simp only [evalStmts]
  cases hi : n.isStatement with
  | true =>
    obtain ⟨_, h2⟩ := genNode_stmt hi h1
    simp only [if_true]
    refine Post.bind (hs h2 hw.2 hd hbd hc hst hal) ?_
    intro _ _ _ _ _ _ _
    trivial
  | false =>
    obtain ⟨c1, h2, rfl⟩ := genNode_mode hi h1
    simp only [Bool.false_eq_true, if_false]
    simp only [Mode.stmt.injEq, Bool.false_eq_true, if_false, List.append_nil] at hc ⊢
    have e1 := (ext_node H.cfg true n .expr hst.inv h2).e
    refine (hn h2 hw.2 hbd hc hst hal).imp ?_
    intro v γ' slots' σ' s' _ hq
    obtain ⟨_, _, _, h3, _⟩ := hst.frame
    exact hq.sq (GExtE.len e1.1) h3

/-- Dropping the value of an expression statement. -/
theorem sim_pop {A : Act} {K : Nat → Prop} {γ γ1 slots : LocMap} {g g1 : GState} {env : SEnv} {σ σ1 : SSt D} {s s1 : VM D} {v : SVal} {ip : Nat} {sp : Span}
    {rest : Code} (hst : St H A K γ slots g env σ s) (hst1 : St H A K γ1 slots g1 env σ1 s1) 
    (hq : EQ H K slots s ip v γ1 slots σ1 s1) (hc : CodeAt A.fn s1.frame.ip (.at' .pop sp :: rest)) :
    ∃ s2, s1.step H = .next s2 ∧ Quiet s.sp s1 s2 ∧ s2.sp = s.sp ∧ s2.frame.ip = ip + 1 ∧ St H A K γ1 slots g1 env σ1 s2 := by
  have hstep := step_at (H := H) hst1.act.fn hc (by simp)
  have hp := hq.sp
  have h0 : ¬ s1.sp = 0 := by omega
  simp only [VM.exec, VM.pop, VM.goto_sp, h0, if_false] at hstep
  have hq2 : Quiet s.sp s1 { s1.goto (s1.frame.ip + Instr.pop.enc.length) with sp := s1.sp - 1 } :=
    ⟨rfl, rfl, rfl, rfl, rfl, rfl, rfl, rfl, rfl, rfl, rfl, fun _ _ => rfl⟩
  refine ⟨_, hstep, hq2, by show s1.sp - 1 = _; omega, ?_, hst1.quiet hq2 ?_ ?_⟩
  · show s1.frame.ip + 1 = _; rw [hq.ip]
  · have := hst.le; show _ ≤ s1.sp - 1; omega
  · intro l loc hl; have := hst.slotSp hl; exact ⟨this, by show _ < s1.sp - 1; omega⟩

theorem evalStmt_ret (sp : Span) (e : Option Node) (env env' : SEnv) (σ σ' : SSt D) :
    evalStmt S call W (.ret sp e) env σ ≠ (.ok env', σ') := by
  simp only [evalStmt]
  show SM.bind _ _ σ ≠ _
  unfold SM.bind
  cases evalRet S call W e env σ with
  | mk o σ1 => cases o <;> simp [SM.ret]

theorem sim_stmts_cons (n n' : Node) (ns : List Node) (hn : SimE H S call W B n) (hs : SimD H S call W B n)
    (hns : SimS H S call W B (n' :: ns)) : SimS H S call W B (n :: n' :: ns) := by
  intro al A K γ slots g g' env σ s c sp0 hg hw hd hbd hc hst hal
  obtain ⟨c1, g1, c2, h1, h2, rfl⟩ := genStmts_cons hg
  simp only [wfStmts, Bool.and_eq_true] at hw
  simp only [evalStmts]
  have e0 := ext_node H.cfg true n (.stmt true) hst.inv h1
  have e2 := ext_stmts H.cfg true (n' :: ns) e0.1.2 h2
  have hbd1 := hbd.back e2.1
  have hc2 := hc.right
  cases hi : n.isStatement with
  | true =>
    simp only [if_true]
    refine Post.bind_eq (hs h1 hw.1 hd hbd1 hc.left hst hal) ?_
    intro env1 γ1 slots1 σ1 s1 hev hx1 hq1
    have hd1 : g1.cur.depth ≠ 0 := by obtain ⟨_, hh⟩ := e0.1.1; rw [hh.depth]; exact hd
    rw [← hq1.ip] at hc2
    refine (hns h2 hw.2 hd1 hbd hc2 hq1.st (fun _ => hq1.sp)).imp ?_
    intro v γ' slots' σ' s' _ hq
    have hp1 := hq1.sp
    have hp := hq.sp
    have hlen : g.cur.locals.length ≤ g1.cur.locals.length := by
      obtain ⟨new, hh⟩ := e0.1.1
      obtain ⟨old, k1, k2⟩ := hh.locals
      rw [k1, List.length_append, ← k2.length_eq]; omega
    -- only declarations get here, and these are well-formed only without temporaries
    have hal' : s.sp = A.st + g.cur.locals.length := by
      cases n <;> simp only [Node.isStatement, Bool.false_eq_true] at hi
      case decl => simp only [Node.wf, Bool.and_eq_true] at hw; exact hal hw.1.1.1
      case func => simp only [Node.wf, Bool.and_eq_true] at hw; exact hal hw.1.1.1.1
      case ret sp e => exact absurd hev (evalStmt_ret _ _ _ _ _ _)
      case extern => simp [Node.wf] at hw
      case «include» => simp [Node.wf] at hw
    refine ⟨fun l hl => (hq.below l (by omega)).trans (hq1.below l hl), hq.above, ?_, by omega, .inl hal', ?_, hq.val, hq.ok, hq.openK⟩
    · intro i hi hn
      have := hq1.below i (by omega)
      exact (hq.same i (by omega) (this.trans hn)).trans (hq1.same i (by omega) hn)
    · rw [hq.ip, hq1.ip]; simp; omega
  | false =>
    obtain ⟨c3, h3, rfl⟩ := genNode_mode hi h1
    simp only [if_true] at hc hc2 ⊢
    simp only [Bool.false_eq_true, if_false]
    have e1 := (ext_node H.cfg true n .expr hst.inv h3).e
    have f1 := free_node H.cfg true n .expr al hw.1 hst.free h3
    have hl := GExtE.len e1.1
    refine Post.bind (hn h3 hw.1 hbd1 hc.left.left hst hal) ?_
    intro x γ1 slots1 σ1 s1 hx1 hq1
    obtain rfl := hq1.eqSlots
    have hst1 := hst.nextE e1 f1 hx1 hq1
    have hcp := hc.left.right
    rw [← hq1.ip] at hcp
    obtain ⟨s2, k1, k2, k3, k4, k5⟩ := sim_pop hst hst1 hq1 hcp
    have hd1 : g1.cur.depth ≠ 0 := by rw [e1.1.depth]; exact hd
    have hc4 : CodeAt A.fn s2.frame.ip c2 := by
      rw [k4]
      have : s.frame.ip + c3.len + 1 = s.frame.ip + Code.len (c3 ++ [.at' .pop n.span]) := by simp [Instr.enc]; omega
      rw [this]; exact hc2
    refine Post.of_reach (Reach.step k1) (k2.ext hst.le) Bd.succ ((hns h2 hw.2 hd1 hbd hc4 k5 (by rw [k3, hl]; exact hal)).imp ?_)
    intro v γ' slots' σ' s' _ hq
    have hp := hq.sp
    refine ⟨by rw [← hl]; exact hq.below, hq.above, ?_, by omega, by rw [← k3, ← hl]; exact hq.al, ?_, hq.val, hq.ok, hq.openK⟩
    · intro i hi hn
      exact (hq.same i (by omega) hn).trans ((k2.stack i hi).trans (hq1.same i hi hn))
    · rw [hq.ip, k4]; simp [Instr.enc]; omega

/-- A block in its own scope. -/
theorem sim_inScope (hH : HRel H S) {body : List Node} (hb : SimS H S call W B body) {al : Bool} {A : Act} {K : Nat → Prop} {γ slots : LocMap}
    {g g' : GState} {env : SEnv} {σ : SSt D} {s : VM D} {c : Code} {u : Unit} (hg : GM.inScope (genStmts H.cfg true body) g = .ok (u, c, g'))
    (hw : wfStmts al body = true) (hbd : Bound H A K g') (hc : CodeAt A.fn s.frame.ip c) (hst : St H A K γ slots g env σ s)
    (hal : al = true → s.sp = A.st + g.cur.locals.length) :
    Post H A B K γ slots s (evalStmts S call W body env σ) (EQ H K slots s (s.frame.ip + c.len)) := by
  obtain ⟨sp0, cb, gb, h1, rfl, rfl⟩ := inScope_inv hg
  have e1 := ext_stmts H.cfg true body (enterScope_inv hst.inv) h1
  obtain ⟨⟨new, he⟩, hib⟩ := e1
  have hbd' := Bound.enter hbd hst.inv hib he
  have hst' := hst.enter gb.cur.locals (g1 := g.enterScope) rfl rfl (enterScope_inv hst.inv) (hst.free.of_eq rfl rfl)
  have hp := hb h1 hw (Nat.succ_ne_zero _) hbd' hc.left hst' hal
  have hp2 := hp.mono (K' := K) (B' := B) (fun _ _ _ _ _ _ h => h) (fun l hl h => (innerK_lt (by omega)).1 h) Bd.refl
  refine hp2.andThen ?_
  intro v γ1 slots1 σ1 s1 hx1 hq1
  have hc1 := hc.right
  rw [← hq1.ip] at hc1
  have := sim_leave (B := B) hH hst hib he (hx1.act hst.act) hc1 ⟨hq1.below, hq1.above, hq1.same, hq1.sp, hq1.al, hq1.ip, hq1.val, hq1.ok, hq1.openK⟩
  have hip : s.frame.ip + Code.len (cb ++ gb.exitC sp0) = s.frame.ip + cb.len + Code.len (gb.exitC sp0) := by simp; omega
  rw [hip]; exact this

theorem sim_block (hH : HRel H S) (sp : Span) (body : List Node) (hb : SimS H S call W B body) : SimE H S call W B (.block sp body) := by
  intro al A K γ slots g g' env σ s c hg hw hbd hc hst hal
  simp only [evalNode]
  exact sim_inScope hH hb (gen_block hg) (by simpa [Node.wf] using hw) hbd hc hst hal

end

end Quilt
