import Verif.Sem.SimCtl

/-!
# Simulation: `for` loops and contexts
-/

namespace Quilt
variable {D : Type}

section
variable {H : Host D} {S : SHost D} {call : SClos → List SVal → SM D SVal} {W : Nat} {B : Bd}

theorem isTemp_temp (x : String) : isTemp ("#__temp_" ++ x) = true := by
  simp [isTemp]

/-- Reserving the place of a temporary. -/
theorem St.temp {A : Act} {K : Nat → Prop} {γ slots : LocMap} {g : GState} {env : SEnv} {σ : SSt D} {s : VM D}
    (h : St H A K γ slots g env σ s) : St H A K γ slots g.reserveTemp env σ s := by
  obtain ⟨envL, a1, a2, a3, a4⟩ := h.frame
  obtain ⟨b1, b2, b3, b4, b5, b6⟩ := defineLocals_spec g ["#__temp_" ++ String.ofList (showNat g.cur.locals.length)]
  refine ⟨by rw [reserveTemp_eq]; exact (defineLocals_ext h.inv _).2, by rw [reserveTemp_eq]; exact free_defineLocals h.free _, h.act,
    ⟨envL, a1, ?_, ?_, ?_⟩, h.ok, h.openK, h.le⟩
  · rw [reserveTemp_eq, b1]
    exact .temp a2 (isTemp_temp _) (a3 _ (Nat.le_refl _))
  · intro i hi
    rw [reserveTemp_eq, b1] at hi
    simp only [List.length_append, List.map_cons, List.map_nil, List.length_cons, List.length_nil] at hi
    exact a3 i (by omega)
  · rw [reserveTemp_eq, b5]; exact a4

theorem reserveTemp_len (g : GState) : g.reserveTemp.cur.locals.length = g.cur.locals.length + 1 := by
  obtain ⟨b1, _⟩ := defineLocals_spec g ["#__temp_" ++ String.ofList (showNat g.cur.locals.length)]
  rw [reserveTemp_eq, b1]; simp

theorem defineLocals_depth (g : GState) (xs : List String) : (g.defineLocals xs).cur.depth = g.cur.depth := by
  obtain ⟨_, _, b4, _⟩ := defineLocals_spec g xs
  exact b4

/-- The state at the head of a `for` loop: counter, iterable and last value are on the stack. -/
structure ForHead (H : Host D) (γ slots : LocMap) (s0 : VM D) (v : SVal) (k : Nat) (last : SVal) (p : Nat) (s : VM D) : Prop where
  sp : s.sp = s0.sp + 3
  same : ∀ i, i < s0.sp → slots i = none → s.stack i = s0.stack i
  ctx : s.stack s0.sp = .loopCtx k
  iter : VRel H.cfg H.syms.entries γ v (s.stack (s0.sp + 1))
  last : VRel H.cfg H.syms.entries γ last (s.stack (s0.sp + 2))
  ip : s.frame.ip = p

/-- The next item of the loop. -/
theorem sim_iterNext (hH : HRel H S) {A : Act} {K : Nat → Prop} {γ slots : LocMap} {g : GState} {env : SEnv} {σ : SSt D} {s s0 : VM D} {v last : SVal}
    {k p o : Nat} {sp : Span} {rest : Code} (hst : St H A K γ slots g env σ s) (hs : ∀ l loc, slots l = some loc → l < s0.sp) (hle : A.st ≤ s0.sp)
    (hh : ForHead H γ slots s0 v k last p s) (hc : CodeAt A.fn p (.at' (.iterNext o) sp :: .at' .swapPop sp :: rest)) :
    Post H A B K γ slots s (SM.lift (v.iterItem S.cfg.chk k) sp σ) (fun r γ' slots' σ' s' => γ' = γ ∧ slots' = slots ∧ σ' = σ ∧
      St H A K γ slots g env σ s' ∧ s'.sp = s0.sp + 3 ∧ (∀ i, i < s0.sp → slots i = none → s'.stack i = s0.stack i) ∧
      s'.stack s0.sp = .loopCtx (k + 1) ∧ VRel H.cfg H.syms.entries γ v (s'.stack (s0.sp + 1)) ∧
      match r with
      | some x => VRel H.cfg H.syms.entries γ x (s'.stack (s0.sp + 2)) ∧ s'.frame.ip = p + 4
      | none => VRel H.cfg H.syms.entries γ last (s'.stack (s0.sp + 2)) ∧ s'.frame.ip = p + 3 + o) := by
  rw [← hh.ip] at hc
  have hsp := hh.sp
  have hstep := step_at (H := H) hst.act.fn hc (by simp)
  have hspan := span_at hst.act.fn hc
  have h0 : ¬ s.sp < 3 := by omega
  have e3 : s.sp - 3 = s0.sp := by omega
  have e2 : s.sp - 2 = s0.sp + 1 := by omega
  simp only [VM.exec, VM.goto_sp, h0, if_false, VM.goto_stack, e3, e2, hh.ctx] at hstep
  rw [upd_other _ _ (by omega : s0.sp + 1 ≠ s0.sp)] at hstep
  have hr := Val.rel_iterItem H.cfg.chk k hh.iter
  rw [hH.cfg]
  cases hu : v.iterItem H.cfg.chk k <;> cases hu' : (s.stack (s0.sp + 1)).iterItem H.cfg.chk k <;> rw [hu, hu'] at hr <;> simp only [Res.Rel] at hr
  case ok.ok r r' =>
    rw [hu'] at hstep
    simp only [VM.lift] at hstep
    cases r <;> cases r' <;> simp only [Val.RelO] at hr
    case none.none =>
      refine ⟨γ, slots, _, (Reach.step hstep).mono (Nat.zero_le _), ?_, rfl, rfl, rfl, ?_⟩
      · exact ⟨γ.le_refl, fun _ _ => rfl, rfl, rfl, rfl, rfl, rfl, fun l hl _ => upd_other _ _ (by omega)⟩
      refine ⟨hst.quiet (lo := s0.sp) ⟨rfl, rfl, rfl, rfl, rfl, rfl, rfl, rfl, rfl, rfl, rfl, fun i hi => upd_other _ _ (by omega)⟩ hst.le
        fun l loc hl => ⟨hs l loc hl, by have := hs l loc hl; show _ < s.sp; omega⟩, hsp, ?_, ?_, ?_, ?_, ?_⟩
      · intro i hi hn
        show upd _ _ _ _ = _
        rw [upd_other _ _ (by omega)]; exact hh.same i hi hn
      · exact upd_same _ _ _
      · show VRel _ _ _ _ (upd _ _ _ _)
        rw [upd_other _ _ (by omega)]; exact hh.iter
      · show VRel _ _ _ _ (upd _ _ _ _)
        rw [upd_other _ _ (by omega)]; exact hh.last
      · show s.frame.ip + 3 + o = _
        rw [hh.ip]
    case some.some x y =>
      simp only [VM.push_none hH.stack] at hstep
      generalize hs1 : VM.pushU _ y = s1 at hstep
      have hc1 := hc.tail
      have i1 : s1.frame.ip = s.frame.ip + 3 := by rw [← hs1]; rfl
      have f1 : s1.frame.fn = A.fn := by rw [← hs1]; exact hst.act.fn
      have p1 : s1.sp = s0.sp + 4 := by rw [← hs1]; show s.sp + 1 = _; omega
      have st1 : s1.stack = upd (upd s.stack s0.sp (.loopCtx (k + 1))) (s0.sp + 3) y := by
        rw [← hs1]; show upd _ s.sp _ = _; rw [hsp]
      have q1 : Quiet s0.sp s s1 := by
        rw [← hs1]
        refine ⟨rfl, rfl, rfl, rfl, rfl, rfl, rfl, rfl, rfl, rfl, rfl, fun i hi => ?_⟩
        show upd _ s.sp _ _ = _
        rw [upd_other _ _ (by omega)]
        exact upd_other _ _ (by omega)
      have hc1' : CodeAt A.fn s1.frame.ip (.at' .swapPop sp :: rest) := by rw [i1]; exact hc1
      have hstep2 := step_at (H := H) f1 hc1' (by simp)
      have h1 : ¬ s1.sp < 2 := by omega
      have e5 : s1.sp - 1 = s0.sp + 3 := by omega
      have e6 : s1.sp - 2 = s0.sp + 2 := by omega
      simp only [VM.exec, VM.swapped, VM.goto_sp, h1, if_false, VM.goto_stack, e5, e6] at hstep2
      generalize hs2 : (StepR.next _ : StepR D) = r2 at hstep2
      subst hs2
      refine ⟨γ, slots, _, ((Reach.step hstep).trans (Reach.step hstep2)).mono (Nat.zero_le _), ?_, rfl, rfl, rfl, ?_⟩
      · refine (q1.ext hle).trans ⟨γ.le_refl, fun _ _ => rfl, rfl, rfl, rfl, rfl, rfl, fun l hl _ => ?_⟩
        show upd _ _ _ _ = _
        rw [upd_other _ _ (by omega), upd_other _ _ (by omega)]
      refine ⟨hst.quiet (lo := s0.sp) (q1.trans ⟨rfl, rfl, rfl, rfl, rfl, rfl, rfl, rfl, rfl, rfl, rfl, fun i hi => ?_⟩) ?_
        fun l loc hl => ⟨hs l loc hl, ?_⟩, rfl, ?_, ?_, ?_, ?_, ?_⟩
      · show upd _ _ _ _ = _
        rw [upd_other _ _ (by omega), upd_other _ _ (by omega)]
      · show A.st ≤ s0.sp + 3; omega
      · have := hs l loc hl; show _ < s0.sp + 3; omega
      · intro i hi hn
        show upd _ _ _ _ = _
        rw [upd_other _ _ (by omega), upd_other _ _ (by omega), st1, upd_other _ _ (by omega), upd_other _ _ (by omega)]
        exact hh.same i hi hn
      · show upd _ _ _ _ = _
        rw [upd_other _ _ (by omega), upd_other _ _ (by omega), st1, upd_other _ _ (by omega), upd_same]
      · show VRel _ _ _ _ (upd _ _ _ _)
        rw [upd_other _ _ (by omega), upd_other _ _ (by omega), st1, upd_other _ _ (by omega), upd_other _ _ (by omega)]
        exact hh.iter
      · show VRel _ _ _ _ (upd _ _ _ _)
        rw [upd_same, st1, upd_same]
        exact hr
      · show s1.frame.ip + 1 = _
        rw [i1, hh.ip]
  case err.err e e' =>
    subst hr
    rw [hu'] at hstep
    simp only [VM.lift, VM.err1, VM.goto_fn, VM.goto_ip, hspan] at hstep
    exact Post.err hstep (fun x hx => by cases hx; rfl) hst.ok
  case panic.panic =>
    rw [hu'] at hstep
    exact Post.panic hstep

/-- The binder of a loop: declares the loop variables from the item on top of the stack. -/
def SimBnd (H : Host D) (B : Bd) (A : Act) (bnd : SVal → SEnv → SM D SEnv) (g g' : GState) (cu : Code) : Prop :=
  ∀ ⦃K : Nat → Prop⦄ ⦃γ slots : LocMap⦄ ⦃env : SEnv⦄ ⦃σ : SSt D⦄ ⦃s : VM D⦄ ⦃x : SVal⦄, St H A K γ slots g env σ s →
    s.sp = A.st + g.cur.locals.length + 1 → VRel H.cfg H.syms.entries γ x (s.stack (A.st + g.cur.locals.length)) → CodeAt A.fn s.frame.ip cu →
    Post H A B K γ slots s (bnd x env σ) (DQ H A K slots g g' s (s.frame.ip + cu.len))

/-- The loop of `for`. -/
theorem sim_forN (hH : HRel H S) {body : List Node} (hb : SimS H S call W B body) {bnd : SVal → SEnv → SM D SEnv}
    {A : Act} {K : Nat → Prop} {γ0 slots : LocMap} {g gi g3 gb : GState} {env : SEnv} {σ0 : SSt D} {s0 : VM D} {cu cb : Code} {sp sp0 spj : Span} {v : SVal}
    (hst : St H A K γ0 slots g env σ0 s0) (hal : s0.sp = A.st + g.cur.locals.length) (hli : gi.cur.locals.length = g.cur.locals.length + 2)
    (hii : GInv gi) (e4 : StepN gi.enterScope g3) (hbnd : SimBnd H B A bnd gi.enterScope g3 cu)
    (h2 : genStmts H.cfg true body g3 = .ok (sp0, cb, gb)) (hd3 : g3.cur.depth ≠ 0) (hw : wfStmts true body = true)
    (e3 : StepN g.enterScope gi) (hbd : Bound H A K gb.exitScope.exitScope) {p oi ob : Nat}
    (ho : oi = (cb ++ gb.exitC sp).len + cu.len + 4) (hob : ob = (cb ++ gb.exitC sp).len + cu.len + 7)
    (hc : CodeAt A.fn p (.at' (.iterNext oi) sp :: .at' .swapPop sp :: (cu ++ ((cb ++ gb.exitC sp) ++ (.at' (.jumpBackward ob) spj ::
        gb.exitScope.exitC sp))))) :
    ∀ (W' : Nat) (B' : Bd) {γ : LocMap} {σ : SSt D} {s : VM D} {k : Nat} {last : SVal}, B'.steps ≤ W' → B'.le B 0 →
      St H A (innerK K A (A.st + g.cur.locals.length) gb.exitScope.cur.locals) γ slots gi env σ s →
      ForHead H γ slots s0 v k last p s →
      Post H A B' K γ slots s (forN (fun k => SM.lift (v.iterItem S.cfg.chk k) sp)
          (fun x => bnd x env >>= fun env' => evalStmts S call W body env') W' k last σ)
        (EQ H K slots s0 (p + 4 + cu.len + (cb ++ gb.exitC sp).len + 3 + (gb.exitScope.exitC sp).len))
  | 0, B', γ, σ, s, k, last, hB, _, _, _ => by
    simp only [forN]
    exact ⟨s, (Reach.refl H s).mono hB⟩
  | W' + 1, B', γ, σ, s, k, last, hB, hB', hst1, hh => by
    simp only [forN]
    have e5 := ext_stmts H.cfg true body e4.2 h2
    have e45 := e4.trans e5
    obtain ⟨new, he⟩ := e45.1
    have hxs := step_scope hii e45
    obtain ⟨newo, heo⟩ := (e3.trans hxs.n).1
    have hsl : ∀ l loc, slots l = some loc → l < s0.sp := fun l loc hl => hst.slotSp hl
    have hbd1 := Bound.enter hbd hst.inv hxs.2 heo
    have hbd2 := Bound.enter hbd1 hii e5.2 he
    have hlx : gb.exitScope.cur.locals.length = gi.cur.locals.length := GExtE.len hxs.1
    have hle := hst.le
    refine Post.bind ((sim_iterNext (B := B') hH hst1 hsl hle hh hc).mono (K' := K) (fun _ _ _ _ _ _ h => h)
      (fun l hl h => (innerK_lt (by omega)).1 h) Bd.refl) ?_
    intro r γ2 slots2 σ2 s2 x2 q2
    obtain ⟨rfl, rfl, rfl, hst2, hp2, hsame2, hctx2, hit2, q2⟩ := q2
    cases r with
    | none =>
      simp only at q2 ⊢
      obtain ⟨hl2, hi2⟩ := q2
      have hcx : CodeAt A.fn s2.frame.ip (gb.exitScope.exitC sp) := by
        have := hc.tail.tail.right.right.tail
        have e : s2.frame.ip = p + (Piece.at' (Instr.iterNext oi) sp).i.enc.length + (Piece.at' Instr.swapPop sp).i.enc.length + cu.len +
            Code.len (cb ++ gb.exitC sp) + (Piece.at' (Instr.jumpBackward ob) spj).i.enc.length := by
          rw [hi2, ho]; simp [Instr.enc, u16le]; omega
        rw [e]; exact this
      have := sim_leave (B := B') hH hst hxs.2 heo hst2.act hcx (ip := s2.frame.ip) (v := last) (σ1 := σ2) (slots1 := slots2)
        ⟨fun _ _ => rfl, fun l hl => hst.slotNone (by omega), hsame2, by omega, .inl hal, rfl, by rw [hp2]; exact hl2, hst2.ok, hst2.openK⟩
      have e : p + 4 + cu.len + Code.len (cb ++ gb.exitC sp) + 3 + Code.len (gb.exitScope.exitC sp) =
          s2.frame.ip + Code.len (gb.exitScope.exitC sp) := by rw [hi2, ho]; omega
      rw [e]; exact this
    | some x =>
      simp only at q2 ⊢
      obtain ⟨hx2, hi2⟩ := q2
      have hst3 := hst2.enter gb.cur.locals (g1 := gi.enterScope) rfl rfl (enterScope_inv hii) (hst2.free.of_eq rfl rfl)
      have hcu := hc.tail.tail
      have ei : s2.frame.ip = p + (Piece.at' (Instr.iterNext oi) sp).i.enc.length + (Piece.at' Instr.swapPop sp).i.enc.length := by
        rw [hi2]; simp [Instr.enc, u16le]
      rw [← ei] at hcu
      have hcb := hcu.right.left
      have hcj := hcu.right.right
      have hKK : ∀ l, l < A.st → innerK (innerK K A (A.st + g.cur.locals.length) gb.exitScope.cur.locals) A (A.st + gi.cur.locals.length) gb.cur.locals l →
          K l := fun l hl h => (innerK_lt (by omega)).1 ((innerK_lt (by omega)).1 h)
      have ee : A.st + gi.enterScope.cur.locals.length = s0.sp + 2 := by
        show A.st + gi.cur.locals.length = _; omega
      have hb1 := hbnd hst3 (by omega) (by rw [ee]; exact hx2) hcu.left
      refine Post.bind (Q := fun w γ' slots' σ' s' => EQ H (innerK K A (A.st + g.cur.locals.length) gb.exitScope.cur.locals) slots2
        { s2 with sp := s0.sp + 2 } (s2.frame.ip + cu.len + Code.len (cb ++ gb.exitC sp)) w γ' slots' σ' s') ?_ ?_
      · refine Post.bind (hb1.mono (K' := K) (fun _ _ _ _ _ _ h => h) hKK hB') ?_
        intro env3 γ3 slots3 σ3 s3 x3 q3
        have i3 := q3.ip
        rw [← i3] at hcb
        have p3 := q3.sp
        have hlen3 : gi.cur.locals.length ≤ g3.cur.locals.length := by
          obtain ⟨n3, hh⟩ := e4.1
          obtain ⟨old, k1, k2⟩ := hh.locals
          rw [k1, List.length_append, ← k2.length_eq]; show _ ≤ gi.cur.locals.length + _; omega
        refine ((hb h2 hw hd3 hbd2 hcb.left q3.st (fun _ => p3)).mono (K' := K) (fun _ _ _ _ _ _ h => h) hKK hB').andThen ?_
        intro w γ4 slots4 σ4 s4 x4 q4
        have p4 := q4.sp
        have hcx := hcb.right
        rw [← q4.ip] at hcx
        have hbelow : ∀ l, l < A.st + gi.cur.locals.length → slots4 l = slots2 l := fun l hl =>
          (q4.below l (by omega)).trans (q3.below l hl)
        have hst5 : St H A (innerK K A (A.st + g.cur.locals.length) gb.exitScope.cur.locals) γ2 slots2 gi env σ2 { s2 with sp := s0.sp + 2 } :=
          hst2.quiet (lo := s0.sp) ⟨rfl, rfl, rfl, rfl, rfl, rfl, rfl, rfl, rfl, rfl, rfl, fun _ _ => rfl⟩ (by show _ ≤ s0.sp + 2; omega)
            fun l loc hl => ⟨hsl l loc hl, by have := hsl l loc hl; show _ < s0.sp + 2; omega⟩
        have := sim_leave (B := B') hH hst5 e5.2 he (x4.act q3.st.act) hcx (ip := s4.frame.ip) (v := w) (σ1 := σ4) (slots1 := slots4)
          ⟨hbelow, q4.above, fun i hi hn => ?_, ?_, .inl (by show s0.sp + 2 = _; omega), rfl, q4.val, q4.ok, q4.openK⟩
        · have e : s2.frame.ip + cu.len + Code.len (cb ++ gb.exitC sp) = s4.frame.ip + Code.len (gb.exitC sp) := by
            rw [q4.ip, i3]; simp; omega
          rw [e]
          exact this.mono (fun _ _ _ _ _ _ h => h) (fun l hl h => (innerK_lt (by omega)).1 h) Bd.refl
        · have hi' : i < s0.sp + 2 := hi
          exact (q4.same i (by omega) ((q3.below i (by omega)).trans hn)).trans (q3.same i (by omega) hn)
        · show s4.sp + gi.cur.locals.length = s0.sp + 2 + gb.cur.locals.length + 1
          omega
      · intro w γ4 slots4 σ4 s4 x4 q4
        obtain rfl := q4.eqSlots
        have hst4 : St H A (innerK K A (A.st + g.cur.locals.length) gb.exitScope.cur.locals) γ4 slots4 gi env σ4 s4 :=
          hst2.next (StepE.refl hii) hst2.free x4 q4.ok q4.openK (by have := q4.sp; have e : s4.sp = s0.sp + 2 + 1 := this; omega)
        rw [← q4.ip] at hcj
        have hjb := jumpBack_step (H := H) hst4.act.fn hcj (by rw [q4.ip, hob]; omega)
        have e7 : s4.frame.ip + 3 - ob = p := by rw [q4.ip, hi2, hob]; omega
        rw [e7] at hjb
        have hn1 : slots4 s0.sp = none := hst.slotNone (Nat.le_refl _)
        have hn2 : slots4 (s0.sp + 1) = none := hst.slotNone (by omega)
        have hs4 : ∀ i, i < s0.sp + 2 → slots4 i = none → s4.stack i = s2.stack i := q4.same
        refine Post.of_reach (B' := ⟨B'.steps - 1, B'.depth⟩) (Reach.step hjb) (Ext.goto _ _ _ _ _) ⟨by show B'.steps ≤ B'.steps - 1 + 1; omega, rfl⟩
          (sim_forN hH hb hst hal hli hii e4 hbnd h2 hd3 hw e3 hbd ho hob hc W' ⟨B'.steps - 1, B'.depth⟩ (by show B'.steps - 1 ≤ W'; omega) ⟨by show B'.steps - 1 ≤ B.steps; have := hB'.1; omega, hB'.2⟩ (hst4.goto p)
            ⟨q4.sp, fun i hi hn => (hs4 i (by omega) hn).trans (hsame2 i hi hn), (hs4 _ (by omega) hn1).trans hctx2, ?_, q4.val, rfl⟩)
        show VRel _ _ _ _ (s4.stack (s0.sp + 1))
        rw [hs4 _ (by omega) hn2]
        exact VRel.mono x4.cells hit2

/-- `for` loops. -/
theorem sim_for (hH : HRel H S) (hBW : B.steps ≤ W) {it : Node} {body : List Node} (hi : SimE H S call W B it) (hb : SimS H S call W B body)
    {bnd : SVal → SEnv → SM D SEnv} {A : Act} {K : Nat → Prop} {γ slots : LocMap} {g gi g3 gb : GState} {env : SEnv} {σ : SSt D} {s : VM D}
    {ci cu cb : Code} {sp sp0 spj : Span} (hst : St H A K γ slots g env σ s) (hal : s.sp = A.st + g.cur.locals.length)
    (h1 : genNode H.cfg true .expr it g.enterScope.reserveTemp.reserveTemp = .ok ((), ci, gi)) (hwi : it.wf false = true)
    (e4 : GInv gi → StepN gi.enterScope g3) (hbnd : SimBnd H B A bnd gi.enterScope g3 cu)
    (h2 : genStmts H.cfg true body g3 = .ok (sp0, cb, gb)) (hd3 : g3.cur.depth ≠ 0) (hw : wfStmts true body = true)
    (hbd : Bound H A K gb.exitScope.exitScope) {oi ob : Nat}
    (ho : oi = (cb ++ gb.exitC sp).len + cu.len + 4) (hob : ob = (cb ++ gb.exitC sp).len + cu.len + 7) {c : Code}
    (hcode : c = .at' .newLoopCtx sp :: (ci ++ (.at' .loadNone sp :: .at' (.iterNext oi) sp :: .at' .swapPop sp ::
        (cu ++ ((cb ++ gb.exitC sp) ++ (.at' (.jumpBackward ob) spj :: gb.exitScope.exitC sp))))))
    (hc : CodeAt A.fn s.frame.ip c) :
    Post H A B K γ slots s ((evalNode S call W it env >>= fun v => forN (fun k => SM.lift (v.iterItem S.cfg.chk k) sp)
          (fun x => bnd x env >>= fun env' => evalStmts S call W body env') W 0 .none) σ)
      (EQ H K slots s (s.frame.ip + c.len)) := by
  subst hcode
  have a1 := step_reserveTemp (enterScope_inv hst.inv)
  have a2 := a1.trans (step_reserveTemp a1.2)
  have a3 := (ext_node H.cfg true it .expr a2.2 h1).e
  have e4 := e4 a3.2
  have hli : gi.cur.locals.length = g.cur.locals.length + 2 := by
    rw [GExtE.len a3.1, reserveTemp_len, reserveTemp_len]; rfl
  have e5 := ext_stmts H.cfg true body e4.2 h2
  have e45 := e4.trans e5
  obtain ⟨new, he⟩ := e45.1
  have hxs := step_scope a3.2 e45
  obtain ⟨newo, heo⟩ := (a2.trans (a3.trans hxs).n).1
  have hbd1 := Bound.enter hbd hst.inv hxs.2 heo
  have hle := hst.le
  -- the counter
  have hstA := ((hst.enter gb.exitScope.cur.locals (g1 := g.enterScope) rfl rfl (enterScope_inv hst.inv) (hst.free.of_eq rfl rfl)).temp).temp
  have hstep := step_at (H := H) hst.act.fn hc (by simp)
  simp only [VM.exec, VM.push_none hH.stack] at hstep
  generalize hs1 : VM.pushU _ _ = s1 at hstep
  have q1 : Quiet s.sp s s1 := by
    rw [← hs1]
    exact ⟨rfl, rfl, rfl, rfl, rfl, rfl, rfl, rfl, rfl, rfl, rfl, fun i hi => upd_other _ _ (by show i ≠ s.sp; omega)⟩
  have i1 : s1.frame.ip = s.frame.ip + 1 := by rw [← hs1]; rfl
  have p1 : s1.sp = s.sp + 1 := by rw [← hs1]; rfl
  have t1 : s1.stack s.sp = .loopCtx 0 := by rw [← hs1]; exact upd_same _ _ _
  have hst1 := hstA.quiet q1 (by omega) fun l loc hl => ⟨hst.slotSp hl, by have := hst.slotSp hl; omega⟩
  have hc1 := hc.tail
  rw [show s.frame.ip + (Piece.at' Instr.newLoopCtx sp).i.enc.length = s1.frame.ip by rw [i1]; rfl] at hc1
  have hKK : ∀ l, l < A.st → innerK K A (A.st + g.cur.locals.length) gb.exitScope.cur.locals l → K l :=
    fun l hl h => (innerK_lt (by omega)).1 h
  refine Post.of_reach (Reach.step hstep) (q1.ext hle) Bd.succ
    (Post.bind ((hi h1 hwi (hbd1.back hxs.1.ext) hc1.left hst1 (by simp)).mono (fun _ _ _ _ _ _ h => h) hKK Bd.refl) ?_)
  intro v γ2 slots2 σ2 s2 x2 q2
  obtain rfl := q2.eqSlots
  have f2 := free_node H.cfg true it .expr false hwi hstA.free h1
  have hst2 := hst1.nextE a3 f2 x2 q2
  have hc2 := hc1.right
  rw [← q2.ip] at hc2
  have p2 := q2.sp
  obtain ⟨γ0, slots0, s3, r3, x3, q3⟩ := sim_loadNone (B := B) hH hc2 hst2
  obtain rfl := q3.eqSlots
  have hst3 := hst2.nextE (StepE.refl hst2.inv) hst2.free x3 q3
  have hc3 := hc2.tail
  have i3 : s3.frame.ip = s2.frame.ip + 1 := q3.ip
  rw [show s2.frame.ip + (Piece.at' Instr.loadNone sp).i.enc.length = s3.frame.ip by rw [i3]; rfl] at hc3
  have p3 := q3.sp
  have hn0 : slots0 s.sp = none := hst.slotNone (Nat.le_refl _)
  have hn1 : slots0 (s.sp + 1) = none := hst.slotNone (by omega)
  have := sim_forN hH hb hst hal hli a3.2 e4 hbnd h2 hd3 hw (a2.trans a3.n) hbd ho hob hc3 W B (v := v) (k := 0) (last := .none) hBW Bd.refl hst3
    ⟨by omega, fun i hi hn => (q3.same i (by omega) hn).trans ((q2.same i (by omega) hn).trans (q1.stack i hi)),
      (q3.same _ (by omega) hn0).trans ((q2.same _ (by omega) hn0).trans t1), ?_, ?_, rfl⟩
  · refine Post.of_reach r3 x3 Bd.refl (this.imp ?_)
    intro _ _ _ _ _ _ h
    refine Eq.mp (congrArg (fun p => EQ H K slots0 s p _ _ _ _ _) ?_) h
    rw [i3, q2.ip, i1]
    simp [Instr.enc, u16le]; omega
  · rw [q3.same _ (by omega) hn1, ← p1]; exact VRel.mono x3.cells q2.val
  · have := q3.val
    rw [p2, p1] at this
    exact this

theorem sim_forIn (hH : HRel H S) (hBW : B.steps ≤ W) (sp : Span) (x : Name) (it : Node) (body : List Node) (hi : SimE H S call W B it)
    (hb : SimS H S call W B body) : SimE H S call W B (.forIn sp x it body) := by
  intro al A K γ slots g g' env σ s c hg hw hbd hc hst hal
  obtain ⟨ci, gi, sp0, cb, gb, h1, h2, _, hcode, rfl⟩ := gen_forIn hg
  simp only [Node.wf, Bool.and_eq_true] at hw
  obtain ⟨⟨⟨ha, hx⟩, hwi⟩, hwb⟩ := hw
  simp only [evalNode]
  refine sim_for hH hBW hi hb (bnd := fun item env => SM.bindVars [(x.1, item)] env) (cu := []) hst (hal ha) h1 hwi
    (fun h => step_defineLocals (enterScope_inv h) [x.1]) ?_ h2 (Nat.succ_ne_zero _) hwb hbd (by simp) (by simp) hcode hc
  intro K γ slots env σ s x' hst hsp hv _
  obtain ⟨slots', env', σ', k1, k2, k3⟩ := sim_bindN (xs := [x.1]) (vs := [x']) hst rfl (by simpa using hx) hsp ⟨by simpa using hv, trivial⟩
  have k1' : SM.bindVars [(x.1, x')] env σ = (.ok env', σ') := k1
  show Post H A B _ γ slots s (SM.bindVars [(x.1, x')] env σ) _
  rw [k1']
  have hle := hst.le
  refine ⟨γ, slots', s, Reach.refl _ _, ⟨γ.le_refl, fun l hl => k3 l (by omega), rfl, rfl, rfl, rfl, rfl, fun _ _ _ => rfl⟩,
    ⟨k2, ?_, k3, fun _ _ _ => rfl, rfl⟩⟩
  obtain ⟨b1, _⟩ := defineLocals_spec gi.enterScope [x.1]
  rw [b1, hsp]; simp; omega

theorem sim_forMulti (hH : HRel H S) (hBW : B.steps ≤ W) (sp : Span) (xs : List Name) (it : Node) (body : List Node) (hi : SimE H S call W B it)
    (hb : SimS H S call W B body) : SimE H S call W B (.forMulti sp xs it body) := by
  intro al A K γ slots g g' env σ s c hg hw hbd hc hst hal
  obtain ⟨ci, gi, sp0, cb, gb, _, h1, h2, _, hcode, rfl⟩ := gen_forMulti hg
  simp only [Node.wf, Bool.and_eq_true] at hw
  obtain ⟨⟨⟨ha, hx⟩, hwi⟩, hwb⟩ := hw
  simp only [evalNode]
  refine sim_for hH hBW hi hb (bnd := fun item env => declVars (.many xs) it.span item env) (cu := [.at' (.unpack xs.length) it.span]) hst (hal ha) h1 hwi
    (fun h => step_defineLocals (enterScope_inv h) _) ?_ h2 (by rw [defineLocals_depth]; exact Nat.succ_ne_zero _) hwb hbd (by simp [Instr.enc, u8b]) (by simp [Instr.enc, u8b]) hcode hc
  intro K γ slots env σ s x' hst hsp hv hcu
  have := sim_bindMany (B := B) hH hst hx hsp hv hcu
  simpa using this

end

end Quilt
