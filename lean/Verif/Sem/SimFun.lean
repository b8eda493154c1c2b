import Verif.Sem.SimNode

/-!
# Simulation: builtin functions and function values
-/

namespace Quilt
variable {D : Type}

/-- Pending exit functions after entering a context. -/
def addExit (e : Option (ExitFn D)) (es : List (ExitFn D)) : List (ExitFn D) :=
  match e with
  | some e => e :: es
  | none => es

section
variable {H : Host D} {S : SHost D} {call : SClos → List SVal → SM D SVal} {W : Nat} {B : Bd}

/-! ## Builtins -/

theorem runBuiltin_eq {s : VM D} {f : BFn D VClos} {n : Nat} (exit : Option (ExitFn D)) (h : ¬ s.sp < n) :
    s.runBuiltin H f n exit =
      VM.lift { s with
        sp := s.sp - n, exitFns := addExit exit s.exitFns, data := (f s.data (s.topN n).reverse H.opts.lim).2 }
      (f s.data (s.topN n).reverse H.opts.lim).1 (fun v => VM.push H { s with
        sp := s.sp - n, exitFns := addExit exit s.exitFns, data := (f s.data (s.topN n).reverse H.opts.lim).2 } v) := by
  unfold VM.runBuiltin
  rw [if_neg h]
  cases exit <;> rfl

theorem sim_runBuiltin (hH : HRel H S) {A : Act} {K : Nat → Prop} {γ slots : LocMap} {σ : SSt D} {s0 s : VM D}
    {f : BFn D SClos} {f' : BFn D VClos} (hf : BRel H.opts.lim f f') (exit : Option (ExitFn D)) {vs : List SVal} {csp : Span} {p : Nat}
    (hstep : s.step H = (s.goto p).runBuiltin H f' vs.length exit) (hspan : s.frame.fn.getSpan (p - 1) = csp)
    (hok : Ok H.cfg H.syms.entries γ slots σ s.mem) (hk : OpenK K s.mem)
    (hs : ∀ l loc, slots l = some loc → l < s0.sp) (hsame : ∀ i, i < s0.sp → slots i = none → s.stack i = s0.stack i)
    (hsp : s.sp = s0.sp + vs.length) (hst : A.st ≤ s0.sp)
    (hv : Val.RelL (CRel H.cfg H.syms.entries γ) vs (seg s.stack s0.sp vs.length)) :
    Post H A B K γ slots s (SM.host (fun d => f d vs S.lim) csp { σ with exits := addExit exit σ.exits }) (EQ H K slots s0 p) := by
  have hargs : ((s.goto p).topN vs.length).reverse = seg s.stack s0.sp vs.length := by
    rw [topN_eq _ (by simp; omega), List.reverse_reverse]
    simp [hsp]
  have hd : s.data = σ.data := hok.data
  obtain ⟨h1, h2⟩ := hf.rel _ CRel.name s.data _ _ hv
  have h0 : ¬ s.sp < vs.length := by omega
  rw [hH.lim]
  simp only [SM.host, ← hd]
  rw [runBuiltin_eq exit (by simpa using h0)] at hstep
  simp only [VM.goto_sp, hargs, VM.goto_data, VM.goto_exitFns] at hstep
  generalize hr : f s.data vs H.opts.lim = r at h1 h2
  generalize hr' : f' s.data (seg s.stack s0.sp vs.length) H.opts.lim = r' at h1 h2 hstep
  obtain ⟨a, d⟩ := r
  obtain ⟨a', d'⟩ := r'
  simp only at h1 h2 hstep
  subst h2
  have hok2 : Ok H.cfg H.syms.entries γ slots { σ with exits := addExit exit σ.exits, data := d }
      ({ s with exitFns := addExit exit s.exitFns, data := d } : VM D).mem := by
    have := (hok.setExits (addExit exit σ.exits)).setData d
    have he : s.exitFns = σ.exits := hok.exits
    rw [he]; exact this
  cases a <;> cases a' <;> simp only [Res.Rel] at h1
  case ok.ok v w =>
    simp only [VM.lift, VM.push_none hH.stack] at hstep
    refine ⟨γ, slots, _, (Reach.step hstep).mono (by omega), ?_, ?_⟩
    · refine ⟨γ.le_refl, fun _ _ => rfl, rfl, rfl, rfl, rfl, rfl, fun l hl _ => ?_⟩
      exact upd_other _ _ (by simp; omega)
    · refine EQ.of_quiet (s2 := { s with exitFns := addExit exit s.exitFns, data := d }) hok2 hk hs hsame ?_ ?_ rfl ?_
      · refine ⟨rfl, rfl, rfl, rfl, rfl, rfl, rfl, rfl, rfl, rfl, rfl, fun l hl => ?_⟩
        exact upd_other _ _ (by simp; omega)
      · simp [VM.pushU]; omega
      · have : s.sp - vs.length = s0.sp := by omega
        simpa [VM.pushU, this] using h1
  case err.err e e' =>
    subst h1
    simp only [VM.lift, VM.err1, VM.goto_fn, VM.goto_ip, hspan] at hstep
    exact Post.err hstep (fun x hx => by cases hx; rfl) hok2
  case panic.panic =>
    simp only [VM.lift] at hstep
    exact Post.panic hstep

theorem sim_builtin (hH : HRel H S) (sp : Span) (x : Name) (args : List Node) (ha : SimArgs H S call W B args)
    (hlen : ∀ (env : SEnv) (σ σ' : SSt D) vs, evalArgs S call W args env σ = (.ok vs, σ') → vs.length = args.length) :
    SimE H S call W B (.builtin sp x args) := by
  intro al A K γ slots g g' env σ s c hg hw hbd hc hst hal
  obtain ⟨ca, ga, i, hle, h1, h2, rfl⟩ := gen_builtin hg
  simp only [Node.wf] at hw
  simp only [evalNode]
  have e1 := ext_args H.cfg true args hst.inv h1
  have f1 := free_args H.cfg true args al hw hst.free h1
  have e2 := addGlobal_ext e1.2 h2
  refine Post.bind_eq (ha h1 hw (hbd.back e2.1.ext) hc.left hst hal) ?_
  intro vs γ1 slots1 σ1 s1 hev hx1 hq1
  obtain rfl := hq1.eqSlots
  have hl := hlen _ _ _ _ hev
  have hst1 := hst.nextEs e1 f1 hx1 hq1
  have hc1 := hc.right
  rw [← hq1.ip] at hc1
  have hid := addGlobal_id e1.2 h2 hbd.globals hH.symsLen
  have hb := hH.builtins i x.1 hid
  have hn : VM.symName H i = x.1 := by simp [VM.symName, Pool.get, hid]
  have hip : s.frame.ip + Code.len (ca ++ [⟨.callBuiltin i args.length, sp, x.2⟩]) =
      s1.frame.ip + (Instr.callBuiltin i args.length).enc.length := by
    rw [hq1.ip]; simp; omega
  rw [hip]
  have hstep := step_at (H := H) hst1.act.fn hc1 (by simp)
  have hspan := span_at hst1.act.fn hc1
  simp only [VM.exec] at hstep
  cases hS : S.builtins x.1 with
  | none =>
    cases hV : H.builtins i with
    | some b => rw [hS, hV] at hb; exact hb.elim
    | none =>
      simp only [callBuiltin, hS]
      rw [hV] at hstep
      simp only [VM.err1, hn, VM.goto_fn, VM.goto_ip, hspan] at hstep
      exact Post.err hstep (fun x hx => by cases hx; rfl) hq1.ok
  | some b =>
    cases hV : H.builtins i with
    | none => rw [hS, hV] at hb; cases b <;> exact hb.elim
    | some b' =>
      rw [hV] at hstep
      rw [hS, hV] at hb
      simp only [callBuiltin, hS]
      cases b <;> cases b' <;> simp only [BuiltinRel] at hb
      case fn.fn f f' =>
        rw [← hl] at hstep ⊢
        exact sim_runBuiltin hH hb none hstep (by rw [hl]; exact hspan) hq1.ok hq1.openK (fun l loc hl => hst.slotSp hl) hq1.same hq1.sp hst.le hq1.val
      case ctx.ctx f e f' e' =>
        exact Post.err hstep (fun x hx => by cases hx) hq1.ok

/-! ## Creating functions -/

theorem captureAll_sim {A : Act} {K : Nat → Prop} {slots : LocMap} {g : GState} {env : SEnv} {σ : SSt D}
    (hfr : FrameOk slots A g env) (hbd : Bound H A K g) : ∀ (us : List Upv) {γ : LocMap} {s : VM D},
    (∀ u ∈ us, isTemp u.name = false ∧
      if u.isLocal then lastIdx u.name g.cur.locals = some u.idx ∧ ∃ x, g.cur.locals[u.idx]? = some x ∧ x.captured = true
      else lastIdx u.name g.cur.locals = none ∧ ∃ u', g.cur.upvalues[u.idx]? = some u' ∧ u'.name = u.name) →
    ActOk γ A s → Ok H.cfg H.syms.entries γ slots σ s.mem → OpenK K s.mem →
    ∃ cs s' γ', s.captureAll (us.map fun u => ((if u.isLocal then 1 else 0), u.idx)) = some (cs, s') ∧ γ.le γ' ∧
      Ok H.cfg H.syms.entries γ' slots σ s'.mem ∧ OpenK K s'.mem ∧ s'.stack = s.stack ∧ s'.sp = s.sp ∧
      s'.frame = s.frame ∧ s'.frames = s.frames ∧ s'.blockResults = s.blockResults ∧ cs.length = us.length ∧
      ∀ (j : Nat) (u : Upv), us[j]? = some u → ∃ c loc, cs[j]? = some c ∧ γ' c = some loc ∧ lookup u.name env = some loc
  | [], γ, s, _, ha, hok, hk => ⟨[], s, γ, rfl, γ.le_refl, hok, hk, rfl, rfl, rfl, rfl, rfl, rfl, by simp⟩
  | u :: us, γ, s, hus, ha, hok, hk => by
    obtain ⟨ht, hu⟩ := hus u (by simp)
    have hus' := fun u' h => hus u' (List.mem_cons_of_mem _ h)
    obtain ⟨envL, henv, hl1, hl2, hl3⟩ := hfr
    have hfr : FrameOk slots A g env := ⟨envL, henv, hl1, hl2, hl3⟩
    cases hb : u.isLocal with
    | true =>
      rw [hb] at hu
      simp only [if_true] at hu
      obtain ⟨h1, x, h2, h3⟩ := hu
      obtain ⟨loc, h4, h5⟩ := hl1.lookup_some ht h1 A.envC
      cases hc : s.capture (s.frame.st + u.idx) with
      | mk c s1 =>
        rw [ha.st] at hc
        obtain ⟨γ1, k1, k2, k3, k4, k5, k6, k7, k8, k9⟩ := hok.capture h5 hc
        have ha1 : ActOk γ1 A s1 := ⟨by rw [k7]; exact ha.fn, by rw [k7]; exact ha.ups, by rw [k7]; exact ha.st, fun j u hj => by
          obtain ⟨c, loc, a1, a2, a3⟩ := ha.cells j u hj
          exact ⟨c, loc, a1, k1 _ _ a2, a3⟩⟩
        have hk1 : OpenK K s1.mem := by
          intro l hl
          rcases k4 l hl with h | rfl
          · exact hk l h
          · exact hbd.caps _ _ h2 h3
        obtain ⟨cs, s2, γ2, q1, q2, q3, q4, q5, q6, q7, q8, q9, q10, q11⟩ := captureAll_sim hfr hbd us hus' ha1 k3 hk1
        refine ⟨c :: cs, s2, γ2, ?_, LocMap.le_trans k1 q2, q3, q4, q5.trans k5, q6.trans k6, q7.trans k7, q8.trans k8, q9.trans k9,
          by simp [q10], ?_⟩
        · simp only [List.map_cons, hb, if_true, VM.captureAll, ha.st, hc, q1]
        · intro j u' hj
          cases j with
          | zero =>
            simp at hj; subst hj
            exact ⟨c, loc, by simp, q2 _ _ k2, by rw [henv]; exact h4⟩
          | succ j => exact q11 j u' (by simpa using hj)
    | false =>
      rw [hb] at hu
      simp only [Bool.false_eq_true, if_false] at hu
      obtain ⟨h1, u', h2, h3⟩ := hu
      obtain ⟨c, loc, h4, h5, h6⟩ := ha.cells u.idx u' (getElem?_prefix hbd.ups h2)
      obtain ⟨cs, s2, γ2, q1, q2, q3, q4, q5, q6, q7, q8, q9, q10, q11⟩ := captureAll_sim hfr hbd us hus' ha hok hk
      refine ⟨c :: cs, s2, γ2, ?_, q2, q3, q4, q5, q6, q7, q8, q9, by simp [q10], ?_⟩
      · simp [hb, VM.captureAll, ha.ups, h4, q1]
      · intro j v hj
        cases j with
        | zero =>
          simp at hj; subst hj
          refine ⟨c, loc, by simp, q2 _ _ h5, ?_⟩
          rw [henv, hl1.lookup_none h1, ← h3]; exact h6
        | succ j => exact q11 j v (by simpa using hj)

theorem mkFunc_ups (name : Name) (n : Nat) (l : GLevel) (c : Code) : (GM.mkFunc name n l c).upvalueCount = l.upvalues.length % 65536 := rfl

/-- A function expression or declaration creates a related function value. -/
theorem sim_func (hH : HRel H S) {A : Act} {K : Nat → Prop} {γ slots : LocMap} {g g' : GState} {env : SEnv} {σ : SSt D} {s : VM D}
    {c : Code} {name : Name} {params : List Name} {sp : Span} {body : List Node} {u : Unit}
    (hg : GM.func true name params sp (genStmts H.cfg true body) g = .ok (u, c, g'))
    (hwb : wfStmts true body = true) (hn : nameOk name.1 = true) (hp : (params.all fun x => nameOk x.1) = true)
    (hbd : Bound H A K g') (hc : CodeAt A.fn s.frame.ip c) (hst : St H A K γ slots g env σ s) :
    Post H A B K γ slots s ((pure (.clos ⟨name.1, name.2, params.map Prod.fst, body, env⟩) : SM D SVal) σ)
      (EQ H K slots s (s.frame.ip + c.len)) := by
  rw [GM.func_ok] at hg
  obtain ⟨s0, cb, g1, l, ls, h1, h2, h3, rfl, hg'⟩ := hg
  have hfit := h3 rfl
  have a1 := ext_stmts H.cfg true body (enterFn_inv hst.inv name.1 (params.map Prod.fst)) h1
  obtain ⟨b1, b2⟩ := leaveFn_ext a1.2 a1.1 h2
  have f1 := free_stmts H.cfg true body true hwb (free_enterFn hst.free name.1 (params.map Prod.fst)) h1
  have f2 : UpsFree { g1 with cur := l, encl := ls } := by
    intro q hq
    exact f1 q (by rw [h2]; exact List.mem_cons_of_mem _ hq)
  cases hk : ({ g1 with cur := l, encl := ls } : GState).addConst (.fn (GM.mkFunc name params.length g1.cur cb)) with
  | mk k g2 =>
  rw [hk] at hg' hc
  simp only at hg' hc
  subst hg'
  have e2 := addConst_ext b2 hk
  have hbl := hbd.back e2.1.ext
  have hstl := hst.step ⟨b1, b2⟩ f2
  have hkid := addConst_id b2 hk hbd.consts hbd.constsLen
  have hgl : g1.globals.entries <+: H.syms.entries := hbl.globals
  have hus : ∀ u ∈ g1.cur.upvalues, isTemp u.name = false ∧
      if u.isLocal then lastIdx u.name l.locals = some u.idx ∧ ∃ x, l.locals[u.idx]? = some x ∧ x.captured = true
      else lastIdx u.name l.locals = none ∧ ∃ u', l.upvalues[u.idx]? = some u' ∧ u'.name = u.name := by
    intro u hu
    refine ⟨f1 g1.cur (by simp) u hu, ?_⟩
    have := a1.2.chain
    rw [h2] at this
    exact this.1 u hu
  obtain ⟨cs, s1, γ1, q1, q2, q3, q4, q5, q6, q7, q8, q9, q10, q11⟩ :=
    captureAll_sim (H := H) hstl.frame hbl g1.cur.upvalues (s := s.goto (s.frame.ip + (GM.closInstr k g1.cur.upvalues).enc.length)) hus
      ⟨hst.act.fn, hst.act.ups, hst.act.st, hst.act.cells⟩ hst.ok hst.openK
  have hlen : g1.cur.upvalues.length < 65536 := by
    simp only [GM.fnFits, Bool.and_eq_true, decide_eq_true_eq] at hfit
    exact hfit.2
  have hrel : CRel H.cfg H.syms.entries γ1 ⟨name.1, name.2, params.map Prod.fst, body, env⟩ ⟨GM.mkFunc name params.length g1.cur cb, cs⟩ := by
    refine ⟨g, s0, cb, g1, h1, ?_, hfit, hst.inv, hst.free, hst.frame.names, hgl, hwb, hn, ?_, q10, q11⟩
    · simp
    · simpa [List.all_map] using hp
  have hstep : s.step H = .next (s1.pushU (.clos ⟨GM.mkFunc name params.length g1.cur cb, cs⟩)) := by
    have := VM.step_code (H := H) (s := s) (q := .at' (GM.closInstr k g1.cur.upvalues) sp) (c := [])
      (by rw [hst.act.fn]; exact hc) (by
        rw [hst.act.fn]
        refine Instr.fits_of_small (hc.2.2 _ (by simp)) fun k' us' he => ?_
        unfold GM.closInstr at he
        split at he
        · simp at he
        · simp only [Instr.createClosure.injEq] at he
          obtain ⟨rfl, rfl⟩ := he
          exact ⟨_, hkid, by rw [mkFunc_ups, Nat.mod_eq_of_lt hlen]; simp⟩)
    rw [this]
    unfold GM.closInstr at q1 ⊢
    by_cases hu : g1.cur.upvalues = []
    · simp only [hu, if_true, List.map_nil, VM.captureAll, Option.some.injEq, Prod.mk.injEq] at q1
      obtain ⟨rfl, rfl⟩ := q1
      simp only [hu, if_true, VM.exec, VM.goto_fn, hst.act.fn, hkid, VM.push_none hH.stack]
    · simp only [hu, if_false] at q1
      simp only [hu, if_false, VM.exec, VM.goto_fn, hst.act.fn, hkid, q1, VM.push_none hH.stack]
  have hsp : s1.sp = s.sp := q6
  refine ⟨γ1, slots, _, (Reach.step hstep).mono (by omega), ?_, ?_⟩
  · have r1 : s1.frame.fn = s.frame.fn := by rw [q7]; rfl
    have r2 : s1.frame.ups = s.frame.ups := by rw [q7]; rfl
    have r3 : s1.frame.st = s.frame.st := by rw [q7]; rfl
    refine ⟨q2, fun _ _ => rfl, q8, q9, r1, r2, r3, fun i hi _ => ?_⟩
    have := hst.le
    simp only [VM.pushU, hsp]
    rw [upd_other _ _ (by omega), q5]; rfl
  · refine EQ.of_quiet (s2 := s1) q3 q4 (fun l loc hl => hst.slotSp hl) (fun i _ _ => by rw [q5]; rfl) ?_ ?_ ?_ ?_
    · exact Quiet.repl (k := 0) (by omega) _
    · simp [VM.pushU, hsp]
    · have : s1.frame.ip = s.frame.ip + (GM.closInstr k g1.cur.upvalues).enc.length := congrArg Frame.ip q7
      simp [VM.pushU, this]
    · simpa [VM.pushU, hsp, Val.Rel] using hrel

theorem sim_lambda (hH : HRel H S) (sp : Span) (params : List Name) (body : List Node) :
    SimE H S call W B (.lambda sp params body) := by
  intro al A K γ slots g g' env σ s c hg hw hbd hc hst hal
  simp only [Node.wf, Bool.and_eq_true] at hw
  simp only [evalNode]
  exact sim_func hH (gen_lambda hg).2 hw.2 (by show nameOk "@__lambda__" = true; decide) hw.1 hbd hc hst

end

end Quilt
