import Verif.Sem.SimLoop

/-!
# Simulation: contexts
-/

namespace Quilt
variable {D : Type}

/-- After binding the variable of a context. -/
structure CQ (H : Host D) (A : Act) (K : Nat → Prop) (slots : LocMap) (al : Bool) (g g' : GState) (s : VM D) (ip : Nat) (env' : SEnv)
    (γ' slots' : LocMap) (σ' : SSt D) (s' : VM D) : Prop where
  st : St H A K γ' slots' g' env' σ' s'
  al : al = true → s'.sp = A.st + g'.cur.locals.length
  sp : s'.sp + g.cur.locals.length = s.sp + g'.cur.locals.length
  new : s.sp = A.st + g.cur.locals.length ∨ g'.cur.locals.length = g.cur.locals.length
  below : ∀ l, l < A.st + g.cur.locals.length → slots' l = slots l
  free : ∀ l, l < s.sp → slots l = none → slots' l = none
  same : ∀ i, i < s.sp → slots i = none → s'.stack i = s.stack i
  ip : s'.frame.ip = ip

section
variable {H : Host D} {S : SHost D} {call : SClos → List SVal → SM D SVal} {W : Nat} {B : Bd}

theorem sim_ctxVar (hH : HRel H S) {al : Bool} {v : Option Var} (hv : varOk v = true) (ha : (v.isNone || al) = true)
    {A : Act} {K : Nat → Prop} {γ γ1 slots : LocMap} {g gv : GState} {env : SEnv} {σ σ1 : SSt D} {s s1 : VM D} {x : SVal} {sp csp : Span} {cv : Code} {ip : Nat}
    (hg : GM.ctxVar sp csp v g = .ok ((), cv, gv)) {g0 : GState} {K0 : Nat → Prop} (hst : St H A K0 γ slots g0 env σ s)
    (hlg : g.cur.locals.length = g0.cur.locals.length)
    (hal : al = true → s.sp = A.st + g.cur.locals.length)
    (hst1 : St H A K γ1 slots g env σ1 s1) (hq : EQ H K0 slots s ip x γ1 slots σ1 s1) (hc : CodeAt A.fn s1.frame.ip cv) :
    Post H A B K γ1 slots s1 (ctxVars v sp x env σ1) (CQ H A K slots al g gv s (s1.frame.ip + cv.len)) := by
  have hp := hq.sp
  have hle := hst.le
  cases v with
  | none =>
    obtain ⟨rfl, rfl⟩ := ctxVar_none hg
    simp only [ctxVars]
    have hstep := pop_step (H := H) hst1.act.fn hc (by omega)
    have e : s1.sp - 1 = s.sp := by omega
    have hst2 := hst1.drop (k := 1) (p := s1.frame.ip + 1) (fun l loc hl => by have := hst.slotSp hl; omega) (by omega)
    refine Post.of_reach (Reach.step hstep) (Ext.drop _ _ _ _ _ _) Bd.succ (Post.pure' ⟨hst2, ?_, ?_, .inr rfl, fun _ _ => rfl, fun _ _ h => h, hq.same, ?_⟩)
    · intro h; show s1.sp - 1 = _; rw [e]; exact hal h
    · show s1.sp - 1 + _ = _; rw [e]
    · simp [Instr.enc]
  | some v =>
    simp only [Option.isNone_some, Bool.false_or] at ha
    have hal' := hal ha
    have hvr := hq.val
    rw [hal'] at hvr
    simp only [ctxVars]
    have key : ∀ {slots' γ' env' σ' s'}, DQ H A K slots g gv s1 (s1.frame.ip + cv.len) env' γ' slots' σ' s' →
        CQ H A K slots al g gv s (s1.frame.ip + cv.len) env' γ' slots' σ' s' := by
      intro slots' γ' env' σ' s' h
      have := h.sp
      exact ⟨h.st, fun _ => h.sp, by omega, .inl hal', h.below, fun l hl hn => (h.below l (by omega)).trans hn,
        fun i hi hn => (h.same i (by omega) hn).trans (hq.same i hi hn), h.ip⟩
    cases v with
    | one y =>
      obtain ⟨r, h3, rfl⟩ := ctxVar_one hg
      refine (sim_bind1 hH hst1 hv (by omega) hvr h3 hc).imp ?_
      intro a γ' slots' σ' s' _ hq
      exact key hq
    | many ys =>
      obtain ⟨_, rfl, rfl⟩ := ctxVar_many hg
      refine (sim_bindMany hH hst1 hv (by omega) hvr hc).imp ?_
      intro a γ' slots' σ' s' _ hq
      exact key (by simpa using hq)

theorem sim_exitContext {A : Act} {K : Nat → Prop} {slots γ1 slots1 : LocMap} {σ1 : SSt D} {s s1 : VM D} {x : SVal} {sp : Span} {ip : Nat}
    (hfn : s1.frame.fn = A.fn) (hq : EQ H K slots s ip x γ1 slots1 σ1 s1) (hc : CodeAt A.fn s1.frame.ip [.at' .exitContext sp]) :
    Post H A B K γ1 slots1 s1 ((SM.popExit sp >>= fun _ => pure x : SM D SVal) σ1) (EQ H K slots s (ip + 1)) := by
  obtain rfl := hq.eqSlots
  have hstep := step_at (H := H) hfn hc (by simp)
  have hspan := span_at hfn hc
  have he : s1.exitFns = σ1.exits := hq.ok.exits
  have hd : s1.data = σ1.data := hq.ok.data
  have hip : s1.frame.ip + 1 = ip + 1 := by rw [hq.ip]
  show Post H A B K γ1 slots1 s1 (SM.bind (SM.popExit sp) (fun _ => pure x) σ1) _
  simp only [VM.exec, VM.goto_exitFns, VM.goto_data, he, hd] at hstep
  cases hes : σ1.exits with
  | nil =>
    rw [hes] at hstep
    simp only [SM.bind, SM.popExit, hes]
    refine Post.of_reach (Reach.step hstep) (Ext.goto _ _ _ _ _) Bd.succ (Post.pure' ?_)
    have := hq.goto (s1.frame.ip + 1)
    exact ⟨rfl, this.same, this.sp, hip, this.val, this.ok, this.openK⟩
  | cons e es =>
    rw [hes] at hstep
    simp only [SM.bind, SM.popExit, SM.host, hes]
    cases hr : e σ1.data with
    | mk r d =>
    simp only [hr] at hstep ⊢
    have hok2 : Ok H.cfg H.syms.entries γ1 slots1 { σ1 with exits := es, data := d }
        ({ s1.goto (s1.frame.ip + 1) with exitFns := es, data := d } : VM D).mem := (hq.ok.setExits es).setData d
    cases r with
    | ok u =>
      simp only [VM.lift] at hstep
      simp only
      refine ⟨γ1, slots1, _, (Reach.step hstep).mono (Nat.zero_le _), ⟨γ1.le_refl, fun _ _ => rfl, rfl, rfl, rfl, rfl, rfl, fun _ _ _ => rfl⟩, ?_⟩
      exact ⟨rfl, hq.same, hq.sp, hip, hq.val, hok2, hq.openK⟩
    | err e =>
      simp only [VM.lift, VM.err1, VM.goto_fn, VM.goto_ip, hspan] at hstep
      simp only
      exact Post.err hstep (fun x hx => by cases hx; rfl) hok2
    | panic => exact Post.panic hstep

theorem sim_enterCtx (hH : HRel H S) {x : Name} {A : Act} {K : Nat → Prop} {γ slots : LocMap} {g : GState} {env : SEnv} {σ : SSt D} {s s1 : VM D} {i : Nat}
    {sp : Span} {vs : List SVal} {rest : Code} (hid : H.syms.entries[i]? = some x.1) (hst1 : St H A K γ slots g env σ s1)
    (hs : ∀ l loc, slots l = some loc → l < s.sp) (hsame : ∀ i, i < s.sp → slots i = none → s1.stack i = s.stack i)
    (hsp : s1.sp = s.sp + vs.length) (hle : A.st ≤ s.sp) (hv : Val.RelL (CRel H.cfg H.syms.entries γ) vs (seg s1.stack s.sp vs.length))
    (hc : CodeAt A.fn s1.frame.ip (⟨.enterContext i vs.length, sp, x.2⟩ :: rest)) :
    Post H A B K γ slots s1 (enterCtx S x.1 x.2 vs σ) (EQ H K slots s (s1.frame.ip + (Instr.enterContext i vs.length).enc.length)) := by
  have hb := hH.builtins i x.1 hid
  have hn : VM.symName H i = x.1 := by simp [VM.symName, Pool.get, hid]
  have hstep := step_at (H := H) hst1.act.fn hc (by simp)
  have hspan := span_at hst1.act.fn hc
  simp only [VM.exec] at hstep
  cases hS : S.builtins x.1 with
  | none =>
    cases hV : H.builtins i with
    | some b => rw [hS, hV] at hb; exact hb.elim
    | none =>
      simp only [enterCtx, hS]
      rw [hV] at hstep
      simp only [VM.err1, hn, VM.goto_fn, VM.goto_ip, hspan] at hstep
      exact Post.err hstep (fun x hx => by cases hx; rfl) hst1.ok
  | some b =>
    cases hV : H.builtins i with
    | none => rw [hS, hV] at hb; cases b <;> exact hb.elim
    | some b' =>
      rw [hV] at hstep
      rw [hS, hV] at hb
      simp only [enterCtx, hS]
      cases b <;> cases b' <;> simp only [BuiltinRel] at hb
      case fn.fn f f' =>
        exact sim_runBuiltin hH hb none hstep hspan hst1.ok hst1.openK hs hsame hsp hle hv
      case ctx.ctx f e f' e' =>
        obtain ⟨hb, rfl⟩ := hb
        exact sim_runBuiltin hH hb (some e) hstep hspan hst1.ok hst1.openK hs hsame hsp hle hv

theorem sim_ctx (hH : HRel H S) (sp : Span) (x : Name) (args : List Node) (v : Option Var) (body : List Node) (ha : SimArgs H S call W B args)
    (hb : SimS H S call W B body)
    (hlen : ∀ (env : SEnv) (σ σ' : SSt D) vs, evalArgs S call W args env σ = (.ok vs, σ') → vs.length = args.length) :
    SimE H S call W B (.ctx sp x args v body) := by
  intro al A K γ slots g g' env σ s c hg hw hbd hc hst hal
  obtain ⟨ca, ga, i, gi, cv, gv, sp0, cb, gb, hle, h1, h2, h3, h4, rfl, rfl⟩ := gen_ctx hg
  simp only [Node.wf, Bool.and_eq_true] at hw
  obtain ⟨⟨⟨hw1, hw2⟩, hw3⟩, hw4⟩ := hw
  simp only [evalNode]
  have e1 := ext_args H.cfg true args hst.inv h1
  have f1 := free_args H.cfg true args al hw1 hst.free h1
  have e2 : StepE ga gi := ⟨(addGlobal_ext e1.2 h2).1, (addGlobal_ext e1.2 h2).2.1⟩
  have f2 := free_addGlobal f1 h2
  have e3 := step_ctxVar (enterScope_inv e2.2) h3
  have e4 := ext_stmts H.cfg true body e3.2 h4
  obtain ⟨new, he⟩ := (e3.trans e4).1
  have hxs := step_scope e2.2 (e3.trans e4)
  have e12 : StepE g gi := e1.trans e2
  have hl := GExtE.len e12.1
  have hsg := hst.step e12 f2
  have hbd1 := Bound.enter hbd e2.2 e4.2 he
  refine Post.bind_eq (ha h1 hw1 (hbd.back (StepE.trans e2 hxs).1.ext) hc.left hst hal) ?_
  intro vs γ1 slots1 σ1 s1 hev hx1 hq1
  obtain rfl := hq1.eqSlots
  have hvl := hlen _ _ _ _ hev
  have hst1 := hst.nextEs e1 f1 hx1 hq1
  have hc1 := hc.right
  rw [← hq1.ip, ← hvl] at hc1
  have hid := addGlobal_id e1.2 h2 (hxs.1.globals.trans hbd.globals) hH.symsLen
  refine Post.bind (sim_enterCtx hH hid hst1 (fun l loc hl => hst.slotSp hl) hq1.same hq1.sp hst.le hq1.val hc1) ?_
  intro r γ2 slots2 σ2 s2 x2 q2
  obtain rfl := q2.eqSlots
  have hst2 := hsg.next (s' := s2) (StepE.refl e2.2) f2 (hx1.trans x2) q2.ok q2.openK (by have := q2.sp; have := hst.le; omega)
  have hst2' := hst2.enter gb.cur.locals (g1 := gi.enterScope) rfl rfl (enterScope_inv e2.2) (f2.of_eq rfl rfl)
  have hc2 := hc1.tail
  have hc2' : CodeAt A.fn s2.frame.ip (cv ++ (cb ++ (gb.exitC sp ++ [.at' .exitContext sp]))) := by rw [q2.ip]; exact hc2
  have hKK : ∀ l, l < A.st → innerK K A (A.st + gi.cur.locals.length) gb.cur.locals l → K l :=
    fun l hl h => (innerK_lt (by omega)).1 h
  refine Post.bind ((sim_ctxVar (al := al) hH hw3 hw2 h3 hsg (by rfl) (by intro h; have := hal h; show s.sp = A.st + gi.cur.locals.length; omega) hst2' q2 hc2'.left).mono
    (fun _ _ _ _ _ _ h => h) hKK Bd.refl) ?_
  intro env3 γ3 slots3 σ3 s3 x3 q3
  have hd3 : gv.cur.depth ≠ 0 := by obtain ⟨_, hh⟩ := e3.1; rw [hh.depth]; exact Nat.succ_ne_zero _
  have hc3 := hc2'.right
  rw [← q3.ip] at hc3
  refine Post.bind (Q := EQ H K slots2 s (s3.frame.ip + cb.len + (gb.exitC sp).len)) (((hb h4 hw4 hd3 hbd1 hc3.left q3.st q3.al).mono
    (fun _ _ _ _ _ _ h => h) hKK Bd.refl).andThen ?_) ?_
  · intro w γ4 slots4 σ4 s4 x4 q4
    have hc4 := hc3.right
    rw [← q4.ip] at hc4
    have hp4 := q4.sp
    have hp3 := q3.sp
    have hl3 : gi.cur.locals.length ≤ gv.cur.locals.length := by
      obtain ⟨_, hh⟩ := e3.1
      obtain ⟨old, k1, k2⟩ := hh.locals
      rw [k1, List.length_append, ← k2.length_eq]; show _ ≤ gi.cur.locals.length + _; omega
    have hp3' : s3.sp + gi.cur.locals.length = s.sp + gv.cur.locals.length := hp3
    refine sim_leave (B := B) hH hsg e4.2 he (x4.act q3.st.act) hc4.left (ip := s3.frame.ip + cb.len) (slots1 := slots4)
      ⟨fun l hl => (q4.below l (by omega)).trans (q3.below l hl), q4.above, ?_, by omega, ?_, q4.ip, q4.val, q4.ok, q4.openK⟩
    · intro i hi hn
      exact (q4.same i (by omega) (q3.free i hi hn)).trans (q3.same i hi hn)
    · rcases q3.new with h | h
      · exact .inl h
      · have h' : gv.cur.locals.length = gi.cur.locals.length := h
        rcases q4.al with h2 | h2
        · exact .inl (by omega)
        · exact .inr (by omega)
  · intro w γ4 slots4 σ4 s4 x4 q4
    have hc4 := hc3.right.right
    rw [← q4.ip] at hc4
    have := sim_exitContext (B := B) (H := H) ((x4.act q3.st.act).fn) q4 hc4
    refine this.imp ?_
    intro _ _ _ _ _ _ h
    refine Eq.mp (congrArg (fun p => EQ H K slots2 s p _ _ _ _ _) ?_) h
    rw [q3.ip, q2.ip, hq1.ip]
    simp only [Code.len_append, Code.len_cons, Code.len_nil, Piece.at']
    simp [Instr.enc, u16le, u8b]; omega

end

end Quilt
