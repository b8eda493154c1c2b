import Verif.Sem.SimCtx

/-!
# Simulation: calls
-/

namespace Quilt
variable {D : Type}

/-! ## The code of a function -/

theorem Rle.toList_foldl_push {α : Type} [DecidableEq α] : ∀ (l : List α) (r : Rle α), (l.foldl Rle.push r).toList = r.toList ++ l
  | [], r => by simp
  | a :: l, r => by simp [Rle.toList_foldl_push l, Rle.toList_push]

theorem codeAt_mkFunc (name : Name) (n : Nat) (l : GLevel) (c : Code) (h : ∀ q ∈ c, q.i.small = true) :
    CodeAt (GM.mkFunc name n l c) 0 c := by
  have hs : ∀ (r : Rle Span), (∃ t, r.toList = c.spans ++ t) → ∀ k sp, c.spans[k]? = some sp → (r.get k).getD Span.default = sp := by
    intro r ⟨t, ht⟩ k sp hk
    rw [Rle.get_eq, ht, List.getElem?_append_left (List.getElem?_eq_some_iff.1 hk).1, hk]; rfl
  have h0 : (c.spans.foldl Rle.push Rle.empty).toList = c.spans := by
    rw [Rle.toList_foldl_push]; simp
  refine ⟨?_, ?_, h⟩
  · by_cases hd : l.depth = 0
    · exact ⟨[], [1], by simp [GM.mkFunc, CM.finish, hd, Chunk.emit, Chunk.empty, Chunk.writeU8, Func.ops, Bytes.writeU8], rfl⟩
    · exact ⟨[], [], by simp [GM.mkFunc, CM.finish, hd, Chunk.emit, Chunk.empty, Func.ops], rfl⟩
  · intro k sp hk
    rw [Nat.zero_add]
    by_cases hd : l.depth = 0
    · refine hs _ ⟨?_, ?_⟩ k sp hk
      rotate_left
      · simp only [GM.mkFunc, CM.finish, hd, if_true, Func.spans, Chunk.writeU8, Chunk.emit, Chunk.empty]
        rw [Rle.toList_push, h0]
    · refine hs _ ⟨[], ?_⟩ k sp hk
      simp only [GM.mkFunc, CM.finish, hd, if_false, Func.spans, Chunk.emit, Chunk.empty, List.append_nil]
      exact h0

/-! ## Calls -/

/-- The machine executes calls as `call` prescribes: from the call instruction, which starts the
callee, back to the caller with the result in place of callee and arguments. -/
def CallOk (H : Host D) (call : SClos → List SVal → SM D SVal) (B : Bd) : Prop :=
  ∀ ⦃A : Act⦄ ⦃K : Nat → Prop⦄ ⦃γ slots : LocMap⦄ ⦃σ : SSt D⦄ ⦃s0 s : VM D⦄ ⦃sc : SClos⦄ ⦃vc : VClos⦄ ⦃args : List SVal⦄ ⦃p : Nat⦄,
    Ok H.cfg H.syms.entries γ slots σ s.mem → OpenK K s.mem →
    (∀ l loc, slots l = some loc → l < s0.sp) → A.st ≤ s0.sp →
    (∀ i, i < s0.sp → slots i = none → s.stack i = s0.stack i) → s.sp = s0.sp + 1 + args.length →
    s.stack s0.sp = .clos vc → CRel H.cfg H.syms.entries γ sc vc →
    Val.RelL (CRel H.cfg H.syms.entries γ) args (seg s.stack (s0.sp + 1) args.length) → args.length = sc.params.length →
    s.step H = .next { s.goto p with frames := (s.goto p).frame :: s.frames, frame := ⟨vc.fn, vc.ups, 0, s0.sp⟩, data := H.onEnter s.data } →
    Post H A B K γ slots s (call sc args σ) (EQ H K slots s0 p)

section
variable {H : Host D} {S : SHost D} {call : SClos → List SVal → SM D SVal} {W : Nat} {B : Bd}

/-- Returning to the caller. -/
theorem sim_return (hH : HRel H S) {A : Act} {K K' : Nat → Prop} {γ γ2 slots slots1 slots2 : LocMap} {σ2 : SSt D} {s0 s s1 s2 : VM D} {v : SVal} {p : Nat}
    (hsl : ∀ l loc, slots l = some loc → l < s0.sp) (hle : A.st ≤ s0.sp)
    (hsame : ∀ i, i < s0.sp → slots i = none → s.stack i = s0.stack i)
    (hbel : ∀ l, l < s0.sp → slots1 l = slots l) (hK : ∀ l, l < s0.sp → K' l → K l)
    (k1 : s1.frames = (s.goto p).frame :: s.frames) (k2 : s1.frame.st = s0.sp) (k3 : s1.stack = s.stack) (k4 : s1.blockResults = s.blockResults)
    (r1 : Reach H 0 s s1)
    (r2 : Reach H 0 s1 s2) (x2 : Ext s0.sp γ slots1 s1 γ2 slots2 s2) (q2 : AtRet H s0.sp K' γ2 slots2 σ2 v s2) :
    Post H A B K γ slots s ((.ok v, { σ2 with data := S.onExit σ2.data }) : Out SVal × SSt D) (EQ H K slots s0 p) := by
  have hsp := q2.sp
  have hst2 : s2.frame.st = s0.sp := x2.base.trans k2
  have hfr : s2.frames = (s.goto p).frame :: s.frames := x2.frames.trans k1
  have hstep := q2.step
  have hp0 : ¬ s2.sp = 0 := by omega
  simp only [VM.exec, VM.pop, VM.goto_sp, hp0, if_false, VM.goto_stack, VM.goto_st, hst2] at hstep
  generalize hs3 : ({ s2.goto (s2.frame.ip + 1) with stack := s2.stack, sp := s2.sp - 1 } : VM D) = s3 at hstep
  have hok3 : Ok H.cfg H.syms.entries γ2 slots2 σ2 s3.mem := by
    rw [← hs3]
    refine q2.ok.setStack rfl rfl rfl rfl rfl rfl fun l loc hl => ⟨?_, rfl⟩
    have h1 : l < s2.sp := (q2.ok.slot l loc hl).1
    have h2 : l ≠ s2.sp - 1 := by rintro rfl; rw [q2.top] at hl; cases hl
    exact Nat.lt_of_le_of_ne (Nat.le_sub_one_of_lt h1) h2
  have hop3 : ∀ l, OpenAt s3.mem l → OpenAt s2.mem l := by rw [← hs3]; exact fun l h => h
  have hs3st : s3.stack = s2.stack := by rw [← hs3]
  have hs3sp : s3.sp = s2.sp - 1 := by rw [← hs3]
  have hs3fr : s3.frames = s2.frames := by rw [← hs3]; rfl
  have hs3f : s3.frame.st = s0.sp := by rw [← hs3]; exact hst2
  have hs3b : s3.blockResults = s2.blockResults := by rw [← hs3]; rfl
  have hs3d : s3.data = s2.data := by rw [← hs3]; rfl
  clear hs3
  obtain ⟨b1, b2, b3, b4, b5, b6, b7, b8, b9⟩ := closeRange_rest H (s2.sp - 1 - s0.sp) s3 s0.sp
  have hslots : ∀ l, slots l = if s0.sp ≤ l ∧ l < s0.sp + (s2.sp - 1 - s0.sp) then none else slots2 l := by
    intro l
    by_cases hlt : l < s0.sp
    · rw [if_neg (by omega), x2.below l hlt, hbel l hlt]
    · have hn : slots l = none := by
        cases hs : slots l with
        | none => rfl
        | some loc => exact absurd (hsl l loc hs) hlt
      rw [hn]
      split
      · rfl
      · cases hs : slots2 l with
        | none => rfl
        | some loc =>
          have h1 : l < s3.sp := (hok3.slot l loc hs).1
          omega
  obtain ⟨hok4, hop4⟩ := Ok.closeRange (H := H) hH.stack (s2.sp - 1 - s0.sp) (lo := s0.sp) (slots' := slots) hok3 hslots
  generalize hs4 : s3.closeRange H s0.sp (s2.sp - 1 - s0.sp) = s4 at *
  rw [b8, hs3fr, hfr] at hstep
  simp only [VM.push_none hH.stack, b7, hs3f] at hstep
  have hd4 : s4.data = σ2.data := hok4.data
  refine ⟨γ2, slots, _, (r1.trans (r2.trans (Reach.step hstep))).mono (Nat.zero_le _), ?_, ?_⟩
  · refine ⟨x2.cells, fun _ _ => rfl, rfl, ?_, rfl, rfl, rfl, ?_⟩
    · show s4.blockResults = _
      rw [b9, hs3b, x2.br, k4]
    · intro l hl hn
      show upd s4.stack s0.sp _ l = _
      rw [upd_other _ _ (by omega), b5, hs3st, x2.stack l (by omega) ((hbel l (by omega)).trans hn), k3]
  · refine ⟨rfl, ?_, rfl, rfl, ?_, ?_, ?_⟩
    · intro i hi hn
      show upd s4.stack s0.sp _ i = _
      rw [upd_other _ _ (by omega), b5, hs3st, x2.stack i hi ((hbel i hi).trans hn), k3]
      exact hsame i hi hn
    · show VRel _ _ _ _ (upd s4.stack s0.sp _ s0.sp)
      rw [upd_same]
      exact q2.val
    · rw [hH.exit]
      have h1 := hok4.setData (H.onExit σ2.data)
      rw [← hd4] at h1 ⊢
      refine h1.setStack rfl rfl rfl rfl rfl rfl fun l loc hl => ?_
      have := hsl l loc hl
      exact ⟨show l < s0.sp + 1 by omega, upd_other _ _ (by show l ≠ s0.sp; omega)⟩
    · intro l hl
      obtain ⟨o1, o2⟩ := hop4 l hl
      have o3 := hop3 l o1
      have hlt : l < s0.sp := by
        obtain ⟨loc, hs⟩ := openAt_slot hok3 o1
        have h1 : l < s3.sp := (hok3.slot l loc hs).1
        omega
      exact hK l hlt (q2.openK l hlt o3)

/-- Calling a function whose own calls are given by `call`; see `callN`. -/
def callStep (S : SHost D) (W : Nat) (call : SClos → List SVal → SM D SVal) (c : SClos) (args : List SVal) : SM D SVal := fun σ =>
  match (do
    let env ← SM.bindVars (callScope c args) c.env
    evalStmts S call W c.body env) { σ with data := S.onEnter σ.data } with
  | (.ret v, σ') => (.ok v, { σ' with data := S.onExit σ'.data })
  | (.ok _, σ') => (.unspec false, σ')
  | (.err e sp, σ') => (.err e sp, σ')
  | (.panic, σ') => (.panic, σ')
  | (.timeout, σ') => (.timeout, σ')
  | (.deep, σ') => (.deep, σ')
  | (.unspec b, σ') => (.unspec b, σ')

theorem callN_succ (S : SHost D) (W n : Nat) : callN S W (n + 1) = callStep S W (callN S W n) := rfl

/-- Calls whose bodies run correctly. -/
theorem callOk_step (hH : HRel H S) (hS : ∀ ns, SimS H S call W ⟨B.steps - 1, B.depth.map (· - 1)⟩ ns) : CallOk H (callStep S W call) B := by
    intro A K γ slots σ s0 s sc vc args p hok hk hsl hle hsame hsp htop hrel hargs hlen hstep
    have hS := hS sc.body
    obtain ⟨g, sp0, code, g1, h1, h2, h3, h4, h5, h6, h7, h8, h9, h10, h11, h12⟩ := hrel
    have hrel : CRel H.cfg H.syms.entries γ sc vc := ⟨g, sp0, code, g1, h1, h2, h3, h4, h5, h6, h7, h8, h9, h10, h11, h12⟩
    simp only [GM.fnFits, Bool.and_eq_true, decide_eq_true_eq, List.all_eq_true] at h3
    obtain ⟨a, b, c, d, e, f⟩ := enterFn_spec g sc.name sc.params
    generalize hs1 : ({ s.goto p with frames := (s.goto p).frame :: s.frames, frame := ⟨vc.fn, vc.ups, 0, s0.sp⟩, data := H.onEnter s.data } : VM D) = s1 at hstep
    have hd : s.data = σ.data := hok.data
    have hok1 : Ok H.cfg H.syms.entries γ slots { σ with data := S.onEnter σ.data } s1.mem := by
      rw [← hs1, hH.enter, ← hd]; exact hok.setData _
    have m1 : s1.stack = s.stack := by rw [← hs1]; rfl
    have m2 : s1.sp = s.sp := by rw [← hs1]; rfl
    have m3 : s1.frame = ⟨vc.fn, vc.ups, 0, s0.sp⟩ := by rw [← hs1]
    have m4 : s1.frames = (s.goto p).frame :: s.frames := by rw [← hs1]
    have m5 : s1.blockResults = s.blockResults := by rw [← hs1]; rfl
    have m6 : ∀ l, OpenAt s1.mem l → OpenAt s.mem l := by rw [← hs1]; exact fun l h => h
    obtain ⟨slots', envL, σ', k1, k2, k3, k4, k5⟩ := bindVars_sim (envC := sc.env) (d := g.cur.depth + 1) (st := s0.sp) (envL := []) (ls := [])
      (sc.name :: sc.params) (vs := .clos sc :: args) (by simp [hlen]) (by simp [h9, h10]) hok1 .nil
      (by
        intro l hl
        cases hs : slots l with
        | none => rfl
        | some loc => have := hsl l loc hs; simp at hl; omega)
      (by simp [m2, hsp, hlen]; omega)
      (by
        rw [m1]
        simp only [List.length_cons, List.length_nil, Nat.add_zero]
        rw [seg_succ, htop]
        exact ⟨hrel, hargs⟩)
    have hst : St H ⟨vc.fn, vc.ups, s0.sp, g1.cur.upvalues, sc.env⟩ (fun l => l < s0.sp → K l) γ slots' (g.enterFn sc.name sc.params) (envL ++ sc.env) σ' s1 := by
      refine ⟨enterFn_inv h4 _ _, free_enterFn h5 _ _, ⟨by rw [m3], by rw [m3], by rw [m3], h12⟩, ⟨envL, rfl, by rw [a]; simpa using k3, ?_, ?_⟩, k2, ?_, ?_⟩
      · intro i hi
        rw [a] at hi
        exact k4 i (by simpa [Nat.add_assoc] using hi)
      · rw [e, h6]; rfl
      · intro l hl _
        exact hk l (m6 l hl)
      · show s0.sp ≤ s1.sp; omega
    have hbd : Bound H ⟨vc.fn, vc.ups, s0.sp, g1.cur.upvalues, sc.env⟩ (fun l => l < s0.sp → K l) g1 := by
      refine ⟨List.prefix_refl _, ?_, ?_, h7, ?_⟩
      · show _ <+: vc.fn.consts; rw [h2]; exact List.prefix_refl _
      · show vc.fn.consts.length ≤ _; rw [h2]; exact h3.1.2
      · intro i l _ _ h
        have h' : s0.sp + i < s0.sp := h
        omega
    have hc : CodeAt vc.fn s1.frame.ip code := by
      rw [m3, h2]; exact codeAt_mkFunc _ _ _ _ h3.1.1
    have hpost := hS h1 h8 (by rw [c]; exact Nat.succ_ne_zero _) hbd hc hst (by
      intro _
      show s1.sp = s0.sp + _
      rw [a, m2, hsp, hlen]; simp; omega)
    have hev : (do
        let env ← SM.bindVars (callScope sc args) sc.env
        evalStmts S call W sc.body env : SM D SVal) { σ with data := S.onEnter σ.data } =
        evalStmts S call W sc.body (envL ++ sc.env) σ' := by
      show SM.bind _ _ _ = _
      unfold SM.bind
      have k1' : SM.bindVars (callScope sc args) sc.env { σ with data := S.onEnter σ.data } = (.ok (envL ++ sc.env), σ') := k1
      rw [k1']
    simp only [callStep]
    rw [hev]
    generalize evalStmts S call W sc.body (envL ++ sc.env) σ' = r at hpost
    have r1 : Reach H 1 s s1 := Reach.step hstep
    have r0 : Reach H 0 s s1 := r1.mono (Nat.zero_le _)
    obtain ⟨o, σ2⟩ := r
    cases o with
    | ok x => trivial
    | ret v =>
      obtain ⟨γ2, slots2, s2, t1, t2, t3⟩ := hpost
      exact sim_return hH hsl hle hsame (fun l hl => k5 l (by simpa using hl)) (fun l hl h => h hl) m4 (by rw [m3]) m1 m5 r0 t1 t2 t3
    | err e sp =>
      obtain ⟨s2, sp', s3, t1, t2⟩ := hpost
      exact ⟨s2, sp', s3, r0.trans t1, t2⟩
    | panic =>
      obtain ⟨s2, t1, t2⟩ := hpost
      exact ⟨s2, r0.trans t1, t2⟩
    | timeout =>
      obtain ⟨s2, t1⟩ := hpost
      exact ⟨s2, (r1.trans t1).mono (by show B.steps ≤ 1 + (B.steps - 1); omega)⟩
    | deep =>
      obtain ⟨m, s2, t0, t1, t2⟩ := hpost
      obtain ⟨d, hd, rfl⟩ : ∃ d, B.depth = some d ∧ d - 1 = m := by simpa using t0
      rw [m4] at t2
      simp only [List.length_cons] at t2
      exact ⟨d, s2, hd, r0.trans t1, by omega⟩
    | unspec => trivial

/-- Calls nested at most `n` deep. -/
theorem sim_callN (hH : HRel H S) (hbody : ∀ (n : Nat) (B : Bd), CallOk H (callN S W n) B → B.steps ≤ W → ∀ ns, SimS H S (callN S W n) W B ns) :
    ∀ (n : Nat) (B : Bd), B.steps ≤ n + 1 → B.steps ≤ W + 1 → CallOk H (callN S W n) B
  | 0, B, hB, hBW => by
    intro A K γ slots σ s0 s sc vc args p hok hk hsl hle hsame hsp htop hrel hargs hlen hstep
    simp only [callN]
    exact ⟨_, (Reach.step hstep).mono hB⟩
  | n + 1, B, hB, hBW => by
    rw [callN_succ]
    exact callOk_step hH (hbody n _ (sim_callN hH hbody n _ (by show B.steps - 1 ≤ n + 1; omega) (by show B.steps - 1 ≤ W + 1; omega))
      (by show B.steps - 1 ≤ W; omega))

theorem sim_call (hH : HRel H S) (hcall : CallOk H call B) (sp : Span) (f : Node) (args : List Node) (hf : SimE H S call W B f)
    (ha : SimArgs H S call W B args)
    (hlen : ∀ (env : SEnv) (σ σ' : SSt D) vs, evalArgs S call W args env σ = (.ok vs, σ') → vs.length = args.length) :
    SimE H S call W B (.call sp f args) := by
  intro al A K γ slots g g' env σ s c hg hw hbd hc hst hal
  obtain ⟨cf, gf, ca, _, h1, h2, rfl⟩ := gen_call hg
  simp only [Node.wf, Bool.and_eq_true] at hw
  simp only [evalNode]
  have e1 := (ext_node H.cfg true f .expr hst.inv h1).e
  have f1 := free_node H.cfg true f .expr al hw.1 hst.free h1
  have e2 := ext_args H.cfg true args e1.2 h2
  have f2 := free_args H.cfg true args false hw.2 f1 h2
  refine Post.bind (hf h1 hw.1 (hbd.back e2.1.ext) hc.left hst hal) ?_
  intro x γ1 slots1 σ1 s1 x1 q1
  obtain rfl := q1.eqSlots
  have hst1 := hst.nextE e1 f1 x1 q1
  have hc1 := hc.right
  rw [← q1.ip] at hc1
  refine Post.bind_eq (ha h2 hw.2 hbd hc1.left hst1 (by simp)) ?_
  intro vs γ2 slots2 σ2 s2 hev x2 q2
  obtain rfl := q2.eqSlots
  have hst2 := hst1.nextEs e2 f2 x2 q2
  have hvl := hlen _ _ _ _ hev
  have hc2 := hc1.right
  rw [← q2.ip, ← hvl] at hc2
  have p1 := q1.sp
  have p2 := q2.sp
  have hn : slots2 s.sp = none := hst.slotNone (Nat.le_refl _)
  have hfv : VRel H.cfg H.syms.entries γ2 x (s2.stack s.sp) := by
    rw [q2.same _ (by omega) hn]; exact VRel.mono x2.cells q1.val
  have hstep := step_at (H := H) hst2.act.fn hc2 (by simp)
  have hspan := span_at hst2.act.fn hc2
  have h0 : ¬ s2.sp < vs.length + 1 := by omega
  have e3 : s2.sp - vs.length - 1 = s.sp := by omega
  have hreach : reached H.opts.callStackSize s2.frames.length = false := by simp [hH.calls, reached]
  simp only [VM.exec, VM.goto_sp, h0, if_false, VM.goto_stack, e3] at hstep
  have hgf : (s2.goto (s2.frame.ip + (Instr.callFunction vs.length).enc.length)).frames = s2.frames := rfl
  rw [hgf, hreach] at hstep
  simp only [Bool.false_eq_true, if_false] at hstep
  have hip : s.frame.ip + Code.len (cf ++ (ca ++ [.at' (.callFunction args.length) sp])) =
      s2.frame.ip + (Instr.callFunction vs.length).enc.length := by
    rw [q2.ip, q1.ip, hvl]; simp; omega
  rw [hip]
  have hnot : (∀ c, x ≠ .clos c) → Post H A B K γ2 slots2 s2 ((.err (.type (.notCallable x.ntype)) (some sp), σ2) : Out SVal × SSt D)
      (EQ H K slots2 s (s2.frame.ip + (Instr.callFunction vs.length).enc.length)) := by
    intro hx
    have hty := Val.Rel.ntype hfv
    have : s2.step H = (s2.goto (s2.frame.ip + (Instr.callFunction vs.length).enc.length)).err1 (.type (.notCallable x.ntype)) := by
      rw [hstep, hty]
      cases hw : s2.stack s.sp <;> rw [hw] at hfv <;> first
        | rfl
        | (cases x <;> first | exact absurd rfl (hx _) | simp [VRel, Val.Rel] at hfv)
    simp only [VM.err1, VM.goto_fn, VM.goto_ip, hspan] at this
    exact Post.err this (fun x hx => by cases hx; rfl) hst2.ok
  cases x with
  | clos sc =>
    cases hw : s2.stack s.sp <;> rw [hw] at hfv <;> simp [VRel, Val.Rel] at hfv
    rename_i vc
    rw [hw] at hstep
    simp only at hstep
    have hfv' := hfv
    obtain ⟨g0, sp0, code, g1, _, k2, _⟩ := hfv'
    have har : vc.fn.arity = sc.params.length := by rw [k2]; rfl
    have hnm : vc.fn.name = sc.name := by rw [k2]; rfl
    simp only [applyVal]
    rw [har, hnm] at hstep
    by_cases hl : vs.length ≠ sc.params.length
    · rw [if_pos hl] at hstep ⊢
      simp only [VM.errAt] at hstep
      exact Post.err hstep (fun x hx => by cases hx) hst2.ok
    · rw [if_neg hl] at hstep ⊢
      refine hcall q2.ok q2.openK (fun l loc hl => hst.slotSp hl) hst.le
        (fun i hi hn => (q2.same i (by omega) hn).trans (q1.same i hi hn)) (by omega) hw hfv ?_ (by simpa using hl) hstep
      rw [← p1]; exact q2.val
  | none | bool | int | float | range | color | str | special | arr | loopCtx | pair | func => exact hnot (by simp)

end

end Quilt
