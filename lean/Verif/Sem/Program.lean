import Verif.Sem.SimTop

/-!
# Whole programs on the machine without limits
-/

namespace Quilt

variable {D : Type}

/-- No stack position holds a variable. -/
def noSlots : LocMap := fun _ => none

/-- A machine state between programs, corresponding to a source state. -/
structure Idle (H : Host D) (γ : LocMap) (σ : SSt D) (s : VM D) : Prop where
  ok : Ok H.cfg H.syms.entries γ noSlots σ s.mem
  sp : s.sp = 0
  frames : s.frames = []
  base : s.frame.st = 0

/-- Nothing is open between programs. -/
theorem Idle.openUps {H : Host D} {γ : LocMap} {σ : SSt D} {s : VM D} (h : Idle H γ σ s) : s.openUps = [] := by
  cases ho : s.openUps with
  | nil => rfl
  | cons c cs =>
    have hc : c ∈ s.mem.openUps := by show c ∈ s.openUps; rw [ho]; simp
    obtain ⟨loc, l, h1, h2⟩ := h.ok.opened c hc
    have := (h.ok.cell c loc h1).2.2
    rw [h2] at this
    simp [CellOk, noSlots] at this

/-- Outcome of running a script from `s`, compared with the outcome of the source program; `B` is
the number of steps that can be taken if the source program hits a bound. A `return` outside of
functions stops the script; with debug assertions it is only allowed with an empty stack. `evalProgram` does not tell call depth apart from other
bounds. -/
def Outcome (H : Host D) (B : Nat) (γ : LocMap) (s : VM D) (r : Out SVal × SSt D) : Prop :=
  match r with
  | (.ok v, σ') => ∃ s' w s'' γ', Reach H 0 s s' ∧ s'.step H = .done w s'' ∧ γ.le γ' ∧ VRel H.cfg H.syms.entries γ' v w ∧ Idle H γ' σ' s''
  | (.ret v, σ') => ∃ s' w s'' γ', Reach H 0 s s' ∧ (s'.step H = .done w s'' ∨ H.cfg.chk = true ∧ s'.step H = .panic) ∧ γ.le γ' ∧
      VRel H.cfg H.syms.entries γ' v w ∧ Idle H γ' σ' s''
  | (.err e sp, σ') => ∃ s' sp' s'', Reach H 0 s s' ∧ s'.step H = .err e sp' s'' ∧ (∀ x, sp = some x → sp' = x) ∧ Stopped H γ σ' s''
  | (.panic, _) => ∃ s', Reach H 0 s s' ∧ s'.step H = .panic
  | (.timeout, _) => ∃ s', Reach H B s s'
  | (.deep, _) => False
  | (.unspec _, _) => True

theorem codeAt_whole {fn : Func} {c : Code} (h1 : fn.ops = c.ops) (h2 : fn.spans = c.spans.foldl Rle.push Rle.empty)
    (hs : ∀ q ∈ c, q.i.small = true) : CodeAt fn 0 c := by
  refine ⟨⟨[], [], by simp [h1], rfl⟩, fun k sp hk => ?_, hs⟩
  rw [Nat.zero_add, Func.getSpan, h2, Rle.get_eq, Rle.toList_foldl_push]
  simp [hk]

theorem codeAt_main (l : GLevel) (h : Head) (c : Code) (hd : l.depth = 0) (he : h.chunk = Chunk.empty.emit c)
    (hs : ∀ q ∈ c, q.i.small = true) : ∃ sp, CodeAt (CM.finish l h) 0 (c ++ [.at' .ret sp]) := by
  refine ⟨h.chunk.lastSpan, ?_⟩
  obtain ⟨name, span, arity, chunk⟩ := h
  simp only at he
  refine codeAt_whole ?_ ?_ ?_
  · simp [CM.finish, hd, Func.ops, Chunk.writeU8, Bytes.writeU8, Code.ops, Instr.enc, he, Chunk.emit, Chunk.empty]
  · simp only [CM.finish, hd, if_true, Func.spans, Chunk.writeU8, Code.spans_append, List.foldl_append]
    rw [he]
    simp [Chunk.emit, Chunk.empty, Code.spans, Piece.spans, Instr.enc]
  · intro q hq
    rcases List.mem_append.1 hq with hq | hq
    · exact hs q hq
    · simp only [List.mem_singleton] at hq; subst hq; rfl

section
variable {H : Host D} {S : SHost D}

/-- The script returns. -/
theorem main_return (hH : HRel H S) {K : Nat → Prop} {γ slots : LocMap} {σ : SSt D} {s : VM D} {v : SVal} (hr : AtRet H 0 K γ slots σ v s)
    (hf : s.frames = []) (hb : s.frame.st = 0) :
    ∃ w s'', (s.step H = .done w s'' ∨ H.cfg.chk = true ∧ s.sp ≠ 1 ∧ s.step H = .panic) ∧ VRel H.cfg H.syms.entries γ v w ∧ Idle H γ σ s'' := by
  have hsp := hr.sp
  have hstep := hr.step
  have hp0 : ¬ s.sp = 0 := by omega
  simp only [VM.exec, VM.pop, VM.goto_sp, hp0, if_false, VM.goto_stack, VM.goto_st, hb] at hstep
  generalize hs3 : ({ s.goto (s.frame.ip + 1) with stack := s.stack, sp := s.sp - 1 } : VM D) = s3 at hstep
  have hok3 : Ok H.cfg H.syms.entries γ slots σ s3.mem := by
    rw [← hs3]
    refine hr.ok.setStack rfl rfl rfl rfl rfl rfl fun l loc hl => ⟨?_, rfl⟩
    have h1 : l < s.sp := (hr.ok.slot l loc hl).1
    have h2 : l ≠ s.sp - 1 := by rintro rfl; rw [hr.top] at hl; cases hl
    exact Nat.lt_of_le_of_ne (Nat.le_sub_one_of_lt h1) h2
  have hs3sp : s3.sp = s.sp - 1 := by rw [← hs3]
  have hs3fr : s3.frames = [] := by rw [← hs3]; exact hf
  have hs3f : s3.frame.st = 0 := by rw [← hs3]; exact hb
  clear hs3
  obtain ⟨b1, b2, b3, b4, b5, b6, b7, b8, b9⟩ := closeRange_rest H (s.sp - 1 - 0) s3 0
  have hslots : ∀ l, noSlots l = if 0 ≤ l ∧ l < 0 + (s.sp - 1 - 0) then none else slots l := by
    intro l
    show none = _
    split
    · rfl
    · cases hs : slots l with
      | none => rfl
      | some loc =>
        have h1 : l < s3.sp := (hok3.slot l loc hs).1
        omega
  obtain ⟨hok4, _⟩ := Ok.closeRange (H := H) hH.stack (s.sp - 1 - 0) (lo := 0) (slots' := noSlots) hok3 hslots
  generalize hs4 : s3.closeRange H 0 (s.sp - 1 - 0) = s4 at *
  rw [b8, hs3fr] at hstep
  simp only [b6, hs3sp, b7, hs3f] at hstep
  refine ⟨s.stack (s.sp - 1), { s4 with sp := 0 }, ?_, hr.val, ⟨?_, rfl, ?_, ?_⟩⟩
  · by_cases hc : H.cfg.chk = true ∧ s.sp - 1 ≠ 0
    · rw [if_pos hc] at hstep
      exact .inr ⟨hc.1, by omega, hstep⟩
    · rw [if_neg hc] at hstep
      refine .inl (hstep.trans ?_)
      rw [b8, b7, hs3fr]
  · refine hok4.setStack rfl rfl rfl rfl rfl rfl fun l loc hl => ?_
    simp [noSlots] at hl
  · show s4.frames = []; rw [b8, hs3fr]
  · show s4.frame.st = 0; rw [b7, hs3f]

/-- The same, where calls may be nested too deep. -/
def OutcomeD (H : Host D) (B : Bd) (γ : LocMap) (s : VM D) (r : Out SVal × SSt D) : Prop :=
  Outcome H B.steps γ s r ∨ r.1 = .deep ∧ ∃ n s', B.depth = some n ∧ Reach H 0 s s' ∧ n ≤ s'.frames.length

/-- Compiled programs behave as the direct semantics prescribes, if calls do. `g` are the compiler's tables
before the program (initially empty; in a session those after the previous program). -/
theorem run_top (hH : HRel H S) {g g' : GState} (hi : GInv g) (hd : g.cur.depth = 0) (hl : g.cur.locals = []) (he : g.encl = [])
    {ast : List Node} {sp0 : Span} {c : Code} (hg : genStmts H.cfg true ast g = .ok (sp0, c, g')) (hfit : GM.fnFits g'.cur c = true)
    (hw : wfProgram ast = true) (hsyms : g'.globals.entries <+: H.syms.entries) {h : Head} (hh : h.chunk = Chunk.empty.emit c)
    {γ : LocMap} {σ : SSt D} {s : VM D} (hs : Idle H γ σ s) (hfn : s.frame.fn = CM.finish g'.cur h) (hip : s.frame.ip = 0) {W : Nat} {B : Bd}
    {call : SClos → List SVal → SM D SVal} (hcall : CallOk H call B) (hBW : B.steps ≤ W) : OutcomeD H B γ s (evalTop S call W ast σ) := by
  have hups : g.cur.upvalues = [] := by have := hi.chain; rw [he] at this; exact this
  have hfree : UpsFree g := by
    intro l hl u hu
    rw [he] at hl
    simp only [List.mem_singleton] at hl
    subst hl
    rw [hups] at hu; simp at hu
  obtain ⟨e1, f1⟩ := top_stmts H.cfg ast hi hfree hw hd hg
  simp only [GM.fnFits, Bool.and_eq_true, decide_eq_true_eq, List.all_eq_true] at hfit
  have hups' : g'.cur.upvalues = [] := by
    have := e1.2.chain
    have h2 : g'.encl = [] := by
      have := e1.1.encl
      rw [he] at this
      cases h : g'.encl with
      | nil => rfl
      | cons => rw [h] at this; exact this.elim
    rw [h2] at this; exact this
  have hbd : Bound H ⟨s.frame.fn, s.frame.ups, 0, [], []⟩ (fun _ => False) g' := by
    refine ⟨by rw [hups']; exact List.prefix_refl _, ?_, ?_, hsyms, ?_⟩
    · show _ <+: s.frame.fn.consts; rw [hfn]; exact List.prefix_refl _
    · show s.frame.fn.consts.length ≤ _; rw [hfn]; exact hfit.1.2
    · intro i l h1; rw [GExtE.noLocals e1.1 hl] at h1; simp at h1
  have hst : St H ⟨s.frame.fn, s.frame.ups, 0, [], []⟩ (fun _ => False) γ noSlots g [] σ s := by
    refine ⟨hi, hfree, ⟨rfl, rfl, hs.base, by simp⟩, ⟨[], rfl, by rw [hl]; exact .nil, fun _ _ => rfl, by rw [he]; rfl⟩, hs.ok, ?_, Nat.zero_le _⟩
    rintro l ⟨x, hx, _⟩
    have : x ∈ s.openUps := hx
    rw [hs.openUps] at this; simp at this
  obtain ⟨rsp, hc⟩ := codeAt_main g'.cur h c (e1.1.depth.trans hd) hh hfit.1.1
  rw [← hfn, ← hip] at hc
  have hpost := sim_program (S := S) hH hcall hBW ast hg hw hd hl hbd hc.left hst hs.sp
  generalize evalTop S call W ast σ = r at hpost
  obtain ⟨o, σ'⟩ := r
  cases o with
  | ok v =>
    obtain ⟨γ', slots', s', h1, h2, h3⟩ := hpost
    obtain rfl := h3.eqSlots
    have hc2 := hc.right
    rw [← h3.ip] at hc2
    have hsp := h3.sp
    have hsp : s'.sp = 1 := by simpa using hsp
    have hr : AtRet H 0 (fun _ => False) γ' noSlots σ' v s' := by
      refine ⟨?_, by omega, rfl, ?_, h3.ok, fun _ h _ => absurd h (Nat.not_lt_zero _)⟩
      · exact step_at (A := ⟨s.frame.fn, s.frame.ups, 0, [], []⟩) (h2.fn) hc2 (by simp)
      · rw [hsp]; exact h3.val
    obtain ⟨w, s'', k1, k2, k3⟩ := main_return hH hr (h2.frames.trans hs.frames) (h2.base.trans hs.base)
    rcases k1 with k1 | ⟨_, k1, _⟩
    · exact .inl ⟨s', w, s'', γ', h1, k1, h2.cells, k2, k3⟩
    · exact absurd hsp k1
  | ret v =>
    obtain ⟨γ', slots', s', h1, h2, h3⟩ := hpost
    obtain ⟨w, s'', k1, k2, k3⟩ := main_return hH h3 (h2.frames.trans hs.frames) (h2.base.trans hs.base)
    refine .inl ⟨s', w, s'', γ', h1, ?_, h2.cells, k2, k3⟩
    rcases k1 with k1 | ⟨k1, _, k4⟩
    · exact .inl k1
    · exact .inr ⟨k1, k4⟩
  | err e sp => exact .inl hpost
  | panic => exact .inl hpost
  | timeout => exact .inl hpost
  | deep =>
    obtain ⟨n, s', h1, h2, h3⟩ := hpost
    exact .inr ⟨rfl, n, s', h1, h2, by omega⟩
  | unspec => exact .inl trivial

/-- Compiled programs behave as the direct semantics prescribes. -/
theorem run_program (hH : HRel H S) {g g' : GState} (hi : GInv g) (hd : g.cur.depth = 0) (hl : g.cur.locals = []) (he : g.encl = [])
    {ast : List Node} {sp0 : Span} {c : Code} (hg : genStmts H.cfg true ast g = .ok (sp0, c, g')) (hfit : GM.fnFits g'.cur c = true)
    (hw : wfProgram ast = true) (hsyms : g'.globals.entries <+: H.syms.entries) {h : Head} (hh : h.chunk = Chunk.empty.emit c)
    {γ : LocMap} {σ : SSt D} {s : VM D} (hs : Idle H γ σ s) (hfn : s.frame.fn = CM.finish g'.cur h) (hip : s.frame.ip = 0) (k : Nat) :
    Outcome H k γ s (evalProgram S k ast σ) := by
  rcases run_top hH hi hd hl he hg hfit hw hsyms hh hs hfn hip (callN_ok (B := ⟨k, none⟩) hH k (Nat.le_succ _) (Nat.le_succ _)) (Nat.le_refl k) with h | ⟨_, _, _, h, _⟩
  · exact h
  · cases h

end

end Quilt
