import Verif.Vm.Lemmas

/-!
# The outermost frame of a run

No instruction changes the function, the cells and the base of the outermost frame, also not on
an error or at the end of the run. Used for `reset_state` (C49).
-/

namespace Quilt

/-- The property holds of the state that an iteration leaves behind, whether the run goes on or not; and a run only ends with a
value outside of all calls. -/
def StepR.Each {D : Type} (P : VM D → Prop) : StepR D → Prop
  | .next s => P s
  | .err _ _ s => P s
  | .done _ s => P s ∧ s.frames = []
  | .panic => True

namespace VM
variable {D : Type} {H : Host D}

/-- The outermost frame. -/
def bottom (s : VM D) : Frame := s.frames.getLast?.getD s.frame

/-- Function, cells and base of a frame (everything but its instruction pointer). -/
def fixed (f : Frame) : Func × List Nat × Nat := (f.fn, f.ups, f.st)

/-- The outermost frame is `b`, up to its instruction pointer. -/
def Bot (b : Func × List Nat × Nat) (s : VM D) : Prop := fixed s.bottom = b

variable {b : Func × List Nat × Nat} {s : VM D}

theorem Bot.same {s' : VM D} (h : Bot b s) (h1 : s'.frames = s.frames) (h2 : fixed s'.frame = fixed s.frame) : Bot b s' := by
  unfold Bot bottom at *
  rw [h1]
  cases hl : s.frames.getLast? with
  | none => rw [hl] at h; exact h2.trans h
  | some f => rw [hl] at h; exact h

theorem Bot.call {s' : VM D} (h : Bot b s) (h1 : s'.frames = s.frame :: s.frames) : Bot b s' := by
  unfold Bot bottom at *
  rw [h1, List.getLast?_cons]
  exact h

theorem Bot.ret {s' : VM D} {f : Frame} {fs : List Frame} (h : Bot b s) (h1 : s.frames = f :: fs) (h2 : s'.frames = fs) (h3 : s'.frame = f) : Bot b s' := by
  unfold Bot bottom at *
  rw [h1, List.getLast?_cons] at h
  rw [h2, h3]
  exact h

theorem each_errAt (h : Bot b s) {e : Err} : (s.errAt e).Each (Bot b) := h
theorem each_err1 (h : Bot b s) {e : Err} : (s.err1 e).Each (Bot b) := h
theorem each_oobR (h : Bot b s) : (s.oobR H).Each (Bot b) := by
  unfold oobR; split
  · trivial
  · exact h

theorem each_push (h : Bot b s) {v : VVal} : (s.push H v).Each (Bot b) := by
  unfold push; split
  · exact h
  · exact h.same rfl rfl

theorem each_lift {α : Type} {r : Res α} {k : α → StepR D} (h : Bot b s) (hk : ∀ a, (k a).Each (Bot b)) : (s.lift r k).Each (Bot b) := by
  cases r with
  | ok a => exact hk a
  | err e => exact h
  | panic => trivial

theorem each_pop {k : VVal → VM D → StepR D} (h : ∀ v s', s'.frames = s.frames → s'.frame = s.frame → (k v s').Each (Bot b)) :
    (s.pop k).Each (Bot b) := by
  unfold pop; split
  · trivial
  · exact h _ _ rfl rfl

theorem each_popSwapOut {k : VVal → VM D → StepR D} (h : ∀ v s', s'.frames = s.frames → s'.frame = s.frame → (k v s').Each (Bot b)) :
    (s.popSwapOut k).Each (Bot b) := by
  unfold popSwapOut; split
  · trivial
  · exact h _ _ rfl rfl

theorem each_pushAll (h : Bot b s) (vs : List VVal) : (s.pushAll H vs).Each (Bot b) := by
  induction vs generalizing s with
  | nil => exact h
  | cons v vs ih =>
    unfold pushAll push
    split
    · rename_i h1
      split at h1
      · simp [errAt] at h1
      · cases h1; exact ih (h.same rfl rfl)
    · rename_i h1
      split
      · exact h
      · exact h.same rfl rfl

theorem each_runBuiltin (h : Bot b s) {f : BFn D VClos} {n : Nat} {ex : Option (ExitFn D)} : (s.runBuiltin H f n ex).Each (Bot b) := by
  unfold runBuiltin
  split
  · exact h
  · exact each_lift (Bot.same h rfl rfl) fun v => by refine each_push ?_; exact h.same rfl rfl

/-- No instruction changes the outermost frame. -/
theorem exec_bottom (h : Bot b s) (i : Instr) : (exec H s i).Each (Bot b) := by
  have eq : ∀ {s' : VM D}, s'.frames = s.frames → s'.frame = s.frame → Bot b s' := fun h1 h2 => h.same h1 (by rw [h2])
  cases i with
  | ret =>
    simp only [exec]
    refine each_pop fun v s' h1 h2 => ?_
    have hc := closeRange_same (H := H) (s := s') s'.frame.st (s'.sp - s'.frame.st)
    have h3 : Bot b (s'.closeRange H s'.frame.st (s'.sp - s'.frame.st)) := eq (hc.2.2.1.trans h1) (hc.2.2.2.1.trans h2)
    split
    · rename_i f fs hf
      exact each_push (h3.ret hf rfl rfl)
    · split
      · trivial
      · rename_i hf _
        exact ⟨h3.same rfl rfl, hf⟩
  | callFunction n =>
    simp only [exec]; split
    · trivial
    · split
      · exact h
      · split
        · split
          · exact h
          · exact h.call rfl
        · split
          · exact h
          · exact h.call rfl
        · exact h
  | createClosure k us =>
    simp only [exec]; split
    · split
      · rename_i hc
        have := captureAll_same us hc
        exact each_push (eq this.2.2.1 this.2.2.2.1)
      · trivial
    · exact h
    · trivial
  | closeUpvalue =>
    simp only [exec]; split
    · trivial
    · have hc := closeUp_same (H := H) (s := s) (s.sp - 1)
      exact eq hc.2.2.1 hc.2.2.2.1
  | binary op =>
    simp only [exec]; refine each_pop fun _ s1 h1 h2 => each_pop fun _ s2 h3 h4 => ?_
    exact each_lift (eq (h3.trans h1) (h4.trans h2)) fun v => eq (h3.trans h1) (h4.trans h2)
  | unary op =>
    simp only [exec]; refine each_pop fun _ s1 h1 h2 => ?_
    exact each_lift (eq h1 h2) fun v => eq h1 h2
  | indexGet =>
    simp only [exec]; refine each_pop fun _ s1 h1 h2 => each_pop fun _ s2 h3 h4 => ?_
    exact each_lift (eq (h3.trans h1) (h4.trans h2)) fun v => each_push (eq (h3.trans h1) (h4.trans h2))
  | createRange =>
    simp only [exec]; refine each_pop fun _ s1 h1 h2 => each_pop fun _ s2 h3 h4 => ?_
    exact each_lift (eq (h3.trans h1) (h4.trans h2)) fun v => each_push (eq (h3.trans h1) (h4.trans h2))
  | createPair =>
    simp only [exec]; refine each_pop fun _ s1 h1 h2 => each_pop fun _ s2 h3 h4 => ?_
    exact eq (h3.trans h1) (h4.trans h2)
  | createArray n =>
    simp only [exec]; split
    · trivial
    · exact each_lift h fun v => (by refine each_push ?_; exact eq rfl rfl)
  | unpack n =>
    simp only [exec]; refine each_popSwapOut fun _ s1 h1 h2 => ?_
    exact each_lift (eq h1 h2) fun v => each_pushAll (eq h1 h2) _
  | iterNext o =>
    simp only [exec]; split
    · trivial
    · split
      · refine each_lift (eq rfl rfl) fun r => ?_
        split
        · exact (by refine each_push ?_; exact eq rfl rfl)
        · exact h.same rfl rfl
      · exact h
  | exitContext =>
    simp only [exec]; split
    · exact each_lift (eq rfl rfl) fun _ => eq rfl rfl
    · exact h
  | enterContext k m =>
    simp only [exec]; split
    · exact each_runBuiltin h
    · exact each_runBuiltin h
    · exact h
  | callBuiltin k m =>
    simp only [exec]; split
    · exact each_runBuiltin h
    · exact h
    · exact h
  | jumpIfFalse o =>
    simp only [exec]; split
    · trivial
    · refine each_lift h fun c => ?_
      split
      · exact h
      · exact h.same rfl rfl
  | jumpIfNotEq o =>
    simp only [exec]; split
    · trivial
    · split
      · exact eq rfl rfl
      · exact h.same rfl rfl
      · trivial
  | jumpForward o => exact h.same rfl rfl
  | jumpBackward o =>
    simp only [exec]; split
    · trivial
    · exact h.same rfl rfl
  | halt => exact h
  | loadNone => exact each_push h
  | newLoopCtx => exact each_push h
  | loadNoneMany n =>
    simp only [exec]; split
    · exact eq rfl rfl
    · exact eq rfl rfl
  | blockResult => simp only [exec]; exact each_popSwapOut fun _ s1 h1 h2 => eq h1 h2
  | blockReturn =>
    simp only [exec]; split
    · exact (by refine each_push ?_; exact eq rfl rfl)
    · exact h
  | pop => simp only [exec]; exact each_pop fun _ s1 h1 h2 => eq h1 h2
  | defineGlobal k => simp only [exec]; exact each_pop fun _ s1 h1 h2 => eq h1 h2
  | defineGlobalDefaulted k =>
    simp only [exec]; refine each_pop fun _ s1 h1 h2 => ?_
    split <;> exact eq h1 h2
  | swap =>
    simp only [exec]; split
    · trivial
    · exact eq rfl rfl
  | swapPop =>
    simp only [exec]; split
    · trivial
    · exact eq rfl rfl
  | popMany n =>
    simp only [exec]; split
    · trivial
    · exact eq rfl rfl
  | loadConst i =>
    simp only [exec]; split
    · exact each_push h
    · exact each_push h
    · trivial
  | loadLocal i =>
    simp only [exec]; split
    · exact each_oobR h
    · exact each_push h
  | setLocal i =>
    simp only [exec]; split
    · trivial
    · split
      · exact each_oobR h
      · exact eq rfl rfl
  | loadGlobal i =>
    simp only [exec]; split
    · exact each_push h
    · exact h
  | setGlobal i =>
    simp only [exec]; split
    · trivial
    · split
      · exact eq rfl rfl
      · exact h
  | setUpvalue i =>
    simp only [exec]; split
    · trivial
    · split
      · split
        · split
          · exact each_oobR h
          · exact eq rfl rfl
        · exact eq rfl rfl
      · trivial
  | loadUpvalue i =>
    simp only [exec]; split
    · split
      · split
        · exact each_oobR h
        · exact each_push h
      · exact each_push h
    · trivial
  | createFunction i =>
    simp only [exec]; split
    · exact each_push h
    · exact h
    · trivial

theorem step_bottom (h : Bot b s) : (s.step H).Each (Bot b) := by
  unfold step
  split
  · exact h
  · split
    · refine exec_bottom ?_ _; exact h.same rfl rfl
    · trivial

/-- However a run ends, the outermost frame is the one it started with. -/
theorem run_bottom (clock : Nat → Bool) : ∀ (fuel i n : Nat) (s : VM D) {r : StepR D}, Bot b s → s.run H clock fuel i n = some r → r.Each (Bot b)
  | 0, _, _, _, _, _, h => by simp [run] at h
  | fuel + 1, i, n, s, r, hb, h => by
    have hs := step_bottom (H := H) hb
    unfold run at h
    split at h
    · simp only [Option.some.injEq] at h; subst h; exact hb
    · simp only at h
      split at h
      · rename_i s' h1
        rw [h1] at hs
        split at h
        · simp only [Option.some.injEq] at h; subst h; exact hs
        · exact run_bottom clock fuel _ _ s' hs h
      · simp only [Option.some.injEq] at h; subst h; exact hs

end VM
end Quilt
