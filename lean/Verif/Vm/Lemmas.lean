import Verif.Vm.Api

/-!
# Reasoning about single instructions
-/

namespace Quilt

/-- The property holds of the state after the instruction, if the run goes on. -/
def StepR.All {D : Type} (P : VM D → Prop) : StepR D → Prop
  | .next s => P s
  | _ => True

namespace VM
variable {D : Type} {P : VM D → Prop} {H : Host D} {s : VM D}

@[simp] theorem all_next {s' : VM D} : (StepR.next s').All P ↔ P s' := Iff.rfl
@[simp] theorem all_panic : (StepR.panic : StepR D).All P ↔ True := Iff.rfl
@[simp] theorem all_err {e : Err} {sp : Span} {s' : VM D} : (StepR.err e sp s').All P ↔ True := Iff.rfl
@[simp] theorem all_done {v : VVal} {s' : VM D} : (StepR.done v s').All P ↔ True := Iff.rfl
@[simp] theorem all_errAt {e : Err} : (s.errAt e).All P ↔ True := Iff.rfl
@[simp] theorem all_err1 {e : Err} : (s.err1 e).All P ↔ True := Iff.rfl

theorem all_oobR : (s.oobR H).All P := by unfold VM.oobR; split <;> trivial

theorem all_push {v : VVal} (h : reached H.opts.stackSize s.sp = false → P (s.pushU v)) :
    (s.push H v).All P := by
  unfold push; split
  · trivial
  · rename_i hf; exact h (by simpa using hf)

theorem all_lift {α : Type} {r : Res α} {k : α → StepR D} (h : ∀ a, r = .ok a → (k a).All P) :
    (s.lift r k).All P := by
  cases r with
  | ok a => exact h a rfl
  | err e => trivial
  | panic => trivial

theorem all_pop {k : VVal → VM D → StepR D}
    (h : s.sp ≠ 0 → (k (s.stack (s.sp - 1)) { s with sp := s.sp - 1 }).All P) :
    (s.pop k).All P := by
  unfold pop; split
  · trivial
  · rename_i hf; exact h hf

theorem all_popSwapOut {k : VVal → VM D → StepR D}
    (h : s.sp ≠ 0 → (k (s.stack (s.sp - 1))
      { s with sp := s.sp - 1, stack := upd s.stack (s.sp - 1) .none }).All P) :
    (s.popSwapOut k).All P := by
  unfold popSwapOut; split
  · trivial
  · rename_i hf; exact h hf

/-- `pushAll` keeps any property that single pushes keep. -/
theorem all_pushAll (vs : List VVal) (h0 : P s)
    (h : ∀ (s : VM D) v, P s → reached H.opts.stackSize s.sp = false → P (s.pushU v)) :
    (s.pushAll H vs).All P := by
  induction vs generalizing s with
  | nil => exact h0
  | cons v vs ih =>
    unfold pushAll
    by_cases hr : reached H.opts.stackSize s.sp = true
    · simp [push, hr, errAt, StepR.All]
    · have hr : reached H.opts.stackSize s.sp = false := by simpa using hr
      have : s.push H v = .next (s.pushU v) := by simp [push, hr]
      rw [this]
      exact ih (h s v h0 hr)

theorem all_runBuiltin {f : BFn D VClos} {n : Nat} {ex : Option (ExitFn D)}
    (h : n ≤ s.sp → ∀ v, reached H.opts.stackSize (s.sp - n) = false →
      P (pushU { s with
        sp := s.sp - n
        exitFns := match ex with | some e => e :: s.exitFns | none => s.exitFns
        data := (f s.data ((s.topN n).reverse) H.opts.lim).2 } v)) :
    (s.runBuiltin H f n ex).All P := by
  unfold runBuiltin
  split
  · trivial
  · rename_i hn
    have hn : n ≤ s.sp := by omega
    apply all_lift
    intro v hv
    apply all_push
    intro hr
    exact h hn v hr

/-! ### `closeUp`, `capture` -/

theorem closeUp_same (last : Nat) :
    (s.closeUp H last).sp = s.sp ∧ (s.closeUp H last).stack = s.stack ∧
    (s.closeUp H last).frames = s.frames ∧ (s.closeUp H last).frame = s.frame ∧
    (s.closeUp H last).data = s.data ∧ (s.closeUp H last).exitFns = s.exitFns ∧
    (s.closeUp H last).globals = s.globals ∧ (s.closeUp H last).blockResults = s.blockResults ∧
    (s.closeUp H last).hp = s.hp := by
  unfold closeUp; split <;> simp

theorem closeRange_same (lo n : Nat) :
    (s.closeRange H lo n).sp = s.sp ∧ (s.closeRange H lo n).stack = s.stack ∧
    (s.closeRange H lo n).frames = s.frames ∧ (s.closeRange H lo n).frame = s.frame ∧
    (s.closeRange H lo n).data = s.data ∧ (s.closeRange H lo n).exitFns = s.exitFns ∧
    (s.closeRange H lo n).globals = s.globals ∧
    (s.closeRange H lo n).blockResults = s.blockResults ∧
    (s.closeRange H lo n).hp = s.hp := by
  induction n generalizing s lo with
  | zero => simp [closeRange]
  | succ n ih =>
    have h := closeUp_same (H := H) (s := s) lo
    have := ih (s := s.closeUp H lo) (lo := lo + 1)
    simp only [closeRange]
    grind

theorem capture_same (loc : Nat) :
    (s.capture loc).2.sp = s.sp ∧ (s.capture loc).2.stack = s.stack ∧
    (s.capture loc).2.frames = s.frames ∧ (s.capture loc).2.frame = s.frame ∧
    (s.capture loc).2.data = s.data ∧ (s.capture loc).2.exitFns = s.exitFns ∧
    (s.capture loc).2.globals = s.globals ∧ (s.capture loc).2.blockResults = s.blockResults := by
  unfold capture; split <;> simp

theorem captureAll_same (us : List (Nat × Nat)) {cs : List Nat} {s' : VM D}
    (h : s.captureAll us = some (cs, s')) :
    s'.sp = s.sp ∧ s'.stack = s.stack ∧ s'.frames = s.frames ∧ s'.frame = s.frame ∧
    s'.data = s.data ∧ s'.exitFns = s.exitFns ∧ s'.globals = s.globals ∧
    s'.blockResults = s.blockResults := by
  induction us generalizing s cs s' with
  | nil => simp [captureAll] at h; obtain ⟨_, rfl⟩ := h; simp
  | cons u us ih =>
    obtain ⟨l, i⟩ := u
    simp only [captureAll] at h
    split at h
    · have hs := capture_same (s := s) (s.frame.st + i)
      revert h
      generalize s.capture (s.frame.st + i) = r at *
      obtain ⟨c, s1⟩ := r
      intro h
      simp only at h hs
      split at h
      · rename_i cs1 s2 h2
        have := ih h2
        simp at h
        obtain ⟨_, rfl⟩ := h
        grind
      · cases h
    · split at h
      · split at h
        · rename_i h2
          have := ih h2
          simp at h
          obtain ⟨_, rfl⟩ := h
          exact this
        · cases h
      · cases h

theorem step_all (h : ∀ i n, decode s.frame.fn.consts (s.frame.fn.ops.drop s.frame.ip) = some (i, n) →
      (exec H { s with frame := { s.frame with ip := s.frame.ip + n } } i).All P) :
    (s.step H).All P := by
  unfold step
  split
  · trivial
  · split
    · rename_i hd; exact h _ _ hd
    · trivial

theorem all_imp {r : StepR D} (h : r.All P) {s' : VM D} (hr : r = .next s') : P s' := by
  subst hr; exact h

/-- Induction over the states of a run. -/
theorem steps_induct {Q : VM D → Prop} (hstep : ∀ s s', Q s → s.step H = .next s' → Q s')
    {k : Nat} {s s' : VM D} (h0 : Q s) (h : s.steps H k = some s') : Q s' := by
  induction k generalizing s with
  | zero => simp [steps] at h; subst h; exact h0
  | succ k ih =>
    simp only [steps] at h
    split at h
    · rename_i s1 h1; exact ih (hstep _ _ h0 h1) h
    · cases h

end VM
end Quilt
