import Verif.Vm.Bottom
import Verif.Compiler.Spans

/-!
# Where runtime errors are reported

Used for C60.
-/

namespace Quilt

/-- Errors that are reported at the instruction that raises them. Exhausted stacks, calls with a wrong number of arguments
and calls of context managers are reported at whatever instruction follows (`VM::error` in `interpreter/src/vm.rs`), the
runtime limit at the function. -/
def Err.located : Err → Bool
  | .overflow _ | .runtimeLimit => false
  | .type (.mismatchedArity _ _ _) => false
  | .type (.notCallable s) => s != "context manager"
  | _ => true

/-- The error of the step, if it is one of those, satisfies `P`. -/
def StepR.Located {D : Type} (P : Span → Frame → Prop) : StepR D → Prop
  | .err e sp s => e.located = true → P sp s.frame
  | _ => True

namespace VM
variable {D : Type} {H : Host D} {s : VM D} {P : Span → Frame → Prop}

theorem loc_push {v : VVal} : (s.push H v).Located P := by
  unfold push; split
  · exact fun h => by simp [Err.located] at h
  · trivial

theorem loc_oobR : (s.oobR H).Located P := by
  unfold oobR; split
  · trivial
  · exact fun h => by simp [Err.located] at h

theorem loc_pushAll : ∀ (vs : List VVal) {s : VM D}, (s.pushAll H vs).Located P
  | [], _ => trivial
  | v :: vs, s => by
    have := loc_push (H := H) (s := s) (P := P) (v := v)
    unfold pushAll
    split
    · exact loc_pushAll vs
    · exact this

theorem loc_lift {α : Type} {r : Res α} {k : α → StepR D} (h : P (s.frame.fn.getSpan (s.frame.ip - 1)) s.frame) (hk : ∀ a, r = .ok a → (k a).Located P) : (s.lift r k).Located P := by
  cases r with
  | ok a => exact hk a rfl
  | err e => exact fun _ => h
  | panic => trivial

theorem loc_pop {k : VVal → VM D → StepR D} (h : ∀ v s', s'.frame = s.frame → (k v s').Located P) : (s.pop k).Located P := by
  unfold pop; split
  · trivial
  · exact h _ _ rfl

theorem loc_popSwapOut {k : VVal → VM D → StepR D} (h : ∀ v s', s'.frame = s.frame → (k v s').Located P) : (s.popSwapOut k).Located P := by
  unfold popSwapOut; split
  · trivial
  · exact h _ _ rfl

theorem loc_runBuiltin {f : BFn D VClos} {n : Nat} {ex : Option (ExitFn D)} (h : P (s.frame.fn.getSpan (s.frame.ip - 1)) s.frame) :
    (s.runBuiltin H f n ex).Located P := by
  unfold runBuiltin; split
  · exact fun h => by simp [Err.located] at h
  · exact loc_lift h fun _ _ => loc_push

/-- Errors of one instruction: only of those with a condition on their origin, at their last byte. -/
theorem exec_located (i : Instr) (hc : ∀ k l, (i = .createFunction k ∨ ∃ us, i = .createClosure k us) → s.frame.fn.consts[k]? ≠ some (.lit l)) :
    (s.exec H i).Located fun sp f => i.free = false ∧ sp = s.frame.fn.getSpan (s.frame.ip - 1) ∧ f = s.frame := by
  have no : ∀ {e : Err} {sp : Span} {s' : VM D} {P : Span → Frame → Prop}, e.located = false → (StepR.err e sp s').Located P :=
    fun h h' => by simp [h] at h'
  cases i with
  | halt => exact fun _ => ⟨rfl, rfl, rfl⟩
  | ret =>
    simp only [exec]
    refine loc_pop fun v s' hf => ?_
    split
    · exact loc_push
    · split <;> trivial
  | pop => simp only [exec]; exact loc_pop fun _ _ _ => trivial
  | popMany n => simp only [exec]; split <;> trivial
  | swap => simp only [exec]; split <;> trivial
  | swapPop => simp only [exec]; split <;> trivial
  | loadConst i => simp only [exec]; split <;> first | exact loc_push | trivial
  | loadLocal i => simp only [exec]; split <;> first | exact loc_oobR | exact loc_push
  | setLocal i =>
    simp only [exec]; split
    · trivial
    · split
      · exact loc_oobR
      · trivial
  | defineGlobal i => simp only [exec]; exact loc_pop fun _ _ _ => trivial
  | loadUpvalue i =>
    simp only [exec]; split
    · split
      · split
        · exact loc_oobR
        · exact loc_push
      · exact loc_push
    · trivial
  | setUpvalue i =>
    simp only [exec]; split
    · trivial
    · split
      · split
        · split
          · exact loc_oobR
          · trivial
        · trivial
      · trivial
  | loadGlobal i =>
    simp only [exec]; split
    · exact loc_push
    · exact fun _ => ⟨rfl, rfl, rfl⟩
  | setGlobal i =>
    simp only [exec]; split
    · trivial
    · split
      · trivial
      · exact fun _ => ⟨rfl, rfl, rfl⟩
  | defineGlobalDefaulted i =>
    simp only [exec]
    refine loc_pop fun v s' hf => ?_
    split <;> trivial
  | closeUpvalue => simp only [exec]; split <;> trivial
  | createFunction i =>
    simp only [exec]; split
    · exact loc_push
    · rename_i l hl; exact absurd hl (hc i l (.inl rfl))
    · trivial
  | createClosure i us =>
    simp only [exec]; split
    · split
      · exact loc_push
      · trivial
    · rename_i l hl; exact absurd hl (hc i l (.inr ⟨us, rfl⟩))
    · trivial
  | createPair => simp only [exec]; exact loc_pop fun _ _ _ => loc_pop fun _ _ _ => trivial
  | createArray n =>
    simp only [exec]; split
    · trivial
    · exact loc_lift ⟨rfl, rfl, rfl⟩ fun _ _ => loc_push
  | createRange =>
    simp only [exec]
    refine loc_pop fun _ s1 h1 => loc_pop fun _ s2 h2 => loc_lift ?_ fun _ _ => loc_push
    rw [h2, h1]; exact ⟨rfl, rfl, rfl⟩
  | callFunction n =>
    simp only [exec]; split
    · trivial
    · split
      · exact no rfl
      · split
        · split
          · exact no rfl
          · trivial
        · split
          · exact no rfl
          · trivial
        · exact fun _ => ⟨rfl, rfl, rfl⟩
  | callBuiltin i n =>
    simp only [exec]; split
    · exact loc_runBuiltin ⟨rfl, rfl, rfl⟩
    · exact no rfl
    · exact fun _ => ⟨rfl, rfl, rfl⟩
  | enterContext i n =>
    simp only [exec]; split
    · exact loc_runBuiltin ⟨rfl, rfl, rfl⟩
    · exact loc_runBuiltin ⟨rfl, rfl, rfl⟩
    · exact fun _ => ⟨rfl, rfl, rfl⟩
  | exitContext =>
    simp only [exec]; split
    · exact loc_lift ⟨rfl, rfl, rfl⟩ fun _ _ => trivial
    · trivial
  | blockResult => simp only [exec]; exact loc_popSwapOut fun _ _ _ => trivial
  | blockReturn =>
    simp only [exec]; split
    · exact loc_push
    · exact no rfl
  | jumpIfFalse o =>
    simp only [exec]; split
    · trivial
    · refine loc_lift ⟨rfl, rfl, rfl⟩ fun _ _ => ?_
      split <;> trivial
  | jumpIfNotEq o =>
    simp only [exec]; split
    · trivial
    · split <;> trivial
  | jumpForward o => trivial
  | jumpBackward o => simp only [exec]; split <;> trivial
  | unpack n =>
    simp only [exec]
    refine loc_popSwapOut fun _ s1 h1 => loc_lift ?_ fun _ _ => loc_pushAll _
    rw [h1]; exact ⟨rfl, rfl, rfl⟩
  | loadNone => exact loc_push
  | loadNoneMany n =>
    simp only [exec]; split
    · exact no rfl
    · trivial
  | newLoopCtx => exact loc_push
  | iterNext o =>
    simp only [exec]; split
    · trivial
    · split
      · refine loc_lift ⟨rfl, rfl, rfl⟩ fun r _ => ?_
        split
        · exact loc_push
        · trivial
      · exact fun _ => ⟨rfl, rfl, rfl⟩
  | indexGet =>
    simp only [exec]
    refine loc_pop fun _ s1 h1 => loc_pop fun _ s2 h2 => loc_lift ?_ fun _ _ => loc_push
    rw [h2, h1]; exact ⟨rfl, rfl, rfl⟩
  | unary op =>
    simp only [exec]
    refine loc_pop fun _ s1 h1 => loc_lift ?_ fun _ _ => trivial
    rw [h1]; exact ⟨rfl, rfl, rfl⟩
  | binary op =>
    simp only [exec]
    refine loc_pop fun _ s1 h1 => loc_pop fun _ s2 h2 => loc_lift ?_ fun _ _ => trivial
    rw [h2, h1]; exact ⟨rfl, rfl, rfl⟩

/-- A run that ends with such an error ends with a step. -/
theorem run_err (clock : Nat → Bool) : ∀ (fuel i n : Nat) {s s' : VM D} {e : Err} {sp : Span}, e.located = true → s.run H clock fuel i n = some (.err e sp s') →
    ∃ k s0, s.steps H k = some s0 ∧ s0.step H = .err e sp s'
  | 0, _, _, _, _, _, _, _, h => by simp [run] at h
  | fuel + 1, i, n, s, s', e, sp, he, h => by
    unfold run at h
    split at h
    · simp only [Option.some.injEq, StepR.err.injEq] at h; obtain ⟨rfl, _⟩ := h; simp [Err.located] at he
    · simp only at h
      split at h
      · rename_i s1 h1
        split at h
        · simp only [Option.some.injEq, StepR.err.injEq] at h; obtain ⟨rfl, _⟩ := h; simp [Err.located] at he
        · obtain ⟨k, s0, hk, h0⟩ := run_err clock fuel _ _ he h
          exact ⟨k + 1, s0, by simp [steps, h1, hk], h0⟩
      · simp only [Option.some.injEq] at h
        exact ⟨0, s, rfl, h⟩

end VM
end Quilt
