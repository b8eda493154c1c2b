import Verif.Vm.Flow

/-!
# Where errors of the machine are reported, of whatever kind

At a position of the code of the frame that the machine is left in, or at the name of its function. Used for C88.
-/

namespace Quilt

/-- The error of the step, if it is one, is reported somewhere in the code of the frame. -/
def StepR.Spanned {D : Type} : StepR D → Prop
  | .err _ sp s => ∃ j, sp = s.frame.fn.getSpan j
  | _ => True

namespace VM
variable {D : Type} {H : Host D} {s : VM D}

theorem sp_push {v : VVal} : (s.push H v).Spanned := by
  unfold push; split
  · exact ⟨_, rfl⟩
  · trivial

theorem sp_oobR : (s.oobR H).Spanned := by
  unfold oobR; split
  · trivial
  · exact ⟨_, rfl⟩

theorem sp_pushAll : ∀ (vs : List VVal) {s : VM D}, (s.pushAll H vs).Spanned
  | [], _ => trivial
  | v :: vs, s => by
    have := sp_push (H := H) (s := s) (v := v)
    unfold pushAll
    split
    · exact sp_pushAll vs
    · exact this

theorem sp_lift {α : Type} {r : Res α} {k : α → StepR D} (hk : ∀ a, (k a).Spanned) : (s.lift r k).Spanned := by
  cases r with
  | ok a => exact hk a
  | err e => exact ⟨_, rfl⟩
  | panic => trivial

theorem sp_pop {k : VVal → VM D → StepR D} (h : ∀ v s', (k v s').Spanned) : (s.pop k).Spanned := by
  unfold pop; split
  · trivial
  · exact h _ _

theorem sp_popSwapOut {k : VVal → VM D → StepR D} (h : ∀ v s', (k v s').Spanned) : (s.popSwapOut k).Spanned := by
  unfold popSwapOut; split
  · trivial
  · exact h _ _

theorem sp_runBuiltin {f : BFn D VClos} {n : Nat} {ex : Option (ExitFn D)} : (s.runBuiltin H f n ex).Spanned := by
  unfold runBuiltin; split
  · exact ⟨_, rfl⟩
  · exact sp_lift fun _ => sp_push

theorem exec_spanned (i : Instr) : (s.exec H i).Spanned := by
  cases i <;> simp only [exec] <;>
    repeat' first | trivial | exact sp_push | exact sp_oobR | exact sp_pushAll _ | exact sp_runBuiltin | exact ⟨_, rfl⟩ | refine sp_pop fun _ _ => ?_ | refine sp_popSwapOut fun _ _ => ?_ | refine sp_lift fun _ => ?_ | split

theorem step_spanned : (s.step H).Spanned := by
  unfold step
  split
  · exact ⟨_, rfl⟩
  · split
    · exact exec_spanned _
    · trivial

/-- At the end of a run: also at the name of the function. -/
theorem run_reported (clock : Nat → Bool) : ∀ (fuel i n : Nat) {s s' : VM D} {e : Err} {sp : Span}, s.run H clock fuel i n = some (.err e sp s') →
    (∃ j, sp = s'.frame.fn.getSpan j) ∨ sp = s'.frame.fn.nameSpan
  | 0, _, _, _, _, _, _, h => by simp [run] at h
  | fuel + 1, i, n, s, s', e, sp, h => by
    have hF : ∀ s : VM D, (∃ j, s.errF = s.frame.fn.getSpan j) ∨ s.errF = s.frame.fn.nameSpan := fun s => by
      unfold errF; split
      · exact .inl ⟨_, rfl⟩
      · exact .inr rfl
    have hs := step_spanned (H := H) (s := s)
    unfold run at h
    split at h
    · simp only [Option.some.injEq, StepR.err.injEq] at h; obtain ⟨rfl, rfl, rfl⟩ := h; exact hF _
    · simp only at h
      split at h
      · split at h
        · simp only [Option.some.injEq, StepR.err.injEq] at h; obtain ⟨rfl, rfl, rfl⟩ := h; exact hF _
        · exact run_reported clock fuel _ _ h
      · simp only [Option.some.injEq] at h
        rw [h] at hs
        exact .inl hs

end VM
end Quilt
