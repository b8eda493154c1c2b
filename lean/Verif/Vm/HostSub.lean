import Verif.Vm.Limits

/-!
# The machine with fewer builtins and other symbol names
-/

namespace Quilt

/-- The same host with another symbol table and other builtins. -/
def Host.with {D : Type} (H : Host D) (p : Pool String) (b : Nat → Option (Builtin D VClos)) : Host D :=
  { H with syms := p, builtins := b }

/-- Outcome of an instruction with part of the builtins (first) and with all of them: the same, up to
the name in an "undefined variable" error, unless the builtin called is not there. -/
inductive HostSub {D : Type} (p q : Pool String) : StepR D → StepR D → Prop
  | same (r) : HostSub p q r r
  | undef (i sp x) : HostSub p q (.err (.name (.undefined ((p.get i).getD "unkown???"))) sp x) (.err (.name (.undefined ((q.get i).getD "unkown???"))) sp x)
  | builtin (n sp x r) : HostSub p q (.err (.name (.undefinedBuiltin n)) sp x) r

namespace VM
variable {D : Type} {H : Host D} {p : Pool String} {b : Nat → Option (Builtin D VClos)} {s : VM D}

theorem pushAll_with : ∀ (vs : List VVal) (s : VM D), s.pushAll (H.with p b) vs = s.pushAll H vs
  | [], _ => rfl
  | v :: vs, s => by
    unfold pushAll
    have : s.push (H.with p b) v = s.push H v := rfl
    rw [this]
    cases s.push H v with
    | next s' => exact pushAll_with vs s'
    | _ => rfl

theorem closeRange_with : ∀ (n lo : Nat) (s : VM D), s.closeRange (H.with p b) lo n = s.closeRange H lo n
  | 0, _, _ => rfl
  | n + 1, lo, s => by
    unfold closeRange
    have : s.closeUp (H.with p b) lo = s.closeUp H lo := rfl
    rw [this]
    exact closeRange_with n (lo + 1) _

theorem exec_host (hb : ∀ i, b i = none ∨ b i = H.builtins i) (i : Instr) : HostSub p H.syms (s.exec (H.with p b) i) (s.exec H i) := by
  cases i with
  | loadGlobal i =>
    simp only [exec]
    cases s.globals i with
    | some v => exact .same _
    | none => exact .undef i _ _
  | setGlobal i =>
    simp only [exec]
    split
    · exact .same _
    · cases s.globals i with
      | some v => exact .same _
      | none => exact .undef i _ _
  | enterContext i n =>
    simp only [exec]
    have : (H.with p b).builtins i = b i := rfl
    rw [this]
    rcases hb i with h | h
    · rw [h]; exact .builtin _ _ _ _
    · rw [h]
      cases H.builtins i with
      | none => exact .builtin _ _ _ _
      | some x => cases x <;> exact .same _
  | callBuiltin i n =>
    simp only [exec]
    have : (H.with p b).builtins i = b i := rfl
    rw [this]
    rcases hb i with h | h
    · rw [h]; exact .builtin _ _ _ _
    · rw [h]
      cases H.builtins i with
      | none => exact .builtin _ _ _ _
      | some x => cases x <;> exact .same _
  | ret =>
    have : s.exec (H.with p b) .ret = s.exec H .ret := by
      simp only [exec]
      simp only [closeRange_with]
      rfl
    rw [this]; exact .same _
  | unpack n =>
    have : s.exec (H.with p b) (.unpack n) = s.exec H (.unpack n) := by
      simp only [exec]
      simp only [pushAll_with]
    rw [this]; exact .same _
  | _ => exact .same _

theorem step_host (hb : ∀ i, b i = none ∨ b i = H.builtins i) : HostSub p H.syms (s.step (H.with p b)) (s.step H) := by
  unfold step
  split
  · exact .same _
  · cases decode s.frame.fn.consts (s.frame.fn.ops.drop s.frame.ip) with
    | none => exact .same _
    | some x => exact exec_host hb _

theorem steps_host (hb : ∀ i, b i = none ∨ b i = H.builtins i) : ∀ {k : Nat} {s s' : VM D}, s.steps (H.with p b) k = some s' → s.steps H k = some s'
  | 0, _, _, h => h
  | k + 1, s, s', h => by
    simp only [steps] at h ⊢
    have hs := step_host (p := p) (s := s) hb
    cases hx : s.step (H.with p b) with
    | next s1 =>
      rw [hx] at h hs
      generalize s.step H = r at hs ⊢
      cases hs
      exact steps_host hb h
    | _ => rw [hx] at h; simp at h

end VM

end Quilt
