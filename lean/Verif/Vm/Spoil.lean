import Verif.Vm.Machine
import Verif.Vm.Api

/-!
# Machines whose builtins differ

A machine where some builtins are replaced by ones that fail with a given error does the same as before, unless it fails with this error. Used
for C91.
-/

namespace Quilt

variable {D : Type} (e : Err)

/-- `f` always fails with `e`, or is `f'`. -/
def BFn.Spoilt {C : Type} (f f' : BFn D C) : Prop := f = (fun d _ _ => (.err e, d)) ∨ f = f'

def Builtin.Spoilt : Option (Builtin D VClos) → Option (Builtin D VClos) → Prop
  | some (.fn f), some (.fn f') => BFn.Spoilt e f f'
  | b, b' => b = b'

/-- `r` fails with `e`, or is the same as `r'`. -/
def StepR.Spoilt (r r' : StepR D) : Prop := (∃ sp s, r = .err e sp s) ∨ r = r'

namespace VM
variable {e} {H : Host D} {B : Nat → Option (Builtin D VClos)} {s : VM D}

theorem spoilt_rfl {r : StepR D} : r.Spoilt e r := .inr rfl

theorem spoilt_builtin {f f' : BFn D VClos} (h : BFn.Spoilt e f f') (n : Nat) (ex : Option (ExitFn D)) :
    (s.runBuiltin H f n ex).Spoilt e (s.runBuiltin { H with builtins := B } f' n ex) := by
  unfold runBuiltin; split
  · exact spoilt_rfl
  · rcases h with h | h
    · subst h; exact .inl ⟨_, _, rfl⟩
    · subst h; exact .inr rfl

theorem closeRange_builtins (s : VM D) : ∀ lo n, s.closeRange { H with builtins := B } lo n = s.closeRange H lo n := by
  intro lo n
  induction n generalizing s lo with
  | zero => rfl
  | succ n ih => exact ih (s := s.closeUp H lo) (lo := lo + 1)

theorem pushAll_builtins (vs : List VVal) : ∀ s : VM D, s.pushAll { H with builtins := B } vs = s.pushAll H vs := by
  induction vs with
  | nil => intro s; rfl
  | cons v vs ih =>
    intro s
    simp only [pushAll, ih]
    rfl

theorem exec_spoilt (hB : ∀ i, Builtin.Spoilt e (H.builtins i) (B i)) (i : Instr) : (s.exec H i).Spoilt e (s.exec { H with builtins := B } i) := by
  cases i with
  | ret =>
    right
    simp only [exec, closeRange_builtins]
    rfl
  | enterContext i n =>
    have := hB i
    simp only [exec]
    generalize H.builtins i = b at this
    generalize B i = b' at this
    match b, b', this with
    | some (.fn f), some (.fn f'), h => exact spoilt_builtin h ..
    | none, _, rfl => exact spoilt_rfl
    | some (.ctx f ex), _, rfl => exact spoilt_builtin (.inr rfl) ..
  | callBuiltin i n =>
    have := hB i
    simp only [exec]
    generalize H.builtins i = b at this
    generalize B i = b' at this
    match b, b', this with
    | some (.fn f), some (.fn f'), h => exact spoilt_builtin h ..
    | none, _, rfl => exact spoilt_rfl
    | some (.ctx f ex), _, rfl => exact spoilt_rfl
  | unpack n =>
    right
    simp only [exec, pushAll_builtins]
  | _ => exact spoilt_rfl

theorem step_spoilt (hB : ∀ i, Builtin.Spoilt e (H.builtins i) (B i)) : (s.step H).Spoilt e (s.step { H with builtins := B }) := by
  unfold step; split
  · exact spoilt_rfl
  · split
    · exact exec_spoilt hB _
    · exact spoilt_rfl

/-- The whole run: the machine with the builtins that fail does so, or both do the same and are left in the same state. -/
theorem run_spoilt (hB : ∀ i, Builtin.Spoilt e (H.builtins i) (B i)) (clock : Nat → Bool) :
    ∀ (fuel i n : Nat) (s : VM D), (∃ sp s', s.run H clock fuel i n = some (.err e sp s')) ∨ s.run H clock fuel i n = s.run { H with builtins := B } clock fuel i n
  | 0, _, _, _ => .inr rfl
  | fuel + 1, i, n, s => by
    have h1 := step_spoilt (s := s) hB
    simp only [run]
    split
    · exact .inr rfl
    · rcases h1 with ⟨sp, s', h1⟩ | h1
      · rw [h1]; exact .inl ⟨_, _, rfl⟩
      · rw [← h1]
        split
        · split
          · exact .inr rfl
          · exact run_spoilt hB clock fuel _ _ _
        · exact .inr rfl

end VM

/-- Machines that differ only in this way. -/
structure Machine.Spoilt (m m' : Machine D) : Prop where
  host : m' = { m with host := { m.host with builtins := m'.host.builtins } }
  builtins : ∀ i, Builtin.Spoilt e (m.host.builtins i) (m'.host.builtins i)

namespace Machine.Spoilt
variable {e} {m m' : Machine D}

theorem rfl : m.Spoilt e m := ⟨Eq.refl _, fun i => by
  cases h : m.host.builtins i with
  | none => exact Eq.refl _
  | some b => cases b with
    | fn => exact .inr (Eq.refl _)
    | ctx => exact Eq.refl _⟩

theorem run (h : m.Spoilt e m') (clock : Nat → Bool) (fuel : Nat) : (∃ sp s, m.run clock fuel = some (.err e sp s)) ∨ m.run clock fuel = m'.run clock fuel := by
  rw [h.host]
  exact VM.run_spoilt h.builtins clock fuel 0 0 m.vm

theorem add (h : m.Spoilt e m') (x : String) {b b' : Builtin D VClos} (hb : Builtin.Spoilt e (some b) (some b')) :
    (m.addBuiltins [(x, b)]).Spoilt e (m'.addBuiltins [(x, b')]) := by
  obtain ⟨h1, h2⟩ := h
  generalize m'.host.builtins = B at h1 h2
  subst h1
  refine ⟨Eq.refl _, fun i => ?_⟩
  simp only [Machine.addBuiltins, upd]
  split
  · exact hb
  · exact h2 i

theorem insertGlobal (h : m.Spoilt e m') (x : String) (w : VVal) : (m.insertGlobal x w).Spoilt e (m'.insertGlobal x w) := by
  obtain ⟨h1, h2⟩ := h
  generalize m'.host.builtins = B at h1 h2
  subst h1
  exact ⟨Eq.refl _, h2⟩

theorem setExternal (h : m.Spoilt e m') (x : String) (w : VVal) : (m.setExternal x w).1 = (m'.setExternal x w).1 ∧ (m.setExternal x w).2.Spoilt e (m'.setExternal x w).2 := by
  obtain ⟨h1, h2⟩ := h
  generalize m'.host.builtins = B at h1 h2
  subst h1
  simp only [Machine.setExternal]
  split
  · exact ⟨Eq.refl _, Eq.refl _, h2⟩
  · split
    · exact ⟨Eq.refl _, Eq.refl _, h2⟩
    · exact ⟨Eq.refl _, Eq.refl _, h2⟩

end Machine.Spoilt
end Quilt
