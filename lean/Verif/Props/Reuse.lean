import Verif.Sem.Reuse
import Verif.Props.Correct
import Verif.Props.VmApi

/-!
# Using a VM again: C49
-/

namespace Quilt.Props

variable {D : Type}

/-! ## States -/

/-- Whatever state a VM is in - also in the middle of a run, after any error -, `update_script` leaves nothing of it but the
host data, the global variables, the captured variables, the contents of unused stack slots and the cell list of the
current function: everything else is as in a VM created for the new script. -/
theorem C49_update_state (M : Machine.Setup D) (m : Machine D) (script : Script) :
    (m.updateScript script).vm =
      { (Machine.new M m.vm.data script).vm with
        globals := m.vm.globals, heap := m.vm.heap, hp := m.vm.hp, stack := m.vm.stack
        frame := { fn := script.fn, ups := m.vm.frame.ups, ip := 0, st := 0 } } ∧
    (m.updateScript script).host = { m.host with syms := script.syms } ∧ (m.updateScript script).externals = m.externals :=
  ⟨rfl, rfl, rfl⟩

/-- Likewise `reset_state`, if the run ended outside of all calls - in particular with a value -: the VM is back at the
start of the script it was created for. -/
theorem C49_reset_state_partial (M : Machine.Setup D) {m : Machine D} {script : Script} (hfn : m.vm.frame.fn = script.fn) (hfr : m.vm.frames = []) {clock : Nat → Bool} {fuel : Nat}
    {s : VM D} (hr : (∃ v, m.run clock fuel = some (.done v s)) ∨ ((∃ e sp, m.run clock fuel = some (.err e sp s)) ∧ s.frames = [])) :
    (m.withVm s).reset.vm =
      { (Machine.new M s.data script).vm with
        globals := s.globals, heap := s.heap, hp := s.hp, stack := s.stack
        frame := { fn := script.fn, ups := m.vm.frame.ups, ip := 0, st := 0 } } ∧
    (m.withVm s).reset.host = m.host ∧ (m.withVm s).reset.externals = m.externals := by
  have hb : VM.Bot (VM.fixed m.vm.frame) m.vm := by
    unfold VM.Bot VM.bottom; rw [hfr]; rfl
  have key : s.frames = [] ∧ VM.Bot (VM.fixed m.vm.frame) s := by
    rcases hr with ⟨v, hr⟩ | ⟨⟨e, sp, hr⟩, hs⟩
    · exact (VM.run_bottom clock fuel 0 0 _ hb hr).symm
    · exact ⟨hs, VM.run_bottom clock fuel 0 0 _ hb hr⟩
  obtain ⟨h1, h2⟩ := key
  unfold VM.Bot VM.bottom at h2
  rw [h1] at h2
  simp only [VM.fixed, List.getLast?_nil, Option.getD_none, Prod.mk.injEq] at h2
  refine ⟨?_, rfl, rfl⟩
  simp only [Machine.reset, Machine.resetVm, Machine.withVm, Machine.new, h2.1, h2.2.1, hfn]

/-! ## Behaviour -/

/-- Histories of a VM that runs the same program again and again: each time it is reset after the run, and the host may set
externals before the next one. `σ` is the state reached by the direct semantics. A run that failed is included if it
failed outside of all calls (see `C49_reset_violated`), at no limit, and while no captured variable was on the
stack (see `C33_dangling_violated`). -/
inductive Reused (M : Machine.Setup D) (data : D) (ast : List Node) (S : SHost D) : SSt D → Machine D → Prop
  /-- A VM prepared by its host. -/
  | first {σ : SSt D} {m : Machine D} : Runs M data ast S σ m → Reused M data ast S σ m
  /-- `set_external`. -/
  | external {σ : SSt D} {m m' : Machine D} {x : String} {v : SVal} {w : VVal} : Reused M data ast S σ m → PlainVal v w → m.setExternal x w = (.ok (), m') →
      Reused M data ast S { σ with globals := updName σ.globals x (some v) } m'
  /-- A run with a value, then `reset_state`. -/
  | value {σ σ' : SSt D} {m : Machine D} {k a c fuel : Nat} {clock : Nat → Bool} {v : SVal} {w : VVal} {s' : VM D} : Reused M data ast S σ m →
      evalProgram S k ast σ = (.ok v, σ') → (m.withLimits a c).run clock fuel = some (.done w s') →
      Reused M data ast S { σ' with exits := [] } (m.withVm s').reset
  /-- A run that failed, then `reset_state`. -/
  | error {σ σ' : SSt D} {m : Machine D} {k a c fuel : Nat} {clock : Nat → Bool} {e e' : Err} {sp : Option Span} {sp' : Span} {s' : VM D} : Reused M data ast S σ m →
      evalProgram S k ast σ = (.err e sp, σ') → e ≠ .overflow .stackOverflow → (m.withLimits a c).run clock fuel = some (.err e' sp' s') →
      e' ≠ .overflow .stackOverflow → e' ≠ .runtimeLimit → s'.openUps = [] → s'.frames = [] → Reused M data ast S { σ' with exits := [] } (m.withVm s').reset

section
variable {M : Machine.Setup D} {data : D} {ast : List Node} {S : SHost D} {σ σ' : SSt D} {m : Machine D}

theorem Reused.wf (h : Reused M data ast S σ m) : wfProgram ast = true := by
  induction h with
  | first h => exact h.wf
  | external _ _ _ ih => exact ih
  | value _ _ _ ih => exact ih
  | error _ _ _ _ _ _ _ _ ih => exact ih

theorem Reused.start (h : Reused M data ast S σ m) : ∃ γ, AtStart ast S γ σ m := by
  induction h with
  | first h =>
    obtain ⟨script, h1, h2⟩ := h.prepared
    exact ⟨_, h2.start h1 h.size h.names⟩
  | external _ h1 h2 ih => obtain ⟨γ, ih⟩ := ih; exact ⟨γ, ih.external h1 h2⟩
  | value h h1 h2 ih => obtain ⟨γ, ih⟩ := ih; exact ih.value h.wf (.inl h1) h2
  | error h h1 h2 h3 h4 h5 h6 h7 ih => obtain ⟨γ, ih⟩ := ih; exact ih.error h.wf h1 h2 h3 h4 h5 h6 h7

/-- Every run of such a VM that has a value under the direct semantics, from the state reached by the runs before it,
returns this value if the limits are large enough, with the prescribed effects; and the VM can be used again. -/
theorem C49_rerun_value_partial (h : Reused M data ast S σ m) {k : Nat} {v : SVal} (he : evalProgram S k ast σ = (.ok v, σ')) :
    ∃ N C, ∀ a c, N ≤ a → C ≤ c → ∀ clock : Nat → Bool, (∀ t, clock t = false) →
      ∃ fuel w s', (m.withLimits a c).run clock fuel = some (.done w s') ∧ SameVal v w ∧ s'.data = σ'.data ∧ SameGlobals m.host.syms σ' s' ∧
        Reused M data ast S { σ' with exits := [] } (m.withVm s').reset := by
  obtain ⟨γ, hs⟩ := h.start
  have ho := hs.outcome h.wf k
  rw [he] at ho
  obtain ⟨N, C, hN⟩ := ho.run_big ⟨by simp, by simp, by simp⟩
  refine ⟨N, C, fun a c ha hc clock hclk => ?_⟩
  obtain ⟨fuel, res, h1, h2⟩ := hN a c ha hc clock hclk
  cases res with
  | done w s' =>
    obtain ⟨v', h3, h4, h5, h6, _⟩ := h2
    simp only [Out.ok.injEq, reduceCtorEq, or_false] at h3
    subst h3
    exact ⟨fuel, w, s', h1, h4, h5, h6, .value h he h1⟩
  | err e sp s' => obtain ⟨_, h3, _⟩ := h2; simp at h3
  | panic => rcases h2 with h3 | ⟨_, _, h3⟩ <;> simp at h3
  | next s' => exact h2.elim

/-- Under any limits and any clock: that value or a limit error. -/
theorem C49_rerun_value_or_limit_partial (h : Reused M data ast S σ m) {k : Nat} {v : SVal} (he : evalProgram S k ast σ = (.ok v, σ'))
    (a c : Nat) (clock : Nat → Bool) (fuel : Nat) {res : StepR D} (hr : (m.withLimits a c).run clock fuel = some res) :
    (∃ w s', res = .done w s' ∧ SameVal v w ∧ s'.data = σ'.data ∧ SameGlobals m.host.syms σ' s' ∧
      Reused M data ast S { σ' with exits := [] } (m.withVm s').reset) ∨
    (∃ sp s', res = .err (.overflow .stackOverflow) sp s') ∨ ∃ sp s', res = .err .runtimeLimit sp s' := by
  obtain ⟨γ, hs⟩ := h.start
  have ho := hs.outcome h.wf k
  rw [he] at ho
  rcases ho.run_any ⟨by simp, by simp, by simp⟩ (by rw [hs.idle.sp]; omega) hr with h1 | h1 | h2
  · exact .inr (.inr h1)
  · exact .inr (.inl h1)
  · cases res with
    | done w s' =>
      obtain ⟨v', h3, h4, h5, h6, _⟩ := h2
      simp only [Out.ok.injEq, reduceCtorEq, or_false] at h3
      subst h3
      exact .inl ⟨w, s', rfl, h4, h5, h6, .value h he hr⟩
    | err e sp s' => obtain ⟨_, h3, _⟩ := h2; simp at h3
    | panic => rcases h2 with h3 | ⟨_, _, h3⟩ <;> simp at h3
    | next s' => exact h2.elim

/-- Every run that fails under the direct semantics fails with that error at that place, or at a limit; and the VM can be
used again if the error occurred outside of all calls while no captured variable was on the stack. -/
theorem C49_rerun_error_partial (h : Reused M data ast S σ m) {k : Nat} {e : Err} {sp : Option Span} (he : evalProgram S k ast σ = (.err e sp, σ'))
    (hne : e ≠ .overflow .stackOverflow) (a c : Nat) (clock : Nat → Bool) (fuel : Nat) {res : StepR D} (hr : (m.withLimits a c).run clock fuel = some res) :
    (∃ sp' s', res = .err e sp' s' ∧ (∀ x, sp = some x → sp' = x) ∧ s'.data = σ'.data ∧ SameGlobals m.host.syms σ' s' ∧
      (e ≠ .runtimeLimit → s'.openUps = [] → s'.frames = [] → Reused M data ast S { σ' with exits := [] } (m.withVm s').reset)) ∨
    (∃ sp s', res = .err (.overflow .stackOverflow) sp s') ∨ ∃ sp s', res = .err .runtimeLimit sp s' := by
  obtain ⟨γ, hs⟩ := h.start
  have ho := hs.outcome h.wf k
  rw [he] at ho
  rcases ho.run_any ⟨by simp, by simp, by simp [hne]⟩ (by rw [hs.idle.sp]; omega) hr with h1 | h1 | h2
  · exact .inr (.inr h1)
  · exact .inr (.inl h1)
  · cases res with
    | done w s' => obtain ⟨_, h3, _⟩ := h2; simp at h3
    | err e' sp' s' =>
      obtain ⟨sp'', h3, h4, h5, h6, _⟩ := h2
      simp only [Out.err.injEq] at h3
      obtain ⟨rfl, rfl⟩ := h3
      exact .inl ⟨sp', s', rfl, h4, h5, h6, fun h7 h8 h9 => .error h he hne hr hne h7 h8 h9⟩
    | panic => rcases h2 with h3 | ⟨_, _, h3⟩ <;> simp at h3
    | next s' => exact h2.elim

end

private def z : Span := Span.default

/-- `extern d = 1  x = x / d  x` with a global `x` of the host. -/
def reuseProg : List Node :=
  [.extern z ("d", z) (.lit z (.int 1)), .assign z ("x", z) (.bin z .div (.ident z "x") (.ident z "d")), .ident z "x"]

/-- What a VM shows that runs the program, is reset, gets the next value of `d` and so on. -/
def reuseShown : Machine Int → List Int → Option (List (Option Int))
  | _, [] => some []
  | m, d :: ds =>
    match m.setExternal "d" (.int (BitVec.ofInt 64 d)) with
    | (.ok (), m) =>
      match m.run (fun _ => false) 100 with
      | some (.done (.int i) s) => (reuseShown (m.withVm s).reset ds).map (some i.toInt :: ·)
      | some (.err _ _ s) => (reuseShown (m.withVm s).reset ds).map (none :: ·)
      | _ => none
    | _ => none

example : (match compile demoSetup.cfg reuseProg with
    | .ok script => reuseShown ((Machine.new demoSetup 7 script).insertGlobal "x" (.int 60)) [2, 3, 0, 5]
    | _ => none) = some [some 30, some 10, none, some 2] := by decide +kernel

example : ∃ script, Reused demoSetup 7 reuseProg demoS { demoσ with globals := updName demoσ.globals "x" (some (.int 60)) }
    ((Machine.new demoSetup 7 script).insertGlobal "x" (.int 60)) ∧
    (evalProgram demoS 9 reuseProg { demoσ with globals := updName demoσ.globals "x" (some (.int 60)) }).1 = .ok (.int 60) := by
  have h : (match compile demoSetup.cfg reuseProg with
    | .ok script => decide ((((Machine.new demoSetup 7 script).insertGlobal "x" (.int 60)).host.syms.entries.length) ≤ 65536)
    | _ => false) = true := by decide +kernel
  split at h
  · rename_i script hc
    exact ⟨script, .first ⟨⟨script, hc, .global "x" .new rfl⟩, by decide +kernel, by decide +kernel, of_decide_eq_true h⟩, rfl⟩
  · simp at h

/-! ## Errors inside of calls -/

/-- Code of a function that ends with an error: `Halt`. -/
def haltFn : Func := demoFn [0] []

/-- Main script: call the failing function once, i.e. `CreateFunction 0; CallFunction 0; Return`. -/
def haltMain : Func := .mk "main" Span.default 0 0 [16, 0, 0, 21, 0, 1] Rle.empty [.fn haltFn] []

/-- `reset_state` after an error inside a call does not restore the main script: the machine is left
with the callee as the code to run, so the next `run` executes the callee instead of the script. -/
theorem C49_reset_violated :
    ∃ (m : Machine Int) (s : VM Int), m.vm.frame.fn = haltMain ∧
      m.run (fun _ => false) 10 = some (.err .halt Span.default s) ∧
      (({ m with vm := s } : Machine Int).reset).vm.frame.fn = haltFn ∧ haltFn ≠ haltMain :=
  ⟨Machine.new ⟨(demoHost 9 9).cfg, (demoHost 9 9).opts, id, id, 0⟩ 0 ⟨[], Pool.empty, haltMain⟩,
    _, rfl, rfl, rfl, by decide⟩

end Quilt.Props
