import Verif.Sem.Ready
import Verif.Props.Vm

/-!
# Correctness of compiled programs: C19, C20, C21, C22

The specification is the direct semantics `evalProgram` (`Verif/Sem/Source.lean`); `Prepared`
(`Verif/Sem/Ready.lean`) says how hosts set up a VM.
-/

namespace Quilt.Props

variable {D : Type}

/-- `m` is a VM created for the program `ast` and prepared by its host in any way; `S` and `σ` are the
corresponding host and state of the direct semantics. The program is within the table limits and
obeys the slot discipline (`wfProgram`, see C25). -/
structure Runs (M : Machine.Setup D) (data : D) (ast : List Node) (S : SHost D) (σ : SSt D) (m : Machine D) : Prop where
  prepared : ∃ script, compile M.cfg ast = .ok script ∧ Prepared M data script S σ m
  wf : wfProgram ast = true
  size : sizeL ast ≤ 65535
  names : m.host.syms.entries.length ≤ 65536

theorem Runs.outcome {M : Machine.Setup D} {data : D} {ast : List Node} {S : SHost D} {σ : SSt D} {m : Machine D} (h : Runs M data ast S σ m) (k : Nat) :
    Outcome (m.host.withLimits none none) k noSlots m.vm (evalProgram S k ast σ) := by
  obtain ⟨script, h1, h2⟩ := h.prepared
  exact h2.outcome h1 h.wf h.size h.names k

theorem Runs.sp {M : Machine.Setup D} {data : D} {ast : List Node} {S : SHost D} {σ : SSt D} {m : Machine D} (h : Runs M data ast S σ m) (n : Nat) :
    m.vm.sp ≤ n := by
  obtain ⟨script, h1, h2⟩ := h.prepared
  have : m.vm.sp = 0 := by
    clear h1 h
    induction h2 with
    | new => rfl
    | builtin x _ _ ih => exact ih
    | global x _ _ ih => exact ih
    | @external S σ m m' x v w _ _ hset ih =>
      unfold Machine.setExternal at hset
      split at hset
      · simp at hset
      · split at hset
        · simp only [Prod.mk.injEq, true_and] at hset; subst hset; exact ih
        · simp at hset
  omega

variable {M : Machine.Setup D} {data : D} {ast : List Node} {S : SHost D} {σ : SSt D} {m : Machine D}

/-! ## A concrete program -/

private def z : Span := Span.default

/-- `fn f(x) { return x + 1 }  f(2)` -/
def demoProg : List Node :=
  [.func z ("f", z) [("x", z)] [.ret z (some (.bin z .add (.ident z "x") (.lit z (.int 1))))],
   .call z (.ident z "f") [.lit z (.int 2)]]

/-- `while true { none }  none` -/
def demoLoop : List Node :=
  [.while z (.lit z (.bool true)) [.lit z .none], .lit z .none]

/-- `1 / 0` -/
def demoFail : List Node := [.bin ⟨3, 8, 0⟩ .div (.lit z (.int 1)) (.lit z (.int 0))]

def demoSetup : Machine.Setup Int :=
  { cfg := (demoHost 0 0).cfg, opts := { stackSize := some 100, callStackSize := some 10, lim := ⟨100, 100⟩ }, onEnter := id, onExit := id, eqFuel := 10 }

def demoS : SHost Int := ⟨demoSetup.cfg, demoSetup.opts.lim, fun _ => none, id, id⟩
def demoσ : SSt Int := ⟨fun _ => .none, 0, fun _ => none, 7, []⟩

/-- Compiles, with at most `n` names. -/
def compiles (cfg : Cfg) (ast : List Node) (n : Nat) : Bool :=
  match compile cfg ast with
  | .ok script => decide (script.syms.entries.length ≤ n)
  | _ => false

theorem demo_runs (ast : List Node) (h : compiles demoSetup.cfg ast 65536 = true) (hw : wfProgram ast = true) (hs : sizeL ast ≤ 65535) :
    ∃ script, Runs demoSetup 7 ast demoS demoσ (Machine.new demoSetup 7 script) := by
  unfold compiles at h
  split at h
  · rename_i script hc
    exact ⟨script, ⟨script, hc, .new⟩, hw, hs, of_decide_eq_true h⟩
  · simp at h

/-! ## C20 -/

/-- A program whose value is `v` under the direct semantics, run with large enough limits, returns
`v`; host data and global variables are as prescribed. -/
theorem C20_value (h : Runs M data ast S σ m) {k : Nat} {v : SVal} {σ' : SSt D} (he : evalProgram S k ast σ = (.ok v, σ')) :
    ∃ N C, ∀ n c, N ≤ n → C ≤ c → ∀ clock : Nat → Bool, (∀ t, clock t = false) →
      ∃ fuel w s', (m.withLimits n c).run clock fuel = some (.done w s') ∧
        SameVal v w ∧ s'.data = σ'.data ∧ SameGlobals m.host.syms σ' s' := by
  have ho := h.outcome k
  rw [he] at ho
  obtain ⟨N, C, hN⟩ := ho.run_big ⟨by simp, by simp, by simp⟩
  refine ⟨N, C, fun n c hn hc clock hclk => ?_⟩
  obtain ⟨fuel, res, h1, h2⟩ := hN n c hn hc clock hclk
  cases res with
  | done w s' =>
    obtain ⟨v', h3, h4, h5, h6, _⟩ := h2
    simp only [Out.ok.injEq, reduceCtorEq, or_false] at h3
    subst h3
    exact ⟨fuel, w, s', h1, h4, h5, h6⟩
  | err e sp s' => obtain ⟨_, h3, _⟩ := h2; simp at h3
  | panic => rcases h2 with h3 | ⟨_, _, h3⟩ <;> simp at h3
  | next s' => exact h2.elim

/-- Under any limits and any clock, such a program returns nothing else: the prescribed value, or
one of the limits was hit. -/
theorem C20_value_or_limit (h : Runs M data ast S σ m) {k : Nat} {v : SVal} {σ' : SSt D} (he : evalProgram S k ast σ = (.ok v, σ'))
    (n c : Nat) (clock : Nat → Bool) (fuel : Nat) {res : StepR D} (hr : (m.withLimits n c).run clock fuel = some res) :
    (∃ w s', res = .done w s' ∧ SameVal v w ∧ s'.data = σ'.data ∧ SameGlobals m.host.syms σ' s') ∨
    (∃ sp s', res = .err (.overflow .stackOverflow) sp s') ∨ ∃ sp s', res = .err .runtimeLimit sp s' := by
  have ho := h.outcome k
  rw [he] at ho
  rcases ho.run_any ⟨by simp, by simp, by simp⟩ (h.sp n) hr with h1 | h1 | h2
  · exact .inr (.inr h1)
  · exact .inr (.inl h1)
  · cases res with
    | done w s' =>
      obtain ⟨v', h3, h4, h5, h6, _⟩ := h2
      simp only [Out.ok.injEq, reduceCtorEq, or_false] at h3
      subst h3
      exact .inl ⟨w, s', rfl, h4, h5, h6⟩
    | err e sp s' => obtain ⟨_, h3, _⟩ := h2; simp at h3
    | panic => rcases h2 with h3 | ⟨_, _, h3⟩ <;> simp at h3
    | next s' => exact h2.elim

/-- A `return` outside of functions ends the program with its value (in builds without debug
assertions). -/
theorem C20_return (h : Runs M data ast S σ m) (hchk : m.host.cfg.chk = false) {k : Nat} {v : SVal} {σ' : SSt D} (he : evalProgram S k ast σ = (.ret v, σ')) :
    ∃ N C, ∀ n c, N ≤ n → C ≤ c → ∀ clock : Nat → Bool, (∀ t, clock t = false) →
      ∃ fuel w s', (m.withLimits n c).run clock fuel = some (.done w s') ∧
        SameVal v w ∧ s'.data = σ'.data ∧ SameGlobals m.host.syms σ' s' := by
  have ho := h.outcome k
  rw [he] at ho
  obtain ⟨N, C, hN⟩ := ho.run_big ⟨by simp, by simp, by simp⟩
  refine ⟨N, C, fun n c hn hc clock hclk => ?_⟩
  obtain ⟨fuel, res, h1, h2⟩ := hN n c hn hc clock hclk
  cases res with
  | done w s' =>
    obtain ⟨v', h3, h4, h5, h6, _⟩ := h2
    simp only [Out.ret.injEq, reduceCtorEq, false_or] at h3
    subst h3
    exact ⟨fuel, w, s', h1, h4, h5, h6⟩
  | err e sp s' => obtain ⟨_, h3, _⟩ := h2; simp at h3
  | panic =>
    rcases h2 with h3 | ⟨h3, _⟩
    · simp at h3
    · rw [hchk] at h3; simp at h3
  | next s' => exact h2.elim

/-- The direct semantics: outcomes do not depend on the bound `k` used to reach them. -/
theorem C20_outcome_unique (S : SHost D) (ast : List Node) (σ : SSt D) {k k' : Nat} (h : (evalProgram S k ast σ).1 ≠ .timeout)
    (h' : (evalProgram S k' ast σ).1 ≠ .timeout) : evalProgram S k ast σ = evalProgram S k' ast σ := by
  rcases Nat.le_total k k' with hk | hk
  · exact (evalProgram_mono S hk ast σ h).symm
  · exact evalProgram_mono S hk ast σ h'

example : (∃ script, Runs demoSetup 7 demoProg demoS demoσ (Machine.new demoSetup 7 script)) ∧ (evalProgram demoS 5 demoProg demoσ).1 = .ok (.int 3) :=
  ⟨demo_runs demoProg (by decide +kernel) (by decide +kernel) (by decide +kernel), rfl⟩

/-! ## C21 -/

/-- If the direct semantics raises an error (not itself a stack overflow), the VM with large enough
limits raises the same error, at the same position if the semantics prescribes one, with the same
effects on the host data and the global variables. -/
theorem C21_error (h : Runs M data ast S σ m) {k : Nat} {e : Err} {sp : Option Span} {σ' : SSt D} (he : evalProgram S k ast σ = (.err e sp, σ'))
    (hne : e ≠ .overflow .stackOverflow) :
    ∃ N C, ∀ n c, N ≤ n → C ≤ c → ∀ clock : Nat → Bool, (∀ t, clock t = false) →
      ∃ fuel sp' s', (m.withLimits n c).run clock fuel = some (.err e sp' s') ∧ (∀ x, sp = some x → sp' = x) ∧
        s'.data = σ'.data ∧ SameGlobals m.host.syms σ' s' := by
  have ho := h.outcome k
  rw [he] at ho
  obtain ⟨N, C, hN⟩ := ho.run_big ⟨by simp, by simp, by simp [hne]⟩
  refine ⟨N, C, fun n c hn hc clock hclk => ?_⟩
  obtain ⟨fuel, res, h1, h2⟩ := hN n c hn hc clock hclk
  cases res with
  | done w s' => obtain ⟨_, h3, _⟩ := h2; simp at h3
  | err e' sp' s' =>
    obtain ⟨sp'', h3, h4, h5, h6, _⟩ := h2
    simp only [Out.err.injEq] at h3
    obtain ⟨rfl, rfl⟩ := h3
    exact ⟨fuel, sp', s', h1, h4, h5, h6⟩
  | panic => rcases h2 with h3 | ⟨_, _, h3⟩ <;> simp at h3
  | next s' => exact h2.elim

/-- Under any limits and clock: that error at that position, or a limit was hit. -/
theorem C21_error_or_limit (h : Runs M data ast S σ m) {k : Nat} {e : Err} {sp : Option Span} {σ' : SSt D} (he : evalProgram S k ast σ = (.err e sp, σ'))
    (hne : e ≠ .overflow .stackOverflow) (n c : Nat) (clock : Nat → Bool) (fuel : Nat) {res : StepR D} (hr : (m.withLimits n c).run clock fuel = some res) :
    (∃ sp' s', res = .err e sp' s' ∧ (∀ x, sp = some x → sp' = x) ∧ s'.data = σ'.data ∧ SameGlobals m.host.syms σ' s') ∨
    (∃ sp s', res = .err (.overflow .stackOverflow) sp s') ∨ ∃ sp s', res = .err .runtimeLimit sp s' := by
  have ho := h.outcome k
  rw [he] at ho
  rcases ho.run_any ⟨by simp, by simp, by simp [hne]⟩ (h.sp n) hr with h1 | h1 | h2
  · exact .inr (.inr h1)
  · exact .inr (.inl h1)
  · cases res with
    | done w s' => obtain ⟨_, h3, _⟩ := h2; simp at h3
    | err e' sp' s' =>
      obtain ⟨sp'', h3, h4, h5, h6, _⟩ := h2
      simp only [Out.err.injEq] at h3
      obtain ⟨rfl, rfl⟩ := h3
      exact .inl ⟨sp', s', rfl, h4, h5, h6⟩
    | panic => rcases h2 with h3 | ⟨_, _, h3⟩ <;> simp at h3
    | next s' => exact h2.elim

/-- If the direct semantics panics (integer overflow in checked builds, `MIN / -1`, host panics,
…), so does the VM with large enough limits. -/
theorem C21_panic (h : Runs M data ast S σ m) {k : Nat} {σ' : SSt D} (he : evalProgram S k ast σ = (.panic, σ')) :
    ∃ N C, ∀ n c, N ≤ n → C ≤ c → ∀ clock : Nat → Bool, (∀ t, clock t = false) →
      ∃ fuel, (m.withLimits n c).run clock fuel = some .panic := by
  have ho := h.outcome k
  rw [he] at ho
  obtain ⟨N, C, hN⟩ := ho.run_big ⟨by simp, by simp, by simp⟩
  refine ⟨N, C, fun n c hn hc clock hclk => ?_⟩
  obtain ⟨fuel, res, h1, h2⟩ := hN n c hn hc clock hclk
  cases res with
  | done w s' => obtain ⟨_, h3, _⟩ := h2; simp at h3
  | err e' sp' s' => obtain ⟨_, h3, _⟩ := h2; simp at h3
  | panic => exact ⟨fuel, h1⟩
  | next s' => exact h2.elim

/-- `1 / 0` is a `ZeroDivision` at the position of the operator application. -/
example : (∃ script, Runs demoSetup 7 demoFail demoS demoσ (Machine.new demoSetup 7 script)) ∧
    (evalProgram demoS 5 demoFail demoσ).1 = .err .zeroDivision (some ⟨3, 8, 0⟩) :=
  ⟨demo_runs demoFail (by decide +kernel) (by decide +kernel) (by decide +kernel), rfl⟩

/-! ## C22 -/

/-- If the direct semantics has no outcome whatever the bound, the VM returns nothing but limit
errors: neither values nor other errors nor panics, whatever the limits and the clock. -/
theorem C22_diverges (h : Runs M data ast S σ m) (hd : ∀ k, (evalProgram S k ast σ).1 = .timeout) (n c : Nat) (clock : Nat → Bool) (fuel : Nat) :
    (m.withLimits n c).run clock fuel = none ∨
    (∃ sp s', (m.withLimits n c).run clock fuel = some (.err (.overflow .stackOverflow) sp s')) ∨
    ∃ sp s', (m.withLimits n c).run clock fuel = some (.err .runtimeLimit sp s') := by
  cases hr : (m.withLimits n c).run clock fuel with
  | none => exact .inl rfl
  | some res =>
    have ho : ∀ B, ∃ σ', Outcome (m.host.withLimits none none) B noSlots m.vm (.timeout, σ') := by
      intro B
      have := h.outcome B
      have hB := hd B
      generalize evalProgram S B ast σ = r at this hB
      obtain ⟨o, σ'⟩ := r
      simp only at hB; subst hB
      exact ⟨σ', this⟩
    rcases Outcome.run_forever ho (h.sp n) hr with h1 | h1
    · obtain ⟨sp, x, rfl⟩ := h1; exact .inr (.inr ⟨sp, x, rfl⟩)
    · obtain ⟨sp, x, rfl⟩ := h1; exact .inr (.inl ⟨sp, x, rfl⟩)

/-- And it keeps running: without limits, any number of instructions are executed. -/
theorem C22_keeps_running (h : Runs M data ast S σ m) (hd : ∀ k, (evalProgram S k ast σ).1 = .timeout) (j : Nat) :
    ∃ s', m.vm.steps (m.host.withLimits none none) j = some s' := by
  have := h.outcome j
  have hB := hd j
  generalize evalProgram S j ast σ = r at this hB
  obtain ⟨o, σ'⟩ := r
  simp only at hB; subst hB
  obtain ⟨s', n, h1, h2⟩ := this
  exact VM.steps_prefix h1 h2

/-- Conversely, a value returned by the VM (under any limits and clock) is the one prescribed. -/
theorem C22_value_only_if_prescribed (h : Runs M data ast S σ m) (hu : ∀ k b, (evalProgram S k ast σ).1 ≠ .unspec b)
    (hov : ∀ k sp, (evalProgram S k ast σ).1 ≠ .err (.overflow .stackOverflow) sp)
    (n c : Nat) (clock : Nat → Bool) (fuel : Nat) {w : VVal} {s' : VM D} (hr : (m.withLimits n c).run clock fuel = some (.done w s')) :
    ∃ k v, ((evalProgram S k ast σ).1 = .ok v ∨ (evalProgram S k ast σ).1 = .ret v) ∧ SameVal v w := by
  by_cases hd : ∀ k, (evalProgram S k ast σ).1 = .timeout
  · rcases C22_diverges h hd n c clock fuel with h1 | ⟨_, _, h1⟩ | ⟨_, _, h1⟩ <;> rw [hr] at h1 <;> simp at h1
  · rw [Classical.not_forall] at hd
    obtain ⟨k, hk⟩ := hd
    rcases (h.outcome k).run_any ⟨hk, hu k, hov k⟩ (h.sp n) hr with ⟨_, _, h1⟩ | ⟨_, _, h1⟩ | h2
    · simp at h1
    · simp at h1
    · obtain ⟨v, h3, h4, _⟩ := h2
      exact ⟨k, v, h3, h4⟩

theorem demoLoop_diverges : ∀ k, (evalProgram demoS k demoLoop demoσ).1 = .timeout := by
  have key : ∀ (W : Nat) (last : SVal) (σ : SSt Int), (whileN demoS z (Pure.pure (.bool true)) (Pure.pure .none) W last σ).1 = .timeout := by
    intro W
    induction W with
    | zero => intro _ _; rfl
    | succ W ih => intro last σ; exact ih .none σ
  intro k
  have := key k .none demoσ
  show (SM.bind (whileN demoS z (Pure.pure (.bool true)) (Pure.pure .none) k .none) _ demoσ).1 = _
  simp only [SM.bind]
  generalize whileN demoS z (Pure.pure (.bool true)) (Pure.pure .none) k .none demoσ = r at this
  obtain ⟨o, σ'⟩ := r
  simp only at this; subst this
  rfl

example : ∃ script, Runs demoSetup 7 demoLoop demoS demoσ (Machine.new demoSetup 7 script) :=
  demo_runs demoLoop (by decide +kernel) (by decide +kernel) (by decide +kernel)

/-! ## C19 -/

/-- Whatever a compiled program of parser shape that does not compare functions has executed so far,
under any limits, the next instruction proceeds, ends the program with the prescribed value,
reports the prescribed error or a stack overflow, or panics where the direct semantics panics
(with debug assertions also on a `return` outside of functions). So there are no stack underflows,
no reads outside of code, constants and captured variables, no unknown opcodes and no falling off
the end: these are panics or other errors of the model of the VM. -/
theorem C19_safe (h : Runs M data ast S σ m) (hshape : shapedProgram ast = true) (hcmp : ∀ k, (evalProgram S k ast σ).1 ≠ .unspec true)
    (hov : ∀ k sp, (evalProgram S k ast σ).1 ≠ .err (.overflow .stackOverflow) sp)
    (n c j : Nat) {s1 : VM D} (hj : m.vm.steps (m.withLimits n c).host j = some s1) :
    match s1.step (m.withLimits n c).host with
    | .next _ => True
    | .done w _ => ∃ k v, ((evalProgram S k ast σ).1 = .ok v ∨ (evalProgram S k ast σ).1 = .ret v) ∧ SameVal v w
    | .err e sp _ => e = .overflow .stackOverflow ∨ ∃ k sp', (evalProgram S k ast σ).1 = .err e sp' ∧ ∀ x, sp' = some x → sp = x
    | .panic => ∃ k, (evalProgram S k ast σ).1 = .panic ∨ m.host.cfg.chk = true ∧ ∃ v, (evalProgram S k ast σ).1 = .ret v := by
  have hu : ∀ k b, (evalProgram S k ast σ).1 ≠ .unspec b := by
    obtain ⟨script, h1, h2⟩ := h.prepared
    intro k b
    cases b with
    | true => exact hcmp k
    | false => exact (shaped_outcome h2.good.2.1 hshape k h2.good.2.2).1
  by_cases hd : ∀ k, (evalProgram S k ast σ).1 = .timeout
  · have ho : ∀ B, ∃ σ', Outcome (m.host.withLimits none none) B noSlots m.vm (.timeout, σ') := by
      intro B
      have := h.outcome B
      have hB := hd B
      generalize evalProgram S B ast σ = r at this hB
      obtain ⟨o, σ'⟩ := r
      simp only at hB; subst hB
      exact ⟨σ', this⟩
    have h1 := Outcome.step_forever ho (h.sp n) hj
    have hE : (m.withLimits n c).host = m.host.withLimits (some n) (some c) := rfl
    rw [hE]
    rcases h1 with ⟨s2, h2⟩ | ⟨sp, x, h2⟩
    · rw [h2]; trivial
    · rw [h2]; exact .inl rfl
  · rw [Classical.not_forall] at hd
    obtain ⟨k, hk⟩ := hd
    have h1 := (h.outcome k).step_any ⟨hk, hu k, hov k⟩ (h.sp n) hj
    have hE : (m.withLimits n c).host = m.host.withLimits (some n) (some c) := rfl
    rw [hE]
    rcases h1 with ⟨s2, h2⟩ | ⟨sp, x, h2⟩ | h2
    · rw [h2]; trivial
    · rw [h2]; exact .inl rfl
    · generalize s1.step (m.host.withLimits (some n) (some c)) = r at h2
      cases r with
      | done w s' => obtain ⟨v, h3, h4, _⟩ := h2; exact ⟨k, v, h3, h4⟩
      | err e sp s' => obtain ⟨sp', h3, h4, _⟩ := h2; exact .inr ⟨k, sp', h3, h4⟩
      | panic => exact ⟨k, h2⟩
      | next s' => trivial

/-- Programs of parser shape have an outcome prescribed by the direct semantics unless they compare
functions. -/
theorem C19_shape_suffices (h : Runs M data ast S σ m) (hshape : shapedProgram ast = true) (k : Nat) :
    (evalProgram S k ast σ).1 ≠ .unspec false := by
  obtain ⟨script, h1, h2⟩ := h.prepared
  exact (shaped_outcome h2.good.2.1 hshape k h2.good.2.2).1

example : shapedProgram demoProg = true ∧ shapedProgram demoLoop = true ∧ shapedProgram demoFail = true := ⟨rfl, rfl, rfl⟩

end Quilt.Props
