import Verif.Vm.Inv
import Verif.Vm.Limits

/-!
# Properties of the VM on arbitrary bytecode: C16, C17, C18, C35, C50
-/

namespace Quilt.Props

open VM

variable {D : Type}

/-- A small concrete host for the examples: no builtins, data counts open calls. -/
def demoHost (stack calls : Nat) : Host Int where
  cfg := { F := ⟨fun a _ => a, fun a _ => a, fun a _ => a, fun a _ => a, fun a _ => a, fun a _ => a,
    fun a => a, fun a => a, fun a => a, fun _ _ => true, fun _ _ => true, fun _ _ => true,
    fun _ => []⟩, chk := false }
  opts := { stackSize := some stack, callStackSize := some calls, lim := ⟨100, 100⟩ }
  builtins := fun _ => none
  syms := Pool.empty
  onEnter := (· + 1)
  onExit := (· - 1)
  eqFuel := 10

/-- A function with the given code and constants. -/
def demoFn (ops : List UInt8) (consts : List Const) : Func :=
  .mk "f" Span.default 0 0 ops Rle.empty consts []

/-- A fresh state running the given code. -/
def demoVm (ops : List UInt8) (consts : List Const) : VM Int where
  data := 0
  exitFns := []
  blockResults := []
  globals := fun _ => none
  openUps := []
  heap := fun _ => .closed .none
  hp := 0
  frames := []
  frame := { fn := demoFn ops consts, ups := [], ip := 0, st := 0 }
  stack := fun _ => .none
  sp := 0

/-! ## C16 -/

/-- In every state reached by running any bytecode, at most `stack_size` values are live and no
position at or beyond `stack_size` was written. -/
theorem C16_stack_bound (H : Host D) {n : Nat} (hn : H.opts.stackSize = some n) (s s' : VM D)
    (h0 : s.sp ≤ n) (k : Nat) (h : s.steps H k = some s') :
    s'.sp ≤ n ∧ ∀ i, n ≤ i → s'.stack i = s.stack i :=
  steps_induct (Q := Bounded n s) (fun _ _ => step_bounded hn) ⟨h0, fun _ _ => rfl⟩ h

/-- A step that would leave more than `stack_size` live values (as judged by the same machine
without limits) does not complete: it returns `StackOverflow`. -/
theorem C16_overflow_is_error (H : Host D) (n m : Nat) (s s' : VM D) (h0 : s.sp ≤ n)
    (h : s.step (H.withLimits none none) = .next s') (hn : n < s'.sp) :
    ∃ sp x, s.step (H.withLimits (some n) (some m)) = .err (.overflow .stackOverflow) sp x := by
  have hl := step_lim (H := H) (m := m) h0
  rw [h] at hl
  generalize he : s.step (H.withLimits (some n) (some m)) = r at hl
  cases hl with
  | same _ hs => have := hs s' rfl; omega
  | over _ sp x _ => exact ⟨sp, x, rfl⟩

/-- The limits have no other influence: where neither the stack nor the call stack gets full,
the limited machine does exactly what the machine without limits does (which reports `StackOverflow`
only for accesses above the stack pointer). -/
theorem C16_below_limit_same (H : Host D) (n m : Nat) (s : VM D) (h0 : s.sp ≤ n)
    (hm : s.frames.length < m) (hp : ∀ sp x, s.step (H.withLimits none none) ≠ .err (.overflow .stackOverflow) sp x)
    (hn : ∀ s', s.step (H.withLimits none none) = .next s' → s'.sp < n) :
    s.step (H.withLimits (some n) (some m)) = s.step (H.withLimits none none) := by
  have hl := step_lim (H := H) (m := m) h0
  generalize he : s.step (H.withLimits (some n) (some m)) = r at hl
  generalize hf : s.step (H.withLimits none none) = r' at hl hp hn
  cases hl with
  | stray => exact absurd rfl (hp _ _)
  | same => rfl
  | over _ sp x h =>
    rcases h with h | ⟨s', rfl, h⟩
    · omega
    · have := hn s' rfl; omega

/-- `LoadNone` in a loop on a stack of 3: the fourth push fails. -/
example : ∃ s', (demoVm [32, 32, 32, 32] []).steps (demoHost 3 10) 3 = some s' ∧ s'.sp = 3 ∧
    ∃ sp s'', s'.step (demoHost 3 10) = .err (.overflow .stackOverflow) sp s'' :=
  ⟨_, rfl, rfl, _, _, rfl⟩

/-! ## C17 -/

/-- The number of suspended frames never exceeds `call_stack_size`. -/
theorem C17_call_depth (H : Host D) {m : Nat} (hm : H.opts.callStackSize = some m) (s s' : VM D)
    (h0 : s.frames.length ≤ m) (k : Nat) (h : s.steps H k = some s') : s'.frames.length ≤ m :=
  (kept_frames hm).steps h0 h

/-- A call at the limit is a `StackOverflow` and leaves the state unchanged (the callee is not
entered), whatever is called with whatever arguments. -/
theorem C17_call_at_limit (H : Host D) {m : Nat} (hm : H.opts.callStackSize = some m) (s : VM D)
    (argc : Nat) (hs : argc + 1 ≤ s.sp) (h0 : s.frames.length = m) :
    s.exec H (.callFunction argc) =
      .err (.overflow .stackOverflow) (s.frame.fn.getSpan s.frame.ip) s := by
  have : ¬ s.sp < argc + 1 := by omega
  simp [VM.exec, this, hm, reached, h0, VM.errAt]

/-- The function calling itself (`CreateFunction 0; CallFunction 0`, its own code being
`LoadLocal 0; CallFunction 0`) on a call stack of 2. -/
example : ∃ s', (demoVm [16, 0, 0, 21, 0] [.fn (demoFn [7, 0, 0, 21, 0] [])]).steps
      (demoHost 100 2) 5 = some s' ∧ s'.frames.length = 2 ∧
    ∃ sp s'', s'.step (demoHost 100 2) = .err (.overflow .stackOverflow) sp s'' :=
  ⟨_, rfl, rfl, _, _, rfl⟩

/-! ## C18 -/

/-- What `run` returns is either the time-limit error at a moment at which the clock was past the
limit, in a state the machine reached, or the outcome of an instruction of the machine. -/
theorem run_spec (H : Host D) (clock : Nat → Bool) (fuel : Nat) : ∀ (i n : Nat) (s : VM D) (r : StepR D),
    s.run H clock fuel i n = some r →
    ∃ k s', s.steps H k = some s' ∧
      ((∃ t, clock t = true ∧ r = .err .runtimeLimit s'.errF s') ∨
       (s'.step H = r ∧ ∀ s'', r ≠ .next s'')) := by
  induction fuel with
  | zero => intro i n s r h; simp [VM.run] at h
  | succ fuel ih =>
    intro i n s r h
    simp only [VM.run] at h
    split at h
    · rename_i hc
      simp at h
      exact ⟨0, s, rfl, .inl ⟨_, hc.2, h.symm⟩⟩
    · cases hs : s.step H with
      | next s1 =>
        rw [hs] at h
        simp only at h
        split at h
        · rename_i hc
          simp at h
          exact ⟨1, s1, by simp [VM.steps, hs], .inl ⟨_, hc.2, h.symm⟩⟩
        · obtain ⟨k, s', hst, hr⟩ := ih _ _ _ _ h
          exact ⟨k + 1, s', by simp [VM.steps, hs, hst], hr⟩
      | done v s1 =>
        rw [hs] at h; simp at h
        exact ⟨0, s, rfl, .inr ⟨hs.trans h, by rw [← h]; simp⟩⟩
      | err e sp s1 =>
        rw [hs] at h; simp at h
        exact ⟨0, s, rfl, .inr ⟨hs.trans h, by rw [← h]; simp⟩⟩
      | panic =>
        rw [hs] at h; simp at h
        exact ⟨0, s, rfl, .inr ⟨hs.trans h, by rw [← h]; simp⟩⟩

/-- Once the clock stays beyond the limit, `run` stops within `65 - n` instructions. -/
theorem run_stops (H : Host D) (clock : Nat → Bool) : ∀ (m i n : Nat) (s : VM D),
    n + m = 65 → (∀ t, 2 * i ≤ t → clock t = true) →
    ∃ r k s', s.run H clock (m + 1) i n = some r ∧ k ≤ m ∧ s.steps H k = some s' ∧
      (r = .err .runtimeLimit s'.errF s' ∨ (k < m ∧ s'.step H = r ∧ ∀ s'', r ≠ .next s'')) := by
  intro m
  induction m with
  | zero =>
    intro i n s hn hc
    have : n = 65 := by omega
    subst this
    exact ⟨_, 0, s, by simp [VM.run, hc (2 * i) (by omega)], by omega, rfl, .inl rfl⟩
  | succ m ih =>
    intro i n s hn hc
    have hn' : ¬ n > 64 := by omega
    rw [VM.run]
    simp only [hn', false_and, if_false]
    cases hs : s.step H with
    | next s1 =>
      simp only
      by_cases hb : s.atBuiltin = true
      · simp only [hb, hc (2 * i + 1) (by omega), and_self, if_true]
        exact ⟨_, 1, s1, rfl, by omega, by simp [VM.steps, hs], .inl rfl⟩
      · simp only [hb, false_and, if_false, Bool.false_eq_true]
        obtain ⟨r, k, s', h1, h2, h3, h4⟩ := ih (i + 1) (n + 1) s1 (by omega) fun t ht => hc t (by omega)
        refine ⟨r, k + 1, s', h1, by omega, by simp [VM.steps, hs, h3], ?_⟩
        rcases h4 with h4 | ⟨a, b, c⟩
        · exact .inl h4
        · exact .inr ⟨by omega, b, c⟩
    | done v s1 => exact ⟨_, 0, s, rfl, by omega, rfl, .inr ⟨by omega, hs, by simp⟩⟩
    | err e sp s1 => exact ⟨_, 0, s, rfl, by omega, rfl, .inr ⟨by omega, hs, by simp⟩⟩
    | panic => exact ⟨_, 0, s, rfl, by omega, rfl, .inr ⟨by omega, hs, by simp⟩⟩

/-- More fuel does not change the outcome of `run`. -/
theorem run_mono (H : Host D) (clock : Nat → Bool) : ∀ (fuel i n : Nat) (s : VM D) (r : StepR D) (j : Nat),
    s.run H clock fuel i n = some r → s.run H clock (fuel + j) i n = some r := by
  intro fuel
  induction fuel with
  | zero => intro i n s r j h; simp [VM.run] at h
  | succ fuel ih =>
    intro i n s r j h
    rw [show fuel + 1 + j = fuel + j + 1 by omega]
    simp only [VM.run] at h ⊢
    split at h
    · rename_i hc; rw [if_pos hc]; exact h
    · rename_i hc
      rw [if_neg hc]
      cases hs : s.step H with
      | next s1 =>
        rw [hs] at h
        simp only at h ⊢
        split at h
        · rename_i hb; rw [if_pos hb]; exact h
        · rename_i hb; rw [if_neg hb]; exact ih _ _ _ _ _ h
      | done v s1 => rw [hs] at h; exact h
      | err e sp s1 => rw [hs] at h; exact h
      | panic => rw [hs] at h; exact h

/-- Latency of the time limit. If the clock passes the limit after the head of iteration `i` (so
that the check of this iteration, if any, may still have seen it below the limit), then at most 66
further instructions are executed, counting that of iteration `i`: `run` returns after `k ≤ 66`
instructions with the time-limit error, unless the script itself ended before. This holds for all
bytecode, e.g. for infinite loops. `n ≤ 65` holds for the loop counter at every iteration
(`C18_counter`). -/
theorem C18_runtime_limit (H : Host D) (clock : Nat → Bool) (i n : Nat) (s : VM D) (hn : n ≤ 65)
    (hc : ∀ t, 2 * i < t → clock t = true) :
    ∃ r, s.run H clock 67 i n = some r ∧
      ∃ k s', k ≤ 66 ∧ s.steps H k = some s' ∧
        (r = .err .runtimeLimit s'.errF s' ∨ (k < 66 ∧ s'.step H = r ∧ ∀ s'', r ≠ .next s'')) := by
  by_cases hh : n > 64 ∧ clock (2 * i) = true
  · exact ⟨.err .runtimeLimit s.errF s, by rw [VM.run, if_pos hh], 0, s, by omega, rfl, .inl rfl⟩
  · rw [VM.run, if_neg hh]
    cases hs : s.step H with
    | next s1 =>
      simp only
      by_cases hb : s.atBuiltin = true ∧ clock (2 * i + 1) = true
      · rw [if_pos hb]
        exact ⟨_, rfl, 1, s1, by omega, by simp [VM.steps, hs], .inl rfl⟩
      · rw [if_neg hb]
        generalize hn' : (if n > 64 then 0 else n + 1) = n'
        have hle : n' ≤ 65 := by rw [← hn']; split <;> omega
        obtain ⟨r, k, s', h1, h2, h3, h4⟩ := run_stops H clock (65 - n') (i + 1) n' s1 (by omega)
          fun t ht => hc t (by omega)
        have h1' := run_mono H clock _ _ _ _ _ n' h1
        rw [show 65 - n' + 1 + n' = 66 by omega] at h1'
        refine ⟨r, h1', k + 1, s', by omega, by simp [VM.steps, hs, h3], ?_⟩
        rcases h4 with h4 | ⟨a, b, c⟩
        · exact .inl h4
        · exact .inr ⟨by omega, b, c⟩
    | done v s1 => exact ⟨_, rfl, 0, s, by omega, rfl, .inr ⟨by omega, hs, by simp⟩⟩
    | err e sp s1 => exact ⟨_, rfl, 0, s, by omega, rfl, .inr ⟨by omega, hs, by simp⟩⟩
    | panic => exact ⟨_, rfl, 0, s, by omega, rfl, .inr ⟨by omega, hs, by simp⟩⟩

/-- A run of `k` iterations decomposes: either it ended before, or it goes on from the state after
`k` instructions with a loop counter of at most 65. So `C18_runtime_limit` applies at every
iteration of every run. -/
theorem C18_counter (H : Host D) (clock : Nat → Bool) (fuel : Nat) : ∀ (k i n : Nat) (s : VM D), n ≤ 65 →
    s.run H clock k i n ≠ none ∨
    ∃ n' s', n' ≤ 65 ∧ s.steps H k = some s' ∧
      s.run H clock (k + fuel) i n = s'.run H clock fuel (i + k) n' := by
  intro k
  induction k with
  | zero => intro i n s hn; exact .inr ⟨n, s, hn, rfl, by simp⟩
  | succ k ih =>
    intro i n s hn
    rw [show k + 1 + fuel = k + fuel + 1 by omega]
    simp only [VM.run]
    by_cases hc : n > 64 ∧ clock (2 * i) = true
    · simp [hc]
    · simp only [if_neg hc]
      cases hs : s.step H with
      | next s1 =>
        simp only
        by_cases hb : s.atBuiltin = true ∧ clock (2 * i + 1) = true
        · simp [hb]
        · simp only [if_neg hb]
          rcases ih (i + 1) (if n > 64 then 0 else n + 1) s1 (by split <;> omega) with h | ⟨n', s', h1, h2, h3⟩
          · exact .inl h
          · refine .inr ⟨n', s', h1, by simp [VM.steps, hs, h2], ?_⟩
            rw [h3, show i + 1 + k = i + (k + 1) by omega]
      | done v s1 => simp
      | err e sp s1 => simp
      | panic => simp

/-- With a clock that never passes the limit, the time limit changes nothing: the outcome is that
of an instruction of the machine. -/
theorem C18_no_false_alarm (H : Host D) (clock : Nat → Bool) (hc : ∀ t, clock t = false)
    (fuel : Nat) (s : VM D) (r : StepR D) (h : s.run H clock fuel 0 0 = some r) :
    ∃ k s', s.steps H k = some s' ∧ s'.step H = r := by
  obtain ⟨k, s', h1, h2⟩ := run_spec H clock fuel 0 0 s r h
  rcases h2 with ⟨t, ht, _⟩ | ⟨h2, _⟩
  · simp [hc] at ht
  · exact ⟨k, s', h1, h2⟩

set_option maxRecDepth 20000 in
/-- The bound 66 is attained: the loop `JumpBackward 3` with the clock passing the limit just after
the head of iteration 65 runs for 66 more instructions (iterations 65 to 130) before the error. -/
theorem C18_bound_attained :
    (demoVm [30, 3, 0] []).run (demoHost 3 3) (fun t => decide (131 ≤ t)) 131 0 0 = none ∧
    ∃ s', (demoVm [30, 3, 0] []).run (demoHost 3 3) (fun t => decide (131 ≤ t)) 132 0 0 =
      some (.err .runtimeLimit s'.errF s') := by
  refine ⟨rfl, ⟨_, rfl⟩⟩

/-! ## C35 -/

/-- The host with call hooks instrumented by two counters, which builtins cannot touch. -/
def counted (H : Host D) : Host (D × Nat × Nat) where
  cfg := H.cfg
  opts := H.opts
  builtins := fun i => match H.builtins i with
    | none => none
    | some (.fn f) => some (.fn fun d args lim => ((f d.1 args lim).1, (f d.1 args lim).2, d.2))
    | some (.ctx f e) => some (.ctx
        (fun d args lim => ((f d.1 args lim).1, (f d.1 args lim).2, d.2))
        (fun d => ((e d.1).1, (e d.1).2, d.2)))
  syms := H.syms
  onEnter := fun d => (H.onEnter d.1, d.2.1 + 1, d.2.2)
  onExit := fun d => (H.onExit d.1, d.2.1, d.2.2 + 1)
  eqFuel := H.eqFuel

/-- In every state reached from the start of a script, the number of `on_enter_function` calls is
the number of `on_exit_function` calls plus the current call depth. -/
theorem C35_hooks_balanced (H : Host D) (s s' : VM (D × Nat × Nat)) (k : Nat)
    (h0 : s.data.2 = (0, 0)) (hf : s.frames = []) (he : s.exitFns = [])
    (h : s.steps (counted H) k = some s') :
    s'.data.2.1 = s'.data.2.2 + s'.frames.length := by
  have K := kept_depth (H := counted H) (fun d => (d.2.1 : Int) - d.2.2) 0
    (by intro x; simp [counted]; omega) (by intro x; simp [counted]; omega)
    (by
      intro i f hi x args
      simp only [counted] at hi
      cases hb : H.builtins i with
      | none => simp [hb] at hi
      | some b =>
        cases b with
        | fn g => simp [hb] at hi; simp [← hi]
        | ctx g e => simp [hb] at hi; simp [← hi])
    (by
      intro i f e hi x
      simp only [counted] at hi
      cases hb : H.builtins i with
      | none => simp [hb] at hi
      | some b =>
        cases b with
        | fn g => simp [hb] at hi
        | ctx g e => simp [hb] at hi; simp [← hi.2])
  have := (K.steps (s := s) ⟨by simp [h0, hf], by simp [he]⟩ h).1
  simp only [Int.sub_eq_zero] at this
  omega

/-- Two nested calls (`f` calls `g`), the counters when `g` runs. -/
example : ∃ s' : VM (Int × Nat × Nat),
    VM.steps (counted (demoHost 10 10)) 4
      { data := (0, 0, 0), exitFns := [], blockResults := [], globals := fun _ => none, openUps := [],
        heap := fun _ => .closed .none, hp := 0, frames := [],
        frame := { fn := demoFn [16, 0, 0, 21, 0] [.fn (demoFn [16, 0, 0, 21, 0]
          [.fn (demoFn [32, 1] [])])], ups := [], ip := 0, st := 0 },
        stack := fun _ => .none, sp := 0 } = some s' ∧
    s'.data.2 = (2, 0) ∧ s'.frames.length = 2 := ⟨_, rfl, rfl, rfl⟩

/-! ## C50 -/

/-- In every state reached by any bytecode: the table of open cells lists exactly the open cells,
and two open cells never have the same stack position. -/
theorem C50_cells (H : Host D) (S : Machine.Setup D) (data : D) (script : Script) (s' : VM D) (k : Nat)
    (h : (Machine.new S data script).vm.steps H k = some s') :
    (∀ c, c ∈ s'.openUps ↔ c < s'.hp ∧ ∃ l, s'.heap c = .opened l) ∧
    (∀ c c' l, c < s'.hp → c' < s'.hp → s'.heap c = .opened l → s'.heap c' = .opened l → c = c') := by
  have h0 : CellsOk (Machine.new S data script).vm :=
    ⟨by simp [Machine.new], by simp [Machine.new]⟩
  exact ⟨(kept_cells.steps h0 h).listed, (kept_cells.steps h0 h).inj⟩

/-- Closing a stack position stores the value found there in the cell that was open at this
position, and changes no other cell. -/
theorem C50_close_snapshots (H : Host D) (S : Machine.Setup D) (data : D) (script : Script) (s : VM D)
    (k : Nat) (h : (Machine.new S data script).vm.steps H k = some s) (last : Nat)
    (hl : reached H.opts.stackSize last = false) (c : Nat) (hc : c < s.hp) :
    (s.heap c = .opened last → (s.closeUp H last).heap c = .closed (s.stack last)) ∧
    (s.heap c ≠ .opened last → (s.closeUp H last).heap c = s.heap c) := by
  have h0 : CellsOk (Machine.new S data script).vm :=
    ⟨by simp [Machine.new], by simp [Machine.new]⟩
  have := closeUp_heap (H := H) (kept_cells.steps h0 h) last c hc hl
  constructor
  · intro ho; rw [this, ho]; simp
  · intro ho
    rw [this]
    cases hx : s.heap c with
    | opened l => simp; intro hll; rw [hx, hll] at ho; exact absurd rfl ho
    | closed v => rfl

/-- Capturing a position which is open already yields the same cell; otherwise a new cell. -/
theorem C50_capture_shares (s : VM D) (hs : CellsOk s) (l c : Nat) (hc : c < s.hp)
    (ho : s.heap c = .opened l) : s.capture l = (c, s) := by
  have hm := (hs.listed c).2 ⟨hc, l, ho⟩
  unfold VM.capture
  cases hf : s.openUps.find? (fun c => match s.heap c with | .opened l' => l' == l | _ => false) with
  | none =>
    have := List.find?_eq_none.1 hf c hm
    simp [ho] at this
  | some c' =>
    have h1 := List.find?_some hf
    have h2 := (hs.listed c').1 (List.mem_of_find?_eq_some hf)
    cases hx : s.heap c' with
    | closed v => simp [hx] at h1
    | opened l' =>
      simp [hx] at h1
      subst h1
      simp [hs.inj c' c l' h2.1 hc hx ho]

/-- Two closures over the same local (`LoadNone; CreateClosure` twice): one cell. -/
example : ∃ s', (demoVm [32, 17, 0, 0, 1, 0, 0, 17, 0, 0, 1, 0, 0]
      [.fn (.mk "f" Span.default 0 1 [] Rle.empty [] [])]).steps (demoHost 10 10) 3 = some s' ∧
    s'.openUps = [0] ∧ s'.sp = 3 ∧
    s'.stack 1 = .clos ⟨.mk "f" Span.default 0 1 [] Rle.empty [] [], [0]⟩ ∧
    s'.stack 2 = .clos ⟨.mk "f" Span.default 0 1 [] Rle.empty [] [], [0]⟩ := ⟨_, rfl, rfl, rfl, rfl, rfl⟩

end Quilt.Props
