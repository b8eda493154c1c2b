import Verif.Props.Order

/-!
# What comes after a failure does not matter: C99
-/

namespace Quilt.Props

open Lib Peg Cli

/-- `pre` as a program of its own: its statements, and then the value none. -/
def alone (pre : List Node) : List Node := pre ++ [.lit Span.default .none]

section Semantics

variable {D : Type} {M : Machine.Setup D} {data : D} {pre post post' : List Node} {S : SHost D} {σ τ : SSt D} {m m' : Machine D}

private theorem fail_bind {α β : Type} {x : SM D α} {f g : α → SM D β} (h : ∀ v τ, (x >>= f) σ ≠ (.ok v, τ)) (hf : ∀ a τ, ∃ v τ', f a τ = (.ok v, τ')) :
    (x >>= g) σ = (x >>= f) σ := by
  have h' : ∀ v τ, SM.bind x f σ ≠ (.ok v, τ) := h
  show SM.bind x g σ = SM.bind x f σ
  unfold SM.bind at *
  generalize x σ = r at h'
  obtain ⟨o, τ⟩ := r
  cases o <;> first
    | rfl
    | (rename_i a; obtain ⟨v, τ', e⟩ := hf a τ; exact absurd e (h' v τ'))

/-- If the beginning of a program does not succeed, then the whole program does the same, whatever comes after: the same error at the same place, with the same effects and the same variables. -/
theorem C99_semantics (S : SHost D) (k : Nat) (σ : SSt D) (h : ∀ v τ, evalProgram S k (alone pre) σ ≠ (.ok v, τ)) (hp : post ≠ []) :
    evalProgram S k (pre ++ post) σ = evalProgram S k (alone pre) σ := by
  have e1 : evalProgram S k (alone pre) = _ := evalTop_then S (callN S k k) k (by simp) pre
  have e2 : evalProgram S k (pre ++ post) = _ := evalTop_then S (callN S k k) k hp pre
  rw [e1] at h ⊢
  rw [e2]
  refine fail_bind h fun _ τ => ⟨.none, τ, ?_⟩
  rfl

/-- If it succeeds, then the rest starts where it ended. -/
theorem C99_goes_on (S : SHost D) (k : Nat) {v : SVal} (h : evalProgram S k (alone pre) σ = (.ok v, τ)) (hp : post ≠ []) :
    evalProgram S k (pre ++ post) σ = evalProgram S k post τ := by
  have e1 : evalProgram S k (alone pre) = _ := evalTop_then S (callN S k k) k (by simp) pre
  have e2 : evalProgram S k (pre ++ post) = _ := evalTop_then S (callN S k k) k hp pre
  rw [e1] at h
  rw [e2]
  have h : SM.bind (evalEach S (callN S k k) k pre) (fun _ => evalTop S (callN S k k) k [.lit Span.default .none]) σ = (.ok v, τ) := h
  show SM.bind (evalEach S (callN S k k) k pre) (fun _ => evalTop S (callN S k k) k post) σ = _
  unfold SM.bind at *
  generalize evalEach S (callN S k k) k pre σ = r at h
  obtain ⟨o, τ'⟩ := r
  cases o <;> first
    | (cases h; rfl)
    | (have := congrArg Prod.fst h; cases this)

/-- Compiled and run: two programs with the same beginning, which does not succeed, end in the same way, given large enough stacks and time, although
their codes and tables differ. `hret`: with debug assertions, no `return` outside of functions (C20). -/
theorem C99_runs (h : Runs M data (pre ++ post) S σ m) (h' : Runs M data (pre ++ post') S σ m') (hp : post ≠ []) (hp' : post' ≠ [])
    (hf : ∀ k v τ, evalProgram S k (alone pre) σ ≠ (.ok v, τ)) (hu : ∀ k b, (evalProgram S k (alone pre) σ).1 ≠ .unspec b)
    (hov : ∀ k sp, (evalProgram S k (alone pre) σ).1 ≠ .err (.overflow .stackOverflow) sp) (hret : M.cfg.chk = true → ∀ k v, (evalProgram S k (alone pre) σ).1 ≠ .ret v)
    (n c : Nat) (clock : Nat → Bool) (fuel : Nat) {res : StepR D} (hr : (m.withLimits n c).run clock fuel = some res) (hl : ¬ HitLimit res) :
    ∃ N C, ∀ n c, N ≤ n → C ≤ c → ∀ clock : Nat → Bool, (∀ t, clock t = false) →
      ∃ fuel res', (m'.withLimits n c).run clock fuel = some res' ∧ SameResult m.host.syms m'.host.syms res res' := by
  have e : ∀ k, evalProgram S k (pre ++ post) σ = evalProgram S k (alone pre) σ := fun k => C99_semantics S k σ (hf k) hp
  refine runs_equal h h' (fun k => by rw [e, C99_semantics S k σ (hf k) hp']) (fun k => ?_) (fun k => ?_) (fun hc k => ?_) n c clock fuel hr hl
  · rw [e]; exact hu k
  · rw [e]; exact hov k
  · rw [e]; exact hret hc k

end Semantics

/-! ## The command line program -/

variable {E : Cli.Env} {a : Cli.Args} {k k' : Nat} {name name' : String} {src src' : List Char} {ast ast' pre post post' : List Node} {script script' : Script}

/-- The files `src` and `src'`, with their includes, are read as programs that begin, up to positions, with the same statements `pre`, which do not succeed. -/
structure FailsAlike (E : Cli.Env) (a : Cli.Args) (k k' : Nat) (name name' : String) (src src' : List Char) (ast ast' pre post post' : List Node) (script script' : Script) : Prop where
  one : MainFile E a k name src ast script
  two : MainFile E a k' name' src' ast' script'
  begins : inPlaceL ast = pre ++ post
  same : stripL (inPlaceL ast') = stripL (pre ++ post')
  more : post ≠ [] ∧ post' ≠ []
  fails : ∀ K v τ, cliRun E a K (alone pre) ≠ (.ok v, τ)

theorem FailsAlike.outcome (h : FailsAlike E a k k' name name' src src' ast ast' pre post post' script script') (K : Nat) : SameOutcome (cliRun E a K ast) (cliRun E a K ast') := by
  refine outcome_equal h.one h.two (fun K => ?_) h.same K
  rw [h.begins, C99_semantics _ K _ (h.fails K) h.more.1, C99_semantics _ K _ (h.fails K) h.more.2]

/-- Without a time limit, the command ends in the same way with both files, given enough of the two stacks: with the same error, after the same output up to the
traceback, or with a crash, or (after a `return` outside of functions) with the same value. In both directions. -/
theorem C99_command (h : FailsAlike E a k k' name name' src src' ast ast' pre post post' script script') (ha : a.maxRuntime = none)
    (hcmp : ∀ K, (cliRun E a K (alone pre)).1 ≠ .unspec true) (hret : E.cfg.chk = true → ∀ K v, (cliRun E a K (alone pre)).1 ≠ .ret v) (fuel : Nat) :
    (∀ out, Cli.main E a k fuel name (.ok src) = some (.exit ⟨0, out, none⟩) →
      ∃ N C, ∀ n c, N ≤ n → C ≤ c → ∃ fuel', Cli.main E (a.withStacks n c) k' fuel' name' (.ok src') = some (.exit ⟨0, out, none⟩)) ∧
    (∀ out e sp, Cli.main E a k fuel name (.ok src) = some (.exit ⟨1, out, some (.error e sp)⟩) → e ≠ .overflow .stackOverflow →
      ∃ before trace N C, out = before ++ "Traceback (most recent call last):\n".toList ++ trace ∧ ∀ n c, N ≤ n → C ≤ c → ∃ fuel' trace' sp',
        Cli.main E (a.withStacks n c) k' fuel' name' (.ok src') =
          some (.exit ⟨1, before ++ "Traceback (most recent call last):\n".toList ++ trace', some (.error e sp')⟩)) ∧
    (Cli.main E a k fuel name (.ok src) = some .crash →
      ∃ N C, ∀ n c, N ≤ n → C ≤ c → ∃ fuel', Cli.main E (a.withStacks n c) k' fuel' name' (.ok src') = some .crash) ∧
    (∀ out, Cli.main E a k' fuel name' (.ok src') = some (.exit ⟨0, out, none⟩) →
      ∃ N C, ∀ n c, N ≤ n → C ≤ c → ∃ fuel', Cli.main E (a.withStacks n c) k fuel' name (.ok src) = some (.exit ⟨0, out, none⟩)) ∧
    (∀ out e sp, Cli.main E a k' fuel name' (.ok src') = some (.exit ⟨1, out, some (.error e sp)⟩) → e ≠ .overflow .stackOverflow →
      ∃ before trace N C, out = before ++ "Traceback (most recent call last):\n".toList ++ trace ∧ ∀ n c, N ≤ n → C ≤ c → ∃ fuel' trace' sp',
        Cli.main E (a.withStacks n c) k fuel' name (.ok src) =
          some (.exit ⟨1, before ++ "Traceback (most recent call last):\n".toList ++ trace', some (.error e sp')⟩)) ∧
    (Cli.main E a k' fuel name' (.ok src') = some .crash →
      ∃ N C, ∀ n c, N ≤ n → C ≤ c → ∃ fuel', Cli.main E (a.withStacks n c) k fuel' name (.ok src) = some .crash) := by
  have e : ∀ K, cliRun E a K ast = cliRun E a K (alone pre) := fun K => by
    have := congrFun (C93_semantics (cliHost E a) K h.one.runs.wf) (startSt ⟨[], 0⟩)
    rw [h.begins, C99_semantics _ K _ (h.fails K) h.more.1] at this
    exact this.symm
  exact transfer_both h.one h.two h.outcome ha (fun K => by rw [e]; exact hcmp K) (fun hc K => by rw [e]; exact hret hc K) fuel

/-! ## Concrete programs -/

private def z : Span := Span.default

/-- `let c = 7  1 / 0`. -/
private def demoBad : List Node := [.decl z (.one ("c", z)) (.lit z (.int 7)), .bin z .div (.lit z (.int 1)) (.lit z (.int 0))]

/-- This beginning fails, so it does not matter whether `demoProg` (C20) or the value none comes after it. -/
example : (∀ k, (evalProgram demoS k (alone demoBad) demoσ).1 = .err .zeroDivision (some z)) ∧
    (∃ script, Runs demoSetup 7 (demoBad ++ demoProg) demoS demoσ (Machine.new demoSetup 7 script)) ∧
    (∃ script, Runs demoSetup 7 (demoBad ++ [.lit z .none]) demoS demoσ (Machine.new demoSetup 7 script)) :=
  ⟨fun _ => rfl, demo_runs _ (by decide +kernel) (by decide +kernel) (by decide +kernel), demo_runs _ (by decide +kernel) (by decide +kernel) (by decide +kernel)⟩

private def outOf (T : List Char) : Option (Nat × String) :=
  match main Check.env cliArgs 9 1000 "main" (.ok T) with
  | some (.exit e) => some (e.status, String.ofList e.out)
  | _ => none

private def readWith (T : List Char) : List Node :=
  match parseWithIncludes Check.env.W 9 "main" T ⟨[], []⟩ with
  | (.ok ast, _) => ast
  | _ => []

private def fileOk (T : List Char) : Bool :=
  match parseWithIncludes Check.env.W 9 "main" T ⟨[], []⟩ with
  | (.ok ast, _) => ast.all Node.placedTop && decide (sizeL ast ≤ 65535) &&
    (match compile Check.env.cfg ast with
    | .ok script => decide ((machine Check.env cliArgs script).host.syms.entries.length ≤ 65536)
    | _ => false)
  | _ => false

private theorem fileOk_main {T : List Char} (h : fileOk T = true) : ∃ script, MainFile Check.env cliArgs 9 "main" T (readWith T) script := by
  unfold fileOk at h
  unfold readWith
  split at h
  · rename_i ast c' hp
    simp only [Bool.and_eq_true, decide_eq_true_eq] at h
    obtain ⟨⟨h1, h2⟩, h3⟩ := h
    split at h3
    · rename_i script hc
      exact ⟨script, by rw [hp], hc, List.all_eq_true.1 h1, h2, of_decide_eq_true h3⟩
    · simp at h3
  · simp at h

private def goesOn : List Char := "@print(1)\n1 / 0\n@print(2)\n2".toList
private def stops : List Char := "@print(1)\n1 / 0\n3".toList

private def badStart : List Node → Bool
  | [.builtin _ (f, _) [.lit _ (.int i)], .bin _ .div (.lit _ (.int j)) (.lit _ (.int k))] => decide (f = "print" ∧ i = 1 ∧ j = 1 ∧ k = 0)
  | _ => false

private theorem badStart_fails {l : List Node} (h : badStart l = true) (K : Nat) : (match (cliRun Check.env cliArgs K (alone l)).1 with | .err .zeroDivision _ => true | _ => false) = true := by
  unfold badStart at h
  split at h
  · obtain ⟨rfl, rfl, rfl, rfl⟩ := of_decide_eq_true h
    rfl
  · cases h

private def whole : List Node := [.builtin z ("print", z) [.lit z (.int 1)], .bin z .div (.lit z (.int 1)) (.lit z (.int 0)), .lit z (.int 3)]

private def isWhole : List Node → Bool
  | [.builtin s1 (f, s2) [.lit s3 (.int i)], .bin s4 .div (.lit s5 (.int j)) (.lit s6 (.int k)), .lit s7 (.int l)] =>
    decide (s1 = z ∧ s2 = z ∧ s3 = z ∧ s4 = z ∧ s5 = z ∧ s6 = z ∧ s7 = z ∧ f = "print" ∧ i = 1 ∧ j = 1 ∧ k = 0 ∧ l = 3)
  | _ => false

private theorem isWhole_eq {l : List Node} (h : isWhole l = true) : l = whole := by
  unfold isWhole at h
  split at h
  · obtain ⟨rfl, rfl, rfl, rfl, rfl, rfl, rfl, rfl, rfl, rfl, rfl, rfl⟩ := of_decide_eq_true h
    rfl
  · cases h

/-- Two files that fail after printing `1`: `C99_command` applies, neither prints more than the traceback. -/
example : (∃ script script', FailsAlike Check.env cliArgs 9 9 "main" "main" goesOn stops (readWith goesOn) (readWith stops) ((inPlaceL (readWith goesOn)).take 2)
      ((inPlaceL (readWith goesOn)).drop 2) [.lit z (.int 3)] script script') ∧
    outOf goesOn = some (1, "1 Traceback (most recent call last):\n   File \"main\", line 1, in @__main__\n      1 / 0\n") ∧ outOf stops = outOf goesOn := by
  obtain ⟨s, h⟩ := fileOk_main (T := goesOn) (by decide +kernel)
  obtain ⟨s', h'⟩ := fileOk_main (T := stops) (by decide +kernel)
  have hb : badStart ((inPlaceL (readWith goesOn)).take 2) = true := by decide +kernel
  refine ⟨⟨s, s', h, h', (List.take_append_drop ..).symm, ?_, ⟨?_, by simp⟩, fun K v τ e => ?_⟩, by decide +kernel, by decide +kernel⟩
  · exact (isWhole_eq (by decide +kernel)).trans (isWhole_eq (by decide +kernel)).symm
  · have : ((inPlaceL (readWith goesOn)).drop 2).length = 2 := by decide +kernel
    intro e
    rw [e] at this
    cases this
  · have := badStart_fails hb K
    rw [e] at this
    cases this

end Quilt.Props
