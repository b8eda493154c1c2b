import Verif.Sem.Finish
import Verif.Props.Cli

/-!
# Programs without `while` end: C77

`calmL`: no `while` in the program, its functions and its included files. Such programs end under any limits on the two stacks, since a
recursion that does not end exceeds the one on calls.
-/

namespace Quilt.Props

open Lib Peg Cli

variable {D : Type} {M : Machine.Setup D} {data : D} {ast : List Node} {S : SHost D} {σ : SSt D} {m : Machine D}

/-- The semantics with calls nested at most `n` deep has an outcome, the same for all bounds on loops that are large enough. -/
theorem C77_semantics (h : Runs M data ast S σ m) (hcalm : calmL ast = true) (n : Nat) :
    ∃ W0 o σ', o ≠ .timeout ∧ ∀ W, W0 ≤ W → evalTop S (callD S W n) W ast σ = (o, σ') := by
  obtain ⟨script, _, h2⟩ := h.prepared
  obtain ⟨W0, o, σ', h3, _, h4⟩ := Ends.top h2.calm.2.1 (Ends.callD h2.calm.2.1 n) ast hcalm σ h2.calm.2.2
  exact ⟨W0, o, σ', by rintro rfl; exact h4, h3⟩

/-- The machine stops within a number of instructions that depends on the limits only, whatever the clock shows. -/
theorem C77_ends (h : Runs M data ast S σ m) (hshape : shapedProgram ast = true) (hcalm : calmL ast = true)
    (hcmp : ∀ k, (evalProgram S k ast σ).1 ≠ .unspec true) (hov : ∀ k sp, (evalProgram S k ast σ).1 ≠ .err (.overflow .stackOverflow) sp) (n c : Nat) :
    ∃ fuel, ∀ clock, ∃ res, (m.withLimits n c).run clock fuel = some res := by
  obtain ⟨script, h1, h2⟩ := h.prepared
  obtain ⟨W, o, σ', ht, h3⟩ := C77_semantics h hcalm c
  have ho := (h2.start h1 h.size h.names).outcomeD h.wf W c
  have hE := h3 W (Nat.le_refl _)
  rw [hE] at ho
  have hsame : o ≠ .deep → evalProgram S (max W c) ast σ = (o, σ') := by
    intro hd
    rw [← hE]
    exact callD_program (by rw [hE]; exact ht) (by rw [hE]; exact hd)
  have hu : ∀ b, o ≠ .unspec b := by
    rintro b rfl
    have := congrArg Prod.fst (hsame (by simp))
    cases b with
    | true => exact hcmp _ this
    | false => exact C19_shape_suffices h hshape _ this
  have hv : ∀ sp, o ≠ .err (.overflow .stackOverflow) sp := by
    rintro sp rfl
    exact hov _ _ (congrArg Prod.fst (hsame (by simp)))
  obtain ⟨k, hk⟩ := ho.stops (n := n) rfl ht hu hv (h.sp n) (by rw [(h2.start h1 h.size h.names).idle.frames]; simp)
  refine ⟨k, fun clock => ?_⟩
  cases hr : (m.withLimits n c).run clock k with
  | some res => exact ⟨res, rfl⟩
  | none =>
    obtain ⟨s', h5⟩ := VM.run_none clock k 0 0 hr
    exact absurd (h5.symm.trans hk) (by simp)

/-- So the command ends, without a time limit as well. -/
theorem C77_command {E : Cli.Env} {a : Cli.Args} {k : Nat} {name : String} {src : List Char} {script : Script} (h : MainFile E a k name src ast script)
    (hcalm : calmL ast = true) (hcmp : ∀ K, (cliRun E a K ast).1 ≠ .unspec true) : ∃ fuel out, main E a k fuel name (.ok src) = some out := by
  obtain ⟨fuel, h1⟩ := C77_ends h.runs (C53_hypotheses h.text).2 hcalm hcmp (fun K sp => cli_no_overflow E a K ast sp) (a.stackSize.getD 500000) (a.callStackSize.getD 1000)
  obtain ⟨res, h2⟩ := h1 (expired E a)
  rw [← cli_machine_own] at h2
  refine ⟨fuel, ?_⟩
  rw [h.main, h2, Option.bind_some]
  cases res with
  | next s =>
    rcases VM.run_cases _ _ _ _ h2 with ⟨_, _, h3⟩ | ⟨_, _, _, _, _, h3⟩
    · simp at h3
    · exact absurd rfl (h3 s)
  | panic => exact ⟨_, rfl⟩
  | done v s => exact ⟨_, rfl⟩
  | err e sp s =>
    simp only [finish]
    split <;> exact ⟨_, rfl⟩

private def z : Span := Span.default

/-- `fn f(x) { return f(x) }  f(1)`: endless recursion. -/
def demoRec : List Node := [.func z ("f", z) [("x", z)] [.ret z (some (.call z (.ident z "f") [.ident z "x"]))], .call z (.ident z "f") [.lit z (.int 1)]]

/-- The call that is nested too deep is reported. -/
example : calmL demoRec = true ∧ shapedProgram demoRec = true ∧ (∃ script, Runs demoSetup 7 demoRec demoS demoσ (Machine.new demoSetup 7 script)) ∧
    (evalTop demoS (callD demoS 1 1) 1 demoRec demoσ).1 = .deep :=
  ⟨rfl, rfl, demo_runs demoRec (by decide +kernel) (by decide +kernel) (by decide +kernel), rfl⟩

/-- Programs with a loop need not end: `while true { none }` has no outcome, and the machine only stops at its limits. -/
example : calmL demoLoop = false ∧ (∀ k, (evalProgram demoS k demoLoop demoσ).1 = .timeout) ∧
    ∃ script, Runs demoSetup 7 demoLoop demoS demoσ (Machine.new demoSetup 7 script) ∧ ∀ n c clock fuel, 
      ((Machine.new demoSetup 7 script).withLimits n c).run clock fuel = none ∨
      (∃ sp s', ((Machine.new demoSetup 7 script).withLimits n c).run clock fuel = some (.err (.overflow .stackOverflow) sp s')) ∨
      ∃ sp s', ((Machine.new demoSetup 7 script).withLimits n c).run clock fuel = some (.err .runtimeLimit sp s') := by
  refine ⟨rfl, demoLoop_diverges, ?_⟩
  obtain ⟨script, h⟩ := demo_runs demoLoop (by decide +kernel) (by decide +kernel) (by decide +kernel)
  exact ⟨script, h, C22_diverges h demoLoop_diverges⟩

end Quilt.Props
