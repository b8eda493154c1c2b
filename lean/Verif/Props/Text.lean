import Verif.Parser.Placed
import Verif.Props.Correct
import Verif.Props.Parser

/-!
# From program text to results: C53

The parser, the include resolver, the compiler and the VM together, against the direct semantics.
-/

namespace Quilt.Props

open Peg

variable {D : Type}

/-- `m` is a VM created for the program with text `T` (and its includes, found through `W`) and prepared by its host.
`placed`: declarations stand where no operand of an unfinished expression is on the stack (C25 shows what happens
otherwise). -/
structure RunsText (W : World) (M : Machine.Setup D) (data : D) (name : String) (T : List Char) (ast : List Node) (S : SHost D) (σ : SSt D) (m : Machine D) : Prop where
  parsed : ∃ k c c', parseWithIncludes W k name T c = (.ok ast, c')
  prepared : ∃ script, compile M.cfg ast = .ok script ∧ Prepared M data script S σ m
  placed : ∀ n ∈ ast, n.placedTop = true
  size : sizeL ast ≤ 65535
  names : m.host.syms.entries.length ≤ 65536

variable {W : World} {M : Machine.Setup D} {data : D} {name : String} {T : List Char} {ast : List Node} {S : SHost D} {σ : SSt D} {m : Machine D}

/-- What the correctness theorems C19–C22 assume about programs holds for everything that was read from text. -/
theorem C53_hypotheses (h : RunsText W M data name T ast S σ m) : Runs M data ast S σ m ∧ shapedProgram ast = true := by
  obtain ⟨k, c, c', h1⟩ := h.parsed
  obtain ⟨script, h2, h3⟩ := h.prepared
  exact ⟨⟨⟨script, h2, h3⟩, wf_of_parsed h1 (compile_accepts h2).1 h.placed, h.size, h.names⟩, C41_shaped h1 h2⟩

/-- The direct semantics says what every program text does, unless it compares functions: its result is a value, an
error, a panic of a builtin or of checked arithmetic, or it runs out of the given bound. -/
theorem C53_specified (h : RunsText W M data name T ast S σ m) (k : Nat) : (evalProgram S k ast σ).1 ≠ .unspec false :=
  C19_shape_suffices (C53_hypotheses h).1 (C53_hypotheses h).2 k

/-- A value returned for a program text is the one the direct semantics prescribes, whatever the limits and the clock. -/
theorem C53_value_only_if_prescribed (h : RunsText W M data name T ast S σ m) (hcmp : ∀ k, (evalProgram S k ast σ).1 ≠ .unspec true)
    (hov : ∀ k sp, (evalProgram S k ast σ).1 ≠ .err (.overflow .stackOverflow) sp)
    (n c : Nat) (clock : Nat → Bool) (fuel : Nat) {w : VVal} {s' : VM D} (hr : (m.withLimits n c).run clock fuel = some (.done w s')) :
    ∃ k v, ((evalProgram S k ast σ).1 = .ok v ∨ (evalProgram S k ast σ).1 = .ret v) ∧ SameVal v w :=
  C22_value_only_if_prescribed (C53_hypotheses h).1
    (fun k b => by cases b with
      | true => exact hcmp k
      | false => exact C53_specified h k) hov n c clock fuel hr

/-! ## A concrete text -/

private def demoText : List Char := "fn f(g, x) { g(g(x)) }\nlet k = 3\nf(fn(y) { y * k }, 2) + 1".toList

private def demoW : World := ⟨fun _ => none, fun _ => 0⟩

/-- What is checked by evaluation for a concrete text: it is read, its declarations are placed well, it compiles, and
the direct semantics gives the integer `v`. -/
private def checkText (T : List Char) (v : Int) : Bool := match parseWithIncludes demoW 1 "main" T ⟨[], []⟩ with
  | (.ok ast, _) => ast.all Node.placedTop && decide (sizeL ast ≤ 65535) && compiles demoSetup.cfg ast 65536 &&
    match (evalProgram demoS 9 ast demoσ).1 with
    | .ok (.int i) => i == v
    | _ => false
  | _ => false

private theorem checkText_runs {T : List Char} {v : Int} (h : checkText T v = true) :
    ∃ ast script, RunsText demoW demoSetup 7 "main" T ast demoS demoσ (Machine.new demoSetup 7 script) ∧ (evalProgram demoS 9 ast demoσ).1 = .ok (.int v) := by
  unfold checkText at h
  split at h
  · rename_i ast c' hp
    simp only [Bool.and_eq_true, decide_eq_true_eq] at h
    obtain ⟨⟨⟨h1, h2⟩, h3⟩, h4⟩ := h
    unfold compiles at h3
    split at h3
    · rename_i script hc
      refine ⟨ast, script, ⟨⟨1, _, c', hp⟩, ⟨script, hc, .new⟩, List.all_eq_true.1 h1, h2, of_decide_eq_true h3⟩, ?_⟩
      split at h4
      · rename_i i hi
        rw [hi, eq_of_beq h4]
      · simp at h4
    · simp at h3
  · simp at h

/-- A function applied twice: the text is read, compiled and run, and its value is 19. -/
example : ∃ ast script, RunsText demoW demoSetup 7 "main" demoText ast demoS demoσ (Machine.new demoSetup 7 script) ∧
    (evalProgram demoS 9 ast demoσ).1 = .ok (.int 19) :=
  checkText_runs (T := demoText) (v := 19) (by decide +kernel)

end Quilt.Props
