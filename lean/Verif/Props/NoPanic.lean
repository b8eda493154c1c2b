import Verif.Parser.Ops
import Verif.Props.Text
import Verif.Repl

/-!
# The compiler never panics: C58

Rejecting a program is fine; bringing down the process that embeds the language is not.
-/

namespace Quilt.Props

open Peg

/-- `- n` for the literal `n` of the smallest integer. -/
def negatesMin : Op → Node → Bool
  | .neg, .lit _ (.int n) => decide (n = BitVec.intMin 64)
  | _, _ => false

/-- Nowhere in the program, including its included files, stands `~` between two expressions, and if arithmetic is
checked for overflow, nowhere is the literal of the smallest integer negated. -/
def plainOps (chk : Bool) (ast : List Node) : Bool := opsL (fun op => decide (op ≠ .bitNot)) (fun op e => !(chk && negatesMin op e)) ast

/-- The compiler does not panic, whatever it compiled before, unless an operator of a binary node is unary, an operator of
a unary node is binary, or the literal of the smallest integer is negated with overflow checks. -/
theorem C58_trees {cfg : Cfg} {ast : List Node} (h : opsOkL cfg.chk ast = true) (st : CState) : (compileStmts cfg ast st).1 ≠ .panic :=
  compileStmts_no_panic h st

theorem compile_panic {cfg : Cfg} {ast : List Node} (h : compile cfg ast = .panic) : (compileStmts cfg ast ((CState.new "@__main__").setMainSpan ast)).1 = .panic := by
  unfold compile at h
  split at h
  · cases h
  · cases h
  · rename_i hc; rw [hc]

theorem plainOps_ok {W : World} {k : Nat} {name : String} {T : List Char} {c c' : Cache} {ast : List Node} {chk : Bool}
    (h : parseWithIncludes W k name T c = (.ok ast, c')) (hp : plainOps chk ast = true) : opsOkL chk ast = true := by
  refine opsL_and (b1 := readBin) (u1 := fun op _ => op.isUnary) (b2 := fun op => decide (op ≠ .bitNot)) (u2 := fun op e => !(chk && negatesMin op e)) ?_ ?_ ast (ops_of_parsed h) hp
  · intro op h1 h2
    unfold readBin at h1
    simp only [decide_eq_true_eq] at h2
    simpa [h2] using h1
  · intro op e h1 h2
    unfold unOk
    rw [h1, Bool.true_and]
    split
    · simpa [negatesMin] using h2
    · rfl

/-- Every program text without `~` between expressions (and, where overflow is checked, without a negated literal of the
smallest integer) is compiled or rejected with an error: the compiler does not panic. What is missing is the general claim,
which `C58_violated` refutes. -/
theorem C58_text_partial {W : World} {k : Nat} {name : String} {T : List Char} {c c' : Cache} {ast : List Node} {cfg : Cfg}
    (h : parseWithIncludes W k name T c = (.ok ast, c')) (hp : plainOps cfg.chk ast = true) : compile cfg ast ≠ .panic :=
  fun hc => C58_trees (plainOps_ok h hp) _ (compile_panic hc)

/-- The same for a line of an interactive session, whatever happened before. -/
theorem C58_line_partial {D : Type} {W : World} {k : Nat} {r r' : Repl D} {T : List Char} {ast : List Node}
    (h : r.read W k T = (.ok ast, r')) (hp : plainOps r.vm.host.cfg.chk ast = true) : (r'.load ast).1 ≠ .panic := by
  unfold Repl.read at h
  simp only [Prod.mk.injEq] at h
  obtain ⟨h1, rfl⟩ := h
  intro hc
  refine C58_trees (cfg := r.vm.host.cfg) (plainOps_ok (c' := (parseWithIncludes W k ("@__exec__" ++ String.ofList (showNat r.c)) T ⟨r.cache, []⟩).2) (Prod.ext h1 rfl) hp) r.compiler ?_
  unfold Repl.load at hc
  simp only at hc
  split at hc
  · cases hc
  · cases hc
  · rename_i hs; rw [hs]

private def plainW : World := ⟨fun _ => none, fun _ => 0⟩

private def crashes (T : List Char) : Bool := match parseWithIncludes plainW 1 "main" T ⟨[], []⟩ with
  | (.ok ast, _) => match compile demoSetup.cfg ast with
    | .panic => true
    | _ => false
  | _ => false

private theorem crashes_iff {T : List Char} (h : crashes T = true) :
    ∃ ast c, parseWithIncludes plainW 1 "main" T ⟨[], []⟩ = (.ok ast, c) ∧ compile demoSetup.cfg ast = .panic := by
  unfold crashes at h
  split at h
  · rename_i ast c hp
    refine ⟨ast, c, hp, ?_⟩
    split at h
    · assumption
    · cases h
  · cases h

private def tildeText : List Char := "1 ~ 2".toList
private def tildeLine : List Char := "let x = 5\n~x".toList

/-- There are program texts that crash the compiler, such as `1 ~ 2`. -/
theorem C58_violated : ∃ ast c, parseWithIncludes plainW 1 "main" tildeText ⟨[], []⟩ = (.ok ast, c) ∧ compile demoSetup.cfg ast = .panic :=
  crashes_iff (T := tildeText) (by decide +kernel)

/-- So does a line that begins with `~` and comes after an expression: the grammar reads a binary operator. -/
theorem C58_line_violated : ∃ ast c, parseWithIncludes plainW 1 "main" tildeLine ⟨[], []⟩ = (.ok ast, c) ∧ compile demoSetup.cfg ast = .panic :=
  crashes_iff (T := tildeLine) (by decide +kernel)

/-! ## A concrete text -/

private def plain (T : List Char) : Bool := match parseWithIncludes plainW 1 "main" T ⟨[], []⟩ with
  | (.ok ast, _) => plainOps true ast
  | _ => false

private theorem plain_iff {T : List Char} (h : plain T = true) :
    ∃ ast c, parseWithIncludes plainW 1 "main" T ⟨[], []⟩ = (.ok ast, c) ∧ plainOps true ast = true := by
  unfold plain at h
  split at h
  · exact ⟨_, _, ‹_›, h⟩
  · cases h

private def plainText : List Char := "fn f(x) { ~x & -1 } let y = f(3) f(~y)".toList

/-- A prefix `~` and a negated literal are no problem. -/
example : ∃ ast c, parseWithIncludes plainW 1 "main" plainText ⟨[], []⟩ = (.ok ast, c) ∧ plainOps true ast = true :=
  plain_iff (T := plainText) (by decide +kernel)

end Quilt.Props
