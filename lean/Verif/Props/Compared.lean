import Verif.Props.Nest
import Verif.Sem.CompareText

/-!
# Programs that compare no functions: C80

The direct semantics does not prescribe whether two functions are equal; several theorems assume that a program does not compare
functions. Here are conditions on the program, and on its text, under which this holds.
-/

namespace Quilt.Props

open Lib Peg Cli

variable {D : Type} {M : Machine.Setup D} {data : D} {ast : List Node} {S : SHost D} {σ : SSt D} {m : Machine D}

/-- Functions are never compared in programs without functions (`tameL false`), nor in programs where one side of each `==` and
`!=`, and for each case of a `switch` the case or what is switched over, is a literal, a range, or the result of an operator other than
`..` (`tameL true`). -/
theorem C80_never (h : Runs M data ast S σ m) {t : Bool} (ht : tameL t ast = true) (k : Nat) : (evalProgram S k ast σ).1 ≠ .unspec true := by
  obtain ⟨script, _, h2⟩ := h.prepared
  exact tame_program h2.fine.2.1 ht h2.fine.2.2 k

variable {E : Cli.Env} {a : Cli.Args} {k : Nat} {name : String} {src : List Char} {script : Script}

/-- The text `s` is nowhere in the files that are read, not even in a comment. -/
def Absent (E : Cli.Env) (k : Nat) (name : String) (src : List Char) (s : String) : Prop :=
  ∀ f ∈ (parseWithIncludes E.W k name src ⟨[], []⟩).2.sources, ¬ ∃ p q, f.2 = p ++ s.toList ++ q

private theorem absent_keyword (h : MainFile E a k name src ast script) {s : String} (hs : Absent E k name src s) {n : Node} (hn : n ∈ subsL ast) :
    n.keyword ≠ some s := by
  intro hk
  have hp : parseWithIncludes E.W k name src ⟨[], []⟩ = (.ok ast, (parseWithIncludes E.W k name src ⟨[], []⟩).2) := by rw [← h.parsed]
  obtain ⟨p, _, _, f, t, h1, _, _, _, _, u, v, h2, _⟩ := C78_keywords hp hn hk
  exact hs _ (List.mem_of_getElem? h1) ⟨u, v, h2⟩

/-- For files: `fn` occurs nowhere, or none of `==`, `!=` and `switch` does. -/
def NoCompared (E : Cli.Env) (k : Nat) (name : String) (src : List Char) : Prop :=
  Absent E k name src "fn" ∨ Absent E k name src "==" ∧ Absent E k name src "!=" ∧ Absent E k name src "switch"

theorem C80_text (h : MainFile E a k name src ast script) (hn : NoCompared E k name src) (K : Nat) : (cliRun E a K ast).1 ≠ .unspec true := by
  rcases hn with h1 | ⟨h1, h2, h3⟩
  · refine C80_never h.runs (t := false) (tameL_of false (· ∈ subsL ast) (fun n hn => ?_) ast fun _ hm => hm) K
    cases n <;> first | rfl | exact absurd rfl (absent_keyword h h1 hn)
  · refine C80_never h.runs (t := true) (tameL_of true (· ∈ subsL ast) (fun n hn => ?_) ast fun _ hm => hm) K
    cases n with
    | switch => exact absurd rfl (absent_keyword h h3 hn)
    | bin sp op x y =>
      have k1 := absent_keyword h h1 hn
      have k2 := absent_keyword h h2 hn
      cases op <;> first | rfl | exact absurd rfl k1 | exact absurd rfl k2
    | _ => rfl

/-- What an outcome of the command is: the prescribed value, error or crash, or a limit that was reached. -/
def Prescribed (E : Cli.Env) (a : Cli.Args) (ast : List Node) : Cli.Outcome → Prop
  | .crash => ∃ K, (cliRun E a K ast).1 = .panic ∨ E.cfg.chk = true ∧ ∃ v, (cliRun E a K ast).1 = .ret v
  | .exit ⟨status, out, shown⟩ =>
    (status = 0 ∧ ∃ K v σ' t, (cliRun E a K ast = (.ok v, σ') ∨ cliRun E a K ast = (.ret v, σ')) ∧ out = σ'.data.out ++ t ∧ Tail E a v t) ∨
    (status = 1 ∧ ∃ e sp, shown = some (.error e sp) ∧
      (e = .runtimeLimit ∧ (∃ ms t, a.maxRuntime = some ms ∧ ms * 1000000 < E.elapsed t) ∨ e = .overflow .stackOverflow ∨
       ∃ K sp' σ' b, cliRun E a K ast = (.err e sp', σ') ∧ (∀ x, sp' = some x → sp = x) ∧ out = σ'.data.out ++ "Traceback (most recent call last):\n".toList ++ b))

/-- Whatever the command does with such files, it is prescribed. -/
theorem C80_command (h : MainFile E a k name src ast script) (hn : NoCompared E k name src) {fuel : Nat} {o : Cli.Outcome}
    (hm : main E a k fuel name (.ok src) = some o) : Prescribed E a ast o := by
  have hcmp := C80_text h hn
  cases o with
  | crash => exact C64_crash h hcmp hm
  | exit x =>
    obtain ⟨status, out, shown⟩ := x
    rcases C64_status hm with ⟨h1, h2⟩ | ⟨h1, h2⟩
    · simp only at h1; subst h1
      exact .inl ⟨rfl, C64_success h hcmp hm⟩
    · simp only at h1; subst h1
      exact .inr ⟨rfl, C64_failure h hcmp hm⟩

/-- And without `while` it does something. -/
theorem C80_total (h : MainFile E a k name src ast script) (hn : NoCompared E k name src) (hw : Absent E k name src "while") :
    ∃ fuel o, main E a k fuel name (.ok src) = some o ∧ Prescribed E a ast o := by
  obtain ⟨fuel, o, h1⟩ := C77_text h hw (C80_text h hn)
  exact ⟨fuel, o, h1, C80_command h hn h1⟩

private def z : Span := Span.default

/-- `fn f(x) { return x + 1 }  f(1) == 2`: a function and a comparison, one side of which is a literal. -/
def demoSide : List Node := [.func z ("f", z) [("x", z)] [.ret z (some (.bin z .add (.ident z "x") (.lit z (.int 1))))],
  .bin z .eq (.call z (.ident z "f") [.lit z (.int 1)]) (.lit z (.int 2))]

/-- `fn f() { return 1 }  [f] == [f]`: two functions are compared. -/
def demoBoth : List Node := [.func z ("f", z) [] [.ret z (some (.lit z (.int 1)))], .bin z .eq (.array z [.ident z "f"]) (.array z [.ident z "f"])]

example : tameL true demoSide = true ∧ tameL false demoSide = false ∧ (∃ script, Runs demoSetup 7 demoSide demoS demoσ (Machine.new demoSetup 7 script)) :=
  ⟨rfl, rfl, demo_runs demoSide (by decide +kernel) (by decide +kernel) (by decide +kernel)⟩

/-- Neither condition holds, and the comparison is not prescribed. -/
example : tameL true demoBoth = false ∧ tameL false demoBoth = false ∧ (∃ script, Runs demoSetup 7 demoBoth demoS demoσ (Machine.new demoSetup 7 script)) ∧
    (evalProgram demoS 9 demoBoth demoσ).1 = .unspec true :=
  ⟨rfl, rfl, demo_runs demoBoth (by decide +kernel) (by decide +kernel) (by decide +kernel), rfl⟩

private theorem absent_char {T : List Char} {s : String} {x : Char} (hx : x ∈ s.toList)
    (h : (parseWithIncludes Check.env.W 1 "main" T ⟨[], []⟩).2.sources.all (fun f => decide (x ∉ f.2)) = true) : Absent Check.env 1 "main" T s := by
  rintro f hf ⟨p, q, h5⟩
  exact of_decide_eq_true (List.all_eq_true.1 h f hf) (by rw [h5]; simp [hx])

private def pairAbsent (x y : Char) : List Char → Bool
  | a :: b :: r => !(a == x && b == y) && pairAbsent x y (b :: r)
  | _ => true

private theorem pairAbsent_not {x y : Char} : ∀ (p q : List Char), pairAbsent x y (p ++ x :: y :: q) = false
  | [], q => by simp [pairAbsent]
  | [a], q => by simp [pairAbsent]
  | a :: b :: p, q => by
    have := pairAbsent_not (x := x) (y := y) (b :: p) q
    simp only [List.cons_append] at this ⊢
    simp [pairAbsent, this]

private theorem absent_fn (T : List Char) (h : (parseWithIncludes Check.env.W 1 "main" T ⟨[], []⟩).2.sources.all (fun f => pairAbsent 'f' 'n' f.2) = true) :
    Absent Check.env 1 "main" T "fn" := by
  rintro f hf ⟨p, q, h5⟩
  have := List.all_eq_true.1 h f hf
  rw [h5, show p ++ "fn".toList ++ q = p ++ 'f' :: 'n' :: q by simp] at this
  rw [pairAbsent_not] at this
  cases this

private def plainFile : List Char := "let s = [1, 2]\nlet n = 0\nfor i in 0:4 { if s == [1, 2] { n = n + i } }\nn".toList
private def callFile : List Char := "fn f(g, x) { g(g(x)) }\nlet y = 3\nf(fn(x) { x + y }, 2) - 2".toList

private def goodInt (n : Int) : Out SVal × SSt Io → Bool
  | (.ok (.int i), _) => i.toInt == n
  | _ => false

/-- A file with comparisons and without functions, and one with functions and without comparisons; neither loops with `while`. -/
example : (∃ ast script, MainFile Check.env cliArgs 1 "main" plainFile ast script ∧ NoCompared Check.env 1 "main" plainFile ∧ Absent Check.env 1 "main" plainFile "while") ∧
    ∃ ast script, MainFile Check.env cliArgs 1 "main" callFile ast script ∧ NoCompared Check.env 1 "main" callFile ∧ Absent Check.env 1 "main" callFile "while" := by
  obtain ⟨ast, script, h1, _⟩ := checkFile_main (T := plainFile) (good := goodInt 6) (by decide +kernel)
  obtain ⟨ast', script', h1', _⟩ := checkFile_main (T := callFile) (good := goodInt 6) (by decide +kernel)
  have hneq : Absent Check.env 1 "main" callFile "==" := by
    intro f hf
    have h3 : (parseWithIncludes Check.env.W 1 "main" callFile ⟨[], []⟩).2.sources.all (fun f => decide (f.2.count '=' ≤ 1)) = true := by decide +kernel
    have h4 := of_decide_eq_true (List.all_eq_true.1 h3 f hf)
    rintro ⟨p, q, h5⟩
    rw [h5] at h4
    simp at h4
    omega
  exact ⟨⟨ast, script, h1, .inl (absent_fn plainFile (by decide +kernel)), absent_char (x := 'w') (by decide) (by decide +kernel)⟩,
    ⟨ast', script', h1', .inr ⟨hneq, absent_char (x := '!') (by decide) (by decide +kernel), absent_char (x := 's') (by decide) (by decide +kernel)⟩,
      absent_char (x := 'w') (by decide) (by decide +kernel)⟩⟩

end Quilt.Props
