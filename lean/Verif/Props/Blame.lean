import Verif.Sem.Blame
import Verif.Props.Errors
import Verif.Props.Compared

/-!
# The part of the program that is to blame: C85 and C86

`Faults` and `Unbound` (`Verif/Sem/BlameSpec.lean`) say which errors an expression or statement can be blamed for, and where they are
reported. C85: errors of running programs have a culprit in the program. C86: programs that declare every name before its use (`scopedL`)
do not fail because of undeclared names.
-/

namespace Quilt.Props

open Lib Peg Cli

variable {D : Type} {W : World} {M : Machine.Setup D} {data : D} {name : String} {T : List Char} {ast : List Node} {S : SHost D} {σ : SSt D} {m : Machine D}

/-- The semantics: whatever a program fails with, a part of it is to blame. -/
theorem C85_semantics (h : Runs M data ast S σ m) {k : Nat} {e : Err} {sp : Option Span} (he : (evalProgram S k ast σ).1 = .err e sp) :
    ∃ n ∈ subsL ast, Faults S (· ∈ subsL ast) n e sp ∨ Unbound S n e sp := by
  obtain ⟨script, h1, h2⟩ := h.prepared
  have h3 := h2.held ⟨S, (· ∈ subsL ast), false, fun _ => false, compile_placed h1⟩ rfl
  obtain ⟨n, hn, h4⟩ := program_culprit (K := ⟨S, (· ∈ subsL ast), false, fun _ => false, compile_placed h1⟩) (Γ := []) h3.1 (fun _ h => by cases h) (fun _ h => h) (fun h => by cases h)
    (h3.2 [] fun _ h => by cases h) k he
  exact ⟨n, hn, h4.imp_right And.right⟩

/-- No builtin pretends that the stack overflowed. -/
def Honest (S : SHost D) : Prop := (∀ x args, ¬ Answers S x args (.err (.overflow .stackOverflow))) ∧ ¬ Leaves S (.err (.overflow .stackOverflow))

theorem honest_overflow (h : Runs M data ast S σ m) (hQ : Honest S) {k : Nat} (sp : Option Span) : (evalProgram S k ast σ).1 ≠ .err (.overflow .stackOverflow) sp := by
  intro h1
  obtain ⟨n, _, h2 | h2⟩ := C85_semantics h h1
  · cases h2 with
    | binary h => cases h
    | index h => cases h
    | forParts h => cases h
    | declParts h => cases h
    | ctxParts h => cases h
    | builtin h => exact hQ.1 _ _ h
    | context h => exact hQ.1 _ _ h
    | leave h => exact hQ.2 h
  · cases h2

private theorem machine_error (h : RunsText W M data name T ast S σ m) (hQ : Honest S)
    (hcmp : ∀ k, (evalProgram S k ast σ).1 ≠ .unspec true) (n c : Nat) (clock : Nat → Bool) (fuel : Nat) {e : Err} {sp : Span} {s' : VM D}
    (hr : (m.withLimits n c).run clock fuel = some (.err e sp s')) :
    e = .overflow .stackOverflow ∨ e = .runtimeLimit ∨ ∃ k sp', (evalProgram S k ast σ).1 = .err e sp' ∧ ∀ x, sp' = some x → sp = x := by
  have hR := (C53_hypotheses h).1
  by_cases hd : ∀ k, (evalProgram S k ast σ).1 = .timeout
  · rcases C22_diverges hR hd n c clock fuel with h1 | ⟨_, _, h1⟩ | ⟨_, _, h1⟩ <;> rw [hr] at h1 <;> simp at h1 <;> simp [h1.1]
  · rw [Classical.not_forall] at hd
    obtain ⟨k, hk⟩ := hd
    have hu : ∀ b, (evalProgram S k ast σ).1 ≠ .unspec b := by
      intro b
      cases b with
      | true => exact hcmp k
      | false => exact C53_specified h k
    rcases (hR.outcome k).run_any ⟨hk, hu, fun sp => honest_overflow hR hQ sp⟩ (hR.sp n) hr with ⟨_, _, h1⟩ | ⟨_, _, h1⟩ | ⟨sp', h1, h2, _⟩
    · cases h1; exact .inr (.inl rfl)
    · cases h1; exact .inl rfl
    · exact .inr (.inr ⟨k, sp', h1, h2⟩)

/-- The machine: an error is one of the two limits, or a part of the program is to blame for it, and the error points at the place that
belongs to this part. -/
theorem C85_machine (h : RunsText W M data name T ast S σ m) (hQ : Honest S) (hcmp : ∀ k, (evalProgram S k ast σ).1 ≠ .unspec true) (n c : Nat) (clock : Nat → Bool)
    (fuel : Nat) {e : Err} {sp : Span} {s' : VM D} (hr : (m.withLimits n c).run clock fuel = some (.err e sp s')) :
    e = .overflow .stackOverflow ∨ e = .runtimeLimit ∨
    ∃ n ∈ subsL ast, ∃ sp', (Faults S (· ∈ subsL ast) n e sp' ∨ Unbound S n e sp') ∧ ∀ x, sp' = some x → sp = x := by
  rcases machine_error h hQ hcmp n c clock fuel hr with h1 | h1 | ⟨k, sp', h1, h2⟩
  · exact .inl h1
  · exact .inr (.inl h1)
  · obtain ⟨n, hn, h3⟩ := C85_semantics (C53_hypotheses h).1 h1
    exact .inr (.inr ⟨n, hn, sp', h3, h2⟩)

/-- Programs that declare every name before its use: the builtins `B` are registered and the globals `Γ` defined before the start. Then no
error is an undeclared name, unless a builtin pretends so. -/
theorem C86_semantics (h : Runs M data ast S σ m) {B : String → Bool} {Γ : List String} (hB : ∀ x, B x = true → (S.builtins x).isSome)
    (hΓ : ∀ x ∈ Γ, (σ.globals x).isSome) (hs : scopedL B Γ ast = true) {k : Nat} {e : Err} {sp : Option Span} (he : (evalProgram S k ast σ).1 = .err e sp) :
    ∃ n ∈ subsL ast, Faults S (· ∈ subsL ast) n e sp := by
  obtain ⟨script, h1, h2⟩ := h.prepared
  have h3 := h2.held ⟨S, (· ∈ subsL ast), true, B, compile_placed h1⟩ rfl
  obtain ⟨n, hn, h4⟩ := program_culprit (K := ⟨S, (· ∈ subsL ast), true, B, compile_placed h1⟩) (Γ := Γ) h3.1 hB (fun _ h => h) (fun _ => hs) (h3.2 Γ hΓ) k he
  exact ⟨n, hn, h4.resolve_right (by simp)⟩

/-- No builtin pretends that a name is not declared. -/
def Naming (S : SHost D) : Prop := (∀ x args y, ¬ Answers S x args (.err (.name y))) ∧ ∀ y, ¬ Leaves S (.err (.name y))

theorem C86_names (h : Runs M data ast S σ m) (hQ : Naming S) {B : String → Bool} {Γ : List String} (hB : ∀ x, B x = true → (S.builtins x).isSome)
    (hΓ : ∀ x ∈ Γ, (σ.globals x).isSome) (hs : scopedL B Γ ast = true) (k : Nat) (y : NameErr) (sp : Option Span) : (evalProgram S k ast σ).1 ≠ .err (.name y) sp := by
  intro he
  obtain ⟨n, _, h1⟩ := C86_semantics h hB hΓ hs he
  cases h1 with
  | binary h => cases h
  | index h => cases h
  | forParts h => cases h
  | declParts h => cases h
  | ctxParts h => cases h
  | builtin h => exact hQ.1 _ _ _ h
  | context h => exact hQ.1 _ _ _ h
  | leave h => exact hQ.2 _ h

/-- The machine, with any limits: it never reports that a name is not declared. -/
theorem C86_machine (h : RunsText W M data name T ast S σ m) (hQ : Honest S) (hQ' : Naming S) (hcmp : ∀ k, (evalProgram S k ast σ).1 ≠ .unspec true)
    {B : String → Bool} {Γ : List String} (hB : ∀ x, B x = true → (S.builtins x).isSome) (hΓ : ∀ x ∈ Γ, (σ.globals x).isSome) (hs : scopedL B Γ ast = true)
    (n c : Nat) (clock : Nat → Bool) (fuel : Nat) (y : NameErr) (sp : Span) (s' : VM D) : (m.withLimits n c).run clock fuel ≠ some (.err (.name y) sp s') := by
  intro hr
  rcases machine_error h hQ hcmp n c clock fuel hr with h1 | h1 | ⟨k, sp', h1, _⟩
  · cases h1
  · cases h1
  · exact C86_names (C53_hypotheses h).1 hQ' hB hΓ hs k y sp' h1

variable {E : Cli.Env} {a : Cli.Args} {k : Nat} {src : List Char} {script : Script}

private theorem cli_answers {x : String} {as : List Node} {e : Err} (h : Answers (cliHost E a) x as (.err e)) : e.ofLib = true := by
  obtain ⟨f, d, args, h1 | ⟨g, h1⟩, _, h2⟩ := h
  · exact cli_builtins E a x _ h1 d args e h2
  · exact (cli_builtins E a x _ h1).1 d args e h2

private theorem cli_leaves {e : Err} (h : Leaves (cliHost E a) (.err e)) : e.ofLib = true := by
  obtain ⟨x, f, g, d, h1, h2⟩ := h
  exact (cli_builtins E a x _ h1).2 d e h2

/-- The standard library pretends neither. -/
theorem C85_library (E : Cli.Env) (a : Cli.Args) : Honest (cliHost E a) ∧ Naming (cliHost E a) :=
  ⟨⟨fun _ _ h => absurd (cli_answers h) (by decide), fun h => absurd (cli_leaves h) (by decide)⟩,
    fun _ _ _ h => absurd (cli_answers h) Bool.false_ne_true, fun _ h => absurd (cli_leaves h) Bool.false_ne_true⟩

/-- The command: an error it shows is one of the two limits, or a part of the program is to blame for it. -/
theorem C85_command (h : MainFile E a k name src ast script) (hcmp : ∀ K, (cliRun E a K ast).1 ≠ .unspec true) {fuel : Nat} {out : List Char} {e : Err} {sp : Span}
    (hm : main E a k fuel name (.ok src) = some (.exit ⟨1, out, some (.error e sp)⟩)) :
    e = .overflow .stackOverflow ∨ e = .runtimeLimit ∨
    ∃ n ∈ subsL ast, ∃ sp', (Faults (cliHost E a) (· ∈ subsL ast) n e sp' ∨ Unbound (cliHost E a) n e sp') ∧ ∀ x, sp' = some x → sp = x := by
  obtain ⟨e', sp', h1, h2⟩ := C64_failure h hcmp hm
  cases h1
  rcases h2 with h2 | h2 | ⟨K, sp', σ', b, h2, h3, _⟩
  · exact .inr (.inl h2.1)
  · exact .inl h2
  · obtain ⟨n, hn, h4⟩ := C85_semantics h.runs (congrArg Prod.fst h2)
    exact .inr (.inr ⟨n, hn, sp', h4, h3⟩)

/-- Words and signs, one of which a text must contain if it fails with the error and calls no builtins. -/
def _root_.Quilt.Err.signs : Err → List String
  | .name (.undefined x) | .name (.undefinedBuiltin x) => [x]
  | .zeroDivision => ["/", "%"]
  | .index _ => ["["]
  | .overflow .stringTooLarge => ["+", "*", ".."]
  | .overflow .arrayTooLarge => ["[", ".."]
  | .type (.unsupportedBinary op _ _) | .type (.unsupportedUnary op _) => [op]
  | .type (.notCallable _) | .type (.mismatchedArity ..) => ["("]
  | .type (.notIterable _) => ["for"]
  | .type (.insufficientValues ..) | .type (.unpackable _) => ["let", "for"]
  | .type (.expected want _) => if want = "truthy" then ["if", "while"] else if want = "int" then [":", "["] else ["["]
  | _ => []

private theorem present_keyword (h : MainFile E a k name src ast script) {n : Node} (hn : n ∈ subsL ast) {s : String} (hs : n.keyword = some s) : ¬ Absent E k name src s := by
  intro ha
  have hp : parseWithIncludes E.W k name src ⟨[], []⟩ = (.ok ast, (parseWithIncludes E.W k name src ⟨[], []⟩).2) := by rw [← h.parsed]
  obtain ⟨p, _, _, f, t, h1, _, _, _, _, u, v, h2, _⟩ := C78_keywords hp hn hs
  exact ha _ (List.mem_of_getElem? h1) ⟨u, v, h2⟩

private theorem present_name (h : MainFile E a k name src ast script) {n : Node} (hn : n ∈ subsL ast) {x : Name} (hx : x ∈ n.words) : ¬ Absent E k name src x.1 := by
  intro ha
  have hp : parseWithIncludes E.W k name src ⟨[], []⟩ = (.ok ast, (parseWithIncludes E.W k name src ⟨[], []⟩).2) := by rw [← h.parsed]
  obtain ⟨f, t, h1, u, v, h2, _⟩ := (C78_names hp hn).2 x hx
  exact ha _ (List.mem_of_getElem? h1) ⟨u, v, h2⟩

/-- The text: if the command shows an error other than the limits, then `@`, `with` or one of the signs of the error occurs in the files. E.g. texts
without `/` and `%` that call no builtins never divide by zero. -/
theorem C85_signs (h : MainFile E a k name src ast script) (hcmp : ∀ K, (cliRun E a K ast).1 ≠ .unspec true) {fuel : Nat} {out : List Char} {e : Err} {sp : Span}
    (hm : main E a k fuel name (.ok src) = some (.exit ⟨1, out, some (.error e sp)⟩)) (h1 : e ≠ .overflow .stackOverflow) (h2 : e ≠ .runtimeLimit) :
    ∃ s ∈ "@" :: "with" :: e.signs, ¬ Absent E k name src s := by
  obtain ⟨n, hn, sp', h3, _⟩ := ((C85_command h hcmp hm).resolve_left h1).resolve_left h2
  have kw : ∀ s, n.keyword = some s → s ∈ "@" :: "with" :: e.signs → ∃ s ∈ "@" :: "with" :: e.signs, ¬ Absent E k name src s :=
    fun s hs hm => ⟨s, hm, present_keyword h hn hs⟩
  have sg : ∀ {s : String} {l : List String}, s ∈ l → s ∈ "@" :: "with" :: l := fun h => .tail _ (.tail _ h)
  rcases h3 with h3 | h3
  · cases h3 with
    | binary h4 =>
      cases h4 with
      | types => exact kw _ rfl (sg (.head _))
      | zero _ h5 =>
        rcases h5 with rfl | rfl
        · exact kw _ rfl (sg (.head _))
        · exact kw _ rfl (sg (.tail _ (.head _)))
      | concat _ _ h5 => subst h5; exact kw _ rfl (sg (.head _))
      | «repeat» _ _ h5 => subst h5; exact kw _ rfl (sg (.tail _ (.head _)))
      | join _ _ _ _ h5 => subst h5; exact kw _ rfl (sg (.tail _ (.tail _ (.head _))))
      | array _ _ _ _ _ _ h5 => subst h5; exact kw _ rfl (sg (.tail _ (.head _)))
      | times _ _ h5 => subst h5; exact kw _ rfl (sg (.head _))
    | index h4 =>
      cases h4 with
      | index => exact kw _ rfl (sg (.tail _ (.head _)))
      | _ => exact kw _ rfl (sg (.head _))
    | forParts h4 => cases h4 <;> exact kw _ rfl (sg (.tail _ (.head _)))
    | declParts h4 => cases h4 <;> exact kw _ rfl (sg (.head _))
    | ctxParts h4 => exact kw _ rfl (.tail _ (.head _))
    | calledContext h4 => exact kw _ rfl (.head _)
    | builtin h4 => exact kw _ rfl (.head _)
    | context h4 => exact kw _ rfl (.tail _ (.head _))
    | leave h4 => exact kw _ rfl (.tail _ (.head _))
    | «while» => exact kw _ rfl (sg (.tail _ (.head _)))
    | _ => exact kw _ rfl (sg (.head _))
  · cases h3 with
    | read => exact kw _ rfl (sg (.head _))
    | write => exact ⟨_, sg (.head _), present_name h hn (.head _)⟩
    | builtin => exact kw _ rfl (.head _)
    | context => exact kw _ rfl (.tail _ (.head _))

/-- Names are checked: every variable is declared and every builtin is one of the library. -/
def Checked (E : Cli.Env) (a : Cli.Args) (ast : List Node) : Prop := scopedL (fun x => ((cliHost E a).builtins x).isSome) [] ast = true

/-- The command never says of such programs that a name is not declared. -/
theorem C86_command (h : MainFile E a k name src ast script) (hcmp : ∀ K, (cliRun E a K ast).1 ≠ .unspec true) (hs : Checked E a ast) {fuel : Nat} {out : List Char}
    (y : NameErr) (sp : Span) : main E a k fuel name (.ok src) ≠ some (.exit ⟨1, out, some (.error (.name y) sp)⟩) := by
  intro hm
  obtain ⟨e', sp', h1, h2⟩ := C64_failure h hcmp hm
  cases h1
  rcases h2 with h2 | h2 | ⟨K, sp', σ', b, h2, h3, _⟩
  · cases h2.1
  · cases h2
  · exact C86_names h.runs (C85_library E a).2 (fun _ h => h) (fun _ h => by cases h) hs K y sp' (congrArg Prod.fst h2)

private def checkedFile (T : List Char) : Bool :=
  match (parseWithIncludes Check.env.W 1 "main" T ⟨[], []⟩).1 with
  | .ok ast => scopedL (fun x => ((cliHost Check.env cliArgs).builtins x).isSome) [] ast
  | _ => false

private theorem checkedFile_iff {T : List Char} (h : MainFile Check.env cliArgs 1 "main" T ast script) : checkedFile T = true ↔ Checked Check.env cliArgs ast := by
  unfold checkedFile
  rw [h.parsed]
  rfl

private def failed (e : Err) : Out SVal × SSt Io → Bool
  | (.err e' _, _) => e == e'
  | _ => false

private def finished : Out SVal × SSt Io → Bool
  | (.ok _, _) => true
  | _ => false

/-- A closure that counts, recursion, loops, a pair taken apart, builtins; it ends with a division by zero. -/
private def tidyFile : List Char :=
  "fn mk(n) { let c = n\n return fn() { c = c + 1\n return c } }\nlet f = mk(2)\nlet a, b = [f(), f()]\nfor i in 0:2 { let t = i\n a += t }\n@len([a, b]) / (a - a)".toList

/-- Names are checked, and the program fails with another error. -/
example : ∃ ast script, MainFile Check.env cliArgs 1 "main" tidyFile ast script ∧ Checked Check.env cliArgs ast ∧
    (∃ sp, (cliRun Check.env cliArgs 9 ast).1 = .err .zeroDivision sp) := by
  obtain ⟨ast, script, h1, h2⟩ := checkFile_main (T := tidyFile) (good := failed .zeroDivision) (by decide +kernel)
  refine ⟨ast, script, h1, (checkedFile_iff h1).1 (by decide +kernel), ?_⟩
  generalize cliRun Check.env cliArgs 9 ast = r at h2
  obtain ⟨o, _⟩ := r
  cases o <;> simp [failed] at h2
  exact ⟨_, by rw [← h2]⟩

/-- Names that are not checked: one is used in a function before it is declared, one in a branch that is not taken, and one is really missing. -/
example : (checkedFile "fn f(n) { if n < 1 { 0 } else { g(n - 1) } }\nfn g(n) { f(n) }\nf(2)".toList = false ∧
      checkFile "fn f(n) { if n < 1 { 0 } else { g(n - 1) } }\nfn g(n) { f(n) }\nf(2)".toList finished = true) ∧
    (checkedFile "if false { x }".toList = false ∧ checkFile "if false { x }".toList finished = true) ∧
    (checkedFile "{ let x = 1 }\nx".toList = false ∧ checkFile "{ let x = 1 }\nx".toList (failed (.name (.undefined "x"))) = true) ∧
    (checkedFile "@lem([])".toList = false ∧ checkFile "@lem([])".toList (failed (.name (.undefinedBuiltin "lem"))) = true) := by
  decide +kernel

/-- Texts that show the error of a sign. -/
example : checkFile "1 / 0".toList (failed .zeroDivision) = true ∧ checkFile "[1][1]".toList (failed (.index 1)) = true ∧
    checkFile "fn f(a) { a }\nf()".toList (failed (.type (.mismatchedArity "f" 1 0))) = true ∧
    checkFile "let a, b = [1]".toList (failed (.type (.insufficientValues 1 2))) = true ∧
    checkFile "if 1:2 { 3 }".toList (failed (.type (.expected "truthy" "range"))) = true := by
  decide +kernel

end Quilt.Props
