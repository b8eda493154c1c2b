import Verif.Sem.Splice
import Verif.Props.Cli
import Verif.Props.Layout
import Verif.Props.Session

/-!
# Included files and lines of a session are parts of one program: C93

`inPlaceL` (`Verif/Sem/Splice.lean`) writes the statements of included files in place of the includes.
-/

namespace Quilt.Props

open Lib Peg Cli

section Semantics

variable {D : Type} {M : Machine.Setup D} {data : D} {ast ast' : List Node} {S : SHost D} {σ : SSt D} {m m' : Machine D}

/-- A program means what it means with the statements of the included files written in place of the includes: the same value or error at the same
place, and the same state in the end. -/
theorem C93_semantics (S : SHost D) (k : Nat) (h : wfProgram ast = true) : evalProgram S k (inPlaceL ast) = evalProgram S k ast :=
  evalTop_inPlace S (callN S k k) k h

/-- A program followed by another one: the second one starts in the state that the first one ended with; the value of the
first one is dropped, its errors are errors of the whole. -/
theorem C93_sequence (S : SHost D) (k : Nat) {xs ys : List Node} (h : wfProgram xs = true) (hy : ys ≠ []) (σ : SSt D) :
    evalProgram S k (xs ++ ys) σ = match evalProgram S k xs σ with
      | (.ok _, σ') => evalProgram S k ys σ'
      | r => r := by
  have e := congrFun (evalTop_seq S (callN S k k) k h hy) σ
  unfold evalProgram
  rw [e]
  show SM.bind _ _ σ = _
  simp only [SM.bind]
  generalize evalTop S (callN S k k) k xs σ = r
  obtain ⟨o, τ⟩ := r
  cases o <;> rfl

/-- The lines have values, one after the other, and none of them is left from within a context: the state in the end. -/
inductive Entered (S : SHost D) : SSt D → List (List Node) → SSt D → Prop
  | nil {σ : SSt D} : Entered S σ [] σ
  | line {k : Nat} {ast : List Node} {asts : List (List Node)} {v : SVal} {σ σ1 σ' : SSt D} : wfProgram ast = true → evalProgram S k ast σ = (.ok v, σ1) → σ1.exits = [] →
      Entered S σ1 asts σ' → Entered S σ (ast :: asts) σ'

/-- The lines before the last one can be written before it: for all large enough bounds, the line in the state that they lead to means what the whole means. -/
theorem C93_lines {σ' : SSt D} {asts : List (List Node)} (h : Entered S σ asts σ') (hl : ast ≠ []) :
    ∃ K, ∀ k, K ≤ k → evalProgram S k (asts.flatten ++ ast) σ = evalProgram S k ast σ' := by
  induction h with
  | nil => exact ⟨0, fun k _ => rfl⟩
  | @line k0 x xs v σ σ1 σ2 hw he _ _ ih =>
    obtain ⟨K, hK⟩ := ih
    refine ⟨K + k0, fun k hk => ?_⟩
    rw [List.flatten_cons, List.append_assoc, C93_sequence S k hw (by simp [hl]), evalProgram_mono S (by omega : k0 ≤ k) x σ (by rw [he]; simp), he]
    exact hK k (by omega)

/-- Typing the lines of a program into a session and running all of them as one program is the same: if the whole program has the value `v`, then, given large
enough limits, so does the last line typed after the other ones, and so does the whole program when typed as one line; host data and
globals are the same in the end. -/
theorem C93_session {sbs : List (String × Builtin D SClos)} {vbs : List (String × Builtin D VClos)} {σ1 σ' : SSt D} {n n' : Nat} {r r' r1 r1' : Repl D}
    {asts : List (List Node)} (he : Entered (sessionHost M sbs) σ asts σ1) (h : Line M data sbs vbs σ n r (asts.flatten ++ ast) r1) (h' : Line M data sbs vbs σ1 n' r' ast r1')
    {k : Nat} {v : SVal} (hv : evalProgram (sessionHost M sbs) k (asts.flatten ++ ast) σ = (.ok v, σ')) :
    ∃ N C, ∀ a c, N ≤ a → C ≤ c → ∀ clock : Nat → Bool, (∀ t, clock t = false) → ∃ fuel fuel' w w' s s',
      (r1.vm.withLimits a c).run clock fuel = some (.done w s) ∧ (r1'.vm.withLimits a c).run clock fuel' = some (.done w' s') ∧
      SameVal v w ∧ SameVal v w' ∧ s.data = s'.data ∧ SameGlobals r1.vm.host.syms σ' s ∧ SameGlobals r1'.vm.host.syms σ' s' := by
  have hl : ast ≠ [] := by rintro rfl; exact absurd h'.wf (by simp [wfProgram])
  obtain ⟨K, hK⟩ := C93_lines he hl
  have hv' : evalProgram (sessionHost M sbs) (K + k) ast σ1 = (.ok v, σ') := by
    rw [← hK _ (by omega), evalProgram_mono _ (by omega : k ≤ K + k) _ _ (by rw [hv]; simp), hv]
  obtain ⟨N, C, hN⟩ := C32_value h hv
  obtain ⟨N', C', hN'⟩ := C32_value h' hv'
  refine ⟨N + N', C + C', fun a c ha hc clock hclk => ?_⟩
  obtain ⟨fuel, w, s, h1, h2, h3, h4, _⟩ := hN a c (by omega) (by omega) clock hclk
  obtain ⟨fuel', w', s', h1', h2', h3', h4', _⟩ := hN' a c (by omega) (by omega) clock hclk
  exact ⟨fuel, fuel', w, w', s, s', h1, h1', h2, h2', h3.trans h3'.symm, h4, h4'⟩

end Semantics

/-! ## The command line program -/

variable {E : Cli.Env} {a : Cli.Args} {k k' : Nat} {name name' : String} {src src' : List Char} {ast ast' : List Node} {script script' : Script}

theorem SameOutcome.symm {D : Type} {x y : Out SVal × SSt D} (h : SameOutcome x y) : SameOutcome y x := by
  obtain ⟨o, σ⟩ := x
  obtain ⟨o', σ'⟩ := y
  refine ⟨h.1.symm, ?_⟩
  have h := h.2
  have flip : ∀ {v w : SVal}, Val.Rel (fun c c' : SClos => c.name = c'.name ∧ c.params.length = c'.params.length) v w →
      Val.Rel (fun c c' : SClos => c.name = c'.name ∧ c.params.length = c'.params.length) w v := by
    intro v w h
    exact Val.Rel.mono (fun _ _ h => ⟨h.1.symm, h.2.symm⟩) (Val.Rel.swap h)
  cases o <;> cases o' <;> first
    | exact h.elim
    | exact h.symm
    | exact flip h
    | exact h

/-- The files `src`, with includes, and `src'` are read as programs of which the second one is the first one with the statements of the included files written in
place of the includes, up to positions. -/
structure Spliced (E : Cli.Env) (a : Cli.Args) (k k' : Nat) (name name' : String) (src src' : List Char) (ast ast' : List Node) (script script' : Script) : Prop where
  main : MainFile E a k name src ast script
  whole : MainFile E a k' name' src' ast' script'
  same : stripL ast' = stripL (inPlaceL ast)

theorem Spliced.outcome (h : Spliced E a k k' name name' src src' ast ast' script script') (K : Nat) : SameOutcome (cliRun E a K ast) (cliRun E a K ast') := by
  have h1 : SameOutcome (cliRun E a K ast') (evalProgram (cliHost E a) K (inPlaceL ast) (startSt ⟨[], 0⟩)) := C71_semantics h.whole.runs (alphaProg_ofStrip ast' h.same) K
  rw [C93_semantics _ _ h.main.runs.wf] at h1
  exact h1.symm

private theorem tail_same {v w : SVal} (h : Val.Rel (fun c c' : SClos => c.name = c'.name ∧ c.params.length = c'.params.length) v w) {t t' : List Char}
    (h1 : Tail E a v t) (h2 : Tail E a w t') : t = t' := by
  have ht : v.text E.L.F SClos.name = w.text E.L.F SClos.name := text_rel E.L.F (fun _ _ h => h.1) h
  have hn : v = .none ↔ w = .none := by
    cases v <;> cases w <;> simp only [Val.Rel, reduceCtorEq] at h ⊢
  by_cases hr : a.result = true
  · by_cases hv : v = .none
    · rw [h1.2 (.inr hv), h2.2 (.inr (hn.1 hv))]
    · rw [h1.1 hr hv, h2.1 hr (fun h => hv (hn.2 h)), ht]
  · rw [h1.2 (.inl (by simpa using hr)), h2.2 (.inl (by simpa using hr))]

/-- From `src` to `src'`: what one of the commands does, the other one does, given enough of the two stacks. -/
theorem transfer (h : MainFile E a k name src ast script) (h' : MainFile E a k' name' src' ast' script') (hs : ∀ K, SameOutcome (cliRun E a K ast) (cliRun E a K ast'))
    (ha : a.maxRuntime = none) (hcmp : ∀ K, (cliRun E a K ast).1 ≠ .unspec true) (hret : E.cfg.chk = true → ∀ K v, (cliRun E a K ast).1 ≠ .ret v) (fuel : Nat) :
    (∀ out, Cli.main E a k fuel name (.ok src) = some (.exit ⟨0, out, none⟩) →
      ∃ N C, ∀ n c, N ≤ n → C ≤ c → ∃ fuel', Cli.main E (a.withStacks n c) k' fuel' name' (.ok src') = some (.exit ⟨0, out, none⟩)) ∧
    (∀ out e sp, Cli.main E a k fuel name (.ok src) = some (.exit ⟨1, out, some (.error e sp)⟩) → e ≠ .overflow .stackOverflow →
      ∃ before trace N C, out = before ++ "Traceback (most recent call last):\n".toList ++ trace ∧ ∀ n c, N ≤ n → C ≤ c → ∃ fuel' trace' sp',
        Cli.main E (a.withStacks n c) k' fuel' name' (.ok src') =
          some (.exit ⟨1, before ++ "Traceback (most recent call last):\n".toList ++ trace', some (.error e sp')⟩)) ∧
    (Cli.main E a k fuel name (.ok src) = some .crash →
      ∃ N C, ∀ n c, N ≤ n → C ≤ c → ∃ fuel', Cli.main E (a.withStacks n c) k' fuel' name' (.ok src') = some .crash) := by
  refine ⟨fun out hm => ?_, fun out e sp hm hne => ?_, fun hm => ?_⟩
  · obtain ⟨K, v, σ', t, h1, rfl, h2⟩ := C64_success h hcmp hm
    have hK := hs K
    rcases h1 with h1 | h1 <;> rw [h1] at hK <;> generalize hx : cliRun E a K ast' = x at hK <;> obtain ⟨o, τ⟩ := x <;> obtain ⟨h3, h4⟩ := hK <;> cases o <;>
      first
        | exact h4.elim
        | skip
    · rename_i w
      obtain ⟨N, C, hN⟩ := C64_value h' ha hx
      refine ⟨N, C, fun n c hn hc => ?_⟩
      obtain ⟨fuel', t', h5, h6⟩ := hN n c hn hc
      exact ⟨fuel', by rw [h5, h3, tail_same h4 h2 h6]⟩
    · rename_i w
      have hchk : E.cfg.chk = false := by
        cases hc : E.cfg.chk with
        | false => rfl
        | true => exact absurd (by rw [h1]) (hret hc K v)
      obtain ⟨N, C, hN⟩ := C64_return h' ha hchk hx
      refine ⟨N, C, fun n c hn hc => ?_⟩
      obtain ⟨fuel', t', h5, h6⟩ := hN n c hn hc
      exact ⟨fuel', by rw [h5, h3, tail_same h4 h2 h6]⟩
  · obtain ⟨e1, sp1, h1, h2⟩ := C64_failure h hcmp hm
    cases h1
    rcases h2 with ⟨_, ms, _, h2, _⟩ | h2 | ⟨K, sp2, σ', b, h2, _, rfl⟩
    · rw [ha] at h2; cases h2
    · exact absurd h2 hne
    · have hK := hs K
      rw [h2] at hK
      generalize hx : cliRun E a K ast' = x at hK
      obtain ⟨o, τ⟩ := x
      obtain ⟨h3, h4⟩ := hK
      cases o <;> first | exact h4.elim | skip
      cases h4
      obtain ⟨N, C, hN⟩ := C64_error h' ha hx
      refine ⟨σ'.data.out, b, N, C, rfl, fun n c hn hc => ?_⟩
      obtain ⟨fuel', b', sp', _, h5⟩ := hN n c hn hc
      exact ⟨fuel', b', sp', by rw [h5, h3]⟩
  · obtain ⟨K, h1 | ⟨h1, v, h2⟩⟩ := C64_crash h hcmp hm
    · have hK := hs K
      generalize cliRun E a K ast = x at h1 hK
      generalize hy : cliRun E a K ast' = y at hK
      obtain ⟨o, σ⟩ := x
      obtain ⟨o', τ⟩ := y
      simp only at h1
      subst h1
      have h4 := hK.2
      cases o' <;> first | exact h4.elim | exact C64_panic h' ha hy
    · exact absurd h2 (hret h1 K v)

/-- Without a time limit, running a file with includes and running the whole program as one file end in the same way, given enough of the two stacks: with the same
status and the same output, up to the traceback of an error, or with the same error, or with a crash. In both directions. -/
theorem C93_command (h : Spliced E a k k' name name' src src' ast ast' script script') (ha : a.maxRuntime = none)
    (hcmp : ∀ K, (cliRun E a K ast).1 ≠ .unspec true) (hret : E.cfg.chk = true → ∀ K v, (cliRun E a K ast).1 ≠ .ret v) (fuel : Nat) :
    (∀ out, Cli.main E a k fuel name (.ok src) = some (.exit ⟨0, out, none⟩) →
      ∃ N C, ∀ n c, N ≤ n → C ≤ c → ∃ fuel', Cli.main E (a.withStacks n c) k' fuel' name' (.ok src') = some (.exit ⟨0, out, none⟩)) ∧
    (∀ out e sp, Cli.main E a k fuel name (.ok src) = some (.exit ⟨1, out, some (.error e sp)⟩) → e ≠ .overflow .stackOverflow →
      ∃ before trace N C, out = before ++ "Traceback (most recent call last):\n".toList ++ trace ∧ ∀ n c, N ≤ n → C ≤ c → ∃ fuel' trace' sp',
        Cli.main E (a.withStacks n c) k' fuel' name' (.ok src') =
          some (.exit ⟨1, before ++ "Traceback (most recent call last):\n".toList ++ trace', some (.error e sp')⟩)) ∧
    (Cli.main E a k fuel name (.ok src) = some .crash →
      ∃ N C, ∀ n c, N ≤ n → C ≤ c → ∃ fuel', Cli.main E (a.withStacks n c) k' fuel' name' (.ok src') = some .crash) ∧
    (∀ out, Cli.main E a k' fuel name' (.ok src') = some (.exit ⟨0, out, none⟩) →
      ∃ N C, ∀ n c, N ≤ n → C ≤ c → ∃ fuel', Cli.main E (a.withStacks n c) k fuel' name (.ok src) = some (.exit ⟨0, out, none⟩)) ∧
    (∀ out e sp, Cli.main E a k' fuel name' (.ok src') = some (.exit ⟨1, out, some (.error e sp)⟩) → e ≠ .overflow .stackOverflow →
      ∃ before trace N C, out = before ++ "Traceback (most recent call last):\n".toList ++ trace ∧ ∀ n c, N ≤ n → C ≤ c → ∃ fuel' trace' sp',
        Cli.main E (a.withStacks n c) k fuel' name (.ok src) =
          some (.exit ⟨1, before ++ "Traceback (most recent call last):\n".toList ++ trace', some (.error e sp')⟩)) ∧
    (Cli.main E a k' fuel name' (.ok src') = some .crash →
      ∃ N C, ∀ n c, N ≤ n → C ≤ c → ∃ fuel', Cli.main E (a.withStacks n c) k fuel' name (.ok src) = some .crash) := by
  have back : ∀ {o : Out SVal} {K : Nat}, (cliRun E a K ast').1 = o → (∀ b, o = .unspec b → (cliRun E a K ast).1 = .unspec b) ∧ (∀ v, o = .ret v → ∃ w, (cliRun E a K ast).1 = .ret w) := by
    intro o K ho
    have hK := h.outcome K
    generalize cliRun E a K ast = x at hK
    generalize cliRun E a K ast' = y at hK ho
    obtain ⟨p, σ⟩ := x
    obtain ⟨q, τ⟩ := y
    simp only at ho
    subst ho
    have h4 := hK.2
    refine ⟨?_, ?_⟩
    · rintro b rfl
      cases p <;> first | exact h4.elim | exact congrArg Out.unspec h4
    · rintro v rfl
      cases p <;> first | exact h4.elim | exact ⟨_, rfl⟩
  obtain ⟨a1, a2, a3⟩ := transfer h.main h.whole h.outcome ha hcmp hret fuel
  obtain ⟨b1, b2, b3⟩ := transfer h.whole h.main (fun K => (h.outcome K).symm) ha (fun K hu => hcmp K ((back hu).1 true rfl))
    (fun hc K v hu => by obtain ⟨w, hw⟩ := (back hu).2 v rfl; exact hret hc K w hw) fuel
  exact ⟨a1, a2, a3, b1, b2, b3⟩

/-! ## Concrete files and sessions -/

private def libText : List Char := "let b = 2".toList
private def z : Span := Span.default

/-- A file `lib.ql`, and one with the statement `a` at the end. -/
private def spliceEnv : Cli.Env :=
  { Check.env with W := ⟨fun x => if x == "lib.ql" then some libText else if x == "a.ql" then some "let a = [7]\na".toList else none, fun _ => 0⟩ }

private def outOf (T : String) : Option (Nat × String) :=
  match main spliceEnv cliArgs 9 1000 "main" (.ok T.toList) with
  | some (.exit e) => some (e.status, String.ofList e.out)
  | _ => none

private def readWith (T : List Char) : List Node :=
  match parseWithIncludes spliceEnv.W 9 "main" T ⟨[], []⟩ with
  | (.ok ast, _) => ast
  | _ => []

private def fileOk (T : List Char) : Bool :=
  match parseWithIncludes spliceEnv.W 9 "main" T ⟨[], []⟩ with
  | (.ok ast, _) => ast.all Node.placedTop && decide (sizeL ast ≤ 65535) &&
    (match compile spliceEnv.cfg ast with
    | .ok script => decide ((machine spliceEnv cliArgs script).host.syms.entries.length ≤ 65536)
    | _ => false)
  | _ => false

private theorem fileOk_main {T : List Char} (h : fileOk T = true) : ∃ script, MainFile spliceEnv cliArgs 9 "main" T (readWith T) script := by
  unfold fileOk at h
  unfold readWith
  split at h
  · rename_i ast c' hp
    simp only [Bool.and_eq_true, decide_eq_true_eq] at h
    obtain ⟨⟨h1, h2⟩, h3⟩ := h
    split at h3
    · rename_i script hc
      exact ⟨script, by rw [hp], hc, List.all_eq_true.1 h1, h2, of_decide_eq_true h3⟩
    · simp at h3
  · simp at h

private def usesLib : List Char := "include \"lib.ql\"\n@print(b)\nb".toList
private def pasted : List Char := libText ++ "\n@print(b)\nb".toList

private def whole : List Node :=
  [.decl z (.one ("b", z)) (.lit z (.int 2)), .builtin z ("print", z) [.ident z "b"], .ident z "b"]

private def isWhole : List Node → Bool
  | [.decl s (.one (x, s1)) (.lit s2 (.int i)), .builtin s3 (y, s4) [.ident s5 x'], .ident s6 x''] =>
    decide (s = z ∧ s1 = z ∧ s2 = z ∧ s3 = z ∧ s4 = z ∧ s5 = z ∧ s6 = z ∧ x = "b" ∧ x' = "b" ∧ x'' = "b" ∧ y = "print" ∧ i = 2)
  | _ => false

private theorem isWhole_eq {l : List Node} (h : isWhole l = true) : l = whole := by
  unfold isWhole at h
  split at h
  · obtain ⟨rfl, rfl, rfl, rfl, rfl, rfl, rfl, rfl, rfl, rfl, rfl, rfl⟩ := of_decide_eq_true h
    rfl
  · cases h

private theorem pasted_same : stripL (readWith pasted) = stripL (inPlaceL (readWith usesLib)) :=
  (isWhole_eq (by decide +kernel)).trans (isWhole_eq (by decide +kernel)).symm

/-- A file that uses another one, and the whole in one file: `C93_command` applies, and both print `2` and then the value 2. -/
example : (∃ script script', Spliced spliceEnv cliArgs 9 9 "main" "main" usesLib pasted (readWith usesLib) (readWith pasted) script script') ∧
    outOf (String.ofList usesLib) = some (0, "2 RETURNED: 2\n") ∧ outOf (String.ofList pasted) = some (0, "2 RETURNED: 2\n") := by
  obtain ⟨s, h⟩ := fileOk_main (T := usesLib) (by decide +kernel)
  obtain ⟨s', h'⟩ := fileOk_main (T := pasted) (by decide +kernel)
  exact ⟨⟨s, s', h, h', pasted_same⟩, by decide +kernel, by decide +kernel⟩

/-- The statements in place, not the text: a line break does not end a statement, and with the text in place of the include the brackets belong to the
last line of the other file. After the include they are an index into the include, which is rejected. -/
example : outOf "include \"a.ql\"\n[0]" = some (1, "") ∧ outOf "let a = [7]\na\n[0]" = some (0, "RETURNED: 7\n") := by
  decide +kernel

/-- Lines typed into a session (C32), and the same lines as one program. -/
example : ∃ σ', Entered (sessionHost demoSetup []) demoσ [sLine1, sLine2, sLine3] σ' ∧
    (evalProgram (sessionHost demoSetup []) 9 sLine4 σ').1 = .ok (.int 4) ∧
    (evalProgram (sessionHost demoSetup []) 9 ([sLine1, sLine2, sLine3].flatten ++ sLine4) demoσ).1 = .ok (.int 4) :=
  ⟨_, .line (k := 9) rfl rfl rfl (.line (k := 9) rfl rfl rfl (.line (k := 9) rfl rfl rfl .nil)), rfl, rfl⟩

end Quilt.Props
