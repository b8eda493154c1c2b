import Verif.CliSem
import Verif.Check.Env

/-!
# The command line program: C64

From the text of the main file to exit status and output, against the direct semantics (`cliRun`, the semantics of
`Verif/Sem/Source.lean` with the whole standard library). The output is the standard output up to the drawn report of
an error.
-/

namespace Quilt.Props

open Lib Peg Cli

variable {E : Cli.Env} {a : Cli.Args} {k : Nat} {name : String} {src : List Char} {ast : List Node} {script : Script}

private theorem finish_err (c : Sources) (e : Err) (sp : Span) (s : VM Io) :
    ∃ b, finish E a c (.err e sp s) = some (.exit ⟨1, s.data.out ++ "Traceback (most recent call last):\n".toList ++ b, some (.error e sp)⟩) := by
  obtain ⟨b, hb⟩ := trace_ok c (Machine.traceBack s)
  refine ⟨b, ?_⟩
  simp only [finish, hb, List.append_assoc]

/-- How the program ends, whatever the arguments are and whatever happens outside: status 0 and nothing reported, or
status 1 and a report. -/
theorem C64_status {fuel : Nat} {file : Except (List Char) (List Char)} {e : End} (h : main E a k fuel name file = some (.exit e)) :
    e.status = 0 ∧ e.shown = none ∨ e.status = 1 ∧ e.shown ≠ none := by
  unfold Cli.main at h
  split at h
  · cases h; simp
  · split at h
    · simp at h
    · cases h; simp
    · split at h
      · simp at h
      · cases h; simp
      · generalize (machine E a _).run (expired E a) fuel = r at h
        cases r with
        | none => simp at h
        | some r =>
          simp only [Option.bind_some] at h
          unfold finish at h
          split at h
          · simp at h
          · simp at h
          · cases h; simp
          · split at h
            · cases h; simp
            · simp at h

/-- A file that cannot be read, parsed or compiled: the first such problem is reported and nothing else is printed. -/
theorem C64_rejected (fuel : Nat) :
    (∀ e, main E a k fuel name (.error e) = some (.exit ⟨1, [], some (.file e)⟩)) ∧
    (∀ e, (parseWithIncludes E.W k name src ⟨[], []⟩).1 = .err e → main E a k fuel name (.ok src) = some (.exit ⟨1, [], some (.reading e)⟩)) ∧
    (∀ e sp, (parseWithIncludes E.W k name src ⟨[], []⟩).1 = .ok ast → compile E.cfg ast = .err e sp →
      main E a k fuel name (.ok src) = some (.exit ⟨1, [], some (.error e sp)⟩)) := by
  refine ⟨fun e => rfl, fun e h => ?_, fun e sp h hc => ?_⟩
  · simp only [Cli.main]
    generalize parseWithIncludes E.W k name src ⟨[], []⟩ = r at h ⊢
    obtain ⟨o, c⟩ := r
    cases h
    rfl
  · simp only [Cli.main]
    generalize parseWithIncludes E.W k name src ⟨[], []⟩ = r at h ⊢
    obtain ⟨o, c⟩ := r
    cases h
    simp only [hc]

/-- What is printed at the end: the value, if it was asked for and is not `none`. -/
def Tail (E : Cli.Env) (a : Cli.Args) (v : SVal) (t : List Char) : Prop :=
  (a.result = true → v ≠ .none → t = "RETURNED: ".toList ++ v.text E.L.F SClos.name ++ ['\n']) ∧ (a.result = false ∨ v = .none → t = [])

private theorem tail_returned {v : SVal} {w : VVal} (h : SameVal v w) : Tail E a v (returned a.result (w.text E.L.F vname) (isNone w)) := by
  rw [same_text h, same_none h]
  unfold returned
  refine ⟨fun h1 h2 => ?_, fun h1 => ?_⟩
  · have : isNone v = false := by cases v <;> simp [isNone] at h2 ⊢
    simp [h1, this]
  · rcases h1 with h1 | rfl
    · simp [h1]
    · simp [isNone]

/-- Status 0, whatever the limits: the program has the value `v`; printed is what the semantics prescribes, then the value
if it was asked for and is not `none`. -/
theorem C64_success (h : MainFile E a k name src ast script) (hcmp : ∀ K, (cliRun E a K ast).1 ≠ .unspec true) {fuel : Nat} {out : List Char} {shown : Option Shown}
    (hm : main E a k fuel name (.ok src) = some (.exit ⟨0, out, shown⟩)) :
    ∃ K v σ' t, (cliRun E a K ast = (.ok v, σ') ∨ cliRun E a K ast = (.ret v, σ')) ∧ out = σ'.data.out ++ t ∧ Tail E a v t := by
  rw [h.main] at hm
  cases hr : (machine E a script).run (expired E a) fuel with
  | none => rw [hr] at hm; simp at hm
  | some res =>
    rw [hr, Option.bind_some] at hm
    have err : ∀ e sp s, res ≠ .err e sp s := by
      rintro e sp s rfl
      obtain ⟨b, hb⟩ := finish_err (E := E) (a := a) (parseWithIncludes E.W k name src ⟨[], []⟩).2.sources e sp s
      rw [hb] at hm
      simp at hm
    rcases h.cases hcmp hr with ⟨_, sp, s, h1⟩ | ⟨sp, s, h1⟩ | ⟨K, hag⟩
    · exact absurd h1 (err _ _ _)
    · exact absurd h1 (err _ _ _)
    · cases res with
      | next s => exact hag.elim
      | panic => simp [finish] at hm
      | err e sp s => exact absurd rfl (err e sp s)
      | done w s =>
        obtain ⟨v, h1, h2, h3, _⟩ := hag
        simp only [finish, Option.some.injEq, Outcome.exit.injEq, End.mk.injEq, true_and] at hm
        exact ⟨K, v, (cliRun E a K ast).2, _, h1.imp (Prod.ext · rfl) (Prod.ext · rfl), by rw [← hm.1, h3], tail_returned h2⟩

/-- Status 1 once the program is compiled, whatever the limits: the time limit asked for or a stack limit was reached, or the
error is the prescribed one, at the prescribed place; then what is printed before the traceback is prescribed, too. -/
theorem C64_failure (h : MainFile E a k name src ast script) (hcmp : ∀ K, (cliRun E a K ast).1 ≠ .unspec true) {fuel : Nat} {out : List Char} {shown : Option Shown}
    (hm : main E a k fuel name (.ok src) = some (.exit ⟨1, out, shown⟩)) :
    ∃ e sp, shown = some (.error e sp) ∧
      (e = .runtimeLimit ∧ (∃ ms t, a.maxRuntime = some ms ∧ ms * 1000000 < E.elapsed t) ∨ e = .overflow .stackOverflow ∨
       ∃ K sp' σ' b, cliRun E a K ast = (.err e sp', σ') ∧ (∀ x, sp' = some x → sp = x) ∧
         out = σ'.data.out ++ "Traceback (most recent call last):\n".toList ++ b) := by
  rw [h.main] at hm
  cases hr : (machine E a script).run (expired E a) fuel with
  | none => rw [hr] at hm; simp at hm
  | some res =>
    rw [hr, Option.bind_some] at hm
    cases res with
    | next s => simp [finish] at hm
    | panic => simp [finish] at hm
    | done w s => simp [finish] at hm
    | err e sp s =>
      obtain ⟨b, hb⟩ := finish_err (E := E) (a := a) (parseWithIncludes E.W k name src ⟨[], []⟩).2.sources e sp s
      rw [hb] at hm
      simp only [Option.some.injEq, Outcome.exit.injEq, End.mk.injEq, true_and] at hm
      refine ⟨e, sp, hm.2.symm, ?_⟩
      rcases h.cases hcmp hr with ⟨ha, sp', s', h1⟩ | ⟨sp', s', h1⟩ | ⟨K, sp', h1, h2, h3, _⟩
      · cases h1; exact .inl ⟨rfl, ha⟩
      · cases h1; exact .inr (.inl rfl)
      · exact .inr (.inr ⟨K, sp', (cliRun E a K ast).2, b, Prod.ext h1 rfl, h2, by rw [← hm.1, h3]⟩)

/-- The crash of the program is always prescribed: a panic, or with debug assertions a `return` outside of functions. -/
theorem C64_crash (h : MainFile E a k name src ast script) (hcmp : ∀ K, (cliRun E a K ast).1 ≠ .unspec true) {fuel : Nat}
    (hm : main E a k fuel name (.ok src) = some .crash) :
    ∃ K, (cliRun E a K ast).1 = .panic ∨ E.cfg.chk = true ∧ ∃ v, (cliRun E a K ast).1 = .ret v := by
  rw [h.main] at hm
  cases hr : (machine E a script).run (expired E a) fuel with
  | none => rw [hr] at hm; simp at hm
  | some res =>
    rw [hr, Option.bind_some] at hm
    cases res with
    | next s => simp [finish] at hm
    | done w s => simp [finish] at hm
    | err e sp s =>
      obtain ⟨b, hb⟩ := finish_err (E := E) (a := a) (parseWithIncludes E.W k name src ⟨[], []⟩).2.sources e sp s
      rw [hb] at hm
      simp at hm
    | panic =>
      rcases h.cases hcmp hr with ⟨_, _, _, h1⟩ | ⟨_, _, h1⟩ | ⟨K, h1⟩
      · cases h1
      · cases h1
      · exact ⟨K, h1.imp id fun h2 => ⟨by have := h2.1; rwa [cli_machine_cfg] at this, h2.2⟩⟩

/-- Programs with a value: given enough of the two stacks and no time limit, the program ends with status 0 and prints what is
prescribed. -/
theorem C64_value (h : MainFile E a k name src ast script) (ha : a.maxRuntime = none) {K : Nat} {v : SVal} {σ' : SSt Io} (he : cliRun E a K ast = (.ok v, σ')) :
    ∃ N C, ∀ n c, N ≤ n → C ≤ c → ∃ fuel t, main E (a.withStacks n c) k fuel name (.ok src) = some (.exit ⟨0, σ'.data.out ++ t, none⟩) ∧ Tail E a v t := by
  obtain ⟨N, C, hN⟩ := C20_value h.runs he
  refine ⟨N, C, fun n c hn hc => ?_⟩
  obtain ⟨fuel, w, s', h1, h2, h3, _⟩ := hN n c hn hc (expired E (a.withStacks n c)) (expired_never ha)
  refine ⟨fuel, returned a.result (w.text E.L.F vname) (isNone w), ?_, tail_returned h2⟩
  rw [(h.stacks n c).main, cli_machine_stacks, h1, Option.bind_some]
  simp only [finish, h3]
  rfl

/-- Programs with an error: given enough of the two stacks and no time limit, the program ends with status 1, prints what is prescribed and
the traceback, and reports the error. -/
theorem C64_error (h : MainFile E a k name src ast script) (ha : a.maxRuntime = none) {K : Nat} {e : Err} {sp : Option Span} {σ' : SSt Io}
    (he : cliRun E a K ast = (.err e sp, σ')) :
    ∃ N C, ∀ n c, N ≤ n → C ≤ c → ∃ fuel b sp', (∀ x, sp = some x → sp' = x) ∧ main E (a.withStacks n c) k fuel name (.ok src) =
      some (.exit ⟨1, σ'.data.out ++ "Traceback (most recent call last):\n".toList ++ b, some (.error e sp')⟩) := by
  have hne : e ≠ .overflow .stackOverflow := by
    rintro rfl
    exact cli_no_overflow E a K ast sp (congrArg Prod.fst he)
  obtain ⟨N, C, hN⟩ := C21_error h.runs he hne
  refine ⟨N, C, fun n c hn hc => ?_⟩
  obtain ⟨fuel, sp', s', h1, h2, h3, _⟩ := hN n c hn hc (expired E (a.withStacks n c)) (expired_never ha)
  obtain ⟨b, hb⟩ := finish_err (E := E) (a := a.withStacks n c) (parseWithIncludes E.W k name src ⟨[], []⟩).2.sources e sp' s'
  refine ⟨fuel, b, sp', h2, ?_⟩
  rw [(h.stacks n c).main, cli_machine_stacks, h1, Option.bind_some, hb, h3]

/-- Programs that run forever: the command never ends, unless a limit ends it, and then with status 1. -/
theorem C64_diverges (h : MainFile E a k name src ast script) (hd : ∀ K, (cliRun E a K ast).1 = .timeout) (fuel : Nat) :
    main E a k fuel name (.ok src) = none ∨
    ∃ out e sp, main E a k fuel name (.ok src) = some (.exit ⟨1, out, some (.error e sp)⟩) ∧
      (e = .runtimeLimit ∧ (∃ ms t, a.maxRuntime = some ms ∧ ms * 1000000 < E.elapsed t) ∨ e = .overflow .stackOverflow) := by
  have hcmp : ∀ K, (cliRun E a K ast).1 ≠ .unspec true := fun K => by simp [hd K]
  cases hm : main E a k fuel name (.ok src) with
  | none => exact .inl rfl
  | some o =>
    cases o with
    | crash =>
      obtain ⟨K, h1 | ⟨_, v, h1⟩⟩ := C64_crash h hcmp hm <;> rw [hd K] at h1 <;> simp at h1
    | exit x =>
      obtain ⟨status, out, shown⟩ := x
      rcases C64_status hm with ⟨h1, h2⟩ | ⟨h1, h2⟩
      · simp only at h1; subst h1
        obtain ⟨K, v, σ', t, h3 | h3, _⟩ := C64_success h hcmp hm <;> have h4 := hd K <;> rw [h3] at h4 <;> simp at h4
      · simp only at h1; subst h1
        obtain ⟨e, sp, rfl, h3 | h3 | ⟨K, _, _, _, h3, _⟩⟩ := C64_failure h hcmp hm
        · exact .inr ⟨out, e, sp, rfl, .inl h3⟩
        · exact .inr ⟨out, e, sp, rfl, .inr h3⟩
        · have h4 := hd K; rw [h3] at h4; simp at h4

/-- A `return` outside of functions ends the program in the same way (in builds without debug assertions). -/
theorem C64_return (h : MainFile E a k name src ast script) (ha : a.maxRuntime = none) (hchk : E.cfg.chk = false) {K : Nat} {v : SVal} {σ' : SSt Io}
    (he : cliRun E a K ast = (.ret v, σ')) :
    ∃ N C, ∀ n c, N ≤ n → C ≤ c → ∃ fuel t, main E (a.withStacks n c) k fuel name (.ok src) = some (.exit ⟨0, σ'.data.out ++ t, none⟩) ∧ Tail E a v t := by
  obtain ⟨N, C, hN⟩ := C20_return h.runs (by rw [cli_machine_cfg]; exact hchk) he
  refine ⟨N, C, fun n c hn hc => ?_⟩
  obtain ⟨fuel, w, s', h1, h2, h3, _⟩ := hN n c hn hc (expired E (a.withStacks n c)) (expired_never ha)
  refine ⟨fuel, returned a.result (w.text E.L.F vname) (isNone w), ?_, tail_returned h2⟩
  rw [(h.stacks n c).main, cli_machine_stacks, h1, Option.bind_some]
  simp only [finish, h3]
  rfl

/-- Where a panic is prescribed, the program crashes given enough of the two stacks and no time limit. -/
theorem C64_panic (h : MainFile E a k name src ast script) (ha : a.maxRuntime = none) {K : Nat} {σ' : SSt Io} (he : cliRun E a K ast = (.panic, σ')) :
    ∃ N C, ∀ n c, N ≤ n → C ≤ c → ∃ fuel, main E (a.withStacks n c) k fuel name (.ok src) = some .crash := by
  obtain ⟨N, C, hN⟩ := C21_panic h.runs he
  refine ⟨N, C, fun n c hn hc => ?_⟩
  obtain ⟨fuel, h1⟩ := hN n c hn hc (expired E (a.withStacks n c)) (expired_never ha)
  exact ⟨fuel, by rw [(h.stacks n c).main, cli_machine_stacks, h1, Option.bind_some]; rfl⟩

/-! ## Concrete files -/

private def cliFile : List Char := "fn f(x) { @print(x)\n x * x }\nlet s = f(3) + f(4)\n@println([s, \"a\"])\ns".toList

def cliArgs : Cli.Args := { result := true }

def checkFile (T : List Char) (good : Out SVal × SSt Io → Bool) : Bool :=
  match parseWithIncludes Check.env.W 1 "main" T ⟨[], []⟩ with
  | (.ok ast, _) => ast.all Node.placedTop && decide (sizeL ast ≤ 65535) &&
    (match compile Check.env.cfg ast with
    | .ok script => decide ((machine Check.env cliArgs script).host.syms.entries.length ≤ 65536)
    | _ => false) && good (cliRun Check.env cliArgs 9 ast)
  | _ => false

theorem checkFile_main {T : List Char} {good : Out SVal × SSt Io → Bool} (h : checkFile T good = true) :
    ∃ ast script, MainFile Check.env cliArgs 1 "main" T ast script ∧ good (cliRun Check.env cliArgs 9 ast) = true := by
  unfold checkFile at h
  split at h
  · rename_i ast c' hp
    simp only [Bool.and_eq_true, decide_eq_true_eq] at h
    obtain ⟨⟨⟨h1, h2⟩, h3⟩, h4⟩ := h
    split at h3
    · rename_i script hc
      exact ⟨ast, script, ⟨by rw [hp], hc, List.all_eq_true.1 h1, h2, of_decide_eq_true h3⟩, h4⟩
    · simp at h3
  · simp at h

private def good25 : Out SVal × SSt Io → Bool
  | (.ok (.int i), σ) => i == 25 && σ.data.out == "3 4 [25, a] \n".toList
  | _ => false

private def goodIndex : Out SVal × SSt Io → Bool
  | (.err (.index i) (some sp), σ) => i == 3 && sp == ⟨12, 22, 0⟩ && σ.data.out == "x ".toList
  | _ => false

private theorem good25_spec {r : Out SVal × SSt Io} (h : good25 r = true) : ∃ σ', r = (.ok (.int 25), σ') ∧ σ'.data.out = "3 4 [25, a] \n".toList := by
  unfold good25 at h
  split at h
  · simp only [Bool.and_eq_true, beq_iff_eq] at h
    obtain ⟨rfl, h2⟩ := h
    exact ⟨_, rfl, h2⟩
  · simp at h

/-- The file above prints `3 4 [25, a]` and then its value. -/
example : ∃ ast script σ', MainFile Check.env cliArgs 1 "main" cliFile ast script ∧ cliRun Check.env cliArgs 9 ast = (.ok (.int 25), σ') ∧
    σ'.data.out = "3 4 [25, a] \n".toList := by
  obtain ⟨ast, script, h1, h2⟩ := checkFile_main (T := cliFile) (good := good25) (by decide +kernel)
  obtain ⟨σ', h3, h4⟩ := good25_spec h2
  exact ⟨ast, script, σ', h1, h3, h4⟩

private def outOf (a : Cli.Args) (T : String) : Option (Nat × String) :=
  match main Check.env a 1 1000 "main" (.ok T.toList) with
  | some (.exit e) => some (e.status, String.ofList e.out)
  | _ => none

example : outOf cliArgs (String.ofList cliFile) = some (0, "3 4 [25, a] \nRETURNED: 25\n") := by decide +kernel

/-- A failing file: the error is reported at `[1,2,3][3]`, after what was printed before. -/
example : (∃ ast script, MainFile Check.env cliArgs 1 "main" "@print(\"x\")\n[1,2,3][3]".toList ast script ∧ goodIndex (cliRun Check.env cliArgs 9 ast) = true) ∧
    outOf {} "@print(\"x\")\n[1,2,3][3]" =
      some (1, "x Traceback (most recent call last):\n   File \"main\", line 1, in @__main__\n      [1,2,3][3]\n") := by
  exact ⟨checkFile_main (by decide +kernel), by decide +kernel⟩

/-- A file that is not read as a program: nothing is run. -/
example : outOf {} "@print(\"x\")\nwhile true { " = some (1, "") := by decide +kernel

end Quilt.Props
