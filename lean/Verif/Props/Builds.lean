import Verif.Props.Crash
import Verif.Vm.BuildsApi

/-!
# Builds with and without checks: C90

`cfg.chk` is set for builds with overflow checks and debug assertions (`cargo build`) and not for others (`cargo build --release`).
`E.release`, `cfg.release`, `H.release` are the same without them. They agree, unless the build with checks crashes.
-/

namespace Quilt.Props

open Lib Peg Cli

variable {D : Type} {name : String} {ast : List Node} {E : Cli.Env} {a : Cli.Args} {k : Nat} {src : List Char} {script : Script}

/-! ## The parts -/

/-- Operators, the way of indexing and the items of loops: the build with checks crashes, or both give the same value or error. -/
theorem C90_operators {C : Type} (cfg : Cfg) (lim : Limits) (ceq : C → C → Option Bool) (op : Op) (x y : Val C) (i : Nat) :
    (Val.binary cfg lim ceq op x y = .panic ∨ Val.binary cfg lim ceq op x y = Val.binary ⟨cfg.F, false⟩ lim ceq op x y) ∧
    (Val.unary cfg op x = .panic ∨ Val.unary cfg op x = Val.unary ⟨cfg.F, false⟩ op x) ∧
    (Val.indexGet cfg.chk x y = .panic ∨ Val.indexGet cfg.chk x y = Val.indexGet false x y) ∧
    (Val.iterItem cfg.chk x i = .panic ∨ Val.iterItem cfg.chk x i = Val.iterItem false x i) :=
  ⟨binary_strict .., unary_strict .., indexGet_strict .., iterItem_strict ..⟩

/-- The builtins of the standard library: the same names in both builds, and for all arguments, limits and states of the world the build with checks crashes, or
both give the same result and leave the same output. -/
theorem C90_library {C : Type} (L : Ops) (O : Outside) (chk : Bool) (cname : C → String) (lim : Limits) (d : Io) (x : String) (args : List (Val C)) :
    (∃ d', callIo L O chk cname lim d x args = some (.panic, d')) ∨ callIo L O chk cname lim d x args = callIo L O false cname lim d x args := by
  have : ∀ {l l' : List (String × BFn Io C)}, LibStrict l l' →
      (∃ d', ((l.lookup x).map fun f => f d args lim) = some (.panic, d')) ∨ ((l.lookup x).map fun f => f d args lim) = (l'.lookup x).map fun f => f d args lim := by
    intro l
    induction l with
    | nil => intro l' h; cases l' with | nil => exact .inr rfl | cons => exact h.elim
    | cons p l ih =>
      intro l' h
      cases l' with
      | nil => exact h.elim
      | cons p' l' =>
        obtain ⟨y, f⟩ := p
        obtain ⟨y', f'⟩ := p'
        obtain ⟨rfl, h1, h2⟩ := h
        simp only [List.lookup_cons]
        split
        · rcases h1 d args lim with h3 | h3
          · exact .inl ⟨(f d args lim).2, by simp only [Option.map_some, ← h3]⟩
          · exact .inr (by simp only [Option.map_some, h3])
        · exact ih h2
  exact this (stdio_strict L chk O cname)

/-- The compiler. -/
theorem C90_compile (cfg : Cfg) (ast : List Node) : compile cfg ast = .panic ∨ compile cfg ast = compile ⟨cfg.F, false⟩ ast := compile_strict cfg ast

/-- `build_script`, with any resolver of includes. -/
theorem C90_build {S : Type} (cfg : Cfg) (float : List Char → BitVec 64) (R : Nat → Resolver S) (k : Nat) (name : String) (src : List Char) (s : S) :
    buildScript cfg float R k name src s = .panic ∨ buildScript cfg float R k name src s = buildScript ⟨cfg.F, false⟩ float R k name src s := by
  unfold buildScript
  split
  · exact .inr rfl
  · exact .inr rfl
  · rename_i ast _ _ _
    rcases compile_strict cfg ast with h | h
    · rw [h]; exact .inl rfl
    · rw [h]; exact .inr rfl

/-- The machine, with any bytecode, from any state, with builtins of a host that agree in this way: it crashes with checks, or ends in the same way and in the same
state, or is still running in both. -/
theorem C90_machine (H : Host D) (B : Nat → Option (Builtin D VClos)) (hB : ∀ i, Builtin.Strict (H.builtins i) (B i)) (s : VM D) (clock : Nat → Bool) (fuel i n : Nat) :
    s.run H clock fuel i n = some .panic ∨ s.run H clock fuel i n = s.run { H with cfg := ⟨H.cfg.F, false⟩, builtins := B } clock fuel i n :=
  VM.run_strict hB clock fuel i n s

/-! ## The command and the session -/

/-- The command with all its flags: with checks it crashes, or both builds print the same, report the same and exit with the same status. -/
theorem C90_flags (plain : Char → Bool) (paint : Colour → List Char → List Char) (E : Cli.Env) (a : Cli.Args) (fl : Flags) (k fuel : Nat) (name : String)
    (file : Except (List Char) (List Char)) :
    mainWith plain paint E a fl k fuel name file = some .crash ∨
    mainWith plain paint E a fl k fuel name file = mainWith plain paint { E with cfg := ⟨E.cfg.F, false⟩ } a fl k fuel name file := by
  unfold mainWith
  split
  · exact .inr rfl
  · simp only
    split
    · exact .inr rfl
    · exact .inr rfl
    · rename_i ast c _
      rcases compile_strict E.cfg ast with h | h
      · rw [h]; exact .inl rfl
      · rw [h, show (⟨E.cfg.F, false⟩ : Cfg) = E.cfg.release from rfl]
        cases compile E.cfg.release ast with
        | panic => exact .inl rfl
        | err e sp => exact .inr rfl
        | ok script =>
          simp only
          rw [show before plain paint { E with cfg := E.cfg.release } fl c.sources script = before plain paint E fl c.sources script from rfl]
          split
          · exact .inl rfl
          · rcases (machine_strict E a script).run (expired E a) fuel with h1 | h1
            · rw [h1]; exact .inl rfl
            · rw [h1]; exact .inr rfl

/-- The command: with checks it crashes, or both builds print the same, report the same and exit with the same status. -/
theorem C90_command (E : Cli.Env) (a : Cli.Args) (k fuel : Nat) (name : String) (file : Except (List Char) (List Char)) :
    main E a k fuel name file = some .crash ∨ main E a k fuel name file = main { E with cfg := ⟨E.cfg.F, false⟩ } a k fuel name file := by
  unfold main
  split
  · exact .inr rfl
  · simp only
    split
    · exact .inr rfl
    · exact .inr rfl
    · rename_i ast c _
      rcases compile_strict E.cfg ast with h | h
      · rw [h]; exact .inl rfl
      · rw [h, show (⟨E.cfg.F, false⟩ : Cfg) = E.cfg.release from rfl]
        cases compile E.cfg.release ast with
        | panic => exact .inl rfl
        | err e sp => exact .inr rfl
        | ok script =>
          rcases (machine_strict E a script).run (expired E a) fuel with h1 | h1
          · left; simp only [h1]; rfl
          · right; simp only [h1]; rfl

/-- So an end of the build with checks is the end of the other, and a crash of the build without checks is one of the other. -/
theorem C90_ends (E : Cli.Env) (a : Cli.Args) (k fuel : Nat) (name : String) (file : Except (List Char) (List Char)) :
    (∀ e, main E a k fuel name file = some (.exit e) → main { E with cfg := ⟨E.cfg.F, false⟩ } a k fuel name file = some (.exit e)) ∧
    (main { E with cfg := ⟨E.cfg.F, false⟩ } a k fuel name file = some .crash → main E a k fuel name file = some .crash) := by
  rcases C90_command E a k fuel name file with h | h
  · exact ⟨fun e he => by rw [h] at he; simp at he, fun _ => h⟩
  · exact ⟨fun e he => by rw [← h]; exact he, fun he => by rw [h]; exact he⟩

/-- Programs without a part to blame for a crash, and without a `return` outside of functions, do the same in both builds. -/
theorem C90_same (h : MainFile E a k name src ast script) (hcmp : ∀ K, (cliRun E a K ast).1 ≠ .unspec true) (hn : ∀ n ∈ subsL ast, ¬ Crashes (cliHost E a) n)
    (hr : ∀ K v, (cliRun E a K ast).1 ≠ .ret v) (fuel : Nat) :
    main E a k fuel name (.ok src) = main { E with cfg := ⟨E.cfg.F, false⟩ } a k fuel name (.ok src) := by
  rcases C90_command E a k fuel name (.ok src) with h1 | h1
  · rcases C87_command h hcmp h1 with ⟨n, h2, h3⟩ | ⟨_, K, v, h2⟩
    · exact (hn n h2 h3).elim
    · exact (hr K v h2).elim
  · exact h1

/-- Expressions and statements that obviously crash in no build. -/
def _root_.Quilt.Node.alike : Node → Bool
  | .bin _ op a b =>
    match op with
    | .eq | .neq | .lt | .gt | .lte | .gte | .and | .or | .bitAnd | .bitOr | .bitXor => true
    | .join => (match a with | .lit _ (.str _) => true | _ => false) || (match b with | .lit _ (.str _) => true | _ => false)
    | _ => false
  | .un _ op _ => op != .neg
  | .index .. => false
  | .forIn _ _ it _ => (match it with | .array .. | .lit _ (.str _) | .lit _ (.arr _) => true | _ => false)
  | .forMulti .. => false
  | .decl _ (.many xs) _ => decide (xs.length ≤ 4)
  | .builtin _ x _ => !(crashers true).contains x.1
  | .ctx .. => false
  | _ => true

private theorem text_gives {D : Type} {S : SHost D} {n : Node} {v : SVal} (hn : (match n with | .lit _ (.str _) => true | _ => false) = true) (h : Gives S n v) :
    ∃ s, v = .str s := by
  obtain ⟨W, j, env, σ, σ', h⟩ := h
  split at hn
  · simp only [evalNode] at h
    cases h
    exact ⟨_, rfl⟩
  · cases hn

private theorem items_gives {D : Type} {S : SHost D} {n : Node} {s e : BitVec 32} (hn : (match n with | .array .. | .lit _ (.str _) | .lit _ (.arr _) => true | _ => false) = true) :
    ¬ Gives S n (.range s e) := by
  rintro ⟨W, j, env, σ, σ', h⟩
  split at hn
  · simp only [evalNode] at h
    obtain ⟨v, σ1, _, h⟩ := SM.bind_ok h
    unfold Val.mkArray at h
    generalize Val.pushAllV (Vecc.new S.lim.arrMax) v = r at h
    cases r <;> cases h
  · simp only [evalNode] at h
    cases h
  · simp only [evalNode] at h
    cases h
  · cases hn

/-- Programs that consist of such parts, and do not end with a `return` outside of functions, do the same in both builds. -/
theorem C90_alike (h : MainFile E a k name src ast script) (hcmp : ∀ K, (cliRun E a K ast).1 ≠ .unspec true) (hn : ∀ n ∈ subsL ast, n.alike = true)
    (hr : ∀ K v, (cliRun E a K ast).1 ≠ .ret v) (fuel : Nat) :
    main E a k fuel name (.ok src) = main { E with cfg := ⟨E.cfg.F, false⟩ } a k fuel name (.ok src) := by
  refine C90_same h hcmp (fun n hn' hc => ?_) hr fuel
  have h2 := hn n hn'
  have hp : ∀ {P : SVal → Prop} {n : Nat}, decide (n ≤ 4) = true → ¬ PartsCrash P n := fun h2 h3 => by have := of_decide_eq_true h2; have := h3.1; omega
  cases hc with
  | @binary _ op _ _ h3 =>
    cases h3 with
    | least h4 => rcases h4 with rfl | rfl <;> cases h2
    | channel h4 => subst h4; cases h2
    | «repeat» s k h4 => subst h4; cases h2
    | result h4 h5 h6 h7 =>
      cases op <;> first | (cases h2; done) | (cases h7; done)
    | shift h4 h5 => rcases h5 with rfl | rfl <;> cases h2
    | mix h4 h5 h6 h7 =>
      subst h5
      simp only [Node.alike, Bool.or_eq_true] at h2
      rcases h2 with h2 | h2
      · obtain ⟨s, h3⟩ := text_gives h2 h6; cases h3
      · obtain ⟨s, h3⟩ := text_gives h2 h7; cases h3
  | unary => cases h2
  | index => cases h2
  | forIn _ _ _ h4 => exact items_gives h2 h4
  | forMulti => cases h2
  | forParts => cases h2
  | declParts h4 => exact hp (by simpa only [Node.alike] using h2) h4
  | ctxParts => cases h2
  | builtin h4 =>
    have h5 := (C87_library E a).1 _ _ h4
    have h6 : ∀ x ∈ crashers E.cfg.chk, x ∈ crashers true := by
      cases E.cfg.chk
      · decide
      · exact fun _ h => h
    simp [Node.alike, h6 _ h5] at h2
  | context => cases h2
  | leave => cases h2

/-- What is left of a session and can be seen: its output, the state of the machine, the lines it has read. -/
def seen (r : Repl Io) : Io × VM Io × List (String × List Char) := (io r, r.vm.vm, r.cache)

/-- The interactive session: after any number of lines it has crashed with checks, or both builds have printed the same, reported the same and are in the same
state, or both are still busy with the same line. -/
theorem C90_session (E : Cli.Env) (a : Cli.Args) (clock : Nat → Nat → Bool) (k fuel n : Nat) :
    (∃ es, rounds E clock k fuel n (repl E a) = some (none, es)) ∨
    ((rounds E clock k fuel n (repl E a)).map fun p => (p.1.map seen, p.2)) =
      (rounds { E with cfg := ⟨E.cfg.F, false⟩ } clock k fuel n (repl { E with cfg := ⟨E.cfg.F, false⟩ } a)).map fun p => (p.1.map seen, p.2) := by
  rcases rounds_strict E clock k fuel n (repl_strict E a) with h | ⟨h, h'⟩ | ⟨q, q', es, h, h', hq⟩
  · exact .inl h
  · right
    rw [h, show rounds { E with cfg := ⟨E.cfg.F, false⟩ } clock k fuel n (repl { E with cfg := ⟨E.cfg.F, false⟩ } a) = none from h']
  · right
    rw [h, show rounds { E with cfg := ⟨E.cfg.F, false⟩ } clock k fuel n (repl { E with cfg := ⟨E.cfg.F, false⟩ } a) = some (some q', es) from h']
    simp only [Option.map_some, seen, io, hq.vm.vm, hq.cache]

/-! ## Examples -/

/-- A program with functions, closures, a loop, builtins and output. -/
private def alikeFile : List Char :=
  "fn pair(x) { (x, fn(y) { [\"<\" .. x, y .. \">\"] }) }\nlet a, f = pair(\"left\")\nfor w in [\"right\", \"up\"] { @print(f(w)) }\nif a == \"left\" { @len([1, 2, 3]) } else { none }".toList

private def alikeRun (T : List Char) : Bool :=
  match parseWithIncludes Check.env.W 1 "main" T ⟨[], []⟩ with
  | (.ok ast, _) => ast.all Node.placedTop && decide (sizeL ast ≤ 65535) &&
    (match compile Check.env.cfg ast with
    | .ok script => decide ((machine Check.env cliArgs script).host.syms.entries.length ≤ 65536)
    | _ => false) && (match (cliRun Check.env cliArgs 9 ast).1 with | .ok _ => true | _ => false) && tameL true ast && (subsL ast).all Node.alike
  | _ => false

private theorem alikeFile_runs : alikeRun alikeFile = true := by decide +kernel

/-- It meets the hypotheses of `C90_alike`, on a build with checks. -/
example : ∃ ast script, MainFile Check.env cliArgs 1 "main" alikeFile ast script ∧ (∀ K, (cliRun Check.env cliArgs K ast).1 ≠ .unspec true) ∧
    (∀ n ∈ subsL ast, n.alike = true) ∧ (∀ K v, (cliRun Check.env cliArgs K ast).1 ≠ .ret v) ∧ Check.env.cfg.chk = true := by
  have h := alikeFile_runs
  unfold alikeRun at h
  split at h
  · rename_i ast c' hp
    simp only [Bool.and_eq_true, decide_eq_true_eq] at h
    obtain ⟨⟨⟨⟨⟨h1, h2⟩, h3⟩, h4⟩, h5⟩, h6⟩ := h
    split at h3
    · rename_i script hc
      have hm : MainFile Check.env cliArgs 1 "main" alikeFile ast script := ⟨by rw [hp], hc, List.all_eq_true.1 h1, h2, of_decide_eq_true h3⟩
      refine ⟨ast, script, hm, fun K => C80_never hm.runs (t := true) h5 K, List.all_eq_true.1 h6, fun K v hv => ?_, rfl⟩
      split at h4
      · rename_i v' hv'
        have := C20_outcome_unique (cliHost Check.env cliArgs) ast (startSt ⟨[], 0⟩) (k := K) (k' := 9)
          (fun h7 => by rw [show (evalProgram _ K ast _).1 = _ from hv] at h7; cases h7) (fun h7 => by rw [show (evalProgram _ 9 ast _).1 = _ from hv'] at h7; cases h7)
        have h7 : (cliRun Check.env cliArgs K ast).1 = (cliRun Check.env cliArgs 9 ast).1 := congrArg Prod.fst this
        rw [hv, hv'] at h7; cases h7
      · cases h4
    · simp at h3
  · simp at h

/-- What the command prints, and whether it crashes, with checks and without. -/
private def both (T : List Char) : List (Option (List Char)) :=
  [true, false].map fun chk => match main { Check.env with cfg := ⟨Check.env.cfg.F, chk⟩ } { result := true } 1 400 "main" (.ok T) with
    | some (.exit e) => some e.out
    | _ => none

/-- The program above prints the same in both. Where the build with checks crashes the other has a value. -/
example : both alikeFile = [some "[<left, right>] [<left, up>] RETURNED: 3\n".toList, some "[<left, right>] [<left, up>] RETURNED: 3\n".toList] ∧
    both "9223372036854775807 + 1".toList = [none, some "RETURNED: -9223372036854775808\n".toList] ∧
    both "1 << 65".toList = [none, some "RETURNED: 2\n".toList] ∧
    both "[1, 2, 3][-1]".toList = [none, some "RETURNED: 3\n".toList] ∧
    both "@print(1)\n(-9223372036854775807 - 1) / (-1)".toList = [none, none] := by decide +kernel

end Quilt.Props
