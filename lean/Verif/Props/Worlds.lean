import Verif.Props.Blame
import Verif.Props.Io
import Verif.Sem.Twins

/-!
# Programs that do not ask the outside: C91

`Twins` (`Verif/Sem/Twins.lean`): two machines prepared for the same program that differ in the functions registered under some names. If the program does not
call these, then both do the same. So the command does the same with all inputs, files, clocks and random numbers for programs that do not ask for them.
-/

namespace Quilt.Props

open Lib Peg Cli

variable {D : Type} {W : World} {M : Machine.Setup D} {data : D} {name : String} {T : List Char} {ast : List Node} {S : SHost D} {σ : SSt D} {m m' : Machine D}

/-- The builtin or context manager that an expression or statement calls. -/
def _root_.Quilt.Node.calls : Node → Option String
  | .builtin _ x _ | .ctx _ x _ _ _ => some x.1
  | _ => none

/-- Builtins raise no stack overflows and no errors about names. -/
def Modest (S : SHost D) : Prop := ∀ x b, S.builtins x = some b → BuiltinIn (fun e => e ≠ .overflow .stackOverflow ∧ ∀ y, e ≠ .name y) S.lim b

/-- The machine, with any limits and clock: a program that calls none of the builtins that differ ends in the same way and in the same state with both, or is still
running. -/
theorem C91_machine {A : String → Prop} {script : Script} (hp : ∃ k c c', parseWithIncludes W k name T c = (.ok ast, c')) (hc : compile M.cfg ast = .ok script)
    (ht : Twins A M data script S σ m m') (hpl : ∀ n ∈ ast, n.placedTop = true) (hsz : sizeL ast ≤ 65535) (hn : m.host.syms.entries.length ≤ 65536) (hQ : Modest S)
    (hcmp : ∀ K, (evalProgram S K ast σ).1 ≠ .unspec true) (hA : ∀ n ∈ subsL ast, ∀ x, n.calls = some x → ¬ A x) (n c : Nat) (clock : Nat → Bool) (fuel : Nat) :
    (m.withLimits n c).run clock fuel = (m'.withLimits n c).run clock fuel := by
  by_cases hy : ∃ y, A y
  · obtain ⟨y, hy⟩ := hy
    obtain ⟨S', mp, h1, h2, h3, h4, h5⟩ := ht.spoil (.name (.undefinedBuiltin y))
    have hs : mp.host.syms = m.host.syms := by rw [h2.host]
    have hR : RunsText W M data name T ast S' σ mp := ⟨hp, ⟨script, hc, h1⟩, hpl, hsz, by rw [hs]; exact hn⟩
    have hcmp' : ∀ K, (evalProgram S' K ast σ).1 ≠ .unspec true := by
      intro K h
      have hB : S'.Spoilt (.name (.undefinedBuiltin y)) S.builtins := fun x => (h5 x).imp_left (·.2)
      rcases evalProgram_spoilt hB K ast σ with ⟨sp, h'⟩ | h'
      · rw [h] at h'; cases h'
      · rw [← h4] at h'; rw [h'] at h; exact hcmp K h
    have ans : ∀ x args e, Answers S' x args (.err e) → A x ∧ e = .name (.undefinedBuiltin y) ∨ e ≠ .overflow .stackOverflow ∧ ∀ y, e ≠ .name y := by
      rintro x args e ⟨f, d, vs, h6, _, h7⟩
      rcases h5 x with ⟨h8, h9⟩ | h9
      · left
        rcases h6 with h6 | ⟨g, h6⟩
        · rw [h6] at h9; cases h9; cases h7; exact ⟨h8, rfl⟩
        · rw [h6] at h9; cases h9
      · right
        rw [show S'.lim = S.lim by rw [h4]] at h7
        rcases h6 with h6 | ⟨g, h6⟩
        · exact hQ x _ (h9.symm.trans h6) d vs e h7
        · exact (hQ x _ (h9.symm.trans h6)).1 d vs e h7
    have lea : ∀ e, Leaves S' (.err e) → e ≠ .overflow .stackOverflow ∧ ∀ y, e ≠ .name y := by
      rintro e ⟨x, f, g, d, h6, h7⟩
      rcases h5 x with ⟨_, h9⟩ | h9
      · rw [h6] at h9; cases h9
      · exact (hQ x _ (h9.symm.trans h6)).2 d e h7
    have hH : Honest S' := by
      refine ⟨fun x args h => ?_, fun h => (lea _ h).1 rfl⟩
      rcases ans x args _ h with ⟨_, h⟩ | h
      · cases h
      · exact h.1 rfl
    have hne : ∀ sp s, (mp.withLimits n c).run clock fuel ≠ some (.err (.name (.undefinedBuiltin y)) sp s) := by
      intro sp s hr
      rcases C85_machine hR hH hcmp' n c clock fuel hr with h | h | ⟨b, hb, sp', h, _⟩
      · cases h
      · cases h
      · rcases h with h | h
        · cases h with
          | binary h => cases h
          | index h => cases h
          | forParts h => cases h
          | declParts h => cases h
          | ctxParts h => cases h
          | builtin h =>
            rcases ans _ _ _ h with h | h
            · exact hA _ hb _ rfl h.1
            · exact h.2 _ rfl
          | context h =>
            rcases ans _ _ _ h with h | h
            · exact hA _ hb _ rfl h.1
            · exact h.2 _ rfl
          | leave h => exact (lea _ h).2 _ rfl
        · cases h with
          | builtin => exact hA _ hb _ rfl hy
          | context => exact hA _ hb _ rfl hy
    have lim : ∀ {m : Machine D}, mp.Spoilt (.name (.undefinedBuiltin y)) m → (mp.withLimits n c).Spoilt (.name (.undefinedBuiltin y)) (m.withLimits n c) := by
      intro m h
      obtain ⟨k1, k2⟩ := h
      generalize m.host.builtins = B at k1 k2
      subst k1
      exact ⟨rfl, k2⟩
    rcases (lim h2).run clock fuel with ⟨sp, s, h6⟩ | h6
    · exact (hne sp s h6).elim
    · rcases (lim h3).run clock fuel with ⟨sp, s, h7⟩ | h7
      · exact (hne sp s h7).elim
      · rw [← h6, ← h7]
  · have : m' = m := by
      clear hp hc hn hQ hcmp hA
      induction ht with
      | new => rfl
      | builtin x _ _ ih => rw [ih]
      | other x h => exact (hy ⟨x, h⟩).elim
      | global x _ _ ih => rw [ih]
      | external x _ _ h1 h2 ih => rw [ih, h1] at h2; cases h2; rfl
    rw [this]

/-! ## The command -/

/-- The builtins that ask for random numbers, the time, input or files. -/
def asking : List String :=
  ["random", "randbool", "randint", "randfloat", "randchoice", "random_color", "random_pastel_color", "random_rainbow_color", "now", "date", "input", "readfile"]

/-- Two libraries with the same names, where functions with the names `A` may differ. -/
def LibTwin {C : Type} (A : String → Prop) : List (String × BFn D C) → List (String × BFn D C) → Prop
  | [], [] => True
  | (x, f) :: l, (y, g) :: l' => x = y ∧ (A x ∨ f = g) ∧ LibTwin A l l'
  | _, _ => False

theorem LibTwin.rfl {C : Type} {A : String → Prop} : ∀ l : List (String × BFn D C), LibTwin A l l
  | [] => trivial
  | (_, _) :: l => ⟨Eq.refl _, .inr (Eq.refl _), LibTwin.rfl l⟩

theorem LibTwin.append {C : Type} {A : String → Prop} : ∀ {a a' b b' : List (String × BFn D C)}, LibTwin A a a' → LibTwin A b b' → LibTwin A (a ++ b) (a' ++ b')
  | [], [], _, _, _, h => h
  | (_, _) :: _, (_, _) :: _, _, _, h, h' => ⟨h.1, h.2.1, LibTwin.append h.2.2 h'⟩
  | [], _ :: _, _, _, h, _ => h.elim
  | _ :: _, [], _, _, h, _ => h.elim

theorem twins_lib {A : String → Prop} {script : Script} {l : List (String × BFn D SClos)} {l' : List (String × BFn D VClos)} (h : LibRel M.opts.lim l l') :
    ∀ {l'' : List (String × BFn D VClos)}, LibTwin A l' l'' → ∀ {S : SHost D} {m m' : Machine D}, Twins A M data script S σ m m' →
    Twins A M data script { S with builtins := withLib l S.builtins } σ (m.addBuiltins (l'.map fun p => (p.1, .fn p.2))) (m'.addBuiltins (l''.map fun p => (p.1, .fn p.2))) := by
  induction h with
  | nil =>
    intro l'' h S m m' ht
    cases l'' with
    | nil => exact ht
    | cons => exact h.elim
  | @cons x f f' l l' hb _ ih =>
    intro l'' h S m m' ht
    cases l'' with
    | nil => exact h.elim
    | cons p l'' =>
      obtain ⟨y, g⟩ := p
      obtain ⟨rfl, h1, h2⟩ := h
      rw [List.map_cons, List.map_cons, addBuiltins_cons, addBuiltins_cons]
      rcases h1 with h1 | h1
      · exact ih h2 (Twins.other x h1 ht hb)
      · subst h1; exact ih h2 (Twins.builtin (b := .fn f) (b' := .fn f') x ht hb)

/-- Two worlds. -/
private def here : Outside :=
  { Check.env.O with line := fun _ => some "a".toList, file := fun _ _ => .ok "a".toList, rand := fun _ => 0, clock := fun _ => some 0, between := fun r _ _ => r, secs := fun t => .ofNat 64 t }
private def there : Outside :=
  { here with line := fun _ => some "bb".toList, file := fun _ _ => .error [], rand := fun _ => 9223372036854775809, clock := fun _ => none }

private def rest : Ieee.Rest := ⟨fun a _ => a, fun a _ => a, fun _ a => a, fun a _ => a, fun _ => 0, fun _ => 0, fun c => [c], id, fun _ => 0⟩

private def pick : Option (Res (Val String) × Io) → Nat
  | some (.ok (.int i), _) => i.toNat
  | some (.ok (.float i), _) => i.toNat
  | some (.ok (.bool b), _) => b.toNat
  | some (.ok (.str s), _) => s.length
  | some (.ok (.color r g b _), _) => r.toNat + g.toNat + b.toNat
  | _ => 1000

private theorem stdio_twin {C : Type} (L : Ops) (cname : C → String) {O O' : Outside} (hO : O'.fnEq = O.fnEq) (chk : Bool) : LibTwin (· ∈ asking) (stdioLib L cname O chk) (stdioLib L cname O' chk) := by
  have in' : ∀ {x : String}, asking.contains x = true → x ∈ asking := fun h => by simpa using h
  have h1 : LibTwin (· ∈ asking) (randLib L O : List (String × BFn Io C)) (randLib L O') :=
    ⟨rfl, .inl (in' rfl), rfl, .inl (in' rfl), rfl, .inl (in' rfl), rfl, .inl (in' rfl), rfl, .inl (in' rfl), trivial⟩
  have h2 : LibTwin (· ∈ asking) (randColorLib L O : List (String × BFn Io C)) (randColorLib L O') := ⟨rfl, .inl (in' rfl), rfl, .inl (in' rfl), rfl, .inl (in' rfl), trivial⟩
  have h3 : LibTwin (· ∈ asking) (timeLib L O : List (String × BFn Io C)) (timeLib L O') := ⟨rfl, .inl (in' rfl), rfl, .inl (in' rfl), trivial⟩
  have h4 : LibTwin (· ∈ asking) (ioLib L cname O) (ioLib L cname O') :=
    ⟨rfl, .inr rfl, rfl, .inr rfl, rfl, .inr rfl, rfl, .inl (in' rfl), rfl, .inl (in' rfl), trivial⟩
  have h5 : LibTwin (· ∈ asking) (compareLib L cname O) (compareLib L cname O') := by
    rw [show compareLib L cname O = compareLib L cname O' by simp only [compareLib, assertEq, assertNe, same, hO]]
    exact .rfl _
  exact ((((LibTwin.rfl (stdLib L chk cname)).append h1).append h2).append h3).append h4 |>.append h5

/-- In the library, exactly these builtins ask: the others have the same result and effect in all worlds, for all arguments; these differ for some. -/
theorem C91_library :
    (∀ {C : Type} (L : Ops) (O O' : Outside) (chk : Bool) (cname : C → String) (lim : Limits) (d : Io) (x : String) (args : List (Val C)), O'.fnEq = O.fnEq → x ∉ asking →
      callIo L O chk cname lim d x args = callIo L O' chk cname lim d x args) ∧
    ∀ x ∈ asking, ∃ (R : Ieee.Rest) (O O' : Outside) (args : List (Val String)), O'.fnEq = O.fnEq ∧ callIo (Ieee.ops R) O true id ⟨9, 9⟩ ⟨[], 0⟩ x args ≠ callIo (Ieee.ops R) O' true id ⟨9, 9⟩ ⟨[], 0⟩ x args := by
  constructor
  · intro C L O O' chk cname lim d x args hO hx
    have : ∀ {l l' : List (String × BFn Io C)}, LibTwin (· ∈ asking) l l' → ((l.lookup x).map fun f => f d args lim) = (l'.lookup x).map fun f => f d args lim := by
      intro l
      induction l with
      | nil => intro l' h; cases l' with | nil => rfl | cons => exact h.elim
      | cons p l ih =>
        intro l' h
        cases l' with
        | nil => exact h.elim
        | cons p' l' =>
          obtain ⟨y, f⟩ := p
          obtain ⟨y', f'⟩ := p'
          obtain ⟨rfl, h1, h2⟩ := h
          simp only [List.lookup_cons]
          split
          · rename_i hy
            have hy : x = y := by simpa using hy
            subst hy
            rw [h1.resolve_left hx]
          · exact ih h2
    exact this (stdio_twin L cname hO chk)
  · intro x hx
    have key : ∀ args : List (Val String), pick (callIo (Ieee.ops rest) here true id ⟨9, 9⟩ ⟨[], 0⟩ x args) ≠ pick (callIo (Ieee.ops rest) there true id ⟨9, 9⟩ ⟨[], 0⟩ x args) →
        ∃ (R : Ieee.Rest) (O O' : Outside) (args : List (Val String)), O'.fnEq = O.fnEq ∧ callIo (Ieee.ops R) O true id ⟨9, 9⟩ ⟨[], 0⟩ x args ≠ callIo (Ieee.ops R) O' true id ⟨9, 9⟩ ⟨[], 0⟩ x args :=
      fun args h => ⟨rest, here, there, args, rfl, fun h' => h (congrArg pick h')⟩
    simp only [asking, List.mem_cons, List.not_mem_nil, or_false] at hx
    rcases hx with rfl | rfl | rfl | rfl | rfl | rfl | rfl | rfl | rfl | rfl | rfl | rfl
    · exact key [] (by decide +kernel)
    · exact key [] (by decide +kernel)
    · exact key [.int 0, .int 2] (by decide +kernel)
    · exact key [.float 0, .float 1] (by decide +kernel)
    · exact key [.arr [.int 0, .int 1] 2 2] (by decide +kernel)
    · exact key [] (by decide +kernel)
    · exact key [] (by decide +kernel)
    · exact key [] (by decide +kernel)
    · exact key [] (by decide +kernel)
    · exact key [] (by decide +kernel)
    · exact key [.str []] (by decide +kernel)
    · exact key [.str []] (by decide +kernel)

variable {E : Cli.Env} {a : Cli.Args} {k : Nat} {src : List Char} {script : Script}

theorem cli_modest (E : Cli.Env) (a : Cli.Args) : Modest (cliHost E a) := by
  intro x b hb
  have h := cli_builtins E a x b hb
  have h1 : ∀ e : Err, e.ofLib = true → e ≠ .overflow .stackOverflow ∧ ∀ y, e ≠ .name y := by
    intro e he
    refine ⟨fun h => ?_, fun y h => ?_⟩ <;> subst h <;> cases he
  cases b with
  | fn f => exact fun d args e he => h1 e (h d args e he)
  | ctx f g => exact ⟨fun d args e he => h1 e (h.1 d args e he), fun d e he => h1 e (h.2 d e he)⟩

/-- The outside world of the command is another one: other input, files, random numbers and clocks, for the program and, unless there is a limit of time,
for the machine. What is the same is the rule by which functions are compared, which is no part of the world. -/
def Elsewhere (a : Cli.Args) (E E' : Cli.Env) : Prop :=
  ∃ O t, E' = { E with O := O, elapsed := t } ∧ O.fnEq = E.O.fnEq ∧ (a.maxRuntime = none ∨ t = E.elapsed)

/-- The command: a program that does not call the builtins that ask prints the same, reports the same and exits with the same status in all worlds. -/
theorem C91_command (h : MainFile E a k name src ast script) (hcmp : ∀ K, (cliRun E a K ast).1 ≠ .unspec true) (hA : ∀ n ∈ subsL ast, ∀ x, n.calls = some x → x ∉ asking)
    {E' : Cli.Env} (hE : Elsewhere a E E') (fuel : Nat) : main E a k fuel name (.ok src) = main E' a k fuel name (.ok src) := by
  obtain ⟨O, el, rfl, hO, hel⟩ := hE
  have ht' : Twins (· ∈ asking) (setup E a) ⟨[], 0⟩ script (cliHost E a) (startSt ⟨[], 0⟩) (machine E a script) (machine { E with O := O, elapsed := el } a script) :=
    twins_lib (M := setup E a) (stdio_rel E.L E.O _ E.cfg.chk) (stdio_twin E.L vname hO E.cfg.chk) .new
  have hx : expired E a = expired { E with O := O, elapsed := el } a := by
    funext i
    rcases hel with h1 | h1
    · simp [expired, h1]
    · subst h1; rfl
  have hsy : (machine { E with O := O, elapsed := el } a script).host.syms = (machine E a script).host.syms := by
    obtain ⟨_, n, _, h2, h3, _⟩ := ht'.spoil .halt
    rw [h2.host, h3.host]
  have h' : MainFile { E with O := O, elapsed := el } a k name src ast script := ⟨h.parsed, h.compiled, h.placed, h.size, by rw [hsy]; exact h.names⟩
  rw [h.main, h'.main, ← hx]
  have hr := C91_machine (W := E.W) (name := name) (T := src) ⟨k, _, (parseWithIncludes E.W k name src ⟨[], []⟩).2, Prod.ext h.parsed rfl⟩ h.compiled ht' h.placed h.size h.names
    (cli_modest E a) hcmp hA (a.stackSize.getD 500000) (a.callStackSize.getD 1000) (expired E a) fuel
  rw [← cli_machine_own, show (machine { E with O := O, elapsed := el } a script).withLimits (a.stackSize.getD 500000) (a.callStackSize.getD 1000) =
    machine { E with O := O, elapsed := el } a script from (cli_machine_own ..).symm] at hr
  rw [hr]
  rfl

/-- The text: no file contains the name of a builtin that asks, and functions are not compared (`NoCompared`: no file contains `fn`, or none contains `==`,
`!=` and `switch`). -/
theorem C91_text (h : MainFile E a k name src ast script) (hn : NoCompared E k name src) (hA : ∀ x ∈ asking, Absent E k name src x) {E' : Cli.Env} (hE : Elsewhere a E E')
    (fuel : Nat) : main E a k fuel name (.ok src) = main E' a k fuel name (.ok src) := by
  have hp : parseWithIncludes E.W k name src ⟨[], []⟩ = (.ok ast, (parseWithIncludes E.W k name src ⟨[], []⟩).2) := by rw [← h.parsed]
  refine C91_command h (C80_text h hn) (fun n hn' x hx hm => ?_) hE fuel
  have key : ∀ y : Name, y.1 = x → y ∈ n.words → False := by
    intro y hy hw
    obtain ⟨f, t, h1, u, v, h2, _⟩ := (C78_names hp hn').2 y hw
    exact hA x hm _ (List.mem_of_getElem? h1) ⟨u, v, by rw [← hy]; exact h2⟩
  cases n with
  | builtin _ y _ => cases hx; exact key y rfl (.head _)
  | ctx _ y _ v _ => cases hx; exact key y rfl (.head _)
  | _ => cases hx

/-! ## Examples -/

/-- A text occurs in a text. -/
def found (s : List Char) : List Char → Bool
  | [] => s.isPrefixOf []
  | c :: l => s.isPrefixOf (c :: l) || found s l

theorem found_of (s : List Char) : ∀ p q : List Char, found s (p ++ s ++ q) = true
  | [], q => by
    have : s.isPrefixOf (s ++ q) = true := List.isPrefixOf_iff_prefix.2 (List.prefix_append s q)
    rw [List.nil_append]
    generalize s ++ q = l at this
    cases l <;> simp [found, this]
  | c :: p, q => by
    have := found_of s p q
    simp only [List.cons_append, found, this, Bool.or_true]

theorem absent_of {T : List Char} {s : String} (h : (parseWithIncludes Check.env.W 1 "main" T ⟨[], []⟩).2.sources.all (fun f => !found s.toList f.2) = true) :
    Absent Check.env 1 "main" T s := by
  rintro f hf ⟨p, q, h1⟩
  have h2 := List.all_eq_true.1 h f hf
  rw [h1, found_of] at h2
  cases h2

/-- Another world for the command. -/
private def away : Cli.Env := { Check.env with O := { there with fnEq := Check.env.O.fnEq }, elapsed := fun t => 7 * t }

private theorem away_is : Elsewhere cliArgs Check.env away := ⟨_, _, rfl, rfl, .inl rfl⟩

/-- Functions that are passed around, a loop, comparisons, output and `@assert_eq`. -/
private def homeFile : List Char :=
  "fn twice(f, x) { f(f(x)) }\nlet n = 0\nfor w in [\"a\", \"b\"] { @print(twice(fn(s) { s .. w }, w))\n n += 1 }\n@assert_eq(n, 2)\nif n == 2 { @len([1, n]) } else { none }".toList

private def asksNothing (T : List Char) : Bool :=
  match (parseWithIncludes Check.env.W 1 "main" T ⟨[], []⟩).1 with
  | .ok ast => tameL true ast && (subsL ast).all fun n => match n.calls with | some x => !asking.contains x | none => true
  | _ => false

private def said : Option Cli.Outcome → List Char
  | some (.exit e) => e.out
  | _ => []

/-- It meets the hypotheses of `C91_command`. -/
example : ∃ ast script, MainFile Check.env cliArgs 1 "main" homeFile ast script ∧ (∀ K, (cliRun Check.env cliArgs K ast).1 ≠ .unspec true) ∧ (∀ n ∈ subsL ast, ∀ x, n.calls = some x → x ∉ asking) ∧
    Elsewhere cliArgs Check.env away ∧ said (main away cliArgs 1 400 "main" (.ok homeFile)) = "aaa bbb RETURNED: 2\n".toList := by
  obtain ⟨ast, script, h1, _⟩ := checkFile_main (T := homeFile) (good := fun _ => true) (by decide +kernel)
  have h2 : asksNothing homeFile = true := by decide +kernel
  unfold asksNothing at h2
  rw [h1.parsed] at h2
  simp only [Bool.and_eq_true, List.all_eq_true] at h2
  refine ⟨ast, script, h1, fun K => C80_never h1.runs h2.1 K, fun n hn x hx hm => ?_, away_is, by decide +kernel⟩
  have := h2.2 n hn
  simp [hx, hm] at this

/-- A file that meets the hypotheses of `C91_text`. -/
example : ∃ ast script, MainFile Check.env cliArgs 1 "main" "let t = 1\nfor i in 0:3 { t = t * 2\n @println(t) }\nt".toList ast script ∧
    NoCompared Check.env 1 "main" "let t = 1\nfor i in 0:3 { t = t * 2\n @println(t) }\nt".toList ∧
    ∀ x ∈ asking, Absent Check.env 1 "main" "let t = 1\nfor i in 0:3 { t = t * 2\n @println(t) }\nt".toList x := by
  obtain ⟨ast, script, h1, _⟩ := checkFile_main (T := "let t = 1\nfor i in 0:3 { t = t * 2\n @println(t) }\nt".toList) (good := fun _ => true) (by decide +kernel)
  refine ⟨ast, script, h1, .inl (absent_of (by decide +kernel)), fun x hx => absent_of ?_⟩
  have : asking.all (fun x => (parseWithIncludes Check.env.W 1 "main" "let t = 1\nfor i in 0:3 { t = t * 2\n @println(t) }\nt".toList ⟨[], []⟩).2.sources.all
    (fun f => !found x.toList f.2)) = true := by decide +kernel
  exact List.all_eq_true.1 this x hx

/-- Programs that ask, and what they say here and there. -/
example : [ "@randint(0, 2)".toList, "@randbool()".toList, "@input(\"name: \")".toList].map (fun T => (said (main { Check.env with O := here } cliArgs 1 400 "main" (.ok T)),
      said (main away cliArgs 1 400 "main" (.ok T)))) =
    [("RETURNED: 0\n".toList, "RETURNED: 1\n".toList), ("RETURNED: false\n".toList, "RETURNED: true\n".toList),
      ("name: RETURNED: a\n".toList, "name: RETURNED: bb\n".toList)] := by decide +kernel

end Quilt.Props
