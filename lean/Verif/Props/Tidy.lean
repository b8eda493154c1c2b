import Verif.Props.Fail

/-!
# A definition that is replaced before anything is computed can be left out: C100
-/

namespace Quilt.Props

open Lib Peg Cli

/-- The same program, except that neighbouring definitions of different names changed places, and that definitions followed at once by a definition of the
same name were left out, any number of times. -/
inductive Tidied : List Node → List Node → Prop
  | same (ast : List Node) : Tidied ast ast
  | swap {pre post ast : List Node} {d e : Node} {x y : String} : defined d = some x → defined e = some y → x ≠ y →
      Tidied (pre ++ e :: d :: post) ast → Tidied (pre ++ d :: e :: post) ast
  | drop {pre post ast : List Node} {d e : Node} {x : String} : defined d = some x → defined e = some x →
      Tidied (pre ++ e :: post) ast → Tidied (pre ++ d :: e :: post) ast

theorem Reordered.tidied {ast ast' : List Node} (h : Reordered ast ast') : Tidied ast ast' := by
  induction h with
  | same => exact .same _
  | swap h1 h2 h3 _ ih => exact .swap h1 h2 h3 ih

theorem Tidied.trans {a b c : List Node} (h : Tidied a b) (h' : Tidied b c) : Tidied a c := by
  induction h with
  | same => exact h'
  | swap h1 h2 h3 _ ih => exact .swap h1 h2 h3 (ih h')
  | drop h1 h2 _ ih => exact .drop h1 h2 (ih h')

/-- Any number of definitions may be in between. -/
theorem Tidied.far {pre mid post : List Node} {d e : Node} {x : String} (hd : defined d = some x) (he : defined e = some x) (hm : ∀ n ∈ mid, (defined n).isSome = true) :
    Tidied (pre ++ d :: (mid ++ e :: post)) (pre ++ (mid ++ e :: post)) := by
  induction mid generalizing pre d with
  | nil => exact .drop hd he (.same _)
  | cons n ns ih =>
    obtain ⟨y, hy⟩ := Option.isSome_iff_exists.1 (hm n (by simp))
    by_cases hxy : x = y
    · subst hxy
      exact .drop hd hy (.same _)
    · refine .swap hd hy hxy ?_
      have := ih (pre := pre ++ [n]) hd fun m h => hm m (by simp [h])
      simpa using this

private theorem doubled_aux {lib post : List Node} (hl : ∀ n ∈ lib, (defined n).isSome = true) : ∀ {todo mid : List Node}, (∀ n ∈ todo, n ∈ lib) → (∀ n ∈ mid, (defined n).isSome = true) →
    Tidied (todo ++ (mid ++ (lib ++ post))) (mid ++ (lib ++ post))
  | [], mid, _, _ => .same _
  | d :: todo, mid, ht, hm => by
    obtain ⟨x, hx⟩ := Option.isSome_iff_exists.1 (hl d (ht d (by simp)))
    obtain ⟨l1, l2, rfl⟩ := List.append_of_mem (ht d (by simp))
    have h1 := Tidied.far (pre := []) (mid := todo ++ mid ++ l1) (post := l2 ++ post) hx hx (by
      intro n hn
      simp only [List.mem_append] at hn
      rcases hn with (hn | hn) | hn
      · exact hl n (ht n (by simp [hn]))
      · exact hm n hn
      · exact hl n (by simp [hn]))
    have h2 := doubled_aux (post := post) hl (todo := todo) (mid := mid) (fun n h => ht n (by simp [h])) hm
    refine Tidied.trans ?_ h2
    simpa using h1

/-- Of a group of definitions that is repeated, with only definitions in between, the first occurrence can be left out. -/
theorem Tidied.doubled {lib mid post : List Node} (hl : ∀ n ∈ lib, (defined n).isSome = true) (hm : ∀ n ∈ mid, (defined n).isSome = true) :
    Tidied (lib ++ (mid ++ (lib ++ post))) (mid ++ (lib ++ post)) := doubled_aux hl (fun _ h => h) hm

section Semantics

variable {D : Type} {M : Machine.Setup D} {data : D} {ast ast' : List Node} {S : SHost D} {σ : SSt D} {m m' : Machine D}

private theorem over_globals (x : String) (v w : SVal) {α : Type} (f : SM D α) : (do SM.defGlobal x v; SM.defGlobal x w; f) = (do SM.defGlobal x w; f) := by
  funext σ
  show f _ = f _
  congr 1
  show SSt.mk _ _ _ _ _ = SSt.mk _ _ _ _ _
  congr 1
  funext z
  show (if z = x then some w else if z = x then some v else σ.globals z) = (if z = x then some w else σ.globals z)
  split <;> rfl

private theorem evalTop_over {call : SClos → List SVal → SM D SVal} {W : Nat} {d e : Node} {x : String} (hd : defined d = some x) (he : defined e = some x)
    (post : List Node) : evalTop S call W (d :: e :: post) = evalTop S call W (e :: post) := by
  obtain ⟨d1, v, d2⟩ := defined_eval (S := S) (call := call) (W := W) hd
  obtain ⟨e1, w, e2⟩ := defined_eval (S := S) (call := call) (W := W) he
  cases post with
  | nil =>
    simp only [evalTop, d1, e1, if_true, d2, e2]
    exact over_globals x v w _
  | cons p ps =>
    simp only [evalTop, d1, e1, if_true, d2, e2]
    exact over_globals x v w _

/-- The tidied program has the same meaning. -/
theorem C100_semantics (S : SHost D) (k : Nat) (h : Tidied ast ast') : evalProgram S k ast' = evalProgram S k ast := by
  induction h with
  | same => rfl
  | swap hd he hne _ ih =>
    rw [ih]
    unfold evalProgram
    rw [evalTop_then _ _ _ (by simp), evalTop_then _ _ _ (by simp), evalTop_swap hd he hne]
  | drop hd he _ ih =>
    rw [ih]
    unfold evalProgram
    rw [evalTop_then _ _ _ (by simp), evalTop_then _ _ _ (by simp), evalTop_over hd he]

/-- In particular with a group of definitions that is repeated, with only definitions in between. -/
theorem C100_doubled (S : SHost D) (k : Nat) {lib mid post : List Node} (hl : ∀ n ∈ lib, (defined n).isSome = true) (hm : ∀ n ∈ mid, (defined n).isSome = true) :
    evalProgram S k (lib ++ mid ++ lib ++ post) = evalProgram S k (mid ++ lib ++ post) := by
  have := C100_semantics S k (Tidied.doubled (post := post) hl hm)
  simpa using this.symm

/-- Compiled and run: if the program ends without hitting a limit, then so does the tidied one, given large enough stacks and time, with
the same result. `hret`: with debug assertions, no `return` outside of functions (C20). -/
theorem C100_runs (h : Runs M data ast S σ m) (h' : Runs M data ast' S σ m') (ho : Tidied ast ast') (hu : ∀ k b, (evalProgram S k ast σ).1 ≠ .unspec b)
    (hov : ∀ k sp, (evalProgram S k ast σ).1 ≠ .err (.overflow .stackOverflow) sp) (hret : M.cfg.chk = true → ∀ k v, (evalProgram S k ast σ).1 ≠ .ret v)
    (n c : Nat) (clock : Nat → Bool) (fuel : Nat) :
    (∀ {res : StepR D}, (m.withLimits n c).run clock fuel = some res → ¬ HitLimit res → ∃ N C, ∀ n c, N ≤ n → C ≤ c → ∀ clock : Nat → Bool, (∀ t, clock t = false) →
      ∃ fuel res', (m'.withLimits n c).run clock fuel = some res' ∧ SameResult m.host.syms m'.host.syms res res') ∧
    (∀ {res : StepR D}, (m'.withLimits n c).run clock fuel = some res → ¬ HitLimit res → ∃ N C, ∀ n c, N ≤ n → C ≤ c → ∀ clock : Nat → Bool, (∀ t, clock t = false) →
      ∃ fuel res', (m.withLimits n c).run clock fuel = some res' ∧ SameResult m'.host.syms m.host.syms res res') := by
  have e : ∀ k, evalProgram S k ast' σ = evalProgram S k ast σ := fun k => by rw [C100_semantics S k ho]
  refine ⟨fun hr hl => runs_equal h h' e hu hov hret n c clock fuel hr hl, fun hr hl => runs_equal h' h (fun k => (e k).symm) ?_ ?_ ?_ n c clock fuel hr hl⟩
  · intro k; rw [e]; exact hu k
  · intro k; rw [e]; exact hov k
  · intro hc k; rw [e]; exact hret hc k

end Semantics

/-! ## The compiler -/

section Compiler

variable {cfg : Cfg} {ast ast' : List Node}

theorem Tidied.subperm (h : Tidied ast ast') : ∃ rest, ast.Perm (rest ++ ast') := by
  induction h with
  | same => exact ⟨[], .refl _⟩
  | swap _ _ _ _ ih =>
    obtain ⟨r, hr⟩ := ih
    exact ⟨r, ((List.Perm.swap ..).append_left _).trans hr⟩
  | @drop pre post ast d e x _ _ _ ih =>
    obtain ⟨r, hr⟩ := ih
    exact ⟨d :: r, List.perm_middle.trans (hr.cons d)⟩

/-- The tidied program is accepted if the program is, for sizes up to 8191 and operators that do not crash the compiler (C58). -/
theorem C100_accepts {script : Script} (hp : Tidied ast ast') (h : compile cfg ast = .ok script) (ho : opsOkL cfg.chk ast = true) (hs : sizeL ast ≤ 8191) :
    ∃ script', compile cfg ast' = .ok script' := by
  obtain ⟨r, hr⟩ := hp.subperm
  obtain ⟨h1, h2⟩ := compile_accepts h
  have hm : ∀ n ∈ ast', n ∈ ast := fun n hn => hr.mem_iff.2 (by simp [hn])
  rw [within_all, List.all_eq_true] at h1
  have h1 : withinL true ast' = true := by rw [within_all, List.all_eq_true]; exact fun n hn => h1 n (hm n hn)
  rw [externs_flat, (hr.flatMap_right _).nodup_iff, List.flatMap_append] at h2
  have h2 : (externsL ast').Nodup := by rw [externs_flat]; exact (List.nodup_append.1 h2).2.1
  rw [ops_all, List.all_eq_true] at ho
  have ho : opsOkL cfg.chk ast' = true := by rw [ops_all, List.all_eq_true]; exact fun n hn => ho n (hm n hn)
  have hs : sizeL ast' ≤ 8191 := by
    rw [size_sum, (hr.map Node.size).sum_nat, List.map_append, List.sum_append_nat] at hs
    rw [size_sum]; omega
  refine (C83_exact ho hs).2 fun e sp hf => ?_
  rcases hf with ⟨p, hp, hf⟩ | ⟨x, pre, post, rfl, he, hx⟩
  · have hc := clean_list _ true h1 p hp
    have := hf.large (hc.1 e sp hf)
    have := hc.2
    omega
  · rw [externsL_sites] at h2
    unfold places at he
    rw [he, List.map_append, List.nodup_append] at h2
    exact absurd rfl (h2.2.2 x hx x (by simp))

end Compiler

/-! ## The command line program -/

variable {E : Cli.Env} {a : Cli.Args} {k k' : Nat} {name name' : String} {src src' : List Char} {ast ast' mid : List Node} {script script' : Script}

/-- The files `src` and `src'`, with their includes, are read as programs. With the statements of the included files written in place of the includes the second one is,
up to positions, the first one after tidying. -/
structure TidiedFile (E : Cli.Env) (a : Cli.Args) (k k' : Nat) (name name' : String) (src src' : List Char) (ast ast' mid : List Node) (script script' : Script) : Prop where
  one : MainFile E a k name src ast script
  two : MainFile E a k' name' src' ast' script'
  tidied : Tidied (inPlaceL ast) mid
  same : stripL (inPlaceL ast') = stripL mid

theorem TidiedFile.outcome (h : TidiedFile E a k k' name name' src src' ast ast' mid script script') (K : Nat) : SameOutcome (cliRun E a K ast) (cliRun E a K ast') :=
  outcome_equal h.one h.two (fun K => by rw [C100_semantics _ K h.tidied]) h.same K

/-- Without a time limit, running a file and running the tidied file, for example without the definitions of a library that are replaced after its include, end in the same way, given enough of the two
stacks: with the same status and the same output, up to the traceback of an error, or with the same error, or with a crash. In both directions. -/
theorem C100_command (h : TidiedFile E a k k' name name' src src' ast ast' mid script script') (ha : a.maxRuntime = none)
    (hcmp : ∀ K, (cliRun E a K ast).1 ≠ .unspec true) (hret : E.cfg.chk = true → ∀ K v, (cliRun E a K ast).1 ≠ .ret v) (fuel : Nat) :
    (∀ out, Cli.main E a k fuel name (.ok src) = some (.exit ⟨0, out, none⟩) →
      ∃ N C, ∀ n c, N ≤ n → C ≤ c → ∃ fuel', Cli.main E (a.withStacks n c) k' fuel' name' (.ok src') = some (.exit ⟨0, out, none⟩)) ∧
    (∀ out e sp, Cli.main E a k fuel name (.ok src) = some (.exit ⟨1, out, some (.error e sp)⟩) → e ≠ .overflow .stackOverflow →
      ∃ before trace N C, out = before ++ "Traceback (most recent call last):\n".toList ++ trace ∧ ∀ n c, N ≤ n → C ≤ c → ∃ fuel' trace' sp',
        Cli.main E (a.withStacks n c) k' fuel' name' (.ok src') =
          some (.exit ⟨1, before ++ "Traceback (most recent call last):\n".toList ++ trace', some (.error e sp')⟩)) ∧
    (Cli.main E a k fuel name (.ok src) = some .crash →
      ∃ N C, ∀ n c, N ≤ n → C ≤ c → ∃ fuel', Cli.main E (a.withStacks n c) k' fuel' name' (.ok src') = some .crash) ∧
    (∀ out, Cli.main E a k' fuel name' (.ok src') = some (.exit ⟨0, out, none⟩) →
      ∃ N C, ∀ n c, N ≤ n → C ≤ c → ∃ fuel', Cli.main E (a.withStacks n c) k fuel' name (.ok src) = some (.exit ⟨0, out, none⟩)) ∧
    (∀ out e sp, Cli.main E a k' fuel name' (.ok src') = some (.exit ⟨1, out, some (.error e sp)⟩) → e ≠ .overflow .stackOverflow →
      ∃ before trace N C, out = before ++ "Traceback (most recent call last):\n".toList ++ trace ∧ ∀ n c, N ≤ n → C ≤ c → ∃ fuel' trace' sp',
        Cli.main E (a.withStacks n c) k fuel' name (.ok src) =
          some (.exit ⟨1, before ++ "Traceback (most recent call last):\n".toList ++ trace', some (.error e sp')⟩)) ∧
    (Cli.main E a k' fuel name' (.ok src') = some .crash →
      ∃ N C, ∀ n c, N ≤ n → C ≤ c → ∃ fuel', Cli.main E (a.withStacks n c) k fuel' name (.ok src) = some .crash) :=
  transfer_both h.one h.two h.outcome ha hcmp hret fuel

/-! ## Concrete programs -/

private def z : Span := Span.default

/-- `fn g() { return c }  let c = 7  fn g() { return 1 }`, and then `demoProg` (C20). -/
private def demoTwice : List Node :=
  .func z ("g", z) [] [.ret z (some (.ident z "c"))] :: .decl z (.one ("c", z)) (.lit z (.int 7)) :: .func z ("g", z) [] [.ret z (some (.lit z (.int 1)))] :: demoProg

/-- The first definition of `g` can be left out. -/
example : Tidied demoTwice (demoTwice.drop 1) ∧ (∃ script, Runs demoSetup 7 demoTwice demoS demoσ (Machine.new demoSetup 7 script)) ∧
    (∃ script, Runs demoSetup 7 (demoTwice.drop 1) demoS demoσ (Machine.new demoSetup 7 script)) ∧ (evalProgram demoS 5 demoTwice demoσ).1 = .ok (.int 3) ∧
    opsOkL demoSetup.cfg.chk demoTwice = true ∧ sizeL demoTwice ≤ 8191 :=
  ⟨Tidied.far (pre := []) (mid := [.decl z (.one ("c", z)) (.lit z (.int 7))]) rfl rfl (by simp [defined]), demo_runs _ (by decide +kernel) (by decide +kernel) (by decide +kernel),
    demo_runs _ (by decide +kernel) (by decide +kernel) (by decide +kernel), rfl, by decide +kernel, by decide +kernel⟩

/-- A function and a constant, defined twice with another constant in between. -/
example : evalProgram demoS 5 ([Node.func z ("g", z) [] [], .decl z (.one ("c", z)) (.lit z (.int 7))] ++ [.decl z (.one ("d", z)) (.lit z (.int 8))] ++
      [.func z ("g", z) [] [], .decl z (.one ("c", z)) (.lit z (.int 7))] ++ demoProg) =
    evalProgram demoS 5 ([.decl z (.one ("d", z)) (.lit z (.int 8))] ++ [.func z ("g", z) [] [], .decl z (.one ("c", z)) (.lit z (.int 7))] ++ demoProg) :=
  C100_doubled demoS 5 (by simp [defined]) (by simp [defined])

private def value (ast : List Node) : Option Int :=
  match (evalProgram demoS 5 ast demoσ).1 with
  | .ok (.int i) => some i.toInt
  | _ => none

/-- Not so if something in between uses it: `let c = 7  let d = c  let c = 8  d`. -/
example : value [.decl z (.one ("c", z)) (.lit z (.int 7)), .decl z (.one ("d", z)) (.ident z "c"), .decl z (.one ("c", z)) (.lit z (.int 8)), .ident z "d"] = some 7 ∧
    value [.decl z (.one ("d", z)) (.ident z "c"), .decl z (.one ("c", z)) (.lit z (.int 8)), .ident z "d"] = none := ⟨by decide +kernel, by decide +kernel⟩

/-- Two libraries that define the same function. -/
private def twiceEnv : Cli.Env :=
  { Check.env with W := ⟨fun x =>
      if x == "a.ql" then some "fn f() { q }\nlet p = 1".toList
      else if x == "b.ql" then some "fn f() { p }\nlet q = 2".toList
      else none, fun _ => 0⟩ }

private def outOf (T : List Char) : Option (Nat × String) :=
  match main twiceEnv cliArgs 9 1000 "main" (.ok T) with
  | some (.exit e) => some (e.status, String.ofList e.out)
  | _ => none

private def readWith (T : List Char) : List Node :=
  match parseWithIncludes twiceEnv.W 9 "main" T ⟨[], []⟩ with
  | (.ok ast, _) => ast
  | _ => []

private def fileOk (T : List Char) : Bool :=
  match parseWithIncludes twiceEnv.W 9 "main" T ⟨[], []⟩ with
  | (.ok ast, _) => ast.all Node.placedTop && decide (sizeL ast ≤ 65535) &&
    (match compile twiceEnv.cfg ast with
    | .ok script => decide ((machine twiceEnv cliArgs script).host.syms.entries.length ≤ 65536)
    | _ => false)
  | _ => false

private theorem fileOk_main {T : List Char} (h : fileOk T = true) : ∃ script, MainFile twiceEnv cliArgs 9 "main" T (readWith T) script := by
  unfold fileOk at h
  unfold readWith
  split at h
  · rename_i ast c' hp
    simp only [Bool.and_eq_true, decide_eq_true_eq] at h
    obtain ⟨⟨h1, h2⟩, h3⟩ := h
    split at h3
    · rename_i script hc
      exact ⟨script, by rw [hp], hc, List.all_eq_true.1 h1, h2, of_decide_eq_true h3⟩
    · simp at h3
  · simp at h

private def both : List Char := "include \"a.ql\"\ninclude \"b.ql\"\n@print(q)\nf()".toList
private def once : List Char := "let p = 1\nfn f() { p }\nlet q = 2\n@print(q)\nf()".toList

private def farOk : List Node → Bool
  | d :: n :: e :: _ => decide (defined d = some "f" ∧ defined e = some "f") && (defined n).isSome
  | _ => false

private theorem farOk_tidied {l : List Node} (h : farOk l = true) : Tidied l (l.drop 1) := by
  unfold farOk at h
  split at h
  · rw [Bool.and_eq_true] at h
    obtain ⟨h1, h2⟩ := of_decide_eq_true h.1
    exact Tidied.far (pre := []) (mid := [_]) h1 h2 (by simpa using h.2)
  · cases h

private def whole : List Node :=
  [.decl z (.one ("p", z)) (.lit z (.int 1)), .func z ("f", z) [] [.ret z (some (.ident z "p"))], .decl z (.one ("q", z)) (.lit z (.int 2)),
    .builtin z ("print", z) [.ident z "q"], .call z (.ident z "f") []]

private def isWhole : List Node → Bool
  | [.decl s1 (.one (x1, s2)) (.lit s3 (.int i)), .func s4 (x2, s5) [] [.ret s6 (some (.ident s7 x3))], .decl s8 (.one (x4, s9)) (.lit s10 (.int j)),
      .builtin s11 (x5, s12) [.ident s13 x6], .call s14 (.ident s15 x7) []] =>
    decide (s1 = z ∧ s2 = z ∧ s3 = z ∧ s4 = z ∧ s5 = z ∧ s6 = z ∧ s7 = z ∧ s8 = z ∧ s9 = z ∧ s10 = z ∧ s11 = z ∧ s12 = z ∧ s13 = z ∧ s14 = z ∧ s15 = z) &&
      decide (x1 = "p" ∧ x2 = "f" ∧ x3 = "p" ∧ x4 = "q" ∧ x5 = "print" ∧ x6 = "q" ∧ x7 = "f" ∧ i = 1 ∧ j = 2)
  | _ => false

private theorem isWhole_eq {l : List Node} (h : isWhole l = true) : l = whole := by
  unfold isWhole at h
  split at h
  · rw [Bool.and_eq_true] at h
    obtain ⟨rfl, rfl, rfl, rfl, rfl, rfl, rfl, rfl, rfl, rfl, rfl, rfl, rfl, rfl, rfl⟩ := of_decide_eq_true h.1
    obtain ⟨rfl, rfl, rfl, rfl, rfl, rfl, rfl, rfl, rfl⟩ := of_decide_eq_true h.2
    rfl
  · cases h

/-- The function of the second library counts; the other one can be left out. `C100_command` applies, and both files print `2` and then the value 1. -/
example : (∃ script script', TidiedFile twiceEnv cliArgs 9 9 "main" "main" both once (readWith both) (readWith once) ((inPlaceL (readWith both)).drop 1) script script') ∧
    outOf both = some (0, "2 RETURNED: 1\n") ∧ outOf once = some (0, "2 RETURNED: 1\n") := by
  obtain ⟨s, h⟩ := fileOk_main (T := both) (by decide +kernel)
  obtain ⟨s', h'⟩ := fileOk_main (T := once) (by decide +kernel)
  exact ⟨⟨s, s', h, h', farOk_tidied (by decide +kernel), (isWhole_eq (by decide +kernel)).trans (isWhole_eq (by decide +kernel)).symm⟩, by decide +kernel, by decide +kernel⟩

end Quilt.Props
