import Verif.Props.Unused

/-!
# Definitions next to each other may be in any order: C98
-/

namespace Quilt.Props

open Lib Peg Cli

/-- The name that a statement defines without computing anything: a function, or a declaration with a literal or a function. -/
def defined : Node → Option String
  | .func _ f _ _ => some f.1
  | .decl _ (.one x) (.lit ..) => some x.1
  | .decl _ (.one x) (.lambda ..) => some x.1
  | _ => none

/-- The same program, except that neighbouring definitions of different names changed places, any number of times. -/
inductive Reordered : List Node → List Node → Prop
  | same (ast : List Node) : Reordered ast ast
  | swap {pre post ast : List Node} {d e : Node} {x y : String} : defined d = some x → defined e = some y → x ≠ y →
      Reordered (pre ++ e :: d :: post) ast → Reordered (pre ++ d :: e :: post) ast

section Semantics

variable {D : Type} {M : Machine.Setup D} {data : D} {ast ast' : List Node} {S : SHost D} {σ : SSt D} {m m' : Machine D}

/-- What a definition does. -/
theorem defined_eval {call : SClos → List SVal → SM D SVal} {W : Nat} {n : Node} {x : String} (h : defined n = some x) :
    n.isStatement = true ∧ ∃ v, evalTopStmt S call W n = SM.defGlobal x v := by
  unfold defined at h
  split at h
  · cases h; exact ⟨rfl, _, by unfold evalTopStmt; rfl⟩
  · cases h; exact ⟨rfl, _, by unfold evalTopStmt; rfl⟩
  · cases h; exact ⟨rfl, _, by unfold evalTopStmt; rfl⟩
  · cases h

private theorem swap_globals {x y : String} (h : x ≠ y) (v w : SVal) {α : Type} (f : SM D α) :
    (do SM.defGlobal x v; SM.defGlobal y w; f) = (do SM.defGlobal y w; SM.defGlobal x v; f) := by
  funext σ
  show f _ = f _
  congr 1
  show SSt.mk _ _ _ _ _ = SSt.mk _ _ _ _ _
  congr 1
  funext z
  show (if z = y then some w else if z = x then some v else σ.globals z) = (if z = x then some v else if z = y then some w else σ.globals z)
  by_cases h1 : z = y
  · subst h1; rw [if_pos rfl, if_neg (Ne.symm h), if_pos rfl]
  · rw [if_neg h1]; split <;> simp [h1]

/-- Exchange of two definitions. -/
theorem evalTop_swap {call : SClos → List SVal → SM D SVal} {W : Nat} {d e : Node} {x y : String} (hd : defined d = some x) (he : defined e = some y) (h : x ≠ y)
    (post : List Node) : evalTop S call W (d :: e :: post) = evalTop S call W (e :: d :: post) := by
  obtain ⟨d1, v, d2⟩ := defined_eval (S := S) (call := call) (W := W) hd
  obtain ⟨e1, w, e2⟩ := defined_eval (S := S) (call := call) (W := W) he
  cases post with
  | nil =>
    simp only [evalTop, d1, e1, if_true, d2, e2]
    exact swap_globals h v w _
  | cons p ps =>
    simp only [evalTop, d1, e1, if_true, d2, e2]
    exact swap_globals h v w _

/-- Definitions next to each other may be in any order: the program has the same meaning. -/
theorem C98_semantics (S : SHost D) (k : Nat) (h : Reordered ast ast') : evalProgram S k ast' = evalProgram S k ast := by
  induction h with
  | same => rfl
  | @swap pre post _ d e x y hd he hne _ ih =>
    rw [ih]
    unfold evalProgram
    rw [evalTop_then _ _ _ (by simp), evalTop_then _ _ _ (by simp), evalTop_swap hd he hne]

private theorem keep_same (h : Runs M data ast S σ m) (k : Nat) :
    Out.Keep (fun _ => false) (VKeep fun _ => false) (evalProgram S k ast σ).1 (evalProgram S k ast σ).1 ∧ StKeep (fun _ => false) (evalProgram S k ast σ).2 (evalProgram S k ast σ).2 := by
  have hi : ∀ n : Node, n.idle (fun _ => false) = false := by intro n; unfold Node.idle; split <;> rfl
  have e : dropIdle (fun _ => false) ast = ast := by simp [dropIdle, hi]
  have := keep_lockstep (U := fun _ => false) h (wfProgram_last h.wf) (fun _ _ _ _ => rfl) k
  rwa [e] at this

private theorem SameOff.result {P P' : Pool String} {r r' : StepR D} (h : SameOff (fun _ => false) P P' r r') : SameResult P P' r r' := by
  cases r <;> cases r' <;> first
    | exact h.elim
    | exact h
    | exact ⟨h.1, h.2.1, fun i j x => h.2.2 i j x rfl⟩

/-- Programs with equal meanings have equal runs. -/
theorem runs_equal (h : Runs M data ast S σ m) (h' : Runs M data ast' S σ m') (he : ∀ k, evalProgram S k ast' σ = evalProgram S k ast σ)
    (hu : ∀ k b, (evalProgram S k ast σ).1 ≠ .unspec b)
    (hov : ∀ k sp, (evalProgram S k ast σ).1 ≠ .err (.overflow .stackOverflow) sp) (hret : M.cfg.chk = true → ∀ k v, (evalProgram S k ast σ).1 ≠ .ret v)
    (n c : Nat) (clock : Nat → Bool) (fuel : Nat) {res : StepR D} (hr : (m.withLimits n c).run clock fuel = some res) (hl : ¬ HitLimit res) :
    ∃ N C, ∀ n c, N ≤ n → C ≤ c → ∀ clock : Nat → Bool, (∀ t, clock t = false) →
      ∃ fuel res', (m'.withLimits n c).run clock fuel = some res' ∧ SameResult m.host.syms m'.host.syms res res' := by
  obtain ⟨N, C, hN⟩ := keep_carry (U := fun _ => false) h h' (fun k => by rw [he k]; exact keep_same h k) hu hov hret n c clock fuel hr hl
  refine ⟨N, C, fun n c hn hc clock hclk => ?_⟩
  obtain ⟨fuel, res', h1, h2⟩ := hN n c hn hc clock hclk
  exact ⟨fuel, res', h1, SameOff.result h2⟩

/-- Compiled and run: if the program ends without hitting a limit, then so does the reordered one, given large enough stacks and time, with
the same result, although the tables of names are in another order. `hret`: with debug assertions, no `return` outside of functions (C20). -/
theorem C98_runs (h : Runs M data ast S σ m) (h' : Runs M data ast' S σ m') (ho : Reordered ast ast') (hu : ∀ k b, (evalProgram S k ast σ).1 ≠ .unspec b)
    (hov : ∀ k sp, (evalProgram S k ast σ).1 ≠ .err (.overflow .stackOverflow) sp) (hret : M.cfg.chk = true → ∀ k v, (evalProgram S k ast σ).1 ≠ .ret v)
    (n c : Nat) (clock : Nat → Bool) (fuel : Nat) {res : StepR D} (hr : (m.withLimits n c).run clock fuel = some res) (hl : ¬ HitLimit res) :
    ∃ N C, ∀ n c, N ≤ n → C ≤ c → ∀ clock : Nat → Bool, (∀ t, clock t = false) →
      ∃ fuel res', (m'.withLimits n c).run clock fuel = some res' ∧ SameResult m.host.syms m'.host.syms res res' :=
  runs_equal h h' (fun k => by rw [C98_semantics S k ho]) hu hov hret n c clock fuel hr hl

end Semantics

/-! ## The compiler -/

section Compiler

variable {cfg : Cfg} {ast ast' : List Node}

theorem Reordered.perm (h : Reordered ast ast') : ast.Perm ast' := by
  induction h with
  | same => exact .refl _
  | swap _ _ _ _ ih => exact ((List.Perm.swap ..).append_left _).trans ih

theorem Reordered.symm (h : Reordered ast ast') : Reordered ast' ast := by
  have trans : ∀ {a b c : List Node}, Reordered a b → Reordered b c → Reordered a c := by
    intro a b c h1 h2
    induction h1 with
    | same => exact h2
    | swap hd he hne _ ih => exact .swap hd he hne (ih h2)
  induction h with
  | same ast => exact .same ast
  | swap hd he hne _ ih => exact trans ih (.swap he hd (Ne.symm hne) (.same _))

theorem within_all : ∀ ast : List Node, withinL true ast = ast.all (·.within true)
  | [] => rfl
  | n :: ns => by rw [withinL, within_all ns]; rfl

theorem externs_flat : ∀ ast : List Node, externsL ast = ast.flatMap Node.externs
  | [] => rfl
  | n :: ns => by rw [externsL, externs_flat ns]; rfl

theorem ops_all (chk : Bool) : ∀ ast : List Node, opsOkL chk ast = ast.all (·.opsOk chk)
  | [] => rfl
  | n :: ns => by
    have ih := ops_all chk ns
    rw [opsOkL, opsL]
    show (n.opsOk chk && opsOkL chk ns) = _
    rw [ih]; rfl

theorem size_sum : ∀ ast : List Node, sizeL ast = (ast.map Node.size).sum
  | [] => rfl
  | n :: ns => by rw [sizeL, size_sum ns]; rfl

/-- Whether the compiler accepts a program does not depend on the order of its statements at all: for programs of size up to 8191, in which no construct is too large to be
jumped over. The operators are those that do not crash the compiler (C58). -/
theorem C98_accepts {script : Script} (hp : ast.Perm ast') (h : compile cfg ast = .ok script) (ho : opsOkL cfg.chk ast = true) (hs : sizeL ast ≤ 8191) :
    ∃ script', compile cfg ast' = .ok script' := by
  obtain ⟨h1, h2⟩ := compile_accepts h
  rw [within_all, List.all_eq_true] at h1
  have h1 : withinL true ast' = true := by rw [within_all, List.all_eq_true]; exact fun n hn => h1 n (hp.mem_iff.2 hn)
  rw [externs_flat] at h2
  have h2 : (externsL ast').Nodup := by rw [externs_flat]; exact (hp.flatMap_right _).nodup_iff.1 h2
  rw [ops_all, List.all_eq_true] at ho
  have ho : opsOkL cfg.chk ast' = true := by rw [ops_all, List.all_eq_true]; exact fun n hn => ho n (hp.mem_iff.2 hn)
  rw [size_sum, (hp.map Node.size).sum_nat, ← size_sum] at hs
  refine (C83_exact ho hs).2 fun e sp hf => ?_
  rcases hf with ⟨p, hp, hf⟩ | ⟨x, pre, post, rfl, he, hx⟩
  · have hc := clean_list _ true h1 p hp
    have := hf.large (hc.1 e sp hf)
    have := hc.2
    omega
  · rw [externsL_sites] at h2
    unfold places at he
    rw [he, List.map_append, List.nodup_append] at h2
    exact absurd rfl (h2.2.2 x hx x (by simp))

end Compiler

/-! ## The command line program -/

variable {E : Cli.Env} {a : Cli.Args} {k k' : Nat} {name name' : String} {src src' : List Char} {ast ast' mid : List Node} {script script' : Script}

/-- The files `src` and `src'`, with their includes, are read as programs. With the statements of the included files written in place of the includes they are,
up to positions, the same program, except that neighbouring definitions of different names changed places. -/
structure Shuffled (E : Cli.Env) (a : Cli.Args) (k k' : Nat) (name name' : String) (src src' : List Char) (ast ast' mid : List Node) (script script' : Script) : Prop where
  one : MainFile E a k name src ast script
  two : MainFile E a k' name' src' ast' script'
  order : Reordered (inPlaceL ast) mid
  same : stripL (inPlaceL ast') = stripL mid

/-- Files that are read, up to positions, as programs with equal meanings have the same outcomes. -/
theorem outcome_equal (h : MainFile E a k name src ast script) (h' : MainFile E a k' name' src' ast' script')
    (he : ∀ K, evalProgram (cliHost E a) K mid (startSt ⟨[], 0⟩) = evalProgram (cliHost E a) K (inPlaceL ast) (startSt ⟨[], 0⟩))
    (hs : stripL (inPlaceL ast') = stripL mid) (K : Nat) : SameOutcome (cliRun E a K ast) (cliRun E a K ast') := by
  obtain ⟨script, _, h2⟩ := h.runs.prepared
  obtain ⟨h3, h4⟩ := evalProgram_alpha h2.alpha.1 K (alphaProg_ofStrip _ hs) _ _ h2.alpha.2
  rw [C93_semantics _ _ h'.runs.wf, he, C93_semantics _ _ h.runs.wf] at h3 h4
  refine SameOutcome.symm ?_
  show SameOutcome (evalProgram (cliHost E a) K ast' (startSt ⟨[], 0⟩)) (evalProgram (cliHost E a) K ast (startSt ⟨[], 0⟩))
  generalize evalProgram (cliHost E a) K ast' (startSt ⟨[], 0⟩) = r at h3 h4
  generalize evalProgram (cliHost E a) K ast (startSt ⟨[], 0⟩) = r' at h3 h4
  obtain ⟨o, τ⟩ := r
  obtain ⟨o', τ'⟩ := r'
  refine ⟨h4.data, ?_⟩
  cases o <;> cases o' <;> first
    | exact h3.elim
    | exact Val.Rel.mono (fun _ _ h => ⟨CAlpha.name h, CAlpha.params h⟩) h3
    | exact h3.1
    | exact h3

theorem Shuffled.outcome (h : Shuffled E a k k' name name' src src' ast ast' mid script script') (K : Nat) : SameOutcome (cliRun E a K ast) (cliRun E a K ast') :=
  outcome_equal h.one h.two (fun K => by rw [C98_semantics _ K h.order]) h.same K

/-- `transfer` in both directions. -/
theorem transfer_both (h : MainFile E a k name src ast script) (h' : MainFile E a k' name' src' ast' script')
    (hso : ∀ K, SameOutcome (cliRun E a K ast) (cliRun E a K ast')) (ha : a.maxRuntime = none)
    (hcmp : ∀ K, (cliRun E a K ast).1 ≠ .unspec true) (hret : E.cfg.chk = true → ∀ K v, (cliRun E a K ast).1 ≠ .ret v) (fuel : Nat) :
    (∀ out, Cli.main E a k fuel name (.ok src) = some (.exit ⟨0, out, none⟩) →
      ∃ N C, ∀ n c, N ≤ n → C ≤ c → ∃ fuel', Cli.main E (a.withStacks n c) k' fuel' name' (.ok src') = some (.exit ⟨0, out, none⟩)) ∧
    (∀ out e sp, Cli.main E a k fuel name (.ok src) = some (.exit ⟨1, out, some (.error e sp)⟩) → e ≠ .overflow .stackOverflow →
      ∃ before trace N C, out = before ++ "Traceback (most recent call last):\n".toList ++ trace ∧ ∀ n c, N ≤ n → C ≤ c → ∃ fuel' trace' sp',
        Cli.main E (a.withStacks n c) k' fuel' name' (.ok src') =
          some (.exit ⟨1, before ++ "Traceback (most recent call last):\n".toList ++ trace', some (.error e sp')⟩)) ∧
    (Cli.main E a k fuel name (.ok src) = some .crash →
      ∃ N C, ∀ n c, N ≤ n → C ≤ c → ∃ fuel', Cli.main E (a.withStacks n c) k' fuel' name' (.ok src') = some .crash) ∧
    (∀ out, Cli.main E a k' fuel name' (.ok src') = some (.exit ⟨0, out, none⟩) →
      ∃ N C, ∀ n c, N ≤ n → C ≤ c → ∃ fuel', Cli.main E (a.withStacks n c) k fuel' name (.ok src) = some (.exit ⟨0, out, none⟩)) ∧
    (∀ out e sp, Cli.main E a k' fuel name' (.ok src') = some (.exit ⟨1, out, some (.error e sp)⟩) → e ≠ .overflow .stackOverflow →
      ∃ before trace N C, out = before ++ "Traceback (most recent call last):\n".toList ++ trace ∧ ∀ n c, N ≤ n → C ≤ c → ∃ fuel' trace' sp',
        Cli.main E (a.withStacks n c) k fuel' name (.ok src) =
          some (.exit ⟨1, before ++ "Traceback (most recent call last):\n".toList ++ trace', some (.error e sp')⟩)) ∧
    (Cli.main E a k' fuel name' (.ok src') = some .crash →
      ∃ N C, ∀ n c, N ≤ n → C ≤ c → ∃ fuel', Cli.main E (a.withStacks n c) k fuel' name (.ok src) = some .crash) := by
  have back : ∀ {o : Out SVal} {K : Nat}, (cliRun E a K ast').1 = o → (∀ b, o = .unspec b → (cliRun E a K ast).1 = .unspec b) ∧ (∀ v, o = .ret v → ∃ w, (cliRun E a K ast).1 = .ret w) := by
    intro o K ho
    have hK := hso K
    generalize cliRun E a K ast = x at hK
    generalize cliRun E a K ast' = y at hK ho
    obtain ⟨p, σ⟩ := x
    obtain ⟨q, τ⟩ := y
    simp only at ho
    subst ho
    have h4 := hK.2
    refine ⟨?_, ?_⟩
    · rintro b rfl
      cases p <;> first | exact h4.elim | exact congrArg Out.unspec h4
    · rintro v rfl
      cases p <;> first | exact h4.elim | exact ⟨_, rfl⟩
  obtain ⟨a1, a2, a3⟩ := transfer h h' hso ha hcmp hret fuel
  obtain ⟨b1, b2, b3⟩ := transfer h' h (fun K => (hso K).symm) ha (fun K hu => hcmp K ((back hu).1 true rfl))
    (fun hc K v hu => by obtain ⟨w, hw⟩ := (back hu).2 v rfl; exact hret hc K w hw) fuel
  exact ⟨a1, a2, a3, b1, b2, b3⟩

/-- Without a time limit, running the file and running the file with the definitions in another order (or with its definitions and includes of definitions in another order) end in the
same way, given enough of the two stacks: with the same status and the same output, up to the traceback of an error, or with the same error, or with a crash. In both directions. -/
theorem C98_command (h : Shuffled E a k k' name name' src src' ast ast' mid script script') (ha : a.maxRuntime = none)
    (hcmp : ∀ K, (cliRun E a K ast).1 ≠ .unspec true) (hret : E.cfg.chk = true → ∀ K v, (cliRun E a K ast).1 ≠ .ret v) (fuel : Nat) :
    (∀ out, Cli.main E a k fuel name (.ok src) = some (.exit ⟨0, out, none⟩) →
      ∃ N C, ∀ n c, N ≤ n → C ≤ c → ∃ fuel', Cli.main E (a.withStacks n c) k' fuel' name' (.ok src') = some (.exit ⟨0, out, none⟩)) ∧
    (∀ out e sp, Cli.main E a k fuel name (.ok src) = some (.exit ⟨1, out, some (.error e sp)⟩) → e ≠ .overflow .stackOverflow →
      ∃ before trace N C, out = before ++ "Traceback (most recent call last):\n".toList ++ trace ∧ ∀ n c, N ≤ n → C ≤ c → ∃ fuel' trace' sp',
        Cli.main E (a.withStacks n c) k' fuel' name' (.ok src') =
          some (.exit ⟨1, before ++ "Traceback (most recent call last):\n".toList ++ trace', some (.error e sp')⟩)) ∧
    (Cli.main E a k fuel name (.ok src) = some .crash →
      ∃ N C, ∀ n c, N ≤ n → C ≤ c → ∃ fuel', Cli.main E (a.withStacks n c) k' fuel' name' (.ok src') = some .crash) ∧
    (∀ out, Cli.main E a k' fuel name' (.ok src') = some (.exit ⟨0, out, none⟩) →
      ∃ N C, ∀ n c, N ≤ n → C ≤ c → ∃ fuel', Cli.main E (a.withStacks n c) k fuel' name (.ok src) = some (.exit ⟨0, out, none⟩)) ∧
    (∀ out e sp, Cli.main E a k' fuel name' (.ok src') = some (.exit ⟨1, out, some (.error e sp)⟩) → e ≠ .overflow .stackOverflow →
      ∃ before trace N C, out = before ++ "Traceback (most recent call last):\n".toList ++ trace ∧ ∀ n c, N ≤ n → C ≤ c → ∃ fuel' trace' sp',
        Cli.main E (a.withStacks n c) k fuel' name (.ok src) =
          some (.exit ⟨1, before ++ "Traceback (most recent call last):\n".toList ++ trace', some (.error e sp')⟩)) ∧
    (Cli.main E a k' fuel name' (.ok src') = some .crash →
      ∃ N C, ∀ n c, N ≤ n → C ≤ c → ∃ fuel', Cli.main E (a.withStacks n c) k fuel' name (.ok src) = some .crash) :=
  transfer_both h.one h.two h.outcome ha hcmp hret fuel

/-! ## Concrete programs -/

private def z : Span := Span.default

/-- `let c = 7  fn g() { return c }`, and then `demoProg` (C20). -/
private def demoOne : List Node :=
  .decl z (.one ("c", z)) (.lit z (.int 7)) :: .func z ("g", z) [] [.ret z (some (.ident z "c"))] :: demoProg

/-- The same with the function first, which uses a constant that is defined after it. -/
private def demoTwo : List Node :=
  .func z ("g", z) [] [.ret z (some (.ident z "c"))] :: .decl z (.one ("c", z)) (.lit z (.int 7)) :: demoProg

example : Reordered demoOne demoTwo ∧ (∃ script, Runs demoSetup 7 demoOne demoS demoσ (Machine.new demoSetup 7 script)) ∧
    (∃ script, Runs demoSetup 7 demoTwo demoS demoσ (Machine.new demoSetup 7 script)) ∧ (evalProgram demoS 5 demoOne demoσ).1 = .ok (.int 3) ∧
    opsOkL demoSetup.cfg.chk demoOne = true ∧ sizeL demoOne ≤ 8191 ∧ demoOne.Perm demoTwo :=
  ⟨.swap (pre := []) rfl rfl (by decide) (.same _), demo_runs demoOne (by decide +kernel) (by decide +kernel) (by decide +kernel),
    demo_runs demoTwo (by decide +kernel) (by decide +kernel) (by decide +kernel), rfl, by decide +kernel, by decide +kernel, .swap ..⟩

private def value (ast : List Node) : Option Int :=
  match (evalProgram demoS 5 ast demoσ).1 with
  | .ok (.int i) => some i.toInt
  | _ => none

/-- Not so two definitions of the same name: the last one counts. -/
example : value [.decl z (.one ("c", z)) (.lit z (.int 7)), .decl z (.one ("c", z)) (.lit z (.int 8)), .ident z "c"] = some 8 ∧
    value [.decl z (.one ("c", z)) (.lit z (.int 8)), .decl z (.one ("c", z)) (.lit z (.int 7)), .ident z "c"] = some 7 := ⟨by decide +kernel, by decide +kernel⟩

/-- Nor a definition and a declaration that computes with it. -/
example : value [.decl z (.one ("c", z)) (.lit z (.int 7)), .decl z (.one ("d", z)) (.ident z "c"), .ident z "d"] = some 7 ∧
    value [.decl z (.one ("d", z)) (.ident z "c"), .decl z (.one ("c", z)) (.lit z (.int 7)), .ident z "d"] = none ∧ defined (.decl z (.one ("d", z)) (.ident z "c")) = none :=
  ⟨by decide +kernel, by decide +kernel, rfl⟩

/-- A library with a constant. -/
private def libEnv : Cli.Env :=
  { Check.env with W := ⟨fun x => if x == "lib.ql" then some "let b = 2".toList else none, fun _ => 0⟩ }

private def outOf (T : List Char) : Option (Nat × String) :=
  match main libEnv cliArgs 9 1000 "main" (.ok T) with
  | some (.exit e) => some (e.status, String.ofList e.out)
  | _ => none

private def readWith (T : List Char) : List Node :=
  match parseWithIncludes libEnv.W 9 "main" T ⟨[], []⟩ with
  | (.ok ast, _) => ast
  | _ => []

private def fileOk (T : List Char) : Bool :=
  match parseWithIncludes libEnv.W 9 "main" T ⟨[], []⟩ with
  | (.ok ast, _) => ast.all Node.placedTop && decide (sizeL ast ≤ 65535) &&
    (match compile libEnv.cfg ast with
    | .ok script => decide ((machine libEnv cliArgs script).host.syms.entries.length ≤ 65536)
    | _ => false)
  | _ => false

private theorem fileOk_main {T : List Char} (h : fileOk T = true) : ∃ script, MainFile libEnv cliArgs 9 "main" T (readWith T) script := by
  unfold fileOk at h
  unfold readWith
  split at h
  · rename_i ast c' hp
    simp only [Bool.and_eq_true, decide_eq_true_eq] at h
    obtain ⟨⟨h1, h2⟩, h3⟩ := h
    split at h3
    · rename_i script hc
      exact ⟨script, by rw [hp], hc, List.all_eq_true.1 h1, h2, of_decide_eq_true h3⟩
    · simp at h3
  · simp at h

private def includeFirst : List Char := "include \"lib.ql\"\nfn f() { b }\n@print(b)\nf()".toList
private def includeLast : List Char := "fn f() { b }\ninclude \"lib.ql\"\n@print(b)\nf()".toList

private def swap2 : List Node → List Node
  | d :: e :: post => e :: d :: post
  | l => l

private def swap2Ok : List Node → Bool
  | d :: e :: _ => match defined d, defined e with
    | some x, some y => decide (x ≠ y)
    | _, _ => false
  | _ => true

private theorem swap2_reordered {l : List Node} (h : swap2Ok l = true) : Reordered l (swap2 l) := by
  unfold swap2Ok at h
  unfold swap2
  split at h
  · split at h
    · rename_i hd he
      exact .swap (pre := []) hd he (of_decide_eq_true h) (.same _)
    · cases h
  · exact .same _

private def whole : List Node :=
  [.func z ("f", z) [] [.ret z (some (.ident z "b"))], .decl z (.one ("b", z)) (.lit z (.int 2)), .builtin z ("print", z) [.ident z "b"], .call z (.ident z "f") []]

private def isWhole : List Node → Bool
  | [.func s (f, s1) [] [.ret s11 (some (.ident s2 x))], .decl s3 (.one (x', s4)) (.lit s5 (.int i)), .builtin s6 (y, s7) [.ident s8 x''], .call s9 (.ident s10 f') []] =>
    decide (s = z ∧ s1 = z ∧ s2 = z ∧ s3 = z ∧ s4 = z ∧ s5 = z ∧ s6 = z ∧ s7 = z ∧ s8 = z ∧ s9 = z ∧ s10 = z ∧ s11 = z ∧
      x = "b" ∧ x' = "b" ∧ x'' = "b" ∧ f = "f" ∧ f' = "f" ∧ y = "print" ∧ i = 2)
  | _ => false

private theorem isWhole_eq {l : List Node} (h : isWhole l = true) : l = whole := by
  unfold isWhole at h
  split at h
  · obtain ⟨rfl, rfl, rfl, rfl, rfl, rfl, rfl, rfl, rfl, rfl, rfl, rfl, rfl, rfl, rfl, rfl, rfl, rfl, rfl⟩ := of_decide_eq_true h
    rfl
  · cases h

/-- The library may be included before or after the function that uses it: `C98_command` applies, and both files print `2` and then the value 2. -/
example : (∃ script script', Shuffled libEnv cliArgs 9 9 "main" "main" includeFirst includeLast (readWith includeFirst) (readWith includeLast)
      (swap2 (inPlaceL (readWith includeFirst))) script script') ∧
    outOf includeFirst = some (0, "2 RETURNED: 2\n") ∧ outOf includeLast = some (0, "2 RETURNED: 2\n") := by
  obtain ⟨s, h⟩ := fileOk_main (T := includeFirst) (by decide +kernel)
  obtain ⟨s', h'⟩ := fileOk_main (T := includeLast) (by decide +kernel)
  exact ⟨⟨s, s', h, h', swap2_reordered (by decide +kernel), (isWhole_eq (by decide +kernel)).trans (isWhole_eq (by decide +kernel)).symm⟩, by decide +kernel, by decide +kernel⟩

end Quilt.Props
