import Verif.Compiler.Relabel
import Verif.Vm.Relabel
import Verif.Props.Cli

/-!
# Names and places do not matter to the code: C96

`Relabel` (`Verif/Compiler/Relabel.lean`): names are replaced by names and places by places, different ones by different ones. `R.nodes ast` is the program with other names and
places, `R.script` does the same to a compiled program: its instructions and constants are not touched.
`R.val` and `R.vm` (`Verif/Vm/Relabel.lean`) do it to the functions in values and in states of the machine.
-/

namespace Quilt.Props

open Lib Peg Cli

/-- Two names exchanged. -/
def swapped (a b x : String) : String := if x = a then b else if x = b then a else x

/-- Names that the compiler invents begin with `@` or `#`. -/
def ordinary (x : String) : Bool :=
  match x.toList with
  | c :: _ => c != '@' && c != '#'
  | [] => true

theorem swapped_inj {a b x y : String} (h : swapped a b x = swapped a b y) : x = y := by
  unfold swapped at h
  grind

private theorem swapped_other {a b x : String} (ha : ordinary a = true) (hb : ordinary b = true) (hx : ordinary x = false) : swapped a b x = x := by
  have h1 : x ≠ a := by rintro rfl; rw [ha] at hx; cases hx
  have h2 : x ≠ b := by rintro rfl; rw [hb] at hx; cases hx
  simp only [swapped, h1, h2, if_false]

/-- Two names that can be written in a program are exchanged, the places stay. -/
def swap (a b : String) (ha : ordinary a = true) (hb : ordinary b = true) : Relabel where
  name := swapped a b
  place := id
  name_inj _ _ := swapped_inj
  place_inj _ _ h := h
  lambda := swapped_other ha hb (by decide)
  main := swapped_other ha hb (by decide)
  temp n := swapped_other ha hb (by
    have : ("#__temp_" ++ String.ofList (showNat n)).toList = '#' :: ("__temp_".toList ++ showNat n) := by
      rw [String.toList_append, String.toList_ofList]
      simp
    unfold ordinary
    rw [this]; rfl)
  default := rfl

/-- C96: the compiler gives for the program with other names and places what it gives for the program, with these names and places. -/
theorem C96_compile (R : Relabel) (cfg : Cfg) (ast : List Node) : compile cfg (R.nodes ast) = R.out R.script (compile cfg ast) := Relabel.compile_nodes cfg ast

mutual
/-- The instructions of a function and of all functions inside, and the other constants, in order. -/
def instructions : Func → List (List UInt8 ⊕ Literal)
  | .mk _ _ _ _ ops _ cs _ => .inl ops :: instructionsL cs
termination_by structural f => f
def instructionsC : Const → List (List UInt8 ⊕ Literal)
  | .lit l => [.inr l]
  | .fn f => instructions f
termination_by structural c => c
def instructionsL : List Const → List (List UInt8 ⊕ Literal)
  | [] => []
  | c :: cs => instructionsC c ++ instructionsL cs
termination_by structural c => c
end

mutual
private theorem instr_func (R : Relabel) : ∀ f : Func, instructions (R.func f) = instructions f
  | .mk n sp a u ops ss cs ys => by simp only [Relabel.func, instructions, instr_list R cs]
private theorem instr_const (R : Relabel) : ∀ c : Const, instructionsC (R.const c) = instructionsC c
  | .lit _ => rfl
  | .fn f => by simp only [Relabel.const, instructionsC, instr_func R f]
private theorem instr_list (R : Relabel) : ∀ cs : List Const, instructionsL (R.consts cs) = instructionsL cs
  | [] => rfl
  | c :: cs => by simp only [Relabel.consts, instructionsL, instr_const R c, instr_list R cs]
end

/-- A program that compiles still does: to the same instructions and constants in all of its functions and the same externals. The table of names has the new names in the order
of the old ones. -/
theorem C96_code (R : Relabel) {cfg : Cfg} {ast : List Node} {s : Script} (h : compile cfg ast = .ok s) :
    ∃ s', compile cfg (R.nodes ast) = .ok s' ∧ instructions s'.fn = instructions s.fn ∧ s'.externals = s.externals ∧ s'.syms.entries = s.syms.entries.map R.name := by
  refine ⟨R.script s, ?_, instr_func R s.fn, rfl, rfl⟩
  rw [C96_compile, h]; rfl

/-- A program that is rejected still is: with the same error, except for a name in it, at the place where the old place went. -/
theorem C96_rejected (R : Relabel) {cfg : Cfg} {ast : List Node} {e : Err} {sp : Span} (h : compile cfg ast = .err e sp) :
    compile cfg (R.nodes ast) = .err (R.err e) (R.place sp) := by
  rw [C96_compile, h]; rfl

/-- And only such programs are. -/
theorem C96_accepts (R : Relabel) (cfg : Cfg) (ast : List Node) :
    ((∃ s, compile cfg (R.nodes ast) = .ok s) ↔ ∃ s, compile cfg ast = .ok s) ∧ (compile cfg (R.nodes ast) = .panic ↔ compile cfg ast = .panic) := by
  rw [C96_compile]
  cases compile cfg ast <;> simp [Relabel.out]

/-! ## Runs -/

variable {D : Type}

/-- A machine for a program, with functions and globals of the host. -/
def hosted (M : Machine.Setup D) (data : D) (s : Script) (bs : List (String × Builtin D VClos)) (gs : List (String × VVal)) : Machine D :=
  gs.foldl (fun m g => m.insertGlobal g.1 g.2) ((Machine.new M data s).addBuiltins bs)

private theorem hosted_builtins (R : Relabel) : ∀ (bs : List (String × Builtin D VClos)) (m : Machine D),
    (R.machine m).addBuiltins (bs.map fun b => (R.name b.1, R.builtin b.2)) = R.machine (m.addBuiltins bs)
  | [], _ => rfl
  | (x, b) :: bs, m => by
    have h1 := Relabel.machine_builtins (R := R) m x b
    have h2 := hosted_builtins R bs (m.addBuiltins [(x, b)])
    rw [← h1] at h2
    exact h2

private theorem hosted_globals (R : Relabel) : ∀ (gs : List (String × VVal)) (m : Machine D),
    (gs.map fun g => (R.name g.1, R.val g.2)).foldl (fun m g => m.insertGlobal g.1 g.2) (R.machine m) = R.machine (gs.foldl (fun m g => m.insertGlobal g.1 g.2) m)
  | [], _ => rfl
  | (x, v) :: gs, m => by
    simp only [List.map_cons, List.foldl_cons]
    rw [Relabel.machine_global]
    exact hosted_globals R gs _

private theorem hosted_host : ∀ (bs : List (String × Builtin D VClos)) (m : Machine D), (m.addBuiltins bs).host.opts = m.host.opts ∧
    ∀ i b, (m.addBuiltins bs).host.builtins i = some b → m.host.builtins i = some b ∨ ∃ x, (x, b) ∈ bs
  | [], m => ⟨rfl, fun _ _ h => .inl h⟩
  | (x, c) :: bs, m => by
    obtain ⟨h1, h2⟩ := hosted_host bs (m.addBuiltins [(x, c)])
    refine ⟨h1, fun i b h => ?_⟩
    rcases h2 i b h with h | ⟨y, h⟩
    · simp only [Machine.addBuiltins, upd] at h
      split at h
      · cases h; exact .inr ⟨x, List.mem_cons_self⟩
      · exact .inl h
    · exact .inr ⟨y, List.mem_cons_of_mem _ h⟩

private theorem globals_host : ∀ (gs : List (String × VVal)) (m : Machine D),
    (gs.foldl (fun m g => m.insertGlobal g.1 g.2) m).host.opts = m.host.opts ∧ (gs.foldl (fun m g => m.insertGlobal g.1 g.2) m).host.builtins = m.host.builtins
  | [], _ => ⟨rfl, rfl⟩
  | (x, v) :: gs, m => globals_host gs (m.insertGlobal x v)

/-- The compiled program with other names and places, run by a host that registers its functions and globals under the other names: the run takes the same number of steps, under
every limit and every clock, and ends in the same way, with the other names and places in its value, its error, its state and its traceback. The functions of the host must treat
functions alike that differ in names and places only. -/
theorem C96_run (R : Relabel) (hu : R.name "unkown???" = "unkown???") {cfg : Cfg} {ast : List Node} {s : Script} (hc : compile cfg ast = .ok s)
    (M : Machine.Setup D) (data : D) (bs : List (String × Builtin D VClos)) (hb : ∀ x b, (x, b) ∈ bs → R.Alike M.opts.lim b) (gs : List (String × VVal)) :
    ∃ s', compile cfg (R.nodes ast) = .ok s' ∧ ∀ clock fuel,
      (hosted M data s' (bs.map fun b => (R.name b.1, R.builtin b.2)) (gs.map fun g => (R.name g.1, R.val g.2))).run clock fuel =
        ((hosted M data s bs gs).run clock fuel).map R.stepR := by
  refine ⟨R.script s, by rw [C96_compile, hc]; rfl, fun clock fuel => ?_⟩
  have hm : hosted M data (R.script s) (bs.map fun b => (R.name b.1, R.builtin b.2)) (gs.map fun g => (R.name g.1, R.val g.2)) = R.machine (hosted M data s bs gs) := by
    unfold hosted
    rw [Relabel.machine_new, hosted_builtins, hosted_globals]
  rw [hm]
  refine Relabel.run_vm ⟨hu, fun i b h => ?_⟩ clock fuel 0 0 _
  obtain ⟨g1, g2⟩ := globals_host gs ((Machine.new M data s).addBuiltins bs)
  obtain ⟨h1, h2⟩ := hosted_host bs (Machine.new M data s)
  rw [show (hosted M data s bs gs).host.builtins = _ from g2] at h
  rw [show (hosted M data s bs gs).host.opts = _ from g1, h1]
  rcases h2 i b h with h | ⟨x, h⟩
  · cases h
  · exact hb x b h

/-- Values without functions stay as they are: such a result of the run is not changed at all. -/
theorem C96_value (R : Relabel) (l : Literal) : R.val l.toVal = l.toVal := R.val_lit l

/-- The traceback has the other names and places in the same order. -/
theorem C96_trace (R : Relabel) (s : VM D) : Machine.traceBack (R.vm s) = (Machine.traceBack s).map R.entry := Relabel.traceBack_vm s

/-! ## Examples -/

private def codeOf (T : List Char) : Option (List (List UInt8 ⊕ Literal) × List String) :=
  match (parseWithIncludes Check.env.W 1 "main" T ⟨[], []⟩).1 with
  | .ok ast => match compile Check.env.cfg ast with
    | .ok s => some (instructions s.fn, s.syms.entries)
    | _ => none
  | _ => none

private def one : List Char := "let total = 1\nfn add(n, m) { let f = fn() { n + total }\n for i in 0:m { total += i }\n f() }\nadd(2, 3)".toList
private def two : List Char := "let t = 1\nfn plus(first, i) { let g = fn() { first + t }\n for n in 0:i { t += n }\n g() }\nplus(2, 3)".toList

/-- Two files that differ in the names of variables, functions and parameters only: the same code. -/
example : (codeOf one).map Prod.fst = (codeOf two).map Prod.fst ∧ (codeOf one).map Prod.snd = some ["total", "add"] ∧ (codeOf two).map Prod.snd = some ["t", "plus"] := by
  decide +kernel

private def swappedCode (T : List Char) (R : Relabel) : Option (List (List UInt8 ⊕ Literal) × List String) :=
  match (parseWithIncludes Check.env.W 1 "main" T ⟨[], []⟩).1 with
  | .ok ast => match compile Check.env.cfg (R.nodes ast) with
    | .ok s => some (instructions s.fn, s.syms.entries)
    | _ => none
  | _ => none

/-- `add` and `n` exchanged: a variable inside of a function gets the name of a function outside. -/
example : (swappedCode one (swap "add" "n" rfl rfl)).map Prod.fst = (codeOf one).map Prod.fst ∧
    (swappedCode one (swap "add" "n" rfl rfl)).map Prod.snd = some ["total", "n"] := by decide +kernel

/-- Not every replacement will do: with one name for two variables the code is another one. -/
example : (codeOf "fn f(a, b) { a - b }".toList).map Prod.fst ≠ (codeOf "fn f(a, a) { a - a }".toList).map Prod.fst := by decide +kernel

/-- A function of the host that looks at numbers only treats functions alike: `@twice`. -/
private def twice : Builtin Unit VClos := .fn fun d args _ => match args with
  | [.int i] => (.ok (.int (i + i)), d)
  | _ => (.err .halt, d)

example (R : Relabel) (lim : Limits) : R.Alike lim twice := by
  intro d args
  match args with
  | [] => rfl
  | [v] => cases v <;> rfl
  | v :: _ :: _ => cases v <;> rfl

private def runOf (T : List Char) : Option (Option Int) :=
  match (parseWithIncludes Check.env.W 1 "main" T ⟨[], []⟩).1 with
  | .ok ast => match compile Check.env.cfg ast with
    | .ok s => match (hosted ⟨Check.env.cfg, ⟨some 100, some 10, ⟨100, 100⟩⟩, id, id, 9⟩ () s [("twice", twice)] []).run (fun _ => false) 400 with
      | some (.done (.int i) _) => some (some i.toInt)
      | some (.err (.name (.undefined _)) _ _) => some none
      | _ => none
    | _ => none
  | _ => none

private def third : List Char := "let total = 1\nfn add(n, m) { for i in 0:m { total += @twice(i) }\n total + n }\nadd(2, 3)".toList

example : runOf third = some (some 9) := by decide +kernel
example : runOf "let a = 1\nfn b(c, d) { for e in 0:d { a += @twice(e) }\n a + c }\nb(2, 3)".toList = some (some 9) := by decide +kernel
example : runOf "let a = 1\na + b".toList = some none := by decide +kernel

end Quilt.Props
