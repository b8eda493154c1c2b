import Verif.Lib.Rel
import Verif.Props.Text

/-!
# C57 programs that use the standard library
-/

namespace Quilt.Props

open Quilt.Lib Quilt.Peg

variable {D : Type}

/-- The builtins of a source-level host with a library added, in order. -/
def withLib (l : List (String × BFn D SClos)) (b : String → Option (Builtin D SClos)) : String → Option (Builtin D SClos) :=
  l.foldl (fun b p => updName b p.1 (some (.fn p.2))) b

theorem withLib_lookup (l : List (String × BFn D SClos)) (b : String → Option (Builtin D SClos)) (hl : (l.map Prod.fst).Nodup) (x : String) :
    withLib l b x = match l.lookup x with | some f => some (.fn f) | none => b x := by
  unfold withLib
  induction l generalizing b with
  | nil => rfl
  | cons p l ih =>
    simp only [List.map_cons, List.nodup_cons] at hl
    rw [List.foldl_cons, ih _ hl.2]
    obtain ⟨y, f⟩ := p
    simp only [List.lookup_cons]
    by_cases hx : x = y
    · subst hx
      simp only [beq_self_eq_true]
      have : l.lookup x = none := by
        rw [List.lookup_eq_none_iff]
        intro p hp
        simp only [ne_eq, bne_iff_ne] at *
        intro hxp
        exact hl.1 (hxp ▸ List.mem_map_of_mem (f := Prod.fst) hp)
      rw [this]; simp [updName]
    · have : (x == y) = false := by simpa using hx
      rw [this]
      simp only [updName, hx, if_false]

theorem addBuiltins_cons (m : Machine D) (p : String × Builtin D VClos) (ps : List (String × Builtin D VClos)) :
    m.addBuiltins (p :: ps) = (m.addBuiltins [p]).addBuiltins ps := rfl

theorem prepared_lib {M : Machine.Setup D} {data : D} {script : Script} {l : List (String × BFn D SClos)} {l' : List (String × BFn D VClos)}
    (h : LibRel M.opts.lim l l') {S : SHost D} {σ : SSt D} {m : Machine D} (hp : Prepared M data script S σ m) :
    Prepared M data script { S with builtins := withLib l S.builtins } σ (m.addBuiltins (l'.map fun p => (p.1, .fn p.2))) := by
  induction h generalizing S m with
  | nil => exact hp
  | @cons x f f' l l' hb _ ih =>
    rw [List.map_cons, addBuiltins_cons]
    exact ih (Prepared.builtin (b := .fn f) (b' := .fn f') x hp hb)

/-- A machine stays prepared, in the sense that C19 to C22 and C53 assume, when it is given the standard
library; the builtins of the direct semantics are then the same library. -/
theorem C57_prepared (L : Ops) (chk : Bool) {M : Machine.Setup D} {data : D} {script : Script} {S : SHost D} {σ : SSt D} {m : Machine D}
    (h : Prepared M data script S σ m) :
    Prepared M data script { S with builtins := withLib (stdLib L chk SClos.name) S.builtins } σ
      (m.addBuiltins ((stdLib L chk vname).map fun p => (p.1, .fn p.2))) :=
  prepared_lib (std_rel L chk M.opts.lim) h

/-- The names of the modelled part of the standard library. -/
def stdNames : List String :=
  ["get", "set", "slice", "str", "bin", "oct", "hex", "char", "int_from_radix", "int", "float", "bool", "color", "len", "gettype", "log",
   "log2", "log10", "hash", "min", "max", "round", "floor", "ceil", "fix", "clamp", "interp", "abs", "sin", "cos", "tan", "asin", "acos",
   "atan", "atan2", "sqrt", "rgba", "rgb", "hsla", "hsl", "hsva", "hsv", "r", "g", "b", "a", "luma", "hue", "saturation", "brightness",
   "contrast", "cdifference", "invert", "alpha", "mix", "lighten", "darken", "saturate", "desaturate", "fade", "complement",
   "contrast_color", "rainbow_colors", "truncate", "capitalize", "title",
   "uppercase", "lowercase", "split", "join", "replace", "trim", "trim_start", "trim_end", "starts_with", "ends_with", "contains", "chars",
   "assert", "unreachable", "panic", "todo"]

theorem std_names {C : Type} (L : Ops) (chk : Bool) (cname : C → String) : (stdLib (D := D) L chk cname).map Prod.fst = stdNames := rfl

/-- In the direct semantics a call of a builtin then finds the entry of the library. -/
theorem C57_lookup (L : Ops) (chk : Bool) (S : SHost D) (x : String) {f : BFn D SClos} (h : (stdLib L chk SClos.name).lookup x = some f) :
    withLib (stdLib L chk SClos.name) S.builtins x = some (.fn f) := by
  have hn : ((stdLib (D := D) L chk SClos.name).map Prod.fst).Nodup := by rw [std_names]; decide
  rw [withLib_lookup _ _ hn, h]

/-- The host of the direct semantics for a machine with nothing but the standard library. -/
def stdHost (M : Machine.Setup D) (L : Ops) (chk : Bool) : SHost D :=
  ⟨M.cfg, M.opts.lim, withLib (stdLib L chk SClos.name) fun _ => none, M.onEnter, M.onExit⟩

/-- The state in which programs start. -/
def startSt (data : D) : SSt D := ⟨fun _ => .none, 0, fun _ => none, data, []⟩

/-- The machine: `VM::new`, then `add_builtins(std)`. -/
def stdMachine (M : Machine.Setup D) (data : D) (script : Script) (L : Ops) (chk : Bool) : Machine D :=
  (Machine.new M data script).addBuiltins ((stdLib L chk vname).map fun p => (p.1, .fn p.2))

attribute [local irreducible] withLib stdLib

/-- Every program read from text, compiled, and run with the standard library meets the hypotheses of the
theorems on compiler correctness, C19 to C22. -/
theorem C57_runs {W : World} {M : Machine.Setup D} {data : D} {name : String} {T : List Char} {ast : List Node} {script : Script} (L : Ops) (chk : Bool)
    (hparsed : ∃ k c c', parseWithIncludes W k name T c = (.ok ast, c')) (hc : compile M.cfg ast = .ok script)
    (hplaced : ∀ n ∈ ast, n.placedTop = true) (hsize : sizeL ast ≤ 65535)
    (hnames : (stdMachine M data script L chk).host.syms.entries.length ≤ 65536) :
    RunsText W M data name T ast (stdHost M L chk) (startSt data) (stdMachine M data script L chk) ∧
    Runs M data ast (stdHost M L chk) (startSt data) (stdMachine M data script L chk) := by
  have h : RunsText W M data name T ast (stdHost M L chk) (startSt data) (stdMachine M data script L chk) :=
    ⟨hparsed, ⟨script, hc, C57_prepared L chk .new⟩, hplaced, hsize, hnames⟩
  exact ⟨h, (C53_hypotheses h).1⟩

/-! ## A concrete text -/

private def demoOps : Ops where
  F := demoSetup.cfg.F
  toI32 := fun _ => 0
  toU8 := fun _ => 0
  intToF32 := fun _ => 0
  toF32 := fun _ => 0
  min := fun a _ => a
  max := fun a _ => a
  abs := id
  round := id
  floor := id
  ceil := id
  powi := fun a _ => a
  unary := fun _ a => a
  atan2 := fun a _ => a
  clamp := fun a _ _ => a
  parse := fun _ => none
  upper := fun c => [c]
  lower := id
  hash := fun _ => 0

private def stdText : List Char := "let s = @join(@split(\"a,b,c\", \",\"), \"--\")\n@len(s) + @int(\"39\")".toList

private def stdW : World := ⟨fun _ => none, fun _ => 0⟩

/-- What is checked by evaluation: as in `C53`, now with the library. -/
private def checkStd (T : List Char) (v : Int) : Bool := match parseWithIncludes stdW 1 "main" T ⟨[], []⟩ with
  | (.ok ast, _) => ast.all Node.placedTop && decide (sizeL ast ≤ 65535) &&
    (match compile demoSetup.cfg ast with
    | .ok script => decide ((stdMachine demoSetup 7 script demoOps false).host.syms.entries.length ≤ 65536)
    | _ => false) &&
    match (evalProgram (stdHost demoSetup demoOps false) 9 ast (startSt 7)).1 with
    | .ok (.int i) => i == v
    | _ => false
  | _ => false

private theorem checkStd_runs {T : List Char} {v : Int} (h : checkStd T v = true) :
    ∃ ast script, Runs demoSetup 7 ast (stdHost demoSetup demoOps false) (startSt 7) (stdMachine demoSetup 7 script demoOps false) ∧
      (evalProgram (stdHost demoSetup demoOps false) 9 ast (startSt 7)).1 = .ok (.int v) := by
  unfold checkStd at h
  split at h
  · rename_i ast c' hp
    simp only [Bool.and_eq_true, decide_eq_true_eq] at h
    obtain ⟨⟨⟨h1, h2⟩, h3⟩, h4⟩ := h
    split at h3
    · rename_i script hc
      refine ⟨ast, script, (C57_runs demoOps false ⟨1, _, c', hp⟩ hc (List.all_eq_true.1 h1) h2 (of_decide_eq_true h3)).2, ?_⟩
      split at h4
      · rename_i i hi
        rw [hi, eq_of_beq h4]
      · simp at h4
    · simp at h3
  · simp at h

/-- A program that splits, joins, measures and reads texts; its value is 46. -/
example : ∃ ast script, Runs demoSetup 7 ast (stdHost demoSetup demoOps false) (startSt 7) (stdMachine demoSetup 7 script demoOps false) ∧
    (evalProgram (stdHost demoSetup demoOps false) 9 ast (startSt 7)).1 = .ok (.int 46) :=
  checkStd_runs (T := stdText) (v := 46) (by decide +kernel)

end Quilt.Props
