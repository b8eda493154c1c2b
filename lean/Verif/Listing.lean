import Verif.Disasm
import Verif.Message
import Verif.Cli

/-!
# Listings as text, and the flags that print them: `disassembler/src/structure.rs`, `cli/src/main.rs:113-160`

Colours (crate `colored`) are a parameter `paint`: what is printed for a text in a colour.
-/

namespace Quilt

inductive Colour where
  | red | cyan | yellow | green | blue

/-- `bytecode/src/bytecode.rs:26-92`. -/
def opNames : List String := [
  "Halt", "Return", "Pop", "PopMany", "Swap", "SwapPop", "LoadConst", "LoadLocal", "SetLocal", "DefineGlobal", "LoadUpvalue", "SetUpvalue",
  "LoadGlobal", "SetGlobal", "DefineGlobalDefaulted", "CloseUpvalue", "CreateFunction", "CreateClosure", "CreatePair", "CreateArray", "CreateRange",
  "CallFunction", "CallBuiltin", "EnterContext", "ExitContext", "BlockResult", "BlockReturn", "JumpIfFalse", "JumpIfNotEq", "JumpForward", "JumpBackward",
  "Unpack", "LoadNone", "LoadNoneMany", "NewLoopCtx", "IterNext", "IndexGet", "IndexSet", "UnaryNegate", "UnaryNot", "UnarySpread",
  "BinaryAdd", "BinarySubtract", "BinaryMultiply", "BinaryDivide", "BinaryModulo", "BinaryPower", "BinaryEqual", "BinaryNotEqual", "BinaryGreater",
  "BinaryGreaterEqual", "BinaryLess", "BinaryLessEqual", "BinaryAnd", "BinaryOr", "BinaryJoin", "BitwiseAnd", "BitwiseOr", "BitwiseXor", "BitwiseNot",
  "BitwiseLeftShift", "BitwiseRightShift"]

/-- `ByteCodeName::name`, `bytecode.rs:14-22`. -/
def opName (b : UInt8) : String := (opNames[b.toNat]?).getD "Unknown"

/-- `{: <n}`. -/
def padTo (n : Nat) (t : List Char) : List Char := t ++ List.replicate (n - t.length) ' '

variable (F : FOps) (plain : Char → Bool) (paint : Colour → List Char → List Char)

mutual
/-- `impl Display for Hint` on the constants, `structure.rs:60-102`. (Strings are not coloured: `&….green()` is the plain text.) -/
def Literal.hintText : Literal → List Char
  | .none => paint .cyan "none".toList
  | .bool b => paint .yellow (if b then "true".toList else "false".toList)
  | .int i => paint .yellow (showInt i.toInt)
  | .float f => paint .yellow (F.toStr f)
  | .range l r => paint .yellow (showInt l.toInt) ++ ':' :: paint .yellow (showInt r.toInt)
  | .color r g b a => '#' :: (hexText r ++ hexText g ++ hexText b ++ hexText a)
  | .str s => debugText plain (String.ofList s)
  | .arr xs => if xs.length ≤ 10 then '[' :: ((Literal.hintTexts xs).intersperse ", ".toList).flatten ++ [']']
      else '[' :: (((Literal.hintTexts xs).take 9).intersperse ", ".toList).flatten ++ ", ...]".toList
  | .pair a b => '(' :: (Literal.hintText a ++ ", ".toList ++ Literal.hintText b ++ [')'])
termination_by structural l => l
def Literal.hintTexts : List Literal → List (List Char)
  | [] => []
  | l :: ls => Literal.hintText l :: Literal.hintTexts ls
termination_by structural ls => ls
end

/-- `impl Display for Hint`, `structure.rs:58-136`. -/
def Hint.text : Hint → List Char
  | .const l => l.hintText F plain paint
  | .function n line file => paint .cyan ("<func ".toList ++ paint .green n.toList ++ ", file \"".toList ++ file.toList ++ "\", line ".toList ++ showNat line ++ ['>'])
  | .closure n line file ups => "<closure ".toList ++ n.toList ++ ", file \"".toList ++ file.toList ++ "\", line ".toList ++ showNat line ++
      ", (upvalues=".toList ++ showNat ups ++ ")>".toList
  | .symbol s => paint .cyan s.toList
  | .builtin s => paint .cyan ("<builtin ".toList ++ s.toList ++ ['>'])
  | .jump a => paint .red (">> ".toList ++ showNat a)
  | .op s => s.toList

/-- The last column, `structure.rs:163-173`. -/
def DLine.hintText (l : DLine) : List Char := match l.hint with
  | none => []
  | some (.jump a) => paint .red ((if l.offset < a then ">> ".toList else "<< ".toList) ++ showNat a)
  | some h => '(' :: (h.text F plain paint ++ [')'])

/-- `Line::display`, `structure.rs:138-178`. -/
def DLine.text (last : Nat) (l : DLine) : List Char :=
  (if last ≠ l.line then paint .red (padTo 4 (showNat l.line) ++ "   ".toList) else paint .red "       ".toList) ++
  ((if l.isJump then paint .red ">>  ".toList else paint .red "    ".toList) ++
  (paint .red (padTo 4 (showNat l.offset) ++ [' ']) ++
  (paint .blue (padTo 15 (opName l.opcode).toList ++ [' ']) ++
  ((match l.oparg with
    | some n => paint .green (padTo 4 (showNat n) ++ [' '])
    | none => "     ".toList) ++
  (l.hintText F plain paint ++ ['\n'])))))

/-- The loop of `impl Display for FunctionDisassembly`, `structure.rs:199-209`. -/
def linesText : (first : Bool) → (last : Nat) → List DLine → List Char
  | _, _, [] => []
  | first, last, l :: ls => (if l.line ≠ last ∧ first = false then ['\n'] else []) ++ (l.text F plain paint last ++ linesText false l.line ls)

/-- `impl Display for FunctionDisassembly`, `structure.rs:186-209`. -/
def FnDis.text (d : FnDis) : List Char :=
  paint .cyan ("Disassembly of <func ".toList ++ paint .green d.name.toList ++ ", file \"".toList ++ d.file.toList ++ "\", line ".toList ++ showNat d.line ++ ">\n".toList) ++
  linesText F plain paint true 0 d.lines

/-- What the disassembler knows, `disassembler/src/lib.rs:26-46`. -/
def Sources.denv (c : Sources) (globals : List String) : DEnv where
  lineno sp := match c.lineno sp with | .ok l => l | _ => none
  fname sp := (c[sp.src]?).map (·.1)
  globals := globals

namespace Cli

open Quilt.Lib

/-- The flags, `main.rs:11-31`, and what is printed for the times (`{:?}` of durations). -/
structure Flags where
  disassemble : Bool := false
  debug : Bool := false
  timeit : Bool := false
  parsed : List Char := []
  compiled : List Char := []
  disassembled : List Char := []
  took : List Char := []

variable (E : Env) (a : Args) (fl : Flags)

/-- `println!("PARSED: {:?}", …)` and the like. -/
def timeLine (on : Bool) (label : String) (time : List Char) : List Char := if on then label.toList ++ ": ".toList ++ time ++ ['\n'] else []

/-- `main.rs:134-144`. -/
def listing (ds : List FnDis) : List Char := (ds.map fun d => d.text E.L.F plain paint ++ ['\n']).flatten

/-- What is printed before the run, `main.rs:116-144`; `none` is a panic of the disassembler. -/
def before (c : Sources) (script : Script) : Option (List Char) :=
  let head := timeLine fl.debug "PARSED" fl.parsed ++ timeLine fl.debug "COMPILED" fl.compiled
  if fl.disassemble then
    (Disasm.script (c.denv script.syms.entries) script.fn).map fun ds => head ++ timeLine fl.debug "DISASSEMBLED" fl.disassembled ++ listing plain paint E ds
  else some head

/-- What follows `vm.run()`, `main.rs:156-177`. -/
def finishWith (pre : List Char) (sources : Sources) : StepR Io → Option Outcome
  | .next _ => none
  | .panic => some .crash
  | .done v s => some (.exit ⟨0, pre ++ s.data.out ++ timeLine fl.timeit "TOOK" fl.took ++ returned a.result (v.text E.L.F vname) (isNone v), none⟩)
  | .err e sp s => match Machine.traceText sources (Machine.traceBack s) with
    | .ok t => some (.exit ⟨1, pre ++ s.data.out ++ timeLine fl.timeit "TOOK" fl.took ++ t, some (.error e sp)⟩)
    | _ => some .crash

/-- `main` with the flags, `main.rs:61-177`; compare `Cli.main`. -/
def mainWith (k fuel : Nat) (name : String) (file : Except (List Char) (List Char)) : Option Outcome :=
  match file with
  | .error e => some (.exit ⟨1, [], some (.file e)⟩)
  | .ok src => match Peg.parseWithIncludes E.W k name src ⟨[], []⟩ with
    | (.oof, _) => none
    | (.err e, _) => some (.exit ⟨1, [], some (.reading e)⟩)
    | (.ok ast, c) => match compile E.cfg ast with
      | .panic => some .crash
      | .err e sp => some (.exit ⟨1, timeLine fl.debug "PARSED" fl.parsed, some (.error e sp)⟩)
      | .ok script => match before plain paint E fl c.sources script with
        | none => some .crash
        | some pre => ((machine E a script).run (expired E a) fuel).bind (finishWith E a fl pre c.sources)

end Cli

end Quilt
