import Verif.Vm.Instr
import Verif.Compiler.Compile

/-!
# Disassembler: `disassembler/src/lib.rs`

Source positions are turned into lines by a parameter `lineno` (`SourceCache::get_lineno`,
`common/src/sourcecache.rs:37-47`; the line table itself is the third-party crate `ariadne`), file
names by `fname`.
-/

namespace Quilt

/-- `disassembler/src/structure.rs`, `Hint`. Constants are shown as themselves
(`create_hint`, `lib.rs:332-372`, copies them field by field). -/
inductive Hint where
  | const (l : Literal)
  | function (name : String) (line : Nat) (file : String)
  | closure (name : String) (line : Nat) (file : String) (upvalues : Nat)
  | symbol (s : String)
  | builtin (s : String)
  | jump (addr : Nat)
  | op (s : String)

/-- `disassembler/src/structure.rs`, `Line`; the opcode's name is determined by `opcode`. -/
structure DLine where
  line : Nat
  span : Nat × Nat
  isJump : Bool
  offset : Nat
  opcode : UInt8
  oparg : Option Nat
  hint : Option Hint
  opargs : List Nat

/-- `FunctionDisassembly`. -/
structure FnDis where
  name : String
  line : Nat
  file : String
  lines : List DLine

/-- What the disassembler knows besides the code: `src` and `main.global_symbols`. -/
structure DEnv where
  lineno : Span → Option Nat
  fname : Span → Option String
  globals : List String

/-- The mutable fields `jump_stack`, `output`, `idx` (`lib.rs:17-22`). -/
structure DState where
  jumps : List Nat
  output : List FnDis
  idx : Nat

namespace Disasm

/-- `extract_fn`, `lib.rs:36-46`. -/
def extractFn (E : DEnv) (f : Func) : String × Nat × String :=
  (f.name, (E.lineno f.nameSpan).getD 0, (E.fname f.nameSpan).getD "unknown")

/-- `create_hint` on the constants of compiled code, `lib.rs:332-372`. -/
def constHint (E : DEnv) : Const → Hint
  | .lit l => .const l
  | .fn f => let (n, l, file) := extractFn E f; .function n l file

/-- `Buffer::read_u8`/`read_u16`; `none` is the index panic. -/
def rd8 (ops : List UInt8) (i : Nat) : Option Nat := (ops[i]?).map UInt8.toNat
def rd16 (ops : List UInt8) (i : Nat) : Option Nat := do
  let a ← rd8 ops i
  let b ← rd8 ops (i + 1)
  pure (a + 256 * b)

/-- The loop over the captured variables of `CreateClosure`, `lib.rs:172-182`. -/
def rdUps (ops : List UInt8) : Nat → Nat → Option (List Nat × Nat)
  | 0, o => some ([], o)
  | n + 1, o => do
    let a ← rd8 ops o
    let b ← rd16 ops (o + 1)
    let (us, o') ← rdUps ops n (o + 3)
    pure (a :: b :: us, o')

/-- What `disassemble_op` determines: the next offset, operands, hint, pushed jump address. -/
structure OpOut where
  next : Nat
  oparg : Option Nat := none
  hint : Option Hint := none
  opargs : List Nat := []
  push : Option Nat := none

/-- The symbols shown for the operators, `lib.rs:251-321`. -/
def opHint : Nat → Option String
  | 38 => some "-" | 39 => some "!" | 40 => some "..."
  | 41 => some "+" | 42 => some "-" | 43 => some "*" | 44 => some "/" | 45 => some "%" | 46 => some "**"
  | 47 => some "==" | 48 => some "!=" | 49 => some ">" | 50 => some ">=" | 51 => some "<" | 52 => some "<="
  | 53 => some "&&" | 54 => some "||" | 55 => some ".."
  | 56 => some "&" | 57 => some "|" | 58 => some "^" | 59 => some "~" | 60 => some "<<" | 61 => some ">>"
  | _ => none

/-- `disassemble_op`, `lib.rs:109-330`; `o` is the offset after the opcode. `none` is a panic (read
outside the chunk, missing constant, or the subtraction of a backward jump). -/
def op (E : DEnv) (f : Func) (code : Nat) (o : Nat) : Option OpOut :=
  match code with
  | 32 => some { next := o, hint := some (.const .none) }
  | 6 | 16 => do
    let i ← rd16 f.ops o
    let k ← f.consts[i]?
    pure { next := o + 2, oparg := some i, hint := some (constHint E k), opargs := [i] }
  | 9 | 12 | 13 | 14 => do
    let i ← rd16 f.ops o
    pure { next := o + 2, oparg := some i, hint := some (.symbol ((E.globals[i]?).getD "unknown")), opargs := [i] }
  | 7 | 8 => do
    let i ← rd16 f.ops o
    pure { next := o + 2, oparg := some i, hint := some (.symbol ((f.symbols[i]?).getD "unknown")), opargs := [i] }
  | 17 => do
    let i ← rd16 f.ops o
    match ← f.consts[i]? with
    | .fn g =>
      let (us, o') ← rdUps f.ops g.upvalueCount (o + 2)
      let (n, l, file) := extractFn E g
      pure { next := o', oparg := some i, hint := some (.closure n l file g.upvalueCount), opargs := i :: us }
    | .lit _ => pure { next := o + 2, opargs := [i] }
  | 10 | 11 | 3 => do
    let i ← rd16 f.ops o
    pure { next := o + 2, oparg := some i, opargs := [i] }
  | 21 | 31 | 19 | 33 => do
    let n ← rd8 f.ops o
    pure { next := o + 1, oparg := some n, opargs := [n] }
  | 22 | 23 => do
    let i ← rd16 f.ops o
    let n ← rd8 f.ops (o + 2)
    pure { next := o + 3, oparg := some n, hint := some (.builtin ((E.globals[i]?).getD "unknown")), opargs := [i, n] }
  | 27 | 29 | 28 | 35 => do
    let j ← rd16 f.ops o
    pure { next := o + 2, oparg := some j, hint := some (.jump (j + (o + 2))), opargs := [j], push := some (j + (o + 2)) }
  | 30 => do
    let j ← rd16 f.ops o
    if o + 2 < j then none
    else pure { next := o + 2, oparg := some j, hint := some (.jump (o + 2 - j)), opargs := [j], push := some (o + 2 - j) }
  | c => some { next := o, hint := (opHint c).map .op }

/-- `disassemble_chunk`, `lib.rs:72-107`: the lines of the chunk and the remaining jump stack.
`fuel` bounds the number of iterations; the length of the code is enough since every iteration
advances. -/
def chunk (E : DEnv) (f : Func) : Nat → Nat → List Nat → Option (List DLine × List Nat)
  | 0, _, jumps => some ([], jumps)
  | fuel + 1, o, jumps =>
    match f.ops[o]? with
    | none => some ([], jumps)
    | some b =>
      let span := f.getSpan o
      match E.lineno span with
      | none => chunk E f fuel (o + 1) jumps
      | some line => do
        let jumps1 := jumps.erase o
        let r ← op E f b.toNat (o + 1)
        let (ls, jumps2) ← chunk E f fuel r.next (jumps1 ++ r.push.toList)
        pure ({ line := line, span := (span.start, span.stop), isJump := jumps.contains o, offset := o, opcode := b,
                oparg := r.oparg, hint := r.hint, opargs := r.opargs } :: ls, jumps2)

/-- Appends lines to `output[idx]` (no effect when there is no such entry, `lib.rs:99-101`). -/
def DState.addLines (s : DState) (ls : List DLine) : DState :=
  { s with output := s.output.modify s.idx fun d => { d with lines := d.lines ++ ls } }

/-- The part of `disassemble_function` before the constants, `lib.rs:53-64`. -/
def enter (E : DEnv) (f : Func) (s : DState) : Option DState := do
  let (n, l, file) := extractFn E f
  let s1 : DState := { s with output := s.output ++ [{ name := n, line := l, file := file, lines := [] }] }
  let (ls, jumps) ← chunk E f f.ops.length 0 s1.jumps
  pure (DState.addLines { s1 with jumps := jumps } ls)

mutual
/-- `disassemble_function`, `lib.rs:53-70`. -/
def func (E : DEnv) : Func → DState → Option DState
  | .mk n ns a u o sp c sy, s => do
    let s ← enter E (.mk n ns a u o sp c sy) s
    consts E c s
termination_by structural f => f
/-- One constant. -/
def const (E : DEnv) : Const → DState → Option DState
  | .lit _, s => some s
  | .fn f, s => func E f { s with idx := s.idx + 1 }
termination_by structural f => f
/-- The loop over the constants. -/
def consts (E : DEnv) : List Const → DState → Option DState
  | [], s => some s
  | c :: cs, s => do
    let s ← const E c s
    consts E cs s
termination_by structural cs => cs
end

/-- `Disassembler::new` and `disassemble`, `lib.rs:26-51`. -/
def script (E : DEnv) (f : Func) : Option (List FnDis) :=
  (func E f { jumps := [], output := [], idx := 0 }).map (·.output)

end Disasm
end Quilt
