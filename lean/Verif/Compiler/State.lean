import Verif.Value
import Verif.Vm.Instr
import Verif.Common.Pool

/-!
# Compiler state: `compiler/src/lib.rs:18-22`, `:1023-1115`

The source keeps a function level's chunk and its name tables in one struct `Level`. Here they are
kept in two parallel structures: `GLevel` (name tables, everything decisions depend on) and `Head`
(name, arity, chunk), see `Compile.lean`.
-/

namespace Quilt

/-- `Local`, `compiler/src/lib.rs:1026-1035`. The field `cleanup` is always `true` (every call of
`define_local` passes `true`) and left out. Depths are `u16` in the source; more than 65535 nested
scopes are not modelled. -/
structure Local where
  name : String
  depth : Nat
  captured : Bool
  deriving DecidableEq, Repr

/-- `Upvalue`, `compiler/src/lib.rs:1023-1024`. `name` is a ghost: the variable captured. Indices are
truncated to 16 bits when they are written to the chunk, while the source stores them truncated. -/
structure Upv where
  idx : Nat
  isLocal : Bool
  name : String
  deriving DecidableEq, Repr

/-- The name tables of `Level`, `compiler/src/lib.rs:1037-1047`. `locals` in declaration order. -/
structure GLevel where
  locals : List Local
  upvalues : List Upv
  depth : Nat
  symPool : Pool String
  constPool : Pool Const

/-- The part of `Compiler` (`lib.rs:18-22`) without chunks; `encl` is the chain of enclosing
levels, innermost first. -/
structure GState where
  cur : GLevel
  encl : List GLevel
  globals : Pool String
  externals : List Nat

/-- Index of the last local with the name (search loop of `resolve_local`, `lib.rs:1064-1075`). -/
def lastIdx (x : String) : List Local → Option Nat
  | [] => none
  | l :: ls =>
    match lastIdx x ls with
    | some i => some (i + 1)
    | none => if l.name = x then some 0 else none

namespace GLevel

/-- `capture` branch of `resolve_local`, `lib.rs:1067-1069`. -/
def mark (l : GLevel) (i : Nat) : GLevel :=
  { l with locals := l.locals.modify i fun x => { x with captured := true } }

/-- Position of an upvalue record, ignoring the ghost name. -/
def findUp (idx : Nat) (isLocal : Bool) : List Upv → Option Nat
  | [] => none
  | u :: us =>
    if u.idx = idx ∧ u.isLocal = isLocal then some 0
    else (findUp idx isLocal us).map (· + 1)

/-- `add_upvalue`, `lib.rs:1101-1114`. `upvalue_count` is the length of the list. -/
def addUpvalue (l : GLevel) (idx : Nat) (isLocal : Bool) (name : String) : Nat × GLevel :=
  match findUp idx isLocal l.upvalues with
  | some j => (j, l)
  | none => (l.upvalues.length, { l with upvalues := l.upvalues ++ [⟨idx, isLocal, name⟩] })

/-- `define_local`, `lib.rs:993-1020`: the scan stops at the first local of a smaller depth. -/
def defineLocal (l : GLevel) (name : String) : GLevel :=
  let dup := (l.locals.reverse.takeWhile fun x => decide (l.depth ≤ x.depth)).any fun x => x.name = name
  { l with
    symPool := if dup then (l.symPool.addForce name).2 else (l.symPool.add name).2
    locals := l.locals ++ [⟨name, l.depth, false⟩] }

/-- `reserve_temp_local_space`, `lib.rs:985-991`, for one slot. -/
def reserveTemp (l : GLevel) : GLevel :=
  l.defineLocal ("#__temp_" ++ String.ofList (showNat l.locals.length))

/-- A new function level, e.g. `lib.rs:322-338`: depth inherited, then `enter_scope`. -/
def fresh (depth : Nat) : GLevel :=
  { locals := [], upvalues := [], depth := depth + 1, symPool := Pool.empty, constPool := Pool.empty }

/-- Locals removed when the scope depth becomes `d`, topmost first (`lib.rs:172-184`). -/
def leaving (l : GLevel) (d : Nat) : List Local := l.locals.reverse.takeWhile fun x => decide (d < x.depth)

/-- Locals kept when the scope depth becomes `d`. -/
def staying (l : GLevel) (d : Nat) : List Local :=
  (l.locals.reverse.dropWhile fun x => decide (d < x.depth)).reverse

end GLevel

/-- `resolve_upvalue`, `lib.rs:1077-1099`: the level `l` with its enclosing levels. Yields the index
of the upvalue and the updated levels; nothing changes if the name is not found. -/
def resolveUp (x : String) (l : GLevel) : List GLevel → Option (Nat × GLevel × List GLevel)
  | [] => none
  | p :: ps =>
    match lastIdx x p.locals with
    | some i =>
      let (j, l') := l.addUpvalue i true x
      some (j, l', p.mark i :: ps)
    | none =>
      match resolveUp x p ps with
      | some (i, p', ps') =>
        let (j, l') := l.addUpvalue i false x
        some (j, l', p' :: ps')
      | none => none

namespace GState

/-- Change the current level. -/
def onCur (g : GState) (f : GLevel → GLevel) : GState := { g with cur := f g.cur }

/-- `enter_scope`, `lib.rs:164-166`. -/
def enterScope (g : GState) : GState := g.onCur fun l => { l with depth := l.depth + 1 }

/-- State part of `exit_scope`, `lib.rs:168-184`. -/
def exitScope (g : GState) : GState :=
  g.onCur fun l => { l with depth := l.depth - 1, locals := l.staying (l.depth - 1) }

def defineLocal (g : GState) (name : String) : GState := g.onCur fun l => l.defineLocal name
def defineLocals (g : GState) : List String → GState
  | [] => g
  | n :: ns => (g.defineLocal n).defineLocals ns
def reserveTemp (g : GState) : GState := g.onCur GLevel.reserveTemp

/-- `add_constant`, `lib.rs:136-138`. -/
def addConst (g : GState) (c : Const) : Nat × GState :=
  let (i, p) := g.cur.constPool.add c
  (i, g.onCur fun l => { l with constPool := p })

/-- `add_global_symbol`, `lib.rs:146-148`. -/
def addGlobal (g : GState) (name : String) : Nat × GState :=
  let (i, p) := g.globals.add name
  (i, { g with globals := p })

/-- `enter_level`, `lib.rs:151-154`, followed by `enter_scope` and the `define_local` calls of a
function named `name` with the given parameters (`lib.rs:337-345`, `:863-870`). -/
def enterFn (g : GState) (name : String) (params : List String) : GState :=
  ({ g with cur := GLevel.fresh g.cur.depth, encl := g.cur :: g.encl } : GState).defineLocals (name :: params)

/-- What a variable name refers to. -/
inductive Ref where
  | loc (i : Nat)
  | up (i : Nat)
  | glob (i : Nat)
  deriving DecidableEq, Repr

/-- Shared part of `get_variable` and `set_variable`, `lib.rs:962-982`. -/
def resolve (g : GState) (x : String) : Ref × GState :=
  match lastIdx x g.cur.locals with
  | some i => (.loc i, g)
  | none =>
    match resolveUp x g.cur g.encl with
    | some (j, l, ls) => (.up j, { g with cur := l, encl := ls })
    | none => let (i, g') := g.addGlobal x; (.glob i, g')

end GState

/-- Instruction reading a variable (`get_variable`). -/
def GState.Ref.load : GState.Ref → Instr
  | .loc i => .loadLocal i
  | .up i => .loadUpvalue i
  | .glob i => .loadGlobal i

/-- Instruction assigning a variable (`set_variable`). -/
def GState.Ref.store : GState.Ref → Instr
  | .loc i => .setLocal i
  | .up i => .setUpvalue i
  | .glob i => .setGlobal i

/-- Constant folding of unary operators on literals, `lib.rs:923-934`; negating the smallest
integer overflows. `none`: not folded. -/
def foldUnary (cfg : Cfg) (op : Op) (e : Node) : Option (Res Literal) :=
  match op, e with
  | .neg, .lit _ (.int n) =>
    some (if n = BitVec.intMin 64 ∧ cfg.chk then .panic else .ok (.int (-n)))
  | .neg, .lit _ (.float n) => some (.ok (.float (cfg.F.neg n)))
  | .not, .lit _ (.bool b) => some (.ok (.bool (!b)))
  | _, _ => none

end Quilt
