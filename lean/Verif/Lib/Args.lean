import Verif.Vm.Machine
import Verif.Show
import Verif.Hash

/-!
# How builtins take their arguments: `interpreter/src/builtins/mod.rs`, `builtins/macros.rs`
-/

namespace Quilt.Lib

/-- Functions of the Rust standard library that the builtins call and that are not modelled:
conversions and functions on floats (`f32` and `f64` as bit patterns), case mapping, number parsing,
the default hasher. Nothing is assumed about them. -/
structure Ops where
  F : FOps
  /-- `f64 as i32` -/
  toI32 : BitVec 64 → BitVec 32
  /-- `f64 as u8` -/
  toU8 : BitVec 64 → BitVec 8
  /-- `i64 as f32` -/
  intToF32 : BitVec 64 → BitVec 32
  /-- `f64 as f32` -/
  toF32 : BitVec 64 → BitVec 32
  min : BitVec 64 → BitVec 64 → BitVec 64
  max : BitVec 64 → BitVec 64 → BitVec 64
  abs : BitVec 64 → BitVec 64
  round : BitVec 64 → BitVec 64
  floor : BitVec 64 → BitVec 64
  ceil : BitVec 64 → BitVec 64
  powi : BitVec 64 → BitVec 32 → BitVec 64
  /-- `log10`, `log2`, `sin`, `cos`, `tan`, `asin`, `acos`, `atan`, `sqrt` -/
  unary : String → BitVec 64 → BitVec 64
  atan2 : BitVec 64 → BitVec 64 → BitVec 64
  /-- `f64::clamp` of a value when `min <= max` -/
  clamp : BitVec 64 → BitVec 64 → BitVec 64 → BitVec 64
  /-- `str::parse::<f64>` -/
  parse : List Char → Option (BitVec 64)
  /-- `char::to_uppercase` -/
  upper : Char → List Char
  /-- `str::to_lowercase` -/
  lower : List Char → List Char
  /-- `DefaultHasher` after the given writes -/
  hash : List Tok → BitVec 64

/-- `255.0`. -/
def f255 : BitVec 64 := 0x406FE00000000000
/-- `10.0`. -/
def f10 : BitVec 64 := 0x4024000000000000

/-- The parameter types of `generate_builtins!`: the methods of `Consumable`
(`builtins/mod.rs:101-125`). -/
inductive PKind where
  | int | int32 | u8 | bool | float | double | num | str | color | list | pair | rest | any
  | special (id : String)
  deriving DecidableEq, Repr

/-- What a parameter of a type is in the body of the builtin. -/
def PKind.T (C : Type) : PKind → Type
  | .int => BitVec 64
  | .int32 => BitVec 32
  | .u8 => BitVec 8
  | .bool => Bool
  | .float => BitVec 32
  | .double => BitVec 64
  | .num => BitVec 64
  | .str => List Char
  | .color => BitVec 8 × BitVec 8 × BitVec 8 × BitVec 8
  | .list => List (Val C)
  | .pair => Val C × Val C
  | .rest => List (Val C)
  | .any => Val C
  | .special _ => Nat

/-- `builtins/mod.rs:46-49` `BuiltinArgsContainer`. -/
structure Args (C : Type) where
  args : List (Val C)
  idx : Nat

namespace Args
variable {C : Type}

/-- `builtins/mod.rs:53-55`. -/
def new (args : List (Val C)) : Args C := ⟨args, 0⟩

/-- `builtins/mod.rs:58-60`. `idx` exceeds the length only after a failed `next`, after which no
builtin calls `len`. -/
def len (a : Args C) : Nat := a.args.length - a.idx

/-- `builtins/mod.rs:63-67`. -/
def next (a : Args C) : Option (Val C) × Args C := (a.args[a.idx]?, { a with idx := a.idx + 1 })

/-- `builtins/mod.rs:70-78`. -/
def remaining (a : Args C) : List (Val C) × Args C :=
  (if a.idx = a.args.length then [] else a.args.drop a.idx, { a with idx := a.args.length })

/-- `builtins/mod.rs:145-158`. -/
def consume (a : Args C) (want : String) : Res (Val C × Args C) :=
  match a.next with
  | (some v, a') => .ok (v, a')
  | (none, _) => .err (.builtin ("too litte arguments supplied to builtin, expected `" ++ want ++ "`"))

/-- `builtins/mod.rs:129-131`: the error for `got`, and `Expected` lists the wanted type first. -/
def expected (got want : String) : Err := .type (.expected want got)

/-- `builtins/mod.rs:160-173`. -/
def special (a : Args C) (id : String) : Res (Nat × Args C) :=
  (a.consume id).bind fun (v, a) =>
    match v with
    | .special s n => if id = s then .ok (n, a) else .err (expected s id)
    | v => .err (expected v.ntype id)

/-- `builtins/mod.rs:176-183`. -/
def int (L : Ops) (a : Args C) : Res (BitVec 64 × Args C) :=
  (a.consume "int").bind fun (v, a) =>
    match v with
    | .int i => .ok (i, a)
    | .float f => .ok (L.F.toInt f, a)
    | v => .err (expected v.ntype "int")

/-- `builtins/mod.rs:186-193`. -/
def int32 (L : Ops) (a : Args C) : Res (BitVec 32 × Args C) :=
  (a.consume "int").bind fun (v, a) =>
    match v with
    | .int i => .ok (i.setWidth 32, a)
    | .float f => .ok (L.toI32 f, a)
    | v => .err (expected v.ntype "int")

/-- `builtins/mod.rs:196-203`. -/
def num (L : Ops) (a : Args C) : Res (BitVec 64 × Args C) :=
  (a.consume "num").bind fun (v, a) =>
    match v with
    | .int i => .ok (L.F.ofInt i, a)
    | .float f => .ok (f, a)
    | v => .err (expected v.ntype "num")

/-- `builtins/mod.rs:208-215`. -/
def u8 (L : Ops) (a : Args C) : Res (BitVec 8 × Args C) :=
  (a.consume "u8").bind fun (v, a) =>
    match v with
    | .int i => .ok (BitVec.ofInt 8 (Max.max (Min.min i.toInt 255) 0), a)
    | .float f => .ok (L.toU8 (L.max (L.min (L.F.mul f f255) f255) 0), a)
    | v => .err (expected v.ntype "u8")

/-- `builtins/mod.rs:218-224`. -/
def bool (a : Args C) : Res (Bool × Args C) :=
  (a.consume "bool").bind fun (v, a) =>
    match v with
    | .bool b => .ok (b, a)
    | v => .err (expected v.ntype "bool")

/-- `builtins/mod.rs:227-234`. -/
def float (L : Ops) (a : Args C) : Res (BitVec 32 × Args C) :=
  (a.consume "float").bind fun (v, a) =>
    match v with
    | .int i => .ok (L.intToF32 i, a)
    | .float f => .ok (L.toF32 f, a)
    | v => .err (expected v.ntype "float")

/-- `builtins/mod.rs:237-244`. -/
def double (L : Ops) (a : Args C) : Res (BitVec 64 × Args C) :=
  (a.consume "float").bind fun (v, a) =>
    match v with
    | .int i => .ok (L.F.ofInt i, a)
    | .float f => .ok (f, a)
    | v => .err (expected v.ntype "float")

/-- `builtins/mod.rs:247-253`. -/
def str (a : Args C) : Res (List Char × Args C) :=
  (a.consume "str").bind fun (v, a) =>
    match v with
    | .str s => .ok (s, a)
    | v => .err (expected v.ntype "str")

/-- `builtins/mod.rs:256-262`. -/
def color (a : Args C) : Res ((BitVec 8 × BitVec 8 × BitVec 8 × BitVec 8) × Args C) :=
  (a.consume "color").bind fun (v, a') =>
    match v with
    | .color r g b a => .ok ((r, g, b, a), a')
    | v => .err (expected v.ntype "color")

/-- `builtins/mod.rs:265-272`. -/
def list (a : Args C) : Res (List (Val C) × Args C) :=
  (a.consume "list").bind fun (v, a) =>
    match v with
    | .arr xs _ _ => .ok (xs, a)
    | .pair x y => .ok ([x, y], a)
    | v => .err (expected v.ntype "list")

/-- `builtins/mod.rs:274-280`. -/
def pair (a : Args C) : Res ((Val C × Val C) × Args C) :=
  (a.consume "pair").bind fun (v, a) =>
    match v with
    | .pair x y => .ok ((x, y), a)
    | v => .err (expected v.ntype "pair")

/-- `builtins/mod.rs:283-285`. -/
def rest (a : Args C) : Res (List (Val C) × Args C) := .ok a.remaining

/-- `builtins/mod.rs:301-303`. -/
def any (a : Args C) : Res (Val C × Args C) := a.consume "any"

/-- `builtins/mod.rs:288-298`. -/
def stop (a : Args C) : Res Unit :=
  match a.next with
  | (some v, _) => .err (.builtin ("too many arguments, got extra " ++ v.ntype))
  | (none, _) => .ok ()

/-- The method named by a parameter type. -/
def take (L : Ops) : (k : PKind) → Args C → Res (k.T C × Args C)
  | .int, a => a.int L
  | .int32, a => a.int32 L
  | .u8, a => a.u8 L
  | .bool, a => a.bool
  | .float, a => a.float L
  | .double, a => a.double L
  | .num, a => a.num L
  | .str, a => a.str
  | .color, a => a.color
  | .list, a => a.list
  | .pair, a => a.pair
  | .rest, a => a.rest
  | .any, a => a.any
  | .special id, a => a.special id

/-- `builtins/mod.rs:134-143`. -/
def optional (L : Ops) (k : PKind) (a : Args C) : Res (Option (k.T C) × Args C) :=
  if a.len = 0 then .ok (none, a) else (a.take L k).map fun (x, a) => (some x, a)

end Args

variable {C D : Type}

/-- The parameters of a body, in order. -/
def Params (C : Type) : List PKind → Type
  | [] => Unit
  | k :: ks => k.T C × Params C ks

/-- `let $arg = args.$type()?;` for every required parameter, `builtins/macros.rs:27-29`. -/
def takeReq (L : Ops) : (ks : List PKind) → Args C → Res (Params C ks × Args C)
  | [], a => .ok ((), a)
  | k :: ks, a => (a.take L k).bind fun (x, a) => (takeReq L ks a).map fun (xs, a) => ((x, xs), a)

/-- Optional parameters with their defaults. -/
abbrev OptParams (C : Type) := List ((k : PKind) × k.T C)

/-- `let $oparg = args.optional(..)?.unwrap_or_else(|| $opdef);` for every optional parameter,
`builtins/macros.rs:31-33`. All optional parameters of the standard library have a default. -/
def takeOpt (L : Ops) : (os : OptParams C) → Args C → Res (Params C (os.map (·.1)) × Args C)
  | [], a => .ok ((), a)
  | o :: os, a => (a.optional L o.1).bind fun (x, a) => (takeOpt L os a).map fun (xs, a) => ((x.getD o.2, xs), a)

/-- `generate_builtins!`, `builtins/macros.rs:18-37`: the function made of a signature and a body.
These builtins do not touch the host data. -/
def builtin (L : Ops) (req : List PKind) (opt : OptParams C)
    (body : Params C req → Params C (opt.map (·.1)) → Limits → Res (Val C)) : BFn D C :=
  fun d args lim =>
    ((takeReq L req (Args.new args)).bind fun (xs, a) =>
      (takeOpt L opt a).bind fun (ys, a) => a.stop.bind fun _ => body xs ys lim, d)

end Quilt.Lib
