import Verif.Lib.Core
import Verif.Hash

/-!
# `qstd/src/math.rs` (without the random numbers), `colors.rs` (integer part), `testing.rs`
-/

namespace Quilt.Lib

variable {C : Type}

/-- `math.rs:15-39`. -/
def logFn (L : Ops) (f : String) : Val C → Res (Val C)
  | .int i => .ok (.float (L.unary f (L.F.ofInt i)))
  | .float x => .ok (.float (L.unary f x))
  | v => .err (.type (.cannotConvert v.ntype "float"))

/-- `math.rs:63-71`, `74-82`. -/
def minMax (pickI : BitVec 64 → BitVec 64 → BitVec 64) (pickF : BitVec 64 → BitVec 64 → BitVec 64) (F : FOps) : Val C → Val C → Res (Val C)
  | .int a, .int b => .ok (.int (pickI a b))
  | .float a, .float b => .ok (.float (pickF a b))
  | .int a, .float b => .ok (.float (pickF (F.ofInt a) b))
  | .float a, .int b => .ok (.float (pickF a (F.ofInt b)))
  | a, b => .err (.type (.cannotCompare a.ntype b.ntype))

def min (L : Ops) : Val C → Val C → Res (Val C) := minMax (fun a b => if b.slt a then b else a) L.min L.F
def max (L : Ops) : Val C → Val C → Res (Val C) := minMax (fun a b => if b.slt a then a else b) L.max L.F

/-- `math.rs:85-110`. -/
def roundFn (F : FOps) (f : BitVec 64 → BitVec 64) : Val C → Res (Val C)
  | .int i => .ok (.int i)
  | .float x => .ok (.int (F.toInt (f x)))
  | v => .err (.type (.expected "num" v.ntype))

/-- `math.rs:112-120`. -/
def fix (L : Ops) (a : Val C) (digits : BitVec 64) : Res (Val C) :=
  let scaled (x : BitVec 64) : Val C :=
    .float (L.F.div (L.round (L.F.mul x (L.powi f10 (digits.setWidth 32)))) (L.powi f10 (digits.setWidth 32)))
  match a with
  | .int i => .ok (if digits = 0 then .int i else scaled (L.F.ofInt i))
  | .float f => .ok (if digits = 0 then .int (L.F.toInt f) else scaled f)
  | v => .err (.type (.expected "num" v.ntype))

/-- `math.rs:123-133`. `f64::clamp` panics unless `min <= max`. -/
def clamp (L : Ops) (a m mm : BitVec 64) : Res (Val C) :=
  if L.F.lt mm m then fail "min must be less than max".toList
  else if !L.F.eq m m || !L.F.eq mm mm then fail "min and max must be numbers".toList
  else if L.F.le m mm then .ok (.float (L.clamp a m mm)) else .panic

/-- `math.rs:136-138`. -/
def interp (F : FOps) (a b t : BitVec 64) : Res (Val C) := .ok (.float (F.add a (F.mul (F.sub b a) t)))

/-- `math.rs:141-147`; `i64::abs` overflows for the least integer. -/
def abs (chk : Bool) (L : Ops) : Val C → Res (Val C)
  | .int a => if a = BitVec.intMin 64 ∧ chk then .panic else .ok (.int (if a.toInt < 0 then -a else a))
  | .float a => .ok (.float (L.abs a))
  | v => .err (.type (.expected "num" v.ntype))

/-- `math.rs:42-60`. Arrays, functions and special values are refused, but pairs of them are not; a
pair of functions hashes their names and sizes, which this model leaves out (`fun _ => []`). -/
def hash (L : Ops) : Val C → Res (Val C)
  | .special id n => .err (.type (.cannotHash (Val.special id n : Val C).ntype))
  | .arr xs s m => .err (.type (.cannotHash (Val.arr xs s m).ntype))
  | .loopCtx i => .err (.type (.cannotHash (Val.loopCtx i : Val C).ntype))
  | .func f => .err (.type (.cannotHash (Val.func f : Val C).ntype))
  | .clos c => .err (.type (.cannotHash (Val.clos c).ntype))
  | v => .ok (.int (L.hash (v.hashToks fun _ => []) &&& 0x7FFFFFFF))

/-- `colors.rs:14-21`. -/
def rgba (r g b a : BitVec 8) : Res (Val C) := .ok (.color r g b a)
def rgb (r g b : BitVec 8) : Res (Val C) := .ok (.color r g b 255)

/-- `colors.rs:44-61`: a channel as an integer. -/
def channel (x : BitVec 8) : Res (Val C) := .ok (.int (x.setWidth 64))

/-- `colors.rs:94-96`. -/
def invert (r g b a : BitVec 8) : Res (Val C) := .ok (.color (255 - r) (255 - g) (255 - b) a)

/-- `colors.rs:98-101`. -/
def alpha (L : Ops) (r g b _a : BitVec 8) (x : BitVec 64) : Res (Val C) := .ok (.color r g b (L.toU8 (L.round (L.F.mul x f255))))

/-- `colors.rs:227-238`. -/
def rainbow : List (Val C) :=
  [.color 0xFF 0 0 255, .color 0xFF 0x87 0 255, .color 0xFF 0xD3 0 255, .color 0xDE 0xFF 0x0A 255, .color 0xA1 0xFF 0x0A 255,
   .color 0x0A 0xFF 0x99 255, .color 0x0A 0xEF 0xFF 255, .color 0x14 0x7D 0xF5 255, .color 0x58 0x0A 0xFF 255, .color 0xBE 0x0A 0xFF 255]

/-- `colors.rs:222-224`. -/
def rainbowColors (lim : Limits) : Res (Val C) := makeArray rainbow lim.arrMax

/-- `testing.rs:9-15`. -/
def assert (value : Bool) : Res (Val C) := if value then .ok .none else fail "assertion failed".toList

end Quilt.Lib
