import Verif.Common.Vecc
import Verif.Lib.ArgLemmas

/-!
# Values made from data of the host

The `From` implementations of `Value`, `interpreter/src/value.rs:320-415`, which hosts and builtins use, and the sizes of host data,
`common/src/vecc.rs:6-73`.
-/

namespace Quilt

/-- The types that `Value` can be made from, `value.rs:342-415`; `&str` and `&String` are as `String`, and `Value` itself by the standard
library. -/
inductive HType where
  | f32 | f64 | i8 | i16 | i32 | i64 | u8 | u16 | u32 | u64 | bool | string | range | color | special | value
  | option (t : HType) | pair (a b : HType) | vec (t : HType)
  deriving DecidableEq, Repr

namespace HType
variable {C : Type}

/-- Data of a type; floats as bit patterns. -/
def Data (C : Type) : HType → Type
  | f32 => BitVec 32
  | f64 => BitVec 64
  | i8 | u8 => BitVec 8
  | i16 | u16 => BitVec 16
  | i32 | u32 => BitVec 32
  | i64 | u64 => BitVec 64
  | bool => Bool
  | string => List Char
  | range => BitVec 32 × BitVec 32
  | color => BitVec 8 × BitVec 8 × BitVec 8 × BitVec 8
  | special => String × Nat
  | value => Val C
  | option t => Option (t.Data C)
  | pair a b => a.Data C × b.Data C
  | vec t => List (t.Data C)

/-- Types with `GetSize`, `vecc.rs:12-73`, `value.rs:17-30`: what vectors can be made of (`value.rs:404-407`). -/
def sized : HType → Bool
  | i8 | i16 | i32 | i64 | u8 | u16 | u32 | u64 | bool | string | color | value => true
  | option t | vec t => t.sized
  | _ => false

/-- `GetSize::get_size` of host data, `vecc.rs:12-73`; 0 for types without it. -/
def size : (t : HType) → t.Data C → Nat
  | i8, _ | u8, _ | bool, _ => 1
  | i16, _ | u16, _ => 2
  | i32, _ | u32, _ | color, _ => 4
  | i64, _ | u64, _ => 8
  | string, s => utf8Len s
  | value, v => Val.getSize v
  | option t, some x => t.size x
  | vec t, xs => (xs.map t.size).sum
  | _, _ => 0

/-- `Value::from`, `value.rs:320-415`; `w` is `f32 as f64`. `new_from` (`vecc.rs:139-146`) counts the sizes of the values, while the limit of the
array is the size of the host data. -/
def into (w : BitVec 32 → BitVec 64) : (t : HType) → t.Data C → Val C
  | f32, x => .float (w x)
  | f64, x => .float x
  | i8, x => .int (BitVec.signExtend 64 (x : BitVec 8))
  | i16, x => .int (BitVec.signExtend 64 (x : BitVec 16))
  | i32, x => .int (BitVec.signExtend 64 (x : BitVec 32))
  | i64, x => .int x
  | u8, x => .int (BitVec.setWidth 64 (x : BitVec 8))
  | u16, x => .int (BitVec.setWidth 64 (x : BitVec 16))
  | u32, x => .int (BitVec.setWidth 64 (x : BitVec 32))
  | u64, x => .int x
  | bool, b => .bool b
  | string, s => .str s
  | range, (a, b) => .range a b
  | color, (r, g, b, a) => .color r g b a
  | special, (s, n) => .special s n
  | value, v => v
  | option t, some x => into w t x
  | option _, none => .none
  | pair a b, (x, y) => .pair (into w a x) (into w b y)
  | vec t, xs =>
    let v := Vecc.newFrom Val.getSize (xs.map (into w t)) ((xs.map t.size).sum)
    .arr v.data v.size v.maxSize

end HType
end Quilt
