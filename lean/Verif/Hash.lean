import Verif.Arith

/-!
# Hashing of values: `interpreter/src/value.rs:158-183, 206-219, 252-258, 310-317`

`Hash::hash` is modelled by the sequence of writes it makes to the hasher.
-/

namespace Quilt

/-- One write to a `Hasher`; the tag is the primitive type. -/
inductive Tok where
  | i32 (n : BitVec 32)
  | i64 (n : BitVec 64)
  | u64 (n : BitVec 64)
  | u8 (n : Nat)
  | u16 (n : Nat)
  | usize (n : Nat)
  | bool (b : Bool)
  | str (s : List Char)
  | len (n : Nat)
  | bytes (bs : List (BitVec 8))
  deriving DecidableEq, Repr

/-- `value.rs:206-219`: name, span, arity, upvalue count and code length (not the code). -/
def Func.hashToks (f : Func) : List Tok :=
  [.str f.name.toList, .usize f.nameSpan.start, .usize f.nameSpan.stop, .usize f.nameSpan.src,
   .u8 f.arity, .u16 f.upvalueCount, .usize f.ops.length]

mutual
/-- `value.rs:158-183`; `hc` hashes a closure. `Vecc` derives `Hash`, so its elements (preceded by
their number), its size and its limit are all fed (`common/src/vecc.rs:75`). Constructor
discriminants are not hashed. -/
def Val.hashToks {C : Type} (hc : C → List Tok) : Val C → List Tok
  | .none => [.i32 0]
  | .bool b => [.bool b]
  | .int i => [.i64 i]
  | .float f => [.u64 f]
  | .range a b => [.i32 a, .i32 b]
  | .color r g b a => [.len 4, .bytes [r, g, b, a]]
  | .str s => [.str s]
  | .special id n => [.str id.toList, .usize n]
  | .arr d s m => .len d.length :: (Val.hashToksL hc d ++ [.usize s, .usize m])
  | .pair a b => a.hashToks hc ++ b.hashToks hc
  | .func f => f.hashToks
  | .clos c => hc c
  | .loopCtx i => [.usize i]
termination_by structural v => v
def Val.hashToksL {C : Type} (hc : C → List Tok) : List (Val C) → List Tok
  | [] => []
  | v :: vs => v.hashToks hc ++ Val.hashToksL hc vs
termination_by structural v => v
end

end Quilt
