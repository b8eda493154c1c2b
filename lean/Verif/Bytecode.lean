import Verif.Common.Rle

/-!
# Byte buffers and chunks: `bytecode/src/bytecode.rs`, `bytecode/src/chunk.rs`
-/

namespace Quilt

/-- `u16::to_le_bytes`. -/
def u16le (v : Nat) : List UInt8 := [UInt8.ofNat (v % 256), UInt8.ofNat (v / 256 % 256)]

namespace Bytes

/-- `bytecode/src/bytecode.rs:113-120` `insert_op`, `insert_u8`: `Vec::insert` panics past the end. -/
def insertU8 (ops : List UInt8) (i : Nat) (b : UInt8) : Res (List UInt8) :=
  if i ≤ ops.length then .ok (ops.insertIdx i b) else .panic

/-- `bytecode/src/bytecode.rs:122-127`. -/
def insertU16 (ops : List UInt8) (i : Nat) (v : Nat) : Res (List UInt8) :=
  (insertU8 ops i (UInt8.ofNat (v / 256 % 256))).bind fun o => insertU8 o i (UInt8.ofNat (v % 256))

/-- `bytecode/src/bytecode.rs:129-137` `patch_op`, `patch_u8`. -/
def patchU8 (ops : List UInt8) (i : Nat) (b : UInt8) : Res (List UInt8) :=
  if i < ops.length then .ok (ops.set i b) else .panic

/-- `bytecode/src/bytecode.rs:139-144`. -/
def patchU16 (ops : List UInt8) (i : Nat) (v : Nat) : Res (List UInt8) :=
  (patchU8 ops i (UInt8.ofNat (v % 256))).bind fun o => patchU8 o (i + 1) (UInt8.ofNat (v / 256 % 256))

/-- `bytecode/src/bytecode.rs:146-154` `write_op`, `write_u8`. -/
def writeU8 (ops : List UInt8) (b : UInt8) : List UInt8 := ops ++ [b]

/-- `bytecode/src/bytecode.rs:156-159`. -/
def writeU16 (ops : List UInt8) (v : Nat) : List UInt8 := ops ++ u16le v

/-- `bytecode/src/bytecode.rs:161-169` `read_op`, `read_u8`. -/
def readU8 (ops : List UInt8) (i : Nat) : Res UInt8 :=
  match ops[i]? with
  | some b => .ok b
  | none => .panic

/-- `bytecode/src/bytecode.rs:171-174`. -/
def readU16 (ops : List UInt8) (i : Nat) : Res Nat :=
  match ops[i]?, ops[i + 1]? with
  | some a, some b => .ok (a.toNat + 256 * b.toNat)
  | _, _ => .panic

theorem le_roundtrip (v : Nat) (h : v < 65536) :
    (UInt8.ofNat (v % 256)).toNat + 256 * (UInt8.ofNat (v / 256 % 256)).toNat = v := by
  simp; omega

end Bytes

/-- `bytecode/src/chunk.rs:6-11`; constants and symbols are kept by the compiler model. -/
structure Chunk where
  ops : List UInt8
  spans : Rle Span
  deriving DecidableEq, Repr

namespace Chunk

/-- `bytecode/src/chunk.rs:14-21`. -/
def empty : Chunk := ⟨[], Rle.empty⟩

/-- `bytecode/src/chunk.rs:24-27` (`write_op`) and `30-33` (`write_u8`). -/
def writeU8 (c : Chunk) (b : UInt8) (sp : Span) : Chunk :=
  ⟨Bytes.writeU8 c.ops b, c.spans.push sp⟩

/-- `bytecode/src/chunk.rs:36-39`. -/
def writeU16 (c : Chunk) (v : Nat) (sp : Span) : Chunk :=
  ⟨Bytes.writeU16 c.ops v, c.spans.pushN sp 2⟩

/-- `bytecode/src/chunk.rs:42-49` (`patch_u8`, `patch_op`). -/
def patchU8 (c : Chunk) (i : Nat) (b : UInt8) : Res Chunk :=
  (Bytes.patchU8 c.ops i b).map fun o => { c with ops := o }

/-- `bytecode/src/chunk.rs:52-54`. -/
def patchU16 (c : Chunk) (i : Nat) (v : Nat) : Res Chunk :=
  (Bytes.patchU16 c.ops i v).map fun o => { c with ops := o }

/-- `bytecode/src/chunk.rs:85-87`. -/
def getSpan (c : Chunk) (i : Nat) : Span := (c.spans.get i).getD Span.default

/-- `bytecode/src/chunk.rs:90-92`. -/
def lastSpan (c : Chunk) : Span := c.spans.last?.getD Span.default

/-- `bytecode/src/chunk.rs:95-97`. -/
def firstSpan (c : Chunk) : Span := c.spans.first?.getD Span.default

/-- `bytecode/src/chunk.rs:100-102`. -/
def len (c : Chunk) : Nat := c.ops.length

end Chunk

end Quilt
