import Verif.Common.Basic

/-!
# `Bluff<T>`: `common/src/bluff.rs`
-/

namespace Quilt

/-- `common/src/bluff.rs:1-4`. -/
structure Bluff (α : Type) where
  data : List α
  idx : Nat
  deriving DecidableEq, Repr

namespace Bluff
variable {α : Type}

/-- `common/src/bluff.rs:7-12` (`with_capacity` is the same value). -/
def new : Bluff α := ⟨[], 0⟩

/-- `common/src/bluff.rs:22-24`. -/
def clear (b : Bluff α) : Bluff α := { b with idx := 0 }

/-- `common/src/bluff.rs:27-34`: `self.data[self.idx] = value` panics when out of range. -/
def push (b : Bluff α) (v : α) : Res (Bluff α) :=
  if b.idx = b.data.length then .ok ⟨b.data ++ [v], b.idx + 1⟩
  else if b.idx < b.data.length then .ok ⟨b.data.set b.idx v, b.idx + 1⟩
  else .panic

/-- `common/src/bluff.rs:37-40`. -/
def init (b : Bluff α) (v : α) : Res (Bluff α) := push { b with idx := 0 } v

/-- `common/src/bluff.rs:43-50`. -/
def pop (b : Bluff α) : Res (Option α × Bluff α) :=
  if b.idx = 0 then .ok (none, b)
  else match b.data[b.idx - 1]? with
    | some x => .ok (some x, { b with idx := b.idx - 1 })
    | none => .panic

/-- `common/src/bluff.rs:53-59`. -/
def peek (b : Bluff α) : Res (Option α) :=
  if b.idx = 0 then .ok none
  else match b.data[b.idx - 1]? with
    | some x => .ok (some x)
    | none => .panic

/-- `common/src/bluff.rs:62-64`. -/
def len (b : Bluff α) : Nat := b.idx

/-- `common/src/bluff.rs:66-70`: the drained slice `data[..idx]` and the buffer afterwards. -/
def drain (b : Bluff α) : Res (List α × Bluff α) :=
  if b.idx ≤ b.data.length then .ok (b.data.take b.idx, { b with idx := 0 }) else .panic

/-- Abstraction: the live elements, oldest first. -/
def toList (b : Bluff α) : List α := b.data.take b.idx

/-- Representation invariant. -/
def Inv (b : Bluff α) : Prop := b.idx ≤ b.data.length

end Bluff

end Quilt
