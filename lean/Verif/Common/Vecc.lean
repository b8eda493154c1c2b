import Verif.Common.Basic

/-!
# `Vecc<T>`: `common/src/vecc.rs`

`sz : α → Nat` stands for `GetSize::get_size`. `usize` additions are on `Nat`
(sizes are bounded by memory); subtraction underflow is an explicit panic
(debug build) or wrap (release build), selected by `chk`.
-/

namespace Quilt

/-- `common/src/vecc.rs:75-83`. -/
structure Vecc (α : Type) where
  data : List α
  size : Nat
  maxSize : Nat
  deriving DecidableEq, Repr

namespace Vecc
variable {α : Type} (sz : α → Nat)

/-- `iter().map(get_size).sum()`. -/
def total (xs : List α) : Nat := (xs.map sz).sum

/-- `common/src/vecc.rs:103-109` (`with_capacity`, `120-126`, is the same value). -/
def new (maxSize : Nat) : Vecc α := ⟨[], 0, maxSize⟩

/-- `common/src/vecc.rs:111-118`. -/
def forceNew (data : List α) : Vecc α := ⟨data, total sz data, total sz data⟩

/-- `common/src/vecc.rs:128-138`. -/
def tryNewFrom (data : List α) (maxSize : Nat) : Res (Vecc α) :=
  if total sz data > maxSize then .err (.overflow .arrayTooLarge)
  else .ok ⟨data, total sz data, maxSize⟩

/-- `common/src/vecc.rs:140-146`. -/
def newFrom (data : List α) (maxSize : Nat) : Vecc α := ⟨data, total sz data, maxSize⟩

/-- `usize` subtraction `size -= n`. -/
def subSize (chk : Bool) (a b : Nat) : Res Nat :=
  if b ≤ a then .ok (a - b) else if chk then .panic else .ok (a + 2 ^ 64 - b)

/-- `common/src/vecc.rs:171-180`. Mutating methods return the outcome and the array
afterwards (which matters when they fail). -/
def push (v : Vecc α) (x : α) : Res Unit × Vecc α :=
  if v.size + sz x > v.maxSize then (.err (.overflow .arrayTooLarge), v)
  else (.ok (), { v with size := v.size + sz x, data := v.data ++ [x] })

/-- `common/src/vecc.rs:182-187`. -/
def pop (chk : Bool) (v : Vecc α) : Res (Option α × Vecc α) :=
  match v.data.getLast? with
  | none => .ok (none, v)
  | some x => (subSize chk v.size (sz x)).map fun s =>
      (some x, { v with data := v.data.dropLast, size := s })

/-- `common/src/vecc.rs:205-214`: the new item's size is added, the old item's is not
subtracted; index out of range panics (after the size was updated). -/
def set (v : Vecc α) (i : Nat) (x : α) : Res Unit × Vecc α :=
  if v.size + sz x > v.maxSize then (.err (.overflow .arrayTooLarge), v)
  else
    let v' := { v with size := v.size + sz x }
    if i < v.data.length then (.ok (), { v' with data := v.data.set i x }) else (.panic, v')

/-- `common/src/vecc.rs:216-219`. -/
def clear (v : Vecc α) : Vecc α := { v with data := [], size := 0 }

/-- `common/src/vecc.rs:229-234`: `Vec::remove` panics when out of range. -/
def remove (chk : Bool) (v : Vecc α) (i : Nat) : Res (α × Vecc α) :=
  match v.data[i]? with
  | none => .panic
  | some x => (subSize chk v.size (sz x)).map fun s =>
      (x, { v with data := v.data.eraseIdx i, size := s })

/-- `common/src/vecc.rs:236-244`: `Vec::insert` panics when `index > len`. -/
def insert (v : Vecc α) (i : Nat) (x : α) : Res Unit × Vecc α :=
  if v.size + sz x > v.maxSize then (.err (.overflow .arrayTooLarge), v)
  else
    let v' := { v with size := v.size + sz x }
    if i ≤ v.data.length then (.ok (), { v' with data := v.data.insertIdx i x }) else (.panic, v')

/-- `common/src/vecc.rs:246-257`: the size is increased *before* the check. -/
def extend (v : Vecc α) : List α → Res Unit × Vecc α
  | [] => (.ok (), v)
  | x :: xs =>
    let v' := { v with size := v.size + sz x }
    if v'.size > v'.maxSize then (.err (.overflow .arrayTooLarge), v')
    else extend { v' with data := v'.data ++ [x] } xs

/-- `common/src/vecc.rs:259-264`: `Vec::swap_remove` moves the last element into the gap. -/
def swapRemove (chk : Bool) (v : Vecc α) (i : Nat) : Res (α × Vecc α) :=
  match v.data[i]?, v.data.getLast? with
  | some x, some l => (subSize chk v.size (sz x)).map fun s =>
      (x, { v with data := (v.data.set i l).dropLast, size := s })
  | _, _ => .panic

/-- `common/src/vecc.rs:266-272`: `drain(len..)` panics when `len > self.len()`. -/
def truncate (chk : Bool) (v : Vecc α) (n : Nat) : Res (Vecc α) :=
  if n ≤ v.data.length then
    (subSize chk v.size (total sz (v.data.drop n))).map fun s =>
      { v with data := v.data.take n, size := s }
  else .panic

/-- `common/src/vecc.rs:201-203`. -/
def get (v : Vecc α) (i : Nat) : Option α := v.data[i]?

/-- The accounting invariant. -/
def Ok (v : Vecc α) : Prop := v.size = total sz v.data ∧ v.size ≤ v.maxSize

variable {sz}

@[simp] theorem total_nil : total sz [] = 0 := rfl
@[simp] theorem total_cons (x : α) (xs) : total sz (x :: xs) = sz x + total sz xs := by simp [total]
@[simp] theorem total_append (xs ys : List α) : total sz (xs ++ ys) = total sz xs + total sz ys := by
  simp [total]

theorem total_set_getElem? (xs : List α) (i : Nat) (x y : α) (h : xs[i]? = some y) :
    total sz (xs.set i x) + sz y = total sz xs + sz x := by
  induction xs generalizing i with
  | nil => simp at h
  | cons a as ih =>
    cases i with
    | zero => simp at h; subst h; simp; omega
    | succ i => simp at h; have := ih i h; simp; omega

theorem total_eraseIdx (xs : List α) (i : Nat) (y : α) (h : xs[i]? = some y) :
    total sz (xs.eraseIdx i) + sz y = total sz xs := by
  induction xs generalizing i with
  | nil => simp at h
  | cons a as ih =>
    cases i with
    | zero => simp at h; subst h; simp; omega
    | succ i => simp at h; have := ih i h; simp; omega

theorem total_insertIdx (xs : List α) (i : Nat) (y : α) (h : i ≤ xs.length) :
    total sz (xs.insertIdx i y) = total sz xs + sz y := by
  induction xs generalizing i with
  | nil => simp at h; subst h; simp
  | cons a as ih =>
    cases i with
    | zero => simp; omega
    | succ i => simp at h; have := ih i h; simp [this]; omega

theorem total_dropLast (xs : List α) (y : α) (h : xs.getLast? = some y) :
    total sz xs.dropLast + sz y = total sz xs := by
  rcases List.eq_nil_or_concat xs with h0 | ⟨L, b, h0⟩
  · simp [h0] at h
  · subst h0; simp at h; subst h; simp

theorem total_take_drop (xs : List α) (n : Nat) :
    total sz (xs.take n) + total sz (xs.drop n) = total sz xs := by
  rw [← total_append, List.take_append_drop]

/-- `extend` succeeds exactly when everything fits (starting from a size within the limit),
and then appends all items. -/
theorem extend_eq (v : Vecc α) (xs : List α) (hv : v.size ≤ v.maxSize) :
    (v.size + total sz xs ≤ v.maxSize →
      extend sz v xs = (.ok (), { v with data := v.data ++ xs, size := v.size + total sz xs })) ∧
    (v.maxSize < v.size + total sz xs → (extend sz v xs).1 = .err (.overflow .arrayTooLarge)) := by
  induction xs generalizing v with
  | nil => simp [extend]; omega
  | cons x xs ih =>
    simp only [extend, total_cons]
    constructor
    · intro h
      rw [if_neg (by omega)]
      have := (ih { data := v.data ++ [x], size := v.size + sz x, maxSize := v.maxSize }
        (by simp; omega)).1 (by simp; omega)
      simp [this]; omega
    · intro h
      by_cases hx : v.size + sz x > v.maxSize
      · rw [if_pos (by simpa using hx)]
      · rw [if_neg (by simpa using hx)]
        exact (ih { data := v.data ++ [x], size := v.size + sz x, maxSize := v.maxSize }
          (by simp; omega)).2 (by simp; omega)

end Vecc

end Quilt
