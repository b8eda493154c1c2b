import Verif.Common.Basic

/-!
# `RleVec`: `common/src/rlevec.rs`
-/

namespace Quilt

/-- `common/src/rlevec.rs:6` `struct RleVec<T>(Vec<(usize, T)>)`. -/
structure Rle (α : Type) where
  runs : List (Nat × α)
  deriving DecidableEq, Repr

namespace Rle
variable {α : Type}

/-- `common/src/rlevec.rs:13`. -/
def empty : Rle α := ⟨[]⟩

/-- The in-place update of the last run performed by `push`/`push_n`
(`common/src/rlevec.rs:17-37`): if the last run holds `v`, its count grows by `n`,
otherwise a new run `(n, v)` is appended. -/
def bump [DecidableEq α] (v : α) (n : Nat) : List (Nat × α) → List (Nat × α)
  | [] => [(n, v)]
  | [(c, w)] => if w = v then [(c + n, w)] else [(c, w), (n, v)]
  | r :: r' :: rs => r :: bump v n (r' :: rs)

/-- `common/src/rlevec.rs:17-26`. -/
def push [DecidableEq α] (r : Rle α) (v : α) : Rle α := ⟨bump v 1 r.runs⟩

/-- `common/src/rlevec.rs:28-37`. -/
def pushN [DecidableEq α] (r : Rle α) (v : α) (n : Nat) : Rle α := ⟨bump v n r.runs⟩

/-- `common/src/rlevec.rs:39-41`. -/
def last? (r : Rle α) : Option α := r.runs.getLast?.map Prod.snd

/-- `common/src/rlevec.rs:43-45`. -/
def first? (r : Rle α) : Option α := r.runs.head?.map Prod.snd

/-- The loop of `get`, `common/src/rlevec.rs:47-58`. -/
def getRuns : List (Nat × α) → Nat → Option α
  | [], _ => none
  | (c, v) :: rs, i => if i < c then some v else getRuns rs (i - c)

/-- `common/src/rlevec.rs:47-58`. -/
def get (r : Rle α) (i : Nat) : Option α := getRuns r.runs i

/-- `common/src/rlevec.rs:61-63`. -/
def len (r : Rle α) : Nat := (r.runs.map Prod.fst).sum

/-- `common/src/rlevec.rs:66-68`. -/
def dataLen (r : Rle α) : Nat := r.runs.length

/-- `Index`, `common/src/rlevec.rs:71-80`: panics out of bounds. -/
def index (r : Rle α) (i : Nat) : Res α :=
  match r.get i with
  | some v => .ok v
  | none => .panic

/-- Abstraction: the sequence of elements denoted by the runs. -/
def toList (r : Rle α) : List α := r.runs.flatMap fun p => List.replicate p.1 p.2

theorem toList_bump [DecidableEq α] (v : α) (n : Nat) (rs : List (Nat × α)) :
    (bump v n rs).flatMap (fun p => List.replicate p.1 p.2)
      = rs.flatMap (fun p => List.replicate p.1 p.2) ++ List.replicate n v := by
  fun_induction bump v n rs with
  | case1 => simp
  | case2 c => simp [List.replicate_append_replicate]
  | case3 c w h => simp
  | case4 r r' rs ih => simp only [List.flatMap_cons, List.append_assoc] at ih ⊢; rw [ih]

theorem toList_push [DecidableEq α] (r : Rle α) (v : α) : (r.push v).toList = r.toList ++ [v] := by
  simp [push, toList, toList_bump, List.replicate]

theorem toList_pushN [DecidableEq α] (r : Rle α) (v : α) (n : Nat) :
    (r.pushN v n).toList = r.toList ++ List.replicate n v := by
  simp [pushN, toList, toList_bump]

@[simp] theorem toList_empty : (empty : Rle α).toList = [] := rfl

theorem getRuns_eq (rs : List (Nat × α)) (i : Nat) :
    getRuns rs i = (rs.flatMap fun p => List.replicate p.1 p.2)[i]? := by
  induction rs generalizing i with
  | nil => simp [getRuns]
  | cons p rs ih =>
    obtain ⟨c, v⟩ := p
    simp only [getRuns, List.flatMap_cons]
    by_cases h : i < c
    · rw [List.getElem?_append_left (by simpa using h)]; simp [h]
    · rw [List.getElem?_append_right (by simpa using Nat.le_of_not_lt h)]; simp [h, ih]

theorem get_eq (r : Rle α) (i : Nat) : r.get i = r.toList[i]? := getRuns_eq _ _

theorem len_eq (r : Rle α) : r.len = r.toList.length := by
  simp [len, toList, List.length_flatMap]

/-- Every run is non-empty: holds when no `push_n(_, 0)` was performed. -/
def NonZero (r : Rle α) : Prop := ∀ p ∈ r.runs, 0 < p.1

theorem nonZero_bump [DecidableEq α] (v : α) (n : Nat) (hn : 0 < n) (rs : List (Nat × α))
    (h : ∀ p ∈ rs, 0 < p.1) : ∀ p ∈ bump v n rs, 0 < p.1 := by
  fun_induction bump v n rs with
  | case1 => simpa using hn
  | case2 c => simp; omega
  | case3 c w hw => simp at h ⊢; omega
  | case4 r r' rs ih => simp at h ih ⊢; grind

theorem last?_eq (r : Rle α) (h : r.NonZero) : r.last? = r.toList.getLast? := by
  unfold last? toList
  rcases List.eq_nil_or_concat r.runs with h0 | ⟨L, ⟨c, v⟩, h0⟩
  · simp [h0]
  · have hc : 0 < c := by
      have := h (c, v) (by simp [h0]); simpa using this
    simp [h0, List.getLast?_append, List.getLast?_replicate, Nat.ne_of_gt hc]

theorem first?_eq (r : Rle α) (h : r.NonZero) : r.first? = r.toList.head? := by
  unfold first? toList
  cases h0 : r.runs with
  | nil => simp
  | cons p L =>
    have hc : 0 < p.1 := h p (by simp [h0])
    simp [List.head?_append, List.head?_replicate, Nat.ne_of_gt hc]

end Rle

end Quilt
