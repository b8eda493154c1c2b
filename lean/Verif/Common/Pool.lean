import Verif.Common.Basic

/-!
# `Pool<V, u16>`: `common/src/pool.rs`

Only the `u16` instance is used by the compiler and the VM
(`compiler/src/lib.rs:20,1045-1046`, `interpreter/src/vm.rs:78`), so ids are natural
numbers reduced modulo `2^16`. The private `FxHashMap` is modelled as an association
list in which insertion shadows older entries; key comparison is `DecidableEq`.
-/

namespace Quilt

/-- `common/src/pool.rs:5-8`. -/
structure Pool (α : Type) where
  entries : List α
  dups : List (α × Nat)
  deriving DecidableEq, Repr

namespace Pool
variable {α : Type}

/-- `common/src/pool.rs:15-20`. -/
def empty : Pool α := ⟨[], []⟩

/-- `PoolID::from_usize` for `u16`, `common/src/pool.rs:131-147`: `id as u16`. -/
def fromUsize (n : Nat) : Nat := n % 65536

/-- `FxHashMap::get`. -/
def lookup [DecidableEq α] (v : α) : List (α × Nat) → Option Nat
  | [] => none
  | (w, i) :: rest => if w = v then some i else lookup v rest

/-- `common/src/pool.rs:42-52` (and `add_ref`, `65-75`). -/
def add [DecidableEq α] (p : Pool α) (v : α) : Nat × Pool α :=
  match lookup v p.dups with
  | some id => (id, p)
  | none =>
    let id := fromUsize p.entries.length
    (id, ⟨p.entries ++ [v], (v, id) :: p.dups⟩)

/-- `common/src/pool.rs:57-63`. -/
def addForce (p : Pool α) (v : α) : Nat × Pool α :=
  let id := fromUsize p.entries.length
  (id, ⟨p.entries ++ [v], (v, id) :: p.dups⟩)

/-- `common/src/pool.rs:90-93`. -/
def id? [DecidableEq α] (p : Pool α) (v : α) : Option Nat := lookup v p.dups

/-- `common/src/pool.rs:95-98`. -/
def get (p : Pool α) (i : Nat) : Option α := p.entries[i]?

/-- `common/src/pool.rs:115-118`: panics when out of range; the index map is not touched. -/
def update (p : Pool α) (i : Nat) (v : α) : Res (Pool α) :=
  if i < p.entries.length then .ok { p with entries := p.entries.set i v } else .panic

/-- `common/src/pool.rs:120-123`. -/
def len (p : Pool α) : Nat := p.entries.length

/-- A history of `add` calls on a new pool: the ids returned and the final pool. -/
def addAll [DecidableEq α] (p : Pool α) : List α → List Nat × Pool α
  | [] => ([], p)
  | v :: vs => let (i, p') := p.add v; let (is, p'') := p'.addAll vs; (i :: is, p'')

/-- Invariant of pools built with `add`: the index map holds exactly the entries,
each with its own (truncated) position, and entries are pairwise distinct. -/
structure Inv [DecidableEq α] (p : Pool α) : Prop where
  nodup : p.entries.Nodup
  look : ∀ v i, lookup v p.dups = some i ↔ ∃ k, p.entries[k]? = some v ∧ i = fromUsize k

theorem inv_empty [DecidableEq α] : (empty : Pool α).Inv :=
  ⟨by simp [empty], by simp [empty, lookup]⟩

theorem Inv.look_none [DecidableEq α] {p : Pool α} (h : p.Inv) {v : α} :
    lookup v p.dups = none ↔ v ∉ p.entries := by
  constructor
  · intro hn hv
    obtain ⟨k, hk⟩ := List.getElem?_of_mem hv
    have := (h.look v _).2 ⟨k, hk, rfl⟩
    simp [hn] at this
  · intro hv
    cases hl : lookup v p.dups with
    | none => rfl
    | some i =>
      obtain ⟨k, hk, _⟩ := (h.look v i).1 hl
      exact absurd (List.mem_of_getElem? hk) hv

/-- How `add` extends the entries. -/
theorem add_entries [DecidableEq α] {p : Pool α} (h : p.Inv) (v : α) :
    (p.add v).2.entries = if v ∈ p.entries then p.entries else p.entries ++ [v] := by
  unfold add
  cases hl : lookup v p.dups with
  | none => have := h.look_none.1 hl; simp [this]
  | some i =>
    have : v ∈ p.entries := by
      obtain ⟨k, hk, _⟩ := (h.look v i).1 hl
      exact List.mem_of_getElem? hk
    simp [this]

theorem inv_add [DecidableEq α] {p : Pool α} (h : p.Inv) (v : α) : (p.add v).2.Inv := by
  unfold add
  cases hl : lookup v p.dups with
  | some i => exact h
  | none =>
    have hv := h.look_none.1 hl
    refine ⟨?_, ?_⟩
    · simp [List.nodup_append, h.nodup]; intro a ha hav; exact hv (hav ▸ ha)
    · intro w i
      simp only [lookup]
      by_cases hw : v = w
      · subst hw
        simp only [if_true, Option.some.injEq]
        constructor
        · intro hi; exact ⟨p.entries.length, by simp, hi.symm⟩
        · rintro ⟨k, hk, rfl⟩
          have hkl : k = p.entries.length := by
            rcases Nat.lt_trichotomy k p.entries.length with h1 | h1 | h1
            · rw [List.getElem?_append_left h1] at hk
              exact absurd (List.mem_of_getElem? hk) hv
            · exact h1
            · rw [List.getElem?_eq_none (by simp; omega)] at hk; simp at hk
          rw [hkl]
      · simp only [hw, if_false]
        rw [h.look w i]
        constructor
        · rintro ⟨k, hk, hi⟩
          exact ⟨k, by rw [List.getElem?_append_left (by
            have := List.getElem?_eq_some_iff.1 hk; exact this.1)]; exact hk, hi⟩
        · rintro ⟨k, hk, hi⟩
          refine ⟨k, ?_, hi⟩
          rcases Nat.lt_trichotomy k p.entries.length with h1 | h1 | h1
          · rwa [List.getElem?_append_left h1] at hk
          · subst h1; simp at hk; exact absurd hk hw
          · rw [List.getElem?_eq_none (by simp; omega)] at hk; simp at hk

/-- The id returned by `add` is the (truncated) position of the value. -/
theorem add_id [DecidableEq α] {p : Pool α} (h : p.Inv) (v : α) :
    ∃ k, (p.add v).2.entries[k]? = some v ∧ (p.add v).1 = fromUsize k := by
  unfold add
  cases hl : lookup v p.dups with
  | some i =>
    obtain ⟨k, hk, hi⟩ := (h.look v i).1 hl
    exact ⟨k, hk, hi⟩
  | none => exact ⟨p.entries.length, by simp, rfl⟩

theorem inv_addAll [DecidableEq α] {p : Pool α} (h : p.Inv) (vs : List α) :
    (p.addAll vs).2.Inv := by
  induction vs generalizing p with
  | nil => exact h
  | cons v vs ih => exact ih (inv_add h v)

/-- Position of an added entry. -/
theorem add_pos [DecidableEq α] {p : Pool α} (hp : p.Inv) (x : α) (hl : (p.add x).2.entries.length ≤ 65536) :
    (p.add x).2.entries[(p.add x).1]? = some x := by
  obtain ⟨k, h1, h2⟩ := add_id hp x
  obtain ⟨h3, _⟩ := List.getElem?_eq_some_iff.1 h1
  rw [h2, fromUsize, Nat.mod_eq_of_lt (by omega)]
  exact h1

/-- Entries only grow at the end. -/
theorem add_prefix [DecidableEq α] (p : Pool α) (v : α) : p.entries <+: (p.add v).2.entries := by
  unfold add
  split <;> simp

theorem addAll_prefix [DecidableEq α] (p : Pool α) (vs : List α) :
    p.entries <+: (p.addAll vs).2.entries := by
  induction vs generalizing p with
  | nil => exact List.prefix_refl _
  | cons v vs ih => exact (add_prefix p v).trans (ih _)

end Pool

end Quilt
