import Verif.Common.Rle
import Verif.Common.Pool
import Verif.Common.Vecc
import Verif.Common.Bluff
import Verif.Bytecode

/-!
# Property theorems C01 - C06 (support data structures)

Each section first gives the specification (plain lists and histories of operations),
then the theorem, then `example`s showing that the hypotheses are met non-trivially.
-/

namespace Quilt.Props

/-! ## C01: run-length table = plain list -/

/-- A history entry of the run-length table. -/
inductive RleOp (α : Type) where
  | push (v : α)
  | pushN (v : α) (n : Nat)

/-- What the history does to a plain list. -/
def RleOp.spec {α : Type} : List (RleOp α) → List α
  | [] => []
  | .push v :: h => RleOp.spec h ++ [v]
  | .pushN v n :: h => RleOp.spec h ++ List.replicate n v

/-- The same history (most recent operation first) on the real table. -/
def RleOp.run {α : Type} [DecidableEq α] : List (RleOp α) → Rle α
  | [] => Rle.empty
  | .push v :: h => (RleOp.run h).push v
  | .pushN v n :: h => (RleOp.run h).pushN v n

theorem run_toList {α : Type} [DecidableEq α] (h : List (RleOp α)) :
    (RleOp.run h).toList = RleOp.spec h := by
  induction h with
  | nil => rfl
  | cons o h ih => cases o <;> simp [RleOp.run, RleOp.spec, Rle.toList_push, Rle.toList_pushN, ih]

/-- C01: for every history, `get`, indexing and `len` are those of the plain list. -/
theorem C01_rle_refines_list {α : Type} [DecidableEq α] (h : List (RleOp α)) :
    (RleOp.run h).len = (RleOp.spec h).length ∧
    (∀ i, (RleOp.run h).get i = (RleOp.spec h)[i]?) ∧
    (∀ i v, (RleOp.run h).index i = .ok v ↔ (RleOp.spec h)[i]? = some v) ∧
    (∀ i, (RleOp.run h).index i = .panic ↔ (RleOp.spec h).length ≤ i) := by
  refine ⟨by rw [Rle.len_eq, run_toList], fun i => by rw [Rle.get_eq, run_toList], ?_, ?_⟩
  · intro i v
    rw [Rle.index, Rle.get_eq, run_toList]
    cases (RleOp.spec h)[i]? <;> simp
  · intro i
    rw [Rle.index, Rle.get_eq, run_toList]
    cases hx : (RleOp.spec h)[i]? with
    | none => simp at hx; simpa using hx
    | some x => simp; exact (List.getElem?_eq_some_iff.1 hx).1

/-- No zero-length `push_n` in the history. -/
def RleOp.Pos {α : Type} (h : List (RleOp α)) : Prop := ∀ v, RleOp.pushN v 0 ∉ h

/-- C01 (ends): `first`/`last` agree with the plain list when no empty run was pushed. -/
theorem C01_rle_ends {α : Type} [DecidableEq α] (h : List (RleOp α)) (hp : RleOp.Pos h) :
    (RleOp.run h).last? = (RleOp.spec h).getLast? ∧
    (RleOp.run h).first? = (RleOp.spec h).head? := by
  have hnz : (RleOp.run h).NonZero := by
    induction h with
    | nil => intro p hm; simp [RleOp.run, Rle.empty] at hm
    | cons o h ih =>
      have ih := ih (fun v hv => hp v (List.mem_cons_of_mem _ hv))
      cases o with
      | push v => exact Rle.nonZero_bump v 1 (by omega) _ ih
      | pushN v n =>
        have : n ≠ 0 := fun h0 => hp v (by simp [h0])
        exact Rle.nonZero_bump v n (by omega) _ ih
  exact ⟨by rw [Rle.last?_eq _ hnz, run_toList], by rw [Rle.first?_eq _ hnz, run_toList]⟩

/-- Without that hypothesis `last` can return a value that was never stored. -/
theorem C01_zero_run_visible :
    ∃ h : List (RleOp Nat), RleOp.spec h = [] ∧ (RleOp.run h).last? = some 7 :=
  ⟨[.pushN 7 0], rfl, rfl⟩

example : RleOp.Pos [RleOp.push 2, RleOp.pushN 1 3, RleOp.push 1] := by
  intro v; simp
example : RleOp.spec [RleOp.push 2, RleOp.pushN 1 3, RleOp.push 1] = [1, 1, 1, 1, 2] ∧
    (RleOp.run [RleOp.push 2, RleOp.pushN 1 3, RleOp.push 1]).runs = [(4, 1), (1, 2)] := by decide

/-! ## C02: byte buffer -/

/-- C02: values written at the end are read back at the offset where they were written. -/
theorem C02_write_read (ops : List UInt8) (b : UInt8) (v : Nat) (hv : v < 65536) :
    Bytes.readU8 (Bytes.writeU8 ops b) ops.length = .ok b ∧
    Bytes.readU16 (Bytes.writeU16 ops v) ops.length = .ok v ∧
    (Bytes.writeU8 ops b).length = ops.length + 1 ∧
    (Bytes.writeU16 ops v).length = ops.length + 2 ∧
    (∀ i, i < ops.length → (Bytes.writeU8 ops b)[i]? = ops[i]? ∧ (Bytes.writeU16 ops v)[i]? = ops[i]?) := by
  refine ⟨by simp [Bytes.readU8, Bytes.writeU8], ?_, by simp [Bytes.writeU8],
    by simp [Bytes.writeU16, u16le], fun i hi => ⟨?_, ?_⟩⟩
  · have h0 : (ops ++ u16le v)[ops.length]? = some (UInt8.ofNat (v % 256)) := by simp [u16le]
    have h1 : (ops ++ u16le v)[ops.length + 1]? = some (UInt8.ofNat (v / 256 % 256)) := by
      rw [List.getElem?_append_right (by omega)]; simp [u16le]
    simp only [Bytes.readU16, Bytes.writeU16, h0, h1]
    rw [Bytes.le_roundtrip v hv]
  · simp [Bytes.writeU8, List.getElem?_append_left hi]
  · simp [Bytes.writeU16, List.getElem?_append_left hi]

/-- C02: patching a u16 changes exactly two bytes, is read back, and keeps the length;
out of range it panics. -/
theorem C02_patch (ops : List UInt8) (i v : Nat) (hv : v < 65536) :
    (i + 1 < ops.length → ∃ ops', Bytes.patchU16 ops i v = .ok ops' ∧ ops'.length = ops.length ∧
        Bytes.readU16 ops' i = .ok v ∧ ∀ j, j ≠ i → j ≠ i + 1 → ops'[j]? = ops[j]?) ∧
    (ops.length ≤ i + 1 → Bytes.patchU16 ops i v = .panic) := by
  constructor
  · intro hi
    refine ⟨(ops.set i (UInt8.ofNat (v % 256))).set (i + 1) (UInt8.ofNat (v / 256 % 256)), ?_, by simp, ?_, ?_⟩
    · simp [Bytes.patchU16, Bytes.patchU8, show i < ops.length by omega, hi]
    · have h0 : ((ops.set i (UInt8.ofNat (v % 256))).set (i + 1) (UInt8.ofNat (v / 256 % 256)))[i]?
          = some (UInt8.ofNat (v % 256)) := by
        rw [List.getElem?_set_ne (by omega), List.getElem?_set_self (by omega)]
      have h1 : ((ops.set i (UInt8.ofNat (v % 256))).set (i + 1) (UInt8.ofNat (v / 256 % 256)))[i + 1]?
          = some (UInt8.ofNat (v / 256 % 256)) := by
        rw [List.getElem?_set_self (by simpa using hi)]
      simp only [Bytes.readU16, h0, h1]
      rw [Bytes.le_roundtrip v hv]
    · intro j h1 h2
      rw [List.getElem?_set_ne (by omega), List.getElem?_set_ne (by omega)]
  · intro hi
    unfold Bytes.patchU16 Bytes.patchU8
    by_cases h : i < ops.length
    · simp [h]; omega
    · simp [h]

theorem insertIdx_take_drop {α : Type} (l : List α) (i : Nat) (a : α) (h : i ≤ l.length) :
    l.insertIdx i a = l.take i ++ a :: l.drop i := by
  induction i generalizing l with
  | zero => simp
  | succ i ih =>
    cases l with
    | nil => simp at h
    | cons b l => simp [ih l (by simpa using h)]

/-- C02: inserting keeps earlier bytes, is read back, and shifts later ones by two. -/
theorem C02_insert (ops : List UInt8) (i v : Nat) (hv : v < 65536) (hi : i ≤ ops.length) :
    ∃ ops', Bytes.insertU16 ops i v = .ok ops' ∧ Bytes.readU16 ops' i = .ok v ∧
      (∀ j, j < i → ops'[j]? = ops[j]?) ∧ (∀ j, i ≤ j → ops'[j + 2]? = ops[j]?) := by
  have e : ops.insertIdx i (UInt8.ofNat (v / 256 % 256)) =
      ops.take i ++ UInt8.ofNat (v / 256 % 256) :: ops.drop i := by
    rw [insertIdx_take_drop _ _ _ hi]
  have e2 : (ops.insertIdx i (UInt8.ofNat (v / 256 % 256))).insertIdx i (UInt8.ofNat (v % 256)) =
      ops.take i ++ UInt8.ofNat (v % 256) :: UInt8.ofNat (v / 256 % 256) :: ops.drop i := by
    rw [e, insertIdx_take_drop _ _ _ (by simp; omega), List.take_append, List.drop_append]
    simp [List.take_of_length_le, Nat.min_eq_left hi]
  have hl : (ops.take i).length = i := by simp; omega
  refine ⟨ops.take i ++ UInt8.ofNat (v % 256) :: UInt8.ofNat (v / 256 % 256) :: ops.drop i, ?_, ?_, ?_, ?_⟩
  · simp only [Bytes.insertU16, Bytes.insertU8, hi, if_true, Res.bind_ok]
    rw [if_pos (by rw [List.length_insertIdx]; split <;> omega), e2]
  · simp only [Bytes.readU16]
    rw [List.getElem?_append_right (by omega), List.getElem?_append_right (by omega)]
    simp only [hl, Nat.sub_self, Nat.add_sub_cancel_left, List.getElem?_cons_zero, List.getElem?_cons_succ]
    rw [Bytes.le_roundtrip v hv]
  · intro j hj
    rw [List.getElem?_append_left (by omega), List.getElem?_take_of_lt hj]
  · intro j hj
    rw [List.getElem?_append_right (by omega), hl, show j + 2 - i = (j - i) + 1 + 1 by omega]
    simp only [List.getElem?_cons_succ, List.getElem?_drop]
    congr 1; omega

/-- C02: reads outside the buffer panic. -/
theorem C02_read_oob (ops : List UInt8) (i : Nat) :
    (Bytes.readU8 ops i = .panic ↔ ops.length ≤ i) ∧
    (Bytes.readU16 ops i = .panic ↔ ops.length ≤ i + 1) := by
  constructor
  · cases h : ops[i]? with
    | none => simp [Bytes.readU8, h]; simpa using h
    | some b => simp [Bytes.readU8, h]; exact (List.getElem?_eq_some_iff.1 h).1
  · cases h : ops[i + 1]? with
    | none => simp [Bytes.readU16, h]; cases ops[i]? <;> simpa using h
    | some b =>
      have h1 := (List.getElem?_eq_some_iff.1 h).1
      have : ops[i]? = some ops[i] := List.getElem?_eq_getElem (by omega)
      simp [Bytes.readU16, h, this]; omega

example : Bytes.patchU16 [1, 0, 0, 9] 1 0x1234 = .ok [1, 0x34, 0x12, 9] := by decide
example : Bytes.readU16 [1, 0x34, 0x12, 9] 1 = .ok 0x1234 := by decide

/-! ## C03: spans follow bytes -/

/-- Operations on a chunk. -/
inductive ChunkOp where
  | writeU8 (b : UInt8) (sp : Span)
  | writeU16 (v : Nat) (sp : Span)
  | patchU8 (i : Nat) (b : UInt8)
  | patchU16 (i : Nat) (v : Nat)

/-- Spans written, one per byte (oldest operation first). -/
def ChunkOp.spans : List ChunkOp → List Span
  | [] => []
  | .writeU8 _ sp :: h => sp :: ChunkOp.spans h
  | .writeU16 _ sp :: h => sp :: sp :: ChunkOp.spans h
  | .patchU8 _ _ :: h => ChunkOp.spans h
  | .patchU16 _ _ :: h => ChunkOp.spans h

/-- Run a history; patches may panic. -/
def ChunkOp.run (c : Chunk) : List ChunkOp → Res Chunk
  | [] => .ok c
  | .writeU8 b sp :: h => ChunkOp.run (c.writeU8 b sp) h
  | .writeU16 v sp :: h => ChunkOp.run (c.writeU16 v sp) h
  | .patchU8 i b :: h => (c.patchU8 i b).bind fun c => ChunkOp.run c h
  | .patchU16 i v :: h => (c.patchU16 i v).bind fun c => ChunkOp.run c h

theorem patchU8_len {ops o : List UInt8} {i : Nat} {b : UInt8} (h : Bytes.patchU8 ops i b = .ok o) :
    o.length = ops.length := by
  unfold Bytes.patchU8 at h; split at h <;> simp_all; rw [← h]; simp

theorem patchU16_len {ops o : List UInt8} {i v : Nat} (h : Bytes.patchU16 ops i v = .ok o) :
    o.length = ops.length := by
  unfold Bytes.patchU16 at h
  cases h1 : Bytes.patchU8 ops i (UInt8.ofNat (v % 256)) with
  | ok o1 => rw [h1] at h; rw [patchU8_len h, patchU8_len h1]
  | err e => simp [h1] at h
  | panic => simp [h1] at h

/-- C03: after any history that does not panic, the position table has one entry per byte and
`get_span i` is the span given by the write that produced byte `i` (default past the end);
`first_span` and `last_span` are those of the first and the last byte. -/
theorem C03_spans (h : List ChunkOp) (c : Chunk) (hr : ChunkOp.run Chunk.empty h = .ok c) :
    c.ops.length = (ChunkOp.spans h).length ∧ c.spans.len = c.ops.length ∧
    (∀ i, c.getSpan i = ((ChunkOp.spans h)[i]?).getD Span.default) ∧
    c.lastSpan = (ChunkOp.spans h).getLast?.getD Span.default ∧ c.firstSpan = (ChunkOp.spans h).head?.getD Span.default := by
  suffices hs : ∀ (h : List ChunkOp) (c0 c : Chunk), c0.spans.toList.length = c0.ops.length → c0.spans.NonZero →
      ChunkOp.run c0 h = .ok c →
      c.spans.toList = c0.spans.toList ++ ChunkOp.spans h ∧ c.spans.toList.length = c.ops.length ∧ c.spans.NonZero by
    obtain ⟨h1, h2, h4⟩ := hs h Chunk.empty c rfl (by intro r hr; cases hr) hr
    simp [Chunk.empty, Rle.empty, Rle.toList] at h1
    have h3 : c.spans.toList = ChunkOp.spans h := h1
    refine ⟨by rw [← h2, h3], by rw [Rle.len_eq, h2], fun i => ?_, ?_, ?_⟩
    · rw [Chunk.getSpan, Rle.get_eq, h3]
    · rw [Chunk.lastSpan, Rle.last?_eq _ h4, h3]
    · rw [Chunk.firstSpan, Rle.first?_eq _ h4, h3]
  intro h
  induction h with
  | nil => intro c0 c h0 hz hr; simp [ChunkOp.run] at hr; subst hr; simp [ChunkOp.spans, h0, hz]
  | cons o h ih =>
    intro c0 c h0 hz hr
    cases o with
    | writeU8 b sp =>
      have := ih (c0.writeU8 b sp) c
        (by simp [Chunk.writeU8, Rle.toList_push, Bytes.writeU8, h0]) (Rle.nonZero_bump _ 1 (by decide) _ hz) hr
      simpa [Chunk.writeU8, Rle.toList_push, ChunkOp.spans] using this
    | writeU16 v sp =>
      have := ih (c0.writeU16 v sp) c
        (by simp [Chunk.writeU16, Rle.toList_pushN, Bytes.writeU16, u16le, h0]) (Rle.nonZero_bump _ 2 (by decide) _ hz) hr
      simpa [Chunk.writeU16, Rle.toList_pushN, ChunkOp.spans, List.replicate] using this
    | patchU8 i b =>
      simp only [ChunkOp.run, Chunk.patchU8] at hr
      cases hp : Bytes.patchU8 c0.ops i b with
      | ok o =>
        rw [hp] at hr
        exact ih ⟨o, c0.spans⟩ c (by simp [h0, patchU8_len hp]) hz hr
      | err e => simp [hp] at hr
      | panic => simp [hp] at hr
    | patchU16 i b =>
      simp only [ChunkOp.run, Chunk.patchU16] at hr
      cases hp : Bytes.patchU16 c0.ops i b with
      | ok o =>
        rw [hp] at hr
        exact ih ⟨o, c0.spans⟩ c (by simp [h0, patchU16_len hp]) hz hr
      | err e => simp [hp] at hr
      | panic => simp [hp] at hr

example : ∃ c, ChunkOp.run Chunk.empty
    [.writeU8 6 ⟨0, 1, 0⟩, .writeU16 0 ⟨0, 1, 0⟩, .writeU8 1 ⟨2, 3, 0⟩, .patchU16 1 515] = .ok c ∧
    c.ops = [6, 3, 2, 1] ∧ c.getSpan 3 = ⟨2, 3, 0⟩ ∧ c.getSpan 2 = ⟨0, 1, 0⟩ := ⟨_, rfl, by decide⟩

/-! ## C04: interning pool -/

/-- The distinct values of a history of `add`s, in order of first occurrence. -/
def distinct {α : Type} [DecidableEq α] : List α → List α → List α
  | seen, [] => seen
  | seen, v :: vs => if v ∈ seen then distinct seen vs else distinct (seen ++ [v]) vs

theorem addAll_entries {α : Type} [DecidableEq α] (p : Pool α) (hp : p.Inv) (vs : List α) :
    (p.addAll vs).2.entries = distinct p.entries vs := by
  induction vs generalizing p with
  | nil => rfl
  | cons v vs ih =>
    simp only [Pool.addAll, distinct]
    rw [ih _ (Pool.inv_add hp v), Pool.add_entries hp v]
    split <;> rfl

theorem addAll_ids {α : Type} [DecidableEq α] (p : Pool α) (hp : p.Inv) (vs : List α) (j : Nat) (v : α)
    (hv : vs[j]? = some v) :
    ∃ k, (p.addAll vs).2.entries[k]? = some v ∧ (p.addAll vs).1[j]? = some (Pool.fromUsize k) := by
  induction vs generalizing p j with
  | nil => simp at hv
  | cons w vs ih =>
    cases j with
    | zero =>
      simp at hv; subst hv
      obtain ⟨k, hk, hi⟩ := Pool.add_id hp w
      refine ⟨k, ?_, by simp [Pool.addAll, hi]⟩
      obtain ⟨t, ht⟩ := Pool.addAll_prefix (p.add w).2 vs
      simp only [Pool.addAll]
      rw [← ht, List.getElem?_append_left (List.getElem?_eq_some_iff.1 hk).1]; exact hk
    | succ j =>
      obtain ⟨k, h1, h2⟩ := ih (p.add w).2 (Pool.inv_add hp w) j (by simpa using hv)
      exact ⟨k, by simpa [Pool.addAll] using h1, by simpa [Pool.addAll] using h2⟩

/-- C04: after any history of `add` calls with at most 65536 distinct values: the id returned for
the `j`-th call retrieves the value added by it; two calls return the same id iff they added equal
values; `id(value)` finds the id that was returned; and ids stay valid when the history continues. -/
theorem C04_pool {α : Type} [DecidableEq α] (vs more : List α)
    (hlim : (distinct [] (vs ++ more)).length ≤ 65536) :
    let r := Pool.empty.addAll vs
    let r' := r.2.addAll more
    r.1.length = vs.length ∧
    (∀ (j : Nat) (v : α) (i : Nat), vs[j]? = some v → r.1[j]? = some i →
        i < 65536 ∧ r.2.get i = some v ∧ r.2.id? v = some i ∧
        r'.2.get i = some v ∧ r'.2.id? v = some i) ∧
    (∀ (j j' : Nat) (v v' : α) (i i' : Nat), vs[j]? = some v → vs[j']? = some v' → r.1[j]? = some i → r.1[j']? = some i' →
        (i = i' ↔ v = v')) ∧
    (∀ v, v ∉ vs → r.2.id? v = none) := by
  intro r r'
  have hinv : r.2.Inv := Pool.inv_addAll Pool.inv_empty vs
  have hinv' : r'.2.Inv := Pool.inv_addAll hinv more
  have hent : r.2.entries = distinct [] vs := addAll_entries _ Pool.inv_empty vs
  have hent' : r'.2.entries = distinct [] (vs ++ more) := by
    have h1 : r'.2.entries = distinct (distinct [] vs) more := by
      have := addAll_entries _ hinv more; rwa [hent] at this
    have h2 : ∀ (s a b : List α), distinct s (a ++ b) = distinct (distinct s a) b := by
      intro s a b
      induction a generalizing s with
      | nil => rfl
      | cons x a ih => simp only [List.cons_append, distinct]; split <;> exact ih _
    rw [h1, h2]
  obtain ⟨t, ht⟩ : r.2.entries <+: r'.2.entries := Pool.addAll_prefix _ more
  have hlen' : r'.2.entries.length ≤ 65536 := by rw [hent']; exact hlim
  have hlen : r.2.entries.length ≤ 65536 := by
    have := congrArg List.length ht; simp at this; omega
  have key : ∀ (j : Nat) (v : α) (i : Nat), vs[j]? = some v → r.1[j]? = some i →
      r.2.entries[i]? = some v ∧ i < 65536 := by
    intro j v i hv hi
    obtain ⟨k, hk, hk2⟩ := addAll_ids Pool.empty Pool.inv_empty vs j v hv
    have hk3 : k < r.2.entries.length := (List.getElem?_eq_some_iff.1 hk).1
    have : i = k := by
      have h4 : r.1[j]? = some (Pool.fromUsize k) := hk2
      rw [hi] at h4; simp [Pool.fromUsize] at h4; omega
    subst this; exact ⟨hk, by omega⟩
  refine ⟨?_, ?_, ?_, ?_⟩
  · have : ∀ (p : Pool α) (l : List α), (p.addAll l).1.length = l.length := by
      intro p l; induction l generalizing p with
      | nil => rfl
      | cons a l ih => simp [Pool.addAll, ih]
    exact this _ _
  · intro j v i hv hi
    obtain ⟨h1, h2⟩ := key j v i hv hi
    have h1' : r'.2.entries[i]? = some v := by
      rw [← ht, List.getElem?_append_left (List.getElem?_eq_some_iff.1 h1).1]; exact h1
    refine ⟨h2, h1, (hinv.look v i).2 ⟨i, h1, ?_⟩, h1', (hinv'.look v i).2 ⟨i, h1', ?_⟩⟩ <;>
      simp [Pool.fromUsize] <;> omega
  · intro j j' v v' i i' hv hv' hi hi'
    obtain ⟨h1, _⟩ := key j v i hv hi
    obtain ⟨h1', _⟩ := key j' v' i' hv' hi'
    constructor
    · rintro rfl; rw [h1] at h1'; simpa using h1'
    · rintro rfl
      have hlt := (List.getElem?_eq_some_iff.1 h1).1
      exact (List.getElem?_inj hlt hinv.nodup).1 (by rw [h1, h1'])
  · intro v hv
    refine hinv.look_none.2 fun hm => hv ?_
    rw [hent] at hm
    have : ∀ (s l : List α), v ∈ distinct s l → v ∈ s ∨ v ∈ l := by
      intro s l; induction l generalizing s with
      | nil => intro h; exact .inl h
      | cons a l ih =>
        intro h; simp only [distinct] at h
        split at h
        · rcases ih _ h with h | h
          · exact .inl h
          · exact .inr (List.mem_cons_of_mem _ h)
        · rcases ih _ h with h | h
          · simp at h; rcases h with h | h
            · exact .inl h
            · exact .inr (by simp [h])
          · exact .inr (List.mem_cons_of_mem _ h)
    simpa using this [] vs hm

/-- C04 (limit): whatever was added before, the first new value added to a pool holding exactly
65536 entries gets id 0, and id 0 still retrieves the first entry: ids are no longer unique. -/
theorem C04_pool_wraps {α : Type} [DecidableEq α] (p : Pool α) (hp : p.Inv)
    (hfull : p.entries.length = 65536) (v : α) (hv : v ∉ p.entries) :
    (p.add v).1 = 0 ∧ ∃ w, (p.add v).2.get 0 = some w ∧ w ≠ v := by
  have hl : Pool.lookup v p.dups = none := hp.look_none.2 hv
  refine ⟨by simp [Pool.add, hl, Pool.fromUsize, hfull], ?_⟩
  have h0 : 0 < p.entries.length := by omega
  refine ⟨p.entries[0], ?_, fun h => hv (h ▸ List.getElem_mem h0)⟩
  simp only [Pool.add, hl, Pool.get]
  rw [List.getElem?_append_left h0, List.getElem?_eq_getElem h0]

theorem distinct_of_nodup {α : Type} [DecidableEq α] (s l : List α) (hn : (s ++ l).Nodup) :
    distinct s l = s ++ l := by
  induction l generalizing s with
  | nil => simp [distinct]
  | cons a l ih =>
    simp only [distinct]
    have : a ∉ s := by
      intro ha; rw [List.nodup_append] at hn; exact hn.2.2 a ha a (by simp) rfl
    rw [if_neg this, ih (s ++ [a]) (by simpa using hn)]; simp

theorem pool_of_size (n : Nat) : ∃ p : Pool Nat, p.Inv ∧ p.entries.length = n ∧ n ∉ p.entries := by
  refine ⟨(Pool.empty.addAll (List.range n)).2, Pool.inv_addAll Pool.inv_empty _, ?_⟩
  have h : distinct [] (List.range n) = List.range n := by
    have := distinct_of_nodup [] (List.range n) (by simpa using List.nodup_range)
    simpa using this
  rw [addAll_entries _ Pool.inv_empty]
  simp [Pool.empty, h]

/-- The situation of `C04_pool_wraps` is reachable: such pools exist for `Nat`. -/
theorem C04_full_pool_exists : ∃ p : Pool Nat, p.Inv ∧ p.entries.length = 65536 ∧ 65536 ∉ p.entries :=
  pool_of_size 65536

example : (Pool.empty.addAll ["a", "b", "a"]).1 = [0, 1, 0] ∧
    (distinct [] (["a", "b", "a"] ++ ["c"])).length ≤ 65536 := by decide

/-- A history of `add` (`false`) and `add_force` (`true`) calls: the ids returned and the final pool. -/
def poolRun {α : Type} [DecidableEq α] (p : Pool α) : List (Bool × α) → List Nat × Pool α
  | [] => ([], p)
  | (f, v) :: h =>
    let r := if f then p.addForce v else p.add v
    let r' := poolRun r.2 h
    (r.1 :: r'.1, r'.2)

private structure PoolOk {α : Type} [DecidableEq α] (p : Pool α) : Prop where
  found : ∀ v i, p.id? v = some i → p.get i = some v
  mem : ∀ v, p.id? v = none ↔ v ∉ p.entries

private theorem poolOk_force {α : Type} [DecidableEq α] {p : Pool α} (h : PoolOk p) (hl : p.entries.length < 65536) (v : α) :
    PoolOk (p.addForce v).2 ∧ (p.addForce v).1 = p.entries.length := by
  have hid : Pool.fromUsize p.entries.length = p.entries.length := Nat.mod_eq_of_lt hl
  refine ⟨⟨fun w i hw => ?_, fun w => ?_⟩, hid⟩
  · simp only [Pool.addForce, Pool.id?, Pool.lookup, hid] at hw
    simp only [Pool.addForce, Pool.get]
    split at hw
    · rename_i hvw; subst hvw
      simp only [Option.some.injEq] at hw; subst hw
      simp
    · have := h.found w i hw
      unfold Pool.get at this
      rw [List.getElem?_append_left (List.getElem?_eq_some_iff.1 this).1]
      exact this
  · simp only [Pool.addForce, Pool.id?, Pool.lookup]
    split
    · rename_i hvw; subst hvw; simp
    · rename_i hvw
      rw [show Pool.lookup w p.dups = p.id? w from rfl, h.mem w]
      simp [Ne.symm hvw]

private theorem poolOk_add {α : Type} [DecidableEq α] {p : Pool α} (h : PoolOk p) (hl : p.entries.length < 65536) (v : α) :
    PoolOk (p.add v).2 ∧ (v ∉ p.entries → p.add v = p.addForce v) ∧ (v ∈ p.entries → (p.add v).2 = p ∧ p.id? v = some (p.add v).1) := by
  unfold Pool.add
  cases hv : Pool.lookup v p.dups with
  | none =>
    have : v ∉ p.entries := (h.mem v).1 hv
    exact ⟨(poolOk_force h hl v).1, fun _ => rfl, fun h => absurd h this⟩
  | some i =>
    have hv' : p.id? v = some i := hv
    refine ⟨h, fun hn => ?_, fun _ => ⟨rfl, hv⟩⟩
    rw [(h.mem v).2 hn] at hv'; cases hv'

private theorem poolRun_append {α : Type} [DecidableEq α] (p : Pool α) (h h' : List (Bool × α)) :
    poolRun p (h ++ h') = ((poolRun p h).1 ++ (poolRun (poolRun p h).2 h').1, (poolRun (poolRun p h).2 h').2) := by
  induction h generalizing p with
  | nil => rfl
  | cons o h ih => obtain ⟨f, v⟩ := o; simp only [List.cons_append, poolRun, ih]

private theorem poolRun_ok {α : Type} [DecidableEq α] (h : List (Bool × α)) : ∀ {p : Pool α}, PoolOk p → p.entries.length + h.length ≤ 65536 →
    PoolOk (poolRun p h).2 ∧ p.entries <+: (poolRun p h).2.entries ∧ (poolRun p h).2.entries.length ≤ p.entries.length + h.length ∧
    (∀ x, x ∈ (poolRun p h).2.entries ↔ x ∈ p.entries ∨ x ∈ h.map (·.2)) ∧ (poolRun p h).1.length = h.length ∧
    ∀ (j : Nat) (o : Bool × α) (i : Nat), h[j]? = some o → (poolRun p h).1[j]? = some i → (poolRun p h).2.get i = some o.2 := by
  induction h with
  | nil => intro p hp _; exact ⟨hp, List.prefix_refl _, by simp [poolRun], by simp [poolRun], rfl, by simp⟩
  | cons o h ih =>
    intro p hp hl
    obtain ⟨f, v⟩ := o
    simp only [List.length_cons] at hl
    -- one call
    have step : ∃ i q, (if f then p.addForce v else p.add v) = (i, q) ∧ PoolOk q ∧ p.entries <+: q.entries ∧ q.entries.length ≤ p.entries.length + 1 ∧
        (∀ x, x ∈ q.entries ↔ x ∈ p.entries ∨ x = v) ∧ q.get i = some v := by
      have hforce : PoolOk (p.addForce v).2 ∧ p.entries <+: (p.addForce v).2.entries ∧ (p.addForce v).2.entries.length ≤ p.entries.length + 1 ∧
          (∀ x, x ∈ (p.addForce v).2.entries ↔ x ∈ p.entries ∨ x = v) ∧ (p.addForce v).2.get (p.addForce v).1 = some v := by
        obtain ⟨h1, h2⟩ := poolOk_force hp (by omega) v
        refine ⟨h1, by simp [Pool.addForce], by simp [Pool.addForce], by simp [Pool.addForce], ?_⟩
        rw [h2]; simp [Pool.addForce, Pool.get]
      cases f with
      | true => exact ⟨_, _, rfl, hforce⟩
      | false =>
        obtain ⟨h1, h2, h3⟩ := poolOk_add hp (by omega) v
        by_cases hv : v ∈ p.entries
        · obtain ⟨h4, h5⟩ := h3 hv
          refine ⟨(p.add v).1, (p.add v).2, rfl, h1, by rw [h4]; exact List.prefix_refl _, by rw [h4]; omega, fun x => ?_, ?_⟩
          · rw [h4]
            constructor
            · exact .inl
            · rintro (h | rfl)
              · exact h
              · exact hv
          · rw [h4]; exact hp.found _ _ h5
        · have := h2 hv
          exact ⟨_, _, by rw [if_neg (by decide), this], hforce⟩
    obtain ⟨i, q, hq, k1, k2, k3, k4, k5⟩ := step
    obtain ⟨r1, r2, r3, r4, r5, r6⟩ := ih k1 (by omega)
    simp only [poolRun, hq]
    refine ⟨r1, k2.trans r2, by simp only [List.length_cons]; omega, fun x => ?_, by simp [r5], ?_⟩
    · rw [r4, k4]; simp [or_assoc]
    · intro j o i' hj hi
      cases j with
      | zero =>
        simp only [List.getElem?_cons_zero, Option.some.injEq] at hj hi
        subst hj hi
        obtain ⟨t, ht⟩ := r2
        unfold Pool.get at k5 ⊢
        rw [← ht, List.getElem?_append_left (List.getElem?_eq_some_iff.1 k5).1]
        exact k5
      | succ j => exact r6 j o i' (by simpa using hj) (by simpa using hi)

/-- C04 with `add_force`: for any history of fewer than 65536 calls of `add` and `add_force`,
every id returned retrieves the value of its call; a further `add_force` returns an id not returned before, under which
the value is found from then on, and changes nothing else; a further `add` of a value already present changes nothing and
returns the id under which the value is found, and otherwise does the same as `add_force`. -/
theorem C04_force {α : Type} [DecidableEq α] (h : List (Bool × α)) (hlim : h.length < 65536) :
    let ids := (poolRun Pool.empty h).1
    let p := (poolRun Pool.empty h).2
    ids.length = h.length ∧ (∀ (j : Nat) (o : Bool × α) (i : Nat), h[j]? = some o → ids[j]? = some i → p.get i = some o.2) ∧
    (∀ v, (p.addForce v).1 ∉ ids ∧ (p.addForce v).2.get (p.addForce v).1 = some v ∧ (p.addForce v).2.id? v = some (p.addForce v).1 ∧
      (∀ w, w ≠ v → (p.addForce v).2.id? w = p.id? w) ∧ ∀ i w, p.get i = some w → (p.addForce v).2.get i = some w) ∧
    (∀ v, v ∈ h.map (·.2) → (p.add v).2 = p ∧ p.id? v = some (p.add v).1 ∧ p.get (p.add v).1 = some v) ∧
    ∀ v, v ∉ h.map (·.2) → p.add v = p.addForce v ∧ p.id? v = none := by
  intro ids p
  have h0 : PoolOk (Pool.empty : Pool α) := ⟨by simp [Pool.empty, Pool.id?, Pool.lookup], by simp [Pool.empty, Pool.id?, Pool.lookup]⟩
  obtain ⟨r1, r2, r3, r4, r5, r6⟩ := poolRun_ok h h0 (by simp [Pool.empty]; omega)
  have hlen : p.entries.length < 65536 := by have : p.entries.length ≤ 0 + h.length := r3; omega
  have hmem : ∀ x, x ∈ p.entries ↔ x ∈ h.map (·.2) := fun x => by rw [r4]; simp [Pool.empty]
  refine ⟨r5, r6, fun v => ?_, fun v hv => ?_, fun v hv => ?_⟩
  · obtain ⟨k1, k2⟩ := poolOk_force r1 hlen v
    refine ⟨?_, ?_, ?_, fun w hw => ?_, fun i w hw => ?_⟩
    · rw [k2]
      intro hi
      obtain ⟨j, hj⟩ := List.getElem?_of_mem hi
      have hjl : j < h.length := by
        have := (List.getElem?_eq_some_iff.1 hj).1
        have h5 : ids.length = h.length := r5
        omega
      have := r6 j h[j] _ (List.getElem?_eq_getElem hjl) hj
      unfold Pool.get at this
      rw [List.getElem?_eq_none (by exact Nat.le_refl _)] at this
      cases this
    · rw [k2]; exact List.getElem?_concat_length
    · simp [Pool.addForce, Pool.id?, Pool.lookup]
    · simp only [Pool.addForce, Pool.id?, Pool.lookup]
      rw [if_neg (Ne.symm hw)]
    · unfold Pool.get at hw ⊢
      simp only [Pool.addForce]
      rw [List.getElem?_append_left (List.getElem?_eq_some_iff.1 hw).1]
      exact hw
  · obtain ⟨_, _, k⟩ := poolOk_add r1 hlen v
    obtain ⟨k1, k2⟩ := k ((hmem v).2 hv)
    exact ⟨k1, k2, r1.found _ _ k2⟩
  · have hv' : v ∉ p.entries := fun hh => hv ((hmem v).1 hh)
    exact ⟨(poolOk_add r1 hlen v).2.1 hv', (r1.mem v).2 hv'⟩

/-- `update` replaces the entry of one id and nothing else; ids that do not exist panic. The values found by `id` do not
change, so the replaced value is still found under that id and the new one is not. -/
theorem C04_update {α : Type} [DecidableEq α] (p : Pool α) (i : Nat) (v : α) :
    (p.get i = none → p.update i v = .panic) ∧
    (∀ w, p.get i = some w → ∃ q, p.update i v = .ok q ∧ q.get i = some v ∧ (∀ j, j ≠ i → q.get j = p.get j) ∧ q.len = p.len ∧ ∀ x, q.id? x = p.id? x) := by
  constructor
  · intro h
    have : ¬ i < p.entries.length := by
      intro hlt
      unfold Pool.get at h
      rw [List.getElem?_eq_getElem hlt] at h; cases h
    simp [Pool.update, this]
  · intro w h
    have hlt : i < p.entries.length := (List.getElem?_eq_some_iff.1 h).1
    refine ⟨{ p with entries := p.entries.set i v }, by simp [Pool.update, hlt], by simp [Pool.get, hlt], fun j hj => ?_, by simp [Pool.len], fun _ => rfl⟩
    simp [Pool.get, List.getElem?_set_ne (Ne.symm hj)]

example : (poolRun Pool.empty [(false, "a"), (true, "a"), (false, "b"), (false, "a")]).1 = [0, 1, 2, 1] := by decide

/-! ## C05: memory-limited arrays -/

/-- Operations covered by the accounting guarantee. -/
inductive VOp (α : Type) where
  | push (x : α)
  | pop
  | insert (i : Nat) (x : α)
  | remove (i : Nat)
  | swapRemove (i : Nat)
  | truncate (n : Nat)
  | clear

/-- Effect of one operation; `none` is a panic (index out of range). -/
def VOp.run {α : Type} (sz : α → Nat) (chk : Bool) (v : Vecc α) : VOp α → Option (Vecc α)
  | .push x => some (Vecc.push sz v x).2
  | .pop => match Vecc.pop sz chk v with | .ok (_, v) => some v | _ => none
  | .insert i x => match Vecc.insert sz v i x with | (.panic, _) => none | (_, v) => some v
  | .remove i => match Vecc.remove sz chk v i with | .ok (_, v) => some v | _ => none
  | .swapRemove i => match Vecc.swapRemove sz chk v i with | .ok (_, v) => some v | _ => none
  | .truncate n => match Vecc.truncate sz chk v n with | .ok v => some v | _ => none
  | .clear => some v.clear

/-- Run a history. -/
def VOp.runAll {α : Type} (sz : α → Nat) (chk : Bool) (v : Vecc α) : List (VOp α) → Option (Vecc α)
  | [] => some v
  | o :: os => (VOp.run sz chk v o).bind fun v => VOp.runAll sz chk v os

theorem VOp.run_ok {α : Type} (sz : α → Nat) (chk : Bool) (v v' : Vecc α) (o : VOp α)
    (h : Vecc.Ok sz v) (hr : VOp.run sz chk v o = some v') : Vecc.Ok sz v' ∧ v'.maxSize = v.maxSize := by
  obtain ⟨hs, hm⟩ := h
  unfold Vecc.Ok
  cases o with
  | push x =>
    simp only [VOp.run, Vecc.push] at hr
    split at hr <;> simp at hr <;> subst hr
    · exact ⟨⟨hs, hm⟩, rfl⟩
    · simp; omega
  | pop =>
    simp only [VOp.run, Vecc.pop] at hr
    cases hg : v.data.getLast? with
    | none => simp [hg] at hr; subst hr; exact ⟨⟨hs, hm⟩, rfl⟩
    | some x =>
      have := Vecc.total_dropLast (sz := sz) v.data x hg
      simp [hg, Vecc.subSize, show sz x ≤ v.size by omega] at hr; subst hr; simp; omega
  | insert i x =>
    simp only [VOp.run, Vecc.insert] at hr
    split at hr
    · simp at hr
    · rename_i heq
      split at heq
      · simp at heq hr; obtain ⟨_, rfl⟩ := heq; subst hr; exact ⟨⟨hs, hm⟩, rfl⟩
      · split at heq
        · rename_i hi
          simp at heq hr; obtain ⟨_, rfl⟩ := heq; subst hr
          simp [Vecc.total_insertIdx _ _ _ hi]; omega
        · simp at heq; obtain ⟨rfl, rfl⟩ := heq; simp_all
  | remove i =>
    simp only [VOp.run, Vecc.remove] at hr
    cases hg : v.data[i]? with
    | none => simp [hg] at hr
    | some x =>
      have := Vecc.total_eraseIdx (sz := sz) v.data i x hg
      simp [hg, Vecc.subSize, show sz x ≤ v.size by omega] at hr; subst hr; simp; omega
  | swapRemove i =>
    simp only [VOp.run, Vecc.swapRemove] at hr
    cases hg : v.data[i]? with
    | none => simp [hg] at hr
    | some x =>
      cases hl : v.data.getLast? with
      | none => simp [hg, hl] at hr
      | some l =>
        have hne : v.data ≠ [] := by intro h0; simp [h0] at hl
        have h1 := Vecc.total_set_getElem? (sz := sz) v.data i l x hg
        have h2 : (v.data.set i l).getLast? = some l := by
          rw [List.getLast?_eq_getElem?] at hl ⊢
          simp only [List.length_set]
          by_cases hi : i = v.data.length - 1
          · subst hi
            rw [List.getElem?_set_self]
            have := List.length_pos_iff.2 hne; omega
          · rw [List.getElem?_set_ne hi]; exact hl
        have h3 := Vecc.total_dropLast (sz := sz) _ l h2
        simp [hg, hl, Vecc.subSize, show sz x ≤ v.size by omega] at hr; subst hr
        simp; omega
  | truncate n =>
    simp only [VOp.run, Vecc.truncate] at hr
    split at hr
    · rename_i heq
      split at heq
      · have := Vecc.total_take_drop (sz := sz) v.data n
        simp [Vecc.subSize, show Vecc.total sz (v.data.drop n) ≤ v.size by omega] at heq hr
        subst heq hr; simp; omega
      · simp at heq
    · simp at hr
  | clear => simp [VOp.run, Vecc.clear] at hr; subst hr; simp

/-- C05: starting from an empty array with any limit, any history of these operations that does not
panic keeps `size` equal to the sum of the element sizes and within the limit, in both build modes. -/
theorem C05_accounting {α : Type} (sz : α → Nat) (chk : Bool) (limit : Nat) (h : List (VOp α))
    (v : Vecc α) (hr : VOp.runAll sz chk (Vecc.new limit) h = some v) :
    v.size = (v.data.map sz).sum ∧ v.size ≤ limit := by
  suffices hs : ∀ (h : List (VOp α)) (v0 v : Vecc α), Vecc.Ok sz v0 → VOp.runAll sz chk v0 h = some v →
      Vecc.Ok sz v ∧ v.maxSize = v0.maxSize by
    obtain ⟨⟨h1, h2⟩, h3⟩ := hs h (Vecc.new limit) v (by simp [Vecc.Ok, Vecc.new]) hr
    exact ⟨h1, by rw [h3] at h2; exact h2⟩
  intro h
  induction h with
  | nil => intro v0 v h0 hr; simp [VOp.runAll] at hr; subst hr; exact ⟨h0, rfl⟩
  | cons o h ih =>
    intro v0 v h0 hr
    simp only [VOp.runAll] at hr
    cases ho : VOp.run sz chk v0 o with
    | none => simp [ho] at hr
    | some v1 =>
      rw [ho] at hr
      obtain ⟨h1, h2⟩ := VOp.run_ok sz chk v0 v1 o h0 ho
      obtain ⟨h3, h4⟩ := ih v1 v h1 hr
      exact ⟨h3, by rw [h4, h2]⟩

/-- C05: `push` and `insert` fail exactly when the limit would be exceeded, and then leave the
array unchanged; `try_new_from` accepts exactly the data that fits. -/
theorem C05_limit_enforced {α : Type} (sz : α → Nat) (v : Vecc α) (x : α) (i : Nat) (data : List α) (m : Nat) :
    (Vecc.push sz v x = (.err (.overflow .arrayTooLarge), v) ↔ v.maxSize < v.size + sz x) ∧
    (v.size + sz x ≤ v.maxSize → (Vecc.push sz v x).1 = .ok () ∧ (Vecc.push sz v x).2.data = v.data ++ [x]) ∧
    (Vecc.insert sz v i x = (.err (.overflow .arrayTooLarge), v) ↔ v.maxSize < v.size + sz x) ∧
    (Vecc.tryNewFrom sz data m = .err (.overflow .arrayTooLarge) ↔ m < (data.map sz).sum) ∧
    ((data.map sz).sum ≤ m → Vecc.tryNewFrom sz data m = .ok ⟨data, (data.map sz).sum, m⟩) := by
  refine ⟨?_, ?_, ?_, ?_, ?_⟩
  · unfold Vecc.push; split
    · simp; omega
    · simp; omega
  · intro h; simp [Vecc.push, Nat.not_lt.2 h]
  · unfold Vecc.insert; split
    · simp; omega
    · split <;> simp <;> omega
  · unfold Vecc.tryNewFrom Vecc.total; split <;> simp <;> omega
  · intro h; unfold Vecc.tryNewFrom Vecc.total; rw [if_neg (by omega)]

/-- C05 (violation): replacing an element with `set` makes the recorded size drift: an array of one
16-byte element with limit 32 rejects its second replacement although it still holds one element. -/
theorem C05_set_drifts : ∃ v v' : Vecc Nat,
    Vecc.Ok (fun _ => 16) v ∧ Vecc.set (fun _ => 16) v 0 5 = (.ok (), v') ∧
    ¬ Vecc.Ok (fun _ => 16) v' ∧ v'.data = [5] ∧
    (Vecc.set (fun _ => 16) v' 0 6).1 = .err (.overflow .arrayTooLarge) :=
  ⟨⟨[4], 16, 32⟩, ⟨[5], 32, 32⟩, by simp [Vecc.Ok, Vecc.total], by decide,
    by simp [Vecc.Ok, Vecc.total], rfl, by decide⟩

/-- C05 (violation): a failing `extend` leaves the array changed and over its limit. -/
theorem C05_extend_corrupts : ∃ v v' : Vecc Nat,
    Vecc.Ok (fun _ => 16) v ∧
    Vecc.extend (fun _ => 16) v [1, 2] = (.err (.overflow .arrayTooLarge), v') ∧
    v'.data ≠ v.data ∧ v'.maxSize < v'.size :=
  ⟨⟨[], 0, 16⟩, ⟨[1], 32, 16⟩, by simp [Vecc.Ok, Vecc.total], by decide, by decide, by decide⟩

example : (VOp.runAll (fun n => n) false (Vecc.new 10)
    [.push 4, .push 9, .push 5, .insert 0 1, .pop, .swapRemove 0, .truncate 1, .push 3]).map
      (fun v => (v.data, v.size)) = some ([4, 3], 7) := by decide

/-! ## C06: reusable buffer = stack -/

/-- Operations on the buffer. -/
inductive BOp (α : Type) where
  | push (x : α)
  | pop
  | peek
  | len
  | clear
  | init (x : α)
  | drain

/-- Observable answers. -/
inductive BAns (α : Type) where
  | unit
  | item (x : Option α)
  | num (n : Nat)
  | items (xs : List α)
  deriving DecidableEq

/-- Specification: an ordinary stack (top at the end of the list). -/
def BOp.spec {α : Type} (s : List α) : BOp α → BAns α × List α
  | .push x => (.unit, s ++ [x])
  | .pop => (.item s.getLast?, s.dropLast)
  | .peek => (.item s.getLast?, s)
  | .len => (.num s.length, s)
  | .clear => (.unit, [])
  | .init x => (.unit, [x])
  | .drain => (.items s, [])

/-- The implementation. -/
def BOp.run {α : Type} (b : Bluff α) : BOp α → Res (BAns α × Bluff α)
  | .push x => (b.push x).map fun b => (.unit, b)
  | .pop => b.pop.map fun (x, b) => (.item x, b)
  | .peek => b.peek.map fun x => (.item x, b)
  | .len => .ok (.num b.len, b)
  | .clear => .ok (.unit, b.clear)
  | .init x => (b.init x).map fun b => (.unit, b)
  | .drain => b.drain.map fun (xs, b) => (.items xs, b)

/-- Answers of a history on the specification. -/
def BOp.specAll {α : Type} (s : List α) : List (BOp α) → List (BAns α)
  | [] => []
  | o :: os => let (a, s) := BOp.spec s o; a :: BOp.specAll s os

/-- Answers of a history on the implementation. -/
def BOp.runAll {α : Type} (b : Bluff α) : List (BOp α) → Res (List (BAns α))
  | [] => .ok []
  | o :: os => (BOp.run b o).bind fun (a, b) => (BOp.runAll b os).map (a :: ·)

theorem BOp.run_spec {α : Type} (b : Bluff α) (o : BOp α) (hi : b.Inv) :
    ∃ b', BOp.run b o = .ok ((BOp.spec b.toList o).1, b') ∧ b'.Inv ∧ b'.toList = (BOp.spec b.toList o).2 := by
  obtain ⟨d, n⟩ := b
  simp only [Bluff.Inv] at hi
  have hlast : 0 < n → (d.take n).getLast? = d[n - 1]? := by
    intro h
    rw [List.getLast?_eq_getElem?, List.length_take, Nat.min_eq_left hi, List.getElem?_take_of_lt (by omega)]
  have hpush : ∀ x m (hm : m ≤ d.length), ∃ b', Bluff.push ⟨d, m⟩ x = .ok b' ∧ b'.Inv ∧
      b'.toList = d.take m ++ [x] := by
    intro x m hm
    by_cases h : m = d.length
    · subst h
      refine ⟨⟨d ++ [x], d.length + 1⟩, by simp [Bluff.push], by simp [Bluff.Inv], ?_⟩
      simp only [Bluff.toList]; rw [List.take_of_length_le (by simp), List.take_of_length_le (by simp)]
    · have hlt : m < d.length := by omega
      refine ⟨⟨d.set m x, m + 1⟩, by simp [Bluff.push, h, hlt], by simp [Bluff.Inv]; omega, ?_⟩
      simp only [Bluff.toList]
      rw [List.take_add_one, List.take_set_of_le (Nat.le_refl m)]; simp [hlt]
  cases o with
  | push x =>
    obtain ⟨b', h1, h2, h3⟩ := hpush x n hi
    exact ⟨b', by simp [BOp.run, BOp.spec, h1], h2, h3⟩
  | init x =>
    obtain ⟨b', h1, h2, h3⟩ := hpush x 0 (by omega)
    exact ⟨b', by simp [BOp.run, BOp.spec, Bluff.init, h1], h2, by simpa [BOp.spec] using h3⟩
  | pop =>
    by_cases h : n = 0
    · subst h; exact ⟨⟨d, 0⟩, by simp [BOp.run, Bluff.pop, BOp.spec, Bluff.toList], by simp [Bluff.Inv],
        by simp [Bluff.toList, BOp.spec]⟩
    · have hlt : n - 1 < d.length := by omega
      refine ⟨⟨d, n - 1⟩, ?_, by simp [Bluff.Inv]; omega, ?_⟩
      · simp [BOp.run, Bluff.pop, h, BOp.spec, Bluff.toList, hlast (by omega), List.getElem?_eq_getElem hlt]
      · simp only [Bluff.toList, BOp.spec]
        rw [List.dropLast_eq_take, List.length_take, Nat.min_eq_left hi, List.take_take]
        congr 1; omega
  | peek =>
    by_cases h : n = 0
    · subst h; exact ⟨⟨d, 0⟩, by simp [BOp.run, Bluff.peek, BOp.spec, Bluff.toList], by simp [Bluff.Inv],
        by simp [Bluff.toList, BOp.spec]⟩
    · have hlt : n - 1 < d.length := by omega
      refine ⟨⟨d, n⟩, ?_, hi, rfl⟩
      simp [BOp.run, Bluff.peek, h, BOp.spec, Bluff.toList, hlast (by omega), List.getElem?_eq_getElem hlt]
  | len => exact ⟨⟨d, n⟩, by simp [BOp.run, BOp.spec, Bluff.len, Bluff.toList]; omega, hi, rfl⟩
  | clear => exact ⟨⟨d, 0⟩, by simp [BOp.run, BOp.spec, Bluff.clear], by simp [Bluff.Inv], by simp [Bluff.toList, BOp.spec]⟩
  | drain => exact ⟨⟨d, 0⟩, by simp [BOp.run, BOp.spec, Bluff.drain, hi, Bluff.toList], by simp [Bluff.Inv],
      by simp [Bluff.toList, BOp.spec]⟩

/-- C06: for every history the buffer never panics and answers exactly like a stack. -/
theorem C06_bluff_refines_stack {α : Type} (h : List (BOp α)) :
    BOp.runAll Bluff.new h = .ok (BOp.specAll [] h) := by
  suffices hs : ∀ (h : List (BOp α)) (b : Bluff α), b.Inv → BOp.runAll b h = .ok (BOp.specAll b.toList h) by
    exact hs h Bluff.new (by simp [Bluff.Inv, Bluff.new])
  intro h
  induction h with
  | nil => intro b _; rfl
  | cons o h ih =>
    intro b hb
    obtain ⟨b', h1, h2, h3⟩ := BOp.run_spec b o hb
    simp [BOp.runAll, h1, ih b' h2, h3, BOp.specAll]

example : BOp.runAll (Bluff.new : Bluff Nat)
    [.push 2, .push 3, .clear, .push 4, .peek, .pop, .pop, .init 9, .drain] =
    .ok [.unit, .unit, .unit, .unit, .item (some 4), .item (some 4), .item none, .unit, .items [9]] := by
  decide

end Quilt.Props
