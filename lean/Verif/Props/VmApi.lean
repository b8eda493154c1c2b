import Verif.Vm.Inv
import Verif.Props.Vm
import Verif.Props.Arith
import Verif.Props.Values

/-!
# Properties of single instructions and of the host interface: C28-C31, C42, C47, C49
-/

namespace Quilt.Props

open VM

variable {D C : Type}

/-! ## C14: functions -/

/-- Captured variables that `==` on functions treats as equal: both are still on the stack, in the same slot, or both have
left it and their values are equal. -/
def SameCell (heap : Nat → Cell) (veq : VVal → VVal → Option Bool) (a b : Nat) : Prop :=
  (∃ l, heap a = .opened l ∧ heap b = .opened l) ∨ ∃ v w, heap a = .closed v ∧ heap b = .closed w ∧ veq v w = some true

theorem cellsEq_iff (heap : Nat → Cell) (veq : VVal → VVal → Option Bool) : ∀ (as bs : List Nat), as.length = bs.length →
    (cellsEq heap veq as bs = some true ↔ ∀ (i : Nat) a b, as[i]? = some a → bs[i]? = some b → SameCell heap veq a b)
  | [], [], _ => by simp [cellsEq]
  | [], _ :: _, h => by simp at h
  | _ :: _, [], h => by simp at h
  | a :: as, b :: bs, h => by
    have ih := cellsEq_iff heap veq as bs (by simpa using h)
    have key : (match heap a, heap b with
      | .opened l, .opened r => some (decide (l = r))
      | .closed l, .closed r => veq l r
      | _, _ => some false) = some true ↔ SameCell heap veq a b := by
      unfold SameCell
      cases heap a <;> cases heap b <;> simp
      exact eq_comm
    have split : (∀ (i : Nat) x y, (a :: as)[i]? = some x → (b :: bs)[i]? = some y → SameCell heap veq x y) ↔
        SameCell heap veq a b ∧ ∀ (i : Nat) x y, as[i]? = some x → bs[i]? = some y → SameCell heap veq x y := by
      constructor
      · intro hh
        exact ⟨hh 0 a b rfl rfl, fun i x y hx hy => hh (i + 1) x y hx hy⟩
      · rintro ⟨h0, hh⟩ i x y hx hy
        cases i with
        | zero => simp at hx hy; subst hx hy; exact h0
        | succ i => exact hh i x y hx hy
    rw [split, ← key, ← ih]
    rw [cellsEq]
    split
    · rename_i hc; exact ⟨fun h => ⟨hc, h⟩, fun h => h.2⟩
    · rename_i hc
      constructor
      · intro h; exact absurd h hc
      · intro h; exact absurd h.1 hc

/-- Functions that capture variables are equal if their code is equal and they capture pairwise equal variables; they need not be the same
function object. -/
theorem C14_closures (F : FOps) (heap : Nat → Cell) (n : Nat) (a b : VClos) :
    closEq F heap (n + 1) a b = some true ↔
      a.fn = b.fn ∧ a.ups.length = b.ups.length ∧
        ∀ (i : Nat) c d, a.ups[i]? = some c → b.ups[i]? = some d → SameCell heap (Val.eqv F (closEq F heap n)) c d := by
  unfold closEq
  split
  · rename_i h; simp [h]
  · rename_i h
    split
    · rename_i h'; simp [h']
    · rename_i h'
      simp only [Classical.not_not] at h h'
      rw [cellsEq_iff _ _ _ _ h']
      simp [h, h']

theorem closEq_symm (F : FOps) (hF : ∀ x y, F.eq x y = F.eq y x) (heap : Nat → Cell) : ∀ (n : Nat) (a b : VClos), closEq F heap n a b = closEq F heap n b a
  | 0, _, _ => rfl
  | n + 1, a, b => by
    have hv := eqv_symm F (closEq F heap n) hF (closEq_symm F hF heap n)
    have hc : ∀ as bs : List Nat, cellsEq heap (Val.eqv F (closEq F heap n)) as bs = cellsEq heap (Val.eqv F (closEq F heap n)) bs as := by
      intro as
      induction as with
      | nil => intro bs; cases bs <;> rfl
      | cons a as ih =>
        intro bs
        cases bs with
        | nil => rfl
        | cons b bs =>
          simp only [cellsEq]
          rw [ih bs]
          cases heap a <;> cases heap b <;> simp [eq_comm]
          rw [hv]
    unfold closEq
    by_cases h1 : a.fn = b.fn
    · by_cases h2 : a.ups.length = b.ups.length
      · simp only [h1, h2, ne_eq, not_true_eq_false, if_false]
        exact hc _ _
      · simp [h1, h2, Ne.symm h2]
    · simp [h1, Ne.symm h1]

/-- `==` of the VM is symmetric on all values, functions included, provided float equality is. -/
theorem C14_symmetric_vm {D : Type} (H : Host D) (s : VM D) (hF : ∀ x y, H.cfg.F.eq x y = H.cfg.F.eq y x) (a b : VVal) :
    Val.binary H.cfg H.opts.lim (s.ceq H) .eq a b = Val.binary H.cfg H.opts.lim (s.ceq H) .eq b a :=
  C14_symmetric H.cfg H.opts.lim (s.ceq H) hF (closEq_symm H.cfg.F hF s.heap H.eqFuel) a b

private def eqHeap (i : Nat) : Cell := if i = 0 then .opened 4 else if i = 1 then .opened 5 else .closed (.int (if i = 4 then 8 else 7))

example (f : Func) (F : FOps) : closEq F eqHeap 3 ⟨f, [2]⟩ ⟨f, [3]⟩ = some true ∧ closEq F eqHeap 3 ⟨f, [2]⟩ ⟨f, [4]⟩ = some false ∧
    closEq F eqHeap 3 ⟨f, [0]⟩ ⟨f, [1]⟩ = some false ∧ closEq F eqHeap 3 ⟨f, [0]⟩ ⟨f, [0]⟩ = some true ∧ closEq F eqHeap 3 ⟨f, [0]⟩ ⟨f, []⟩ = some false := by
  simp [closEq, cellsEq, eqHeap, Val.eqv]

/-! ## C28: iteration -/

/-- Specification: the elements a `for` loop over the value visits. -/
def elements : Val C → Option (List (Val C))
  | .arr xs _ _ => some xs
  | .str s => some (s.map fun c => .str [c])
  | .color r g b a => some [.int (r.setWidth 64), .int (g.setWidth 64), .int (b.setWidth 64), .int (a.setWidth 64)]
  | .range a b => some ((List.range (b.toInt - a.toInt).toNat).map fun (k : Nat) => .int (BitVec.ofInt 64 (a.toInt + k)))
  | _ => none

theorem range_item (a b : BitVec 32) (k : Nat) (hk : k ≤ (b.toInt - a.toInt).toNat) :
    (BitVec.ofInt 32 (a.toInt + (BitVec.ofNat 32 k).toInt)).toInt =
      if k = 0 then a.toInt else a.toInt + k := by
  have ha := a.toInt_lt; have ha' := a.le_toInt
  have hb := b.toInt_lt; have hb' := b.le_toInt
  have hn := BitVec.toInt_eq_toNat_cond (BitVec.ofNat 32 k)
  rw [BitVec.toNat_ofNat] at hn
  simp only [BitVec.toInt_ofInt, Int.bmod_def]
  generalize (BitVec.ofNat 32 k).toInt = m at *
  generalize a.toInt = x at *
  generalize b.toInt = y at *
  clear a b
  split at hn <;> split <;> split <;> omega

theorem iter_range (a b : BitVec 32) (k : Nat) (hk : k ≤ (b.toInt - a.toInt).toNat) :
    Val.iterItem (C := C) false (.range a b) k =
      .ok (((List.range (b.toInt - a.toInt).toNat).map
        fun (k : Nat) => (.int (BitVec.ofInt 64 (a.toInt + k)) : Val C))[k]?) := by
  have h := range_item a b k hk
  simp only [Val.iterItem, Bool.false_eq_true, false_and, if_false]
  congr 1
  by_cases hlt : k < (b.toInt - a.toInt).toNat
  · have h1 : (BitVec.ofInt 32 (a.toInt + (BitVec.ofNat 32 k).toInt)).toInt = a.toInt + k := by
      rw [h]; split <;> omega
    rw [if_pos (by rw [h1]; omega)]
    simp only [List.getElem?_map, List.getElem?_range hlt, Option.map_some]
    congr 2
    apply BitVec.eq_of_toInt_eq
    rw [BitVec.toInt_signExtend_of_le (by omega), h1]
    have ha := a.toInt_lt; have ha' := a.le_toInt
    have hb := b.toInt_lt; have hb' := b.le_toInt
    simp only [BitVec.toInt_ofInt, Int.bmod_def]
    split <;> omega
  · have hk' : k = (b.toInt - a.toInt).toNat := by omega
    rw [if_neg (by rw [h]; split <;> omega)]
    rw [List.getElem?_eq_none (by simp; omega)]

/-- Position `k` of an iterable gives its `k`-th element, and the position after the last one ends
the loop. All kinds, all lengths (in release builds). -/
theorem C28_items (v : Val C) (xs : List (Val C)) (hv : elements v = some xs) (k : Nat) (hk : k ≤ xs.length) :
    Val.iterItem false v k = .ok xs[k]? := by
  cases v <;> simp only [elements, reduceCtorEq, Option.some.injEq] at hv
  case arr => subst hv; rfl
  case str s => subst hv; simp [Val.iterItem]
  case color r g b a =>
    subst hv
    simp only [Val.iterItem]
    match k with
    | 0 | 1 | 2 | 3 => rfl
    | k + 4 => simp
  case range a b => subst hv; exact iter_range a b k (by simpa using hk)

/-- With overflow checks the same holds for ranges of less than `2^31` elements. -/
theorem C28_items_checked (v : Val C) (xs : List (Val C)) (hv : elements v = some xs) (hl : xs.length < 2 ^ 31)
    (k : Nat) (hk : k ≤ xs.length) : Val.iterItem true v k = .ok xs[k]? := by
  rw [← C28_items v xs hv k hk]
  cases v <;> try rfl
  case range a b =>
    simp only [elements, Option.some.injEq] at hv
    have hlen : xs.length = (b.toInt - a.toInt).toNat := by rw [← hv]; simp
    simp only [Val.iterItem, Bool.false_eq_true, false_and, if_false]
    rw [if_neg]
    have ha := a.toInt_lt; have ha' := a.le_toInt
    have hb := b.toInt_lt; have hb' := b.le_toInt
    have hn := BitVec.toInt_eq_toNat_cond (BitVec.ofNat 32 k)
    rw [BitVec.toNat_ofNat] at hn
    generalize (BitVec.ofNat 32 k).toInt = m at *
    split at hn <;> omega

/-- With overflow checks a range of `2^31` elements or more panics at position `2^31`, when it
starts below zero. -/
theorem C28_checked_panics (a b : BitVec 32) (ha : a.toInt < 0) :
    Val.iterItem (C := C) true (.range a b) (2 ^ 31) = .panic := by
  simp only [Val.iterItem, true_and]
  rw [if_pos]
  simp only [show (BitVec.ofNat 32 (2 ^ 31)).toInt = -2147483648 by decide]
  omega

/-- Every other kind of value is a `TypeError`. -/
theorem C28_not_iterable (chk : Bool) (v : Val C) (hv : elements v = none) (k : Nat) :
    Val.iterItem chk v k = .err (.type (.notIterable v.ntype)) := by
  cases v <;> simp [elements] at hv <;> rfl

/-- `IterNext` with the loop counter at `k`: the counter goes to `k + 1` and element `k` is pushed;
after the last element the loop is left (the jump is taken). -/
theorem C28_iter_next (H : Host D) (s : VM D) (o k : Nat) (xs : List VVal) (hs : 3 ≤ s.sp)
    (hc : s.stack (s.sp - 3) = .loopCtx k) (hv : elements (s.stack (s.sp - 2)) = some xs)
    (hx : H.cfg.chk = false ∨ xs.length < 2 ^ 31) (hk : k ≤ xs.length) :
    s.exec H (.iterNext o) =
      let s1 := { s with stack := upd s.stack (s.sp - 3) (.loopCtx (k + 1)) }
      match xs[k]? with
      | some x => s1.push H x
      | none => .next { s1 with frame := { s.frame with ip := s.frame.ip + o } } := by
  have h3 : ¬ s.sp < 3 := by omega
  have hit : Val.iterItem H.cfg.chk (s.stack (s.sp - 2)) k = .ok xs[k]? := by
    cases hch : H.cfg.chk with
    | false => exact C28_items _ xs hv k hk
    | true => exact C28_items_checked _ xs hv (hx.resolve_left (by simp [hch])) k hk
  simp only [VM.exec, h3, if_false, hc]
  rw [upd_other _ _ (by omega), hit]
  simp only [VM.lift]
  cases xs[k]? <;> rfl

example : elements (.range 3#32 6#32 : Val C) = some [.int 3#64, .int 4#64, .int 5#64] ∧
    Val.iterItem false (.range 3#32 6#32 : Val C) 3 = .ok none := by constructor <;> rfl
example : elements (.str ['a', 'é'] : Val C) = some [.str ['a'], .str ['é']] := rfl

/-! ## C29: destructuring -/

/-- Specification: the components of a value. -/
def components : Val C → Option (List (Val C))
  | .pair a b => some [a, b]
  | .arr xs _ _ => some xs
  | .color r g b a => some [.int (r.setWidth 64), .int (g.setWidth 64), .int (b.setWidth 64), .int (a.setWidth 64)]
  | _ => none

/-- Unpacking into `n` names succeeds exactly when `n` is the number of components (for colours:
`1 ≤ n ≤ 4`) and then yields the components in order; the other cases. -/
theorem C29_unpack (v : Val C) (n : Nat) :
    v.unpack n =
      match components v with
      | none => .err (.type (.unpackable v.ntype))
      | some xs =>
        if v.ntype = "color" ∧ n ≥ 5 then .panic
        else if xs.length = n ∨ (v.ntype = "color" ∧ 1 ≤ n) then .ok (xs.take n)
        else .err (.type (.insufficientValues xs.length n)) := by
  cases v with
  | pair a b =>
    simp only [Val.unpack, components, Val.ntype]
    by_cases h : n = 2
    · subst h; simp
    · simp [h, Ne.symm h]
  | arr xs _ _ =>
    simp only [Val.unpack, components, Val.ntype]
    by_cases h : xs.length = n
    · subst h; simp
    · simp [h]
  | color r g b a =>
    simp only [Val.unpack, components, Val.ntype]
    match n with
    | 0 => simp
    | 1 => simp
    | 2 => simp
    | 3 => simp
    | 4 => simp
    | n + 5 => simp
  | _ => simp [Val.unpack, components, Val.ntype]

/-- After `Unpack n` the first component is on top of the stack, the `k`-th one `k` places below:
the compiler's variables, declared in reverse order, are matched with the components by position. -/
theorem C29_positions (H : Host D) (s s' : VM D) (n : Nat) (xs : List VVal) (h0 : 0 < s.sp)
    (hx : (s.stack (s.sp - 1)).unpack n = .ok xs) (h : s.exec H (.unpack n) = .next s') :
    s'.sp = s.sp - 1 + xs.length ∧ (∀ k, k < xs.length → xs[k]? = some (s'.stack (s'.sp - 1 - k))) ∧
    ∀ i, i < s.sp - 1 → s'.stack i = s.stack i := by
  have key : ∀ (vs : List VVal) (s s' : VM D), s.pushAll H vs = .next s' →
      s'.sp = s.sp + vs.length ∧ (∀ j, j < vs.length → vs[j]? = some (s'.stack (s.sp + j))) ∧
      ∀ i, i < s.sp → s'.stack i = s.stack i := by
    intro vs
    induction vs with
    | nil => intro s s' h; simp [VM.pushAll] at h; subst h; simp
    | cons v vs ih =>
      intro s s' h
      simp only [VM.pushAll, VM.push] at h
      by_cases hr : reached H.opts.stackSize s.sp = true
      · simp [hr, VM.errAt] at h
      · simp only [hr, Bool.false_eq_true, if_false] at h
        obtain ⟨h1, h2, h3⟩ := ih _ _ h
        simp only [VM.pushU] at h1 h2 h3
        refine ⟨by simp; omega, ?_, fun i hi => ?_⟩
        · intro j hj
          match j with
          | 0 => rw [Nat.add_zero, h3 s.sp (by omega)]; simp
          | j + 1 =>
            have := h2 j (by simp at hj; omega)
            simp only [List.getElem?_cons_succ, this]
            congr 2; omega
        · rw [h3 i (by omega), upd_other _ _ (by omega)]
  have h00 : ¬ s.sp = 0 := by omega
  simp only [VM.exec, VM.popSwapOut, h00, if_false, hx, VM.lift] at h
  obtain ⟨h1, h2, h3⟩ := key _ _ _ h
  simp only [List.length_reverse] at h1 h2 h3
  refine ⟨h1, ?_, ?_⟩
  · intro k hk
    have := h2 (xs.length - 1 - k) (by omega)
    rw [List.getElem?_reverse (by omega)] at this
    rw [show xs.length - 1 - (xs.length - 1 - k) = k by omega] at this
    rw [this]; congr 2; omega
  · intro i hi
    rw [h3 i hi, upd_other _ _ (by omega)]

example : (Val.color 1#8 2#8 3#8 4#8 : Val C).unpack 3 = .ok [.int 1#64, .int 2#64, .int 3#64] := rfl

/-! ## C30: globals -/

/-- The global variables by name. -/
def globalNamed (H : Host D) (s : VM D) (name : String) : Option VVal :=
  (H.syms.id? name).bind s.globals

/-- Different known names have different ids. -/
theorem pool_id_inj {p : Pool String} (h : p.Inv) (hl : p.entries.length ≤ 65536) {a b : String} {i : Nat}
    (ha : p.id? a = some i) (hb : p.id? b = some i) : a = b := by
  obtain ⟨k, hk, rfl⟩ := (h.look a _).1 ha
  obtain ⟨k', hk', he⟩ := (h.look b _).1 hb
  have h1 := (List.getElem?_eq_some_iff.1 hk).1
  have h2 := (List.getElem?_eq_some_iff.1 hk').1
  simp only [Pool.fromUsize] at he
  have : k = k' := by omega
  subst this
  rw [hk] at hk'; simpa using hk'

theorem pool_get {p : Pool String} (h : p.Inv) (hl : p.entries.length ≤ 65536) {a : String} {i : Nat}
    (ha : p.id? a = some i) : p.get i = some a := by
  obtain ⟨k, hk, rfl⟩ := (h.look a _).1 ha
  have h1 := (List.getElem?_eq_some_iff.1 hk).1
  simp only [Pool.fromUsize, Pool.get, Nat.mod_eq_of_lt (show k < 65536 by omega), hk]

/-- Reading: the stored value is pushed, or `Undefined` with that very name; nothing is created. -/
theorem C30_read (H : Host D) (hp : H.syms.Inv) (hl : H.syms.entries.length ≤ 65536) (s : VM D)
    (name : String) (i : Nat) (hi : H.syms.id? name = some i) :
    s.exec H (.loadGlobal i) =
      match globalNamed H s name with
      | some v => s.push H v
      | none => .err (.name (.undefined name)) (s.frame.fn.getSpan (s.frame.ip - 1)) s := by
  simp only [VM.exec, globalNamed, hi, Option.bind_some]
  cases s.globals i with
  | some v => rfl
  | none => simp [VM.err1, VM.symName, pool_get hp hl hi]

/-- Names whose variables are changed by writing slot `i`: exactly the name with this id. -/
theorem globals_upd (H : Host D) (hp : H.syms.Inv) (hl : H.syms.entries.length ≤ 65536) (s s' : VM D)
    (name : String) (i : Nat) (hi : H.syms.id? name = some i) (v : VVal)
    (hs : s'.globals = upd s.globals i (some v)) (n : String) :
    globalNamed H s' n = if n = name then some v else globalNamed H s n := by
  unfold globalNamed
  by_cases hn : n = name
  · subst hn; simp [hi, hs]
  · simp only [hn, if_false]
    cases hk : H.syms.id? n with
    | none => rfl
    | some j =>
      have : j ≠ i := fun h => hn (pool_id_inj hp hl hk (h ▸ hi))
      simp [hs, upd_other _ _ this]

/-- Defining stores the popped value under the name and affects no other name. -/
theorem C30_define (H : Host D) (hp : H.syms.Inv) (hl : H.syms.entries.length ≤ 65536) (s : VM D)
    (name : String) (i : Nat) (hi : H.syms.id? name = some i) (h0 : 0 < s.sp) :
    ∃ s', s.exec H (.defineGlobal i) = .next s' ∧ s'.sp = s.sp - 1 ∧
      ∀ n, globalNamed H s' n = if n = name then some (s.stack (s.sp - 1)) else globalNamed H s n := by
  have h0 : ¬ s.sp = 0 := by omega
  simp only [VM.exec, VM.pop, h0, if_false]
  exact ⟨_, rfl, rfl, globals_upd H hp hl s _ name i hi _ rfl⟩

/-- Assigning to a defined name stores the value and affects no other name; assigning to an
undefined name is `Undefined` with that name and creates nothing. -/
theorem C30_assign (H : Host D) (hp : H.syms.Inv) (hl : H.syms.entries.length ≤ 65536) (s : VM D)
    (name : String) (i : Nat) (hi : H.syms.id? name = some i) (h0 : 0 < s.sp) :
    (globalNamed H s name = none → s.exec H (.setGlobal i) =
        .err (.name (.undefined name)) (s.frame.fn.getSpan (s.frame.ip - 1)) s) ∧
    (globalNamed H s name ≠ none → ∃ s', s.exec H (.setGlobal i) = .next s' ∧ s'.sp = s.sp ∧
      ∀ n, globalNamed H s' n = if n = name then some (s.stack (s.sp - 1)) else globalNamed H s n) := by
  have h0 : ¬ s.sp = 0 := by omega
  simp only [VM.exec, h0, if_false]
  unfold globalNamed
  simp only [hi, Option.bind_some]
  constructor
  · intro h; simp [h, VM.err1, VM.symName, pool_get hp hl hi]
  · intro h
    cases hg : s.globals i with
    | none => exact absurd hg h
    | some w => exact ⟨_, rfl, rfl, globals_upd H hp hl s _ name i hi _ rfl⟩

/-- A global inserted by the host is visible under its name and affects no other name. -/
theorem C30_insert (m : Machine D) (hp : m.host.syms.Inv) (hl : m.host.syms.entries.length < 65536)
    (name : String) (v : VVal) (n : String) :
    globalNamed (m.insertGlobal name v).host (m.insertGlobal name v).vm n =
      if n = name then some v else globalNamed m.host m.vm n := by
  have hinv := Pool.inv_add hp name
  have hlen : (m.host.syms.add name).2.entries.length ≤ 65536 := by
    rw [Pool.add_entries hp]; split <;> (try simp only [List.length_append, List.length_singleton]) <;> omega
  have hid : (m.host.syms.add name).2.id? name = some (m.host.syms.add name).1 := by
    unfold Pool.add Pool.id?
    cases h : Pool.lookup name m.host.syms.dups with
    | some i => simp [h]
    | none => simp [Pool.lookup]
  have hsame : ∀ n, n ≠ name → (m.host.syms.add name).2.id? n = m.host.syms.id? n := by
    intro n hn
    unfold Pool.add Pool.id?
    cases h : Pool.lookup name m.host.syms.dups with
    | some i => simp
    | none => simp [Pool.lookup, Ne.symm hn]
  simp only [Machine.insertGlobal]
  rw [globals_upd _ hinv hlen m.vm _ name _ hid v rfl n]
  split
  · rfl
  · rename_i hn
    unfold globalNamed
    simp only [hsame n hn]

example : (⟨["a", "b"], [("b", 1), ("a", 0)]⟩ : Pool String).Inv ∧
    (⟨["a", "b"], [("b", 1), ("a", 0)]⟩ : Pool String).id? "b" = some 1 :=
  ⟨Pool.inv_add (Pool.inv_add Pool.inv_empty "a") "b", by decide⟩

/-! ## C31: external inputs -/

/-- `set_external` succeeds exactly for the names the script declared external. -/
theorem C31_declared (S : Machine.Setup D) (data : D) (script : Script) (name : String) (v : VVal) :
    ((Machine.new S data script).setExternal name v).1 =
      if script.checkExternal name then .ok () else .err (.name (.externalNotDefined name)) := by
  simp only [Machine.setExternal, Machine.new, Script.checkExternal]
  split
  · rename_i h; simp [h]
  · rename_i i h; by_cases h' : i ∈ script.externals <;> simp [h, h']

/-- A history of `set_external` calls. -/
def setAll (m : Machine D) : List (String × VVal) → Machine D
  | [] => m
  | (n, v) :: l => setAll (m.setExternal n v).2 l

/-- The value set last under the name, if any. -/
def lastSet (name : String) : List (String × VVal) → Option VVal → Option VVal
  | [], o => o
  | (n, v) :: l, o => lastSet name l (if n = name then some v else o)

theorem setAll_same (l : List (String × VVal)) : ∀ m : Machine D,
    (setAll m l).host = m.host ∧ (setAll m l).externals = m.externals ∧
    (setAll m l).vm = { m.vm with globals := (setAll m l).vm.globals } := by
  induction l with
  | nil => intro m; simp [setAll]
  | cons p l ih =>
    intro m
    obtain ⟨n, v⟩ := p
    simp only [setAll]
    have h1 := ih (m.setExternal n v).2
    have h2 : (m.setExternal n v).2.host = m.host ∧ (m.setExternal n v).2.externals = m.externals ∧
        (m.setExternal n v).2.vm = { m.vm with globals := (m.setExternal n v).2.vm.globals } := by
      unfold Machine.setExternal
      split
      · simp
      · split <;> simp
    refine ⟨h1.1.trans h2.1, h1.2.1.trans h2.2.1, ?_⟩
    rw [h1.2.2, h2.2.2]

theorem setAll_globals (name : String) (i : Nat) (l : List (String × VVal)) : ∀ m : Machine D,
    m.host.syms.Inv → m.host.syms.entries.length ≤ 65536 → m.host.syms.id? name = some i →
    i ∈ m.externals →
    (setAll m l).vm.globals i = lastSet name l (m.vm.globals i) := by
  induction l with
  | nil => intro m _ _ _ _; rfl
  | cons p l ih =>
    intro m hp hl hi he
    obtain ⟨n, v⟩ := p
    simp only [setAll, lastSet]
    have h2 := setAll_same [(n, v)] m
    simp only [setAll] at h2
    rw [ih (m.setExternal n v).2 (by rw [h2.1]; exact hp) (by rw [h2.1]; exact hl) (by rw [h2.1]; exact hi)
      (by rw [h2.2.1]; exact he)]
    congr 1
    unfold Machine.setExternal
    by_cases hn : n = name
    · subst hn; simp [hi, he]
    · simp only [hn, if_false]
      cases hk : m.host.syms.id? n with
      | none => rfl
      | some j =>
        have : i ≠ j := fun h => hn (pool_id_inj hp hl hk (h ▸ hi))
        by_cases hj : j ∈ m.externals
        · simp [hj, upd_other _ _ this]
        · simp [hj]

/-- After any calls of `set_external` before the run, the declaration `external name = default`
leaves the global with the value set last, and with the default if it was never set. -/
theorem C31_value_seen (S : Machine.Setup D) (data : D) (script : Script) (hp : script.syms.Inv)
    (hl : script.syms.entries.length ≤ 65536) (name : String) (i : Nat) (hi : script.syms.id? name = some i)
    (he : i ∈ script.externals) (sets : List (String × VVal)) (s : VM D)
    (hg : s.globals i = (setAll (Machine.new S data script) sets).vm.globals i) (h0 : 0 < s.sp)
    (H : Host D) :
    ∃ s', s.exec H (.defineGlobalDefaulted i) = .next s' ∧
      s'.globals i = some ((lastSet name sets none).getD (s.stack (s.sp - 1))) ∧
      ∀ j, j ≠ i → s'.globals j = s.globals j := by
  have h0 : ¬ s.sp = 0 := by omega
  rw [setAll_globals name i sets (Machine.new S data script) hp hl hi he] at hg
  simp only [Machine.new] at hg
  simp only [VM.exec, VM.pop, h0, if_false]
  rw [hg]
  cases h : lastSet name sets none with
  | none =>
    exact ⟨_, rfl, by simp, fun j hj => by simp [upd_other _ _ hj]⟩
  | some w =>
    exact ⟨_, rfl, by simp [hg, h], fun j hj => rfl⟩

/-- `update_script` does not refresh the declared names: with a new script declaring an external
the call still fails. -/
theorem C31_update_script_stale (S : Machine.Setup D) (data : D) (old new : Script) (name : String)
    (v : VVal) (ho : old.externals = []) :
    (((Machine.new S data old).updateScript new).setExternal name v).1 =
      .err (.name (.externalNotDefined name)) := by
  simp only [Machine.setExternal, Machine.updateScript, Machine.new, ho]
  split
  · rfl
  · simp

example : lastSet "x" [("x", .int 1), ("y", .int 2), ("x", .int 3)] none = some (.int 3) := rfl
example : (⟨[0], ⟨["x"], [("x", 0)]⟩, demoFn [] []⟩ : Script).checkExternal "x" = true := by decide

/-! ## C42: tracebacks -/

open Machine in
/-- A traceback starts with the running function, has at most 11 entries, continues with the most
recent callers in order (at most 8, never the main script), and ends with the main script whenever
a call is active. -/
theorem C42_traceback (s : VM D) :
    (traceBack s).length ≤ 11 ∧
    (traceBack s)[0]? = some (traceFrame s.frame) ∧
    (∀ k f, k < 8 → k + 1 < s.frames.length → s.frames[k]? = some f →
      (traceBack s)[k + 1]? = some (traceFrame f)) ∧
    (∀ main, s.frames.getLast? = some main →
      (traceBack s).getLast? = some (.frame main.fn.name (main.fn.getSpan main.ip))) ∧
    (s.frames = [] → traceBack s = [traceFrame s.frame]) := by
  refine ⟨?_, ?_, ?_, ?_, ?_⟩
  · unfold traceBack
    have h1 : ((s.frames.dropLast.take 8).map traceFrame).length ≤ 8 := by simp; omega
    simp only [List.length_append, List.length_singleton]
    split <;> split <;> simp only [List.length_cons, List.length_nil] <;> omega
  · simp [traceBack]
  · intro k f hk hk' hf
    unfold traceBack
    rw [List.append_assoc, List.append_assoc, List.singleton_append, List.getElem?_cons_succ]
    rw [List.getElem?_append_left (by simp; omega)]
    simp only [List.getElem?_map, List.getElem?_take, hk, if_true, List.getElem?_dropLast]
    rw [if_pos (by omega), hf]; rfl
  · intro main hm
    unfold traceBack
    rw [hm]
    rw [List.getLast?_append]; rfl
  · intro h; simp [traceBack, h]

open Machine in
/-- The number of omitted frames shown is one too small: with `n > 10` suspended frames `n - 9` of
them are left out but `n - 10` are reported; with exactly 10 one is left out silently. -/
theorem C42_omitted_count (s : VM D) (h : 9 ≤ s.frames.length) :
    (s.frames.dropLast.take 8).length + 1 + (s.frames.length - 9) = s.frames.length ∧
    ((traceBack s).filterMap fun | .more n => some n | _ => none) =
      if s.frames.length > 10 then [s.frames.length - 10] else [] := by
  refine ⟨by simp; omega, ?_⟩
  unfold traceBack
  have hz : ∀ l : List Frame, (l.map traceFrame).filterMap
      (fun | TraceEntry.more n => some n | _ => none) = [] := by
    intro l; induction l with
    | nil => rfl
    | cons a l ih => simp [traceFrame, ih]
  simp only [List.filterMap_append, hz]
  split <;> split <;> simp [traceFrame]

open Machine in
example : (traceBack { demoVm [] [] with
    frames := [⟨demoFn [] [], [], 0, 0⟩, ⟨.mk "main" Span.default 0 0 [] Rle.empty [] [], [], 0, 0⟩] }) =
    [.frame "f" Span.default, .frame "f" Span.default, .frame "main" Span.default] := rfl

/-! ## C47: strings are indexed by character -/

/-- `s[i]` for a string: character `i`, or counted from the end for negative `i`; an `IndexError`
otherwise (release builds; checked builds differ as in C07). Iteration position `k` is the same
character as index `k`. -/
theorem C47_string_index (s : List Char) (hs : s.length < 2 ^ 63) (i : BitVec 64) :
    (Val.str s : Val C).indexGet false (.int i) =
      if h : 0 ≤ i.toInt ∧ i.toInt < s.length then .ok (.str [s[i.toInt.toNat]'(by omega)])
      else if h : i.toInt < 0 ∧ -(s.length : Int) ≤ i.toInt then
        .ok (.str [s[s.length - (-i.toInt).toNat]'(by omega)])
      else .err (.index i) := by
  simp only [Val.indexGet, C07_fix_index i s.length hs]
  by_cases h1 : 0 ≤ i.toInt ∧ i.toInt < s.length
  · have hlt : i.toInt.toNat < s.length := by omega
    rw [if_pos (by omega), if_neg (by omega), dif_pos h1]
    simp [List.getElem?_eq_getElem hlt]
  · rw [dif_neg h1]
    by_cases h2 : i.toInt < 0 ∧ -(s.length : Int) ≤ i.toInt
    · have he : (i.toInt + s.length).toNat = s.length - (-i.toInt).toNat := by omega
      have hlt : s.length - (-i.toInt).toNat < s.length := by omega
      rw [if_pos (by omega), if_pos h2.1, dif_pos h2, he]
      simp [List.getElem?_eq_getElem hlt]
    · rw [if_neg (by omega), dif_neg h2]; rfl

theorem C47_iteration_agrees (chk : Bool) (s : List Char) (k : Nat) (hk : k < s.length) :
    Val.iterItem chk (.str s : Val C) k = .ok (some (.str [s[k]])) ∧
    Val.iterItem chk (.str s : Val C) s.length = .ok none := by
  simp [Val.iterItem, List.getElem?_eq_getElem hk]

theorem utf8Size_eq_one (c : Char) : c.utf8Size = 1 ↔ c.toNat < 128 := by
  have h : c.utf8Size = 1 ↔ c.val ≤ 127 := Char.utf8Size_eq_one_iff
  rw [h, UInt32.le_iff_toNat_le]
  show c.toNat ≤ 127 ↔ _
  omega

/-- Byte length and number of characters agree exactly for ASCII strings (`@len` of a string is
its byte length, the index bound is the number of characters). -/
theorem C47_len_ascii (s : List Char) : utf8Len s = s.length ↔ ∀ c ∈ s, c.toNat < 128 := by
  unfold utf8Len
  have hge : ∀ l : List Char, l.length ≤ (l.map Char.utf8Size).sum := by
    intro l; induction l with
    | nil => simp
    | cons a l ih => simp; have := Char.utf8Size_pos a; omega
  induction s with
  | nil => simp
  | cons a l ih =>
    have h1 := Char.utf8Size_pos a
    have h2 := hge l
    simp only [List.map_cons, List.sum_cons, List.length_cons, List.mem_cons, forall_eq_or_imp]
    rw [← utf8Size_eq_one]
    constructor
    · intro h; exact ⟨by omega, ih.1 (by omega)⟩
    · rintro ⟨h, h'⟩; have := ih.2 h'; omega

example : (Val.str ['h', 'é', 'l'] : Val C).indexGet false (.int (-1)) = .ok (.str ['l']) := rfl

end Quilt.Props
