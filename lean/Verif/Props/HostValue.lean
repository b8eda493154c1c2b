import Verif.HostValue
import Verif.Props.Values

/-!
# Values made from data of the host: C81
-/

namespace Quilt.Props

open Lib HType

variable {C : Type} {w : BitVec 32 → BitVec 64}

/-- The number that integer data stands for. -/
def number : (t : HType) → t.Data C → Option Int
  | .i8, x => some ((show BitVec 8 from x).toInt)
  | .i16, x => some ((show BitVec 16 from x).toInt)
  | .i32, x => some ((show BitVec 32 from x).toInt)
  | .i64, x => some ((show BitVec 64 from x).toInt)
  | .u8, x => some ((show BitVec 8 from x).toNat)
  | .u16, x => some ((show BitVec 16 from x).toNat)
  | .u32, x => some ((show BitVec 32 from x).toNat)
  | .u64, x => some ((show BitVec 64 from x).toNat)
  | _, _ => none

private theorem sign {k : Nat} (hk : k ≤ 64) (x : BitVec k) : (x.signExtend 64).toInt = x.toInt := BitVec.toInt_signExtend_of_le hk

private theorem zero {k : Nat} (hk : k < 64) (x : BitVec k) : (x.setWidth 64).toInt = x.toNat := by
  have h1 := x.isLt
  have h2 : 2 ^ k ≤ 2 ^ 63 := Nat.pow_le_pow_right (by omega) (by omega)
  have h3 : (x.setWidth 64).toNat = x.toNat := by
    rw [BitVec.toNat_setWidth, Nat.mod_eq_of_lt]
    generalize 2 ^ k = p at h1 h2
    omega
  rw [BitVec.toInt_eq_toNat_cond, h3, if_pos]
  generalize 2 ^ k = p at h1 h2
  omega

private theorem signs {k : Nat} (hk : k ≤ 64) {x : BitVec k} {n : Int} (h : some x.toInt = some n) :
    ∃ i : BitVec 64, (Val.int (x.signExtend 64) : Val C) = .int i ∧ i.toInt = n := ⟨_, rfl, (sign hk x).trans (Option.some.inj h)⟩

private theorem zeros {k : Nat} (hk : k < 64) {x : BitVec k} {n : Int} (h : some (x.toNat : Int) = some n) :
    ∃ i : BitVec 64, (Val.int (x.setWidth 64) : Val C) = .int i ∧ i.toInt = n := ⟨_, rfl, (zero hk x).trans (Option.some.inj h)⟩

private theorem small {x : BitVec 64} {n : Int} (hn : (x.toNat : Int) = n) (h : n < 2 ^ 63) : x.toInt = n := by
  rw [BitVec.toInt_eq_toNat_cond, if_pos (by omega), hn]

private theorem sign_inj {k : Nat} (hk : k ≤ 64) {x y : BitVec k} (h : (Val.int (x.signExtend 64) : Val C) = .int (y.signExtend 64)) : x = y := by
  simp only [Val.int.injEq] at h
  have := congrArg BitVec.toInt h
  rw [sign hk, sign hk] at this
  exact BitVec.eq_of_toInt_eq this

private theorem zero_inj {k : Nat} (hk : k < 64) {x y : BitVec k} (h : (Val.int (x.setWidth 64) : Val C) = .int (y.setWidth 64)) : x = y := by
  simp only [Val.int.injEq] at h
  have := congrArg BitVec.toInt h
  rw [zero hk, zero hk] at this
  exact BitVec.eq_of_toNat_eq (by omega)

/-- Integers become the integers they are. Missing: numbers from 2^63 (`C81_violated_u64`). -/
theorem C81_int_partial (t : HType) (x : t.Data C) {n : Int} (hn : number t x = some n) (h : n < 2 ^ 63) :
    ∃ i, t.into w x = .int i ∧ i.toInt = n := by
  cases t with
  | i8 => exact signs (by omega) hn
  | i16 => exact signs (by omega) hn
  | i32 => exact signs (by omega) hn
  | i64 => exact ⟨_, rfl, Option.some.inj hn⟩
  | u8 => exact zeros (by omega) hn
  | u16 => exact zeros (by omega) hn
  | u32 => exact zeros (by omega) hn
  | u64 =>
    exact ⟨x, rfl, small (Option.some.inj hn) h⟩
  | _ => cases hn

/-- From 2^63 on, unsigned numbers become negative. -/
theorem C81_violated_u64 (x : BitVec 64) (h : 2 ^ 63 ≤ x.toNat) :
    ∃ i : BitVec 64, HType.into (C := C) w .u64 x = .int i ∧ i.toInt = (x.toNat : Int) - 2 ^ 64 ∧ i.toInt < 0 := by
  refine ⟨x, rfl, ?_⟩
  have := x.isLt
  rw [BitVec.toInt_eq_toNat_cond, if_neg (by omega)]
  omega

example : number (C := Unit) .u8 (200#8 : BitVec 8) = some 200 ∧ number (C := Unit) .i8 (200#8 : BitVec 8) = some (-56) ∧
    HType.into (C := Unit) w .i8 (200#8 : BitVec 8) = .int (-56) ∧ HType.into (C := Unit) w .u64 (BitVec.allOnes 64) = .int (-1) := ⟨rfl, rfl, rfl, rfl⟩

/-- Builtins get the data back that a value was made from, with the matching parameter type. For 32-bit floats this needs that
converting to 64 bits and back changes nothing. -/
theorem C81_back (L : Ops) (hw : ∀ x, L.toF32 (w x) = x) :
    (∀ x : BitVec 64, PKind.accept (C := C) L .int (into w .i64 x) = some x) ∧ (∀ x : BitVec 64, PKind.accept (C := C) L .int (into w .u64 x) = some x) ∧
    (∀ x : BitVec 32, PKind.accept (C := C) L .int32 (into w .i32 x) = some x) ∧ (∀ x : BitVec 32, PKind.accept (C := C) L .int32 (into w .u32 x) = some x) ∧
    (∀ x : BitVec 8, PKind.accept (C := C) L .u8 (into w .u8 x) = some x) ∧ (∀ x : Bool, PKind.accept (C := C) L .bool (into w .bool x) = some x) ∧
    (∀ x : BitVec 32, PKind.accept (C := C) L .float (into w .f32 x) = some x) ∧ (∀ x : BitVec 64, PKind.accept (C := C) L .double (into w .f64 x) = some x) ∧
    (∀ x : List Char, PKind.accept (C := C) L .str (into w .string x) = some x) ∧
    (∀ x : BitVec 8 × BitVec 8 × BitVec 8 × BitVec 8, PKind.accept (C := C) L .color (into w .color x) = some x) ∧
    (∀ s n, PKind.accept (C := C) L (.special s) (into w .special (s, n)) = some n) ∧
    (∀ a b x y, PKind.accept (C := C) L .pair (into w (.pair a b) (x, y)) = some (into w a x, into w b y)) ∧
    ∀ t xs, PKind.accept (C := C) L .list (into w (.vec t) xs) = some (xs.map (into w t)) := by
  refine ⟨fun _ => rfl, fun _ => rfl, fun x => ?_, fun x => ?_, fun x => ?_, fun _ => rfl, fun x => congrArg some (hw x), fun _ => rfl, fun _ => rfl, fun _ => rfl,
    fun s n => by simp only [into, PKind.accept, if_true]; rfl, fun _ _ _ _ => rfl, fun _ _ => rfl⟩
  · refine congrArg some (BitVec.eq_of_getLsbD_eq fun i hi => ?_)
    simp [BitVec.getLsbD_signExtend, hi]
    omega
  · refine congrArg some (BitVec.eq_of_getLsbD_eq fun i hi => ?_)
    simp [hi]
  · have h1 := zero (k := 8) (by omega) x
    have h2 := x.isLt
    simp only [into, PKind.accept]
    rw [h1]
    simp only [show ¬ ((x.toNat : Int) < 0) by omega, show (x.toNat : Int) ≤ 255 by omega]
    refine congrArg some (BitVec.eq_of_getLsbD_eq fun i hi => ?_)
    simp [hi]

/-- Types whose data can be told apart as values: no `Option` of an `Option` or of a `Value`. -/
def toldApart : HType → Bool
  | .option (.option _) | .option .value => false
  | .option t | .vec t => toldApart t
  | .pair a b => toldApart a && toldApart b
  | _ => true

private theorem map_inj {α β : Type} {f : α → β} (h : ∀ x y, f x = f y → x = y) : ∀ xs ys : List α, xs.map f = ys.map f → xs = ys
  | [], [], _ => rfl
  | [], _ :: _, e | _ :: _, [], e => by simp at e
  | x :: xs, y :: ys, e => by
    simp only [List.map_cons, List.cons.injEq] at e
    rw [h x y e.1, map_inj h xs ys e.2]

private theorem into_none (t : HType) (h : ∀ t', t ≠ .option t') (hv : t ≠ .value) (x : t.Data C) : t.into w x ≠ .none := by
  cases t <;> first | exact absurd rfl (h _) | exact absurd rfl hv | (intro e; cases e)

/-- Different data become different values. -/
theorem C81_distinct (hw : ∀ x y, w x = w y → x = y) : ∀ (t : HType), toldApart t = true → ∀ x y : t.Data C, t.into w x = t.into w y → x = y := by
  intro t
  induction t with
  | f32 => intro _ x y e; exact hw x y (Val.float.inj e)
  | f64 => intro _ x y e; exact Val.float.inj e
  | i8 => intro _ x y e; exact sign_inj (by omega) e
  | i16 => intro _ x y e; exact sign_inj (by omega) e
  | i32 => intro _ x y e; exact sign_inj (by omega) e
  | i64 => intro _ x y e; exact Val.int.inj e
  | u8 => intro _ x y e; exact zero_inj (by omega) e
  | u16 => intro _ x y e; exact zero_inj (by omega) e
  | u32 => intro _ x y e; exact zero_inj (by omega) e
  | u64 => intro _ x y e; exact Val.int.inj e
  | bool => intro _ x y e; exact Val.bool.inj e
  | string => intro _ x y e; exact Val.str.inj e
  | range => rintro _ ⟨a, b⟩ ⟨c, d⟩ e; simp only [into, Val.range.injEq] at e; rw [e.1, e.2]
  | color => rintro _ ⟨a, b, c, d⟩ ⟨a', b', c', d'⟩ e; simp only [into, Val.color.injEq] at e; rw [e.1, e.2.1, e.2.2.1, e.2.2.2]
  | special => rintro _ ⟨a, b⟩ ⟨c, d⟩ e; simp only [into, Val.special.injEq] at e; rw [e.1, e.2]
  | value => intro _ x y e; exact e
  | option t ih =>
    intro hd x y e
    have hn : (∀ t', t ≠ .option t') ∧ t ≠ .value ∧ toldApart t = true := by
      cases t <;> simp_all [toldApart]
    match x, y, e with
    | none, none, _ => rfl
    | some x, none, e => exact absurd e (into_none t hn.1 hn.2.1 x)
    | none, some y, e => exact absurd e.symm (into_none t hn.1 hn.2.1 y)
    | some x, some y, e => exact congrArg some (ih hn.2.2 x y e)
  | pair a b iha ihb =>
    rintro hd ⟨x, y⟩ ⟨x', y'⟩ e
    simp only [toldApart, Bool.and_eq_true] at hd
    simp only [into, Val.pair.injEq] at e
    rw [iha hd.1 _ _ e.1, ihb hd.2 _ _ e.2]
  | vec t ih =>
    intro hd xs ys e
    simp only [toldApart] at hd
    simp only [into, Vecc.newFrom, Val.arr.injEq] at e
    exact map_inj (ih hd) xs ys e.1

/-- Without that condition they need not: `Some(None)` and `None`. -/
theorem C81_violated_option : HType.into (C := C) w (.option (.option .bool)) (some none) = HType.into w (.option (.option .bool)) none ∧
    (some none : HType.Data C (.option (.option .bool))) ≠ (none : Option _) := ⟨rfl, by simp⟩

/-- Values are at least as large as the data they are made from. -/
theorem C81_size : ∀ (t : HType), t.sized = true → ∀ x : t.Data C, t.size x ≤ (t.into w x).getSize := by
  intro t
  induction t with
  | option t ih =>
    intro h x
    match x with
    | none => simp [HType.size]
    | some x => exact ih h x
  | vec t ih =>
    intro h xs
    simp only [HType.size, into, Vecc.newFrom, Val.getSize, Vecc.total]
    replace ih := ih h
    clear h
    induction xs with
    | nil => simp
    | cons x xs ihx => simp only [List.map_cons, List.sum_cons]; have := ih x; simp only [List.map_map] at ihx ⊢; omega
  | color =>
    rintro _ ⟨r, g, b, a⟩
    show 4 ≤ 16
    omega
  | value => intro _ x; exact Nat.le_refl _
  | string => intro _ x; exact Nat.le_refl _
  | _ => intro h x; first | (simp [HType.sized] at h; done) | simp [HType.size, into, Val.getSize]

/-- An array made from a vector: the items in order, and as its limit the size of the data, so that it is full. -/
theorem C81_vec {t : HType} (h : t.sized = true) (xs : List (t.Data C)) :
    ∃ s m, (HType.vec t).into w xs = .arr (xs.map (t.into w)) s m ∧ s = ((xs.map (t.into w)).map Val.getSize).sum ∧ m = (xs.map t.size).sum ∧ m ≤ s := by
  refine ⟨_, _, rfl, rfl, rfl, ?_⟩
  exact C81_size (.vec t) h xs

private theorem extend_full : ∀ (r : List (Val C)) (v : Vecc (Val C)), v.maxSize ≤ v.size → 0 < (r.map Val.getSize).sum →
    (Vecc.extend Val.getSize v r).1 = .err (.overflow .arrayTooLarge)
  | [], v, _, h => by simp at h
  | x :: r, v, hv, h => by
    simp only [Vecc.extend]
    by_cases hx : v.size + x.getSize > v.maxSize
    · simp only [hx, if_true]
    · simp only [hx, if_false]
      have h0 : x.getSize = 0 := by omega
      refine extend_full r _ (by simp only; omega) ?_
      simp only [List.map_cons, List.sum_cons, h0, Nat.zero_add] at h
      exact h

/-- Nothing can be appended to it, whatever the limits. -/
theorem C81_full (cfg : Cfg) (lim : Limits) (ceq : C → C → Option Bool) {t : HType} (h : t.sized = true) (xs : List (t.Data C)) (r : List (Val C)) (rs rm : Nat)
    (hr : 0 < (r.map Val.getSize).sum) :
    Val.binary cfg lim ceq .join ((HType.vec t).into w xs) (.arr r rs rm) = .err (.overflow .arrayTooLarge) := by
  obtain ⟨s, m, h1, _, _, h2⟩ := C81_vec (w := w) h xs
  rw [h1]
  simp only [Val.binary, Val.join, Val.arrJoin]
  split
  · rfl
  · have h5 := extend_full r ⟨xs.map (t.into w), s, m⟩ h2 hr
    split
    · next heq => rw [heq] at h5; simp at h5
    · next heq => rw [heq] at h5; simp only at h5; injection h5 with h5; rw [h5]
    · next heq => rw [heq] at h5; simp at h5

/-- Arrays made from numbers are larger than their limit from the start; arrays of the machine never are (C12). -/
theorem C81_violated_limit (x : BitVec 64) (xs : List (BitVec 64)) :
    ∃ s m, (HType.vec .i64).into w (x :: xs) = (.arr ((x :: xs).map .int) s m : Val C) ∧ m < s ∧ ¬ Accounted (.arr ((x :: xs).map .int) s m : Val C) := by
  obtain ⟨s, m, h1, h2, h3, h4⟩ := C81_vec (C := C) (w := w) (t := .i64) rfl (x :: xs)
  have hs : ∀ ys : List (BitVec 64), ((ys.map (HType.into (C := C) w .i64)).map Val.getSize).sum = 16 * ys.length := by
    intro ys
    induction ys with
    | nil => rfl
    | cons y ys ih => refine (congrArg (16 + ·) ih).trans ?_; simp only [List.length_cons]; omega
  have hm : ∀ ys : List (BitVec 64), (ys.map (HType.size (C := C) .i64)).sum = 8 * ys.length := by
    intro ys
    induction ys with
    | nil => rfl
    | cons y ys ih => refine (congrArg (8 + ·) ih).trans ?_; simp only [List.length_cons]; omega
  have hlt : m < s := by
    have e1 := hs (x :: xs)
    have e2 := hm (x :: xs)
    simp only [List.length_cons] at e1 e2
    have e3 : s = 16 * (xs.length + 1) := h2.trans e1
    have e4 : m = 8 * (xs.length + 1) := h3.trans e2
    omega
  refine ⟨s, m, h1, hlt, fun ha => ?_⟩
  cases ha with
  | arr _ _ _ _ h => omega

example : HType.sized .i64 = true ∧ (HType.vec .i64).into (C := Unit) w ([1, 2] : List (BitVec 64)) = .arr [.int 1, .int 2] 32 16 := ⟨rfl, rfl⟩

/-- Arrays of strings and of values are exactly full. -/
example : (HType.vec .string).into (C := Unit) w ["ab".toList, "c".toList] = .arr [.str "ab".toList, .str "c".toList] 3 3 := rfl

end Quilt.Props
