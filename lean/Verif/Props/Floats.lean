import Verif.Lib.IeeeLemmas
import Verif.Props.Numbers
import Verif.Props.Arith

/-!
# Floats: C67

With the operations of `f64` (`Verif/Lib/Ieee.lean`). Values of floats are integers in units of 2^-1074 (`Ieee.val`).
-/

namespace Quilt.Props

open Lib Ieee

set_option exponentiation.threshold 4000

variable {C : Type}

/-- `r` is the float nearest to `n / d`; in the middle of two, the one whose bits are even. -/
structure Nearest (n : Int) (d : Nat) (r : BitVec 64) : Prop where
  finite : isFinite r = true
  near : ∀ g, isFinite g = true → (val r * d - n).natAbs ≤ (val g * d - n).natAbs
  even : ∀ g, isFinite g = true → val g ≠ val r → (val r * d - n).natAbs = (val g * d - n).natAbs → bits r % 2 = 0

/-- `n / d` is too large for a float: not below the middle of the greatest float and 2^1024. -/
structure TooLarge (n : Int) (d : Nat) (r : BitVec 64) : Prop where
  inf : isInf r = true
  sign : isNeg r = decide (n < 0)
  large : (mag (infBits - 1) + 2 ^ 2098) * d ≤ 2 * n.natAbs

/-- The float that `n / d` is rounded to. -/
def Rounded (n : Int) (d : Nat) (r : BitVec 64) : Prop := Nearest n d r ∨ TooLarge n d r

theorem round_rounded (s : Bool) (n d : Nat) (hd : 0 < d) : Rounded (signed s n) d (round s n d) := by
  by_cases h : roundMag n d < infBits
  · left
    have hv : val (round s n d) = signed s (mag (roundMag n d)) := by rw [val_def, isNeg_round, bits_round_finite h]
    have hb : bits (round s n d) = roundMag n d := bits_round_finite h
    have dist : ∀ (t : Bool) (c : Nat), (signed t c * d - signed s n).natAbs = if s = t then ((c * d : Nat) - (n : Int)).natAbs else c * d + n := by
      intro t c
      have e : signed t c * d = signed t (c * d) := by cases t <;> simp [signed, Int.neg_mul]
      rw [e]
      generalize c * d = m
      cases s <;> cases t <;> simp only [signed, Bool.false_eq_true, if_true, if_false, reduceCtorEq] <;> omega
    have h0 : ((mag (roundMag n d) * d : Nat) - (n : Int)).natAbs ≤ n := by
      have := roundMag_nearest (n := n) hd 0
      rw [mag_zero] at this
      omega
    refine ⟨round_finite.2 h, fun g hg => ?_, fun g hg hne he => ?_⟩
    · rw [hv, val_def g, dist, dist, if_pos rfl]
      split
      · exact roundMag_nearest hd _
      · omega
    · rw [hb]
      rw [hv, val_def g, dist, dist, if_pos rfl] at he
      rw [hv, val_def g] at hne
      split at he
      · rename_i hst
        refine roundMag_even hd (fun hc => hne ?_) he
        rw [hc, hst]
      · have hz : mag (bits g) * d = 0 := by omega
        have hz' : mag (bits g) = 0 := by
          rcases Nat.mul_eq_zero.1 hz with h | h
          · exact h
          · omega
        refine roundMag_even (c := 0) hd (fun hc => hne ?_) (by rw [mag_zero]; omega)
        rw [← hc, hz', mag_zero]
        simp [signed]
  · right
    have hb : bits (round s n d) = infBits := by rw [bits_round]; exact Nat.min_eq_right (by omega)
    have hlarge : (mag (infBits - 1) + 2 ^ 2098) * d ≤ 2 * n := by
      obtain ⟨b, h1, h2, h3⟩ := roundMag_spec n d hd
      rw [← mag_infBits, Nat.add_mul]
      by_cases hbi : infBits ≤ b
      · have a1 : mag infBits * d ≤ mag b * d := Nat.mul_le_mul_right _ (mag_le_iff.2 hbi)
        have a2 : mag (infBits - 1) * d ≤ mag infBits * d := Nat.mul_le_mul_right _ (mag_le_iff.2 (by omega))
        omega
      · have hbe : b = infBits - 1 := by
          rw [h3] at h
          split at h <;> omega
        have hbs : b + 1 = infBits := by
          have : 0 < infBits := by decide
          omega
        rw [h3] at h
        split at h
        · omega
        · rename_i hcond
          rw [hbs] at hcond h2
          rw [← hbe]
          have : (mag infBits - mag b) * d = mag infBits * d - mag b * d := Nat.sub_mul ..
          omega
    refine ⟨by simp [isInf, hb], ?_, by rw [signed_natAbs]; exact hlarge⟩
    rw [isNeg_round]
    have hn : n ≠ 0 := by
      rintro rfl
      have a1 : 0 < 2 ^ 2098 := two_pos _
      have a2 : 0 < (mag (infBits - 1) + 2 ^ 2098) * d := Nat.mul_pos (by omega) hd
      omega
    cases s <;> simp [signed] <;> omega

theorem add_rounded {x y : BitVec 64} (hx : isFinite x = true) (hy : isFinite y = true) : Rounded (val x + val y) 1 (add x y) := by
  unfold add
  rw [finite_not_nan hx, finite_not_nan hy, finite_not_inf hx, finite_not_inf hy]
  simp only [Bool.or_self, Bool.false_eq_true, if_false]
  split
  · rename_i h
    left
    have hv : val (mk (isNeg x && isNeg y) 0) = 0 := by rw [val_mk _ (by decide), mag_zero]; simp [signed]
    rw [h]
    refine ⟨?_, fun g _ => by rw [hv]; simp, fun g _ _ _ => ?_⟩
    · rw [isFinite_iff, bits_mk _ (by decide)]; decide
    · rw [bits_mk _ (by decide)]
  · have := round_rounded (decide (val x + val y < 0)) (val x + val y).natAbs 1 (by decide)
    rwa [signed_self] at this

theorem mul_rounded {x y : BitVec 64} (hx : isFinite x = true) (hy : isFinite y = true) : Rounded (val x * val y) (2 ^ 1074) (mul x y) := by
  unfold mul
  rw [finite_not_nan hx, finite_not_nan hy, finite_not_inf hx, finite_not_inf hy]
  simp only [Bool.or_self, Bool.false_eq_true, if_false]
  have := round_rounded (isNeg x != isNeg y) (mag (bits x) * mag (bits y)) one one_pos
  rw [← signed_mul] at this
  exact this

theorem div_rounded {x y : BitVec 64} (hx : isFinite x = true) (hy : isFinite y = true) (h0 : val y ≠ 0) :
    Rounded (val x * 2 ^ 1074 * (val y).sign) (val y).natAbs (div x y) := by
  unfold div
  have hb : bits y ≠ 0 := fun h => h0 (val_eq_zero.2 h)
  have hm : 0 < mag (bits y) := by
    have := @mag_eq_zero (bits y)
    omega
  rw [finite_not_nan hx, finite_not_nan hy, finite_not_inf hx, finite_not_inf hy]
  simp only [Bool.or_self, Bool.false_eq_true, if_false, if_neg hb]
  have := round_rounded (isNeg x != isNeg y) (mag (bits x) * one) (mag (bits y)) hm
  rw [val_natAbs]
  have e : val x * 2 ^ 1074 * (val y).sign = signed (isNeg x != isNeg y) (mag (bits x) * one) := by
    have e1 : (val y).sign = signed (isNeg y) 1 := by
      rw [val_def]
      cases isNeg y <;> simp only [signed, Bool.false_eq_true, if_true, if_false]
      · exact Int.sign_eq_one_of_pos (by omega)
      · exact Int.sign_eq_neg_one_of_neg (by omega)
    have e2 : (2 : Int) ^ 1074 = signed false one := rfl
    rw [e1, e2, val_def, signed_mul, signed_mul, Nat.mul_one]
    cases isNeg x <;> cases isNeg y <;> rfl
  rw [e]
  exact this

section
variable (R : Rest) (chk : Bool) (lim : Limits) (ceq : C → C → Option Bool)

/-- The language with the operations of `f64`. -/
abbrev ieee : Cfg := ⟨fops R, chk⟩

private theorem eq_zero {y : BitVec 64} (hy : isFinite y = true) : Ieee.eq y 0 = decide (val y = 0) := by
  have h0 : isNaN (0 : BitVec 64) = false := by decide
  have h1 : bits (0 : BitVec 64) = 0 := by decide
  simp only [Ieee.eq, finite_not_nan hy, h0, h1, val_eq_zero]
  by_cases h : bits y = 0
  · simp [h]
  · have : (y == 0) = false := by
      rw [beq_eq_false_iff_ne]
      rintro rfl
      exact h h1
    simp only [h, this, decide_false, Bool.not_false, Bool.true_and, Bool.false_or]
    simp [h]

/-- `+`, `-`, `*`, `/` of finite floats: the exact result, rounded. A zero divisor is an error, whatever its sign. -/
theorem C67_arith {x y : BitVec 64} (hx : isFinite x = true) (hy : isFinite y = true) :
    (∃ r, Val.binary (ieee R chk) lim ceq .add (.float x) (.float y) = .ok (.float r) ∧ Rounded (val x + val y) 1 r) ∧
    (∃ r, Val.binary (ieee R chk) lim ceq .sub (.float x) (.float y) = .ok (.float r) ∧ Rounded (val x - val y) 1 r) ∧
    (∃ r, Val.binary (ieee R chk) lim ceq .mul (.float x) (.float y) = .ok (.float r) ∧ Rounded (val x * val y) (2 ^ 1074) r) ∧
    (val y ≠ 0 → ∃ r, Val.binary (ieee R chk) lim ceq .div (.float x) (.float y) = .ok (.float r) ∧
      Rounded (val x * 2 ^ 1074 * (val y).sign) (val y).natAbs r) ∧
    (val y = 0 → Val.binary (ieee R chk) lim ceq .div (.float x) (.float y) = .err .zeroDivision) := by
  refine ⟨⟨_, rfl, add_rounded hx hy⟩, ⟨_, rfl, ?_⟩, ⟨_, rfl, mul_rounded hx hy⟩, fun h => ⟨div x y, ?_, div_rounded hx hy h⟩, fun h => ?_⟩
  · show Rounded _ _ (sub x y)
    unfold sub
    rw [finite_not_nan hy, Int.sub_eq_add_neg, ← val_neg]
    exact add_rounded hx (by rw [isFinite_neg]; exact hy)
  · show Val.divide (ieee R chk) (.float x) (.float y) = _
    have : (Val.float y : Val C).isZero (fops R) = false := (eq_zero hy).trans (by simp [h])
    simp only [Val.divide, this]
    rfl
  · show Val.divide (ieee R chk) (.float x) (.float y) = _
    have : (Val.float y : Val C).isZero (fops R) = true := (eq_zero hy).trans (by simp [h])
    simp only [Val.divide, this]
    rfl

/-- `%` of finite floats is exact: the remainder of the division that rounds towards zero. -/
theorem C67_remainder {x y : BitVec 64} (hx : isFinite x = true) (hy : isFinite y = true) :
    (val y ≠ 0 → ∃ r, Val.binary (ieee R chk) lim ceq .mod (.float x) (.float y) = .ok (.float r) ∧ isFinite r = true ∧ val r = (val x).tmod (val y)) ∧
    (val y = 0 → Val.binary (ieee R chk) lim ceq .mod (.float x) (.float y) = .err .zeroDivision) := by
  refine ⟨fun h => ⟨rem x y, ?_, ?_⟩, fun h => ?_⟩
  · show Val.modulo (ieee R chk) (.float x) (.float y) = _
    have : (Val.float y : Val C).isZero (fops R) = false := (eq_zero hy).trans (by simp [h])
    simp only [Val.modulo, this]
    rfl
  · have hb : bits y ≠ 0 := fun h' => h (val_eq_zero.2 h')
    have hm : mag (bits y) ≠ 0 := fun h' => hb (mag_eq_zero.1 h')
    obtain ⟨c, hc, hle⟩ := rep_mod (bits x) (bits y) hm
    have hci : c < infBits := Nat.lt_of_le_of_lt hle (isFinite_iff.1 hx)
    have hlt : c < 2 ^ 63 := Nat.lt_trans hci infBits_lt
    have e : rem x y = mk (isNeg x) c := by
      unfold rem
      rw [finite_not_nan hx, finite_not_nan hy, finite_not_inf hx, finite_not_inf hy]
      simp only [Bool.or_self, Bool.false_or, decide_eq_true_eq, hb, if_false, Bool.false_eq_true]
      exact round_exact _ (by decide) hci (by rw [hc, Nat.mul_one])
    rw [e]
    refine ⟨by rw [isFinite_iff, bits_mk _ hlt]; exact hci, ?_⟩
    rw [val_mk _ hlt, hc, val_def x, val_def y]
    cases isNeg x <;> cases isNeg y <;> simp only [signed, Bool.false_eq_true, if_true, if_false, Int.neg_tmod, Int.tmod_neg] <;> rfl
  · show Val.modulo (ieee R chk) (.float x) (.float y) = _
    have : (Val.float y : Val C).isZero (fops R) = true := (eq_zero hy).trans (by simp [h])
    simp only [Val.modulo, this]
    rfl

/-- The comparisons are those of the values; infinities are beyond all finite floats. -/
theorem C67_compare {x y : BitVec 64} (hx : isNaN x = false) (hy : isNaN y = false) :
    Val.binary (ieee R chk) lim ceq .eq (.float x) (.float y) = .ok (.bool (decide (val x = val y))) ∧
    Val.binary (ieee R chk) lim ceq .neq (.float x) (.float y) = .ok (.bool (decide (val x ≠ val y))) ∧
    Val.binary (ieee R chk) lim ceq .lt (.float x) (.float y) = .ok (.bool (decide (val x < val y))) ∧
    Val.binary (ieee R chk) lim ceq .lte (.float x) (.float y) = .ok (.bool (decide (val x ≤ val y))) ∧
    Val.binary (ieee R chk) lim ceq .gt (.float x) (.float y) = .ok (.bool (decide (val y < val x))) ∧
    Val.binary (ieee R chk) lim ceq .gte (.float x) (.float y) = .ok (.bool (decide (val y ≤ val x))) := by
  have he : Ieee.eq x y = decide (val x = val y) := by
    simp only [Ieee.eq, hx, hy, Bool.not_false, Bool.true_and]
    by_cases h : val x = val y
    · simp only [h, decide_true, Bool.or_eq_true, beq_iff_eq, Bool.and_eq_true]
      have hm : mag (bits x) = mag (bits y) := by rw [← val_natAbs, ← val_natAbs, h]
      have hb := mag_inj hm
      by_cases h0 : bits x = 0
      · exact .inr ⟨h0, hb ▸ h0⟩
      · refine .inl (eq_of_parts ?_ hb)
        have hm0 : mag (bits x) ≠ 0 := fun h' => h0 (mag_eq_zero.1 h')
        rw [val_def, val_def, hm] at h
        rw [hm] at hm0
        generalize mag (bits y) = m at *
        revert h
        cases isNeg x <;> cases isNeg y <;> simp only [signed, Bool.false_eq_true, if_true, if_false] <;> intro h <;> first | rfl | omega
    · simp only [h, decide_false, Bool.or_eq_false_iff, beq_eq_false_iff_ne, Bool.and_eq_false_iff]
      refine ⟨fun h' => h (by rw [h']), ?_⟩
      by_cases h0 : bits x = 0
      · refine .inr fun h1 => h ?_
        rw [val_eq_zero.2 h0, val_eq_zero.2 h1]
      · exact .inl h0
  have hl : ∀ {a b : BitVec 64}, isNaN a = false → isNaN b = false → Ieee.lt a b = decide (val a < val b) := by
    intro a b ha hb
    simp only [Ieee.lt, ha, hb, Bool.not_false, Bool.true_and, rank_lt_iff]
  have hle : ∀ {a b : BitVec 64}, isNaN a = false → isNaN b = false → Ieee.le a b = decide (val a ≤ val b) := by
    intro a b ha hb
    simp only [Ieee.le, ha, hb, Bool.not_false, Bool.true_and, rank_le_iff]
  refine ⟨?_, ?_, congrArg (fun b => Res.ok (Val.bool b)) (hl hx hy), congrArg (fun b => Res.ok (Val.bool b)) (hle hx hy),
    congrArg (fun b => Res.ok (Val.bool b)) (hl hy hx), congrArg (fun b => Res.ok (Val.bool b)) (hle hy hx)⟩
  · exact congrArg (fun b => Res.ok (Val.bool b)) he
  · refine (congrArg (fun b => Res.ok (Val.bool (!b))) he).trans ?_
    simp

/-- NaN: arithmetic gives NaN again, comparisons are false. -/
theorem C67_nan {x y : BitVec 64} (h : isNaN x = true ∨ isNaN y = true) :
    (∀ op ∈ [Op.add, .sub, .mul, .div, .mod], Val.binary (ieee R chk) lim ceq op (.float x) (.float y) = .ok (.float nan) ∨
      ((op = .div ∨ op = .mod) ∧ isNaN y = false ∧ val y = 0 ∧ Val.binary (ieee R chk) lim ceq op (.float x) (.float y) = .err .zeroDivision)) ∧
    (∀ op ∈ [Op.eq, .lt, .lte, .gt, .gte], Val.binary (ieee R chk) lim ceq op (.float x) (.float y) = .ok (.bool false)) ∧
    Val.binary (ieee R chk) lim ceq .neq (.float x) (.float y) = .ok (.bool true) := by
  have hor : (isNaN x || isNaN y) = true := by simpa using h
  have hand : (!isNaN x && !isNaN y) = false := by rcases h with h | h <;> simp [h]
  have hand' : (!isNaN y && !isNaN x) = false := by rcases h with h | h <;> simp [h]
  have ha : add x y = nan := by unfold add; rw [if_pos hor]
  have hs : sub x y = nan := by
    unfold sub
    split
    · rfl
    · unfold add
      rw [isNaN_neg, if_pos hor]
  have hm : mul x y = nan := by unfold mul; rw [if_pos hor]
  have hd : div x y = nan := by unfold div; rw [if_pos hor]
  have hr : rem x y = nan := by unfold rem; rw [hor]; simp
  have he : Ieee.eq x y = false := by unfold Ieee.eq; rw [hand]; rfl
  refine ⟨fun op hop => ?_, fun op hop => ?_, ?_⟩
  · simp only [List.mem_cons, List.not_mem_nil, or_false] at hop
    have hz : Ieee.eq y 0 = true → isNaN y = false ∧ val y = 0 := by
      intro h1
      have hn : isNaN y = false := by
        cases hn : isNaN y with
        | false => rfl
        | true => simp [Ieee.eq, hn] at h1
      refine ⟨hn, val_eq_zero.2 ?_⟩
      simp only [Ieee.eq, Bool.and_eq_true, Bool.or_eq_true, beq_iff_eq] at h1
      rcases h1.2 with h2 | h2
      · rw [h2]; decide
      · exact h2.1
    rcases hop with rfl | rfl | rfl | rfl | rfl
    · exact .inl (congrArg (fun b => Res.ok (Val.float b)) ha)
    · exact .inl (congrArg (fun b => Res.ok (Val.float b)) hs)
    · exact .inl (congrArg (fun b => Res.ok (Val.float b)) hm)
    · show Val.divide (ieee R chk) (.float x) (.float y) = _ ∨ _ ∧ _ ∧ _ ∧ Val.divide (ieee R chk) (.float x) (.float y) = _
      unfold Val.divide
      have : (Val.float y : Val C).isZero (ieee R chk).F = Ieee.eq y 0 := rfl
      rw [this]
      cases h1 : Ieee.eq y 0 with
      | false => exact .inl (congrArg (fun b => Res.ok (Val.float b)) hd)
      | true => exact .inr ⟨.inl rfl, (hz h1).1, (hz h1).2, rfl⟩
    · show Val.modulo (ieee R chk) (.float x) (.float y) = _ ∨ _ ∧ _ ∧ _ ∧ Val.modulo (ieee R chk) (.float x) (.float y) = _
      unfold Val.modulo
      have : (Val.float y : Val C).isZero (ieee R chk).F = Ieee.eq y 0 := rfl
      rw [this]
      cases h1 : Ieee.eq y 0 with
      | false => exact .inl (congrArg (fun b => Res.ok (Val.float b)) hr)
      | true => exact .inr ⟨.inr rfl, (hz h1).1, (hz h1).2, rfl⟩
  · simp only [List.mem_cons, List.not_mem_nil, or_false] at hop
    rcases hop with rfl | rfl | rfl | rfl | rfl
    · exact congrArg (fun b => Res.ok (Val.bool b)) he
    · exact congrArg (fun b => Res.ok (Val.bool b)) (show Ieee.lt x y = false by unfold Ieee.lt; rw [hand]; rfl)
    · exact congrArg (fun b => Res.ok (Val.bool b)) (show Ieee.le x y = false by unfold Ieee.le; rw [hand]; rfl)
    · exact congrArg (fun b => Res.ok (Val.bool b)) (show Ieee.lt y x = false by unfold Ieee.lt; rw [hand']; rfl)
    · exact congrArg (fun b => Res.ok (Val.bool b)) (show Ieee.le y x = false by unfold Ieee.le; rw [hand']; rfl)
  · exact congrArg (fun b => Res.ok (Val.bool (!b))) he

private theorem inf_not_nan {x : BitVec 64} (h : isInf x = true) : isNaN x = false := by
  rcases kinds x with k | k | k
  · exact k.2.2
  · exact k.2.2
  · rw [k.2.1] at h; simp at h

private theorem inf_nonzero {x : BitVec 64} (h : isInf x = true) : Ieee.eq x 0 = false := by
  have hb : bits x = infBits := by simpa [isInf] using h
  simp only [Ieee.eq, inf_not_nan h, hb]
  have : (x == 0) = false := by
    rw [beq_eq_false_iff_ne]
    rintro rfl
    revert hb
    decide
  rw [this]
  decide

/-- `r` is the infinity with this sign. -/
structure Infinite (neg : Bool) (r : BitVec 64) : Prop where
  inf : isInf r = true
  sign : isNeg r = neg

private theorem infinite_mk (s : Bool) : Infinite s (mk s infBits) := by cases s <;> exact ⟨by decide, by decide⟩

/-- Infinities: sums and products of infinities with finite floats are infinite, a finite float divided by one is 0; the
difference of equal infinities, 0 times infinity, infinity by infinity and what is left of infinity are NaN. -/
theorem C67_infinite {x y : BitVec 64} (hx : isInf x = true) :
    (isFinite y = true → (∀ p ∈ [(x, y), (y, x)], ∃ r, Val.binary (ieee R chk) lim ceq .add (.float p.1) (.float p.2) = .ok (.float r) ∧ Infinite (isNeg x) r) ∧
      (∃ r, Val.binary (ieee R chk) lim ceq .sub (.float x) (.float y) = .ok (.float r) ∧ Infinite (isNeg x) r) ∧
      (∃ r, Val.binary (ieee R chk) lim ceq .sub (.float y) (.float x) = .ok (.float r) ∧ Infinite (!isNeg x) r) ∧
      (∀ p ∈ [(x, y), (y, x)], ∃ r, Val.binary (ieee R chk) lim ceq .mul (.float p.1) (.float p.2) = .ok (.float r) ∧
        if val y = 0 then r = nan else Infinite (isNeg x != isNeg y) r) ∧
      (val y ≠ 0 → ∃ r, Val.binary (ieee R chk) lim ceq .div (.float x) (.float y) = .ok (.float r) ∧ Infinite (isNeg x != isNeg y) r) ∧
      (val y ≠ 0 → Val.binary (ieee R chk) lim ceq .mod (.float x) (.float y) = .ok (.float nan)) ∧
      (∃ r, Val.binary (ieee R chk) lim ceq .div (.float y) (.float x) = .ok (.float r) ∧ val r = 0 ∧ isNeg r = (isNeg y != isNeg x)) ∧
      Val.binary (ieee R chk) lim ceq .mod (.float y) (.float x) = .ok (.float y)) ∧
    (isInf y = true → Val.binary (ieee R chk) lim ceq .add (.float x) (.float y) = .ok (.float (if isNeg x = isNeg y then x else nan)) ∧
      Val.binary (ieee R chk) lim ceq .sub (.float x) (.float y) = .ok (.float (if isNeg x = isNeg y then nan else x)) ∧
      (∃ r, Val.binary (ieee R chk) lim ceq .mul (.float x) (.float y) = .ok (.float r) ∧ Infinite (isNeg x != isNeg y) r) ∧
      Val.binary (ieee R chk) lim ceq .div (.float x) (.float y) = .ok (.float nan) ∧
      Val.binary (ieee R chk) lim ceq .mod (.float x) (.float y) = .ok (.float nan)) := by
  have hxn := inf_not_nan hx
  have hxz : (Val.float x : Val C).isZero (ieee R chk).F = false := inf_nonzero hx
  have hxb : bits x ≠ 0 := by
    have hb : bits x = infBits := by simpa [isInf] using hx
    rw [hb]
    decide
  refine ⟨fun hy => ?_, fun hy => ?_⟩
  · have hyn := finite_not_nan hy
    have hyi := finite_not_inf hy
    have hdiv : val y ≠ 0 → (Val.float y : Val C).isZero (ieee R chk).F = false := fun h => (eq_zero hy).trans (by simp [h])
    have ha1 : add x y = x := by unfold add; simp [hxn, hyn, hx, hyi]
    have ha2 : add y x = x := by unfold add; simp [hxn, hyn, hx, hyi]
    have hs1 : sub x y = x := by unfold sub add; simp [hxn, hyn, hx, hyi, isNaN_neg, isInf_neg]
    have hs2 : sub y x = neg x := by unfold sub add; simp [hxn, hyn, hx, hyi, isNaN_neg, isInf_neg]
    have hm1 : mul x y = if val y = 0 then nan else mk (isNeg x != isNeg y) infBits := by
      unfold mul; simp [hxn, hyn, hx, val_eq_zero]
    have hm2 : mul y x = if val y = 0 then nan else mk (isNeg x != isNeg y) infBits := by
      unfold mul; simp [hxn, hyn, hx, hyi, val_eq_zero, show (isNeg y != isNeg x) = (isNeg x != isNeg y) by cases isNeg x <;> cases isNeg y <;> rfl]
    have hinf : Infinite (isNeg x) x := ⟨hx, rfl⟩
    have hmul : ∀ r, r = (if val y = 0 then nan else mk (isNeg x != isNeg y) infBits) → if val y = 0 then r = nan else Infinite (isNeg x != isNeg y) r := by
      rintro r rfl
      split
      · rfl
      · exact infinite_mk _
    refine ⟨fun p hp => ?_, ⟨_, congrArg (fun b => Res.ok (Val.float b)) hs1, hinf⟩,
      ⟨_, congrArg (fun b => Res.ok (Val.float b)) hs2, by rw [isInf_neg]; exact hx, isNeg_neg x⟩, fun p hp => ?_, fun h => ⟨_, ?_, infinite_mk _⟩, fun h => ?_,
      ⟨mk (isNeg y != isNeg x) 0, ?_, ?_, ?_⟩, ?_⟩
    · simp only [List.mem_cons, List.not_mem_nil, or_false] at hp
      rcases hp with rfl | rfl
      · exact ⟨_, congrArg (fun b => Res.ok (Val.float b)) ha1, hinf⟩
      · exact ⟨_, congrArg (fun b => Res.ok (Val.float b)) ha2, hinf⟩
    · simp only [List.mem_cons, List.not_mem_nil, or_false] at hp
      rcases hp with rfl | rfl
      · exact ⟨_, rfl, hmul _ hm1⟩
      · exact ⟨_, rfl, hmul _ hm2⟩
    · show Val.divide (ieee R chk) (.float x) (.float y) = _
      simp only [Val.divide, hdiv h]
      refine congrArg (fun b => Res.ok (Val.float b)) (show div x y = _ from ?_)
      unfold div
      simp [hxn, hyn, hx, hyi]
    · show Val.modulo (ieee R chk) (.float x) (.float y) = _
      simp only [Val.modulo, hdiv h]
      refine congrArg (fun b => Res.ok (Val.float b)) (show rem x y = _ from ?_)
      unfold rem
      simp [hx]
    · show Val.divide (ieee R chk) (.float y) (.float x) = _
      simp only [Val.divide, hxz]
      refine congrArg (fun b => Res.ok (Val.float b)) (show div y x = _ from ?_)
      unfold div
      simp [hxn, hyn, hx, hyi]
    · rw [val_mk _ (by decide), mag_zero]; simp [signed]
    · rw [isNeg_mk _ (by decide)]
    · show Val.modulo (ieee R chk) (.float y) (.float x) = _
      simp only [Val.modulo, hxz]
      refine congrArg (fun b => Res.ok (Val.float b)) (show rem y x = _ from ?_)
      unfold rem
      simp [hxn, hyn, hx, hyi, hxb]
  · have hyn := inf_not_nan hy
    have hyz : (Val.float y : Val C).isZero (ieee R chk).F = false := inf_nonzero hy
    have hyb : bits y ≠ 0 := by
      have hb : bits y = infBits := by simpa [isInf] using hy
      rw [hb]
      decide
    have ha : add x y = if isNeg x = isNeg y then x else nan := by
      unfold add
      simp only [hxn, hyn, hx, hy]
      cases isNeg x <;> cases isNeg y <;> rfl
    have hs : sub x y = if isNeg x = isNeg y then nan else x := by
      unfold sub add
      simp only [hxn, hyn, hx, hy, isNaN_neg, isInf_neg, isNeg_neg]
      cases isNeg x <;> cases isNeg y <;> rfl
    refine ⟨congrArg (fun b => Res.ok (Val.float b)) ha, congrArg (fun b => Res.ok (Val.float b)) hs, ⟨_, rfl, ?_⟩, ?_, ?_⟩
    · have : mul x y = mk (isNeg x != isNeg y) infBits := by unfold mul; simp [hxn, hyn, hx, hyb]
      show Infinite _ (mul x y)
      rw [this]
      exact infinite_mk _
    · show Val.divide (ieee R chk) (.float x) (.float y) = _
      simp only [Val.divide, hyz]
      refine congrArg (fun b => Res.ok (Val.float b)) (show div x y = _ from ?_)
      unfold div
      simp [hxn, hyn, hx, hy]
    · show Val.modulo (ieee R chk) (.float x) (.float y) = _
      simp only [Val.modulo, hyz]
      refine congrArg (fun b => Res.ok (Val.float b)) (show rem x y = _ from ?_)
      unfold rem
      simp [hx]

/-- Division by zero, which the operator refuses but `@fix` may do: infinite, or NaN for zero and NaN. -/
theorem C67_div_zero {x y : BitVec 64} (hy : isFinite y = true) (hz : val y = 0) :
    (val x = 0 ∨ isNaN x = true → (ieee R chk).F.div x y = nan) ∧ (val x ≠ 0 → isNaN x = false → Infinite (isNeg x != isNeg y) ((ieee R chk).F.div x y)) := by
  have hb : bits y = 0 := val_eq_zero.1 hz
  refine ⟨fun h => ?_, fun h1 h2 => ?_⟩
  · show div x y = nan
    unfold div
    rcases h with h | h
    · have hx : bits x = 0 := val_eq_zero.1 h
      have hi : isInf x = false := by simp only [isInf, hx]; decide
      simp [hb, hx, hi, finite_not_inf hy]
    · simp [h]
  · have hx : bits x ≠ 0 := fun h => h1 (val_eq_zero.2 h)
    have : (ieee R chk).F.div x y = mk (isNeg x != isNeg y) infBits := by
      show div x y = _
      unfold div
      simp [hb, hx, finite_not_inf hy, finite_not_nan hy, h2]
    rw [this]
    exact infinite_mk _

/-- Negation. -/
theorem C67_negate (x : BitVec 64) : ∃ r, Val.unary (C := C) (ieee R chk) .neg (.float x) = .ok (.float r) ∧ val r = -val x ∧ isNeg r = !isNeg x ∧
    isFinite r = isFinite x ∧ isNaN r = isNaN x :=
  ⟨_, rfl, val_neg x, isNeg_neg x, isFinite_neg x, isNaN_neg x⟩

/-- 0.1 + 0.2 is not 0.3; 7.5 % -2 is 1.5; 1e308 * 10 is infinite. -/
example : isFinite 0x3FB999999999999A = true ∧ isFinite 0x3FC999999999999A = true ∧
    Val.binary (ieee R chk) lim ceq .add (.float 0x3FB999999999999A) (.float 0x3FC999999999999A) = .ok (.float 0x3FD3333333333334) ∧
    Val.binary (ieee R chk) lim ceq .eq (.float 0x3FD3333333333334) (.float 0x3FD3333333333333) = .ok (.bool false) ∧
    Val.binary (ieee R chk) lim ceq .mod (.float 0x401E000000000000) (.float 0xC000000000000000) = .ok (.float 0x3FF8000000000000) ∧
    Val.binary (ieee R chk) lim ceq .mul (.float 0x7FE1CCF385EBC8A0) (.float 0x4024000000000000) = .ok (.float 0x7FF0000000000000) := by
  have h1 : add 0x3FB999999999999A 0x3FC999999999999A = 0x3FD3333333333334 := by decide +kernel
  have h2 : Ieee.eq 0x3FD3333333333334 0x3FD3333333333333 = false := by decide +kernel
  have h3 : rem 0x401E000000000000 0xC000000000000000 = 0x3FF8000000000000 := by decide +kernel
  have h4 : mul 0x7FE1CCF385EBC8A0 0x4024000000000000 = 0x7FF0000000000000 := by decide +kernel
  have h5 : Ieee.eq 0xC000000000000000 0 = false := by decide +kernel
  refine ⟨by decide, by decide, congrArg (fun b => Res.ok (Val.float b)) h1, congrArg (fun b => Res.ok (Val.bool b)) h2, ?_,
    congrArg (fun b => Res.ok (Val.float b)) h4⟩
  show Val.modulo (ieee R chk) (.float 0x401E000000000000) (.float 0xC000000000000000) = _
  have : (Val.float 0xC000000000000000 : Val C).isZero (ieee R chk).F = false := h5
  simp only [Val.modulo, this]
  exact congrArg (fun b => Res.ok (Val.float b)) h3

/-- What the hypotheses of C14 and C56 ask of floats. -/
theorem C67_order : FloatOrder (fops R) ∧ ∀ x y, (fops R).eq x y = (fops R).eq y x := by
  refine ⟨fun a b ha hb h => ?_, fun x y => ?_⟩
  · have ha' : isNaN a = false := by
      cases hn : isNaN a with
      | false => rfl
      | true => simp [fops, Ieee.eq, hn] at ha
    have hb' : isNaN b = false := by
      cases hn : isNaN b with
      | false => rfl
      | true => simp [fops, Ieee.eq, hn] at hb
    have h' : Ieee.lt b a = false := h
    show Ieee.le a b = true
    simp only [Ieee.lt, Ieee.le, ha', hb', Bool.not_false, Bool.true_and, decide_eq_false_iff_not, decide_eq_true_eq] at *
    omega
  · show Ieee.eq x y = Ieee.eq y x
    unfold Ieee.eq
    rw [Bool.and_comm (!isNaN x), Bool.and_comm (bits x == 0), Bool.beq_comm (a := x)]

end

/-! ## The library -/

section
variable (R : Rest) (chk : Bool) (cname : C → String) (lim : Limits)

/-- An integer, with the ends of the range of 64 bits in place of those beyond. -/
def clip (i : Int) : BitVec 64 := BitVec.ofInt 64 (max (-2 ^ 63) (min (2 ^ 63 - 1) i))

/-- `@float` of an integer: the nearest float; integers of up to 53 bits are exact, and `@int` leads back. -/
theorem C67_of_int (i : BitVec 64) : ∃ r, callStd (ops R) chk cname lim "float" [.int i] = some (.ok (.float r)) ∧ Nearest (i.toInt * 2 ^ 1074) 1 r ∧
    (i.toInt.natAbs ≤ 2 ^ 53 → val r = i.toInt * 2 ^ 1074 ∧ callStd (ops R) chk cname lim "int" [.float r] = some (.ok (.int i))) := by
  refine ⟨ofInt i.toInt, rfl, ?_, fun h => ?_⟩
  · have h1 := round_rounded (decide (i.toInt < 0)) (i.toInt.natAbs * one) 1 (by decide)
    have e : signed (decide (i.toInt < 0)) (i.toInt.natAbs * one) = i.toInt * 2 ^ 1074 := by
      have := signed_mul (decide (i.toInt < 0)) false i.toInt.natAbs one
      rw [signed_self] at this
      rw [← show (decide (i.toInt < 0) != false) = decide (i.toInt < 0) by simp, ← this]
      rfl
    rw [e] at h1
    rcases h1 with h1 | h1
    · exact h1
    · exfalso
      obtain ⟨b, hb1, hb2⟩ := rep 1 2000 (by decide)
      have hfin : isFinite (ofInt i.toInt) = true := by
        refine round_finite_of_le (b := b) (by decide) (Nat.lt_of_le_of_lt hb2 (by decide)) ?_
        rw [hb1, Nat.one_mul, Nat.mul_one]
        have a1 : i.toInt.natAbs ≤ 2 ^ 63 := by
          have := BitVec.toInt_lt (x := i)
          have := BitVec.le_toInt (x := i)
          omega
        refine Nat.le_trans (Nat.mul_le_mul_right one a1) ?_
        unfold one
        rw [← Nat.pow_add]
        exact Nat.pow_le_pow_right (by decide) (by decide)
      have := h1.inf
      rw [show round (decide (i.toInt < 0)) (i.toInt.natAbs * one) 1 = ofInt i.toInt from rfl, finite_not_inf hfin] at this
      simp at this
  · obtain ⟨b, hb1, hb2⟩ := rep_int _ h
    have hlt : b < 2 ^ 63 := Nat.lt_trans hb2 infBits_lt
    have e : ofInt i.toInt = mk (decide (i.toInt < 0)) b := round_exact _ (by decide) hb2 (by rw [hb1, Nat.mul_one])
    have hv : val (ofInt i.toInt) = i.toInt * 2 ^ 1074 := by
      rw [e, val_mk _ hlt, hb1]
      have := signed_mul (decide (i.toInt < 0)) false i.toInt.natAbs one
      rw [signed_self, show (decide (i.toInt < 0) != false) = decide (i.toInt < 0) by simp] at this
      rw [← this]
      rfl
    refine ⟨hv, ?_⟩
    have hfin : isFinite (ofInt i.toInt) = true := by rw [e, isFinite_iff, bits_mk _ hlt]; exact hb2
    have ht : trunc (ofInt i.toInt) = i.toInt := by
      rw [trunc_integral _ i.toInt.natAbs (by rw [e, bits_mk _ hlt, hb1]), e, isNeg_mk _ hlt, signed_self]
    show some (Res.ok (Val.int (BitVec.ofInt 64 (toRange _ _ _)))) = _
    unfold toRange
    rw [finite_not_nan hfin, finite_not_inf hfin, ht]
    have := BitVec.toInt_lt (x := i)
    have := BitVec.le_toInt (x := i)
    rw [if_neg (by simp), if_neg (by simp), show Max.max (-2 ^ 63) (Min.min (2 ^ 63 - 1) i.toInt) = i.toInt by omega, BitVec.ofInt_toInt]

private theorem to_int {x : BitVec 64} (h : isFinite x = true) : (fops R).toInt x = clip (trunc x) := by
  show BitVec.ofInt 64 (toRange _ _ _) = _
  unfold toRange
  rw [finite_not_nan h, finite_not_inf h]
  rfl

private theorem trunc_tdiv (x : BitVec 64) : trunc x = (val x).tdiv (2 ^ 1074) := by
  unfold trunc val
  have : ((2 : Int) ^ 1074) = ((one : Nat) : Int) := rfl
  rw [this]
  split
  · rw [Int.neg_tdiv]; rfl
  · rfl

/-- `@int` of a float drops the fraction; beyond the range of integers it gives the ends of the range, for NaN 0. -/
theorem C67_to_int (x : BitVec 64) :
    (isFinite x = true → callStd (ops R) chk cname lim "int" [.float x] = some (.ok (.int (clip ((val x).tdiv (2 ^ 1074)))))) ∧
    (isInf x = true → callStd (ops R) chk cname lim "int" [.float x] = some (.ok (.int (if isNeg x then BitVec.intMin 64 else BitVec.intMax 64)))) ∧
    (isNaN x = true → callStd (ops R) chk cname lim "int" [.float x] = some (.ok (.int 0))) := by
  have hc : callStd (ops R) chk cname lim "int" [.float x] = some (.ok (.int ((fops R).toInt x))) := rfl
  rw [hc]
  refine ⟨fun h => ?_, fun h => ?_, fun h => ?_⟩
  · rw [to_int R h, trunc_tdiv]
  · have hn : isNaN x = false := by
      rcases kinds x with k | k | k
      · exact k.2.2
      · exact k.2.2
      · rw [k.2.1] at h; simp at h
    show some (Res.ok (Val.int (BitVec.ofInt 64 (toRange _ _ _)))) = _
    unfold toRange
    rw [hn, h]
    cases isNeg x <;> rfl
  · show some (Res.ok (Val.int (BitVec.ofInt 64 (toRange _ _ _)))) = _
    unfold toRange
    rw [h]
    rfl

private theorem div_spec (m o : Nat) (h : 0 < o) : m / o * o ≤ m ∧ m < m / o * o + o := by
  have := Nat.div_add_mod m o
  have := Nat.mod_lt m h
  rw [Nat.mul_comm]
  omega

private theorem up_spec (m o : Nat) (h : 0 < o) : m ≤ (m + (o - 1)) / o * o ∧ (m + (o - 1)) / o * o < m + o := by
  have := Nat.div_add_mod (m + (o - 1)) o
  have := Nat.mod_lt (m + (o - 1)) h
  rw [Nat.mul_comm]
  omega

private theorem half_spec (m o : Nat) (h : 0 < o) :
    2 * ((2 * m + o) / (2 * o) * o) ≤ 2 * m + o ∧ 2 * m < 2 * ((2 * m + o) / (2 * o) * o) + o ∧ (m = 0 → (2 * m + o) / (2 * o) * o = 0) := by
  have h0 : m = 0 → (2 * m + o) / (2 * o) = 0 := fun hm => Nat.div_eq_of_lt (by omega)
  have h1 := Nat.div_add_mod (2 * m + o) (2 * o)
  have := Nat.mod_lt (2 * m + o) (show 0 < 2 * o by omega)
  generalize (2 * m + o) / (2 * o) = c at *
  rw [show 2 * o * c = 2 * (c * o) by rw [Nat.mul_comm (2 * o), ← Nat.mul_assoc, Nat.mul_comm c 2, Nat.mul_assoc]] at h1
  refine ⟨by omega, by omega, fun hm => by rw [h0 hm, Nat.zero_mul]⟩

private theorem int_one : (2 : Int) ^ 1074 = (one : Int) := rfl

/-- `@floor` and `@ceil`: the greatest integer not above, the least not below. `@round`: the nearest integer, in the middle
the one farther from zero. -/
theorem C67_round {x : BitVec 64} (hx : isFinite x = true) :
    (∃ i : Int, i * 2 ^ 1074 ≤ val x ∧ val x < (i + 1) * 2 ^ 1074 ∧ callStd (ops R) chk cname lim "floor" [.float x] = some (.ok (.int (clip i)))) ∧
    (∃ i : Int, (i - 1) * 2 ^ 1074 < val x ∧ val x ≤ i * 2 ^ 1074 ∧ callStd (ops R) chk cname lim "ceil" [.float x] = some (.ok (.int (clip i)))) ∧
    (∃ i : Int, (if val x < 0 then (2 * i - 1) * 2 ^ 1074 < 2 * val x ∧ 2 * val x ≤ (2 * i + 1) * 2 ^ 1074
        else (2 * i - 1) * 2 ^ 1074 ≤ 2 * val x ∧ 2 * val x < (2 * i + 1) * 2 ^ 1074) ∧
      callStd (ops R) chk cname lim "round" [.float x] = some (.ok (.int (clip i)))) := by
  obtain ⟨d1, d2⟩ := div_spec (mag (bits x)) one one_pos
  obtain ⟨u1, u2⟩ := up_spec (mag (bits x)) one one_pos
  obtain ⟨r1, r2, r3⟩ := half_spec (mag (bits x)) one one_pos
  have key : ∀ n : Nat, n * one < mag (bits x) + one → mag (bits x) < n * one + one → (fops R).toInt (integral x n) = clip (signed (isNeg x) n) := by
    intro n h1 h2
    obtain ⟨a1, a2, a3⟩ := integral_exact x n hx h1 h2
    rw [to_int R a1, trunc_integral _ _ a3, a2]
  have hfl : callStd (ops R) chk cname lim "floor" [.float x] = some (.ok (.int ((fops R).toInt (floor x)))) := rfl
  have hce : callStd (ops R) chk cname lim "ceil" [.float x] = some (.ok (.int ((fops R).toInt (ceil x)))) := rfl
  have hro : callStd (ops R) chk cname lim "round" [.float x] = some (.ok (.int ((fops R).toInt (roundHalf x)))) := rfl
  rw [hfl, hce, hro]
  unfold floor ceil roundHalf up down
  rw [val_def]
  have ka := key (mag (bits x) / one)
  have kb := key ((mag (bits x) + (one - 1)) / one)
  have kc := key ((2 * mag (bits x) + one) / (2 * one))
  clear key hfl hce hro
  generalize (mag (bits x) + (one - 1)) / one = b at *
  generalize (2 * mag (bits x) + one) / (2 * one) = c at *
  generalize mag (bits x) / one = a at *
  have h1 := one_pos
  rw [int_one]
  have ca := Int.natCast_mul a one
  have cb := Int.natCast_mul b one
  have cc := Int.natCast_mul c one
  generalize a * one = ao at *
  generalize b * one = bo at *
  generalize c * one = co at *
  generalize mag (bits x) = m at *
  generalize one = o at *
  refine ⟨?_, ?_, ?_⟩
  · cases hs : isNeg x
    · refine ⟨a, ?_⟩
      rw [Int.add_mul, ← ca]
      simp only [signed, Bool.false_eq_true, if_false]
      rw [ka (by omega) (by omega), hs]
      simp only [signed, Bool.false_eq_true, if_false, and_true]
      exact ⟨by omega, by omega⟩
    · refine ⟨-b, ?_⟩
      rw [Int.add_mul, Int.neg_mul, ← cb]
      simp only [signed, if_true]
      rw [kb (by omega) (by omega), hs]
      simp only [signed, if_true, and_true]
      exact ⟨by omega, by omega⟩
  · cases hs : isNeg x
    · refine ⟨b, ?_⟩
      rw [Int.sub_mul, ← cb]
      simp only [signed, Bool.false_eq_true, if_false]
      rw [kb (by omega) (by omega), hs]
      simp only [signed, Bool.false_eq_true, if_false, and_true]
      exact ⟨by omega, by omega⟩
    · refine ⟨-a, ?_⟩
      rw [Int.sub_mul, Int.neg_mul, ← ca]
      simp only [signed, if_true]
      rw [ka (by omega) (by omega), hs]
      simp only [signed, if_true, and_true]
      exact ⟨by omega, by omega⟩
  · rw [kc (by omega) (by omega)]
    refine ⟨signed (isNeg x) c, ?_, rfl⟩
    cases hs : isNeg x
    · simp only [signed, Bool.false_eq_true, if_false]
      rw [if_neg (by omega), Int.sub_mul, Int.add_mul, Int.mul_assoc, ← cc]
      omega
    · simp only [signed, if_true]
      rw [Int.sub_mul, Int.add_mul, Int.mul_assoc, Int.neg_mul, ← cc]
      split <;> omega

/-- -2.5 is rounded to -3, its floor is -3, its ceiling -2; 1e300 gives the greatest integer. -/
example : isFinite 0xC004000000000000 = true ∧ callStd (ops R) chk cname lim "round" [.float 0xC004000000000000] = some (.ok (.int (-3))) ∧
    callStd (ops R) chk cname lim "floor" [.float 0xC004000000000000] = some (.ok (.int (-3))) ∧
    callStd (ops R) chk cname lim "ceil" [.float 0xC004000000000000] = some (.ok (.int (-2))) ∧
    callStd (ops R) chk cname lim "int" [.float 0x7E37E43C8800759C] = some (.ok (.int (BitVec.intMax 64))) := by
  have h1 : BitVec.ofInt 64 (toRange (-2 ^ 63) (2 ^ 63 - 1) (roundHalf 0xC004000000000000)) = -3 := by decide +kernel
  have h2 : BitVec.ofInt 64 (toRange (-2 ^ 63) (2 ^ 63 - 1) (floor 0xC004000000000000)) = -3 := by decide +kernel
  have h3 : BitVec.ofInt 64 (toRange (-2 ^ 63) (2 ^ 63 - 1) (ceil 0xC004000000000000)) = -2 := by decide +kernel
  have h4 : BitVec.ofInt 64 (toRange (-2 ^ 63) (2 ^ 63 - 1) 0x7E37E43C8800759C) = BitVec.intMax 64 := by decide +kernel
  exact ⟨by decide, congrArg (fun b => some (Res.ok (Val.int b))) h1, congrArg (fun b => some (Res.ok (Val.int b))) h2,
    congrArg (fun b => some (Res.ok (Val.int b))) h3, congrArg (fun b => some (Res.ok (Val.int b))) h4⟩

/-- `@sqrt` of a positive float: no float is nearer to the root. The middle of the result and a smaller float is not above
the root, the middle of the result and a greater one is not below. -/
theorem C67_sqrt {x : BitVec 64} (hx : isFinite x = true) (h0 : 0 < val x) : ∃ r, callStd (ops R) chk cname lim "sqrt" [.float x] = some (.ok (.float r)) ∧
    isFinite r = true ∧ 0 < val r ∧ ∀ g, isFinite g = true → 0 ≤ val g →
      (val g < val r → (val g + val r) * (val g + val r) ≤ 4 * (val x * 2 ^ 1074)) ∧ (val r < val g → 4 * (val x * 2 ^ 1074) ≤ (val g + val r) * (val g + val r)) := by
  have hneg : isNeg x = false := by
    cases h : isNeg x with
    | false => rfl
    | true => rw [val_def, h] at h0; simp only [signed, if_true] at h0; omega
  have hvx : val x = mag (bits x) := by rw [val_def, hneg]; rfl
  have hm : 0 < mag (bits x) := by omega
  have hb : bits x ≠ 0 := by
    intro h
    rw [h, mag_zero] at hm
    omega
  generalize hN : mag (bits x) * one = N
  have hs : sqrt x = round false (2 * sqrt.isqrt N + if sqrt.isqrt N * sqrt.isqrt N = N then 0 else 1) 2 := by
    unfold sqrt
    rw [finite_not_nan hx, finite_not_inf hx, hneg, if_neg (by simp), if_neg hb, if_neg (by simp), if_neg (by simp), hN]
  obtain ⟨i1, i2⟩ := isqrt_spec N
  generalize sqrt.isqrt N = r at *
  generalize ht : (if r * r = N then 0 else 1 : Nat) = t at hs
  have hNlo : 2 ^ 537 * 2 ^ 537 ≤ N := by
    rw [← Nat.pow_add, ← hN]
    exact Nat.le_mul_of_pos_left one hm
  have hNhi : N < 2 ^ 1586 * 2 ^ 1586 := by
    rw [← hN, ← Nat.pow_add]
    have : mag (bits x) < 2 ^ 2098 := by rw [← mag_infBits]; exact mag_lt (isFinite_iff.1 hx)
    exact Nat.lt_of_lt_of_le (Nat.mul_lt_mul_of_pos_right this one_pos) (by unfold one; rw [← Nat.pow_add]; exact Nat.pow_le_pow_right (by decide) (by decide))
  have hr1 : 2 ^ 537 ≤ r := by
    have : 2 ^ 537 < r + 1 := Nat.mul_self_lt_mul_self_iff.1 (Nat.lt_of_le_of_lt hNlo i2)
    omega
  have hr2 : r < 2 ^ 1586 := Nat.mul_self_lt_mul_self_iff.1 (Nat.lt_of_le_of_lt i1 hNhi)
  have ht1 : t ≤ 1 := by rw [← ht]; split <;> omega
  -- the result is finite and large
  obtain ⟨b, hb1, hb2⟩ := rep 1 1600 (by decide)
  have hfin : roundMag (2 * r + t) 2 < infBits := by
    refine Nat.lt_of_le_of_lt (roundMag_le (b := b) (by decide) ?_) (Nat.lt_of_le_of_lt hb2 (by decide))
    rw [hb1, Nat.one_mul]
    have : 2 ^ 1586 + 1 ≤ 2 ^ 1600 := Nat.pow_lt_pow_right (by decide) (by decide)
    omega
  have hbig : 2 ^ 53 + 1 ≤ roundMag (2 * r + t) 2 := by
    refine le_roundMag (by decide) ?_
    have e : mag (2 ^ 53 + 1) = 2 ^ 53 + 2 := by decide
    have : 2 ^ 60 ≤ 2 ^ 537 := Nat.pow_le_pow_right (by decide) (by decide)
    rw [e]
    omega
  generalize hB : roundMag (2 * r + t) 2 = B at *
  have ev1 := mag_even (b := B - 1) (by omega)
  have ev2 := mag_even (b := B) (by omega)
  have ev3 := mag_even (b := B + 1) (by omega)
  have n1 := roundMag_nearest (n := 2 * r + t) (d := 2) (by decide) (B - 1)
  have n2 := roundMag_nearest (n := 2 * r + t) (d := 2) (by decide) (B + 1)
  rw [hB] at n1 n2
  have l1 : mag (B - 1) < mag B := mag_lt (by omega)
  have l2 : mag B < mag (B + 1) := mag_lt (by omega)
  have hbits : bits (sqrt x) = B := by rw [hs, bits_round_finite (by rw [hB]; exact hfin), hB]
  have hvr : val (sqrt x) = mag B := by
    rw [val_def, hbits, hs, isNeg_round]
    rfl
  refine ⟨sqrt x, rfl, by rw [isFinite_iff, hbits]; exact hfin, by omega, fun g hg hg0 => ?_⟩
  obtain ⟨gm, hgm⟩ : ∃ gm : Nat, val g = gm ∧ mag (bits g) = gm := ⟨mag (bits g), by have := val_natAbs g; omega, rfl⟩
  have hx4 : (4 : Int) * (val x * 2 ^ 1074) = ((4 * N : Nat) : Int) := by
    rw [hvx, ← hN]
    rfl
  rw [hvr, hgm.1, hx4, ← Int.natCast_add, ← Int.natCast_mul]
  have sq : ∀ a b : Nat, a ≤ b → a * a ≤ b * b := fun a b h => Nat.mul_self_le_mul_self h
  have four : ∀ a : Nat, 2 * a * (2 * a) = 4 * (a * a) := by intro a; rw [Nat.mul_mul_mul_comm]
  refine ⟨fun h => ?_, fun h => ?_⟩
  · have hlt : bits g < B := mag_lt_iff.1 (by omega)
    have : mag (bits g) ≤ mag (B - 1) := mag_le_iff.2 (by omega)
    have := sq (gm + mag B) (2 * r) (by omega)
    rw [four] at this
    omega
  · have hlt : B < bits g := mag_lt_iff.1 (by omega)
    have : mag (B + 1) ≤ mag (bits g) := mag_le_iff.2 (by omega)
    by_cases he : r * r = N
    · rw [if_pos he] at ht
      have := sq (2 * r) (gm + mag B) (by omega)
      rw [four] at this
      omega
    · rw [if_neg he] at ht
      have := sq (2 * (r + 1)) (gm + mag B) (by omega)
      rw [four] at this
      omega

/-- The root of 2. -/
example : isFinite 0x4000000000000000 = true ∧ 0 < val 0x4000000000000000 ∧
    callStd (ops R) chk cname lim "sqrt" [.float 0x4000000000000000] = some (.ok (.float 0x3FF6A09E667F3BCD)) := by
  have h : sqrt 0x4000000000000000 = 0x3FF6A09E667F3BCD := by decide +kernel
  exact ⟨by decide, by decide +kernel, congrArg (fun b => some (Res.ok (Val.float b))) h⟩

/-- `@sqrt` of the other floats: zeros and infinity stay, negative numbers have no root. -/
theorem C67_sqrt_special (x : BitVec 64) :
    (isNaN x = true ∨ val x < 0 → callStd (ops R) chk cname lim "sqrt" [.float x] = some (.ok (.float nan))) ∧
    (val x = 0 ∨ Infinite false x → callStd (ops R) chk cname lim "sqrt" [.float x] = some (.ok (.float x))) := by
  have hc : callStd (ops R) chk cname lim "sqrt" [.float x] = some (.ok (.float (sqrt x))) := rfl
  rw [hc]
  unfold sqrt
  refine ⟨fun h => ?_, fun h => ?_⟩
  · cases hn : isNaN x with
    | true => rfl
    | false =>
      have h : val x < 0 := h.resolve_left (by rw [hn]; simp)
      have hneg : isNeg x = true := by
        cases h' : isNeg x with
        | true => rfl
        | false => rw [val_def, h'] at h; simp only [signed, Bool.false_eq_true, if_false] at h; omega
      have hb : bits x ≠ 0 := fun e => by rw [val_eq_zero.2 e] at h; omega
      rw [if_neg (by simp), if_neg hb, if_pos hneg]
  · rcases h with h | ⟨h1, h2⟩
    · have hb := val_eq_zero.1 h
      have hn : isNaN x = false := by
        unfold isNaN
        rw [hb]
        decide
      rw [hn, if_neg (by simp), if_pos hb]
    · have e : bits x = infBits := by simpa [isInf] using h1
      have hn : isNaN x = false := by
        unfold isNaN
        rw [e]
        decide
      rw [hn, if_neg (by simp), if_neg (by rw [e]; decide), h2, if_neg (by simp), h1, if_pos rfl]

/-- `@min` and `@max` give one of the two, and a number if one is a number; `@abs` and `@clamp` in values. -/
theorem C67_min_max (x y : BitVec 64) : ∃ l g, callStd (ops R) chk cname lim "min" [.float x, .float y] = some (.ok (.float l)) ∧
    callStd (ops R) chk cname lim "max" [.float x, .float y] = some (.ok (.float g)) ∧ (l = x ∨ l = y) ∧ (g = x ∨ g = y) ∧
    (isNaN l = true ↔ isNaN x = true ∧ isNaN y = true) ∧ (isNaN g = true ↔ isNaN x = true ∧ isNaN y = true) ∧
    (isNaN x = false → isNaN y = false → val l = Min.min (val x) (val y) ∧ val g = Max.max (val x) (val y)) := by
  refine ⟨Ieee.min x y, Ieee.max x y, rfl, rfl, ?_⟩
  unfold Ieee.min Ieee.max
  cases hx : isNaN x <;> cases hy : isNaN y
  · have e1 : Ieee.lt x y = decide (val x < val y) := by simp only [Ieee.lt, hx, hy, Bool.not_false, Bool.true_and, rank_lt_iff]
    have e2 : Ieee.lt y x = decide (val y < val x) := by simp only [Ieee.lt, hx, hy, Bool.not_false, Bool.true_and, rank_lt_iff]
    simp only [e1, e2, Bool.false_eq_true, if_false, decide_eq_true_eq]
    by_cases h1 : val x < val y <;> by_cases h2 : val y < val x <;> simp [h1, h2, hx, hy] <;> omega
  all_goals simp [hx, hy]

theorem C67_abs (x : BitVec 64) : ∃ r, callStd (ops R) chk cname lim "abs" [.float x] = some (.ok (.float r)) ∧ isNeg r = false ∧ val r = (val x).natAbs ∧
    isNaN r = isNaN x ∧ isInf r = isInf x := by
  refine ⟨Ieee.abs x, rfl, ?_⟩
  unfold Ieee.abs isNaN isInf
  rw [isNeg_mk _ (bits_lt x), val_mk _ (bits_lt x), bits_mk _ (bits_lt x), val_natAbs]
  exact ⟨rfl, rfl, rfl, rfl⟩

theorem C67_clamp {x lo hi : BitVec 64} (hlo : isNaN lo = false) (hhi : isNaN hi = false) (h : val lo ≤ val hi) :
    ∃ r, callStd (ops R) chk cname lim "clamp" [.float x, .float lo, .float hi] = some (.ok (.float r)) ∧
      (isNaN x = false → val r = Max.max (val lo) (Min.min (val x) (val hi))) ∧ (isNaN x = true → isNaN r = true) := by
  have hc : callStd (ops R) chk cname lim "clamp" [.float x, .float lo, .float hi] = some (Lib.clamp (ops R) x lo hi) := rfl
  have e1 : (ops R).F.lt hi lo = false := by
    show Ieee.lt hi lo = _
    simp only [Ieee.lt, hlo, hhi, Bool.not_false, Bool.true_and, rank_lt_iff, decide_eq_false_iff_not]
    omega
  have e2 : ∀ {x}, isNaN x = false → (ops R).F.eq x x = true := by
    intro x hx
    show Ieee.eq x x = _
    simp [Ieee.eq, hx]
  have e3 : (ops R).F.le lo hi = true := by
    show Ieee.le lo hi = _
    simp only [Ieee.le, hlo, hhi, Bool.not_false, Bool.true_and, rank_le_iff, decide_eq_true_eq]
    exact h
  refine ⟨Ieee.clamp x lo hi, ?_, fun hx => ?_, fun hx => ?_⟩
  · rw [hc]
    unfold Lib.clamp
    rw [e1, e2 hlo, e2 hhi, e3]
    rfl
  · unfold Ieee.clamp
    have e1 : Ieee.lt x lo = decide (val x < val lo) := by simp only [Ieee.lt, hx, hlo, Bool.not_false, Bool.true_and, rank_lt_iff]
    have e2 : Ieee.lt hi x = decide (val hi < val x) := by simp only [Ieee.lt, hx, hhi, Bool.not_false, Bool.true_and, rank_lt_iff]
    simp only [e1, e2, decide_eq_true_eq]
    split
    · omega
    · split <;> omega
  · unfold Ieee.clamp Ieee.lt
    simp [hx]

/-- The root of -4 is NaN, the greater of NaN and 1 is 1, 7 is cut to 2. -/
example : val 0xC010000000000000 < 0 ∧ callStd (ops R) chk cname lim "sqrt" [.float 0xC010000000000000] = some (.ok (.float nan)) ∧
    callStd (ops R) chk cname lim "max" [.float nan, .float f1] = some (.ok (.float f1)) ∧ val 0 ≤ val 0x4000000000000000 :=
  ⟨by decide +kernel, (C67_sqrt_special R chk cname lim _).1 (.inr (by decide +kernel)), by
    have h : Ieee.max nan f1 = f1 := by decide +kernel
    exact congrArg (fun b => some (Res.ok (Val.float b))) h, by decide +kernel⟩

example : Infinite true ((ieee R chk).F.div 0xBFF0000000000000 0) ∧ (ieee R chk).F.div 0 0 = nan :=
  ⟨(C67_div_zero R chk (x := 0xBFF0000000000000) (y := 0) (by decide +kernel) (by decide +kernel)).2 (by decide +kernel) (by decide +kernel),
   (C67_div_zero R chk (y := 0) (by decide +kernel) (by decide +kernel)).1 (.inl (by decide +kernel))⟩

end

end Quilt.Props
