import Verif.Props.Floats

/-!
# Colours: C62

With the operations of `f64` (`Verif/Lib/Ieee.lean`). Values of floats are integers in units of 2^-1074.
-/

namespace Quilt.Props

open Lib Ieee

set_option exponentiation.threshold 4000

variable {C : Type}

/-! ## Errors of rounding, for floats that are not negative -/

/-- A finite float with no sign and this magnitude. -/
structure Is (x : BitVec 64) (m : Nat) : Prop where
  finite : isFinite x = true
  pos : isNeg x = false
  mag : mag (bits x) = m

theorem Is.val {x : BitVec 64} {m : Nat} (h : Is x m) : val x = m := by rw [val_def, h.pos, h.mag]; rfl

private theorem round_close {n d k : Nat} (hd : 0 < d) (hk : 53 ≤ k) (hk' : k < 2000) (h : n < 2 ^ k * d) :
    ∃ m, Is (round false n d) m ∧ 2 * n ≤ 2 * (m * d) + 2 ^ (k - 53) * d ∧ 2 * (m * d) ≤ 2 * n + 2 ^ (k - 53) * d := by
  obtain ⟨b, hb1, hb2⟩ := rep 1 k (by decide)
  have hfin : roundMag n d < infBits := by
    refine Nat.lt_of_le_of_lt (roundMag_le (b := b) hd (by rw [hb1, Nat.one_mul]; omega)) (Nat.lt_of_le_of_lt hb2 ?_)
    unfold infBits
    omega
  obtain ⟨h1, h2⟩ := roundMag_error hd hk h
  exact ⟨_, ⟨round_finite.2 hfin, isNeg_round .., by rw [bits_round_finite hfin]⟩, h1, h2⟩

private theorem is_zero : Is 0 0 := ⟨by decide, by decide, by decide⟩

private theorem is_add {x y : BitVec 64} {m n k : Nat} (hx : Is x m) (hy : Is y n) (hk : 53 ≤ k) (hk' : k < 2000) (h : m + n < 2 ^ k) :
    ∃ p, Is (add x y) p ∧ 2 * (m + n) ≤ 2 * p + 2 ^ (k - 53) ∧ 2 * p ≤ 2 * (m + n) + 2 ^ (k - 53) := by
  have hv : val x + val y = ((m + n : Nat) : Int) := by rw [hx.val, hy.val]; omega
  unfold add
  rw [finite_not_nan hx.finite, finite_not_nan hy.finite, finite_not_inf hx.finite, finite_not_inf hy.finite, hx.pos, hy.pos, hv]
  simp only [Bool.or_self, Bool.false_eq_true, if_false, Bool.and_self]
  have e0 : mk false 0 = 0 := by decide
  split
  · rename_i h0
    rw [e0, show m + n = 0 by omega]
    exact ⟨0, is_zero, Nat.zero_le _, Nat.zero_le _⟩
  · have := round_close (n := m + n) (d := 1) (by decide) hk hk' (by omega)
    simp only [Nat.mul_one] at this
    rw [show decide (((m + n : Nat) : Int) < 0) = false by simp; omega, Int.natAbs_natCast]
    exact this

private theorem is_mul {x y : BitVec 64} {m n k : Nat} (hx : Is x m) (hy : Is y n) (hk : 53 ≤ k) (hk' : k < 2000) (h : m * n < 2 ^ k * one) :
    ∃ p, Is (mul x y) p ∧ 2 * (m * n) ≤ 2 * (p * one) + 2 ^ (k - 53) * one ∧ 2 * (p * one) ≤ 2 * (m * n) + 2 ^ (k - 53) * one := by
  unfold mul
  rw [finite_not_nan hx.finite, finite_not_nan hy.finite, finite_not_inf hx.finite, finite_not_inf hy.finite, hx.pos, hy.pos, hx.mag, hy.mag]
  exact round_close one_pos hk hk' h

/-- A channel times something not above one. -/
private theorem is_scale {x y : BitVec 64} {a n : Nat} (hx : Is x (a * one)) (hy : Is y n) (ha : a ≤ 255) (hn : n ≤ one) :
    ∃ p, Is (mul x y) p ∧ 2 * (a * n) ≤ 2 * p + 2 ^ 1029 ∧ 2 * p ≤ 2 * (a * n) + 2 ^ 1029 := by
  have hlt : a * one * n < 2 ^ 1082 * one := by
    rw [Nat.mul_right_comm]
    refine Nat.mul_lt_mul_of_pos_right (Nat.lt_of_le_of_lt (Nat.mul_le_mul ha hn) ?_) one_pos
    decide +kernel
  obtain ⟨p, h1, h2, h3⟩ := is_mul hx hy (by decide) (by decide) hlt
  refine ⟨p, h1, ?_, ?_⟩
  · refine Nat.le_of_mul_le_mul_right (c := one) ?_ one_pos
    rw [Nat.add_mul, Nat.mul_assoc, Nat.mul_assoc 2 p, ← Nat.mul_right_comm]
    exact h2
  · refine Nat.le_of_mul_le_mul_right (c := one) ?_ one_pos
    rw [Nat.add_mul, Nat.mul_assoc, Nat.mul_assoc 2 (a * n), ← Nat.mul_right_comm]
    exact h3

private theorem is_one : Is f1 one := ⟨by decide, by decide, by decide +kernel⟩

private theorem is_rest {u : BitVec 64} {n : Nat} (h : Is u n) (hn : n ≤ one) : ∃ s, Is (sub f1 u) s ∧ s ≤ one ∧ 2 * (one - n) ≤ 2 * s + 2 ^ 1022 ∧ 2 * s ≤ 2 * (one - n) + 2 ^ 1022 := by
  have hv : Ieee.val f1 + Ieee.val (neg u) = ((one - n : Nat) : Int) := by rw [val_neg, is_one.val, h.val]; omega
  unfold sub add
  rw [finite_not_nan h.finite, if_neg (by simp), isNaN_neg, finite_not_nan h.finite, finite_not_nan is_one.finite, isInf_neg, finite_not_inf h.finite, finite_not_inf is_one.finite, hv, is_one.pos]
  simp only [Bool.or_self, Bool.false_eq_true, if_false, Bool.false_and]
  have e0 : mk false 0 = 0 := by decide
  split
  · rename_i h0
    rw [e0]
    exact ⟨0, is_zero, by omega, by omega, by omega⟩
  · have hlt : one - n < 2 ^ 1075 * 1 := Nat.lt_of_le_of_lt (Nat.sub_le _ _) (by decide +kernel)
    obtain ⟨s, h1, h2, h3⟩ := round_close (n := one - n) (d := 1) (by decide) (by decide) (by decide) hlt
    simp only [Nat.mul_one] at h2 h3
    rw [show decide (((one - n : Nat) : Int) < 0) = false by simp, Int.natAbs_natCast]
    refine ⟨s, h1, ?_, h2, h3⟩
    have hb : roundMag (one - n) 1 ≤ bits f1 := roundMag_le (by decide) (by rw [is_one.mag]; omega)
    have hfin : roundMag (one - n) 1 < infBits := Nat.lt_of_le_of_lt hb (isFinite_iff.1 is_one.finite)
    have hm := mag_le_iff.2 hb
    rw [is_one.mag, ← bits_round_finite (s := false) hfin, h1.mag] at hm
    exact hm

private theorem is_channel (R : Rest) (c : BitVec 8) : Is (ofU8 (ops R) c) (c.toNat * one) := by
  obtain ⟨b, h1, h2⟩ := rep_int c.toNat (by have := c.isLt; omega)
  have hi : (c.setWidth 64).toInt = c.toNat := by
    rw [BitVec.toInt_eq_toNat_of_lt (by rw [BitVec.toNat_setWidth]; have := c.isLt; omega), BitVec.toNat_setWidth]
    have := c.isLt
    omega
  have e : ofU8 (ops R) c = mk false b := by
    show ofInt (c.setWidth 64).toInt = _
    unfold ofInt
    rw [hi, Int.natAbs_natCast, show decide ((c.toNat : Int) < 0) = false by simp]
    exact round_exact _ (by decide) h2 (by rw [h1, Nat.mul_one])
  have hlt := Nat.lt_trans h2 infBits_lt
  rw [e]
  exact ⟨by rw [isFinite_iff, bits_mk _ hlt]; exact h2, isNeg_mk _ hlt, by rw [bits_mk _ hlt, h1]⟩

private theorem div_bounds (m o : Nat) (h : 0 < o) : 2 * ((2 * m + o) / (2 * o) * o) ≤ 2 * m + o ∧ 2 * m < 2 * ((2 * m + o) / (2 * o) * o) + o := by
  have h1 := Nat.div_add_mod (2 * m + o) (2 * o)
  have := Nat.mod_lt (2 * m + o) (show 0 < 2 * o by omega)
  generalize (2 * m + o) / (2 * o) = c at *
  rw [show 2 * o * c = 2 * (c * o) by rw [Nat.mul_comm (2 * o), ← Nat.mul_assoc, Nat.mul_comm c 2, Nat.mul_assoc]] at h1
  omega

/-- The channel nearest to a float. -/
private theorem is_roundU8 (R : Rest) {x : BitVec 64} {m : Nat} (h : Is x m) (hm : 2 * m < 511 * one) :
    2 * ((roundU8 (ops R) x).toNat * one) ≤ 2 * m + one ∧ 2 * m < 2 * ((roundU8 (ops R) x).toNat * one) + one := by
  obtain ⟨r1, r2⟩ := div_bounds m one one_pos
  have e : roundU8 (ops R) x = BitVec.ofInt 8 (toRange 0 255 (roundHalf x)) := rfl
  have hn : (2 * m + one) / (2 * one) ≤ 255 := by
    refine Nat.le_of_lt_succ ((Nat.div_lt_iff_lt_mul (by have := one_pos; omega)).2 ?_)
    have : 256 * (2 * one) = 512 * one := by rw [← Nat.mul_assoc]
    rw [this]
    generalize one = o at *
    omega
  have hint := integral_exact x ((2 * m + one) / (2 * one)) h.finite (by rw [h.mag]; generalize (2 * m + one) / (2 * one) * one = z at *; have := one_pos; omega)
    (by rw [h.mag]; generalize (2 * m + one) / (2 * one) * one = z at *; have := one_pos; omega)
  have hh : roundHalf x = integral x ((2 * m + one) / (2 * one)) := by unfold roundHalf; rw [h.mag]
  rw [← hh] at hint
  have ht : (roundU8 (ops R) x).toNat = (2 * m + one) / (2 * one) := by
    rw [e]
    unfold toRange
    rw [finite_not_nan hint.1, finite_not_inf hint.1, trunc_integral _ _ hint.2.2, hint.2.1, h.pos]
    simp only [Bool.false_eq_true, if_false, signed]
    generalize (2 * m + one) / (2 * one) = z at *
    rw [show Max.max (0 : Int) (Min.min 255 (z : Int)) = (z : Int) by omega, BitVec.toNat_ofInt]
    omega
  rw [ht]
  exact ⟨r1, r2⟩

/-! ## Mixing -/

/-- `u` is `t` between 0 and 1; NaN counts as 0. -/
structure Share (t : BitVec 64) (u : Nat) : Prop where
  nan : isNaN t = true → u = 0
  low : isNaN t = false → val t ≤ 0 → u = 0
  mid : isNaN t = false → 0 ≤ val t → val t ≤ 2 ^ 1074 → (u : Int) = val t
  high : isNaN t = false → 2 ^ 1074 ≤ val t → u = 2 ^ 1074
  le : u ≤ 2 ^ 1074

private theorem lt_val {x y : BitVec 64} (hx : isNaN x = false) (hy : isNaN y = false) : Ieee.lt x y = decide (val x < val y) := by
  simp only [Ieee.lt, hx, hy, Bool.not_false, Bool.true_and, rank_lt_iff]

private theorem nan_zero : isNaN 0 = false := by decide
private theorem nan_one : isNaN f1 = false := by decide
private theorem val_zero : val 0 = 0 := by decide +kernel
private theorem val_one : val f1 = 2 ^ 1074 := by decide +kernel

theorem share (R : Rest) (t : BitVec 64) : ∃ u, Is (Lib.unit (ops R) t) u ∧ Share t u := by
  have e : Lib.unit (ops R) t = Ieee.min (Ieee.max t 0) f1 := rfl
  have hone : (2 : Int) ^ 1074 = (one : Nat) := rfl
  have hpos : (0 : Int) < 2 ^ 1074 := by decide
  rw [e]
  cases ht : isNaN t with
  | true =>
    have : Ieee.min (Ieee.max t 0) f1 = 0 := by
      unfold Ieee.max
      rw [ht, if_pos rfl]
      decide +kernel
    rw [this]
    exact ⟨0, is_zero, ⟨fun _ => rfl, by simp [ht], by simp [ht], by simp [ht], by omega⟩⟩
  | false =>
    have hmax : Ieee.max t 0 = if 0 < val t then t else 0 := by
      unfold Ieee.max
      rw [ht, nan_zero, lt_val nan_zero ht, val_zero]
      simp
    by_cases h0 : 0 < val t
    · rw [hmax, if_pos h0]
      have hmin : Ieee.min t f1 = if val t < 2 ^ 1074 then t else f1 := by
        unfold Ieee.min
        rw [ht, nan_one, lt_val ht nan_one, val_one]
        simp
      rw [hmin]
      split
      · rename_i h1
        have hpos : isNeg t = false := by
          cases hn : isNeg t with
          | false => rfl
          | true => rw [val_def, hn] at h0; simp only [signed, if_true] at h0; omega
        have hfin : isFinite t = true := by
          rcases kinds t with k | k | k
          · exact k.1
          · exfalso
            have hb : bits t = infBits := by simpa [isInf] using k.2.1
            rw [val_def, hpos, hb, mag_infBits] at h1
            revert h1
            simp only [signed]
            decide
          · rw [k.2.2] at ht; simp at ht
        have hv : val t = (Ieee.mag (bits t) : Nat) := by rw [val_def, hpos]; rfl
        refine ⟨Ieee.mag (bits t), ⟨hfin, hpos, rfl⟩, ⟨by simp [ht], fun _ h => by omega, fun _ _ _ => hv.symm, fun _ h => by omega, ?_⟩⟩
        rw [hv, hone] at h1
        exact Nat.le_of_lt (Int.ofNat_lt.1 h1)
      · rename_i h1
        exact ⟨one, is_one, ⟨by simp [ht], fun _ h => by omega, fun _ _ h => by rw [← hone]; omega, fun _ _ => rfl, Nat.le_refl _⟩⟩
    · rw [hmax, if_neg h0]
      have hmin : Ieee.min 0 f1 = 0 := by decide +kernel
      rw [hmin]
      exact ⟨0, is_zero, ⟨fun _ => rfl, fun _ _ => rfl, fun _ h _ => by omega, fun _ h => by omega, by omega⟩⟩

/-- The channel `c` is within 1/2 + 2^-42 of `a (1 - u) + b u`. -/
def Mixed (a b : BitVec 8) (u : Nat) (c : BitVec 8) : Prop :=
  2 * ((c.toNat * 2 ^ 1074 : Nat) - (a.toNat * (2 ^ 1074 - u) + b.toNat * u : Nat) : Int).natAbs ≤ 2 ^ 1074 + 2 ^ 1032

private theorem one_eq : one = 2 ^ 52 * 2 ^ 1022 := by decide +kernel

private theorem mixed_of {R : Rest} {a b : BitVec 8} {u m : Nat} {x : BitVec 64} (hu : u ≤ one) (hx : Is x m)
    (h1 : 2 * (a.toNat * (one - u) + b.toNat * u) ≤ 2 * m + 2 ^ 1032) (h2 : 2 * m ≤ 2 * (a.toNat * (one - u) + b.toNat * u) + 2 ^ 1032) : Mixed a b u (roundU8 (ops R) x) := by
  have hle : a.toNat * (one - u) + b.toNat * u ≤ 255 * one := by
    have ha := a.isLt
    have hb := b.isLt
    have e1 : a.toNat * (one - u) ≤ 255 * (one - u) := Nat.mul_le_mul_right _ (by omega)
    have e2 : b.toNat * u ≤ 255 * u := Nat.mul_le_mul_right _ (by omega)
    omega
  have e : (2 : Nat) ^ 1032 = 1024 * 2 ^ 1022 := by decide +kernel
  have ho := one_eq
  generalize hX : a.toNat * (one - u) + b.toNat * u = X at *
  obtain ⟨r1, r2⟩ := is_roundU8 R hx (by rw [e] at h2; generalize (2 : Nat) ^ 1022 = E at *; have := one_pos; omega)
  unfold Mixed
  rw [show (2 : Nat) ^ 1074 = one from rfl, hX]
  generalize (roundU8 (ops R) x).toNat * one = z at *
  rw [e] at *
  generalize (2 : Nat) ^ 1022 = E at *
  generalize one = o at *
  omega

/-- `a (1 - u) + b u` in floats. -/
private theorem blend {R : Rest} {a b : BitVec 8} {t : BitVec 64} {u : Nat} (hu : u ≤ one) (ht : Is t u) {y : BitVec 64} (hy : Is y (b.toNat * one)) :
    Mixed a b u (roundU8 (ops R) (add (mul (ofU8 (ops R) a) (sub f1 t)) (mul y t))) := by
  have ha := a.isLt
  have hb := b.isLt
  obtain ⟨s, s1, s2, s3, s4⟩ := is_rest ht hu
  obtain ⟨p, p1, p2, p3⟩ := is_scale (is_channel R a) s1 (by omega) s2
  obtain ⟨q, q1, q2, q3⟩ := is_scale hy ht (by omega) hu
  have e29 : (2 : Nat) ^ 1029 = 128 * 2 ^ 1022 := by decide +kernel
  have e32 : (2 : Nat) ^ 1032 = 1024 * 2 ^ 1022 := by decide +kernel
  have e82 : (2 : Nat) ^ 1082 = 256 * one := by decide +kernel
  have hE : 0 < 2 ^ 1022 := Nat.pow_pos (by decide)
  have ho := one_eq
  -- the error of `s` counts `a` times
  have t1 : 2 * (a.toNat * (one - u)) ≤ 2 * (a.toNat * s) + 255 * 2 ^ 1022 := by
    have := Nat.mul_le_mul_left a.toNat s3
    rw [Nat.mul_add, Nat.mul_left_comm, Nat.mul_left_comm a.toNat 2 s] at this
    have h' : a.toNat * 2 ^ 1022 ≤ 255 * 2 ^ 1022 := Nat.mul_le_mul_right _ (by omega)
    exact Nat.le_trans this (Nat.add_le_add_left h' _)
  have t2 : 2 * (a.toNat * s) ≤ 2 * (a.toNat * (one - u)) + 255 * 2 ^ 1022 := by
    have := Nat.mul_le_mul_left a.toNat s4
    rw [Nat.mul_add, Nat.mul_left_comm, Nat.mul_left_comm a.toNat 2 (one - u)] at this
    have h' : a.toNat * 2 ^ 1022 ≤ 255 * 2 ^ 1022 := Nat.mul_le_mul_right _ (by omega)
    exact Nat.le_trans this (Nat.add_le_add_left h' _)
  have hle : a.toNat * (one - u) + b.toNat * u ≤ 255 * one := by
    have e1 : a.toNat * (one - u) ≤ 255 * (one - u) := Nat.mul_le_mul_right _ (by omega)
    have e2 : b.toNat * u ≤ 255 * u := Nat.mul_le_mul_right _ (by omega)
    omega
  have hsum : p + q < 2 ^ 1082 := by
    rw [e82]
    rw [e29] at *
    generalize (2 : Nat) ^ 1022 = E at *
    generalize a.toNat * (one - u) = A at *
    generalize a.toNat * s = A' at *
    generalize b.toNat * u = B at *
    generalize one = o at *
    omega
  obtain ⟨m, m1, m2, m3⟩ := is_add p1 q1 (by decide) (by decide) hsum
  have e29' : (2 : Nat) ^ (1082 - 53) = 128 * 2 ^ 1022 := by decide +kernel
  refine mixed_of hu m1 ?_ ?_
  all_goals
    rw [e32]
    rw [e29] at *
    rw [e29'] at m2 m3
    generalize (2 : Nat) ^ 1022 = E at *
    generalize a.toNat * (one - u) = A at *
    generalize a.toNat * s = A' at *
    generalize b.toNat * u = B at *
    generalize one = o at *
    omega

/-- `a (1 - u)` in floats. -/
private theorem dim {R : Rest} {a : BitVec 8} {t : BitVec 64} {u : Nat} (hu : u ≤ one) (ht : Is t u) :
    Mixed a 0 u (roundU8 (ops R) (mul (ofU8 (ops R) a) (sub f1 t))) := by
  have ha := a.isLt
  obtain ⟨s, s1, s2, s3, s4⟩ := is_rest ht hu
  obtain ⟨p, p1, p2, p3⟩ := is_scale (is_channel R a) s1 (by omega) s2
  have e29 : (2 : Nat) ^ 1029 = 128 * 2 ^ 1022 := by decide +kernel
  have e32 : (2 : Nat) ^ 1032 = 1024 * 2 ^ 1022 := by decide +kernel
  have t1 : 2 * (a.toNat * (one - u)) ≤ 2 * (a.toNat * s) + 255 * 2 ^ 1022 := by
    have := Nat.mul_le_mul_left a.toNat s3
    rw [Nat.mul_add, Nat.mul_left_comm, Nat.mul_left_comm a.toNat 2 s] at this
    have h' : a.toNat * 2 ^ 1022 ≤ 255 * 2 ^ 1022 := Nat.mul_le_mul_right _ (by omega)
    exact Nat.le_trans this (Nat.add_le_add_left h' _)
  have t2 : 2 * (a.toNat * s) ≤ 2 * (a.toNat * (one - u)) + 255 * 2 ^ 1022 := by
    have := Nat.mul_le_mul_left a.toNat s4
    rw [Nat.mul_add, Nat.mul_left_comm, Nat.mul_left_comm a.toNat 2 (one - u)] at this
    have h' : a.toNat * 2 ^ 1022 ≤ 255 * 2 ^ 1022 := Nat.mul_le_mul_right _ (by omega)
    exact Nat.le_trans this (Nat.add_le_add_left h' _)
  refine mixed_of hu p1 ?_ ?_
  all_goals
    rw [e32, show (0 : BitVec 8).toNat = 0 from rfl, Nat.zero_mul, Nat.add_zero]
    rw [e29] at *
    generalize (2 : Nat) ^ 1022 = E at *
    generalize a.toNat * (one - u) = A at *
    generalize a.toNat * s = A' at *
    omega

/-! ## Weighted sums -/

private theorem is_weight {x : BitVec 64} {M w D : Nat} (R : Rest) (c : BitVec 8) (hx : Is x M) (hM : M ≤ one) (hw1 : 2 * (w * one) ≤ 2 * (M * D) + D * 2 ^ 1021)
    (hw2 : 2 * (M * D) ≤ 2 * (w * one) + D * 2 ^ 1021) :
    ∃ p, Is (mul (ofU8 (ops R) c) x) p ∧ 2 * (c.toNat * w * one) ≤ 2 * (p * D) + D * (256 * 2 ^ 1022) ∧ 2 * (p * D) ≤ 2 * (c.toNat * w * one) + D * (256 * 2 ^ 1022) ∧ p ≤ c.toNat * M + 64 * 2 ^ 1022 := by
  have hc := c.isLt
  obtain ⟨p, p1, p2, p3⟩ := is_scale (is_channel R c) hx (by omega) hM
  have e29 : (2 : Nat) ^ 1029 = 128 * 2 ^ 1022 := by decide +kernel
  have e22 : (2 : Nat) ^ 1022 = 2 * 2 ^ 1021 := by decide +kernel
  rw [e29] at p2 p3
  have q2 := Nat.mul_le_mul_right D p2
  have q3 := Nat.mul_le_mul_right D p3
  have r1 := Nat.mul_le_mul_left c.toNat hw1
  have r2 := Nat.mul_le_mul_left c.toNat hw2
  have h' : c.toNat * (D * 2 ^ 1021) ≤ 256 * (D * 2 ^ 1021) := Nat.mul_le_mul_right _ (by omega)
  refine ⟨p, p1, ?_, ?_, by omega⟩
  all_goals
    rw [e22] at *
    generalize (2 : Nat) ^ 1021 = E at *
    have x1 : c.toNat * (2 * (w * one)) = 2 * (c.toNat * w * one) := by simp only [Nat.mul_assoc, Nat.mul_left_comm]
    have x2 : c.toNat * (2 * (M * D) + D * E) = 2 * (c.toNat * M * D) + c.toNat * (D * E) := by rw [Nat.mul_add]; simp only [Nat.mul_assoc, Nat.mul_left_comm]
    have x3 : 2 * (c.toNat * M) * D = 2 * (c.toNat * M * D) := by rw [Nat.mul_assoc]
    have x4 : (2 * p + 128 * (2 * E)) * D = 2 * (p * D) + 256 * (D * E) := by rw [Nat.add_mul, Nat.mul_assoc, show 128 * (2 * E) * D = 256 * (D * E) by rw [← Nat.mul_assoc, Nat.mul_assoc, Nat.mul_comm E D]]
    have x5 : 2 * p * D = 2 * (p * D) := Nat.mul_assoc ..
    have x6 : (2 * (c.toNat * M) + 128 * (2 * E)) * D = 2 * (c.toNat * M * D) + 256 * (D * E) := by rw [Nat.add_mul, Nat.mul_assoc, show 128 * (2 * E) * D = 256 * (D * E) by rw [← Nat.mul_assoc, Nat.mul_assoc, Nat.mul_comm E D]]
    have x7 : c.toNat * (2 * (M * D)) = 2 * (c.toNat * M * D) := by simp only [Nat.mul_assoc, Nat.mul_left_comm]
    have x8 : c.toNat * (2 * (w * one) + D * E) = 2 * (c.toNat * w * one) + c.toNat * (D * E) := by rw [Nat.mul_add]; simp only [Nat.mul_assoc, Nat.mul_left_comm]
    have x9 : D * (256 * (2 * E)) = 512 * (D * E) := by rw [← Nat.mul_assoc 256, Nat.mul_left_comm]
    rw [x1, x2] at r1
    rw [x7, x8] at r2
    rw [x3, x4] at q2
    rw [x5, x6] at q3
    rw [x9]
    generalize c.toNat * w * one = A at *
    generalize c.toNat * M * D = B at *
    generalize c.toNat * (D * E) = F at *
    generalize D * E = G at *
    generalize p * D = P at *
    omega

/-- The float is within 2^-42 of `(x r + y g + z b) / D`. -/
def Weighted (x y z D : Nat) (r g b : BitVec 8) (w : BitVec 64) : Prop :=
  isFinite w = true ∧ (val w * D - ((x * r.toNat + y * g.toNat + z * b.toNat : Nat) : Int) * 2 ^ 1074).natAbs ≤ D * 2 ^ 1032

private theorem weighted (R : Rest) (r g b a : BitVec 8) {x y z : BitVec 64} {X Y Z wx wy wz D : Nat} (hx : Is x X) (hy : Is y Y) (hz : Is z Z)
    (hs : X + Y + Z ≤ one + 2 ^ 1022) (hX : X ≤ one) (hY : Y ≤ one) (hZ : Z ≤ one)
    (x1 : 2 * (wx * one) ≤ 2 * (X * D) + D * 2 ^ 1021) (x2 : 2 * (X * D) ≤ 2 * (wx * one) + D * 2 ^ 1021)
    (y1 : 2 * (wy * one) ≤ 2 * (Y * D) + D * 2 ^ 1021) (y2 : 2 * (Y * D) ≤ 2 * (wy * one) + D * 2 ^ 1021)
    (z1 : 2 * (wz * one) ≤ 2 * (Z * D) + D * 2 ^ 1021) (z2 : 2 * (Z * D) ≤ 2 * (wz * one) + D * 2 ^ 1021) :
    Weighted wx wy wz D r g b (weigh (ops R) x y z (r, g, b, a)) ∧ isNeg (weigh (ops R) x y z (r, g, b, a)) = false := by
  have hr := r.isLt
  have hg := g.isLt
  have hb := b.isLt
  obtain ⟨p, p1, p2, p3, p4⟩ := is_weight R r hx hX x1 x2
  obtain ⟨q, q1, q2, q3, q4⟩ := is_weight R g hy hY y1 y2
  obtain ⟨s, s1, s2, s3, s4⟩ := is_weight R b hz hZ z1 z2
  have ho := one_eq
  have e82 : (2 : Nat) ^ 1082 = 256 * one := by decide +kernel
  have e29 : (2 : Nat) ^ (1082 - 53) = 128 * 2 ^ 1022 := by decide +kernel
  have hE : 0 < 2 ^ 1022 := Nat.pow_pos (by decide)
  have b1 : r.toNat * X ≤ 255 * X := Nat.mul_le_mul_right _ (by omega)
  have b2 : g.toNat * Y ≤ 255 * Y := Nat.mul_le_mul_right _ (by omega)
  have b3 : b.toNat * Z ≤ 255 * Z := Nat.mul_le_mul_right _ (by omega)
  have hpq : p + q < 2 ^ 1082 := by
    rw [e82]
    generalize (2 : Nat) ^ 1022 = E at *
    generalize one = o at *
    omega
  obtain ⟨v, v1, v2, v3⟩ := is_add p1 q1 (by decide) (by decide) hpq
  rw [e29] at v2 v3
  have hvs : v + s < 2 ^ 1082 := by
    rw [e82]
    generalize (2 : Nat) ^ 1022 = E at *
    generalize one = o at *
    omega
  obtain ⟨m, m1, m2, m3⟩ := is_add v1 s1 (by decide) (by decide) hvs
  rw [e29] at m2 m3
  refine ⟨⟨m1.finite, ?_⟩, m1.pos⟩
  have hv : val (weigh (ops R) x y z (r, g, b, a)) = (m : Nat) := m1.val
  rw [hv]
  have e32 : (2 : Nat) ^ 1032 = 1024 * 2 ^ 1022 := by decide +kernel
  rw [e32, show (2 : Int) ^ 1074 = (one : Nat) from rfl, ← Int.natCast_mul, ← Int.natCast_mul]
  have k1 : 2 * (m * D) ≤ 2 * ((p + q + s) * D) + D * (256 * 2 ^ 1022) := by
    have := Nat.mul_le_mul_right D (show 2 * m ≤ 2 * (p + q + s) + 256 * 2 ^ 1022 by generalize (2 : Nat) ^ 1022 = E at *; omega)
    rw [Nat.add_mul, Nat.mul_assoc, Nat.mul_assoc 2, Nat.mul_comm (256 * 2 ^ 1022)] at this
    exact this
  have k2 : 2 * ((p + q + s) * D) ≤ 2 * (m * D) + D * (256 * 2 ^ 1022) := by
    have := Nat.mul_le_mul_right D (show 2 * (p + q + s) ≤ 2 * m + 256 * 2 ^ 1022 by generalize (2 : Nat) ^ 1022 = E at *; omega)
    rw [Nat.add_mul, Nat.mul_assoc, Nat.mul_assoc 2, Nat.mul_comm (256 * 2 ^ 1022)] at this
    exact this
  have k3 : D * (1024 * 2 ^ 1022) = 4 * (D * (256 * 2 ^ 1022)) := by rw [show (1024 : Nat) * 2 ^ 1022 = 4 * (256 * 2 ^ 1022) by rw [← Nat.mul_assoc], Nat.mul_left_comm]
  have k4 : (p + q + s) * D = p * D + q * D + s * D := by rw [Nat.add_mul, Nat.add_mul]
  have k5 : (wx * r.toNat + wy * g.toNat + wz * b.toNat) * one = r.toNat * wx * one + g.toNat * wy * one + b.toNat * wz * one := by
    rw [Nat.add_mul, Nat.add_mul, Nat.mul_comm wx, Nat.mul_comm wy, Nat.mul_comm wz]
  rw [k3, k5]
  rw [k4] at k1 k2
  clear hpq hvs e82 e32 e29 ho hs x1 x2 y1 y2 z1 z2 hE p4 q4 s4 v2 v3 m2 m3 k3 k4 k5 hX hY hZ b1 b2 b3 hv
  generalize D * (256 * 2 ^ 1022) = G at *
  generalize r.toNat * wx * one = A at *
  generalize g.toNat * wy * one = B at *
  generalize b.toNat * wz * one = F at *
  generalize p * D = P at *
  generalize q * D = Q at *
  generalize s * D = S at *
  generalize m * D = M at *
  omega

private theorem grey (R : Rest) (r g b a : BitVec 8) : Weighted 299 587 114 1000 r g b (weigh (ops R) f0_299 f0_587 f0_114 (r, g, b, a)) ∧ isNeg (weigh (ops R) f0_299 f0_587 f0_114 (r, g, b, a)) = false :=
  weighted R r g b a ⟨by decide, by decide, rfl⟩ ⟨by decide, by decide, rfl⟩ ⟨by decide, by decide, rfl⟩ (by decide +kernel) (by decide +kernel) (by decide +kernel) (by decide +kernel)
    (by decide +kernel) (by decide +kernel) (by decide +kernel) (by decide +kernel) (by decide +kernel) (by decide +kernel)

/-! ## Exact sums -/

private theorem is_add_exact {x y : BitVec 64} {m n s : Nat} (hx : Is x (m * 2 ^ s)) (hy : Is y (n * 2 ^ s)) (h : m + n ≤ 2 ^ 53) (hs : s < 1990) : Is (add x y) ((m + n) * 2 ^ s) := by
  obtain ⟨b, h1, h2⟩ := rep (m + n) s h
  have hb : b < infBits := by unfold infBits; omega
  have hv : val x + val y = (((m + n) * 2 ^ s : Nat) : Int) := by rw [hx.val, hy.val, Nat.add_mul]; omega
  unfold add
  rw [finite_not_nan hx.finite, finite_not_nan hy.finite, finite_not_inf hx.finite, finite_not_inf hy.finite, hx.pos, hy.pos, hv]
  simp only [Bool.or_self, Bool.false_eq_true, if_false, Bool.and_self]
  split
  · rename_i h0
    rw [show mk false 0 = 0 by decide, show (m + n) * 2 ^ s = 0 by exact_mod_cast h0]
    exact is_zero
  · rw [show decide ((((m + n) * 2 ^ s : Nat) : Int) < 0) = false from decide_eq_false (by omega), Int.natAbs_natCast, round_exact _ (by decide) hb (by rw [h1, Nat.mul_one])]
    have hlt := Nat.lt_trans hb infBits_lt
    exact ⟨by rw [isFinite_iff, bits_mk _ hlt]; exact hb, isNeg_mk _ hlt, by rw [bits_mk _ hlt, h1]⟩

private theorem is_abs_sub {x y : BitVec 64} {m n s : Nat} (hx : Is x (m * 2 ^ s)) (hy : Is y (n * 2 ^ s)) (hm : m ≤ 2 ^ 53) (hn : n ≤ 2 ^ 53) (hs : s < 1990) :
    Is (Ieee.abs (sub x y)) (((m : Int) - n).natAbs * 2 ^ s) := by
  obtain ⟨b, h1, h2⟩ := rep ((m : Int) - n).natAbs s (by omega)
  have hb : b < infBits := by unfold infBits; omega
  have hlt := Nat.lt_trans hb infBits_lt
  have hv : val x + val (neg y) = ((m : Int) - n) * (2 ^ s : Nat) := by rw [val_neg, hx.val, hy.val, Int.sub_mul]; simp; omega
  have ha : ((m : Int) - n) * (2 ^ s : Nat) = 0 ↔ (m : Int) - n = 0 := by
    rw [Int.mul_eq_zero]
    have := two_pos s
    constructor
    · rintro (h | h)
      · exact h
      · omega
    · exact Or.inl
  have e : Ieee.abs (sub x y) = mk false b := by
    unfold sub add
    rw [finite_not_nan hy.finite, if_neg (by simp), isNaN_neg, finite_not_nan hy.finite, finite_not_nan hx.finite, isInf_neg, finite_not_inf hy.finite, finite_not_inf hx.finite, hv, hx.pos]
    simp only [Bool.or_self, Bool.false_eq_true, if_false, Bool.false_and]
    split
    · rename_i h0
      rw [ha] at h0
      rw [h0] at h1
      have : b = 0 := by rw [← mag_eq_zero, h1]; simp
      rw [this]
      decide
    · rw [Int.natAbs_mul, Int.natAbs_natCast, round_exact _ (by decide) hb (by rw [h1, Nat.mul_one])]
      unfold Ieee.abs
      rw [bits_mk _ hlt]
  rw [e]
  exact ⟨by rw [isFinite_iff, bits_mk _ hlt]; exact hb, isNeg_mk _ hlt, by rw [bits_mk _ hlt, h1]⟩

private theorem is_half (R : Rest) (c : BitVec 8) : Is (Ieee.abs (sub (ofU8 (ops R) c) fhalf)) (((2 * c.toNat : Int) - 1).natAbs * 2 ^ 1073) := by
  have h1 := is_channel R c
  rw [show c.toNat * one = 2 * c.toNat * 2 ^ 1073 by rw [show one = 2 * 2 ^ 1073 by decide +kernel, Nat.mul_comm 2 c.toNat, Nat.mul_assoc]] at h1
  have h2 : Is fhalf (1 * 2 ^ 1073) := ⟨by decide, by decide, by decide +kernel⟩
  have hc := c.isLt
  have := is_abs_sub h1 h2 (by omega) (by decide) (by decide)
  rwa [Int.natCast_mul] at this

private theorem is_spread (R : Rest) (r g b a : BitVec 8) :
    Is (spread (ops R) (r, g, b, a)) ((((2 * r.toNat : Int) - 1).natAbs + ((2 * g.toNat : Int) - 1).natAbs + ((2 * b.toNat : Int) - 1).natAbs) * 2 ^ 1073) := by
  have hr := r.isLt
  have hg := g.isLt
  have hb := b.isLt
  exact is_add_exact (is_add_exact (is_half R r) (is_half R g) (by omega) (by decide)) (is_half R b) (by omega) (by decide)

private theorem mixed_eq {a b c : BitVec 8} {u k : Nat} (h : Mixed a b u c) (e : a.toNat * (2 ^ 1074 - u) + b.toNat * u = k * 2 ^ 1074) : c.toNat = k := by
  unfold Mixed at h
  rw [e, show (2 : Nat) ^ 1032 = 1024 * 2 ^ 1022 by decide +kernel, show (2 : Nat) ^ 1074 = one from rfl] at h
  have ho := one_eq
  have hE : 0 < 2 ^ 1022 := Nat.pow_pos (by decide)
  generalize (2 : Nat) ^ 1022 = E at *
  rcases Nat.lt_trichotomy c.toNat k with l | l | l
  · have := Nat.mul_le_mul_right one (Nat.succ_le_of_lt l)
    rw [Nat.succ_mul] at this
    omega
  · exact l
  · have := Nat.mul_le_mul_right one (Nat.succ_le_of_lt l)
    rw [Nat.succ_mul] at this
    omega

private theorem mixed_start {a b c : BitVec 8} (h : Mixed a b 0 c) : c = a :=
  BitVec.eq_of_toNat_eq (mixed_eq h (by simp))

private theorem mixed_finish {a b c : BitVec 8} (h : Mixed a b (2 ^ 1074) c) : c = b :=
  BitVec.eq_of_toNat_eq (mixed_eq h (by simp))

private theorem mixed_same {a c : BitVec 8} {u : Nat} (h : Mixed a a u c) (hu : u ≤ 2 ^ 1074) : c = a :=
  BitVec.eq_of_toNat_eq (mixed_eq h (by rw [← Nat.mul_add, Nat.sub_add_cancel hu]))

private theorem mixed_between {a b c : BitVec 8} {u : Nat} (h : Mixed a b u c) (hu : u ≤ 2 ^ 1074) : Nat.min a.toNat b.toNat ≤ c.toNat ∧ c.toNat ≤ Nat.max a.toNat b.toNat := by
  unfold Mixed at h
  rw [show (2 : Nat) ^ 1032 = 1024 * 2 ^ 1022 by decide +kernel, show (2 : Nat) ^ 1074 = one from rfl] at h
  have ho := one_eq
  have hE : 0 < 2 ^ 1022 := Nat.pow_pos (by decide)
  change u ≤ one at hu
  have l1 : Nat.min a.toNat b.toNat * one ≤ a.toNat * (one - u) + b.toNat * u := by
    have x1 := Nat.mul_le_mul_right (one - u) (Nat.min_le_left a.toNat b.toNat)
    have x2 := Nat.mul_le_mul_right u (Nat.min_le_right a.toNat b.toNat)
    have x3 : Nat.min a.toNat b.toNat * one = Nat.min a.toNat b.toNat * (one - u) + Nat.min a.toNat b.toNat * u := by rw [← Nat.mul_add, Nat.sub_add_cancel hu]
    rw [x3]
    exact Nat.add_le_add x1 x2
  have l2 : a.toNat * (one - u) + b.toNat * u ≤ Nat.max a.toNat b.toNat * one := by
    have x1 := Nat.mul_le_mul_right (one - u) (Nat.le_max_left a.toNat b.toNat)
    have x2 := Nat.mul_le_mul_right u (Nat.le_max_right a.toNat b.toNat)
    have x3 : Nat.max a.toNat b.toNat * one = Nat.max a.toNat b.toNat * (one - u) + Nat.max a.toNat b.toNat * u := by rw [← Nat.mul_add, Nat.sub_add_cancel hu]
    rw [x3]
    exact Nat.add_le_add x1 x2
  generalize a.toNat * (one - u) + b.toNat * u = X at *
  generalize Nat.min a.toNat b.toNat = lo at *
  generalize Nat.max a.toNat b.toNat = hi at *
  generalize (2 : Nat) ^ 1022 = E at *
  constructor
  · refine Nat.le_of_not_lt fun l => ?_
    have := Nat.mul_le_mul_right one (Nat.succ_le_of_lt l)
    rw [Nat.succ_mul] at this
    omega
  · refine Nat.le_of_not_lt fun l => ?_
    have := Nat.mul_le_mul_right one (Nat.succ_le_of_lt l)
    rw [Nat.succ_mul] at this
    omega

/-! ## The colour wheel -/

private theorem nearest_scale {n : Int} {d k : Nat} {r : BitVec 64} (hk : 0 < k) (h : Nearest (n * k) (d * k) r) : Nearest n d r := by
  have e : ∀ v : Int, (v * ((d * k : Nat) : Int) - n * k).natAbs = (v * d - n).natAbs * k := by
    intro v
    rw [Int.natCast_mul, ← Int.mul_assoc, ← Int.sub_mul, Int.natAbs_mul, Int.natAbs_natCast]
  refine ⟨h.finite, fun g hg => ?_, fun g hg hne heq => ?_⟩
  · have := h.near g hg
    rw [e, e] at this
    exact Nat.le_of_mul_le_mul_right this hk
  · exact h.even g hg hne (by rw [e, e, heq])

private structure Small (k : Nat) (x : BitVec 64) : Prop where
  finite : isFinite x = true
  le : mag (bits x) ≤ 2 ^ k

private theorem small_round {s : Bool} {n d k : Nat} (hd : 0 < d) (hk : k < 2000) (h : n ≤ 2 ^ k * d) : Small k (round s n d) := by
  obtain ⟨b, hb1, hb2⟩ := rep 1 k (by decide)
  rw [Nat.one_mul] at hb1
  have hle := roundMag_le (b := b) hd (by rw [hb1]; exact h)
  have hfin : roundMag n d < infBits := Nat.lt_of_le_of_lt hle (by unfold infBits; omega)
  refine ⟨round_finite.2 hfin, ?_⟩
  rw [bits_round_finite hfin, ← hb1]
  exact mag_le_iff.2 hle

private theorem small_add {x y : BitVec 64} {k : Nat} (hx : Small k x) (hy : Small k y) (hk : k < 1999) : Small (k + 1) (add x y) := by
  unfold add
  rw [finite_not_nan hx.finite, finite_not_nan hy.finite, finite_not_inf hx.finite, finite_not_inf hy.finite]
  simp only [Bool.or_self, Bool.false_eq_true, if_false]
  split
  · have e : ∀ b : Bool, Small (k + 1) (mk b 0) := fun b => ⟨by cases b <;> decide, by rw [bits_mk _ (by decide)]; exact Nat.zero_le _⟩
    exact e _
  · refine small_round (by decide) (by omega) ?_
    have h1 := hx.le
    have h2 := hy.le
    rw [← val_natAbs] at h1 h2
    rw [Nat.pow_succ]
    omega

private theorem small_neg {x : BitVec 64} {k : Nat} (hx : Small k x) : Small k (neg x) := ⟨by rw [isFinite_neg]; exact hx.finite, by rw [bits_neg]; exact hx.le⟩

private theorem small_sub {x y : BitVec 64} {k : Nat} (hx : Small k x) (hy : Small k y) (hk : k < 1999) : Small (k + 1) (sub x y) := by
  unfold sub
  rw [finite_not_nan hy.finite, if_neg (by simp)]
  exact small_add hx (small_neg hy) hk

private theorem bits_abs (x : BitVec 64) : bits (Ieee.abs x) = bits x := bits_mk _ (bits_lt x)

private theorem small_abs {x : BitVec 64} {k : Nat} (hx : Small k x) : Small k (Ieee.abs x) := ⟨by rw [isFinite_iff, bits_abs]; exact isFinite_iff.1 hx.finite, by rw [bits_abs]; exact hx.le⟩

private theorem small_mono {x : BitVec 64} {k j : Nat} (hx : Small k x) (h : k ≤ j) : Small j x := ⟨hx.finite, Nat.le_trans hx.le (Nat.pow_le_pow_right (by decide) h)⟩

private theorem small_mul {x y : BitVec 64} {i j : Nat} (hx : Small (1074 + i) x) (hy : Small (1074 + j) y) (hk : i + j < 900) : Small (1074 + (i + j)) (mul x y) := by
  unfold mul
  rw [finite_not_nan hx.finite, finite_not_nan hy.finite, finite_not_inf hx.finite, finite_not_inf hy.finite]
  refine small_round one_pos (by omega) ?_
  have := Nat.mul_le_mul hx.le hy.le
  rw [← Nat.pow_add] at this
  rw [show one = 2 ^ 1074 from rfl, ← Nat.pow_add]
  rwa [show 1074 + (i + j) + 1074 = 1074 + i + (1074 + j) by omega]

private theorem zero_mul {x y : BitVec 64} (hx : isFinite x = true) (hy : isFinite y = true) (h : bits x = 0 ∨ bits y = 0) : bits (mul x y) = 0 := by
  unfold mul
  rw [finite_not_nan hx, finite_not_nan hy, finite_not_inf hx, finite_not_inf hy]
  have e : mag (bits x) * mag (bits y) = 0 := by
    rcases h with h | h <;> simp [h, mag_zero]
  show bits (round _ _ _) = 0
  rw [e, bits_round, roundMag_zero _ one_pos]
  decide

private theorem zero_finite {x : BitVec 64} (h : bits x = 0) : isFinite x = true := by rw [isFinite_iff, h]; decide

private theorem add_zero {z l : BitVec 64} (hz : bits z = 0) (hl : isFinite l = true) : isFinite (add z l) = true ∧ val (add z l) = val l := by
  have hzf := zero_finite hz
  have hv : val z = 0 := val_eq_zero.2 hz
  unfold add
  rw [finite_not_nan hl, finite_not_nan hzf, finite_not_inf hl, finite_not_inf hzf, hv, Int.zero_add]
  simp only [Bool.or_self, Bool.false_eq_true, if_false]
  split
  · rename_i h0
    have e : ∀ b : Bool, isFinite (mk b 0) = true ∧ val (mk b 0) = 0 := fun b => ⟨by cases b <;> decide, by rw [val_eq_zero, bits_mk _ (by decide)]⟩
    rw [h0]
    exact e _
  · rename_i h0
    have hs : decide (val l < 0) = isNeg l := by
      cases hn : isNeg l with
      | true => rw [val_def, hn] at *; simp only [signed, if_true] at *; simp; omega
      | false => rw [val_def, hn] at *; simp only [signed, if_false, Bool.false_eq_true] at *; simp
    rw [hs, val_natAbs, round_self l hl]
    exact ⟨hl, rfl⟩

private theorem sub_zero {z l : BitVec 64} (hz : bits z = 0) (hl : isFinite l = true) : isFinite (sub l z) = true ∧ val (sub l z) = val l := by
  have hz' : bits (neg z) = 0 := by rw [bits_neg]; exact hz
  have hzf := zero_finite hz'
  have hv : val (neg z) = 0 := val_eq_zero.2 hz'
  unfold sub add
  rw [finite_not_nan (zero_finite hz), if_neg (by simp), finite_not_nan hl, finite_not_nan hzf, finite_not_inf hl, finite_not_inf hzf, hv, Int.add_zero]
  simp only [Bool.or_self, Bool.false_eq_true, if_false]
  split
  · rename_i h0
    have e : ∀ b : Bool, isFinite (mk b 0) = true ∧ val (mk b 0) = 0 := fun b => ⟨by cases b <;> decide, by rw [val_eq_zero, bits_mk _ (by decide)]⟩
    rw [h0]
    exact e _
  · rename_i h0
    have hs : decide (val l < 0) = isNeg l := by
      cases hn : isNeg l with
      | true => rw [val_def, hn] at *; simp only [signed, if_true] at *; simp; omega
      | false => rw [val_def, hn] at *; simp only [signed, if_false, Bool.false_eq_true] at *; simp
    rw [hs, val_natAbs, round_self l hl]
    exact ⟨hl, rfl⟩

/-- The channel `c` is within 1/2 + 2^-42 of 255 times a value between 0 and 1. -/
def Level (x : Int) (c : BitVec 8) : Prop := 2 * ((c.toNat : Int) * 2 ^ 1074 - 255 * x).natAbs ≤ 2 ^ 1074 + 2 ^ 1032

private theorem is_255 : Is f255 (255 * one) := ⟨by decide, by decide, by decide +kernel⟩

theorem level_of (R : Rest) {x : BitVec 64} {u : Nat} (h : Is x u) (hu : u ≤ one) : Level u (roundU8 (ops R) (mul x f255)) := by
  have hlt : u * (255 * one) < 2 ^ 1082 * one := by
    rw [← Nat.mul_assoc]
    refine Nat.mul_lt_mul_of_pos_right (Nat.lt_of_le_of_lt (Nat.mul_le_mul_right 255 hu) ?_) one_pos
    decide +kernel
  obtain ⟨p, p1, p2, p3⟩ := is_mul h is_255 (by decide) (by decide) hlt
  have q2 : 2 * (255 * u) ≤ 2 * p + 2 ^ 1029 := by
    refine Nat.le_of_mul_le_mul_right (c := one) ?_ one_pos
    rw [Nat.add_mul, Nat.mul_assoc, Nat.mul_assoc 2 p, Nat.mul_comm 255 u, Nat.mul_assoc]
    exact p2
  have q3 : 2 * p ≤ 2 * (255 * u) + 2 ^ 1029 := by
    refine Nat.le_of_mul_le_mul_right (c := one) ?_ one_pos
    rw [Nat.add_mul, Nat.mul_assoc, Nat.mul_assoc 2 (255 * u), Nat.mul_comm 255 u, Nat.mul_assoc u]
    exact p3
  have e29 : (2 : Nat) ^ 1029 = 128 * 2 ^ 1022 := by decide +kernel
  have e32 : (2 : Nat) ^ 1032 = 1024 * 2 ^ 1022 := by decide +kernel
  have ho := one_eq
  have hE : 0 < 2 ^ 1022 := Nat.pow_pos (by decide)
  rw [e29] at q2 q3
  clear p2 p3 hlt e29
  obtain ⟨r1, r2⟩ := is_roundU8 R p1 (by generalize (2 : Nat) ^ 1022 = E at *; omega)
  unfold Level
  rw [e32, show (2 : Nat) ^ 1074 = one from rfl, show (2 : Int) ^ 1074 = (one : Nat) from rfl, ← Int.natCast_mul]
  generalize (roundU8 (ops R) (mul x f255)).toNat * one = z at *
  generalize (2 : Nat) ^ 1022 = E at *
  omega

private theorem is_unique {x y : BitVec 64} {m : Nat} (hx : Is x m) (hy : Is y m) : x = y :=
  eq_of_parts (hx.pos.trans hy.pos.symm) (mag_inj (hx.mag.trans hy.mag.symm))

private theorem unit_of (R : Rest) {x : BitVec 64} (hx : isFinite x = true) (h0 : 0 ≤ val x) (h1 : val x ≤ 2 ^ 1074) : Is (Lib.unit (ops R) x) (val x).toNat := by
  obtain ⟨u, hu, hs⟩ := share R x
  have := hs.mid (finite_not_nan hx) h0 h1
  rw [← this, Int.toNat_natCast]
  exact hu

/-- Without colour, all channels are the same. -/
private theorem wheel_grey (R : Rest) {h c m a : BitVec 64} (hh : isFinite h = true) (hc : bits c = 0) (hm : isFinite m = true) (h0 : 0 ≤ val m) (h1 : val m ≤ 2 ^ 1074) :
    ∃ x, Level (val m) x ∧ wheel (C := C) (ops R) h c m a = .color x x x (roundU8 (ops R) (mul a f255)) := by
  have lev : ∀ z, bits z = 0 → level (ops R) z m = roundU8 (ops R) (mul (Lib.unit (ops R) m) f255) := by
    intro z hz
    obtain ⟨z1, z2⟩ := add_zero hz hm
    show roundU8 (ops R) (mul (Lib.unit (ops R) (add z m)) f255) = _
    have := unit_of R z1 (by rw [z2]; exact h0) (by rw [z2]; exact h1)
    rw [z2] at this
    rw [is_unique this (unit_of R hm h0 h1)]
  have hu := unit_of R hm h0 h1
  refine ⟨roundU8 (ops R) (mul (Lib.unit (ops R) m) f255), ?_, ?_⟩
  · have := level_of R hu (by rw [Int.toNat_le]; exact h1)
    rwa [Int.toNat_of_nonneg h0] at this
  · have hd : isFinite (div h f60) = true := by
      unfold div
      rw [finite_not_nan hh, finite_not_inf hh]
      have e : mag (bits f60) = 60 * one := by decide +kernel
      show isFinite (round _ (mag (bits h) * one) (mag (bits f60))) = true
      refine round_finite_of_le (b := bits h) (by rw [e]; have := one_pos; omega) (isFinite_iff.1 hh) (Nat.mul_le_mul_left _ (by rw [e]; omega))
    have hr : Small 1075 (rem (div h f60) f2) := by
      unfold rem
      rw [finite_not_nan hd, finite_not_inf hd]
      have e : mag (bits f2) = 2 ^ 1075 := by decide +kernel
      show Small 1075 (round _ (mag (bits (div h f60)) % mag (bits f2)) 1)
      refine small_round (by decide) (by decide) ?_
      rw [e, Nat.mul_one]
      exact Nat.le_of_lt (Nat.mod_lt _ (two_pos _))
    have hx : bits (second (ops R) (div h f60) c) = 0 := by
      have s1 : Small 1075 f1 := ⟨by decide, by decide +kernel⟩
      have s2 := small_sub (small_mono s1 (by decide)) (small_abs (small_sub hr s1 (by decide))) (by decide)
      exact zero_mul (zero_finite hc) s2.finite (.inl hc)
    have hz : bits (0 : BitVec 64) = 0 := by decide
    have hw : wheel (C := C) (ops R) h c m a =
        .color (level (ops R) (sector (ops R) (div h f60) c (second (ops R) (div h f60) c)).1 m) (level (ops R) (sector (ops R) (div h f60) c (second (ops R) (div h f60) c)).2.1 m)
          (level (ops R) (sector (ops R) (div h f60) c (second (ops R) (div h f60) c)).2.2 m) (roundU8 (ops R) (mul a f255)) := rfl
    rw [hw]
    generalize second (ops R) (div h f60) c = x at *
    have : bits (sector (ops R) (div h f60) c x).1 = 0 ∧ bits (sector (ops R) (div h f60) c x).2.1 = 0 ∧ bits (sector (ops R) (div h f60) c x).2.2 = 0 := by
      unfold sector
      split
      · exact ⟨hc, hx, hz⟩
      split
      · exact ⟨hx, hc, hz⟩
      split
      · exact ⟨hz, hc, hx⟩
      split
      · exact ⟨hz, hx, hc⟩
      split
      · exact ⟨hx, hz, hc⟩
      · exact ⟨hc, hz, hx⟩
    rw [lev _ this.1, lev _ this.2.1, lev _ this.2.2]

private theorem zero_div {c : BitVec 64} (hc : bits c = 0) : bits (div c f2) = 0 := by
  have hf := zero_finite hc
  unfold div
  rw [finite_not_nan hf, finite_not_inf hf, hc]
  show bits (round _ (mag 0 * one) (mag (bits f2))) = 0
  rw [mag_zero, Nat.zero_mul, bits_round, roundMag_zero _ (by decide +kernel)]
  decide

private theorem small_of_val {x : BitVec 64} (hx : isFinite x = true) (h0 : 0 ≤ val x) (h1 : val x ≤ 2 ^ 1074) : Small 1074 x := by
  refine ⟨hx, ?_⟩
  rw [← val_natAbs]
  have : ((val x).natAbs : Int) = val x := by omega
  exact_mod_cast this ▸ h1

theorem roundU8_eq (R : Rest) (x : BitVec 64) : roundU8 (ops R) x = BitVec.ofInt 8 (toRange 0 255 (roundHalf x)) := rfl

theorem opaque_one (R : Rest) : roundU8 (ops R) (mul f1 f255) = 255 := by
  have h : toRange 0 255 (roundHalf (mul f1 f255)) = 255 := by decide +kernel
  rw [roundU8_eq, h]
  rfl

private theorem level_zero {c : BitVec 8} (h : Level 0 c) : c = 0 := by
  unfold Level at h
  rw [show (2 : Nat) ^ 1032 = 1024 * 2 ^ 1022 by decide +kernel, show (2 : Nat) ^ 1074 = one from rfl, show (2 : Int) ^ 1074 = (one : Nat) from rfl, ← Int.natCast_mul, Int.mul_zero, Int.sub_zero, Int.natAbs_natCast] at h
  have ho := one_eq
  have hE : 0 < 2 ^ 1022 := Nat.pow_pos (by decide)
  refine BitVec.eq_of_toNat_eq (Nat.eq_zero_of_not_pos fun hp => ?_)
  have := Nat.mul_le_mul_right one (Nat.succ_le_of_lt hp)
  generalize (2 : Nat) ^ 1022 = E at *
  omega

private theorem level_one {c : BitVec 8} (h : Level (2 ^ 1074) c) : c = 255 := by
  unfold Level at h
  rw [show (2 : Nat) ^ 1032 = 1024 * 2 ^ 1022 by decide +kernel, show (2 : Nat) ^ 1074 = one from rfl, show (2 : Int) ^ 1074 = (one : Nat) from rfl, ← Int.natCast_mul] at h
  have ho := one_eq
  have hE : 0 < 2 ^ 1022 := Nat.pow_pos (by decide)
  have hc := c.isLt
  refine BitVec.eq_of_toNat_eq (Nat.le_antisymm (Nat.le_of_lt_succ hc) (Nat.le_of_not_lt fun hp => ?_))
  have := Nat.mul_le_mul_right one (Nat.succ_le_of_lt hp)
  rw [Nat.succ_mul] at this
  generalize (2 : Nat) ^ 1022 = E at *
  change c.toNat * one + one ≤ 255 * one at this
  omega

private theorem hsl_grey (R : Rest) {h l c s a : BitVec 64} (e : c = mul (sub f1 (Ieee.abs (sub (mul f2 l) f1))) s) (hh : isFinite h = true) (hl : isFinite l = true) (h0 : 0 ≤ val l) (h1 : val l ≤ 2 ^ 1074)
    (hc : bits c = 0) : ∃ x, Level (val l) x ∧ hslaToRgba (C := C) (ops R) h s l a = .color x x x (roundU8 (ops R) (mul a f255)) := by
  obtain ⟨m1, m2⟩ := sub_zero (zero_div hc) hl
  have := wheel_grey (C := C) (a := a) R hh hc m1 (by rw [m2]; exact h0) (by rw [m2]; exact h1)
  rw [m2, e] at this
  exact this

private theorem hsv_grey (R : Rest) {h v c s a : BitVec 64} (e : c = mul v s) (hh : isFinite h = true) (hl : isFinite v = true) (h0 : 0 ≤ val v) (h1 : val v ≤ 2 ^ 1074)
    (hc : bits c = 0) : ∃ x, Level (val v) x ∧ hsvaToRgba (C := C) (ops R) h s v a = .color x x x (roundU8 (ops R) (mul a f255)) := by
  obtain ⟨m1, m2⟩ := sub_zero hc hl
  have := wheel_grey (C := C) (a := a) R hh hc m1 (by rw [m2]; exact h0) (by rw [m2]; exact h1)
  rw [m2, e] at this
  exact this

section
variable (R : Rest) (chk : Bool) (cname : C → String) (lim : Limits) (t : BitVec 64)

/-- `@mix(c, d, t)`: every channel, also of the opacity, is the weighted mean of the two, up to rounding. -/
theorem C62_mix (r g b a r' g' b' a' : BitVec 8) : ∃ u r₁ g₁ b₁ a₁, Share t u ∧
    callStd (ops R) chk cname lim "mix" [.color r g b a, .color r' g' b' a', .float t] = some (.ok (.color r₁ g₁ b₁ a₁)) ∧
    Mixed r r' u r₁ ∧ Mixed g g' u g₁ ∧ Mixed b b' u b₁ ∧ Mixed a a' u a₁ := by
  obtain ⟨u, hu, hs⟩ := share R t
  exact ⟨u, _, _, _, _, hs, rfl, blend hs.le hu (is_channel R r'), blend hs.le hu (is_channel R g'), blend hs.le hu (is_channel R b'), blend hs.le hu (is_channel R a')⟩

/-- What `Mixed` says of a channel: it is never outside the two, and the ends are exact. -/
theorem C62_mixed {a b c : BitVec 8} {u : Nat} (h : Mixed a b u c) (hs : Share t u) :
    (Nat.min a.toNat b.toNat ≤ c.toNat ∧ c.toNat ≤ Nat.max a.toNat b.toNat) ∧
    (isNaN t = true ∨ val t ≤ 0 → c = a) ∧ (isNaN t = false → 2 ^ 1074 ≤ val t → c = b) ∧ (a = b → c = a) := by
  refine ⟨mixed_between h hs.le, ?_, ?_, ?_⟩
  · intro hc
    cases hn : isNaN t with
    | true => rw [hs.nan hn] at h; exact mixed_start h
    | false =>
      rw [hs.low hn (hc.resolve_left (by simp [hn]))] at h
      exact mixed_start h
  · intro hn hv
    rw [hs.high hn hv] at h
    exact mixed_finish h
  · rintro rfl
    exact mixed_same h hs.le

/-- `@lighten` mixes with opaque white: the opacity changes too. -/
theorem C62_lighten (r g b a : BitVec 8) : ∃ u r₁ g₁ b₁ a₁, Share t u ∧
    callStd (ops R) chk cname lim "lighten" [.color r g b a, .float t] = some (.ok (.color r₁ g₁ b₁ a₁)) ∧
    Mixed r 255 u r₁ ∧ Mixed g 255 u g₁ ∧ Mixed b 255 u b₁ ∧ Mixed a 255 u a₁ := by
  obtain ⟨u, hu, hs⟩ := share R t
  have h255 : Is f255 ((255 : BitVec 8).toNat * one) := ⟨by decide, by decide, by decide +kernel⟩
  exact ⟨u, _, _, _, _, hs, rfl, blend hs.le hu h255, blend hs.le hu h255, blend hs.le hu h255, blend hs.le hu h255⟩

/-- `@darken` and `@fade` are the same and mix with transparent black. -/
theorem C62_darken (r g b a : BitVec 8) : ∃ u r₁ g₁ b₁ a₁, Share t u ∧
    callStd (ops R) chk cname lim "darken" [.color r g b a, .float t] = some (.ok (.color r₁ g₁ b₁ a₁)) ∧
    callStd (ops R) chk cname lim "fade" [.color r g b a, .float t] = some (.ok (.color r₁ g₁ b₁ a₁)) ∧
    Mixed r 0 u r₁ ∧ Mixed g 0 u g₁ ∧ Mixed b 0 u b₁ ∧ Mixed a 0 u a₁ := by
  obtain ⟨u, hu, hs⟩ := share R t
  exact ⟨u, _, _, _, _, hs, rfl, rfl, dim hs.le hu, dim hs.le hu, dim hs.le hu, dim hs.le hu⟩

/-- `@saturate` and `@desaturate` never change anything. -/
theorem C62_violated_saturate (r g b a : BitVec 8) :
    callStd (ops R) chk cname lim "saturate" [.color r g b a, .float t] = some (.ok (.color r g b a)) ∧
    callStd (ops R) chk cname lim "desaturate" [.color r g b a, .float t] = some (.ok (.color r g b a)) := by
  obtain ⟨u, hu, hs⟩ := share R t
  have e : ∀ c : BitVec 8, roundU8 (ops R) (add (mul (ofU8 (ops R) c) (sub f1 (Lib.unit (ops R) t))) (mul (ofU8 (ops R) c) (Lib.unit (ops R) t))) = c :=
    fun c => mixed_same (blend hs.le hu (is_channel R c)) hs.le
  have : mapColor (C := C) (fun c => roundU8 (ops R) (add (mul (ofU8 (ops R) c) (sub f1 (Lib.unit (ops R) t))) (mul (ofU8 (ops R) c) (Lib.unit (ops R) t)))) (r, g, b, a) = .color r g b a := by
    simp only [mapColor, e]
  exact ⟨congrArg (fun v => some (Res.ok v)) this, congrArg (fun v => some (Res.ok v)) this⟩

/-- `@complement` of every colour is transparent black. -/
theorem C62_violated_complement (r g b a : BitVec 8) :
    callStd (ops R) chk cname lim "complement" [.color r g b a] = some (.ok (.color 0 0 0 0)) := by
  have e : ∀ c : BitVec 8, roundU8 (ops R) (mul (ofU8 (ops R) c) fm1) = 0 := by
    intro c
    have h := is_channel R c
    obtain ⟨b, h1, h2⟩ := rep_int c.toNat (by have := c.isLt; omega)
    have hlt := Nat.lt_trans h2 infBits_lt
    have em : mul (ofU8 (ops R) c) fm1 = mk true b := by
      unfold mul
      rw [finite_not_nan h.finite, finite_not_inf h.finite, h.pos, h.mag]
      show round true (c.toNat * one * mag (bits fm1)) one = _
      exact round_exact _ one_pos h2 (by rw [h1, show mag (bits fm1) = one by decide +kernel])
    have hfin : isFinite (mk true b) = true := by rw [isFinite_iff, bits_mk _ hlt]; exact h2
    have hm : mag (bits (mk true b)) = c.toNat * one := by rw [bits_mk _ hlt, h1]
    have hh : roundHalf (mk true b) = integral (mk true b) c.toNat := by
      unfold roundHalf
      rw [hm]
      congr 1
      have := one_pos
      rw [show 2 * (c.toNat * one) + one = one + c.toNat * (2 * one) by rw [Nat.mul_left_comm]; omega, Nat.add_mul_div_right _ _ (by omega), Nat.div_eq_of_lt (by omega), Nat.zero_add]
    have hint := integral_exact (mk true b) c.toNat hfin (by rw [hm]; have := one_pos; omega) (by rw [hm]; have := one_pos; omega)
    rw [em]
    show BitVec.ofInt 8 (toRange 0 255 (roundHalf (mk true b))) = 0
    unfold toRange
    rw [hh, finite_not_nan hint.1, finite_not_inf hint.1, trunc_integral _ _ hint.2.2, hint.2.1, isNeg_mk _ hlt]
    simp only [Bool.false_eq_true, if_false, signed, if_true]
    rw [show Max.max (0 : Int) (Min.min 255 (-(c.toNat : Int))) = 0 by omega]
    rfl
  have : mapColor (C := C) (fun c => roundU8 (ops R) (mul (ofU8 (ops R) c) fm1)) (r, g, b, a) = .color 0 0 0 0 := by
    simp only [mapColor, e]
  exact congrArg (fun v => some (Res.ok v)) this

/-- `@luma`: the weighted sum of the channels, up to rounding. -/
theorem C62_luma (r g b a : BitVec 8) : ∃ w, callStd (ops R) chk cname lim "luma" [.color r g b a] = some (.ok (.float w)) ∧ Weighted 2126 7152 722 10000 r g b w :=
  ⟨_, rfl, (weighted R r g b a ⟨by decide, by decide, rfl⟩ ⟨by decide, by decide, rfl⟩ ⟨by decide, by decide, rfl⟩ (by decide +kernel) (by decide +kernel) (by decide +kernel) (by decide +kernel)
    (by decide +kernel) (by decide +kernel) (by decide +kernel) (by decide +kernel) (by decide +kernel) (by decide +kernel)).1⟩

/-- `@brightness`, and `@hue` is the same. -/
theorem C62_brightness (r g b a : BitVec 8) : ∃ w, callStd (ops R) chk cname lim "brightness" [.color r g b a] = some (.ok (.float w)) ∧
    callStd (ops R) chk cname lim "hue" [.color r g b a] = some (.ok (.float w)) ∧ Weighted 299 587 114 1000 r g b w :=
  ⟨_, rfl, rfl, (grey R r g b a).1⟩

/-- `@contrast_color`: black for bright colours, white for others, with the opacity kept. -/
theorem C62_contrast_color (r g b a : BitVec 8) :
    (186000 < 299 * r.toNat + 587 * g.toNat + 114 * b.toNat → callStd (ops R) chk cname lim "contrast_color" [.color r g b a] = some (.ok (.color 0 0 0 a))) ∧
    (299 * r.toNat + 587 * g.toNat + 114 * b.toNat < 186000 → callStd (ops R) chk cname lim "contrast_color" [.color r g b a] = some (.ok (.color 255 255 255 a))) := by
  obtain ⟨⟨h1, h2⟩, h3⟩ := grey R r g b a
  have e : callStd (ops R) chk cname lim "contrast_color" [.color r g b a] =
      some (if Ieee.lt f186 (weigh (ops R) f0_299 f0_587 f0_114 (r, g, b, a)) then .ok (.color 0 0 0 a) else .ok (.color 255 255 255 a)) := rfl
  rw [e, lt_val (by decide) (finite_not_nan h1)]
  have hv : val f186 = 186 * 2 ^ 1074 := by decide +kernel
  have hE : (2 : Int) ^ 1074 = 4398046511104 * (2 ^ 1032 : Nat) := by decide +kernel
  have hpos : 0 < (2 : Nat) ^ 1032 := Nat.pow_pos (by decide)
  rw [hv]
  generalize val (weigh (ops R) f0_299 f0_587 f0_114 (r, g, b, a)) = w at *
  generalize 299 * r.toNat + 587 * g.toNat + 114 * b.toNat = n at *
  rw [hE] at *
  generalize (2 : Nat) ^ 1032 = E at *
  constructor
  · intro h
    have : ((186001 : Nat) : Int) * (4398046511104 * (E : Int)) ≤ (n : Int) * (4398046511104 * (E : Int)) := Int.mul_le_mul_of_nonneg_right (by omega) (by omega)
    rw [if_pos (by generalize (n : Int) * (4398046511104 * (E : Int)) = X at *; simp; omega)]
  · intro h
    have : (n : Int) * (4398046511104 * (E : Int)) ≤ ((185999 : Nat) : Int) * (4398046511104 * (E : Int)) := Int.mul_le_mul_of_nonneg_right (by omega) (by omega)
    rw [if_neg (by generalize (n : Int) * (4398046511104 * (E : Int)) = X at *; simp; omega)]

/-- `@contrast`, and `@saturation` is the same: the sum of the distances of the channels from 1/2, exactly. -/
theorem C62_contrast (r g b a : BitVec 8) : ∃ w, callStd (ops R) chk cname lim "contrast" [.color r g b a] = some (.ok (.float w)) ∧
    callStd (ops R) chk cname lim "saturation" [.color r g b a] = some (.ok (.float w)) ∧ isFinite w = true ∧
    val w * 2 = ((((2 * r.toNat : Int) - 1).natAbs + ((2 * g.toNat : Int) - 1).natAbs + ((2 * b.toNat : Int) - 1).natAbs : Nat) : Int) * 2 ^ 1074 := by
  have h := is_spread R r g b a
  refine ⟨_, rfl, rfl, h.finite, ?_⟩
  rw [h.val, Int.natCast_mul, Int.mul_assoc]
  rfl

/-- `@cdifference`: the float nearest to the mean of the differences of the channels; the opacity does not count. -/
theorem C62_cdifference (r g b a r' g' b' a' : BitVec 8) : ∃ w, callStd (ops R) chk cname lim "cdifference" [.color r g b a, .color r' g' b' a'] = some (.ok (.float w)) ∧
    Nearest ((((r.toNat : Int) - r'.toNat).natAbs + ((g.toNat : Int) - g'.toNat).natAbs + ((b.toNat : Int) - b'.toNat).natAbs : Nat) * 2 ^ 1074) 3 w := by
  have hN : ((r.toNat : Int) - r'.toNat).natAbs + ((g.toNat : Int) - g'.toNat).natAbs + ((b.toNat : Int) - b'.toNat).natAbs ≤ 765 := by
    have := r.isLt; have := g.isLt; have := b.isLt; have := r'.isLt; have := g'.isLt; have := b'.isLt
    omega
  have hc : ∀ c d : BitVec 8, Is (Ieee.abs (sub (ofU8 (ops R) c) (ofU8 (ops R) d))) (((c.toNat : Int) - d.toNat).natAbs * 2 ^ 1074) := fun c d =>
    is_abs_sub (is_channel R c) (is_channel R d) (by have := c.isLt; omega) (by have := d.isLt; omega) (by decide)
  have hx := is_add_exact (is_add_exact (hc r r') (hc g g') (by omega) (by decide)) (hc b b') (by omega) (by decide)
  refine ⟨_, rfl, ?_⟩
  generalize ((r.toNat : Int) - r'.toNat).natAbs + ((g.toNat : Int) - g'.toNat).natAbs + ((b.toNat : Int) - b'.toNat).natAbs = N at *
  have h3 : val f3 = (3 * one : Nat) := by decide +kernel
  have hd := div_rounded hx.finite (show isFinite f3 = true by decide) (by rw [h3]; have := one_pos; omega)
  rw [h3, Int.natAbs_natCast, Int.sign_natCast_of_ne_zero (by have := one_pos; omega), Int.mul_one, hx.val] at hd
  refine nearest_scale one_pos (hd.resolve_right fun hl => ?_)
  have hl := hl.large
  have e1 : (((N * 2 ^ 1074 : Nat) : Int) * 2 ^ 1074).natAbs = N * one * one := by
    rw [show (2 : Int) ^ 1074 = (one : Nat) from rfl, ← Int.natCast_mul, Int.natAbs_natCast]
    rfl
  rw [e1] at hl
  have e2 : 2 * (N * one * one) ≤ 2 * (765 * one * one) := Nat.mul_le_mul_left _ (Nat.mul_le_mul_right _ (Nat.mul_le_mul_right _ hN))
  have e3 : 2 * (765 * one * one) < 2 ^ 2098 * (3 * one) := by decide +kernel
  have e4 : 2 ^ 2098 * (3 * one) ≤ (mag (infBits - 1) + 2 ^ 2098) * (3 * one) := Nat.mul_le_mul_right _ (Nat.le_add_left _ _)
  exact absurd (Nat.le_trans e4 (Nat.le_trans hl e2)) (Nat.not_le.2 e3)

/-- `@hsl` and `@hsv` without saturation: a grey of that lightness, whatever the hue. -/
theorem C62_grey (h l : BitVec 64) (hh : isFinite h = true) (hl : isFinite l = true) (h0 : 0 ≤ val l) (h1 : val l ≤ 2 ^ 1074) : ∃ x y, Level (val l) x ∧ Level (val l) y ∧
    callStd (ops R) chk cname lim "hsl" [.float h, .float 0, .float l] = some (.ok (.color x x x 255)) ∧
    callStd (ops R) chk cname lim "hsv" [.float h, .float 0, .float l] = some (.ok (.color y y y 255)) := by
  have hs := small_of_val hl h0 h1
  have hf : isFinite (sub f1 (Ieee.abs (sub (mul f2 l) f1))) = true := by
    have a1 : Small (1074 + (1 + 0)) (mul f2 l) := small_mul ⟨by decide, by decide +kernel⟩ hs (by decide)
    have s1 : Small 1075 f1 := ⟨by decide, by decide +kernel⟩
    exact (small_sub (small_mono s1 (by decide)) (small_abs (small_sub a1 s1 (by decide))) (by decide)).finite
  obtain ⟨x, x1, x2⟩ := hsl_grey (C := C) (s := 0) (a := f1) R rfl hh hl h0 h1 (zero_mul hf (by decide) (.inr (by decide)))
  obtain ⟨y, y1, y2⟩ := hsv_grey (C := C) (s := 0) (a := f1) R rfl hh hl h0 h1 (zero_mul hl (by decide) (.inr (by decide)))
  rw [opaque_one] at x2 y2
  exact ⟨x, y, x1, y1, congrArg (fun v => some (Res.ok v)) x2, congrArg (fun v => some (Res.ok v)) y2⟩

/-- Lightness 0 is black and 1 is white, and value 0 is black, whatever the hue and the saturation. -/
theorem C62_black_white (h s : BitVec 64) (hh : isFinite h = true) (hs : isFinite s = true) :
    callStd (ops R) chk cname lim "hsl" [.float h, .float s, .float 0] = some (.ok (.color 0 0 0 255)) ∧
    callStd (ops R) chk cname lim "hsl" [.float h, .float s, .float f1] = some (.ok (.color 255 255 255 255)) ∧
    callStd (ops R) chk cname lim "hsv" [.float h, .float s, .float 0] = some (.ok (.color 0 0 0 255)) := by
  have p0 : sub f1 (Ieee.abs (sub (mul f2 0) f1)) = 0 := by decide +kernel
  have p1 : sub f1 (Ieee.abs (sub (mul f2 f1) f1)) = 0 := by decide +kernel
  obtain ⟨x, x1, x2⟩ := hsl_grey (C := C) (s := s) (a := f1) (l := 0) R rfl hh (by decide) (by rw [val_zero]; decide) (by rw [val_zero]; decide) (by rw [p0]; exact zero_mul (by decide) hs (.inl (by decide)))
  obtain ⟨y, y1, y2⟩ := hsl_grey (C := C) (s := s) (a := f1) (l := f1) R rfl hh (by decide) (by rw [val_one]; decide) (by rw [val_one]; decide) (by rw [p1]; exact zero_mul (by decide) hs (.inl (by decide)))
  obtain ⟨z, z1, z2⟩ := hsv_grey (C := C) (s := s) (a := f1) (v := 0) R rfl hh (by decide) (by rw [val_zero]; decide) (by rw [val_zero]; decide) (zero_mul (by decide) hs (.inl (by decide)))
  rw [opaque_one] at x2 y2 z2
  rw [val_zero] at x1 z1
  rw [val_one] at y1
  rw [level_zero x1] at x2
  rw [level_one y1] at y2
  rw [level_zero z1] at z2
  exact ⟨congrArg (fun v => some (Res.ok v)) x2, congrArg (fun v => some (Res.ok v)) y2, congrArg (fun v => some (Res.ok v)) z2⟩

/-- The fourth argument of `@hsla` and `@hsva` is the opacity; `@hsl` and `@hsv` are opaque and have the same colours. -/
theorem C62_opacity (h s l a : BitVec 64) (ha : isFinite a = true) (h0 : 0 ≤ val a) (h1 : val a ≤ 2 ^ 1074) : ∃ r g b r' g' b' x, Level (val a) x ∧
    callStd (ops R) chk cname lim "hsla" [.float h, .float s, .float l, .float a] = some (.ok (.color r g b x)) ∧
    callStd (ops R) chk cname lim "hsl" [.float h, .float s, .float l] = some (.ok (.color r g b 255)) ∧
    callStd (ops R) chk cname lim "hsva" [.float h, .float s, .float l, .float a] = some (.ok (.color r' g' b' x)) ∧
    callStd (ops R) chk cname lim "hsv" [.float h, .float s, .float l] = some (.ok (.color r' g' b' 255)) := by
  have hx : Level (val a) (roundU8 (ops R) (mul a f255)) := by
    cases hn : isNeg a with
    | false =>
      have hv : val a = (mag (bits a) : Nat) := by rw [val_def, hn]; rfl
      rw [hv] at h1 ⊢
      exact level_of R ⟨ha, hn, rfl⟩ (Int.ofNat_le.1 h1)
    | true =>
      have hb : bits a = 0 := by
        rw [← mag_eq_zero]
        rw [val_def, hn] at h0
        simp only [signed, if_true] at h0
        omega
      have e : a = mk true 0 := by rw [← mk_self a, hn, hb]
      have e' : roundU8 (ops R) (mul (mk true 0) f255) = 0 := by
        show BitVec.ofInt 8 (toRange 0 255 (roundHalf (mul (mk true 0) f255))) = 0
        decide +kernel
      have e'' : val (mk true 0) = 0 := by decide
      rw [e, e', e'']
      unfold Level
      simp
  have hsl : ∀ y, hslaToRgba (C := C) (ops R) h s l y =
      wheel (ops R) h (mul (sub f1 (Ieee.abs (sub (mul f2 l) f1))) s) (sub l (div (mul (sub f1 (Ieee.abs (sub (mul f2 l) f1))) s) f2)) y := fun _ => rfl
  have hsv : ∀ y, hsvaToRgba (C := C) (ops R) h s l y = wheel (ops R) h (mul l s) (sub l (mul l s)) y := fun _ => rfl
  have w : ∀ c m, ∃ r g b, ∀ y, wheel (C := C) (ops R) h c m y = .color r g b (roundU8 (ops R) (mul y f255)) := fun c m => ⟨_, _, _, fun _ => rfl⟩
  obtain ⟨r, g, b, w1⟩ := w (mul (sub f1 (Ieee.abs (sub (mul f2 l) f1))) s) (sub l (div (mul (sub f1 (Ieee.abs (sub (mul f2 l) f1))) s) f2))
  obtain ⟨r', g', b', w2⟩ := w (mul l s) (sub l (mul l s))
  refine ⟨r, g, b, r', g', b', _, hx, ?_, ?_, ?_, ?_⟩
  · exact congrArg (fun v => some (Res.ok v)) ((hsl a).trans (w1 a))
  · exact congrArg (fun v => some (Res.ok v)) ((hsl f1).trans ((w1 f1).trans (by rw [opaque_one])))
  · exact congrArg (fun v => some (Res.ok v)) ((hsv a).trans (w2 a))
  · exact congrArg (fun v => some (Res.ok v)) ((hsv f1).trans ((w2 f1).trans (by rw [opaque_one])))

/-- A quarter of the way from 0 to 255 is 64, nothing else; NaN counts as 0; a channel of -1 is none. -/
example : Share 0x3FD0000000000000 (2 ^ 1072) ∧ Share nan 0 ∧ Mixed 0 255 (2 ^ 1072) 64 ∧ ¬ Mixed 0 255 (2 ^ 1072) 63 ∧ ¬ Mixed 0 255 (2 ^ 1072) 65 := by
  have hn : isNaN nan = true := by decide +kernel
  have hq : isNaN 0x3FD0000000000000 = false := by decide +kernel
  have hv : val 0x3FD0000000000000 = ((2 ^ 1072 : Nat) : Int) := by decide +kernel
  have e : (2 : Int) ^ 1074 = 4 * ((2 ^ 1072 : Nat) : Int) := by decide +kernel
  have e' : (2 : Nat) ^ 1074 = 4 * 2 ^ 1072 := by decide +kernel
  have hp : 0 < (2 : Nat) ^ 1072 := two_pos _
  refine ⟨⟨fun h => absurd (hq.symm.trans h) (by decide), fun _ => ?_, fun _ _ _ => hv.symm, fun _ => ?_, ?_⟩, ⟨fun _ => rfl, by simp [hn], by simp [hn], by simp [hn], Nat.zero_le _⟩, ?_⟩
  · rw [hv]; generalize (2 : Nat) ^ 1072 = k at *; omega
  · rw [hv, e]; generalize (2 : Nat) ^ 1072 = k at *; omega
  · rw [e']; generalize (2 : Nat) ^ 1072 = k at *; omega
  · unfold Mixed
    decide +kernel

/-- A quarter of the way from transparent black to opaque white. -/
example : callStd (ops R) chk cname lim "mix" [.color 0 0 0 0, .color 255 255 255 255, .float 0x3FD0000000000000] = some (.ok (.color 64 64 64 64)) := by
  have h : ∀ t, Lib.unit (ops R) t = Ieee.min (Ieee.max t 0) f1 := fun _ => rfl
  have hc : ∀ c : BitVec 8, ofU8 (ops R) c = ofInt (c.setWidth 64).toInt := fun _ => rfl
  have e : roundU8 (ops R) (add (mul (ofU8 (ops R) 0) (sub f1 (Lib.unit (ops R) 0x3FD0000000000000))) (mul (ofU8 (ops R) 255) (Lib.unit (ops R) 0x3FD0000000000000))) = 64 := by
    rw [roundU8_eq, h, hc, hc]
    have : toRange 0 255 (roundHalf (add (mul (ofInt ((0 : BitVec 8).setWidth 64).toInt) (sub f1 (Ieee.min (Ieee.max 0x3FD0000000000000 0) f1)))
      (mul (ofInt ((255 : BitVec 8).setWidth 64).toInt) (Ieee.min (Ieee.max 0x3FD0000000000000 0) f1)))) = 64 := by decide +kernel
    rw [this]
    rfl
  have m : ∀ c d t, callStd (ops R) chk cname lim "mix" [.color c c c c, .color d d d d, .float t] =
      (fun x => some (Res.ok (Val.color x x x x))) (roundU8 (ops R) (add (mul (ofU8 (ops R) c) (sub f1 (Lib.unit (ops R) t))) (mul (ofU8 (ops R) d) (Lib.unit (ops R) t)))) := fun _ _ _ => rfl
  rw [m, e]

/-- Yellow is bright, blue is not; white is not exactly as bright as 255, but nearly. -/
example : 186000 < 299 * (255 : BitVec 8).toNat + 587 * (255 : BitVec 8).toNat + 114 * (0 : BitVec 8).toNat ∧
    299 * (0 : BitVec 8).toNat + 587 * (0 : BitVec 8).toNat + 114 * (255 : BitVec 8).toNat < 186000 ∧
    Weighted 2126 7152 722 10000 255 255 255 0x406FE00000000000 ∧ ¬ Weighted 2126 7152 722 10000 255 255 255 0x406FE00000001000 ∧
    ¬ Weighted 2126 7152 722 10000 1 0 0 0 := by
  unfold Weighted
  decide +kernel

/-- Half lightness: 127.5 is rounded to 127 or 128. -/
example : isFinite 0x4060000000000000 = true ∧ isFinite 0x3FE0000000000000 = true ∧ 0 ≤ val 0x3FE0000000000000 ∧ val 0x3FE0000000000000 ≤ 2 ^ 1074 ∧
    Level (val 0x3FE0000000000000) 128 ∧ ¬ Level (val 0x3FE0000000000000) 129 := by
  unfold Level
  decide +kernel

end

end Quilt.Props
