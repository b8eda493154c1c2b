import Verif.Lib.Ieee

/-!
# Rounding

`mag` enumerates the magnitudes of floats in order; `roundMag` finds the nearest.
-/

namespace Quilt.Ieee

set_option exponentiation.threshold 3000

theorem two_pos (k : Nat) : 0 < 2 ^ k := Nat.two_pow_pos k

/-- Bits made of a shift and 53 bits. -/
theorem mag_mk (s q : Nat) (h1 : 2 ^ 52 ≤ q) (h2 : q ≤ 2 ^ 53) : mag (s * 2 ^ 52 + q) = q * 2 ^ s := by
  unfold mag
  rw [if_neg (by omega)]
  by_cases h : q = 2 ^ 53
  · have e1 : (s * 2 ^ 52 + q) / 2 ^ 52 = s + 2 := by omega
    have e2 : (s * 2 ^ 52 + q) % 2 ^ 52 = 0 := by omega
    rw [e1, e2, show s + 2 - 1 = s + 1 from rfl, Nat.pow_succ (m := s), h]
    generalize 2 ^ s = t
    omega
  · have e1 : (s * 2 ^ 52 + q) / 2 ^ 52 = s + 1 := by omega
    have e2 : (s * 2 ^ 52 + q) % 2 ^ 52 = q - 2 ^ 52 := by omega
    rw [e1, e2, show s + 1 - 1 = s from rfl, show 2 ^ 52 + (q - 2 ^ 52) = q by omega]

theorem mag_small (q : Nat) (h : q ≤ 2 ^ 53) : mag q = q := by
  by_cases h1 : q < 2 ^ 52
  · unfold mag; rw [if_pos h1]
  · have := mag_mk 0 q (by omega) h
    simpa using this

/-- All bits are made of a shift and 53 bits, with fewer bits for the least shift only. -/
theorem bits_split (b : Nat) : b < 2 ^ 52 ∨ ∃ s q, 2 ^ 52 ≤ q ∧ q < 2 ^ 53 ∧ b = s * 2 ^ 52 + q := by
  by_cases h : b < 2 ^ 52
  · exact .inl h
  · exact .inr ⟨b / 2 ^ 52 - 1, 2 ^ 52 + b % 2 ^ 52, by omega, by omega, by omega⟩

theorem mag_succ (b : Nat) : mag b < mag (b + 1) := by
  rcases bits_split b with h | ⟨s, q, h1, h2, rfl⟩
  · rw [mag_small _ (by omega), mag_small _ (by omega)]; omega
  · rw [Nat.add_assoc, mag_mk s q h1 (by omega), mag_mk s (q + 1) (by omega) (by omega)]
    exact Nat.mul_lt_mul_of_pos_right (Nat.lt_succ_self q) (two_pos s)

theorem mag_lt {a b : Nat} (h : a < b) : mag a < mag b := by
  induction b with
  | zero => omega
  | succ b ih =>
    rcases Nat.lt_succ_iff_lt_or_eq.1 h with h | rfl
    · exact Nat.lt_trans (ih h) (mag_succ b)
    · exact mag_succ a

theorem mag_lt_iff {a b : Nat} : mag a < mag b ↔ a < b := by
  refine ⟨fun h => ?_, mag_lt⟩
  rcases Nat.lt_trichotomy a b with h1 | rfl | h1
  · exact h1
  · omega
  · have := mag_lt h1; omega

theorem mag_le_iff {a b : Nat} : mag a ≤ mag b ↔ a ≤ b := by
  have := @mag_lt_iff b a
  omega

theorem mag_inj {a b : Nat} (h : mag a = mag b) : a = b :=
  Nat.le_antisymm (mag_le_iff.1 (Nat.le_of_eq h)) (mag_le_iff.1 (Nat.le_of_eq h.symm))

theorem mag_zero : mag 0 = 0 := rfl

theorem mag_eq_zero {b : Nat} : mag b = 0 ↔ b = 0 := ⟨fun h => mag_inj (h.trans mag_zero.symm), fun h => by rw [h]; rfl⟩

/-- The distance of neighbours. -/
theorem mag_gap {b k : Nat} (hk : 53 ≤ k) (h : mag b < 2 ^ k) : mag (b + 1) ≤ mag b + 2 ^ (k - 53) := by
  rcases bits_split b with h1 | ⟨s, q, h1, h2, rfl⟩
  · rw [mag_small _ (by omega), mag_small _ (by omega)]
    have := two_pos (k - 53)
    omega
  · rw [Nat.add_assoc, mag_mk s (q + 1) (by omega) (by omega)]
    rw [mag_mk s q h1 (by omega)] at h ⊢
    have h3 : 2 ^ (52 + s) ≤ q * 2 ^ s := by
      rw [Nat.pow_add]
      exact Nat.mul_le_mul_right _ h1
    have h4 : 52 + s < k := (Nat.pow_lt_pow_iff_right (by decide)).1 (Nat.lt_of_le_of_lt h3 h)
    have h5 : 2 ^ s ≤ 2 ^ (k - 53) := Nat.pow_le_pow_right (by decide) (by omega)
    rw [Nat.add_mul]
    omega

/-- What `roundMag` does: `n / d` is between two neighbours, of which the nearer is taken, in the middle the one with even bits. -/
theorem roundMag_spec (n d : Nat) (hd : 0 < d) : ∃ b, mag b * d ≤ n ∧ n < mag (b + 1) * d ∧
    roundMag n d = if 2 * (n - mag b * d) < (mag (b + 1) - mag b) * d ∨ (2 * (n - mag b * d) = (mag (b + 1) - mag b) * d ∧ b % 2 = 0) then b else b + 1 := by
  suffices key : ∀ s, ((s = 0 ∧ n / d < 2 ^ 53) ∨ (2 ^ 52 ≤ n / d / 2 ^ s ∧ n / d / 2 ^ s < 2 ^ 53)) → roundMag n d = s * 2 ^ 52 + nearest n (d * 2 ^ s) →
      ∃ b, mag b * d ≤ n ∧ n < mag (b + 1) * d ∧
      roundMag n d = if 2 * (n - mag b * d) < (mag (b + 1) - mag b) * d ∨ (2 * (n - mag b * d) = (mag (b + 1) - mag b) * d ∧ b % 2 = 0) then b else b + 1 by
    by_cases h : n / d < 2 ^ 53
    · exact key 0 (.inl ⟨rfl, h⟩) (by unfold roundMag; rw [if_pos h])
    · have hne : n / d ≠ 0 := by omega
      have h1 := Nat.log2_self_le hne
      have h2 := @Nat.lt_log2_self (n / d)
      have h3 : 52 ≤ (n / d).log2 := by
        have : 53 < (n / d).log2 + 1 + 1 := by
          have h4 : 2 ^ 53 < 2 ^ ((n / d).log2 + 1) := Nat.lt_of_le_of_lt (by omega) h2
          have := (Nat.pow_lt_pow_iff_right (by decide : 1 < 2)).1 h4
          omega
        omega
      refine key ((n / d).log2 - 52) (.inr ⟨?_, ?_⟩) (by unfold roundMag; rw [if_neg h])
      · rw [Nat.le_div_iff_mul_le (two_pos _), ← Nat.pow_add, show 52 + ((n / d).log2 - 52) = (n / d).log2 by omega]
        exact h1
      · rw [Nat.div_lt_iff_lt_mul (two_pos _), ← Nat.pow_add, show 53 + ((n / d).log2 - 52) = (n / d).log2 + 1 by omega]
        exact h2
  intro s hs hr
  rw [Nat.div_div_eq_div_mul] at hs
  generalize hq : n / (d * 2 ^ s) = q at hs
  have hD : 0 < d * 2 ^ s := Nat.mul_pos hd (two_pos s)
  have m1 : mag (s * 2 ^ 52 + q) = q * 2 ^ s := by
    rcases hs with ⟨rfl, h⟩ | ⟨h1, h2⟩
    · have : q < 2 ^ 53 := by rw [← hq]; simpa using h
      simpa using mag_small q (by omega)
    · exact mag_mk s q h1 (by omega)
  have m2 : mag (s * 2 ^ 52 + q + 1) = (q + 1) * 2 ^ s := by
    rw [Nat.add_assoc]
    rcases hs with ⟨rfl, h⟩ | ⟨h1, h2⟩
    · have : q < 2 ^ 53 := by rw [← hq]; simpa using h
      simpa using mag_small (q + 1) (by omega)
    · exact mag_mk s (q + 1) (by omega) (by omega)
  have e := Nat.div_add_mod n (d * 2 ^ s)
  have l := Nat.mod_lt n hD
  rw [hq] at e
  have e1 : mag (s * 2 ^ 52 + q) * d = d * 2 ^ s * q := by rw [m1, Nat.mul_comm q, Nat.mul_assoc, Nat.mul_comm q d, ← Nat.mul_assoc, Nat.mul_comm (2 ^ s) d]
  have e2 : mag (s * 2 ^ 52 + q + 1) * d = d * 2 ^ s * q + d * 2 ^ s := by
    rw [m2, Nat.mul_comm, ← Nat.mul_succ, Nat.mul_comm (q + 1), Nat.mul_assoc]
  have e3 : (mag (s * 2 ^ 52 + q + 1) - mag (s * 2 ^ 52 + q)) * d = d * 2 ^ s := by
    rw [Nat.sub_mul, e1, e2]; omega
  refine ⟨s * 2 ^ 52 + q, by omega, by omega, ?_⟩
  rw [hr, e1, e3]
  unfold nearest
  simp only [hq]
  have : n - d * 2 ^ s * q = n % (d * 2 ^ s) := by omega
  rw [this, show (s * 2 ^ 52 + q) % 2 = q % 2 by omega]
  split <;> omega

/-- Floats are rounded to themselves. -/
theorem roundMag_exact (b d : Nat) (hd : 0 < d) : roundMag (mag b * d) d = b := by
  obtain ⟨c, h1, h2, h3⟩ := roundMag_spec (mag b * d) d hd
  have hc : c = b := by
    have a1 : mag c ≤ mag b := Nat.le_of_mul_le_mul_right h1 hd
    have a2 : mag b < mag (c + 1) := Nat.lt_of_mul_lt_mul_right h2
    have := mag_le_iff.1 a1
    have := mag_lt_iff.1 a2
    omega
  subst hc
  rw [h3, if_pos]
  left
  have := mag_succ c
  have : 0 < (mag (c + 1) - mag c) * d := Nat.mul_pos (by omega) hd
  omega

/-- Rounding does not pass floats. -/
theorem le_roundMag {b n d : Nat} (hd : 0 < d) (h : mag b * d ≤ n) : b ≤ roundMag n d := by
  obtain ⟨c, h1, h2, h3⟩ := roundMag_spec n d hd
  have : mag b < mag (c + 1) := Nat.lt_of_mul_lt_mul_right (Nat.lt_of_le_of_lt h h2)
  have := mag_lt_iff.1 this
  rw [h3]
  split <;> omega

theorem roundMag_le {b n d : Nat} (hd : 0 < d) (h : n ≤ mag b * d) : roundMag n d ≤ b := by
  obtain ⟨c, h1, h2, h3⟩ := roundMag_spec n d hd
  by_cases hc : c < b
  · rw [h3]; split <;> omega
  · have a1 : mag b * d ≤ mag c * d := Nat.mul_le_mul_right _ (mag_le_iff.2 (by omega))
    have a2 : n = mag b * d := by omega
    rw [a2, roundMag_exact b d hd]
    exact Nat.le_refl _

theorem roundMag_zero (d : Nat) (hd : 0 < d) : roundMag 0 d = 0 := by
  have := roundMag_exact 0 d hd
  simpa [mag_zero] using this

/-- The error of rounding. -/
theorem roundMag_error {n d k : Nat} (hd : 0 < d) (hk : 53 ≤ k) (h : n < 2 ^ k * d) :
    2 * n ≤ 2 * (mag (roundMag n d) * d) + 2 ^ (k - 53) * d ∧ 2 * (mag (roundMag n d) * d) ≤ 2 * n + 2 ^ (k - 53) * d := by
  obtain ⟨c, h1, h2, h3⟩ := roundMag_spec n d hd
  have a1 : mag c < 2 ^ k := Nat.lt_of_mul_lt_mul_right (Nat.lt_of_le_of_lt h1 h)
  have a2 := mag_gap hk a1
  have a4 := mag_succ c
  have a3 : (mag (c + 1) - mag c) * d ≤ 2 ^ (k - 53) * d := by
    refine Nat.mul_le_mul_right _ ?_
    generalize 2 ^ (k - 53) = g at a2
    omega
  have a5 : (mag (c + 1) - mag c) * d = mag (c + 1) * d - mag c * d := Nat.sub_mul ..
  rw [h3]
  split <;> omega

/-- No float is nearer. -/
theorem roundMag_nearest {n d : Nat} (hd : 0 < d) (b : Nat) :
    ((mag (roundMag n d) * d : Nat) - (n : Int)).natAbs ≤ ((mag b * d : Nat) - (n : Int)).natAbs := by
  obtain ⟨c, h1, h2, h3⟩ := roundMag_spec n d hd
  have a4 := mag_succ c
  have a5 : (mag (c + 1) - mag c) * d = mag (c + 1) * d - mag c * d := Nat.sub_mul ..
  by_cases hb : b ≤ c
  · have : mag b * d ≤ mag c * d := Nat.mul_le_mul_right _ (mag_le_iff.2 hb)
    rw [h3]
    split <;> omega
  · have : mag (c + 1) * d ≤ mag b * d := Nat.mul_le_mul_right _ (mag_le_iff.2 (by omega))
    rw [h3]
    split <;> omega

/-! ## Floats -/

theorem infBits_lt : infBits < 2 ^ 63 := by decide

theorem bits_lt (x : BitVec 64) : bits x < 2 ^ 63 := Nat.mod_lt _ (by decide)

theorem bits_mk (s : Bool) {b : Nat} (h : b < 2 ^ 63) : bits (mk s b) = b := by
  unfold bits mk
  rw [BitVec.toNat_ofNat]
  cases s <;> simp only [Bool.false_eq_true, if_true, if_false] <;> omega

theorem isNeg_mk (s : Bool) {b : Nat} (h : b < 2 ^ 63) : isNeg (mk s b) = s := by
  unfold isNeg mk
  rw [BitVec.msb_eq_decide, BitVec.toNat_ofNat]
  cases s <;> simp only [Bool.false_eq_true, if_true, if_false, decide_eq_true_eq, decide_eq_false_iff_not] <;> omega

theorem mk_self (x : BitVec 64) : mk (isNeg x) (bits x) = x := by
  apply BitVec.eq_of_toNat_eq
  have := x.isLt
  unfold mk isNeg bits
  rw [BitVec.toNat_ofNat, BitVec.msb_eq_decide]
  split
  · rename_i h; simp only [decide_eq_true_eq] at h; omega
  · rename_i h; simp only [decide_eq_true_eq] at h; omega

theorem eq_of_parts {x y : BitVec 64} (h1 : isNeg x = isNeg y) (h2 : bits x = bits y) : x = y := by
  rw [← mk_self x, ← mk_self y, h1, h2]

/-- A number with a sign. -/
def signed (s : Bool) (n : Nat) : Int := if s then -(n : Int) else n

theorem val_def (x : BitVec 64) : val x = signed (isNeg x) (mag (bits x)) := rfl
theorem val_mk (s : Bool) {b : Nat} (h : b < 2 ^ 63) : val (mk s b) = signed s (mag b) := by rw [val_def, isNeg_mk s h, bits_mk s h]

theorem signed_natAbs (s : Bool) (n : Nat) : (signed s n).natAbs = n := by cases s <;> simp [signed]
theorem signed_mul (s t : Bool) (n m : Nat) : signed s n * signed t m = signed (s != t) (n * m) := by
  cases s <;> cases t <;> simp [signed, Int.neg_mul, Int.mul_neg]
theorem signed_self (v : Int) : signed (decide (v < 0)) v.natAbs = v := by
  by_cases h : v < 0 <;> simp only [signed, h, decide_true, decide_false, if_true, Bool.false_eq_true, if_false] <;> omega

theorem val_natAbs (x : BitVec 64) : (val x).natAbs = mag (bits x) := signed_natAbs ..

theorem isFinite_iff {x : BitVec 64} : isFinite x = true ↔ bits x < infBits := by simp [isFinite]
theorem finite_not_nan {x : BitVec 64} (h : isFinite x = true) : isNaN x = false := by
  rw [isFinite_iff] at h
  simp only [isNaN, decide_eq_false_iff_not]
  omega
theorem finite_not_inf {x : BitVec 64} (h : isFinite x = true) : isInf x = false := by
  rw [isFinite_iff] at h
  simp only [isInf, beq_eq_false_iff_ne]
  omega

theorem kinds (x : BitVec 64) : (isFinite x = true ∧ isInf x = false ∧ isNaN x = false) ∨ (isFinite x = false ∧ isInf x = true ∧ isNaN x = false) ∨
    (isFinite x = false ∧ isInf x = false ∧ isNaN x = true) := by
  simp only [isFinite, isInf, isNaN, decide_eq_true_eq, decide_eq_false_iff_not, beq_iff_eq, beq_eq_false_iff_ne]
  omega

theorem bits_round (s : Bool) (n d : Nat) : bits (round s n d) = Nat.min (roundMag n d) infBits :=
  bits_mk s (Nat.lt_of_le_of_lt (Nat.min_le_right ..) infBits_lt)
theorem isNeg_round (s : Bool) (n d : Nat) : isNeg (round s n d) = s :=
  isNeg_mk s (Nat.lt_of_le_of_lt (Nat.min_le_right ..) infBits_lt)

theorem round_finite {s : Bool} {n d : Nat} : isFinite (round s n d) = true ↔ roundMag n d < infBits := by
  rw [isFinite_iff, bits_round]
  have : Nat.min (roundMag n d) infBits = if roundMag n d ≤ infBits then roundMag n d else infBits := Nat.min_def
  rw [this]
  split <;> omega

theorem bits_round_finite {s : Bool} {n d : Nat} (h : roundMag n d < infBits) : bits (round s n d) = roundMag n d := by
  rw [bits_round]
  exact Nat.min_eq_left (Nat.le_of_lt h)

theorem round_not_nan (s : Bool) (n d : Nat) : isNaN (round s n d) = false := by
  simp only [isNaN, bits_round, decide_eq_false_iff_not, Nat.not_lt]
  exact Nat.min_le_right ..

/-- Rounding below a finite float is finite. -/
theorem round_finite_of_le {s : Bool} {n d b : Nat} (hd : 0 < d) (hb : b < infBits) (h : n ≤ mag b * d) : isFinite (round s n d) = true :=
  round_finite.2 (Nat.lt_of_le_of_lt (roundMag_le hd h) hb)

/-- Exact results. -/
theorem round_exact (s : Bool) {n d b : Nat} (hd : 0 < d) (hb : b < infBits) (h : n = mag b * d) : round s n d = mk s b := by
  unfold round
  rw [h, roundMag_exact b d hd]
  congr 1
  exact Nat.min_eq_left (Nat.le_of_lt hb)

theorem round_self (x : BitVec 64) (hx : isFinite x = true) : round (isNeg x) (mag (bits x)) 1 = x := by
  rw [round_exact _ (by decide) (isFinite_iff.1 hx) (by simp), mk_self]

/-- Integers of up to 53 bits times powers of two are floats. -/
theorem rep (q s : Nat) (hq : q ≤ 2 ^ 53) : ∃ b, mag b = q * 2 ^ s ∧ b ≤ s * 2 ^ 52 + q := by
  by_cases h0 : q = 0
  · exact ⟨0, by simp [h0, mag_zero], by omega⟩
  by_cases h52 : 2 ^ 52 ≤ q
  · exact ⟨_, mag_mk s q h52 hq, Nat.le_refl _⟩
  · induction s generalizing q with
    | zero => exact ⟨q, by rw [mag_small q hq, Nat.pow_zero, Nat.mul_one], by omega⟩
    | succ s ih =>
      by_cases h : 2 ^ 52 ≤ 2 * q
      · refine ⟨s * 2 ^ 52 + 2 * q, (mag_mk s (2 * q) h (by omega)).trans ?_, by omega⟩
        rw [Nat.pow_succ (m := s), Nat.mul_comm 2 q, Nat.mul_assoc, Nat.mul_comm 2]
      · obtain ⟨b, h1, h2⟩ := ih (2 * q) (by omega) (by omega) h
        have h3 : b ≤ (s + 1) * 2 ^ 52 + q := by
          have h4 : (s + 1) * 2 ^ 52 = s * 2 ^ 52 + 2 ^ 52 := Nat.succ_mul ..
          rw [h4]
          have h5 : 2 * q < 2 ^ 52 := Nat.lt_of_not_le h
          exact Nat.le_trans h2 (by clear h1 h2 ih h h52 hq; omega)
        refine ⟨b, h1.trans ?_, h3⟩
        rw [Nat.pow_succ (m := s), Nat.mul_comm 2 q, Nat.mul_assoc, Nat.mul_comm 2]

theorem rep_int (i : Nat) (h : i ≤ 2 ^ 53) : ∃ b, mag b = i * one ∧ b < infBits := by
  obtain ⟨b, h1, h2⟩ := rep i 1074 h
  refine ⟨b, h1, Nat.lt_of_le_of_lt h2 ?_⟩
  unfold infBits
  omega

theorem one_pos : 0 < one := two_pos _

/-- In the middle between two floats, the even one is taken. -/
theorem roundMag_even {n d c : Nat} (hd : 0 < d) (hc : c ≠ roundMag n d)
    (h : ((mag (roundMag n d) * d : Nat) - (n : Int)).natAbs = ((mag c * d : Nat) - (n : Int)).natAbs) : roundMag n d % 2 = 0 := by
  obtain ⟨b, h1, h2, h3⟩ := roundMag_spec n d hd
  have a4 := mag_succ b
  have a5 : (mag (b + 1) - mag b) * d = mag (b + 1) * d - mag b * d := Nat.sub_mul ..
  have lo : c ≤ b → mag c * d ≤ mag b * d := fun h => Nat.mul_le_mul_right _ (mag_le_iff.2 h)
  have lo' : c < b → mag c * d < mag b * d := fun h => Nat.mul_lt_mul_of_pos_right (mag_lt h) hd
  have hi : b + 1 ≤ c → mag (b + 1) * d ≤ mag c * d := fun h => Nat.mul_le_mul_right _ (mag_le_iff.2 h)
  have hi' : b + 1 < c → mag (b + 1) * d < mag c * d := fun h => Nat.mul_lt_mul_of_pos_right (mag_lt h) hd
  rw [h3] at h hc ⊢
  split at h
  · rename_i h4
    rw [if_pos h4] at hc ⊢
    rcases h4 with h4 | h4
    · exfalso
      by_cases hb : c < b
      · have := lo' hb; omega
      · have := hi (by omega); omega
    · exact h4.2
  · rename_i h4
    rw [if_neg h4] at hc ⊢
    rw [not_or, not_and] at h4
    by_cases h5 : 2 * (n - mag b * d) = (mag (b + 1) - mag b) * d
    · have := h4.2 h5; omega
    · exfalso
      by_cases hb : c ≤ b
      · have := lo hb; omega
      · have := hi' (by omega); omega

theorem bits_neg (x : BitVec 64) : bits (neg x) = bits x := bits_mk _ (bits_lt x)
theorem isNeg_neg (x : BitVec 64) : isNeg (neg x) = !isNeg x := isNeg_mk _ (bits_lt x)
theorem val_neg (x : BitVec 64) : val (neg x) = -val x := by
  rw [val_def, val_def, bits_neg, isNeg_neg]
  cases isNeg x <;> simp [signed]
theorem isFinite_neg (x : BitVec 64) : isFinite (neg x) = isFinite x := by simp [isFinite, bits_neg]
theorem isNaN_neg (x : BitVec 64) : isNaN (neg x) = isNaN x := by simp [isNaN, bits_neg]
theorem isInf_neg (x : BitVec 64) : isInf (neg x) = isInf x := by simp [isInf, bits_neg]

theorem mag_infBits : mag infBits = 2 ^ 2098 := by
  have := mag_mk 2046 (2 ^ 52) (by decide) (by decide)
  rw [← Nat.pow_add] at this
  exact this

theorem val_eq_zero {x : BitVec 64} : val x = 0 ↔ bits x = 0 := by
  rw [← mag_eq_zero (b := bits x), ← val_natAbs]
  omega

/-- The order of floats is that of their values. -/
theorem rank_lt_iff {x y : BitVec 64} : rank x < rank y ↔ val x < val y := by
  have h1 := @mag_lt_iff (bits x) (bits y)
  have h2 := @mag_lt_iff (bits y) (bits x)
  have h3 := @mag_eq_zero (bits x)
  have h4 := @mag_eq_zero (bits y)
  unfold rank val
  split <;> split <;> omega

theorem rank_le_iff {x y : BitVec 64} : rank x ≤ rank y ↔ val x ≤ val y := by
  have := @rank_lt_iff y x
  omega

/-- Every magnitude is an integer of up to 53 bits times a power of two. -/
theorem mag_split (b : Nat) : ∃ q s, mag b = q * 2 ^ s ∧ q < 2 ^ 53 ∧ (s = 0 ∨ 2 ^ 52 ≤ q) := by
  rcases bits_split b with h | ⟨s, q, h1, h2, rfl⟩
  · exact ⟨b, 0, by rw [mag_small b (by omega)]; simp, by omega, .inl rfl⟩
  · exact ⟨q, s, mag_mk s q h1 (by omega), h2, .inr h1⟩

/-- The remainder of two magnitudes is one. -/
theorem rep_mod (a b : Nat) (hb : mag b ≠ 0) : ∃ c, mag c = mag a % mag b ∧ c ≤ a := by
  suffices h : ∃ c, mag c = mag a % mag b by
    obtain ⟨c, hc⟩ := h
    exact ⟨c, hc, mag_le_iff.1 (by rw [hc]; exact Nat.mod_le ..)⟩
  obtain ⟨q, s, h1, h2, _⟩ := mag_split a
  obtain ⟨r, t, h3, h4, _⟩ := mag_split b
  have hr : 0 < r := by
    rcases Nat.eq_zero_or_pos r with rfl | h
    · simp [h3] at hb
    · exact h
  by_cases h : t ≤ s
  · have e : mag a = q * 2 ^ (s - t) * 2 ^ t := by rw [h1, Nat.mul_assoc, ← Nat.pow_add, Nat.sub_add_cancel h]
    rw [e, h3, Nat.mul_mod_mul_right]
    have := Nat.mod_lt (q * 2 ^ (s - t)) hr
    obtain ⟨c, hc, _⟩ := rep (q * 2 ^ (s - t) % r) t (by omega)
    exact ⟨c, hc⟩
  · have e : mag b = r * 2 ^ (t - s) * 2 ^ s := by rw [h3, Nat.mul_assoc, ← Nat.pow_add, Nat.sub_add_cancel (by omega)]
    rw [e, h1, Nat.mul_mod_mul_right]
    have := Nat.mod_le q (r * 2 ^ (t - s))
    obtain ⟨c, hc, _⟩ := rep (q % (r * 2 ^ (t - s))) s (by omega)
    exact ⟨c, hc⟩

/-- A magnitude is less than 2^53, or an integer. -/
theorem mag_integral (b : Nat) : mag b < 2 ^ 53 * one ∨ one ∣ mag b := by
  obtain ⟨q, s, h1, h2, h3⟩ := mag_split b
  by_cases h : s < 1074
  · left
    rw [h1]
    exact Nat.mul_lt_mul_of_lt_of_le h2 (Nat.pow_le_pow_right (by decide) (by omega)) one_pos
  · right
    rw [h1]
    exact Nat.dvd_trans (Nat.pow_dvd_pow 2 (by omega)) (Nat.dvd_mul_left ..)

/-- The integers next to a magnitude are floats. -/
theorem rep_next (b n : Nat) (hb : b < infBits) (h1 : n * one < mag b + one) (h2 : mag b < n * one + one) : ∃ c, mag c = n * one ∧ c < infBits := by
  rcases mag_integral b with h | ⟨k, hk⟩
  · refine rep_int n ?_
    have : n * one < (2 ^ 53 + 1) * one := by rw [Nat.add_mul]; omega
    have := Nat.lt_of_mul_lt_mul_right this
    omega
  · have e : n = k := by
      rw [hk, Nat.mul_comm one k] at h1 h2
      have a1 : n * one < (k + 1) * one := by rw [Nat.add_mul, Nat.one_mul]; exact h1
      have a2 : k * one < (n + 1) * one := by rw [Nat.add_mul, Nat.one_mul]; exact h2
      have := Nat.lt_of_mul_lt_mul_right a1
      have := Nat.lt_of_mul_lt_mul_right a2
      omega
    exact ⟨b, by rw [hk, e, Nat.mul_comm], hb⟩

/-- Rounding to an integer is exact. -/
theorem integral_exact (x : BitVec 64) (n : Nat) (hx : isFinite x = true) (h1 : n * one < mag (bits x) + one) (h2 : mag (bits x) < n * one + one) :
    isFinite (integral x n) = true ∧ isNeg (integral x n) = isNeg x ∧ mag (bits (integral x n)) = n * one := by
  obtain ⟨c, hc, hc'⟩ := rep_next (bits x) n (isFinite_iff.1 hx) h1 h2
  have hlt : c < 2 ^ 63 := Nat.lt_trans hc' infBits_lt
  unfold integral
  rw [if_pos hx, round_exact _ (by decide) hc' (by rw [hc, Nat.mul_one])]
  refine ⟨?_, isNeg_mk _ hlt, by rw [bits_mk _ hlt, hc]⟩
  rw [isFinite_iff, bits_mk _ hlt]
  exact hc'

theorem trunc_integral (x : BitVec 64) (n : Nat) (h : mag (bits x) = n * one) : trunc x = signed (isNeg x) n := by
  unfold trunc signed
  rw [h, Nat.mul_div_cancel _ one_pos]

/-! ## Square roots -/

theorem go_spec (n : Nat) : ∀ k r, r * r ≤ n → n < (r + 2 ^ k) * (r + 2 ^ k) → sqrt.go n k r * sqrt.go n k r ≤ n ∧ n < (sqrt.go n k r + 1) * (sqrt.go n k r + 1)
  | 0, r, h1, h2 => ⟨h1, by rw [sqrt.go]; simpa using h2⟩
  | k + 1, r, h1, h2 => by
    rw [sqrt.go]
    split
    · rename_i h
      exact go_spec n k _ h (by rw [Nat.add_assoc, ← Nat.two_mul, Nat.mul_comm 2, ← Nat.pow_succ]; exact h2)
    · rename_i h
      exact go_spec n k r h1 (by omega)

theorem isqrt_spec (n : Nat) : sqrt.isqrt n * sqrt.isqrt n ≤ n ∧ n < (sqrt.isqrt n + 1) * (sqrt.isqrt n + 1) := by
  refine go_spec n _ 0 (by omega) ?_
  rw [Nat.zero_add, ← Nat.pow_add]
  exact Nat.lt_of_lt_of_le Nat.lt_log2_self (Nat.pow_le_pow_right (by decide) (by omega))

theorem mag_even {b : Nat} (h : 2 ^ 53 ≤ b) : mag b % 2 = 0 := by
  rcases bits_split b with h1 | ⟨s, q, h1, h2, rfl⟩
  · omega
  · rw [mag_mk s q h1 (by omega)]
    have : s ≠ 0 := by rintro rfl; omega
    obtain ⟨t, rfl⟩ : ∃ t, s = t + 1 := ⟨s - 1, by omega⟩
    rw [Nat.pow_succ, ← Nat.mul_assoc]
    omega

end Quilt.Ieee
