import Verif.Lib.IeeeLemmas

/-!
# Floats as rational numbers

The error of each operation, for results below a power of two.
-/

namespace Quilt.Ieee

set_option exponentiation.threshold 4000

/-- 2^1074. -/
def U : Rat := (one : Nat)

theorem U_pos : 0 < U := by
  unfold U
  exact Rat.natCast_pos.2 one_pos

/-- The number a finite float stands for. -/
def Q (x : BitVec 64) : Rat := (val x : Rat) / U

theorem Q_mul (x : BitVec 64) : Q x * U = val x := by
  unfold Q
  have := U_pos
  grind

/-- The relative error of one rounding. -/
def δ : Rat := 1 / 18014398509481984

theorem δ_pos : 0 < δ := by decide +kernel

private theorem lt_of_mul {a b c : Rat} (hc : 0 < c) (h : a * c ≤ b * c) : a ≤ b := by
  refine Rat.not_lt.1 fun h' => ?_
  have := Rat.mul_lt_mul_of_pos_right h' hc
  grind

theorem near_round (s : Bool) {n d j : Nat} (hd : 0 < d) (hj : j ≤ 900) {N : Rat} (hN : N * (d * U) = n) (h : N < (2 ^ j : Nat)) :
    isFinite (round s n d) = true ∧ ∃ M, Q (round s n d) = (if s then -M else M) ∧ 0 ≤ M ∧ M - N ≤ (2 ^ j : Nat) * δ ∧ N - M ≤ (2 ^ j : Nat) * δ := by
  have hU := U_pos
  have hdq : (0 : Rat) < d := Rat.natCast_pos.2 hd
  have hn : n < 2 ^ (1074 + j) * d := by
    have h1 : (n : Rat) < ((2 ^ (1074 + j) * d : Nat) : Rat) := by
      have e1 : ((2 ^ (1074 + j) * d : Nat) : Rat) = ((2 ^ j : Nat) : Rat) * (d * U) := by
        rw [Nat.pow_add, Rat.natCast_mul, Rat.natCast_mul]
        show ((one : Nat) : Rat) * _ * _ = _
        unfold U
        grind
      rw [e1, ← hN]
      exact Rat.mul_lt_mul_of_pos_right h (Rat.mul_pos hdq hU)
    exact Rat.natCast_lt_natCast.1 h1
  have hfin : roundMag n d < infBits := by
    obtain ⟨b, hb1, hb2⟩ := rep 1 (1074 + j) (by decide)
    refine Nat.lt_of_le_of_lt (roundMag_le (b := b) hd (by rw [hb1, Nat.one_mul]; omega)) (Nat.lt_of_le_of_lt hb2 ?_)
    unfold infBits
    omega
  obtain ⟨h1, h2⟩ := roundMag_error hd (by omega) hn
  have hp : 2 ^ (1074 + j - 53) * 9007199254740992 = 2 ^ j * one := by
    have e1 : (9007199254740992 : Nat) = 2 ^ 53 := by decide
    have e2 : one = 2 ^ 1074 := rfl
    rw [e1, e2, ← Nat.pow_add, ← Nat.pow_add]
    congr 1
    omega
  generalize 2 ^ (1074 + j - 53) = G at *
  have hv : val (round s n d) = signed s (mag (roundMag n d)) := by rw [val_def, isNeg_round, bits_round_finite hfin]
  refine ⟨round_finite.2 hfin, (mag (roundMag n d) : Rat) / U, ?_, ?_, ?_⟩
  · unfold Q
    rw [hv]
    cases s
    · rfl
    · simp only [signed, if_true, Rat.intCast_neg, Rat.intCast_natCast]
      grind
  · rw [Rat.div_def]
    exact Rat.mul_nonneg (Rat.natCast_nonneg) (Rat.le_of_lt (Rat.inv_pos.2 hU))
  · generalize hm : mag (roundMag n d) = m at *
    have q1 : ((2 * n : Nat) : Rat) ≤ ((2 * (m * d) + G * d : Nat) : Rat) := Rat.natCast_le_natCast.2 h1
    have q2 : ((2 * (m * d) : Nat) : Rat) ≤ ((2 * n + G * d : Nat) : Rat) := Rat.natCast_le_natCast.2 h2
    have q3 : ((G * 9007199254740992 : Nat) : Rat) = ((2 ^ j * one : Nat) : Rat) := by rw [hp]
    simp only [Rat.natCast_mul, Rat.natCast_add] at q1 q2 q3
    rw [← hN] at q1 q2
    change (G : Rat) * _ = _ * U at q3
    have hM : (m : Rat) / U * U = m := by grind
    generalize (m : Rat) / U = M at *
    rw [← hM] at q1 q2
    generalize ((2 ^ j : Nat) : Rat) = B at *
    have hG : (G : Rat) = B * (2 * δ) * U := by
      unfold δ
      have : ((9007199254740992 : Nat) : Rat) = 9007199254740992 := by decide +kernel
      rw [this] at q3
      grind
    rw [hG] at q1 q2
    have hdu := Rat.mul_pos hdq hU
    constructor
    · have : (2 * M) * (d * U) ≤ (2 * N + B * (2 * δ)) * (d * U) := by
        have e : ((2 : Nat) : Rat) = 2 := rfl
        rw [e] at q2
        grind
      have := lt_of_mul hdu this
      grind
    · have : (2 * N) * (d * U) ≤ (2 * M + B * (2 * δ)) * (d * U) := by
        have e : ((2 : Nat) : Rat) = 2 := rfl
        rw [e] at q1
        grind
      have := lt_of_mul hdu this
      grind

private theorem mul_cancel {a b c : Rat} (hc : 0 < c) (h : a * c = b * c) : a = b :=
  Rat.le_antisymm (lt_of_mul hc (by grind)) (lt_of_mul hc (by grind))

/-- A finite float within `e` of `v`. -/
structure Near (x : BitVec 64) (v e : Rat) : Prop where
  finite : isFinite x = true
  lo : v - Q x ≤ e
  hi : Q x - v ≤ e

theorem Near.self {x : BitVec 64} (h : isFinite x = true) : Near x (Q x) 0 := ⟨h, by grind, by grind⟩

theorem Near.of {x : BitVec 64} {v e v' e' : Rat} (h : Near x v e) (h1 : v' - v ≤ e' - e) (h2 : v - v' ≤ e' - e) : Near x v' e' := by
  obtain ⟨a, b, c⟩ := h
  exact ⟨a, by grind, by grind⟩

private theorem near_signed {s : Bool} {n d j : Nat} (hd : 0 < d) (hj : j ≤ 900) {N V : Rat} (hN : N * (d * U) = n) (h : N < (2 ^ j : Nat)) (hV : V = if s then -N else N) :
    Near (round s n d) V ((2 ^ j : Nat) * δ) := by
  obtain ⟨h1, M, h2, -, h3, h4⟩ := near_round s hd hj hN h
  cases s
  · simp only [Bool.false_eq_true, if_false] at h2 hV
    exact ⟨h1, by rw [h2, hV]; exact h4, by rw [h2, hV]; exact h3⟩
  · simp only [if_true] at h2 hV
    exact ⟨h1, by rw [h2, hV]; grind, by rw [h2, hV]; grind⟩

theorem natAbs_cast (v : Int) : ((v.natAbs : Nat) : Rat) = if v < 0 then -(v : Rat) else v := by
  split
  · rw [← Rat.intCast_natCast, show ((v.natAbs : Nat) : Int) = -v by omega, Rat.intCast_neg]
  · rw [← Rat.intCast_natCast, show ((v.natAbs : Nat) : Int) = v by omega]

theorem Q_neg (x : BitVec 64) : Q (neg x) = -Q x := by
  unfold Q
  rw [val_neg, Rat.intCast_neg]
  grind

theorem Q_nonneg {x : BitVec 64} : 0 ≤ Q x ↔ 0 ≤ val x := by
  have hU := U_pos
  have := Q_mul x
  constructor
  · intro h
    have := Rat.mul_nonneg h (Rat.le_of_lt hU)
    rw [Q_mul] at this
    exact Rat.intCast_nonneg.1 this
  · intro h
    have := Rat.intCast_nonneg.2 h
    rw [← Q_mul] at this
    exact lt_of_mul hU (by grind)

theorem Q_lt {x y : BitVec 64} : Q x < Q y ↔ val x < val y := by
  have hU := U_pos
  rw [← Rat.intCast_lt_intCast, ← Q_mul, ← Q_mul]
  constructor
  · intro h
    exact Rat.mul_lt_mul_of_pos_right h hU
  · intro h
    refine Rat.not_le.1 fun h' => ?_
    have := Rat.mul_le_mul_of_nonneg_right h' (Rat.le_of_lt hU)
    grind

theorem Q_le {x y : BitVec 64} : Q x ≤ Q y ↔ val x ≤ val y := by
  have h := Q_lt (x := y) (y := x)
  constructor
  · intro h1
    refine Int.not_lt.1 fun h2 => ?_
    have := h.2 h2
    grind
  · intro h1
    refine Rat.not_lt.1 fun h2 => ?_
    have := h.1 h2
    omega

theorem near_add {x y : BitVec 64} (hx : isFinite x = true) (hy : isFinite y = true) (j : Nat) (hj : j ≤ 900) (h1 : Q x + Q y < (2 ^ j : Nat)) (h2 : -(Q x + Q y) < (2 ^ j : Nat)) :
    Near (add x y) (Q x + Q y) ((2 ^ j : Nat) * δ) := by
  have hB : (0 : Rat) < (2 ^ j : Nat) := Rat.natCast_pos.2 (Nat.pow_pos (by decide))
  have hv : (Q x + Q y) * U = ((val x + val y : Int) : Rat) := by
    rw [Rat.add_mul, Q_mul, Q_mul, Rat.intCast_add]
  unfold add
  rw [finite_not_nan hx, finite_not_nan hy, finite_not_inf hx, finite_not_inf hy]
  simp only [Bool.or_self, Bool.false_eq_true, if_false]
  generalize val x + val y = v at *
  have hU := U_pos
  split
  · rename_i h0
    rw [h0] at hv
    have e : Q x + Q y = 0 := by
      have : ((0 : Int) : Rat) = 0 := rfl
      rw [this] at hv
      grind
    have hq : Q (mk (isNeg x && isNeg y) 0) = 0 := by
      have : val (mk (isNeg x && isNeg y) 0) = 0 := by rw [val_mk _ (by decide), mag_zero]; simp [signed]
      unfold Q
      rw [this]
      have : ((0 : Int) : Rat) = 0 := rfl
      rw [this]
      grind
    have := Rat.mul_pos hB δ_pos
    refine ⟨?_, by rw [hq, e]; grind, by rw [hq, e]; grind⟩
    rw [isFinite_iff, bits_mk _ (by decide)]
    decide
  · refine near_signed (N := if v < 0 then -(Q x + Q y) else Q x + Q y) (by decide) hj ?_ ?_ ?_
    · rw [natAbs_cast, ← hv]
      have : ((1 : Nat) : Rat) = 1 := rfl
      rw [this]
      split <;> grind
    · split
      · exact h2
      · exact h1
    · simp only [decide_eq_true_eq]
      split <;> grind

theorem near_sub {x y : BitVec 64} (hx : isFinite x = true) (hy : isFinite y = true) (j : Nat) (hj : j ≤ 900) (h1 : Q x - Q y < (2 ^ j : Nat)) (h2 : Q y - Q x < (2 ^ j : Nat)) :
    Near (sub x y) (Q x - Q y) ((2 ^ j : Nat) * δ) := by
  unfold sub
  rw [finite_not_nan hy]
  simp only [Bool.false_eq_true, if_false]
  have := near_add hx (isFinite_neg y ▸ hy) j hj (by rw [Q_neg]; grind) (by rw [Q_neg]; grind)
  rw [Q_neg, show Q x + -Q y = Q x - Q y by grind] at this
  exact this

private theorem val_mag (x : BitVec 64) : ((mag (bits x) : Nat) : Rat) = (if isNeg x then -Q x else Q x) * U := by
  have := Q_mul x
  rw [val_def] at this
  cases h : isNeg x <;> rw [h] at this
  · simp only [Bool.false_eq_true, if_false]
    rw [this]
    rfl
  · simp only [if_true]
    rw [Rat.neg_mul, this]
    simp only [signed, if_true, Rat.intCast_neg, Rat.intCast_natCast]
    grind

theorem near_mul {x y : BitVec 64} (hx : isFinite x = true) (hy : isFinite y = true) (j : Nat) (hj : j ≤ 900) (h1 : Q x * Q y < (2 ^ j : Nat)) (h2 : -(Q x * Q y) < (2 ^ j : Nat)) :
    Near (mul x y) (Q x * Q y) ((2 ^ j : Nat) * δ) := by
  unfold mul
  rw [finite_not_nan hx, finite_not_nan hy, finite_not_inf hx, finite_not_inf hy]
  simp only [Bool.or_self, Bool.false_eq_true, if_false]
  refine near_signed (N := (if isNeg x then -Q x else Q x) * (if isNeg y then -Q y else Q y)) one_pos hj ?_ ?_ ?_
  · rw [Rat.natCast_mul, val_mag, val_mag]
    show _ * (U * U) = _
    grind
  · cases isNeg x <;> cases isNeg y <;> simp only [Bool.false_eq_true, if_false, if_true] <;> grind
  · cases isNeg x <;> cases isNeg y <;> simp only [bne_self_eq_false, Bool.false_eq_true, if_false, if_true, Bool.bne_true, Bool.bne_false, Bool.not_false] <;> grind

theorem near_div {x y : BitVec 64} (hx : isFinite x = true) (hy : isFinite y = true) (j : Nat) (hj : j ≤ 900) {v : Rat} (hv : v * Q y = Q x) (hy0 : 0 < Q y)
    (h1 : v < (2 ^ j : Nat)) (h2 : -v < (2 ^ j : Nat)) : Near (div x y) v ((2 ^ j : Nat) * δ) := by
  have hn : isNeg y = false := by
    cases h : isNeg y with
    | false => rfl
    | true =>
      exfalso
      have := val_mag y
      rw [h] at this
      simp only [if_true] at this
      have h3 : (0 : Rat) ≤ ((mag (bits y) : Nat) : Rat) := Rat.natCast_nonneg
      have := Rat.mul_pos hy0 U_pos
      grind
  have hm : 0 < mag (bits y) := by
    refine Rat.natCast_pos.1 ?_
    rw [val_mag, hn]
    simp only [Bool.false_eq_true, if_false]
    exact Rat.mul_pos hy0 U_pos
  have hb : bits y ≠ 0 := fun h => by rw [h, mag_zero] at hm; omega
  unfold div
  rw [finite_not_nan hx, finite_not_nan hy, finite_not_inf hx, finite_not_inf hy]
  simp only [Bool.or_self, Bool.false_eq_true, if_false, if_neg hb]
  refine near_signed (N := if isNeg x then -v else v) hm hj ?_ ?_ ?_
  · rw [Rat.natCast_mul, val_mag, val_mag, hn]
    show _ = _ * U
    simp only [Bool.false_eq_true, if_false]
    split <;> grind
  · split
    · exact h2
    · exact h1
  · rw [hn]
    cases isNeg x <;> simp only [bne_self_eq_false, Bool.false_eq_true, if_false, if_true, Bool.bne_false] <;> grind

theorem Q_abs (x : BitVec 64) : Q (abs x) = if Q x < 0 then -Q x else Q x := by
  have h1 : val (abs x) = mag (bits x) := by
    unfold abs
    rw [val_mk _ (bits_lt x)]
    rfl
  have h2 : Q (abs x) * U = (if isNeg x then -Q x else Q x) * U := by
    rw [Q_mul, h1, Rat.intCast_natCast, val_mag]
  have h3 : Q (abs x) = if isNeg x then -Q x else Q x := mul_cancel U_pos h2
  have h4 : (0 : Rat) ≤ Q (abs x) := Q_nonneg.2 (by rw [h1]; omega)
  rw [h3] at h4 ⊢
  split <;> split <;> grind

theorem finite_abs {x : BitVec 64} (h : isFinite x = true) : isFinite (abs x) = true := by
  rw [isFinite_iff] at *
  unfold abs
  rwa [bits_mk _ (bits_lt x)]

theorem near_rem {x y : BitVec 64} (hx : isFinite x = true) (hy : isFinite y = true) (hx0 : 0 ≤ Q x) (hy0 : 0 < Q y) :
    isFinite (rem x y) = true ∧ ∃ k : Nat, Q (rem x y) = Q x - k * Q y ∧ 0 ≤ Q (rem x y) ∧ Q (rem x y) < Q y := by
  have hval : 0 < val y := by
    refine Int.not_le.1 fun h => ?_
    have h1 := (Q_le (x := y) (y := 0)).2 (by rw [show val 0 = 0 from rfl]; exact h)
    have h2 : Q 0 = 0 := by decide +kernel
    grind
  have hxv := Q_nonneg.1 hx0
  have hb : bits y ≠ 0 := fun h => by rw [val_eq_zero.2 h] at hval; omega
  have hm : mag (bits y) ≠ 0 := fun h' => hb (mag_eq_zero.1 h')
  obtain ⟨c, hc, hle⟩ := rep_mod (bits x) (bits y) hm
  have hci : c < infBits := Nat.lt_of_le_of_lt hle (isFinite_iff.1 hx)
  have hlt : c < 2 ^ 63 := Nat.lt_trans hci infBits_lt
  have e : rem x y = mk (isNeg x) c := by
    unfold rem
    rw [finite_not_nan hx, finite_not_nan hy, finite_not_inf hx, finite_not_inf hy]
    simp only [Bool.or_self, Bool.false_or, decide_eq_true_eq, hb, if_false, Bool.false_eq_true]
    exact round_exact _ (by decide) hci (by rw [hc, Nat.mul_one])
  have hmx : val x = mag (bits x) := by
    have := val_natAbs x
    omega
  have hmy : val y = mag (bits y) := by
    have := val_natAbs y
    omega
  have hv : val (rem x y) = ((mag (bits x) % mag (bits y) : Nat) : Int) := by
    rw [e, val_mk _ hlt, hc]
    cases hn : isNeg x with
    | false => rfl
    | true =>
      rw [val_def, hn] at hxv
      simp only [signed, if_true] at hxv ⊢
      rw [show mag (bits x) = 0 by omega, Nat.zero_mod]
      rfl
  refine ⟨by rw [e, isFinite_iff, bits_mk _ hlt]; exact hci, mag (bits x) / mag (bits y), ?_, Q_nonneg.2 (by rw [hv]; omega), Q_lt.2 ?_⟩
  · have h1 : Q (rem x y) * U = (Q x - ((mag (bits x) / mag (bits y) : Nat) : Rat) * Q y) * U := by
      rw [show ∀ a b c d : Rat, (a - b * c) * d = a * d - b * (c * d) by grind, Q_mul, Q_mul, Q_mul, hv, hmx, hmy, Rat.intCast_natCast, Rat.intCast_natCast, Rat.intCast_natCast, ← Rat.natCast_mul]
      have := Nat.div_add_mod (mag (bits x)) (mag (bits y))
      have h2 : ((mag (bits y) * (mag (bits x) / mag (bits y)) + mag (bits x) % mag (bits y) : Nat) : Rat) = ((mag (bits x) : Nat) : Rat) := by rw [this]
      rw [Rat.natCast_add, Nat.mul_comm] at h2
      grind
    exact mul_cancel U_pos h1
  · rw [hv, hmy]
    exact Int.ofNat_lt.2 (Nat.mod_lt _ (by omega))

end Quilt.Ieee
