import Verif.Lib.IeeeRat
import Verif.Props.Colors

/-!
# Hues: C62, continued

What `@hsl` and `@hsv` compute, for all hues from 0 to 360, against the colour wheel in rational numbers.
-/

namespace Quilt.Props

open Lib Ieee

set_option exponentiation.threshold 4000

variable {C : Type}

/-! ## The colour wheel -/

def part (t : Rat) : Rat := if t < 0 then 0 else if 1 < t then 1 else t

def distance (a b : Rat) : Rat := if a < b then b - a else a - b

/-- The share of red, green and blue at the position `p` on the wheel, from 0 to 6: red is at 0 and 6, green at 2, blue at 4; a primary is full up
to one away from its position, nothing from two on. -/
def redAt (p : Rat) : Rat := part (distance p 3 - 1)
def greenAt (p : Rat) : Rat := part (2 - distance p 2)
def blueAt (p : Rat) : Rat := part (2 - distance p 4)

/-- The channel nearest to `255 v`, up to an error of 2^-39. -/
def Shade (x : BitVec 8) (v : Rat) : Prop := distance x.toNat (255 * v) ≤ 1 / 2 + 1 / 2 ^ 39

/-! ## Proofs -/

private theorem q60 : Q f60 = 60 := by decide +kernel
private theorem q2 : Q f2 = 2 := by decide +kernel
private theorem q1 : Q f1 = 1 := by decide +kernel
private theorem q0 : Q 0 = 0 := by decide +kernel

private theorem small : 1000000 * δ < 1 := by decide +kernel

private theorem p1 : ((2 ^ 1 : Nat) : Rat) = 2 := by decide +kernel
private theorem p2 : ((2 ^ 2 : Nat) : Rat) = 4 := by decide +kernel
private theorem p3 : ((2 ^ 3 : Nat) : Rat) = 8 := by decide +kernel

/-- A product with a factor between 0 and 1. -/
private theorem scale {c a b e : Rat} (h0 : 0 ≤ c) (h1 : c ≤ 1) (he : 0 ≤ e) (ha : a - b ≤ e) (hb : b - a ≤ e) : c * a - c * b ≤ e ∧ c * b - c * a ≤ e := by
  have e1 := Rat.mul_le_mul_of_nonneg_left ha h0
  have e2 := Rat.mul_le_mul_of_nonneg_left hb h0
  have e3 := Rat.mul_le_mul_of_nonneg_right h1 he
  constructor <;> grind

private theorem prod_le {c t : Rat} (h0 : 0 ≤ c) (t0 : 0 ≤ t) (t1 : t ≤ 1) : 0 ≤ c * t ∧ c * t ≤ c := by
  refine ⟨Rat.mul_nonneg h0 t0, ?_⟩
  have := Rat.mul_le_mul_of_nonneg_left t1 h0
  grind

/-- The hue as a position. -/
private theorem near_position {h : BitVec 64} (hh : isFinite h = true) (h0 : 0 ≤ Q h) (h1 : Q h < 360) : Near (div h f60) (Q h / 60) (8 * δ) ∧ 0 ≤ Q (div h f60) := by
  have hs := small
  have := near_div hh (y := f60) (by decide) 3 (by decide) (v := Q h / 60) (by rw [q60]; grind) (by rw [q60]; decide +kernel) (by rw [p3]; grind) (by rw [p3]; grind)
  rw [p3] at this
  refine ⟨this, ?_⟩
  cases hn : isNeg (div h f60) with
  | false =>
    refine Q_nonneg.2 ?_
    rw [val_def, hn]
    exact Int.natCast_nonneg _
  | true =>
    have hv := Q_nonneg.1 h0
    have e : div h f60 = round (isNeg h) (mag (bits h) * one) (mag (bits f60)) := by
      unfold div
      rw [finite_not_nan hh, finite_not_inf hh]
      have a1 : isNaN f60 = false := by decide
      have a2 : isInf f60 = false := by decide
      have a3 : bits f60 ≠ 0 := by decide
      have a4 : isNeg f60 = false := by decide
      simp only [a1, a2, a3, a4, Bool.or_self, Bool.false_eq_true, if_false, Bool.bne_false]
    rw [e, isNeg_round] at hn
    rw [val_def, hn] at hv
    simp only [signed, if_true] at hv
    have hm : mag (bits h) = 0 := by omega
    have hz : val (div h f60) = 0 := by
      rw [e, hm, Nat.zero_mul, val_eq_zero, bits_round, roundMag_zero _ (by decide +kernel)]
      exact Nat.zero_min _
    exact Q_nonneg.2 (by rw [hz]; omega)

/-- The share of the second colour. -/
private theorem near_second {H : BitVec 64} (hH : isFinite H = true) (h0 : 0 ≤ Q H) (h1 : Q H < 8) : ∃ k : Nat, k ≤ 3 ∧ 2 * (k : Rat) ≤ Q H ∧ Q H < 2 * k + 2 ∧
    Near (sub f1 (Ieee.abs (sub (rem H f2) f1))) (1 - distance (Q H - 2 * k) 1) (4 * δ) := by
  have hs := small
  have hδ := δ_pos
  obtain ⟨r1, k, r2, r3, r4⟩ := near_rem hH (y := f2) (by decide) h0 (by rw [q2]; decide +kernel)
  rw [q2] at r2 r4
  have d1 := near_sub r1 (y := f1) (by decide) 1 (by decide) (by rw [q1, p1]; grind) (by rw [q1, p1]; grind)
  rw [p1, q1] at d1
  obtain ⟨d1, d2, d3⟩ := d1
  have ha := Q_abs (sub (rem H f2) f1)
  have s1 := near_sub (x := f1) (by decide) (finite_abs d1) 1 (by decide) (by rw [q1, p1]; grind) (by rw [q1, p1]; grind)
  rw [p1, q1] at s1
  obtain ⟨s1, s2, s3⟩ := s1
  refine ⟨k, ?_, by grind, by grind, s1, ?_, ?_⟩
  · have : (k : Rat) < ((4 : Nat) : Rat) := by
      have : ((4 : Nat) : Rat) = 4 := rfl
      rw [this]
      grind
    exact Nat.le_of_lt_succ (Rat.natCast_lt_natCast.1 this)
  · unfold distance; grind
  · unfold distance; grind

private theorem near_unit (R : Rest) {x : BitVec 64} {v e : Rat} (hx : Near x v e) (h0 : 0 ≤ v) (h1 : v ≤ 1) : ∃ u, Is (Lib.unit (ops R) x) u ∧ u ≤ one ∧
    (u : Rat) - v * U ≤ e * U ∧ v * U - u ≤ e * U := by
  obtain ⟨u, hu, hs⟩ := share R x
  have hn := finite_not_nan hx.finite
  have hU := U_pos
  have e1 : ((2 : Int) ^ 1074 : Int) = (one : Nat) := rfl
  have hq := Q_mul x
  have a1 := Rat.mul_le_mul_of_nonneg_right hx.lo (Rat.le_of_lt hU)
  have a2 := Rat.mul_le_mul_of_nonneg_right hx.hi (Rat.le_of_lt hU)
  have a3 := Rat.mul_le_mul_of_nonneg_right h0 (Rat.le_of_lt hU)
  have a4 := Rat.mul_le_mul_of_nonneg_right h1 (Rat.le_of_lt hU)
  refine ⟨u, hu, hs.le, ?_⟩
  have hcast : ∀ {a b : Int}, a ≤ b → (a : Rat) ≤ (b : Rat) := fun h => Rat.intCast_le_intCast.2 h
  have hone : ((one : Nat) : Rat) = U := rfl
  have z : ((0 : Int) : Rat) = 0 := rfl
  by_cases g0 : val x ≤ 0
  · rw [hs.low hn g0]
    have := hcast g0
    rw [z] at this
    have z' : ((0 : Nat) : Rat) = 0 := rfl
    rw [z']
    constructor <;> grind
  · by_cases g1 : val x ≤ 2 ^ 1074
    · have h2 := hs.mid hn (by omega) g1
      have : (u : Rat) = (val x : Rat) := by rw [← h2, Rat.intCast_natCast]
      rw [this]
      constructor <;> grind
    · have h2 : u = one := hs.high hn (by omega)
      rw [e1] at g1
      have := hcast (show ((one : Nat) : Int) ≤ val x by omega)
      rw [Rat.intCast_natCast, hone] at this
      rw [h2, hone]
      constructor <;> grind

private theorem near_level (R : Rest) {x m : BitVec 64} {v a b : Rat} (hx : Near x v (25 * δ)) (hm : Near m a (9 * δ)) (hb : b = v + a) (h0 : 0 ≤ b) (h1 : b ≤ 1) :
    Shade (level (ops R) x m) b := by
  have hs := small
  have hδ := δ_pos
  obtain ⟨x1, x2, x3⟩ := hx
  obtain ⟨m1, m2, m3⟩ := hm
  have s := near_add x1 m1 1 (by decide) (by rw [p1]; grind) (by rw [p1]; grind)
  rw [p1] at s
  obtain ⟨u, u1, u2, u3, u4⟩ := near_unit R (v := b) (e := 36 * δ) (s.of (by grind) (by grind)) h0 h1
  have hl := level_of R u1 u2
  have e : level (ops R) x m = roundU8 (ops R) (mul (Lib.unit (ops R) (add x m)) f255) := rfl
  rw [← e] at hl
  generalize level (ops R) x m = c at *
  unfold Level at hl
  have hU := U_pos
  have e32 : (2 : Nat) ^ 1032 * 4398046511104 = one := by decide +kernel
  have e1 : (2 : Nat) ^ 1074 = one := rfl
  rw [e1] at hl
  generalize (2 : Nat) ^ 1032 = G at *
  have hG : (G : Rat) * 4398046511104 = U := by
    have : ((G * 4398046511104 : Nat) : Rat) = ((one : Nat) : Rat) := by rw [e32]
    rw [Rat.natCast_mul] at this
    exact this
  have e2 : (2 : Int) ^ 1074 = (one : Nat) := rfl
  have hab : 2 * ((c.toNat * one : Nat) - (255 * u : Nat) : Int) ≤ ((one + G : Nat) : Int) ∧ 2 * ((255 * u : Nat) - (c.toNat * one : Nat) : Int) ≤ ((one + G : Nat) : Int) := by
    rw [e2] at hl
    rw [← Int.natCast_mul] at hl
    generalize one = o at *
    omega
  have r1 := Rat.intCast_le_intCast.2 hab.1
  have r2 := Rat.intCast_le_intCast.2 hab.2
  have t2 : ((2 : Int) : Rat) = 2 := rfl
  have t255 : ((255 : Nat) : Rat) = 255 := rfl
  have hone : ((one : Nat) : Rat) = U := rfl
  simp only [Rat.intCast_mul, Rat.intCast_sub, Rat.intCast_natCast, Rat.natCast_mul, Rat.natCast_add, t2, t255, hone] at r1 r2
  have hδU : 18014398509481984 * (δ * U) = U := by
    rw [← Rat.mul_assoc, show 18014398509481984 * δ = 1 by decide +kernel, Rat.one_mul]
  unfold Shade distance
  have k : ∀ a b e : Rat, a * U ≤ b * U → a ≤ b := fun a b _ h => by
    refine Rat.not_lt.1 fun h' => ?_
    have := Rat.mul_lt_mul_of_pos_right h' hU
    grind
  split
  · refine k _ _ 0 ?_
    grind
  · refine k _ _ 0 ?_
    grind

private theorem near_x {c t : Rat} {cF uF : BitVec 64} (hc : Near cF c (10 * δ)) (c0 : 0 ≤ c) (c1 : c ≤ 1) (hu : Near uF t (4 * δ)) (t0 : 0 ≤ t) (t1 : t ≤ 1) :
    Near (mul cF uF) (c * t) (17 * δ) := by
  have hs := small
  have hδ := δ_pos
  obtain ⟨f1, l1, g1⟩ := hc
  obtain ⟨f2, l2, g2⟩ := hu
  -- `(Q cF - c) Q uF + c (Q uF - t)`
  obtain ⟨a1, a2⟩ := scale (c := c) (a := Q uF) (b := t) c0 c1 (e := 4 * δ) (by grind) g2 l2
  have hw : Q uF ≤ 1 + 4 * δ ∧ -(4 * δ) ≤ Q uF := ⟨by grind, by grind⟩
  have b1 : (Q cF - c) * Q uF ≤ 11 * δ ∧ -(11 * δ) ≤ (Q cF - c) * Q uF := by
    by_cases hw0 : 0 ≤ Q uF
    · have e1 := Rat.mul_le_mul_of_nonneg_right g1 hw0
      have e2 := Rat.mul_le_mul_of_nonneg_right l1 hw0
      have e3 := Rat.mul_le_mul_of_nonneg_left hw.1 (show 0 ≤ 10 * δ by grind)
      have e4 : δ * (1000000 * δ) ≤ δ * 1 := Rat.mul_le_mul_of_nonneg_left (Rat.le_of_lt hs) (Rat.le_of_lt hδ)
      constructor <;> grind
    · have n0 : 0 ≤ -Q uF := by grind
      have e1 := Rat.mul_le_mul_of_nonneg_right g1 n0
      have e2 := Rat.mul_le_mul_of_nonneg_right l1 n0
      have e3 := Rat.mul_le_mul_of_nonneg_left (show -Q uF ≤ 1 by grind) (show 0 ≤ 10 * δ by grind)
      constructor <;> grind
  have hprod := prod_le c0 t0 t1
  have m := near_mul f1 f2 1 (by decide) (by rw [p1]; grind) (by rw [p1]; grind)
  rw [p1] at m
  exact m.of (by grind) (by grind)

private theorem lt_iff {x y : BitVec 64} (hx : isFinite x = true) (hy : isFinite y = true) (R : Rest) : (ops R).F.lt x y = decide (Q x < Q y) := by
  show Ieee.lt x y = _
  simp only [Ieee.lt, finite_not_nan hx, finite_not_nan hy, Bool.not_false, Bool.true_and, rank_lt_iff, Q_lt]

private theorem q3 : Q f3 = 3 := by decide +kernel
private theorem q4 : Q f4 = 4 := by decide +kernel
private theorem q5 : Q f5 = 5 := by decide +kernel

/-- The six sectors have the shares of the wheel. -/
private theorem near_sector (R : Rest) {H cF X : BitVec 64} {c t p : Rat} (hH : isFinite H = true) (hc : Near cF c (10 * δ)) (hX : Near X (c * t) (17 * δ)) {k : Nat} (hk : k ≤ 3)
    (k1 : 2 * (k : Rat) ≤ Q H) (k2 : Q H < 2 * k + 2) (ht : t = 1 - distance (Q H - 2 * k) 1) (p0 : 0 ≤ p) (p6 : p < 6) (d1 : p - Q H ≤ 8 * δ) (d2 : Q H - p ≤ 8 * δ) :
    ∃ r g b fr fg fb, sector (ops R) H cF X = (r, g, b) ∧ Near r (c * fr) (17 * δ) ∧ Near g (c * fg) (17 * δ) ∧ Near b (c * fb) (17 * δ) ∧
      (fr - redAt p ≤ 8 * δ ∧ redAt p - fr ≤ 8 * δ) ∧ (fg - greenAt p ≤ 8 * δ ∧ greenAt p - fg ≤ 8 * δ) ∧ (fb - blueAt p ≤ 8 * δ ∧ blueAt p - fb ≤ 8 * δ) := by
  have hs := small
  have hδ := δ_pos
  have hcc : Near cF (c * 1) (17 * δ) := hc.of (by grind) (by grind)
  have h00 : Near 0 (c * 0) (17 * δ) := (Near.self (x := 0) (by decide)).of (by rw [q0]; grind) (by rw [q0]; grind)
  unfold sector
  rw [lt_iff hH (by decide), lt_iff hH (by decide), lt_iff hH (by decide), lt_iff hH (by decide), lt_iff hH (by decide), q1, q2, q3, q4, q5]
  simp only [decide_eq_true_eq]
  unfold redAt greenAt blueAt part distance
  unfold distance at ht
  generalize Q H = q at *
  have c0 : ((0 : Nat) : Rat) = 0 := rfl
  have c1 : ((1 : Nat) : Rat) = 1 := rfl
  have c2 : ((2 : Nat) : Rat) = 2 := rfl
  have c3 : ((3 : Nat) : Rat) = 3 := rfl
  have hk' : k = 0 ∨ k = 1 ∨ k = 2 ∨ k = 3 := by omega
  split
  · refine ⟨_, _, _, 1, t, 0, rfl, hcc, hX, h00, ?_⟩
    rcases hk' with rfl | rfl | rfl | rfl
    · rw [c0] at *; grind
    · rw [c1] at *; grind
    · rw [c2] at *; grind
    · rw [c3] at *; grind
  split
  · refine ⟨_, _, _, t, 1, 0, rfl, hX, hcc, h00, ?_⟩
    rcases hk' with rfl | rfl | rfl | rfl
    · rw [c0] at *; grind
    · rw [c1] at *; grind
    · rw [c2] at *; grind
    · rw [c3] at *; grind
  split
  · refine ⟨_, _, _, 0, 1, t, rfl, h00, hcc, hX, ?_⟩
    rcases hk' with rfl | rfl | rfl | rfl
    · rw [c0] at *; grind
    · rw [c1] at *; grind
    · rw [c2] at *; grind
    · rw [c3] at *; grind
  split
  · refine ⟨_, _, _, 0, t, 1, rfl, h00, hX, hcc, ?_⟩
    rcases hk' with rfl | rfl | rfl | rfl
    · rw [c0] at *; grind
    · rw [c1] at *; grind
    · rw [c2] at *; grind
    · rw [c3] at *; grind
  split
  · refine ⟨_, _, _, t, 0, 1, rfl, hX, h00, hcc, ?_⟩
    rcases hk' with rfl | rfl | rfl | rfl
    · rw [c0] at *; grind
    · rw [c1] at *; grind
    · rw [c2] at *; grind
    · rw [c3] at *; grind
  · refine ⟨_, _, _, 1, 0, t, rfl, hcc, h00, hX, ?_⟩
    rcases hk' with rfl | rfl | rfl | rfl
    · rw [c0] at *; grind
    · rw [c1] at *; grind
    · rw [c2] at *; grind
    · rw [c3] at *; grind

private theorem part_range (t : Rat) : 0 ≤ part t ∧ part t ≤ 1 := by unfold part; grind

private theorem near_shade (R : Rest) {x mF : BitVec 64} {c m f t : Rat} (c0 : 0 ≤ c) (c1 : c ≤ 1) (hm : Near mF m (9 * δ)) (m0 : 0 ≤ m) (m1 : m + c ≤ 1)
    (hx : Near x (c * f) (17 * δ)) (d1 : f - t ≤ 8 * δ) (d2 : t - f ≤ 8 * δ) (t0 : 0 ≤ t) (t1 : t ≤ 1) : Shade (level (ops R) x mF) (m + c * t) := by
  have hδ := δ_pos
  obtain ⟨a1, a2⟩ := scale c0 c1 (show 0 ≤ 8 * δ by grind) d1 d2
  have hp := prod_le c0 t0 t1
  exact near_level R (v := c * t) (hx.of (by grind) (by grind)) hm (by grind) (by grind) (by grind)

private theorem wheel_eq (R : Rest) (h cF mF a r g b : BitVec 64)
    (e : sector (ops R) (div h f60) cF (mul cF (sub f1 (Ieee.abs (sub (rem (div h f60) f2) f1)))) = (r, g, b)) :
    wheel (C := C) (ops R) h cF mF a = .color (level (ops R) r mF) (level (ops R) g mF) (level (ops R) b mF) (roundU8 (ops R) (mul a f255)) := by
  have w : wheel (C := C) (ops R) h cF mF a = (fun t : BitVec 64 × BitVec 64 × BitVec 64 => .color (level (ops R) t.1 mF) (level (ops R) t.2.1 mF) (level (ops R) t.2.2 mF)
      (roundU8 (ops R) (mul a f255))) (sector (ops R) (div h f60) cF (mul cF (sub f1 (Ieee.abs (sub (rem (div h f60) f2) f1))))) := rfl
  rw [w, e]

/-- The end of both conversions. -/
private theorem near_wheel (R : Rest) {h cF mF a : BitVec 64} {c m : Rat} (hh : isFinite h = true) (h0 : 0 ≤ Q h) (h1 : Q h < 360) (hc : Near cF c (10 * δ)) (c0 : 0 ≤ c) (c1 : c ≤ 1)
    (hm : Near mF m (9 * δ)) (m0 : 0 ≤ m) (m1 : m + c ≤ 1) : ∃ r g b, wheel (C := C) (ops R) h cF mF a = .color r g b (roundU8 (ops R) (mul a f255)) ∧
      Shade r (m + c * redAt (Q h / 60)) ∧ Shade g (m + c * greenAt (Q h / 60)) ∧ Shade b (m + c * blueAt (Q h / 60)) := by
  have hs := small
  have hδ := δ_pos
  obtain ⟨⟨H1, H2, H3⟩, H4⟩ := near_position hh h0 h1
  obtain ⟨k, k0, k1, k2, hu⟩ := near_second H1 H4 (by grind)
  have ht : 0 ≤ 1 - distance (Q (div h f60) - 2 * k) 1 ∧ 1 - distance (Q (div h f60) - 2 * k) 1 ≤ 1 := by
    clear hc hm hu
    unfold distance
    generalize Q (div h f60) = q at *
    grind
  have hX := near_x hc c0 c1 hu ht.1 ht.2
  have hp : 0 ≤ Q h / 60 ∧ Q h / 60 < 6 := by
    generalize Q h = q at *
    constructor <;> grind
  generalize ht' : 1 - distance (Q (div h f60) - 2 * k) 1 = t at *
  generalize Q h / 60 = p at *
  obtain ⟨r, g, b, fr, fg, fb, e, nr, ng, nb, ⟨dr1, dr2⟩, ⟨dg1, dg2⟩, ⟨db1, db2⟩⟩ := near_sector R H1 hc hX k0 k1 k2 ht'.symm hp.1 hp.2 H2 H3
  refine ⟨level (ops R) r mF, level (ops R) g mF, level (ops R) b mF, ?_, near_shade R c0 c1 hm m0 m1 nr dr1 dr2 (part_range _).1 (part_range _).2,
    near_shade R c0 c1 hm m0 m1 ng dg1 dg2 (part_range _).1 (part_range _).2, near_shade R c0 c1 hm m0 m1 nb db1 db2 (part_range _).1 (part_range _).2⟩
  exact wheel_eq R h cF mF a r g b e

private theorem level_eq (R : Rest) (x m : BitVec 64) : level (ops R) x m = roundU8 (ops R) (mul (Ieee.min (Ieee.max (add x m) 0) f1) f255) := by
  have e : level (ops R) x m = roundU8 (ops R) (mul (Lib.unit (ops R) (add x m)) f255) := rfl
  have u : ∀ t, Lib.unit (ops R) t = Ieee.min (Ieee.max t 0) f1 := fun _ => rfl
  rw [e, u]

section
variable (R : Rest) (chk : Bool) (cname : C → String) (lim : Limits)

/-- `@hsl`: the colour of this hue in degrees, saturation and lightness. -/
theorem C62_hsl {h s l : BitVec 64} (hh : isFinite h = true) (hs : isFinite s = true) (hl : isFinite l = true) (h0 : 0 ≤ Q h) (h1 : Q h < 360) (s0 : 0 ≤ Q s) (s1 : Q s ≤ 1)
    (l0 : 0 ≤ Q l) (l1 : Q l ≤ 1) : ∃ r g b, callStd (ops R) chk cname lim "hsl" [.float h, .float s, .float l] = some (.ok (.color r g b 255)) ∧
    let c := (1 - distance (2 * Q l) 1) * Q s
    let m := Q l - c / 2
    Shade r (m + c * redAt (Q h / 60)) ∧ Shade g (m + c * greenAt (Q h / 60)) ∧ Shade b (m + c * blueAt (Q h / 60)) := by
  have hsm := small
  have hδ := δ_pos
  have a1 := near_mul (x := f2) (by decide) hl 2 (by decide) (by rw [q2, p2]; grind) (by rw [q2, p2]; grind)
  rw [q2, p2] at a1
  obtain ⟨a1, a2, a3⟩ := a1
  have b1 := near_sub a1 (y := f1) (by decide) 1 (by decide) (by rw [q1, p1]; grind) (by rw [q1, p1]; grind)
  rw [q1, p1] at b1
  obtain ⟨b1, b2, b3⟩ := b1
  have habs := Q_abs (sub (mul f2 l) f1)
  have c1 := near_sub (x := f1) (by decide) (finite_abs b1) 1 (by decide) (by rw [q1, p1]; grind) (by rw [q1, p1]; grind)
  rw [q1, p1] at c1
  obtain ⟨c1, c2, c3⟩ := c1
  -- the chroma
  generalize hA : 1 - distance (2 * Q l) 1 = A
  have hA0 : 0 ≤ A ∧ A ≤ 1 ∧ A ≤ 2 * Q l ∧ A ≤ 2 - 2 * Q l := by unfold distance at hA; grind
  have hD : Q (sub f1 (Ieee.abs (sub (mul f2 l) f1))) - A ≤ 8 * δ ∧ A - Q (sub f1 (Ieee.abs (sub (mul f2 l) f1))) ≤ 8 * δ := by unfold distance at hA; grind
  generalize haf : sub f1 (Ieee.abs (sub (mul f2 l) f1)) = af at *
  obtain ⟨e1, e2⟩ := scale s0 s1 (show 0 ≤ 8 * δ by grind) hD.1 hD.2
  have hp := prod_le (c := A) hA0.1 s0 s1
  have m1 := near_mul c1 hs 1 (by decide) (by rw [p1]; grind) (by rw [p1]; grind)
  rw [p1] at m1
  have hC : Near (mul af s) (A * Q s) (10 * δ) := m1.of (by grind) (by grind)
  -- what is added
  have d1 := near_div hC.finite (y := f2) (by decide) 1 (by decide) (v := Q (mul af s) / 2) (by rw [q2]; grind) (by rw [q2]; decide +kernel)
    (by rw [p1]; have := hC.hi; grind) (by rw [p1]; have := hC.lo; grind)
  rw [p1] at d1
  obtain ⟨d1, d2, d3⟩ := d1
  have k1 := hC.lo
  have k2 := hC.hi
  have n1 := near_sub hl d1 1 (by decide) (by rw [p1]; grind) (by rw [p1]; grind)
  rw [p1] at n1
  have hM : Near (sub l (div (mul af s) f2)) (Q l - A * Q s / 2) (9 * δ) := n1.of (by grind) (by grind)
  obtain ⟨r, g, b, w, w1, w2, w3⟩ := near_wheel (C := C) (a := f1) R hh h0 h1 hC (by grind) (by grind) hM (by grind) (by grind)
  rw [opaque_one] at w
  subst haf
  exact ⟨r, g, b, congrArg (fun v => some (Res.ok v)) w, w1, w2, w3⟩

/-- `@hsv`: the colour of this hue in degrees, saturation and value. -/
theorem C62_hsv {h s v : BitVec 64} (hh : isFinite h = true) (hs : isFinite s = true) (hv : isFinite v = true) (h0 : 0 ≤ Q h) (h1 : Q h < 360) (s0 : 0 ≤ Q s) (s1 : Q s ≤ 1)
    (v0 : 0 ≤ Q v) (v1 : Q v ≤ 1) : ∃ r g b, callStd (ops R) chk cname lim "hsv" [.float h, .float s, .float v] = some (.ok (.color r g b 255)) ∧
    let c := Q v * Q s
    let m := Q v - c
    Shade r (m + c * redAt (Q h / 60)) ∧ Shade g (m + c * greenAt (Q h / 60)) ∧ Shade b (m + c * blueAt (Q h / 60)) := by
  have hsm := small
  have hδ := δ_pos
  have hp := prod_le v0 s0 s1
  have m1 := near_mul hv hs 1 (by decide) (by rw [p1]; grind) (by rw [p1]; grind)
  rw [p1] at m1
  have hC : Near (mul v s) (Q v * Q s) (10 * δ) := m1.of (by grind) (by grind)
  obtain ⟨c1, c2, c3⟩ := m1
  have n1 := near_sub hv c1 1 (by decide) (by rw [p1]; grind) (by rw [p1]; grind)
  rw [p1] at n1
  have hM : Near (sub v (mul v s)) (Q v - Q v * Q s) (9 * δ) := n1.of (by grind) (by grind)
  obtain ⟨r, g, b, w, w1, w2, w3⟩ := near_wheel (C := C) (a := f1) R hh h0 h1 hC (by grind) (by grind) hM (by grind) (by grind)
  rw [opaque_one] at w
  exact ⟨r, g, b, congrArg (fun v => some (Res.ok v)) w, w1, w2, w3⟩

/-- Hues do not go round: 480 degrees is 120 degrees, that is green, and -120 degrees is blue; both give red. -/
theorem C62_violated_hue :
    callStd (ops R) chk cname lim "hsl" [.float 0x407E000000000000, .float f1, .float 0x3FE0000000000000] = some (.ok (.color 255 0 0 255 : Val C)) ∧
    callStd (ops R) chk cname lim "hsl" [.float 0xC05E000000000000, .float f1, .float 0x3FE0000000000000] = some (.ok (.color 255 0 0 255 : Val C)) ∧
    callStd (ops R) chk cname lim "hsl" [.float 0x405E000000000000, .float f1, .float 0x3FE0000000000000] = some (.ok (.color 0 255 0 255 : Val C)) := by
  have m0 : sub 0x3FE0000000000000 (div (mul (sub f1 (Ieee.abs (sub (mul f2 0x3FE0000000000000) f1))) f1) f2) = 0 := by decide +kernel
  have c1 : mul (sub f1 (Ieee.abs (sub (mul f2 0x3FE0000000000000) f1))) f1 = f1 := by decide +kernel
  have l1 : level (ops R) f1 0 = 255 := by
    have h : toRange 0 255 (roundHalf (mul (Ieee.min (Ieee.max (add f1 0) 0) f1) f255)) = 255 := by decide +kernel
    have e : level (ops R) f1 0 = roundU8 (ops R) (mul (Ieee.min (Ieee.max (add f1 0) 0) f1) f255) := level_eq R _ _
    rw [e, roundU8_eq, h]
    decide
  have l0 : level (ops R) 0 0 = 0 := by
    have h : toRange 0 255 (roundHalf (mul (Ieee.min (Ieee.max (add 0 0) 0) f1) f255)) = 0 := by decide +kernel
    have e : level (ops R) 0 0 = roundU8 (ops R) (mul (Ieee.min (Ieee.max (add 0 0) 0) f1) f255) := level_eq R _ _
    rw [e, roundU8_eq, h]
    decide
  have key : ∀ (h r g b : BitVec 64), sector (ops R) (div h f60) f1 (mul f1 (sub f1 (Ieee.abs (sub (rem (div h f60) f2) f1)))) = (r, g, b) →
      callStd (ops R) chk cname lim "hsl" [.float h, .float f1, .float 0x3FE0000000000000] = some (.ok (.color (level (ops R) r 0) (level (ops R) g 0) (level (ops R) b 0) 255 : Val C)) := by
    intro h r g b e
    have w := wheel_eq (C := C) R h f1 0 f1 r g b e
    rw [opaque_one] at w
    have e1 : ∀ s l : BitVec 64, callStd (ops R) chk cname lim "hsl" [.float h, .float s, .float l] = some (.ok (wheel (ops R) h (mul (sub f1 (Ieee.abs (sub (mul f2 l) f1))) s)
        (sub l (div (mul (sub f1 (Ieee.abs (sub (mul f2 l) f1))) s) f2)) f1 : Val C)) := fun _ _ => rfl
    rw [e1, m0, c1, w]
  have lt_of : ∀ {x y : BitVec 64} {b : Bool}, Ieee.lt x y = b → (ops R).F.lt x y = b := fun h => h
  refine ⟨?_, ?_, ?_⟩
  · rw [key _ f1 0 0, l1, l0]
    unfold sector
    rw [lt_of (b := false) (by decide +kernel), lt_of (b := false) (by decide +kernel), lt_of (b := false) (by decide +kernel), lt_of (b := false) (by decide +kernel), lt_of (b := false) (by decide +kernel)]
    exact congrArg (fun x => (f1, 0, x)) (by decide +kernel)
  · rw [key _ f1 0 0, l1, l0]
    unfold sector
    rw [lt_of (b := true) (by decide +kernel)]
    exact congrArg (fun x => (f1, x, 0)) (by decide +kernel)
  · rw [key _ 0 f1 0, l1, l0]
    unfold sector
    rw [lt_of (b := false) (by decide +kernel), lt_of (b := false) (by decide +kernel), lt_of (b := true) (by decide +kernel)]
    exact congrArg (fun x => (0, f1, x)) (by decide +kernel)

/-- Linear interpolation, with at most the error of three roundings. -/
theorem C66_interp {a b t : BitVec 64} {j : Nat} (hj : j ≤ 890) (ha : isFinite a = true) (hb : isFinite b = true) (ht : isFinite t = true) (a0 : Q a ≤ (2 ^ j : Nat)) (a1 : -Q a ≤ (2 ^ j : Nat))
    (b0 : Q b ≤ (2 ^ j : Nat)) (b1 : -Q b ≤ (2 ^ j : Nat)) (t0 : 0 ≤ Q t) (t1 : Q t ≤ 1) : ∃ r, callStd (ops R) chk cname lim "interp" [.float a, .float b, .float t] = some (.ok (.float r : Val C)) ∧
    isFinite r = true ∧ distance (Q r) (Q a + (Q b - Q a) * Q t) ≤ (2 ^ j : Nat) / 2 ^ 50 := by
  have hs := small
  have hδ := δ_pos
  have hB : (0 : Rat) < (2 ^ j : Nat) := Rat.natCast_pos.2 (Nat.pow_pos (by decide))
  have b2 : ((2 ^ (j + 2) : Nat) : Rat) = (2 ^ j : Nat) * 4 := by rw [Nat.pow_add, Rat.natCast_mul]; rfl
  refine ⟨add a (mul (sub b a) t), rfl, ?_⟩
  have d := near_sub hb ha (j + 2) (by omega) (by rw [b2]; grind) (by rw [b2]; grind)
  rw [b2] at d
  generalize ((2 ^ j : Nat) : Rat) = B at *
  obtain ⟨d1, d2, d3⟩ := d
  have hBδ : 1000000 * (B * δ) ≤ B := by
    have := Rat.mul_le_mul_of_nonneg_left (Rat.le_of_lt hs) (Rat.le_of_lt hB)
    grind
  have hBδ0 : 0 ≤ B * δ := Rat.mul_nonneg (Rat.le_of_lt hB) (Rat.le_of_lt hδ)
  have e1 := Rat.mul_le_mul_of_nonneg_right d2 t0
  have e2 := Rat.mul_le_mul_of_nonneg_right d3 t0
  have e3 := Rat.mul_le_mul_of_nonneg_left t1 (show 0 ≤ B * 4 * δ by grind)
  have e4 := Rat.mul_le_mul_of_nonneg_left t1 (show 0 ≤ B * 3 by grind)
  have e5 := Rat.mul_le_mul_of_nonneg_right (show Q b - Q a ≤ B * 2 by grind) t0
  have e6 := Rat.mul_le_mul_of_nonneg_right (show -(B * 2) ≤ Q b - Q a by grind) t0
  have m := near_mul d1 ht (j + 2) (by omega) (by rw [b2]; grind) (by rw [b2]; grind)
  rw [b2] at m
  obtain ⟨m1, m2, m3⟩ := m
  have s := near_add ha m1 (j + 2) (by omega) (by rw [b2]; grind) (by rw [b2]; grind)
  rw [b2] at s
  obtain ⟨s1, s2, s3⟩ := s
  refine ⟨s1, ?_⟩
  have hD : B / 2 ^ 50 = 16 * (B * δ) := by
    rw [Rat.div_def, show ((2 : Rat) ^ 50)⁻¹ = 16 * δ by decide +kernel]
    grind
  rw [hD]
  unfold distance
  grind

/-! ## Examples -/

/-- Orange: hue 30, full saturation, lightness 1/2. Green is half full: 127 or 128. -/
example : ∃ r g b, callStd (ops R) chk cname lim "hsl" [.float 0x403E000000000000, .float f1, .float 0x3FE0000000000000] = some (.ok (.color r g b 255 : Val C)) ∧
    Shade r 1 ∧ Shade g (1 / 2) ∧ Shade b 0 := by
  have := C62_hsl (C := C) R chk cname lim (h := 0x403E000000000000) (s := f1) (l := 0x3FE0000000000000) (by decide) (by decide) (by decide) (by decide +kernel) (by decide +kernel)
    (by decide +kernel) (by decide +kernel) (by decide +kernel) (by decide +kernel)
  rw [show Q 0x403E000000000000 = 30 by decide +kernel, show Q f1 = 1 by decide +kernel, show Q 0x3FE0000000000000 = 1 / 2 by decide +kernel] at this
  obtain ⟨r, g, b, e, h1, h2, h3⟩ := this
  refine ⟨r, g, b, e, ?_, ?_, ?_⟩
  · rwa [show (1 / 2 - (1 - distance (2 * (1 / 2)) 1) * 1 / 2 + (1 - distance (2 * (1 / 2)) 1) * 1 * redAt (30 / 60) : Rat) = 1 by decide +kernel] at h1
  · rwa [show (1 / 2 - (1 - distance (2 * (1 / 2)) 1) * 1 / 2 + (1 - distance (2 * (1 / 2)) 1) * 1 * greenAt (30 / 60) : Rat) = 1 / 2 by decide +kernel] at h2
  · rwa [show (1 / 2 - (1 - distance (2 * (1 / 2)) 1) * 1 / 2 + (1 - distance (2 * (1 / 2)) 1) * 1 * blueAt (30 / 60) : Rat) = 0 by decide +kernel] at h3

example : Shade 128 (1 / 2) ∧ ¬ Shade 129 (1 / 2) ∧ ¬ Shade 254 1 := by unfold Shade; decide +kernel

example : redAt 0 = 1 ∧ redAt (3 / 2) = 1 / 2 ∧ redAt 3 = 0 ∧ redAt 5 = 1 ∧ greenAt 0 = 0 ∧ greenAt (1 / 2) = 1 / 2 ∧ greenAt 2 = 1 ∧ blueAt 4 = 1 ∧ blueAt (11 / 2) = 1 / 2 := by
  decide +kernel

end

end Quilt.Props
