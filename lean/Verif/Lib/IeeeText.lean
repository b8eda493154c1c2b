import Verif.Lib.IeeeLemmas
import Verif.Parser.LiteralText

/-!
# Floats and texts

The decimal a float is printed as is read as this float.
-/

namespace Quilt.Ieee

open Quilt.Peg

set_option exponentiation.threshold 4000

/-! ## Digits -/

theorem number_foldl (a : Nat) (ds : List Char) : ds.foldl (fun n c => 10 * n + (c.toNat - 48)) a = a * 10 ^ ds.length + number ds := by
  induction ds generalizing a with
  | nil => simp [number]
  | cons c ds ih =>
    have h := ih (10 * 0 + (c.toNat - 48))
    unfold number
    simp only [List.foldl_cons, List.length_cons]
    rw [ih, h, Nat.pow_succ, Nat.add_mul, Nat.mul_zero, Nat.zero_add, Nat.add_assoc, Nat.mul_comm 10 a, Nat.mul_assoc, Nat.mul_comm 10 (10 ^ ds.length)]

theorem number_append (a b : List Char) : number (a ++ b) = number a * 10 ^ b.length + number b := by
  show (a ++ b).foldl _ 0 = _
  rw [List.foldl_append, number_foldl]
  rfl

theorem number_cons (c : Char) (b : List Char) : number (c :: b) = (c.toNat - 48) * 10 ^ b.length + number b := by
  have := number_append [c] b
  simpa [number] using this

theorem number_zeros (n : Nat) : number (List.replicate n '0') = 0 := by
  induction n with
  | zero => rfl
  | succ n ih => rw [List.replicate_succ, number_cons, ih]; simp

theorem number_digitsVal {ds : List Char} (h : ∀ d ∈ ds, isDig d = true) : number ds = digitsVal 10 ds := by
  unfold number digitsVal
  generalize 0 = a
  induction ds generalizing a with
  | nil => rfl
  | cons c ds ih =>
    have hc : digitVal c = c.toNat - 48 := by
      unfold digitVal
      rw [if_pos (h c (by simp))]
      rfl
    simp only [List.foldl_cons]
    rw [hc, Nat.mul_comm]
    exact ih (fun d hd => h d (by simp [hd])) _

theorem number_showNat (n : Nat) : number (showNat n) = n := by
  obtain ⟨h1, h2, _⟩ := showNat_spec n
  rw [number_digitsVal h1, h2]

theorem showNat_length (n : Nat) (h : 0 < n) : 0 < (showNat n).length ∧ 10 ^ ((showNat n).length - 1) ≤ n ∧ n < 10 ^ (showNat n).length := by
  fun_induction showNat n with
  | case1 n h' => simp; omega
  | case2 n h' ih =>
    obtain ⟨i0, i1, i2⟩ := ih (by omega)
    simp only [List.length_append, List.length_singleton, Nat.add_sub_cancel]
    obtain ⟨k, hk⟩ : ∃ k, (showNat (n / 10)).length = k + 1 := ⟨_, (Nat.succ_pred_eq_of_pos i0).symm⟩
    rw [hk] at i1 i2 ⊢
    rw [Nat.add_sub_cancel] at i1
    have e1 : 10 ^ (k + 1) = 10 * 10 ^ k := by rw [Nat.pow_succ, Nat.mul_comm]
    have e2 : 10 ^ (k + 1 + 1) = 10 * 10 ^ (k + 1) := by rw [Nat.pow_succ, Nat.mul_comm]
    refine ⟨by omega, ?_, ?_⟩ <;> omega

theorem showNat_mul_ten (n : Nat) (h : 0 < n) : showNat (n * 10) = showNat n ++ ['0'] := by
  rw [showNat, dif_neg (by omega), Nat.mul_div_cancel _ (by decide : 0 < 10), Nat.mul_mod_left]
  rfl

theorem showNat_mul_pow (n e : Nat) (h : 0 < n) : showNat (n * 10 ^ e) = showNat n ++ List.replicate e '0' := by
  induction e with
  | zero => simp
  | succ e ih =>
    rw [Nat.pow_succ, ← Nat.mul_assoc, showNat_mul_ten _ (Nat.mul_pos h (Nat.pow_pos (by decide))), ih, List.append_assoc, List.replicate_succ']

theorem digits_span {ds r : List Char} (h : ∀ d ∈ ds, isDig d = true) (hr : NotHead isDig r) : digits (ds ++ r) = (ds, r) := by
  suffices key : ∀ acc, List.span.loop isDig (ds ++ r) acc = (acc.reverse ++ ds, r) from key []
  induction ds with
  | nil =>
    intro acc
    cases r with
    | nil => simp [List.span.loop]
    | cons c r => simp [List.span.loop, show isDig c = false from hr]
  | cons c ds ih =>
    intro acc
    rw [List.cons_append, List.span.loop, h c (by simp)]
    simp only
    rw [ih (fun d hd => h d (by simp [hd]))]
    simp

/-! ## Reading -/

/-- Decimal digits with a point before the last ones. -/
theorem parse_fraction (s : Bool) {c : Char} {ds fs : List Char} (hd : ∀ x ∈ c :: ds, isDig x = true) (hf : ∀ x ∈ fs, isDig x = true) :
    parse ((if s then ['-'] else []) ++ (c :: ds ++ '.' :: fs)) = some (decimal s (number (c :: ds ++ fs)) (-(fs.length : Int))) ∧
    parse ((if s then ['-'] else []) ++ c :: ds) = some (decimal s (number (c :: ds)) 0) := by
  have hc : isDig c = true := hd c (by simp)
  have hne : ∀ x, isDig x = false → c ≠ x := by
    rintro x hx rfl
    rw [hc] at hx
    simp at hx
  have hsign : ∀ t, signOf ((if s then ['-'] else []) ++ c :: t) = (s, c :: t) := by
    intro t
    cases s with
    | true => rfl
    | false =>
      show signOf (c :: t) = _
      unfold signOf
      split
      · rename_i h; cases h; simp [isDig] at hc
      · rename_i h; cases h; simp [isDig] at hc
      · rfl
  have hlow : c.toLower = c := by
    unfold Char.toLower
    have : ¬ (65 ≤ c.val ∧ c.val ≤ 90) := by
      simp only [isDig, Bool.and_eq_true, decide_eq_true_eq, Char.le_def] at hc
      have h2 := hc.2
      rintro ⟨a, _⟩
      exact absurd (UInt32.le_trans a h2) (by decide)
    simp [this]
  have hword : ∀ t : List Char, ((c :: t).map Char.toLower = "inf".toList ∨ (c :: t).map Char.toLower = "infinity".toList) = False ∧
      ((c :: t).map Char.toLower = "nan".toList) = False := by
    intro t
    have h1 : c ≠ 'i' := hne _ (by decide)
    have h2 : c ≠ 'n' := hne _ (by decide)
    refine ⟨?_, ?_⟩
    · rw [eq_iff_iff, iff_false, not_or]
      refine ⟨fun h => ?_, fun h => ?_⟩
      · rw [List.map_cons, hlow, show "inf".toList = ['i', 'n', 'f'] from rfl] at h
        exact h1 (List.cons.inj h).1
      · rw [List.map_cons, hlow, show "infinity".toList = ['i', 'n', 'f', 'i', 'n', 'i', 't', 'y'] from rfl] at h
        exact h1 (List.cons.inj h).1
    · rw [eq_iff_iff, iff_false]
      intro h
      rw [List.map_cons, hlow, show "nan".toList = ['n', 'a', 'n'] from rfl] at h
      exact h2 (List.cons.inj h).1
  refine ⟨?_, ?_⟩
  · unfold parse
    rw [List.cons_append, hsign]
    simp only [(hword _).1, (hword _).2, if_false]
    have h1 := digits_span hd (r := '.' :: fs) (show isDig '.' = false by decide)
    rw [List.cons_append] at h1
    have h2 := digits_span hf (r := []) trivial
    rw [List.append_nil] at h2
    rw [h1]
    simp only [h2]
    simp [exponent]
  · unfold parse
    rw [hsign]
    simp only [(hword _).1, (hword _).2, if_false]
    have h1 := digits_span hd (r := []) trivial
    rw [List.append_nil] at h1
    rw [h1]
    simp [exponent]

/-- The two shapes of `plain`. -/
theorem plain_shape (d : Nat) (e : Int) (hd : 0 < d) :
    (0 ≤ e → plain d e = showNat (d * 10 ^ e.toNat)) ∧
    (e < 0 → ∃ c ds fs, plain d e = c :: ds ++ '.' :: fs ∧ (∀ x ∈ c :: ds, isDig x = true) ∧ (∀ x ∈ fs, isDig x = true) ∧ fs ≠ [] ∧ (fs.length : Int) = -e ∧
      number (c :: ds ++ fs) = d) := by
  refine ⟨fun h => ?_, fun h => ?_⟩
  · unfold plain
    simp only [h, if_true]
    rw [showNat_mul_pow _ _ hd]
  · obtain ⟨h1, -, -⟩ := showNat_spec d
    unfold plain
    simp only [show ¬ (0 ≤ e) by omega, if_false]
    split
    · rename_i hlen
      generalize hk : (showNat d).length - (-e).toNat = k
      have hk0 : 0 < k := by omega
      have htd := List.take_append_drop k (showNat d)
      have hlt : (showNat d).take k ≠ [] := by
        intro h0
        have := congrArg List.length h0
        rw [List.length_take, List.length_nil] at this
        omega
      obtain ⟨c, ds, hc⟩ := List.exists_cons_of_ne_nil hlt
      have hfl : ((showNat d).drop k).length = (-e).toNat := by rw [List.length_drop]; omega
      refine ⟨c, ds, (showNat d).drop k, by rw [← hc]; simp, ?_, fun x hx => h1 x (List.mem_of_mem_drop hx), ?_, by omega, ?_⟩
      · rw [← hc]
        exact fun x hx => h1 x (List.mem_of_mem_take hx)
      · intro h0
        rw [h0] at hfl
        simp at hfl
        omega
      · rw [← hc, htd, number_showNat]
    · rename_i hlen
      refine ⟨'0', [], List.replicate ((-e).toNat - (showNat d).length) '0' ++ showNat d, by simp, by simp [isDig], ?_, ?_, ?_, ?_⟩
      · intro x hx
        rcases List.mem_append.1 hx with hx | hx
        · rw [(List.mem_replicate.1 hx).2]; decide
        · exact h1 x hx
      · have := (showNat_length d hd).1
        intro h0
        have := congrArg List.length h0
        rw [List.length_append, List.length_nil] at this
        omega
      · rw [List.length_append, List.length_replicate]
        omega
      · rw [show ['0'] ++ (List.replicate ((-e).toNat - (showNat d).length) '0' ++ showNat d) = (['0'] ++ List.replicate ((-e).toNat - (showNat d).length) '0') ++ showNat d by simp,
          number_append, number_showNat, number_append, number_zeros]
        simp [number]

theorem parse_plain (s : Bool) (d : Nat) (e : Int) (hd : 0 < d) : parse ((if s then ['-'] else []) ++ plain d e) = some (decimal s d e) := by
  obtain ⟨h1, h2⟩ := plain_shape d e hd
  by_cases h : 0 ≤ e
  · rw [h1 h]
    obtain ⟨g1, -, c, cs, g3, -⟩ := showNat_spec (d * 10 ^ e.toNat)
    have := (parse_fraction s (c := c) (ds := cs) (fs := []) (by rw [← g3]; exact g1) (by simp)).2
    rw [g3, this, ← g3, number_showNat]
    unfold decimal
    simp only [Int.toNat_zero, Nat.pow_zero, Nat.mul_one, Int.neg_zero]
    rw [show (-e).toNat = 0 by omega, Nat.pow_zero]
  · obtain ⟨c, ds, fs, a1, a2, a3, a4, a5, a6⟩ := h2 (by omega)
    rw [a1, (parse_fraction s a2 a3).1, a6, a5, Int.neg_neg]

/-! ## The shortest decimal -/

theorem mag_near (b : Nat) : mag (b + 1) ≤ 2 ^ 53 * (mag (b + 1) - mag b) := by
  rcases bits_split b with h | ⟨s, q, h1, h2, rfl⟩
  · rw [mag_small _ (by omega), mag_small _ (by omega)]
    omega
  · rw [Nat.add_assoc, mag_mk s q h1 (by omega), mag_mk s (q + 1) (by omega) (by omega), ← Nat.sub_mul, Nat.add_sub_cancel_left, Nat.one_mul]
    exact Nat.mul_le_mul_right _ (by omega)

/-- What is very near to a float is rounded to it. -/
theorem roundMag_unique {n d b : Nat} (hd : 0 < d) (h : 2 ^ 54 * ((mag b * d : Nat) - (n : Int)).natAbs < mag b * d) : roundMag n d = b := by
  have hn := roundMag_nearest (n := n) hd b
  generalize roundMag n d = r at hn
  rcases Nat.lt_trichotomy r b with hlt | rfl | hlt
  · exfalso
    obtain ⟨c, rfl⟩ : ∃ c, b = c + 1 := ⟨b - 1, by omega⟩
    have h1 : mag r ≤ mag c := mag_le_iff.2 (by omega)
    have h2 := Nat.mul_le_mul_right d (mag_near c)
    have h3 : mag r * d ≤ mag c * d := Nat.mul_le_mul_right d h1
    have h4 : 2 ^ 53 * (mag (c + 1) - mag c) * d = 2 ^ 53 * (mag (c + 1) * d - mag c * d) := by rw [Nat.mul_assoc, Nat.sub_mul]
    omega
  · rfl
  · exfalso
    have h1 : mag (b + 1) ≤ mag r := mag_le_iff.2 (by omega)
    have h2 := Nat.mul_le_mul_right d (mag_near b)
    have h3 : mag (b + 1) * d ≤ mag r * d := Nat.mul_le_mul_right d h1
    have h4 : 2 ^ 53 * (mag (b + 1) - mag b) * d = 2 ^ 53 * (mag (b + 1) * d - mag b * d) := by rw [Nat.mul_assoc, Nat.sub_mul]
    have h5 : mag b * d ≤ mag (b + 1) * d := Nat.mul_le_mul_right d (Nat.le_of_lt (mag_succ b))
    omega

theorem decimal_bits {s : Bool} {d : Nat} {e : Int} {b : Nat} (hb : b < infBits) (h : decimal false d e = mk false b) : decimal s d e = mk s b := by
  unfold decimal round at *
  generalize hR : Nat.min _ _ = r at *
  have hr : r < 2 ^ 63 := by
    have : r ≤ infBits := by rw [← hR]; exact Nat.min_le_right ..
    exact Nat.lt_of_le_of_lt this infBits_lt
  have := congrArg bits h
  rw [bits_mk _ hr, bits_mk _ (Nat.lt_trans hb infBits_lt)] at this
  rw [this]

/-- The exponents are tried in descending order; the last but one is small enough. -/
theorem exponents_spec (b : Nat) (hb : 0 < b) : (exponents b).Pairwise (fun e e' => e' < e) ∧
    (∃ e ∈ exponents b, 2 ^ 53 * (one * 10 ^ e.toNat) < mag b * 10 ^ (-e).toNat) ∧
    (one ≤ mag b → (0 : Int) ∈ exponents b ∨ ∀ e ∈ exponents b, 0 ≤ e) := by
  have hm : 0 < mag b := by
    have := mag_lt hb
    rw [mag_zero] at this
    exact this
  unfold exponents
  generalize hl : (if mag b < one then -((showNat (one / mag b)).length : Int) + 1 else (showNat (mag b / one)).length : Int) = len
  refine ⟨?_, ⟨len - 18, List.mem_map.2 ⟨18, by simp, rfl⟩, ?_⟩, fun h => ?_⟩
  · simp only
    rw [List.pairwise_map]
    exact List.Pairwise.imp (fun h => by omega) (List.pairwise_lt_range (n := 19))
  · split at hl
    · rename_i h
      have hq : 0 < one / mag b := Nat.div_pos (by omega) hm
      obtain ⟨-, -, h3⟩ := showNat_length _ hq
      generalize (showNat (one / mag b)).length = L at *
      have e1 : one < mag b * 10 ^ L := by
        rw [Nat.mul_comm]
        exact (Nat.div_lt_iff_lt_mul hm).1 h3
      rw [show (len - 18).toNat = 0 by omega, show (-(len - 18)).toNat = 17 + L by omega, Nat.pow_zero, Nat.mul_one, Nat.pow_add, Nat.mul_left_comm]
      generalize mag b * 10 ^ L = x at *
      generalize one = o at *
      omega
    · rename_i h
      have hq : 0 < mag b / one := Nat.div_pos (by omega) one_pos
      obtain ⟨h1, h2, -⟩ := showNat_length _ hq
      generalize (showNat (mag b / one)).length = L at *
      have e1 : 10 ^ (L - 1) * one ≤ mag b := (Nat.le_div_iff_mul_le one_pos).1 h2
      have ho := one_pos
      by_cases hL : 18 ≤ L
      · rw [show (len - 18).toNat = L - 18 by omega, show (-(len - 18)).toNat = 0 by omega, Nat.pow_zero, Nat.mul_one]
        rw [show L - 1 = 17 + (L - 18) by omega, Nat.pow_add, Nat.mul_assoc, Nat.mul_comm (10 ^ (L - 18))] at e1
        have : 0 < one * 10 ^ (L - 18) := Nat.mul_pos ho (Nat.pow_pos (by decide))
        generalize one * 10 ^ (L - 18) = x at *
        omega
      · rw [show (len - 18).toNat = 0 by omega, show (-(len - 18)).toNat = 18 - L by omega, Nat.pow_zero, Nat.mul_one]
        have e2 := Nat.mul_le_mul_right (10 ^ (18 - L)) e1
        rw [Nat.mul_right_comm, ← Nat.pow_add, show L - 1 + (18 - L) = 17 by omega] at e2
        generalize one = o at *
        omega
  · rw [if_neg (by omega)] at hl
    by_cases hL : len ≤ 18
    · left
      exact List.mem_map.2 ⟨len.toNat, by simp; omega, by omega⟩
    · right
      intro e he
      obtain ⟨p, hp, rfl⟩ := List.mem_map.1 he
      have := List.mem_range.1 hp
      omega

/-- The nearer candidate. -/
theorem candidates_spec (b : Nat) (e : Int) : ∃ c c', candidates b e = [c, c'] ∧
    2 * ((mag b * 10 ^ (-e).toNat : Nat) - ((c * (one * 10 ^ e.toNat) : Nat) : Int)).natAbs ≤ one * 10 ^ e.toNat ∧
    (mag b * 10 ^ (-e).toNat % (one * 10 ^ e.toNat) = 0 → c * (one * 10 ^ e.toNat) = mag b * 10 ^ (-e).toNat) := by
  unfold candidates
  have hD : 0 < one * 10 ^ e.toNat := Nat.mul_pos one_pos (Nat.pow_pos (by decide))
  generalize mag b * 10 ^ (-e).toNat = n
  generalize one * 10 ^ e.toNat = D at *
  have h1 := Nat.div_add_mod n D
  have h2 := Nat.mod_lt n hD
  rw [Nat.mul_comm] at h1
  have h3 : (n / D + 1) * D = n / D * D + D := by rw [Nat.add_mul, Nat.one_mul]
  simp only
  split
  · refine ⟨_, _, rfl, ?_, fun h => by omega⟩
    omega
  · refine ⟨_, _, rfl, ?_, fun h => by omega⟩
    rw [h3]
    omega

theorem shortest_spec (b : Nat) (hb : 0 < b) (hi : b < infBits) : 0 < (shortest b).1 ∧ decimal false (shortest b).1 (shortest b).2 = mk false b ∧
    (one ∣ mag b → 0 ≤ (shortest b).2) := by
  obtain ⟨hpw, ⟨e, he, hsmall⟩, hint⟩ := exponents_spec b hb
  have hm : 0 < mag b := by
    have := mag_lt hb
    rw [mag_zero] at this
    exact this
  unfold shortest
  simp only
  generalize hl : ((exponents b).flatMap fun e => (candidates b e).map fun d => (d, e)) = l
  have hmem : ∀ {e' : Int} {c : Nat}, e' ∈ exponents b → c ∈ candidates b e' → (c, e') ∈ l := by
    intro e' c h1 h2
    rw [← hl]
    exact List.mem_flatMap.2 ⟨e', h1, List.mem_map.2 ⟨c, h2, rfl⟩⟩
  split
  · rename_i r hr
    have hp := List.find?_some hr
    simp only [Bool.and_eq_true, beq_iff_eq, decide_eq_true_eq] at hp
    refine ⟨hp.2, hp.1, fun hdvd => ?_⟩
    by_cases hneg : 0 ≤ r.2
    · exact hneg
    · exfalso
      have hr' : r ∈ l := List.mem_of_find?_eq_some hr
      have hrm : r.2 ∈ exponents b := by
        rw [← hl] at hr'
        obtain ⟨e', h1, h2⟩ := List.mem_flatMap.1 hr'
        obtain ⟨d, -, rfl⟩ := List.mem_map.1 h2
        exact h1
      rcases hint (Nat.le_of_dvd hm hdvd) with h0 | h0
      · obtain ⟨c, c', hc, -, hex⟩ := candidates_spec b 0
        have hD : one * 10 ^ (0 : Int).toNat = one := by simp
        have hN : mag b * 10 ^ (-0 : Int).toNat = mag b := by simp
        rw [hD, hN] at hex
        have hc1 := hex (Nat.mod_eq_zero_of_dvd hdvd)
        have hz : (c, (0 : Int)) ∈ l := hmem h0 (by rw [hc]; simp)
        have hok : (decimal false c 0 == mk false b && decide (0 < c)) = true := by
          simp only [Bool.and_eq_true, beq_iff_eq, decide_eq_true_eq]
          refine ⟨?_, ?_⟩
          · unfold decimal
            refine round_exact false (by simp) hi ?_
            simp only [Int.toNat_zero, Nat.pow_zero, Nat.mul_one, Int.neg_zero]
            exact hc1
          · rcases Nat.eq_zero_or_pos c with h | h
            · rw [h, Nat.zero_mul] at hc1; omega
            · exact h
        -- the list is in the order of the exponents
        have hpl : l.Pairwise fun x y => y.2 ≤ x.2 := by
          rw [← hl, List.pairwise_flatMap]
          refine ⟨fun e' _ => ?_, ?_⟩
          · rw [List.pairwise_map]
            exact List.pairwise_of_forall (fun _ _ => Int.le_refl _)
          · refine List.Pairwise.imp (fun h x hx y hy => ?_) hpw
            obtain ⟨_, _, rfl⟩ := List.mem_map.1 hx
            obtain ⟨_, _, rfl⟩ := List.mem_map.1 hy
            exact Int.le_of_lt h
        obtain ⟨-, as, bs, hsplit, has⟩ := List.find?_eq_some_iff_append.1 hr
        rw [hsplit] at hz hpl
        rcases List.mem_append.1 hz with hz | hz
        · have := has _ hz
          simp only [hok] at this
          simp at this
        · rcases List.mem_cons.1 hz with hz | hz
          · rw [← hz] at hneg
            simp at hneg
          · have := List.rel_of_pairwise_cons (List.pairwise_append.1 hpl).2.1 hz
            simp only at this
            omega
      · exact hneg (h0 _ hrm)
  · rename_i hnone
    exfalso
    obtain ⟨c, c', hc, hnear, -⟩ := candidates_spec b e
    have hz : (c, e) ∈ l := hmem he (by rw [hc]; simp)
    have := List.find?_eq_none.1 hnone _ hz
    apply this
    have hD : 0 < one * 10 ^ e.toNat := Nat.mul_pos one_pos (Nat.pow_pos (by decide))
    have hcd : c * 10 ^ e.toNat * one = c * (one * 10 ^ e.toNat) := by rw [Nat.mul_assoc, Nat.mul_comm one]
    simp only [Bool.and_eq_true, beq_iff_eq, decide_eq_true_eq]
    refine ⟨?_, ?_⟩
    · unfold decimal round
      rw [roundMag_unique (b := b) (Nat.pow_pos (by decide)) (by rw [hcd]; omega)]
      congr 1
      exact Nat.min_eq_left (Nat.le_of_lt hi)
    · rcases Nat.eq_zero_or_pos c with h | h
      · rw [h, Nat.zero_mul] at hnear; omega
      · exact h

end Quilt.Ieee
