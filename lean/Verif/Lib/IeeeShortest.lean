import Verif.Lib.IeeeText

/-!
# The printed decimal is a shortest one
-/

namespace Quilt.Ieee

set_option exponentiation.threshold 4000

/-- Rounding is monotonic. -/
theorem roundMag_mono {n d n' d' : Nat} (hd : 0 < d) (hd' : 0 < d') (h : n * d' ≤ n' * d) : roundMag n d ≤ roundMag n' d' := by
  obtain ⟨b, h1, h2, h3⟩ := roundMag_spec n d hd
  obtain ⟨b', h1', h2', h3'⟩ := roundMag_spec n' d' hd'
  have hbb : b ≤ b' := by
    have : mag b * (d * d') < mag (b' + 1) * (d * d') := by
      calc mag b * (d * d') = mag b * d * d' := (Nat.mul_assoc ..).symm
        _ ≤ n * d' := Nat.mul_le_mul_right _ h1
        _ ≤ n' * d := h
        _ < mag (b' + 1) * d' * d := Nat.mul_lt_mul_of_pos_right h2' hd
        _ = mag (b' + 1) * (d * d') := by rw [Nat.mul_assoc, Nat.mul_comm d' d]
    have := mag_lt_iff.1 (Nat.lt_of_mul_lt_mul_right this)
    omega
  rw [h3, h3']
  rcases Nat.lt_or_ge b b' with hlt | hge
  · split <;> split <;> omega
  · have hb : b' = b := Nat.le_antisymm hge hbb
    subst hb
    have hs : (n - mag b' * d) * d' ≤ (n' - mag b' * d') * d := by
      rw [Nat.sub_mul, Nat.sub_mul, show mag b' * d' * d = mag b' * d * d' by rw [Nat.mul_right_comm]]
      omega
    generalize n - mag b' * d = r at *
    generalize n' - mag b' * d' = r' at *
    generalize mag (b' + 1) - mag b' = g at *
    split
    · split <;> omega
    · rename_i hno
      rw [not_or, not_and] at hno
      split
      · rename_i hyes
        exfalso
        have e1 : g * d ≤ 2 * r := Nat.le_of_not_lt hno.1
        have e2 : g * d * d' ≤ 2 * r * d' := Nat.mul_le_mul_right _ e1
        have e3 : g * d * d' = g * d' * d := Nat.mul_right_comm ..
        have e4 : 2 * r * d' ≤ 2 * r' * d := by rw [Nat.mul_assoc, Nat.mul_assoc 2 r' d]; omega
        have e5 : g * d' ≤ 2 * r' := Nat.le_of_mul_le_mul_right (by omega : g * d' * d ≤ 2 * r' * d) hd
        rcases hyes with hy | ⟨hy, hev⟩
        · omega
        · have e6 : 2 * r * d' ≤ g * d * d' := by rw [hy] at e4; omega
          have e7 : 2 * r ≤ g * d := Nat.le_of_mul_le_mul_right e6 hd'
          exact hno.2 (by omega) hev
      · exact Nat.le_refl _

/-- Equal fractions are rounded equally. -/
theorem roundMag_congr {n d n' d' : Nat} (hd : 0 < d) (hd' : 0 < d') (h : n * d' = n' * d) : roundMag n d = roundMag n' d' :=
  Nat.le_antisymm (roundMag_mono hd hd' (Nat.le_of_eq h)) (roundMag_mono hd' hd (Nat.le_of_eq h.symm))

/-- The place of `10 ^ e`, in units of 2^-1074 and 10^-K. -/
def place (K : Nat) (e : Int) : Nat := 10 ^ (e + K).toNat * one

theorem place_pos (K : Nat) (e : Int) : 0 < place K e := Nat.mul_pos (Nat.pow_pos (by decide)) one_pos

theorem place_add {K : Nat} {e : Int} (h : 0 ≤ e + K) (k : Nat) : place K (e + k) = 10 ^ k * place K e := by
  unfold place
  rw [show (e + k + K).toNat = k + (e + K).toNat by omega, Nat.pow_add, Nat.mul_assoc]

private theorem ten_pos (k : Nat) : 0 < 10 ^ k := Nat.pow_pos (by decide)

private theorem scale {K : Nat} {e : Int} (h : 0 ≤ e + K) : 10 ^ e.toNat * 10 ^ K = 10 ^ (e + K).toNat * 10 ^ (-e).toNat := by
  rw [← Nat.pow_add, ← Nat.pow_add]
  congr 1
  omega

theorem decimal_iff {K d b : Nat} {e : Int} (h : 0 ≤ e + K) (hb : b < infBits) : decimal false d e = mk false b ↔ roundMag (d * place K e) (10 ^ K) = b := by
  have e1 : roundMag (d * place K e) (10 ^ K) = roundMag (d * 10 ^ e.toNat * one) (10 ^ (-e).toNat) := by
    refine roundMag_congr (ten_pos _) (ten_pos _) ?_
    unfold place
    calc d * (10 ^ (e + K).toNat * one) * 10 ^ (-e).toNat = d * (10 ^ (e + K).toNat * 10 ^ (-e).toNat) * one := by
          simp only [Nat.mul_assoc, Nat.mul_comm one]
      _ = d * (10 ^ e.toNat * 10 ^ K) * one := by rw [scale h]
      _ = d * 10 ^ e.toNat * one * 10 ^ K := by simp only [Nat.mul_assoc, Nat.mul_comm one, Nat.mul_left_comm]
  rw [e1]
  unfold decimal round
  constructor
  · intro h
    have := congrArg bits h
    have hlt : Nat.min (roundMag (d * 10 ^ e.toNat * one) (10 ^ (-e).toNat)) infBits < 2 ^ 63 := Nat.lt_of_le_of_lt (Nat.min_le_right ..) infBits_lt
    rw [bits_mk _ hlt, bits_mk _ (Nat.lt_trans hb infBits_lt)] at this
    simp only [Nat.min_def] at this
    split at this <;> omega
  · intro h
    rw [h]
    congr 1
    exact Nat.min_eq_left (Nat.le_of_lt hb)

/-- The candidates with a common denominator. -/
theorem candidates_scaled {K : Nat} (b : Nat) {e : Int} (h : 0 ≤ e + K) : candidates b e =
    if 2 * (mag b * 10 ^ K % place K e) < place K e ∨ (2 * (mag b * 10 ^ K % place K e) = place K e ∧ mag b * 10 ^ K / place K e % 2 = 0)
    then [mag b * 10 ^ K / place K e, mag b * 10 ^ K / place K e + 1] else [mag b * 10 ^ K / place K e + 1, mag b * 10 ^ K / place K e] := by
  have ht := ten_pos (K - (-e).toNat)
  have e1 : mag b * 10 ^ K = mag b * 10 ^ (-e).toNat * 10 ^ (K - (-e).toNat) := by
    rw [Nat.mul_assoc, ← Nat.pow_add]
    congr 2
    omega
  have e2 : place K e = one * 10 ^ e.toNat * 10 ^ (K - (-e).toNat) := by
    unfold place
    rw [Nat.mul_assoc, ← Nat.pow_add, Nat.mul_comm]
    congr 2
    omega
  unfold candidates
  rw [e1, e2, Nat.mul_div_mul_right _ _ ht, Nat.mul_mod_mul_right]
  generalize mag b * 10 ^ (-e).toNat = n
  generalize one * 10 ^ e.toNat = D
  generalize 10 ^ (K - (-e).toNat) = t at *
  have c1 : 2 * (n % D) < D ↔ 2 * (n % D * t) < D * t := by
    rw [← Nat.mul_assoc]
    exact (Nat.mul_lt_mul_right ht).symm
  have c2 : 2 * (n % D) = D ↔ 2 * (n % D * t) = D * t := by
    rw [← Nat.mul_assoc]
    exact (Nat.mul_left_inj (by omega)).symm
  simp only [c1, c2]

section
variable {K b : Nat}

/-- What is between a float and a decimal rounded to it is rounded to it. -/
private theorem convex_up {n n' : Nat} (h : roundMag n' (10 ^ K) = b) (h1 : mag b * 10 ^ K ≤ n) (h2 : n ≤ n') : roundMag n (10 ^ K) = b := by
  have a1 := le_roundMag (ten_pos K) h1
  have a2 := roundMag_mono (ten_pos K) (ten_pos K) (Nat.mul_le_mul_right (10 ^ K) h2)
  omega

private theorem convex_down {n n' : Nat} (h : roundMag n' (10 ^ K) = b) (h1 : n ≤ mag b * 10 ^ K) (h2 : n' ≤ n) : roundMag n (10 ^ K) = b := by
  have a1 := roundMag_le (ten_pos K) h1
  have a2 := roundMag_mono (ten_pos K) (ten_pos K) (Nat.mul_le_mul_right (10 ^ K) h2)
  omega

private theorem between {l n r : Nat} (hl : roundMag l (10 ^ K) = b) (hr : roundMag r (10 ^ K) = b) (h1 : l ≤ n) (h2 : n ≤ r) : roundMag n (10 ^ K) = b := by
  have a1 := roundMag_mono (ten_pos K) (ten_pos K) (Nat.mul_le_mul_right (10 ^ K) h1)
  have a2 := roundMag_mono (ten_pos K) (ten_pos K) (Nat.mul_le_mul_right (10 ^ K) h2)
  omega

end

/-- The first exponent with a decimal is taken, and at this exponent the nearer candidate, if it is one. -/
theorem shortest_first (b : Nat) (hb : 0 < b) (hi : b < infBits) : ∃ l₁ l₂, exponents b = l₁ ++ (shortest b).2 :: l₂ ∧
    ((candidates b (shortest b).2).map fun d => (d, (shortest b).2)).find? (fun (d, e) => decimal false d e == mk false b && decide (0 < d)) = some (shortest b) ∧
    ∀ e ∈ l₁, ∀ d ∈ candidates b e, decimal false d e = mk false b → d = 0 := by
  obtain ⟨-, ⟨e, he, hsmall⟩, -⟩ := exponents_spec b hb
  obtain ⟨c, c', hc, hnear, -⟩ := candidates_spec b e
  have hD : 0 < one * 10 ^ e.toNat := Nat.mul_pos one_pos (ten_pos _)
  have hcd : c * 10 ^ e.toNat * one = c * (one * 10 ^ e.toNat) := by rw [Nat.mul_assoc, Nat.mul_comm one]
  have hok : (decimal false c e == mk false b && decide (0 < c)) = true := by
    simp only [Bool.and_eq_true, beq_iff_eq, decide_eq_true_eq]
    refine ⟨?_, ?_⟩
    · unfold decimal round
      rw [roundMag_unique (b := b) (ten_pos _) (by rw [hcd]; omega)]
      congr 1
      exact Nat.min_eq_left (Nat.le_of_lt hi)
    · rcases Nat.eq_zero_or_pos c with h | h
      · rw [h, Nat.zero_mul] at hnear; omega
      · exact h
  have hmem : (c, e) ∈ (exponents b).flatMap fun e => (candidates b e).map fun d => (d, e) :=
    List.mem_flatMap.2 ⟨e, he, List.mem_map.2 ⟨c, by rw [hc]; simp, rfl⟩⟩
  cases hf : ((exponents b).flatMap fun e => (candidates b e).map fun d => (d, e)).find? (fun (d, e) => decimal false d e == mk false b && decide (0 < d)) with
  | none =>
    have := List.find?_eq_none.1 hf _ hmem
    simp only [hok] at this
    exact absurd trivial this
  | some r =>
    have hs : shortest b = r := by
      unfold shortest
      simp only [hf]
    rw [hs]
    rw [List.find?_flatMap] at hf
    obtain ⟨l₁, e', l₂, hsplit, hfe, hbefore⟩ := List.findSome?_eq_some_iff.1 hf
    have hre : r.2 = e' := by
      have := List.mem_of_find?_eq_some hfe
      obtain ⟨_, _, rfl⟩ := List.mem_map.1 this
      rfl
    subst hre
    refine ⟨l₁, l₂, hsplit, hfe, fun e he d hd hdec => ?_⟩
    have := List.find?_eq_none.1 (hbefore e he) (d, e) (List.mem_map.2 ⟨d, hd, rfl⟩)
    simp only [hdec, beq_self_eq_true, Bool.true_and, decide_eq_true_eq] at this
    omega

/-- The first exponent is above the float, the last one eighteen below it. -/
theorem exponents_top (b : Nat) (hb : 0 < b) : ∃ len : Int, (∀ e, e ∈ exponents b ↔ len - 18 ≤ e ∧ e ≤ len) ∧
    mag b * 10 ^ (-len).toNat ≤ one * 10 ^ len.toNat := by
  have hm : 0 < mag b := by
    have := mag_lt hb
    rw [mag_zero] at this
    exact this
  unfold exponents
  generalize hl : (if mag b < one then -((showNat (one / mag b)).length : Int) + 1 else (showNat (mag b / one)).length : Int) = len
  refine ⟨len, fun e => ⟨fun he => ?_, fun he => List.mem_map.2 ⟨(len - e).toNat, by simp; omega, by omega⟩⟩, ?_⟩
  · obtain ⟨p, hp, rfl⟩ := List.mem_map.1 he
    have := List.mem_range.1 hp
    omega
  · split at hl
    · rename_i h
      have hq : 0 < one / mag b := Nat.div_pos (by omega) hm
      obtain ⟨h1, h2, -⟩ := showNat_length _ hq
      generalize (showNat (one / mag b)).length = L at *
      have e1 : 10 ^ (L - 1) * mag b ≤ one := (Nat.le_div_iff_mul_le hm).1 h2
      rw [show (-len).toNat = L - 1 by omega, show len.toNat = 0 by omega, Nat.pow_zero, Nat.mul_one, Nat.mul_comm]
      exact e1
    · rename_i h
      have hq : 0 < mag b / one := Nat.div_pos (by omega) one_pos
      obtain ⟨-, -, h3⟩ := showNat_length _ hq
      generalize (showNat (mag b / one)).length = L at *
      have e1 : mag b < one * 10 ^ L := by
        rw [Nat.mul_comm]
        exact (Nat.div_lt_iff_lt_mul one_pos).1 h3
      rw [show (-len).toNat = 0 by omega, show len.toNat = L by omega, Nat.pow_zero, Nat.mul_one]
      exact Nat.le_of_lt e1

/-- What is twice a float and more is not rounded to it. -/
private theorem not_double {n d b : Nat} (hb : 0 < b) (hd : 0 < d) (h : 2 * (mag b * d) ≤ n) : b < roundMag n d := by
  refine Nat.lt_of_succ_le (le_roundMag hd (b := b + 1) (Nat.le_trans ?_ h))
  rw [← Nat.mul_assoc]
  refine Nat.mul_le_mul_right d ?_
  rcases bits_split b with h | ⟨s, q, h1, h2, rfl⟩
  · rw [mag_small _ (by omega), mag_small _ (by omega)]
    omega
  · rw [Nat.add_assoc, mag_mk s q h1 (by omega), mag_mk s (q + 1) (by omega) (by omega), ← Nat.mul_assoc]
    exact Nat.mul_le_mul_right _ (by omega)

/-- Of the decimals read as this float, none has its last digit at a higher place. -/
theorem shortest_max {b : Nat} (hb : 0 < b) (hi : b < infBits) {d : Nat} {e : Int} (hd : 0 < d) (h : decimal false d e = mk false b) : e ≤ (shortest b).2 := by
  obtain ⟨l₁, l₂, hsplit, -, hbefore⟩ := shortest_first b hb hi
  obtain ⟨hpw, -⟩ := exponents_spec b hb
  obtain ⟨len, hlen, htop⟩ := exponents_top b hb
  obtain ⟨K, hK, hK', hK''⟩ : ∃ K : Nat, 0 ≤ e + K ∧ 0 ≤ len + K ∧ 0 ≤ -len + K := ⟨e.natAbs + len.natAbs, by omega, by omega, by omega⟩
  rw [decimal_iff hK hi] at h
  have hm : 0 < mag b := by
    have := mag_lt hb
    rw [mag_zero] at this
    exact this
  have htop' : mag b * 10 ^ K ≤ place K len := by
    have e1 := Nat.mul_le_mul_right (10 ^ (K - (-len).toNat)) htop
    rw [Nat.mul_assoc, ← Nat.pow_add, show (-len).toNat + (K - (-len).toNat) = K by omega, Nat.mul_assoc, ← Nat.pow_add,
      show len.toNat + (K - (-len).toNat) = (len + K).toNat by omega, Nat.mul_comm one] at e1
    exact e1
  have hle : e ≤ len := by
    refine Int.not_lt.1 fun hlt => ?_
    have e1 : place K e = 10 ^ (e - len).toNat * place K len := by
      have := place_add hK' (e - len).toNat
      rwa [show len + ((e - len).toNat : Int) = e by omega] at this
    have e2 : 10 ≤ 10 ^ (e - len).toNat := by
      rw [show (e - len).toNat = (e - len).toNat - 1 + 1 by omega, Nat.pow_succ]
      have := ten_pos ((e - len).toNat - 1)
      omega
    have e3 : 10 * place K len ≤ place K e := by rw [e1]; exact Nat.mul_le_mul_right _ e2
    have e4 : 1 * place K e ≤ d * place K e := Nat.mul_le_mul_right _ hd
    have := not_double (n := d * place K e) hb (ten_pos K) (by omega)
    omega
  have hmem : (shortest b).2 ∈ exponents b := by rw [hsplit]; simp
  have hs := (hlen _).1 hmem
  by_cases hlow : len - 18 ≤ e
  · have he : e ∈ exponents b := (hlen e).2 ⟨hlow, hle⟩
    have hcand : ∃ c ∈ candidates b e, decimal false c e = mk false b ∧ 0 < c := by
      have hP := place_pos K e
      rw [candidates_scaled b hK]
      simp only [decimal_iff hK hi]
      generalize hx : mag b * 10 ^ K = x at *
      have h1 := Nat.div_add_mod x (place K e)
      have h2 := Nat.mod_lt x hP
      generalize hq : x / place K e = q at *
      rw [Nat.mul_comm] at h1
      rcases Nat.lt_or_ge q d with hlt | hge
      · refine ⟨q + 1, by split <;> simp, convex_up h ?_ (Nat.mul_le_mul_right _ hlt), by omega⟩
        rw [hx, Nat.add_mul]
        omega
      · refine ⟨q, by split <;> simp, convex_down h ?_ (Nat.mul_le_mul_right _ hge), by omega⟩
        rw [hx]
        omega
    obtain ⟨c, hc, hdec, hc0⟩ := hcand
    rw [hsplit] at he hpw
    rcases List.mem_append.1 he with he | he
    · have := hbefore e he c hc hdec
      omega
    · rcases List.mem_cons.1 he with rfl | he
      · exact Int.le_refl _
      · have := (List.pairwise_cons.1 (List.pairwise_append.1 hpw).2.1).1 e he
        omega
  · omega

/-- Of the decimals read as this float, none has fewer digits. -/
theorem shortest_digits {b : Nat} (hb : 0 < b) (hi : b < infBits) {d : Nat} {e : Int} (hd : 0 < d) (h : decimal false d e = mk false b) :
    (showNat (shortest b).1).length ≤ (showNat d).length := by
  have hmax := shortest_max hb hi hd h
  obtain ⟨s1, s2, -⟩ := shortest_spec b hb hi
  generalize hD : (shortest b).1 = D at *
  generalize hE : (shortest b).2 = E at *
  refine Nat.le_of_not_lt fun hlt => ?_
  obtain ⟨a1, a2, a3⟩ := showNat_length D s1
  obtain ⟨b1, b2, b3⟩ := showNat_length d hd
  generalize (showNat D).length = N at *
  generalize (showNat d).length = n at *
  obtain ⟨K, hK, hK'⟩ : ∃ K : Nat, 0 ≤ e + K ∧ 0 ≤ E + K := ⟨e.natAbs + E.natAbs, by omega, by omega⟩
  have w1 := (decimal_iff hK hi).1 h
  have w2 := (decimal_iff hK' hi).1 s2
  have hP := place_pos K E
  have e1 : place K E = 10 ^ (E - e).toNat * place K e := by
    have := place_add hK (E - e).toNat
    rwa [show e + ((E - e).toNat : Int) = E by omega] at this
  have e2 : place K e ≤ place K E := by
    rw [e1]
    exact Nat.le_mul_of_pos_left _ (ten_pos _)
  have w3 : roundMag (1 * place K (E + (N - 1 : Nat))) (10 ^ K) = b := by
    rw [Nat.one_mul, place_add hK']
    refine between w1 w2 ?_ (Nat.mul_le_mul_right _ a2)
    have : d ≤ 10 ^ (N - 1) := Nat.le_trans (Nat.le_of_lt b3) (Nat.pow_le_pow_right (by decide) (by omega))
    exact Nat.le_trans (Nat.mul_le_mul_left d e2) (Nat.mul_le_mul_right _ this)
  have := shortest_max hb hi (d := 1) (by decide) ((decimal_iff (by omega) hi).2 w3)
  rw [hE] at this
  omega

private theorem find_pair {p : Nat × Int → Bool} {c c' D : Nat} {E : Int} (h : ([c, c'].map fun d => (d, E)).find? p = some (D, E)) :
    D = c ∨ D = c' ∧ p (c, E) = false := by
  simp only [List.map_cons, List.map_nil, List.find?_cons, List.find?_nil] at h
  cases h1 : p (c, E) with
  | true =>
    simp only [h1, Option.some.injEq, Prod.mk.injEq] at h
    exact Or.inl h.1.symm
  | false =>
    cases h2 : p (c', E) with
    | true =>
      simp only [h1, h2, Option.some.injEq, Prod.mk.injEq] at h
      exact Or.inr ⟨h.1.symm, rfl⟩
    | false => simp [h1, h2] at h

/-- Of the decimals read as this float whose last digit is at the same place, none is nearer to it. -/
theorem shortest_near {b : Nat} (hb : 0 < b) (hi : b < infBits) {d : Nat} (hd : 0 < d) (h : decimal false d (shortest b).2 = mk false b) {K : Nat}
    (hK : 0 ≤ (shortest b).2 + K) :
    (((shortest b).1 * place K (shortest b).2 : Nat) - ((mag b * 10 ^ K : Nat) : Int)).natAbs ≤ ((d * place K (shortest b).2 : Nat) - ((mag b * 10 ^ K : Nat) : Int)).natAbs := by
  obtain ⟨-, -, -, hfind, -⟩ := shortest_first b hb hi
  generalize hs : shortest b = r at *
  obtain ⟨D, E⟩ := r
  simp only at h hK hfind ⊢
  clear hs
  rw [candidates_scaled b hK] at hfind
  rw [decimal_iff hK hi] at h
  have hP := place_pos K E
  have key : ∀ c c', ([c, c'].map fun d => (d, E)).find? (fun (d, e) => decimal false d e == mk false b && decide (0 < d)) = some (D, E) →
      D = c ∨ D = c' ∧ (0 < c → roundMag (c * place K E) (10 ^ K) ≠ b) := by
    intro c c' hf
    rcases find_pair hf with h1 | ⟨h1, h2⟩
    · exact Or.inl h1
    · refine Or.inr ⟨h1, fun hc hw => ?_⟩
      have h3 := (decimal_iff hK hi).2 hw
      simp only [h3, hc, decide_true, Bool.and_true, beq_self_eq_true, Bool.true_eq_false] at h2
  generalize hx : mag b * 10 ^ K = x at *
  have h1 := Nat.div_add_mod x (place K E)
  have h2 := Nat.mod_lt x hP
  generalize hq : x / place K E = q at *
  generalize x % place K E = m at *
  rw [Nat.mul_comm] at h1
  have h3 : (q + 1) * place K E = q * place K E + place K E := by rw [Nat.add_mul, Nat.one_mul]
  have hside : d * place K E ≤ q * place K E ∧ d ≤ q ∨ (q + 1) * place K E ≤ d * place K E := by
    rcases Nat.lt_or_ge q d with hlt | hge
    · exact Or.inr (Nat.mul_le_mul_right _ hlt)
    · exact Or.inl ⟨Nat.mul_le_mul_right _ hge, hge⟩
  split at hfind
  · rename_i hc
    rcases key _ _ hfind with rfl | ⟨rfl, hno⟩
    · omega
    · rcases hside with ⟨hs, hle⟩ | hs
      · exact absurd (convex_down h (by omega) hs) (hno (by omega))
      · omega
  · rename_i hc
    rcases key _ _ hfind with rfl | ⟨rfl, hno⟩
    · omega
    · rcases hside with ⟨hs, hle⟩ | hs
      · omega
      · exact absurd (convex_up h (by omega) hs) (hno (by omega))

end Quilt.Ieee
