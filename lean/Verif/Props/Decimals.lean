import Verif.Lib.IeeeShortest
import Verif.Props.FloatText

/-!
# Decimals: C69

What texts `@float` accepts, which float it makes of them, and that `@str` of a float is as short as possible.
-/

namespace Quilt.Props

open Lib Ieee Peg

set_option exponentiation.threshold 4000

variable {C : Type}

/-! ## Specification -/

def Digits (ds : List Char) : Prop := ∀ c ∈ ds, '0' ≤ c ∧ c ≤ '9'

instance (ds : List Char) : Decidable (Digits ds) := inferInstanceAs (Decidable (∀ c ∈ ds, _))

/-- The value of decimal digits. -/
def digitsValue (ds : List Char) : Nat := ds.foldl (fun n c => 10 * n + (c.toNat - 48)) 0

inductive Signed : List Char → Bool → Prop
  | none : Signed [] false
  | plus : Signed ['+'] false
  | minus : Signed ['-'] true

inductive Exponent : List Char → Int → Prop
  | none : Exponent [] 0
  | some {c sg n ds} : c = 'e' ∨ c = 'E' → Signed sg n → Digits ds → ds ≠ [] → Exponent (c :: (sg ++ ds)) (if n then -(digitsValue ds : Int) else digitsValue ds)

/-- The text is a decimal with this sign and the magnitude `d * 10 ^ e`. -/
inductive Decimal : List Char → Bool → Nat → Int → Prop
  | whole {sg n ds ex e} : Signed sg n → Digits ds → ds ≠ [] → Exponent ex e → Decimal (sg ++ (ds ++ ex)) n (digitsValue ds) e
  | point {sg n ds fs ex e} : Signed sg n → Digits ds → Digits fs → ds ≠ [] ∨ fs ≠ [] → Exponent ex e →
    Decimal (sg ++ (ds ++ '.' :: (fs ++ ex))) n (digitsValue (ds ++ fs)) (e - fs.length)

/-- The other texts of floats, in lower case. -/
def Word (t : List Char) (n : Bool) (w : List Char) : Prop := ∃ sg, Signed sg n ∧ ∃ u, t = sg ++ u ∧ u.map Char.toLower = w

/-- The digits of `d * 10 ^ e` without an exponent. -/
def PlainText (t : List Char) (d : Nat) (e : Int) : Prop :=
  (0 ≤ e ∧ Digits t ∧ digitsValue t = d * 10 ^ e.toNat ∧ t.head? ≠ some '0') ∨
  ∃ ds fs, t = ds ++ '.' :: fs ∧ Digits ds ∧ Digits fs ∧ ds ≠ [] ∧ (fs.length : Int) = -e ∧ digitsValue (ds ++ fs) = d ∧ fs ≠ []

/-! ## Proofs -/

private theorem digit_iff {ds : List Char} : Digits ds ↔ ∀ c ∈ ds, isDig c = true := by
  unfold Digits isDig
  simp only [Bool.and_eq_true, decide_eq_true_eq]

private theorem digits_spec (s : List Char) : ∃ ds r, digits s = (ds, r) ∧ s = ds ++ r ∧ Digits ds ∧ NotHead isDig r := by
  induction s with
  | nil => exact ⟨[], [], rfl, rfl, by simp [Digits], trivial⟩
  | cons c s ih =>
    obtain ⟨ds, r, -, h2, h3, h4⟩ := ih
    cases hc : isDig c with
    | true =>
      have hd : ∀ d ∈ c :: ds, isDig d = true := by
        intro d hd
        rcases List.mem_cons.1 hd with rfl | hd
        · exact hc
        · exact digit_iff.1 h3 d hd
      refine ⟨c :: ds, r, ?_, by rw [h2]; rfl, digit_iff.2 hd, h4⟩
      rw [h2]
      exact digits_span hd h4
    | false => exact ⟨[], c :: s, digits_span (ds := []) (by simp) hc, rfl, by simp [Digits], hc⟩

private theorem signOf_spec (s : List Char) : ∃ sg n u, signOf s = (n, u) ∧ s = sg ++ u ∧ Signed sg n := by
  unfold signOf
  split
  · exact ⟨['-'], _, _, rfl, rfl, .minus⟩
  · exact ⟨['+'], _, _, rfl, rfl, .plus⟩
  · exact ⟨[], _, _, rfl, rfl, .none⟩

private theorem signOf_signed {sg u : List Char} {n : Bool} (h : Signed sg n) (hp : NotHead (· == '+') u) (hm : NotHead (· == '-') u) : signOf (sg ++ u) = (n, u) := by
  cases h with
  | none =>
    cases u with
    | nil => rfl
    | cons c u =>
      have h1 : c ≠ '+' := by simpa [NotHead] using hp
      have h2 : c ≠ '-' := by simpa [NotHead] using hm
      show signOf (c :: u) = _
      unfold signOf
      split
      · rename_i h; cases h; exact absurd rfl h2
      · rename_i h; cases h; exact absurd rfl h1
      · rfl
  | plus => rfl
  | minus => rfl

private theorem notHead_digits {ds u : List Char} (h : Digits ds) (hne : ds ≠ []) {x : Char} (hx : isDig x = false) : NotHead (· == x) (ds ++ u) := by
  cases ds with
  | nil => exact absurd rfl hne
  | cons c ds =>
    show (c == x) = false
    have := digit_iff.1 h c (by simp)
    cases h' : c == x with
    | false => rfl
    | true => rw [eq_of_beq h', hx] at this; simp at this

private theorem exponent_some {t : List Char} {e : Int} (h : Exponent t e) : exponent t = some e := by
  cases h with
  | none => rfl
  | @some c sg n ds hc hs hd hne =>
    unfold exponent
    simp only [hc, if_true]
    have h1 := signOf_signed hs (u := ds) (by simpa using notHead_digits (u := []) hd hne (by decide)) (by simpa using notHead_digits (u := []) hd hne (by decide))
    have h2 := digits_span (ds := ds) (r := []) (digit_iff.1 hd) trivial
    rw [List.append_nil] at h2
    rw [h1]
    simp only [h2]
    cases ds with
    | nil => exact absurd rfl hne
    | cons c ds => rfl

private theorem exponent_inv {t : List Char} {e : Int} (h : exponent t = some e) : Exponent t e := by
  unfold exponent at h
  split at h
  · cases h; exact .none
  · rename_i c s
    split at h
    · rename_i hc
      obtain ⟨sg, n, u, h1, rfl, hs⟩ := signOf_spec s
      obtain ⟨ds, r, h2, rfl, hd, -⟩ := digits_spec u
      simp only [h1, h2] at h
      split at h
      · cases h
      · rename_i hne hq
        cases hq
        cases h
        rw [List.append_nil]
        exact .some hc hs hd hne
      · cases h
    · cases h

private theorem exponent_notDig {t : List Char} {e : Int} (h : Exponent t e) : NotHead isDig t ∧ NotHead (· == '.') t := by
  cases h with
  | none => exact ⟨trivial, trivial⟩
  | some hc => rcases hc with rfl | rfl <;> exact ⟨by show _ = _; decide, by show _ = _; decide⟩

/-- What `@float` makes of the texts. -/
private theorem parse_inv {t : List Char} {x : BitVec 64} (h : parse t = some x) :
    (∃ n d e, Decimal t n d e ∧ x = decimal n d e) ∨ (∃ n, (Word t n "inf".toList ∨ Word t n "infinity".toList) ∧ x = mk n infBits) ∨
    ((∃ n, Word t n "nan".toList) ∧ x = nan) := by
  unfold parse at h
  obtain ⟨sg, n, u, h1, rfl, hs⟩ := signOf_spec t
  simp only [h1] at h
  split at h
  · rename_i hw
    cases h
    right; left
    refine ⟨n, ?_, rfl⟩
    rcases hw with hw | hw
    · exact .inl ⟨sg, hs, u, rfl, hw⟩
    · exact .inr ⟨sg, hs, u, rfl, hw⟩
  · split at h
    · rename_i hw
      cases h
      right; right
      exact ⟨⟨n, sg, hs, u, rfl, hw⟩, rfl⟩
    · left
      obtain ⟨ds, r, h2, rfl, hd, -⟩ := digits_spec u
      simp only [h2] at h
      split at h
      · rename_i ds' s hq
        cases hq
        obtain ⟨fs, r, h3, rfl, hf, -⟩ := digits_spec s
        simp only [h3] at h
        split at h
        · cases h
        · rename_i hne
          cases he : exponent r with
          | none => rw [he] at h; cases h
          | some e =>
            rw [he] at h
            cases h
            refine ⟨n, _, _, .point hs hd hf ?_ (exponent_inv he), rfl⟩
            by_cases h0 : ds = []
            · exact .inr fun h1 => hne ⟨h0, h1⟩
            · exact .inl h0
      · rename_i ds' s hq
        split at h
        · cases h
        · rename_i hne
          cases hq
          cases he : exponent r with
          | none => rw [he] at h; cases h
          | some e =>
            rw [he] at h
            cases h
            exact ⟨n, _, _, .whole hs hd hne (exponent_inv he), rfl⟩

private theorem no_word {c : Char} {u : List Char} (hc : isDig c = true ∨ c = '.') :
    ¬ ((c :: u).map Char.toLower = "inf".toList ∨ (c :: u).map Char.toLower = "infinity".toList) ∧ (c :: u).map Char.toLower ≠ "nan".toList := by
  have hlow : c.toLower = c := by
    rcases hc with hc | rfl
    · unfold Char.toLower
      have : ¬ (65 ≤ c.val ∧ c.val ≤ 90) := by
        simp only [isDig, Bool.and_eq_true, decide_eq_true_eq, Char.le_def] at hc
        have h2 := hc.2
        rintro ⟨a, _⟩
        exact absurd (UInt32.le_trans a h2) (by decide)
      simp [this]
    · decide
  have hne : ∀ x, isDig x = false → x ≠ '.' → c ≠ x := by
    rintro x hx h1 rfl
    rcases hc with hc | hc
    · rw [hc] at hx; cases hx
    · exact h1 hc
  refine ⟨not_or.2 ⟨fun h => ?_, fun h => ?_⟩, fun h => ?_⟩ <;> rw [List.map_cons, hlow] at h
  · exact hne 'i' (by decide) (by decide) (List.cons.inj h).1
  · exact hne 'i' (by decide) (by decide) (List.cons.inj h).1
  · exact hne 'n' (by decide) (by decide) (List.cons.inj h).1

private theorem parse_decimal {t : List Char} {n : Bool} {d : Nat} {e : Int} (h : Decimal t n d e) : parse t = some (decimal n d e) := by
  have head : ∀ u : List Char, (∃ c v, u = c :: v ∧ (isDig c = true ∨ c = '.')) → NotHead (· == '+') u ∧ NotHead (· == '-') u ∧
      ¬ (u.map Char.toLower = "inf".toList ∨ u.map Char.toLower = "infinity".toList) ∧ u.map Char.toLower ≠ "nan".toList := by
    rintro u ⟨c, v, rfl, hc⟩
    refine ⟨?_, ?_, (no_word hc).1, (no_word hc).2⟩ <;>
    · show (c == _) = false
      rcases hc with hc | rfl
      · cases h' : c == _ with
        | false => rfl
        | true => rw [eq_of_beq h'] at hc; revert hc; decide
      · decide
  have dhead : ∀ {ds u : List Char}, Digits ds → ds ≠ [] → ∃ c v, ds ++ u = c :: v ∧ (isDig c = true ∨ c = '.') := by
    intro ds u hd hne
    cases ds with
    | nil => exact absurd rfl hne
    | cons c ds => exact ⟨c, ds ++ u, rfl, .inl (digit_iff.1 hd c (by simp))⟩
  cases h with
  | @whole sg n ds ex e hs hd hne he =>
    obtain ⟨g1, g2, g3, g4⟩ := head _ (dhead (u := ex) hd hne)
    obtain ⟨x1, x2⟩ := exponent_notDig he
    unfold parse
    rw [signOf_signed hs g1 g2]
    simp only [g3, g4, if_false]
    rw [digits_span (digit_iff.1 hd) x1]
    cases ex with
    | nil =>
      simp only [hne, if_false, exponent_some he]
      rfl
    | cons c ex =>
      have hc : c ≠ '.' := by simpa [NotHead] using x2
      split
      · rename_i hq
        cases hq
        exact absurd rfl hc
      · rename_i hq
        cases hq
        simp only [hne, if_false, exponent_some he]
        rfl
  | @point sg n ds fs ex e hs hd hf hne he =>
    have hh : ∃ c v, ds ++ '.' :: (fs ++ ex) = c :: v ∧ (isDig c = true ∨ c = '.') := by
      by_cases h0 : ds = []
      · exact ⟨'.', fs ++ ex, by rw [h0]; rfl, .inr rfl⟩
      · exact dhead hd h0
    obtain ⟨g1, g2, g3, g4⟩ := head _ hh
    unfold parse
    rw [signOf_signed hs g1 g2]
    simp only [g3, g4, if_false]
    rw [digits_span (r := '.' :: (fs ++ ex)) (digit_iff.1 hd) (show isDig '.' = false by decide)]
    simp only [digits_span (digit_iff.1 hf) (exponent_notDig he).1, exponent_some he]
    rw [if_neg (fun h => hne.elim (fun g => g h.1) (fun g => g h.2))]
    rfl

private theorem float_str (R : Rest) (chk : Bool) (cname : C → String) (lim : Limits) (t : List Char) :
    callStd (ops R) chk cname lim "float" [.str t] = some (Lib.float (ops R) (.str t)) := rfl

/-- The texts `@float` accepts: decimals, to which the result is the nearest float, with ties to even and overflow to infinity; the words `inf`,
`infinity` and `nan` in any case. All others are errors. -/
theorem C69_parse (R : Rest) (chk : Bool) (cname : C → String) (lim : Limits) (t : List Char) :
    (∀ n d e, Decimal t n d e → ∃ x, callStd (ops R) chk cname lim "float" [.str t] = some (.ok (.float x)) ∧ isNeg x = n ∧
      Rounded ((if n then -1 else 1) * ((d * 10 ^ e.toNat * 2 ^ 1074 : Nat) : Int)) (10 ^ (-e).toNat) x) ∧
    (∀ n, Word t n "inf".toList ∨ Word t n "infinity".toList → ∃ x, callStd (ops R) chk cname lim "float" [.str t] = some (.ok (.float x)) ∧ isNeg x = n ∧ isInf x = true) ∧
    (∀ n, Word t n "nan".toList → ∃ x, callStd (ops R) chk cname lim "float" [.str t] = some (.ok (.float x)) ∧ isNaN x = true) ∧
    ((∃ e, callStd (ops R) chk cname lim "float" [.str t] = some (.err e)) ∨ (∃ n d e, Decimal t n d e) ∨
      ∃ n, Word t n "inf".toList ∨ Word t n "infinity".toList ∨ Word t n "nan".toList) := by
  have hf : ∀ x, parse t = some x → callStd (ops R) chk cname lim "float" [.str t] = some (.ok (.float x)) := by
    intro x h
    rw [float_str]
    unfold Lib.float
    simp only [show (ops R).parse t = some x from h]
  refine ⟨fun n d e h => ⟨_, hf _ (parse_decimal h), ?_, ?_⟩, fun n h => ?_, fun n h => ?_, ?_⟩
  · unfold decimal; rw [isNeg_round]
  · have := round_rounded n (d * 10 ^ e.toNat * one) (10 ^ (-e).toNat) (Nat.pow_pos (by decide))
    have hsg : signed n (d * 10 ^ e.toNat * one) = (if n then -1 else 1) * ((d * 10 ^ e.toNat * 2 ^ 1074 : Nat) : Int) := by
      unfold one
      cases n
      · simp only [signed, Bool.false_eq_true, if_false, Int.one_mul]
      · simp only [signed, if_true, Int.neg_mul, Int.one_mul]
    rw [hsg] at this
    exact this
  · refine ⟨mk n infBits, hf _ ?_, by rw [isNeg_mk _ infBits_lt], by unfold isInf; rw [bits_mk _ infBits_lt]; simp⟩
    have key : ∀ w, (w = "inf".toList ∨ w = "infinity".toList) → Word t n w → parse t = some (mk n infBits) := by
      rintro w hw ⟨sg, hs, u, rfl, rfl⟩
      have hne : NotHead (· == '+') u ∧ NotHead (· == '-') u := by
        cases u with
        | nil => exact ⟨trivial, trivial⟩
        | cons c u =>
          refine ⟨?_, ?_⟩
          · show (c == '+') = false
            cases h' : c == '+' with
            | false => rfl
            | true => rw [eq_of_beq h'] at hw; rcases hw with hw | hw <;> exact absurd (List.cons.inj hw).1 (by decide)
          · show (c == '-') = false
            cases h' : c == '-' with
            | false => rfl
            | true => rw [eq_of_beq h'] at hw; rcases hw with hw | hw <;> exact absurd (List.cons.inj hw).1 (by decide)
      unfold parse
      rw [signOf_signed hs hne.1 hne.2]
      simp only [hw, if_true]
    exact h.elim (key _ (.inl rfl)) (key _ (.inr rfl))
  · refine ⟨nan, hf _ ?_, by decide⟩
    obtain ⟨sg, hs, u, rfl, hw⟩ := h
    have hne : NotHead (· == '+') u ∧ NotHead (· == '-') u := by
      cases u with
      | nil => exact ⟨trivial, trivial⟩
      | cons c u =>
        refine ⟨?_, ?_⟩
        · show (c == '+') = false
          cases h' : c == '+' with
          | false => rfl
          | true => rw [eq_of_beq h'] at hw; exact absurd (List.cons.inj hw).1 (by decide)
        · show (c == '-') = false
          cases h' : c == '-' with
          | false => rfl
          | true => rw [eq_of_beq h'] at hw; exact absurd (List.cons.inj hw).1 (by decide)
    unfold parse
    rw [signOf_signed hs hne.1 hne.2]
    have : ¬ (u.map Char.toLower = "inf".toList ∨ u.map Char.toLower = "infinity".toList) := by rw [hw]; decide
    simp only
    rw [if_neg this, if_pos hw]
  · cases hp : parse t with
    | none =>
      left
      rw [float_str]
      unfold Lib.float
      simp only [show (ops R).parse t = none from hp]
      exact ⟨_, rfl⟩
    | some x =>
      right
      rcases parse_inv hp with ⟨n, d, e, h, -⟩ | ⟨n, h | h, -⟩ | ⟨⟨n, h⟩, -⟩
      · exact .inl ⟨n, d, e, h⟩
      · exact .inr ⟨n, .inl h⟩
      · exact .inr ⟨n, .inr (.inl h)⟩
      · exact .inr ⟨n, .inr (.inr h)⟩

/-- `@str` of a float that is neither NaN nor infinite nor zero: its sign and a decimal `d * 10 ^ e` without an exponent. No text that `@float`
reads as this float has fewer digits than `d`, and of those with the last digit at the same place, none is nearer to the float. -/
theorem C69_shortest (R : Rest) (chk : Bool) (cname : C → String) (lim : Limits) {x : BitVec 64} (hx : isFinite x = true) (h0 : val x ≠ 0) : ∃ t d e,
    callStd (ops R) chk cname lim "str" [.float x] = some (.ok (.str ((if isNeg x then ['-'] else []) ++ t))) ∧ PlainText t d e ∧
    ∀ t' n' d' e', Decimal t' n' d' e' → callStd (ops R) chk cname lim "float" [.str t'] = some (.ok (.float x)) →
      (showNat d).length ≤ (showNat d').length ∧ (e' = e →
        (((d * 10 ^ e.toNat * 2 ^ 1074 : Nat) : Int) - ((val x).natAbs * 10 ^ (-e).toNat : Nat)).natAbs ≤
        (((d' * 10 ^ e.toNat * 2 ^ 1074 : Nat) : Int) - ((val x).natAbs * 10 ^ (-e).toNat : Nat)).natAbs) := by
  have hb0 : bits x ≠ 0 := fun h => h0 (val_eq_zero.2 h)
  have hb : 0 < bits x := by omega
  have hi := isFinite_iff.1 hx
  obtain ⟨h1, h2, -⟩ := shortest_spec (bits x) hb hi
  refine ⟨plain (shortest (bits x)).1 (shortest (bits x)).2, (shortest (bits x)).1, (shortest (bits x)).2, ?_, ?_, ?_⟩
  · show some (Res.ok (Val.str (toStr x))) = _
    unfold toStr
    rw [finite_not_nan hx, finite_not_inf hx]
    simp only [Bool.false_eq_true, if_false, hb0]
  · obtain ⟨p1, p2⟩ := plain_shape _ (shortest (bits x)).2 h1
    by_cases he : 0 ≤ (shortest (bits x)).2
    · left
      rw [p1 he]
      refine ⟨he, digit_iff.2 (showNat_spec _).1, number_showNat _, ?_⟩
      exact showNat_head _ (Nat.mul_pos h1 (Nat.pow_pos (by decide)))
    · right
      obtain ⟨c, ds, fs, a1, a2, a3, a4, a5, a6⟩ := p2 (by omega)
      exact ⟨c :: ds, fs, a1, digit_iff.2 a2, digit_iff.2 a3, by simp, a5, a6, a4⟩
  · intro t' n' d' e' ht hf
    have hp : decimal n' d' e' = x := by
      rw [float_str] at hf
      unfold Lib.float at hf
      simp only [show (ops R).parse t' = some (decimal n' d' e') from parse_decimal ht, Option.some.injEq, Res.ok.injEq, Val.float.injEq] at hf
      exact hf
    have hn : n' = isNeg x := by
      rw [← hp]; unfold decimal; rw [isNeg_round]
    have hw : decimal false d' e' = mk false (bits x) := by
      have e1 := congrArg bits hp
      unfold decimal at e1 ⊢
      rw [bits_round] at e1
      unfold round
      rw [← e1]
    have hd : 0 < d' := by
      refine Nat.pos_of_ne_zero fun h => hb0 ?_
      have e1 := congrArg bits hw
      rw [bits_mk _ (Nat.lt_trans hi infBits_lt), h] at e1
      unfold decimal at e1
      rw [bits_round] at e1
      rw [← e1, Nat.zero_mul, Nat.zero_mul, roundMag_zero _ (Nat.pow_pos (by decide))]
      rfl
    refine ⟨shortest_digits hb hi hd hw, fun he => ?_⟩
    subst he
    have := shortest_near hb hi hd hw (K := (-(shortest (bits x)).2).toNat) (by omega)
    rw [val_natAbs]
    unfold place at this
    rw [show ((shortest (bits x)).2 + ((-(shortest (bits x)).2).toNat : Int)).toNat = (shortest (bits x)).2.toNat by omega, ← Nat.mul_assoc, ← Nat.mul_assoc] at this
    exact this
where
  showNat_head (n : Nat) (h : 0 < n) : (showNat n).head? ≠ some '0' := by
    fun_induction showNat n with
    | case1 n h' =>
      have : n = 1 ∨ n = 2 ∨ n = 3 ∨ n = 4 ∨ n = 5 ∨ n = 6 ∨ n = 7 ∨ n = 8 ∨ n = 9 := by omega
      rcases this with rfl | rfl | rfl | rfl | rfl | rfl | rfl | rfl | rfl <;> decide
    | case2 n h' ih =>
      have h1 := ih (by omega)
      obtain ⟨g1, -⟩ := showNat_length (n / 10) (by omega)
      cases hs : showNat (n / 10) with
      | nil => rw [hs] at g1; simp at g1
      | cons c cs => rw [hs] at h1; simpa using h1

/-- The other floats. -/
theorem C69_special (R : Rest) (chk : Bool) (cname : C → String) (lim : Limits) (x : BitVec 64) :
    (isNaN x = true → callStd (ops R) chk cname lim "str" [.float x] = some (.ok (.str "NaN".toList))) ∧
    (isInf x = true → callStd (ops R) chk cname lim "str" [.float x] = some (.ok (.str (if isNeg x then "-inf".toList else "inf".toList)))) ∧
    (val x = 0 → isFinite x = true → callStd (ops R) chk cname lim "str" [.float x] = some (.ok (.str (if isNeg x then "-0".toList else "0".toList)))) := by
  have hs : callStd (ops R) chk cname lim "str" [.float x] = some (.ok (.str (toStr x))) := rfl
  rw [hs]
  refine ⟨fun h => ?_, fun h => ?_, fun h hx => ?_⟩
  · unfold toStr; rw [h]; rfl
  · have hn : isNaN x = false := by
      rcases kinds x with k | k | k
      · rw [k.2.1] at h; cases h
      · exact k.2.2
      · rw [k.2.1] at h; cases h
    unfold toStr
    rw [hn, h]
    cases isNeg x <;> rfl
  · unfold toStr
    rw [finite_not_nan hx, finite_not_inf hx]
    simp only [Bool.false_eq_true, if_false, val_eq_zero.1 h, if_true]
    cases isNeg x <;> rfl

/-- `-1.5e3`, `.5` and `7` are decimals, `InF` is a word. -/
example : Decimal "-1.5e3".toList true 15 2 ∧ Decimal ".5".toList false 5 (-1) ∧ Decimal "7".toList false 7 0 ∧ Word "InF".toList false "inf".toList :=
  ⟨.point (ds := ['1']) (fs := ['5']) .minus (by decide) (by decide) (.inl (by decide)) (.some (ds := ['3']) (.inl rfl) .none (by decide) (by decide)),
    .point (ds := []) (fs := ['5']) .none (by decide) (by decide) (.inr (by decide)) .none, .whole (ds := ['7']) .none (by decide) (by decide) .none,
    ⟨[], .none, _, rfl, by decide⟩⟩

/-- 0.3 is printed with one digit, 0.1 + 0.2 needs seventeen. -/
example : toStr 0x3FD3333333333333 = "0.3".toList ∧ toStr (add 0x3FB999999999999A 0x3FC999999999999A) = "0.30000000000000004".toList := by decide +kernel

end Quilt.Props
