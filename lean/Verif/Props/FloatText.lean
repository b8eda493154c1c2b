import Verif.Lib.IeeeText
import Verif.Props.Parser
import Verif.Props.Floats

/-!
# Floats as texts: C68

With the operations of `f64` (`Verif/Lib/Ieee.lean`), also for the literals of programs (`Env.float`).
-/

namespace Quilt.Props

open Lib Ieee Peg

set_option exponentiation.threshold 4000

variable {C : Type}

/-- What is printed for a float that is neither NaN nor infinite nor zero: a sign and a decimal that is rounded to this float. -/
private theorem toStr_shape {x : BitVec 64} (hx : isFinite x = true) (h0 : val x ≠ 0) : ∃ (d : Nat) (e : Int), 0 < d ∧ toStr x = (if isNeg x then ['-'] else []) ++ plain d e ∧
    decimal (isNeg x) d e = x ∧ decimal false d e = mk false (bits x) ∧ (one ∣ mag (bits x) → 0 ≤ e) := by
  have hb : bits x ≠ 0 := fun h => h0 (val_eq_zero.2 h)
  obtain ⟨h1, h2, h3⟩ := shortest_spec (bits x) (by omega) (isFinite_iff.1 hx)
  refine ⟨_, _, h1, ?_, ?_, h2, h3⟩
  · unfold toStr
    rw [finite_not_nan hx, finite_not_inf hx]
    simp only [Bool.false_eq_true, if_false, hb]
  · rw [decimal_bits (isFinite_iff.1 hx) h2, mk_self]

private theorem parse_toStr {x : BitVec 64} (hx : isNaN x = false) : parse (toStr x) = some x := by
  rcases kinds x with k | k | k
  · by_cases h0 : bits x = 0
    · have hs : toStr x = (if isNeg x then ['-'] else []) ++ ['0'] := by
        unfold toStr
        rw [hx, k.2.1]
        simp [h0]
      have := (parse_fraction (isNeg x) (c := '0') (ds := []) (fs := []) (by simp [isDig]) (by simp)).2
      rw [hs, this]
      have e : number ['0'] = 0 := by decide
      rw [e]
      refine congrArg some (eq_of_parts ?_ ?_)
      · unfold decimal; rw [isNeg_round]
      · rw [h0]
        unfold decimal
        rw [bits_round]
        simp [roundMag_zero]
    · obtain ⟨d, e, h1, h2, h3, -⟩ := toStr_shape k.1 (fun h => h0 (val_eq_zero.1 h))
      rw [h2, parse_plain _ _ _ h1, h3]
  · have hs : toStr x = (if isNeg x then ['-'] else []) ++ "inf".toList := by
      unfold toStr
      rw [hx, k.2.1]
      simp
    have hb : bits x = infBits := by simpa [isInf] using k.2.1
    have e : parse ((if isNeg x then ['-'] else []) ++ "inf".toList) = some (mk (isNeg x) infBits) := by cases isNeg x <;> decide
    rw [hs, e, ← hb, mk_self]
  · rw [k.2.2] at hx; simp at hx

/-- `@float(@str(x))` is `x`, for all floats. -/
theorem C68_roundtrip (R : Rest) (chk : Bool) (cname : C → String) (lim : Limits) (x : BitVec 64) : ∃ t, callStd (ops R) chk cname lim "str" [.float x] = some (.ok (.str t)) ∧
    callStd (ops R) chk cname lim "float" [.str t] = some (.ok (.float (if isNaN x then nan else x))) := by
  refine ⟨toStr x, rfl, ?_⟩
  have hc : ∀ (t : List Char) (y : BitVec 64), parse t = some y → callStd (ops R) chk cname lim "float" [.str t] = some (.ok (.float y)) := by
    intro t y h
    show some (Lib.float (ops R) (.str t)) = _
    unfold Lib.float
    simp only [show (ops R).parse t = some y from h]
  refine hc _ _ ?_
  cases hx : isNaN x with
  | false => exact parse_toStr hx
  | true =>
    have : toStr x = "NaN".toList := by unfold toStr; rw [hx]; rfl
    rw [this, if_pos rfl]
    decide

/-- The conversion of literals of the parser is that of `f64`. -/
def ReadsFloats (E : Env) : Prop := ∀ t x, parse t = some x → E.float t = x

private theorem isDig_num {c : Char} (h : isDig c = true) : isNum c = true := by simp [isNum, h]

private theorem read_fraction {E : Env} (hE : ReadsFloats E) {x : BitVec 64} {s : Bool} {c : Char} {ds fs : List Char} (hd : ∀ y ∈ c :: ds, isDig y = true)
    (hf : ∀ y ∈ fs, isDig y = true) (hne : fs ≠ []) (hx : parse ((if s then ['-'] else []) ++ (c :: ds ++ '.' :: fs)) = some x) :
    Readable E ((if s then ['-'] else []) ++ (c :: ds ++ '.' :: fs)) (.float x) := by
  have hc := hd c (by simp)
  obtain ⟨c', cs', hh, hn⟩ : ∃ c' cs', (if s then ['-'] else []) ++ (c :: ds ++ '.' :: fs) = c' :: cs' ∧ isNum c' = true := by
    cases s with
    | true => exact ⟨'-', _, rfl, by decide⟩
    | false => exact ⟨c, _, rfl, isDig_num hc⟩
  refine ⟨⟨c', cs', hh, isNum_skip hn, isNum_ne hn (by decide)⟩, fun k hk r hr => ?_⟩
  cases k with
  | zero => rw [hh] at hk; simp at hk
  | succ k =>
    have hne' : ∀ y, isNum y = false → NotHead (· == y) ((if s then ['-'] else []) ++ (c :: ds ++ '.' :: fs) ++ r) := fun y hy => by rw [hh]; exact isNum_ne hn hy
    refine Reads.no_word (hne' _ (by decide)) (hne' _ (by decide)) (hne' _ (by decide)) rfl (.right (Fails.hexP (hne' _ (by decide))) <| .left ?_)
    refine Reads.map (g := Literal.float) ?_
    have hrest : ∀ b : Bool, E.float ((if b then ['-'] else []) ++ (c :: ds) ++ ['.'] ++ fs) = x → Reads (do
        let ds ← many1 (Peg.cls isDig)
        Peg.str "."
        notP (Peg.str ".")
        let fs ← Peg.many (Peg.cls isDig)
        Pure.pure (E.float ((if b then ['-'] else []) ++ ds ++ ['.'] ++ fs)) : P (BitVec 64)) (c :: ds ++ '.' :: fs) r x := by
      intro b hb
      have h1 : Reads (do
          let ds ← many1 (Peg.cls isDig)
          Peg.str "."
          notP (Peg.str ".")
          let fs ← Peg.many (Peg.cls isDig)
          Pure.pure (E.float ((if b then ['-'] else []) ++ ds ++ ['.'] ++ fs)) : P (BitVec 64)) ((c :: ds) ++ (['.'] ++ ([] ++ fs))) r x := by
        refine Reads.bind (Reads.many1_cls c ds _ hd (show isDig '.' = false by decide)) ?_
        refine Reads.bind (Reads.str "." _ (by decide)) ?_
        refine Reads.bind (t := []) (Reads.notP (Fails.str (c := '.') (cs := []) (by decide) ?_)) ?_
        · cases fs with
          | nil => exact absurd rfl hne
          | cons y ys => exact isNum_ne (isDig_num (hf y (by simp))) (by decide)
        · rw [← hb]
          exact Reads.map (g := fun fs => E.float ((if b then ['-'] else []) ++ (c :: ds) ++ ['.'] ++ fs)) (Reads.many_cls fs r hf (hr.not (by decide) (by decide) (by decide)))
      simpa using h1
    have hEx := hE _ _ hx
    cases s with
    | true =>
      have : Reads (Peg.float E) (['-'] ++ (c :: ds ++ '.' :: fs)) r x :=
        Reads.bind (a := some ()) (Reads.opt_some (Reads.str "-" _ (by decide))) (hrest true (by simpa using hEx))
      exact this
    | false =>
      have : Reads (Peg.float E) ([] ++ (c :: ds ++ '.' :: fs)) r x :=
        Reads.bind (a := none) (Reads.opt_none (Fails.str (c := '-') (cs := []) (by decide) (isNum_ne' hc))) (hrest false (by simpa using hEx))
      exact this
where
  isNum_ne' {c : Char} (h : isDig c = true) : (c == '-') = false := by
    cases h' : c == '-' with
    | false => rfl
    | true => rw [eq_of_beq h'] at h; revert h; decide

/-- The floats with a fraction. -/
def Fractional (x : BitVec 64) : Prop := isFinite x = true ∧ ¬ (2 ^ 1074 : Int) ∣ val x

instance (x : BitVec 64) : Decidable (Fractional x) := inferInstanceAs (Decidable (_ ∧ _))

private theorem integral_of_mag (n : Nat) : one ∣ mag (roundMag (n * one) 1) := by
  by_cases h : n ≤ 2 ^ 53
  · obtain ⟨b, h1, -⟩ := rep_int n h
    have := roundMag_exact b 1 (by decide)
    rw [Nat.mul_one, h1] at this
    rw [this, h1]
    exact Nat.dvd_mul_left ..
  · obtain ⟨b, h1, -⟩ := rep_int (2 ^ 53) (Nat.le_refl _)
    rcases mag_integral (roundMag (n * one) 1) with h2 | h2
    · exfalso
      have h3 : b ≤ roundMag (n * one) 1 := le_roundMag (by decide) (by rw [Nat.mul_one, h1]; exact Nat.mul_le_mul_right _ (by omega))
      have := mag_le_iff.2 h3
      omega
    · exact h2

private theorem dvd_val (x : BitVec 64) : (2 ^ 1074 : Int) ∣ val x ↔ one ∣ mag (bits x) := by
  rw [← val_natAbs, ← Int.natCast_dvd_natCast, Int.dvd_natAbs]
  rfl

private theorem read_float {E : Env} (hE : ReadsFloats E) {x : BitVec 64} (hx : Fractional x) : Readable E (toStr x) (.float x) := by
  obtain ⟨hfin, hfrac⟩ := hx
  have h0 : val x ≠ 0 := by
    intro h
    rw [h] at hfrac
    exact hfrac (Int.dvd_zero _)
  obtain ⟨d, e, h1, h2, h3, h4, -⟩ := toStr_shape hfin h0
  have he : e < 0 := by
    refine Int.not_le.1 fun he => hfrac ((dvd_val x).2 ?_)
    have hb := congrArg bits h4
    unfold decimal at hb
    rw [show (-e).toNat = 0 by omega, Nat.pow_zero, bits_mk _ (Nat.lt_trans (isFinite_iff.1 hfin) infBits_lt), bits_round] at hb
    have hr : roundMag (d * 10 ^ e.toNat * one) 1 = bits x := by
      have := isFinite_iff.1 hfin
      simp only [Nat.min_def] at hb
      split at hb <;> omega
    rw [← hr]
    exact integral_of_mag _
  obtain ⟨c, ds, fs, a1, a2, a3, a4, a5, a6⟩ := (plain_shape d e h1).2 he
  have hp : parse (toStr x) = some x := parse_toStr (finite_not_nan hfin)
  rw [h2, a1] at hp ⊢
  exact read_fraction hE a2 a3 a4 hp

/-- The literals of floats with a fraction. -/
def floatLit (x : BitVec 64) : Option Literal := if Fractional x then some (.float x) else none

/-- C40 with floats: the printed form of a value made of `none`, booleans, integers, floats with a fraction, ranges, colours, pairs and arrays of
any nesting is read as a literal whose value equals the printed one. -/
theorem C68_literals (R : Rest) (E : Env) (hE : ReadsFloats E) (cname : C → String) (ceq : C → C → Option Bool) {v : Val C} {l : Literal} (h : v.litF floatLit = some l) :
    (∃ i, parseLiteral E (v.text (fops R) cname) = .ok l i) ∧ (l.toVal : Val C).eqv (fops R) ceq v = some true := by
  have hfl : ∀ x l, floatLit x = some l → Fractional x ∧ l = .float x := by
    intro x l h
    unfold floatLit at h
    split at h
    · cases h
      exact ⟨by assumption, rfl⟩
    · cases h
  refine ⟨parseLiteral_text (fun x l h => ?_) h, lit?_eqv _ _ (fun x l h => ?_) v h⟩
  · obtain ⟨hx, rfl⟩ := hfl x l h
    exact read_float hE hx
  · obtain ⟨hx, rfl⟩ := hfl x l h
    have : Ieee.eq x x = true := by simp [Ieee.eq, finite_not_nan hx.1]
    unfold Literal.toVal Val.eqv
    exact congrArg some this

/-- Floats without a fraction are printed without a point and read back as integers: the same number up to 2^53; the text of
a greater one need not have its value, and beyond 64 bits it is read as 0 (`C68_violated_integral`). -/
theorem C68_integral_partial (R : Rest) (E : Env) (cname : C → String) {x : BitVec 64} (hx : isFinite x = true) {i : Int} (hi : val x = i * 2 ^ 1074) (hr : i.natAbs < 2 ^ 53) :
    ∃ p, parseLiteral E ((Val.float x : Val C).text (fops R) cname) = .ok (.int (BitVec.ofInt 64 i)) p := by
  have hmag : mag (bits x) = i.natAbs * one := by
    rw [← val_natAbs, hi, Int.natAbs_mul]
    rfl
  have htext : toStr x = showInt i ∨ toStr x = ['-', '0'] ∧ i = 0 := by
    by_cases h0 : val x = 0
    · have hb : bits x = 0 := val_eq_zero.1 h0
      have hi0 : i = 0 := by
        rw [h0] at hi
        rcases Int.mul_eq_zero.1 hi.symm with h | h
        · exact h
        · exact absurd h (by decide)
      have hs : toStr x = (if isNeg x then ['-'] else []) ++ ['0'] := by
        unfold toStr
        rw [finite_not_nan hx, finite_not_inf hx]
        simp [hb]
      cases hn : isNeg x with
      | true => right; rw [hs, hn]; exact ⟨rfl, hi0⟩
      | false => left; rw [hs, hn, hi0]; decide +kernel
    · left
      obtain ⟨d, e, h1, h2, h3, h4, h5⟩ := toStr_shape hx h0
      have he := h5 ⟨i.natAbs, by rw [hmag, Nat.mul_comm]⟩
      rw [h2, (plain_shape d e h1).1 he]
      -- the decimal is the number itself
      have hb := congrArg bits h4
      unfold decimal at hb
      rw [show (-e).toNat = 0 by omega, Nat.pow_zero, bits_mk _ (Nat.lt_trans (isFinite_iff.1 hx) infBits_lt), bits_round] at hb
      have hrm : roundMag (d * 10 ^ e.toNat * one) 1 = bits x := by
        have := isFinite_iff.1 hx
        simp only [Nat.min_def] at hb
        split at hb <;> omega
      have hN : d * 10 ^ e.toNat = i.natAbs := by
        generalize d * 10 ^ e.toNat = N at hrm
        by_cases hN : N ≤ 2 ^ 53
        · obtain ⟨c, hc1, hc2⟩ := rep_int N hN
          have := roundMag_exact c 1 (by decide)
          rw [Nat.mul_one, hc1, hrm] at this
          rw [← this, hmag] at hc1
          exact (Nat.eq_of_mul_eq_mul_right one_pos hc1).symm
        · exfalso
          obtain ⟨c, hc1, hc2⟩ := rep_int (2 ^ 53) (Nat.le_refl _)
          have h3 : c ≤ roundMag (N * one) 1 := le_roundMag (by decide) (by rw [Nat.mul_one, hc1]; exact Nat.mul_le_mul_right _ (by omega))
          rw [hrm] at h3
          have := mag_le_iff.2 h3
          rw [hc1, hmag] at this
          have := Nat.le_of_mul_le_mul_right this one_pos
          omega
      rw [hN]
      have hneg : isNeg x = decide (i < 0) := by
        have hm : mag (bits x) ≠ 0 := by
          intro h
          exact h0 (val_eq_zero.2 (mag_eq_zero.1 h))
        have hsg : i < 0 ↔ val x < 0 := by
          rw [hi]
          constructor
          · intro h; exact Int.mul_neg_of_neg_of_pos h (by decide)
          · intro h; exact Int.not_le.1 fun h' => absurd (Int.mul_nonneg h' (show (0 : Int) ≤ 2 ^ 1074 by decide)) (by omega)
        rw [val_def] at hsg
        cases hn : isNeg x with
        | true => rw [hn] at hsg; simp only [signed, if_true] at hsg; simp; omega
        | false => rw [hn] at hsg; simp only [signed, Bool.false_eq_true, if_false] at hsg; simp; omega
      rw [hneg]
      unfold showInt
      by_cases h : i < 0
      · simp [h]
      · simp [h]
  have key : ∀ t, toStr x = t → Readable E t (.int (BitVec.ofInt 64 i)) → ∃ p, parseLiteral E ((Val.float x : Val C).text (fops R) cname) = .ok (.int (BitVec.ofInt 64 i)) p := by
    intro t ht hrd
    refine parseLiteral_text (fl := fun y => if y = x then some (.int (BitVec.ofInt 64 i)) else none) (fun y l hl => ?_) (v := .float x) (by unfold Val.litF; simp)
    split at hl
    · cases hl
      subst_vars
      exact hrd
    · cases hl
  rcases htext with h | ⟨h, rfl⟩
  · refine key _ h ?_
    have := read_int (E := E) (BitVec.ofInt 64 i)
    rwa [BitVec.toInt_ofInt, Int.bmod_eq_of_le (by omega) (by omega)] at this
  · refine key _ h ?_
    refine ⟨⟨'-', ['0'], rfl, by decide, by decide⟩, fun k hk r hr => ?_⟩
    cases k with
    | zero => simp at hk
    | succ k =>
      have hd : NotHead isDig r := hr.not (by decide) (by decide) (by decide)
      have hm : Reads (many1 (Peg.cls isDig)) ['0'] r ['0'] := Reads.many1_cls '0' [] r (by simp [isDig]) hd
      have hpre : ∀ (s : String) (c : Char), s.toList = ['0', c] → ∀ {α : Type} (f : Unit → P α), Fails (Peg.str s >>= f) (['-', '0'] ++ r) := by
        intro s c hs α f
        exact Fails.bind (Fails.str hs (show ('-' == '0') = false by decide))
      have hint : ∀ w, Reads (Peg.int w) ['-', '0'] r (intOf w true 10 ['0']) := by
        intro w
        refine .right (hpre "0b" 'b' (by decide) _) <| .right (hpre "0x" 'x' (by decide) _) <| .right (hpre "0o" 'o' (by decide) _) ?_
        exact Reads.bind (t := ['-']) (a := some ()) (Reads.opt_some (Reads.str "-" _ (by decide))) (Reads.map (g := fun ds => Peg.intOf w true 10 ds) hm)
      refine Reads.no_word (show _ = _ by decide) (show _ = _ by decide) (show _ = _ by decide) rfl (.right (Fails.hexP (show _ = _ by decide)) <| .right (Fails.bind ?_) <| .right ?_ <| .left ?_)
      · exact Fails.later (t := ['-']) (Reads.opt_some (Reads.str "-" _ (by decide))) (Fails.later hm (Fails.bind (Fails.str (c := '.') (cs := []) (by decide) (hr.not (by decide) (by decide) (by decide)))))
      · exact Fails.later (hint 32) (Fails.later (t := []) (Reads.skip (hr.not (by decide) (by decide) (by decide)))
          (Fails.bind (Fails.str (c := ':') (cs := []) (by decide) (hr.not (by decide) (by decide) (by decide)))))
      · exact Reads.map (g := Literal.int) (hint 64)

/-- 1.0 is printed as `1`, 2^60 as `1152921504606847000`, which is another number, 1e20 as `100000000000000000000`, which is read as 0;
-0.0 is printed as `-0`, infinity as `inf`, which is a name. -/
theorem C68_violated_integral :
    let read t := match parseLiteral ⟨0, fun t => (parse t).getD 0⟩ t with | .ok l _ => some l | _ => none
    toStr 0x3FF0000000000000 = "1".toList ∧ read "1".toList = some (.int 1) ∧
    val 0x43B0000000000000 = 2 ^ 60 * 2 ^ 1074 ∧ read (toStr 0x43B0000000000000) = some (.int 1152921504606847000) ∧ (1152921504606847000 : BitVec 64).toInt ≠ 2 ^ 60 ∧
    val 0x4415AF1D78B58C40 = 10 ^ 20 * 2 ^ 1074 ∧ read (toStr 0x4415AF1D78B58C40) = some (.int 0) ∧
    toStr 0x8000000000000000 = "-0".toList ∧ read "-0".toList = some (.int 0) ∧
    toStr 0x7FF0000000000000 = "inf".toList ∧ read "inf".toList = none := by decide +kernel

/-- 0.1 and -2.5 in an array. -/
example : (Val.arr [.float 0x3FB999999999999A, .float 0xC004000000000000] 0 9 : Val Unit).litF floatLit = some (.arr [.float 0x3FB999999999999A, .float 0xC004000000000000]) ∧
    toStr 0x3FB999999999999A = "0.1".toList ∧ toStr 0xC004000000000000 = "-2.5".toList := by decide +kernel

/-- A parser that reads floats exists. -/
example : ReadsFloats ⟨0, fun t => (parse t).getD 0⟩ := fun t x h => by simp [h]

end Quilt.Props
