import Verif.Lib.Core

/-!
# Reading numbers
-/

namespace Quilt.Lib

/-- The digits, lower and upper case, at the position of their value. -/
def lowerDigits : List Char := "0123456789abcdefghijklmnopqrstuvwxyz".toList
def upperDigits : List Char := "0123456789ABCDEFGHIJKLMNOPQRSTUVWXYZ".toList

/-- A character is the digit of a value. -/
def DigitIs (c : Char) (d : Nat) : Prop := lowerDigits[d]? = some c ∨ upperDigits[d]? = some c

/-- A text is a number in base `b`. -/
inductive Digits (b : Nat) : List Char → Nat → Prop
  | one {c d} : DigitIs c d → d < b → Digits b [c] d
  | more {s n c d} : Digits b s n → DigitIs c d → d < b → Digits b (s ++ [c]) (n * b + d)

/-- A text is a number with an optional sign. -/
inductive Numeral (b : Nat) : List Char → Int → Prop
  | plain {s n} : Digits b s n → Numeral b s n
  | plus {s n} : Digits b s n → Numeral b ('+' :: s) n
  | minus {s n} : Digits b s n → Numeral b ('-' :: s) (-n)

theorem digitIs_toNat {c : Char} {d : Nat} (h : DigitIs c d) :
    (48 ≤ c.toNat ∧ c.toNat ≤ 57 ∧ d = c.toNat - 48) ∨ (97 ≤ c.toNat ∧ c.toNat ≤ 122 ∧ d = c.toNat - 87) ∨ (65 ≤ c.toNat ∧ c.toNat ≤ 90 ∧ d = c.toNat - 55) := by
  have hd : d < 36 := by
    rcases h with h | h
    · obtain ⟨h, _⟩ := List.getElem?_eq_some_iff.1 h; exact h
    · obtain ⟨h, _⟩ := List.getElem?_eq_some_iff.1 h; exact h
  have key : ∀ d < 36, ∀ c ∈ [lowerDigits[d]?, upperDigits[d]?], ∀ x ∈ c,
    (48 ≤ x.toNat ∧ x.toNat ≤ 57 ∧ d = x.toNat - 48) ∨ (97 ≤ x.toNat ∧ x.toNat ≤ 122 ∧ d = x.toNat - 87) ∨ (65 ≤ x.toNat ∧ x.toNat ≤ 90 ∧ d = x.toNat - 55) := by
    decide
  rcases h with h | h
  · exact key d hd lowerDigits[d]? (by simp) c h
  · exact key d hd upperDigits[d]? (by simp) c h

theorem digitIs_of {c : Char} {d : Nat}
    (h : (48 ≤ c.toNat ∧ c.toNat ≤ 57 ∧ d = c.toNat - 48) ∨ (97 ≤ c.toNat ∧ c.toNat ≤ 122 ∧ d = c.toNat - 87) ∨ (65 ≤ c.toNat ∧ c.toNat ≤ 90 ∧ d = c.toNat - 55)) :
    DigitIs c d := by
  have hc : c = Char.ofNat c.toNat := by simp
  have k1 : ∀ x, 48 ≤ x → x ≤ 57 → lowerDigits[x - 48]? = some (Char.ofNat x) := by
    intro x h1 h2
    have : ∀ y < 10, lowerDigits[y]? = some (Char.ofNat (y + 48)) := by decide
    have := this (x - 48) (by omega)
    rwa [show x - 48 + 48 = x by omega] at this
  have k2 : ∀ x, 97 ≤ x → x ≤ 122 → lowerDigits[x - 87]? = some (Char.ofNat x) := by
    intro x h1 h2
    have : ∀ y < 26, lowerDigits[y + 10]? = some (Char.ofNat (y + 97)) := by decide
    have := this (x - 97) (by omega)
    rwa [show x - 97 + 97 = x by omega, show x - 97 + 10 = x - 87 by omega] at this
  have k3 : ∀ x, 65 ≤ x → x ≤ 90 → upperDigits[x - 55]? = some (Char.ofNat x) := by
    intro x h1 h2
    have : ∀ y < 26, upperDigits[y + 10]? = some (Char.ofNat (y + 65)) := by decide
    have := this (x - 65) (by omega)
    rwa [show x - 65 + 65 = x by omega, show x - 65 + 10 = x - 55 by omega] at this
  rcases h with ⟨h1, h2, rfl⟩ | ⟨h1, h2, rfl⟩ | ⟨h1, h2, rfl⟩
  · left; rw [k1 _ h1 h2, ← hc]
  · left; rw [k2 _ h1 h2, ← hc]
  · right; rw [k3 _ h1 h2, ← hc]

theorem toDigit_iff {b : Nat} {c : Char} {d : Nat} : toDigit b c = some d ↔ DigitIs c d ∧ d < b := by
  constructor
  · intro h
    unfold toDigit at h
    simp only [Option.bind_eq_some_iff] at h
    obtain ⟨e, h1, h2⟩ := h
    split at h2 <;> simp at h2
    subst h2
    refine ⟨digitIs_of ?_, by assumption⟩
    split at h1
    · simp at h1; omega
    · split at h1
      · simp at h1; omega
      · split at h1 <;> simp at h1; omega
  · rintro ⟨h1, h2⟩
    unfold toDigit
    simp only [Option.bind_eq_some_iff]
    refine ⟨d, ?_, by simp [h2]⟩
    rcases digitIs_toNat h1 with ⟨a, b, rfl⟩ | ⟨a, b, rfl⟩ | ⟨a, b, rfl⟩
    · rw [if_pos ⟨a, b⟩]
    · rw [if_neg (by omega), if_pos ⟨a, b⟩]
    · rw [if_neg (by omega), if_neg (by omega), if_pos ⟨a, b⟩]

/-- The value of digits after a prefix of value `acc`. -/
def valueOf (b : Nat) : Nat → List Char → Option Nat
  | acc, [] => some acc
  | acc, c :: cs => (toDigit b c).bind fun d => valueOf b (acc * b + d) cs

theorem valueOf_append (b : Nat) (acc : Nat) (s t : List Char) : valueOf b acc (s ++ t) = (valueOf b acc s).bind fun n => valueOf b n t := by
  induction s generalizing acc with
  | nil => rfl
  | cons c s ih =>
    simp only [List.cons_append, valueOf]
    cases toDigit b c with
    | none => rfl
    | some d => simp only [Option.bind_some]; exact ih _

theorem valueOf_digits {b : Nat} {p : List Char} {acc : Nat} (hp : Digits b p acc) {s : List Char} {n : Nat} (h : valueOf b acc s = some n) :
    Digits b (p ++ s) n := by
  induction s generalizing p acc with
  | nil => simp [valueOf] at h; subst h; simpa using hp
  | cons c s ih =>
    simp only [valueOf, Option.bind_eq_some_iff] at h
    obtain ⟨d, h1, h2⟩ := h
    rw [toDigit_iff] at h1
    have := ih (.more hp h1.1 h1.2) h2
    simpa using this

theorem digits_iff {b : Nat} {s : List Char} {n : Nat} : Digits b s n ↔ s ≠ [] ∧ valueOf b 0 s = some n := by
  constructor
  · intro h
    induction h with
    | one h1 h2 => simp [valueOf, toDigit_iff.2 ⟨h1, h2⟩]
    | more h1 h2 h3 ih =>
      refine ⟨by simp, ?_⟩
      rw [valueOf_append, ih.2]
      simp [valueOf, toDigit_iff.2 ⟨h2, h3⟩]
  · rintro ⟨h0, h⟩
    cases s with
    | nil => exact absurd rfl h0
    | cons c s =>
      simp only [valueOf, Option.bind_eq_some_iff, Nat.zero_mul, Nat.zero_add] at h
      obtain ⟨d, h1, h2⟩ := h
      rw [toDigit_iff] at h1
      exact valueOf_digits (p := [c]) (.one h1.1 h1.2) h2

theorem valueOf_le {b : Nat} (hb : 1 ≤ b) {acc : Nat} {s : List Char} {n : Nat} (h : valueOf b acc s = some n) : acc ≤ n := by
  induction s generalizing acc with
  | nil => simp [valueOf] at h; omega
  | cons c s ih =>
    simp only [valueOf, Option.bind_eq_some_iff] at h
    obtain ⟨d, _, h⟩ := h
    have := ih h
    have : acc * 1 ≤ acc * b := Nat.mul_le_mul_left acc hb
    omega

theorem accDigits_pos {lo hi : Int} (hlo : lo ≤ 0) {b : Nat} (hb : 1 ≤ b) (acc : Nat) (ha : (acc : Int) ≤ hi) (s : List Char) :
    accDigits lo hi false b acc s = (valueOf b acc s).bind fun n => if (n : Int) ≤ hi then some (n : Int) else none := by
  induction s generalizing acc with
  | nil => simp [accDigits, valueOf, ha]
  | cons c s ih =>
    simp only [accDigits, valueOf]
    cases hd : toDigit b c with
    | none => rfl
    | some d =>
      simp only [Option.bind_some, Bool.false_eq_true, if_false]
      have key : ∀ n, valueOf b (acc * b + d) s = some n → hi < (acc : Int) * b + d → ¬ (n : Int) ≤ hi := by
        intro n hn h
        have := valueOf_le hb hn
        have : ((acc * b + d : Nat) : Int) ≤ n := by omega
        push_cast at this
        omega
      have hnn : 0 ≤ (acc : Int) * b := Int.mul_nonneg (by omega) (by omega)
      by_cases h1 : (acc : Int) * b < lo ∨ hi < (acc : Int) * b
      · rw [if_pos h1]
        cases hv : valueOf b (acc * b + d) s with
        | none => rfl
        | some n => simp only [Option.bind_some]; rw [if_neg (key n hv (by omega))]
      · rw [if_neg h1]
        by_cases h2 : (acc : Int) * b + d < lo ∨ hi < (acc : Int) * b + d
        · rw [if_pos h2]
          cases hv : valueOf b (acc * b + d) s with
          | none => rfl
          | some n => simp only [Option.bind_some]; rw [if_neg (key n hv (by omega))]
        · rw [if_neg h2]
          have := ih (acc * b + d) (by push_cast; omega)
          push_cast at this
          exact this

theorem accDigits_neg {lo hi : Int} (hhi : 0 ≤ hi) {b : Nat} (hb : 1 ≤ b) (acc : Nat) (ha : lo ≤ -(acc : Int)) (s : List Char) :
    accDigits lo hi true b (-acc) s = (valueOf b acc s).bind fun n => if lo ≤ -(n : Int) then some (-(n : Int)) else none := by
  induction s generalizing acc with
  | nil => simp [accDigits, valueOf, ha]
  | cons c s ih =>
    simp only [accDigits, valueOf]
    cases hd : toDigit b c with
    | none => rfl
    | some d =>
      simp only [Option.bind_some, if_true]
      have key : ∀ n, valueOf b (acc * b + d) s = some n → -((acc : Int) * b + d) < lo → ¬ lo ≤ -(n : Int) := by
        intro n hn h
        have := valueOf_le hb hn
        have : ((acc * b + d : Nat) : Int) ≤ n := by omega
        push_cast at this
        omega
      have hnn : 0 ≤ (acc : Int) * b := Int.mul_nonneg (by omega) (by omega)
      rw [Int.neg_mul]
      by_cases h1 : -((acc : Int) * b) < lo ∨ hi < -((acc : Int) * b)
      · rw [if_pos h1]
        cases hv : valueOf b (acc * b + d) s with
        | none => rfl
        | some n => simp only [Option.bind_some]; rw [if_neg (key n hv (by omega))]
      · rw [if_neg h1]
        by_cases h2 : -((acc : Int) * b) - d < lo ∨ hi < -((acc : Int) * b) - d
        · rw [if_pos h2]
          cases hv : valueOf b (acc * b + d) s with
          | none => rfl
          | some n => simp only [Option.bind_some]; rw [if_neg (key n hv (by omega))]
        · rw [if_neg h2]
          have := ih (acc * b + d) (by push_cast; omega)
          push_cast at this
          rw [show -((acc : Int) * b) - d = -((acc : Int) * b + d) by omega]
          exact this

theorem toDigit_sign (b : Nat) : toDigit b '+' = none ∧ toDigit b '-' = none := by
  constructor <;> rfl

/-- Reading a number: exactly the numerals in range. -/
theorem fromStrRadix_iff {lo hi : Int} (hlo : lo < 0) (hhi : 0 ≤ hi) {b : Nat} (hb : 1 ≤ b) (s : List Char) (z : Int) :
    fromStrRadix lo hi b s = some z ↔ Numeral b s z ∧ lo ≤ z ∧ z ≤ hi := by
  have pos : ∀ s, s ≠ [] → ((accDigits lo hi false b 0 s = some z) ↔ ∃ n : Nat, Digits b s n ∧ z = n ∧ z ≤ hi) := by
    intro s hs
    have := accDigits_pos (lo := lo) (hi := hi) (by omega) hb 0 (by simpa using hhi) s
    rw [show ((0 : Nat) : Int) = 0 from rfl] at this
    rw [this, Option.bind_eq_some_iff]
    constructor
    · rintro ⟨n, h1, h2⟩
      split at h2
      · simp at h2; exact ⟨n, digits_iff.2 ⟨hs, h1⟩, h2.symm, by omega⟩
      · simp at h2
    · rintro ⟨n, h1, h2, h3⟩
      exact ⟨n, (digits_iff.1 h1).2, by rw [if_pos (by omega), h2]⟩
  have neg : ∀ s, s ≠ [] → ((accDigits lo hi true b 0 s = some z) ↔ ∃ n : Nat, Digits b s n ∧ z = -(n : Int) ∧ lo ≤ z) := by
    intro s hs
    have := accDigits_neg (lo := lo) (hi := hi) hhi hb 0 (by omega) s
    rw [show -((0 : Nat) : Int) = 0 from rfl] at this
    rw [this, Option.bind_eq_some_iff]
    constructor
    · rintro ⟨n, h1, h2⟩
      split at h2
      · simp at h2; exact ⟨n, digits_iff.2 ⟨hs, h1⟩, h2.symm, by omega⟩
      · simp at h2
    · rintro ⟨n, h1, h2, h3⟩
      exact ⟨n, (digits_iff.1 h1).2, by rw [if_pos (by omega), h2]⟩
  have noSign : ∀ c t n, Digits b (c :: t) n → c ≠ '+' ∧ c ≠ '-' := by
    intro c t n h
    have := (digits_iff.1 h).2
    simp only [valueOf, Option.bind_eq_some_iff] at this
    obtain ⟨d, hd, _⟩ := this
    constructor
    · rintro rfl; rw [(toDigit_sign b).1] at hd; cases hd
    · rintro rfl; rw [(toDigit_sign b).2] at hd; cases hd
  have nonempty : ∀ n, ¬ Digits b [] n := fun n h => (digits_iff.1 h).1 rfl
  have sp : ∀ c, (c = '+' ∨ c = '-') → fromStrRadix lo hi b [c] = none := by
    rintro c (rfl | rfl) <;> rfl
  constructor
  · intro h
    unfold fromStrRadix at h
    split at h
    · cases h
    · cases h
    · cases h
    · next cs h0 =>
      obtain ⟨n, h1, rfl, h2⟩ := (pos cs (by rintro rfl; exact h0 rfl)).1 h
      exact ⟨.plus h1, by omega, h2⟩
    · next cs h0 =>
      rw [if_pos hlo] at h
      obtain ⟨n, h1, rfl, h2⟩ := (neg cs (by rintro rfl; exact h0 rfl)).1 h
      exact ⟨.minus h1, h2, by omega⟩
    · next h0 _ _ _ _ =>
      obtain ⟨n, h1, rfl, h2⟩ := (pos s (by rintro rfl; exact h0 rfl)).1 h
      exact ⟨.plain h1, by omega, h2⟩
  · rintro ⟨h, h1, h2⟩
    cases h with
    | @plain _ n h =>
      cases s with
      | nil => exact absurd h (nonempty n)
      | cons c t =>
        obtain ⟨c1, c2⟩ := noSign c t n h
        have : fromStrRadix lo hi b (c :: t) = accDigits lo hi false b 0 (c :: t) := by
          unfold fromStrRadix
          split
          · simp_all
          · simp_all
          · simp_all
          · simp_all
          · simp_all
          · rfl
        rw [this]
        exact (pos _ (by simp)).2 ⟨n, h, rfl, h2⟩
    | @plus t n h =>
      cases t with
      | nil => exact absurd h (nonempty n)
      | cons c t => exact (pos _ (by simp)).2 ⟨n, h, rfl, h2⟩
    | @minus t n h =>
      cases t with
      | nil => exact absurd h (nonempty n)
      | cons c t =>
        show (if lo < 0 then accDigits lo hi true b 0 (c :: t) else _) = _
        rw [if_pos hlo]
        exact (neg _ (by simp)).2 ⟨n, h, rfl, h1⟩

theorem radixChar_is {d : Nat} (h : d < 36) : DigitIs (radixChar d) d := by
  have : ∀ d < 36, lowerDigits[d]? = some (radixChar d) := by decide
  exact Or.inl (this d h)

/-- Printed numbers are numbers. -/
theorem showBase_digits {b : Nat} (h1 : 2 ≤ b) (h2 : b ≤ 36) (n : Nat) : Digits b (showBase b n) n := by
  fun_induction showBase b n with
  | case1 n h => exact .one (radixChar_is (by omega)) (by omega)
  | case2 n h ih =>
    have := Digits.more ih (radixChar_is (d := n % b) (by have := Nat.mod_lt n (show b > 0 by omega); omega)) (Nat.mod_lt n (by omega))
    rwa [Nat.mul_comm, Nat.div_add_mod] at this

theorem showNat_digits (n : Nat) : Digits 10 (showNat n) n := by
  have hd : ∀ {d}, d < 10 → DigitIs (digitChar d) d := by
    intro d h
    have : ∀ d < 10, lowerDigits[d]? = some (digitChar d) := by decide
    exact Or.inl (this d h)
  fun_induction showNat n with
  | case1 n h => exact .one (hd h) h
  | case2 n h ih =>
    have := Digits.more ih (hd (d := n % 10) (Nat.mod_lt n (by omega))) (Nat.mod_lt n (by omega))
    rwa [Nat.mul_comm, Nat.div_add_mod] at this

theorem showInt_numeral (z : Int) : Numeral 10 (showInt z) z := by
  unfold showInt
  split
  · have := Numeral.minus (showNat_digits z.natAbs)
    rwa [show -(z.natAbs : Int) = z by omega] at this
  · have := Numeral.plain (showNat_digits z.natAbs)
    rwa [show (z.natAbs : Int) = z by omega] at this

/-- A text denotes at most one number. -/
theorem Numeral.unique {b : Nat} {s : List Char} {y z : Int} (h : Numeral b s y) (h' : Numeral b s z) : y = z := by
  have noSign : ∀ c t n, Digits b (c :: t) n → c ≠ '+' ∧ c ≠ '-' := by
    intro c t n h
    have := (digits_iff.1 h).2
    simp only [valueOf, Option.bind_eq_some_iff] at this
    obtain ⟨d, hd, _⟩ := this
    constructor
    · rintro rfl; rw [(toDigit_sign b).1] at hd; cases hd
    · rintro rfl; rw [(toDigit_sign b).2] at hd; cases hd
  have uniq : ∀ {s m n}, Digits b s m → Digits b s n → m = n := by
    intro s m n h1 h2
    have := (digits_iff.1 h1).2.symm.trans (digits_iff.1 h2).2
    simpa using this
  cases h with
  | plain h =>
    cases h' with
    | plain h' => rw [uniq h h']
    | plus h' => exact absurd rfl (noSign _ _ _ h).1
    | minus h' => exact absurd rfl (noSign _ _ _ h).2
  | plus h =>
    cases h' with
    | plain h' => exact absurd rfl (noSign _ _ _ h').1
    | plus h' => rw [uniq h h']
  | minus h =>
    cases h' with
    | plain h' => exact absurd rfl (noSign _ _ _ h').2
    | minus h' => rw [uniq h h']

end Quilt.Lib
