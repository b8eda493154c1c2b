import Verif.Lib.Radix

/-!
# Splitting texts at characters, and numbers in texts
-/

namespace Quilt.TextSep

open Lib

theorem sep {c : Char} : ∀ {x y r r' : List Char}, c ∉ x → c ∉ y → x ++ c :: r = y ++ c :: r' → x = y ∧ r = r'
  | [], [], _, _, _, _, h => ⟨rfl, by simpa using h⟩
  | [], b :: y, _, _, _, h2, h => by simp at h; simp [← h.1] at h2
  | a :: x, [], _, _, h1, _, h => by simp at h; simp [h.1] at h1
  | a :: x, b :: y, _, _, h1, h2, h => by
    simp only [List.cons_append, List.cons.injEq] at h
    simp only [List.mem_cons, not_or] at h1 h2
    obtain ⟨h3, h4⟩ := sep h1.2 h2.2 h.2
    exact ⟨by rw [h.1, h3], h4⟩

theorem digit_no {c : Char} (hc : ∀ d < 36, radixChar d ≠ c) {b : Nat} (h2 : 2 ≤ b) (h3 : b ≤ 36) (n : Nat) : c ∉ showBase b n := by
  fun_induction showBase b n with
  | case1 n h => simpa using (hc n (by omega)).symm
  | case2 n h ih => simpa using ⟨ih, (hc (n % b) (by have := Nat.mod_lt n (show b > 0 by omega); omega)).symm⟩

theorem showNat_no {c : Char} (hc : ∀ d < 10, digitChar d ≠ c) (n : Nat) : c ∉ showNat n := by
  fun_induction showNat n with
  | case1 n h => simpa using (hc n (by omega)).symm
  | case2 n h ih => simpa using ⟨ih, (hc (n % 10) (by omega)).symm⟩

theorem showNat_inj {n m : Nat} (h : showNat n = showNat m) : n = m := by
  have h1 := Numeral.plain (showNat_digits n)
  have h2 := Numeral.plain (showNat_digits m)
  rw [h] at h1
  exact Int.ofNat_inj.1 (h1.unique h2)

theorem showInt_inj {n m : Int} (h : showInt n = showInt m) : n = m := by
  have h1 := showInt_numeral n
  rw [h] at h1
  exact h1.unique (showInt_numeral m)

theorem showBase_inj {n m : Nat} (h : showBase 16 n = showBase 16 m) : n = m := by
  have h1 := Numeral.plain (showBase_digits (b := 16) (by decide) (by decide) n)
  have h2 := Numeral.plain (showBase_digits (b := 16) (by decide) (by decide) m)
  rw [h] at h1
  exact Int.ofNat_inj.1 (h1.unique h2)

/-- The first character of a number is not a given one. -/
theorem showNat_head {c : Char} (hc : ∀ d < 10, digitChar d ≠ c) (n : Nat) : ∃ d t, showNat n = d :: t ∧ d ≠ c := by
  have h := showNat_no hc n
  have hne : showNat n ≠ [] := by unfold showNat; split <;> simp
  cases hs : showNat n with
  | nil => exact absurd hs hne
  | cons d t => rw [hs] at h; exact ⟨d, t, rfl, fun e => h (by simp [e])⟩

end Quilt.TextSep
