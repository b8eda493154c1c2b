import Verif.Props.Strings

/-!
# C56 numeric and colour builtins
-/

namespace Quilt.Props

open Quilt.Lib

variable {C : Type}

/-- `@min` and `@max` of two integers. -/
theorem C56_min_max (L : Ops) (chk : Bool) (cname : C → String) (lim : Limits) (a b : BitVec 64) :
    (∃ r, callStd L chk cname lim "min" [.int a, .int b] = some (.ok (.int r)) ∧ r.toInt = Min.min a.toInt b.toInt) ∧
    ∃ r, callStd L chk cname lim "max" [.int a, .int b] = some (.ok (.int r)) ∧ r.toInt = Max.max a.toInt b.toInt := by
  refine ⟨⟨_, rfl, ?_⟩, ⟨_, rfl, ?_⟩⟩ <;> simp only [BitVec.slt_iff_toInt_lt] <;> split <;> omega

/-- `@min` and `@max` of an integer and a float work on floats; of anything else they are an error. -/
theorem C56_min_max_mixed (L : Ops) (chk : Bool) (cname : C → String) (lim : Limits) (a x : BitVec 64) :
    callStd L chk cname lim "min" [.int a, .float x] = some (.ok (.float (L.min (L.F.ofInt a) x))) ∧
    callStd L chk cname lim "min" [.float x, .int a] = some (.ok (.float (L.min x (L.F.ofInt a)))) ∧
    callStd L chk cname lim "max" [.int a, .float x] = some (.ok (.float (L.max (L.F.ofInt a) x))) ∧
    callStd L chk cname lim "max" [.float x, .int a] = some (.ok (.float (L.max x (L.F.ofInt a)))) ∧
    ∀ v w : Val C, (∀ i, v ≠ .int i) → (∀ f, v ≠ .float f) →
      callStd L chk cname lim "min" [v, w] = some (.err (.type (.cannotCompare v.ntype w.ntype))) ∧
      callStd L chk cname lim "max" [v, w] = some (.err (.type (.cannotCompare v.ntype w.ntype))) := by
  refine ⟨rfl, rfl, rfl, rfl, fun v w h1 h2 => ?_⟩
  have c1 : callStd L chk cname lim "min" [v, w] = some (Lib.min L v w) := rfl
  have c2 : callStd L chk cname lim "max" [v, w] = some (Lib.max L v w) := rfl
  rw [c1, c2]
  unfold Lib.min Lib.max minMax
  cases v with
  | int i => exact absurd rfl (h1 i)
  | float f => exact absurd rfl (h2 f)
  | _ => exact ⟨rfl, rfl⟩

/-- `@abs` of an integer other than the least is its absolute value. -/
theorem C56_abs (L : Ops) (chk : Bool) (cname : C → String) (lim : Limits) (a : BitVec 64) (ha : a.toInt ≠ -2 ^ 63) :
    ∃ r, callStd L chk cname lim "abs" [.int a] = some (.ok (.int r)) ∧ r.toInt = a.toInt.natAbs := by
  have hc : callStd L chk cname lim "abs" [.int a] = some (Lib.abs chk L (.int a)) := rfl
  rw [hc]
  unfold Lib.abs
  simp only
  rw [if_neg (by rintro ⟨rfl, _⟩; exact ha (by decide))]
  refine ⟨_, rfl, ?_⟩
  split
  · rw [BitVec.toInt_neg]
    have := BitVec.le_toInt a
    simp only [Int.bmod] at *
    omega
  · omega

/-- The least integer: an abort with overflow checks, itself without. -/
theorem C56_abs_least (L : Ops) (cname : C → String) (lim : Limits) :
    callStd L true cname lim "abs" [.int (BitVec.intMin 64)] = some .panic ∧
    callStd L false cname lim "abs" [.int (BitVec.intMin 64)] = some (.ok (.int (BitVec.intMin 64))) := ⟨rfl, rfl⟩

/-- `@round`, `@floor` and `@ceil` leave integers alone and turn floats into integers. -/
theorem C56_round (L : Ops) (chk : Bool) (cname : C → String) (lim : Limits) (i x : BitVec 64) :
    (∀ f ∈ ["round", "floor", "ceil"], callStd L chk cname lim f [.int i] = some (.ok (.int i))) ∧
    callStd L chk cname lim "round" [.float x] = some (.ok (.int (L.F.toInt (L.round x)))) ∧
    callStd L chk cname lim "floor" [.float x] = some (.ok (.int (L.F.toInt (L.floor x)))) ∧
    callStd L chk cname lim "ceil" [.float x] = some (.ok (.int (L.F.toInt (L.ceil x)))) := by
  refine ⟨fun f hf => ?_, rfl, rfl, rfl⟩
  simp only [List.mem_cons, List.not_mem_nil, or_false] at hf
  rcases hf with rfl | rfl | rfl <;> rfl

/-- What `@clamp` needs from the float comparisons: numbers that are not below each other the one way
are at most each other the other way. -/
def FloatOrder (F : FOps) : Prop := ∀ a b, F.eq a a = true → F.eq b b = true → F.lt b a = false → F.le a b = true

/-- `@clamp` never aborts: a lower bound above the upper one, or a bound that is not a number, is an
error. -/
theorem C56_clamp (L : Ops) (hF : FloatOrder L.F) (chk : Bool) (cname : C → String) (lim : Limits) (a m mm : BitVec 64) :
    callStd L chk cname lim "clamp" [.float a, .float m, .float mm] =
      some (if L.F.lt mm m then .err (.builtin "min must be less than max")
        else if L.F.eq m m ∧ L.F.eq mm mm then .ok (.float (L.clamp a m mm)) else .err (.builtin "min and max must be numbers")) := by
  have hc : callStd L chk cname lim "clamp" [.float a, .float m, .float mm] = some (Lib.clamp L a m mm) := rfl
  rw [hc]
  unfold Lib.clamp
  congr 1
  cases h1 : L.F.lt mm m with
  | true => rfl
  | false =>
    cases h2 : L.F.eq m m <;> cases h3 : L.F.eq mm mm
    · rfl
    · rfl
    · rfl
    · simp [hF m mm h2 h3 h1]

/-- Comparisons that satisfy the hypothesis of `C56_clamp`: those of the integers. -/
example (F : FOps) : FloatOrder { F with eq := (· == ·), lt := BitVec.ult, le := BitVec.ule } := by
  intro a b _ _ h
  simp only [BitVec.ult, BitVec.ule, decide_eq_false_iff_not, decide_eq_true_eq] at *
  omega

/-- `@hash` gives an integer from 0 to 2^31 - 1. -/
theorem C56_hash (L : Ops) (chk : Bool) (cname : C → String) (lim : Limits) (v r : Val C)
    (h : callStd L chk cname lim "hash" [v] = some (.ok r)) : ∃ i, r = .int i ∧ 0 ≤ i.toInt ∧ i.toInt < 2 ^ 31 := by
  have h' : Lib.hash L v = .ok r := Option.some.inj h
  have key : ∀ x : BitVec 64, 0 ≤ (x &&& 0x7FFFFFFF).toInt ∧ (x &&& 0x7FFFFFFF).toInt < 2 ^ 31 := by
    intro x
    have h1 : (x &&& 0x7FFFFFFF).toNat ≤ 0x7FFFFFFF := by
      rw [BitVec.toNat_and]; exact Nat.and_le_right
    have := BitVec.toInt_eq_toNat_cond (x &&& 0x7FFFFFFF)
    split at this <;> omega
  unfold Lib.hash at h'
  split at h' <;> first | cases h'; done | (cases h'; exact ⟨_, rfl, key _⟩)

/-- The value of a colour channel given as an integer. -/
def sat8 (z : Int) : BitVec 8 := if z < 0 then 0 else if z ≤ 255 then BitVec.ofInt 8 z else 255

/-- `@rgba` with integers puts each into its channel, cut off at 0 and 255, and `@r`, `@g`, `@b` and
`@a` read them back. -/
theorem C56_rgba (L : Ops) (chk : Bool) (cname : C → String) (lim : Limits) (r g b a : BitVec 64) :
    callStd L chk cname lim "rgba" [.int r, .int g, .int b, .int a] = some (.ok (.color (sat8 r.toInt) (sat8 g.toInt) (sat8 b.toInt) (sat8 a.toInt))) ∧
    callStd L chk cname lim "rgb" [.int r, .int g, .int b] = some (.ok (.color (sat8 r.toInt) (sat8 g.toInt) (sat8 b.toInt) 255)) := by
  have key : ∀ i : BitVec 64, (if i.toInt < 0 then (0 : BitVec 8) else if i.toInt ≤ 255 then i.setWidth 8 else (255 : BitVec 8)) = sat8 i.toInt := by
    intro i
    unfold sat8
    split
    · rfl
    · split
      · apply BitVec.eq_of_toNat_eq
        have h := i.isLt
        have := BitVec.toInt_eq_toNat_cond i
        rw [BitVec.toNat_setWidth, BitVec.toNat_ofInt]
        split at this <;> omega
      · rfl
  rw [← key r, ← key g, ← key b, ← key a, ← u8_clamp, ← u8_clamp, ← u8_clamp, ← u8_clamp]
  exact ⟨rfl, rfl⟩

/-- `@r`, `@g`, `@b` and `@a` give the channels of a colour, from which `@rgba` builds it again. -/
theorem C56_channels (L : Ops) (chk : Bool) (cname : C → String) (lim : Limits) (r g b a : BitVec 8) :
    ∃ i j k l, callStd L chk cname lim "r" [.color r g b a] = some (.ok (.int i)) ∧ i.toInt = r.toNat ∧
      callStd L chk cname lim "g" [.color r g b a] = some (.ok (.int j)) ∧ j.toInt = g.toNat ∧
      callStd L chk cname lim "b" [.color r g b a] = some (.ok (.int k)) ∧ k.toInt = b.toNat ∧
      callStd L chk cname lim "a" [.color r g b a] = some (.ok (.int l)) ∧ l.toInt = a.toNat ∧
      callStd L chk cname lim "rgba" [.int i, .int j, .int k, .int l] = some (.ok (.color r g b a)) := by
  have key : ∀ x : BitVec 8, (x.setWidth 64).toInt = x.toNat := by
    intro x
    have := BitVec.toInt_eq_toNat_cond (x.setWidth 64)
    have h := x.isLt
    rw [BitVec.toNat_setWidth, Nat.mod_eq_of_lt (by omega)] at this
    split at this <;> omega
  have back : ∀ x : BitVec 8, sat8 (x.setWidth 64).toInt = x := by
    intro x
    rw [key]
    have h := x.isLt
    unfold sat8
    rw [if_neg (by omega), if_pos (by omega)]
    apply BitVec.eq_of_toNat_eq
    rw [BitVec.toNat_ofInt]; omega
  refine ⟨r.setWidth 64, g.setWidth 64, b.setWidth 64, a.setWidth 64, rfl, key r, rfl, key g, rfl, key b, rfl, key a, ?_⟩
  rw [(C56_rgba L chk cname lim _ _ _ _).1, back, back, back, back]

/-- `@invert` keeps the opacity, turns each channel round, and is its own inverse. -/
theorem C56_invert (L : Ops) (chk : Bool) (cname : C → String) (lim : Limits) (r g b a : BitVec 8) :
    ∃ r' g' b', callStd L chk cname lim "invert" [.color r g b a] = some (.ok (.color r' g' b' a)) ∧
      r'.toNat = 255 - r.toNat ∧ g'.toNat = 255 - g.toNat ∧ b'.toNat = 255 - b.toNat ∧
      callStd L chk cname lim "invert" [.color r' g' b' a] = some (.ok (.color r g b a)) := by
  have key : ∀ x : BitVec 8, (255 - x).toNat = 255 - x.toNat := by
    intro x; have := x.isLt; rw [BitVec.toNat_sub]; simp; omega
  have back : ∀ x : BitVec 8, 255 - (255 - x) = x := by
    intro x; apply BitVec.eq_of_toNat_eq; have := x.isLt; rw [key, key]; omega
  refine ⟨255 - r, 255 - g, 255 - b, rfl, key r, key g, key b, ?_⟩
  have : callStd L chk cname lim "invert" [.color (255 - r) (255 - g) (255 - b) a] = some (.ok (.color (255 - (255 - r)) (255 - (255 - g)) (255 - (255 - b)) a)) := rfl
  rw [this, back, back, back]

/-- `@color` of an integer takes its four low bytes. -/
theorem C56_color_int (L : Ops) (chk : Bool) (cname : C → String) (lim : Limits) (r g b a : BitVec 8) (i : BitVec 64)
    (hi : i.toNat % 2 ^ 32 = r.toNat * 2 ^ 24 + g.toNat * 2 ^ 16 + b.toNat * 2 ^ 8 + a.toNat) :
    callStd L chk cname lim "color" [.int i] = some (.ok (.color r g b a)) := by
  have hc : callStd L chk cname lim "color" [.int i] = some (Lib.color (.int i)) := rfl
  rw [hc]
  unfold Lib.color
  have sh : ∀ k, k ≤ 24 → ((i.sshiftRight k).setWidth 8 : BitVec 8).toNat = i.toNat / 2 ^ k % 2 ^ 8 := by
    intro k hk
    have : ((i.sshiftRight k).setWidth 8 : BitVec 8) = (i >>> k).setWidth 8 := by
      apply BitVec.eq_of_getLsbD_eq
      intro j hj
      rw [BitVec.getLsbD_setWidth, BitVec.getLsbD_setWidth, BitVec.getLsbD_sshiftRight, BitVec.getLsbD_ushiftRight]
      have : ¬ 64 ≤ j := by omega
      have : k + j < 64 := by omega
      simp [*]
    rw [this, BitVec.toNat_setWidth, BitVec.toNat_ushiftRight, Nat.shiftRight_eq_div_pow]
  have h1 := r.isLt
  have h2 := g.isLt
  have h3 := b.isLt
  have h4 := a.isLt
  have e1 : (i.sshiftRight 24).setWidth 8 = r := BitVec.eq_of_toNat_eq (by rw [sh 24 (by omega)]; omega)
  have e2 : (i.sshiftRight 16).setWidth 8 = g := BitVec.eq_of_toNat_eq (by rw [sh 16 (by omega)]; omega)
  have e3 : (i.sshiftRight 8).setWidth 8 = b := BitVec.eq_of_toNat_eq (by rw [sh 8 (by omega)]; omega)
  have e4 : i.setWidth 8 = a := BitVec.eq_of_toNat_eq (by rw [BitVec.toNat_setWidth]; omega)
  simp only [e1, e2, e3, e4]

/-- `@color(@str(c))` is `c`. -/
theorem C56_color_str (L : Ops) (chk : Bool) (cname : C → String) (lim : Limits) (r g b a : BitVec 8) :
    ∃ t, callStd L chk cname lim "str" [.color r g b a] = some (.ok (.str t)) ∧ callStd L chk cname lim "color" [.str t] = some (.ok (.color r g b a)) := by
  have hex : ∀ b : BitVec 8, Lib.hexByte (hexText b) = b := by decide +kernel
  have ne : ∀ n, n < 16 → (radixChar n == '#') = false := by decide
  have hc : ∀ t, callStd L chk cname lim "color" [.str t] = some (Lib.color (.str t)) := fun _ => rfl
  have hs : callStd L chk cname lim "str" [.color r g b a] = some (.ok (.str ((Val.color r g b a : Val C).text L.F cname))) := rfl
  refine ⟨'#' :: (hexText r ++ hexText g ++ hexText b ++ hexText a), by rw [hs]; unfold Val.text; rfl, ?_⟩
  have h1 := r.isLt
  have h4 := a.isLt
  have trim : Lib.trimChar '#' ('#' :: (hexText r ++ hexText g ++ hexText b ++ hexText a)) = hexText r ++ hexText g ++ hexText b ++ hexText a := by
    simp [Lib.trimChar, hexText, ne (r.toNat / 16) (by omega), ne (a.toNat % 16) (by omega)]
  rw [hc]
  unfold Lib.color
  simp only [trim]
  have := hex r
  have := hex g
  have := hex b
  have := hex a
  simp only [hexText] at *
  simp only [List.cons_append, List.nil_append, List.take_succ_cons, List.take_zero, *]

/-- `@char` of the code of a character is that character. -/
theorem C56_char (L : Ops) (chk : Bool) (cname : C → String) (lim : Limits) (c : Char) :
    callStd L chk cname lim "char" [.int (BitVec.ofNat 64 c.toNat)] = some (.ok (.str [c])) := by
  have hc : callStd L chk cname lim "char" [.int (BitVec.ofNat 64 c.toNat)] = some (Lib.char (BitVec.ofNat 64 c.toNat)) := rfl
  rw [hc]
  unfold Lib.char
  have hv : c.toNat < 0xD800 ∨ (0xDFFF < c.toNat ∧ c.toNat < 0x110000) := c.valid
  have hn : ((BitVec.ofNat 64 c.toNat).setWidth 32).toNat = c.toNat := by
    rw [BitVec.toNat_setWidth, BitVec.toNat_ofNat]; omega
  simp only [hn]
  rw [if_pos (by omega), Char.ofNat_toNat]

/-- `@len`: the items of an array, the bytes of a text; `@len(@chars(s))` counts characters. -/
theorem C56_len (L : Ops) (chk : Bool) (cname : C → String) (lim : Limits) :
    (∀ (xs : List (Val C)) s m, callStd L chk cname lim "len" [.arr xs s m] = some (.ok (.int (BitVec.ofNat 64 xs.length)))) ∧
    (∀ s : List Char, callStd L chk cname lim "len" [.str s] = some (.ok (.int (BitVec.ofNat 64 (utf8Len s))))) ∧
    ∀ s : List Char, ∃ v, callStd L chk cname lim "chars" [.str s] = some (.ok v) ∧ callStd L chk cname lim "len" [v] = some (.ok (.int (BitVec.ofNat 64 s.length))) := by
  refine ⟨fun _ _ _ => rfl, fun _ => rfl, fun s => ?_⟩
  obtain ⟨xs, t, m, h1, h2, -, -⟩ := C55_chars L chk cname lim s
  exact ⟨_, h1, by rw [← h2]; rfl⟩

end Quilt.Props
