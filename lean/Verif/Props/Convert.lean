import Verif.Props.Numbers

/-!
# Conversions: C66

`@gettype`, `@bool`, `@char`, `@color` of texts, `@alpha`, `@rainbow_colors`, `@interp`, `@assert`, white space. The
specifications are tables.
-/

namespace Quilt.Props

open Lib

variable {C : Type} (L : Ops) (chk : Bool) (cname : C → String) (lim : Limits)

/-- `@gettype` names the kind. -/
theorem C66_gettype (v : Val C) :
    callStd L chk cname lim "gettype" [v] = some (.ok (.str (match v with
      | .none => "none".toList
      | .bool _ => "bool".toList
      | .int _ => "int".toList
      | .float _ => "float".toList
      | .range _ _ => "range".toList
      | .color _ _ _ _ => "color".toList
      | .str _ => "str".toList
      | .special id _ => id.toList
      | .arr _ _ _ => "list".toList
      | .pair _ _ => "pair".toList
      | .func _ => "function".toList
      | .clos _ => "closure".toList
      | .loopCtx _ => "loop_ctx".toList))) := by
  have hc : callStd L chk cname lim "gettype" [v] = some (Lib.gettype v) := rfl
  rw [hc]
  cases v <;> rfl

/-- `@bool`: zero is false, other numbers are true; two texts are accepted. -/
theorem C66_bool :
    (∀ b, callStd L chk cname lim "bool" [.bool b] = some (.ok (.bool b))) ∧
    (∀ i, i ≠ 0 → callStd L chk cname lim "bool" [.int i] = some (.ok (.bool true))) ∧
    callStd L chk cname lim "bool" [.int 0] = some (.ok (.bool false)) ∧
    (∀ f, callStd L chk cname lim "bool" [.float f] = some (.ok (.bool (!L.F.eq f 0)))) ∧
    callStd L chk cname lim "bool" [.str "true".toList] = some (.ok (.bool true)) ∧
    callStd L chk cname lim "bool" [.str "false".toList] = some (.ok (.bool false)) ∧
    ∀ s, s ≠ "true".toList → s ≠ "false".toList → callStd L chk cname lim "bool" [.str s] = some (.err (.type (.parseError s "bool"))) := by
  have hc : ∀ v : Val C, callStd L chk cname lim "bool" [v] = some (Lib.bool L.F v) := fun _ => rfl
  refine ⟨fun _ => rfl, fun i hi => ?_, rfl, fun _ => rfl, ?_, ?_, fun s h1 h2 => ?_⟩
  · rw [hc]; simp only [Lib.bool, (bne_iff_ne (a := i) (b := 0)).2 hi]
  · rw [hc]; simp [Lib.bool]
  · rw [hc]; simp [Lib.bool]
  · rw [hc]; simp only [Lib.bool, if_neg h1, if_neg h2]

/-- `@char` gives a character exactly for the codes of characters, of which it looks at the low 32 bits only. -/
theorem C66_char (i : BitVec 64) :
    (∃ c : Char, c.toNat = i.toNat % 2 ^ 32 ∧ callStd L chk cname lim "char" [.int i] = some (.ok (.str [c]))) ∨
    ((∀ c : Char, c.toNat ≠ i.toNat % 2 ^ 32) ∧
      callStd L chk cname lim "char" [.int i] = some (.err (.builtin (String.ofList ("invalid character code `".toList ++ showInt i.toInt ++ ['`']))))) := by
  have hc : callStd L chk cname lim "char" [.int i] = some (Lib.char i) := rfl
  rw [hc]
  unfold Lib.char
  have hn : (i.setWidth 32).toNat = i.toNat % 2 ^ 32 := BitVec.toNat_setWidth ..
  simp only [hn]
  by_cases h : i.toNat % 2 ^ 32 < 0xD800 ∨ (0xE000 ≤ i.toNat % 2 ^ 32 ∧ i.toNat % 2 ^ 32 < 0x110000)
  · left
    rw [if_pos h]
    refine ⟨_, ?_, rfl⟩
    have hv : (i.toNat % 2 ^ 32).isValidChar := by
      rcases h with h | h
      · exact .inl h
      · exact .inr ⟨by omega, h.2⟩
    rw [Char.ofNat, dif_pos hv]
    show UInt32.toNat _ = _
    simp [Char.ofNatAux]
  · right
    rw [if_neg h]
    refine ⟨fun c hc => h ?_, rfl⟩
    have hv : c.toNat < 0xD800 ∨ (0xDFFF < c.toNat ∧ c.toNat < 0x110000) := c.valid
    omega

/-- Not all codes are rejected that should be: `@char(2 ** 32 + 65)` is `A`. -/
theorem C66_violated_char : callStd L chk cname lim "char" [.int (BitVec.ofNat 64 (2 ^ 32 + 65))] = some (.ok (.str ['A'])) := rfl

/-- The value of a hexadecimal digit. -/
def hexDigit (c : Char) : Option Nat :=
  match "0123456789abcdef".toList.idxOf? c with
  | some n => some n
  | none => ("ABCDEF".toList.idxOf? c).map (· + 10)

/-- What `@color` reads as a channel: two digits, or a digit after `+`; anything else is 0. -/
def hexPair (a b : Char) : BitVec 8 :=
  match hexDigit a, hexDigit b with
  | some x, some y => BitVec.ofNat 8 (16 * x + y)
  | none, some y => if a = '+' then BitVec.ofNat 8 y else 0
  | _, none => 0

private theorem toDigit_hex (c : Char) : toDigit 16 c = hexDigit c := by
  by_cases h : c.toNat < 128
  · have key : ∀ n, n < 128 → toDigit 16 (Char.ofNat n) = hexDigit (Char.ofNat n) := by decide +kernel
    have := key _ h
    rwa [Char.ofNat_toNat] at this
  · have h1 : toDigit 16 c = none := by
      unfold toDigit
      rw [if_neg (by omega), if_neg (by omega), if_neg (by omega)]
      rfl
    have h2 : ∀ l : List Char, (∀ x ∈ l, x.toNat < 128) → l.idxOf? c = none := by
      intro l hl
      rw [List.idxOf?_eq_none_iff]
      intro hc
      exact h (hl c hc)
    rw [h1, hexDigit, h2 _ (by decide), h2 _ (by decide)]
    rfl

private theorem hexDigit_lt {c : Char} {n : Nat} (h : hexDigit c = some n) : n < 16 := by
  rw [← toDigit_hex] at h
  unfold toDigit at h
  simp only [Option.bind_eq_some_iff] at h
  obtain ⟨d, _, h⟩ := h
  split at h
  · cases h; assumption
  · simp at h

private theorem accDigits_cons {c : Char} {cs : List Char} {acc : Int} : accDigits 0 255 false 16 acc (c :: cs) =
    (hexDigit c).bind fun d => if acc * 16 < 0 ∨ 255 < acc * 16 then none else if acc * 16 + d < 0 ∨ 255 < acc * 16 + d then none else accDigits 0 255 false 16 (acc * 16 + d) cs := by
  rw [accDigits, toDigit_hex]
  rfl

private theorem hexByte_pair (a b : Char) : hexByte [a, b] = hexPair a b := by
  have plus : hexDigit '+' = none := by decide
  have key : ∀ x y : Char, (fromStrRadix 0 255 16 [x, y]).getD 0 = ((hexPair x y).toNat : Int) := by
    intro x y
    have two : accDigits 0 255 false 16 0 [x, y] = (hexDigit x).bind fun d => (hexDigit y).bind fun e => some ((16 * d + e : Nat) : Int) := by
      rw [accDigits_cons]
      cases hx : hexDigit x with
      | none => rfl
      | some d =>
        have hd := hexDigit_lt hx
        simp only [Option.bind_some]
        rw [if_neg (by omega), if_neg (by omega), accDigits_cons]
        cases hy : hexDigit y with
        | none => rfl
        | some e =>
          have he := hexDigit_lt hy
          simp only [Option.bind_some]
          rw [if_neg (by omega), if_neg (by omega), accDigits]
          congr 1
          omega
    have one : accDigits 0 255 false 16 0 [y] = (hexDigit y).map fun e => ((e : Nat) : Int) := by
      rw [accDigits_cons]
      cases hy : hexDigit y with
      | none => rfl
      | some e =>
        have he := hexDigit_lt hy
        simp only [Option.bind_some, Option.map_some]
        rw [if_neg (by omega), if_neg (by omega), accDigits]
        congr 1
        omega
    unfold hexPair
    by_cases hp : x = '+'
    · subst hp
      have : fromStrRadix 0 255 16 ['+', y] = accDigits 0 255 false 16 0 [y] := rfl
      rw [this, one, plus]
      cases hy : hexDigit y with
      | none => rfl
      | some e =>
        have he := hexDigit_lt hy
        simp only [Option.map_some, Option.getD_some, if_pos, BitVec.toNat_ofNat]
        omega
    · have : fromStrRadix 0 255 16 [x, y] = accDigits 0 255 false 16 0 [x, y] := by
        by_cases hm : x = '-'
        · subst hm; rfl
        · unfold fromStrRadix
          split <;> simp_all
      rw [this, two]
      cases hx : hexDigit x with
      | none =>
        cases hy : hexDigit y with
        | none => rfl
        | some e => simp [hp]
      | some d =>
        have hd := hexDigit_lt hx
        cases hy : hexDigit y with
        | none => rfl
        | some e =>
          have he := hexDigit_lt hy
          simp only [Option.bind_some, Option.getD_some, BitVec.toNat_ofNat]
          omega
  unfold hexByte
  rw [key]
  apply BitVec.eq_of_toNat_eq
  have := (hexPair a b).isLt
  rw [BitVec.toNat_ofInt]
  omega

/-- `@color` of a text, without any number of `#` around it: eight digits (what follows is ignored), six, or three that are
doubled. Other numbers of digits are an error. -/
theorem C66_color (m n : Nat) (ds : List Char) (hd : ∀ c ds', ds = c :: ds' → c ≠ '#') (hl : ∀ c ds', ds = ds' ++ [c] → c ≠ '#') :
    callStd L chk cname lim "color" [.str (List.replicate m '#' ++ ds ++ List.replicate n '#')] = some (match ds.take 8 with
      | [a, b, c, d, e, f, g, h] => .ok (.color (hexPair a b) (hexPair c d) (hexPair e f) (hexPair g h))
      | [a, b, c, d, e, f] => .ok (.color (hexPair a b) (hexPair c d) (hexPair e f) 255)
      | [a, b, c] => .ok (.color (hexPair a a) (hexPair b b) (hexPair c c) 255)
      | _ => .err (.builtin (String.ofList ("invalid color `".toList ++ (List.replicate m '#' ++ ds ++ List.replicate n '#') ++ ['`'])))) := by
  generalize hs : List.replicate m '#' ++ ds ++ List.replicate n '#' = s
  have hc : callStd L chk cname lim "color" [.str s] = some (Lib.color (.str s)) := rfl
  have ht : trimChar '#' s = ds := by
    rw [← hs]
    unfold trimChar
    have all : ∀ k, ∀ x ∈ List.replicate k '#', (x == '#') = true := by
      intro k x hx
      rw [List.eq_of_mem_replicate hx]
      rfl
    rw [List.append_assoc, List.dropWhile_append_of_pos (all m)]
    cases ds with
    | nil =>
      have : (List.replicate n '#').dropWhile (· == '#') = [] := by
        have := List.dropWhile_append_of_pos (p := (· == '#')) (l₂ := []) (all n)
        simpa using this
      simp [this]
    | cons c ds' =>
      have hne : (c == '#') = false := by simpa using hd c ds' rfl
      rw [List.cons_append, List.dropWhile_cons, if_neg (by simp [hne])]
      rw [← List.cons_append, List.reverse_append, List.reverse_replicate, List.dropWhile_append_of_pos (all n)]
      rcases List.eq_nil_or_concat (c :: ds') with h | ⟨l, x, h⟩
      · simp at h
      · have hx : (x == '#') = false := by simpa using hl x l (by simpa using h)
        rw [h, List.concat_eq_append, List.reverse_append, List.reverse_singleton, List.singleton_append, List.dropWhile_cons, if_neg (by simp [hx])]
        simp
  rw [hc]
  unfold Lib.color
  simp only [ht, hexByte_pair]
  rfl

/-- Texts that are no colours are accepted, too. -/
theorem C66_violated_color : callStd L chk cname lim "color" [.str "xyz".toList] = some (.ok (.color 0 0 0 255)) ∧
    callStd L chk cname lim "color" [.str "+1+2+3".toList] = some (.ok (.color 1 2 3 255)) ∧
    callStd L chk cname lim "color" [.str "##ffffff00, please".toList] = some (.ok (.color 255 255 255 0)) := ⟨rfl, rfl, rfl⟩

/-- `@alpha` changes the last channel only; `@interp(a, b, t)` is `a + (b - a) * t`. -/
theorem C66_alpha (r g b a : BitVec 8) (x y t : BitVec 64) :
    (∃ a', callStd L chk cname lim "alpha" [.color r g b a, .float x] = some (.ok (.color r g b a'))) ∧
    callStd L chk cname lim "interp" [.float x, .float y, .float t] = some (.ok (.float (L.F.add x (L.F.mul (L.F.sub y x) t)))) := ⟨⟨_, rfl⟩, rfl⟩

/-- The colours of the rainbow (`colors.rs:227-238`), as far as arrays may be that large. -/
theorem C66_rainbow (h : 160 ≤ lim.arrMax) : ∃ s m, callStd L chk cname lim "rainbow_colors" [] = some (.ok (.arr
    ([(0xFF, 0, 0), (0xFF, 0x87, 0), (0xFF, 0xD3, 0), (0xDE, 0xFF, 0x0A), (0xA1, 0xFF, 0x0A), (0x0A, 0xFF, 0x99), (0x0A, 0xEF, 0xFF),
      (0x14, 0x7D, 0xF5), (0x58, 0x0A, 0xFF), (0xBE, 0x0A, 0xFF)].map fun (r, g, b) => .color r g b 255) s m)) := by
  have hc : callStd L chk cname lim "rainbow_colors" [] = some (makeArray (rainbow : List (Val C)) lim.arrMax) := rfl
  rw [hc]
  unfold makeArray Vecc.tryNewFrom
  have ht : Vecc.total Val.getSize (rainbow : List (Val C)) = 160 := rfl
  rw [ht, if_neg (by omega)]
  exact ⟨_, _, rfl⟩

/-- `@assert` accepts `true` and nothing else. -/
theorem C66_assert : callStd L chk cname lim "assert" [.bool true] = some (.ok .none) ∧
    callStd L chk cname lim "assert" [.bool false] = some (.err (.builtin "assertion failed")) ∧
    ∀ v : Val C, (∀ b, v ≠ .bool b) → ∃ e, callStd L chk cname lim "assert" [v] = some (.err e) := by
  refine ⟨rfl, rfl, fun v hv => ?_⟩
  cases v with
  | bool b => exact absurd rfl (hv b)
  | _ => exact ⟨_, rfl⟩

/-- White space is what Unicode calls so (`White_Space`). -/
theorem C66_space (c : Char) : isSpace c = true ↔ c.toNat ∈ [0x9, 0xA, 0xB, 0xC, 0xD, 0x20, 0x85, 0xA0, 0x1680, 0x2000, 0x2001, 0x2002, 0x2003, 0x2004,
    0x2005, 0x2006, 0x2007, 0x2008, 0x2009, 0x200A, 0x2028, 0x2029, 0x202F, 0x205F, 0x3000] := by
  unfold isSpace
  simp only [Bool.or_eq_true, Bool.and_eq_true, decide_eq_true_eq, beq_iff_eq, List.mem_cons, List.not_mem_nil, or_false]
  omega

/-- What is shown of a function or closure tells which of the two it is, and the name. -/
theorem C66_handles (F : FOps) :
    (∀ f g : Func, (Val.func f : Val C).text F cname = (Val.func g : Val C).text F cname ↔ f.name = g.name) ∧
    (∀ c d : C, (Val.clos c).text F cname = (Val.clos d).text F cname ↔ cname c = cname d) ∧
    (∀ (f : Func) (c : C), (Val.func f).text F cname ≠ (Val.clos c).text F cname) ∧
    (∀ (f : Func) (i : Nat), (Val.func f).text F cname ≠ (Val.loopCtx i).text F cname) ∧
    ∀ (c : C) (i : Nat), (Val.clos c).text F cname ≠ (Val.loopCtx i).text F cname := by
  have e1 : "<function ".toList = '<' :: 'f' :: "unction ".toList := by decide +kernel
  have e2 : "<closure ".toList = '<' :: 'c' :: "losure ".toList := by decide +kernel
  have e3 : "<loop_ctx ".toList = '<' :: 'l' :: "oop_ctx ".toList := by decide +kernel
  have hf : ∀ f, (Val.func f : Val C).text F cname = "<function ".toList ++ f.name.toList ++ ['>'] := fun _ => rfl
  have hc : ∀ c : C, (Val.clos c).text F cname = "<closure ".toList ++ (cname c).toList ++ ['>'] := fun _ => rfl
  have hl : ∀ i, (Val.loopCtx i : Val C).text F cname = "<loop_ctx ".toList ++ showNat i ++ ['>'] := fun _ => rfl
  refine ⟨fun f g => ⟨fun h => ?_, fun h => by rw [hf, hf, h]⟩, fun c d => ⟨fun h => ?_, fun h => by rw [hc, hc, h]⟩, fun f c h => ?_, fun f i h => ?_, fun c i h => ?_⟩
  · rw [hf, hf] at h
    exact String.toList_inj.1 (List.append_cancel_left (List.append_cancel_right h))
  · rw [hc, hc] at h
    exact String.toList_inj.1 (List.append_cancel_left (List.append_cancel_right h))
  · rw [hf, hc, e1, e2] at h
    simp at h
  · rw [hf, hl, e1, e3] at h
    simp at h
  · rw [hc, hl, e2, e3] at h
    simp at h

/-- Three digits with a `#` on each side. -/
example : callStd L chk cname lim "color" [.str "#1fA#".toList] = some (.ok (.color 0x11 0xff 0xAA 255)) :=
  C66_color L chk cname lim 1 1 "1fA".toList (by rintro c ds' h; cases h; decide) (by
    intro c ds' h
    have : c = 'A' := by
      have := congrArg List.getLast? h
      simpa using this.symm
    subst this; decide)

end Quilt.Props
