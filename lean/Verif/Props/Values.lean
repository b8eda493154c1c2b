import Verif.Props.Arith
import Verif.Hash

/-!
# Properties C10 (panics), C11-C15, C48: strings, arrays, colours, equality, truthiness, hashing
-/

namespace Quilt.Props
open Quilt Val

variable {C : Type}

/-- In a release build a binary operator panics only in these situations; in particular never
on unsupported operands. -/
theorem C10_release_panics (cfg : Cfg) (hc : cfg.chk = false) (lim : Limits)
    (ceq : C → C → Option Bool) (op : Op) (hop : isBinary op) (a b : Val C)
    (h : Val.binary cfg lim ceq op a b = .panic) :
    ((op = .div ∨ op = .mod) ∧ a = .int (BitVec.intMin 64) ∧ b = .int (-1)) ∨
    (op = .div ∧ ∃ r g bl al r' g' b' a', a = .color r g bl al ∧ b = .color r' g' b' a' ∧
      (r' = 0 ∨ g' = 0 ∨ b' = 0 ∨ a' = 0)) ∨
    (op = .mul ∧ ∃ s n, a = .str s ∧ b = .int n ∧ 0 ≤ n.toInt ∧ 2 ^ 64 ≤ utf8Len s * n.toNat) ∨
    ((op = .eq ∨ op = .neq) ∧ Val.eqv cfg.F ceq a b = .none) := by
  have wp : ∀ m : Int, wrapI (C := C) cfg.chk m ≠ .panic := by
    intro m; unfold wrapI; rw [hc]; split <;> simp
  have sp : ∀ m x y, strCat (C := C) m x y ≠ .panic := by
    intro m x y; unfold strCat; split <;> simp
  have ap : ∀ x y : BitVec 8, ∃ z, chanAvg cfg.chk x y = .ok z := by
    intro x y; unfold chanAvg; rw [hc]; split <;> exact ⟨_, rfl⟩
  have dp : ∀ x y : BitVec 8, y ≠ 0 → ∃ z, chanDiv x y = .ok z := by
    intro x y hy; unfold chanDiv
    rw [if_neg]
    · exact ⟨_, rfl⟩
    · intro h0; exact hy (BitVec.eq_of_toNat_eq (by simpa using h0))
  have dv : ∀ l r : BitVec 64, Val.divOverflows l r = true → l = BitVec.intMin 64 ∧ r = -1 := by
    intro l r; simp [Val.divOverflows]
  cases op <;> simp only [isBinary, Bool.false_eq_true] at hop <;> simp only [Val.binary] at h
  case eq =>
    simp only [Val.equal] at h; split at h
    · simp at h
    · next hn => exact .inr (.inr (.inr ⟨.inl rfl, hn⟩))
  case neq =>
    simp only [Val.notEqual] at h; split at h
    · simp at h
    · next hn => exact .inr (.inr (.inr ⟨.inr rfl, hn⟩))
  case div =>
    simp only [Val.divide] at h
    split at h
    · simp at h
    · cases a <;> cases b <;> first | cases h | skip
      · simp only at h; split at h
        · next hd => obtain ⟨rfl, rfl⟩ := dv _ _ hd; exact .inl ⟨.inl rfl, rfl, rfl⟩
        · simp at h
      · rename_i r g b a r' g' b' a' _
        refine .inr (.inl ⟨rfl, r, g, b, a, r', g', b', a', rfl, rfl, ?_⟩)
        false_or_by_contra; rename_i hn
        simp only [not_or] at hn
        obtain ⟨z1, h1⟩ := dp r r' hn.1
        obtain ⟨z2, h2⟩ := dp g g' hn.2.1
        obtain ⟨z3, h3⟩ := dp b b' hn.2.2.1
        obtain ⟨z4, h4⟩ := dp a a' hn.2.2.2
        simp [h1, h2, h3, h4, chan4] at h
  case mod =>
    simp only [Val.modulo] at h
    split at h
    · simp at h
    · cases a <;> cases b <;> first | cases h | skip
      · simp only at h; split at h
        · next hd => obtain ⟨rfl, rfl⟩ := dv _ _ hd; exact .inl ⟨.inr rfl, rfl, rfl⟩
        · simp at h
  case mul =>
    cases a <;> cases b <;>
      first | cases h | exact absurd h (wp _) | skip
    rename_i s n
    simp only [Val.multiply, Val.strMul] at h
    refine .inr (.inr (.inl ⟨rfl, s, n, rfl, rfl, ?_⟩))
    split at h
    · simp at h
    · split at h
      · split at h <;> simp at h
      · constructor <;> omega
  case join =>
    cases a <;> cases b <;>
      first | cases h | exact absurd h (sp _ _ _) | skip
    · rename_i r g b a r' g' b' a'
      obtain ⟨z1, h1⟩ := ap r r'
      obtain ⟨z2, h2⟩ := ap g g'
      obtain ⟨z3, h3⟩ := ap b b'
      obtain ⟨z4, h4⟩ := ap a a'
      simp [Val.join, h1, h2, h3, h4, chan4] at h
    · rename_i l ls lm r rs rm
      have hx := extend_outcome getSize r (⟨l, ls, lm⟩ : Vecc (Val C))
      simp only [Val.join, Val.arrJoin] at h
      split at h
      · simp at h
      · split at h
        · simp at h
        · simp at h
        · next heq => rw [heq] at hx; simp at hx
  case shl =>
    cases a <;> cases b <;> first | cases h | skip
    simp only [Val.shl, Val.shiftOp, hc] at h; split at h <;> simp at h
  case shr =>
    cases a <;> cases b <;> first | cases h | skip
    simp only [Val.shr, Val.shiftOp, hc] at h; split at h <;> simp at h
  all_goals
    cases a <;> cases b <;>
      first
        | cases h
        | exact absurd h (wp _)
        | exact absurd h (sp _ _ _)

/-! ## C11 strings -/

/-- The text of a value that can be joined to a string. -/
def text (F : FOps) : Val C → Option (List Char)
  | .str s => some s
  | .int i => some (showInt i.toInt)
  | .float f => some (F.toStr f)
  | .bool true => some "true".toList
  | .bool false => some "false".toList
  | .none => some "none".toList
  | _ => .none

/-- Number of bytes of the UTF-8 encoding, as given by Lean's own `String`. -/
def byteLen (s : List Char) : Nat := (String.ofList s).utf8ByteSize

theorem utf8Len_eq (s : List Char) : utf8Len s = byteLen s := by
  unfold utf8Len byteLen
  induction s with
  | nil => rfl
  | cons c cs ih =>
    rw [List.map_cons, List.sum_cons, ih, show String.ofList (c :: cs) = String.singleton c ++ String.ofList cs by
      apply String.ext; simp]
    simp

theorem utf8Len_append (a b : List Char) : utf8Len (a ++ b) = utf8Len a + utf8Len b := by
  simp [utf8Len]

theorem utf8Len_replicate (n : Nat) (a : List Char) :
    utf8Len (List.replicate n a).flatten = utf8Len a * n := by
  induction n with
  | zero => rfl
  | succ n ih => rw [List.replicate_succ, List.flatten_cons, utf8Len_append, ih, Nat.mul_succ]; omega

/-- `..` with at least one string operand and `+` of two strings: exact concatenation of the
texts when it fits the limit, `StringTooLarge` otherwise. -/
theorem C11_concat (cfg : Cfg) (lim : Limits) (ceq : C → C → Option Bool) (op : Op) (a b : Val C)
    (hop : (op = .join ∧ (kind a = .str ∨ kind b = .str)) ∨
      (op = .add ∧ kind a = .str ∧ kind b = .str))
    (x y : List Char) (hx : text cfg.F a = some x) (hy : text cfg.F b = some y) :
    Val.binary cfg lim ceq op a b =
      if byteLen (x ++ y) ≤ lim.strMax then .ok (.str (x ++ y))
      else .err (.overflow .stringTooLarge) := by
  have hs : ∀ p q : List Char, strCat (C := C) lim.strMax p q =
      if byteLen (p ++ q) ≤ lim.strMax then .ok (.str (p ++ q))
      else .err (.overflow .stringTooLarge) := by
    intro p q
    unfold strCat
    rw [← utf8Len_eq, utf8Len_append]
    split
    · rw [if_neg (by omega)]
    · rw [if_pos (by omega)]
  have hb : ∀ b : Bool, text (C := C) cfg.F (.bool b) = some (showBool b) := by intro b; cases b <;> rfl
  rcases hop with ⟨rfl, hk⟩ | ⟨rfl, ha, hb⟩
  · cases a <;> cases b <;> (try cases hx) <;> (try cases hy) <;>
      first
        | exact hs _ _
        | (rw [hb] at hx; cases hx; exact hs _ _)
        | (rw [hb] at hy; cases hy; exact hs _ _)
        | (rcases hk with hk | hk <;> cases hk)
  · cases a <;> cases ha <;> cases b <;> cases hb
    cases hx; cases hy; exact hs _ _

/-- Repetition: for `0 ≤ n` and `len * n` below 2^64. -/
theorem C11_repeat (cfg : Cfg) (lim : Limits) (ceq : C → C → Option Bool) (s : List Char)
    (n : BitVec 64) (hn : 0 ≤ n.toInt) (hfit : byteLen s * n.toNat < 2 ^ 64) :
    Val.binary cfg lim ceq .mul (.str s) (.int n) =
      if byteLen (List.replicate n.toNat s).flatten ≤ lim.strMax then
        .ok (.str (List.replicate n.toNat s).flatten)
      else .err (.overflow .stringTooLarge) := by
  simp only [Val.binary, Val.multiply, Val.strMul]
  rw [← utf8Len_eq] at hfit
  rw [← utf8Len_eq, utf8Len_replicate, if_neg (by omega), if_pos hfit]
  by_cases h : utf8Len s * n.toNat ≤ lim.strMax
  · rw [if_neg (by omega), if_pos h]
  · rw [if_pos (by omega), if_neg h]

/-- When the product does not fit a machine word nothing is returned: a checked build panics,
a release build compares the wrapped product and then panics in `repeat`. -/
theorem C11_repeat_overflow (cfg : Cfg) (lim : Limits) (ceq : C → C → Option Bool) (s : List Char)
    (n : BitVec 64) (hn : 0 ≤ n.toInt) (hbig : 2 ^ 64 ≤ byteLen s * n.toNat) :
    Val.binary cfg lim ceq .mul (.str s) (.int n) =
      if cfg.chk ∨ byteLen s * n.toNat % 2 ^ 64 ≤ lim.strMax then .panic
      else .err (.overflow .stringTooLarge) := by
  simp only [Val.binary, Val.multiply, Val.strMul]
  rw [← utf8Len_eq] at hbig ⊢
  rw [if_neg (by omega), if_neg (by omega)]
  cases cfg.chk
  · by_cases h : utf8Len s * n.toNat % 2 ^ 64 ≤ lim.strMax
    · simp [h]
    · simp [h]
  · simp

/-- Whatever the operands: a string produced by `+`, `*` or `..` respects the limit. -/
theorem C11_limit (cfg : Cfg) (lim : Limits) (ceq : C → C → Option Bool) (op : Op)
    (hop : op = .add ∨ op = .mul ∨ op = .join) (a b : Val C) (s : List Char)
    (h : Val.binary cfg lim ceq op a b = .ok (.str s)) : byteLen s ≤ lim.strMax := by
  have hcat : ∀ p q : List Char, strCat (C := C) lim.strMax p q = .ok (.str s) →
      byteLen s ≤ lim.strMax := by
    intro p q hpq
    unfold strCat at hpq
    split at hpq
    · simp at hpq
    · simp only [Res.ok.injEq, Val.str.injEq] at hpq
      rw [← hpq, ← utf8Len_eq, utf8Len_append]; omega
  have hw : ∀ m : Int, wrapI (C := C) cfg.chk m ≠ .ok (.str s) := by
    intro m; unfold wrapI; split <;> (try split) <;> simp
  rcases hop with rfl | rfl | rfl
  · cases a <;> cases b <;>
      first | (exfalso; exact absurd h (hw _)) | (exact hcat _ _ h) | cases h
  · cases a <;> cases b <;> first | (exfalso; exact absurd h (hw _)) | cases h | skip
    simp only [Val.binary, Val.multiply, Val.strMul] at h
    split at h
    · simp at h
    · split at h
      · split at h
        · simp at h
        · simp only [Res.ok.injEq, Val.str.injEq] at h
          rw [← h, ← utf8Len_eq, utf8Len_replicate]; omega
      · split at h
        · simp at h
        · split at h <;> simp at h
  · cases a <;> cases b <;> first | (exact hcat _ _ h) | cases h | skip
    · simp only [Val.binary, Val.join] at h
      rename_i r g b a r' g' b' a'
      have hc4 : ∀ p q r t : Res (BitVec 8), chan4 (C := C) p q r t ≠ .ok (.str s) := by
        intro p q r t; cases p <;> cases q <;> cases r <;> cases t <;> simp [chan4]
      exact absurd h (hc4 _ _ _ _)
    · simp only [Val.binary, Val.join, Val.arrJoin] at h
      split at h
      · simp at h
      · split at h <;> simp at h

example : byteLen "é".toList = 2 := by decide
example (cfg : Cfg) (ceq : C → C → Option Bool) :
    Val.binary cfg ⟨4, 0⟩ ceq .join (.str ['a', 'b']) (.bool true) = .err (.overflow .stringTooLarge) := by
  rw [C11_concat cfg ⟨4, 0⟩ ceq .join _ _ (.inl ⟨rfl, .inl rfl⟩) ['a', 'b'] "true".toList rfl rfl]
  rfl

/-! ## C12 array join -/

/-- Values whose arrays account for their contents and stay within their own limit. All values
built by the VM satisfy this (array literals, `CreateArray`, joins). -/
inductive Accounted : Val C → Prop where
  | arr (d : List (Val C)) (s m : Nat) : s = (d.map Val.getSize).sum → s ≤ m → Accounted (.arr d s m)

/-- `a .. b` for accounted arrays: concatenation in order, exactly when the combined size fits the
VM's limit and the limit recorded in the left operand. -/
theorem C12_join (cfg : Cfg) (lim : Limits) (ceq : C → C → Option Bool)
    (l r : List (Val C)) (ls lm rs rm : Nat) (hl : Accounted (.arr l ls lm))
    (hr : Accounted (.arr r rs rm)) :
    Val.binary cfg lim ceq .join (.arr l ls lm) (.arr r rs rm) =
      if ls + rs ≤ lim.arrMax ∧ ls + rs ≤ lm then .ok (.arr (l ++ r) (ls + rs) lm)
      else .err (.overflow .arrayTooLarge) := by
  have hext : ∀ (r l : List (Val C)) (ls : Nat), ls ≤ lm →
      (ls + (r.map getSize).sum ≤ lm → Vecc.extend getSize (⟨l, ls, lm⟩ : Vecc (Val C)) r =
          (.ok (), ⟨l ++ r, ls + (r.map getSize).sum, lm⟩)) ∧
      (lm < ls + (r.map getSize).sum → (Vecc.extend getSize (⟨l, ls, lm⟩ : Vecc (Val C)) r).1 =
        .err (.overflow .arrayTooLarge)) := by
    intro r
    induction r with
    | nil => intro l ls h; simp [Vecc.extend, h]
    | cons x xs ih =>
      intro l ls h
      simp only [Vecc.extend, List.map_cons, List.sum_cons]
      by_cases hx : ls + x.getSize > lm
      · simp only [hx, if_true]
        exact ⟨fun h => by omega, fun _ => trivial⟩
      · simp only [hx, if_false]
        have := ih (l ++ [x]) (ls + x.getSize) (by omega)
        refine ⟨fun h2 => ?_, fun h3 => this.2 (by omega)⟩
        rw [this.1 (by omega)]; simp [Nat.add_assoc]
  cases hl with | arr _ _ _ h1 h2 => cases hr with | arr _ _ _ h3 h4 =>
  have he := hext r l ls h2
  rw [← h3] at he
  simp only [Val.binary, Val.join, Val.arrJoin]
  by_cases hm : ls + rs ≤ lim.arrMax
  · rw [if_neg (by omega)]
    by_cases hn : ls + rs ≤ lm
    · rw [he.1 hn, if_pos ⟨hm, hn⟩]
    · rw [if_neg (by omega)]
      have h5 := he.2 (by omega)
      split
      · next heq => rw [heq] at h5; simp at h5
      · next heq => rw [heq] at h5; simp only at h5; injection h5 with h5; rw [h5]
      · next heq => rw [heq] at h5; simp at h5
  · rw [if_pos (by omega), if_neg (by omega)]

theorem toValL_eq (xs : List Literal) : Literal.toVal.toValL (C := C) xs = xs.map Literal.toVal := by
  induction xs with
  | nil => rfl
  | cons x xs ih => simp [Literal.toVal.toValL, ih]

/-- A constant array literal is accounted, and its limit is its own size. -/
theorem C12_literal (xs : List Literal) :
    ∃ s, (Literal.arr xs).toVal = (.arr (xs.map Literal.toVal) s s : Val C) ∧
      Accounted (.arr (xs.map Literal.toVal) s s : Val C) := by
  refine ⟨_, ?_, .arr _ _ _ rfl (Nat.le_refl _)⟩
  simp only [Literal.toVal, toValL_eq, Vecc.total]

/-- Joining anything of non-zero size to a constant array literal fails, for every limit. -/
theorem C12_literal_join_fails (cfg : Cfg) (lim : Limits) (ceq : C → C → Option Bool)
    (xs : List Literal) (r : List (Val C)) (rs rm : Nat) (hr : Accounted (.arr r rs rm))
    (hrs : 0 < rs) :
    Val.binary cfg lim ceq .join (Literal.arr xs).toVal (.arr r rs rm) =
      .err (.overflow .arrayTooLarge) := by
  obtain ⟨s, h1, h2⟩ := C12_literal (C := C) xs
  rw [h1, C12_join cfg lim ceq _ _ _ _ _ _ h2 hr, if_neg (by omega)]

/-- The join of accounted arrays is accounted, so the description applies to chains of joins. -/
theorem C12_closed (cfg : Cfg) (lim : Limits) (ceq : C → C → Option Bool)
    (l r : List (Val C)) (ls lm rs rm : Nat) (v : Val C) (hl : Accounted (.arr l ls lm))
    (hr : Accounted (.arr r rs rm))
    (h : Val.binary cfg lim ceq .join (.arr l ls lm) (.arr r rs rm) = .ok v) :
    Accounted v ∧ v.getSize ≤ lim.arrMax := by
  rw [C12_join cfg lim ceq _ _ _ _ _ _ hl hr] at h
  split at h
  · next hc =>
    injection h with h; subst h
    cases hl with | arr _ _ _ h1 h2 => cases hr with | arr _ _ _ h3 h4 =>
    refine ⟨.arr _ _ _ ?_ hc.2, hc.1⟩
    rw [List.map_append, List.sum_append]; omega
  · cases h

/-- What a value counts towards the limit of an array: the bytes of its texts and 16 for everything else
that is not made of other values. Arrays carry what their items count. -/
inductive Counts : Val C → Nat → Prop where
  | str (t) : Counts (.str t) (t.map Char.utf8Size).sum
  | pair {a b m n} : Counts a m → Counts b n → Counts (.pair a b) (m + n)
  | empty (m) : Counts (.arr [] 0 m) 0
  | item {x xs k s m} : Counts x k → Counts (.arr xs s m) s → Counts (.arr (x :: xs) (k + s) m) (k + s)
  | none : Counts .none 16
  | bool (b) : Counts (.bool b) 16
  | int (i) : Counts (.int i) 16
  | float (x) : Counts (.float x) 16
  | range (a b) : Counts (.range a b) 16
  | color (r g b a) : Counts (.color r g b a) 16
  | special (i n) : Counts (.special i n) 16
  | loopCtx (i) : Counts (.loopCtx i) 16
  | func (f) : Counts (.func f) 16
  | clos (c) : Counts (.clos c) 16

/-- The sizes compared with the limits are these counts, and the arrays among these values are accounted. -/
theorem C12_size {v : Val C} {n : Nat} (h : Counts v n) :
    v.getSize = n ∧ ∀ d s m, v = .arr d s m → s ≤ m → Accounted v := by
  have key : ∀ {v : Val C} {n : Nat}, Counts v n → v.getSize = n ∧ ∀ d s m, v = .arr d s m → s = (d.map Val.getSize).sum := by
    intro v n h
    induction h with
    | str t => exact ⟨rfl, fun _ _ _ h => by cases h⟩
    | pair _ _ h1 h2 => exact ⟨by simp only [Val.getSize, h1.1, h2.1], fun _ _ _ h => by cases h⟩
    | empty m => exact ⟨rfl, fun _ _ _ h => by cases h; rfl⟩
    | item _ _ h1 h2 =>
      refine ⟨rfl, fun _ _ _ h => ?_⟩
      cases h
      rw [List.map_cons, List.sum_cons, h1.1, ← h2.2 _ _ _ rfl]
    | _ => exact ⟨rfl, fun _ _ _ h => by cases h⟩
  refine ⟨(key h).1, fun d s m hv hm => ?_⟩
  subst hv
  exact .arr _ _ _ ((key h).2 _ _ _ rfl) hm

example : Counts (.arr [.pair (.str ['a', 'é']) (.int 3), .int 1] 35 300 : Val C) 35 :=
  .item (k := 19) (s := 16) (.pair (.str _) (.int _)) (.item (k := 16) (s := 0) (.int _) (.empty _))

/-- `[1, 2] .. [3]` fails although 48 bytes are far below the limit. -/
example (cfg : Cfg) (ceq : C → C → Option Bool) :
    Val.binary cfg ⟨1000, 1000⟩ ceq .join (Literal.arr [.int 1, .int 2]).toVal (Literal.arr [.int 3]).toVal
      = .err (.overflow .arrayTooLarge) :=
  C12_literal_join_fails cfg _ ceq _ _ 16 16 (.arr _ _ _ rfl (Nat.le_refl _)) (by omega)

example : Accounted (.arr [.int 1, .str ['a']] 17 300 : Val C) := .arr _ _ _ rfl (by omega)

/-! ## C13 colours -/

/-- `+`, `-`, `*` never fail on colours and clamp every channel to 0..255. -/
theorem C13_saturate (cfg : Cfg) (lim : Limits) (ceq : C → C → Option Bool)
    (r g b a r' g' b' a' : BitVec 8) (op : Op) (f : Int → Int → Int)
    (hop : (op = .add ∧ f = (· + ·)) ∨ (op = .sub ∧ f = (· - ·)) ∨ (op = .mul ∧ f = (· * ·))) :
    ∃ r₂ g₂ b₂ a₂ : BitVec 8,
      Val.binary cfg lim ceq op (.color r g b a) (.color r' g' b' a') = .ok (.color r₂ g₂ b₂ a₂) ∧
      (r₂.toNat : Int) = max 0 (min 255 (f r.toNat r'.toNat)) ∧
      (g₂.toNat : Int) = max 0 (min 255 (f g.toNat g'.toNat)) ∧
      (b₂.toNat : Int) = max 0 (min 255 (f b.toNat b'.toNat)) ∧
      (a₂.toNat : Int) = max 0 (min 255 (f a.toNat a'.toNat)) := by
  have hadd : ∀ x y : BitVec 8, ((satAdd x y).toNat : Int) = max 0 (min 255 ((x.toNat : Int) + (y.toNat : Int))) := by
    intro x y; have := x.isLt; have := y.isLt
    simp only [satAdd, BitVec.toNat_ofNat]; omega
  have hsub : ∀ x y : BitVec 8, ((satSub x y).toNat : Int) = max 0 (min 255 ((x.toNat : Int) - (y.toNat : Int))) := by
    intro x y; have := x.isLt; have := y.isLt
    simp only [satSub, BitVec.toNat_ofNat]; omega
  have hmul : ∀ x y : BitVec 8, ((satMul x y).toNat : Int) = max 0 (min 255 ((x.toNat : Int) * (y.toNat : Int))) := by
    intro x y; have := x.isLt; have := y.isLt
    have hm : ((x.toNat * y.toNat : Nat) : Int) = (x.toNat : Int) * y.toNat := Int.natCast_mul ..
    rw [← hm]
    simp only [satMul, BitVec.toNat_ofNat]; omega
  rcases hop with ⟨rfl, rfl⟩ | ⟨rfl, rfl⟩ | ⟨rfl, rfl⟩
  · exact ⟨_, _, _, _, rfl, hadd _ _, hadd _ _, hadd _ _, hadd _ _⟩
  · exact ⟨_, _, _, _, rfl, hsub _ _, hsub _ _, hsub _ _, hsub _ _⟩
  · exact ⟨_, _, _, _, rfl, hmul _ _, hmul _ _, hmul _ _, hmul _ _⟩

theorem chan4_panic (p q r s : Res (BitVec 8)) (hp : ∀ e, p ≠ .err e) (hq : ∀ e, q ≠ .err e)
    (hr : ∀ e, r ≠ .err e) (h : p = .panic ∨ q = .panic ∨ r = .panic ∨ s = .panic) :
    chan4 (C := C) p q r s = .panic := by
  cases p <;> cases q <;> cases r <;> cases s <;> simp_all [chan4]

/-- Channel-wise division; a zero channel in the divisor panics in every build. -/
theorem C13_div (cfg : Cfg) (lim : Limits) (ceq : C → C → Option Bool)
    (r g b a r' g' b' a' : BitVec 8) :
    if r' = 0 ∨ g' = 0 ∨ b' = 0 ∨ a' = 0 then
      Val.binary cfg lim ceq .div (.color r g b a) (.color r' g' b' a') = .panic
    else ∃ r₂ g₂ b₂ a₂ : BitVec 8,
      Val.binary cfg lim ceq .div (.color r g b a) (.color r' g' b' a') = .ok (.color r₂ g₂ b₂ a₂) ∧
      r₂.toNat = r.toNat / r'.toNat ∧ g₂.toNat = g.toNat / g'.toNat ∧
      b₂.toNat = b.toNat / b'.toNat ∧ a₂.toNat = a.toNat / a'.toNat := by
  have h0 : ∀ x : BitVec 8, x = 0 ↔ x.toNat = 0 := by
    intro x; constructor
    · rintro rfl; rfl
    · intro h; exact BitVec.eq_of_toNat_eq (by simpa using h)
  have hz : ∀ x : BitVec 8, chanDiv x 0 = .panic := fun _ => rfl
  have hd : ∀ x y : BitVec 8, y ≠ 0 → ∃ z : BitVec 8, chanDiv x y = .ok z ∧ z.toNat = x.toNat / y.toNat := by
    intro x y hy
    have hy' := mt (h0 y).2 hy
    refine ⟨_, by simp only [chanDiv]; rw [if_neg hy'], ?_⟩
    have := x.isLt
    have := Nat.div_le_self x.toNat y.toNat
    rw [BitVec.toNat_ofNat, Nat.mod_eq_of_lt (Nat.lt_of_le_of_lt this (by omega))]
  simp only [Val.binary, Val.divide, Val.isZero, Bool.false_eq_true, if_false]
  split
  · next h =>
    refine chan4_panic _ _ _ _ (chanDiv_ne_err _ _) (chanDiv_ne_err _ _) (chanDiv_ne_err _ _) ?_
    rcases h with rfl | rfl | rfl | rfl
    · exact .inl (hz _)
    · exact .inr (.inl (hz _))
    · exact .inr (.inr (.inl (hz _)))
    · exact .inr (.inr (.inr (hz _)))
  · next h =>
    simp only [not_or] at h
    obtain ⟨z1, h1, e1⟩ := hd r r' h.1
    obtain ⟨z2, h2, e2⟩ := hd g g' h.2.1
    obtain ⟨z3, h3, e3⟩ := hd b b' h.2.2.1
    obtain ⟨z4, h4, e4⟩ := hd a a' h.2.2.2
    exact ⟨z1, z2, z3, z4, by simp [chan4, h1, h2, h3, h4], e1, e2, e3, e4⟩

/-- `..` averages when no channel sum exceeds 255. -/
theorem C13_average (cfg : Cfg) (lim : Limits) (ceq : C → C → Option Bool)
    (r g b a r' g' b' a' : BitVec 8)
    (hr : r.toNat + r'.toNat ≤ 255) (hg : g.toNat + g'.toNat ≤ 255)
    (hb : b.toNat + b'.toNat ≤ 255) (ha : a.toNat + a'.toNat ≤ 255) :
    ∃ r₂ g₂ b₂ a₂ : BitVec 8,
      Val.binary cfg lim ceq .join (.color r g b a) (.color r' g' b' a') = .ok (.color r₂ g₂ b₂ a₂) ∧
      r₂.toNat = (r.toNat + r'.toNat) / 2 ∧ g₂.toNat = (g.toNat + g'.toNat) / 2 ∧
      b₂.toNat = (b.toNat + b'.toNat) / 2 ∧ a₂.toNat = (a.toNat + a'.toNat) / 2 := by
  have h : ∀ x y : BitVec 8, x.toNat + y.toNat ≤ 255 →
      ∃ z : BitVec 8, chanAvg cfg.chk x y = .ok z ∧ z.toNat = (x.toNat + y.toNat) / 2 := by
    intro x y hxy
    refine ⟨_, by simp only [chanAvg]; rw [if_pos (by omega)], ?_⟩
    rw [BitVec.toNat_ofNat]; omega
  obtain ⟨z1, h1, e1⟩ := h r r' hr
  obtain ⟨z2, h2, e2⟩ := h g g' hg
  obtain ⟨z3, h3, e3⟩ := h b b' hb
  obtain ⟨z4, h4, e4⟩ := h a a' ha
  exact ⟨z1, z2, z3, z4, by simp [Val.binary, Val.join, chan4, h1, h2, h3, h4], e1, e2, e3, e4⟩

/-- Otherwise a checked build panics, and a release build averages the sums modulo 256. -/
theorem C13_average_overflow (cfg : Cfg) (lim : Limits) (ceq : C → C → Option Bool)
    (r g b a r' g' b' a' : BitVec 8)
    (h : 255 < r.toNat + r'.toNat ∨ 255 < g.toNat + g'.toNat ∨ 255 < b.toNat + b'.toNat ∨
      255 < a.toNat + a'.toNat) :
    if cfg.chk then
      Val.binary cfg lim ceq .join (.color r g b a) (.color r' g' b' a') = .panic
    else ∃ r₂ g₂ b₂ a₂ : BitVec 8,
      Val.binary cfg lim ceq .join (.color r g b a) (.color r' g' b' a') = .ok (.color r₂ g₂ b₂ a₂) ∧
      r₂.toNat = (r.toNat + r'.toNat) % 256 / 2 ∧ g₂.toNat = (g.toNat + g'.toNat) % 256 / 2 ∧
      b₂.toNat = (b.toNat + b'.toNat) % 256 / 2 ∧ a₂.toNat = (a.toNat + a'.toNat) % 256 / 2 := by
  cases hc : cfg.chk
  · simp only [Bool.false_eq_true, if_false]
    have h : ∀ x y : BitVec 8, ∃ z : BitVec 8, chanAvg false x y = .ok z ∧
        z.toNat = (x.toNat + y.toNat) % 256 / 2 := by
      intro x y
      by_cases hxy : x.toNat + y.toNat < 256
      · refine ⟨_, by simp only [chanAvg]; rw [if_pos hxy], ?_⟩
        rw [BitVec.toNat_ofNat]; omega
      · refine ⟨_, by simp only [chanAvg]; rw [if_neg hxy]; rfl, ?_⟩
        rw [BitVec.toNat_ofNat]; omega
    obtain ⟨z1, h1, e1⟩ := h r r'
    obtain ⟨z2, h2, e2⟩ := h g g'
    obtain ⟨z3, h3, e3⟩ := h b b'
    obtain ⟨z4, h4, e4⟩ := h a a'
    exact ⟨z1, z2, z3, z4, by simp [Val.binary, Val.join, chan4, hc, h1, h2, h3, h4], e1, e2, e3, e4⟩
  · simp only [if_true, Val.binary, Val.join, hc]
    have hp : ∀ x y : BitVec 8, 255 < x.toNat + y.toNat → chanAvg true x y = .panic := by
      intro x y hxy; simp only [chanAvg]; rw [if_neg (by omega)]; rfl
    refine chan4_panic _ _ _ _ (chanAvg_ne_err _ _ _) (chanAvg_ne_err _ _ _) (chanAvg_ne_err _ _ _) ?_
    rcases h with h | h | h | h
    · exact .inl (hp _ _ h)
    · exact .inr (.inl (hp _ _ h))
    · exact .inr (.inr (.inl (hp _ _ h)))
    · exact .inr (.inr (.inr (hp _ _ h)))

example : (200#8).toNat + (100#8).toNat > 255 := by decide

/-! ## C15 truthiness -/

/-- The documented verdict: `some b`, or `none` for kinds that have no truth value. -/
def truth (F : FOps) : Val C → Option Bool
  | .bool b => some b
  | .int i => some (decide (i.toInt ≠ 0))
  | .float f => some (!F.eq f 0)
  | .str s => some (decide (s ≠ []))
  | .none => some false
  | .color r g b a => some (decide (¬ (r.toNat = 0 ∧ g.toNat = 0 ∧ b.toNat = 0 ∧ a.toNat = 0)))
  | _ => .none

theorem C15_truthy (F : FOps) (v : Val C) :
    v.isTruthy F = match truth F v with
      | some b => .ok b
      | .none => .err (.type (.expected "truthy" v.ntype)) := by
  cases v <;> try rfl
  · rename_i i
    have h1 : i.toInt = 0 ↔ i = 0#64 := ⟨fun h => BitVec.eq_of_toInt_eq (by simpa using h), fun h => by simp [h]⟩
    simp only [Val.isTruthy, truth]; congr 1
    by_cases h : i = 0#64
    · subst h; rfl
    · simp [h, h1]
  · rename_i r g b a
    have h : ∀ x : BitVec 8, x.toNat = 0 ↔ x = 0#8 := fun x =>
      ⟨fun h => BitVec.eq_of_toNat_eq (by simpa using h), fun h => by simp [h]⟩
    simp only [Val.isTruthy, truth, h]; congr 1
    by_cases h1 : r = 0#8 <;> by_cases h2 : g = 0#8 <;> by_cases h3 : b = 0#8 <;> by_cases h4 : a = 0#8 <;>
      simp [h1, h2, h3, h4]
  · rename_i s
    cases s <;> simp [Val.isTruthy, truth]

/-! ## C14 equality and order -/

/-- Values without floats and functions. -/
inductive Plain : Val C → Prop where
  | none : Plain .none
  | bool (b) : Plain (.bool b)
  | int (i) : Plain (.int i)
  | range (l r) : Plain (.range l r)
  | color (r g b a) : Plain (.color r g b a)
  | str (s) : Plain (.str s)
  | special (i n) : Plain (.special i n)
  | loopCtx (i) : Plain (.loopCtx i)
  | arr (d : List (Val C)) (s m) : (∀ v ∈ d, Plain v) → Plain (.arr d s m)
  | pair (a b) : Plain a → Plain b → Plain (.pair a b)

/-- Equality of plain values, by structure, ignoring array limits. -/
inductive Same : Val C → Val C → Prop where
  | none : Same .none .none
  | bool (b) : Same (.bool b) (.bool b)
  | int (i) : Same (.int i) (.int i)
  | range (l r) : Same (.range l r) (.range l r)
  | color (r g b a) : Same (.color r g b a) (.color r g b a)
  | str (s) : Same (.str s) (.str s)
  | special (i n) : Same (.special i n) (.special i n)
  | loopCtx (i) : Same (.loopCtx i) (.loopCtx i)
  | arr (d d' : List (Val C)) (s m s' m') : d.length = d'.length →
      (∀ i (h : i < d.length) (h' : i < d'.length), Same d[i] d'[i]) → Same (.arr d s m) (.arr d' s' m')
  | pair (a b a' b') : Same a a' → Same b b' → Same (.pair a b) (.pair a' b')

mutual
theorem eqv_plain (F : FOps) (ceq : C → C → Option Bool) : ∀ (a b : Val C), Plain a →
    ∃ r, Val.eqv F ceq a b = some r ∧ (r = true ↔ Same a b)
  | .none, b, _ => by
    cases b <;> first | exact ⟨_, rfl, by simp; constructor⟩ | exact ⟨_, rfl, by simp; intro h; cases h⟩
  | .bool x, b, _ => by
    cases b <;> first
      | exact ⟨_, rfl, by simp; exact ⟨fun h => h ▸ .bool _, fun h => by cases h; rfl⟩⟩
      | exact ⟨_, rfl, by simp; intro h; cases h⟩
  | .int x, b, _ => by
    cases b <;> first
      | exact ⟨_, rfl, by simp; exact ⟨fun h => h ▸ .int _, fun h => by cases h; rfl⟩⟩
      | exact ⟨_, rfl, by simp; intro h; cases h⟩
  | .range x y, b, _ => by
    cases b <;> first
      | exact ⟨_, rfl, by simp; exact ⟨fun h => h.1 ▸ h.2 ▸ .range _ _, fun h => by cases h; exact ⟨rfl, rfl⟩⟩⟩
      | exact ⟨_, rfl, by simp; intro h; cases h⟩
  | .color x y z w, b, _ => by
    cases b <;> first
      | exact ⟨_, rfl, by
          simp [and_assoc]
          exact ⟨fun ⟨h1, h2, h3, h4⟩ => h1 ▸ h2 ▸ h3 ▸ h4 ▸ .color _ _ _ _,
            fun h => by cases h; exact ⟨rfl, rfl, rfl, rfl⟩⟩⟩
      | exact ⟨_, rfl, by simp; intro h; cases h⟩
  | .str x, b, _ => by
    cases b <;> first
      | exact ⟨_, rfl, by simp; exact ⟨fun h => h ▸ .str _, fun h => by cases h; rfl⟩⟩
      | exact ⟨_, rfl, by simp; intro h; cases h⟩
  | .special x y, b, _ => by
    cases b <;> first
      | exact ⟨_, rfl, by simp; exact ⟨fun h => h.1 ▸ h.2 ▸ .special _ _, fun h => by cases h; exact ⟨rfl, rfl⟩⟩⟩
      | exact ⟨_, rfl, by simp; intro h; cases h⟩
  | .loopCtx x, b, _ => by
    cases b <;> first
      | exact ⟨_, rfl, by simp; exact ⟨fun h => h ▸ .loopCtx _, fun h => by cases h; rfl⟩⟩
      | exact ⟨_, rfl, by simp; intro h; cases h⟩
  | .arr d s m, b, hp => by
    cases b <;> first | exact ⟨_, rfl, by simp; intro h; cases h⟩ | skip
    rename_i d' s' m'
    have hd : ∀ v ∈ d, Plain v := by cases hp; assumption
    by_cases hl : d.length = d'.length
    · obtain ⟨r, h1, h2⟩ := eqvL_plain F ceq d d' hd hl
      refine ⟨r, by simp [Val.eqv, hl, h1], ?_⟩
      rw [h2]
      exact ⟨fun h => .arr _ _ _ _ _ _ hl h, fun h => by cases h; assumption⟩
    · refine ⟨false, by simp [Val.eqv, hl], ?_⟩
      simp; intro h; cases h; exact hl (by assumption)
  | .pair x y, b, hp => by
    cases b <;> first | exact ⟨_, rfl, by simp; intro h; cases h⟩ | skip
    rename_i x' y'
    have hx : Plain x := by cases hp; assumption
    have hy : Plain y := by cases hp; assumption
    obtain ⟨r, h1, h2⟩ := eqv_plain F ceq x x' hx
    obtain ⟨r', h1', h2'⟩ := eqv_plain F ceq y y' hy
    cases r
    · refine ⟨false, by simp [Val.eqv, h1], ?_⟩
      simp; intro h; cases h; simp at h2; exact h2 (by assumption)
    · refine ⟨r', by simp [Val.eqv, h1, h1'], ?_⟩
      rw [h2']
      exact ⟨fun h => .pair _ _ _ _ (h2.1 rfl) h, fun h => by cases h; assumption⟩
  | .float _, _, hp => by cases hp
  | .func _, _, hp => by cases hp
  | .clos _, _, hp => by cases hp
termination_by structural a => a
theorem eqvL_plain (F : FOps) (ceq : C → C → Option Bool) : ∀ (a b : List (Val C)),
    (∀ v ∈ a, Plain v) → a.length = b.length →
    ∃ r, Val.eqvL F ceq a b = some r ∧
      (r = true ↔ ∀ i (h : i < a.length) (h' : i < b.length), Same a[i] b[i])
  | [], b, _, _ => ⟨true, rfl, by simp⟩
  | x :: xs, [], _, h => by simp at h
  | x :: xs, y :: ys, hp, hl => by
    obtain ⟨r, h1, h2⟩ := eqv_plain F ceq x y (hp x (by simp))
    obtain ⟨r', h1', h2'⟩ := eqvL_plain F ceq xs ys (fun v hv => hp v (by simp [hv])) (by simpa using hl)
    cases r
    · refine ⟨false, by simp [Val.eqvL, h1], ?_⟩
      simp at h2; simp only [Bool.false_eq_true, false_iff]
      intro h; exact h2 (h 0 (by simp) (by simp))
    · refine ⟨r', by simp [Val.eqvL, h1, h1'], ?_⟩
      rw [h2']
      constructor
      · intro h i hi hi'
        cases i with
        | zero => exact h2.1 rfl
        | succ i => exact h i (by simpa using hi) (by simpa using hi')
      · intro h i hi hi'
        exact h (i + 1) (by simpa using hi) (by simpa using hi')
termination_by structural a => a
end

/-- On plain values `==` decides structural equality (ignoring array limits) and `!=` is its
negation; neither ever fails, whatever the right operand. -/
theorem C14_decides (cfg : Cfg) (lim : Limits) (ceq : C → C → Option Bool) (a b : Val C) (ha : Plain a) :
    ∃ r, Val.binary cfg lim ceq .eq a b = .ok (.bool r) ∧
      Val.binary cfg lim ceq .neq a b = .ok (.bool (!r)) ∧ (r = true ↔ Same a b) := by
  obtain ⟨r, h1, h2⟩ := eqv_plain cfg.F ceq a b ha
  exact ⟨r, by simp [Val.binary, Val.equal, h1], by simp [Val.binary, Val.notEqual, h1], h2⟩

/-- `!=` is the negation of `==` on all values (both panic when the comparison of closures does
not terminate). -/
theorem C14_neq (cfg : Cfg) (lim : Limits) (ceq : C → C → Option Bool) (a b : Val C) :
    (∃ r, Val.binary cfg lim ceq .eq a b = .ok (.bool r) ∧
      Val.binary cfg lim ceq .neq a b = .ok (.bool (!r))) ∨
    (Val.binary cfg lim ceq .eq a b = .panic ∧ Val.binary cfg lim ceq .neq a b = .panic) := by
  simp only [Val.binary, Val.equal, Val.notEqual]
  cases Val.eqv cfg.F ceq a b
  · exact .inr ⟨rfl, rfl⟩
  · exact .inl ⟨_, rfl, rfl⟩

mutual
theorem eqv_symm (F : FOps) (ceq : C → C → Option Bool) (hF : ∀ x y, F.eq x y = F.eq y x)
    (hc : ∀ x y, ceq x y = ceq y x) : ∀ a b : Val C, Val.eqv F ceq a b = Val.eqv F ceq b a
  | .none, b => by cases b <;> rfl
  | .bool _, b => by cases b <;> simp [Val.eqv, Bool.beq_comm]
  | .int _, b => by cases b <;> simp [Val.eqv]; rw [Bool.beq_comm]
  | .float _, b => by cases b <;> simp [Val.eqv]; rw [hF]
  | .range _ _, b => by cases b <;> simp [Val.eqv]; congr 1 <;> rw [Bool.beq_comm]
  | .color _ _ _ _, b => by
    cases b <;> simp [Val.eqv]; congr 1; congr 1; congr 1
    all_goals rw [Bool.beq_comm]
  | .str _, b => by cases b <;> simp [Val.eqv]; rw [Bool.beq_comm]
  | .special _ _, b => by cases b <;> simp [Val.eqv]; congr 1 <;> rw [Bool.beq_comm]
  | .loopCtx _, b => by cases b <;> simp [Val.eqv]; rw [Bool.beq_comm]
  | .func _, b => by cases b <;> simp [Val.eqv, eq_comm]
  | .clos _, b => by cases b <;> simp [Val.eqv]; rw [hc]
  | .arr d _ _, b => by
    cases b <;> simp only [Val.eqv]
    rename_i d' _ _
    by_cases h : d.length = d'.length
    · rw [if_pos h, if_pos h.symm, eqvL_symm F ceq hF hc d d' h]
    · rw [if_neg h, if_neg (fun e => h e.symm)]
  | .pair x y, b => by
    cases b <;> simp only [Val.eqv]
    rename_i x' y'
    rw [eqv_symm F ceq hF hc x x', eqv_symm F ceq hF hc y y']
termination_by structural a => a
theorem eqvL_symm (F : FOps) (ceq : C → C → Option Bool) (hF : ∀ x y, F.eq x y = F.eq y x)
    (hc : ∀ x y, ceq x y = ceq y x) : ∀ a b : List (Val C), a.length = b.length →
      Val.eqvL F ceq a b = Val.eqvL F ceq b a
  | [], b, h => by cases b <;> first | rfl | simp at h
  | x :: xs, [], h => by simp at h
  | x :: xs, y :: ys, h => by
    simp only [Val.eqvL]
    rw [eqv_symm F ceq hF hc x y, eqvL_symm F ceq hF hc xs ys (by simpa using h)]
termination_by structural a => a
end

/-- `==` is symmetric on all values, provided float equality and closure equality are. -/
theorem C14_symmetric (cfg : Cfg) (lim : Limits) (ceq : C → C → Option Bool)
    (hF : ∀ x y, cfg.F.eq x y = cfg.F.eq y x) (hc : ∀ x y, ceq x y = ceq y x) (a b : Val C) :
    Val.binary cfg lim ceq .eq a b = Val.binary cfg lim ceq .eq b a := by
  simp only [Val.binary, Val.equal, eqv_symm cfg.F ceq hF hc a b]

theorem same_refl {a : Val C} (h : Plain a) : Same a a := by
  induction h with
  | arr d s m _ ih => exact .arr _ _ _ _ _ _ rfl fun i h _ => ih _ (List.getElem_mem h)
  | pair a b _ _ ih1 ih2 => exact .pair _ _ _ _ ih1 ih2
  | _ => constructor

theorem same_trans {a b c : Val C} (h : Same a b) (h' : Same b c) : Same a c := by
  induction h generalizing c with
  | arr d d' s m s' m' hl _ ih =>
    cases h' with | arr _ d'' _ _ _ _ hl' he =>
    refine .arr _ _ _ _ _ _ (hl.trans hl') fun i h1 h2 => ih i h1 (by omega) (he i (by omega) h2)
  | pair a b a' b' _ _ ih1 ih2 =>
    cases h' with | pair _ _ a'' b'' h3 h4 => exact .pair _ _ _ _ (ih1 h3) (ih2 h4)
  | _ => exact h'

theorem same_plain {a b : Val C} (h : Same a b) (ha : Plain a) : Plain b := by
  induction h with
  | arr d d' s m s' m' hl _ ih =>
    have hd : ∀ v ∈ d, Plain v := by cases ha; assumption
    refine .arr _ _ _ fun v hv => ?_
    obtain ⟨i, hi, rfl⟩ := List.getElem_of_mem hv
    exact ih i (by omega) hi (hd _ (List.getElem_mem _))
  | pair a b a' b' _ _ ih1 ih2 =>
    cases ha with | pair _ _ h3 h4 => exact .pair _ _ (ih1 h3) (ih2 h4)
  | _ => exact ha

/-- Reflexive and transitive on plain values. -/
theorem C14_equivalence (cfg : Cfg) (lim : Limits) (ceq : C → C → Option Bool) (a b c : Val C)
    (ha : Plain a) :
    Val.binary cfg lim ceq .eq a a = .ok (.bool true) ∧
    (Val.binary cfg lim ceq .eq a b = .ok (.bool true) →
      Val.binary cfg lim ceq .eq b c = .ok (.bool true) →
      Val.binary cfg lim ceq .eq a c = .ok (.bool true)) := by
  have key : ∀ x y : Val C, Plain x → (Val.binary cfg lim ceq .eq x y = .ok (.bool true) ↔ Same x y) := by
    intro x y hx
    obtain ⟨r, h1, _, h2⟩ := C14_decides cfg lim ceq x y hx
    rw [h1, ← h2]; simp
  refine ⟨(key a a ha).2 (same_refl ha), fun h1 h2 => ?_⟩
  have h1 := (key a b ha).1 h1
  have h2 := (key b c (same_plain h1 ha)).1 h2
  exact (key a c ha).2 (same_trans h1 h2)

/-- Integer order: the four comparisons are those of the mathematical integers. -/
theorem C14_order (cfg : Cfg) (lim : Limits) (ceq : C → C → Option Bool) (a b : BitVec 64) :
    Val.binary cfg lim ceq .lt (.int a) (.int b) = .ok (.bool (decide (a.toInt < b.toInt))) ∧
    Val.binary cfg lim ceq .lte (.int a) (.int b) = .ok (.bool (decide (a.toInt ≤ b.toInt))) ∧
    Val.binary cfg lim ceq .gt (.int a) (.int b) = .ok (.bool (decide (b.toInt < a.toInt))) ∧
    Val.binary cfg lim ceq .gte (.int a) (.int b) = .ok (.bool (decide (b.toInt ≤ a.toInt))) ∧
    Val.binary cfg lim ceq .eq (.int a) (.int b) = .ok (.bool (decide (a.toInt = b.toInt))) := by
  refine ⟨rfl, rfl, rfl, rfl, ?_⟩
  simp only [Val.binary, Val.equal, Val.eqv]
  congr 2
  by_cases h : a = b
  · simp [h]
  · have : ¬ a.toInt = b.toInt := fun e => h (BitVec.eq_of_toInt_eq e)
    simp [h, this]

/-- Integers never equal floats, although `<=` and `>=` may both hold between them. -/
theorem C14_int_float (cfg : Cfg) (lim : Limits) (ceq : C → C → Option Bool) (i f : BitVec 64) :
    Val.binary cfg lim ceq .eq (.int i) (.float f) = .ok (.bool false) := rfl

example : Plain (.arr [.pair (.int 1) (.str ['x'])] 17 17 : Val C) :=
  .arr _ _ _ (by simp; exact .pair _ _ (.int _) (.str _))
example : Same (.arr [.int 1] 16 16 : Val C) (.arr [.int 1] 16 4096) :=
  .arr _ _ _ _ _ _ rfl (by simp; exact .int _)

/-! ## C48 hashing -/

/-- Plain values without arrays. -/
inductive Flat : Val C → Prop where
  | none : Flat .none
  | bool (b) : Flat (.bool b)
  | int (i) : Flat (.int i)
  | range (l r) : Flat (.range l r)
  | color (r g b a) : Flat (.color r g b a)
  | str (s) : Flat (.str s)
  | special (i n) : Flat (.special i n)
  | loopCtx (i) : Flat (.loopCtx i)
  | pair (a b) : Flat a → Flat b → Flat (.pair a b)

theorem flat_plain {a : Val C} (h : Flat a) : Plain a := by
  induction h with
  | pair a b _ _ h1 h2 => exact .pair _ _ h1 h2
  | _ => constructor

/-- Equal values hash equally, for values without arrays, floats and functions. -/
theorem C48_hash_partial (cfg : Cfg) (lim : Limits) (ceq : C → C → Option Bool) (hc : C → List Tok)
    (a b : Val C) (ha : Flat a) (h : Val.binary cfg lim ceq .eq a b = .ok (.bool true)) :
    a.hashToks hc = b.hashToks hc := by
  have hs : Same a b := by
    obtain ⟨r, h1, _, h2⟩ := C14_decides cfg lim ceq a b (flat_plain ha)
    rw [h1] at h; simp at h; exact h2.1 h
  clear h
  induction hs with
  | arr => cases ha
  | pair a b a' b' _ _ ih1 ih2 =>
    cases ha with | pair _ _ h1 h2 => simp [Val.hashToks, ih1 h1, ih2 h2]
  | _ => rfl

/-- Values of the same kinds throughout. -/
inductive Alike : Val C → Val C → Prop where
  | none : Alike .none .none
  | bool (b b') : Alike (.bool b) (.bool b')
  | int (i i') : Alike (.int i) (.int i')
  | float (x x') : Alike (.float x) (.float x')
  | range (l r l' r') : Alike (.range l r) (.range l' r')
  | color (r g b a r' g' b' a') : Alike (.color r g b a) (.color r' g' b' a')
  | str (s s') : Alike (.str s) (.str s')
  | pair (a b a' b') : Alike a a' → Alike b b' → Alike (.pair a b) (.pair a' b')

/-- Different values of the same kinds feed different data to the hasher: nothing is left out. -/
theorem C48_hash_distinguishes (hc : C → List Tok) {a b : Val C} (h : Alike a b) (he : a.hashToks hc = b.hashToks hc) : a = b := by
  have len : ∀ {a b : Val C}, Alike a b → (a.hashToks hc).length = (b.hashToks hc).length := by
    intro a b h
    induction h with
    | pair a b a' b' _ _ h1 h2 => simp only [Val.hashToks, List.length_append, h1, h2]
    | _ => rfl
  induction h with
  | pair a b a' b' h1 h2 ih1 ih2 =>
    simp only [Val.hashToks] at he
    obtain ⟨e1, e2⟩ := List.append_inj he (len h1)
    rw [ih1 e1, ih2 e2]
  | _ => simp [Val.hashToks] at he <;> simp [he]

/-- Values of different kinds may feed the same data: the kind is not hashed, so the pair of `none` with
itself collides with the range `0:0`. -/
theorem C48_hash_collision (hc : C → List Tok) : (Val.pair .none .none : Val C).hashToks hc = (Val.range 0 0 : Val C).hashToks hc := rfl

example : Alike (.pair (.int 1) (.str ['a']) : Val C) (.pair (.int 2) (.str [])) := .pair _ _ _ _ (.int _ _) (.str _ _)

/-- The unrestricted statement fails: two arrays that compare equal but carry different limits
feed different data to the hasher. -/
theorem C48_hash_violated (cfg : Cfg) (lim : Limits) (ceq : C → C → Option Bool) (hc : C → List Tok) :
    ∃ a b : Val C, Plain a ∧ Plain b ∧ Val.binary cfg lim ceq .eq a b = .ok (.bool true) ∧
      a.hashToks hc ≠ b.hashToks hc := by
  refine ⟨.arr [.int 1] 16 16, .arr [.int 1] 16 4096, .arr _ _ _ (by simp; exact .int _),
    .arr _ _ _ (by simp; exact .int _), rfl, ?_⟩
  simp [Val.hashToks, Val.hashToksL]

/-- The same for floats: any two floats that compare equal with different bits (0.0 and -0.0). -/
theorem C48_hash_violated_float (cfg : Cfg) (lim : Limits) (ceq : C → C → Option Bool)
    (hc : C → List Tok) (x y : BitVec 64) (he : cfg.F.eq x y = true) (hne : x ≠ y) :
    Val.binary cfg lim ceq .eq (.float x) (.float y : Val C) = .ok (.bool true) ∧
      (Val.float x : Val C).hashToks hc ≠ (Val.float y : Val C).hashToks hc := by
  refine ⟨by simp [Val.binary, Val.equal, Val.eqv, he], ?_⟩
  simp [Val.hashToks, hne]

example : Flat (.pair (.int 1) (.str ['a']) : Val C) := .pair _ _ (.int _) (.str _)

end Quilt.Props
