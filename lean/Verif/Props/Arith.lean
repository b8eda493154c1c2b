import Verif.Arith

/-!
# Properties C07-C15: operators on values

Specifications are stated with mathematical integers, kinds of values and lists; the
operator definitions are in `Verif/Arith.lean`.
-/

namespace Quilt.Props
open Quilt Val

variable {C : Type}

/-! ## C07 index normalisation -/

/-- Release build: for every 64-bit index and every length below 2^63, indexing succeeds
exactly for `-n ≤ i < n`, with the documented position, and otherwise reports `IndexError(i)`. -/
theorem C07_fix_index (i : BitVec 64) (n : Nat) (hn : n < 2 ^ 63) :
    fixIndex false i n =
      if -(n : Int) ≤ i.toInt ∧ i.toInt < n then
        .ok (if i.toInt < 0 then (i.toInt + n).toNat else i.toInt.toNat)
      else .err (.index i) := by
  have h1 := BitVec.toInt_eq_toNat_cond i
  have h2 := BitVec.toInt_eq_toNat_cond (-i)
  have h3 : (-i).toNat = (2 ^ 64 - i.toNat) % 2 ^ 64 := by simp
  have h4 := i.isLt
  rw [h3] at h2
  simp only [fixIndex, Bool.false_eq_true, and_false, if_false]
  generalize (-i).toInt = m at *
  generalize i.toInt = k at *
  generalize i.toNat = u at *
  split <;> split <;> (try split) <;> (try split) <;> simp only [Res.bind_ok, Res.bind_err] <;>
    (try split) <;> (try omega) <;>
    (try (congr 1; omega)) <;> (try rfl)
  all_goals (congr 1; split <;> omega)

/-- Build with overflow checks: non-negative indices behave as above, an out-of-range negative
index is an `IndexError` except `i64::MIN`, and a *valid* negative index panics. -/
theorem C07_fix_index_checked (i : BitVec 64) (n : Nat) (hn : n < 2 ^ 63) :
    fixIndex true i n =
      if i.toInt = -2 ^ 63 then .panic
      else if i.toInt < -(n : Int) then .err (.index i)
      else if i.toInt < 0 then .panic
      else if i.toInt < n then .ok i.toInt.toNat else .err (.index i) := by
  have h1 := BitVec.toInt_eq_toNat_cond i
  have h2 := BitVec.toInt_eq_toNat_cond (-i)
  have h3 : (-i).toNat = (2 ^ 64 - i.toNat) % 2 ^ 64 := by simp
  have h4 := i.isLt
  have h5 : i = BitVec.intMin 64 ↔ i.toInt = -2 ^ 63 := by
    rw [← BitVec.toInt_inj, show (BitVec.intMin 64).toInt = -2 ^ 63 by decide]
  rw [h3] at h2
  simp only [fixIndex, h5, if_true, and_true]
  generalize (-i).toInt = m at *
  generalize i.toInt = k at *
  generalize i.toNat = u at *
  by_cases hk : k = -2 ^ 63
  · subst hk; simp
  by_cases hk' : k < 0
  · simp only [hk, hk', if_true, if_false]
    by_cases hm : m > (n : Int)
    · rw [if_pos hm, if_pos (by split at h1 <;> split at h2 <;> omega)]; rfl
    · rw [if_neg hm, if_neg (by split at h1 <;> omega), if_neg (by split at h1 <;> split at h2 <;> omega)]
      rfl
  · have hu : k = u := by split at h1 <;> omega
    simp only [hk, hk', if_false, Res.bind_ok]
    rw [if_neg (c := k < -(n : Int)) (by omega)]
    by_cases hn' : k < n
    · rw [if_pos hn', if_neg (by omega)]; congr 1; omega
    · rw [if_neg hn', if_pos (by omega)]

example : fixIndex false (-1) 3 = .ok 2 := by decide
example : fixIndex true (-1) 3 = .panic := by decide
example : fixIndex false (-4) 3 = .err (.index (-4)) := by decide
example : fixIndex false (BitVec.intMin 64) 3 = .err (.index (BitVec.intMin 64)) := by decide

/-! ## C08 integers -/

/-- `m` is representable as `i64`. -/
def InRange (m : Int) : Prop := -2 ^ 63 ≤ m ∧ m < 2 ^ 63

instance (m : Int) : Decidable (InRange m) := inferInstanceAs (Decidable (_ ∧ _))

/-- The outcome of an integer operation whose mathematical result is `m`: exact when
representable; otherwise a panic in a checked build and the congruent value in release. -/
structure IntResult (chk : Bool) (m : Int) (res : Res (Val C)) : Prop where
  exact : InRange m → ∃ r : BitVec 64, res = .ok (.int r) ∧ r.toInt = m
  checked : ¬ InRange m → chk = true → res = .panic
  wraps : ¬ InRange m → chk = false →
    ∃ r : BitVec 64, res = .ok (.int r) ∧ (2 ^ 64 : Int) ∣ r.toInt - m

theorem wrapI_spec (chk : Bool) (m : Int) : IntResult (C := C) chk m (wrapI chk m) := by
  refine ⟨fun h => ?_, fun h hc => ?_, fun h hc => ?_⟩
  · refine ⟨BitVec.ofInt 64 m, ?_, ?_⟩
    · unfold wrapI; unfold InRange at h; rw [if_pos h]
    · rw [BitVec.toInt_ofInt, Int.bmod_eq_of_le] <;> have := h.1 <;> have := h.2 <;> simp <;> omega
  · unfold wrapI; unfold InRange at h; rw [if_neg h, if_pos hc]
  · refine ⟨BitVec.ofInt 64 m, ?_, ?_⟩
    · unfold wrapI; unfold InRange at h; rw [if_neg h]; simp [hc]
    · rw [BitVec.toInt_ofInt]
      have := Int.dvd_bmod_sub_self (x := m) (m := 2 ^ 64)
      exact_mod_cast this

/-- `+`, `-`, `*` and unary `-` on integers, both builds. -/
theorem C08_int_arith (cfg : Cfg) (lim : Limits) (ceq : C → C → Option Bool) (a b : BitVec 64) :
    IntResult cfg.chk (a.toInt + b.toInt) (Val.binary cfg lim ceq .add (.int a) (.int b)) ∧
    IntResult cfg.chk (a.toInt - b.toInt) (Val.binary cfg lim ceq .sub (.int a) (.int b)) ∧
    IntResult cfg.chk (a.toInt * b.toInt) (Val.binary cfg lim ceq .mul (.int a) (.int b)) ∧
    IntResult (C := C) cfg.chk (-a.toInt) (Val.unary cfg .neg (.int a)) :=
  ⟨wrapI_spec _ _, wrapI_spec _ _, wrapI_spec _ _, wrapI_spec _ _⟩

/-- `**` with an exponent in `0 .. 2^32`. -/
theorem C08_pow (cfg : Cfg) (lim : Limits) (ceq : C → C → Option Bool) (a : BitVec 64) (e : Nat)
    (he : e < 2 ^ 32) :
    IntResult cfg.chk (a.toInt ^ e)
      (Val.binary cfg lim ceq .pow (.int a) (.int (BitVec.ofNat 64 e))) := by
  have : (BitVec.ofNat 64 e).toNat % 2 ^ 32 = e := by
    rw [BitVec.toNat_ofNat]; omega
  simp only [Val.binary, Val.power, this]
  exact wrapI_spec _ _

/-- Outside that range the exponent is reduced modulo 2^32 (`as u32`): `b ** e` and
`b ** (e mod 2^32)` agree, for every (also negative) `e`. -/
theorem C08_pow_reduces (cfg : Cfg) (lim : Limits) (ceq : C → C → Option Bool) (a e : BitVec 64) :
    Val.binary cfg lim ceq .pow (.int a) (.int e) =
      Val.binary cfg lim ceq .pow (.int a) (.int (BitVec.ofInt 64 (e.toInt % 2 ^ 32))) := by
  have h : (BitVec.ofInt 64 (e.toInt % 2 ^ 32)).toNat % 2 ^ 32 = e.toNat % 2 ^ 32 := by
    have h1 := BitVec.toInt_eq_toNat_cond e
    have h2 := e.isLt
    rw [BitVec.toNat_ofInt]
    split at h1 <;> omega
  simp only [Val.binary, Val.power, h]

/-- Consequently a negative exponent does not give a fraction or an error: `2 ** -1` is
`2 ^ (2^32 - 1)` wrapped, i.e. 0 in a release build, and a panic in a checked one. -/
theorem C08_pow_negative (cfg : Cfg) (lim : Limits) (ceq : C → C → Option Bool) :
    Val.binary cfg lim ceq .pow (.int 2) (.int (-1)) =
      if cfg.chk then .panic else .ok (.int 0) := by
  have h1 : (2#64).toInt = 2 := by decide
  have h2 : (-1#64).toNat % 2 ^ 32 = 4294967295 := by decide
  have h3 : ∀ n : Nat, 64 ≤ n → wrapI (C := C) cfg.chk ((2 : Int) ^ n) =
      if cfg.chk then .panic else .ok (.int 0) := by
    intro n hn
    obtain ⟨k, rfl⟩ := Nat.exists_eq_add_of_le hn
    have hk : (1 : Int) ≤ 2 ^ k := by
      have := Nat.one_le_two_pow (n := k); exact_mod_cast this
    have he : (2 : Int) ^ (64 + k) = 2 ^ 64 * 2 ^ k := Int.pow_add ..
    simp only [wrapI, he]
    rw [if_neg (by omega)]
    have : BitVec.ofInt 64 (2 ^ 64 * 2 ^ k) = 0#64 := by
      apply BitVec.eq_of_toNat_eq
      rw [BitVec.toNat_ofInt]
      have : (2 ^ 64 * 2 ^ k : Int) % ((2 ^ 64 : Nat) : Int) = 0 := by
        have : ((2 ^ 64 : Nat) : Int) = 2 ^ 64 := by norm_cast
        rw [this]; exact Int.mul_emod_right _ _
      rw [this]; rfl
    rw [this]; rfl
  simp only [Val.binary, Val.power]
  rw [show BitVec.toInt (2 : BitVec 64) = 2 from h1, show BitVec.toNat (-1 : BitVec 64) % 2 ^ 32 = _ from h2]
  exact h3 4294967295 (by omega)

/-- `&`, `|`, `^`, `~` act on every bit; they never fail on integers. -/
theorem C08_bitwise (cfg : Cfg) (lim : Limits) (ceq : C → C → Option Bool) (a b : BitVec 64) :
    (∃ r : BitVec 64, Val.binary cfg lim ceq .bitAnd (.int a) (.int b) = .ok (.int r) ∧
      ∀ i < 64, r.getLsbD i = (a.getLsbD i && b.getLsbD i)) ∧
    (∃ r : BitVec 64, Val.binary cfg lim ceq .bitOr (.int a) (.int b) = .ok (.int r) ∧
      ∀ i < 64, r.getLsbD i = (a.getLsbD i || b.getLsbD i)) ∧
    (∃ r : BitVec 64, Val.binary cfg lim ceq .bitXor (.int a) (.int b) = .ok (.int r) ∧
      ∀ i < 64, r.getLsbD i = (a.getLsbD i != b.getLsbD i)) ∧
    (∃ r : BitVec 64, Val.unary (C := C) cfg .bitNot (.int a) = .ok (.int r) ∧
      ∀ i < 64, r.getLsbD i = !a.getLsbD i) := by
  refine ⟨⟨_, rfl, ?_⟩, ⟨_, rfl, ?_⟩, ⟨_, rfl, ?_⟩, ⟨_, rfl, ?_⟩⟩ <;> intro i hi <;> simp [hi]

/-- Shifts by 0..63: multiplication by a power of two modulo 2^64 and flooring division. -/
theorem C08_shift (cfg : Cfg) (lim : Limits) (ceq : C → C → Option Bool) (a : BitVec 64) (k : Nat)
    (hk : k < 64) :
    (∃ r : BitVec 64, Val.binary cfg lim ceq .shl (.int a) (.int (BitVec.ofNat 64 k)) = .ok (.int r) ∧
      (2 ^ 64 : Int) ∣ r.toInt - a.toInt * 2 ^ k) ∧
    (∃ r : BitVec 64, Val.binary cfg lim ceq .shr (.int a) (.int (BitVec.ofNat 64 k)) = .ok (.int r) ∧
      r.toInt = a.toInt / 2 ^ k) := by
  have h : (BitVec.ofNat 64 k).toNat = k := by rw [BitVec.toNat_ofNat]; omega
  constructor
  · refine ⟨a <<< k, by simp only [Val.binary, Val.shl, Val.shiftOp, h, if_pos hk], ?_⟩
    rw [BitVec.toInt_shiftLeft]
    have h1 : (2 ^ 64 : Int) ∣ (a.toNat <<< k : Nat).cast - a.toInt * 2 ^ k := by
      have h2 := BitVec.toInt_eq_toNat_cond a
      have h3 : (a.toNat <<< k : Nat) = a.toNat * 2 ^ k := Nat.shiftLeft_eq ..
      rw [h3, h2]
      rw [Int.natCast_mul, Int.natCast_pow]
      split
      · exact ⟨0, by simp⟩
      · rw [Int.sub_mul]
        refine ⟨2 ^ k, ?_⟩
        have e1 : ((2 : Nat) : Int) ^ k = 2 ^ k := rfl
        have e2 : ((2 ^ 64 : Nat) : Int) = 2 ^ 64 := by norm_cast
        rw [e1, e2]; omega
    have h4 := Int.dvd_bmod_sub_self (x := (a.toNat <<< k : Nat).cast) (m := 2 ^ 64)
    have h5 : ((2 ^ 64 : Nat) : Int) = 2 ^ 64 := by norm_cast
    rw [h5] at h4
    omega
  · refine ⟨a.sshiftRight k, by simp only [Val.binary, Val.shr, Val.shiftOp, h, if_pos hk], ?_⟩
    rw [BitVec.toInt_sshiftRight, Int.shiftRight_eq_div_pow]
    norm_cast

/-- Shift amounts outside 0..63 panic in a checked build and are masked to six bits otherwise. -/
theorem C08_shift_masks (cfg : Cfg) (lim : Limits) (ceq : C → C → Option Bool) (a s : BitVec 64)
    (op : Op) (hop : op = .shl ∨ op = .shr) (hs : s.toInt < 0 ∨ 63 < s.toInt) :
    Val.binary cfg lim ceq op (.int a) (.int s) =
      if cfg.chk then .panic
      else Val.binary cfg lim ceq op (.int a) (.int (BitVec.ofInt 64 (s.toInt % 64))) := by
  have h1 := BitVec.toInt_eq_toNat_cond s
  have h2 := s.isLt
  have h3 : ¬ s.toNat < 64 := by split at h1 <;> omega
  have h4 : (BitVec.ofInt 64 (s.toInt % 64)).toNat = s.toNat % 64 := by
    rw [BitVec.toNat_ofInt]; split at h1 <;> omega
  have h5 : s.toNat % 64 < 64 := Nat.mod_lt _ (by omega)
  rcases hop with rfl | rfl <;>
    simp only [Val.binary, Val.shl, Val.shr, Val.shiftOp, h3, h4, h5, if_true, if_false]

example : InRange (3 + 4) := by decide
example : ¬ InRange ((BitVec.intMax 64).toInt + 1) := by decide

/-! ## C09 division -/

/-- Anything divided by integer zero or by a float comparing equal to zero. -/
theorem C09_zero (cfg : Cfg) (lim : Limits) (ceq : C → C → Option Bool) (a b : Val C)
    (hb : b = .int 0 ∨ ∃ f, b = .float f ∧ cfg.F.eq f 0 = true) :
    Val.binary cfg lim ceq .div a b = .err .zeroDivision ∧
    Val.binary cfg lim ceq .mod a b = .err .zeroDivision := by
  have hz : b.isZero cfg.F = true := by
    rcases hb with rfl | ⟨f, rfl, hf⟩
    · rfl
    · exact hf
  simp only [Val.binary, Val.divide, Val.modulo, hz, if_true, and_self]

/-- Integer division with a non-zero divisor: quotient truncated toward zero, the division
identity, a remainder smaller than the divisor and carrying the sign of the dividend; the one
exception `MIN / -1` panics in every build. -/
theorem C09_int (cfg : Cfg) (lim : Limits) (ceq : C → C → Option Bool) (a b : BitVec 64) (hb : b ≠ 0) :
    if a.toInt = -2 ^ 63 ∧ b.toInt = -1 then
      Val.binary cfg lim ceq .div (.int a) (.int b) = .panic ∧
      Val.binary cfg lim ceq .mod (.int a) (.int b) = .panic
    else ∃ q r : BitVec 64,
      Val.binary cfg lim ceq .div (.int a) (.int b) = .ok (.int q) ∧
      Val.binary cfg lim ceq .mod (.int a) (.int b) = .ok (.int r) ∧
      q.toInt = a.toInt.tdiv b.toInt ∧
      q.toInt * b.toInt + r.toInt = a.toInt ∧
      r.toInt.natAbs < b.toInt.natAbs ∧
      (r.toInt = 0 ∨ r.toInt.sign = a.toInt.sign) := by
  have hmin : a = BitVec.intMin 64 ↔ a.toInt = -2 ^ 63 := by
    rw [← BitVec.toInt_inj, show (BitVec.intMin 64).toInt = -2 ^ 63 by decide]
  have hneg : b = -1#64 ↔ b.toInt = -1 := by rw [← BitVec.toInt_inj]; simp
  have hb' : b.toInt ≠ 0 := by
    intro h; apply hb; apply BitVec.eq_of_toInt_eq; simpa using h
  have hb0 : (b == 0#64) = false := by simpa using hb
  split
  · next h =>
    have : Val.divOverflows a b = true := by
      simp only [Val.divOverflows, Bool.and_eq_true, beq_iff_eq]; exact ⟨hmin.2 h.1, hneg.2 h.2⟩
    simp [Val.binary, Val.divide, Val.modulo, Val.isZero, hb0, this]
  · next h =>
    have hno : Val.divOverflows a b = false := by
      cases hd : Val.divOverflows a b
      · rfl
      · simp only [Val.divOverflows, Bool.and_eq_true, beq_iff_eq] at hd
        exact absurd ⟨hmin.1 hd.1, hneg.1 hd.2⟩ h
    have hq : (a.sdiv b).toInt = a.toInt.tdiv b.toInt := by
      apply BitVec.toInt_sdiv_of_ne_or_ne
      by_cases h1 : a = BitVec.intMin 64
      · right; intro h2; exact h ⟨hmin.1 h1, hneg.1 h2⟩
      · left; exact h1
    have hr : (a.srem b).toInt = a.toInt.tmod b.toInt := BitVec.toInt_srem ..
    refine ⟨a.sdiv b, a.srem b, ?_, ?_, hq, ?_, ?_, ?_⟩
    · simp [Val.binary, Val.divide, Val.isZero, hb0, hno]
    · simp [Val.binary, Val.modulo, Val.isZero, hb0, hno]
    · rw [hq, hr]; exact Int.tdiv_mul_add_tmod ..
    · rw [hr, Int.natAbs_tmod]; exact Nat.mod_lt _ (by omega)
    · rw [hr]
      by_cases h0 : a.toInt.tmod b.toInt = 0
      · exact .inl h0
      · right
        rcases Int.lt_trichotomy a.toInt 0 with ha | ha | ha
        · have : a.toInt.tmod b.toInt ≤ 0 := by
            have := Int.tmod_nonneg (a := -a.toInt) b.toInt (by omega)
            rw [Int.neg_tmod] at this; omega
          rw [Int.sign_eq_neg_one_of_neg ha, Int.sign_eq_neg_one_of_neg (by omega)]
        · simp [ha] at h0
        · have := Int.tmod_nonneg (a := a.toInt) b.toInt (by omega)
          rw [Int.sign_eq_one_of_pos ha, Int.sign_eq_one_of_pos (by omega)]

example : ∃ q r : BitVec 64, q.toInt = -3 ∧ r.toInt = -1 ∧ q.toInt * 2 + r.toInt = (-7#64).toInt :=
  ⟨-3, -1, by decide, by decide, by decide⟩

/-! ## C10 operator table -/

/-- Kinds of values. -/
inductive Kind where
  | none | bool | int | float | range | color | str | special | arr | loopCtx | pair | func | clos
  deriving DecidableEq, Repr

def kind : Val C → Kind
  | .none => .none
  | .bool _ => .bool
  | .int _ => .int
  | .float _ => .float
  | .range _ _ => .range
  | .color _ _ _ _ => .color
  | .str _ => .str
  | .special _ _ => .special
  | .arr _ _ _ => .arr
  | .loopCtx _ => .loopCtx
  | .pair _ _ => .pair
  | .func _ => .func
  | .clos _ => .clos

/-- Mixed integer/float operands give a float. -/
def numKind : Kind → Kind → Option Kind
  | .int, .int => some .int
  | .int, .float | .float, .int | .float, .float => some .float
  | _, _ => .none

/-- Printable scalars that can be joined to a string. -/
def joinable : Kind → Bool
  | .none | .bool | .int | .float | .str => true
  | _ => false

/-- The operator table: result kind by operand kinds, `none` = unsupported. -/
def resultKind (op : Op) (a b : Kind) : Option Kind :=
  match op with
  | .add => if a = .str ∧ b = .str then some .str else if a = .color ∧ b = .color then some .color else numKind a b
  | .sub => if a = .color ∧ b = .color then some .color else numKind a b
  | .mul => if a = .str ∧ b = .int then some .str else if a = .color ∧ b = .color then some .color else numKind a b
  | .div => if a = .str ∧ b = .str then some .str else if a = .color ∧ b = .color then some .color else numKind a b
  | .mod | .pow => numKind a b
  | .eq | .neq => some .bool
  | .lt | .gt | .lte | .gte => (numKind a b).map fun _ => .bool
  | .and | .or => if a = .bool ∧ b = .bool then some .bool else .none
  | .join =>
    if (a = .str ∧ joinable b) ∨ (joinable a ∧ b = .str) then some .str
    else if a = .arr ∧ b = .arr then some .arr
    else if a = .color ∧ b = .color then some .color else .none
  | .bitAnd | .bitOr | .bitXor | .shl | .shr => if a = .int ∧ b = .int then some .int else .none
  | .not | .neg | .bitNot => .none

/-- Concrete syntax of the operators. -/
def symbol : Op → String
  | .add => "+" | .sub => "-" | .mul => "*" | .div => "/" | .mod => "%" | .pow => "**"
  | .eq => "==" | .neq => "!=" | .lt => "<" | .gt => ">" | .lte => "<=" | .gte => ">="
  | .and => "&&" | .or => "||" | .not => "!" | .neg => "-" | .join => ".."
  | .bitAnd => "&" | .bitOr => "|" | .bitXor => "^" | .bitNot => "~" | .shl => "<<" | .shr => ">>"

/-- Binary operators (the other three are unary). -/
def isBinary : Op → Bool
  | .not | .neg | .bitNot => false
  | _ => true

/-- A divisor rejected by `/` and `%`. -/
def ZeroDivisor (F : FOps) (b : Val C) : Prop := b = .int 0 ∨ ∃ f, b = .float f ∧ F.eq f 0 = true

/-- The errors a supported operand combination can produce. -/
inductive Allowed (F : FOps) (op : Op) (a b : Val C) (k : Kind) : Err → Prop where
  | zero : op = .div ∨ op = .mod → ZeroDivisor F b → Allowed F op a b k .zeroDivision
  | str : op = .add ∨ op = .mul ∨ op = .join → k = .str →
      Allowed F op a b k (.overflow .stringTooLarge)
  | arr : op = .join → k = .arr → Allowed F op a b k (.overflow .arrayTooLarge)
  | negRepeat (i : BitVec 64) : op = .mul → k = .str → b = .int i → i.toInt < 0 →
      Allowed F op a b k (.type (.unsupportedBinary "*" "str" "-int"))

/-- The outcome prescribed by the table. For unsupported operands it is the `TypeError` naming
the operator and both operand types, except that division by zero is reported first. -/
def Conforms (F : FOps) (op : Op) (a b : Val C) (res : Res (Val C)) : Prop :=
  match resultKind op (kind a) (kind b) with
  | .none =>
    ((op = .div ∨ op = .mod) ∧ ZeroDivisor F b ∧ res = .err .zeroDivision) ∨
      res = .err (.type (.unsupportedBinary (symbol op) a.ntype b.ntype))
  | some k => match res with
    | .ok v => kind v = k
    | .err e => Allowed F op a b k e
    | .panic => True

theorem isZero_iff {F : FOps} {b : Val C} : b.isZero F = true ↔ ZeroDivisor F b := by
  cases b <;> simp [Val.isZero, ZeroDivisor]

theorem conforms_ok {F : FOps} {op : Op} {a b v : Val C}
    (h : resultKind op (kind a) (kind b) = some (kind v)) : Conforms F op a b (.ok v) := by
  simp [Conforms, h]

theorem conforms_wrapI {F : FOps} {op : Op} {a b : Val C} {chk : Bool} {m : Int}
    (h : resultKind op (kind a) (kind b) = some .int) : Conforms F op a b (wrapI chk m) := by
  unfold wrapI; split
  · exact conforms_ok h
  · split
    · simp [Conforms, h]
    · exact conforms_ok h

theorem conforms_panic {F : FOps} {op : Op} {a b : Val C} {k : Kind}
    (h : resultKind op (kind a) (kind b) = some k) : Conforms F op a b .panic := by
  simp [Conforms, h]

theorem conforms_err {F : FOps} {op : Op} {a b : Val C} {k : Kind} {e : Err}
    (h : resultKind op (kind a) (kind b) = some k) (ha : Allowed F op a b k e) :
    Conforms F op a b (.err e) := by
  simp [Conforms, h, ha]

theorem conforms_strCat {F : FOps} {op : Op} {a b : Val C} {m : Nat} {x y : List Char}
    (h : resultKind op (kind a) (kind b) = some .str) (ho : op = .add ∨ op = .mul ∨ op = .join) :
    Conforms F op a b (strCat m x y) := by
  unfold strCat; split
  · exact conforms_err h (.str ho rfl)
  · exact conforms_ok h

theorem conforms_chan4 {F : FOps} {op : Op} {a b : Val C} {p q r s : Res (BitVec 8)}
    (h : resultKind op (kind a) (kind b) = some .color)
    (hp : ∀ e, p ≠ .err e) (hq : ∀ e, q ≠ .err e) (hr : ∀ e, r ≠ .err e) (hs : ∀ e, s ≠ .err e) :
    Conforms F op a b (chan4 p q r s) := by
  cases p <;> cases q <;> cases r <;> cases s <;>
    first
      | exact conforms_ok h
      | exact conforms_panic h
      | exact absurd rfl (hp _)
      | exact absurd rfl (hq _)
      | exact absurd rfl (hr _)
      | exact absurd rfl (hs _)

theorem chanDiv_ne_err (a b : BitVec 8) (e : Err) : chanDiv a b ≠ .err e := by
  unfold chanDiv; split <;> simp

theorem chanAvg_ne_err (chk : Bool) (a b : BitVec 8) (e : Err) : chanAvg chk a b ≠ .err e := by
  unfold chanAvg; split <;> (try split) <;> simp

theorem extend_outcome {α : Type} (sz : α → Nat) (xs : List α) (v : Vecc α) :
    (Vecc.extend sz v xs).1 = .ok () ∨ (Vecc.extend sz v xs).1 = .err (.overflow .arrayTooLarge) := by
  induction xs generalizing v with
  | nil => exact .inl rfl
  | cons x xs ih =>
    simp only [Vecc.extend]; split
    · exact .inr rfl
    · exact ih _

/-- The operator table holds for all operators and all values. -/
theorem C10_table (cfg : Cfg) (lim : Limits) (ceq : C → C → Option Bool) (op : Op)
    (hop : isBinary op) (a b : Val C) :
    Conforms cfg.F op a b (Val.binary cfg lim ceq op a b) := by
  cases op <;> simp only [isBinary, Bool.false_eq_true] at hop <;> simp only [Val.binary]
  case eq =>
    simp only [Val.equal]; split
    · exact conforms_ok rfl
    · exact conforms_panic rfl
  case neq =>
    simp only [Val.notEqual]; split
    · exact conforms_ok rfl
    · exact conforms_panic rfl
  case div =>
    simp only [Val.divide]
    by_cases hz : b.isZero cfg.F = true
    · rw [if_pos hz]
      have hz' := isZero_iff.1 hz
      cases hk : resultKind .div (kind a) (kind b)
      · simp [Conforms, hk, hz']
      · exact conforms_err hk (.zero (.inl rfl) hz')
    · rw [if_neg hz]
      cases a <;> cases b <;>
        first
          | exact Or.inr rfl
          | exact conforms_ok rfl
          | exact conforms_chan4 rfl (chanDiv_ne_err _ _) (chanDiv_ne_err _ _) (chanDiv_ne_err _ _)
              (chanDiv_ne_err _ _)
          | skip
      simp only; split
      · exact conforms_panic rfl
      · exact conforms_ok rfl
  case mod =>
    simp only [Val.modulo]
    by_cases hz : b.isZero cfg.F = true
    · rw [if_pos hz]
      have hz' := isZero_iff.1 hz
      cases hk : resultKind .mod (kind a) (kind b)
      · simp [Conforms, hk, hz']
      · exact conforms_err hk (.zero (.inr rfl) hz')
    · rw [if_neg hz]
      cases a <;> cases b <;>
        first
          | exact Or.inr rfl
          | exact conforms_ok rfl
          | skip
      simp only; split
      · exact conforms_panic rfl
      · exact conforms_ok rfl
  case mul =>
    cases a <;> cases b <;>
      first
        | exact Or.inr rfl
        | exact conforms_wrapI rfl
        | exact conforms_ok rfl
        | skip
    simp only [Val.multiply, Val.strMul]
    split
    · exact conforms_err rfl (.negRepeat _ rfl rfl rfl (by assumption))
    · split
      · split
        · exact conforms_err rfl (.str (.inr (.inl rfl)) rfl)
        · exact conforms_ok rfl
      · split
        · exact conforms_panic rfl
        · split
          · exact conforms_err rfl (.str (.inr (.inl rfl)) rfl)
          · exact conforms_panic rfl
  case join =>
    cases a <;> cases b <;>
      first
        | exact Or.inr rfl
        | exact conforms_strCat rfl (.inr (.inr rfl))
        | exact conforms_chan4 rfl (chanAvg_ne_err _ _ _) (chanAvg_ne_err _ _ _)
            (chanAvg_ne_err _ _ _) (chanAvg_ne_err _ _ _)
        | skip
    rename_i l ls lm r rs rm
    simp only [Val.join, Val.arrJoin]
    split
    · exact conforms_err rfl (.arr rfl rfl)
    · have hx := extend_outcome getSize r (⟨l, ls, lm⟩ : Vecc (Val C))
      split
      · exact conforms_ok rfl
      · next e v heq =>
        rw [heq] at hx
        rcases hx with hx | hx <;> simp at hx
        subst hx; exact conforms_err rfl (.arr rfl rfl)
      · exact conforms_panic rfl
  case shl =>
    cases a <;> cases b <;> first | exact Or.inr rfl | skip
    simp only [Val.shl, Val.shiftOp]; split
    · exact conforms_ok rfl
    · split
      · exact conforms_panic rfl
      · exact conforms_ok rfl
  case shr =>
    cases a <;> cases b <;> first | exact Or.inr rfl | skip
    simp only [Val.shr, Val.shiftOp]; split
    · exact conforms_ok rfl
    · split
      · exact conforms_panic rfl
      · exact conforms_ok rfl
  all_goals
    cases a <;> cases b <;>
      first
        | exact Or.inr rfl
        | exact conforms_wrapI rfl
        | exact conforms_ok rfl
        | exact conforms_strCat rfl (.inl rfl)

/-- Unary operators. -/
theorem C10_unary (cfg : Cfg) (v : Val C) :
    Val.unary cfg .not v = (match v with
      | .bool b => .ok (.bool (!b))
      | v => .err (.type (.unsupportedUnary "!" v.ntype))) ∧
    (match kind v with
      | .int => cfg.chk = false → ∃ r, Val.unary cfg .neg v = .ok (.int r)
      | .float => ∃ r, Val.unary cfg .neg v = .ok (.float r)
      | _ => Val.unary cfg .neg v = .err (.type (.unsupportedUnary "-" v.ntype))) ∧
    (match kind v with
      | .int => ∃ r, Val.unary cfg .bitNot v = .ok (.int r)
      | _ => Val.unary cfg .bitNot v = .err (.type (.unsupportedUnary "~" v.ntype))) := by
  refine ⟨by cases v <;> rfl, ?_, ?_⟩
  · cases v <;> first | rfl | exact ⟨_, rfl⟩ | skip
    intro hc
    simp only [Val.unary, Val.negate, wrapI, hc]
    split <;> exact ⟨_, rfl⟩
  · cases v <;> first | rfl | exact ⟨_, rfl⟩

/-- `ZeroDivisionError` is raised by no other divisor, and by no other operator. -/
theorem C09_zero_only (cfg : Cfg) (lim : Limits) (ceq : C → C → Option Bool) (op : Op)
    (hop : isBinary op) (a b : Val C) (h : Val.binary cfg lim ceq op a b = .err .zeroDivision) :
    (op = .div ∨ op = .mod) ∧ (b = .int 0 ∨ ∃ f, b = .float f ∧ cfg.F.eq f 0 = true) := by
  have hc := C10_table cfg lim ceq op hop a b
  rw [h] at hc
  unfold Conforms at hc
  split at hc
  · rcases hc with ⟨h1, h2, _⟩ | hc
    · exact ⟨h1, h2⟩
    · simp at hc
  · simp only at hc; cases hc with
    | zero h1 h2 => exact ⟨h1, h2⟩

/-- Numbers as floats: integers are converted. -/
def asFloat (F : FOps) : Val C → Option (BitVec 64)
  | .int i => some (F.ofInt i)
  | .float f => some f
  | _ => none

/-- The float operation of an arithmetic operator. -/
def floatOp (F : FOps) : Op → Option (BitVec 64 → BitVec 64 → BitVec 64)
  | .add => some F.add
  | .sub => some F.sub
  | .mul => some F.mul
  | .div => some F.div
  | .mod => some F.rem
  | .pow => some F.pow
  | _ => none

/-- The float comparison of a comparison operator. -/
def floatCmp (F : FOps) : Op → Option (BitVec 64 → BitVec 64 → Bool)
  | .lt => some fun x y => F.lt x y
  | .lte => some fun x y => F.le x y
  | .gt => some fun x y => F.lt y x
  | .gte => some fun x y => F.le y x
  | _ => none

/-- Arithmetic where at least one operand is a float is the float operation on both operands, converted and in
order; division and remainder by a float or integer zero are errors. -/
theorem C10_float_arith (cfg : Cfg) (lim : Limits) (ceq : C → C → Option Bool) {op : Op} {f : BitVec 64 → BitVec 64 → BitVec 64} (hop : floatOp cfg.F op = some f)
    {a b : Val C} {x y : BitVec 64} (ha : asFloat cfg.F a = some x) (hb : asFloat cfg.F b = some y) (hf : kind a = .float ∨ kind b = .float)
    (hz : (op = .div ∨ op = .mod) → b ≠ .int 0 ∧ ∀ z, b = .float z → cfg.F.eq z 0 = false) :
    Val.binary cfg lim ceq op a b = .ok (.float (f x y)) := by
  cases a <;> simp only [asFloat, reduceCtorEq, Option.some.injEq] at ha <;> subst ha <;>
  cases b <;> simp only [asFloat, reduceCtorEq, Option.some.injEq] at hb <;> subst hb <;>
  cases op <;> simp only [floatOp, reduceCtorEq, Option.some.injEq] at hop <;> subst hop <;>
    first
      | (exfalso; rcases hf with hf | hf <;> cases hf; done)
      | rfl
      | (have hz' := hz (by simp)
         simp_all [Val.binary, Val.divide, Val.modulo, Val.isZero])

/-- Comparisons of numbers, at least one of them a float, compare the converted operands, in order. -/
theorem C10_float_compare (cfg : Cfg) (lim : Limits) (ceq : C → C → Option Bool) {op : Op} {f : BitVec 64 → BitVec 64 → Bool} (hop : floatCmp cfg.F op = some f)
    {a b : Val C} {x y : BitVec 64} (ha : asFloat cfg.F a = some x) (hb : asFloat cfg.F b = some y) (hf : kind a = .float ∨ kind b = .float) :
    Val.binary cfg lim ceq op a b = .ok (.bool (f x y)) := by
  cases a <;> simp only [asFloat, reduceCtorEq, Option.some.injEq] at ha <;> subst ha <;>
  cases b <;> simp only [asFloat, reduceCtorEq, Option.some.injEq] at hb <;> subst hb <;>
  cases op <;> simp only [floatCmp, reduceCtorEq, Option.some.injEq] at hop <;> subst hop <;>
    first
      | (exfalso; rcases hf with hf | hf <;> cases hf; done)
      | rfl

/-- `-` on floats, `&&` and `||` on booleans. -/
theorem C10_logic (cfg : Cfg) (lim : Limits) (ceq : C → C → Option Bool) (p q : Bool) (x : BitVec 64) :
    Val.unary (C := C) cfg .neg (.float x) = .ok (.float (cfg.F.neg x)) ∧
    Val.binary cfg lim ceq .and (.bool p) (.bool q) = .ok (.bool (p && q)) ∧
    Val.binary cfg lim ceq .or (.bool p) (.bool q) = .ok (.bool (p || q)) := ⟨rfl, rfl, rfl⟩

/-- `s / t` on strings without a `t` in `s` is `s`; otherwise the first occurrence is dropped and the rest is treated
the same way. (Nothing is dropped for the empty `t`.) -/
theorem C10_string_division (cfg : Cfg) (lim : Limits) (ceq : C → C → Option Bool) (s t : List Char) :
    ∃ r, Val.binary cfg lim ceq .div (.str s) (.str t) = .ok (.str r) ∧
      ((t = [] ∨ ¬ t <:+: s) → r = s) ∧
      ∀ pre post, t ≠ [] → s = pre ++ t ++ post → (∀ pre' post', s = pre' ++ t ++ post' → pre.length ≤ pre'.length) →
        ∃ r', Val.binary cfg lim ceq .div (.str post) (.str t) = .ok (.str r') ∧ r = pre ++ r' := by
  refine ⟨removeAll t 0 s, rfl, ?_, ?_⟩
  · intro h
    have key : ∀ s : List Char, (t = [] ∨ ¬ t <:+: s) → removeAll t 0 s = s := by
      intro s
      induction s with
      | nil => intro _; rfl
      | cons c cs ih =>
        intro h
        have h1 : ¬ (t ≠ [] ∧ t.isPrefixOf (c :: cs) = true) := by
          rintro ⟨h1, h2⟩
          rcases h with h | h
          · exact h1 h
          · exact h (List.IsPrefix.isInfix (List.isPrefixOf_iff_prefix.1 h2))
        rw [removeAll, if_neg h1, ih]
        rcases h with h | h
        · exact .inl h
        · exact .inr fun hi => h (hi.trans (List.suffix_cons c cs).isInfix)
    exact key s h
  · intro pre post ht hs hmin
    refine ⟨_, rfl, ?_⟩
    subst hs
    have hskip : ∀ (k : Nat) (xs ys : List Char), xs.length = k → removeAll t k (xs ++ ys) = removeAll t 0 ys := by
      intro k
      induction k with
      | zero => intro xs ys h; rw [List.length_eq_zero_iff.1 h]; rfl
      | succ k ih =>
        intro xs ys h
        cases xs with
        | nil => cases h
        | cons x xs => rw [List.cons_append, removeAll, ih xs ys (by simpa using h)]
    induction pre with
    | nil =>
      cases ht' : t with
      | nil => exact absurd ht' ht
      | cons c cs =>
        rw [← ht']
        have h1 : t.isPrefixOf (c :: (cs ++ post)) = true := List.isPrefixOf_iff_prefix.2 ⟨post, by rw [ht']; rfl⟩
        have h2 : [] ++ t ++ post = c :: (cs ++ post) := by rw [ht']; rfl
        rw [h2, removeAll, if_pos ⟨ht, h1⟩, hskip _ _ _ (by rw [ht']; simp), List.nil_append]
    | cons c pre ih =>
      have h1 : ¬ (t ≠ [] ∧ t.isPrefixOf (c :: (pre ++ t ++ post)) = true) := by
        rintro ⟨_, h⟩
        obtain ⟨r, hr⟩ := List.isPrefixOf_iff_prefix.1 h
        have := hmin [] r (by simpa using hr.symm)
        simp at this
      have h2 : c :: pre ++ t ++ post = c :: (pre ++ t ++ post) := by simp
      rw [h2, removeAll, if_neg h1, ih, List.cons_append]
      intro pre' post' h'
      have := hmin (c :: pre') post' (by rw [h2, h']; simp)
      simpa using this

example (cfg : Cfg) (x : BitVec 64) : asFloat cfg.F (.int 3 : Val Unit) = some (cfg.F.ofInt 3) ∧ asFloat cfg.F (.float x : Val Unit) = some x ∧ kind (.float x : Val Unit) = .float := ⟨rfl, rfl, rfl⟩

example : removeAll "ab".toList 0 "aababbab".toList = "ab".toList := by decide

end Quilt.Props
