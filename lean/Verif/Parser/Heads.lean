import Verif.Parser.LitRead

/-!
# First characters of expressions, and the parser of literals on expressions
-/

namespace Quilt.Cs

open Peg

/-- First characters of expressions. -/
def exprStart (c : Char) : Bool :=
  isIdStart c || isDig c || c == '(' || c == '[' || c == '{' || c == '@' || c == '!' || c == '-' || c == '~' || c == '#' || c == '"'

theorem isIdStart_iff {c : Char} (h : isIdStart c = true) : (97 ≤ c.toNat ∧ c.toNat ≤ 122) ∨ (65 ≤ c.toNat ∧ c.toNat ≤ 90) ∨ c.toNat = 95 := by
  simp only [isIdStart, isAlpha, Bool.or_eq_true, Bool.and_eq_true, decide_eq_true_eq, beq_iff_eq] at h
  simp only [Char.le_def, UInt32.le_iff_toNat_le] at h
  have e1 : ('a' : Char).val.toNat = 97 := rfl
  have e2 : ('z' : Char).val.toNat = 122 := rfl
  have e3 : ('A' : Char).val.toNat = 65 := rfl
  have e4 : ('Z' : Char).val.toNat = 90 := rfl
  have e5 : c.val.toNat = c.toNat := rfl
  rcases h with h | h
  · omega
  · subst h; exact .inr (.inr rfl)

theorem isDig_iff {c : Char} (h : isDig c = true) : 48 ≤ c.toNat ∧ c.toNat ≤ 57 := by
  simp only [isDig, Bool.and_eq_true, decide_eq_true_eq] at h
  simp only [Char.le_def, UInt32.le_iff_toNat_le] at h
  exact h

theorem char_ne {c d : Char} (h : c.toNat ≠ d.toNat) : c ≠ d := fun e => h (by rw [e])

/-- Properties of first characters of expressions, checked on the few kinds. -/
theorem exprStart_elim {P : Char → Prop} {c : Char} (h : exprStart c = true) (h1 : isIdStart c = true → P c) (h2 : isDig c = true → P c)
    (h3 : P '(' ∧ P '[' ∧ P '{' ∧ P '@' ∧ P '!' ∧ P '-' ∧ P '~' ∧ P '#' ∧ P '"') : P c := by
  simp only [exprStart, Bool.or_eq_true, beq_iff_eq] at h
  obtain ⟨a1, a2, a3, a4, a5, a6, a7, a8, a9⟩ := h3
  rcases h with (((((((((h | h) | rfl) | rfl) | rfl) | rfl) | rfl) | rfl) | rfl) | rfl) | rfl
  · exact h1 h
  · exact h2 h
  all_goals assumption

theorem exprStart_ne {c d : Char} (h : exprStart c = true) (hd : exprStart d = false) : c ≠ d := by
  rintro rfl; rw [h] at hd; cases hd

theorem exprStart_skip {c : Char} (h : exprStart c = true) : isSkip c = false := by
  refine exprStart_elim (P := fun c => isSkip c = false) h ?_ ?_ (by decide)
  · intro h
    have := isIdStart_iff h
    cases hs : isSkip c with
    | false => rfl
    | true =>
      simp only [isSkip, isSimpleWhitespace, Bool.or_eq_true, beq_iff_eq] at hs
      rcases hs with (((((((((((hs | hs) | hs) | hs) | hs) | hs) | hs)) | hs) | hs) | hs) | hs) | hs <;> subst hs <;> revert this <;> decide
  · intro h; exact isNum_skip (by simp [isNum, h])

theorem exprStart_dig {c : Char} (h : isDig c = true) : exprStart c = true := by simp [exprStart, h]
theorem exprStart_id {c : Char} (h : isIdStart c = true) : exprStart c = true := by simp [exprStart, h]

theorem litHead_start {c : Char} (h : isLitHead c = true ∨ c = 'n' ∨ c = 't' ∨ c = 'f') : exprStart c = true := by
  rcases h with h | rfl | rfl | rfl
  · simp only [isLitHead, isNum, Bool.or_eq_true, beq_iff_eq] at h
    rcases h with ((((h | rfl) | rfl) | rfl) | rfl) | rfl
    · exact exprStart_dig h
    all_goals decide
  all_goals decide

/-- The text of an expression begins with one of these characters. -/
theorem Cst.head : ∀ {c : Cst}, c.ok = true → ∃ d t, c.text = d :: t ∧ exprStart d = true
  | .lit l, h => by
    simp only [Cst.ok, Bool.and_eq_true] at h
    obtain ⟨d, t, h1, h2⟩ := LitC.head h.1
    exact ⟨d, t, h1, litHead_start h2⟩
  | .ident x, h => by
    obtain ⟨c, cs, h1, h2, _⟩ := nameOk_iff h
    exact ⟨c, cs, h1, exprStart_id h2⟩
  | .assign x g op g' e, h => by
    simp only [Cst.ok, Bool.and_eq_true] at h
    obtain ⟨c, cs, h1, h2, _⟩ := nameOk_iff h.1.1.1.1
    exact ⟨c, cs ++ g.text ++ aopText op ++ g'.text ++ e.text, by simp [Cst.text, h1], exprStart_id h2⟩
  | .call f g g0 es, h => by
    simp only [Cst.ok, Bool.and_eq_true] at h
    obtain ⟨d, t, h1, h2⟩ := Cst.head h.1.1.1.1
    exact ⟨d, t ++ (g.text ++ '(' :: (g0.text ++ commas (Cst.texts es) ++ [')'])), by simp [Cst.text, h1], h2⟩
  | .index e g g1 i g2, h => by
    simp only [Cst.ok, Bool.and_eq_true] at h
    obtain ⟨d, t, h1, h2⟩ := Cst.head h.1.1.1.1.1
    exact ⟨d, t ++ (g.text ++ '[' :: (g1.text ++ i.text ++ g2.text ++ [']'])), by simp [Cst.text, h1], h2⟩
  | .bin op a g g' b, h => by
    simp only [Cst.ok, Bool.and_eq_true] at h
    obtain ⟨d, t, h1, h2⟩ := Cst.head h.1.1.1.1.1.1.1
    exact ⟨d, t ++ (g.text ++ op.text ++ g'.text ++ b.text), by simp [Cst.text, h1], h2⟩
  | .un op g e, h => ⟨op.char, _, by rw [Cst.text], by cases op <;> decide⟩
  | .paren .., _ => ⟨_, _, by rw [Cst.text], by decide⟩
  | .array .., _ => ⟨_, _, by rw [Cst.text], by decide⟩
  | .pair .., _ => ⟨_, _, by rw [Cst.text], by decide⟩
  | .builtin .., _ => ⟨_, _, by rw [Cst.text], by decide⟩
  | .decl .., _ => ⟨_, _, by rw [Cst.text]; rfl, by decide⟩
  | .declMany .., _ => ⟨_, _, by rw [Cst.text]; rfl, by decide⟩
  | .extern .., _ => ⟨_, _, by rw [Cst.text]; rfl, by decide⟩
  | .func .., _ => ⟨_, _, by rw [Cst.text]; rfl, by decide⟩
  | .lambda .., _ => ⟨_, _, by rw [Cst.text]; rfl, by decide⟩
  | .while .., _ => ⟨_, _, by rw [Cst.text]; rfl, by decide⟩
  | .forIn .., _ => ⟨_, _, by rw [Cst.text]; rfl, by decide⟩
  | .forMany .., _ => ⟨_, _, by rw [Cst.text]; rfl, by decide⟩
  | .ctx .., _ => ⟨'w', _, rfl, by decide⟩
  | .include .., _ => ⟨_, _, by rw [Cst.text]; rfl, by decide⟩
  | .block .., _ => ⟨_, _, by rw [Cst.text], by decide⟩
  | .ifThen .., _ => ⟨_, _, by rw [Cst.text]; rfl, by decide⟩
  | .ifElse .., _ => ⟨_, _, by rw [Cst.text]; rfl, by decide⟩
  | .elseIf .., _ => ⟨_, _, by rw [Cst.text]; rfl, by decide⟩
  | .switch .., _ => ⟨_, _, by rw [Cst.text]; rfl, by decide⟩
  | .ret .., _ => ⟨_, _, by rw [Cst.text]; rfl, by decide⟩
termination_by structural c => c

theorem Cst.noSkip {c : Cst} (h : c.ok = true) (s : List Char) : NoSkip (c.text ++ s) := by
  obtain ⟨d, t, h1, h2⟩ := Cst.head h
  rw [h1]
  exact noSkip_cons (exprStart_skip h2)

/-! ## Operands -/

/-- What stands after an operator: a gap or an expression. -/
def Operand (u : List Char) : Prop := ∃ d t, u = d :: t ∧ (isGapChar d = true ∨ exprStart d = true)

theorem operand_of {c : Cst} (h : c.ok = true) (g : Gap) (s : List Char) : Operand (g.text ++ (c.text ++ s)) := by
  cases g with
  | nil =>
    obtain ⟨d, t, h1, h2⟩ := Cst.head h
    exact ⟨d, t ++ s, by rw [h1]; rfl, .inr h2⟩
  | cons i g =>
    obtain ⟨d, t, h1, h2⟩ := i.head
    exact ⟨d, t ++ (Gap.text g ++ (c.text ++ s)), by rw [Gap.text_cons, h1]; simp, .inl h2⟩

theorem Operand.notHead {u : List Char} (h : Operand u) {f : Char → Bool} (h1 : ∀ c, isGapChar c = true → f c = false) (h2 : ∀ c, exprStart c = true → f c = false) : NotHead f u := by
  obtain ⟨d, t, rfl, h | h⟩ := h
  · exact h1 d h
  · exact h2 d h

theorem Operand.ne {u : List Char} (h : Operand u) {c : Char} (h1 : isGapChar c = false) (h2 : exprStart c = false) : NotHead (· == c) u :=
  h.notHead (fun d hd => by cases e : d == c with
    | false => rfl
    | true => rw [eq_of_beq e] at hd; rw [hd] at h1; cases h1)
    (fun d hd => by cases e : d == c with
    | false => rfl
    | true => rw [eq_of_beq e] at hd; rw [hd] at h2; cases h2)

/-- An operator and its operand, in a text. -/
structure OpText (op : Infix) (u : List Char) : Prop where
  operand : Operand u
  div : op = .div → NotHead (· == '/') u

theorem Infix.text_cons (op : Infix) : ∃ c t, op.text = c :: t := by cases op <;> exact ⟨_, _, rfl⟩

theorem OpText.noSkip {op : Infix} {u : List Char} (h : OpText op u) : NoSkip (op.text ++ u) := by
  cases op
  case div =>
    have h1 := h.div rfl
    obtain ⟨d, t, rfl, _⟩ := h.operand
    have hd : d ≠ '/' := by simpa [NotHead] using h1
    show Fails skipPart ('/' :: d :: t)
    have hc : Fails comment ('/' :: d :: t) := Fails.bind (fails_str2 (c := '/') (d := '/') (by decide) (by intro u hu; simp at hu; exact hd hu.1))
    refine Fails.or (fails_whitespace (by decide) (by decide)) (Fails.or ?_ hc)
    exact Fails.take (Takes.opt_none hc) (fails_term (by decide) (by decide) (by decide))
  all_goals exact noSkip_cons (by decide)

theorem OpText.notHead {op : Infix} {u : List Char} {f : Char → Bool} (h : ∀ c ∈ [':', '&', '|', '=', '!', '>', '<', '^', '~', '.', '+', '-', '*', '/', '%'], f c = false) :
    NotHead f (op.text ++ u) := by
  cases op <;> exact h _ (by decide)

theorem isIdChar_ops : ∀ c ∈ [':', '&', '|', '=', '!', '>', '<', '^', '~', '.', '+', '-', '*', '/', '%'], isIdChar c = false := by decide

/-- What follows is not taken for a part of the literal before it. -/
theorem litSafe_op {op : Infix} {u : List Char} (h : OpText op u) {b : Bool} {g : Gap} (hg : g.ok = true) (hr : op = .range → b = true → ∀ v : BitVec 32, Fails (do
    skip; let e ← int 32; pure (Literal.range v e)) u) : LitSafe b (g.text ++ (op.text ++ u)) where
  word := Gap.notHead (gap_not (by decide)) (OpText.notHead isIdChar_ops)
  dot := by
    by_cases hj : op = .join
    · subst hj
      rintro t ht
      cases g with
      | nil => exact ⟨u, by simpa [Gap.text_nil, Infix.text] using ht.symm⟩
      | cons i g =>
        obtain ⟨c, cs, h1, h2⟩ := i.head
        rw [Gap.text_cons, h1] at ht
        simp only [List.cons_append, List.cons.injEq] at ht
        rw [ht.1] at h2
        cases h2
    · refine dotOk_of (Gap.notHead (gap_not (by decide)) ?_)
      cases op <;> first | exact absurd rfl hj | exact (show (_ == '.') = false by decide)
  colon hb v := by
    refine Fails.take (takes_skip hg h.noSkip) ?_
    by_cases hj : op = .range
    · subst hj
      exact Fails.take (Takes.char (c := ':') (by decide) u) (hr rfl hb v)
    · refine Fails.bind ?_
      cases op <;> first | exact absurd rfl hj | exact Fails.str_cons (c := ':') (cs := []) (by decide) (by decide)

/-- A minus sign alone is not an expression. -/
theorem Cst.text_ne_minus {c : Cst} (h : c.ok = true) : c.text ≠ ['-'] := by
  intro h1
  cases c with
  | lit l =>
    simp only [Cst.ok, Bool.and_eq_true] at h
    cases l with
    | bool b => cases b <;> cases h1
    | float neg ds fs =>
      cases neg with
      | true => cases h.2
      | false =>
        have := congrArg List.length h1
        simp [LitC.text, Cst.text] at this
        have h2 := h.1
        simp only [LitC.ok, Bool.and_eq_true, Bool.not_eq_true'] at h2
        cases ds with
        | nil => cases h2.1.1.1
        | cons d ds => simp only [List.length_cons] at this; omega
    | int n =>
      cases n with
      | neg ds => cases h.2
      | pos n =>
        obtain ⟨h2, _⟩ := h
        cases n with
        | dec ds =>
          have h1 : ds = ['-'] := h1
          subst h1
          revert h2; decide
        | bin ds => cases h1
        | hex ds => cases h1
        | oct ds => cases h1
    | range a g g' b =>
      obtain ⟨c, t, ha, _⟩ := snum_head (SNum.dig_of_ok (w := 32) (n := a) (by simp only [LitC.ok, Bool.and_eq_true] at h; exact h.1.1.1.1))
      have := congrArg List.length h1
      simp [LitC.text, Cst.text, ha] at this
    | _ => cases h1
  | un op g e =>
    simp only [Cst.ok, Bool.and_eq_true] at h
    obtain ⟨d, t, he, _⟩ := Cst.head h.1.1.2
    have := congrArg List.length h1
    simp [Cst.text, he] at this
  | ident x =>
    obtain ⟨c, cs, hx, hc, _⟩ := nameOk_iff h
    rw [Cst.text, hx] at h1
    cases h1
    cases hc
  | assign x g op g' e =>
    simp only [Cst.ok, Bool.and_eq_true] at h
    obtain ⟨c, cs, hx, hc, _⟩ := nameOk_iff h.1.1.1.1
    rw [Cst.text, hx] at h1
    have : c = '-' := by simp only [List.cons_append, List.cons.injEq] at h1; exact h1.1
    rw [this] at hc
    cases hc
  | call f g g0 es =>
    have := congrArg List.length h1
    simp [Cst.text] at this
    omega
  | index f g g0 i g' =>
    have := congrArg List.length h1
    simp [Cst.text] at this
    omega
  | bin op a g g' b =>
    simp only [Cst.ok, Bool.and_eq_true] at h
    obtain ⟨d, t, ha, _⟩ := Cst.head h.1.1.1.1.1.1.1
    obtain ⟨d', t', hb, _⟩ := Cst.head h.1.1.1.2
    have := congrArg List.length h1
    simp [Cst.text, ha, hb] at this
  | _ => cases h1

theorem exprStart_num {d : Char} (h1 : d ≠ '-') (h2 : isDig d = false) : isNum d = false := by
  simp [isNum, h2, h1]

theorem fails_int_minus {w : Nat} {s : List Char} (h : NotHead isDig s) : Fails (int w) ('-' :: s) := by
  unfold int
  refine Fails.or (Fails.bind (Fails.str_cons (c := '0') (cs := ['b']) (by decide) (by decide))) ?_
  refine Fails.or (Fails.bind (Fails.str_cons (c := '0') (cs := ['x']) (by decide) (by decide))) ?_
  refine Fails.or (Fails.bind (Fails.str_cons (c := '0') (cs := ['o']) (by decide) (by decide))) ?_
  exact Fails.take (Takes.char (c := '-') (by decide) _).opt_some (Fails.bind (Fails.bind (Fails.cls h)))

/-- An expression that does not begin with an integer. -/
theorem fails_int_of {w : Nat} {c : Cst} (h : c.ok = true) (hi : startsInt c.text = false) (s : List Char) : Fails (int w) (c.text ++ s) := by
  obtain ⟨d, t, h1, _⟩ := Cst.head h
  by_cases hd : d = '-'
  · subst hd
    rw [h1] at hi ⊢
    refine fails_int_minus ?_
    cases t with
    | cons e t => exact hi
    | nil => exact absurd h1 (Cst.text_ne_minus h)
  · refine Fails.int ?_
    rw [h1] at hi ⊢
    refine exprStart_num hd ?_
    unfold startsInt at hi
    split at hi
    · rename_i heq; cases heq; exact absurd rfl hd
    · rename_i heq; cases heq; exact hi
    · rename_i heq; cases heq

end Quilt.Cs
