import Verif.Message
import Verif.TextLemmas
import Verif.Props.Code

/-!
# What errors say: C73
-/

namespace Quilt.Props

open Lib TextSep

/-- The words in an error that come between backquotes in its message (names of types and signs of operators). -/
def quotedWords : Err → List String
  | .type (.expected a b) | .type (.cannotConvert a b) | .type (.cannotCompare a b) | .type (.unsupportedUnary a b) => [a, b]
  | .type (.parseError _ a) | .type (.notCallable a) | .type (.unpackable a) | .type (.notIterable a) | .type (.cannotHash a) => [a]
  | .type (.unsupportedBinary a b c) => [a, b, c]
  | _ => []

/-- Types do not have backquotes in their names. -/
def Sensible (e : Err) : Prop := ∀ w ∈ quotedWords e, '`' ∉ w.toList

private def unescape (k : Char) : Char := if k = '0' then '\x00' else if k = 't' then '\t' else if k = 'r' then '\r' else if k = 'n' then '\n' else k

private theorem debugChar_shape (plain : Char → Bool) (c : Char) :
    (debugChar plain c = [c] ∧ c ≠ '\\' ∧ c ≠ '"') ∨ (∃ k, k ≠ 'u' ∧ unescape k = c ∧ debugChar plain c = ['\\', k]) ∨
      debugChar plain c = '\\' :: 'u' :: '{' :: (showBase 16 c.toNat ++ ['}']) := by
  unfold debugChar
  split
  · rename_i h; exact .inr (.inl ⟨'0', by decide, by subst h; decide, rfl⟩)
  split
  · rename_i h; exact .inr (.inl ⟨'t', by decide, by subst h; decide, rfl⟩)
  split
  · rename_i h; exact .inr (.inl ⟨'r', by decide, by subst h; decide, rfl⟩)
  split
  · rename_i h; exact .inr (.inl ⟨'n', by decide, by subst h; decide, rfl⟩)
  split
  · rename_i h; exact .inr (.inl ⟨'"', by decide, by subst h; decide, rfl⟩)
  split
  · rename_i h; exact .inr (.inl ⟨'\\', by decide, by subst h; decide, rfl⟩)
  split
  · rename_i h1 h2 _; exact .inl ⟨rfl, h2, h1⟩
  · exact .inr (.inr rfl)

/-- What `{:?}` prints of a character never begins like another one's. -/
private theorem debugChar_inj (plain : Char → Bool) {c d : Char} {r r' : List Char} (h : debugChar plain c ++ r = debugChar plain d ++ r') : c = d ∧ r = r' := by
  have hh : ∀ d < 36, radixChar d ≠ '}' := by decide
  rcases debugChar_shape plain c with ⟨h1, h2, h3⟩ | ⟨k, h1, h2, h3⟩ | h1 <;> rcases debugChar_shape plain d with ⟨g1, g2, g3⟩ | ⟨l, g1, g2, g3⟩ | g1
  · rw [h1, g1] at h; simpa using h
  · rw [h1, g3] at h; simp at h; exact absurd h.1 h2
  · rw [h1, g1] at h; simp at h; exact absurd h.1 h2
  · rw [h3, g1] at h; simp at h; exact absurd h.1.symm g2
  · rw [h3, g3] at h; simp at h; exact ⟨by rw [← h2, ← g2, h.1], h.2⟩
  · rw [h3, g1] at h; simp at h; exact absurd h.1 h1
  · rw [h1, g1] at h; simp at h; exact absurd h.1.symm g2
  · rw [h1, g3] at h; simp at h; exact absurd h.1.symm g1
  · rw [h1, g1] at h
    simp only [List.cons_append, List.append_assoc, List.cons.injEq, true_and, List.nil_append] at h
    obtain ⟨h2, h3⟩ := sep (digit_no hh (by decide) (by decide) _) (digit_no hh (by decide) (by decide) _) h
    exact ⟨Char.toNat_inj.1 (showBase_inj h2), h3⟩

private theorem debugChar_head (plain : Char → Bool) (c : Char) (r : List Char) : ∀ t, debugChar plain c ++ r ≠ '"' :: t := by
  intro t h
  rcases debugChar_shape plain c with ⟨h1, h2, h3⟩ | ⟨k, h1, h2, h3⟩ | h1
  · rw [h1] at h; simp at h; exact h3 h.1
  · rw [h3] at h; simp at h
  · rw [h1] at h; simp at h

private theorem escaped_inj (plain : Char → Bool) : ∀ {s t r r' : List Char}, s.flatMap (debugChar plain) ++ '"' :: r = t.flatMap (debugChar plain) ++ '"' :: r' → s = t ∧ r = r'
  | [], [], _, _, h => ⟨rfl, by simpa using h⟩
  | [], d :: t, r, r', h => by
    simp only [List.flatMap_nil, List.nil_append, List.flatMap_cons, List.append_assoc] at h
    exact absurd h.symm (debugChar_head plain d _ _)
  | c :: s, [], r, r', h => by
    simp only [List.flatMap_nil, List.nil_append, List.flatMap_cons, List.append_assoc] at h
    exact absurd h (debugChar_head plain c _ _)
  | c :: s, d :: t, r, r', h => by
    simp only [List.flatMap_cons, List.append_assoc] at h
    obtain ⟨h1, h2⟩ := debugChar_inj plain h
    obtain ⟨h3, h4⟩ := escaped_inj plain h2
    exact ⟨by rw [h1, h3], h4⟩

/-- A text printed with `{:?}` can be told from what follows, and is the text of one string only. -/
theorem C73_quoted (plain : Char → Bool) {s t : String} {r r' : List Char} (h : debugText plain s ++ r = debugText plain t ++ r') : s = t ∧ r = r' := by
  simp only [debugText, List.cons_append, List.append_assoc, List.cons.injEq, true_and, List.nil_append] at h
  obtain ⟨h1, h2⟩ := escaped_inj plain h
  exact ⟨String.toList_inj.1 h1, h2⟩

private theorem text_TypeErr_0 : ∀ w g, (TypeErr.expected w g).text = "expected `".toList ++ w.toList ++ "` got `".toList ++ g.toList ++ "`".toList := fun _ _ => rfl
private theorem text_TypeErr_1 : ∀ a b, (TypeErr.cannotConvert a b).text = "cannot convert `".toList ++ a.toList ++ "` to `".toList ++ b.toList ++ "`".toList := fun _ _ => rfl
private theorem text_TypeErr_2 : ∀ a b, (TypeErr.cannotCompare a b).text = "cannot compare `".toList ++ a.toList ++ "` and `".toList ++ b.toList ++ "`".toList := fun _ _ => rfl
private theorem text_TypeErr_3 : ∀ t ty, (TypeErr.parseError t ty).text = "cannot parse '".toList ++ t ++ "' as `".toList ++ ty.toList ++ "`".toList := fun _ _ => rfl
private theorem text_TypeErr_4 : ∀ f e g, (TypeErr.mismatchedArity f e g).text = "function '".toList ++ f.toList ++ "' expected `".toList ++ showNat e ++ "` arguments got `".toList ++ showNat g ++ "`".toList := fun _ _ _ => rfl
private theorem text_TypeErr_5 : ∀ a, (TypeErr.notCallable a).text = "cannot use `".toList ++ a.toList ++ "` as a function".toList := fun _ => rfl
private theorem text_TypeErr_6 : ∀ op l r, (TypeErr.unsupportedBinary op l r).text = "unsupported binary operation `".toList ++ op.toList ++ "` on `".toList ++ l.toList ++ "` and `".toList ++ r.toList ++ "`".toList := fun _ _ _ => rfl
private theorem text_TypeErr_7 : ∀ a, (TypeErr.unpackable a).text = "cannot unpack `".toList ++ a.toList ++ "`".toList := fun _ => rfl
private theorem text_TypeErr_8 : ∀ n m, (TypeErr.insufficientValues n m).text = "cannot unpack a ".toList ++ showNat n ++ " item value into ".toList ++ showNat m ++ " values".toList := fun _ _ => rfl
private theorem text_TypeErr_9 : ∀ op r, (TypeErr.unsupportedUnary op r).text = "unsupported unary operation `".toList ++ op.toList ++ "` on `".toList ++ r.toList ++ "`".toList := fun _ _ => rfl
private theorem text_TypeErr_10 : ∀ a, (TypeErr.notIterable a).text = "cannot iterate over `".toList ++ a.toList ++ "`".toList := fun _ => rfl
private theorem text_TypeErr_11 : (TypeErr.failedToIterate).text = "failed to iterate :(".toList := rfl
private theorem text_TypeErr_12 : ∀ a, (TypeErr.cannotHash a).text = "cannot hash `".toList ++ a.toList ++ "`".toList := fun _ => rfl
private theorem text_NameErr_0 (plain : Char → Bool) : ∀ x, (NameErr.undefined x).text plain = "name ".toList ++ debugText plain x ++ " is not defined".toList := fun _ => rfl
private theorem text_NameErr_1 (plain : Char → Bool) : ∀ x, (NameErr.alreadyDefined x).text plain = "name ".toList ++ debugText plain x ++ " is already defined".toList := fun _ => rfl
private theorem text_NameErr_2 (plain : Char → Bool) : ∀ x, (NameErr.undefinedBuiltin x).text plain = "builtin ".toList ++ debugText plain x ++ " is not defined".toList := fun _ => rfl
private theorem text_NameErr_3 (plain : Char → Bool) : ∀ x, (NameErr.externalNotGlobal x).text plain = "external ".toList ++ debugText plain x ++ " is not in the global scope".toList := fun _ => rfl
private theorem text_NameErr_4 (plain : Char → Bool) : ∀ x, (NameErr.externalRedefined x).text plain = "external ".toList ++ debugText plain x ++ " is aldready defined".toList := fun _ => rfl
private theorem text_NameErr_5 (plain : Char → Bool) : ∀ x, (NameErr.externalNotDefined x).text plain = "external ".toList ++ debugText plain x ++ " is not defined".toList := fun _ => rfl
private theorem text_OverflowErr_0 : (OverflowErr.tooManyItems).text = "an array cannot have more than 256 items".toList := rfl
private theorem text_OverflowErr_1 : (OverflowErr.tooManyParams).text = "cannot define more than 256 parameters in a function".toList := rfl
private theorem text_OverflowErr_2 : (OverflowErr.tooManyArgs).text = "cannot use more than 256 arguments in a function call".toList := rfl
private theorem text_OverflowErr_3 : (OverflowErr.tooMuchToUnpack).text = "cannot unpack more than 256 values".toList := rfl
private theorem text_OverflowErr_4 : (OverflowErr.stackOverflow).text = "stack overflow".toList := rfl
private theorem text_OverflowErr_5 : (OverflowErr.stackUnderflow).text = "stack underflow".toList := rfl
private theorem text_OverflowErr_6 : (OverflowErr.instructionOverflow).text = "instruction overflow".toList := rfl
private theorem text_OverflowErr_7 : (OverflowErr.jumpTooLarge).text = "jump too large".toList := rfl
private theorem text_OverflowErr_8 : (OverflowErr.stringTooLarge).text = "string too large".toList := rfl
private theorem text_OverflowErr_9 : (OverflowErr.arrayTooLarge).text = "array too large".toList := rfl
private theorem text_IncludeErr_0 (plain : Char → Bool) : (IncludeErr.includeNotTopLevel).text plain = "includes can only be at the top level of a file".toList := rfl
private theorem text_IncludeErr_1 (plain : Char → Bool) : ∀ x, (IncludeErr.unresolvedInclude x).text plain = "unresolved include: ".toList ++ debugText plain x := fun _ => rfl
private theorem text_IncludeErr_2 (plain : Char → Bool) : ∀ x, (IncludeErr.couldNotResolve x).text plain = "could not resolve include: ".toList ++ debugText plain x := fun _ => rfl
private theorem text_IncludeErr_3 (plain : Char → Bool) : ∀ x, (IncludeErr.circularInclude x).text plain = "circular include: ".toList ++ debugText plain x := fun _ => rfl
private theorem text_SyntaxErr_0 : (SyntaxErr.unexpectedToken).text = "unexpected token at line ".toList := rfl
private theorem text_SyntaxErr_1 : (SyntaxErr.statementAsExpression).text = "statement was used in place of expression".toList := rfl
private theorem text_SyntaxErr_2 : (SyntaxErr.returnOutsideFunction).text = "return outside of function".toList := rfl
private theorem text_Err_0 (plain : Char → Bool) (limit : List Char) : ∀ e, (Err.name e).text plain limit = "NameError: ".toList ++ e.text plain := fun _ => rfl
private theorem text_Err_1 (plain : Char → Bool) (limit : List Char) : ∀ e, (Err.overflow e).text plain limit = "OverflowError: ".toList ++ e.text := fun _ => rfl
private theorem text_Err_2 (plain : Char → Bool) (limit : List Char) : ∀ e, (Err.type e).text plain limit = "TypeError: ".toList ++ e.text := fun _ => rfl
private theorem text_Err_3 (plain : Char → Bool) (limit : List Char) : ∀ m, (Err.builtin m).text plain limit = "BuiltinError: ".toList ++ m.toList := fun _ => rfl
private theorem text_Err_4 (plain : Char → Bool) (limit : List Char) : ∀ e, (Err.«include» e).text plain limit = "IncludeError: ".toList ++ e.text plain := fun _ => rfl
private theorem text_Err_5 (plain : Char → Bool) (limit : List Char) : ∀ e, (Err.«syntax» e).text plain limit = "SyntaxError: ".toList ++ e.text := fun _ => rfl
private theorem text_Err_6 (plain : Char → Bool) (limit : List Char) : ∀ i, (Err.index i).text plain limit = "index `".toList ++ showInt i.toInt ++ "` out of bounds".toList := fun _ => rfl
private theorem text_Err_7 (plain : Char → Bool) (limit : List Char) : (Err.zeroDivision).text plain limit = "Division by zero".toList := rfl
private theorem text_Err_8 (plain : Char → Bool) (limit : List Char) : (Err.runtimeLimit).text plain limit = "Runtime limit exceeded: ".toList ++ limit := rfl
private theorem text_Err_9 (plain : Char → Bool) (limit : List Char) : (Err.memoryLimit).text plain limit = "Memory limit exceeded".toList := rfl
private theorem text_Err_10 (plain : Char → Bool) (limit : List Char) : (Err.halt).text plain limit = "Halt".toList := rfl

private theorem heads {a b x y : List Char} (h : a ++ x = b ++ y) (hab : ¬ a <+: b) (hba : ¬ b <+: a) : False := by
  have h1 : a <+: b ++ y := ⟨x, h⟩
  rcases List.prefix_or_prefix_of_prefix h1 (List.prefix_append b y) with h | h
  · exact hab h
  · exact hba h

private theorem append_inj_left {a x y : List Char} (h : a ++ x = a ++ y) : x = y := List.append_cancel_left h

private theorem word {a b : String} {r r' : List Char} (ha : '`' ∉ a.toList) (hb : '`' ∉ b.toList) (h : a.toList ++ '`' :: r = b.toList ++ '`' :: r') : a = b ∧ r = r' := by
  obtain ⟨h1, h2⟩ := sep ha hb h
  exact ⟨String.toList_inj.1 h1, h2⟩

private theorem name_inj (plain : Char → Bool) {e e' : NameErr} (h : e.text plain = e'.text plain) : e = e' := by
  cases e <;> cases e' <;> simp only [text_NameErr_0, text_NameErr_1, text_NameErr_2, text_NameErr_3, text_NameErr_4, text_NameErr_5, List.append_assoc] at h <;> first
    | exact (heads h (by decide +kernel) (by decide +kernel)).elim
    | (have h := append_inj_left h
       obtain ⟨h1, h2⟩ := C73_quoted plain h
       first | exact absurd h2 (by decide +kernel) | rw [h1])

private theorem include_inj (plain : Char → Bool) {e e' : IncludeErr} (h : e.text plain = e'.text plain) : e = e' := by
  have h' : e.text plain ++ [] = e'.text plain ++ [] := by rw [h]
  cases e <;> cases e' <;> simp only [text_IncludeErr_0, text_IncludeErr_1, text_IncludeErr_2, text_IncludeErr_3, List.append_assoc] at h' <;> first
    | rfl
    | exact (heads h' (by decide +kernel) (by decide +kernel)).elim
    | (have h := append_inj_left h'
       obtain ⟨h1, h2⟩ := C73_quoted plain h
       rw [h1])

private theorem overflow_inj {e e' : OverflowErr} (h : e.text = e'.text) : e = e' := by
  cases e <;> cases e' <;> first | rfl | exact absurd h (by decide +kernel)

private theorem syntax_inj {e e' : SyntaxErr} (h : e.text = e'.text) : e = e' := by
  cases e <;> cases e' <;> first | rfl | exact absurd h (by decide +kernel)

private theorem rev_sep {c : Char} {x y t t' u : List Char} (hx : c ∉ x) (hy : c ∉ y) (h : t ++ u ++ c :: (x ++ [c]) = t' ++ u ++ c :: (y ++ [c])) : t = t' ∧ x = y := by
  have h' := congrArg List.reverse h
  simp only [List.reverse_append, List.reverse_cons, List.reverse_nil, List.nil_append, List.append_assoc, List.cons_append, List.cons.injEq, true_and] at h'
  obtain ⟨h1, h2⟩ := sep (by simpa using hx) (by simpa using hy) h'
  have h3 := congrArg List.reverse h2
  simp only [List.reverse_append, List.reverse_reverse] at h3
  have h4 := congrArg List.reverse h1
  simp only [List.reverse_reverse] at h4
  exact ⟨List.append_cancel_right h3, h4⟩

private theorem type_inj {e e' : TypeErr} (hs : Sensible (.type e)) (hs' : Sensible (.type e')) (h : e.text = e'.text) : e = e' := by
  have h' : e.text ++ [] = e'.text ++ [] := by rw [h]
  have hd : ∀ n, '`' ∉ showNat n := showNat_no (by decide)
  have hp : ∀ n, ' ' ∉ showNat n := showNat_no (by decide)
  cases e <;> cases e' <;> simp only [text_TypeErr_0, text_TypeErr_1, text_TypeErr_2, text_TypeErr_3, text_TypeErr_4, text_TypeErr_5, text_TypeErr_6, text_TypeErr_7, text_TypeErr_8, text_TypeErr_9, text_TypeErr_10, text_TypeErr_11, text_TypeErr_12, List.append_assoc] at h' <;> try exact (heads h' (by decide +kernel) (by decide +kernel)).elim
  case failedToIterate.failedToIterate => rfl
  all_goals replace h' := append_inj_left h'
  all_goals simp only [Sensible, quotedWords, List.mem_cons, List.not_mem_nil, or_false, forall_eq_or_imp, forall_eq, false_imp_iff, implies_true] at hs hs'
  case expected.expected =>
    obtain ⟨h1, h2⟩ := word hs.1 hs'.1 h'
    obtain ⟨h3, _⟩ := word hs.2 hs'.2 (append_inj_left (a := " got `".toList) h2)
    rw [h1, h3]
  case cannotConvert.cannotConvert =>
    obtain ⟨h1, h2⟩ := word hs.1 hs'.1 h'
    obtain ⟨h3, _⟩ := word hs.2 hs'.2 (append_inj_left (a := " to `".toList) h2)
    rw [h1, h3]
  case cannotCompare.cannotCompare =>
    obtain ⟨h1, h2⟩ := word hs.1 hs'.1 h'
    obtain ⟨h3, _⟩ := word hs.2 hs'.2 (append_inj_left (a := " and `".toList) h2)
    rw [h1, h3]
  case parseError.parseError t ty t' ty' =>
    obtain ⟨h1, h2⟩ := rev_sep (t := t) (t' := t') (u := "' as ".toList) hs hs' (by simpa using h')
    rw [h1, String.toList_inj.1 h2]
  case mismatchedArity.mismatchedArity f a b f' a' b' =>
    have h0 : (f.toList ++ "' expected `".toList ++ showNat a) ++ "` arguments got ".toList ++ '`' :: (showNat b ++ ['`']) =
        (f'.toList ++ "' expected `".toList ++ showNat a') ++ "` arguments got ".toList ++ '`' :: (showNat b' ++ ['`']) := by simpa using h'
    obtain ⟨h1, h2⟩ := rev_sep (hd _) (hd _) h0
    have h3 : f.toList ++ "' expected ".toList ++ '`' :: (showNat a ++ ['`']) = f'.toList ++ "' expected ".toList ++ '`' :: (showNat a' ++ ['`']) := by
      have := congrArg (· ++ ['`']) h1
      simpa using this
    obtain ⟨h4, h5⟩ := rev_sep (hd _) (hd _) h3
    rw [String.toList_inj.1 h4, showNat_inj h5, showNat_inj h2]
  case notCallable.notCallable => rw [(word hs hs' h').1]
  case unsupportedBinary.unsupportedBinary =>
    obtain ⟨h1, h2⟩ := word hs.1 hs'.1 h'
    obtain ⟨h3, h4⟩ := word hs.2.1 hs'.2.1 (append_inj_left (a := " on `".toList) h2)
    obtain ⟨h5, _⟩ := word hs.2.2 hs'.2.2 (append_inj_left (a := " and `".toList) h4)
    rw [h1, h3, h5]
  case unpackable.unpackable => rw [(word hs hs' h').1]
  case insufficientValues.insufficientValues =>
    obtain ⟨h1, h2⟩ := sep (hp _) (hp _) h'
    obtain ⟨h3, _⟩ := sep (hp _) (hp _) (append_inj_left (a := "item value into ".toList) h2)
    rw [showNat_inj h1, showNat_inj h3]
  case unsupportedUnary.unsupportedUnary =>
    obtain ⟨h1, h2⟩ := word hs.1 hs'.1 h'
    obtain ⟨h3, _⟩ := word hs.2 hs'.2 (append_inj_left (a := " on `".toList) h2)
    rw [h1, h3]
  case notIterable.notIterable => rw [(word hs hs' h').1]
  case cannotHash.cannotHash => rw [(word hs hs' h').1]

/-- The message tells the error: errors with the same message are the same (if names of types have no backquotes). -/
theorem C73_identifies (plain : Char → Bool) (limit : List Char) {e e' : Err} (hs : Sensible e) (hs' : Sensible e') (h : e.text plain limit = e'.text plain limit) : e = e' := by
  have hq : ∀ n : Int, '`' ∉ showInt n := by
    intro n
    unfold showInt
    have hd : ∀ n, '`' ∉ showNat n := showNat_no (by decide)
    split
    · simpa using hd _
    · exact hd _
  have h' : e.text plain limit ++ [] = e'.text plain limit ++ [] := by rw [h]
  cases e <;> cases e' <;> simp only [text_Err_0, text_Err_1, text_Err_2, text_Err_3, text_Err_4, text_Err_5, text_Err_6, text_Err_7, text_Err_8, text_Err_9, text_Err_10, List.append_assoc] at h' <;> try exact (heads h' (by decide +kernel) (by decide +kernel)).elim
  all_goals try rfl
  all_goals replace h' := append_inj_left h'
  case name.name => rw [name_inj plain (List.append_cancel_right h')]
  case overflow.overflow => rw [overflow_inj (List.append_cancel_right h')]
  case type.type => rw [type_inj hs hs' (List.append_cancel_right h')]
  case builtin.builtin => rw [String.toList_inj.1 (List.append_cancel_right h')]
  case «include».«include» => rw [include_inj plain (List.append_cancel_right h')]
  case «syntax».«syntax» => rw [syntax_inj (List.append_cancel_right h')]
  case index.index => rw [BitVec.toInt_inj.1 (showInt_inj (sep (hq _) (hq _) h').1)]

/-- Meets the hypotheses: messages of errors alike in kind, told apart by names that hold quotes and backslashes. -/
example : Sensible (.type (.expected "int" "str")) ∧ Sensible (.name (.undefined "x`")) := by
  constructor <;> intro w hw <;> simp [quotedWords] at hw <;> rcases hw with rfl | rfl <;> decide +kernel

example : (Err.name (.undefined "a\"b")).text (fun _ => true) [] = "NameError: name \"a\\\"b\" is not defined".toList ∧
    (Err.name (.undefined "a\x1b")).text (fun c => c ≠ '\x1b') [] = "NameError: name \"a\\u{1b}\" is not defined".toList := by decide +kernel

/-- Without the condition it fails: a type with backquotes in its name may be read in two ways. -/
theorem C73_violated_names : ∃ e e' : Err, e ≠ e' ∧ ∀ plain limit, e.text plain limit = e'.text plain limit :=
  ⟨.type (.expected "a` got `b" "c"), .type (.expected "a" "b` got `c"), by decide +kernel, fun _ _ => rfl⟩

/-- The kind of an error can be read off its message, whatever the error carries. -/
theorem C73_kind (plain : Char → Bool) (limit : List Char) {e e' : Err} (h : e.text plain limit = e'.text plain limit) : e.title = e'.title := by
  have h' : e.text plain limit ++ [] = e'.text plain limit ++ [] := by rw [h]
  cases e <;> cases e' <;> simp only [text_Err_0, text_Err_1, text_Err_2, text_Err_3, text_Err_4, text_Err_5, text_Err_6, text_Err_7, text_Err_8, text_Err_9, text_Err_10, List.append_assoc] at h' <;> try exact (heads h' (by decide +kernel) (by decide +kernel)).elim
  all_goals try rfl
  all_goals replace h' := append_inj_left h'
  case name.name => rw [name_inj plain (List.append_cancel_right h')]
  case overflow.overflow => rw [overflow_inj (List.append_cancel_right h')]
  case «include».«include» => rw [include_inj plain (List.append_cancel_right h')]
  case «syntax».«syntax» => rw [syntax_inj (List.append_cancel_right h')]
  case type.type e e' =>
    cases e <;> cases e' <;> first
      | rfl
      | (simp only [text_TypeErr_0, text_TypeErr_1, text_TypeErr_2, text_TypeErr_3, text_TypeErr_4, text_TypeErr_5, text_TypeErr_6, text_TypeErr_7, text_TypeErr_8, text_TypeErr_9, text_TypeErr_10, text_TypeErr_11, text_TypeErr_12, List.append_assoc] at h'
         exact (heads h' (by decide +kernel) (by decide +kernel)).elim)

/-- The messages about numbers are wrong by one: what has exactly 256 parts is rejected, as having more than 256 of them. -/
theorem C73_violated_limits (cfg : Cfg) (m : Mode) (s : CState) (sp : Span) :
    (∀ items, items.length = 256 → compileNode cfg m (.array sp items) s = (.err (.overflow .tooManyItems) sp, s)) ∧
    (∀ f args, args.length = 256 → compileNode cfg m (.call sp f args) s = (.err (.overflow .tooManyArgs) sp, s)) ∧
    (∀ ps b, ps.length = 256 → compileNode cfg m (.lambda sp ps b) s = (.err (.overflow .tooManyParams) sp, s)) ∧
    (∀ plain limit, (Err.overflow .tooManyItems).text plain limit = "OverflowError: an array cannot have more than 256 items".toList ∧
      (Err.overflow .tooManyArgs).text plain limit = "OverflowError: cannot use more than 256 arguments in a function call".toList ∧
      (Err.overflow .tooManyParams).text plain limit = "OverflowError: cannot define more than 256 parameters in a function".toList) := by
  obtain ⟨h1, h2, -, -, h5, -⟩ := C45_rejected cfg m s sp
  refine ⟨fun items h => h1 items (by omega), fun f args h => h2 f args (by omega), fun ps b h => h5 ps b (by omega), fun _ _ => ⟨rfl, rfl, rfl⟩⟩

/-- An error without what it carries. -/
def kindOf : Err → Err
  | .name (.undefined _) => .name (.undefined "")
  | .name (.alreadyDefined _) => .name (.alreadyDefined "")
  | .name (.undefinedBuiltin _) => .name (.undefinedBuiltin "")
  | .name (.externalNotGlobal _) => .name (.externalNotGlobal "")
  | .name (.externalRedefined _) => .name (.externalRedefined "")
  | .name (.externalNotDefined _) => .name (.externalNotDefined "")
  | .type (.expected ..) => .type (.expected "" "")
  | .type (.cannotConvert ..) => .type (.cannotConvert "" "")
  | .type (.cannotCompare ..) => .type (.cannotCompare "" "")
  | .type (.parseError ..) => .type (.parseError [] "")
  | .type (.mismatchedArity ..) => .type (.mismatchedArity "" 0 0)
  | .type (.notCallable _) => .type (.notCallable "")
  | .type (.unsupportedBinary ..) => .type (.unsupportedBinary "" "" "")
  | .type (.unpackable _) => .type (.unpackable "")
  | .type (.insufficientValues ..) => .type (.insufficientValues 0 0)
  | .type (.unsupportedUnary ..) => .type (.unsupportedUnary "" "")
  | .type (.notIterable _) => .type (.notIterable "")
  | .type (.cannotHash _) => .type (.cannotHash "")
  | .builtin _ => .builtin ""
  | .include (.unresolvedInclude _) => .include (.unresolvedInclude "")
  | .include (.couldNotResolve _) => .include (.couldNotResolve "")
  | .include (.circularInclude _) => .include (.circularInclude "")
  | .index _ => .index 0
  | e => e

private def kinds : List Err := [
  .name (.undefined ""), .name (.alreadyDefined ""), .name (.undefinedBuiltin ""), .name (.externalNotGlobal ""), .name (.externalRedefined ""), .name (.externalNotDefined ""),
  .overflow .tooManyItems, .overflow .tooManyParams, .overflow .tooManyArgs, .overflow .tooMuchToUnpack, .overflow .stackOverflow, .overflow .stackUnderflow,
  .overflow .instructionOverflow, .overflow .jumpTooLarge, .overflow .stringTooLarge, .overflow .arrayTooLarge,
  .type (.expected "" ""), .type (.cannotConvert "" ""), .type (.cannotCompare "" ""), .type (.parseError [] ""), .type (.mismatchedArity "" 0 0), .type (.notCallable ""),
  .type (.unsupportedBinary "" "" ""), .type (.unpackable ""), .type (.insufficientValues 0 0), .type (.unsupportedUnary "" ""), .type (.notIterable ""), .type .failedToIterate, .type (.cannotHash ""),
  .builtin "", .include .includeNotTopLevel, .include (.unresolvedInclude ""), .include (.couldNotResolve ""), .include (.circularInclude ""),
  .syntax .unexpectedToken, .syntax .statementAsExpression, .syntax .returnOutsideFunction, .index 0, .zeroDivision, .runtimeLimit, .memoryLimit, .halt]

private theorem kinds_titles : ∀ a ∈ kinds, ∀ b ∈ kinds, a.title = b.title → a = b := by decide +kernel

private theorem kindOf_mem (e : Err) : kindOf e ∈ kinds := by
  rcases e with (e | e | e | e | e | e) | (e | e | e | e | e | e | e | e | e | e) | (e | e | e | e | e | e | e | e | e | e | e | e | e) | e | (e | e | e | e) | (e | e | e) | e | _ | _ | _ | _ <;> simp [kindOf, kinds]

private theorem kindOf_title (e : Err) : (kindOf e).title = e.title := by
  rcases e with (e | e | e | e | e | e) | (e | e | e | e | e | e | e | e | e | e) | (e | e | e | e | e | e | e | e | e | e | e | e | e) | e | (e | e | e | e) | (e | e | e) | e | _ | _ | _ | _ <;> rfl

/-- The title of a report tells the kind of the error: errors with the same title differ at most in what they carry. -/
theorem C73_title {e e' : Err} : e.title = e'.title ↔ kindOf e = kindOf e' :=
  ⟨fun h => kinds_titles _ (kindOf_mem e) _ (kindOf_mem e') (by rw [kindOf_title, kindOf_title, h]), fun h => by rw [← kindOf_title, h, kindOf_title]⟩

example : (Err.type (.expected "int" "str")).title = (Err.type (.expected "list" "bool")).title ∧
    (Err.name (.undefined "x")).title ≠ (Err.name (.undefinedBuiltin "x")).title := by decide +kernel

end Quilt.Props
