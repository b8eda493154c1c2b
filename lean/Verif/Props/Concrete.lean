import Verif.Parser.Complete

/-!
# C54: the parser reads the language of the reference grammar

`Parser/Concrete.lean` is a grammar of the language, independent of the parser: trees (`Cst`, `Prog`) with their texts, with any blanks, comments
and line ends between the tokens, the conditions under which a tree may be written in this way (levels of operators, statements that
end where they seem to), and the program that each tree stands for. `Strip.lean` removes positions.
-/

namespace Quilt.Props

open Peg Cs

/-- The text of every program of the reference grammar is accepted, and read as that program (up to positions, for which see C52). -/
theorem C54_parse (E : Env) (p : Prog) (h : p.ok = true) : ∃ ast i, parseCode E p.text = .ok ast i ∧ stripL ast = p.ast E.float := parse_text E p h

/-- The reference grammar is unambiguous. -/
theorem C54_unambiguous (float : List Char → BitVec 64) (p q : Prog) (hp : p.ok = true) (hq : q.ok = true) (h : p.text = q.text) : p.ast float = q.ast float := by
  obtain ⟨a, i, h1, h2⟩ := parse_text ⟨0, float⟩ p hp
  obtain ⟨b, j, h3, h4⟩ := parse_text ⟨0, float⟩ q hq
  rw [h, h3] at h1
  cases h1
  exact h2.symm.trans h4

/-- Blanks and comments do not matter. -/
theorem C54_blanks (E : Env) (p q : Prog) (hp : p.ok = true) (hq : q.ok = true) (h : p.ast E.float = q.ast E.float) :
    ∃ a b i j, parseCode E p.text = .ok a i ∧ parseCode E q.text = .ok b j ∧ stripL a = stripL b := by
  obtain ⟨a, i, h1, h2⟩ := parse_text E p hp
  obtain ⟨b, j, h3, h4⟩ := parse_text E q hq
  exact ⟨a, b, i, j, h1, h3, h2.trans (h.trans h4.symm)⟩

/-- Operators: of two operators, the one at the higher level takes the operand between them, and at the same level the left one does. The
operands are names, literals, calls, anything in parentheses, unary operators, ... (level 16 at least). Integers are excluded
because of ranges, see `C54_violated_range`. -/
theorem C54_precedence (E : Env) (op₁ op₂ : Infix) (a b c : Cst) (ha : a.ok = true ∧ 16 ≤ a.lvl ∧ a.endsInt = false) (hb : b.ok = true ∧ 16 ≤ b.lvl ∧ b.endsInt = false)
    (hc : c.ok = true ∧ 16 ≤ c.lvl) : ∃ ast i, parseCode E (a.text ++ ' ' :: (op₁.text ++ ' ' :: (b.text ++ ' ' :: (op₂.text ++ ' ' :: c.text)))) = .ok ast i ∧
      stripL ast = addImplicitNone false Span.default [if op₁.lvl < op₂.lvl then op₁.ast (a.ast E.float) (op₂.ast (b.ast E.float) (c.ast E.float))
        else op₂.ast (op₁.ast (a.ast E.float) (b.ast E.float)) (c.ast E.float)] := by
  obtain ⟨ha1, ha2, ha3⟩ := ha
  obtain ⟨hb1, hb2, hb3⟩ := hb
  have l1 := op₁.lvl_bounds
  have l2 := op₂.lvl_bounds
  by_cases hl : op₁.lvl < op₂.lvl
  · obtain ⟨ast, i, h1, h2⟩ := C54_parse E ⟨[], [(.bin op₁ a [.space] [.space] (.bin op₂ b [.space] [.space] c), [])]⟩ (by
      have e : (Cst.bin op₂ b [.space] [.space] c).lvl = op₂.lvl := rfl
      have d1 : decide (op₁.lvl ≤ a.lvl) = true := decide_eq_true (by omega)
      have d2 : decide (op₂.lvl ≤ b.lvl) = true := decide_eq_true (by omega)
      have d3 : decide (op₂.lvl < c.lvl) = true := decide_eq_true (by omega)
      simp [Prog.ok, Cst.okB, Cst.ok, ha1, hb1, hc.1, ha3, hb3, e, d1, d2, d3, hl, Gap.ok, GapItem.ok, GapItem.text])
    refine ⟨ast, i, ?_, ?_⟩
    · rw [← h1]
      simp [Prog.text, Cst.textB, Cst.text, Gap.text, GapItem.text]
    · rw [h2]; simp only [if_pos hl]; rfl
  · obtain ⟨ast, i, h1, h2⟩ := C54_parse E ⟨[], [(.bin op₂ (.bin op₁ a [.space] [.space] b) [.space] [.space] c, [])]⟩ (by
      have hb4 : (Cst.bin op₁ a [.space] [.space] b).endsInt = false := hb3
      have e : (Cst.bin op₁ a [.space] [.space] b).lvl = op₁.lvl := rfl
      have d1 : decide (op₁.lvl ≤ a.lvl) = true := decide_eq_true (by omega)
      have d2 : decide (op₁.lvl < b.lvl) = true := decide_eq_true (by omega)
      have d3 : decide (op₂.lvl < c.lvl) = true := decide_eq_true (by omega)
      have d4 : decide (op₂.lvl ≤ op₁.lvl) = true := decide_eq_true (by omega)
      simp [Prog.ok, Cst.okB, Cst.ok, ha1, hb1, hc.1, ha3, hb4, e, d1, d2, d3, d4, Gap.ok, GapItem.ok, GapItem.text])
    refine ⟨ast, i, ?_, ?_⟩
    · rw [← h1]
      simp [Prog.text, Cst.textB, Cst.text, Gap.text, GapItem.text]
    · rw [h2]; simp only [if_neg hl]; rfl

/-! ## A program -/

private def sp : Gap := [.space]
private def demo : Prog := ⟨[.comment " squares".toList, .newline], [
  (.func sp "square" [] [] [([], "n", [])] sp sp [(.bin .mul (.ident "n") [] [] (.ident "n"), sp)], [.newline]),
  (.decl sp "a" sp none sp (.array [] [([], .ident "x", []), (sp, .call (.ident "square") [] [] [([], .lit (.int (.pos (.dec ['2']))), [])], [])]), [.semi]),
  (.assign "x" sp (some .add) sp (.bin .sub (.lit (.int (.pos (.dec ['1'])))) sp sp (.paren [] (.bin .range (.ident "b") [] [] (.ident "c")) [])), [.space, .newline]),
  (.ifElse sp (.bin .gte (.ident "x") sp sp (.lit (.int (.pos (.hex ['f']))))) sp [] [(.ret none, [])] sp sp sp
    [(.while sp (.un .not [] (.ident "y")) sp [] [], [])], [.newline]),
  (.switch sp (.ident "x") sp sp [([(sp, .lit (.int (.pos (.dec ['1']))), []), ([], .lit (.str ['q']), sp)], [], [(.ident "z", [])], sp)] (some ([], [], [], [])), [])]⟩

example : demo.ok = true ∧ String.ofList demo.text =
    "// squares\n\nfn square(n) { n*n }\nlet a = [x, square(2)];x += 1 - (b:c) \nif x >= 0xf {return} else { while !y {}}\nswitch x { case 1,\"q\" {z} default{}}" := by decide +kernel

/-- Operands of `C54_precedence`. -/
example : (Cst.call (.ident "f") [] [] []).ok = true ∧ 16 ≤ (Cst.call (.ident "f") [] [] []).lvl ∧ (Cst.call (.ident "f") [] [] []).endsInt = false := by decide

/-! ## Texts outside the reference grammar

These texts look like programs, but the parser rejects them, or reads something else. They are the reason for the side conditions in
`Cst.ok` (`fresh`, `bareRet`, `apart`, `startsInt`). -/

private def E0 : Env := ⟨0, fun _ => 0⟩
private def rejected (T : String) : Bool := match parseCode E0 T.toList with
  | .fail => true
  | _ => false
private def readAs (T : String) (f : List Node → Bool) : Bool := match parseCode E0 T.toList with
  | .ok l _ => f (stripL l)
  | _ => false

private theorem rejected_iff {T : String} (h : rejected T = true) : parseCode E0 T.toList = .fail := by
  unfold rejected at h
  split at h
  · assumption
  · cases h

private theorem readAs_iff {T : String} {f : List Node → Bool} (h : readAs T f = true) : ∃ l i, parseCode E0 T.toList = .ok l i ∧ f (stripL l) = true := by
  unfold readAs at h
  split at h
  · exact ⟨_, _, by assumption, h⟩
  · cases h

/-- A semicolon separates statements, and so does an end of line; but no blank and no end of line may follow the semicolon. -/
theorem C54_violated_semicolon : (∃ E, parseCode E "a; b".toList = .fail) ∧ (∃ E, parseCode E "a;\nb".toList = .fail) ∧ (∃ E ast i, parseCode E "a;b".toList = .ok ast i) ∧
    ∃ E ast i, parseCode E "a\nb".toList = .ok ast i :=
  ⟨⟨E0, rejected_iff (by decide +kernel)⟩, ⟨E0, rejected_iff (by decide +kernel)⟩,
    have ⟨l, i, h, _⟩ := readAs_iff (T := "a;b") (f := fun _ => true) (by decide +kernel); ⟨E0, l, i, h⟩,
    have ⟨l, i, h, _⟩ := readAs_iff (T := "a\nb") (f := fun _ => true) (by decide +kernel); ⟨E0, l, i, h⟩⟩

private def isComment : List Node → Bool
  | [.ident _ "a", .ident _ "b"] => true
  | _ => false

/-- A semicolon ends a comment: the rest of the comment is code. -/
theorem C54_violated_comment : ∃ E ast i sp sp', parseCode E "a // x;b".toList = .ok ast i ∧ stripL ast = [.ident sp "a", .ident sp' "b"] := by
  obtain ⟨l, i, h, h1⟩ := readAs_iff (T := "a // x;b") (f := isComment) (by decide +kernel)
  unfold isComment at h1
  split at h1
  · rename_i sp sp' e
    exact ⟨E0, l, i, sp, sp', h, e⟩
  · cases h1

private def isSumRange : List Node → Bool
  | [.bin _ .add (.ident _ "x") (.lit _ (.range _ _))] => true
  | _ => false

/-- `:` binds less tightly than `+`, except between integers: `x + 1 : 2` is the sum of `x` and the range `1:2`. -/
theorem C54_violated_range : ∃ E ast i sp sp' sp'' a b, parseCode E "x + 1 : 2".toList = .ok ast i ∧ stripL ast = [.bin sp .add (.ident sp' "x") (.lit sp'' (.range a b))] := by
  obtain ⟨l, i, h, h1⟩ := readAs_iff (T := "x + 1 : 2") (f := isSumRange) (by decide +kernel)
  unfold isSumRange at h1
  split at h1
  · rename_i sp sp' sp'' a b e
    exact ⟨E0, l, i, _, _, _, _, _, h, e⟩
  · cases h1

private def isRetIf : List Node → Bool
  | [.ret _ (some (.cond ..))] => true
  | _ => false

/-- `return` without a value takes a condition on the next line for its value. -/
theorem C54_violated_return : ∃ E ast i sp sp' c t e, parseCode E "return\nif a {b}".toList = .ok ast i ∧ stripL ast = [.ret sp (some (.cond sp' c t e))] := by
  obtain ⟨l, i, h, h1⟩ := readAs_iff (T := "return\nif a {b}") (f := isRetIf) (by decide +kernel)
  unfold isRetIf at h1
  split at h1
  · rename_i e
    exact ⟨E0, l, i, _, _, _, _, _, h, e⟩
  · cases h1

private def isMinus : List Node → Bool
  | .decl _ _ (.bin _ .sub _ _) :: _ => true
  | _ => false

/-- An end of line or a semicolon does not end a statement if the next line begins with `-`. -/
theorem C54_violated_minus : ∀ T ∈ ["let x = 5\n-x", "let x = 5;-x"], ∃ E ast i sp sp' v a b rest, parseCode E T.toList = .ok ast i ∧
    stripL ast = .decl sp v (.bin sp' .sub a b) :: rest := by
  have key : ∀ T, readAs T isMinus = true → ∃ E ast i sp sp' v a b rest, parseCode E T.toList = .ok ast i ∧ stripL ast = .decl sp v (.bin sp' .sub a b) :: rest := by
    intro T hT
    obtain ⟨l, i, h, h1⟩ := readAs_iff hT
    unfold isMinus at h1
    split at h1
    · rename_i e
      exact ⟨E0, l, i, _, _, _, _, _, _, h, e⟩
    · cases h1
  intro T hT
  simp only [List.mem_cons, List.not_mem_nil, or_false] at hT
  rcases hT with rfl | rfl <;> exact key _ (by decide +kernel)

private def isCallIf : List Node → Bool
  | [.call _ (.cond ..) _] => true
  | _ => false

/-- A condition before a line that begins with a parenthesis is called. -/
theorem C54_violated_call : ∃ E ast i sp sp' c t e args, parseCode E "if a {b}\n(c)".toList = .ok ast i ∧ stripL ast = [.call sp (.cond sp' c t e) args] := by
  obtain ⟨l, i, h, h1⟩ := readAs_iff (T := "if a {b}\n(c)") (f := isCallIf) (by decide +kernel)
  unfold isCallIf at h1
  split at h1
  · rename_i e
    exact ⟨E0, l, i, _, _, _, _, _, _, h, e⟩
  · cases h1

end Quilt.Props
