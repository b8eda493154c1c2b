import Verif.Parser.Marks
import Verif.Parser.Complete
import Verif.Props.Parser
import Verif.Parser.IncludeLemmas

/-!
# C82: where and how syntax errors are reported

`Quilt.Peg.readCode` and `Quilt.Peg.readLiteral` (`Verif/Parser/Traced.lean`) are `parse_code` and `parse_literal` with
their errors: the grammar is run again, noting each failure. `Quilt.Peg.Lacks` (`Verif/Parser/Marks.lean`) says, for
each name that a message can list, what it means that the text does not go on with it.
-/

namespace Quilt.Props

open Peg

/-! ## Lists of names -/

theorem mem_insertName {s t : String} : ∀ {l : List String}, t ∈ insertName s l ↔ t = s ∨ t ∈ l
  | [] => by simp [insertName]
  | u :: l => by
    unfold insertName
    split
    · rename_i h; subst h; simp
    · split
      · simp
      · rw [List.mem_cons, mem_insertName, List.mem_cons]
        constructor
        · rintro (h | h | h) <;> simp [h]
        · rintro (h | h | h) <;> simp [h]

theorem sorted_insertName {s : String} : ∀ {l : List String}, l.Pairwise (· < ·) → (insertName s l).Pairwise (· < ·)
  | [], _ => by simp [insertName]
  | u :: l, h => by
    unfold insertName
    rw [List.pairwise_cons] at h
    split
    · exact List.pairwise_cons.2 h
    · rename_i hne
      split
      · rename_i hlt
        refine List.pairwise_cons.2 ⟨fun t ht => ?_, List.pairwise_cons.2 h⟩
        rcases List.mem_cons.1 ht with rfl | ht
        · exact hlt
        · exact String.lt_trans hlt (h.1 t ht)
      · rename_i hlt
        have hgt : u < s := by
          rcases Decidable.em (u < s) with h' | h'
          · exact h'
          · exact absurd (String.le_antisymm h' hlt) hne
        refine List.pairwise_cons.2 ⟨fun t ht => ?_, sorted_insertName h.2⟩
        rcases mem_insertName.1 ht with rfl | ht
        · exact hgt
        · exact h.1 t ht

theorem mem_expectedAt {p : Nat} {t : String} {ms : List Mark} : t ∈ expectedAt p ms ↔ ∃ m ∈ ms, m.pos = p ∧ m.tok = t := by
  have : ∀ l : List String, t ∈ l.foldr insertName [] ↔ t ∈ l := by
    intro l
    induction l with
    | nil => simp
    | cons a l ih => rw [List.foldr_cons, mem_insertName, ih, List.mem_cons]
  unfold expectedAt
  rw [this]
  simp [and_assoc]

theorem sorted_expectedAt {p : Nat} {ms : List Mark} : (expectedAt p ms).Pairwise (· < ·) := by
  unfold expectedAt
  generalize (ms.filter (·.pos = p)).map Mark.tok = l
  induction l with
  | nil => exact .nil
  | cons a l ih => exact sorted_insertName ih

/-! ## The furthest failure -/

theorem furthest_go (ms : List Mark) : ∀ p, p ≤ ms.foldl (fun p m => max p m.pos) p ∧ (∀ m ∈ ms, m.pos ≤ ms.foldl (fun p m => max p m.pos) p) ∧
    (ms.foldl (fun p m => max p m.pos) p = p ∨ ∃ m ∈ ms, m.pos = ms.foldl (fun p m => max p m.pos) p) := by
  induction ms with
  | nil => intro p; simp
  | cons a ms ih =>
    intro p
    obtain ⟨h1, h2, h3⟩ := ih (max p a.pos)
    simp only [List.foldl_cons]
    refine ⟨by omega, ?_, ?_⟩
    · intro m hm
      rcases List.mem_cons.1 hm with rfl | hm
      · omega
      · exact h2 m hm
    · rcases h3 with h3 | ⟨m, hm, h3⟩
      · rcases Nat.le_total a.pos p with h | h
        · exact .inl (by omega)
        · exact .inr ⟨a, by simp, by omega⟩
      · exact .inr ⟨m, by simp [hm], h3⟩

theorem le_furthest {ms : List Mark} {m : Mark} (h : m ∈ ms) : m.pos ≤ furthest ms := (furthest_go ms 0).2.1 m h

theorem furthest_mem {ms : List Mark} (h : ms ≠ []) : ∃ m ∈ ms, m.pos = furthest ms := by
  rcases (furthest_go ms 0).2.2 with h1 | h1
  · cases ms with
    | nil => exact absurd rfl h
    | cons a ms =>
      refine ⟨a, by simp, ?_⟩
      have := le_furthest (ms := a :: ms) (m := a) (by simp)
      unfold furthest at this ⊢
      omega
  · exact h1

/-! ## Positions -/

theorem before_bytes : ∀ a b : List Char, before (a ++ b) (Peg.bytes a) = some a
  | [], b => by cases b <;> rfl
  | c :: a, b => by
    have hp : 0 < c.utf8Size := c.utf8Size_pos
    have e : Peg.bytes (c :: a) = c.utf8Size + Peg.bytes a := by simp [Peg.bytes]
    obtain ⟨n, hn⟩ : ∃ n, Peg.bytes (c :: a) = n + 1 := ⟨Peg.bytes (c :: a) - 1, by omega⟩
    rw [hn, List.cons_append, before, if_pos (by omega)]
    rw [show n + 1 - c.utf8Size = Peg.bytes a by omega, before_bytes a b]
    rfl

/-- The place after the text `a`: the number of the line, counted from 1, and the column, counted from 1 in characters. -/
structure PlaceAfter (a : List Char) (line column : Nat) : Prop where
  line_eq : line = a.count '\n' + 1
  column_eq : ∃ u v, a = u ++ v ∧ '\n' ∉ v ∧ (u = [] ∨ ∃ u', u = u' ++ ['\n']) ∧ column = v.length + 1

theorem placeAfter (a : List Char) : PlaceAfter a ((a.filter (· == '\n')).length + 1) ((a.reverse.takeWhile (· != '\n')).length + 1) := by
  refine ⟨by rw [List.count_eq_countP, List.countP_eq_length_filter], (a.reverse.dropWhile (· != '\n')).reverse, (a.reverse.takeWhile (· != '\n')).reverse, ?_, ?_, ?_, by simp⟩
  · rw [← List.reverse_append, List.takeWhile_append_dropWhile, List.reverse_reverse]
  · intro h
    rw [List.mem_reverse] at h
    have := List.all_takeWhile (l := a.reverse) (p := (· != '\n'))
    rw [List.all_eq_true] at this
    have := this _ h
    simp at this
  · generalize hd : a.reverse.dropWhile (· != '\n') = d
    cases d with
    | nil => exact .inl rfl
    | cons c d =>
      have : c = '\n' := by
        have h := List.head?_dropWhile_not (· != '\n') a.reverse
        rw [hd] at h
        simpa using h
      subst this
      exact .inr ⟨d.reverse, by simp⟩

/-! ## What an error says -/

/-- `e` is a good report about the text: it points between two characters, tells the line and the column there, and lists, in order and each once, at
least one thing; nothing that it lists is there. -/
def GoodReport (text : List Char) (e : Unexpected) : Prop :=
  ∃ a b, text = a ++ b ∧ e.offset = Peg.bytes a ∧ PlaceAfter a e.line e.column ∧ e.expected ≠ [] ∧ e.expected.Pairwise (· < ·) ∧ ∀ t ∈ e.expected, Lacks t a b

theorem at_start (W : List Char) : At W ⟨0, W⟩ := ⟨[], rfl, rfl⟩

theorem at_unique {a b a' b' : List Char} (h : a ++ b = a' ++ b') (hb : Peg.bytes a = Peg.bytes a') : a = a' ∧ b = b' := by
  have h1 := before_bytes a b
  rw [h, hb, before_bytes a' b'] at h1
  cases h1
  exact ⟨rfl, List.append_cancel_left h⟩

theorem good_of_fine {α : Type} {text : List Char} {x : Tr.T α} (h : Tr.Fine text x) (hne : (x ⟨0, text⟩).2 ≠ []) :
    ∃ e, syntaxError text (x ⟨0, text⟩).2 = .ok e ∧ GoodReport text e ∧ e.offset = furthest (x ⟨0, text⟩).2 ∧ e.expected = expectedAt (furthest (x ⟨0, text⟩).2) (x ⟨0, text⟩).2 := by
  have hm := (h _ (at_start text)).2
  generalize (x ⟨0, text⟩).2 = ms at hm hne
  obtain ⟨m, hmem, hpos⟩ := furthest_mem hne
  obtain ⟨a, b, h1, h2, -, -⟩ := hm m hmem
  have hb : before text (furthest ms) = some a := by rw [← hpos, h2, h1, before_bytes]
  refine ⟨_, by rw [syntaxError, hb], ⟨a, b, h1, by show furthest ms = _; omega, placeAfter a, ?_, sorted_expectedAt, ?_⟩, rfl, rfl⟩
  · exact List.ne_nil_of_mem (mem_expectedAt.2 ⟨m, hmem, hpos, rfl⟩)
  · intro t ht
    obtain ⟨m', hm', hp', rfl⟩ := mem_expectedAt.1 ht
    obtain ⟨a', b', h1', h2', -, h4⟩ := hm m' hm'
    obtain ⟨rfl, rfl⟩ := at_unique (h1.symm.trans h1') (by omega)
    exact h4

/-! ## The rule `code` -/

/-- Rules that cannot fail. -/
def NeverFails {α : Type} (x : P α) : Prop := ∀ i, x i ≠ .fail

namespace NeverFails

variable {α β : Type}

theorem pure (a : α) : NeverFails (Pure.pure a : P α) := fun _ => nofun

theorem bind {x : P α} {f : α → P β} (h : NeverFails x) (hf : ∀ a, NeverFails (f a)) : NeverFails (x >>= f) := by
  intro i
  rw [P.bind_app]
  have := h i
  cases hx : x i with
  | ok a j => exact hf a j
  | fail => exact absurd hx this
  | oof => nofun

theorem position : NeverFails position := fun _ => nofun

theorem opt (x : P α) : NeverFails (opt x) := by
  intro i
  unfold Peg.opt
  cases x i <;> nofun

theorem manyN (x : P α) : ∀ n, NeverFails (manyN x n)
  | 0 => fun _ => nofun
  | n + 1 => by
    intro i
    unfold Peg.manyN
    cases x i with
    | ok a j => exact bind (manyN x n) (fun as => pure (a :: as)) j
    | fail => nofun
    | oof => nofun

theorem skip : NeverFails skip := bind (fun i => manyN _ _ i) fun _ => pure _

theorem code (E : Env) : NeverFails (code E) := bind skip fun _ => bind position fun _ => bind (opt _) fun _ => bind position fun _ => bind skip fun _ => pure _

end NeverFails

/-- The rule `code` reads a part of every text. -/
theorem code_reads (E : Env) (text : List Char) : ∃ ast a b, text = a ++ b ∧ code E ⟨0, text⟩ = .ok ast ⟨Peg.bytes a, b⟩ := by
  have h := Good.code (T := text) (n := text.length) E ⟨0, text⟩ (at_start text) (Nat.le_refl _)
  have h' := NeverFails.code E ⟨0, text⟩
  have hl := ((Tr.Fine.code (W := text) E) _ (at_start text)).1
  have hf : (Tr.code E ⟨0, text⟩).1 = code E ⟨0, text⟩ := congrFun (Tr.fg_code E) _
  rw [hf] at hl
  cases hc : code E ⟨0, text⟩ with
  | ok ast j =>
    obtain ⟨mid, h1, h2⟩ := hl ast j hc
    obtain ⟨q, b⟩ := j
    simp only [Nat.zero_add] at h1 h2
    exact ⟨ast, mid, b, h1, by rw [h2]⟩
  | fail => exact absurd hc h'
  | oof => rw [hc] at h; exact h.elim

theorem all_notes (E : Env) (text : List Char) {ast : List Node} {j : Inp} (h : code E ⟨0, text⟩ = .ok ast j) :
    (Tr.all E ⟨0, text⟩).1 = (if j.rest = [] then .ok ast j else .fail) ∧ (j.rest ≠ [] → ⟨j.pos, "EOF"⟩ ∈ (Tr.all E ⟨0, text⟩).2) := by
  have hf : (Tr.code E ⟨0, text⟩).1 = .ok ast j := (congrFun (Tr.fg_code E) _).trans h
  have e : Tr.all E ⟨0, text⟩ = Tr.T.bind (Tr.code E) (fun a => Tr.T.bind Tr.eof fun _ => pure a) ⟨0, text⟩ := rfl
  rw [e]
  unfold Tr.T.bind
  rcases hc : Tr.code E ⟨0, text⟩ with ⟨r, m⟩
  rw [hc] at hf
  simp only at hf
  subst hf
  obtain ⟨q, b⟩ := j
  cases b with
  | nil => exact ⟨rfl, fun h => absurd rfl h⟩
  | cons c b => exact ⟨rfl, fun _ => List.mem_append_right _ (.head _)⟩

/-! ## Programs -/

/-- Either the text is a program, and `parse_code` gives what the parser of the other theorems gives, or it is not, and `parse_code` gives an
error: it never panics on its way to the message (`&text[..offset]`) nor runs on. -/
theorem C82_same (E : Env) (text : List Char) :
    (∃ ast i, parseCode E text = .ok ast i ∧ readCode E text = some (.ok ast)) ∨
    (parseCode E text = .fail ∧ ∃ e, readCode E text = some (.error (.ok e))) := by
  have hf := Tr.fg_all E text
  obtain ⟨ast, a, b, h1, h2⟩ := code_reads E text
  obtain ⟨h3, h4⟩ := all_notes E text h2
  unfold readCode
  rcases hr : Tr.all E ⟨0, text⟩ with ⟨r, ms⟩
  rw [hr] at hf h3 h4
  simp only at hf h3 h4
  cases b with
  | nil =>
    simp only [if_pos] at h3
    subst h3
    exact .inl ⟨ast, _, hf.symm, rfl⟩
  | cons c b =>
    rw [if_neg (by simp)] at h3
    subst h3
    obtain ⟨e, he, -⟩ := good_of_fine (Tr.Fine.all (W := text) E) (by rw [hr]; exact List.ne_nil_of_mem (h4 (by simp)))
    rw [hr] at he
    exact .inr ⟨hf.symm, e, by simp only [he]⟩

theorem readCode_error {E : Env} {text : List Char} {r : Res Unexpected} (h : readCode E text = some (.error r)) :
    ∃ e, r = .ok e ∧ GoodReport text e ∧ ∃ ast a b, text = a ++ b ∧ code E ⟨0, text⟩ = .ok ast ⟨Peg.bytes a, b⟩ ∧ b ≠ [] ∧ Peg.bytes a ≤ e.offset ∧
      (e.offset = Peg.bytes a → "EOF" ∈ e.expected) := by
  obtain ⟨ast, a, b, h1, h2⟩ := code_reads E text
  obtain ⟨h3, h4⟩ := all_notes E text h2
  have hb : b ≠ [] := by
    rintro rfl
    unfold readCode at h
    rcases hr : Tr.all E ⟨0, text⟩ with ⟨r, ms⟩
    rw [hr] at h h3
    simp only [if_pos] at h3
    subst h3
    cases h
  obtain ⟨e, he, hg, ho, hx⟩ := good_of_fine (Tr.Fine.all (W := text) E) (List.ne_nil_of_mem (h4 hb))
  refine ⟨e, ?_, hg, ast, a, b, h1, h2, hb, ?_, ?_⟩
  · unfold readCode at h
    rcases hr : Tr.all E ⟨0, text⟩ with ⟨r, ms⟩
    rw [hr] at h h3 he
    simp only [if_neg hb] at h3
    subst h3
    simp only [Option.some.injEq, Except.error.injEq] at h
    rw [← h, he]
  · rw [ho]; exact le_furthest (h4 hb)
  · intro hp
    rw [hx]
    exact mem_expectedAt.2 ⟨_, h4 hb, by show Peg.bytes a = _; omega, rfl⟩

/-- The report on a text that is not a program points between two characters of the text, tells the line and the column of that place, and lists
names, at least one, in order, each once. Nothing that it lists stands at that place. Not proved, because violated: that everything that could stand
there is listed (`C82_violated_keyword`). -/
theorem C82_report_partial {E : Env} {text : List Char} {r : Res Unexpected} (h : readCode E text = some (.error r)) :
    ∃ e a b, r = .ok e ∧ text = a ++ b ∧ e.offset = Peg.bytes a ∧ PlaceAfter a e.line e.column ∧
      e.expected ≠ [] ∧ e.expected.Pairwise (· < ·) ∧ ∀ t ∈ e.expected, Lacks t a b := by
  obtain ⟨e, h1, ⟨a, b, h2⟩, -⟩ := readCode_error h
  exact ⟨e, a, b, h1, h2⟩

/-- The report does not point before the place where the statements that were read end, and if it points there, the end of the text is among what
is expected. -/
theorem C82_after {E : Env} {text : List Char} {r : Res Unexpected} (h : readCode E text = some (.error r)) :
    ∃ e ast a b, r = .ok e ∧ text = a ++ b ∧ b ≠ [] ∧ code E ⟨0, text⟩ = .ok ast ⟨Peg.bytes a, b⟩ ∧ Peg.bytes a ≤ e.offset ∧
      (e.offset = Peg.bytes a → "EOF" ∈ e.expected) := by
  obtain ⟨e, h1, -, ast, a, b, h2, h3, h4, h5, h6⟩ := readCode_error h
  exact ⟨e, ast, a, b, h1, h2, h4, h3, h5, h6⟩

open Cs in
theorem stmtEnd_close {c : Char} (hc : c ∈ [')', ']', '}', ',']) (r : List Char) : StmtEnd (c :: r) := by
  simp only [List.mem_cons, List.not_mem_nil, or_false] at hc
  rcases hc with rfl | rfl | rfl | rfl <;>
    exact ⟨fun _ _ hG => after_close hG (by decide) (fun _ => by decide), fun _ hG => stop_close hG (by decide), noSkip_cons (by decide), (show exprStart _ = false by decide)⟩

open Cs in
theorem code_close (E : Env) (p : Prog) (h : p.ok = true) {c : Char} (hc : c ∈ [')', ']', '}', ',']) (r : List Char) :
    Gives (code E) (p.text ++ c :: r) fun a s => stripL a = p.ast E.float ∧ s = c :: r := by
  obtain ⟨g, b⟩ := p
  have he := stmtEnd_close hc r
  simp only [Prog.ok, Bool.and_eq_true] at h
  have hns : NoSkip (Cst.textB b ++ c :: r) := by
    cases b with
    | nil => exact he.ns
    | cons e b =>
      obtain ⟨c, g⟩ := e
      simp only [Cst.okB, Bool.and_eq_true] at h
      rw [Cst.textB]
      simp only [List.append_assoc]
      exact Cst.noSkip h.2.1.1.1 _
  show Gives (code E) ((g.text ++ Cst.textB b) ++ c :: r) _
  rw [List.append_assoc]
  unfold code
  refine (takes_skip h.1 hns).bind (Gives.position.bind fun _ _ e => e ▸ ?_)
  refine (Gives.opt_some (gives_stmts he h.2 (stmtParser_top (readsB E b h.2)) (Nat.lt_succ_self _))).bind ?_
  rintro _ _ ⟨as, rfl, h1, G, h2, rfl⟩
  refine Gives.position.bind fun _ _ e => e ▸ ((takes_skip h2 he.ns).bind (Gives.pure ⟨?_, rfl⟩))
  rw [strip_addImplicitNone, Option.getD_some, h1]
  rfl

/-- A closing bracket or a comma after a whole program is an error, reported there or later, never within the program; if it is reported there, the
report lists the end of the text. -/
theorem C82_stray (E : Env) (p : Cs.Prog) (h : p.ok = true) {c : Char} (hc : c ∈ [')', ']', '}', ',']) (r : List Char) :
    ∃ e, readCode E (p.text ++ c :: r) = some (.error (.ok e)) ∧ Peg.bytes p.text ≤ e.offset ∧ (e.offset = Peg.bytes p.text → "EOF" ∈ e.expected) := by
  obtain ⟨ast, q, s, h1, -, rfl⟩ := code_close E p h hc r 0
  obtain ⟨ast', a, b, h2, h3⟩ := code_reads E (p.text ++ c :: r)
  have h3' := h3
  rw [h1] at h3'
  cases h3'
  have ha : p.text = a := List.append_cancel_right h2
  obtain ⟨h4, -⟩ := all_notes E _ h3
  rw [if_neg (by simp)] at h4
  have hfail := (Tr.fg_all E _).symm.trans h4
  rcases C82_same E (p.text ++ c :: r) with ⟨_, _, h5, _⟩ | ⟨_, e, h5⟩
  · rw [hfail] at h5; cases h5
  · obtain ⟨e', h6, -, _, a', b', h7, h8, -, h9, h10⟩ := readCode_error h5
    cases h6
    rw [h3] at h8
    injection h8 with _ h8
    injection h8 with h8 _
    refine ⟨e, h5, ?_, ?_⟩
    · rw [ha]; omega
    · intro h; exact h10 (by rw [ha] at h; omega)

/-! ## Literals -/

theorem orElse_notes {α : Type} {x y : Tr.T α} {i : Inp} (h : ((Tr.orElse x y) i).1 = .fail) : (x i).1 = .fail ∧ (y i).1 = .fail ∧ (∀ m ∈ (y i).2, m ∈ ((Tr.orElse x y) i).2) ∧
    ∀ m ∈ (x i).2, m ∈ ((Tr.orElse x y) i).2 := by
  unfold Tr.orElse at h ⊢
  rcases hx : x i with ⟨r, ms⟩
  rw [hx] at h
  cases r with
  | ok => cases h
  | oof => cases h
  | fail => exact ⟨rfl, h, fun m hm => List.mem_append_right _ hm, fun m hm => List.mem_append_left _ hm⟩

/-- A text that is not a literal is reported in the same way. -/
theorem literal_notes (E : Env) (k : Nat) (i : Inp) (h : (Tr.literalN E (k + 1) i).1 = .fail) : (Tr.literalN E (k + 1) i).2 ≠ [] := by
  rw [Tr.literalN] at h ⊢
  unfold Tr.literalF at h ⊢
  obtain ⟨-, h, hm, -⟩ := orElse_notes h
  suffices ∃ m, m ∈ _ from this.elim fun m h' => List.ne_nil_of_mem (hm m h')
  obtain ⟨-, h, hm, -⟩ := orElse_notes h
  suffices ∃ m, m ∈ _ from this.elim fun m h' => ⟨m, hm m h'⟩
  obtain ⟨-, h, hm, -⟩ := orElse_notes h
  suffices ∃ m, m ∈ _ from this.elim fun m h' => ⟨m, hm m h'⟩
  obtain ⟨-, h, hm, -⟩ := orElse_notes h
  suffices ∃ m, m ∈ _ from this.elim fun m h' => ⟨m, hm m h'⟩
  obtain ⟨h, -, -, hm⟩ := orElse_notes h
  suffices ∃ m, m ∈ _ from this.elim fun m h' => ⟨m, hm m h'⟩
  change (Tr.T.bind (Tr.float E) _ i).1 = _ at h
  show ∃ m, m ∈ (Tr.T.bind (Tr.float E) _ i).2
  unfold Tr.T.bind at h ⊢
  rcases hx : Tr.float E i with ⟨r, ms⟩
  rw [hx] at h
  cases r with
  | ok => cases h
  | oof => cases h
  | fail =>
    unfold Tr.float at hx
    have := orElse_notes (congrArg Prod.fst hx)
    exact ⟨⟨i.pos, "float"⟩, by show _ ∈ ms; have := this.2.2.1 ⟨i.pos, "float"⟩ (.head _); rw [hx] at this; exact this⟩

theorem allLiteral_notes (E : Env) (text : List Char) (h : (Tr.allLiteral E ⟨0, text⟩).1 = .fail) : (Tr.allLiteral E ⟨0, text⟩).2 ≠ [] := by
  have e : Tr.allLiteral E ⟨0, text⟩ = Tr.T.bind (Tr.literal E) (fun a => Tr.T.bind Tr.eof fun _ => pure a) ⟨0, text⟩ := rfl
  rw [e] at h ⊢
  unfold Tr.T.bind at h ⊢
  have hn := literal_notes E text.length ⟨0, text⟩
  change (Tr.literal E ⟨0, text⟩).1 = .fail → (Tr.literal E ⟨0, text⟩).2 ≠ [] at hn
  rcases hc : Tr.literal E ⟨0, text⟩ with ⟨r, m⟩
  rw [hc] at h hn
  cases r with
  | fail => exact hn rfl
  | oof => cases h
  | ok a j =>
    obtain ⟨q, b⟩ := j
    cases b with
    | nil => cases h
    | cons c b => exact List.ne_nil_of_mem (List.mem_append_right m (.head _))

/-- `parse_literal`: the literal, or a good report. -/
theorem C82_literal (E : Env) (text : List Char) :
    (∃ l i, parseLiteral E text = .ok l i ∧ readLiteral E text = some (.ok l)) ∨
    (parseLiteral E text = .fail ∧ ∃ e, readLiteral E text = some (.error (.ok e)) ∧
      ∃ a b, text = a ++ b ∧ e.offset = Peg.bytes a ∧ PlaceAfter a e.line e.column ∧ e.expected ≠ [] ∧ e.expected.Pairwise (· < ·) ∧ ∀ t ∈ e.expected, Lacks t a b) := by
  have hf := Tr.fg_allLiteral E text
  unfold readLiteral
  rcases C51_literal_terminates E text with ⟨l, i, h⟩ | h
  · rw [h] at hf
    rcases hr : Tr.allLiteral E ⟨0, text⟩ with ⟨r, ms⟩
    rw [hr] at hf
    simp only at hf
    subst hf
    exact .inl ⟨l, i, h, rfl⟩
  · rw [h] at hf
    obtain ⟨e, he, hg, -⟩ := good_of_fine (Tr.Fine.allLiteral (W := text) E) (allLiteral_notes E text hf)
    rcases hr : Tr.allLiteral E ⟨0, text⟩ with ⟨r, ms⟩
    rw [hr] at hf he
    simp only at hf
    subst hf
    exact .inr ⟨h, e, by simp only [he], hg⟩

/-! ## Included files -/

/-- The error of a text that was not read tells of the last source, and that source cannot be read. -/
def LastUnread (W : World) {α : Type} (out : IRes α × Cache) : Prop :=
  ∀ id, out.1 = .err (.parse id) → ∃ name text l, out.2.sources = l ++ [(name, text)] ∧ id = l.length ∧ parseCode ⟨id, W.float⟩ text = .fail

theorem LastUnread.bind {W : World} {α β : Type} {x : IM α} {f : α → IM β} {c : Cache} (h : LastUnread W (x c)) (hf : ∀ a c', LastUnread W (f a c')) : LastUnread W (IM.bind x f c) := by
  unfold IM.bind
  rcases hx : x c with ⟨r, c'⟩
  rw [hx] at h
  cases r with
  | ok a => exact hf a c'
  | err e => intro id hid; cases hid; exact h id rfl
  | oof => nofun

theorem LastUnread.ok {W : World} {α : Type} (a : α) (c : Cache) : LastUnread W ((IRes.ok a, c) : IRes α × Cache) := nofun

theorem LastUnread.each {W : World} {α β : Type} {f : α → IM β} (hf : ∀ a c, LastUnread W (f a c)) : ∀ as c, LastUnread W (IM.each f as c)
  | [], c => .ok _ c
  | a :: as, c => .bind (hf a c) fun _ c => .bind (LastUnread.each hf as c) fun _ _ => .ok _ _

theorem LastUnread.addParse (W : World) (name : String) (src : List Char) (c : Cache) : LastUnread W (addParse W name src c) := by
  unfold Peg.addParse
  simp only
  cases h : parseCode ⟨c.sources.length, W.float⟩ src with
  | ok => exact .ok _ _
  | oof => nofun
  | fail => intro id hid; cases hid; exact ⟨name, src, c.sources, rfl, rfl, h⟩

mutual
theorem LastUnread.pwi (W : World) : ∀ k name src c, LastUnread W (parseWithIncludes W k name src c)
  | 0, name, src, c => by unfold parseWithIncludes; nofun
  | k + 1, name, src, c => by
    unfold parseWithIncludes
    exact .bind (.addParse W name src c) fun ast c => .each (LastUnread.node W k) ast c
termination_by structural k => k
theorem LastUnread.node (W : World) : ∀ k n c, LastUnread W (resolveNode W k n c)
  | k, n, c => by
    cases hn : inclName n with
    | none => rw [resolveNode_other hn]; exact .ok _ _
    | some y =>
      cases n <;> first | (simp [inclName] at hn; done) | skip
      rename_i sp x b
      obtain ⟨x, xsp⟩ := x
      match k with
      | 0 => unfold resolveNode; split <;> nofun
      | k + 1 =>
        unfold resolveNode
        split
        · nofun
        · split
          · nofun
          · exact .bind (LastUnread.pwi W k x _ c) fun _ _ => .bind (.ok _ _) fun _ c => .bind (.each (LastUnread.node W k) _ c) fun _ _ => .ok _ _
termination_by structural k => k
end

/-- If reading a program with its includes ends with a syntax error, the error is that of the last text that was read, under the number it has among
the sources, and a good report on it. -/
theorem C82_include {W : World} {k : Nat} {name : String} {src : List Char} {c c' : Cache} {id : Nat} (h : parseWithIncludes W k name src c = (.err (.parse id), c')) :
    ∃ file text l e, c'.sources = l ++ [(file, text)] ∧ id = l.length ∧ readCode ⟨id, W.float⟩ text = some (.error (.ok e)) ∧ GoodReport text e := by
  have := LastUnread.pwi W k name src c id
  rw [h] at this
  obtain ⟨file, text, l, h1, h2, h3⟩ := this rfl
  rcases C82_same ⟨id, W.float⟩ text with ⟨_, _, h4, _⟩ | ⟨_, e, h4⟩
  · rw [h3] at h4; cases h4
  · obtain ⟨e', h5, h6, -⟩ := readCode_error h4
    cases h5
    exact ⟨file, text, l, e, h1, h2, h4, h6⟩

/-! ## Cases -/

/-- What is reported about a text. -/
def report (s : String) : Option Unexpected := match readCode ⟨0, fun _ => 0⟩ s.toList with
  | some (.error (.ok e)) => some e
  | _ => none

/-- Whether a text is read. -/
def isRead (s : String) : Bool := match readCode ⟨0, fun _ => 0⟩ s.toList with
  | some (.ok _) => true
  | _ => false

-- The name is missing, in the third line, after a character of two bytes.
example : (report "a\nb\n\"é\";let ").map (fun e => (e.line, e.column, e.offset, e.expected)) = some (3, 9, 13, ["identifier"]) := by decide +kernel
-- A bracket too many: reported after the program, and the end of the text is expected.
example : (report "let x = [1]\n]").map (fun e => (e.line, e.column, e.offset, e.expected.contains "EOF")) = some (2, 1, 12, true) := by decide +kernel
example : isRead "let x = [1]\n" = true := by decide +kernel
example : report "let x = [1]\n" = none := by decide +kernel
-- A literal.
example : (match readLiteral ⟨0, fun _ => 0⟩ "(1 2)".toList with
    | some (.error (.ok e)) => some (e.offset, e.expected)
    | _ => none) = some (3, ["\",\"", "\":\""]) := by decide +kernel

/-- What could stand at the place of an error need not be listed: a list never has a keyword. Here `in` is missing, and a comma is asked for; with `in` in
its place the program is read. -/
theorem C82_violated_keyword :
    (report "for x [1] { x }").map (fun e => (e.offset, e.expected)) = some (6, ["\",\""]) ∧ isRead "for x in [1] { x }" = true := by decide +kernel

/-- What is listed need not be of use: no text that begins with a colour of two digits and the "Invalid hex color" that is asked for exists, and an open string
is reported where it begins. -/
theorem C82_violated_list :
    (report "#12").map (fun e => (e.offset, e.expected)) = some (3, ["Invalid hex color", "['0'..='9' | 'a'..='f' | 'A'..='F']"]) ∧
    (report "let s = \"abc").map (fun e => (e.offset, e.expected.contains "string")) = some (8, true) := by decide +kernel

end Quilt.Props
