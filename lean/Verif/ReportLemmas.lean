import Verif.Report

/-!
# The line table
-/

namespace Quilt

/-- Empty or ending in a line break. -/
def endsLine (d : List Char) : Prop := d = [] ∨ ∃ d' b, d = d' ++ [b] ∧ isBreak b = true

theorem endsLine_tail {c : Char} {d : List Char} (h : endsLine (c :: d)) : endsLine d ∧ (d = [] → isBreak c = true) := by
  rcases h with h | ⟨d', b, h, hb⟩
  · simp at h
  · cases d' with
    | nil => simp at h; obtain ⟨rfl, rfl⟩ := h; exact ⟨.inl rfl, fun _ => hb⟩
    | cons a d' =>
      simp only [List.cons_append, List.cons.injEq] at h
      obtain ⟨rfl, rfl⟩ := h
      exact ⟨.inr ⟨d', b, rfl, hb⟩, fun h => by simp at h⟩

theorem pieces_ne {c : Char} {d : List Char} : pieces (c :: d) ≠ [] := by
  unfold pieces; split
  · simp
  · cases pieces d <;> simp [Lib.consHead]

theorem pieces_append : ∀ {d : List Char} (_ : endsLine d) (x : List Char), pieces (d ++ x) = pieces d ++ pieces x
  | [], _, x => rfl
  | c :: d, h, x => by
    obtain ⟨h1, h2⟩ := endsLine_tail h
    have ih := pieces_append h1 x
    simp only [List.cons_append, pieces, ih]
    split
    · rfl
    · rename_i hc
      cases d with
      | nil => exact absurd (h2 rfl) hc
      | cons a d =>
        cases hp : pieces (a :: d) with
        | nil => exact absurd hp pieces_ne
        | cons p ps => rfl

theorem pieces_length : ∀ {d : List Char} (_ : endsLine d), (pieces d).length = d.countP isBreak
  | [], _ => rfl
  | c :: d, h => by
    obtain ⟨h1, h2⟩ := endsLine_tail h
    have ih := pieces_length h1
    rw [List.countP_cons]
    unfold pieces
    split
    · rename_i hc; simp [ih, hc]
    · rename_i hc
      cases d with
      | nil => exact absurd (h2 rfl) hc
      | cons a d =>
        cases hp : pieces (a :: d) with
        | nil => exact absurd hp pieces_ne
        | cons p ps => rw [hp] at ih; simpa [Lib.consHead, hc] using ih

theorem pieces_flatten : ∀ d : List Char, (pieces d).flatten = d
  | [] => rfl
  | c :: d => by
    have ih := pieces_flatten d
    unfold pieces
    split
    · simp [ih]
    · cases hp : pieces d with
      | nil => rw [hp] at ih; simp [Lib.consHead] at ih ⊢; exact ih
      | cons p ps => rw [hp] at ih; simpa [Lib.consHead] using ih

/-- A line and what follows. -/
theorem pieces_line : ∀ (l : List Char), (∀ c ∈ l, isBreak c = false) → ∀ after : List Char, l ++ after ≠ [] → (∀ b r, after = b :: r → isBreak b = true) →
    pieces (l ++ after) = (l ++ after.take 1) :: pieces (after.drop 1)
  | [], _, after, hne, ha => by
    cases after with
    | nil => simp at hne
    | cons b r => simp [pieces, ha b r rfl]
  | c :: l, hl, after, _, ha => by
    simp only [List.cons_append, pieces, hl c (by simp)]
    by_cases hne : l ++ after = []
    · simp at hne; obtain ⟨rfl, rfl⟩ := hne
      simp [pieces, Lib.consHead]
    · have hr := pieces_line l (fun c hc => hl c (List.mem_cons_of_mem _ hc)) after hne ha
      rw [hr]; simp [Lib.consHead]

namespace Source

theorem mkLines_append : ∀ (a b : List (List Char)) (o : Nat), mkLines o (a ++ b) = mkLines o a ++ mkLines (o + a.flatten.length) b
  | [], b, o => by simp [mkLines]
  | p :: a, b, o => by simp [mkLines, mkLines_append a b, Nat.add_assoc]

theorem mkLines_length : ∀ (a : List (List Char)) (o : Nat), (mkLines o a).length = a.length
  | [], o => rfl
  | p :: a, o => by simp [mkLines, mkLines_length a]

theorem mkLines_offset : ∀ (a : List (List Char)) (o : Nat), ∀ l ∈ mkLines o a, l.offset ≤ o + a.flatten.length
  | [], o => by simp [mkLines]
  | p :: a, o => by
    intro l hl
    simp only [mkLines, List.mem_cons] at hl
    rcases hl with rfl | hl
    · simp
    · have := mkLines_offset a _ l hl
      simp only [List.flatten_cons, List.length_append]; omega

end Source

/-- The line at a position: `done` are the lines before it, `l1 ++ l2` is its text, the position is behind `l1`. -/
theorem offsetLine_at {done l1 l2 after : List Char} (hd : endsLine done) (hl : ∀ c ∈ l1 ++ l2, isBreak c = false)
    (ha : ∀ b r, after = b :: r → isBreak b = true) (hne : l1 ++ l2 ++ after ≠ []) :
    (Source.ofText (done ++ (l1 ++ l2) ++ after)).offsetLine (done ++ l1).length = .ok (some (done.countP isBreak)) ∧
    ∃ o n, (Source.ofText (done ++ (l1 ++ l2) ++ after)).lines[done.countP isBreak]? = some ⟨o, n, Lib.trimEndText ((l1 ++ l2) ++ after.take 1)⟩ ∧ o = done.length := by
  have hr := pieces_line (l1 ++ l2) hl after hne ha
  have hlines : (Source.ofText (done ++ (l1 ++ l2) ++ after)).lines =
      Source.mkLines 0 (pieces done) ++ ⟨done.length, (l1 ++ l2 ++ after.take 1).length, Lib.trimEndText ((l1 ++ l2) ++ after.take 1)⟩ ::
        Source.mkLines (done.length + (l1 ++ l2 ++ after.take 1).length) (pieces (after.drop 1)) := by
    simp only [Source.ofText]
    rw [List.append_assoc, pieces_append hd, hr, Source.mkLines_append, pieces_flatten]
    simp only [Source.mkLines, Nat.zero_add]
  have hlen : (Source.mkLines 0 (pieces done)).length = done.countP isBreak := by rw [Source.mkLines_length, pieces_length hd]
  constructor
  · unfold Source.offsetLine
    have htw : ((Source.ofText (done ++ (l1 ++ l2) ++ after)).lines.takeWhile fun l => decide (l.offset ≤ (done ++ l1).length)).length = done.countP isBreak + 1 := by
      rw [hlines, List.takeWhile_append_of_pos]
      · simp only [List.length_append, List.takeWhile_cons, hlen]
        rw [if_pos (by simp)]
        cases after with
        | nil => simp [Source.mkLines, pieces]
        | cons b after =>
          cases hp : pieces ((b :: after).drop 1) with
          | nil => simp [Source.mkLines]
          | cons p ps =>
            simp only [Source.mkLines, List.takeWhile_cons]
            rw [if_neg]
            · simp
            · simp; omega
      · intro l hl
        have := Source.mkLines_offset _ _ l hl
        rw [pieces_flatten] at this
        simp; omega
    simp only [htw, Nat.add_sub_cancel]
    rw [if_pos (by simp [Source.ofText]), if_pos (by rw [hlines]; simp [hlen])]
  · refine ⟨done.length, (l1 ++ l2 ++ after.take 1).length, ?_, rfl⟩
    rw [hlines, List.getElem?_append_right (by omega), hlen]
    simp

theorem isBreak_space {c : Char} (h : isBreak c = true) : Lib.isSpace c = true := by
  simp only [isBreak, Bool.or_eq_true, beq_iff_eq] at h
  unfold Lib.isSpace
  rcases h with (((((h | h) | h) | h) | h) | h) | h <;> simp [h]

theorem trimEnd_break {l after : List Char} (ha : ∀ b r, after = b :: r → isBreak b = true) : Lib.trimEndText (l ++ after.take 1) = Lib.trimEndText l := by
  cases after with
  | nil => simp
  | cons b r => simp [Lib.trimEndText, isBreak_space (ha b r rfl)]

theorem pieces_eq_nil {t : List Char} (h : pieces t = []) : t = [] := by
  cases t with
  | nil => rfl
  | cons c t => exact absurd h pieces_ne

/-- The line table of a text that is not empty has a line for every offset in it. -/
theorem offsetLine_total {t : List Char} (h : t ≠ []) (o : Nat) : (Source.ofText t).offsetLine o ≠ .panic := by
  unfold Source.offsetLine
  split
  · simp only
    split
    · simp
    · rename_i hn
      exfalso; apply hn
      have h1 : 0 < (Source.ofText t).lines.length := by
        simp only [Source.ofText, Source.mkLines_length]
        exact List.length_pos_iff.2 fun hp => h (pieces_eq_nil hp)
      have h2 := List.IsPrefix.length_le (List.takeWhile_prefix (l := (Source.ofText t).lines) fun l => decide (l.offset ≤ o))
      omega
  · simp

end Quilt
