import Verif.Props.Builtins

/-!
# C55 string builtins, C56 numeric and colour builtins
-/

namespace Quilt.Props

open Quilt.Lib

variable {C : Type}

/-! ## C55 -/

/-- `ps` are the pieces of `s` between the occurrences of `sep`, taken from the left, no two of them
overlapping. -/
inductive Pieces (sep : List Char) : List Char → List (List Char) → Prop
  | last {s} (none : ∀ a b, s ≠ a ++ sep ++ b) : Pieces sep s [s]
  | more {p rest ps} (first : ∀ a b, p ++ sep ++ rest = a ++ sep ++ b → p.length ≤ a.length) (pieces : Pieces sep rest ps) :
      Pieces sep (p ++ sep ++ rest) (p :: ps)

theorem Pieces.unique {sep s : List Char} {ps qs : List (List Char)} (h : Pieces sep s ps) (h' : Pieces sep s qs) : ps = qs := by
  induction h generalizing qs with
  | @last s none =>
    cases h' with
    | last _ => rfl
    | more _ _ => exact absurd rfl (none _ _)
  | @more p rest ps first _ ih =>
    generalize hs : p ++ sep ++ rest = s at h'
    cases h' with
    | last none => exact absurd hs.symm (none _ _)
    | @more p' rest' ps' first' h2 =>
      have h1 := first _ _ hs
      have h3 := first' _ _ hs.symm
      rw [List.append_assoc, List.append_assoc] at hs
      obtain ⟨e1, e2⟩ := List.append_inj hs (by omega)
      have e3 := List.append_cancel_left e2
      subst e1 e3
      rw [ih h2]

theorem splitGo_drop (sep : List Char) (k : Nat) (s : List Char) : splitGo sep k s = splitGo sep 0 (s.drop k) := by
  induction s generalizing k with
  | nil => simp [splitGo]
  | cons c s ih =>
    cases k with
    | zero => rfl
    | succ k => simp only [splitGo, List.drop_succ_cons]; exact ih k

theorem Pieces.consHead {sep s : List Char} {ps : List (List Char)} {c : Char} (h : Pieces sep s ps) (hc : ¬ sep <+: c :: s) :
    Pieces sep (c :: s) (consHead c ps) := by
  cases h with
  | last none =>
    refine .last fun a b hab => ?_
    cases a with
    | nil => exact hc ⟨b, by simpa using hab.symm⟩
    | cons x a => exact none a b (by simp only [List.cons_append, List.cons.injEq] at hab; exact hab.2)
  | @more p rest ps first hp =>
    refine Pieces.more (p := c :: p) (fun a b hab => ?_) hp
    cases a with
    | nil => exact absurd ⟨b, by simpa using hab.symm⟩ hc
    | cons x a =>
      simp only [List.cons_append, List.cons.injEq] at hab
      have := first a b hab.2
      simp only [List.length_cons]; omega

theorem splitGo_pieces {sep : List Char} (hsep : sep ≠ []) (n : Nat) (s : List Char) (hn : s.length ≤ n) : Pieces sep s (splitGo sep 0 s) := by
  induction n generalizing s with
  | zero =>
    obtain rfl : s = [] := List.length_eq_zero_iff.1 (by omega)
    exact .last fun a b h => by simp at h; exact hsep h.2.1
  | succ n ih =>
    cases s with
    | nil => exact .last fun a b h => by simp at h; exact hsep h.2.1
    | cons c s =>
      simp only [List.length_cons] at hn
      simp only [splitGo]
      split
      · next h =>
        obtain ⟨rest, h⟩ := List.isPrefixOf_iff_prefix.1 h
        rw [splitGo_drop]
        have : s.drop (sep.length - 1) = rest := by
          cases sep with
          | nil => exact absurd rfl hsep
          | cons x sep =>
            simp only [List.cons_append, List.cons.injEq] at h
            rw [← h.2]; simp
        rw [this, ← h]
        refine Pieces.more (p := []) (fun _ _ _ => by simp) (ih _ ?_)
        rw [← this, List.length_drop]; omega
      · next h =>
        exact (ih s (by omega)).consHead fun hp => h (List.isPrefixOf_iff_prefix.2 hp)

theorem joinText_cons (sep x : List Char) {ps : List (List Char)} (h : ps ≠ []) : joinText sep (x :: ps) = x ++ sep ++ joinText sep ps := by
  cases ps with
  | nil => exact absurd rfl h
  | cons y ps => rfl

theorem Pieces.ne_nil {sep s : List Char} {ps : List (List Char)} (h : Pieces sep s ps) : ps ≠ [] := by cases h <;> simp

theorem Pieces.join {sep s : List Char} {ps : List (List Char)} (h : Pieces sep s ps) : joinText sep ps = s := by
  induction h with
  | last _ => rfl
  | more _ hp ih => rw [joinText_cons _ _ hp.ne_nil, ih]

/-- `@split(s, sep)`: the pieces between the separators. An empty separator cuts around every
character. More than the array limit is an error. -/
theorem C55_split (L : Ops) (chk : Bool) (cname : C → String) (lim : Limits) (s sep : List Char) :
    ∃ ps : List (List Char), (sep ≠ [] → Pieces sep s ps) ∧ (sep = [] → ps = [[]] ++ s.map (fun c => [c]) ++ [[]]) ∧
      callStd L chk cname lim "split" [.str s, .str sep] =
        some (if lim.arrMax < ((ps.map (Val.str (C := C))).map Val.getSize).sum then .err (.overflow .arrayTooLarge)
          else .ok (.arr (ps.map .str) ((ps.map (Val.str (C := C))).map Val.getSize).sum lim.arrMax)) := by
  refine ⟨splitText s sep, fun h => ?_, fun h => ?_, ?_⟩
  · unfold splitText
    rw [if_neg (by simpa using h)]
    exact splitGo_pieces h _ s (Nat.le_refl _)
  · subst h; rfl
  · show some (split lim s sep) = _
    unfold split makeArray Vecc.tryNewFrom
    have : Vecc.total Val.getSize ((splitText s sep).map (Val.str (C := C))) = (((splitText s sep).map (Val.str (C := C))).map Val.getSize).sum := rfl
    rw [this]
    split <;> rfl

theorem joinText_single (s : List Char) (t : List Char) : joinText t (s.map (fun c => [c]) ++ [[]]) = s.flatMap (fun c => c :: t) := by
  induction s with
  | nil => rfl
  | cons c s ih =>
    rw [List.map_cons, List.cons_append, joinText_cons _ _ (by simp), ih]
    simp

theorem join_splitText (s sep : List Char) : joinText sep (splitText s sep) = s := by
  unfold splitText
  split
  · next h =>
    obtain rfl : sep = [] := by simpa using h
    rw [List.cons_append, joinText_cons _ _ (by simp), joinText_single]
    simp
  · next h => exact (splitGo_pieces (by simpa using h) _ s (Nat.le_refl _)).join

theorem replaceGo_drop (old new : List Char) (k : Nat) (s : List Char) : replaceGo old new k s = replaceGo old new 0 (s.drop k) := by
  induction s generalizing k with
  | nil => simp [replaceGo]
  | cons c s ih =>
    cases k with
    | zero => rfl
    | succ k => simp only [replaceGo, List.drop_succ_cons]; exact ih k

theorem splitGo_ne_nil (sep : List Char) (k : Nat) (s : List Char) : splitGo sep k s ≠ [] := by
  induction s generalizing k with
  | nil => simp [splitGo]
  | cons c s ih =>
    cases k with
    | zero =>
      simp only [splitGo]
      split
      · simp
      · generalize splitGo sep 0 s = ps
        cases ps <;> simp [consHead]
    | succ k => simp only [splitGo]; exact ih k

theorem joinText_consHead (sep : List Char) (c : Char) {ps : List (List Char)} (h : ps ≠ []) : joinText sep (consHead c ps) = c :: joinText sep ps := by
  cases ps with
  | nil => exact absurd rfl h
  | cons p ps =>
    cases ps with
    | nil => rfl
    | cons q ps => simp [consHead, joinText]

theorem replaceGo_split (old new : List Char) (s : List Char) (k : Nat) : replaceGo old new k s = joinText new (splitGo old k s) := by
  induction s generalizing k with
  | nil => simp [replaceGo, splitGo, joinText]
  | cons c s ih =>
    cases k with
    | zero =>
      simp only [replaceGo, splitGo]
      split
      · rw [ih, joinText_cons _ _ (splitGo_ne_nil _ _ _)]; rfl
      · rw [ih, joinText_consHead _ _ (splitGo_ne_nil _ _ _)]
    | succ k => simp only [replaceGo, splitGo]; exact ih k

theorem replaceText_split (s old new : List Char) : replaceText s old new = joinText new (splitText s old) := by
  unfold replaceText splitText
  split
  · rw [List.cons_append, joinText_cons _ _ (by simp), joinText_single]; rfl
  · exact replaceGo_split old new s 0

theorem str_text (F : FOps) (cname : C → String) (s : List Char) : (Val.str s).text F cname = s := by unfold Val.text; rfl

theorem split_ok {lim : Limits} {s sep : List Char} {v : Val C} (h : split lim s sep = .ok v) :
    v = .arr ((splitText s sep).map .str) (Vecc.total Val.getSize ((splitText s sep).map (Val.str (C := C)))) lim.arrMax := by
  unfold split makeArray Vecc.tryNewFrom at h
  split at h
  · cases h
  · exact (Res.ok.inj h).symm

/-- Splitting and joining with the same separator gives the text back. -/
theorem C55_join_split (L : Ops) (chk : Bool) (cname : C → String) (lim : Limits) (s sep : List Char) (v : Val C)
    (h : callStd L chk cname lim "split" [.str s, .str sep] = some (.ok v)) :
    callStd L chk cname lim "join" [v, .str sep] = some (.ok (.str s)) := by
  obtain rfl := split_ok (Option.some.inj h : split lim s sep = .ok v)
  show some (Res.ok (Val.str (joinText sep _))) = _
  rw [List.map_map]
  have : ((fun v : Val C => v.text L.F cname) ∘ Val.str) = id := funext fun s => str_text L.F cname s
  rw [this, List.map_id, join_splitText]

/-- `@replace(s, old, new)` is `@split` at `old` followed by `@join` with `new`. -/
theorem C55_replace (L : Ops) (chk : Bool) (cname : C → String) (lim : Limits) (s old new : List Char) (v : Val C)
    (h : callStd L chk cname lim "split" [.str s, .str old] = some (.ok v)) :
    callStd L chk cname lim "replace" [.str s, .str old, .str new] = callStd L chk cname lim "join" [v, .str new] := by
  obtain rfl := split_ok (Option.some.inj h : split lim s old = .ok v)
  show some (Res.ok (Val.str (replaceText s old new))) = some (Res.ok (Val.str (joinText new _)))
  rw [List.map_map]
  have : ((fun v : Val C => v.text L.F cname) ∘ Val.str) = id := funext fun s => str_text L.F cname s
  rw [this, List.map_id, replaceText_split]

/-- `@replace` needs no room in an array: it is the pieces joined with the new text. -/
theorem C55_replace_pieces (L : Ops) (chk : Bool) (cname : C → String) (lim : Limits) (s old new : List Char) (ps : List (List Char))
    (ho : old ≠ []) (h : Pieces old s ps) :
    callStd L chk cname lim "replace" [.str s, .str old, .str new] = some (.ok (.str (new.intercalate ps))) := by
  show some (Res.ok (Val.str (replaceText s old new))) = _
  rw [replaceText_split]
  have : splitText s old = ps := by
    unfold splitText
    rw [if_neg (by simpa using ho)]
    exact (splitGo_pieces ho _ s (Nat.le_refl _)).unique h
  rw [this]
  have hj : ∀ ps : List (List Char), joinText new ps = new.intercalate ps := by
    intro ps
    induction ps with
    | nil => rfl
    | cons p ps ih =>
      cases ps with
      | nil => simp [joinText, List.intercalate]
      | cons q ps =>
        rw [joinText_cons _ _ (by simp), ih]
        simp [List.intercalate, List.intersperse]
  rw [hj]

/-- `a, b,, c` cut at `, `. -/
example : Pieces ", ".toList "a, b,, c".toList ["a".toList, "b,".toList, "c".toList] :=
  splitGo_pieces (sep := ", ".toList) (by decide) 8 "a, b,, c".toList (by decide)

/-- `@contains`, `@starts_with`, `@ends_with`. -/
theorem C55_contains (L : Ops) (chk : Bool) (cname : C → String) (lim : Limits) (s x : List Char) :
    (∃ r, callStd L chk cname lim "contains" [.str s, .str x] = some (.ok (.bool r)) ∧ (r = true ↔ ∃ a b, s = a ++ x ++ b)) ∧
    (∃ r, callStd L chk cname lim "starts_with" [.str s, .str x] = some (.ok (.bool r)) ∧ (r = true ↔ ∃ b, s = x ++ b)) ∧
    (∃ r, callStd L chk cname lim "ends_with" [.str s, .str x] = some (.ok (.bool r)) ∧ (r = true ↔ ∃ a, s = a ++ x)) := by
  refine ⟨⟨containsText s x, rfl, ?_⟩, ⟨x.isPrefixOf s, rfl, ?_⟩, ⟨x.isSuffixOf s, rfl, ?_⟩⟩
  · induction s with
    | nil =>
      simp only [containsText, List.isPrefixOf_iff_prefix]
      constructor
      · rintro ⟨b, h⟩; exact ⟨[], b, by simpa using h.symm⟩
      · rintro ⟨a, b, h⟩; simp at h; simp [h.2.1]
    | cons c s ih =>
      simp only [containsText, Bool.or_eq_true, List.isPrefixOf_iff_prefix, ih]
      constructor
      · rintro (⟨b, h⟩ | ⟨a, b, h⟩)
        · exact ⟨[], b, by simpa using h.symm⟩
        · exact ⟨c :: a, b, by simp [h]⟩
      · rintro ⟨a, b, h⟩
        cases a with
        | nil => exact Or.inl ⟨b, by simpa using h.symm⟩
        | cons y a =>
          simp only [List.cons_append, List.cons.injEq] at h
          exact Or.inr ⟨a, b, h.2⟩
  · rw [List.isPrefixOf_iff_prefix]
    exact ⟨fun ⟨b, h⟩ => ⟨b, h.symm⟩, fun ⟨b, h⟩ => ⟨b, h.symm⟩⟩
  · rw [List.isSuffixOf_iff_suffix]
    exact ⟨fun ⟨b, h⟩ => ⟨b, h.symm⟩, fun ⟨b, h⟩ => ⟨b, h.symm⟩⟩

/-- A text that does not begin, or does not end, with white space. -/
def NoLead (s : List Char) : Prop := ∀ c, s.head? = some c → isSpace c = false
def NoTail (s : List Char) : Prop := ∀ c, s.getLast? = some c → isSpace c = false

theorem dropWhile_spec (s : List Char) : ∃ a, s = a ++ s.dropWhile isSpace ∧ (∀ c ∈ a, isSpace c = true) ∧ NoLead (s.dropWhile isSpace) := by
  induction s with
  | nil => exact ⟨[], rfl, by simp, by simp [NoLead]⟩
  | cons c s ih =>
    obtain ⟨a, h1, h2, h3⟩ := ih
    rw [List.dropWhile_cons]
    split
    · next h => exact ⟨c :: a, by rw [List.cons_append, ← h1], by simpa [h] using h2, h3⟩
    · next h => exact ⟨[], rfl, by simp, by simpa [NoLead] using h⟩

theorem trimEnd_spec (s : List Char) : ∃ b, s = trimEndText s ++ b ∧ (∀ c ∈ b, isSpace c = true) ∧ NoTail (trimEndText s) := by
  obtain ⟨a, h1, h2, h3⟩ := dropWhile_spec s.reverse
  refine ⟨a.reverse, ?_, by simpa using h2, ?_⟩
  · unfold trimEndText
    rw [← List.reverse_append, ← h1, List.reverse_reverse]
  · unfold trimEndText NoTail
    rw [List.getLast?_reverse]
    exact h3

/-- `@trim_start`, `@trim_end`, `@trim`: the text without the white space at its ends, and without
anything else. -/
theorem C55_trim (L : Ops) (chk : Bool) (cname : C → String) (lim : Limits) (s : List Char) :
    (∃ a t, s = a ++ t ∧ (∀ c ∈ a, isSpace c = true) ∧ NoLead t ∧ callStd L chk cname lim "trim_start" [.str s] = some (.ok (.str t))) ∧
    (∃ t b, s = t ++ b ∧ (∀ c ∈ b, isSpace c = true) ∧ NoTail t ∧ callStd L chk cname lim "trim_end" [.str s] = some (.ok (.str t))) ∧
    ∃ a t b, s = a ++ t ++ b ∧ (∀ c ∈ a ++ b, isSpace c = true) ∧ NoLead t ∧ NoTail t ∧ callStd L chk cname lim "trim" [.str s] = some (.ok (.str t)) := by
  obtain ⟨a, h1, h2, h3⟩ := dropWhile_spec s
  obtain ⟨b, h4, h5, h6⟩ := trimEnd_spec s
  obtain ⟨b', h7, h8, h9⟩ := trimEnd_spec (s.dropWhile isSpace)
  refine ⟨⟨a, _, h1, h2, h3, rfl⟩, ⟨_, b, h4, h5, h6, rfl⟩, ⟨a, _, b', ?_, ?_, ?_, h9, rfl⟩⟩
  · rw [List.append_assoc, ← h7]; exact h1
  · intro c hc
    rcases List.mem_append.1 hc with h | h
    · exact h2 c h
    · exact h8 c h
  · intro c hc
    apply h3 c
    rw [h7]
    generalize trimEndText (s.dropWhile isSpace) = t at hc
    cases t with
    | nil => simp at hc
    | cons x t => simpa using hc

/-- Only one text can be meant. -/
theorem C55_trim_unique (a b t a' b' t' : List Char) (h : a ++ t ++ b = a' ++ t' ++ b') (ha : ∀ c ∈ a ++ b, isSpace c = true) (ha' : ∀ c ∈ a' ++ b', isSpace c = true)
    (h1 : NoLead t) (h2 : NoTail t) (h1' : NoLead t') (h2' : NoTail t') : t = t' := by
  have lead : ∀ (a b t : List Char), (∀ c ∈ a ++ b, isSpace c = true) → NoLead t → NoTail t →
      trimEndText ((a ++ t ++ b).dropWhile isSpace) = t := by
    intro a b t ha h1 h2
    have ha1 : ∀ c ∈ a, isSpace c = true := fun c hc => ha c (by simp [hc])
    have hb1 : ∀ c ∈ b, isSpace c = true := fun c hc => ha c (by simp [hc])
    have e1 : (a ++ t ++ b).dropWhile isSpace = (t ++ b).dropWhile isSpace := by
      rw [List.append_assoc, List.dropWhile_append_of_pos ha1]
    rw [e1]
    cases t with
    | nil =>
      have : ([] ++ b : List Char).dropWhile isSpace = [] := by
        have := List.dropWhile_append_of_pos (l₂ := []) hb1
        simpa using this
      rw [this]; rfl
    | cons x t =>
      have hx : isSpace x = false := h1 x rfl
      rw [List.cons_append, List.dropWhile_cons, if_neg (by simp [hx])]
      unfold trimEndText
      rw [← List.cons_append, List.reverse_append, List.dropWhile_append_of_pos (by simpa using hb1)]
      have hl : NoLead (x :: t).reverse := by
        intro c hc
        apply h2 c
        rw [List.getLast?_eq_head?_reverse]; exact hc
      generalize hr : (x :: t).reverse = r at hl
      cases r with
      | nil => simp at hr
      | cons y r =>
        rw [List.dropWhile_cons, if_neg (by simp [hl y rfl]), ← hr, List.reverse_reverse]
  rw [← lead a b t ha h1 h2, ← lead a' b' t' ha' h1' h2', h]

/-- `@chars(s)`: one text per character; joining them gives `s`. -/
theorem C55_chars (L : Ops) (chk : Bool) (cname : C → String) (lim : Limits) (s : List Char) :
    ∃ xs t m, callStd L chk cname lim "chars" [.str s] = some (.ok (.arr xs t m)) ∧ xs.length = s.length ∧
      (∀ i : Nat, xs[i]? = s[i]?.map fun c => .str [c]) ∧ callStd L chk cname lim "join" [.arr xs t m] = some (.ok (.str s)) := by
  have hc : callStd L chk cname lim "chars" [.str s] = some (chars s) := rfl
  rw [hc]
  refine ⟨s.map fun c => .str [c], Vecc.total Val.getSize (s.map fun c => Val.str (C := C) [c]), Vecc.total Val.getSize (s.map fun c => Val.str (C := C) [c]), rfl, by simp, fun i => by simp, ?_⟩
  have hj : ∀ t m, callStd L chk cname lim "join" [.arr (s.map fun c => .str [c]) t m] = some (join L.F cname (s.map fun c => .str [c]) []) := fun _ _ => rfl
  rw [hj]
  unfold join
  rw [List.map_map]
  have : ((fun v : Val C => v.text L.F cname) ∘ fun c => Val.str [c]) = fun c => [c] := funext fun c => str_text L.F cname [c]
  rw [this]
  have : ∀ s : List Char, joinText [] (s.map fun c => [c]) = s := by
    intro s
    induction s with
    | nil => rfl
    | cons c s ih =>
      cases s with
      | nil => rfl
      | cons d s => rw [List.map_cons, joinText_cons _ _ (by simp), ih]; simp
  rw [this]

theorem backOver_le (i : Nat) (cs : List Char) : backOver i cs ≤ i := by
  induction cs generalizing i with
  | nil => exact Nat.le_refl _
  | cons c cs ih =>
    simp only [backOver]
    split
    · exact Nat.le_trans (ih _) (Nat.sub_le _ _)
    · exact Nat.le_refl _

theorem utf8Len_ascii {s : List Char} (h : ∀ c ∈ s, c.toNat < 128) : utf8Len s = s.length := by
  unfold utf8Len
  induction s with
  | nil => rfl
  | cons c s ih =>
    simp only [List.map_cons, List.sum_cons, List.length_cons]
    rw [ih fun d hd => h d (by simp [hd])]
    have := h c (by simp)
    have : c.utf8Size = 1 := by
      have h1 : c.toNat ≤ 127 := by omega
      rw [Char.utf8Size_eq_one_iff]
      exact UInt32.le_iff_toNat_le.2 h1
    omega

/-- `@truncate(s, n, e)` of a text that is short enough changes nothing. Otherwise the result is a
beginning of the text followed by the ellipsis, and in ASCII text it has at most `n` characters if
the ellipsis has. -/
theorem C55_truncate (L : Ops) (chk : Bool) (cname : C → String) (lim : Limits) (s e : List Char) (n : BitVec 64) :
    (s.length ≤ n.toNat → callStd L chk cname lim "truncate" [.str s, .int n, .str e] = some (.ok (.str s))) ∧
    (n.toNat < s.length → ∃ k, callStd L chk cname lim "truncate" [.str s, .int n, .str e] = some (.ok (.str (s.take k ++ e))) ∧
      ((∀ c ∈ s, c.toNat < 128) → e.length ≤ n.toNat → (s.take k ++ e).length ≤ n.toNat)) := by
  have hc : callStd L chk cname lim "truncate" [.str s, .int n, .str e] = some (truncate s n e) := rfl
  rw [hc]
  unfold truncate
  constructor
  · intro h
    simp only
    rw [if_neg (by omega)]
  · intro h
    simp only
    rw [if_pos h]
    refine ⟨_, rfl, fun ha he => ?_⟩
    have h1 : utf8Len (s.take n.toNat) = n.toNat := by
      rw [utf8Len_ascii fun c hc => ha c (List.mem_of_mem_take hc), List.length_take]; omega
    rw [h1, List.length_append, List.length_take]
    have h2 := backOver_le (Min.min (n.toNat - e.length) s.length) (s.drop (Min.min (n.toNat - e.length) s.length))
    omega

/-- The bound fails for other text: positions are counted in bytes. -/
theorem C55_violated_truncate (L : Ops) (chk : Bool) (cname : C → String) (lim : Limits) :
    callStd L chk cname lim "truncate" [.str "éééééé".toList, .int 3, .str ".".toList] = some (.ok (.str "ééééé.".toList)) := by
  have hc : callStd L chk cname lim "truncate" [.str "éééééé".toList, .int 3, .str ".".toList] = some (truncate "éééééé".toList 3 ".".toList) := rfl
  rw [hc]
  have : (truncate "éééééé".toList 3 ".".toList : Res (Val C)) = .ok (.str ("éééééé".toList.take 5 ++ ".".toList)) := by
    unfold truncate
    rw [if_pos (by decide)]
    simp only
    have : backOver (Min.min (utf8Len ("éééééé".toList.take (3 : BitVec 64).toNat) - ".".toList.length) "éééééé".toList.length)
      ("éééééé".toList.drop (Min.min (utf8Len ("éééééé".toList.take (3 : BitVec 64).toNat) - ".".toList.length) "éééééé".toList.length)) = 5 := by decide
    rw [this]
  rw [this]
  rfl

/-- And for an ellipsis longer than the wanted length. -/
theorem C55_violated_truncate_long (L : Ops) (chk : Bool) (cname : C → String) (lim : Limits) :
    callStd L chk cname lim "truncate" [.str "abcd".toList, .int 1] = some (.ok (.str "...".toList)) := rfl

/-- `ws` are the words of `s`. -/
inductive Words : List Char → List (List Char) → Prop
  | none {s} : (∀ c ∈ s, isSpace c = true) → Words s []
  | more {a w rest ws} : (∀ c ∈ a, isSpace c = true) → w ≠ [] → (∀ c ∈ w, isSpace c = false) → (∀ c, rest.head? = some c → isSpace c = true) →
      Words rest ws → Words (a ++ w ++ rest) (w :: ws)

theorem wordsGo_spaces {a : List Char} (h : ∀ c ∈ a, isSpace c = true) (s : List Char) : wordsGo [] (a ++ s) = wordsGo [] s := by
  induction a with
  | nil => rfl
  | cons c a ih =>
    simp only [List.cons_append, wordsGo, h c (by simp), if_true, List.isEmpty_nil]
    exact ih fun d hd => h d (by simp [hd])

theorem wordsGo_word {w : List Char} (h : ∀ c ∈ w, isSpace c = false) (cur s : List Char) : wordsGo cur (w ++ s) = wordsGo (w.reverse ++ cur) s := by
  induction w generalizing cur with
  | nil => rfl
  | cons c w ih =>
    simp only [List.cons_append, wordsGo, h c (by simp), Bool.false_eq_true, if_false]
    rw [ih fun d hd => h d (by simp [hd])]
    simp

theorem Words.eq {s : List Char} {ws : List (List Char)} (h : Words s ws) : wordsGo [] s = ws := by
  induction h with
  | @none s h => have := wordsGo_spaces h []; rw [List.append_nil] at this; rw [this]; rfl
  | @more a w rest ws ha hw hw2 hr _ ih =>
    rw [List.append_assoc, wordsGo_spaces ha, wordsGo_word hw2, List.append_nil]
    cases rest with
    | nil =>
      simp only [wordsGo, List.isEmpty_iff, List.reverse_eq_nil_iff, hw, if_false, List.reverse_reverse]
      rw [← ih]; rfl
    | cons c rest =>
      have hc := hr c rfl
      simp only [wordsGo, hc, if_true, List.isEmpty_iff, List.reverse_eq_nil_iff, hw, if_false, List.reverse_reverse]
      rw [← ih]
      simp only [wordsGo, hc, if_true, List.isEmpty_nil]

/-- Every text has words. -/
theorem words_exist (n : Nat) (s : List Char) (hn : s.length ≤ n) : ∃ ws, Words s ws := by
  induction n generalizing s with
  | zero =>
    obtain rfl : s = [] := List.length_eq_zero_iff.1 (by omega)
    exact ⟨[], .none (by simp)⟩
  | succ n ih =>
    obtain ⟨a, h1, h2, h3⟩ := dropWhile_spec s
    generalize s.dropWhile isSpace = t at h1 h3
    cases t with
    | nil => exact ⟨[], .none (by rw [h1]; simpa using h2)⟩
    | cons c t =>
      have hsplit := List.takeWhile_append_dropWhile (p := fun x => !isSpace x) (l := c :: t)
      have hc : isSpace c = false := h3 c rfl
      have htw : ∀ x ∈ (c :: t).takeWhile (fun x => !isSpace x), isSpace x = false := by
        intro x hx
        have := List.all_takeWhile (l := c :: t) (p := fun x => !isSpace x)
        simpa using List.all_eq_true.1 this x hx
      have hne : (c :: t).takeWhile (fun x => !isSpace x) ≠ [] := by rw [List.takeWhile_cons]; simp [hc]
      have hhead : ∀ x, ((c :: t).dropWhile (fun x => !isSpace x)).head? = some x → isSpace x = true := by
        intro x hx
        have := List.head?_dropWhile_not (fun x => !isSpace x) (c :: t)
        rw [hx] at this
        simpa using this
      obtain ⟨ws, hws⟩ := ih ((c :: t).dropWhile (fun x => !isSpace x)) (by
        have : s.length = a.length + (c :: t).length := by rw [h1, List.length_append]
        have e := congrArg List.length hsplit
        rw [List.length_append] at e
        have : 0 < ((c :: t).takeWhile (fun x => !isSpace x)).length := List.length_pos_iff.2 hne
        omega)
      have := Words.more h2 hne htw hhead hws
      rw [List.append_assoc, hsplit, ← h1] at this
      exact ⟨_, this⟩

/-- `@title(s)`: the words of the text, each with its first character in upper case, with one space
between them. -/
theorem C55_title (L : Ops) (chk : Bool) (cname : C → String) (lim : Limits) (s : List Char) :
    ∃ ws, Words s ws ∧ (∀ ws', Words s ws' → ws' = ws) ∧
      callStd L chk cname lim "title" [.str s] = some (.ok (.str ([' '].intercalate (ws.map fun w => match w with | [] => [] | c :: cs => L.upper c ++ cs)))) := by
  obtain ⟨ws, h⟩ := words_exist _ s (Nat.le_refl _)
  refine ⟨ws, h, fun ws' h' => by rw [← h.eq, ← h'.eq], ?_⟩
  show some (Res.ok (Val.str (joinText [' '] ((wordsGo [] s).map (capitalText L))))) = _
  rw [h.eq]
  have hj : ∀ ps : List (List Char), joinText [' '] ps = [' '].intercalate ps := by
    intro ps
    induction ps with
    | nil => rfl
    | cons p ps ih =>
      cases ps with
      | nil => simp [joinText, List.intercalate]
      | cons q ps =>
        rw [joinText_cons _ _ (by simp), ih]
        simp [List.intercalate, List.intersperse]
  rw [hj]
  rfl

/-- The string builtins do not look at the limit on strings that `+` and `*` obey (C11): with any limit
`n`, joining a text of `n` bytes with one of one byte gives a text of `n + 1`. -/
theorem C55_violated_limit (L : Ops) (chk : Bool) (cname : C → String) (lim : Limits) :
    callStd L chk cname lim "join" [.pair (.str (List.replicate lim.strMax 'a')) (.str ['a'])] = some (.ok (.str (List.replicate (lim.strMax + 1) 'a'))) ∧
    utf8Len (List.replicate (lim.strMax + 1) 'a') = lim.strMax + 1 := by
  constructor
  · have hc : callStd L chk cname lim "join" [.pair (.str (List.replicate lim.strMax 'a')) (.str ['a'])] =
      some (join L.F cname [.str (List.replicate lim.strMax 'a'), .str ['a']] []) := rfl
    rw [hc]
    unfold join
    simp only [List.map_cons, List.map_nil, str_text, joinText, List.append_nil]
    rw [List.replicate_succ']
  · rw [utf8Len_ascii]
    · simp
    · intro c hc
      rw [List.eq_of_mem_replicate hc]; decide

end Quilt.Props
