import Verif.Parser.Follow

/-!
# Reading one expression: a prefix form or an atom, then operators
-/

namespace Quilt.Cs

open Peg

/-- The loop of operators leads from one expression to another. -/
inductive Ext (E : Env) (rec : Nat → P Node) (min start : Nat) : Node → Inp → Node → Inp → Prop
  | refl (l : Node) (i : Inp) : Ext E rec min start l i l i
  | step {l l'' : Node} {i i' i'' : Inp} {f : Span → Node} (h : Ext E rec min start l'' i'' l i) (hf : firstOf (postfixes rec min l) i = .ok f i')
      (hl : i'.rest.length < i.rest.length) : Ext E rec min start l'' i'' (f ⟨start, i'.pos, E.src⟩) i'

theorem climb_ext {E : Env} {rec : Nat → P Node} {min start : Nat} {l l' : Node} {i i' : Inp} (h : Ext E rec min start l i l' i') :
    i'.rest.length ≤ i.rest.length ∧ ∀ r, (∀ n, i'.rest.length < n → climb E rec min start n l' i' = r) → ∀ n, i.rest.length < n → climb E rec min start n l i = r := by
  induction h with
  | refl => exact ⟨Nat.le_refl _, fun r h n hn => h n hn⟩
  | step h hf hl ih =>
    refine ⟨by have := ih.1; omega, fun r hr n hn => ih.2 r ?_ n hn⟩
    intro m hm
    cases m with
    | zero => omega
    | succ m =>
      unfold climb
      simp only [bind_def, hf]
      exact hr m (by omega)

theorem climbAll_ext {E : Env} {rec : Nat → P Node} {min start : Nat} {l l' : Node} {i i' : Inp} (h : Ext E rec min start l i l' i')
    (he : firstOf (postfixes rec min l') i' = .fail) : climbAll E rec min start l i = .ok l' i' := by
  unfold climbAll
  refine (climb_ext h).2 _ ?_ _ (Nat.lt_succ_self _)
  intro n hn
  cases n with
  | zero => omega
  | succ n => unfold climb; simp only [bind_def, he]

/-- A prefix form or atom and some operators are read. -/
def Steps (E : Env) (k min : Nat) (s : List Char) (Q : Node → List Char → Prop) : Prop := ∀ p, ∃ f q t l' q' s',
  firstOf (prefixes E (k + 1) (nodeN E k)) ⟨p, s⟩ = .ok f ⟨q, t⟩ ∧ Ext E (nodeN E k) min p (f ⟨p, q, E.src⟩) ⟨q, t⟩ l' ⟨q', s'⟩ ∧ Q l' s'

theorem Steps.of_prefix {E : Env} {k min : Nat} {s : List Char} {Q : Node → List Char → Prop}
    (h : Gives (firstOf (prefixes E (k + 1) (nodeN E k))) s fun f s' => ∀ sp, Q (f sp) s') : Steps E k min s Q := fun p => by
  obtain ⟨f, q, s', h1, h2⟩ := h p
  exact ⟨f, q, s', _, q, s', h1, .refl _ _, h2 _⟩

theorem Steps.step {E : Env} {k min : Nat} {s : List Char} {Q Q' : Node → List Char → Prop} (h : Steps E k min s Q)
    (h' : ∀ l t, Q l t → Gives (firstOf (postfixes (nodeN E k) min l)) t fun f t' => t'.length < t.length ∧ ∀ sp, Q' (f sp) t') : Steps E k min s Q' := fun p => by
  obtain ⟨f, q, t, l, q', s', h1, h2, h3⟩ := h p
  obtain ⟨g, q'', t', h4, h5, h6⟩ := h' l s' h3 q'
  exact ⟨f, q, t, _, q'', t', h1, .step h2 h4 h5, h6 _⟩

theorem Steps.node {E : Env} {k min : Nat} {s : List Char} {Q : Node → List Char → Prop} (h : Steps E k min s Q)
    (h' : ∀ l t, Q l t → Fails (firstOf (postfixes (nodeN E k) min l)) t) : Gives (nodeN E (k + 1) min) s Q := fun p => by
  obtain ⟨f, q, t, l, q', s', h1, h2, h3⟩ := h p
  refine ⟨l, q', s', ?_, h3⟩
  show nodeF E (k + 1) (nodeN E k) min ⟨p, s⟩ = _
  unfold nodeF
  simp only [bind_def, position, h1]
  exact climbAll_ext h2 (h' l s' h3 q')

/-- What is read: the program of the tree. Only some forms read a part of the gap after them. -/
structure Done (E : Env) (c : Cst) (G : Gap) (r : List Char) (l : Node) (s : List Char) : Prop where
  ast : l.strip = c.ast E.float
  rest : ∃ G' : Gap, G'.ok = true ∧ s = G'.text ++ r ∧ G'.text.length ≤ G.text.length ∧ (c.wide = false → G' = G) ∧ (c.wide = true → c.bareRet = false → G' = [])

/-- The expression is read at every level. -/
structure ReadsTo (E : Env) (c : Cst) : Prop where
  run : ∀ {G : Gap} {r : List Char} {k min : Nat}, After c G r → min ≤ c.slvl → (c.text ++ (G.text ++ r)).length < k + 1 →
    Steps E k min (c.text ++ (G.text ++ r)) (Done E c G r)

theorem Cst.text_pos {c : Cst} (h : c.ok = true) : 0 < c.text.length := by
  obtain ⟨d, t, h1, _⟩ := Cst.head h
  rw [h1]; simp

theorem ReadsTo.node {E : Env} {c : Cst} {G : Gap} {r : List Char} {k min : Nat} (h : ReadsTo E c) (hc : c.ok = true) (ha : After c G r) (hs : Stop min (G.text ++ r))
    (hw : c.wide = true → ∀ G' : Gap, G'.ok = true → Stop min (G'.text ++ r)) (hm : min ≤ c.slvl) (hk : (c.text ++ (G.text ++ r)).length < k) :
    Gives (nodeN E k min) (c.text ++ (G.text ++ r)) (Done E c G r) := by
  cases k with
  | zero => omega
  | succ k =>
    refine (h.run ha hm hk).node ?_
    rintro l t ⟨_, G', h1, rfl, h2, h3, h4⟩
    have hp := Cst.text_pos hc
    have hlen : (G'.text ++ r).length ≤ k := by simp only [List.length_append] at hk ⊢; omega
    cases hcw : c.wide with
    | false => rw [h3 hcw] at hlen ⊢; exact hs _ ((recBad_node E k).mono hlen) l
    | true => exact hw hcw G' h1 _ ((recBad_node E k).mono hlen) l

/-- A form that reads nothing of the gap. -/
theorem Done.exact {E : Env} {c : Cst} {G : Gap} {r : List Char} {l : Node} (hG : G.ok = true) (h : l.strip = c.ast E.float) (hw : c.wide = false) : Done E c G r l (G.text ++ r) :=
  ⟨h, G, hG, rfl, Nat.le_refl _, fun _ => rfl, fun h => by rw [hw] at h; cases h⟩

/-- A form that reads the gap. -/
theorem Done.all {E : Env} {c : Cst} {G : Gap} {r : List Char} {l : Node} (h : l.strip = c.ast E.float) (hw : c.wide = true) : Done E c G r l r :=
  ⟨h, [], rfl, rfl, Nat.zero_le _, fun h => (by rw [hw] at h; cases h), fun _ _ => rfl⟩

/-- A form that ends with an expression. -/
theorem Done.last {E : Env} {c d : Cst} {G : Gap} {r : List Char} {l l' : Node} {s : List Char} (h : Done E d G r l s) (he : l'.strip = c.ast E.float)
    (hw : c.wide = d.wide) (hb : c.bareRet = d.bareRet) : Done E c G r l' s :=
  ⟨he, by rw [hw, hb]; exact h.rest⟩

/-- After a sub-expression in brackets, the gap is skipped. -/
theorem Done.skip {E : Env} {c : Cst} {G : Gap} {r : List Char} {l : Node} {s : List Char} (h : Done E c G r l s) (hr : NoSkip r) : Takes skip s () r := by
  obtain ⟨G', h1, rfl, _⟩ := h.rest
  exact takes_skip h1 hr

/-- An expression before a closing bracket, a comma or a block. -/
theorem ReadsTo.close {E : Env} {c : Cst} {G : Gap} {d : Char} {r : List Char} {k : Nat} (h : ReadsTo E c) (hc : c.ok = true) (hG : G.ok = true) (hd : isCloser d = true)
    (hb : c.bareRet = true → d ≠ '{') (hk : (c.text ++ (G.text ++ d :: r)).length < k) : Gives (nodeN E k 0) (c.text ++ (G.text ++ d :: r)) (Done E c G (d :: r)) :=
  h.node hc (after_close hG hd hb) (stop_close hG hd) (fun _ _ hG' => stop_close hG' hd) (Nat.zero_le _) hk

theorem noSkip_closer {d : Char} {r : List Char} (hd : isCloser d = true) : NoSkip (d :: r) := by
  rcases isCloser_cases hd with rfl | rfl | rfl | rfl | rfl <;> exact noSkip_cons (by decide)

theorem badStart_closer {d : Char} {r : List Char} (hd : isCloser d = true) (hb : d ≠ '{') : BadStart (d :: r) := by
  rcases isCloser_cases hd with rfl | rfl | rfl | rfl | rfl <;> first | exact absurd rfl hb | exact badStart_cons (by decide) (by decide)

/-! ## Arguments and names -/

theorem asts_map (f : List Char → BitVec 64) (es : List (Gap × Cst × Gap)) : Cst.asts f es = es.map fun e => e.2.1.ast f := by
  induction es with
  | nil => rfl
  | cons e es ih => obtain ⟨g, e, g'⟩ := e; rw [Cst.asts, ih]; rfl

theorem namesText_eq (xs : List NameC) : namesText xs = joined String.toList xs := by
  induction xs with
  | nil => rfl
  | cons x xs ih => obtain ⟨g, x, g'⟩ := x; rw [namesText, ih]; rfl

/-- Expressions between commas, up to a closing bracket. -/
theorem gives_args {E : Env} {k : Nat} {g0 : Gap} {es : List (Gap × Cst × Gap)} {d : Char} {r : List Char} (hes : ∀ e ∈ es, e.1.ok = true ∧ e.2.1.ok = true ∧ e.2.2.ok = true ∧ ReadsTo E e.2.1)
    (hg0 : g0.ok = true) (hd : d = ')' ∨ d = ']') (hk : (commas (Cst.texts es) ++ d :: r).length < k) :
    Gives (commaSep (nodeN E k 0)) (g0.text ++ (commas (Cst.texts es) ++ d :: r)) fun as s' => stripL as = Cst.asts E.float es ∧ s' = d :: r := by
  have hd' : isCloser d = true := by rcases hd with rfl | rfl <;> decide
  have hb : d ≠ '{' := by rcases hd with rfl | rfl <;> decide
  have he : ListEnd [] (d :: r) := ⟨rfl, noSkip_closer hd', by rcases hd with rfl | rfl <;> exact (show (_ == ',') = false by decide)⟩
  rw [Cst.texts_eq] at hk ⊢
  have := gives_commaSep (x := nodeN E k 0) (t := Cst.text) (π := Node.strip) (v := fun c => c.ast E.float) he hg0 k (es := es)
    (fun e h => ⟨(hes e h).1, (hes e h).2.2.1⟩) (fun e h s => Cst.noSkip (hes e h).2.1 s) ?_ ?_ ?_ hk
  · refine this.imp ?_
    rintro as s' ⟨h1, rfl⟩
    exact ⟨by rw [stripL_map, asts_map, h1], rfl⟩
  · intro e h s hl
    refine ((hes e h).2.2.2.close (hes e h).2.1 (hes e h).2.2.1 (by decide) (fun _ => by decide) hl).imp ?_
    rintro a s' ⟨h1, G', h2, h3, _⟩
    exact ⟨h1, G', h2, h3⟩
  · intro e h hl
    have h := List.mem_of_getLast? h
    rw [List.append_nil] at hl ⊢
    refine ((hes e h).2.2.2.close (hes e h).2.1 (hes e h).2.2.1 hd' (fun _ => hb) hl).imp ?_
    rintro a s' ⟨h1, G', h2, h3, _⟩
    exact ⟨h1, G', h2, h3⟩
  · rintro rfl
    exact recBad_node E k _ _ (by simpa [joined, commas] using hk) (badStart_closer hd' hb)

/-- What follows a list of names: not a comma, and not part of the last name. -/
structure NamesEnd (gt : Gap) (r : List Char) (xs : List NameC) : Prop extends ListEnd gt r where
  id : NotHead isIdStart r
  last : ∀ e, xs.getLast? = some e → NotHead isIdChar (Gap.text (e.2.2 ++ gt) ++ r)

theorem gives_spanned_ident {E : Env} {x : String} {r : List Char} (h : nameOk x = true) (hr : NotHead isIdChar r) :
    Gives (spanned E ident) (x.toList ++ r) fun a s' => Name.strip a = (x, Span.default) ∧ s' = r :=
  (Gives.spanned (takes_ident h hr)).imp fun a s' h => ⟨by rw [Name.strip, h.1], h.2⟩

theorem noSkip_name {x : String} (h : nameOk x = true) (s : List Char) : NoSkip (x.toList ++ s) := by
  obtain ⟨c, cs, h1, h2, _⟩ := nameOk_iff h
  rw [h1]
  exact noSkip_cons (exprStart_skip (exprStart_id h2))

theorem names_map {as : List Name} {xs : List NameC} (h : as.map Name.strip = xs.map fun e => (e.2.1, Span.default)) : as.map Name.strip = names xs := h

theorem namesOk_iff {xs : List NameC} (h : namesOk xs = true) : ∀ e ∈ xs, e.1.ok = true ∧ nameOk e.2.1 = true ∧ e.2.2.ok = true := by
  unfold namesOk at h
  rw [List.all_eq_true] at h
  intro e he
  have := h e he
  simp only [Bool.and_eq_true] at this
  exact ⟨this.1.1, this.1.2, this.2⟩

theorem name_elem {E : Env} {x : String} {G : Gap} {r : List Char} (h : nameOk x = true) (hG : G.ok = true) (hr : NotHead isIdChar (G.text ++ r)) :
    Gives (spanned E ident) (x.toList ++ (G.text ++ r)) fun a s' => Name.strip a = (x, Span.default) ∧ ∃ G' : Gap, G'.ok = true ∧ s' = G'.text ++ r :=
  (gives_spanned_ident h hr).imp fun _ _ h => ⟨h.1, G, hG, h.2⟩

theorem gives_names {E : Env} {g0 gt : Gap} {xs : List NameC} {r : List Char} (h : namesOk xs = true) (hg0 : g0.ok = true) (he : NamesEnd gt r xs) :
    Gives (commaSep (spanned E ident)) (g0.text ++ (commas (namesText xs) ++ (gt.text ++ r))) fun as s' => as.map Name.strip = names xs ∧ s' = r := by
  have h := namesOk_iff h
  rw [namesText_eq]
  refine gives_commaSep (t := String.toList) (π := Name.strip) (v := fun x => (x, Span.default)) he.toListEnd hg0 _ (fun e hx => ⟨(h e hx).1, (h e hx).2.2⟩)
    (fun e hx s => noSkip_name (h e hx).2.1 s) ?_ ?_ ?_ (Nat.lt_succ_self _)
  · intro e hx s _
    exact name_elem (h e hx).2.1 (h e hx).2.2 (Gap.notHead (gap_not (by decide)) (show isIdChar ',' = false by decide))
  · intro e hx _
    have hm := List.mem_of_getLast? hx
    exact name_elem (h e hm).2.1 (by rw [Gap.ok_append, (h e hm).2.2, he.gok]; rfl) (he.last e hx)
  · intro _
    exact Fails.spanned (fails_ident_head he.id)

theorem gives_names1 {E : Env} {g0 gt : Gap} {xs : List NameC} {r : List Char} (h : namesOk xs = true) (hne : xs ≠ []) (hg0 : g0.ok = true) (he : ListEnd gt r)
    (hl : ∀ e, xs.getLast? = some e → NotHead isIdChar (Gap.text (e.2.2 ++ gt) ++ r)) :
    Gives (commaSep1 (spanned E ident)) (g0.text ++ (commas (namesText xs) ++ (gt.text ++ r))) fun as s' => as.map Name.strip = names xs ∧ s' = r := by
  have h := namesOk_iff h
  rw [namesText_eq]
  refine gives_commaSep1 (t := String.toList) (π := Name.strip) (v := fun x => (x, Span.default)) he hg0 _ (fun e hx => ⟨(h e hx).1, (h e hx).2.2⟩)
    (fun e hx s => noSkip_name (h e hx).2.1 s) ?_ ?_ hne (Nat.lt_succ_self _)
  · intro e hx s _
    exact name_elem (h e hx).2.1 (h e hx).2.2 (Gap.notHead (gap_not (by decide)) (show isIdChar ',' = false by decide))
  · intro e hx _
    have hm := List.mem_of_getLast? hx
    exact name_elem (h e hm).2.1 (by rw [Gap.ok_append, (h e hm).2.2, he.gok]; rfl) (hl e hx)

/-! ## Statements -/

/-- The end of a list of statements. -/
structure StmtEnd (r : List Char) : Prop where
  after : ∀ (c : Cst) (G : Gap), G.ok = true → After c G r
  stop : ∀ G : Gap, G.ok = true → Stop 0 (G.text ++ r)
  ns : NoSkip r
  bad : NotHead exprStart r

theorem stmtEnd_brace (r : List Char) : StmtEnd ('}' :: r) :=
  ⟨fun _ _ hG => after_close hG (by decide) (fun _ => by decide), fun _ hG => stop_close hG (by decide), noSkip_cons (by decide), (show exprStart '}' = false by decide)⟩

theorem stmtEnd_nil : StmtEnd [] := ⟨fun _ _ hG => after_nil hG, fun _ hG => stop_nil hG, noSkip_nil, trivial⟩

/-- What follows the first of several statements. -/
theorem stmt_follow {r : List Char} (he : StmtEnd r) : ∀ {c : Cst} {g : Gap} {b : List (Cst × Gap)}, Cst.okB ((c, g) :: b) = true →
    After c g (Cst.textB b ++ r) ∧ Stop 0 (g.text ++ (Cst.textB b ++ r)) ∧ (c.wide = true → ∀ G' : Gap, G'.ok = true → Stop 0 (G'.text ++ (Cst.textB b ++ r)))
  | c, g, [], h => by
    simp only [Cst.okB, Bool.and_eq_true] at h
    exact ⟨he.after c g h.1.1.2, he.stop g h.1.1.2, fun _ G' hG' => he.stop G' hG'⟩
  | c, g, (d, g') :: b, h => by
    rw [Cst.okB] at h
    simp only [Bool.and_eq_true, List.isEmpty_cons, Bool.false_or, Bool.not_eq_true'] at h
    have ih := stmt_follow he h.1.2
    have h2 := h.1.2
    simp only [Cst.okB, Bool.and_eq_true] at h2
    have e : Cst.textB ((d, g') :: b) ++ r = d.text ++ (g'.text ++ (Cst.textB b ++ r)) := by simp [Cst.textB]
    have e2 : Cst.textB ((d, g') :: b) = d.text ++ (g'.text ++ Cst.textB b) := by simp [Cst.textB]
    rw [e]
    rw [e2] at h
    exact after_next h2.1.1.1 h.1.1.2 h.2.2 h.2.1 ih.1.lit.word

/-- The separator of statements. -/
theorem takes_sep {g : Gap} {t : List Char} (hg : g.ok = true) (h : g = [.semi] ∨ g.head? ≠ some .semi) (ht : NoSkip t) (ht' : NotHead (· == ';') t) :
    Takes (Peg.str ";" </> skip) (g.text ++ t) () t := by
  rcases h with rfl | h
  · exact Gives.left (Takes.char (c := ';') (by decide) t)
  · refine Gives.right (Fails.char (c := ';') (by decide) ?_) (takes_skip hg ht)
    cases g with
    | nil => exact ht'
    | cons i g => cases i <;> first | exact absurd rfl h | exact (show (_ == ';') = false by decide)

/-- At the end of the statements. -/
theorem fails_sep {x : P Node} {r : List Char} (he : StmtEnd r) {G : Gap} (hG : G.ok = true) (hx : ∀ s, s.length ≤ (G.text ++ r).length → BadStart s → Fails x s) :
    Fails (do let _ ← (Peg.str ";" </> skip); x) (G.text ++ r) := by
  have hs : NotHead (· == ';') r := by
    cases r with
    | nil => trivial
    | cons c t =>
      show (c == ';') = false
      cases hc : c == ';' with
      | false => rfl
      | true =>
        have := he.ns 0
        rw [eq_of_beq hc] at this
        cases this
  by_cases h : G.head? = some .semi
  · cases G with
    | nil => cases h
    | cons i g =>
      cases h
      refine Fails.take (s' := Gap.text g ++ r) (a := ()) (Gives.left (Takes.char (c := ';') (by decide) _)) (hx _ ?_ ⟨g, r, rfl, ?_, he.ns, he.bad⟩)
      · rw [Gap.text_cons]; simp
      · rw [Gap.ok_cons, Bool.and_eq_true] at hG; exact hG.2
  · exact Fails.take (takes_sep hG (.inr h) he.ns hs) (hx _ (by simp) ⟨[], r, rfl, rfl, he.ns, he.bad⟩)

/-- A parser that reads statements. -/
structure StmtParser (E : Env) (x : P Node) (N : Nat) (b : List (Cst × Gap)) : Prop where
  reads : ∀ c g, (c, g) ∈ b → ∀ {r}, After c g r → Stop 0 (g.text ++ r) → (c.wide = true → ∀ G' : Gap, G'.ok = true → Stop 0 (G'.text ++ r)) →
    (c.text ++ (g.text ++ r)).length < N → Gives x (c.text ++ (g.text ++ r)) (Done E c g r)
  bad : ∀ s, s.length < N → BadStart s → Fails x s

theorem gives_stmts_more {E : Env} {x : P Node} {N : Nat} {r : List Char} (he : StmtEnd r) : ∀ {c : Cst} {g : Gap} {b : List (Cst × Gap)}, Cst.okB ((c, g) :: b) = true →
    StmtParser E x N b → ∀ {G' : Gap}, G'.ok = true → (c.wide = false → G' = g) → (c.wide = true → c.bareRet = false → G' = []) → (G'.text ++ (Cst.textB b ++ r)).length < N →
    Gives (many (do let _ ← (Peg.str ";" </> skip); x)) (G'.text ++ (Cst.textB b ++ r)) fun as s => stripL as = Cst.astB E.float b ∧ ∃ G : Gap, G.ok = true ∧ s = G.text ++ r
  | c, g, [], h, hx, G', hG', h1, h2, hl => by
    refine (Gives.many_nil (fails_sep he hG' fun s hs => hx.bad s (by simp only [Cst.textB, List.nil_append] at hl; omega))).imp ?_
    rintro _ _ ⟨rfl, rfl⟩
    exact ⟨rfl, G', hG', rfl⟩
  | c, g, (d, g') :: b, h, hx, G', hG', h1, h2, hl => by
    have h' := h
    rw [Cst.okB] at h'
    simp only [Bool.and_eq_true, List.isEmpty_cons, Bool.false_or, Bool.not_eq_true'] at h'
    have hb := h'.1.2
    have hf := stmt_follow he hb
    have hd : d.ok = true ∧ g'.ok = true := by
      have := hb
      simp only [Cst.okB, Bool.and_eq_true] at this
      exact ⟨this.1.1.1, this.1.1.2⟩
    have e : Cst.textB ((d, g') :: b) ++ r = d.text ++ (g'.text ++ (Cst.textB b ++ r)) := by simp [Cst.textB]
    rw [e] at hl ⊢
    have hsep : Takes (Peg.str ";" </> skip) (G'.text ++ (d.text ++ (g'.text ++ (Cst.textB b ++ r)))) () (d.text ++ (g'.text ++ (Cst.textB b ++ r))) := by
      refine takes_sep hG' ?_ (Cst.noSkip hd.1 _) ?_
      · cases hw : c.wide with
        | true => rw [h2 hw h'.2.1]; right; simp
        | false =>
          rw [h1 hw]
          have := h'.2.2
          unfold fresh at this
          simp only [Bool.and_eq_true, Bool.or_eq_true, beq_iff_eq, bne_iff_ne] at this
          exact this.1.2
      · obtain ⟨a, t, ha, hs⟩ := Cst.head hd.1
        rw [ha]
        exact (show (a == ';') = false by simpa using exprStart_ne hs (by decide))
    have hr := hx.reads d g' (List.mem_cons_self) hf.1 hf.2.1 hf.2.2 (by simp only [List.length_append] at hl ⊢; omega)
    refine Gives.many_cons (hsep.bind hr) ?_ ?_
    · rintro a s ⟨_, G2, _, rfl, h5, _⟩
      have := Cst.text_pos hd.1
      simp only [List.length_append]; omega
    · rintro a s ⟨ha, G2, h4, rfl, h5, h6, h7⟩
      have := gives_stmts_more he hb ⟨fun c g hm => hx.reads c g (List.mem_cons_of_mem _ hm), hx.bad⟩ h4 h6 h7 (by simp only [List.length_append] at hl ⊢; omega)
      refine this.imp ?_
      rintro as s ⟨h8, h9⟩
      exact ⟨by rw [stripL, Cst.astB, ha, h8], h9⟩

theorem gives_stmts {E : Env} {x : P Node} {N : Nat} {b : List (Cst × Gap)} {r : List Char} (he : StmtEnd r) (hb : Cst.okB b = true) (hx : StmtParser E x N b) (hl : (Cst.textB b ++ r).length < N) :
    Gives (sepBy x (Peg.str ";" </> skip)) (Cst.textB b ++ r) fun as s => stripL as = Cst.astB E.float b ∧ ∃ G : Gap, G.ok = true ∧ s = G.text ++ r := by
  cases b with
  | nil =>
    exact Gives.right (Fails.bind (hx.bad _ hl ⟨[], r, rfl, rfl, he.ns, he.bad⟩)) (Gives.pure ⟨rfl, [], rfl, rfl⟩)
  | cons e b =>
    obtain ⟨c, g⟩ := e
    have hf := stmt_follow he hb
    have e : Cst.textB ((c, g) :: b) ++ r = c.text ++ (g.text ++ (Cst.textB b ++ r)) := by simp [Cst.textB]
    rw [e] at hl ⊢
    refine Gives.left (Gives.bind (hx.reads c g (List.mem_cons_self) hf.1 hf.2.1 hf.2.2 hl) ?_)
    rintro a s ⟨ha, G2, h4, rfl, h5, h6, h7⟩
    refine Gives.bind (gives_stmts_more he hb ⟨fun c g hm => hx.reads c g (List.mem_cons_of_mem _ hm), hx.bad⟩ h4 h6 h7 (by simp only [List.length_append] at hl ⊢; omega)) ?_
    rintro as s ⟨h8, h9⟩
    exact Gives.pure ⟨by rw [stripL, Cst.astB, ha, h8], h9⟩

theorem stmtParser_node {E : Env} {k : Nat} {b : List (Cst × Gap)} (hb : ∀ e ∈ b, e.1.ok = true ∧ ReadsTo E e.1) : StmtParser E (nodeN E k 0) k b where
  reads _ _ hm _ ha hs hw hl := (hb _ hm).2.node (hb _ hm).1 ha hs hw (Nat.zero_le _) hl
  bad s hs hbad := recBad_node E k 0 s hs hbad

/-- A block. -/
theorem gives_block {E : Env} {k : Nat} {f : Bool} {b0 : Gap} {b : List (Cst × Gap)} {r : List Char} (hb : Cst.okB b = true) (hb0 : b0.ok = true) (ih : ∀ e ∈ b, e.1.ok = true ∧ ReadsTo E e.1)
    (hk : (Cst.textB b ++ '}' :: r).length < k) : Gives (Peg.block E (nodeN E k 0) f) ('{' :: (b0.text ++ (Cst.textB b ++ '}' :: r)))
      fun l s => stripL l = addImplicitNone f Span.default (Cst.astB E.float b) ∧ s = r := by
  have hns : NoSkip (Cst.textB b ++ '}' :: r) := by
    cases b with
    | nil => exact noSkip_cons (by decide)
    | cons e b =>
      obtain ⟨c, g⟩ := e
      simp only [Cst.okB, Bool.and_eq_true] at hb
      rw [Cst.textB]
      simp only [List.append_assoc]
      exact Cst.noSkip hb.1.1.1 _
  unfold Peg.block
  refine Gives.position.bind fun _ _ e => e ▸ ?_
  refine (Takes.char (c := '{') (by decide) _).bind ((takes_skip hb0 hns).bind ((gives_stmts (stmtEnd_brace r) hb (stmtParser_node ih) hk).bind ?_))
  rintro as s ⟨h1, G, h2, rfl⟩
  refine (takes_skip h2 (noSkip_cons (by decide))).bind ((Takes.char (c := '}') (by decide) _).bind (Gives.position.bind fun _ _ e => e ▸ Gives.pure ⟨?_, rfl⟩))
  rw [strip_addImplicitNone, h1]

/-! ## Words -/

/-- A word at the beginning of a text. -/
structure Word (w t : List Char) : Prop where
  chars : ∀ c ∈ w, isIdChar c = true
  after : NotHead isIdChar t
  ns : NoSkip (w ++ t)

theorem Word.kwf {w t : List Char} (h : Word w t) (K : String) {α : Type} {f : P α} (hK : (K.toList.all isIdChar && decide (K.toList ≠ w)) = true) : Fails (do kw K; f) (w ++ t) := by
  simp only [Bool.and_eq_true, List.all_eq_true, decide_eq_true_eq] at hK
  exact Fails.bind (fails_kw hK.1 h.chars hK.2 h.after)

theorem Word.skf {w t : List Char} (h : Word w t) (K : String) {α : Type} {f : P α} (hK : (K.toList.all isIdChar && decide (K.toList ≠ w)) = true) : Fails (do skip; kw K; f) (w ++ t) :=
  Fails.take (takes_skip_nil h.ns) (h.kwf K hK)

theorem Word.resf {w t : List Char} (h : Word w t) (x : String) {E : Env} {α : Type} {f : Name → P α} (hx : (decide (x ∈ reserved) && decide (x.toList = w)) = true) :
    Fails (spanned E ident >>= f) (w ++ t) := by
  simp only [Bool.and_eq_true, decide_eq_true_eq] at hx
  rw [← hx.2]
  exact Fails.bind (Fails.spanned (fails_ident_reserved hx.1 h.after))

theorem word_of {w t : List Char} (hw : isWord w = true) (ht : NotHead isIdChar t) : Word w t := by
  simp only [isWord, Bool.and_eq_true, List.all_eq_true] at hw
  refine ⟨hw.1.1.1.1, ht, ?_⟩
  cases w with
  | nil => cases hw.1.1.1.2
  | cons c w => exact noSkip_cons (exprStart_skip (exprStart_id hw.1.1.1.2))

end Quilt.Cs
