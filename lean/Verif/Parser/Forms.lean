import Verif.Parser.Steps

/-!
# Atoms and operators
-/

namespace Quilt.Cs

open Peg

/-! ## Choosing the alternative -/

/-- Not a word: the first thirteen alternatives fail. -/
theorem pre_sym {E : Env} {d : Nat} {rec : Nat → P Node} {c : Char} {t : List Char} {Q : (Span → Node) → List Char → Prop} (h1 : isIdStart c = false) (h2 : isSkip c = false)
    (h : Gives (firstOf ((prefixes E (d + 1) rec).drop 13)) (c :: t) Q) : Gives (firstOf (prefixes E (d + 1) rec)) (c :: t) Q := by
  have kf : ∀ (K : String) {α : Type} {f : P α}, K.toList.head?.any isIdStart = true → Fails (do kw K; f) (c :: t) := by
    intro K α f hK
    obtain ⟨a, as, hK, ha⟩ : ∃ a as, K.toList = a :: as ∧ isIdStart a = true := by
      cases hl : K.toList with
      | nil => rw [hl] at hK; cases hK
      | cons a as => rw [hl] at hK; exact ⟨a, as, rfl, by simpa using hK⟩
    refine Fails.bind (fails_kw_head hK (show (c == a) = false from ?_))
    cases he : c == a with
    | false => rfl
    | true => rw [eq_of_beq he, ha] at h1; cases h1
  have sf : ∀ (K : String) {α : Type} {f : P α}, K.toList.head?.any isIdStart = true → Fails (do skip; kw K; f) (c :: t) :=
    fun K α f hK => Fails.take (takes_skip_nil (noSkip_cons h2)) (kf K hK)
  unfold prefixes
  refine .first_right (kf "return" (by decide)) ?_
  refine .first_right (kf "external" (by decide)) ?_
  refine .first_right (kf "let" (by decide)) ?_
  refine .first_right (kf "let" (by decide)) ?_
  refine .first_right (Fails.bind (Fails.spanned (fails_ident h1))) ?_
  refine .first_right (kf "fn" (by decide)) ?_
  refine .first_right (by unfold ifCondition; exact sf "if" (by decide)) ?_
  refine .first_right (by unfold switchCase; exact sf "switch" (by decide)) ?_
  refine .first_right (kf "while" (by decide)) ?_
  refine .first_right (kf "for" (by decide)) ?_
  refine .first_right (kf "for" (by decide)) ?_
  refine .first_right (kf "with" (by decide)) ?_
  exact .first_right (kf "include" (by decide)) h

/-- A word that is not one of the keywords before statements. -/
theorem pre_word {E : Env} {d : Nat} {rec : Nat → P Node} {w t : List Char} {Q : (Span → Node) → List Char → Prop} (hw : Word w t)
    (hk : ∀ K ∈ ["return", "external", "let", "fn", "if", "switch", "while", "for", "with", "include"], K.toList ≠ w)
    (h4 : Fails (do let i ← spanned E ident; skip; let op ← opt opP; Peg.str "="; skip; let e ← rec 3; pure fun sp => .assign sp i (opAssign i op e) : P (Span → Node)) (w ++ t))
    (h : Gives (firstOf ((prefixes E (d + 1) rec).drop 13)) (w ++ t) Q) : Gives (firstOf (prefixes E (d + 1) rec)) (w ++ t) Q := by
  have kf : ∀ (K : String) {α : Type} {f : P α}, K ∈ ["return", "external", "let", "fn", "if", "switch", "while", "for", "with", "include"] → Fails (do kw K; f) (w ++ t) := by
    intro K α f hK
    have : K.toList.all isIdChar = true := by
      simp only [List.mem_cons, List.not_mem_nil, or_false] at hK
      rcases hK with rfl | rfl | rfl | rfl | rfl | rfl | rfl | rfl | rfl | rfl <;> decide
    exact hw.kwf K (by rw [this, decide_eq_true (hk K hK)]; rfl)
  have sf : ∀ (K : String) {α : Type} {f : P α}, K ∈ ["return", "external", "let", "fn", "if", "switch", "while", "for", "with", "include"] → Fails (do skip; kw K; f) (w ++ t) :=
    fun K α f hK => Fails.take (takes_skip_nil hw.ns) (kf K hK)
  unfold prefixes
  refine .first_right (kf "return" (by decide)) ?_
  refine .first_right (kf "external" (by decide)) ?_
  refine .first_right (kf "let" (by decide)) ?_
  refine .first_right (kf "let" (by decide)) ?_
  refine .first_right h4 ?_
  refine .first_right (kf "fn" (by decide)) ?_
  refine .first_right (by unfold ifCondition; exact sf "if" (by decide)) ?_
  refine .first_right (by unfold switchCase; exact sf "switch" (by decide)) ?_
  refine .first_right (kf "while" (by decide)) ?_
  refine .first_right (kf "for" (by decide)) ?_
  refine .first_right (kf "for" (by decide)) ?_
  refine .first_right (kf "with" (by decide)) ?_
  exact .first_right (kf "include" (by decide)) h

/-- The literals are alternative 17. -/
theorem pre_lit {E : Env} {d : Nat} {rec : Nat → P Node} {s : List Char} {Q : (Span → Node) → List Char → Prop} (h13 : Fails rangeLit s) (hs : NotHead isSign s)
    (h : Gives (firstOf ((prefixes E (d + 1) rec).drop 17)) s Q) : Gives (firstOf ((prefixes E (d + 1) rec).drop 13)) s Q := by
  unfold prefixes at h ⊢
  refine .first_right (Fails.bind h13) ?_
  refine .first_right (Fails.bind (Fails.char (c := '!') (by decide) (NotHead.ne hs (by decide)))) ?_
  refine .first_right (Fails.bind (Fails.char (c := '-') (by decide) (NotHead.ne hs (by decide)))) ?_
  exact .first_right (Fails.bind (Fails.char (c := '~') (by decide) (NotHead.ne hs (by decide)))) h

theorem isNum_of_not {c : Char} (h1 : isDig c = false) (h2 : c ≠ '-') : isNum c = false := by simp [isNum, h1, h2]

/-! ## Literals -/

theorem gives_lit17 {E : Env} {d : Nat} {rec : Nat → P Node} {l : LitC} {G : Gap} {r : List Char} (hl : l.ok = true) (ha : After (.lit l) G r) :
    Gives (firstOf ((prefixes E (d + 1) rec).drop 17)) (l.text ++ (G.text ++ r)) fun f s' => ∀ sp, Done E (.lit l) G r (f sp) s' := by
  refine .first_left ((literal_gives (lit_reads E l hl _ _ ha.lit (Nat.lt_succ_self _))).bind ?_)
  rintro _ _ ⟨rfl, rfl⟩
  exact Gives.pure fun sp => Done.exact ha.gok rfl rfl

/-- Words: `none`, `true`, `false`. -/
theorem gives_word_lit {E : Env} {d : Nat} {rec : Nat → P Node} {l : LitC} {x : String} {G : Gap} {r : List Char} (hl : l.ok = true) (ha : After (.lit l) G r) (hx : l.text = x.toList)
    (hx' : x = "none" ∨ x = "true" ∨ x = "false") :
    Gives (firstOf (prefixes E (d + 1) rec)) (l.text ++ (G.text ++ r)) fun f s' => ∀ sp, Done E (.lit l) G r (f sp) s' := by
  have hw : Word l.text (G.text ++ r) := by
    refine ⟨?_, ha.lit.word, ?_⟩
    · rw [hx]; rcases hx' with rfl | rfl | rfl <;> decide
    · exact LitC.noSkip hl _
  have hn : ∀ {f : Char → Bool}, f 'n' = false → f 't' = false → f 'f' = false → NotHead f (l.text ++ (G.text ++ r)) := by
    intro f h1 h2 h3
    rw [hx]; rcases hx' with rfl | rfl | rfl
    · exact h1
    · exact h2
    · exact h3
  refine pre_word hw ?_ ?_ (pre_lit (Fails.range (hn (by decide) (by decide) (by decide))) (hn (by decide) (by decide) (by decide)) (gives_lit17 hl ha))
  · rw [hx]; rcases hx' with rfl | rfl | rfl <;> decide
  · exact hw.resf x (by rw [hx]; rcases hx' with rfl | rfl | rfl <;> decide)

theorem litHead_cases {c : Char} (h : isLitHead c = true) : isIdStart c = false ∧ isSkip c = false ∧ (c ≠ '-' → isSign c = false) := by
  simp only [isLitHead, isNum, Bool.or_eq_true, beq_iff_eq] at h
  rcases h with ((((h | rfl) | rfl) | rfl) | rfl) | rfl
  · have hd := isDig_iff h
    refine ⟨?_, exprStart_skip (exprStart_dig h), fun _ => ?_⟩
    · cases hi : isIdStart c with
      | false => rfl
      | true => have := isIdStart_notDig hi; rw [h] at this; cases this
    · simp only [isSign, Bool.or_eq_false_iff]
      exact ⟨⟨by simpa using char_ne (d := '!') (by show c.toNat ≠ 33; omega), by simpa using char_ne (d := '-') (by show c.toNat ≠ 45; omega)⟩,
        by simpa using char_ne (d := '~') (by show c.toNat ≠ 126; omega)⟩
  all_goals decide

theorem gives_sym_lit {E : Env} {d : Nat} {rec : Nat → P Node} {l : LitC} {G : Gap} {r : List Char} {c : Char} {t : List Char} (hl : l.ok = true) (ha : After (.lit l) G r)
    (hc : l.text = c :: t) (h : isLitHead c = true) (hm : c ≠ '-') (h13 : Fails rangeLit (l.text ++ (G.text ++ r))) :
    Gives (firstOf (prefixes E (d + 1) rec)) (l.text ++ (G.text ++ r)) fun f s' => ∀ sp, Done E (.lit l) G r (f sp) s' := by
  have := pre_lit (E := E) (d := d) (rec := rec) h13 (by rw [hc]; exact (litHead_cases h).2.2 hm) (gives_lit17 (E := E) (d := d) (rec := rec) hl ha)
  rw [hc] at this ⊢
  exact pre_sym (litHead_cases h).1 (litHead_cases h).2.1 this

theorem digits_head {ds : List Char} (h1 : ds.isEmpty = false) (h2 : ds.all isDig = true) : ∃ c t, ds = c :: t ∧ isDig c = true := by
  cases ds with
  | nil => cases h1
  | cons c t => exact ⟨c, t, rfl, by rw [List.all_cons, Bool.and_eq_true] at h2; exact h2.1⟩

theorem dig_ne_minus {c : Char} (h : isDig c = true) : c ≠ '-' := char_ne (by have := isDig_iff h; show c.toNat ≠ 45; omega)

theorem dig_litHead {c : Char} (h : isDig c = true) : isLitHead c = true := by simp [isLitHead, isNum, h]

theorem num_head {n : Num} (h : n.digits = true) : ∃ c t, n.text = c :: t ∧ isDig c = true := by
  cases n with
  | dec ds =>
    simp only [Num.digits, Bool.and_eq_true, Bool.not_eq_true'] at h
    exact digits_head h.1 h.2
  | bin ds => exact ⟨_, _, rfl, by decide⟩
  | hex ds => exact ⟨_, _, rfl, by decide⟩
  | oct ds => exact ⟨_, _, rfl, by decide⟩

theorem form_lit (E : Env) {l : LitC} (h : (Cst.lit l).ok = true) : ReadsTo E (.lit l) := by
  simp only [Cst.ok, Bool.and_eq_true, Bool.not_eq_true'] at h
  refine ⟨fun {G r k min} ha hm hk => .of_prefix ?_⟩
  show Gives _ (l.text ++ _) _
  have h0 := h.1
  cases l with
  | none => exact gives_word_lit h0 ha (x := "none") (by decide) (.inl rfl)
  | bool b => cases b with
    | true => exact gives_word_lit h0 ha (x := "true") (by decide) (.inr (.inl rfl))
    | false => exact gives_word_lit h0 ha (x := "false") (by decide) (.inr (.inr rfl))
  | color ds => exact gives_sym_lit h0 ha rfl (by decide) (by decide) (Fails.range (show isNum '#' = false by decide))
  | str cs => exact gives_sym_lit h0 ha rfl (by decide) (by decide) (Fails.range (show isNum '"' = false by decide))
  | pair g1 a g2 g3 b g4 => exact gives_sym_lit h0 ha rfl (by decide) (by decide) (Fails.range (show isNum '(' = false by decide))
  | arr g es => exact gives_sym_lit h0 ha rfl (by decide) (by decide) (Fails.range (show isNum '[' = false by decide))
  | float neg ds fs =>
    cases neg with
    | true => cases h.2
    | false =>
      simp only [LitC.ok, Bool.and_eq_true, Bool.not_eq_true'] at h
      obtain ⟨c, t, hc, hd⟩ := digits_head h.1.1.1.1 h.1.1.1.2
      refine gives_sym_lit h0 ha (c := c) (t := t ++ '.' :: fs) (by simp [LitC.text, hc]) (dig_litHead hd) (dig_ne_minus hd) ?_
      have e : (LitC.float false ds fs).text ++ (G.text ++ r) = ds ++ '.' :: (fs ++ (G.text ++ r)) := by simp [LitC.text]
      rw [e]
      exact Fails.take (takes_dec h.1.1.1.1 h.1.1.1.2 (show isIdChar '.' = false by decide)) (noColon_char (by decide) (by decide) _)
  | int n =>
    cases n with
    | neg ds => cases h.2
    | pos n =>
      have hd : n.digits = true := by
        have := h.1
        simp only [LitC.ok, SNum.ok, Bool.and_eq_true] at this
        exact this.1
      obtain ⟨c, t, hc, hd'⟩ := num_head hd
      refine gives_sym_lit h0 ha (c := c) (t := t) (by simp [LitC.text, SNum.text, hc]) (dig_litHead hd') (dig_ne_minus hd') ?_
      exact fails_range_snum (n := .pos n) hd ha.lit.word (ha.lit.colon rfl)
  | range a g g' b =>
    have h1 := h.1
    simp only [LitC.ok, Bool.and_eq_true] at h1
    obtain ⟨c, t, hc, hn⟩ := snum_head (SNum.dig_of_ok h1.1.1.1)
    have hq : Gives (firstOf ((prefixes E (k + 1) (nodeN E k)).drop 13)) ((LitC.range a g g' b).text ++ (G.text ++ r)) fun f s' => ∀ sp, Done E (.lit (.range a g g' b)) G r (f sp) s' := by
      unfold prefixes
      refine .first_left (Takes.bind (takes_range h1.1.1.1 h1.2 h1.1.1.2 h1.1.2 ha.lit.word) (Gives.pure fun sp => Done.exact ha.gok rfl rfl))
    have e : (LitC.range a g g' b).text ++ (G.text ++ r) = c :: (t ++ g.text ++ ':' :: (g'.text ++ b.text) ++ (G.text ++ r)) := by simp [LitC.text, hc]
    rw [e] at hq ⊢
    have hL : isLitHead c = true := by simp [isLitHead, hn]
    exact pre_sym (litHead_cases hL).1 (litHead_cases hL).2.1 hq

/-! ## Names -/

theorem word_name {x : String} {t : List Char} (h : nameOk x = true) (ht : NotHead isIdChar t) : Word x.toList t := by
  obtain ⟨c, cs, _, _, h3, _⟩ := nameOk_iff h
  exact ⟨h3, ht, noSkip_name h _⟩

theorem name_not_kw {x : String} (h : nameOk x = true) : ∀ K ∈ ["return", "external", "let", "fn", "if", "switch", "while", "for", "with", "include"], K.toList ≠ x.toList := by
  obtain ⟨_, _, _, _, _, h1, h2, _⟩ := nameOk_iff h
  intro K hK e
  have e := String.ext e
  subst e
  simp only [List.mem_cons, List.not_mem_nil, or_false] at hK
  rcases hK with rfl | rfl | rfl | rfl | rfl | rfl | rfl | rfl | rfl | rfl <;> first | exact absurd rfl h2 | exact h1 (by decide)

theorem name_head {x : String} (h : nameOk x = true) {f : Char → Bool} (hf : ∀ c, isIdStart c = true → f c = false) (t : List Char) : NotHead f (x.toList ++ t) := by
  obtain ⟨c, cs, h1, h2, _⟩ := nameOk_iff h
  rw [h1]
  exact hf c h2

theorem idStart_ne {c d : Char} (h : isIdStart c = true) (hd : isIdStart d = false) : (c == d) = false := by
  cases he : c == d with
  | false => rfl
  | true => rw [eq_of_beq he, hd] at h; cases h

theorem form_ident (E : Env) {x : String} (h : (Cst.ident x).ok = true) : ReadsTo E (.ident x) := by
  simp only [Cst.ok] at h
  refine ⟨fun {G r k min} ha hm hk => .of_prefix ?_⟩
  show Gives _ (x.toList ++ _) _
  have hlen : (G.text ++ r).length ≤ k := by
    have := Cst.text_pos (c := .ident x) h
    simp only [List.length_append] at hk ⊢; omega
  have hw := word_name (t := G.text ++ r) h ha.lit.word
  have ch : ∀ {d : Char}, isIdStart d = false → NotHead (· == d) (x.toList ++ (G.text ++ r)) := fun hd => name_head h (fun c hc => idStart_ne hc hd) _
  have hnum : NotHead isNum (x.toList ++ (G.text ++ r)) := name_head h (fun c hc => isNum_of_not (isIdStart_notDig hc) (by rintro rfl; revert hc; decide)) _
  refine pre_word hw (name_not_kw h) ?_ (pre_lit (Fails.range hnum) (name_head h (fun c hc => isSign_id hc) _) ?_)
  · refine Fails.after (gives_spanned_ident h ha.lit.word) ?_
    rintro i _ ⟨_, rfl⟩
    exact ha.asg _ ((recBad_node E k).mono hlen) fun op e sp => .assign sp i (opAssign i op e)
  · unfold prefixes
    refine .first_right (Fails.bind (literal_fails (fails_literal_name h ha.lit.word))) ?_
    refine .first_right (Fails.bind (Fails.char (c := '[') (by decide) (ch (by decide)))) ?_
    refine .first_right (Fails.bind (Fails.char (c := '(') (by decide) (ch (by decide)))) ?_
    refine .first_right (Fails.bind (Fails.char (c := '(') (by decide) (ch (by decide)))) ?_
    refine .first_right (Fails.bind (Fails.char (c := '@') (by decide) (ch (by decide)))) ?_
    exact .first_left ((takes_ident h ha.lit.word).bind (Gives.pure fun sp => Done.exact ha.gok rfl rfl))

/-! ## Brackets -/

theorem litView_lit {E : Env} {c : Cst} {r : List Char} (h : c.ok = true) (hs : LitSafe c.endsInt r) : LitView (literal E) c r :=
  have := lit_view E c h (k := (c.text ++ r).length) hs (Nat.lt_succ_self _)
  ⟨fun hl => literal_gives (this.yes hl), fun hl p => this.no hl p⟩

theorem fails_lit_of {E : Env} {c : Cst} {r : List Char} (h : Fails (literalN E ((c.text ++ r).length + 1)) (c.text ++ r)) : Fails (literal E) (c.text ++ r) := literal_fails h

/-- Before the parenthesised expression. -/
theorem pre_paren {E : Env} {d : Nat} {rec : Nat → P Node} {t : List Char} {Q : (Span → Node) → List Char → Prop} (h17 : Fails (literal E) ('(' :: t))
    (h : Gives (firstOf ((prefixes E (d + 1) rec).drop 19)) ('(' :: t) Q) : Gives (firstOf (prefixes E (d + 1) rec)) ('(' :: t) Q := by
  refine pre_sym (by decide) (by decide) (pre_lit (Fails.range (show isNum '(' = false by decide)) (show isSign '(' = false by decide) ?_)
  unfold prefixes at h ⊢
  refine .first_right (Fails.bind h17) ?_
  exact .first_right (Fails.bind (Fails.str_cons (c := '[') (cs := []) (by decide) (by decide))) h

theorem form_paren (E : Env) {g g' : Gap} {e : Cst} (h : (Cst.paren g e g').ok = true) (ih : ReadsTo E e) : ReadsTo E (.paren g e g') := by
  simp only [Cst.ok, Bool.and_eq_true] at h
  refine ⟨fun {G r k min} ha hm hk => .of_prefix ?_⟩
  have et : (Cst.paren g e g').text ++ (G.text ++ r) = '(' :: (g.text ++ (e.text ++ (g'.text ++ ')' :: (G.text ++ r)))) := by simp [Cst.text]
  rw [et] at hk ⊢
  have hv := litView_lit (E := E) (r := g'.text ++ ')' :: (G.text ++ r)) h.1.2 (litSafe_close h.2 (by decide))
  have hn := ih.close (k := k) h.1.2 h.2 (d := ')') (r := G.text ++ r) (by decide) (fun _ => by decide) (by simp only [List.length_append, List.length_cons] at hk ⊢; omega)
  refine pre_paren ?_ ?_
  · refine literal_fails (fails_lit_paren (fails_pair_first h.1.2 h.1.1 h.2 (by decide) ?_ (.inr (by decide))))
    simp only [List.length_cons]
    exact lit_view E e h.1.2 (litSafe_close h.2 (by decide)) (by simp only [List.length_append, List.length_cons]; omega)
  · unfold prefixes
    refine .first_right (Fails.take (Takes.char (c := '(') (by decide) _) (Fails.take (takes_skip h.1.1 (Cst.noSkip h.1.2 _)) (Fails.after hn ?_))) ?_
    · intro l s hd
      exact Fails.take (hd.skip (noSkip_cons (by decide))) (Fails.bind (Fails.str_cons (c := ',') (cs := []) (by decide) (by decide)))
    refine .first_right (fails_pair_first h.1.2 h.1.1 h.2 (by decide) hv (.inr (by decide))) ?_
    refine .first_right (Fails.bind (Fails.str_cons (c := '@') (cs := []) (by decide) (by decide))) ?_
    refine .first_right (Fails.bind (fails_ident (by decide))) ?_
    refine .first_left ((Takes.char (c := '(') (by decide) _).bind ((takes_skip h.1.1 (Cst.noSkip h.1.2 _)).bind (hn.bind ?_)))
    intro l s hd
    refine (hd.skip (noSkip_cons (by decide))).bind ((Takes.char (c := ')') (by decide) _).bind (Gives.pure fun sp => Done.exact ha.gok ?_ rfl))
    rw [strip_respan, hd.ast]; rfl

theorem form_pair (E : Env) {g1 g2 g3 g4 : Gap} {a b : Cst} (h : (Cst.pair g1 a g2 g3 b g4).ok = true) (iha : ReadsTo E a) (ihb : ReadsTo E b) : ReadsTo E (.pair g1 a g2 g3 b g4) := by
  have h0 := h
  simp only [Cst.ok, Bool.and_eq_true, Bool.not_eq_true'] at h
  obtain ⟨⟨⟨⟨⟨⟨h1, h2⟩, h3⟩, h4⟩, h5⟩, h6⟩, h7⟩ := h
  refine ⟨fun {G r k min} ha hm hk => .of_prefix ?_⟩
  have et : (Cst.pair g1 a g2 g3 b g4).text ++ (G.text ++ r) = '(' :: (g1.text ++ (a.text ++ (g2.text ++ ',' :: (g3.text ++ (b.text ++ (g4.text ++ ')' :: (G.text ++ r))))))) := by simp [Cst.text]
  rw [et] at hk ⊢
  have hna := iha.close (k := k) h2 h3 (d := ',') (r := g3.text ++ (b.text ++ (g4.text ++ ')' :: (G.text ++ r)))) (by decide) (fun _ => by decide) (by simp only [List.length_append, List.length_cons] at hk ⊢; omega)
  have hnb := ihb.close (k := k) h5 h6 (d := ')') (r := G.text ++ r) (by decide) (fun _ => by decide) (by simp only [List.length_append, List.length_cons] at hk ⊢; omega)
  refine pre_paren ?_ ?_
  · refine literal_fails (fails_lit_paren ?_)
    simp only [List.length_cons]
    have iha := lit_view E a h2 (r := g2.text ++ ',' :: (g3.text ++ (b.text ++ (g4.text ++ ')' :: (G.text ++ r)))))
      (k := (g1.text ++ (a.text ++ (g2.text ++ ',' :: (g3.text ++ (b.text ++ (g4.text ++ ')' :: (G.text ++ r))))))).length) (litSafe_close h3 (by decide)) (by simp only [List.length_append, List.length_cons]; omega)
    have ihb := lit_view E b h5 (r := g4.text ++ ')' :: (G.text ++ r))
      (k := (g1.text ++ (a.text ++ (g2.text ++ ',' :: (g3.text ++ (b.text ++ (g4.text ++ ')' :: (G.text ++ r))))))).length) (litSafe_close h6 (by decide)) (by simp only [List.length_append, List.length_cons]; omega)
    cases hl : a.isLit with
    | false => exact fails_pair_first h2 h1 h3 (by decide) iha (.inl hl)
    | true =>
      rw [hl] at h7
      refine Fails.take (Takes.char (c := '(') (by decide) _) (Fails.take (takes_skip h1 (Cst.noSkip h2 _)) (Fails.after (iha.yes hl) ?_))
      rintro _ _ rfl
      refine Fails.take (takes_skip h3 (noSkip_comma _)) (Fails.take (Takes.char (c := ',') (by decide) _) (Fails.take (takes_skip h4 (Cst.noSkip h5 _)) ?_))
      exact (ihb.no h7).fails (c := ')') (by decide) (by decide)
  · unfold prefixes
    refine .first_left ((Takes.char (c := '(') (by decide) _).bind ((takes_skip h1 (Cst.noSkip h2 _)).bind (hna.bind ?_)))
    intro l s hd
    refine (hd.skip (noSkip_comma _)).bind ((Takes.char (c := ',') (by decide) _).bind ((takes_skip h4 (Cst.noSkip h5 _)).bind (hnb.bind ?_)))
    intro l' s' hd'
    refine (hd'.skip (noSkip_cons (by decide))).bind ((Takes.char (c := ')') (by decide) _).bind (Gives.pure fun sp => Done.exact ha.gok ?_ rfl))
    rw [Node.strip, hd.ast, hd'.ast]; rfl

/-- What is known of the elements of a list. -/
def AllRead (E : Env) (es : List (Gap × Cst × Gap)) : Prop := ∀ e ∈ es, e.1.ok = true ∧ e.2.1.ok = true ∧ e.2.2.ok = true ∧ ReadsTo E e.2.1

theorem form_array (E : Env) {g : Gap} {es : List (Gap × Cst × Gap)} (h : (Cst.array g es).ok = true) (ih : AllRead E es) : ReadsTo E (.array g es) := by
  simp only [Cst.ok, Bool.and_eq_true, Bool.not_eq_true'] at h
  refine ⟨fun {G r k min} ha hm hk => .of_prefix ?_⟩
  have et : (Cst.array g es).text ++ (G.text ++ r) = '[' :: (g.text ++ (commas (Cst.texts es) ++ ']' :: (G.text ++ r))) := by simp [Cst.text]
  rw [et] at hk ⊢
  refine pre_sym (by decide) (by decide) (pre_lit (Fails.range (show isNum '[' = false by decide)) (show isSign '[' = false by decide) ?_)
  unfold prefixes
  refine .first_right (Fails.bind (literal_fails ?_)) ?_
  · have iv := lit_views E es h.1.2
    simp only [List.length_cons]
    rw [Cst.texts_eq]
    refine fails_lit_bracket (array_fails h.1.1 h.2 (fun e he => ⟨(iv e he).1, (iv e he).2.1, (iv e he).2.2.1⟩) ?_)
    intro e he c s hc hl
    exact (iv e he).2.2.2 (litSafe_close (iv e he).2.2.1 hc) (by simp only [List.length_append, List.length_cons] at hl ⊢; omega)
  · refine .first_left ((Takes.char (c := '[') (by decide) _).bind (gives_skip_commaSep ((gives_args ih h.1.1 (.inr rfl) ?_).bind ?_)))
    · simp only [List.length_append, List.length_cons] at hk ⊢; omega
    · rintro as _ ⟨h1, rfl⟩
      refine (takes_skip_nil (noSkip_cons (by decide))).bind ((Takes.char (c := ']') (by decide) _).bind (Gives.pure fun sp => Done.exact ha.gok ?_ rfl))
      rw [Node.strip, h1]; rfl

theorem form_builtin (E : Env) {x : String} {g g0 : Gap} {es : List (Gap × Cst × Gap)} (h : (Cst.builtin x g g0 es).ok = true) (ih : AllRead E es) : ReadsTo E (.builtin x g g0 es) := by
  simp only [Cst.ok, Bool.and_eq_true] at h
  refine ⟨fun {G r k min} ha hm hk => .of_prefix ?_⟩
  have et : (Cst.builtin x g g0 es).text ++ (G.text ++ r) = '@' :: (x.toList ++ (g.text ++ '(' :: (g0.text ++ (commas (Cst.texts es) ++ ')' :: (G.text ++ r))))) := by simp [Cst.text]
  rw [et] at hk ⊢
  refine pre_sym (by decide) (by decide) (pre_lit (Fails.range (show isNum '@' = false by decide)) (show isSign '@' = false by decide) ?_)
  unfold prefixes
  refine .first_right (Fails.bind (literal_fails (fails_literal_head (show isAlpha '@' = false by decide) (show isLitHead '@' = false by decide)))) ?_
  refine .first_right (Fails.bind (Fails.str_cons (c := '[') (cs := []) (by decide) (by decide))) ?_
  refine .first_right (Fails.bind (Fails.str_cons (c := '(') (cs := []) (by decide) (by decide))) ?_
  refine .first_right (Fails.bind (Fails.str_cons (c := '(') (cs := []) (by decide) (by decide))) ?_
  obtain ⟨g', _, hg', _, hws⟩ := takes_ws (g := g) (r := '(' :: (g0.text ++ (commas (Cst.texts es) ++ ')' :: (G.text ++ r)))) (show isSimpleWhitespace '(' = false by decide)
  rw [hg' h.1.1.2] at hws
  refine .first_left ((Takes.char (c := '@') (by decide) _).bind ((gives_spanned_ident (r := g.text ++ '(' :: _) h.1.1.1 (Gap.notHead (gap_not (by decide)) (show isIdChar '(' = false by decide))).bind ?_))
  rintro i _ ⟨hi, rfl⟩
  refine hws.bind ((Takes.char (c := '(') (by decide) _).bind (gives_skip_commaSep ((gives_args ih h.1.2 (.inl rfl) ?_).bind ?_)))
  · simp only [List.length_append, List.length_cons] at hk ⊢; omega
  · rintro as _ ⟨h1, rfl⟩
    refine (takes_skip_nil (noSkip_cons (by decide))).bind ((Takes.char (c := ')') (by decide) _).bind (Gives.pure fun sp => Done.exact ha.gok ?_ rfl))
    rw [Node.strip, h1, hi]; rfl

/-- What is known of the statements of a block. -/
def AllStmts (E : Env) (b : List (Cst × Gap)) : Prop := ∀ e ∈ b, e.1.ok = true ∧ ReadsTo E e.1

theorem form_block (E : Env) {b0 : Gap} {b : List (Cst × Gap)} (h : (Cst.block b0 b).ok = true) (ih : AllStmts E b) : ReadsTo E (.block b0 b) := by
  simp only [Cst.ok, Bool.and_eq_true] at h
  refine ⟨fun {G r k min} ha hm hk => .of_prefix ?_⟩
  have et : (Cst.block b0 b).text ++ (G.text ++ r) = '{' :: (b0.text ++ (Cst.textB b ++ '}' :: (G.text ++ r))) := by simp [Cst.text]
  rw [et] at hk ⊢
  refine pre_sym (by decide) (by decide) (pre_lit (Fails.range (show isNum '{' = false by decide)) (show isSign '{' = false by decide) ?_)
  unfold prefixes
  refine .first_right (Fails.bind (literal_fails (fails_literal_head (show isAlpha '{' = false by decide) (show isLitHead '{' = false by decide)))) ?_
  refine .first_right (Fails.bind (Fails.str_cons (c := '[') (cs := []) (by decide) (by decide))) ?_
  refine .first_right (Fails.bind (Fails.str_cons (c := '(') (cs := []) (by decide) (by decide))) ?_
  refine .first_right (Fails.bind (Fails.str_cons (c := '(') (cs := []) (by decide) (by decide))) ?_
  refine .first_right (Fails.bind (Fails.str_cons (c := '@') (cs := []) (by decide) (by decide))) ?_
  refine .first_right (Fails.bind (fails_ident (by decide))) ?_
  refine .first_right (Fails.bind (Fails.str_cons (c := '(') (cs := []) (by decide) (by decide))) ?_
  refine .first_left ((gives_block (f := false) h.2 h.1 ih ?_).bind ?_)
  · simp only [List.length_append, List.length_cons] at hk ⊢; omega
  · rintro as _ ⟨h1, rfl⟩
    refine Gives.pure fun sp => Done.exact ha.gok ?_ rfl
    rw [Node.strip, h1]; rfl

/-! ## Operators -/

theorem form_un (E : Env) {op : Prefix} {g : Gap} {e : Cst} (h : (Cst.un op g e).ok = true) (ih : ReadsTo E e) : ReadsTo E (.un op g e) := by
  have h0 := h
  simp only [Cst.ok, Bool.and_eq_true, decide_eq_true_eq, Bool.not_eq_true'] at h
  obtain ⟨⟨⟨h1, h2⟩, h3⟩, h4⟩ := h
  refine ⟨fun {G r k min} ha hm hk => .of_prefix ?_⟩
  have et : (Cst.un op g e).text ++ (G.text ++ r) = op.char :: (g.text ++ (e.text ++ (G.text ++ r))) := by simp [Cst.text]
  rw [et] at hk ⊢
  have hnar := Cst.narrow_of_lvl (a := e) (by omega)
  have hrl : 17 ≤ e.rl := by have := Cst.rl_of_lvl (n := 16) h3 (by omega) (by omega); omega
  have hae : After e G r := ha.sub (show 17 ≤ _ from hrl) rfl (by rw [hnar.1]; rfl) (by rw [hnar.2]; rfl)
  have hsl : 17 ≤ e.slvl := by
    cases e <;> simp only [Cst.lvl, Cst.slvl] at h3 ⊢ <;> first | omega | (rename_i op _ _ _ _; have := op.lvl_bounds; omega)
  have hn := ih.node (k := k) h2 hae (min := 17) ha.stop (fun hw => by rw [hnar.1] at hw; cases hw) hsl (by simp only [List.length_append, List.length_cons] at hk ⊢; omega)
  have fin : ∀ (s : String), s.toList = [op.char] → Gives (do Peg.str s; skip; let e ← nodeN E k 17; pure fun sp => .un sp op.op e : P (Span → Node)) (op.char :: (g.text ++ (e.text ++ (G.text ++ r))))
      fun f s' => ∀ sp, Done E (.un op g e) G r (f sp) s' := by
    intro s hs
    refine (Takes.char hs _).bind ((takes_skip h1 (Cst.noSkip h2 _)).bind (hn.bind ?_))
    rintro l _ hd
    refine Gives.pure fun sp => hd.last ?_ hnar.1.symm hnar.2.symm
    rw [Node.strip, hd.ast]; rfl
  cases op with
  | not =>
    refine pre_sym (by decide) (by decide) ?_
    unfold prefixes
    refine .first_right (Fails.bind (Fails.range (show isNum '!' = false by decide))) ?_
    exact .first_left (fin "!" (by decide))
  | neg =>
    refine pre_sym (by decide) (by decide) ?_
    unfold prefixes
    refine .first_right (Fails.bind ?_) ?_
    · cases g with
      | nil =>
        refine (neg_view (E := E) (k := k + 1) h2 h3 (by simpa using h4) (r := G.text ++ r) ha.lit ?_).range
        simp only [Gap.text_nil, List.nil_append, Prefix.char, List.length_cons] at hk ⊢; omega
      | cons i g => exact Fails.bind (fails_int_minus (Gap.notHead_ne (gap_not (by decide)) rfl))
    refine .first_right (Fails.bind (Fails.str_cons (c := '!') (cs := []) (by decide) (by decide))) ?_
    exact .first_left (fin "-" (by decide))
  | bitNot =>
    refine pre_sym (by decide) (by decide) ?_
    unfold prefixes
    refine .first_right (Fails.bind (Fails.range (show isNum '~' = false by decide))) ?_
    refine .first_right (Fails.bind (Fails.str_cons (c := '!') (cs := []) (by decide) (by decide))) ?_
    refine .first_right (Fails.bind (Fails.str_cons (c := '-') (cs := []) (by decide) (by decide))) ?_
    exact .first_left (fin "~" (by decide))

theorem first_append {xs ys : List (P (Span → Node))} {s : List Char} {Q : (Span → Node) → List Char → Prop} (hx : ∀ x ∈ xs, Fails x s) (h : Gives (firstOf ys) s Q) :
    Gives (firstOf (xs ++ ys)) s Q := by
  induction xs with
  | nil => exact h
  | cons x xs ih => exact .first_right (hx x (List.mem_cons_self)) (ih fun y hy => hx y (List.mem_cons_of_mem _ hy))

/-- No operator of the table begins with a bracket. -/
theorem fails_infix_open {rec : Nat → P Node} {min : Nat} {l : Node} {g : Gap} {d : Char} {t : List Char} (hg : g.ok = true) (hd : d = '(' ∨ d = '[') :
    ∀ x ∈ infixOps.map (infix_ rec min l), Fails x (g.text ++ d :: t) := by
  intro x hx
  rw [infixOps_eq, List.map_map, List.mem_map] at hx
  obtain ⟨op, _, rfl⟩ := hx
  show Fails (infix_ rec min l (op.lvl, op.str, op.build)) _
  rw [infix_eq]
  refine Fails.ite fun _ => ?_
  unfold opStep
  refine Fails.take (takes_skip hg (noSkip_cons (by rcases hd with rfl | rfl <;> decide))) (Fails.bind ?_)
  obtain ⟨c, u, h1, h2, h3⟩ : ∃ c u, op.str.toList = c :: u ∧ '(' ≠ c ∧ '[' ≠ c := by cases op <;> exact ⟨_, _, rfl, by decide, by decide⟩
  rcases hd with rfl | rfl
  · exact Fails.str_cons h1 h2
  · exact Fails.str_cons h1 h3

theorem form_call (E : Env) {f : Cst} {g g0 : Gap} {es : List (Gap × Cst × Gap)} (h : (Cst.call f g g0 es).ok = true) (ihf : ReadsTo E f) (ih : AllRead E es) : ReadsTo E (.call f g g0 es) := by
  simp only [Cst.ok, Bool.and_eq_true, decide_eq_true_eq] at h
  obtain ⟨⟨⟨⟨h1, h2⟩, h3⟩, h4⟩, h5⟩ := h
  have hg := Gap.ok_of_ws h3
  have hnar := Cst.narrow_of_lvl (a := f) (by omega)
  have hsl : 17 ≤ f.slvl := by
    cases f <;> simp only [Cst.lvl, Cst.slvl] at h2 ⊢ <;> first | omega | (rename_i op _ _ _ _; have := op.lvl_bounds; omega)
  refine ⟨fun {G r k min} ha hm hk => ?_⟩
  have et : (Cst.call f g g0 es).text ++ (G.text ++ r) = f.text ++ (g.text ++ '(' :: (g0.text ++ (commas (Cst.texts es) ++ ')' :: (G.text ++ r)))) := by simp [Cst.text]
  rw [et] at hk ⊢
  have hm' : min ≤ 17 := hm
  refine (ihf.run (G := g) (after_open h2 hg (.inl rfl)) (by omega) hk).step ?_
  rintro l _ ⟨hl, G', _, rfl, _, h6, _⟩
  rw [h6 hnar.1]
  obtain ⟨g', _, hg', _, hws⟩ := takes_ws (g := g) (r := '(' :: (g0.text ++ (commas (Cst.texts es) ++ ')' :: (G.text ++ r)))) (show isSimpleWhitespace '(' = false by decide)
  rw [hg' h3] at hws
  unfold postfixes
  refine first_append (fails_infix_open hg (.inl rfl)) (.first_left ?_)
  rw [if_pos (show 17 ≥ min from hm')]
  refine hws.bind ((Takes.char (c := '(') (by decide) _).bind (gives_skip_commaSep ((gives_args ih h4 (.inl rfl) ?_).bind ?_)))
  · have := Cst.text_pos h1
    simp only [List.length_append, List.length_cons] at hk ⊢; omega
  · rintro as _ ⟨h7, rfl⟩
    refine (takes_skip_nil (noSkip_cons (by decide))).bind ((Takes.char (c := ')') (by decide) _).bind (Gives.pure ⟨?_, fun sp => Done.exact ha.gok ?_ rfl⟩))
    · simp only [List.length_append, List.length_cons]; omega
    · rw [Node.strip, h7, hl]; rfl

theorem form_index (E : Env) {f i : Cst} {g g1 g2 : Gap} (h : (Cst.index f g g1 i g2).ok = true) (ihf : ReadsTo E f) (ih : ReadsTo E i) : ReadsTo E (.index f g g1 i g2) := by
  simp only [Cst.ok, Bool.and_eq_true, decide_eq_true_eq] at h
  obtain ⟨⟨⟨⟨⟨h1, h2⟩, hg⟩, h4⟩, h5⟩, h5'⟩ := h
  have hnar := Cst.narrow_of_lvl (a := f) (by omega)
  have hsl : 17 ≤ f.slvl := by
    cases f <;> simp only [Cst.lvl, Cst.slvl] at h2 ⊢ <;> first | omega | (rename_i op _ _ _ _; have := op.lvl_bounds; omega)
  refine ⟨fun {G r k min} ha hm hk => ?_⟩
  have et : (Cst.index f g g1 i g2).text ++ (G.text ++ r) = f.text ++ (g.text ++ '[' :: (g1.text ++ (i.text ++ (g2.text ++ ']' :: (G.text ++ r))))) := by simp [Cst.text]
  rw [et] at hk ⊢
  have hm' : min ≤ 17 := hm
  refine (ihf.run (G := g) (after_open h2 hg (.inr rfl)) (by omega) hk).step ?_
  rintro l _ ⟨hl, G', _, rfl, _, h6, _⟩
  rw [h6 hnar.1]
  unfold postfixes
  refine first_append (fails_infix_open hg (.inr rfl)) (.first_right ?_ (.first_left ?_))
  · exact Fails.ite fun _ => fails_call (r := '[' :: _) (show isSimpleWhitespace '[' = false by decide) (.inl (show ('[' == '(') = false by decide)) _
  rw [if_pos (show 17 ≥ min from hm')]
  have hp := Cst.text_pos h1
  refine (takes_skip hg (noSkip_cons (by decide))).bind ((Takes.char (c := '[') (by decide) _).bind ((takes_skip h4 (Cst.noSkip h5 _)).bind
    ((ih.close (k := k) h5 h5' (d := ']') (r := G.text ++ r) (by decide) (fun _ => by decide) ?_).bind ?_)))
  · simp only [List.length_append, List.length_cons] at hk ⊢; omega
  · intro l' s' hd
    refine (hd.skip (noSkip_cons (by decide))).bind ((Takes.char (c := ']') (by decide) _).bind (Gives.pure ⟨?_, fun sp => Done.exact ha.gok ?_ rfl⟩))
    · simp only [List.length_append, List.length_cons]; omega
    · rw [Node.strip, hd.ast, hl]; rfl

theorem all_split (op : Infix) : ∃ xs ys, Infix.all = xs ++ op :: ys ∧ op ∉ xs := by
  have : Infix.all.Nodup := by decide
  obtain ⟨xs, ys, h⟩ := List.append_of_mem op.mem_all
  refine ⟨xs, ys, h, fun hm => ?_⟩
  rw [h, List.nodup_append] at this
  exact this.2.2 op hm op (List.mem_cons_self) rfl

theorem postfixes_split (rec : Nat → P Node) (min : Nat) (l : Node) :
    ∃ tl, postfixes rec min l = Infix.all.map (fun o => infix_ rec min l (o.lvl, o.str, o.build)) ++ tl := ⟨_, rfl⟩

theorem form_bin (E : Env) {op : Infix} {a b : Cst} {g g' : Gap} (h : (Cst.bin op a g g' b).ok = true) (iha : ReadsTo E a) (ihb : ReadsTo E b) : ReadsTo E (.bin op a g g' b) := by
  have h0 := h
  simp only [Cst.ok, Bool.and_eq_true, decide_eq_true_eq] at h
  obtain ⟨⟨⟨⟨⟨⟨⟨h1, h2⟩, h3⟩, h4⟩, h5⟩, h6⟩, _⟩, _⟩ := h
  have hb := op.lvl_bounds
  have hna := Cst.narrow_of_lvl (a := a) (by omega)
  have hnb := Cst.narrow_of_lvl (a := b) (by omega)
  have hsa : op.lvl ≤ a.slvl := by
    cases a <;> simp only [Cst.lvl, Cst.slvl] at h2 ⊢ <;> omega
  have hsb : op.lvl + 1 ≤ b.slvl := by
    cases b <;> simp only [Cst.lvl, Cst.slvl] at h6 ⊢ <;> omega
  refine ⟨fun {G r k min} ha hm hk => ?_⟩
  have et : (Cst.bin op a g g' b).text ++ (G.text ++ r) = a.text ++ (g.text ++ (op.text ++ (g'.text ++ (b.text ++ (G.text ++ r))))) := by simp [Cst.text]
  rw [et] at hk ⊢
  have hm' : min ≤ op.lvl := hm
  refine (iha.run (after_op h0 (G.text ++ r)) (by omega) hk).step ?_
  rintro l _ ⟨hl, G', _, rfl, _, h7, _⟩
  rw [h7 hna.1]
  have hp := Cst.text_pos h1
  have hot := (bin_follow h0 (G.text ++ r)).1
  have hrl : op.lvl + 1 ≤ b.rl := by
    have := b.rl_of_lvl (n := op.lvl + 1) (by omega) (by omega) (by omega); omega
  have hab : After b G r := ha.sub (show op.lvl + 1 ≤ _ from hrl) rfl (by rw [hnb.1]; rfl) (by rw [hnb.2]; rfl)
  obtain ⟨xs, ys, hall, hnot⟩ := all_split op
  obtain ⟨tl, htl⟩ := postfixes_split (nodeN E k) min l
  have hmap : postfixes (nodeN E k) min l = xs.map (fun o => infix_ (nodeN E k) min l (o.lvl, o.str, o.build)) ++ infix_ (nodeN E k) min l (op.lvl, op.str, op.build) ::
      (ys.map (fun o => infix_ (nodeN E k) min l (o.lvl, o.str, o.build)) ++ tl) := by
    rw [htl, hall]
    simp
  rw [hmap]
  refine Gives.first_mid ?_ ?_
  · intro x hx
    rw [List.mem_map] at hx
    obtain ⟨o, ho, rfl⟩ := hx
    rw [infix_eq]
    refine Fails.ite fun _ => hot.fails_other (by rintro rfl; exact hnot ho) h3 ((recBad_node E k).mono ?_) l
    simp only [List.length_append] at hk ⊢; omega
  · rw [infix_eq, if_pos (show op.lvl ≥ min from hm')]
    unfold opStep
    refine (takes_skip h3 hot.noSkip).bind ((Takes.str op.str_text _).bind ((takes_skip h4 (Cst.noSkip h5 _)).bind ((ihb.node (k := k) h5 hab (min := op.lvl + 1) ha.stop
      (fun hw => by rw [hnb.1] at hw; cases hw) hsb ?_).bind ?_)))
    · simp only [List.length_append] at hk ⊢; omega
    · rintro l' s' hd
      refine Gives.pure ⟨?_, fun sp => hd.last ?_ hnb.1.symm hnb.2.symm⟩
      · obtain ⟨G2, _, rfl, hle, _⟩ := hd.rest
        obtain ⟨c, t, hc⟩ := op.text_cons
        have : 0 < op.text.length := by rw [hc]; simp
        simp only [List.length_append]; omega
      · rw [op.strip_build, hd.ast, hl]; rfl

end Quilt.Cs
