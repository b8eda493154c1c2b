import Verif.Parser.Forms

/-!
# Forms that begin with a keyword
-/

namespace Quilt.Cs

open Peg

/-! ## Assignments -/

theorem noSkip_aop (op : Option AOp) (s : List Char) : NoSkip (aopText op ++ s) := by
  cases op with
  | none => exact noSkip_cons (by decide)
  | some a =>
    cases a
    case div =>
      show Fails skipPart ('/' :: '=' :: s)
      have hc : Fails comment ('/' :: '=' :: s) := Fails.bind (fails_str2 (c := '/') (d := '/') (by decide) (by intro u hu; simp at hu))
      refine Fails.or (fails_whitespace (by decide) (by decide)) (Fails.or ?_ hc)
      exact Fails.take (Takes.opt_none hc) (fails_term (by decide) (by decide) (by decide))
    all_goals exact noSkip_cons (by decide)

theorem takes_aop (op : Option AOp) (s : List Char) : Takes (opt opP) (aopText op ++ s) (op.map AOp.op) ('=' :: s) := by
  cases op with
  | none => exact Takes.opt_none (fails_opP (show isOpHead '=' = false by decide))
  | some a =>
    show Takes (opt opP) ((a.text ++ ['=']) ++ s) _ _
    rw [List.append_assoc]
    exact (takes_opP (u := '=' :: s) (show ('=' == '&' || '=' == '|') = false by decide)).opt_some

theorem strip_opAssign {i : Name} {x : String} (hi : Name.strip i = (x, Span.default)) (op : Option AOp) (e : Node) :
    (opAssign i (op.map AOp.op) e).strip = aopAst x e.strip op := by
  have hi : i.1 = x := congrArg Prod.fst hi
  cases op with
  | none => rfl
  | some a => show Node.bin Span.default a.op (.ident Span.default i.1) e.strip = _; rw [hi]; rfl

theorem name_after_aop {g : Gap} {op : Option AOp} (s : List Char) : NotHead isIdChar (g.text ++ (aopText op ++ s)) :=
  Gap.notHead (gap_not (by decide)) (aop_notHead (by decide) _)

/-- The value of an assignment. -/
theorem gives_value {E : Env} {c e : Cst} {G : Gap} {r : List Char} {k : Nat} (ha : After c G r) (h3 : c.rl = 3) (he : e.ok = true) (hl : 2 ≤ e.lvl) (h1 : e.endsInt = c.endsInt)
    (hw : e.wide = c.wide) (hb : c.bareRet = false) (ih : ReadsTo E e) (hk : (e.text ++ (G.text ++ r)).length < k) : Gives (nodeN E k 3) (e.text ++ (G.text ++ r)) (Done E e G r) ∧ e.bareRet = false := by
  have hb' : e.bareRet = false := by cases e <;> first | rfl | simp [Cst.lvl] at hl
  have hrl : 3 ≤ e.rl := by
    cases e <;> simp only [Cst.lvl, Cst.rl] at hl ⊢ <;> first | omega | (rename_i op _ _ _ _; have := op.lvl_bounds; omega)
  have hsl : 3 ≤ e.slvl := by
    cases e <;> simp only [Cst.slvl] <;> first | omega | (rename_i op _ _ _ _; have := op.lvl_bounds; omega)
  have hae : After e G r := ha.sub (by rw [h3]; exact hrl) h1 hw (by rw [hb, hb'])
  refine ⟨ih.node he hae (h3 ▸ ha.stop) (fun h => h3 ▸ (ha.wide (hw ▸ h)).2) hsl hk, hb'⟩

theorem form_assign (E : Env) {x : String} {g : Gap} {op : Option AOp} {g' : Gap} {e : Cst} (h : (Cst.assign x g op g' e).ok = true) (ih : ReadsTo E e) : ReadsTo E (.assign x g op g' e) := by
  simp only [Cst.ok, Bool.and_eq_true, decide_eq_true_eq] at h
  obtain ⟨⟨⟨⟨h1, h2⟩, h3⟩, h4⟩, h5⟩ := h
  refine ⟨fun {G r k min} ha hm hk => .of_prefix ?_⟩
  have et : (Cst.assign x g op g' e).text ++ (G.text ++ r) = x.toList ++ (g.text ++ (aopText op ++ (g'.text ++ (e.text ++ (G.text ++ r))))) := by simp [Cst.text]
  rw [et] at hk ⊢
  have hv := gives_value (k := k) ha rfl h4 h5 rfl rfl rfl ih (by
    have := Cst.text_pos (c := .ident x) h1
    simp only [List.length_append, Cst.text] at hk this ⊢; omega)
  have hw := word_name (t := g.text ++ (aopText op ++ (g'.text ++ (e.text ++ (G.text ++ r))))) h1 (name_after_aop _)
  have kf : ∀ (K : String) {α : Type} {f : P α}, (K.toList.all isIdChar && decide (K ∈ ["return", "external", "let", "fn", "if", "switch", "while", "for", "with", "include"])) = true →
      Fails (do kw K; f) (x.toList ++ (g.text ++ (aopText op ++ (g'.text ++ (e.text ++ (G.text ++ r)))))) := by
    intro K α f hK
    simp only [Bool.and_eq_true, decide_eq_true_eq] at hK
    exact hw.kwf K (by rw [hK.1, decide_eq_true (name_not_kw h1 K hK.2)]; rfl)
  unfold prefixes
  refine .first_right (kf "return" (by decide)) ?_
  refine .first_right (kf "external" (by decide)) ?_
  refine .first_right (kf "let" (by decide)) ?_
  refine .first_right (kf "let" (by decide)) ?_
  refine .first_left ((gives_spanned_ident h1 hw.after).bind ?_)
  rintro i _ ⟨hi, rfl⟩
  refine (takes_skip h2 (noSkip_aop _ _)).bind ((takes_aop _ _).bind ((Takes.char (c := '=') (by decide) _).bind ((takes_skip h3 (Cst.noSkip h4 _)).bind (hv.1.bind ?_))))
  intro l s hd
  refine Gives.pure fun sp => hd.last ?_ rfl hv.2.symm
  rw [Node.strip, strip_opAssign hi, hd.ast, hi]; rfl

theorem form_decl (E : Env) {g0 : Gap} {x : String} {g : Gap} {op : Option AOp} {g' : Gap} {e : Cst} (h : (Cst.decl g0 x g op g' e).ok = true) (ih : ReadsTo E e) :
    ReadsTo E (.decl g0 x g op g' e) := by
  simp only [Cst.ok, Bool.and_eq_true, decide_eq_true_eq, Bool.not_eq_true'] at h
  obtain ⟨⟨⟨⟨⟨⟨h0, h0'⟩, h1⟩, h2⟩, h3⟩, h4⟩, h5⟩ := h
  refine ⟨fun {G r k min} ha hm hk => .of_prefix ?_⟩
  have et : (Cst.decl g0 x g op g' e).text ++ (G.text ++ r) = ['l', 'e', 't'] ++ (g0.text ++ (x.toList ++ (g.text ++ (aopText op ++ (g'.text ++ (e.text ++ (G.text ++ r))))))) := by simp [Cst.text]
  rw [et] at hk ⊢
  have hv := gives_value (k := k) ha rfl h4 h5 rfl rfl rfl ih (by simp only [List.length_append, List.length_cons] at hk ⊢; omega)
  have hw := word_of (w := ['l', 'e', 't']) (t := g0.text ++ (x.toList ++ (g.text ++ (aopText op ++ (g'.text ++ (e.text ++ (G.text ++ r))))))) (by decide) (Gap.notHead_ne (gap_not (by decide)) h0')
  unfold prefixes
  refine .first_right (hw.kwf "return" (by decide)) ?_
  refine .first_right (hw.kwf "external" (by decide)) ?_
  refine .first_left ((takes_kw (by decide) hw.after).bind ((takes_skip h0 (noSkip_name h1 _)).bind ((gives_spanned_ident h1 (name_after_aop _)).bind ?_)))
  rintro i _ ⟨hi, rfl⟩
  refine (takes_skip h2 (noSkip_aop _ _)).bind ((takes_aop _ _).bind ((Takes.char (c := '=') (by decide) _).bind ((takes_skip h3 (Cst.noSkip h4 _)).bind (hv.1.bind ?_))))
  intro l s hd
  refine Gives.pure fun sp => hd.last ?_ rfl hv.2.symm
  rw [Node.strip, strip_opAssign hi, hd.ast, Var.strip, hi]; rfl

/-- The first of several names. -/
theorem names_two {xs : List NameC} (h : namesOk xs = true) (hl : 2 ≤ xs.length) (s : List Char) : ∃ (g : Gap) (x : String) (g' : Gap) (u : List Char), g.ok = true ∧ nameOk x = true ∧ g'.ok = true ∧
    commas (namesText xs) ++ s = g.text ++ (x.toList ++ (g'.text ++ ',' :: u)) := by
  match xs, hl with
  | (g, x, g') :: (y : NameC) :: ys, _ =>
    have := namesOk_iff h (g, x, g') (List.mem_cons_self)
    refine ⟨g, x, g', commas (namesText (y :: ys)) ++ s, this.1, this.2.1, this.2.2, ?_⟩
    obtain ⟨g2, y, g2'⟩ := y
    simp [namesText, commas]

theorem form_declMany (E : Env) {g0 : Gap} {xs : List NameC} {g' : Gap} {e : Cst} (h : (Cst.declMany g0 xs g' e).ok = true) (ih : ReadsTo E e) : ReadsTo E (.declMany g0 xs g' e) := by
  simp only [Cst.ok, Bool.and_eq_true, decide_eq_true_eq, Bool.not_eq_true'] at h
  obtain ⟨⟨⟨⟨⟨⟨h0, h0'⟩, h1⟩, h2⟩, h3⟩, h4⟩, h5⟩ := h
  refine ⟨fun {G r k min} ha hm hk => .of_prefix ?_⟩
  have et : (Cst.declMany g0 xs g' e).text ++ (G.text ++ r) = ['l', 'e', 't'] ++ (g0.text ++ (commas (namesText xs) ++ '=' :: (g'.text ++ (e.text ++ (G.text ++ r))))) := by simp [Cst.text]
  rw [et] at hk ⊢
  have hv := gives_value (k := k) ha rfl h4 h5 rfl rfl rfl ih (by simp only [List.length_append, List.length_cons] at hk ⊢; omega)
  have hw := word_of (w := ['l', 'e', 't']) (t := g0.text ++ (commas (namesText xs) ++ '=' :: (g'.text ++ (e.text ++ (G.text ++ r))))) (by decide) (Gap.notHead_ne (gap_not (by decide)) h0')
  have hne : xs ≠ [] := by rintro rfl; simp at h2
  have hnames := gives_names1 (E := E) (g0 := g0) (gt := []) (r := '=' :: (g'.text ++ (e.text ++ (G.text ++ r)))) h1 hne h0 ⟨rfl, noSkip_cons (by decide), show ('=' == ',') = false by decide⟩
    (fun e _ => Gap.notHead (gap_not (by decide)) (show isIdChar '=' = false by decide))
  rw [Gap.text_nil, List.nil_append] at hnames
  unfold prefixes
  refine .first_right (hw.kwf "return" (by decide)) ?_
  refine .first_right (hw.kwf "external" (by decide)) ?_
  refine .first_right (Fails.take (takes_kw (by decide) hw.after) ?_) (.first_left ?_)
  · obtain ⟨g1, x, g1', u, a1, a2, a3, a4⟩ := names_two h1 h2 ('=' :: (g'.text ++ (e.text ++ (G.text ++ r))))
    rw [a4, ← List.append_assoc, ← Gap.text_append]
    refine Fails.take (takes_skip (by rw [Gap.ok_append, h0, a1]; rfl) (noSkip_name a2 _))
      (Fails.after (gives_spanned_ident (r := g1'.text ++ ',' :: u) a2 (Gap.notHead (gap_not (by decide)) (show isIdChar ',' = false by decide))) ?_)
    rintro _ _ ⟨_, rfl⟩
    refine Fails.take (takes_skip a3 (noSkip_comma _)) (Fails.take (Takes.opt_none (fails_opP (show isOpHead ',' = false by decide))) (Fails.bind (Fails.str_cons (c := '=') (cs := []) (by decide) (by decide))))
  · refine (takes_kw (by decide) hw.after).bind (gives_skip_commaSep1 (hnames.bind ?_))
    rintro is _ ⟨hi, rfl⟩
    refine (takes_skip_nil (noSkip_cons (by decide))).bind ((Takes.char (c := '=') (by decide) _).bind ((takes_skip h3 (Cst.noSkip h4 _)).bind (hv.1.bind ?_)))
    intro l s hd
    refine Gives.pure fun sp => hd.last ?_ rfl hv.2.symm
    rw [Node.strip, Var.strip, hi, hd.ast]; rfl

theorem form_extern (E : Env) {g0 : Gap} {x : String} {g g' : Gap} {e : Cst} (h : (Cst.extern g0 x g g' e).ok = true) (ih : ReadsTo E e) : ReadsTo E (.extern g0 x g g' e) := by
  simp only [Cst.ok, Bool.and_eq_true, decide_eq_true_eq, Bool.not_eq_true'] at h
  obtain ⟨⟨⟨⟨⟨⟨h0, h0'⟩, h1⟩, h2⟩, h3⟩, h4⟩, h5⟩ := h
  refine ⟨fun {G r k min} ha hm hk => .of_prefix ?_⟩
  have et : (Cst.extern g0 x g g' e).text ++ (G.text ++ r) = ['e', 'x', 't', 'e', 'r', 'n', 'a', 'l'] ++ (g0.text ++ (x.toList ++ (g.text ++ '=' :: (g'.text ++ (e.text ++ (G.text ++ r)))))) := by
    simp [Cst.text]
  rw [et] at hk ⊢
  have hv := gives_value (k := k) ha rfl h4 h5 rfl rfl rfl ih (by simp only [List.length_append, List.length_cons] at hk ⊢; omega)
  have hw := word_of (w := ['e', 'x', 't', 'e', 'r', 'n', 'a', 'l']) (t := g0.text ++ (x.toList ++ (g.text ++ '=' :: (g'.text ++ (e.text ++ (G.text ++ r)))))) (by decide)
    (Gap.notHead_ne (gap_not (by decide)) h0')
  unfold prefixes
  refine .first_right (hw.kwf "return" (by decide)) ?_
  refine .first_left ((takes_kw (by decide) hw.after).bind ((takes_skip h0 (noSkip_name h1 _)).bind
    ((gives_spanned_ident (r := g.text ++ '=' :: _) h1 (Gap.notHead (gap_not (by decide)) (show isIdChar '=' = false by decide))).bind ?_)))
  rintro i _ ⟨hi, rfl⟩
  refine (takes_skip h2 (noSkip_cons (by decide))).bind ((Takes.char (c := '=') (by decide) _).bind ((takes_skip h3 (Cst.noSkip h4 _)).bind (hv.1.bind ?_)))
  intro l s hd
  refine Gives.pure fun sp => hd.last ?_ rfl hv.2.symm
  rw [Node.strip, hi, hd.ast]; rfl

/-! ## Functions -/

theorem namesEnd_paren (ps : List NameC) (t : List Char) : NamesEnd [] (')' :: t) ps where
  gok := rfl
  ns := noSkip_cons (by decide)
  comma := show (')' == ',') = false by decide
  id := show isIdStart ')' = false by decide
  last _ _ := Gap.notHead (gap_not (by decide)) (show isIdChar ')' = false by decide)

/-- The first alternatives fail on a keyword. -/
theorem pre_fn {E : Env} {d : Nat} {rec : Nat → P Node} {t : List Char} {x : String} {Q : (Span → Node) → List Char → Prop} (hw : Word x.toList t)
    (hx : (decide (x ∈ reserved) && decide ("return" ≠ x) && decide ("external" ≠ x) && decide ("let" ≠ x)) = true)
    (h : Gives (firstOf ((prefixes E (d + 1) rec).drop 5)) (x.toList ++ t) Q) : Gives (firstOf (prefixes E (d + 1) rec)) (x.toList ++ t) Q := by
  simp only [Bool.and_eq_true, decide_eq_true_eq] at hx
  have kf : ∀ (K : String) {α : Type} {f : P α}, K.toList.all isIdChar = true → K ≠ x → Fails (do kw K; f) (x.toList ++ t) :=
    fun K α f h1 h2 => hw.kwf K (by rw [h1, Bool.true_and, decide_eq_true_eq]; exact fun e => h2 (String.toList_inj.mp e))
  unfold prefixes at h ⊢
  refine .first_right (kf "return" (by decide) hx.1.1.2) ?_
  refine .first_right (kf "external" (by decide) hx.1.2) ?_
  refine .first_right (kf "let" (by decide) hx.2) ?_
  refine .first_right (kf "let" (by decide) hx.2) ?_
  exact .first_right (hw.resf x (by rw [decide_eq_true hx.1.1.1]; simp)) h

/-- Parameters and body of a function. -/
theorem gives_fn_rest {E : Env} {k : Nat} {g1 g0 : Gap} {ps : List NameC} {g2 b0 : Gap} {b : List (Cst × Gap)} {t : List Char} {f : List Name → List Node → Span → Node}
    {Q : (Span → Node) → List Char → Prop} (h1 : g1.ok = true) (h2 : g0.ok = true) (h3 : namesOk ps = true) (h4 : g2.ok = true) (h5 : b0.ok = true) (h6 : Cst.okB b = true) (ih : AllStmts E b)
    (hk : (Cst.textB b ++ '}' :: t).length < k)
    (hQ : ∀ args body, args.map Name.strip = names ps → stripL body = addImplicitNone true Span.default (Cst.astB E.float b) → Q (f args body) t) :
    Gives (do skip; Peg.str "("; skip; let args ← commaSep (spanned E ident); skip; Peg.str ")"; skip; let body ← Peg.block E (nodeN E k 0) true; pure (f args body) : P (Span → Node))
      (g1.text ++ '(' :: (g0.text ++ (commas (namesText ps) ++ ')' :: (g2.text ++ '{' :: (b0.text ++ (Cst.textB b ++ '}' :: t)))))) Q := by
  have hn := gives_names (E := E) (gt := []) (r := ')' :: (g2.text ++ '{' :: (b0.text ++ (Cst.textB b ++ '}' :: t)))) h3 h2 (namesEnd_paren ps _)
  rw [Gap.text_nil, List.nil_append] at hn
  refine (takes_skip h1 (noSkip_cons (by decide))).bind ((Takes.char (c := '(') (by decide) _).bind (gives_skip_commaSep (hn.bind ?_)))
  rintro args _ ⟨ha, rfl⟩
  refine (takes_skip_nil (noSkip_cons (by decide))).bind ((Takes.char (c := ')') (by decide) _).bind ((takes_skip h4 (noSkip_cons (by decide))).bind ((gives_block (f := true) h6 h5 ih hk).bind ?_)))
  rintro body _ ⟨hb, rfl⟩
  exact Gives.pure (hQ args body ha hb)

theorem form_func (E : Env) {g : Gap} {x : String} {g1 g0 : Gap} {ps : List NameC} {g2 b0 : Gap} {b : List (Cst × Gap)} (h : (Cst.func g x g1 g0 ps g2 b0 b).ok = true) (ih : AllStmts E b) :
    ReadsTo E (.func g x g1 g0 ps g2 b0 b) := by
  simp only [Cst.ok, Bool.and_eq_true, Bool.not_eq_true'] at h
  obtain ⟨⟨⟨⟨⟨⟨⟨⟨h0, h0'⟩, h1⟩, h2⟩, h3⟩, h4⟩, h5⟩, h6⟩, h7⟩ := h
  refine ⟨fun {G r k min} ha hm hk => .of_prefix ?_⟩
  have et : (Cst.func g x g1 g0 ps g2 b0 b).text ++ (G.text ++ r) = "fn".toList ++ (g.text ++ (x.toList ++ (g1.text ++ '(' :: (g0.text ++ (commas (namesText ps) ++ ')' :: (g2.text ++ '{' ::
    (b0.text ++ (Cst.textB b ++ '}' :: (G.text ++ r))))))))) := by simp [Cst.text]
  rw [et] at hk ⊢
  have hw := word_of (w := "fn".toList) (t := g.text ++ (x.toList ++ (g1.text ++ '(' :: (g0.text ++ (commas (namesText ps) ++ ')' :: (g2.text ++ '{' ::
    (b0.text ++ (Cst.textB b ++ '}' :: (G.text ++ r)))))))))  (by decide) (Gap.notHead_ne (gap_not (by decide)) h0')
  refine pre_fn hw (by decide) ?_
  unfold prefixes
  refine .first_left ((takes_kw rfl hw.after).bind ((takes_skip h0 (noSkip_name h1 _)).bind
    ((gives_spanned_ident (r := g1.text ++ '(' :: _) h1 (Gap.notHead (gap_not (by decide)) (show isIdChar '(' = false by decide))).opt_some.bind ?_)))
  rintro _ _ ⟨i, rfl, hi, rfl⟩
  refine gives_fn_rest (f := fun args body sp => .func sp i args body) h2 h3 h4 h5 h6 h7 ih ?_ ?_
  · simp only [List.length_append, List.length_cons] at hk ⊢; omega
  · intro args body h8 h9 sp
    refine Done.exact ha.gok ?_ rfl
    rw [Node.strip, hi, h8, h9]; rfl

theorem form_lambda (E : Env) {g g0 : Gap} {ps : List NameC} {g2 b0 : Gap} {b : List (Cst × Gap)} (h : (Cst.lambda g g0 ps g2 b0 b).ok = true) (ih : AllStmts E b) :
    ReadsTo E (.lambda g g0 ps g2 b0 b) := by
  simp only [Cst.ok, Bool.and_eq_true] at h
  obtain ⟨⟨⟨⟨⟨h0, h3⟩, h4⟩, h5⟩, h6⟩, h7⟩ := h
  refine ⟨fun {G r k min} ha hm hk => .of_prefix ?_⟩
  have et : (Cst.lambda g g0 ps g2 b0 b).text ++ (G.text ++ r) = "fn".toList ++ (g.text ++ '(' :: (g0.text ++ (commas (namesText ps) ++ ')' :: (g2.text ++ '{' ::
    (b0.text ++ (Cst.textB b ++ '}' :: (G.text ++ r))))))) := by simp [Cst.text]
  rw [et] at hk ⊢
  have hw := word_of (w := "fn".toList) (t := g.text ++ '(' :: (g0.text ++ (commas (namesText ps) ++ ')' :: (g2.text ++ '{' ::
    (b0.text ++ (Cst.textB b ++ '}' :: (G.text ++ r))))))) (by decide) (Gap.notHead (gap_not (by decide)) (show isIdChar '(' = false by decide))
  refine pre_fn hw (by decide) ?_
  unfold prefixes
  refine .first_left ((takes_kw rfl hw.after).bind ((takes_skip h0 (noSkip_cons (by decide))).bind ((Takes.opt_none (Fails.spanned (fails_ident (by decide)))).bind ?_)))
  refine gives_fn_rest (g1 := []) (f := fun args body sp => .lambda sp args body) rfl h3 h4 h5 h6 h7 ih ?_ ?_
  · simp only [List.length_append, List.length_cons] at hk ⊢; omega
  · intro args body h8 h9 sp
    refine Done.exact ha.gok ?_ rfl
    rw [Node.strip, h8, h9]; rfl

/-! ## Loops -/

/-- After functions: conditions and `switch`. -/
theorem pre_loop {E : Env} {d : Nat} {rec : Nat → P Node} {t : List Char} {x : String} {Q : (Span → Node) → List Char → Prop} (hw : Word x.toList t)
    (hx : (decide (x ∈ reserved) && decide ("return" ≠ x) && decide ("external" ≠ x) && decide ("let" ≠ x)) = true) (hx' : (decide ("fn" ≠ x) && decide ("if" ≠ x) && decide ("switch" ≠ x)) = true)
    (h : Gives (firstOf ((prefixes E (d + 1) rec).drop 8)) (x.toList ++ t) Q) : Gives (firstOf (prefixes E (d + 1) rec)) (x.toList ++ t) Q := by
  refine pre_fn hw hx ?_
  simp only [Bool.and_eq_true, decide_eq_true_eq] at hx'
  have ne : ∀ {K : String}, K ≠ x → K.toList.all isIdChar = true → (K.toList.all isIdChar && decide (K.toList ≠ x.toList)) = true :=
    fun h2 h1 => by rw [h1, Bool.true_and, decide_eq_true_eq]; exact fun e => h2 (String.toList_inj.mp e)
  unfold prefixes at h ⊢
  refine .first_right (hw.kwf "fn" (ne hx'.1.1 (by decide))) ?_
  refine .first_right (by unfold ifCondition; exact hw.skf "if" (ne hx'.1.2 (by decide))) ?_
  exact .first_right (by unfold switchCase; exact hw.skf "switch" (ne hx'.2 (by decide))) h

/-- An expression and a block. -/
theorem gives_head_block {E : Env} {k : Nat} {c : Cst} {g' b0 : Gap} {b : List (Cst × Gap)} {t : List Char} {f : Node → List Node → Span → Node} {Q : (Span → Node) → List Char → Prop}
    (h1 : c.ok = true) (h2 : c.bareRet = false) (h3 : g'.ok = true) (h4 : b0.ok = true) (h5 : Cst.okB b = true) (ihc : ReadsTo E c) (ih : AllStmts E b)
    (hk : (c.text ++ (g'.text ++ '{' :: (b0.text ++ (Cst.textB b ++ '}' :: t)))).length < k)
    (hQ : ∀ l body, l.strip = c.ast E.float → stripL body = addImplicitNone false Span.default (Cst.astB E.float b) → Q (f l body) t) :
    Gives (do let c ← nodeN E k 0; skip; let body ← Peg.block E (nodeN E k 0) false; pure (f c body) : P (Span → Node)) (c.text ++ (g'.text ++ '{' :: (b0.text ++ (Cst.textB b ++ '}' :: t)))) Q := by
  refine (ihc.close (k := k) h1 h3 (by decide) (fun h => by rw [h2] at h; cases h) hk).bind ?_
  intro l s hd
  refine (hd.skip (noSkip_cons (by decide))).bind ((gives_block (f := false) h5 h4 ih ?_).bind ?_)
  · simp only [List.length_append, List.length_cons] at hk ⊢; omega
  · rintro body _ ⟨hb, rfl⟩
    exact Gives.pure (hQ l body hd.ast hb)

theorem form_while (E : Env) {g : Gap} {c : Cst} {g' b0 : Gap} {b : List (Cst × Gap)} (h : (Cst.while g c g' b0 b).ok = true) (ihc : ReadsTo E c) (ih : AllStmts E b) :
    ReadsTo E (.while g c g' b0 b) := by
  simp only [Cst.ok, Bool.and_eq_true, Bool.not_eq_true'] at h
  obtain ⟨⟨⟨⟨⟨⟨h0, h1⟩, h2⟩, h3⟩, h4⟩, h5⟩, h6⟩ := h
  refine ⟨fun {G r k min} ha hm hk => .of_prefix ?_⟩
  have et : (Cst.while g c g' b0 b).text ++ (G.text ++ r) = "while".toList ++ (g.text ++ (c.text ++ (g'.text ++ '{' :: (b0.text ++ (Cst.textB b ++ '}' :: (G.text ++ r)))))) := by simp [Cst.text]
  rw [et] at hk ⊢
  have hw := word_of (w := "while".toList) (by decide) (apart_spec h1 h3 (g'.text ++ '{' :: (b0.text ++ (Cst.textB b ++ '}' :: (G.text ++ r)))))
  refine pre_loop hw (by decide) (by decide) ?_
  unfold prefixes
  refine .first_left ((takes_kw rfl hw.after).bind ((takes_skip h0 (Cst.noSkip h1 _)).bind (gives_head_block (f := fun c body sp => .while sp c body) h1 h2 h4 h5 h6 ihc ih ?_ ?_)))
  · simp only [List.length_append] at hk ⊢
    have : "while".toList.length = 5 := by decide
    omega
  · intro l body h8 h9 sp
    refine Done.exact ha.gok ?_ rfl
    rw [Node.strip, h8, h9]; rfl

theorem form_forIn (E : Env) {g : Gap} {x : String} {g1 g2 : Gap} {it : Cst} {g3 b0 : Gap} {b : List (Cst × Gap)} (h : (Cst.forIn g x g1 g2 it g3 b0 b).ok = true) (ihc : ReadsTo E it) (ih : AllStmts E b) :
    ReadsTo E (.forIn g x g1 g2 it g3 b0 b) := by
  simp only [Cst.ok, Bool.and_eq_true, Bool.not_eq_true'] at h
  obtain ⟨⟨⟨⟨⟨⟨⟨⟨⟨⟨⟨h0, h0'⟩, hx⟩, h1⟩, h1'⟩, h2⟩, h3⟩, h4⟩, h5⟩, h6⟩, h7⟩, h8⟩ := h
  refine ⟨fun {G r k min} ha hm hk => .of_prefix ?_⟩
  have et : (Cst.forIn g x g1 g2 it g3 b0 b).text ++ (G.text ++ r) = "for".toList ++ (g.text ++ (x.toList ++ (g1.text ++ ("in".toList ++ (g2.text ++ (it.text ++ (g3.text ++ '{' ::
    (b0.text ++ (Cst.textB b ++ '}' :: (G.text ++ r)))))))))) := by simp [Cst.text]
  rw [et] at hk ⊢
  have hw := word_of (w := "for".toList) (t := g.text ++ (x.toList ++ (g1.text ++ ("in".toList ++ (g2.text ++ (it.text ++ (g3.text ++ '{' ::
    (b0.text ++ (Cst.textB b ++ '}' :: (G.text ++ r)))))))))) (by decide) (Gap.notHead_ne (gap_not (by decide)) h0')
  refine pre_loop hw (by decide) (by decide) ?_
  unfold prefixes
  refine .first_right (hw.kwf "while" (by decide)) ?_
  refine .first_left ((takes_kw rfl hw.after).bind ((takes_skip h0 (noSkip_name hx _)).bind ((gives_spanned_ident hx (Gap.notHead_ne (gap_not (by decide)) h1')).bind ?_)))
  rintro i _ ⟨hi, rfl⟩
  refine (takes_skip h1 (noSkip_cons (by decide))).bind ((takes_kw rfl (apart_spec h3 h5 _)).bind ((takes_skip h2 (Cst.noSkip h3 _)).bind
    (gives_head_block (f := fun c body sp => .forIn sp i c body) h3 h4 h6 h7 h8 ihc ih ?_ ?_)))
  · simp only [List.length_append] at hk ⊢
    have : "for".toList.length = 3 := by decide
    omega
  · intro l body h8 h9 sp
    refine Done.exact ha.gok ?_ rfl
    rw [Node.strip, h8, h9, hi]; rfl

theorem form_forMany (E : Env) {g : Gap} {xs : List NameC} {g2 : Gap} {it : Cst} {g3 b0 : Gap} {b : List (Cst × Gap)} (h : (Cst.forMany g xs g2 it g3 b0 b).ok = true) (ihc : ReadsTo E it)
    (ih : AllStmts E b) : ReadsTo E (.forMany g xs g2 it g3 b0 b) := by
  simp only [Cst.ok, Bool.and_eq_true, Bool.not_eq_true', decide_eq_true_eq] at h
  obtain ⟨⟨⟨⟨⟨⟨⟨⟨⟨⟨⟨h0, h0'⟩, hx⟩, h1⟩, h1'⟩, h2⟩, h3⟩, h4⟩, h5⟩, h6⟩, h7⟩, h8⟩ := h
  refine ⟨fun {G r k min} ha hm hk => .of_prefix ?_⟩
  have et : (Cst.forMany g xs g2 it g3 b0 b).text ++ (G.text ++ r) = "for".toList ++ (g.text ++ (commas (namesText xs) ++ ("in".toList ++ (g2.text ++ (it.text ++ (g3.text ++ '{' ::
    (b0.text ++ (Cst.textB b ++ '}' :: (G.text ++ r))))))))) := by simp [Cst.text]
  rw [et] at hk ⊢
  have hw := word_of (w := "for".toList) (t := g.text ++ (commas (namesText xs) ++ ("in".toList ++ (g2.text ++ (it.text ++ (g3.text ++ '{' ::
    (b0.text ++ (Cst.textB b ++ '}' :: (G.text ++ r))))))))) (by decide) (Gap.notHead_ne (gap_not (by decide)) h0')
  have hne : xs ≠ [] := by rintro rfl; simp at h1
  have hnames := gives_names1 (E := E) (g0 := g) (gt := []) (r := "in".toList ++ (g2.text ++ (it.text ++ (g3.text ++ '{' :: (b0.text ++ (Cst.textB b ++ '}' :: (G.text ++ r)))))))
    hx hne h0 ⟨rfl, noSkip_cons (by decide), show ('i' == ',') = false by decide⟩ (fun e he => by
      rw [he] at h1'
      refine Gap.notHead_ne (gap_not (by decide)) ?_
      rw [List.append_nil]
      simpa using h1')
  rw [Gap.text_nil, List.nil_append] at hnames
  refine pre_loop hw (by decide) (by decide) ?_
  unfold prefixes
  refine .first_right (hw.kwf "while" (by decide)) ?_
  refine .first_right (Fails.take (takes_kw rfl hw.after) ?_) (.first_left ?_)
  · obtain ⟨g1, x, g1', u, a1, a2, a3, a4⟩ := names_two hx h1 ("in".toList ++ (g2.text ++ (it.text ++ (g3.text ++ '{' :: (b0.text ++ (Cst.textB b ++ '}' :: (G.text ++ r)))))))
    rw [a4, ← List.append_assoc, ← Gap.text_append]
    refine Fails.take (takes_skip (by rw [Gap.ok_append, h0, a1]; rfl) (noSkip_name a2 _))
      (Fails.after (gives_spanned_ident (r := g1'.text ++ ',' :: u) a2 (Gap.notHead (gap_not (by decide)) (show isIdChar ',' = false by decide))) ?_)
    rintro _ _ ⟨_, rfl⟩
    exact Fails.take (takes_skip a3 (noSkip_comma _)) (Fails.bind (fails_kw_head (c := 'i') (cs := ['n']) (by decide) (show (',' == 'i') = false by decide)))
  · refine (takes_kw rfl hw.after).bind (gives_skip_commaSep1 (hnames.bind ?_))
    rintro is _ ⟨hi, rfl⟩
    refine (takes_skip_nil (noSkip_cons (by decide))).bind ((takes_kw rfl (apart_spec h3 h5 _)).bind ((takes_skip h2 (Cst.noSkip h3 _)).bind
      (gives_head_block (f := fun c body sp => .forMulti sp is c body) h3 h4 h6 h7 h8 ihc ih ?_ ?_)))
    · simp only [List.length_append] at hk ⊢
      have : "for".toList.length = 3 := by decide
      omega
    · intro l body h8 h9 sp
      refine Done.exact ha.gok ?_ rfl
      rw [Node.strip, h8, h9, hi]; rfl

/-! ## Contexts and includes -/

theorem withVar_strip : ∀ {as : List Name} {xs : List NameC}, as.map Name.strip = names xs → (withVar (some as)).map Var.strip = match xs with
    | [(_, y, _)] => some (.one (y, Span.default))
    | ys => some (.many (names ys))
  | [], [], _ => rfl
  | [a], [(g, x, g')], h => by
    simp only [names, List.map_cons, List.map_nil, List.cons.injEq] at h
    show some (Var.one (Name.strip a)) = _
    rw [h.1]
  | a :: a' :: as, x :: x' :: xs, h => by
    show some (Var.many ((a :: a' :: as).map Name.strip)) = _
    rw [h]
  | [], _ :: _, h => by simp [names] at h
  | _ :: _, [], h => by simp [names] at h
  | [_], _ :: _ :: _, h => by simp [names] at h
  | _ :: _ :: _, [_], h => by simp [names] at h

theorem gives_skip_commaSep' {α : Type} {x : P α} {s : List Char} {Q : List α → List Char → Prop} (hq : Gives (commaSep x) s Q) : Gives (do skip; commaSep x) s Q := by
  unfold commaSep at hq ⊢
  exact gives_skip_skip hq

theorem form_ctx (E : Env) {g g1 : Gap} {x : String} {g2 g0 : Gap} {es : List (Gap × Cst × Gap)} {v : Option (Gap × Gap × List NameC)} {g3 b0 : Gap} {b : List (Cst × Gap)}
    (h : (Cst.ctx g g1 x g2 g0 es v g3 b0 b).ok = true) (ihe : AllRead E es) (ih : AllStmts E b) : ReadsTo E (.ctx g g1 x g2 g0 es v g3 b0 b) := by
  have hv : ∃ vt : List Char, (∀ s, (Cst.ctx g g1 x g2 g0 es v g3 b0 b).text ++ s = "with".toList ++ (g.text ++ '@' :: (g1.text ++ (x.toList ++ (g2.text ++ '(' :: (g0.text ++ (commas (Cst.texts es) ++ ')' ::
      (vt ++ (g3.text ++ '{' :: (b0.text ++ (Cst.textB b ++ '}' :: s))))))))))) ∧
      ∀ t, Gives (opt (do skip; kw "as"; skip; commaSep (spanned E ident))) (vt ++ (g3.text ++ '{' :: t)) fun a s => (withVar a).map Var.strip = (match v with
        | some (_, _, [(_, y, _)]) => some (.one (y, Span.default))
        | some (_, _, ys) => some (.many (names ys))
        | none => none) ∧ Takes skip s () ('{' :: t) := by
    simp only [Cst.ok, Bool.and_eq_true] at h
    obtain ⟨⟨⟨⟨_, h7⟩, h8⟩, _⟩, _⟩ := h
    cases v with
    | none =>
      refine ⟨[], fun s => by simp [Cst.text], fun t => ?_⟩
      refine (Takes.opt_none (Fails.take (takes_skip h8 (noSkip_cons (by decide))) (Fails.bind (fails_kw_head (w := "as") (c := 'a') (cs := ['s']) (s := '{' :: t) (by decide) (show ('{' == 'a') = false by decide))))).imp ?_
      rintro _ _ ⟨rfl, rfl⟩
      exact ⟨rfl, takes_skip h8 (noSkip_cons (by decide))⟩
    | some v =>
      obtain ⟨u, u', xs⟩ := v
      simp only [Bool.and_eq_true, Bool.not_eq_true'] at h7
      obtain ⟨⟨⟨⟨a1, a2⟩, a3⟩, a4⟩, a5⟩ := h7
      refine ⟨u.text ++ ("as".toList ++ (u'.text ++ commas (namesText xs))), fun s => by simp [Cst.text], fun t => ?_⟩
      have hn := gives_names (E := E) (gt := g3) (g0 := u') (r := '{' :: t) a4 a2 ⟨⟨h8, noSkip_cons (by decide), show ('{' == ',') = false by decide⟩, show isIdStart '{' = false by decide,
        fun _ _ => Gap.notHead (gap_not (by decide)) (show isIdChar '{' = false by decide)⟩
      simp only [List.append_assoc]
      refine Gives.imp (Gives.opt_some ((takes_skip a1 (noSkip_cons (by decide))).bind ((takes_kw rfl (Gap.notHead_ne (gap_not (by decide)) a3)).bind (gives_skip_commaSep' hn)))) ?_
      rintro _ _ ⟨as, rfl, ha, rfl⟩
      refine ⟨?_, takes_skip_nil (noSkip_cons (by decide))⟩
      rw [withVar_strip ha]
      match xs with
      | [] => rfl
      | [_] => rfl
      | _ :: _ :: _ => rfl
  obtain ⟨vt, hvt, hvg⟩ := hv
  simp only [Cst.ok, Bool.and_eq_true] at h
  obtain ⟨⟨⟨⟨⟨⟨⟨⟨⟨h0, h1⟩, hx⟩, h2⟩, h3⟩, h4⟩, h5⟩, h6⟩, h7⟩, h8⟩ := h
  refine ⟨fun {G r k min} ha hm hk => .of_prefix ?_⟩
  rw [hvt] at hk ⊢
  have hw := word_of (w := "with".toList) (t := g.text ++ '@' :: (g1.text ++ (x.toList ++ (g2.text ++ '(' :: (g0.text ++ (commas (Cst.texts es) ++ ')' ::
      (vt ++ (g3.text ++ '{' :: (b0.text ++ (Cst.textB b ++ '}' :: (G.text ++ r))))))))))) (by decide) (Gap.notHead (gap_not (by decide)) (show isIdChar '@' = false by decide))
  refine pre_loop hw (by decide) (by decide) ?_
  unfold prefixes
  refine .first_right (hw.kwf "while" (by decide)) ?_
  refine .first_right (hw.kwf "for" (by decide)) ?_
  refine .first_right (hw.kwf "for" (by decide)) ?_
  refine .first_left ((takes_kw rfl hw.after).bind ((takes_skip h0 (noSkip_cons (by decide))).bind ((Takes.char (c := '@') (by decide) _).bind ((takes_skip h1 (noSkip_name hx _)).bind
    ((gives_spanned_ident (r := g2.text ++ '(' :: _) hx (Gap.notHead (gap_not (by decide)) (show isIdChar '(' = false by decide))).bind ?_)))))
  rintro i _ ⟨hi, rfl⟩
  have hlen : "with".toList.length = 4 := by decide
  refine (takes_skip h2 (noSkip_cons (by decide))).bind ((Takes.char (c := '(') (by decide) _).bind (gives_skip_commaSep ((gives_args ihe h3 (.inl rfl) ?_).bind ?_)))
  · simp only [List.length_append, List.length_cons] at hk ⊢; omega
  rintro as _ ⟨h9, rfl⟩
  refine (takes_skip_nil (noSkip_cons (by decide))).bind ((Takes.char (c := ')') (by decide) _).bind ?_)
  refine (hvg _).bind ?_
  rintro vr _ ⟨hv, hs⟩
  refine hs.bind ((gives_block (f := false) h8 h7 ih ?_).bind ?_)
  · simp only [List.length_append, List.length_cons] at hk ⊢; omega
  rintro body _ ⟨h10, rfl⟩
  refine Gives.pure fun sp => Done.exact ha.gok ?_ rfl
  rw [Node.strip, hi, h9, h10, hv]
  rcases v with _ | ⟨_, _, _ | ⟨_, _ | _⟩⟩ <;> rfl

theorem form_include (E : Env) {g : Gap} {s : List Char} (h : (Cst.include g s).ok = true) : ReadsTo E (.include g s) := by
  simp only [Cst.ok, Bool.and_eq_true] at h
  refine ⟨fun {G r k min} ha hm hk => .of_prefix ?_⟩
  have et : (Cst.include g s).text ++ (G.text ++ r) = "include".toList ++ (g.text ++ '"' :: (s ++ '"' :: (G.text ++ r))) := by simp [Cst.text]
  rw [et] at hk ⊢
  have hw := word_of (w := "include".toList) (t := g.text ++ '"' :: (s ++ '"' :: (G.text ++ r))) (by decide) (Gap.notHead (gap_not (by decide)) (show isIdChar '"' = false by decide))
  refine pre_loop hw (by decide) (by decide) ?_
  unfold prefixes
  refine .first_right (hw.kwf "while" (by decide)) ?_
  refine .first_right (hw.kwf "for" (by decide)) ?_
  refine .first_right (hw.kwf "for" (by decide)) ?_
  refine .first_right (hw.kwf "with" (by decide)) ?_
  refine .first_left ((takes_kw rfl hw.after).bind ((takes_skip h.1 (noSkip_cons (by decide))).bind ((Gives.spanned (takes_string h.2 _)).bind ?_)))
  rintro a _ ⟨h1, rfl⟩
  refine Gives.pure fun sp => Done.exact ha.gok ?_ rfl
  rw [Node.strip, h1]; rfl

end Quilt.Cs
