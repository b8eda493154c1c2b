import Verif.Parser.Stmts

/-!
# Conditions, `switch` and `return`
-/

namespace Quilt.Cs

open Peg

/-! ## Conditions -/

/-- `if` can be read as a name. -/
theorem takes_ident_if {r : List Char} (hr : NotHead isIdChar r) : Takes ident ("if".toList ++ r) "if" r := by
  refine Reads.takes ?_
  unfold ident
  refine Reads.bind (t := ['i']) (t' := ['f']) (Reads.cls _ (by decide)) ?_
  have := Reads.bind (t' := []) (Reads.many_cls ['f'] r (by decide) hr)
    (f := fun cs => if String.ofList ('i' :: cs) ∈ reserved then fail else pure (String.ofList ('i' :: cs))) (b := "if") (by
      rw [show String.ofList ('i' :: ['f']) = "if" by decide, if_neg (by decide)]
      exact Reads.pure "if" r)
  rwa [List.append_nil] at this

/-- A condition is read. -/
structure IfReads (E : Env) (c : Cst) : Prop where
  run : ∀ {G : Gap} {r : List Char} {k d : Nat}, After c G r → (c.text ++ (G.text ++ r)).length < k + 1 → (c.text ++ (G.text ++ r)).length < d →
    Gives (ifCondition E (nodeN E k 0) d) (c.text ++ (G.text ++ r)) fun f s => ∀ sp, Done E c G r (f sp) s

def Cst.isIf : Cst → Bool
  | .ifThen .. | .ifElse .. | .elseIf .. => true
  | _ => false

/-- Condition and block. -/
theorem gives_if {E : Env} {k d : Nat} {g : Gap} {c : Cst} {g' b0 : Gap} {b : List (Cst × Gap)} {t : List Char} {Q : (Span → Node) → List Char → Prop} (h0 : g.ok = true) (h1 : c.ok = true)
    (h2 : c.bareRet = false) (h3 : apart g c.text = true) (h4 : g'.ok = true) (h5 : b0.ok = true) (h6 : Cst.okB b = true) (ihc : ReadsTo E c) (ih : AllStmts E b)
    (hk : (c.text ++ (g'.text ++ '{' :: (b0.text ++ (Cst.textB b ++ '}' :: t)))).length < k)
    (hQ : ∀ c' th, c'.strip = c.ast E.float → stripL th = addImplicitNone false Span.default (Cst.astB E.float b) → Gives (do
      skip
      let el ← opt (do
        kw "else"
        skip
        Peg.block E (nodeN E k 0) false </> (do
          let s ← position
          skip
          let code ← ifCondition E (nodeN E k 0) d
          skip
          let e ← position
          pure [code ⟨s, e, E.src⟩]))
      skip
      pure fun sp => .cond sp c' th el : P (Span → Node)) t Q) :
    Gives (ifCondition E (nodeN E k 0) (d + 1)) ("if".toList ++ (g.text ++ (c.text ++ (g'.text ++ '{' :: (b0.text ++ (Cst.textB b ++ '}' :: t)))))) Q := by
  unfold ifCondition
  refine (takes_skip_nil (noSkip_cons (by decide))).bind ((takes_kw rfl (apart_spec h1 h3 _)).bind ((takes_skip h0 (Cst.noSkip h1 _)).bind
    ((ihc.close (k := k) h1 h4 (by decide) (fun h => by rw [h2] at h; cases h) hk).bind ?_)))
  intro l s hd
  refine (hd.skip (noSkip_cons (by decide))).bind ((gives_block (f := false) h6 h5 ih ?_).bind ?_)
  · simp only [List.length_append, List.length_cons] at hk ⊢; omega
  · rintro th _ ⟨hb, rfl⟩
    exact hQ l th hd.ast hb

theorem if_ifThen (E : Env) {g : Gap} {c : Cst} {g' b0 : Gap} {b : List (Cst × Gap)} (h : (Cst.ifThen g c g' b0 b).ok = true) (ihc : ReadsTo E c) (ih : AllStmts E b) :
    IfReads E (.ifThen g c g' b0 b) := by
  simp only [Cst.ok, Bool.and_eq_true, Bool.not_eq_true'] at h
  obtain ⟨⟨⟨⟨⟨⟨h0, h1⟩, h2⟩, h3⟩, h4⟩, h5⟩, h6⟩ := h
  refine ⟨fun {G r k d} ha hk hd => ?_⟩
  have et : (Cst.ifThen g c g' b0 b).text ++ (G.text ++ r) = "if".toList ++ (g.text ++ (c.text ++ (g'.text ++ '{' :: (b0.text ++ (Cst.textB b ++ '}' :: (G.text ++ r)))))) := by simp [Cst.text]
  rw [et] at hk hd ⊢
  have hl : "if".toList.length = 2 := by decide
  obtain _ | d := d
  · omega
  refine gives_if h0 h1 h2 h3 h4 h5 h6 ihc ih (by simp only [List.length_append] at hk ⊢; omega) ?_
  intro c' th h8 h9
  refine (takes_skip ha.gok ha.ns).bind ((Takes.opt_none (Fails.bind (ha.wide rfl).1)).bind ((takes_skip_nil ha.ns).bind (Gives.pure fun sp => Done.all ?_ rfl)))
  rw [Node.strip, h8, h9]; rfl

theorem if_ifElse (E : Env) {g : Gap} {c : Cst} {g' b0 : Gap} {b : List (Cst × Gap)} {g1 g2 e0 : Gap} {e : List (Cst × Gap)} (h : (Cst.ifElse g c g' b0 b g1 g2 e0 e).ok = true)
    (ihc : ReadsTo E c) (ih : AllStmts E b) (ih' : AllStmts E e) : IfReads E (.ifElse g c g' b0 b g1 g2 e0 e) := by
  simp only [Cst.ok, Bool.and_eq_true, Bool.not_eq_true'] at h
  obtain ⟨⟨⟨⟨⟨⟨⟨⟨⟨⟨h0, h1⟩, h2⟩, h3⟩, h4⟩, h5⟩, h6⟩, h7⟩, h8⟩, h9⟩, h10⟩ := h
  refine ⟨fun {G r k d} ha hk hd => ?_⟩
  have et : (Cst.ifElse g c g' b0 b g1 g2 e0 e).text ++ (G.text ++ r) = "if".toList ++ (g.text ++ (c.text ++ (g'.text ++ '{' :: (b0.text ++ (Cst.textB b ++ '}' :: (g1.text ++
    ("else".toList ++ (g2.text ++ '{' :: (e0.text ++ (Cst.textB e ++ '}' :: (G.text ++ r))))))))))) := by simp [Cst.text]
  rw [et] at hk hd ⊢
  have hl : "if".toList.length = 2 := by decide
  obtain _ | d := d
  · omega
  refine gives_if h0 h1 h2 h3 h4 h5 h6 ihc ih (by simp only [List.length_append] at hk ⊢; omega) ?_
  intro c' th h11 h12
  refine (takes_skip h7 (noSkip_cons (by decide))).bind (Gives.bind (Gives.opt_some ((takes_kw rfl (Gap.notHead (r := '{' :: _) (gap_not (by decide)) (show isIdChar '{' = false by decide))).bind
    ((takes_skip h8 (noSkip_cons (by decide))).bind (Gives.left (gives_block (f := false) h10 h9 ih' (by simp only [List.length_append, List.length_cons] at hk ⊢; omega)))))) ?_)
  rintro _ _ ⟨el, rfl, h13, rfl⟩
  refine (takes_skip ha.gok ha.ns).bind (Gives.pure fun sp => Done.all ?_ rfl)
  rw [Node.strip, h11, h12, stripO, h13]; rfl

theorem if_elseIf (E : Env) {g : Gap} {c : Cst} {g' b0 : Gap} {b : List (Cst × Gap)} {g1 g2 : Gap} {e : Cst} (h : (Cst.elseIf g c g' b0 b g1 g2 e).ok = true)
    (ihc : ReadsTo E c) (ih : AllStmts E b) (ih' : IfReads E e) : IfReads E (.elseIf g c g' b0 b g1 g2 e) := by
  simp only [Cst.ok, Bool.and_eq_true, Bool.not_eq_true'] at h
  obtain ⟨⟨⟨⟨⟨⟨⟨⟨⟨⟨⟨h0, h1⟩, h2⟩, h3⟩, h4⟩, h5⟩, h6⟩, h7⟩, h8⟩, h9⟩, h10⟩, he⟩ := h
  have he : e.isIf = true := by cases e <;> first | rfl | exact he
  have he' : e.endsInt = false ∧ e.wide = true ∧ e.bareRet = false ∧ e.rl = 18 := by cases e <;> first | exact ⟨rfl, rfl, rfl, rfl⟩ | cases he
  refine ⟨fun {G r k d} ha hk hd => ?_⟩
  have et : (Cst.elseIf g c g' b0 b g1 g2 e).text ++ (G.text ++ r) = "if".toList ++ (g.text ++ (c.text ++ (g'.text ++ '{' :: (b0.text ++ (Cst.textB b ++ '}' :: (g1.text ++
    ("else".toList ++ (g2.text ++ (e.text ++ (G.text ++ r)))))))))) := by simp [Cst.text]
  rw [et] at hk hd ⊢
  have hl : "if".toList.length = 2 := by decide
  obtain _ | d := d
  · omega
  refine gives_if h0 h1 h2 h3 h4 h5 h6 ihc ih (by simp only [List.length_append] at hk ⊢; omega) ?_
  intro c' th h11 h12
  have hae : After e G r := ha.sub (by rw [he'.2.2.2]; exact Nat.le_refl 18) he'.1 he'.2.1 he'.2.2.1
  have hb : Fails (Peg.block E (nodeN E k 0) false) (e.text ++ (G.text ++ r)) := by
    unfold Peg.block
    refine Fails.after Gives.position fun _ _ hs => hs ▸ Fails.bind ?_
    have : ∃ t, e.text = 'i' :: t := by cases e <;> first | exact ⟨_, rfl⟩ | cases he
    obtain ⟨t, ht⟩ := this
    rw [ht]
    exact Fails.str_cons (c := '{') (cs := []) (by decide) (by decide)
  refine (takes_skip h7 (noSkip_cons (by decide))).bind (Gives.bind (Gives.opt_some (Q := fun el s => stripL el = [e.ast E.float] ∧ s = r)
    ((takes_kw rfl (Gap.notHead_ne (gap_not (by decide)) h9)).bind ((takes_skip h8 (Cst.noSkip h10 _)).bind (Gives.right hb ?_)))) ?_)
  · refine Gives.position.bind fun _ _ hs => hs ▸ (takes_skip_nil (Cst.noSkip h10 _)).bind (Gives.bind (ih'.run hae ?_ ?_) ?_)
    · simp only [List.length_append, List.length_cons] at hk ⊢; omega
    · simp only [List.length_append, List.length_cons] at hd ⊢; omega
    · intro f s hf
      refine ((hf Span.default).skip ha.ns).bind (Gives.position.bind fun _ _ hs => hs ▸ Gives.pure ⟨?_, rfl⟩)
      rw [stripL, (hf _).ast]; rfl
  · rintro _ _ ⟨el, rfl, h13, rfl⟩
    refine (takes_skip_nil ha.ns).bind (Gives.pure fun sp => Done.all ?_ rfl)
    rw [Node.strip, h11, h12, stripO, h13]; rfl

/-- Conditions among the other forms. -/
theorem form_if (E : Env) {c : Cst} (h : c.ok = true) (hi : c.isIf = true) (ih : IfReads E c) : ReadsTo E c := by
  refine ⟨fun {G r k min} ha hm hk => .of_prefix ?_⟩
  have hs : ∃ (g : Gap) (e : Cst) (u : List Char), e.ok = true ∧ g.ok = true ∧ apart g e.text = true ∧ c.text = "if".toList ++ (g.text ++ (e.text ++ u)) := by
    cases c
    case ifThen =>
      simp only [Cst.ok, Bool.and_eq_true] at h
      exact ⟨_, _, _, h.1.1.1.1.1.2, h.1.1.1.1.1.1, h.1.1.1.2, by simp only [Cst.text, List.append_assoc]; rfl⟩
    case ifElse =>
      simp only [Cst.ok, Bool.and_eq_true] at h
      exact ⟨_, _, _, h.1.1.1.1.1.1.1.1.1.2, h.1.1.1.1.1.1.1.1.1.1, h.1.1.1.1.1.1.1.2, by simp only [Cst.text, List.append_assoc]; rfl⟩
    case elseIf =>
      simp only [Cst.ok, Bool.and_eq_true] at h
      exact ⟨_, _, _, h.1.1.1.1.1.1.1.1.1.1.2, h.1.1.1.1.1.1.1.1.1.1.1, h.1.1.1.1.1.1.1.1.2, by simp only [Cst.text, List.append_assoc]; rfl⟩
    all_goals cases hi
  obtain ⟨g, e, u, h1, h2, h3, h4⟩ := hs
  have hr := ih.run (k := k) (d := k + 1) ha hk hk
  rw [h4] at hk hr ⊢
  simp only [List.append_assoc] at hk hr ⊢
  have hw := word_of (w := "if".toList) (by decide) (apart_spec h1 h3 (u ++ (G.text ++ r)))
  unfold prefixes
  refine .first_right (hw.kwf "return" (by decide)) ?_
  refine .first_right (hw.kwf "external" (by decide)) ?_
  refine .first_right (hw.kwf "let" (by decide)) ?_
  refine .first_right (hw.kwf "let" (by decide)) ?_
  refine .first_right ?_ ?_
  · refine Fails.after (Gives.spanned (takes_ident_if hw.after)) ?_
    rintro i _ ⟨_, rfl⟩
    refine assignSafe_expr h1 h2 _ ((recBad_node E k).mono ?_) (fun op e sp => .assign sp i (opAssign i op e))
    have hl : "if".toList.length = 2 := by decide
    simp only [List.length_append] at hk ⊢; omega
  refine .first_right (hw.kwf "fn" (by decide)) ?_
  exact .first_left hr

/-! ## `switch` -/

theorem stripC_append (a b : List (Node × List Node)) : stripC (a ++ b) = stripC a ++ stripC b := by
  induction a with
  | nil => rfl
  | cons x a ih => obtain ⟨n, l⟩ := x; simp [stripC, ih]

theorem stripC_map (b : List Node) (vs : List Node) : stripC (vs.map fun v => (v, b)) = (stripL vs).map fun v => (v, stripL b) := by
  induction vs with
  | nil => rfl
  | cons v vs ih => simp [stripC, stripL, ih]

theorem anyBare_iff {vs : List (Gap × Cst × Gap)} (h : Cst.anyBare vs = false) : ∀ e ∈ vs, e.2.1.bareRet = false := by
  induction vs with
  | nil => intro e he; cases he
  | cons v vs ih =>
    obtain ⟨g, e, g'⟩ := v
    simp only [Cst.anyBare, Bool.or_eq_false_iff] at h
    intro e he
    cases he with
    | head => exact h.1
    | tail _ he => exact ih h.2 e he

theorem values_head (vs : List (Gap × Cst × Gap)) (t : List Char) : ∃ d u, isCloser d = true ∧ (Cst.texts vs).flatMap (',' :: ·) ++ '{' :: t = d :: u := by
  cases vs with
  | nil => exact ⟨'{', t, by decide, rfl⟩
  | cons v vs => obtain ⟨g, e, g'⟩ := v; exact ⟨',', _, by decide, rfl⟩

/-- The values of a case after the first. -/
theorem gives_values_more {E : Env} {k : Nat} {t : List Char} : ∀ {vs : List (Gap × Cst × Gap)}, AllRead E vs → (∀ e ∈ vs, e.2.1.bareRet = false) → ∀ {G : Gap}, G.ok = true →
    (G.text ++ ((Cst.texts vs).flatMap (',' :: ·) ++ '{' :: t)).length < k →
    Gives (many (do let _ ← (do skip; Peg.str ","; skip : P Unit); nodeN E k 0)) (G.text ++ ((Cst.texts vs).flatMap (',' :: ·) ++ '{' :: t))
      fun as s => stripL as = Cst.asts E.float vs ∧ ∃ G' : Gap, G'.ok = true ∧ s = G'.text ++ '{' :: t
  | [], _, _, G, hG, hk => by
    refine (Gives.many_nil (Fails.bind (Fails.take (takes_skip hG (noSkip_cons (by decide))) (Fails.bind (Fails.str_cons (c := ',') (cs := []) (by decide) (by decide)))))).imp ?_
    rintro _ _ ⟨rfl, rfl⟩
    exact ⟨rfl, G, hG, rfl⟩
  | (g, e, g') :: vs, ha, hb, G, hG, hk => by
    obtain ⟨h1, h2, h3, ih⟩ := ha (g, e, g') List.mem_cons_self
    obtain ⟨d, u, hd, hu⟩ := values_head vs t
    have et : (Cst.texts ((g, e, g') :: vs)).flatMap (',' :: ·) ++ '{' :: t = ',' :: (g.text ++ (e.text ++ (g'.text ++ ((Cst.texts vs).flatMap (',' :: ·) ++ '{' :: t)))) := by
      simp [Cst.texts]
    rw [et] at hk ⊢
    have hr : Gives (nodeN E k 0) (e.text ++ (g'.text ++ ((Cst.texts vs).flatMap (',' :: ·) ++ '{' :: t))) (Done E e g' ((Cst.texts vs).flatMap (',' :: ·) ++ '{' :: t)) := by
      rw [hu] at hk ⊢
      refine ih.close h2 h3 hd (fun h => by rw [hb (g, e, g') List.mem_cons_self] at h; cases h) ?_
      simp only [List.length_append, List.length_cons] at hk ⊢; omega
    refine Gives.many_cons (Gives.bind (Q := fun _ s => s = e.text ++ (g'.text ++ ((Cst.texts vs).flatMap (',' :: ·) ++ '{' :: t)))
      ((takes_skip hG (noSkip_comma _)).bind ((Takes.char (c := ',') (by decide) _).bind ((takes_skip h1 (Cst.noSkip h2 _)).imp fun _ _ h => h.2))) fun _ _ hs => hs ▸ hr) ?_ ?_
    · rintro a s ⟨_, G2, _, rfl, h5, _⟩
      simp only [List.length_append, List.length_cons]; omega
    · rintro a s ⟨ha', G2, h4, rfl, h5, _⟩
      refine (gives_values_more (fun e he => ha e (List.mem_cons_of_mem _ he)) (fun e he => hb e (List.mem_cons_of_mem _ he)) h4 ?_).imp ?_
      · simp only [List.length_append, List.length_cons] at hk ⊢; omega
      · rintro as s ⟨h8, h9⟩
        exact ⟨by rw [stripL, Cst.asts, ha', h8], h9⟩

theorem texts_pos {E : Env} {vs : List (Gap × Cst × Gap)} (ha : AllRead E vs) (hv : vs.isEmpty = false) : ∃ c u, commas (Cst.texts vs) = c :: u := by
  cases vs with
  | nil => cases hv
  | cons v vs =>
    obtain ⟨g, e, g'⟩ := v
    have := Cst.text_pos (ha _ List.mem_cons_self).2.1
    rw [Cst.texts, commas_cons]
    cases h : g.text ++ e.text ++ g'.text ++ (Cst.texts vs).flatMap (',' :: ·) with
    | cons c u => exact ⟨c, u, rfl⟩
    | nil => simp only [List.append_eq_nil_iff] at h; rw [h.1.1.2] at this; cases this

/-- The condition on one case. -/
structure CaseOk (E : Env) (vs : List (Gap × Cst × Gap)) (b0 : Gap) (b : List (Cst × Gap)) (g : Gap) : Prop where
  read : AllRead E vs
  ne : vs.isEmpty = false
  bare : Cst.anyBare vs = false
  apart : apart [] (commas (Cst.texts vs)) = true
  gap : b0.ok = true
  ok : Cst.okB b = true
  gap' : g.ok = true
  stmts : AllStmts E b

theorem gives_case {E : Env} {k : Nat} {vs : List (Gap × Cst × Gap)} {b0 : Gap} {b : List (Cst × Gap)} {g : Gap} {u : List Char} (h : CaseOk E vs b0 b g) (hu : NoSkip u)
    (hk : (commas (Cst.texts vs) ++ '{' :: (b0.text ++ (Cst.textB b ++ '}' :: (g.text ++ u)))).length < k) :
    Gives (case_ E (nodeN E k 0)) ("case".toList ++ (commas (Cst.texts vs) ++ '{' :: (b0.text ++ (Cst.textB b ++ '}' :: (g.text ++ u)))))
      fun a s => stripC (a.1.map fun v => (v, a.2)) = (Cst.asts E.float vs).map (fun v => (v, addImplicitNone false Span.default (Cst.astB E.float b))) ∧ s = u := by
  have hnh : NotHead isIdChar (commas (Cst.texts vs) ++ '{' :: (b0.text ++ (Cst.textB b ++ '}' :: (g.text ++ u)))) := by
    obtain ⟨c, w, hw⟩ := texts_pos h.read h.ne
    have := h.apart
    rw [hw] at this ⊢
    simpa [Cs.apart, NotHead] using this
  unfold case_
  refine (takes_skip_nil (noSkip_cons (by decide))).bind ((takes_kw rfl hnh).bind ?_)
  obtain ⟨h1, h2, h3, -, h5, h6, h7, h8⟩ := h
  cases vs with
  | nil => cases h2
  | cons v vs =>
    obtain ⟨g1, e, g2⟩ := v
    obtain ⟨a1, a2, a3, ih⟩ := h1 (g1, e, g2) List.mem_cons_self
    have et : commas (Cst.texts ((g1, e, g2) :: vs)) ++ '{' :: (b0.text ++ (Cst.textB b ++ '}' :: (g.text ++ u))) =
        g1.text ++ (e.text ++ (g2.text ++ ((Cst.texts vs).flatMap (',' :: ·) ++ '{' :: (b0.text ++ (Cst.textB b ++ '}' :: (g.text ++ u)))))) := by simp [Cst.texts, commas_cons]
    rw [et] at hk ⊢
    have hb := anyBare_iff h3
    obtain ⟨d, w, hd, hw⟩ := values_head vs (b0.text ++ (Cst.textB b ++ '}' :: (g.text ++ u)))
    have hr : Gives (nodeN E k 0) (e.text ++ (g2.text ++ ((Cst.texts vs).flatMap (',' :: ·) ++ '{' :: (b0.text ++ (Cst.textB b ++ '}' :: (g.text ++ u))))))
        (Done E e g2 ((Cst.texts vs).flatMap (',' :: ·) ++ '{' :: (b0.text ++ (Cst.textB b ++ '}' :: (g.text ++ u))))) := by
      rw [hw] at hk ⊢
      refine ih.close a2 a3 hd (fun h => by rw [hb (g1, e, g2) List.mem_cons_self] at h; cases h) ?_
      simp only [List.length_append, List.length_cons] at hk ⊢; omega
    refine (takes_skip a1 (Cst.noSkip a2 _)).bind (Gives.bind (Q := fun as s => stripL as = Cst.asts E.float ((g1, e, g2) :: vs) ∧
      ∃ G' : Gap, G'.ok = true ∧ s = G'.text ++ '{' :: (b0.text ++ (Cst.textB b ++ '}' :: (g.text ++ u)))) (hr.bind ?_) ?_)
    · rintro a s ⟨ha', G2, h4, rfl, h5', _⟩
      refine (gives_values_more (fun e he => h1 e (List.mem_cons_of_mem _ he)) (fun e he => hb e (List.mem_cons_of_mem _ he)) h4 ?_).bind ?_
      · simp only [List.length_append, List.length_cons] at hk ⊢; omega
      · rintro as s ⟨h8, h9⟩
        exact Gives.pure ⟨by rw [stripL, Cst.asts, ha', h8], h9⟩
    · rintro as _ ⟨h9, G', h10, rfl⟩
      refine (takes_skip h10 (noSkip_cons (by decide))).bind ((gives_block (f := false) h6 h5 h8 ?_).bind ?_)
      · simp only [List.length_append, List.length_cons] at hk ⊢; omega
      · rintro body _ ⟨h11, rfl⟩
        refine (takes_skip h7 hu).bind (Gives.pure ⟨?_, rfl⟩)
        rw [stripC_map, h9, h11]

abbrev CaseC := List (Gap × Cst × Gap) × Gap × List (Cst × Gap) × Gap

def AllCases (E : Env) (cs : List CaseC) : Prop := ∀ c ∈ cs, CaseOk E c.1 c.2.1 c.2.2.1 c.2.2.2

/-- The end of the cases. -/
structure CaseEnd (w : List Char) : Prop where
  ns : NoSkip w
  head : NotHead (· == 'c') w

theorem textC_noSkip {w : List Char} (he : CaseEnd w) (cs : List CaseC) : NoSkip (Cst.textC cs ++ w) := by
  cases cs with
  | nil => exact he.ns
  | cons c cs => obtain ⟨vs, b0, b, g⟩ := c; exact noSkip_cons (by decide)

theorem fails_case {E : Env} {x : P Node} {w : List Char} (he : CaseEnd w) : Fails (case_ E x) w := by
  unfold case_
  exact Fails.take (takes_skip_nil he.ns) (Fails.bind (fails_kw_head (c := 'c') (cs := ['a', 's', 'e']) (by decide) he.head))

theorem textC_cons (vs : List (Gap × Cst × Gap)) (b0 : Gap) (b : List (Cst × Gap)) (g : Gap) (cs : List CaseC) (w : List Char) : Cst.textC ((vs, b0, b, g) :: cs) ++ w =
    "case".toList ++ (commas (Cst.texts vs) ++ '{' :: (b0.text ++ (Cst.textB b ++ '}' :: (g.text ++ (Cst.textC cs ++ w))))) := by simp [Cst.textC]

theorem gives_cases_more {E : Env} {k : Nat} {w : List Char} (he : CaseEnd w) : ∀ {cs : List CaseC}, AllCases E cs → (Cst.textC cs ++ w).length < k →
    Gives (many (do let _ ← skip; case_ E (nodeN E k 0))) (Cst.textC cs ++ w) fun l s => stripC (l.flatMap fun c => c.1.map fun v => (v, c.2)) = Cst.astC E.float cs ∧ s = w
  | [], _, _ => by
    refine (Gives.many_nil (Fails.take (takes_skip_nil he.ns) (fails_case he))).imp ?_
    rintro _ _ ⟨rfl, rfl⟩
    exact ⟨rfl, rfl⟩
  | (vs, b0, b, g) :: cs, h, hk => by
    have hns := textC_noSkip he ((vs, b0, b, g) :: cs)
    rw [textC_cons] at hk hns ⊢
    have hl : "case".toList.length = 4 := by decide
    refine Gives.many_cons ((takes_skip_nil hns).bind (gives_case (h _ List.mem_cons_self) (textC_noSkip he cs) (by simp only [List.length_append] at hk ⊢; omega))) ?_ ?_
    · rintro a _ ⟨_, rfl⟩
      simp only [List.length_append, List.length_cons]; omega
    · rintro a _ ⟨ha, rfl⟩
      refine (gives_cases_more he (fun c hc => h c (List.mem_cons_of_mem _ hc)) (by simp only [List.length_append, List.length_cons] at hk ⊢; omega)).imp ?_
      rintro as _ ⟨h8, rfl⟩
      exact ⟨by rw [List.flatMap_cons, stripC_append, Cst.astC, ha, h8], rfl⟩

theorem gives_cases {E : Env} {k : Nat} {w : List Char} (he : CaseEnd w) {cs : List CaseC} (h : AllCases E cs) (hk : (Cst.textC cs ++ w).length < k) :
    Gives (sepBy (case_ E (nodeN E k 0)) skip) (Cst.textC cs ++ w) fun l s => stripC (l.flatMap fun c => c.1.map fun v => (v, c.2)) = Cst.astC E.float cs ∧ s = w := by
  cases cs with
  | nil => exact Gives.right (Fails.bind (fails_case he)) (Gives.pure ⟨rfl, rfl⟩)
  | cons c cs =>
    obtain ⟨vs, b0, b, g⟩ := c
    rw [textC_cons] at hk ⊢
    have hl : "case".toList.length = 4 := by decide
    refine Gives.left (Gives.bind (gives_case (h _ List.mem_cons_self) (textC_noSkip he cs) (by simp only [List.length_append] at hk ⊢; omega)) ?_)
    rintro a _ ⟨ha, rfl⟩
    refine (gives_cases_more he (fun c hc => h c (List.mem_cons_of_mem _ hc)) (by simp only [List.length_append, List.length_cons] at hk ⊢; omega)).bind ?_
    rintro as _ ⟨h8, rfl⟩
    exact Gives.pure ⟨by rw [List.flatMap_cons, stripC_append, Cst.astC, ha, h8], rfl⟩

def DefOk (E : Env) (d : Option (Gap × Gap × List (Cst × Gap) × Gap)) : Prop := ∀ g b0 b g', d = some (g, b0, b, g') → AllStmts E b

theorem caseEnd (d : Option (Gap × Gap × List (Cst × Gap) × Gap)) (t : List Char) : CaseEnd (Cst.textD d ++ '}' :: t) := by
  cases d with
  | none => exact ⟨noSkip_cons (by decide), (show ('}' == 'c') = false by decide)⟩
  | some d => obtain ⟨g, b0, b, g'⟩ := d; exact ⟨noSkip_cons (by decide), (show ('d' == 'c') = false by decide)⟩

theorem gives_default {E : Env} {k : Nat} {d : Option (Gap × Gap × List (Cst × Gap) × Gap)} {t : List Char} (hd : Cst.okD d = true) (h : DefOk E d) (hk : (Cst.textD d ++ '}' :: t).length < k) :
    Gives (opt (defaultCase E (nodeN E k 0))) (Cst.textD d ++ '}' :: t) fun a s => stripO a = Cst.astD E.float d ∧ s = '}' :: t := by
  unfold defaultCase
  cases d with
  | none =>
    refine (Takes.opt_none (Fails.take (takes_skip_nil (caseEnd none t).ns) (Fails.bind (fails_kw_head (c := 'd') (cs := ['e', 'f', 'a', 'u', 'l', 't']) (by decide) ?_)))).imp ?_
    · exact (show ('}' == 'd') = false by decide)
    · rintro _ _ ⟨rfl, rfl⟩
      exact ⟨rfl, rfl⟩
  | some d =>
    obtain ⟨g, b0, b, g'⟩ := d
    simp only [Cst.okD, Bool.and_eq_true] at hd
    obtain ⟨⟨⟨h1, h2⟩, h3⟩, h4⟩ := hd
    have et : Cst.textD (some (g, b0, b, g')) ++ '}' :: t = "default".toList ++ (g.text ++ '{' :: (b0.text ++ (Cst.textB b ++ '}' :: (g'.text ++ '}' :: t)))) := by simp [Cst.textD]
    rw [et] at hk ⊢
    refine (Gives.opt_some (Q := fun l s => stripL l = addImplicitNone false Span.default (Cst.astB E.float b) ∧ s = '}' :: t)
      ((takes_skip_nil (noSkip_cons (by decide))).bind ((takes_kw rfl (Gap.notHead (r := '{' :: _) (gap_not (by decide)) (show isIdChar '{' = false by decide))).bind
      ((takes_skip h1 (noSkip_cons (by decide))).bind ((gives_block (f := false) h3 h2 (h _ _ _ _ rfl) ?_).bind ?_))))).imp ?_
    · simp only [List.length_append, List.length_cons] at hk ⊢; omega
    · rintro l _ ⟨h5, rfl⟩
      exact (takes_skip h4 (noSkip_cons (by decide))).bind (Gives.pure ⟨h5, rfl⟩)
    · rintro _ _ ⟨l, rfl, h5, rfl⟩
      exact ⟨by rw [stripO, h5]; rfl, rfl⟩

theorem form_switch (E : Env) {g : Gap} {v : Cst} {g1 g2 : Gap} {cs : List CaseC} {d : Option (Gap × Gap × List (Cst × Gap) × Gap)} (h : (Cst.switch g v g1 g2 cs d).ok = true) (ihv : ReadsTo E v)
    (hcs : AllCases E cs) (hd : DefOk E d) : ReadsTo E (.switch g v g1 g2 cs d) := by
  simp only [Cst.ok, Bool.and_eq_true, Bool.not_eq_true'] at h
  obtain ⟨⟨⟨⟨⟨⟨⟨h0, h1⟩, h2⟩, h3⟩, h4⟩, h5⟩, h6⟩, h7⟩ := h
  refine ⟨fun {G r k min} ha hm hk => .of_prefix ?_⟩
  have et : (Cst.switch g v g1 g2 cs d).text ++ (G.text ++ r) = "switch".toList ++ (g.text ++ (v.text ++ (g1.text ++ '{' :: (g2.text ++ (Cst.textC cs ++ (Cst.textD d ++ '}' :: (G.text ++ r))))))) := by
    simp [Cst.text]
  rw [et] at hk ⊢
  have hw := word_of (w := "switch".toList) (by decide) (apart_spec h1 h3 (g1.text ++ '{' :: (g2.text ++ (Cst.textC cs ++ (Cst.textD d ++ '}' :: (G.text ++ r))))))
  have hl : "switch".toList.length = 6 := by decide
  refine pre_fn hw (by decide) ?_
  unfold prefixes
  refine .first_right (hw.kwf "fn" (by decide)) ?_
  refine .first_right (by unfold ifCondition; exact hw.skf "if" (by decide)) ?_
  refine .first_left ?_
  unfold switchCase
  refine (takes_skip_nil hw.ns).bind ((takes_kw rfl hw.after).bind ((takes_skip h0 (Cst.noSkip h1 _)).bind ((ihv.close (k := k) h1 h4 (by decide) (fun h => by rw [h2] at h; cases h) ?_).bind ?_)))
  · simp only [List.length_append] at hk ⊢; omega
  intro l s hd'
  refine (hd'.skip (noSkip_cons (by decide))).bind ((Takes.char (c := '{') (by decide) _).bind ((takes_skip h5 (textC_noSkip (caseEnd d _) cs)).bind ((gives_cases (caseEnd d _) hcs ?_).bind ?_)))
  · simp only [List.length_append, List.length_cons] at hk ⊢; omega
  rintro l2 _ ⟨h8, rfl⟩
  refine (takes_skip_nil (caseEnd d _).ns).bind ((gives_default h7 hd ?_).bind ?_)
  · simp only [List.length_append, List.length_cons] at hk ⊢; omega
  rintro d2 _ ⟨h9, rfl⟩
  refine (takes_skip_nil (noSkip_cons (by decide))).bind ((Takes.char (c := '}') (by decide) _).bind ((takes_skip ha.gok ha.ns).bind (Gives.pure fun sp => Done.all ?_ rfl)))
  rw [Node.strip, h8, h9, hd'.ast]; rfl

/-! ## `return` -/

/-- The blanks after `return`. -/
abbrev blank : P Unit := whitespace </> comment

theorem noSkip_blank {r : List Char} (h : NoSkip r) : Fails blank r := by
  intro p
  have := h p
  unfold skipPart at this
  simp only [orElse] at this ⊢
  cases hw : whitespace ⟨p, r⟩ with
  | ok a i => rw [hw] at this; cases this
  | oof => rw [hw] at this; cases this
  | fail =>
    rw [hw] at this
    cases ht : terminator ⟨p, r⟩ with
    | ok a i => simp only [ht] at this; cases this
    | oof => simp only [ht] at this; cases this
    | fail => simp only [ht] at this; exact this

/-- One step of blanks. -/
theorem blank_step {G : Gap} {r : List Char} (hG : G.ok = true) (hr : NoSkip r) : (Fails blank (G.text ++ r) ∧ (G.isWs = true → G = [])) ∨
    ∃ G' : Gap, G'.ok = true ∧ (G.isWs = true → G'.isWs = true) ∧ Takes blank (G.text ++ r) () (G'.text ++ r) ∧ G'.text.length < G.text.length := by
  cases G with
  | nil => exact .inl ⟨noSkip_blank hr, fun _ => rfl⟩
  | cons i g =>
    rw [Gap.ok_cons, Bool.and_eq_true] at hG
    rw [Gap.text_cons, List.append_assoc]
    have ws : ∀ c, isSimpleWhitespace c = true → i.text = [c] → (Fails blank (i.text ++ (Gap.text g ++ r)) ∧ (Gap.isWs (i :: g) = true → i :: g = [])) ∨
        ∃ G' : Gap, G'.ok = true ∧ (Gap.isWs (i :: g) = true → G'.isWs = true) ∧ Takes blank (i.text ++ (Gap.text g ++ r)) () (G'.text ++ r) ∧ G'.text.length < (i.text ++ Gap.text g).length := by
      intro c hc hi
      refine .inr ⟨g, hG.2, fun h => by simpa [Gap.isWs] using (by simpa [Gap.isWs] using h : _ ∧ _).2, ?_, by rw [hi]; simp⟩
      rw [hi]
      refine Gives.left (Gives.left (Reads.takes (t := [c]) ?_))
      unfold simpleWhitespace
      exact Reads.bind (t := [c]) (t' := []) (Reads.cls _ hc) (Reads.pure () _)
    have no : ∀ c u, i.text = c :: u → isSimpleWhitespace c = false → c ≠ '\\' → c ≠ '/' → i.isWs = false → (Fails blank (i.text ++ (Gap.text g ++ r)) ∧ (Gap.isWs (i :: g) = true → i :: g = [])) ∨
        ∃ G' : Gap, G'.ok = true ∧ (Gap.isWs (i :: g) = true → G'.isWs = true) ∧ Takes blank (i.text ++ (Gap.text g ++ r)) () (G'.text ++ r) ∧ G'.text.length < (i.text ++ Gap.text g).length := by
      intro c u hi h1 h2 h3 h4
      refine .inl ⟨?_, fun h => by simp [Gap.isWs, h4] at h⟩
      rw [hi]
      exact Fails.or (fails_whitespace h1 h2) (fails_comment h3)
    cases i with
    | space => exact ws ' ' (by decide) rfl
    | tab => exact ws '\t' (by decide) rfl
    | newline => exact no '\n' _ rfl (by decide) (by decide) (by decide) rfl
    | crlf => exact no '\r' _ rfl (by decide) (by decide) (by decide) rfl
    | semi => exact no ';' _ rfl (by decide) (by decide) (by decide) rfl
    | comment cs =>
      refine .inr ⟨.newline :: g, by rw [Gap.ok_cons, hG.2]; rfl, fun h => by simp [Gap.isWs, GapItem.isWs] at h, ?_, by simp [Gap.text_cons, GapItem.text]; omega⟩
      have := (reads_comment hG.1 (Gap.text g ++ r)).takes
      have e : GapItem.text (.comment cs) ++ (Gap.text g ++ r) = ('/' :: '/' :: cs) ++ '\n' :: (Gap.text g ++ r) := by simp [GapItem.text]
      rw [e]
      exact Gives.right (fails_whitespace (by decide) (by decide)) this
    | cont =>
      refine .inr ⟨g, hG.2, fun h => by simp [Gap.isWs, GapItem.isWs] at h, ?_, by simp only [GapItem.text, List.length_append, List.length_cons]; omega⟩
      refine Gives.left (Reads.takes (Reads.right (Fails.bind (Fails.cls (show isSimpleWhitespace '\\' = false by decide))) ?_))
      exact Reads.bind (t := ['\\']) (Reads.str "\\" _ (by decide)) (reads_newline _)

theorem many_blank {r : List Char} (hr : NoSkip r) : ∀ (n : Nat) {G : Gap}, G.text.length ≤ n → G.ok = true → Gives (many blank) (G.text ++ r) fun _ s =>
    ∃ G' : Gap, G'.ok = true ∧ s = G'.text ++ r ∧ G'.text.length ≤ G.text.length ∧ (G.isWs = true → G' = [])
  | n, G, hn, hG => by
    rcases blank_step hG hr with ⟨h, hw⟩ | ⟨G', h1, h2, h3, h4⟩
    · refine (Gives.many_nil h).imp ?_
      rintro _ _ ⟨rfl, rfl⟩
      exact ⟨G, hG, rfl, Nat.le_refl _, hw⟩
    · cases n with
      | zero => omega
      | succ n =>
        refine Gives.many_cons h3 ?_ ?_
        · rintro _ _ ⟨_, rfl⟩
          simp only [List.length_append]; omega
        · rintro _ _ ⟨_, rfl⟩
          refine (many_blank hr n (by omega) h1).imp ?_
          rintro _ _ ⟨G2, h5, h6, h7, h8⟩
          exact ⟨G2, h5, h6, by omega, fun h => h8 (h2 h)⟩

theorem opt_skip1 {r : List Char} (hr : NoSkip r) {G : Gap} (hG : G.ok = true) : Gives (opt skip1) (G.text ++ r) fun _ s =>
    ∃ G' : Gap, G'.ok = true ∧ s = G'.text ++ r ∧ G'.text.length ≤ G.text.length ∧ (G.isWs = true → G' = []) := by
  rcases blank_step hG hr with ⟨h, hw⟩ | ⟨G', h1, h2, h3, h4⟩
  · refine (Takes.opt_none (Fails.bind (Fails.bind h))).imp ?_
    rintro _ _ ⟨rfl, rfl⟩
    exact ⟨G, hG, rfl, Nat.le_refl _, hw⟩
  · refine (Gives.opt_some (Q := fun _ s => ∃ G' : Gap, G'.ok = true ∧ s = G'.text ++ r ∧ G'.text.length ≤ G.text.length ∧ (G.isWs = true → G' = [])) ?_).imp ?_
    · refine Gives.bind (Q := fun _ s => ∃ G' : Gap, G'.ok = true ∧ s = G'.text ++ r ∧ G'.text.length ≤ G.text.length ∧ (G.isWs = true → G' = []))
        (h3.bind ((many_blank hr _ (Nat.le_refl _) h1).bind ?_)) ?_
      · rintro _ _ ⟨G2, h5, h6, h7, h8⟩
        exact Gives.pure ⟨G2, h5, h6, by omega, fun h => h8 (h2 h)⟩
      · intro _ _ h
        exact Gives.pure h
    · rintro _ _ ⟨_, _, h⟩
      exact h

theorem form_ret_none (E : Env) : ReadsTo E (.ret none) := by
  refine ⟨fun {G r k min} ha hm hk => .of_prefix ?_⟩
  have et : (Cst.ret none).text ++ (G.text ++ r) = "return".toList ++ (G.text ++ r) := by simp [Cst.text, Cst.textR]
  rw [et] at hk ⊢
  have hl : "return".toList.length = 6 := by decide
  unfold prefixes
  refine .first_left ((takes_kw rfl ha.lit.word).bind ((opt_skip1 ha.ns ha.gok).bind ?_))
  rintro _ _ ⟨G', h1, rfl, h2, _⟩
  refine (Takes.opt_none (recBad_node E k 0 _ ?_ ⟨G', r, rfl, h1, ha.ns, ha.bare rfl⟩)).bind (Gives.pure fun sp => ⟨rfl, G', h1, rfl, h2, nofun, nofun⟩)
  simp only [List.length_append] at hk ⊢; omega

theorem form_ret_some (E : Env) {g : Gap} {e : Cst} (h : (Cst.ret (some (g, e))).ok = true) (ih : ReadsTo E e) : ReadsTo E (.ret (some (g, e))) := by
  simp only [Cst.ok, Cst.okR, Bool.and_eq_true] at h
  obtain ⟨⟨h1, h2⟩, h3⟩ := h
  refine ⟨fun {G r k min} ha hm hk => .of_prefix ?_⟩
  have et : (Cst.ret (some (g, e))).text ++ (G.text ++ r) = "return".toList ++ (g.text ++ (e.text ++ (G.text ++ r))) := by simp [Cst.text, Cst.textR]
  rw [et] at hk ⊢
  have hl : "return".toList.length = 6 := by decide
  unfold prefixes
  refine .first_left ((takes_kw rfl (apart_spec h2 h3 _)).bind ((opt_skip1 (Cst.noSkip h2 _) (Gap.ok_of_ws h1)).bind ?_))
  rintro _ _ ⟨G', _, rfl, _, h4⟩
  rw [h4 h1, Gap.text_nil, List.nil_append]
  have hae : After e G r := ha.sub (Nat.zero_le _) rfl rfl rfl
  refine (Gives.opt_some (ih.node (min := 0) h2 hae ha.stop (fun hw => (ha.wide hw).2) (Nat.zero_le _) ?_)).bind ?_
  · simp only [List.length_append] at hk ⊢; omega
  · rintro _ s ⟨l, rfl, hd⟩
    refine Gives.pure fun sp => hd.last ?_ rfl rfl
    rw [Node.strip, stripE, hd.ast]; rfl

end Quilt.Cs
