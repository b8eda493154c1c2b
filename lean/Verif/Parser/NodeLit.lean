import Verif.Parser.Heads

/-!
# The parser of literals on expressions

Arrays and pairs are first tried as literals. On expressions that are not literals this fails, or stops before the end of the expression.
-/

namespace Quilt.Cs

open Peg

def isClose (c : Char) : Bool := c == ',' || c == ')' || c == ']'

/-- After a gap there is none of `,`, `)`, `]`. -/
def Blocked (s : List Char) : Prop := ∃ (g : Gap) (r : List Char), g.ok = true ∧ s = g.text ++ r ∧ NoSkip r ∧ NotHead isClose r

theorem Blocked.fails {s : List Char} (h : Blocked s) {α : Type} {f : P α} {w : String} {c : Char} (hw : w.toList = [c]) (hc : isClose c = true) :
    Fails (do skip; str w; f) s := by
  obtain ⟨g, r, hg, rfl, hr, hn⟩ := h
  refine Fails.take (takes_skip hg hr) (Fails.bind (Fails.char hw ?_))
  exact hn.imp fun d hd => by rw [eq_of_beq hd]; exact hc

/-- The parser fails or stops in the middle. -/
def LitNot (lit : P Literal) (s : List Char) : Prop := ∀ p, lit ⟨p, s⟩ = .fail ∨ ∃ l q s', lit ⟨p, s⟩ = .ok l ⟨q, s'⟩ ∧ Blocked s'

theorem Fails.litNot {lit : P Literal} {s : List Char} (h : Fails lit s) : LitNot lit s := fun p => .inl (h p)

theorem Gives.litNot {lit : P Literal} {s : List Char} (h : Gives lit s fun _ s' => Blocked s') : LitNot lit s := fun p => by
  obtain ⟨l, q, s', h1, h2⟩ := h p
  exact .inr ⟨l, q, s', h1, h2⟩

theorem LitNot.fails {lit : P Literal} {s : List Char} (h : LitNot lit s) {α : Type} {f : Literal → P α} {w : String} {c : Char} (hw : w.toList = [c]) (hc : isClose c = true) :
    Fails (do let l ← lit; skip; str w; f l) s := fun p => by
  rcases h p with h | ⟨l, q, s', h, hb⟩
  · rw [bind_def, h]
  · rw [bind_def, h]
    exact hb.fails hw hc q

/-- What the parser of literals does on the text of an expression. -/
structure LitView (lit : P Literal) (c : Cst) (r : List Char) : Prop where
  yes : c.isLit = true → Gives lit (c.text ++ r) fun _ s' => s' = r
  no : c.isLit = false → LitNot lit (c.text ++ r)

theorem fails_lit_minus {E : Env} {lit : P Literal} {s : List Char} (h : NotHead isDig s) : Fails (literalF E lit) ('-' :: s) := by
  refine fails_litRest (show isAlpha '-' = false by decide) ?_
  unfold litRest
  refine Fails.or (Fails.hexP (show ('-' == '#') = false by decide)) (Fails.or ?_ (Fails.or (Fails.bind (fails_int_minus h)) (Fails.or (Fails.bind (fails_int_minus h))
    (Fails.or (Fails.bind (Fails.string (show ('-' == '"') = false by decide))) (Fails.or (Fails.bind (Fails.char (c := '(') (by decide) (show ('-' == '(') = false by decide)))
    (Fails.bind (Fails.char (c := '[') (by decide) (show ('-' == '[') = false by decide))))))))
  exact Fails.bind (Fails.take (Takes.char (c := '-') (by decide) _).opt_some (Fails.bind (Fails.bind (Fails.cls h))))

/-- What is read on a minus sign before an expression. -/
structure NegView (E : Env) (k : Nat) (e : Cst) (r : List Char) : Prop where
  range : Fails rangeLit ('-' :: (e.text ++ r))
  yes : (Cst.un .neg [] e).isLit = true → Gives (literalN E (k + 1)) ('-' :: (e.text ++ r)) fun _ s' => s' = r
  no : (Cst.un .neg [] e).isLit = false → LitNot (literalN E (k + 1)) ('-' :: (e.text ++ r))

theorem NegView.of_notDig {E : Env} {k : Nat} {e : Cst} {r : List Char} (h : NotHead isDig (e.text ++ r)) (hl : (Cst.un .neg [] e).isLit = false) : NegView E k e r where
  range := Fails.bind (fails_int_minus h)
  yes h := by rw [hl] at h; cases h
  no _ := Fails.litNot (fails_lit_minus h)

theorem isLit_neg {e : Cst} : (Cst.un .neg [] e).isLit = match e with
    | .lit l => l.isDec
    | _ => false := by
  cases e <;> rfl

/-- Digits, then something else that is neither a dot nor a colon with an integer. -/
theorem gives_neg_int {E : Env} {k : Nat} {ds t : List Char} (hne : ds.isEmpty = false) (hd : ds.all isDig = true) (ht : NotHead isDig t) (hdot : DotOk t) (hc : NoColonInt t) :
    Fails rangeLit ('-' :: (ds ++ t)) ∧ Gives (literalN E (k + 1)) ('-' :: (ds ++ t)) fun _ s' => s' = t := by
  have hr : Fails rangeLit ('-' :: (ds ++ t)) := Fails.take (takes_neg hne hd ht) (hc _)
  refine ⟨hr, ?_⟩
  refine gives_lit_num (by decide) (Gives.right (Fails.bind (fails_float (neg := true) hne hd ht hdot)) (Gives.right hr (Gives.left ?_)))
  exact Takes.bind (takes_neg hne hd ht) (Gives.pure rfl)

theorem noColon_char {c : Char} {t : List Char} (h1 : isSkip c = false) (h2 : c ≠ ':') : NoColonInt (c :: t) := fun _ =>
  Fails.take (takes_skip_nil (noSkip_cons h1)) (Fails.bind (Fails.str_cons (c := ':') (cs := []) (by decide) h2))

theorem LitC.word_head {l : LitC} (h : l.ok = true) (h1 : l.isInt = false) (h2 : l.isRange = false) (h3 : ∀ n ds fs, l ≠ .float n ds fs) (s : List Char) : NotHead isDig (l.text ++ s) := by
  cases l with
  | none => exact (show isDig 'n' = false by decide)
  | bool b => cases b <;> exact (show isDig _ = false by decide)
  | float n ds fs => exact absurd rfl (h3 n ds fs)
  | int n => cases h1
  | range => cases h2
  | _ => exact (show isDig _ = false by decide)

theorem blocked_char {g : Gap} {c : Char} {t : List Char} (hg : g.ok = true) (h1 : isSkip c = false) (h2 : isClose c = false) : Blocked (g.text ++ c :: t) :=
  ⟨g, c :: t, hg, rfl, noSkip_cons h1, h2⟩

theorem neg_lit {E : Env} {k : Nat} {l : LitC} {r : List Char} (h : l.ok = true) (hn : l.isNeg = false) (hr : l.isRange = false) (hs : LitSafe l.isInt r)
    (hk : ('-' :: (l.text ++ r)).length < k + 1) : NegView E k (.lit l) r := by
  cases l with
  | int n =>
    cases n with
    | neg ds => cases hn
    | pos n =>
      have hz : ∀ (c : Char) (t : List Char), isDig c = false → c ≠ '.' → c ≠ ':' → isSkip c = false → isClose c = false →
          Fails rangeLit ('-' :: '0' :: c :: t) ∧ LitNot (literalN E (k + 1)) ('-' :: '0' :: c :: t) := by
        intro c t h1 h2 h3 h4 h5
        have := gives_neg_int (E := E) (k := k) (ds := ['0']) (t := c :: t) rfl (by decide) h1 (by intro u hu; injection hu with hu; exact absurd hu h2) (noColon_char h4 h3)
        refine ⟨this.1, Gives.litNot (this.2.imp ?_)⟩
        rintro _ _ rfl
        exact blocked_char (g := []) rfl h4 h5
      cases n with
      | dec ds =>
        simp only [LitC.ok, SNum.ok, Num.digits, Bool.and_eq_true, Bool.not_eq_true'] at h
        have := gives_neg_int (E := E) (k := k) h.1.1 h.1.2 (hs.word.imp isDig_idChar) hs.dot (hs.colon rfl)
        exact ⟨this.1, fun _ => this.2, fun h => by cases h⟩
      | bin ds =>
        have := hz 'b' (ds ++ r) (by decide) (by decide) (by decide) (by decide) (by decide)
        exact ⟨this.1, fun h => (by cases h), fun _ => this.2⟩
      | hex ds =>
        have := hz 'x' (ds ++ r) (by decide) (by decide) (by decide) (by decide) (by decide)
        exact ⟨this.1, fun h => (by cases h), fun _ => this.2⟩
      | oct ds =>
        have := hz 'o' (ds ++ r) (by decide) (by decide) (by decide) (by decide) (by decide)
        exact ⟨this.1, fun h => (by cases h), fun _ => this.2⟩
  | float neg ds fs =>
    cases neg with
    | true => cases hn
    | false =>
      have h' := h
      simp only [LitC.ok, Bool.and_eq_true, Bool.not_eq_true'] at h'
      refine ⟨?_, fun _ => ?_, fun h => by cases h⟩
      · show Fails rangeLit ('-' :: ((ds ++ '.' :: fs) ++ r))
        rw [List.append_assoc]
        exact Fails.take (takes_neg h'.1.1.1 h'.1.1.2 (show isDig '.' = false by decide)) (noColon_char (by decide) (by decide) _)
      · have := lit_reads E (.float true ds fs) h r (k + 1) ⟨hs.word, hs.dot, fun h => by cases h⟩ hk
        exact this.imp fun _ _ h => h.2
  | range => cases hr
  | none => exact .of_notDig (LitC.word_head h rfl rfl (by simp) r) rfl
  | bool b => exact .of_notDig (LitC.word_head h rfl rfl (by simp) r) rfl
  | color => exact .of_notDig (LitC.word_head h rfl rfl (by simp) r) rfl
  | str => exact .of_notDig (LitC.word_head h rfl rfl (by simp) r) rfl
  | pair => exact .of_notDig (LitC.word_head h rfl rfl (by simp) r) rfl
  | arr => exact .of_notDig (LitC.word_head h rfl rfl (by simp) r) rfl

theorem litSafe_open {b : Bool} {g : Gap} {c : Char} {r : List Char} (hg : g.ok = true) (hc : c = '(' ∨ c = '[') : LitSafe b (g.text ++ c :: r) := by
  rcases hc with rfl | rfl <;> exact litSafe_gap (by decide) (by decide) (by decide) (by decide) hg

theorem NegView.extend {E : Env} {k : Nat} {f e : Cst} {r r' : List Char} (h : NegView E k f r') (he : e.text ++ r = f.text ++ r') (hl : (Cst.un .neg [] e).isLit = false)
    (hb : Blocked r') : NegView E k e r where
  range := by rw [he]; exact h.range
  yes h' := by rw [hl] at h'; cases h'
  no _ := by
    rw [he]
    cases hf : (Cst.un .neg [] f).isLit with
    | true => exact Gives.litNot ((h.yes hf).imp fun _ _ h => h ▸ hb)
    | false => exact h.no hf

theorem isIdStart_notDig {c : Char} (h : isIdStart c = true) : isDig c = false := by
  cases hd : isDig c with
  | false => rfl
  | true => have := isIdStart_iff h; have := isDig_iff hd; omega

theorem neg_view {E : Env} {k : Nat} : ∀ {e : Cst}, e.ok = true → 16 ≤ e.lvl → e.startsRange = false → ∀ {r : List Char}, LitSafe e.endsInt r →
    ('-' :: (e.text ++ r)).length < k + 1 → NegView E k e r
  | .lit l, h, _, hr, r, hs, hk => by
    simp only [Cst.ok, Bool.and_eq_true, Bool.not_eq_true'] at h
    exact neg_lit h.1 h.2 hr hs hk
  | .ident x, h, _, _, r, _, _ => by
    obtain ⟨c, cs, h1, h2, _⟩ := nameOk_iff h
    refine .of_notDig ?_ rfl
    rw [Cst.text, h1]
    exact isIdStart_notDig h2
  | .call f g g0 es, h, _, hr, r, hs, hk => by
    simp only [Cst.ok, Bool.and_eq_true, decide_eq_true_eq] at h
    have hg := Gap.ok_of_ws h.1.1.2
    have e : (Cst.call f g g0 es).text ++ r = f.text ++ (g.text ++ '(' :: (g0.text ++ commas (Cst.texts es) ++ [')'] ++ r)) := by simp [Cst.text]
    rw [e] at hk
    exact (neg_view h.1.1.1.1 (by omega) hr (litSafe_open hg (.inl rfl)) hk).extend e rfl (blocked_char hg (by decide) (by decide))
  | .index f g g1 i g2, h, _, hr, r, hs, hk => by
    simp only [Cst.ok, Bool.and_eq_true, decide_eq_true_eq] at h
    have hg := h.1.1.1.2
    have e : (Cst.index f g g1 i g2).text ++ r = f.text ++ (g.text ++ '[' :: (g1.text ++ i.text ++ g2.text ++ [']'] ++ r)) := by simp [Cst.text]
    rw [e] at hk
    exact (neg_view h.1.1.1.1.1 (by omega) hr (litSafe_open hg (.inr rfl)) hk).extend e rfl (blocked_char hg (by decide) (by decide))
  | .un op g e, _, _, _, r, _, _ => .of_notDig (by rw [Cst.text]; cases op <;> exact (show isDig _ = false by decide)) rfl
  | .paren .., _, _, _, r, _, _ => .of_notDig (by rw [Cst.text]; exact (show isDig _ = false by decide)) rfl
  | .array .., _, _, _, r, _, _ => .of_notDig (by rw [Cst.text]; exact (show isDig _ = false by decide)) rfl
  | .pair .., _, _, _, r, _, _ => .of_notDig (by rw [Cst.text]; exact (show isDig _ = false by decide)) rfl
  | .builtin .., _, _, _, r, _, _ => .of_notDig (by rw [Cst.text]; exact (show isDig _ = false by decide)) rfl
  | .func .., _, _, _, r, _, _ => .of_notDig (show isDig 'f' = false by decide) rfl
  | .lambda .., _, _, _, r, _, _ => .of_notDig (show isDig 'f' = false by decide) rfl
  | .while .., _, _, _, r, _, _ => .of_notDig (show isDig 'w' = false by decide) rfl
  | .forIn .., _, _, _, r, _, _ => .of_notDig (show isDig 'f' = false by decide) rfl
  | .forMany .., _, _, _, r, _, _ => .of_notDig (show isDig 'f' = false by decide) rfl
  | .ctx .., _, _, _, r, _, _ => .of_notDig (show isDig 'w' = false by decide) rfl
  | .include .., _, _, _, r, _, _ => .of_notDig (show isDig 'i' = false by decide) rfl
  | .block .., _, _, _, r, _, _ => .of_notDig (by rw [Cst.text]; exact (show isDig _ = false by decide)) rfl
  | .bin op .., _, h, _, _, _, _ => by exfalso; cases op <;> simp [Cst.lvl, Infix.lvl] at h
  | .assign .., _, h, _, _, _, _ => by simp [Cst.lvl] at h
  | .decl .., _, h, _, _, _, _ => by simp [Cst.lvl] at h
  | .declMany .., _, h, _, _, _, _ => by simp [Cst.lvl] at h
  | .extern .., _, h, _, _, _, _ => by simp [Cst.lvl] at h
  | .ifThen .., _, h, _, _, _, _ => by simp [Cst.lvl] at h
  | .ifElse .., _, h, _, _, _, _ => by simp [Cst.lvl] at h
  | .elseIf .., _, h, _, _, _, _ => by simp [Cst.lvl] at h
  | .switch .., _, h, _, _, _, _ => by simp [Cst.lvl] at h
  | .ret .., _, h, _, _, _, _ => by simp [Cst.lvl] at h
termination_by structural e => e

/-! ## Words -/

theorem apart_spec {g : Gap} {c : Cst} (hc : c.ok = true) (h : apart g c.text = true) (s : List Char) : NotHead isIdChar (g.text ++ (c.text ++ s)) := by
  unfold apart at h
  cases hg : g.isEmpty with
  | false => exact Gap.notHead_ne (gap_not (by decide)) hg
  | true =>
    rw [hg] at h
    obtain ⟨d, t, h1, _⟩ := Cst.head hc
    rw [List.isEmpty_iff.1 hg, h1]
    show isIdChar d = false
    simpa [h1] using h

theorem aop_notHead {op : Option AOp} {f : Char → Bool} (h : ∀ c ∈ ['=', '+', '-', '*', '/', '%', '&', '|', '^', '<', '>', '.'], f c = false) (s : List Char) :
    NotHead f (aopText op ++ s) := by
  cases op with
  | none => exact h '=' (by decide)
  | some op => cases op <;> exact h _ (by decide)

theorem isIdStart_litHead {c : Char} (h : isIdStart c = true) : isLitHead c = false := by
  have := isIdStart_iff h
  cases hl : isLitHead c with
  | false => rfl
  | true =>
    simp only [isLitHead, isNum, Bool.or_eq_true, beq_iff_eq] at hl
    rcases hl with ((((hl | rfl) | rfl) | rfl) | rfl) | rfl
    · have := isDig_iff hl; omega
    all_goals revert this; decide

/-- Names are not literals. -/
theorem fails_literal_name {E : Env} {k : Nat} {x : String} {r : List Char} (h : nameOk x = true) (hr : NotHead isIdChar r) : Fails (literalN E (k + 1)) (x.toList ++ r) := by
  obtain ⟨c, cs, h1, h2, h3, h4, _, _⟩ := nameOk_iff h
  have hne : ∀ y ∈ reserved, x.toList ≠ y.toList := by
    intro y hy e
    exact h4 (by rw [String.ext e]; exact hy)
  refine fails_literal_word h3 (by rw [h1]; exact isIdStart_litHead h2) (by simp [h1]) hr ?_ ?_ ?_
  · exact fun e => hne "true" (by decide) (by rw [e]; decide)
  · exact fun e => hne "false" (by decide) (by rw [e]; decide)
  · exact fun e => hne "none" (by decide) (by rw [e]; decide)

theorem LitView.of_fails {lit : P Literal} {c : Cst} {r : List Char} (hl : c.isLit = false) (h : Fails lit (c.text ++ r)) : LitView lit c r where
  yes h := by rw [hl] at h; cases h
  no _ := Fails.litNot h

theorem LitView.extend {lit : P Literal} {f c : Cst} {r r' : List Char} (h : LitView lit f r') (he : c.text ++ r = f.text ++ r') (hl : c.isLit = false) (hb : Blocked r') : LitView lit c r where
  yes h := by rw [hl] at h; cases h
  no _ := by
    rw [he]
    cases hf : f.isLit with
    | true => exact Gives.litNot ((h.yes hf).imp fun _ _ h => h ▸ hb)
    | false => exact h.no hf

/-- A word that is not a literal. -/
def isWord (w : List Char) : Bool :=
  w.all isIdChar && (match w with
    | [] => false
    | c :: _ => isIdStart c) && decide (w ≠ ['t', 'r', 'u', 'e']) && decide (w ≠ ['f', 'a', 'l', 's', 'e']) && decide (w ≠ ['n', 'o', 'n', 'e'])

/-- Keywords. -/
theorem LitView.of_word {E : Env} {k : Nat} {c : Cst} {w t r : List Char} (hl : c.isLit = false) (he : c.text ++ r = w ++ t) (hw : isWord w = true)
    (ht : NotHead isIdChar t) : LitView (literalN E (k + 1)) c r := by
  simp only [isWord, Bool.and_eq_true, decide_eq_true_eq, List.all_eq_true] at hw
  refine .of_fails hl ?_
  rw [he]
  cases w with
  | nil => cases hw.1.1.1.2
  | cons c w => exact fails_literal_word hw.1.1.1.1 (isIdStart_litHead hw.1.1.1.2) (by simp) ht hw.1.1.2 hw.1.2 hw.2

theorem litSafe_close {b : Bool} {g : Gap} {c : Char} {r : List Char} (hg : g.ok = true) (hc : isClose c = true) : LitSafe b (g.text ++ c :: r) := by
  simp only [isClose, Bool.or_eq_true, beq_iff_eq] at hc
  rcases hc with (rfl | rfl) | rfl <;> exact litSafe_gap (by decide) (by decide) (by decide) (by decide) hg

/-- A first component that is no literal, or is followed by something else than a comma. -/
theorem fails_pair_first {lit : P Literal} {α : Type} {f : Literal → P α} {c : Cst} {g g' : Gap} {d : Char} {r : List Char} (hc : c.ok = true) (hg : g.ok = true) (hg' : g'.ok = true)
    (hd : isClose d = true) (hv : LitView lit c (g'.text ++ d :: r)) (hne : c.isLit = false ∨ d ≠ ',') :
    Fails (do str "("; skip; let h ← lit; skip; str ","; f h : P α) ('(' :: (g.text ++ (c.text ++ (g'.text ++ d :: r)))) := by
  refine Fails.take (Takes.char (c := '(') (by decide) _) (Fails.take (takes_skip hg (Cst.noSkip hc _)) ?_)
  cases hl : c.isLit with
  | false => exact (hv.no hl).fails (c := ',') (by decide) (by decide)
  | true =>
    have hd' : isSkip d = false := by
      simp only [isClose, Bool.or_eq_true, beq_iff_eq] at hd
      rcases hd with (rfl | rfl) | rfl <;> decide
    have hne' : d ≠ ',' := hne.resolve_left (by rw [hl]; simp)
    refine Fails.after (hv.yes hl) ?_
    rintro _ _ rfl
    exact Fails.take (takes_skip hg' (noSkip_cons hd')) (Fails.bind (Fails.str_cons (c := ',') (cs := []) (by decide) hne'))

/-! ## Arrays with an element that is no literal -/

/-- The array does not end here. -/
def BadEnd (s : List Char) : Prop := Fails (do let _ ← opt (str ","); skip; str "]") s

theorem Cst.close_notHead {c : Cst} (h : c.ok = true) (s : List Char) : NotHead isClose (c.text ++ s) := by
  obtain ⟨d, t, h1, h2⟩ := Cst.head h
  rw [h1]
  show isClose d = false
  cases hd : isClose d with
  | false => rfl
  | true =>
    simp only [isClose, Bool.or_eq_true, beq_iff_eq] at hd
    rcases hd with (rfl | rfl) | rfl <;> cases h2

theorem notClose {c : Char} {r : List Char} (h : NotHead isClose r) (hc : isClose c = true) : NotHead (· == c) r := h.imp fun d hd => by rw [eq_of_beq hd]; exact hc

theorem badEnd_of {r : List Char} (h : NotHead isClose r) (hn : NoSkip r) : BadEnd r :=
  Fails.take (takes_no_comma (notClose h (by decide))) (Fails.take (takes_skip_nil hn) (Fails.char (c := ']') (by decide) (notClose h (by decide))))

theorem badEnd_comma {g : Gap} {c : Cst} {s : List Char} (hg : g.ok = true) (hc : c.ok = true) : BadEnd (',' :: (g.text ++ (c.text ++ s))) :=
  Fails.take (Takes.char (c := ',') (by decide) _).opt_some (Fails.take (takes_skip hg (Cst.noSkip hc s)) (Fails.char (c := ']') (by decide) (notClose (Cst.close_notHead hc s) (by decide))))

/-- One element that is no literal. -/
theorem elem_not {lit : P Literal} {g : Gap} {c : Cst} {s : List Char} (hg : g.ok = true) (hc : c.ok = true) (h : LitNot lit (c.text ++ s)) (p : Nat) :
    (do skip; let y ← lit; skip; pure y : P Literal) ⟨p, g.text ++ (c.text ++ s)⟩ = .fail ∨
    ∃ l q s', (do skip; let y ← lit; skip; pure y : P Literal) ⟨p, g.text ++ (c.text ++ s)⟩ = .ok l ⟨q, s'⟩ ∧ NoSkip s' ∧ NotHead isClose s' := by
  obtain ⟨_, q, _, h1, rfl, rfl⟩ := takes_skip hg (Cst.noSkip hc s) p
  rcases h q with h2 | ⟨l, q', s', h2, g', r, hg', rfl, hr, hn⟩
  · left; simp only [bind_def, h1, h2]
  · right
    obtain ⟨_, q'', _, h3, rfl, rfl⟩ := takes_skip hg' hr q'
    exact ⟨l, q'', _, by simp only [bind_def, h1, h2, h3]; rfl, hr, hn⟩

theorem more_fails {lit : P Literal} {r : List Char} : ∀ {es : List (Gap × Cst × Gap)}, Cst.allLit es = false →
    (∀ e ∈ es, e.1.ok = true ∧ e.2.1.ok = true ∧ e.2.2.ok = true) → (∀ e ∈ es, ∀ c s, isClose c = true → (e.2.1.text ++ (e.2.2.text ++ c :: s)).length ≤ ((joined Cst.text es).flatMap (',' :: ·) ++ ']' :: r).length → LitView lit e.2.1 (e.2.2.text ++ c :: s)) →
    Gives (many (do let _ ← str ","; (do skip; let y ← lit; skip; pure y : P Literal))) ((joined Cst.text es).flatMap (',' :: ·) ++ ']' :: r) fun _ s' => BadEnd s'
  | [], h, _, _ => by cases h
  | (g, e, g') :: es, h, hok, hv => by
    have hg : g.ok = true ∧ e.ok = true ∧ g'.ok = true := hok _ (List.mem_cons_self)
    have e1 : (joined Cst.text ((g, e, g') :: es)).flatMap (',' :: ·) ++ ']' :: r = ',' :: (g.text ++ (e.text ++ (g'.text ++ ((joined Cst.text es).flatMap (',' :: ·) ++ ']' :: r)))) := by
      simp [joined]
    have hv0 := fun c s hc => hv _ (List.mem_cons_self) c s hc
    rw [e1]
    rw [e1] at hv0
    obtain ⟨c, s, hs, hc⟩ : ∃ c s, (joined Cst.text es).flatMap (',' :: ·) ++ ']' :: r = c :: s ∧ isClose c = true := by
      cases es with
      | nil => exact ⟨']', r, rfl, by decide⟩
      | cons e2 es => exact ⟨',', _, by simp [joined]; rfl, by decide⟩
    cases hl : e.isLit with
    | true =>
      have h' : Cst.allLit es = false := by
        rw [show Cst.allLit ((g, e, g') :: es) = (e.isLit && Cst.allLit es) from rfl, hl] at h
        exact h
      have ih := more_fails (lit := lit) (r := r) h' (fun e he => hok e (List.mem_cons_of_mem _ he))
        (fun e he c s hc hlen => hv e (List.mem_cons_of_mem _ he) c s hc (by rw [e1]; simp at hlen ⊢; omega))
      rw [hs] at ih hv0 ⊢
      have hcs : isSkip c = false := by
        simp only [isClose, Bool.or_eq_true, beq_iff_eq] at hc
        rcases hc with (rfl | rfl) | rfl <;> decide
      have h2 : Gives (do skip; let y ← lit; skip; pure y : P Literal) (g.text ++ (e.text ++ (g'.text ++ c :: s))) fun _ s' => s' = c :: s := by
        refine (takes_skip hg.1 (Cst.noSkip hg.2.1 _)).bind (Gives.bind ((hv0 c s hc (by simp; omega)).yes hl) ?_)
        rintro a _ rfl
        exact (takes_skip hg.2.2 (noSkip_cons hcs)).bind (Gives.pure rfl)
      refine Gives.many_cons (Q := fun _ s' => s' = c :: s) ((Takes.char (by decide) _).bind h2) ?_ ?_
      · rintro _ _ rfl; simp; omega
      · rintro _ _ rfl; exact ih
    | false =>
      have hv1 : LitNot lit (e.text ++ (g'.text ++ ((joined Cst.text es).flatMap (',' :: ·) ++ ']' :: r))) := by
        rw [hs] at hv0 ⊢
        exact (hv0 c s hc (by simp; omega)).no hl
      intro p
      obtain ⟨_, q, _, h1, rfl, rfl⟩ := Takes.char (s := ",") (c := ',') (by decide) (g.text ++ (e.text ++ (g'.text ++ ((joined Cst.text es).flatMap (',' :: ·) ++ ']' :: r)))) p
      rcases elem_not hg.1 hg.2.1 hv1 q with h2 | ⟨l, q', s', h2, h3, h4⟩
      · refine ⟨[], p, _, ?_, badEnd_comma (s := g'.text ++ ((joined Cst.text es).flatMap (',' :: ·) ++ ']' :: r)) hg.1 hg.2.1⟩
        have : (do let _ ← str ","; (do skip; let y ← lit; skip; pure y : P Literal)) ⟨p, ',' :: (g.text ++ (e.text ++ (g'.text ++ ((joined Cst.text es).flatMap (',' :: ·) ++ ']' :: r))))⟩ = .fail := by
          rw [bind_def, h1]; exact h2
        unfold many manyN
        rw [this]
      · have hx : (do let _ ← str ","; (do skip; let y ← lit; skip; pure y : P Literal)) ⟨p, ',' :: (g.text ++ (e.text ++ (g'.text ++ ((joined Cst.text es).flatMap (',' :: ·) ++ ']' :: r))))⟩ = .ok l ⟨q', s'⟩ := by
          rw [bind_def, h1]; exact h2
        have hf : Fails (do let _ ← str ","; (do skip; let y ← lit; skip; pure y : P Literal)) s' := Fails.bind (Fails.char (c := ',') (by decide) (notClose h4 (by decide)))
        refine ⟨[l], q', s', ?_, badEnd_of h4 h3⟩
        unfold many
        refine many_cons_aux hx ?_
        simp only [List.length_cons]
        unfold manyN
        rw [hf q']

theorem array_fails {lit : P Literal} {g : Gap} {r : List Char} {es : List (Gap × Cst × Gap)} (hg0 : g.ok = true) (h : Cst.allLit es = false)
    (hok : ∀ e ∈ es, e.1.ok = true ∧ e.2.1.ok = true ∧ e.2.2.ok = true)
    (hv : ∀ e ∈ es, ∀ c s, isClose c = true → (e.2.1.text ++ (e.2.2.text ++ c :: s)).length ≤ (commas (joined Cst.text es) ++ ']' :: r).length → LitView lit e.2.1 (e.2.2.text ++ c :: s)) :
    Fails (do str "["; skip; let e ← commaSep lit; skip; str "]"; pure (.arr e) : P Literal) ('[' :: (g.text ++ (commas (joined Cst.text es) ++ ']' :: r))) := by
  refine Fails.take (Takes.char (c := '[') (by decide) _) (fails_skip_commaSep ?_)
  cases es with
  | nil => cases h
  | cons e es =>
    obtain ⟨g1, e, g'⟩ := e
    have hg : g1.ok = true ∧ e.ok = true ∧ g'.ok = true := hok _ (List.mem_cons_self)
    have e1 : commas (joined Cst.text ((g1, e, g') :: es)) ++ ']' :: r = g1.text ++ (e.text ++ (g'.text ++ ((joined Cst.text es).flatMap (',' :: ·) ++ ']' :: r))) := by
      simp [joined, commas_cons]
    have hv0 := fun c s hc => hv _ (List.mem_cons_self) c s hc
    rw [e1]
    rw [e1] at hv0
    obtain ⟨c, s, hs, hc⟩ : ∃ c s, (joined Cst.text es).flatMap (',' :: ·) ++ ']' :: r = c :: s ∧ isClose c = true := by
      cases es with
      | nil => exact ⟨']', r, rfl, by decide⟩
      | cons e2 es => exact ⟨',', _, by simp [joined]; rfl, by decide⟩
    have hsk : Takes skip (g.text ++ (g1.text ++ (e.text ++ (g'.text ++ ((joined Cst.text es).flatMap (',' :: ·) ++ ']' :: r))))) ()
        (e.text ++ (g'.text ++ ((joined Cst.text es).flatMap (',' :: ·) ++ ']' :: r))) := by
      rw [← List.append_assoc, ← Gap.text_append]
      exact takes_skip (by rw [Gap.ok_append, hg0, hg.1]; rfl) (Cst.noSkip hg.2.1 _)
    have key : Gives (sepBy (do skip; let y ← lit; skip; pure y : P Literal) (str ",")) (e.text ++ (g'.text ++ ((joined Cst.text es).flatMap (',' :: ·) ++ ']' :: r)))
        fun _ s' => BadEnd s' := by
      cases hl : e.isLit with
      | true =>
        have h' : Cst.allLit es = false := by
          rw [show Cst.allLit ((g1, e, g') :: es) = (e.isLit && Cst.allLit es) from rfl, hl] at h
          exact h
        have ih := more_fails (lit := lit) (r := r) h' (fun e he => hok e (List.mem_cons_of_mem _ he))
          (fun e he c s hc hlen => hv e (List.mem_cons_of_mem _ he) c s hc (by rw [e1]; simp at hlen ⊢; omega))
        rw [hs] at ih hv0 ⊢
        have hcs : isSkip c = false := by
          simp only [isClose, Bool.or_eq_true, beq_iff_eq] at hc
          rcases hc with (rfl | rfl) | rfl <;> decide
        have h2 : Gives (do skip; let y ← lit; skip; pure y : P Literal) (e.text ++ (g'.text ++ c :: s)) fun _ s' => s' = c :: s := by
          refine (takes_skip_nil (Cst.noSkip hg.2.1 _)).bind (Gives.bind ((hv0 c s hc (by simp)).yes hl) ?_)
          rintro a _ rfl
          exact (takes_skip hg.2.2 (noSkip_cons hcs)).bind (Gives.pure rfl)
        refine Gives.left (Gives.bind h2 ?_)
        rintro a _ rfl
        exact ih.bind fun _ _ h => Gives.pure h
      | false =>
        have hv1 : LitNot lit (e.text ++ (g'.text ++ ((joined Cst.text es).flatMap (',' :: ·) ++ ']' :: r))) := by
          rw [hs] at hv0 ⊢
          exact (hv0 c s hc (by simp)).no hl
        intro p
        rcases elem_not (g := []) rfl hg.2.1 hv1 p with h2 | ⟨l, q', s', h2, h3, h4⟩
        · rw [Gap.text_nil, List.nil_append] at h2
          refine ⟨[], p, e.text ++ (g'.text ++ ((joined Cst.text es).flatMap (',' :: ·) ++ ']' :: r)), ?_, badEnd_of (Cst.close_notHead hg.2.1 _) (Cst.noSkip hg.2.1 _)⟩
          unfold sepBy orElse sepBy1
          rw [bind_def, h2]
          rfl
        · rw [Gap.text_nil, List.nil_append] at h2
          have hf : Fails (do let _ ← str ","; (do skip; let y ← lit; skip; pure y : P Literal)) s' := Fails.bind (Fails.char (c := ',') (by decide) (notClose h4 (by decide)))
          obtain ⟨_, q2, _, h5, rfl, rfl⟩ := Gives.many_nil hf q'
          refine ⟨[l], q2, _, ?_, badEnd_of h4 h3⟩
          unfold sepBy orElse sepBy1
          rw [bind_def, h2]
          simp only
          rw [bind_def, h5]
          rfl
    intro p
    obtain ⟨_, q, _, h1, rfl, rfl⟩ := hsk p
    obtain ⟨ls, q', s', h2, h3⟩ := key q
    have h3 := h3 q'
    rw [bind_def] at h3
    unfold commaSep
    rw [bind_def, bind_def, h1]
    simp only
    rw [bind_def, h2]
    simp only
    rw [bind_def]
    cases ho : opt (str ",") ⟨q', s'⟩ with
    | fail => rfl
    | oof => rw [ho] at h3; cases h3
    | ok a i =>
      rw [ho] at h3
      simp only at h3 ⊢
      rw [bind_def] at h3 ⊢
      cases hk : skip i with
      | fail => rfl
      | oof => rw [hk] at h3; cases h3
      | ok u j =>
        rw [hk] at h3
        show (skip >>= fun _ => str "]" >>= fun _ => pure (Literal.arr ls) : P Literal) j = .fail
        rw [bind_def, skip_skip hk]
        simp only at h3 ⊢
        rw [bind_def, h3]

/-! ## Binary operators -/

theorem opText_of {op : Infix} {g' : Gap} {b : Cst} {r : List Char} (hb : b.ok = true)
    (hd : (decide (op = .div) && g'.head?.any fun i => i.text.head? == some '/') = false) : OpText op (g'.text ++ (b.text ++ r)) where
  operand := operand_of hb g' r
  div h := by
    cases g' with
    | nil =>
      obtain ⟨d, t, h1, h2⟩ := Cst.head hb
      rw [h1]
      exact (show (d == '/') = false by simpa using exprStart_ne h2 (by decide))
    | cons i g =>
      obtain ⟨c, cs, h1, h2⟩ := i.head
      rw [Gap.text_cons, h1]
      show (c == '/') = false
      simpa [h, h1] using hd

/-- The text of an operator and the right side, for proper trees. -/
theorem bin_follow {op : Infix} {a b : Cst} {g g' : Gap} (h : (Cst.bin op a g g' b).ok = true) (r : List Char) :
    OpText op (g'.text ++ (b.text ++ r)) ∧ LitSafe a.endsInt (g.text ++ (op.text ++ (g'.text ++ (b.text ++ r)))) := by
  simp only [Cst.ok, Bool.and_eq_true, decide_eq_true_eq, Bool.not_eq_true'] at h
  obtain ⟨⟨⟨⟨⟨⟨⟨h1, h2⟩, h3⟩, h4⟩, h5⟩, h6⟩, h7⟩, h8⟩ := h
  have ho : OpText op (g'.text ++ (b.text ++ r)) := opText_of h5 h8
  refine ⟨ho, litSafe_op ho h3 ?_⟩
  intro hop he v
  refine Fails.take (takes_skip h4 (Cst.noSkip h5 r)) (Fails.bind (fails_int_of h5 ?_ r))
  simpa [hop, he] using h7

theorem OpText.blocked {op : Infix} {u : List Char} (h : OpText op u) {g : Gap} (hg : g.ok = true) : Blocked (g.text ++ (op.text ++ u)) :=
  ⟨g, op.text ++ u, hg, rfl, h.noSkip, OpText.notHead (by decide)⟩

/-! ## The parser of literals on expressions -/

theorem Cst.texts_eq : ∀ es : List (Gap × Cst × Gap), Cst.texts es = joined Cst.text es
  | [] => rfl
  | (g, l, g') :: es => by rw [show Cst.texts ((g, l, g') :: es) = (g.text ++ l.text ++ g'.text) :: Cst.texts es from rfl, Cst.texts_eq es]; rfl

mutual
theorem lit_view (E : Env) : ∀ c : Cst, c.ok = true → ∀ {r : List Char} {k : Nat}, LitSafe c.endsInt r → (c.text ++ r).length < k + 1 → LitView (literalN E (k + 1)) c r
  | .lit l, h, r, k, hs, hk => by
    simp only [Cst.ok, Bool.and_eq_true, Bool.not_eq_true'] at h
    exact ⟨fun _ => (lit_reads E l h.1 r (k + 1) hs hk).imp fun _ _ h => h.2, fun h => by cases h⟩
  | .ident x, h, r, k, hs, hk => .of_fails rfl (fails_literal_name h hs.word)
  | .paren g e g', h, r, k, hs, hk => by
    simp only [Cst.ok, Bool.and_eq_true] at h
    have et : (Cst.paren g e g').text ++ r = '(' :: (g.text ++ (e.text ++ (g'.text ++ ')' :: r))) := by simp [Cst.text]
    rw [et] at hk
    have ih : LitView (literalN E k) e (g'.text ++ ')' :: r) := by
      cases k with
      | zero => simp at hk
      | succ k => exact lit_view E e h.1.2 (litSafe_close h.2 (by decide)) (by simp at hk ⊢; omega)
    refine .of_fails rfl ?_
    rw [et]
    exact fails_lit_paren (fails_pair_first h.1.2 h.1.1 h.2 (by decide) ih (.inr (by decide)))
  | .array g es, h, r, k, hs, hk => by
    simp only [Cst.ok, Bool.and_eq_true, Bool.not_eq_true'] at h
    have et : (Cst.array g es).text ++ r = '[' :: (g.text ++ (commas (joined Cst.text es) ++ ']' :: r)) := by simp [Cst.text, Cst.texts_eq]
    rw [et] at hk
    have ih := lit_views E es h.1.2
    refine .of_fails rfl ?_
    rw [et]
    refine fails_lit_bracket (array_fails h.1.1 h.2 (fun e he => ⟨(ih e he).1, (ih e he).2.1, (ih e he).2.2.1⟩) ?_)
    intro e he c s hc hl
    cases k with
    | zero => simp at hk
    | succ k => exact (ih e he).2.2.2 (litSafe_close (ih e he).2.2.1 hc) (by simp at hk hl ⊢; omega)
  | .pair g1 a g2 g3 b g4, h, r, k, hs, hk => by
    simp only [Cst.ok, Bool.and_eq_true, Bool.not_eq_true'] at h
    obtain ⟨⟨⟨⟨⟨⟨h1, h2⟩, h3⟩, h4⟩, h5⟩, h6⟩, h7⟩ := h
    have et : (Cst.pair g1 a g2 g3 b g4).text ++ r = '(' :: (g1.text ++ (a.text ++ (g2.text ++ ',' :: (g3.text ++ (b.text ++ (g4.text ++ ')' :: r)))))) := by simp [Cst.text]
    rw [et] at hk
    have iha : LitView (literalN E k) a (g2.text ++ ',' :: (g3.text ++ (b.text ++ (g4.text ++ ')' :: r)))) := by
      cases k with
      | zero => simp at hk
      | succ k => exact lit_view E a h2 (litSafe_close h3 (by decide)) (by simp at hk ⊢; omega)
    have ihb : LitView (literalN E k) b (g4.text ++ ')' :: r) := by
      cases k with
      | zero => simp at hk
      | succ k => exact lit_view E b h5 (litSafe_close h6 (by decide)) (by simp at hk ⊢; omega)
    refine .of_fails rfl ?_
    rw [et]
    refine fails_lit_paren ?_
    cases hl : a.isLit with
    | false => exact fails_pair_first h2 h1 h3 (by decide) iha (.inl hl)
    | true =>
      rw [hl] at h7
      refine Fails.take (Takes.char (c := '(') (by decide) _) (Fails.take (takes_skip h1 (Cst.noSkip h2 _)) (Fails.after (iha.yes hl) ?_))
      rintro _ _ rfl
      refine Fails.take (takes_skip h3 (noSkip_comma _)) (Fails.take (Takes.char (c := ',') (by decide) _) (Fails.take (takes_skip h4 (Cst.noSkip h5 _)) ?_))
      exact (ihb.no h7).fails (c := ')') (by decide) (by decide)
  | .builtin x g g0 es, h, r, k, hs, hk => .of_fails rfl (by rw [Cst.text]; exact fails_literal_head (show isAlpha '@' = false by decide) (show isLitHead '@' = false by decide))
  | .block b0 b, h, r, k, hs, hk => .of_fails rfl (by rw [Cst.text]; exact fails_literal_head (show isAlpha '{' = false by decide) (show isLitHead '{' = false by decide))
  | .call f g g0 es, h, r, k, hs, hk => by
    simp only [Cst.ok, Bool.and_eq_true, decide_eq_true_eq] at h
    have hg := Gap.ok_of_ws h.1.1.2
    have e : (Cst.call f g g0 es).text ++ r = f.text ++ (g.text ++ '(' :: (g0.text ++ commas (Cst.texts es) ++ [')'] ++ r)) := by simp [Cst.text]
    rw [e] at hk
    exact (lit_view E f h.1.1.1.1 (litSafe_open hg (.inl rfl)) hk).extend e rfl (blocked_char hg (by decide) (by decide))
  | .index f g g1 i g2, h, r, k, hs, hk => by
    simp only [Cst.ok, Bool.and_eq_true, decide_eq_true_eq] at h
    have hg := h.1.1.1.2
    have e : (Cst.index f g g1 i g2).text ++ r = f.text ++ (g.text ++ '[' :: (g1.text ++ i.text ++ g2.text ++ [']'] ++ r)) := by simp [Cst.text]
    rw [e] at hk
    exact (lit_view E f h.1.1.1.1.1 (litSafe_open hg (.inr rfl)) hk).extend e rfl (blocked_char hg (by decide) (by decide))
  | .bin op a g g' b, h, r, k, hs, hk => by
    have hf := bin_follow h r
    simp only [Cst.ok, Bool.and_eq_true] at h
    have e : (Cst.bin op a g g' b).text ++ r = a.text ++ (g.text ++ (op.text ++ (g'.text ++ (b.text ++ r)))) := by simp [Cst.text]
    rw [e] at hk
    exact (lit_view E a h.1.1.1.1.1.1.1 hf.2 hk).extend e rfl (hf.1.blocked h.1.1.1.1.1.2)
  | .un op g e, h, r, k, hs, hk => by
    simp only [Cst.ok, Bool.and_eq_true, decide_eq_true_eq, Bool.not_eq_true'] at h
    have et : (Cst.un op g e).text ++ r = op.char :: (g.text ++ (e.text ++ r)) := by simp [Cst.text]
    cases op with
    | neg =>
      cases g with
      | nil =>
        have := neg_view (E := E) (k := k) h.1.1.2 h.1.2 (by simpa using h.2) (r := r) hs (by rw [et] at hk; exact hk)
        refine ⟨fun h => ?_, fun h => ?_⟩
        · rw [et]; exact this.yes h
        · rw [et]; exact this.no h
      | cons i g =>
        refine .of_fails (by cases e <;> rfl) ?_
        rw [et]
        exact fails_lit_minus (Gap.notHead_ne (gap_not (by decide)) rfl)
    | not => exact .of_fails rfl (by rw [et]; exact fails_literal_head (show isAlpha '!' = false by decide) (show isLitHead '!' = false by decide))
    | bitNot => exact .of_fails rfl (by rw [et]; exact fails_literal_head (show isAlpha '~' = false by decide) (show isLitHead '~' = false by decide))
  | .assign x g op g' e, h, r, k, hs, hk => by
    simp only [Cst.ok, Bool.and_eq_true] at h
    refine .of_fails rfl ?_
    rw [Cst.text]
    simp only [List.append_assoc]
    exact fails_literal_name h.1.1.1.1 (Gap.notHead (gap_not (by decide)) (aop_notHead (by decide) _))
  | .decl g0 x g op g' e, h, r, k, hs, hk => by
    simp only [Cst.ok, Bool.and_eq_true, Bool.not_eq_true'] at h
    refine .of_word (w := ['l', 'e', 't']) (t := g0.text ++ (x.toList ++ g.text ++ aopText op ++ g'.text ++ e.text ++ r)) rfl (by simp [Cst.text]) (by decide) (Gap.notHead_ne (gap_not (by decide)) ?_)
    exact h.1.1.1.1.1.2
  | .declMany g0 xs g' e, h, r, k, hs, hk => by
    simp only [Cst.ok, Bool.and_eq_true, Bool.not_eq_true'] at h
    refine .of_word (w := ['l', 'e', 't']) (t := g0.text ++ (commas (namesText xs) ++ '=' :: (g'.text ++ e.text) ++ r)) rfl (by simp [Cst.text]) (by decide) (Gap.notHead_ne (gap_not (by decide)) ?_)
    exact h.1.1.1.1.1.2
  | .extern g0 x g g' e, h, r, k, hs, hk => by
    simp only [Cst.ok, Bool.and_eq_true, Bool.not_eq_true'] at h
    refine .of_word (w := ['e', 'x', 't', 'e', 'r', 'n', 'a', 'l']) (t := g0.text ++ (x.toList ++ g.text ++ '=' :: (g'.text ++ e.text) ++ r)) rfl (by simp [Cst.text]) (by decide)
      (Gap.notHead_ne (gap_not (by decide)) ?_)
    exact h.1.1.1.1.1.2
  | .func g x g1 g0 ps g2 b0 b, h, r, k, hs, hk => by
    simp only [Cst.ok, Bool.and_eq_true, Bool.not_eq_true'] at h
    refine .of_word (w := ['f', 'n']) (t := g.text ++ (x.toList ++ (g1.text ++ '(' :: (g0.text ++ commas (namesText ps) ++ ')' :: (g2.text ++ '{' :: (b0.text ++ Cst.textB b ++ ['}'])))) ++ r)) rfl
      (by simp [Cst.text]) (by decide) (Gap.notHead_ne (gap_not (by decide)) ?_)
    exact h.1.1.1.1.1.1.1.2
  | .lambda g g0 ps g2 b0 b, h, r, k, hs, hk => by
    refine .of_word (w := ['f', 'n']) (t := g.text ++ ('(' :: (g0.text ++ commas (namesText ps) ++ ')' :: (g2.text ++ '{' :: (b0.text ++ Cst.textB b ++ ['}'])) ++ r))) rfl
      (by simp [Cst.text]) (by decide) (Gap.notHead (gap_not (by decide)) (show isIdChar '(' = false by decide))
  | .while g c g' b0 b, h, r, k, hs, hk => by
    simp only [Cst.ok, Bool.and_eq_true, Bool.not_eq_true'] at h
    exact .of_word (w := ['w', 'h', 'i', 'l', 'e']) (t := g.text ++ (c.text ++ (g'.text ++ '{' :: (b0.text ++ Cst.textB b ++ ['}']) ++ r))) rfl (by simp [Cst.text]) (by decide)
      (apart_spec h.1.1.1.1.1.2 h.1.1.1.2 _)
  | .forIn g x g1 g2 it g3 b0 b, h, r, k, hs, hk => by
    simp only [Cst.ok, Bool.and_eq_true, Bool.not_eq_true'] at h
    refine .of_word (w := ['f', 'o', 'r']) (t := g.text ++ (x.toList ++ g1.text ++ ['i', 'n'] ++ g2.text ++ it.text ++ g3.text ++ '{' :: (b0.text ++ Cst.textB b ++ ['}']) ++ r)) rfl
      (by simp [Cst.text]) (by decide) (Gap.notHead_ne (gap_not (by decide)) ?_)
    exact h.1.1.1.1.1.1.1.1.1.1.2
  | .forMany g xs g2 it g3 b0 b, h, r, k, hs, hk => by
    simp only [Cst.ok, Bool.and_eq_true, Bool.not_eq_true'] at h
    refine .of_word (w := ['f', 'o', 'r']) (t := g.text ++ (commas (namesText xs) ++ ['i', 'n'] ++ g2.text ++ it.text ++ g3.text ++ '{' :: (b0.text ++ Cst.textB b ++ ['}']) ++ r)) rfl
      (by simp [Cst.text]) (by decide) (Gap.notHead_ne (gap_not (by decide)) ?_)
    exact h.1.1.1.1.1.1.1.1.1.1.2
  | .ctx g g1 x g2 g0 es v g3 b0 b, h, r, k, hs, hk => by
    refine .of_word (w := ['w', 'i', 't', 'h']) (t := g.text ++ ('@' :: (g1.text ++ x.toList ++ g2.text ++ '(' :: (g0.text ++ commas (Cst.texts es) ++ ')' ::
      ((match v with
        | some (h, h', xs) => h.text ++ ['a', 's'] ++ h'.text ++ commas (namesText xs)
        | none => []) ++ g3.text ++ '{' :: (b0.text ++ Cst.textB b ++ ['}'])))) ++ r)) rfl ?_ (by decide) (Gap.notHead (gap_not (by decide)) (show isIdChar '@' = false by decide))
    cases v <;> simp [Cst.text]
  | .include g s, h, r, k, hs, hk => .of_word (w := ['i', 'n', 'c', 'l', 'u', 'd', 'e']) (t := g.text ++ ('"' :: (s ++ ['"']) ++ r)) rfl (by simp [Cst.text]) (by decide)
      (Gap.notHead (gap_not (by decide)) (show isIdChar '"' = false by decide))
  | .ifThen g c g' b0 b, h, r, k, hs, hk => by
    simp only [Cst.ok, Bool.and_eq_true, Bool.not_eq_true'] at h
    exact .of_word (w := ['i', 'f']) (t := g.text ++ (c.text ++ (g'.text ++ '{' :: (b0.text ++ Cst.textB b ++ ['}']) ++ r))) rfl (by simp [Cst.text]) (by decide)
      (apart_spec h.1.1.1.1.1.2 h.1.1.1.2 _)
  | .ifElse g c g' b0 b g1 g2 e0 e, h, r, k, hs, hk => by
    simp only [Cst.ok, Bool.and_eq_true, Bool.not_eq_true'] at h
    exact .of_word (w := ['i', 'f']) (t := g.text ++ (c.text ++ (g'.text ++ '{' :: (b0.text ++ Cst.textB b ++ '}' :: (g1.text ++ ['e', 'l', 's', 'e'] ++ g2.text ++ '{' :: (e0.text ++ Cst.textB e ++ ['}']))) ++ r))) rfl
      (by simp [Cst.text]) (by decide) (apart_spec h.1.1.1.1.1.1.1.1.1.2 h.1.1.1.1.1.1.1.2 _)
  | .elseIf g c g' b0 b g1 g2 e, h, r, k, hs, hk => by
    simp only [Cst.ok, Bool.and_eq_true, Bool.not_eq_true'] at h
    exact .of_word (w := ['i', 'f']) (t := g.text ++ (c.text ++ (g'.text ++ '{' :: (b0.text ++ Cst.textB b ++ '}' :: (g1.text ++ ['e', 'l', 's', 'e'] ++ g2.text ++ e.text)) ++ r))) rfl
      (by simp [Cst.text]) (by decide) (apart_spec h.1.1.1.1.1.1.1.1.1.1.2 h.1.1.1.1.1.1.1.1.2 _)
  | .switch g v g1 g2 cs d, h, r, k, hs, hk => by
    simp only [Cst.ok, Bool.and_eq_true, Bool.not_eq_true'] at h
    exact .of_word (w := ['s', 'w', 'i', 't', 'c', 'h']) (t := g.text ++ (v.text ++ (g1.text ++ '{' :: (g2.text ++ Cst.textC cs ++ Cst.textD d ++ ['}']) ++ r))) rfl
      (by simp [Cst.text]) (by decide) (apart_spec h.1.1.1.1.1.1.2 h.1.1.1.1.2 _)
  | .ret none, h, r, k, hs, hk => .of_word (w := ['r', 'e', 't', 'u', 'r', 'n']) (t := r) rfl (by simp [Cst.text, Cst.textR]) (by decide) hs.word
  | .ret (some (g, e)), h, r, k, hs, hk => by
    simp only [Cst.ok, Cst.okR, Bool.and_eq_true] at h
    exact .of_word (w := ['r', 'e', 't', 'u', 'r', 'n']) (t := g.text ++ (e.text ++ r)) rfl (by simp [Cst.text, Cst.textR]) (by decide) (apart_spec h.1.2 h.2 _)
termination_by structural c => c
theorem lit_views (E : Env) : ∀ es : List (Gap × Cst × Gap), Cst.oks es = true → ∀ e ∈ es, e.1.ok = true ∧ e.2.1.ok = true ∧ e.2.2.ok = true ∧
    ∀ {r : List Char} {k : Nat}, LitSafe e.2.1.endsInt r → (e.2.1.text ++ r).length < k + 1 → LitView (literalN E (k + 1)) e.2.1 r
  | [], _ => by intro e he; cases he
  | (g, c, g') :: es, h => by
    simp only [Cst.oks, Bool.and_eq_true] at h
    have h1 := fun {r k} => lit_view E c h.1.1.2 (r := r) (k := k)
    have h2 := lit_views E es h.2
    intro e he
    rcases List.mem_cons.1 he with rfl | he
    · exact ⟨h.1.1.1, h.1.1.2, h.1.2, h1⟩
    · exact h2 e he
termination_by structural es => es
end

end Quilt.Cs
