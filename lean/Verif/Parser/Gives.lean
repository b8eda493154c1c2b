import Verif.Parser.LiteralText
import Verif.Parser.Concrete

/-!
# Reading concrete syntax: combinators, gaps, words
-/

namespace Quilt.Peg

variable {α β : Type}

/-- `x` succeeds on `s`, and the result and the rest satisfy `Q`. -/
def Gives (x : P α) (s : List Char) (Q : α → List Char → Prop) : Prop := ∀ p, ∃ a q s', x ⟨p, s⟩ = .ok a ⟨q, s'⟩ ∧ Q a s'

/-- `x` reads `a` from `s`, leaving `s'`. -/
abbrev Takes (x : P α) (s : List Char) (a : α) (s' : List Char) : Prop := Gives x s fun b t => b = a ∧ t = s'

theorem Reads.takes {x : P α} {t r : List Char} {a : α} (h : Reads x t r a) : Takes x (t ++ r) a r := fun p => by
  obtain ⟨q, hq⟩ := h p
  exact ⟨a, q, r, hq, rfl, rfl⟩

theorem Takes.reads {x : P α} {t r : List Char} {a : α} (h : Takes x (t ++ r) a r) : Reads x t r a := fun p => by
  obtain ⟨_, q, _, hq, rfl, rfl⟩ := h p
  exact ⟨q, hq⟩

theorem Gives.imp {x : P α} {s : List Char} {Q Q' : α → List Char → Prop} (h : Gives x s Q) (hQ : ∀ a s', Q a s' → Q' a s') : Gives x s Q' := fun p => by
  obtain ⟨a, q, s', h1, h2⟩ := h p
  exact ⟨a, q, s', h1, hQ _ _ h2⟩

theorem Gives.bind {x : P α} {f : α → P β} {s : List Char} {Q : α → List Char → Prop} {Q' : β → List Char → Prop} (h : Gives x s Q)
    (h' : ∀ a s', Q a s' → Gives (f a) s' Q') : Gives (x >>= f) s Q' := fun p => by
  obtain ⟨a, q, s', h1, h2⟩ := h p
  obtain ⟨b, q', s'', h3, h4⟩ := h' a s' h2 q
  exact ⟨b, q', s'', by rw [bind_def, h1]; exact h3, h4⟩

theorem Takes.bind {x : P α} {f : α → P β} {s s' : List Char} {a : α} {Q' : β → List Char → Prop} (h : Takes x s a s') (h' : Gives (f a) s' Q') :
    Gives (x >>= f) s Q' := Gives.bind h (by rintro _ _ ⟨rfl, rfl⟩; exact h')

theorem Gives.pure {a : α} {s : List Char} {Q : α → List Char → Prop} (h : Q a s) : Gives (pure a : P α) s Q := fun p => ⟨a, p, s, rfl, h⟩

theorem Gives.left {x y : P α} {s : List Char} {Q : α → List Char → Prop} (h : Gives x s Q) : Gives (x </> y) s Q := fun p => by
  obtain ⟨a, q, s', h1, h2⟩ := h p
  exact ⟨a, q, s', by unfold orElse; rw [h1], h2⟩

theorem Gives.right {x y : P α} {s : List Char} {Q : α → List Char → Prop} (hx : Fails x s) (h : Gives y s Q) : Gives (x </> y) s Q := fun p => by
  obtain ⟨a, q, s', h1, h2⟩ := h p
  exact ⟨a, q, s', by unfold orElse; rw [hx p]; exact h1, h2⟩

theorem Fails.after {x : P α} {f : α → P β} {s : List Char} {Q : α → List Char → Prop} (h : Gives x s Q) (h' : ∀ a s', Q a s' → Fails (f a) s') :
    Fails (x >>= f) s := fun p => by
  obtain ⟨a, q, s', h1, h2⟩ := h p
  rw [bind_def, h1]; exact h' a s' h2 q

theorem Fails.take {x : P α} {f : α → P β} {s s' : List Char} {a : α} (h : Takes x s a s') (h' : Fails (f a) s') : Fails (x >>= f) s :=
  Fails.after h (by rintro _ _ ⟨rfl, rfl⟩; exact h')

theorem Gives.opt_some {x : P α} {s : List Char} {Q : α → List Char → Prop} (h : Gives x s Q) : Gives (opt x) s fun a s' => ∃ b, a = some b ∧ Q b s' := fun p => by
  obtain ⟨a, q, s', h1, h2⟩ := h p
  exact ⟨some a, q, s', by unfold opt; rw [h1], a, rfl, h2⟩

theorem Takes.opt_some {x : P α} {s s' : List Char} {a : α} (h : Takes x s a s') : Takes (opt x) s (some a) s' := fun p => by
  obtain ⟨_, q, _, h1, rfl, rfl⟩ := h p
  exact ⟨_, q, _, by unfold opt; rw [h1], rfl, rfl⟩

theorem Takes.opt_none {x : P α} {s : List Char} (h : Fails x s) : Takes (opt x) s none s := fun p => ⟨none, p, s, by unfold opt; rw [h p], rfl, rfl⟩

theorem Gives.position {s : List Char} : Gives position s fun _ s' => s' = s := fun p => ⟨p, p, s, rfl, rfl⟩

theorem Gives.spanned {E : Env} {x : P α} {s : List Char} {Q : α → List Char → Prop} (h : Gives x s Q) : Gives (spanned E x) s fun a s' => Q a.1 s' := by
  unfold Peg.spanned
  refine Gives.position.bind fun _ _ hs => hs ▸ h.bind fun a s' ha => Gives.position.bind fun _ _ hs => hs ▸ Gives.pure ha

theorem Fails.spanned {E : Env} {x : P α} {s : List Char} (h : Fails x s) : Fails (spanned E x) s := by
  unfold Peg.spanned
  exact Fails.after Gives.position fun _ _ hs => hs ▸ Fails.bind h

theorem Takes.char {s : String} {c : Char} (h : s.toList = [c]) (t : List Char) : Takes (Peg.str s) (c :: t) () t := (Reads.str s t h).takes

theorem Takes.str {s : String} {t : List Char} (h : s.toList = t) (r : List Char) : Takes (Peg.str s) (t ++ r) () r := (Reads.str s r h).takes

theorem Fails.char {s : String} {c : Char} (h : s.toList = [c]) {t : List Char} (ht : NotHead (· == c) t) : Fails (Peg.str s) t := Fails.str h ht

theorem Fails.str_cons {s : String} {c d : Char} {cs t : List Char} (h : s.toList = c :: cs) (hd : d ≠ c) : Fails (Peg.str s) (d :: t) :=
  Fails.str h (show (d == c) = false by simpa using hd)

/-! ## First choice -/

theorem Gives.first_left {x : P (Span → Node)} {xs : List (P (Span → Node))} {s : List Char} {Q : (Span → Node) → List Char → Prop} (h : Gives x s Q) :
    Gives (firstOf (x :: xs)) s Q := by unfold firstOf; exact Gives.left h

theorem Gives.first_right {x : P (Span → Node)} {xs : List (P (Span → Node))} {s : List Char} {Q : (Span → Node) → List Char → Prop} (hx : Fails x s)
    (h : Gives (firstOf xs) s Q) : Gives (firstOf (x :: xs)) s Q := by unfold firstOf; exact Gives.right hx h

theorem Fails.first {xs : List (P (Span → Node))} {s : List Char} (h : ∀ x ∈ xs, Fails x s) : Fails (firstOf xs) s := by
  induction xs with
  | nil => intro p; rfl
  | cons x xs ih => unfold firstOf; exact Fails.or (h x (by simp)) (ih fun y hy => h y (by simp [hy]))

theorem Gives.first_mid {xs ys : List (P (Span → Node))} {x : P (Span → Node)} {s : List Char} {Q : (Span → Node) → List Char → Prop} (hx : ∀ y ∈ xs, Fails y s)
    (h : Gives x s Q) : Gives (firstOf (xs ++ x :: ys)) s Q := by
  induction xs with
  | nil => exact Gives.first_left h
  | cons y xs ih => exact Gives.first_right (hx y (by simp)) (ih fun z hz => hx z (by simp [hz]))

/-! ## Repetition -/

theorem Gives.many_nil {x : P α} {s : List Char} (h : Fails x s) : Takes (many x) s [] s := fun p => by
  refine ⟨[], p, s, ?_, rfl, rfl⟩
  unfold many manyN
  simp [h p]

theorem many_cons_aux {x : P α} {p q : Nat} {s s' : List Char} {a : α} {n : Nat} {as : List α} {i : Inp} (h : x ⟨p, s⟩ = .ok a ⟨q, s'⟩) (h' : manyN x n ⟨q, s'⟩ = .ok as i) :
    manyN x (n + 1) ⟨p, s⟩ = .ok (a :: as) i := by
  unfold manyN
  rw [h]
  simp only [bind_def]
  rw [h']; rfl

theorem manyN_ok_mono {x : P α} : ∀ {n m : Nat} {i j : Inp} {as : List α}, manyN x n i = .ok as j → n ≤ m → manyN x m i = .ok as j
  | 0, _, _, _, _, h, _ => by cases h
  | n + 1, 0, _, _, _, _, hm => by omega
  | n + 1, m + 1, i, j, as, h, hm => by
    unfold manyN at h ⊢
    cases hx : x i with
    | fail => rw [hx] at h; exact h
    | oof => rw [hx] at h; cases h
    | ok a i' =>
      rw [hx] at h
      simp only [bind_def] at h ⊢
      cases hr : manyN x n i' with
      | ok bs j' => rw [hr] at h; rw [manyN_ok_mono hr (by omega)]; exact h
      | fail => rw [hr] at h; cases h
      | oof => rw [hr] at h; cases h

/-- One more repetition. -/
theorem Gives.many_cons {x : P α} {s : List Char} {Q : α → List Char → Prop} {Q' : List α → List Char → Prop} (h : Gives x s Q)
    (hlen : ∀ a s', Q a s' → s'.length < s.length) (h' : ∀ a s', Q a s' → Gives (many x) s' fun as s'' => Q' (a :: as) s'') : Gives (many x) s Q' := fun p => by
  obtain ⟨a, q, s', h1, h2⟩ := h p
  obtain ⟨as, q', s'', h3, h4⟩ := h' a s' h2 q
  refine ⟨a :: as, q', s'', ?_, h4⟩
  unfold many at h3 ⊢
  exact many_cons_aux h1 (manyN_ok_mono h3 (by have := hlen a s' h2; simp only; omega))

end Quilt.Peg

namespace Quilt.Cs

open Peg

/-! ## Gaps -/

/-- What `_` repeats. -/
abbrev skipPart : P Unit := whitespace </> terminator </> comment

/-- Nothing to skip at the beginning. -/
def NoSkip (r : List Char) : Prop := Fails skipPart r

theorem noSkip_of {r : List Char} (h : NotHead isSkip r) : NoSkip r := Fails.skipPart h

theorem noSkip_cons {c : Char} {r : List Char} (h : isSkip c = false) : NoSkip (c :: r) := Fails.skipPart h

theorem noSkip_nil : NoSkip [] := Fails.skipPart trivial

theorem reads_newline (r : List Char) : Reads term ['\n'] r () := by
  unfold term
  exact Reads.left (Reads.bind (t := []) (a := none) (Reads.opt_none (Fails.str (c := '\r') (cs := []) (by decide) (show ('\n' == '\r') = false by decide)))
    (Reads.str "\n" r (by decide)))

theorem fails_comment {c : Char} {r : List Char} (h : c ≠ '/') : Fails comment (c :: r) := by
  unfold comment
  exact Fails.bind (Fails.str_cons (c := '/') (cs := ['/']) (by decide) h)

theorem fails_whitespace {c : Char} {r : List Char} (h : isSimpleWhitespace c = false) (h' : c ≠ '\\') : Fails whitespace (c :: r) := by
  unfold whitespace simpleWhitespace
  exact Fails.or (Fails.bind (Fails.cls h)) (Fails.bind (Fails.str_cons (c := '\\') (cs := []) (by decide) h'))

theorem fails_term {c : Char} {r : List Char} (h1 : c ≠ '\n') (h2 : c ≠ '\r') (h3 : c ≠ ';') : Fails term (c :: r) := by
  unfold term
  refine Fails.or ?_ (Fails.str_cons (c := ';') (cs := []) (by decide) h3)
  exact Fails.later (t := []) (Reads.opt_none (Fails.str_cons (c := '\r') (cs := []) (by decide) h2)) (Fails.str_cons (c := '\n') (cs := []) (by decide) h1)

theorem reads_comment {cs : List Char} (h : cs.all (fun c => c != '\n' && c != '\r' && c != ';') = true) (r : List Char) :
    Reads comment ('/' :: '/' :: cs) ('\n' :: r) () := by
  unfold comment
  refine Reads.bind (t := ['/', '/']) (Reads.str "//" _ (by decide)) ?_
  refine Reads.map (g := fun _ => ()) (a := cs) ?_
  have := Reads.many (x := (do notP term; cls fun _ => true : P Char)) (cs.map fun c => ([c], c)) ('\n' :: r) (by simp) ?_ ?_
  · have h1 : ((cs.map fun d => ([d], d)).map Prod.fst).flatten = cs := by
      clear h this; induction cs <;> simp_all
    have h2 : ((cs.map fun d => ([d], d)).map Prod.snd) = cs := by simp [Function.comp_def]
    rwa [h1, h2] at this
  · intro u v t a he
    have ha : (t, a) ∈ cs.map fun d => ([d], d) := by rw [he]; simp
    obtain ⟨d, hd, h'⟩ := List.mem_map.1 ha
    cases h'
    have hd' := List.all_eq_true.1 h _ hd
    simp only [Bool.and_eq_true, bne_iff_ne] at hd'
    exact Reads.bind (t := []) (Reads.notP (by simpa using fails_term hd'.1.1 hd'.1.2 hd'.2)) (Reads.cls _ rfl)
  · intro p
    have : notP term ⟨p, '\n' :: r⟩ = .fail := by
      unfold notP
      obtain ⟨q, hq⟩ := reads_newline r p
      rw [List.singleton_append] at hq
      rw [hq]
    rw [bind_def, this]

theorem reads_item {i : GapItem} (h : i.ok = true) (r : List Char) : Reads skipPart i.text r () := by
  cases i with
  | space => exact Reads.left (Reads.left (Reads.map (g := fun _ => ()) (Reads.cls _ (by decide))))
  | tab => exact Reads.left (Reads.left (Reads.map (g := fun _ => ()) (Reads.cls _ (by decide))))
  | newline =>
    refine Reads.right (fails_whitespace (by decide) (by decide)) (Reads.left ?_)
    exact Reads.bind (t := []) (a := none) (Reads.opt_none (fails_comment (by decide))) (reads_newline r)
  | crlf =>
    refine Reads.right (fails_whitespace (by decide) (by decide)) (Reads.left ?_)
    refine Reads.bind (t := []) (a := none) (Reads.opt_none (fails_comment (by decide))) ?_
    unfold term
    exact Reads.left (Reads.bind (t := ['\r']) (a := some ()) (Reads.opt_some (Reads.str "\r" _ (by decide))) (Reads.str "\n" r (by decide)))
  | semi =>
    refine Reads.right (fails_whitespace (by decide) (by decide)) (Reads.left ?_)
    refine Reads.bind (t := []) (a := none) (Reads.opt_none (fails_comment (by decide))) ?_
    unfold term
    refine Reads.right ?_ (Reads.str ";" r (by decide))
    exact Fails.later (t := []) (Reads.opt_none (Fails.str_cons (c := '\r') (cs := []) (by decide) (by decide))) (Fails.str_cons (c := '\n') (cs := []) (by decide) (by decide))
  | comment cs =>
    refine Reads.right (fails_whitespace (by decide) (by decide)) (Reads.left ?_)
    show Reads terminator (('/' :: '/' :: cs) ++ ['\n']) r ()
    exact Reads.bind (a := some ()) (Reads.opt_some (reads_comment h r)) (reads_newline r)
  | cont =>
    refine Reads.left (Reads.right (Fails.bind (Fails.cls (show isSimpleWhitespace '\\' = false by decide))) ?_)
    exact Reads.bind (t := ['\\']) (Reads.str "\\" _ (by decide)) (reads_newline r)

theorem GapItem.text_ne (i : GapItem) : i.text ≠ [] := by cases i <;> simp [GapItem.text]

theorem Gap.text_nil : Gap.text [] = [] := rfl
theorem Gap.text_cons (i : GapItem) (g : Gap) : Gap.text (i :: g) = i.text ++ Gap.text g := rfl
theorem Gap.text_append (g g' : Gap) : Gap.text (g ++ g') = g.text ++ g'.text := by simp [Gap.text]

theorem Gap.ok_append {g g' : Gap} : Gap.ok (g ++ g') = (g.ok && g'.ok) := by simp [Gap.ok]
theorem Gap.ok_cons {i : GapItem} {g : Gap} : Gap.ok (i :: g) = (i.ok && g.ok) := by simp [Gap.ok]

theorem Gap.ok_suffix {g g' : Gap} (h : g' <:+ g) (hg : g.ok = true) : g'.ok = true := by
  obtain ⟨t, rfl⟩ := h
  rw [Gap.ok_append, Bool.and_eq_true] at hg
  exact hg.2

theorem Gap.ok_of_ws {g : Gap} (h : g.isWs = true) : g.ok = true := by
  unfold Gap.isWs at h
  unfold Gap.ok
  rw [List.all_eq_true] at h ⊢
  intro i hi
  have := h i hi
  cases i <;> first | rfl | cases this

/-- `_` reads a gap. -/
theorem takes_skip {g : Gap} {r : List Char} (hg : g.ok = true) (hr : NoSkip r) : Takes skip (g.text ++ r) () r := by
  refine Reads.takes ?_
  unfold skip
  refine Reads.map (g := fun _ => ()) (a := g.map fun _ => ()) ?_
  have := Reads.many (x := skipPart) (g.map fun i => (i.text, ())) r ?_ ?_ hr
  · have h1 : ((g.map fun i => (i.text, ())).map Prod.fst).flatten = g.text := by
      simp [Gap.text, List.flatMap, Function.comp_def]
    have h2 : ((g.map fun i => (i.text, ())).map Prod.snd) = g.map fun _ => () := by simp
    rwa [h1, h2] at this
  · intro t ht
    obtain ⟨i, _, rfl⟩ := List.mem_map.1 ht
    exact i.text_ne
  · intro u v t a he
    have ha : (t, a) ∈ g.map fun i => (i.text, ()) := by rw [he]; simp
    obtain ⟨i, hi, h'⟩ := List.mem_map.1 ha
    cases h'
    exact reads_item (List.all_eq_true.1 hg i hi) _

theorem takes_skip_nil {r : List Char} (hr : NoSkip r) : Takes skip r () r := takes_skip (g := []) rfl hr

theorem manyN_end {α : Type} {x : P α} : ∀ {n : Nat} {i j : Inp} {as : List α}, manyN x n i = .ok as j → x j = .fail
  | 0, _, _, _, h => by cases h
  | n + 1, i, j, as, h => by
    unfold manyN at h
    cases hx : x i with
    | fail => rw [hx] at h; cases h; exact hx
    | oof => rw [hx] at h; cases h
    | ok a i' =>
      rw [hx] at h
      simp only [bind_def] at h
      cases hr : manyN x n i' with
      | ok bs j' => rw [hr] at h; cases h; exact manyN_end hr
      | fail => rw [hr] at h; cases h
      | oof => rw [hr] at h; cases h

/-- Skipping twice is skipping once. -/
theorem skip_skip {i j : Inp} {u : Unit} (h : skip i = .ok u j) : skip j = .ok () j := by
  unfold skip at h ⊢
  rw [bind_def] at h ⊢
  cases hm : many (whitespace </> terminator </> comment) i with
  | fail => rw [hm] at h; cases h
  | oof => rw [hm] at h; cases h
  | ok as j' =>
    rw [hm] at h
    cases h
    have := manyN_end hm
    unfold many manyN
    rw [this]
    rfl

theorem gives_skip_skip {α : Type} {f : P α} {s : List Char} {Q : α → List Char → Prop} (h : Gives (skip >>= fun _ => f) s Q) : Gives (skip >>= fun _ => skip >>= fun _ => f) s Q := fun p => by
  obtain ⟨a, q, s', h1, h2⟩ := h p
  refine ⟨a, q, s', ?_, h2⟩
  rw [bind_def] at h1 ⊢
  cases hs : skip ⟨p, s⟩ with
  | fail => rw [hs] at h1; cases h1
  | oof => rw [hs] at h1; cases h1
  | ok u j =>
    rw [hs] at h1
    show (skip >>= fun _ => f) j = _
    rw [bind_def, skip_skip hs]
    exact h1

theorem fails_skip_skip {α : Type} {f : P α} {s : List Char} (h : Fails (skip >>= fun _ => f) s) : Fails (skip >>= fun _ => skip >>= fun _ => f) s := fun p => by
  have h1 := h p
  rw [bind_def] at h1 ⊢
  cases hs : skip ⟨p, s⟩ with
  | fail => rfl
  | oof => rw [hs] at h1; cases h1
  | ok u j =>
    rw [hs] at h1
    show (skip >>= fun _ => f) j = _
    rw [bind_def, skip_skip hs]
    exact h1

theorem skip_bind_assoc {α β : Type} {f : P α} {h : α → P β} : ((skip >>= fun _ => f) >>= h) = (skip >>= fun _ => f >>= h) := by
  funext i
  simp only [bind_def]
  cases skip i <;> rfl

theorem gives_skip_commaSep {α β : Type} {x : P α} {h : List α → P β} {s : List Char} {Q : β → List Char → Prop} (hq : Gives (commaSep x >>= h) s Q) :
    Gives (skip >>= fun _ => commaSep x >>= h) s Q := by
  unfold commaSep at hq ⊢
  rw [skip_bind_assoc] at hq ⊢
  exact gives_skip_skip hq

theorem gives_skip_commaSep1 {α β : Type} {x : P α} {h : List α → P β} {s : List Char} {Q : β → List Char → Prop} (hq : Gives (commaSep1 x >>= h) s Q) :
    Gives (skip >>= fun _ => commaSep1 x >>= h) s Q := by
  unfold commaSep1 at hq ⊢
  rw [skip_bind_assoc] at hq ⊢
  exact gives_skip_skip hq

theorem fails_skip_commaSep {α β : Type} {x : P α} {h : List α → P β} {s : List Char} (hq : Fails (commaSep x >>= h) s) : Fails (skip >>= fun _ => commaSep x >>= h) s := by
  unfold commaSep at hq ⊢
  rw [skip_bind_assoc] at hq ⊢
  exact fails_skip_skip hq

/-- First characters of gaps. -/
def isGapChar (c : Char) : Bool := c == ' ' || c == '\t' || c == '\n' || c == '\r' || c == ';' || c == '/' || c == '\\'

theorem GapItem.head (i : GapItem) : ∃ c cs, i.text = c :: cs ∧ isGapChar c = true := by
  cases i <;> exact ⟨_, _, rfl, by decide⟩

theorem Gap.notHead {g : Gap} {r : List Char} {f : Char → Bool} (hf : ∀ c, isGapChar c = true → f c = false) (hr : NotHead f r) : NotHead f (g.text ++ r) := by
  cases g with
  | nil => exact hr
  | cons i g =>
    obtain ⟨c, cs, h1, h2⟩ := i.head
    rw [Gap.text_cons, h1]
    exact hf c h2

theorem Gap.notHead_ne {g : Gap} {r : List Char} {f : Char → Bool} (hf : ∀ c, isGapChar c = true → f c = false) (hg : g.isEmpty = false) : NotHead f (g.text ++ r) := by
  cases g with
  | nil => cases hg
  | cons i g =>
    obtain ⟨c, cs, h1, h2⟩ := i.head
    rw [Gap.text_cons, h1]
    exact hf c h2

theorem isGapChar_cases {c : Char} (h : isGapChar c = true) : c = ' ' ∨ c = '\t' ∨ c = '\n' ∨ c = '\r' ∨ c = ';' ∨ c = '/' ∨ c = '\\' := by
  simpa only [isGapChar, Bool.or_eq_true, beq_iff_eq, or_assoc] using h

theorem gap_not {f : Char → Bool} (h : (f ' ' || f '\t' || f '\n' || f '\r' || f ';' || f '/' || f '\\') = false) : ∀ c, isGapChar c = true → f c = false := by
  intro c hc
  simp only [Bool.or_eq_false_iff] at h
  rcases isGapChar_cases hc with rfl | rfl | rfl | rfl | rfl | rfl | rfl <;> simp_all

/-- `ws` reads the blanks at the beginning of a gap. -/
theorem takes_ws {g : Gap} {r : List Char} (hr : NotHead isSimpleWhitespace r) :
    ∃ g' : Gap, g' <:+ g ∧ (g.isWs = true → g' = []) ∧ (g.isWs = false → g' ≠ []) ∧ Takes ws (g.text ++ r) () (g'.text ++ r) := by
  induction g with
  | nil =>
    refine ⟨[], List.suffix_rfl, fun _ => rfl, fun h => (by cases h), ?_⟩
    unfold ws
    exact Takes.bind (Gives.many_nil (by unfold simpleWhitespace; exact Fails.bind (Fails.cls hr))) (Gives.pure ⟨rfl, rfl⟩)
  | cons i g ih =>
    cases hi : i.isWs with
    | false =>
      refine ⟨i :: g, List.suffix_rfl, fun h => ?_, fun _ => (by simp), ?_⟩
      · simp [Gap.isWs, hi] at h
      · unfold ws
        refine Takes.bind (Gives.many_nil ?_) (Gives.pure ⟨rfl, rfl⟩)
        unfold simpleWhitespace
        refine Fails.bind (Fails.cls ?_)
        cases i <;> first | (show isSimpleWhitespace _ = false; decide) | cases hi
    | true =>
      obtain ⟨g', h1, h2, h3, h4⟩ := ih
      refine ⟨g', h1.trans (List.suffix_cons i g), fun h => h2 ?_, fun h => h3 ?_, ?_⟩
      · simp only [Gap.isWs, List.all_cons, Bool.and_eq_true] at h ⊢; exact h.2
      · simpa only [Gap.isWs, List.all_cons, hi, Bool.true_and] using h
      · have hc : ∃ c, i.text = [c] ∧ isSimpleWhitespace c = true := by
          cases i <;> first | exact ⟨_, rfl, by decide⟩ | cases hi
        obtain ⟨c, hc1, hc2⟩ := hc
        rw [Gap.text_cons, hc1]
        intro p
        obtain ⟨_, q, _, h6, _, rfl⟩ := h4 (p + c.utf8Size)
        unfold ws at h6 ⊢
        rw [bind_def] at h6 ⊢
        cases hm : many simpleWhitespace ⟨p + c.utf8Size, Gap.text g ++ r⟩ with
        | fail => rw [hm] at h6; cases h6
        | oof => rw [hm] at h6; cases h6
        | ok as j =>
          rw [hm] at h6
          have hj : j = ⟨q, g'.text ++ r⟩ := by injection h6
          have : many simpleWhitespace ⟨p, [c] ++ Gap.text g ++ r⟩ = .ok (() :: as) j := by
            unfold many at hm ⊢
            refine many_cons_aux (q := p + c.utf8Size) (s' := Gap.text g ++ r) ?_ (manyN_ok_mono hm (by simp))
            unfold simpleWhitespace
            rw [bind_def]
            unfold cls
            simp only [List.cons_append, List.nil_append, hc2, if_true]
            rfl
          rw [this, hj]
          exact ⟨_, q, _, rfl, rfl, rfl⟩

/-! ## Words -/

theorem takes_kw {s : String} {t r : List Char} (h : s.toList = t) (hr : NotHead isIdChar r) : Takes (kw s) (t ++ r) () r := (Reads.kw h hr).takes

/-- Another word is not the keyword. -/
theorem fails_chars_word : ∀ {s w r : List Char}, (∀ c ∈ s, isIdChar c = true) → (∀ c ∈ w, isIdChar c = true) → s ≠ w → NotHead isIdChar r →
    Fails (do chars s; notP (cls isIdChar)) (w ++ r)
  | [], w, r, _, hw, hne, hr => by
    cases w with
    | nil => exact absurd rfl hne
    | cons c w =>
      refine Fails.take (a := ()) (s' := c :: (w ++ r)) (fun p => ⟨(), p, _, rfl, rfl, rfl⟩) ?_
      intro p
      unfold notP cls
      simp [hw c (by simp)]
  | d :: s, w, r, hs, hw, hne, hr => by
    cases w with
    | nil =>
      refine Fails.bind (Fails.chars ?_)
      cases r with
      | nil => trivial
      | cons e r =>
        show (e == d) = false
        cases h : e == d with
        | false => rfl
        | true => rw [eq_of_beq h] at hr; exact absurd (hs d (by simp)) (by simp [show isIdChar d = false from hr])
    | cons c w =>
      by_cases hc : c = d
      · subst hc
        have ih := fails_chars_word (s := s) (w := w) (r := r) (fun c hc => hs c (by simp [hc])) (fun c hc => hw c (by simp [hc])) (fun h => hne (by rw [h])) hr
        intro p
        have := ih (p + c.utf8Size)
        rw [bind_def] at this ⊢
        have hc : chars (c :: s) ⟨p, c :: (w ++ r)⟩ = chars s ⟨p + c.utf8Size, w ++ r⟩ := by
          conv => lhs; unfold chars
          rw [bind_def]; unfold cls; simp
        rw [List.cons_append, hc]; exact this
      · exact Fails.bind (Fails.chars (show (c == d) = false by simpa using hc))

theorem fails_kw {s : String} {w r : List Char} (hs : ∀ c ∈ s.toList, isIdChar c = true) (hw : ∀ c ∈ w, isIdChar c = true) (hne : s.toList ≠ w) (hr : NotHead isIdChar r) :
    Fails (kw s) (w ++ r) := by
  unfold kw str
  exact fails_chars_word hs hw hne hr

theorem isIdChar_of_start {c : Char} (h : isIdStart c = true) : isIdChar c = true := by
  unfold isIdStart at h; unfold isIdChar
  simp only [Bool.or_eq_true] at h ⊢
  rcases h with h | h
  · exact .inl (.inl h)
  · exact .inr h

/-- A name: its characters. -/
theorem nameOk_iff {x : String} (h : nameOk x = true) : ∃ c cs, x.toList = c :: cs ∧ isIdStart c = true ∧ (∀ d ∈ x.toList, isIdChar d = true) ∧ x ∉ reserved ∧ x ≠ "if" ∧ x ≠ "else" := by
  unfold nameOk at h
  split at h
  · rename_i c cs hx
    simp only [Bool.and_eq_true, Bool.not_eq_true', bne_iff_ne, List.all_eq_true, List.contains_eq_mem, decide_eq_false_iff_not] at h
    obtain ⟨⟨⟨⟨h1, h2⟩, h3⟩, h4⟩, h5⟩ := h
    refine ⟨c, cs, hx, h1, ?_, h3, h4, h5⟩
    intro d hd
    rw [hx] at hd
    rcases List.mem_cons.1 hd with rfl | hd
    · exact isIdChar_of_start h1
    · exact h2 d hd
  · cases h

theorem takes_ident {x : String} {r : List Char} (h : nameOk x = true) (hr : NotHead isIdChar r) : Takes ident (x.toList ++ r) x r := by
  obtain ⟨c, cs, hx, h1, h2, h3, _, _⟩ := nameOk_iff h
  refine Reads.takes ?_
  unfold ident
  rw [hx]
  refine Reads.bind (t := [c]) (Reads.cls _ h1) ?_
  have := Reads.bind (t' := []) (Reads.many_cls cs r (fun d hd => h2 d (by rw [hx]; simp [hd])) hr)
    (f := fun cs => if String.ofList (c :: cs) ∈ reserved then fail else pure (String.ofList (c :: cs))) (b := x) (by
      have hxo : String.ofList (c :: cs) = x := by rw [← hx]; simp
      rw [hxo, if_neg h3]
      exact Reads.pure x r)
  rwa [List.append_nil] at this

/-- Reserved words are not names. -/
theorem fails_ident_reserved {x : String} {r : List Char} (h : x ∈ reserved) (hr : NotHead isIdChar r) : Fails ident (x.toList ++ r) := by
  have key : ∀ y ∈ reserved, ∃ c cs, y.toList = c :: cs ∧ isIdStart c = true ∧ (cs.all isIdChar) = true := by
    intro y hy
    have : (reserved.all fun y => match y.toList with
      | c :: cs => isIdStart c && cs.all isIdChar
      | [] => false) = true := by decide +kernel
    have := List.all_eq_true.1 this y hy
    split at this
    · rename_i c cs h
      rw [Bool.and_eq_true] at this
      exact ⟨c, cs, h, this.1, this.2⟩
    · cases this
  obtain ⟨c, cs, hx, h1, h2⟩ := key x h
  unfold ident
  rw [hx]
  refine Fails.take (a := c) (s' := cs ++ r) (Reads.cls (f := isIdStart) (cs ++ r) h1).takes ?_
  refine Fails.take (a := cs) (s' := r) (Reads.many_cls cs r (List.all_eq_true.1 h2) hr).takes ?_
  have hxo : String.ofList (c :: cs) = x := by rw [← hx]; simp
  simp only [hxo, if_pos h]
  intro p; rfl

theorem fails_ident {c : Char} {r : List Char} (h : isIdStart c = false) : Fails ident (c :: r) := by
  unfold ident
  exact Fails.bind (Fails.cls h)

theorem fails_ident_nil : Fails ident [] := by
  unfold ident
  exact Fails.bind (Fails.cls trivial)

end Quilt.Cs
