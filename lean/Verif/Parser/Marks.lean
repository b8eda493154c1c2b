import Verif.Parser.Forget
import Verif.Parser.Sound
import Verif.Parser.LitRead

/-!
# The failures that are noted

Each failure lies in the text, at a character, and what it names is not there.
-/

namespace Quilt.Peg

/-- The text is `a ++ b`, and what an error message names is not what stands between `a` and `b`. -/
inductive Lacks : String → List Char → List Char → Prop where
  /-- A literal, named in quotes: the text does not go on with it. -/
  | literal {s : String} {a b : List Char} (h : ¬ s.toList <+: b) : Lacks ("\"" ++ s ++ "\"") a b
  /-- No whole word that is an identifier comes next. -/
  | identifier {a b : List Char} (h : ¬ ∃ x r, IsIdent x ∧ b = x.toList ++ r ∧ ∀ c ∈ r.head?, isIdChar c = false) : Lacks "identifier" a b
  /-- No digit comes next, nor a minus sign and a digit. -/
  | integer {a b : List Char} (h : ¬ ∃ (neg : Bool) (d : Char) (r : List Char), b = (if neg then ['-'] else []) ++ d :: r ∧ isDig d = true) : Lacks "integer" a b
  /-- No digits with a point that is not the first of two. -/
  | float {a b : List Char} (h : ¬ ∃ (neg : Bool) (ds r : List Char), b = (if neg then ['-'] else []) ++ (ds ++ '.' :: r) ∧ ds ≠ [] ∧ (∀ d ∈ ds, isDig d = true) ∧ r.head? ≠ some '.') :
      Lacks "float" a b
  /-- No quote that is closed later. -/
  | string {a b : List Char} (h : ¬ ∃ s r, b = '"' :: (s ++ '"' :: r)) : Lacks "string" a b
  /-- In a colour, no further digit. -/
  | digit {a b : List Char} (h : ∃ a' ds, a = a' ++ '#' :: ds ∧ ∀ d ∈ ds, isHex d = true) (h' : ∀ c ∈ b.head?, isHex c = false) :
      Lacks "['0'..='9' | 'a'..='f' | 'A'..='F']" a b
  /-- A colour has 3 or 6 to 8 digits. -/
  | color {a b : List Char} (h : ∃ a' ds, a = a' ++ '#' :: ds ∧ (∀ d ∈ ds, isHex d = true) ∧ ds.length ≠ 3 ∧ (ds.length < 6 ∨ 8 < ds.length))
      (h' : ∀ c ∈ b.head?, isHex c = false) : Lacks "Invalid hex color" a b
  /-- The text goes on. -/
  | eof {a b : List Char} (h : b ≠ []) : Lacks "EOF" a b
  /-- No `@` directly before a name. -/
  | builtin {a b : List Char} (h : ¬ ∃ x r, IsIdent x ∧ b = '@' :: (x.toList ++ r) ∧ ∀ c ∈ r.head?, isIdChar c = false) : Lacks "builtin" a b

open Cs in
theorem notHead_iff {f : Char → Bool} {r : List Char} : NotHead f r ↔ ∀ c ∈ r.head?, f c = false := by cases r <;> simp [NotHead]

namespace Tr

variable {α β : Type} {W : List Char}

/-- A failure at or after `p`, as it should be. -/
def Ok (W : List Char) (p : Nat) (m : Mark) : Prop := ∃ a b, W = a ++ b ∧ m.pos = bytes a ∧ p ≤ m.pos ∧ Lacks m.tok a b

/-- `x` goes forward, and its failures are as they should be. -/
def Fine (W : List Char) (x : T α) : Prop := ∀ i, At W i → (∀ a j, (x i).1 = .ok a j → Later i j) ∧ ∀ m ∈ (x i).2, Ok W i.pos m

theorem later_pos {i j : Inp} (h : Later i j) : i.pos ≤ j.pos := by obtain ⟨m, _, h⟩ := h; omega

theorem Ok.mono {p q : Nat} {m : Mark} (h : Ok W q m) (hp : p ≤ q) : Ok W p m := by
  obtain ⟨a, b, h1, h2, h3, h4⟩ := h
  exact ⟨a, b, h1, h2, by omega, h4⟩

theorem Ok.here {i : Inp} (hi : At W i) {t : String} (h : ∀ a, Lacks t a i.rest) : Ok W i.pos ⟨i.pos, t⟩ := by
  obtain ⟨a, h1, h2⟩ := hi
  exact ⟨a, i.rest, h1, h2, Nat.le_refl _, h a⟩

namespace Fine

theorem pure (a : α) : Fine W (Pure.pure a : T α) := fun i _ => ⟨fun b j h => by cases h; exact .refl i, nofun⟩

theorem fail : Fine W (Tr.fail : T α) := fun _ _ => ⟨nofun, nofun⟩

theorem bind {x : T α} {f : α → T β} (h : Fine W x) (hf : ∀ a, Fine W (f a)) : Fine W (x >>= f) := by
  intro i hi
  show (∀ a j, (T.bind x f i).1 = .ok a j → Later i j) ∧ ∀ m ∈ (T.bind x f i).2, Ok W i.pos m
  unfold T.bind
  have h1 := h i hi
  rcases hx : x i with ⟨r, m⟩
  rw [hx] at h1
  cases r with
  | ok a j =>
    have hl := h1.1 a j rfl
    have h2 := hf a j (hl.at hi)
    refine ⟨fun b k hb => hl.trans (h2.1 b k hb), fun m' hm => ?_⟩
    rcases List.mem_append.1 hm with hm | hm
    · exact h1.2 _ hm
    · exact (h2.2 _ hm).mono (later_pos hl)
  | fail => exact ⟨nofun, h1.2⟩
  | oof => exact ⟨nofun, h1.2⟩

theorem orElse {x y : T α} (h : Fine W x) (h' : Fine W y) : Fine W (x <//> y) := by
  intro i hi
  show (∀ a j, (Tr.orElse x y i).1 = .ok a j → Later i j) ∧ ∀ m ∈ (Tr.orElse x y i).2, Ok W i.pos m
  unfold Tr.orElse
  have h1 := h i hi
  have h2 := h' i hi
  rcases hx : x i with ⟨r, m⟩
  rw [hx] at h1
  cases r with
  | ok a j => exact h1
  | fail =>
    refine ⟨h2.1, fun m' hm => ?_⟩
    rcases List.mem_append.1 hm with hm | hm
    · exact h1.2 _ hm
    · exact h2.2 _ hm
  | oof => exact ⟨nofun, h1.2⟩

theorem position : Fine W Tr.position := fun i _ => ⟨fun b j h => by cases h; exact .refl i, nofun⟩

/-- Without notes. -/
theorem quiet {x : T α} {c : Bool} {Q : α → Prop} (h : ∀ n, Good W n c (fg x) Q) : Fine W (Tr.quiet x) := by
  intro i hi
  refine ⟨fun a j e => ?_, nofun⟩
  have := h i.rest.length i hi (Nat.le_refl _)
  have e' : fg x i = .ok a j := e
  rw [e'] at this
  exact this.1

theorem method (s : String) : Fine W (Tr.method s) := by
  intro i hi
  refine ⟨fun a j e => ?_, nofun⟩
  have := Good.chars (n := i.rest.length) s.toList i hi (Nat.le_refl _)
  have e' : Peg.chars s.toList i = .ok a j := e
  rw [e'] at this
  exact this.1

theorem chars_fail : ∀ (cs : List Char) (i : Inp), Peg.chars cs i = .fail → ¬ cs <+: i.rest
  | [], _, h => by cases h
  | c :: cs, ⟨p, r⟩, h => by
    rintro ⟨t, ht⟩
    cases ht
    have : Peg.chars (c :: cs) ⟨p, c :: (cs ++ t)⟩ = Peg.chars cs ⟨p + c.utf8Size, cs ++ t⟩ := by
      show P.bind (Peg.cls (· == c)) _ _ = _
      simp [P.bind, Peg.cls]
    exact chars_fail cs ⟨p + c.utf8Size, cs ++ t⟩ (this ▸ h) ⟨t, rfl⟩

theorem str (s : String) : Fine W (Tr.str s) := by
  intro i hi
  refine ⟨fun a j e => ?_, fun m hm => ?_⟩
  · exact (method (W := W) s i hi).1 a j e
  · have e : (Tr.str s i).2 = match Peg.str s i with | .fail => [⟨i.pos, quoted s⟩] | _ => [] := rfl
    rw [e] at hm
    cases hx : Peg.str s i with
    | fail =>
      rw [hx] at hm
      rw [List.mem_singleton.1 hm]
      exact .here hi fun a => .literal (chars_fail _ _ hx)
    | _ => rw [hx] at hm; cases hm

theorem notP (x : T α) : Fine W (Tr.notP x) := by
  intro i hi
  unfold Tr.notP
  cases (x i).1 with
  | fail => exact ⟨fun a j e => by cases e; exact .refl i, nofun⟩
  | _ => exact ⟨nofun, nofun⟩

theorem opt {x : T α} (h : Fine W x) : Fine W (Tr.opt x) := by
  intro i hi
  unfold Tr.opt
  have h1 := h i hi
  rcases hx : x i with ⟨r, m⟩
  rw [hx] at h1
  cases r with
  | ok a j => exact ⟨fun b k e => by cases e; exact h1.1 a j rfl, h1.2⟩
  | fail => exact ⟨fun b k e => by cases e; exact .refl i, h1.2⟩
  | oof => exact ⟨nofun, h1.2⟩

theorem oof : Fine W (fun _ => (.oof, []) : T α) := fun _ _ => ⟨nofun, nofun⟩

theorem manyN {x : T α} (h : Fine W x) : ∀ n, Fine W (Tr.manyN x n)
  | 0 => oof
  | n + 1 => by
    intro i hi
    have ih := manyN h n
    unfold Tr.manyN
    have h1 := h i hi
    rcases hx : x i with ⟨r, m⟩
    rw [hx] at h1
    cases r with
    | ok a j =>
      have hl := h1.1 a j rfl
      have h2 := (bind ih fun as => pure (a :: as)) j (hl.at hi)
      refine ⟨fun b k hb => hl.trans (h2.1 b k hb), fun m' hm => ?_⟩
      rcases List.mem_append.1 hm with hm | hm
      · exact h1.2 _ hm
      · exact (h2.2 _ hm).mono (later_pos hl)
    | fail => exact ⟨fun b k e => by cases e; exact .refl i, h1.2⟩
    | oof => exact ⟨nofun, h1.2⟩

theorem many {x : T α} (h : Fine W x) : Fine W (Tr.many x) := fun i hi => manyN h _ i hi

theorem many1 {x : T α} (h : Fine W x) : Fine W (Tr.many1 x) := bind h fun _ => bind (many h) fun _ => pure _

theorem sepBy1 {x : T α} {s : T β} (h : Fine W x) (hs : Fine W s) : Fine W (Tr.sepBy1 x s) := bind h fun _ => bind (many (bind hs fun _ => h)) fun _ => pure _

theorem sepBy {x : T α} {s : T β} (h : Fine W x) (hs : Fine W s) : Fine W (Tr.sepBy x s) := orElse (sepBy1 h hs) (pure _)

theorem eof : Fine W Tr.eof := by
  rintro ⟨p, r⟩ hi
  cases r with
  | nil => exact ⟨fun a j e => by cases e; exact .refl _, nofun⟩
  | cons c r =>
    refine ⟨nofun, fun m hm => ?_⟩
    rw [List.mem_singleton.1 hm]
    exact .here hi fun _ => .eof (by simp)

theorem ite {c : Prop} [Decidable c] {x y : T α} (h : Fine W x) (h' : Fine W y) : Fine W (if c then x else y) := by split <;> assumption

/-- `quiet!{ x } / expected!(t)`. -/
theorem named {x : T α} {c : Bool} {Q : α → Prop} {t : String} (h : ∀ n, Good W n c (fg x) Q) (ht : ∀ i, fg x i = .fail → ∀ a, Lacks t a i.rest) :
    Fine W (Tr.quiet x <//> expected t) := by
  intro i hi
  show (∀ a j, (Tr.orElse _ _ i).1 = .ok a j → Later i j) ∧ ∀ m ∈ (Tr.orElse _ _ i).2, Ok W i.pos m
  unfold Tr.orElse Tr.quiet
  have h1 := h i.rest.length i hi (Nat.le_refl _)
  have h2 := ht i
  unfold fg at h1 h2
  cases hx : (x i).1 with
  | ok a j => rw [hx] at h1; exact ⟨fun b k e => by cases e; exact h1.1, nofun⟩
  | fail =>
    refine ⟨nofun, fun m hm => ?_⟩
    rw [List.mem_singleton.1 hm]
    exact .here hi (h2 hx)
  | oof => exact ⟨nofun, nofun⟩

theorem spanned {E : Env} {x : T α} (h : Fine W x) : Fine W (Tr.spanned E x) := bind position fun _ => bind h fun _ => bind position fun _ => pure _
theorem skip : Fine W Tr.skip := quiet (c := false) (Q := fun _ => True) fun n => by
  have := fg_skip
  unfold Tr.skip at this
  rw [fg_quiet] at this
  rw [this]; exact Good.skip
theorem skip1 : Fine W Tr.skip1 := quiet (c := true) (Q := fun _ => True) fun n => by
  have := fg_skip1
  unfold Tr.skip1 at this
  rw [fg_quiet] at this
  rw [this]; exact Good.skip1
theorem ws : Fine W Tr.ws := quiet (c := false) (Q := fun _ => True) fun n => by
  have := fg_ws
  unfold Tr.ws at this
  rw [fg_quiet] at this
  rw [this]; exact Good.ws
theorem kw (s : String) : Fine W (Tr.kw s) := bind (method s) fun _ => notP _
theorem commaSep {x : T α} (h : Fine W x) : Fine W (Tr.commaSep x) :=
  bind skip fun _ => bind (sepBy (bind skip fun _ => bind h fun _ => bind skip fun _ => pure _) (str _)) fun _ => bind (opt (str _)) fun _ => bind skip fun _ => pure _
theorem commaSep1 {x : T α} (h : Fine W x) : Fine W (Tr.commaSep1 x) :=
  bind skip fun _ => bind (sepBy1 (bind skip fun _ => bind h fun _ => bind skip fun _ => pure _) (str _)) fun _ => bind (opt (str _)) fun _ => bind skip fun _ => pure _

open Cs in
theorem takes_isIdent {x : String} {r : List Char} (h : IsIdent x) (hr : NotHead isIdChar r) : Takes Peg.ident (x.toList ++ r) x r := by
  obtain ⟨c, cs, hx, h1, h2, h3⟩ := h
  have hl : x.toList = c :: cs := by rw [hx]; simp
  refine Reads.takes ?_
  unfold Peg.ident
  rw [hl]
  refine Reads.bind (t := [c]) (Reads.cls _ h1) ?_
  have := Reads.bind (t' := []) (Reads.many_cls cs r h2 hr)
    (f := fun cs => if String.ofList (c :: cs) ∈ reserved then Peg.fail else Pure.pure (String.ofList (c :: cs))) (b := x) (by
      rw [← hx, if_neg h3]
      exact Reads.pure x r)
  rwa [List.append_nil] at this

open Cs in
theorem takes_ne {x : P α} {s s' : List Char} {a : α} (h : Takes x s a s') (p : Nat) : x ⟨p, s⟩ ≠ .fail := by
  obtain ⟨_, _, _, h, _⟩ := h p
  rw [h]
  nofun

open Cs in
theorem gives_ne {x : P α} {s : List Char} {Q : α → List Char → Prop} (h : Gives x s Q) (p : Nat) : x ⟨p, s⟩ ≠ .fail := by
  obtain ⟨_, _, _, h, _⟩ := h p
  rw [h]
  nofun

theorem ident_lacks {i : Inp} (h : Peg.ident i = .fail) (a : List Char) : Lacks "identifier" a i.rest := by
  refine .identifier ?_
  rintro ⟨x, r, hx, hb, hr⟩
  obtain ⟨p, s⟩ := i
  cases hb
  exact takes_ne (takes_isIdent hx (notHead_iff.2 hr)) p h

theorem ident : Fine W Tr.ident := by
  have e : fg Tr.ident = Peg.ident := fg_ident
  unfold Tr.ident at e ⊢
  rw [fg_orElse, fg_expected, orElse_fail, fg_quiet] at e
  exact named (c := true) (Q := IsIdent) (fun n => by rw [e]; exact Good.ident) fun i hi a => by rw [e] at hi; exact ident_lacks hi a

open Cs in
theorem many1_digits {ds r : List Char} (hne : ds ≠ []) (hd : ∀ d ∈ ds, isDig d = true) (hr : NotHead isDig r) : Takes (Peg.many1 (Peg.cls isDig)) (ds ++ r) ds r := by
  cases ds with
  | nil => exact absurd rfl hne
  | cons d ds => exact (Reads.many1_cls d ds r hd hr).takes

theorem digit_minus {d : Char} (h : isDig d = true) : d ≠ '-' := by rintro rfl; exact absurd h (by decide)

open Cs in
theorem opt_minus (neg : Bool) {r : List Char} (hr : NotHead (· == '-') r) : ∃ m : Option Unit, Takes (Peg.opt (Peg.str "-")) ((if neg then ['-'] else []) ++ r) m r := by
  cases neg with
  | true => exact ⟨_, Takes.opt_some (Takes.char (c := '-') (by decide) r)⟩
  | false => exact ⟨_, Takes.opt_none (Fails.char (c := '-') (by decide) hr)⟩

theorem split_digits (r : List Char) : ∃ ds r', r = ds ++ r' ∧ (∀ d ∈ ds, isDig d = true) ∧ NotHead isDig r' := by
  induction r with
  | nil => exact ⟨[], [], rfl, nofun, trivial⟩
  | cons c r ih =>
    by_cases h : isDig c = true
    · obtain ⟨ds, r', h1, h2, h3⟩ := ih
      refine ⟨c :: ds, r', by rw [h1]; rfl, fun d hd => ?_, h3⟩
      rcases List.mem_cons.1 hd with rfl | hd
      · exact h
      · exact h2 d hd
    · exact ⟨[], c :: r, rfl, nofun, by simpa [NotHead] using h⟩

open Cs in
theorem int_lacks {w : Nat} {i : Inp} (h : Peg.int w i = .fail) (a : List Char) : Lacks "integer" a i.rest := by
  refine .integer ?_
  rintro ⟨neg, d, r, hb, hd⟩
  obtain ⟨p, s⟩ := i
  cases hb
  obtain ⟨ds, r', rfl, h2, h3⟩ := split_digits r
  obtain ⟨m, hm⟩ := opt_minus neg (r := d :: (ds ++ r')) (by simpa [NotHead] using digit_minus hd)
  have h4 := many1_digits (ds := d :: ds) (r := r') (by simp) (fun e he => by
    rcases List.mem_cons.1 he with rfl | he
    · exact hd
    · exact h2 e he) h3
  have key : Gives (do let m ← Peg.opt (Peg.str "-"); let ds ← Peg.many1 (Peg.cls isDig); Pure.pure (intOf w m.isSome 10 ds) : P (BitVec w))
      ((if neg then ['-'] else []) ++ d :: (ds ++ r')) fun _ _ => True := hm.bind (Takes.bind h4 (Gives.pure trivial))
  have := gives_ne key p
  unfold Peg.int at h
  have f1 : ∀ {x y : P (BitVec w)} {i : Inp}, (x </> y) i = .fail → y i = .fail := by
    intro x y i h
    unfold Peg.orElse at h
    cases hx : x i with
    | ok a j => rw [hx] at h; cases h
    | oof => rw [hx] at h; cases h
    | fail => rw [hx] at h; exact h
  exact this (f1 (f1 (f1 h)))

/-- At most one note: when failing, `t`. -/
def Names (t : String) (x : T α) : Prop := ∀ i, (x i).2 = [] ∨ (x i).1 = .fail ∧ (x i).2 = [⟨i.pos, t⟩]

theorem Names.expected (t : String) : Names t (Tr.expected t : T α) := fun _ => .inr ⟨rfl, rfl⟩

theorem Names.or {t : String} {y : T α} (x : T α) (h : Names t y) : Names t (Tr.quiet x <//> y) := by
  intro i
  show (Tr.orElse _ _ i).2 = [] ∨ (Tr.orElse _ _ i).1 = .fail ∧ (Tr.orElse _ _ i).2 = _
  unfold Tr.orElse Tr.quiet
  cases (x i).1 with
  | fail => exact h i
  | _ => exact .inl rfl

theorem names {x : T α} {c : Bool} {Q : α → Prop} {t : String} (hx : Names t x) (h : ∀ n, Good W n c (fg x) Q) (ht : ∀ i, fg x i = .fail → ∀ a, Lacks t a i.rest) : Fine W x := by
  intro i hi
  have h1 := h i.rest.length i hi (Nat.le_refl _)
  refine ⟨fun a j e => ?_, fun m hm => ?_⟩
  · have e' : fg x i = .ok a j := e
    rw [e'] at h1
    exact h1.1
  · rcases hx i with h2 | ⟨h2, h3⟩
    · rw [h2] at hm; cases hm
    · rw [h3] at hm
      rw [List.mem_singleton.1 hm]
      exact .here hi (ht i h2)

theorem int (w : Nat) : Fine W (Tr.int w) := by
  refine names (t := "integer") (c := true) (Q := fun _ => True) (.or _ (.or _ (.or _ (.or _ (.expected _))))) (fun n => ?_) (fun i hi => ?_)
  · rw [fg_int]; exact Good.int w
  · rw [fg_int] at hi; exact int_lacks hi

open Cs in
theorem float_lacks {E : Env} {i : Inp} (h : Peg.float E i = .fail) (a : List Char) : Lacks "float" a i.rest := by
  refine .float ?_
  rintro ⟨neg, ds, r, hb, hne, hd, hr⟩
  obtain ⟨p, s⟩ := i
  cases hb
  have hm' : NotHead (· == '-') (ds ++ '.' :: r) := by
    cases ds with
    | nil => exact absurd rfl hne
    | cons d ds => simpa [NotHead] using digit_minus (hd d (by simp))
  obtain ⟨m, hm⟩ := opt_minus neg hm'
  obtain ⟨fs, r', rfl, h2, h3⟩ := split_digits r
  have key : Gives (Peg.float E) ((if neg then ['-'] else []) ++ (ds ++ '.' :: (fs ++ r'))) fun _ _ => True := by
    unfold Peg.float
    refine hm.bind (Takes.bind (many1_digits hne hd (show isDig '.' = false by decide)) (Takes.bind (Takes.char (c := '.') (by decide) _) ?_))
    refine Takes.bind (s' := fs ++ r') (a := ()) ?_ (Takes.bind (Reads.many_cls fs r' h2 h3).takes (Gives.pure trivial))
    have := Reads.notP (x := Peg.str ".") (r := fs ++ r') (Fails.char (c := '.') (by decide) (by
      rw [notHead_iff]
      intro c hc
      simp only [beq_eq_false_iff_ne]
      rintro rfl
      exact hr hc))
    exact this.takes
  exact gives_ne key p h

theorem float (E : Env) : Fine W (Tr.float E) := by
  have e : fg (Tr.float E) = Peg.float E := fg_float E
  unfold Tr.float at e ⊢
  rw [fg_orElse, fg_expected, orElse_fail, fg_quiet] at e
  exact named (c := true) (Q := fun _ => True) (fun n => by rw [e]; exact Good.float E) fun i hi a => by rw [e] at hi; exact float_lacks hi a

open Cs in
theorem string_lacks {i : Inp} (h : Peg.string i = .fail) (a : List Char) : Lacks "string" a i.rest := by
  refine .string ?_
  rintro ⟨s, r, hb⟩
  obtain ⟨p, t⟩ := i
  cases hb
  have : ∀ s : List Char, ∃ s' r', s ++ '"' :: r = s' ++ '"' :: r' ∧ s'.all (· != '"') = true := by
    intro s
    induction s with
    | nil => exact ⟨[], r, rfl, rfl⟩
    | cons c s ih =>
      obtain ⟨s', r', h1, h2⟩ := ih
      by_cases hc : c = '"'
      · exact ⟨[], s ++ '"' :: r, by rw [hc]; rfl, rfl⟩
      · exact ⟨c :: s', r', by rw [List.cons_append, h1]; rfl, by simp [hc, h2]⟩
  obtain ⟨s', r', h1, h2⟩ := this s
  rw [h1] at h
  exact takes_ne (takes_string h2 r') p h

theorem string : Fine W Tr.string := by
  have e : fg Tr.string = Peg.string := fg_string
  unfold Tr.string at e ⊢
  rw [fg_orElse, fg_expected, orElse_fail, fg_quiet] at e
  exact named (c := true) (Q := fun _ => True) (fun n => by rw [e]; exact Good.string) fun i hi a => by rw [e] at hi; exact string_lacks hi a

/-- Reading characters of a class. -/
theorem manyN_cls (f : Char → Bool) (t : String) : ∀ (r : List Char) (n p : Nat), r.length < n →
    Tr.manyN (Tr.cls f t) n ⟨p, r⟩ = (.ok (r.takeWhile f) ⟨p + bytes (r.takeWhile f), r.dropWhile f⟩, [⟨p + bytes (r.takeWhile f), t⟩])
  | [], n + 1, p, _ => rfl
  | c :: r, n + 1, p, h => by
    unfold Tr.manyN
    by_cases hc : f c = true
    · have ih := manyN_cls f t r n (p + c.utf8Size) (by simpa using h)
      have e : Tr.cls f t ⟨p, c :: r⟩ = (.ok c ⟨p + c.utf8Size, r⟩, []) := by simp [Tr.cls, Peg.cls, hc]
      rw [e]
      have e2 : (do let as ← Tr.manyN (Tr.cls f t) n; Pure.pure (c :: as) : T (List Char)) ⟨p + c.utf8Size, r⟩ =
          (.ok (c :: r.takeWhile f) ⟨p + c.utf8Size + bytes (r.takeWhile f), r.dropWhile f⟩, [⟨p + c.utf8Size + bytes (r.takeWhile f), t⟩]) := by
        show T.bind _ _ _ = _
        unfold T.bind
        rw [ih]
        rfl
      simp only [e2, List.takeWhile_cons, List.dropWhile_cons, hc, if_true, bytes, List.map_cons, List.sum_cons, List.nil_append, Nat.add_assoc]
    · have e : Tr.cls f t ⟨p, c :: r⟩ = (.fail, [⟨p, t⟩]) := by simp [Tr.cls, Peg.cls, hc]
      rw [e]
      simp [hc, bytes]

theorem takeWhile_all (f : Char → Bool) (r : List Char) : ∀ d ∈ r.takeWhile f, f d = true := by
  induction r with
  | nil => nofun
  | cons c r ih =>
    by_cases hc : f c = true
    · simp only [List.takeWhile_cons, hc, if_true]
      intro d hd
      rcases List.mem_cons.1 hd with rfl | hd
      · exact hc
      · exact ih d hd
    · simp [hc]

theorem dropWhile_head (f : Char → Bool) (r : List Char) : ∀ c ∈ (r.dropWhile f).head?, f c = false := by
  induction r with
  | nil => nofun
  | cons c r ih =>
    by_cases hc : f c = true
    · simpa only [List.dropWhile_cons, hc, if_true] using ih
    · simp only [List.dropWhile_cons, hc, if_false]
      intro d hd
      cases hd
      simpa using hc

theorem many1_cls (f : Char → Bool) (t : String) {c : Char} (hc : f c = true) (r : List Char) (p : Nat) : Tr.many1 (Tr.cls f t) ⟨p, c :: r⟩ =
    (.ok (c :: r.takeWhile f) ⟨p + bytes (c :: r.takeWhile f), r.dropWhile f⟩, [⟨p + bytes (c :: r.takeWhile f), t⟩]) := by
  show T.bind (Tr.cls f t) (fun a => T.bind (Tr.many (Tr.cls f t)) fun as => Pure.pure (a :: as)) _ = _
  have e : Tr.cls f t ⟨p, c :: r⟩ = (.ok c ⟨p + c.utf8Size, r⟩, []) := by simp [Tr.cls, Peg.cls, hc]
  have e2 : Tr.many (Tr.cls f t) ⟨p + c.utf8Size, r⟩ = _ := manyN_cls f t r (r.length + 1) (p + c.utf8Size) (by omega)
  simp only [T.bind, e, e2]
  simp only [bytes, List.map_cons, List.sum_cons, Nat.add_assoc]
  rfl

/-- How the class of hexadecimal digits is named. -/
def hexDigits : String := "['0'..='9' | 'a'..='f' | 'A'..='F']"

/-- The end of `hex`. -/
def hexEnd (s : List Char) : T Literal := match hexToRgba s with
  | some (r, g, b, a) => Pure.pure (.color r g b a)
  | none => expected "Invalid hex color"

theorem hex : Fine W Tr.hex := by
  intro i hi
  refine ⟨fun a j e => ?_, fun m hm => ?_⟩
  · have := Good.hex (T := W) (n := i.rest.length) i hi (Nat.le_refl _)
    have e' : Peg.hex i = .ok a j := by rw [← fg_hex]; exact e
    rw [e'] at this
    exact this.1
  · obtain ⟨p, r⟩ := i
    rw [show Tr.hex = (Tr.str "#" >>= fun _ => Tr.many1 (Tr.cls isHex hexDigits) >>= hexEnd) from rfl] at hm
    have hm' : m ∈ (T.bind (Tr.str "#") (fun _ => Tr.many1 (Tr.cls isHex hexDigits) >>= hexEnd) ⟨p, r⟩).2 := hm
    clear hm
    unfold T.bind at hm'
    by_cases hr : ∃ r', r = '#' :: r'
    · obtain ⟨r', rfl⟩ := hr
      have e : Tr.str "#" ⟨p, '#' :: r'⟩ = (.ok () ⟨p + 1, r'⟩, []) := rfl
      rw [e] at hm'
      simp only [List.nil_append] at hm'
      obtain ⟨a, ha, hp⟩ := hi
      have hp : p = bytes a := hp
      have none : ∀ r' : List Char, (∀ c ∈ r'.head?, isHex c = false) → W = a ++ '#' :: r' → Ok W p ⟨p + 1, hexDigits⟩ := fun r' hr ha =>
        ⟨a ++ ['#'], r', by rw [ha]; simp, by show p + 1 = _; rw [bytes_append, hp]; rfl, by show p ≤ p + 1; omega, .digit ⟨a, [], rfl, nofun⟩ hr⟩
      by_cases hc : ∃ c r'', r' = c :: r'' ∧ isHex c = true
      · obtain ⟨c, r'', rfl, hc⟩ := hc
        have e1 : (Tr.many1 (Tr.cls isHex hexDigits) >>= hexEnd : T Literal) ⟨p + 1, c :: r''⟩ =
            ((hexEnd (c :: r''.takeWhile isHex) ⟨p + 1 + bytes (c :: r''.takeWhile isHex), r''.dropWhile isHex⟩).1,
              ⟨p + 1 + bytes (c :: r''.takeWhile isHex), hexDigits⟩ :: (hexEnd (c :: r''.takeWhile isHex) ⟨p + 1 + bytes (c :: r''.takeWhile isHex), r''.dropWhile isHex⟩).2) := by
          show T.bind _ _ _ = _
          unfold T.bind
          rw [many1_cls isHex hexDigits hc]
          rfl
        rw [e1] at hm'
        have hall : ∀ d ∈ c :: r''.takeWhile isHex, isHex d = true := fun d hd => by
          rcases List.mem_cons.1 hd with rfl | hd
          · exact hc
          · exact takeWhile_all _ _ d hd
        have hW : W = (a ++ '#' :: (c :: r''.takeWhile isHex)) ++ r''.dropWhile isHex := by
          rw [ha]; simp [List.takeWhile_append_dropWhile]
        have hb : p + 1 + bytes (c :: r''.takeWhile isHex) = bytes (a ++ '#' :: (c :: r''.takeWhile isHex)) := by
          rw [bytes_append, show p = bytes a from hp, Nat.add_assoc]; rfl
        rcases List.mem_cons.1 hm' with rfl | hm'
        · exact ⟨_, _, hW, hb, by show p ≤ p + 1 + _; omega, .digit ⟨a, _, rfl, hall⟩ (dropWhile_head _ _)⟩
        · unfold hexEnd at hm'
          cases hx : hexToRgba (c :: r''.takeWhile isHex) with
          | some q => rw [hx] at hm'; cases hm'
          | none =>
            rw [hx] at hm'
            rw [List.mem_singleton.1 hm']
            refine ⟨_, _, hW, hb, by show p ≤ p + 1 + _; omega, .color ⟨a, _, rfl, hall, ?_⟩ (dropWhile_head _ _)⟩
            unfold hexToRgba at hx
            split at hx
            · cases hx
            · split at hx
              · rename_i h1 h2; exact ⟨h1, h2⟩
              · cases hx
      · have e1 : (Tr.many1 (Tr.cls isHex hexDigits) >>= hexEnd : T Literal) ⟨p + 1, r'⟩ = (.fail, [⟨p + 1, hexDigits⟩]) := by
          cases r' with
          | nil => rfl
          | cons c r'' =>
            have hc' : isHex c = false := by
              cases h : isHex c with
              | false => rfl
              | true => exact absurd ⟨c, r'', rfl, h⟩ hc
            have e2 : Tr.cls isHex hexDigits ⟨p + 1, c :: r''⟩ = (.fail, [⟨p + 1, hexDigits⟩]) := by simp [Tr.cls, Peg.cls, hc']
            show T.bind (T.bind _ _) _ _ = _
            simp only [T.bind, e2]
        rw [e1] at hm'
        rw [List.mem_singleton.1 hm']
        refine none r' (fun c hc' => ?_) ha
        cases r' with
        | nil => cases hc'
        | cons d r'' =>
          cases hc'
          cases h : isHex c with
          | false => rfl
          | true => exact absurd ⟨c, r'', rfl, h⟩ hc
    · have e : Tr.str "#" ⟨p, r⟩ = (.fail, [⟨p, quoted "#"⟩]) := by
        have : Peg.str "#" ⟨p, r⟩ = .fail := by
          cases r with
          | nil => rfl
          | cons c r =>
            exact Fails.str_cons (s := "#") (c := '#') (cs := []) (by decide) (fun e => hr ⟨r, by rw [e]⟩) p
        simp only [Tr.str, this]
      rw [e] at hm'
      rw [List.mem_singleton.1 hm']
      exact .here hi fun a => .literal fun hp => hr (by
        obtain ⟨t, ht⟩ := hp
        exact ⟨t, ht.symm⟩)

/-- Closes goals about sequences and choices. -/
macro "fine" "[" xs:term,* "]" : tactic => `(tactic| repeat' first
  | with_reducible assumption | with_reducible exact pure _ | with_reducible exact fail | with_reducible exact position | with_reducible exact str _ | with_reducible exact kw _ | with_reducible exact skip | with_reducible exact skip1 | with_reducible exact ws | with_reducible exact ident | with_reducible exact string
  | with_reducible exact hex | with_reducible exact int _ | with_reducible exact float _ $[| with_reducible exact $xs]* | with_reducible refine bind ?_ fun _ => ?_ | with_reducible refine orElse ?_ ?_ | with_reducible refine opt ?_ | with_reducible refine spanned ?_ | with_reducible refine commaSep ?_
  | with_reducible refine commaSep1 ?_ | with_reducible refine sepBy ?_ ?_ | with_reducible refine sepBy1 ?_ ?_ | with_reducible refine many ?_ | with_reducible refine ite ?_ ?_)

theorem rangeLit : Fine W Tr.rangeLit := by unfold Tr.rangeLit; fine []
theorem literalF {E : Env} {x : T Literal} (h : Fine W x) : Fine W (Tr.literalF E x) := by unfold Tr.literalF; fine [rangeLit]
theorem literalN (E : Env) : ∀ n, Fine W (Tr.literalN E n)
  | 0 => oof
  | n + 1 => literalF (literalN E n)
theorem literal (E : Env) : Fine W (Tr.literal E) := fun i hi => literalN E _ i hi
theorem opP : Fine W Tr.opP := by unfold Tr.opP; fine []
theorem block {E : Env} {x : T Node} (h : Fine W x) (b : Bool) : Fine W (Tr.block E x b) := by unfold Tr.block; fine []
theorem ifCondition {E : Env} {x : T Node} (h : Fine W x) : ∀ k, Fine W (Tr.ifCondition E x k)
  | 0 => oof
  | k + 1 => by
    have ih := ifCondition (E := E) h k
    unfold Tr.ifCondition; fine [block h _]
theorem case_ {E : Env} {x : T Node} (h : Fine W x) : Fine W (Tr.case_ E x) := by unfold Tr.case_; fine [block h _]
theorem defaultCase {E : Env} {x : T Node} (h : Fine W x) : Fine W (Tr.defaultCase E x) := by unfold Tr.defaultCase; fine [block h _]
theorem switchCase {E : Env} {x : T Node} (h : Fine W x) : Fine W (Tr.switchCase E x) := by unfold Tr.switchCase; fine [case_ h, defaultCase h]

theorem fails_or {x y : P α} {i : Inp} (h : (x </> y) i = .fail) : x i = .fail ∧ y i = .fail := by
  unfold Peg.orElse at h
  cases hx : x i with
  | ok a j => rw [hx] at h; cases h
  | oof => rw [hx] at h; cases h
  | fail => rw [hx] at h; exact ⟨rfl, h⟩

open Cs in
theorem builtin (E : Env) : Fine W ((do Tr.str "@"; Tr.skip; Tr.spanned E Tr.ident) <//> expected "builtin") := by
  have h1 : Fine W (do Tr.str "@"; Tr.skip; Tr.spanned E Tr.ident) := by fine []
  intro i hi
  have h2 := h1 i hi
  show (∀ a j, (Tr.orElse _ _ i).1 = .ok a j → Later i j) ∧ ∀ m ∈ (Tr.orElse _ _ i).2, Ok W i.pos m
  unfold Tr.orElse
  have e : fg (do Tr.str "@"; Tr.skip; Tr.spanned E Tr.ident) = (do Peg.str "@"; Peg.skip; Peg.spanned E Peg.ident) := by
    simp only [fg_bind, fg_str, fg_skip, fg_spanned, fg_ident]
  have e1 := congrFun e i
  unfold fg at e1
  rcases hx : (do Tr.str "@"; Tr.skip; Tr.spanned E Tr.ident : T _) i with ⟨r, ms⟩
  rw [hx] at h2 e1
  cases r with
  | ok a j => exact h2
  | oof => exact ⟨nofun, h2.2⟩
  | fail =>
    refine ⟨nofun, fun m hm => ?_⟩
    rcases List.mem_append.1 hm with hm | hm
    · exact h2.2 _ hm
    · rw [List.mem_singleton.1 hm]
      refine .here hi fun a => .builtin ?_
      clear hx
      rintro ⟨x, r, hx, hb, hr⟩
      obtain ⟨p, s⟩ := i
      simp only at hb
      subst hb
      have hns : NoSkip (x.toList ++ r) := by
        obtain ⟨c, cs, hx, h1, h2, h3⟩ := hx
        have : x.toList ++ r = c :: (cs ++ r) := by rw [hx]; simp
        rw [this]
        refine noSkip_cons ?_
        cases h : isSkip c with
        | false => rfl
        | true =>
          simp only [isSkip, isSimpleWhitespace, Bool.or_eq_true, beq_iff_eq] at h
          exfalso
          revert h1
          have : c = ' ' ∨ c = '\t' ∨ c = '\u000B' ∨ c = '\u000C' ∨ c = '\u00A0' ∨ c = '\\' ∨ c = '\n' ∨ c = '\r' ∨ c = ';' ∨ c = '/' := by
            grind
          rcases this with rfl | rfl | rfl | rfl | rfl | rfl | rfl | rfl | rfl | rfl <;> decide
      have : Gives (do Peg.str "@"; Peg.skip; Peg.spanned E Peg.ident : P _) ('@' :: (x.toList ++ r)) fun _ _ => True :=
        (Takes.char (c := '@') (by decide) _).bind ((takes_skip_nil hns).bind ((Gives.spanned (takes_isIdent hx (notHead_iff.2 hr))).imp fun _ _ _ => trivial))
      exact gives_ne this p e1.symm

theorem prefixes {E : Env} {d : Nat} {rec : Nat → T Node} (h : ∀ n, Fine W (rec n)) : ∀ x ∈ Tr.prefixes E d rec, Fine W x := by
  have h0 := h 0
  have h3 := h 3
  have h17 := h 17
  unfold Tr.prefixes
  simp only [List.forall_mem_cons]
  refine ⟨?_, ?_, ?_, ?_, ?_, ?_, ?_, ?_, ?_, ?_, ?_, ?_, ?_, ?_, ?_, ?_, ?_, ?_, ?_, ?_, ?_, ?_, ?_, ?_, ?_, nofun⟩ <;>
    fine [rangeLit, literal E, opP, block h0 _, ifCondition h0 _, switchCase h0, builtin E]

theorem firstOf : ∀ {xs : List (T (Span → Node))}, (∀ x ∈ xs, Fine W x) → Fine W (Tr.firstOf xs)
  | [], _ => fail
  | _ :: _, h => orElse (h _ List.mem_cons_self) (firstOf fun _ hx => h _ (List.mem_cons_of_mem _ hx))

theorem postfixes {rec : Nat → T Node} (h : ∀ n, Fine W (rec n)) (min : Nat) (l : Node) : ∀ x ∈ Tr.postfixes rec min l, Fine W x := by
  intro x hx
  have h0 := h 0
  unfold Tr.postfixes at hx
  rcases List.mem_append.1 hx with hx | hx
  · obtain ⟨op, _, rfl⟩ := List.mem_map.1 hx
    have h1 := h (op.1 + 1)
    unfold Tr.infix_
    fine []
  · simp only [List.mem_cons, List.not_mem_nil, or_false] at hx
    rcases hx with rfl | rfl <;> fine []

theorem climb {E : Env} {rec : Nat → T Node} (h : ∀ n, Fine W (rec n)) (min s : Nat) : ∀ n l, Fine W (Tr.climb E rec min s n l)
  | 0, _ => oof
  | n + 1, l => by
    intro i hi
    have h1 : Fine W (do let f ← Tr.firstOf (Tr.postfixes rec min l); let e ← Tr.position; Pure.pure (f ⟨s, e, E.src⟩) : T Node) := by
      fine [firstOf (postfixes h min l)]
    replace h1 := h1 i hi
    unfold Tr.climb
    rcases hx : (do let f ← Tr.firstOf (Tr.postfixes rec min l); let e ← Tr.position; Pure.pure (f ⟨s, e, E.src⟩) : T Node) i with ⟨r, ms⟩
    rw [hx] at h1
    cases r with
    | ok l' j =>
      have hl := h1.1 l' j rfl
      have h2 := climb (E := E) h min s n l' j (hl.at hi)
      refine ⟨fun b k hb => hl.trans (h2.1 b k hb), fun m' hm => ?_⟩
      rcases List.mem_append.1 hm with hm | hm
      · exact h1.2 _ hm
      · exact (h2.2 _ hm).mono (later_pos hl)
    | fail => exact ⟨fun b k e => by cases e; exact .refl i, h1.2⟩
    | oof => exact ⟨nofun, h1.2⟩

theorem nodeF {E : Env} {d : Nat} {rec : Nat → T Node} (h : ∀ n, Fine W (rec n)) (min : Nat) : Fine W (Tr.nodeF E d rec min) := by
  have hc : ∀ s l, Fine W (Tr.climbAll E rec min s l) := fun s l i hi => climb h min s _ l i hi
  unfold Tr.nodeF
  fine [firstOf (prefixes h), hc _ _]

theorem nodeN (E : Env) : ∀ k n, Fine W (Tr.nodeN E k n)
  | 0, _ => oof
  | k + 1, n => nodeF (nodeN E k) n

theorem node (E : Env) : Fine W (Tr.node E) := fun i hi => nodeN E _ 0 i hi

theorem code (E : Env) : Fine W (Tr.code E) := by unfold Tr.code; fine [node E]

theorem all (E : Env) : Fine W (Tr.all E) := bind (code E) fun _ => bind eof fun _ => pure _

theorem allLiteral (E : Env) : Fine W (Tr.allLiteral E) := bind (literal E) fun _ => bind eof fun _ => pure _

end Fine
end Tr
end Quilt.Peg
