import Verif.Parser.Literals

/-!
# Printed literals read back
-/

namespace Quilt

namespace Val
variable {C : Type}

mutual
/-- The literal denoting a value made of `none`, booleans, integers, ranges, colours, pairs, arrays and the floats that have a
literal. -/
def litF (fl : BitVec 64 → Option Literal) : Val C → Option Literal
  | .none => some .none
  | .bool b => some (.bool b)
  | .int i => some (.int i)
  | .range l r => some (.range l r)
  | .color r g b a => some (.color r g b a)
  | .float x => fl x
  | .pair a b => match litF fl a, litF fl b with
    | some x, some y => some (.pair x y)
    | _, _ => Option.none
  | .arr xs _ _ => match litL fl xs with
    | some ls => some (.arr ls)
    | Option.none => Option.none
  | _ => Option.none
termination_by structural v => v
def litL (fl : BitVec 64 → Option Literal) : List (Val C) → Option (List Literal)
  | [] => some []
  | v :: vs => match litF fl v, litL fl vs with
    | some l, some ls => some (l :: ls)
    | _, _ => Option.none
termination_by structural v => v
end

/-- The literal denoting a value made of `none`, booleans, integers, ranges, colours, pairs and arrays. -/
abbrev lit? : Val C → Option Literal := litF fun _ => Option.none

end Val

namespace Peg

theorem Reads.kw {s : String} {t r : List Char} (h : s.toList = t) (hr : NotHead isIdChar r) : Reads (kw s) t r () := by
  unfold Peg.kw
  rw [← List.append_nil t]
  exact Reads.bind (Reads.str s _ h) (Reads.notP (Fails.cls hr))

theorem Fails.kw {s : String} {c : Char} {cs t : List Char} (hs : s.toList = c :: cs) (h : NotHead (· == c) t) : Fails (kw s) t := by
  unfold Peg.kw
  exact Fails.bind (Fails.str hs h)

/-- What follows a literal inside another one: nothing, `,`, `)` or `]`. -/
def Stops (r : List Char) : Prop := NotHead (fun c => !(c == ',' || c == ')' || c == ']')) r

theorem Stops.not {f : Char → Bool} {r : List Char} (h : Stops r) (h1 : f ',' = false) (h2 : f ')' = false) (h3 : f ']' = false) : NotHead f r := by
  refine NotHead.imp ?_ h
  intro c hc
  cases h4 : (c == ',' || c == ')' || c == ']') with
  | false => rfl
  | true =>
    simp only [Bool.or_eq_true, beq_iff_eq] at h4
    rcases h4 with (rfl | rfl) | rfl <;> simp_all

/-- First characters of numbers. -/
def isNum (c : Char) : Bool := isDig c || c == '-'

theorem Fails.many1_cls {f : Char → Bool} {t : List Char} (h : NotHead f t) : Fails (many1 (Peg.cls f)) t := Fails.bind (Fails.cls h)

theorem Fails.int {w : Nat} {t : List Char} (h : NotHead isNum t) : Fails (Peg.int w) t := by
  have h0 : NotHead (· == '0') t := h.imp (by intro c hc; rw [beq_iff_eq] at hc; subst hc; decide)
  unfold Peg.int
  refine Fails.or (Fails.bind (Fails.str (c := '0') (cs := ['b']) (by decide) h0)) <| Fails.or (Fails.bind (Fails.str (c := '0') (cs := ['x']) (by decide) h0)) <|
    Fails.or (Fails.bind (Fails.str (c := '0') (cs := ['o']) (by decide) h0)) ?_
  rw [← List.nil_append t]
  refine Fails.later (Reads.opt_none (Fails.str (c := '-') (cs := []) (by decide) (h.imp (by simp [isNum])))) (Fails.bind (Fails.many1_cls (h.imp (by simp +contextual [isNum]))))

theorem Fails.float {E : Env} {t : List Char} (h : NotHead isNum t) : Fails (Peg.float E) t := by
  unfold Peg.float
  rw [← List.nil_append t]
  refine Fails.later (Reads.opt_none (Fails.str (c := '-') (cs := []) (by decide) (h.imp (by simp [isNum])))) (Fails.bind (Fails.many1_cls (h.imp (by simp +contextual [isNum]))))

theorem Fails.range {t : List Char} (h : NotHead isNum t) : Fails rangeLit t := Fails.bind (Fails.int h)

theorem showInt_head (n : Int) : ∃ c cs, showInt n = c :: cs ∧ isNum c = true := by
  obtain ⟨_, _, c, cs, h1, h2, _⟩ := showNat_spec n.natAbs
  unfold showInt
  split
  · exact ⟨'-', _, rfl, by decide⟩
  · exact ⟨c, cs, h1, by simp [isNum, h2]⟩

/-- An integer not followed by a point is no float. -/
theorem Fails.float_int {E : Env} {n : Int} {r : List Char} (h1 : NotHead isDig r) (h2 : NotHead (· == '.') r) : Fails (Peg.float E) (showInt n ++ r) := by
  obtain ⟨d1, _, c, cs, d3, d4, _⟩ := showNat_spec n.natAbs
  have hm : Reads (many1 (Peg.cls isDig)) (showNat n.natAbs) r (showNat n.natAbs) := by
    rw [d3]; exact Reads.many1_cls c cs r (by rw [← d3]; exact d1) h1
  have hp : ∀ (f : Unit → P (BitVec 64)), Fails (Peg.str "." >>= f) r := fun f => Fails.bind (Fails.str (c := '.') (cs := []) (by decide) h2)
  unfold Peg.float showInt
  split
  · exact Fails.later (t := ['-']) (Reads.opt_some (Reads.str "-" _ (by decide))) (Fails.later hm (hp _))
  · rw [← List.nil_append (showNat n.natAbs ++ r)]
    refine Fails.later (Reads.opt_none (Fails.str (c := '-') (cs := []) (by decide) ?_)) (Fails.later hm (hp _))
    rw [d3]
    show (c == '-') = false
    cases h : c == '-' with
    | false => rfl
    | true => rw [eq_of_beq h] at d4; revert d4; decide

/-- The first character decides: words, `#`, numbers, strings, `(`, `[`. -/
theorem Fails.word {s : String} {c : Char} {cs t : List Char} {α : Type} {a : α} (hs : s.toList = c :: cs) (h : NotHead (· == c) t) :
    Fails (do Peg.kw s; pure a : P α) t := Fails.bind (Fails.kw hs h)

theorem Fails.hexP {t : List Char} (h : NotHead (· == '#') t) : Fails Peg.hex t := Fails.bind (Fails.str (c := '#') (cs := []) (by decide) h)
theorem Fails.string {t : List Char} (h : NotHead (· == '"') t) : Fails Peg.string t := Fails.bind (Fails.str (c := '"') (cs := []) (by decide) h)

/-- Values of digits. -/
theorem radixChar_hex {d : Nat} (h : d < 16) : isHex (radixChar d) = true ∧ digitVal (radixChar d) = d := by
  revert d; decide

theorem hexText_hex (b : BitVec 8) : ∀ c ∈ hexText b, isHex c = true := by
  intro c hc
  simp only [hexText, List.mem_cons, List.not_mem_nil, or_false] at hc
  have := b.isLt
  rcases hc with rfl | rfl
  · exact (radixChar_hex (by omega)).1
  · exact (radixChar_hex (by omega)).1

theorem hexText_val (b : BitVec 8) : hexByte (hexText b) = b := by
  have := b.isLt
  unfold hexByte hexText digitsVal
  simp only [List.foldl_cons, List.foldl_nil]
  rw [(radixChar_hex (d := b.toNat / 16) (by omega)).2, (radixChar_hex (d := b.toNat % 16) (by omega)).2]
  rw [show (0 * 16 + b.toNat / 16) * 16 + b.toNat % 16 = b.toNat by omega]
  simp

/-- The eight digits of a colour. -/
theorem hexToRgba_text (r g b a : BitVec 8) : hexToRgba (hexText r ++ hexText g ++ hexText b ++ hexText a) = some (r, g, b, a) := by
  have e : ∀ b : BitVec 8, ∃ x y, hexText b = [x, y] := fun b => ⟨_, _, rfl⟩
  obtain ⟨r1, r2, hr⟩ := e r
  obtain ⟨g1, g2, hg⟩ := e g
  obtain ⟨b1, b2, hb⟩ := e b
  obtain ⟨a1, a2, ha⟩ := e a
  have := hexText_val r
  have := hexText_val g
  have := hexText_val b
  have := hexText_val a
  simp_all [hexToRgba]

theorem Reads.hex {ds r : List Char} {R G B A : BitVec 8} (h : ∀ d ∈ ds, isHex d = true) (hr : NotHead isHex r) (hc : hexToRgba ds = some (R, G, B, A)) :
    Reads Peg.hex ('#' :: ds) r (.color R G B A) := by
  have hd : Reads (many1 (Peg.cls isHex)) ds r ds := by
    cases ds with
    | nil => simp [hexToRgba] at hc
    | cons d ds => exact Reads.many1_cls d ds r h hr
  refine Reads.bind (t := ['#']) (Reads.str "#" _ (by decide)) ?_
  rw [← List.append_nil ds]
  refine Reads.bind hd ?_
  rw [hc]
  exact Reads.pure _ _

theorem Fails.hex {ds r : List Char} (h : ∀ d ∈ ds, isHex d = true) (hr : NotHead isHex r) (hc : hexToRgba ds = none) : Fails Peg.hex ('#' :: ds ++ r) := by
  refine Fails.later (t := ['#']) (Reads.str "#" _ (by decide)) ?_
  cases ds with
  | nil => exact Fails.bind (Fails.many1_cls hr)
  | cons d ds =>
    refine Fails.later (Reads.many1_cls d ds r h hr) ?_
    rw [hc]
    exact fun _ => rfl

/-- `t` is read as the literal `l`, whatever follows. -/
def Readable (E : Env) (t : List Char) (l : Literal) : Prop :=
  (∃ c cs, t = c :: cs ∧ isSkip c = false ∧ (c == ']') = false) ∧ ∀ k, t.length ≤ k → ∀ r, Stops r → Reads (literalN E k) t r l

theorem Readable.skip {E : Env} {t r : List Char} {l : Literal} (h : Readable E t l) : NotHead isSkip (t ++ r) := by
  obtain ⟨⟨c, cs, rfl, hc, _⟩, _⟩ := h
  exact hc

variable {E : Env}

theorem isNum_ne {c x : Char} (h : isNum c = true) (hx : isNum x = false) : (c == x) = false := by
  cases h' : c == x with
  | false => rfl
  | true => rw [eq_of_beq h', hx] at h; cases h

theorem read_word {s : String} {l : Literal} {c : Char} {cs : List Char} (hs : s.toList = c :: cs) (h1 : isSkip c = false) (h2 : (c == ']') = false)
    (h : ∀ k r, Stops r → Reads (literalF E (literalN E k)) (c :: cs) r l) : Readable E s.toList l := by
  rw [hs]
  refine ⟨⟨c, cs, rfl, h1, h2⟩, fun k hk r hr => ?_⟩
  cases k with
  | zero => simp at hk
  | succ k => exact h k r hr

theorem read_none : Readable E "none".toList .none := by
  refine read_word (c := 'n') (cs := ['o', 'n', 'e']) (by decide) (by decide) (by decide) fun k r hr => ?_
  exact .right (Fails.word (c := 't') (cs := ['r', 'u', 'e']) (by decide) (by show _ = _; decide)) <| .right (Fails.word (c := 'f') (cs := ['a', 'l', 's', 'e']) (by decide) (by show _ = _; decide)) <|
    .left (Reads.map (g := fun _ => Literal.none) (Reads.kw (by decide) (hr.not (by decide) (by decide) (by decide))))

theorem read_true : Readable E "true".toList (.bool true) := by
  refine read_word (c := 't') (cs := ['r', 'u', 'e']) (by decide) (by decide) (by decide) fun k r hr => ?_
  exact .left (Reads.map (g := fun _ => Literal.bool true) (Reads.kw (by decide) (hr.not (by decide) (by decide) (by decide))))

theorem read_false : Readable E "false".toList (.bool false) := by
  refine read_word (c := 'f') (cs := ['a', 'l', 's', 'e']) (by decide) (by decide) (by decide) fun k r hr => ?_
  exact .right (Fails.word (c := 't') (cs := ['r', 'u', 'e']) (by decide) (by show _ = _; decide)) <|
    .left (Reads.map (g := fun _ => Literal.bool false) (Reads.kw (by decide) (hr.not (by decide) (by decide) (by decide))))

/-- A text beginning with none of `t`, `f`, `n` is no word. -/
theorem Reads.no_word {lit : P Literal} {t r : List Char} {l : Literal} {y : P Literal} (h1 : NotHead (· == 't') (t ++ r)) (h2 : NotHead (· == 'f') (t ++ r)) (h3 : NotHead (· == 'n') (t ++ r))
    (hy : literalF E lit = ((do Peg.kw "true"; Pure.pure (.bool true)) </> (do Peg.kw "false"; Pure.pure (.bool false)) </> (do Peg.kw "none"; Pure.pure .none) </> y))
    (h : Reads y t r l) : Reads (literalF E lit) t r l := by
  rw [hy]
  exact .right (Fails.word (c := 't') (cs := ['r', 'u', 'e']) (by decide) h1) <| .right (Fails.word (c := 'f') (cs := ['a', 'l', 's', 'e']) (by decide) h2) <|
    .right (Fails.word (c := 'n') (cs := ['o', 'n', 'e']) (by decide) h3) h

theorem read_color (R G B A : BitVec 8) : Readable E ('#' :: (hexText R ++ hexText G ++ hexText B ++ hexText A)) (.color R G B A) := by
  refine ⟨⟨_, _, rfl, by decide, by decide⟩, fun k hk r hr => ?_⟩
  cases k with
  | zero => simp at hk
  | succ k =>
    refine Reads.no_word (by show _ = _; decide) (by show _ = _; decide) (by show _ = _; decide) rfl (.left (Reads.hex ?_ (hr.not (by decide) (by decide) (by decide)) (hexToRgba_text R G B A)))
    intro d hd
    simp only [List.mem_append] at hd
    rcases hd with ((hd | hd) | hd) | hd <;> exact hexText_hex _ d hd

theorem isNum_skip {c : Char} (h : isNum c = true) : isSkip c = false := by
  simp only [isSkip, isSimpleWhitespace, Bool.or_eq_false_iff]
  refine ⟨⟨⟨⟨⟨⟨⟨⟨⟨⟨⟨?_, ?_⟩, ?_⟩, ?_⟩, ?_⟩, ?_⟩, ?_⟩, ?_⟩, ?_⟩, ?_⟩, ?_⟩, ?_⟩ <;> exact isNum_ne h (by decide)

theorem read_int (i : BitVec 64) : Readable E (showInt i.toInt) (.int i) := by
  obtain ⟨c, cs, hc, hn⟩ := showInt_head i.toInt
  refine ⟨⟨c, cs, hc, isNum_skip hn, isNum_ne hn (by decide)⟩, fun k hk r hr => ?_⟩
  cases k with
  | zero => rw [hc] at hk; simp at hk
  | succ k =>
    have hne : ∀ x, isNum x = false → NotHead (· == x) (showInt i.toInt ++ r) := fun x hx => by rw [hc]; exact isNum_ne hn hx
    have h64 := BitVec.le_toInt i
    have h64' := BitVec.toInt_lt (x := i)
    refine Reads.no_word (hne _ (by decide)) (hne _ (by decide)) (hne _ (by decide)) rfl (.right (Fails.hexP (hne _ (by decide))) <|
      .right (Fails.bind (Fails.float_int (hr.not (by decide) (by decide) (by decide)) (hr.not (by decide) (by decide) (by decide)))) <| .right ?_ <| .left ?_)
    · -- not a range: no colon
      have hi : ∃ v, Reads (Peg.int 32) (showInt i.toInt) r v := by
        obtain ⟨v, hv⟩ := Reads.int_some 32 i.toInt (r := r) (hr.not (by decide) (by decide) (by decide))
        exact ⟨v, hv⟩
      obtain ⟨v, hv⟩ := hi
      exact Fails.later hv (Fails.later (t := []) (Reads.skip (hr.not (by decide) (by decide) (by decide)))
        (Fails.bind (Fails.str (c := ':') (cs := []) (by decide) (hr.not (by decide) (by decide) (by decide)))))
    · have := Reads.map (g := Literal.int) (Reads.int (w := 64) (n := i.toInt) (r := r) h64 h64' (hr.not (by decide) (by decide) (by decide)))
      rwa [BitVec.ofInt_toInt] at this

theorem read_range (a b : BitVec 32) : Readable E (showInt a.toInt ++ ':' :: showInt b.toInt) (.range a b) := by
  obtain ⟨c, cs, hc, hn⟩ := showInt_head a.toInt
  obtain ⟨c', cs', hc', hn'⟩ := showInt_head b.toInt
  refine ⟨⟨c, cs ++ ':' :: showInt b.toInt, by rw [hc]; rfl, isNum_skip hn, isNum_ne hn (by decide)⟩, fun k hk r hr => ?_⟩
  cases k with
  | zero => rw [hc] at hk; simp at hk
  | succ k =>
    have hne : ∀ x, isNum x = false → NotHead (· == x) (showInt a.toInt ++ ':' :: showInt b.toInt ++ r) := fun x hx => by rw [hc]; exact isNum_ne hn hx
    have ha := Reads.int (w := 32) (n := a.toInt) (r := ':' :: (showInt b.toInt ++ r)) (BitVec.le_toInt a) BitVec.toInt_lt (show isAfterInt ':' = false by decide)
    have hb := Reads.int (w := 32) (n := b.toInt) (r := r) (BitVec.le_toInt b) BitVec.toInt_lt (hr.not (by decide) (by decide) (by decide))
    rw [BitVec.ofInt_toInt] at ha hb
    refine Reads.no_word (hne _ (by decide)) (hne _ (by decide)) (hne _ (by decide)) rfl (.right (Fails.hexP (hne _ (by decide))) <| .right (Fails.bind ?_) <| .left ?_)
    · rw [List.append_assoc]
      exact Fails.float_int (show _ = _ by decide) (show _ = _ by decide)
    · have h : Reads rangeLit (showInt a.toInt ++ ([] ++ ([':'] ++ ([] ++ showInt b.toInt)))) r (.range a b) := by
        refine Reads.bind (by simpa using ha) (Reads.bind (Reads.skip (show _ = _ by decide)) (Reads.bind (Reads.str ":" _ (by decide)) (Reads.bind (Reads.skip ?_) (Reads.map (g := Literal.range a) hb))))
        rw [hc']; exact isNum_skip hn'
      simpa using h

/-- A text beginning with a bracket is not a literal without parts. -/
theorem Reads.nested {lit : P Literal} {t r : List Char} {l : Literal} {c : Char} (hc : c = '(' ∨ c = '[') (h : Reads
      ((do Peg.str "("; Peg.skip; let h ← lit; Peg.skip; Peg.str ","; Peg.skip; let t ← lit; Peg.skip; Peg.str ")"; Pure.pure (.pair h t)) </>
      (do Peg.str "["; Peg.skip; let e ← commaSep lit; Peg.skip; Peg.str "]"; Pure.pure (.arr e)) : P Literal) (c :: t) r l) : Reads (literalF E lit) (c :: t) r l := by
  have hx : ∀ x, (x == '(') = false → (x == '[') = false → NotHead (· == x) (c :: t ++ r) := by
    intro x h1 h2
    show (c == x) = false
    rcases hc with rfl | rfl
    · cases h : ('(' == x) with
      | false => rfl
      | true => rw [← eq_of_beq h] at h1; simp at h1
    · cases h : ('[' == x) with
      | false => rfl
      | true => rw [← eq_of_beq h] at h2; simp at h2
  have hnum : NotHead isNum (c :: t ++ r) := by
    show isNum c = false
    rcases hc with rfl | rfl <;> decide
  exact Reads.no_word (hx _ (by decide) (by decide)) (hx _ (by decide) (by decide)) (hx _ (by decide) (by decide)) rfl <|
    .right (Fails.hexP (hx _ (by decide) (by decide))) <| .right (Fails.bind (Fails.float hnum)) <| .right (Fails.range hnum) <| .right (Fails.bind (Fails.int hnum)) <|
    .right (Fails.bind (Fails.string (hx _ (by decide) (by decide)))) h

theorem read_pair {t1 t2 : List Char} {a b : Literal} (h1 : Readable E t1 a) (h2 : Readable E t2 b) :
    Readable E ('(' :: (t1 ++ ',' :: ' ' :: (t2 ++ [')']))) (.pair a b) := by
  refine ⟨⟨_, _, rfl, by decide, by decide⟩, fun k hk r hr => ?_⟩
  cases k with
  | zero => simp at hk
  | succ k =>
    simp at hk
    refine Reads.nested (.inl rfl) (.left ?_)
    have h : Reads (do Peg.str "("; Peg.skip; let h ← literalN E k; Peg.skip; Peg.str ","; Peg.skip; let t ← literalN E k; Peg.skip; Peg.str ")"; Pure.pure (.pair h t) : P Literal)
        (['('] ++ ([] ++ (t1 ++ ([] ++ ([','] ++ ([' '] ++ (t2 ++ ([] ++ [')'])))))))) r (.pair a b) := by
      refine Reads.bind (Reads.str "(" _ (by decide)) <| Reads.bind (Reads.skip (by simpa using h1.skip)) <| Reads.bind (h1.2 k (by omega) _ (show _ = _ by decide)) <|
        Reads.bind (Reads.skip (show _ = _ by decide)) <| Reads.bind (Reads.str "," _ (by decide)) <| Reads.bind (Reads.skip_space (by simpa using h2.skip)) <|
        Reads.bind (h2.2 k (by omega) _ (show _ = _ by decide)) <| Reads.bind (Reads.skip (show _ = _ by decide)) (Reads.map (g := fun _ => Literal.pair a b) (Reads.str ")" r (by decide)))
    simpa using h

theorem read_arr_nil : Readable E ['[', ']'] (.arr []) := by
  refine ⟨⟨_, _, rfl, by decide, by decide⟩, fun k hk r hr => ?_⟩
  cases k with
  | zero => simp at hk
  | succ k =>
    refine Reads.nested (.inr rfl) (.right (Fails.bind (Fails.str (c := '(') (cs := []) (by decide) (show _ = _ by decide))) ?_)
    have hk : k ≠ 0 := by simp at hk; omega
    have hlit : Fails (literalN E k) (']' :: r) := by
      cases k with
      | zero => exact absurd rfl hk
      | succ k =>
        have hw : ∀ x, (']' == x) = false → NotHead (· == x) (']' :: r) := fun x hx => hx
        have hnum : NotHead isNum (']' :: r) := show _ = _ by decide
        exact .or (Fails.word (c := 't') (cs := ['r', 'u', 'e']) (by decide) (hw _ (by decide))) <| .or (Fails.word (c := 'f') (cs := ['a', 'l', 's', 'e']) (by decide) (hw _ (by decide))) <|
          .or (Fails.word (c := 'n') (cs := ['o', 'n', 'e']) (by decide) (hw _ (by decide))) <| .or (Fails.hexP (hw _ (by decide))) <| .or (Fails.bind (Fails.float hnum)) <| .or (Fails.range hnum) <|
          .or (Fails.bind (Fails.int hnum)) <| .or (Fails.bind (Fails.string (hw _ (by decide)))) <| .or (Fails.bind (Fails.str (c := '(') (cs := []) (by decide) (hw _ (by decide))))
          (Fails.bind (Fails.str (c := '[') (cs := []) (by decide) (hw _ (by decide))))
    have hs : Reads Peg.skip [] (']' :: r) () := Reads.skip (show _ = _ by decide)
    have hsep : Reads (commaSep (literalN E k)) [] (']' :: r) [] := by
      have : Reads (sepBy (do Peg.skip; let y ← literalN E k; Peg.skip; Pure.pure y : P Literal) (Peg.str ",")) [] (']' :: r) [] := by
        refine .right ?_ (Reads.pure _ _)
        exact Fails.bind (Fails.later (t := []) hs (Fails.bind hlit))
      exact Reads.bind (t := []) (t' := []) hs <| Reads.bind (t := []) (t' := []) this <| Reads.bind (t := []) (t' := []) (Reads.opt_none (Fails.str (c := ',') (cs := []) (by decide) (show _ = _ by decide))) <|
        Reads.map (g := fun _ => ([] : List Literal)) hs
    exact Reads.bind (t := ['[']) (t' := [']']) (Reads.str "[" _ (by decide)) <| Reads.bind (t := []) (t' := [']']) hs <| Reads.bind (t := []) (t' := [']']) hsep <| Reads.bind (t := []) (t' := [']']) hs <|
      Reads.map (g := fun _ => Literal.arr []) (Reads.str "]" r (by decide))

/-- Further items of an array. -/
def more (ts : List (List Char × Literal)) : List Char := (ts.map fun t => ',' :: ' ' :: t.1).flatten

theorem read_arr {t : List Char} {l : Literal} {ts : List (List Char × Literal)} (h : Readable E t l) (hs : ∀ t ∈ ts, Readable E t.1 t.2) :
    Readable E ('[' :: (t ++ more ts ++ [']'])) (.arr (l :: ts.map Prod.snd)) := by
  refine ⟨⟨_, _, rfl, by decide, by decide⟩, fun k hk r hr => ?_⟩
  cases k with
  | zero => simp at hk
  | succ k =>
    refine Reads.nested (.inr rfl) (.right (Fails.bind (Fails.str (c := '(') (cs := []) (by decide) (show _ = _ by decide))) ?_)
    simp at hk
    have hlen : ∀ t ∈ ts, t.1.length ≤ (more ts).length := by
      clear hs hk
      induction ts with
      | nil => simp
      | cons x ts ih =>
        intro y hy
        simp only [more, List.map_cons, List.flatten_cons, List.length_append] at ih ⊢
        rcases List.mem_cons.1 hy with rfl | hy
        · simp; omega
        · have := ih y hy; omega
    have hskip : Reads Peg.skip [] (']' :: r) () := Reads.skip (show _ = _ by decide)
    have hstop : ∀ ts : List (List Char × Literal), Stops (more ts ++ ']' :: r) ∧ NotHead isSkip (more ts ++ ']' :: r) := by
      intro ts
      cases ts with
      | nil => exact ⟨show _ = _ by decide, show _ = _ by decide⟩
      | cons x ts => exact ⟨show _ = _ by simp, show _ = _ by decide⟩
    have hitems : Reads (Peg.many (do let _ ← Peg.str ","; (do Peg.skip; let y ← literalN E k; Peg.skip; Pure.pure y : P Literal))) (more ts) (']' :: r) (ts.map Prod.snd) := by
      have := Reads.many (x := (do let _ ← Peg.str ","; (do Peg.skip; let y ← literalN E k; Peg.skip; Pure.pure y : P Literal))) (ts.map fun t => (',' :: ' ' :: t.1, t.2)) (']' :: r) (by intro t ht; obtain ⟨x, _, rfl⟩ := List.mem_map.1 ht; exact List.cons_ne_nil _ _) (by
        intro u v s a he
        obtain ⟨u', v', e1, _, e3⟩ := List.map_eq_append_iff.1 he
        obtain ⟨x, v'', e4, e5, e6⟩ := List.map_eq_cons_iff.1 e3
        cases e5
        have hx : x ∈ ts := by rw [e1, e4]; simp
        have ev : (v.map Prod.fst).flatten = more v'' := by rw [← e6]; simp [more, Function.comp_def]
        rw [ev]
        have hxr := hs x hx
        have h3 : Reads (do Peg.str ","; Peg.skip; let y ← literalN E k; Peg.skip; Pure.pure y : P Literal) ([','] ++ ([' '] ++ (x.1 ++ []))) (more v'' ++ ']' :: r) x.2 :=
          Reads.bind (Reads.str "," _ (by decide)) <| Reads.bind (Reads.skip_space (by simpa using hxr.skip)) <|
            Reads.bind (hxr.2 k (by have := hlen x hx; omega) _ (by simpa using (hstop v'').1)) (Reads.map (g := fun _ => x.2) (Reads.skip (hstop v'').2))
        simpa using h3) (Fails.bind (Fails.str (c := ',') (cs := []) (by decide) (show _ = _ by decide)))
      simpa [more, Function.comp_def] using this
    have hsep : Reads (commaSep (literalN E k)) (t ++ more ts) (']' :: r) (l :: ts.map Prod.snd) := by
      have h1 : Reads (sepBy (do Peg.skip; let y ← literalN E k; Peg.skip; Pure.pure y : P Literal) (Peg.str ",")) (t ++ more ts) (']' :: r) (l :: ts.map Prod.snd) := by
        refine .left ?_
        refine Reads.bind (a := l) ?_ (Reads.map (g := (l :: ·)) hitems)
        have : Reads (do Peg.skip; let y ← literalN E k; Peg.skip; Pure.pure y : P Literal) ([] ++ (t ++ [])) (more ts ++ ']' :: r) l :=
          Reads.bind (Reads.skip (by simpa using h.skip)) <| Reads.bind (h.2 k (by omega) _ (by simpa using (hstop ts).1)) (Reads.map (g := fun _ => l) (Reads.skip (hstop ts).2))
        simpa using this
      have h2 : Reads (commaSep (literalN E k)) ([] ++ ((t ++ more ts) ++ ([] ++ []))) (']' :: r) (l :: ts.map Prod.snd) :=
        Reads.bind (Reads.skip (by simpa using h.skip)) <| Reads.bind (by simpa using h1) <| Reads.bind (Reads.opt_none (Fails.str (c := ',') (cs := []) (by decide) (show _ = _ by decide))) <|
          Reads.map (g := fun _ => l :: ts.map Prod.snd) hskip
      simpa using h2
    have hall : Reads (do Peg.str "["; Peg.skip; let e ← commaSep (literalN E k); Peg.skip; Peg.str "]"; Pure.pure (.arr e) : P Literal) (['['] ++ ([] ++ ((t ++ more ts) ++ ([] ++ [']'])))) r (.arr (l :: ts.map Prod.snd)) :=
      Reads.bind (Reads.str "[" _ (by decide)) <| Reads.bind (Reads.skip (by simpa using h.skip)) <| Reads.bind (by simpa using hsep) <| Reads.bind (by simpa using hskip) <|
        Reads.map (g := fun _ => Literal.arr (l :: ts.map Prod.snd)) (Reads.str "]" r (by decide))
    simpa using hall

section
variable {C : Type} {F : FOps} {cname : C → String} {fl : BitVec 64 → Option Literal}

mutual
/-- Printed values are readable. -/
theorem read_val (hfl : ∀ x l, fl x = some l → Readable E (F.toStr x) l) : ∀ (v : Val C) {l : Literal}, v.litF fl = some l → Readable E (v.text F cname) l
  | .none, l, h => by unfold Val.litF at h; cases h; unfold Val.text; exact read_none
  | .bool b, l, h => by
    unfold Val.litF at h; cases h; unfold Val.text
    cases b
    · exact read_false
    · exact read_true
  | .int i, l, h => by unfold Val.litF at h; cases h; unfold Val.text; exact read_int i
  | .range a b, l, h => by unfold Val.litF at h; cases h; unfold Val.text; exact read_range a b
  | .color r g b a, l, h => by unfold Val.litF at h; cases h; unfold Val.text; exact read_color r g b a
  | .pair a b, l, h => by
    unfold Val.litF at h
    unfold Val.text
    split at h
    · rename_i x y hx hy
      cases h
      exact read_pair (read_val hfl a hx) (read_val hfl b hy)
    · cases h
  | .arr xs _ _, l, h => by
    unfold Val.litF at h
    unfold Val.text
    split at h
    · rename_i ls hl
      cases h
      cases xs with
      | nil => unfold Val.litL at hl; cases hl; unfold Val.textL; exact read_arr_nil
      | cons x xs =>
        obtain ⟨ts, e1, e2, e3⟩ := read_list hfl (x :: xs) hl
        cases ts with
        | nil => rw [Val.textR, more] at e1; simp at e1
        | cons t ts =>
          unfold Val.textL
          have := read_arr (e3 t (by simp)) (ts := ts) (fun t ht => e3 t (by simp [ht]))
          rw [← e2]
          rw [Val.textR] at e1
          simp only [more, List.map_cons, List.flatten_cons, List.cons_append, List.cons.injEq, true_and] at e1
          rw [e1]
          exact this
    · cases h
  | .float x, l, h => by unfold Val.litF at h; unfold Val.text; exact hfl x l h
  | .str _, l, h => by unfold Val.litF at h; cases h
  | .special .., l, h => by unfold Val.litF at h; cases h
  | .loopCtx _, l, h => by unfold Val.litF at h; cases h
  | .func _, l, h => by unfold Val.litF at h; cases h
  | .clos _, l, h => by unfold Val.litF at h; cases h
termination_by structural v => v
theorem read_list (hfl : ∀ x l, fl x = some l → Readable E (F.toStr x) l) : ∀ (vs : List (Val C)) {ls : List Literal}, Val.litL fl vs = some ls →
    ∃ ts : List (List Char × Literal), Val.textR F cname vs = more ts ∧ ts.map Prod.snd = ls ∧ ∀ t ∈ ts, Readable E t.1 t.2
  | [], ls, h => by unfold Val.litL at h; cases h; exact ⟨[], by unfold Val.textR; rfl, rfl, by simp⟩
  | v :: vs, ls, h => by
    unfold Val.litL at h
    split at h
    · rename_i l ls' hl hls
      cases h
      obtain ⟨ts, e1, e2, e3⟩ := read_list hfl vs hls
      refine ⟨(v.text F cname, l) :: ts, ?_, by simp [e2], ?_⟩
      · rw [Val.textR, e1]; simp [more]
      · intro t ht
        rcases List.mem_cons.1 ht with rfl | ht
        · exact read_val hfl v hl
        · exact e3 t ht
    · cases h
termination_by structural v => v
end

theorem parseLiteral_text (hfl : ∀ x l, fl x = some l → Readable E (F.toStr x) l) {v : Val C} {l : Literal} (h : v.litF fl = some l) : ∃ i, parseLiteral E (v.text F cname) = .ok l i := by
  obtain ⟨⟨c, cs, hc, _⟩, h2⟩ := read_val (E := E) (F := F) (cname := cname) hfl v h
  obtain ⟨q, hq⟩ := h2 ((v.text F cname).length + 1) (by omega) [] trivial 0
  rw [List.append_nil] at hq
  refine ⟨⟨q, []⟩, ?_⟩
  have hl : literal E ⟨0, v.text F cname⟩ = .ok l ⟨q, []⟩ := hq
  unfold parseLiteral
  rw [bind_def, hl]
  rfl

end

end Peg

mutual
/-- Literals without strings and floats. -/
def Literal.plain : Literal → Bool
  | .float _ | .str _ => false
  | .arr xs => Literal.plainL xs
  | .pair a b => a.plain && b.plain
  | _ => true
termination_by structural l => l
def Literal.plainL : List Literal → Bool
  | [] => true
  | l :: ls => l.plain && Literal.plainL ls
termination_by structural l => l
end

section
variable {C : Type} {fl : BitVec 64 → Option Literal}

mutual
theorem plain_lit? : ∀ l : Literal, l.plain = true → (l.toVal : Val C).litF fl = some l
  | .none, _ => by unfold Literal.toVal Val.litF; rfl
  | .bool _, _ => by unfold Literal.toVal Val.litF; rfl
  | .int _, _ => by unfold Literal.toVal Val.litF; rfl
  | .range _ _, _ => by unfold Literal.toVal Val.litF; rfl
  | .color _ _ _ _, _ => by unfold Literal.toVal Val.litF; rfl
  | .float _, h => by simp [Literal.plain] at h
  | .str _, h => by simp [Literal.plain] at h
  | .arr xs, h => by
    unfold Literal.plain at h
    unfold Literal.toVal Val.litF
    rw [plain_litL xs h]
  | .pair a b, h => by
    unfold Literal.plain at h
    rw [Bool.and_eq_true] at h
    unfold Literal.toVal Val.litF
    rw [plain_lit? a h.1, plain_lit? b h.2]
termination_by structural l => l
theorem plain_litL : ∀ ls : List Literal, Literal.plainL ls = true → Val.litL fl (Literal.toVal.toValL ls : List (Val C)) = some ls
  | [], _ => by unfold Literal.toVal.toValL Val.litL; rfl
  | l :: ls, h => by
    unfold Literal.plainL at h
    rw [Bool.and_eq_true] at h
    unfold Literal.toVal.toValL Val.litL
    rw [plain_lit? l h.1, plain_litL ls h.2]
termination_by structural l => l
end

mutual
theorem lit?_eqv (F : FOps) (ceq : C → C → Option Bool) (hfl : ∀ x l, fl x = some l → (l.toVal : Val C).eqv F ceq (.float x) = some true) : ∀ (v : Val C) {l : Literal}, v.litF fl = some l → (l.toVal : Val C).eqv F ceq v = some true
  | .none, l, h => by unfold Val.litF at h; cases h; simp [Literal.toVal, Val.eqv]
  | .bool b, l, h => by unfold Val.litF at h; cases h; simp [Literal.toVal, Val.eqv]
  | .int i, l, h => by unfold Val.litF at h; cases h; simp [Literal.toVal, Val.eqv]
  | .range a b, l, h => by unfold Val.litF at h; cases h; simp [Literal.toVal, Val.eqv]
  | .color r g b a, l, h => by unfold Val.litF at h; cases h; simp [Literal.toVal, Val.eqv]
  | .pair a b, l, h => by
    unfold Val.litF at h
    split at h
    · rename_i x y hx hy
      cases h
      unfold Literal.toVal Val.eqv
      rw [lit?_eqv F ceq hfl a hx]
      exact lit?_eqv F ceq hfl b hy
    · cases h
  | .arr xs _ _, l, h => by
    unfold Val.litF at h
    split at h
    · rename_i ls hl
      cases h
      unfold Literal.toVal Val.eqv
      obtain ⟨h1, h2⟩ := litL_eqv F ceq hfl xs hl
      simp [h1, h2]
    · cases h
  | .float x, l, h => by unfold Val.litF at h; exact hfl x l h
  | .str _, l, h => by unfold Val.litF at h; cases h
  | .special .., l, h => by unfold Val.litF at h; cases h
  | .loopCtx _, l, h => by unfold Val.litF at h; cases h
  | .func _, l, h => by unfold Val.litF at h; cases h
  | .clos _, l, h => by unfold Val.litF at h; cases h
termination_by structural v => v
theorem litL_eqv (F : FOps) (ceq : C → C → Option Bool) (hfl : ∀ x l, fl x = some l → (l.toVal : Val C).eqv F ceq (.float x) = some true) : ∀ (vs : List (Val C)) {ls : List Literal}, Val.litL fl vs = some ls →
    (Literal.toVal.toValL ls : List (Val C)).length = vs.length ∧ Val.eqvL F ceq (Literal.toVal.toValL ls) vs = some true
  | [], ls, h => by unfold Val.litL at h; cases h; simp [Literal.toVal.toValL, Val.eqvL]
  | v :: vs, ls, h => by
    unfold Val.litL at h
    split at h
    · rename_i l ls' hl hls
      cases h
      obtain ⟨h1, h2⟩ := litL_eqv F ceq hfl vs hls
      refine ⟨by simp [Literal.toVal.toValL, h1], ?_⟩
      unfold Literal.toVal.toValL Val.eqvL
      rw [lit?_eqv F ceq hfl v hl]
      exact h2
    · cases h
termination_by structural v => v
end

end

end Quilt
