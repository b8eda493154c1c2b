import Verif.Parser.Grammar
import Verif.Show

/-!
# Reading printed literals
-/

namespace Quilt.Peg

/-- `x` reads `t` before `r`, giving `a`. -/
def Reads {α : Type} (x : P α) (t r : List Char) (a : α) : Prop := ∀ p, ∃ q, x ⟨p, t ++ r⟩ = .ok a ⟨q, r⟩

/-- `x` fails on `t`. -/
def Fails {α : Type} (x : P α) (t : List Char) : Prop := ∀ p, x ⟨p, t⟩ = .fail

variable {α β : Type}

theorem bind_def (x : P α) (f : α → P β) (i : Inp) : (x >>= f) i = match x i with
  | .ok a i' => f a i'
  | .fail => .fail
  | .oof => .oof := rfl

theorem Reads.bind {x : P α} {f : α → P β} {t t' r : List Char} {a : α} {b : β} (h : Reads x t (t' ++ r) a) (h' : Reads (f a) t' r b) :
    Reads (x >>= f) (t ++ t') r b := by
  intro p
  obtain ⟨q, hq⟩ := h p
  obtain ⟨q', hq'⟩ := h' q
  exact ⟨q', by rw [bind_def, List.append_assoc, hq]; exact hq'⟩

theorem Reads.pure (a : α) (r : List Char) : Reads (pure a : P α) [] r a := fun p => ⟨p, rfl⟩

theorem Reads.map {x : P α} {g : α → β} {t r : List Char} {a : α} (h : Reads x t r a) : Reads (x >>= fun a => Pure.pure (g a) : P β) t r (g a) := by
  have := Reads.bind (f := fun a => (Pure.pure (g a) : P β)) (t' := []) h (Reads.pure (g a) r)
  rwa [List.append_nil] at this

theorem Reads.left {x y : P α} {t r : List Char} {a : α} (h : Reads x t r a) : Reads (x </> y) t r a := by
  intro p
  obtain ⟨q, hq⟩ := h p
  exact ⟨q, by unfold orElse; rw [hq]⟩

theorem Reads.right {x y : P α} {t r : List Char} {a : α} (hx : Fails x (t ++ r)) (h : Reads y t r a) : Reads (x </> y) t r a := by
  intro p
  obtain ⟨q, hq⟩ := h p
  exact ⟨q, by unfold orElse; rw [hx p]; exact hq⟩

theorem Fails.bind {x : P α} {f : α → P β} {t : List Char} (h : Fails x t) : Fails (x >>= f) t := fun p => by
  rw [bind_def, h p]

theorem Fails.later {x : P α} {f : α → P β} {t r : List Char} {a : α} (h : Reads x t r a) (h' : Fails (f a) r) : Fails (x >>= f) (t ++ r) := fun p => by
  obtain ⟨q, hq⟩ := h p
  rw [bind_def, hq]; exact h' q

theorem Fails.or {x y : P α} {t : List Char} (h : Fails x t) (h' : Fails y t) : Fails (x </> y) t := fun p => by
  unfold orElse; rw [h p]; exact h' p

theorem Reads.opt_some {x : P α} {t r : List Char} {a : α} (h : Reads x t r a) : Reads (opt x) t r (some a) := fun p => by
  obtain ⟨q, hq⟩ := h p
  exact ⟨q, by unfold opt; rw [hq]⟩

theorem Reads.opt_none {x : P α} {r : List Char} (h : Fails x r) : Reads (opt x) [] r none := fun p =>
  ⟨p, by unfold opt; rw [List.nil_append, h p]⟩

theorem Reads.notP {x : P α} {r : List Char} (h : Fails x r) : Reads (notP x) [] r () := fun p =>
  ⟨p, by unfold Peg.notP; rw [List.nil_append, h p]⟩

/-- The text does not begin with a character satisfying `f`. -/
def NotHead (f : Char → Bool) : List Char → Prop
  | [] => True
  | c :: _ => f c = false

theorem Fails.cls {f : Char → Bool} {t : List Char} (h : NotHead f t) : Fails (cls f) t := fun p => by
  cases t with
  | nil => rfl
  | cons c cs => unfold Peg.cls; simp only; rw [if_neg (by rw [show f c = false from h]; decide)]

theorem Reads.cls {f : Char → Bool} {c : Char} (r : List Char) (h : f c = true) : Reads (cls f) [c] r c := fun p =>
  ⟨p + c.utf8Size, by unfold Peg.cls; simp [h]⟩

theorem Fails.chars {c : Char} {cs t : List Char} (h : NotHead (· == c) t) : Fails (chars (c :: cs)) t := by
  unfold Peg.chars
  exact Fails.bind (Fails.cls h)

theorem Reads.chars : ∀ (cs r : List Char), Reads (chars cs) cs r ()
  | [], r => Reads.pure () r
  | c :: cs, r => by
    unfold Peg.chars
    exact Reads.bind (t := [c]) (Reads.cls _ (by simp)) (Reads.chars cs r)

theorem Reads.str (s : String) (r : List Char) {t : List Char} (h : s.toList = t) : Reads (str s) t r () := by
  subst h; exact Reads.chars _ _

theorem Fails.str {s : String} {c : Char} {cs t : List Char} (hs : s.toList = c :: cs) (h : NotHead (· == c) t) : Fails (str s) t := by
  unfold Peg.str; rw [hs]; exact Fails.chars h

/-- Repetition reads a sequence of texts. -/
theorem Reads.manyN {x : P α} : ∀ (ts : List (List Char × α)) (r : List Char) (n : Nat), ts.length < n →
    (∀ u v t a, ts = u ++ (t, a) :: v → Reads x t ((v.map Prod.fst).flatten ++ r) a) → Fails x r →
    Reads (manyN x n) (ts.map Prod.fst).flatten r (ts.map Prod.snd)
  | [], r, n + 1, _, _, hf => fun p => ⟨p, by simp [Peg.manyN, hf p]⟩
  | (t, a) :: ts, r, n + 1, hn, hx, hf => fun p => by
    obtain ⟨q, hq⟩ := hx [] ts t a rfl p
    obtain ⟨q', hq'⟩ := Reads.manyN ts r n (by simp at hn; omega) (fun u v t' a' h => hx ((t, a) :: u) v t' a' (by rw [h]; rfl)) hf q
    refine ⟨q', ?_⟩
    unfold Peg.manyN
    simp only [List.map_cons, List.flatten_cons, List.append_assoc]
    rw [hq]
    simp only [bind_def]
    rw [hq']
    rfl

theorem Reads.many {x : P α} (ts : List (List Char × α)) (r : List Char) (hne : ∀ t ∈ ts, t.1 ≠ [])
    (hx : ∀ u v t a, ts = u ++ (t, a) :: v → Reads x t ((v.map Prod.fst).flatten ++ r) a) (hf : Fails x r) :
    Reads (many x) (ts.map Prod.fst).flatten r (ts.map Prod.snd) := fun p => by
  have : ts.length ≤ ((ts.map Prod.fst).flatten ++ r).length := by
    clear hx hf
    induction ts with
    | nil => simp
    | cons t ts ih =>
      have h1 := ih fun t ht => hne t (by simp [ht])
      have h2 : 0 < t.1.length := List.length_pos_iff.2 (hne t (by simp))
      simp at h1 ⊢
      omega
  exact Reads.manyN ts r _ (by simp only; omega) hx hf p

theorem Reads.many_cls {f : Char → Bool} (ds r : List Char) (h : ∀ d ∈ ds, f d = true) (hr : NotHead f r) : Reads (Peg.many (Peg.cls f)) ds r ds := by
  have := Reads.many (x := Peg.cls f) (ds.map fun d => ([d], d)) r (by simp) (by
    intro u v t a he
    have ha : ([a], a) = (t, a) ∧ a ∈ ds := by
      have : (t, a) ∈ ds.map fun d => ([d], d) := by rw [he]; simp
      obtain ⟨d, hd, h'⟩ := List.mem_map.1 this
      cases h'; exact ⟨rfl, hd⟩
    obtain ⟨h1, h2⟩ := ha
    cases h1
    exact Reads.cls _ (h a h2)) (Fails.cls hr)
  have h1 : ((ds.map fun d => ([d], d)).map Prod.fst).flatten = ds := by
    clear h this
    induction ds <;> simp_all
  have h2 : ((ds.map fun d => ([d], d)).map Prod.snd) = ds := by simp [Function.comp_def]
  rwa [h1, h2] at this

theorem Reads.many1_cls {f : Char → Bool} (d : Char) (ds r : List Char) (h : ∀ x ∈ d :: ds, f x = true) (hr : NotHead f r) :
    Reads (many1 (Peg.cls f)) (d :: ds) r (d :: ds) := by
  unfold many1
  exact Reads.bind (t := [d]) (Reads.cls _ (h d (by simp))) (Reads.map (g := (d :: ·)) (Reads.many_cls ds r (fun x hx => h x (by simp [hx])) hr))

/-! ## Spaces -/

/-- Characters that may begin what `_` skips. -/
def isSkip (c : Char) : Bool := isSimpleWhitespace c || c == '\\' || c == '\r' || c == '\n' || c == ';' || c == '/'

theorem NotHead.imp {f g : Char → Bool} {t : List Char} (h : ∀ c, g c = true → f c = true) (hf : NotHead f t) : NotHead g t := by
  cases t with
  | nil => trivial
  | cons c cs =>
    show g c = false
    cases hg : g c with
    | false => rfl
    | true => rw [← h c hg]; exact hf

theorem Fails.term {t : List Char} (h : NotHead isSkip t) : Fails term t := by
  unfold Peg.term
  refine Fails.or ?_ (Fails.str (c := ';') (cs := []) (by decide) (h.imp ?_))
  · rw [← List.nil_append t]
    exact Fails.later (Reads.opt_none (Fails.str (c := '\r') (cs := []) (by decide) (h.imp (by simp [isSkip]))))
      (Fails.str (c := '\n') (cs := []) (by decide) (h.imp (by simp [isSkip])))
  · simp [isSkip]

theorem Fails.skipPart {t : List Char} (h : NotHead isSkip t) : Fails (whitespace </> terminator </> comment) t := by
  have hc : Fails comment t := by
    unfold comment
    exact Fails.bind (Fails.str (c := '/') (cs := ['/']) (by decide) (h.imp (by simp [isSkip])))
  refine Fails.or (Fails.or ?_ ?_) (Fails.or ?_ hc)
  · exact Fails.bind (Fails.cls (h.imp (by simp +contextual [isSkip])))
  · exact Fails.bind (Fails.str (c := '\\') (cs := []) (by decide) (h.imp (by simp [isSkip])))
  · unfold terminator
    rw [← List.nil_append t]
    exact Fails.later (Reads.opt_none hc) (Fails.term h)

theorem Reads.skip {r : List Char} (h : NotHead isSkip r) : Reads skip [] r () := by
  unfold Peg.skip
  exact Reads.map (g := fun _ => ()) (Reads.many [] r (by simp) (by simp) (Fails.skipPart h))

theorem Reads.skip_space {r : List Char} (h : NotHead isSkip r) : Reads Peg.skip [' '] r () := by
  unfold Peg.skip
  refine Reads.map (g := fun _ => ()) (Reads.many [([' '], ())] r (by simp) ?_ (Fails.skipPart h))
  intro u v t a he
  cases u with
  | nil => cases he; exact Reads.left (Reads.left (Reads.map (g := fun _ => ()) (Reads.cls _ (by decide))))
  | cons x u => simp at he

/-! ## Numbers -/

theorem digitChar_val {d : Nat} (h : d < 10) : isDig (digitChar d) = true ∧ digitVal (digitChar d) = d ∧ isSkip (digitChar d) = false := by
  revert d; decide

theorem digitsVal_append (b : Nat) (ds : List Char) (d : Char) : digitsVal b (ds ++ [d]) = digitsVal b ds * b + digitVal d := by
  simp [digitsVal]

theorem showNat_spec (n : Nat) : (∀ d ∈ showNat n, isDig d = true) ∧ digitsVal 10 (showNat n) = n ∧
    ∃ c cs, showNat n = c :: cs ∧ isDig c = true ∧ (c = '0' → cs = []) := by
  fun_induction showNat n with
  | case1 n h =>
    obtain ⟨h1, h2, _⟩ := digitChar_val h
    exact ⟨by simp [h1], by simp [digitsVal, h2], digitChar n, [], rfl, h1, fun _ => rfl⟩
  | case2 n h ih =>
    obtain ⟨i1, i2, c, cs, i3, i4, i5⟩ := ih
    obtain ⟨h1, h2, _⟩ := digitChar_val (Nat.mod_lt n (by decide : 10 > 0))
    refine ⟨?_, ?_, c, cs ++ [digitChar (n % 10)], by rw [i3]; rfl, i4, ?_⟩
    · intro d hd
      rcases List.mem_append.1 hd with hd | hd
      · exact i1 d hd
      · rw [List.mem_singleton.1 hd]; exact h1
    · rw [digitsVal_append, i2, h2]; omega
    · intro hc
      have : cs = [] := i5 hc
      rw [i3, this, hc] at i2
      simp [digitsVal, digitVal, isDig] at i2
      omega

/-- What can follow a printed integer. -/
def isAfterInt (c : Char) : Bool := isDig c || c == 'b' || c == 'x' || c == 'o'

/-- Printed integers are read as integers, whatever the width. -/
theorem Reads.intOf (w : Nat) (n : Int) {r : List Char} (hr : NotHead isAfterInt r) :
    Reads (Peg.int w) (showInt n) r (intOf w (decide (n < 0)) 10 (showNat n.natAbs)) := by
  obtain ⟨d1, d2, c, cs, d3, d4, d5⟩ := showNat_spec n.natAbs
  have hd : NotHead isDig r := hr.imp (by simp +contextual [isAfterInt])
  have hpre : ∀ (s : String) (x : Char), s.toList = ['0', x] → (x = 'b' ∨ x = 'x' ∨ x = 'o') → Fails (Peg.str s) (showInt n ++ r) := by
    intro s x hs hx
    unfold Peg.str; rw [hs]
    unfold showInt
    split
    · exact Fails.chars (show ('-' == '0') = false by decide)
    · rw [d3]
      by_cases hc : c = '0'
      · rw [hc, d5 hc]
        unfold Peg.chars
        refine Fails.later (t := ['0']) (Reads.cls r (by decide)) (Fails.chars (hr.imp ?_))
        rcases hx with rfl | rfl | rfl <;> simp [isAfterInt]
      · exact Fails.chars (show (c == '0') = false by simpa using hc)
  unfold Peg.int
  refine Reads.right (Fails.bind (hpre _ 'b' (by decide) (by simp))) <| Reads.right (Fails.bind (hpre _ 'x' (by decide) (by simp))) <|
    Reads.right (Fails.bind (hpre _ 'o' (by decide) (by simp))) ?_
  have hds : Reads (many1 (Peg.cls isDig)) (showNat n.natAbs) r (showNat n.natAbs) := by
    rw [d3]
    exact Reads.many1_cls c cs r (by rw [← d3]; exact d1) hd
  unfold showInt
  split
  · rename_i hn
    rw [decide_eq_true hn]
    exact Reads.bind (t := ['-']) (a := some ()) (Reads.opt_some (Reads.str "-" _ (by decide))) (Reads.map (g := fun ds => Peg.intOf w true 10 ds) hds)
  · rename_i hn
    rw [decide_eq_false hn, ← List.nil_append (showNat n.natAbs)]
    refine Reads.bind (a := none) (Reads.opt_none (Fails.str (c := '-') (cs := []) (by decide) ?_)) (Reads.map (g := fun ds => Peg.intOf w false 10 ds) hds)
    rw [d3]
    show (c == '-') = false
    cases h : c == '-' with
    | false => rfl
    | true => rw [eq_of_beq h] at d4; revert d4; decide

theorem intOf_showNat {w : Nat} {n : Int} (h1 : -2 ^ (w - 1) ≤ n) (h2 : n < 2 ^ (w - 1)) : intOf w (decide (n < 0)) 10 (showNat n.natAbs) = BitVec.ofInt w n := by
  have : ((2 ^ (w - 1) : Nat) : Int) = 2 ^ (w - 1) := by simp
  unfold intOf
  rw [(showNat_spec n.natAbs).2.1]
  by_cases hn : n < 0
  · simp only [hn, decide_true, if_true]
    rw [if_pos (by omega)]
    congr 1; omega
  · simp only [hn, decide_false, Bool.false_eq_true, if_false]
    rw [if_pos (by omega), ← BitVec.ofInt_natCast]
    congr 1; omega

theorem Reads.int {w : Nat} {n : Int} {r : List Char} (h1 : -2 ^ (w - 1) ≤ n) (h2 : n < 2 ^ (w - 1)) (hr : NotHead isAfterInt r) :
    Reads (Peg.int w) (showInt n) r (BitVec.ofInt w n) := by
  rw [← intOf_showNat h1 h2]; exact Reads.intOf w n hr

theorem Reads.int_some (w : Nat) (n : Int) {r : List Char} (hr : NotHead isAfterInt r) : ∃ v, Reads (Peg.int w) (showInt n) r v := ⟨_, Reads.intOf w n hr⟩

end Quilt.Peg
