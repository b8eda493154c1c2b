import Verif.Parser.Lists

/-!
# Reading literals of the reference grammar
-/

namespace Quilt.Cs

open Peg

/-- After a number: a dot is the first of two. -/
def DotOk (r : List Char) : Prop := ∀ t, r = '.' :: t → ∃ t', t = '.' :: t'

/-- After an integer: no colon and integer. -/
def NoColonInt (r : List Char) : Prop := ∀ v : BitVec 32, Fails (do skip; str ":"; skip; let e ← int 32; pure (Literal.range v e)) r

theorem dotOk_of {r : List Char} (h : NotHead (· == '.') r) : DotOk r := by
  rintro t rfl
  exact absurd h (by simp [NotHead])

/-! ## Numbers -/

def Num.base : Num → Nat
  | .dec _ => 10 | .bin _ => 2 | .hex _ => 16 | .oct _ => 8

def Num.ds : Num → List Char
  | .dec ds | .bin ds | .hex ds | .oct ds => ds

theorem notHead_sub {f g : Char → Bool} {r : List Char} (h : NotHead f r) (hfg : ∀ c, g c = true → f c = true) : NotHead g r := NotHead.imp hfg h

theorem takes_many1 {f : Char → Bool} {ds r : List Char} (hne : ds.isEmpty = false) (h : ds.all f = true) (hr : NotHead f r) : Takes (many1 (cls f)) (ds ++ r) ds r := by
  cases ds with
  | nil => cases hne
  | cons d ds => exact (Reads.many1_cls d ds r (List.all_eq_true.1 h) hr).takes

theorem isDig_idChar (c : Char) (h : isDig c = true) : isIdChar c = true := by simp [isIdChar, h]

theorem isHex_idChar (c : Char) (h : isHex c = true) : isIdChar c = true := by
  simp only [isHex, isDig, Bool.or_eq_true, Bool.and_eq_true, decide_eq_true_eq] at h
  simp only [isIdChar, isDig, isAlpha, Bool.or_eq_true, Bool.and_eq_true, decide_eq_true_eq]
  simp only [Char.le_def, UInt32.le_iff_toNat_le] at h ⊢
  have : ('a' : Char).val.toNat = 97 := rfl
  have : ('f' : Char).val.toNat = 102 := rfl
  have : ('z' : Char).val.toNat = 122 := rfl
  have : ('A' : Char).val.toNat = 65 := rfl
  have : ('F' : Char).val.toNat = 70 := rfl
  have : ('Z' : Char).val.toNat = 90 := rfl
  omega

theorem isBin_idChar (c : Char) (h : isBin c = true) : isIdChar c = true := by
  apply isDig_idChar
  simp only [isBin, isDig, Bool.and_eq_true, decide_eq_true_eq] at h ⊢
  refine ⟨h.1, ?_⟩
  have := h.2
  simp only [Char.le_def, UInt32.le_iff_toNat_le] at this ⊢
  have : ('1' : Char).val.toNat = 49 := rfl
  have : ('9' : Char).val.toNat = 57 := rfl
  omega

theorem isOct_idChar (c : Char) (h : isOct c = true) : isIdChar c = true := by
  apply isDig_idChar
  simp only [isOct, isDig, Bool.and_eq_true, decide_eq_true_eq] at h ⊢
  refine ⟨h.1, ?_⟩
  have := h.2
  simp only [Char.le_def, UInt32.le_iff_toNat_le] at this ⊢
  have : ('7' : Char).val.toNat = 55 := rfl
  have : ('9' : Char).val.toNat = 57 := rfl
  omega

/-- Only a given second character makes the string match. -/
theorem fails_str2 {s : String} {c d : Char} {t : List Char} (hs : s.toList = [c, d]) (h : ∀ u, t ≠ c :: d :: u) : Fails (str s) t := by
  unfold str
  rw [hs]
  intro p
  cases t with
  | nil => rfl
  | cons a t =>
    unfold chars
    rw [bind_def]
    unfold cls
    simp only
    by_cases ha : (a == c) = true
    · simp only [ha, if_true]
      cases t with
      | nil => rfl
      | cons b t =>
        unfold chars
        rw [bind_def]
        unfold cls
        simp only
        by_cases hb : (b == d) = true
        · exact absurd (by rw [eq_of_beq ha, eq_of_beq hb]) (h t)
        · simp [hb]
    · simp [ha]

/-- Digits are not followed by a base letter. -/
theorem fails_base {s : String} {b : Char} (hs : s.toList = ['0', b]) (hb : isIdChar b = true) (hb' : isDig b = false) {ds r : List Char} (hne : ds.isEmpty = false)
    (hd : ds.all isDig = true) (hr : NotHead (· == b) r) : Fails (str s) (ds ++ r) := by
  refine fails_str2 hs ?_
  intro u hu
  match ds, hne with
  | [d], _ =>
    rw [List.singleton_append] at hu
    injection hu with _ hu
    subst hu
    exact absurd hr (by simp [NotHead])
  | d :: e :: ds, _ =>
    simp only [List.cons_append, List.cons.injEq] at hu
    obtain ⟨_, rfl, _⟩ := hu
    simp [hb'] at hd

theorem takes_dec {w : Nat} {ds r : List Char} (hne : ds.isEmpty = false) (hd : ds.all isDig = true) (hr : NotHead isIdChar r) :
    Takes (int w) (ds ++ r) (intOf w false 10 ds) r := by
  have hb : ∀ b, isIdChar b = true → NotHead (· == b) r := fun b hb => hr.imp fun c hc => by rw [eq_of_beq hc]; exact hb
  unfold int
  refine Gives.right (Fails.bind (fails_base (b := 'b') (by decide) (by decide) (by decide) hne hd (hb _ (by decide)))) ?_
  refine Gives.right (Fails.bind (fails_base (b := 'x') (by decide) (by decide) (by decide) hne hd (hb _ (by decide)))) ?_
  refine Gives.right (Fails.bind (fails_base (b := 'o') (by decide) (by decide) (by decide) hne hd (hb _ (by decide)))) ?_
  refine Takes.bind (a := none) (s' := ds ++ r) (Takes.opt_none (Fails.char (c := '-') (by decide) ?_)) ?_
  · cases ds with
    | nil => cases hne
    | cons d ds =>
      show (d == '-') = false
      cases h : d == '-' with
      | false => rfl
      | true => rw [eq_of_beq h] at hd; simp [isDig] at hd
  · exact Takes.bind (takes_many1 hne hd (hr.imp isDig_idChar)) (Gives.pure ⟨rfl, rfl⟩)

/-- A minus sign and digits. -/
theorem takes_neg {w : Nat} {ds r : List Char} (hne : ds.isEmpty = false) (hd : ds.all isDig = true) (hr : NotHead isDig r) :
    Takes (int w) ('-' :: (ds ++ r)) (intOf w true 10 ds) r := by
  unfold int
  refine Gives.right (Fails.bind (Fails.str_cons (c := '0') (cs := ['b']) (by decide) (by decide))) ?_
  refine Gives.right (Fails.bind (Fails.str_cons (c := '0') (cs := ['x']) (by decide) (by decide))) ?_
  refine Gives.right (Fails.bind (Fails.str_cons (c := '0') (cs := ['o']) (by decide) (by decide))) ?_
  refine Takes.bind (Takes.char (c := '-') (by decide) _).opt_some ?_
  exact Takes.bind (takes_many1 hne hd hr) (Gives.pure ⟨rfl, rfl⟩)

theorem takes_num {w : Nat} {n : Num} {r : List Char} (h : n.digits = true) (hr : NotHead isIdChar r) : Takes (int w) (n.text ++ r) (intOf w false n.base n.ds) r := by
  cases n with
  | dec ds =>
    simp only [Num.digits, Bool.and_eq_true, Bool.not_eq_true'] at h
    exact takes_dec h.1 h.2 hr
  | bin ds =>
    simp only [Num.digits, Bool.and_eq_true, Bool.not_eq_true'] at h
    unfold int
    refine Gives.left (Takes.bind (Takes.str (t := ['0', 'b']) (by decide) (ds ++ r)) ?_)
    exact Takes.bind (takes_many1 h.1 h.2 (hr.imp isBin_idChar)) (Gives.pure ⟨rfl, rfl⟩)
  | hex ds =>
    simp only [Num.digits, Bool.and_eq_true, Bool.not_eq_true'] at h
    unfold int
    refine Gives.right (Fails.bind (fails_str2 (c := '0') (d := 'b') (by decide) (by intro u hu; simp [Num.text] at hu))) ?_
    refine Gives.left (Takes.bind (Takes.str (t := ['0', 'x']) (by decide) (ds ++ r)) ?_)
    exact Takes.bind (takes_many1 h.1 h.2 (hr.imp isHex_idChar)) (Gives.pure ⟨rfl, rfl⟩)
  | oct ds =>
    simp only [Num.digits, Bool.and_eq_true, Bool.not_eq_true'] at h
    unfold int
    refine Gives.right (Fails.bind (fails_str2 (c := '0') (d := 'b') (by decide) (by intro u hu; simp [Num.text] at hu))) ?_
    refine Gives.right (Fails.bind (fails_str2 (c := '0') (d := 'x') (by decide) (by intro u hu; simp [Num.text] at hu))) ?_
    refine Gives.left (Takes.bind (Takes.str (t := ['0', 'o']) (by decide) (ds ++ r)) ?_)
    exact Takes.bind (takes_many1 h.1 h.2 (hr.imp isOct_idChar)) (Gives.pure ⟨rfl, rfl⟩)

theorem Num.val_eq (n : Num) : n.val = digitsVal n.base n.ds := by cases n <;> rfl

/-- The value an integer is read as, in `w` bits. -/
def SNum.read (w : Nat) : SNum → BitVec w
  | .pos n => intOf w false n.base n.ds
  | .neg ds => intOf w true 10 ds

theorem SNum.read_ok {w : Nat} {n : SNum} (h : n.ok w = true) : n.read w = BitVec.ofInt w n.val := by
  cases n with
  | pos n =>
    simp only [SNum.ok, Bool.and_eq_true, decide_eq_true_eq] at h
    unfold SNum.read intOf SNum.val
    rw [Num.val_eq] at h
    simp only [Bool.false_eq_true, if_false, if_pos h.2, Num.val_eq]
    exact (BitVec.ofInt_natCast ..).symm
  | neg ds =>
    simp only [SNum.ok, Bool.and_eq_true, decide_eq_true_eq] at h
    unfold SNum.read intOf SNum.val
    simp only [if_true, if_pos h.2]

/-- Digits where there should be. -/
def SNum.dig : SNum → Bool
  | .pos n => n.digits
  | .neg ds => !ds.isEmpty && ds.all isDig

theorem SNum.dig_of_ok {w : Nat} {n : SNum} (h : n.ok w = true) : n.dig = true := by
  cases n <;> simp only [SNum.ok, Bool.and_eq_true] at h <;> simp only [SNum.dig, Bool.and_eq_true]
  · exact h.1
  · exact h.1

theorem takes_snum {w : Nat} {n : SNum} {r : List Char} (h : n.dig = true) (hr : NotHead isIdChar r) : Takes (int w) (n.text ++ r) (n.read w) r := by
  cases n with
  | pos n => exact takes_num h hr
  | neg ds =>
    simp only [SNum.dig, Bool.and_eq_true, Bool.not_eq_true'] at h
    exact takes_neg h.1 h.2 (hr.imp isDig_idChar)

/-- Digits without a fraction are not a float. -/
theorem fails_float {E : Env} {neg : Bool} {ds r : List Char} (hne : ds.isEmpty = false) (hd : ds.all isDig = true) (hr : NotHead isDig r) (hdot : DotOk r) :
    Fails (float E) ((if neg then ['-'] else []) ++ (ds ++ r)) := by
  have key : ∀ m : Option Unit, Fails (do
      let ds ← many1 (cls isDig); str "."; notP (str "."); let fs ← many (cls isDig)
      pure (E.float ((if m.isSome then ['-'] else []) ++ ds ++ ['.'] ++ fs)) : P (BitVec 64)) (ds ++ r) := by
    intro m
    refine Fails.take (takes_many1 hne hd hr) ?_
    cases r with
    | nil => exact Fails.bind (Fails.char (c := '.') (by decide) trivial)
    | cons c r =>
      by_cases hc : c = '.'
      · subst hc
        obtain ⟨t, rfl⟩ := hdot r rfl
        refine Fails.take (Takes.char (c := '.') (by decide) _) (Fails.bind ?_)
        intro p
        obtain ⟨_, q, _, h, _⟩ := Takes.char (s := ".") (c := '.') (by decide) t p
        unfold notP
        rw [h]
      · exact Fails.bind (Fails.str_cons (c := '.') (cs := []) (by decide) hc)
  unfold float
  cases neg with
  | true => exact Fails.take (Takes.char (c := '-') (by decide) _).opt_some (key _)
  | false =>
    refine Fails.take (Takes.opt_none (Fails.char (c := '-') (by decide) ?_)) (key _)
    cases ds with
    | nil => cases hne
    | cons d ds =>
      show (d == '-') = false
      cases h : d == '-' with
      | false => rfl
      | true => rw [eq_of_beq h] at hd; simp [isDig] at hd

theorem fails_float_snum {E : Env} {n : SNum} {r : List Char} (h : n.dig = true) (hr : NotHead isIdChar r) (hdot : DotOk r) : Fails (float E) (n.text ++ r) := by
  have zero : ∀ (c : Char) (t : List Char), isDig c = false → c ≠ '.' → Fails (float E) ('0' :: c :: t) := fun c t h1 h2 =>
    fails_float (neg := false) (ds := ['0']) rfl (by decide) h1 (by rintro u hu; injection hu with hu; exact absurd hu h2)
  cases n with
  | pos n =>
    cases n with
    | dec ds =>
      simp only [SNum.dig, Num.digits, Bool.and_eq_true, Bool.not_eq_true'] at h
      exact fails_float (neg := false) h.1 h.2 (hr.imp isDig_idChar) hdot
    | bin ds => exact zero _ _ (by decide) (by decide)
    | hex ds => exact zero _ _ (by decide) (by decide)
    | oct ds => exact zero _ _ (by decide) (by decide)
  | neg ds =>
    simp only [SNum.dig, Bool.and_eq_true, Bool.not_eq_true'] at h
    exact fails_float (neg := true) h.1 h.2 (hr.imp isDig_idChar) hdot

/-- An integer without colon and integer is not a range. -/
theorem fails_range_snum {n : SNum} {r : List Char} (h : n.dig = true) (hr : NotHead isIdChar r) (hc : NoColonInt r) : Fails rangeLit (n.text ++ r) := by
  unfold rangeLit
  exact Fails.take (takes_snum h hr) (hc _)

theorem takes_range {a b : SNum} {g g' : Gap} {r : List Char} (ha : a.ok 32 = true) (hb : b.ok 32 = true) (hg : g.ok = true) (hg' : g'.ok = true) (hr : NotHead isIdChar r) :
    Takes rangeLit (a.text ++ g.text ++ ':' :: (g'.text ++ b.text) ++ r) (.range (BitVec.ofInt 32 a.val) (BitVec.ofInt 32 b.val)) r := by
  have e : a.text ++ g.text ++ ':' :: (g'.text ++ b.text) ++ r = a.text ++ (g.text ++ ':' :: (g'.text ++ (b.text ++ r))) := by simp
  rw [e]
  unfold rangeLit
  refine Takes.bind (takes_snum (SNum.dig_of_ok ha) (Gap.notHead (gap_not (by decide)) (show isIdChar ':' = false by decide))) ?_
  refine Takes.bind (takes_skip hg (noSkip_cons (by decide))) ?_
  refine Takes.bind (Takes.char (c := ':') (by decide) _) ?_
  refine Takes.bind (takes_skip hg' ?_) ?_
  · cases b with
    | pos n =>
      have h := SNum.dig_of_ok hb
      cases n with
      | dec ds =>
        simp only [SNum.dig, Num.digits, Bool.and_eq_true, Bool.not_eq_true', List.all_eq_true] at h
        cases ds with
        | nil => cases h.1
        | cons d ds => exact noSkip_cons (isNum_skip (by simp [isNum, h.2 d (by simp)]))
      | bin ds => exact noSkip_cons (by decide)
      | hex ds => exact noSkip_cons (by decide)
      | oct ds => exact noSkip_cons (by decide)
    | neg ds => exact noSkip_cons (by decide)
  · refine Takes.bind (takes_snum (SNum.dig_of_ok hb) hr) (Gives.pure ⟨?_, rfl⟩)
    rw [SNum.read_ok ha, SNum.read_ok hb]

/-- First characters of numbers. -/
theorem snum_head {n : SNum} (h : n.dig = true) : ∃ c t, n.text = c :: t ∧ isNum c = true := by
  cases n with
  | pos n =>
    cases n with
    | dec ds =>
      simp only [SNum.dig, Num.digits, Bool.and_eq_true, Bool.not_eq_true', List.all_eq_true] at h
      cases ds with
      | nil => cases h.1
      | cons d ds => exact ⟨d, ds, rfl, by simp [isNum, h.2 d (by simp)]⟩
    | bin ds => exact ⟨_, _, rfl, by decide⟩
    | hex ds => exact ⟨_, _, rfl, by decide⟩
    | oct ds => exact ⟨_, _, rfl, by decide⟩
  | neg ds => exact ⟨_, _, rfl, by decide⟩

/-! ## Alternatives of `literal` -/

section
variable {E : Env} {lit : P Literal} {s : List Char} {Q : Literal → List Char → Prop}

/-- The alternatives of `literal` after the words. -/
def litRest (E : Env) (lit : P Literal) : P Literal :=
  hex </>
  (do let f ← float E; pure (.float f)) </>
  rangeLit </>
  (do let i ← int 64; pure (.int i)) </>
  (do let s ← string; pure (.str s)) </>
  (do str "("; skip; let h ← lit; skip; str ","; skip; let t ← lit; skip; str ")"; pure (.pair h t)) </>
  (do str "["; skip; let e ← commaSep lit; skip; str "]"; pure (.arr e))

theorem literalF_eq : literalF E lit = ((do kw "true"; pure (.bool true)) </> (do kw "false"; pure (.bool false)) </> (do kw "none"; pure .none) </> litRest E lit) := rfl

theorem gives_litRest (h : NotHead isAlpha s) (hQ : Gives (litRest E lit) s Q) : Gives (literalF E lit) s Q := by
  rw [literalF_eq]
  have key : ∀ c, isAlpha c = true → NotHead (· == c) s := fun c hc => h.imp fun d hd => by rw [eq_of_beq hd]; exact hc
  exact Gives.right (Fails.bind (Fails.kw (c := 't') (cs := ['r', 'u', 'e']) (by decide) (key _ (by decide))))
    (Gives.right (Fails.bind (Fails.kw (c := 'f') (cs := ['a', 'l', 's', 'e']) (by decide) (key _ (by decide))))
    (Gives.right (Fails.bind (Fails.kw (c := 'n') (cs := ['o', 'n', 'e']) (by decide) (key _ (by decide)))) hQ))

theorem fails_litRest (h : NotHead isAlpha s) (hQ : Fails (litRest E lit) s) : Fails (literalF E lit) s := by
  rw [literalF_eq]
  have key : ∀ c, isAlpha c = true → NotHead (· == c) s := fun c hc => h.imp fun d hd => by rw [eq_of_beq hd]; exact hc
  exact Fails.or (Fails.bind (Fails.kw (c := 't') (cs := ['r', 'u', 'e']) (by decide) (key _ (by decide))))
    (Fails.or (Fails.bind (Fails.kw (c := 'f') (cs := ['a', 'l', 's', 'e']) (by decide) (key _ (by decide))))
    (Fails.or (Fails.bind (Fails.kw (c := 'n') (cs := ['o', 'n', 'e']) (by decide) (key _ (by decide)))) hQ))

/-- Heads of literals other than words. -/
def isLitHead (c : Char) : Bool := isNum c || c == '#' || c == '"' || c == '(' || c == '['

theorem fails_litRest_head (h : NotHead isLitHead s) : Fails (litRest E lit) s := by
  have hn : NotHead isNum s := h.imp fun c hc => by simp [isLitHead, hc]
  have key : ∀ c, isLitHead c = true → NotHead (· == c) s := fun c hc => h.imp fun d hd => by rw [eq_of_beq hd]; exact hc
  unfold litRest
  exact Fails.or (Fails.hexP (key _ (by decide))) (Fails.or (Fails.bind (Fails.float hn)) (Fails.or (Fails.range hn) (Fails.or (Fails.bind (Fails.int hn))
    (Fails.or (Fails.bind (Fails.string (key _ (by decide)))) (Fails.or (Fails.bind (Fails.char (c := '(') (by decide) (key _ (by decide))))
    (Fails.bind (Fails.char (c := '[') (by decide) (key _ (by decide)))))))))

theorem fails_literal_head (h1 : NotHead isAlpha s) (h2 : NotHead isLitHead s) : Fails (literalF E lit) s := fails_litRest h1 (fails_litRest_head h2)

/-- Words other than the three are not literals. -/
theorem fails_literal_word {w r : List Char} (hw : ∀ c ∈ w, isIdChar c = true) (h0 : NotHead isLitHead w) (hne : w ≠ []) (hr : NotHead isIdChar r) (h1 : w ≠ ['t', 'r', 'u', 'e'])
    (h2 : w ≠ ['f', 'a', 'l', 's', 'e']) (h3 : w ≠ ['n', 'o', 'n', 'e']) : Fails (literalF E lit) (w ++ r) := by
  rw [literalF_eq]
  refine Fails.or (Fails.bind (fails_kw (by decide) hw (fun h => h1 (by rw [← h]; decide)) hr)) (Fails.or (Fails.bind (fails_kw (by decide) hw (fun h => h2 (by rw [← h]; decide)) hr))
    (Fails.or (Fails.bind (fails_kw (by decide) hw (fun h => h3 (by rw [← h]; decide)) hr)) (fails_litRest_head ?_)))
  cases w with
  | nil => exact absurd rfl hne
  | cons c w => exact h0

theorem isNum_cases {c : Char} (h : isNum c = true) : isAlpha c = false ∧ c ≠ '#' ∧ c ≠ '"' ∧ c ≠ '(' ∧ c ≠ '[' ∧ isSkip c = false := by
  refine ⟨?_, ?_, ?_, ?_, ?_, isNum_skip h⟩
  · simp only [isNum, isDig, Bool.or_eq_true, Bool.and_eq_true, decide_eq_true_eq, beq_iff_eq] at h
    cases ha : isAlpha c with
    | false => rfl
    | true =>
      simp only [isAlpha, Bool.or_eq_true, Bool.and_eq_true, decide_eq_true_eq] at ha
      simp only [Char.le_def, UInt32.le_iff_toNat_le] at h ha
      have : ('0' : Char).val.toNat = 48 := rfl
      have : ('9' : Char).val.toNat = 57 := rfl
      have : ('a' : Char).val.toNat = 97 := rfl
      have : ('z' : Char).val.toNat = 122 := rfl
      have : ('A' : Char).val.toNat = 65 := rfl
      have : ('Z' : Char).val.toNat = 90 := rfl
      rcases h with h | h
      · omega
      · subst h
        have : ('-' : Char).val.toNat = 45 := rfl
        omega
  all_goals rintro rfl; revert h; decide

/-- Numbers: the alternatives before. -/
theorem gives_lit_num {c : Char} {t : List Char} (hc : isNum c = true)
    (hQ : Gives ((do let f ← float E; pure (.float f)) </> rangeLit </> (do let i ← int 64; pure (.int i)) </>
      (do let s ← string; pure (.str s)) </>
      (do str "("; skip; let h ← lit; skip; str ","; skip; let t ← lit; skip; str ")"; pure (.pair h t)) </>
      (do str "["; skip; let e ← commaSep lit; skip; str "]"; pure (.arr e))) (c :: t) Q) : Gives (literalF E lit) (c :: t) Q := by
  obtain ⟨h1, h2, _⟩ := isNum_cases hc
  exact gives_litRest h1 (Gives.right (Fails.hexP (show (c == '#') = false by simpa using h2)) hQ)

/-- Only the pair alternative is open. -/
theorem gives_lit_paren {t : List Char}
    (hQ : Gives (do str "("; skip; let h ← lit; skip; str ","; skip; let t ← lit; skip; str ")"; pure (.pair h t) : P Literal) ('(' :: t) Q) : Gives (literalF E lit) ('(' :: t) Q := by
  have hn : NotHead isNum ('(' :: t) := show isNum '(' = false by decide
  refine gives_litRest (show isAlpha '(' = false by decide) ?_
  unfold litRest
  exact Gives.right (Fails.hexP (show ('(' == '#') = false by decide)) (Gives.right (Fails.bind (Fails.float hn)) (Gives.right (Fails.range hn) (Gives.right (Fails.bind (Fails.int hn))
    (Gives.right (Fails.bind (Fails.string (show ('(' == '"') = false by decide))) (Gives.left hQ)))))

theorem fails_lit_paren {t : List Char}
    (hQ : Fails (do str "("; skip; let h ← lit; skip; str ","; skip; let t ← lit; skip; str ")"; pure (.pair h t) : P Literal) ('(' :: t)) : Fails (literalF E lit) ('(' :: t) := by
  have hn : NotHead isNum ('(' :: t) := show isNum '(' = false by decide
  refine fails_litRest (show isAlpha '(' = false by decide) ?_
  unfold litRest
  exact Fails.or (Fails.hexP (show ('(' == '#') = false by decide)) (Fails.or (Fails.bind (Fails.float hn)) (Fails.or (Fails.range hn) (Fails.or (Fails.bind (Fails.int hn))
    (Fails.or (Fails.bind (Fails.string (show ('(' == '"') = false by decide))) (Fails.or hQ (Fails.bind (Fails.char (c := '[') (by decide) (show ('(' == '[') = false by decide))))))))

/-- Only the array alternative is open. -/
theorem gives_lit_bracket {t : List Char}
    (hQ : Gives (do str "["; skip; let e ← commaSep lit; skip; str "]"; pure (.arr e) : P Literal) ('[' :: t) Q) : Gives (literalF E lit) ('[' :: t) Q := by
  have hn : NotHead isNum ('[' :: t) := show isNum '[' = false by decide
  refine gives_litRest (show isAlpha '[' = false by decide) ?_
  unfold litRest
  exact Gives.right (Fails.hexP (show ('[' == '#') = false by decide)) (Gives.right (Fails.bind (Fails.float hn)) (Gives.right (Fails.range hn) (Gives.right (Fails.bind (Fails.int hn))
    (Gives.right (Fails.bind (Fails.string (show ('[' == '"') = false by decide))) (Gives.right (Fails.bind (Fails.char (c := '(') (by decide) (show ('[' == '(') = false by decide))) hQ)))))

theorem fails_lit_bracket {t : List Char}
    (hQ : Fails (do str "["; skip; let e ← commaSep lit; skip; str "]"; pure (.arr e) : P Literal) ('[' :: t)) : Fails (literalF E lit) ('[' :: t) := by
  have hn : NotHead isNum ('[' :: t) := show isNum '[' = false by decide
  refine fails_litRest (show isAlpha '[' = false by decide) ?_
  unfold litRest
  exact Fails.or (Fails.hexP (show ('[' == '#') = false by decide)) (Fails.or (Fails.bind (Fails.float hn)) (Fails.or (Fails.range hn) (Fails.or (Fails.bind (Fails.int hn))
    (Fails.or (Fails.bind (Fails.string (show ('[' == '"') = false by decide))) (Fails.or (Fails.bind (Fails.char (c := '(') (by decide) (show ('[' == '(') = false by decide))) hQ)))))

end

/-! ## Literals -/

/-- What may follow a literal. -/
structure LitSafe (isInt : Bool) (r : List Char) : Prop where
  word : NotHead isIdChar r
  dot : DotOk r
  colon : isInt = true → NoColonInt r

/-- The literal is read whatever follows. -/
def LitReads (E : Env) (l : LitC) : Prop := ∀ r k, LitSafe l.isInt r → (l.text ++ r).length < k → Takes (literalN E k) (l.text ++ r) (l.val E.float) r

theorem LitC.texts_eq : ∀ es : List (Gap × LitC × Gap), LitC.texts es = joined LitC.text es
  | [] => rfl
  | (g, l, g') :: es => by rw [show LitC.texts ((g, l, g') :: es) = (g.text ++ l.text ++ g'.text) :: LitC.texts es from rfl, LitC.texts_eq es]; rfl

theorem LitC.vals_eq (f : List Char → BitVec 64) : ∀ es : List (Gap × LitC × Gap), LitC.vals f es = es.map fun e => e.2.1.val f
  | [] => rfl
  | (g, l, g') :: es => by rw [show LitC.vals f ((g, l, g') :: es) = l.val f :: LitC.vals f es from rfl, LitC.vals_eq f es]; rfl

theorem litSafe_gap {b : Bool} {g : Gap} {c : Char} {r : List Char} (h1 : isIdChar c = false) (h2 : c ≠ '.') (h3 : isSkip c = false) (h4 : c ≠ ':') (hg : g.ok = true) :
    LitSafe b (g.text ++ c :: r) where
  word := Gap.notHead (gap_not (by decide)) h1
  dot := dotOk_of (Gap.notHead (gap_not (by decide)) (by simpa [NotHead] using h2))
  colon _ v := Fails.take (takes_skip hg (noSkip_cons h3)) (Fails.bind (Fails.str_cons (c := ':') (cs := []) (by decide) h4))

/-- The first character of a literal. -/
theorem LitC.head {l : LitC} (h : l.ok = true) : ∃ c t, l.text = c :: t ∧ (isLitHead c = true ∨ c = 'n' ∨ c = 't' ∨ c = 'f') := by
  cases l with
  | none => exact ⟨_, _, rfl, .inr (.inl rfl)⟩
  | bool b => cases b with
    | true => exact ⟨_, _, rfl, .inr (.inr (.inl rfl))⟩
    | false => exact ⟨_, _, rfl, .inr (.inr (.inr rfl))⟩
  | color ds => exact ⟨_, _, rfl, .inl (by decide)⟩
  | float neg ds fs =>
    simp only [LitC.ok, Bool.and_eq_true, Bool.not_eq_true', List.all_eq_true] at h
    cases neg with
    | true => exact ⟨_, _, rfl, .inl (by decide)⟩
    | false =>
      cases ds with
      | nil => cases h.1.1.1
      | cons d ds => exact ⟨d, _, rfl, .inl (by simp [isLitHead, isNum, h.1.1.2 d (by simp)])⟩
  | int n =>
    obtain ⟨c, t, h1, h2⟩ := snum_head (SNum.dig_of_ok (w := 64) h)
    exact ⟨c, t, h1, .inl (by simp [isLitHead, h2])⟩
  | range a g g' b =>
    simp only [LitC.ok, Bool.and_eq_true] at h
    obtain ⟨c, t, h1, h2⟩ := snum_head (SNum.dig_of_ok h.1.1.1)
    exact ⟨c, t ++ g.text ++ ':' :: (g'.text ++ b.text), by rw [LitC.text, h1]; simp, .inl (by simp [isLitHead, h2])⟩
  | str cs => exact ⟨_, _, rfl, .inl (by decide)⟩
  | pair => exact ⟨_, _, rfl, .inl (by decide)⟩
  | arr => exact ⟨_, _, rfl, .inl (by decide)⟩

theorem litHead_noSkip {c : Char} (h : isLitHead c = true ∨ c = 'n' ∨ c = 't' ∨ c = 'f') : isSkip c = false := by
  rcases h with h | rfl | rfl | rfl
  · simp only [isLitHead, Bool.or_eq_true, beq_iff_eq] at h
    rcases h with (((h | rfl) | rfl) | rfl) | rfl
    · exact isNum_skip h
    all_goals decide
  all_goals decide

theorem LitC.noSkip {l : LitC} (h : l.ok = true) (s : List Char) : NoSkip (l.text ++ s) := by
  obtain ⟨c, t, h1, h2⟩ := LitC.head h
  rw [h1]
  exact noSkip_cons (litHead_noSkip h2)

theorem takes_string {cs : List Char} (h : cs.all (· != '"') = true) (r : List Char) : Takes string ('"' :: (cs ++ '"' :: r)) cs r := by
  unfold string
  refine Takes.bind (Takes.char (c := '"') (by decide) _) ?_
  have hm : Takes (many quotedChar) (cs ++ '"' :: r) cs ('"' :: r) := by
    refine Reads.takes ?_
    have := Reads.many (x := quotedChar) (cs.map fun c => ([c], c)) ('"' :: r) (by simp) ?_ ?_
    · have h1 : ((cs.map fun d => ([d], d)).map Prod.fst).flatten = cs := by
        clear h this; induction cs <;> simp_all
      have h2 : ((cs.map fun d => ([d], d)).map Prod.snd) = cs := by simp [Function.comp_def]
      rwa [h1, h2] at this
    · intro u v t a he
      have ha : (t, a) ∈ cs.map fun d => ([d], d) := by rw [he]; simp
      obtain ⟨d, hd, h'⟩ := List.mem_map.1 ha
      cases h'
      have hd' := List.all_eq_true.1 h _ hd
      exact Reads.left (Reads.bind (t := []) (Reads.notP (Fails.str_cons (c := '"') (cs := []) (by decide) (by simpa using hd'))) (Reads.cls _ rfl))
    · unfold quotedChar
      refine Fails.or ?_ (Fails.bind (Fails.str_cons (c := '\\') (cs := ['u', '{']) (by decide) (by decide)))
      intro p
      obtain ⟨_, q, _, h, _⟩ := Takes.char (s := "\"") (c := '"') (by decide) r p
      rw [bind_def]
      unfold notP
      rw [h]
  exact hm.bind ((Takes.char (c := '"') (by decide) _).bind (Gives.pure ⟨rfl, rfl⟩))

theorem takes_lit_word {E : Env} {lit : P Literal} {r : List Char} (hr : NotHead isIdChar r) :
    Takes (literalF E lit) ('n' :: 'o' :: 'n' :: 'e' :: r) .none r ∧ Takes (literalF E lit) ('t' :: 'r' :: 'u' :: 'e' :: r) (.bool true) r ∧
    Takes (literalF E lit) ('f' :: 'a' :: 'l' :: 's' :: 'e' :: r) (.bool false) r := by
  rw [literalF_eq]
  refine ⟨?_, ?_, ?_⟩
  · refine Gives.right (Fails.bind (Fails.kw (c := 't') (cs := ['r', 'u', 'e']) (by decide) (show ('n' == 't') = false by decide))) ?_
    refine Gives.right (Fails.bind (Fails.kw (c := 'f') (cs := ['a', 'l', 's', 'e']) (by decide) (show ('n' == 'f') = false by decide))) (Gives.left ?_)
    exact (takes_kw (t := ['n', 'o', 'n', 'e']) (by decide) hr).bind (Gives.pure ⟨rfl, rfl⟩)
  · exact Gives.left ((takes_kw (t := ['t', 'r', 'u', 'e']) (by decide) hr).bind (Gives.pure ⟨rfl, rfl⟩))
  · refine Gives.right (Fails.bind (Fails.kw (c := 't') (cs := ['r', 'u', 'e']) (by decide) (show ('f' == 't') = false by decide))) (Gives.left ?_)
    exact (takes_kw (t := ['f', 'a', 'l', 's', 'e']) (by decide) hr).bind (Gives.pure ⟨rfl, rfl⟩)

theorem fails_literal_close {E : Env} {lit : P Literal} {c : Char} {r : List Char} (h : c = ']' ∨ c = ')' ∨ c = '}' ∨ c = ',') : Fails (literalF E lit) (c :: r) := by
  rcases h with rfl | rfl | rfl | rfl <;> exact fails_literal_head (show isAlpha _ = false by decide) (show isLitHead _ = false by decide)

/-- A literal in an array or a pair. -/
theorem lit_elem {E : Env} {l : LitC} (h : LitReads E l) (k : Nat) {G : Gap} {c : Char} {s : List Char} (hG : G.ok = true) (hc : c = ',' ∨ c = ')' ∨ c = ']')
    (hk : (l.text ++ (G.text ++ c :: s)).length < k) :
    Gives (literalN E k) (l.text ++ (G.text ++ c :: s)) fun a s' => a = l.val E.float ∧ ∃ G' : Gap, G'.ok = true ∧ s' = G'.text ++ c :: s := by
  refine (h _ k ?_ hk).imp ?_
  · rcases hc with rfl | rfl | rfl <;> exact litSafe_gap (by decide) (by decide) (by decide) (by decide) hG
  · rintro a s' ⟨rfl, rfl⟩
    exact ⟨rfl, G, hG, rfl⟩

mutual
/-- The parser of literals reads the literals of the reference grammar. -/
theorem lit_reads (E : Env) : ∀ l : LitC, l.ok = true → LitReads E l
  | .none, _ => by
    intro r k hs hk
    cases k with
    | zero => omega
    | succ k => exact (takes_lit_word hs.word).1
  | .bool b, _ => by
    intro r k hs hk
    cases k with
    | zero => omega
    | succ k => cases b with
      | true => exact (takes_lit_word hs.word).2.1
      | false => exact (takes_lit_word hs.word).2.2
  | .color ds, h => by
    intro r k hs hk
    cases k with
    | zero => omega
    | succ k =>
      simp only [LitC.ok, Bool.and_eq_true, Bool.not_eq_true', List.all_eq_true] at h
      show Takes (literalF E (literalN E k)) ('#' :: ds ++ r) _ r
      refine gives_litRest (show isAlpha '#' = false by decide) (Gives.left ?_)
      obtain ⟨⟨R, G, B, A⟩, hc⟩ := Option.isSome_iff_exists.1 h.2
      have := (Reads.hex (r := r) h.1.2 (hs.word.imp isHex_idChar) hc).takes
      rw [LitC.val, hc]
      exact this
  | .float neg ds fs, h => by
    intro r k hs hk
    cases k with
    | zero => omega
    | succ k =>
      obtain ⟨c, t, h1, h2⟩ := LitC.head h
      simp only [LitC.ok, Bool.and_eq_true, Bool.not_eq_true'] at h
      have hf : Takes (float E) ((LitC.float neg ds fs).text ++ r) (E.float ((if neg then ['-'] else []) ++ ds ++ '.' :: fs)) r := by
        rw [show (LitC.float neg ds fs).text ++ r = (if neg then ['-'] else []) ++ (ds ++ '.' :: (fs ++ r)) by simp [LitC.text]]
        have key : ∀ m : Option Unit, m.isSome = neg → Takes (do
            let ds ← many1 (cls isDig); str "."; notP (str "."); let fs ← many (cls isDig)
            pure (E.float ((if m.isSome then ['-'] else []) ++ ds ++ ['.'] ++ fs)) : P (BitVec 64)) (ds ++ '.' :: (fs ++ r))
            (E.float ((if neg then ['-'] else []) ++ ds ++ '.' :: fs)) r := by
          intro m hm
          refine Takes.bind (takes_many1 h.1.1.1 h.1.1.2 (show isDig '.' = false by decide)) ?_
          refine Takes.bind (Takes.char (c := '.') (by decide) _) ?_
          refine Takes.bind (a := ()) (s' := fs ++ r) ?_ ?_
          · have : Fails (str ".") (fs ++ r) := by
              cases fs with
              | nil => cases h.1.2
              | cons d fs =>
                have hd := List.all_eq_true.1 h.2 d (by simp)
                exact Fails.str_cons (c := '.') (cs := []) (by decide) (by rintro rfl; exact absurd hd (by decide))
            exact fun p => ⟨(), p, _, by unfold notP; rw [this p], rfl, rfl⟩
          · refine Takes.bind (Reads.many_cls fs r (List.all_eq_true.1 h.2) (hs.word.imp isDig_idChar)).takes (Gives.pure ⟨?_, rfl⟩)
            rw [hm]; simp
        unfold float
        cases neg with
        | true => exact Takes.bind (Takes.char (c := '-') (by decide) _).opt_some (key _ rfl)
        | false =>
          refine Takes.bind (Takes.opt_none (Fails.char (c := '-') (by decide) ?_)) (key _ rfl)
          cases ds with
          | nil => cases h.1.1.1
          | cons d ds =>
            have hd := List.all_eq_true.1 h.1.1.2 d (by simp)
            show (d == '-') = false
            cases h : d == '-' with
            | false => rfl
            | true => rw [eq_of_beq h] at hd; exact absurd hd (by decide)
      have hc : isNum c = true := by
        cases neg with
        | true => cases h1; decide
        | false =>
          cases ds with
          | nil => cases h.1.1.1
          | cons d ds => cases h1; have := List.all_eq_true.1 h.1.1.2 c (by simp); simp [isNum, this]
      rw [h1] at hf ⊢
      exact gives_lit_num hc (Gives.left (hf.bind (Gives.pure ⟨rfl, rfl⟩)))
  | .int n, h => by
    intro r k hs hk
    cases k with
    | zero => omega
    | succ k =>
      have hd := SNum.dig_of_ok (w := 64) h
      obtain ⟨c, t, h1, h2⟩ := snum_head hd
      have f1 := fails_float_snum (E := E) hd hs.word hs.dot
      have f2 := fails_range_snum hd hs.word (hs.colon rfl)
      have f3 := takes_snum (w := 64) hd hs.word
      rw [LitC.val, ← SNum.read_ok (w := 64) h, LitC.text]
      rw [h1] at f1 f2 f3 ⊢
      exact gives_lit_num h2 (Gives.right (Fails.bind f1) (Gives.right f2 (Gives.left (f3.bind (Gives.pure ⟨rfl, rfl⟩)))))
  | .range a g g' b, h => by
    intro r k hs hk
    cases k with
    | zero => omega
    | succ k =>
      simp only [LitC.ok, Bool.and_eq_true] at h
      obtain ⟨c, t, h1, h2⟩ := snum_head (SNum.dig_of_ok h.1.1.1)
      have f1 : Fails (float E) ((LitC.range a g g' b).text ++ r) := by
        rw [show (LitC.range a g g' b).text ++ r = a.text ++ (g.text ++ ':' :: (g'.text ++ b.text ++ r)) by simp [LitC.text]]
        exact fails_float_snum (SNum.dig_of_ok h.1.1.1) (Gap.notHead (gap_not (by decide)) (show isIdChar ':' = false by decide))
          (dotOk_of (Gap.notHead (gap_not (by decide)) (show (':' == '.') = false by decide)))
      have f2 := takes_range h.1.1.1 h.2 h.1.1.2 h.1.2 hs.word
      rw [LitC.val]
      rw [show (LitC.range a g g' b).text ++ r = c :: (t ++ g.text ++ ':' :: (g'.text ++ b.text) ++ r) by simp [LitC.text, h1]] at f1 ⊢
      rw [show a.text ++ g.text ++ ':' :: (g'.text ++ b.text) ++ r = c :: (t ++ g.text ++ ':' :: (g'.text ++ b.text) ++ r) by simp [h1]] at f2
      exact gives_lit_num h2 (Gives.right (Fails.bind f1) (Gives.left f2))
  | .str cs, h => by
    intro r k hs hk
    cases k with
    | zero => omega
    | succ k =>
      rw [show (LitC.str cs).text ++ r = '"' :: (cs ++ '"' :: r) by simp [LitC.text]]
      have hn : NotHead isNum ('"' :: (cs ++ '"' :: r)) := show isNum '"' = false by decide
      refine gives_litRest (show isAlpha '"' = false by decide) ?_
      unfold litRest
      exact Gives.right (Fails.hexP (show ('"' == '#') = false by decide)) (Gives.right (Fails.bind (Fails.float hn)) (Gives.right (Fails.range hn) (Gives.right (Fails.bind (Fails.int hn))
        (Gives.left ((takes_string h r).bind (Gives.pure ⟨rfl, rfl⟩))))))
  | .pair g1 a g2 g3 b g4, h => by
    intro r k hs hk
    cases k with
    | zero => omega
    | succ k =>
      simp only [LitC.ok, Bool.and_eq_true] at h
      obtain ⟨⟨⟨⟨⟨h1, h2⟩, h3⟩, h4⟩, h5⟩, h6⟩ := h
      have iha := lit_reads E a h2
      have ihb := lit_reads E b h5
      have e : (LitC.pair g1 a g2 g3 b g4).text ++ r = '(' :: (g1.text ++ (a.text ++ (g2.text ++ ',' :: (g3.text ++ (b.text ++ (g4.text ++ ')' :: r)))))) := by simp [LitC.text]
      rw [e] at hk ⊢
      simp only [List.length_cons, List.length_append] at hk
      refine gives_lit_paren (Takes.bind (Takes.char (c := '(') (by decide) _) ?_)
      refine Takes.bind (takes_skip h1 (LitC.noSkip h2 _)) ?_
      refine Gives.bind (lit_elem iha k h3 (.inl rfl) (by simp; omega)) ?_
      rintro _ _ ⟨rfl, G', hG', rfl⟩
      refine Takes.bind (takes_skip hG' (noSkip_comma _)) (Takes.bind (Takes.char (c := ',') (by decide) _) ?_)
      refine Takes.bind (takes_skip h4 (LitC.noSkip h5 _)) ?_
      refine Gives.bind (lit_elem ihb k h6 (.inr (.inl rfl)) (by simp; omega)) ?_
      rintro _ _ ⟨rfl, G', hG', rfl⟩
      refine Takes.bind (takes_skip hG' (noSkip_cons (by decide))) (Takes.bind (Takes.char (c := ')') (by decide) _) (Gives.pure ⟨?_, rfl⟩))
      rw [LitC.val]
  | .arr g es, h => by
    intro r k hs hk
    cases k with
    | zero => omega
    | succ k =>
      simp only [LitC.ok, Bool.and_eq_true] at h
      have ih := lits_read E es h.2
      have e : (LitC.arr g es).text ++ r = '[' :: (g.text ++ (commas (joined LitC.text es) ++ (Gap.text [] ++ ']' :: r))) := by
        simp [LitC.text, LitC.texts_eq, Gap.text_nil]
      rw [e] at hk ⊢
      refine gives_lit_bracket (Takes.bind (Takes.char (c := '[') (by decide) _) ?_)
      have hend : ListEnd [] (']' :: r) := ⟨rfl, noSkip_cons (by decide), show (']' == ',') = false by decide⟩
      have h1 := gives_commaSep (x := literalN E k) (t := LitC.text) (π := id) (v := LitC.val E.float) (g0 := g) hend h.1 k (es := es)
        (fun e he => ⟨(ih e he).1, (ih e he).2.2.1⟩) (fun e he s => (ih e he).2.2.2 s)
        (fun e he s hl => lit_elem (ih e he).2.1 k (ih e he).2.2.1 (.inl rfl) hl)
        (fun e he hl => by
          rw [List.append_nil] at hl ⊢
          exact lit_elem (ih e (List.mem_of_getLast? he)).2.1 k (ih e (List.mem_of_getLast? he)).2.2.1 (.inr (.inr rfl)) hl)
        (fun _ => by
          cases k with
          | zero => simp at hk
          | succ k => exact fails_literal_close (.inl rfl))
        (by simp at hk ⊢; omega)
      refine gives_skip_commaSep (h1.bind ?_)
      rintro as s' ⟨has, rfl⟩
      refine Takes.bind (takes_skip_nil (noSkip_cons (by decide))) (Takes.bind (Takes.char (c := ']') (by decide) _) (Gives.pure ⟨?_, rfl⟩))
      rw [LitC.val, LitC.vals_eq, ← has, List.map_id]
termination_by structural l => l
theorem lits_read (E : Env) : ∀ es : List (Gap × LitC × Gap), LitC.oks es = true →
    ∀ e ∈ es, e.1.ok = true ∧ LitReads E e.2.1 ∧ e.2.2.ok = true ∧ ∀ s, NoSkip (e.2.1.text ++ s)
  | [], _ => by intro e he; cases he
  | (g, l, g') :: es, h => by
    simp only [LitC.oks, Bool.and_eq_true] at h
    have h1 := lit_reads E l h.1.1.2
    have h2 := lits_read E es h.2
    intro e he
    rcases List.mem_cons.1 he with rfl | he
    · exact ⟨h.1.1.1, h1, h.1.2, LitC.noSkip h.1.1.2⟩
    · exact h2 e he
termination_by structural es => es
end

end Quilt.Cs
