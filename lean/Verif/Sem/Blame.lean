import Verif.Sem.BlameSpec
import Verif.Compiler.Misplaced

/-!
# Errors and crashes have a culprit in the program

Evaluation fails only with errors that some node of the program is to blame for; with undeclared names only if the program is not scoped. It
crashes only if some node can.
-/

set_option linter.unusedSectionVars false

namespace Quilt

/-! ## Values -/

namespace Val
variable {C : Type}

theorem mkRange_fault {a b : Val C} {e : Err} (h : mkRange a b = .err e) : ∃ v : Val C, (v = a ∨ v = b) ∧ v.whole = false ∧ e = .type (.expected "int" v.ntype) := by
  cases a <;> cases b <;> cases h <;> first | exact ⟨_, .inl rfl, rfl, rfl⟩ | exact ⟨_, .inr rfl, rfl, rfl⟩

theorem mkRange_calm {a b : Val C} : mkRange a b ≠ .panic := by
  cases a <;> cases b <;> simp [mkRange]

theorem mkArray_calm {lim : Limits} {xs : List (Val C)} : mkArray lim xs ≠ .panic := by
  have : ∀ (xs : List (Val C)) (v : Vecc (Val C)), pushAllV v xs ≠ .panic := by
    intro xs
    induction xs with
    | nil => intro v; simp [pushAllV]
    | cons x xs ih =>
      intro v
      unfold pushAllV Vecc.push
      by_cases hs : v.size + x.getSize > v.maxSize
      · rw [if_pos hs]; simp
      · rw [if_neg hs]; exact ih _
  unfold mkArray
  have := this xs (Vecc.new lim.arrMax)
  cases hp : pushAllV (Vecc.new lim.arrMax) xs with
  | panic => exact absurd hp this
  | _ => simp [Res.map]

theorem mkArray_fault {lim : Limits} {xs : List (Val C)} {e : Err} (h : mkArray lim xs = .err e) :
    lim.arrMax < (xs.map getSize).sum ∧ e = .overflow .arrayTooLarge := by
  have : ∀ (xs : List (Val C)) (v : Vecc (Val C)), pushAllV v xs = .err e → v.maxSize < v.size + (xs.map getSize).sum ∧ e = .overflow .arrayTooLarge := by
    intro xs
    induction xs with
    | nil => intro v h; cases h
    | cons x xs ih =>
      intro v h
      unfold pushAllV Vecc.push at h
      by_cases hs : v.size + x.getSize > v.maxSize
      · rw [if_pos hs] at h; cases h; exact ⟨by simp only [List.map_cons, List.sum_cons]; omega, rfl⟩
      · rw [if_neg hs] at h
        obtain ⟨h1, h2⟩ := ih _ h
        exact ⟨by simp only [List.map_cons, List.sum_cons] at h1 ⊢; omega, h2⟩
  unfold mkArray at h
  cases hp : pushAllV (Vecc.new lim.arrMax) xs with
  | ok v => rw [hp] at h; cases h
  | panic => rw [hp] at h; cases h
  | err e' => rw [hp] at h; cases h; simpa [Vecc.new] using this _ _ hp

theorem fixIndex_fault {chk : Bool} {i : BitVec 64} {n : Nat} {e : Err} (h : fixIndex chk i n = .err e) : (i.toInt < -n ∨ (n : Int) ≤ i.toInt) ∧ e = .index i := by
  have h1 := BitVec.toInt_eq_toNat_cond i
  have h2 := BitVec.toInt_eq_toNat_cond (-i)
  have h3 := i.isLt
  rw [BitVec.toNat_neg] at h2
  unfold fixIndex at h
  dsimp only at h
  split at h
  · split at h
    · cases h
    · split at h
      · cases h
        refine ⟨.inl ?_, rfl⟩
        omega
      · repeat' split at h
        all_goals simp only [Res.bind] at h
        all_goals repeat' split at h
        all_goals cases h
        all_goals exact ⟨by omega, rfl⟩
  · simp only [Res.bind] at h
    split at h <;> cases h
    exact ⟨by omega, rfl⟩

theorem fixIndex_crash {chk : Bool} {i : BitVec 64} {n : Nat} (h : fixIndex chk i n = .panic) : chk = true ∧ (i = BitVec.intMin 64 ∨ -n ≤ i.toInt ∧ i.toInt < 0) := by
  have h1 := BitVec.toInt_eq_toNat_cond i
  have h2 := BitVec.toInt_eq_toNat_cond (-i)
  have h3 := i.isLt
  rw [BitVec.toNat_neg] at h2
  unfold fixIndex at h
  dsimp only at h
  split at h
  · split at h
    · rename_i hc; exact ⟨hc.2, .inl hc.1⟩
    · split at h
      · cases h
      · repeat' split at h
        all_goals simp only [Res.bind] at h
        all_goals repeat' split at h
        all_goals cases h
        rename_i hc
        exact ⟨hc, .inr (by omega)⟩
  · simp only [Res.bind] at h
    split at h <;> cases h

theorem fixIndex_lt {chk : Bool} {i : BitVec 64} {n j : Nat} (h : fixIndex chk i n = .ok j) : j < n := by
  unfold fixIndex at h
  dsimp only at h
  revert h
  generalize (if i.toInt < 0 then _ else _ : Res Nat) = q
  intro h
  cases q with
  | ok k =>
    simp only [Res.bind] at h
    split at h <;> cases h
    omega
  | _ => cases h

variable {D : Type} {S : SHost D}

theorem indexGet_crash {a i : Node} {v k : SVal} (ha : Gives S a v) (hi : Gives S i k) (h : indexGet S.cfg.chk v k = .panic) {sp : Span} : Crashes S (.index sp a i) := by
  unfold indexGet at h
  have fx : ∀ {k : BitVec 64} {n : Nat} {f : Nat → Res SVal}, Gives S i (.int k) → v.extent = some n → (fixIndex S.cfg.chk k n).bind f = .panic → (∀ j, j < n → f j ≠ .panic) →
      Crashes S (.index sp a i) := by
    intro k n f hk hv h hf
    cases hx : fixIndex S.cfg.chk k n with
    | ok j => rw [hx] at h; exact absurd h (hf j (fixIndex_lt hx))
    | err e => rw [hx] at h; cases h
    | panic =>
      obtain ⟨h1, h2⟩ := fixIndex_crash hx
      exact .index v k h1 ha hk hv h2
  cases k
  case int k =>
    cases v <;> dsimp only at h
    case arr xs n m => exact fx hi rfl h fun j hj => by rw [List.getElem?_eq_getElem hj]; simp
    case str s => exact fx hi rfl h fun j hj => by rw [List.getElem?_eq_getElem hj]; simp
    case color r g b a => exact fx hi rfl h fun j hj => by rw [List.getElem?_eq_getElem (by simpa using hj)]; simp
    case pair a b => exact fx hi rfl h fun j hj => by rw [List.getElem?_eq_getElem (by simpa using hj)]; simp
    all_goals cases h
  all_goals cases h

theorem indexGet_fault {chk : Bool} {a m : Node} {v i : SVal} (ha : Gives S a v) (hm : Gives S m i) {e : Err} (h : indexGet chk v i = .err e) : IndexFault S a m e := by
  unfold indexGet at h
  have fx : ∀ {k : BitVec 64} {n : Nat} {f : Nat → Res SVal}, Gives S m (.int k) → v.extent = some n → (fixIndex chk k n).bind f = .err e → (∀ j, f j ≠ .err e) → IndexFault S a m e := by
    intro k n f hk hv h hf
    cases hx : fixIndex chk k n with
    | ok j => rw [hx] at h; exact absurd h (hf j)
    | panic => rw [hx] at h; cases h
    | err e' =>
      rw [hx] at h; cases h
      obtain ⟨h1, rfl⟩ := fixIndex_fault hx
      exact .range v k ha hk hv h1
  cases i
  case int k =>
    cases v <;> dsimp only at h
    case arr xs n m => exact fx hm rfl h fun j hj => by split at hj <;> cases hj
    case str s => exact fx hm rfl h fun j hj => by split at hj <;> cases hj
    case color r g b a => exact fx hm rfl h fun j hj => by split at hj <;> cases hj
    case pair a b => exact fx hm rfl h fun j hj => by split at hj <;> cases hj
    all_goals cases h; exact .value _ ha rfl
  all_goals cases h; exact .index _ hm rfl

theorem unary_fault {cfg : Cfg} {op : Op} {a : Val C} {e : Err} (h : Val.unary cfg op a = .err e) : op.takesOne a = false ∧ e = .type (.unsupportedUnary op.written a.ntype) := by
  cases op <;> simp only [Val.unary] at h
  case not => cases a <;> cases h <;> exact ⟨rfl, rfl⟩
  case neg =>
    cases a
    case int =>
      simp only [Val.negate] at h
      unfold wrapI at h; repeat' split at h
      all_goals cases h
    all_goals cases h <;> exact ⟨rfl, rfl⟩
  case bitNot => cases a <;> cases h <;> exact ⟨rfl, rfl⟩
  all_goals cases h

theorem unary_crash {a : Node} {op : Op} (hop : op.isUnary = true) {v : SVal} (ha : Gives S a v) (h : Val.unary S.cfg op v = .panic) {sp : Span} : Crashes S (.un sp op a) := by
  cases op <;> simp only [Val.unary] at h <;> try cases hop
  case not => cases v <;> cases h
  case bitNot => cases v <;> cases h
  case neg =>
    cases v
    case int i =>
      simp only [Val.negate] at h
      unfold wrapI at h
      split at h
      · cases h
      · split at h
        · rename_i h1 h2
          have := BitVec.toInt_lt (x := i)
          have := BitVec.le_toInt (x := i)
          obtain rfl : i = BitVec.intMin 64 := BitVec.eq_of_toInt_eq (by rw [BitVec.toInt_intMin]; omega)
          exact .unary h2 ha
        · cases h
    all_goals cases h

private theorem wrapI_ne {chk : Bool} {r : Int} {e : Err} : (wrapI chk r : Res (Val C)) ≠ .err e := by
  unfold wrapI
  repeat' split
  all_goals simp

private theorem wrapI_crash {chk : Bool} {r : Int} (h : (wrapI chk r : Res (Val C)) = .panic) : chk = true ∧ (r < -2 ^ 63 ∨ 2 ^ 63 ≤ r) := by
  unfold wrapI at h
  split at h
  · cases h
  · split at h
    · exact ⟨by assumption, by omega⟩
    · cases h

private theorem strCat_fault {m : Nat} {a b : List Char} {e : Err} (h : (strCat m a b : Res (Val C)) = .err e) : m < utf8Len a + utf8Len b ∧ e = .overflow .stringTooLarge := by
  unfold strCat at h
  split at h <;> cases h
  exact ⟨by assumption, rfl⟩

private theorem strCat_calm {m : Nat} {a b : List Char} : (strCat m a b : Res (Val C)) ≠ .panic := by
  unfold strCat
  split <;> simp

private theorem chan_ne {r g b a : Res (BitVec 8)} {e : Err} (hr : ∀ e, r ≠ .err e) (hg : ∀ e, g ≠ .err e) (hb : ∀ e, b ≠ .err e) (ha : ∀ e, a ≠ .err e) :
    (chan4 r g b a : Res (Val C)) ≠ .err e := by
  cases r <;> cases g <;> cases b <;> cases a <;> simp_all [chan4, Res.bind]

private theorem chanDiv_ne (a b : BitVec 8) (e : Err) : chanDiv a b ≠ .err e := by unfold chanDiv; split <;> simp
private theorem chanAvg_ne (chk : Bool) (a b : BitVec 8) (e : Err) : chanAvg chk a b ≠ .err e := by
  unfold chanAvg
  repeat' split
  all_goals simp

set_option hygiene false in
/-- In the last case of an operator. -/
local macro "nt" : tactic => `(tactic| (cases a <;> cases b <;> first | rfl | (exfalso; simp at *; done) | (exfalso; simp at *; rename_i hq; exact hq _ _ _ _ _ _ _ _ rfl rfl rfl rfl rfl rfl rfl rfl) | grind))

private theorem isZero_nought {F : FOps} {v : Val C} : v.isZero F = v.nought F := by cases v <;> rfl

private theorem extend_fault {e : Err} : ∀ (r : List SVal) (v : Vecc SVal), (Vecc.extend Val.getSize v r).1 = .err e → v.maxSize < v.size + (r.map getSize).sum ∧ e = .overflow .arrayTooLarge := by
  intro r
  induction r with
  | nil => intro v h; cases h
  | cons x xs ih =>
    intro v h
    unfold Vecc.extend at h
    dsimp only at h
    split at h
    · cases h; exact ⟨by simp only [List.map_cons, List.sum_cons]; omega, rfl⟩
    · obtain ⟨h1, h2⟩ := ih _ h
      exact ⟨by simp only [List.map_cons, List.sum_cons] at h1 ⊢; omega, h2⟩

private theorem extend_calm : ∀ (r : List SVal) (v : Vecc SVal), (Vecc.extend Val.getSize v r).1 ≠ .panic := by
  intro r
  induction r with
  | nil => intro v h; cases h
  | cons x xs ih =>
    intro v h
    unfold Vecc.extend at h
    dsimp only at h
    split at h
    · cases h
    · exact ih _ h

private theorem arrJoin_fault {m : Nat} {l : List SVal} {ls lm : Nat} {r : List SVal} {rs : Nat} {e : Err} (h : arrJoin m l ls lm r rs = .err e) :
    (m < ls + rs ∨ lm < ls + (r.map getSize).sum) ∧ e = .overflow .arrayTooLarge := by
  unfold arrJoin at h
  split at h
  · cases h; exact ⟨.inl (by assumption), rfl⟩
  · have := extend_fault (e := e) r (⟨l, ls, lm⟩ : Vecc SVal)
    generalize Vecc.extend Val.getSize (⟨l, ls, lm⟩ : Vecc SVal) r = q at this h
    obtain ⟨o, v⟩ := q
    cases o with
    | ok u => cases h
    | err e => cases h; exact (this rfl).imp_left .inr
    | panic => cases h

private theorem arrJoin_calm {m : Nat} {l : List SVal} {ls lm : Nat} {r : List SVal} {rs : Nat} : arrJoin m l ls lm r rs ≠ .panic := by
  unfold arrJoin
  split
  · simp
  · have := extend_calm r (⟨l, ls, lm⟩ : Vecc SVal)
    generalize Vecc.extend Val.getSize (⟨l, ls, lm⟩ : Vecc SVal) r = q at this
    obtain ⟨o, v⟩ := q
    cases o with
    | panic => exact absurd rfl this
    | _ => simp

theorem binary_fault {m m' : Node} {a b : SVal} (ha : Gives S m a) (hb : Gives S m' b) {ceq : SClos → SClos → Option Bool} {op : Op} {e : Err}
    (h : Val.binary S.cfg S.lim ceq op a b = .err e) : OpFault S op m m' e := by
  cases op <;> simp only [Val.binary] at h
  case add =>
    unfold Val.add at h
    split at h <;> first | (obtain ⟨h1, rfl⟩ := strCat_fault h; exact .concat _ _ rfl ha hb h1) | exact absurd h wrapI_ne | (cases h; exact .types _ _ ha hb (by nt)) | cases h
  case sub =>
    unfold Val.subtract at h
    split at h <;> first | exact absurd h wrapI_ne | (cases h; exact .types _ _ ha hb (by nt)) | cases h
  case mul =>
    unfold Val.multiply at h
    split at h
    · rename_i s k
      unfold Val.strMul at h
      dsimp only at h
      split at h
      · cases h; exact .times _ _ rfl ha hb (by assumption)
      · have h0 : S.lim.strMax < utf8Len s * k.toNat ∧ e = .overflow .stringTooLarge := by
          generalize utf8Len s * k.toNat = p at h
          repeat' split at h
          all_goals cases h
          all_goals exact ⟨by omega, rfl⟩
        obtain ⟨h1, rfl⟩ := h0
        exact .repeat _ _ rfl ha hb (by omega) h1
    all_goals first | exact absurd h wrapI_ne | (cases h; exact .types _ _ ha hb (by nt)) | cases h
  case div =>
    unfold Val.divide at h
    split at h
    · rename_i hz; cases h; exact .zero _ (.inl rfl) hb (by rw [← isZero_nought]; exact hz)
    · split at h <;> first | exact absurd h (chan_ne (chanDiv_ne _ _) (chanDiv_ne _ _) (chanDiv_ne _ _) (chanDiv_ne _ _)) | (cases h; exact .types _ _ ha hb (by nt)) | (split at h <;> cases h) | cases h
  case mod =>
    unfold Val.modulo at h
    split at h
    · rename_i hz; cases h; exact .zero _ (.inr rfl) hb (by rw [← isZero_nought]; exact hz)
    · split at h <;> first | (cases h; exact .types _ _ ha hb (by nt)) | (split at h <;> cases h) | cases h
  case pow =>
    unfold Val.power at h
    split at h <;> first | exact absurd h wrapI_ne | (cases h; exact .types _ _ ha hb (by nt)) | cases h
  case eq => unfold Val.equal at h; split at h <;> cases h
  case neq => unfold Val.notEqual at h; split at h <;> cases h
  case lt => unfold Val.lt Val.compare at h; split at h <;> cases h; exact .types _ _ ha hb (by nt)
  case gt => unfold Val.gt Val.compare at h; split at h <;> cases h; exact .types _ _ ha hb (by nt)
  case lte => unfold Val.le Val.compare at h; split at h <;> cases h; exact .types _ _ ha hb (by nt)
  case gte => unfold Val.ge Val.compare at h; split at h <;> cases h; exact .types _ _ ha hb (by nt)
  case and => unfold Val.land at h; split at h <;> cases h; exact .types _ _ ha hb (by nt)
  case or => unfold Val.lor at h; split at h <;> cases h; exact .types _ _ ha hb (by nt)
  case join =>
    unfold Val.join at h
    split at h <;> first | (obtain ⟨h1, rfl⟩ := strCat_fault h; exact .join _ _ _ _ rfl ha hb rfl rfl h1) | (obtain ⟨h1, rfl⟩ := arrJoin_fault h; exact .array _ _ _ _ _ _ rfl ha hb h1) | exact absurd h (chan_ne (chanAvg_ne _ _ _) (chanAvg_ne _ _ _) (chanAvg_ne _ _ _) (chanAvg_ne _ _ _)) | (cases h; exact .types _ _ ha hb (by nt))
  case bitAnd => unfold Val.bitOp at h; split at h <;> cases h; exact .types _ _ ha hb (by nt)
  case bitOr => unfold Val.bitOp at h; split at h <;> cases h; exact .types _ _ ha hb (by nt)
  case bitXor => unfold Val.bitOp at h; split at h <;> cases h; exact .types _ _ ha hb (by nt)
  case shl => unfold Val.shl Val.shiftOp at h; repeat' split at h
              all_goals cases h
              all_goals exact .types _ _ ha hb (by nt)
  case shr => unfold Val.shr Val.shiftOp at h; repeat' split at h
              all_goals cases h
              all_goals exact .types _ _ ha hb (by nt)
  all_goals cases h

private theorem chan4_crash {r g b a : Res (BitVec 8)} (h : (chan4 r g b a : Res (Val C)) = .panic) : r = .panic ∨ g = .panic ∨ b = .panic ∨ a = .panic := by
  cases r <;> cases g <;> cases b <;> cases a <;> simp_all [chan4, Res.bind]

private theorem chanDiv_crash {a b : BitVec 8} (h : chanDiv a b = .panic) : b = 0 := by
  unfold chanDiv at h
  split at h
  · exact BitVec.eq_of_toNat_eq (by simpa using ‹_›)
  · cases h

private theorem chanAvg_crash {chk : Bool} {a b : BitVec 8} (h : chanAvg chk a b = .panic) : chk = true ∧ 256 ≤ a.toNat + b.toNat := by
  unfold chanAvg at h
  split at h
  · cases h
  · split at h
    · exact ⟨by assumption, by omega⟩
    · cases h

private theorem divOverflows_least {l r : BitVec 64} (h : divOverflows l r = true) : l = BitVec.intMin 64 ∧ r = -1 := by simpa [divOverflows] using h

theorem binary_crash {m m' : Node} {a b : SVal} (ha : Gives S m a) (hb : Gives S m' b) {ceq : SClos → SClos → Option Bool} {op : Op} (hop : op.isUnary = false)
    (h1 : op ≠ .eq) (h2 : op ≠ .neq) (h : Val.binary S.cfg S.lim ceq op a b = .panic) : OpCrash S op m m' := by
  have wr : ∀ {x y : BitVec 64} {r : Int}, Gives S m (.int x) → Gives S m' (.int y) → op.exact x y = some r → (wrapI S.cfg.chk r : Res SVal) = .panic → OpCrash S op m m' :=
    fun ha hb he hw => .result (wrapI_crash hw).1 ha hb he (wrapI_crash hw).2
  cases op <;> simp only [Val.binary] at h
  case add =>
    unfold Val.add at h
    split at h <;> first | exact absurd h strCat_calm | exact wr ha hb rfl h | cases h
  case sub =>
    unfold Val.subtract at h
    split at h <;> first | exact wr ha hb rfl h | cases h
  case mul =>
    unfold Val.multiply at h
    split at h
    · rename_i s k
      unfold Val.strMul at h
      dsimp only at h
      split at h
      · cases h
      · have h0 : 2 ^ 64 ≤ utf8Len s * k.toNat := by
          generalize utf8Len s * k.toNat = p at h
          repeat' split at h
          all_goals cases h
          all_goals omega
        exact .repeat _ _ rfl ha hb (by omega) h0
    all_goals first | exact wr ha hb rfl h | cases h
  case div =>
    unfold Val.divide at h
    split at h
    · cases h
    · split at h
      · cases h
      · split at h
        · obtain ⟨rfl, rfl⟩ := divOverflows_least ‹_›
          exact .least (.inl rfl) ha hb
        · cases h
      · cases h
      · cases h
      · cases h
      · exact .channel rfl ha hb ((chan4_crash h).imp chanDiv_crash fun h => h.imp chanDiv_crash fun h => h.imp chanDiv_crash chanDiv_crash)
      · cases h
  case mod =>
    unfold Val.modulo at h
    split at h
    · cases h
    · split at h
      · split at h
        · obtain ⟨rfl, rfl⟩ := divOverflows_least ‹_›
          exact .least (.inr rfl) ha hb
        · cases h
      all_goals cases h
  case pow =>
    unfold Val.power at h
    split at h <;> first | exact wr ha hb rfl h | cases h
  case eq => exact absurd rfl h1
  case neq => exact absurd rfl h2
  case lt => unfold Val.lt Val.compare at h; split at h <;> cases h
  case gt => unfold Val.gt Val.compare at h; split at h <;> cases h
  case lte => unfold Val.le Val.compare at h; split at h <;> cases h
  case gte => unfold Val.ge Val.compare at h; split at h <;> cases h
  case and => unfold Val.land at h; split at h <;> cases h
  case or => unfold Val.lor at h; split at h <;> cases h
  case join =>
    unfold Val.join at h
    have av : ∀ {p q r s p' q' r' s' : BitVec 8}, Gives S m (.color p q r s) → Gives S m' (.color p' q' r' s') →
        (chan4 (chanAvg S.cfg.chk p p') (chanAvg S.cfg.chk q q') (chanAvg S.cfg.chk r r') (chanAvg S.cfg.chk s s') : Res SVal) = .panic → OpCrash S .join m m' := by
      intro p q r s p' q' r' s' ha hb h
      rcases chan4_crash h with h | h | h | h
      · exact .mix (chanAvg_crash h).1 rfl ha hb (.inl (chanAvg_crash h).2)
      · exact .mix (chanAvg_crash h).1 rfl ha hb (.inr (.inl (chanAvg_crash h).2))
      · exact .mix (chanAvg_crash h).1 rfl ha hb (.inr (.inr (.inl (chanAvg_crash h).2)))
      · exact .mix (chanAvg_crash h).1 rfl ha hb (.inr (.inr (.inr (chanAvg_crash h).2)))
    split at h <;> first | exact absurd h strCat_calm | exact absurd h arrJoin_calm | exact av ha hb h | cases h
  case bitAnd => unfold Val.bitOp at h; split at h <;> cases h
  case bitOr => unfold Val.bitOp at h; split at h <;> cases h
  case bitXor => unfold Val.bitOp at h; split at h <;> cases h
  case shl => unfold Val.shl Val.shiftOp at h; repeat' split at h
              all_goals cases h
              all_goals exact .shift (by assumption) (.inl rfl) ha hb (by omega)
  case shr => unfold Val.shr Val.shiftOp at h; repeat' split at h
              all_goals cases h
              all_goals exact .shift (by assumption) (.inr rfl) ha hb (by omega)
  all_goals cases hop

theorem unpack_fault {v : SVal} {P : SVal → Prop} (hv : P v) {n : Nat} {e : Err} (h : v.unpack n = .err e) : PartsFault P n e := by
  cases v <;> simp only [Val.unpack] at h
  case pair a b => split at h <;> cases h; exact .number (.pair a b) hv rfl (fun h => by simp_all)
  case arr xs k m => split at h <;> cases h; exact .number (.arr xs k m) hv rfl (by assumption)
  case color r g b a =>
    repeat' split at h
    all_goals cases h
    exact .number (.color r g b a) hv rfl (by omega)
  all_goals cases h; exact .none _ hv rfl

theorem unpack_crash {v : SVal} {P : SVal → Prop} (hv : P v) {n : Nat} (h : v.unpack n = .panic) : PartsCrash P n := by
  cases v <;> simp only [Val.unpack] at h
  case pair a b => split at h <;> cases h
  case arr xs k m => split at h <;> cases h
  case color r g b a =>
    repeat' split at h
    all_goals cases h
    exact ⟨by omega, r, g, b, a, hv⟩
  all_goals cases h

theorem unpack_length {v : Val C} {n : Nat} {vs : List (Val C)} (h : v.unpack n = .ok vs) : vs.length = n := by
  unfold Val.unpack at h
  split at h
  · split at h <;> cases h; simp_all
  · split at h <;> cases h; assumption
  · repeat' split at h
    all_goals cases h
    simp; omega
  · cases h

theorem iterItem_fault {chk : Bool} {v : Val C} {k : Nat} {e : Err} (h : v.iterItem chk k = .err e) : v.iterates = false ∧ e = .type (.notIterable v.ntype) := by
  cases v <;> simp only [Val.iterItem] at h
  case range => split at h <;> cases h
  all_goals cases h
  all_goals exact ⟨rfl, rfl⟩

/-- Loops over ranges crash only if they are very long: positions are numbers of 32 bits. -/
theorem iterItem_crash {chk : Bool} {v : Val C} {k : Nat} (hk : ∀ j < k, ∃ w, v.iterItem chk j = .ok (some w)) (h : v.iterItem chk k = .panic) :
    chk = true ∧ ∃ s e, v = .range s e ∧ 2 ^ 31 ≤ e.toInt - s.toInt := by
  cases v <;> simp only [Val.iterItem] at h
  case range s e =>
    split at h
    · rename_i hc
      refine ⟨hc.1, s, e, rfl, ?_⟩
      false_or_by_contra
      rename_i hlt
      have small : ∀ j, j < 2 ^ 31 → (BitVec.ofNat 32 j).toInt = j := fun j hj => by
        rw [BitVec.toInt_eq_toNat_cond, BitVec.toNat_ofNat]
        have : j % 2 ^ 32 = j := Nat.mod_eq_of_lt (by omega)
        rw [this, if_pos (by omega)]
      have hs1 := BitVec.le_toInt (x := s)
      have hs2 := BitVec.toInt_lt (x := s)
      have he2 := BitVec.toInt_lt (x := e)
      have : ∀ j, j ≤ k → j = 0 ∨ (j : Int) ≤ e.toInt - s.toInt := by
        intro j
        induction j with
        | zero => intro _; exact .inl rfl
        | succ j ih =>
          intro hj
          right
          obtain ⟨w, hw⟩ := hk j (by omega)
          have hjl : j < 2 ^ 31 := by rcases ih (by omega) with h | h <;> omega
          simp only [Val.iterItem] at hw
          rw [small j hjl] at hw
          split at hw
          · cases hw
          · have hr : -2 ^ 31 ≤ s.toInt + (j : Int) ∧ s.toInt + (j : Int) < 2 ^ 31 := by
              rename_i hn
              false_or_by_contra
              rename_i hx
              exact hn ⟨hc.1, hx⟩
            have hi : (BitVec.ofInt 32 (s.toInt + (j : Int))).toInt = s.toInt + j := BitVec.toInt_ofInt_eq_self (by omega) (by omega) (by omega)
            rw [hi] at hw
            split at hw
            · omega
            · cases hw
      have hkl : k < 2 ^ 31 := by rcases this k (Nat.le_refl k) with h | h <;> omega
      have h2 := hc.2
      rw [small k hkl] at h2
      rcases this k (Nat.le_refl k) with h | h <;> omega
    · cases h
  all_goals cases h

theorem isTruthy_calm {F : FOps} {v : Val C} : v.isTruthy F ≠ .panic := by cases v <;> simp [Val.isTruthy]

theorem isTruthy_fault {F : FOps} {v : Val C} {e : Err} (h : v.isTruthy F = .err e) : v.decides = false ∧ e = .type (.expected "truthy" v.ntype) := by
  cases v <;> cases h <;> exact ⟨rfl, rfl⟩

end Val

/-! ## Execution -/

variable {D : Type}

/-- The host, the nodes of the program, whether names are checked, and the names of builtins. -/
structure BlameIn (D : Type) where
  S : SHost D
  N : Node → Prop
  t : Bool
  B : String → Bool
  placed : ∀ m, N m → m.misplaced = false

variable {K : BlameIn D} {G : String → Prop}

/-- The names in `Γ` are variables of the scope or globals. -/
def Seen (G : String → Prop) (Γ : List String) (env : SEnv) : Prop := ∀ x ∈ Γ, x ∈ env.map Prod.fst ∨ G x

/-- Functions are written in the program and, if names are checked, use names in scope only. -/
def HeldF (K : BlameIn D) (G : String → Prop) (c : SClos) : Prop :=
  (∀ m ∈ subsL c.body, K.N m) ∧ (∃ n, K.N n ∧ n.defines c.name c.params.length) ∧
  (K.t = true → ∃ Γ, scopedL K.B Γ c.body = true ∧ ∀ x ∈ Γ, x ∈ c.params ∨ x = c.name ∨ x ∈ c.env.map Prod.fst ∨ G x)

def Held (K : BlameIn D) (G : String → Prop) (v : SVal) : Prop := Only (HeldF K G) v
def HeldL (K : BlameIn D) (G : String → Prop) (vs : List SVal) : Prop := OnlyL (HeldF K G) vs

theorem HeldL.all {vs : List SVal} (h : HeldL K G vs) : ∀ v ∈ vs, Held K G v := OnlyL.all h

structure HeldSt (K : BlameIn D) (G : String → Prop) (σ : SSt D) : Prop where
  store : ∀ l, Held K G (σ.store l)
  globals : ∀ x v, σ.globals x = some v → Held K G v
  defined : ∀ x, G x → (σ.globals x).isSome
  exits : ∀ g ∈ σ.exits, ∃ x f, K.S.builtins x = some (.ctx f g)

/-- Builtins do not make up functions. -/
def HeldB (K : BlameIn D) (G : String → Prop) : Option (Builtin D SClos) → Limits → Prop
  | some (.fn f), lim | some (.ctx f _), lim => ∀ d args v, HeldL K G args → (f d args lim).1 = .ok v → Held K G v
  | none, _ => True

theorem BuiltinRel.held {lim : Limits} {b : Option (Builtin D SClos)} {b' : Option (Builtin D VClos)} (h : BuiltinRel lim b b') : HeldB K G b lim := by
  match b, b', h with
  | none, none, _ => trivial
  | some (.fn f), some (.fn f'), h => exact fun d args v => BRel.only h d args v
  | some (.ctx f e), some (.ctx f' e'), h => exact fun d args v => BRel.only h.1 d args v

/-- Some node is to blame. -/
def Culprit (K : BlameIn D) (e : Err) (sp : Option Span) : Prop := ∃ m, K.N m ∧ (Faults K.S K.N m e sp ∨ K.t = false ∧ Unbound K.S m e sp)

/-- Some node can crash. -/
def Crash (K : BlameIn D) : Prop := ∃ m, K.N m ∧ Crashes K.S m

/-- Errors and crashes have a culprit; and only functions of the program appear in the state. -/
def Bl {α : Type} (K : BlameIn D) (G : String → Prop) (P : α → Prop) (x : SM D α) : Prop := ∀ σ, HeldSt K G σ → HeldSt K G (x σ).2 ∧
  match (x σ).1 with
  | .ok a => P a
  | .ret v => Held K G v
  | .err e sp => Culprit K e sp
  | .panic => Crash K
  | _ => True

namespace Bl
variable {α β : Type}

theorem pure {P : α → Prop} {a : α} (h : P a) : Bl K G P (Pure.pure a : SM D α) := fun _ hs => ⟨hs, h⟩

theorem mono {P Q : α → Prop} {x : SM D α} (h : Bl K G P x) (hpq : ∀ a, P a → Q a) : Bl K G Q x := by
  intro σ hs
  obtain ⟨h1, h2⟩ := h σ hs
  refine ⟨h1, ?_⟩
  cases ho : (x σ).1 with
  | ok a => rw [ho] at h2; exact hpq a h2
  | ret v => rw [ho] at h2; exact h2
  | err e sp => rw [ho] at h2; exact h2
  | panic => rw [ho] at h2; exact h2
  | _ => trivial

/-- The result is a result of the computation. -/
theorem made {P : α → Prop} {x : SM D α} (h : Bl K G P x) : Bl K G (fun a => P a ∧ ∃ σ σ', x σ = (.ok a, σ')) x := by
  intro σ hs
  obtain ⟨h1, h2⟩ := h σ hs
  refine ⟨h1, ?_⟩
  cases ho : (x σ).1 with
  | ok a => rw [ho] at h2; exact ⟨h2, σ, (x σ).2, by rw [← ho]⟩
  | ret v => rw [ho] at h2; exact h2
  | err e sp => rw [ho] at h2; exact h2
  | panic => rw [ho] at h2; exact h2
  | _ => trivial

theorem bind {P : α → Prop} {Q : β → Prop} {x : SM D α} {f : α → SM D β} (hx : Bl K G P x) (hf : ∀ a, P a → Bl K G Q (f a)) :
    Bl K G Q (x >>= f) := by
  intro σ hs
  obtain ⟨h2, h3⟩ := hx σ hs
  have hb : (x >>= f) σ = SM.bind (fun _ => x σ) f σ := rfl
  rw [hb]
  simp only [SM.bind]
  generalize x σ = r at h2 h3
  obtain ⟨o, σ'⟩ := r
  cases o with
  | ok a => exact hf a h3 σ' h2
  | ret v => exact ⟨h2, h3⟩
  | err e sp => exact ⟨h2, h3⟩
  | panic => exact ⟨h2, h3⟩
  | _ => exact ⟨h2, trivial⟩

theorem err {P : α → Prop} {e : Err} {sp : Option Span} (h : Culprit K e sp) : Bl K G P (SM.err e sp : SM D α) := fun _ hs => ⟨hs, h⟩
theorem panic {P : α → Prop} (h : Crash K) : Bl K G P (SM.panic : SM D α) := fun _ hs => ⟨hs, h⟩
theorem timeout {P : α → Prop} : Bl K G P (SM.timeout : SM D α) := fun _ hs => ⟨hs, trivial⟩
theorem unspec {P : α → Prop} : Bl K G P (SM.unspec : SM D α) := fun _ hs => ⟨hs, trivial⟩
theorem incomparable {P : α → Prop} : Bl K G P (SM.incomparable : SM D α) := fun _ hs => ⟨hs, trivial⟩
theorem ret {P : α → Prop} {v : SVal} (h : Held K G v) : Bl K G P (SM.ret v : SM D α) := fun _ hs => ⟨hs, h⟩

theorem lift {P : α → Prop} {r : Res α} {sp : Span} (h : ∀ a, r = .ok a → P a) (he : ∀ e, r = .err e → Culprit K e (some sp)) (hp : r = .panic → Crash K) :
    Bl K G P (SM.lift r sp : SM D α) := by
  cases r with
  | ok a => exact pure (h a rfl)
  | err e => exact err (he e rfl)
  | panic => exact panic (hp rfl)

/-- From a relational fact about a primitive. -/
theorem liftR {P : α → Prop} {R : α → α → Prop} {r : Res α} {sp : Span} (h : Res.Rel R r r) (hp : ∀ a, R a a → P a) (he : ∀ e, r = .err e → Culprit K e (some sp))
    (hq : r = .panic → Crash K) : Bl K G P (SM.lift r sp : SM D α) :=
  lift (fun a ha => by rw [ha] at h; exact hp a h) he hq

theorem alloc {v : SVal} (h : Held K G v) : Bl K G (fun _ => True) (SM.alloc v : SM D Nat) := by
  intro σ hs
  refine ⟨⟨fun l => ?_, hs.globals, hs.defined, hs.exits⟩, trivial⟩
  show Held K G (upd σ.store σ.next v l)
  by_cases hl : l = σ.next
  · subst hl; rw [upd_same]; exact h
  · rw [upd_other _ _ hl]; exact hs.store l

theorem load {l : Nat} : Bl K G (Held K G) (SM.load l : SM D SVal) := fun _ hs => ⟨hs, hs.store l⟩

theorem store {l : Nat} {v : SVal} (h : Held K G v) : Bl K G (fun _ => True) (SM.store l v : SM D Unit) := by
  intro σ hs
  refine ⟨⟨fun l' => ?_, hs.globals, hs.defined, hs.exits⟩, trivial⟩
  show Held K G (upd σ.store l v l')
  by_cases hl : l' = l
  · subst hl; rw [upd_same]; exact h
  · rw [upd_other _ _ hl]; exact hs.store l'

theorem getGlobal {x : String} : Bl K G (fun o => (∀ v, o = some v → Held K G v) ∧ (G x → o.isSome)) (SM.getGlobal x : SM D (Option SVal)) :=
  fun _ hs => ⟨hs, fun v hv => hs.globals x v hv, hs.defined x⟩

theorem defGlobal {x : String} {v : SVal} (h : Held K G v) : Bl K G (fun _ => True) (SM.defGlobal x v : SM D Unit) := by
  intro σ hs
  refine ⟨⟨hs.store, fun y w hw => ?_, fun y hy => ?_, hs.exits⟩, trivial⟩
  · replace hw : (if y = x then some v else σ.globals y) = some w := hw
    split at hw
    · cases hw; exact h
    · exact hs.globals y w hw
  · show (if y = x then some v else σ.globals y).isSome
    split
    · rfl
    · exact hs.defined y hy

theorem host {γ : Type} {P : γ → Prop} {f : D → Res γ × D} {sp : Span} (h : ∀ d a, (f d).1 = .ok a → P a) (he : ∀ d e, (f d).1 = .err e → Culprit K e (some sp))
    (hp : ∀ d, (f d).1 = .panic → Crash K) : Bl K G P (SM.host f sp) := by
  intro σ hs
  have := h σ.data
  have hx := he σ.data
  have hy := hp σ.data
  simp only [SM.host]
  generalize f σ.data = r at this hx hy
  obtain ⟨o, d⟩ := r
  have hs' : HeldSt K G { σ with data := d } := ⟨hs.store, hs.globals, hs.defined, hs.exits⟩
  cases o with
  | ok a => exact ⟨hs', this a rfl⟩
  | err e => exact ⟨hs', hx e rfl⟩
  | panic => exact ⟨hs', hy rfl⟩

theorem pushExit {g : ExitFn D} {x : String} {f : BFn D SClos} (h : K.S.builtins x = some (.ctx f g)) : Bl K G (fun _ => True) (SM.pushExit g) :=
  fun _ hs => ⟨⟨hs.store, hs.globals, hs.defined, fun g' hg => by
    rcases List.mem_cons.1 hg with rfl | hg
    · exact ⟨x, f, h⟩
    · exact hs.exits g' hg⟩, trivial⟩

theorem popExit {sp : Span} (h : ∀ e, Leaves K.S (.err e) → Culprit K e (some sp)) (hp : Leaves K.S .panic → Crash K) : Bl K G (fun _ => True) (SM.popExit sp : SM D Unit) := by
  intro σ hs
  simp only [SM.popExit]
  split
  · exact ⟨hs, trivial⟩
  · rename_i g gs hg
    have hs' : HeldSt K G { σ with exits := gs } := ⟨hs.store, hs.globals, hs.defined, fun g' h' => hs.exits g' (by rw [hg]; exact List.mem_cons_of_mem _ h')⟩
    obtain ⟨x, f, hx⟩ := hs.exits g (by rw [hg]; exact List.mem_cons_self)
    exact host (f := g) (fun _ _ _ => trivial) (fun d e he => h e ⟨x, f, g, d, hx, he⟩) (fun d hd => hp ⟨x, f, g, d, hx, hd⟩) { σ with exits := gs } hs'

/-- The scope afterwards has the old names and the new ones. -/
def Wider (env : SEnv) (xs : List String) (env' : SEnv) : Prop := ∀ x, x ∈ env.map Prod.fst ∨ x ∈ xs → x ∈ env'.map Prod.fst

theorem Wider.seen {Γ : List String} {env env' : SEnv} {xs : List String} (h : Wider env xs env') (hg : Seen G Γ env) : Seen G (xs ++ Γ) env' := by
  intro x hx
  rcases List.mem_append.1 hx with hx | hx
  · exact .inl (h x (.inr hx))
  · exact (hg x hx).imp_left fun h' => h x (.inl h')

theorem bindVars : ∀ {bs : List (String × SVal)} {env : SEnv}, (∀ b ∈ bs, Held K G b.2) → Bl K G (Wider env (bs.map Prod.fst)) (SM.bindVars bs env : SM D SEnv)
  | [], env, _ => pure fun x hx => by simpa using hx
  | (x, v) :: r, env, h => bind (alloc (h (x, v) (by simp))) fun l _ => mono (bindVars fun b hb => h b (by simp [hb])) fun env' h' y hy => h' y (by
      rcases hy with hy | hy
      · exact .inl (by simp only [List.map_cons, List.mem_cons]; exact .inr hy)
      · rcases List.mem_cons.1 hy with rfl | hy
        · exact .inl (by simp)
        · exact .inr hy)

theorem lookup_some {x : String} : ∀ {env : SEnv}, x ∈ env.map Prod.fst → lookup x env ≠ none
  | (y, l) :: r, h => by
    unfold lookup
    split
    · simp
    · rename_i hne
      refine lookup_some ?_
      simp only [List.map_cons, List.mem_cons] at h
      exact h.resolve_left fun h => hne h.symm

theorem readVar {x : String} {sp : Span} {env : SEnv} (hN : K.N (.ident sp x)) (hx : K.t = true → x ∈ env.map Prod.fst ∨ G x) : Bl K G (Held K G) (Quilt.readVar x sp env : SM D SVal) := by
  unfold Quilt.readVar
  split
  · exact load
  · rename_i hl
    refine bind getGlobal fun o ho => ?_
    cases o with
    | some v => exact pure (ho.1 v rfl)
    | none =>
      refine err ⟨_, hN, .inr ⟨?_, .read⟩⟩
      cases ht : K.t with
      | false => rfl
      | true => exact (hx ht).elim (fun h => absurd hl (lookup_some h)) fun h => absurd (ho.2 h) (by simp)

theorem writeVar {x : Name} {sp : Span} {e : Node} {env : SEnv} {v : SVal} (h : Held K G v) (hN : K.N (.assign sp x e)) (hx : K.t = true → x.1 ∈ env.map Prod.fst ∨ G x.1) :
    Bl K G (fun _ => True) (Quilt.writeVar x.1 x.2 env v : SM D Unit) := by
  unfold Quilt.writeVar
  split
  · exact store h
  · rename_i hl
    refine bind getGlobal fun o ho => ?_
    cases o with
    | some _ => exact defGlobal h
    | none =>
      refine err ⟨_, hN, .inr ⟨?_, .write⟩⟩
      cases ht : K.t with
      | false => rfl
      | true => exact (hx ht).elim (fun h => absurd hl (lookup_some h)) fun h => absurd (ho.2 h) (by simp)

theorem eqVals {F : FOps} {a b : SVal} : Bl K G (fun _ => True) (Quilt.eqVals F a b : SM D Bool) := by
  unfold Quilt.eqVals
  split
  · exact pure trivial
  · exact incomparable

theorem evalBin {op : Op} {sp : Span} {a b : SVal} {m m' : Node} (hN : K.N (.bin sp op m m')) (ha : Held K G a) (hb : Held K G b)
    (ga : Gives K.S m a) (gb : Gives K.S m' b) :
    Bl K G (Held K G) (Quilt.evalBin K.S op sp a b : SM D _) := by
  unfold Quilt.evalBin
  split
  · exact bind eqVals fun _ _ => pure rfl
  · exact bind eqVals fun _ _ => pure rfl
  · rename_i h1 h2
    exact liftR (Val.rel_binary K.S.cfg K.S.lim (fun _ _ => none) (fun _ _ => none) op (by simpa using h1) (by simpa using h2) ha hb) (fun _ h => h)
      (fun e he => ⟨_, hN, .inl (.binary (Val.binary_fault ga gb he))⟩)
      fun hp => ⟨_, hN, .binary (Val.binary_crash ga gb (K.placed _ hN) (by simpa using h1) (by simpa using h2) hp)⟩

theorem declVars {v : Var} {sp : Span} {val : SVal} {env : SEnv} {P : SVal → Prop} (h : Held K G val) (hv : P val)
    (he : ∀ xs, v = .many xs → ∀ e, PartsFault P xs.length e → Culprit K e (some sp)) (hp : ∀ xs, v = .many xs → PartsCrash P xs.length → Crash K) :
    Bl K G (Wider env (Var.defs (some v))) (Quilt.declVars v sp val env : SM D SEnv) := by
  unfold Quilt.declVars
  split
  · exact bindVars (by simpa using h)
  · rename_i xs
    refine bind (P := fun vs => HeldL K G vs ∧ vs.length = xs.length) (lift (fun vs hvs => ⟨?_, Val.unpack_length hvs⟩) (fun e h => he xs rfl e (Val.unpack_fault hv h))
      fun h => hp xs rfl (Val.unpack_crash hv h)) fun vs hvs => ?_
    · have := Val.rel_unpack xs.length h
      rw [hvs] at this
      exact this
    · refine mono (bindVars fun b hb => ?_) fun env' h' x hx => h' x (hx.imp_right fun hx => ?_)
      · rw [List.mem_reverse] at hb
        exact hvs.1.all _ (List.of_mem_zip hb).2
      · rw [List.map_reverse, List.mem_reverse, List.map_fst_zip (by simp [hvs.2])]
        exact hx

theorem ctxVars {v : Option Var} {sp : Span} {val : SVal} {env : SEnv} {P : SVal → Prop} (h : Held K G val) (hv : P val)
    (he : ∀ xs, v = some (.many xs) → ∀ e, PartsFault P xs.length e → Culprit K e (some sp)) (hp : ∀ xs, v = some (.many xs) → PartsCrash P xs.length → Crash K) :
    Bl K G (Wider env (Var.defs v)) (Quilt.ctxVars v sp val env : SM D SEnv) := by
  unfold Quilt.ctxVars
  split
  · exact declVars h hv (fun xs hx => he xs (by rw [hx])) fun xs hx => hp xs (by rw [hx])
  · exact pure fun x hx => by simpa [Var.defs] using hx

theorem applyVal {call : SClos → List SVal → SM D SVal} (hc : ∀ c args, HeldF K G c → HeldL K G args → args.length = c.params.length → Bl K G (Held K G) (call c args))
    {sp : Span} {m : Node} {as : List Node} (hN : K.N (.call sp m as)) {f : SVal} {args : List SVal} (hf : Held K G f) (gf : Gives K.S m f) (ha : HeldL K G args) (hl : args.length = as.length) :
    Bl K G (Held K G) (Quilt.applyVal call sp f args) := by
  unfold Quilt.applyVal
  cases f with
  | clos c =>
    dsimp only
    have hf' : HeldF K G c := hf.2
    split
    · rename_i hne
      rw [hl] at hne ⊢
      exact err ⟨_, hN, .inl (.arity c gf (fun h => hne h.symm) hf'.2.1)⟩
    · exact hc _ _ hf' ha (by rename_i h; exact Classical.not_not.1 h)
  | _ => exact err ⟨_, hN, .inl (.call _ gf (fun _ h => by cases h))⟩

theorem callBuiltin (hS : ∀ x, HeldB K G (K.S.builtins x) K.S.lim) (hB : ∀ x, K.B x = true → (K.S.builtins x).isSome) {x : Name} {sp : Span} {as : List Node}
    (hN : K.N (.builtin sp x as)) (hx : K.t = true → K.B x.1 = true) {args : List SVal} (ha : HeldL K G args) (ga : GivesL K.S as args) :
    Bl K G (Held K G) (Quilt.callBuiltin K.S x.1 x.2 args : SM D _) := by
  have := hS x.1
  unfold Quilt.callBuiltin
  split
  · rename_i f hf; rw [hf] at this; exact host (fun d v => this d args v ha) (fun d e he => ⟨_, hN, .inl (.builtin ⟨f, d, args, .inl hf, ga, he⟩)⟩)
      fun d hd => ⟨_, hN, .builtin ⟨f, d, args, .inl hf, ga, hd⟩⟩
  · rename_i f g hf; exact err ⟨_, hN, .inl (.calledContext ⟨f, g, hf⟩)⟩
  · rename_i hf
    refine err ⟨_, hN, .inr ⟨?_, .builtin hf⟩⟩
    cases ht : K.t with
    | false => rfl
    | true => have := hB _ (hx ht); rw [hf] at this; cases this

theorem enterCtx (hS : ∀ x, HeldB K G (K.S.builtins x) K.S.lim) (hB : ∀ x, K.B x = true → (K.S.builtins x).isSome) {x : Name} {sp : Span} {as : List Node} {v : Option Var}
    {b : List Node} (hN : K.N (.ctx sp x as v b)) (hx : K.t = true → K.B x.1 = true) {args : List SVal} (ha : HeldL K G args) (ga : GivesL K.S as args) :
    Bl K G (fun v => Held K G v ∧ Answers K.S x.1 as (.ok v)) (Quilt.enterCtx K.S x.1 x.2 args : SM D _) := by
  have := hS x.1
  unfold Quilt.enterCtx
  split
  · rename_i f hf; rw [hf] at this; exact host (fun d v h => ⟨this d args v ha h, f, d, args, .inl hf, ga, h⟩) (fun d e he => ⟨_, hN, .inl (.context ⟨f, d, args, .inl hf, ga, he⟩)⟩)
      fun d hd => ⟨_, hN, .context ⟨f, d, args, .inl hf, ga, hd⟩⟩
  · rename_i f g hf; rw [hf] at this
    exact bind (pushExit hf) fun _ _ => host (fun d v h => ⟨this d args v ha h, f, d, args, .inr ⟨g, hf⟩, ga, h⟩) (fun d e he => ⟨_, hN, .inl (.context ⟨f, d, args, .inr ⟨g, hf⟩, ga, he⟩)⟩)
      fun d hd => ⟨_, hN, .context ⟨f, d, args, .inr ⟨g, hf⟩, ga, hd⟩⟩
  · rename_i hf
    refine err ⟨_, hN, .inr ⟨?_, .context hf⟩⟩
    cases ht : K.t with
    | false => rfl
    | true => have := hB _ (hx ht); rw [hf] at this; cases this

theorem whileN {sp : Span} {c b : SM D SVal} {P : SVal → Prop} (hc : Bl K G P c) (hb : Bl K G (Held K G) b) (he : ∀ v : SVal, P v → v.decides = false → Culprit K (.type (.expected "truthy" v.ntype)) (some sp)) :
    ∀ (W : Nat) {last : SVal}, Held K G last → Bl K G (Held K G) (Quilt.whileN K.S sp c b W last)
  | 0, _, _ => timeout
  | W + 1, last, hl => by
    simp only [Quilt.whileN]
    refine bind hc fun v hP => bind (P := fun _ => True) (lift (fun _ _ => trivial) (fun e h => ?_) fun h => absurd h Val.isTruthy_calm) fun r _ => ?_
    · obtain ⟨hv, rfl⟩ := Val.isTruthy_fault h
      exact he v hP hv
    cases r with
    | true => exact bind hb fun v hv => whileN hc hb he W hv
    | false => exact pure hl

theorem forN {item : Nat → SM D (Option SVal)} {P : SVal → Prop} {R : Nat → Prop} (hi : ∀ k, R k → Bl K G (fun o => ∀ v, o = some v → P v ∧ R (k + 1)) (item k))
    {b : SVal → SM D SVal} (hb : ∀ v, P v → Bl K G (Held K G) (b v)) : ∀ (W k : Nat) {last : SVal}, R k → Held K G last → Bl K G (Held K G) (Quilt.forN item b W k last)
  | 0, _, _, _, _ => timeout
  | W + 1, k, last, hk, hl => by
    simp only [Quilt.forN]
    refine bind (hi k hk) fun o ho => ?_
    cases o with
    | some x => exact bind (hb x (ho x rfl).1) fun v hv => forN hi hb W (k + 1) (ho x rfl).2 hv
    | none => exact pure hl

/-- The loop came to position `k`. -/
def Come (chk : Bool) (v : SVal) (k : Nat) : Prop := ∀ j < k, ∃ w, v.iterItem chk j = .ok (some w)

theorem iterItem {it : Node} {v : SVal} (hv : Held K G v) (gv : Gives K.S it v) (k : Nat) (hk : Come K.S.cfg.chk v k) {sp : Span}
    (he : v.iterates = false → Culprit K (.type (.notIterable v.ntype)) (some sp))
    (hp : ∀ s e, K.S.cfg.chk = true → Gives K.S it (.range s e) → 2 ^ 31 ≤ e.toInt - s.toInt → Crash K) :
    Bl K G (fun o => ∀ w, o = some w → (Held K G w ∧ Visits K.S it w) ∧ Come K.S.cfg.chk v (k + 1)) (SM.lift (v.iterItem K.S.cfg.chk k) sp : SM D _) := by
  refine lift (fun o ho w hw => ⟨⟨?_, v, k, gv, by rw [ho, hw]⟩, fun j hj => ?_⟩) (fun e h => ?_) fun h => ?_
  · have := Val.rel_iterItem K.S.cfg.chk k hv
    rw [ho, hw] at this
    exact this
  · by_cases h : j = k
    · subst h; exact ⟨w, by rw [ho, hw]⟩
    · exact hk j (by omega)
  · obtain ⟨hv, rfl⟩ := Val.iterItem_fault h
    exact he hv
  · obtain ⟨hc, s, e, rfl, hl⟩ := Val.iterItem_crash hk h
    exact hp s e hc gv hl

/-- The hypotheses about a part of the program: its nodes, and the names it uses. -/
def Fits (K : BlameIn D) (G : String → Prop) (ms : List Node) (ok : List String → Bool) (env : SEnv) : Prop :=
  (∀ m ∈ ms, K.N m) ∧ ∃ Γ, (K.t = true → ok Γ = true) ∧ Seen G Γ env

theorem Fits.part {ms ms' : List Node} {ok ok' : List String → Bool} {env : SEnv} (h : Fits K G ms ok env) (hm : ∀ m ∈ ms', m ∈ ms) (ho : ∀ Γ, ok Γ = true → ok' Γ = true) :
    Fits K G ms' ok' env := ⟨fun m h' => h.1 m (hm m h'), h.2.imp fun Γ h2 => ⟨fun ht => ho Γ (h2.1 ht), h2.2⟩⟩

theorem Fits.inner {ms ms' : List Node} {ok ok' : List String → Bool} {env env' : SEnv} {xs : List String} (h : Fits K G ms ok env) (hw : Wider env xs env') (hm : ∀ m ∈ ms', m ∈ ms)
    (ho : ∀ Γ, ok Γ = true → ok' (xs ++ Γ) = true) : Fits K G ms' ok' env' := by
  obtain ⟨h1, Γ, h2, h3⟩ := h
  exact ⟨fun m h' => h1 m (hm m h'), xs ++ Γ, fun ht => ho Γ (h2 ht), hw.seen h3⟩

theorem Fits.name {ms : List Node} {ok : List String → Bool} {env : SEnv} {x : String} (h : Fits K G ms ok env) (ho : ∀ Γ, ok Γ = true → Γ.contains x = true) :
    K.t = true → x ∈ env.map Prod.fst ∨ G x := by
  obtain ⟨_, Γ, h2, h3⟩ := h
  exact fun ht => h3 x (by simpa using ho Γ (h2 ht))

theorem Fits.builtin {ms : List Node} {ok : List String → Bool} {env : SEnv} {b : Bool} (h : Fits K G ms ok env) (ho : ∀ Γ, ok Γ = true → b = true) : K.t = true → b = true := by
  obtain ⟨_, Γ, h2, h3⟩ := h
  exact fun ht => ho Γ (h2 ht)

theorem Fits.fn {ms : List Node} {ok : List String → Bool} {env : SEnv} {n : Node} {f : String} {fsp : Span} {ps : List Name} {b : List Node} (h : Fits K G ms ok env) (hn : n ∈ ms)
    (hd : n.defines f ps.length) (hb : ∀ m ∈ subsL b, m ∈ ms)
    (ho : ∀ Γ, ok Γ = true → scopedL K.B (ps.map Prod.fst ++ f :: Γ) b = true ∨ scopedL K.B (ps.map Prod.fst ++ Γ) b = true) :
    HeldF K G ⟨f, fsp, ps.map Prod.fst, b, env⟩ := by
  obtain ⟨h1, Γ, h2, h3⟩ := h
  refine ⟨fun m hm => h1 m (hb m hm), ⟨n, h1 n hn, by simpa using hd⟩, fun ht => ?_⟩
  rcases ho Γ (h2 ht) with ho | ho
  · refine ⟨_, ho, fun x hx => ?_⟩
    rcases List.mem_append.1 hx with hx | hx
    · exact .inl hx
    · rcases List.mem_cons.1 hx with hx | hx
      · exact .inr (.inl hx)
      · exact .inr (.inr (h3 x hx))
  · refine ⟨_, ho, fun x hx => ?_⟩
    rcases List.mem_append.1 hx with hx | hx
    · exact .inl hx
    · exact .inr (.inr (h3 x hx))

variable (hS : ∀ x, HeldB K G (K.S.builtins x) K.S.lim) (hB : ∀ x, K.B x = true → (K.S.builtins x).isSome) {call : SClos → List SVal → SM D SVal}
  (hc : ∀ c args, HeldF K G c → HeldL K G args → args.length = c.params.length → Bl K G (Held K G) (call c args)) {W : Nat} {J : Nat} (hJ : call = callN K.S W J)
include hS hB hc hJ

/-- Membership in lists of nodes, and parts of checks. -/
local macro "sub" : tactic => `(tactic| (intro m hm; simp only [Node.subs, subsL, subsC, subsO, subsE, List.mem_cons, List.mem_append]; simp [hm]))
local macro "chk" : tactic => `(tactic| (intro Γ h; simp only [Node.scoped, scopedL, scopedA, scopedC, scopedO, scopedR, Bool.and_eq_true] at h; simp only [h, Bool.and_true]))

/-- Values that an expression evaluates to. -/
theorem giv {n : Node} {env : SEnv} (h : Bl K G (Held K G) (evalNode K.S call W n env)) : Bl K G (fun v => Held K G v ∧ Gives K.S n v) (evalNode K.S call W n env) :=
  mono (made h) fun v h => ⟨h.1, by obtain ⟨σ, σ', h⟩ := h.2; subst hJ; exact ⟨W, J, env, σ, σ', h⟩⟩

mutual
theorem node : ∀ (n : Node) (env : SEnv), Fits K G n.subs (fun Γ => n.scoped K.B Γ) env → Bl K G (Held K G) (evalNode K.S call W n env)
  | .lit _ l, env, _ => by simp only [evalNode]; exact pure (Val.Rel.toVal l)
  | .ident sp x, env, h => by
    simp only [evalNode]
    exact readVar (h.1 _ (Node.self_subs _)) (h.name fun Γ h => by simpa [Node.scoped] using h)
  | .assign sp (x, xsp) e, env, h => by
    simp only [evalNode]
    exact bind (node e env (h.part (by sub) (by chk))) fun v hv =>
      bind (writeVar (x := (x, xsp)) hv (h.1 _ (Node.self_subs _)) (h.name (x := x) fun Γ h => by simp only [Node.scoped, Bool.and_eq_true] at h; exact h.2)) fun _ _ => pure hv
  | .pair _ a b, env, h => by
    simp only [evalNode]
    exact bind (node a env (h.part (by sub) (by chk))) fun _ hx => bind (node b env (h.part (by sub) (by chk))) fun _ hy => pure ⟨hx, hy⟩
  | .range _ a b, env, h => by
    simp only [evalNode]
    refine bind (giv hS hB hc hJ (node a env (h.part (by sub) (by chk)))) fun _ hx => bind (giv hS hB hc hJ (node b env (h.part (by sub) (by chk)))) fun _ hy =>
      liftR (Val.rel_mkRange hx.1 hy.1) (fun _ h => h) (fun e he => ?_) fun h => absurd h Val.mkRange_calm
    obtain ⟨v, hg, hv, rfl⟩ := Val.mkRange_fault he
    refine ⟨_, h.1 _ (Node.self_subs _), .inl (.range v ?_ hv)⟩
    rcases hg with rfl | rfl
    · exact .inl hx.2
    · exact .inr hy.2
  | .array sp items, env, h => by
    simp only [evalNode]
    refine bind (rev items env (h.part (by sub) (by chk))) fun _ hx => liftR (Val.rel_mkArray _ hx.1) (fun _ h => h) (fun e he => ?_) fun h => absurd h Val.mkArray_calm
    obtain ⟨hs, rfl⟩ := Val.mkArray_fault he
    exact ⟨_, h.1 _ (Node.self_subs _), .inl (.array _ hx.2.2 hs)⟩
  | .index sp e i, env, h => by
    simp only [evalNode]
    exact bind (giv hS hB hc hJ (node i env (h.part (by sub) (by chk)))) fun _ hx => bind (giv hS hB hc hJ (node e env (h.part (by sub) (by chk)))) fun _ hy =>
      liftR (Val.rel_indexGet _ hy.1 hx.1) (fun _ h => h) (fun e he => ⟨_, h.1 _ (Node.self_subs _), .inl (.index (Val.indexGet_fault hy.2 hx.2 he))⟩)
        fun hp => ⟨_, h.1 _ (Node.self_subs _), Val.indexGet_crash hy.2 hx.2 hp⟩
  | .un sp op e, env, h => by
    simp only [evalNode]
    refine bind (giv hS hB hc hJ (node e env (h.part (by sub) (by chk)))) fun _ hx => liftR (Val.rel_unary _ op hx.1) (fun _ h => h) (fun e he => ?_) fun hp =>
      ⟨_, h.1 _ (Node.self_subs _), Val.unary_crash (by simpa [Node.misplaced] using K.placed _ (h.1 _ (Node.self_subs _))) hx.2 hp⟩
    obtain ⟨hv, rfl⟩ := Val.unary_fault he
    exact ⟨_, h.1 _ (Node.self_subs _), .inl (.unary _ hx.2 hv)⟩
  | .bin sp op a b, env, h => by
    simp only [evalNode]
    exact bind (giv hS hB hc hJ (node a env (h.part (by sub) (by chk)))) fun x hx => bind (giv hS hB hc hJ (node b env (h.part (by sub) (by chk)))) fun y hy =>
      evalBin (h.1 _ (Node.self_subs _)) hx.1 hy.1 hx.2 hy.2
  | .block _ body, env, h => by
    simp only [evalNode]
    exact stmts body env (h.part (by sub) (by chk))
  | .cond sp c th el, env, h => by
    simp only [evalNode]
    refine bind (giv hS hB hc hJ (node c env (h.part (by sub) (by chk)))) fun v hg => bind (P := fun _ => True) (lift (fun _ _ => trivial) (fun e he => ?_) fun h => absurd h Val.isTruthy_calm) fun t _ => ?_
    · obtain ⟨hv, rfl⟩ := Val.isTruthy_fault he
      exact ⟨_, h.1 _ (Node.self_subs _), .inl (.cond _ hg.2 hv)⟩
    cases t with
    | true => exact stmts th env (h.part (by sub) (by chk))
    | false => exact opt el env (h.part (by sub) (by chk))
  | .switch _ v cs d, env, h => by
    simp only [evalNode]
    exact bind (node v env (h.part (by sub) (by chk))) fun w hw => cases cs w env (h.part (by sub) (by chk)) (opt d env (h.part (by sub) (by chk)))
  | .while sp c body, env, h => by
    simp only [evalNode]
    exact whileN (giv hS hB hc hJ (node c env (h.part (by sub) (by chk)))) (stmts body env (h.part (by sub) (by chk))) (fun v hg hv => ⟨_, h.1 _ (Node.self_subs _), .inl (.while v hg.2 hv)⟩) W trivial
  | .forIn sp x it body, env, h => by
    simp only [evalNode]
    refine bind (giv hS hB hc hJ (node it env (h.part (by sub) (by chk)))) fun v hv => forN (fun k hk => iterItem hv.1 hv.2 k hk (fun hi => ⟨_, h.1 _ (Node.self_subs _), .inl (.forIn v hv.2 hi)⟩)
      fun s e hc hg hl => ⟨_, h.1 _ (Node.self_subs _), .forIn s e hc hg hl⟩) (fun i hi => ?_) W 0 (fun _ h => absurd h (Nat.not_lt_zero _)) trivial
    exact bind (bindVars (by simpa using hi.1)) fun env' hw => stmts body env' (h.inner hw (by sub) fun Γ h => by simp only [Node.scoped, Bool.and_eq_true] at h; exact h.2)
  | .forMulti sp xs it body, env, h => by
    simp only [evalNode]
    refine bind (giv hS hB hc hJ (node it env (h.part (by sub) (by chk)))) fun v hv => forN (fun k hk => iterItem hv.1 hv.2 k hk (fun hi => ⟨_, h.1 _ (Node.self_subs _), .inl (.forMulti v hv.2 hi)⟩)
      fun s e hc hg hl => ⟨_, h.1 _ (Node.self_subs _), .forMulti s e hc hg hl⟩) (fun i hi => ?_) W 0 (fun _ h => absurd h (Nat.not_lt_zero _)) trivial
    exact bind (declVars hi.1 hi.2 (fun ys hy e he => by cases hy; exact ⟨_, h.1 _ (Node.self_subs _), .inl (.forParts he)⟩)
      fun ys hy hp => by cases hy; exact ⟨_, h.1 _ (Node.self_subs _), .forParts hp⟩) fun env' hw => stmts body env' (h.inner hw (by sub) fun Γ h => by simp only [Node.scoped, Bool.and_eq_true] at h; exact h.2)
  | .lambda sp ps body, env, h => by
    simp only [evalNode]
    exact pure ⟨rfl, h.fn (Node.self_subs _) ⟨rfl, rfl⟩ (by sub) fun Γ h => .inr h⟩
  | .call sp f as, env, h => by
    simp only [evalNode]
    exact bind (giv hS hB hc hJ (node f env (h.part (by sub) (by chk)))) fun _ hf => bind (args as env (h.part (by sub) (by chk))) fun _ ha =>
      applyVal hc (h.1 _ (Node.self_subs _)) hf.1 hf.2 ha.1 ha.2.1
  | .builtin _ x as, env, h => by
    simp only [evalNode]
    exact bind (args as env (h.part (by sub) (by chk))) fun _ ha => callBuiltin hS hB (h.1 _ (Node.self_subs _)) (h.builtin (by chk)) ha.1 ha.2.2
  | .ctx sp x as v body, env, h => by
    simp only [evalNode]
    have hN := h.1 _ (Node.self_subs _)
    exact bind (args as env (h.part (by sub) (by chk))) fun _ ha => bind (enterCtx hS hB hN (h.builtin (by chk)) ha.1 ha.2.2) fun r hr =>
      bind (ctxVars hr.1 hr.2 (fun ys hy e he => by cases hy; exact ⟨_, hN, .inl (.ctxParts he)⟩) fun ys hy hp => by cases hy; exact ⟨_, hN, .ctxParts hp⟩) fun env' hw =>
      bind (stmts body env' (h.inner hw (by sub) (by chk))) fun res hres => bind (popExit (fun e he => ⟨_, hN, .inl (.leave he)⟩) fun hp => ⟨_, hN, .leave hp⟩) fun _ _ => pure hres
  | .decl .., env, _ | .extern .., env, _ | .func .., env, _ | .include .., env, _ | .ret .., env, _ => by simp only [evalNode]; exact unspec
termination_by structural n => n
theorem stmt : ∀ (n : Node) (env : SEnv), Fits K G n.subs (fun Γ => n.scoped K.B Γ) env → Bl K G (Wider env n.binds) (evalStmt K.S call W n env)
  | .decl sp v e, env, h => by
    simp only [evalStmt, Node.binds]
    exact bind (giv hS hB hc hJ (node e env (h.part (by sub) (by chk)))) fun _ hv => declVars hv.1 hv.2 (fun xs hx e he => by subst hx; exact ⟨_, h.1 _ (Node.self_subs _), .inl (.declParts he)⟩)
      fun xs hx hp => by subst hx; exact ⟨_, h.1 _ (Node.self_subs _), .declParts hp⟩
  | .func _ name params body, env, h => by
    simp only [evalStmt, Node.binds]
    refine bindVars (bs := [(name.1, _)]) fun b hb => ?_
    obtain rfl := List.mem_singleton.1 hb
    exact ⟨rfl, h.fn (Node.self_subs _) ⟨rfl, rfl⟩ (by sub) fun Γ h => .inl h⟩
  | .ret _ e, env, h => by
    simp only [evalStmt]
    exact bind (retE e env (h.part (by sub) (by chk))) fun v hv => ret hv
  | .extern .., env, _ | .include .., env, _
  | .lit .., env, _ | .ident .., env, _ | .assign .., env, _ | .pair .., env, _ | .range .., env, _ | .array .., env, _
  | .index .., env, _ | .un .., env, _ | .bin .., env, _ | .block .., env, _ | .cond .., env, _ | .switch .., env, _
  | .while .., env, _ | .forIn .., env, _ | .forMulti .., env, _ | .lambda .., env, _ | .call .., env, _ | .builtin .., env, _
  | .ctx .., env, _ => by simp only [evalStmt]; exact unspec
termination_by structural n => n
theorem stmts : ∀ (ns : List Node) (env : SEnv), Fits K G (subsL ns) (fun Γ => scopedL K.B Γ ns) env → Bl K G (Held K G) (evalStmts K.S call W ns env)
  | [], env, h => by simp only [evalStmts]; exact unspec
  | [n], env, h => by
    by_cases hs : n.isStatement
    · simp only [evalStmts, hs, if_true]
      exact bind (stmt n env (h.part (by sub) (by chk))) fun _ _ => unspec
    · simp only [evalStmts, hs]
      exact node n env (h.part (by sub) (by chk))
  | n :: n' :: ns, env, h => by
    have hm : ∀ m ∈ subsL (n' :: ns), m ∈ subsL (n :: n' :: ns) := fun m hm => by rw [subsL]; exact List.mem_append_right _ hm
    have ho : ∀ Γ, scopedL K.B Γ (n :: n' :: ns) = true → scopedL K.B (n.binds ++ Γ) (n' :: ns) = true := fun Γ h => by
      rw [scopedL, Bool.and_eq_true] at h
      exact h.2
    by_cases hs : n.isStatement
    · simp only [evalStmts, hs, if_true]
      exact bind (stmt n env (h.part (by sub) (by chk))) fun env' hw => stmts (n' :: ns) env' (h.inner hw hm ho)
    · simp only [evalStmts, hs]
      have hb : n.binds = [] := by cases n <;> first | rfl | exact absurd rfl hs
      rw [hb] at ho
      exact bind (node n env (h.part (by sub) (by chk))) fun _ _ => stmts (n' :: ns) env (h.part hm ho)
termination_by structural n => n
theorem args : ∀ (ns : List Node) (env : SEnv), Fits K G (subsL ns) (fun Γ => scopedA K.B Γ ns) env → Bl K G (fun vs => HeldL K G vs ∧ vs.length = ns.length ∧ GivesL K.S ns vs) (evalArgs K.S call W ns env)
  | [], env, _ => by simp only [evalArgs]; exact pure ⟨trivial, rfl, trivial⟩
  | n :: ns, env, h => by
    simp only [evalArgs]
    exact bind (giv hS hB hc hJ (node n env (h.part (by sub) (by chk)))) fun _ hx => bind (args ns env (h.part (by sub) (by chk))) fun _ hy =>
      pure ⟨⟨hx.1, hy.1⟩, by simp [hy.2.1], hx.2, hy.2.2⟩
termination_by structural n => n
theorem rev : ∀ (ns : List Node) (env : SEnv), Fits K G (subsL ns) (fun Γ => scopedA K.B Γ ns) env → Bl K G (fun vs => HeldL K G vs ∧ vs.length = ns.length ∧ GivesL K.S ns vs) (evalRev K.S call W ns env)
  | [], env, _ => by simp only [evalRev]; exact pure ⟨trivial, rfl, trivial⟩
  | n :: ns, env, h => by
    simp only [evalRev]
    exact bind (rev ns env (h.part (by sub) (by chk))) fun _ hy => bind (giv hS hB hc hJ (node n env (h.part (by sub) (by chk)))) fun _ hx =>
      pure ⟨⟨hx.1, hy.1⟩, by simp [hy.2.1], hx.2, hy.2.2⟩
termination_by structural n => n
theorem opt : ∀ (o : Option (List Node)) (env : SEnv), Fits K G (subsO o) (fun Γ => scopedO K.B Γ o) env → Bl K G (Held K G) (evalOpt K.S call W o env)
  | some body, env, h => by simp only [evalOpt]; exact stmts body env (h.part (fun _ h => h) fun _ h => h)
  | none, env, _ => by simp only [evalOpt]; exact pure trivial
termination_by structural n => n
theorem retE : ∀ (o : Option Node) (env : SEnv), Fits K G (subsE o) (fun Γ => scopedR K.B Γ o) env → Bl K G (Held K G) (evalRet K.S call W o env)
  | some e, env, h => by simp only [evalRet]; exact node e env (h.part (fun _ h => h) fun _ h => h)
  | none, env, _ => by simp only [evalRet]; exact pure trivial
termination_by structural n => n
theorem cases : ∀ (cs : List (Node × List Node)) (v : SVal) (env : SEnv) {d : SM D SVal}, Fits K G (subsC cs) (fun Γ => scopedC K.B Γ cs) env → Bl K G (Held K G) d →
    Bl K G (Held K G) (evalCases K.S call W cs v env d)
  | [], v, env, d, _, hd => by simp only [evalCases]; exact hd
  | (c, body) :: cs, v, env, d, h, hd => by
    simp only [evalCases]
    refine bind (node c env (h.part (by sub) (by chk))) fun cv hcv => bind eqVals fun r _ => ?_
    cases r with
    | true => exact stmts body env (h.part (by sub) (by chk))
    | false => exact cases cs v env (h.part (by sub) (by chk)) hd
termination_by structural cs => cs
end


end Bl

theorem Bl.callN (hS : ∀ x, HeldB K G (K.S.builtins x) K.S.lim) (hB : ∀ x, K.B x = true → (K.S.builtins x).isSome) {W : Nat} : ∀ (n : Nat) (c : SClos) (args : List SVal),
    HeldF K G c → HeldL K G args → args.length = c.params.length → Bl K G (Held K G) (callN K.S W n c args)
  | 0, _, _, _, _, _ => Bl.timeout
  | n + 1, c, args, hc, ha, hl => by
    intro σ hs
    have hgood : ∀ b ∈ callScope c args, Held K G b.2 := by
      intro b hb
      rcases List.mem_cons.1 hb with rfl | hb
      · exact ⟨rfl, hc⟩
      · exact ha.all _ (List.of_mem_zip hb).2
    have h1 := Bl.bind (Bl.bindVars (D := D) (env := c.env) hgood) fun env hw => Bl.stmts hS hB (Bl.callN hS hB (W := W) n) (W := W) rfl c.body env (by
      refine ⟨hc.1, ?_⟩
      cases ht : K.t with
      | false => exact ⟨[], by simp, by simp [Seen]⟩
      | true =>
        obtain ⟨Γ, h1, h2⟩ := hc.2.2 ht
        refine ⟨Γ, fun _ => h1, fun x hx => ?_⟩
        have e : (callScope c args).map Prod.fst = c.name :: c.params := by
          simp only [callScope, List.map_cons]
          rw [List.map_fst_zip (by omega)]
        rcases h2 x hx with h | h | h | h
        · exact .inl (hw x (.inr (by rw [e]; simp [h])))
        · exact .inl (hw x (.inr (by rw [e]; simp [h])))
        · exact .inl (hw x (.inl h))
        · exact .inr h)
    have h2 := h1 { σ with data := K.S.onEnter σ.data } ⟨hs.store, hs.globals, hs.defined, hs.exits⟩
    simp only [Quilt.callN]
    generalize (SM.bindVars (callScope c args) c.env >>= fun env => evalStmts K.S (Quilt.callN K.S W n) W c.body env) { σ with data := K.S.onEnter σ.data } = r at h2 ⊢
    obtain ⟨o, σ'⟩ := r
    cases o with
    | ret v => exact ⟨⟨h2.1.store, h2.1.globals, h2.1.defined, h2.1.exits⟩, h2.2⟩
    | err e sp => exact ⟨h2.1, h2.2⟩
    | panic => exact ⟨h2.1, h2.2⟩
    | _ => exact ⟨h2.1, trivial⟩

/-! ## Programs -/

theorem HeldF.mono {G' : String → Prop} (hG : ∀ x, G x → G' x) {c : SClos} (h : HeldF K G c) : HeldF K G' c :=
  ⟨h.1, h.2.1, fun ht => (h.2.2 ht).imp fun _ h => ⟨h.1, fun x hx => (h.2 x hx).imp_right fun h => h.imp_right fun h => h.imp_right (hG x)⟩⟩

theorem Held.mono {G' : String → Prop} (hG : ∀ x, G x → G' x) {v : SVal} (h : Held K G v) : Held K G' v := Only.mono (fun _ => HeldF.mono hG) h

/-- Errors and crashes have a culprit, and what holds afterwards. -/
def Tl {α : Type} (K : BlameIn D) (G : String → Prop) (Q : SSt D → Prop) (x : SM D α) : Prop := ∀ σ, HeldSt K G σ →
  match x σ with
  | (.ok _, σ') => Q σ'
  | (.err e sp, _) => Culprit K e sp
  | (.panic, _) => Crash K
  | _ => True

theorem Bl.tl {α : Type} {P : α → Prop} {x : SM D α} (h : Bl K G P x) : Tl K G (HeldSt K G) x := by
  intro σ hs
  have := h σ hs
  generalize x σ = r at this
  obtain ⟨o, σ'⟩ := r
  cases o with
  | ok a => exact this.1
  | err e sp => exact this.2
  | panic => exact this.2
  | _ => trivial

theorem Tl.bind {α β : Type} {P : α → Prop} {Q : SSt D → Prop} {x : SM D α} {f : α → SM D β} (hx : Bl K G P x) (hf : ∀ a, P a → Tl K G Q (f a)) : Tl K G Q (x >>= f) := by
  intro σ hs
  have := hx σ hs
  have hb : (x >>= f) σ = SM.bind (fun _ => x σ) f σ := rfl
  rw [hb]
  simp only [SM.bind]
  generalize x σ = r at this
  obtain ⟨o, σ'⟩ := r
  cases o with
  | ok a => exact hf a this.2 σ' this.1
  | err e sp => exact this.2
  | panic => exact this.2
  | _ => trivial

theorem Tl.seq {α β : Type} {G' : String → Prop} {Q : SSt D → Prop} {x : SM D α} {f : α → SM D β} (hx : Tl K G (HeldSt K G') x) (hf : ∀ a, Tl K G' Q (f a)) : Tl K G Q (x >>= f) := by
  intro σ hs
  have := hx σ hs
  have hb : (x >>= f) σ = SM.bind (fun _ => x σ) f σ := rfl
  rw [hb]
  simp only [SM.bind]
  generalize x σ = r at this
  obtain ⟨o, σ'⟩ := r
  cases o with
  | ok a => exact hf a σ' this
  | err e sp => exact this
  | panic => exact this
  | _ => trivial

/-- More globals are defined. -/
def Plus (G : String → Prop) (xs : List String) (x : String) : Prop := G x ∨ x ∈ xs

theorem HeldSt.plus {σ : SSt D} {xs : List String} (h : HeldSt K G σ) (hx : ∀ x ∈ xs, (σ.globals x).isSome) : HeldSt K (Plus G xs) σ :=
  ⟨fun l => (h.store l).mono fun _ => .inl, fun x v hv => (h.globals x v hv).mono fun _ => .inl, fun x h' => h'.elim (h.defined x) (hx x), h.exits⟩

/-- Later definitions do not remove earlier ones. -/
theorem defGlobals_keep : ∀ (bs : List (String × SVal)) (σ : SSt D) (y : String), (σ.globals y).isSome → ((defGlobals bs σ).2.globals y).isSome
  | [], σ, y, h => h
  | (x, v) :: r, σ, y, h => by
    show ((defGlobals r _).2.globals y).isSome
    refine defGlobals_keep r _ y ?_
    show (if y = x then some v else σ.globals y).isSome
    split
    · rfl
    · exact h

theorem defGlobals_defines : ∀ (bs : List (String × SVal)) (σ : SSt D) (y : String), y ∈ bs.map Prod.fst → ((defGlobals bs σ).2.globals y).isSome
  | (x, v) :: r, σ, y, h => by
    show ((defGlobals r _).2.globals y).isSome
    rcases List.mem_cons.1 h with rfl | h
    · exact defGlobals_keep r _ y (by show (if y = y then some v else σ.globals y).isSome; simp)
    · exact defGlobals_defines r _ y h

theorem Bl.defGlobals : ∀ {bs : List (String × SVal)}, (∀ b ∈ bs, Held K G b.2) → Bl K G (fun _ => True) (Quilt.defGlobals bs : SM D Unit)
  | [], _ => Bl.pure trivial
  | (_, _) :: _, h => Bl.bind (Bl.defGlobal (h _ List.mem_cons_self)) fun _ _ => Bl.defGlobals fun b hb => h b (by simp [hb])

theorem Tl.defGlobals {bs : List (String × SVal)} (h : ∀ b ∈ bs, Held K G b.2) {xs : List String} (hx : bs.map Prod.fst = xs) :
    Tl K G (HeldSt K (Plus G xs)) (Quilt.defGlobals bs : SM D Unit) := by
  intro σ hs
  have h1 := Bl.defGlobals h σ hs
  have h2 := defGlobals_defines bs σ
  generalize Quilt.defGlobals bs σ = r at h1 h2
  obtain ⟨o, σ'⟩ := r
  cases o with
  | ok a => exact h1.1.plus fun x hx' => h2 x (by rw [hx]; exact hx')
  | err e sp => exact h1.2
  | panic => exact h1.2
  | _ => trivial

theorem Tl.defGlobal {x : String} {v : SVal} (h : Held K G v) : Tl K G (HeldSt K (Plus G [x])) (SM.defGlobal x v : SM D Unit) :=
  Tl.defGlobals (bs := [(x, v)]) (by simpa using h) rfl

theorem Tl.unspec {α : Type} {Q : SSt D → Prop} : Tl K G Q (SM.unspec : SM D α) := fun _ _ => trivial

section
variable (hS : ∀ G x, HeldB K G (K.S.builtins x) K.S.lim) (hB : ∀ x, K.B x = true → (K.S.builtins x).isSome) {call : SClos → List SVal → SM D SVal}
  (hc : ∀ G c args, HeldF K G c → HeldL K G args → args.length = c.params.length → Bl K G (Held K G) (call c args)) {W : Nat} {J : Nat} (hJ : call = _root_.Quilt.callN K.S W J)
include hS hB hc hJ

/-- The part of a program that follows. -/
theorem Bl.Fits.after {ms ms' : List Node} {ok ok' : List String → Bool} {xs : List String} (h : Bl.Fits K G ms ok []) (hm : ∀ m ∈ ms', m ∈ ms)
    (ho : ∀ Γ, ok Γ = true → ok' (xs ++ Γ) = true) : Bl.Fits K (Plus G xs) ms' ok' [] := by
  obtain ⟨h1, Γ, h2, h3⟩ := h
  refine ⟨fun m h' => h1 m (hm m h'), xs ++ Γ, fun ht => ho Γ (h2 ht), fun x hx => ?_⟩
  rcases List.mem_append.1 hx with hx | hx
  · exact .inr (.inr hx)
  · exact (h3 x hx).imp_right .inl

local macro "sub" : tactic => `(tactic| (intro m hm; simp only [Node.subs, subsL, subsC, subsO, subsE, List.mem_cons, List.mem_append]; simp [hm]))
local macro "chk" : tactic => `(tactic| (intro Γ h; simp only [Node.scoped, scopedL, scopedA, scopedC, scopedO, scopedR, Bool.and_eq_true] at h; simp only [h, Bool.and_true]))

theorem binds_expr {n : Node} (h : ¬ n.isStatement = true) : n.binds = [] := by
  cases n <;> first | rfl | exact absurd rfl h

theorem HeldSt.eq {G' : String → Prop} {σ : SSt D} (h : HeldSt K G σ) (he : ∀ x, G x ↔ G' x) : HeldSt K G' σ := by
  obtain rfl : G = G' := funext fun x => propext (he x)
  exact h

theorem Tl.post {α : Type} {Q Q' : SSt D → Prop} {x : SM D α} (h : Tl K G Q x) (hq : ∀ σ, Q σ → Q' σ) : Tl K G Q' x := by
  intro σ hs
  have := h σ hs
  generalize x σ = r at this
  obtain ⟨o, σ'⟩ := r
  cases o with
  | ok a => exact hq _ this
  | err e sp => exact this
  | panic => exact this
  | _ => trivial

mutual
theorem Tl.topStmt : ∀ (n : Node) (G : String → Prop), Bl.Fits K G n.subs (fun Γ => n.scoped K.B Γ) [] → Tl K G (HeldSt K (Plus G n.binds)) (evalTopStmt K.S call W n)
  | .decl sp v e, G, h => by
    simp only [evalTopStmt]
    refine Tl.bind (Bl.giv (hS G) hB (hc G) hJ (Bl.node (hS G) hB (hc G) hJ e [] (h.part (by sub) (by chk)))) fun val hv => ?_
    cases v with
    | one x => exact Tl.defGlobal hv.1
    | many xs =>
      refine Tl.bind (P := fun vs => HeldL K G vs ∧ vs.length = xs.length) (Bl.lift (fun vs hvs => ⟨?_, Val.unpack_length hvs⟩)
        (fun e he => ⟨_, h.1 _ (Node.self_subs _), .inl (.declParts (Val.unpack_fault hv.2 he))⟩)
        fun hp => ⟨_, h.1 _ (Node.self_subs _), .declParts (Val.unpack_crash hv.2 hp)⟩) fun vs hvs => Tl.defGlobals (fun b hb => ?_) ?_
      · have := Val.rel_unpack xs.length hv.1
        rw [hvs] at this
        exact this
      · exact hvs.1.all _ (List.of_mem_zip hb).2
      · rw [List.map_fst_zip (by simp [hvs.2])]; rfl
  | .func _ name params b, G, h => by
    simp only [evalTopStmt]
    exact Tl.defGlobal ⟨rfl, h.fn (Node.self_subs _) ⟨rfl, rfl⟩ (by sub) fun Γ h => .inl h⟩
  | .extern _ x e, G, h => by
    simp only [evalTopStmt]
    refine Tl.bind (Bl.node (hS G) hB (hc G) hJ e [] (h.part (by sub) (by chk))) fun val hv => ?_
    intro σ hs
    have key : ∀ f : Option SVal → SM D Unit, (SM.getGlobal x.1 >>= f) σ = f (σ.globals x.1) σ := fun _ => rfl
    rw [key]
    cases ho : σ.globals x.1 with
    | some w =>
      exact HeldSt.plus hs fun y hy => by
        obtain rfl := List.mem_singleton.1 hy
        rw [ho]; rfl
    | none => exact Tl.defGlobal hv σ hs
  | .include _ _ body, G, h => by
    simp only [evalTopStmt]; exact Tl.topIncl body G (h.part (by sub) fun _ h => h)
  | .ret .., _, _
  | .lit .., _, _ | .ident .., _, _ | .assign .., _, _ | .pair .., _, _ | .range .., _, _ | .array .., _, _ | .index .., _, _ | .un .., _, _
  | .bin .., _, _ | .block .., _, _ | .cond .., _, _ | .switch .., _, _ | .while .., _, _ | .forIn .., _, _ | .forMulti .., _, _
  | .lambda .., _, _ | .call .., _, _ | .builtin .., _, _ | .ctx .., _, _ => by simp only [evalTopStmt]; exact Tl.unspec
termination_by structural n => n
theorem Tl.topEach : ∀ (ns : List Node) (G : String → Prop), Bl.Fits K G (subsL ns) (fun Γ => scopedL K.B Γ ns) [] → Tl K G (HeldSt K (Plus G (bindsL ns))) (evalEach K.S call W ns)
  | [], G, _ => by simp only [evalEach]; exact fun σ hs => hs.plus (by simp [bindsL])
  | n :: ns, G, h => by
    have ha : Bl.Fits K (Plus G n.binds) (subsL ns) (fun Γ => scopedL K.B Γ ns) [] :=
      h.after hS hB hc hJ (by sub) fun Γ h => by rw [scopedL, Bool.and_eq_true] at h; exact h.2
    have hq : ∀ σ, HeldSt K (Plus (Plus G n.binds) (bindsL ns)) σ → HeldSt K (Plus G (bindsL (n :: ns))) σ := fun σ hs => hs.eq hS hB hc hJ fun x => by
      simp [Plus, bindsL, or_assoc]
    by_cases hs : n.isStatement
    · simp only [evalEach, hs, if_true]
      exact Tl.seq (Tl.topStmt n G (h.part (by sub) (by chk))) fun _ => (Tl.topEach ns _ ha).post hS hB hc hJ hq
    · simp only [evalEach, hs]
      rw [binds_expr hS hB hc hJ hs] at ha hq
      refine Tl.seq ((Bl.node (hS G) hB (hc G) hJ n [] (h.part (by sub) (by chk))).tl.post hS hB hc hJ (fun σ hs => hs.plus (xs := []) (by simp))) fun _ => (Tl.topEach ns _ ha).post hS hB hc hJ hq
termination_by structural n => n
theorem Tl.topIncl : ∀ (o : Option (List Node)) (G : String → Prop), Bl.Fits K G (subsO o) (fun Γ => scopedO K.B Γ o) [] → Tl K G (HeldSt K (Plus G (bindsO o))) (evalIncl K.S call W o)
  | some b, G, h => by simp only [evalIncl]; exact Tl.topEach b G h
  | none, G, h => by simp only [evalIncl]; exact Tl.unspec
termination_by structural n => n
end

theorem Tl.top : ∀ (ns : List Node) (G : String → Prop), Bl.Fits K G (subsL ns) (fun Γ => scopedL K.B Γ ns) [] → Tl K G (fun _ => True) (evalTop K.S call W ns)
  | [], G, h => by simp only [evalTop]; exact Tl.unspec
  | [n], G, h => by
    by_cases hs : n.isStatement
    · simp only [evalTop, hs, if_true]
      exact Tl.seq (Tl.topStmt hS hB hc hJ n G (h.part (by sub) (by chk))) fun _ => Tl.unspec
    · simp only [evalTop, hs]
      exact (Bl.node (hS G) hB (hc G) hJ n [] (h.part (by sub) (by chk))).tl.post hS hB hc hJ fun _ _ => trivial
  | n :: n' :: ns, G, h => by
    have ha : Bl.Fits K (Plus G n.binds) (subsL (n' :: ns)) (fun Γ => scopedL K.B Γ (n' :: ns)) [] :=
      h.after hS hB hc hJ (fun m hm => by rw [subsL]; exact List.mem_append_right _ hm) fun Γ h => by rw [scopedL, Bool.and_eq_true] at h; exact h.2
    by_cases hs : n.isStatement
    · simp only [evalTop, hs, if_true]
      exact Tl.seq (Tl.topStmt hS hB hc hJ n G (h.part (by sub) (by chk))) fun _ => Tl.top (n' :: ns) _ ha
    · simp only [evalTop, hs]
      rw [binds_expr hS hB hc hJ hs] at ha
      exact Tl.seq ((Bl.node (hS G) hB (hc G) hJ n [] (h.part (by sub) (by chk))).tl.post hS hB hc hJ fun σ hs => hs.plus (xs := []) (by simp)) fun _ => Tl.top (n' :: ns) _ ha

end

/-- Errors of programs have a culprit in the program. -/
theorem program_culprit {Γ : List String} (hS : ∀ G x, HeldB K G (K.S.builtins x) K.S.lim) (hB : ∀ x, K.B x = true → (K.S.builtins x).isSome) {ast : List Node}
    (hN : ∀ m ∈ subsL ast, K.N m) (hs : K.t = true → scopedL K.B Γ ast = true) {σ : SSt D} (hσ : HeldSt K (· ∈ Γ) σ) (k : Nat) {e : Err} {sp : Option Span}
    (he : (evalProgram K.S k ast σ).1 = .err e sp) : Culprit K e sp := by
  have := Tl.top hS hB (fun G => Bl.callN (hS G) hB (W := k) k) (W := k) rfl ast (· ∈ Γ) ⟨hN, Γ, hs, fun x hx => .inr hx⟩ σ hσ
  unfold evalProgram at he
  generalize evalTop K.S (callN K.S k k) k ast σ = r at this he
  obtain ⟨o, σ'⟩ := r
  cases he
  exact this

/-- So do crashes. -/
theorem program_crash {Γ : List String} (hS : ∀ G x, HeldB K G (K.S.builtins x) K.S.lim) (hB : ∀ x, K.B x = true → (K.S.builtins x).isSome) {ast : List Node}
    (hN : ∀ m ∈ subsL ast, K.N m) (hs : K.t = true → scopedL K.B Γ ast = true) {σ : SSt D} (hσ : HeldSt K (· ∈ Γ) σ) (k : Nat)
    (he : (evalProgram K.S k ast σ).1 = .panic) : Crash K := by
  have := Tl.top hS hB (fun G => Bl.callN (hS G) hB (W := k) k) (W := k) rfl ast (· ∈ Γ) ⟨hN, Γ, hs, fun x hx => .inr hx⟩ σ hσ
  unfold evalProgram at he
  generalize evalTop K.S (callN K.S k k) k ast σ = r at this he
  obtain ⟨o, σ'⟩ := r
  cases he
  exact this

/-- Prepared hosts and states contain no functions at all. -/
theorem Prepared.held {M : Machine.Setup D} {data : D} {script : Script} {S : SHost D} {σ : SSt D} {m : Machine D} (h : Prepared M data script S σ m) (K : BlameIn D) (hK : K.S = S) :
    (∀ G x, HeldB K G (K.S.builtins x) K.S.lim) ∧ ∀ Γ : List String, (∀ x ∈ Γ, (σ.globals x).isSome) → HeldSt K (· ∈ Γ) σ := by
  have plain : ∀ {G : String → Prop} {v : SVal} {w : VVal}, PlainVal v w → Held K G v := fun {G v w} h => Only.ofV v w (Val.Rel.mono (fun _ _ h => h.elim) h)
  have inv : S.lim = M.opts.lim ∧ (∀ G x, HeldB K G (S.builtins x) S.lim) ∧ (∀ G l, Held K G (σ.store l)) ∧ (∀ G x v, σ.globals x = some v → Held K G v) ∧ σ.exits = [] := by
    clear hK
    have glob : ∀ {σ : SSt D} {x : String} {v : SVal}, (∀ G x v, σ.globals x = some v → Held K G v) → (∀ G, Held K G v) →
        ∀ G y w, updName σ.globals x (some v) y = some w → Held K G w := by
      intro σ x v hs hv G y w hw
      replace hw : (if y = x then some v else σ.globals y) = some w := hw
      split at hw
      · cases hw; exact hv G
      · exact hs G y w hw
    induction h with
    | new => exact ⟨rfl, fun _ _ => trivial, fun _ _ => trivial, fun _ _ _ h => by simp at h, rfl⟩
    | @builtin S σ m x b b' _ hb ih =>
      refine ⟨ih.1, fun G y => ?_, ih.2.2⟩
      show HeldB K G (if y = x then some b else S.builtins y) S.lim
      split
      · rw [ih.1]; exact hb.held
      · exact ih.2.1 G y
    | global x _ hv ih => exact ⟨ih.1, ih.2.1, ih.2.2.1, glob ih.2.2.2.1 (fun _ => plain hv), ih.2.2.2.2⟩
    | external x _ hv _ ih => exact ⟨ih.1, ih.2.1, ih.2.2.1, glob ih.2.2.2.1 (fun _ => plain hv), ih.2.2.2.2⟩
  subst hK
  exact ⟨inv.2.1, fun Γ hΓ => ⟨inv.2.2.1 _, inv.2.2.2.1 _, hΓ, by rw [inv.2.2.2.2]; simp⟩⟩

end Quilt
