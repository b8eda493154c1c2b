import Verif.Vm.Prims

/-!
# Values that differ only in the representation of closures

`Val.Rel R a b`: the values agree, with closures related by `R`. All value operations respect it.
-/

namespace Quilt

variable {C C' : Type}

mutual
/-- Equal up to `R` on closures. Bare function constants (`Val.func`) are never related: no
instruction of compiled code creates them. -/
def Val.Rel (R : C → C' → Prop) : Val C → Val C' → Prop
  | .none, .none => True
  | .bool a, .bool b => a = b
  | .int a, .int b => a = b
  | .float a, .float b => a = b
  | .range a b, .range a' b' => a = a' ∧ b = b'
  | .color a b c d, .color a' b' c' d' => a = a' ∧ b = b' ∧ c = c' ∧ d = d'
  | .str a, .str b => a = b
  | .special a n, .special b m => a = b ∧ n = m
  | .arr xs s m, .arr ys s' m' => Val.RelL R xs ys ∧ s = s' ∧ m = m'
  | .loopCtx a, .loopCtx b => a = b
  | .pair a b, .pair a' b' => Val.Rel R a a' ∧ Val.Rel R b b'
  | .clos a, .clos b => R a b
  | _, _ => False
termination_by structural v => v
/-- Same length and elementwise `Rel`. -/
def Val.RelL (R : C → C' → Prop) : List (Val C) → List (Val C') → Prop
  | [], [] => True
  | a :: as, b :: bs => Val.Rel R a b ∧ Val.RelL R as bs
  | _, _ => False
termination_by structural v => v
end

namespace Res

/-- Results related by `P`, or the same failure. -/
def Rel {α β : Type} (P : α → β → Prop) : Res α → Res β → Prop
  | .ok a, .ok b => P a b
  | .err e, .err e' => e = e'
  | .panic, .panic => True
  | _, _ => False

theorem Rel.refl_of {α : Type} {P : α → α → Prop} (h : ∀ a, P a a) (r : Res α) : Rel P r r := by
  cases r <;> simp [Rel, h]

theorem Rel.mono {α β : Type} {P Q : α → β → Prop} (h : ∀ a b, P a b → Q a b) {r : Res α} {r' : Res β}
    (hr : Rel P r r') : Rel Q r r' := by
  cases r <;> cases r' <;> simp_all [Rel]

theorem Rel.bind {α β γ δ : Type} {P : α → β → Prop} {Q : γ → δ → Prop} {r : Res α} {r' : Res β}
    (hr : Rel P r r') {f : α → Res γ} {f' : β → Res δ} (hf : ∀ a b, P a b → Rel Q (f a) (f' b)) :
    Rel Q (r.bind f) (r'.bind f') := by
  cases r <;> cases r' <;> simp_all [Rel, Res.bind]

end Res

namespace Val
variable {R : C → C' → Prop}

theorem RelL.length_eq : ∀ {xs : List (Val C)} {ys : List (Val C')}, RelL R xs ys → xs.length = ys.length
  | [], [], _ => rfl
  | [], _ :: _, h => by simp [RelL] at h
  | _ :: _, [], h => by simp [RelL] at h
  | _ :: xs, _ :: ys, h => by
    simp only [RelL] at h
    simp [RelL.length_eq h.2]

theorem relL_iff : ∀ {xs : List (Val C)} {ys : List (Val C')},
    RelL R xs ys ↔ xs.length = ys.length ∧ ∀ (i : Nat) (a : Val C) (b : Val C'), xs[i]? = some a → ys[i]? = some b → Rel R a b
  | [], [] => by simp [RelL]
  | [], _ :: _ => by simp [RelL]
  | _ :: _, [] => by simp [RelL]
  | x :: xs, y :: ys => by
    simp only [RelL, List.length_cons, Nat.add_right_cancel_iff]
    rw [relL_iff]
    constructor
    · rintro ⟨h, hl, h'⟩
      refine ⟨hl, fun i a b ha hb => ?_⟩
      cases i with
      | zero => simp at ha hb; subst ha hb; exact h
      | succ i => simp at ha hb; exact h' i a b ha hb
    · rintro ⟨hl, h⟩
      exact ⟨h 0 x y (by simp) (by simp), hl, fun i a b ha hb => h (i + 1) a b (by simpa using ha) (by simpa using hb)⟩

theorem RelL.get {xs : List (Val C)} {ys : List (Val C')} (h : RelL R xs ys) (i : Nat) :
    (xs[i]? = Option.none ∧ ys[i]? = Option.none) ∨ ∃ a b, xs[i]? = some a ∧ ys[i]? = some b ∧ Rel R a b := by
  obtain ⟨hl, h⟩ := relL_iff.1 h
  by_cases hi : i < xs.length
  · right
    exact ⟨xs[i], ys[i], by simp [hi], by simp [hl ▸ hi], h i _ _ (by simp [hi]) (by simp [hl ▸ hi])⟩
  · left; simp; omega

theorem RelL.append {xs xs' : List (Val C)} {ys ys' : List (Val C')} (h : RelL R xs ys) (h' : RelL R xs' ys') :
    RelL R (xs ++ xs') (ys ++ ys') := by
  induction xs generalizing ys with
  | nil => cases ys with
    | nil => exact h'
    | cons => simp [RelL] at h
  | cons x xs ih => cases ys with
    | nil => simp [RelL] at h
    | cons y ys => simp only [RelL] at h; simp only [List.cons_append, RelL]; exact ⟨h.1, ih h.2⟩

theorem RelL.reverse {xs : List (Val C)} {ys : List (Val C')} (h : RelL R xs ys) :
    RelL R xs.reverse ys.reverse := by
  induction xs generalizing ys with
  | nil => cases ys with
    | nil => exact h
    | cons => simp [RelL] at h
  | cons x xs ih => cases ys with
    | nil => simp [RelL] at h
    | cons y ys =>
      simp only [RelL] at h; simp only [List.reverse_cons]
      exact (ih h.2).append (by simp [RelL, h.1])

mutual
theorem Rel.mono {R R' : C → C' → Prop} (hR : ∀ a b, R a b → R' a b) :
    ∀ {a : Val C} {b : Val C'}, Rel R a b → Rel R' a b
  | .none, b, h | .bool _, b, h | .int _, b, h | .float _, b, h | .range _ _, b, h
  | .color _ _ _ _, b, h | .str _, b, h | .special _ _, b, h | .loopCtx _, b, h | .func _, b, h => by
    cases b <;> simp_all [Rel]
  | .arr _ _ _, b, h => by
    cases b <;> simp only [Rel] at h ⊢
    exact ⟨RelL.mono hR h.1, h.2⟩
  | .pair _ _, b, h => by
    cases b <;> simp only [Rel] at h ⊢
    exact ⟨Rel.mono hR h.1, Rel.mono hR h.2⟩
  | .clos _, b, h => by
    cases b <;> simp only [Rel] at h ⊢
    exact hR _ _ h
termination_by structural a => a
theorem RelL.mono {R R' : C → C' → Prop} (hR : ∀ a b, R a b → R' a b) :
    ∀ {a : List (Val C)} {b : List (Val C')}, RelL R a b → RelL R' a b
  | [], b, h => by cases b <;> simp_all [RelL]
  | x :: xs, b, h => by
    cases b <;> simp only [RelL] at h ⊢
    exact ⟨Rel.mono hR h.1, RelL.mono hR h.2⟩
termination_by structural a => a
end

theorem Rel.ntype {a : Val C} {b : Val C'} (h : Rel R a b) : a.ntype = b.ntype := by
  cases a <;> cases b <;> simp_all [Rel, Val.ntype]

mutual
theorem Rel.getSize : ∀ {a : Val C} {b : Val C'}, Rel R a b → a.getSize = b.getSize
  | .pair a b, .pair a' b', h => by
    simp only [Rel] at h
    simp only [Val.getSize, Rel.getSize h.1, Rel.getSize h.2]
  | .none, b, h | .bool _, b, h | .int _, b, h | .float _, b, h | .range _ _, b, h
  | .color _ _ _ _, b, h | .str _, b, h | .special _ _, b, h | .loopCtx _, b, h | .func _, b, h
  | .clos _, b, h | .arr _ _ _, b, h => by cases b <;> simp_all [Rel, Val.getSize]
  | .pair _ _, .none, h | .pair _ _, .bool _, h | .pair _ _, .int _, h | .pair _ _, .float _, h
  | .pair _ _, .range _ _, h | .pair _ _, .color _ _ _ _, h | .pair _ _, .str _, h
  | .pair _ _, .special _ _, h | .pair _ _, .arr _ _ _, h | .pair _ _, .loopCtx _, h
  | .pair _ _, .func _, h | .pair _ _, .clos _, h => by simp [Rel] at h
termination_by structural a => a
end

/-- Values without closures are related to themselves. -/
theorem Rel.toVal : ∀ l : Literal, Rel R (l.toVal : Val C) (l.toVal : Val C')
  | .none | .bool _ | .int _ | .float _ | .range _ _ | .color _ _ _ _ | .str _ => by
    simp [Literal.toVal, Rel]
  | .arr xs => by
    have h := toValL xs
    have hs : Vecc.total Val.getSize (Literal.toVal.toValL xs : List (Val C)) =
        Vecc.total Val.getSize (Literal.toVal.toValL xs : List (Val C')) := by
      generalize Literal.toVal.toValL xs = a at h
      generalize Literal.toVal.toValL xs = b at h
      induction a generalizing b with
      | nil => cases b with
        | nil => rfl
        | cons => simp [RelL] at h
      | cons x a ih => cases b with
        | nil => simp [RelL] at h
        | cons y b =>
          simp only [RelL] at h
          simp only [Vecc.total, List.map_cons, List.sum_cons] at ih ⊢
          rw [ih b h.2, h.1.getSize]
    simp only [Literal.toVal, Rel]
    exact ⟨h, hs, hs⟩
  | .pair a b => by
    simp only [Literal.toVal, Rel]
    exact ⟨Rel.toVal a, Rel.toVal b⟩
termination_by structural l => l
where
  toValL : ∀ xs : List Literal, RelL R (Literal.toVal.toValL xs : List (Val C)) (Literal.toVal.toValL xs : List (Val C'))
  | [] => by simp [Literal.toVal.toValL, RelL]
  | x :: xs => by
    simp only [Literal.toVal.toValL, RelL]
    exact ⟨Rel.toVal x, toValL xs⟩
  termination_by structural l => l

mutual
/-- Comparisons decided without comparing closures have the same result. -/
theorem Rel.eqv (F : FOps) (ceq' : C' → C' → Option Bool) :
    ∀ {a b : Val C} {a' b' : Val C'} {r : Bool}, Rel R a a' → Rel R b b' →
      Val.eqv F (fun _ _ => Option.none) a b = some r → Val.eqv F ceq' a' b' = some r
  | .arr xs s m, b, a', b', r, ha, hb, h => by
    cases a' <;> simp only [Rel] at ha
    cases b <;> cases b' <;> simp only [Rel] at hb <;> simp only [Val.eqv] at h ⊢ <;>
      first | exact h | skip
    rw [← ha.1.length_eq, ← hb.1.length_eq]
    split at h
    · rename_i hl
      rw [if_pos hl]
      exact RelL.eqv F ceq' ha.1 hb.1 h
    · rename_i hl
      rw [if_neg hl]; exact h
  | .pair x y, b, a', b', r, ha, hb, h => by
    cases a' <;> simp only [Rel] at ha
    cases b <;> cases b' <;> simp only [Rel] at hb <;> simp only [Val.eqv] at h ⊢ <;>
      first | exact h | skip
    rename_i x' y' u v u' v'
    cases h1 : Val.eqv F (fun _ _ => Option.none) x u with
    | none => simp [h1] at h
    | some q =>
      rw [Rel.eqv F ceq' ha.1 hb.1 h1]
      rw [h1] at h
      cases q with
      | true => exact Rel.eqv F ceq' ha.2 hb.2 h
      | false => exact h
  | .none, b, a', b', r, ha, hb, h | .bool _, b, a', b', r, ha, hb, h | .int _, b, a', b', r, ha, hb, h
  | .float _, b, a', b', r, ha, hb, h | .range _ _, b, a', b', r, ha, hb, h
  | .color _ _ _ _, b, a', b', r, ha, hb, h | .str _, b, a', b', r, ha, hb, h
  | .special _ _, b, a', b', r, ha, hb, h | .loopCtx _, b, a', b', r, ha, hb, h
  | .func _, b, a', b', r, ha, hb, h | .clos _, b, a', b', r, ha, hb, h => by
    cases a' <;> simp only [Rel] at ha
    all_goals (cases b <;> cases b' <;> simp only [Rel] at hb <;> simp only [Val.eqv] at h ⊢)
    all_goals simp_all
termination_by structural a => a
theorem RelL.eqv (F : FOps) (ceq' : C' → C' → Option Bool) :
    ∀ {a b : List (Val C)} {a' b' : List (Val C')} {r : Bool}, RelL R a a' → RelL R b b' →
      Val.eqvL F (fun _ _ => Option.none) a b = some r → Val.eqvL F ceq' a' b' = some r
  | [], b, a', b', r, ha, hb, h => by
    cases a' <;> simp only [RelL] at ha
    cases b <;> cases b' <;> simp only [RelL] at hb <;> simp only [Val.eqvL] at h ⊢ <;> exact h
  | x :: xs, b, a', b', r, ha, hb, h => by
    cases a' <;> simp only [RelL] at ha
    cases b <;> cases b' <;> simp only [RelL] at hb <;> simp only [Val.eqvL] at h ⊢ <;>
      first | exact h | skip
    rename_i x' xs' u v u' v'
    cases h1 : Val.eqv F (fun _ _ => Option.none) x u with
    | none => simp [h1] at h
    | some q =>
      rw [Rel.eqv F ceq' ha.1 hb.1 h1]
      rw [h1] at h
      cases q with
      | true => exact RelL.eqv F ceq' ha.2 hb.2 h
      | false => exact h
termination_by structural a => a
end

mutual
/-- Whether a comparison can be decided without comparing closures, and the result then, is the same for related values. -/
theorem Rel.eqv_none (F : FOps) :
    ∀ {a b : Val C} {a' b' : Val C'}, Rel R a a' → Rel R b b' →
      Val.eqv F (fun _ _ => Option.none) a b = Val.eqv F (fun _ _ => Option.none) a' b'
  | .arr xs s m, b, a', b', ha, hb => by
    cases a' <;> simp only [Rel] at ha
    cases b <;> cases b' <;> simp only [Rel] at hb <;> simp only [Val.eqv]
    rw [← ha.1.length_eq, ← hb.1.length_eq, RelL.eqv_none F ha.1 hb.1]
  | .pair x y, b, a', b', ha, hb => by
    cases a' <;> simp only [Rel] at ha
    cases b <;> cases b' <;> simp only [Rel] at hb <;> simp only [Val.eqv]
    rw [Rel.eqv_none F ha.1 hb.1, Rel.eqv_none F ha.2 hb.2]
  | .none, b, a', b', ha, hb | .bool _, b, a', b', ha, hb | .int _, b, a', b', ha, hb
  | .float _, b, a', b', ha, hb | .range _ _, b, a', b', ha, hb
  | .color _ _ _ _, b, a', b', ha, hb | .str _, b, a', b', ha, hb
  | .special _ _, b, a', b', ha, hb | .loopCtx _, b, a', b', ha, hb
  | .func _, b, a', b', ha, hb | .clos _, b, a', b', ha, hb => by
    cases a' <;> simp only [Rel] at ha
    all_goals (cases b <;> cases b' <;> simp only [Rel] at hb <;> simp only [Val.eqv])
    all_goals simp_all
termination_by structural a => a
theorem RelL.eqv_none (F : FOps) :
    ∀ {a b : List (Val C)} {a' b' : List (Val C')}, RelL R a a' → RelL R b b' →
      Val.eqvL F (fun _ _ => Option.none) a b = Val.eqvL F (fun _ _ => Option.none) a' b'
  | [], b, a', b', ha, hb => by
    cases a' <;> simp only [RelL] at ha
    cases b <;> cases b' <;> simp only [RelL] at hb <;> simp only [Val.eqvL]
  | x :: xs, b, a', b', ha, hb => by
    cases a' <;> simp only [RelL] at ha
    cases b <;> cases b' <;> simp only [RelL] at hb <;> simp only [Val.eqvL]
    rw [Rel.eqv_none F ha.1 hb.1, RelL.eqv_none F ha.2 hb.2]
termination_by structural a => a
end

theorem Rel.isTruthy (F : FOps) {a : Val C} {b : Val C'} (h : Rel R a b) : a.isTruthy F = b.isTruthy F := by
  cases a <;> cases b <;> simp_all [Rel, Val.isTruthy, Val.ntype]

theorem Rel.isZero (F : FOps) {a : Val C} {b : Val C'} (h : Rel R a b) : a.isZero F = b.isZero F := by
  cases a <;> cases b <;> simp_all [Rel, Val.isZero]

theorem rel_wrapI (chk : Bool) (r : Int) : Res.Rel (Rel R) (wrapI chk r) (wrapI chk r) := by
  unfold wrapI; split
  · simp [Res.Rel, Rel]
  · split <;> simp [Res.Rel, Rel]

theorem rel_strCat (m : Nat) (a b : List Char) : Res.Rel (Rel R) (strCat m a b) (strCat m a b) := by
  unfold strCat; split <;> simp [Res.Rel, Rel]

theorem rel_chan4 (r g b a : Res (BitVec 8)) : Res.Rel (Rel R) (chan4 r g b a) (chan4 r g b a) := by
  cases r <;> cases g <;> cases b <;> cases a <;> simp [chan4, Res.bind, Res.Rel, Rel]

theorem rel_strMul (chk : Bool) (m : Nat) (l : List Char) (r : BitVec 64) :
    Res.Rel (Rel R) (strMul chk m l r) (strMul chk m l r) := by
  unfold strMul
  split
  · simp [Res.Rel]
  · dsimp only
    split
    · split <;> simp [Res.Rel, Rel]
    · split
      · simp [Res.Rel]
      · split <;> simp [Res.Rel]

theorem rel_arrJoin (arrMax : Nat) {l r : List (Val C)} {l' r' : List (Val C')} (ls lm rs : Nat)
    (hl : RelL R l l') (hr : RelL R r r') :
    Res.Rel (Rel R) (arrJoin arrMax l ls lm r rs) (arrJoin arrMax l' ls lm r' rs) := by
  unfold arrJoin
  split
  · simp [Res.Rel]
  · rename_i h; clear h
    induction r generalizing r' l l' ls with
    | nil =>
      cases r' with
      | nil => simpa [Vecc.extend, Res.Rel, Rel] using hl
      | cons => simp [RelL] at hr
    | cons x r ih =>
      cases r' with
      | nil => simp [RelL] at hr
      | cons y r' =>
        simp only [RelL] at hr
        have hs := hr.1.getSize
        by_cases h : ls + y.getSize > lm
        · simp [Vecc.extend, hs, h, Res.Rel]
        · simp only [Vecc.extend, hs, h, if_false]
          exact ih _ (hl.append (by simp [RelL, hr.1])) hr.2

theorem rel_pushAllV {R : C → C' → Prop} (size max : Nat) {l r : List (Val C)} {l' r' : List (Val C')}
    (hl : RelL R l l') (hr : RelL R r r') :
    Res.Rel (fun (a : Vecc (Val C)) (b : Vecc (Val C')) => RelL R a.data b.data ∧ a.size = b.size ∧ a.maxSize = b.maxSize)
      (pushAllV ⟨l, size, max⟩ r) (pushAllV ⟨l', size, max⟩ r') := by
  induction r generalizing r' l l' size with
  | nil =>
    cases r' with
    | nil => simpa [pushAllV, Res.Rel] using hl
    | cons => simp [RelL] at hr
  | cons x r ih =>
    cases r' with
    | nil => simp [RelL] at hr
    | cons y r' =>
      simp only [RelL] at hr
      have hs := hr.1.getSize
      by_cases h : size + y.getSize > max
      · simp [pushAllV, Vecc.push, hs, h, Res.Rel]
      · simp only [pushAllV, Vecc.push, hs, h, if_false]
        exact ih _ (hl.append (by simp [RelL, hr.1])) hr.2

theorem rel_mkArray (lim : Limits) {xs : List (Val C)} {ys : List (Val C')} (h : RelL R xs ys) :
    Res.Rel (Rel R) (mkArray lim xs) (mkArray lim ys) := by
  have := rel_pushAllV (R := R) 0 lim.arrMax (l := []) (l' := []) (by simp [RelL]) h
  unfold mkArray
  simp only [Vecc.new]
  cases h1 : pushAllV (⟨[], 0, lim.arrMax⟩ : Vecc (Val C)) xs <;>
    cases h2 : pushAllV (⟨[], 0, lim.arrMax⟩ : Vecc (Val C')) ys <;>
    simp_all [Res.Rel, Res.map, Rel]

theorem rel_mkRange {a b : Val C} {a' b' : Val C'} (ha : Rel R a a') (hb : Rel R b b') :
    Res.Rel (Rel R) (mkRange a b) (mkRange a' b') := by
  have h1 := ha.ntype
  have h2 := hb.ntype
  cases a <;> cases a' <;> simp only [Rel] at ha <;> cases b <;> cases b' <;> simp only [Rel] at hb <;>
    simp_all [mkRange, Res.Rel, Rel]

theorem rel_indexGet (chk : Bool) {v i : Val C} {v' i' : Val C'} (hv : Rel R v v') (hi : Rel R i i') :
    Res.Rel (Rel R) (indexGet chk v i) (indexGet chk v' i') := by
  have h1 := hi.ntype
  have h2 := hv.ntype
  cases i <;> cases i' <;> simp only [Rel] at hi <;> try (simp [indexGet, Res.Rel, h1]; done)
  subst hi
  rename_i idx
  cases v <;> cases v' <;> simp only [Rel] at hv <;> try (simp [indexGet, Res.Rel, h2]; done)
  · obtain ⟨rfl, rfl, rfl, rfl⟩ := hv
    simp only [indexGet]
    refine Res.Rel.bind (P := (· = ·)) (Res.Rel.refl_of (fun _ => rfl) _) ?_
    rintro i _ rfl
    split <;> simp_all [Res.Rel, Rel]
  · subst hv
    simp only [indexGet]
    refine Res.Rel.bind (P := (· = ·)) (Res.Rel.refl_of (fun _ => rfl) _) ?_
    rintro i _ rfl
    split <;> simp_all [Res.Rel, Rel]
  · obtain ⟨hv, rfl, rfl⟩ := hv
    simp only [indexGet, hv.length_eq]
    refine Res.Rel.bind (P := (· = ·)) (Res.Rel.refl_of (fun _ => rfl) _) ?_
    rintro i _ rfl
    rcases hv.get i with ⟨h, h'⟩ | ⟨a, b, h, h', hab⟩
    · simp [h, h', Res.Rel]
    · simp [h, h', Res.Rel, hab]
  · simp only [indexGet]
    refine Res.Rel.bind (P := (· = ·)) (Res.Rel.refl_of (fun _ => rfl) _) ?_
    rintro i _ rfl
    rcases i with _ | _ | i
    · simpa [Res.Rel] using hv.1
    · simpa [Res.Rel] using hv.2
    · simp [Res.Rel]

theorem rel_unpack (n : Nat) {v : Val C} {v' : Val C'} (h : Rel R v v') :
    Res.Rel (RelL R) (unpack v n) (unpack v' n) := by
  have h2 := h.ntype
  cases v <;> cases v' <;> simp only [Rel] at h <;> try (simp [unpack, Res.Rel, h2]; done)
  · obtain ⟨rfl, rfl, rfl, rfl⟩ := h
    simp only [unpack]
    split
    · simp [Res.Rel]
    · split
      · simp only [Res.Rel]
        generalize List.take n _ = l
        induction l with
        | nil => simp [RelL]
        | cons x l ih => simp [RelL, Rel, ih]
      · simp [Res.Rel]
  · simp only [unpack, h.1.length_eq]
    split
    · exact h.1
    · simp [Res.Rel]
  · simp only [unpack]
    split
    · simpa [Res.Rel, RelL] using h
    · simp [Res.Rel]

/-- Optional values. -/
def RelO (R : C → C' → Prop) : Option (Val C) → Option (Val C') → Prop
  | some a, some b => Rel R a b
  | .none, .none => True
  | _, _ => False

theorem rel_iterItem (chk : Bool) (k : Nat) {v : Val C} {v' : Val C'} (h : Rel R v v') :
    Res.Rel (RelO R) (iterItem chk v k) (iterItem chk v' k) := by
  have h2 := h.ntype
  cases v <;> cases v' <;> simp only [Rel] at h <;> try (simp [iterItem, Res.Rel, h2]; done)
  · obtain ⟨rfl, rfl⟩ := h
    simp only [iterItem]
    split
    · simp [Res.Rel]
    · simp only [Res.Rel]; split <;> simp [RelO, Rel]
  · obtain ⟨rfl, rfl, rfl, rfl⟩ := h
    simp only [iterItem, Res.Rel]
    cases h : ([_, _, _, _] : List (BitVec 8))[k]? <;> simp [RelO, Rel]
  · subst h
    rename_i s
    simp only [iterItem, Res.Rel]
    cases h : s[k]? <;> simp [RelO, Rel]
  · simp only [iterItem, Res.Rel]
    rcases h.1.get k with ⟨h, h'⟩ | ⟨a, b, h, h', hab⟩
    · simp [h, h', RelO]
    · simpa [h, h', RelO] using hab

theorem rel_unary (cfg : Cfg) (op : Op) {a : Val C} {b : Val C'} (h : Rel R a b) :
    Res.Rel (Rel R) (unary cfg op a) (unary cfg op b) := by
  have h2 := h.ntype
  cases op <;> simp only [unary] <;> try (simp [Res.Rel]; done)
  all_goals cases a <;> cases b <;> simp only [Rel] at h <;>
    try (simp_all [lnot, negate, bnot, Res.Rel, Rel]; done)
  subst h
  simp only [negate]; exact rel_wrapI _ _

theorem rel_badBin (op : String) {a b : Val C} {a' b' : Val C'} (ha : Rel R a a') (hb : Rel R b b') :
    badBin op a b = badBin op a' b' := by
  simp [badBin, ha.ntype, hb.ntype]

theorem rel_add (cfg : Cfg) (m : Nat) {a b : Val C} {a' b' : Val C'} (ha : Rel R a a') (hb : Rel R b b') :
    Res.Rel (Rel R) (add cfg m a b) (add cfg m a' b') := by
  have h := rel_badBin "+" ha hb
  cases a <;> cases a' <;> simp only [Rel] at ha <;> cases b <;> cases b' <;> simp only [Rel] at hb <;>
    first
    | exact h
    | (simp only [add, ha, hb]; first | exact rel_wrapI _ _ | exact rel_strCat _ _ _ | simp [Res.Rel, Rel])

theorem rel_subtract (cfg : Cfg) {a b : Val C} {a' b' : Val C'} (ha : Rel R a a') (hb : Rel R b b') :
    Res.Rel (Rel R) (subtract cfg a b) (subtract cfg a' b') := by
  have h := rel_badBin "-" ha hb
  cases a <;> cases a' <;> simp only [Rel] at ha <;> cases b <;> cases b' <;> simp only [Rel] at hb <;>
    first
    | exact h
    | (simp only [subtract, ha, hb]
       first
       | exact rel_wrapI _ _ | exact rel_strCat _ _ _ | exact rel_chan4 _ _ _ _ | exact rel_strMul _ _ _ _
       | exact rel_arrJoin _ _ _ _ ha.1 hb.1
       | (split <;> first | (split <;> simp [Res.Rel, Rel]) | simp [Res.Rel, Rel])
       | simp [Res.Rel, Rel])

theorem rel_multiply (cfg : Cfg) (m : Nat) {a b : Val C} {a' b' : Val C'} (ha : Rel R a a') (hb : Rel R b b') :
    Res.Rel (Rel R) (multiply cfg m a b) (multiply cfg m a' b') := by
  have h := rel_badBin "*" ha hb
  cases a <;> cases a' <;> simp only [Rel] at ha <;> cases b <;> cases b' <;> simp only [Rel] at hb <;>
    first
    | exact h
    | (simp only [multiply, ha, hb]
       first
       | exact rel_wrapI _ _ | exact rel_strCat _ _ _ | exact rel_chan4 _ _ _ _ | exact rel_strMul _ _ _ _
       | exact rel_arrJoin _ _ _ _ ha.1 hb.1
       | (split <;> first | (split <;> simp [Res.Rel, Rel]) | simp [Res.Rel, Rel])
       | simp [Res.Rel, Rel])

theorem rel_power (cfg : Cfg) {a b : Val C} {a' b' : Val C'} (ha : Rel R a a') (hb : Rel R b b') :
    Res.Rel (Rel R) (power cfg a b) (power cfg a' b') := by
  have h := rel_badBin "**" ha hb
  cases a <;> cases a' <;> simp only [Rel] at ha <;> cases b <;> cases b' <;> simp only [Rel] at hb <;>
    first
    | exact h
    | (simp only [power, ha, hb]
       first
       | exact rel_wrapI _ _ | exact rel_strCat _ _ _ | exact rel_chan4 _ _ _ _ | exact rel_strMul _ _ _ _
       | exact rel_arrJoin _ _ _ _ ha.1 hb.1
       | (split <;> first | (split <;> simp [Res.Rel, Rel]) | simp [Res.Rel, Rel])
       | simp [Res.Rel, Rel])

theorem rel_land {a b : Val C} {a' b' : Val C'} (ha : Rel R a a') (hb : Rel R b b') :
    Res.Rel (Rel R) (land a b) (land a' b') := by
  have h := rel_badBin "&&" ha hb
  cases a <;> cases a' <;> simp only [Rel] at ha <;> cases b <;> cases b' <;> simp only [Rel] at hb <;>
    first
    | exact h
    | (simp only [land, ha, hb]
       first
       | exact rel_wrapI _ _ | exact rel_strCat _ _ _ | exact rel_chan4 _ _ _ _ | exact rel_strMul _ _ _ _
       | exact rel_arrJoin _ _ _ _ ha.1 hb.1
       | (split <;> first | (split <;> simp [Res.Rel, Rel]) | simp [Res.Rel, Rel])
       | simp [Res.Rel, Rel])

theorem rel_lor {a b : Val C} {a' b' : Val C'} (ha : Rel R a a') (hb : Rel R b b') :
    Res.Rel (Rel R) (lor a b) (lor a' b') := by
  have h := rel_badBin "||" ha hb
  cases a <;> cases a' <;> simp only [Rel] at ha <;> cases b <;> cases b' <;> simp only [Rel] at hb <;>
    first
    | exact h
    | (simp only [lor, ha, hb]
       first
       | exact rel_wrapI _ _ | exact rel_strCat _ _ _ | exact rel_chan4 _ _ _ _ | exact rel_strMul _ _ _ _
       | exact rel_arrJoin _ _ _ _ ha.1 hb.1
       | (split <;> first | (split <;> simp [Res.Rel, Rel]) | simp [Res.Rel, Rel])
       | simp [Res.Rel, Rel])

theorem rel_compare (cfg : Cfg) (op : String) (ci cf : BitVec 64 → BitVec 64 → Bool) {a b : Val C} {a' b' : Val C'} (ha : Rel R a a') (hb : Rel R b b') :
    Res.Rel (Rel R) (compare cfg op ci cf a b) (compare cfg op ci cf a' b') := by
  have h := rel_badBin op ha hb
  cases a <;> cases a' <;> simp only [Rel] at ha <;> cases b <;> cases b' <;> simp only [Rel] at hb <;>
    first
    | exact h
    | (simp only [compare, ha, hb]
       first
       | exact rel_wrapI _ _ | exact rel_strCat _ _ _ | exact rel_chan4 _ _ _ _ | exact rel_strMul _ _ _ _
       | exact rel_arrJoin _ _ _ _ ha.1 hb.1
       | (split <;> first | (split <;> simp [Res.Rel, Rel]) | simp [Res.Rel, Rel])
       | simp [Res.Rel, Rel])

theorem rel_join (cfg : Cfg) (m n : Nat) {a b : Val C} {a' b' : Val C'} (ha : Rel R a a') (hb : Rel R b b') :
    Res.Rel (Rel R) (join cfg m n a b) (join cfg m n a' b') := by
  have h := rel_badBin ".." ha hb
  cases a <;> cases a' <;> simp only [Rel] at ha <;> cases b <;> cases b' <;> simp only [Rel] at hb <;>
    first
    | exact h
    | (simp only [join, ha, hb]
       first
       | exact rel_wrapI _ _ | exact rel_strCat _ _ _ | exact rel_chan4 _ _ _ _ | exact rel_strMul _ _ _ _
       | exact rel_arrJoin _ _ _ _ ha.1 hb.1
       | (split <;> first | (split <;> simp [Res.Rel, Rel]) | simp [Res.Rel, Rel])
       | simp [Res.Rel, Rel])

theorem rel_bitOp (op : String) (f : BitVec 64 → BitVec 64 → BitVec 64) {a b : Val C} {a' b' : Val C'} (ha : Rel R a a') (hb : Rel R b b') :
    Res.Rel (Rel R) (bitOp op f a b) (bitOp op f a' b') := by
  have h := rel_badBin op ha hb
  cases a <;> cases a' <;> simp only [Rel] at ha <;> cases b <;> cases b' <;> simp only [Rel] at hb <;>
    first
    | exact h
    | (simp only [bitOp, ha, hb]
       first
       | exact rel_wrapI _ _ | exact rel_strCat _ _ _ | exact rel_chan4 _ _ _ _ | exact rel_strMul _ _ _ _
       | exact rel_arrJoin _ _ _ _ ha.1 hb.1
       | (split <;> first | (split <;> simp [Res.Rel, Rel]) | simp [Res.Rel, Rel])
       | simp [Res.Rel, Rel])

theorem rel_shiftOp (chk : Bool) (op : String) (f : BitVec 64 → Nat → BitVec 64) {a b : Val C} {a' b' : Val C'} (ha : Rel R a a') (hb : Rel R b b') :
    Res.Rel (Rel R) (shiftOp chk op f a b) (shiftOp chk op f a' b') := by
  have h := rel_badBin op ha hb
  cases a <;> cases a' <;> simp only [Rel] at ha <;> cases b <;> cases b' <;> simp only [Rel] at hb <;>
    first
    | exact h
    | (simp only [shiftOp, ha, hb]
       first
       | exact rel_wrapI _ _ | exact rel_strCat _ _ _ | exact rel_chan4 _ _ _ _ | exact rel_strMul _ _ _ _
       | exact rel_arrJoin _ _ _ _ ha.1 hb.1
       | (split <;> first | (split <;> simp [Res.Rel, Rel]) | simp [Res.Rel, Rel])
       | simp [Res.Rel, Rel])

theorem rel_divide (cfg : Cfg) {a b : Val C} {a' b' : Val C'} (ha : Rel R a a') (hb : Rel R b b') :
    Res.Rel (Rel R) (divide cfg a b) (divide cfg a' b') := by
  have h := rel_badBin "/" ha hb
  unfold divide
  rw [hb.isZero]
  split
  · simp [Res.Rel]
  rename_i hz; clear hz
  cases a <;> cases a' <;> simp only [Rel] at ha <;> cases b <;> cases b' <;> simp only [Rel] at hb <;>
    first
    | exact h
    | (simp only [ha, hb]
       first
       | exact rel_chan4 _ _ _ _
       | (split <;> simp [Res.Rel, Rel])
       | simp [Res.Rel, Rel])

theorem rel_modulo (cfg : Cfg) {a b : Val C} {a' b' : Val C'} (ha : Rel R a a') (hb : Rel R b b') :
    Res.Rel (Rel R) (modulo cfg a b) (modulo cfg a' b') := by
  have h := rel_badBin "%" ha hb
  unfold modulo
  rw [hb.isZero]
  split
  · simp [Res.Rel]
  rename_i hz; clear hz
  cases a <;> cases a' <;> simp only [Rel] at ha <;> cases b <;> cases b' <;> simp only [Rel] at hb <;>
    first
    | exact h
    | (simp only [ha, hb]
       first
       | exact rel_chan4 _ _ _ _
       | (split <;> simp [Res.Rel, Rel])
       | simp [Res.Rel, Rel])

/-- Operators other than `==` and `!=`. -/
theorem rel_binary (cfg : Cfg) (lim : Limits) (ceq : C → C → Option Bool) (ceq' : C' → C' → Option Bool) (op : Op)
    (h1 : op ≠ .eq) (h2 : op ≠ .neq) {a b : Val C} {a' b' : Val C'} (ha : Rel R a a') (hb : Rel R b b') :
    Res.Rel (Rel R) (binary cfg lim ceq op a b) (binary cfg lim ceq' op a' b') := by
  cases op <;> simp only [binary, gt, ge, lt, le, shl, shr]
  case eq => exact absurd rfl h1
  case neq => exact absurd rfl h2
  case add => exact rel_add _ _ ha hb
  case sub => exact rel_subtract _ ha hb
  case mul => exact rel_multiply _ _ ha hb
  case div => exact rel_divide _ ha hb
  case mod => exact rel_modulo _ ha hb
  case pow => exact rel_power _ ha hb
  case lt => exact rel_compare _ _ _ _ ha hb
  case gt => exact rel_compare _ _ _ _ ha hb
  case lte => exact rel_compare _ _ _ _ ha hb
  case gte => exact rel_compare _ _ _ _ ha hb
  case and => exact rel_land ha hb
  case or => exact rel_lor ha hb
  case join => exact rel_join _ _ _ ha hb
  case bitAnd => exact rel_bitOp _ _ ha hb
  case bitOr => exact rel_bitOp _ _ ha hb
  case bitXor => exact rel_bitOp _ _ ha hb
  case shl => exact rel_shiftOp _ _ _ ha hb
  case shr => exact rel_shiftOp _ _ _ ha hb
  all_goals simp [Res.Rel]

end Val
end Quilt
