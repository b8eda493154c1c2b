import Verif.Sem.Source

/-!
# Equations of the direct semantics
-/

namespace Quilt

open SM

variable {D : Type}

namespace SM
variable {α β : Type} {x : SM D α} {f : α → SM D β} {σ σ1 σ' : SSt D}

theorem bind_of_ok {a : α} (h : x σ = (.ok a, σ1)) : (x >>= f) σ = f a σ1 := by
  show SM.bind x f σ = _
  simp only [SM.bind, h]

theorem bind_of_err {e : Err} {sp : Option Span} (h : x σ = (.err e sp, σ1)) : (x >>= f) σ = (.err e sp, σ1) := by
  show SM.bind x f σ = _
  simp only [SM.bind, h]

theorem bind_ok_iff {b : β} : (x >>= f) σ = (.ok b, σ') ↔ ∃ a σ1, x σ = (.ok a, σ1) ∧ f a σ1 = (.ok b, σ') := by
  show SM.bind x f σ = _ ↔ _
  simp only [SM.bind]
  generalize x σ = r
  obtain ⟨o, σ2⟩ := r
  cases o with
  | ok a =>
    constructor
    · intro h; exact ⟨a, σ2, rfl, h⟩
    · rintro ⟨a', s, h1, h2⟩; simp only [Prod.mk.injEq, Out.ok.injEq] at h1; obtain ⟨rfl, rfl⟩ := h1; exact h2
  | _ => simp

theorem pure_ok_iff {a b : α} : (pure a : SM D α) σ = (.ok b, σ') ↔ a = b ∧ σ = σ' := by
  show (Out.ok a, σ) = _ ↔ _
  simp

theorem lift_ok_iff {r : Res α} {sp : Span} {a : α} : (lift r sp : SM D α) σ = (.ok a, σ') ↔ r = .ok a ∧ σ = σ' := by
  cases r with
  | ok b => exact (pure_ok_iff (σ := σ)).trans (by simp)
  | err e => simp [lift, SM.err]
  | panic => simp [lift, SM.panic]

theorem ret_ne_ok {v : SVal} {a : α} : (ret v : SM D α) σ ≠ (.ok a, σ') := by simp [ret]

end SM

/-- A top-level program ending with an expression. -/
theorem evalTop_snoc (S : SHost D) (call : SClos → List SVal → SM D SVal) (W : Nat) (n : Node) (hn : n.isStatement = false) :
    ∀ (pre : List Node) (σ : SSt D), evalTop S call W (pre ++ [n]) σ = (evalEach S call W pre >>= fun _ => evalNode S call W n []) σ
  | [], σ => by
    simp only [List.nil_append, evalTop, hn, evalEach, Bool.false_eq_true, if_false]
    rfl
  | p :: pre, σ => by
    have ih := evalTop_snoc S call W n hn pre
    obtain ⟨q, qs, hq⟩ : ∃ q qs, pre ++ [n] = q :: qs := by
      cases pre with
      | nil => exact ⟨n, [], rfl⟩
      | cons q qs => exact ⟨q, qs ++ [n], rfl⟩
    rw [List.cons_append, hq, evalTop, ← hq, evalEach]
    by_cases hp : p.isStatement = true
    · rw [if_pos hp, if_pos hp]
      show SM.bind _ _ σ = SM.bind (SM.bind _ _) _ σ
      simp only [SM.bind]
      generalize evalTopStmt S call W p σ = r
      obtain ⟨o, σ1⟩ := r
      cases o with
      | ok a => exact ih σ1
      | _ => rfl
    · rw [if_neg hp, if_neg hp]
      show SM.bind _ _ σ = SM.bind (SM.bind _ _) _ σ
      simp only [SM.bind]
      generalize evalNode S call W p [] σ = r
      obtain ⟨o, σ1⟩ := r
      cases o with
      | ok a => exact ih σ1
      | _ => rfl

theorem evalProgram_snoc {S : SHost D} {k : Nat} {pre : List Node} {n : Node} {σ σ1 : SSt D} (hn : n.isStatement = false)
    (hpre : evalEach S (callN S k k) k pre σ = (.ok (), σ1)) :
    evalProgram S k (pre ++ [n]) σ = evalNode S (callN S k k) k n [] σ1 := by
  unfold evalProgram
  rw [evalTop_snoc S _ k n hn, SM.bind_of_ok hpre]

theorem evalEach_append (S : SHost D) (call : SClos → List SVal → SM D SVal) (W : Nat) (b : List Node) :
    ∀ (a : List Node) (σ : SSt D), evalEach S call W (a ++ b) σ = (evalEach S call W a >>= fun _ => evalEach S call W b) σ
  | [], σ => by simp only [List.nil_append, evalEach]; rfl
  | n :: a, σ => by
    have ih := evalEach_append S call W b a
    rw [List.cons_append, evalEach, evalEach]
    by_cases hp : n.isStatement = true
    · rw [if_pos hp, if_pos hp]
      show SM.bind _ _ σ = SM.bind (SM.bind _ _) _ σ
      simp only [SM.bind]
      generalize evalTopStmt S call W n σ = r
      obtain ⟨o, σ1⟩ := r
      cases o with
      | ok a => exact ih σ1
      | _ => rfl
    · rw [if_neg hp, if_neg hp]
      show SM.bind _ _ σ = SM.bind (SM.bind _ _) _ σ
      simp only [SM.bind]
      generalize evalNode S call W n [] σ = r
      obtain ⟨o, σ1⟩ := r
      cases o with
      | ok a => exact ih σ1
      | _ => rfl

/-! ## New variables -/

/-- Scope added by `bindVars`, locations from `n` on. -/
def bound : List (String × SVal) → Nat → SEnv
  | [], _ => []
  | (x, _) :: r, n => bound r (n + 1) ++ [(x, n)]

/-- Store after `bindVars`. -/
def storeAll (s : Nat → SVal) : Nat → List (String × SVal) → Nat → SVal
  | _, [] => s
  | n, (_, v) :: r => storeAll (upd s n v) (n + 1) r

theorem bindVars_eq : ∀ (bs : List (String × SVal)) (env : SEnv) (σ : SSt D),
    bindVars bs env σ = (.ok (bound bs σ.next ++ env), { σ with store := storeAll σ.store σ.next bs, next := σ.next + bs.length })
  | [], env, σ => rfl
  | (x, v) :: r, env, σ => by
    have h := bindVars_eq r ((x, σ.next) :: env) { σ with store := upd σ.store σ.next v, next := σ.next + 1 }
    have : bindVars ((x, v) :: r) env σ = bindVars r ((x, σ.next) :: env) { σ with store := upd σ.store σ.next v, next := σ.next + 1 } := rfl
    rw [this, h]
    simp only [bound, List.append_assoc, List.cons_append, List.nil_append, storeAll, List.length_cons, Nat.add_assoc, Nat.add_comm 1]

theorem storeAll_below : ∀ (bs : List (String × SVal)) (s : Nat → SVal) (n l : Nat), l < n → storeAll s n bs l = s l
  | [], _, _, _, _ => rfl
  | (x, v) :: r, s, n, l, h => by
    rw [storeAll, storeAll_below r _ _ _ (by omega), upd_other _ _ (by omega)]

theorem storeAll_get : ∀ (bs : List (String × SVal)) (s : Nat → SVal) (n i : Nat) (b : String × SVal), bs[i]? = some b → storeAll s n bs (n + i) = b.2
  | [], _, _, _, _, h => by simp at h
  | (x, v) :: r, s, n, 0, b, h => by
    simp only [List.getElem?_cons_zero, Option.some.injEq] at h
    subst h
    rw [storeAll, storeAll_below r _ _ _ (by omega)]
    exact upd_same _ _ _
  | (x, v) :: r, s, n, i + 1, b, h => by
    rw [storeAll, ← storeAll_get r (upd s n v) (n + 1) i b (by simpa using h)]
    congr 1; omega

theorem lookup_append (x : String) (a b : SEnv) : lookup x (a ++ b) = (lookup x a).or (lookup x b) := by
  induction a with
  | nil => simp [lookup]
  | cons p a ih =>
    obtain ⟨y, l⟩ := p
    simp only [List.cons_append, lookup]
    split
    · rfl
    · exact ih

theorem lookup_bound_none (x : String) : ∀ (bs : List (String × SVal)) (n : Nat), x ∉ bs.map Prod.fst → lookup x (bound bs n) = none
  | [], _, _ => rfl
  | (y, v) :: r, n, h => by
    simp only [List.map_cons, List.mem_cons, not_or] at h
    rw [bound, lookup_append, lookup_bound_none x r (n + 1) h.2]
    simp [lookup, Ne.symm h.1]

/-- The last of equal names is visible. -/
theorem lookup_bound_some (x : String) : ∀ (bs : List (String × SVal)) (n i : Nat) (v : SVal), bs[i]? = some (x, v) → x ∉ (bs.drop (i + 1)).map Prod.fst →
    lookup x (bound bs n) = some (n + i)
  | [], _, _, _, h, _ => by simp at h
  | (y, w) :: r, n, 0, v, h, hn => by
    simp only [List.getElem?_cons_zero, Option.some.injEq, Prod.mk.injEq] at h
    obtain ⟨rfl, rfl⟩ := h
    rw [bound, lookup_append, lookup_bound_none y r (n + 1) (by simpa using hn)]
    simp [lookup]
  | (y, w) :: r, n, i + 1, v, h, hn => by
    rw [bound, lookup_append, lookup_bound_some x r (n + 1) i v (by simpa using h) (by simpa using hn)]
    simp; omega

end Quilt
