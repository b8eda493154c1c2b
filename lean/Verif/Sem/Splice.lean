import Verif.Sem.SimTop

/-!
# Included statements, written in place of the includes
-/

namespace Quilt

variable {D : Type}

/-- Without a `none` at the end. The parser adds one to a program that does not end with an expression. -/
def dropNone : List Node → List Node
  | [] => []
  | [.lit _ .none] => []
  | n :: ns => n :: dropNone ns

mutual
/-- The statements that an included file consists of, in place of the include; recursively. Other statements stay. -/
def Node.inPlace : Node → List Node
  | .include sp x b => inPlaceIncl sp x b
  | n => [n]
termination_by structural n => n
def inPlaceL : List Node → List Node
  | [] => []
  | n :: ns => n.inPlace ++ inPlaceL ns
termination_by structural n => n
def inPlaceIncl (sp : Span) (x : Name) : Option (List Node) → List Node
  | some b => dropNone (inPlaceL b)
  | none => [.include sp x none]
termination_by structural n => n
end

theorem SM.assoc {α β γ : Type} (x : SM D α) (f : α → SM D β) (g : β → SM D γ) : (x >>= f) >>= g = x >>= fun a => f a >>= g := by
  funext σ
  show SM.bind (SM.bind x f) g σ = SM.bind x (fun a => SM.bind (f a) g) σ
  simp only [SM.bind]
  generalize x σ = r
  obtain ⟨o, σ'⟩ := r
  cases o <;> rfl

theorem SM.pure_then {α β : Type} (a : α) (f : α → SM D β) : (pure a : SM D α) >>= f = f a := rfl

variable (S : SHost D) (call : SClos → List SVal → SM D SVal) (W : Nat)

theorem evalEach_then (ys : List Node) : ∀ xs, evalEach S call W (xs ++ ys) = (do evalEach S call W xs; evalEach S call W ys)
  | [] => by simp only [List.nil_append, evalEach, SM.pure_then]
  | x :: xs => by
    simp only [List.cons_append, evalEach]
    split <;> simp only [evalEach_then ys xs, SM.assoc]

theorem evalTop_then {ys : List Node} (h : ys ≠ []) : ∀ xs, evalTop S call W (xs ++ ys) = (do evalEach S call W xs; evalTop S call W ys)
  | [] => by simp only [List.nil_append, evalEach, SM.pure_then]
  | x :: xs => by
    obtain ⟨z, zs, hz⟩ : ∃ z zs, xs ++ ys = z :: zs := by
      cases hx : xs ++ ys with
      | nil => exact absurd (List.append_eq_nil_iff.1 hx).2 h
      | cons z zs => exact ⟨z, zs, rfl⟩
    simp only [List.cons_append, evalEach]
    rw [hz, evalTop, ← hz, evalTop_then h xs]
    split <;> simp only [SM.assoc]

theorem evalEach_dropNone : ∀ ns, evalEach S call W (dropNone ns) = evalEach S call W ns
  | [] => rfl
  | [.lit _ .none] => rfl
  | n :: ns => by
    unfold dropNone
    split
    · rename_i h; cases h
    · rename_i h; cases h; rfl
    · rename_i h
      cases h
      simp only [evalEach, evalEach_dropNone ns]

mutual
theorem evalEach_node : ∀ n : Node, evalEach S call W n.inPlace = evalEach S call W [n]
  | .include sp x b => by
    rw [Node.inPlace, evalEach_incl sp x b]
    simp only [evalEach, evalTopStmt, Node.isStatement, if_true]
    funext σ
    show _ = SM.bind _ _ σ
    simp only [SM.bind]
    generalize evalIncl S call W b σ = r
    obtain ⟨o, τ⟩ := r
    cases o <;> rfl
  | .extern .. | .func .. | .ret .. | .decl ..
  | .lit .. | .ident .. | .assign .. | .pair ..
  | .range .. | .array .. | .index .. | .un ..
  | .bin .. | .block .. | .cond .. | .switch ..
  | .while .. | .forIn .. | .forMulti .. | .lambda ..
  | .call .. | .builtin .. | .ctx .. => rfl
termination_by structural n => n
theorem evalEach_inPlace : ∀ ns : List Node, evalEach S call W (inPlaceL ns) = evalEach S call W ns
  | [] => rfl
  | n :: ns => by
    rw [inPlaceL, evalEach_then, evalEach_node n, evalEach_inPlace ns, ← evalEach_then]
    rfl
termination_by structural n => n
theorem evalEach_incl (sp : Span) (x : Name) : ∀ b : Option (List Node), evalEach S call W (inPlaceIncl sp x b) = evalIncl S call W b
  | some b => by rw [inPlaceIncl, evalIncl, evalEach_dropNone, evalEach_inPlace b]
  | none => by
    simp only [inPlaceIncl, evalEach, evalTopStmt, Node.isStatement, if_true, evalIncl]
    rfl
termination_by structural n => n
end

theorem Node.inPlace_expr {n : Node} (h : n.isStatement = false) : n.inPlace = [n] := by
  cases n <;> first | rfl | (simp [Node.isStatement] at h)

theorem inPlaceL_append (ys : List Node) : ∀ xs, inPlaceL (xs ++ ys) = inPlaceL xs ++ inPlaceL ys
  | [] => rfl
  | x :: xs => by rw [List.cons_append, inPlaceL, inPlaceL, inPlaceL_append ys xs, List.append_assoc]

theorem wfProgram_last : ∀ {ast : List Node}, wfProgram ast = true → ∃ ns n, ast = ns ++ [n] ∧ n.isStatement = false
  | [], h => by simp [wfProgram] at h
  | [n], h => by
    simp only [wfProgram, Bool.and_eq_true, Bool.not_eq_true'] at h
    exact ⟨[], n, rfl, h.1⟩
  | n :: n' :: ns, h => by
    simp only [wfProgram, Bool.and_eq_true] at h
    obtain ⟨ms, m, h1, h2⟩ := wfProgram_last h.2
    exact ⟨n :: ms, m, by rw [h1]; rfl, h2⟩

theorem evalTop_inPlace {ast : List Node} (h : wfProgram ast = true) : evalTop S call W (inPlaceL ast) = evalTop S call W ast := by
  obtain ⟨ns, n, rfl, hn⟩ := wfProgram_last h
  have e : inPlaceL [n] = [n] := by rw [inPlaceL, inPlaceL, Node.inPlace_expr hn]; rfl
  rw [inPlaceL_append, e, evalTop_then _ _ _ (by simp), evalTop_then _ _ _ (by simp), evalEach_inPlace]

/-- Two programs one after the other: the value of the first one is dropped. -/
theorem evalTop_seq {xs ys : List Node} (h : wfProgram xs = true) (hy : ys ≠ []) :
    evalTop S call W (xs ++ ys) = (do let _ ← evalTop S call W xs; evalTop S call W ys) := by
  obtain ⟨ns, n, rfl, hn⟩ := wfProgram_last h
  rw [evalTop_then _ _ _ hy, evalTop_then _ _ _ (List.cons_ne_nil n []), evalEach_then, SM.assoc, SM.assoc]
  have e : (evalEach S call W [n] >>= fun _ => evalTop S call W ys) = (evalTop S call W [n] >>= fun _ => evalTop S call W ys) := by
    simp only [evalEach, evalTop, hn, Bool.false_eq_true, if_false, SM.assoc, SM.pure_then]
  rw [e]

end Quilt
