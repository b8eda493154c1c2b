import Verif.Vm.Builds
import Verif.Compiler.Compile

/-!
# The compiler in builds with and without checks

It depends on the build only in the folding of unary operators on literals.
-/

namespace Quilt

/-- On every state the first crashes, or both do the same. -/
def CM.Strict {α : Type} (a b : CM α) : Prop := ∀ st, (a st).1 = .panic ∨ a st = b st

namespace CM
variable {α β : Type}

theorem Strict.rfl {a : CM α} : a.Strict a := fun _ => .inr (Eq.refl _)

theorem Strict.bind {a b : CM α} {f g : α → CM β} (h : a.Strict b) (hf : ∀ x, (f x).Strict (g x)) : (a >>= f).Strict (b >>= g) := by
  intro st
  show (CM.bind a f st).1 = .panic ∨ CM.bind a f st = CM.bind b g st
  unfold CM.bind
  rcases h st with h | h
  · left
    generalize a st = p at h ⊢
    rcases p with ⟨o, s⟩
    simp only at h; subst h; trivial
  · rw [← h]
    generalize a st = p
    rcases p with ⟨o, s⟩
    cases o with
    | ok x => exact hf x s
    | err e sp => exact .inr (Eq.refl _)
    | panic => exact .inr (Eq.refl _)

theorem Strict.then {a b : CM α} {f g : CM β} (h : a.Strict b) (hf : f.Strict g) : (a >>= fun _ => f).Strict (b >>= fun _ => g) := h.bind fun _ => hf

theorem Strict.ite {p : Prop} [Decidable p] {a b a' b' : CM α} (h : a.Strict a') (h' : b.Strict b') : (if p then a else b).Strict (if p then a' else b') := by
  split <;> assumption

theorem Strict.inScope {a b : CM Span} (h : a.Strict b) : (CM.inScope a).Strict (CM.inScope b) := Strict.rfl.bind fun _ => h.bind fun _ => .rfl

theorem Strict.thenPart {op : UInt8} {sp : Span} {a b : CM Unit} (h : a.Strict b) : (CM.thenPart op sp a).Strict (CM.thenPart op sp b) :=
  Strict.rfl.bind fun _ => Strict.rfl.bind fun _ => h.bind fun _ => .rfl

theorem Strict.exprIn {m : Mode} {sp : Span} {a b : CM Unit} (h : a.Strict b) : (Quilt.exprIn m sp a).Strict (Quilt.exprIn m sp b) := h.bind fun _ => .rfl

theorem Strict.stmtIn {m : Mode} {sp : Span} {a b : CM Unit} (h : a.Strict b) : (Quilt.stmtIn m sp a).Strict (Quilt.stmtIn m sp b) := by
  cases m with
  | expr => exact .rfl
  | stmt _ => exact h

end CM

/-- What folding gives in the two builds. -/
theorem foldUnary_strict (cfg : Cfg) (op : Op) (e : Node) :
    foldUnary cfg op e = some .panic ∨ foldUnary cfg op e = foldUnary cfg.release op e := by
  unfold foldUnary
  split
  · simp only [Cfg.release, Bool.false_eq_true, and_false, if_false]
    split
    · exact .inl rfl
    · exact .inr rfl
  all_goals exact .inr rfl

open CM in
/-- One step of the compiler's code. -/
macro "cstrict" : tactic => `(tactic| with_reducible repeat' first
  | assumption | apply CM.Strict.rfl | apply CM.Strict.inScope | apply CM.Strict.thenPart | apply CM.Strict.ite | (refine CM.Strict.bind ?_ fun _ => ?_))

mutual
theorem node_strict (cfg : Cfg) (m : Mode) : ∀ n : Node, (compileNode cfg m n).Strict (compileNode cfg.release m n)
  | .ret sp e => by have h := opt_strict cfg sp e; simp only [compileNode]; refine .stmtIn ?_; cstrict
  | .func sp name params body => by have h := stmts_strict cfg body; simp only [compileNode]; refine .stmtIn ?_; cstrict
  | .decl sp v e => by have h := node_strict cfg .expr e; simp only [compileNode]; refine .stmtIn ?_; cstrict
  | .extern sp (x, xsp) e => by have h := node_strict cfg .expr e; simp only [compileNode]; refine .stmtIn ?_; cstrict
  | .include sp (x, xsp) body => by have h := incl_strict cfg x xsp body; simp only [compileNode]; refine .stmtIn ?_; cstrict
  | .lit sp l => by simp only [compileNode]; exact .rfl
  | .pair sp a b => by have h := node_strict cfg .expr a; have h' := node_strict cfg .expr b; simp only [compileNode]; refine .exprIn ?_; cstrict
  | .array sp items => by have h := rev_strict cfg items; simp only [compileNode]; refine .exprIn ?_; cstrict
  | .range sp a b => by have h := node_strict cfg .expr a; have h' := node_strict cfg .expr b; simp only [compileNode]; refine .exprIn ?_; cstrict
  | .ident sp x => by simp only [compileNode]; exact .rfl
  | .block sp body => by have h := stmts_strict cfg body; simp only [compileNode]; refine .exprIn ?_; cstrict
  | .assign sp (x, xsp) e => by have h := node_strict cfg .expr e; simp only [compileNode]; refine .exprIn ?_; cstrict
  | .call sp f args => by have h := node_strict cfg .expr f; have h' := args_strict cfg args; simp only [compileNode]; refine .exprIn ?_; cstrict
  | .index sp e i => by have h := node_strict cfg .expr e; have h' := node_strict cfg .expr i; simp only [compileNode]; refine .exprIn ?_; cstrict
  | .builtin sp x args => by have h := args_strict cfg args; simp only [compileNode]; refine .exprIn ?_; cstrict
  | .ctx sp x args v body => by
    have h := args_strict cfg args; have h' := stmts_strict cfg body; simp only [compileNode]; refine .exprIn ?_; cstrict
  | .cond sp c th el => by
    have h := node_strict cfg .expr c; have h' := stmts_strict cfg th; have h'' := else_strict cfg sp el
    simp only [compileNode]; refine .exprIn ?_; cstrict
  | .switch sp v cases dflt => by
    have h := node_strict cfg .expr v; have h' := cases_strict cfg cases; have h'' := else_strict cfg sp dflt
    simp only [compileNode]; refine .exprIn ?_; cstrict
  | .while sp c body => by
    have h := node_strict cfg .expr c; have h' := stmts_strict cfg body; simp only [compileNode]; refine .exprIn ?_; cstrict
  | .forIn sp (x, xsp) it body => by
    have h := node_strict cfg .expr it; have h' := stmts_strict cfg body; simp only [compileNode]; refine .exprIn ?_; cstrict
  | .forMulti sp xs it body => by
    have h := node_strict cfg .expr it; have h' := stmts_strict cfg body; simp only [compileNode]; refine .exprIn ?_; cstrict
  | .lambda sp params body => by have h := stmts_strict cfg body; simp only [compileNode]; refine .exprIn ?_; cstrict
  | .bin sp op a b => by have h := node_strict cfg .expr a; have h' := node_strict cfg .expr b; simp only [compileNode]; refine .exprIn ?_; cstrict
  | .un sp op e => by
    have h := node_strict cfg .expr e
    simp only [compileNode]; refine .exprIn ?_
    rcases foldUnary_strict cfg op e with h1 | h1
    · rw [h1]; exact fun _ => .inl rfl
    · rw [h1]
      split
      · exact .rfl
      · exact .rfl
      · cstrict
termination_by structural n => n
theorem stmts_strict (cfg : Cfg) : ∀ ns : List Node, (compileStmts cfg ns).Strict (compileStmts cfg.release ns)
  | [] => .rfl
  | [n] => (node_strict cfg (.stmt false) n).bind fun _ => .rfl
  | n :: n' :: ns => (node_strict cfg (.stmt true) n).bind fun _ => stmts_strict cfg (n' :: ns)
termination_by structural n => n
theorem each_strict (cfg : Cfg) : ∀ ns : List Node, (compileEach cfg ns).Strict (compileEach cfg.release ns)
  | [] => .rfl
  | n :: ns => (node_strict cfg (.stmt true) n).bind fun _ => each_strict cfg ns
termination_by structural n => n
theorem args_strict (cfg : Cfg) : ∀ ns : List Node, (compileArgs cfg ns).Strict (compileArgs cfg.release ns)
  | [] => .rfl
  | n :: ns => (node_strict cfg .expr n).bind fun _ => args_strict cfg ns
termination_by structural n => n
theorem rev_strict (cfg : Cfg) : ∀ ns : List Node, (compileRev cfg ns).Strict (compileRev cfg.release ns)
  | [] => .rfl
  | n :: ns => (rev_strict cfg ns).bind fun _ => node_strict cfg .expr n
termination_by structural n => n
theorem cases_strict (cfg : Cfg) : ∀ cs : List (Node × List Node), (compileCases cfg cs).Strict (compileCases cfg.release cs)
  | [] => .rfl
  | (c, body) :: cs =>
    (node_strict cfg .expr c).bind fun _ => (CM.Strict.thenPart (stmts_strict cfg body).inScope).bind fun _ => (cases_strict cfg cs).bind fun _ => .rfl
termination_by structural n => n
theorem else_strict (cfg : Cfg) (sp : Span) : ∀ o : Option (List Node), (compileElse cfg sp o).Strict (compileElse cfg.release sp o)
  | some body => CM.Strict.rfl.bind fun _ => (stmts_strict cfg body).inScope
  | none => .rfl
termination_by structural n => n
theorem opt_strict (cfg : Cfg) (sp : Span) : ∀ o : Option Node, (compileOpt cfg sp o).Strict (compileOpt cfg.release sp o)
  | some e => node_strict cfg .expr e
  | none => .rfl
termination_by structural n => n
theorem incl_strict (cfg : Cfg) (x : String) (xsp : Span) : ∀ o : Option (List Node), (compileIncl cfg x xsp o).Strict (compileIncl cfg.release x xsp o)
  | some body => each_strict cfg body
  | none => .rfl
termination_by structural n => n
end

/-- `compile` in the two builds. -/
theorem compile_strict (cfg : Cfg) (ast : List Node) : compile cfg ast = .panic ∨ compile cfg ast = compile cfg.release ast := by
  unfold compile
  rcases stmts_strict cfg ast ((CState.new "@__main__").setMainSpan ast) with h | h
  · left
    generalize compileStmts cfg ast ((CState.new "@__main__").setMainSpan ast) = p at h
    rcases p with ⟨o, s⟩
    simp only at h; subst h; rfl
  · exact .inr (by rw [h])

end Quilt
