import Verif.Compiler.Spans
import Verif.Compiler.NoPanic

/-!
# Compiled programs have infix operators between operands and prefix operators before one
-/

namespace Quilt

/-- A prefix operator between two operands, or an infix operator before one. -/
def Node.misplaced : Node → Bool
  | .bin _ op _ _ => op.isUnary
  | .un _ op _ => !op.isUnary
  | _ => false

/-- The generator does not succeed. -/
def Fails {α : Type} (x : GM α) : Prop := ∀ g r, x g ≠ .ok r

namespace Fails
open GM
variable {α β : Type}

theorem left {x : GM α} {f : α → GM β} (h : Fails x) : Fails (x >>= f) := by
  intro g r hr
  rw [bind_app] at hr
  have := h g
  cases hx : x g with
  | ok a => exact this a hx
  | _ => rw [hx] at hr; cases hr

theorem right {x : GM α} {f : α → GM β} (h : ∀ a, Fails (f a)) : Fails (x >>= f) := by
  intro g r hr
  rw [bind_app] at hr
  cases hx : x g with
  | ok p =>
    obtain ⟨a, c, g1⟩ := p
    rw [hx] at hr
    have := h a g1
    simp only at hr
    cases hy : f a g1 with
    | ok q => exact this q hy
    | _ => rw [hy] at hr; cases hr
  | _ => rw [hx] at hr; cases hr

theorem throw {e : Err} {sp : Span} : Fails (GM.throw e sp : GM α) := fun _ _ h => by simp [GM.throw] at h
theorem panic : Fails (GM.panic : GM α) := fun _ _ h => by simp [GM.panic] at h

theorem ite {x y : GM α} {c : Prop} [Decidable c] (h : Fails x) (h' : Fails y) : Fails (if c then x else y) := by
  split
  · exact h
  · exact h'

theorem sub {x : GM Unit} (h : Fails x) : Fails (GM.sub x) := by
  intro g r hr
  have := h g
  simp only [GM.sub] at hr
  cases hx : x g with
  | ok a => exact this a hx
  | _ => rw [hx] at hr; cases hr

theorem inScope {body : GM Span} (h : Fails body) : Fails (GM.inScope body) := right fun _ => left h

theorem func {name : Name} {params : List Name} {sp : Span} {body : GM Span} (h : Fails body) : Fails (GM.func false name params sp body) := by
  intro g r hr
  have := h (g.enterFn name.1 (params.map Prod.fst))
  simp only [GM.func] at hr
  cases hx : body (g.enterFn name.1 (params.map Prod.fst)) with
  | ok a => exact this a hx
  | _ => rw [hx] at hr; cases hr

theorem gexprIn {m : Mode} {sp : Span} {act : GM Unit} (h : Fails act) : Fails (Quilt.gexprIn m sp act) := left h

theorem gstmtIn {m : Mode} {sp : Span} {act : GM Unit} (h : Fails act) : Fails (Quilt.gstmtIn m sp act) := by
  cases m with
  | expr => exact throw
  | stmt => exact h

end Fails

/-- Finds the part that fails. -/
local syntax "seekFail" : tactic
local macro_rules
  | `(tactic| seekFail) => `(tactic| first | assumption | exact Fails.throw | exact Fails.panic | (refine Fails.ite ?_ ?_ <;> seekFail) | (refine Fails.gexprIn ?_; seekFail) | (refine Fails.gstmtIn ?_; seekFail) | (refine Fails.sub ?_; seekFail) | (refine Fails.inScope ?_; seekFail) | (refine Fails.func ?_; seekFail) | (refine Fails.left ?_; seekFail) | (refine Fails.right fun _ => ?_; seekFail))

variable {n : Node} (hn : n.misplaced = true)
include hn

mutual
theorem fail_node (cfg : Cfg) : ∀ (m : Node) (md : Mode), n ∈ m.subs → Fails (genNode cfg false md m)
  | .lit sp l, m, h => by simp only [Node.subs, List.mem_singleton] at h; subst h; cases hn
  | .ident sp x, m, h => by simp only [Node.subs, List.mem_singleton] at h; subst h; cases hn
  | .assign sp (x, xsp) e, m, h => by
    simp only [Node.subs, List.mem_cons] at h
    rcases h with rfl | h
    · cases hn
    · have := fail_node cfg e .expr h; unfold genNode; seekFail
  | .un sp op e, m, h => by
    simp only [Node.subs, List.mem_cons] at h
    unfold genNode
    rcases h with rfl | h
    · have hn : op.isUnary = false := by simpa [Node.misplaced] using hn
      have hf : foldUnary cfg op e = none := by unfold foldUnary; split <;> first | rfl | cases hn
      rw [hf, hn]
      seekFail
    · cases hf : foldUnary cfg op e with
      | none => have := fail_node cfg e .expr h; seekFail
      | some r =>
        obtain ⟨sp', l', rfl⟩ := fold_lit hf
        simp only [Node.subs, List.mem_singleton] at h; subst h; cases hn
  | .bin sp op a b, m, h => by
    simp only [Node.subs, List.mem_cons, List.mem_append] at h
    unfold genNode
    rcases h with rfl | h | h
    · have hn : op.isUnary = true := hn
      simp only [hn, if_true]
      seekFail
    · have := fail_node cfg a .expr h; seekFail
    · have := fail_node cfg b .expr h; seekFail
  | .pair sp a b, m, h => by
    simp only [Node.subs, List.mem_cons, List.mem_append] at h
    unfold genNode
    rcases h with rfl | h | h
    · cases hn
    · have := fail_node cfg a .expr h; seekFail
    · have := fail_node cfg b .expr h; seekFail
  | .range sp a b, m, h => by
    simp only [Node.subs, List.mem_cons, List.mem_append] at h
    unfold genNode
    rcases h with rfl | h | h
    · cases hn
    · have := fail_node cfg a .expr h; seekFail
    · have := fail_node cfg b .expr h; seekFail
  | .index sp a b, m, h => by
    simp only [Node.subs, List.mem_cons, List.mem_append] at h
    unfold genNode
    rcases h with rfl | h | h
    · cases hn
    · have := fail_node cfg a .expr h; seekFail
    · have := fail_node cfg b .expr h; seekFail
  | .array sp items, m, h => by
    simp only [Node.subs, List.mem_cons] at h
    unfold genNode
    rcases h with rfl | h
    · cases hn
    · have := fail_rev cfg items h; seekFail
  | .block sp body, m, h => by
    simp only [Node.subs, List.mem_cons] at h
    unfold genNode
    rcases h with rfl | h
    · cases hn
    · have := fail_stmts cfg body h; seekFail
  | .call sp f args, m, h => by
    simp only [Node.subs, List.mem_cons, List.mem_append] at h
    unfold genNode
    rcases h with rfl | h | h
    · cases hn
    · have := fail_node cfg f .expr h; seekFail
    · have := fail_args cfg args h; seekFail
  | .builtin sp x args, m, h => by
    simp only [Node.subs, List.mem_cons] at h
    unfold genNode
    rcases h with rfl | h
    · cases hn
    · have := fail_args cfg args h; seekFail
  | .ctx sp x args v body, m, h => by
    simp only [Node.subs, List.mem_cons, List.mem_append] at h
    unfold genNode
    rcases h with rfl | h | h
    · cases hn
    · have := fail_args cfg args h; seekFail
    · have := fail_stmts cfg body h; seekFail
  | .cond sp c th el, m, h => by
    simp only [Node.subs, List.mem_cons, List.mem_append] at h
    unfold genNode
    rcases h with rfl | (h | h) | h
    · cases hn
    · have := fail_node cfg c .expr h; seekFail
    · have := fail_stmts cfg th h; seekFail
    · have := fail_else cfg sp el h; seekFail
  | .switch sp v cs d, m, h => by
    simp only [Node.subs, List.mem_cons, List.mem_append] at h
    unfold genNode
    rcases h with rfl | (h | h) | h
    · cases hn
    · have := fail_node cfg v .expr h; seekFail
    · have := fail_cases cfg cs h; seekFail
    · have := fail_else cfg sp d h; seekFail
  | .while sp c body, m, h => by
    simp only [Node.subs, List.mem_cons, List.mem_append] at h
    unfold genNode
    rcases h with rfl | h | h
    · cases hn
    · have := fail_node cfg c .expr h; seekFail
    · have := fail_stmts cfg body h; seekFail
  | .forIn sp (x, xsp) it body, m, h => by
    simp only [Node.subs, List.mem_cons, List.mem_append] at h
    unfold genNode
    rcases h with rfl | h | h
    · cases hn
    · have := fail_node cfg it .expr h; seekFail
    · have := fail_stmts cfg body h; seekFail
  | .forMulti sp xs it body, m, h => by
    simp only [Node.subs, List.mem_cons, List.mem_append] at h
    unfold genNode
    rcases h with rfl | h | h
    · cases hn
    · have := fail_node cfg it .expr h; seekFail
    · have := fail_stmts cfg body h; seekFail
  | .lambda sp ps body, m, h => by
    simp only [Node.subs, List.mem_cons] at h
    unfold genNode
    rcases h with rfl | h
    · cases hn
    · have := fail_stmts cfg body h; seekFail
  | .func sp name ps body, m, h => by
    simp only [Node.subs, List.mem_cons] at h
    unfold genNode
    rcases h with rfl | h
    · cases hn
    · have := fail_stmts cfg body h; seekFail
  | .decl sp v e, m, h => by
    simp only [Node.subs, List.mem_cons] at h
    unfold genNode
    rcases h with rfl | h
    · cases hn
    · have := fail_node cfg e .expr h; seekFail
  | .extern sp (x, xsp) e, m, h => by
    simp only [Node.subs, List.mem_cons] at h
    unfold genNode
    rcases h with rfl | h
    · cases hn
    · have := fail_node cfg e .expr h; seekFail
  | .include sp (x, xsp) body, m, h => by
    simp only [Node.subs, List.mem_cons] at h
    unfold genNode
    rcases h with rfl | h
    · cases hn
    · have := fail_incl cfg x xsp body h; seekFail
  | .ret sp e, m, h => by
    simp only [Node.subs, List.mem_cons] at h
    unfold genNode
    rcases h with rfl | h
    · cases hn
    · have := fail_opt cfg sp e h; seekFail
termination_by structural n => n
theorem fail_stmts (cfg : Cfg) : ∀ ns : List Node, n ∈ subsL ns → Fails (genStmts cfg false ns)
  | [], h => by simp [subsL] at h
  | [m], h => by
    simp only [subsL, List.mem_append, List.not_mem_nil, or_false] at h
    have h1 := fail_node cfg m (.stmt false) h
    unfold genStmts; seekFail
  | m :: m' :: ns, h => by
    rw [subsL, List.mem_append] at h
    unfold genStmts
    rcases h with h | h
    · have := fail_node cfg m (.stmt true) h; seekFail
    · have := fail_stmts cfg (m' :: ns) h; seekFail
termination_by structural n => n
theorem fail_each (cfg : Cfg) : ∀ ns : List Node, n ∈ subsL ns → Fails (genEach cfg false ns)
  | [], h => by simp [subsL] at h
  | m :: ns, h => by
    simp only [subsL, List.mem_append] at h
    unfold genEach
    rcases h with h | h
    · have := fail_node cfg m (.stmt true) h; seekFail
    · have := fail_each cfg ns h; seekFail
termination_by structural n => n
theorem fail_args (cfg : Cfg) : ∀ ns : List Node, n ∈ subsL ns → Fails (genArgs cfg false ns)
  | [], h => by simp [subsL] at h
  | m :: ns, h => by
    simp only [subsL, List.mem_append] at h
    unfold genArgs
    rcases h with h | h
    · have := fail_node cfg m .expr h; seekFail
    · have := fail_args cfg ns h; seekFail
termination_by structural n => n
theorem fail_rev (cfg : Cfg) : ∀ ns : List Node, n ∈ subsL ns → Fails (genRev cfg false ns)
  | [], h => by simp [subsL] at h
  | m :: ns, h => by
    simp only [subsL, List.mem_append] at h
    unfold genRev
    rcases h with h | h
    · have := fail_node cfg m .expr h; seekFail
    · have := fail_rev cfg ns h; seekFail
termination_by structural n => n
theorem fail_cases (cfg : Cfg) : ∀ cs : List (Node × List Node), n ∈ subsC cs → Fails (genCases cfg false cs)
  | [], h => by simp [subsC] at h
  | (c, body) :: cs, h => by
    simp only [subsC, List.mem_append] at h
    unfold genCases
    rcases h with (h | h) | h
    · have := fail_node cfg c .expr h; seekFail
    · have := fail_stmts cfg body h; seekFail
    · have := fail_cases cfg cs h; seekFail
termination_by structural n => n
theorem fail_else (cfg : Cfg) (sp : Span) : ∀ b : Option (List Node), n ∈ subsO b → Fails (genElse cfg false sp b)
  | some body, h => by have := fail_stmts cfg body (by simpa [subsO] using h); unfold genElse; seekFail
  | none, h => by simp [subsO] at h
termination_by structural n => n
theorem fail_opt (cfg : Cfg) (sp : Span) : ∀ e : Option Node, n ∈ subsE e → Fails (genOpt cfg false sp e)
  | some e, h => by have := fail_node cfg e .expr (by simpa [subsE] using h); unfold genOpt; seekFail
  | none, h => by simp [subsE] at h
termination_by structural n => n
theorem fail_incl (cfg : Cfg) (x : String) (xsp : Span) : ∀ b : Option (List Node), n ∈ subsO b → Fails (genIncl cfg false x xsp b)
  | some b, h => by have := fail_each cfg b (by simpa [subsO] using h); unfold genIncl; seekFail
  | none, h => by simp [subsO] at h
termination_by structural n => n
end

omit hn in
/-- Every operator of a compiled program is in its place. -/
theorem compile_placed {cfg : Cfg} {ast : List Node} {script : Script} (h : compile cfg ast = .ok script) : ∀ n ∈ subsL ast, n.misplaced = false := by
  intro n hn
  cases hm : n.misplaced with
  | false => rfl
  | true =>
    exfalso
    unfold compile at h
    split at h
    · rename_i hc
      rcases (Ref.ref_stmts cfg false ast).elim ((CState.new "@__main__").setMainSpan ast) ((CState.new "@__main__").setMainSpan ast).g rfl with ⟨a, c, g', h3, h4⟩ | ⟨e, sp', s', _, h4⟩ | ⟨s', h3, h4⟩ | h3
      · exact fail_stmts hm cfg ast hn _ _ h3
      · rw [hc] at h4; cases h4
      · rw [hc] at h4; cases h4
      · have hgd := gd_stmts cfg ast _ ((CState.new "@__main__").setMainSpan ast).g rfl
        rw [h3] at hgd; exact hgd.elim
    · cases h
    · cases h

end Quilt
