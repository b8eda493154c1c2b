import Verif.Compiler.Accept

/-!
# When the compiler does not panic
-/

namespace Quilt

/-- The operator fits in a unary node, and folding it does not overflow. -/
def unOk (chk : Bool) (op : Op) (e : Node) : Bool :=
  op.isUnary && match op, e with
    | .neg, .lit _ (.int n) => !(chk && decide (n = BitVec.intMin 64))
    | _, _ => true

section
variable (b : Op → Bool) (u : Op → Node → Bool)

mutual
/-- All operators of binary nodes satisfy `b`, all operators of unary nodes with their operand satisfy `u`. -/
def Node.ops : Node → Bool
  | .lit .. | .ident .. => true
  | .array _ es => opsL es
  | .pair _ x y | .range _ x y | .index _ x y => x.ops && y.ops
  | .bin _ op x y => b op && x.ops && y.ops
  | .un _ op e => u op e && e.ops
  | .decl _ _ e | .extern _ _ e | .assign _ _ e => e.ops
  | .func _ _ _ body | .lambda _ _ body | .block _ body => opsL body
  | .cond _ c th el => c.ops && opsL th && opsO el
  | .switch _ v cs d => v.ops && opsC cs && opsO d
  | .forIn _ _ it body | .forMulti _ _ it body => it.ops && opsL body
  | .while _ c body => c.ops && opsL body
  | .call _ f args => f.ops && opsL args
  | .builtin _ _ args => opsL args
  | .ctx _ _ args _ body => opsL args && opsL body
  | .include _ _ body => opsO body
  | .ret _ e => opsE e
termination_by structural n => n
def opsL : List Node → Bool
  | [] => true
  | n :: ns => n.ops && opsL ns
termination_by structural n => n
def opsO : Option (List Node) → Bool
  | some b => opsL b
  | none => true
termination_by structural n => n
def opsE : Option Node → Bool
  | some e => e.ops
  | none => true
termination_by structural n => n
def opsC : List (Node × List Node) → Bool
  | [] => true
  | (c, b) :: cs => c.ops && opsL b && opsC cs
termination_by structural n => n
end

end

section
variable {b1 b2 b : Op → Bool} {u1 u2 u : Op → Node → Bool} (hb : ∀ op, b1 op = true → b2 op = true → b op = true) (hu : ∀ op e, u1 op e = true → u2 op e = true → u op e = true)
set_option linter.unusedSectionVars false
include hb hu

mutual
theorem Node.ops_and : ∀ n : Node, n.ops b1 u1 = true → n.ops b2 u2 = true → n.ops b u = true
  | .lit .., _, _ | .ident .., _, _ => by unfold Node.ops; rfl
  | .array _ es, h, h' => by unfold Node.ops at h h' ⊢; exact opsL_and es h h'
  | .pair _ x y, h, h' | .range _ x y, h, h' | .index _ x y, h, h' => by
    unfold Node.ops at h h' ⊢
    rw [Bool.and_eq_true] at h h' ⊢
    exact ⟨Node.ops_and x h.1 h'.1, Node.ops_and y h.2 h'.2⟩
  | .bin _ op x y, h, h' => by
    unfold Node.ops at h h' ⊢
    simp only [Bool.and_eq_true] at h h' ⊢
    exact ⟨⟨hb _ h.1.1 h'.1.1, Node.ops_and x h.1.2 h'.1.2⟩, Node.ops_and y h.2 h'.2⟩
  | .un _ op e, h, h' => by
    unfold Node.ops at h h' ⊢
    rw [Bool.and_eq_true] at h h' ⊢
    exact ⟨hu _ _ h.1 h'.1, Node.ops_and e h.2 h'.2⟩
  | .decl _ _ e, h, h' | .extern _ _ e, h, h' | .assign _ _ e, h, h' => by unfold Node.ops at h h' ⊢; exact Node.ops_and e h h'
  | .func _ _ _ body, h, h' | .lambda _ _ body, h, h' | .block _ body, h, h' => by unfold Node.ops at h h' ⊢; exact opsL_and body h h'
  | .cond _ c th el, h, h' => by
    unfold Node.ops at h h' ⊢
    simp only [Bool.and_eq_true] at h h' ⊢
    exact ⟨⟨Node.ops_and c h.1.1 h'.1.1, opsL_and th h.1.2 h'.1.2⟩, opsO_and el h.2 h'.2⟩
  | .switch _ v cs d, h, h' => by
    unfold Node.ops at h h' ⊢
    simp only [Bool.and_eq_true] at h h' ⊢
    exact ⟨⟨Node.ops_and v h.1.1 h'.1.1, opsC_and cs h.1.2 h'.1.2⟩, opsO_and d h.2 h'.2⟩
  | .forIn _ _ it body, h, h' | .forMulti _ _ it body, h, h' | .while _ it body, h, h' => by
    unfold Node.ops at h h' ⊢
    rw [Bool.and_eq_true] at h h' ⊢
    exact ⟨Node.ops_and it h.1 h'.1, opsL_and body h.2 h'.2⟩
  | .call _ f args, h, h' => by
    unfold Node.ops at h h' ⊢
    rw [Bool.and_eq_true] at h h' ⊢
    exact ⟨Node.ops_and f h.1 h'.1, opsL_and args h.2 h'.2⟩
  | .builtin _ _ args, h, h' => by unfold Node.ops at h h' ⊢; exact opsL_and args h h'
  | .ctx _ _ args _ body, h, h' => by
    unfold Node.ops at h h' ⊢
    rw [Bool.and_eq_true] at h h' ⊢
    exact ⟨opsL_and args h.1 h'.1, opsL_and body h.2 h'.2⟩
  | .include _ _ body, h, h' => by unfold Node.ops at h h' ⊢; exact opsO_and body h h'
  | .ret _ e, h, h' => by unfold Node.ops at h h' ⊢; exact opsE_and e h h'
termination_by structural n => n
theorem opsL_and : ∀ ns : List Node, opsL b1 u1 ns = true → opsL b2 u2 ns = true → opsL b u ns = true
  | [], _, _ => by unfold opsL; rfl
  | n :: ns, h, h' => by
    unfold opsL at h h' ⊢
    rw [Bool.and_eq_true] at h h' ⊢
    exact ⟨Node.ops_and n h.1 h'.1, opsL_and ns h.2 h'.2⟩
termination_by structural n => n
theorem opsO_and : ∀ o : Option (List Node), opsO b1 u1 o = true → opsO b2 u2 o = true → opsO b u o = true
  | some ns, h, h' => by unfold opsO at h h' ⊢; exact opsL_and ns h h'
  | none, _, _ => by unfold opsO; rfl
termination_by structural n => n
theorem opsE_and : ∀ o : Option Node, opsE b1 u1 o = true → opsE b2 u2 o = true → opsE b u o = true
  | some n, h, h' => by unfold opsE at h h' ⊢; exact Node.ops_and n h h'
  | none, _, _ => by unfold opsE; rfl
termination_by structural n => n
theorem opsC_and : ∀ cs : List (Node × List Node), opsC b1 u1 cs = true → opsC b2 u2 cs = true → opsC b u cs = true
  | [], _, _ => by unfold opsC; rfl
  | (c, body) :: cs, h, h' => by
    unfold opsC at h h' ⊢
    simp only [Bool.and_eq_true] at h h' ⊢
    exact ⟨⟨Node.ops_and c h.1.1 h'.1.1, opsL_and body h.1.2 h'.1.2⟩, opsC_and cs h.2 h'.2⟩
termination_by structural n => n
end

end

/-- Binary nodes have binary operators and unary nodes have unary ones, and with overflow checks
the smallest integer is not negated as a literal. -/
abbrev Node.opsOk (chk : Bool) : Node → Bool := Node.ops (fun op => !op.isUnary) (unOk chk)
abbrev opsOkL (chk : Bool) : List Node → Bool := opsL (fun op => !op.isUnary) (unOk chk)
abbrev opsOkO (chk : Bool) : Option (List Node) → Bool := opsO (fun op => !op.isUnary) (unOk chk)
abbrev opsOkE (chk : Bool) : Option Node → Bool := opsE (fun op => !op.isUnary) (unOk chk)
abbrev opsOkC (chk : Bool) : List (Node × List Node) → Bool := opsC (fun op => !op.isUnary) (unOk chk)

/-- The generator does not panic. -/
def NP {α : Type} (x : GM α) : Prop := ∀ g, x g ≠ .panic

namespace NP
open GM
variable {α β : Type}

theorem bind {x : GM α} {f : α → GM β} (h : NP x) (hf : ∀ a, NP (f a)) : NP (x >>= f) := by
  intro g
  rw [bind_app]
  have h1 := h g
  cases hx : x g with
  | ok r =>
    obtain ⟨a, c, g1⟩ := r
    have h2 := hf a g1
    simp only
    cases hy : f a g1 with
    | ok r => simp
    | panic => exact absurd hy h2
    | _ => simp
  | panic => exact absurd hx h1
  | _ => simp

theorem pure {a : α} : NP (Pure.pure a : GM α) := fun _ => by simp
theorem throw {e : Err} {sp : Span} : NP (GM.throw e sp : GM α) := fun _ => by simp [GM.throw]
theorem emit {c : Code} : NP (GM.emit c) := fun _ => by simp [GM.emit]
theorem emit1 {i : Instr} {sp : Span} : NP (GM.emit1 i sp) := emit
theorem getG : NP GM.getG := fun _ => by simp [GM.getG]
theorem isGlobal : NP GM.isGlobal := fun _ => by simp [GM.isGlobal]
theorem onG {f : GState → GState} : NP (GM.onG f) := fun _ => by simp [GM.onG]
theorem onG' {f : GState → α × GState} : NP (GM.onG' f) := fun _ => by simp [GM.onG']
theorem exitScope {sp : Span} : NP (GM.exitScope sp) := fun _ => by simp [GM.exitScope]

theorem sub {x : GM Unit} (h : NP x) : NP (GM.sub x) := by
  intro g
  simp only [GM.sub]
  have h1 := h g
  cases hx : x g with
  | ok r => simp
  | panic => exact absurd hx h1
  | _ => simp

theorem ite {x y : GM α} {c : Prop} [Decidable c] (h : c → NP x) (h' : ¬ c → NP y) : NP (if c then x else y) := by
  split
  · exact h ‹_›
  · exact h' ‹_›

theorem getVariable {x : String} {sp : Span} : NP (GM.getVariable x sp) := bind onG' fun _ => emit1
theorem setVariable {x : String} {sp : Span} : NP (GM.setVariable x sp) := bind onG' fun _ => emit1
theorem defineLocals {xs : List String} : NP (GM.defineLocals xs) := onG
theorem defineGlobal {x : String} {sp : Span} : NP (GM.defineGlobal x sp) := bind onG' fun _ => emit1
theorem defineGlobals : ∀ xs : List Name, NP (GM.defineGlobals xs)
  | [] => pure
  | (_, _) :: xs => bind defineGlobal fun _ => defineGlobals xs

theorem inScope {body : GM Span} (h : NP body) : NP (GM.inScope body) := bind onG fun _ => bind h fun _ => exitScope

theorem ctxVar {sp csp : Span} : ∀ v : Option Var, NP (GM.ctxVar sp csp v)
  | some (.one _) => bind defineLocals fun _ => setVariable
  | some (.many _) => ite (fun _ => throw) fun _ => bind emit1 fun _ => defineLocals
  | none => emit1

theorem declVar {sp : Span} : ∀ v : Var, NP (GM.declVar sp v)
  | .one (_, _) => bind isGlobal fun _ => ite (fun _ => defineGlobal) fun _ => bind defineLocals fun _ => setVariable
  | .many xs => ite (fun _ => throw) fun _ => bind emit1 fun _ => bind isGlobal fun _ => ite (fun _ => defineGlobals xs) fun _ => defineLocals

theorem gexprIn {m : Mode} {sp : Span} {act : GM Unit} (h : NP act) : NP (Quilt.gexprIn m sp act) :=
  bind h fun _ => ite (fun _ => emit1) fun _ => pure

theorem gstmtIn {m : Mode} {sp : Span} {act : GM Unit} (h : NP act) : NP (Quilt.gstmtIn m sp act) := by
  cases m with
  | expr => exact throw
  | stmt => exact h

/-- A function: its body does not lose the enclosing levels (`gd_stmts`). -/
theorem func {cfg : Cfg} {name : Name} {params : List Name} {sp : Span} {body : List Node} (h : NP (genStmts cfg false body)) :
    NP (GM.func false name params sp (genStmts cfg false body)) := by
  intro g
  obtain ⟨e1, e2, e3, e4⟩ := GD.defineLocals_same (name.1 :: params.map Prod.fst) ({ g with cur := GLevel.fresh g.cur.depth, encl := g.cur :: g.encl } : GState)
  have h1 := h (g.enterFn name.1 (params.map Prod.fst))
  have h2 := gd_stmts cfg body _ (g.enterFn name.1 (params.map Prod.fst)) rfl
  simp only [GM.func]
  cases hx : genStmts cfg false body (g.enterFn name.1 (params.map Prod.fst)) with
  | ok r =>
    obtain ⟨s, cb, g1⟩ := r
    rw [hx] at h2
    have b4 : g1.encl.map (·.depth) = g.cur.depth :: g.encl.map (·.depth) := by
      rw [h2.1.2.encl]; show (GState.defineLocals _ _).encl.map _ = _; rw [e2]; rfl
    simp only
    cases he : g1.encl with
    | nil => rw [he] at b4; simp at b4
    | cons l ls => simp
  | panic => exact absurd hx h1
  | _ => simp

end NP

theorem foldUnary_ok {cfg : Cfg} {op : Op} {e : Node} (h : unOk cfg.chk op e = true) {r : Res Literal} (hf : foldUnary cfg op e = some r) : ∃ l, r = .ok l := by
  unfold foldUnary at hf
  split at hf
  · simp only [unOk, Bool.and_eq_true, Bool.not_eq_true', Bool.and_eq_false_iff, decide_eq_false_iff_not] at h
    rw [if_neg (by rintro ⟨h1, h2⟩; rcases h.2 with h3 | h3 <;> simp_all)] at hf
    exact ⟨_, (Option.some.inj hf).symm⟩
  · exact ⟨_, (Option.some.inj hf).symm⟩
  · exact ⟨_, (Option.some.inj hf).symm⟩
  · cases hf

mutual
theorem np_node (cfg : Cfg) : ∀ (n : Node) (m : Mode), n.opsOk cfg.chk = true → NP (genNode cfg false m n)
  | .lit sp l, m, _ => by
    unfold genNode
    refine NP.gexprIn ?_
    cases l with
    | none => exact NP.emit1
    | _ => exact NP.bind NP.onG' fun _ => NP.emit1
  | .ident sp x, m, _ => by unfold genNode; exact NP.gexprIn NP.getVariable
  | .assign sp (x, xsp) e, m, h => by
    unfold genNode; unfold Node.opsOk Node.ops at h
    exact NP.gexprIn (NP.bind (np_node cfg e _ h) fun _ => NP.setVariable)
  | .un sp op e, m, h => by
    unfold genNode; unfold Node.opsOk Node.ops at h
    rw [Bool.and_eq_true] at h
    refine NP.gexprIn ?_
    cases hf : foldUnary cfg op e with
    | some r =>
      obtain ⟨l, rfl⟩ := foldUnary_ok h.1 hf
      exact NP.bind NP.onG' fun _ => NP.emit1
    | none =>
      refine NP.bind (np_node cfg e _ h.2) fun _ => NP.ite (fun _ => NP.emit1) fun hn => absurd ?_ hn
      have := h.1
      unfold unOk at this
      rw [Bool.and_eq_true] at this
      exact this.1
  | .bin sp op a b, m, h => by
    unfold genNode; unfold Node.opsOk Node.ops at h
    simp only [Bool.and_eq_true, Bool.not_eq_true'] at h
    exact NP.gexprIn (NP.bind (np_node cfg a _ h.1.2) fun _ => NP.bind (np_node cfg b _ h.2) fun _ => NP.ite (fun hn => by rw [h.1.1] at hn; cases hn) fun _ => NP.emit1)
  | .pair sp a b, m, h => by
    unfold genNode; unfold Node.opsOk Node.ops at h
    rw [Bool.and_eq_true] at h
    exact NP.gexprIn (NP.bind (np_node cfg a _ h.1) fun _ => NP.bind (np_node cfg b _ h.2) fun _ => NP.emit1)
  | .range sp a b, m, h => by
    unfold genNode; unfold Node.opsOk Node.ops at h
    rw [Bool.and_eq_true] at h
    exact NP.gexprIn (NP.bind (np_node cfg a _ h.1) fun _ => NP.bind (np_node cfg b _ h.2) fun _ => NP.emit1)
  | .index sp a b, m, h => by
    unfold genNode; unfold Node.opsOk Node.ops at h
    rw [Bool.and_eq_true] at h
    exact NP.gexprIn (NP.bind (np_node cfg b _ h.2) fun _ => NP.bind (np_node cfg a _ h.1) fun _ => NP.emit1)
  | .array sp items, m, h => by
    unfold genNode; unfold Node.opsOk Node.ops at h
    exact NP.gexprIn (NP.ite (fun _ => NP.throw) fun _ => NP.bind (np_rev cfg items h) fun _ => NP.emit1)
  | .block sp body, m, h => by
    unfold genNode; unfold Node.opsOk Node.ops at h
    exact NP.gexprIn (NP.inScope (np_stmts cfg body h))
  | .call sp f args, m, h => by
    unfold genNode; unfold Node.opsOk Node.ops at h
    rw [Bool.and_eq_true] at h
    exact NP.gexprIn (NP.ite (fun _ => NP.throw) fun _ => NP.bind (np_node cfg f _ h.1) fun _ => NP.bind (np_args cfg args h.2) fun _ => NP.emit1)
  | .builtin sp x args, m, h => by
    unfold genNode; unfold Node.opsOk Node.ops at h
    exact NP.gexprIn (NP.ite (fun _ => NP.throw) fun _ => NP.bind (np_args cfg args h) fun _ => NP.bind NP.onG' fun _ => NP.emit)
  | .ctx sp x args v body, m, h => by
    unfold genNode; unfold Node.opsOk Node.ops at h
    rw [Bool.and_eq_true] at h
    exact NP.gexprIn (NP.ite (fun _ => NP.throw) fun _ => NP.bind (np_args cfg args h.1) fun _ => NP.bind NP.onG' fun _ => NP.bind NP.emit fun _ => NP.bind NP.onG fun _ =>
      NP.bind (NP.ctxVar v) fun _ => NP.bind (np_stmts cfg body h.2) fun _ => NP.bind NP.exitScope fun _ => NP.emit1)
  | .cond sp c th el, m, h => by
    unfold genNode; unfold Node.opsOk Node.ops at h
    simp only [Bool.and_eq_true] at h
    exact NP.gexprIn (NP.bind NP.emit1 fun _ => NP.bind (np_node cfg c _ h.1.1) fun _ => NP.bind (NP.sub (NP.inScope (np_stmts cfg th h.1.2))) fun _ =>
      NP.ite (fun _ => NP.throw) fun _ => NP.bind (NP.sub (np_else cfg sp el h.2)) fun _ => NP.ite (fun _ => NP.throw) fun _ => NP.emit)
  | .switch sp v cs d, m, h => by
    unfold genNode; unfold Node.opsOk Node.ops at h
    simp only [Bool.and_eq_true] at h
    exact NP.gexprIn (NP.bind NP.emit1 fun _ => NP.bind (np_node cfg v _ h.1.1) fun _ => NP.bind (np_cases cfg cs h.1.2) fun _ =>
      NP.bind (NP.sub (np_else cfg sp d h.2)) fun _ => NP.ite (fun _ => NP.throw) fun _ => NP.emit)
  | .while sp c body, m, h => by
    unfold genNode; unfold Node.opsOk Node.ops at h
    rw [Bool.and_eq_true] at h
    exact NP.gexprIn (NP.bind NP.emit1 fun _ => NP.bind (NP.sub (np_node cfg c _ h.1)) fun _ => NP.bind (NP.sub (NP.inScope (np_stmts cfg body h.2))) fun _ =>
      NP.ite (fun _ => NP.throw) fun _ => NP.emit)
  | .forIn sp (x, xsp) it body, m, h => by
    unfold genNode; unfold Node.opsOk Node.ops at h
    rw [Bool.and_eq_true] at h
    exact NP.gexprIn (NP.bind NP.onG fun _ => NP.bind NP.onG fun _ => NP.bind NP.onG fun _ => NP.bind NP.emit1 fun _ => NP.bind (np_node cfg it _ h.1) fun _ =>
      NP.bind NP.onG fun _ => NP.bind NP.emit1 fun _ => NP.bind (NP.sub (NP.bind NP.emit1 fun _ => NP.bind NP.defineLocals fun _ => NP.bind (np_stmts cfg body h.2) fun _ => NP.exitScope)) fun _ =>
      NP.ite (fun _ => NP.throw) fun _ => NP.bind NP.emit fun _ => NP.exitScope)
  | .forMulti sp xs it body, m, h => by
    unfold genNode; unfold Node.opsOk Node.ops at h
    rw [Bool.and_eq_true] at h
    exact NP.gexprIn (NP.bind NP.onG fun _ => NP.ite (fun _ => NP.throw) fun _ => NP.bind NP.onG fun _ => NP.bind NP.onG fun _ => NP.bind NP.emit1 fun _ => NP.bind (np_node cfg it _ h.1) fun _ =>
      NP.bind NP.onG fun _ => NP.bind NP.emit1 fun _ => NP.bind (NP.sub (NP.bind NP.emit1 fun _ => NP.bind NP.emit1 fun _ => NP.bind NP.defineLocals fun _ => NP.bind (np_stmts cfg body h.2) fun _ => NP.exitScope)) fun _ =>
      NP.ite (fun _ => NP.throw) fun _ => NP.bind NP.emit fun _ => NP.exitScope)
  | .lambda sp ps body, m, h => by
    unfold genNode; unfold Node.opsOk Node.ops at h
    exact NP.gexprIn (NP.ite (fun _ => NP.throw) fun _ => NP.func (np_stmts cfg body h))
  | .func sp name ps body, m, h => by
    unfold genNode; unfold Node.opsOk Node.ops at h
    exact NP.gstmtIn (NP.ite (fun _ => NP.throw) fun _ => NP.bind (NP.func (np_stmts cfg body h)) fun _ => NP.bind NP.isGlobal fun _ =>
      NP.ite (fun _ => NP.defineGlobal) fun _ => NP.bind NP.defineLocals fun _ => NP.setVariable)
  | .decl sp v e, m, h => by
    unfold genNode; unfold Node.opsOk Node.ops at h
    exact NP.gstmtIn (NP.bind (np_node cfg e _ h) fun _ => NP.declVar v)
  | .extern sp (x, xsp) e, m, h => by
    unfold genNode; unfold Node.opsOk Node.ops at h
    exact NP.gstmtIn (NP.bind (np_node cfg e _ h) fun _ => NP.bind NP.isGlobal fun _ => NP.ite (fun _ => NP.throw) fun _ => NP.bind NP.onG' fun _ => NP.bind NP.getG fun _ =>
      NP.ite (fun _ => NP.throw) fun _ => NP.bind NP.onG fun _ => NP.emit1)
  | .include sp (x, xsp) body, m, h => by
    unfold genNode; unfold Node.opsOk Node.ops at h
    exact NP.gstmtIn (NP.bind NP.getG fun _ => NP.ite (fun _ => NP.throw) fun _ => np_incl cfg x xsp body h)
  | .ret sp e, m, h => by
    unfold genNode; unfold Node.opsOk Node.ops at h
    exact NP.gstmtIn (NP.bind NP.getG fun _ => NP.ite (fun _ => NP.throw) fun _ => NP.bind (np_opt cfg sp e h) fun _ => NP.emit1)
termination_by structural n => n
theorem np_stmts (cfg : Cfg) : ∀ ns : List Node, opsOkL cfg.chk ns = true → NP (genStmts cfg false ns)
  | [], _ => by unfold genStmts; exact NP.pure
  | [n], h => by
    unfold genStmts; unfold opsOkL opsL at h
    rw [Bool.and_eq_true] at h
    exact NP.bind (np_node cfg n _ h.1) fun _ => NP.pure
  | n :: n' :: ns, h => by
    unfold genStmts
    have h' : n.opsOk cfg.chk = true ∧ opsOkL cfg.chk (n' :: ns) = true := by rw [opsOkL, opsL, Bool.and_eq_true] at h; exact h
    exact NP.bind (np_node cfg n _ h'.1) fun _ => np_stmts cfg (n' :: ns) h'.2
termination_by structural n => n
theorem np_each (cfg : Cfg) : ∀ ns : List Node, opsOkL cfg.chk ns = true → NP (genEach cfg false ns)
  | [], _ => by unfold genEach; exact NP.pure
  | n :: ns, h => by
    unfold genEach; unfold opsOkL opsL at h
    rw [Bool.and_eq_true] at h
    exact NP.bind (np_node cfg n _ h.1) fun _ => np_each cfg ns h.2
termination_by structural n => n
theorem np_args (cfg : Cfg) : ∀ ns : List Node, opsOkL cfg.chk ns = true → NP (genArgs cfg false ns)
  | [], _ => by unfold genArgs; exact NP.pure
  | n :: ns, h => by
    unfold genArgs; unfold opsOkL opsL at h
    rw [Bool.and_eq_true] at h
    exact NP.bind (np_node cfg n _ h.1) fun _ => np_args cfg ns h.2
termination_by structural n => n
theorem np_rev (cfg : Cfg) : ∀ ns : List Node, opsOkL cfg.chk ns = true → NP (genRev cfg false ns)
  | [], _ => by unfold genRev; exact NP.pure
  | n :: ns, h => by
    unfold genRev; unfold opsOkL opsL at h
    rw [Bool.and_eq_true] at h
    exact NP.bind (np_rev cfg ns h.2) fun _ => np_node cfg n _ h.1
termination_by structural n => n
theorem np_cases (cfg : Cfg) : ∀ cs : List (Node × List Node), opsOkC cfg.chk cs = true → NP (genCases cfg false cs)
  | [], _ => by unfold genCases; exact NP.pure
  | (c, body) :: cs, h => by
    unfold genCases; unfold opsOkC opsC at h
    simp only [Bool.and_eq_true] at h
    exact NP.bind (NP.sub (np_node cfg c _ h.1.1)) fun _ => NP.bind (NP.sub (NP.inScope (np_stmts cfg body h.1.2))) fun _ => NP.ite (fun _ => NP.throw) fun _ =>
      NP.bind (np_cases cfg cs h.2) fun _ => NP.pure
termination_by structural n => n
theorem np_else (cfg : Cfg) (sp : Span) : ∀ b : Option (List Node), opsOkO cfg.chk b = true → NP (genElse cfg false sp b)
  | some body, h => by unfold genElse; unfold opsOkO opsO at h; exact NP.bind NP.emit1 fun _ => NP.inScope (np_stmts cfg body h)
  | none, _ => by unfold genElse; exact NP.emit1
termination_by structural n => n
theorem np_opt (cfg : Cfg) (sp : Span) : ∀ e : Option Node, opsOkE cfg.chk e = true → NP (genOpt cfg false sp e)
  | some e, h => by unfold genOpt; unfold opsOkE opsE at h; exact np_node cfg e _ h
  | none, _ => by unfold genOpt; exact NP.emit1
termination_by structural n => n
theorem np_incl (cfg : Cfg) (x : String) (xsp : Span) : ∀ b : Option (List Node), opsOkO cfg.chk b = true → NP (genIncl cfg false x xsp b)
  | some b, h => by unfold genIncl; unfold opsOkO opsO at h; exact np_each cfg b h
  | none, _ => by unfold genIncl; exact NP.throw
termination_by structural n => n
end

/-- The compiler does not panic, whatever was compiled before. -/
theorem compileStmts_no_panic {cfg : Cfg} {ast : List Node} (h : opsOkL cfg.chk ast = true) (st : CState) : (compileStmts cfg ast st).1 ≠ .panic := by
  have hgd := gd_stmts cfg ast _ st.g rfl
  rcases (Ref.ref_stmts cfg false ast).elim st st.g rfl with ⟨a, c, g', h3, h4⟩ | ⟨e, sp', s', _, h4⟩ | ⟨s', h3, _⟩ | h3
  · rw [h4]; simp
  · rw [h4]; simp
  · exact absurd h3 (np_stmts cfg ast h st.g)
  · rw [h3] at hgd; exact hgd.elim

end Quilt
