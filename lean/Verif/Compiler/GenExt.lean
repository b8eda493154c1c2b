import Verif.Compiler.GenCases

/-!
# Code generation only extends the tables
-/

namespace Quilt

/-- Growth without new locals, and the invariant. -/
def StepE (g g' : GState) : Prop := GExtE g g' ∧ GInv g'
/-- Growth, and the invariant. -/
def StepN (g g' : GState) : Prop := GExt g g' ∧ GInv g'

theorem StepE.refl {g : GState} (h : GInv g) : StepE g g := ⟨.refl g, h⟩
theorem StepE.trans {g1 g2 g3 : GState} (h : StepE g1 g2) (h' : StepE g2 g3) : StepE g1 g3 :=
  ⟨h.1.trans h'.1, h'.2⟩
theorem StepE.n {g g' : GState} (h : StepE g g') : StepN g g' := ⟨h.1.ext, h.2⟩
theorem StepN.trans {g1 g2 g3 : GState} (h : StepN g1 g2) (h' : StepN g2 g3) : StepN g1 g3 :=
  ⟨h.1.trans h'.1, h'.2⟩

theorem step_scope {g g' : GState} (h : GInv g) (h' : StepN g.enterScope g') : StepE g g'.exitScope := by
  obtain ⟨⟨new, h1⟩, h2⟩ := h'
  obtain ⟨a, b, _⟩ := exitScope_ext h h2 h1
  exact ⟨a, b⟩

theorem step_defineLocals {g : GState} (h : GInv g) (names : List String) : StepN g (g.defineLocals names) :=
  ⟨⟨_, (defineLocals_ext h names).1⟩, (defineLocals_ext h names).2⟩

theorem step_reserveTemp {g : GState} (h : GInv g) : StepN g g.reserveTemp := by
  rw [reserveTemp_eq]; exact step_defineLocals h _

open GM

theorem step_getVariable {x : String} {sp : Span} {u : Unit} {c : Code} {g g' : GState} (h : GInv g)
    (he : getVariable x sp g = .ok (u, c, g')) : StepE g g' := by
  simp only [getVariable, bind_ok, onG'_ok, emit1_ok] at he
  obtain ⟨r, _, g1, _, ⟨_, hr⟩, ⟨_, rfl⟩, _⟩ := he
  exact ⟨(resolve_ext h hr).1, (resolve_ext h hr).2.1⟩

theorem step_setVariable {x : String} {sp : Span} {u : Unit} {c : Code} {g g' : GState} (h : GInv g)
    (he : setVariable x sp g = .ok (u, c, g')) : StepE g g' := by
  simp only [setVariable, bind_ok, onG'_ok, emit1_ok] at he
  obtain ⟨r, _, g1, _, ⟨_, hr⟩, ⟨_, rfl⟩, _⟩ := he
  exact ⟨(resolve_ext h hr).1, (resolve_ext h hr).2.1⟩

theorem step_addGlobal {x : String} {i : Nat} {g g' : GState} (h : GInv g) (he : g.addGlobal x = (i, g')) : StepE g g' :=
  ⟨(addGlobal_ext h he).1, (addGlobal_ext h he).2.1⟩

theorem step_addConst {x : Const} {i : Nat} {g g' : GState} (h : GInv g) (he : g.addConst x = (i, g')) : StepE g g' :=
  ⟨(addConst_ext h he).1, (addConst_ext h he).2.1⟩

theorem step_defineGlobal {x : String} {sp : Span} {u : Unit} {c : Code} {g g' : GState} (h : GInv g)
    (he : defineGlobal x sp g = .ok (u, c, g')) : StepE g g' := by
  simp only [defineGlobal, bind_ok, onG'_ok, emit1_ok] at he
  obtain ⟨r, _, g1, _, ⟨_, hr⟩, ⟨_, rfl⟩, _⟩ := he
  exact step_addGlobal h hr

theorem step_defineGlobals : ∀ {xs : List Name} {u : Unit} {c : Code} {g g' : GState}, GInv g →
    defineGlobals xs g = .ok (u, c, g') → StepE g g'
  | [], _, _, _, _, h, he => by
    simp only [defineGlobals, pure_ok] at he
    obtain ⟨_, _, rfl⟩ := he
    exact .refl h
  | (x, sp) :: xs, _, _, _, _, h, he => by
    simp only [defineGlobals, bind_ok] at he
    obtain ⟨_, _, g1, _, h1, h2, _⟩ := he
    have a := step_defineGlobal h h1
    exact a.trans (step_defineGlobals a.2 h2)

theorem step_declVar {sp : Span} {v : Var} {u : Unit} {c : Code} {g g' : GState} (h : GInv g)
    (he : declVar sp v g = .ok (u, c, g')) : StepN g g' := by
  cases v with
  | one x =>
    simp only [declVar, bind_ok, isGlobal_ok] at he
    obtain ⟨b, _, _, _, ⟨rfl, rfl, rfl⟩, h2, _⟩ := he
    split at h2
    · exact (step_defineGlobal h h2).n
    · simp only [bind_ok, defineLocals, onG_ok] at h2
      obtain ⟨_, _, _, _, ⟨rfl, rfl⟩, h2, _⟩ := h2
      have a := step_defineLocals h [x.1]
      exact a.trans (step_setVariable a.2 h2).n
  | many xs =>
    simp only [declVar, bind_ok, ite_throw_ok, emit1_ok, isGlobal_ok] at he
    obtain ⟨_, _, _, _, _, ⟨rfl, rfl⟩, ⟨b, _, _, _, ⟨rfl, rfl, rfl⟩, h2, _⟩, _⟩ := he
    split at h2
    · exact (step_defineGlobals h h2).n
    · simp only [defineLocals, onG_ok] at h2
      obtain ⟨_, rfl⟩ := h2
      exact step_defineLocals h _

theorem step_ctxVar {sp csp : Span} {v : Option Var} {u : Unit} {c : Code} {g g' : GState} (h : GInv g)
    (he : ctxVar sp csp v g = .ok (u, c, g')) : StepN g g' := by
  cases v with
  | none =>
    simp only [ctxVar, emit1_ok] at he
    obtain ⟨_, rfl⟩ := he
    exact (StepE.refl h).n
  | some v =>
    cases v with
    | one x =>
      simp only [ctxVar, bind_ok, defineLocals, onG_ok] at he
      obtain ⟨_, _, _, _, ⟨rfl, rfl⟩, h2, _⟩ := he
      have a := step_defineLocals h [x.1]
      exact a.trans (step_setVariable a.2 h2).n
    | many xs =>
      simp only [ctxVar, bind_ok, ite_throw_ok, emit1_ok, defineLocals, onG_ok] at he
      obtain ⟨_, _, _, _, _, ⟨_, rfl⟩, ⟨_, rfl⟩, _⟩ := he
      exact step_defineLocals h _

theorem step_func {strict : Bool} {name : Name} {params : List Name} {sp : Span} {body : GM Span} {u : Unit} {c : Code}
    {g g' : GState} (h : GInv g)
    (hb : ∀ {g s c g'}, GInv g → body g = .ok (s, c, g') → StepN g g')
    (he : func strict name params sp body g = .ok (u, c, g')) : StepE g g' := by
  rw [func_ok] at he
  obtain ⟨s, cb, g1, l, ls, h1, h2, _, _, rfl⟩ := he
  have a := hb (enterFn_inv h _ _) h1
  obtain ⟨b1, b2⟩ := leaveFn_ext a.2 a.1 h2
  exact StepE.trans ⟨b1, b2⟩ (step_addConst b2 rfl)

theorem step_inScope {body : GM Span} {u : Unit} {c : Code} {g g' : GState} (h : GInv g)
    (hb : ∀ {g s c g'}, GInv g → body g = .ok (s, c, g') → StepN g g')
    (he : inScope body g = .ok (u, c, g')) : StepE g g' := by
  simp only [inScope, bind_ok, onG_ok, exitScope_ok] at he
  obtain ⟨_, _, _, _, ⟨rfl, rfl⟩, ⟨_, _, _, _, h1, ⟨rfl, rfl⟩, _⟩, _⟩ := he
  exact step_scope h (hb (enterScope_inv h) h1)

/-- What a generator run does to the tables. -/
def NodeExt (m : Mode) (n : Node) (g g' : GState) : Prop :=
  StepN g g' ∧ (m = .expr ∨ n.isStatement = false → StepE g g')

theorem nodeExt_expr {m : Mode} {n : Node} {g g' : GState} (h : StepE g g') : NodeExt m n g g' := ⟨h.n, fun _ => h⟩
theorem NodeExt.e {n : Node} {g g' : GState} (h : NodeExt .expr n g g') : StepE g g' := h.2 (.inl rfl)

theorem gexprIn_ok {m : Mode} {sp : Span} {act : GM Unit} {u : Unit} {c : Code} {g g' : GState}
    (h : gexprIn m sp act g = .ok (u, c, g')) : ∃ c1, act g = .ok (u, c1, g') := by
  cases m with
  | expr => exact ⟨c, gexprIn_expr_ok.1 h⟩
  | stmt b => obtain ⟨c1, h1, _⟩ := gexprIn_stmt_ok.1 h; exact ⟨c1, h1⟩

theorem gstmtIn_ok {m : Mode} {sp : Span} {act : GM Unit} {u : Unit} {c : Code} {g g' : GState}
    (h : gstmtIn m sp act g = .ok (u, c, g')) : act g = .ok (u, c, g') ∧ m ≠ .expr := by
  cases m with
  | expr => simp [gstmtIn, GM.throw] at h
  | stmt b => exact ⟨h, by simp⟩

mutual
theorem ext_node (cfg : Cfg) (strict : Bool) : ∀ (n : Node) (m : Mode) {u : Unit} {c : Code} {g g' : GState}, GInv g →
    genNode cfg strict m n g = .ok (u, c, g') → NodeExt m n g g'
  | .ret sp e, m, _, _, _, _, h, he => by
    simp only [genNode] at he
    obtain ⟨he, _⟩ := gstmtIn_ok he
    simp only [bind_ok, getG_ok, ite_throw_ok, emit1_ok] at he
    obtain ⟨_, _, _, _, ⟨rfl, rfl, rfl⟩, ⟨_, _, _, _, _, h1, ⟨rfl, rfl⟩, _⟩, _⟩ := he
    exact nodeExt_expr (ext_opt cfg strict e h h1)
  | .func sp name params body, m, _, _, _, _, h, he => by
    simp only [genNode] at he
    obtain ⟨he, hm⟩ := gstmtIn_ok he
    simp only [bind_ok, ite_throw_ok, isGlobal_ok] at he
    obtain ⟨_, _, _, _, _, h1, ⟨b, _, _, _, ⟨rfl, rfl, rfl⟩, h2, _⟩, _⟩ := he
    have a := step_func h (ext_stmts cfg strict body) h1
    refine ⟨?_, fun hh => by simp [Node.isStatement, hm] at hh⟩
    split at h2
    · exact (a.trans (step_defineGlobal a.2 h2)).n
    · simp only [bind_ok, defineLocals, onG_ok] at h2
      obtain ⟨_, _, _, _, ⟨rfl, rfl⟩, h2, _⟩ := h2
      have b := step_defineLocals a.2 [name.1]
      exact a.n.trans (b.trans (step_setVariable b.2 h2).n)
  | .decl sp v e, m, _, _, _, _, h, he => by
    simp only [genNode] at he
    obtain ⟨he, hm⟩ := gstmtIn_ok he
    simp only [bind_ok] at he
    obtain ⟨_, _, _, _, h1, h2, _⟩ := he
    have a := (ext_node cfg strict e .expr h h1).1
    exact ⟨a.trans (step_declVar a.2 h2), fun hh => by simp [Node.isStatement, hm] at hh⟩
  | .extern sp (x, xsp) e, m, _, _, _, _, h, he => by
    obtain ⟨ce, ge, i, gi, hm, h1, _, h2, _, rfl, _⟩ := gen_extern he
    have a := (ext_node cfg strict e .expr h h1).1
    have b := step_addGlobal a.2 h2
    have c := a.trans b.n
    refine ⟨⟨?_, ?_⟩, fun hh => by simp [Node.isStatement, hm] at hh⟩
    · obtain ⟨new, d⟩ := c.1
      exact ⟨new, ⟨d.1, d.2, d.3, d.4, d.5, d.6, d.7⟩⟩
    · exact ⟨c.2.1, c.2.2, c.2.3, c.2.4⟩
  | .include sp (x, xsp) body, m, _, _, _, _, h, he => by
    simp only [genNode] at he
    obtain ⟨he, hm⟩ := gstmtIn_ok he
    simp only [bind_ok, getG_ok, ite_throw_ok] at he
    obtain ⟨_, _, _, _, ⟨rfl, rfl, rfl⟩, ⟨_, h1⟩, _⟩ := he
    exact ⟨ext_incl cfg strict body h h1, fun hh => by simp [Node.isStatement, hm] at hh⟩
  | .lit sp l, m, _, _, _, _, h, he => by
    simp only [genNode] at he
    obtain ⟨_, he⟩ := gexprIn_ok he
    refine nodeExt_expr ?_
    cases l with
    | none => simp only [emit1_ok] at he; obtain ⟨_, rfl⟩ := he; exact .refl h
    | _ =>
      simp only [bind_ok, onG'_ok, emit1_ok] at he
      obtain ⟨_, _, _, _, ⟨_, h1⟩, ⟨_, rfl⟩, _⟩ := he
      exact step_addConst h h1
  | .pair sp a b, m, _, _, _, _, h, he => by
    simp only [genNode] at he
    obtain ⟨_, he⟩ := gexprIn_ok he
    simp only [bind_ok, emit1_ok] at he
    obtain ⟨_, _, _, _, h1, ⟨_, _, _, _, h2, ⟨_, rfl⟩, _⟩, _⟩ := he
    have x := (ext_node cfg strict a .expr h h1).e
    exact nodeExt_expr (x.trans (ext_node cfg strict b .expr x.2 h2).e)
  | .array sp items, m, _, _, _, _, h, he => by
    simp only [genNode] at he
    obtain ⟨_, he⟩ := gexprIn_ok he
    simp only [bind_ok, ite_throw_ok, emit1_ok] at he
    obtain ⟨_, _, _, _, _, h1, ⟨_, rfl⟩, _⟩ := he
    exact nodeExt_expr (ext_rev cfg strict items h h1)
  | .range sp a b, m, _, _, _, _, h, he => by
    simp only [genNode] at he
    obtain ⟨_, he⟩ := gexprIn_ok he
    simp only [bind_ok, emit1_ok] at he
    obtain ⟨_, _, _, _, h1, ⟨_, _, _, _, h2, ⟨_, rfl⟩, _⟩, _⟩ := he
    have x := (ext_node cfg strict a .expr h h1).e
    exact nodeExt_expr (x.trans (ext_node cfg strict b .expr x.2 h2).e)
  | .ident sp x, m, _, _, _, _, h, he => by
    simp only [genNode] at he
    obtain ⟨_, he⟩ := gexprIn_ok he
    exact nodeExt_expr (step_getVariable h he)
  | .block sp body, m, _, _, _, _, h, he => by
    simp only [genNode] at he
    obtain ⟨_, he⟩ := gexprIn_ok he
    exact nodeExt_expr (step_inScope h (ext_stmts cfg strict body) he)
  | .assign sp (x, xsp) e, m, _, _, _, _, h, he => by
    simp only [genNode] at he
    obtain ⟨_, he⟩ := gexprIn_ok he
    simp only [bind_ok] at he
    obtain ⟨_, _, _, _, h1, h2, _⟩ := he
    have x := (ext_node cfg strict e .expr h h1).e
    exact nodeExt_expr (x.trans (step_setVariable x.2 h2))
  | .call sp f args, m, _, _, _, _, h, he => by
    simp only [genNode] at he
    obtain ⟨_, he⟩ := gexprIn_ok he
    simp only [bind_ok, ite_throw_ok, emit1_ok] at he
    obtain ⟨_, _, _, _, _, h1, ⟨_, _, _, _, h2, ⟨_, rfl⟩, _⟩, _⟩ := he
    have x := (ext_node cfg strict f .expr h h1).e
    exact nodeExt_expr (x.trans (ext_args cfg strict args x.2 h2))
  | .index sp e i, m, _, _, _, _, h, he => by
    simp only [genNode] at he
    obtain ⟨_, he⟩ := gexprIn_ok he
    simp only [bind_ok, emit1_ok] at he
    obtain ⟨_, _, _, _, h1, ⟨_, _, _, _, h2, ⟨_, rfl⟩, _⟩, _⟩ := he
    have x := (ext_node cfg strict i .expr h h1).e
    exact nodeExt_expr (x.trans (ext_node cfg strict e .expr x.2 h2).e)
  | .builtin sp x args, m, _, _, _, _, h, he => by
    simp only [genNode] at he
    obtain ⟨_, he⟩ := gexprIn_ok he
    simp only [bind_ok, ite_throw_ok, onG'_ok, emit_ok] at he
    obtain ⟨_, _, _, _, _, h1, ⟨_, _, _, _, ⟨_, h2⟩, ⟨_, rfl⟩, _⟩, _⟩ := he
    have x := ext_args cfg strict args h h1
    exact nodeExt_expr (x.trans (step_addGlobal x.2 h2))
  | .ctx sp x args v body, m, _, _, _, _, h, he => by
    obtain ⟨_, he1, _⟩ := genNode_mode rfl he
    obtain ⟨ca, ga, i, gi, cv, gv, s, cb, gb, _, h1, h2, h3, h4, _, rfl⟩ := gen_ctx he1
    have x := ext_args cfg strict args h h1
    have y := step_addGlobal x.2 h2
    have z := step_ctxVar (enterScope_inv y.2) h3
    exact nodeExt_expr ((x.trans y).trans (step_scope y.2 (z.trans (ext_stmts cfg strict body z.2 h4))))
  | .cond sp c th el, m, _, _, _, _, h, he => by
    obtain ⟨_, he1, _⟩ := genNode_mode rfl he
    obtain ⟨cc, gc, a, ga, b, h1, h2, h3, _, _, _⟩ := gen_cond he1
    have x := (ext_node cfg strict c .expr h h1).e
    have y := step_inScope x.2 (ext_stmts cfg strict th) h2
    exact nodeExt_expr ((x.trans y).trans (ext_else cfg strict el y.2 h3))
  | .switch sp v cases dflt, m, _, _, _, _, h, he => by
    obtain ⟨_, he1, _⟩ := genNode_mode rfl he
    obtain ⟨cv, gv, ps, cx, gp, d, h1, h2, h3, _, _⟩ := gen_switch he1
    have x := (ext_node cfg strict v .expr h h1).e
    have y := ext_cases cfg strict cases x.2 h2
    exact nodeExt_expr ((x.trans y).trans (ext_else cfg strict dflt y.2 h3))
  | .while sp c body, m, _, _, _, _, h, he => by
    obtain ⟨_, he1, _⟩ := genNode_mode rfl he
    obtain ⟨cc, gc, b, h1, h2, _, _⟩ := gen_while he1
    have x := (ext_node cfg strict c .expr h h1).e
    exact nodeExt_expr (x.trans (step_inScope x.2 (ext_stmts cfg strict body) h2))
  | .forIn sp (x, xsp) it body, m, _, _, _, _, h, he => by
    obtain ⟨_, he1, _⟩ := genNode_mode rfl he
    obtain ⟨ci, gi, s, cb, gb, h1, h2, _, _, rfl⟩ := gen_forIn he1
    have a1 := step_reserveTemp (enterScope_inv h)
    have a2 := a1.trans (step_reserveTemp a1.2)
    have a3 := (ext_node cfg strict it .expr a2.2 h1).e
    have a4 := step_defineLocals (enterScope_inv a3.2) [x]
    have a5 := step_scope a3.2 (a4.trans (ext_stmts cfg strict body a4.2 h2))
    exact nodeExt_expr (step_scope h (a2.trans (a3.trans a5).n))
  | .forMulti sp xs it body, m, _, _, _, _, h, he => by
    obtain ⟨_, he1, _⟩ := genNode_mode rfl he
    obtain ⟨ci, gi, s, cb, gb, _, h1, h2, _, _, rfl⟩ := gen_forMulti he1
    have a1 := step_reserveTemp (enterScope_inv h)
    have a2 := a1.trans (step_reserveTemp a1.2)
    have a3 := (ext_node cfg strict it .expr a2.2 h1).e
    have a4 := step_defineLocals (enterScope_inv a3.2) (xs.map Prod.fst).reverse
    have a5 := step_scope a3.2 (a4.trans (ext_stmts cfg strict body a4.2 h2))
    exact nodeExt_expr (step_scope h (a2.trans (a3.trans a5).n))
  | .lambda sp params body, m, _, _, _, _, h, he => by
    simp only [genNode] at he
    obtain ⟨_, he⟩ := gexprIn_ok he
    simp only [ite_throw_ok] at he
    exact nodeExt_expr (step_func h (ext_stmts cfg strict body) he.2)
  | .bin sp op a b, m, _, _, _, _, h, he => by
    simp only [genNode] at he
    obtain ⟨_, he⟩ := gexprIn_ok he
    simp only [bind_ok] at he
    obtain ⟨_, _, _, _, h1, ⟨_, _, _, _, h2, h3, _⟩, _⟩ := he
    have x := (ext_node cfg strict a .expr h h1).e
    have y := x.trans (ext_node cfg strict b .expr x.2 h2).e
    split at h3
    · simp [GM.panic] at h3
    · simp only [emit1_ok] at h3; obtain ⟨_, rfl⟩ := h3; exact nodeExt_expr y
  | .un sp op e, m, _, _, _, _, h, he => by
    simp only [genNode] at he
    obtain ⟨_, he⟩ := gexprIn_ok he
    refine nodeExt_expr ?_
    cases hf : foldUnary cfg op e with
    | none =>
      rw [hf] at he
      simp only [bind_ok] at he
      obtain ⟨_, _, _, _, h1, h2, _⟩ := he
      have x := (ext_node cfg strict e .expr h h1).e
      split at h2
      · simp only [emit1_ok] at h2; obtain ⟨_, rfl⟩ := h2; exact x
      · simp [GM.panic] at h2
    | some r =>
      rw [hf] at he
      cases r with
      | ok l =>
        simp only [bind_ok, onG'_ok, emit1_ok] at he
        obtain ⟨_, _, _, _, ⟨_, h1⟩, ⟨_, rfl⟩, _⟩ := he
        exact step_addConst h h1
      | _ => simp [GM.panic] at he
termination_by structural n => n
theorem ext_stmts (cfg : Cfg) (strict : Bool) : ∀ (ns : List Node) {g : GState} {s : Span} {c : Code} {g' : GState}, GInv g →
    genStmts cfg strict ns g = .ok (s, c, g') → StepN g g'
  | [], _, _, _, _, h, he => by
    simp only [genStmts, pure_ok] at he
    obtain ⟨_, _, rfl⟩ := he
    exact (StepE.refl h).n
  | [n], _, _, _, _, h, he => by
    simp only [genStmts, bind_ok, pure_ok] at he
    obtain ⟨_, _, _, _, h1, ⟨_, _, rfl⟩, _⟩ := he
    exact (ext_node cfg strict n _ h h1).1
  | n :: n' :: ns, _, _, _, _, h, he => by
    simp only [genStmts, bind_ok] at he
    obtain ⟨_, _, _, _, h1, h2, _⟩ := he
    have a := (ext_node cfg strict n _ h h1).1
    exact a.trans (ext_stmts cfg strict (n' :: ns) a.2 h2)
termination_by structural ns => ns
theorem ext_each (cfg : Cfg) (strict : Bool) : ∀ (ns : List Node) {u : Unit} {c : Code} {g g' : GState}, GInv g →
    genEach cfg strict ns g = .ok (u, c, g') → StepN g g'
  | [], _, _, _, _, h, he => by
    simp only [genEach, pure_ok] at he
    obtain ⟨_, _, rfl⟩ := he
    exact (StepE.refl h).n
  | n :: ns, _, _, _, _, h, he => by
    simp only [genEach, bind_ok] at he
    obtain ⟨_, _, _, _, h1, h2, _⟩ := he
    have a := (ext_node cfg strict n _ h h1).1
    exact a.trans (ext_each cfg strict ns a.2 h2)
termination_by structural ns => ns
theorem ext_args (cfg : Cfg) (strict : Bool) : ∀ (ns : List Node) {u : Unit} {c : Code} {g g' : GState}, GInv g →
    genArgs cfg strict ns g = .ok (u, c, g') → StepE g g'
  | [], _, _, _, _, h, he => by
    simp only [genArgs, pure_ok] at he
    obtain ⟨_, _, rfl⟩ := he
    exact StepE.refl h
  | n :: ns, _, _, _, _, h, he => by
    simp only [genArgs, bind_ok] at he
    obtain ⟨_, _, _, _, h1, h2, _⟩ := he
    have a := (ext_node cfg strict n .expr h h1).e
    exact a.trans (ext_args cfg strict ns a.2 h2)
termination_by structural ns => ns
theorem ext_rev (cfg : Cfg) (strict : Bool) : ∀ (ns : List Node) {u : Unit} {c : Code} {g g' : GState}, GInv g →
    genRev cfg strict ns g = .ok (u, c, g') → StepE g g'
  | [], _, _, _, _, h, he => by
    simp only [genRev, pure_ok] at he
    obtain ⟨_, _, rfl⟩ := he
    exact StepE.refl h
  | n :: ns, _, _, _, _, h, he => by
    simp only [genRev, bind_ok] at he
    obtain ⟨_, _, _, _, h1, h2, _⟩ := he
    have a := ext_rev cfg strict ns h h1
    exact a.trans (ext_node cfg strict n .expr a.2 h2).e
termination_by structural ns => ns
theorem ext_cases (cfg : Cfg) (strict : Bool) : ∀ (cs : List (Node × List Node)) {ps : List (Code × Span)} {c : Code}
    {g g' : GState}, GInv g → genCases cfg strict cs g = .ok (ps, c, g') → StepE g g'
  | [], _, _, _, _, h, he => by
    simp only [genCases, pure_ok] at he
    obtain ⟨_, _, rfl⟩ := he
    exact StepE.refl h
  | (n, body) :: cs, _, _, _, _, h, he => by
    simp only [genCases, bind_ok, sub_ok, ite_throw_ok, pure_ok] at he
    obtain ⟨_, _, _, _, ⟨⟨_, h1⟩, _⟩, ⟨_, _, _, _, ⟨⟨_, h2⟩, _⟩, ⟨_, _, _, _, _, h3, ⟨_, _, rfl⟩, _⟩, _⟩, _⟩ := he
    have a := (ext_node cfg strict n .expr h h1).e
    have b := a.trans (step_inScope a.2 (ext_stmts cfg strict body) h2)
    exact b.trans (ext_cases cfg strict cs b.2 h3)
termination_by structural cs => cs
theorem ext_else (cfg : Cfg) (strict : Bool) : ∀ (el : Option (List Node)) {sp : Span} {u : Unit} {c : Code} {g g' : GState},
    GInv g → genElse cfg strict sp el g = .ok (u, c, g') → StepE g g'
  | none, _, _, _, _, _, h, he => by
    simp only [genElse, emit1_ok] at he
    obtain ⟨_, rfl⟩ := he
    exact StepE.refl h
  | some body, _, _, _, _, _, h, he => by
    simp only [genElse, bind_ok, emit1_ok] at he
    obtain ⟨_, _, _, _, ⟨_, rfl⟩, h2, _⟩ := he
    exact step_inScope h (ext_stmts cfg strict body) h2
termination_by structural el => el
theorem ext_opt (cfg : Cfg) (strict : Bool) : ∀ (e : Option Node) {sp : Span} {u : Unit} {c : Code} {g g' : GState},
    GInv g → genOpt cfg strict sp e g = .ok (u, c, g') → StepE g g'
  | none, _, _, _, _, _, h, he => by
    simp only [genOpt, emit1_ok] at he
    obtain ⟨_, rfl⟩ := he
    exact StepE.refl h
  | some n, _, _, _, _, _, h, he => by
    simp only [genOpt] at he
    exact (ext_node cfg strict n .expr h he).e
termination_by structural e => e
theorem ext_incl (cfg : Cfg) (strict : Bool) : ∀ (b : Option (List Node)) {x : String} {xsp : Span} {u : Unit} {c : Code}
    {g g' : GState}, GInv g → genIncl cfg strict x xsp b g = .ok (u, c, g') → StepN g g'
  | none, _, _, _, _, _, _, _, he => by simp [genIncl, GM.throw] at he
  | some body, _, _, _, _, _, _, h, he => by
    simp only [genIncl] at he
    exact ext_each cfg strict body h he
termination_by structural b => b
end

end Quilt
