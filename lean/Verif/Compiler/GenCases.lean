import Verif.Compiler.GenInv

/-!
# The code generated for each kind of expression
-/

namespace Quilt

open GM

namespace GM
variable {α β : Type} {g g' : GState} {b : β} {c : Code}

theorem bind_inv {x : GM α} {f : α → GM β} (h : (x >>= f) g = .ok (b, c, g')) :
    ∃ a c1 g1 c2, x g = .ok (a, c1, g1) ∧ f a g1 = .ok (b, c2, g') ∧ c = c1 ++ c2 := bind_ok.1 h

theorem onG_inv {f : GState → GState} {k : Unit → GM β} (h : (onG f >>= k) g = .ok (b, c, g')) :
    k () (f g) = .ok (b, c, g') := by
  obtain ⟨_, _, _, _, h1, h2, rfl⟩ := bind_ok.1 h
  obtain ⟨rfl, rfl⟩ := onG_ok.1 h1
  exact h2

theorem onG'_inv {f : GState → α × GState} {k : α → GM β} (h : (onG' f >>= k) g = .ok (b, c, g')) :
    ∃ a g1, f g = (a, g1) ∧ k a g1 = .ok (b, c, g') := by
  obtain ⟨_, _, _, _, h1, h2, rfl⟩ := bind_ok.1 h
  obtain ⟨rfl, h3⟩ := onG'_ok.1 h1
  exact ⟨_, _, h3, h2⟩

theorem emit_inv {p : Code} {k : Unit → GM β} (h : (emit p >>= k) g = .ok (b, c, g')) :
    ∃ c1, k () g = .ok (b, c1, g') ∧ c = p ++ c1 := by
  obtain ⟨_, _, _, _, h1, h2, rfl⟩ := bind_ok.1 h
  obtain ⟨rfl, rfl⟩ := emit_ok.1 h1
  exact ⟨_, h2, rfl⟩

theorem emit1_inv {i : Instr} {sp : Span} {k : Unit → GM β} (h : (emit1 i sp >>= k) g = .ok (b, c, g')) :
    ∃ c1, k () g = .ok (b, c1, g') ∧ c = .at' i sp :: c1 := emit_inv h

theorem getG_inv {k : GState → GM β} (h : (getG >>= k) g = .ok (b, c, g')) : k g g = .ok (b, c, g') := by
  obtain ⟨_, _, _, _, h1, h2, rfl⟩ := bind_ok.1 h
  obtain ⟨rfl, rfl, rfl⟩ := getG_ok.1 h1
  exact h2

theorem isGlobal_inv {k : Bool → GM β} (h : (isGlobal >>= k) g = .ok (b, c, g')) :
    k (decide (g.cur.depth = 0)) g = .ok (b, c, g') := by
  obtain ⟨_, _, _, _, h1, h2, rfl⟩ := bind_ok.1 h
  obtain ⟨rfl, rfl, rfl⟩ := isGlobal_ok.1 h1
  exact h2

theorem sub_inv {x : GM Unit} {k : Code → GM β} (h : (sub x >>= k) g = .ok (b, c, g')) :
    ∃ cx g1, x g = .ok ((), cx, g1) ∧ k cx g1 = .ok (b, c, g') := by
  obtain ⟨_, _, _, _, h1, h2, rfl⟩ := bind_ok.1 h
  obtain ⟨⟨_, h3⟩, rfl⟩ := sub_ok.1 h1
  exact ⟨_, _, h3, h2⟩

end GM

/-- Code leaving the innermost scope in state `g`. -/
def GState.exitC (g : GState) (sp : Span) : Code := exitCode sp ((g.cur.leaving (g.cur.depth - 1)).map (·.captured))

variable {cfg : Cfg} {strict : Bool} {u : Unit} {c : Code} {g g' : GState} {sp : Span}

theorem exitScope_inv (h : GM.exitScope sp g = .ok (u, c, g')) : c = g.exitC sp ∧ g' = g.exitScope := exitScope_ok.1 h

theorem inScope_inv {body : GM Span} (h : inScope body g = .ok (u, c, g')) :
    ∃ s cb gb, body g.enterScope = .ok (s, cb, gb) ∧ c = cb ++ gb.exitC s ∧ g' = gb.exitScope := by
  have k1 := onG_inv h
  obtain ⟨s, cb, gb, c2, h1, h2, rfl⟩ := bind_inv k1
  obtain ⟨rfl, rfl⟩ := exitScope_inv h2
  exact ⟨s, cb, gb, h1, rfl, rfl⟩

theorem getVariable_inv {x : String} (h : getVariable x sp g = .ok (u, c, g')) :
    ∃ r, g.resolve x = (r, g') ∧ c = [.at' r.load sp] := by
  obtain ⟨r, g1, h1, h2⟩ := onG'_inv h
  obtain ⟨rfl, rfl⟩ := emit1_ok.1 h2
  exact ⟨r, h1, rfl⟩

theorem setVariable_inv {x : String} (h : setVariable x sp g = .ok (u, c, g')) :
    ∃ r, g.resolve x = (r, g') ∧ c = [.at' r.store sp] := by
  obtain ⟨r, g1, h1, h2⟩ := onG'_inv h
  obtain ⟨rfl, rfl⟩ := emit1_ok.1 h2
  exact ⟨r, h1, rfl⟩

theorem defineGlobal_inv {x : String} (h : defineGlobal x sp g = .ok (u, c, g')) :
    ∃ i, g.addGlobal x = (i, g') ∧ c = [.at' (.defineGlobal i) sp] := by
  obtain ⟨r, g1, h1, h2⟩ := onG'_inv h
  obtain ⟨rfl, rfl⟩ := emit1_ok.1 h2
  exact ⟨r, h1, rfl⟩

theorem addConst_inv {x : Const} {i : Nat → Instr} (h : (onG' (fun g => g.addConst x) >>= fun k => emit1 (i k) sp) g = .ok (u, c, g')) :
    ∃ k, g.addConst x = (k, g') ∧ c = [.at' (i k) sp] := by
  obtain ⟨r, g1, h1, h2⟩ := onG'_inv h
  obtain ⟨rfl, rfl⟩ := emit1_ok.1 h2
  exact ⟨r, h1, rfl⟩

/-- An expression in any mode. -/
theorem genNode_mode {n : Node} {m : Mode} (hn : n.isStatement = false) (h : genNode cfg strict m n g = .ok (u, c, g')) :
    ∃ c1, genNode cfg strict .expr n g = .ok (u, c1, g') ∧ c = c1 ++ if m = .stmt true then [.at' .pop n.span] else [] := by
  have key : ∀ act, gexprIn m n.span act g = .ok (u, c, g') →
      ∃ c1, gexprIn .expr n.span act g = .ok (u, c1, g') ∧ c = c1 ++ if m = .stmt true then [.at' .pop n.span] else [] := by
    intro act h
    cases m with
    | expr => exact ⟨c, h, by simp⟩
    | stmt b =>
      obtain ⟨c1, h1, rfl⟩ := gexprIn_stmt_ok.1 h
      exact ⟨c1, gexprIn_expr_ok.2 h1, by cases b <;> simp⟩
  cases n <;> first | exact key _ h | simp [Node.isStatement] at hn

/-- A statement is only accepted in statement mode. -/
theorem genNode_stmt {n : Node} {m : Mode} (hn : n.isStatement = true) (h : genNode cfg strict m n g = .ok (u, c, g')) :
    m ≠ .expr ∧ genNode cfg strict (.stmt true) n g = .ok (u, c, g') := by
  cases m with
  | expr => cases n <;> simp [Node.isStatement] at hn <;> simp [genNode, gstmtIn, GM.throw] at h
  | stmt b =>
    refine ⟨by simp, ?_⟩
    cases n <;> first | exact h | simp [Node.isStatement] at hn

section Expr

theorem expr_inv {act : GM Unit} {n : Node} (hn : genNode cfg strict .expr n = gexprIn .expr sp act)
    (h : genNode cfg strict .expr n g = .ok (u, c, g')) : act g = .ok (u, c, g') := by
  rw [hn] at h; exact gexprIn_expr_ok.1 h

theorem gen_lit {l : Literal} (h : genNode cfg strict .expr (.lit sp l) g = .ok (u, c, g')) :
    (l = .none ∧ c = [.at' .loadNone sp] ∧ g' = g) ∨
    ∃ i, g.addConst (.lit l) = (i, g') ∧ c = [.at' (.loadConst i) sp] := by
  have k1 := gexprIn_expr_ok.1 h
  cases l with
  | none => exact .inl ⟨rfl, emit1_ok.1 k1⟩
  | _ => exact .inr (addConst_inv k1)

theorem gen_ident {x : String} (h : genNode cfg strict .expr (.ident sp x) g = .ok (u, c, g')) :
    ∃ r, g.resolve x = (r, g') ∧ c = [.at' r.load sp] :=
  getVariable_inv (gexprIn_expr_ok.1 h)

theorem gen_assign {x : Name} {e : Node} (h : genNode cfg strict .expr (.assign sp x e) g = .ok (u, c, g')) :
    ∃ ce ge r, genNode cfg strict .expr e g = .ok ((), ce, ge) ∧ ge.resolve x.1 = (r, g') ∧
      c = ce ++ [.at' r.store x.2] := by
  obtain ⟨_, ce, ge, c2, h1, h2, rfl⟩ := bind_inv (gexprIn_expr_ok.1 h)
  obtain ⟨r, h3, rfl⟩ := setVariable_inv h2
  exact ⟨ce, ge, r, h1, h3, rfl⟩

theorem gen_pair {a b : Node} (h : genNode cfg strict .expr (.pair sp a b) g = .ok (u, c, g')) :
    ∃ ca ga cb, genNode cfg strict .expr a g = .ok ((), ca, ga) ∧ genNode cfg strict .expr b ga = .ok ((), cb, g') ∧
      c = ca ++ (cb ++ [.at' .createPair sp]) := by
  obtain ⟨_, ca, ga, c2, h1, k1, rfl⟩ := bind_inv (gexprIn_expr_ok.1 h)
  obtain ⟨_, cb, gb, c2, h2, k2, rfl⟩ := bind_inv k1
  obtain ⟨rfl, rfl⟩ := emit1_ok.1 k2
  exact ⟨ca, ga, cb, h1, h2, rfl⟩

theorem gen_range {a b : Node} (h : genNode cfg strict .expr (.range sp a b) g = .ok (u, c, g')) :
    ∃ ca ga cb, genNode cfg strict .expr a g = .ok ((), ca, ga) ∧ genNode cfg strict .expr b ga = .ok ((), cb, g') ∧
      c = ca ++ (cb ++ [.at' .createRange sp]) := by
  obtain ⟨_, ca, ga, c2, h1, k1, rfl⟩ := bind_inv (gexprIn_expr_ok.1 h)
  obtain ⟨_, cb, gb, c2, h2, k2, rfl⟩ := bind_inv k1
  obtain ⟨rfl, rfl⟩ := emit1_ok.1 k2
  exact ⟨ca, ga, cb, h1, h2, rfl⟩

theorem gen_index {e i : Node} (h : genNode cfg strict .expr (.index sp e i) g = .ok (u, c, g')) :
    ∃ ca ga cb, genNode cfg strict .expr i g = .ok ((), ca, ga) ∧ genNode cfg strict .expr e ga = .ok ((), cb, g') ∧
      c = ca ++ (cb ++ [.at' .indexGet sp]) := by
  obtain ⟨_, ca, ga, c2, h1, k1, rfl⟩ := bind_inv (gexprIn_expr_ok.1 h)
  obtain ⟨_, cb, gb, c2, h2, k2, rfl⟩ := bind_inv k1
  obtain ⟨rfl, rfl⟩ := emit1_ok.1 k2
  exact ⟨ca, ga, cb, h1, h2, rfl⟩

theorem gen_bin {op : Op} {a b : Node} (h : genNode cfg strict .expr (.bin sp op a b) g = .ok (u, c, g')) :
    ∃ ca ga cb, genNode cfg strict .expr a g = .ok ((), ca, ga) ∧ genNode cfg strict .expr b ga = .ok ((), cb, g') ∧
      op.isUnary = false ∧ c = ca ++ (cb ++ [.at' (.binary op) sp]) := by
  obtain ⟨_, ca, ga, c2, h1, k1, rfl⟩ := bind_inv (gexprIn_expr_ok.1 h)
  obtain ⟨_, cb, gb, c2, h2, k2, rfl⟩ := bind_inv k1
  cases ho : op.isUnary with
  | true => simp [ho, GM.panic] at k2
  | false =>
    simp only [ho, Bool.false_eq_true, if_false] at k2
    obtain ⟨rfl, rfl⟩ := emit1_ok.1 k2
    exact ⟨ca, ga, cb, h1, h2, rfl, rfl⟩

theorem gen_un {op : Op} {e : Node} (h : genNode cfg strict .expr (.un sp op e) g = .ok (u, c, g')) :
    (∃ l i, foldUnary cfg op e = some (.ok l) ∧ g.addConst (.lit l) = (i, g') ∧ c = [.at' (.loadConst i) sp]) ∨
    ∃ ce, genNode cfg strict .expr e g = .ok ((), ce, g') ∧ op.isUnary = true ∧ c = ce ++ [.at' (.unary op) sp] := by
  have k1 := gexprIn_expr_ok.1 h
  cases hf : foldUnary cfg op e with
  | none =>
    rw [hf] at k1
    obtain ⟨_, ca, ga, c2, h1, k2, rfl⟩ := bind_inv k1
    cases ho : op.isUnary with
    | false => simp [ho, GM.panic] at k2
    | true =>
      simp only [ho, if_true] at k2
      obtain ⟨rfl, rfl⟩ := emit1_ok.1 k2
      exact .inr ⟨ca, h1, rfl, rfl⟩
  | some r =>
    rw [hf] at k1
    cases r with
    | ok l =>
      obtain ⟨i, h1, h2⟩ := addConst_inv k1
      exact .inl ⟨l, i, rfl, h1, h2⟩
    | _ => simp [GM.panic] at k1

theorem gen_array {items : List Node} (h : genNode cfg strict .expr (.array sp items) g = .ok (u, c, g')) :
    ∃ ca, items.length ≤ 255 ∧ genRev cfg strict items g = .ok ((), ca, g') ∧
      c = ca ++ [.at' (.createArray items.length) sp] := by
  obtain ⟨h0, k1⟩ := ite_throw_ok.1 (gexprIn_expr_ok.1 h)
  obtain ⟨_, ca, ga, c2, h1, k2, rfl⟩ := bind_inv k1
  obtain ⟨rfl, rfl⟩ := emit1_ok.1 k2
  exact ⟨ca, by omega, h1, rfl⟩

theorem gen_call {f : Node} {args : List Node} (h : genNode cfg strict .expr (.call sp f args) g = .ok (u, c, g')) :
    ∃ cf gf ca, args.length ≤ 255 ∧ genNode cfg strict .expr f g = .ok ((), cf, gf) ∧
      genArgs cfg strict args gf = .ok ((), ca, g') ∧ c = cf ++ (ca ++ [.at' (.callFunction args.length) sp]) := by
  obtain ⟨h0, k1⟩ := ite_throw_ok.1 (gexprIn_expr_ok.1 h)
  obtain ⟨_, cf, gf, c2, h1, k2, rfl⟩ := bind_inv k1
  obtain ⟨_, ca, ga, c2, h2, k3, rfl⟩ := bind_inv k2
  obtain ⟨rfl, rfl⟩ := emit1_ok.1 k3
  exact ⟨cf, gf, ca, by omega, h1, h2, rfl⟩

theorem gen_builtin {x : Name} {args : List Node} (h : genNode cfg strict .expr (.builtin sp x args) g = .ok (u, c, g')) :
    ∃ ca ga i, args.length ≤ 255 ∧ genArgs cfg strict args g = .ok ((), ca, ga) ∧ ga.addGlobal x.1 = (i, g') ∧
      c = ca ++ [⟨.callBuiltin i args.length, sp, x.2⟩] := by
  obtain ⟨h0, k1⟩ := ite_throw_ok.1 (gexprIn_expr_ok.1 h)
  obtain ⟨_, ca, ga, c2, h1, k2, rfl⟩ := bind_inv k1
  obtain ⟨i, g1, h2, k3⟩ := onG'_inv k2
  obtain ⟨rfl, rfl⟩ := emit_ok.1 k3
  exact ⟨ca, ga, i, by omega, h1, h2, rfl⟩

theorem gen_block {body : List Node} (h : genNode cfg strict .expr (.block sp body) g = .ok (u, c, g')) :
    inScope (genStmts cfg strict body) g = .ok (u, c, g') := gexprIn_expr_ok.1 h

theorem gen_lambda {params : List Name} {body : List Node}
    (h : genNode cfg strict .expr (.lambda sp params body) g = .ok (u, c, g')) :
    params.length ≤ 255 ∧
      GM.func strict ("@__lambda__", sp) params sp (genStmts cfg strict body) g = .ok (u, c, g') := by
  obtain ⟨h0, k1⟩ := ite_throw_ok.1 (gexprIn_expr_ok.1 h)
  exact ⟨by omega, k1⟩

theorem gen_cond {cn : Node} {th : List Node} {el : Option (List Node)}
    (h : genNode cfg strict .expr (.cond sp cn th el) g = .ok (u, c, g')) :
    ∃ cc gc a ga b, genNode cfg strict .expr cn g = .ok ((), cc, gc) ∧
      inScope (genStmts cfg strict th) gc = .ok ((), a, ga) ∧ genElse cfg strict sp el ga = .ok ((), b, g') ∧
      a.len + 6 ≤ 65535 ∧ b.len ≤ 65535 ∧
      c = .at' .loadNone sp :: (cc ++ (.at' (.jumpIfFalse (a.len + 6)) sp :: .at' (.popMany 2) sp ::
        (a ++ (.at' (.jumpForward b.len) sp :: b)))) := by
  obtain ⟨c1, k1, rfl⟩ := emit1_inv (gexprIn_expr_ok.1 h)
  obtain ⟨_, cc, gc, c2, h1, k2, rfl⟩ := bind_inv k1
  obtain ⟨a, ga, h2, k3⟩ := sub_inv k2
  obtain ⟨h3, k4⟩ := ite_throw_ok.1 k3
  obtain ⟨b, gb, h4, k5⟩ := sub_inv k4
  obtain ⟨h5, k6⟩ := ite_throw_ok.1 k5
  obtain ⟨rfl, rfl⟩ := emit_ok.1 k6
  exact ⟨cc, gc, a, ga, b, h1, h2, h4, by omega, by omega, by simp⟩

theorem gen_switch {v : Node} {cases : List (Node × List Node)} {dflt : Option (List Node)}
    (h : genNode cfg strict .expr (.switch sp v cases dflt) g = .ok (u, c, g')) :
    ∃ cv gv ps cx gp d, genNode cfg strict .expr v g = .ok ((), cv, gv) ∧
      genCases cfg strict cases gv = .ok (ps, cx, gp) ∧ genElse cfg strict sp dflt gp = .ok ((), d, g') ∧
      (ps ≠ [] → (assemble ps.tail d).len ≤ 65535) ∧
      c = .at' .loadNone sp :: (cv ++ (cx ++ assemble ps d)) := by
  obtain ⟨c1, k1, rfl⟩ := emit1_inv (gexprIn_expr_ok.1 h)
  obtain ⟨_, cv, gv, c2, h1, k2, rfl⟩ := bind_inv k1
  obtain ⟨ps, cx, gp, c3, h2, k3, rfl⟩ := bind_inv k2
  obtain ⟨d, gd, h3, k4⟩ := sub_inv k3
  obtain ⟨h4, k5⟩ := ite_throw_ok.1 k4
  obtain ⟨rfl, rfl⟩ := emit_ok.1 k5
  refine ⟨cv, gv, ps, cx, gp, d, h1, h2, h3, ?_, rfl⟩
  intro hp
  exact Nat.le_of_not_lt fun hlt => h4 ⟨hp, hlt⟩

theorem gen_while {cn : Node} {body : List Node} (h : genNode cfg strict .expr (.while sp cn body) g = .ok (u, c, g')) :
    ∃ cc gc b, genNode cfg strict .expr cn g = .ok ((), cc, gc) ∧
      inScope (genStmts cfg strict body) gc = .ok ((), b, g') ∧ cc.len + b.len + 9 ≤ 65535 ∧
      c = .at' .loadNone sp :: (cc ++ (.at' (.jumpIfFalse (b.len + 6)) sp :: .at' (.popMany 2) cn.span ::
        (b ++ [.at' (.jumpBackward (cc.len + b.len + 9)) cn.span, .at' .pop cn.span]))) := by
  obtain ⟨c1, k1, rfl⟩ := emit1_inv (gexprIn_expr_ok.1 h)
  obtain ⟨cc, gc, h1, k2⟩ := sub_inv k1
  obtain ⟨b, gb, h2, k3⟩ := sub_inv k2
  obtain ⟨h3, k4⟩ := ite_throw_ok.1 k3
  obtain ⟨rfl, rfl⟩ := emit_ok.1 k4
  exact ⟨cc, gc, b, h1, h2, by omega, by simp⟩

theorem gen_forIn {x : Name} {it : Node} {body : List Node}
    (h : genNode cfg strict .expr (.forIn sp x it body) g = .ok (u, c, g')) :
    ∃ ci gi s cb gb, genNode cfg strict .expr it g.enterScope.reserveTemp.reserveTemp = .ok ((), ci, gi) ∧
      genStmts cfg strict body (gi.enterScope.defineLocals [x.1]) = .ok (s, cb, gb) ∧
      (cb ++ gb.exitC sp).len + 1 + 6 ≤ 65535 ∧
      c = .at' .newLoopCtx sp :: (ci ++ (.at' .loadNone sp ::
        .at' (.iterNext ((cb ++ gb.exitC sp).len + 1 + 3)) sp :: .at' .swapPop sp :: ((cb ++ gb.exitC sp) ++
          (.at' (.jumpBackward ((cb ++ gb.exitC sp).len + 1 + 6)) x.2 :: gb.exitScope.exitC sp)))) ∧
      g' = gb.exitScope.exitScope := by
  have k1 := onG_inv (onG_inv (onG_inv (gexprIn_expr_ok.1 h)))
  obtain ⟨c1, k2, rfl⟩ := emit1_inv k1
  obtain ⟨_, ci, gi, c2, h1, k3, rfl⟩ := bind_inv k2
  obtain ⟨c3, k4, rfl⟩ := emit1_inv (onG_inv k3)
  obtain ⟨b, gb, h2, k5⟩ := sub_inv k4
  obtain ⟨h3, k6⟩ := ite_throw_ok.1 k5
  obtain ⟨c4, k7, rfl⟩ := emit_inv k6
  obtain ⟨rfl, rfl⟩ := exitScope_inv k7
  obtain ⟨c5, j1, rfl⟩ := emit1_inv h2
  have j2 := onG_inv j1
  obtain ⟨s, cb, gb', c6, h4, j3, rfl⟩ := bind_inv j2
  obtain ⟨rfl, rfl⟩ := exitScope_inv j3
  have e : Code.len (.at' .swapPop sp :: (cb ++ gb'.exitC sp)) = (cb ++ gb'.exitC sp).len + 1 := by
    simp [Instr.enc]; omega
  rw [e] at h3 ⊢
  exact ⟨ci, gi, s, cb, gb', h1, h4, by omega, by simp, rfl⟩

theorem gen_forMulti {xs : List Name} {it : Node} {body : List Node}
    (h : genNode cfg strict .expr (.forMulti sp xs it body) g = .ok (u, c, g')) :
    ∃ ci gi s cb gb, xs.length ≤ 255 ∧
      genNode cfg strict .expr it g.enterScope.reserveTemp.reserveTemp = .ok ((), ci, gi) ∧
      genStmts cfg strict body (gi.enterScope.defineLocals (xs.map Prod.fst).reverse) = .ok (s, cb, gb) ∧
      (cb ++ gb.exitC sp).len + 3 + 6 ≤ 65535 ∧
      c = .at' .newLoopCtx sp :: (ci ++ (.at' .loadNone sp ::
        .at' (.iterNext ((cb ++ gb.exitC sp).len + 3 + 3)) sp :: .at' .swapPop sp ::
          .at' (.unpack xs.length) it.span :: ((cb ++ gb.exitC sp) ++
          (.at' (.jumpBackward ((cb ++ gb.exitC sp).len + 3 + 6)) sp :: gb.exitScope.exitC sp)))) ∧
      g' = gb.exitScope.exitScope := by
  have k1 := onG_inv (gexprIn_expr_ok.1 h)
  obtain ⟨h0, k2⟩ := ite_throw_ok.1 k1
  have k3 := onG_inv (onG_inv k2)
  obtain ⟨c1, k4, rfl⟩ := emit1_inv k3
  obtain ⟨_, ci, gi, c2, h1, k5, rfl⟩ := bind_inv k4
  obtain ⟨c3, k6, rfl⟩ := emit1_inv (onG_inv k5)
  obtain ⟨b, gb, h2, k7⟩ := sub_inv k6
  obtain ⟨h3, k8⟩ := ite_throw_ok.1 k7
  obtain ⟨c4, k9, rfl⟩ := emit_inv k8
  obtain ⟨rfl, rfl⟩ := exitScope_inv k9
  obtain ⟨c5, j1, rfl⟩ := emit1_inv h2
  obtain ⟨c6, j2, rfl⟩ := emit1_inv j1
  have j3 := onG_inv j2
  obtain ⟨s, cb, gb', c7, h4, j4, rfl⟩ := bind_inv j3
  obtain ⟨rfl, rfl⟩ := exitScope_inv j4
  have e : Code.len (.at' .swapPop sp :: .at' (.unpack xs.length) it.span :: (cb ++ gb'.exitC sp))
      = (cb ++ gb'.exitC sp).len + 3 := by
    simp [Instr.enc, u8b]; omega
  rw [e] at h3 ⊢
  exact ⟨ci, gi, s, cb, gb', by omega, h1, h4, by omega, by simp, rfl⟩

theorem gen_ctx {x : Name} {args : List Node} {v : Option Var} {body : List Node}
    (h : genNode cfg strict .expr (.ctx sp x args v body) g = .ok (u, c, g')) :
    ∃ ca ga i gi cv gv s cb gb, args.length ≤ 255 ∧ genArgs cfg strict args g = .ok ((), ca, ga) ∧
      ga.addGlobal x.1 = (i, gi) ∧ ctxVar sp x.2 v gi.enterScope = .ok ((), cv, gv) ∧
      genStmts cfg strict body gv = .ok (s, cb, gb) ∧
      c = ca ++ (⟨.enterContext i args.length, sp, x.2⟩ :: (cv ++ (cb ++ (gb.exitC sp ++ [.at' .exitContext sp])))) ∧
      g' = gb.exitScope := by
  obtain ⟨h0, k1⟩ := ite_throw_ok.1 (gexprIn_expr_ok.1 h)
  obtain ⟨_, ca, ga, c2, h1, k2, rfl⟩ := bind_inv k1
  obtain ⟨i, gi, h2, k3⟩ := onG'_inv k2
  obtain ⟨c3, k4, rfl⟩ := emit_inv k3
  obtain ⟨_, cv, gv, c4, h3, k5, rfl⟩ := bind_inv (onG_inv k4)
  obtain ⟨s, cb, gb, c5, h4, k6, rfl⟩ := bind_inv k5
  obtain ⟨_, ce, ge, c6, h5, k7, rfl⟩ := bind_inv k6
  obtain ⟨rfl, rfl⟩ := exitScope_inv h5
  obtain ⟨rfl, rfl⟩ := emit1_ok.1 k7
  exact ⟨ca, ga, i, gi, cv, gv, s, cb, gb, by omega, h1, h2, h3, h4, by simp, rfl⟩

end Expr

section Stmt
variable {m : Mode}

theorem gen_ret {e : Option Node} (h : genNode cfg strict m (.ret sp e) g = .ok (u, c, g')) :
    ∃ ce, m ≠ .expr ∧ g.cur.depth ≠ 0 ∧ genOpt cfg strict sp e g = .ok ((), ce, g') ∧ c = ce ++ [.at' .ret sp] := by
  obtain ⟨hm, k1⟩ := genNode_stmt rfl h
  have k2 := getG_inv k1
  obtain ⟨h0, k3⟩ := ite_throw_ok.1 k2
  obtain ⟨_, ce, ge, c2, h1, k4, rfl⟩ := bind_inv k3
  obtain ⟨rfl, rfl⟩ := emit1_ok.1 k4
  exact ⟨ce, hm, h0, h1, rfl⟩

theorem gen_decl {v : Var} {e : Node} (h : genNode cfg strict m (.decl sp v e) g = .ok (u, c, g')) :
    ∃ ce ge cv, m ≠ .expr ∧ genNode cfg strict .expr e g = .ok ((), ce, ge) ∧ declVar sp v ge = .ok ((), cv, g') ∧
      c = ce ++ cv := by
  obtain ⟨hm, k1⟩ := genNode_stmt rfl h
  obtain ⟨_, ce, ge, c2, h1, k2, rfl⟩ := bind_inv k1
  exact ⟨ce, ge, c2, hm, h1, k2, rfl⟩

theorem gen_func {name : Name} {params : List Name} {body : List Node}
    (h : genNode cfg strict m (.func sp name params body) g = .ok (u, c, g')) :
    ∃ cf gf cv, m ≠ .expr ∧ params.length ≤ 255 ∧
      GM.func strict name params sp (genStmts cfg strict body) g = .ok ((), cf, gf) ∧
      (if gf.cur.depth = 0 then defineGlobal name.1 sp gf = .ok ((), cv, g')
        else setVariable name.1 sp (gf.defineLocals [name.1]) = .ok ((), cv, g')) ∧ c = cf ++ cv := by
  obtain ⟨hm, k1⟩ := genNode_stmt rfl h
  obtain ⟨h0, k2⟩ := ite_throw_ok.1 k1
  obtain ⟨_, cf, gf, c2, h1, k3, rfl⟩ := bind_inv k2
  have k4 := isGlobal_inv k3
  refine ⟨cf, gf, c2, hm, by omega, h1, ?_, rfl⟩
  by_cases hd : gf.cur.depth = 0
  · simp only [hd, decide_true, if_true] at k4 ⊢; exact k4
  · simp only [hd, decide_false, Bool.false_eq_true, if_false] at k4 ⊢; exact onG_inv k4

theorem gen_extern {x : Name} {e : Node} (h : genNode cfg strict m (.extern sp x e) g = .ok (u, c, g')) :
    ∃ ce ge i gi, m ≠ .expr ∧ genNode cfg strict .expr e g = .ok ((), ce, ge) ∧ ge.cur.depth = 0 ∧
      ge.addGlobal x.1 = (i, gi) ∧ i ∉ gi.externals ∧ g' = { gi with externals := i :: gi.externals } ∧
      c = ce ++ [.at' (.defineGlobalDefaulted i) x.2] := by
  obtain ⟨hm, k1⟩ := genNode_stmt rfl h
  obtain ⟨_, ce, ge, c2, h1, k2, rfl⟩ := bind_inv k1
  have k3 := isGlobal_inv k2
  obtain ⟨h2, k4⟩ := ite_throw_ok.1 k3
  obtain ⟨i, gi, h3, k5⟩ := onG'_inv k4
  have k6 := getG_inv k5
  obtain ⟨h4, k7⟩ := ite_throw_ok.1 k6
  have k8 := onG_inv k7
  obtain ⟨rfl, rfl⟩ := emit1_ok.1 k8
  exact ⟨ce, ge, i, gi, hm, h1, by simpa using h2, h3, h4, rfl, rfl⟩

theorem gen_include {x : Name} {body : Option (List Node)} (h : genNode cfg strict m (.include sp x body) g = .ok (u, c, g')) :
    m ≠ .expr ∧ g.cur.depth = 0 ∧ genIncl cfg strict x.1 x.2 body g = .ok ((), c, g') := by
  obtain ⟨hm, k1⟩ := genNode_stmt rfl h
  have k2 := getG_inv k1
  obtain ⟨h0, k3⟩ := ite_throw_ok.1 k2
  exact ⟨hm, by omega, k3⟩

theorem declVar_one {x : Name} (h : declVar sp (.one x) g = .ok (u, c, g')) :
    (g.cur.depth = 0 ∧ ∃ i, g.addGlobal x.1 = (i, g') ∧ c = [.at' (.defineGlobal i) x.2]) ∨
    (g.cur.depth ≠ 0 ∧ ∃ r, (g.defineLocals [x.1]).resolve x.1 = (r, g') ∧ c = [.at' r.store x.2]) := by
  have k1 := isGlobal_inv h
  by_cases hd : g.cur.depth = 0
  · simp only [hd, decide_true, if_true] at k1; exact .inl ⟨hd, defineGlobal_inv k1⟩
  · simp only [hd, decide_false, Bool.false_eq_true, if_false] at k1
    exact .inr ⟨hd, setVariable_inv (onG_inv k1)⟩

theorem declVar_many {xs : List Name} (h : declVar sp (.many xs) g = .ok (u, c, g')) :
    xs.length ≤ 255 ∧
    ((g.cur.depth = 0 ∧ ∃ c1, defineGlobals xs g = .ok ((), c1, g') ∧ c = .at' (.unpack xs.length) sp :: c1) ∨
     (g.cur.depth ≠ 0 ∧ g' = g.defineLocals (xs.map Prod.fst).reverse ∧ c = [.at' (.unpack xs.length) sp])) := by
  obtain ⟨h0, k1⟩ := ite_throw_ok.1 h
  obtain ⟨c1, k2, rfl⟩ := emit1_inv k1
  have k3 := isGlobal_inv k2
  refine ⟨by omega, ?_⟩
  by_cases hd : g.cur.depth = 0
  · simp only [hd, decide_true, if_true] at k3; exact .inl ⟨hd, c1, k3, rfl⟩
  · simp only [hd, decide_false, Bool.false_eq_true, if_false] at k3
    obtain ⟨rfl, rfl⟩ := onG_ok.1 k3
    exact .inr ⟨hd, rfl, rfl⟩

theorem defineGlobals_cons {x : Name} {xs : List Name} (h : defineGlobals (x :: xs) g = .ok (u, c, g')) :
    ∃ i g1 c1, g.addGlobal x.1 = (i, g1) ∧ defineGlobals xs g1 = .ok ((), c1, g') ∧
      c = .at' (.defineGlobal i) x.2 :: c1 := by
  obtain ⟨_, c1, g1, c2, h1, h2, rfl⟩ := bind_inv h
  obtain ⟨i, h3, rfl⟩ := defineGlobal_inv h1
  exact ⟨i, g1, c2, h3, h2, rfl⟩

theorem ctxVar_none {csp : Span} (h : ctxVar sp csp none g = .ok (u, c, g')) : c = [.at' .pop sp] ∧ g' = g :=
  emit1_ok.1 h

theorem ctxVar_one {csp : Span} {x : Name} (h : ctxVar sp csp (some (.one x)) g = .ok (u, c, g')) :
    ∃ r, (g.defineLocals [x.1]).resolve x.1 = (r, g') ∧ c = [.at' r.store x.2] :=
  setVariable_inv (onG_inv h)

theorem ctxVar_many {csp : Span} {xs : List Name} (h : ctxVar sp csp (some (.many xs)) g = .ok (u, c, g')) :
    xs.length ≤ 255 ∧ g' = g.defineLocals (xs.map Prod.fst).reverse ∧ c = [.at' (.unpack xs.length) sp] := by
  obtain ⟨h0, k1⟩ := ite_throw_ok.1 h
  obtain ⟨c1, k2, rfl⟩ := emit1_inv k1
  obtain ⟨rfl, rfl⟩ := onG_ok.1 k2
  exact ⟨by omega, rfl, rfl⟩

end Stmt

section Lists

theorem genArgs_nil (h : genArgs cfg strict [] g = .ok (u, c, g')) : c = [] ∧ g' = g := (pure_ok.1 h).2

theorem genArgs_cons {n : Node} {ns : List Node} (h : genArgs cfg strict (n :: ns) g = .ok (u, c, g')) :
    ∃ c1 g1 c2, genNode cfg strict .expr n g = .ok ((), c1, g1) ∧ genArgs cfg strict ns g1 = .ok ((), c2, g') ∧
      c = c1 ++ c2 := by
  obtain ⟨_, c1, g1, c2, h1, h2, rfl⟩ := bind_inv h
  exact ⟨c1, g1, c2, h1, h2, rfl⟩

theorem genRev_nil (h : genRev cfg strict [] g = .ok (u, c, g')) : c = [] ∧ g' = g := (pure_ok.1 h).2

theorem genRev_cons {n : Node} {ns : List Node} (h : genRev cfg strict (n :: ns) g = .ok (u, c, g')) :
    ∃ c1 g1 c2, genRev cfg strict ns g = .ok ((), c1, g1) ∧ genNode cfg strict .expr n g1 = .ok ((), c2, g') ∧
      c = c1 ++ c2 := by
  obtain ⟨_, c1, g1, c2, h1, h2, rfl⟩ := bind_inv h
  exact ⟨c1, g1, c2, h1, h2, rfl⟩

theorem genStmts_one {n : Node} {s : Span} (h : genStmts cfg strict [n] g = .ok (s, c, g')) :
    genNode cfg strict (.stmt false) n g = .ok ((), c, g') ∧ s = n.span := by
  obtain ⟨_, c1, g1, c2, h1, h2, rfl⟩ := bind_inv h
  obtain ⟨rfl, rfl, rfl⟩ := pure_ok.1 h2
  exact ⟨by simpa using h1, rfl⟩

theorem genStmts_cons {n n' : Node} {ns : List Node} {s : Span} (h : genStmts cfg strict (n :: n' :: ns) g = .ok (s, c, g')) :
    ∃ c1 g1 c2, genNode cfg strict (.stmt true) n g = .ok ((), c1, g1) ∧
      genStmts cfg strict (n' :: ns) g1 = .ok (s, c2, g') ∧ c = c1 ++ c2 := by
  obtain ⟨_, c1, g1, c2, h1, h2, rfl⟩ := bind_inv h
  exact ⟨c1, g1, c2, h1, h2, rfl⟩

theorem genEach_cons {n : Node} {ns : List Node} (h : genEach cfg strict (n :: ns) g = .ok (u, c, g')) :
    ∃ c1 g1 c2, genNode cfg strict (.stmt true) n g = .ok ((), c1, g1) ∧
      genEach cfg strict ns g1 = .ok ((), c2, g') ∧ c = c1 ++ c2 := by
  obtain ⟨_, c1, g1, c2, h1, h2, rfl⟩ := bind_inv h
  exact ⟨c1, g1, c2, h1, h2, rfl⟩

theorem genEach_nil (h : genEach cfg strict [] g = .ok (u, c, g')) : c = [] ∧ g' = g := (pure_ok.1 h).2

theorem genCases_nil {ps : List (Code × Span)} (h : genCases cfg strict [] g = .ok (ps, c, g')) :
    ps = [] ∧ c = [] ∧ g' = g := by
  simp only [genCases, pure_ok] at h
  exact ⟨h.1.symm, h.2.1, h.2.2⟩

theorem genCases_cons {n : Node} {body : List Node} {cs : List (Node × List Node)} {ps : List (Code × Span)}
    (h : genCases cfg strict ((n, body) :: cs) g = .ok (ps, c, g')) :
    ∃ cc gc b gb ps' , genNode cfg strict .expr n g = .ok ((), cc, gc) ∧
      inScope (genStmts cfg strict body) gc = .ok ((), b, gb) ∧ b.len + 6 ≤ 65535 ∧
      genCases cfg strict cs gb = .ok (ps', c, g') ∧
      ps = (cc ++ (.at' (.jumpIfNotEq (b.len + 6)) n.span :: .at' (.popMany 2) n.span :: b), n.span) :: ps' := by
  obtain ⟨cc, gc, h1, k1⟩ := sub_inv h
  obtain ⟨b, gb, h2, k2⟩ := sub_inv k1
  obtain ⟨h3, k3⟩ := ite_throw_ok.1 k2
  obtain ⟨ps', c1, g1, c2, h4, k4, rfl⟩ := bind_inv k3
  simp only [pure_ok] at k4
  obtain ⟨rfl, rfl, rfl⟩ := k4
  exact ⟨cc, gc, b, gb, ps', h1, h2, by omega, by simpa using h4, by simp⟩

theorem genElse_none (h : genElse cfg strict sp none g = .ok (u, c, g')) : c = [.at' .pop sp] ∧ g' = g := emit1_ok.1 h

theorem genElse_some {body : List Node} (h : genElse cfg strict sp (some body) g = .ok (u, c, g')) :
    ∃ c1, inScope (genStmts cfg strict body) g = .ok ((), c1, g') ∧ c = .at' (.popMany 2) sp :: c1 := emit1_inv h

theorem genOpt_none (h : genOpt cfg strict sp none g = .ok (u, c, g')) : c = [.at' .loadNone sp] ∧ g' = g := emit1_ok.1 h

end Lists

end Quilt
