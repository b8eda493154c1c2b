import Verif.Compiler.Compile

/-!
# Compiling only adds global names, whether it succeeds or not
-/

namespace Quilt

/-- The table only grows. -/
def Pool.Grows (p q : Pool String) : Prop := p.entries <+: q.entries ∧ (p.Inv → q.Inv)

theorem Pool.Grows.refl (p : Pool String) : p.Grows p := ⟨List.prefix_refl _, id⟩
theorem Pool.Grows.trans {p q r : Pool String} (h : p.Grows q) (h' : q.Grows r) : p.Grows r := ⟨h.1.trans h'.1, fun h1 => h'.2 (h.2 h1)⟩
theorem Pool.Grows.add (p : Pool String) (x : String) : p.Grows (p.add x).2 := ⟨Pool.add_prefix p x, fun h => Pool.inv_add h x⟩

namespace CM

/-- The global names only grow, whatever the outcome. -/
def Gr {α : Type} (x : CM α) : Prop := ∀ s : CState, s.g.globals.Grows (x s).2.g.globals

variable {α β : Type}

theorem Gr.pure (a : α) : Gr (Pure.pure a : CM α) := fun _ => .refl _
theorem Gr.throw (e : Err) (sp : Span) : Gr (CM.throw e sp : CM α) := fun _ => .refl _
theorem Gr.panic : Gr (CM.panic : CM α) := fun _ => .refl _
theorem Gr.getG : Gr CM.getG := fun _ => .refl _
theorem Gr.len : Gr CM.len := fun _ => .refl _
theorem Gr.isGlobal : Gr CM.isGlobal := fun _ => .refl _

theorem Gr.bind {x : CM α} {f : α → CM β} (hx : Gr x) (hf : ∀ a, Gr (f a)) : Gr (x >>= f) := by
  intro s
  have h1 := hx s
  show s.g.globals.Grows (CM.bind x f s).2.g.globals
  unfold CM.bind
  generalize x s = r at h1
  obtain ⟨o, s'⟩ := r
  cases o with
  | ok a => exact h1.trans (hf a s')
  | err e sp => exact h1
  | panic => exact h1

theorem Gr.onG {f : GState → GState} (h : ∀ g, (f g).globals = g.globals) : Gr (CM.onG f) := fun s => by
  show s.g.globals.Grows (f s.g).globals
  rw [h]; exact .refl _

theorem Gr.onG' {f : GState → α × GState} (h : ∀ g : GState, g.globals.Grows (f g).2.globals) : Gr (CM.onG' f) := fun s => h s.g

theorem Gr.onChunk (f : Chunk → Chunk) : Gr (CM.onChunk f) := fun _ => .refl _

theorem defineLocals_globals : ∀ (ns : List String) (g : GState), (g.defineLocals ns).globals = g.globals
  | [], _ => rfl
  | _ :: ns, g => defineLocals_globals ns _

theorem Gr.defineLocals (ns : List String) : Gr (CM.defineLocals ns) := Gr.onG fun g => defineLocals_globals ns g
theorem Gr.enterFn (n : Name) (ps : List Name) : Gr (CM.enterFn n ps) := fun s => by
  show s.g.globals.Grows (s.g.enterFn n.1 (ps.map Prod.fst)).globals
  have : (s.g.enterFn n.1 (ps.map Prod.fst)).globals = s.g.globals := defineLocals_globals _ _
  rw [this]; exact .refl _

theorem Gr.exitFn : Gr CM.exitFn := fun s => by
  unfold CM.exitFn
  split <;> exact .refl _

theorem Gr.addGlobal (x : String) : Gr (CM.onG' fun g => g.addGlobal x) := Gr.onG' fun g => .add g.globals x
theorem Gr.addConst (c : Const) : Gr (CM.onG' fun g => g.addConst c) := Gr.onG' fun _ => .refl _

theorem Gr.resolve (x : String) : Gr (CM.onG' fun g => g.resolve x) := Gr.onG' fun g => by
  unfold GState.resolve
  split
  · exact .refl _
  · split
    · exact .refl _
    · exact .add g.globals x

theorem Gr.patchU16 (o v : Nat) : Gr (CM.patchU16 o v) := fun s => by
  unfold CM.patchU16
  split <;> exact .refl _

theorem Gr.ite {c : Prop} [Decidable c] {x y : CM α} (hx : Gr x) (hy : Gr y) : Gr (if c then x else y) := by
  split
  · exact hx
  · exact hy

theorem Gr.writeU8 (b : UInt8) (sp : Span) : Gr (CM.writeU8 b sp) := Gr.onChunk _
theorem Gr.writeU16 (b : Nat) (sp : Span) : Gr (CM.writeU16 b sp) := Gr.onChunk _
theorem Gr.writeOpU8 (op : UInt8) (b : Nat) (sp : Span) : Gr (CM.writeOpU8 op b sp) := .bind (.writeU8 _ _) fun _ => .writeU8 _ _
theorem Gr.writeOpU16 (op : UInt8) (b : Nat) (sp : Span) : Gr (CM.writeOpU16 op b sp) := .bind (.writeU8 _ _) fun _ => .writeU16 _ _
theorem Gr.writeJump (op : UInt8) (sp : Span) : Gr (CM.writeJump op sp) := .bind (.writeOpU16 _ _ _) fun _ => .bind .len fun _ => .pure _
theorem Gr.writeJumpBackward (n : Nat) (sp : Span) : Gr (CM.writeJumpBackward n sp) := .bind .len fun _ => .ite (.throw _ _) (.writeOpU16 _ _ _)
theorem Gr.patchJump (n : Nat) (sp : Span) : Gr (CM.patchJump n sp) := .bind .len fun _ => .ite (.throw _ _) (.patchU16 _ _)
theorem Gr.patchJumps (sp : Span) : ∀ js, Gr (CM.patchJumps sp js)
  | [] => .pure _
  | _ :: js => .bind (.patchJump _ _) fun _ => patchJumps sp js
theorem Gr.flushPops (q : Nat) (sp : Span) : Gr (CM.flushPops q sp) := .ite (.writeOpU16 _ _ _) (.ite (.writeU8 _ _) (.pure _))
theorem Gr.writePops (sp : Span) : ∀ cs q, Gr (CM.writePops sp cs q)
  | [], q => .flushPops q sp
  | false :: cs, q => writePops sp cs (q + 1)
  | true :: cs, q => .bind (.flushPops q sp) fun _ => .bind (.writeU8 _ _) fun _ => writePops sp cs 0
theorem Gr.exitScope (sp : Span) : Gr (CM.exitScope sp) :=
  .bind .getG fun _ => .bind (.onG fun _ => rfl) fun _ => .ite (.bind (.writeU8 _ _) fun _ => .bind (.writePops _ _ _) fun _ => .writeU8 _ _) (.pure _)
theorem Gr.getVariable (x : String) (sp : Span) : Gr (CM.getVariable x sp) := .bind (.resolve x) fun r => by cases r <;> exact .writeOpU16 _ _ _
theorem Gr.setVariable (x : String) (sp : Span) : Gr (CM.setVariable x sp) := .bind (.resolve x) fun r => by cases r <;> exact .writeOpU16 _ _ _
theorem Gr.writeUps (sp : Span) : ∀ us, Gr (CM.writeUps sp us)
  | [] => .pure _
  | _ :: us => .bind (.writeU8 _ _) fun _ => .bind (.writeU16 _ _) fun _ => writeUps sp us
theorem Gr.closeFn (sp : Span) : Gr (CM.closeFn sp) :=
  .bind .exitFn fun _ => .bind (.addConst _) fun _ => .ite (.bind (.writeOpU16 _ _ _) fun _ => .writeUps _ _) (.writeOpU16 _ _ _)
theorem Gr.defineGlobal (op : UInt8) (x : String) (sp : Span) : Gr (CM.defineGlobal op x sp) := .bind (.addGlobal x) fun _ => .writeOpU16 _ _ _
theorem Gr.defineGlobals : ∀ ns, Gr (CM.defineGlobals ns)
  | [] => .pure _
  | (_, _) :: ns => .bind (.defineGlobal _ _ _) fun _ => defineGlobals ns
theorem Gr.writeBuiltin (op : UInt8) (x : Name) (n : Nat) (sp : Span) : Gr (CM.writeBuiltin op x n sp) :=
  .bind (.writeU8 _ _) fun _ => .bind (.addGlobal _) fun _ => .bind (.writeU16 _ _) fun _ => .writeU8 _ _
theorem Gr.enterScope : Gr (CM.onG GState.enterScope) := .onG fun _ => rfl
theorem Gr.reserveTemp : Gr (CM.onG GState.reserveTemp) := .onG fun _ => rfl
theorem Gr.inScope {body : CM Span} (h : Gr body) : Gr (CM.inScope body) := .bind .enterScope fun _ => .bind h fun _ => .exitScope _
theorem Gr.thenPart (op : UInt8) (sp : Span) {body : CM Unit} (h : Gr body) : Gr (CM.thenPart op sp body) :=
  .bind (.writeJump _ _) fun _ => .bind (.writeOpU16 _ _ _) fun _ => .bind h fun _ => .bind (.writeJump _ _) fun _ => .bind (.patchJump _ _) fun _ => .pure _
theorem Gr.ctxVar (sp csp : Span) (v : Option Var) : Gr (CM.ctxVar sp csp v) := by
  cases v with
  | none => exact .writeU8 _ _
  | some v => cases v with
    | one x => exact .bind (.defineLocals _) fun _ => .setVariable _ _
    | many ns => exact .ite (.throw _ _) (.bind (.writeOpU8 _ _ _) fun _ => .defineLocals _)
theorem Gr.declVar (sp : Span) (v : Var) : Gr (CM.declVar sp v) := by
  cases v with
  | one x => exact .bind .isGlobal fun _ => .ite (.defineGlobal _ _ _) (.bind (.defineLocals _) fun _ => .setVariable _ _)
  | many ns => exact .ite (.throw _ _) (.bind (.writeOpU8 _ _ _) fun _ => .bind .isGlobal fun _ => .ite (.defineGlobals _) (.defineLocals _))
theorem Gr.exprIn (m : Mode) (sp : Span) {act : CM Unit} (h : Gr act) : Gr (Quilt.exprIn m sp act) := .bind h fun _ => .ite (.writeU8 _ _) (.pure _)
theorem Gr.stmtIn (m : Mode) (sp : Span) {act : CM Unit} (h : Gr act) : Gr (Quilt.stmtIn m sp act) := by
  cases m with
  | expr => exact .throw _ _
  | stmt => exact h

mutual
theorem gr_node (cfg : Cfg) (m : Mode) : ∀ n, Gr (compileNode cfg m n)
  | .ret sp e => .stmtIn m sp (.bind .getG fun _ => .ite (.throw _ _) (.bind (gr_opt cfg sp e) fun _ => .writeU8 _ _))
  | .func sp name params body => .stmtIn m sp (.ite (.throw _ _) (.bind (.enterFn _ _) fun _ => .bind (gr_stmts cfg body) fun _ => .bind (.closeFn _) fun _ =>
      .bind .isGlobal fun _ => .ite (.defineGlobal _ _ _) (.bind (.defineLocals _) fun _ => .setVariable _ _)))
  | .decl sp v e => .stmtIn m sp (.bind (gr_node cfg .expr e) fun _ => .declVar _ _)
  | .extern sp (x, xsp) e => .stmtIn m sp (.bind (gr_node cfg .expr e) fun _ => .bind .isGlobal fun _ => .ite (.throw _ _) (.bind (.addGlobal _) fun _ =>
      .bind .getG fun _ => .ite (.throw _ _) (.bind (.onG fun _ => rfl) fun _ => .writeOpU16 _ _ _)))
  | .include sp (x, xsp) body => .stmtIn m sp (.bind .getG fun _ => .ite (.throw _ _) (gr_incl cfg x xsp body))
  | .lit sp l => .exprIn m sp (by split; exact .writeU8 _ _; exact .bind (.addConst _) fun _ => .writeOpU16 _ _ _)
  | .pair sp a b => .exprIn m sp (.bind (gr_node cfg .expr a) fun _ => .bind (gr_node cfg .expr b) fun _ => .writeU8 _ _)
  | .array sp items => .exprIn m sp (.ite (.throw _ _) (.bind (gr_rev cfg items) fun _ => .writeOpU8 _ _ _))
  | .range sp a b => .exprIn m sp (.bind (gr_node cfg .expr a) fun _ => .bind (gr_node cfg .expr b) fun _ => .writeU8 _ _)
  | .ident sp x => .exprIn m sp (.getVariable _ _)
  | .block sp body => .exprIn m sp (.inScope (gr_stmts cfg body))
  | .assign sp (x, xsp) e => .exprIn m sp (.bind (gr_node cfg .expr e) fun _ => .setVariable _ _)
  | .call sp f args => .exprIn m sp (.ite (.throw _ _) (.bind (gr_node cfg .expr f) fun _ => .bind (gr_args cfg args) fun _ => .writeOpU8 _ _ _))
  | .index sp e i => .exprIn m sp (.bind (gr_node cfg .expr i) fun _ => .bind (gr_node cfg .expr e) fun _ => .writeU8 _ _)
  | .builtin sp x args => .exprIn m sp (.ite (.throw _ _) (.bind (gr_args cfg args) fun _ => .writeBuiltin _ _ _ _))
  | .ctx sp x args v body => .exprIn m sp (.ite (.throw _ _) (.bind (gr_args cfg args) fun _ => .bind (.writeBuiltin _ _ _ _) fun _ => .bind .enterScope fun _ =>
      .bind (.ctxVar _ _ _) fun _ => .bind (gr_stmts cfg body) fun _ => .bind (.exitScope _) fun _ => .writeU8 _ _))
  | .cond sp c th el => .exprIn m sp (.bind (.writeU8 _ _) fun _ => .bind (gr_node cfg .expr c) fun _ => .bind (.thenPart _ _ (.inScope (gr_stmts cfg th))) fun _ =>
      .bind (gr_else cfg sp el) fun _ => .patchJump _ _)
  | .switch sp v cases dflt => .exprIn m sp (.bind (.writeU8 _ _) fun _ => .bind (gr_node cfg .expr v) fun _ => .bind (gr_cases cfg cases) fun _ =>
      .bind (gr_else cfg sp dflt) fun _ => .patchJumps _ _)
  | .while sp c body => .exprIn m sp (.bind (.writeU8 _ _) fun _ => .bind .len fun _ => .bind (gr_node cfg .expr c) fun _ => .bind (.writeJump _ _) fun _ =>
      .bind (.writeOpU16 _ _ _) fun _ => .bind (.inScope (gr_stmts cfg body)) fun _ => .bind (.writeJumpBackward _ _) fun _ => .bind (.patchJump _ _) fun _ => .writeU8 _ _)
  | .forIn sp (x, xsp) it body => .exprIn m sp (.bind .enterScope fun _ => .bind .reserveTemp fun _ => .bind .reserveTemp fun _ => .bind (.writeU8 _ _) fun _ =>
      .bind (gr_node cfg .expr it) fun _ => .bind .enterScope fun _ => .bind (.writeU8 _ _) fun _ => .bind .len fun _ => .bind (.writeJump _ _) fun _ => .bind (.writeU8 _ _) fun _ =>
      .bind (.defineLocals _) fun _ => .bind (gr_stmts cfg body) fun _ => .bind (.exitScope _) fun _ => .bind (.writeJumpBackward _ _) fun _ => .bind (.patchJump _ _) fun _ => .exitScope _)
  | .forMulti sp xs it body => .exprIn m sp (.bind .enterScope fun _ => .ite (.throw _ _) (.bind .reserveTemp fun _ => .bind .reserveTemp fun _ => .bind (.writeU8 _ _) fun _ =>
      .bind (gr_node cfg .expr it) fun _ => .bind .enterScope fun _ => .bind (.writeU8 _ _) fun _ => .bind .len fun _ => .bind (.writeJump _ _) fun _ => .bind (.writeU8 _ _) fun _ =>
      .bind (.writeOpU8 _ _ _) fun _ => .bind (.defineLocals _) fun _ => .bind (gr_stmts cfg body) fun _ => .bind (.exitScope _) fun _ => .bind (.writeJumpBackward _ _) fun _ =>
      .bind (.patchJump _ _) fun _ => .exitScope _))
  | .lambda sp params body => .exprIn m sp (.ite (.throw _ _) (.bind (.enterFn _ _) fun _ => .bind (gr_stmts cfg body) fun _ => .closeFn _))
  | .bin sp op a b => .exprIn m sp (.bind (gr_node cfg .expr a) fun _ => .bind (gr_node cfg .expr b) fun _ => .ite .panic (.writeU8 _ _))
  | .un sp op e => .exprIn m sp (by
      have := gr_node cfg .expr e
      split
      · exact .bind (.addConst _) fun _ => .writeOpU16 _ _ _
      · exact .panic
      · exact .bind this fun _ => .ite (.writeU8 _ _) .panic)
termination_by structural n => n
theorem gr_stmts (cfg : Cfg) : ∀ ns, Gr (compileStmts cfg ns)
  | [] => .pure _
  | [n] => .bind (gr_node cfg _ n) fun _ => .pure _
  | n :: n' :: ns => .bind (gr_node cfg _ n) fun _ => gr_stmts cfg (n' :: ns)
termination_by structural n => n
theorem gr_each (cfg : Cfg) : ∀ ns, Gr (compileEach cfg ns)
  | [] => .pure _
  | n :: ns => .bind (gr_node cfg _ n) fun _ => gr_each cfg ns
termination_by structural n => n
theorem gr_args (cfg : Cfg) : ∀ ns, Gr (compileArgs cfg ns)
  | [] => .pure _
  | n :: ns => .bind (gr_node cfg _ n) fun _ => gr_args cfg ns
termination_by structural n => n
theorem gr_rev (cfg : Cfg) : ∀ ns, Gr (compileRev cfg ns)
  | [] => .pure _
  | n :: ns => .bind (gr_rev cfg ns) fun _ => gr_node cfg _ n
termination_by structural n => n
theorem gr_cases (cfg : Cfg) : ∀ cs, Gr (compileCases cfg cs)
  | [] => .pure _
  | (c, body) :: cs => .bind (gr_node cfg _ c) fun _ => .bind (.thenPart _ _ (.inScope (gr_stmts cfg body))) fun _ => .bind (gr_cases cfg cs) fun _ => .pure _
termination_by structural n => n
theorem gr_else (cfg : Cfg) (sp : Span) : ∀ e, Gr (compileElse cfg sp e)
  | some body => .bind (.writeOpU16 _ _ _) fun _ => .inScope (gr_stmts cfg body)
  | none => .writeU8 _ _
termination_by structural n => n
theorem gr_opt (cfg : Cfg) (sp : Span) : ∀ e, Gr (compileOpt cfg sp e)
  | some e => gr_node cfg .expr e
  | none => .writeU8 _ _
termination_by structural n => n
theorem gr_incl (cfg : Cfg) (x : String) (xsp : Span) : ∀ b, Gr (compileIncl cfg x xsp b)
  | some body => gr_each cfg body
  | none => .throw _ _
termination_by structural n => n
end

end CM

end Quilt
