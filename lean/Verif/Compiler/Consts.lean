import Verif.Compiler.Boundary

/-!
# The constants of compiled functions
-/

namespace Quilt

mutual
/-- The literals in a program. -/
def Node.lits : Node → List Literal
  | .lit _ l => [l]
  | .ident .. => []
  | .assign _ _ e | .un _ _ e => e.lits
  | .pair _ a b | .range _ a b | .bin _ _ a b | .index _ a b => a.lits ++ b.lits
  | .array _ items => litsL items
  | .block _ body => litsL body
  | .cond _ c th el => c.lits ++ (litsL th ++ litsO el)
  | .switch _ v cs d => v.lits ++ (litsC cs ++ litsO d)
  | .while _ c b => c.lits ++ litsL b
  | .forIn _ _ it b => it.lits ++ litsL b
  | .forMulti _ _ it b => it.lits ++ litsL b
  | .lambda _ _ b => litsL b
  | .func _ _ _ b => litsL b
  | .call _ f args => f.lits ++ litsL args
  | .builtin _ _ args => litsL args
  | .ctx _ _ args _ b => litsL args ++ litsL b
  | .decl _ _ e => e.lits
  | .extern _ _ e => e.lits
  | .include _ _ b => litsO b
  | .ret _ e => litsE e
termination_by structural n => n
def litsL : List Node → List Literal
  | [] => []
  | n :: ns => n.lits ++ litsL ns
termination_by structural n => n
def litsC : List (Node × List Node) → List Literal
  | [] => []
  | (c, b) :: cs => (c.lits ++ litsL b) ++ litsC cs
termination_by structural n => n
def litsO : Option (List Node) → List Literal
  | some b => litsL b
  | none => []
termination_by structural n => n
def litsE : Option Node → List Literal
  | some e => e.lits
  | none => []
termination_by structural n => n
end

/-- The literals among the constants of the function and of the functions in it satisfy `P`. -/
def FnLits (P : Literal → Prop) (f : Func) : Prop := ∀ g, Within f g → ∀ l, Const.lit l ∈ g.consts → P l

def PoolLits (P : Literal → Prop) (p : Pool Const) : Prop := (∀ l, Const.lit l ∈ p.entries → P l) ∧ ∀ f, Const.fn f ∈ p.entries → FnLits P f

def LvsLits (P : Literal → Prop) (g : GState) : Prop := ∀ p ∈ g.cur.constPool :: g.encl.map (·.constPool), PoolLits P p

/-- The generator adds only literals that satisfy `P`. -/
def GL {α : Type} (P : Literal → Prop) (x : GM α) : Prop := ∀ g a c g', x g = .ok (a, c, g') → LvsLits P g → LvsLits P g' ∧ g'.encl.length = g.encl.length

namespace GL
open GM
variable {α β : Type} {P : Literal → Prop}

theorem bind {x : GM α} {f : α → GM β} (h : GL P x) (hf : ∀ a, GL P (f a)) : GL P (x >>= f) := by
  intro g b c g' hx hg
  rw [bind_app] at hx
  cases h1 : x g with
  | ok r =>
    obtain ⟨a, c1, g1⟩ := r
    simp only [h1] at hx
    cases h2 : f a g1 with
    | ok r =>
      obtain ⟨b', c2, g2⟩ := r
      simp only [h2, GRes.ok.injEq, Prod.mk.injEq] at hx
      obtain ⟨rfl, rfl, rfl⟩ := hx
      obtain ⟨k1, k2⟩ := h g a c1 g1 h1 hg
      obtain ⟨l1, l2⟩ := hf a g1 b' c2 g2 h2 k1
      exact ⟨l1, l2.trans k2⟩
    | _ => simp [h2] at hx
  | _ => simp [h1] at hx

theorem pure {a : α} : GL P (Pure.pure a) := by
  intro g b c g' hx hg
  simp only [pure_app, GRes.ok.injEq, Prod.mk.injEq] at hx
  obtain ⟨rfl, rfl, rfl⟩ := hx
  exact ⟨hg, rfl⟩

theorem throw {e : Err} {sp : Span} : GL P (GM.throw e sp : GM α) := by intro g a c g' hx; simp [GM.throw] at hx
theorem panic : GL P (GM.panic : GM α) := by intro g a c g' hx; simp [GM.panic] at hx

theorem emit {c : Code} : GL P (GM.emit c) := by
  intro g a c' g' hx hg
  simp only [GM.emit, GRes.ok.injEq, Prod.mk.injEq] at hx
  obtain ⟨_, rfl, rfl⟩ := hx
  exact ⟨hg, rfl⟩

theorem emit1 {i : Instr} {sp : Span} : GL P (GM.emit1 i sp) := emit

theorem getG : GL P GM.getG := by
  intro g a c g' hx hg
  simp only [GM.getG, GRes.ok.injEq, Prod.mk.injEq] at hx
  obtain ⟨rfl, rfl, rfl⟩ := hx
  exact ⟨hg, rfl⟩

theorem isGlobal : GL P GM.isGlobal := by
  intro g a c g' hx hg
  simp only [GM.isGlobal, GRes.ok.injEq, Prod.mk.injEq] at hx
  obtain ⟨rfl, rfl, rfl⟩ := hx
  exact ⟨hg, rfl⟩

theorem sub {x : GM Unit} (h : GL P x) : GL P (GM.sub x) := by
  intro g a c g' hx hg
  simp only [GM.sub] at hx
  cases h1 : x g with
  | ok r =>
    obtain ⟨u, c1, g1⟩ := r
    simp only [h1, GRes.ok.injEq, Prod.mk.injEq] at hx
    obtain ⟨rfl, rfl, rfl⟩ := hx
    exact h g u c1 g1 h1 hg
  | _ => simp [h1] at hx

/-- State changes that leave constants alone. -/
theorem onG' {f : GState → α × GState} (h : ∀ g, (f g).2.cur.constPool = g.cur.constPool ∧ (f g).2.encl.map (·.constPool) = g.encl.map (·.constPool)) :
    GL P (GM.onG' f) := by
  intro g a c g' hx hg
  simp only [GM.onG', GRes.ok.injEq, Prod.mk.injEq] at hx
  obtain ⟨rfl, rfl, rfl⟩ := hx
  obtain ⟨h1, h2⟩ := h g
  refine ⟨by unfold LvsLits; rw [h1, h2]; exact hg, ?_⟩
  have := congrArg List.length h2
  simpa using this

theorem onG {f : GState → GState} (h : ∀ g, (f g).cur.constPool = g.cur.constPool ∧ (f g).encl.map (·.constPool) = g.encl.map (·.constPool)) : GL P (GM.onG f) := by
  intro g a c g' hx hg
  exact onG' (f := fun g => ((), f g)) h g a c g' hx hg

theorem ite {x y : GM α} {c : Prop} [Decidable c] (h : GL P x) (h' : GL P y) : GL P (if c then x else y) := by
  split
  · exact h
  · exact h'

theorem _root_.Quilt.PoolLits.add {p : Pool Const} (h : PoolLits P p) {c : Const} (hl : ∀ l, c = .lit l → P l) (hf : ∀ f, c = .fn f → FnLits P f) : PoolLits P (p.add c).2 := by
  have hm : ∀ x, x ∈ (p.add c).2.entries → x ∈ p.entries ∨ x = c := by
    intro x hx
    unfold Pool.add at hx
    split at hx
    · exact .inl hx
    · simpa using hx
  refine ⟨fun l h1 => ?_, fun f h1 => ?_⟩
  · rcases hm _ h1 with h1 | h1
    · exact h.1 l h1
    · exact hl l h1.symm
  · rcases hm _ h1 with h1 | h1
    · exact h.2 f h1
    · exact hf f h1.symm

theorem addConst {l : Literal} (h : P l) : GL P (GM.onG' fun g => g.addConst (.lit l)) := by
  intro g a c g' hx hg
  simp only [GM.onG', GRes.ok.injEq, Prod.mk.injEq] at hx
  obtain ⟨rfl, rfl, rfl⟩ := hx
  refine ⟨fun p hp => ?_, rfl⟩
  rcases List.mem_cons.1 hp with rfl | hp
  · exact (hg _ (List.mem_cons_self ..)).add (by rintro _ ⟨⟩; exact h) (by rintro _ ⟨⟩)
  · exact hg p (List.mem_cons_of_mem _ hp)

theorem loadLit {l : Literal} (h : P l) (sp : Span) : GL P (GM.onG' (fun g => g.addConst (.lit l)) >>= fun i => GM.emit1 (.loadConst i) sp) :=
  bind (addConst h) fun _ => emit1

theorem resolve (x : String) : GL P (GM.onG' fun g => g.resolve x) := by
  refine onG' fun g => ?_
  simp only [GState.resolve]
  split
  · exact ⟨rfl, rfl⟩
  · split
    · rename_i h; exact GJ.resolveUp_consts h
    · exact ⟨rfl, rfl⟩

theorem addGlobal (x : String) : GL P (GM.onG' fun g => g.addGlobal x) := onG' fun _ => ⟨rfl, rfl⟩

theorem getVariable (x : String) (sp : Span) : GL P (GM.getVariable x sp) := bind (resolve x) fun _ => emit1
theorem setVariable (x : String) (sp : Span) : GL P (GM.setVariable x sp) := bind (resolve x) fun _ => emit1
theorem defineLocals (xs : List String) : GL P (GM.defineLocals xs) := onG (GJ.defineLocals_same xs)
theorem defineGlobal (x : String) (sp : Span) : GL P (GM.defineGlobal x sp) := bind (addGlobal x) fun _ => emit1
theorem defineGlobals : ∀ xs : List Name, GL P (GM.defineGlobals xs)
  | [] => pure
  | (x, sp) :: xs => bind (defineGlobal x sp) fun _ => defineGlobals xs

theorem exitScope (sp : Span) : GL P (GM.exitScope sp) := by
  intro g a c g' hx hg
  simp only [GM.exitScope, GRes.ok.injEq, Prod.mk.injEq] at hx
  obtain ⟨_, rfl, rfl⟩ := hx
  exact ⟨hg, rfl⟩

theorem enterScope : GL P (GM.onG GState.enterScope) := onG fun _ => ⟨rfl, rfl⟩
theorem reserveTemp : GL P (GM.onG GState.reserveTemp) := onG fun _ => ⟨rfl, rfl⟩

theorem inScope {body : GM Span} (h : GL P body) : GL P (GM.inScope body) := bind enterScope fun _ => bind h fun s => exitScope s

theorem ctxVar (sp csp : Span) : ∀ v : Option Var, GL P (GM.ctxVar sp csp v)
  | some (.one (y, ysp)) => bind (defineLocals [y]) fun _ => setVariable y ysp
  | some (.many xs) => ite throw (bind emit1 fun _ => defineLocals (xs.map Prod.fst).reverse)
  | none => emit1

theorem declVar (sp : Span) : ∀ v : Var, GL P (GM.declVar sp v)
  | .one (x, xsp) => bind isGlobal fun _ => ite (defineGlobal x xsp) (bind (defineLocals [x]) fun _ => setVariable x xsp)
  | .many xs => ite throw (bind emit1 fun _ => bind isGlobal fun b =>
      (ite (defineGlobals xs) (defineLocals (xs.map Prod.fst).reverse) : GL _ (if b = true then GM.defineGlobals xs else GM.defineLocals (xs.map Prod.fst).reverse)))

theorem gexprIn {m : Mode} {sp : Span} {act : GM Unit} (h : GL P act) : GL P (Quilt.gexprIn m sp act) := bind h fun _ => ite emit1 pure

theorem gstmtIn {m : Mode} {sp : Span} {act : GM Unit} (h : GL P act) : GL P (Quilt.gstmtIn m sp act) := by
  cases m with
  | expr => exact throw
  | stmt => exact h

theorem finish_lits {l : GLevel} {h : Head} (hp : PoolLits P l.constPool) : FnLits P (CM.finish l h) := by
  have hc : (CM.finish l h).consts = l.constPool.entries := rfl
  have : ∀ g, Within (CM.finish l h) g → g = CM.finish l h ∨ ∃ f, Const.fn f ∈ l.constPool.entries ∧ Within f g := by
    intro g hw
    induction hw with
    | self => exact .inl rfl
    | const h1 h2 ih =>
      rcases ih with rfl | ⟨f, h3, h4⟩
      · exact .inr ⟨_, h2, .self⟩
      · exact .inr ⟨f, h3, .const h4 h2⟩
  intro g hw l hl
  rcases this g hw with rfl | ⟨f, h1, h2⟩
  · exact hp.1 l hl
  · exact hp.2 f h1 g h2 l hl

theorem func {name : Name} {params : List Name} {sp : Span} {body : GM Span} (h : GL P body) : GL P (GM.func true name params sp body) := by
  intro g a c g' hx hg
  obtain ⟨e1, e2⟩ := GJ.defineLocals_same (name.1 :: params.map Prod.fst) ({ g with cur := GLevel.fresh g.cur.depth, encl := g.cur :: g.encl } : GState)
  have hg1 : LvsLits P (g.enterFn name.1 (params.map Prod.fst)) := by
    show ∀ p ∈ (GState.defineLocals _ _).cur.constPool :: (GState.defineLocals _ _).encl.map (·.constPool), PoolLits P p
    rw [e1, e2]
    intro p hp
    rcases List.mem_cons.1 hp with rfl | hp
    · exact ⟨by simp [GLevel.fresh, Pool.empty], by simp [GLevel.fresh, Pool.empty]⟩
    · exact hg p hp
  simp only [GM.func] at hx
  cases h1 : body (g.enterFn name.1 (params.map Prod.fst)) with
  | ok r =>
    obtain ⟨s, cb, g1⟩ := r
    simp only [h1] at hx
    obtain ⟨k1, k2⟩ := h _ _ _ _ h1 hg1
    have k3 : g1.encl.length = g.encl.length + 1 := by
      rw [k2]
      have := congrArg List.length e2
      simpa [GState.enterFn] using this
    cases h2 : g1.encl with
    | nil => rw [h2] at k3; simp at k3
    | cons l ls =>
      rw [h2] at k3
      simp only [h2, Bool.true_and] at hx
      split at hx
      · cases hx
      · simp only [GRes.ok.injEq, Prod.mk.injEq] at hx
        obtain ⟨_, rfl, rfl⟩ := hx
        unfold LvsLits at k1
        rw [h2] at k1
        refine ⟨fun p hp => ?_, by simpa [GState.addConst, GState.onCur] using k3⟩
        rcases List.mem_cons.1 hp with rfl | hp
        · exact (k1 l.constPool (by simp)).add (by rintro _ ⟨⟩) (by rintro _ ⟨⟩; exact finish_lits (k1 g1.cur.constPool (by simp)))
        · exact k1 p (by
            have hp : p ∈ ls.map (·.constPool) := hp
            simp only [List.map_cons, List.mem_cons]; exact .inr (.inr hp))
  | _ => simp [h1] at hx

theorem externTail (x : String) (xsp : Span) : GL P (do
    if !(← GM.isGlobal) then GM.throw (.name (.externalNotGlobal x)) xsp
    else
      let i ← GM.onG' fun g => g.addGlobal x
      let g ← GM.getG
      if i ∈ g.externals then GM.throw (.name (.externalRedefined x)) xsp
      else
        GM.onG fun g => { g with externals := i :: g.externals }
        GM.emit1 (.defineGlobalDefaulted i) xsp) :=
  bind isGlobal fun _ => ite throw (bind (addGlobal x) fun _ => bind getG fun _ => ite throw (bind (onG fun _ => ⟨rfl, rfl⟩) fun _ => emit1))

end GL

/-- Literals and what the compiler makes of them: `-` before a number and `!` before a truth value are computed. -/
structure Covers (cfg : Cfg) (P : Literal → Prop) (ls : List Literal) : Prop where
  all : ∀ l ∈ ls, P l
  int : ∀ n, P (.int n)
  float : ∀ x, P (.float x)
  bool : ∀ b, P (.bool b)

theorem Covers.left {cfg : Cfg} {P : Literal → Prop} {a b : List Literal} (h : Covers cfg P (a ++ b)) : Covers cfg P a := ⟨fun l hl => h.all l (List.mem_append_left _ hl), h.int, h.float, h.bool⟩
theorem Covers.right {cfg : Cfg} {P : Literal → Prop} {a b : List Literal} (h : Covers cfg P (a ++ b)) : Covers cfg P b := ⟨fun l hl => h.all l (List.mem_append_right _ hl), h.int, h.float, h.bool⟩

mutual
theorem gl_node (cfg : Cfg) (P : Literal → Prop) : ∀ (n : Node) (m : Mode), Covers cfg P n.lits → GL P (genNode cfg true m n)
  | .lit sp l, m, h => by
    unfold genNode
    have hl : P l := h.all l (by simp [Node.lits])
    refine GL.gexprIn ?_
    cases l with
    | none => exact GL.emit1
    | _ => exact GL.loadLit hl _
  | .ident sp x, m, h => by unfold genNode; exact GL.gexprIn (GL.getVariable x sp)
  | .assign sp (x, xsp) e, m, h => by unfold Node.lits at h; unfold genNode; exact GL.gexprIn (GL.bind (gl_node cfg P e .expr h) fun _ => GL.setVariable x xsp)
  | .un sp op e, m, h => by
    unfold Node.lits at h
    unfold genNode
    refine GL.gexprIn ?_
    cases hf : foldUnary cfg op e with
    | some r =>
      cases r with
      | ok l =>
        refine GL.loadLit ?_ _
        unfold foldUnary at hf
        split at hf
        · split at hf
          · simp at hf
          · cases hf; exact h.int _
        · cases hf; exact h.float _
        · cases hf; exact h.bool _
        · cases hf
      | err => exact GL.panic
      | panic => exact GL.panic
    | none => exact GL.bind (gl_node cfg P e .expr h) fun _ => GL.ite GL.emit1 GL.panic
  | .bin sp op a b, m, h => by
    unfold Node.lits at h
    unfold genNode
    exact GL.gexprIn (GL.bind (gl_node cfg P a .expr h.left) fun _ => GL.bind (gl_node cfg P b .expr h.right) fun _ => GL.ite GL.panic GL.emit1)
  | .pair sp a b, m, h => by
    unfold Node.lits at h
    unfold genNode
    exact GL.gexprIn (GL.bind (gl_node cfg P a .expr h.left) fun _ => GL.bind (gl_node cfg P b .expr h.right) fun _ => GL.emit1)
  | .range sp a b, m, h => by
    unfold Node.lits at h
    unfold genNode
    exact GL.gexprIn (GL.bind (gl_node cfg P a .expr h.left) fun _ => GL.bind (gl_node cfg P b .expr h.right) fun _ => GL.emit1)
  | .index sp a b, m, h => by
    unfold Node.lits at h
    unfold genNode
    exact GL.gexprIn (GL.bind (gl_node cfg P b .expr h.right) fun _ => GL.bind (gl_node cfg P a .expr h.left) fun _ => GL.emit1)
  | .array sp items, m, h => by
    unfold Node.lits at h
    unfold genNode
    exact GL.gexprIn (GL.ite GL.throw (GL.bind (gl_rev cfg P items h) fun _ => GL.emit1))
  | .block sp body, m, h => by unfold Node.lits at h; unfold genNode; exact GL.gexprIn (GL.inScope (gl_stmts cfg P body h))
  | .call sp f args, m, h => by
    unfold Node.lits at h
    unfold genNode
    exact GL.gexprIn (GL.ite GL.throw (GL.bind (gl_node cfg P f .expr h.left) fun _ => GL.bind (gl_args cfg P args h.right) fun _ => GL.emit1))
  | .builtin sp x args, m, h => by
    unfold Node.lits at h
    unfold genNode
    exact GL.gexprIn (GL.ite GL.throw (GL.bind (gl_args cfg P args h) fun _ => GL.bind (GL.addGlobal x.1) fun i => GL.emit))
  | .ctx sp x args v body, m, h => by
    unfold Node.lits at h
    unfold genNode
    exact GL.gexprIn (GL.ite GL.throw (GL.bind (gl_args cfg P args h.left) fun _ => GL.bind (GL.addGlobal x.1) fun i =>
      GL.bind GL.emit fun _ => GL.bind GL.enterScope fun _ => GL.bind (GL.ctxVar sp x.2 v) fun _ =>
      GL.bind (gl_stmts cfg P body h.right) fun _ => GL.bind (GL.exitScope sp) fun _ => GL.emit1))
  | .cond sp c th el, m, h => by
    unfold Node.lits at h
    unfold genNode
    exact GL.gexprIn (GL.bind GL.emit1 fun _ => GL.bind (gl_node cfg P c .expr h.left) fun _ =>
      GL.bind (GL.sub (GL.inScope (gl_stmts cfg P th h.right.left))) fun a => GL.ite GL.throw
      (GL.bind (GL.sub (gl_else cfg P sp el h.right.right)) fun b => GL.ite GL.throw GL.emit))
  | .switch sp v cs d, m, h => by
    unfold Node.lits at h
    unfold genNode
    exact GL.gexprIn (GL.bind GL.emit1 fun _ => GL.bind (gl_node cfg P v .expr h.left) fun _ =>
      GL.bind (gl_cases cfg P cs h.right.left) fun ps => GL.bind (GL.sub (gl_else cfg P sp d h.right.right)) fun b => GL.ite GL.throw GL.emit)
  | .while sp c body, m, h => by
    unfold Node.lits at h
    unfold genNode
    exact GL.gexprIn (GL.bind GL.emit1 fun _ => GL.bind (GL.sub (gl_node cfg P c .expr h.left)) fun cc => GL.bind (GL.sub (GL.inScope (gl_stmts cfg P body h.right))) fun b =>
      GL.ite GL.throw GL.emit)
  | .forIn sp (x, xsp) it body, m, h => by
    unfold Node.lits at h
    unfold genNode
    exact GL.gexprIn (GL.bind GL.enterScope fun _ => GL.bind GL.reserveTemp fun _ => GL.bind GL.reserveTemp fun _ =>
      GL.bind GL.emit1 fun _ => GL.bind (gl_node cfg P it .expr h.left) fun _ => GL.bind GL.enterScope fun _ => GL.bind GL.emit1 fun _ =>
      GL.bind (GL.sub (GL.bind GL.emit1 fun _ => GL.bind (GL.defineLocals [x]) fun _ => GL.bind (gl_stmts cfg P body h.right) fun _ => GL.exitScope sp)) fun b =>
      GL.ite GL.throw (GL.bind GL.emit fun _ => GL.exitScope sp))
  | .forMulti sp xs it body, m, h => by
    unfold Node.lits at h
    unfold genNode
    exact GL.gexprIn (GL.bind GL.enterScope fun _ => GL.ite GL.throw (GL.bind GL.reserveTemp fun _ => GL.bind GL.reserveTemp fun _ =>
      GL.bind GL.emit1 fun _ => GL.bind (gl_node cfg P it .expr h.left) fun _ => GL.bind GL.enterScope fun _ => GL.bind GL.emit1 fun _ =>
      GL.bind (GL.sub (GL.bind GL.emit1 fun _ => GL.bind GL.emit1 fun _ => GL.bind (GL.defineLocals (xs.map Prod.fst).reverse) fun _ => GL.bind (gl_stmts cfg P body h.right) fun _ => GL.exitScope sp)) fun b =>
      GL.ite GL.throw (GL.bind GL.emit fun _ => GL.exitScope sp)))
  | .lambda sp ps body, m, h => by
    unfold Node.lits at h
    unfold genNode
    exact GL.gexprIn (GL.ite GL.throw (GL.func (gl_stmts cfg P body h)))
  | .func sp name ps body, m, h => by
    unfold Node.lits at h
    unfold genNode
    exact GL.gstmtIn (GL.ite GL.throw (GL.bind (GL.func (gl_stmts cfg P body h)) fun _ => GL.bind GL.isGlobal fun b =>
      GL.ite (GL.defineGlobal name.1 sp) (GL.bind (GL.defineLocals [name.1]) fun _ => GL.setVariable name.1 sp)))
  | .decl sp v e, m, h => by
    unfold Node.lits at h
    unfold genNode
    exact GL.gstmtIn (GL.bind (gl_node cfg P e .expr h) fun _ => GL.declVar sp v)
  | .extern sp (x, xsp) e, m, h => by
    unfold Node.lits at h
    unfold genNode
    exact GL.gstmtIn (GL.bind (gl_node cfg P e .expr h) fun _ => GL.externTail x xsp)
  | .include sp (x, xsp) body, m, h => by
    unfold Node.lits at h
    unfold genNode
    exact GL.gstmtIn (GL.bind GL.getG fun g => GL.ite GL.throw (gl_incl cfg P x xsp body h))
  | .ret sp e, m, h => by
    unfold Node.lits at h
    unfold genNode
    exact GL.gstmtIn (GL.bind GL.getG fun g => GL.ite GL.throw (GL.bind (gl_opt cfg P sp e h) fun _ => GL.emit1))
termination_by structural n => n
theorem gl_stmts (cfg : Cfg) (P : Literal → Prop) : ∀ (ns : List Node), Covers cfg P (litsL ns) → GL P (genStmts cfg true ns)
  | [], _ => by unfold genStmts; exact GL.pure
  | [n], h => by unfold litsL at h; unfold genStmts; exact GL.bind (gl_node cfg P n _ h.left) fun _ => GL.pure
  | n :: n' :: ns, h => by unfold litsL at h; unfold genStmts; exact GL.bind (gl_node cfg P n _ h.left) fun _ => gl_stmts cfg P (n' :: ns) h.right
termination_by structural n => n
theorem gl_each (cfg : Cfg) (P : Literal → Prop) : ∀ (ns : List Node), Covers cfg P (litsL ns) → GL P (genEach cfg true ns)
  | [], _ => by unfold genEach; exact GL.pure
  | n :: ns, h => by unfold litsL at h; unfold genEach; exact GL.bind (gl_node cfg P n _ h.left) fun _ => gl_each cfg P ns h.right
termination_by structural n => n
theorem gl_args (cfg : Cfg) (P : Literal → Prop) : ∀ (ns : List Node), Covers cfg P (litsL ns) → GL P (genArgs cfg true ns)
  | [], _ => by unfold genArgs; exact GL.pure
  | n :: ns, h => by unfold litsL at h; unfold genArgs; exact GL.bind (gl_node cfg P n _ h.left) fun _ => gl_args cfg P ns h.right
termination_by structural n => n
theorem gl_rev (cfg : Cfg) (P : Literal → Prop) : ∀ (ns : List Node), Covers cfg P (litsL ns) → GL P (genRev cfg true ns)
  | [], _ => by unfold genRev; exact GL.pure
  | n :: ns, h => by unfold litsL at h; unfold genRev; exact GL.bind (gl_rev cfg P ns h.right) fun _ => gl_node cfg P n _ h.left
termination_by structural n => n
theorem gl_cases (cfg : Cfg) (P : Literal → Prop) : ∀ (cs : List (Node × List Node)), Covers cfg P (litsC cs) → GL P (genCases cfg true cs)
  | [], _ => by unfold genCases; exact GL.pure
  | (c, body) :: cs, h => by
    unfold litsC at h
    unfold genCases
    exact GL.bind (GL.sub (gl_node cfg P c .expr h.left.left)) fun cc => GL.bind (GL.sub (GL.inScope (gl_stmts cfg P body h.left.right))) fun b => GL.ite GL.throw
      (GL.bind (gl_cases cfg P cs h.right) fun ps => GL.pure)
termination_by structural n => n
theorem gl_else (cfg : Cfg) (P : Literal → Prop) (sp : Span) : ∀ (b : Option (List Node)), Covers cfg P (litsO b) → GL P (genElse cfg true sp b)
  | some body, h => by unfold litsO at h; unfold genElse; exact GL.bind GL.emit1 fun _ => GL.inScope (gl_stmts cfg P body h)
  | none, _ => by unfold genElse; exact GL.emit1
termination_by structural n => n
theorem gl_opt (cfg : Cfg) (P : Literal → Prop) (sp : Span) : ∀ (e : Option Node), Covers cfg P (litsE e) → GL P (genOpt cfg true sp e)
  | some e, h => by unfold litsE at h; unfold genOpt; exact gl_node cfg P e .expr h
  | none, _ => by unfold genOpt; exact GL.emit1
termination_by structural n => n
theorem gl_incl (cfg : Cfg) (P : Literal → Prop) (x : String) (xsp : Span) : ∀ (b : Option (List Node)), Covers cfg P (litsO b) → GL P (genIncl cfg true x xsp b)
  | some b, h => by unfold litsO at h; unfold genIncl; exact gl_each cfg P b h
  | none, _ => by unfold genIncl; exact GL.throw
termination_by structural n => n
end

/-- The literals among the constants of a compiled program are literals of the program, numbers or truth values. -/
theorem compile_lits {cfg : Cfg} {P : Literal → Prop} {ast : List Node} {script : Script} (hc : compile cfg ast = .ok script) (hsz : sizeL ast ≤ 65535)
    (hP : Covers cfg P (litsL ast)) : FnLits P script.fn := by
  unfold compile at hc
  generalize hst : (CState.new "@__main__").setMainSpan ast = st at hc
  have hg : st.g = (CState.new "@__main__").g := by
    rw [← hst]; unfold CState.setMainSpan; split <;> rfl
  have hsmall : GSmall 0 st.g := by
    rw [hg]
    refine ⟨⟨?_, ?_, ?_, Pool.inv_empty, ?_⟩, ?_, ?_, Pool.inv_empty⟩ <;> simp [CState.new, Pool.empty]
  have hl : LvsLits P st.g := by
    rw [hg]
    intro p hp
    simp only [CState.new, List.map_nil, List.mem_cons, List.not_mem_nil, or_false] at hp
    subst hp
    exact ⟨by simp [Pool.empty], by simp [Pool.empty]⟩
  cases hcs : compileStmts cfg ast st with
  | mk o st' =>
    rw [hcs] at hc
    cases o with
    | ok sp =>
      simp only [COut.ok.injEq] at hc
      obtain ⟨c, g', h1, h2, h3, h4⟩ := compile_gen hsmall (by omega) hcs
      subst h2
      rw [← hc]
      exact GL.finish_lits ((gl_stmts cfg P ast hP _ _ _ _ h1 hl).1 _ (List.mem_cons_self ..))
    | err e sp => simp at hc
    | panic => simp at hc

end Quilt
