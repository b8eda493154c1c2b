import Verif.Compiler.GenEq
import Verif.Compiler.GenInv

/-!
# What successful compilation says about a program
-/

namespace Quilt

/-- Number of names of a variable is at most 255. -/
def Var.within : Option Var → Bool
  | some (.many xs) => xs.length ≤ 255
  | _ => true

mutual
/-- At most 255 array elements, arguments, parameters and destructured names at every place of the
program; statements are not used as expressions; `extern` and `include` only outside of blocks and functions
(`top`), `return` only inside of them; includes are resolved. -/
def Node.within (top : Bool) : Node → Bool
  | .lit .. | .ident .. => true
  | .assign _ _ e | .un _ _ e => !e.isStatement && e.within top
  | .pair _ a b | .range _ a b | .bin _ _ a b | .index _ a b => (!a.isStatement && a.within top) && (!b.isStatement && b.within top)
  | .array _ items => items.length ≤ 255 && withinA top items
  | .block _ body => withinL false body
  | .cond _ c th el => (!c.isStatement && c.within top) && withinL false th && withinO false el
  | .switch _ v cs d => (!v.isStatement && v.within top) && withinC top cs && withinO false d
  | .while _ c b => (!c.isStatement && c.within top) && withinL false b
  | .forIn _ _ it b => (!it.isStatement && it.within false) && withinL false b
  | .forMulti _ xs it b => xs.length ≤ 255 && (!it.isStatement && it.within false) && withinL false b
  | .lambda _ ps b => ps.length ≤ 255 && withinL false b
  | .func _ _ ps b => ps.length ≤ 255 && withinL false b
  | .call _ f args => args.length ≤ 255 && (!f.isStatement && f.within top) && withinA top args
  | .builtin _ _ args => args.length ≤ 255 && withinA top args
  | .ctx _ _ args v b => args.length ≤ 255 && withinA top args && Var.within v && withinL false b
  | .decl _ v e => (!e.isStatement && e.within top) && Var.within (some v)
  | .extern _ _ e => top && (!e.isStatement && e.within top)
  | .include _ _ b => top && withinI top b
  | .ret _ e => !top && withinE top e
termination_by structural n => n
/-- Statements. -/
def withinL (top : Bool) : List Node → Bool
  | [] => true
  | n :: ns => n.within top && withinL top ns
termination_by structural n => n
/-- Expressions. -/
def withinA (top : Bool) : List Node → Bool
  | [] => true
  | n :: ns => (!n.isStatement && n.within top) && withinA top ns
termination_by structural n => n
def withinC (top : Bool) : List (Node × List Node) → Bool
  | [] => true
  | (c, b) :: cs => (!c.isStatement && c.within top) && withinL false b && withinC top cs
termination_by structural n => n
def withinO (top : Bool) : Option (List Node) → Bool
  | some b => withinL top b
  | none => true
termination_by structural n => n
def withinI (top : Bool) : Option (List Node) → Bool
  | some b => withinL top b
  | none => false
termination_by structural n => n
def withinE (top : Bool) : Option Node → Bool
  | some e => !e.isStatement && e.within top
  | none => true
termination_by structural n => n
end

/-- Names keep their numbers, external names stay external, enclosing functions stay. -/
structure GMono (g g' : GState) : Prop where
  ext : ∀ i ∈ g.externals, i ∈ g'.externals
  ids : ∀ x i, g.globals.id? x = some i → g'.globals.id? x = some i
  encl : g'.encl.map (·.depth) = g.encl.map (·.depth)

theorem GMono.refl (g : GState) : GMono g g := ⟨fun _ h => h, fun _ _ h => h, rfl⟩
theorem GMono.trans {a b c : GState} (h : GMono a b) (h' : GMono b c) : GMono a c :=
  ⟨fun i hi => h'.ext i (h.ext i hi), fun x i hi => h'.ids x i (h.ids x i hi), h'.encl.trans h.encl⟩

/-- From scope depth `k` the generator leads to depth `k'`; success implies `Q`. -/
def GD {α : Type} (k k' : Nat) (x : GM α) (Q : Prop := True) : Prop :=
  ∀ g, g.cur.depth = k → match x g with
    | .ok (_, _, g') => (g'.cur.depth = k' ∧ GMono g g') ∧ Q
    | .unfit => False
    | _ => True

theorem Pool.id_add {p : Pool String} {x y : String} {i : Nat} (h : p.id? x = some i) : (p.add y).2.id? x = some i := by
  unfold Pool.id? at h ⊢
  unfold Pool.add
  cases hl : Pool.lookup y p.dups with
  | some j => exact h
  | none =>
    simp only [Pool.lookup]
    by_cases hx : y = x
    · subst hx; rw [h] at hl; cases hl
    · rw [if_neg hx]; exact h

namespace GD
open GM
variable {α β : Type} {k k1 k2 k' : Nat} {P Q R : Prop}

theorem imp {x : GM α} (h : GD k k' x Q) (hq : Q → R) : GD k k' x R := by
  intro g hg
  have := h g hg
  revert this
  cases x g with
  | ok r => exact fun h => ⟨h.1, hq h.2⟩
  | _ => exact id

theorem bind {x : GM α} {f : α → GM β} (h : GD k k1 x Q) (hf : ∀ a, GD k1 k2 (f a) R) (hP : Q → R → P) : GD k k2 (x >>= f) P := by
  intro g hg
  have h1 := h g hg
  rw [bind_app]
  cases hx : x g with
  | ok r =>
    obtain ⟨a, c, g1⟩ := r
    rw [hx] at h1
    obtain ⟨⟨h2, h3⟩, h4⟩ := h1
    have h5 := hf a g1 h2
    simp only
    cases hy : f a g1 with
    | ok r =>
      obtain ⟨b, c', g2⟩ := r
      rw [hy] at h5
      exact ⟨⟨h5.1.1, h3.trans h5.1.2⟩, hP h4 h5.2⟩
    | unfit => rw [hy] at h5; exact h5
    | _ => trivial
  | unfit => rw [hx] at h1; exact h1
  | _ => trivial

theorem seq {x : GM α} {f : α → GM β} (h : GD k k1 x) (hf : ∀ a, GD k1 k2 (f a) P) : GD k k2 (x >>= f) P := bind h hf fun _ h => h

theorem pure {a : α} : GD k k (Pure.pure a : GM α) := fun g hg => ⟨⟨hg, .refl g⟩, trivial⟩
theorem throw {e : Err} {sp : Span} : GD k k' (GM.throw e sp : GM α) Q := fun _ _ => trivial
theorem panic : GD k k' (GM.panic : GM α) Q := fun _ _ => trivial
theorem emit {c : Code} : GD k k (GM.emit c) := fun g hg => ⟨⟨hg, .refl g⟩, trivial⟩
theorem emit1 {i : Instr} {sp : Span} : GD k k (GM.emit1 i sp) := emit
theorem isGlobal : GD k k GM.isGlobal := fun g hg => ⟨⟨hg, .refl g⟩, trivial⟩

theorem sub {x : GM Unit} (h : GD k k' x Q) : GD k k' (GM.sub x) Q := by
  intro g hg
  have := h g hg
  simp only [GM.sub]
  cases hx : x g with
  | ok r => obtain ⟨u, c, g1⟩ := r; rw [hx] at this; exact this
  | unfit => rw [hx] at this; exact this
  | _ => trivial

theorem onG' {f : GState → α × GState} (h : ∀ g, g.cur.depth = k → (f g).2.cur.depth = k' ∧ GMono g (f g).2) : GD k k' (GM.onG' f) := fun g hg => ⟨h g hg, trivial⟩
theorem onG {f : GState → GState} (h : ∀ g, g.cur.depth = k → (f g).cur.depth = k' ∧ GMono g (f g)) : GD k k' (GM.onG f) := fun g hg => ⟨h g hg, trivial⟩

theorem ite {x y : GM α} {c : Prop} [Decidable c] (h : c → GD k k' x Q) (h' : ¬ c → GD k k' y Q) : GD k k' (if c then x else y) Q := by
  split
  · exact h ‹_›
  · exact h' ‹_›

theorem addConst (c : Const) : GD k k (GM.onG' fun g => g.addConst c) := onG' fun _ hg => ⟨hg, ⟨fun _ h => h, fun _ _ h => h, rfl⟩⟩
theorem addGlobal (x : String) : GD k k (GM.onG' fun g => g.addGlobal x) := onG' fun _ hg => ⟨hg, ⟨fun _ h => h, fun _ _ h => Pool.id_add h, rfl⟩⟩

theorem addUpvalue_depth (l : GLevel) (i : Nat) (b : Bool) (x : String) : (l.addUpvalue i b x).2.depth = l.depth := by
  unfold GLevel.addUpvalue; split <;> rfl

theorem resolveUp_depth {x : String} : ∀ {ps : List GLevel} {l : GLevel} {j : Nat} {l' : GLevel} {ps' : List GLevel}, resolveUp x l ps = some (j, l', ps') →
    l'.depth = l.depth ∧ ps'.map (·.depth) = ps.map (·.depth)
  | [], l, j, l', ps', h => by simp [resolveUp] at h
  | p :: ps, l, j, l', ps', h => by
    simp only [resolveUp] at h
    cases hi : lastIdx x p.locals with
    | some i =>
      simp only [hi, Option.some.injEq, Prod.mk.injEq] at h
      obtain ⟨rfl, rfl, rfl⟩ := h
      exact ⟨addUpvalue_depth _ _ _ _, rfl⟩
    | none =>
      simp only [hi] at h
      cases hr : resolveUp x p ps with
      | none => simp [hr] at h
      | some r =>
        obtain ⟨i, p', ps''⟩ := r
        obtain ⟨k1, k2⟩ := resolveUp_depth hr
        simp only [hr, Option.some.injEq, Prod.mk.injEq] at h
        obtain ⟨rfl, rfl, rfl⟩ := h
        exact ⟨addUpvalue_depth _ _ _ _, by simp [k1, k2]⟩

theorem resolve (x : String) : GD k k (GM.onG' fun g => g.resolve x) := by
  refine onG' fun g hg => ?_
  simp only [GState.resolve]
  split
  · exact ⟨hg, .refl g⟩
  · split
    · rename_i h
      obtain ⟨h1, h2⟩ := resolveUp_depth h
      exact ⟨h1.trans hg, ⟨fun _ h => h, fun _ _ h => h, h2⟩⟩
    · exact ⟨hg, ⟨fun _ h => h, fun _ _ h => Pool.id_add h, rfl⟩⟩

theorem getVariable (x : String) (sp : Span) : GD k k (GM.getVariable x sp) := seq (resolve x) fun _ => emit1
theorem setVariable (x : String) (sp : Span) : GD k k (GM.setVariable x sp) := seq (resolve x) fun _ => emit1

theorem defineLocals_same : ∀ (xs : List String) (g : GState), (g.defineLocals xs).cur.depth = g.cur.depth ∧ (g.defineLocals xs).encl = g.encl ∧
    (g.defineLocals xs).globals = g.globals ∧ (g.defineLocals xs).externals = g.externals
  | [], _ => ⟨rfl, rfl, rfl, rfl⟩
  | x :: xs, g => defineLocals_same xs (g.defineLocal x)

theorem defineLocals (xs : List String) : GD k k (GM.defineLocals xs) := onG fun g hg => by
  obtain ⟨h1, h2, h3, h4⟩ := defineLocals_same xs g
  exact ⟨h1.trans hg, ⟨by rw [h4]; exact fun _ h => h, by rw [h3]; exact fun _ _ h => h, by rw [h2]⟩⟩
theorem defineGlobal (x : String) (sp : Span) : GD k k (GM.defineGlobal x sp) := seq (addGlobal x) fun _ => emit1
theorem defineGlobals : ∀ xs : List Name, GD k k (GM.defineGlobals xs)
  | [] => pure
  | (x, sp) :: xs => seq (defineGlobal x sp) fun _ => defineGlobals xs

theorem enterScope : GD k (k + 1) (GM.onG GState.enterScope) := onG fun g hg => ⟨by show g.cur.depth + 1 = k + 1; omega, ⟨fun _ h => h, fun _ _ h => h, rfl⟩⟩
theorem reserveTemp : GD k k (GM.onG GState.reserveTemp) := onG fun _ hg => ⟨hg, ⟨fun _ h => h, fun _ _ h => h, rfl⟩⟩
theorem exitScope (sp : Span) : GD (k + 1) k (GM.exitScope sp) := fun g hg =>
  ⟨⟨by show g.cur.depth - 1 = k; omega, ⟨fun _ h => h, fun _ _ h => h, rfl⟩⟩, trivial⟩

theorem inScope {body : GM Span} (h : GD (k + 1) (k + 1) body Q) : GD k k (GM.inScope body) Q :=
  seq enterScope fun _ => bind h (fun s => exitScope s) fun h _ => h

theorem ctxVar (sp csp : Span) : ∀ v : Option Var, GD k k (GM.ctxVar sp csp v) (Var.within v = true)
  | some (.one (y, ysp)) => (seq (defineLocals [y]) fun _ => setVariable y ysp).imp fun _ => rfl
  | some (.many xs) => ite (fun _ => throw) fun h => bind emit1 (fun _ => defineLocals (xs.map Prod.fst).reverse) fun _ _ => by simp [Var.within]; omega
  | none => emit1.imp fun _ => rfl

theorem declVar (sp : Span) : ∀ v : Var, GD k k (GM.declVar sp v) (Var.within (some v) = true)
  | .one (x, xsp) => (seq isGlobal fun _ => ite (fun _ => defineGlobal x xsp) fun _ => seq (defineLocals [x]) fun _ => setVariable x xsp).imp fun _ => rfl
  | .many xs => by
    refine ite (fun _ => throw) fun h => bind emit1 (R := True) (fun _ => seq isGlobal fun b => ?_) fun _ _ => by simp [Var.within]; omega
    show GD k k (if b = true then GM.defineGlobals xs else GM.defineLocals (xs.map Prod.fst).reverse)
    exact ite (fun _ => defineGlobals xs) fun _ => defineLocals (xs.map Prod.fst).reverse

theorem gexprIn {m : Mode} {sp : Span} {act : GM Unit} (h : GD k k act Q) : GD k k (Quilt.gexprIn m sp act) Q :=
  bind h (fun _ => (ite (fun _ => emit1) fun _ => pure)) fun h _ => h

theorem gstmtIn {m : Mode} {sp : Span} {act : GM Unit} (h : GD k k act Q) : GD k k (Quilt.gstmtIn m sp act) Q := by
  cases m with
  | expr => exact throw
  | stmt => exact h

theorem func {name : Name} {params : List Name} {sp : Span} {body : GM Span} (h : GD (k + 1) (k + 1) body Q) : GD k k (GM.func false name params sp body) Q := by
  intro g hg
  obtain ⟨e1, e2, e3, e4⟩ := defineLocals_same (name.1 :: params.map Prod.fst) ({ g with cur := GLevel.fresh g.cur.depth, encl := g.cur :: g.encl } : GState)
  have hb := h (g.enterFn name.1 (params.map Prod.fst)) (by
    show (GState.defineLocals _ _).cur.depth = _
    rw [e1]; show g.cur.depth + 1 = _; omega)
  simp only [GM.func]
  cases hx : body (g.enterFn name.1 (params.map Prod.fst)) with
  | ok r =>
    obtain ⟨s, cb, g1⟩ := r
    rw [hx] at hb
    obtain ⟨⟨_, b2⟩, b3⟩ := hb
    have b4 : g1.encl.map (·.depth) = g.cur.depth :: g.encl.map (·.depth) := by
      rw [b2.encl]; show (GState.defineLocals _ _).encl.map _ = _; rw [e2]; rfl
    simp only
    cases he : g1.encl with
    | nil => trivial
    | cons l ls =>
      rw [he, List.map_cons, List.cons.injEq] at b4
      simp only [Bool.false_and, Bool.false_eq_true, if_false]
      refine ⟨⟨by show l.depth = k; omega, ⟨fun i hi => b2.ext i ?_, fun x i hi => b2.ids x i ?_, b4.2⟩⟩, b3⟩
      · show i ∈ (GState.defineLocals _ _).externals
        rw [e4]; exact hi
      · show (GState.defineLocals _ _).globals.id? x = _
        rw [e3]; exact hi
  | unfit => rw [hx] at hb; exact hb
  | _ => trivial

theorem externTail (x : String) (xsp : Span) : GD k k (do
    if !(← GM.isGlobal) then GM.throw (.name (.externalNotGlobal x)) xsp
    else
      let i ← GM.onG' fun g => g.addGlobal x
      let g ← GM.getG
      if i ∈ g.externals then GM.throw (.name (.externalRedefined x)) xsp
      else
        GM.onG fun g => { g with externals := i :: g.externals }
        GM.emit1 (.defineGlobalDefaulted i) xsp) (k = 0) := by
  have tail : GD k k (do
      let i ← GM.onG' fun g => g.addGlobal x
      let g ← GM.getG
      if i ∈ g.externals then GM.throw (.name (.externalRedefined x)) xsp
      else
        GM.onG fun g => { g with externals := i :: g.externals }
        GM.emit1 (.defineGlobalDefaulted i) xsp) := by
    refine seq (addGlobal x) fun i => seq (fun g hg => ⟨⟨hg, .refl g⟩, trivial⟩ : GD k k GM.getG) fun g => ite (fun _ => throw) fun _ => ?_
    exact seq (onG fun g hg => ⟨hg, ⟨fun _ h => List.mem_cons_of_mem _ h, fun _ _ h => h, rfl⟩⟩) fun _ => emit1
  intro g hg
  rw [bind_app]
  simp only [GM.isGlobal]
  by_cases h0 : g.cur.depth = 0
  · have := tail g hg
    simp only [h0, decide_true, Bool.not_true, Bool.false_eq_true, if_false]
    revert this
    generalize (do
      let i ← GM.onG' fun g => g.addGlobal x
      let g ← GM.getG
      if i ∈ g.externals then GM.throw (.name (.externalRedefined x)) xsp
      else
        GM.onG fun g => { g with externals := i :: g.externals }
        GM.emit1 (.defineGlobalDefaulted i) xsp : GM Unit) = y
    cases y g with
    | ok r => exact fun h => ⟨h.1, by omega⟩
    | _ => exact id
  · simp [h0, GM.throw]

end GD

theorem fold_lit {cfg : Cfg} {op : Op} {e : Node} {r : Res Literal} (h : foldUnary cfg op e = some r) : ∃ sp l, e = .lit sp l := by
  unfold foldUnary at h
  split at h
  · exact ⟨_, _, rfl⟩
  · exact ⟨_, _, rfl⟩
  · exact ⟨_, _, rfl⟩
  · cases h

abbrev atTop (k : Nat) : Bool := decide (k = 0)

/-- Compiling a statement as an expression is an error. -/
theorem GD.noStmt {cfg : Cfg} {n : Node} {k : Nat} {t : Bool} (h : GD k k (genNode cfg false .expr n) (n.within t = true)) :
    GD k k (genNode cfg false .expr n) ((!n.isStatement && n.within t) = true) := by
  cases n with
  | func | decl | extern | «include» | ret => unfold genNode; exact GD.throw
  | _ => exact h

theorem GD.retTop {sp : Span} {x : GM Unit} {k : Nat} {Q : Prop} (h : GD k k x Q) : GD k k (do
    let g ← GM.getG
    if g.cur.depth = 0 then GM.throw (.syntax .returnOutsideFunction) sp else x) ((!atTop k) = true ∧ Q) := by
  intro g hg
  rw [GM.bind_app]
  simp only [GM.getG, hg]
  by_cases h0 : k = 0
  · rw [if_pos h0]; trivial
  · rw [if_neg h0]
    have := h g hg
    revert this
    cases x g with
    | ok r => exact fun h => ⟨h.1, by simp [h0], h.2⟩
    | _ => exact id

mutual
theorem gd_node (cfg : Cfg) : ∀ (n : Node) (m : Mode) (k : Nat), GD k k (genNode cfg false m n) (n.within (atTop k) = true)
  | .lit sp l, m, k => by
    unfold genNode Node.within
    refine GD.imp (GD.gexprIn (Q := True) ?_) fun _ => rfl
    cases l with
    | none => exact GD.emit1
    | _ => exact GD.seq (GD.addConst _) fun i => GD.emit1
  | .ident sp x, m, k => by unfold genNode Node.within; exact GD.imp (GD.gexprIn (GD.getVariable x sp)) fun _ => rfl
  | .assign sp (x, xsp) e, m, k => by
    unfold genNode Node.within
    exact GD.gexprIn (GD.bind (gd_node cfg e .expr k).noStmt (fun _ => GD.setVariable x xsp) fun h _ => h)
  | .un sp op e, m, k => by
    unfold genNode Node.within
    refine GD.gexprIn ?_
    cases hf : foldUnary cfg op e with
    | some r =>
      obtain ⟨sp', l', rfl⟩ := fold_lit hf
      cases r with
      | ok l => exact GD.bind (GD.addConst _) (fun i => GD.emit1) fun _ _ => by unfold Node.within; rfl
      | err => exact GD.panic
      | panic => exact GD.panic
    | none => exact GD.bind (gd_node cfg e .expr k).noStmt (R := True) (fun _ => GD.ite (fun h => GD.emit1) fun _ => GD.panic) fun h _ => h
  | .bin sp op a b, m, k => by
    unfold genNode Node.within
    exact GD.gexprIn (GD.bind (gd_node cfg a .expr k).noStmt (fun _ => GD.bind (gd_node cfg b .expr k).noStmt (R := True) (fun _ => GD.ite (fun _ => GD.panic) fun h => GD.emit1) fun h _ => h) fun h h' => by simp [h, h'])
  | .pair sp a b, m, k => by
    unfold genNode Node.within
    exact GD.gexprIn (GD.bind (gd_node cfg a .expr k).noStmt (fun _ => GD.bind (gd_node cfg b .expr k).noStmt (fun _ => GD.emit1) fun h _ => h) fun h h' => by simp [h, h'])
  | .range sp a b, m, k => by
    unfold genNode Node.within
    exact GD.gexprIn (GD.bind (gd_node cfg a .expr k).noStmt (fun _ => GD.bind (gd_node cfg b .expr k).noStmt (fun _ => GD.emit1) fun h _ => h) fun h h' => by simp [h, h'])
  | .index sp a b, m, k => by
    unfold genNode Node.within
    exact GD.gexprIn (GD.bind (gd_node cfg b .expr k).noStmt (fun _ => GD.bind (gd_node cfg a .expr k).noStmt (fun _ => GD.emit1) fun h _ => h) fun h h' => by simp [h, h'])
  | .array sp items, m, k => by
    unfold genNode Node.within
    exact GD.gexprIn (GD.ite (fun _ => GD.throw) fun hl => GD.bind (gd_rev cfg items k) (fun _ => GD.emit1) fun h _ => by simp [h]; omega)
  | .block sp body, m, k => by
    unfold genNode Node.within
    exact GD.gexprIn (GD.inScope (gd_stmts cfg body (k + 1)))
  | .call sp f args, m, k => by
    unfold genNode Node.within
    exact GD.gexprIn (GD.ite (fun _ => GD.throw) fun hl => GD.bind (gd_node cfg f .expr k).noStmt (fun _ => GD.bind (gd_args cfg args k) (fun _ => GD.emit1) fun h _ => h) fun h h' => by simp [h, h']; omega)
  | .builtin sp x args, m, k => by
    unfold genNode Node.within
    exact GD.gexprIn (GD.ite (fun _ => GD.throw) fun hl => GD.bind (gd_args cfg args k) (R := True) (fun _ => GD.seq (GD.addGlobal x.1) fun i => GD.emit) fun h _ => by simp [h]; omega)
  | .ctx sp x args v body, m, k => by
    unfold genNode Node.within
    refine GD.gexprIn (GD.ite (fun _ => GD.throw) fun hl => GD.bind (gd_args cfg args k) (R := Var.within v = true ∧ withinL false body = true) (fun _ => GD.seq (GD.addGlobal x.1) fun i =>
      GD.seq GD.emit fun _ => GD.seq GD.enterScope fun _ => GD.bind (GD.ctxVar sp x.2 v) (fun _ => GD.bind (gd_stmts cfg body (k + 1)) (R := True) (fun _ => GD.seq (GD.exitScope sp) fun _ => GD.emit1) fun h _ => h) ?_) ?_)
    · exact fun h h' => ⟨h, h'⟩
    · intro h h'; simp [h, h'.1, h'.2]; omega
  | .cond sp c th el, m, k => by
    unfold genNode Node.within
    refine GD.gexprIn (GD.seq GD.emit1 fun _ => GD.bind (gd_node cfg c .expr k).noStmt (R := withinL false th = true ∧ withinO false el = true) (fun _ => ?_) ?_)
    · refine GD.bind (GD.sub (GD.inScope (gd_stmts cfg th (k + 1)))) (R := withinO false el = true) (fun a => GD.ite (fun _ => GD.throw) fun _ => ?_) fun h h' => ⟨h, h'⟩
      exact GD.bind (GD.sub (gd_else cfg sp el k)) (R := True) (fun b => GD.ite (fun _ => GD.throw) fun _ => GD.emit) fun h _ => h
    · intro h h'; simp [h, h'.1, h'.2]
  | .switch sp v cs d, m, k => by
    unfold genNode Node.within
    refine GD.gexprIn (GD.seq GD.emit1 fun _ => GD.bind (gd_node cfg v .expr k).noStmt (R := withinC (atTop k) cs = true ∧ withinO false d = true) (fun _ => ?_) ?_)
    · refine GD.bind (gd_cases cfg cs k) (R := withinO false d = true) (fun ps => ?_) fun h h' => ⟨h, h'⟩
      exact GD.bind (GD.sub (gd_else cfg sp d k)) (R := True) (fun b => GD.ite (fun _ => GD.throw) fun _ => GD.emit) fun h _ => h
    · intro h h'; simp [h, h'.1, h'.2]
  | .while sp c body, m, k => by
    unfold genNode Node.within
    refine GD.gexprIn (GD.seq GD.emit1 fun _ => GD.bind (GD.sub (gd_node cfg c .expr k).noStmt) (R := withinL false body = true) (fun _ => ?_) fun h h' => by simp [h, h'])
    exact GD.bind (GD.sub (GD.inScope (gd_stmts cfg body (k + 1)))) (R := True) (fun b => GD.ite (fun _ => GD.throw) fun _ => GD.emit) fun h _ => h
  | .forIn sp (x, xsp) it body, m, k => by
    unfold genNode Node.within
    refine GD.gexprIn (GD.seq GD.enterScope fun _ => GD.seq GD.reserveTemp fun _ => GD.seq GD.reserveTemp fun _ => GD.seq GD.emit1 fun _ =>
      GD.bind (gd_node cfg it .expr (k + 1)).noStmt (R := withinL false body = true) (fun _ => ?_) fun h h' => ?_)
    · refine GD.seq GD.enterScope fun _ => GD.seq GD.emit1 fun _ => GD.bind (k1 := k + 1) (GD.sub (Q := withinL false body = true) ?_) (R := True) (fun b => GD.ite (fun _ => GD.throw) fun _ => GD.seq GD.emit fun _ => GD.exitScope sp) fun h _ => h
      exact GD.seq GD.emit1 fun _ => GD.seq (GD.defineLocals [x]) fun _ => GD.bind (gd_stmts cfg body (k + 2)) (fun _ => GD.exitScope sp) fun h _ => h
    · have h : (!it.isStatement && it.within false) = true := h
      simp [h, h']
  | .forMulti sp xs it body, m, k => by
    unfold genNode Node.within
    refine GD.gexprIn (GD.seq GD.enterScope fun _ => GD.ite (fun _ => GD.throw) fun hl => GD.seq GD.reserveTemp fun _ => GD.seq GD.reserveTemp fun _ => GD.seq GD.emit1 fun _ =>
      GD.bind (gd_node cfg it .expr (k + 1)).noStmt (R := withinL false body = true) (fun _ => ?_) fun h h' => ?_)
    · refine GD.seq GD.enterScope fun _ => GD.seq GD.emit1 fun _ => GD.bind (k1 := k + 1) (GD.sub (Q := withinL false body = true) ?_) (R := True) (fun b => GD.ite (fun _ => GD.throw) fun _ => GD.seq GD.emit fun _ => GD.exitScope sp) fun h _ => h
      exact GD.seq GD.emit1 fun _ => GD.seq GD.emit1 fun _ => GD.seq (GD.defineLocals (xs.map Prod.fst).reverse) fun _ => GD.bind (gd_stmts cfg body (k + 2)) (fun _ => GD.exitScope sp) fun h _ => h
    · have h : (!it.isStatement && it.within false) = true := h
      simp [h, h']; omega
  | .lambda sp ps body, m, k => by
    unfold genNode Node.within
    exact GD.gexprIn (GD.ite (fun _ => GD.throw) fun hl => (GD.func (gd_stmts cfg body (k + 1))).imp fun h => by
      have h : withinL false body = true := h
      simp [h]; omega)
  | .func sp name ps body, m, k => by
    unfold genNode Node.within
    refine GD.gstmtIn (GD.ite (fun _ => GD.throw) fun hl => GD.bind (GD.func (gd_stmts cfg body (k + 1))) (R := True) (fun _ => GD.seq GD.isGlobal fun b =>
      GD.ite (fun _ => GD.defineGlobal name.1 sp) fun _ => GD.seq (GD.defineLocals [name.1]) fun _ => GD.setVariable name.1 sp) fun h _ => ?_)
    have h : withinL false body = true := h
    simp [h]; omega
  | .decl sp v e, m, k => by
    unfold genNode Node.within
    exact GD.gstmtIn (GD.bind (gd_node cfg e .expr k).noStmt (fun _ => GD.declVar sp v) fun h h' => by simp [h, h'])
  | .extern sp (x, xsp) e, m, k => by
    unfold genNode Node.within
    exact GD.gstmtIn (GD.bind (gd_node cfg e .expr k).noStmt (fun _ => GD.externTail x xsp) fun h h' => by subst h'; simpa using h)
  | .include sp (x, xsp) body, m, k => by
    unfold genNode Node.within
    refine GD.gstmtIn ?_
    intro g hg
    by_cases h0 : k = 0
    · have h := gd_incl cfg x xsp body k g hg
      subst h0
      rw [GM.bind_app]
      simp only [GM.getG, hg, Nat.lt_irrefl, gt_iff_lt, if_false]
      revert h
      generalize genIncl cfg false x xsp body = y
      cases y g with
      | ok r => exact fun h => ⟨h.1, by simpa using h.2⟩
      | _ => exact id
    · rw [GM.bind_app]
      simp only [GM.getG, hg]
      rw [if_pos (by omega)]
      trivial
  | .ret sp e, m, k => by
    unfold genNode Node.within
    exact GD.gstmtIn ((GD.retTop (GD.bind (gd_opt cfg sp e k) (fun _ => GD.emit1) fun h _ => h)).imp fun h => by simp [h.1, h.2])
termination_by structural n => n
theorem gd_stmts (cfg : Cfg) : ∀ (ns : List Node) (k : Nat), GD k k (genStmts cfg false ns) (withinL (atTop k) ns = true)
  | [], k => by unfold genStmts withinL; exact GD.pure.imp fun _ => rfl
  | [n], k => by
    unfold genStmts withinL
    exact GD.bind (gd_node cfg n _ k) (fun _ => GD.pure) fun h _ => by unfold withinL; simpa using h
  | n :: n' :: ns, k => by
    unfold genStmts withinL
    exact GD.bind (gd_node cfg n _ k) (fun _ => gd_stmts cfg (n' :: ns) k) fun h h' => by simp [h, h']
termination_by structural n => n
theorem gd_each (cfg : Cfg) : ∀ (ns : List Node) (k : Nat), GD k k (genEach cfg false ns) (withinL (atTop k) ns = true)
  | [], k => by unfold genEach withinL; exact GD.pure.imp fun _ => rfl
  | n :: ns, k => by
    unfold genEach withinL
    exact GD.bind (gd_node cfg n _ k) (fun _ => gd_each cfg ns k) fun h h' => by simp [h, h']
termination_by structural n => n
theorem gd_args (cfg : Cfg) : ∀ (ns : List Node) (k : Nat), GD k k (genArgs cfg false ns) (withinA (atTop k) ns = true)
  | [], k => by unfold genArgs withinA; exact GD.pure.imp fun _ => rfl
  | n :: ns, k => by
    unfold genArgs withinA
    exact GD.bind (gd_node cfg n .expr k).noStmt (fun _ => gd_args cfg ns k) fun h h' => by simp [h, h']
termination_by structural n => n
theorem gd_rev (cfg : Cfg) : ∀ (ns : List Node) (k : Nat), GD k k (genRev cfg false ns) (withinA (atTop k) ns = true)
  | [], k => by unfold genRev withinA; exact GD.pure.imp fun _ => rfl
  | n :: ns, k => by
    unfold genRev withinA
    exact GD.bind (gd_rev cfg ns k) (fun _ => (gd_node cfg n .expr k).noStmt) fun h h' => by simp [h, h']
termination_by structural n => n
theorem gd_cases (cfg : Cfg) : ∀ (cs : List (Node × List Node)) (k : Nat), GD k k (genCases cfg false cs) (withinC (atTop k) cs = true)
  | [], k => by unfold genCases withinC; exact GD.pure.imp fun _ => rfl
  | (c, body) :: cs, k => by
    unfold genCases withinC
    refine GD.bind (GD.sub (gd_node cfg c .expr k).noStmt) (R := withinL false body = true ∧ withinC (atTop k) cs = true) (fun cc => ?_) fun h h' => by simp [h, h'.1, h'.2]
    refine GD.bind (GD.sub (GD.inScope (gd_stmts cfg body (k + 1)))) (R := withinC (atTop k) cs = true) (fun b => GD.ite (fun _ => GD.throw) fun _ => ?_) fun h h' => ⟨h, h'⟩
    exact GD.bind (gd_cases cfg cs k) (R := True) (fun ps => GD.pure) fun h _ => h
termination_by structural n => n
theorem gd_else (cfg : Cfg) (sp : Span) : ∀ (b : Option (List Node)) (k : Nat), GD k k (genElse cfg false sp b) (withinO false b = true)
  | some body, k => by unfold genElse withinO; exact GD.seq GD.emit1 fun _ => GD.inScope (gd_stmts cfg body (k + 1))
  | none, k => by unfold genElse withinO; exact GD.emit1.imp fun _ => rfl
termination_by structural n => n
theorem gd_opt (cfg : Cfg) (sp : Span) : ∀ (e : Option Node) (k : Nat), GD k k (genOpt cfg false sp e) (withinE (atTop k) e = true)
  | some e, k => by unfold genOpt withinE; exact (gd_node cfg e .expr k).noStmt
  | none, k => by unfold genOpt withinE; exact GD.emit1.imp fun _ => rfl
termination_by structural n => n
theorem gd_incl (cfg : Cfg) (x : String) (xsp : Span) : ∀ (b : Option (List Node)) (k : Nat), GD k k (genIncl cfg false x xsp b) (withinI (atTop k) b = true)
  | some b, k => by unfold genIncl withinI; exact gd_each cfg b k
  | none, k => by unfold genIncl; exact GD.throw
termination_by structural n => n
end

mutual
/-- Names declared `extern` by a top-level statement. -/
def Node.externs : Node → List String
  | .extern _ x _ => [x.1]
  | .include _ _ b => externsO b
  | _ => []
termination_by structural n => n
def externsL : List Node → List String
  | [] => []
  | n :: ns => n.externs ++ externsL ns
termination_by structural n => n
def externsO : Option (List Node) → List String
  | some b => externsL b
  | none => []
termination_by structural n => n
end

/-- The names are external, and different. -/
def ExtNames (g : GState) (X : List String) : Prop := (∀ x ∈ X, ∃ i ∈ g.externals, g.globals.id? x = some i) ∧ X.Nodup

theorem ExtNames.mono {g g' : GState} {X : List String} (h : ExtNames g X) (hm : GMono g g') : ExtNames g' X :=
  ⟨fun x hx => by obtain ⟨i, h1, h2⟩ := h.1 x hx; exact ⟨i, hm.ext i h1, hm.ids x i h2⟩, h.2⟩

/-- Success at the top level extends the external names. -/
def GX {α : Type} (x : GM α) (Y : List String) : Prop :=
  ∀ g a c g' X, x g = .ok (a, c, g') → g.cur.depth = 0 → ExtNames g X → ExtNames g' (X ++ Y) ∧ g'.cur.depth = 0

theorem GX.of {α : Type} {x : GM α} {Q : Prop} (h : GD 0 0 x Q) : GX x [] := by
  intro g a c g' X hx hg hX
  have := h g hg
  rw [hx] at this
  exact ⟨by simpa using hX.mono this.1.2, this.1.1⟩

theorem GX.bind {α β : Type} {x : GM α} {f : α → GM β} {Y Z W : List String} (h : GX x Y) (hf : ∀ a, GX (f a) Z) (hW : W = Y ++ Z) : GX (x >>= f) W := by
  intro g b c g' X hx hg hX
  obtain ⟨a, c1, g1, c2, h1, h2, _⟩ := GM.bind_ok.1 hx
  obtain ⟨k1, k2⟩ := h g a c1 g1 X h1 hg hX
  obtain ⟨l1, l2⟩ := hf a g1 b c2 g' _ h2 k2 k1
  exact ⟨by rw [hW, ← List.append_assoc]; exact l1, l2⟩

theorem GX.gstmtIn {m : Mode} {sp : Span} {act : GM Unit} {Y : List String} (h : GX act Y) : GX (Quilt.gstmtIn m sp act) Y := by
  cases m with
  | expr => intro g a c g' X hx; simp [Quilt.gstmtIn, GM.throw] at hx
  | stmt => exact h

theorem Pool.id_add_self {p : Pool String} (x : String) : (p.add x).2.id? x = some (p.add x).1 := by
  unfold Pool.add Pool.id?
  cases hl : Pool.lookup x p.dups with
  | some j => simp [hl]
  | none => simp [Pool.lookup]

theorem GX.externTail (x : String) (xsp : Span) : GX (do
    if !(← GM.isGlobal) then GM.throw (.name (.externalNotGlobal x)) xsp
    else
      let i ← GM.onG' fun g => g.addGlobal x
      let g ← GM.getG
      if i ∈ g.externals then GM.throw (.name (.externalRedefined x)) xsp
      else
        GM.onG fun g => { g with externals := i :: g.externals }
        GM.emit1 (.defineGlobalDefaulted i) xsp) [x] := by
  intro g a c g' X hx hg hX
  simp only [GM.bind_ok, GM.isGlobal_ok] at hx
  obtain ⟨_, _, g0, _, ⟨rfl, _, e0⟩, hx, _⟩ := hx
  subst e0
  simp only [hg, decide_true, Bool.not_true, Bool.false_eq_true, if_false, GM.bind_ok, GM.onG'_ok, GM.getG_ok, GM.ite_throw_ok, GM.onG_ok, GM.emit1_ok] at hx
  obtain ⟨i, _, g1', _, ⟨_, h1⟩, ⟨_, _, g1, _, ⟨rfl, _, e3⟩, ⟨hi, _, _, _, _, ⟨_, rfl⟩, ⟨_, rfl⟩, _⟩, _⟩, _⟩ := hx
  subst e3
  have e1 : i = (g0.globals.add x).1 := (congrArg Prod.fst h1).symm
  have e2 : g1 = { g0 with globals := (g0.globals.add x).2 } := (congrArg Prod.snd h1).symm
  subst e2
  refine ⟨⟨?_, ?_⟩, hg⟩
  · intro y hy
    rcases List.mem_append.1 hy with hy | hy
    · obtain ⟨j, h2, h3⟩ := hX.1 y hy
      exact ⟨j, List.mem_cons_of_mem _ h2, Pool.id_add h3⟩
    · simp only [List.mem_singleton] at hy
      subst hy
      exact ⟨i, by simp, by rw [e1]; exact Pool.id_add_self y⟩
  · refine List.nodup_append.2 ⟨hX.2, by simp, ?_⟩
    intro y hy z hz
    simp only [List.mem_singleton] at hz
    subst hz
    rintro rfl
    obtain ⟨j, h2, h3⟩ := hX.1 y hy
    have h4 := Pool.id_add (y := y) h3
    rw [Pool.id_add_self] at h4
    simp only [Option.some.injEq] at h4
    exact hi (by rw [e1, h4]; exact h2)

mutual
theorem gx_node (cfg : Cfg) : ∀ (n : Node) (m : Mode), GX (genNode cfg false m n) n.externs
  | .extern sp (x, xsp) e, m => by
    unfold genNode Node.externs
    exact GX.gstmtIn (GX.bind (GX.of (gd_node cfg e .expr 0)) (fun _ => GX.externTail x xsp) rfl)
  | .include sp (x, xsp) body, m => by
    unfold genNode Node.externs
    refine GX.gstmtIn ?_
    intro g a c g' X hx hg hX
    simp only [GM.bind_ok, GM.getG_ok] at hx
    obtain ⟨_, _, g0, _, ⟨rfl, _, e0⟩, hx, _⟩ := hx
    subst e0
    rw [if_neg (by omega)] at hx
    exact gx_incl cfg x xsp body g0 a _ g' X hx hg hX
  | .lit sp l, m => by unfold Node.externs; exact GX.of (gd_node cfg _ m 0)
  | .ident .., m => by unfold Node.externs; exact GX.of (gd_node cfg _ m 0)
  | .assign .., m => by unfold Node.externs; exact GX.of (gd_node cfg _ m 0)
  | .un .., m => by unfold Node.externs; exact GX.of (gd_node cfg _ m 0)
  | .bin .., m => by unfold Node.externs; exact GX.of (gd_node cfg _ m 0)
  | .pair .., m => by unfold Node.externs; exact GX.of (gd_node cfg _ m 0)
  | .range .., m => by unfold Node.externs; exact GX.of (gd_node cfg _ m 0)
  | .index .., m => by unfold Node.externs; exact GX.of (gd_node cfg _ m 0)
  | .array .., m => by unfold Node.externs; exact GX.of (gd_node cfg _ m 0)
  | .block .., m => by unfold Node.externs; exact GX.of (gd_node cfg _ m 0)
  | .call .., m => by unfold Node.externs; exact GX.of (gd_node cfg _ m 0)
  | .builtin .., m => by unfold Node.externs; exact GX.of (gd_node cfg _ m 0)
  | .ctx .., m => by unfold Node.externs; exact GX.of (gd_node cfg _ m 0)
  | .cond .., m => by unfold Node.externs; exact GX.of (gd_node cfg _ m 0)
  | .switch .., m => by unfold Node.externs; exact GX.of (gd_node cfg _ m 0)
  | .while .., m => by unfold Node.externs; exact GX.of (gd_node cfg _ m 0)
  | .forIn .., m => by unfold Node.externs; exact GX.of (gd_node cfg _ m 0)
  | .forMulti .., m => by unfold Node.externs; exact GX.of (gd_node cfg _ m 0)
  | .lambda .., m => by unfold Node.externs; exact GX.of (gd_node cfg _ m 0)
  | .func .., m => by unfold Node.externs; exact GX.of (gd_node cfg _ m 0)
  | .decl .., m => by unfold Node.externs; exact GX.of (gd_node cfg _ m 0)
  | .ret .., m => by unfold Node.externs; exact GX.of (gd_node cfg _ m 0)
termination_by structural n => n
theorem gx_stmts (cfg : Cfg) : ∀ ns : List Node, GX (genStmts cfg false ns) (externsL ns)
  | [] => by unfold genStmts externsL; exact GX.of GD.pure
  | [n] => by
    unfold genStmts externsL
    exact GX.bind (gx_node cfg n _) (fun _ => GX.of GD.pure) (by unfold externsL; rfl)
  | n :: n' :: ns => by
    unfold genStmts externsL
    exact GX.bind (gx_node cfg n _) (fun _ => gx_stmts cfg (n' :: ns)) rfl
termination_by structural n => n
theorem gx_each (cfg : Cfg) : ∀ ns : List Node, GX (genEach cfg false ns) (externsL ns)
  | [] => by unfold genEach externsL; exact GX.of GD.pure
  | n :: ns => by
    unfold genEach externsL
    exact GX.bind (gx_node cfg n _) (fun _ => gx_each cfg ns) rfl
termination_by structural n => n
theorem gx_incl (cfg : Cfg) (x : String) (xsp : Span) : ∀ b : Option (List Node), GX (genIncl cfg false x xsp b) (externsO b)
  | some b => by unfold genIncl externsO; exact gx_each cfg b
  | none => by unfold genIncl; intro g a c g' X hx; simp [GM.throw] at hx
termination_by structural n => n
end

/-- Accepted programs respect the limits, whatever was compiled before. -/
theorem compileStmts_within {cfg : Cfg} {ast : List Node} {st st' : CState} {sp : Span} (h0 : st.g.cur.depth = 0) (h : compileStmts cfg ast st = (.ok sp, st')) :
    withinL true ast = true := by
  have hgd := gd_stmts cfg ast 0 st.g h0
  rcases (Ref.ref_stmts cfg false ast).elim st st.g rfl with ⟨a, c, g', h3, h4⟩ | ⟨e, sp', s', _, h4⟩ | ⟨s', _, h4⟩ | h3
  · rw [h3] at hgd; exact hgd.2
  · rw [h4] at h; simp at h
  · rw [h4] at h; simp at h
  · rw [h3] at hgd; exact hgd.elim

/-- Accepted programs respect the limits, and declare external names at most once. -/
theorem compile_accepts {cfg : Cfg} {ast : List Node} {script : Script} (h : compile cfg ast = .ok script) :
    withinL true ast = true ∧ (externsL ast).Nodup := by
  unfold compile at h
  generalize hst : (CState.new "@__main__").setMainSpan ast = st at h
  have hg : st.g = (CState.new "@__main__").g := by
    rw [← hst]; unfold CState.setMainSpan; split <;> rfl
  have h0 : st.g.cur.depth = 0 := by rw [hg]; rfl
  have hgd := gd_stmts cfg ast 0 st.g h0
  rcases (Ref.ref_stmts cfg false ast).elim st st.g rfl with ⟨a, c, g', h3, h4⟩ | ⟨e, sp', s', _, h4⟩ | ⟨s', _, h4⟩ | h3
  · rw [h3] at hgd
    refine ⟨hgd.2, ?_⟩
    have := (gx_stmts cfg ast st.g a c g' [] h3 h0 ⟨by simp, by simp⟩).1.2
    simpa using this
  · rw [h4] at h; simp at h
  · rw [h4] at h; simp at h
  · rw [h3] at hgd; exact hgd.elim

end Quilt
