import Verif.Compiler.Places
import Verif.Compiler.Lengths
import Verif.Compiler.GenExt

/-!
# Every error of code generation names a place at fault
-/

namespace Quilt

/-- The error is a fault of one of the places, or complains about a declaration of an external name. -/
def Blame (L : List Place) (e : Err) (sp : Span) : Prop :=
  (∃ p ∈ L, Fault p e sp) ∨ ∃ sp' x n, e = .name (.externalRedefined x) ∧ ⟨.extern sp' (x, sp) n, false, true⟩ ∈ L

theorem Blame.of {L : List Place} {p : Place} {e : Err} {sp : Span} (h : p ∈ L) (hf : Fault p e sp) : Blame L e sp := .inl ⟨p, h, hf⟩

/-- Errors from states satisfying the invariant, at scope depth `k`, are faults. -/
def GE {α : Type} (L : List Place) (k : Nat) (x : GM α) : Prop :=
  ∀ g, GInv g → g.cur.depth = k → ∀ e sp, x g = .err e sp → Blame L e sp

/-- Errors from all states are faults. -/
def GE0 {α : Type} (L : List Place) (x : GM α) : Prop := ∀ g e sp, x g = .err e sp → Blame L e sp

/-- The invariant is kept, the depth becomes `k'`, and results satisfy `P`. -/
def GI {α : Type} (k k' : Nat) (x : GM α) (P : α → Prop := fun _ => True) : Prop :=
  ∀ g a c g', GInv g → g.cur.depth = k → x g = .ok (a, c, g') → GInv g' ∧ g'.cur.depth = k' ∧ P a

/-- The mode of an expression. -/
def Mode.isExpr : Mode → Bool
  | .expr => true
  | .stmt _ => false

namespace GM

theorem bind_err {α β : Type} {x : GM α} {f : α → GM β} {g : GState} {e : Err} {sp : Span} (h : (x >>= f) g = .err e sp) :
    x g = .err e sp ∨ ∃ a c g', x g = .ok (a, c, g') ∧ f a g' = .err e sp := by
  rw [bind_app] at h
  cases hx : x g with
  | ok r =>
    obtain ⟨a, c, g'⟩ := r
    rw [hx] at h
    simp only at h
    cases hy : f a g' with
    | ok r => rw [hy] at h; cases h
    | err e' sp' => rw [hy] at h; simp only [GRes.err.injEq] at h; exact .inr ⟨a, c, g', rfl, by rw [hy, h.1, h.2]⟩
    | panic => rw [hy] at h; cases h
    | unfit => rw [hy] at h; cases h
  | err e' sp' => rw [hx] at h; simp only [GRes.err.injEq] at h; exact .inl (by rw [h.1, h.2])
  | panic => rw [hx] at h; cases h
  | unfit => rw [hx] at h; cases h

theorem sub_err {x : GM Unit} {g : GState} {e : Err} {sp : Span} (h : sub x g = .err e sp) : x g = .err e sp := by
  unfold sub at h
  cases hx : x g with
  | ok r => rw [hx] at h; cases h
  | err e' sp' => rw [hx] at h; simp only [GRes.err.injEq] at h; rw [h.1, h.2]
  | panic => rw [hx] at h; cases h
  | unfit => rw [hx] at h; cases h

end GM

section
open GM
variable {α β : Type} {L : List Place} {k k1 k' : Nat}

theorem GE0.ge {x : GM α} (h : GE0 L x) : GE L k x := fun g _ _ e sp hx => h g e sp hx

theorem GE.bind {x : GM α} {f : α → GM β} {P : α → Prop} (h : GE L k x) (hi : GI k k1 x P) (hf : ∀ a, P a → GE L k1 (f a)) : GE L k (x >>= f) := by
  intro g hg hk e sp hx
  rcases bind_err hx with h1 | ⟨a, c, g', h1, h2⟩
  · exact h g hg hk e sp h1
  · obtain ⟨h3, h4, h5⟩ := hi g a c g' hg hk h1
    exact hf a h5 g' h3 h4 e sp h2

theorem GE.last {x : GM α} {f : α → GM β} (h : GE L k x) (hf : ∀ a, GE0 L (f a)) : GE L k (x >>= f) := by
  intro g hg hk e sp hx
  rcases bind_err hx with h1 | ⟨a, c, g', h1, h2⟩
  · exact h g hg hk e sp h1
  · exact hf a g' e sp h2

theorem GE0.bind {x : GM α} {f : α → GM β} (h : GE0 L x) (hf : ∀ a, GE0 L (f a)) : GE0 L (x >>= f) := by
  intro g e sp hx
  rcases bind_err hx with h1 | ⟨a, c, g', h1, h2⟩
  · exact h g e sp h1
  · exact hf a g' e sp h2

theorem GE.sub {x : GM Unit} (h : GE L k x) : GE L k (GM.sub x) := fun g hg hk e sp hx => h g hg hk e sp (sub_err hx)

theorem GE.ite {x y : GM α} {c : Prop} [Decidable c] (h : c → GE L k x) (h' : ¬ c → GE L k y) : GE L k (if c then x else y) := by
  split
  · exact h ‹_›
  · exact h' ‹_›
theorem GE0.ite {x y : GM α} {c : Prop} [Decidable c] (h : c → GE0 L x) (h' : ¬ c → GE0 L y) : GE0 L (if c then x else y) := by
  split
  · exact h ‹_›
  · exact h' ‹_›

theorem GE0.throw {e : Err} {sp : Span} (h : Blame L e sp) : GE0 L (GM.throw e sp : GM α) := by
  intro g e' sp' hx
  simp only [GM.throw, GRes.err.injEq] at hx
  obtain ⟨rfl, rfl⟩ := hx
  exact h
theorem GE0.panic : GE0 L (GM.panic : GM α) := fun g e sp hx => by simp [GM.panic] at hx
theorem GE0.pure {a : α} : GE0 L (Pure.pure a : GM α) := fun g e sp hx => by simp at hx
theorem GE0.emit {c : Code} : GE0 L (GM.emit c) := fun g e sp hx => by simp [GM.emit] at hx
theorem GE0.emit1 {i : Instr} {sp : Span} : GE0 L (GM.emit1 i sp) := GE0.emit
theorem GE0.onG {f : GState → GState} : GE0 L (GM.onG f) := fun g e sp hx => by simp [GM.onG] at hx
theorem GE0.onG' {f : GState → α × GState} : GE0 L (GM.onG' f) := fun g e sp hx => by simp [GM.onG'] at hx
theorem GE0.getG : GE0 L GM.getG := fun g e sp hx => by simp [GM.getG] at hx
theorem GE0.isGlobal : GE0 L GM.isGlobal := fun g e sp hx => by simp [GM.isGlobal] at hx
theorem GE0.exitScope {sp : Span} : GE0 L (GM.exitScope sp) := fun g e sp hx => by simp [GM.exitScope] at hx
theorem GE0.defineLocals {xs : List String} : GE0 L (GM.defineLocals xs) := GE0.onG
theorem GE0.getVariable {x : String} {sp : Span} : GE0 L (GM.getVariable x sp) := GE0.onG'.bind fun _ => GE0.emit1
theorem GE0.setVariable {x : String} {sp : Span} : GE0 L (GM.setVariable x sp) := GE0.onG'.bind fun _ => GE0.emit1
theorem GE0.defineGlobal {x : String} {sp : Span} : GE0 L (GM.defineGlobal x sp) := GE0.onG'.bind fun _ => GE0.emit1
theorem GE0.defineGlobals : ∀ {xs : List Name}, GE0 L (GM.defineGlobals xs)
  | [] => GE0.pure
  | _ :: _ => GE0.defineGlobal.bind fun _ => GE0.defineGlobals

theorem GE0.declVar {sp : Span} : ∀ {v : Var}, (∀ xs, v = .many xs → 255 < xs.length → Blame L (.overflow .tooMuchToUnpack) sp) → GE0 L (GM.declVar sp v)
  | .one (x, xsp), _ => GE0.isGlobal.bind fun b => GE0.ite (fun _ => GE0.defineGlobal) fun _ => GE0.defineLocals.bind fun _ => GE0.setVariable
  | .many xs, h => by
    refine GE0.ite (fun hl => GE0.throw (h xs rfl hl)) fun _ => GE0.emit1.bind fun _ => GE0.isGlobal.bind fun b => ?_
    show GE0 L (if b = true then GM.defineGlobals xs else GM.defineLocals (xs.map Prod.fst).reverse)
    exact GE0.ite (fun _ => GE0.defineGlobals) fun _ => GE0.defineLocals

theorem GE0.ctxVar {sp csp : Span} : ∀ {v : Option Var}, (∀ xs, v = some (.many xs) → 255 < xs.length → Blame L (.overflow .tooMuchToUnpack) csp) → GE0 L (GM.ctxVar sp csp v)
  | some (.one (x, xsp)), _ => GE0.defineLocals.bind fun _ => GE0.setVariable
  | some (.many xs), h => GE0.ite (fun hl => GE0.throw (h xs rfl hl)) fun _ => GE0.emit1.bind fun _ => GE0.defineLocals
  | none, _ => GE0.emit1

theorem GI.emit {c : Code} : GI k k (GM.emit c) := by
  intro g a c' g' hg hk hx
  obtain ⟨_, rfl⟩ := emit_ok.1 hx
  exact ⟨hg, hk, trivial⟩
theorem GI.emit1 {i : Instr} {sp : Span} : GI k k (GM.emit1 i sp) := GI.emit
theorem GI.isGlobal : GI k k GM.isGlobal fun b => b = decide (k = 0) := by
  intro g a c' g' hg hk hx
  obtain ⟨rfl, _, rfl⟩ := isGlobal_ok.1 hx
  exact ⟨hg, hk, by simp [hk]⟩
theorem GI.getG : GI k k GM.getG fun g => g.cur.depth = k := by
  intro g a c' g' hg hk hx
  obtain ⟨rfl, _, rfl⟩ := getG_ok.1 hx
  exact ⟨hg, hk, hk⟩
theorem GI.enterScope : GI k (k + 1) (GM.onG GState.enterScope) := by
  intro g a c' g' hg hk hx
  obtain ⟨_, rfl⟩ := onG_ok.1 hx
  exact ⟨enterScope_inv hg, by show g.cur.depth + 1 = _; omega, trivial⟩
theorem GI.reserveTemp : GI k k (GM.onG GState.reserveTemp) := by
  intro g a c' g' hg hk hx
  obtain ⟨_, rfl⟩ := onG_ok.1 hx
  exact ⟨(step_reserveTemp hg).2, hk, trivial⟩
theorem GI.addGlobal {x : String} : GI k k (GM.onG' fun g => g.addGlobal x) := by
  intro g a c' g' hg hk hx
  obtain ⟨_, h1⟩ := onG'_ok.1 hx
  have := step_addGlobal hg h1
  exact ⟨this.2, this.1.depth.trans hk, trivial⟩

/-- From the growth of the tables. -/
theorem GI.step {x : GM α} (h : ∀ {g a c g'}, GInv g → x g = .ok (a, c, g') → StepN g g') : GI k k x := by
  intro g a c g' hg hk hx
  obtain ⟨⟨new, h1⟩, h2⟩ := h hg hx
  exact ⟨h2, h1.depth.trans hk, trivial⟩

theorem StepE.len {g g' : GState} (h : StepE g g') : g'.cur.locals.length = g.cur.locals.length := by
  obtain ⟨old, h1, h2⟩ := h.1.locals
  rw [h1, List.append_nil, h2.length_eq]

/-- Code that leaves the number of locals is as long as `GCost` says. -/
theorem GI.sub {x : GM Unit} {w s : Nat} (h : ∀ {g u c g'}, GInv g → x g = .ok (u, c, g') → StepE g g') (hl : GCost k k x (fun _ => 0) w s False) :
    GI k k (GM.sub x) fun c => c.len ≤ w := by
  intro g c c0 g' hg hk hx
  obtain ⟨⟨u, h1⟩, _⟩ := sub_ok.1 hx
  have hs := h hg h1
  have h2 := (hl g u c g' hk h1).len
  rw [hs.len] at h2
  exact ⟨hs.2, hs.1.depth.trans hk, by omega⟩

theorem GE.inScope {body : GM Span} (h : GE L (k + 1) body) : GE L k (GM.inScope body) :=
  GE.bind GE0.onG.ge GI.enterScope fun _ _ => GE.last h fun _ => GE0.exitScope

theorem GE.func {name : Name} {params : List Name} {sp : Span} {body : GM Span} (h : GE L (k + 1) body) : GE L k (GM.func false name params sp body) := by
  intro g hg hk e sp' hx
  have hd := (enterFn_spec g name.1 (params.map Prod.fst)).2.2.1
  refine h _ (enterFn_inv hg name.1 (params.map Prod.fst)) (by omega) e sp' ?_
  unfold GM.func at hx
  cases hb : body (g.enterFn name.1 (params.map Prod.fst)) with
  | ok r =>
    rw [hb] at hx
    obtain ⟨s, c, g1⟩ := r
    simp only at hx
    cases he : g1.encl with
    | nil => rw [he] at hx; cases hx
    | cons l ls => rw [he] at hx; simp at hx
  | err e1 sp1 => rw [hb] at hx; simp only [GRes.err.injEq] at hx; rw [hx.1, hx.2]
  | panic => rw [hb] at hx; cases hx
  | unfit => rw [hb] at hx; cases hx

theorem GE.gexprIn {m : Mode} {sp : Span} {act : GM Unit} (h : GE L k act) : GE L k (Quilt.gexprIn m sp act) :=
  GE.last h fun _ => GE0.ite (fun _ => GE0.emit1) fun _ => GE0.pure

theorem GE.gstmtIn {n : Node} {m : Mode} {act : GM Unit} (hn : n.isStatement = true) {t : Bool} (hp : ⟨n, m.isExpr, t⟩ ∈ L)
    (h : m.isExpr = false → GE L k act) : GE L k (Quilt.gstmtIn m n.span act) := by
  cases m with
  | expr => exact (GE0.throw (Blame.of hp (.statement hn))).ge
  | stmt => exact h rfl

/-- A loop body, in its own scope. -/
theorem GE.loop {sp : Span} {x : GM Unit} {f : Code → GM Unit} {w s : Nat} (hx : GE L (k + 1) x) (hl : GCost (k + 1) k x (fun _ => 0) w s False)
    (hs : ∀ {g u c g'}, GInv g → x g.enterScope = .ok (u, c, g') → g'.cur.locals.length = g.cur.locals.length)
    (hf : ∀ b, b.len ≤ w → GE0 L (f b)) :
    GE L k (GM.onG GState.enterScope >>= fun _ => GM.emit1 .loadNone sp >>= fun _ => GM.sub x >>= f) := by
  intro g hg hk e sp' h
  rcases bind_err h with h1 | ⟨a, c, g1, h1, h2⟩
  · exact GE0.onG g e sp' h1
  · obtain ⟨_, rfl⟩ := onG_ok.1 h1
    rcases bind_err h2 with h3 | ⟨a, c, g2, h3, h4⟩
    · exact GE0.emit1 _ e sp' h3
    · obtain ⟨_, rfl⟩ := emit1_ok.1 h3
      have hd : g.enterScope.cur.depth = k + 1 := by show g.cur.depth + 1 = _; omega
      rcases bind_err h4 with h5 | ⟨b, c, g3, h5, h6⟩
      · exact hx _ (enterScope_inv hg) hd e sp' (sub_err h5)
      · obtain ⟨⟨u, h7⟩, _⟩ := sub_ok.1 h5
        refine hf b ?_ g3 e sp' h6
        have h8 := (hl _ u b g3 hd h7).len
        have h9 := hs hg h7
        have : g.enterScope.cur.locals = g.cur.locals := rfl
        rw [this] at h8
        omega

theorem GE0.retTop {sp : Span} {x : GM Unit} (hb : k = 0 → Blame L (.syntax .returnOutsideFunction) sp) (h : GE L k x) : GE L k (do
    let g ← GM.getG
    if g.cur.depth = 0 then GM.throw (.syntax .returnOutsideFunction) sp else x) :=
  GE.bind GE0.getG.ge GI.getG fun g hg => GE.ite (fun h0 => (GE0.throw (hb (by omega))).ge) fun _ => h

theorem GE.externTail {x : String} {xsp : Span} (h1 : k ≠ 0 → Blame L (.name (.externalNotGlobal x)) xsp) (h2 : k = 0 → Blame L (.name (.externalRedefined x)) xsp) : GE L k (do
    if !(← GM.isGlobal) then GM.throw (.name (.externalNotGlobal x)) xsp
    else
      let i ← GM.onG' fun g => g.addGlobal x
      let g ← GM.getG
      if i ∈ g.externals then GM.throw (.name (.externalRedefined x)) xsp
      else
        GM.onG fun g => { g with externals := i :: g.externals }
        GM.emit1 (.defineGlobalDefaulted i) xsp) := by
  refine GE.bind GE0.isGlobal.ge GI.isGlobal fun b hb => ?_
  refine GE.ite (fun h => (GE0.throw (h1 ?_)).ge) fun h => (GE0.bind GE0.onG' fun i => GE0.bind GE0.getG fun g => GE0.ite (fun _ => GE0.throw (h2 ?_)) fun _ => GE0.bind GE0.onG fun _ => GE0.emit1).ge
  · subst hb; simpa using h
  · subst hb; simpa using h

end

section
variable {L : List Place}

theorem GI.node (cfg : Cfg) (n : Node) (m : Mode) (k : Nat) : GI k k (genNode cfg false m n) := GI.step fun hg hx => (ext_node cfg false n m hg hx).1
theorem GI.nodeLen (cfg : Cfg) (n : Node) (k : Nat) : GI k k (GM.sub (genNode cfg false .expr n)) fun c => c.len + 9 ≤ 8 * n.size := by
  intro g c c0 g' hg hk hx
  obtain ⟨⟨u, h1⟩, _⟩ := GM.sub_ok.1 hx
  have hs := (ext_node cfg false n .expr hg h1).e
  have h2 := (cost_node (E := False) cfg n .expr k (fun h => h.elim) g u c g' hk h1).len
  rw [hs.len] at h2
  exact ⟨hs.2, hs.1.depth.trans hk, by simp only at h2 ⊢; omega⟩
theorem GI.scopeLen (cfg : Cfg) (ns : List Node) (k : Nat) : GI k k (GM.sub (GM.inScope (genStmts cfg false ns))) fun c => c.len ≤ 8 * sizeL ns :=
  GI.sub (fun hg hx => step_inScope hg (ext_stmts cfg false ns) hx) (GCost.inScope (cost_stmts cfg ns (k + 1) fun h => h.elim))
theorem GI.elseLen (cfg : Cfg) (sp : Span) (b : Option (List Node)) (k : Nat) : GI k k (GM.sub (genElse cfg false sp b)) fun c => c.len ≤ 8 * sizeO b + 3 :=
  GI.sub (fun hg hx => ext_else cfg false b hg hx) (cost_else cfg sp b k)
theorem GI.casesLen (cfg : Cfg) (cs : List (Node × List Node)) (k : Nat) : GI k k (genCases cfg false cs) fun ps => (ps.map fun p => p.1.len + 3).sum ≤ 8 * sizeC cs := by
  intro g ps c g' hg hk hx
  have hs := ext_cases cfg false cs hg hx
  have h2 := (cost_cases (E := False) cfg cs k g ps c g' hk hx).len
  rw [hs.len] at h2
  exact ⟨hs.2, hs.1.depth.trans hk, by simp only at h2 ⊢; omega⟩

theorem genRev_gi (cfg : Cfg) (ns : List Node) (k : Nat) : GI k k (genRev cfg false ns) := GI.step fun hg hx => (ext_rev cfg false ns hg hx).n
theorem genArgs_gi (cfg : Cfg) (ns : List Node) (k : Nat) : GI k k (genArgs cfg false ns) := GI.step fun hg hx => (ext_args cfg false ns hg hx).n

mutual
theorem ge_node (cfg : Cfg) : ∀ (n : Node) (m : Mode) (k : Nat) (t : Bool), (m.isExpr = false → t = atTop k) → ⟨n, m.isExpr, t⟩ ∈ L → (∀ p ∈ n.parts t, p ∈ L) → GE L k (genNode cfg false m n)
  | .lit sp l, m, k, t, ht, h, hi => by
    unfold genNode
    refine GE.gexprIn ?_
    cases l with
    | none => exact GE0.emit1.ge
    | _ => exact (GE0.bind GE0.onG' fun i => GE0.emit1).ge
  | .ident sp x, m, k, t, ht, h, hi => by unfold genNode; exact GE.gexprIn GE0.getVariable.ge
  | .assign sp (x, xsp) e, m, k, t, ht, h, hi => by
    unfold genNode
    exact GE.gexprIn (GE.last (ge_node cfg e .expr k false (fun h => nomatch h) (hi _ (by simp [Node.parts, Mode.isExpr])) fun p hp => hi p (by simp [Node.parts, hp])) fun _ => GE0.setVariable)
  | .un sp op e, m, k, t, ht, h, hi => by
    unfold genNode
    refine GE.gexprIn ?_
    cases hf : foldUnary cfg op e with
    | some r =>
      cases r with
      | ok l => exact (GE0.bind GE0.onG' fun i => GE0.emit1).ge
      | err => exact GE0.panic.ge
      | panic => exact GE0.panic.ge
    | none => exact GE.last (ge_node cfg e .expr k false (fun h => nomatch h) (hi _ (by simp [Node.parts, Mode.isExpr])) fun p hp => hi p (by simp [Node.parts, hp])) fun _ => GE0.ite (fun _ => GE0.emit1) fun _ => GE0.panic
  | .bin sp op a b, m, k, t, ht, h, hi => by
    unfold genNode
    exact GE.gexprIn (GE.bind (ge_node cfg a .expr k false (fun h => nomatch h) (hi _ (by simp [Node.parts, Mode.isExpr])) fun p hp => hi p (by simp [Node.parts, hp])) (GI.node cfg a .expr k) fun _ _ =>
      GE.last (ge_node cfg b .expr k false (fun h => nomatch h) (hi _ (by simp [Node.parts, Mode.isExpr])) fun p hp => hi p (by simp [Node.parts, hp])) fun _ => GE0.ite (fun _ => GE0.panic) fun _ => GE0.emit1)
  | .pair sp a b, m, k, t, ht, h, hi => by
    unfold genNode
    exact GE.gexprIn (GE.bind (ge_node cfg a .expr k false (fun h => nomatch h) (hi _ (by simp [Node.parts, Mode.isExpr])) fun p hp => hi p (by simp [Node.parts, hp])) (GI.node cfg a .expr k) fun _ _ =>
      GE.last (ge_node cfg b .expr k false (fun h => nomatch h) (hi _ (by simp [Node.parts, Mode.isExpr])) fun p hp => hi p (by simp [Node.parts, hp])) fun _ => GE0.emit1)
  | .range sp a b, m, k, t, ht, h, hi => by
    unfold genNode
    exact GE.gexprIn (GE.bind (ge_node cfg a .expr k false (fun h => nomatch h) (hi _ (by simp [Node.parts, Mode.isExpr])) fun p hp => hi p (by simp [Node.parts, hp])) (GI.node cfg a .expr k) fun _ _ =>
      GE.last (ge_node cfg b .expr k false (fun h => nomatch h) (hi _ (by simp [Node.parts, Mode.isExpr])) fun p hp => hi p (by simp [Node.parts, hp])) fun _ => GE0.emit1)
  | .index sp a b, m, k, t, ht, h, hi => by
    unfold genNode
    exact GE.gexprIn (GE.bind (ge_node cfg b .expr k false (fun h => nomatch h) (hi _ (by simp [Node.parts, Mode.isExpr])) fun p hp => hi p (by simp [Node.parts, hp])) (GI.node cfg b .expr k) fun _ _ =>
      GE.last (ge_node cfg a .expr k false (fun h => nomatch h) (hi _ (by simp [Node.parts, Mode.isExpr])) fun p hp => hi p (by simp [Node.parts, hp])) fun _ => GE0.emit1)
  | .array sp items, m, k, t, ht, h, hi => by
    unfold genNode
    exact GE.gexprIn (GE.ite (fun hl => (GE0.throw (Blame.of h (.count (c := (items.length, .tooManyItems, sp)) (by simp [Node.counts]) hl))).ge) fun _ =>
      GE.last (ge_rev cfg items k fun p hp => hi p (by simp [Node.parts, hp])) fun _ => GE0.emit1)
  | .block sp body, m, k, t, ht, h, hi => by
    unfold genNode
    exact GE.gexprIn (GE.inScope (ge_stmts cfg body (k + 1) fun p hp => hi p (by unfold Node.parts; exact hp)))
  | .call sp f args, m, k, t, ht, h, hi => by
    unfold genNode
    exact GE.gexprIn (GE.ite (fun hl => (GE0.throw (Blame.of h (.count (c := (args.length, .tooManyArgs, sp)) (by simp [Node.counts]) hl))).ge) fun _ =>
      GE.bind (ge_node cfg f .expr k false (fun h => nomatch h) (hi _ (by simp [Node.parts, Mode.isExpr])) fun p hp => hi p (by simp [Node.parts, hp])) (GI.node cfg f .expr k) fun _ _ =>
      GE.last (ge_args cfg args k fun p hp => hi p (by simp [Node.parts, hp])) fun _ => GE0.emit1)
  | .builtin sp x args, m, k, t, ht, h, hi => by
    unfold genNode
    exact GE.gexprIn (GE.ite (fun hl => (GE0.throw (Blame.of h (.count (c := (args.length, .tooManyArgs, sp)) (by simp [Node.counts]) hl))).ge) fun _ =>
      GE.last (ge_args cfg args k fun p hp => hi p (by simp [Node.parts, hp])) fun _ => GE0.bind GE0.onG' fun _ => GE0.emit)
  | .ctx sp x args v body, m, k, t, ht, h, hi => by
    unfold genNode
    refine GE.gexprIn (GE.ite (fun hl => (GE0.throw (Blame.of h (.count (c := (args.length, .tooManyArgs, sp)) (by simp [Node.counts]) hl))).ge) fun _ =>
      GE.bind (ge_args cfg args k fun p hp => hi p (by simp [Node.parts, hp])) (genArgs_gi cfg args k) fun _ _ => GE.bind GE0.onG'.ge GI.addGlobal fun _ _ => GE.bind GE0.emit.ge GI.emit fun _ _ =>
      GE.bind GE0.onG.ge GI.enterScope fun _ _ => GE.bind (GE0.ctxVar ?_).ge (GI.step fun hg hx => step_ctxVar hg hx) fun _ _ =>
      GE.last (ge_stmts cfg body (k + 1) fun p hp => hi p ?_) fun _ => GE0.bind GE0.exitScope fun _ => GE0.emit1)
    · rintro xs rfl hl
      exact (Blame.of h (.count (c := (xs.length, .tooMuchToUnpack, x.2)) (by simp [Node.counts]) hl))
    · have : p ∈ innerL false false body := hp
      simp [Node.parts, this]
  | .cond sp c th el, m, k, t, ht, h, hi => by
    unfold genNode
    refine GE.gexprIn (GE.bind GE0.emit1.ge GI.emit1 fun _ _ => GE.bind (ge_node cfg c .expr k false (fun h => nomatch h) (hi _ (by simp [Node.parts, Mode.isExpr])) fun p hp => hi p (by simp [Node.parts, hp])) (GI.node cfg c .expr k) fun _ _ =>
      GE.bind (GE.sub (GE.inScope (ge_stmts cfg th (k + 1) fun p hp => hi p ?_))) (GI.scopeLen cfg th k) fun a ha => GE.ite (fun hl => (GE0.throw ?_).ge) fun _ =>
      GE.bind (GE.sub (ge_else cfg sp el k fun p hp => hi p (by simp [Node.parts, hp]))) (GI.elseLen cfg sp el k) fun b hb => GE.ite (fun hl => (GE0.throw ?_).ge) fun _ => GE0.emit.ge)
    · have : p ∈ innerL false false th := hp
      simp [Node.parts, this]
    · exact (Blame.of h (.jump (by simp [Node.jumpSpans]) (by simp only [Node.size]; omega)))
    · exact (Blame.of h (.jump (by simp [Node.jumpSpans]) (by simp only [Node.size]; omega)))
  | .switch sp v cs d, m, k, t, ht, h, hi => by
    unfold genNode
    refine GE.gexprIn (GE.bind GE0.emit1.ge GI.emit1 fun _ _ => GE.bind (ge_node cfg v .expr k false (fun h => nomatch h) (hi _ (by simp [Node.parts, Mode.isExpr])) fun p hp => hi p (by simp [Node.parts, hp])) (GI.node cfg v .expr k) fun _ _ =>
      GE.bind (ge_cases cfg cs k (fun p hp => hi p (by simp [Node.parts, hp])) fun c hc hl => ?_) (GI.casesLen cfg cs k) fun ps hps =>
      GE.bind (GE.sub (ge_else cfg sp d k fun p hp => hi p (by simp [Node.parts, hp]))) (GI.elseLen cfg sp d k) fun b hb => GE.ite (fun hl => (GE0.throw ?_).ge) fun _ => GE0.emit.ge)
    · refine (Blame.of h (.jump (by simp only [Node.jumpSpans, List.mem_cons, List.mem_map]; exact .inr ⟨c, hc, rfl⟩) (by simp only [Node.size]; omega)))
    · refine (Blame.of h (.jump (by simp [Node.jumpSpans]) ?_))
      obtain ⟨_, hl⟩ := hl
      rw [GCost.assemble_len] at hl
      have : (ps.tail.map fun p => p.1.len + 3).sum ≤ (ps.map fun p => p.1.len + 3).sum := by cases ps <;> simp
      simp only [Node.size]; omega
  | .while sp c body, m, k, t, ht, h, hi => by
    unfold genNode
    refine GE.gexprIn (GE.bind GE0.emit1.ge GI.emit1 fun _ _ => GE.bind (GE.sub (ge_node cfg c .expr k false (fun h => nomatch h) (hi _ (by simp [Node.parts, Mode.isExpr])) fun p hp => hi p (by simp [Node.parts, hp]))) (GI.nodeLen cfg c k) fun cc hcc =>
      GE.bind (GE.sub (GE.inScope (ge_stmts cfg body (k + 1) fun p hp => hi p ?_))) (GI.scopeLen cfg body k) fun b hb => GE.ite (fun hl => (GE0.throw ?_).ge) fun _ => GE0.emit.ge)
    · have : p ∈ innerL false false body := hp
      simp [Node.parts, this]
    · exact (Blame.of h (.jump (by simp [Node.jumpSpans]) (by simp only [Node.size]; omega)))
  | .forIn sp (x, xsp) it body, m, k, t, ht, h, hi => by
    unfold genNode
    refine GE.gexprIn (GE.bind GE0.onG.ge GI.enterScope fun _ _ => GE.bind GE0.onG.ge GI.reserveTemp fun _ _ => GE.bind GE0.onG.ge GI.reserveTemp fun _ _ => GE.bind GE0.emit1.ge GI.emit1 fun _ _ =>
      GE.bind (ge_node cfg it .expr (k + 1) false (fun h => nomatch h) (hi _ ?_) fun p hp => hi p ?_) (GI.node cfg it .expr (k + 1)) fun _ _ =>
      GE.loop (w := 1 + (4 * 1 + (8 * sizeL body + 0))) (s := 0 + (0 + (sizeL body + 0))) ?_ ?_ ?_ fun b hb => GE0.ite (fun hl => GE0.throw ?_) fun _ => GE0.bind GE0.emit fun _ => GE0.exitScope)
    · show (⟨it, true, false⟩ : Place) ∈ _
      simp [Node.parts]
    · have : p ∈ it.parts false := hp
      simp [Node.parts, this]
    · refine GE.bind GE0.emit1.ge GI.emit1 fun _ _ => GE.bind GE0.defineLocals.ge (GI.step fun hg hx => by
        obtain ⟨_, rfl⟩ := GM.onG_ok.1 hx; exact step_defineLocals hg _) fun _ _ => GE.last (ge_stmts cfg body (k + 2) fun p hp => hi p ?_) fun _ => GE0.exitScope
      have : p ∈ innerL false false body := hp
      simp [Node.parts, this]
    · exact GCost.seq (GCost.emit1 (n := 1)) fun _ => GCost.seq (GCost.defineLocals [x]) fun _ => GCost.seq (cost_stmts cfg body (k + 2) fun h => h.elim) fun _ => GCost.exitScope (k := k + 1) sp
    · intro g u c g' hg hx
      simp only [GM.bind_ok, GM.emit1_ok, GM.defineLocals, GM.onG_ok, GM.exitScope_ok] at hx
      obtain ⟨_, _, _, _, ⟨_, rfl⟩, ⟨_, _, _, _, ⟨_, rfl⟩, ⟨_, _, _, _, h4, ⟨_, rfl⟩, _⟩, _⟩, _⟩ := hx
      have e1 := step_defineLocals (enterScope_inv hg) [x]
      exact (step_scope hg (e1.trans (ext_stmts cfg false body e1.2 h4))).len
    · exact (Blame.of h (.jump (by simp [Node.jumpSpans]) (by simp only [Node.size]; omega)))
  | .forMulti sp xs it body, m, k, t, ht, h, hi => by
    unfold genNode
    refine GE.gexprIn (GE.bind GE0.onG.ge GI.enterScope fun _ _ => GE.ite (fun hl => (GE0.throw (Blame.of h (.count (c := (xs.length, .tooMuchToUnpack, sp)) (by simp [Node.counts]) hl))).ge) fun _ =>
      GE.bind GE0.onG.ge GI.reserveTemp fun _ _ => GE.bind GE0.onG.ge GI.reserveTemp fun _ _ => GE.bind GE0.emit1.ge GI.emit1 fun _ _ =>
      GE.bind (ge_node cfg it .expr (k + 1) false (fun h => nomatch h) (hi _ ?_) fun p hp => hi p ?_) (GI.node cfg it .expr (k + 1)) fun _ _ =>
      GE.loop (w := 1 + (2 + (4 * (xs.map Prod.fst).reverse.length + (8 * sizeL body + 0)))) (s := 0 + (0 + (0 + (sizeL body + 0)))) ?_ ?_ ?_ fun b hb => GE0.ite (fun hl => GE0.throw ?_) fun _ => GE0.bind GE0.emit fun _ => GE0.exitScope)
    · show (⟨it, true, false⟩ : Place) ∈ _
      simp [Node.parts]
    · have : p ∈ it.parts false := hp
      simp [Node.parts, this]
    · refine GE.bind GE0.emit1.ge GI.emit1 fun _ _ => GE.bind GE0.emit1.ge GI.emit1 fun _ _ => GE.bind GE0.defineLocals.ge (GI.step fun hg hx => by
        obtain ⟨_, rfl⟩ := GM.onG_ok.1 hx; exact step_defineLocals hg _) fun _ _ => GE.last (ge_stmts cfg body (k + 2) fun p hp => hi p ?_) fun _ => GE0.exitScope
      have : p ∈ innerL false false body := hp
      simp [Node.parts, this]
    · exact GCost.seq (GCost.emit1 (n := 1)) fun _ => GCost.seq (GCost.emit1 (n := 2) (by simp [Instr.enc, u8b])) fun _ => GCost.seq (GCost.defineLocals (xs.map Prod.fst).reverse) fun _ => GCost.seq (cost_stmts cfg body (k + 2) fun h => h.elim) fun _ => GCost.exitScope (k := k + 1) sp
    · intro g u c g' hg hx
      simp only [GM.bind_ok, GM.emit1_ok, GM.defineLocals, GM.onG_ok, GM.exitScope_ok] at hx
      obtain ⟨_, _, _, _, ⟨_, rfl⟩, ⟨_, _, _, _, ⟨_, rfl⟩, ⟨_, _, _, _, ⟨_, rfl⟩, ⟨_, _, _, _, h4, ⟨_, rfl⟩, _⟩, _⟩, _⟩, _⟩ := hx
      have e1 := step_defineLocals (enterScope_inv hg) (xs.map Prod.fst).reverse
      exact (step_scope hg (e1.trans (ext_stmts cfg false body e1.2 h4))).len
    · refine (Blame.of h (.jump (by simp [Node.jumpSpans]) ?_))
      rw [List.length_reverse, List.length_map] at hb
      simp only [Node.size]; omega
  | .lambda sp ps body, m, k, t, ht, h, hi => by
    unfold genNode
    refine GE.gexprIn (GE.ite (fun hl => (GE0.throw (Blame.of h (.count (c := (ps.length, .tooManyParams, sp)) (by simp [Node.counts]) hl))).ge) fun _ => GE.func (ge_stmts cfg body (k + 1) fun p hp => hi p ?_))
    unfold Node.parts; exact hp
  | .func sp name ps body, m, k, t, ht, h, hi => by
    unfold genNode
    refine GE.gstmtIn (n := .func sp name ps body) rfl h fun hm => GE.ite (fun hl => (GE0.throw (Blame.of h (.count (c := (ps.length, .tooManyParams, sp)) (by simp [Node.counts]) hl))).ge) fun _ =>
      GE.last (GE.func (ge_stmts cfg body (k + 1) fun p hp => hi p ?_)) fun _ => GE0.bind GE0.isGlobal fun b => GE0.ite (fun _ => GE0.defineGlobal) fun _ => GE0.bind GE0.defineLocals fun _ => GE0.setVariable
    unfold Node.parts; exact hp
  | .decl sp v e, m, k, t, ht, h, hi => by
    unfold genNode
    refine GE.gstmtIn (n := .decl sp v e) rfl h fun hm => GE.last (ge_node cfg e .expr k false (fun h => nomatch h) (hi _ (by simp [Node.parts, Mode.isExpr])) fun p hp => hi p (by simp [Node.parts, hp])) fun _ => GE0.declVar ?_
    rintro xs rfl hl
    exact (Blame.of h (.count (c := (xs.length, .tooMuchToUnpack, sp)) (by simp [Node.counts]) hl))
  | .extern sp (x, xsp) e, m, k, t, ht, h, hi => by
    unfold genNode
    refine GE.gstmtIn (n := .extern sp (x, xsp) e) rfl h fun hm => GE.bind (ge_node cfg e .expr k false (fun h => nomatch h) (hi _ (by simp [Node.parts, Mode.isExpr])) fun p hp => hi p (by simp [Node.parts, hp])) (GI.node cfg e .expr k) fun _ _ => GE.externTail ?_ ?_
    · intro hk
      rw [hm, ht hm, show atTop k = false by simp [hk]] at h
      exact (Blame.of h (.extern (x := (x, xsp))))
    · intro hk
      rw [hm, ht hm, show atTop k = true by simp [hk]] at h
      exact .inr ⟨_, _, _, rfl, h⟩
  | .include sp (x, xsp) body, m, k, t, ht, h, hi => by
    unfold genNode
    refine GE.gstmtIn (n := .include sp (x, xsp) body) rfl h fun hm => GE.bind GE0.getG.ge GI.getG fun g hg => GE.ite (fun hk => (GE0.throw ?_).ge) fun hk => ge_incl cfg x xsp body k (fun p hp => hi p (by rw [ht hm]; simp [Node.parts, hp])) ?_
    · rw [hm, ht hm, show atTop k = false by simp; omega] at h
      exact (Blame.of h (.inner (x := (x, xsp))))
    · rintro rfl
      rw [hm, ht hm, show atTop k = true by simp; omega] at h
      exact (Blame.of h (.unresolved (x := (x, xsp))))
  | .ret sp e, m, k, t, ht, h, hi => by
    unfold genNode
    refine GE.gstmtIn (n := .ret sp e) rfl h fun hm => GE0.retTop ?_ (GE.last (ge_opt cfg sp e k fun p hp => hi p (by simp [Node.parts, hp])) fun _ => GE0.emit1)
    intro hk
    rw [hm, ht hm, show atTop k = true by simp [hk]] at h
    exact (Blame.of h (.ret))
termination_by structural n => n
theorem ge_stmts (cfg : Cfg) : ∀ (ns : List Node) (k : Nat), (∀ p ∈ innerL false (atTop k) ns, p ∈ L) → GE L k (genStmts cfg false ns)
  | [], k, h => by unfold genStmts; exact GE0.pure.ge
  | [n], k, h => by
    unfold genStmts
    exact GE.last (ge_node cfg n _ k (atTop k) (fun _ => rfl) (h _ (by simp [innerL, Mode.isExpr])) fun p hp => h p (by simp [innerL, hp])) fun _ => GE0.pure
  | n :: n' :: ns, k, h => by
    unfold genStmts
    exact GE.bind (ge_node cfg n _ k (atTop k) (fun _ => rfl) (h _ (by simp [innerL, Mode.isExpr])) fun p hp => h p (by simp [innerL, hp])) (GI.node cfg n _ k) fun _ _ =>
      ge_stmts cfg (n' :: ns) k fun p hp => h p (by unfold innerL; exact List.mem_append_right _ hp)
termination_by structural n => n
theorem ge_each (cfg : Cfg) : ∀ (ns : List Node) (k : Nat), (∀ p ∈ innerL false (atTop k) ns, p ∈ L) → GE L k (genEach cfg false ns)
  | [], k, h => by unfold genEach; exact GE0.pure.ge
  | n :: ns, k, h => by
    unfold genEach
    exact GE.bind (ge_node cfg n _ k (atTop k) (fun _ => rfl) (h _ (by simp [innerL, Mode.isExpr])) fun p hp => h p (by simp [innerL, hp])) (GI.node cfg n _ k) fun _ _ =>
      ge_each cfg ns k fun p hp => h p (by simp [innerL, hp])
termination_by structural n => n
theorem ge_args (cfg : Cfg) : ∀ (ns : List Node) (k : Nat), (∀ p ∈ innerL true false ns, p ∈ L) → GE L k (genArgs cfg false ns)
  | [], k, h => by unfold genArgs; exact GE0.pure.ge
  | n :: ns, k, h => by
    unfold genArgs
    exact GE.bind (ge_node cfg n .expr k false (fun h => nomatch h) (h _ (by simp [innerL, Mode.isExpr])) fun p hp => h p (by simp [innerL, hp])) (GI.node cfg n .expr k) fun _ _ =>
      ge_args cfg ns k fun p hp => h p (by simp [innerL, hp])
termination_by structural n => n
theorem ge_rev (cfg : Cfg) : ∀ (ns : List Node) (k : Nat), (∀ p ∈ innerL true false ns, p ∈ L) → GE L k (genRev cfg false ns)
  | [], k, h => by unfold genRev; exact GE0.pure.ge
  | n :: ns, k, h => by
    unfold genRev
    exact GE.bind (ge_rev cfg ns k fun p hp => h p (by simp [innerL, hp])) (genRev_gi cfg ns k) fun _ _ =>
      ge_node cfg n .expr k false (fun h => nomatch h) (h _ (by simp [innerL, Mode.isExpr])) fun p hp => h p (by simp [innerL, hp])
termination_by structural n => n
theorem ge_cases (cfg : Cfg) : ∀ (cs : List (Node × List Node)) (k : Nat), (∀ p ∈ innerC cs, p ∈ L) →
    (∀ c ∈ cs, 65530 < 8 * sizeC cs → Blame L (.overflow .jumpTooLarge) c.1.span) → GE L k (genCases cfg false cs)
  | [], k, h, hj => by unfold genCases; exact GE0.pure.ge
  | (c, body) :: cs, k, h, hj => by
    unfold genCases
    refine GE.bind (GE.sub (ge_node cfg c .expr k false (fun h => nomatch h) (h _ (by simp [innerC, Mode.isExpr])) fun p hp => h p (by simp [innerC, hp]))) (GI.nodeLen cfg c k) fun cc hcc =>
      GE.bind (GE.sub (GE.inScope (ge_stmts cfg body (k + 1) fun p hp => h p ?_))) (GI.scopeLen cfg body k) fun b hb => GE.ite (fun hl => (GE0.throw ?_).ge) fun _ =>
      GE.last (ge_cases cfg cs k (fun p hp => h p (by simp [innerC, hp])) fun c' hc' hl => hj c' (List.mem_cons_of_mem _ hc') ?_) fun _ => GE0.pure
    · have : p ∈ innerL false false body := hp
      simp [innerC, this]
    · exact hj (c, body) (by simp) (by simp only [sizeC]; omega)
    · simp only [sizeC]; omega
termination_by structural n => n
theorem ge_else (cfg : Cfg) (sp : Span) : ∀ (b : Option (List Node)) (k : Nat), (∀ p ∈ innerO false b, p ∈ L) → GE L k (genElse cfg false sp b)
  | some body, k, h => by unfold genElse; exact GE.bind GE0.emit1.ge GI.emit1 fun _ _ => GE.inScope (ge_stmts cfg body (k + 1) fun p hp => h p (by unfold innerO; exact hp))
  | none, k, h => by unfold genElse; exact GE0.emit1.ge
termination_by structural n => n
theorem ge_opt (cfg : Cfg) (sp : Span) : ∀ (e : Option Node) (k : Nat), (∀ p ∈ innerE e, p ∈ L) → GE L k (genOpt cfg false sp e)
  | some e, k, h => by unfold genOpt; exact ge_node cfg e .expr k false (fun h => nomatch h) (h _ (by simp [innerE, Mode.isExpr])) fun p hp => h p (by simp [innerE, hp])
  | none, k, h => by unfold genOpt; exact GE0.emit1.ge
termination_by structural n => n
theorem ge_incl (cfg : Cfg) (x : String) (xsp : Span) : ∀ (b : Option (List Node)) (k : Nat), (∀ p ∈ innerO (atTop k) b, p ∈ L) →
    (b = none → Blame L (.include (.unresolvedInclude x)) xsp) → GE L k (genIncl cfg false x xsp b)
  | some b, k, h, _ => by unfold genIncl; exact ge_each cfg b k fun p hp => h p (by unfold innerO; exact hp)
  | none, k, h, hb => by unfold genIncl; exact (GE0.throw (hb rfl)).ge
termination_by structural n => n
end

end
end Quilt
