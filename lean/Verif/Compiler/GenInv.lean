import Verif.Compiler.Gen

/-!
# Invariants of the name tables during code generation
-/

namespace Quilt

/-! ## Inversion of generator runs -/

namespace GM
variable {α β : Type}

theorem bind_ok {x : GM α} {f : α → GM β} {g g2 : GState} {b : β} {c : Code} :
    (x >>= f) g = .ok (b, c, g2) ↔
      ∃ a c1 g1 c2, x g = .ok (a, c1, g1) ∧ f a g1 = .ok (b, c2, g2) ∧ c = c1 ++ c2 := by
  rw [bind_app]
  cases h : x g with
  | ok r =>
    obtain ⟨a, c1, g1⟩ := r
    simp only
    cases h' : f a g1 with
    | ok r' =>
      obtain ⟨b', c2, g2'⟩ := r'
      simp only [GRes.ok.injEq, Prod.mk.injEq]
      constructor
      · rintro ⟨rfl, rfl, rfl⟩
        exact ⟨a, c1, g1, c2, ⟨rfl, rfl, rfl⟩, h', rfl⟩
      · rintro ⟨_, _, _, c2', ⟨rfl, rfl, rfl⟩, h2, rfl⟩
        rw [h'] at h2
        simp only [GRes.ok.injEq, Prod.mk.injEq] at h2
        obtain ⟨rfl, rfl, rfl⟩ := h2
        exact ⟨rfl, rfl, rfl⟩
    | _ =>
      simp only [reduceCtorEq, false_iff]
      rintro ⟨_, _, _, _, h1, h2, _⟩
      cases h1
      rw [h'] at h2
      cases h2
  | _ => simp

theorem pure_ok {a b : α} {g g' : GState} {c : Code} :
    (pure a : GM α) g = .ok (b, c, g') ↔ a = b ∧ c = [] ∧ g' = g := by
  simp only [pure_app, GRes.ok.injEq, Prod.mk.injEq]
  constructor
  · rintro ⟨rfl, rfl, rfl⟩; exact ⟨rfl, rfl, rfl⟩
  · rintro ⟨rfl, rfl, rfl⟩; exact ⟨rfl, rfl, rfl⟩

theorem emit_ok {c c' : Code} {u : Unit} {g g' : GState} : emit c g = .ok (u, c', g') ↔ c' = c ∧ g' = g := by
  simp only [emit, GRes.ok.injEq, Prod.mk.injEq, true_and]
  constructor
  · rintro ⟨rfl, rfl⟩; exact ⟨rfl, rfl⟩
  · rintro ⟨rfl, rfl⟩; exact ⟨rfl, rfl⟩

theorem emit1_ok {i : Instr} {sp : Span} {c' : Code} {u : Unit} {g g' : GState} :
    emit1 i sp g = .ok (u, c', g') ↔ c' = [.at' i sp] ∧ g' = g := emit_ok

theorem onG_ok {f : GState → GState} {u : Unit} {c : Code} {g g' : GState} :
    onG f g = .ok (u, c, g') ↔ c = [] ∧ g' = f g := by
  simp only [onG, GRes.ok.injEq, Prod.mk.injEq, true_and]
  constructor
  · rintro ⟨rfl, rfl⟩; exact ⟨rfl, rfl⟩
  · rintro ⟨rfl, rfl⟩; exact ⟨rfl, rfl⟩

theorem onG'_ok {f : GState → α × GState} {a : α} {c : Code} {g g' : GState} :
    onG' f g = .ok (a, c, g') ↔ c = [] ∧ f g = (a, g') := by
  simp only [onG', GRes.ok.injEq, Prod.mk.injEq]
  cases h : f g with
  | mk x y => simp only [Prod.mk.injEq]; constructor
              · rintro ⟨rfl, rfl, rfl⟩; exact ⟨rfl, rfl, rfl⟩
              · rintro ⟨rfl, rfl, rfl⟩; exact ⟨rfl, rfl, rfl⟩

theorem getG_ok {a : GState} {c : Code} {g g' : GState} :
    getG g = .ok (a, c, g') ↔ a = g ∧ c = [] ∧ g' = g := by
  simp only [getG, GRes.ok.injEq, Prod.mk.injEq]
  constructor
  · rintro ⟨rfl, rfl, rfl⟩; exact ⟨rfl, rfl, rfl⟩
  · rintro ⟨rfl, rfl, rfl⟩; exact ⟨rfl, rfl, rfl⟩

theorem isGlobal_ok {a : Bool} {c : Code} {g g' : GState} :
    isGlobal g = .ok (a, c, g') ↔ a = decide (g.cur.depth = 0) ∧ c = [] ∧ g' = g := by
  simp only [isGlobal, GRes.ok.injEq, Prod.mk.injEq]
  constructor
  · rintro ⟨rfl, rfl, rfl⟩; exact ⟨rfl, rfl, rfl⟩
  · rintro ⟨rfl, rfl, rfl⟩; exact ⟨rfl, rfl, rfl⟩

theorem sub_ok {x : GM Unit} {cc c : Code} {g g' : GState} :
    sub x g = .ok (cc, c, g') ↔ (∃ u, x g = .ok (u, cc, g')) ∧ c = [] := by
  unfold sub
  cases h : x g with
  | ok r =>
    obtain ⟨a, c1, g1⟩ := r
    simp only [GRes.ok.injEq, Prod.mk.injEq]
    constructor
    · rintro ⟨rfl, rfl, rfl⟩; exact ⟨⟨(), trivial, rfl, rfl⟩, rfl⟩
    · rintro ⟨⟨_, _, rfl, rfl⟩, rfl⟩; exact ⟨rfl, rfl, rfl⟩
  | _ => simp

theorem throw_ok {e : Err} {sp : Span} {a : α} {c : Code} {g g' : GState} :
    (throw e sp : GM α) g = .ok (a, c, g') ↔ False := by simp [throw]

theorem panic_ok {a : α} {c : Code} {g g' : GState} :
    (panic : GM α) g = .ok (a, c, g') ↔ False := by simp [panic]

theorem ite_throw_ok {p : Prop} [Decidable p] {e : Err} {sp : Span} {y : GM α} {a : α} {c : Code} {g g' : GState} :
    (if p then throw e sp else y) g = .ok (a, c, g') ↔ ¬p ∧ y g = .ok (a, c, g') := by
  by_cases h : p <;> simp [h, throw]

theorem exitScope_ok {sp : Span} {u : Unit} {c : Code} {g g' : GState} :
    exitScope sp g = .ok (u, c, g') ↔
      c = exitCode sp ((g.cur.leaving (g.cur.depth - 1)).map (·.captured)) ∧ g' = g.exitScope := by
  simp only [exitScope, GRes.ok.injEq, Prod.mk.injEq, true_and]
  constructor
  · rintro ⟨rfl, rfl⟩; exact ⟨rfl, rfl⟩
  · rintro ⟨rfl, rfl⟩; exact ⟨rfl, rfl⟩

theorem func_ok {strict : Bool} {name : Name} {params : List Name} {sp : Span} {body : GM Span} {u : Unit} {c : Code}
    {g g' : GState} :
    func strict name params sp body g = .ok (u, c, g') ↔
      ∃ s cb g1 l ls, body (g.enterFn name.1 (params.map Prod.fst)) = .ok (s, cb, g1) ∧ g1.encl = l :: ls ∧
        (strict = true → fnFits g1.cur cb = true) ∧
        c = [.at' (closInstr (({ g1 with cur := l, encl := ls } : GState).addConst
          (.fn (mkFunc name params.length g1.cur cb))).1 g1.cur.upvalues) sp] ∧
        g' = (({ g1 with cur := l, encl := ls } : GState).addConst
          (.fn (mkFunc name params.length g1.cur cb))).2 := by
  unfold func
  cases h : body (g.enterFn name.1 (params.map Prod.fst)) with
  | ok r =>
    obtain ⟨s, cb, g1⟩ := r
    simp only
    cases h1 : g1.encl with
    | nil =>
      simp only [reduceCtorEq, false_iff]
      rintro ⟨_, _, _, _, _, h2, h3, _⟩
      cases h2
      rw [h1] at h3
      cases h3
    | cons l ls =>
      simp only
      by_cases h2 : (strict && !fnFits g1.cur cb) = true
      · rw [if_pos h2]
        simp only [reduceCtorEq, false_iff]
        rintro ⟨_, _, _, _, _, h3, _, h4, _⟩
        simp only [GRes.ok.injEq, Prod.mk.injEq] at h3
        obtain ⟨rfl, rfl, rfl⟩ := h3
        simp at h2; simp [h2] at h4
      · rw [if_neg h2]
        simp only [GRes.ok.injEq, Prod.mk.injEq, true_and]
        constructor
        · rintro ⟨rfl, rfl⟩
          refine ⟨s, cb, g1, l, ls, ⟨rfl, rfl, rfl⟩, h1, ?_, rfl, rfl⟩
          intro hs; simp [hs] at h2; exact h2
        · rintro ⟨_, _, _, l', ls', ⟨rfl, rfl, rfl⟩, h3, _, rfl, rfl⟩
          rw [h1] at h3; simp only [List.cons.injEq] at h3
          obtain ⟨rfl, rfl⟩ := h3
          exact ⟨rfl, rfl⟩
  | _ => simp

end GM

/-- Expression in expression position. -/
theorem gexprIn_expr_ok {sp : Span} {act : GM Unit} {u : Unit} {c : Code} {g g' : GState} :
    gexprIn .expr sp act g = .ok (u, c, g') ↔ act g = .ok (u, c, g') := by
  unfold gexprIn
  rw [GM.bind_ok]
  constructor
  · rintro ⟨a, c1, g1, c2, h1, h2, rfl⟩
    simp only [reduceCtorEq, if_false] at h2
    obtain ⟨_, rfl, rfl⟩ := GM.pure_ok.1 h2
    simpa using h1
  · intro h
    exact ⟨u, c, g', [], h, GM.pure_ok.2 ⟨rfl, rfl, rfl⟩, by simp⟩

/-- Expression in statement position. -/
theorem gexprIn_stmt_ok {b : Bool} {sp : Span} {act : GM Unit} {u : Unit} {c : Code} {g g' : GState} :
    gexprIn (.stmt b) sp act g = .ok (u, c, g') ↔
      ∃ c1, act g = .ok (u, c1, g') ∧ c = c1 ++ if b then [.at' .pop sp] else [] := by
  unfold gexprIn
  rw [GM.bind_ok]
  cases b with
  | true =>
    simp only [if_true]
    constructor
    · rintro ⟨a, c1, g1, c2, h1, h2, rfl⟩
      obtain ⟨rfl, rfl⟩ := GM.emit1_ok.1 h2
      exact ⟨c1, h1, rfl⟩
    · rintro ⟨c1, h, rfl⟩
      exact ⟨u, c1, g', _, h, GM.emit1_ok.2 ⟨rfl, rfl⟩, rfl⟩
  | false =>
    have : (Mode.stmt false = Mode.stmt true) = False := by simp
    simp only [this, if_false, Bool.false_eq_true]
    constructor
    · rintro ⟨a, c1, g1, c2, h1, h2, rfl⟩
      obtain ⟨_, rfl, rfl⟩ := GM.pure_ok.1 h2
      exact ⟨c1, h1, rfl⟩
    · rintro ⟨c1, h, rfl⟩
      exact ⟨u, c1, g', [], h, GM.pure_ok.2 ⟨rfl, rfl, rfl⟩, rfl⟩

/-! ## Growth of the tables -/

/-- Same locals, more of them captured. -/
def LocLe : List Local → List Local → Prop
  | [], [] => True
  | a :: as, b :: bs =>
    a.name = b.name ∧ a.depth = b.depth ∧ (a.captured = true → b.captured = true) ∧ LocLe as bs
  | _, _ => False

namespace LocLe

theorem refl : ∀ ls, LocLe ls ls
  | [] => trivial
  | _ :: ls => ⟨rfl, rfl, id, refl ls⟩

theorem trans : ∀ {a b c}, LocLe a b → LocLe b c → LocLe a c
  | [], [], [], _, _ => trivial
  | _ :: _, _ :: _, _ :: _, h, h' =>
    ⟨h.1.trans h'.1, h.2.1.trans h'.2.1, h'.2.2.1 ∘ h.2.2.1, trans h.2.2.2 h'.2.2.2⟩
  | [], _ :: _, _, h, _ | _ :: _, [], _, h, _ | [], [], _ :: _, _, h | _ :: _, _ :: _, [], _, h => h.elim

theorem length_eq : ∀ {a b}, LocLe a b → a.length = b.length
  | [], [], _ => rfl
  | _ :: _, _ :: _, h => by simp [length_eq h.2.2.2]
  | [], _ :: _, h | _ :: _, [], h => h.elim

theorem append : ∀ {a b c d}, LocLe a b → LocLe c d → LocLe (a ++ c) (b ++ d)
  | [], [], _, _, _, h' => h'
  | _ :: _, _ :: _, _, _, h, h' => ⟨h.1, h.2.1, h.2.2.1, append h.2.2.2 h'⟩
  | [], _ :: _, _, _, h, _ | _ :: _, [], _, _, h, _ => h.elim

theorem split : ∀ {a b c}, LocLe (a ++ b) c → ∃ a' b', c = a' ++ b' ∧ LocLe a a' ∧ LocLe b b'
  | [], b, c, h => ⟨[], c, rfl, trivial, h⟩
  | x :: a, b, [], h => h.elim
  | x :: a, b, y :: c, h => by
    obtain ⟨a', b', rfl, h1, h2⟩ := split h.2.2.2
    exact ⟨y :: a', b', rfl, ⟨h.1, h.2.1, h.2.2.1, h1⟩, h2⟩

theorem get : ∀ {a b} {i : Nat} {x : Local}, LocLe a b → a[i]? = some x →
    ∃ y, b[i]? = some y ∧ x.name = y.name ∧ x.depth = y.depth ∧ (x.captured = true → y.captured = true)
  | [], [], _, _, _, h => by simp at h
  | p :: a, q :: b, 0, x, h, hx => by
    simp at hx; subst hx
    exact ⟨q, by simp, h.1, h.2.1, h.2.2.1⟩
  | p :: a, q :: b, i + 1, x, h, hx => by
    simp at hx
    obtain ⟨y, hy, h'⟩ := get h.2.2.2 hx
    exact ⟨y, by simpa using hy, h'⟩
  | [], _ :: _, _, _, h, _ | _ :: _, [], _, _, h, _ => h.elim

theorem modify (ls : List Local) (i : Nat) : LocLe ls (ls.modify i fun x => { x with captured := true }) := by
  induction ls generalizing i with
  | nil => simp [LocLe]
  | cons l ls ih =>
    cases i with
    | zero => simp [LocLe, refl]
    | succ i => simpa [LocLe] using ih i

theorem lastIdx (x : String) : ∀ {a b}, LocLe a b → lastIdx x a = lastIdx x b
  | [], [], _ => rfl
  | _ :: _, _ :: _, h => by simp [Quilt.lastIdx, lastIdx x h.2.2.2, h.1]
  | [], _ :: _, h | _ :: _, [], h => h.elim

theorem depths {d : Nat} : ∀ {a b}, LocLe a b → (∀ l ∈ a, l.depth ≤ d) → ∀ l ∈ b, l.depth ≤ d
  | [], [], _, h' => h'
  | p :: a, q :: b, h, h' => by
    intro l hl
    rcases List.mem_cons.1 hl with rfl | hl
    · rw [← h.2.1]; exact h' p (by simp)
    · exact depths h.2.2.2 (fun l hl => h' l (by simp [hl])) l hl
  | [], _ :: _, h, _ | _ :: _, [], h, _ => h.elim

theorem depthsEq {d : Nat} : ∀ {a b}, LocLe a b → (∀ l ∈ a, l.depth = d) → ∀ l ∈ b, l.depth = d
  | [], [], _, h' => h'
  | p :: a, q :: b, h, h' => by
    intro l hl
    rcases List.mem_cons.1 hl with rfl | hl
    · rw [← h.2.1]; exact h' p (by simp)
    · exact depthsEq h.2.2.2 (fun l hl => h' l (by simp [hl])) l hl
  | [], _ :: _, h, _ | _ :: _, [], h, _ => h.elim

theorem names : ∀ {a b}, LocLe a b → a.map (·.name) = b.map (·.name)
  | [], [], _ => rfl
  | _ :: _, _ :: _, h => by simp [h.1, names h.2.2.2]
  | [], _ :: _, h | _ :: _, [], h => h.elim

end LocLe

/-- Growth of a suspended level: captured flags and upvalues. -/
structure LvLe (l l' : GLevel) : Prop where
  locals : LocLe l.locals l'.locals
  ups : l.upvalues <+: l'.upvalues
  depth : l'.depth = l.depth
  consts : l'.constPool = l.constPool

/-- Growth of the suspended levels. -/
def EnclLe : List GLevel → List GLevel → Prop
  | [], [] => True
  | a :: as, b :: bs => LvLe a b ∧ EnclLe as bs
  | _, _ => False

theorem LvLe.refl (l : GLevel) : LvLe l l := ⟨.refl _, List.prefix_refl _, rfl, rfl⟩
theorem LvLe.trans {a b c : GLevel} (h : LvLe a b) (h' : LvLe b c) : LvLe a c :=
  ⟨h.1.trans h'.1, h.2.trans h'.2, h'.3.trans h.3, h'.4.trans h.4⟩

theorem EnclLe.refl : ∀ ls, EnclLe ls ls
  | [] => trivial
  | l :: ls => ⟨.refl l, refl ls⟩
theorem EnclLe.trans : ∀ {a b c}, EnclLe a b → EnclLe b c → EnclLe a c
  | [], [], [], _, _ => trivial
  | _ :: _, _ :: _, _ :: _, h, h' => ⟨h.1.trans h'.1, trans h.2 h'.2⟩
  | [], _ :: _, _, h, _ | _ :: _, [], _, h, _ | [], [], _ :: _, _, h | _ :: _, _ :: _, [], _, h => h.elim

/-- Growth of the tables while code is generated; `new` are the locals declared meanwhile. -/
structure GExtN (new : List Local) (g g' : GState) : Prop where
  locals : ∃ old, g'.cur.locals = old ++ new ∧ LocLe g.cur.locals old
  newDepth : ∀ l ∈ new, l.depth = g.cur.depth
  ups : g.cur.upvalues <+: g'.cur.upvalues
  depth : g'.cur.depth = g.cur.depth
  consts : g.cur.constPool.entries <+: g'.cur.constPool.entries
  encl : EnclLe g.encl g'.encl
  globals : g.globals.entries <+: g'.globals.entries

/-- Growth with any new locals. -/
def GExt (g g' : GState) : Prop := ∃ new, GExtN new g g'

/-- Growth without new locals. -/
abbrev GExtE (g g' : GState) : Prop := GExtN [] g g'

theorem GExtE.refl (g : GState) : GExtE g g :=
  ⟨⟨g.cur.locals, by simp, .refl _⟩, by simp, List.prefix_refl _, rfl, List.prefix_refl _, .refl _, List.prefix_refl _⟩

theorem GExtN.trans {n n' : List Local} {g1 g2 g3 : GState} (h : GExtN n g1 g2) (h' : GExtN n' g2 g3) :
    ∃ m, LocLe n m ∧ GExtN (m ++ n') g1 g3 := by
  obtain ⟨old, h2, h1⟩ := h.locals
  obtain ⟨old', h3, h4⟩ := h'.locals
  rw [h2] at h4
  obtain ⟨a, b, rfl, h5, h6⟩ := h4.split
  refine ⟨b, h6, ⟨⟨a, by simp [h3], h1.trans h5⟩, ?_, h.ups.trans h'.ups, h'.depth.trans h.depth,
    h.consts.trans h'.consts, h.encl.trans h'.encl, h.globals.trans h'.globals⟩⟩
  intro l hl
  rcases List.mem_append.1 hl with hl | hl
  · exact h6.depthsEq h.newDepth l hl
  · rw [h'.newDepth l hl, h.depth]

theorem GExtE.trans {g1 g2 g3 : GState} (h : GExtE g1 g2) (h' : GExtE g2 g3) : GExtE g1 g3 := by
  obtain ⟨m, h1, h2⟩ := GExtN.trans h h'
  cases m with
  | nil => exact h2
  | cons => exact h1.elim

theorem GExtE.ext {g g' : GState} (h : GExtE g g') : GExt g g' := ⟨[], h⟩

theorem GExt.trans {g1 g2 g3 : GState} (h : GExt g1 g2) (h' : GExt g2 g3) : GExt g1 g3 := by
  obtain ⟨n, h⟩ := h
  obtain ⟨n', h'⟩ := h'
  obtain ⟨m, _, h2⟩ := h.trans h'
  exact ⟨_, h2⟩

/-! ## Invariant -/

/-- Captured variables of a level refer to what their names mean in the enclosing level. -/
def LvUps (l p : GLevel) : Prop :=
  ∀ u ∈ l.upvalues,
    if u.isLocal then
      lastIdx u.name p.locals = some u.idx ∧ ∃ x, p.locals[u.idx]? = some x ∧ x.captured = true
    else
      lastIdx u.name p.locals = none ∧ ∃ u', p.upvalues[u.idx]? = some u' ∧ u'.name = u.name

/-- All levels. -/
def ChainOk : GLevel → List GLevel → Prop
  | l, [] => l.upvalues = []
  | l, p :: ps => LvUps l p ∧ ChainOk p ps

/-- Locals of a level are no deeper than the level; its constant pool is consistent. -/
structure LvInv (l : GLevel) : Prop where
  depths : ∀ x ∈ l.locals, x.depth ≤ l.depth
  consts : l.constPool.Inv

/-- Invariant of the compiler's tables. -/
structure GInv (g : GState) : Prop where
  chain : ChainOk g.cur g.encl
  cur : LvInv g.cur
  encl : ∀ l ∈ g.encl, LvInv l
  globals : g.globals.Inv

/-! ## Name resolution -/

theorem lastIdx_some {x : String} : ∀ {ls : List Local} {i : Nat}, lastIdx x ls = some i →
    ∃ y, ls[i]? = some y ∧ y.name = x
  | [], _, h => by simp [lastIdx] at h
  | l :: ls, i, h => by
    simp only [lastIdx] at h
    cases h1 : lastIdx x ls with
    | some k =>
      rw [h1] at h; simp at h; subst h
      obtain ⟨y, hy, hn⟩ := lastIdx_some h1
      exact ⟨y, by simpa using hy, hn⟩
    | none =>
      rw [h1] at h; simp at h
      obtain ⟨h2, rfl⟩ := h
      exact ⟨l, by simp, h2⟩

theorem lastIdx_none {x : String} : ∀ {ls : List Local}, lastIdx x ls = none ↔ ∀ l ∈ ls, l.name ≠ x
  | [] => by simp [lastIdx]
  | l :: ls => by
    simp only [lastIdx, List.mem_cons, forall_eq_or_imp]
    rw [← lastIdx_none (ls := ls)]
    cases h1 : lastIdx x ls with
    | some k => simp
    | none => simp

theorem lastIdx_snoc (x : String) (ls : List Local) (l : Local) :
    lastIdx x (ls ++ [l]) = if l.name = x then some ls.length else lastIdx x ls := by
  induction ls with
  | nil => simp [lastIdx]
  | cons a ls ih =>
    simp only [List.cons_append, lastIdx, ih]
    by_cases h : l.name = x <;> simp [h]

theorem findUp_some {i : Nat} {b : Bool} : ∀ {us : List Upv} {j : Nat}, GLevel.findUp i b us = some j →
    ∃ u, us[j]? = some u ∧ u.idx = i ∧ u.isLocal = b
  | [], _, h => by simp [GLevel.findUp] at h
  | u :: us, j, h => by
    simp only [GLevel.findUp] at h
    split at h
    · rename_i h1
      simp at h; subst h
      exact ⟨u, by simp, h1⟩
    · simp at h
      obtain ⟨k, h1, rfl⟩ := h
      obtain ⟨u', h2⟩ := findUp_some h1
      exact ⟨u', by simpa using h2⟩

theorem LvUps.mono {l p p' : GLevel} (h : LvUps l p) (hp : LvLe p p') : LvUps l p' := by
  intro u hu
  have := h u hu
  cases hb : u.isLocal with
  | true =>
    rw [hb] at this
    simp only [if_true] at this ⊢
    obtain ⟨h1, x, h2, h3⟩ := this
    obtain ⟨y, hy, _, _, h4⟩ := hp.locals.get h2
    exact ⟨by rw [← hp.locals.lastIdx]; exact h1, y, hy, h4 h3⟩
  | false =>
    rw [hb] at this
    simp only [Bool.false_eq_true, if_false] at this ⊢
    obtain ⟨h1, u', h2, h3⟩ := this
    refine ⟨by rw [← hp.locals.lastIdx]; exact h1, u', ?_, h3⟩
    obtain ⟨t, ht⟩ := hp.ups
    rw [← ht, List.getElem?_append_left (List.getElem?_eq_some_iff.1 h2).1]
    exact h2

theorem getElem?_prefix {α : Type} {a b : List α} (h : a <+: b) {i : Nat} {x : α} (hx : a[i]? = some x) :
    b[i]? = some x := by
  obtain ⟨t, rfl⟩ := h
  rw [List.getElem?_append_left (List.getElem?_eq_some_iff.1 hx).1]
  exact hx

/-- Adding a captured variable `x` whose meaning in `p` is given. -/
theorem addUpvalue_spec {l p : GLevel} (h : LvUps l p) {i : Nat} {b : Bool} {x : String}
    (hx : if b then lastIdx x p.locals = some i ∧ ∃ y, p.locals[i]? = some y ∧ y.captured = true
      else lastIdx x p.locals = none ∧ ∃ u', p.upvalues[i]? = some u' ∧ u'.name = x)
    {j : Nat} {l' : GLevel} (he : l.addUpvalue i b x = (j, l')) :
    LvLe l l' ∧ l'.locals = l.locals ∧ LvUps l' p ∧ ∃ u, l'.upvalues[j]? = some u ∧ u.name = x := by
  unfold GLevel.addUpvalue at he
  cases hf : GLevel.findUp i b l.upvalues with
  | some k =>
    rw [hf] at he
    simp only [Prod.mk.injEq] at he
    obtain ⟨rfl, rfl⟩ := he
    refine ⟨.refl _, rfl, h, ?_⟩
    obtain ⟨u, hu, h1, h2⟩ := findUp_some hf
    refine ⟨u, hu, ?_⟩
    have := h u (List.mem_of_getElem? hu)
    rw [h2, h1] at this
    cases b with
    | true =>
      simp only [if_true] at this hx
      obtain ⟨y, hy, hy'⟩ := lastIdx_some this.1
      obtain ⟨z, hz, hz'⟩ := lastIdx_some hx.1
      rw [hy] at hz; simp at hz; subst hz
      rw [← hy', hz']
    | false =>
      simp only [Bool.false_eq_true, if_false] at this hx
      obtain ⟨_, v, hv, hv'⟩ := this
      obtain ⟨_, w, hw, hw'⟩ := hx
      rw [hv] at hw; simp at hw; subst hw
      rw [← hv', hw']
  | none =>
    rw [hf] at he
    simp only [Prod.mk.injEq] at he
    obtain ⟨rfl, rfl⟩ := he
    refine ⟨⟨.refl _, by simp, rfl, rfl⟩, rfl, ?_, ⟨i, b, x⟩, by simp, rfl⟩
    intro u hu
    rcases List.mem_append.1 hu with hu | hu
    · exact h u hu
    · simp at hu; subst hu
      exact hx

theorem mark_le (p : GLevel) (i : Nat) : LvLe p (p.mark i) :=
  ⟨.modify _ _, List.prefix_refl _, rfl, rfl⟩

theorem mark_captured {p : GLevel} {i : Nat} {y : Local} (h : p.locals[i]? = some y) :
    ∃ z, (p.mark i).locals[i]? = some z ∧ z.captured = true := by
  refine ⟨{ y with captured := true }, ?_, rfl⟩
  simp [GLevel.mark, h]

theorem resolveUp_spec {x : String} : ∀ {ps : List GLevel} {l : GLevel} {j : Nat} {l' : GLevel} {ps' : List GLevel},
    ChainOk l ps → resolveUp x l ps = some (j, l', ps') →
    LvLe l l' ∧ l'.locals = l.locals ∧ EnclLe ps ps' ∧ ChainOk l' ps' ∧ ∃ u, l'.upvalues[j]? = some u ∧ u.name = x
  | [], _, _, _, _, _, h => by simp [resolveUp] at h
  | p :: ps, l, j, l', ps', hc, h => by
    simp only [resolveUp] at h
    cases h1 : lastIdx x p.locals with
    | some i =>
      rw [h1] at h
      simp only at h
      cases he : l.addUpvalue i true x with
      | mk j0 l0 =>
        rw [he] at h
        simp only [Option.some.injEq, Prod.mk.injEq] at h
        obtain ⟨rfl, rfl, rfl⟩ := h
        obtain ⟨y, hy, _⟩ := lastIdx_some h1
        obtain ⟨a, b, c, d⟩ := addUpvalue_spec (hc.1.mono (mark_le p i)) (i := i) (b := true) (x := x) (by
          simp only [if_true]
          exact ⟨by rw [← (mark_le p i).locals.lastIdx]; exact h1, mark_captured hy⟩) he
        refine ⟨a, b, ⟨mark_le p i, .refl _⟩, ⟨c, ?_⟩, d⟩
        have hc2 := hc.2
        cases ps with
        | nil => exact hc2
        | cons q qs => exact hc2
    | none =>
      rw [h1] at h
      simp only at h
      cases h2 : resolveUp x p ps with
      | none => rw [h2] at h; simp at h
      | some r =>
        obtain ⟨i, p', ps0⟩ := r
        rw [h2] at h
        simp only at h
        obtain ⟨a, b, c, d, u, hu, hux⟩ := resolveUp_spec hc.2 h2
        cases he : l.addUpvalue i false x with
        | mk j0 l0 =>
          rw [he] at h
          simp only [Option.some.injEq, Prod.mk.injEq] at h
          obtain ⟨rfl, rfl, rfl⟩ := h
          obtain ⟨a', b', c', d'⟩ := addUpvalue_spec (hc.1.mono a) (i := i) (b := false) (x := x) (by
            simp only [Bool.false_eq_true, if_false]
            exact ⟨by rw [b]; exact h1, u, hu, hux⟩) he
          exact ⟨a', b', ⟨a, c⟩, ⟨c', d⟩, d'⟩

theorem LvInv.mono {l l' : GLevel} (h : LvInv l) (hl : LvLe l l') : LvInv l' :=
  ⟨by rw [hl.depth]; exact hl.locals.depths h.depths, by rw [hl.consts]; exact h.consts⟩

theorem EnclLe.inv : ∀ {a b : List GLevel}, EnclLe a b → (∀ l ∈ a, LvInv l) → ∀ l ∈ b, LvInv l
  | [], [], _, h => h
  | x :: a, y :: b, h, h' => by
    intro l hl
    rcases List.mem_cons.1 hl with rfl | hl
    · exact (h' x (by simp)).mono h.1
    · exact inv h.2 (fun l hl => h' l (by simp [hl])) l hl
  | [], _ :: _, h, _ | _ :: _, [], h, _ => h.elim

/-- Name resolution. -/
theorem resolve_ext {g g' : GState} {x : String} {r : GState.Ref} (h : GInv g) (he : g.resolve x = (r, g')) :
    GExtE g g' ∧ GInv g' ∧ g'.cur.locals = g.cur.locals := by
  unfold GState.resolve at he
  cases h1 : lastIdx x g.cur.locals with
  | some i =>
    rw [h1] at he; simp only [Prod.mk.injEq] at he
    obtain ⟨rfl, rfl⟩ := he
    exact ⟨.refl _, h, rfl⟩
  | none =>
    rw [h1] at he; simp only at he
    cases h2 : resolveUp x g.cur g.encl with
    | some q =>
      obtain ⟨j, l, ls⟩ := q
      rw [h2] at he; simp only [Prod.mk.injEq] at he
      obtain ⟨rfl, rfl⟩ := he
      obtain ⟨a, b, c, d, _⟩ := resolveUp_spec h.chain h2
      exact ⟨⟨⟨l.locals, by simp, a.locals⟩, by simp, a.ups, a.depth, by rw [a.consts]; exact List.prefix_refl _, c,
        List.prefix_refl _⟩, ⟨d, h.cur.mono a, c.inv h.encl, h.globals⟩, b⟩
    | none =>
      rw [h2] at he; simp only [Prod.mk.injEq] at he
      obtain ⟨rfl, rfl⟩ := he
      exact ⟨⟨⟨g.cur.locals, by simp [GState.addGlobal], .refl _⟩, by simp, List.prefix_refl _, rfl, List.prefix_refl _,
        .refl _, Pool.add_prefix _ _⟩, ⟨h.chain, h.cur, h.encl, Pool.inv_add h.globals _⟩, rfl⟩

theorem addGlobal_ext {g g' : GState} {x : String} {i : Nat} (h : GInv g) (he : g.addGlobal x = (i, g')) :
    GExtE g g' ∧ GInv g' ∧ g'.cur = g.cur ∧ g'.encl = g.encl := by
  simp only [GState.addGlobal, Prod.mk.injEq] at he
  obtain ⟨rfl, rfl⟩ := he
  exact ⟨⟨⟨g.cur.locals, by simp, .refl _⟩, by simp, List.prefix_refl _, rfl, List.prefix_refl _,
    .refl _, Pool.add_prefix _ _⟩, ⟨h.chain, h.cur, h.encl, Pool.inv_add h.globals _⟩, rfl, rfl⟩

theorem ChainOk.cur {l l' : GLevel} {ps : List GLevel} (h : ChainOk l ps) (hu : l'.upvalues = l.upvalues) :
    ChainOk l' ps := by
  cases ps with
  | nil => simpa [ChainOk, hu] using h
  | cons p ps => exact ⟨by intro u; rw [hu]; exact h.1 u, h.2⟩

theorem addConst_ext {g g' : GState} {x : Const} {i : Nat} (h : GInv g) (he : g.addConst x = (i, g')) :
    GExtE g g' ∧ GInv g' ∧ g'.cur.locals = g.cur.locals ∧ g'.encl = g.encl ∧ g'.globals = g.globals := by
  simp only [GState.addConst, GState.onCur, Prod.mk.injEq] at he
  obtain ⟨rfl, rfl⟩ := he
  exact ⟨⟨⟨g.cur.locals, by simp, .refl _⟩, by simp, List.prefix_refl _, rfl, Pool.add_prefix _ _,
    .refl _, List.prefix_refl _⟩, ⟨h.chain.cur rfl, ⟨h.cur.depths, Pool.inv_add h.cur.consts _⟩, h.encl, h.globals⟩, rfl,
    rfl, rfl⟩

/-- New locals, in order. -/
theorem defineLocals_spec (g : GState) (names : List String) :
    (g.defineLocals names).cur.locals = g.cur.locals ++ names.map (fun n => ⟨n, g.cur.depth, false⟩) ∧
    (g.defineLocals names).cur.upvalues = g.cur.upvalues ∧
    (g.defineLocals names).cur.depth = g.cur.depth ∧
    (g.defineLocals names).cur.constPool = g.cur.constPool ∧
    (g.defineLocals names).encl = g.encl ∧ (g.defineLocals names).globals = g.globals := by
  induction names generalizing g with
  | nil => simp [GState.defineLocals]
  | cons n ns ih =>
    obtain ⟨a, b, c, d, e, f⟩ := ih (g.defineLocal n)
    simp only [GState.defineLocals, a, b, c, d, e, f]
    simp [GState.defineLocal, GState.onCur, GLevel.defineLocal]

theorem defineLocals_ext {g : GState} (h : GInv g) (names : List String) :
    GExtN (names.map (fun n => ⟨n, g.cur.depth, false⟩)) g (g.defineLocals names) ∧ GInv (g.defineLocals names) := by
  obtain ⟨a, b, c, d, e, f⟩ := defineLocals_spec g names
  refine ⟨⟨⟨g.cur.locals, a, .refl _⟩, by simp, by rw [b]; exact List.prefix_refl _, c,
    by rw [d]; exact List.prefix_refl _, by rw [e]; exact .refl _, by rw [f]; exact List.prefix_refl _⟩,
    ⟨by rw [e]; exact h.chain.cur b, ⟨?_, by rw [d]; exact h.cur.consts⟩, by rw [e]; exact h.encl, by rw [f]; exact h.globals⟩⟩
  intro x hx
  rw [a] at hx
  rw [c]
  rcases List.mem_append.1 hx with hx | hx
  · exact h.cur.depths x hx
  · simp at hx; obtain ⟨_, _, rfl⟩ := hx; exact Nat.le_refl _

theorem reserveTemp_eq (g : GState) :
    g.reserveTemp = g.defineLocals ["#__temp_" ++ String.ofList (showNat g.cur.locals.length)] := rfl

theorem enterScope_inv {g : GState} (h : GInv g) : GInv g.enterScope :=
  ⟨h.chain.cur rfl, ⟨fun x hx => Nat.le_succ_of_le (h.cur.depths x hx), h.cur.consts⟩, h.encl, h.globals⟩

/-- Leaving a scope removes exactly the locals declared in it. -/
theorem exitScope_ext {g g' : GState} {new : List Local} (h : GInv g) (h' : GInv g') (he : GExtN new g.enterScope g') :
    GExtE g g'.exitScope ∧ GInv g'.exitScope ∧ g'.cur.leaving (g'.cur.depth - 1) = new.reverse := by
  obtain ⟨old, h1, h2⟩ := he.locals
  have hd : g'.cur.depth = g.cur.depth + 1 := he.depth
  have hnew : ∀ l ∈ new, l.depth = g.cur.depth + 1 := he.newDepth
  have hold : ∀ l ∈ old, l.depth ≤ g.cur.depth := h2.depths h.cur.depths
  have hleave : g'.cur.leaving (g'.cur.depth - 1) = new.reverse := by
    simp only [GLevel.leaving, h1, hd, Nat.add_sub_cancel, List.reverse_append]
    rw [List.takeWhile_append_of_pos]
    · have : List.takeWhile (fun x => decide (g.cur.depth < x.depth)) old.reverse = [] := by
        cases ho : old.reverse with
        | nil => rfl
        | cons a t =>
          have : a ∈ old := by rw [← List.mem_reverse, ho]; simp
          have := hold a this
          have hn : ¬ g.cur.depth < a.depth := by omega
          simp [hn]
      simp [this]
    · intro l hl; simp at hl; simp [hnew l hl]
  have hstay : g'.cur.staying (g'.cur.depth - 1) = old := by
    simp only [GLevel.staying, h1, hd, Nat.add_sub_cancel, List.reverse_append]
    rw [List.dropWhile_append_of_pos]
    · have : List.dropWhile (fun x => decide (g.cur.depth < x.depth)) old.reverse = old.reverse := by
        cases ho : old.reverse with
        | nil => rfl
        | cons a t =>
          have : a ∈ old := by rw [← List.mem_reverse, ho]; simp
          have := hold a this
          have hn : ¬ g.cur.depth < a.depth := by omega
          simp [hn]
      simp [this]
    · intro l hl; simp at hl; simp [hnew l hl]
  refine ⟨⟨⟨old, by simp [GState.exitScope, GState.onCur, hstay], h2⟩, by simp, he.ups, ?_, he.consts, he.encl,
    he.globals⟩, ⟨h'.chain.cur rfl, ⟨?_, h'.cur.consts⟩, h'.encl, h'.globals⟩, hleave⟩
  · simp [GState.exitScope, GState.onCur, hd]
  · rw [hd, Nat.add_sub_cancel] at hstay
    simp only [GState.exitScope, GState.onCur, hd, Nat.add_sub_cancel, hstay]
    exact hold

theorem enterFn_spec (g : GState) (name : String) (params : List String) :
    (g.enterFn name params).cur.locals = (name :: params).map (fun n => ⟨n, g.cur.depth + 1, false⟩) ∧
    (g.enterFn name params).cur.upvalues = [] ∧ (g.enterFn name params).cur.depth = g.cur.depth + 1 ∧
    (g.enterFn name params).cur.constPool = Pool.empty ∧ (g.enterFn name params).encl = g.cur :: g.encl ∧
    (g.enterFn name params).globals = g.globals := by
  have := defineLocals_spec ({ g with cur := GLevel.fresh g.cur.depth, encl := g.cur :: g.encl } : GState) (name :: params)
  simpa [GState.enterFn, GLevel.fresh] using this

theorem enterFn_inv {g : GState} (h : GInv g) (name : String) (params : List String) : GInv (g.enterFn name params) := by
  obtain ⟨a, b, c, d, e, f⟩ := enterFn_spec g name params
  refine ⟨?_, ⟨?_, ?_⟩, ?_, ?_⟩
  · rw [e]; refine ⟨?_, h.chain⟩
    intro u hu; rw [b] at hu; simp at hu
  · intro x hx; rw [a] at hx; rw [c]
    simp only [List.mem_map] at hx; obtain ⟨_, _, rfl⟩ := hx; exact Nat.le_refl _
  · rw [d]; exact Pool.inv_empty
  · rw [e]; intro l hl
    rcases List.mem_cons.1 hl with rfl | hl
    · exact h.cur
    · exact h.encl l hl
  · rw [f]; exact h.globals

/-- Tables of the enclosing level after a function body. -/
theorem leaveFn_ext {g g1 : GState} {name : String} {params : List String} {l : GLevel} {ls : List GLevel}
    (h1 : GInv g1) (he : GExt (g.enterFn name params) g1) (hl : g1.encl = l :: ls) :
    GExtE g { g1 with cur := l, encl := ls } ∧ GInv { g1 with cur := l, encl := ls } := by
  obtain ⟨new, he⟩ := he
  obtain ⟨a, b, c, d, e, f⟩ := enterFn_spec g name params
  have henc := he.encl
  rw [e, hl] at henc
  obtain ⟨hl1, hl2⟩ := henc
  have hch := h1.chain
  rw [hl] at hch
  have hg := he.globals
  rw [f] at hg
  refine ⟨⟨⟨l.locals, by simp, hl1.locals⟩, by simp, hl1.ups, hl1.depth, by rw [hl1.consts]; exact List.prefix_refl _,
    hl2, hg⟩, ⟨hch.2, h1.encl l (by simp [hl]), fun x hx => h1.encl x (by simp [hl, hx]), h1.globals⟩⟩

end Quilt
