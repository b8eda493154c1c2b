import Verif.Compiler.Heights
import Verif.Compiler.Boundary

/-!
# The heights of generated code stay within the room of the program
-/

set_option linter.unusedVariables false

namespace Quilt
open GM

/-- The function consists of code that stays within `K` slots, counted from its own slot, and so do the functions in its constants. -/
inductive FnIn (K : Nat) : Func → Prop
  | mk {f : Func} (c : Code) (o : Nat) : f.ops = c.ops → CodeOk f.consts c → (∀ q ∈ c, q.i.small = true) → f.consts.length ≤ 65536 →
      Seg K c (f.arity + 1) o → (∀ g, .fn g ∈ f.consts → FnIn K g) → FnIn K f

theorem FnIn.ok {K : Nat} {f : Func} (h : FnIn K f) : FnOk f := by
  induction h with
  | mk c o h1 h2 h3 h4 _ _ ih => exact .mk c h1 h2 h3 h4 ih

/-- The functions generated so far. -/
def Fns (K : Nat) (g : GState) : Prop := ∀ p ∈ g.cur.constPool :: g.encl.map (·.constPool), ∀ f, Const.fn f ∈ p.entries → FnIn K f

theorem Fns.same {K : Nat} {g g' : GState} (h : Fns K g) (h' : g'.cur.constPool = g.cur.constPool ∧ g'.encl.map (·.constPool) = g.encl.map (·.constPool)) : Fns K g' := by
  unfold Fns; rw [h'.1, h'.2]; exact h

theorem Fns.resolve {K : Nat} {g g' : GState} {x : String} {r : GState.Ref} (h : Fns K g) (he : g.resolve x = (r, g')) : Fns K g' := by
  refine h.same ?_
  have : g' = (g.resolve x).2 := by rw [he]
  subst this
  simp only [GState.resolve]
  split
  · exact ⟨rfl, rfl⟩
  · split
    · rename_i h; exact GJ.resolveUp_consts h
    · exact ⟨rfl, rfl⟩

theorem Fns.addGlobal {K : Nat} {g g' : GState} {x : String} {i : Nat} (h : Fns K g) (he : g.addGlobal x = (i, g')) : Fns K g' := by
  have : g' = (g.addGlobal x).2 := by rw [he]
  subst this; exact h.same ⟨rfl, rfl⟩

theorem Fns.defineLocals {K : Nat} {g : GState} (h : Fns K g) (xs : List String) : Fns K (g.defineLocals xs) := h.same (GJ.defineLocals_same xs g)
theorem Fns.enterScope {K : Nat} {g : GState} (h : Fns K g) : Fns K g.enterScope := h.same ⟨rfl, rfl⟩
theorem Fns.exitScope {K : Nat} {g : GState} (h : Fns K g) : Fns K g.exitScope := h.same ⟨rfl, rfl⟩
theorem Fns.reserveTemp {K : Nat} {g : GState} (h : Fns K g) : Fns K g.reserveTemp := h.same ⟨rfl, rfl⟩

theorem Fns.addConst {K : Nat} {g g' : GState} {x : Const} {i : Nat} (h : Fns K g) (hi : GInv g) (he : g.addConst x = (i, g'))
    (hx : ∀ f, x = .fn f → FnIn K f) : Fns K g' := by
  have : g' = (g.addConst x).2 := by rw [he]
  subst this
  intro p hp f hf
  rcases List.mem_cons.1 hp with rfl | hp
  · have hf' : Const.fn f ∈ (g.cur.constPool.add x).2.entries := hf
    rw [Pool.add_entries hi.cur.consts] at hf'
    split at hf'
    · exact h _ (List.mem_cons_self ..) f hf'
    · rcases List.mem_append.1 hf' with hf' | hf'
      · exact h _ (List.mem_cons_self ..) f hf'
      · exact hx f (List.mem_singleton.1 hf').symm
  · exact h p (List.mem_cons_of_mem _ hp) f hf

theorem Fns.lvs {K : Nat} {g : GState} (h : Fns K g) (hi : GInv g) : LvsOk g := by
  refine ⟨⟨hi.cur.consts, fun f hf => (h _ (List.mem_cons_self ..) f hf).ok⟩, fun p hp => ⟨?_, fun f hf => (h p (List.mem_cons_of_mem _ hp) f hf).ok⟩⟩
  obtain ⟨l, hl, rfl⟩ := List.mem_map.1 hp
  exact (hi.encl l hl).consts

/-- Number of locals of the function that is being compiled. -/
abbrev nl (g : GState) : Nat := g.cur.locals.length

theorem GExtN.nl {new : List Local} {g g' : GState} (h : GExtN new g g') : nl g' = nl g + new.length := by
  obtain ⟨old, h1, h2⟩ := h.locals
  show g'.cur.locals.length = _
  rw [h1, List.length_append, ← h2.length_eq]

theorem StepE.nl {g g' : GState} (h : StepE g g') : nl g' = nl g := h.1.nl
theorem StepN.nl {g g' : GState} (h : StepN g g') : nl g ≤ nl g' := by
  obtain ⟨⟨new, h1⟩, _⟩ := h
  rw [h1.nl]; omega
theorem StepN.depth {g g' : GState} (h : StepN g g') : g'.cur.depth = g.cur.depth := by
  obtain ⟨⟨new, h1⟩, _⟩ := h
  exact h1.depth

theorem nl_defineLocals (g : GState) (xs : List String) : nl (g.defineLocals xs) = nl g + xs.length := by
  have := (defineLocals_spec g xs).1
  show (g.defineLocals xs).cur.locals.length = _
  rw [this]; simp

variable {K : Nat} {cfg : Cfg}

/-- Leaving a scope takes its locals from below the result. -/
theorem scope_seg {g gb : GState} {cb : Code} {x h : Nat} (hi : GInv g) (hb : StepN g.enterScope gb) (sp : Span)
    (hs : Seg K cb x (h + 1 + (nl gb - nl g))) : Seg K (cb ++ gb.exitC sp) x (h + 1) := by
  obtain ⟨⟨new, h1⟩, h2⟩ := hb
  have h3 := (exitScope_ext hi h2 h1).2.2
  have h4 : nl gb = nl g + new.length := h1.nl
  have h5 : ((gb.cur.leaving (gb.cur.depth - 1)).map (·.captured)).length = nl gb - nl g := by rw [h3]; simp; omega
  refine hs.append ?_
  have := Seg.exitCode (K := K) (sp := sp) (h := h) (cs := (gb.cur.leaving (gb.cur.depth - 1)).map (·.captured)) (by rw [h5]; exact hs.out_le)
  rw [h5] at this
  exact this

/-- What is proved of statements. -/
def StmtsOk (K : Nat) (ns : List Node) (g g' : GState) (c : Code) : Prop :=
  Fns K g' ∧ ∀ h, h + (if g.cur.depth = 0 then roomL true ns else roomL false ns) ≤ K → Seg K c h (h + 1 + (nl g' - nl g))

/-- What is proved of a node. -/
structure NodeOk (K : Nat) (n : Node) (m : Mode) (g g' : GState) (c : Code) : Prop where
  fns : Fns K g'
  locs : nl g' = nl g + (if g.cur.depth = 0 then 0 else n.loc)
  seg : ∀ h, h + n.room ≤ K → Seg K c h (h + (if n.isStatement then nl g' - nl g else if m = .stmt true then 0 else 1))
  ret : endsRet [n] = true → ∀ h, h + n.room ≤ K → Seg K c h (h + 1)

theorem NodeOk.e {n : Node} {g g' : GState} {c : Code} (h : NodeOk K n .expr g g' c) (hn : n.isStatement = false) {x : Nat} (hx : x + n.room ≤ K) : Seg K c x (x + 1) := by
  have := h.seg x hx
  simpa [hn] using this

theorem load_eff (r : GState.Ref) : r.load.eff = some (0, 1) := by cases r <;> rfl
theorem store_eff (r : GState.Ref) : r.store.eff = some (1, 1) := by cases r <;> rfl
theorem clos_eff (i : Nat) (us : List Upv) : (closInstr i us).eff = some (0, 1) := by unfold closInstr; split <;> rfl

theorem NodeOk.mk' {n : Node} {m : Mode} {g g' : GState} {c c1 : Code} (hn : n.isStatement = false) (hi : GInv g) (hE : StepE g g')
    (hc : c = c1 ++ if m = .stmt true then [.at' .pop n.span] else []) (hf : Fns K g') (hs : ∀ h, h + n.room ≤ K → Seg K c1 h (h + 1)) : NodeOk K n m g g' c := by
  have hl : n.loc = 0 := by cases n <;> first | rfl | simp [Node.isStatement] at hn
  have hr : endsRet [n] = false := by cases n <;> first | rfl | simp [Node.isStatement] at hn
  refine ⟨hf, by rw [hl, hE.nl]; simp, fun h hh => ?_, fun h => by rw [hr] at h; cases h⟩
  have h1 := hs h hh
  subst hc
  by_cases hm : m = .stmt true
  · simp only [hn, hm, if_true, Bool.false_eq_true, if_false]
    have := h1.out_le
    exact h1.append (Seg.one (x := 1) (y := 0) rfl (by omega) (by omega) (by omega) (by omega))
  · simpa [hn, hm] using h1

theorem func_rm {name : Name} {params : List Name} {sp : Span} {body : List Node} {u : Unit} {c : Code} {g g' : GState} (hi : GInv g) (hf : Fns K g)
    (hb : ∀ {g s c g'}, GInv g → g.cur.depth ≠ 0 → Fns K g → genStmts cfg true body g = .ok (s, c, g') → StmtsOk K body g g' c)
    (hK : frameRoom params.length body ≤ K) (he : GM.func true name params sp (genStmts cfg true body) g = .ok (u, c, g')) :
    Fns K g' ∧ ∀ h, h + 1 ≤ K → Seg K c h (h + 1) := by
  obtain ⟨s, cb, g1, l, ls, h1, h2, h3, rfl, rfl⟩ := func_ok.1 he
  obtain ⟨a1, a2, a3, a4, a5, a6⟩ := enterFn_spec g name.1 (params.map Prod.fst)
  have i1 := enterFn_inv hi name.1 (params.map Prod.fst)
  have f1 : Fns K (g.enterFn name.1 (params.map Prod.fst)) := by
    intro p hp f hfp
    rw [a4, a5] at hp
    simp only [List.map_cons, List.mem_cons] at hp
    rcases hp with rfl | hp
    · simp [Pool.empty] at hfp
    · exact hf p (List.mem_cons.2 hp) f hfp
  obtain ⟨k1, k2⟩ := hb i1 (by rw [a3]; omega) f1 h1
  have st := ext_stmts cfg true body i1 h1
  obtain ⟨b1, b2⟩ := leaveFn_ext st.2 st.1 h2
  have hd : g1.cur.depth ≠ 0 := by rw [st.depth, a3]; omega
  refine ⟨?_, fun h hh => Seg.one (clos_eff _ _) (by omega) (by omega) rfl (by omega)⟩
  refine Fns.addConst (g := { g1 with cur := l, encl := ls }) ?_ b2 rfl ?_
  · intro p hp
    refine k1 p (List.mem_cons_of_mem _ ?_)
    rw [h2]; exact hp
  · rintro f hfn
    cases hfn
    have hj := gj_stmts cfg body [] _ _ _ _ h1 List.nil_prefix (f1.lvs i1)
    have hfit := h3 rfl
    simp only [fnFits, Bool.and_eq_true, decide_eq_true_eq, List.all_eq_true] at hfit
    refine .mk cb _ ?_ hj.2.2.1 hfit.1.1 hfit.1.2 (k2 (params.length + 1) ?_) (k1 _ (List.mem_cons_self ..))
    · simp [mkFunc, CM.finish, hd, Func.ops, Chunk.emit, Chunk.empty]
    · rw [a3, if_neg (by omega)]; exact hK

/-- A scope around statements. -/
theorem inScope_rm {body : List Node} {u : Unit} {c : Code} {g g' : GState} (hi : GInv g) (hf : Fns K g)
    (hb : ∀ {g s c g'}, GInv g → g.cur.depth ≠ 0 → Fns K g → genStmts cfg true body g = .ok (s, c, g') → StmtsOk K body g g' c)
    (he : inScope (genStmts cfg true body) g = .ok (u, c, g')) :
    Fns K g' ∧ ∀ h, h + roomL false body ≤ K → Seg K c h (h + 1) := by
  obtain ⟨s, cb, gb, h1, rfl, rfl⟩ := inScope_inv he
  have i1 := enterScope_inv hi
  obtain ⟨k1, k2⟩ := hb i1 (by simp [GState.enterScope, GState.onCur]) hf.enterScope h1
  refine ⟨k1.exitScope, fun h hh => scope_seg hi (ext_stmts cfg true body i1 h1) s ?_⟩
  exact k2 h (by rw [if_neg (by simp [GState.enterScope, GState.onCur])]; exact hh)

theorem defineGlobals_rm : ∀ {xs : List Name} {u : Unit} {c : Code} {g g' : GState}, Fns K g → defineGlobals xs g = .ok (u, c, g') →
    Fns K g' ∧ ∀ h, h + xs.length ≤ K → Seg K c (h + xs.length) h
  | [], _, _, _, _, hf, he => by
    simp only [defineGlobals, pure_ok] at he
    obtain ⟨_, rfl, rfl⟩ := he
    exact ⟨hf, fun h hh => Seg.nil hh⟩
  | x :: xs, _, _, _, _, hf, he => by
    obtain ⟨i, g1, c1, h1, h2, rfl⟩ := defineGlobals_cons he
    obtain ⟨k1, k2⟩ := defineGlobals_rm (hf.addGlobal h1) h2
    refine ⟨k1, fun h hh => ?_⟩
    simp only [List.length_cons] at hh ⊢
    exact (k2 h (by omega)).cons (x := 1) (y := 0) rfl (by omega) hh (by omega)

theorem declVar_rm {sp : Span} {v : Var} {u : Unit} {c : Code} {g g' : GState} (hi : GInv g) (hf : Fns K g) (he : declVar sp v g = .ok (u, c, g')) :
    Fns K g' ∧ nl g' = nl g + (if g.cur.depth = 0 then 0 else v.count) ∧ ∀ h, h + 1 ≤ K → h + v.count ≤ K → Seg K c (h + 1) (h + (if g.cur.depth = 0 then 0 else v.count)) := by
  cases v with
  | one x =>
    rcases declVar_one he with ⟨hd, i, h1, rfl⟩ | ⟨hd, r, h1, rfl⟩
    · refine ⟨hf.addGlobal h1, ?_, fun h hh _ => Seg.one (x := 1) (y := 0) rfl (by omega) hh (by simp [hd]) (by simp [hd]; omega)⟩
      rw [(step_addGlobal hi h1).nl]; simp [hd]
    · have a := step_defineLocals hi [x.1]
      refine ⟨(hf.defineLocals _).resolve h1, ?_, fun h hh _ => Seg.one (store_eff r) (by omega) hh (by simp [hd, Var.count]) (by simp [hd, Var.count]; omega)⟩
      have := (resolve_ext a.2 h1).1.nl
      rw [this, nl_defineLocals]; simp [hd, Var.count]
  | many xs =>
    obtain ⟨h0, ⟨hd, c1, h1, rfl⟩ | ⟨hd, rfl, rfl⟩⟩ := declVar_many he
    · obtain ⟨k1, k2⟩ := defineGlobals_rm hf h1
      refine ⟨k1, ?_, fun h hh hv => ?_⟩
      · rw [(step_defineGlobals hi h1).nl]; simp [hd]
      · simp only [hd, if_true, Nat.add_zero]
        exact (k2 h hv).cons (x := 1) (y := xs.length) rfl (by omega) hh (by omega)
    · refine ⟨hf.defineLocals _, by rw [nl_defineLocals]; simp [hd, Var.count], fun h hh hv => ?_⟩
      exact Seg.one (x := 1) (y := xs.length) rfl (by omega) hh (by simp [hd, Var.count]) (by simpa [hd] using hv)

theorem ctxVar_rm {sp csp : Span} {v : Option Var} {u : Unit} {c : Code} {g g' : GState} (hi : GInv g) (hf : Fns K g) (he : ctxVar sp csp v g = .ok (u, c, g')) :
    Fns K g' ∧ nl g' = nl g + varCount v ∧ ∀ h, h + 1 ≤ K → h + varCount v ≤ K → Seg K c (h + 1) (h + varCount v) := by
  cases v with
  | none =>
    obtain ⟨rfl, rfl⟩ := ctxVar_none he
    exact ⟨hf, rfl, fun h hh _ => Seg.one (x := 1) (y := 0) rfl (by omega) hh (by simp [varCount]) (by simp [varCount]; omega)⟩
  | some v =>
    cases v with
    | one x =>
      obtain ⟨r, h1, rfl⟩ := ctxVar_one he
      have a := step_defineLocals hi [x.1]
      refine ⟨(hf.defineLocals _).resolve h1, ?_, fun h hh _ => Seg.one (store_eff r) (by omega) hh (by simp [varCount, Var.count]) (by simp [varCount, Var.count]; omega)⟩
      have := (resolve_ext a.2 h1).1.nl
      rw [this, nl_defineLocals]; simp [varCount, Var.count]
    | many xs =>
      obtain ⟨h0, rfl, rfl⟩ := ctxVar_many he
      refine ⟨hf.defineLocals _, by rw [nl_defineLocals]; simp [varCount, Var.count], fun h hh hv => ?_⟩
      exact Seg.one (x := 1) (y := xs.length) rfl (by omega) hh (by simp [varCount, Var.count]) hv

mutual
theorem rm_node (K : Nat) (cfg : Cfg) : ∀ (n : Node) (m : Mode), n.shaped = true ∨ n.shapedTop = true → n.frames ≤ K → ∀ {u : Unit} {c : Code} {g g' : GState},
    GInv g → Fns K g → genNode cfg true m n g = .ok (u, c, g') → NodeOk K n m g g' c
  | .lit sp l, m, hs, hK, _, _, g, g', hi, hf, he => by
    have hE := (ext_node cfg true _ m hi he).2 (.inr rfl)
    obtain ⟨c1, he, hc⟩ := genNode_mode rfl he
    rcases gen_lit he with ⟨_, rfl, rfl⟩ | ⟨i, h1, rfl⟩
    · exact .mk' rfl hi hE hc hf fun h hh => Seg.one (x := 0) (y := 1) rfl (by omega) (by omega) (by omega) hh
    · exact .mk' rfl hi hE hc (hf.addConst hi h1 (by intro f hf; cases hf)) fun h hh => Seg.one (x := 0) (y := 1) rfl (by omega) (by omega) (by omega) hh
  | .ident sp x, m, hs, hK, _, _, g, g', hi, hf, he => by
    have hE := (ext_node cfg true _ m hi he).2 (.inr rfl)
    obtain ⟨c1, he, hc⟩ := genNode_mode rfl he
    obtain ⟨r, h1, rfl⟩ := gen_ident he
    exact .mk' rfl hi hE hc (hf.resolve h1) fun h hh => Seg.one (load_eff r) (by omega) (by omega) (by omega) hh
  | .assign sp x e, m, hs, hK, _, _, g, g', hi, hf, he => by
    have hE := (ext_node cfg true _ m hi he).2 (.inr rfl)
    obtain ⟨c1, he, hc⟩ := genNode_mode rfl he
    obtain ⟨ce, ge, r, h1, h2, rfl⟩ := gen_assign he
    simp only [Node.shaped, Node.shapedTop, or_self, Bool.and_eq_true, Bool.not_eq_true'] at hs
    have k := rm_node K cfg e .expr (.inl hs.2) hK hi hf h1
    refine .mk' rfl hi hE hc (k.fns.resolve h2) fun h hh => ?_
    have s1 := k.e hs.1 (x := h) hh
    exact s1.append (Seg.one (store_eff r) (by omega) s1.out_le (by omega) s1.out_le)
  | .un sp op e, m, hs, hK, _, _, g, g', hi, hf, he => by
    have hE := (ext_node cfg true _ m hi he).2 (.inr rfl)
    obtain ⟨c1, he, hc⟩ := genNode_mode rfl he
    simp only [Node.shaped, Node.shapedTop, or_self, Bool.and_eq_true, Bool.not_eq_true'] at hs
    rcases gen_un he with ⟨l, i, hfo, h1, rfl⟩ | ⟨ce, h1, ho, rfl⟩
    · refine .mk' rfl hi hE hc (hf.addConst hi h1 (by intro f hf; cases hf)) fun h hh => ?_
      have h1 : 1 ≤ e.room := by
        unfold foldUnary at hfo
        split at hfo <;> first | (simp [Node.room]; done) | cases hfo
      have hh : h + e.room ≤ K := hh
      exact Seg.one (x := 0) (y := 1) rfl (by omega) (by omega) (by omega) (by omega)
    · have k := rm_node K cfg e .expr (.inl hs.2) hK hi hf h1
      refine .mk' rfl hi hE hc k.fns fun h hh => ?_
      have s1 := k.e hs.1 (x := h) hh
      exact s1.append (Seg.one (x := 1) (y := 1) rfl (by omega) s1.out_le (by omega) s1.out_le)
  | .pair sp a b, m, hs, hK, _, _, g, g', hi, hf, he => by
    have hE := (ext_node cfg true _ m hi he).2 (.inr rfl)
    obtain ⟨c1, he, hc⟩ := genNode_mode rfl he
    simp only [Node.shaped, Node.shapedTop, or_self, Bool.and_eq_true, Bool.not_eq_true'] at hs
    simp only [Node.frames] at hK
    obtain ⟨ca, ga, cb, h1, h2, rfl⟩ := gen_pair he
    have k := rm_node K cfg a .expr (.inl hs.1.2) (by omega) hi hf h1
    have l := rm_node K cfg b .expr (.inl hs.2.2) (by omega) (ext_node cfg true _ _ hi h1).1.2 k.fns h2
    refine .mk' rfl hi hE hc l.fns fun h hh => ?_
    simp only [Node.room] at hh
    have s1 := k.e hs.1.1 (x := h) (by omega)
    have s2 := l.e hs.2.1 (x := h + 1) (by omega)
    exact s1.append (s2.append (Seg.one (x := 2) (y := 1) rfl (by omega) s2.out_le (by omega) s1.out_le))
  | .range sp a b, m, hs, hK, _, _, g, g', hi, hf, he => by
    have hE := (ext_node cfg true _ m hi he).2 (.inr rfl)
    obtain ⟨c1, he, hc⟩ := genNode_mode rfl he
    simp only [Node.shaped, Node.shapedTop, or_self, Bool.and_eq_true, Bool.not_eq_true'] at hs
    simp only [Node.frames] at hK
    obtain ⟨ca, ga, cb, h1, h2, rfl⟩ := gen_range he
    have k := rm_node K cfg a .expr (.inl hs.1.2) (by omega) hi hf h1
    have l := rm_node K cfg b .expr (.inl hs.2.2) (by omega) (ext_node cfg true _ _ hi h1).1.2 k.fns h2
    refine .mk' rfl hi hE hc l.fns fun h hh => ?_
    simp only [Node.room] at hh
    have s1 := k.e hs.1.1 (x := h) (by omega)
    have s2 := l.e hs.2.1 (x := h + 1) (by omega)
    exact s1.append (s2.append (Seg.one (x := 2) (y := 1) rfl (by omega) s2.out_le (by omega) s1.out_le))
  | .bin sp op a b, m, hs, hK, _, _, g, g', hi, hf, he => by
    have hE := (ext_node cfg true _ m hi he).2 (.inr rfl)
    obtain ⟨c1, he, hc⟩ := genNode_mode rfl he
    simp only [Node.shaped, Node.shapedTop, or_self, Bool.and_eq_true, Bool.not_eq_true'] at hs
    simp only [Node.frames] at hK
    obtain ⟨ca, ga, cb, h1, h2, _, rfl⟩ := gen_bin he
    have k := rm_node K cfg a .expr (.inl hs.1.2) (by omega) hi hf h1
    have l := rm_node K cfg b .expr (.inl hs.2.2) (by omega) (ext_node cfg true _ _ hi h1).1.2 k.fns h2
    refine .mk' rfl hi hE hc l.fns fun h hh => ?_
    simp only [Node.room] at hh
    have s1 := k.e hs.1.1 (x := h) (by omega)
    have s2 := l.e hs.2.1 (x := h + 1) (by omega)
    exact s1.append (s2.append (Seg.one (x := 2) (y := 1) rfl (by omega) s2.out_le (by omega) s1.out_le))
  | .index sp e i, m, hs, hK, _, _, g, g', hi, hf, he => by
    have hE := (ext_node cfg true _ m hi he).2 (.inr rfl)
    obtain ⟨c1, he, hc⟩ := genNode_mode rfl he
    simp only [Node.shaped, Node.shapedTop, or_self, Bool.and_eq_true, Bool.not_eq_true'] at hs
    simp only [Node.frames] at hK
    obtain ⟨ca, ga, cb, h1, h2, rfl⟩ := gen_index he
    have k := rm_node K cfg i .expr (.inl hs.2.2) (by omega) hi hf h1
    have l := rm_node K cfg e .expr (.inl hs.1.2) (by omega) (ext_node cfg true _ _ hi h1).1.2 k.fns h2
    refine .mk' rfl hi hE hc l.fns fun h hh => ?_
    simp only [Node.room] at hh
    have s1 := k.e hs.2.1 (x := h) (by omega)
    have s2 := l.e hs.1.1 (x := h + 1) (by omega)
    exact s1.append (s2.append (Seg.one (x := 2) (y := 1) rfl (by omega) s2.out_le (by omega) s1.out_le))
  | .array sp items, m, hs, hK, _, _, g, g', hi, hf, he => by
    have hE := (ext_node cfg true _ m hi he).2 (.inr rfl)
    obtain ⟨c1, he, hc⟩ := genNode_mode rfl he
    simp only [Node.shaped, Node.shapedTop, or_self] at hs
    obtain ⟨ca, _, h1, rfl⟩ := gen_array he
    obtain ⟨k1, k2⟩ := rm_rev K cfg items hs hK hi hf h1
    refine .mk' rfl hi hE hc k1 fun h hh => ?_
    simp only [Node.room] at hh
    have s1 := k2 h (by omega)
    have := s1.out_le
    exact s1.append (Seg.one (x := items.length) (y := 1) rfl (by omega) s1.out_le (by omega) (by omega))
  | .call sp f args, m, hs, hK, _, _, g, g', hi, hf, he => by
    have hE := (ext_node cfg true _ m hi he).2 (.inr rfl)
    obtain ⟨c1, he, hc⟩ := genNode_mode rfl he
    simp only [Node.shaped, Node.shapedTop, or_self, Bool.and_eq_true, Bool.not_eq_true'] at hs
    simp only [Node.frames] at hK
    obtain ⟨cf, gf, ca, _, h1, h2, rfl⟩ := gen_call he
    have k := rm_node K cfg f .expr (.inl hs.1.2) (by omega) hi hf h1
    obtain ⟨l1, l2⟩ := rm_args K cfg args hs.2 (by omega) (ext_node cfg true _ _ hi h1).1.2 k.fns h2
    refine .mk' rfl hi hE hc l1 fun h hh => ?_
    simp only [Node.room] at hh
    have s1 := k.e hs.1.1 (x := h) (by omega)
    have s2 := l2 (h + 1) (by omega)
    exact s1.append (s2.append (Seg.one (x := args.length + 1) (y := 1) rfl (by omega) s2.out_le (by omega) s1.out_le))
  | .builtin sp x args, m, hs, hK, _, _, g, g', hi, hf, he => by
    have hE := (ext_node cfg true _ m hi he).2 (.inr rfl)
    obtain ⟨c1, he, hc⟩ := genNode_mode rfl he
    simp only [Node.shaped, Node.shapedTop, or_self] at hs
    obtain ⟨ca, ga, i, _, h1, h2, rfl⟩ := gen_builtin he
    obtain ⟨k1, k2⟩ := rm_args K cfg args hs hK hi hf h1
    refine .mk' rfl hi hE hc (k1.addGlobal h2) fun h hh => ?_
    simp only [Node.room] at hh
    have s1 := k2 h (by omega)
    exact s1.append (Seg.one (x := args.length) (y := 1) rfl (by omega) s1.out_le (by omega) (by omega))
  | .ctx sp x args v body, m, hs, hK, _, _, g, g', hi, hf, he => by
    have hE := (ext_node cfg true _ m hi he).2 (.inr rfl)
    obtain ⟨c1, he, hc⟩ := genNode_mode rfl he
    simp only [Node.shaped, Node.shapedTop, or_self, Bool.and_eq_true] at hs
    simp only [Node.frames] at hK
    obtain ⟨ca, ga, i, gi, cv, gv, s, cb, gb, _, h1, h2, h3, h4, rfl, rfl⟩ := gen_ctx he
    obtain ⟨k1, k2⟩ := rm_args K cfg args hs.1 (by omega) hi hf h1
    have e1 := (ext_args cfg true args hi h1).trans (step_addGlobal (ext_args cfg true args hi h1).2 h2)
    obtain ⟨l1, l2, l3⟩ := ctxVar_rm (enterScope_inv e1.2) (k1.addGlobal h2).enterScope h3
    have e2 := step_ctxVar (enterScope_inv e1.2) h3
    have hd : gv.cur.depth ≠ 0 := by rw [e2.depth]; simp [GState.enterScope, GState.onCur]
    obtain ⟨m1, m2⟩ := rm_stmts K cfg body (by omega) e2.2 (by rw [if_neg hd]; exact hs.2) l1 h4
    have e3 := ext_stmts cfg true body e2.2 h4
    refine .mk' rfl hi hE hc m1.exitScope fun h hh => ?_
    simp only [Node.room] at hh
    have s1 := k2 h (by omega)
    have s2 := l3 h (by omega) (by omega)
    have s3 := m2 (h + varCount v) (by rw [if_neg hd]; omega)
    have hn : nl gi.enterScope = nl gi := rfl
    have hle := e3.nl
    have s4 : Seg K (cv ++ cb) (h + 1) (h + 1 + (nl gb - nl gi)) := by
      refine s2.append ?_
      rwa [show h + 1 + (nl gb - nl gi) = h + varCount v + 1 + (nl gb - nl gv) by omega]
    have s5 := scope_seg e1.2 (e2.trans e3) sp s4
    refine s1.append (Seg.cons (x := args.length) (y := 1) (m := h + 1) ?_ rfl (by omega) s1.out_le (by omega))
    have s6 := s5.append (Seg.one (q := .at' .exitContext sp) (x := 0) (y := 0) (o := h + 1) rfl (by omega) s5.out_le (by omega) s5.out_le)
    simpa using s6
  | .block sp body, m, hs, hK, _, _, g, g', hi, hf, he => by
    have hE := (ext_node cfg true _ m hi he).2 (.inr rfl)
    obtain ⟨c1, he, hc⟩ := genNode_mode rfl he
    simp only [Node.shaped, Node.shapedTop, or_self] at hs
    obtain ⟨k1, k2⟩ := inScope_rm hi hf (fun i d f e => rm_stmts K cfg body hK i (by rw [if_neg d]; exact hs) f e) (gen_block he)
    exact .mk' rfl hi hE hc k1 k2
  | .lambda sp ps body, m, hs, hK, _, _, g, g', hi, hf, he => by
    have hE := (ext_node cfg true _ m hi he).2 (.inr rfl)
    obtain ⟨c1, he, hc⟩ := genNode_mode rfl he
    simp only [Node.shaped, Node.shapedTop, or_self, Bool.and_eq_true] at hs
    simp only [Node.frames] at hK
    obtain ⟨k1, k2⟩ := func_rm hi hf (fun i d f e => rm_stmts K cfg body (by omega) i (by rw [if_neg d]; exact hs.1) f e) (by omega) (gen_lambda he).2
    exact .mk' rfl hi hE hc k1 k2
  | .cond sp cn th el, m, hs, hK, _, _, g, g', hi, hf, he => by
    have hE := (ext_node cfg true _ m hi he).2 (.inr rfl)
    obtain ⟨c1, he, hc⟩ := genNode_mode rfl he
    simp only [Node.shaped, Node.shapedTop, or_self, Bool.and_eq_true, Bool.not_eq_true'] at hs
    simp only [Node.frames] at hK
    obtain ⟨cc, gc, a, ga, b, h1, h2, h3, _, _, rfl⟩ := gen_cond he
    have k := rm_node K cfg cn .expr (.inl hs.1.1.2) (by omega) hi hf h1
    have e1 := (ext_node cfg true _ _ hi h1).1.2
    obtain ⟨l1, l2⟩ := inScope_rm e1 k.fns (fun i d f e => rm_stmts K cfg th (by omega) i (by rw [if_neg d]; exact hs.1.2) f e) h2
    obtain ⟨m1, m2⟩ := rm_else K cfg el hs.2 (by omega) (step_inScope e1 (ext_stmts cfg true th) h2).2 l1 h3
    refine .mk' rfl hi hE hc m1 fun h hh => ?_
    simp only [Node.room] at hh
    have s1 := k.e hs.1.1.1 (x := h + 1) (by omega)
    have hh2 := s1.out_le
    have s2 := l2 h (by omega)
    have s3 := m2 h (by omega) (by omega)
    refine Seg.cons (x := 0) (y := 1) (m := h + 1) (s1.append ?_) rfl (by omega) (by omega) (by omega)
    have s4 : Seg K (.at' (.popMany 2) sp :: a) (h + 2) (h + 1) := Seg.cons (x := 2) (y := 0) (m := h) s2 rfl (by omega) (by omega) (by omega)
    have la : Code.len (.at' (.popMany 2) sp :: a) + 3 = a.len + 6 := by simp [Instr.enc, u16le]; omega
    have := Seg.branch (J := .at' (.jumpIfFalse (a.len + 6)) sp) (T := .at' (.jumpForward b.len) sp) (x := h + 2) (h := h + 2)
      (.inl ⟨by rw [la], by omega, rfl⟩) rfl hh2 s4 s3
    simpa using this
  | .switch sp v cs d, m, hs, hK, _, _, g, g', hi, hf, he => by
    have hE := (ext_node cfg true _ m hi he).2 (.inr rfl)
    obtain ⟨c1, he, hc⟩ := genNode_mode rfl he
    simp only [Node.shaped, Node.shapedTop, or_self, Bool.and_eq_true, Bool.not_eq_true'] at hs
    simp only [Node.frames] at hK
    obtain ⟨cv, gv, ps, cx, gp, dc, h1, h2, h3, _, rfl⟩ := gen_switch he
    have k := rm_node K cfg v .expr (.inl hs.1.1.2) (by omega) hi hf h1
    have e1 := (ext_node cfg true _ _ hi h1).1.2
    obtain ⟨l1, rfl, l2⟩ := rm_cases K cfg cs hs.1.2 (by omega) e1 k.fns h2
    obtain ⟨m1, m2⟩ := rm_else K cfg d hs.2 (by omega) (ext_cases cfg true cs e1 h2).2 l1 h3
    refine .mk' rfl hi hE hc m1 fun h hh => ?_
    simp only [Node.room] at hh
    have s1 := k.e hs.1.1.1 (x := h + 1) (by omega)
    exact Seg.cons (x := 0) (y := 1) (m := h + 1) (s1.append (l2 h (by omega) (by omega) _ (m2 h (by omega) (by omega)))) rfl (by omega) (by omega) (by omega)
  | .while sp cn body, m, hs, hK, _, _, g, g', hi, hf, he => by
    have hE := (ext_node cfg true _ m hi he).2 (.inr rfl)
    obtain ⟨c1, he, hc⟩ := genNode_mode rfl he
    simp only [Node.shaped, Node.shapedTop, or_self, Bool.and_eq_true, Bool.not_eq_true'] at hs
    simp only [Node.frames] at hK
    obtain ⟨cc, gc, b, h1, h2, _, rfl⟩ := gen_while he
    have k := rm_node K cfg cn .expr (.inl hs.1.2) (by omega) hi hf h1
    have e1 := (ext_node cfg true _ _ hi h1).1.2
    obtain ⟨l1, l2⟩ := inScope_rm e1 k.fns (fun i d f e => rm_stmts K cfg body (by omega) i (by rw [if_neg d]; exact hs.2) f e) h2
    refine .mk' rfl hi hE hc l1 fun h hh => ?_
    simp only [Node.room] at hh
    have s1 := k.e hs.1.1 (x := h + 1) (by omega)
    have hh2 := s1.out_le
    have s2 := l2 h (by omega)
    have s4 : Seg K (.at' (.popMany 2) cn.span :: b) (h + 2) (h + 1) := Seg.cons (x := 2) (y := 0) (m := h) s2 rfl (by omega) (by omega) (by omega)
    have la : Code.len (.at' (.popMany 2) cn.span :: b) = b.len + 3 := by simp [Instr.enc, u16le]; omega
    have := Seg.loop (J := .at' (.jumpIfFalse (b.len + 6)) sp) (T := .at' (.jumpBackward (cc.len + b.len + 9)) cn.span) (P := .at' .pop cn.span)
      (by rw [la]) (by rw [la]; rfl) rfl s1 s4
    exact Seg.cons (x := 0) (y := 1) (m := h + 1) (by simpa using this) rfl (by omega) (by omega) (by omega)
  | .forIn sp x it body, m, hs, hK, _, _, g, g', hi, hf, he => by
    have hE := (ext_node cfg true _ m hi he).2 (.inr rfl)
    obtain ⟨c1, he, hc⟩ := genNode_mode rfl he
    simp only [Node.shaped, Node.shapedTop, or_self, Bool.and_eq_true, Bool.not_eq_true'] at hs
    simp only [Node.frames] at hK
    obtain ⟨ci, gi, s, cb, gb, h1, h2, _, rfl, rfl⟩ := gen_forIn he
    have i0 := enterScope_inv hi
    have t1 := step_reserveTemp i0
    have t2 := t1.trans (step_reserveTemp t1.2)
    have k := rm_node K cfg it .expr (.inl hs.1.2) (by omega) t2.2 hf.enterScope.reserveTemp.reserveTemp h1
    have t3 := ext_node cfg true _ _ t2.2 h1
    have t4 := step_defineLocals (enterScope_inv t3.1.2) [x.1]
    have hd : (gi.enterScope.defineLocals [x.1]).cur.depth ≠ 0 := by rw [t4.depth]; simp [GState.enterScope, GState.onCur]
    obtain ⟨l1, l2⟩ := rm_stmts K cfg body (by omega) t4.2 (by rw [if_neg hd]; exact hs.2) (k.fns.enterScope.defineLocals _) h2
    have t5 := ext_stmts cfg true body t4.2 h2
    have t6 := step_scope t3.1.2 (t4.trans t5)
    refine .mk' rfl hi hE hc l1.exitScope.exitScope fun h hh => ?_
    simp only [Node.room] at hh
    have s1 := k.e hs.1.1 (x := h + 1) (by omega)
    have s2 := l2 (h + 3) (by rw [if_neg hd]; omega)
    have n1 : nl (gi.enterScope.defineLocals [x.1]) = nl gi + 1 := by rw [nl_defineLocals]; rfl
    have n2 := t5.nl
    have s3 := scope_seg (x := h + 3) (h := h + 2) t3.1.2 (t4.trans t5) sp (cb := cb) (by
      rwa [show h + 2 + 1 + (nl gb - nl gi) = h + 3 + 1 + (nl gb - nl (gi.enterScope.defineLocals [x.1])) by omega])
    have s4 : Seg K (.at' .swapPop sp :: (cb ++ gb.exitC sp)) (h + 4) (h + 3) := Seg.cons (x := 2) (y := 1) (m := h + 3) s3 rfl (by omega) (by omega) (by omega)
    have la : Code.len (.at' .swapPop sp :: (cb ++ gb.exitC sp)) = (cb ++ gb.exitC sp).len + 1 := by simp [Instr.enc]; omega
    have s5 := Seg.iter (J := .at' (.iterNext ((cb ++ gb.exitC sp).len + 1 + 3)) sp) (T := .at' (.jumpBackward ((cb ++ gb.exitC sp).len + 1 + 6)) x.2)
      (by rw [la]) (by rw [la]) (by omega) s4
    have n3 : nl gb.exitScope = nl g + 2 := by
      rw [t6.nl, t3.e.nl]; simp [nl, GState.enterScope, GState.reserveTemp, GLevel.reserveTemp, GLevel.defineLocal, GState.onCur]
    have s6 := scope_seg (K := K) (x := h + 3) (h := h) hi (t2.trans (t3.1.trans t6.n)) sp (cb := []) (by
      rw [show h + 1 + (nl gb.exitScope - nl g) = h + 3 by omega]; exact Seg.nil (by omega))
    refine Seg.cons (x := 0) (y := 1) (m := h + 1) (s1.append ?_) rfl (by omega) (by omega) (by omega)
    refine Seg.cons (x := 0) (y := 1) (m := h + 3) ?_ rfl (by omega) (by omega) (by omega)
    simpa using s5.append s6
  | .forMulti sp xs it body, m, hs, hK, _, _, g, g', hi, hf, he => by
    have hE := (ext_node cfg true _ m hi he).2 (.inr rfl)
    obtain ⟨c1, he, hc⟩ := genNode_mode rfl he
    simp only [Node.shaped, Node.shapedTop, or_self, Bool.and_eq_true, Bool.not_eq_true'] at hs
    simp only [Node.frames] at hK
    obtain ⟨ci, gi, s, cb, gb, _, h1, h2, _, rfl, rfl⟩ := gen_forMulti he
    have i0 := enterScope_inv hi
    have t1 := step_reserveTemp i0
    have t2 := t1.trans (step_reserveTemp t1.2)
    have k := rm_node K cfg it .expr (.inl hs.1.2) (by omega) t2.2 hf.enterScope.reserveTemp.reserveTemp h1
    have t3 := ext_node cfg true _ _ t2.2 h1
    have t4 := step_defineLocals (enterScope_inv t3.1.2) (xs.map Prod.fst).reverse
    have hd : (gi.enterScope.defineLocals (xs.map Prod.fst).reverse).cur.depth ≠ 0 := by rw [t4.depth]; simp [GState.enterScope, GState.onCur]
    obtain ⟨l1, l2⟩ := rm_stmts K cfg body (by omega) t4.2 (by rw [if_neg hd]; exact hs.2) (k.fns.enterScope.defineLocals _) h2
    have t5 := ext_stmts cfg true body t4.2 h2
    have t6 := step_scope t3.1.2 (t4.trans t5)
    refine .mk' rfl hi hE hc l1.exitScope.exitScope fun h hh => ?_
    simp only [Node.room] at hh
    have s1 := k.e hs.1.1 (x := h + 1) (by omega)
    have s2 := l2 (h + 2 + xs.length) (by rw [if_neg hd]; omega)
    have n1 : nl (gi.enterScope.defineLocals (xs.map Prod.fst).reverse) = nl gi + xs.length := by rw [nl_defineLocals]; simp [GState.enterScope, GState.onCur]
    have n2 := t5.nl
    have s3 := scope_seg (x := h + 2 + xs.length) (h := h + 2) t3.1.2 (t4.trans t5) sp (cb := cb) (by
      rwa [show h + 2 + 1 + (nl gb - nl gi) = h + 2 + xs.length + 1 + (nl gb - nl (gi.enterScope.defineLocals (xs.map Prod.fst).reverse)) by omega])
    have s4 : Seg K (.at' .swapPop sp :: .at' (.unpack xs.length) it.span :: (cb ++ gb.exitC sp)) (h + 4) (h + 3) :=
      Seg.cons (x := 2) (y := 1) (m := h + 3) (Seg.cons (x := 1) (y := xs.length) (m := h + 2 + xs.length) s3 rfl (by omega) (by omega) (by omega)) rfl (by omega) (by omega) (by omega)
    have la : Code.len (.at' .swapPop sp :: .at' (.unpack xs.length) it.span :: (cb ++ gb.exitC sp)) = (cb ++ gb.exitC sp).len + 3 := by simp [Instr.enc, u8b]; omega
    have s5 := Seg.iter (J := .at' (.iterNext ((cb ++ gb.exitC sp).len + 3 + 3)) sp) (T := .at' (.jumpBackward ((cb ++ gb.exitC sp).len + 3 + 6)) sp)
      (by rw [la]) (by rw [la]) (by omega) s4
    have n3 : nl gb.exitScope = nl g + 2 := by
      rw [t6.nl, t3.e.nl]; simp [nl, GState.enterScope, GState.reserveTemp, GLevel.reserveTemp, GLevel.defineLocal, GState.onCur]
    have s6 := scope_seg (K := K) (x := h + 3) (h := h) hi (t2.trans (t3.1.trans t6.n)) sp (cb := []) (by
      rw [show h + 1 + (nl gb.exitScope - nl g) = h + 3 by omega]; exact Seg.nil (by omega))
    refine Seg.cons (x := 0) (y := 1) (m := h + 1) (s1.append ?_) rfl (by omega) (by omega) (by omega)
    refine Seg.cons (x := 0) (y := 1) (m := h + 3) ?_ rfl (by omega) (by omega) (by omega)
    simpa using s5.append s6
  | .decl sp v e, m, hs, hK, _, _, g, g', hi, hf, he => by
    simp only [Node.shaped, Node.shapedTop, or_self, Bool.and_eq_true, Bool.not_eq_true'] at hs
    obtain ⟨ce, ge, cv, _, h1, h2, rfl⟩ := gen_decl he
    have k := rm_node K cfg e .expr (.inl hs.2) hK hi hf h1
    have e1 := (ext_node cfg true _ _ hi h1).e
    obtain ⟨l1, l2, l3⟩ := declVar_rm e1.2 k.fns h2
    have hd : ge.cur.depth = g.cur.depth := e1.n.depth
    have hn := e1.nl
    rw [hd] at l2 l3
    have hl : nl g' = nl g + (if g.cur.depth = 0 then 0 else v.count) := by rw [l2, hn]
    refine ⟨l1, hl, fun h hh => ?_, fun h => by simp [endsRet] at h⟩
    simp only [Node.room] at hh
    have s1 := k.e hs.1 (x := h) (by omega)
    have s2 := l3 h s1.out_le (by omega)
    simp only [Node.isStatement, if_true]
    rw [hl, Nat.add_sub_cancel_left]
    exact s1.append s2
  | .func sp name ps body, m, hs, hK, _, _, g, g', hi, hf, he => by
    simp only [Node.shaped, Node.shapedTop, or_self, Bool.and_eq_true] at hs
    simp only [Node.frames] at hK
    obtain ⟨cf, gf, cv, _, _, h1, h2, rfl⟩ := gen_func he
    obtain ⟨k1, k2⟩ := func_rm hi hf (fun i d f e => rm_stmts K cfg body (by omega) i (by rw [if_neg d]; exact hs.1) f e) (by omega) h1
    have e1 := step_func hi (ext_stmts cfg true body) h1
    have hd : gf.cur.depth = g.cur.depth := e1.n.depth
    have hn := e1.nl
    by_cases h0 : g.cur.depth = 0
    · rw [hd, if_pos h0] at h2
      obtain ⟨i, h3, rfl⟩ := defineGlobal_inv h2
      have hl : nl g' = nl g := by rw [(step_addGlobal e1.2 h3).nl, hn]
      refine ⟨k1.addGlobal h3, by rw [if_pos h0, hl]; rfl, fun h hh => ?_, fun h => by simp [endsRet] at h⟩
      simp only [Node.room] at hh
      simp only [Node.isStatement, if_true, hl, Nat.sub_self]
      exact (k2 h hh).append (Seg.one (x := 1) (y := 0) rfl (by omega) hh (by omega) (by omega))
    · rw [hd, if_neg h0] at h2
      obtain ⟨r, h3, rfl⟩ := setVariable_inv h2
      have t := step_defineLocals e1.2 [name.1]
      have hl : nl g' = nl g + 1 := by rw [(resolve_ext t.2 h3).1.nl, nl_defineLocals, hn]; rfl
      refine ⟨(k1.defineLocals _).resolve h3, by rw [if_neg h0, hl]; rfl, fun h hh => ?_, fun h => by simp [endsRet] at h⟩
      simp only [Node.room] at hh
      simp only [Node.isStatement, if_true, hl, Nat.add_sub_cancel_left]
      exact (k2 h hh).append (Seg.one (store_eff r) (by omega) hh (by omega) (by omega))
  | .extern sp x e, m, hs, hK, _, _, g, g', hi, hf, he => by
    simp only [Node.shaped, Node.shapedTop, Bool.false_eq_true, false_or, Bool.and_eq_true, Bool.not_eq_true'] at hs
    obtain ⟨ce, ge, i, gi, _, h1, h2, h3, _, rfl, rfl⟩ := gen_extern he
    have k := rm_node K cfg e .expr (.inl hs.2) hK hi hf h1
    have e1 := (ext_node cfg true _ _ hi h1).e
    have hn := e1.nl
    have hl : nl ({ gi with externals := i :: gi.externals } : GState) = nl g := by
      have := (step_addGlobal e1.2 h3).nl
      show nl gi = nl g
      rw [this, hn]
    refine ⟨(k.fns.addGlobal h3).same ⟨rfl, rfl⟩, by rw [hl]; simp [Node.loc], fun h hh => ?_, fun h => by simp [endsRet] at h⟩
    have s1 := k.e hs.1 (x := h) hh
    simp only [Node.isStatement, if_true, hl, Nat.sub_self]
    exact s1.append (Seg.one (x := 1) (y := 0) rfl (by omega) s1.out_le (by omega) (by omega))
  | .include sp x b, m, hs, hK, _, _, g, g', hi, hf, he => by
    simp only [Node.shaped, Node.shapedTop, Bool.false_eq_true, false_or] at hs
    obtain ⟨_, h1, h2⟩ := gen_include he
    obtain ⟨k1, k2, k3⟩ := rm_incl K cfg b hs hK hi h1 hf h2
    refine ⟨k1, by rw [k2]; simp [Node.loc], fun h hh => ?_, fun h => by simp [endsRet] at h⟩
    simp only [Node.isStatement, if_true, k2, Nat.sub_self]
    exact k3 h hh
  | .ret sp e, m, hs, hK, _, _, g, g', hi, hf, he => by
    simp only [Node.shaped, Node.shapedTop, Bool.false_eq_true, or_false] at hs
    obtain ⟨ce, _, _, h1, rfl⟩ := gen_ret he
    obtain ⟨k1, k2⟩ := rm_opt K cfg e hs hK hi hf h1
    have hl := (ext_opt cfg true e hi h1).nl
    have key : ∀ h o, h + roomE e ≤ K → o ≤ K → Seg K (ce ++ [.at' .ret sp]) h o := fun h o hh ho => by
      have s1 := k2 h hh
      exact s1.append (Seg.ret rfl (by omega) s1.out_le ho)
    refine ⟨k1, by rw [hl]; simp [Node.loc], fun h hh => ?_, fun _ h hh => key h _ hh (k2 h hh).out_le⟩
    simp only [Node.isStatement, if_true, hl, Nat.sub_self]
    exact key h _ hh (by omega)
termination_by structural n => n
theorem rm_stmts (K : Nat) (cfg : Cfg) : ∀ (ns : List Node), framesL ns ≤ K → ∀ {g : GState} {s : Span} {c : Code} {g' : GState},
    GInv g → (if g.cur.depth = 0 then shapedProgram ns else shapedBlk ns) = true → Fns K g → genStmts cfg true ns g = .ok (s, c, g') → StmtsOk K ns g g' c
  | [], hK, g, _, _, g', hi, hs, hf, he => by
    split at hs <;> simp [shapedProgram, shapedBlk] at hs
  | [n], hK, g, _, _, g', hi, hs, hf, he => by
    simp only [framesL] at hK
    obtain ⟨h1, _⟩ := genStmts_one he
    have hs' : n.shaped = true ∧ (n.isStatement = false ∨ endsRet [n] = true) := by
      split at hs
      · simp only [shapedProgram, Bool.and_eq_true, Bool.not_eq_true'] at hs; exact ⟨hs.2, .inl hs.1⟩
      · simp only [shapedBlk, Bool.and_eq_true, Bool.or_eq_true, Bool.not_eq_true'] at hs; exact ⟨hs.2, hs.1⟩
    have k := rm_node K cfg n _ (.inl hs'.1) (by omega) hi hf h1
    refine ⟨k.fns, fun h hh => ?_⟩
    have hr : h + n.room ≤ K := by split at hh <;> simp only [roomL] at hh <;> omega
    rcases hs'.2 with hn | hn
    · have hl : nl g' = nl g := ((ext_node cfg true _ _ hi h1).2 (.inr hn)).nl
      have := k.seg h hr
      simp only [hn, Bool.false_eq_true, if_false] at this
      simpa [hl] using this
    · have hl : nl g' = nl g := by
        have := k.locs
        have e : n.loc = 0 := by cases n <;> first | rfl | simp [endsRet] at hn
        rw [this, e]; simp
      rw [hl, Nat.sub_self]; exact k.ret hn h hr
  | n :: n' :: ns, hK, g, _, _, g', hi, hs, hf, he => by
    rw [framesL] at hK
    obtain ⟨c1, g1, c2, h1, h2, rfl⟩ := genStmts_cons he
    have hs' : (n.shaped = true ∨ n.shapedTop = true) ∧ (if g.cur.depth = 0 then shapedProgram (n' :: ns) else shapedBlk (n' :: ns)) = true := by
      split at hs
      · rename_i h0
        simp only [shapedProgram, Bool.and_eq_true] at hs; rw [if_pos h0]; exact ⟨.inr hs.1, hs.2⟩
      · rename_i h0
        simp only [shapedBlk, Bool.and_eq_true] at hs; rw [if_neg h0]; exact ⟨.inl hs.1, hs.2⟩
    have k := rm_node K cfg n _ hs'.1 (by omega) hi hf h1
    have e1 := (ext_node cfg true _ _ hi h1).1
    have hd := e1.depth
    obtain ⟨l1, l2⟩ := rm_stmts K cfg (n' :: ns) (by omega) e1.2 (by rw [hd]; exact hs'.2) k.fns h2
    have hn1 := e1.nl
    have hn2 := (ext_stmts cfg true (n' :: ns) e1.2 h2).nl
    refine ⟨l1, fun h hh => ?_⟩
    have hl := k.locs
    have hr : h + n.room ≤ K ∧ h + (nl g1 - nl g) + (if g1.cur.depth = 0 then roomL true (n' :: ns) else roomL false (n' :: ns)) ≤ K := by
      rw [hd]
      split at hh <;> rename_i h0 <;> simp only [h0, if_true, if_false] at hl ⊢ <;> rw [roomL] at hh <;> simp only [if_true, Bool.false_eq_true, if_false] at hh <;> omega
    have s1 := k.seg h hr.1
    have s2 := l2 (h + (nl g1 - nl g)) hr.2
    have e : (if n.isStatement then nl g1 - nl g else if Mode.stmt true = .stmt true then 0 else 1) = nl g1 - nl g := by
      cases hst : n.isStatement with
      | true => rfl
      | false =>
        have := ((ext_node cfg true _ _ hi h1).2 (.inr hst)).nl
        simp [this]
    rw [e] at s1
    have := s1.append s2
    rwa [show h + (nl g1 - nl g) + 1 + (nl g' - nl g1) = h + 1 + (nl g' - nl g) by omega] at this
termination_by structural ns => ns
theorem rm_each (K : Nat) (cfg : Cfg) : ∀ (ns : List Node), shapedEach ns = true → framesL ns ≤ K → ∀ {u : Unit} {c : Code} {g g' : GState},
    GInv g → g.cur.depth = 0 → Fns K g → genEach cfg true ns g = .ok (u, c, g') → Fns K g' ∧ nl g' = nl g ∧ ∀ h, h + roomL true ns ≤ K → Seg K c h h
  | [], hs, hK, _, _, g, g', hi, h0, hf, he => by
    obtain ⟨rfl, rfl⟩ := genEach_nil he
    exact ⟨hf, rfl, fun h hh => Seg.nil (by omega)⟩
  | n :: ns, hs, hK, _, _, g, g', hi, h0, hf, he => by
    simp only [shapedEach, Bool.and_eq_true] at hs
    simp only [framesL] at hK
    obtain ⟨c1, g1, c2, h1, h2, rfl⟩ := genEach_cons he
    have k := rm_node K cfg n _ (.inr hs.1) (by omega) hi hf h1
    have e1 := (ext_node cfg true _ _ hi h1).1
    obtain ⟨l1, l2, l3⟩ := rm_each K cfg ns hs.2 (by omega) e1.2 (by rw [e1.depth]; exact h0) k.fns h2
    have hl : nl g1 = nl g := by rw [k.locs, if_pos h0]; rfl
    refine ⟨l1, by rw [l2, hl], fun h hh => ?_⟩
    simp only [roomL, if_true] at hh
    have s1 := k.seg h (by omega)
    have s2 := l3 h (by omega)
    have e : (if n.isStatement then nl g1 - nl g else if Mode.stmt true = .stmt true then 0 else 1) = 0 := by
      cases n.isStatement <;> simp [hl]
    rw [e] at s1
    exact s1.append s2
termination_by structural ns => ns
theorem rm_args (K : Nat) (cfg : Cfg) : ∀ (ns : List Node), shapedAll ns = true → framesL ns ≤ K → ∀ {u : Unit} {c : Code} {g g' : GState},
    GInv g → Fns K g → genArgs cfg true ns g = .ok (u, c, g') → Fns K g' ∧ ∀ h, h + roomArgs ns ≤ K → Seg K c h (h + ns.length)
  | [], hs, hK, _, _, g, g', hi, hf, he => by
    obtain ⟨rfl, rfl⟩ := genArgs_nil he
    exact ⟨hf, fun h hh => Seg.nil (by omega)⟩
  | n :: ns, hs, hK, _, _, g, g', hi, hf, he => by
    simp only [shapedAll, Bool.and_eq_true, Bool.not_eq_true'] at hs
    simp only [framesL] at hK
    obtain ⟨c1, g1, c2, h1, h2, rfl⟩ := genArgs_cons he
    have k := rm_node K cfg n _ (.inl hs.1.2) (by omega) hi hf h1
    obtain ⟨l1, l2⟩ := rm_args K cfg ns hs.2 (by omega) (ext_node cfg true _ _ hi h1).1.2 k.fns h2
    refine ⟨l1, fun h hh => ?_⟩
    simp only [roomArgs] at hh
    have := (k.e hs.1.1 (x := h) (by omega)).append (l2 (h + 1) (by omega))
    simpa [Nat.add_assoc, Nat.add_comm 1] using this
termination_by structural ns => ns
theorem rm_rev (K : Nat) (cfg : Cfg) : ∀ (ns : List Node), shapedAll ns = true → framesL ns ≤ K → ∀ {u : Unit} {c : Code} {g g' : GState},
    GInv g → Fns K g → genRev cfg true ns g = .ok (u, c, g') → Fns K g' ∧ ∀ h, h + roomRev ns ≤ K → Seg K c h (h + ns.length)
  | [], hs, hK, _, _, g, g', hi, hf, he => by
    obtain ⟨rfl, rfl⟩ := genRev_nil he
    exact ⟨hf, fun h hh => Seg.nil (by omega)⟩
  | n :: ns, hs, hK, _, _, g, g', hi, hf, he => by
    simp only [shapedAll, Bool.and_eq_true, Bool.not_eq_true'] at hs
    simp only [framesL] at hK
    obtain ⟨c1, g1, c2, h1, h2, rfl⟩ := genRev_cons he
    obtain ⟨l1, l2⟩ := rm_rev K cfg ns hs.2 (by omega) hi hf h1
    have k := rm_node K cfg n _ (.inl hs.1.2) (by omega) (ext_rev cfg true ns hi h1).2 l1 h2
    refine ⟨k.fns, fun h hh => ?_⟩
    simp only [roomRev] at hh
    exact (l2 h (by omega)).append (k.e hs.1.1 (x := h + ns.length) (by omega))
termination_by structural ns => ns
theorem rm_cases (K : Nat) (cfg : Cfg) : ∀ (cs : List (Node × List Node)), shapedCases cs = true → framesC cs ≤ K → ∀ {ps : List (Code × Span)} {c : Code} {g g' : GState},
    GInv g → Fns K g → genCases cfg true cs g = .ok (ps, c, g') →
    Fns K g' ∧ c = [] ∧ ∀ h, h + roomC cs ≤ K → h + 2 ≤ K → ∀ d, Seg K d (h + 2) (h + 1) → Seg K (assemble ps d) (h + 2) (h + 1)
  | [], hs, hK, _, _, g, g', hi, hf, he => by
    obtain ⟨rfl, rfl, rfl⟩ := genCases_nil he
    exact ⟨hf, rfl, fun h _ _ d hd => hd⟩
  | (n, body) :: cs, hs, hK, _, _, g, g', hi, hf, he => by
    simp only [shapedCases, Bool.and_eq_true, Bool.not_eq_true'] at hs
    simp only [framesC] at hK
    obtain ⟨cc, gc, b, gb, ps', h1, h2, _, h3, rfl⟩ := genCases_cons he
    have k := rm_node K cfg n .expr (.inl hs.1.1.2) (by omega) hi hf h1
    have e1 := (ext_node cfg true _ _ hi h1).1.2
    obtain ⟨l1, l2⟩ := inScope_rm e1 k.fns (fun i d f e => rm_stmts K cfg body (by omega) i (by rw [if_neg d]; exact hs.1.2) f e) h2
    obtain ⟨m1, rfl, m2⟩ := rm_cases K cfg cs hs.2 (by omega) (step_inScope e1 (ext_stmts cfg true body) h2).2 l1 h3
    refine ⟨m1, rfl, fun h hh h2' d hd => ?_⟩
    simp only [roomC] at hh
    have s1 := k.e hs.1.1.1 (x := h + 2) (by omega)
    have hh3 := s1.out_le
    have s2 := l2 h (by omega)
    have s3 := m2 h (by omega) h2' d hd
    have s4 : Seg K (.at' (.popMany 2) n.span :: b) (h + 2) (h + 1) := Seg.cons (x := 2) (y := 0) (m := h) s2 rfl (by omega) (by omega) (by omega)
    have la : Code.len (.at' (.popMany 2) n.span :: b) + 3 = b.len + 6 := by simp [Instr.enc, u16le]; omega
    have := Seg.branch (J := .at' (.jumpIfNotEq (b.len + 6)) n.span) (T := .at' (.jumpForward (assemble ps' d).len) n.span) (x := h + 2) (h := h + 3)
      (.inr ⟨by rw [la], by omega, rfl⟩) rfl hh3 s4 s3
    simpa [assemble] using s1.append this
termination_by structural cs => cs
theorem rm_else (K : Nat) (cfg : Cfg) : ∀ (el : Option (List Node)), shapedOpt el = true → framesO el ≤ K → ∀ {sp : Span} {u : Unit} {c : Code} {g g' : GState},
    GInv g → Fns K g → genElse cfg true sp el g = .ok (u, c, g') → Fns K g' ∧ ∀ h, h + roomO el ≤ K → h + 2 ≤ K → Seg K c (h + 2) (h + 1)
  | none, hs, hK, _, _, _, g, g', hi, hf, he => by
    obtain ⟨rfl, rfl⟩ := genElse_none he
    exact ⟨hf, fun h _ h2 => Seg.one (x := 1) (y := 0) rfl (by omega) h2 (by omega) (by omega)⟩
  | some body, hs, hK, _, _, _, g, g', hi, hf, he => by
    obtain ⟨c1, h1, rfl⟩ := genElse_some he
    simp only [shapedOpt] at hs
    obtain ⟨l1, l2⟩ := inScope_rm hi hf (fun i d f e => rm_stmts K cfg body hK i (by rw [if_neg d]; exact hs) f e) h1
    exact ⟨l1, fun h hh h2 => Seg.cons (x := 2) (y := 0) (m := h) (l2 h hh) rfl (by omega) h2 (by omega)⟩
termination_by structural el => el
theorem rm_opt (K : Nat) (cfg : Cfg) : ∀ (e : Option Node), shapedRet e = true → framesE e ≤ K → ∀ {sp : Span} {u : Unit} {c : Code} {g g' : GState},
    GInv g → Fns K g → genOpt cfg true sp e g = .ok (u, c, g') → Fns K g' ∧ ∀ h, h + roomE e ≤ K → Seg K c h (h + 1)
  | none, hs, hK, _, _, _, g, g', hi, hf, he => by
    obtain ⟨rfl, rfl⟩ := genOpt_none he
    exact ⟨hf, fun h hh => Seg.one (x := 0) (y := 1) rfl (by omega) (by omega) (by omega) hh⟩
  | some n, hs, hK, _, _, _, g, g', hi, hf, he => by
    simp only [shapedRet, Bool.and_eq_true, Bool.not_eq_true'] at hs
    simp only [genOpt] at he
    have k := rm_node K cfg n .expr (.inl hs.2) hK hi hf he
    exact ⟨k.fns, fun h hh => k.e hs.1 hh⟩
termination_by structural e => e
theorem rm_incl (K : Nat) (cfg : Cfg) : ∀ (b : Option (List Node)), shapedIncl b = true → framesO b ≤ K → ∀ {x : String} {xsp : Span} {u : Unit} {c : Code} {g g' : GState},
    GInv g → g.cur.depth = 0 → Fns K g → genIncl cfg true x xsp b g = .ok (u, c, g') → Fns K g' ∧ nl g' = nl g ∧ ∀ h, h + roomI b ≤ K → Seg K c h h
  | none, hs, hK, _, _, _, _, g, g', hi, h0, hf, he => by simp [shapedIncl] at hs
  | some body, hs, hK, _, _, _, _, g, g', hi, h0, hf, he => by
    simp only [genIncl] at he
    exact rm_each K cfg body hs hK hi h0 hf he
termination_by structural b => b
end

/-- The functions of a compiled program stay within its frame size; the main program starts with an empty frame. -/
theorem compile_room {cfg : Cfg} {ast : List Node} {script : Script} (hc : compile cfg ast = .ok script) (hs : shapedProgram ast = true) (hsz : sizeL ast ≤ 65535) :
    FnIn (frameSize ast) script.fn ∧ ∃ c, IsCode script.fn c ∧ ∃ o, Seg (frameSize ast) c 0 o := by
  unfold compile at hc
  generalize hst : (CState.new "@__main__").setMainSpan ast = st at hc
  have hg : st.g = (CState.new "@__main__").g := by
    rw [← hst]; unfold CState.setMainSpan; split <;> rfl
  have hhead : st.head.chunk = Chunk.empty := by
    rw [← hst]; unfold CState.setMainSpan; split <;> rfl
  have harity : st.head.arity = 0 := by
    rw [← hst]; unfold CState.setMainSpan; split <;> rfl
  have hsmall : GSmall 0 st.g := by
    rw [hg]
    refine ⟨⟨?_, ?_, ?_, Pool.inv_empty, ?_⟩, ?_, ?_, Pool.inv_empty⟩ <;> simp [CState.new, Pool.empty]
  have hl : LvsOk st.g := by
    rw [hg]
    exact ⟨⟨Pool.inv_empty, by simp [CState.new, Pool.empty]⟩, by simp [CState.new]⟩
  have hi : GInv st.g := by
    rw [hg]
    exact ⟨rfl, ⟨by simp [CState.new], Pool.inv_empty⟩, by simp [CState.new], Pool.inv_empty⟩
  have h0 : st.g.cur.depth = 0 := by rw [hg]; rfl
  have hF : Fns (frameSize ast) st.g := by
    rw [hg]
    intro p hp f hf
    simp only [CState.new, List.map_nil, List.mem_singleton] at hp
    subst hp; simp [Pool.empty] at hf
  cases hcs : compileStmts cfg ast st with
  | mk o st' =>
    rw [hcs] at hc
    cases o with
    | ok sp =>
      simp only [COut.ok.injEq] at hc
      obtain ⟨c, g', h1, h2, h3, h4⟩ := compile_gen hsmall (by omega) hcs
      subst h2
      obtain ⟨k1, _, k3, _⟩ := gj_stmts cfg ast [] _ _ _ _ h1 List.nil_prefix hl
      obtain ⟨r1, r2⟩ := rm_stmts (frameSize ast) cfg ast (Nat.le_max_right _ _) hi (by rw [if_pos h0]; exact hs) hF h1
      have hd : g'.cur.depth = 0 := by rw [(ext_stmts cfg true ast hi h1).depth, h0]
      simp only [fnFits, Bool.and_eq_true, decide_eq_true_eq, List.all_eq_true] at h3
      have hch : (st.emit c g').head.chunk = Chunk.empty.emit c := by
        show st.head.chunk.emit c = _
        rw [hhead]
      have seg : ∀ h, h ≤ 1 → ∃ o, Seg (frameSize ast) (c ++ [.at' .ret Span.default]) h o := fun h hh => by
        have s1 := r2 h (by rw [if_pos h0]; unfold frameSize; omega)
        exact ⟨_, s1.append (Seg.ret rfl (by omega) s1.out_le s1.out_le)⟩
      have hin : ∀ h, h ≤ 1 → ∃ c o, script.fn.ops = Code.ops c ∧ CodeOk script.fn.consts c ∧ (∀ q ∈ c, q.i.small = true) ∧ script.fn.consts.length ≤ 65536 ∧
          Seg (frameSize ast) c h o ∧ ∀ g, .fn g ∈ script.fn.consts → FnIn (frameSize ast) g := by
        intro h hh
        obtain ⟨o, hseg⟩ := seg h hh
        rw [← hc]
        refine ⟨c ++ [.at' .ret Span.default], o, ?_, k3.append (.plain (by simp [Instr.plain])), ?_, h3.1.2, hseg, fun f hf => r1 _ (by simp) f hf⟩
        · show (CM.finish g'.cur (st.emit c g').head).ops = _
          simp [CM.finish, hd, Func.ops, Chunk.writeU8, Bytes.writeU8, Code.ops, Instr.enc, hch, Chunk.emit, Chunk.empty]
        · intro q hq
          rcases List.mem_append.1 hq with hq | hq
          · exact h3.1.1 q hq
          · simp only [List.mem_singleton] at hq; subst hq; rfl
      obtain ⟨c1, o1, a1, a2, a3, a4, a5, a6⟩ := hin 1 (by omega)
      obtain ⟨c0, o0, b1, b2, b3, b4, b5, b6⟩ := hin 0 (by omega)
      have har : script.fn.arity = 0 := by rw [← hc]; exact harity
      exact ⟨.mk c1 o1 a1 a2 a3 a4 (by rw [har]; exact a5) a6, c0, isCode_of b1 b2 b3 b4, o0, b5⟩
    | err e sp => simp at hc
    | panic => simp at hc

end Quilt
