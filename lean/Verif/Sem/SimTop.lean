import Verif.Sem.Sim

/-!
# Top-level statements
-/

namespace Quilt

variable {D : Type}

mutual
/-- Well-formed at top level. -/
def Node.wfTop : Node → Bool
  | .decl _ v e => v.ok && e.wf true
  | .func _ n ps b => nameOk n.1 && (ps.all fun x => nameOk x.1) && wfStmts true b
  | .extern _ x e => nameOk x.1 && e.wf true
  | .include _ _ b => wfIncl b
  | .ret .. => false
  | n => n.wf true
termination_by structural n => n
/-- Included statements. -/
def wfEach : List Node → Bool
  | [] => true
  | n :: ns => n.wfTop && wfEach ns
termination_by structural n => n
def wfIncl : Option (List Node) → Bool
  | some b => wfEach b
  | none => true
termination_by structural n => n
end

/-- Well-formed programs: the last statement is an expression. -/
def wfProgram : List Node → Bool
  | [] => false
  | [n] => !n.isStatement && n.wfTop
  | n :: n' :: ns => n.wfTop && wfProgram (n' :: ns)

theorem Node.wfTop_expr {n : Node} (hi : n.isStatement = false) : n.wfTop = n.wf true := by
  cases n <;> first | rfl | (simp [Node.isStatement] at hi)

/-! ## Top-level code declares no locals -/

theorem top_defineGlobals : ∀ (xs : List Name) {u : Unit} {c : Code} {g g' : GState}, GInv g → UpsFree g →
    GM.defineGlobals xs g = .ok (u, c, g') → StepE g g' ∧ UpsFree g'
  | [], _, _, _, _, h, hf, he => by
    simp only [GM.defineGlobals, GM.pure_ok] at he
    obtain ⟨_, _, rfl⟩ := he
    exact ⟨.refl h, hf⟩
  | x :: xs, _, _, _, _, h, hf, he => by
    obtain ⟨i, g1, c1, h1, h2, _⟩ := defineGlobals_cons he
    have e1 := step_addGlobal h h1
    obtain ⟨e2, f2⟩ := top_defineGlobals xs e1.2 (free_addGlobal hf h1) h2
    exact ⟨e1.trans e2, f2⟩

theorem externals_step {g : GState} (h : GInv g) (e : List Nat) : StepE g { g with externals := e } :=
  ⟨⟨⟨g.cur.locals, by simp, .refl _⟩, by simp, List.prefix_refl _, rfl, List.prefix_refl _, .refl _, List.prefix_refl _⟩,
    ⟨h.chain, h.cur, h.encl, h.globals⟩⟩

mutual
theorem top_node (cfg : Cfg) : ∀ (n : Node) {u : Unit} {c : Code} {g g' : GState}, GInv g → UpsFree g → n.wfTop = true → g.cur.depth = 0 →
    genNode cfg true (.stmt true) n g = .ok (u, c, g') → StepE g g' ∧ UpsFree g'
  | .decl sp v e, _, _, _, _, hi, hf, hw, hd, hg => by
    obtain ⟨ce, ge, cv, _, h1, h2, rfl⟩ := gen_decl hg
    simp only [Node.wfTop, Bool.and_eq_true] at hw
    have e1 := (ext_node cfg true e .expr hi h1).e
    have f1 := free_node cfg true e .expr true hw.2 hf h1
    have hd1 : ge.cur.depth = 0 := by rw [e1.1.depth]; exact hd
    cases v with
    | one y =>
      rcases declVar_one h2 with ⟨_, i, h3, _⟩ | ⟨h3, _⟩
      · exact ⟨e1.trans (step_addGlobal e1.2 h3), free_addGlobal f1 h3⟩
      · exact absurd hd1 h3
    | many ys =>
      obtain ⟨_, h3⟩ := declVar_many h2
      rcases h3 with ⟨_, c1, h3, _⟩ | ⟨h3, _⟩
      · obtain ⟨e2, f2⟩ := top_defineGlobals ys e1.2 f1 h3
        exact ⟨e1.trans e2, f2⟩
      · exact absurd hd1 h3
  | .func sp name params body, _, _, _, _, hi, hf, hw, hd, hg => by
    obtain ⟨cf, gf, cv, _, _, h1, h2, rfl⟩ := gen_func hg
    simp only [Node.wfTop, Bool.and_eq_true] at hw
    have e1 := step_func hi (fun h h' => ext_stmts cfg true body h h') h1
    have f1 := free_func hf (fun h h' => free_stmts cfg true body true hw.2 h h') h1
    rw [if_pos (by rw [e1.1.depth]; exact hd)] at h2
    obtain ⟨i, h3, _⟩ := defineGlobal_inv h2
    exact ⟨e1.trans (step_addGlobal e1.2 h3), free_addGlobal f1 h3⟩
  | .extern sp x e, _, _, _, _, hi, hf, hw, hd, hg => by
    obtain ⟨ce, ge, i, gi, _, h1, _, h2, _, rfl, _⟩ := gen_extern hg
    simp only [Node.wfTop, Bool.and_eq_true] at hw
    have e1 := (ext_node cfg true e .expr hi h1).e
    have f1 := free_node cfg true e .expr true hw.2 hf h1
    have e2 := step_addGlobal e1.2 h2
    exact ⟨(e1.trans e2).trans (externals_step e2.2 _), (free_addGlobal f1 h2).of_eq rfl rfl⟩
  | .include sp x b, _, _, _, _, hi, hf, hw, hd, hg => by
    obtain ⟨_, _, h1⟩ := gen_include hg
    simp only [Node.wfTop] at hw
    exact top_incl cfg b hi hf hw hd h1
  | .ret sp e, _, _, _, _, hi, hf, hw, hd, hg => by simp [Node.wfTop] at hw
  | .lit .., _, _, _, _, hi, hf, hw, hd, hg | .ident .., _, _, _, _, hi, hf, hw, hd, hg | .assign .., _, _, _, _, hi, hf, hw, hd, hg
  | .pair .., _, _, _, _, hi, hf, hw, hd, hg | .range .., _, _, _, _, hi, hf, hw, hd, hg | .bin .., _, _, _, _, hi, hf, hw, hd, hg
  | .index .., _, _, _, _, hi, hf, hw, hd, hg | .array .., _, _, _, _, hi, hf, hw, hd, hg | .un .., _, _, _, _, hi, hf, hw, hd, hg
  | .block .., _, _, _, _, hi, hf, hw, hd, hg | .cond .., _, _, _, _, hi, hf, hw, hd, hg | .switch .., _, _, _, _, hi, hf, hw, hd, hg
  | .while .., _, _, _, _, hi, hf, hw, hd, hg | .forIn .., _, _, _, _, hi, hf, hw, hd, hg | .forMulti .., _, _, _, _, hi, hf, hw, hd, hg
  | .lambda .., _, _, _, _, hi, hf, hw, hd, hg | .call .., _, _, _, _, hi, hf, hw, hd, hg | .builtin .., _, _, _, _, hi, hf, hw, hd, hg
  | .ctx .., _, _, _, _, hi, hf, hw, hd, hg => by
    rw [Node.wfTop_expr rfl] at hw
    obtain ⟨c3, h3, rfl⟩ := genNode_mode rfl hg
    exact ⟨(ext_node cfg true _ .expr hi h3).e, free_node cfg true _ .expr true hw hf h3⟩
termination_by structural n => n
theorem top_each (cfg : Cfg) : ∀ (ns : List Node) {u : Unit} {c : Code} {g g' : GState}, GInv g → UpsFree g → wfEach ns = true → g.cur.depth = 0 →
    genEach cfg true ns g = .ok (u, c, g') → StepE g g' ∧ UpsFree g'
  | [], _, _, _, _, hi, hf, hw, hd, hg => by
    obtain ⟨_, rfl⟩ := genEach_nil hg
    exact ⟨.refl hi, hf⟩
  | n :: ns, _, _, _, _, hi, hf, hw, hd, hg => by
    obtain ⟨c1, g1, c2, h1, h2, _⟩ := genEach_cons hg
    simp only [wfEach, Bool.and_eq_true] at hw
    obtain ⟨e1, f1⟩ := top_node cfg n hi hf hw.1 hd h1
    obtain ⟨e2, f2⟩ := top_each cfg ns e1.2 f1 hw.2 (e1.1.depth.trans hd) h2
    exact ⟨e1.trans e2, f2⟩
termination_by structural ns => ns
theorem top_incl (cfg : Cfg) : ∀ (b : Option (List Node)) {x : String} {xsp : Span} {u : Unit} {c : Code} {g g' : GState}, GInv g → UpsFree g →
    wfIncl b = true → g.cur.depth = 0 → genIncl cfg true x xsp b g = .ok (u, c, g') → StepE g g' ∧ UpsFree g'
  | none, _, _, _, _, _, _, hi, hf, hw, hd, hg => by simp [genIncl, GM.throw] at hg
  | some b, _, _, _, _, _, _, hi, hf, hw, hd, hg => by
    simp only [genIncl] at hg
    simp only [wfIncl] at hw
    exact top_each cfg b hi hf hw hd hg
termination_by structural b => b
end

theorem top_stmts (cfg : Cfg) : ∀ (ns : List Node) {sp0 : Span} {c : Code} {g g' : GState}, GInv g → UpsFree g → wfProgram ns = true →
    g.cur.depth = 0 → genStmts cfg true ns g = .ok (sp0, c, g') → StepE g g' ∧ UpsFree g'
  | [], _, _, _, _, hi, hf, hw, hd, hg => by simp [wfProgram] at hw
  | [n], _, _, _, _, hi, hf, hw, hd, hg => by
    obtain ⟨h1, rfl⟩ := genStmts_one hg
    simp only [wfProgram, Bool.and_eq_true, Bool.not_eq_true'] at hw
    obtain ⟨c3, h3, rfl⟩ := genNode_mode hw.1 h1
    rw [Node.wfTop_expr hw.1] at hw
    exact ⟨(ext_node cfg true _ .expr hi h3).e, free_node cfg true _ .expr true hw.2 hf h3⟩
  | n :: n' :: ns, _, _, _, _, hi, hf, hw, hd, hg => by
    obtain ⟨c1, g1, c2, h1, h2, rfl⟩ := genStmts_cons hg
    simp only [wfProgram, Bool.and_eq_true] at hw
    obtain ⟨e1, f1⟩ := top_node cfg n hi hf hw.1 hd h1
    obtain ⟨e2, f2⟩ := top_stmts cfg (n' :: ns) e1.2 f1 hw.2 (e1.1.depth.trans hd) h2
    exact ⟨e1.trans e2, f2⟩

/-! ## Simulation -/

theorem Val.RelL.of_append {C C' : Type} {R : C → C' → Prop} : ∀ {xs : List (Val C)} {xs' : List (Val C)} {ys ys' : List (Val C')}, xs.length = ys.length →
    Val.RelL R (xs ++ xs') (ys ++ ys') → Val.RelL R xs ys ∧ Val.RelL R xs' ys'
  | [], _, [], _, _, h => ⟨trivial, h⟩
  | x :: xs, xs', y :: ys, ys', hl, h => by
    obtain ⟨h1, h2⟩ := h
    obtain ⟨h3, h4⟩ := Val.RelL.of_append (by simpa using hl) h2
    exact ⟨⟨h1, h3⟩, h4⟩
  | [], _, _ :: _, _, hl, _ | _ :: _, _, [], _, hl, _ => by simp at hl

/-- After a top-level statement. -/
structure TQ (H : Host D) (A : Act) (K : Nat → Prop) (slots : LocMap) (g' : GState) (ip : Nat) (_u : Unit) (γ' slots' : LocMap) (σ' : SSt D)
    (s' : VM D) : Prop where
  eqSlots : slots' = slots
  st : St H A K γ' slots g' [] σ' s'
  sp : s'.sp = A.st
  ip : s'.frame.ip = ip

/-- The generated code of a top-level statement simulates it. -/
def SimT (H : Host D) (S : SHost D) (call : SClos → List SVal → SM D SVal) (W : Nat) (B : Bd) (n : Node) : Prop :=
  ∀ ⦃A : Act⦄ ⦃K : Nat → Prop⦄ ⦃γ slots : LocMap⦄ ⦃g g' : GState⦄ ⦃σ : SSt D⦄ ⦃s : VM D⦄ ⦃c : Code⦄,
    genNode H.cfg true (.stmt true) n g = .ok ((), c, g') → n.wfTop = true → g.cur.depth = 0 → g.cur.locals = [] → Bound H A K g' →
    CodeAt A.fn s.frame.ip c → St H A K γ slots g [] σ s → s.sp = A.st →
    Post H A B K γ slots s (evalTopStmt S call W n σ) (TQ H A K slots g' (s.frame.ip + c.len))

/-- The generated code of included statements simulates them. -/
def SimEach (H : Host D) (S : SHost D) (call : SClos → List SVal → SM D SVal) (W : Nat) (B : Bd) (ns : List Node) : Prop :=
  ∀ ⦃A : Act⦄ ⦃K : Nat → Prop⦄ ⦃γ slots : LocMap⦄ ⦃g g' : GState⦄ ⦃σ : SSt D⦄ ⦃s : VM D⦄ ⦃c : Code⦄,
    genEach H.cfg true ns g = .ok ((), c, g') → wfEach ns = true → g.cur.depth = 0 → g.cur.locals = [] → Bound H A K g' →
    CodeAt A.fn s.frame.ip c → St H A K γ slots g [] σ s → s.sp = A.st →
    Post H A B K γ slots s (evalEach S call W ns σ) (TQ H A K slots g' (s.frame.ip + c.len))

/-- The generated code of an included program simulates it. -/
def SimI (H : Host D) (S : SHost D) (call : SClos → List SVal → SM D SVal) (W : Nat) (B : Bd) (b : Option (List Node)) : Prop :=
  ∀ ⦃A : Act⦄ ⦃K : Nat → Prop⦄ ⦃γ slots : LocMap⦄ ⦃g g' : GState⦄ ⦃σ : SSt D⦄ ⦃s : VM D⦄ ⦃c : Code⦄ ⦃x : String⦄ ⦃xsp : Span⦄,
    genIncl H.cfg true x xsp b g = .ok ((), c, g') → wfIncl b = true → g.cur.depth = 0 → g.cur.locals = [] → Bound H A K g' →
    CodeAt A.fn s.frame.ip c → St H A K γ slots g [] σ s → s.sp = A.st →
    Post H A B K γ slots s (evalIncl S call W b σ) (TQ H A K slots g' (s.frame.ip + c.len))

theorem GExtE.noLocals {g g' : GState} (h : GExtE g g') (hl : g.cur.locals = []) : g'.cur.locals = [] := by
  have := GExtE.len h
  rw [hl] at this
  exact List.length_eq_zero_iff.1 this

section
variable {H : Host D} {S : SHost D} {call : SClos → List SVal → SM D SVal} {W : Nat} {B : Bd}

/-- The global's slot in the machine. -/
theorem sim_setGlobal (hH : HRel H S) {A : Act} {K : Nat → Prop} {γ slots : LocMap} {g g' : GState} {σ : SSt D} {s s1 : VM D} {base i : Nat} {x : String}
    {v : SVal} {w : VVal} {ip : Nat} (hst : St H A K γ slots g [] σ s) (hb : A.st ≤ base) (hs : ∀ l loc, slots l = some loc → l < base)
    (hv : VRel H.cfg H.syms.entries γ v w) (ha : g.addGlobal x = (i, g')) (hbd : g'.globals.entries <+: H.syms.entries)
    (hs1 : s1 = { s.goto ip with sp := base, globals := upd s.globals i (some w) }) :
    Ext A.st γ slots s γ slots s1 ∧
      St H A K γ slots g' [] { σ with globals := fun y => if y = x then some v else σ.globals y } s1 := by
  have hx := addGlobal_id hst.inv ha hbd hH.symsLen
  have hq : Quiet base s { s.goto ip with sp := base } :=
    ⟨rfl, rfl, rfl, rfl, rfl, rfl, rfl, rfl, rfl, rfl, rfl, fun _ _ => rfl⟩
  have hst1 : St H A K γ slots g [] σ { s.goto ip with sp := base } := hst.quiet hq hb fun l loc hl => ⟨hs l loc hl, hs l loc hl⟩
  have hok := hst1.ok.setGlobal hH.symsInv.nodup hx hv
  subst hs1
  have e := step_addGlobal hst.inv ha
  refine ⟨⟨γ.le_refl, fun _ _ => rfl, rfl, rfl, rfl, rfl, rfl, fun _ _ _ => rfl⟩, ?_⟩
  exact ⟨e.2, free_addGlobal hst.free ha, ⟨hst.act.fn, hst.act.ups, hst.act.st, hst.act.cells⟩, hst.frame.step e.1, hok, hst.openK, hb⟩

theorem sim_defineGlobal (hH : HRel H S) {A : Act} {K : Nat → Prop} {γ slots : LocMap} {g g' : GState} {σ : SSt D} {s : VM D} {base i : Nat} {x : String}
    {v : SVal} {sp : Span} {rest : Code} (hst : St H A K γ slots g [] σ s) (hsp : s.sp = base + 1) (hb : A.st ≤ base) (hs : ∀ l loc, slots l = some loc → l < base)
    (hv : VRel H.cfg H.syms.entries γ v (s.stack base)) (ha : g.addGlobal x = (i, g')) (hbd : g'.globals.entries <+: H.syms.entries)
    (hc : CodeAt A.fn s.frame.ip (.at' (.defineGlobal i) sp :: rest)) :
    ∃ s', s.step H = .next s' ∧ Ext A.st γ slots s γ slots s' ∧ s'.sp = base ∧ s'.stack = s.stack ∧ s'.frame.ip = s.frame.ip + 3 ∧
      St H A K γ slots g' [] { σ with globals := fun y => if y = x then some v else σ.globals y } s' := by
  have hstep := step_at (H := H) hst.act.fn hc (by simp)
  have h0 : ¬ s.sp = 0 := by omega
  have h1 : s.sp - 1 = base := by omega
  simp only [VM.exec, VM.pop, VM.goto_sp, h0, if_false, h1] at hstep
  obtain ⟨k1, k2⟩ := sim_setGlobal (ip := s.frame.ip + (Instr.defineGlobal i).enc.length) hH hst hb hs hv ha hbd rfl
  exact ⟨_, hstep, k1, rfl, rfl, rfl, k2⟩

/-- Defining several globals: the first value is on top. -/
theorem sim_defineGlobals (hH : HRel H S) {A : Act} {K : Nat → Prop} {γ slots : LocMap} {base : Nat} (hb : A.st ≤ base)
    (hs : ∀ l loc, slots l = some loc → l < base) : ∀ (xs : List Name) (vs : List SVal) {g g' : GState} {σ : SSt D} {s : VM D} {c : Code} {u : Unit},
    vs.length = xs.length → St H A K γ slots g [] σ s → s.sp = base + xs.length →
    Val.RelL (CRel H.cfg H.syms.entries γ) vs.reverse (seg s.stack base xs.length) →
    GM.defineGlobals xs g = .ok (u, c, g') → g'.globals.entries <+: H.syms.entries → CodeAt A.fn s.frame.ip c →
    Post H A B K γ slots s (defGlobals ((xs.map Prod.fst).zip vs) σ) (fun _ γ' slots' σ' s' => slots' = slots ∧ St H A K γ' slots g' [] σ' s' ∧
      s'.sp = base ∧ s'.frame.ip = s.frame.ip + c.len)
  | [], vs, g, g', σ, s, c, u, hl, hst, hsp, hv, hg, hbd, hc => by
    simp only [GM.defineGlobals, GM.pure_ok] at hg
    obtain ⟨_, rfl, rfl⟩ := hg
    simp only [List.map_nil, List.zip_nil_left, defGlobals]
    exact Post.pure' ⟨rfl, hst, by simpa using hsp, by simp⟩
  | x :: xs, [], _, _, _, _, _, _, hl, _, _, _, _, _, _ => by simp at hl
  | x :: xs, v :: vs, g, g', σ, s, c, u, hl, hst, hsp, hv, hg, hbd, hc => by
    obtain ⟨i, g1, c1, h1, h2, rfl⟩ := defineGlobals_cons hg
    have e1 := step_addGlobal hst.inv h1
    obtain ⟨e2, _⟩ := top_defineGlobals xs e1.2 (free_addGlobal hst.free h1) h2
    have hl' : vs.length = xs.length := by simpa using hl
    rw [List.length_cons, seg_snoc, List.reverse_cons] at hv
    have hlen : vs.reverse.length = (seg s.stack base xs.length).length := by simp [hl']
    obtain ⟨hv1, hv2⟩ := Val.RelL.of_append hlen hv
    obtain ⟨s1, k1, k2, k3, k4, k5, k6⟩ := sim_defineGlobal hH (base := base + xs.length) hst (by rw [hsp]; simp; omega) (by omega)
      (fun l loc hl => by have := hs l loc hl; omega) hv2.1 h1 (e2.1.globals.trans hbd) hc
    have hc1 := hc.tail
    have hc2 : CodeAt A.fn s1.frame.ip c1 := by
      rw [k5]
      exact hc1
    have hp := sim_defineGlobals hH hb hs xs vs hl' k6 k3 (by rw [k4]; exact hv1) h2 hbd hc2
    simp only [List.map_cons, List.zip_cons_cons, defGlobals]
    show Post H A B K γ slots s (SM.bind (SM.defGlobal x.1 v) _ σ) _
    refine Post.of_reach (Reach.step k1) k2 Bd.succ (hp.imp ?_)
    intro a γ' slots' σ' s' _ hq
    refine ⟨hq.1, hq.2.1, hq.2.2.1, ?_⟩
    rw [hq.2.2.2, k5]; simp [Instr.enc, u16le]; omega

theorem sim_topDecl (hH : HRel H S) (sp : Span) (v : Var) (e : Node) (he : SimE H S call W B e) : SimT H S call W B (.decl sp v e) := by
  intro A K γ slots g g' σ s c hg hw hd hloc hbd hc hst hal
  obtain ⟨ce, ge, cv, _, h1, h2, rfl⟩ := gen_decl hg
  simp only [Node.wfTop, Bool.and_eq_true] at hw
  simp only [evalTopStmt]
  have e1 := (ext_node H.cfg true e .expr hst.inv h1).e
  have f1 := free_node H.cfg true e .expr true hw.2 hst.free h1
  have e2 := step_declVar e1.2 h2
  have hd1 : ge.cur.depth = 0 := by rw [e1.1.depth]; exact hd
  refine Post.bind (he h1 hw.2 (hbd.back e2.1) hc.left hst (fun _ => by rw [hloc]; exact hal)) ?_
  intro x γ1 slots1 σ1 s1 hx1 hq1
  obtain rfl := hq1.eqSlots
  have hst1 := hst.nextE e1 f1 hx1 hq1
  have hc1 := hc.right
  rw [← hq1.ip] at hc1
  have hp1 := hq1.sp
  have hslot : ∀ l loc, slots1 l = some loc → l < s.sp := fun l loc hl => hst.slotSp hl
  have hip : s.frame.ip + Code.len (ce ++ cv) = s1.frame.ip + cv.len := by rw [hq1.ip]; simp; omega
  rw [hip]
  cases v with
  | one y =>
    rcases declVar_one h2 with ⟨_, i, h3, rfl⟩ | ⟨h3, _⟩
    · obtain ⟨s2, k1, k2, k3, k4, k5, k6⟩ := sim_defineGlobal hH hst1 hp1 hst.le hslot hq1.val h3 hbd.globals hc1
      exact ⟨γ1, slots1, s2, (Reach.step k1).mono (Nat.zero_le _), k2, ⟨rfl, k6, k3.trans hal, k5⟩⟩
    · exact absurd hd1 h3
  | many ys =>
    obtain ⟨_, h3⟩ := declVar_many h2
    rcases h3 with ⟨_, c1, h3, rfl⟩ | ⟨h3, _⟩
    · refine Post.bind (sim_unpack hH hst1 hp1 hst.le hq1.val hc1) ?_
      intro vs γ2 slots2 σ2 s2 hx2 hq2
      obtain ⟨rfl, rfl, rfl, q1, q2, q3, q4, q5⟩ := hq2
      have hst2 := hst1.quiet q1 (by have := hst.le; omega) fun l loc hl => ⟨hslot l loc hl, by have := hslot l loc hl; omega⟩
      have hc2 := hc1.tail
      have hc3 : CodeAt A.fn s2.frame.ip c1 := by rw [q5]; exact hc2
      refine (sim_defineGlobals hH hst.le hslot ys vs q3 hst2 q2 q4 h3 hbd.globals hc3).imp ?_
      intro a γ' slots' σ' s' _ hq
      refine ⟨hq.1, hq.2.1, hq.2.2.1.trans hal, ?_⟩
      rw [hq.2.2.2, q5]; simp; omega
    · exact absurd hd1 h3

theorem sim_topFunc (hH : HRel H S) (sp : Span) (name : Name) (params : List Name) (body : List Node) :
    SimT H S call W B (.func sp name params body) := by
  intro A K γ slots g g' σ s c hg hw hd hloc hbd hc hst hal
  obtain ⟨cf, gf, cv, _, _, h1, h2, rfl⟩ := gen_func hg
  simp only [Node.wfTop, Bool.and_eq_true] at hw
  obtain ⟨⟨hn, hp⟩, hwb⟩ := hw
  have e1 := step_func hst.inv (fun h h' => ext_stmts H.cfg true body h h') h1
  have f1 := free_func hst.free (fun h h' => free_stmts H.cfg true body true hwb h h') h1
  rw [if_pos (by rw [e1.1.depth]; exact hd)] at h2
  obtain ⟨i, h3, rfl⟩ := defineGlobal_inv h2
  have e2 := step_addGlobal e1.2 h3
  have h4 : Post H A B K γ slots s ((pure (.clos ⟨name.1, name.2, params.map Prod.fst, body, []⟩) >>= fun v =>
      SM.defGlobal name.1 v : SM D Unit) σ) (TQ H A K slots g' (s.frame.ip + Code.len (cf ++ [.at' (.defineGlobal i) sp]))) := by
    refine Post.bind (sim_func hH h1 hwb hn hp (hbd.back e2.1.ext) hc.left hst) ?_
    intro x γ1 slots1 σ1 s1 hx1 hq1
    obtain rfl := hq1.eqSlots
    have hst1 := hst.nextE e1 f1 hx1 hq1
    have hc1 := hc.right
    rw [← hq1.ip] at hc1
    obtain ⟨s2, k1, k2, k3, k4, k5, k6⟩ := sim_defineGlobal hH hst1 hq1.sp hst.le (fun l loc hl => hst.slotSp hl) hq1.val h3 hbd.globals hc1
    refine ⟨γ1, slots1, s2, (Reach.step k1).mono (Nat.zero_le _), k2, ⟨rfl, k6, k3.trans hal, ?_⟩⟩
    rw [k5, hq1.ip]; simp [Instr.enc, u16le]; omega
  simp only [evalTopStmt]
  exact h4

theorem sim_topExtern (hH : HRel H S) (sp : Span) (x : Name) (e : Node) (he : SimE H S call W B e) : SimT H S call W B (.extern sp x e) := by
  intro A K γ slots g g' σ s c hg hw hd hloc hbd hc hst hal
  obtain ⟨ce, ge, i, gi, _, h1, _, h2, _, rfl, rfl⟩ := gen_extern hg
  simp only [Node.wfTop, Bool.and_eq_true] at hw
  simp only [evalTopStmt]
  have e1 := (ext_node H.cfg true e .expr hst.inv h1).e
  have f1 := free_node H.cfg true e .expr true hw.2 hst.free h1
  have e2 := step_addGlobal e1.2 h2
  have e3 := externals_step e2.2 (i :: gi.externals)
  refine Post.bind (he h1 hw.2 (hbd.back (e2.trans e3).1.ext) hc.left hst (fun _ => by rw [hloc]; exact hal)) ?_
  intro v γ1 slots1 σ1 s1 hx1 hq1
  obtain rfl := hq1.eqSlots
  have hst1 := hst.nextE e1 f1 hx1 hq1
  have hc1 := hc.right
  rw [← hq1.ip] at hc1
  have hp1 := hq1.sp
  have hslot : ∀ l loc, slots1 l = some loc → l < s.sp := fun l loc hl => hst.slotSp hl
  have hstep := step_at (H := H) hst1.act.fn hc1 (by simp)
  have h0 : ¬ s1.sp = 0 := by omega
  have h3 : s1.sp - 1 = s.sp := by omega
  have hgl : gi.globals.entries <+: H.syms.entries := hbd.globals
  have hx := addGlobal_id hst1.inv h2 hgl hH.symsLen
  have hrel := hst1.ok.globals i x.1 hx
  simp only [VM.exec, VM.pop, VM.goto_sp, h0, if_false, h3] at hstep
  have hip : s.frame.ip + Code.len (ce ++ [.at' (.defineGlobalDefaulted i) x.2]) = s1.frame.ip + (Instr.defineGlobalDefaulted i).enc.length := by
    rw [hq1.ip]; simp; omega
  rw [hip]
  show Post H A B K γ1 slots1 s1 (SM.bind (SM.getGlobal x.1) _ σ1) _
  simp only [SM.bind, SM.getGlobal]
  have hg0 : s1.mem.globals i = s1.globals i := rfl
  cases ha : σ1.globals x.1 with
  | none =>
    rw [ha, hg0] at hrel
    cases hb : s1.globals i with
    | some w => rw [hb] at hrel; simp [Val.RelO] at hrel
    | none =>
      have hb' : ({ s1.goto (s1.frame.ip + (Instr.defineGlobalDefaulted i).enc.length) with sp := s.sp } : VM D).globals i = none := hb
      simp only [VM.goto_globals, hb] at hstep
      obtain ⟨k1, k2⟩ := sim_setGlobal (ip := s1.frame.ip + (Instr.defineGlobalDefaulted i).enc.length) hH hst1 hst.le hslot hq1.val h2 hgl rfl
      refine ⟨γ1, slots1, _, (Reach.step hstep).mono (Nat.zero_le _), k1, ⟨rfl, k2.step e3 (k2.free.of_eq rfl rfl), hal, rfl⟩⟩
  | some v' =>
    rw [ha, hg0] at hrel
    cases hb : s1.globals i with
    | none => rw [hb] at hrel; simp [Val.RelO] at hrel
    | some w =>
      simp only [VM.goto_globals, hb] at hstep
      have hq : Quiet s.sp s1 { s1.goto (s1.frame.ip + (Instr.defineGlobalDefaulted i).enc.length) with sp := s.sp } :=
        ⟨rfl, rfl, rfl, rfl, rfl, rfl, rfl, rfl, rfl, rfl, rfl, fun _ _ => rfl⟩
      have hst2 : St H A K γ1 slots1 ge [] σ1 { s1.goto (s1.frame.ip + (Instr.defineGlobalDefaulted i).enc.length) with sp := s.sp } :=
        hst1.quiet hq hst.le fun l loc hl => ⟨hslot l loc hl, hslot l loc hl⟩
      have hst3 := hst2.step e2 (free_addGlobal hst2.free h2)
      refine ⟨γ1, slots1, _, (Reach.step hstep).mono (Nat.zero_le _), hq.ext hst.le, ⟨rfl, hst3.step e3 (hst3.free.of_eq rfl rfl), hal, rfl⟩⟩

theorem SimT.unspec {n : Node} (h : ∀ σ, evalTopStmt S call W n σ = (.unspec false, σ)) : SimT H S call W B n := by
  intro A K γ slots g g' σ s c hg hw hd hloc hbd hc hst hal
  rw [h]; trivial

theorem sim_each_nil : SimEach H S call W B [] := by
  intro A K γ slots g g' σ s c hg hw hd hloc hbd hc hst hal
  obtain ⟨rfl, rfl⟩ := genEach_nil hg
  simp only [evalEach]
  exact Post.pure' ⟨rfl, hst, hal, by simp⟩

/-- A top-level expression statement whose value is dropped. -/
theorem sim_topExpr {n : Node} (hn : SimE H S call W B n) (hi : n.isStatement = false)
    {A : Act} {K : Nat → Prop} {γ slots : LocMap} {g g' : GState} {σ : SSt D} {s : VM D} {c : Code} {β : Type} {f : SM D β}
    {Q : β → LocMap → LocMap → SSt D → VM D → Prop}
    (hg : genNode H.cfg true (.stmt true) n g = .ok ((), c, g')) (hw : n.wfTop = true) (hloc : g.cur.locals = []) (hbd : Bound H A K g')
    (hc : CodeAt A.fn s.frame.ip c) (hst : St H A K γ slots g [] σ s) (hal : s.sp = A.st)
    (hf : ∀ γ' σ' s', St H A K γ' slots g' [] σ' s' → s'.sp = A.st → s'.frame.ip = s.frame.ip + c.len → Post H A B K γ' slots s' (f σ') Q) :
    Post H A B K γ slots s ((evalNode S call W n [] >>= fun _ => f) σ) Q := by
  obtain ⟨c3, h3, rfl⟩ := genNode_mode hi hg
  rw [Node.wfTop_expr hi] at hw
  simp only [if_true] at hc hf
  have e1 := (ext_node H.cfg true n .expr hst.inv h3).e
  have f1 := free_node H.cfg true n .expr true hw hst.free h3
  refine Post.bind (hn h3 hw hbd hc.left hst (fun _ => by rw [hloc]; exact hal)) ?_
  intro x γ1 slots1 σ1 s1 hx1 hq1
  obtain rfl := hq1.eqSlots
  have hst1 := hst.nextE e1 f1 hx1 hq1
  have hcp := hc.right
  rw [← hq1.ip] at hcp
  obtain ⟨s2, k1, k2, k3, k4, k5⟩ := sim_pop hst hst1 hq1 hcp
  refine Post.of_reach (Reach.step k1) (k2.ext hst.le) Bd.succ (hf _ _ _ k5 (k3.trans hal) ?_)
  rw [k4]; simp [Instr.enc]; omega

theorem sim_each_cons (n : Node) (ns : List Node) (hn : SimE H S call W B n) (ht : SimT H S call W B n) (hns : SimEach H S call W B ns) :
    SimEach H S call W B (n :: ns) := by
  intro A K γ slots g g' σ s c hg hw hd hloc hbd hc hst hal
  obtain ⟨c1, g1, c2, h1, h2, rfl⟩ := genEach_cons hg
  simp only [wfEach, Bool.and_eq_true] at hw
  simp only [evalEach]
  obtain ⟨e1, f1⟩ := top_node H.cfg n hst.inv hst.free hw.1 hd h1
  obtain ⟨e2, f2⟩ := top_each H.cfg ns e1.2 f1 hw.2 (e1.1.depth.trans hd) h2
  have hbd1 := hbd.back e2.1.ext
  have key : ∀ γ' σ' s', St H A K γ' slots g1 [] σ' s' → s'.sp = A.st → s'.frame.ip = s.frame.ip + c1.len →
      Post H A B K γ' slots s' (evalEach S call W ns σ') (TQ H A K slots g' (s.frame.ip + Code.len (c1 ++ c2))) := by
    intro γ' σ' s' k1 k2 k3
    have hc2 := hc.right
    rw [← k3] at hc2
    refine (hns h2 hw.2 (e1.1.depth.trans hd) (GExtE.noLocals e1.1 hloc) hbd hc2 k1 k2).imp ?_
    intro a γ' slots' σ' s' _ hq
    refine ⟨hq.eqSlots, hq.st, hq.sp, ?_⟩
    rw [hq.ip, k3]; simp; omega
  cases hi : n.isStatement with
  | true =>
    simp only [if_true]
    refine Post.bind (ht h1 hw.1 hd hloc hbd1 hc.left hst hal) ?_
    intro a γ1 slots1 σ1 s1 hx1 hq1
    obtain rfl := hq1.eqSlots
    exact key _ _ _ hq1.st hq1.sp hq1.ip
  | false =>
    simp only [Bool.false_eq_true, if_false]
    exact sim_topExpr hn hi h1 hw.1 hloc hbd1 hc.left hst hal key

mutual
theorem sim_top (hH : HRel H S) (hcall : CallOk H call B) (hBW : B.steps ≤ W) : ∀ n : Node, SimT H S call W B n
  | .decl sp v e => sim_topDecl hH sp v e (sim_node hH hcall hBW e)
  | .func sp n ps b => sim_topFunc hH sp n ps b
  | .extern sp x e => sim_topExtern hH sp x e (sim_node hH hcall hBW e)
  | .include sp x b => by
    intro A K γ slots g g' σ s c hg hw hd hloc hbd hc hst hal
    obtain ⟨_, _, h1⟩ := gen_include hg
    simp only [Node.wfTop] at hw
    simp only [evalTopStmt]
    exact sim_topIncl hH hcall hBW b h1 hw hd hloc hbd hc hst hal
  | .lit .. | .ident .. | .assign .. | .pair .. | .range .. | .bin .. | .index .. | .array .. | .un .. | .block .. | .cond .. | .switch ..
  | .while .. | .forIn .. | .forMulti .. | .lambda .. | .call .. | .builtin .. | .ctx .. | .ret .. =>
    SimT.unspec fun _ => by simp only [evalTopStmt]; rfl
termination_by structural n => n
theorem sim_topEach (hH : HRel H S) (hcall : CallOk H call B) (hBW : B.steps ≤ W) : ∀ ns : List Node, SimEach H S call W B ns
  | [] => sim_each_nil
  | n :: ns => sim_each_cons n ns (sim_node hH hcall hBW n) (sim_top hH hcall hBW n) (sim_topEach hH hcall hBW ns)
termination_by structural ns => ns
theorem sim_topIncl (hH : HRel H S) (hcall : CallOk H call B) (hBW : B.steps ≤ W) : ∀ b : Option (List Node), SimI H S call W B b
  | none => by
    intro A K γ slots g g' σ s c x xsp hg hw hd hloc hbd hc hst hal
    simp only [evalIncl]; trivial
  | some b => by
    intro A K γ slots g g' σ s c x xsp hg hw hd hloc hbd hc hst hal
    simp only [genIncl] at hg
    simp only [wfIncl] at hw
    simp only [evalIncl]
    exact sim_topEach hH hcall hBW b hg hw hd hloc hbd hc hst hal
termination_by structural b => b
end

/-- After a program: its value is the only one on the stack. -/
structure PQ (H : Host D) (A : Act) (K : Nat → Prop) (slots : LocMap) (ip : Nat) (v : SVal) (γ' slots' : LocMap) (σ' : SSt D)
    (s' : VM D) : Prop where
  eqSlots : slots' = slots
  sp : s'.sp = A.st + 1
  ip : s'.frame.ip = ip
  val : VRel H.cfg H.syms.entries γ' v (s'.stack A.st)
  ok : Ok H.cfg H.syms.entries γ' slots σ' s'.mem
  openK : OpenK K s'.mem

/-- The generated code of a program simulates it. -/
theorem sim_program (hH : HRel H S) (hcall : CallOk H call B) (hBW : B.steps ≤ W) : ∀ (ns : List Node) {A : Act} {K : Nat → Prop} {γ slots : LocMap} {g g' : GState}
    {σ : SSt D} {s : VM D} {c : Code} {sp0 : Span},
    genStmts H.cfg true ns g = .ok (sp0, c, g') → wfProgram ns = true → g.cur.depth = 0 → g.cur.locals = [] → Bound H A K g' →
    CodeAt A.fn s.frame.ip c → St H A K γ slots g [] σ s → s.sp = A.st →
    Post H A B K γ slots s (evalTop S call W ns σ) (PQ H A K slots (s.frame.ip + c.len))
  | [], _, _, _, _, _, _, _, _, _, _, hg, hw, hd, hloc, hbd, hc, hst, hal => by simp [wfProgram] at hw
  | [n], A, K, γ, slots, g, g', σ, s, c, sp0, hg, hw, hd, hloc, hbd, hc, hst, hal => by
    obtain ⟨h1, rfl⟩ := genStmts_one hg
    simp only [wfProgram, Bool.and_eq_true, Bool.not_eq_true'] at hw
    obtain ⟨c3, h3, rfl⟩ := genNode_mode hw.1 h1
    simp only [evalTop, hw.1, Bool.false_eq_true, if_false]
    rw [Node.wfTop_expr hw.1] at hw
    simp only [Mode.stmt.injEq, Bool.false_eq_true, if_false, List.append_nil] at hc ⊢
    refine (sim_node hH hcall hBW n h3 hw.2 hbd hc hst (fun _ => by rw [hloc]; exact hal)).imp ?_
    intro v γ' slots' σ' s' _ hq
    exact ⟨hq.eqSlots, by rw [hq.sp, hal], hq.ip, by rw [← hal]; exact hq.val, hq.ok, hq.openK⟩
  | n :: n' :: ns, A, K, γ, slots, g, g', σ, s, c, sp0, hg, hw, hd, hloc, hbd, hc, hst, hal => by
    obtain ⟨c1, g1, c2, h1, h2, rfl⟩ := genStmts_cons hg
    simp only [wfProgram, Bool.and_eq_true] at hw
    simp only [evalTop]
    obtain ⟨e1, f1⟩ := top_node H.cfg n hst.inv hst.free hw.1 hd h1
    obtain ⟨e2, f2⟩ := top_stmts H.cfg (n' :: ns) e1.2 f1 hw.2 (e1.1.depth.trans hd) h2
    have hbd1 := hbd.back e2.1.ext
    have key : ∀ γ' σ' s', St H A K γ' slots g1 [] σ' s' → s'.sp = A.st → s'.frame.ip = s.frame.ip + c1.len →
        Post H A B K γ' slots s' (evalTop S call W (n' :: ns) σ') (PQ H A K slots (s.frame.ip + Code.len (c1 ++ c2))) := by
      intro γ' σ' s' k1 k2 k3
      have hc2 := hc.right
      rw [← k3] at hc2
      refine (sim_program hH hcall hBW (n' :: ns) h2 hw.2 (e1.1.depth.trans hd) (GExtE.noLocals e1.1 hloc) hbd hc2 k1 k2).imp ?_
      intro a γ' slots' σ' s'' _ hq
      refine ⟨hq.eqSlots, hq.sp, ?_, hq.val, hq.ok, hq.openK⟩
      rw [hq.ip, k3]; simp; omega
    cases hi : n.isStatement with
    | true =>
      simp only [if_true]
      refine Post.bind (sim_top hH hcall hBW n h1 hw.1 hd hloc hbd1 hc.left hst hal) ?_
      intro a γ1 slots1 σ1 s1 hx1 hq1
      obtain rfl := hq1.eqSlots
      exact key _ _ _ hq1.st hq1.sp hq1.ip
    | false =>
      simp only [Bool.false_eq_true, if_false]
      exact sim_topExpr (sim_node hH hcall hBW n) hi h1 hw.1 hloc hbd1 hc.left hst hal key

end

end Quilt
