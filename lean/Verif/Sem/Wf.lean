import Verif.Compiler.GenExt

/-!
# Well-formed programs

The conditions under which compiled code is compared with the direct semantics. `wf al n`: `al` says
whether no temporary is on the stack above the local variables when `n` is evaluated. Declarations
and `for` loops are only allowed there: elsewhere the compiler assigns them a wrong stack slot.
-/

namespace Quilt

/-- Names reserved by the compiler for temporaries start with `#`; identifiers never do
(`parser/src/parser.rs:30-39`). -/
def isTemp (x : String) : Bool := x.toList.head? == some '#'

def nameOk (x : String) : Bool := !isTemp x

def Var.ok : Var → Bool
  | .one x => nameOk x.1
  | .many xs => xs.all fun x => nameOk x.1

def varOk : Option Var → Bool
  | some v => v.ok
  | none => true

/-- May be the last statement of a block: it leaves a value or returns. -/
def Node.isLast : Node → Bool
  | .decl .. | .func .. | .extern .. | .include .. => false
  | _ => true

mutual
/-- Well-formed in a local scope. -/
def Node.wf (al : Bool) : Node → Bool
  | .lit .. => true
  | .ident _ x => nameOk x
  | .assign _ x e => nameOk x.1 && e.wf al
  | .pair _ a b | .range _ a b | .bin _ _ a b => a.wf al && b.wf false
  | .index _ e i => i.wf al && e.wf false
  | .array _ items => wfRev al items
  | .un _ _ e => e.wf al
  | .block _ body => wfStmts al body
  | .cond _ c th el => c.wf false && wfStmts al th && wfOpt al el
  | .switch _ v cs d => v.wf false && wfCases al cs && wfOpt al d
  | .while _ c b => c.wf false && wfStmts al b
  | .forIn _ x it b => al && nameOk x.1 && it.wf false && wfStmts true b
  | .forMulti _ xs it b => al && (xs.all fun x => nameOk x.1) && it.wf false && wfStmts true b
  | .lambda _ ps b => (ps.all fun x => nameOk x.1) && wfStmts true b
  | .call _ f args => f.wf al && wfArgs false args
  | .builtin _ _ args => wfArgs al args
  | .ctx _ _ args v b => wfArgs al args && (v.isNone || al) && varOk v && wfStmts al b
  | .decl _ v e => al && v.ok && e.wf al
  | .func _ n ps b => al && nameOk n.1 && (ps.all fun x => nameOk x.1) && wfStmts true b
  | .ret _ e => wfRet al e
  | .extern .. | .include .. => false
termination_by structural n => n
/-- Statements of a block. -/
def wfStmts (al : Bool) : List Node → Bool
  | [] => false
  | [n] => n.isLast && n.wf al
  | n :: n' :: ns => n.wf al && wfStmts al (n' :: ns)
termination_by structural n => n
/-- Arguments, evaluated left to right. -/
def wfArgs (al : Bool) : List Node → Bool
  | [] => true
  | n :: ns => n.wf al && wfArgs false ns
termination_by structural n => n
/-- Array items, evaluated right to left. -/
def wfRev (al : Bool) : List Node → Bool
  | [] => true
  | n :: ns => wfRev al ns && n.wf (al && ns.isEmpty)
termination_by structural n => n
def wfOpt (al : Bool) : Option (List Node) → Bool
  | some b => wfStmts al b
  | none => true
termination_by structural n => n
def wfRet (al : Bool) : Option Node → Bool
  | some e => e.wf al
  | none => true
termination_by structural n => n
def wfCases (al : Bool) : List (Node × List Node) → Bool
  | [] => true
  | (c, b) :: cs => c.wf false && wfStmts al b && wfCases al cs
termination_by structural n => n
end

/-! ## Captured variables are never temporaries -/

/-- No captured variable is a temporary. -/
def UpsFree (g : GState) : Prop := ∀ l ∈ g.cur :: g.encl, ∀ u ∈ l.upvalues, isTemp u.name = false

theorem UpsFree.of_eq {g g' : GState} (h : UpsFree g) (h1 : g'.cur.upvalues = g.cur.upvalues) (h2 : g'.encl = g.encl) :
    UpsFree g' := by
  intro l hl u hu
  rcases List.mem_cons.1 hl with rfl | hl
  · exact h g.cur (by simp) u (by rw [← h1]; exact hu)
  · exact h l (by rw [h2] at hl; simp [hl]) u hu

theorem free_addUpvalue {l l' : GLevel} {i j : Nat} {b : Bool} {x : String} (hx : isTemp x = false)
    (h : ∀ u ∈ l.upvalues, isTemp u.name = false) (he : l.addUpvalue i b x = (j, l')) :
    ∀ u ∈ l'.upvalues, isTemp u.name = false := by
  unfold GLevel.addUpvalue at he
  split at he
  · simp only [Prod.mk.injEq] at he; obtain ⟨rfl, rfl⟩ := he; exact h
  · simp only [Prod.mk.injEq] at he; obtain ⟨rfl, rfl⟩ := he
    intro u hu
    rcases List.mem_append.1 hu with hu | hu
    · exact h u hu
    · simp at hu; subst hu; exact hx

theorem free_resolveUp {x : String} (hx : isTemp x = false) :
    ∀ {ps : List GLevel} {l : GLevel} {j : Nat} {l' : GLevel} {ps' : List GLevel},
    (∀ q ∈ l :: ps, ∀ u ∈ q.upvalues, isTemp u.name = false) → resolveUp x l ps = some (j, l', ps') →
    ∀ q ∈ l' :: ps', ∀ u ∈ q.upvalues, isTemp u.name = false
  | [], _, _, _, _, _, h => by simp [resolveUp] at h
  | p :: ps, l, j, l', ps', h0, h => by
    simp only [resolveUp] at h
    cases h1 : lastIdx x p.locals with
    | some i =>
      rw [h1] at h
      simp only at h
      cases he : l.addUpvalue i true x with
      | mk j0 l0 =>
        rw [he] at h
        simp only [Option.some.injEq, Prod.mk.injEq] at h
        obtain ⟨rfl, rfl, rfl⟩ := h
        intro q hq
        rcases List.mem_cons.1 hq with rfl | hq
        · exact free_addUpvalue hx (h0 l (by simp)) he
        · rcases List.mem_cons.1 hq with rfl | hq
          · exact h0 p (by simp)
          · exact h0 q (by simp [hq])
    | none =>
      rw [h1] at h
      simp only at h
      cases h2 : resolveUp x p ps with
      | none => rw [h2] at h; simp at h
      | some r =>
        obtain ⟨i, p', ps0⟩ := r
        rw [h2] at h
        simp only at h
        have ih := free_resolveUp (l := p) (ps := ps) hx (fun q hq => h0 q (List.mem_cons_of_mem _ hq)) h2
        cases he : l.addUpvalue i false x with
        | mk j0 l0 =>
          rw [he] at h
          simp only [Option.some.injEq, Prod.mk.injEq] at h
          obtain ⟨rfl, rfl, rfl⟩ := h
          intro q hq
          rcases List.mem_cons.1 hq with rfl | hq
          · exact free_addUpvalue hx (h0 l (by simp)) he
          · exact ih q hq

theorem free_resolve {g g' : GState} {x : String} {r : GState.Ref} (hx : nameOk x = true) (h : UpsFree g)
    (he : g.resolve x = (r, g')) : UpsFree g' := by
  unfold GState.resolve at he
  cases h1 : lastIdx x g.cur.locals with
  | some i =>
    rw [h1] at he; simp only [Prod.mk.injEq] at he
    obtain ⟨rfl, rfl⟩ := he
    exact h
  | none =>
    rw [h1] at he; simp only at he
    cases h2 : resolveUp x g.cur g.encl with
    | some q =>
      obtain ⟨j, l, ls⟩ := q
      rw [h2] at he; simp only [Prod.mk.injEq] at he
      obtain ⟨rfl, rfl⟩ := he
      exact free_resolveUp (by simpa [nameOk] using hx) h h2
    | none =>
      rw [h2] at he; simp only [Prod.mk.injEq] at he
      obtain ⟨rfl, rfl⟩ := he
      exact h.of_eq rfl rfl

theorem free_addGlobal {g g' : GState} {x : String} {i : Nat} (h : UpsFree g) (he : g.addGlobal x = (i, g')) :
    UpsFree g' := by
  simp only [GState.addGlobal, Prod.mk.injEq] at he
  obtain ⟨rfl, rfl⟩ := he
  exact h.of_eq rfl rfl

theorem free_addConst {g g' : GState} {x : Const} {i : Nat} (h : UpsFree g) (he : g.addConst x = (i, g')) :
    UpsFree g' := by
  simp only [GState.addConst, Prod.mk.injEq] at he
  obtain ⟨rfl, rfl⟩ := he
  exact h.of_eq rfl rfl

theorem free_defineLocals {g : GState} (h : UpsFree g) (ns : List String) : UpsFree (g.defineLocals ns) := by
  obtain ⟨_, b, _, _, e, _⟩ := defineLocals_spec g ns
  exact h.of_eq b e

theorem free_enterFn {g : GState} (h : UpsFree g) (n : String) (ps : List String) : UpsFree (g.enterFn n ps) := by
  obtain ⟨_, b, _, _, e, _⟩ := enterFn_spec g n ps
  intro l hl u hu
  rcases List.mem_cons.1 hl with rfl | hl
  · rw [b] at hu; simp at hu
  · rw [e] at hl; exact h l hl u hu

theorem free_func {strict : Bool} {name : Name} {params : List Name} {sp : Span} {body : GM Span} {u : Unit} {c : Code}
    {g g' : GState} (h : UpsFree g) (hb : ∀ {g s c g'}, UpsFree g → body g = .ok (s, c, g') → UpsFree g')
    (he : GM.func strict name params sp body g = .ok (u, c, g')) : UpsFree g' := by
  rw [GM.func_ok] at he
  obtain ⟨s, cb, g1, l, ls, h1, h2, _, _, rfl⟩ := he
  have := hb (free_enterFn h _ _) h1
  refine free_addConst (g := { g1 with cur := l, encl := ls }) ?_ rfl
  intro q hq
  exact this q (by rw [h2]; exact List.mem_cons_of_mem _ hq)

theorem free_inScope {body : GM Span} {u : Unit} {c : Code} {g g' : GState} (h : UpsFree g)
    (hb : ∀ {g s c g'}, UpsFree g → body g = .ok (s, c, g') → UpsFree g')
    (he : GM.inScope body g = .ok (u, c, g')) : UpsFree g' := by
  obtain ⟨s, cb, gb, h1, _, rfl⟩ := inScope_inv he
  exact (hb (h.of_eq (g' := g.enterScope) rfl rfl) h1).of_eq rfl rfl

theorem free_defineGlobals : ∀ {xs : List Name} {u : Unit} {c : Code} {g g' : GState}, UpsFree g →
    GM.defineGlobals xs g = .ok (u, c, g') → UpsFree g'
  | [], _, _, _, _, h, he => by obtain ⟨_, _, rfl⟩ := GM.pure_ok.1 he; exact h
  | x :: xs, _, _, _, _, h, he => by
    obtain ⟨i, g1, c1, h1, h2, _⟩ := defineGlobals_cons he
    exact free_defineGlobals (free_addGlobal h h1) h2

theorem free_declVar {sp : Span} {v : Var} {u : Unit} {c : Code} {g g' : GState} (hv : v.ok = true) (h : UpsFree g)
    (he : GM.declVar sp v g = .ok (u, c, g')) : UpsFree g' := by
  cases v with
  | one x =>
    rcases declVar_one he with ⟨_, i, hi, _⟩ | ⟨_, r, hr, _⟩
    · exact free_addGlobal h hi
    · exact free_resolve hv (free_defineLocals h _) hr
  | many xs =>
    rcases (declVar_many he).2 with ⟨_, c1, h1, _⟩ | ⟨_, rfl, _⟩
    · exact free_defineGlobals h h1
    · exact free_defineLocals h _

theorem free_ctxVar {sp csp : Span} {v : Option Var} {u : Unit} {c : Code} {g g' : GState} (hv : varOk v = true)
    (h : UpsFree g) (he : GM.ctxVar sp csp v g = .ok (u, c, g')) : UpsFree g' := by
  cases v with
  | none => obtain ⟨_, rfl⟩ := ctxVar_none he; exact h
  | some v =>
    cases v with
    | one x => obtain ⟨r, hr, _⟩ := ctxVar_one he; exact free_resolve hv (free_defineLocals h _) hr
    | many xs => obtain ⟨_, rfl, _⟩ := ctxVar_many he; exact free_defineLocals h _

theorem free_temps {g : GState} (h : UpsFree g) : UpsFree g.enterScope.reserveTemp.reserveTemp :=
  h.of_eq rfl rfl

mutual
theorem free_node (cfg : Cfg) (strict : Bool) : ∀ (n : Node) (m : Mode) (al : Bool) {u : Unit} {c : Code} {g g' : GState},
    n.wf al = true → UpsFree g → genNode cfg strict m n g = .ok (u, c, g') → UpsFree g'
  | .ret sp e, m, al, _, _, _, _, hw, h, he => by
    obtain ⟨_, _, _, h1, _⟩ := gen_ret he
    exact free_opt cfg strict e al (by simpa [Node.wf] using hw) h h1
  | .func sp name params body, m, al, _, _, _, _, hw, h, he => by
    simp only [Node.wf, Bool.and_eq_true] at hw
    obtain ⟨cf, gf, cv, _, _, h1, h2, _⟩ := gen_func he
    have a := free_func h (free_stmts cfg strict body true hw.2) h1
    split at h2
    · obtain ⟨i, h3, _⟩ := defineGlobal_inv h2; exact free_addGlobal a h3
    · obtain ⟨r, h3, _⟩ := setVariable_inv h2
      exact free_resolve hw.1.1.2 (free_defineLocals a _) h3
  | .decl sp v e, m, al, _, _, _, _, hw, h, he => by
    simp only [Node.wf, Bool.and_eq_true] at hw
    obtain ⟨ce, ge, cv, _, h1, h2, _⟩ := gen_decl he
    exact free_declVar hw.1.2 (free_node cfg strict e .expr al hw.2 h h1) h2
  | .extern .., _, _, _, _, _, _, hw, _, _ => by simp [Node.wf] at hw
  | .include .., _, _, _, _, _, _, hw, _, _ => by simp [Node.wf] at hw
  | .lit sp l, m, al, _, _, _, _, hw, h, he => by
    obtain ⟨_, he1, _⟩ := genNode_mode rfl he
    rcases gen_lit he1 with ⟨_, _, rfl⟩ | ⟨i, h1, _⟩
    · exact h
    · exact free_addConst h h1
  | .ident sp x, m, al, _, _, _, _, hw, h, he => by
    obtain ⟨_, he1, _⟩ := genNode_mode rfl he
    obtain ⟨r, h1, _⟩ := gen_ident he1
    exact free_resolve (by simpa [Node.wf] using hw) h h1
  | .assign sp x e, m, al, _, _, _, _, hw, h, he => by
    obtain ⟨_, he1, _⟩ := genNode_mode rfl he
    simp only [Node.wf, Bool.and_eq_true] at hw
    obtain ⟨ce, ge, r, h1, h2, _⟩ := gen_assign he1
    exact free_resolve hw.1 (free_node cfg strict e .expr al hw.2 h h1) h2
  | .pair sp a b, m, al, _, _, _, _, hw, h, he => by
    obtain ⟨_, he1, _⟩ := genNode_mode rfl he
    simp only [Node.wf, Bool.and_eq_true] at hw
    obtain ⟨ca, ga, cb, h1, h2, _⟩ := gen_pair he1
    exact free_node cfg strict b .expr false hw.2 (free_node cfg strict a .expr al hw.1 h h1) h2
  | .range sp a b, m, al, _, _, _, _, hw, h, he => by
    obtain ⟨_, he1, _⟩ := genNode_mode rfl he
    simp only [Node.wf, Bool.and_eq_true] at hw
    obtain ⟨ca, ga, cb, h1, h2, _⟩ := gen_range he1
    exact free_node cfg strict b .expr false hw.2 (free_node cfg strict a .expr al hw.1 h h1) h2
  | .bin sp op a b, m, al, _, _, _, _, hw, h, he => by
    obtain ⟨_, he1, _⟩ := genNode_mode rfl he
    simp only [Node.wf, Bool.and_eq_true] at hw
    obtain ⟨ca, ga, cb, h1, h2, _⟩ := gen_bin he1
    exact free_node cfg strict b .expr false hw.2 (free_node cfg strict a .expr al hw.1 h h1) h2
  | .index sp e i, m, al, _, _, _, _, hw, h, he => by
    obtain ⟨_, he1, _⟩ := genNode_mode rfl he
    simp only [Node.wf, Bool.and_eq_true] at hw
    obtain ⟨ca, ga, cb, h1, h2, _⟩ := gen_index he1
    exact free_node cfg strict e .expr false hw.2 (free_node cfg strict i .expr al hw.1 h h1) h2
  | .un sp op e, m, al, _, _, _, _, hw, h, he => by
    obtain ⟨_, he1, _⟩ := genNode_mode rfl he
    rcases gen_un he1 with ⟨l, i, _, h1, _⟩ | ⟨ce, h1, _⟩
    · exact free_addConst h h1
    · exact free_node cfg strict e .expr al (by simpa [Node.wf] using hw) h h1
  | .array sp items, m, al, _, _, _, _, hw, h, he => by
    obtain ⟨_, he1, _⟩ := genNode_mode rfl he
    obtain ⟨ca, _, h1, _⟩ := gen_array he1
    exact free_rev cfg strict items al (by simpa [Node.wf] using hw) h h1
  | .call sp f args, m, al, _, _, _, _, hw, h, he => by
    obtain ⟨_, he1, _⟩ := genNode_mode rfl he
    simp only [Node.wf, Bool.and_eq_true] at hw
    obtain ⟨cf, gf, ca, _, h1, h2, _⟩ := gen_call he1
    exact free_args cfg strict args false hw.2 (free_node cfg strict f .expr al hw.1 h h1) h2
  | .builtin sp x args, m, al, _, _, _, _, hw, h, he => by
    obtain ⟨_, he1, _⟩ := genNode_mode rfl he
    obtain ⟨ca, ga, i, _, h1, h2, _⟩ := gen_builtin he1
    exact free_addGlobal (free_args cfg strict args al (by simpa [Node.wf] using hw) h h1) h2
  | .block sp body, m, al, _, _, _, _, hw, h, he => by
    obtain ⟨_, he1, _⟩ := genNode_mode rfl he
    exact free_inScope h (free_stmts cfg strict body al (by simpa [Node.wf] using hw)) (gen_block he1)
  | .lambda sp params body, m, al, _, _, _, _, hw, h, he => by
    obtain ⟨_, he1, _⟩ := genNode_mode rfl he
    simp only [Node.wf, Bool.and_eq_true] at hw
    exact free_func h (free_stmts cfg strict body true hw.2) (gen_lambda he1).2
  | .ctx sp x args v body, m, al, _, _, _, _, hw, h, he => by
    obtain ⟨_, he1, _⟩ := genNode_mode rfl he
    simp only [Node.wf, Bool.and_eq_true] at hw
    obtain ⟨ca, ga, i, gi, cv, gv, s, cb, gb, _, h1, h2, h3, h4, _, rfl⟩ := gen_ctx he1
    have a := free_addGlobal (free_args cfg strict args al hw.1.1.1 h h1) h2
    have b := free_ctxVar hw.1.2 (a.of_eq (g' := gi.enterScope) rfl rfl) h3
    exact (free_stmts cfg strict body al hw.2 b h4).of_eq rfl rfl
  | .cond sp c th el, m, al, _, _, _, _, hw, h, he => by
    obtain ⟨_, he1, _⟩ := genNode_mode rfl he
    simp only [Node.wf, Bool.and_eq_true] at hw
    obtain ⟨cc, gc, a, ga, b, h1, h2, h3, _⟩ := gen_cond he1
    exact free_else cfg strict el al hw.2
      (free_inScope (free_node cfg strict c .expr false hw.1.1 h h1) (free_stmts cfg strict th al hw.1.2) h2) h3
  | .switch sp v cases dflt, m, al, _, _, _, _, hw, h, he => by
    obtain ⟨_, he1, _⟩ := genNode_mode rfl he
    simp only [Node.wf, Bool.and_eq_true] at hw
    obtain ⟨cv, gv, ps, cx, gp, d, h1, h2, h3, _⟩ := gen_switch he1
    exact free_else cfg strict dflt al hw.2
      (free_cases cfg strict cases al hw.1.2 (free_node cfg strict v .expr false hw.1.1 h h1) h2) h3
  | .while sp c body, m, al, _, _, _, _, hw, h, he => by
    obtain ⟨_, he1, _⟩ := genNode_mode rfl he
    simp only [Node.wf, Bool.and_eq_true] at hw
    obtain ⟨cc, gc, b, h1, h2, _⟩ := gen_while he1
    exact free_inScope (free_node cfg strict c .expr false hw.1 h h1) (free_stmts cfg strict body al hw.2) h2
  | .forIn sp x it body, m, al, _, _, _, _, hw, h, he => by
    obtain ⟨_, he1, _⟩ := genNode_mode rfl he
    simp only [Node.wf, Bool.and_eq_true] at hw
    obtain ⟨ci, gi, s, cb, gb, h1, h2, _, _, rfl⟩ := gen_forIn he1
    have a := free_node cfg strict it .expr false hw.1.2 (free_temps h) h1
    exact ((free_stmts cfg strict body true hw.2 (free_defineLocals (a.of_eq (g' := gi.enterScope) rfl rfl) _) h2).of_eq
      (g' := gb.exitScope) rfl rfl).of_eq rfl rfl
  | .forMulti sp xs it body, m, al, _, _, _, _, hw, h, he => by
    obtain ⟨_, he1, _⟩ := genNode_mode rfl he
    simp only [Node.wf, Bool.and_eq_true] at hw
    obtain ⟨ci, gi, s, cb, gb, _, h1, h2, _, _, rfl⟩ := gen_forMulti he1
    have a := free_node cfg strict it .expr false hw.1.2 (free_temps h) h1
    exact ((free_stmts cfg strict body true hw.2 (free_defineLocals (a.of_eq (g' := gi.enterScope) rfl rfl) _) h2).of_eq
      (g' := gb.exitScope) rfl rfl).of_eq rfl rfl
termination_by structural n => n
theorem free_stmts (cfg : Cfg) (strict : Bool) : ∀ (ns : List Node) (al : Bool) (_ : wfStmts al ns = true)
    {g : GState} {s : Span} {c : Code} {g' : GState}, UpsFree g → genStmts cfg strict ns g = .ok (s, c, g') → UpsFree g'
  | [], _, hw, _, _, _, _, _, _ => by simp [wfStmts] at hw
  | [n], al, hw, _, _, _, _, h, he => by
    simp only [wfStmts, Bool.and_eq_true] at hw
    exact free_node cfg strict n _ al hw.2 h (genStmts_one he).1
  | n :: n' :: ns, al, hw, _, _, _, _, h, he => by
    simp only [wfStmts, Bool.and_eq_true] at hw
    obtain ⟨c1, g1, c2, h1, h2, _⟩ := genStmts_cons he
    exact free_stmts cfg strict (n' :: ns) al hw.2 (free_node cfg strict n _ al hw.1 h h1) h2
termination_by structural ns => ns
theorem free_args (cfg : Cfg) (strict : Bool) : ∀ (ns : List Node) (al : Bool) {u : Unit} {c : Code} {g g' : GState},
    wfArgs al ns = true → UpsFree g → genArgs cfg strict ns g = .ok (u, c, g') → UpsFree g'
  | [], _, _, _, _, _, _, h, he => by obtain ⟨_, rfl⟩ := genArgs_nil he; exact h
  | n :: ns, al, _, _, _, _, hw, h, he => by
    simp only [wfArgs, Bool.and_eq_true] at hw
    obtain ⟨c1, g1, c2, h1, h2, _⟩ := genArgs_cons he
    exact free_args cfg strict ns false hw.2 (free_node cfg strict n .expr al hw.1 h h1) h2
termination_by structural ns => ns
theorem free_rev (cfg : Cfg) (strict : Bool) : ∀ (ns : List Node) (al : Bool) {u : Unit} {c : Code} {g g' : GState},
    wfRev al ns = true → UpsFree g → genRev cfg strict ns g = .ok (u, c, g') → UpsFree g'
  | [], _, _, _, _, _, _, h, he => by obtain ⟨_, rfl⟩ := genRev_nil he; exact h
  | n :: ns, al, _, _, _, _, hw, h, he => by
    simp only [wfRev, Bool.and_eq_true] at hw
    obtain ⟨c1, g1, c2, h1, h2, _⟩ := genRev_cons he
    exact free_node cfg strict n .expr _ hw.2 (free_rev cfg strict ns al hw.1 h h1) h2
termination_by structural ns => ns
theorem free_cases (cfg : Cfg) (strict : Bool) : ∀ (cs : List (Node × List Node)) (al : Bool) {ps : List (Code × Span)}
    {c : Code} {g g' : GState}, wfCases al cs = true → UpsFree g → genCases cfg strict cs g = .ok (ps, c, g') → UpsFree g'
  | [], _, _, _, _, _, _, h, he => by obtain ⟨_, _, rfl⟩ := genCases_nil he; exact h
  | (n, body) :: cs, al, _, _, _, _, hw, h, he => by
    simp only [wfCases, Bool.and_eq_true] at hw
    obtain ⟨cc, gc, b, gb, ps', h1, h2, _, h3, _⟩ := genCases_cons he
    exact free_cases cfg strict cs al hw.2
      (free_inScope (free_node cfg strict n .expr false hw.1.1 h h1) (free_stmts cfg strict body al hw.1.2) h2) h3
termination_by structural cs => cs
theorem free_else (cfg : Cfg) (strict : Bool) : ∀ (el : Option (List Node)) (al : Bool) {sp : Span} {u : Unit} {c : Code}
    {g g' : GState}, wfOpt al el = true → UpsFree g → genElse cfg strict sp el g = .ok (u, c, g') → UpsFree g'
  | none, _, _, _, _, _, _, _, h, he => by obtain ⟨_, rfl⟩ := genElse_none he; exact h
  | some body, al, _, _, _, _, _, hw, h, he => by
    obtain ⟨c1, h1, _⟩ := genElse_some he
    exact free_inScope h (free_stmts cfg strict body al (by simpa [wfOpt] using hw)) h1
termination_by structural el => el
theorem free_opt (cfg : Cfg) (strict : Bool) : ∀ (e : Option Node) (al : Bool) {sp : Span} {u : Unit} {c : Code}
    {g g' : GState}, wfRet al e = true → UpsFree g → genOpt cfg strict sp e g = .ok (u, c, g') → UpsFree g'
  | none, _, _, _, _, _, _, _, h, he => by obtain ⟨_, rfl⟩ := genOpt_none he; exact h
  | some n, al, _, _, _, _, _, hw, h, he => by
    exact free_node cfg strict n .expr al (by simpa [wfRet] using hw) h he
termination_by structural e => e
end

end Quilt
