import Verif.Sem.Only

/-!
# Parser-shaped programs always have a prescribed outcome

Except if functions are compared.
-/

set_option linter.unusedSectionVars false

namespace Quilt

/-- The last statement is a `return`. -/
def endsRet : List Node → Bool
  | [] => false
  | [.ret ..] => true
  | [_] => false
  | _ :: n :: ns => endsRet (n :: ns)

mutual
/-- What the parser and the checks of the compiler guarantee about syntax trees (C41_shaped; `parser/src/parser.rs:280-378`): statements are not used as
expressions, blocks end with an expression or a `return`, function bodies with a `return`; `extern` and `include` only occur at top
level. -/
def Node.shaped : Node → Bool
  | .lit .. | .ident .. => true
  | .assign _ _ e | .un _ _ e | .decl _ _ e => !e.isStatement && e.shaped
  | .pair _ a b | .range _ a b | .bin _ _ a b => !a.isStatement && a.shaped && (!b.isStatement && b.shaped)
  | .index _ e i => !e.isStatement && e.shaped && (!i.isStatement && i.shaped)
  | .array _ items => shapedAll items
  | .block _ body => shapedBlk body
  | .cond _ c th el => !c.isStatement && c.shaped && shapedBlk th && shapedOpt el
  | .switch _ v cs d => !v.isStatement && v.shaped && shapedCases cs && shapedOpt d
  | .while _ c b => !c.isStatement && c.shaped && shapedBlk b
  | .forIn _ _ it b => !it.isStatement && it.shaped && shapedBlk b
  | .forMulti _ _ it b => !it.isStatement && it.shaped && shapedBlk b
  | .lambda _ _ b => shapedBlk b && endsRet b
  | .func _ _ _ b => shapedBlk b && endsRet b
  | .call _ f args => !f.isStatement && f.shaped && shapedAll args
  | .builtin _ _ args => shapedAll args
  | .ctx _ _ args _ b => shapedAll args && shapedBlk b
  | .ret _ e => shapedRet e
  | .extern .. | .include .. => false
termination_by structural n => n
/-- Statements of a block. -/
def shapedBlk : List Node → Bool
  | [] => false
  | [n] => (!n.isStatement || endsRet [n]) && n.shaped
  | n :: n' :: ns => n.shaped && shapedBlk (n' :: ns)
termination_by structural n => n
/-- Expressions. -/
def shapedAll : List Node → Bool
  | [] => true
  | n :: ns => !n.isStatement && n.shaped && shapedAll ns
termination_by structural n => n
def shapedOpt : Option (List Node) → Bool
  | some b => shapedBlk b
  | none => true
termination_by structural n => n
def shapedRet : Option Node → Bool
  | some e => !e.isStatement && e.shaped
  | none => true
termination_by structural n => n
def shapedCases : List (Node × List Node) → Bool
  | [] => true
  | (c, b) :: cs => !c.isStatement && c.shaped && shapedBlk b && shapedCases cs
termination_by structural n => n
end

mutual
/-- The same at top level. -/
def Node.shapedTop : Node → Bool
  | .decl _ _ e => !e.isStatement && e.shaped
  | .func _ _ _ b => shapedBlk b && endsRet b
  | .extern _ _ e => !e.isStatement && e.shaped
  | .include _ _ b => shapedIncl b
  | .ret .. => false
  | n => n.shaped
termination_by structural n => n
/-- Included statements. -/
def shapedEach : List Node → Bool
  | [] => true
  | n :: ns => n.shapedTop && shapedEach ns
termination_by structural n => n
def shapedIncl : Option (List Node) → Bool
  | some b => shapedEach b
  | none => false
termination_by structural n => n
end

/-- Programs end with an expression. -/
def shapedProgram : List Node → Bool
  | [] => false
  | [n] => !n.isStatement && n.shaped
  | n :: n' :: ns => n.shapedTop && shapedProgram (n' :: ns)

/-! ## Good values -/

/-- Functions with well-shaped bodies. -/
def GoodC (c : SClos) : Prop := shapedBlk c.body = true ∧ endsRet c.body = true

/-- Values without bad functions. -/
def Good (v : SVal) : Prop := Only GoodC v
def GoodL (vs : List SVal) : Prop := OnlyL GoodC vs

theorem GoodL.all {vs : List SVal} (h : GoodL vs) : ∀ v ∈ vs, Good v := OnlyL.all h

variable {D : Type}

/-- Only good values in the state. -/
def GoodSt (σ : SSt D) : Prop := (∀ l, Good (σ.store l)) ∧ ∀ x v, σ.globals x = some v → Good v

/-- Source builtins keep values good. -/
def GoodB : Option (Builtin D SClos) → Limits → Prop
  | some (.fn f), lim | some (.ctx f _), lim => ∀ d args v, GoodL args → (f d args lim).1 = .ok v → Good v
  | none, _ => True

theorem BuiltinRel.good {lim : Limits} {b : Option (Builtin D SClos)} {b' : Option (Builtin D VClos)} (h : BuiltinRel lim b b') : GoodB b lim := by
  match b, b', h with
  | none, none, _ => trivial
  | some (.fn f), some (.fn f'), h => exact fun d args v => BRel.only h d args v
  | some (.ctx f e), some (.ctx f' e'), h => exact fun d args v => BRel.only h.1 d args v

/-! ## Good evaluations -/

/-- Values satisfying `P`, good states, and a prescribed outcome unless functions are compared. -/
def GP {α : Type} (P : α → Prop) (x : SM D α) : Prop := ∀ σ, GoodSt σ → GoodSt (x σ).2 ∧
  match (x σ).1 with
  | .ok a => P a
  | .ret v => Good v
  | .unspec b => b = true
  | _ => True

namespace GP
variable {α β : Type}

theorem pure {P : α → Prop} {a : α} (h : P a) : GP P (Pure.pure a : SM D α) := fun _ hs => ⟨hs, h⟩

theorem bind {P : α → Prop} {Q : β → Prop} {x : SM D α} {f : α → SM D β} (hx : GP P x) (hf : ∀ a, P a → GP Q (f a)) : GP Q (x >>= f) := by
  intro σ hs
  show GoodSt (SM.bind x f σ).2 ∧ _
  have := hx σ hs
  show GoodSt (SM.bind x f σ).2 ∧ match (SM.bind x f σ).1 with | .ok a => Q a | .ret v => Good v | .unspec b => b = true | _ => True
  simp only [SM.bind]
  generalize x σ = r at this
  obtain ⟨o, σ'⟩ := r
  cases o with
  | ok a => exact hf a this.2 σ' this.1
  | ret v => exact this
  | err e sp => exact this
  | panic => exact this
  | timeout => exact this
  | deep => exact this
  | unspec b => exact this

theorem mono {P Q : α → Prop} {x : SM D α} (h : GP P x) (hpq : ∀ a, P a → Q a) : GP Q x := by
  intro σ hs
  have := h σ hs
  generalize x σ = r at this
  obtain ⟨o, σ'⟩ := r
  cases o with
  | ok a => exact ⟨this.1, hpq a this.2⟩
  | _ => exact this

theorem err {P : α → Prop} {e : Err} {sp : Option Span} : GP P (SM.err e sp : SM D α) := fun _ hs => ⟨hs, trivial⟩
theorem panic {P : α → Prop} : GP P (SM.panic : SM D α) := fun _ hs => ⟨hs, trivial⟩
theorem timeout {P : α → Prop} : GP P (SM.timeout : SM D α) := fun _ hs => ⟨hs, trivial⟩
theorem incomparable {P : α → Prop} : GP P (SM.incomparable : SM D α) := fun _ hs => ⟨hs, rfl⟩
theorem ret {P : α → Prop} {v : SVal} (h : Good v) : GP P (SM.ret v : SM D α) := fun _ hs => ⟨hs, h⟩

theorem lift {P : α → Prop} {r : Res α} {sp : Span} (h : ∀ a, r = .ok a → P a) : GP P (SM.lift r sp : SM D α) := by
  cases r with
  | ok a => exact pure (h a rfl)
  | err e => exact err
  | panic => exact panic

/-- From a relational fact about a primitive. -/
theorem liftR {P : α → Prop} {R : α → α → Prop} {r : Res α} {sp : Span} (h : Res.Rel R r r) (hp : ∀ a, R a a → P a) : GP P (SM.lift r sp : SM D α) :=
  lift fun a ha => by rw [ha] at h; exact hp a h

theorem alloc {v : SVal} (h : Good v) : GP (fun _ => True) (SM.alloc v : SM D Nat) := by
  intro σ hs
  refine ⟨⟨fun l => ?_, hs.2⟩, trivial⟩
  show Good (upd σ.store σ.next v l)
  by_cases hl : l = σ.next
  · subst hl; rw [upd_same]; exact h
  · rw [upd_other _ _ hl]; exact hs.1 l

theorem load {l : Nat} : GP Good (SM.load l : SM D SVal) := fun _ hs => ⟨hs, hs.1 l⟩

theorem store {l : Nat} {v : SVal} (h : Good v) : GP (fun _ => True) (SM.store l v : SM D Unit) := by
  intro σ hs
  refine ⟨⟨fun l' => ?_, hs.2⟩, trivial⟩
  show Good (upd σ.store l v l')
  by_cases hl : l' = l
  · subst hl; rw [upd_same]; exact h
  · rw [upd_other _ _ hl]; exact hs.1 l'

theorem getGlobal {x : String} : GP (fun o => ∀ v, o = some v → Good v) (SM.getGlobal x : SM D (Option SVal)) :=
  fun _ hs => ⟨hs, fun v hv => hs.2 x v hv⟩

theorem defGlobal {x : String} {v : SVal} (h : Good v) : GP (fun _ => True) (SM.defGlobal x v : SM D Unit) := by
  intro σ hs
  refine ⟨⟨hs.1, fun y w hw => ?_⟩, trivial⟩
  replace hw : (if y = x then some v else σ.globals y) = some w := hw
  split at hw
  · cases hw; exact h
  · exact hs.2 y w hw

theorem host {γ : Type} {P : γ → Prop} {f : D → Res γ × D} {sp : Span} (h : ∀ d a, (f d).1 = .ok a → P a) : GP P (SM.host f sp) := by
  intro σ hs
  have := h σ.data
  simp only [SM.host]
  generalize f σ.data = r at this
  obtain ⟨o, d⟩ := r
  cases o with
  | ok a => exact ⟨hs, this a rfl⟩
  | err e => exact ⟨hs, trivial⟩
  | panic => exact ⟨hs, trivial⟩

theorem pushExit {e : ExitFn D} : GP (fun _ => True) (SM.pushExit e) := fun _ hs => ⟨hs, trivial⟩

theorem popExit {sp : Span} : GP (fun _ => True) (SM.popExit sp : SM D Unit) := by
  intro σ hs
  simp only [SM.popExit]
  split
  · exact ⟨hs, trivial⟩
  · rename_i e es _
    exact host (f := e) (fun _ _ _ => trivial) { σ with exits := es } hs

theorem bindVars : ∀ {bs : List (String × SVal)} {env : SEnv}, (∀ b ∈ bs, Good b.2) → GP (fun _ => True) (SM.bindVars bs env : SM D SEnv)
  | [], env, _ => pure trivial
  | (x, v) :: r, env, h => bind (alloc (h (x, v) (by simp))) fun _ _ => bindVars fun b hb => h b (by simp [hb])

theorem readVar {x : String} {sp : Span} {env : SEnv} : GP Good (Quilt.readVar x sp env : SM D SVal) := by
  unfold Quilt.readVar
  split
  · exact load
  · refine bind getGlobal fun o ho => ?_
    cases o with
    | some v => exact pure (ho v rfl)
    | none => exact err

theorem writeVar {x : String} {sp : Span} {env : SEnv} {v : SVal} (h : Good v) : GP (fun _ => True) (Quilt.writeVar x sp env v : SM D Unit) := by
  unfold Quilt.writeVar
  split
  · exact store h
  · refine bind getGlobal fun o ho => ?_
    cases o with
    | some _ => exact defGlobal h
    | none => exact err

theorem eqVals {F : FOps} {a b : SVal} : GP (fun _ => True) (Quilt.eqVals F a b : SM D Bool) := by
  unfold Quilt.eqVals
  split
  · exact pure trivial
  · exact incomparable

theorem evalBin {S : SHost D} {op : Op} {sp : Span} {a b : SVal} (ha : Good a) (hb : Good b) : GP Good (Quilt.evalBin S op sp a b) := by
  unfold Quilt.evalBin
  split
  · exact bind eqVals fun _ _ => pure rfl
  · exact bind eqVals fun _ _ => pure rfl
  · rename_i h1 h2
    exact liftR (Val.rel_binary S.cfg S.lim _ _ op (by simpa using h1) (by simpa using h2) ha hb) fun _ h => h

theorem declVars {v : Var} {sp : Span} {val : SVal} {env : SEnv} (h : Good val) : GP (fun _ => True) (Quilt.declVars v sp val env : SM D SEnv) := by
  unfold Quilt.declVars
  split
  · exact bindVars (by simpa using h)
  · refine bind (liftR (P := GoodL) (Val.rel_unpack _ h) fun _ h => h) fun vs hvs => bindVars fun b hb => ?_
    rw [List.mem_reverse] at hb
    exact hvs.all _ (List.of_mem_zip hb).2

theorem ctxVars {v : Option Var} {sp : Span} {val : SVal} {env : SEnv} (h : Good val) : GP (fun _ => True) (Quilt.ctxVars v sp val env : SM D SEnv) := by
  unfold Quilt.ctxVars
  split
  · exact declVars h
  · exact pure trivial

theorem applyVal {call : SClos → List SVal → SM D SVal} (hc : ∀ c args, GoodC c → GoodL args → GP Good (call c args)) {sp : Span} {f : SVal}
    {args : List SVal} (hf : Good f) (ha : GoodL args) : GP Good (Quilt.applyVal call sp f args) := by
  unfold Quilt.applyVal
  split
  · split
    · exact err
    · exact hc _ _ hf.2 ha
  · exact err

theorem callBuiltin {S : SHost D} (hS : ∀ x, GoodB (S.builtins x) S.lim) {x : String} {sp : Span} {args : List SVal} (ha : GoodL args) :
    GP Good (Quilt.callBuiltin S x sp args) := by
  have := hS x
  unfold Quilt.callBuiltin
  split
  · rename_i f hf; rw [hf] at this; exact host fun d v => this d args v ha
  · exact err
  · exact err

theorem enterCtx {S : SHost D} (hS : ∀ x, GoodB (S.builtins x) S.lim) {x : String} {sp : Span} {args : List SVal} (ha : GoodL args) :
    GP Good (Quilt.enterCtx S x sp args) := by
  have := hS x
  unfold Quilt.enterCtx
  split
  · rename_i f hf; rw [hf] at this; exact host fun d v => this d args v ha
  · rename_i f e hf; rw [hf] at this; exact bind pushExit fun _ _ => host fun d v => this d args v ha
  · exact err

theorem whileN {S : SHost D} {sp : Span} {c b : SM D SVal} (hc : GP Good c) (hb : GP Good b) : ∀ {W : Nat} {last : SVal}, Good last →
    GP Good (Quilt.whileN S sp c b W last)
  | 0, _, _ => timeout
  | W + 1, last, hl => by
    unfold Quilt.whileN
    refine bind hc fun v _ => bind (P := fun _ => True) (lift fun _ _ => trivial) fun t _ => ?_
    cases t with
    | true => exact bind hb fun v hv => whileN hc hb hv
    | false => exact pure hl

theorem forN {item : Nat → SM D (Option SVal)} (hi : ∀ k, GP (fun o => ∀ v, o = some v → Good v) (item k)) {b : SVal → SM D SVal}
    (hb : ∀ v, Good v → GP Good (b v)) : ∀ {W k : Nat} {last : SVal}, Good last → GP Good (Quilt.forN item b W k last)
  | 0, _, _, _ => timeout
  | W + 1, k, last, hl => by
    unfold Quilt.forN
    refine bind (hi k) fun o ho => ?_
    cases o with
    | some x => exact bind (hb x (ho x rfl)) fun v hv => forN hi hb hv
    | none => exact pure hl

theorem item {S : SHost D} {v : SVal} (hv : Good v) {sp : Span} (k : Nat) :
    GP (fun o => ∀ w, o = some w → Good w) (SM.lift (v.iterItem S.cfg.chk k) sp : SM D (Option SVal)) :=
  liftR (Val.rel_iterItem _ k hv) fun o ho w hw => by subst hw; exact ho

variable {S : SHost D} (hS : ∀ x, GoodB (S.builtins x) S.lim) {call : SClos → List SVal → SM D SVal}
  (hc : ∀ c args, GoodC c → GoodL args → GP Good (call c args)) {W : Nat}
include hS hc

mutual
theorem node : ∀ (n : Node) (env : SEnv), n.isStatement = false → n.shaped = true → GP Good (evalNode S call W n env)
  | .lit _ l, env, _, _ => by unfold evalNode; exact pure (Val.Rel.toVal l)
  | .ident sp x, env, _, _ => by unfold evalNode; exact readVar
  | .assign _ (x, xsp) e, env, _, h => by
    simp only [Node.shaped, Bool.and_eq_true, Bool.not_eq_true'] at h
    unfold evalNode
    exact bind (node e env h.1 h.2) fun v hv => bind (writeVar hv) fun _ _ => pure hv
  | .pair _ a b, env, _, h => by
    simp only [Node.shaped, Bool.and_eq_true, Bool.not_eq_true'] at h
    unfold evalNode
    exact bind (node a env h.1.1 h.1.2) fun _ hx => bind (node b env h.2.1 h.2.2) fun _ hy => pure ⟨hx, hy⟩
  | .range _ a b, env, _, h => by
    simp only [Node.shaped, Bool.and_eq_true, Bool.not_eq_true'] at h
    unfold evalNode
    exact bind (node a env h.1.1 h.1.2) fun _ hx => bind (node b env h.2.1 h.2.2) fun _ hy => liftR (Val.rel_mkRange hx hy) fun _ h => h
  | .array sp items, env, _, h => by
    simp only [Node.shaped] at h
    unfold evalNode
    exact bind (rev items env h) fun _ hx => liftR (Val.rel_mkArray _ hx) fun _ h => h
  | .index sp e i, env, _, h => by
    simp only [Node.shaped, Bool.and_eq_true, Bool.not_eq_true'] at h
    unfold evalNode
    exact bind (node i env h.2.1 h.2.2) fun _ hx => bind (node e env h.1.1 h.1.2) fun _ hy => liftR (Val.rel_indexGet _ hy hx) fun _ h => h
  | .un sp op e, env, _, h => by
    simp only [Node.shaped, Bool.and_eq_true, Bool.not_eq_true'] at h
    unfold evalNode
    exact bind (node e env h.1 h.2) fun _ hx => liftR (Val.rel_unary _ op hx) fun _ h => h
  | .bin sp op a b, env, _, h => by
    simp only [Node.shaped, Bool.and_eq_true, Bool.not_eq_true'] at h
    unfold evalNode
    exact bind (node a env h.1.1 h.1.2) fun _ hx => bind (node b env h.2.1 h.2.2) fun _ hy => evalBin hx hy
  | .block _ body, env, _, h => by
    simp only [Node.shaped] at h
    unfold evalNode; exact stmts body env h
  | .cond sp c th el, env, _, h => by
    simp only [Node.shaped, Bool.and_eq_true, Bool.not_eq_true'] at h
    unfold evalNode
    refine bind (node c env h.1.1.1 h.1.1.2) fun v _ => bind (P := fun _ => True) (lift fun _ _ => trivial) fun t _ => ?_
    cases t with
    | true => exact stmts th env h.1.2
    | false => exact opt el env h.2
  | .switch _ v cs d, env, _, h => by
    simp only [Node.shaped, Bool.and_eq_true, Bool.not_eq_true'] at h
    unfold evalNode
    exact bind (node v env h.1.1.1 h.1.1.2) fun v _ => cases cs v env h.1.2 (opt d env h.2)
  | .while sp c body, env, _, h => by
    simp only [Node.shaped, Bool.and_eq_true, Bool.not_eq_true'] at h
    unfold evalNode
    exact whileN (node c env h.1.1 h.1.2) (stmts body env h.2) trivial
  | .forIn sp x it body, env, _, h => by
    simp only [Node.shaped, Bool.and_eq_true, Bool.not_eq_true'] at h
    unfold evalNode
    refine bind (node it env h.1.1 h.1.2) fun v hv => forN (fun k => item hv k) (fun i hi => ?_) trivial
    exact bind (bindVars (by simpa using hi)) fun env' _ => stmts body env' h.2
  | .forMulti sp xs it body, env, _, h => by
    simp only [Node.shaped, Bool.and_eq_true, Bool.not_eq_true'] at h
    unfold evalNode
    refine bind (node it env h.1.1 h.1.2) fun v hv => forN (fun k => item hv k) (fun i hi => ?_) trivial
    exact bind (declVars hi) fun env' _ => stmts body env' h.2
  | .lambda sp ps body, env, _, h => by
    simp only [Node.shaped, Bool.and_eq_true] at h
    unfold evalNode; exact pure ⟨rfl, h⟩
  | .call sp f as, env, _, h => by
    simp only [Node.shaped, Bool.and_eq_true, Bool.not_eq_true'] at h
    unfold evalNode
    exact bind (node f env h.1.1 h.1.2) fun _ hf => bind (args as env h.2) fun _ ha => applyVal hc hf ha
  | .builtin _ x as, env, _, h => by
    simp only [Node.shaped] at h
    unfold evalNode
    exact bind (args as env h) fun _ ha => callBuiltin hS ha
  | .ctx sp x as v body, env, _, h => by
    simp only [Node.shaped, Bool.and_eq_true] at h
    unfold evalNode
    exact bind (args as env h.1) fun _ ha => bind (enterCtx hS ha) fun r hr => bind (ctxVars hr) fun env' _ =>
      bind (stmts body env' h.2) fun res hres => bind popExit fun _ _ => pure hres
  | .decl .., env, h, _ | .extern .., env, h, _ | .func .., env, h, _ | .include .., env, h, _ | .ret .., env, h, _ => by simp [Node.isStatement] at h
termination_by structural n => n
theorem stmt : ∀ (n : Node) (env : SEnv), n.isStatement = true → n.shaped = true → GP (fun _ => endsRet [n] = false) (evalStmt S call W n env)
  | .decl sp v e, env, _, h => by
    simp only [Node.shaped, Bool.and_eq_true, Bool.not_eq_true'] at h
    unfold evalStmt
    exact bind (node e env h.1 h.2) fun _ hv => (declVars hv).mono fun _ _ => rfl
  | .func _ name params body, env, _, h => by
    simp only [Node.shaped, Bool.and_eq_true] at h
    unfold evalStmt
    exact (bindVars (by simpa using ⟨rfl, h⟩)).mono fun _ _ => rfl
  | .ret _ e, env, _, h => by
    simp only [Node.shaped] at h
    unfold evalStmt
    exact bind (retE e env h) fun v hv => ret hv
  | .extern .., env, _, h | .include .., env, _, h => by simp [Node.shaped] at h
  | .lit .., env, h, _ | .ident .., env, h, _ | .assign .., env, h, _ | .pair .., env, h, _ | .range .., env, h, _ | .array .., env, h, _
  | .index .., env, h, _ | .un .., env, h, _ | .bin .., env, h, _ | .block .., env, h, _ | .cond .., env, h, _ | .switch .., env, h, _
  | .while .., env, h, _ | .forIn .., env, h, _ | .forMulti .., env, h, _ | .lambda .., env, h, _ | .call .., env, h, _ | .builtin .., env, h, _
  | .ctx .., env, h, _ => by simp [Node.isStatement] at h
termination_by structural n => n
theorem stmts : ∀ (ns : List Node) (env : SEnv), shapedBlk ns = true → GP Good (evalStmts S call W ns env)
  | [], env, h => by simp [shapedBlk] at h
  | [n], env, h => by
    simp only [shapedBlk, Bool.and_eq_true, Bool.or_eq_true, Bool.not_eq_true'] at h
    unfold evalStmts
    split
    · rename_i hs
      exact bind (stmt n env hs h.2) fun _ hn => by
        rcases h.1 with h1 | h1
        · rw [hs] at h1; simp at h1
        · rw [hn] at h1; simp at h1
    · rename_i hs
      exact node n env (by simpa using hs) h.2
  | n :: n' :: ns, env, h => by
    simp only [shapedBlk, Bool.and_eq_true] at h
    unfold evalStmts
    split
    · rename_i hs
      exact bind (stmt n env hs h.1) fun env' _ => stmts (n' :: ns) env' h.2
    · rename_i hs
      exact bind (node n env (by simpa using hs) h.1) fun _ _ => stmts (n' :: ns) env h.2
termination_by structural n => n
theorem args : ∀ (ns : List Node) (env : SEnv), shapedAll ns = true → GP GoodL (evalArgs S call W ns env)
  | [], env, _ => by unfold evalArgs; exact pure trivial
  | n :: ns, env, h => by
    simp only [shapedAll, Bool.and_eq_true, Bool.not_eq_true'] at h
    unfold evalArgs
    exact bind (node n env h.1.1 h.1.2) fun _ hx => bind (args ns env h.2) fun _ hy => pure ⟨hx, hy⟩
termination_by structural n => n
theorem rev : ∀ (ns : List Node) (env : SEnv), shapedAll ns = true → GP GoodL (evalRev S call W ns env)
  | [], env, _ => by unfold evalRev; exact pure trivial
  | n :: ns, env, h => by
    simp only [shapedAll, Bool.and_eq_true, Bool.not_eq_true'] at h
    unfold evalRev
    exact bind (rev ns env h.2) fun _ hy => bind (node n env h.1.1 h.1.2) fun _ hx => pure ⟨hx, hy⟩
termination_by structural n => n
theorem opt : ∀ (o : Option (List Node)) (env : SEnv), shapedOpt o = true → GP Good (evalOpt S call W o env)
  | some body, env, h => by simp only [shapedOpt] at h; unfold evalOpt; exact stmts body env h
  | none, env, _ => by unfold evalOpt; exact pure trivial
termination_by structural n => n
theorem retE : ∀ (o : Option Node) (env : SEnv), shapedRet o = true → GP Good (evalRet S call W o env)
  | some e, env, h => by
    simp only [shapedRet, Bool.and_eq_true, Bool.not_eq_true'] at h
    unfold evalRet; exact node e env h.1 h.2
  | none, env, _ => by unfold evalRet; exact pure trivial
termination_by structural n => n
theorem cases : ∀ (cs : List (Node × List Node)) (v : SVal) (env : SEnv) {d : SM D SVal}, shapedCases cs = true → GP Good d →
    GP Good (evalCases S call W cs v env d)
  | [], v, env, d, _, hd => by unfold evalCases; exact hd
  | (c, body) :: cs, v, env, d, h, hd => by
    simp only [shapedCases, Bool.and_eq_true, Bool.not_eq_true'] at h
    unfold evalCases
    refine bind (node c env h.1.1.1 h.1.1.2) fun cv _ => bind eqVals fun t _ => ?_
    cases t with
    | true => exact stmts body env h.1.2
    | false => exact cases cs v env h.2 hd
termination_by structural cs => cs
end


end GP

/-- Bodies that end with a `return` never fall through. -/
theorem endsRet_ok {S : SHost D} {call : SClos → List SVal → SM D SVal} {W : Nat} : ∀ (ns : List Node) (env : SEnv) (σ : SSt D) (v : SVal), endsRet ns = true →
    (evalStmts S call W ns env σ).1 ≠ .ok v
  | [], _, _, _, h => by simp [endsRet] at h
  | [n], env, σ, v, h => by
    cases n with
    | ret sp e =>
      simp only [evalStmts, Node.isStatement, evalStmt]
      show (SM.bind (SM.bind _ _) _ σ).1 ≠ _
      simp only [SM.bind]
      generalize evalRet S call W e env σ = r
      obtain ⟨o, σ'⟩ := r
      cases o <;> simp [SM.ret]
    | _ => simp [endsRet] at h
  | n :: n' :: ns, env, σ, v, h => by
    simp only [endsRet] at h
    unfold evalStmts
    split
    · show (SM.bind _ _ σ).1 ≠ _
      simp only [SM.bind]
      generalize evalStmt S call W n env σ = r
      obtain ⟨o, σ'⟩ := r
      cases o with
      | ok env' => exact endsRet_ok (n' :: ns) env' σ' v h
      | _ => simp
    · show (SM.bind _ _ σ).1 ≠ _
      simp only [SM.bind]
      generalize evalNode S call W n env σ = r
      obtain ⟨o, σ'⟩ := r
      cases o with
      | ok _ => exact endsRet_ok (n' :: ns) env σ' v h
      | _ => simp

theorem GP.callN {S : SHost D} (hS : ∀ x, GoodB (S.builtins x) S.lim) {W : Nat} : ∀ (n : Nat) (c : SClos) (args : List SVal), GoodC c → GoodL args →
    GP Good (callN S W n c args)
  | 0, _, _, _, _ => GP.timeout
  | n + 1, c, args, hc, ha => by
    intro σ hs
    simp only [Quilt.callN]
    have hgood : ∀ b ∈ callScope c args, Good b.2 := by
      intro b hb
      rcases List.mem_cons.1 hb with rfl | hb
      · exact ⟨rfl, hc⟩
      · exact ha.all _ (List.of_mem_zip hb).2
    have h1 := GP.bind (GP.bindVars (D := D) (env := c.env) hgood) fun env _ => GP.stmts hS (GP.callN hS (W := W) n) (W := W) c.body env hc.1
    have h2 := h1 { σ with data := S.onEnter σ.data } hs
    have h3 : ∀ v, ((SM.bindVars (callScope c args) c.env >>= fun env => evalStmts S (Quilt.callN S W n) W c.body env) { σ with data := S.onEnter σ.data }).1 ≠ .ok v := by
      intro v
      show (SM.bind _ _ _).1 ≠ _
      simp only [SM.bind]
      generalize SM.bindVars (callScope c args) c.env { σ with data := S.onEnter σ.data } = r
      obtain ⟨o, σ'⟩ := r
      cases o with
      | ok env => exact endsRet_ok _ _ _ _ hc.2
      | _ => simp
    generalize (SM.bindVars (callScope c args) c.env >>= fun env => evalStmts S (Quilt.callN S W n) W c.body env) { σ with data := S.onEnter σ.data } = r at h2 h3
    obtain ⟨o, σ'⟩ := r
    cases o with
    | ok v => exact absurd rfl (h3 v)
    | ret v => exact h2
    | _ => exact h2

theorem GP.defGlobals : ∀ {bs : List (String × SVal)}, (∀ b ∈ bs, Good b.2) → GP (fun _ => True) (Quilt.defGlobals bs : SM D Unit)
  | [], _ => GP.pure trivial
  | (_, _) :: _, h => GP.bind (GP.defGlobal (h _ List.mem_cons_self)) fun _ _ => GP.defGlobals fun b hb => h b (by simp [hb])

theorem Node.shapedTop_expr {n : Node} (hi : n.isStatement = false) : n.shapedTop = n.shaped := by
  cases n <;> first | rfl | (simp [Node.isStatement] at hi)

section
variable {S : SHost D} (hS : ∀ x, GoodB (S.builtins x) S.lim) {call : SClos → List SVal → SM D SVal}
  (hc : ∀ c args, GoodC c → GoodL args → GP Good (call c args)) {W : Nat}
include hS hc

mutual
theorem GP.topStmt : ∀ n : Node, n.isStatement = true → n.shapedTop = true → GP (fun _ => True) (evalTopStmt S call W n)
  | .decl sp v e, _, h => by
    simp only [Node.shapedTop, Bool.and_eq_true, Bool.not_eq_true'] at h
    unfold evalTopStmt
    refine GP.bind (GP.node hS hc e [] h.1 h.2) fun val hv => ?_
    cases v with
    | one x => exact GP.defGlobal hv
    | many xs =>
      refine GP.bind (GP.liftR (P := GoodL) (Val.rel_unpack _ hv) fun _ h => h) fun vs hvs => GP.defGlobals fun b hb => ?_
      exact hvs.all _ (List.of_mem_zip hb).2
  | .func _ _ _ b, _, h => by
    simp only [Node.shapedTop, Bool.and_eq_true] at h
    unfold evalTopStmt; exact GP.defGlobal ⟨rfl, h⟩
  | .extern _ x e, _, h => by
    simp only [Node.shapedTop, Bool.and_eq_true, Bool.not_eq_true'] at h
    unfold evalTopStmt
    refine GP.bind (GP.node hS hc e [] h.1 h.2) fun val hv => GP.bind GP.getGlobal fun o _ => ?_
    cases o with
    | some _ => exact GP.pure trivial
    | none => exact GP.defGlobal hv
  | .include _ _ body, _, h => by
    simp only [Node.shapedTop] at h
    unfold evalTopStmt; exact GP.topIncl body h
  | .ret .., _, h => by simp [Node.shapedTop] at h
  | .lit .., h, _ | .ident .., h, _ | .assign .., h, _ | .pair .., h, _ | .range .., h, _ | .array .., h, _ | .index .., h, _ | .un .., h, _
  | .bin .., h, _ | .block .., h, _ | .cond .., h, _ | .switch .., h, _ | .while .., h, _ | .forIn .., h, _ | .forMulti .., h, _
  | .lambda .., h, _ | .call .., h, _ | .builtin .., h, _ | .ctx .., h, _ => by simp [Node.isStatement] at h
termination_by structural n => n
theorem GP.topEach : ∀ ns : List Node, shapedEach ns = true → GP (fun _ => True) (evalEach S call W ns)
  | [], _ => by unfold evalEach; exact GP.pure trivial
  | n :: ns, h => by
    simp only [shapedEach, Bool.and_eq_true] at h
    unfold evalEach
    split
    · rename_i hs
      exact GP.bind (GP.topStmt n hs h.1) fun _ _ => GP.topEach ns h.2
    · rename_i hs
      have hs' : n.isStatement = false := by simpa using hs
      exact GP.bind (GP.node hS hc n [] hs' (by rw [← Node.shapedTop_expr hs']; exact h.1)) fun _ _ => GP.topEach ns h.2
termination_by structural n => n
theorem GP.topIncl : ∀ o : Option (List Node), shapedIncl o = true → GP (fun _ => True) (evalIncl S call W o)
  | some b, h => by
    simp only [shapedIncl] at h
    unfold evalIncl; exact GP.topEach b h
  | none, h => by simp [shapedIncl] at h
termination_by structural n => n
end

theorem GP.top : ∀ ns : List Node, shapedProgram ns = true → GP Good (evalTop S call W ns)
  | [], h => by simp [shapedProgram] at h
  | [n], h => by
    simp only [shapedProgram, Bool.and_eq_true, Bool.not_eq_true'] at h
    unfold evalTop
    rw [if_neg (by simp [h.1])]
    exact GP.node hS hc n [] h.1 h.2
  | n :: n' :: ns, h => by
    simp only [shapedProgram, Bool.and_eq_true] at h
    unfold evalTop
    split
    · rename_i hs
      exact GP.bind (GP.topStmt hS hc n hs h.1) fun _ _ => GP.top (n' :: ns) h.2
    · rename_i hs
      have hs' : n.isStatement = false := by simpa using hs
      exact GP.bind (GP.node hS hc n [] hs' (by rw [← Node.shapedTop_expr hs']; exact h.1)) fun _ _ => GP.top (n' :: ns) h.2

end

/-- Parser-shaped programs have a prescribed outcome, unless they compare functions. -/
theorem shaped_outcome {S : SHost D} (hS : ∀ x, GoodB (S.builtins x) S.lim) {ast : List Node} (h : shapedProgram ast = true) (k : Nat) {σ : SSt D}
    (hs : GoodSt σ) : (evalProgram S k ast σ).1 ≠ .unspec false ∧ GoodSt (evalProgram S k ast σ).2 := by
  have := GP.top hS (W := k) (fun c args => GP.callN hS (W := k) k c args) ast h σ hs
  refine ⟨fun he => ?_, this.1⟩
  have h2 := this.2
  have he' : (evalTop S (Quilt.callN S k k) k ast σ).1 = .unspec false := he
  rw [he'] at h2
  simp at h2

end Quilt
