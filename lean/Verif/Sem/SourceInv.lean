import Verif.Sem.Source

/-!
# General facts about the direct semantics

`SClosed T`: the relation `T` between evaluations is compatible with everything programs are made
of. Then programs are related to themselves, also under related calls and bounds.
-/

set_option linter.unusedSectionVars false

namespace Quilt

open SM

variable {D : Type}

/-- Assigning a global that must exist. -/
def assignGlobal (x : String) (sp : Span) (v : SVal) : SM D Unit := do
  match ← getGlobal x with
  | some _ => defGlobal x v
  | none => err (.name (.undefined x)) (some sp)

/-- Compatibility with the constructs of evaluations (without defining globals). -/
structure SClosed (T : ∀ {α : Type}, SM D α → SM D α → Prop) : Prop where
  pure : ∀ {α : Type} (a : α), T (pure a) (Pure.pure a)
  bind : ∀ {α β : Type} {x y : SM D α} {f g : α → SM D β}, T x y → (∀ a, T (f a) (g a)) → T (x >>= f) (y >>= g)
  err : ∀ {α : Type} (e : Err) (sp : Option Span), T (SM.err e sp : SM D α) (SM.err e sp)
  ret : ∀ {α : Type} (v : SVal), T (SM.ret v : SM D α) (SM.ret v)
  panic : ∀ {α : Type}, T (SM.panic : SM D α) SM.panic
  timeout : ∀ {α : Type}, T (SM.timeout : SM D α) SM.timeout
  unspec : ∀ {α : Type}, T (SM.unspec : SM D α) SM.unspec
  incomparable : ∀ {α : Type}, T (SM.incomparable : SM D α) SM.incomparable
  alloc : ∀ v, T (SM.alloc v : SM D Nat) (SM.alloc v)
  load : ∀ l, T (SM.load l : SM D SVal) (SM.load l)
  store : ∀ l v, T (SM.store l v : SM D Unit) (SM.store l v)
  getGlobal : ∀ x, T (SM.getGlobal x : SM D (Option SVal)) (SM.getGlobal x)
  assign : ∀ x sp v, T (assignGlobal x sp v : SM D Unit) (assignGlobal x sp v)
  host : ∀ {γ : Type} (f : D → Res γ × D) sp, T (SM.host f sp) (SM.host f sp)
  pushExit : ∀ e, T (SM.pushExit e : SM D Unit) (SM.pushExit e)
  popExit : ∀ sp, T (SM.popExit sp : SM D Unit) (SM.popExit sp)

namespace SClosed
variable {T : ∀ {α : Type}, SM D α → SM D α → Prop} (hT : SClosed T)
include hT

theorem lift {α : Type} (r : Res α) (sp : Span) : T (SM.lift r sp : SM D α) (SM.lift r sp) := by
  cases r with
  | ok a => exact hT.pure a
  | err e => exact hT.err _ _
  | panic => exact hT.panic

theorem bindVars : ∀ (bs : List (String × SVal)) (env : SEnv), T (SM.bindVars bs env) (SM.bindVars bs env)
  | [], env => hT.pure env
  | (x, v) :: r, env => hT.bind (hT.alloc v) fun l => bindVars r ((x, l) :: env)

theorem readVar (x : String) (sp : Span) (env : SEnv) : T (Quilt.readVar x sp env : SM D SVal) (Quilt.readVar x sp env) := by
  unfold Quilt.readVar
  split
  · exact hT.load _
  · refine hT.bind (hT.getGlobal x) fun o => ?_
    cases o with
    | some v => exact hT.pure v
    | none => exact hT.err _ _

theorem writeVar (x : String) (sp : Span) (env : SEnv) (v : SVal) : T (Quilt.writeVar x sp env v : SM D Unit) (Quilt.writeVar x sp env v) := by
  unfold Quilt.writeVar
  split
  · exact hT.store _ _
  · exact hT.assign x sp v

theorem eqVals (F : FOps) (a b : SVal) : T (Quilt.eqVals F a b : SM D Bool) (Quilt.eqVals F a b) := by
  unfold Quilt.eqVals
  split
  · exact hT.pure _
  · exact hT.incomparable

theorem evalBin (S : SHost D) (op : Op) (sp : Span) (a b : SVal) : T (Quilt.evalBin S op sp a b) (Quilt.evalBin S op sp a b) := by
  unfold Quilt.evalBin
  split
  · exact hT.bind (hT.eqVals _ _ _) fun _ => hT.pure _
  · exact hT.bind (hT.eqVals _ _ _) fun _ => hT.pure _
  · exact hT.lift _ _

theorem applyVal {call call' : SClos → List SVal → SM D SVal} (hc : ∀ c args, T (call c args) (call' c args)) (sp : Span) (f : SVal) (args : List SVal) :
    T (Quilt.applyVal call sp f args) (Quilt.applyVal call' sp f args) := by
  unfold Quilt.applyVal
  split
  · split
    · exact hT.err _ _
    · exact hc _ _
  · exact hT.err _ _

theorem callBuiltin (S : SHost D) (x : String) (sp : Span) (args : List SVal) : T (Quilt.callBuiltin S x sp args) (Quilt.callBuiltin S x sp args) := by
  unfold Quilt.callBuiltin
  split
  · exact hT.host _ _
  · exact hT.err _ _
  · exact hT.err _ _

theorem enterCtx (S : SHost D) (x : String) (sp : Span) (args : List SVal) : T (Quilt.enterCtx S x sp args) (Quilt.enterCtx S x sp args) := by
  unfold Quilt.enterCtx
  split
  · exact hT.host _ _
  · exact hT.bind (hT.pushExit _) fun _ => hT.host _ _
  · exact hT.err _ _

theorem declVars (v : Var) (sp : Span) (val : SVal) (env : SEnv) : T (Quilt.declVars v sp val env : SM D SEnv) (Quilt.declVars v sp val env) := by
  unfold Quilt.declVars
  split
  · exact hT.bindVars _ _
  · exact hT.bind (hT.lift _ _) fun _ => hT.bindVars _ _

theorem ctxVars (v : Option Var) (sp : Span) (val : SVal) (env : SEnv) : T (Quilt.ctxVars v sp val env : SM D SEnv) (Quilt.ctxVars v sp val env) := by
  unfold Quilt.ctxVars
  split
  · exact hT.declVars _ _ _ _
  · exact hT.pure _

/-- Bounds: equal, or larger on the right if hitting a bound is related to everything. -/
def BoundRel {D : Type} (T : ∀ {α : Type}, SM D α → SM D α → Prop) (W W' : Nat) : Prop :=
  W = W' ∨ (W ≤ W' ∧ ∀ {α : Type} (y : SM D α), T SM.timeout y)

omit hT in
theorem BoundRel.pred {T : ∀ {α : Type}, SM D α → SM D α → Prop} {W W' : Nat} (h : BoundRel T (W + 1) W') : ∃ W'', W' = W'' + 1 ∧ BoundRel T W W'' := by
  rcases h with rfl | ⟨h, h'⟩
  · exact ⟨W, rfl, .inl rfl⟩
  · obtain ⟨k, rfl⟩ : ∃ k, W' = k + 1 := ⟨W' - 1, by omega⟩
    exact ⟨k, rfl, .inr ⟨by omega, h'⟩⟩

theorem timeoutL {W' : Nat} (h : BoundRel T 0 W') {α : Type} (y : SM D α) (hy : W' = 0 → y = SM.timeout) : T SM.timeout y := by
  rcases h with h | ⟨_, h⟩
  · rw [hy h.symm]; exact hT.timeout
  · exact h y

theorem whileN (S : SHost D) (sp : Span) {c c' b b' : SM D SVal} (hc : T c c') (hb : T b b') : ∀ (W W' : Nat) (last : SVal), BoundRel T W W' →
    T (Quilt.whileN S sp c b W last) (Quilt.whileN S sp c' b' W' last)
  | 0, W', last, hW => hT.timeoutL hW _ (by rintro rfl; rfl)
  | W + 1, W', last, hW => by
    obtain ⟨W'', rfl, hW'⟩ := hW.pred
    unfold Quilt.whileN
    refine hT.bind hc fun v => hT.bind (hT.lift _ _) fun t => ?_
    cases t with
    | true => exact hT.bind hb fun v => whileN S sp hc hb W W'' v hW'
    | false => exact hT.pure _

theorem forN {item : Nat → SM D (Option SVal)} (hi : ∀ k, T (item k) (item k)) {b b' : SVal → SM D SVal} (hb : ∀ v, T (b v) (b' v)) :
    ∀ (W W' k : Nat) (last : SVal), BoundRel T W W' → T (Quilt.forN item b W k last) (Quilt.forN item b' W' k last)
  | 0, W', k, last, hW => hT.timeoutL hW _ (by rintro rfl; rfl)
  | W + 1, W', k, last, hW => by
    obtain ⟨W'', rfl, hW'⟩ := hW.pred
    unfold Quilt.forN
    refine hT.bind (hi k) fun o => ?_
    cases o with
    | some x => exact hT.bind (hb x) fun v => forN hi hb W W'' (k + 1) v hW'
    | none => exact hT.pure _

variable {S : SHost D} {call call' : SClos → List SVal → SM D SVal} (hc : ∀ c args, T (call c args) (call' c args)) {W W' : Nat} (hW : BoundRel T W W')
include hc hW

mutual
theorem node : ∀ (n : Node) (env : SEnv), T (evalNode S call W n env) (evalNode S call' W' n env)
  | .lit _ l, env => by unfold evalNode; exact hT.pure _
  | .ident sp x, env => by unfold evalNode; exact hT.readVar x sp env
  | .assign _ (x, xsp) e, env => by
    unfold evalNode
    exact hT.bind (node e env) fun v => hT.bind (hT.writeVar _ _ _ _) fun _ => hT.pure _
  | .pair _ a b, env => by
    unfold evalNode
    exact hT.bind (node a env) fun _ => hT.bind (node b env) fun _ => hT.pure _
  | .range _ a b, env => by
    unfold evalNode
    exact hT.bind (node a env) fun _ => hT.bind (node b env) fun _ => hT.lift _ _
  | .array sp items, env => by
    unfold evalNode
    exact hT.bind (rev items env) fun _ => hT.lift _ _
  | .index sp e i, env => by
    unfold evalNode
    exact hT.bind (node i env) fun _ => hT.bind (node e env) fun _ => hT.lift _ _
  | .un sp op e, env => by
    unfold evalNode
    exact hT.bind (node e env) fun _ => hT.lift _ _
  | .bin sp op a b, env => by
    unfold evalNode
    exact hT.bind (node a env) fun _ => hT.bind (node b env) fun _ => hT.evalBin _ _ _ _ _
  | .block _ body, env => by unfold evalNode; exact stmts body env
  | .cond sp c th el, env => by
    unfold evalNode
    refine hT.bind (node c env) fun v => hT.bind (hT.lift _ _) fun t => ?_
    cases t with
    | true => exact stmts th env
    | false => exact opt el env
  | .switch _ v cs d, env => by
    unfold evalNode
    exact hT.bind (node v env) fun v => cases cs v env (opt d env)
  | .while sp c body, env => by
    unfold evalNode
    exact hT.whileN S sp (node c env) (stmts body env) _ _ _ hW
  | .forIn sp x it body, env => by
    unfold evalNode
    refine hT.bind (node it env) fun v => hT.forN (fun _ => hT.lift _ _) (fun item => ?_) _ _ _ _ hW
    exact hT.bind (hT.bindVars _ _) fun env' => stmts body env'
  | .forMulti sp xs it body, env => by
    unfold evalNode
    refine hT.bind (node it env) fun v => hT.forN (fun _ => hT.lift _ _) (fun item => ?_) _ _ _ _ hW
    exact hT.bind (hT.declVars _ _ _ _) fun env' => stmts body env'
  | .lambda sp ps body, env => by unfold evalNode; exact hT.pure _
  | .call sp f as, env => by
    unfold evalNode
    exact hT.bind (node f env) fun _ => hT.bind (args as env) fun _ => hT.applyVal hc _ _ _
  | .builtin _ x as, env => by
    unfold evalNode
    exact hT.bind (args as env) fun _ => hT.callBuiltin _ _ _ _
  | .ctx sp x as v body, env => by
    unfold evalNode
    exact hT.bind (args as env) fun _ => hT.bind (hT.enterCtx _ _ _ _) fun r => hT.bind (hT.ctxVars _ _ _ _) fun env' =>
      hT.bind (stmts body env') fun res => hT.bind (hT.popExit sp) fun _ => hT.pure _
  | .decl .., env | .extern .., env | .func .., env | .include .., env | .ret .., env => by unfold evalNode; exact hT.unspec
termination_by structural n => n
theorem stmt : ∀ (n : Node) (env : SEnv), T (evalStmt S call W n env) (evalStmt S call' W' n env)
  | .decl sp v e, env => by
    unfold evalStmt
    exact hT.bind (node e env) fun _ => hT.declVars _ _ _ _
  | .func _ name params body, env => by unfold evalStmt; exact hT.bindVars _ _
  | .ret _ e, env => by
    unfold evalStmt
    exact hT.bind (retE e env) fun v => hT.ret v
  | .lit .., env | .ident .., env | .assign .., env | .pair .., env | .range .., env | .array .., env | .index .., env | .un .., env
  | .bin .., env | .block .., env | .cond .., env | .switch .., env | .while .., env | .forIn .., env | .forMulti .., env
  | .lambda .., env | .call .., env | .builtin .., env | .ctx .., env | .extern .., env | .include .., env => by
    unfold evalStmt; exact hT.unspec
termination_by structural n => n
theorem stmts : ∀ (ns : List Node) (env : SEnv), T (evalStmts S call W ns env) (evalStmts S call' W' ns env)
  | [], env => by unfold evalStmts; exact hT.unspec
  | [n], env => by
    unfold evalStmts
    split
    · exact hT.bind (stmt n env) fun _ => hT.unspec
    · exact node n env
  | n :: n' :: ns, env => by
    unfold evalStmts
    split
    · exact hT.bind (stmt n env) fun env' => stmts (n' :: ns) env'
    · exact hT.bind (node n env) fun _ => stmts (n' :: ns) env
termination_by structural n => n
theorem args : ∀ (ns : List Node) (env : SEnv), T (evalArgs S call W ns env) (evalArgs S call' W' ns env)
  | [], env => by unfold evalArgs; exact hT.pure _
  | n :: ns, env => by
    unfold evalArgs
    exact hT.bind (node n env) fun _ => hT.bind (args ns env) fun _ => hT.pure _
termination_by structural n => n
theorem rev : ∀ (ns : List Node) (env : SEnv), T (evalRev S call W ns env) (evalRev S call' W' ns env)
  | [], env => by unfold evalRev; exact hT.pure _
  | n :: ns, env => by
    unfold evalRev
    exact hT.bind (rev ns env) fun _ => hT.bind (node n env) fun _ => hT.pure _
termination_by structural n => n
theorem opt : ∀ (o : Option (List Node)) (env : SEnv), T (evalOpt S call W o env) (evalOpt S call' W' o env)
  | some body, env => by unfold evalOpt; exact stmts body env
  | none, env => by unfold evalOpt; exact hT.pure _
termination_by structural n => n
theorem retE : ∀ (o : Option Node) (env : SEnv), T (evalRet S call W o env) (evalRet S call' W' o env)
  | some e, env => by unfold evalRet; exact node e env
  | none, env => by unfold evalRet; exact hT.pure _
termination_by structural n => n
theorem cases : ∀ (cs : List (Node × List Node)) (v : SVal) (env : SEnv) {d d' : SM D SVal}, T d d' →
    T (evalCases S call W cs v env d) (evalCases S call' W' cs v env d')
  | [], v, env, d, d', hd => by unfold evalCases; exact hd
  | (c, body) :: cs, v, env, d, d', hd => by
    unfold evalCases
    refine hT.bind (node c env) fun cv => hT.bind (hT.eqVals _ _ _) fun t => ?_
    cases t with
    | true => exact stmts body env
    | false => exact cases cs v env hd
termination_by structural cs => cs
end

end SClosed

/-! ## More bound, same outcome -/

/-- `y` does the same as `x` unless `x` hits a bound (`dp`: or the bound on call depth, where it is told apart). -/
def SLe (dp : Prop) {α : Type} (x y : SM D α) : Prop := ∀ σ, ((x σ).1 = .timeout ∨ dp ∧ (x σ).1 = .deep) ∨ x σ = y σ

variable {dp : Prop}

theorem SLe.refl {α : Type} (x : SM D α) : SLe dp x x := fun _ => .inr rfl

theorem SLe.closed : SClosed (D := D) (fun x y => SLe dp x y) where
  pure _ := SLe.refl _
  bind {α β x y f g} hx hf := by
    intro σ
    show ((SM.bind x f σ).1 = _ ∨ dp ∧ (SM.bind x f σ).1 = _) ∨ SM.bind x f σ = SM.bind y g σ
    simp only [SM.bind]
    rcases hx σ with (h | ⟨hd, h⟩) | h
    · generalize x σ = r at h
      obtain ⟨o, σ'⟩ := r
      simp only at h; subst h
      exact .inl (.inl rfl)
    · generalize x σ = r at h
      obtain ⟨o, σ'⟩ := r
      simp only at h; subst h
      exact .inl (.inr ⟨hd, rfl⟩)
    · rw [← h]
      generalize x σ = r
      obtain ⟨o, σ'⟩ := r
      cases o with
      | ok a => exact hf a σ'
      | _ => exact .inr rfl
  err _ _ := SLe.refl _
  ret _ := SLe.refl _
  panic := SLe.refl _
  timeout := SLe.refl _
  unspec := SLe.refl _
  incomparable := SLe.refl _
  alloc _ := SLe.refl _
  load _ := SLe.refl _
  store _ _ := SLe.refl _
  getGlobal _ := SLe.refl _
  assign _ _ _ := SLe.refl _
  host _ _ := SLe.refl _
  pushExit _ := SLe.refl _
  popExit _ := SLe.refl _

theorem SLe.bound {W W' : Nat} (h : W ≤ W') : SClosed.BoundRel (D := D) (fun x y => SLe dp x y) W W' := .inr ⟨h, fun _ _ => .inl (.inl rfl)⟩

theorem SLe.callN {S : SHost D} {W W' : Nat} (hW : W ≤ W') : ∀ {n n' : Nat}, n ≤ n' → ∀ c args, SLe dp (callN S W n c args) (callN S W' n' c args)
  | 0, n', _, c, args => fun _ => .inl (.inl rfl)
  | n + 1, 0, h, c, args => absurd h (by omega)
  | n + 1, n' + 1, h, c, args => by
    have hb := SLe.closed.bind (SLe.closed.bindVars (callScope c args) c.env) fun env =>
      SLe.closed.stmts (S := S) (SLe.callN (S := S) hW (Nat.le_of_succ_le_succ h)) (SLe.bound hW) c.body env
    intro σ
    simp only [Quilt.callN]
    rcases hb { σ with data := S.onEnter σ.data } with (h1 | ⟨hd, h1⟩) | h1
    · generalize (SM.bindVars (callScope c args) c.env >>= fun env => evalStmts S (Quilt.callN S W n) W c.body env) { σ with data := S.onEnter σ.data } = r at h1
      obtain ⟨o, σ'⟩ := r
      simp only at h1; subst h1
      exact .inl (.inl rfl)
    · generalize (SM.bindVars (callScope c args) c.env >>= fun env => evalStmts S (Quilt.callN S W n) W c.body env) { σ with data := S.onEnter σ.data } = r at h1
      obtain ⟨o, σ'⟩ := r
      simp only at h1; subst h1
      exact .inl (.inr ⟨hd, rfl⟩)
    · rw [h1]; exact .inr rfl

/-- Top-level statements. -/
theorem SLe.defGlobals : ∀ bs : List (String × SVal), SLe dp (Quilt.defGlobals bs : SM D Unit) (Quilt.defGlobals bs) := fun _ => SLe.refl _

section
variable {S : SHost D} {call call' : SClos → List SVal → SM D SVal} (hc : ∀ c args, SLe dp (call c args) (call' c args)) {W W' : Nat} (hW : W ≤ W')
include hc hW

mutual
theorem SLe.topStmt : ∀ n : Node, SLe dp (evalTopStmt S call W n) (evalTopStmt S call' W' n)
  | .decl sp v e => by
    unfold evalTopStmt
    exact SLe.closed.bind (SLe.closed.node hc (SLe.bound hW) e []) fun _ => SLe.refl _
  | .func .. => by unfold evalTopStmt; exact SLe.refl _
  | .extern _ x e => by
    unfold evalTopStmt
    exact SLe.closed.bind (SLe.closed.node hc (SLe.bound hW) e []) fun _ => SLe.refl _
  | .include _ _ body => by unfold evalTopStmt; exact SLe.topIncl body
  | .lit .. | .ident .. | .assign .. | .pair .. | .range .. | .array .. | .index .. | .un ..
  | .bin .. | .block .. | .cond .. | .switch .. | .while .. | .forIn .. | .forMulti ..
  | .lambda .. | .call .. | .builtin .. | .ctx .. | .ret .. => by unfold evalTopStmt; exact SLe.refl _
termination_by structural n => n
theorem SLe.topEach : ∀ ns : List Node, SLe dp (evalEach S call W ns) (evalEach S call' W' ns)
  | [] => by unfold evalEach; exact SLe.refl _
  | n :: ns => by
    unfold evalEach
    split
    · exact SLe.closed.bind (SLe.topStmt n) fun _ => SLe.topEach ns
    · exact SLe.closed.bind (SLe.closed.node hc (SLe.bound hW) n []) fun _ => SLe.topEach ns
termination_by structural n => n
theorem SLe.topIncl : ∀ o : Option (List Node), SLe dp (evalIncl S call W o) (evalIncl S call' W' o)
  | some b => by unfold evalIncl; exact SLe.topEach b
  | none => by unfold evalIncl; exact SLe.refl _
termination_by structural n => n
end

theorem SLe.top : ∀ ns : List Node, SLe dp (evalTop S call W ns) (evalTop S call' W' ns)
  | [] => SLe.refl _
  | [n] => by
    unfold evalTop
    split
    · exact SLe.closed.bind (SLe.topStmt hc hW n) fun _ => SLe.refl _
    · exact SLe.closed.node hc (SLe.bound hW) n []
  | n :: n' :: ns => by
    unfold evalTop
    split
    · exact SLe.closed.bind (SLe.topStmt hc hW n) fun _ => SLe.top (n' :: ns)
    · exact SLe.closed.bind (SLe.closed.node hc (SLe.bound hW) n []) fun _ => SLe.top (n' :: ns)

end

/-- Once a bound suffices, the outcome does not depend on it. -/
theorem evalProgram_mono (S : SHost D) {k k' : Nat} (h : k ≤ k') (ast : List Node) (σ : SSt D) (hk : (evalProgram S k ast σ).1 ≠ .timeout) :
    evalProgram S k' ast σ = evalProgram S k ast σ := by
  rcases SLe.top (dp := False) (SLe.callN (S := S) h h) h ast σ with (h1 | ⟨h1, _⟩) | h1
  · exact absurd h1 hk
  · exact h1.elim
  · exact h1.symm

end Quilt
