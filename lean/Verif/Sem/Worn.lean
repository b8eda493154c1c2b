import Verif.Sem.Source

/-!
# A host that carries something along

The data of a host are paired with something that only the hooks for entering and leaving functions change. Programs do not notice. Used for C95.
-/

namespace Quilt

variable {D E C : Type}

/-- The builtin leaves what is carried along as it is. -/
def BFn.wear (f : BFn D C) : BFn (D × E) C := fun d args lim => ((f d.1 args lim).1, ((f d.1 args lim).2, d.2))
def ExitFn.wear (f : ExitFn D) : ExitFn (D × E) := fun d => ((f d.1).1, ((f d.1).2, d.2))

def Builtin.wear : Builtin D C → Builtin (D × E) C
  | .fn f => .fn (BFn.wear f)
  | .ctx f e => .ctx (BFn.wear f) (ExitFn.wear e)

/-- The hooks change it by `en` and `ex`. -/
def SHost.wear (en ex : E → E) (S : SHost D) : SHost (D × E) :=
  ⟨S.cfg, S.lim, fun x => (S.builtins x).map Builtin.wear, fun d => (S.onEnter d.1, en d.2), fun d => (S.onExit d.1, ex d.2)⟩

def SSt.wear (e : E) (σ : SSt D) : SSt (D × E) := ⟨σ.store, σ.next, σ.globals, (σ.data, e), σ.exits.map ExitFn.wear⟩

/-- The same, with something carried along. -/
def SM.Worn {α : Type} (x : SM D α) (x' : SM (D × E) α) : Prop := ∀ σ e, ∃ e', x' (σ.wear e) = ((x σ).1, (x σ).2.wear e')

namespace SM.Worn
variable {α β : Type}

theorem pure {a : α} : SM.Worn (Pure.pure a : SM D α) (Pure.pure a : SM (D × E) α) := fun _ e => ⟨e, rfl⟩

theorem bind {x : SM D α} {x' : SM (D × E) α} {f : α → SM D β} {f' : α → SM (D × E) β} (h : x.Worn x') (hf : ∀ a, (f a).Worn (f' a)) : (x >>= f).Worn (x' >>= f') := by
  intro σ e
  obtain ⟨e', h1⟩ := h σ e
  show ∃ e', SM.bind x' f' (σ.wear e) = ((SM.bind x f σ).1, (SM.bind x f σ).2.wear e')
  unfold SM.bind
  rw [h1]
  generalize x σ = r
  obtain ⟨o, σ'⟩ := r
  cases o with
  | ok a => exact hf a σ' e'
  | _ => exact ⟨e', rfl⟩

theorem ite {c : Prop} [Decidable c] {x y : SM D α} {x' y' : SM (D × E) α} (h : x.Worn x') (h' : y.Worn y') : (if c then x else y).Worn (if c then x' else y') := by
  split
  · exact h
  · exact h'

theorem err {e : Err} {sp : Option Span} : SM.Worn (SM.err e sp : SM D α) (SM.err e sp : SM (D × E) α) := fun _ e => ⟨e, rfl⟩
theorem panic : SM.Worn (SM.panic : SM D α) (SM.panic : SM (D × E) α) := fun _ e => ⟨e, rfl⟩
theorem timeout : SM.Worn (SM.timeout : SM D α) (SM.timeout : SM (D × E) α) := fun _ e => ⟨e, rfl⟩
theorem unspec : SM.Worn (SM.unspec : SM D α) (SM.unspec : SM (D × E) α) := fun _ e => ⟨e, rfl⟩
theorem incomparable : SM.Worn (SM.incomparable : SM D α) (SM.incomparable : SM (D × E) α) := fun _ e => ⟨e, rfl⟩
theorem ret {v : SVal} : SM.Worn (SM.ret v : SM D α) (SM.ret v : SM (D × E) α) := fun _ e => ⟨e, rfl⟩
theorem alloc {v : SVal} : SM.Worn (SM.alloc v : SM D Nat) (SM.alloc v : SM (D × E) Nat) := fun _ e => ⟨e, rfl⟩
theorem load {l : Nat} : SM.Worn (SM.load l : SM D SVal) (SM.load l : SM (D × E) SVal) := fun _ e => ⟨e, rfl⟩
theorem store {l : Nat} {v : SVal} : SM.Worn (SM.store l v : SM D Unit) (SM.store l v : SM (D × E) Unit) := fun _ e => ⟨e, rfl⟩
theorem getGlobal {x : String} : SM.Worn (SM.getGlobal x : SM D _) (SM.getGlobal x : SM (D × E) _) := fun _ e => ⟨e, rfl⟩
theorem defGlobal {x : String} {v : SVal} : SM.Worn (SM.defGlobal x v : SM D _) (SM.defGlobal x v : SM (D × E) _) := fun _ e => ⟨e, rfl⟩
theorem pushExit {f : ExitFn D} : SM.Worn (SM.pushExit f : SM D _) (SM.pushExit (ExitFn.wear f) : SM (D × E) _) := fun _ e => ⟨e, rfl⟩

theorem lift {r : Res α} {sp : Span} : SM.Worn (SM.lift r sp : SM D α) (SM.lift r sp : SM (D × E) α) := by
  cases r with
  | ok a => exact pure
  | err e => exact err
  | panic => exact panic

theorem host {γ : Type} {f : D → Res γ × D} {f' : D × E → Res γ × (D × E)} {sp : Span} (h : ∀ d e, f' (d, e) = ((f d).1, ((f d).2, e))) : SM.Worn (SM.host f sp) (SM.host f' sp) := by
  intro σ e
  refine ⟨e, ?_⟩
  simp only [SM.host, SSt.wear, h]
  generalize f σ.data = r
  obtain ⟨o, d⟩ := r
  cases o <;> rfl

theorem popExit {sp : Span} : SM.Worn (SM.popExit sp : SM D _) (SM.popExit sp : SM (D × E) _) := by
  intro σ e
  cases he : σ.exits with
  | nil => exact ⟨e, by simp [SM.popExit, SSt.wear, he]⟩
  | cons g es =>
    obtain ⟨e', h⟩ := host (D := D) (E := E) (f := g) (f' := ExitFn.wear g) (sp := sp) (fun _ _ => rfl) { σ with exits := es } e
    refine ⟨e', ?_⟩
    simp only [SM.popExit, he, ← h]
    simp only [SSt.wear, he, List.map_cons]

theorem bindVars : ∀ {bs : List (String × SVal)} {env : SEnv}, SM.Worn (SM.bindVars bs env : SM D _) (SM.bindVars bs env : SM (D × E) _)
  | [], _ => pure
  | _ :: _, _ => bind alloc fun _ => bindVars

theorem readVar {x : String} {sp : Span} {env : SEnv} : SM.Worn (Quilt.readVar x sp env : SM D _) (Quilt.readVar x sp env : SM (D × E) _) := by
  unfold Quilt.readVar
  split
  · exact load
  · refine bind getGlobal fun o => ?_
    cases o with
    | some v => exact pure
    | none => exact err

theorem writeVar {x : String} {sp : Span} {env : SEnv} {v : SVal} : SM.Worn (Quilt.writeVar x sp env v : SM D _) (Quilt.writeVar x sp env v : SM (D × E) _) := by
  unfold Quilt.writeVar
  split
  · exact store
  · refine bind getGlobal fun o => ?_
    cases o with
    | some v => exact defGlobal
    | none => exact err

theorem eqVals {F : FOps} {a b : SVal} : SM.Worn (Quilt.eqVals F a b : SM D _) (Quilt.eqVals F a b : SM (D × E) _) := by
  unfold Quilt.eqVals
  split
  · exact pure
  · exact incomparable

theorem evalBin {S : SHost D} {en ex : E → E} {op : Op} {sp : Span} {a b : SVal} : SM.Worn (Quilt.evalBin S op sp a b) (Quilt.evalBin (S.wear en ex) op sp a b) := by
  unfold Quilt.evalBin
  split
  · exact bind eqVals fun _ => pure
  · exact bind eqVals fun _ => pure
  · exact lift

theorem declVars {v : Var} {sp : Span} {val : SVal} {env : SEnv} : SM.Worn (Quilt.declVars v sp val env : SM D _) (Quilt.declVars v sp val env : SM (D × E) _) := by
  unfold Quilt.declVars
  split
  · exact bindVars
  · exact bind lift fun _ => bindVars

theorem ctxVars {v : Option Var} {sp : Span} {val : SVal} {env : SEnv} : SM.Worn (Quilt.ctxVars v sp val env : SM D _) (Quilt.ctxVars v sp val env : SM (D × E) _) := by
  unfold Quilt.ctxVars
  split
  · exact declVars
  · exact pure

theorem truthy {S : SHost D} {en ex : E → E} {sp : Span} {v : SVal} : SM.Worn (Quilt.truthy S sp v) (Quilt.truthy (S.wear en ex) sp v) := lift

theorem defGlobals : ∀ {bs : List (String × SVal)}, SM.Worn (Quilt.defGlobals bs : SM D _) (Quilt.defGlobals bs : SM (D × E) _)
  | [] => pure
  | _ :: _ => bind defGlobal fun _ => defGlobals

theorem externAs {x : String} {v : SVal} : SM.Worn (do
    match ← SM.getGlobal x with
    | some _ => Pure.pure ()
    | none => SM.defGlobal x v : SM D Unit) (do
    match ← SM.getGlobal x with
    | some _ => Pure.pure ()
    | none => SM.defGlobal x v : SM (D × E) Unit) := by
  refine bind getGlobal fun o => ?_
  cases o with
  | some v => exact pure
  | none => exact defGlobal

end SM.Worn

open SM.Worn in
/-- Everything that does not depend on the host. -/
macro "worn" : tactic => `(tactic| first
  | exact SM.Worn.pure | exact SM.Worn.unspec | exact SM.Worn.lift | exact SM.Worn.timeout | exact SM.Worn.err | exact SM.Worn.ret | exact SM.Worn.truthy | exact SM.Worn.eqVals
  | exact SM.Worn.bindVars | exact SM.Worn.declVars | exact SM.Worn.ctxVars | exact SM.Worn.readVar | exact SM.Worn.evalBin | exact SM.Worn.defGlobal
  | exact SM.Worn.externAs
  | exact SM.Worn.bind SM.Worn.writeVar fun _ => SM.Worn.pure | exact SM.Worn.bind SM.Worn.popExit fun _ => SM.Worn.pure
  | exact SM.Worn.bind SM.Worn.lift fun _ => SM.Worn.defGlobals)

variable {T : SHost D} {en ex : E → E}

theorem callBuiltin_worn (x : String) (sp : Span) (args : List SVal) : (callBuiltin T x sp args).Worn (callBuiltin (T.wear en ex) x sp args) := by
  unfold callBuiltin
  simp only [SHost.wear]
  cases T.builtins x with
  | none => exact .err
  | some b =>
    cases b with
    | fn f => exact .host fun _ _ => rfl
    | ctx f g => exact .err

theorem enterCtx_worn (x : String) (sp : Span) (args : List SVal) : (enterCtx T x sp args).Worn (enterCtx (T.wear en ex) x sp args) := by
  unfold enterCtx
  simp only [SHost.wear]
  cases T.builtins x with
  | none => exact .err
  | some b =>
    cases b with
    | fn f => exact .host fun _ _ => rfl
    | ctx f g => exact .bind .pushExit fun _ => .host fun _ _ => rfl

theorem whileN_worn {c b : SM D SVal} {c' b' : SM (D × E) SVal} (sp : Span) (hc : c.Worn c') (hb : b.Worn b') : ∀ W v, (whileN T sp c b W v).Worn (whileN (T.wear en ex) sp c' b' W v)
  | 0, _ => .timeout
  | W + 1, v => by
    unfold whileN
    refine hc.bind fun a => SM.Worn.bind .truthy fun t => ?_
    exact .ite (hb.bind fun v => whileN_worn sp hc hb W v) .pure

theorem forN_worn {item : Nat → SM D (Option SVal)} {item' : Nat → SM (D × E) (Option SVal)} {b : SVal → SM D SVal} {b' : SVal → SM (D × E) SVal}
    (hi : ∀ k, (item k).Worn (item' k)) (hb : ∀ v, (b v).Worn (b' v)) : ∀ W k v, (forN item b W k v).Worn (forN item' b' W k v)
  | 0, _, _ => .timeout
  | W + 1, k, v => by
    unfold forN
    refine (hi k).bind fun t => ?_
    cases t with
    | none => exact .pure
    | some x => exact (hb x).bind fun v => forN_worn hi hb W _ v

theorem applyVal_worn {call : SClos → List SVal → SM D SVal} {call' : SClos → List SVal → SM (D × E) SVal} (hc : ∀ c args, (call c args).Worn (call' c args)) (sp : Span) (f : SVal)
    (args : List SVal) : (applyVal call sp f args).Worn (applyVal call' sp f args) := by
  unfold applyVal
  split
  · exact .ite .err (hc _ _)
  · exact .err

section
variable {call : SClos → List SVal → SM D SVal} {call' : SClos → List SVal → SM (D × E) SVal} {W : Nat}

mutual
theorem evalNode_worn (hc : ∀ c args, (call c args).Worn (call' c args)) :
    ∀ (n : Node) (env : SEnv), (evalNode T call W n env).Worn (evalNode (T.wear en ex) call' W n env)
  | .lit .., _ | .ident .., _ | .lambda .., _ | .decl .., _ | .extern .., _ | .func .., _ | .include .., _ | .ret .., _ => by simp only [evalNode]; exact by worn
  | .assign _ (_, _) x, env => by simp only [evalNode]; exact (evalNode_worn hc x env).bind fun _ => (by worn)
  | .pair _ a b, env => by simp only [evalNode]; exact (evalNode_worn hc a env).bind fun _ => (evalNode_worn hc b env).bind fun _ => (by worn)
  | .range _ a b, env => by simp only [evalNode]; exact (evalNode_worn hc a env).bind fun _ => (evalNode_worn hc b env).bind fun _ => (by worn)
  | .array _ items, env => by simp only [evalNode]; exact (evalRev_worn hc items env).bind fun _ => (by worn)
  | .index _ a i, env => by simp only [evalNode]; exact (evalNode_worn hc i env).bind fun _ => (evalNode_worn hc a env).bind fun _ => (by worn)
  | .un _ _ a, env => by simp only [evalNode]; exact (evalNode_worn hc a env).bind fun _ => (by worn)
  | .bin _ op a b, env => by simp only [evalNode]; exact (evalNode_worn hc a env).bind fun _ => (evalNode_worn hc b env).bind fun _ => (by worn)
  | .block _ body, env => by simp only [evalNode]; exact evalStmts_worn hc body env
  | .cond _ c th el, env => by
    simp only [evalNode]
    exact (evalNode_worn hc c env).bind fun _ => SM.Worn.bind (by worn) fun _ => .ite (evalStmts_worn hc th env) (evalOpt_worn hc el env)
  | .switch _ v cases dflt, env => by
    simp only [evalNode]
    exact (evalNode_worn hc v env).bind fun v => evalCases_worn hc cases v env (evalOpt_worn hc dflt env)
  | .while _ c body, env => by simp only [evalNode]; exact whileN_worn _ (evalNode_worn hc c env) (evalStmts_worn hc body env) _ _
  | .forIn _ _ it body, env => by
    simp only [evalNode]
    exact (evalNode_worn hc it env).bind fun _ => forN_worn (fun _ => .lift) (fun _ => SM.Worn.bind (by worn) fun env' => evalStmts_worn hc body env') _ _ _
  | .forMulti _ _ it body, env => by
    simp only [evalNode]
    exact (evalNode_worn hc it env).bind fun _ => forN_worn (fun _ => .lift) (fun _ => SM.Worn.bind (by worn) fun env' => evalStmts_worn hc body env') _ _ _
  | .call _ f args, env => by
    simp only [evalNode]
    exact (evalNode_worn hc f env).bind fun _ => (evalArgs_worn hc args env).bind fun _ => applyVal_worn hc _ _ _
  | .builtin _ _ args, env => by simp only [evalNode]; exact (evalArgs_worn hc args env).bind fun _ => callBuiltin_worn _ _ _
  | .ctx _ _ args _ body, env => by
    simp only [evalNode]
    exact (evalArgs_worn hc args env).bind fun _ => (enterCtx_worn _ _ _).bind fun _ => SM.Worn.bind (by worn) fun env' =>
      (evalStmts_worn hc body env').bind fun _ => (by worn)
termination_by structural n => n
theorem evalStmt_worn (hc : ∀ c args, (call c args).Worn (call' c args)) :
    ∀ (n : Node) (env : SEnv), (evalStmt T call W n env).Worn (evalStmt (T.wear en ex) call' W n env)
  | .decl _ _ x, env => by simp only [evalStmt]; exact (evalNode_worn hc x env).bind fun _ => (by worn)
  | .ret _ x, env => by simp only [evalStmt]; exact (evalRet_worn hc x env).bind fun _ => (by worn)
  | .func .., _ | .lit .., _ | .ident .., _ | .lambda .., _ | .extern .., _ | .include .., _ | .assign .., _ | .pair .., _ | .range .., _ | .array .., _ | .index .., _ | .un .., _
  | .bin .., _ | .block .., _ | .cond .., _ | .switch .., _ | .while .., _ | .forIn .., _ | .forMulti .., _ | .call .., _ | .builtin .., _ | .ctx .., _ => by
    simp only [evalStmt]; exact by worn
termination_by structural n => n
theorem evalStmts_worn (hc : ∀ c args, (call c args).Worn (call' c args)) :
    ∀ (ns : List Node) (env : SEnv), (evalStmts T call W ns env).Worn (evalStmts (T.wear en ex) call' W ns env)
  | [], _ => by simp only [evalStmts]; exact by worn
  | [n], env => by
    simp only [evalStmts]
    exact .ite ((evalStmt_worn hc n env).bind fun _ => (by worn)) (evalNode_worn hc n env)
  | n :: n' :: ns, env => by
    simp only [evalStmts]
    exact .ite ((evalStmt_worn hc n env).bind fun env' => evalStmts_worn hc (n' :: ns) env') ((evalNode_worn hc n env).bind fun _ => evalStmts_worn hc (n' :: ns) env)
termination_by structural n => n
theorem evalArgs_worn (hc : ∀ c args, (call c args).Worn (call' c args)) :
    ∀ (ns : List Node) (env : SEnv), (evalArgs T call W ns env).Worn (evalArgs (T.wear en ex) call' W ns env)
  | [], _ => by simp only [evalArgs]; exact by worn
  | n :: ns, env => by simp only [evalArgs]; exact (evalNode_worn hc n env).bind fun _ => (evalArgs_worn hc ns env).bind fun _ => (by worn)
termination_by structural n => n
theorem evalRev_worn (hc : ∀ c args, (call c args).Worn (call' c args)) :
    ∀ (ns : List Node) (env : SEnv), (evalRev T call W ns env).Worn (evalRev (T.wear en ex) call' W ns env)
  | [], _ => by simp only [evalRev]; exact by worn
  | n :: ns, env => by simp only [evalRev]; exact (evalRev_worn hc ns env).bind fun _ => (evalNode_worn hc n env).bind fun _ => (by worn)
termination_by structural n => n
theorem evalOpt_worn (hc : ∀ c args, (call c args).Worn (call' c args)) :
    ∀ (o : Option (List Node)) (env : SEnv), (evalOpt T call W o env).Worn (evalOpt (T.wear en ex) call' W o env)
  | none, _ => by simp only [evalOpt]; exact by worn
  | some b, env => by simp only [evalOpt]; exact evalStmts_worn hc b env
termination_by structural n => n
theorem evalRet_worn (hc : ∀ c args, (call c args).Worn (call' c args)) :
    ∀ (o : Option Node) (env : SEnv), (evalRet T call W o env).Worn (evalRet (T.wear en ex) call' W o env)
  | none, _ => by simp only [evalRet]; exact by worn
  | some n, env => by simp only [evalRet]; exact evalNode_worn hc n env
termination_by structural n => n
theorem evalCases_worn (hc : ∀ c args, (call c args).Worn (call' c args)) :
    ∀ (cs : List (Node × List Node)) (v : SVal) (env : SEnv) {d : SM D SVal} {d' : SM (D × E) SVal}, d.Worn d' → (evalCases T call W cs v env d).Worn (evalCases (T.wear en ex) call' W cs v env d')
  | [], _, _, _, _, hd => by simp only [evalCases]; exact hd
  | (c, body) :: cs, v, env, _, _, hd => by
    simp only [evalCases]
    exact (evalNode_worn hc c env).bind fun _ => SM.Worn.bind (by worn) fun _ => .ite (evalStmts_worn hc body env) (evalCases_worn hc cs v env hd)
termination_by structural n => n
end

mutual
theorem evalTopStmt_worn (hc : ∀ c args, (call c args).Worn (call' c args)) :
    ∀ n : Node, (evalTopStmt T call W n).Worn (evalTopStmt (T.wear en ex) call' W n)
  | .decl _ (.one _) x => by simp only [evalTopStmt]; exact (evalNode_worn hc x []).bind fun _ => (by worn)
  | .decl _ (.many _) x => by simp only [evalTopStmt]; exact (evalNode_worn hc x []).bind fun _ => (by worn)
  | .extern _ _ x => by simp only [evalTopStmt]; exact (evalNode_worn hc x []).bind fun _ => (by worn)
  | .include _ _ b => by simp only [evalTopStmt]; exact evalIncl_worn hc b
  | .func .. | .lit .. | .ident .. | .lambda .. | .ret .. | .assign .. | .pair .. | .range .. | .array .. | .index .. | .un ..
  | .bin .. | .block .. | .cond .. | .switch .. | .while .. | .forIn .. | .forMulti .. | .call .. | .builtin .. | .ctx .. => by
    simp only [evalTopStmt]; exact by worn
termination_by structural n => n
theorem evalEach_worn (hc : ∀ c args, (call c args).Worn (call' c args)) :
    ∀ ns : List Node, (evalEach T call W ns).Worn (evalEach (T.wear en ex) call' W ns)
  | [] => by simp only [evalEach]; exact by worn
  | n :: ns => by
    simp only [evalEach]
    exact .ite ((evalTopStmt_worn hc n).bind fun _ => evalEach_worn hc ns) ((evalNode_worn hc n []).bind fun _ => evalEach_worn hc ns)
termination_by structural n => n
theorem evalIncl_worn (hc : ∀ c args, (call c args).Worn (call' c args)) :
    ∀ o : Option (List Node), (evalIncl T call W o).Worn (evalIncl (T.wear en ex) call' W o)
  | none => by simp only [evalIncl]; exact by worn
  | some b => by simp only [evalIncl]; exact evalEach_worn hc b
termination_by structural n => n
end

theorem evalTop_worn (hc : ∀ c args, (call c args).Worn (call' c args)) :
    ∀ ns : List Node, (evalTop T call W ns).Worn (evalTop (T.wear en ex) call' W ns)
  | [] => by simp only [evalTop]; exact by worn
  | [n] => by
    simp only [evalTop]
    exact .ite ((evalTopStmt_worn hc n).bind fun _ => (by worn)) (evalNode_worn hc n [])
  | n :: n' :: ns => by
    simp only [evalTop]
    exact .ite ((evalTopStmt_worn hc n).bind fun _ => evalTop_worn hc (n' :: ns)) ((evalNode_worn hc n []).bind fun _ => evalTop_worn hc (n' :: ns))

end

theorem callN_worn (W : Nat) : ∀ (n : Nat) (c : SClos) (args : List SVal), (callN T W n c args).Worn (callN (T.wear en ex) W n c args)
  | 0, _, _ => .timeout
  | n + 1, c, args => by
    intro σ e
    have h : SM.Worn (do
        let env ← SM.bindVars (callScope c args) c.env
        evalStmts T (callN T W n) W c.body env) (do
        let env ← SM.bindVars (callScope c args) c.env
        evalStmts (T.wear en ex) (callN (T.wear en ex) W n) W c.body env) :=
      SM.Worn.bind .bindVars fun env => evalStmts_worn (callN_worn W n) c.body env
    obtain ⟨e', h⟩ := h { σ with data := T.onEnter σ.data } (en e)
    unfold callN
    rw [show ({ σ.wear e with data := (T.wear en ex).onEnter (σ.wear e).data } : SSt (D × E)) = SSt.wear (en e) { σ with data := T.onEnter σ.data } from rfl]
    rw [h]
    generalize (do
        let env ← SM.bindVars (callScope c args) c.env
        evalStmts T (callN T W n) W c.body env : SM D SVal) { σ with data := T.onEnter σ.data } = r
    obtain ⟨o, σ'⟩ := r
    cases o with
    | ret v => exact ⟨ex e', rfl⟩
    | _ => exact ⟨e', rfl⟩

/-- Programs. -/
theorem evalProgram_worn (k : Nat) (ast : List Node) : (evalProgram T k ast).Worn (evalProgram (T.wear en ex) k ast) :=
  evalTop_worn (callN_worn k k) ast

end Quilt
