import Verif.Ast
import Verif.Vm.Prims
import Verif.Vm.Machine

/-!
# Direct semantics of the source language

The specification against which the compiler and the VM are compared: an evaluator on syntax trees
with lexically scoped mutable variables. Variables live in a store; an environment maps names to
store locations, innermost declaration first; names without local declaration are global.
There is no counterpart in `/repo` (the language is defined by its implementation); evaluation
order and error positions are those of the compiled code and are spelled out here.

Evaluation is by structural recursion on the syntax. `call` evaluates calls, `W` bounds loop
iterations; `timeout` means that one of these bounds was hit, see `callN`.
-/

namespace Quilt

/-- Local scope: names with their store locations, innermost first. -/
abbrev SEnv := List (String × Nat)

/-- A source-level function value. -/
structure SClos where
  name : String
  nameSpan : Span
  params : List String
  body : List Node
  env : SEnv

abbrev SVal := Val SClos

/-- What programs are run with: configuration, limits, builtins by name, data hooks. -/
structure SHost (D : Type) where
  cfg : Cfg
  lim : Limits
  builtins : String → Option (Builtin D SClos)
  onEnter : D → D
  onExit : D → D

/-- State: variables (`next` is the next free location), globals by name, host data, pending exit
functions of contexts (innermost first). -/
structure SSt (D : Type) where
  store : Nat → SVal
  next : Nat
  globals : String → Option SVal
  data : D
  exits : List (ExitFn D)

/-- Outcome: value; `return v` on its way to the enclosing call; error with its position (`none`:
position not prescribed); panic; a bound was hit; not prescribed at all, because functions were
compared (`true`) or because the program is not well-formed (`false`). `deep`: a bound on call depth was hit, in evaluations that tell this
apart (`callD`). -/
inductive Out (α : Type) where
  | ok (a : α)
  | ret (v : SVal)
  | err (e : Err) (sp : Option Span)
  | panic
  | timeout
  | deep
  | unspec (cmp : Bool)

/-- Evaluations. -/
def SM (D α : Type) := SSt D → Out α × SSt D

namespace SM
variable {D α β : Type}

def pure' (a : α) : SM D α := fun σ => (.ok a, σ)

def bind (x : SM D α) (f : α → SM D β) : SM D β := fun σ =>
  match x σ with
  | (.ok a, σ') => f a σ'
  | (.ret v, σ') => (.ret v, σ')
  | (.err e sp, σ') => (.err e sp, σ')
  | (.panic, σ') => (.panic, σ')
  | (.timeout, σ') => (.timeout, σ')
  | (.deep, σ') => (.deep, σ')
  | (.unspec b, σ') => (.unspec b, σ')

instance : Monad (SM D) where
  pure := pure'
  bind := bind

def err (e : Err) (sp : Option Span) : SM D α := fun σ => (.err e sp, σ)
def panic : SM D α := fun σ => (.panic, σ)
def timeout : SM D α := fun σ => (.timeout, σ)
def deep : SM D α := fun σ => (.deep, σ)
def unspec : SM D α := fun σ => (.unspec false, σ)
def incomparable : SM D α := fun σ => (.unspec true, σ)
def ret (v : SVal) : SM D α := fun σ => (.ret v, σ)

/-- A computation on values, failing at `sp`. -/
def lift (r : Res α) (sp : Span) : SM D α :=
  match r with
  | .ok a => pure a
  | .err e => err e (some sp)
  | .panic => panic

/-- A new variable. -/
def alloc (v : SVal) : SM D Nat := fun σ =>
  (.ok σ.next, { σ with store := upd σ.store σ.next v, next := σ.next + 1 })

/-- New variables for the names, in order; the last name becomes the innermost. -/
def bindVars : List (String × SVal) → SEnv → SM D SEnv
  | [], env => pure env
  | (x, v) :: r, env => do
    let l ← alloc v
    bindVars r ((x, l) :: env)

def load (l : Nat) : SM D SVal := fun σ => (.ok (σ.store l), σ)
def store (l : Nat) (v : SVal) : SM D Unit := fun σ => (.ok (), { σ with store := upd σ.store l v })

def getGlobal (x : String) : SM D (Option SVal) := fun σ => (.ok (σ.globals x), σ)
def defGlobal (x : String) (v : SVal) : SM D Unit := fun σ =>
  (.ok (), { σ with globals := fun y => if y = x then some v else σ.globals y })

/-- Pushes the exit function of a context. -/
def pushExit (e : ExitFn D) : SM D Unit := fun σ => (.ok (), { σ with exits := e :: σ.exits })

/-- A host function: may change the data. -/
def host {γ : Type} (f : D → Res γ × D) (sp : Span) : SM D γ := fun σ =>
  match f σ.data with
  | (.ok v, d) => (.ok v, { σ with data := d })
  | (.err e, d) => (.err e (some sp), { σ with data := d })
  | (.panic, d) => (.panic, { σ with data := d })

/-- Leaving a context: the innermost pending exit function is run. -/
def popExit (sp : Span) : SM D Unit := fun σ =>
  match σ.exits with
  | [] => (.ok (), σ)
  | e :: es => host e sp { σ with exits := es }

end SM

open SM

variable {D : Type}

/-- Innermost variable with the name. -/
def lookup (x : String) : SEnv → Option Nat
  | [] => none
  | (y, l) :: r => if y = x then some l else lookup x r

/-- Reading a variable. -/
def readVar (x : String) (sp : Span) (env : SEnv) : SM D SVal :=
  match lookup x env with
  | some l => load l
  | none => do
    match ← getGlobal x with
    | some v => pure v
    | none => err (.name (.undefined x)) (some sp)

/-- Assigning a variable; globals must exist. -/
def writeVar (x : String) (sp : Span) (env : SEnv) (v : SVal) : SM D Unit :=
  match lookup x env with
  | some l => store l v
  | none => do
    match ← getGlobal x with
    | some _ => defGlobal x v
    | none => err (.name (.undefined x)) (some sp)

/-- Equality; comparing functions is not prescribed. -/
def eqVals (F : FOps) (a b : SVal) : SM D Bool :=
  match Val.eqv F (fun _ _ => none) a b with
  | some r => pure r
  | none => incomparable

/-- Binary operators. -/
def evalBin (S : SHost D) (op : Op) (sp : Span) (a b : SVal) : SM D SVal :=
  match op with
  | .eq => do return .bool (← eqVals S.cfg.F a b)
  | .neq => do return .bool (!(← eqVals S.cfg.F a b))
  | op => lift (Val.binary S.cfg S.lim (fun _ _ => none) op a b) sp

/-- Calling a value: only functions can be called, with the right number of arguments. -/
def applyVal (call : SClos → List SVal → SM D SVal) (sp : Span) (f : SVal) (args : List SVal) : SM D SVal :=
  match f with
  | .clos c =>
    if args.length ≠ c.params.length then err (.type (.mismatchedArity c.name c.params.length args.length)) none
    else call c args
  | v => err (.type (.notCallable v.ntype)) (some sp)

/-- Calling a builtin; `csp` is the position of its name. -/
def callBuiltin (S : SHost D) (x : String) (csp : Span) (args : List SVal) : SM D SVal :=
  match S.builtins x with
  | some (.fn f) => host (fun d => f d args S.lim) csp
  | some (.ctx _ _) => err (.type (.notCallable "context manager")) none
  | none => err (.name (.undefinedBuiltin x)) (some csp)

/-- Entering a context: its exit function is pending from now on. A plain builtin can be used as
well and registers no exit function. -/
def enterCtx (S : SHost D) (x : String) (csp : Span) (args : List SVal) : SM D SVal :=
  match S.builtins x with
  | some (.fn f) => host (fun d => f d args S.lim) csp
  | some (.ctx f e) => do
    pushExit e
    host (fun d => f d args S.lim) csp
  | none => err (.name (.undefinedBuiltin x)) (some csp)

/-- `let` with one or several names. Several names are bound from right to left, so that the
leftmost of equal names is visible. -/
def declVars (v : Var) (sp : Span) (val : SVal) (env : SEnv) : SM D SEnv :=
  match v with
  | .one x => bindVars [(x.1, val)] env
  | .many xs => do
    let vs ← lift (val.unpack xs.length) sp
    bindVars ((xs.map Prod.fst).zip vs).reverse env

/-- The variable of a context. -/
def ctxVars (v : Option Var) (sp : Span) (val : SVal) (env : SEnv) : SM D SEnv :=
  match v with
  | some v => declVars v sp val env
  | none => pure env

/-- A conditional jump. -/
def truthy (S : SHost D) (sp : Span) (v : SVal) : SM D Bool := lift (v.isTruthy S.cfg.F) sp

/-- `while`: at most `W` tests of the condition. The value is that of the last iteration. -/
def whileN (S : SHost D) (sp : Span) (c b : SM D SVal) : (W : Nat) → SVal → SM D SVal
  | 0, _ => timeout
  | W + 1, last => do
    if ← truthy S sp (← c) then
      let v ← b
      whileN S sp c b W v
    else return last

/-- `for`: at most `W` iterations, starting with item `k`. -/
def forN (item : Nat → SM D (Option SVal)) (b : SVal → SM D SVal) : (W : Nat) → Nat → SVal → SM D SVal
  | 0, _, _ => timeout
  | W + 1, k, last => do
    match ← item k with
    | some x =>
      let v ← b x
      forN item b W (k + 1) v
    | none => return last

/-- Defines globals, in order. -/
def defGlobals : List (String × SVal) → SM D Unit
  | [] => pure ()
  | (x, v) :: r => do
    defGlobal x v
    defGlobals r

mutual
/-- Value of an expression. -/
def evalNode (S : SHost D) (call : SClos → List SVal → SM D SVal) (W : Nat) : Node → SEnv → SM D SVal
  | .lit _ l, _ => pure l.toVal
  | .ident sp x, env => readVar x sp env
  | .assign _ (x, xsp) e, env => do
    let v ← evalNode S call W e env
    writeVar x xsp env v
    return v
  | .pair _ a b, env => do
    let x ← evalNode S call W a env
    let y ← evalNode S call W b env
    return .pair x y
  | .range sp a b, env => do
    let x ← evalNode S call W a env
    let y ← evalNode S call W b env
    lift (Val.mkRange x y) sp
  | .array sp items, env => do
    let vs ← evalRev S call W items env
    lift (Val.mkArray S.lim vs) sp
  | .index sp e i, env => do
    let i ← evalNode S call W i env
    let v ← evalNode S call W e env
    lift (Val.indexGet S.cfg.chk v i) sp
  | .un sp op e, env => do
    let v ← evalNode S call W e env
    lift (v.unary S.cfg op) sp
  | .bin sp op a b, env => do
    let x ← evalNode S call W a env
    let y ← evalNode S call W b env
    evalBin S op sp x y
  | .block _ body, env => evalStmts S call W body env
  | .cond sp c th el, env => do
    if ← truthy S sp (← evalNode S call W c env) then evalStmts S call W th env
    else evalOpt S call W el env
  | .switch _ v cases dflt, env => do
    let v ← evalNode S call W v env
    evalCases S call W cases v env (evalOpt S call W dflt env)
  | .while sp c body, env =>
    whileN S sp (evalNode S call W c env) (evalStmts S call W body env) W .none
  | .forIn sp x it body, env => do
    let v ← evalNode S call W it env
    forN (fun k => lift (v.iterItem S.cfg.chk k) sp)
      (fun item => do
        let env' ← bindVars [(x.1, item)] env
        evalStmts S call W body env') W 0 .none
  | .forMulti sp xs it body, env => do
    let v ← evalNode S call W it env
    forN (fun k => lift (v.iterItem S.cfg.chk k) sp)
      (fun item => do
        let env' ← declVars (.many xs) it.span item env
        evalStmts S call W body env') W 0 .none
  | .lambda sp params body, env => pure (.clos ⟨"@__lambda__", sp, params.map Prod.fst, body, env⟩)
  | .call sp f args, env => do
    let f ← evalNode S call W f env
    let vs ← evalArgs S call W args env
    applyVal call sp f vs
  | .builtin _ x args, env => do
    let vs ← evalArgs S call W args env
    callBuiltin S x.1 x.2 vs
  | .ctx sp x args v body, env => do
    let vs ← evalArgs S call W args env
    let r ← enterCtx S x.1 x.2 vs
    let env' ← ctxVars v sp r env
    let res ← evalStmts S call W body env'
    popExit sp
    return res
  | .decl .., _ | .extern .., _ | .func .., _ | .include .., _ | .ret .., _ => unspec
termination_by structural n => n
/-- A statement in a local scope: the scope after it. -/
def evalStmt (S : SHost D) (call : SClos → List SVal → SM D SVal) (W : Nat) : Node → SEnv → SM D SEnv
  | .decl sp v e, env => do
    let val ← evalNode S call W e env
    declVars v sp val env
  | .func _ name params body, env =>
    bindVars [(name.1, .clos ⟨name.1, name.2, params.map Prod.fst, body, env⟩)] env
  | .ret _ e, env => do
    let v ← evalRet S call W e env
    ret v
  | _, _ => unspec
termination_by structural n => n
/-- A statement list in a local scope; its value is that of the last statement. -/
def evalStmts (S : SHost D) (call : SClos → List SVal → SM D SVal) (W : Nat) : List Node → SEnv → SM D SVal
  | [], _ => unspec
  | [n], env =>
    if n.isStatement then do
      let _ ← evalStmt S call W n env
      unspec
    else evalNode S call W n env
  | n :: n' :: ns, env =>
    if n.isStatement then do
      let env' ← evalStmt S call W n env
      evalStmts S call W (n' :: ns) env'
    else do
      let _ ← evalNode S call W n env
      evalStmts S call W (n' :: ns) env
termination_by structural n => n
/-- Arguments, left to right. -/
def evalArgs (S : SHost D) (call : SClos → List SVal → SM D SVal) (W : Nat) : List Node → SEnv → SM D (List SVal)
  | [], _ => pure []
  | n :: ns, env => do
    let v ← evalNode S call W n env
    let vs ← evalArgs S call W ns env
    return v :: vs
termination_by structural n => n
/-- Array items, evaluated right to left. -/
def evalRev (S : SHost D) (call : SClos → List SVal → SM D SVal) (W : Nat) : List Node → SEnv → SM D (List SVal)
  | [], _ => pure []
  | n :: ns, env => do
    let vs ← evalRev S call W ns env
    let v ← evalNode S call W n env
    return v :: vs
termination_by structural n => n
/-- Optional block. -/
def evalOpt (S : SHost D) (call : SClos → List SVal → SM D SVal) (W : Nat) : Option (List Node) → SEnv → SM D SVal
  | some body, env => evalStmts S call W body env
  | none, _ => pure .none
termination_by structural n => n
/-- Optional returned expression. -/
def evalRet (S : SHost D) (call : SClos → List SVal → SM D SVal) (W : Nat) : Option Node → SEnv → SM D SVal
  | some e, env => evalNode S call W e env
  | none, _ => pure .none
termination_by structural n => n
/-- The first case equal to `v`, else `dflt`. -/
def evalCases (S : SHost D) (call : SClos → List SVal → SM D SVal) (W : Nat) :
    List (Node × List Node) → SVal → SEnv → SM D SVal → SM D SVal
  | [], _, _, dflt => dflt
  | (c, body) :: cs, v, env, dflt => do
    let cv ← evalNode S call W c env
    if ← eqVals S.cfg.F v cv then evalStmts S call W body env
    else evalCases S call W cs v env dflt
termination_by structural n => n
end

/-- The scope inside a call: the function's own name, then the parameters. -/
def callScope (c : SClos) (args : List SVal) : List (String × SVal) :=
  (c.name, .clos c) :: c.params.zip args

/-- Calls nested at most `n` deep, each loop running at most `W` iterations. Every function body
ends by returning. -/
def callN (S : SHost D) (W : Nat) : (n : Nat) → SClos → List SVal → SM D SVal
  | 0, _, _ => timeout
  | n + 1, c, args => fun σ =>
    match (do
      let env ← bindVars (callScope c args) c.env
      evalStmts S (callN S W n) W c.body env) { σ with data := S.onEnter σ.data } with
    | (.ret v, σ') => (.ok v, { σ' with data := S.onExit σ'.data })
    | (.ok _, σ') => (.unspec false, σ')
    | (.err e sp, σ') => (.err e sp, σ')
    | (.panic, σ') => (.panic, σ')
    | (.timeout, σ') => (.timeout, σ')
    | (.deep, σ') => (.deep, σ')
    | (.unspec b, σ') => (.unspec b, σ')

mutual
/-- A top-level statement. -/
def evalTopStmt (S : SHost D) (call : SClos → List SVal → SM D SVal) (W : Nat) : Node → SM D Unit
  | .decl sp v e => do
    let val ← evalNode S call W e []
    match v with
    | .one x => defGlobal x.1 val
    | .many xs => do
      let vs ← lift (val.unpack xs.length) sp
      defGlobals ((xs.map Prod.fst).zip vs)
  | .func _ name params body => defGlobal name.1 (.clos ⟨name.1, name.2, params.map Prod.fst, body, []⟩)
  | .extern _ x e => do
    let val ← evalNode S call W e []
    match ← getGlobal x.1 with
    | some _ => pure ()
    | none => defGlobal x.1 val
  | .include _ _ body => evalIncl S call W body
  | _ => unspec
termination_by structural n => n
/-- Included statements. -/
def evalEach (S : SHost D) (call : SClos → List SVal → SM D SVal) (W : Nat) : List Node → SM D Unit
  | [] => pure ()
  | n :: ns =>
    if n.isStatement then do
      evalTopStmt S call W n
      evalEach S call W ns
    else do
      let _ ← evalNode S call W n []
      evalEach S call W ns
termination_by structural n => n
/-- Included program. -/
def evalIncl (S : SHost D) (call : SClos → List SVal → SM D SVal) (W : Nat) : Option (List Node) → SM D Unit
  | some body => evalEach S call W body
  | none => unspec
termination_by structural n => n
end

/-- A program: its value is that of the last statement. -/
def evalTop (S : SHost D) (call : SClos → List SVal → SM D SVal) (W : Nat) : List Node → SM D SVal
  | [] => unspec
  | [n] =>
    if n.isStatement then do
      evalTopStmt S call W n
      unspec
    else evalNode S call W n []
  | n :: n' :: ns =>
    if n.isStatement then do
      evalTopStmt S call W n
      evalTop S call W (n' :: ns)
    else do
      let _ ← evalNode S call W n []
      evalTop S call W (n' :: ns)

/-- Running a program with bound `k` on call depth and loop iterations. -/
def evalProgram (S : SHost D) (k : Nat) (ast : List Node) : SM D SVal :=
  evalTop S (callN S k k) k ast

end Quilt
