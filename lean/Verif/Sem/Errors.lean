import Verif.Sem.Source

/-!
# The errors that evaluation can raise

Those of the language itself (`Err.language`) and those of the builtins of the host.
-/

namespace Quilt

/-- The errors of operations on values: operators, indexing, iterating, unpacking, calls. -/
def Err.ofValue : Err → Bool
  | .type _ | .index _ | .zeroDivision | .overflow .stringTooLarge | .overflow .arrayTooLarge => true
  | _ => false

/-- Those, and the errors about names. -/
def Err.language : Err → Bool
  | .name (.undefined _) | .name (.undefinedBuiltin _) => true
  | e => e.ofValue

theorem Err.language_of {e : Err} (h : e.ofValue = true) : e.language = true := by
  cases e <;> first | exact h | cases h

namespace Res
variable {α β : Type}

/-- Fails, if at all, with an error of operations on values. -/
structure Lang (r : Res α) : Prop where
  of : ∀ e, r = .err e → e.ofValue = true

theorem Lang.ok {a : α} : Lang (.ok a) := ⟨by simp⟩
theorem Lang.panic : Lang (.panic : Res α) := ⟨by simp⟩
theorem Lang.err {e : Err} (h : e.ofValue = true) : Lang (.err e : Res α) := ⟨by simp [h]⟩
theorem Lang.bind {r : Res α} {f : α → Res β} (h : r.Lang) (hf : ∀ a, (f a).Lang) : (r.bind f).Lang := by
  cases r with
  | ok a => exact hf a
  | err e => exact .err (h.of e rfl)
  | panic => exact .panic
theorem Lang.map {r : Res α} {f : α → β} (h : r.Lang) : (r.map f).Lang := by
  cases r with
  | ok a => exact .ok
  | err e => exact .err (h.of e rfl)
  | panic => exact .panic
theorem Lang.ite {p : Prop} [Decidable p] {r r' : Res α} (h : r.Lang) (h' : r'.Lang) : (if p then r else r').Lang := by
  split <;> assumption

end Res

namespace Val
variable {C : Type}
open Res

/-- Splits and closes the leaves. -/
local macro "lang" : tactic => `(tactic| repeat' first
  | exact Lang.ok | exact Lang.panic | exact Lang.err rfl | (solve_by_elim) | apply Lang.map | split)

theorem wrapI_lang (chk : Bool) (r : Int) : (wrapI chk r : Res (Val C)).Lang := by
  unfold wrapI
  lang

theorem strCat_lang (m : Nat) (a b : List Char) : (strCat m a b : Res (Val C)).Lang := by
  unfold strCat
  lang

theorem strMul_lang (chk : Bool) (m : Nat) (l : List Char) (r : BitVec 64) : (strMul chk m l r : Res (Val C)).Lang := by
  unfold strMul
  dsimp only
  lang

theorem chan4_lang {r g b a : Res (BitVec 8)} (h1 : r.Lang) (h2 : g.Lang) (h3 : b.Lang) (h4 : a.Lang) : (chan4 r g b a : Res (Val C)).Lang :=
  h1.bind fun _ => h2.bind fun _ => h3.bind fun _ => h4.bind fun _ => .ok

theorem chanDiv_lang (a b : BitVec 8) : (chanDiv a b).Lang := by
  unfold chanDiv
  lang

theorem chanAvg_lang (chk : Bool) (a b : BitVec 8) : (chanAvg chk a b).Lang := by
  unfold chanAvg
  lang

theorem extend_lang : ∀ (xs : List (Val C)) (v : Vecc (Val C)), (Vecc.extend Val.getSize v xs).1.Lang
  | [], v => .ok
  | x :: xs, v => by
    unfold Vecc.extend
    dsimp only
    split
    · exact .err rfl
    · exact extend_lang xs _

theorem arrJoin_lang (m : Nat) (l : List (Val C)) (ls lm : Nat) (r : List (Val C)) (rs : Nat) : (arrJoin m l ls lm r rs).Lang := by
  unfold arrJoin
  split
  · exact .err rfl
  · have := extend_lang r (⟨l, ls, lm⟩ : Vecc (Val C))
    generalize Vecc.extend Val.getSize (⟨l, ls, lm⟩ : Vecc (Val C)) r = q at this
    obtain ⟨o, v⟩ := q
    cases o with
    | ok u => exact .ok
    | err e => exact .err (this.of e rfl)
    | panic => exact .panic

theorem compare_lang (cfg : Cfg) (op : String) (ci cf : BitVec 64 → BitVec 64 → Bool) (a b : Val C) : (compare cfg op ci cf a b).Lang := by
  unfold Val.compare
  lang

theorem bitOp_lang (op : String) (f : BitVec 64 → BitVec 64 → BitVec 64) (a b : Val C) : (bitOp op f a b).Lang := by
  unfold bitOp
  lang

theorem shiftOp_lang (chk : Bool) (op : String) (f : BitVec 64 → Nat → BitVec 64) (a b : Val C) : (shiftOp chk op f a b).Lang := by
  unfold shiftOp
  lang

theorem unary_lang (cfg : Cfg) (op : Op) (a : Val C) : (a.unary cfg op).Lang := by
  have hw : ∀ r, (wrapI cfg.chk r : Res (Val C)).Lang := wrapI_lang cfg.chk
  unfold Val.unary Val.lnot Val.negate Val.bnot
  lang

theorem binary_lang (cfg : Cfg) (lim : Limits) (ceq : C → C → Option Bool) (op : Op) (a b : Val C) : (Val.binary cfg lim ceq op a b).Lang := by
  have hw : ∀ r, (wrapI cfg.chk r : Res (Val C)).Lang := wrapI_lang cfg.chk
  have hs : ∀ a b, (strCat lim.strMax a b : Res (Val C)).Lang := strCat_lang lim.strMax
  have hm : ∀ a b, (strMul cfg.chk lim.strMax a b : Res (Val C)).Lang := strMul_lang cfg.chk lim.strMax
  cases op <;> simp only [Val.binary]
  case add => unfold Val.add; lang
  case sub => unfold Val.subtract; lang
  case mul => unfold Val.multiply; lang
  case div =>
    unfold Val.divide
    have h4 : ∀ a b c d a' b' c' d', (chan4 (chanDiv a a') (chanDiv b b') (chanDiv c c') (chanDiv d d') : Res (Val C)).Lang := fun _ _ _ _ _ _ _ _ =>
      chan4_lang (chanDiv_lang _ _) (chanDiv_lang _ _) (chanDiv_lang _ _) (chanDiv_lang _ _)
    lang
  case mod => unfold Val.modulo; lang
  case pow => unfold Val.power; lang
  case eq => unfold Val.equal; lang
  case neq => unfold Val.notEqual; lang
  case lt => exact compare_lang ..
  case gt => exact compare_lang ..
  case lte => exact compare_lang ..
  case gte => exact compare_lang ..
  case and => unfold Val.land; lang
  case or => unfold Val.lor; lang
  case join =>
    unfold Val.join
    have h4 : ∀ a b c d a' b' c' d', (chan4 (chanAvg cfg.chk a a') (chanAvg cfg.chk b b') (chanAvg cfg.chk c c') (chanAvg cfg.chk d d') : Res (Val C)).Lang :=
      fun _ _ _ _ _ _ _ _ => chan4_lang (chanAvg_lang _ _ _) (chanAvg_lang _ _ _) (chanAvg_lang _ _ _) (chanAvg_lang _ _ _)
    split <;> first | exact hs _ _ | exact arrJoin_lang .. | exact h4 .. | exact .err rfl
  case bitAnd => exact bitOp_lang ..
  case bitOr => exact bitOp_lang ..
  case bitXor => exact bitOp_lang ..
  case shl => exact shiftOp_lang ..
  case shr => exact shiftOp_lang ..
  all_goals exact .panic

theorem fixIndex_lang (chk : Bool) (i : BitVec 64) (n : Nat) : (fixIndex chk i n).Lang := by
  unfold fixIndex
  dsimp only
  refine Lang.bind ?_ fun j => ?_
  · lang
  · lang

theorem indexGet_lang (chk : Bool) (v i : Val C) : (indexGet chk v i).Lang := by
  unfold indexGet
  split
  · split <;> first | exact .err rfl | (refine (fixIndex_lang ..).bind fun j => ?_; lang)
  · exact .err rfl

theorem pushAllV_lang : ∀ (xs : List (Val C)) (v : Vecc (Val C)), (pushAllV v xs).Lang
  | [], v => .ok
  | x :: xs, v => by
    unfold pushAllV Vecc.push
    by_cases h : v.size + x.getSize > v.maxSize
    · rw [if_pos h]; exact .err rfl
    · rw [if_neg h]; exact pushAllV_lang xs _

theorem mkArray_lang (lim : Limits) (xs : List (Val C)) : (mkArray lim xs).Lang := (pushAllV_lang xs _).map

theorem mkRange_lang (a b : Val C) : (mkRange a b).Lang := by unfold mkRange; lang

theorem unpack_lang (v : Val C) (n : Nat) : (unpack v n).Lang := by unfold unpack; lang

theorem iterItem_lang (chk : Bool) (v : Val C) (k : Nat) : (iterItem chk v k).Lang := by unfold iterItem; dsimp only; lang

theorem isTruthy_lang (F : FOps) (v : Val C) : (v.isTruthy F).Lang := by unfold Val.isTruthy; lang

end Val

variable {D : Type}

/-- Exit functions raise errors in `Q` only. -/
def ExitsIn (Q : Err → Prop) (σ : SSt D) : Prop := ∀ f ∈ σ.exits, ∀ d e, (f d).1 = .err e → Q e

/-- Builtins raise errors in `Q` only. -/
def BuiltinIn (Q : Err → Prop) (lim : Limits) : Builtin D SClos → Prop
  | .fn f => ∀ d args e, (f d args lim).1 = .err e → Q e
  | .ctx f x => (∀ d args e, (f d args lim).1 = .err e → Q e) ∧ ∀ d e, (x d).1 = .err e → Q e

/-- Raises errors of the language and errors in `Q` only. -/
def EP {α : Type} (Q : Err → Prop) (x : SM D α) : Prop := ∀ σ, ExitsIn Q σ → ExitsIn Q (x σ).2 ∧ ∀ e sp, (x σ).1 = .err e sp → e.language = true ∨ Q e

namespace EP
variable {Q : Err → Prop} {α β : Type}

theorem pure {a : α} : EP Q (Pure.pure a : SM D α) := fun _ hs => ⟨hs, fun _ _ h => by cases h⟩
theorem panic : EP Q (SM.panic : SM D α) := fun _ hs => ⟨hs, fun _ _ h => by cases h⟩
theorem timeout : EP Q (SM.timeout : SM D α) := fun _ hs => ⟨hs, fun _ _ h => by cases h⟩
theorem unspec : EP Q (SM.unspec : SM D α) := fun _ hs => ⟨hs, fun _ _ h => by cases h⟩
theorem incomparable : EP Q (SM.incomparable : SM D α) := fun _ hs => ⟨hs, fun _ _ h => by cases h⟩
theorem ret {v : SVal} : EP Q (SM.ret v : SM D α) := fun _ hs => ⟨hs, fun _ _ h => by cases h⟩
theorem err {e : Err} {sp : Option Span} (h : e.language = true) : EP Q (SM.err e sp : SM D α) :=
  fun _ hs => ⟨hs, fun _ _ h' => by cases h'; exact .inl h⟩
theorem alloc {v : SVal} : EP Q (SM.alloc v : SM D Nat) := fun _ hs => ⟨hs, fun _ _ h => by cases h⟩
theorem load {l : Nat} : EP Q (SM.load l : SM D SVal) := fun _ hs => ⟨hs, fun _ _ h => by cases h⟩
theorem store {l : Nat} {v : SVal} : EP Q (SM.store l v : SM D Unit) := fun _ hs => ⟨hs, fun _ _ h => by cases h⟩
theorem getGlobal {x : String} : EP Q (SM.getGlobal x : SM D (Option SVal)) := fun _ hs => ⟨hs, fun _ _ h => by cases h⟩
theorem defGlobal {x : String} {v : SVal} : EP Q (SM.defGlobal x v : SM D Unit) := fun _ hs => ⟨hs, fun _ _ h => by cases h⟩

theorem bind {x : SM D α} {f : α → SM D β} (hx : EP Q x) (hf : ∀ a, EP Q (f a)) : EP Q (x >>= f) := by
  intro σ hs
  have := hx σ hs
  show ExitsIn Q (SM.bind x f σ).2 ∧ ∀ e sp, (SM.bind x f σ).1 = .err e sp → _
  simp only [SM.bind]
  generalize x σ = r at this
  obtain ⟨o, σ'⟩ := r
  cases o with
  | ok a => exact hf a σ' this.1
  | ret v => exact ⟨this.1, fun _ _ h => by cases h⟩
  | err e sp => exact ⟨this.1, fun _ _ h => by cases h; exact this.2 _ _ rfl⟩
  | panic => exact ⟨this.1, fun _ _ h => by cases h⟩
  | timeout => exact ⟨this.1, fun _ _ h => by cases h⟩
  | deep => exact ⟨this.1, fun _ _ h => by cases h⟩
  | unspec b => exact ⟨this.1, fun _ _ h => by cases h⟩

theorem lift {r : Res α} {sp : Span} (h : r.Lang) : EP Q (SM.lift r sp : SM D α) := by
  cases r with
  | ok a => exact pure
  | err e => exact err (Err.language_of (h.of e rfl))
  | panic => exact panic

theorem host {γ : Type} {f : D → Res γ × D} {sp : Span} (h : ∀ d e, (f d).1 = .err e → Q e) : EP Q (SM.host f sp) := by
  intro σ hs
  have := h σ.data
  simp only [SM.host]
  generalize f σ.data = r at this
  obtain ⟨o, d⟩ := r
  cases o with
  | ok a => exact ⟨hs, fun _ _ h => by cases h⟩
  | err e => exact ⟨hs, fun _ _ h => by cases h; exact .inr (this _ rfl)⟩
  | panic => exact ⟨hs, fun _ _ h => by cases h⟩

theorem pushExit {f : ExitFn D} (h : ∀ d e, (f d).1 = .err e → Q e) : EP Q (SM.pushExit f) := by
  intro σ hs
  refine ⟨fun g hg => ?_, fun _ _ h => by cases h⟩
  rcases List.mem_cons.1 hg with rfl | hg
  · exact h
  · exact hs g hg

theorem popExit {sp : Span} : EP Q (SM.popExit sp : SM D Unit) := by
  intro σ hs
  simp only [SM.popExit]
  split
  · exact ⟨hs, fun _ _ h => by cases h⟩
  · rename_i f fs he
    exact host (hs f (by rw [he]; exact List.mem_cons_self)) { σ with exits := fs } fun g hg => hs g (by rw [he]; exact List.mem_cons_of_mem _ hg)

theorem bindVars : ∀ {bs : List (String × SVal)} {env : SEnv}, EP Q (SM.bindVars bs env : SM D SEnv)
  | [], _ => pure
  | (_, _) :: _, _ => bind alloc fun _ => bindVars

theorem readVar {x : String} {sp : Span} {env : SEnv} : EP Q (Quilt.readVar x sp env : SM D SVal) := by
  unfold Quilt.readVar
  split
  · exact load
  · refine bind getGlobal fun o => ?_
    cases o with
    | some v => exact pure
    | none => exact err rfl

theorem writeVar {x : String} {sp : Span} {env : SEnv} {v : SVal} : EP Q (Quilt.writeVar x sp env v : SM D Unit) := by
  unfold Quilt.writeVar
  split
  · exact store
  · refine bind getGlobal fun o => ?_
    cases o with
    | some _ => exact defGlobal
    | none => exact err rfl

theorem eqVals {F : FOps} {a b : SVal} : EP Q (Quilt.eqVals F a b : SM D Bool) := by
  unfold Quilt.eqVals
  split
  · exact pure
  · exact incomparable

theorem evalBin {S : SHost D} {op : Op} {sp : Span} {a b : SVal} : EP Q (Quilt.evalBin S op sp a b) := by
  unfold Quilt.evalBin
  split
  · exact bind eqVals fun _ => pure
  · exact bind eqVals fun _ => pure
  · exact lift (Val.binary_lang ..)

theorem declVars {v : Var} {sp : Span} {val : SVal} {env : SEnv} : EP Q (Quilt.declVars v sp val env : SM D SEnv) := by
  unfold Quilt.declVars
  split
  · exact bindVars
  · exact bind (lift (Val.unpack_lang ..)) fun _ => bindVars

theorem ctxVars {v : Option Var} {sp : Span} {val : SVal} {env : SEnv} : EP Q (Quilt.ctxVars v sp val env : SM D SEnv) := by
  unfold Quilt.ctxVars
  split
  · exact declVars
  · exact pure

theorem applyVal {call : SClos → List SVal → SM D SVal} (hc : ∀ c args, EP Q (call c args)) {sp : Span} {f : SVal} {args : List SVal} :
    EP Q (Quilt.applyVal call sp f args) := by
  unfold Quilt.applyVal
  split
  · split
    · exact err rfl
    · exact hc _ _
  · exact err rfl

section
variable {S : SHost D} (hS : ∀ x b, S.builtins x = some b → BuiltinIn Q S.lim b)
include hS

theorem callBuiltin {x : String} {sp : Span} {args : List SVal} : EP Q (Quilt.callBuiltin S x sp args) := by
  unfold Quilt.callBuiltin
  split
  · rename_i f hf; exact host fun d e => hS x _ hf d args e
  · exact err rfl
  · exact err rfl

theorem enterCtx {x : String} {sp : Span} {args : List SVal} : EP Q (Quilt.enterCtx S x sp args) := by
  unfold Quilt.enterCtx
  split
  · rename_i f hf; exact host fun d e => hS x _ hf d args e
  · rename_i f x' hf; exact bind (pushExit (hS x _ hf).2) fun _ => host fun d e => (hS x _ hf).1 d args e
  · exact err rfl
end

theorem whileN {S : SHost D} {sp : Span} {c b : SM D SVal} (hc : EP Q c) (hb : EP Q b) : ∀ {W : Nat} {last : SVal}, EP Q (Quilt.whileN S sp c b W last)
  | 0, _ => timeout
  | W + 1, last => by
    unfold Quilt.whileN
    refine bind hc fun v => bind (lift (Val.isTruthy_lang ..)) fun t => ?_
    cases t with
    | true => exact bind hb fun v => whileN hc hb
    | false => exact pure

theorem forN {item : Nat → SM D (Option SVal)} (hi : ∀ k, EP Q (item k)) {b : SVal → SM D SVal} (hb : ∀ v, EP Q (b v)) : ∀ {W k : Nat} {last : SVal},
    EP Q (Quilt.forN item b W k last)
  | 0, _, _ => timeout
  | W + 1, k, last => by
    unfold Quilt.forN
    refine bind (hi k) fun o => ?_
    cases o with
    | some x => exact bind (hb x) fun v => forN hi hb
    | none => exact pure

variable {S : SHost D} (hS : ∀ x b, S.builtins x = some b → BuiltinIn Q S.lim b) {call : SClos → List SVal → SM D SVal} (hc : ∀ c args, EP Q (call c args)) {W : Nat}
include hS hc

mutual
theorem node : ∀ (n : Node) (env : SEnv), EP Q (evalNode S call W n env)
  | .lit _ l, env => by unfold evalNode; exact pure
  | .ident sp x, env => by unfold evalNode; exact readVar
  | .assign _ (x, xsp) e, env => by unfold evalNode; exact bind (node e env) fun v => bind writeVar fun _ => pure
  | .pair _ a b, env => by unfold evalNode; exact bind (node a env) fun _ => bind (node b env) fun _ => pure
  | .range _ a b, env => by unfold evalNode; exact bind (node a env) fun _ => bind (node b env) fun _ => lift (Val.mkRange_lang ..)
  | .array sp items, env => by unfold evalNode; exact bind (rev items env) fun _ => lift (Val.mkArray_lang ..)
  | .index sp e i, env => by unfold evalNode; exact bind (node i env) fun _ => bind (node e env) fun _ => lift (Val.indexGet_lang ..)
  | .un sp op e, env => by unfold evalNode; exact bind (node e env) fun _ => lift (Val.unary_lang ..)
  | .bin sp op a b, env => by unfold evalNode; exact bind (node a env) fun _ => bind (node b env) fun _ => evalBin
  | .block _ body, env => by unfold evalNode; exact stmts body env
  | .cond sp c th el, env => by
    unfold evalNode
    refine bind (node c env) fun v => bind (lift (Val.isTruthy_lang ..)) fun t => ?_
    cases t with
    | true => exact stmts th env
    | false => exact opt el env
  | .switch _ v cs d, env => by unfold evalNode; exact bind (node v env) fun v => cases cs v env (opt d env)
  | .while sp c body, env => by unfold evalNode; exact whileN (node c env) (stmts body env)
  | .forIn sp x it body, env => by
    unfold evalNode
    exact bind (node it env) fun v => forN (fun k => lift (Val.iterItem_lang ..)) (fun i => bind bindVars fun env' => stmts body env')
  | .forMulti sp xs it body, env => by
    unfold evalNode
    exact bind (node it env) fun v => forN (fun k => lift (Val.iterItem_lang ..)) (fun i => bind declVars fun env' => stmts body env')
  | .lambda sp ps body, env => by unfold evalNode; exact pure
  | .call sp f as, env => by unfold evalNode; exact bind (node f env) fun _ => bind (args as env) fun _ => applyVal hc
  | .builtin _ x as, env => by unfold evalNode; exact bind (args as env) fun _ => callBuiltin hS
  | .ctx sp x as v body, env => by
    unfold evalNode
    exact bind (args as env) fun _ => bind (enterCtx hS) fun r => bind ctxVars fun env' => bind (stmts body env') fun res => bind popExit fun _ => pure
  | .decl .., env | .extern .., env | .func .., env | .include .., env | .ret .., env => by unfold evalNode; exact unspec
termination_by structural n => n
theorem stmt : ∀ (n : Node) (env : SEnv), EP Q (evalStmt S call W n env)
  | .decl sp v e, env => by unfold evalStmt; exact bind (node e env) fun _ => declVars
  | .func _ name params body, env => by unfold evalStmt; exact bindVars
  | .ret _ e, env => by unfold evalStmt; exact bind (retE e env) fun v => ret
  | .extern .., env | .include .., env
  | .lit .., env | .ident .., env | .assign .., env | .pair .., env | .range .., env | .array .., env
  | .index .., env | .un .., env | .bin .., env | .block .., env | .cond .., env | .switch .., env
  | .while .., env | .forIn .., env | .forMulti .., env | .lambda .., env | .call .., env | .builtin .., env
  | .ctx .., env => by unfold evalStmt; exact unspec
termination_by structural n => n
theorem stmts : ∀ (ns : List Node) (env : SEnv), EP Q (evalStmts S call W ns env)
  | [], env => by unfold evalStmts; exact unspec
  | [n], env => by
    unfold evalStmts
    split
    · exact bind (stmt n env) fun _ => unspec
    · exact node n env
  | n :: n' :: ns, env => by
    unfold evalStmts
    split
    · exact bind (stmt n env) fun env' => stmts (n' :: ns) env'
    · exact bind (node n env) fun _ => stmts (n' :: ns) env
termination_by structural n => n
theorem args : ∀ (ns : List Node) (env : SEnv), EP Q (evalArgs S call W ns env)
  | [], env => by unfold evalArgs; exact pure
  | n :: ns, env => by unfold evalArgs; exact bind (node n env) fun _ => bind (args ns env) fun _ => pure
termination_by structural n => n
theorem rev : ∀ (ns : List Node) (env : SEnv), EP Q (evalRev S call W ns env)
  | [], env => by unfold evalRev; exact pure
  | n :: ns, env => by unfold evalRev; exact bind (rev ns env) fun _ => bind (node n env) fun _ => pure
termination_by structural n => n
theorem opt : ∀ (o : Option (List Node)) (env : SEnv), EP Q (evalOpt S call W o env)
  | some body, env => by unfold evalOpt; exact stmts body env
  | none, env => by unfold evalOpt; exact pure
termination_by structural n => n
theorem retE : ∀ (o : Option Node) (env : SEnv), EP Q (evalRet S call W o env)
  | some e, env => by unfold evalRet; exact node e env
  | none, env => by unfold evalRet; exact pure
termination_by structural n => n
theorem cases : ∀ (cs : List (Node × List Node)) (v : SVal) (env : SEnv) {d : SM D SVal}, EP Q d → EP Q (evalCases S call W cs v env d)
  | [], v, env, d, hd => by unfold evalCases; exact hd
  | (c, body) :: cs, v, env, d, hd => by
    unfold evalCases
    refine bind (node c env) fun cv => bind eqVals fun t => ?_
    cases t with
    | true => exact stmts body env
    | false => exact cases cs v env hd
termination_by structural cs => cs
end

omit hc in
theorem callN_step {n : Nat} (ih : ∀ c args, EP Q (Quilt.callN S W n c args)) (c : SClos) (as : List SVal) : EP Q (Quilt.callN S W (n + 1) c as) := by
  intro σ hs
  simp only [Quilt.callN]
  have h1 := EP.bind (EP.bindVars (D := D) (Q := Q) (bs := callScope c as) (env := c.env)) fun env => EP.stmts hS ih (W := W) c.body env
  have h2 := h1 { σ with data := S.onEnter σ.data } hs
  generalize (SM.bindVars (callScope c as) c.env >>= fun env => evalStmts S (Quilt.callN S W n) W c.body env) { σ with data := S.onEnter σ.data } = r at h2
  obtain ⟨o, σ'⟩ := r
  cases o with
  | err e sp => exact h2
  | _ => exact ⟨h2.1, fun _ _ h => by cases h⟩

omit hc in
theorem callN : ∀ (n : Nat) (c : SClos) (args : List SVal), EP Q (Quilt.callN S W n c args)
  | 0, _, _ => timeout
  | n + 1, c, args => callN_step hS (callN n) c args

omit hS hc in
theorem defGlobals : ∀ {bs : List (String × SVal)}, EP Q (Quilt.defGlobals bs : SM D Unit)
  | [] => pure
  | (_, _) :: _ => bind defGlobal fun _ => defGlobals

mutual
theorem topStmt : ∀ n : Node, EP Q (evalTopStmt S call W n)
  | .decl sp v e => by
    unfold evalTopStmt
    refine bind (node hS hc e []) fun val => ?_
    cases v with
    | one x => exact defGlobal
    | many xs => exact bind (lift (Val.unpack_lang ..)) fun vs => defGlobals
  | .func _ _ _ b => by unfold evalTopStmt; exact defGlobal
  | .extern _ x e => by
    unfold evalTopStmt
    refine bind (node hS hc e []) fun val => bind getGlobal fun o => ?_
    cases o with
    | some _ => exact pure
    | none => exact defGlobal
  | .include _ _ body => by unfold evalTopStmt; exact topIncl body
  | .ret ..
  | .lit .. | .ident .. | .assign .. | .pair .. | .range .. | .array .. | .index .. | .un ..
  | .bin .. | .block .. | .cond .. | .switch .. | .while .. | .forIn .. | .forMulti ..
  | .lambda .. | .call .. | .builtin .. | .ctx .. => by unfold evalTopStmt; exact unspec
termination_by structural n => n
theorem topEach : ∀ ns : List Node, EP Q (evalEach S call W ns)
  | [] => by unfold evalEach; exact pure
  | n :: ns => by
    unfold evalEach
    split
    · exact bind (topStmt n) fun _ => topEach ns
    · exact bind (node hS hc n []) fun _ => topEach ns
termination_by structural n => n
theorem topIncl : ∀ o : Option (List Node), EP Q (evalIncl S call W o)
  | some b => by unfold evalIncl; exact topEach b
  | none => by unfold evalIncl; exact unspec
termination_by structural n => n
end

theorem top : ∀ ns : List Node, EP Q (evalTop S call W ns)
  | [] => by unfold evalTop; exact unspec
  | [n] => by
    unfold evalTop
    split
    · exact bind (topStmt hS hc n) fun _ => unspec
    · exact node hS hc n []
  | n :: n' :: ns => by
    unfold evalTop
    split
    · exact bind (topStmt hS hc n) fun _ => top (n' :: ns)
    · exact bind (node hS hc n []) fun _ => top (n' :: ns)

end EP

/-- Programs raise errors of the language and of builtins only. -/
theorem evalProgram_errors {Q : Err → Prop} {S : SHost D} (hS : ∀ x b, S.builtins x = some b → BuiltinIn Q S.lim b) (k : Nat) (ast : List Node) {σ : SSt D}
    (hs : ExitsIn Q σ) {e : Err} {sp : Option Span} (h : (evalProgram S k ast σ).1 = .err e sp) : e.language = true ∨ Q e :=
  (EP.top hS (EP.callN hS k) ast σ hs).2 e sp h

end Quilt
