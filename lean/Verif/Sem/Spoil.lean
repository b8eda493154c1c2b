import Verif.Sem.Source

/-!
# Hosts of the direct semantics whose builtins differ

A program does the same with a host where some builtins are replaced by ones that fail with a given error, unless it fails with this error. Used for C91.
-/

namespace Quilt

variable {D : Type}

/-- `x` fails with `e`, or does the same as `y`. -/
def SM.Spoilt {α : Type} (e : Err) (x y : SM D α) : Prop := ∀ σ, (∃ sp, (x σ).1 = .err e sp) ∨ x σ = y σ

namespace SM.Spoilt
variable {e : Err} {α β : Type}

theorem rfl {x : SM D α} : x.Spoilt e x := fun _ => .inr (Eq.refl _)

theorem bind {x y : SM D α} {f g : α → SM D β} (h : x.Spoilt e y) (hf : ∀ a, (f a).Spoilt e (g a)) : (x >>= f).Spoilt e (y >>= g) := by
  intro σ
  show (∃ sp, (SM.bind x f σ).1 = .err e sp) ∨ SM.bind x f σ = SM.bind y g σ
  unfold SM.bind
  rcases h σ with ⟨sp, h1⟩ | h1
  · left
    refine ⟨sp, ?_⟩
    generalize x σ = r at h1
    obtain ⟨o, σ'⟩ := r
    simp only at h1; subst h1; exact Eq.refl _
  · rw [← h1]
    generalize x σ = r
    obtain ⟨o, σ'⟩ := r
    cases o with
    | ok a => exact hf a σ'
    | _ => exact .inr (Eq.refl _)

theorem ite {c : Prop} [Decidable c] {x y x' y' : SM D α} (h : x.Spoilt e x') (h' : y.Spoilt e y') : (if c then x else y).Spoilt e (if c then x' else y') := by
  split
  · exact h
  · exact h'

end SM.Spoilt

variable {e : Err} {T : SHost D} {B : String → Option (Builtin D SClos)}

/-- Each builtin always fails with `e`, or is the same. -/
def SHost.Spoilt (e : Err) (T : SHost D) (B : String → Option (Builtin D SClos)) : Prop := ∀ x, T.builtins x = some (.fn fun d _ _ => (.err e, d)) ∨ T.builtins x = B x

theorem callBuiltin_spoilt (hB : T.Spoilt e B) (x : String) (sp : Span) (args : List SVal) : (callBuiltin T x sp args).Spoilt e (callBuiltin { T with builtins := B } x sp args) := by
  intro σ
  unfold callBuiltin
  rcases hB x with h | h
  · rw [h]; exact .inl ⟨_, rfl⟩
  · rw [h]; exact .inr rfl

theorem enterCtx_spoilt (hB : T.Spoilt e B) (x : String) (sp : Span) (args : List SVal) : (enterCtx T x sp args).Spoilt e (enterCtx { T with builtins := B } x sp args) := by
  intro σ
  unfold enterCtx
  rcases hB x with h | h
  · rw [h]; exact .inl ⟨_, rfl⟩
  · rw [h]; exact .inr rfl

theorem whileN_spoilt {c c' b b' : SM D SVal} (sp : Span) (hc : c.Spoilt e c') (hb : b.Spoilt e b') : ∀ W v, (whileN T sp c b W v).Spoilt e (whileN { T with builtins := B } sp c' b' W v)
  | 0, _ => .rfl
  | W + 1, v => by
    unfold whileN
    refine hc.bind fun a => SM.Spoilt.bind .rfl fun t => ?_
    exact .ite (hb.bind fun v => whileN_spoilt sp hc hb W v) .rfl

theorem forN_spoilt {b b' : SVal → SM D SVal} (item : Nat → SM D (Option SVal)) (hb : ∀ v, (b v).Spoilt e (b' v)) : ∀ W k v, (forN item b W k v).Spoilt e (forN item b' W k v)
  | 0, _, _ => .rfl
  | W + 1, k, v => by
    unfold forN
    refine SM.Spoilt.bind .rfl fun t => ?_
    cases t with
    | none => exact .rfl
    | some x => exact (hb x).bind fun v => forN_spoilt item hb W _ v

theorem applyVal_spoilt {call call' : SClos → List SVal → SM D SVal} (hc : ∀ c args, (call c args).Spoilt e (call' c args)) (sp : Span) (f : SVal) (args : List SVal) :
    (applyVal call sp f args).Spoilt e (applyVal call' sp f args) := by
  unfold applyVal
  split
  · exact .ite .rfl (hc _ _)
  · exact .rfl

section
variable {call call' : SClos → List SVal → SM D SVal} {W : Nat}

mutual
theorem evalNode_spoilt (hB : T.Spoilt e B) (hc : ∀ c args, (call c args).Spoilt e (call' c args)) :
    ∀ (n : Node) (env : SEnv), (evalNode T call W n env).Spoilt e (evalNode { T with builtins := B } call' W n env)
  | .lit .., _ | .ident .., _ | .lambda .., _ | .decl .., _ | .extern .., _ | .func .., _ | .include .., _ | .ret .., _ => by simp only [evalNode]; exact .rfl
  | .assign _ (_, _) x, env => by simp only [evalNode]; exact (evalNode_spoilt hB hc x env).bind fun _ => .rfl
  | .pair _ a b, env => by simp only [evalNode]; exact (evalNode_spoilt hB hc a env).bind fun _ => (evalNode_spoilt hB hc b env).bind fun _ => .rfl
  | .range _ a b, env => by simp only [evalNode]; exact (evalNode_spoilt hB hc a env).bind fun _ => (evalNode_spoilt hB hc b env).bind fun _ => .rfl
  | .array _ items, env => by simp only [evalNode]; exact (evalRev_spoilt hB hc items env).bind fun _ => .rfl
  | .index _ a i, env => by simp only [evalNode]; exact (evalNode_spoilt hB hc i env).bind fun _ => (evalNode_spoilt hB hc a env).bind fun _ => .rfl
  | .un _ _ a, env => by simp only [evalNode]; exact (evalNode_spoilt hB hc a env).bind fun _ => .rfl
  | .bin _ op a b, env => by simp only [evalNode]; exact (evalNode_spoilt hB hc a env).bind fun _ => (evalNode_spoilt hB hc b env).bind fun _ => .rfl
  | .block _ body, env => by simp only [evalNode]; exact evalStmts_spoilt hB hc body env
  | .cond _ c th el, env => by
    simp only [evalNode]
    exact (evalNode_spoilt hB hc c env).bind fun _ => SM.Spoilt.bind .rfl fun _ => .ite (evalStmts_spoilt hB hc th env) (evalOpt_spoilt hB hc el env)
  | .switch _ v cases dflt, env => by
    simp only [evalNode]
    exact (evalNode_spoilt hB hc v env).bind fun v => evalCases_spoilt hB hc cases v env (evalOpt_spoilt hB hc dflt env)
  | .while _ c body, env => by simp only [evalNode]; exact whileN_spoilt _ (evalNode_spoilt hB hc c env) (evalStmts_spoilt hB hc body env) _ _
  | .forIn _ _ it body, env => by
    simp only [evalNode]
    exact (evalNode_spoilt hB hc it env).bind fun _ => forN_spoilt _ (fun _ => SM.Spoilt.bind .rfl fun env' => evalStmts_spoilt hB hc body env') _ _ _
  | .forMulti _ _ it body, env => by
    simp only [evalNode]
    exact (evalNode_spoilt hB hc it env).bind fun _ => forN_spoilt _ (fun _ => SM.Spoilt.bind .rfl fun env' => evalStmts_spoilt hB hc body env') _ _ _
  | .call _ f args, env => by
    simp only [evalNode]
    exact (evalNode_spoilt hB hc f env).bind fun _ => (evalArgs_spoilt hB hc args env).bind fun _ => applyVal_spoilt hc _ _ _
  | .builtin _ _ args, env => by simp only [evalNode]; exact (evalArgs_spoilt hB hc args env).bind fun _ => callBuiltin_spoilt hB _ _ _
  | .ctx _ _ args _ body, env => by
    simp only [evalNode]
    exact (evalArgs_spoilt hB hc args env).bind fun _ => (enterCtx_spoilt hB _ _ _).bind fun _ => SM.Spoilt.bind .rfl fun env' =>
      (evalStmts_spoilt hB hc body env').bind fun _ => .rfl
termination_by structural n => n
theorem evalStmt_spoilt (hB : T.Spoilt e B) (hc : ∀ c args, (call c args).Spoilt e (call' c args)) :
    ∀ (n : Node) (env : SEnv), (evalStmt T call W n env).Spoilt e (evalStmt { T with builtins := B } call' W n env)
  | .decl _ _ x, env => by simp only [evalStmt]; exact (evalNode_spoilt hB hc x env).bind fun _ => .rfl
  | .ret _ x, env => by simp only [evalStmt]; exact (evalRet_spoilt hB hc x env).bind fun _ => .rfl
  | .func .., _ | .lit .., _ | .ident .., _ | .lambda .., _ | .extern .., _ | .include .., _ | .assign .., _ | .pair .., _ | .range .., _ | .array .., _ | .index .., _ | .un .., _
  | .bin .., _ | .block .., _ | .cond .., _ | .switch .., _ | .while .., _ | .forIn .., _ | .forMulti .., _ | .call .., _ | .builtin .., _ | .ctx .., _ => by
    simp only [evalStmt]; exact .rfl
termination_by structural n => n
theorem evalStmts_spoilt (hB : T.Spoilt e B) (hc : ∀ c args, (call c args).Spoilt e (call' c args)) :
    ∀ (ns : List Node) (env : SEnv), (evalStmts T call W ns env).Spoilt e (evalStmts { T with builtins := B } call' W ns env)
  | [], _ => by simp only [evalStmts]; exact .rfl
  | [n], env => by
    simp only [evalStmts]
    exact .ite ((evalStmt_spoilt hB hc n env).bind fun _ => .rfl) (evalNode_spoilt hB hc n env)
  | n :: n' :: ns, env => by
    simp only [evalStmts]
    exact .ite ((evalStmt_spoilt hB hc n env).bind fun env' => evalStmts_spoilt hB hc (n' :: ns) env') ((evalNode_spoilt hB hc n env).bind fun _ => evalStmts_spoilt hB hc (n' :: ns) env)
termination_by structural n => n
theorem evalArgs_spoilt (hB : T.Spoilt e B) (hc : ∀ c args, (call c args).Spoilt e (call' c args)) :
    ∀ (ns : List Node) (env : SEnv), (evalArgs T call W ns env).Spoilt e (evalArgs { T with builtins := B } call' W ns env)
  | [], _ => by simp only [evalArgs]; exact .rfl
  | n :: ns, env => by simp only [evalArgs]; exact (evalNode_spoilt hB hc n env).bind fun _ => (evalArgs_spoilt hB hc ns env).bind fun _ => .rfl
termination_by structural n => n
theorem evalRev_spoilt (hB : T.Spoilt e B) (hc : ∀ c args, (call c args).Spoilt e (call' c args)) :
    ∀ (ns : List Node) (env : SEnv), (evalRev T call W ns env).Spoilt e (evalRev { T with builtins := B } call' W ns env)
  | [], _ => by simp only [evalRev]; exact .rfl
  | n :: ns, env => by simp only [evalRev]; exact (evalRev_spoilt hB hc ns env).bind fun _ => (evalNode_spoilt hB hc n env).bind fun _ => .rfl
termination_by structural n => n
theorem evalOpt_spoilt (hB : T.Spoilt e B) (hc : ∀ c args, (call c args).Spoilt e (call' c args)) :
    ∀ (o : Option (List Node)) (env : SEnv), (evalOpt T call W o env).Spoilt e (evalOpt { T with builtins := B } call' W o env)
  | none, _ => by simp only [evalOpt]; exact .rfl
  | some b, env => by simp only [evalOpt]; exact evalStmts_spoilt hB hc b env
termination_by structural n => n
theorem evalRet_spoilt (hB : T.Spoilt e B) (hc : ∀ c args, (call c args).Spoilt e (call' c args)) :
    ∀ (o : Option Node) (env : SEnv), (evalRet T call W o env).Spoilt e (evalRet { T with builtins := B } call' W o env)
  | none, _ => by simp only [evalRet]; exact .rfl
  | some n, env => by simp only [evalRet]; exact evalNode_spoilt hB hc n env
termination_by structural n => n
theorem evalCases_spoilt (hB : T.Spoilt e B) (hc : ∀ c args, (call c args).Spoilt e (call' c args)) :
    ∀ (cs : List (Node × List Node)) (v : SVal) (env : SEnv) {d d' : SM D SVal}, d.Spoilt e d' → (evalCases T call W cs v env d).Spoilt e (evalCases { T with builtins := B } call' W cs v env d')
  | [], _, _, _, _, hd => by simp only [evalCases]; exact hd
  | (c, body) :: cs, v, env, _, _, hd => by
    simp only [evalCases]
    exact (evalNode_spoilt hB hc c env).bind fun _ => SM.Spoilt.bind .rfl fun _ => .ite (evalStmts_spoilt hB hc body env) (evalCases_spoilt hB hc cs v env hd)
termination_by structural n => n
end

mutual
theorem evalTopStmt_spoilt (hB : T.Spoilt e B) (hc : ∀ c args, (call c args).Spoilt e (call' c args)) :
    ∀ n : Node, (evalTopStmt T call W n).Spoilt e (evalTopStmt { T with builtins := B } call' W n)
  | .decl _ (.one _) x => by simp only [evalTopStmt]; exact (evalNode_spoilt hB hc x []).bind fun _ => .rfl
  | .decl _ (.many _) x => by simp only [evalTopStmt]; exact (evalNode_spoilt hB hc x []).bind fun _ => .rfl
  | .extern _ _ x => by simp only [evalTopStmt]; exact (evalNode_spoilt hB hc x []).bind fun _ => .rfl
  | .include _ _ b => by simp only [evalTopStmt]; exact evalIncl_spoilt hB hc b
  | .func .. | .lit .. | .ident .. | .lambda .. | .ret .. | .assign .. | .pair .. | .range .. | .array .. | .index .. | .un ..
  | .bin .. | .block .. | .cond .. | .switch .. | .while .. | .forIn .. | .forMulti .. | .call .. | .builtin .. | .ctx .. => by
    simp only [evalTopStmt]; exact .rfl
termination_by structural n => n
theorem evalEach_spoilt (hB : T.Spoilt e B) (hc : ∀ c args, (call c args).Spoilt e (call' c args)) :
    ∀ ns : List Node, (evalEach T call W ns).Spoilt e (evalEach { T with builtins := B } call' W ns)
  | [] => by simp only [evalEach]; exact .rfl
  | n :: ns => by
    simp only [evalEach]
    exact .ite ((evalTopStmt_spoilt hB hc n).bind fun _ => evalEach_spoilt hB hc ns) ((evalNode_spoilt hB hc n []).bind fun _ => evalEach_spoilt hB hc ns)
termination_by structural n => n
theorem evalIncl_spoilt (hB : T.Spoilt e B) (hc : ∀ c args, (call c args).Spoilt e (call' c args)) :
    ∀ o : Option (List Node), (evalIncl T call W o).Spoilt e (evalIncl { T with builtins := B } call' W o)
  | none => by simp only [evalIncl]; exact .rfl
  | some b => by simp only [evalIncl]; exact evalEach_spoilt hB hc b
termination_by structural n => n
end

theorem evalTop_spoilt (hB : T.Spoilt e B) (hc : ∀ c args, (call c args).Spoilt e (call' c args)) :
    ∀ ns : List Node, (evalTop T call W ns).Spoilt e (evalTop { T with builtins := B } call' W ns)
  | [] => by simp only [evalTop]; exact .rfl
  | [n] => by
    simp only [evalTop]
    exact .ite ((evalTopStmt_spoilt hB hc n).bind fun _ => .rfl) (evalNode_spoilt hB hc n [])
  | n :: n' :: ns => by
    simp only [evalTop]
    exact .ite ((evalTopStmt_spoilt hB hc n).bind fun _ => evalTop_spoilt hB hc (n' :: ns)) ((evalNode_spoilt hB hc n []).bind fun _ => evalTop_spoilt hB hc (n' :: ns))

end

theorem callN_spoilt (hB : T.Spoilt e B) (W : Nat) : ∀ (n : Nat) (c : SClos) (args : List SVal), (callN T W n c args).Spoilt e (callN { T with builtins := B } W n c args)
  | 0, _, _ => .rfl
  | n + 1, c, args => by
    intro σ
    have h : (do
        let env ← SM.bindVars (callScope c args) c.env
        evalStmts T (callN T W n) W c.body env).Spoilt e (do
        let env ← SM.bindVars (callScope c args) c.env
        evalStmts { T with builtins := B } (callN { T with builtins := B } W n) W c.body env) :=
      SM.Spoilt.bind .rfl fun env => evalStmts_spoilt hB (callN_spoilt hB W n) c.body env
    have h := h { σ with data := T.onEnter σ.data }
    unfold callN
    rcases h with ⟨sp, h⟩ | h
    · left
      refine ⟨sp, ?_⟩
      split <;> simp_all
    · right
      rw [h]

/-- Programs. -/
theorem evalProgram_spoilt (hB : T.Spoilt e B) (k : Nat) (ast : List Node) : (evalProgram T k ast).Spoilt e (evalProgram { T with builtins := B } k ast) :=
  evalTop_spoilt hB (callN_spoilt hB k k) ast

end Quilt
