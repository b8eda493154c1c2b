import Verif.Sem.SimCall

/-!
# Compiled code simulates the direct semantics: all constructs
-/

namespace Quilt

variable {D : Type}

section
variable {H : Host D} {S : SHost D} {call : SClos → List SVal → SM D SVal} {W : Nat} {B : Bd}

theorem SM.bind_ok {α β : Type} {x : SM D α} {f : α → SM D β} {σ σ' : SSt D} {b : β} (h : (x >>= f) σ = (.ok b, σ')) :
    ∃ a σ1, x σ = (.ok a, σ1) ∧ f a σ1 = (.ok b, σ') := by
  change SM.bind x f σ = _ at h
  unfold SM.bind at h
  cases hx : x σ with
  | mk o σ1 => cases o <;> rw [hx] at h <;> simp at h; exact ⟨_, _, rfl, h⟩

theorem evalArgs_length : ∀ (args : List Node) (env : SEnv) (σ σ' : SSt D) (vs : List SVal),
    evalArgs S call W args env σ = (.ok vs, σ') → vs.length = args.length
  | [], env, σ, σ', vs, h => by
    simp only [evalArgs] at h
    cases h; rfl
  | n :: ns, env, σ, σ', vs, h => by
    simp only [evalArgs] at h
    obtain ⟨v, σ1, _, h⟩ := SM.bind_ok h
    obtain ⟨ws, σ2, h2, h⟩ := SM.bind_ok h
    cases h
    simp [evalArgs_length ns _ _ _ _ h2]

theorem evalRev_length : ∀ (args : List Node) (env : SEnv) (σ σ' : SSt D) (vs : List SVal),
    evalRev S call W args env σ = (.ok vs, σ') → vs.length = args.length
  | [], env, σ, σ', vs, h => by
    simp only [evalRev] at h
    cases h; rfl
  | n :: ns, env, σ, σ', vs, h => by
    simp only [evalRev] at h
    obtain ⟨ws, σ2, h2, h⟩ := SM.bind_ok h
    obtain ⟨v, σ1, _, h⟩ := SM.bind_ok h
    cases h
    simp [evalRev_length ns _ _ _ _ h2]

theorem SimE.unspec {n : Node} (h : ∀ env σ, evalNode S call W n env σ = (.unspec false, σ)) : SimE H S call W B n := by
  intro al A K γ slots g g' env σ s c hg hw hbd hc hst hal
  rw [h]; trivial

theorem SimD.unspec {n : Node} (h : ∀ env σ, evalStmt S call W n env σ = (.unspec false, σ)) : SimD H S call W B n := by
  intro al A K γ slots g g' env σ s c hg hw hd hbd hc hst hal
  rw [h]; trivial

mutual
theorem sim_node (hH : HRel H S) (hcall : CallOk H call B) (hBW : B.steps ≤ W) : ∀ n : Node, SimE H S call W B n
  | .lit sp l => sim_lit hH sp l
  | .ident sp x => sim_ident hH sp x
  | .assign sp x e => sim_assign hH sp x e (sim_node hH hcall hBW e)
  | .pair sp a b => sim_pair sp a b (sim_node hH hcall hBW a) (sim_node hH hcall hBW b)
  | .range sp a b => sim_range hH sp a b (sim_node hH hcall hBW a) (sim_node hH hcall hBW b)
  | .bin sp op a b => sim_bin hH sp op a b (sim_node hH hcall hBW a) (sim_node hH hcall hBW b)
  | .index sp e i => sim_index hH sp e i (sim_node hH hcall hBW e) (sim_node hH hcall hBW i)
  | .array sp items => sim_array hH sp items (sim_revs hH hcall hBW items) (evalRev_length items)
  | .un sp op e => sim_un hH sp op e (sim_node hH hcall hBW e)
  | .block sp body => sim_block hH sp body (sim_stmts hH hcall hBW body)
  | .cond sp c th el => sim_cond hH sp c th el (sim_node hH hcall hBW c) (sim_stmts hH hcall hBW th) (sim_elses hH hcall hBW el)
  | .switch sp v cs d => sim_switch hH sp v cs d (sim_node hH hcall hBW v) (sim_casess hH hcall hBW cs) (sim_elses hH hcall hBW d)
  | .while sp c b => sim_while hH hBW sp c b (sim_node hH hcall hBW c) (sim_stmts hH hcall hBW b)
  | .forIn sp x it b => sim_forIn hH hBW sp x it b (sim_node hH hcall hBW it) (sim_stmts hH hcall hBW b)
  | .forMulti sp xs it b => sim_forMulti hH hBW sp xs it b (sim_node hH hcall hBW it) (sim_stmts hH hcall hBW b)
  | .lambda sp ps b => sim_lambda hH sp ps b
  | .call sp f args => sim_call hH hcall sp f args (sim_node hH hcall hBW f) (sim_argss hH hcall hBW args) (evalArgs_length args)
  | .builtin sp x args => sim_builtin hH sp x args (sim_argss hH hcall hBW args) (evalArgs_length args)
  | .ctx sp x args v b => sim_ctx hH sp x args v b (sim_argss hH hcall hBW args) (sim_stmts hH hcall hBW b) (evalArgs_length args)
  | .decl .. => SimE.unspec fun _ _ => by simp only [evalNode]; rfl
  | .func .. => SimE.unspec fun _ _ => by simp only [evalNode]; rfl
  | .ret .. => SimE.unspec fun _ _ => by simp only [evalNode]; rfl
  | .extern .. => SimE.unspec fun _ _ => by simp only [evalNode]; rfl
  | .include .. => SimE.unspec fun _ _ => by simp only [evalNode]; rfl
termination_by structural n => n
theorem sim_stmt (hH : HRel H S) (hcall : CallOk H call B) (hBW : B.steps ≤ W) : ∀ n : Node, SimD H S call W B n
  | .decl sp v e => sim_decl hH sp v e (sim_node hH hcall hBW e)
  | .func sp n ps b => sim_funcDecl hH sp n ps b
  | .ret sp e => sim_ret sp e (sim_opts hH hcall hBW e)
  | .lit .. | .ident .. | .assign .. | .pair .. | .range .. | .bin .. | .index .. | .array .. | .un .. | .block .. | .cond .. | .switch ..
  | .while .. | .forIn .. | .forMulti .. | .lambda .. | .call .. | .builtin .. | .ctx .. | .extern .. | .include .. =>
    SimD.unspec fun _ _ => by simp only [evalStmt]; rfl
termination_by structural n => n
theorem sim_stmts (hH : HRel H S) (hcall : CallOk H call B) (hBW : B.steps ≤ W) : ∀ ns : List Node, SimS H S call W B ns
  | [] => by
    intro al A K γ slots g g' env σ s c sp0 hg hw
    simp [wfStmts] at hw
  | [n] => sim_stmts_one n (sim_node hH hcall hBW n) (sim_stmt hH hcall hBW n)
  | n :: n' :: ns => sim_stmts_cons n n' ns (sim_node hH hcall hBW n) (sim_stmt hH hcall hBW n) (sim_stmts hH hcall hBW (n' :: ns))
termination_by structural ns => ns
theorem sim_argss (hH : HRel H S) (hcall : CallOk H call B) (hBW : B.steps ≤ W) : ∀ ns : List Node, SimArgs H S call W B ns
  | [] => sim_args_nil
  | n :: ns => sim_args_cons n ns (sim_node hH hcall hBW n) (sim_argss hH hcall hBW ns)
termination_by structural ns => ns
theorem sim_revs (hH : HRel H S) (hcall : CallOk H call B) (hBW : B.steps ≤ W) : ∀ ns : List Node, SimRev H S call W B ns
  | [] => sim_rev_nil
  | n :: ns => sim_rev_cons n ns (sim_node hH hcall hBW n) (sim_revs hH hcall hBW ns) (evalRev_length ns)
termination_by structural ns => ns
theorem sim_elses (hH : HRel H S) (hcall : CallOk H call B) (hBW : B.steps ≤ W) : ∀ el : Option (List Node), SimElse H S call W B el
  | none => sim_else_none
  | some b => sim_else_some hH (sim_stmts hH hcall hBW b)
termination_by structural el => el
theorem sim_opts (hH : HRel H S) (hcall : CallOk H call B) (hBW : B.steps ≤ W) : ∀ e : Option Node, SimO H S call W B e
  | none => sim_opt_none hH
  | some e => sim_opt_some (sim_node hH hcall hBW e)
termination_by structural e => e
theorem sim_casess (hH : HRel H S) (hcall : CallOk H call B) (hBW : B.steps ≤ W) : ∀ cs : List (Node × List Node), SimCases H S call W B cs
  | [] => sim_cases_nil
  | (n, b) :: cs => sim_cases_cons hH n b cs (sim_node hH hcall hBW n) (sim_stmts hH hcall hBW b) (sim_casess hH hcall hBW cs)
termination_by structural cs => cs
end

/-- Calls nested at most `n` deep are executed as prescribed. -/
theorem callN_ok (hH : HRel H S) (n : Nat) (hB : B.steps ≤ n + 1) (hBW : B.steps ≤ W + 1) : CallOk H (callN S W n) B :=
  sim_callN hH (fun _ _ hcall hBW => sim_stmts hH hcall hBW) n B hB hBW

end

end Quilt
