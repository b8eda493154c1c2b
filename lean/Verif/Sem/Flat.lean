import Verif.Sem.Ends

/-!
# Programs without recursion

Calls go to functions by their names only, and names are ranked: a function calls functions of lower rank. Then calls are nested no deeper than the ranks are high.
-/

set_option linter.unusedSectionVars false

namespace Quilt

/-- The name is not the name of a ranked function. -/
def spare (ρ : String → Option Nat) (x : String) : Bool := (ρ x).isNone

/-- Names that a declaration binds. -/
def Var.spare (ρ : String → Option Nat) : Var → Bool
  | .one x => Quilt.spare ρ x.1
  | .many xs => xs.all fun x => Quilt.spare ρ x.1

/-- The callee is a name of a rank below `d`. -/
def Node.ranksBelow (ρ : String → Option Nat) (d : Nat) : Node → Bool
  | .ident _ x => match ρ x with
    | some r => decide (r < d)
    | none => false
  | _ => false

mutual
/-- Below the top level of a program: calls go to names of a rank below `d`; no ranked name is declared or assigned. Functions that are declared here, and lambdas,
have no rank: they are values only and are not called. -/
def Node.ranked (ρ : String → Option Nat) (d : Nat) : Node → Bool
  | .lit .. | .ident .. | .lambda .. => true
  | .assign _ x e => spare ρ x.1 && e.ranked ρ d
  | .un _ _ e => e.ranked ρ d
  | .decl _ v e => v.spare ρ && e.ranked ρ d
  | .pair _ a b | .range _ a b | .bin _ _ a b => a.ranked ρ d && b.ranked ρ d
  | .index _ e i => e.ranked ρ d && i.ranked ρ d
  | .array _ items => rankedL ρ d items
  | .block _ body => rankedL ρ d body
  | .cond _ c th el => c.ranked ρ d && rankedL ρ d th && rankedO ρ d el
  | .switch _ v cs e => v.ranked ρ d && rankedC ρ d cs && rankedO ρ d e
  | .while _ c b => c.ranked ρ d && rankedL ρ d b
  | .forIn _ x it b => spare ρ x.1 && it.ranked ρ d && rankedL ρ d b
  | .forMulti _ xs it b => (xs.all fun x => spare ρ x.1) && it.ranked ρ d && rankedL ρ d b
  | .func _ x _ _ => spare ρ x.1
  | .call _ f args => f.ranksBelow ρ d && rankedL ρ d args
  | .builtin _ _ args => rankedL ρ d args
  | .ctx _ _ args v b => rankedL ρ d args && (match v with | some v => v.spare ρ | none => true) && rankedL ρ d b
  | .ret _ e => rankedR ρ d e
  | .extern _ x e => spare ρ x.1 && e.ranked ρ d
  | .include .. => true
termination_by structural n => n
def rankedL (ρ : String → Option Nat) (d : Nat) : List Node → Bool
  | [] => true
  | n :: ns => n.ranked ρ d && rankedL ρ d ns
termination_by structural n => n
def rankedO (ρ : String → Option Nat) (d : Nat) : Option (List Node) → Bool
  | some b => rankedL ρ d b
  | none => true
termination_by structural n => n
def rankedR (ρ : String → Option Nat) (d : Nat) : Option Node → Bool
  | some e => e.ranked ρ d
  | none => true
termination_by structural n => n
def rankedC (ρ : String → Option Nat) (d : Nat) : List (Node × List Node) → Bool
  | [] => true
  | (c, b) :: cs => c.ranked ρ d && rankedL ρ d b && rankedC ρ d cs
termination_by structural n => n
end

mutual
/-- At the top level of a program and of included files, functions have a rank below `N`, and call functions of lower rank. -/
def Node.rankedTop (ρ : String → Option Nat) (N : Nat) : Node → Bool
  | .func _ x ps b => match ρ x.1 with
    | some r => decide (r < N) && (ps.all fun p => spare ρ p.1) && rankedL ρ r b
    | none => true
  | .include _ _ b => rankedTopO ρ N b
  | .lit sp l => (Node.lit sp l).ranked ρ N
  | .ident sp x => (Node.ident sp x).ranked ρ N
  | .lambda sp ps b => (Node.lambda sp ps b).ranked ρ N
  | .assign sp x e => (Node.assign sp x e).ranked ρ N
  | .un sp o e => (Node.un sp o e).ranked ρ N
  | .decl sp v e => (Node.decl sp v e).ranked ρ N
  | .pair sp a b => (Node.pair sp a b).ranked ρ N
  | .range sp a b => (Node.range sp a b).ranked ρ N
  | .bin sp o a b => (Node.bin sp o a b).ranked ρ N
  | .index sp e i => (Node.index sp e i).ranked ρ N
  | .array sp xs => (Node.array sp xs).ranked ρ N
  | .block sp b => (Node.block sp b).ranked ρ N
  | .cond sp c t e => (Node.cond sp c t e).ranked ρ N
  | .switch sp v cs e => (Node.switch sp v cs e).ranked ρ N
  | .while sp c b => (Node.while sp c b).ranked ρ N
  | .forIn sp x i b => (Node.forIn sp x i b).ranked ρ N
  | .forMulti sp x i b => (Node.forMulti sp x i b).ranked ρ N
  | .call sp f as => (Node.call sp f as).ranked ρ N
  | .builtin sp x as => (Node.builtin sp x as).ranked ρ N
  | .ctx sp x as v b => (Node.ctx sp x as v b).ranked ρ N
  | .ret sp e => (Node.ret sp e).ranked ρ N
  | .extern sp x e => (Node.extern sp x e).ranked ρ N
termination_by structural n => n
def rankedTopL (ρ : String → Option Nat) (N : Nat) : List Node → Bool
  | [] => true
  | n :: ns => n.rankedTop ρ N && rankedTopL ρ N ns
termination_by structural n => n
def rankedTopO (ρ : String → Option Nat) (N : Nat) : Option (List Node) → Bool
  | some b => rankedTopL ρ N b
  | none => true
termination_by structural n => n
end

variable {D : Type}

/-- A function of rank `r`. -/
def RankedF (ρ : String → Option Nat) (r : Nat) (c : SClos) : Prop :=
  ρ c.name = some r ∧ (∀ x ∈ c.params, ρ x = none) ∧ rankedL ρ r c.body = true ∧ c.env = []

/-- The host, the ranks, what is known of the data while `L` calls are in progress (`I`) and in the end (`Fin`). -/
structure Ranks (D : Type) where
  S : SHost D
  ρ : String → Option Nat
  N : Nat
  I : Nat → D → Prop
  Fin : D → Prop
  fn : ∀ x f, (S.builtins x = some (.fn f) ∨ ∃ e, S.builtins x = some (.ctx f e)) → ∀ L d args, I L d → I L (f d args S.lim).2
  ctx : ∀ x f e, S.builtins x = some (.ctx f e) → ∀ L d, I L d → I L (e d).2
  enter : ∀ L d, L < N → I L d → I (L + 1) (S.onEnter d)
  exit : ∀ L d, I (L + 1) d → I L (S.onExit d)
  fin : ∀ L d, I L d → Fin d

variable {K : Ranks D} {L d : Nat}

/-- Ranked names are names of functions of their rank; the data are as they should be. -/
structure FlatSt (K : Ranks D) (L : Nat) (σ : SSt D) : Prop where
  globals : ∀ x r, K.ρ x = some r → ∀ v, σ.globals x = some v → ∃ c, v = .clos c ∧ RankedF K.ρ r c
  exits : ∀ g ∈ σ.exits, ∀ L d, K.I L d → K.I L (g d).2
  data : K.I L σ.data

/-- No local variable hides a name of a rank below `d`. -/
def Clear (ρ : String → Option Nat) (d : Nat) (env : SEnv) : Prop := ∀ x r, ρ x = some r → r < d → x ∉ env.map Prod.fst

/-- No call is too deep. -/
def Shallow {α : Type} (K : Ranks D) (L : Nat) (P : α → Prop) (x : SM D α) : Prop := ∀ σ, FlatSt K L σ →
  match x σ with
  | (.ok a, σ') => FlatSt K L σ' ∧ P a
  | (.ret _, σ') => FlatSt K L σ'
  | (.deep, _) => False
  | (_, σ') => K.Fin σ'.data

namespace Shallow
variable {α β : Type}

theorem pure {P : α → Prop} {a : α} (h : P a) : Shallow K L P (Pure.pure a : SM D α) := fun _ hs => ⟨hs, h⟩

theorem bind {P : α → Prop} {Q : β → Prop} {x : SM D α} {f : α → SM D β} (hx : Shallow K L P x) (hf : ∀ a, P a → Shallow K L Q (f a)) : Shallow K L Q (x >>= f) := by
  intro σ hs
  have h1 := hx σ hs
  have hb : (x >>= f) σ = SM.bind (fun _ => x σ) f σ := rfl
  rw [hb]
  simp only [SM.bind]
  generalize x σ = r at h1
  obtain ⟨o, σ'⟩ := r
  cases o with
  | ok a => exact hf a h1.2 σ' h1.1
  | deep => exact h1.elim
  | _ => exact h1

theorem err {P : α → Prop} {e : Err} {sp : Option Span} : Shallow K L P (SM.err e sp : SM D α) := fun _ hs => K.fin _ _ hs.data
theorem panic {P : α → Prop} : Shallow K L P (SM.panic : SM D α) := fun _ hs => K.fin _ _ hs.data
theorem timeout {P : α → Prop} : Shallow K L P (SM.timeout : SM D α) := fun _ hs => K.fin _ _ hs.data
theorem unspec {P : α → Prop} : Shallow K L P (SM.unspec : SM D α) := fun _ hs => K.fin _ _ hs.data
theorem incomparable {P : α → Prop} : Shallow K L P (SM.incomparable : SM D α) := fun _ hs => K.fin _ _ hs.data
theorem ret {P : α → Prop} {v : SVal} : Shallow K L P (SM.ret v : SM D α) := fun _ hs => hs

theorem lift {r : Res α} {sp : Span} : Shallow K L (fun a => r = .ok a) (SM.lift r sp : SM D α) := by
  cases r with
  | ok a => exact pure rfl
  | err e => exact err
  | panic => exact panic

theorem liftT {r : Res α} {sp : Span} : Shallow K L (fun _ => True) (SM.lift r sp : SM D α) := by
  cases r with
  | ok a => exact pure trivial
  | err e => exact err
  | panic => exact panic

theorem alloc {v : SVal} : Shallow K L (fun _ => True) (SM.alloc v : SM D Nat) := fun _ hs => ⟨⟨hs.globals, hs.exits, hs.data⟩, trivial⟩
theorem load {l : Nat} : Shallow K L (fun _ => True) (SM.load l : SM D SVal) := fun _ hs => ⟨hs, trivial⟩
theorem store {l : Nat} {v : SVal} : Shallow K L (fun _ => True) (SM.store l v : SM D Unit) := fun _ hs => ⟨⟨hs.globals, hs.exits, hs.data⟩, trivial⟩

theorem getGlobal {x : String} : Shallow K L (fun o => ∀ r, K.ρ x = some r → ∀ v, o = some v → ∃ c, v = .clos c ∧ RankedF K.ρ r c) (SM.getGlobal x : SM D (Option SVal)) :=
  fun _ hs => ⟨hs, fun r hr v hv => hs.globals x r hr v hv⟩

theorem defGlobal {x : String} {v : SVal} (h : ∀ r, K.ρ x = some r → ∃ c, v = .clos c ∧ RankedF K.ρ r c) : Shallow K L (fun _ => True) (SM.defGlobal x v : SM D Unit) := by
  intro σ hs
  refine ⟨⟨fun y r hr w hw => ?_, hs.exits, hs.data⟩, trivial⟩
  replace hw : (if y = x then some v else σ.globals y) = some w := hw
  split at hw
  · rename_i he; subst he; cases hw; exact h r hr
  · exact hs.globals y r hr w hw

theorem host {γ : Type} {f : D → Res γ × D} {sp : Span} (h : ∀ d, K.I L d → K.I L (f d).2) : Shallow K L (fun _ => True) (SM.host f sp) := by
  intro σ hs
  have := h σ.data hs.data
  simp only [SM.host]
  generalize f σ.data = r at this
  obtain ⟨o, d⟩ := r
  cases o with
  | ok a => exact ⟨⟨hs.globals, hs.exits, this⟩, trivial⟩
  | err e => exact K.fin _ _ this
  | panic => exact K.fin _ _ this

theorem pushExit {e : ExitFn D} (h : ∀ L d, K.I L d → K.I L (e d).2) : Shallow K L (fun _ => True) (SM.pushExit e) := fun _ hs =>
  ⟨⟨hs.globals, fun g hg => by
    rcases List.mem_cons.1 hg with rfl | hg
    · exact h
    · exact hs.exits g hg, hs.data⟩, trivial⟩

theorem popExit {sp : Span} : Shallow K L (fun _ => True) (SM.popExit sp : SM D Unit) := by
  intro σ hs
  cases he : σ.exits with
  | nil =>
    have : SM.popExit sp σ = (.ok (), σ) := by simp only [SM.popExit, he]
    rw [this]
    exact ⟨hs, trivial⟩
  | cons e es =>
    have : SM.popExit sp σ = SM.host e sp { σ with exits := es } := by simp only [SM.popExit, he]
    rw [this]
    exact host (hs.exits e (by rw [he]; exact List.mem_cons_self) L) _ ⟨hs.globals, fun g hg => hs.exits g (by rw [he]; exact List.mem_cons_of_mem _ hg), hs.data⟩

/-- Names that may be bound. -/
def Fits (ρ : String → Option Nat) (d : Nat) (x : String) : Prop := ∀ r, ρ x = some r → d ≤ r

theorem fits_of_spare {ρ : String → Option Nat} {x : String} (h : spare ρ x = true) : Fits ρ d x := by
  intro r hr
  simp [spare, hr] at h

theorem clear_cons {ρ : String → Option Nat} {x : String} {l : Nat} {env : SEnv} (h : Clear ρ d env) (hx : Fits ρ d x) : Clear ρ d ((x, l) :: env) := by
  intro y r hr hd hm
  rcases List.mem_cons.1 hm with rfl | hm
  · exact absurd (hx r hr) (by omega)
  · exact h y r hr hd hm

theorem bindVars : ∀ {bs : List (String × SVal)} {env : SEnv}, (∀ b ∈ bs, Fits K.ρ d b.1) → Clear K.ρ d env → Shallow K L (Clear K.ρ d) (SM.bindVars bs env : SM D SEnv)
  | [], env, _, hc => pure hc
  | (x, v) :: r, env, h, hc => bind alloc fun l _ => bindVars (fun b hb => h b (by simp [hb])) (clear_cons hc (h (x, v) (by simp)))

theorem readVar {x : String} {sp : Span} {env : SEnv} : Shallow K L (fun _ => True) (Quilt.readVar x sp env : SM D SVal) := by
  unfold Quilt.readVar
  split
  · exact load
  · refine bind getGlobal fun o ho => ?_
    cases o with
    | some v => exact pure trivial
    | none => exact err

theorem lookup_none {x : String} : ∀ {env : SEnv}, x ∉ env.map Prod.fst → lookup x env = none
  | [], _ => rfl
  | (y, l) :: env, h => by
    simp only [List.map_cons, List.mem_cons, not_or] at h
    simp only [lookup, if_neg (Ne.symm h.1)]
    exact lookup_none h.2

/-- A ranked name in sight of no local variable means its function. -/
theorem callee {x : String} {r : Nat} {sp : Span} {env : SEnv} (hr : K.ρ x = some r) (hx : x ∉ env.map Prod.fst) :
    Shallow K L (fun v => ∃ c, v = .clos c ∧ RankedF K.ρ r c) (Quilt.readVar x sp env : SM D SVal) := by
  unfold Quilt.readVar
  rw [lookup_none hx]
  refine bind getGlobal fun o ho => ?_
  cases o with
  | some v => exact pure (ho r hr v rfl)
  | none => exact err

theorem writeVar {x : String} {sp : Span} {env : SEnv} {v : SVal} (h : spare K.ρ x = true) : Shallow K L (fun _ => True) (Quilt.writeVar x sp env v : SM D Unit) := by
  unfold Quilt.writeVar
  split
  · exact store
  · refine bind getGlobal fun o ho => ?_
    cases o with
    | some _ => exact defGlobal fun r hr => by simp [spare, hr] at h
    | none => exact err

theorem eqVals {F : FOps} {a b : SVal} : Shallow K L (fun _ => True) (Quilt.eqVals F a b : SM D Bool) := by
  unfold Quilt.eqVals
  split
  · exact pure trivial
  · exact incomparable

theorem evalBin {S : SHost D} {op : Op} {sp : Span} {a b : SVal} : Shallow K L (fun _ => True) (Quilt.evalBin S op sp a b : SM D _) := by
  unfold Quilt.evalBin
  split
  · exact bind eqVals fun _ _ => pure trivial
  · exact bind eqVals fun _ _ => pure trivial
  · exact liftT

theorem declVars {v : Var} {sp : Span} {val : SVal} {env : SEnv} (h : v.spare K.ρ = true) (hc : Clear K.ρ d env) : Shallow K L (Clear K.ρ d) (Quilt.declVars v sp val env : SM D SEnv) := by
  unfold Quilt.declVars
  split
  · exact bindVars (by simpa using fits_of_spare h) hc
  · rename_i xs
    refine bind liftT fun vs _ => bindVars (fun b hb => ?_) hc
    rw [List.mem_reverse] at hb
    obtain ⟨x, hx, h1⟩ := List.mem_map.1 (List.of_mem_zip hb).1
    rw [← h1]
    exact fits_of_spare (List.all_eq_true.1 h x hx)

theorem ctxVars {v : Option Var} {sp : Span} {val : SVal} {env : SEnv} (h : (match v with | some v => v.spare K.ρ | none => true) = true) (hc : Clear K.ρ d env) :
    Shallow K L (Clear K.ρ d) (Quilt.ctxVars v sp val env : SM D SEnv) := by
  cases v with
  | some v => exact declVars h hc
  | none => exact pure hc

theorem callBuiltin {x : String} {sp : Span} {args : List SVal} : Shallow K L (fun _ => True) (Quilt.callBuiltin K.S x sp args : SM D _) := by
  unfold Quilt.callBuiltin
  split
  · rename_i f hf; exact host fun d hd => K.fn x f (.inl hf) L d args hd
  · exact err
  · exact err

theorem enterCtx {x : String} {sp : Span} {args : List SVal} : Shallow K L (fun _ => True) (Quilt.enterCtx K.S x sp args : SM D _) := by
  unfold Quilt.enterCtx
  split
  · rename_i f hf; exact host fun d hd => K.fn x f (.inl hf) L d args hd
  · rename_i f e hf; exact bind (pushExit (K.ctx x f e hf)) fun _ _ => host fun d hd => K.fn x f (.inr ⟨e, hf⟩) L d args hd
  · exact err

theorem whileN {S : SHost D} {sp : Span} {c b : SM D SVal} (hc : Shallow K L (fun _ => True) c) (hb : Shallow K L (fun _ => True) b) :
    ∀ (W : Nat) (last : SVal), Shallow K L (fun _ => True) (Quilt.whileN S sp c b W last)
  | 0, _ => timeout
  | W + 1, last => by
    simp only [Quilt.whileN]
    refine bind hc fun v _ => bind (P := fun _ => True) liftT fun t _ => ?_
    cases t with
    | true => exact bind hb fun v _ => whileN hc hb W v
    | false => exact pure trivial

theorem forN {item : Nat → SM D (Option SVal)} {b : SVal → SM D SVal} (hi : ∀ k, Shallow K L (fun _ => True) (item k)) (hb : ∀ v, Shallow K L (fun _ => True) (b v)) :
    ∀ (W k : Nat) (last : SVal), Shallow K L (fun _ => True) (Quilt.forN item b W k last)
  | 0, _, _ => timeout
  | W + 1, k, last => by
    simp only [Quilt.forN]
    refine bind (hi k) fun o _ => ?_
    cases o with
    | some x => exact bind (hb x) fun v _ => forN hi hb W (k + 1) v
    | none => exact pure trivial

variable {W : Nat} {call : SClos → List SVal → SM D SVal} (hc : ∀ r c args, r < d → RankedF K.ρ r c → Shallow K L (fun _ => True) (call c args))
include hc

theorem applyVal {sp : Span} {c : SClos} {r : Nat} (hr : r < d) (hf : RankedF K.ρ r c) {args : List SVal} : Shallow K L (fun _ => True) (Quilt.applyVal call sp (.clos c) args) := by
  unfold Quilt.applyVal
  dsimp only
  split
  · exact err
  · exact hc r c args hr hf

mutual
theorem node : ∀ (n : Node) (env : SEnv), n.ranked K.ρ d = true → Clear K.ρ d env → Shallow K L (fun _ => True) (evalNode K.S call W n env)
  | .lit _ l, env, _, _ => by simp only [evalNode]; exact pure trivial
  | .ident sp x, env, _, _ => by simp only [evalNode]; exact readVar
  | .assign _ (x, xsp) e, env, h, he => by
    simp only [Node.ranked, Bool.and_eq_true] at h
    simp only [evalNode]
    exact bind (node e env h.2 he) fun v _ => bind (writeVar h.1) fun _ _ => pure trivial
  | .pair _ a b, env, h, he => by
    simp only [Node.ranked, Bool.and_eq_true] at h
    simp only [evalNode]
    exact bind (node a env h.1 he) fun _ _ => bind (node b env h.2 he) fun _ _ => pure trivial
  | .range _ a b, env, h, he => by
    simp only [Node.ranked, Bool.and_eq_true] at h
    simp only [evalNode]
    exact bind (node a env h.1 he) fun _ _ => bind (node b env h.2 he) fun _ _ => liftT
  | .array sp items, env, h, he => by
    simp only [Node.ranked] at h
    simp only [evalNode]
    exact bind (rev items env h he) fun _ _ => liftT
  | .index sp e i, env, h, he => by
    simp only [Node.ranked, Bool.and_eq_true] at h
    simp only [evalNode]
    exact bind (node i env h.2 he) fun _ _ => bind (node e env h.1 he) fun _ _ => liftT
  | .un sp op e, env, h, he => by
    simp only [Node.ranked] at h
    simp only [evalNode]
    exact bind (node e env h he) fun _ _ => liftT
  | .bin sp op a b, env, h, he => by
    simp only [Node.ranked, Bool.and_eq_true] at h
    simp only [evalNode]
    exact bind (node a env h.1 he) fun _ _ => bind (node b env h.2 he) fun _ _ => evalBin
  | .block _ body, env, h, he => by
    simp only [Node.ranked] at h
    simp only [evalNode]; exact stmts body env h he
  | .cond sp c th el, env, h, he => by
    simp only [Node.ranked, Bool.and_eq_true] at h
    simp only [evalNode]
    refine bind (node c env h.1.1 he) fun v _ => bind (P := fun _ => True) liftT fun t _ => ?_
    cases t with
    | true => exact stmts th env h.1.2 he
    | false => exact opt el env h.2 he
  | .switch _ v cs e, env, h, he => by
    simp only [Node.ranked, Bool.and_eq_true] at h
    simp only [evalNode]
    exact bind (node v env h.1.1 he) fun v _ => cases cs v env h.1.2 he (opt e env h.2 he)
  | .while sp c body, env, h, he => by
    simp only [Node.ranked, Bool.and_eq_true] at h
    simp only [evalNode]
    exact whileN (node c env h.1 he) (stmts body env h.2 he) W .none
  | .forIn sp x it body, env, h, he => by
    simp only [Node.ranked, Bool.and_eq_true] at h
    simp only [evalNode]
    refine bind (node it env h.1.2 he) fun v _ => forN (fun _ => liftT) (fun i => ?_) W 0 .none
    exact bind (bindVars (by simpa using fits_of_spare h.1.1) he) fun env' he' => stmts body env' h.2 he'
  | .forMulti sp xs it body, env, h, he => by
    simp only [Node.ranked, Bool.and_eq_true] at h
    simp only [evalNode]
    refine bind (node it env h.1.2 he) fun v _ => forN (fun _ => liftT) (fun i => ?_) W 0 .none
    exact bind (declVars (v := .many xs) h.1.1 he) fun env' he' => stmts body env' h.2 he'
  | .lambda sp ps body, env, _, _ => by simp only [evalNode]; exact pure trivial
  | .call sp f as, env, h, he => by
    simp only [Node.ranked, Bool.and_eq_true] at h
    simp only [evalNode]
    obtain ⟨sp', x, r, rfl, hr, hd⟩ : ∃ sp' x r, f = .ident sp' x ∧ K.ρ x = some r ∧ r < d := by
      have h1 := h.1
      cases f with
      | ident sp' x =>
        simp only [Node.ranksBelow] at h1
        cases hr : K.ρ x with
        | some r => rw [hr] at h1; exact ⟨sp', x, r, rfl, hr, by simpa using h1⟩
        | none => rw [hr] at h1; cases h1
      | _ => cases h1
    simp only [evalNode]
    refine bind (callee hr (he x r hr hd)) fun v hv => bind (args as env h.2 he) fun _ _ => ?_
    obtain ⟨c, rfl, hf⟩ := hv
    exact applyVal hc hd hf
  | .builtin _ x as, env, h, he => by
    simp only [Node.ranked] at h
    simp only [evalNode]
    exact bind (args as env h he) fun _ _ => callBuiltin
  | .ctx sp x as v body, env, h, he => by
    simp only [Node.ranked, Bool.and_eq_true] at h
    simp only [evalNode]
    exact bind (args as env h.1.1 he) fun _ _ => bind enterCtx fun r _ => bind (ctxVars h.1.2 he) fun env' he' =>
      bind (stmts body env' h.2 he') fun res _ => bind popExit fun _ _ => pure trivial
  | .decl .., env, _, _ | .extern .., env, _, _ | .func .., env, _, _ | .include .., env, _, _ | .ret .., env, _, _ => by simp only [evalNode]; exact unspec
termination_by structural n => n
theorem stmt : ∀ (n : Node) (env : SEnv), n.ranked K.ρ d = true → Clear K.ρ d env → Shallow K L (Clear K.ρ d) (evalStmt K.S call W n env)
  | .decl sp v e, env, h, he => by
    simp only [Node.ranked, Bool.and_eq_true] at h
    simp only [evalStmt]
    exact bind (node e env h.2 he) fun _ _ => declVars h.1 he
  | .func _ name params body, env, h, he => by
    simp only [Node.ranked] at h
    simp only [evalStmt]
    exact bindVars (by simpa using fits_of_spare h) he
  | .ret _ e, env, h, he => by
    simp only [Node.ranked] at h
    simp only [evalStmt]
    exact bind (retE e env h he) fun v _ => ret
  | .extern .., env, _, _ | .include .., env, _, _
  | .lit .., env, _, _ | .ident .., env, _, _ | .assign .., env, _, _ | .pair .., env, _, _ | .range .., env, _, _ | .array .., env, _, _
  | .index .., env, _, _ | .un .., env, _, _ | .bin .., env, _, _ | .block .., env, _, _ | .cond .., env, _, _ | .switch .., env, _, _
  | .while .., env, _, _ | .forIn .., env, _, _ | .forMulti .., env, _, _ | .lambda .., env, _, _ | .call .., env, _, _ | .builtin .., env, _, _
  | .ctx .., env, _, _ => by simp only [evalStmt]; exact unspec
termination_by structural n => n
theorem stmts : ∀ (ns : List Node) (env : SEnv), rankedL K.ρ d ns = true → Clear K.ρ d env → Shallow K L (fun _ => True) (evalStmts K.S call W ns env)
  | [], env, h, _ => by simp only [evalStmts]; exact unspec
  | [n], env, h, he => by
    simp only [rankedL, Bool.and_true] at h
    by_cases hs : n.isStatement
    · simp only [evalStmts, hs, if_true]
      exact bind (stmt n env h he) fun _ _ => unspec
    · simp only [evalStmts, hs]
      exact node n env h he
  | n :: n' :: ns, env, h, he => by
    rw [rankedL, Bool.and_eq_true] at h
    by_cases hs : n.isStatement
    · simp only [evalStmts, hs, if_true]
      exact bind (stmt n env h.1 he) fun env' he' => stmts (n' :: ns) env' h.2 he'
    · simp only [evalStmts, hs]
      exact bind (node n env h.1 he) fun _ _ => stmts (n' :: ns) env h.2 he
termination_by structural n => n
theorem args : ∀ (ns : List Node) (env : SEnv), rankedL K.ρ d ns = true → Clear K.ρ d env → Shallow K L (fun _ => True) (evalArgs K.S call W ns env)
  | [], env, _, _ => by simp only [evalArgs]; exact pure trivial
  | n :: ns, env, h, he => by
    simp only [rankedL, Bool.and_eq_true] at h
    simp only [evalArgs]
    exact bind (node n env h.1 he) fun _ _ => bind (args ns env h.2 he) fun _ _ => pure trivial
termination_by structural n => n
theorem rev : ∀ (ns : List Node) (env : SEnv), rankedL K.ρ d ns = true → Clear K.ρ d env → Shallow K L (fun _ => True) (evalRev K.S call W ns env)
  | [], env, _, _ => by simp only [evalRev]; exact pure trivial
  | n :: ns, env, h, he => by
    simp only [rankedL, Bool.and_eq_true] at h
    simp only [evalRev]
    exact bind (rev ns env h.2 he) fun _ _ => bind (node n env h.1 he) fun _ _ => pure trivial
termination_by structural n => n
theorem opt : ∀ (o : Option (List Node)) (env : SEnv), rankedO K.ρ d o = true → Clear K.ρ d env → Shallow K L (fun _ => True) (evalOpt K.S call W o env)
  | some body, env, h, he => by simp only [rankedO] at h; simp only [evalOpt]; exact stmts body env h he
  | none, env, _, _ => by simp only [evalOpt]; exact pure trivial
termination_by structural n => n
theorem retE : ∀ (o : Option Node) (env : SEnv), rankedR K.ρ d o = true → Clear K.ρ d env → Shallow K L (fun _ => True) (evalRet K.S call W o env)
  | some e, env, h, he => by
    simp only [rankedR] at h
    simp only [evalRet]; exact node e env h he
  | none, env, _, _ => by simp only [evalRet]; exact pure trivial
termination_by structural n => n
theorem cases : ∀ (cs : List (Node × List Node)) (v : SVal) (env : SEnv) {e : SM D SVal}, rankedC K.ρ d cs = true → Clear K.ρ d env → Shallow K L (fun _ => True) e →
    Shallow K L (fun _ => True) (evalCases K.S call W cs v env e)
  | [], v, env, e, _, _, hd => by simp only [evalCases]; exact hd
  | (c, body) :: cs, v, env, e, h, he, hd => by
    simp only [rankedC, Bool.and_eq_true] at h
    simp only [evalCases]
    refine bind (node c env h.1.1 he) fun cv _ => bind eqVals fun t _ => ?_
    cases t with
    | true => exact stmts body env h.1.2 he
    | false => exact cases cs v env h.2 he hd
termination_by structural cs => cs
end

end Shallow

/-- Calls of functions of a rank below `n`. -/
theorem Shallow.callD {W : Nat} : ∀ (n L r : Nat) (c : SClos) (args : List SVal), r < n → L + r < K.N → RankedF K.ρ r c → Shallow K L (fun _ => True) (callD K.S W n c args)
  | 0, _, _, _, _, h, _, _ => absurd h (by omega)
  | n + 1, L, r, c, args, hr, hL, hf => by
    intro σ hs
    obtain ⟨hn, hp, hb, henv⟩ := hf
    have hbind : ∀ b ∈ callScope c args, Shallow.Fits K.ρ r b.1 := by
      intro b hb
      rcases List.mem_cons.1 hb with rfl | hb
      · intro r' hr'; rw [hn] at hr'; cases hr'; exact Nat.le_refl _
      · intro r' hr'; rw [hp _ (List.of_mem_zip hb).1] at hr'; cases hr'
    have h1 := Shallow.bind (Shallow.bindVars (K := K) (L := L + 1) (d := r) (env := c.env) hbind (by rw [henv]; intro x r _ _ h; cases h)) fun env he =>
      Shallow.stmts (W := W) (call := Quilt.callD K.S W n) (fun r' c' args' hr' hf' => Shallow.callD n (L + 1) r' c' args' (by omega) (by omega) hf') c.body env hb he
    have h2 := h1 { σ with data := K.S.onEnter σ.data } ⟨hs.globals, hs.exits, K.enter L _ (by omega) hs.data⟩
    simp only [Quilt.callD, callStep]
    generalize (SM.bindVars (callScope c args) c.env >>= fun env => evalStmts K.S (Quilt.callD K.S W n) W c.body env) { σ with data := K.S.onEnter σ.data } = q at h2
    obtain ⟨o, σ'⟩ := q
    cases o with
    | ret v => exact ⟨⟨h2.globals, h2.exits, K.exit L _ h2.data⟩, trivial⟩
    | ok v => exact K.fin _ _ h2.1.data
    | deep => exact h2.elim
    | _ => exact h2

/-- The same for calls whose depth is bounded like the number of iterations of loops. -/
theorem Shallow.callN {W : Nat} : ∀ (n L r : Nat) (c : SClos) (args : List SVal), L + r < K.N → RankedF K.ρ r c → Shallow K L (fun _ => True) (callN K.S W n c args)
  | 0, _, _, _, _, _, _ => Shallow.timeout
  | n + 1, L, r, c, args, hL, hf => by
    intro σ hs
    obtain ⟨hn, hp, hb, henv⟩ := hf
    have hbind : ∀ b ∈ callScope c args, Shallow.Fits K.ρ r b.1 := by
      intro b hb
      rcases List.mem_cons.1 hb with rfl | hb
      · intro r' hr'; rw [hn] at hr'; cases hr'; exact Nat.le_refl _
      · intro r' hr'; rw [hp _ (List.of_mem_zip hb).1] at hr'; cases hr'
    have h1 := Shallow.bind (Shallow.bindVars (K := K) (L := L + 1) (d := r) (env := c.env) hbind (by rw [henv]; intro x r _ _ h; cases h)) fun env he =>
      Shallow.stmts (W := W) (call := Quilt.callN K.S W n) (fun r' c' args' hr' hf' => Shallow.callN n (L + 1) r' c' args' (by omega) hf') c.body env hb he
    have h2 := h1 { σ with data := K.S.onEnter σ.data } ⟨hs.globals, hs.exits, K.enter L _ (by omega) hs.data⟩
    simp only [Quilt.callN]
    generalize (SM.bindVars (callScope c args) c.env >>= fun env => evalStmts K.S (Quilt.callN K.S W n) W c.body env) { σ with data := K.S.onEnter σ.data } = q at h2
    obtain ⟨o, σ'⟩ := q
    cases o with
    | ret v => exact ⟨⟨h2.globals, h2.exits, K.exit L _ h2.data⟩, trivial⟩
    | ok v => exact K.fin _ _ h2.1.data
    | deep => exact h2.elim
    | _ => exact h2

theorem Shallow.defGlobals : ∀ {bs : List (String × SVal)}, (∀ b ∈ bs, K.ρ b.1 = none) → Shallow K L (fun _ => True) (Quilt.defGlobals bs : SM D Unit)
  | [], _ => Shallow.pure trivial
  | (x, _) :: _, h => Shallow.bind (Shallow.defGlobal fun r hr => by rw [h _ List.mem_cons_self] at hr; cases hr) fun _ _ => Shallow.defGlobals fun b hb => h b (by simp [hb])

private theorem clear_nil {ρ : String → Option Nat} : Clear ρ d [] := fun _ _ _ _ h => by cases h

private theorem top_ranked {ρ : String → Option Nat} {N : Nat} {n : Node} (hs : n.isStatement = false) (h : n.rankedTop ρ N = true) : n.ranked ρ N = true := by
  cases n <;> first | exact h | cases hs

section
variable {W : Nat} {call : SClos → List SVal → SM D SVal} (hc : ∀ r c args, r < K.N → RankedF K.ρ r c → Shallow K L (fun _ => True) (call c args))
include hc

mutual
theorem Shallow.topStmt : ∀ n : Node, n.rankedTop K.ρ K.N = true → Shallow K L (fun _ => True) (evalTopStmt K.S call W n)
  | .decl sp v e, h => by
    simp only [Node.rankedTop, Node.ranked, Bool.and_eq_true] at h
    simp only [evalTopStmt]
    refine Shallow.bind (Shallow.node hc e [] h.2 clear_nil) fun val _ => ?_
    cases v with
    | one x => exact Shallow.defGlobal fun r hr => by have := h.1; simp [Var.spare, spare, hr] at this
    | many xs =>
      refine Shallow.bind Shallow.liftT fun vs _ => Shallow.defGlobals fun b hb => ?_
      obtain ⟨x, hx, h1⟩ := List.mem_map.1 (List.of_mem_zip hb).1
      have := List.all_eq_true.1 h.1 x hx
      rw [← h1]
      simpa [spare] using this
  | .func _ x ps b, h => by
    simp only [Node.rankedTop] at h
    simp only [evalTopStmt]
    refine Shallow.defGlobal fun r hr => ⟨_, rfl, hr, fun p hp => ?_, ?_, rfl⟩
    · rw [hr] at h
      simp only [Bool.and_eq_true] at h
      obtain ⟨q, hq, h1⟩ := List.mem_map.1 hp
      have := List.all_eq_true.1 h.1.2 q hq
      rw [← h1]
      simpa [spare] using this
    · rw [hr] at h
      simp only [Bool.and_eq_true] at h
      exact h.2
  | .extern _ x e, h => by
    simp only [Node.rankedTop, Node.ranked, Bool.and_eq_true] at h
    simp only [evalTopStmt]
    refine Shallow.bind (Shallow.node hc e [] h.2 clear_nil) fun val _ => Shallow.bind Shallow.getGlobal fun o _ => ?_
    cases o with
    | some _ => exact Shallow.pure trivial
    | none => exact Shallow.defGlobal fun r hr => by have := h.1; simp [spare, hr] at this
  | .include _ _ body, h => by
    simp only [Node.rankedTop] at h
    simp only [evalTopStmt]; exact Shallow.topIncl body h
  | .ret .., _
  | .lit .., _ | .ident .., _ | .assign .., _ | .pair .., _ | .range .., _ | .array .., _ | .index .., _ | .un .., _
  | .bin .., _ | .block .., _ | .cond .., _ | .switch .., _ | .while .., _ | .forIn .., _ | .forMulti .., _
  | .lambda .., _ | .call .., _ | .builtin .., _ | .ctx .., _ => by simp only [evalTopStmt]; exact Shallow.unspec
termination_by structural n => n
theorem Shallow.topEach : ∀ ns : List Node, rankedTopL K.ρ K.N ns = true → Shallow K L (fun _ => True) (evalEach K.S call W ns)
  | [], _ => by simp only [evalEach]; exact Shallow.pure trivial
  | n :: ns, h => by
    simp only [rankedTopL, Bool.and_eq_true] at h
    by_cases hs : n.isStatement
    · simp only [evalEach, hs, if_true]
      exact Shallow.bind (Shallow.topStmt n h.1) fun _ _ => Shallow.topEach ns h.2
    · simp only [evalEach, hs]
      exact Shallow.bind (Shallow.node hc n [] (top_ranked (by simpa using hs) h.1) clear_nil) fun _ _ => Shallow.topEach ns h.2
termination_by structural n => n
theorem Shallow.topIncl : ∀ o : Option (List Node), rankedTopO K.ρ K.N o = true → Shallow K L (fun _ => True) (evalIncl K.S call W o)
  | some b, h => by
    simp only [rankedTopO] at h
    simp only [evalIncl]; exact Shallow.topEach b h
  | none, h => by simp only [evalIncl]; exact Shallow.unspec
termination_by structural n => n
end

theorem Shallow.top : ∀ ns : List Node, rankedTopL K.ρ K.N ns = true → Shallow K L (fun _ => True) (evalTop K.S call W ns)
  | [], h => by simp only [evalTop]; exact Shallow.unspec
  | [n], h => by
    simp only [rankedTopL, Bool.and_true] at h
    by_cases hs : n.isStatement
    · simp only [evalTop, hs, if_true]
      exact Shallow.bind (Shallow.topStmt hc n h) fun _ _ => Shallow.unspec
    · simp only [evalTop, hs]
      exact Shallow.node hc n [] (top_ranked (by simpa using hs) h) clear_nil
  | n :: n' :: ns, h => by
    rw [rankedTopL, Bool.and_eq_true] at h
    by_cases hs : n.isStatement
    · simp only [evalTop, hs, if_true]
      exact Shallow.bind (Shallow.topStmt hc n h.1) fun _ _ => Shallow.top (n' :: ns) h.2
    · simp only [evalTop, hs]
      exact Shallow.bind (Shallow.node hc n [] (top_ranked (by simpa using hs) h.1) clear_nil) fun _ _ => Shallow.top (n' :: ns) h.2

end

/-- Calls are nested at most `N` deep. -/
theorem flat_program {ast : List Node} (h : rankedTopL K.ρ K.N ast = true) {σ : SSt D} (hs : FlatSt K 0 σ) (W : Nat) :
    match evalTop K.S (callD K.S W K.N) W ast σ with
    | (.deep, _) => False
    | (_, σ') => K.Fin σ'.data := by
  have h1 := Shallow.top (W := W) (call := callD K.S W K.N) (L := 0) (fun r c args hr hf => Shallow.callD K.N 0 r c args hr (by omega) hf) ast h σ hs
  generalize evalTop K.S (callD K.S W K.N) W ast σ = q at h1
  obtain ⟨o, σ'⟩ := q
  cases o with
  | ok v => exact K.fin _ _ h1.1.data
  | ret v => exact K.fin _ _ h1.data
  | deep => exact h1.elim
  | _ => exact h1

/-- What is known of the data in the end. -/
theorem flat_end {ast : List Node} (h : rankedTopL K.ρ K.N ast = true) {σ : SSt D} (hs : FlatSt K 0 σ) (k : Nat) : K.Fin (evalProgram K.S k ast σ).2.data := by
  have h1 := Shallow.top (W := k) (call := callN K.S k k) (L := 0) (fun r c args hr hf => Shallow.callN k 0 r c args (by omega) hf) ast h σ hs
  unfold evalProgram
  generalize evalTop K.S (callN K.S k k) k ast σ = q at h1
  obtain ⟨o, σ'⟩ := q
  cases o with
  | ok v => exact K.fin _ _ h1.1.data
  | ret v => exact K.fin _ _ h1.data
  | deep => exact h1.elim
  | _ => exact h1

end Quilt
