import Verif.Sem.Layout
import Verif.Sem.Only
import Verif.Sem.Splice
import Verif.Compiler.Spans

/-!
# Definitions that nothing uses

Evaluation does not depend on global variables that the program does not mention.
-/

namespace Quilt

/-- The variable that a node itself reads, assigns, or declares as external. -/
def Node.mentions : Node → Option String
  | .ident _ x => some x
  | .assign _ x _ => some x.1
  | .extern _ x _ => some x.1
  | _ => none

/-- None of these nodes mentions a variable of `U`. -/
def Avoids (U : String → Bool) (ns : List Node) : Prop := ∀ n ∈ ns, ∀ x, n.mentions = some x → U x = false

/-- The definition of a variable of `U`: a function, or a declaration with a literal or a function. -/
def Node.idle (U : String → Bool) : Node → Bool
  | .func _ f _ _ => U f.1
  | .decl _ (.one x) (.lit ..) => U x.1
  | .decl _ (.one x) (.lambda ..) => U x.1
  | _ => false

/-- A program without these definitions. -/
def dropIdle (U : String → Bool) (ast : List Node) : List Node := ast.filter fun n => !n.idle U

theorem avoids_cons {U : String → Bool} {n : Node} {ns : List Node} : Avoids U (n :: ns) ↔ (∀ x, n.mentions = some x → U x = false) ∧ Avoids U ns := by
  simp [Avoids]

theorem avoids_append {U : String → Bool} {ns ms : List Node} : Avoids U (ns ++ ms) ↔ Avoids U ns ∧ Avoids U ms := by
  simp only [Avoids, List.mem_append]
  exact ⟨fun h => ⟨fun n hn => h n (.inl hn), fun n hn => h n (.inr hn)⟩, fun h n hn => hn.elim (h.1 n) (h.2 n)⟩

/-- The same function, which does not mention `U`. -/
abbrev CKeep (U : String → Bool) : SClos → SClos → Prop := OnlyR fun c => Avoids U (subsL c.body)

abbrev VKeep (U : String → Bool) : SVal → SVal → Prop := Val.Rel (CKeep U)

mutual
theorem OnlyR.eq {Q : SClos → Prop} : ∀ v w : SVal, Val.Rel (OnlyR Q) v w → v = w
  | .none, w, h => by cases w <;> simp only [Val.Rel] at h; rfl
  | .bool _, w, h | .int _, w, h | .float _, w, h | .str _, w, h | .loopCtx _, w, h => by cases w <;> simp only [Val.Rel] at h <;> rw [h]
  | .range .., w, h | .special .., w, h => by cases w <;> simp only [Val.Rel] at h <;> rw [h.1, h.2]
  | .color .., w, h => by cases w <;> simp only [Val.Rel] at h <;> rw [h.1, h.2.1, h.2.2.1, h.2.2.2]
  | .arr xs s m, w, h => by
    cases w <;> simp only [Val.Rel] at h
    rw [OnlyRL.eq xs _ h.1, h.2.1, h.2.2]
  | .pair a b, w, h => by
    cases w <;> simp only [Val.Rel] at h
    rw [OnlyR.eq a _ h.1, OnlyR.eq b _ h.2]
  | .func _, w, h => by cases w <;> simp [Val.Rel] at h
  | .clos c, w, h => by
    cases w <;> simp only [Val.Rel] at h
    rw [h.1]
termination_by structural v => v
theorem OnlyRL.eq {Q : SClos → Prop} : ∀ vs ws : List SVal, Val.RelL (OnlyR Q) vs ws → vs = ws
  | [], [], _ => rfl
  | [], _ :: _, h | _ :: _, [], h => by simp [Val.RelL] at h
  | v :: vs, w :: ws, h => by
    simp only [Val.RelL] at h
    rw [OnlyR.eq v w h.1, OnlyRL.eq vs ws h.2]
termination_by structural v => v
end

variable {D α β α' β' : Type} {U : String → Bool}

/-- The same outcome. -/
def Out.Keep (U : String → Bool) (P : α → α' → Prop) : Out α → Out α' → Prop
  | .ok a, .ok b => P a b
  | .ret v, .ret w => VKeep U v w
  | .err e sp, .err e' sp' => e = e' ∧ sp = sp'
  | .panic, .panic => True
  | .timeout, .timeout => True
  | .deep, .deep => True
  | .unspec b, .unspec b' => b = b'
  | _, _ => False

/-- States that agree up to the globals of `U`. -/
structure StKeep (U : String → Bool) (σ σ' : SSt D) : Prop where
  store : ∀ l, VKeep U (σ.store l) (σ'.store l)
  next : σ.next = σ'.next
  globals : ∀ x, U x = false → Val.RelO (CKeep U) (σ.globals x) (σ'.globals x)
  data : σ.data = σ'.data
  exits : σ.exits = σ'.exits

/-- Evaluations in lockstep. -/
def MKeep (U : String → Bool) (P : α → α' → Prop) (x : SM D α) (y : SM D α') : Prop :=
  ∀ σ σ', StKeep U σ σ' → Out.Keep U P (x σ).1 (y σ').1 ∧ StKeep U (x σ).2 (y σ').2

namespace MKeep
variable {P : α → α' → Prop} {Q : β → β' → Prop}

theorem pure {a : α} {a' : α'} (h : P a a') : MKeep U P (Pure.pure a : SM D α) (Pure.pure a') := fun _ _ hs => ⟨h, hs⟩
theorem panic : MKeep U P (SM.panic : SM D α) SM.panic := fun _ _ hs => ⟨trivial, hs⟩
theorem timeout : MKeep U P (SM.timeout : SM D α) SM.timeout := fun _ _ hs => ⟨trivial, hs⟩
theorem unspec : MKeep U P (SM.unspec : SM D α) SM.unspec := fun _ _ hs => ⟨rfl, hs⟩
theorem incomparable : MKeep U P (SM.incomparable : SM D α) SM.incomparable := fun _ _ hs => ⟨rfl, hs⟩
theorem ret {v w : SVal} (h : VKeep U v w) : MKeep U P (SM.ret v : SM D α) (SM.ret w) := fun _ _ hs => ⟨h, hs⟩
theorem err {e : Err} {sp : Option Span} : MKeep U P (SM.err e sp : SM D α) (SM.err e sp) := fun _ _ hs => ⟨⟨rfl, rfl⟩, hs⟩

theorem bind {x : SM D α} {y : SM D α'} {f : α → SM D β} {g : α' → SM D β'} (hx : MKeep U P x y) (hf : ∀ a b, P a b → MKeep U Q (f a) (g b)) :
    MKeep U Q (x >>= f) (y >>= g) := by
  intro σ σ' hs
  have := hx σ σ' hs
  show Out.Keep U Q (SM.bind x f σ).1 (SM.bind y g σ').1 ∧ StKeep U (SM.bind x f σ).2 (SM.bind y g σ').2
  simp only [SM.bind]
  generalize x σ = r at this
  generalize y σ' = r' at this
  obtain ⟨o, τ⟩ := r
  obtain ⟨o', τ'⟩ := r'
  obtain ⟨h1, h2⟩ := this
  cases o <;> cases o' <;> first | exact h1.elim | exact hf _ _ h1 _ _ h2 | exact ⟨h1, h2⟩

theorem lift {r : Res α} {r' : Res α'} {sp : Span} (h : Res.Rel P r r') : MKeep U P (SM.lift r sp : SM D α) (SM.lift r' sp) := by
  cases r <;> cases r' <;> first | exact h.elim | exact pure h | exact panic | (cases h; exact err)

theorem alloc {v w : SVal} (h : VKeep U v w) : MKeep U (· = ·) (SM.alloc v : SM D Nat) (SM.alloc w) := by
  intro σ σ' hs
  refine ⟨hs.next, ⟨fun l => ?_, congrArg (· + 1) hs.next, hs.globals, hs.data, hs.exits⟩⟩
  show VKeep U (upd σ.store σ.next v l) (upd σ'.store σ'.next w l)
  unfold upd
  rw [← hs.next]
  split
  · exact h
  · exact hs.store l

theorem load {l : Nat} : MKeep U (VKeep U) (SM.load l : SM D SVal) (SM.load l) := fun _ _ hs => ⟨hs.store l, hs⟩

theorem store {l : Nat} {v w : SVal} (h : VKeep U v w) : MKeep U (fun _ _ => True) (SM.store l v : SM D Unit) (SM.store l w) := by
  intro σ σ' hs
  refine ⟨trivial, ⟨fun k => ?_, hs.next, hs.globals, hs.data, hs.exits⟩⟩
  show VKeep U (upd σ.store l v k) (upd σ'.store l w k)
  unfold upd
  split
  · exact h
  · exact hs.store k

theorem getGlobal {x : String} (hx : U x = false) : MKeep U (Val.RelO (CKeep U)) (SM.getGlobal x : SM D (Option SVal)) (SM.getGlobal x) := fun _ _ hs => ⟨hs.globals x hx, hs⟩

theorem defGlobal {x : String} {v w : SVal} (h : VKeep U v w) : MKeep U (fun _ _ => True) (SM.defGlobal x v : SM D Unit) (SM.defGlobal x w) := by
  intro σ σ' hs
  refine ⟨trivial, ⟨hs.store, hs.next, fun y hy => ?_, hs.data, hs.exits⟩⟩
  show Val.RelO (CKeep U) (if y = x then some v else σ.globals y) (if y = x then some w else σ'.globals y)
  split
  · exact h
  · exact hs.globals y hy

theorem pushExit {e : ExitFn D} : MKeep U (fun _ _ => True) (SM.pushExit e) (SM.pushExit e) := fun _ _ hs =>
  ⟨trivial, ⟨hs.store, hs.next, hs.globals, hs.data, congrArg (e :: ·) hs.exits⟩⟩

theorem host {γ γ' : Type} {P : γ → γ' → Prop} {f : D → Res γ × D} {f' : D → Res γ' × D} {sp : Span} (h : ∀ d, Res.Rel P (f d).1 (f' d).1 ∧ (f d).2 = (f' d).2) :
    MKeep U P (SM.host f sp) (SM.host f' sp) := by
  intro σ σ' hs
  have := h σ.data
  simp only [SM.host, ← hs.data]
  generalize f σ.data = r at this
  generalize f' σ.data = r' at this
  obtain ⟨o, d⟩ := r
  obtain ⟨o', d'⟩ := r'
  obtain ⟨h1, rfl⟩ := this
  cases o <;> cases o' <;> first
    | exact h1.elim
    | (cases h1; exact ⟨⟨rfl, rfl⟩, ⟨hs.store, hs.next, hs.globals, rfl, hs.exits⟩⟩)
    | exact ⟨h1, ⟨hs.store, hs.next, hs.globals, rfl, hs.exits⟩⟩

theorem popExit {sp : Span} : MKeep U (fun _ _ => True) (SM.popExit sp : SM D Unit) (SM.popExit sp) := by
  intro σ σ' hs
  simp only [SM.popExit, ← hs.exits]
  split
  · exact ⟨trivial, hs⟩
  · rename_i e es _
    exact host (fun d => ⟨Res.Rel.refl_of (fun _ => trivial) _, rfl⟩) { σ with exits := es } { σ' with exits := es } ⟨hs.store, hs.next, hs.globals, hs.data, rfl⟩

/-- New variables. -/
theorem bindVars : ∀ {xs : List String} {vs ws : List SVal} {env : SEnv}, Val.RelL (CKeep U) vs ws →
    MKeep U (· = ·) (SM.bindVars (xs.zip vs) env : SM D SEnv) (SM.bindVars (xs.zip ws) env)
  | [], _, _, _, _ => pure rfl
  | _ :: _, [], [], _, _ => pure rfl
  | _ :: _, _ :: _, _ :: _, _, h => by
    refine bind (alloc h.1) ?_
    rintro l _ rfl
    exact bindVars h.2
  | _ :: _, [], _ :: _, _, h => h.elim
  | _ :: _, _ :: _, [], _, h => h.elim

theorem bindOne {x : String} {v w : SVal} {env : SEnv} (h : VKeep U v w) : MKeep U (· = ·) (SM.bindVars [(x, v)] env : SM D SEnv) (SM.bindVars [(x, w)] env) :=
  bindVars (xs := [x]) (vs := [v]) (ws := [w]) ⟨h, trivial⟩

theorem readVar {x : String} {sp : Span} {env : SEnv} (h : U x = false) : MKeep U (VKeep U) (Quilt.readVar x sp env : SM D SVal) (Quilt.readVar x sp env) := by
  unfold Quilt.readVar
  split
  · exact load
  · refine bind (getGlobal h) ?_
    rintro (_ | v) (_ | w) hr <;> first | exact hr.elim | exact pure hr | exact err

theorem writeVar {x : String} {sp : Span} {env : SEnv} {v w : SVal} (h : U x = false) (hv : VKeep U v w) :
    MKeep U (fun _ _ => True) (Quilt.writeVar x sp env v : SM D Unit) (Quilt.writeVar x sp env w) := by
  unfold Quilt.writeVar
  split
  · exact store hv
  · refine bind (getGlobal h) ?_
    rintro (_ | v) (_ | w) hr <;> first | exact hr.elim | exact defGlobal hv | exact err

theorem eqVals {F : FOps} {a b a' b' : SVal} (ha : VKeep U a a') (hb : VKeep U b b') : MKeep U (· = ·) (Quilt.eqVals F a b : SM D Bool) (Quilt.eqVals F a' b') := by
  unfold Quilt.eqVals
  rw [Val.Rel.eqv_none F ha hb]
  split
  · exact pure rfl
  · exact incomparable

theorem evalBin {S : SHost D} {op : Op} {sp : Span} {a b a' b' : SVal} (ha : VKeep U a a') (hb : VKeep U b b') :
    MKeep U (VKeep U) (Quilt.evalBin S op sp a b) (Quilt.evalBin S op sp a' b') := by
  unfold Quilt.evalBin
  split
  · exact bind (eqVals ha hb) fun _ _ h => pure (by subst h; rfl)
  · exact bind (eqVals ha hb) fun _ _ h => pure (by subst h; rfl)
  · rename_i h1 h2
    exact lift (Val.rel_binary _ _ _ _ _ h1 h2 ha hb)

theorem bindRev {xs : List String} {vs ws : List SVal} {env : SEnv} (h : Val.RelL (CKeep U) vs ws) :
    MKeep U (· = ·) (SM.bindVars (xs.zip vs).reverse env : SM D SEnv) (SM.bindVars (xs.zip ws).reverse env) := by
  have key : ∀ (ps : List (String × SVal)) (env : SEnv), (∀ p ∈ ps, VKeep U p.2 p.2) → MKeep U (· = ·) (SM.bindVars ps env : SM D SEnv) (SM.bindVars ps env) := by
    intro ps
    induction ps with
    | nil => exact fun _ _ => pure rfl
    | cons p ps ih =>
      intro env hp
      refine bind (alloc (hp p List.mem_cons_self)) ?_
      rintro l _ rfl
      exact ih _ fun q hq => hp q (List.mem_cons_of_mem _ hq)
  obtain rfl := OnlyRL.eq _ _ h
  refine key _ _ fun p hp => ?_
  exact OnlyL.all h p.2 (List.of_mem_zip (List.mem_reverse.1 hp)).2

theorem declVars {x : Var} {sp : Span} {v w : SVal} {env : SEnv} (hv : VKeep U v w) :
    MKeep U (· = ·) (Quilt.declVars x sp v env : SM D SEnv) (Quilt.declVars x sp w env) := by
  cases x with
  | one x => exact bindOne hv
  | many xs => exact bind (lift (Val.rel_unpack xs.length hv)) fun _ _ hr => bindRev hr

theorem truthy {S : SHost D} {sp : Span} {v w : SVal} (h : VKeep U v w) : MKeep U (· = ·) (Quilt.truthy S sp v) (Quilt.truthy S sp w) := by
  unfold Quilt.truthy
  rw [h.isTruthy]
  exact lift (Res.Rel.refl_of (fun _ => rfl) _)

theorem whileN {S : SHost D} {sp : Span} {c b : SM D SVal} (hc : MKeep U (VKeep U) c c) (hb : MKeep U (VKeep U) b b) : ∀ {W : Nat} {v w : SVal}, VKeep U v w →
    MKeep U (VKeep U) (Quilt.whileN S sp c b W v) (Quilt.whileN S sp c b W w)
  | 0, _, _, _ => timeout
  | W + 1, v, w, h => by
    unfold Quilt.whileN
    refine bind hc fun v w hv => bind (truthy hv) ?_
    rintro (_ | _) _ rfl
    · exact pure h
    · exact bind hb fun v w hv => whileN hc hb hv

theorem forN {i i' : Nat → SM D (Option SVal)} (hi : ∀ k, MKeep U (Val.RelO (CKeep U)) (i k) (i' k)) {b b' : SVal → SM D SVal}
    (hb : ∀ v w, VKeep U v w → MKeep U (VKeep U) (b v) (b' w)) : ∀ {W k : Nat} {v w : SVal}, VKeep U v w → MKeep U (VKeep U) (Quilt.forN i b W k v) (Quilt.forN i' b' W k w)
  | 0, _, _, _, _ => timeout
  | W + 1, k, v, w, h => by
    unfold Quilt.forN
    refine bind (hi k) ?_
    rintro (_ | x) (_ | y) hr <;> first | exact hr.elim | skip
    · exact pure h
    · exact bind (hb x y hr) fun v w hv => forN hi hb hv

/-- Calls go in lockstep. -/
def Calls (U : String → Bool) (call : SClos → List SVal → SM D SVal) : Prop :=
  ∀ c c' vs ws, CKeep U c c' → Val.RelL (CKeep U) vs ws → MKeep U (VKeep U) (call c vs) (call c' ws)

theorem applyVal {call : SClos → List SVal → SM D SVal} (hc : Calls U call) {sp : Span} {f f' : SVal} {vs ws : List SVal} (hf : VKeep U f f') (h : Val.RelL (CKeep U) vs ws) :
    MKeep U (VKeep U) (Quilt.applyVal call sp f vs) (Quilt.applyVal call sp f' ws) := by
  obtain rfl := OnlyR.eq _ _ hf
  cases f <;> first
    | (simp only [Quilt.applyVal]; exact err)
    | skip
  have hf : CKeep U _ _ := hf
  simp only [Quilt.applyVal]
  rw [← h.length_eq]
  split
  · exact err
  · exact hc _ _ _ _ hf h

section
variable {S : SHost D} (hS : ∀ x b, S.builtins x = some b → BuiltinAlpha S.lim b)
include hS

theorem callBuiltin {x : String} {sp : Span} {vs ws : List SVal} (h : Val.RelL (CKeep U) vs ws) : MKeep U (VKeep U) (Quilt.callBuiltin S x sp vs) (Quilt.callBuiltin S x sp ws) := by
  unfold Quilt.callBuiltin
  split
  · rename_i f hf; exact host fun d => (hS x _ hf).rel (CKeep U) (fun _ _ h => congrArg SClos.name h.1) d vs ws h
  · exact err
  · exact err

theorem enterCtx {x : String} {sp : Span} {vs ws : List SVal} (h : Val.RelL (CKeep U) vs ws) : MKeep U (VKeep U) (Quilt.enterCtx S x sp vs) (Quilt.enterCtx S x sp ws) := by
  unfold Quilt.enterCtx
  split
  · rename_i f hf; exact host fun d => (hS x _ hf).rel (CKeep U) (fun _ _ h => congrArg SClos.name h.1) d vs ws h
  · rename_i f x' hf; exact bind pushExit fun _ _ _ => host fun d => (BRelG.rel (hS x _ hf)) (CKeep U) (fun _ _ h => congrArg SClos.name h.1) d vs ws h
  · exact err
end

variable {S : SHost D} (hS : ∀ x b, S.builtins x = some b → BuiltinAlpha S.lim b) {call : SClos → List SVal → SM D SVal} (hc : Calls U call) {W : Nat}
include hS hc

mutual
theorem node : ∀ (n : Node) {env : SEnv}, Avoids U n.subs → MKeep U (VKeep U) (evalNode S call W n env) (evalNode S call W n env)
  | .lit _ l, env, h => by unfold evalNode; exact pure (Val.Rel.toVal l)
  | .ident sp x, env, h => by
    simp only [Node.subs, avoids_cons] at h; unfold evalNode; exact readVar (h.1 x rfl)
  | .assign _ (x, xsp) e, env, h => by
    simp only [Node.subs, avoids_cons] at h; unfold evalNode
    exact bind (node e h.2) fun v w hv => bind (writeVar (h.1 x rfl) hv) fun _ _ _ => pure hv
  | .pair _ a b, env, h => by
    simp only [Node.subs, avoids_cons, avoids_append] at h; obtain ⟨_, h1, h2⟩ := h; unfold evalNode
    exact bind (node a h1) fun _ _ hv => bind (node b h2) fun _ _ hw => pure ⟨hv, hw⟩
  | .range _ a b, env, h => by
    simp only [Node.subs, avoids_cons, avoids_append] at h; obtain ⟨_, h1, h2⟩ := h; unfold evalNode
    exact bind (node a h1) fun _ _ hv => bind (node b h2) fun _ _ hw => lift (Val.rel_mkRange hv hw)
  | .array sp es, env, h => by
    simp only [Node.subs, avoids_cons] at h; unfold evalNode
    exact bind (rev es h.2) fun _ _ hv => lift (Val.rel_mkArray _ hv)
  | .index sp e i, env, h => by
    simp only [Node.subs, avoids_cons, avoids_append] at h; obtain ⟨_, h1, h2⟩ := h; unfold evalNode
    exact bind (node i h2) fun _ _ hv => bind (node e h1) fun _ _ hw => lift (Val.rel_indexGet _ hw hv)
  | .un sp op e, env, h => by
    simp only [Node.subs, avoids_cons] at h; unfold evalNode
    exact bind (node e h.2) fun _ _ hv => lift (Val.rel_unary _ _ hv)
  | .bin sp op a b, env, h => by
    simp only [Node.subs, avoids_cons, avoids_append] at h; obtain ⟨_, h1, h2⟩ := h; unfold evalNode
    exact bind (node a h1) fun _ _ hv => bind (node b h2) fun _ _ hw => evalBin hv hw
  | .block _ b, env, h => by
    simp only [Node.subs, avoids_cons] at h; unfold evalNode; exact stmts b h.2
  | .cond sp c th el, env, h => by
    simp only [Node.subs, avoids_cons, avoids_append] at h; obtain ⟨_, ⟨h1, h2⟩, h3⟩ := h; unfold evalNode
    refine bind (node c h1) fun _ _ hv => bind (truthy hv) ?_
    rintro (_ | _) _ rfl
    · exact opt el h3
    · exact stmts th h2
  | .switch _ e cs d, env, h => by
    simp only [Node.subs, avoids_cons, avoids_append] at h; obtain ⟨_, ⟨h1, h2⟩, h3⟩ := h; unfold evalNode
    exact bind (node e h1) fun _ _ hv => cases cs hv h2 (opt d h3)
  | .while sp c b, env, h => by
    simp only [Node.subs, avoids_cons, avoids_append] at h; obtain ⟨_, h1, h2⟩ := h; unfold evalNode
    exact whileN (node c h1) (stmts b h2) trivial
  | .forIn sp x e b, env, h => by
    simp only [Node.subs, avoids_cons, avoids_append] at h; obtain ⟨_, h1, h2⟩ := h; unfold evalNode
    exact bind (node e h1) fun _ _ hv => forN (fun k => lift (Val.rel_iterItem _ _ hv)) (fun _ _ hw => bind (bindOne hw) (by rintro _ _ rfl; exact stmts b h2)) trivial
  | .forMulti sp xs e b, env, h => by
    simp only [Node.subs, avoids_cons, avoids_append] at h; obtain ⟨_, h1, h2⟩ := h; unfold evalNode
    exact bind (node e h1) fun _ _ hv => forN (fun k => lift (Val.rel_iterItem _ _ hv)) (fun _ _ hw => bind (declVars hw) (by rintro _ _ rfl; exact stmts b h2)) trivial
  | .lambda sp ps b, env, h => by
    simp only [Node.subs, avoids_cons] at h; unfold evalNode
    exact pure (show CKeep U _ _ from ⟨rfl, h.2⟩)
  | .call sp f es, env, h => by
    simp only [Node.subs, avoids_cons, avoids_append] at h; obtain ⟨_, h1, h2⟩ := h; unfold evalNode
    exact bind (node f h1) fun _ _ hv => bind (args es h2) fun _ _ hw => applyVal hc hv hw
  | .builtin _ x es, env, h => by
    simp only [Node.subs, avoids_cons] at h; unfold evalNode
    exact bind (args es h.2) fun _ _ hw => callBuiltin hS hw
  | .ctx sp x es none b, env, h => by
    simp only [Node.subs, avoids_cons, avoids_append] at h; obtain ⟨_, h1, h2⟩ := h; unfold evalNode
    exact bind (args es h1) fun _ _ hw => bind (enterCtx hS hw) fun _ _ hr => bind (P := (· = ·)) (pure rfl) (by
      rintro _ _ rfl; exact bind (stmts b h2) fun _ _ hv => bind popExit fun _ _ _ => pure hv)
  | .ctx sp x es (some v) b, env, h => by
    simp only [Node.subs, avoids_cons, avoids_append] at h; obtain ⟨_, h1, h2⟩ := h; unfold evalNode
    exact bind (args es h1) fun _ _ hw => bind (enterCtx hS hw) fun _ _ hr => bind (declVars hr) (by
      rintro _ _ rfl; exact bind (stmts b h2) fun _ _ hv => bind popExit fun _ _ _ => pure hv)
  | .decl .., env, h | .extern .., env, h | .func .., env, h | .include .., env, h | .ret .., env, h => by unfold evalNode; exact unspec
termination_by structural n => n
theorem stmt : ∀ (n : Node) {env : SEnv}, Avoids U n.subs → MKeep U (· = ·) (evalStmt S call W n env) (evalStmt S call W n env)
  | .decl sp v e, env, h => by
    simp only [Node.subs, avoids_cons] at h; unfold evalStmt
    exact bind (node e h.2) fun _ _ hv => declVars hv
  | .func _ f ps b, env, h => by
    simp only [Node.subs, avoids_cons] at h; unfold evalStmt
    exact bindOne (show CKeep U _ _ from ⟨rfl, h.2⟩)
  | .ret _ e, env, h => by
    simp only [Node.subs, avoids_cons] at h; unfold evalStmt
    exact bind (retE e h.2) fun _ _ hv => ret hv
  | .extern .., env, h | .include .., env, h
  | .lit .., env, h | .ident .., env, h | .assign .., env, h | .pair .., env, h
  | .range .., env, h | .array .., env, h | .index .., env, h | .un .., env, h
  | .bin .., env, h | .block .., env, h | .cond .., env, h | .switch .., env, h
  | .while .., env, h | .forIn .., env, h | .forMulti .., env, h | .lambda .., env, h
  | .call .., env, h | .builtin .., env, h | .ctx .., env, h => by unfold evalStmt; exact unspec
termination_by structural n => n
theorem stmts : ∀ (ns : List Node) {env : SEnv}, Avoids U (subsL ns) → MKeep U (VKeep U) (evalStmts S call W ns env) (evalStmts S call W ns env)
  | [], env, h => by unfold evalStmts; exact unspec
  | [n], env, h => by
    simp only [subsL, avoids_append] at h
    unfold evalStmts
    split
    · exact bind (stmt n h.1) fun _ _ _ => unspec
    · exact node n h.1
  | n :: n' :: ns, env, h => by
    rw [subsL, avoids_append] at h
    unfold evalStmts
    split
    · exact bind (stmt n h.1) (by rintro _ _ rfl; exact stmts (n' :: ns) h.2)
    · exact bind (node n h.1) fun _ _ _ => stmts (n' :: ns) h.2
termination_by structural n => n
theorem args : ∀ (ns : List Node) {env : SEnv}, Avoids U (subsL ns) → MKeep U (Val.RelL (CKeep U)) (evalArgs S call W ns env) (evalArgs S call W ns env)
  | [], env, h => by unfold evalArgs; exact pure trivial
  | n :: ns, env, h => by
    simp only [subsL, avoids_append] at h; unfold evalArgs
    exact bind (node n h.1) fun _ _ hv => bind (args ns h.2) fun _ _ hw => pure ⟨hv, hw⟩
termination_by structural n => n
theorem rev : ∀ (ns : List Node) {env : SEnv}, Avoids U (subsL ns) → MKeep U (Val.RelL (CKeep U)) (evalRev S call W ns env) (evalRev S call W ns env)
  | [], env, h => by unfold evalRev; exact pure trivial
  | n :: ns, env, h => by
    simp only [subsL, avoids_append] at h; unfold evalRev
    exact bind (rev ns h.2) fun _ _ hw => bind (node n h.1) fun _ _ hv => pure ⟨hv, hw⟩
termination_by structural n => n
theorem opt : ∀ (o : Option (List Node)) {env : SEnv}, Avoids U (subsO o) → MKeep U (VKeep U) (evalOpt S call W o env) (evalOpt S call W o env)
  | some b, env, h => by unfold evalOpt; exact stmts b h
  | none, env, h => by unfold evalOpt; exact pure trivial
termination_by structural n => n
theorem retE : ∀ (o : Option Node) {env : SEnv}, Avoids U (subsE o) → MKeep U (VKeep U) (evalRet S call W o env) (evalRet S call W o env)
  | some e, env, h => by unfold evalRet; exact node e h
  | none, env, h => by unfold evalRet; exact pure trivial
termination_by structural n => n
theorem cases : ∀ (cs : List (Node × List Node)) {env : SEnv} {v w : SVal} {d : SM D SVal}, VKeep U v w → Avoids U (subsC cs) → MKeep U (VKeep U) d d →
    MKeep U (VKeep U) (evalCases S call W cs v env d) (evalCases S call W cs w env d)
  | [], env, v, w, d, hv, h, hd => by unfold evalCases; exact hd
  | (c, b) :: cs, env, v, w, d, hv, h, hd => by
    simp only [subsC, avoids_append] at h; obtain ⟨⟨h1, h2⟩, h3⟩ := h; unfold evalCases
    refine bind (node c h1) fun _ _ hw => bind (eqVals hv hw) ?_
    rintro (_ | _) _ rfl
    · exact cases cs hv h3 hd
    · exact stmts b h2
termination_by structural cs => cs
end

omit hc in
theorem callN_step {n : Nat} (ih : Calls U (Quilt.callN S W n)) : Calls U (Quilt.callN S W (n + 1)) := by
  rintro c _ vs ws ⟨rfl, hb⟩ hv σ σ' hs
  simp only [Quilt.callN]
  have h0 := bindVars (D := D) (U := U) (xs := c.name :: c.params) (vs := .clos c :: vs) (ws := .clos c :: ws) (env := c.env) ⟨⟨rfl, hb⟩, hv⟩
  have h1 := MKeep.bind h0 (g := fun env => evalStmts S (Quilt.callN S W n) W c.body env) (f := fun env => evalStmts S (Quilt.callN S W n) W c.body env) (by
    rintro env _ rfl; exact MKeep.stmts hS ih (W := W) c.body hb)
  have h2 := h1 { σ with data := S.onEnter σ.data } { σ' with data := S.onEnter σ'.data } ⟨hs.store, hs.next, hs.globals, congrArg S.onEnter hs.data, hs.exits⟩
  unfold callScope
  simp only [List.zip_cons_cons] at h2
  generalize (SM.bindVars ((c.name, .clos c) :: c.params.zip vs) c.env >>= fun env => evalStmts S (Quilt.callN S W n) W c.body env) { σ with data := S.onEnter σ.data } = r at h2
  generalize (SM.bindVars ((c.name, .clos c) :: c.params.zip ws) c.env >>= fun env => evalStmts S (Quilt.callN S W n) W c.body env) { σ' with data := S.onEnter σ'.data } = r' at h2
  obtain ⟨o, τ⟩ := r
  obtain ⟨o', τ'⟩ := r'
  obtain ⟨h3, h4⟩ := h2
  cases o <;> cases o' <;> first
    | exact h3.elim
    | exact ⟨h3, ⟨h4.store, h4.next, h4.globals, congrArg S.onExit h4.data, h4.exits⟩⟩
    | exact ⟨h3, h4⟩
    | exact ⟨rfl, h4⟩

omit hc in
theorem callN : ∀ n : Nat, Calls U (Quilt.callN S W n)
  | 0 => fun _ _ _ _ _ _ => timeout
  | n + 1 => callN_step hS (callN n)

omit hS hc in
theorem defGlobals : ∀ {xs : List String} {vs ws : List SVal}, Val.RelL (CKeep U) vs ws →
    MKeep U (fun _ _ => True) (Quilt.defGlobals (xs.zip vs) : SM D Unit) (Quilt.defGlobals (xs.zip ws))
  | [], _, _, _ => pure trivial
  | _ :: _, [], [], _ => pure trivial
  | _ :: _, _ :: _, _ :: _, h => bind (defGlobal h.1) fun _ _ _ => defGlobals h.2
  | _ :: _, [], _ :: _, h => h.elim
  | _ :: _, _ :: _, [], h => h.elim

mutual
theorem topStmt : ∀ (n : Node), Avoids U n.subs → MKeep U (fun _ _ => True) (evalTopStmt S call W n) (evalTopStmt S call W n)
  | .decl sp v e, h => by
    simp only [Node.subs, avoids_cons] at h
    unfold evalTopStmt
    refine bind (node hS hc e h.2) fun v' w' hv => ?_
    cases v with
    | one x => exact defGlobal hv
    | many xs => exact bind (lift (Val.rel_unpack _ hv)) fun _ _ hr => defGlobals hr
  | .func _ f ps b, h => by
    simp only [Node.subs, avoids_cons] at h
    unfold evalTopStmt
    exact defGlobal (show CKeep U _ _ from ⟨rfl, h.2⟩)
  | .extern _ x e, h => by
    simp only [Node.subs, avoids_cons] at h
    unfold evalTopStmt
    refine bind (node hS hc e h.2) fun _ _ hv => bind (getGlobal (h.1 _ rfl)) ?_
    rintro (_ | v) (_ | w) hr <;> first | exact hr.elim | exact defGlobal hv | exact pure trivial
  | .include _ _ b, h => by
    simp only [Node.subs, avoids_cons] at h
    unfold evalTopStmt; exact topIncl b h.2
  | .ret .., h
  | .lit .., h | .ident .., h | .assign .., h | .pair .., h | .range .., h | .array .., h | .index .., h | .un .., h | .bin .., h | .block .., h | .cond .., h | .switch .., h
  | .while .., h | .forIn .., h | .forMulti .., h | .lambda .., h | .call .., h | .builtin .., h | .ctx .., h => by unfold evalTopStmt; exact unspec
termination_by structural n => n
theorem topEach : ∀ (ns : List Node), Avoids U (subsL ns) → MKeep U (fun _ _ => True) (evalEach S call W ns) (evalEach S call W ns)
  | [], h => by unfold evalEach; exact pure trivial
  | n :: ns, h => by
    simp only [subsL, avoids_append] at h; unfold evalEach
    split
    · exact bind (topStmt n h.1) fun _ _ _ => topEach ns h.2
    · exact bind (node hS hc n h.1) fun _ _ _ => topEach ns h.2
termination_by structural n => n
theorem topIncl : ∀ (o : Option (List Node)), Avoids U (subsO o) → MKeep U (fun _ _ => True) (evalIncl S call W o) (evalIncl S call W o)
  | some b, h => by unfold evalIncl; exact topEach b h
  | none, h => by unfold evalIncl; exact unspec
termination_by structural n => n
end

omit hS hc in
/-- Such a definition changes a global of `U` only. -/
theorem idle_eval {n : Node} (h : n.idle U = true) (σ : SSt D) : n.isStatement = true ∧ ∃ x v, U x = true ∧ evalTopStmt S call W n σ = SM.defGlobal x v σ := by
  unfold Node.idle at h
  split at h
  · exact ⟨rfl, _, _, h, by unfold evalTopStmt; rfl⟩
  · exact ⟨rfl, _, _, h, by unfold evalTopStmt; rfl⟩
  · exact ⟨rfl, _, _, h, by unfold evalTopStmt; rfl⟩
  · cases h

/-- A program and what is left of it. -/
theorem top : ∀ (ns : List Node) {n : Node}, n.isStatement = false → Avoids U (subsL (dropIdle U (ns ++ [n]))) →
    MKeep U (VKeep U) (evalTop S call W (ns ++ [n])) (evalTop S call W (dropIdle U (ns ++ [n])))
  | [], n, hs, h => by
    have hi : n.idle U = false := by cases n <;> first | rfl | simp [Node.isStatement] at hs
    simp only [List.nil_append, dropIdle, List.filter_cons, hi, Bool.not_false, if_true, List.filter_nil, subsL, avoids_append] at h ⊢
    unfold evalTop
    simp only [hs, Bool.false_eq_true, if_false]
    exact node hS hc n h.1
  | m :: ms, n, hs, h => by
    have hne : ∃ p ps, ms ++ [n] = p :: ps := by cases ms <;> exact ⟨_, _, rfl⟩
    have hne' : ∃ p ps, dropIdle U (ms ++ [n]) = p :: ps := by
      have hi : n.idle U = false := by cases n <;> first | rfl | simp [Node.isStatement] at hs
      have : n ∈ dropIdle U (ms ++ [n]) := by simp [dropIdle, hi]
      cases hd : dropIdle U (ms ++ [n]) with
      | nil => rw [hd] at this; cases this
      | cons p ps => exact ⟨p, ps, rfl⟩
    have ih := top ms (n := n) hs
    by_cases hi : m.idle U = true
    · have e : dropIdle U (m :: ms ++ [n]) = dropIdle U (ms ++ [n]) := by simp [dropIdle, hi]
      rw [e] at h ⊢
      intro σ σ' hσ
      obtain ⟨hm, x, v, hx, hv⟩ := idle_eval (S := S) (call := call) (W := W) hi σ
      have e2 : evalTop S call W (m :: ms ++ [n]) σ = evalTop S call W (ms ++ [n]) (SM.defGlobal x v σ).2 := by
        obtain ⟨p, ps, hp⟩ := hne
        rw [List.cons_append, hp]
        rw [show evalTop S call W (m :: p :: ps) = evalTopStmt S call W m >>= fun _ => evalTop S call W (p :: ps) by rw [evalTop, if_pos hm]]
        show SM.bind _ _ σ = _
        unfold SM.bind
        rw [hv]
        rfl
      rw [e2]
      refine ih h _ _ ⟨hσ.store, hσ.next, fun y hy => ?_, hσ.data, hσ.exits⟩
      show Val.RelO (CKeep U) (if y = x then some v else σ.globals y) (σ'.globals y)
      have : y ≠ x := by rintro rfl; rw [hx] at hy; cases hy
      rw [if_neg this]
      exact hσ.globals y hy
    · have e : dropIdle U (m :: ms ++ [n]) = m :: dropIdle U (ms ++ [n]) := by simp [dropIdle, hi]
      rw [e] at h ⊢
      rw [subsL, avoids_append] at h
      have ih := ih h.2
      rw [List.cons_append]
      obtain ⟨p, ps, hp⟩ := hne
      obtain ⟨q, qs, hq⟩ := hne'
      rw [hq, hp] at ih ⊢
      have step : ∀ p ps, evalTop S call W (m :: p :: ps) = if m.isStatement then (evalTopStmt S call W m >>= fun _ => evalTop S call W (p :: ps))
          else (evalNode S call W m [] >>= fun _ => evalTop S call W (p :: ps)) := fun p ps => by rw [evalTop]
      rw [step, step]
      split
      · exact bind (topStmt hS hc m h.1) fun _ _ _ => ih
      · exact bind (node hS hc m h.1) fun _ _ _ => ih

end MKeep

/-- A program does the same without the definitions that nothing uses. -/
theorem evalProgram_keep {S : SHost D} (hS : ∀ x b, S.builtins x = some b → BuiltinAlpha S.lim b) (k : Nat) {ns : List Node} {n : Node} (hn : n.isStatement = false)
    (h : Avoids U (subsL (dropIdle U (ns ++ [n])))) : MKeep U (VKeep U) (evalProgram S k (ns ++ [n])) (evalProgram S k (dropIdle U (ns ++ [n]))) :=
  MKeep.top hS (MKeep.callN hS k) ns hn h

end Quilt
