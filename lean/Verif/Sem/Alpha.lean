import Verif.Sem.Rename
import Verif.Sem.Post
import Verif.Sem.SimStmt

/-!
# Positions and names of local variables do not change what programs do

Evaluation of programs that are equal up to positions and the names of local variables (`AlphaProg`) goes in lockstep.
-/

namespace Quilt

/-- Local scopes with the same variables under corresponding names. -/
def EnvRel : Ren → SEnv → SEnv → Prop
  | [], [], [] => True
  | (a, b) :: ρ, (x, l) :: env, (y, l') :: env' => x = a ∧ y = b ∧ l = l' ∧ EnvRel ρ env env'
  | _, _, _ => False

theorem EnvRel.lookup : ∀ {ρ : Ren} {env env' : SEnv} {x y : String}, EnvRel ρ env env' → ρ.Same x y →
    Quilt.lookup x env = Quilt.lookup y env' ∧ (Quilt.lookup x env = none → x = y)
  | [], [], [], _, _, _, h => ⟨rfl, fun _ => h⟩
  | (a, b) :: ρ, (u, l) :: env, (v, l') :: env', x, y, hr, h => by
    obtain ⟨rfl, rfl, rfl, hr⟩ := hr
    rcases h with ⟨rfl, rfl⟩ | ⟨h1, h2, h⟩
    · simp [Quilt.lookup]
    · simp only [Quilt.lookup, if_neg (Ne.symm h1), if_neg (Ne.symm h2)]
      exact EnvRel.lookup hr h
  | [], [], _ :: _, _, _, h, _ => h.elim
  | [], _ :: _, _, _, _, h, _ => h.elim
  | _ :: _, [], _, _, _, h, _ => h.elim
  | _ :: _, _ :: _, [], _, _, h, _ => h.elim

/-- Functions that differ in positions and names of local variables only. -/
structure CAlpha (c c' : SClos) : Prop where
  name : c.name = c'.name
  params : c.params.length = c'.params.length
  body : ∃ ρ, EnvRel ρ c.env c'.env ∧ AlphaB c.body ((c.params.zip c'.params).reverse ++ (c.name, c.name) :: ρ) c'.body

abbrev VAlpha : SVal → SVal → Prop := Val.Rel CAlpha

variable {D α β α' β' : Type}

/-- The same outcome; positions of errors may differ. -/
def Out.Alpha (P : α → α' → Prop) : Out α → Out α' → Prop
  | .ok a, .ok b => P a b
  | .ret v, .ret w => VAlpha v w
  | .err e sp, .err e' sp' => e = e' ∧ sp.isSome = sp'.isSome
  | .panic, .panic => True
  | .timeout, .timeout => True
  | .deep, .deep => True
  | .unspec b, .unspec b' => b = b'
  | _, _ => False

/-- States with corresponding variables. -/
structure StAlpha (σ σ' : SSt D) : Prop where
  store : ∀ l, VAlpha (σ.store l) (σ'.store l)
  next : σ.next = σ'.next
  globals : ∀ x, Val.RelO CAlpha (σ.globals x) (σ'.globals x)
  data : σ.data = σ'.data
  exits : σ.exits = σ'.exits

/-- Evaluations in lockstep. -/
def MAlpha (P : α → α' → Prop) (x : SM D α) (y : SM D α') : Prop :=
  ∀ σ σ', StAlpha σ σ' → Out.Alpha P (x σ).1 (y σ').1 ∧ StAlpha (x σ).2 (y σ').2

/-- The builtins of the host treat such functions alike. -/
def BuiltinAlpha (lim : Limits) : Builtin D SClos → Prop
  | .fn f => BRelG SClos.name SClos.name lim f f
  | .ctx f _ => BRelG SClos.name SClos.name lim f f

namespace MAlpha
variable {P : α → α' → Prop} {Q : β → β' → Prop}

theorem pure {a : α} {a' : α'} (h : P a a') : MAlpha P (Pure.pure a : SM D α) (Pure.pure a') := fun _ _ hs => ⟨h, hs⟩
theorem panic : MAlpha P (SM.panic : SM D α) SM.panic := fun _ _ hs => ⟨trivial, hs⟩
theorem timeout : MAlpha P (SM.timeout : SM D α) SM.timeout := fun _ _ hs => ⟨trivial, hs⟩
theorem unspec : MAlpha P (SM.unspec : SM D α) SM.unspec := fun _ _ hs => ⟨rfl, hs⟩
theorem incomparable : MAlpha P (SM.incomparable : SM D α) SM.incomparable := fun _ _ hs => ⟨rfl, hs⟩
theorem ret {v w : SVal} (h : VAlpha v w) : MAlpha P (SM.ret v : SM D α) (SM.ret w) := fun _ _ hs => ⟨h, hs⟩
theorem err {e : Err} {sp sp' : Option Span} (h : sp.isSome = sp'.isSome) : MAlpha P (SM.err e sp : SM D α) (SM.err e sp') := fun _ _ hs => ⟨⟨rfl, h⟩, hs⟩

theorem bind {x : SM D α} {y : SM D α'} {f : α → SM D β} {g : α' → SM D β'} (hx : MAlpha P x y) (hf : ∀ a b, P a b → MAlpha Q (f a) (g b)) :
    MAlpha Q (x >>= f) (y >>= g) := by
  intro σ σ' hs
  have := hx σ σ' hs
  show Out.Alpha Q (SM.bind x f σ).1 (SM.bind y g σ').1 ∧ StAlpha (SM.bind x f σ).2 (SM.bind y g σ').2
  simp only [SM.bind]
  generalize x σ = r at this
  generalize y σ' = r' at this
  obtain ⟨o, τ⟩ := r
  obtain ⟨o', τ'⟩ := r'
  obtain ⟨h1, h2⟩ := this
  cases o <;> cases o' <;> first | exact h1.elim | exact hf _ _ h1 _ _ h2 | exact ⟨h1, h2⟩

theorem lift {r : Res α} {r' : Res α'} {sp sp' : Span} (h : Res.Rel P r r') : MAlpha P (SM.lift r sp : SM D α) (SM.lift r' sp') := by
  cases r <;> cases r' <;> first | exact h.elim | exact pure h | exact panic | (cases h; exact err rfl)

theorem alloc {v w : SVal} (h : VAlpha v w) : MAlpha (· = ·) (SM.alloc v : SM D Nat) (SM.alloc w) := by
  intro σ σ' hs
  refine ⟨hs.next, ⟨fun l => ?_, congrArg (· + 1) hs.next, hs.globals, hs.data, hs.exits⟩⟩
  show VAlpha (upd σ.store σ.next v l) (upd σ'.store σ'.next w l)
  unfold upd
  rw [← hs.next]
  split
  · exact h
  · exact hs.store l

theorem load {l : Nat} : MAlpha VAlpha (SM.load l : SM D SVal) (SM.load l) := fun _ _ hs => ⟨hs.store l, hs⟩

theorem store {l : Nat} {v w : SVal} (h : VAlpha v w) : MAlpha (fun _ _ => True) (SM.store l v : SM D Unit) (SM.store l w) := by
  intro σ σ' hs
  refine ⟨trivial, ⟨fun k => ?_, hs.next, hs.globals, hs.data, hs.exits⟩⟩
  show VAlpha (upd σ.store l v k) (upd σ'.store l w k)
  unfold upd
  split
  · exact h
  · exact hs.store k

theorem getGlobal {x : String} : MAlpha (Val.RelO CAlpha) (SM.getGlobal x : SM D (Option SVal)) (SM.getGlobal x) := fun _ _ hs => ⟨hs.globals x, hs⟩

theorem defGlobal {x : String} {v w : SVal} (h : VAlpha v w) : MAlpha (fun _ _ => True) (SM.defGlobal x v : SM D Unit) (SM.defGlobal x w) := by
  intro σ σ' hs
  refine ⟨trivial, ⟨hs.store, hs.next, fun y => ?_, hs.data, hs.exits⟩⟩
  show Val.RelO CAlpha (if y = x then some v else σ.globals y) (if y = x then some w else σ'.globals y)
  split
  · exact h
  · exact hs.globals y

theorem pushExit {e : ExitFn D} : MAlpha (fun _ _ => True) (SM.pushExit e) (SM.pushExit e) := fun _ _ hs =>
  ⟨trivial, ⟨hs.store, hs.next, hs.globals, hs.data, congrArg (e :: ·) hs.exits⟩⟩

theorem host {γ γ' : Type} {P : γ → γ' → Prop} {f : D → Res γ × D} {f' : D → Res γ' × D} {sp sp' : Span} (h : ∀ d, Res.Rel P (f d).1 (f' d).1 ∧ (f d).2 = (f' d).2) :
    MAlpha P (SM.host f sp) (SM.host f' sp') := by
  intro σ σ' hs
  have := h σ.data
  simp only [SM.host, ← hs.data]
  generalize f σ.data = r at this
  generalize f' σ.data = r' at this
  obtain ⟨o, d⟩ := r
  obtain ⟨o', d'⟩ := r'
  obtain ⟨h1, rfl⟩ := this
  cases o <;> cases o' <;> first
    | exact h1.elim
    | (cases h1; exact ⟨⟨rfl, rfl⟩, ⟨hs.store, hs.next, hs.globals, rfl, hs.exits⟩⟩)
    | exact ⟨h1, ⟨hs.store, hs.next, hs.globals, rfl, hs.exits⟩⟩

theorem popExit {sp sp' : Span} : MAlpha (fun _ _ => True) (SM.popExit sp : SM D Unit) (SM.popExit sp') := by
  intro σ σ' hs
  simp only [SM.popExit, ← hs.exits]
  split
  · exact ⟨trivial, hs⟩
  · rename_i e es _
    exact host (fun d => ⟨Res.Rel.refl_of (fun _ => trivial) _, rfl⟩) { σ with exits := es } { σ' with exits := es } ⟨hs.store, hs.next, hs.globals, hs.data, rfl⟩

/-- New variables: both names and both values of each. -/
theorem bindVars : ∀ (qs : List ((String × String) × SVal × SVal)) {ρ : Ren} {env env' : SEnv}, EnvRel ρ env env' → (∀ q ∈ qs, VAlpha q.2.1 q.2.2) →
    MAlpha (EnvRel ((qs.map Prod.fst).reverse ++ ρ)) (SM.bindVars (qs.map fun q => (q.1.1, q.2.1)) env : SM D SEnv) (SM.bindVars (qs.map fun q => (q.1.2, q.2.2)) env')
  | [], _, _, _, he, _ => pure he
  | ((x, y), v, w) :: qs, ρ, env, env', he, hq => by
    refine bind (alloc (hq _ List.mem_cons_self)) ?_
    rintro l _ rfl
    have := bindVars qs (ρ := (x, y) :: ρ) (env := (x, l) :: env) (env' := (y, l) :: env') ⟨rfl, rfl, rfl, he⟩ fun q h => hq q (List.mem_cons_of_mem _ h)
    simpa using this

theorem zips : ∀ {xs ys : List String} {vs ws : List SVal}, xs.length = ys.length → xs.length = vs.length → Val.RelL CAlpha vs ws →
    ∃ qs : List ((String × String) × SVal × SVal), xs.zip vs = qs.map (fun q => (q.1.1, q.2.1)) ∧ ys.zip ws = qs.map (fun q => (q.1.2, q.2.2)) ∧
      xs.zip ys = qs.map Prod.fst ∧ ∀ q ∈ qs, VAlpha q.2.1 q.2.2
  | [], [], [], [], _, _, _ => ⟨[], rfl, rfl, rfl, by simp⟩
  | x :: xs, y :: ys, v :: vs, w :: ws, h1, h2, h3 => by
    obtain ⟨qs, a, b, c, d⟩ := zips (Nat.succ.inj h1) (Nat.succ.inj h2) h3.2
    refine ⟨((x, y), v, w) :: qs, by simp [a], by simp [b], by simp [c], ?_⟩
    intro q hq
    rcases List.mem_cons.1 hq with rfl | hq
    · exact h3.1
    · exact d q hq
  | [], _ :: _, _, _, h, _, _ => by simp at h
  | _ :: _, [], _, _, h, _, _ => by simp at h
  | [], [], _ :: _, _, _, h, _ => by simp at h
  | _ :: _, _ :: _, [], _, _, h, _ => by simp at h
  | [], [], [], _ :: _, _, _, h => h.elim
  | _ :: _, _ :: _, _ :: _, [], _, _, h => h.elim

theorem bindOne {x y : String} {v w : SVal} {ρ : Ren} {env env' : SEnv} (he : EnvRel ρ env env') (h : VAlpha v w) :
    MAlpha (EnvRel ((x, y) :: ρ)) (SM.bindVars [(x, v)] env : SM D SEnv) (SM.bindVars [(y, w)] env') :=
  bindVars [((x, y), v, w)] he (by simpa using h)

theorem readVar {x y : String} {sp sp' : Span} {ρ : Ren} {env env' : SEnv} (he : EnvRel ρ env env') (h : ρ.Same x y) :
    MAlpha VAlpha (Quilt.readVar x sp env : SM D SVal) (Quilt.readVar y sp' env') := by
  obtain ⟨h1, h2⟩ := he.lookup h
  unfold Quilt.readVar
  rw [← h1]
  split
  · exact load
  · rename_i hn
    obtain rfl := h2 hn
    refine bind getGlobal ?_
    rintro (_ | v) (_ | w) hr <;> first | exact hr.elim | exact pure hr | exact err rfl

theorem writeVar {x y : String} {sp sp' : Span} {ρ : Ren} {env env' : SEnv} {v w : SVal} (he : EnvRel ρ env env') (h : ρ.Same x y) (hv : VAlpha v w) :
    MAlpha (fun _ _ => True) (Quilt.writeVar x sp env v : SM D Unit) (Quilt.writeVar y sp' env' w) := by
  obtain ⟨h1, h2⟩ := he.lookup h
  unfold Quilt.writeVar
  rw [← h1]
  split
  · exact store hv
  · rename_i hn
    obtain rfl := h2 hn
    refine bind getGlobal ?_
    rintro (_ | v) (_ | w) hr <;> first | exact hr.elim | exact defGlobal hv | exact err rfl

theorem eqVals {F : FOps} {a b a' b' : SVal} (ha : VAlpha a a') (hb : VAlpha b b') : MAlpha (· = ·) (Quilt.eqVals F a b : SM D Bool) (Quilt.eqVals F a' b') := by
  unfold Quilt.eqVals
  rw [Val.Rel.eqv_none F ha hb]
  split
  · exact pure rfl
  · exact incomparable

theorem evalBin {S : SHost D} {op : Op} {sp sp' : Span} {a b a' b' : SVal} (ha : VAlpha a a') (hb : VAlpha b b') :
    MAlpha VAlpha (Quilt.evalBin S op sp a b) (Quilt.evalBin S op sp' a' b') := by
  unfold Quilt.evalBin
  split
  · exact bind (eqVals ha hb) fun _ _ h => pure (by subst h; rfl)
  · exact bind (eqVals ha hb) fun _ _ h => pure (by subst h; rfl)
  · rename_i h1 h2
    exact lift (Val.rel_binary _ _ _ _ _ h1 h2 ha hb)

theorem declMany {xs ys : List Name} {sp sp' : Span} {v w : SVal} {ρ : Ren} {env env' : SEnv} (he : EnvRel ρ env env') (hv : VAlpha v w) (hl : xs.length = ys.length) :
    MAlpha (EnvRel (ρ.decl (.many xs) (.many ys))) (Quilt.declVars (.many xs) sp v env : SM D SEnv) (Quilt.declVars (.many ys) sp' w env') := by
  unfold Quilt.declVars
  have h1 := Val.rel_unpack xs.length hv
  have h2 := fun vs => unpack_length (v := v) (n := xs.length) (vs := vs)
  simp only [← hl]
  generalize v.unpack xs.length = r at h1 h2
  generalize w.unpack xs.length = r' at h1
  cases r <;> cases r' <;> first | exact h1.elim | skip
  · rename_i vs ws
    obtain ⟨qs, a, b, c, d⟩ := zips (xs := xs.map Prod.fst) (ys := ys.map Prod.fst) (vs := vs) (ws := ws) (by simpa using hl) (by simpa using (h2 vs rfl).symm) h1
    have := bindVars (D := D) qs.reverse he (fun q hq => d q (List.mem_reverse.1 hq))
    simp only [List.map_reverse, List.reverse_reverse, ← a, ← b, ← c] at this
    exact this
  · cases h1; exact err rfl
  · exact panic

theorem declVars {x y : Var} {sp sp' : Span} {v w : SVal} {ρ : Ren} {env env' : SEnv} (he : EnvRel ρ env env') (hv : VAlpha v w) (hl : x.Fits y) :
    MAlpha (EnvRel (ρ.decl x y)) (Quilt.declVars x sp v env : SM D SEnv) (Quilt.declVars y sp' w env') := by
  cases x <;> cases y <;> first | exact hl.elim | skip
  · exact bindOne he hv
  · exact declMany he hv hl

theorem truthy {S : SHost D} {sp sp' : Span} {v w : SVal} (h : VAlpha v w) : MAlpha (· = ·) (Quilt.truthy S sp v) (Quilt.truthy S sp' w) := by
  unfold Quilt.truthy
  rw [h.isTruthy]
  exact lift (Res.Rel.refl_of (fun _ => rfl) _)

theorem whileN {S : SHost D} {sp sp' : Span} {c b c' b' : SM D SVal} (hc : MAlpha VAlpha c c') (hb : MAlpha VAlpha b b') : ∀ {W : Nat} {v w : SVal}, VAlpha v w →
    MAlpha VAlpha (Quilt.whileN S sp c b W v) (Quilt.whileN S sp' c' b' W w)
  | 0, _, _, _ => timeout
  | W + 1, v, w, h => by
    unfold Quilt.whileN
    refine bind hc fun v w hv => bind (truthy hv) ?_
    rintro (_ | _) _ rfl
    · exact pure h
    · exact bind hb fun v w hv => whileN hc hb hv

theorem forN {i i' : Nat → SM D (Option SVal)} (hi : ∀ k, MAlpha (Val.RelO CAlpha) (i k) (i' k)) {b b' : SVal → SM D SVal}
    (hb : ∀ v w, VAlpha v w → MAlpha VAlpha (b v) (b' w)) : ∀ {W k : Nat} {v w : SVal}, VAlpha v w → MAlpha VAlpha (Quilt.forN i b W k v) (Quilt.forN i' b' W k w)
  | 0, _, _, _, _ => timeout
  | W + 1, k, v, w, h => by
    unfold Quilt.forN
    refine bind (hi k) ?_
    rintro (_ | x) (_ | y) hr <;> first | exact hr.elim | skip
    · exact pure h
    · exact bind (hb x y hr) fun v w hv => forN hi hb hv

/-- Calls go in lockstep. -/
def Calls (call : SClos → List SVal → SM D SVal) : Prop :=
  ∀ c c' vs ws, CAlpha c c' → Val.RelL CAlpha vs ws → vs.length = c.params.length → MAlpha VAlpha (call c vs) (call c' ws)

theorem applyVal {call : SClos → List SVal → SM D SVal} (hc : Calls call) {sp sp' : Span} {f f' : SVal} {vs ws : List SVal} (hf : VAlpha f f') (h : Val.RelL CAlpha vs ws) :
    MAlpha VAlpha (Quilt.applyVal call sp f vs) (Quilt.applyVal call sp' f' ws) := by
  cases f <;> cases f' <;> first
    | exact hf.elim
    | (simp only [Quilt.applyVal]; rw [Val.Rel.ntype hf]; exact err rfl)
    | skip
  have hf : CAlpha _ _ := hf
  simp only [Quilt.applyVal]
  rw [← hf.name, ← hf.params, ← h.length_eq]
  split
  · exact err rfl
  · rename_i hn
    exact hc _ _ _ _ hf h (Decidable.not_not.1 hn)

section
variable {S : SHost D} (hS : ∀ x b, S.builtins x = some b → BuiltinAlpha S.lim b)
include hS

theorem callBuiltin {x : String} {sp sp' : Span} {vs ws : List SVal} (h : Val.RelL CAlpha vs ws) : MAlpha VAlpha (Quilt.callBuiltin S x sp vs) (Quilt.callBuiltin S x sp' ws) := by
  unfold Quilt.callBuiltin
  split
  · rename_i f hf; exact host fun d => (hS x _ hf).rel CAlpha (fun _ _ h => h.name) d vs ws h
  · exact err rfl
  · exact err rfl

theorem enterCtx {x : String} {sp sp' : Span} {vs ws : List SVal} (h : Val.RelL CAlpha vs ws) : MAlpha VAlpha (Quilt.enterCtx S x sp vs) (Quilt.enterCtx S x sp' ws) := by
  unfold Quilt.enterCtx
  split
  · rename_i f hf; exact host fun d => (hS x _ hf).rel CAlpha (fun _ _ h => h.name) d vs ws h
  · rename_i f x' hf; exact bind pushExit fun _ _ _ => host fun d => (BRelG.rel (hS x _ hf)) CAlpha (fun _ _ h => h.name) d vs ws h
  · exact err rfl
end

end MAlpha

/-- Such nodes are of the same kind. -/
theorem Node.Alpha.isStatement : ∀ {n m : Node} {ρ : Ren}, n.Alpha ρ m → n.isStatement = m.isStatement := by
  intro n m ρ h
  cases n with
  | ctx sp x es v b =>
    cases v <;> (unfold Node.Alpha at h; obtain ⟨_, _, _, h⟩ := h)
    · obtain ⟨_, rfl, _⟩ := h; rfl
    · obtain ⟨_, _, rfl, _⟩ := h; rfl
  | _ => unfold Node.Alpha at h; obtain ⟨_, h⟩ := h; first | (subst h; rfl) | (obtain ⟨_, h⟩ := h; first | (obtain ⟨rfl, _⟩ := h; rfl) | (obtain ⟨_, h⟩ := h; first | (obtain ⟨rfl, _⟩ := h; rfl) | (obtain ⟨_, h⟩ := h; obtain ⟨rfl, _⟩ := h; rfl)) )

/-- After anything but a declaration the scope is as before. -/
theorem Ren.after_expr {n m : Node} {ρ : Ren} (h : n.isStatement = false) : ρ.after n m = ρ := by
  cases n <;> first | rfl | simp [Node.isStatement] at h

namespace MAlpha
variable {S : SHost D} (hS : ∀ x b, S.builtins x = some b → BuiltinAlpha S.lim b) {call : SClos → List SVal → SM D SVal} (hc : Calls call) {W : Nat}
include hS hc

mutual
theorem node : ∀ (n : Node) {m : Node} {ρ : Ren} {env env' : SEnv}, n.Alpha ρ m → EnvRel ρ env env' → MAlpha VAlpha (evalNode S call W n env) (evalNode S call W m env')
  | .lit _ l, m, ρ, env, env', h, he => by
    unfold Node.Alpha at h; obtain ⟨_, rfl⟩ := h; unfold evalNode; exact pure (Val.Rel.toVal l)
  | .ident sp x, m, ρ, env, env', h, he => by
    unfold Node.Alpha at h; obtain ⟨_, _, rfl, h⟩ := h; unfold evalNode; exact readVar he h
  | .assign _ (x, xsp) e, m, ρ, env, env', h, he => by
    unfold Node.Alpha at h; obtain ⟨_, ⟨y, ysp⟩, e', rfl, h, h1⟩ := h; unfold evalNode
    exact bind (node e h1 he) fun v w hv => bind (writeVar he h hv) fun _ _ _ => pure hv
  | .pair _ a b, m, ρ, env, env', h, he => by
    unfold Node.Alpha at h; obtain ⟨_, a', b', rfl, h1, h2⟩ := h; unfold evalNode
    exact bind (node a h1 he) fun _ _ hv => bind (node b h2 he) fun _ _ hw => pure ⟨hv, hw⟩
  | .range _ a b, m, ρ, env, env', h, he => by
    unfold Node.Alpha at h; obtain ⟨_, a', b', rfl, h1, h2⟩ := h; unfold evalNode
    exact bind (node a h1 he) fun _ _ hv => bind (node b h2 he) fun _ _ hw => lift (Val.rel_mkRange hv hw)
  | .array sp es, m, ρ, env, env', h, he => by
    unfold Node.Alpha at h; obtain ⟨_, es', rfl, h⟩ := h; unfold evalNode
    exact bind (rev es h he) fun _ _ hv => lift (Val.rel_mkArray _ hv)
  | .index sp e i, m, ρ, env, env', h, he => by
    unfold Node.Alpha at h; obtain ⟨_, a', b', rfl, h1, h2⟩ := h; unfold evalNode
    exact bind (node i h2 he) fun _ _ hv => bind (node e h1 he) fun _ _ hw => lift (Val.rel_indexGet _ hw hv)
  | .un sp op e, m, ρ, env, env', h, he => by
    unfold Node.Alpha at h; obtain ⟨_, e', rfl, h⟩ := h; unfold evalNode
    exact bind (node e h he) fun _ _ hv => lift (Val.rel_unary _ _ hv)
  | .bin sp op a b, m, ρ, env, env', h, he => by
    unfold Node.Alpha at h; obtain ⟨_, a', b', rfl, h1, h2⟩ := h; unfold evalNode
    exact bind (node a h1 he) fun _ _ hv => bind (node b h2 he) fun _ _ hw => evalBin hv hw
  | .block _ b, m, ρ, env, env', h, he => by
    unfold Node.Alpha at h; obtain ⟨_, b', rfl, h⟩ := h; unfold evalNode; exact stmts b h he
  | .cond sp c th el, m, ρ, env, env', h, he => by
    unfold Node.Alpha at h; obtain ⟨_, c', b', o', rfl, h1, h2, h3⟩ := h; unfold evalNode
    refine bind (node c h1 he) fun _ _ hv => bind (truthy hv) ?_
    rintro (_ | _) _ rfl
    · exact opt el h3 he
    · exact stmts th h2 he
  | .switch _ e cs d, m, ρ, env, env', h, he => by
    unfold Node.Alpha at h; obtain ⟨_, e', cs', o', rfl, h1, h2, h3⟩ := h; unfold evalNode
    exact bind (node e h1 he) fun _ _ hv => cases cs hv h2 he (opt d h3 he)
  | .while sp c b, m, ρ, env, env', h, he => by
    unfold Node.Alpha at h; obtain ⟨_, c', b', rfl, h1, h2⟩ := h; unfold evalNode
    exact whileN (node c h1 he) (stmts b h2 he) trivial
  | .forIn sp x e b, m, ρ, env, env', h, he => by
    unfold Node.Alpha at h; obtain ⟨_, y, e', b', rfl, h1, h2⟩ := h; unfold evalNode
    exact bind (node e h1 he) fun _ _ hv => forN (fun k => lift (Val.rel_iterItem _ _ hv)) (fun _ _ hw => bind (bindOne he hw) fun _ _ he' => stmts b h2 he') trivial
  | .forMulti sp xs e b, m, ρ, env, env', h, he => by
    unfold Node.Alpha at h; obtain ⟨_, ys, e', b', rfl, h0, h1, h2⟩ := h; unfold evalNode
    exact bind (node e h1 he) fun _ _ hv => forN (fun k => lift (Val.rel_iterItem _ _ hv)) (fun _ _ hw => bind (declMany he hw h0) fun _ _ he' => stmts b h2 he') trivial
  | .lambda sp ps b, m, ρ, env, env', h, he => by
    unfold Node.Alpha at h; obtain ⟨_, qs, b', rfl, h1, h2⟩ := h; unfold evalNode
    exact pure (show CAlpha _ _ from ⟨rfl, by simpa using h1, ρ, he, h2⟩)
  | .call sp f es, m, ρ, env, env', h, he => by
    unfold Node.Alpha at h; obtain ⟨_, f', es', rfl, h1, h2⟩ := h; unfold evalNode
    exact bind (node f h1 he) fun _ _ hv => bind (args es h2 he) fun _ _ hw => applyVal hc hv hw
  | .builtin _ x es, m, ρ, env, env', h, he => by
    unfold Node.Alpha at h; obtain ⟨_, y, es', rfl, h1, h2⟩ := h; unfold evalNode
    rw [h1]
    exact bind (args es h2 he) fun _ _ hw => callBuiltin hS hw
  | .ctx sp x es none b, m, ρ, env, env', h, he => by
    unfold Node.Alpha at h; obtain ⟨_, y, es', b', rfl, h0, h1, h2⟩ := h; unfold evalNode
    rw [h0]
    exact bind (args es h1 he) fun _ _ hw => bind (enterCtx hS hw) fun _ _ hr => bind (pure he) fun _ _ he' => bind (stmts b h2 he') fun _ _ hv =>
      bind popExit fun _ _ _ => pure hv
  | .ctx sp x es (some v) b, m, ρ, env, env', h, he => by
    unfold Node.Alpha at h; obtain ⟨_, y, es', w, b', rfl, h0, hf, h1, h2⟩ := h; unfold evalNode
    rw [h0]
    exact bind (args es h1 he) fun _ _ hw => bind (enterCtx hS hw) fun _ _ hr => bind (declVars he hr hf) fun _ _ he' => bind (stmts b h2 he') fun _ _ hv =>
      bind popExit fun _ _ _ => pure hv
  | .decl .., m, ρ, env, env', h, he => by unfold Node.Alpha at h; obtain ⟨_, _, _, rfl, _⟩ := h; unfold evalNode; exact unspec
  | .extern .., m, ρ, env, env', h, he => by unfold Node.Alpha at h; obtain ⟨_, _, _, rfl, _⟩ := h; unfold evalNode; exact unspec
  | .func .., m, ρ, env, env', h, he => by unfold Node.Alpha at h; obtain ⟨_, _, _, _, rfl, _⟩ := h; unfold evalNode; exact unspec
  | .include .., m, ρ, env, env', h, he => by unfold Node.Alpha at h; obtain ⟨_, _, _, rfl, _⟩ := h; unfold evalNode; exact unspec
  | .ret .., m, ρ, env, env', h, he => by unfold Node.Alpha at h; obtain ⟨_, _, rfl, _⟩ := h; unfold evalNode; exact unspec
termination_by structural n => n
theorem stmt : ∀ (n : Node) {m : Node} {ρ : Ren} {env env' : SEnv}, n.isStatement = true → n.Alpha ρ m → EnvRel ρ env env' →
    MAlpha (EnvRel (ρ.after n m)) (evalStmt S call W n env) (evalStmt S call W m env')
  | .decl sp v e, m, ρ, env, env', _, h, he => by
    unfold Node.Alpha at h; obtain ⟨_, w, e', rfl, h1, h2⟩ := h; unfold evalStmt
    exact bind (node e h2 he) fun _ _ hv => declVars he hv h1
  | .func _ f ps b, m, ρ, env, env', _, h, he => by
    unfold Node.Alpha at h; obtain ⟨_, g, qs, b', rfl, h0, h1, h2⟩ := h; unfold evalStmt
    rw [← h0]
    exact bindOne he (show CAlpha _ _ from ⟨rfl, by simpa using h1, ρ, he, h2⟩)
  | .ret _ e, m, ρ, env, env', _, h, he => by
    unfold Node.Alpha at h; obtain ⟨_, o', rfl, h⟩ := h; unfold evalStmt
    exact bind (retE e h he) fun _ _ hv => ret hv
  | .extern .., m, ρ, env, env', _, h, he => by unfold Node.Alpha at h; obtain ⟨_, _, _, rfl, _⟩ := h; unfold evalStmt; exact unspec
  | .include .., m, ρ, env, env', _, h, he => by unfold Node.Alpha at h; obtain ⟨_, _, _, rfl, _⟩ := h; unfold evalStmt; exact unspec
  | .lit .., m, ρ, env, env', hs, h, he | .ident .., m, ρ, env, env', hs, h, he | .assign .., m, ρ, env, env', hs, h, he | .pair .., m, ρ, env, env', hs, h, he
  | .range .., m, ρ, env, env', hs, h, he | .array .., m, ρ, env, env', hs, h, he | .index .., m, ρ, env, env', hs, h, he | .un .., m, ρ, env, env', hs, h, he
  | .bin .., m, ρ, env, env', hs, h, he | .block .., m, ρ, env, env', hs, h, he | .cond .., m, ρ, env, env', hs, h, he | .switch .., m, ρ, env, env', hs, h, he
  | .while .., m, ρ, env, env', hs, h, he | .forIn .., m, ρ, env, env', hs, h, he | .forMulti .., m, ρ, env, env', hs, h, he | .lambda .., m, ρ, env, env', hs, h, he
  | .call .., m, ρ, env, env', hs, h, he | .builtin .., m, ρ, env, env', hs, h, he | .ctx .., m, ρ, env, env', hs, h, he => by simp [Node.isStatement] at hs
termination_by structural n => n
theorem stmts : ∀ (ns : List Node) {ms : List Node} {ρ : Ren} {env env' : SEnv}, AlphaB ns ρ ms → EnvRel ρ env env' →
    MAlpha VAlpha (evalStmts S call W ns env) (evalStmts S call W ms env')
  | [], ms, ρ, env, env', h, he => by unfold AlphaB at h; subst h; unfold evalStmts; exact unspec
  | [n], ms, ρ, env, env', h, he => by
    unfold AlphaB at h; obtain ⟨m, ms', rfl, h1, h2⟩ := h
    unfold AlphaB at h2; subst h2
    unfold evalStmts
    rw [← h1.isStatement]
    split
    · rename_i hs; exact bind (stmt n hs h1 he) fun _ _ _ => unspec
    · exact node n h1 he
  | n :: n' :: ns, ms, ρ, env, env', h, he => by
    unfold AlphaB at h; obtain ⟨m, ms', rfl, h1, h2⟩ := h
    have h3 := h2
    unfold AlphaB at h3; obtain ⟨m', ms'', rfl, _⟩ := h3
    unfold evalStmts
    rw [← h1.isStatement]
    split
    · rename_i hs; exact bind (stmt n hs h1 he) fun _ _ he' => stmts (n' :: ns) h2 he'
    · rename_i hs
      rw [Ren.after_expr (by simpa using hs)] at h2
      exact bind (node n h1 he) fun _ _ _ => stmts (n' :: ns) h2 he
termination_by structural n => n
theorem args : ∀ (ns : List Node) {ms : List Node} {ρ : Ren} {env env' : SEnv}, AlphaL ns ρ ms → EnvRel ρ env env' →
    MAlpha (Val.RelL CAlpha) (evalArgs S call W ns env) (evalArgs S call W ms env')
  | [], ms, ρ, env, env', h, he => by unfold AlphaL at h; subst h; unfold evalArgs; exact pure trivial
  | n :: ns, ms, ρ, env, env', h, he => by
    unfold AlphaL at h; obtain ⟨m, ms', rfl, h1, h2⟩ := h; unfold evalArgs
    exact bind (node n h1 he) fun _ _ hv => bind (args ns h2 he) fun _ _ hw => pure ⟨hv, hw⟩
termination_by structural n => n
theorem rev : ∀ (ns : List Node) {ms : List Node} {ρ : Ren} {env env' : SEnv}, AlphaL ns ρ ms → EnvRel ρ env env' →
    MAlpha (Val.RelL CAlpha) (evalRev S call W ns env) (evalRev S call W ms env')
  | [], ms, ρ, env, env', h, he => by unfold AlphaL at h; subst h; unfold evalRev; exact pure trivial
  | n :: ns, ms, ρ, env, env', h, he => by
    unfold AlphaL at h; obtain ⟨m, ms', rfl, h1, h2⟩ := h; unfold evalRev
    exact bind (rev ns h2 he) fun _ _ hw => bind (node n h1 he) fun _ _ hv => pure ⟨hv, hw⟩
termination_by structural n => n
theorem opt : ∀ (o : Option (List Node)) {o' : Option (List Node)} {ρ : Ren} {env env' : SEnv}, AlphaO o ρ o' → EnvRel ρ env env' →
    MAlpha VAlpha (evalOpt S call W o env) (evalOpt S call W o' env')
  | some b, o', ρ, env, env', h, he => by unfold AlphaO at h; obtain ⟨b', rfl, h⟩ := h; unfold evalOpt; exact stmts b h he
  | none, o', ρ, env, env', h, he => by unfold AlphaO at h; subst h; unfold evalOpt; exact pure trivial
termination_by structural n => n
theorem retE : ∀ (o : Option Node) {o' : Option Node} {ρ : Ren} {env env' : SEnv}, AlphaE o ρ o' → EnvRel ρ env env' →
    MAlpha VAlpha (evalRet S call W o env) (evalRet S call W o' env')
  | some e, o', ρ, env, env', h, he => by unfold AlphaE at h; obtain ⟨b', rfl, h⟩ := h; unfold evalRet; exact node e h he
  | none, o', ρ, env, env', h, he => by unfold AlphaE at h; subst h; unfold evalRet; exact pure trivial
termination_by structural n => n
theorem cases : ∀ (cs : List (Node × List Node)) {ds : List (Node × List Node)} {ρ : Ren} {env env' : SEnv} {v w : SVal} {d d' : SM D SVal}, VAlpha v w →
    AlphaC cs ρ ds → EnvRel ρ env env' → MAlpha VAlpha d d' → MAlpha VAlpha (evalCases S call W cs v env d) (evalCases S call W ds w env' d')
  | [], ds, ρ, env, env', v, w, d, d', hv, h, he, hd => by unfold AlphaC at h; subst h; unfold evalCases; exact hd
  | (c, b) :: cs, ds, ρ, env, env', v, w, d, d', hv, h, he, hd => by
    unfold AlphaC at h; obtain ⟨c', b', ds', rfl, h1, h2, h3⟩ := h; unfold evalCases
    refine bind (node c h1 he) fun _ _ hw => bind (eqVals hv hw) ?_
    rintro (_ | _) _ rfl
    · exact cases cs hv h3 he hd
    · exact stmts b h2 he
termination_by structural cs => cs
end

omit hc in
theorem callN_step {n : Nat} (ih : Calls (Quilt.callN S W n)) : Calls (Quilt.callN S W (n + 1)) := by
  intro c c' vs ws h hv hl σ σ' hs
  simp only [Quilt.callN]
  obtain ⟨ρ, he, hb⟩ := h.body
  obtain ⟨qs, a1, a2, a3, a4⟩ := zips (xs := c.params) (ys := c'.params) h.params hl.symm hv
  have h0 := bindVars (D := D) (((c.name, c.name), .clos c, .clos c') :: qs) he (by
    intro q hq
    rcases List.mem_cons.1 hq with rfl | hq
    · exact h
    · exact a4 q hq)
  simp only [List.map_cons, ← a1, ← a2, ← a3, List.reverse_cons, List.append_assoc, List.singleton_append] at h0
  have h1 := MAlpha.bind h0 fun env env' he' => MAlpha.stmts hS ih (W := W) c.body hb he'
  have h2 := h1 { σ with data := S.onEnter σ.data } { σ' with data := S.onEnter σ'.data } ⟨hs.store, hs.next, hs.globals, congrArg S.onEnter hs.data, hs.exits⟩
  unfold callScope
  rw [← h.name]
  generalize (SM.bindVars ((c.name, .clos c) :: c.params.zip vs) c.env >>= fun env => evalStmts S (Quilt.callN S W n) W c.body env) { σ with data := S.onEnter σ.data } = r at h2
  generalize (SM.bindVars ((c.name, .clos c') :: c'.params.zip ws) c'.env >>= fun env => evalStmts S (Quilt.callN S W n) W c'.body env) { σ' with data := S.onEnter σ'.data } = r' at h2
  obtain ⟨o, τ⟩ := r
  obtain ⟨o', τ'⟩ := r'
  obtain ⟨h3, h4⟩ := h2
  cases o <;> cases o' <;> first
    | exact h3.elim
    | exact ⟨h3, ⟨h4.store, h4.next, h4.globals, congrArg S.onExit h4.data, h4.exits⟩⟩
    | exact ⟨h3, h4⟩
    | exact ⟨rfl, h4⟩

omit hc in
theorem callN : ∀ n : Nat, Calls (Quilt.callN S W n)
  | 0 => fun _ _ _ _ _ _ _ => timeout
  | n + 1 => callN_step hS (callN n)

omit hS hc in
theorem defGlobals : ∀ {xs : List String} {vs ws : List SVal}, Val.RelL CAlpha vs ws →
    MAlpha (fun _ _ => True) (Quilt.defGlobals (xs.zip vs) : SM D Unit) (Quilt.defGlobals (xs.zip ws))
  | [], _, _, _ => pure trivial
  | _ :: _, [], [], _ => pure trivial
  | _ :: _, _ :: _, _ :: _, h => bind (defGlobal h.1) fun _ _ _ => defGlobals h.2
  | _ :: _, [], _ :: _, h => h.elim
  | _ :: _, _ :: _, [], h => h.elim

omit hS hc in
/-- An expression at the top level. -/
theorem _root_.Quilt.Node.AlphaTop.expr {n m : Node} (hs : n.isStatement = false) (h : n.AlphaTop m) : n.Alpha [] m := by
  cases n <;> first | exact h | simp [Node.isStatement] at hs

omit hS hc in
theorem _root_.Quilt.Node.AlphaTop.isStatement {n m : Node} (h : n.AlphaTop m) : n.isStatement = m.isStatement := by
  cases n with
  | decl => unfold Node.AlphaTop at h; obtain ⟨_, _, _, rfl, _⟩ := h; rfl
  | «include» => unfold Node.AlphaTop at h; obtain ⟨_, _, _, rfl, _⟩ := h; rfl
  | _ => exact Node.Alpha.isStatement (ρ := []) h

mutual
theorem topStmt : ∀ (n : Node) {m : Node}, n.isStatement = true → n.AlphaTop m → MAlpha (fun _ _ => True) (evalTopStmt S call W n) (evalTopStmt S call W m)
  | .decl sp v e, m, _, h => by
    unfold Node.AlphaTop at h; obtain ⟨_, w, e', rfl, h1, h2, h3⟩ := h
    unfold evalTopStmt
    refine bind (node hS hc e h3 (env := []) (env' := []) trivial) fun v' w' hv => ?_
    match v, w, h1, h2 with
    | .one x, .one y, _, h2 =>
      simp only [Var.binds, List.cons.injEq, and_true] at h2
      simp only [h2]
      exact defGlobal hv
    | .many xs, .many ys, h1, h2 =>
      have h2 : xs.map Prod.fst = ys.map Prod.fst := h2
      have h1 : xs.length = ys.length := h1
      simp only [h2, h1]
      exact bind (lift (Val.rel_unpack _ hv)) fun _ _ hr => defGlobals hr
  | .func _ f ps b, m, _, h => by
    have h : Node.Alpha _ [] m := h
    unfold Node.Alpha at h; obtain ⟨_, g, qs, b', rfl, h0, h1, h2⟩ := h; unfold evalTopStmt
    rw [← h0]
    exact defGlobal (show CAlpha _ _ from ⟨rfl, by simpa using h1, [], trivial, h2⟩)
  | .extern _ x e, m, _, h => by
    have h : Node.Alpha _ [] m := h
    unfold Node.Alpha at h; obtain ⟨_, y, e', rfl, h1, h2⟩ := h; unfold evalTopStmt
    rw [← h1]
    refine bind (node hS hc e h2 (env := []) (env' := []) trivial) fun _ _ hv => bind getGlobal ?_
    rintro (_ | v) (_ | w) hr <;> first | exact hr.elim | exact defGlobal hv | exact pure trivial
  | .include _ _ b, m, _, h => by
    unfold Node.AlphaTop at h; obtain ⟨_, y, b', rfl, _, h⟩ := h; unfold evalTopStmt; exact topIncl b h
  | .ret .., m, _, h => by
    have h : Node.Alpha _ [] m := h
    unfold Node.Alpha at h; obtain ⟨_, _, rfl, _⟩ := h; unfold evalTopStmt; exact unspec
  | .lit .., m, hs, h | .ident .., m, hs, h | .assign .., m, hs, h | .pair .., m, hs, h
  | .range .., m, hs, h | .array .., m, hs, h | .index .., m, hs, h | .un .., m, hs, h
  | .bin .., m, hs, h | .block .., m, hs, h | .cond .., m, hs, h | .switch .., m, hs, h
  | .while .., m, hs, h | .forIn .., m, hs, h | .forMulti .., m, hs, h | .lambda .., m, hs, h
  | .call .., m, hs, h | .builtin .., m, hs, h | .ctx .., m, hs, h => by simp [Node.isStatement] at hs
termination_by structural n => n
theorem topEach : ∀ (ns : List Node) {ms : List Node}, AlphaProg ns ms → MAlpha (fun _ _ => True) (evalEach S call W ns) (evalEach S call W ms)
  | [], ms, h => by unfold AlphaProg at h; subst h; unfold evalEach; exact pure trivial
  | n :: ns, ms, h => by
    unfold AlphaProg at h; obtain ⟨m, ms', rfl, h1, h2⟩ := h; unfold evalEach
    rw [← h1.isStatement]
    split
    · rename_i hs; exact bind (topStmt n hs h1) fun _ _ _ => topEach ns h2
    · rename_i hs; exact bind (node hS hc n (h1.expr (by simpa using hs)) (env := []) (env' := []) trivial) fun _ _ _ => topEach ns h2
termination_by structural n => n
theorem topIncl : ∀ (o : Option (List Node)) {o' : Option (List Node)}, AlphaIncl o o' → MAlpha (fun _ _ => True) (evalIncl S call W o) (evalIncl S call W o')
  | some b, o', h => by unfold AlphaIncl at h; obtain ⟨b', rfl, h⟩ := h; unfold evalIncl; exact topEach b h
  | none, o', h => by unfold AlphaIncl at h; subst h; unfold evalIncl; exact unspec
termination_by structural n => n
end

theorem top : ∀ (ns : List Node) {ms : List Node}, AlphaProg ns ms → MAlpha VAlpha (evalTop S call W ns) (evalTop S call W ms)
  | [], ms, h => by unfold AlphaProg at h; subst h; unfold evalTop; exact unspec
  | [n], ms, h => by
    unfold AlphaProg at h; obtain ⟨m, ms', rfl, h1, h2⟩ := h
    unfold AlphaProg at h2; subst h2
    unfold evalTop
    rw [← h1.isStatement]
    split
    · rename_i hs; exact bind (topStmt hS hc n hs h1) fun _ _ _ => unspec
    · rename_i hs; exact node hS hc n (h1.expr (by simpa using hs)) (env := []) (env' := []) trivial
  | n :: n' :: ns, ms, h => by
    unfold AlphaProg at h; obtain ⟨m, ms', rfl, h1, h2⟩ := h
    have h3 := h2
    unfold AlphaProg at h3; obtain ⟨m', ms'', rfl, _⟩ := h3
    unfold evalTop
    rw [← h1.isStatement]
    split
    · rename_i hs; exact bind (topStmt hS hc n hs h1) fun _ _ _ => top (n' :: ns) h2
    · rename_i hs; exact bind (node hS hc n (h1.expr (by simpa using hs)) (env := []) (env' := []) trivial) fun _ _ _ => top (n' :: ns) h2

end MAlpha

/-- Programs equal up to positions and names of local variables run in lockstep. -/
theorem evalProgram_alpha {S : SHost D} (hS : ∀ x b, S.builtins x = some b → BuiltinAlpha S.lim b) (k : Nat) {ast ast' : List Node} (h : AlphaProg ast ast') :
    MAlpha VAlpha (evalProgram S k ast) (evalProgram S k ast') := MAlpha.top hS (MAlpha.callN hS k) ast h

end Quilt
