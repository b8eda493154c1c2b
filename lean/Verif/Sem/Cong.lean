import Verif.Sem.Alpha

/-!
# Parts of a program may be replaced by parts with the same meaning

Evaluation of programs goes in lockstep if one is the other one with expressions and blocks replaced, anywhere and any number of times, by expressions and
blocks of the same meaning.
-/

namespace Quilt

/-- Expressions with the same meaning: with every host, in every scope and state. -/
def Node.Equiv (n m : Node) : Prop :=
  n.isStatement = false ∧ m.isStatement = false ∧
    ∀ (D : Type) (S : SHost D) (call : SClos → List SVal → SM D SVal) (W : Nat) (env : SEnv), evalNode S call W n env = evalNode S call W m env

/-- Blocks with the same meaning. -/
def EquivB (ns ms : List Node) : Prop :=
  ∀ (D : Type) (S : SHost D) (call : SClos → List SVal → SM D SVal) (W : Nat) (env : SEnv), evalStmts S call W ns env = evalStmts S call W ms env

/-- At most one replacement, of the whole. -/
def Node.Same (n m : Node) : Prop := n = m ∨ n.Equiv m

/-- A block after replacements inside, and one of the whole. -/
def Upto (R : List Node → Prop) (ms : List Node) : Prop := ∃ ns, R ns ∧ EquivB ns ms

mutual
/-- Equal up to positions and replacements of expressions and blocks by others with the same meaning: first inside, then of the whole. -/
def Node.Cong : Node → Node → Prop
  | .lit _ l, m => ∃ sp, Node.Same (.lit sp l) m
  | .ident _ x, m => ∃ sp, Node.Same (.ident sp x) m
  | .assign _ x e, m => ∃ sp y e', Node.Same (.assign sp y e') m ∧ x.1 = y.1 ∧ e.Cong e'
  | .pair _ a b, m => ∃ sp a' b', Node.Same (.pair sp a' b') m ∧ a.Cong a' ∧ b.Cong b'
  | .range _ a b, m => ∃ sp a' b', Node.Same (.range sp a' b') m ∧ a.Cong a' ∧ b.Cong b'
  | .index _ a b, m => ∃ sp a' b', Node.Same (.index sp a' b') m ∧ a.Cong a' ∧ b.Cong b'
  | .bin _ op a b, m => ∃ sp a' b', Node.Same (.bin sp op a' b') m ∧ a.Cong a' ∧ b.Cong b'
  | .un _ op e, m => ∃ sp e', Node.Same (.un sp op e') m ∧ e.Cong e'
  | .array _ es, m => ∃ sp es', Node.Same (.array sp es') m ∧ CongL es es'
  | .call _ f es, m => ∃ sp f' es', Node.Same (.call sp f' es') m ∧ f.Cong f' ∧ CongL es es'
  | .builtin _ x es, m => ∃ sp y es', Node.Same (.builtin sp y es') m ∧ x.1 = y.1 ∧ CongL es es'
  | .block _ b, m => ∃ sp b', Node.Same (.block sp b') m ∧ Upto (fun c => CongL b c) b'
  | .cond _ c b o, m => ∃ sp c' b' o', Node.Same (.cond sp c' b' o') m ∧ c.Cong c' ∧ Upto (fun c => CongL b c) b' ∧ CongO o o'
  | .switch _ e cs o, m => ∃ sp e' cs' o', Node.Same (.switch sp e' cs' o') m ∧ e.Cong e' ∧ CongC cs cs' ∧ CongO o o'
  | .while _ c b, m => ∃ sp c' b', Node.Same (.while sp c' b') m ∧ c.Cong c' ∧ Upto (fun c => CongL b c) b'
  | .forIn _ x e b, m => ∃ sp y e' b', Node.Same (.forIn sp y e' b') m ∧ x.1 = y.1 ∧ e.Cong e' ∧ Upto (fun c => CongL b c) b'
  | .forMulti _ xs e b, m => ∃ sp ys e' b', Node.Same (.forMulti sp ys e' b') m ∧ xs.map Prod.fst = ys.map Prod.fst ∧ e.Cong e' ∧ Upto (fun c => CongL b c) b'
  | .lambda _ ps b, m => ∃ sp qs b', Node.Same (.lambda sp qs b') m ∧ ps.map Prod.fst = qs.map Prod.fst ∧ Upto (fun c => CongL b c) b'
  | .func _ f ps b, m => ∃ sp g qs b', m = .func sp g qs b' ∧ f.1 = g.1 ∧ ps.map Prod.fst = qs.map Prod.fst ∧ Upto (fun c => CongL b c) b'
  | .ctx _ x es none b, m => ∃ sp y es' b', Node.Same (.ctx sp y es' none b') m ∧ x.1 = y.1 ∧ CongL es es' ∧ Upto (fun c => CongL b c) b'
  | .ctx _ x es (some v) b, m => ∃ sp y es' w b', Node.Same (.ctx sp y es' (some w) b') m ∧ x.1 = y.1 ∧ v.Fits w ∧ v.binds = w.binds ∧ CongL es es' ∧ Upto (fun c => CongL b c) b'
  | .decl _ v e, m => ∃ sp w e', m = .decl sp w e' ∧ v.Fits w ∧ v.binds = w.binds ∧ e.Cong e'
  | .extern _ x e, m => ∃ sp y e', m = .extern sp y e' ∧ x.1 = y.1 ∧ e.Cong e'
  | .include _ x b, m => ∃ sp y b', m = .include sp y b' ∧ x.1 = y.1 ∧ CongI b b'
  | .ret _ o, m => ∃ sp o', m = .ret sp o' ∧ CongE o o'
termination_by structural n => n
/-- Each of a list. -/
def CongL : List Node → List Node → Prop
  | [], ms => ms = []
  | n :: ns, ms => ∃ m ms', ms = m :: ms' ∧ n.Cong m ∧ CongL ns ms'
termination_by structural n => n
def CongO : Option (List Node) → Option (List Node) → Prop
  | none, o => o = none
  | some b, o => ∃ b', o = some b' ∧ Upto (fun c => CongL b c) b'
termination_by structural n => n
/-- Included files. -/
def CongI : Option (List Node) → Option (List Node) → Prop
  | none, o => o = none
  | some b, o => ∃ b', o = some b' ∧ CongL b b'
termination_by structural n => n
def CongE : Option Node → Option Node → Prop
  | none, o => o = none
  | some e, o => ∃ e', o = some e' ∧ e.Cong e'
termination_by structural n => n
/-- Cases of `switch`. -/
def CongC : List (Node × List Node) → List (Node × List Node) → Prop
  | [], cs => cs = []
  | (c, b) :: cs, ds => ∃ c' b' ds', ds = (c', b') :: ds' ∧ c.Cong c' ∧ Upto (fun c => CongL b c) b' ∧ CongC cs ds'
termination_by structural n => n
end

theorem Node.Same.rfl' {n : Node} : Node.Same n n := .inl rfl
theorem EquivB.rfl' {ns : List Node} : EquivB ns ns := fun _ _ _ _ _ => rfl

theorem Node.Same.isStatement {n m : Node} (h : Node.Same n m) : n.isStatement = m.isStatement := by
  rcases h with rfl | h
  · rfl
  · rw [h.1, h.2.1]

theorem Node.Same.eval {n m : Node} (h : Node.Same n m) {D : Type} (S : SHost D) (call : SClos → List SVal → SM D SVal) (W : Nat) (env : SEnv) :
    evalNode S call W m env = evalNode S call W n env := by
  rcases h with rfl | h
  · rfl
  · exact (h.2.2 D S call W env).symm

theorem Var.Fits.self (v : Var) : v.Fits v := by cases v <;> first | trivial | rfl

mutual
/-- Nothing need be replaced. -/
theorem Node.Cong.refl : ∀ n : Node, n.Cong n
  | .lit .. => ⟨_, .rfl'⟩
  | .ident .. => ⟨_, .rfl'⟩
  | .assign _ _ e => ⟨_, _, _, .rfl', rfl, Node.Cong.refl e⟩
  | .pair _ a b => ⟨_, _, _, .rfl', Node.Cong.refl a, Node.Cong.refl b⟩
  | .range _ a b => ⟨_, _, _, .rfl', Node.Cong.refl a, Node.Cong.refl b⟩
  | .index _ a b => ⟨_, _, _, .rfl', Node.Cong.refl a, Node.Cong.refl b⟩
  | .bin _ _ a b => ⟨_, _, _, .rfl', Node.Cong.refl a, Node.Cong.refl b⟩
  | .un _ _ e => ⟨_, _, .rfl', Node.Cong.refl e⟩
  | .array _ es => ⟨_, _, .rfl', CongL.refl es⟩
  | .call _ f es => ⟨_, _, _, .rfl', Node.Cong.refl f, CongL.refl es⟩
  | .builtin _ _ es => ⟨_, _, _, .rfl', rfl, CongL.refl es⟩
  | .block _ b => ⟨_, _, .rfl', _, CongL.refl b, .rfl'⟩
  | .cond _ c b o => ⟨_, _, _, _, .rfl', Node.Cong.refl c, ⟨_, CongL.refl b, .rfl'⟩, CongO.refl o⟩
  | .switch _ e cs o => ⟨_, _, _, _, .rfl', Node.Cong.refl e, CongC.refl cs, CongO.refl o⟩
  | .while _ c b => ⟨_, _, _, .rfl', Node.Cong.refl c, _, CongL.refl b, .rfl'⟩
  | .forIn _ _ e b => ⟨_, _, _, _, .rfl', rfl, Node.Cong.refl e, _, CongL.refl b, .rfl'⟩
  | .forMulti _ _ e b => ⟨_, _, _, _, .rfl', rfl, Node.Cong.refl e, _, CongL.refl b, .rfl'⟩
  | .lambda _ _ b => ⟨_, _, _, .rfl', rfl, _, CongL.refl b, .rfl'⟩
  | .func _ _ _ b => ⟨_, _, _, _, rfl, rfl, rfl, _, CongL.refl b, .rfl'⟩
  | .ctx _ _ es none b => ⟨_, _, _, _, .rfl', rfl, CongL.refl es, _, CongL.refl b, .rfl'⟩
  | .ctx _ _ es (some v) b => ⟨_, _, _, _, _, .rfl', rfl, Var.Fits.self v, rfl, CongL.refl es, _, CongL.refl b, .rfl'⟩
  | .decl _ v e => ⟨_, _, _, rfl, Var.Fits.self v, rfl, Node.Cong.refl e⟩
  | .extern _ _ e => ⟨_, _, _, rfl, rfl, Node.Cong.refl e⟩
  | .include _ _ b => ⟨_, _, _, rfl, rfl, CongI.refl b⟩
  | .ret _ o => ⟨_, _, rfl, CongE.refl o⟩
termination_by structural n => n
theorem CongL.refl : ∀ ns : List Node, CongL ns ns
  | [] => rfl
  | n :: ns => ⟨_, _, rfl, Node.Cong.refl n, CongL.refl ns⟩
termination_by structural n => n
theorem CongO.refl : ∀ o : Option (List Node), CongO o o
  | none => rfl
  | some b => ⟨_, rfl, _, CongL.refl b, .rfl'⟩
termination_by structural n => n
theorem CongI.refl : ∀ o : Option (List Node), CongI o o
  | none => rfl
  | some b => ⟨_, rfl, CongL.refl b⟩
termination_by structural n => n
theorem CongE.refl : ∀ o : Option Node, CongE o o
  | none => rfl
  | some e => ⟨_, rfl, Node.Cong.refl e⟩
termination_by structural n => n
theorem CongC.refl : ∀ cs : List (Node × List Node), CongC cs cs
  | [] => rfl
  | (c, b) :: cs => ⟨_, _, _, rfl, Node.Cong.refl c, ⟨_, CongL.refl b, .rfl'⟩, CongC.refl cs⟩
termination_by structural n => n
end

/-- Functions with such bodies. -/
structure CCong (c c' : SClos) : Prop where
  name : c.name = c'.name
  names : c.params = c'.params
  env : c.env = c'.env
  body : Upto (CongL c.body) c'.body

theorem CCong.params {c c' : SClos} (h : CCong c c') : c.params.length = c'.params.length := by rw [h.names]

abbrev VCong : SVal → SVal → Prop := Val.Rel CCong

variable {D α β α' β' : Type}

/-- The same outcome; positions of errors may differ. -/
def Out.Cong (P : α → α' → Prop) : Out α → Out α' → Prop
  | .ok a, .ok b => P a b
  | .ret v, .ret w => VCong v w
  | .err e sp, .err e' sp' => e = e' ∧ sp.isSome = sp'.isSome
  | .panic, .panic => True
  | .timeout, .timeout => True
  | .deep, .deep => True
  | .unspec b, .unspec b' => b = b'
  | _, _ => False

/-- States with corresponding variables. -/
structure StCong (σ σ' : SSt D) : Prop where
  store : ∀ l, VCong (σ.store l) (σ'.store l)
  next : σ.next = σ'.next
  globals : ∀ x, Val.RelO CCong (σ.globals x) (σ'.globals x)
  data : σ.data = σ'.data
  exits : σ.exits = σ'.exits

/-- Evaluations in lockstep. -/
def MCong (P : α → α' → Prop) (x : SM D α) (y : SM D α') : Prop :=
  ∀ σ σ', StCong σ σ' → Out.Cong P (x σ).1 (y σ').1 ∧ StCong (x σ).2 (y σ').2

namespace MCong
variable {P : α → α' → Prop} {Q : β → β' → Prop}

theorem pure {a : α} {a' : α'} (h : P a a') : MCong P (Pure.pure a : SM D α) (Pure.pure a') := fun _ _ hs => ⟨h, hs⟩
theorem panic : MCong P (SM.panic : SM D α) SM.panic := fun _ _ hs => ⟨trivial, hs⟩
theorem timeout : MCong P (SM.timeout : SM D α) SM.timeout := fun _ _ hs => ⟨trivial, hs⟩
theorem unspec : MCong P (SM.unspec : SM D α) SM.unspec := fun _ _ hs => ⟨rfl, hs⟩
theorem incomparable : MCong P (SM.incomparable : SM D α) SM.incomparable := fun _ _ hs => ⟨rfl, hs⟩
theorem ret {v w : SVal} (h : VCong v w) : MCong P (SM.ret v : SM D α) (SM.ret w) := fun _ _ hs => ⟨h, hs⟩
theorem err {e : Err} {sp sp' : Option Span} (h : sp.isSome = sp'.isSome) : MCong P (SM.err e sp : SM D α) (SM.err e sp') := fun _ _ hs => ⟨⟨rfl, h⟩, hs⟩

theorem bind {x : SM D α} {y : SM D α'} {f : α → SM D β} {g : α' → SM D β'} (hx : MCong P x y) (hf : ∀ a b, P a b → MCong Q (f a) (g b)) :
    MCong Q (x >>= f) (y >>= g) := by
  intro σ σ' hs
  have := hx σ σ' hs
  show Out.Cong Q (SM.bind x f σ).1 (SM.bind y g σ').1 ∧ StCong (SM.bind x f σ).2 (SM.bind y g σ').2
  simp only [SM.bind]
  generalize x σ = r at this
  generalize y σ' = r' at this
  obtain ⟨o, τ⟩ := r
  obtain ⟨o', τ'⟩ := r'
  obtain ⟨h1, h2⟩ := this
  cases o <;> cases o' <;> first | exact h1.elim | exact hf _ _ h1 _ _ h2 | exact ⟨h1, h2⟩

theorem lift {r : Res α} {r' : Res α'} {sp sp' : Span} (h : Res.Rel P r r') : MCong P (SM.lift r sp : SM D α) (SM.lift r' sp') := by
  cases r <;> cases r' <;> first | exact h.elim | exact pure h | exact panic | (cases h; exact err rfl)

theorem alloc {v w : SVal} (h : VCong v w) : MCong (· = ·) (SM.alloc v : SM D Nat) (SM.alloc w) := by
  intro σ σ' hs
  refine ⟨hs.next, ⟨fun l => ?_, congrArg (· + 1) hs.next, hs.globals, hs.data, hs.exits⟩⟩
  show VCong (upd σ.store σ.next v l) (upd σ'.store σ'.next w l)
  unfold upd
  rw [← hs.next]
  split
  · exact h
  · exact hs.store l

theorem load {l : Nat} : MCong VCong (SM.load l : SM D SVal) (SM.load l) := fun _ _ hs => ⟨hs.store l, hs⟩

theorem store {l : Nat} {v w : SVal} (h : VCong v w) : MCong (fun _ _ => True) (SM.store l v : SM D Unit) (SM.store l w) := by
  intro σ σ' hs
  refine ⟨trivial, ⟨fun k => ?_, hs.next, hs.globals, hs.data, hs.exits⟩⟩
  show VCong (upd σ.store l v k) (upd σ'.store l w k)
  unfold upd
  split
  · exact h
  · exact hs.store k

theorem getGlobal {x : String} : MCong (Val.RelO CCong) (SM.getGlobal x : SM D (Option SVal)) (SM.getGlobal x) := fun _ _ hs => ⟨hs.globals x, hs⟩

theorem defGlobal {x : String} {v w : SVal} (h : VCong v w) : MCong (fun _ _ => True) (SM.defGlobal x v : SM D Unit) (SM.defGlobal x w) := by
  intro σ σ' hs
  refine ⟨trivial, ⟨hs.store, hs.next, fun y => ?_, hs.data, hs.exits⟩⟩
  show Val.RelO CCong (if y = x then some v else σ.globals y) (if y = x then some w else σ'.globals y)
  split
  · exact h
  · exact hs.globals y

theorem pushExit {e : ExitFn D} : MCong (fun _ _ => True) (SM.pushExit e) (SM.pushExit e) := fun _ _ hs =>
  ⟨trivial, ⟨hs.store, hs.next, hs.globals, hs.data, congrArg (e :: ·) hs.exits⟩⟩

theorem host {γ γ' : Type} {P : γ → γ' → Prop} {f : D → Res γ × D} {f' : D → Res γ' × D} {sp sp' : Span} (h : ∀ d, Res.Rel P (f d).1 (f' d).1 ∧ (f d).2 = (f' d).2) :
    MCong P (SM.host f sp) (SM.host f' sp') := by
  intro σ σ' hs
  have := h σ.data
  simp only [SM.host, ← hs.data]
  generalize f σ.data = r at this
  generalize f' σ.data = r' at this
  obtain ⟨o, d⟩ := r
  obtain ⟨o', d'⟩ := r'
  obtain ⟨h1, rfl⟩ := this
  cases o <;> cases o' <;> first
    | exact h1.elim
    | (cases h1; exact ⟨⟨rfl, rfl⟩, ⟨hs.store, hs.next, hs.globals, rfl, hs.exits⟩⟩)
    | exact ⟨h1, ⟨hs.store, hs.next, hs.globals, rfl, hs.exits⟩⟩

theorem popExit {sp sp' : Span} : MCong (fun _ _ => True) (SM.popExit sp : SM D Unit) (SM.popExit sp') := by
  intro σ σ' hs
  simp only [SM.popExit, ← hs.exits]
  split
  · exact ⟨trivial, hs⟩
  · rename_i e es _
    exact host (fun d => ⟨Res.Rel.refl_of (fun _ => trivial) _, rfl⟩) { σ with exits := es } { σ' with exits := es } ⟨hs.store, hs.next, hs.globals, hs.data, rfl⟩

/-- New variables. -/
theorem bindVars : ∀ {xs : List String} {vs ws : List SVal} {env : SEnv}, Val.RelL CCong vs ws →
    MCong (· = ·) (SM.bindVars (xs.zip vs) env : SM D SEnv) (SM.bindVars (xs.zip ws) env)
  | [], _, _, _, _ => pure rfl
  | _ :: _, [], [], _, _ => pure rfl
  | x :: xs, v :: vs, w :: ws, env, h => by
    refine bind (alloc h.1) ?_
    rintro l _ rfl
    exact bindVars h.2
  | _ :: _, [], _ :: _, _, h => h.elim
  | _ :: _, _ :: _, [], _, h => h.elim

/-- New variables in any order. -/
theorem bindPairs : ∀ (qs : List (String × SVal × SVal)) {env : SEnv}, (∀ q ∈ qs, VCong q.2.1 q.2.2) →
    MCong (· = ·) (SM.bindVars (qs.map fun q => (q.1, q.2.1)) env : SM D SEnv) (SM.bindVars (qs.map fun q => (q.1, q.2.2)) env)
  | [], _, _ => pure rfl
  | (x, v, w) :: qs, env, hq => by
    refine bind (alloc (hq _ List.mem_cons_self)) ?_
    rintro l _ rfl
    exact bindPairs qs fun q h => hq q (List.mem_cons_of_mem _ h)

theorem zips : ∀ {xs : List String} {vs ws : List SVal}, Val.RelL CCong vs ws →
    ∃ qs : List (String × SVal × SVal), xs.zip vs = qs.map (fun q => (q.1, q.2.1)) ∧ xs.zip ws = qs.map (fun q => (q.1, q.2.2)) ∧ ∀ q ∈ qs, VCong q.2.1 q.2.2
  | [], _, _, _ => ⟨[], by simp, by simp, by simp⟩
  | _ :: _, [], [], _ => ⟨[], by simp, by simp, by simp⟩
  | x :: xs, v :: vs, w :: ws, h => by
    obtain ⟨qs, a, b, d⟩ := zips (xs := xs) h.2
    refine ⟨(x, v, w) :: qs, by simp [a], by simp [b], ?_⟩
    intro q hq
    rcases List.mem_cons.1 hq with rfl | hq
    · exact h.1
    · exact d q hq
  | _ :: _, [], _ :: _, h => h.elim
  | _ :: _, _ :: _, [], h => h.elim

theorem bindOne {x : String} {v w : SVal} {env : SEnv} (h : VCong v w) : MCong (· = ·) (SM.bindVars [(x, v)] env : SM D SEnv) (SM.bindVars [(x, w)] env) :=
  bindPairs [(x, v, w)] (by simpa using h)

theorem readVar {x : String} {sp sp' : Span} {env : SEnv} : MCong VCong (Quilt.readVar x sp env : SM D SVal) (Quilt.readVar x sp' env) := by
  unfold Quilt.readVar
  split
  · exact load
  · refine bind getGlobal ?_
    rintro (_ | v) (_ | w) hr <;> first | exact hr.elim | exact pure hr | exact err rfl

theorem writeVar {x : String} {sp sp' : Span} {env : SEnv} {v w : SVal} (hv : VCong v w) :
    MCong (fun _ _ => True) (Quilt.writeVar x sp env v : SM D Unit) (Quilt.writeVar x sp' env w) := by
  unfold Quilt.writeVar
  split
  · exact store hv
  · refine bind getGlobal ?_
    rintro (_ | v) (_ | w) hr <;> first | exact hr.elim | exact defGlobal hv | exact err rfl

theorem eqVals {F : FOps} {a b a' b' : SVal} (ha : VCong a a') (hb : VCong b b') : MCong (· = ·) (Quilt.eqVals F a b : SM D Bool) (Quilt.eqVals F a' b') := by
  unfold Quilt.eqVals
  rw [Val.Rel.eqv_none F ha hb]
  split
  · exact pure rfl
  · exact incomparable

theorem evalBin {S : SHost D} {op : Op} {sp sp' : Span} {a b a' b' : SVal} (ha : VCong a a') (hb : VCong b b') :
    MCong VCong (Quilt.evalBin S op sp a b) (Quilt.evalBin S op sp' a' b') := by
  unfold Quilt.evalBin
  split
  · exact bind (eqVals ha hb) fun _ _ h => pure (by subst h; rfl)
  · exact bind (eqVals ha hb) fun _ _ h => pure (by subst h; rfl)
  · rename_i h1 h2
    exact lift (Val.rel_binary _ _ _ _ _ h1 h2 ha hb)

theorem declMany {xs ys : List Name} {sp sp' : Span} {v w : SVal} {env : SEnv} (hv : VCong v w) (hl : xs.map Prod.fst = ys.map Prod.fst) :
    MCong (· = ·) (Quilt.declVars (.many xs) sp v env : SM D SEnv) (Quilt.declVars (.many ys) sp' w env) := by
  unfold Quilt.declVars
  have hn : xs.length = ys.length := by simpa using congrArg List.length hl
  simp only [← hl, ← hn]
  refine bind (lift (Val.rel_unpack xs.length hv)) fun vs ws h => ?_
  obtain ⟨qs, a, b, d⟩ := zips (xs := xs.map Prod.fst) h
  rw [a, b, ← List.map_reverse, ← List.map_reverse]
  exact bindPairs _ fun q hq => d q (List.mem_reverse.1 hq)

theorem declVars {x y : Var} {sp sp' : Span} {v w : SVal} {env : SEnv} (hv : VCong v w) (hf : x.Fits y) (hb : x.binds = y.binds) :
    MCong (· = ·) (Quilt.declVars x sp v env : SM D SEnv) (Quilt.declVars y sp' w env) := by
  cases x <;> cases y <;> first | exact hf.elim | skip
  · simp only [Var.binds, List.cons.injEq, and_true] at hb
    simp only [Quilt.declVars, hb]
    exact bindOne hv
  · exact declMany hv hb

theorem truthy {S : SHost D} {sp sp' : Span} {v w : SVal} (h : VCong v w) : MCong (· = ·) (Quilt.truthy S sp v) (Quilt.truthy S sp' w) := by
  unfold Quilt.truthy
  rw [h.isTruthy]
  exact lift (Res.Rel.refl_of (fun _ => rfl) _)

theorem whileN {S : SHost D} {sp sp' : Span} {c b c' b' : SM D SVal} (hc : MCong VCong c c') (hb : MCong VCong b b') : ∀ {W : Nat} {v w : SVal}, VCong v w →
    MCong VCong (Quilt.whileN S sp c b W v) (Quilt.whileN S sp' c' b' W w)
  | 0, _, _, _ => timeout
  | W + 1, v, w, h => by
    unfold Quilt.whileN
    refine bind hc fun v w hv => bind (truthy hv) ?_
    rintro (_ | _) _ rfl
    · exact pure h
    · exact bind hb fun v w hv => whileN hc hb hv

theorem forN {i i' : Nat → SM D (Option SVal)} (hi : ∀ k, MCong (Val.RelO CCong) (i k) (i' k)) {b b' : SVal → SM D SVal}
    (hb : ∀ v w, VCong v w → MCong VCong (b v) (b' w)) : ∀ {W k : Nat} {v w : SVal}, VCong v w → MCong VCong (Quilt.forN i b W k v) (Quilt.forN i' b' W k w)
  | 0, _, _, _, _ => timeout
  | W + 1, k, v, w, h => by
    unfold Quilt.forN
    refine bind (hi k) ?_
    rintro (_ | x) (_ | y) hr <;> first | exact hr.elim | skip
    · exact pure h
    · exact bind (hb x y hr) fun v w hv => forN hi hb hv

/-- Calls go in lockstep. -/
def Calls (call : SClos → List SVal → SM D SVal) : Prop :=
  ∀ c c' vs ws, CCong c c' → Val.RelL CCong vs ws → vs.length = c.params.length → MCong VCong (call c vs) (call c' ws)

theorem applyVal {call : SClos → List SVal → SM D SVal} (hc : Calls call) {sp sp' : Span} {f f' : SVal} {vs ws : List SVal} (hf : VCong f f') (h : Val.RelL CCong vs ws) :
    MCong VCong (Quilt.applyVal call sp f vs) (Quilt.applyVal call sp' f' ws) := by
  cases f <;> cases f' <;> first
    | exact hf.elim
    | (simp only [Quilt.applyVal]; rw [Val.Rel.ntype hf]; exact err rfl)
    | skip
  have hf : CCong _ _ := hf
  simp only [Quilt.applyVal]
  rw [← hf.name, ← hf.params, ← h.length_eq]
  split
  · exact err rfl
  · rename_i hn
    exact hc _ _ _ _ hf h (Decidable.not_not.1 hn)

section
variable {S : SHost D} (hS : ∀ x b, S.builtins x = some b → BuiltinAlpha S.lim b)
include hS

theorem callBuiltin {x : String} {sp sp' : Span} {vs ws : List SVal} (h : Val.RelL CCong vs ws) : MCong VCong (Quilt.callBuiltin S x sp vs) (Quilt.callBuiltin S x sp' ws) := by
  unfold Quilt.callBuiltin
  split
  · rename_i f hf; exact host fun d => (hS x _ hf).rel CCong (fun _ _ h => h.name) d vs ws h
  · exact err rfl
  · exact err rfl

theorem enterCtx {x : String} {sp sp' : Span} {vs ws : List SVal} (h : Val.RelL CCong vs ws) : MCong VCong (Quilt.enterCtx S x sp vs) (Quilt.enterCtx S x sp' ws) := by
  unfold Quilt.enterCtx
  split
  · rename_i f hf; exact host fun d => (hS x _ hf).rel CCong (fun _ _ h => h.name) d vs ws h
  · rename_i f x' hf; exact bind pushExit fun _ _ _ => host fun d => (BRelG.rel (hS x _ hf)) CCong (fun _ _ h => h.name) d vs ws h
  · exact err rfl
end

end MCong

theorem Node.Cong.isStatement {n m : Node} (h : n.Cong m) : n.isStatement = m.isStatement := by
  cases n with
  | ctx sp x es v b =>
    cases v <;> unfold Node.Cong at h
    · obtain ⟨_, _, _, _, h, _⟩ := h; exact h.isStatement
    · obtain ⟨_, _, _, _, _, h, _⟩ := h; exact h.isStatement
  | lit | ident => unfold Node.Cong at h; obtain ⟨_, h⟩ := h; exact h.isStatement
  | un | array | block => unfold Node.Cong at h; obtain ⟨_, _, h, _⟩ := h; exact h.isStatement
  | assign | pair | range | index | bin | call | builtin | «while» | lambda => unfold Node.Cong at h; obtain ⟨_, _, _, h, _⟩ := h; exact h.isStatement
  | cond | switch | forIn | forMulti => unfold Node.Cong at h; obtain ⟨_, _, _, _, h, _⟩ := h; exact h.isStatement
  | func => unfold Node.Cong at h; obtain ⟨_, _, _, _, rfl, _⟩ := h; rfl
  | decl | extern | «include» => unfold Node.Cong at h; obtain ⟨_, _, _, rfl, _⟩ := h; rfl
  | ret => unfold Node.Cong at h; obtain ⟨_, _, rfl, _⟩ := h; rfl

namespace MCong
variable {S : SHost D} (hS : ∀ x b, S.builtins x = some b → BuiltinAlpha S.lim b) {call : SClos → List SVal → SM D SVal} (hc : Calls call) {W : Nat}
include hS hc

mutual
theorem node : ∀ (n : Node) {m : Node} {env : SEnv}, n.Cong m → MCong VCong (evalNode S call W n env) (evalNode S call W m env)
  | .lit _ l, m, env, h => by
    unfold Node.Cong at h; obtain ⟨_, hm⟩ := h; rw [hm.eval]; unfold evalNode; exact pure (Val.Rel.toVal l)
  | .ident sp x, m, env, h => by
    unfold Node.Cong at h; obtain ⟨_, hm⟩ := h; rw [hm.eval]; unfold evalNode; exact readVar
  | .assign _ (x, xsp) e, m, env, h => by
    unfold Node.Cong at h; obtain ⟨_, ⟨y, ysp⟩, e', hm, rfl, h1⟩ := h; rw [hm.eval]; unfold evalNode
    exact bind (node e h1) fun v w hv => bind (writeVar hv) fun _ _ _ => pure hv
  | .pair _ a b, m, env, h => by
    unfold Node.Cong at h; obtain ⟨_, a', b', hm, h1, h2⟩ := h; rw [hm.eval]; unfold evalNode
    exact bind (node a h1) fun _ _ hv => bind (node b h2) fun _ _ hw => pure ⟨hv, hw⟩
  | .range _ a b, m, env, h => by
    unfold Node.Cong at h; obtain ⟨_, a', b', hm, h1, h2⟩ := h; rw [hm.eval]; unfold evalNode
    exact bind (node a h1) fun _ _ hv => bind (node b h2) fun _ _ hw => lift (Val.rel_mkRange hv hw)
  | .array sp es, m, env, h => by
    unfold Node.Cong at h; obtain ⟨_, es', hm, h⟩ := h; rw [hm.eval]; unfold evalNode
    exact bind (rev es h) fun _ _ hv => lift (Val.rel_mkArray _ hv)
  | .index sp e i, m, env, h => by
    unfold Node.Cong at h; obtain ⟨_, a', b', hm, h1, h2⟩ := h; rw [hm.eval]; unfold evalNode
    exact bind (node i h2) fun _ _ hv => bind (node e h1) fun _ _ hw => lift (Val.rel_indexGet _ hw hv)
  | .un sp op e, m, env, h => by
    unfold Node.Cong at h; obtain ⟨_, e', hm, h⟩ := h; rw [hm.eval]; unfold evalNode
    exact bind (node e h) fun _ _ hv => lift (Val.rel_unary _ _ hv)
  | .bin sp op a b, m, env, h => by
    unfold Node.Cong at h; obtain ⟨_, a', b', hm, h1, h2⟩ := h; rw [hm.eval]; unfold evalNode
    exact bind (node a h1) fun _ _ hv => bind (node b h2) fun _ _ hw => evalBin hv hw
  | .block _ b, m, env, h => by
    unfold Node.Cong at h; obtain ⟨_, b', hm, c, h, hb⟩ := h; rw [hm.eval]; unfold evalNode; rw [← hb]; exact stmts b h
  | .cond sp c th el, m, env, h => by
    unfold Node.Cong at h; obtain ⟨_, c', b', o', hm, h1, ⟨d, h2, hb⟩, h3⟩ := h; rw [hm.eval]; unfold evalNode; rw [← hb]
    refine bind (node c h1) fun _ _ hv => bind (truthy hv) ?_
    rintro (_ | _) _ rfl
    · exact opt el h3
    · exact stmts th h2
  | .switch _ e cs d, m, env, h => by
    unfold Node.Cong at h; obtain ⟨_, e', cs', o', hm, h1, h2, h3⟩ := h; rw [hm.eval]; unfold evalNode
    exact bind (node e h1) fun _ _ hv => cases cs hv h2 (opt d h3)
  | .while sp c b, m, env, h => by
    unfold Node.Cong at h; obtain ⟨_, c', b', hm, h1, d, h2, hb⟩ := h; rw [hm.eval]; unfold evalNode; rw [← hb]
    exact whileN (node c h1) (stmts b h2) trivial
  | .forIn sp (x, xsp) e b, m, env, h => by
    unfold Node.Cong at h; obtain ⟨_, ⟨y, ysp⟩, e', b', hm, rfl, h1, d, h2, hb⟩ := h; rw [hm.eval]; unfold evalNode
    refine bind (node e h1) fun _ _ hv => forN (fun k => lift (Val.rel_iterItem _ _ hv)) (fun _ _ hw => bind (bindOne hw) ?_) trivial
    rintro env' _ rfl
    show MCong VCong (evalStmts S call W b env') (evalStmts S call W b' env')
    rw [← hb]; exact stmts b h2
  | .forMulti sp xs e b, m, env, h => by
    unfold Node.Cong at h; obtain ⟨_, ys, e', b', hm, h0, h1, d, h2, hb⟩ := h; rw [hm.eval]; unfold evalNode
    refine bind (node e h1) fun _ _ hv => forN (fun k => lift (Val.rel_iterItem _ _ hv)) (fun _ _ hw => bind (declMany hw h0) ?_) trivial
    rintro env' _ rfl
    show MCong VCong (evalStmts S call W b env') (evalStmts S call W b' env')
    rw [← hb]; exact stmts b h2
  | .lambda sp ps b, m, env, h => by
    unfold Node.Cong at h; obtain ⟨_, qs, b', hm, h1, h2⟩ := h; rw [hm.eval]; unfold evalNode
    exact pure (show CCong _ _ from ⟨rfl, h1, rfl, h2⟩)
  | .call sp f es, m, env, h => by
    unfold Node.Cong at h; obtain ⟨_, f', es', hm, h1, h2⟩ := h; rw [hm.eval]; unfold evalNode
    exact bind (node f h1) fun _ _ hv => bind (args es h2) fun _ _ hw => applyVal hc hv hw
  | .builtin _ x es, m, env, h => by
    unfold Node.Cong at h; obtain ⟨_, y, es', hm, h1, h2⟩ := h; rw [hm.eval]; unfold evalNode
    rw [h1]
    exact bind (args es h2) fun _ _ hw => callBuiltin hS hw
  | .ctx sp x es none b, m, env, h => by
    unfold Node.Cong at h; obtain ⟨_, y, es', b', hm, h0, h1, d, h2, hb⟩ := h; rw [hm.eval]; unfold evalNode
    rw [h0]
    refine bind (args es h1) fun _ _ hw => bind (enterCtx hS hw) fun _ _ hr => bind (pure (P := (· = ·)) rfl) ?_
    rintro env' _ rfl
    rw [← hb]
    exact bind (stmts b h2) fun _ _ hv => bind popExit fun _ _ _ => pure hv
  | .ctx sp x es (some v) b, m, env, h => by
    unfold Node.Cong at h; obtain ⟨_, y, es', w, b', hm, h0, hf, hv, h1, d, h2, hb⟩ := h; rw [hm.eval]; unfold evalNode
    rw [h0]
    refine bind (args es h1) fun _ _ hw => bind (enterCtx hS hw) fun _ _ hr => bind (declVars hr hf hv) ?_
    rintro env' _ rfl
    rw [← hb]
    exact bind (stmts b h2) fun _ _ hv => bind popExit fun _ _ _ => pure hv
  | .decl .., m, env, h => by unfold Node.Cong at h; obtain ⟨_, _, _, rfl, _⟩ := h; unfold evalNode; exact unspec
  | .extern .., m, env, h => by unfold Node.Cong at h; obtain ⟨_, _, _, rfl, _⟩ := h; unfold evalNode; exact unspec
  | .func .., m, env, h => by unfold Node.Cong at h; obtain ⟨_, _, _, _, rfl, _⟩ := h; unfold evalNode; exact unspec
  | .include .., m, env, h => by unfold Node.Cong at h; obtain ⟨_, _, _, rfl, _⟩ := h; unfold evalNode; exact unspec
  | .ret .., m, env, h => by unfold Node.Cong at h; obtain ⟨_, _, rfl, _⟩ := h; unfold evalNode; exact unspec
termination_by structural n => n
theorem stmt : ∀ (n : Node) {m : Node} {env : SEnv}, n.isStatement = true → n.Cong m → MCong (· = ·) (evalStmt S call W n env) (evalStmt S call W m env)
  | .decl sp v e, m, env, _, h => by
    unfold Node.Cong at h; obtain ⟨_, w, e', rfl, h1, h2, h3⟩ := h; unfold evalStmt
    exact bind (node e h3) fun _ _ hv => declVars hv h1 h2
  | .func _ (f, fsp) ps b, m, env, _, h => by
    unfold Node.Cong at h; obtain ⟨_, ⟨g, gsp⟩, qs, b', rfl, rfl, h1, h2⟩ := h; unfold evalStmt
    exact bindOne (show CCong _ _ from ⟨rfl, h1, rfl, h2⟩)
  | .ret _ e, m, env, _, h => by
    unfold Node.Cong at h; obtain ⟨_, o', rfl, h⟩ := h; unfold evalStmt
    exact bind (retE e h) fun _ _ hv => ret hv
  | .extern .., m, env, _, h => by unfold Node.Cong at h; obtain ⟨_, _, _, rfl, _⟩ := h; unfold evalStmt; exact unspec
  | .include .., m, env, _, h => by unfold Node.Cong at h; obtain ⟨_, _, _, rfl, _⟩ := h; unfold evalStmt; exact unspec
  | .lit .., m, env, hs, h | .ident .., m, env, hs, h | .assign .., m, env, hs, h | .pair .., m, env, hs, h
  | .range .., m, env, hs, h | .array .., m, env, hs, h | .index .., m, env, hs, h | .un .., m, env, hs, h
  | .bin .., m, env, hs, h | .block .., m, env, hs, h | .cond .., m, env, hs, h | .switch .., m, env, hs, h
  | .while .., m, env, hs, h | .forIn .., m, env, hs, h | .forMulti .., m, env, hs, h | .lambda .., m, env, hs, h
  | .call .., m, env, hs, h | .builtin .., m, env, hs, h | .ctx .., m, env, hs, h => by simp [Node.isStatement] at hs
termination_by structural n => n
theorem stmts : ∀ (ns : List Node) {ms : List Node} {env : SEnv}, CongL ns ms → MCong VCong (evalStmts S call W ns env) (evalStmts S call W ms env)
  | [], ms, env, h => by unfold CongL at h; subst h; unfold evalStmts; exact unspec
  | [n], ms, env, h => by
    unfold CongL at h; obtain ⟨m, ms', rfl, h1, h2⟩ := h
    unfold CongL at h2; subst h2
    unfold evalStmts
    rw [← h1.isStatement]
    split
    · rename_i hs; exact bind (stmt n hs h1) fun _ _ _ => unspec
    · exact node n h1
  | n :: n' :: ns, ms, env, h => by
    unfold CongL at h; obtain ⟨m, ms', rfl, h1, h2⟩ := h
    have h3 := h2
    unfold CongL at h3; obtain ⟨m', ms'', rfl, _⟩ := h3
    unfold evalStmts
    rw [← h1.isStatement]
    split
    · rename_i hs
      refine bind (stmt n hs h1) ?_
      rintro env' _ rfl
      exact stmts (n' :: ns) h2
    · exact bind (node n h1) fun _ _ _ => stmts (n' :: ns) h2
termination_by structural n => n
theorem args : ∀ (ns : List Node) {ms : List Node} {env : SEnv}, CongL ns ms → MCong (Val.RelL CCong) (evalArgs S call W ns env) (evalArgs S call W ms env)
  | [], ms, env, h => by unfold CongL at h; subst h; unfold evalArgs; exact pure trivial
  | n :: ns, ms, env, h => by
    unfold CongL at h; obtain ⟨m, ms', rfl, h1, h2⟩ := h; unfold evalArgs
    exact bind (node n h1) fun _ _ hv => bind (args ns h2) fun _ _ hw => pure ⟨hv, hw⟩
termination_by structural n => n
theorem rev : ∀ (ns : List Node) {ms : List Node} {env : SEnv}, CongL ns ms → MCong (Val.RelL CCong) (evalRev S call W ns env) (evalRev S call W ms env)
  | [], ms, env, h => by unfold CongL at h; subst h; unfold evalRev; exact pure trivial
  | n :: ns, ms, env, h => by
    unfold CongL at h; obtain ⟨m, ms', rfl, h1, h2⟩ := h; unfold evalRev
    exact bind (rev ns h2) fun _ _ hw => bind (node n h1) fun _ _ hv => pure ⟨hv, hw⟩
termination_by structural n => n
theorem opt : ∀ (o : Option (List Node)) {o' : Option (List Node)} {env : SEnv}, CongO o o' → MCong VCong (evalOpt S call W o env) (evalOpt S call W o' env)
  | some b, o', env, h => by unfold CongO at h; obtain ⟨b', rfl, c, h, hb⟩ := h; unfold evalOpt; rw [← hb]; exact stmts b h
  | none, o', env, h => by unfold CongO at h; subst h; unfold evalOpt; exact pure trivial
termination_by structural n => n
theorem retE : ∀ (o : Option Node) {o' : Option Node} {env : SEnv}, CongE o o' → MCong VCong (evalRet S call W o env) (evalRet S call W o' env)
  | some e, o', env, h => by unfold CongE at h; obtain ⟨b', rfl, h⟩ := h; unfold evalRet; exact node e h
  | none, o', env, h => by unfold CongE at h; subst h; unfold evalRet; exact pure trivial
termination_by structural n => n
theorem cases : ∀ (cs : List (Node × List Node)) {ds : List (Node × List Node)} {env : SEnv} {v w : SVal} {d d' : SM D SVal}, VCong v w →
    CongC cs ds → MCong VCong d d' → MCong VCong (evalCases S call W cs v env d) (evalCases S call W ds w env d')
  | [], ds, env, v, w, d, d', hv, h, hd => by unfold CongC at h; subst h; unfold evalCases; exact hd
  | (c, b) :: cs, ds, env, v, w, d, d', hv, h, hd => by
    unfold CongC at h; obtain ⟨c', b', ds', rfl, h1, ⟨e, h2, hb⟩, h3⟩ := h; unfold evalCases
    refine bind (node c h1) fun _ _ hw => bind (eqVals hv hw) ?_
    rintro (_ | _) _ rfl
    · exact cases cs hv h3 hd
    · show MCong VCong (evalStmts S call W b env) (evalStmts S call W b' env)
      rw [← hb]; exact stmts b h2
termination_by structural cs => cs
end

omit hc in
theorem callN_step {n : Nat} (ih : Calls (Quilt.callN S W n)) : Calls (Quilt.callN S W (n + 1)) := by
  intro c c' vs ws h hv hl σ σ' hs
  simp only [Quilt.callN]
  obtain ⟨d, hb, hd⟩ := h.body
  obtain ⟨qs, a1, a2, a4⟩ := zips (xs := c.params) hv
  have h0 := bindPairs (D := D) ((c.name, .clos c, .clos c') :: qs) (env := c.env) (by
    intro q hq
    rcases List.mem_cons.1 hq with rfl | hq
    · exact h
    · exact a4 q hq)
  simp only [List.map_cons, ← a1, ← a2] at h0
  have h1 := MCong.bind (Q := VCong) (f := fun env => evalStmts S (Quilt.callN S W n) W c.body env) (g := fun env => evalStmts S (Quilt.callN S W n) W c'.body env) h0 (by
    rintro env _ rfl
    rw [← hd]
    exact MCong.stmts hS ih (W := W) c.body hb)
  have h2 := h1 { σ with data := S.onEnter σ.data } { σ' with data := S.onEnter σ'.data } ⟨hs.store, hs.next, hs.globals, congrArg S.onEnter hs.data, hs.exits⟩
  unfold callScope
  rw [← h.name, ← h.names, ← h.env]
  generalize (SM.bindVars ((c.name, .clos c) :: c.params.zip vs) c.env >>= fun env => evalStmts S (Quilt.callN S W n) W c.body env) { σ with data := S.onEnter σ.data } = r at h2
  generalize (SM.bindVars ((c.name, .clos c') :: c.params.zip ws) c.env >>= fun env => evalStmts S (Quilt.callN S W n) W c'.body env) { σ' with data := S.onEnter σ'.data } = r' at h2
  obtain ⟨o, τ⟩ := r
  obtain ⟨o', τ'⟩ := r'
  obtain ⟨h3, h4⟩ := h2
  cases o <;> cases o' <;> first
    | exact h3.elim
    | exact ⟨h3, ⟨h4.store, h4.next, h4.globals, congrArg S.onExit h4.data, h4.exits⟩⟩
    | exact ⟨h3, h4⟩
    | exact ⟨rfl, h4⟩

omit hc in
theorem callN : ∀ n : Nat, Calls (Quilt.callN S W n)
  | 0 => fun _ _ _ _ _ _ _ => timeout
  | n + 1 => callN_step hS (callN n)

omit hS hc in
theorem defGlobals : ∀ {xs : List String} {vs ws : List SVal}, Val.RelL CCong vs ws →
    MCong (fun _ _ => True) (Quilt.defGlobals (xs.zip vs) : SM D Unit) (Quilt.defGlobals (xs.zip ws))
  | [], _, _, _ => pure trivial
  | _ :: _, [], [], _ => pure trivial
  | _ :: _, _ :: _, _ :: _, h => bind (defGlobal h.1) fun _ _ _ => defGlobals h.2
  | _ :: _, [], _ :: _, h => h.elim
  | _ :: _, _ :: _, [], h => h.elim

mutual
theorem topStmt : ∀ (n : Node) {m : Node}, n.isStatement = true → n.Cong m → MCong (fun _ _ => True) (evalTopStmt S call W n) (evalTopStmt S call W m)
  | .decl sp v e, m, _, h => by
    unfold Node.Cong at h; obtain ⟨_, w, e', rfl, h1, h2, h3⟩ := h
    unfold evalTopStmt
    refine bind (node hS hc e h3) fun v' w' hv => ?_
    match v, w, h1, h2 with
    | .one x, .one y, _, h2 =>
      simp only [Var.binds, List.cons.injEq, and_true] at h2
      simp only [h2]
      exact defGlobal hv
    | .many xs, .many ys, h1, h2 =>
      have h2 : xs.map Prod.fst = ys.map Prod.fst := h2
      have h1 : xs.length = ys.length := h1
      simp only [h2, h1]
      exact bind (lift (Val.rel_unpack _ hv)) fun _ _ hr => defGlobals hr
  | .func _ (f, _) ps b, m, _, h => by
    unfold Node.Cong at h; obtain ⟨_, ⟨g, _⟩, qs, b', rfl, rfl, h1, h2⟩ := h; unfold evalTopStmt
    exact defGlobal (show CCong _ _ from ⟨rfl, h1, rfl, h2⟩)
  | .extern _ x e, m, _, h => by
    unfold Node.Cong at h; obtain ⟨_, y, e', rfl, h1, h2⟩ := h; unfold evalTopStmt
    rw [← h1]
    refine bind (node hS hc e h2) fun _ _ hv => bind getGlobal ?_
    rintro (_ | v) (_ | w) hr <;> first | exact hr.elim | exact defGlobal hv | exact pure trivial
  | .include _ _ b, m, _, h => by
    unfold Node.Cong at h; obtain ⟨_, y, b', rfl, _, h⟩ := h; unfold evalTopStmt; exact topIncl b h
  | .ret .., m, _, h => by unfold Node.Cong at h; obtain ⟨_, _, rfl, _⟩ := h; unfold evalTopStmt; exact unspec
  | .lit .., m, hs, h | .ident .., m, hs, h | .assign .., m, hs, h | .pair .., m, hs, h
  | .range .., m, hs, h | .array .., m, hs, h | .index .., m, hs, h | .un .., m, hs, h
  | .bin .., m, hs, h | .block .., m, hs, h | .cond .., m, hs, h | .switch .., m, hs, h
  | .while .., m, hs, h | .forIn .., m, hs, h | .forMulti .., m, hs, h | .lambda .., m, hs, h
  | .call .., m, hs, h | .builtin .., m, hs, h | .ctx .., m, hs, h => by simp [Node.isStatement] at hs
termination_by structural n => n
theorem topEach : ∀ (ns : List Node) {ms : List Node}, CongL ns ms → MCong (fun _ _ => True) (evalEach S call W ns) (evalEach S call W ms)
  | [], ms, h => by unfold CongL at h; subst h; unfold evalEach; exact pure trivial
  | n :: ns, ms, h => by
    unfold CongL at h; obtain ⟨m, ms', rfl, h1, h2⟩ := h; unfold evalEach
    rw [← h1.isStatement]
    split
    · rename_i hs; exact bind (topStmt n hs h1) fun _ _ _ => topEach ns h2
    · exact bind (node hS hc n h1) fun _ _ _ => topEach ns h2
termination_by structural n => n
theorem topIncl : ∀ (o : Option (List Node)) {o' : Option (List Node)}, CongI o o' → MCong (fun _ _ => True) (evalIncl S call W o) (evalIncl S call W o')
  | some b, o', h => by unfold CongI at h; obtain ⟨b', rfl, h⟩ := h; unfold evalIncl; exact topEach b h
  | none, o', h => by unfold CongI at h; subst h; unfold evalIncl; exact unspec
termination_by structural n => n
end

theorem top : ∀ (ns : List Node) {ms : List Node}, CongL ns ms → MCong VCong (evalTop S call W ns) (evalTop S call W ms)
  | [], ms, h => by unfold CongL at h; subst h; unfold evalTop; exact unspec
  | [n], ms, h => by
    unfold CongL at h; obtain ⟨m, ms', rfl, h1, h2⟩ := h
    unfold CongL at h2; subst h2
    unfold evalTop
    rw [← h1.isStatement]
    split
    · rename_i hs; exact bind (topStmt hS hc n hs h1) fun _ _ _ => unspec
    · exact node hS hc n h1
  | n :: n' :: ns, ms, h => by
    unfold CongL at h; obtain ⟨m, ms', rfl, h1, h2⟩ := h
    have h3 := h2
    unfold CongL at h3; obtain ⟨m', ms'', rfl, _⟩ := h3
    unfold evalTop
    rw [← h1.isStatement]
    split
    · rename_i hs; exact bind (topStmt hS hc n hs h1) fun _ _ _ => top (n' :: ns) h2
    · exact bind (node hS hc n h1) fun _ _ _ => top (n' :: ns) h2

end MCong

/-- Programs equal up to positions and replacements run in lockstep. -/
theorem evalProgram_cong {S : SHost D} (hS : ∀ x b, S.builtins x = some b → BuiltinAlpha S.lim b) (k : Nat) {ast ast' : List Node} (h : CongL ast ast') :
    MCong VCong (evalProgram S k ast) (evalProgram S k ast') := MCong.top hS (MCong.callN hS k) ast h

end Quilt
