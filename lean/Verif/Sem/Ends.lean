import Verif.Sem.Shaped
import Verif.Sem.SimCall
import Verif.Sem.SourceInv

/-!
# Programs without `while` end

Except if calls are nested too deep.
-/

set_option linter.unusedSectionVars false

namespace Quilt

mutual
/-- No `while` anywhere, neither in functions nor in included files. -/
def Node.calm : Node → Bool
  | .lit .. | .ident .. => true
  | .assign _ _ e | .un _ _ e | .decl _ _ e => e.calm
  | .pair _ a b | .range _ a b | .bin _ _ a b => a.calm && b.calm
  | .index _ e i => e.calm && i.calm
  | .array _ items => calmL items
  | .block _ body => calmL body
  | .cond _ c th el => c.calm && calmL th && calmO el
  | .switch _ v cs d => v.calm && calmC cs && calmO d
  | .while .. => false
  | .forIn _ _ it b => it.calm && calmL b
  | .forMulti _ _ it b => it.calm && calmL b
  | .lambda _ _ b => calmL b
  | .func _ _ _ b => calmL b
  | .call _ f args => f.calm && calmL args
  | .builtin _ _ args => calmL args
  | .ctx _ _ args _ b => calmL args && calmL b
  | .ret _ e => calmR e
  | .extern _ _ e => e.calm
  | .include _ _ b => calmO b
termination_by structural n => n
def calmL : List Node → Bool
  | [] => true
  | n :: ns => n.calm && calmL ns
termination_by structural n => n
def calmO : Option (List Node) → Bool
  | some b => calmL b
  | none => true
termination_by structural n => n
def calmR : Option Node → Bool
  | some e => e.calm
  | none => true
termination_by structural n => n
def calmC : List (Node × List Node) → Bool
  | [] => true
  | (c, b) :: cs => c.calm && calmL b && calmC cs
termination_by structural n => n
end

/-- Functions without `while`. -/
def CalmF (c : SClos) : Prop := calmL c.body = true

def Calm (v : SVal) : Prop := Only CalmF v
def CalmL (vs : List SVal) : Prop := OnlyL CalmF vs

theorem CalmL.all {vs : List SVal} (h : CalmL vs) : ∀ v ∈ vs, Calm v := OnlyL.all h

variable {D : Type}

/-- Only calm values in the state. -/
def CalmSt (σ : SSt D) : Prop := (∀ l, Calm (σ.store l)) ∧ ∀ x v, σ.globals x = some v → Calm v

/-- Source builtins keep values calm. -/
def CalmB : Option (Builtin D SClos) → Limits → Prop
  | some (.fn f), lim | some (.ctx f _), lim => ∀ d args v, CalmL args → (f d args lim).1 = .ok v → Calm v
  | none, _ => True

theorem BuiltinRel.calm {lim : Limits} {b : Option (Builtin D SClos)} {b' : Option (Builtin D VClos)} (h : BuiltinRel lim b b') : CalmB b lim := by
  match b, b', h with
  | none, none, _ => trivial
  | some (.fn f), some (.fn f'), h => exact fun d args v => BRel.only h d args v
  | some (.ctx f e), some (.ctx f' e'), h => exact fun d args v => BRel.only h.1 d args v

/-- With bounds on loops that are large enough, always the same outcome, not hitting these bounds. -/
def Ends {α : Type} (P : α → Prop) (x : Nat → SM D α) : Prop := ∀ σ, CalmSt σ → ∃ W0 o σ', (∀ W, W0 ≤ W → x W σ = (o, σ')) ∧ CalmSt σ' ∧
  match o with
  | .ok a => P a
  | .ret v => Calm v
  | .timeout => False
  | _ => True

namespace Ends
variable {α β : Type}

theorem pure {P : α → Prop} {a : α} (h : P a) : Ends P (fun _ => (Pure.pure a : SM D α)) := fun σ hs => ⟨0, .ok a, σ, fun _ _ => rfl, hs, h⟩

theorem bind {P : α → Prop} {Q : β → Prop} {x : Nat → SM D α} {f : Nat → α → SM D β} (hx : Ends P x) (hf : ∀ a, P a → Ends Q (fun W => f W a)) :
    Ends Q (fun W => x W >>= f W) := by
  intro σ hs
  obtain ⟨W0, o, σ', h1, h2, h3⟩ := hx σ hs
  have hb : ∀ W, W0 ≤ W → (x W >>= f W) σ = SM.bind (fun _ => (o, σ')) (f W) σ := by
    intro W hW
    show SM.bind (x W) (f W) σ = _
    simp only [SM.bind]
    rw [h1 W hW]
  cases o with
  | ok a =>
    obtain ⟨W1, o', σ2, k1, k2, k3⟩ := hf a h3 σ' h2
    refine ⟨max W0 W1, o', σ2, fun W hW => ?_, k2, k3⟩
    exact (hb W (by omega)).trans (k1 W (by omega))
  | ret v => exact ⟨W0, .ret v, σ', fun W hW => hb W hW, h2, h3⟩
  | err e sp => exact ⟨W0, .err e sp, σ', fun W hW => hb W hW, h2, trivial⟩
  | panic => exact ⟨W0, .panic, σ', fun W hW => hb W hW, h2, trivial⟩
  | timeout => exact h3.elim
  | deep => exact ⟨W0, .deep, σ', fun W hW => hb W hW, h2, trivial⟩
  | unspec b => exact ⟨W0, .unspec b, σ', fun W hW => hb W hW, h2, trivial⟩

/-- Only large bounds matter. -/
theorem from' {P : α → Prop} {x y : Nat → SM D α} (W0 : Nat) (h : ∀ W, W0 ≤ W → x W = y W) (hy : Ends P y) : Ends P x := by
  intro σ hs
  obtain ⟨W1, o, σ', h1, h2⟩ := hy σ hs
  exact ⟨max W0 W1, o, σ', fun W hW => by rw [h W (by omega)]; exact h1 W (by omega), h2⟩

theorem err {P : α → Prop} {e : Err} {sp : Option Span} : Ends P (fun _ => (SM.err e sp : SM D α)) := fun σ hs => ⟨0, _, σ, fun _ _ => rfl, hs, trivial⟩
theorem panic {P : α → Prop} : Ends P (fun _ => (SM.panic : SM D α)) := fun σ hs => ⟨0, _, σ, fun _ _ => rfl, hs, trivial⟩
theorem deep {P : α → Prop} : Ends P (fun _ => (SM.deep : SM D α)) := fun σ hs => ⟨0, _, σ, fun _ _ => rfl, hs, trivial⟩
theorem unspec {P : α → Prop} : Ends P (fun _ => (SM.unspec : SM D α)) := fun σ hs => ⟨0, _, σ, fun _ _ => rfl, hs, trivial⟩
theorem incomparable {P : α → Prop} : Ends P (fun _ => (SM.incomparable : SM D α)) := fun σ hs => ⟨0, _, σ, fun _ _ => rfl, hs, trivial⟩
theorem ret {P : α → Prop} {v : SVal} (h : Calm v) : Ends P (fun _ => (SM.ret v : SM D α)) := fun σ hs => ⟨0, _, σ, fun _ _ => rfl, hs, h⟩

theorem lift {P : α → Prop} {r : Res α} {sp : Span} (h : ∀ a, r = .ok a → P a) : Ends P (fun _ => (SM.lift r sp : SM D α)) := by
  cases r with
  | ok a => exact pure (h a rfl)
  | err e => exact err
  | panic => exact panic

/-- From a relational fact about a primitive. -/
theorem liftR {P : α → Prop} {R : α → α → Prop} {r : Res α} {sp : Span} (h : Res.Rel R r r) (hp : ∀ a, R a a → P a) : Ends P (fun _ => (SM.lift r sp : SM D α)) :=
  lift fun a ha => by rw [ha] at h; exact hp a h

theorem alloc {v : SVal} (h : Calm v) : Ends (fun _ => True) (fun _ => (SM.alloc v : SM D Nat)) := by
  intro σ hs
  refine ⟨0, _, _, fun _ _ => rfl, ⟨fun l => ?_, hs.2⟩, trivial⟩
  show Calm (upd σ.store σ.next v l)
  by_cases hl : l = σ.next
  · subst hl; rw [upd_same]; exact h
  · rw [upd_other _ _ hl]; exact hs.1 l

theorem load {l : Nat} : Ends Calm (fun _ => (SM.load l : SM D SVal)) := fun _ hs => ⟨0, _, _, fun _ _ => rfl, hs, hs.1 l⟩

theorem store {l : Nat} {v : SVal} (h : Calm v) : Ends (fun _ => True) (fun _ => (SM.store l v : SM D Unit)) := by
  intro σ hs
  refine ⟨0, _, _, fun _ _ => rfl, ⟨fun l' => ?_, hs.2⟩, trivial⟩
  show Calm (upd σ.store l v l')
  by_cases hl : l' = l
  · subst hl; rw [upd_same]; exact h
  · rw [upd_other _ _ hl]; exact hs.1 l'

theorem getGlobal {x : String} : Ends (fun o => ∀ v, o = some v → Calm v) (fun _ => (SM.getGlobal x : SM D (Option SVal))) :=
  fun _ hs => ⟨0, _, _, fun _ _ => rfl, hs, fun v hv => hs.2 x v hv⟩

theorem defGlobal {x : String} {v : SVal} (h : Calm v) : Ends (fun _ => True) (fun _ => (SM.defGlobal x v : SM D Unit)) := by
  intro σ hs
  refine ⟨0, _, _, fun _ _ => rfl, ⟨hs.1, fun y w hw => ?_⟩, trivial⟩
  replace hw : (if y = x then some v else σ.globals y) = some w := hw
  split at hw
  · cases hw; exact h
  · exact hs.2 y w hw

theorem host {γ : Type} {P : γ → Prop} {f : D → Res γ × D} {sp : Span} (h : ∀ d a, (f d).1 = .ok a → P a) : Ends P (fun _ => SM.host f sp) := by
  intro σ hs
  have := h σ.data
  simp only [SM.host]
  generalize f σ.data = r at this
  obtain ⟨o, d⟩ := r
  cases o with
  | ok a => exact ⟨0, _, _, fun _ _ => rfl, hs, this a rfl⟩
  | err e => exact ⟨0, _, _, fun _ _ => rfl, hs, trivial⟩
  | panic => exact ⟨0, _, _, fun _ _ => rfl, hs, trivial⟩

theorem pushExit {e : ExitFn D} : Ends (fun _ => True) (fun _ => SM.pushExit e) := fun _ hs => ⟨0, _, _, fun _ _ => rfl, hs, trivial⟩

theorem popExit {sp : Span} : Ends (fun _ => True) (fun _ => (SM.popExit sp : SM D Unit)) := by
  intro σ hs
  simp only [SM.popExit]
  split
  · exact ⟨0, _, _, fun _ _ => rfl, hs, trivial⟩
  · rename_i e es _
    exact host (f := e) (fun _ _ _ => trivial) { σ with exits := es } hs

theorem bindVars : ∀ {bs : List (String × SVal)} {env : SEnv}, (∀ b ∈ bs, Calm b.2) → Ends (fun _ => True) (fun _ => (SM.bindVars bs env : SM D SEnv))
  | [], env, _ => pure trivial
  | (x, v) :: r, env, h => bind (alloc (h (x, v) (by simp))) fun _ _ => bindVars fun b hb => h b (by simp [hb])

theorem readVar {x : String} {sp : Span} {env : SEnv} : Ends Calm (fun _ => (Quilt.readVar x sp env : SM D SVal)) := by
  unfold Quilt.readVar
  split
  · exact load
  · refine bind getGlobal fun o ho => ?_
    cases o with
    | some v => exact pure (ho v rfl)
    | none => exact err

theorem writeVar {x : String} {sp : Span} {env : SEnv} {v : SVal} (h : Calm v) : Ends (fun _ => True) (fun _ => (Quilt.writeVar x sp env v : SM D Unit)) := by
  unfold Quilt.writeVar
  split
  · exact store h
  · refine bind getGlobal fun o ho => ?_
    cases o with
    | some _ => exact defGlobal h
    | none => exact err

theorem eqVals {F : FOps} {a b : SVal} : Ends (fun _ => True) (fun _ => (Quilt.eqVals F a b : SM D Bool)) := by
  unfold Quilt.eqVals
  split
  · exact pure trivial
  · exact incomparable

theorem evalBin {S : SHost D} {op : Op} {sp : Span} {a b : SVal} (ha : Calm a) (hb : Calm b) : Ends Calm (fun _ => (Quilt.evalBin S op sp a b : SM D _)) := by
  unfold Quilt.evalBin
  split
  · exact bind eqVals fun _ _ => pure rfl
  · exact bind eqVals fun _ _ => pure rfl
  · rename_i h1 h2
    exact liftR (Val.rel_binary S.cfg S.lim _ _ op (by simpa using h1) (by simpa using h2) ha hb) fun _ h => h

theorem declVars {v : Var} {sp : Span} {val : SVal} {env : SEnv} (h : Calm val) : Ends (fun _ => True) (fun _ => (Quilt.declVars v sp val env : SM D SEnv)) := by
  unfold Quilt.declVars
  split
  · exact bindVars (by simpa using h)
  · refine bind (liftR (P := CalmL) (Val.rel_unpack _ h) fun _ h => h) fun vs hvs => bindVars fun b hb => ?_
    rw [List.mem_reverse] at hb
    exact hvs.all _ (List.of_mem_zip hb).2

theorem ctxVars {v : Option Var} {sp : Span} {val : SVal} {env : SEnv} (h : Calm val) : Ends (fun _ => True) (fun _ => (Quilt.ctxVars v sp val env : SM D SEnv)) := by
  unfold Quilt.ctxVars
  split
  · exact declVars h
  · exact pure trivial

theorem applyVal {call : Nat → SClos → List SVal → SM D SVal} (hc : ∀ c args, CalmF c → CalmL args → Ends Calm (fun W => call W c args)) {sp : Span} {f : SVal}
    {args : List SVal} (hf : Calm f) (ha : CalmL args) : Ends Calm (fun W => Quilt.applyVal (call W) sp f args) := by
  unfold Quilt.applyVal
  cases f with
  | clos c =>
    dsimp only
    split
    · exact err
    · exact hc _ _ hf.2 ha
  | _ => exact err

theorem callBuiltin {S : SHost D} (hS : ∀ x, CalmB (S.builtins x) S.lim) {x : String} {sp : Span} {args : List SVal} (ha : CalmL args) :
    Ends Calm (fun _ => (Quilt.callBuiltin S x sp args : SM D _)) := by
  have := hS x
  unfold Quilt.callBuiltin
  split
  · rename_i f hf; rw [hf] at this; exact host fun d v => this d args v ha
  · exact err
  · exact err

theorem enterCtx {S : SHost D} (hS : ∀ x, CalmB (S.builtins x) S.lim) {x : String} {sp : Span} {args : List SVal} (ha : CalmL args) :
    Ends Calm (fun _ => (Quilt.enterCtx S x sp args : SM D _)) := by
  have := hS x
  unfold Quilt.enterCtx
  split
  · rename_i f hf; rw [hf] at this; exact host fun d v => this d args v ha
  · rename_i f e hf; rw [hf] at this; exact bind pushExit fun _ _ => host fun d v => this d args v ha
  · exact err

/-- Iterating ends. -/
theorem iter_end (chk : Bool) (v : SVal) : ∃ K, ∀ w, v.iterItem chk K ≠ .ok (some w) := by
  cases v with
  | arr xs s m => exact ⟨xs.length, fun w => by simp [Val.iterItem]⟩
  | str s => exact ⟨s.length, fun w => by simp [Val.iterItem]⟩
  | color r g b a => exact ⟨4, fun w => by simp [Val.iterItem]⟩
  | range s e =>
    refine ⟨(e - s).toNat, fun w => ?_⟩
    simp only [Val.iterItem]
    split
    · simp
    · have h : BitVec.ofInt 32 (s.toInt + (BitVec.ofNat 32 (e - s).toNat).toInt) = e := by
        rw [BitVec.ofNat_toNat, BitVec.setWidth_eq, BitVec.ofInt_add, BitVec.ofInt_toInt, BitVec.ofInt_toInt]
        rw [BitVec.add_comm, BitVec.sub_add_cancel]
      rw [h]
      simp
  | _ => exact ⟨0, fun w => by simp [Val.iterItem]⟩

theorem forN {item : Nat → SM D (Option SVal)} {r : Nat → Res (Option SVal)} {sp : Span} (hr : ∀ k, item k = SM.lift (r k) sp) (hi : ∀ k v, r k = .ok (some v) → Calm v)
    {K : Nat} (hK : ∀ w, r K ≠ .ok (some w)) {b : Nat → SVal → SM D SVal} (hb : ∀ v, Calm v → Ends Calm (fun W => b W v)) :
    ∀ (m j k : Nat) {last : SVal}, k + m = K → Calm last → Ends Calm (fun W => Quilt.forN item (b W) (W - j) k last) := by
  intro m
  induction m with
  | zero =>
    intro j k last hk hl
    have hk' : k = K := by omega
    subst hk'
    refine from' (y := fun _ => item k >>= fun o => match o with | some _ => SM.panic | none => Pure.pure last) (j + 1) (fun W hW => ?_) ?_
    · obtain ⟨W', rfl⟩ : ∃ W', W = W' + 1 + j := ⟨W - j - 1, by omega⟩
      rw [Nat.add_sub_cancel]
      simp only [Quilt.forN]
      rw [hr]
      cases hx : r k with
      | ok o =>
        cases o with
        | some w => exact absurd hx (hK w)
        | none => rfl
      | err e => rfl
      | panic => rfl
    · rw [hr]
      refine bind (P := fun o => o = none) (lift fun o ho => ?_) fun o ho => ?_
      · cases o with
        | some w => exact absurd ho (hK w)
        | none => rfl
      · subst ho; exact pure hl
  | succ m ih =>
    intro j k last hk hl
    refine from' (y := fun W => item k >>= fun o => match o with | some x => (b W x >>= fun v => Quilt.forN item (b W) (W - (j + 1)) (k + 1) v) | none => Pure.pure last)
      (j + 1) (fun W hW => ?_) ?_
    · obtain ⟨W', rfl⟩ : ∃ W', W = W' + 1 + j := ⟨W - j - 1, by omega⟩
      have e1 : W' + 1 + j - j = W' + 1 := by omega
      have e2 : W' + 1 + j - (j + 1) = W' := by omega
      rw [e1, e2]
      simp only [Quilt.forN]
      rfl
    · rw [hr]
      refine bind (P := fun o => ∀ v, o = some v → Calm v) (lift fun o ho v hv => hi k v (by rw [ho, hv])) fun o ho => ?_
      cases o with
      | some x => exact bind (hb x (ho x rfl)) fun v hv => ih (j + 1) (k + 1) (by omega) hv
      | none => exact pure hl

theorem iterItem_calm {chk : Bool} {v : SVal} (hv : Calm v) (k : Nat) (w : SVal) (h : v.iterItem chk k = .ok (some w)) : Calm w := by
  have := Val.rel_iterItem chk k hv
  rw [h] at this
  exact this

/-- `for` ends. -/
theorem for' {S : SHost D} {v : SVal} (hv : Calm v) {sp : Span} {b : Nat → SVal → SM D SVal} (hb : ∀ v, Calm v → Ends Calm (fun W => b W v)) :
    Ends Calm (fun W => Quilt.forN (fun k => SM.lift (v.iterItem S.cfg.chk k) sp) (b W) W 0 .none) := by
  obtain ⟨K, hK⟩ := iter_end S.cfg.chk v
  exact forN (r := fun k => v.iterItem S.cfg.chk k) (fun _ => rfl) (fun k w h => iterItem_calm hv k w h) hK hb K 0 0 (by omega) trivial

variable {S : SHost D} (hS : ∀ x, CalmB (S.builtins x) S.lim) {call : Nat → SClos → List SVal → SM D SVal}
  (hc : ∀ c args, CalmF c → CalmL args → Ends Calm (fun W => call W c args))
include hS hc

mutual
theorem node : ∀ (n : Node) (env : SEnv), n.calm = true → Ends Calm (fun W => evalNode S (call W) W n env)
  | .lit _ l, env, _ => by simp only [evalNode]; exact pure (Val.Rel.toVal l)
  | .ident sp x, env, _ => by simp only [evalNode]; exact readVar
  | .assign _ (x, xsp) e, env, h => by
    simp only [Node.calm] at h
    simp only [evalNode]
    exact bind (node e env h) fun v hv => bind (writeVar hv) fun _ _ => pure hv
  | .pair _ a b, env, h => by
    simp only [Node.calm, Bool.and_eq_true] at h
    simp only [evalNode]
    exact bind (node a env h.1) fun _ hx => bind (node b env h.2) fun _ hy => pure ⟨hx, hy⟩
  | .range _ a b, env, h => by
    simp only [Node.calm, Bool.and_eq_true] at h
    simp only [evalNode]
    exact bind (node a env h.1) fun _ hx => bind (node b env h.2) fun _ hy => liftR (Val.rel_mkRange hx hy) fun _ h => h
  | .array sp items, env, h => by
    simp only [Node.calm] at h
    simp only [evalNode]
    exact bind (rev items env h) fun _ hx => liftR (Val.rel_mkArray _ hx) fun _ h => h
  | .index sp e i, env, h => by
    simp only [Node.calm, Bool.and_eq_true] at h
    simp only [evalNode]
    exact bind (node i env h.2) fun _ hx => bind (node e env h.1) fun _ hy => liftR (Val.rel_indexGet _ hy hx) fun _ h => h
  | .un sp op e, env, h => by
    simp only [Node.calm] at h
    simp only [evalNode]
    exact bind (node e env h) fun _ hx => liftR (Val.rel_unary _ op hx) fun _ h => h
  | .bin sp op a b, env, h => by
    simp only [Node.calm, Bool.and_eq_true] at h
    simp only [evalNode]
    exact bind (node a env h.1) fun _ hx => bind (node b env h.2) fun _ hy => evalBin hx hy
  | .block _ body, env, h => by
    simp only [Node.calm] at h
    simp only [evalNode]; exact stmts body env h
  | .cond sp c th el, env, h => by
    simp only [Node.calm, Bool.and_eq_true] at h
    simp only [evalNode]
    refine bind (node c env h.1.1) fun v _ => bind (P := fun _ => True) (lift fun _ _ => trivial) fun t _ => ?_
    cases t with
    | true => exact stmts th env h.1.2
    | false => exact opt el env h.2
  | .switch _ v cs d, env, h => by
    simp only [Node.calm, Bool.and_eq_true] at h
    simp only [evalNode]
    exact bind (node v env h.1.1) fun v _ => cases cs v env h.1.2 (opt d env h.2)
  | .while sp c body, env, h => by simp [Node.calm] at h
  | .forIn sp x it body, env, h => by
    simp only [Node.calm, Bool.and_eq_true] at h
    simp only [evalNode]
    refine bind (node it env h.1) fun v hv => for' hv fun i hi => ?_
    exact bind (bindVars (by simpa using hi)) fun env' _ => stmts body env' h.2
  | .forMulti sp xs it body, env, h => by
    simp only [Node.calm, Bool.and_eq_true] at h
    simp only [evalNode]
    refine bind (node it env h.1) fun v hv => for' hv fun i hi => ?_
    exact bind (declVars hi) fun env' _ => stmts body env' h.2
  | .lambda sp ps body, env, h => by
    simp only [Node.calm] at h
    simp only [evalNode]; exact pure ⟨rfl, h⟩
  | .call sp f as, env, h => by
    simp only [Node.calm, Bool.and_eq_true] at h
    simp only [evalNode]
    exact bind (node f env h.1) fun _ hf => bind (args as env h.2) fun _ ha => applyVal hc hf ha
  | .builtin _ x as, env, h => by
    simp only [Node.calm] at h
    simp only [evalNode]
    exact bind (args as env h) fun _ ha => callBuiltin hS ha
  | .ctx sp x as v body, env, h => by
    simp only [Node.calm, Bool.and_eq_true] at h
    simp only [evalNode]
    exact bind (args as env h.1) fun _ ha => bind (enterCtx hS ha) fun r hr => bind (ctxVars hr) fun env' _ =>
      bind (stmts body env' h.2) fun res hres => bind popExit fun _ _ => pure hres
  | .decl .., env, _ | .extern .., env, _ | .func .., env, _ | .include .., env, _ | .ret .., env, _ => by simp only [evalNode]; exact unspec
termination_by structural n => n
theorem stmt : ∀ (n : Node) (env : SEnv), n.calm = true → Ends (fun _ => True) (fun W => evalStmt S (call W) W n env)
  | .decl sp v e, env, h => by
    simp only [Node.calm] at h
    simp only [evalStmt]
    exact bind (node e env h) fun _ hv => declVars hv
  | .func _ name params body, env, h => by
    simp only [Node.calm] at h
    simp only [evalStmt]
    exact bindVars (by simpa using ⟨rfl, h⟩)
  | .ret _ e, env, h => by
    simp only [Node.calm] at h
    simp only [evalStmt]
    exact bind (retE e env h) fun v hv => ret hv
  | .extern .., env, _ | .include .., env, _
  | .lit .., env, _ | .ident .., env, _ | .assign .., env, _ | .pair .., env, _ | .range .., env, _ | .array .., env, _
  | .index .., env, _ | .un .., env, _ | .bin .., env, _ | .block .., env, _ | .cond .., env, _ | .switch .., env, _
  | .while .., env, _ | .forIn .., env, _ | .forMulti .., env, _ | .lambda .., env, _ | .call .., env, _ | .builtin .., env, _
  | .ctx .., env, _ => by simp only [evalStmt]; exact unspec
termination_by structural n => n
theorem stmts : ∀ (ns : List Node) (env : SEnv), calmL ns = true → Ends Calm (fun W => evalStmts S (call W) W ns env)
  | [], env, h => by simp only [evalStmts]; exact unspec
  | [n], env, h => by
    simp only [calmL, Bool.and_true] at h
    by_cases hs : n.isStatement
    · simp only [evalStmts, hs, if_true]
      exact bind (stmt n env h) fun _ _ => unspec
    · simp only [evalStmts, hs]
      exact node n env h
  | n :: n' :: ns, env, h => by
    rw [calmL, Bool.and_eq_true] at h
    by_cases hs : n.isStatement
    · simp only [evalStmts, hs, if_true]
      exact bind (stmt n env h.1) fun env' _ => stmts (n' :: ns) env' h.2
    · simp only [evalStmts, hs]
      exact bind (node n env h.1) fun _ _ => stmts (n' :: ns) env h.2
termination_by structural n => n
theorem args : ∀ (ns : List Node) (env : SEnv), calmL ns = true → Ends CalmL (fun W => evalArgs S (call W) W ns env)
  | [], env, _ => by simp only [evalArgs]; exact pure trivial
  | n :: ns, env, h => by
    simp only [calmL, Bool.and_eq_true] at h
    simp only [evalArgs]
    exact bind (node n env h.1) fun _ hx => bind (args ns env h.2) fun _ hy => pure ⟨hx, hy⟩
termination_by structural n => n
theorem rev : ∀ (ns : List Node) (env : SEnv), calmL ns = true → Ends CalmL (fun W => evalRev S (call W) W ns env)
  | [], env, _ => by simp only [evalRev]; exact pure trivial
  | n :: ns, env, h => by
    simp only [calmL, Bool.and_eq_true] at h
    simp only [evalRev]
    exact bind (rev ns env h.2) fun _ hy => bind (node n env h.1) fun _ hx => pure ⟨hx, hy⟩
termination_by structural n => n
theorem opt : ∀ (o : Option (List Node)) (env : SEnv), calmO o = true → Ends Calm (fun W => evalOpt S (call W) W o env)
  | some body, env, h => by simp only [calmO] at h; simp only [evalOpt]; exact stmts body env h
  | none, env, _ => by simp only [evalOpt]; exact pure trivial
termination_by structural n => n
theorem retE : ∀ (o : Option Node) (env : SEnv), calmR o = true → Ends Calm (fun W => evalRet S (call W) W o env)
  | some e, env, h => by
    simp only [calmR] at h
    simp only [evalRet]; exact node e env h
  | none, env, _ => by simp only [evalRet]; exact pure trivial
termination_by structural n => n
theorem cases : ∀ (cs : List (Node × List Node)) (v : SVal) (env : SEnv) {d : Nat → SM D SVal}, calmC cs = true → Ends Calm d →
    Ends Calm (fun W => evalCases S (call W) W cs v env (d W))
  | [], v, env, d, _, hd => by simp only [evalCases]; exact hd
  | (c, body) :: cs, v, env, d, h, hd => by
    simp only [calmC, Bool.and_eq_true] at h
    simp only [evalCases]
    refine bind (node c env h.1.1) fun cv _ => bind eqVals fun t _ => ?_
    cases t with
    | true => exact stmts body env h.1.2
    | false => exact cases cs v env h.2 hd
termination_by structural cs => cs
end

end Ends

/-- Calls nested at most `n` deep; deeper calls are told apart from other bounds. -/
def callD (S : SHost D) (W : Nat) : (n : Nat) → SClos → List SVal → SM D SVal
  | 0 => fun _ _ => SM.deep
  | n + 1 => callStep S W (callD S W n)

theorem Ends.callD {S : SHost D} (hS : ∀ x, CalmB (S.builtins x) S.lim) : ∀ (n : Nat) (c : SClos) (args : List SVal), CalmF c → CalmL args →
    Ends Calm (fun W => callD S W n c args)
  | 0, _, _, _, _ => Ends.deep
  | n + 1, c, args, hc, ha => by
    intro σ hs
    have hgood : ∀ b ∈ callScope c args, Calm b.2 := by
      intro b hb
      rcases List.mem_cons.1 hb with rfl | hb
      · exact ⟨rfl, hc⟩
      · exact ha.all _ (List.of_mem_zip hb).2
    have h1 := Ends.bind (Ends.bindVars (D := D) (env := c.env) hgood) fun env _ => Ends.stmts hS (Ends.callD hS n) c.body env hc
    obtain ⟨W0, o, σ', h2, h3, h4⟩ := h1 { σ with data := S.onEnter σ.data } hs
    have hb : ∀ W, W0 ≤ W → Quilt.callD S W (n + 1) c args σ = match (o, σ') with
        | (.ret v, σ') => (.ok v, { σ' with data := S.onExit σ'.data })
        | (.ok _, σ') => (.unspec false, σ')
        | (.err e sp, σ') => (.err e sp, σ')
        | (.panic, σ') => (.panic, σ')
        | (.timeout, σ') => (.timeout, σ')
        | (.deep, σ') => (.deep, σ')
        | (.unspec b, σ') => (.unspec b, σ') := by
      intro W hW
      simp only [Quilt.callD, callStep]
      have := h2 W hW
      dsimp only at this
      rw [this]
      cases o <;> rfl
    cases o with
    | ok v => exact ⟨W0, _, _, hb, h3, trivial⟩
    | ret v => exact ⟨W0, _, _, hb, h3, h4⟩
    | timeout => exact h4.elim
    | _ => exact ⟨W0, _, _, hb, h3, trivial⟩

theorem Ends.defGlobals : ∀ {bs : List (String × SVal)}, (∀ b ∈ bs, Calm b.2) → Ends (fun _ => True) (fun _ => (Quilt.defGlobals bs : SM D Unit))
  | [], _ => Ends.pure trivial
  | (_, _) :: _, h => Ends.bind (Ends.defGlobal (h _ List.mem_cons_self)) fun _ _ => Ends.defGlobals fun b hb => h b (by simp [hb])

section
variable {S : SHost D} (hS : ∀ x, CalmB (S.builtins x) S.lim) {call : Nat → SClos → List SVal → SM D SVal}
  (hc : ∀ c args, CalmF c → CalmL args → Ends Calm (fun W => call W c args))
include hS hc

mutual
theorem Ends.topStmt : ∀ n : Node, n.calm = true → Ends (fun _ => True) (fun W => evalTopStmt S (call W) W n)
  | .decl sp v e, h => by
    simp only [Node.calm] at h
    simp only [evalTopStmt]
    refine Ends.bind (Ends.node hS hc e [] h) fun val hv => ?_
    cases v with
    | one x => exact Ends.defGlobal hv
    | many xs =>
      refine Ends.bind (Ends.liftR (P := CalmL) (Val.rel_unpack _ hv) fun _ h => h) fun vs hvs => Ends.defGlobals fun b hb => ?_
      exact hvs.all _ (List.of_mem_zip hb).2
  | .func _ _ _ b, h => by
    simp only [Node.calm] at h
    simp only [evalTopStmt]; exact Ends.defGlobal ⟨rfl, h⟩
  | .extern _ x e, h => by
    simp only [Node.calm] at h
    simp only [evalTopStmt]
    refine Ends.bind (Ends.node hS hc e [] h) fun val hv => Ends.bind Ends.getGlobal fun o _ => ?_
    cases o with
    | some _ => exact Ends.pure trivial
    | none => exact Ends.defGlobal hv
  | .include _ _ body, h => by
    simp only [Node.calm] at h
    simp only [evalTopStmt]; exact Ends.topIncl body h
  | .ret .., _
  | .lit .., _ | .ident .., _ | .assign .., _ | .pair .., _ | .range .., _ | .array .., _ | .index .., _ | .un .., _
  | .bin .., _ | .block .., _ | .cond .., _ | .switch .., _ | .while .., _ | .forIn .., _ | .forMulti .., _
  | .lambda .., _ | .call .., _ | .builtin .., _ | .ctx .., _ => by simp only [evalTopStmt]; exact Ends.unspec
termination_by structural n => n
theorem Ends.topEach : ∀ ns : List Node, calmL ns = true → Ends (fun _ => True) (fun W => evalEach S (call W) W ns)
  | [], _ => by simp only [evalEach]; exact Ends.pure trivial
  | n :: ns, h => by
    simp only [calmL, Bool.and_eq_true] at h
    by_cases hs : n.isStatement
    · simp only [evalEach, hs, if_true]
      exact Ends.bind (Ends.topStmt n h.1) fun _ _ => Ends.topEach ns h.2
    · simp only [evalEach, hs]
      exact Ends.bind (Ends.node hS hc n [] h.1) fun _ _ => Ends.topEach ns h.2
termination_by structural n => n
theorem Ends.topIncl : ∀ o : Option (List Node), calmO o = true → Ends (fun _ => True) (fun W => evalIncl S (call W) W o)
  | some b, h => by
    simp only [calmO] at h
    simp only [evalIncl]; exact Ends.topEach b h
  | none, h => by simp only [evalIncl]; exact Ends.unspec
termination_by structural n => n
end

theorem Ends.top : ∀ ns : List Node, calmL ns = true → Ends Calm (fun W => evalTop S (call W) W ns)
  | [], h => by simp only [evalTop]; exact Ends.unspec
  | [n], h => by
    simp only [calmL, Bool.and_true] at h
    by_cases hs : n.isStatement
    · simp only [evalTop, hs, if_true]
      exact Ends.bind (Ends.topStmt hS hc n h) fun _ _ => Ends.unspec
    · simp only [evalTop, hs]
      exact Ends.node hS hc n [] h
  | n :: n' :: ns, h => by
    rw [calmL, Bool.and_eq_true] at h
    by_cases hs : n.isStatement
    · simp only [evalTop, hs, if_true]
      exact Ends.bind (Ends.topStmt hS hc n h.1) fun _ _ => Ends.top (n' :: ns) h.2
    · simp only [evalTop, hs]
      exact Ends.bind (Ends.node hS hc n [] h.1) fun _ _ => Ends.top (n' :: ns) h.2

end

/-- A call depth at which `callD` and `callN` agree unless a bound is hit. -/
theorem SLe.callD {S : SHost D} {W W' : Nat} (hW : W ≤ W') : ∀ {n n' : Nat}, n ≤ n' → ∀ c args, SLe True (Quilt.callD S W n c args) (Quilt.callN S W' n' c args)
  | 0, n', _, c, args => fun _ => .inl (.inr ⟨trivial, rfl⟩)
  | n + 1, 0, h, c, args => absurd h (by omega)
  | n + 1, n' + 1, h, c, args => by
    have hb := SLe.closed.bind (SLe.closed.bindVars (callScope c args) c.env) fun env =>
      SLe.closed.stmts (S := S) (SLe.callD (S := S) hW (Nat.le_of_succ_le_succ h)) (SLe.bound hW) c.body env
    intro σ
    simp only [Quilt.callN, Quilt.callD, callStep]
    rcases hb { σ with data := S.onEnter σ.data } with (h1 | ⟨_, h1⟩) | h1
    · generalize (SM.bindVars (callScope c args) c.env >>= fun env => evalStmts S (Quilt.callD S W n) W c.body env) { σ with data := S.onEnter σ.data } = r at h1
      obtain ⟨o, σ'⟩ := r
      simp only at h1; subst h1
      exact .inl (.inl rfl)
    · generalize (SM.bindVars (callScope c args) c.env >>= fun env => evalStmts S (Quilt.callD S W n) W c.body env) { σ with data := S.onEnter σ.data } = r at h1
      obtain ⟨o, σ'⟩ := r
      simp only at h1; subst h1
      exact .inl (.inr ⟨trivial, rfl⟩)
    · rw [h1]; exact .inr rfl

/-- The direct semantics of programs without `while`: whatever the bound `n` on call depth, they end or nest deeper calls. -/
theorem calm_ends {S : SHost D} (hS : ∀ x, CalmB (S.builtins x) S.lim) {ast : List Node} (h : calmL ast = true) (n : Nat) {σ : SSt D} (hs : CalmSt σ) :
    ∃ W0, ∀ W, W0 ≤ W → (evalTop S (callD S W n) W ast σ).1 ≠ .timeout := by
  obtain ⟨W0, o, σ', h1, _, h2⟩ := Ends.top hS (Ends.callD hS n) ast h σ hs
  refine ⟨W0, fun W hW ht => ?_⟩
  have := h1 W hW
  dsimp only at this
  rw [this] at ht
  subst ht
  exact h2

/-- And where they are prescribed, this is what is prescribed without regard to call depth. -/
theorem callD_program {S : SHost D} {W n : Nat} {ast : List Node} {σ : SSt D} (h1 : (evalTop S (callD S W n) W ast σ).1 ≠ .timeout)
    (h2 : (evalTop S (callD S W n) W ast σ).1 ≠ .deep) : evalProgram S (max W n) ast σ = evalTop S (callD S W n) W ast σ := by
  rcases SLe.top (S := S) (dp := True) (SLe.callD (n := n) (n' := max W n) (Nat.le_max_left W n) (Nat.le_max_right W n)) (Nat.le_max_left W n) ast σ with (h | ⟨_, h⟩) | h
  · exact absurd h h1
  · exact absurd h h2
  · exact h.symm

end Quilt
