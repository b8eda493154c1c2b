import Verif.Sem.Only
import Verif.Sem.SourceEq

/-!
# Scopes and contexts in the direct semantics

Every variable that any value or scope refers to has been allocated (its location is below `next`), so that a
newly allocated variable is not shared with anything; and contexts are left in the reverse order of
entering them if no function returns from inside a context.
-/

set_option linter.unusedSectionVars false

namespace Quilt

mutual
/-- Discipline for contexts: only builtins satisfying `K` are used as contexts, and no `return` leaves
a context. `i`: inside a context of the same function. -/
def Node.disc (K : String → Bool) (i : Bool) : Node → Bool
  | .lit .. | .ident .. => true
  | .assign _ _ e | .un _ _ e | .decl _ _ e | .extern _ _ e => e.disc K i
  | .pair _ a b | .range _ a b | .bin _ _ a b => a.disc K i && b.disc K i
  | .index _ e j => e.disc K i && j.disc K i
  | .array _ items => discL K i items
  | .block _ body => discL K i body
  | .cond _ c th el => c.disc K i && discL K i th && discO K i el
  | .switch _ v cs d => v.disc K i && discC K i cs && discO K i d
  | .while _ c b => c.disc K i && discL K i b
  | .forIn _ _ it b => it.disc K i && discL K i b
  | .forMulti _ _ it b => it.disc K i && discL K i b
  | .lambda _ _ b => discL K false b
  | .func _ _ _ b => discL K false b
  | .call _ f args => f.disc K i && discL K i args
  | .builtin _ _ args => discL K i args
  | .ctx _ x args _ b => K x.1 && discL K i args && discL K true b
  | .ret _ e => !i && discR K i e
  | .include _ _ b => discO K i b
termination_by structural n => n
def discL (K : String → Bool) (i : Bool) : List Node → Bool
  | [] => true
  | n :: ns => n.disc K i && discL K i ns
termination_by structural n => n
def discO (K : String → Bool) (i : Bool) : Option (List Node) → Bool
  | some b => discL K i b
  | none => true
termination_by structural n => n
def discR (K : String → Bool) (i : Bool) : Option Node → Bool
  | some e => e.disc K i
  | none => true
termination_by structural n => n
def discC (K : String → Bool) (i : Bool) : List (Node × List Node) → Bool
  | [] => true
  | (c, b) :: cs => c.disc K i && discL K i b && discC K i cs
termination_by structural n => n
end

variable {D : Type}

section
variable (K : String → Bool) (dsc : Prop) (hid : Option (Nat × SVal))

/-- The variables of a scope are below `n`; the hidden variable is not among the visible ones. -/
def EnvOk (n : Nat) (env : SEnv) : Prop := (∀ p ∈ env, p.2 < n) ∧ ∀ l v, hid = some (l, v) → ∀ y, lookup y env ≠ some l

/-- So are those a function refers to; its body obeys the discipline, if demanded. -/
def ClosOk (n : Nat) (c : SClos) : Prop := EnvOk hid n c.env ∧ (dsc → discL K false c.body = true)

/-- So do all functions in a value. -/
def ValOk (n : Nat) (v : SVal) : Prop := Only (ClosOk K dsc hid n) v
def ValsOk (n : Nat) (vs : List SVal) : Prop := OnlyL (ClosOk K dsc hid n) vs

/-- So do all values in a state; the hidden variable has its value. -/
def StOk (σ : SSt D) : Prop := (∀ l, ValOk K dsc hid σ.next (σ.store l)) ∧ (∀ x v, σ.globals x = some v → ValOk K dsc hid σ.next v) ∧
  ∀ l v, hid = some (l, v) → l < σ.next ∧ σ.store l = v

/-- Source builtins do not make up functions. -/
def BuiltinOk : Option (Builtin D SClos) → Limits → Prop
  | some (.fn f), lim | some (.ctx f _), lim => ∀ (Q : SClos → Prop) d args v, OnlyL Q args → (f d args lim).1 = .ok v → Only Q v
  | none, _ => True

variable {K dsc hid}

theorem EnvOk.mono {n n' : Nat} (h : n ≤ n') {env : SEnv} (he : EnvOk hid n env) : EnvOk hid n' env :=
  ⟨fun p hp => Nat.lt_of_lt_of_le (he.1 p hp) h, he.2⟩

theorem ClosOk.mono {n n' : Nat} (h : n ≤ n') {c : SClos} (hc : ClosOk K dsc hid n c) : ClosOk K dsc hid n' c :=
  ⟨hc.1.mono h, hc.2⟩

theorem ValOk.mono {n n' : Nat} (h : n ≤ n') {v : SVal} (hv : ValOk K dsc hid n v) : ValOk K dsc hid n' v :=
  Only.mono (fun _ => ClosOk.mono h) hv

theorem ValsOk.all {n : Nat} {vs : List SVal} (h : ValsOk K dsc hid n vs) : ∀ v ∈ vs, ValOk K dsc hid n v := OnlyL.all h

theorem ValsOk.mono {n n' : Nat} (h : n ≤ n') : ∀ {vs : List SVal}, ValsOk K dsc hid n vs → ValsOk K dsc hid n' vs
  | [], _ => trivial
  | _ :: _, hv => ⟨ValOk.mono h hv.1, ValsOk.mono h hv.2⟩

theorem BuiltinRel.ok {lim : Limits} {b : Option (Builtin D SClos)} {b' : Option (Builtin D VClos)} (h : BuiltinRel lim b b') : BuiltinOk b lim := by
  match b, b', h with
  | none, none, _ => trivial
  | some (.fn f), some (.fn f'), h => exact fun Q d args v => BRel.only h d args v
  | some (.ctx f e), some (.ctx f' e'), h => exact fun Q d args v => BRel.only h.1 d args v

variable (K dsc hid)

/-- An evaluation from states with at least `n0` variables keeps states in order, yields results
satisfying `P` (at the final number of variables), and changes the pending exit functions according to `E`,
if the discipline is demanded; `r`: it may return from the function. -/
def BP {α : Type} (n0 : Nat) (r : Bool) (E : List (ExitFn D) → List (ExitFn D) → Prop) (P : Nat → α → Prop) (x : SM D α) : Prop :=
  ∀ σ, n0 ≤ σ.next → StOk K dsc hid σ → StOk K dsc hid (x σ).2 ∧ σ.next ≤ (x σ).2.next ∧
    match (x σ).1 with
    | .ok a => P (x σ).2.next a ∧ (dsc → E σ.exits (x σ).2.exits)
    | .ret v => ValOk K dsc hid (x σ).2.next v ∧ (dsc → r = true ∧ σ.exits = (x σ).2.exits)
    | _ => True

variable {K dsc hid}

namespace BP
variable {α β : Type} {n0 : Nat} {r : Bool} {E E1 E2 : List (ExitFn D) → List (ExitFn D) → Prop}

theorem pure {P : Nat → α → Prop} {a : α} (h : ∀ n, n0 ≤ n → P n a) : BP K dsc hid n0 r Eq P (Pure.pure a : SM D α) :=
  fun _ hn hs => ⟨hs, Nat.le_refl _, h _ hn, fun _ => rfl⟩

theorem bindE {P : Nat → α → Prop} {Q : Nat → β → Prop} {x : SM D α} {f : α → SM D β} (hr : r = false ∨ E1 = Eq) (hE : ∀ a b c, E1 a b → E2 b c → E a c)
    (hx : BP K dsc hid n0 r E1 P x) (hf : ∀ n1 a, n0 ≤ n1 → P n1 a → BP K dsc hid n1 r E2 Q (f a)) : BP K dsc hid n0 r E Q (x >>= f) := by
  intro σ hn hs
  have hx := hx σ hn hs
  show StOk K dsc hid (SM.bind x f σ).2 ∧ σ.next ≤ (SM.bind x f σ).2.next ∧ match (SM.bind x f σ).1 with
    | .ok a => Q (SM.bind x f σ).2.next a ∧ (dsc → E σ.exits (SM.bind x f σ).2.exits)
    | .ret v => ValOk K dsc hid (SM.bind x f σ).2.next v ∧ (dsc → r = true ∧ σ.exits = (SM.bind x f σ).2.exits)
    | _ => True
  simp only [SM.bind]
  generalize x σ = q at hx
  obtain ⟨o, σ1⟩ := q
  cases o with
  | ok a =>
    obtain ⟨h1, h2, h3, h4⟩ := hx
    simp only at h1 h2 h3 h4 ⊢
    have hq := hf σ1.next a (by omega) h3 σ1 (Nat.le_refl _) h1
    generalize f a σ1 = q at hq
    obtain ⟨o, σ2⟩ := q
    obtain ⟨g1, g2, g3⟩ := hq
    refine ⟨g1, by simp only at g2 ⊢; omega, ?_⟩
    cases o with
    | ok b => exact ⟨g3.1, fun hd => hE _ _ _ (h4 hd) (g3.2 hd)⟩
    | ret v =>
      refine ⟨g3.1, fun hd => ⟨(g3.2 hd).1, ?_⟩⟩
      rcases hr with hr | rfl
      · rw [hr] at g3; exact absurd (g3.2 hd).1 (by simp)
      · exact (h4 hd).trans (g3.2 hd).2
    | _ => trivial
  | _ => exact hx

theorem bind {P : Nat → α → Prop} {Q : Nat → β → Prop} {x : SM D α} {f : α → SM D β} (hx : BP K dsc hid n0 r Eq P x)
    (hf : ∀ n1 a, n0 ≤ n1 → P n1 a → BP K dsc hid n1 r Eq Q (f a)) : BP K dsc hid n0 r Eq Q (x >>= f) :=
  bindE (.inr rfl) (fun _ _ _ h1 h2 => h1.trans h2) hx hf

theorem mono {P Q : Nat → α → Prop} {x : SM D α} {n1 : Nat} {r' : Bool} (h : BP K dsc hid n0 r E P x) (hn : n0 ≤ n1) (hr : r = true → r' = true)
    (hpq : ∀ n a, P n a → Q n a) : BP K dsc hid n1 r' E Q x := by
  intro σ hl hs
  have := h σ (by omega) hs
  generalize x σ = q at this
  obtain ⟨o, σ'⟩ := q
  cases o with
  | ok a => exact ⟨this.1, this.2.1, hpq _ a this.2.2.1, this.2.2.2⟩
  | ret v => exact ⟨this.1, this.2.1, this.2.2.1, fun hd => ⟨hr (this.2.2.2 hd).1, (this.2.2.2 hd).2⟩⟩
  | _ => exact this

theorem err {P : Nat → α → Prop} {e : Err} {sp : Option Span} : BP K dsc hid n0 r E P (SM.err e sp : SM D α) := fun _ _ hs => ⟨hs, Nat.le_refl _, trivial⟩
theorem panic {P : Nat → α → Prop} : BP K dsc hid n0 r E P (SM.panic : SM D α) := fun _ _ hs => ⟨hs, Nat.le_refl _, trivial⟩
theorem timeout {P : Nat → α → Prop} : BP K dsc hid n0 r E P (SM.timeout : SM D α) := fun _ _ hs => ⟨hs, Nat.le_refl _, trivial⟩
theorem unspec {P : Nat → α → Prop} : BP K dsc hid n0 r E P (SM.unspec : SM D α) := fun _ _ hs => ⟨hs, Nat.le_refl _, trivial⟩
theorem incomparable {P : Nat → α → Prop} : BP K dsc hid n0 r E P (SM.incomparable : SM D α) := fun _ _ hs => ⟨hs, Nat.le_refl _, trivial⟩
theorem ret {P : Nat → α → Prop} {v : SVal} (h : ValOk K dsc hid n0 v) (hr : dsc → r = true) : BP K dsc hid n0 r E P (SM.ret v : SM D α) :=
  fun _ hn hs => ⟨hs, Nat.le_refl _, h.mono hn, fun hd => ⟨hr hd, rfl⟩⟩

theorem lift {P : Nat → α → Prop} {q : Res α} {sp : Span} (h : ∀ n a, n0 ≤ n → q = .ok a → P n a) : BP K dsc hid n0 r Eq P (SM.lift q sp : SM D α) := by
  cases q with
  | ok a => exact pure fun n hn => h n a hn rfl
  | err e => exact err
  | panic => exact panic

/-- From a relational fact about a primitive. -/
theorem liftR {P : Nat → α → Prop} {R : α → α → Prop} {q : Res α} {sp : Span} (h : Res.Rel R q q) (hp : ∀ n a, n0 ≤ n → R a a → P n a) :
    BP K dsc hid n0 r Eq P (SM.lift q sp : SM D α) :=
  lift fun n a hn ha => by rw [ha] at h; exact hp n a hn h

theorem alloc {v : SVal} (h : ValOk K dsc hid n0 v) : BP K dsc hid n0 r Eq (fun n l => l < n ∧ ∀ l' w, hid = some (l', w) → l ≠ l') (SM.alloc v : SM D Nat) := by
  intro σ hn hs
  refine ⟨⟨fun l => ?_, fun x w hw => (hs.2.1 x w hw).mono (Nat.le_succ _), fun l w hl => ?_⟩, Nat.le_succ _, ⟨Nat.lt_succ_self _, fun l w hl => ?_⟩, fun _ => rfl⟩
  rotate_left
  · obtain ⟨h1, h2⟩ := hs.2.2 l w hl
    exact ⟨Nat.lt_succ_of_lt h1, by rw [← h2]; exact upd_other _ _ (by omega)⟩
  · exact (Nat.ne_of_lt (hs.2.2 l w hl).1).symm
  show ValOk K dsc hid (σ.next + 1) (upd σ.store σ.next v l)
  by_cases hl : l = σ.next
  · subst hl; rw [upd_same]; exact h.mono (by omega)
  · rw [upd_other _ _ hl]; exact (hs.1 l).mono (Nat.le_succ _)

theorem load {l : Nat} : BP K dsc hid n0 r Eq (ValOk K dsc hid) (SM.load l : SM D SVal) := fun _ _ hs => ⟨hs, Nat.le_refl _, hs.1 l, fun _ => rfl⟩

theorem store {l : Nat} {v : SVal} (h : ValOk K dsc hid n0 v) (hl : ∀ l' w, hid = some (l', w) → l ≠ l') : BP K dsc hid n0 r Eq (fun _ _ => True) (SM.store l v : SM D Unit) := by
  intro σ hn hs
  refine ⟨⟨fun l' => ?_, hs.2.1, fun l' w hw => ⟨(hs.2.2 l' w hw).1, ?_⟩⟩, Nat.le_refl _, trivial, fun _ => rfl⟩
  rotate_left
  · rw [← (hs.2.2 l' w hw).2]; exact upd_other _ _ (hl l' w hw).symm
  show ValOk K dsc hid σ.next (upd σ.store l v l')
  by_cases hl : l' = l
  · subst hl; rw [upd_same]; exact h.mono hn
  · rw [upd_other _ _ hl]; exact hs.1 l'

theorem getGlobal {x : String} : BP K dsc hid n0 r Eq (fun n o => ∀ v, o = some v → ValOk K dsc hid n v) (SM.getGlobal x : SM D (Option SVal)) :=
  fun _ _ hs => ⟨hs, Nat.le_refl _, fun v hv => hs.2.1 x v hv, fun _ => rfl⟩

theorem defGlobal {x : String} {v : SVal} (h : ValOk K dsc hid n0 v) : BP K dsc hid n0 r Eq (fun _ _ => True) (SM.defGlobal x v : SM D Unit) := by
  intro σ hn hs
  refine ⟨⟨hs.1, fun y w hw => ?_, hs.2.2⟩, Nat.le_refl _, trivial, fun _ => rfl⟩
  replace hw : (if y = x then some v else σ.globals y) = some w := hw
  split at hw
  · cases hw; exact h.mono hn
  · exact hs.2.1 y w hw

theorem host {γ : Type} {P : Nat → γ → Prop} {f : D → Res γ × D} {sp : Span} (h : ∀ n d a, n0 ≤ n → (f d).1 = .ok a → P n a) :
    BP K dsc hid n0 r Eq P (SM.host f sp) := by
  intro σ hn hs
  have := h σ.next σ.data
  simp only [SM.host]
  generalize f σ.data = q at this
  obtain ⟨o, d⟩ := q
  cases o with
  | ok a => exact ⟨hs, Nat.le_refl _, this a hn rfl, fun _ => rfl⟩
  | err e => exact ⟨hs, Nat.le_refl _, trivial⟩
  | panic => exact ⟨hs, Nat.le_refl _, trivial⟩

theorem pushExit {e : ExitFn D} : BP K dsc hid n0 r (fun a b => b = e :: a) (fun _ _ => True) (SM.pushExit e) :=
  fun _ _ hs => ⟨hs, Nat.le_refl _, trivial, fun _ => rfl⟩

theorem popExit {sp : Span} : BP K dsc hid n0 r (fun a b => b = a.tail) (fun _ _ => True) (SM.popExit sp : SM D Unit) := by
  intro σ hn hs
  simp only [SM.popExit]
  split
  · rename_i h; exact ⟨hs, Nat.le_refl _, trivial, fun _ => by rw [h]; rfl⟩
  · rename_i e es he
    simp only [SM.host, he, List.tail_cons]
    generalize e σ.data = q
    obtain ⟨o, d⟩ := q
    cases o with
    | ok a => exact ⟨hs, Nat.le_refl _, trivial, fun _ => rfl⟩
    | err e => exact ⟨hs, Nat.le_refl _, trivial⟩
    | panic => exact ⟨hs, Nat.le_refl _, trivial⟩

theorem bindVars : ∀ {bs : List (String × SVal)} {env : SEnv} {n0 : Nat}, (∀ b ∈ bs, ValOk K dsc hid n0 b.2) → EnvOk hid n0 env →
    BP K dsc hid n0 r Eq (fun n env' => EnvOk hid n env') (SM.bindVars bs env : SM D SEnv)
  | [], env, n0, _, he => pure fun _ hn => he.mono hn
  | (x, v) :: bs, env, n0, h, he => bind (alloc (h (x, v) (by simp))) fun n1 l hn hl =>
    bindVars (fun b hb => (h b (by simp [hb])).mono hn) (by
      refine ⟨fun p hp => ?_, fun l' w hw y => ?_⟩
      · rcases List.mem_cons.1 hp with rfl | hp
        · exact hl.1
        · exact (he.mono hn).1 p hp
      · simp only [lookup]
        split
        · simpa using hl.2 l' w hw
        · exact he.2 l' w hw y)

theorem readVar {x : String} {sp : Span} {env : SEnv} : BP K dsc hid n0 r Eq (ValOk K dsc hid) (Quilt.readVar x sp env : SM D SVal) := by
  unfold Quilt.readVar
  split
  · exact load
  · refine bind getGlobal fun n1 o hn ho => ?_
    cases o with
    | some v => exact pure fun n h => (ho v rfl).mono h
    | none => exact err

theorem writeVar {x : String} {sp : Span} {env : SEnv} {v : SVal} (h : ValOk K dsc hid n0 v) (he : EnvOk hid n0 env) : BP K dsc hid n0 r Eq (fun _ _ => True) (Quilt.writeVar x sp env v : SM D Unit) := by
  unfold Quilt.writeVar
  split
  · rename_i l hl
    exact store h fun l' w hw heq => he.2 l' w hw x (heq ▸ hl)
  · refine bind getGlobal fun n1 o hn ho => ?_
    cases o with
    | some _ => exact defGlobal (h.mono hn)
    | none => exact err

theorem eqVals {F : FOps} {a b : SVal} : BP K dsc hid n0 r Eq (fun _ _ => True) (Quilt.eqVals F a b : SM D Bool) := by
  unfold Quilt.eqVals
  split
  · exact pure fun _ _ => trivial
  · exact incomparable

theorem evalBin {S : SHost D} {op : Op} {sp : Span} {a b : SVal} (ha : ValOk K dsc hid n0 a) (hb : ValOk K dsc hid n0 b) :
    BP K dsc hid n0 r Eq (ValOk K dsc hid) (Quilt.evalBin S op sp a b) := by
  unfold Quilt.evalBin
  split
  · exact bind eqVals fun _ _ _ _ => pure fun _ _ => rfl
  · exact bind eqVals fun _ _ _ _ => pure fun _ _ => rfl
  · rename_i h1 h2
    exact liftR (Val.rel_binary S.cfg S.lim _ _ op (by simpa using h1) (by simpa using h2) ha hb) fun n v hn h => ValOk.mono hn h

theorem declVars {v : Var} {sp : Span} {val : SVal} {env : SEnv} (h : ValOk K dsc hid n0 val) (he : EnvOk hid n0 env) :
    BP K dsc hid n0 r Eq (fun n env' => EnvOk hid n env') (Quilt.declVars v sp val env : SM D SEnv) := by
  unfold Quilt.declVars
  split
  · exact bindVars (by simpa using h) he
  · refine bind (liftR (P := ValsOk K dsc hid) (Val.rel_unpack _ h) fun n v hn h => ValsOk.mono hn h) fun n1 vs hn hvs => bindVars (fun b hb => ?_) (he.mono hn)
    rw [List.mem_reverse] at hb
    exact hvs.all _ (List.of_mem_zip hb).2

theorem ctxVars {v : Option Var} {sp : Span} {val : SVal} {env : SEnv} (h : ValOk K dsc hid n0 val) (he : EnvOk hid n0 env) :
    BP K dsc hid n0 r Eq (fun n env' => EnvOk hid n env') (Quilt.ctxVars v sp val env : SM D SEnv) := by
  unfold Quilt.ctxVars
  split
  · exact declVars h he
  · exact pure fun n hn => he.mono hn

/-- Calls: never return from the caller. -/
def CallBP (K : String → Bool) (dsc : Prop) (hid : Option (Nat × SVal)) (call : SClos → List SVal → SM D SVal) : Prop :=
  ∀ n0 c args, ClosOk K dsc hid n0 c → ValsOk K dsc hid n0 args → BP K dsc hid n0 false Eq (ValOk K dsc hid) (call c args)

theorem applyVal {call : SClos → List SVal → SM D SVal} (hc : CallBP K dsc hid call) {sp : Span} {f : SVal}
    {args : List SVal} (hf : ValOk K dsc hid n0 f) (ha : ValsOk K dsc hid n0 args) : BP K dsc hid n0 r Eq (ValOk K dsc hid) (Quilt.applyVal call sp f args) := by
  unfold Quilt.applyVal
  split
  · split
    · exact err
    · exact (hc _ _ _ hf.2 ha).mono (Nat.le_refl _) (by simp) fun _ _ h => h
  · exact err

theorem callBuiltin {S : SHost D} (hS : ∀ x, BuiltinOk (S.builtins x) S.lim) {x : String} {sp : Span} {args : List SVal} (ha : ValsOk K dsc hid n0 args) :
    BP K dsc hid n0 r Eq (ValOk K dsc hid) (Quilt.callBuiltin S x sp args) := by
  have := hS x
  unfold Quilt.callBuiltin
  split
  · rename_i f hf; rw [hf] at this; exact host fun n d v hn h => this _ d args v (ha.mono hn) h
  · exact err
  · exact err

theorem enterCtx {S : SHost D} (hS : ∀ x, BuiltinOk (S.builtins x) S.lim) {x : String} {sp : Span} {args : List SVal} (ha : ValsOk K dsc hid n0 args)
    (hx : dsc → ∃ f e, S.builtins x = some (.ctx f e)) : BP K dsc hid n0 false (fun a b => ∃ e, b = e :: a) (ValOk K dsc hid) (Quilt.enterCtx S x sp args) := by
  have := hS x
  unfold Quilt.enterCtx
  split
  · rename_i f hf
    rw [hf] at this hx
    have hd : ¬ dsc := fun hd => by obtain ⟨_, _, h⟩ := hx hd; simp at h
    have h := host (K := K) (dsc := dsc) (hid := hid) (r := false) (n0 := n0) (sp := sp) (P := ValOk K dsc hid) (f := fun d => f d args S.lim) fun n d v hn h => this _ d args v (ha.mono hn) h
    intro σ hn hs
    have h := h σ hn hs
    generalize SM.host (fun d => f d args S.lim) sp σ = q at h
    obtain ⟨o, σ'⟩ := q
    cases o with
    | ok a => exact ⟨h.1, h.2.1, h.2.2.1, fun h => absurd h hd⟩
    | _ => exact h
  · rename_i f e hf
    rw [hf] at this
    refine bindE (E2 := Eq) (.inl rfl) ?_ pushExit fun n1 _ hn _ => host fun n d v hn' h => this _ d args v (ha.mono (by omega)) h
    rintro a b c rfl rfl; exact ⟨e, rfl⟩
  · exact err

theorem whileN {S : SHost D} {sp : Span} {c b : SM D SVal} (hc : BP K dsc hid n0 r Eq (ValOk K dsc hid) c) (hb : BP K dsc hid n0 r Eq (ValOk K dsc hid) b) :
    ∀ {W n1 : Nat} {last : SVal}, n0 ≤ n1 → ValOk K dsc hid n1 last → BP K dsc hid n1 r Eq (ValOk K dsc hid) (Quilt.whileN S sp c b W last)
  | 0, _, _, _, _ => timeout
  | W + 1, n1, last, hn, hl => by
    unfold Quilt.whileN
    refine bind (hc.mono hn (fun h => h) fun _ _ h => h) fun n2 v hn2 _ => bind (P := fun _ _ => True) (lift fun _ _ _ _ => trivial) fun n3 t hn3 _ => ?_
    cases t with
    | true => exact bind (hb.mono (by omega) (fun h => h) fun _ _ h => h) fun n4 v hn4 hv => whileN hc hb (by omega) hv
    | false => exact pure fun n hn => hl.mono (by omega)

theorem forN {item : Nat → SM D (Option SVal)} (hi : ∀ k, BP K dsc hid n0 r Eq (fun n o => ∀ v, o = some v → ValOk K dsc hid n v) (item k)) {b : SVal → SM D SVal}
    (hb : ∀ n1 v, n0 ≤ n1 → ValOk K dsc hid n1 v → BP K dsc hid n1 r Eq (ValOk K dsc hid) (b v)) :
    ∀ {W k n1 : Nat} {last : SVal}, n0 ≤ n1 → ValOk K dsc hid n1 last → BP K dsc hid n1 r Eq (ValOk K dsc hid) (Quilt.forN item b W k last)
  | 0, _, _, _, _, _ => timeout
  | W + 1, k, n1, last, hn, hl => by
    unfold Quilt.forN
    refine bind ((hi k).mono hn (fun h => h) fun _ _ h => h) fun n2 o hn2 ho => ?_
    cases o with
    | some x => exact bind (hb n2 x (by omega) (ho x rfl)) fun n3 v hn3 hv => forN hi hb (by omega) hv
    | none => exact pure fun n hn => hl.mono (by omega)

theorem item {S : SHost D} {v : SVal} (hv : ValOk K dsc hid n0 v) {sp : Span} (k : Nat) :
    BP K dsc hid n0 r Eq (fun n o => ∀ w, o = some w → ValOk K dsc hid n w) (SM.lift (v.iterItem S.cfg.chk k) sp : SM D (Option SVal)) :=
  liftR (Val.rel_iterItem _ k hv) fun n o hn ho w hw => by subst hw; exact ValOk.mono hn ho

/-- Top-level declarations bind globals, in order. -/
theorem defGlobals : ∀ {bs : List (String × SVal)} {n0 : Nat}, (∀ b ∈ bs, ValOk K dsc hid n0 b.2) → BP K dsc hid n0 r Eq (fun _ _ => True) (Quilt.defGlobals bs : SM D Unit)
  | [], _, _ => pure fun _ _ => trivial
  | (x, v) :: bs, n0, h => bind (defGlobal (h (x, v) (by simp))) fun n1 _ hn _ => defGlobals fun b hb => (h b (by simp [hb])).mono hn

theorem envNil {n : Nat} : EnvOk hid n [] := ⟨fun _ h => by simp at h, fun _ _ _ _ => by simp [lookup]⟩

variable {S : SHost D} (hS : ∀ x, BuiltinOk (S.builtins x) S.lim) (hK : dsc → ∀ x, K x = true → ∃ f e, S.builtins x = some (.ctx f e))
  {call : SClos → List SVal → SM D SVal} (hc : CallBP K dsc hid call) {W : Nat}
include hS hK hc

mutual
theorem node : ∀ (n : Node) (i : Bool) (env : SEnv) (n0 : Nat), (dsc → n.disc K i = true) → EnvOk hid n0 env →
    BP K dsc hid n0 (!i) Eq (ValOk K dsc hid) (evalNode S call W n env)
  | .lit _ l, i, env, n0, _, _ => by unfold evalNode; exact pure fun _ _ => Val.Rel.toVal l
  | .ident sp x, i, env, n0, _, _ => by unfold evalNode; exact readVar
  | .assign _ (x, xsp) e, i, env, n0, h, he => by
    simp only [Node.disc] at h
    unfold evalNode
    exact bind (node e i env n0 h he) fun n1 v hn hv => bind (writeVar hv (he.mono hn)) fun n2 _ hn2 _ => pure fun n h => hv.mono (by omega)
  | .pair _ a b, i, env, n0, h, he => by
    simp only [Node.disc, Bool.and_eq_true] at h
    unfold evalNode
    exact bind (node a i env n0 (fun hd => (h hd).1) he) fun n1 _ hn hx => bind (node b i env n1 (fun hd => (h hd).2) (he.mono hn)) fun n2 _ hn2 hy =>
      pure fun n h => ⟨hx.mono (by omega), hy.mono h⟩
  | .range _ a b, i, env, n0, h, he => by
    simp only [Node.disc, Bool.and_eq_true] at h
    unfold evalNode
    exact bind (node a i env n0 (fun hd => (h hd).1) he) fun n1 _ hn hx => bind (node b i env n1 (fun hd => (h hd).2) (he.mono hn)) fun n2 _ hn2 hy =>
      liftR (Val.rel_mkRange (hx.mono hn2) hy) fun n v hn h => ValOk.mono hn h
  | .array sp items, i, env, n0, h, he => by
    simp only [Node.disc] at h
    unfold evalNode
    exact bind (rev items i env n0 h he) fun n1 _ hn hx => liftR (Val.rel_mkArray _ hx) fun n v hn h => ValOk.mono hn h
  | .index sp e j, i, env, n0, h, he => by
    simp only [Node.disc, Bool.and_eq_true] at h
    unfold evalNode
    exact bind (node j i env n0 (fun hd => (h hd).2) he) fun n1 _ hn hx => bind (node e i env n1 (fun hd => (h hd).1) (he.mono hn)) fun n2 _ hn2 hy =>
      liftR (Val.rel_indexGet _ hy (hx.mono hn2)) fun n v hn h => ValOk.mono hn h
  | .un sp op e, i, env, n0, h, he => by
    simp only [Node.disc] at h
    unfold evalNode
    exact bind (node e i env n0 h he) fun n1 _ hn hx => liftR (Val.rel_unary _ op hx) fun n v hn h => ValOk.mono hn h
  | .bin sp op a b, i, env, n0, h, he => by
    simp only [Node.disc, Bool.and_eq_true] at h
    unfold evalNode
    exact bind (node a i env n0 (fun hd => (h hd).1) he) fun n1 _ hn hx => bind (node b i env n1 (fun hd => (h hd).2) (he.mono hn)) fun n2 _ hn2 hy =>
      evalBin (hx.mono hn2) hy
  | .block _ body, i, env, n0, h, he => by
    simp only [Node.disc] at h
    unfold evalNode; exact stmts body i env n0 h he
  | .cond sp c th el, i, env, n0, h, he => by
    simp only [Node.disc, Bool.and_eq_true] at h
    unfold evalNode
    refine bind (node c i env n0 (fun hd => (h hd).1.1) he) fun n1 v hn _ => bind (P := fun _ _ => True) (lift fun _ _ _ _ => trivial) fun n2 t hn2 _ => ?_
    cases t with
    | true => exact stmts th i env n2 (fun hd => (h hd).1.2) (he.mono (by omega))
    | false => exact opt el i env n2 (fun hd => (h hd).2) (he.mono (by omega))
  | .switch _ v cs d, i, env, n0, h, he => by
    simp only [Node.disc, Bool.and_eq_true] at h
    unfold evalNode
    exact bind (node v i env n0 (fun hd => (h hd).1.1) he) fun n1 v hn _ =>
      cases cs i v env n1 (fun hd => (h hd).1.2) (he.mono hn) fun n2 hn2 => opt d i env n2 (fun hd => (h hd).2) (he.mono (by omega))
  | .while sp c body, i, env, n0, h, he => by
    simp only [Node.disc, Bool.and_eq_true] at h
    unfold evalNode
    exact whileN (node c i env n0 (fun hd => (h hd).1) he) (stmts body i env n0 (fun hd => (h hd).2) he) (Nat.le_refl _) trivial
  | .forIn sp x it body, i, env, n0, h, he => by
    simp only [Node.disc, Bool.and_eq_true] at h
    unfold evalNode
    refine bind (node it i env n0 (fun hd => (h hd).1) he) fun n1 v hn hv => forN (fun k => item hv k) (fun n2 w hn2 hi => ?_) (Nat.le_refl _) trivial
    exact bind (bindVars (by simpa using hi) (he.mono (by omega))) fun n3 env' hn3 he' => stmts body i env' n3 (fun hd => (h hd).2) he'
  | .forMulti sp xs it body, i, env, n0, h, he => by
    simp only [Node.disc, Bool.and_eq_true] at h
    unfold evalNode
    refine bind (node it i env n0 (fun hd => (h hd).1) he) fun n1 v hn hv => forN (fun k => item hv k) (fun n2 w hn2 hi => ?_) (Nat.le_refl _) trivial
    exact bind (declVars hi (he.mono (by omega))) fun n3 env' hn3 he' => stmts body i env' n3 (fun hd => (h hd).2) he'
  | .lambda sp ps body, i, env, n0, h, he => by
    simp only [Node.disc] at h
    unfold evalNode; exact pure fun n hn => ⟨rfl, he.mono hn, h⟩
  | .call sp f as, i, env, n0, h, he => by
    simp only [Node.disc, Bool.and_eq_true] at h
    unfold evalNode
    exact bind (node f i env n0 (fun hd => (h hd).1) he) fun n1 _ hn hf => bind (args as i env n1 (fun hd => (h hd).2) (he.mono hn)) fun n2 _ hn2 ha =>
      applyVal hc (hf.mono hn2) ha
  | .builtin _ x as, i, env, n0, h, he => by
    simp only [Node.disc] at h
    unfold evalNode
    exact bind (args as i env n0 h he) fun n1 _ hn ha => callBuiltin hS ha
  | .ctx sp x as v body, i, env, n0, h, he => by
    simp only [Node.disc, Bool.and_eq_true] at h
    unfold evalNode
    refine bind (args as i env n0 (fun hd => (h hd).1.2) he) fun n1 vs hn ha => ?_
    refine mono (r := false) (P := ValOk K dsc hid) (n0 := n1) ?_ (Nat.le_refl _) (by simp) fun _ _ h => h
    refine bindE (E2 := fun a b => b = a.tail) (.inl rfl) ?_ (enterCtx hS ha fun hd => hK hd _ (h hd).1.1) fun n2 w hn2 hw => ?_
    · rintro a b c ⟨e, rfl⟩ rfl; rfl
    refine bindE (E1 := Eq) (E2 := fun a b => b = a.tail) (.inr rfl) (by rintro a b c rfl rfl; rfl) (ctxVars hw (he.mono (by omega))) fun n3 env' hn3 he' => ?_
    refine bindE (E1 := Eq) (E2 := fun a b => b = a.tail) (.inr rfl) (by rintro a b c rfl rfl; rfl) (stmts body true env' n3 (fun hd => (h hd).2) he') fun n4 res hn4 hres => ?_
    exact bindE (E2 := Eq) (.inl rfl) (by rintro a b c rfl rfl; rfl) popExit fun n5 _ hn5 _ => pure fun n hn => hres.mono (by omega)
  | .decl .., i, env, n0, _, _ | .extern .., i, env, n0, _, _ | .func .., i, env, n0, _, _ | .include .., i, env, n0, _, _ | .ret .., i, env, n0, _, _ => by
    unfold evalNode; exact unspec
termination_by structural n => n
theorem stmt : ∀ (n : Node) (i : Bool) (env : SEnv) (n0 : Nat), (dsc → n.disc K i = true) → EnvOk hid n0 env →
    BP K dsc hid n0 (!i) Eq (fun n env' => EnvOk hid n env') (evalStmt S call W n env)
  | .decl sp v e, i, env, n0, h, he => by
    simp only [Node.disc] at h
    unfold evalStmt
    exact bind (node e i env n0 h he) fun n1 _ hn hv => declVars hv (he.mono hn)
  | .func _ name params body, i, env, n0, h, he => by
    simp only [Node.disc] at h
    unfold evalStmt
    refine bindVars (fun b hb => ?_) he
    simp only [List.mem_singleton] at hb
    subst hb
    exact ⟨rfl, he, h⟩
  | .ret _ e, i, env, n0, h, he => by
    simp only [Node.disc, Bool.and_eq_true] at h
    unfold evalStmt
    exact bind (retE e i env n0 (fun hd => (h hd).2) he) fun n1 v hn hv => ret hv fun hd => (h hd).1
  | .extern .., i, env, n0, _, _ | .include .., i, env, n0, _, _
  | .lit .., i, env, n0, _, _ | .ident .., i, env, n0, _, _ | .assign .., i, env, n0, _, _ | .pair .., i, env, n0, _, _ | .range .., i, env, n0, _, _ | .array .., i, env, n0, _, _
  | .index .., i, env, n0, _, _ | .un .., i, env, n0, _, _ | .bin .., i, env, n0, _, _ | .block .., i, env, n0, _, _ | .cond .., i, env, n0, _, _ | .switch .., i, env, n0, _, _
  | .while .., i, env, n0, _, _ | .forIn .., i, env, n0, _, _ | .forMulti .., i, env, n0, _, _ | .lambda .., i, env, n0, _, _ | .call .., i, env, n0, _, _ | .builtin .., i, env, n0, _, _
  | .ctx .., i, env, n0, _, _ => by unfold evalStmt; exact unspec
termination_by structural n => n
theorem stmts : ∀ (ns : List Node) (i : Bool) (env : SEnv) (n0 : Nat), (dsc → discL K i ns = true) → EnvOk hid n0 env →
    BP K dsc hid n0 (!i) Eq (ValOk K dsc hid) (evalStmts S call W ns env)
  | [], i, env, n0, _, _ => by unfold evalStmts; exact unspec
  | [n], i, env, n0, h, he => by
    simp only [discL, Bool.and_eq_true] at h
    unfold evalStmts
    split
    · exact bind (stmt n i env n0 (fun hd => (h hd).1) he) fun _ _ _ _ => unspec
    · exact node n i env n0 (fun hd => (h hd).1) he
  | n :: n' :: ns, i, env, n0, h, he => by
    rw [discL, Bool.and_eq_true] at h
    unfold evalStmts
    split
    · exact bind (stmt n i env n0 (fun hd => (h hd).1) he) fun n1 env' _ he' => stmts (n' :: ns) i env' n1 (fun hd => (h hd).2) he'
    · exact bind (node n i env n0 (fun hd => (h hd).1) he) fun n1 _ hn _ => stmts (n' :: ns) i env n1 (fun hd => (h hd).2) (he.mono hn)
termination_by structural n => n
theorem args : ∀ (ns : List Node) (i : Bool) (env : SEnv) (n0 : Nat), (dsc → discL K i ns = true) → EnvOk hid n0 env →
    BP K dsc hid n0 (!i) Eq (ValsOk K dsc hid) (evalArgs S call W ns env)
  | [], i, env, n0, _, _ => by unfold evalArgs; exact pure fun _ _ => trivial
  | n :: ns, i, env, n0, h, he => by
    simp only [discL, Bool.and_eq_true] at h
    unfold evalArgs
    exact bind (node n i env n0 (fun hd => (h hd).1) he) fun n1 _ hn hx => bind (args ns i env n1 (fun hd => (h hd).2) (he.mono hn)) fun n2 _ hn2 hy =>
      pure fun n hn => ⟨hx.mono (by omega), hy.mono hn⟩
termination_by structural n => n
theorem rev : ∀ (ns : List Node) (i : Bool) (env : SEnv) (n0 : Nat), (dsc → discL K i ns = true) → EnvOk hid n0 env →
    BP K dsc hid n0 (!i) Eq (ValsOk K dsc hid) (evalRev S call W ns env)
  | [], i, env, n0, _, _ => by unfold evalRev; exact pure fun _ _ => trivial
  | n :: ns, i, env, n0, h, he => by
    simp only [discL, Bool.and_eq_true] at h
    unfold evalRev
    exact bind (rev ns i env n0 (fun hd => (h hd).2) he) fun n1 _ hn hy => bind (node n i env n1 (fun hd => (h hd).1) (he.mono hn)) fun n2 _ hn2 hx =>
      pure fun n hn => ⟨hx.mono (by omega), hy.mono (by omega)⟩
termination_by structural n => n
theorem opt : ∀ (o : Option (List Node)) (i : Bool) (env : SEnv) (n0 : Nat), (dsc → discO K i o = true) → EnvOk hid n0 env →
    BP K dsc hid n0 (!i) Eq (ValOk K dsc hid) (evalOpt S call W o env)
  | some body, i, env, n0, h, he => by simp only [discO] at h; unfold evalOpt; exact stmts body i env n0 h he
  | none, i, env, n0, _, _ => by unfold evalOpt; exact pure fun _ _ => trivial
termination_by structural n => n
theorem retE : ∀ (o : Option Node) (i : Bool) (env : SEnv) (n0 : Nat), (dsc → discR K i o = true) → EnvOk hid n0 env →
    BP K dsc hid n0 (!i) Eq (ValOk K dsc hid) (evalRet S call W o env)
  | some e, i, env, n0, h, he => by simp only [discR] at h; unfold evalRet; exact node e i env n0 h he
  | none, i, env, n0, _, _ => by unfold evalRet; exact pure fun _ _ => trivial
termination_by structural n => n
theorem cases : ∀ (cs : List (Node × List Node)) (i : Bool) (v : SVal) (env : SEnv) (n0 : Nat) {d : SM D SVal}, (dsc → discC K i cs = true) → EnvOk hid n0 env →
    (∀ n1, n0 ≤ n1 → BP K dsc hid n1 (!i) Eq (ValOk K dsc hid) d) → BP K dsc hid n0 (!i) Eq (ValOk K dsc hid) (evalCases S call W cs v env d)
  | [], i, v, env, n0, d, _, _, hd => by unfold evalCases; exact hd n0 (Nat.le_refl _)
  | (c, body) :: cs, i, v, env, n0, d, h, he, hd => by
    simp only [discC, Bool.and_eq_true] at h
    unfold evalCases
    refine bind (node c i env n0 (fun hd => (h hd).1.1) he) fun n1 cv hn _ => bind eqVals fun n2 t hn2 _ => ?_
    cases t with
    | true => exact stmts body i env n2 (fun hd => (h hd).1.2) (he.mono (by omega))
    | false => exact cases cs i v env n2 (fun hd => (h hd).2) (he.mono (by omega)) fun n3 hn3 => hd n3 (by omega)
termination_by structural cs => cs
end

omit hc in
theorem callN : ∀ n : Nat, CallBP K dsc hid (Quilt.callN S W n)
  | 0 => fun _ _ _ _ _ => timeout
  | n + 1 => by
    intro n0 c args hcl ha σ hn hs
    simp only [Quilt.callN]
    have hgood : ∀ b ∈ callScope c args, ValOk K dsc hid n0 b.2 := by
      intro b hb
      rcases List.mem_cons.1 hb with rfl | hb
      · exact ⟨rfl, hcl⟩
      · exact ha.all _ (List.of_mem_zip hb).2
    have h1 := bind (r := !false) (bindVars (D := D) (env := c.env) hgood hcl.1) fun n1 env _ he =>
      stmts hS hK (callN n) (W := W) c.body false env n1 hcl.2 he
    have h2 := h1 { σ with data := S.onEnter σ.data } hn hs
    generalize (SM.bindVars (callScope c args) c.env >>= fun env => evalStmts S (Quilt.callN S W n) W c.body env) { σ with data := S.onEnter σ.data } = q at h2
    obtain ⟨o, σ'⟩ := q
    cases o with
    | ok v => exact ⟨h2.1, h2.2.1, trivial⟩
    | ret v => exact ⟨h2.1, h2.2.1, h2.2.2.1, fun hd => (h2.2.2.2 hd).2⟩
    | _ => exact h2

mutual
theorem topStmt : ∀ (n : Node) (n0 : Nat), (dsc → n.disc K false = true) → BP K dsc hid n0 true Eq (fun _ _ => True) (evalTopStmt S call W n)
  | .decl sp v e, n0, h => by
    simp only [Node.disc] at h
    unfold evalTopStmt
    refine bind (node hS hK hc e false [] n0 h envNil) fun n1 w hn hv => ?_
    cases v with
    | one x => exact defGlobal hv
    | many xs =>
      refine bind (liftR (P := ValsOk K dsc hid) (Val.rel_unpack _ hv) fun n v hn h => ValsOk.mono hn h) fun n2 vs hn2 hvs => defGlobals fun b hb => ?_
      exact hvs.all _ (List.of_mem_zip hb).2
  | .func _ name params body, n0, h => by
    simp only [Node.disc] at h
    unfold evalTopStmt
    exact defGlobal ⟨rfl, envNil, h⟩
  | .extern _ x e, n0, h => by
    simp only [Node.disc] at h
    unfold evalTopStmt
    refine bind (node hS hK hc e false [] n0 h envNil) fun n1 w hn hv => bind getGlobal fun n2 o hn2 _ => ?_
    cases o with
    | some _ => exact pure fun _ _ => trivial
    | none => exact defGlobal (hv.mono hn2)
  | .include _ _ body, n0, h => by
    simp only [Node.disc] at h
    unfold evalTopStmt
    exact incl body n0 h
  | .lit .., n0, _ | .ident .., n0, _ | .assign .., n0, _ | .pair .., n0, _ | .range .., n0, _ | .array .., n0, _
  | .index .., n0, _ | .un .., n0, _ | .bin .., n0, _ | .block .., n0, _ | .cond .., n0, _ | .switch .., n0, _
  | .while .., n0, _ | .forIn .., n0, _ | .forMulti .., n0, _ | .lambda .., n0, _ | .call .., n0, _ | .builtin .., n0, _
  | .ctx .., n0, _ | .ret .., n0, _ => by unfold evalTopStmt; exact unspec
termination_by structural n => n
theorem each : ∀ (ns : List Node) (n0 : Nat), (dsc → discL K false ns = true) → BP K dsc hid n0 true Eq (fun _ _ => True) (evalEach S call W ns)
  | [], n0, _ => by unfold evalEach; exact pure fun _ _ => trivial
  | n :: ns, n0, h => by
    simp only [discL, Bool.and_eq_true] at h
    unfold evalEach
    split
    · exact bind (topStmt n n0 fun hd => (h hd).1) fun n1 _ _ _ => each ns n1 fun hd => (h hd).2
    · exact bind (node hS hK hc n false [] n0 (fun hd => (h hd).1) envNil) fun n1 _ _ _ => each ns n1 fun hd => (h hd).2
termination_by structural n => n
theorem incl : ∀ (o : Option (List Node)) (n0 : Nat), (dsc → discO K false o = true) → BP K dsc hid n0 true Eq (fun _ _ => True) (evalIncl S call W o)
  | some body, n0, h => by simp only [discO] at h; unfold evalIncl; exact each body n0 h
  | none, n0, _ => by unfold evalIncl; exact unspec
termination_by structural n => n
end

theorem top : ∀ (ns : List Node) (n0 : Nat), (dsc → discL K false ns = true) → BP K dsc hid n0 true Eq (ValOk K dsc hid) (evalTop S call W ns)
  | [], n0, _ => by unfold evalTop; exact unspec
  | [n], n0, h => by
    simp only [discL, Bool.and_eq_true] at h
    unfold evalTop
    split
    · exact bind (topStmt hS hK hc n n0 fun hd => (h hd).1) fun n1 _ _ _ => unspec
    · exact node hS hK hc n false [] n0 (fun hd => (h hd).1) envNil
  | n :: n' :: ns, n0, h => by
    rw [discL, Bool.and_eq_true] at h
    unfold evalTop
    split
    · exact bind (topStmt hS hK hc n n0 fun hd => (h hd).1) fun n1 _ _ _ => top (n' :: ns) n1 fun hd => (h hd).2
    · exact bind (node hS hK hc n false [] n0 (fun hd => (h hd).1) envNil) fun n1 _ _ _ => top (n' :: ns) n1 fun hd => (h hd).2

end BP
end

end Quilt
