import Verif.Sem.Ends

/-!
# Programs that compare no functions

Comparing functions with functions is the one thing the direct semantics leaves open in programs from text. Two
criteria on the syntax exclude it: there are no functions, or each comparison has an operand that cannot be
a function.
-/

set_option linter.unusedSectionVars false

namespace Quilt

/-- Its value contains no functions: literals, ranges, and operators other than `..`. -/
def Node.plain : Node → Bool
  | .lit .. | .un .. | .range .. => true
  | .bin _ op _ _ => op != .join
  | _ => false

mutual
/-- If `t`: one side of each comparison, and of each `switch` with each of its cases, is plain. Else: no functions. -/
def Node.tame (t : Bool) : Node → Bool
  | .lit .. | .ident .. => true
  | .assign _ _ e | .un _ _ e | .decl _ _ e => e.tame t
  | .pair _ a b | .range _ a b => a.tame t && b.tame t
  | .bin _ op a b => a.tame t && b.tame t && (!t || a.plain || b.plain || !(op == .eq || op == .neq))
  | .index _ e i => e.tame t && i.tame t
  | .array _ items => tameL t items
  | .block _ body => tameL t body
  | .cond _ c th el => c.tame t && tameL t th && tameO t el
  | .switch _ v cs d => v.tame t && tameC t v.plain cs && tameO t d
  | .while _ c b => c.tame t && tameL t b
  | .forIn _ _ it b => it.tame t && tameL t b
  | .forMulti _ _ it b => it.tame t && tameL t b
  | .lambda _ _ b => t && tameL t b
  | .func _ _ _ b => t && tameL t b
  | .call _ f args => f.tame t && tameL t args
  | .builtin _ _ args => tameL t args
  | .ctx _ _ args _ b => tameL t args && tameL t b
  | .ret _ e => tameR t e
  | .extern _ _ e => e.tame t
  | .include _ _ b => tameO t b
termination_by structural n => n
def tameL (t : Bool) : List Node → Bool
  | [] => true
  | n :: ns => n.tame t && tameL t ns
termination_by structural n => n
def tameO (t : Bool) : Option (List Node) → Bool
  | some b => tameL t b
  | none => true
termination_by structural n => n
def tameR (t : Bool) : Option Node → Bool
  | some e => e.tame t
  | none => true
termination_by structural n => n
def tameC (t p : Bool) : List (Node × List Node) → Bool
  | [] => true
  | (c, b) :: cs => c.tame t && (!t || p || c.plain) && tameL t b && tameC t p cs
termination_by structural n => n
end

/-- No functions inside. -/
def Plain (v : SVal) : Prop := Only (fun _ => False) v

/-- Functions with such bodies; if not `t`, none. -/
def FineF (t : Bool) (c : SClos) : Prop := t = true ∧ tameL t c.body = true
def Fine (t : Bool) (v : SVal) : Prop := Only (FineF t) v
def FineL (t : Bool) (vs : List SVal) : Prop := OnlyL (FineF t) vs

theorem FineL.all {t : Bool} {vs : List SVal} (h : FineL t vs) : ∀ v ∈ vs, Fine t v := OnlyL.all h

theorem Fine.plain {v : SVal} (h : Fine false v) : Plain v := Only.mono (fun _ hc => by simp [FineF] at hc) h

mutual
/-- Values without functions can be compared with all values. -/
theorem eqv_plain (F : FOps) : ∀ (a b : SVal), Val.Rel (OnlyR fun _ => False) a a → ∃ r, Val.eqv F (fun _ _ => none) a b = some r
  | .none, b, _ | .bool _, b, _ | .int _, b, _ | .float _, b, _ | .range .., b, _ | .color .., b, _ | .str _, b, _ | .special .., b, _
  | .loopCtx _, b, _ => by cases b <;> exact ⟨_, rfl⟩
  | .arr xs s m, b, h => by
    simp only [Val.Rel] at h
    cases b with
    | arr ys _ _ =>
      simp only [Val.eqv]
      split
      · exact eqvL_plain F xs ys h.1
      · exact ⟨_, rfl⟩
    | _ => exact ⟨_, rfl⟩
  | .pair x y, b, h => by
    simp only [Val.Rel] at h
    cases b with
    | pair x' y' =>
      simp only [Val.eqv]
      obtain ⟨r, hr⟩ := eqv_plain F x x' h.1
      rw [hr]
      cases r with
      | true => exact eqv_plain F y y' h.2
      | false => exact ⟨_, rfl⟩
    | _ => exact ⟨_, rfl⟩
  | .func _, b, h => by simp [Val.Rel] at h
  | .clos c, b, h => by simp [Val.Rel, OnlyR] at h
termination_by structural v => v
theorem eqvL_plain (F : FOps) : ∀ (as bs : List SVal), Val.RelL (OnlyR fun _ => False) as as → ∃ r, Val.eqvL F (fun _ _ => none) as bs = some r
  | [], bs, _ => by cases bs <;> exact ⟨_, rfl⟩
  | a :: as, [], _ => ⟨_, rfl⟩
  | a :: as, b :: bs, h => by
    simp only [Val.RelL] at h
    simp only [Val.eqvL]
    obtain ⟨r, hr⟩ := eqv_plain F a b h.1
    rw [hr]
    cases r with
    | true => exact eqvL_plain F as bs h.2
    | false => exact ⟨_, rfl⟩
termination_by structural v => v
end

mutual
theorem eqv_plain_right (F : FOps) : ∀ (a b : SVal), Val.Rel (OnlyR fun _ => False) b b → ∃ r, Val.eqv F (fun _ _ => none) a b = some r
  | .none, b, _ | .bool _, b, _ | .int _, b, _ | .float _, b, _ | .range .., b, _ | .color .., b, _ | .str _, b, _ | .special .., b, _
  | .loopCtx _, b, _ | .func _, b, _ => by cases b <;> exact ⟨_, rfl⟩
  | .arr xs s m, b, h => by
    cases b with
    | arr ys _ _ =>
      simp only [Val.Rel] at h
      simp only [Val.eqv]
      split
      · exact eqvL_plain_right F xs ys h.1
      · exact ⟨_, rfl⟩
    | _ => exact ⟨_, rfl⟩
  | .pair x y, b, h => by
    cases b with
    | pair x' y' =>
      simp only [Val.Rel] at h
      simp only [Val.eqv]
      obtain ⟨r, hr⟩ := eqv_plain_right F x x' h.1
      rw [hr]
      cases r with
      | true => exact eqv_plain_right F y y' h.2
      | false => exact ⟨_, rfl⟩
    | _ => exact ⟨_, rfl⟩
  | .clos c, b, h => by
    cases b with
    | clos c' => simp [Val.Rel, OnlyR] at h
    | _ => exact ⟨_, rfl⟩
termination_by structural v => v
theorem eqvL_plain_right (F : FOps) : ∀ (as bs : List SVal), Val.RelL (OnlyR fun _ => False) bs bs → ∃ r, Val.eqvL F (fun _ _ => none) as bs = some r
  | [], bs, _ => by cases bs <;> exact ⟨_, rfl⟩
  | a :: as, [], _ => ⟨_, rfl⟩
  | a :: as, b :: bs, h => by
    simp only [Val.RelL] at h
    simp only [Val.eqvL]
    obtain ⟨r, hr⟩ := eqv_plain_right F a b h.1
    rw [hr]
    cases r with
    | true => exact eqvL_plain_right F as bs h.2
    | false => exact ⟨_, rfl⟩
termination_by structural v => v
end

/-! ## Results of operators -/

/-- The results that are no arrays, pairs or functions. -/
def Flat (r : Res SVal) : Prop := ∀ v, r = .ok v → Plain v

theorem Flat.wrapI (chk : Bool) (r : Int) : Flat (wrapI chk r) := by
  intro v h
  unfold Quilt.wrapI at h
  repeat' split at h
  all_goals cases h
  all_goals rfl

theorem Flat.strCat (m : Nat) (a b : List Char) : Flat (strCat m a b) := by
  intro v h
  unfold Quilt.strCat at h
  split at h <;> cases h
  rfl

theorem Flat.strMul (chk : Bool) (m : Nat) (l : List Char) (r : BitVec 64) : Flat (Val.strMul chk m l r) := by
  intro v h
  unfold Val.strMul at h
  dsimp only at h
  repeat' split at h
  all_goals cases h
  all_goals rfl

theorem Flat.chan4 (r g b a : Res (BitVec 8)) : Flat (chan4 r g b a) := by
  intro v h
  cases r <;> cases g <;> cases b <;> cases a <;> simp [Quilt.chan4, Res.bind] at h
  subst h
  exact ⟨rfl, rfl, rfl, rfl⟩

theorem Flat.binary (cfg : Cfg) (lim : Limits) (op : Op) (hop : op ≠ .join) (a b : SVal) : Flat (Val.binary cfg lim (fun _ _ => none) op a b) := by
  intro v h
  cases op <;> simp only [Val.binary] at h
  case join => exact absurd rfl hop
  case add => unfold Val.add at h; split at h <;> first | exact Flat.strCat _ _ _ v h | exact Flat.wrapI _ _ v h | (cases h; rfl) | (cases h; exact ⟨rfl, rfl, rfl, rfl⟩) | cases h
  case sub => unfold Val.subtract at h; split at h <;> first | exact Flat.wrapI _ _ v h | (cases h; rfl) | (cases h; exact ⟨rfl, rfl, rfl, rfl⟩) | cases h
  case mul => unfold Val.multiply at h; split at h <;> first | exact Flat.strMul _ _ _ _ v h | exact Flat.wrapI _ _ v h | (cases h; rfl) | (cases h; exact ⟨rfl, rfl, rfl, rfl⟩) | cases h
  case div =>
    unfold Val.divide at h
    split at h
    · cases h
    · split at h <;> first | exact Flat.chan4 _ _ _ _ v h | (cases h; rfl) | (split at h <;> cases h <;> rfl) | cases h
  case mod =>
    unfold Val.modulo at h
    split at h
    · cases h
    · split at h <;> first | (cases h; rfl) | (split at h <;> cases h <;> rfl) | cases h
  case pow => unfold Val.power at h; split at h <;> first | exact Flat.wrapI _ _ v h | (cases h; rfl) | cases h
  case eq => unfold Val.equal at h; split at h <;> cases h <;> rfl
  case neq => unfold Val.notEqual at h; split at h <;> cases h <;> rfl
  case lt => unfold Val.lt Val.compare at h; split at h <;> cases h <;> rfl
  case gt => unfold Val.gt Val.compare at h; split at h <;> cases h <;> rfl
  case lte => unfold Val.le Val.compare at h; split at h <;> cases h <;> rfl
  case gte => unfold Val.ge Val.compare at h; split at h <;> cases h <;> rfl
  case and => unfold Val.land at h; split at h <;> cases h <;> rfl
  case or => unfold Val.lor at h; split at h <;> cases h <;> rfl
  case bitAnd => unfold Val.bitOp at h; split at h <;> cases h <;> rfl
  case bitOr => unfold Val.bitOp at h; split at h <;> cases h <;> rfl
  case bitXor => unfold Val.bitOp at h; split at h <;> cases h <;> rfl
  case shl => unfold Val.shl Val.shiftOp at h; repeat' split at h
              all_goals cases h
              all_goals rfl
  case shr => unfold Val.shr Val.shiftOp at h; repeat' split at h
              all_goals cases h
              all_goals rfl
  all_goals cases h

theorem Flat.unary (cfg : Cfg) (op : Op) (a : SVal) : Flat (Val.unary cfg op a) := by
  intro v h
  cases op <;> simp only [Val.unary] at h
  case not => unfold Val.lnot at h; split at h <;> cases h; rfl
  case neg => unfold Val.negate at h; split at h <;> first | exact Flat.wrapI _ _ v h | (cases h; rfl) | cases h
  case bitNot => unfold Val.bnot at h; split at h <;> cases h; rfl
  all_goals cases h

theorem Flat.mkRange (a b : SVal) : Flat (Val.mkRange a b) := by
  intro v h
  unfold Val.mkRange at h
  split at h <;> cases h
  exact ⟨rfl, rfl⟩

/-! ## Execution -/

variable {D : Type}

/-- Only such functions in the state. -/
def FineSt (t : Bool) (σ : SSt D) : Prop := (∀ l, Fine t (σ.store l)) ∧ ∀ x v, σ.globals x = some v → Fine t v

/-- Source builtins do not make up functions. -/
def FineB (t : Bool) : Option (Builtin D SClos) → Limits → Prop
  | some (.fn f), lim | some (.ctx f _), lim => ∀ d args v, FineL t args → (f d args lim).1 = .ok v → Fine t v
  | none, _ => True

theorem BuiltinRel.fine {t : Bool} {lim : Limits} {b : Option (Builtin D SClos)} {b' : Option (Builtin D VClos)} (h : BuiltinRel lim b b') : FineB t b lim := by
  match b, b', h with
  | none, none, _ => trivial
  | some (.fn f), some (.fn f'), h => exact fun d args v => BRel.only h d args v
  | some (.ctx f e), some (.ctx f' e'), h => exact fun d args v => BRel.only h.1 d args v

/-- Never compares functions, and leaves only such functions in the state. -/
def Cmp {α : Type} (t : Bool) (P : α → Prop) (x : SM D α) : Prop := ∀ σ, FineSt t σ → FineSt t (x σ).2 ∧
  match (x σ).1 with
  | .ok a => P a
  | .ret v => Fine t v
  | .unspec true => False
  | _ => True

namespace Cmp
variable {α β : Type} {t : Bool}

theorem pure {P : α → Prop} {a : α} (h : P a) : Cmp t P (Pure.pure a : SM D α) := fun _ hs => ⟨hs, h⟩

theorem mono {P Q : α → Prop} {x : SM D α} (h : Cmp t P x) (hpq : ∀ a, P a → Q a) : Cmp t Q x := by
  intro σ hs
  obtain ⟨h1, h2⟩ := h σ hs
  refine ⟨h1, ?_⟩
  cases ho : (x σ).1 with
  | ok a => rw [ho] at h2; exact hpq a h2
  | ret v => rw [ho] at h2; exact h2
  | unspec b => rw [ho] at h2; cases b <;> exact h2
  | _ => trivial

theorem bind {P : α → Prop} {Q : β → Prop} {x : SM D α} {f : α → SM D β} (hx : Cmp t P x) (hf : ∀ a, P a → Cmp t Q (f a)) :
    Cmp t Q (x >>= f) := by
  intro σ hs
  obtain ⟨h2, h3⟩ := hx σ hs
  have hb : (x >>= f) σ = SM.bind (fun _ => x σ) f σ := rfl
  rw [hb]
  simp only [SM.bind]
  generalize x σ = r at h2 h3
  obtain ⟨o, σ'⟩ := r
  cases o with
  | ok a => exact hf a h3 σ' h2
  | ret v => exact ⟨h2, h3⟩
  | unspec b => cases b <;> exact ⟨h2, h3⟩
  | _ => exact ⟨h2, trivial⟩

theorem err {P : α → Prop} {e : Err} {sp : Option Span} : Cmp t P (SM.err e sp : SM D α) := fun _ hs => ⟨hs, trivial⟩
theorem panic {P : α → Prop} : Cmp t P (SM.panic : SM D α) := fun _ hs => ⟨hs, trivial⟩
theorem timeout {P : α → Prop} : Cmp t P (SM.timeout : SM D α) := fun _ hs => ⟨hs, trivial⟩
theorem unspec {P : α → Prop} : Cmp t P (SM.unspec : SM D α) := fun _ hs => ⟨hs, trivial⟩
theorem ret {P : α → Prop} {v : SVal} (h : Fine t v) : Cmp t P (SM.ret v : SM D α) := fun _ hs => ⟨hs, h⟩

theorem lift {P : α → Prop} {r : Res α} {sp : Span} (h : ∀ a, r = .ok a → P a) : Cmp t P (SM.lift r sp : SM D α) := by
  cases r with
  | ok a => exact pure (h a rfl)
  | err e => exact err
  | panic => exact panic

/-- From a relational fact about a primitive. -/
theorem liftR {P : α → Prop} {R : α → α → Prop} {r : Res α} {sp : Span} (h : Res.Rel R r r) (hp : ∀ a, R a a → P a) : Cmp t P (SM.lift r sp : SM D α) :=
  lift fun a ha => by rw [ha] at h; exact hp a h

theorem alloc {v : SVal} (h : Fine t v) : Cmp t (fun _ => True) (SM.alloc v : SM D Nat) := by
  intro σ hs
  refine ⟨⟨fun l => ?_, hs.2⟩, trivial⟩
  show Fine t (upd σ.store σ.next v l)
  by_cases hl : l = σ.next
  · subst hl; rw [upd_same]; exact h
  · rw [upd_other _ _ hl]; exact hs.1 l

theorem load {l : Nat} : Cmp t (Fine t) (SM.load l : SM D SVal) := fun _ hs => ⟨hs, hs.1 l⟩

theorem store {l : Nat} {v : SVal} (h : Fine t v) : Cmp t (fun _ => True) (SM.store l v : SM D Unit) := by
  intro σ hs
  refine ⟨⟨fun l' => ?_, hs.2⟩, trivial⟩
  show Fine t (upd σ.store l v l')
  by_cases hl : l' = l
  · subst hl; rw [upd_same]; exact h
  · rw [upd_other _ _ hl]; exact hs.1 l'

theorem getGlobal {x : String} : Cmp t (fun o => ∀ v, o = some v → Fine t v) (SM.getGlobal x : SM D (Option SVal)) :=
  fun _ hs => ⟨hs, fun v hv => hs.2 x v hv⟩

theorem defGlobal {x : String} {v : SVal} (h : Fine t v) : Cmp t (fun _ => True) (SM.defGlobal x v : SM D Unit) := by
  intro σ hs
  refine ⟨⟨hs.1, fun y w hw => ?_⟩, trivial⟩
  replace hw : (if y = x then some v else σ.globals y) = some w := hw
  split at hw
  · cases hw; exact h
  · exact hs.2 y w hw

theorem host {γ : Type} {P : γ → Prop} {f : D → Res γ × D} {sp : Span} (h : ∀ d a, (f d).1 = .ok a → P a) : Cmp t P (SM.host f sp) := by
  intro σ hs
  have := h σ.data
  simp only [SM.host]
  generalize f σ.data = r at this
  obtain ⟨o, d⟩ := r
  cases o with
  | ok a => exact ⟨hs, this a rfl⟩
  | err e => exact ⟨hs, trivial⟩
  | panic => exact ⟨hs, trivial⟩

theorem pushExit {e : ExitFn D} : Cmp t (fun _ => True) (SM.pushExit e) := fun _ hs => ⟨hs, trivial⟩

theorem popExit {sp : Span} : Cmp t (fun _ => True) (SM.popExit sp : SM D Unit) := by
  intro σ hs
  simp only [SM.popExit]
  split
  · exact ⟨hs, trivial⟩
  · rename_i e es _
    exact host (f := e) (fun _ _ _ => trivial) { σ with exits := es } hs

theorem bindVars : ∀ {bs : List (String × SVal)} {env : SEnv}, (∀ b ∈ bs, Fine t b.2) → Cmp t (fun _ => True) (SM.bindVars bs env : SM D SEnv)
  | [], env, _ => pure trivial
  | (x, v) :: r, env, h => bind (alloc (h (x, v) (by simp))) fun _ _ => bindVars fun b hb => h b (by simp [hb])

theorem readVar {x : String} {sp : Span} {env : SEnv} : Cmp t (Fine t) (Quilt.readVar x sp env : SM D SVal) := by
  unfold Quilt.readVar
  split
  · exact load
  · refine bind getGlobal fun o ho => ?_
    cases o with
    | some v => exact pure (ho v rfl)
    | none => exact err

theorem writeVar {x : String} {sp : Span} {env : SEnv} {v : SVal} (h : Fine t v) : Cmp t (fun _ => True) (Quilt.writeVar x sp env v : SM D Unit) := by
  unfold Quilt.writeVar
  split
  · exact store h
  · refine bind getGlobal fun o ho => ?_
    cases o with
    | some _ => exact defGlobal h
    | none => exact err

/-- Comparing is fine if one side contains no functions. -/
theorem eqVals {F : FOps} {a b : SVal} (h : Plain a ∨ Plain b) : Cmp t (fun _ => True) (Quilt.eqVals F a b : SM D Bool) := by
  have : ∃ r, Val.eqv F (fun _ _ => none) a b = some r := h.elim (eqv_plain F a b) (eqv_plain_right F a b)
  obtain ⟨r, hr⟩ := this
  unfold Quilt.eqVals
  rw [hr]
  exact pure trivial

theorem evalBin {S : SHost D} {op : Op} {sp : Span} {a b : SVal} (ha : Fine t a) (hb : Fine t b) (h : (op = .eq ∨ op = .neq) → Plain a ∨ Plain b) :
    Cmp t (fun v => Fine t v ∧ (op ≠ .join → Plain v)) (Quilt.evalBin S op sp a b : SM D _) := by
  unfold Quilt.evalBin
  split
  · exact bind (eqVals (h (.inl rfl))) fun _ _ => pure ⟨rfl, fun _ => rfl⟩
  · exact bind (eqVals (h (.inr rfl))) fun _ _ => pure ⟨rfl, fun _ => rfl⟩
  · rename_i h1 h2
    refine lift fun v hv => ⟨?_, fun hj => Flat.binary S.cfg S.lim op hj a b v ?_⟩
    · have := Val.rel_binary S.cfg S.lim (fun _ _ => none) (fun _ _ => none) op (by simpa using h1) (by simpa using h2) ha hb
      rw [hv] at this
      exact this
    · exact hv

theorem declVars {v : Var} {sp : Span} {val : SVal} {env : SEnv} (h : Fine t val) : Cmp t (fun _ => True) (Quilt.declVars v sp val env : SM D SEnv) := by
  unfold Quilt.declVars
  split
  · exact bindVars (by simpa using h)
  · refine bind (liftR (P := FineL t) (Val.rel_unpack _ h) fun _ h => h) fun vs hvs => bindVars fun b hb => ?_
    rw [List.mem_reverse] at hb
    exact hvs.all _ (List.of_mem_zip hb).2

theorem ctxVars {v : Option Var} {sp : Span} {val : SVal} {env : SEnv} (h : Fine t val) : Cmp t (fun _ => True) (Quilt.ctxVars v sp val env : SM D SEnv) := by
  unfold Quilt.ctxVars
  split
  · exact declVars h
  · exact pure trivial

theorem applyVal {call : SClos → List SVal → SM D SVal} (hc : ∀ c args, FineF t c → FineL t args → Cmp t (Fine t) (call c args)) {sp : Span} {f : SVal}
    {args : List SVal} (hf : Fine t f) (ha : FineL t args) : Cmp t (Fine t) (Quilt.applyVal call sp f args) := by
  unfold Quilt.applyVal
  cases f with
  | clos c =>
    dsimp only
    split
    · exact err
    · exact hc _ _ hf.2 ha
  | _ => exact err

theorem callBuiltin {S : SHost D} (hS : ∀ x, FineB t (S.builtins x) S.lim) {x : String} {sp : Span} {args : List SVal} (ha : FineL t args) :
    Cmp t (Fine t) (Quilt.callBuiltin S x sp args : SM D _) := by
  have := hS x
  unfold Quilt.callBuiltin
  split
  · rename_i f hf; rw [hf] at this; exact host fun d v => this d args v ha
  · exact err
  · exact err

theorem enterCtx {S : SHost D} (hS : ∀ x, FineB t (S.builtins x) S.lim) {x : String} {sp : Span} {args : List SVal} (ha : FineL t args) :
    Cmp t (Fine t) (Quilt.enterCtx S x sp args : SM D _) := by
  have := hS x
  unfold Quilt.enterCtx
  split
  · rename_i f hf; rw [hf] at this; exact host fun d v => this d args v ha
  · rename_i f e hf; rw [hf] at this; exact bind pushExit fun _ _ => host fun d v => this d args v ha
  · exact err

theorem whileN {S : SHost D} {sp : Span} {c b : SM D SVal} (hc : Cmp t (Fine t) c) (hb : Cmp t (Fine t) b) :
    ∀ (W : Nat) {last : SVal}, Fine t last → Cmp t (Fine t) (Quilt.whileN S sp c b W last)
  | 0, _, _ => timeout
  | W + 1, last, hl => by
    simp only [Quilt.whileN]
    refine bind hc fun v _ => bind (P := fun _ => True) (lift fun _ _ => trivial) fun r _ => ?_
    cases r with
    | true => exact bind hb fun v hv => whileN hc hb W hv
    | false => exact pure hl

theorem forN {item : Nat → SM D (Option SVal)} (hi : ∀ k, Cmp t (fun o => ∀ v, o = some v → Fine t v) (item k)) {b : SVal → SM D SVal}
    (hb : ∀ v, Fine t v → Cmp t (Fine t) (b v)) : ∀ (W k : Nat) {last : SVal}, Fine t last → Cmp t (Fine t) (Quilt.forN item b W k last)
  | 0, _, _, _ => timeout
  | W + 1, k, last, hl => by
    simp only [Quilt.forN]
    refine bind (hi k) fun o ho => ?_
    cases o with
    | some x => exact bind (hb x (ho x rfl)) fun v hv => forN hi hb W (k + 1) hv
    | none => exact pure hl

theorem iterItem {chk : Bool} {v : SVal} (hv : Fine t v) (k : Nat) (sp : Span) : Cmp t (fun o => ∀ w, o = some w → Fine t w) (SM.lift (v.iterItem chk k) sp : SM D _) := by
  refine lift fun o ho w hw => ?_
  have := Val.rel_iterItem chk k hv
  rw [ho, hw] at this
  exact this

/-- Also without functions, if `p`. -/
def Also (t p : Bool) (v : SVal) : Prop := Fine t v ∧ (p = true → Plain v)

theorem fst {p : Bool} {x : SM D SVal} (h : Cmp t (Also t p) x) : Cmp t (Fine t) x := h.mono fun _ h => h.1
theorem np {p : Bool} {x : SM D SVal} (hp : p = false) (h : Cmp t (Fine t) x) : Cmp t (Also t p) x := h.mono fun _ h => ⟨h, fun h' => by simp [hp] at h'⟩

theorem both {p : Bool} {r : Res SVal} {sp : Span} (h : Cmp t (Fine t) (SM.lift r sp : SM D SVal)) (hr : Flat r) : Cmp t (Also t p) (SM.lift r sp : SM D SVal) := by
  cases r with
  | ok a => exact fun σ hs => ⟨hs, (h σ hs).2, fun _ => hr a rfl⟩
  | err e => exact err
  | panic => exact panic

variable {S : SHost D} (hS : ∀ x, FineB t (S.builtins x) S.lim) {call : SClos → List SVal → SM D SVal}
  (hc : ∀ c args, FineF t c → FineL t args → Cmp t (Fine t) (call c args)) {W : Nat}
include hS hc

mutual
theorem node : ∀ (n : Node) (env : SEnv), n.tame t = true → Cmp t (Also t n.plain) (evalNode S call W n env)
  | .lit _ l, env, _ => by simp only [evalNode]; exact pure ⟨Val.Rel.toVal l, fun _ => Val.Rel.toVal l⟩
  | .ident sp x, env, _ => by simp only [evalNode]; exact np rfl readVar
  | .assign _ (x, xsp) e, env, h => by
    simp only [Node.tame] at h
    simp only [evalNode]
    refine np rfl ?_
    exact bind (node e env h).fst fun v hv => bind (writeVar hv) fun _ _ => pure hv
  | .pair _ a b, env, h => by
    simp only [Node.tame, Bool.and_eq_true] at h
    simp only [evalNode]
    refine np rfl ?_
    exact bind (node a env h.1).fst fun _ hx => bind (node b env h.2).fst fun _ hy => pure ⟨hx, hy⟩
  | .range _ a b, env, h => by
    simp only [Node.tame, Bool.and_eq_true] at h
    simp only [evalNode]
    exact bind (node a env h.1).fst fun _ hx => bind (node b env h.2).fst fun _ hy => both (liftR (Val.rel_mkRange hx hy) fun _ h => h) (Flat.mkRange _ _)
  | .array sp items, env, h => by
    simp only [Node.tame] at h
    simp only [evalNode]
    refine np rfl ?_
    exact bind (rev items env h) fun _ hx => liftR (Val.rel_mkArray _ hx) fun _ h => h
  | .index sp e i, env, h => by
    simp only [Node.tame, Bool.and_eq_true] at h
    simp only [evalNode]
    refine np rfl ?_
    exact bind (node i env h.2).fst fun _ hx => bind (node e env h.1).fst fun _ hy => liftR (Val.rel_indexGet _ hy hx) fun _ h => h
  | .un sp op e, env, h => by
    simp only [Node.tame] at h
    simp only [evalNode]
    exact bind (node e env h).fst fun _ hx => both (liftR (Val.rel_unary _ op hx) fun _ h => h) (Flat.unary _ _ _)
  | .bin sp op a b, env, h => by
    simp only [Node.tame, Bool.and_eq_true] at h
    simp only [evalNode]
    refine bind (node a env h.1.1) fun x hx => bind (node b env h.1.2) fun y hy => mono (evalBin hx.1 hy.1 fun hop => ?_) fun v hv => ⟨hv.1, fun hp => hv.2 ?_⟩
    · cases ht : t with
      | false => subst ht; exact .inl hx.1.plain
      | true =>
        have h2 := h.2
        simp only [ht, Bool.not_true, Bool.false_or, Bool.or_eq_true] at h2
        rcases h2 with (h2 | h2) | h2
        · exact .inl (hx.2 h2)
        · exact .inr (hy.2 h2)
        · rcases hop with rfl | rfl <;> simp at h2
    · simpa [Node.plain] using hp
  | .block _ body, env, h => by
    simp only [Node.tame] at h
    simp only [evalNode]
    refine np rfl ?_
    exact stmts body env h
  | .cond sp c th el, env, h => by
    simp only [Node.tame, Bool.and_eq_true] at h
    simp only [evalNode]
    refine np rfl ?_
    refine bind (node c env h.1.1).fst fun v _ => bind (P := fun _ => True) (lift fun _ _ => trivial) fun t _ => ?_
    cases t with
    | true => exact stmts th env h.1.2
    | false => exact opt el env h.2
  | .switch _ v cs d, env, h => by
    simp only [Node.tame, Bool.and_eq_true] at h
    simp only [evalNode]
    refine np rfl ?_
    exact bind (node v env h.1.1) fun w hw => cases cs w env hw h.1.2 (opt d env h.2)
  | .while sp c body, env, h => by
    simp only [Node.tame, Bool.and_eq_true] at h
    simp only [evalNode]
    refine np rfl ?_
    exact whileN (node c env h.1).fst (stmts body env h.2) W trivial
  | .forIn sp x it body, env, h => by
    simp only [Node.tame, Bool.and_eq_true] at h
    simp only [evalNode]
    refine np rfl ?_
    refine bind (node it env h.1).fst fun v hv => forN (fun k => iterItem hv k sp) (fun i hi => ?_) W 0 trivial
    exact bind (bindVars (by simpa using hi)) fun env' _ => stmts body env' h.2
  | .forMulti sp xs it body, env, h => by
    simp only [Node.tame, Bool.and_eq_true] at h
    simp only [evalNode]
    refine np rfl ?_
    refine bind (node it env h.1).fst fun v hv => forN (fun k => iterItem hv k sp) (fun i hi => ?_) W 0 trivial
    exact bind (declVars hi) fun env' _ => stmts body env' h.2
  | .lambda sp ps body, env, h => by
    simp only [Node.tame, Bool.and_eq_true] at h
    simp only [evalNode]; exact np rfl (pure ⟨rfl, h⟩)
  | .call sp f as, env, h => by
    simp only [Node.tame, Bool.and_eq_true] at h
    simp only [evalNode]
    refine np rfl ?_
    exact bind (node f env h.1).fst fun _ hf => bind (args as env h.2) fun _ ha => applyVal hc hf ha
  | .builtin _ x as, env, h => by
    simp only [Node.tame] at h
    simp only [evalNode]
    refine np rfl ?_
    exact bind (args as env h) fun _ ha => callBuiltin hS ha
  | .ctx sp x as v body, env, h => by
    simp only [Node.tame, Bool.and_eq_true] at h
    simp only [evalNode]
    refine np rfl ?_
    exact bind (args as env h.1) fun _ ha => bind (enterCtx hS ha) fun r hr => bind (ctxVars hr) fun env' _ =>
      bind (stmts body env' h.2) fun res hres => bind popExit fun _ _ => pure hres
  | .decl .., env, _ | .extern .., env, _ | .func .., env, _ | .include .., env, _ | .ret .., env, _ => by simp only [evalNode]; exact unspec
termination_by structural n => n
theorem stmt : ∀ (n : Node) (env : SEnv), n.tame t = true → Cmp t (fun _ => True) (evalStmt S call W n env)
  | .decl sp v e, env, h => by
    simp only [Node.tame] at h
    simp only [evalStmt]
    exact bind (node e env h).fst fun _ hv => declVars hv
  | .func _ name params body, env, h => by
    simp only [Node.tame, Bool.and_eq_true] at h
    simp only [evalStmt]
    exact bindVars (by simpa using ⟨rfl, h⟩)
  | .ret _ e, env, h => by
    simp only [Node.tame] at h
    simp only [evalStmt]
    exact bind (retE e env h) fun v hv => ret hv
  | .extern .., env, _ | .include .., env, _
  | .lit .., env, _ | .ident .., env, _ | .assign .., env, _ | .pair .., env, _ | .range .., env, _ | .array .., env, _
  | .index .., env, _ | .un .., env, _ | .bin .., env, _ | .block .., env, _ | .cond .., env, _ | .switch .., env, _
  | .while .., env, _ | .forIn .., env, _ | .forMulti .., env, _ | .lambda .., env, _ | .call .., env, _ | .builtin .., env, _
  | .ctx .., env, _ => by simp only [evalStmt]; exact unspec
termination_by structural n => n
theorem stmts : ∀ (ns : List Node) (env : SEnv), tameL t ns = true → Cmp t (Fine t) (evalStmts S call W ns env)
  | [], env, h => by simp only [evalStmts]; exact unspec
  | [n], env, h => by
    simp only [tameL, Bool.and_true] at h
    by_cases hs : n.isStatement
    · simp only [evalStmts, hs, if_true]
      exact bind (stmt n env h) fun _ _ => unspec
    · simp only [evalStmts, hs]
      exact (node n env h).fst
  | n :: n' :: ns, env, h => by
    rw [tameL, Bool.and_eq_true] at h
    by_cases hs : n.isStatement
    · simp only [evalStmts, hs, if_true]
      exact bind (stmt n env h.1) fun env' _ => stmts (n' :: ns) env' h.2
    · simp only [evalStmts, hs]
      exact bind (node n env h.1).fst fun _ _ => stmts (n' :: ns) env h.2
termination_by structural n => n
theorem args : ∀ (ns : List Node) (env : SEnv), tameL t ns = true → Cmp t (FineL t) (evalArgs S call W ns env)
  | [], env, _ => by simp only [evalArgs]; exact pure trivial
  | n :: ns, env, h => by
    simp only [tameL, Bool.and_eq_true] at h
    simp only [evalArgs]
    exact bind (node n env h.1).fst fun _ hx => bind (args ns env h.2) fun _ hy => pure ⟨hx, hy⟩
termination_by structural n => n
theorem rev : ∀ (ns : List Node) (env : SEnv), tameL t ns = true → Cmp t (FineL t) (evalRev S call W ns env)
  | [], env, _ => by simp only [evalRev]; exact pure trivial
  | n :: ns, env, h => by
    simp only [tameL, Bool.and_eq_true] at h
    simp only [evalRev]
    exact bind (rev ns env h.2) fun _ hy => bind (node n env h.1).fst fun _ hx => pure ⟨hx, hy⟩
termination_by structural n => n
theorem opt : ∀ (o : Option (List Node)) (env : SEnv), tameO t o = true → Cmp t (Fine t) (evalOpt S call W o env)
  | some body, env, h => by simp only [tameO] at h; simp only [evalOpt]; exact stmts body env h
  | none, env, _ => by simp only [evalOpt]; exact pure trivial
termination_by structural n => n
theorem retE : ∀ (o : Option Node) (env : SEnv), tameR t o = true → Cmp t (Fine t) (evalRet S call W o env)
  | some e, env, h => by
    simp only [tameR] at h
    simp only [evalRet]; exact (node e env h).fst
  | none, env, _ => by simp only [evalRet]; exact pure trivial
termination_by structural n => n
theorem cases : ∀ (cs : List (Node × List Node)) (v : SVal) (env : SEnv) {p : Bool} {d : SM D SVal}, Also t p v → tameC t p cs = true → Cmp t (Fine t) d →
    Cmp t (Fine t) (evalCases S call W cs v env d)
  | [], v, env, p, d, _, _, hd => by simp only [evalCases]; exact hd
  | (c, body) :: cs, v, env, p, d, hv, h, hd => by
    simp only [tameC, Bool.and_eq_true] at h
    simp only [evalCases]
    refine bind (node c env h.1.1.1) fun cv hcv => bind (eqVals ?_) fun r _ => ?_
    · cases ht : t with
      | false => subst ht; exact .inl hv.1.plain
      | true =>
        have h2 := h.1.1.2
        simp only [ht, Bool.not_true, Bool.false_or, Bool.or_eq_true] at h2
        exact h2.imp hv.2 hcv.2
    · cases r with
      | true => exact stmts body env h.1.2
      | false => exact cases cs v env hv h.2 hd
termination_by structural cs => cs
end

end Cmp

theorem Cmp.callN {t : Bool} {S : SHost D} (hS : ∀ x, FineB t (S.builtins x) S.lim) {W : Nat} : ∀ (n : Nat) (c : SClos) (args : List SVal), FineF t c → FineL t args →
    Cmp t (Fine t) (callN S W n c args)
  | 0, _, _, _, _ => Cmp.timeout
  | n + 1, c, args, hc, ha => by
    intro σ hs
    have hgood : ∀ b ∈ callScope c args, Fine t b.2 := by
      intro b hb
      rcases List.mem_cons.1 hb with rfl | hb
      · exact ⟨rfl, hc⟩
      · exact ha.all _ (List.of_mem_zip hb).2
    have h1 := Cmp.bind (Cmp.bindVars (D := D) (env := c.env) hgood) fun env _ => Cmp.stmts hS (Cmp.callN hS (W := W) n) (W := W) c.body env hc.2
    have h2 := h1 { σ with data := S.onEnter σ.data } hs
    simp only [Quilt.callN]
    generalize (SM.bindVars (callScope c args) c.env >>= fun env => evalStmts S (Quilt.callN S W n) W c.body env) { σ with data := S.onEnter σ.data } = r at h2 ⊢
    obtain ⟨o, σ'⟩ := r
    cases o with
    | ret v => exact ⟨h2.1, h2.2⟩
    | unspec b => cases b <;> exact ⟨h2.1, h2.2⟩
    | _ => exact ⟨h2.1, trivial⟩

theorem Cmp.defGlobals {t : Bool} : ∀ {bs : List (String × SVal)}, (∀ b ∈ bs, Fine t b.2) → Cmp t (fun _ => True) (Quilt.defGlobals bs : SM D Unit)
  | [], _ => Cmp.pure trivial
  | (_, _) :: _, h => Cmp.bind (Cmp.defGlobal (h _ List.mem_cons_self)) fun _ _ => Cmp.defGlobals fun b hb => h b (by simp [hb])

section
variable {t : Bool} {S : SHost D} (hS : ∀ x, FineB t (S.builtins x) S.lim) {call : SClos → List SVal → SM D SVal}
  (hc : ∀ c args, FineF t c → FineL t args → Cmp t (Fine t) (call c args)) {W : Nat}
include hS hc

mutual
theorem Cmp.topStmt : ∀ n : Node, n.tame t = true → Cmp t (fun _ => True) (evalTopStmt S call W n)
  | .decl sp v e, h => by
    simp only [Node.tame] at h
    simp only [evalTopStmt]
    refine Cmp.bind (Cmp.node hS hc e [] h).fst fun val hv => ?_
    cases v with
    | one x => exact Cmp.defGlobal hv
    | many xs =>
      refine Cmp.bind (Cmp.liftR (P := FineL t) (Val.rel_unpack _ hv) fun _ h => h) fun vs hvs => Cmp.defGlobals fun b hb => ?_
      exact hvs.all _ (List.of_mem_zip hb).2
  | .func _ _ _ b, h => by
    simp only [Node.tame, Bool.and_eq_true] at h
    simp only [evalTopStmt]; exact Cmp.defGlobal ⟨rfl, h⟩
  | .extern _ x e, h => by
    simp only [Node.tame] at h
    simp only [evalTopStmt]
    refine Cmp.bind (Cmp.node hS hc e [] h).fst fun val hv => Cmp.bind Cmp.getGlobal fun o _ => ?_
    cases o with
    | some _ => exact Cmp.pure trivial
    | none => exact Cmp.defGlobal hv
  | .include _ _ body, h => by
    simp only [Node.tame] at h
    simp only [evalTopStmt]; exact Cmp.topIncl body h
  | .ret .., _
  | .lit .., _ | .ident .., _ | .assign .., _ | .pair .., _ | .range .., _ | .array .., _ | .index .., _ | .un .., _
  | .bin .., _ | .block .., _ | .cond .., _ | .switch .., _ | .while .., _ | .forIn .., _ | .forMulti .., _
  | .lambda .., _ | .call .., _ | .builtin .., _ | .ctx .., _ => by simp only [evalTopStmt]; exact Cmp.unspec
termination_by structural n => n
theorem Cmp.topEach : ∀ ns : List Node, tameL t ns = true → Cmp t (fun _ => True) (evalEach S call W ns)
  | [], _ => by simp only [evalEach]; exact Cmp.pure trivial
  | n :: ns, h => by
    simp only [tameL, Bool.and_eq_true] at h
    by_cases hs : n.isStatement
    · simp only [evalEach, hs, if_true]
      exact Cmp.bind (Cmp.topStmt n h.1) fun _ _ => Cmp.topEach ns h.2
    · simp only [evalEach, hs]
      exact Cmp.bind (Cmp.node hS hc n [] h.1).fst fun _ _ => Cmp.topEach ns h.2
termination_by structural n => n
theorem Cmp.topIncl : ∀ o : Option (List Node), tameO t o = true → Cmp t (fun _ => True) (evalIncl S call W o)
  | some b, h => by
    simp only [tameO] at h
    simp only [evalIncl]; exact Cmp.topEach b h
  | none, h => by simp only [evalIncl]; exact Cmp.unspec
termination_by structural n => n
end

theorem Cmp.top : ∀ ns : List Node, tameL t ns = true → Cmp t (Fine t) (evalTop S call W ns)
  | [], h => by simp only [evalTop]; exact Cmp.unspec
  | [n], h => by
    simp only [tameL, Bool.and_true] at h
    by_cases hs : n.isStatement
    · simp only [evalTop, hs, if_true]
      exact Cmp.bind (Cmp.topStmt hS hc n h) fun _ _ => Cmp.unspec
    · simp only [evalTop, hs]
      exact (Cmp.node hS hc n [] h).fst
  | n :: n' :: ns, h => by
    rw [tameL, Bool.and_eq_true] at h
    by_cases hs : n.isStatement
    · simp only [evalTop, hs, if_true]
      exact Cmp.bind (Cmp.topStmt hS hc n h.1) fun _ _ => Cmp.top (n' :: ns) h.2
    · simp only [evalTop, hs]
      exact Cmp.bind (Cmp.node hS hc n [] h.1).fst fun _ _ => Cmp.top (n' :: ns) h.2

end

/-- Such programs never compare functions. -/
theorem tame_program {t : Bool} {S : SHost D} (hS : ∀ x, FineB t (S.builtins x) S.lim) {ast : List Node} (h : tameL t ast = true) {σ : SSt D} (hs : FineSt t σ)
    (K : Nat) : (evalProgram S K ast σ).1 ≠ .unspec true := by
  have := (Cmp.top hS (Cmp.callN hS (W := K) K) (W := K) ast h σ hs).2
  intro he
  rw [show (evalTop S (callN S K K) K ast σ).1 = .unspec true from he] at this
  exact this

end Quilt
