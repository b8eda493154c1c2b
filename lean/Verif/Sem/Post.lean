import Verif.Sem.World

/-!
# Executing generated code: the framework of the simulation
-/

namespace Quilt

/-! ## Code in memory -/

/-- The function contains the code at position `p`. -/
def CodeAt (fn : Func) (p : Nat) (code : Code) : Prop :=
  (∃ pre post, fn.ops = pre ++ (code.ops ++ post) ∧ pre.length = p) ∧
  (∀ (k : Nat) (sp : Span), code.spans[k]? = some sp → fn.getSpan (p + k) = sp) ∧
  ∀ q ∈ code, q.i.small = true

namespace CodeAt
variable {fn : Func} {p : Nat} {a b c : Code} {q : Piece}

theorem left (h : CodeAt fn p (a ++ b)) : CodeAt fn p a := by
  obtain ⟨⟨pre, post, h1, h2⟩, h3, h4⟩ := h
  refine ⟨⟨pre, b.ops ++ post, by simp [h1], h2⟩, fun k sp hk => h3 k sp ?_, fun q hq => h4 q (by simp [hq])⟩
  rw [Code.spans_append]
  rw [List.getElem?_append_left (List.getElem?_eq_some_iff.1 hk).1]; exact hk

theorem right (h : CodeAt fn p (a ++ b)) : CodeAt fn (p + a.len) b := by
  obtain ⟨⟨pre, post, h1, h2⟩, h3, h4⟩ := h
  refine ⟨⟨pre ++ a.ops, post, by simp [h1], by simp [Code.len, h2]⟩, fun k sp hk => ?_, fun q hq => h4 q (by simp [hq])⟩
  rw [Nat.add_assoc]
  apply h3
  rw [Code.spans_append, List.getElem?_append_right (by rw [Code.spans_length, Code.len]; omega)]
  rw [Code.spans_length, Code.len, Nat.add_sub_cancel_left]; exact hk

theorem tail (h : CodeAt fn p (q :: c)) : CodeAt fn (p + q.i.enc.length) c := by
  have := right (a := [q]) (b := c) (fn := fn) (p := p) h
  simpa using this

/-- The last byte of an instruction has its span. -/
theorem lastSpan (h : CodeAt fn p (q :: c)) : fn.getSpan (p + q.i.enc.length - 1) = q.lastSp := by
  have hp := q.i.enc_pos
  have := h.2.1 (q.i.enc.length - 1) q.lastSp (by
    rw [Code.spans_cons, List.getElem?_append_left (by simp [Piece.spans])]
    simp only [Piece.spans]
    rw [List.getElem?_append_right (by simp)]
    simp)
  rw [← this]
  congr 1
  omega

end CodeAt

/-- Small operands fit, except for tables of captured variables. -/
theorem Instr.fits_of_small {consts : List Const} {i : Instr} (h : i.small = true)
    (hc : ∀ k us, i = .createClosure k us → ∃ g, consts[k]? = some (.fn g) ∧ g.upvalueCount = us.length) :
    i.Fits consts := by
  cases i <;> simp only [Instr.small, Bool.and_eq_true, decide_eq_true_eq] at h <;> simp only [Instr.Fits] <;> try exact h
  case createClosure k us =>
    refine ⟨h.1, hc k us rfl, ?_⟩
    intro u hu
    have := List.all_eq_true.1 h.2 u hu
    simpa using this
  case unary op => simpa using h

namespace VM
variable {D : Type}

/-- Same state, other instruction pointer. -/
def goto (s : VM D) (p : Nat) : VM D := { s with frame := { s.frame with ip := p } }

@[simp] theorem goto_mem (s : VM D) (p : Nat) : (s.goto p).mem = s.mem := rfl
@[simp] theorem goto_ip (s : VM D) (p : Nat) : (s.goto p).frame.ip = p := rfl
@[simp] theorem goto_fn (s : VM D) (p : Nat) : (s.goto p).frame.fn = s.frame.fn := rfl
@[simp] theorem goto_ups (s : VM D) (p : Nat) : (s.goto p).frame.ups = s.frame.ups := rfl
@[simp] theorem goto_st (s : VM D) (p : Nat) : (s.goto p).frame.st = s.frame.st := rfl
@[simp] theorem goto_frames (s : VM D) (p : Nat) : (s.goto p).frames = s.frames := rfl
@[simp] theorem goto_br (s : VM D) (p : Nat) : (s.goto p).blockResults = s.blockResults := rfl
@[simp] theorem goto_stack (s : VM D) (p : Nat) : (s.goto p).stack = s.stack := rfl
@[simp] theorem goto_sp (s : VM D) (p : Nat) : (s.goto p).sp = s.sp := rfl
@[simp] theorem goto_data (s : VM D) (p : Nat) : (s.goto p).data = s.data := rfl
@[simp] theorem goto_exitFns (s : VM D) (p : Nat) : (s.goto p).exitFns = s.exitFns := rfl
@[simp] theorem goto_globals (s : VM D) (p : Nat) : (s.goto p).globals = s.globals := rfl
@[simp] theorem goto_heap (s : VM D) (p : Nat) : (s.goto p).heap = s.heap := rfl

/-- Executing the instruction at the instruction pointer. -/
theorem step_code {H : Host D} {s : VM D} {q : Piece} {c : Code} (h : CodeAt s.frame.fn s.frame.ip (q :: c))
    (hf : q.i.Fits s.frame.fn.consts) : s.step H = (s.goto (s.frame.ip + q.i.enc.length)).exec H q.i := by
  obtain ⟨⟨pre, post, h1, h2⟩, _, _⟩ := h
  have hd : s.frame.fn.ops.drop s.frame.ip = q.i.enc ++ (Code.ops c ++ post) := by
    rw [h1, ← h2, List.drop_left, Code.ops_cons, List.append_assoc]
  have hlt : s.frame.ip < s.frame.fn.ops.length := by
    have := q.i.enc_pos
    rw [h1, ← h2, Code.ops_cons]; simp; omega
  unfold step
  rw [if_neg (by omega), hd, decode_enc _ _ hf]
  rfl

end VM

/-- At least `k` steps lead from `s` to `s'`. -/
def Reach {D : Type} (H : Host D) (k : Nat) (s s' : VM D) : Prop := ∃ n, k ≤ n ∧ s.steps H n = some s'

namespace Reach
variable {D : Type} {H : Host D} {k k' : Nat} {s s' s'' : VM D}

theorem refl (H : Host D) (s : VM D) : Reach H 0 s s := ⟨0, Nat.le_refl _, rfl⟩

theorem mono (h : Reach H k s s') (hk : k' ≤ k) : Reach H k' s s' := by
  obtain ⟨n, h1, h2⟩ := h
  exact ⟨n, by omega, h2⟩

theorem step (h : s.step H = .next s') : Reach H 1 s s' := ⟨1, Nat.le_refl _, by simp [VM.steps, h]⟩

theorem steps_add (n m : Nat) : ∀ {s s' : VM D}, s.steps H n = some s' → s.steps H (n + m) = s'.steps H m := by
  induction n with
  | zero => intro s s' h; simp [VM.steps] at h; subst h; simp
  | succ n ih =>
    intro s s' h
    rw [Nat.succ_add]
    simp only [VM.steps] at h ⊢
    cases hs : s.step H with
    | next s1 => rw [hs] at h; simp only at h ⊢; exact ih h
    | _ => rw [hs] at h; simp at h

theorem trans (h : Reach H k s s') (h' : Reach H k' s' s'') : Reach H (k + k') s s'' := by
  obtain ⟨n, h1, h2⟩ := h
  obtain ⟨m, h3, h4⟩ := h'
  exact ⟨n + m, by omega, by rw [steps_add n m h2]; exact h4⟩

end Reach

/-! ## Activations -/

/-- A running function: its code, cells, stack base, all its captured variables, and the scope it was
created in. -/
structure Act where
  fn : Func
  ups : List Nat
  st : Nat
  us : List Upv
  envC : SEnv

/-- The locals on the stack and the corresponding scope. -/
inductive LocEnv (slots : LocMap) (st : Nat) : List Local → SEnv → Prop where
  | nil : LocEnv slots st [] []
  | var {ls env l loc} : LocEnv slots st ls env → isTemp l.name = false → slots (st + ls.length) = some loc →
      LocEnv slots st (ls ++ [l]) ((l.name, loc) :: env)
  | temp {ls env l} : LocEnv slots st ls env → isTemp l.name = true → slots (st + ls.length) = none →
      LocEnv slots st (ls ++ [l]) env

theorem snoc_inj {α : Type} {a b : List α} {x y : α} (h : a ++ [x] = b ++ [y]) : a = b ∧ x = y := by
  have := List.append_inj' h rfl
  simpa using this

namespace LocEnv
variable {slots : LocMap} {st : Nat} {ls ls' : List Local} {env : SEnv}

theorem congr {slots' : LocMap} (h : LocEnv slots st ls env)
    (hs : ∀ i, st ≤ i → i < st + ls.length → slots' i = slots i) : LocEnv slots' st ls env := by
  induction h with
  | nil => exact .nil
  | var h1 h2 h3 ih =>
    refine .var (ih fun i hi hi' => hs i hi (by simp; omega)) h2 ?_
    rw [hs _ (by omega) (by simp)]; exact h3
  | temp h1 h2 h3 ih =>
    refine .temp (ih fun i hi hi' => hs i hi (by simp; omega)) h2 ?_
    rw [hs _ (by omega) (by simp)]; exact h3

theorem le (h : LocEnv slots st ls env) (hl : LocLe ls ls') : LocEnv slots st ls' env := by
  induction h generalizing ls' with
  | nil => cases ls' with
    | nil => exact .nil
    | cons => exact hl.elim
  | @var ls0 env0 l0 loc h1 h2 h3 ih =>
    obtain ⟨a, b, rfl, h4, h5⟩ := hl.split
    cases b with
    | nil => exact h5.elim
    | cons y t =>
      cases t with
      | cons => exact h5.2.2.2.elim
      | nil =>
        rw [h5.1] at h2 ⊢
        rw [h4.length_eq] at h3
        exact .var (ih h4) h2 h3
  | @temp ls0 env0 l0 h1 h2 h3 ih =>
    obtain ⟨a, b, rfl, h4, h5⟩ := hl.split
    cases b with
    | nil => exact h5.elim
    | cons y t =>
      cases t with
      | cons => exact h5.2.2.2.elim
      | nil =>
        rw [h5.1] at h2
        rw [h4.length_eq] at h3
        exact .temp (ih h4) h2 h3

/-- The scope of a prefix of the locals. -/
theorem split {a b : List Local} (h : LocEnv slots st (a ++ b) env) :
    ∃ e1 e2, env = e2 ++ e1 ∧ LocEnv slots st a e1 := by
  generalize hc : a ++ b = c at h
  induction h generalizing b with
  | nil =>
    simp at hc; obtain ⟨rfl, rfl⟩ := hc
    exact ⟨[], [], rfl, .nil⟩
  | @var ls0 env0 l0 loc h1 h2 h3 ih =>
    rcases List.eq_nil_or_concat b with rfl | ⟨b', y, rfl⟩
    · simp at hc; subst hc
      exact ⟨_, [], rfl, .var h1 h2 h3⟩
    · rw [List.concat_eq_append, ← List.append_assoc] at hc
      obtain ⟨h4, rfl⟩ := snoc_inj hc
      obtain ⟨e1, e2, rfl, h5⟩ := ih h4
      exact ⟨e1, _ :: e2, rfl, h5⟩
  | @temp ls0 env0 l0 h1 h2 h3 ih =>
    rcases List.eq_nil_or_concat b with rfl | ⟨b', y, rfl⟩
    · simp at hc; subst hc
      exact ⟨_, [], rfl, .temp h1 h2 h3⟩
    · rw [List.concat_eq_append, ← List.append_assoc] at hc
      obtain ⟨h4, rfl⟩ := snoc_inj hc
      obtain ⟨e1, e2, rfl, h5⟩ := ih h4
      exact ⟨e1, e2, rfl, h5⟩

theorem lookup_some {x : String} {i : Nat} (h : LocEnv slots st ls env) (hx : isTemp x = false)
    (hi : lastIdx x ls = some i) (e : SEnv) :
    ∃ loc, lookup x (env ++ e) = some loc ∧ slots (st + i) = some loc := by
  induction h with
  | nil => simp [lastIdx] at hi
  | @var ls0 env0 l0 loc h1 h2 h3 ih =>
    rw [lastIdx_snoc] at hi
    by_cases hn : l0.name = x
    · simp [hn] at hi; subst hi
      exact ⟨loc, by simp [lookup, hn], h3⟩
    · simp only [hn, if_false] at hi
      obtain ⟨loc', h4, h5⟩ := ih hi
      exact ⟨loc', by simpa [lookup, hn] using h4, h5⟩
  | @temp ls0 env0 l0 h1 h2 h3 ih =>
    rw [lastIdx_snoc] at hi
    have hn : l0.name ≠ x := by rintro rfl; rw [h2] at hx; cases hx
    simp only [hn, if_false] at hi
    exact ih hi

theorem lookup_none {x : String} (h : LocEnv slots st ls env) (hi : lastIdx x ls = none) (e : SEnv) :
    lookup x (env ++ e) = lookup x e := by
  induction h with
  | nil => rfl
  | @var ls0 env0 l0 loc h1 h2 h3 ih =>
    rw [lastIdx_snoc] at hi
    by_cases hn : l0.name = x
    · simp [hn] at hi
    · simp only [hn, if_false] at hi
      simpa [lookup, hn] using ih hi
  | @temp ls0 env0 l0 h1 h2 h3 ih =>
    rw [lastIdx_snoc] at hi
    by_cases hn : l0.name = x
    · simp [hn] at hi
    · simp only [hn, if_false] at hi
      exact ih hi

theorem names_eq (h : LocEnv slots st ls env) : env.map Prod.fst = ((ls.map (·.name)).reverse).filter nameOk := by
  induction h with
  | nil => rfl
  | var h1 h2 h3 ih => simp [nameOk, h2, ih]
  | temp h1 h2 h3 ih => simp [nameOk, h2, ih]

end LocEnv

theorem lookup_eq_none {x : String} : ∀ {env : SEnv}, lookup x env = none ↔ x ∉ env.map Prod.fst
  | [] => by simp [lookup]
  | (y, l) :: r => by
    simp only [lookup, List.map_cons, List.mem_cons, not_or]
    by_cases h : y = x
    · simp [h]
    · simp only [h, if_false, lookup_eq_none (env := r)]
      constructor
      · intro h'; exact ⟨fun e => h e.symm, h'⟩
      · exact fun h' => h'.2

/-- The scope of a point in the code of an activation. -/
def FrameOk (slots : LocMap) (A : Act) (g : GState) (env : SEnv) : Prop :=
  ∃ envL, env = envL ++ A.envC ∧ LocEnv slots A.st g.cur.locals envL ∧
    (∀ i, A.st + g.cur.locals.length ≤ i → slots i = none) ∧ A.envC.map Prod.fst = enclNames g.encl

theorem enclNames_le : ∀ {a b : List GLevel}, EnclLe a b → enclNames a = enclNames b
  | [], [], _ => rfl
  | x :: a, y :: b, h => by
    simp only [enclNames, GLevel.names, h.1.locals.names, enclNames_le h.2]
  | [], _ :: _, h | _ :: _, [], h => h.elim

theorem FrameOk.step {slots : LocMap} {A : Act} {g g' : GState} {env : SEnv} (h : FrameOk slots A g env) (hg : GExtE g g') :
    FrameOk slots A g' env := by
  obtain ⟨envL, h1, h2, h3, h4⟩ := h
  obtain ⟨old, h5, h6⟩ := hg.locals
  simp at h5
  rw [← h5] at h6
  exact ⟨envL, h1, h2.le h6, by rw [← h6.length_eq]; exact h3, by rw [h4]; exact enclNames_le hg.encl⟩

theorem FrameOk.names {slots : LocMap} {A : Act} {g : GState} {env : SEnv} (h : FrameOk slots A g env) :
    env.map Prod.fst = g.names := by
  obtain ⟨envL, rfl, h2, _, h4⟩ := h
  rw [List.map_append, h2.names_eq, h4]; rfl

/-- The machine runs the activation. -/
structure ActOk {D : Type} (γ : LocMap) (A : Act) (s : VM D) : Prop where
  fn : s.frame.fn = A.fn
  ups : s.frame.ups = A.ups
  st : s.frame.st = A.st
  cells : ∀ (j : Nat) (u : Upv), A.us[j]? = some u →
    ∃ c loc, A.ups[j]? = some c ∧ γ c = some loc ∧ lookup u.name A.envC = some loc

/-- Host and source host agree: whatever functions correspond, as long as corresponding functions have
the same name. -/
structure BRelG {D C C' : Type} (cn : C → String) (cn' : C' → String) (lim : Limits) (f : BFn D C) (f' : BFn D C') : Prop where
  rel : ∀ (R : C → C' → Prop), (∀ c c', R c c' → cn c = cn' c') → ∀ d args args', Val.RelL R args args' →
    Res.Rel (Val.Rel R) (f d args lim).1 (f' d args' lim).1 ∧ (f d args lim).2 = (f' d args' lim).2

abbrev BRel {D : Type} (lim : Limits) (f : BFn D SClos) (f' : BFn D VClos) : Prop := BRelG SClos.name (fun c => c.fn.name) lim f f'

/-- Related builtins: on arguments that differ only in the representation of functions, of which they see nothing but
the names, they yield
such results, the same changes of the data and the same errors. -/
def BuiltinRel {D : Type} (lim : Limits) : Option (Builtin D SClos) → Option (Builtin D VClos) → Prop
  | none, none => True
  | some (.fn f), some (.fn f') => BRel lim f f'
  | some (.ctx f e), some (.ctx f' e') => BRel lim f f' ∧ e = e'
  | _, _ => False

/-- The machine's host without resource limits, and the source host. -/
structure HRel {D : Type} (H : Host D) (S : SHost D) : Prop where
  cfg : S.cfg = H.cfg
  lim : S.lim = H.opts.lim
  stack : H.opts.stackSize = none
  calls : H.opts.callStackSize = none
  enter : S.onEnter = H.onEnter
  exit : S.onExit = H.onExit
  symsInv : H.syms.Inv
  symsLen : H.syms.entries.length ≤ 65536
  builtins : ∀ (i : Nat) x, H.syms.entries[i]? = some x → BuiltinRel H.opts.lim (S.builtins x) (H.builtins i)

/-- The tables of an activation's function contain those of a point of its code. `K` are the stack
positions of variables captured at some time. -/
structure Bound {D : Type} (H : Host D) (A : Act) (K : Nat → Prop) (g : GState) : Prop where
  ups : g.cur.upvalues <+: A.us
  consts : g.cur.constPool.entries <+: A.fn.consts
  constsLen : A.fn.consts.length ≤ 65536
  globals : g.globals.entries <+: H.syms.entries
  caps : ∀ (i : Nat) (l : Local), g.cur.locals[i]? = some l → l.captured = true → K (A.st + i)

theorem Bound.back {D : Type} {H : Host D} {A : Act} {K : Nat → Prop} {g g' : GState} (h : Bound H A K g') (hg : GExt g g') :
    Bound H A K g := by
  obtain ⟨new, hg⟩ := hg
  refine ⟨hg.ups.trans h.ups, hg.consts.trans h.consts, h.constsLen, hg.globals.trans h.globals, ?_⟩
  intro i l hl hc
  obtain ⟨old, h1, h2⟩ := hg.locals
  obtain ⟨y, h3, _, _, h4⟩ := h2.get hl
  refine h.caps i y ?_ (h4 hc)
  rw [h1, List.getElem?_append_left (List.getElem?_eq_some_iff.1 h3).1]; exact h3

/-! ## Outcomes -/

/-- What executing code inside an activation leaves alone. -/
structure Ext {D : Type} (st : Nat) (γ slots : LocMap) (s : VM D) (γ' slots' : LocMap) (s' : VM D) : Prop where
  cells : γ.le γ'
  below : ∀ l, l < st → slots' l = slots l
  frames : s'.frames = s.frames
  br : s'.blockResults = s.blockResults
  fn : s'.frame.fn = s.frame.fn
  ups : s'.frame.ups = s.frame.ups
  base : s'.frame.st = s.frame.st
  stack : ∀ l, l < st → slots l = none → s'.stack l = s.stack l

namespace Ext
variable {D : Type} {st : Nat} {γ slots γ' slots' γ'' slots'' : LocMap} {s s' s'' : VM D}

theorem refl (st : Nat) (γ slots : LocMap) (s : VM D) : Ext st γ slots s γ slots s :=
  ⟨γ.le_refl, fun _ _ => rfl, rfl, rfl, rfl, rfl, rfl, fun _ _ _ => rfl⟩

theorem trans (h : Ext st γ slots s γ' slots' s') (h' : Ext st γ' slots' s' γ'' slots'' s'') :
    Ext st γ slots s γ'' slots'' s'' :=
  ⟨LocMap.le_trans h.cells h'.cells, fun l hl => (h'.below l hl).trans (h.below l hl), h'.frames.trans h.frames,
    h'.br.trans h.br, h'.fn.trans h.fn, h'.ups.trans h.ups, h'.base.trans h.base,
    fun l hl hs => (h'.stack l hl ((h.below l hl).trans hs)).trans (h.stack l hl hs)⟩

theorem act {A : Act} (h : Ext st γ slots s γ' slots' s') (ha : ActOk γ A s) : ActOk γ' A s' := by
  refine ⟨h.fn.trans ha.fn, h.ups.trans ha.ups, h.base.trans ha.st, fun j u hu => ?_⟩
  obtain ⟨c, loc, h1, h2, h3⟩ := ha.cells j u hu
  exact ⟨c, loc, h1, h.cells _ _ h2, h3⟩

end Ext

/-- About to return `v` from the activation. -/
structure AtRet {D : Type} (H : Host D) (st : Nat) (K : Nat → Prop) (γ slots : LocMap) (σ : SSt D) (v : SVal) (s : VM D) : Prop where
  step : s.step H = (s.goto (s.frame.ip + 1)).exec H .ret
  sp : st < s.sp
  top : slots (s.sp - 1) = none
  val : VRel H.cfg H.syms.entries γ v (s.stack (s.sp - 1))
  ok : Ok H.cfg H.syms.entries γ slots σ s.mem
  openK : ∀ l, l < st → OpenAt s.mem l → K l

/-- The machine stopped with data that corresponds to the source state; what was on the stack is open. -/
def Stopped {D : Type} (H : Host D) (γ : LocMap) (σ : SSt D) (s : VM D) : Prop :=
  ∃ γ' slots stack sp, γ.le γ' ∧ Ok H.cfg H.syms.entries γ' slots σ { s.mem with stack := stack, sp := sp }

theorem Stopped.data {D : Type} {H : Host D} {γ : LocMap} {σ : SSt D} {s : VM D} (h : Stopped H γ σ s) : s.data = σ.data := by
  obtain ⟨_, _, _, _, _, h⟩ := h; exact h.data

theorem Stopped.exits {D : Type} {H : Host D} {γ : LocMap} {σ : SSt D} {s : VM D} (h : Stopped H γ σ s) : s.exitFns = σ.exits := by
  obtain ⟨_, _, _, _, _, h⟩ := h; exact h.exits

theorem Stopped.le {D : Type} {H : Host D} {γ γ' : LocMap} {σ : SSt D} {s : VM D} (h : Stopped H γ' σ s) (hl : γ.le γ') : Stopped H γ σ s := by
  obtain ⟨γ2, a, b, c, h1, h2⟩ := h; exact ⟨γ2, a, b, c, LocMap.le_trans hl h1, h2⟩

/-- What is known of runs of programs that hit a bound: `steps` can be taken; calls nest `depth` deep (`none`: this case does not occur). -/
structure Bd where
  steps : Nat
  depth : Option Nat

/-- After `k` steps. -/
def Bd.le (B B' : Bd) (k : Nat) : Prop := B.steps ≤ B'.steps + k ∧ B.depth = B'.depth

theorem Bd.refl {B : Bd} : B.le B 0 := ⟨Nat.le_refl _, rfl⟩
theorem Bd.succ {B : Bd} : B.le B 1 := ⟨Nat.le_succ _, rfl⟩

/-- Outcome of executing code from state `s`, compared with the outcome `r` of the source program.
`B`: what is known if the source program hits a bound. -/
def Post {D α : Type} (H : Host D) (A : Act) (B : Bd) (K : Nat → Prop) (γ slots : LocMap) (s : VM D) (r : Out α × SSt D)
    (Q : α → LocMap → LocMap → SSt D → VM D → Prop) : Prop :=
  match r with
  | (.ok a, σ') => ∃ γ' slots' s', Reach H 0 s s' ∧ Ext A.st γ slots s γ' slots' s' ∧ Q a γ' slots' σ' s'
  | (.ret v, σ') => ∃ γ' slots' s', Reach H 0 s s' ∧ Ext A.st γ slots s γ' slots' s' ∧ AtRet H A.st K γ' slots' σ' v s'
  | (.err e sp, σ') => ∃ s' sp' s'', Reach H 0 s s' ∧ s'.step H = .err e sp' s'' ∧ (∀ x, sp = some x → sp' = x) ∧ Stopped H γ σ' s''
  | (.panic, _) => ∃ s', Reach H 0 s s' ∧ s'.step H = .panic
  | (.timeout, _) => ∃ s', Reach H B.steps s s'
  | (.deep, _) => ∃ n s', B.depth = some n ∧ Reach H 0 s s' ∧ s.frames.length + n ≤ s'.frames.length
  | (.unspec _, _) => True

namespace Post
variable {D α β : Type} {H : Host D} {A : Act} {B B' : Bd} {k : Nat} {K K' : Nat → Prop} {γ slots γ1 slots1 : LocMap} {s s1 : VM D}

theorem mono {r : Out α × SSt D} {Q Q' : α → LocMap → LocMap → SSt D → VM D → Prop} (h : Post H A B K γ slots s r Q)
    (hQ : ∀ a γ' slots' σ' s', Ext A.st γ slots s γ' slots' s' → Q a γ' slots' σ' s' → Q' a γ' slots' σ' s')
    (hK : ∀ l, l < A.st → K l → K' l) (hB : B'.le B 0) : Post H A B' K' γ slots s r Q' := by
  obtain ⟨o, σ'⟩ := r
  cases o with
  | ok a =>
    obtain ⟨γ', slots', s', h1, h2, h3⟩ := h
    exact ⟨γ', slots', s', h1, h2, hQ _ _ _ _ _ h2 h3⟩
  | ret v =>
    obtain ⟨γ', slots', s', h1, h2, h3⟩ := h
    exact ⟨γ', slots', s', h1, h2, ⟨h3.step, h3.sp, h3.top, h3.val, h3.ok, fun l hl ho => hK l hl (h3.openK l hl ho)⟩⟩
  | err e sp => exact h
  | panic => exact h
  | timeout =>
    obtain ⟨s', h1⟩ := h
    exact ⟨s', h1.mono hB.1⟩
  | deep =>
    obtain ⟨n, s', h1, h2, h3⟩ := h
    exact ⟨n, s', hB.2.trans h1, h2, h3⟩
  | unspec => trivial

theorem imp {r : Out α × SSt D} {Q Q' : α → LocMap → LocMap → SSt D → VM D → Prop} (h : Post H A B K γ slots s r Q)
    (hQ : ∀ a γ' slots' σ' s', Ext A.st γ slots s γ' slots' s' → Q a γ' slots' σ' s' → Q' a γ' slots' σ' s') :
    Post H A B K γ slots s r Q' := h.mono hQ (fun _ _ h => h) Bd.refl

/-- First some machine steps. -/
theorem of_reach {r : Out α × SSt D} {Q : α → LocMap → LocMap → SSt D → VM D → Prop} (hr : Reach H k s s1)
    (he : Ext A.st γ slots s γ1 slots1 s1) (hB : B.le B' k) (h : Post H A B' K γ1 slots1 s1 r Q) :
    Post H A B K γ slots s r Q := by
  have hr0 : Reach H 0 s s1 := hr.mono (Nat.zero_le _)
  obtain ⟨o, σ'⟩ := r
  cases o with
  | ok a =>
    obtain ⟨γ', slots', s', h1, h2, h3⟩ := h
    exact ⟨γ', slots', s', hr0.trans h1, he.trans h2, h3⟩
  | ret v =>
    obtain ⟨γ', slots', s', h1, h2, h3⟩ := h
    exact ⟨γ', slots', s', hr0.trans h1, he.trans h2, h3⟩
  | err e sp =>
    obtain ⟨s', sp', s'', h1, h2, h3, h4⟩ := h
    exact ⟨s', sp', s'', hr0.trans h1, h2, h3, h4.le he.cells⟩
  | panic =>
    obtain ⟨s', h1, h2⟩ := h
    exact ⟨s', hr0.trans h1, h2⟩
  | timeout =>
    obtain ⟨s', h1⟩ := h
    exact ⟨s', (hr.trans h1).mono (by have := hB.1; omega)⟩
  | deep =>
    obtain ⟨n, s', h1, h2, h3⟩ := h
    exact ⟨n, s', hB.2.trans h1, hr0.trans h2, by rw [← he.frames]; exact h3⟩
  | unspec => trivial

/-- Sequencing, remembering the first outcome. -/
theorem bind_eq {x : SM D α} {f : α → SM D β} {σ : SSt D} {Q : α → LocMap → LocMap → SSt D → VM D → Prop}
    {Q' : β → LocMap → LocMap → SSt D → VM D → Prop} (h : Post H A B K γ slots s (x σ) Q)
    (hf : ∀ a γ' slots' σ' s', x σ = (.ok a, σ') → Ext A.st γ slots s γ' slots' s' → Q a γ' slots' σ' s' →
      Post H A B K γ' slots' s' (f a σ') Q') : Post H A B K γ slots s ((x >>= f) σ) Q' := by
  show Post H A B K γ slots s (SM.bind x f σ) Q'
  unfold SM.bind
  generalize hx : x σ = r at h
  obtain ⟨o, σ'⟩ := r
  cases o with
  | ok a =>
    obtain ⟨γ', slots', s', h1, h2, h3⟩ := h
    exact of_reach h1 h2 Bd.refl (hf _ _ _ _ _ hx h2 h3)
  | ret v => exact h
  | err e sp => exact h
  | panic => exact h
  | timeout => exact h
  | deep => exact h
  | unspec => trivial

/-- Sequencing. -/
theorem bind {x : SM D α} {f : α → SM D β} {σ : SSt D} {Q : α → LocMap → LocMap → SSt D → VM D → Prop}
    {Q' : β → LocMap → LocMap → SSt D → VM D → Prop} (h : Post H A B K γ slots s (x σ) Q)
    (hf : ∀ a γ' slots' σ' s', Ext A.st γ slots s γ' slots' s' → Q a γ' slots' σ' s' →
      Post H A B K γ' slots' s' (f a σ') Q') : Post H A B K γ slots s ((x >>= f) σ) Q' :=
  bind_eq h fun a γ' slots' σ' s' _ => hf a γ' slots' σ' s'

/-- Finished. -/
theorem pure' {a : α} {σ : SSt D} {Q : α → LocMap → LocMap → SSt D → VM D → Prop} (h : Q a γ slots σ s) :
    Post H A B K γ slots s ((pure a : SM D α) σ) Q := ⟨γ, slots, s, Reach.refl H s, Ext.refl _ _ _ _, h⟩

/-- The next step fails. -/
theorem err {e : Err} {sp : Option Span} {sp' : Span} {s'' : VM D} {σ : SSt D} {Q : α → LocMap → LocMap → SSt D → VM D → Prop}
    (h : s.step H = .err e sp' s'') (hs : ∀ x, sp = some x → sp' = x) {slots' : LocMap} {stack : Nat → VVal} {p : Nat}
    (ho : Ok H.cfg H.syms.entries γ slots' σ { s''.mem with stack := stack, sp := p }) :
    Post H A B K γ slots s (.err e sp, σ) Q := ⟨s, sp', s'', Reach.refl H s, h, hs, γ, _, _, _, γ.le_refl, ho⟩

theorem panic {σ : SSt D} {Q : α → LocMap → LocMap → SSt D → VM D → Prop} (h : s.step H = .panic) :
    Post H A B K γ slots s (.panic, σ) Q := ⟨s, Reach.refl H s, h⟩

end Post

end Quilt
