import Verif.Sem.Post

/-!
# Simulation: common lemmas
-/

namespace Quilt
variable {D : Type}

/-! ## Executing without limits -/

namespace VM

/-- The top `k` values replaced by one. -/
def repl (s : VM D) (k : Nat) (v : VVal) : VM D := { s with stack := upd s.stack (s.sp - k) v, sp := s.sp - k + 1 }

theorem push_none {H : Host D} (h : H.opts.stackSize = none) (s : VM D) (v : VVal) : s.push H v = .next (s.pushU v) := by
  simp [push, h, reached]

end VM

/-- Only temporaries at and above `lo`, the stack pointer and the instruction pointer change. -/
structure Quiet (lo : Nat) (s s' : VM D) : Prop where
  data : s'.data = s.data
  exitFns : s'.exitFns = s.exitFns
  br : s'.blockResults = s.blockResults
  globals : s'.globals = s.globals
  openUps : s'.openUps = s.openUps
  heap : s'.heap = s.heap
  hp : s'.hp = s.hp
  frames : s'.frames = s.frames
  fn : s'.frame.fn = s.frame.fn
  ups : s'.frame.ups = s.frame.ups
  base : s'.frame.st = s.frame.st
  stack : ∀ i, i < lo → s'.stack i = s.stack i

namespace Quiet
variable {lo lo' : Nat} {s s' s'' : VM D}

theorem refl (lo : Nat) (s : VM D) : Quiet lo s s := ⟨rfl, rfl, rfl, rfl, rfl, rfl, rfl, rfl, rfl, rfl, rfl, fun _ _ => rfl⟩

theorem trans (h : Quiet lo s s') (h' : Quiet lo s' s'') : Quiet lo s s'' :=
  ⟨h'.data.trans h.data, h'.exitFns.trans h.exitFns, h'.br.trans h.br, h'.globals.trans h.globals, h'.openUps.trans h.openUps,
    h'.heap.trans h.heap, h'.hp.trans h.hp, h'.frames.trans h.frames, h'.fn.trans h.fn, h'.ups.trans h.ups,
    h'.base.trans h.base, fun i hi => (h'.stack i hi).trans (h.stack i hi)⟩

theorem mono (h : Quiet lo s s') (hl : lo' ≤ lo) : Quiet lo' s s' :=
  ⟨h.data, h.exitFns, h.br, h.globals, h.openUps, h.heap, h.hp, h.frames, h.fn, h.ups, h.base,
    fun i hi => h.stack i (by omega)⟩

theorem goto (lo : Nat) (s : VM D) (p : Nat) : Quiet lo s (s.goto p) :=
  ⟨rfl, rfl, rfl, rfl, rfl, rfl, rfl, rfl, rfl, rfl, rfl, fun _ _ => rfl⟩

theorem setSp (lo : Nat) (s : VM D) (p : Nat) : Quiet lo s { s with sp := p } :=
  ⟨rfl, rfl, rfl, rfl, rfl, rfl, rfl, rfl, rfl, rfl, rfl, fun _ _ => rfl⟩

theorem repl {k : Nat} (h : lo ≤ s.sp - k) (v : VVal) : Quiet lo s (s.repl k v) :=
  ⟨rfl, rfl, rfl, rfl, rfl, rfl, rfl, rfl, rfl, rfl, rfl, fun i hi => by
    simp only [VM.repl]; exact upd_other _ _ (by omega)⟩

theorem ext {st : Nat} {γ slots : LocMap} (h : Quiet lo s s') (hl : st ≤ lo) : Ext st γ slots s γ slots s' :=
  ⟨γ.le_refl, fun _ _ => rfl, h.frames, h.br, h.fn, h.ups, h.base, fun l hl' _ => h.stack l (by omega)⟩

theorem openAt (h : Quiet lo s s') {l : Nat} : OpenAt s'.mem l ↔ OpenAt s.mem l := by
  have h1 : s'.mem.openUps = s.mem.openUps := h.openUps
  have h2 : s'.mem.heap = s.mem.heap := h.heap
  simp only [OpenAt, h1, h2]

theorem openK {K : Nat → Prop} (h : Quiet lo s s') (hk : OpenK K s.mem) : OpenK K s'.mem :=
  fun l hl => hk l (h.openAt.1 hl)

theorem ok {cfg : Cfg} {syms : List String} {γ slots : LocMap} {σ : SSt D} (h : Quiet lo s s')
    (ho : Ok cfg syms γ slots σ s.mem) (hs : ∀ l loc, slots l = some loc → l < lo ∧ l < s'.sp) :
    Ok cfg syms γ slots σ s'.mem :=
  ho.setStack h.data h.exitFns h.globals h.openUps h.heap h.hp fun l loc hl =>
    ⟨(hs l loc hl).2, h.stack l (hs l loc hl).1⟩

end Quiet

/-! ## The state before and after evaluating an expression -/

/-- Machine and source before a piece of code. -/
structure St (H : Host D) (A : Act) (K : Nat → Prop) (γ slots : LocMap) (g : GState) (env : SEnv) (σ : SSt D) (s : VM D) : Prop where
  inv : GInv g
  free : UpsFree g
  act : ActOk γ A s
  frame : FrameOk slots A g env
  ok : Ok H.cfg H.syms.entries γ slots σ s.mem
  openK : OpenK K s.mem
  le : A.st ≤ s.sp

/-- After evaluating an expression: its value has been pushed. -/
structure EQ (H : Host D) (K : Nat → Prop) (slots : LocMap) (s : VM D) (ip : Nat) (v : SVal) (γ' slots' : LocMap) (σ' : SSt D)
    (s' : VM D) : Prop where
  eqSlots : slots' = slots
  same : ∀ i, i < s.sp → slots i = none → s'.stack i = s.stack i
  sp : s'.sp = s.sp + 1
  ip : s'.frame.ip = ip
  val : VRel H.cfg H.syms.entries γ' v (s'.stack s.sp)
  ok : Ok H.cfg H.syms.entries γ' slots σ' s'.mem
  openK : OpenK K s'.mem

/-- A segment of the stack. -/
def seg (stack : Nat → VVal) (lo n : Nat) : List VVal := (List.range n).map fun i => stack (lo + i)

@[simp] theorem seg_length (stack : Nat → VVal) (lo n : Nat) : (seg stack lo n).length = n := by simp [seg]

theorem seg_succ (stack : Nat → VVal) (lo n : Nat) : seg stack lo (n + 1) = stack lo :: seg stack (lo + 1) n := by
  simp only [seg, List.range_succ_eq_map, List.map_cons, List.map_map, Nat.add_zero]
  congr 1
  apply List.map_congr_left
  intro i _
  simp only [Function.comp, Nat.succ_eq_add_one]
  congr 1; omega

theorem seg_snoc (stack : Nat → VVal) (lo n : Nat) : seg stack lo (n + 1) = seg stack lo n ++ [stack (lo + n)] := by
  simp [seg, List.range_succ]

theorem seg_congr {stack stack' : Nat → VVal} {lo n : Nat} (h : ∀ i, lo ≤ i → i < lo + n → stack i = stack' i) :
    seg stack lo n = seg stack' lo n := by
  apply List.map_congr_left
  intro i hi
  exact h _ (by omega) (by simp at hi; omega)

/-- After evaluating a list of expressions. -/
structure EQs (H : Host D) (K : Nat → Prop) (slots : LocMap) (s : VM D) (ip : Nat) (vs : List SVal) (γ' slots' : LocMap)
    (σ' : SSt D) (s' : VM D) : Prop where
  eqSlots : slots' = slots
  same : ∀ i, i < s.sp → slots i = none → s'.stack i = s.stack i
  sp : s'.sp = s.sp + vs.length
  ip : s'.frame.ip = ip
  val : Val.RelL (CRel H.cfg H.syms.entries γ') vs (seg s'.stack s.sp vs.length)
  ok : Ok H.cfg H.syms.entries γ' slots σ' s'.mem
  openK : OpenK K s'.mem

namespace St
variable {H : Host D} {A : Act} {K : Nat → Prop} {γ slots γ' slots' : LocMap} {g g' : GState} {env : SEnv} {σ σ' : SSt D}
  {s s' : VM D}

theorem slotLt (h : St H A K γ slots g env σ s) {l loc : Nat} (hl : slots l = some loc) :
    l < A.st + g.cur.locals.length := by
  obtain ⟨_, _, _, h1, _⟩ := h.frame
  by_cases h2 : l < A.st + g.cur.locals.length
  · exact h2
  · rw [h1 l (by omega)] at hl; cases hl

theorem slotSp (h : St H A K γ slots g env σ s) {l loc : Nat} (hl : slots l = some loc) : l < s.sp := (h.ok.slot l loc hl).1

/-- Positions from the stack pointer on are free. -/
theorem slotNone (h : St H A K γ slots g env σ s) {l : Nat} (hl : s.sp ≤ l) : slots l = none := by
  cases hs : slots l with
  | none => rfl
  | some loc => have := h.slotSp hs; omega

theorem next (h : St H A K γ slots g env σ s) (hg : StepE g g') (hf : UpsFree g')
    (he : Ext A.st γ slots s γ' slots' s') (hok : Ok H.cfg H.syms.entries γ' slots σ' s'.mem)
    (hk : OpenK K s'.mem) (hsp : A.st ≤ s'.sp) : St H A K γ' slots g' env σ' s' :=
  ⟨hg.2, hf, he.act h.act, h.frame.step hg.1, hok, hk, hsp⟩

theorem nextE {ip : Nat} {v : SVal} (h : St H A K γ slots g env σ s) (hg : StepE g g') (hf : UpsFree g')
    (he : Ext A.st γ slots s γ' slots' s') (hq : EQ H K slots s ip v γ' slots' σ' s') : St H A K γ' slots g' env σ' s' :=
  h.next hg hf he hq.ok hq.openK (by have := h.le; have := hq.sp; omega)

theorem nextEs {ip : Nat} {vs : List SVal} (h : St H A K γ slots g env σ s) (hg : StepE g g') (hf : UpsFree g')
    (he : Ext A.st γ slots s γ' slots' s') (hq : EQs H K slots s ip vs γ' slots' σ' s') : St H A K γ' slots g' env σ' s' :=
  h.next hg hf he hq.ok hq.openK (by have := h.le; have := hq.sp; omega)

/-- Same point, other tables. -/
theorem step (h : St H A K γ slots g env σ s) (hg : StepE g g') (hf : UpsFree g') : St H A K γ slots g' env σ s :=
  ⟨hg.2, hf, h.act, h.frame.step hg.1, h.ok, h.openK, h.le⟩

/-- Temporaries change. -/
theorem quiet (h : St H A K γ slots g env σ s) {lo : Nat} (hq : Quiet lo s s') (hsp : A.st ≤ s'.sp)
    (hs : ∀ l loc, slots l = some loc → l < lo ∧ l < s'.sp) : St H A K γ slots g env σ s' :=
  ⟨h.inv, h.free, ⟨hq.fn.trans h.act.fn, hq.ups.trans h.act.ups, hq.base.trans h.act.st, h.act.cells⟩, h.frame,
    hq.ok h.ok hs, hq.openK h.openK, hsp⟩

end St

namespace EQ
variable {H : Host D} {K : Nat → Prop} {γ slots : LocMap} {σ : SSt D} {s s2 s3 : VM D} {ip : Nat} {v : SVal}

/-- The value is left in place of temporaries above the starting point. -/
theorem of_quiet (hok : Ok H.cfg H.syms.entries γ slots σ s2.mem) (hk : OpenK K s2.mem)
    (hs : ∀ l loc, slots l = some loc → l < s.sp) (hsame : ∀ i, i < s.sp → slots i = none → s2.stack i = s.stack i)
    (hq : Quiet s.sp s2 s3) (hsp : s3.sp = s.sp + 1) (hip : s3.frame.ip = ip)
    (hv : VRel H.cfg H.syms.entries γ v (s3.stack s.sp)) : EQ H K slots s ip v γ slots σ s3 :=
  ⟨rfl, fun i hi hn => (hq.stack i hi).trans (hsame i hi hn), hsp, hip, hv,
    hq.ok hok fun l loc hl => ⟨hs l loc hl, by have := hs l loc hl; omega⟩, hq.openK hk⟩

end EQ

/-! ## Single instructions -/

section
variable {H : Host D} {A : Act} {B : Bd} {K : Nat → Prop} {γ slots : LocMap} {σ : SSt D} {s s0 : VM D} {α : Type}

/-- The next instruction replaces the top `k` values by the result and continues at `p`, or fails at `sp`. -/
def OpStep (H : Host D) (s : VM D) (sp : Span) (k p : Nat) : Res VVal → Prop
  | .ok w => s.step H = .next ((s.goto p).repl k w)
  | .err e => ∃ s'' st q, s.step H = .err e sp s'' ∧ s''.mem = { s.mem with stack := st, sp := q }
  | .panic => s.step H = .panic

/-- An instruction that computes a value from the top `k` values. -/
theorem Post.op {r : Res SVal} {r' : Res VVal} {sp : Span} {k p : Nat}
    (hrel : Res.Rel (VRel H.cfg H.syms.entries γ) r r')
    (hx : OpStep H s sp k p r')
    (hok : Ok H.cfg H.syms.entries γ slots σ s.mem) (hk : OpenK K s.mem)
    (hs : ∀ l loc, slots l = some loc → l < s0.sp) (hsame : ∀ i, i < s0.sp → slots i = none → s.stack i = s0.stack i)
    (hsp : s.sp = s0.sp + k) (hst : A.st ≤ s0.sp) :
    Post H A B K γ slots s (SM.lift r sp σ) (EQ H K slots s0 p) := by
  have hq : ∀ w, Quiet s0.sp s ((s.goto p).repl k w) := fun w =>
    (Quiet.goto _ _ _).trans (Quiet.repl (by simp; omega) w)
  cases r <;> cases r' <;> simp only [Res.Rel] at hrel
  case ok.ok v w =>
    refine ⟨γ, slots, _, (Reach.step hx).mono (by omega), (hq w).ext hst, ?_⟩
    refine EQ.of_quiet hok hk hs hsame (hq w) ?_ rfl ?_
    · simp [VM.repl]; omega
    · have : s.sp - k = s0.sp := by omega
      simpa [VM.repl, this] using hrel
  case err.err e e' =>
    subst hrel
    obtain ⟨s'', st, q, h1, h2⟩ := hx
    exact Post.err (slots' := slots) (stack := s.stack) (p := s.sp) h1 (fun x hx => by cases hx; rfl) (by rw [h2]; exact hok)
  case panic.panic => exact Post.panic hx

end

end Quilt
