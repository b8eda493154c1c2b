import Verif.Sem.Api
import Verif.Sem.SourceInv
import Verif.Sem.Shaped
import Verif.Sem.Scope

/-!
# Preparing a machine for a script
-/

namespace Quilt

variable {D : Type}

/-- A finite table by name, and the same table by symbol id. -/
structure Tab {A B : Type} (R : Option B → Option A → Prop) (p : Pool String) (F : String → Option B) (f : Nat → Option A) : Prop where
  on : ∀ (i : Nat) x, p.entries[i]? = some x → R (F x) (f i)
  out : ∀ i, p.entries.length ≤ i → f i = none
  names : ∀ x, x ∉ p.entries → F x = none

/-- Table update. -/
def updName {B : Type} (F : String → Option B) (x : String) (v : Option B) : String → Option B := fun y => if y = x then v else F y

section
variable {A B : Type} {R : Option B → Option A → Prop} {p : Pool String} {F : String → Option B} {f : Nat → Option A}

/-- A new name without entry. -/
theorem Tab.name (hp : p.Inv) (h0 : R none none) (h : Tab R p F f) (x : String) : Tab R (p.add x).2 F f := by
  have he := Pool.add_entries hp x
  by_cases hx : x ∈ p.entries
  · rw [if_pos hx] at he
    exact ⟨fun i y hy => h.on i y (he ▸ hy), fun i hi => h.out i (he ▸ hi), fun y hy => h.names y (he ▸ hy)⟩
  · rw [if_neg hx] at he
    refine ⟨fun i y hy => ?_, fun i hi => h.out i ?_, fun y hy => h.names y ?_⟩
    · rw [he] at hy
      rcases Nat.lt_trichotomy i p.entries.length with h1 | h1 | h1
      · rw [List.getElem?_append_left h1] at hy; exact h.on i y hy
      · subst h1
        simp only [List.getElem?_concat_length, Option.some.injEq] at hy
        subst hy
        rw [h.names _ hx, h.out _ (Nat.le_refl _)]; exact h0
      · rw [List.getElem?_eq_none (by simp; omega)] at hy; simp at hy
    · rw [he] at hi; simp at hi; omega
    · rw [he] at hy; simp at hy; exact hy.1

/-- Storing at a name that is in the table. -/
theorem Tab.set (hp : p.Inv) (h : Tab R p F f) {i : Nat} {x : String} (hi : p.entries[i]? = some x) {b : B} {a : A} (hr : R (some b) (some a)) :
    Tab R p (updName F x (some b)) (upd f i (some a)) := by
  obtain ⟨hlt, _⟩ := List.getElem?_eq_some_iff.1 hi
  refine ⟨fun j y hy => ?_, fun j hj => ?_, fun y hy => ?_⟩
  · by_cases hij : j = i
    · subst hij
      obtain rfl : x = y := by rw [hi] at hy; exact Option.some.inj hy
      simp only [updName, if_true, upd_same]; exact hr
    · have : y ≠ x := by rintro rfl; exact hij (nodup_get hp.nodup hy hi)
      simp only [updName, this, if_false, upd_other f _ hij]
      exact h.on j y hy
  · rw [upd_other _ _ (by omega)]; exact h.out j hj
  · have : y ≠ x := by rintro rfl; exact hy (List.mem_of_getElem? hi)
    simp only [updName, this, if_false]; exact h.names y hy

end

/-- Values that do not contain functions, the same on both sides. -/
def PlainVal : SVal → VVal → Prop := Val.Rel (fun _ _ => False)

/-- A VM prepared by its host for `script`, with the corresponding source-level host and state:
created by `new`, then builtins and globals added in any order and number. -/
inductive Prepared (M : Machine.Setup D) (data : D) (script : Script) : SHost D → SSt D → Machine D → Prop
  | new : Prepared M data script ⟨M.cfg, M.opts.lim, fun _ => none, M.onEnter, M.onExit⟩ ⟨fun _ => .none, 0, fun _ => none, data, []⟩
      (Machine.new M data script)
  | builtin {S σ m} (x : String) {b : Builtin D SClos} {b' : Builtin D VClos} : Prepared M data script S σ m → BuiltinRel M.opts.lim (some b) (some b') →
      Prepared M data script { S with builtins := updName S.builtins x (some b) } σ (m.addBuiltins [(x, b')])
  | global {S σ m} (x : String) {v : SVal} {w : VVal} : Prepared M data script S σ m → PlainVal v w →
      Prepared M data script S { σ with globals := updName σ.globals x (some v) } (m.insertGlobal x w)
  | external {S σ m m'} (x : String) {v : SVal} {w : VVal} : Prepared M data script S σ m → PlainVal v w → m.setExternal x w = (.ok (), m') →
      Prepared M data script S { σ with globals := updName σ.globals x (some v) } m'

/-- What preparation establishes. -/
structure PrepInv (M : Machine.Setup D) (script : Script) (S : SHost D) (σ : SSt D) (m : Machine D) : Prop where
  cfg : S.cfg = M.cfg ∧ m.host.cfg = M.cfg
  lim : S.lim = M.opts.lim ∧ m.host.opts = M.opts
  enter : S.onEnter = M.onEnter ∧ m.host.onEnter = M.onEnter
  exit : S.onExit = M.onExit ∧ m.host.onExit = M.onExit
  syms : m.host.syms.Inv ∧ script.syms.entries <+: m.host.syms.entries
  data : m.vm.data = σ.data
  exits : m.vm.exitFns = [] ∧ σ.exits = []
  ups : m.vm.openUps = []
  sp : m.vm.sp = 0
  frames : m.vm.frames = []
  frame : m.vm.frame = ⟨script.fn, [], 0, 0⟩
  builtins : m.host.syms.entries.length ≤ 65536 → Tab (BuiltinRel M.opts.lim) m.host.syms S.builtins m.host.builtins
  globals : m.host.syms.entries.length ≤ 65536 → Tab (Val.RelO fun _ _ => False) m.host.syms σ.globals m.vm.globals

theorem Prepared.inv {M : Machine.Setup D} {data : D} {script : Script} (hs : script.syms.Inv) {S : SHost D} {σ : SSt D} {m : Machine D}
    (h : Prepared M data script S σ m) : PrepInv M script S σ m := by
  induction h with
  | new =>
    exact ⟨⟨rfl, rfl⟩, ⟨rfl, rfl⟩, ⟨rfl, rfl⟩, ⟨rfl, rfl⟩, ⟨hs, List.prefix_refl _⟩, rfl, ⟨rfl, rfl⟩, rfl, rfl, rfl, rfl,
      fun _ => ⟨fun _ _ _ => trivial, fun _ _ => rfl, fun _ _ => rfl⟩, fun _ => ⟨fun _ _ _ => trivial, fun _ _ => rfl, fun _ _ => rfl⟩⟩
  | @builtin S σ m x b b' _ hb ih =>
    have hlen := (Pool.add_prefix m.host.syms x).length_le
    refine ⟨ih.cfg, ih.lim, ih.enter, ih.exit, ⟨Pool.inv_add ih.syms.1 x, ih.syms.2.trans (Pool.add_prefix _ _)⟩, ih.data, ih.exits, ih.ups, ih.sp,
      ih.frames, ih.frame, fun hl => ?_, fun hl => ?_⟩
    · replace hl : (m.host.syms.add x).2.entries.length ≤ 65536 := hl
      exact Tab.set (Pool.inv_add ih.syms.1 x) (Tab.name ih.syms.1 trivial (ih.builtins (by omega)) x) (Pool.add_pos ih.syms.1 x hl) hb
    · replace hl : (m.host.syms.add x).2.entries.length ≤ 65536 := hl
      exact Tab.name ih.syms.1 trivial (ih.globals (by omega)) x
  | @global S σ m x v w _ hv ih =>
    have hlen := (Pool.add_prefix m.host.syms x).length_le
    refine ⟨ih.cfg, ih.lim, ih.enter, ih.exit, ⟨Pool.inv_add ih.syms.1 x, ih.syms.2.trans (Pool.add_prefix _ _)⟩, ih.data, ih.exits, ih.ups, ih.sp,
      ih.frames, ih.frame, fun hl => ?_, fun hl => ?_⟩
    · replace hl : (m.host.syms.add x).2.entries.length ≤ 65536 := hl
      exact Tab.name ih.syms.1 trivial (ih.builtins (by omega)) x
    · replace hl : (m.host.syms.add x).2.entries.length ≤ 65536 := hl
      exact Tab.set (Pool.inv_add ih.syms.1 x) (Tab.name ih.syms.1 trivial (ih.globals (by omega)) x) (Pool.add_pos ih.syms.1 x hl) hv
  | @external S σ m m' x v w _ hv hset ih =>
    unfold Machine.setExternal at hset
    cases hid : m.host.syms.id? x with
    | none => rw [hid] at hset; simp at hset
    | some i =>
      rw [hid] at hset
      simp only at hset
      split at hset
      · simp only [Prod.mk.injEq, true_and] at hset
        subst hset
        refine ⟨ih.cfg, ih.lim, ih.enter, ih.exit, ih.syms, ih.data, ih.exits, ih.ups, ih.sp, ih.frames, ih.frame, ih.builtins, fun hl => ?_⟩
        obtain ⟨k, h1, h2⟩ := (ih.syms.1.look x i).1 hid
        obtain ⟨h3, _⟩ := List.getElem?_eq_some_iff.1 h1
        replace hl : m.host.syms.entries.length ≤ 65536 := hl
        rw [Pool.fromUsize, Nat.mod_eq_of_lt (by omega)] at h2
        subst h2
        exact Tab.set ih.syms.1 (ih.globals hl) h1 hv
      · simp at hset

/-- A VM about to run the code of `ast`, in a state that corresponds to `σ`. -/
structure AtStart (ast : List Node) (S : SHost D) (γ : LocMap) (σ : SSt D) (m : Machine D) : Prop where
  host : HRel (m.host.withLimits none none) S
  code : ∃ g g' sp c h, GInv g ∧ g.cur.depth = 0 ∧ g.cur.locals = [] ∧ g.encl = [] ∧ genStmts m.host.cfg true ast g = .ok (sp, c, g') ∧
    GM.fnFits g'.cur c = true ∧ g'.globals.entries <+: m.host.syms.entries ∧ h.chunk = Chunk.empty.emit c ∧ m.vm.frame.fn = CM.finish g'.cur h
  idle : Idle (m.host.withLimits none none) γ σ m.vm
  ip : m.vm.frame.ip = 0

theorem AtStart.outcome {ast : List Node} {S : SHost D} {γ : LocMap} {σ : SSt D} {m : Machine D} (h : AtStart ast S γ σ m) (hw : wfProgram ast = true) (k : Nat) :
    Outcome (m.host.withLimits none none) k γ m.vm (evalProgram S k ast σ) := by
  obtain ⟨g, g', sp, c, hd, h1, h2, h3, h4, h5, h6, h7, h8, h9⟩ := h.code
  exact run_program h.host h1 h2 h3 h4 (h := hd) h5 h6 hw h7 h8 h.idle h9 h.ip k

/-- A prepared machine is about to run its script. -/
theorem Prepared.start {M : Machine.Setup D} {data : D} {ast : List Node} {script : Script} (hc : compile M.cfg ast = .ok script)
    (hsz : sizeL ast ≤ 65535) {S : SHost D} {σ : SSt D} {m : Machine D} (h : Prepared M data script S σ m)
    (hlen : m.host.syms.entries.length ≤ 65536) : AtStart ast S noSlots σ m := by
  unfold compile at hc
  generalize hst : (CState.new "@__main__").setMainSpan ast = st at hc
  have hg : st.g = (CState.new "@__main__").g := by
    rw [← hst]; unfold CState.setMainSpan; split <;> rfl
  have hhead : st.head.chunk = Chunk.empty := by
    rw [← hst]; unfold CState.setMainSpan; split <;> rfl
  have hinv : GInv st.g := by
    rw [hg]
    exact ⟨rfl, ⟨by simp [CState.new], Pool.inv_empty⟩, by simp [CState.new], Pool.inv_empty⟩
  have hsmall : GSmall 0 st.g := by
    rw [hg]
    refine ⟨⟨?_, ?_, ?_, Pool.inv_empty, ?_⟩, ?_, ?_, Pool.inv_empty⟩ <;> simp [CState.new, Pool.empty]
  cases hcs : compileStmts M.cfg ast st with
  | mk o st' =>
    rw [hcs] at hc
    cases o with
    | ok sp =>
      simp only [COut.ok.injEq] at hc
      obtain ⟨c, g', h1, h2, h3, h4⟩ := compile_gen hsmall (by omega) hcs
      subst h2
      have hfn : script.fn = CM.finish g'.cur (st.emit c g').head := by rw [← hc]; rfl
      have hsy : script.syms = g'.globals := by rw [← hc]; rfl
      have hi := h.inv (by rw [hsy]; exact h4.globalsInv)
      have hH : HRel (m.host.withLimits none none) S := by
        refine ⟨hi.cfg.1.trans hi.cfg.2.symm, ?_, rfl, rfl, hi.enter.1.trans hi.enter.2.symm, hi.exit.1.trans hi.exit.2.symm, hi.syms.1, hlen, ?_⟩
        · show S.lim = m.host.opts.lim; rw [hi.lim.1, hi.lim.2]
        · intro i x hx
          show BuiltinRel m.host.opts.lim _ _
          rw [hi.lim.2]
          exact (hi.builtins hlen).on i x hx
      have hidle : Idle (m.host.withLimits none none) noSlots σ m.vm := by
        refine ⟨⟨hi.data, ?_, ?_, ?_, ?_, ?_, ?_, ?_, ?_⟩, hi.sp, hi.frames, by rw [hi.frame]⟩
        · show m.vm.exitFns = _; rw [hi.exits.1, hi.exits.2]
        · intro i x hx
          have := (hi.globals hlen).on i x hx
          show Val.RelO _ (σ.globals x) (m.vm.globals i)
          generalize σ.globals x = a at this
          generalize m.vm.globals i = b at this
          cases a <;> cases b <;> simp only [Val.RelO] at this ⊢
          exact Val.Rel.mono (fun _ _ h => h.elim) this
        · intro l loc hl; simp [noSlots] at hl
        · intro l loc hl; simp [noSlots] at hl
        · intro c hc; have : c ∈ m.vm.openUps := hc; rw [hi.ups] at this; simp at this
        · intro l l' loc hl; simp [noSlots] at hl
        · intro l l' loc hl; simp [noSlots] at hl
        · exact (hi.globals hlen).out
      refine ⟨hH, ⟨st.g, g', sp, c, (st.emit c g').head, hinv, by rw [hg]; rfl, by rw [hg]; rfl, by rw [hg]; rfl, by rw [hi.cfg.2]; exact h1, h3, ?_, ?_, ?_⟩, hidle, by rw [hi.frame]⟩
      · rw [← hsy]; exact hi.syms.2
      · show (st.head.chunk.emit c) = _; rw [hhead]
      · rw [hi.frame]; exact hfn
    | err e sp => simp at hc
    | panic => simp at hc

/-- A prepared machine, without resource limits, against the source program. -/
theorem Prepared.outcome {M : Machine.Setup D} {data : D} {ast : List Node} {script : Script} (hc : compile M.cfg ast = .ok script)
    (hw : wfProgram ast = true) (hsz : sizeL ast ≤ 65535) {S : SHost D} {σ : SSt D} {m : Machine D} (h : Prepared M data script S σ m)
    (hlen : m.host.syms.entries.length ≤ 65536) (k : Nat) :
    Outcome (m.host.withLimits none none) k noSlots m.vm (evalProgram S k ast σ) :=
  (h.start hc hsz hlen).outcome hw k

/-! ## Results under any limits -/

/-- The same machine with other limits. -/
def Machine.withLimits (m : Machine D) (n c : Nat) : Machine D := { m with host := m.host.withLimits (some n) (some c) }

theorem VM.steps_prefix {H : Host D} : ∀ {j k : Nat} {s s' : VM D}, j ≤ k → s.steps H k = some s' → ∃ s1, s.steps H j = some s1
  | 0, _, s, _, _, _ => ⟨s, rfl⟩
  | j + 1, 0, _, _, h, _ => absurd h (by omega)
  | j + 1, k + 1, s, s', h, hk => by
    simp only [VM.steps] at hk ⊢
    cases hx : s.step H with
    | next s1 => rw [hx] at hk; exact steps_prefix (Nat.le_of_succ_le_succ h) hk
    | _ => rw [hx] at hk; simp at hk

/-- An outcome that a machine without limits must reproduce. -/
def Out.definite (o : Out SVal) : Prop := o ≠ .timeout ∧ (∀ b, o ≠ .unspec b) ∧ ∀ sp, o ≠ .err (.overflow .stackOverflow) sp

theorem Agree.notOver {H : Host D} {r : Out SVal × SSt D} {x : StepR D} (h : Agree H r x) (hd : r.1.definite) : ¬ VM.Over x := by
  rintro ⟨sp, y, rfl⟩
  obtain ⟨sp', h1, _⟩ := h
  exact hd.2.2 _ h1

/-- The step of the limited machine after any number of steps, if the source outcome is definite. -/
theorem Outcome.step_any {H : Host D} {B n c j : Nat} {γ : LocMap} {s s1 : VM D} {r : Out SVal × SSt D} (h : Outcome (H.withLimits none none) B γ s r)
    (hd : r.1.definite) (hs : s.sp ≤ n) (hj : s.steps (H.withLimits (some n) (some c)) j = some s1) :
    (∃ s2, s1.step (H.withLimits (some n) (some c)) = .next s2) ∨ VM.Over (s1.step (H.withLimits (some n) (some c))) ∨
      Agree H r (s1.step (H.withLimits (some n) (some c))) := by
  obtain ⟨k, s', h1, h2⟩ := h.agree hd.1 hd.2.1
  have hno := h2.notOver hd
  rcases VM.steps_unlim j hs hj with ⟨h3, h4⟩ | ⟨j', sj, _, h4, h5⟩
  · have hl := VM.step_lim (H := H) (m := c) h4
    generalize hx : s1.step (H.withLimits none none) = r0 at hl
    generalize hy : s1.step (H.withLimits (some n) (some c)) = r1 at hl
    cases hl with
    | stray sp x _ =>
      have := VM.steps_det h1 rfl h2.terminal h3 hx (by simp)
      exact absurd ⟨_, _, this⟩ hno
    | same _ hle =>
      cases r0 with
      | next s2 => exact .inl ⟨s2, rfl⟩
      | _ =>
        have := VM.steps_det h1 rfl h2.terminal h3 hx (by simp)
        rw [this] at h2
        exact .inr (.inr h2)
    | over _ sp x _ => exact .inr (.inl ⟨_, _, rfl⟩)
  · have ht : ∀ x, sj.step (H.withLimits none none) ≠ .next x := by
      obtain ⟨_, _, h6⟩ := h5
      rw [h6]; simp
    have := VM.steps_det h1 rfl h2.terminal h4 rfl ht
    rw [← this] at h5
    exact absurd h5 hno

/-- Results of runs, with any clock. -/
theorem Outcome.run_any {H : Host D} {B n c fuel i j : Nat} {γ : LocMap} {s : VM D} {r : Out SVal × SSt D} (h : Outcome (H.withLimits none none) B γ s r)
    (hd : r.1.definite) (hs : s.sp ≤ n) {clock : Nat → Bool} {res : StepR D} (hr : s.run (H.withLimits (some n) (some c)) clock fuel i j = some res) :
    (∃ sp x, res = .err .runtimeLimit sp x) ∨ VM.Over res ∨ Agree H r res := by
  rcases VM.run_cases clock fuel i j hr with h1 | ⟨k, s1, _, h2, h3, h4⟩
  · exact .inl h1
  · rcases h.step_any hd hs h2 with ⟨s2, h5⟩ | h5 | h5
    · exact absurd (h3.symm.trans h5) (h4 s2)
    · exact .inr (.inl (h3 ▸ h5))
    · exact .inr (.inr (h3 ▸ h5))

/-- Runs with large enough limits. -/
theorem Outcome.run_big {H : Host D} {B : Nat} {γ : LocMap} {s : VM D} {r : Out SVal × SSt D} (h : Outcome (H.withLimits none none) B γ s r)
    (hd : r.1.definite) : ∃ N C, ∀ n c, N ≤ n → C ≤ c → ∀ clock : Nat → Bool, (∀ t, clock t = false) →
      ∃ fuel res, s.run (H.withLimits (some n) (some c)) clock fuel 0 0 = some res ∧ Agree H r res := by
  obtain ⟨k, s', h1, h2⟩ := h.agree hd.1 hd.2.1
  obtain ⟨N, C, hN⟩ := VM.steps_big k h1
  refine ⟨N, max C (s'.frames.length + 1), fun n c hn hc clock hclk => ?_⟩
  obtain ⟨h3, h4⟩ := hN n c hn (by omega)
  have hl := VM.step_lim (H := H) (m := c) h4
  generalize hx : s'.step (H.withLimits none none) = r0 at hl h2
  generalize hy : s'.step (H.withLimits (some n) (some c)) = r1 at hl
  cases hl with
  | stray sp x _ => exact absurd ⟨_, _, rfl⟩ (h2.notOver hd)
  | same _ hle => exact ⟨k + 1, r0, VM.run_of_steps hclk k 0 0 h3 hy h2.terminal, h2⟩
  | over _ sp x ho =>
    rcases ho with ho | ⟨s2, ho, _⟩
    · omega
    · subst ho; exact h2.elim

/-- Without outcome, the machine only stops at its limits. -/
theorem Outcome.step_forever {H : Host D} {n c j : Nat} {γ : LocMap} {s s1 : VM D} (h : ∀ B, ∃ σ', Outcome (H.withLimits none none) B γ s (.timeout, σ'))
    (hs : s.sp ≤ n) (hj : s.steps (H.withLimits (some n) (some c)) j = some s1) :
    (∃ s2, s1.step (H.withLimits (some n) (some c)) = .next s2) ∨ VM.Over (s1.step (H.withLimits (some n) (some c))) := by
  obtain ⟨_, s', k, h1, h2⟩ := h (j + 1)
  rcases VM.steps_unlim j hs hj with ⟨h3, h4⟩ | ⟨j', sj, h0, h4, h5⟩
  · have hl := VM.step_lim (H := H) (m := c) h4
    generalize hx : s1.step (H.withLimits none none) = r0 at hl
    generalize hy : s1.step (H.withLimits (some n) (some c)) = r1 at hl
    have hnext : ∃ s2, r0 = .next s2 := by
      cases r0 with
      | next s2 => exact ⟨s2, rfl⟩
      | _ => have := VM.steps_bound h3 hx (by simp) h2; omega
    obtain ⟨s2, rfl⟩ := hnext
    cases hl with
    | same _ hle => exact .inl ⟨s2, rfl⟩
    | over _ sp x _ => exact .inr ⟨_, _, rfl⟩
  · obtain ⟨_, _, h6⟩ := h5
    have := VM.steps_bound h4 h6 (by simp) h2
    omega

theorem Outcome.run_forever {H : Host D} {n c fuel i j : Nat} {γ : LocMap} {s : VM D} (h : ∀ B, ∃ σ', Outcome (H.withLimits none none) B γ s (.timeout, σ'))
    (hs : s.sp ≤ n) {clock : Nat → Bool} {res : StepR D} (hr : s.run (H.withLimits (some n) (some c)) clock fuel i j = some res) :
    (∃ sp x, res = .err .runtimeLimit sp x) ∨ VM.Over res := by
  rcases VM.run_cases clock fuel i j hr with h1 | ⟨k, s1, _, h2, h3, h4⟩
  · exact .inl h1
  · rcases Outcome.step_forever h hs h2 with ⟨s2, h5⟩ | h5
    · exact absurd (h3.symm.trans h5) (h4 s2)
    · exact .inr (h3 ▸ h5)

/-- Prepared hosts and states contain no functions with ill-shaped bodies. -/
theorem Prepared.good {M : Machine.Setup D} {data : D} {script : Script} {S : SHost D} {σ : SSt D} {m : Machine D} (h : Prepared M data script S σ m) :
    S.lim = M.opts.lim ∧ (∀ x, GoodB (S.builtins x) S.lim) ∧ GoodSt σ := by
  have plain : ∀ {v : SVal} {w : VVal}, PlainVal v w → Good v := fun {v w} h => Only.ofV v w (Val.Rel.mono (fun _ _ h => h.elim) h)
  have glob : ∀ {σ : SSt D} {x : String} {v : SVal}, GoodSt σ → Good v → GoodSt { σ with globals := updName σ.globals x (some v) } := by
    intro σ x v hs hv
    refine ⟨hs.1, fun y w hw => ?_⟩
    replace hw : (if y = x then some v else σ.globals y) = some w := hw
    split at hw
    · cases hw; exact hv
    · exact hs.2 y w hw
  induction h with
  | new => exact ⟨rfl, fun _ => trivial, fun _ => trivial, fun _ _ h => by simp at h⟩
  | @builtin S σ m x b b' _ hb ih =>
    refine ⟨ih.1, fun y => ?_, ih.2.2⟩
    show GoodB (if y = x then some b else S.builtins y) S.lim
    split
    · rw [ih.1]; exact hb.good
    · exact ih.2.1 y
  | global x _ hv ih => exact ⟨ih.1, ih.2.1, glob ih.2.2 (plain hv)⟩
  | external x _ hv _ ih => exact ⟨ih.1, ih.2.1, glob ih.2.2 (plain hv)⟩

/-- Prepared hosts and states contain no functions at all. -/
theorem Prepared.scope {M : Machine.Setup D} {data : D} {script : Script} {S : SHost D} {σ : SSt D} {m : Machine D} (h : Prepared M data script S σ m)
    (K : String → Bool) (dsc : Prop) : S.lim = M.opts.lim ∧ (∀ x, BuiltinOk (S.builtins x) S.lim) ∧ StOk K dsc none σ := by
  have plain : ∀ {n : Nat} {v : SVal} {w : VVal}, PlainVal v w → ValOk K dsc none n v := fun {n v w} h => Only.ofV v w (Val.Rel.mono (fun _ _ h => h.elim) h)
  have glob : ∀ {σ : SSt D} {x : String} {v : SVal}, StOk K dsc none σ → ValOk K dsc none σ.next v → StOk K dsc none { σ with globals := updName σ.globals x (some v) } := by
    intro σ x v hs hv
    refine ⟨hs.1, fun y w hw => ?_, hs.2.2⟩
    replace hw : (if y = x then some v else σ.globals y) = some w := hw
    split at hw
    · cases hw; exact hv
    · exact hs.2.1 y w hw
  induction h with
  | new => exact ⟨rfl, fun _ => trivial, fun _ => trivial, fun _ _ h => by simp at h, fun _ _ h => by simp at h⟩
  | @builtin S σ m x b b' _ hb ih =>
    refine ⟨ih.1, fun y => ?_, ih.2.2⟩
    show BuiltinOk (if y = x then some b else S.builtins y) S.lim
    split
    · rw [ih.1]; exact hb.ok
    · exact ih.2.1 y
  | global x _ hv ih => exact ⟨ih.1, ih.2.1, glob ih.2.2 (plain hv)⟩
  | external x _ hv _ ih => exact ⟨ih.1, ih.2.1, glob ih.2.2 (plain hv)⟩

end Quilt
