import Verif.Sem.Program
import Verif.Compiler.Fits
import Verif.Compiler.GenEq
import Verif.Vm.Limits
import Verif.Vm.Api

/-!
# Whole programs through the host interface, with limits
-/

namespace Quilt

variable {D : Type}

/-! ## Runs of the limited machine -/

namespace VM
variable {H : Host D} {n c : Nat}

/-- The stack-overflow outcome. -/
def Over (r : StepR D) : Prop := ∃ sp x, r = .err (.overflow .stackOverflow) sp x

/-- What the machine without limits does within `k` steps, the limited one does, or it overflows. -/
theorem steps_lim : ∀ (k : Nat) {s s' : VM D}, s.sp ≤ n → s.steps (H.withLimits none none) k = some s' →
    (s.steps (H.withLimits (some n) (some c)) k = some s' ∧ s'.sp ≤ n) ∨
      ∃ j sj, j < k ∧ s.steps (H.withLimits (some n) (some c)) j = some sj ∧ Over (sj.step (H.withLimits (some n) (some c)))
  | 0, s, s', hs, h => by
    simp only [steps, Option.some.injEq] at h
    subst h
    exact .inl ⟨rfl, hs⟩
  | k + 1, s, s', hs, h => by
    have hl := step_lim (H := H) (m := c) hs
    simp only [steps] at h
    cases hx : s.step (H.withLimits none none) with
    | next s1 =>
      rw [hx] at h hl
      generalize hy : s.step (H.withLimits (some n) (some c)) = r at hl
      cases hl with
      | same _ hle =>
        rcases steps_lim k (hle s1 rfl) h with ⟨h1, h2⟩ | ⟨j, sj, h0, h1, h2⟩
        · exact .inl ⟨by simp only [steps, hy]; exact h1, h2⟩
        · exact .inr ⟨j + 1, sj, by omega, by simp only [steps, hy]; exact h1, h2⟩
      | over _ sp x _ => exact .inr ⟨0, s, by omega, rfl, by rw [hy]; exact ⟨_, _, rfl⟩⟩
    | done => rw [hx] at h; simp at h
    | err => rw [hx] at h; simp at h
    | panic => rw [hx] at h; simp at h

/-- Runs of the limited machine are runs of the machine without limits, unless that one rejects an access. -/
theorem steps_unlim : ∀ (k : Nat) {s s' : VM D}, s.sp ≤ n → s.steps (H.withLimits (some n) (some c)) k = some s' →
    (s.steps (H.withLimits none none) k = some s' ∧ s'.sp ≤ n) ∨
      ∃ j sj, j < k ∧ s.steps (H.withLimits none none) j = some sj ∧ Over (sj.step (H.withLimits none none))
  | 0, s, s', hs, h => by
    simp only [steps, Option.some.injEq] at h
    subst h
    exact .inl ⟨rfl, hs⟩
  | k + 1, s, s', hs, h => by
    have hl := step_lim (H := H) (m := c) hs
    simp only [steps] at h
    generalize hx : s.step (H.withLimits none none) = r0 at hl
    generalize hy : s.step (H.withLimits (some n) (some c)) = r at hl h
    cases hl with
    | stray => exact .inr ⟨0, s, by omega, rfl, by rw [hx]; exact ⟨_, _, rfl⟩⟩
    | same _ hle =>
      cases r0 with
      | next s1 =>
        rcases steps_unlim k (hle s1 rfl) h with ⟨h1, h2⟩ | ⟨j, sj, h0, h1, h2⟩
        · exact .inl ⟨by simp only [steps, hx]; exact h1, h2⟩
        · exact .inr ⟨j + 1, sj, by omega, by simp only [steps, hx]; exact h1, h2⟩
      | done => simp at h
      | err => simp at h
      | panic => simp at h
    | over _ sp x _ => simp at h

/-- Every finite run fits into some limits. -/
theorem steps_big : ∀ (k : Nat) {s s' : VM D}, s.steps (H.withLimits none none) k = some s' →
    ∃ N C, ∀ n c, N ≤ n → C ≤ c → s.steps (H.withLimits (some n) (some c)) k = some s' ∧ s'.sp ≤ n
  | 0, s, s', h => by
    simp only [steps, Option.some.injEq] at h
    subst h
    exact ⟨s.sp, 0, fun n c hn _ => ⟨rfl, hn⟩⟩
  | k + 1, s, s', h => by
    simp only [steps] at h
    cases hx : s.step (H.withLimits none none) with
    | next s1 =>
      rw [hx] at h
      obtain ⟨N, C, hN⟩ := steps_big k h
      refine ⟨max N (max s.sp (s1.sp + 1)), max C (s.frames.length + 1), fun n c hn hc => ?_⟩
      have hl := step_lim (H := H) (s := s) (n := n) (m := c) (by omega)
      rw [hx] at hl
      generalize hy : s.step (H.withLimits (some n) (some c)) = r at hl
      cases hl with
      | same _ hle =>
        obtain ⟨h1, h2⟩ := hN n c (by omega) (by omega)
        exact ⟨by simp only [steps, hy]; exact h1, h2⟩
      | over _ sp x ho =>
        rcases ho with ho | ⟨s2, h1, h2⟩
        · omega
        · simp only [StepR.next.injEq] at h1; subst h1; omega
    | done => rw [hx] at h; simp at h
    | err => rw [hx] at h; simp at h
    | panic => rw [hx] at h; simp at h

/-- A terminated run. -/
theorem run_of_steps {clock : Nat → Bool} (hclk : ∀ t, clock t = false) : ∀ (k i j : Nat) {s s' : VM D} {r : StepR D}, s.steps H k = some s' → s'.step H = r →
    (∀ s'', r ≠ .next s'') → s.run H clock (k + 1) i j = some r
  | 0, i, j, s, s', r, h, hr, hn => by
    simp only [steps, Option.some.injEq] at h
    subst h
    simp only [run, hclk, Bool.false_eq_true, and_false, if_false, hr]
  | k + 1, i, j, s, s', r, h, hr, hn => by
    simp only [steps] at h
    rw [run]
    simp only [hclk, Bool.false_eq_true, and_false, if_false]
    cases hx : s.step H with
    | next s1 =>
      rw [hx] at h
      exact run_of_steps hclk k _ _ h hr hn
    | done => rw [hx] at h; simp at h
    | err => rw [hx] at h; simp at h
    | panic => rw [hx] at h; simp at h

/-- A result of `run`: time limit, or a terminal step after some steps. -/
theorem run_cases (clock : Nat → Bool) : ∀ (fuel i j : Nat) {s : VM D} {r : StepR D}, s.run H clock fuel i j = some r →
    (∃ sp x, r = .err .runtimeLimit sp x) ∨ ∃ k s', k < fuel ∧ s.steps H k = some s' ∧ s'.step H = r ∧ ∀ s'', r ≠ .next s''
  | 0, i, j, s, r, h => by simp [run] at h
  | fuel + 1, i, j, s, r, h => by
    rw [run] at h
    split at h
    · simp only [Option.some.injEq] at h; exact .inl ⟨_, _, h.symm⟩
    · simp only at h
      cases hx : s.step H with
      | next s1 =>
        rw [hx] at h
        simp only at h
        split at h
        · simp only [Option.some.injEq] at h; exact .inl ⟨_, _, h.symm⟩
        · rcases run_cases clock fuel _ _ h with h1 | ⟨k, s', h0, h1, h2, h3⟩
          · exact .inl h1
          · exact .inr ⟨k + 1, s', by omega, by simp only [steps, hx]; exact h1, h2, h3⟩
      | done => rw [hx] at h; simp only [Option.some.injEq] at h; exact .inr ⟨0, s, by omega, rfl, hx.trans h, by rw [← h]; simp⟩
      | err => rw [hx] at h; simp only [Option.some.injEq] at h; exact .inr ⟨0, s, by omega, rfl, hx.trans h, by rw [← h]; simp⟩
      | panic => rw [hx] at h; simp only [Option.some.injEq] at h; exact .inr ⟨0, s, by omega, rfl, hx.trans h, by rw [← h]; simp⟩

/-- Two terminated runs from the same state are equal. -/
theorem steps_det {j k : Nat} {s s1 s2 : VM D} {r1 r2 : StepR D} (h1 : s.steps H j = some s1) (t1 : s1.step H = r1) (n1 : ∀ x, r1 ≠ .next x)
    (h2 : s.steps H k = some s2) (t2 : s2.step H = r2) (n2 : ∀ x, r2 ≠ .next x) : r1 = r2 := by
  induction j generalizing s k with
  | zero =>
    simp only [steps, Option.some.injEq] at h1
    subst h1
    cases k with
    | zero => simp only [steps, Option.some.injEq] at h2; subst h2; exact t1.symm.trans t2
    | succ k =>
      simp only [steps, t1] at h2
      cases r1 with
      | next x => exact absurd rfl (n1 x)
      | _ => simp at h2
  | succ j ih =>
    simp only [steps] at h1
    cases hx : s.step H with
    | next s' =>
      rw [hx] at h1
      cases k with
      | zero =>
        simp only [steps, Option.some.injEq] at h2
        subst h2
        rw [hx] at t2
        exact absurd t2.symm (n2 s')
      | succ k =>
        simp only [steps, hx] at h2
        exact ih h1 h2
    | _ => rw [hx] at h1; simp at h1

/-- A terminated run takes no more steps. -/
theorem steps_bound {j k : Nat} {s s1 s2 : VM D} {r1 : StepR D} (h1 : s.steps H j = some s1) (t1 : s1.step H = r1) (n1 : ∀ x, r1 ≠ .next x)
    (h2 : s.steps H k = some s2) : k ≤ j := by
  induction j generalizing s k with
  | zero =>
    simp only [steps, Option.some.injEq] at h1
    subst h1
    cases k with
    | zero => omega
    | succ k =>
      simp only [steps, t1] at h2
      cases r1 with
      | next x => exact absurd rfl (n1 x)
      | _ => simp at h2
  | succ j ih =>
    simp only [steps] at h1
    cases hx : s.step H with
    | next s' =>
      rw [hx] at h1
      cases k with
      | zero => omega
      | succ k =>
        simp only [steps, hx] at h2
        have := ih h1 h2
        omega
    | _ => rw [hx] at h1; simp at h1

end VM

/-! ## Agreement of outcomes -/

/-- Functions are compared by name and number of parameters. -/
def SameFn (sc : SClos) (vc : VClos) : Prop := vc.fn.name = sc.name ∧ vc.fn.arity = sc.params.length

/-- The same value, apart from the representation of functions. -/
def SameVal : SVal → VVal → Prop := Val.Rel SameFn

/-- The machine's globals are those of the source state, for every name in the symbol table. -/
def SameGlobals (syms : Pool String) (σ : SSt D) (s : VM D) : Prop :=
  ∀ (i : Nat) x, syms.get i = some x → Val.RelO SameFn (σ.globals x) (s.globals i)

/-- The result of a run against the outcome of the source semantics. With debug assertions
a `return` outside of functions may panic. -/
def Agree (H : Host D) (r : Out SVal × SSt D) : StepR D → Prop
  | .done w s => ∃ v, (r.1 = .ok v ∨ r.1 = .ret v) ∧ SameVal v w ∧ s.data = r.2.data ∧ SameGlobals H.syms r.2 s ∧ s.exitFns = r.2.exits
  | .err e sp s => ∃ sp', r.1 = .err e sp' ∧ (∀ x, sp' = some x → sp = x) ∧ s.data = r.2.data ∧ SameGlobals H.syms r.2 s ∧ s.exitFns = r.2.exits
  | .panic => r.1 = .panic ∨ H.cfg.chk = true ∧ ∃ v, r.1 = .ret v
  | .next _ => False

theorem CRel.same {cfg : Cfg} {syms : List String} {γ : LocMap} {sc : SClos} {vc : VClos} (h : CRel cfg syms γ sc vc) : SameFn sc vc := by
  obtain ⟨g, s, code, g1, _, h2, _⟩ := h
  rw [SameFn, h2]
  simp only [GM.mkFunc, CM.finish, Func.name, Func.arity, and_self]

theorem VRel.same {cfg : Cfg} {syms : List String} {γ : LocMap} {v : SVal} {w : VVal} (h : VRel cfg syms γ v w) : SameVal v w :=
  Val.Rel.mono (fun _ _ => CRel.same) h

theorem Idle.sameGlobals {H : Host D} {γ : LocMap} {σ : SSt D} {s : VM D} (h : Idle H γ σ s) : SameGlobals H.syms σ s := by
  intro i x hx
  have := h.ok.globals i x hx
  have h2 : Val.RelO (CRel H.cfg H.syms.entries γ) (σ.globals x) (s.globals i) := this
  generalize σ.globals x = a at h2
  generalize s.globals i = b at h2
  cases a <;> cases b <;> simp only [Val.RelO] at h2 ⊢
  exact VRel.same h2

theorem Stopped.sameGlobals {H : Host D} {γ : LocMap} {σ : SSt D} {s : VM D} (h : Stopped H γ σ s) : SameGlobals H.syms σ s := by
  obtain ⟨γ', slots, stack, sp, _, ok⟩ := h
  intro i x hx
  have := ok.globals i x hx
  have h2 : Val.RelO (CRel H.cfg H.syms.entries γ') (σ.globals x) (s.globals i) := this
  generalize σ.globals x = a at h2
  generalize s.globals i = b at h2
  cases a <;> cases b <;> simp only [Val.RelO] at h2 ⊢
  exact VRel.same h2

/-- Definite outcomes: the unlimited machine terminates accordingly. -/
theorem Outcome.agree {H : Host D} {B : Nat} {γ : LocMap} {s : VM D} {r : Out SVal × SSt D} (h : Outcome H B γ s r)
    (h1 : r.1 ≠ .timeout) (h2 : ∀ b, r.1 ≠ .unspec b) : ∃ k s', s.steps H k = some s' ∧ Agree H r (s'.step H) := by
  obtain ⟨o, σ'⟩ := r
  cases o with
  | ok v =>
    obtain ⟨s', w, s'', γ', ⟨k, _, a⟩, b, _, d, e⟩ := h
    exact ⟨k, s', a, by rw [b]; exact ⟨v, .inl rfl, d.same, e.ok.data, e.sameGlobals, e.ok.exits⟩⟩
  | ret v =>
    obtain ⟨s', w, s'', γ', ⟨k, _, a⟩, b, _, d, e⟩ := h
    refine ⟨k, s', a, ?_⟩
    rcases b with b | ⟨b, b'⟩
    · rw [b]; exact ⟨v, .inr rfl, d.same, e.ok.data, e.sameGlobals, e.ok.exits⟩
    · rw [b']; exact .inr ⟨b, v, rfl⟩
  | err e sp =>
    obtain ⟨s', sp', s'', ⟨k, _, a⟩, b, d, e1⟩ := h
    exact ⟨k, s', a, by rw [b]; exact ⟨sp, rfl, d, e1.data, e1.sameGlobals, e1.exits⟩⟩
  | panic =>
    obtain ⟨s', ⟨k, _, a⟩, b⟩ := h
    exact ⟨k, s', a, by rw [b]; exact .inl rfl⟩
  | timeout => exact absurd rfl h1
  | deep => exact h.elim
  | unspec b => exact absurd rfl (h2 b)

theorem Agree.terminal {H : Host D} {r : Out SVal × SSt D} {x : StepR D} (h : Agree H r x) : ∀ s, x ≠ .next s := by
  rintro s rfl; exact h

/-! ## Compilation -/

/-- Successful compilation of a program of bounded size, in terms of generated code. -/
theorem compile_gen {cfg : Cfg} {ast : List Node} {st st' : CState} {sp : Span} {m : Nat} (hg : GSmall m st.g) (hm : m + sizeL ast ≤ 65535)
    (h : compileStmts cfg ast st = (.ok sp, st')) :
    ∃ c g', genStmts cfg true ast st.g = .ok (sp, c, g') ∧ st' = st.emit c g' ∧ GM.fnFits g'.cur c = true ∧ GSmall (m + sizeL ast) g' := by
  obtain ⟨h1, h2⟩ := fit_program (cfg := cfg) (strict := true) hg hm
  rcases (Ref.ref_stmts cfg true ast).elim st st.g rfl with ⟨a, c, g', h3, h4⟩ | ⟨e, sp', s', _, h4⟩ | ⟨s', _, h4⟩ | h3
  · rw [h] at h4
    simp only [Prod.mk.injEq, COut.ok.injEq] at h4
    obtain ⟨rfl, rfl⟩ := h4
    obtain ⟨h5, h6⟩ := h2 _ _ _ h3
    exact ⟨c, g', h3, rfl, h5, h6⟩
  · rw [h] at h4; simp at h4
  · rw [h] at h4; simp at h4
  · exact absurd h3 h1

end Quilt
