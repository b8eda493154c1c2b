import Verif.Props.Tidy
import Verif.Sem.Cong

/-!
# Parts of a program may be replaced by parts with the same meaning: C101
-/

namespace Quilt.Props

open Lib Peg Cli

section Semantics

variable {D : Type} {M : Machine.Setup D} {data : D} {ast ast' : List Node} {S : SHost D} {σ : SSt D} {m m' : Machine D}

private theorem CCong.self (c : SClos) : CCong c c := ⟨rfl, rfl, rfl, _, CongL.refl _, .rfl'⟩

mutual
private theorem rel_self {A B : Type} {P : A → B → Prop} {Q : A → A → Prop} (hQ : ∀ c, Q c c) : ∀ {a : Val A} {b : Val B}, Val.Rel P a b → Val.Rel Q a a
  | .none, b, h | .bool _, b, h | .int _, b, h | .float _, b, h | .range _ _, b, h
  | .color _ _ _ _, b, h | .str _, b, h | .special _ _, b, h | .loopCtx _, b, h | .func _, b, h => by
    cases b <;> simp_all [Val.Rel]
  | .arr _ _ _, b, h => by
    cases b <;> simp only [Val.Rel] at h ⊢
    exact ⟨relL_self hQ h.1, by simp⟩
  | .pair _ _, b, h => by
    cases b <;> simp only [Val.Rel] at h ⊢
    exact ⟨rel_self hQ h.1, rel_self hQ h.2⟩
  | .clos _, b, h => by
    cases b <;> simp only [Val.Rel] at h ⊢
    exact hQ _
termination_by structural a => a
private theorem relL_self {A B : Type} {P : A → B → Prop} {Q : A → A → Prop} (hQ : ∀ c, Q c c) : ∀ {a : List (Val A)} {b : List (Val B)}, Val.RelL P a b → Val.RelL Q a a
  | [], b, h => by cases b <;> simp_all [Val.RelL]
  | _ :: _, b, h => by
    cases b <;> simp only [Val.RelL] at h ⊢
    exact ⟨rel_self hQ h.1, relL_self hQ h.2⟩
termination_by structural a => a
end

private theorem stCong_self {σ σ' : SSt D} (h : StAlpha σ σ') : StCong σ σ := by
  refine ⟨fun l => rel_self CCong.self (h.store l), rfl, fun x => ?_, rfl, rfl⟩
  have := h.globals x
  generalize σ.globals x = o at this
  generalize σ'.globals x = o' at this
  cases o <;> cases o' <;> simp only [Val.RelO] at this ⊢
  exact rel_self CCong.self this

private theorem lockstep (h : Runs M data ast S σ m) (ha : CongL ast ast') (k : Nat) :
    Out.Cong VCong (evalProgram S k ast σ).1 (evalProgram S k ast' σ).1 ∧ StCong (evalProgram S k ast σ).2 (evalProgram S k ast' σ).2 := by
  obtain ⟨script, _, h2⟩ := h.prepared
  exact evalProgram_cong h2.alpha.1 k ha σ σ (stCong_self h2.alpha.2)

/-- Programs that differ in positions, and in expressions and blocks that were replaced anywhere (also in functions, loops and included files) by others with the same
meaning, have the same outcome, within the same bound on loops and calls. -/
theorem C101_semantics (h : Runs M data ast S σ m) (ha : CongL ast ast') (k : Nat) : SameOutcome (evalProgram S k ast σ) (evalProgram S k ast' σ) := by
  obtain ⟨h1, h2⟩ := lockstep h ha k
  generalize evalProgram S k ast σ = r at h1 h2
  generalize evalProgram S k ast' σ = r' at h1 h2
  obtain ⟨o, τ⟩ := r
  obtain ⟨o', τ'⟩ := r'
  refine ⟨h2.data, ?_⟩
  cases o <;> cases o' <;> first
    | exact h1.elim
    | exact Val.Rel.mono (fun _ _ h => ⟨CCong.name h, CCong.params h⟩) h1
    | exact h1.1
    | exact h1

/-- Functions with the same name and number of parameters. -/
private abbrev AlikeS (c c' : SClos) : Prop := c.name = c'.name ∧ c.params.length = c'.params.length

private theorem alike {v v' : SVal} {w w' : VVal} (h : Val.Rel AlikeS v v') (h1 : SameVal v w) (h2 : SameVal v' w') : SameUpToCode w w' := by
  have h3 : Val.Rel (fun (c' : SClos) (d : VClos) => d.fn.name = c'.name ∧ d.fn.arity = c'.params.length) v' w :=
    Val.Rel.comp (fun _ _ _ (h : AlikeS _ _) (h1 : SameFn _ _) => ⟨h1.1.trans h.1, h1.2.trans h.2⟩) h h1
  exact Val.Rel.comp (fun _ _ _ h (h1 : SameFn _ _) => ⟨h.1.trans h1.1.symm, h.2.trans h1.2.symm⟩) h3 h2

private theorem alikeGlobals {P P' : Pool String} {σ σ' : SSt D} {s s' : VM D} (h : ∀ x, Val.RelO AlikeS (σ.globals x) (σ'.globals x)) (h1 : SameGlobals P σ s)
    (h2 : SameGlobals P' σ' s') : AlikeGlobals P P' s s' := by
  intro i j x hi hj
  have a := h x
  have b := h1 i x hi
  have c := h2 j x hj
  generalize σ.globals x = o at a b
  generalize σ'.globals x = o' at a c
  generalize s.globals i = q at b ⊢
  generalize s'.globals j = q' at c ⊢
  cases o <;> cases o' <;> simp only [Val.RelO] at a <;> cases q <;> simp only [Val.RelO] at b <;> cases q' <;> simp only [Val.RelO] at c ⊢
  exact alike a b c

private theorem runs_alike (h : Runs M data ast S σ m) (h' : Runs M data ast' S σ m')
    (hs : ∀ k, SameOutcome (evalProgram S k ast σ) (evalProgram S k ast' σ) ∧ ∀ x, Val.RelO AlikeS ((evalProgram S k ast σ).2.globals x) ((evalProgram S k ast' σ).2.globals x))
    (hu : ∀ k b, (evalProgram S k ast σ).1 ≠ .unspec b)
    (hov : ∀ k sp, (evalProgram S k ast σ).1 ≠ .err (.overflow .stackOverflow) sp) (hret : M.cfg.chk = true → ∀ k v, (evalProgram S k ast σ).1 ≠ .ret v)
    (n c : Nat) (clock : Nat → Bool) (fuel : Nat) {res : StepR D} (hr : (m.withLimits n c).run clock fuel = some res) (hl : ¬ HitLimit res) :
    ∃ N C, ∀ n c, N ≤ n → C ≤ c → ∀ clock : Nat → Bool, (∀ t, clock t = false) →
      ∃ fuel res', (m'.withLimits n c).run clock fuel = some res' ∧ SameResult m.host.syms m'.host.syms res res' := by
  by_cases hd : ∀ k, (evalProgram S k ast σ).1 = .timeout
  · rcases C22_diverges h hd n c clock fuel with h1 | ⟨_, _, h1⟩ | ⟨_, _, h1⟩ <;> rw [hr] at h1
    · cases h1
    · cases h1; exact absurd (.inl rfl) hl
    · cases h1; exact absurd (.inr rfl) hl
  · rw [Classical.not_forall] at hd
    obtain ⟨k, hk⟩ := hd
    have hcfg : m.host.cfg = M.cfg ∧ m'.host.cfg = M.cfg := by
      obtain ⟨_, a1, a2⟩ := h.prepared
      obtain ⟨_, b1, b2⟩ := h'.prepared
      have e : ∀ {script S σ} {m : Machine D}, Prepared M data script S σ m → m.host.cfg = M.cfg := by
        intro script S σ m hp
        induction hp with
        | new => rfl
        | builtin _ _ _ ih => exact ih
        | global _ _ _ ih => exact ih
        | @external S σ m m' x v w _ _ hset ih =>
          unfold Machine.setExternal at hset
          split at hset
          · simp at hset
          · split at hset
            · simp only [Prod.mk.injEq, true_and] at hset; subst hset; exact ih
            · simp at hset
      exact ⟨e a2, e b2⟩
    obtain ⟨hO, hσ⟩ := hs k
    have ho := h.outcome k
    have ho' := h'.outcome k
    have hu := hu k
    have hov := hov k
    have hret := fun hc => hret hc k
    generalize evalProgram S k ast σ = r at hk hO hσ ho hu hov hret
    generalize evalProgram S k ast' σ = r' at hO hσ ho'
    obtain ⟨o, τ⟩ := r
    obtain ⟨o', τ'⟩ := r'
    have hD : τ.data = τ'.data := hO.1
    have hA := hO.2
    have hdef : o'.definite := by
      refine ⟨?_, ?_, ?_⟩
      · rintro rfl; cases o <;> first | exact hA.elim | exact hk rfl
      · rintro b rfl; cases o <;> first | exact hA.elim | exact hu _ rfl
      · rintro sp rfl; cases o <;> first | exact hA.elim | (obtain rfl := hA; exact hov _ rfl)
    rcases ho.run_any ⟨hk, hu, hov⟩ (h.sp n) hr with ⟨_, _, h1⟩ | ⟨_, _, h1⟩ | h2
    · subst h1; exact absurd (.inr rfl) hl
    · subst h1; exact absurd (.inl rfl) hl
    · obtain ⟨N, C, hN⟩ := ho'.run_big hdef
      refine ⟨N, C, fun n c hn hc clock hclk => ?_⟩
      obtain ⟨fuel, res', k1, k2⟩ := hN n c hn hc clock hclk
      refine ⟨fuel, res', k1, ?_⟩
      cases res with
      | done w s =>
        obtain ⟨v, e, a1, a2, a3, _⟩ := h2
        cases res' with
        | done w' s' =>
          obtain ⟨v', e', b1, b2, b3, _⟩ := k2
          have hv : Val.Rel AlikeS v v' := by
            rcases e with e | e <;> rcases e' with e' | e' <;> simp only at e e' <;> subst e <;> subst e' <;> first | exact hA.elim | exact hA
          exact ⟨alike hv a1 b1, a2.trans (hD.trans b2.symm), alikeGlobals hσ a3 b3⟩
        | err => obtain ⟨_, e', _⟩ := k2; rcases e with e | e <;> simp only at e e' <;> subst e <;> subst e' <;> exact hA.elim
        | panic =>
          rcases k2 with e' | ⟨hc, v', e'⟩
          · rcases e with e | e <;> simp only at e e' <;> subst e <;> subst e' <;> exact hA.elim
          · simp only at e'; subst e'
            cases o <;> first | exact hA.elim | exact absurd rfl (hret (hcfg.2 ▸ hc) _)
        | next => exact k2.elim
      | err e sp s =>
        obtain ⟨sp', e1, _, a2, a3, _⟩ := h2
        simp only at e1; subst e1
        cases res' with
        | done => obtain ⟨v', e', _⟩ := k2; rcases e' with e' | e' <;> simp only at e' <;> subst e' <;> exact hA.elim
        | err e2 sp2 s2 =>
          obtain ⟨sp3, e', _, b2, b3, _⟩ := k2
          simp only at e'; subst e'
          exact ⟨hA, a2.trans (hD.trans b2.symm), alikeGlobals hσ a3 b3⟩
        | panic => rcases k2 with e' | ⟨hc, v', e'⟩ <;> simp only at e' <;> subst e' <;> exact hA.elim
        | next => exact k2.elim
      | panic =>
        rcases h2 with e | ⟨hc, v, e⟩
        · simp only at e; subst e
          cases res' with
          | done => obtain ⟨v', e', _⟩ := k2; rcases e' with e' | e' <;> simp only at e' <;> subst e' <;> exact hA.elim
          | err => obtain ⟨_, e', _⟩ := k2; simp only at e'; subst e'; exact hA.elim
          | panic => trivial
          | next => exact k2.elim
        · exact absurd e (hret (hcfg.1 ▸ hc) v)
      | next => exact h2.elim

private theorem lockstep_alike (h : Runs M data ast S σ m) (ha : CongL ast ast') (k : Nat) : SameOutcome (evalProgram S k ast σ) (evalProgram S k ast' σ) ∧
    ∀ x, Val.RelO AlikeS ((evalProgram S k ast σ).2.globals x) ((evalProgram S k ast' σ).2.globals x) := by
  refine ⟨C101_semantics h ha k, fun x => ?_⟩
  have h2 := (lockstep h ha k).2.globals x
  generalize (evalProgram S k ast σ).2.globals x = o at h2
  generalize (evalProgram S k ast' σ).2.globals x = o' at h2
  cases o <;> cases o' <;> simp only [Val.RelO] at h2 ⊢
  exact Val.Rel.mono (fun _ _ h => ⟨CCong.name h, CCong.params h⟩) h2

/-- Compiled and run: if the program ends without hitting a limit, then so does the one after replacements, given large enough stacks and time, with
the same result. `hret`: with debug assertions, no `return` outside of functions (C20). -/
theorem C101_runs (h : Runs M data ast S σ m) (h' : Runs M data ast' S σ m') (ha : CongL ast ast') (hu : ∀ k b, (evalProgram S k ast σ).1 ≠ .unspec b)
    (hov : ∀ k sp, (evalProgram S k ast σ).1 ≠ .err (.overflow .stackOverflow) sp) (hret : M.cfg.chk = true → ∀ k v, (evalProgram S k ast σ).1 ≠ .ret v)
    (n c : Nat) (clock : Nat → Bool) (fuel : Nat) {res : StepR D} (hr : (m.withLimits n c).run clock fuel = some res) (hl : ¬ HitLimit res) :
    ∃ N C, ∀ n c, N ≤ n → C ≤ c → ∀ clock : Nat → Bool, (∀ t, clock t = false) →
      ∃ fuel res', (m'.withLimits n c).run clock fuel = some res' ∧ SameResult m.host.syms m'.host.syms res res' :=
  runs_alike h h' (lockstep_alike h ha) hu hov hret n c clock fuel hr hl

/-- The converse: if the program after replacements ends without hitting a limit, then so does the program, given large enough stacks and time. -/
theorem C101_runs_back (h : Runs M data ast S σ m) (h' : Runs M data ast' S σ m') (ha : CongL ast ast') (hu : ∀ k b, (evalProgram S k ast σ).1 ≠ .unspec b)
    (hov : ∀ k sp, (evalProgram S k ast σ).1 ≠ .err (.overflow .stackOverflow) sp) (hret : M.cfg.chk = true → ∀ k v, (evalProgram S k ast σ).1 ≠ .ret v)
    (n c : Nat) (clock : Nat → Bool) (fuel : Nat) {res : StepR D} (hr : (m'.withLimits n c).run clock fuel = some res) (hl : ¬ HitLimit res) :
    ∃ N C, ∀ n c, N ≤ n → C ≤ c → ∀ clock : Nat → Bool, (∀ t, clock t = false) →
      ∃ fuel res', (m.withLimits n c).run clock fuel = some res' ∧ SameResult m'.host.syms m.host.syms res res' := by
  have hs := lockstep_alike h ha
  refine runs_alike h' h (fun k => ⟨(hs k).1.symm, fun x => ?_⟩) (fun k b e => ?_) (fun k sp e => ?_) (fun hc k v e => ?_) n c clock fuel hr hl
  · have h2 := (hs k).2 x
    generalize (evalProgram S k ast σ).2.globals x = o at h2
    generalize (evalProgram S k ast' σ).2.globals x = o' at h2
    cases o <;> cases o' <;> simp only [Val.RelO] at h2 ⊢
    exact Val.Rel.mono (fun _ _ h => ⟨h.1.symm, h.2.symm⟩) (Val.Rel.swap h2)
  · have h2 := (hs k).1
    have hu := hu k
    generalize evalProgram S k ast σ = r at h2 hu
    generalize evalProgram S k ast' σ = r' at h2 e
    obtain ⟨o, τ⟩ := r
    obtain ⟨o', τ'⟩ := r'
    simp only at e
    subst e
    have h2 := h2.2
    cases o <;> first | exact h2.elim | exact hu _ rfl
  · have h2 := (hs k).1
    have hov := hov k
    generalize evalProgram S k ast σ = r at h2 hov
    generalize evalProgram S k ast' σ = r' at h2 e
    obtain ⟨o, τ⟩ := r
    obtain ⟨o', τ'⟩ := r'
    simp only at e
    subst e
    have h2 := h2.2
    cases o <;> first | exact h2.elim | (obtain rfl := h2; exact hov _ rfl)
  · have h2 := (hs k).1
    have hret := hret hc k
    generalize evalProgram S k ast σ = r at h2 hret
    generalize evalProgram S k ast' σ = r' at h2 e
    obtain ⟨o, τ⟩ := r
    obtain ⟨o', τ'⟩ := r'
    simp only at e
    subst e
    have h2 := h2.2
    cases o <;> first | exact h2.elim | exact hret _ rfl

end Semantics

/-! ## The command line program -/

variable {E : Cli.Env} {a : Cli.Args} {k k' : Nat} {name name' : String} {src src' : List Char} {ast ast' : List Node} {script script' : Script}

/-- The files `src` and `src'`, with their includes, are read as programs. With the statements of the included files written in place of the includes they are equal up to positions and
replacements of expressions and blocks by others with the same meaning. -/
structure Replaced (E : Cli.Env) (a : Cli.Args) (k k' : Nat) (name name' : String) (src src' : List Char) (ast ast' : List Node) (script script' : Script) : Prop where
  one : MainFile E a k name src ast script
  two : MainFile E a k' name' src' ast' script'
  cong : CongL (inPlaceL ast) (inPlaceL ast')

theorem Replaced.outcome (h : Replaced E a k k' name name' src src' ast ast' script script') (K : Nat) : SameOutcome (cliRun E a K ast) (cliRun E a K ast') := by
  obtain ⟨script, _, h2⟩ := h.one.runs.prepared
  obtain ⟨h3, h4⟩ := evalProgram_cong h2.alpha.1 K h.cong _ _ (stCong_self h2.alpha.2)
  rw [C93_semantics _ _ h.two.runs.wf, C93_semantics _ _ h.one.runs.wf] at h3 h4
  show SameOutcome (evalProgram (cliHost E a) K ast (startSt ⟨[], 0⟩)) (evalProgram (cliHost E a) K ast' (startSt ⟨[], 0⟩))
  generalize evalProgram (cliHost E a) K ast (startSt ⟨[], 0⟩) = r at h3 h4
  generalize evalProgram (cliHost E a) K ast' (startSt ⟨[], 0⟩) = r' at h3 h4
  obtain ⟨o, τ⟩ := r
  obtain ⟨o', τ'⟩ := r'
  refine ⟨h4.data, ?_⟩
  cases o <;> cases o' <;> first
    | exact h3.elim
    | exact Val.Rel.mono (fun _ _ h => ⟨CCong.name h, CCong.params h⟩) h3
    | exact h3.1
    | exact h3

/-- Without a time limit, running the file and running the file after replacements end in the same way, given enough of the two stacks: with the same status and the same output, up
to the traceback of an error, or with the same error, or with a crash. In both directions. -/
theorem C101_command (h : Replaced E a k k' name name' src src' ast ast' script script') (ha : a.maxRuntime = none)
    (hcmp : ∀ K, (cliRun E a K ast).1 ≠ .unspec true) (hret : E.cfg.chk = true → ∀ K v, (cliRun E a K ast).1 ≠ .ret v) (fuel : Nat) :
    (∀ out, Cli.main E a k fuel name (.ok src) = some (.exit ⟨0, out, none⟩) →
      ∃ N C, ∀ n c, N ≤ n → C ≤ c → ∃ fuel', Cli.main E (a.withStacks n c) k' fuel' name' (.ok src') = some (.exit ⟨0, out, none⟩)) ∧
    (∀ out e sp, Cli.main E a k fuel name (.ok src) = some (.exit ⟨1, out, some (.error e sp)⟩) → e ≠ .overflow .stackOverflow →
      ∃ before trace N C, out = before ++ "Traceback (most recent call last):\n".toList ++ trace ∧ ∀ n c, N ≤ n → C ≤ c → ∃ fuel' trace' sp',
        Cli.main E (a.withStacks n c) k' fuel' name' (.ok src') =
          some (.exit ⟨1, before ++ "Traceback (most recent call last):\n".toList ++ trace', some (.error e sp')⟩)) ∧
    (Cli.main E a k fuel name (.ok src) = some .crash →
      ∃ N C, ∀ n c, N ≤ n → C ≤ c → ∃ fuel', Cli.main E (a.withStacks n c) k' fuel' name' (.ok src') = some .crash) ∧
    (∀ out, Cli.main E a k' fuel name' (.ok src') = some (.exit ⟨0, out, none⟩) →
      ∃ N C, ∀ n c, N ≤ n → C ≤ c → ∃ fuel', Cli.main E (a.withStacks n c) k fuel' name (.ok src) = some (.exit ⟨0, out, none⟩)) ∧
    (∀ out e sp, Cli.main E a k' fuel name' (.ok src') = some (.exit ⟨1, out, some (.error e sp)⟩) → e ≠ .overflow .stackOverflow →
      ∃ before trace N C, out = before ++ "Traceback (most recent call last):\n".toList ++ trace ∧ ∀ n c, N ≤ n → C ≤ c → ∃ fuel' trace' sp',
        Cli.main E (a.withStacks n c) k fuel' name (.ok src) =
          some (.exit ⟨1, before ++ "Traceback (most recent call last):\n".toList ++ trace', some (.error e sp')⟩)) ∧
    (Cli.main E a k' fuel name' (.ok src') = some .crash →
      ∃ N C, ∀ n c, N ≤ n → C ≤ c → ∃ fuel', Cli.main E (a.withStacks n c) k fuel' name (.ok src) = some .crash) :=
  transfer_both h.one h.two h.outcome ha hcmp hret fuel

/-! ## Some parts with the same meaning -/

/-- A condition that is known. -/
theorem C101_if_true (sp sp' sp'' : Span) (b : List Node) (o : Option (List Node)) : (Node.cond sp (.lit sp' (.bool true)) b o).Equiv (.block sp'' b) := by
  refine ⟨rfl, rfl, fun D S call W env => ?_⟩
  simp only [evalNode]
  rfl

theorem C101_if_false (sp sp' sp'' : Span) (b e : List Node) : (Node.cond sp (.lit sp' (.bool false)) b (some e)).Equiv (.block sp'' e) := by
  refine ⟨rfl, rfl, fun D S call W env => ?_⟩
  simp only [evalNode]
  rfl

/-- A block with one expression. -/
theorem C101_block (sp : Span) {e : Node} (h : e.isStatement = false) : (Node.block sp [e]).Equiv e := by
  refine ⟨rfl, h, fun D S call W env => ?_⟩
  simp only [evalNode, evalStmts, h]
  rfl

/-- An operator applied to literals, if the result is the same literal in all configurations and with all limits. -/
theorem C101_fold (sp sp1 sp2 sp3 : Span) (op : Op) (l l1 l2 : Literal) (he : op ≠ .eq) (hn : op ≠ .neq)
    (h : ∀ cfg lim, Val.binary cfg lim (fun (_ _ : SClos) => none) op l1.toVal l2.toVal = .ok l.toVal) : (Node.bin sp op (.lit sp1 l1) (.lit sp2 l2)).Equiv (.lit sp3 l) := by
  refine ⟨rfl, rfl, fun D S call W env => ?_⟩
  have h := h S.cfg S.lim
  simp only [evalNode]
  show evalBin S op sp l1.toVal l2.toVal = _
  unfold evalBin
  split
  · exact absurd rfl he
  · exact absurd rfl hn
  · rw [h]; rfl

private theorem stmts_then {D : Type} (S : SHost D) (call : SClos → List SVal → SM D SVal) (W : Nat) {n : Node} {ns ms : List Node}
    (hn : ns ≠ []) (hm : ms ≠ []) (h : ∀ env, evalStmts S call W ns env = evalStmts S call W ms env) (env : SEnv) :
    evalStmts S call W (n :: ns) env = evalStmts S call W (n :: ms) env := by
  match ns, ms, hn, hm with
  | _ :: _, _ :: _, _, _ =>
    simp only [evalStmts, h]

/-- What comes after a `return` in a block is never run. -/
theorem C101_after_return (sp : Span) (o : Option Node) (pre post : List Node) : EquivB (pre ++ .ret sp o :: post) (pre ++ [.ret sp o]) := by
  intro D S call W
  induction pre with
  | nil =>
    intro env
    cases post with
    | nil => rfl
    | cons p ps =>
      have e : ∀ {α β : Type} (x : SM D SVal) (f g : SEnv → SM D β), ((do let v ← x; (SM.ret v : SM D SEnv)) >>= f) = ((do let v ← x; (SM.ret v : SM D SEnv)) >>= g) := by
        intro α β x f g
        funext σ
        show SM.bind (SM.bind x _) f σ = SM.bind (SM.bind x _) g σ
        unfold SM.bind
        generalize x σ = r
        obtain ⟨o, τ⟩ := r
        cases o <;> rfl
      show evalStmts S call W (.ret sp o :: p :: ps) env = evalStmts S call W [.ret sp o] env
      simp only [evalStmts, evalStmt]
      exact e (α := SVal) _ _ _
  | cons n ns ih => exact stmts_then S call W (by simp) (by simp) ih

/-- A literal that is not the last statement of a block does nothing. -/
theorem C101_literal (sp : Span) (l : Literal) (n : Node) (ns : List Node) : EquivB (.lit sp l :: n :: ns) (n :: ns) := by
  intro D S call W env
  rw [evalStmts]
  rfl

/-- A condition that is false, without `else`. -/
theorem C101_if_none (sp sp' sp'' : Span) (b : List Node) : (Node.cond sp (.lit sp' (.bool false)) b none).Equiv (.lit sp'' .none) := by
  refine ⟨rfl, rfl, fun D S call W env => ?_⟩
  simp only [evalNode]
  rfl

/-- A block at the end of a block: nothing follows that could see its variables. -/
theorem C101_last_block (sp : Span) (pre b : List Node) (hb : b ≠ []) : EquivB (pre ++ [.block sp b]) (pre ++ b) := by
  intro D S call W
  induction pre with
  | nil =>
    intro env
    show evalStmts S call W [.block sp b] env = _
    rw [evalStmts]
    simp only [evalNode]
    rfl
  | cons n ns ih => exact stmts_then S call W (by simp) (by simp [hb]) ih

/-- An operator applied to a literal, if the result is the same literal in all configurations. -/
theorem C101_fold_unary (sp sp1 sp2 : Span) (op : Op) (l l1 : Literal) (h : ∀ cfg, Val.unary cfg op (l1.toVal : SVal) = .ok l.toVal) :
    (Node.un sp op (.lit sp1 l1)).Equiv (.lit sp2 l) := by
  refine ⟨rfl, rfl, fun D S call W env => ?_⟩
  simp only [evalNode]
  show SM.lift (Val.unary S.cfg op (l1.toVal : SVal)) sp = _
  rw [h]
  rfl

private theorem bind_eq {D α β : Type} (x : SM D α) (f : α → SM D β) (σ : SSt D) : (x >>= f) σ = SM.bind x f σ := rfl

/-- `not a == b` is `a != b`: the operands are computed and compared in the same way. -/
theorem C101_not_eq (sp sp1 sp2 : Span) (a b : Node) : (Node.un sp .not (.bin sp1 .eq a b)).Equiv (.bin sp2 .neq a b) := by
  refine ⟨rfl, rfl, fun D S call W env => ?_⟩
  simp only [evalNode, evalBin]
  generalize evalNode S call W a env = x
  generalize evalNode S call W b env = y
  funext σ
  simp only [bind_eq, SM.bind]
  generalize x σ = r
  obtain ⟨o, τ⟩ := r
  cases o with
  | ok u =>
    simp only
    generalize y τ = r
    obtain ⟨o, τ⟩ := r
    cases o with
    | ok v =>
      simp only
      generalize eqVals S.cfg.F u v τ = r
      obtain ⟨o, τ⟩ := r
      cases o <;> rfl
    | _ => rfl
  | _ => rfl

/-- `if a != b` is `if a == b` with the branches exchanged. -/
theorem C101_if_neq (sp sp1 sp' sp1' : Span) (a b : Node) (t e : List Node) :
    (Node.cond sp (.bin sp1 .neq a b) t (some e)).Equiv (.cond sp' (.bin sp1' .eq a b) e (some t)) := by
  refine ⟨rfl, rfl, fun D S call W env => ?_⟩
  simp only [evalNode, evalBin, evalOpt]
  generalize evalNode S call W a env = x
  generalize evalNode S call W b env = y
  funext σ
  simp only [bind_eq, SM.bind]
  generalize x σ = r
  obtain ⟨o, τ⟩ := r
  cases o with
  | ok u =>
    simp only
    generalize y τ = r
    obtain ⟨o, τ⟩ := r
    cases o with
    | ok v =>
      simp only
      generalize eqVals S.cfg.F u v τ = r
      obtain ⟨o, τ⟩ := r
      cases o with
      | ok q => cases q <;> rfl
      | _ => rfl
    | _ => rfl
  | _ => rfl

/-- A `switch` with one case is an `if` with `==`, with or without `else`. -/
theorem C101_switch_one (sp sp' sp1 : Span) (a c : Node) (b : List Node) (e : Option (List Node)) :
    (Node.switch sp a [(c, b)] e).Equiv (.cond sp' (.bin sp1 .eq a c) b e) := by
  refine ⟨rfl, rfl, fun D S call W env => ?_⟩
  simp only [evalNode, evalBin, evalCases]
  generalize evalNode S call W a env = x
  generalize evalNode S call W c env = y
  funext σ
  simp only [bind_eq, SM.bind]
  generalize x σ = r
  obtain ⟨o, τ⟩ := r
  cases o with
  | ok u =>
    simp only
    generalize y τ = r
    obtain ⟨o, τ⟩ := r
    cases o with
    | ok v =>
      simp only
      generalize eqVals S.cfg.F u v τ = r
      obtain ⟨o, τ⟩ := r
      cases o with
      | ok q => cases q <;> rfl
      | _ => rfl
    | _ => rfl
  | _ => rfl

/-- Replacements can be undone and combined. -/
theorem C101_equiv {a b c : Node} : a.Equiv a = (a.isStatement = false) ∧ (a.Equiv b → b.Equiv a) ∧ (a.Equiv b → b.Equiv c → a.Equiv c) :=
  ⟨propext ⟨fun h => h.1, fun h => ⟨h, h, fun _ _ _ _ _ => rfl⟩⟩, fun h => ⟨h.2.1, h.1, fun D S call W env => (h.2.2 D S call W env).symm⟩,
    fun h h' => ⟨h.1, h'.2.1, fun D S call W env => (h.2.2 D S call W env).trans (h'.2.2 D S call W env)⟩⟩

/-! ## Concrete programs -/

private def z : Span := Span.default

private theorem sum_lit (i j : BitVec 64) (sp sp1 sp2 sp3 : Span) (h : -2 ^ 63 ≤ i.toInt + j.toInt ∧ i.toInt + j.toInt < 2 ^ 63) :
    (Node.bin sp .add (.lit sp1 (.int i)) (.lit sp2 (.int j))).Equiv (.lit sp3 (.int (BitVec.ofInt 64 (i.toInt + j.toInt)))) :=
  C101_fold _ _ _ _ _ _ _ _ (by simp) (by simp) fun cfg lim => by
    show wrapI cfg.chk (i.toInt + j.toInt) = _
    unfold wrapI
    rw [if_pos h]
    rfl

/-- A choice that is known, of a sum that is known. -/
private theorem choice (e : List Node) {s1 s2 s3 s4 s5 s6 : Span} :
    (Node.cond s1 (.lit s2 (.bool true)) [.bin s3 .add (.lit s4 (.int 1)) (.lit s5 (.int 1))] (some e)).Cong (.lit s6 (.int 2)) :=
  ⟨z, .lit z (.bool true), [.lit s6 (.int 2)], some e,
    .inr ((C101_equiv (c := .lit s6 (.int 2))).2.2 (C101_if_true z z z _ _) (C101_block z rfl)),
    ⟨z, .rfl'⟩, ⟨[.lit s6 (.int 2)], ⟨_, _, rfl, ⟨z, _, _, .inr (sum_lit 1 1 z z z s6 (by decide)), ⟨z, .rfl'⟩, ⟨z, .rfl'⟩⟩, rfl⟩, .rfl'⟩, CongO.refl _⟩

/-- `fn f(x) { return x + 1  5  f }  f(if true { 1 + 1 } else { none })`. -/
private def demoWordy : List Node :=
  [.func z ("f", z) [("x", z)] [.ret z (some (.bin z .add (.ident z "x") (.lit z (.int 1)))), .lit z (.int 5), .ident z "f"],
   .call z (.ident z "f") [.cond z (.lit z (.bool true)) [.bin z .add (.lit z (.int 1)) (.lit z (.int 1))] (some [.lit z .none])]]

/-- `demoProg` (C20) is this program after four replacements; both run, with value 3. -/
example : CongL demoWordy demoProg ∧ (∃ script, Runs demoSetup 7 demoWordy demoS demoσ (Machine.new demoSetup 7 script)) ∧
    (∃ script, Runs demoSetup 7 demoProg demoS demoσ (Machine.new demoSetup 7 script)) ∧
    (evalProgram demoS 5 demoWordy demoσ).1 = .ok (.int 3) ∧ (evalProgram demoS 5 demoProg demoσ).1 = .ok (.int 3) :=
  ⟨⟨_, _, rfl, ⟨_, _, _, _, rfl, rfl, rfl, _, CongL.refl _, C101_after_return z _ [] _⟩, _, _, rfl,
      ⟨z, .ident z "f", [.lit z (.int 2)], .rfl', Node.Cong.refl _, _, _, rfl, choice _, rfl⟩, rfl⟩,
    demo_runs _ (by decide +kernel) (by decide +kernel) (by decide +kernel), demo_runs _ (by decide +kernel) (by decide +kernel) (by decide +kernel), rfl, rfl⟩

/-- `if not true { 5 }` is the value none. -/
example : (Node.cond z (.un z .not (.lit z (.bool true))) [.lit z (.int 5)] none).Cong (.lit z .none) :=
  ⟨z, .lit z (.bool false), [.lit z (.int 5)], none, .inr (C101_if_none z z z _),
    ⟨z, .lit z (.bool true), .inr (C101_fold_unary z z z .not (.bool false) (.bool true) fun _ => rfl), Node.Cong.refl _⟩, ⟨_, CongL.refl _, .rfl'⟩, rfl⟩

/-- `let x = 1  { let x = 2  x }` at the end of a block. A block in the middle may not be opened: `{ let x = 2  x }  x` has value 1 where `x` is 1, but `let x = 2  x  x` has value 2. -/
example : EquivB [.decl z (.one ("x", z)) (.lit z (.int 1)), .block z [.decl z (.one ("x", z)) (.lit z (.int 2)), .ident z "x"]]
      [.decl z (.one ("x", z)) (.lit z (.int 1)), .decl z (.one ("x", z)) (.lit z (.int 2)), .ident z "x"] ∧
    (evalStmts demoS (fun _ _ => SM.ret .none) 0 [.decl z (.one ("x", z)) (.lit z (.int 1)), .block z [.decl z (.one ("x", z)) (.lit z (.int 2)), .ident z "x"], .ident z "x"] [] demoσ).1 = .ok (.int 1) ∧
    (evalStmts demoS (fun _ _ => SM.ret .none) 0 [.decl z (.one ("x", z)) (.lit z (.int 1)), .decl z (.one ("x", z)) (.lit z (.int 2)), .ident z "x", .ident z "x"] [] demoσ).1 = .ok (.int 2) :=
  ⟨C101_last_block z [_] _ (by simp), rfl, rfl⟩

/-- `switch f { 1 => not f == 2 }` is `if f == 1 { f != 2 }`. -/
example : (Node.switch z (.ident z "f") [(.lit z (.int 1), [.un z .not (.bin z .eq (.ident z "f") (.lit z (.int 2)))])] none).Cong
    (.cond z (.bin z .eq (.ident z "f") (.lit z (.int 1))) [.bin z .neq (.ident z "f") (.lit z (.int 2))] none) :=
  ⟨z, .ident z "f", [(.lit z (.int 1), [.bin z .neq (.ident z "f") (.lit z (.int 2))])], none, .inr (C101_switch_one z z z _ _ _ _), Node.Cong.refl _,
    ⟨_, _, _, rfl, Node.Cong.refl _, ⟨_, ⟨_, _, rfl, ⟨z, .bin z .eq (.ident z "f") (.lit z (.int 2)), .inr (C101_not_eq z z z _ _), Node.Cong.refl _⟩, rfl⟩, .rfl'⟩, rfl⟩, rfl⟩

/-- `1` and `2` do not have the same meaning, nor does `x` have the meaning of a literal though it may have its value in one place. -/
example : ¬ (Node.lit z (.int 1)).Equiv (.lit z (.int 2)) ∧ ¬ (Node.ident z "x").Equiv (.lit z (.int 2)) := by
  refine ⟨fun h => ?_, fun h => ?_⟩
  · have := congrFun (h.2.2 Int demoS (fun _ _ => SM.ret .none) 0 []) demoσ
    simp only [evalNode] at this
    have := congrArg Prod.fst this
    cases this
  · have := congrFun (h.2.2 Int demoS (fun _ _ => SM.ret .none) 0 []) demoσ
    have e : (match (evalNode demoS (fun _ _ => SM.ret .none) 0 (.ident z "x") [] demoσ).1 with | .ok _ => false | _ => true) = true := rfl
    rw [this] at e
    cases e

private def outOf (T : List Char) : Option (Nat × String) :=
  match main Check.env cliArgs 9 1000 "main" (.ok T) with
  | some (.exit e) => some (e.status, String.ofList e.out)
  | _ => none

private def readWith (T : List Char) : List Node :=
  match parseWithIncludes Check.env.W 9 "main" T ⟨[], []⟩ with
  | (.ok ast, _) => ast
  | _ => []

private def fileOk (T : List Char) : Bool :=
  match parseWithIncludes Check.env.W 9 "main" T ⟨[], []⟩ with
  | (.ok ast, _) => ast.all Node.placedTop && decide (sizeL ast ≤ 65535) &&
    (match compile Check.env.cfg ast with
    | .ok script => decide ((machine Check.env cliArgs script).host.syms.entries.length ≤ 65536)
    | _ => false)
  | _ => false

private theorem fileOk_main {T : List Char} (h : fileOk T = true) : ∃ script, MainFile Check.env cliArgs 9 "main" T (readWith T) script := by
  unfold fileOk at h
  unfold readWith
  split at h
  · rename_i ast c' hp
    simp only [Bool.and_eq_true, decide_eq_true_eq] at h
    obtain ⟨⟨h1, h2⟩, h3⟩ := h
    split at h3
    · rename_i script hc
      exact ⟨script, by rw [hp], hc, List.all_eq_true.1 h1, h2, of_decide_eq_true h3⟩
    · simp at h3
  · simp at h

private def long : List Char := "let x = if true { 1 + 1 } else { 5 }\n@print(x)\nx".toList
private def short : List Char := "let x = 2\n@print(x)\nx".toList

private def isLong : List Node → Bool
  | [.decl _ (.one (x, _)) (.cond _ (.lit _ (.bool true)) [.bin _ .add (.lit _ (.int i)) (.lit _ (.int j))] (some [.lit _ (.int _)])), .builtin _ (p, _) [.ident _ y], .ident _ w] =>
    decide (x = "x" ∧ y = "x" ∧ w = "x" ∧ p = "print" ∧ i = 1 ∧ j = 1)
  | _ => false

private def isShort : List Node → Bool
  | [.decl _ (.one (x, _)) (.lit _ (.int i)), .builtin _ (p, _) [.ident _ y], .ident _ w] => decide (x = "x" ∧ y = "x" ∧ w = "x" ∧ p = "print" ∧ i = 2)
  | _ => false

private theorem long_short {l l' : List Node} (h : isLong l = true) (h' : isShort l' = true) : CongL l l' := by
  unfold isLong at h
  split at h
  · obtain ⟨rfl, rfl, rfl, rfl, rfl, rfl⟩ := of_decide_eq_true h
    unfold isShort at h'
    split at h'
    · obtain ⟨rfl, rfl, rfl, rfl, rfl⟩ := of_decide_eq_true h'
      exact ⟨_, _, rfl, ⟨_, _, _, rfl, trivial, rfl, choice _⟩, _, _, rfl, ⟨_, _, _, .rfl', rfl, _, _, rfl, ⟨_, .rfl'⟩, rfl⟩, _, _, rfl, ⟨_, .rfl'⟩, rfl⟩
    · cases h'
  · cases h

private theorem long_short_files {T T' : List Char} (h : fileOk T = true) (h' : fileOk T' = true) (hl : isLong (inPlaceL (readWith T)) = true)
    (hs : isShort (inPlaceL (readWith T')) = true) : ∃ script script', Replaced Check.env cliArgs 9 9 "main" "main" T T' (readWith T) (readWith T') script script' := by
  obtain ⟨s, h⟩ := fileOk_main h
  obtain ⟨s', h'⟩ := fileOk_main h'
  exact ⟨s, s', h, h', long_short hl hs⟩

/-- Two files to which `C101_command` applies. -/
example : (∃ script script', Replaced Check.env cliArgs 9 9 "main" "main" long short (readWith long) (readWith short) script script') ∧
    outOf long = some (0, "2 RETURNED: 2\n") ∧ outOf short = some (0, "2 RETURNED: 2\n") := by
  have h1 : fileOk long = true := by decide +kernel
  have h2 : fileOk short = true := by decide +kernel
  have h3 : isLong (inPlaceL (readWith long)) = true := by decide +kernel
  have h4 : isShort (inPlaceL (readWith short)) = true := by decide +kernel
  exact ⟨long_short_files h1 h2 h3 h4, by decide +kernel, by decide +kernel⟩

end Quilt.Props
