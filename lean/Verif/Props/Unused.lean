import Verif.Sem.Unused
import Verif.Props.Splice
import Verif.Props.CompileErrors

/-!
# Definitions that nothing uses can be left out: C97

`dropIdle U` (`Verif/Sem/Unused.lean`) leaves out the definitions of functions and constants with names in `U`; `Avoids U` says that none
of the nodes reads, assigns, or declares as external a variable with a name in `U`.
-/

namespace Quilt.Props

open Lib Peg Cli

section Semantics

variable {D : Type} {M : Machine.Setup D} {data : D} {ast ast' : List Node} {S : SHost D} {σ : SSt D} {m m' : Machine D} {U : String → Bool}

/-- Prepared machines start without functions. -/
private theorem Prepared.keep {script : Script} (h : Prepared M data script S σ m) : StKeep U σ σ := by
  have hg : ∀ {σ : SSt D} {x : String} {v : SVal} {w : VVal}, StKeep U σ σ → PlainVal v w → StKeep U { σ with globals := updName σ.globals x (some v) } { σ with globals := updName σ.globals x (some v) } := by
    intro σ x v w hs hv
    refine ⟨hs.store, rfl, fun y hy => ?_, rfl, rfl⟩
    show Val.RelO (CKeep U) (updName σ.globals x (some v) y) (updName σ.globals x (some v) y)
    unfold updName
    split
    · exact Val.Rel.comp (fun _ _ _ h => h.elim) (Val.Rel.swap hv) (Val.Rel.swap hv)
    · exact hs.globals y hy
  induction h with
  | new => exact ⟨fun _ => trivial, rfl, fun _ _ => trivial, rfl, rfl⟩
  | builtin _ _ _ ih => exact ih
  | global _ _ hv ih => exact hg ih hv
  | external _ _ hv _ ih => exact hg ih hv

/-- Evaluation with and without unused definitions. -/
theorem keep_lockstep (h : Runs M data ast S σ m) {ast' : List Node} (he : ∃ ns n, ast' = ns ++ [n] ∧ n.isStatement = false)
    (hu : Avoids U (subsL (dropIdle U ast'))) (k : Nat) :
    Out.Keep U (VKeep U) (evalProgram S k ast' σ).1 (evalProgram S k (dropIdle U ast') σ).1 ∧ StKeep U (evalProgram S k ast' σ).2 (evalProgram S k (dropIdle U ast') σ).2 := by
  obtain ⟨script, _, h2⟩ := h.prepared
  obtain ⟨ns, n, rfl, hn⟩ := he
  exact evalProgram_keep h2.alpha.1 k hn hu σ σ (Prepared.keep h2)

private theorem Keep.eq {o o' : Out SVal} (h : Out.Keep U (VKeep U) o o') : o = o' := by
  cases o <;> cases o' <;> first
    | exact h.elim
    | rfl
    | exact congrArg Out.ok (OnlyR.eq _ _ h)
    | exact congrArg Out.ret (OnlyR.eq _ _ h)
    | (obtain ⟨rfl, rfl⟩ := h; rfl)
    | exact congrArg Out.unspec h

/-- A program, and the same program without definitions that the rest does not use, have the same outcome: the same value, the same error at the same
place, the same effects, and in the end the same variables and the same globals but for the ones left out. -/
theorem C97_semantics (h : Runs M data ast S σ m) (hu : Avoids U (subsL (dropIdle U ast))) (k : Nat) :
    (evalProgram S k (dropIdle U ast) σ).1 = (evalProgram S k ast σ).1 ∧ (evalProgram S k (dropIdle U ast) σ).2.data = (evalProgram S k ast σ).2.data ∧
    (evalProgram S k (dropIdle U ast) σ).2.exits = (evalProgram S k ast σ).2.exits ∧
    (∀ l, (evalProgram S k (dropIdle U ast) σ).2.store l = (evalProgram S k ast σ).2.store l) ∧
    (∀ x, U x = false → (evalProgram S k (dropIdle U ast) σ).2.globals x = (evalProgram S k ast σ).2.globals x) := by
  obtain ⟨h1, h2⟩ := keep_lockstep h (wfProgram_last h.wf) hu k
  refine ⟨(Keep.eq h1).symm, h2.data.symm, h2.exits.symm, fun l => (OnlyR.eq _ _ (h2.store l)).symm, fun x hx => ?_⟩
  have := h2.globals x hx
  revert this
  cases (evalProgram S k ast σ).2.globals x <;> cases (evalProgram S k (dropIdle U ast) σ).2.globals x <;> intro h <;>
    first | exact h.elim | rfl | exact congrArg some (OnlyR.eq _ _ h).symm

private theorem drop_within : ∀ ast : List Node, withinL true ast = true → withinL true (dropIdle U ast) = true
  | [], _ => rfl
  | n :: ns, h => by
    rw [withinL, Bool.and_eq_true] at h
    unfold dropIdle
    rw [List.filter_cons]
    split
    · rw [withinL, Bool.and_eq_true]; exact ⟨h.1, drop_within ns h.2⟩
    · exact drop_within ns h.2

private theorem drop_externs : ∀ ast : List Node, (externsL (dropIdle U ast)).Sublist (externsL ast)
  | [] => .slnil
  | n :: ns => by
    unfold dropIdle
    rw [List.filter_cons]
    split
    · rw [externsL, externsL]; exact (List.Sublist.refl _).append (drop_externs ns)
    · rw [externsL]; exact (drop_externs ns).trans (List.sublist_append_right _ _)

private theorem drop_ops (chk : Bool) : ∀ ast : List Node, opsOkL chk ast = true → opsOkL chk (dropIdle U ast) = true
  | [], _ => rfl
  | n :: ns, h => by
    rw [opsOkL, opsL, Bool.and_eq_true] at h
    unfold dropIdle
    rw [List.filter_cons]
    split
    · rw [opsOkL, opsL, Bool.and_eq_true]; exact ⟨h.1, drop_ops chk ns h.2⟩
    · exact drop_ops chk ns h.2

private theorem drop_size : ∀ ast : List Node, sizeL (dropIdle U ast) ≤ sizeL ast
  | [] => Nat.le_refl _
  | n :: ns => by
    have ih := drop_size ns
    unfold dropIdle at ih ⊢
    rw [List.filter_cons]
    split
    · rw [sizeL, sizeL]; omega
    · rw [sizeL]; omega

/-- What is left of a program that the compiler accepts is accepted: whatever is left out, and for programs of size up to 8191, in which no construct is too large to be jumped
over. The operators are those that do not crash the compiler (C58). -/
theorem C97_accepts {cfg : Cfg} {script : Script} (U : String → Bool) (h : compile cfg ast = .ok script) (ho : opsOkL cfg.chk ast = true) (hs : sizeL ast ≤ 8191) :
    ∃ script', compile cfg (dropIdle U ast) = .ok script' := by
  obtain ⟨h1, h2⟩ := compile_accepts h
  have h1 := drop_within (U := U) ast h1
  have h2 := h2.sublist (drop_externs (U := U) ast)
  have hs := Nat.le_trans (drop_size (U := U) ast) hs
  refine (C83_exact (drop_ops cfg.chk ast ho) hs).2 fun e sp hf => ?_
  rcases hf with ⟨p, hp, hf⟩ | ⟨x, pre, post, rfl, he, hx⟩
  · have hc := clean_list _ true h1 p hp
    have := hf.large (hc.1 e sp hf)
    have := hc.2
    omega
  · rw [externsL_sites] at h2
    unfold places at he
    rw [he, List.map_append, List.nodup_append] at h2
    exact absurd rfl (h2.2.2 x hx x (by simp))

/-- The same global variables but for those of `U`, found through the two symbol tables. -/
def AlikeOff (U : String → Bool) (P P' : Pool String) (s s' : VM D) : Prop :=
  ∀ (i j : Nat) x, U x = false → P.get i = some x → P'.get j = some x → Val.RelO AlikeFn (s.globals i) (s'.globals j)

/-- The same result: value or error, data, and globals but for those of `U`. -/
def SameOff (U : String → Bool) (P P' : Pool String) : StepR D → StepR D → Prop
  | .done w s, .done w' s' => SameUpToCode w w' ∧ s.data = s'.data ∧ AlikeOff U P P' s s'
  | .err e _ s, .err e' _ s' => e = e' ∧ s.data = s'.data ∧ AlikeOff U P P' s s'
  | .panic, .panic => True
  | _, _ => False

private theorem alike {v v' : SVal} {w w' : VVal} (h : VKeep U v v') (h1 : SameVal v w) (h2 : SameVal v' w') : SameUpToCode w w' := by
  obtain rfl := OnlyR.eq _ _ h
  exact Val.Rel.comp (fun _ _ _ (h : SameFn _ _) (h1 : SameFn _ _) => ⟨h.1.trans h1.1.symm, h.2.trans h1.2.symm⟩) h1 h2

private theorem alikeGlobals {P P' : Pool String} {σ σ' : SSt D} {s s' : VM D} (h : StKeep U σ σ') (h1 : SameGlobals P σ s) (h2 : SameGlobals P' σ' s') :
    AlikeOff U P P' s s' := by
  intro i j x hx hi hj
  have a := h.globals x hx
  have b := h1 i x hi
  have c := h2 j x hj
  generalize σ.globals x = o at a b
  generalize σ'.globals x = o' at a c
  generalize s.globals i = q at b ⊢
  generalize s'.globals j = q' at c ⊢
  cases o <;> cases o' <;> simp only [Val.RelO] at a <;> cases q <;> simp only [Val.RelO] at b <;> cases q' <;> simp only [Val.RelO] at c ⊢
  exact alike a b c

private theorem VKeep.symm {v w : SVal} (h : VKeep U v w) : VKeep U w v := by
  obtain rfl := OnlyR.eq _ _ h
  exact h

private theorem StKeep.symm {σ σ' : SSt D} (h : StKeep U σ σ') : StKeep U σ' σ := by
  refine ⟨fun l => VKeep.symm (h.store l), h.next.symm, fun x hx => ?_, h.data.symm, h.exits.symm⟩
  have := h.globals x hx
  revert this
  cases σ.globals x <;> cases σ'.globals x <;> intro h <;> first | exact h | exact VKeep.symm h

/-- From evaluation to runs. -/
theorem keep_carry (h : Runs M data ast S σ m) (h' : Runs M data ast' S σ m')
    (hk : ∀ k, Out.Keep U (VKeep U) (evalProgram S k ast σ).1 (evalProgram S k ast' σ).1 ∧ StKeep U (evalProgram S k ast σ).2 (evalProgram S k ast' σ).2)
    (hu : ∀ k b, (evalProgram S k ast σ).1 ≠ .unspec b) (hov : ∀ k sp, (evalProgram S k ast σ).1 ≠ .err (.overflow .stackOverflow) sp)
    (hret : M.cfg.chk = true → ∀ k v, (evalProgram S k ast σ).1 ≠ .ret v) (n c : Nat) (clock : Nat → Bool) (fuel : Nat) {res : StepR D}
    (hr : (m.withLimits n c).run clock fuel = some res) (hl : ¬ HitLimit res) :
    ∃ N C, ∀ n c, N ≤ n → C ≤ c → ∀ clock : Nat → Bool, (∀ t, clock t = false) →
      ∃ fuel res', (m'.withLimits n c).run clock fuel = some res' ∧ SameOff U m.host.syms m'.host.syms res res' := by
  by_cases hd : ∀ k, (evalProgram S k ast σ).1 = .timeout
  · rcases C22_diverges h hd n c clock fuel with h1 | ⟨_, _, h1⟩ | ⟨_, _, h1⟩ <;> rw [hr] at h1
    · cases h1
    · cases h1; exact absurd (.inl rfl) hl
    · cases h1; exact absurd (.inr rfl) hl
  · rw [Classical.not_forall] at hd
    obtain ⟨k, hk0⟩ := hd
    have e : ∀ {script S σ} {m : Machine D}, Prepared M data script S σ m → m.host.cfg = M.cfg := by
      intro script S σ m hp
      induction hp with
      | new => rfl
      | builtin _ _ _ ih => exact ih
      | global _ _ _ ih => exact ih
      | @external S σ m m' x v w _ _ hset ih =>
        unfold Machine.setExternal at hset
        split at hset
        · simp at hset
        · split at hset
          · simp only [Prod.mk.injEq, true_and] at hset; subst hset; exact ih
          · simp at hset
    have hcfg : m.host.cfg = M.cfg ∧ m'.host.cfg = M.cfg := by
      obtain ⟨_, _, a2⟩ := h.prepared
      obtain ⟨_, _, b2⟩ := h'.prepared
      exact ⟨e a2, e b2⟩
    obtain ⟨hA, hσ⟩ := hk k
    have ho := h.outcome k
    have ho' := h'.outcome k
    have hu := hu k
    have hov := hov k
    have hret := fun hc => hret hc k
    generalize evalProgram S k ast σ = r at hk0 hA hσ ho hu hov hret
    generalize evalProgram S k ast' σ = r' at hA hσ ho'
    obtain ⟨o, τ⟩ := r
    obtain ⟨o', τ'⟩ := r'
    obtain rfl : o = o' := Keep.eq hA
    rcases ho.run_any ⟨hk0, hu, hov⟩ (h.sp n) hr with ⟨_, _, h1⟩ | ⟨_, _, h1⟩ | h2
    · subst h1; exact absurd (.inr rfl) hl
    · subst h1; exact absurd (.inl rfl) hl
    · obtain ⟨N, C, hN⟩ := ho'.run_big ⟨hk0, hu, hov⟩
      refine ⟨N, C, fun n c hn hc clock hclk => ?_⟩
      obtain ⟨fuel, res', k1, k2⟩ := hN n c hn hc clock hclk
      refine ⟨fuel, res', k1, ?_⟩
      cases res with
      | done w s =>
        obtain ⟨v, e, a1, a2, a3, _⟩ := h2
        cases res' with
        | done w' s' =>
          obtain ⟨v', e', b1, b2, b3, _⟩ := k2
          have hv : VKeep U v v' := by
            rcases e with e | e <;> rcases e' with e' | e' <;> simp only at e e' <;> subst e <;> first | cases e' | skip
            · exact hA
            · exact hA
          exact ⟨alike hv a1 b1, a2.trans (hσ.data.trans b2.symm), alikeGlobals hσ a3 b3⟩
        | err => obtain ⟨_, e', _⟩ := k2; rcases e with e | e <;> simp only at e e' <;> subst e <;> cases e'
        | panic =>
          rcases k2 with e' | ⟨hc, v', e'⟩
          · rcases e with e | e <;> simp only at e e' <;> subst e <;> cases e'
          · exact absurd e' (hret (hcfg.2 ▸ hc) _)
        | next => exact k2.elim
      | err e sp s =>
        obtain ⟨sp', e1, _, a2, a3, _⟩ := h2
        simp only at e1; subst e1
        cases res' with
        | done => obtain ⟨v', e', _⟩ := k2; rcases e' with e' | e' <;> cases e'
        | err e2 sp2 s2 =>
          obtain ⟨sp3, e', _, b2, b3, _⟩ := k2
          cases e'
          exact ⟨rfl, a2.trans (hσ.data.trans b2.symm), alikeGlobals hσ a3 b3⟩
        | panic => rcases k2 with e' | ⟨hc, v', e'⟩ <;> cases e'
        | next => exact k2.elim
      | panic =>
        rcases h2 with e | ⟨hc, v, e⟩
        · simp only at e; subst e
          cases res' with
          | done => obtain ⟨v', e', _⟩ := k2; rcases e' with e' | e' <;> cases e'
          | err => obtain ⟨_, e', _⟩ := k2; cases e'
          | panic => trivial
          | next => exact k2.elim
        · exact absurd e (hret (hcfg.1 ▸ hc) v)
      | next => exact h2.elim

/-- Compiled and run: if one of the two programs ends without hitting a limit, then so does the other one, given large enough stacks and time, with
the same result. `hret`: with debug assertions, no `return` outside of functions (C20). -/
theorem C97_runs (h : Runs M data ast S σ m) (h' : Runs M data (dropIdle U ast) S σ m') (hu : Avoids U (subsL (dropIdle U ast))) (hb : ∀ k b, (evalProgram S k ast σ).1 ≠ .unspec b)
    (hov : ∀ k sp, (evalProgram S k ast σ).1 ≠ .err (.overflow .stackOverflow) sp) (hret : M.cfg.chk = true → ∀ k v, (evalProgram S k ast σ).1 ≠ .ret v)
    (n c : Nat) (clock : Nat → Bool) (fuel : Nat) {res : StepR D} (hl : ¬ HitLimit res) :
    ((m.withLimits n c).run clock fuel = some res → ∃ N C, ∀ n c, N ≤ n → C ≤ c → ∀ clock : Nat → Bool, (∀ t, clock t = false) →
      ∃ fuel res', (m'.withLimits n c).run clock fuel = some res' ∧ SameOff U m.host.syms m'.host.syms res res') ∧
    ((m'.withLimits n c).run clock fuel = some res → ∃ N C, ∀ n c, N ≤ n → C ≤ c → ∀ clock : Nat → Bool, (∀ t, clock t = false) →
      ∃ fuel res', (m.withLimits n c).run clock fuel = some res' ∧ SameOff U m'.host.syms m.host.syms res res') := by
  have hk := keep_lockstep h (wfProgram_last h.wf) hu
  have hq := fun k => (C97_semantics h hu k).1
  refine ⟨fun hr => keep_carry h h' hk hb hov hret n c clock fuel hr hl, fun hr => keep_carry h' h (fun k => ⟨?_, StKeep.symm (hk k).2⟩) (fun k => ?_) (fun k => ?_) (fun hc k => ?_) n c clock fuel hr hl⟩
  · have := (hk k).1
    have e := hq k
    rw [e] at this ⊢
    exact this
  all_goals rw [hq k]
  · exact hb k
  · exact hov k
  · exact hret hc k

end Semantics

/-! ## The command line program -/

variable {E : Cli.Env} {a : Cli.Args} {k k' : Nat} {name name' : String} {src src' : List Char} {ast ast' : List Node} {script script' : Script} {U : String → Bool}

/-- The files `src`, with includes, and `src'` are read as programs. The second one is, up to positions, the first one, with the statements of the included files written in place of
the includes and without the definitions of `U`, and it mentions no variable of `U`. -/
structure Trimmed (E : Cli.Env) (a : Cli.Args) (U : String → Bool) (k k' : Nat) (name name' : String) (src src' : List Char) (ast ast' : List Node) (script script' : Script) : Prop where
  main : MainFile E a k name src ast script
  rest : MainFile E a k' name' src' ast' script'
  same : stripL ast' = stripL (dropIdle U (inPlaceL ast))
  unused : Avoids U (subsL (dropIdle U (inPlaceL ast)))

private theorem inPlace_last {ast : List Node} (h : wfProgram ast = true) : ∃ ns n, inPlaceL ast = ns ++ [n] ∧ n.isStatement = false := by
  obtain ⟨ns, n, rfl, hn⟩ := wfProgram_last h
  exact ⟨inPlaceL ns, n, by rw [inPlaceL_append, inPlaceL, inPlaceL, Node.inPlace_expr hn]; rfl, hn⟩

theorem Trimmed.outcome (h : Trimmed E a U k k' name name' src src' ast ast' script script') (K : Nat) : SameOutcome (cliRun E a K ast) (cliRun E a K ast') := by
  have h1 : SameOutcome (cliRun E a K ast') (evalProgram (cliHost E a) K (dropIdle U (inPlaceL ast)) (startSt ⟨[], 0⟩)) := C71_semantics h.rest.runs (alphaProg_ofStrip ast' h.same) K
  have h2 := keep_lockstep h.main.runs (inPlace_last h.main.runs.wf) h.unused K
  rw [C93_semantics _ _ h.main.runs.wf] at h2
  have e : (evalProgram (cliHost E a) K (dropIdle U (inPlaceL ast)) (startSt ⟨[], 0⟩)).1 = (cliRun E a K ast).1 := (Keep.eq h2.1).symm
  have h1 := h1.symm
  generalize evalProgram (cliHost E a) K (dropIdle U (inPlaceL ast)) (startSt ⟨[], 0⟩) = x at h1 h2 e
  have hd : (cliRun E a K ast).2.data = x.2.data := h2.2.data
  generalize cliRun E a K ast = y at e hd ⊢
  obtain ⟨o, τ⟩ := x
  obtain ⟨o', τ'⟩ := y
  simp only at e hd
  subst e
  exact ⟨hd.trans h1.1, h1.2⟩

/-- Without a time limit, running a file, with its includes, and running what is left of the program without definitions that it does not use end in the same way, given enough of the
two stacks: with the same status and the same output, up to the traceback of an error, or with the same error, or with a crash. In both directions. -/
theorem C97_command (h : Trimmed E a U k k' name name' src src' ast ast' script script') (ha : a.maxRuntime = none)
    (hcmp : ∀ K, (cliRun E a K ast).1 ≠ .unspec true) (hret : E.cfg.chk = true → ∀ K v, (cliRun E a K ast).1 ≠ .ret v) (fuel : Nat) :
    (∀ out, Cli.main E a k fuel name (.ok src) = some (.exit ⟨0, out, none⟩) →
      ∃ N C, ∀ n c, N ≤ n → C ≤ c → ∃ fuel', Cli.main E (a.withStacks n c) k' fuel' name' (.ok src') = some (.exit ⟨0, out, none⟩)) ∧
    (∀ out e sp, Cli.main E a k fuel name (.ok src) = some (.exit ⟨1, out, some (.error e sp)⟩) → e ≠ .overflow .stackOverflow →
      ∃ before trace N C, out = before ++ "Traceback (most recent call last):\n".toList ++ trace ∧ ∀ n c, N ≤ n → C ≤ c → ∃ fuel' trace' sp',
        Cli.main E (a.withStacks n c) k' fuel' name' (.ok src') =
          some (.exit ⟨1, before ++ "Traceback (most recent call last):\n".toList ++ trace', some (.error e sp')⟩)) ∧
    (Cli.main E a k fuel name (.ok src) = some .crash →
      ∃ N C, ∀ n c, N ≤ n → C ≤ c → ∃ fuel', Cli.main E (a.withStacks n c) k' fuel' name' (.ok src') = some .crash) ∧
    (∀ out, Cli.main E a k' fuel name' (.ok src') = some (.exit ⟨0, out, none⟩) →
      ∃ N C, ∀ n c, N ≤ n → C ≤ c → ∃ fuel', Cli.main E (a.withStacks n c) k fuel' name (.ok src) = some (.exit ⟨0, out, none⟩)) ∧
    (∀ out e sp, Cli.main E a k' fuel name' (.ok src') = some (.exit ⟨1, out, some (.error e sp)⟩) → e ≠ .overflow .stackOverflow →
      ∃ before trace N C, out = before ++ "Traceback (most recent call last):\n".toList ++ trace ∧ ∀ n c, N ≤ n → C ≤ c → ∃ fuel' trace' sp',
        Cli.main E (a.withStacks n c) k fuel' name (.ok src) =
          some (.exit ⟨1, before ++ "Traceback (most recent call last):\n".toList ++ trace', some (.error e sp')⟩)) ∧
    (Cli.main E a k' fuel name' (.ok src') = some .crash →
      ∃ N C, ∀ n c, N ≤ n → C ≤ c → ∃ fuel', Cli.main E (a.withStacks n c) k fuel' name (.ok src) = some .crash) := by
  have back : ∀ {o : Out SVal} {K : Nat}, (cliRun E a K ast').1 = o → (∀ b, o = .unspec b → (cliRun E a K ast).1 = .unspec b) ∧ (∀ v, o = .ret v → ∃ w, (cliRun E a K ast).1 = .ret w) := by
    intro o K ho
    have hK := h.outcome K
    generalize cliRun E a K ast = x at hK
    generalize cliRun E a K ast' = y at hK ho
    obtain ⟨p, σ⟩ := x
    obtain ⟨q, τ⟩ := y
    simp only at ho
    subst ho
    have h4 := hK.2
    refine ⟨?_, ?_⟩
    · rintro b rfl
      cases p <;> first | exact h4.elim | exact congrArg Out.unspec h4
    · rintro v rfl
      cases p <;> first | exact h4.elim | exact ⟨_, rfl⟩
  obtain ⟨a1, a2, a3⟩ := transfer h.main h.rest h.outcome ha hcmp hret fuel
  obtain ⟨b1, b2, b3⟩ := transfer h.rest h.main (fun K => (h.outcome K).symm) ha (fun K hu => hcmp K ((back hu).1 true rfl))
    (fun hc K v hu => by obtain ⟨w, hw⟩ := (back hu).2 v rfl; exact hret hc K w hw) fuel
  exact ⟨a1, a2, a3, b1, b2, b3⟩

/-! ## Concrete programs -/

private def z : Span := Span.default
private def spare (x : String) : Bool := x == "g" || x == "h" || x == "c"

private def avoids (U : String → Bool) (ns : List Node) : Bool :=
  ns.all fun n => match n.mentions with
    | some x => !U x
    | none => true

private theorem avoids_of {U : String → Bool} {ns : List Node} (h : avoids U ns = true) : Avoids U ns := by
  intro n hn x hx
  have := List.all_eq_true.1 h n hn
  simpa [hx] using this

/-- `fn g() { return h() }  fn h() { return g() }  let c = 7`, and then `demoProg` (C20). -/
private def demoSpare : List Node :=
  .func z ("g", z) [] [.ret z (some (.call z (.ident z "h") []))] :: .func z ("h", z) [] [.ret z (some (.call z (.ident z "g") []))] ::
  .decl z (.one ("c", z)) (.lit z (.int 7)) :: demoProg

/-- The functions that only use each other, and the constant, can be left out. -/
example : (∃ script, Runs demoSetup 7 demoSpare demoS demoσ (Machine.new demoSetup 7 script)) ∧ dropIdle spare demoSpare = demoProg ∧ Avoids spare (subsL demoProg) ∧
    (∃ script, Runs demoSetup 7 demoProg demoS demoσ (Machine.new demoSetup 7 script)) ∧ (evalProgram demoS 5 demoSpare demoσ).1 = .ok (.int 3) :=
  ⟨demo_runs demoSpare (by decide +kernel) (by decide +kernel) (by decide +kernel), rfl, avoids_of (by decide +kernel),
    demo_runs demoProg (by decide +kernel) (by decide +kernel) (by decide +kernel), rfl⟩

/-- Not so a function that is used: without it there is an error. -/
example : ¬ Avoids (· == "f") (subsL (dropIdle (· == "f") demoProg)) ∧ (evalProgram demoS 5 (dropIdle (· == "f") demoProg) demoσ).1 ≠ (evalProgram demoS 5 demoProg demoσ).1 := by
  refine ⟨fun h => ?_, ?_⟩
  · have := h (.ident _ "f") (by simp [dropIdle, demoProg, Node.idle, subsL, Node.subs]; rfl) "f" rfl
    simp at this
  · have e1 : (match (evalProgram demoS 5 demoProg demoσ).1 with | .ok _ => true | _ => false) = true := by decide +kernel
    have e2 : (match (evalProgram demoS 5 (dropIdle (· == "f") demoProg) demoσ).1 with | .ok _ => true | _ => false) = false := by decide +kernel
    intro e
    rw [e, e1] at e2
    cases e2

/-- Nor a declaration whose value has to be computed: that may fail or print. -/
example : (Node.decl z (.one ("c", z)) (.builtin z ("print", z) [])).idle spare = false ∧ (Node.decl z (.one ("c", z)) (.bin z .div (.lit z (.int 1)) (.lit z (.int 0)))).idle spare = false :=
  ⟨rfl, rfl⟩

/-- A library with functions and a constant that the program does not use. -/
private def spareEnv : Cli.Env :=
  { Check.env with W := ⟨fun x => if x == "lib.ql" then some "fn g() { h() }\nfn h() { g() }\nlet b = 2\nlet c = 7".toList else none, fun _ => 0⟩ }

private def outOf (T : List Char) : Option (Nat × String) :=
  match main spareEnv cliArgs 9 1000 "main" (.ok T) with
  | some (.exit e) => some (e.status, String.ofList e.out)
  | _ => none

private def readWith (T : List Char) : List Node :=
  match parseWithIncludes spareEnv.W 9 "main" T ⟨[], []⟩ with
  | (.ok ast, _) => ast
  | _ => []

private def fileOk (T : List Char) : Bool :=
  match parseWithIncludes spareEnv.W 9 "main" T ⟨[], []⟩ with
  | (.ok ast, _) => ast.all Node.placedTop && decide (sizeL ast ≤ 65535) &&
    (match compile spareEnv.cfg ast with
    | .ok script => decide ((machine spareEnv cliArgs script).host.syms.entries.length ≤ 65536)
    | _ => false)
  | _ => false

private theorem fileOk_main {T : List Char} (h : fileOk T = true) : ∃ script, MainFile spareEnv cliArgs 9 "main" T (readWith T) script := by
  unfold fileOk at h
  unfold readWith
  split at h
  · rename_i ast c' hp
    simp only [Bool.and_eq_true, decide_eq_true_eq] at h
    obtain ⟨⟨h1, h2⟩, h3⟩ := h
    split at h3
    · rename_i script hc
      exact ⟨script, by rw [hp], hc, List.all_eq_true.1 h1, h2, of_decide_eq_true h3⟩
    · simp at h3
  · simp at h

private def usesLib : List Char := "include \"lib.ql\"\n@print(b)\nb".toList
private def needed : List Char := "let b = 2\n@print(b)\nb".toList

private def whole : List Node :=
  [.decl z (.one ("b", z)) (.lit z (.int 2)), .builtin z ("print", z) [.ident z "b"], .ident z "b"]

private def isWhole : List Node → Bool
  | [.decl s (.one (x, s1)) (.lit s2 (.int i)), .builtin s3 (y, s4) [.ident s5 x'], .ident s6 x''] =>
    decide (s = z ∧ s1 = z ∧ s2 = z ∧ s3 = z ∧ s4 = z ∧ s5 = z ∧ s6 = z ∧ x = "b" ∧ x' = "b" ∧ x'' = "b" ∧ y = "print" ∧ i = 2)
  | _ => false

private theorem isWhole_eq {l : List Node} (h : isWhole l = true) : l = whole := by
  unfold isWhole at h
  split at h
  · obtain ⟨rfl, rfl, rfl, rfl, rfl, rfl, rfl, rfl, rfl, rfl, rfl, rfl⟩ := of_decide_eq_true h
    rfl
  · cases h

/-- A file that uses a part of a library, and a file with just this part: `C97_command` applies, and both print `2` and then the value 2. -/
example : (∃ script script', Trimmed spareEnv cliArgs spare 9 9 "main" "main" usesLib needed (readWith usesLib) (readWith needed) script script') ∧
    outOf usesLib = some (0, "2 RETURNED: 2\n") ∧ outOf needed = some (0, "2 RETURNED: 2\n") := by
  obtain ⟨s, h⟩ := fileOk_main (T := usesLib) (by decide +kernel)
  obtain ⟨s', h'⟩ := fileOk_main (T := needed) (by decide +kernel)
  exact ⟨⟨s, s', h, h', (isWhole_eq (by decide +kernel)).trans (isWhole_eq (by decide +kernel)).symm, avoids_of (by decide +kernel)⟩, by decide +kernel, by decide +kernel⟩

end Quilt.Props
