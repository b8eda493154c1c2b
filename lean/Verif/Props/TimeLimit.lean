import Verif.Props.Cli

/-!
# The time limit: C74

`clock t` says whether the limit is exceeded at the `t`-th moment: moment `2 i` is before the `i`-th instruction, moment
`2 i + 1` after it.
-/

namespace Quilt.Props

open Lib Peg Cli

variable {D : Type}

/-- The moments at which the limit is looked at: before every 66th instruction, and after calls of builtins. -/
inductive Looks (H : Host D) (s : VM D) : Nat → Prop where
  | instr {k : Nat} : k % 66 = 65 → Looks H s (2 * k)
  | builtin {k : Nat} {s0 : VM D} : s.steps H k = some s0 → s0.atBuiltin = true → Looks H s (2 * k + 1)

/-- The run ended at the moment `t` because of the limit: all instructions before that moment were executed. -/
def EndedAt (H : Host D) (s : VM D) (t : Nat) (r : StepR D) : Prop :=
  ∃ s', s.steps H ((t + 1) / 2) = some s' ∧ r = .err .runtimeLimit s'.errF s'

private theorem steps_succ {H : Host D} : ∀ {k : Nat} {s s1 : VM D}, s.steps H k = some s1 → ∀ s2, s1.step H = .next s2 → s.steps H (k + 1) = some s2
  | 0, s, s1, h, s2, h2 => by simp only [VM.steps, Option.some.injEq] at h; subst h; simp [VM.steps, h2]
  | k + 1, s, s1, h, s2, h2 => by
    rw [VM.steps] at h ⊢
    split at h
    · next s3 h3 => exact steps_succ h s2 h2
    · cases h

/-- What ends a run that has come to its `i`-th instruction. -/
private theorem run_ends {H : Host D} {clock : Nat → Bool} {s0 : VM D} : ∀ (fuel i n : Nat) {s : VM D}, s0.steps H i = some s → n = i % 66 →
    (∀ r, s.run H clock fuel i n = some r →
      (∃ t, 2 * i ≤ t ∧ t < 2 * (i + fuel) ∧ Looks H s0 t ∧ clock t = true ∧ (∀ t', 2 * i ≤ t' → t' < t → Looks H s0 t' → clock t' = false) ∧ EndedAt H s0 t r) ∨
      (∃ k s', i ≤ k ∧ k < i + fuel ∧ s0.steps H k = some s' ∧ s'.step H = r ∧ (∀ s'', r ≠ .next s'') ∧ (∀ t', 2 * i ≤ t' → t' ≤ 2 * k → Looks H s0 t' → clock t' = false))) ∧
    (s.run H clock fuel i n = none → (∃ s', s0.steps H (i + fuel) = some s') ∧ ∀ t', 2 * i ≤ t' → t' < 2 * (i + fuel) → Looks H s0 t' → clock t' = false)
  | 0, i, n, s, hs, hn => by
    refine ⟨fun r h => by simp [VM.run] at h, fun _ => ⟨⟨s, hs⟩, fun t' h1 h2 => by omega⟩⟩
  | fuel + 1, i, n, s, hs, hn => by
    have hm : i % 66 < 66 := Nat.mod_lt _ (by decide)
    have even : n > 64 ↔ Looks H s0 (2 * i) := by
      constructor
      · intro h; exact .instr (by omega)
      · intro h
        generalize ht : 2 * i = t at h
        cases h with
        | instr h => omega
        | builtin h => omega
    have odd : s.atBuiltin = true ↔ Looks H s0 (2 * i + 1) := by
      constructor
      · intro h; exact .builtin hs h
      · intro h
        generalize ht : 2 * i + 1 = t at h
        cases h with
        | instr h => omega
        | @builtin k s1 h1 h2 =>
          have : k = i := by omega
          subst this
          rw [hs] at h1; cases h1; exact h2
    unfold VM.run
    by_cases hc : n > 64 ∧ clock (2 * i) = true
    · rw [if_pos (by simpa using hc)]
      refine ⟨fun r h => .inl ⟨2 * i, by omega, by omega, even.1 hc.1, hc.2, fun t' h1 h2 => by omega, s, ?_, ?_⟩, fun h => by cases h⟩
      · rw [show (2 * i + 1) / 2 = i by omega]; exact hs
      · simpa using h.symm
    · rw [if_neg (by simpa using hc)]
      have hq : Looks H s0 (2 * i) → clock (2 * i) = false := by
        intro h
        have h1 := even.2 h
        simpa [h1] using hc
      dsimp only
      cases hx : s.step H with
      | next s1 =>
        have hs1 : s0.steps H (i + 1) = some s1 := steps_succ hs s1 hx
        dsimp only
        by_cases hb : s.atBuiltin = true ∧ clock (2 * i + 1) = true
        · rw [if_pos (by simpa using hb)]
          refine ⟨fun r h => .inl ⟨2 * i + 1, by omega, by omega, odd.1 hb.1, hb.2, fun t' h1 h2 h3 => ?_, s1, ?_, ?_⟩, fun h => by cases h⟩
          · have : t' = 2 * i := by omega
            subst this; exact hq h3
          · rw [show (2 * i + 1 + 1) / 2 = i + 1 by omega]; exact hs1
          · simpa using h.symm
        · rw [if_neg (by simpa using hb)]
          have hq' : Looks H s0 (2 * i + 1) → clock (2 * i + 1) = false := by
            intro h
            have h1 := odd.2 h
            simpa [h1] using hb
          have both : ∀ t', 2 * i ≤ t' → t' < 2 * (i + 1) → Looks H s0 t' → clock t' = false := by
            intro t' h1 h2 h3
            rcases (show t' = 2 * i ∨ t' = 2 * i + 1 by omega) with rfl | rfl
            · exact hq h3
            · exact hq' h3
          obtain ⟨g1, g2⟩ := run_ends (clock := clock) fuel (i + 1) (if n > 64 then 0 else n + 1) hs1 (by split <;> omega)
          refine ⟨fun r h => ?_, fun h => ?_⟩
          · rcases g1 r h with ⟨t, h1, h2, h3, h4, h5, h6⟩ | ⟨k, s', h1, h2, h3, h4, h5, h6⟩
            · exact .inl ⟨t, by omega, by omega, h3, h4, fun t' a b c => if hlt : t' < 2 * (i + 1) then both t' a hlt c else h5 t' (by omega) b c, h6⟩
            · exact .inr ⟨k, s', by omega, by omega, h3, h4, h5, fun t' a b c => if hlt : t' < 2 * (i + 1) then both t' a hlt c else h6 t' (by omega) b c⟩
          · obtain ⟨⟨s', h1⟩, h2⟩ := g2 h
            exact ⟨⟨s', by rw [← h1]; congr 1; omega⟩, fun t' a b c => if hlt : t' < 2 * (i + 1) then both t' a hlt c else h2 t' (by omega) (by omega) c⟩
      | done v s1 =>
        refine ⟨fun r h => .inr ⟨i, s, by omega, by omega, hs, hx.trans (Option.some.inj h), by rw [← Option.some.inj h]; simp, fun t' a b c => ?_⟩, fun h => by cases h⟩
        have : t' = 2 * i := by omega
        subst this; exact hq c
      | err e sp s1 =>
        refine ⟨fun r h => .inr ⟨i, s, by omega, by omega, hs, hx.trans (Option.some.inj h), by rw [← Option.some.inj h]; simp, fun t' a b c => ?_⟩, fun h => by cases h⟩
        have : t' = 2 * i := by omega
        subst this; exact hq c
      | panic =>
        refine ⟨fun r h => .inr ⟨i, s, by omega, by omega, hs, hx.trans (Option.some.inj h), by rw [← Option.some.inj h]; simp, fun t' a b c => ?_⟩, fun h => by cases h⟩
        have : t' = 2 * i := by omega
        subst this; exact hq c

/-- How runs end: at the first of the moments at which the limit is looked at and found exceeded, with all instructions before
it executed; or by an instruction, with the limit not found exceeded at any moment before. -/
theorem C74_ends {m : Machine D} {clock : Nat → Bool} {fuel : Nat} {r : StepR D} (h : m.run clock fuel = some r) :
    (∃ t, Looks m.host m.vm t ∧ clock t = true ∧ (∀ t' < t, Looks m.host m.vm t' → clock t' = false) ∧ EndedAt m.host m.vm t r) ∨
    (∃ k s', m.vm.steps m.host k = some s' ∧ s'.step m.host = r ∧ (∀ s'', r ≠ .next s'') ∧ ∀ t' ≤ 2 * k, Looks m.host m.vm t' → clock t' = false) := by
  rcases (run_ends (s0 := m.vm) fuel 0 0 rfl rfl).1 r h with ⟨t, -, -, h1, h2, h3, h4⟩ | ⟨k, s', -, -, h1, h2, h3, h4⟩
  · exact .inl ⟨t, h1, h2, fun t' h => h3 t' (by omega) h, h4⟩
  · exact .inr ⟨k, s', h1, h2, h3, fun t' h => h4 t' (by omega) h⟩

/-- Nothing runs on past a limit: if it is exceeded from the `i`-th instruction on, at most 65 further instructions are executed, and the run ends. -/
theorem C74_stops {m : Machine D} {clock : Nat → Bool} {i : Nat} (h : ∀ t, 2 * i ≤ t → clock t = true) : ∃ r, m.run clock (i + 66) = some r := by
  cases hr : m.run clock (i + 66) with
  | some r => exact ⟨r, rfl⟩
  | none =>
    obtain ⟨-, h2⟩ := (run_ends (s0 := m.vm) (i + 66) 0 0 rfl rfl).2 hr
    have h4 : ∃ k, i ≤ k ∧ k < i + 66 ∧ k % 66 = 65 := ⟨i + (65 - i % 66), by omega, by omega, by omega⟩
    obtain ⟨k, h5, h6, h7⟩ := h4
    have h8 := h2 (2 * k) (by omega) (by omega) (.instr h7)
    rw [h (2 * k) (by omega)] at h8
    cases h8

/-- A limit that is not exceeded changes nothing. -/
theorem C74_idle {m : Machine D} {clock : Nat → Bool} {fuel : Nat} (h : ∀ t < 2 * fuel, clock t = false) : m.run clock fuel = m.run (fun _ => false) fuel := by
  have : ∀ (fuel i n : Nat) (s : VM D), (∀ t < 2 * (i + fuel), clock t = false) → s.run m.host clock fuel i n = s.run m.host (fun _ => false) fuel i n := by
    intro fuel
    induction fuel with
    | zero => intro i n s _; rfl
    | succ fuel ih =>
      intro i n s h
      simp only [VM.run, h (2 * i) (by omega), h (2 * i + 1) (by omega)]
      cases s.step m.host with
      | next s' => simp only [ih (i + 1) _ s' (fun t ht => h t (by omega))]
      | _ => rfl
  exact this fuel 0 0 m.vm (by simpa using h)

/-- With a limit a run ends as without one, or the limit ended it. -/
theorem C74_either {m : Machine D} {clock : Nat → Bool} {fuel : Nat} {r : StepR D} (h : m.run clock fuel = some r) :
    m.run (fun _ => false) fuel = some r ∨ ∃ sp s', r = .err .runtimeLimit sp s' := by
  have : ∀ (fuel i n : Nat) (s : VM D), s.run m.host clock fuel i n = some r → s.run m.host (fun _ => false) fuel i n = some r ∨ ∃ sp s', r = .err .runtimeLimit sp s' := by
    intro fuel
    induction fuel with
    | zero => intro i n s h; cases h
    | succ fuel ih =>
      intro i n s h
      unfold VM.run at h ⊢
      split at h
      · exact .inr ⟨_, _, (Option.some.inj h).symm⟩
      · simp only [Bool.false_eq_true, and_false, if_false]
        dsimp only at h
        cases hx : s.step m.host with
        | next s' =>
          simp only [hx] at h ⊢
          split at h
          · exact .inr ⟨_, _, (Option.some.inj h).symm⟩
          · exact ih _ _ _ h
        | _ => simp only [hx] at h ⊢; exact .inl h
  exact this fuel 0 0 m.vm h

/-- The comment at the option (vm.rs:15-16) promises 64 instructions; a loop gets 65 after the limit is exceeded. -/
theorem C74_violated_64 : ∃ (script : Script) (clock : Nat → Bool), compile demoSetup.cfg demoLoop = .ok script ∧ (∀ t, 2 * 66 ≤ t → clock t = true) ∧
    (Machine.new demoSetup 7 script).run clock (66 + 65) = none := by
  have h : (match compile demoSetup.cfg demoLoop with | .ok s => ((Machine.new demoSetup 7 s).run (fun t => decide (2 * 66 ≤ t)) (66 + 65)).isNone | _ => false) = true := by decide +kernel
  split at h
  · next script hs => exact ⟨script, _, hs, fun t ht => decide_eq_true ht, Option.isNone_iff_eq_none.1 h⟩
  · cases h

/-- The same loop and clock: the run ends, as `C74_stops` says, with the error of the limit. -/
example : (match compile demoSetup.cfg demoLoop with
    | .ok s => (match (Machine.new demoSetup 7 s).run (fun t => decide (2 * 66 ≤ t)) (66 + 66) with | some (.err e _ _) => decide (e = Err.runtimeLimit) | _ => false)
    | _ => false) = true := by decide +kernel

variable {E : Cli.Env} {a : Cli.Args} {k : Nat} {name : String} {file : Except (List Char) (List Char)}

/-- The command with `--max-runtime ms`: it ends, if time goes by. -/
theorem C74_command {ms i : Nat} (ha : a.maxRuntime = some ms) (h : ∀ t, 2 * i ≤ t → ms * 1000000 < E.elapsed t)
    (hk : ∀ src, file = .ok src → (parseWithIncludes E.W k name src ⟨[], []⟩).1 ≠ .oof) : ∃ o, main E a k (i + 66) name file = some o := by
  unfold Cli.main
  split
  · exact ⟨_, rfl⟩
  · next src =>
    have := hk src rfl
    split
    · next h1 => rw [h1] at this; exact absurd rfl this
    · exact ⟨_, rfl⟩
    · split
      · exact ⟨_, rfl⟩
      · exact ⟨_, rfl⟩
      · next c _ script _ =>
        obtain ⟨r, hr⟩ := C74_stops (m := machine E a script) (clock := expired E a) (i := i) (fun t ht => by simp [expired, ha, h t ht])
        rw [hr, Option.bind_some]
        cases r with
        | next s =>
          exfalso
          rcases C74_ends hr with ⟨_, _, _, _, _, _, h1⟩ | ⟨_, _, _, _, h1, _⟩
          · cases h1
          · exact h1 s rfl
        | panic => exact ⟨_, rfl⟩
        | done v s => exact ⟨_, rfl⟩
        | err e sp s =>
          simp only [finish]
          split <;> exact ⟨_, rfl⟩

/-- A limit that is not exceeded changes nothing. -/
theorem C74_command_idle {ms : Nat} (ha : a.maxRuntime = some ms) (h : ∀ t, E.elapsed t ≤ ms * 1000000) (fuel : Nat) :
    main E a k fuel name file = main E { a with maxRuntime := none } k fuel name file := by
  have h1 : expired E a = expired E { a with maxRuntime := none } := by
    funext t
    have := h t
    simp [expired, ha]
    omega
  unfold Cli.main
  rw [h1]
  rfl

/-- A file with a loop that does not end, a limit of 2 ms, and a millisecond for every instruction: the command ends with status 1. -/
example : (match main { Check.env with elapsed := fun t => t * 500000 } { maxRuntime := some 2 } 1 (3 + 66) "main" (.ok "while true { none }".toList) with
    | some (.exit ⟨1, _, some (.error e _)⟩) => decide (e = Err.runtimeLimit)
    | _ => false) = true := by decide +kernel

end Quilt.Props
