import Verif.Cli
import Verif.Lib.IoRel
import Verif.Lib.Errors
import Verif.Props.Std
import Verif.Props.Report

/-!
# The command line program and the direct semantics

The host of the direct semantics that corresponds to the command line program, and the lemmas for C64
(`Verif/Props/Cli.lean`).
-/

namespace Quilt.Props

open Lib Peg Cli

variable {E : Cli.Env} {a : Cli.Args}

theorem same_text {v : SVal} {w : VVal} (h : SameVal v w) : w.text E.L.F vname = v.text E.L.F SClos.name :=
  (text_rel E.L.F (R := SameFn) (fun _ _ h => h.1.symm) h).symm

theorem same_none {v : SVal} {w : VVal} (h : SameVal v w) : isNone w = isNone v := by
  unfold SameVal at h
  cases v <;> cases w <;> simp only [Val.Rel, isNone] at h ⊢

theorem trace_ok (c : Sources) (es : List Machine.TraceEntry) : ∃ b, Machine.traceText c es = .ok ("Traceback (most recent call last):\n".toList ++ b) := by
  have h0 : ∀ (s : Source) (o : Nat) (e : Err), s.offsetLine o ≠ .err e := by
    intro s o e
    unfold Source.offsetLine
    split
    · simp only
      split <;> simp
    · simp
  have h1 : ∀ x e, Machine.entryText c x ≠ .err e := by
    intro x e
    unfold Machine.entryText
    split
    · simp
    · split
      · simp
      · split
        · simp
        · simp only
          split
          · simp
          · generalize hx : Source.offsetLine _ _ = r
            cases r with
            | ok r =>
              simp only [Res.bind]
              repeat' split
              all_goals simp
            | err e => exact absurd hx (h0 _ _ _)
            | panic => simp [Res.bind]
  have h2 : ∀ xs e, Machine.entriesText c xs ≠ .err e := by
    intro xs
    induction xs with
    | nil => intro e; simp [Machine.entriesText]
    | cons x xs ih =>
      intro e
      simp only [Machine.entriesText]
      cases hx : Machine.entryText c x with
      | ok r =>
        simp only [Res.bind]
        cases hy : Machine.entriesText c xs with
        | ok r' => simp [Res.map]
        | err e => exact absurd hy (ih _)
        | panic => simp [Res.map]
      | err e => exact absurd hx (h1 _ _)
      | panic => simp [Res.bind]
  have h3 := C59_total c es
  unfold Machine.traceText at h3 ⊢
  cases hx : Machine.entriesText c es.reverse with
  | ok b => exact ⟨b, rfl⟩
  | err e => exact absurd hx (h2 _ _)
  | panic => rw [hx] at h3; exact absurd rfl h3

/-- The host of the direct semantics: the standard library with input and output, and the limits given. -/
def cliHost (E : Cli.Env) (a : Cli.Args) : SHost Io :=
  ⟨E.cfg, (opts a).lim, withLib (stdioLib E.L SClos.name E.O E.cfg.chk) fun _ => none, id, id⟩

/-- What the direct semantics prescribes for a program; nothing is printed at the start. -/
def cliRun (E : Cli.Env) (a : Cli.Args) (k : Nat) (ast : List Node) : Out SVal × SSt Io := evalProgram (cliHost E a) k ast (startSt ⟨[], 0⟩)

/-- The main file is read as the program `ast` and compiled to `script`, within the limits of the compiler (C25, C53). -/
structure MainFile (E : Cli.Env) (a : Cli.Args) (k : Nat) (name : String) (src : List Char) (ast : List Node) (script : Script) : Prop where
  parsed : (parseWithIncludes E.W k name src ⟨[], []⟩).1 = .ok ast
  compiled : compile E.cfg ast = .ok script
  placed : ∀ n ∈ ast, n.placedTop = true
  size : sizeL ast ≤ 65535
  names : (machine E a script).host.syms.entries.length ≤ 65536

/-- The limits of the two stacks. -/
def _root_.Quilt.Cli.Args.withStacks (a : Cli.Args) (n c : Nat) : Cli.Args := { a with stackSize := some n, callStackSize := some c }

theorem withLib_ofLib {lim : Limits} : ∀ (l : List (String × BFn Io SClos)) (B : String → Option (Builtin Io SClos)), LibOrd l →
    (∀ x b, B x = some b → BuiltinIn (fun e => e.ofLib = true) lim b) →
    ∀ x b, withLib l B x = some b → BuiltinIn (fun e => e.ofLib = true) lim b
  | [], _, _, hB => hB
  | p :: l, B, hl, hB => by
    refine withLib_ofLib l _ (fun q hq => hl q (List.mem_cons_of_mem _ hq)) ?_
    intro x b hb
    simp only [updName] at hb
    split at hb
    · cases hb
      exact fun d args e he => ((hl p List.mem_cons_self).of d args _).of e he
    · exact hB x b hb

attribute [local irreducible] withLib stdioLib

theorem Machine.addBuiltins_limits {D : Type} (n c : Nat) : ∀ (bs : List (String × Builtin D VClos)) (m : Machine D),
    (m.withLimits n c).addBuiltins bs = (m.addBuiltins bs).withLimits n c
  | [], _ => rfl
  | (x, b) :: bs, m => Machine.addBuiltins_limits n c bs { m with host := { m.host with syms := (m.host.syms.add x).2, builtins := upd m.host.builtins (m.host.syms.add x).1 (some b) } }

theorem Machine.addBuiltins_cfg {D : Type} : ∀ (bs : List (String × Builtin D VClos)) (m : Machine D), (m.addBuiltins bs).host.cfg = m.host.cfg
  | [], _ => rfl
  | (x, b) :: bs, m => Machine.addBuiltins_cfg bs { m with host := { m.host with syms := (m.host.syms.add x).2, builtins := upd m.host.builtins (m.host.syms.add x).1 (some b) } }

theorem cli_machine_cfg (E : Cli.Env) (a : Cli.Args) (script : Script) : (machine E a script).host.cfg = E.cfg := by
  unfold machine
  rw [Machine.addBuiltins_cfg]
  rfl

theorem Machine.syms_limits {D : Type} (n c : Nat) (m : Machine D) : (m.withLimits n c).host.syms = m.host.syms := rfl

theorem cli_machine_stacks (E : Cli.Env) (a : Cli.Args) (script : Script) (n c : Nat) :
    machine E (a.withStacks n c) script = (machine E a script).withLimits n c := by
  unfold machine
  rw [← Machine.addBuiltins_limits]
  rfl

theorem cli_machine_own (E : Cli.Env) (a : Cli.Args) (script : Script) :
    machine E a script = (machine E a script).withLimits (a.stackSize.getD 500000) (a.callStackSize.getD 1000) := by
  unfold machine
  rw [← Machine.addBuiltins_limits]
  rfl

variable {k : Nat} {name : String} {src : List Char} {ast : List Node} {script : Script}

theorem MainFile.text (h : MainFile E a k name src ast script) :
    RunsText E.W (setup E a) ⟨[], 0⟩ name src ast (cliHost E a) (startSt ⟨[], 0⟩) (machine E a script) := by
  refine ⟨⟨k, _, (parseWithIncludes E.W k name src ⟨[], []⟩).2, Prod.ext h.parsed rfl⟩, ⟨script, h.compiled, ?_⟩, h.placed, h.size, h.names⟩
  exact prepared_lib (M := setup E a) (stdio_rel E.L E.O _ E.cfg.chk) .new

theorem MainFile.runs (h : MainFile E a k name src ast script) : Runs (setup E a) ⟨[], 0⟩ ast (cliHost E a) (startSt ⟨[], 0⟩) (machine E a script) :=
  (C53_hypotheses h.text).1

theorem MainFile.main (h : MainFile E a k name src ast script) (fuel : Nat) :
    main E a k fuel name (.ok src) =
      ((machine E a script).run (expired E a) fuel).bind (finish E a (parseWithIncludes E.W k name src ⟨[], []⟩).2.sources) := by
  have h1 := h.parsed
  simp only [Cli.main]
  generalize hr : parseWithIncludes E.W k name src ⟨[], []⟩ = r at h1 ⊢
  obtain ⟨o, c⟩ := r
  cases h1
  simp only [h.compiled]

theorem MainFile.stacks (h : MainFile E a k name src ast script) (n c : Nat) : MainFile E (a.withStacks n c) k name src ast script :=
  ⟨h.parsed, h.compiled, h.placed, h.size, by rw [cli_machine_stacks, Machine.syms_limits]; exact h.names⟩

/-- The builtins of the command raise errors of operations on values and errors with a message. -/
theorem cli_builtins (E : Cli.Env) (a : Cli.Args) (x : String) (b : Builtin Io SClos) (h : (cliHost E a).builtins x = some b) :
    BuiltinIn (fun e => e.ofLib = true) (cliHost E a).lim b :=
  withLib_ofLib _ _ (stdio_ord E.L E.cfg.chk E.O SClos.name) (by simp) x b h

/-- The library raises no stack overflows, so the program does not either. -/
theorem cli_ordinary (E : Cli.Env) (a : Cli.Args) (k : Nat) (ast : List Node) {e : Err} {sp : Option Span} (h : (cliRun E a k ast).1 = .err e sp) :
    e.ordinary = true := by
  unfold cliRun at h
  have hs : ExitsIn (fun e => e.ofLib = true) (startSt ⟨[], 0⟩ : SSt Io) := by intro f hf; simp [startSt] at hf
  rcases evalProgram_errors (Q := fun e => e.ofLib = true) (S := cliHost E a) (cli_builtins E a) k ast (σ := startSt ⟨[], 0⟩) hs h with h1 | h1
  · exact Err.ordinary_of h1
  · exact Err.ordinary_lib h1

theorem cli_no_overflow (E : Cli.Env) (a : Cli.Args) (k : Nat) (ast : List Node) (sp : Option Span) : (cliRun E a k ast).1 ≠ .err (.overflow .stackOverflow) sp := 
  fun h => absurd (cli_ordinary E a k ast h) (by decide)

/-- Without a clock, results of `run` are terminal steps. -/
theorem VM.run_clockless {D : Type} {H : Host D} {clock : Nat → Bool} (hclk : ∀ t, clock t = false) : ∀ (fuel i j : Nat) {s : VM D} {r : StepR D},
    s.run H clock fuel i j = some r → ∃ k s', s.steps H k = some s' ∧ s'.step H = r ∧ ∀ s'', r ≠ .next s''
  | 0, i, j, s, r, h => by simp [VM.run] at h
  | fuel + 1, i, j, s, r, h => by
    rw [VM.run] at h
    simp only [hclk, Bool.false_eq_true, and_false, if_false] at h
    cases hx : s.step H with
    | next s1 =>
      rw [hx] at h
      obtain ⟨k, s', h1, h2, h3⟩ := VM.run_clockless hclk fuel _ _ h
      exact ⟨k + 1, s', by simp only [VM.steps, hx]; exact h1, h2, h3⟩
    | done => rw [hx] at h; simp only [Option.some.injEq] at h; exact ⟨0, s, rfl, hx.trans h, by rw [← h]; simp⟩
    | err => rw [hx] at h; simp only [Option.some.injEq] at h; exact ⟨0, s, rfl, hx.trans h, by rw [← h]; simp⟩
    | panic => rw [hx] at h; simp only [Option.some.injEq] at h; exact ⟨0, s, rfl, hx.trans h, by rw [← h]; simp⟩

theorem expired_never (ha : a.maxRuntime = none) (t : Nat) : expired E a t = false := by simp [expired, ha]

/-- The outcomes of the run: a limit was hit, or what is prescribed. -/
theorem MainFile.cases (h : MainFile E a k name src ast script) (hcmp : ∀ K, (cliRun E a K ast).1 ≠ .unspec true) {fuel : Nat} {res : StepR Io}
    (hr : (machine E a script).run (expired E a) fuel = some res) :
    ((∃ ms t, a.maxRuntime = some ms ∧ ms * 1000000 < E.elapsed t) ∧ ∃ sp s, res = .err .runtimeLimit sp s) ∨ (∃ sp s, res = .err (.overflow .stackOverflow) sp s) ∨
      ∃ K, Agree (machine E a script).host (cliRun E a K ast) res := by
  have hR := h.runs
  rw [cli_machine_own] at hr
  have hu : ∀ K b, (cliRun E a K ast).1 ≠ .unspec b := by
    intro K b
    cases b with
    | true => exact hcmp K
    | false => exact C53_specified h.text K
  have main : (∃ sp s, res = .err .runtimeLimit sp s) ∨ (∃ sp s, res = .err (.overflow .stackOverflow) sp s) ∨
      ∃ K, Agree (machine E a script).host (cliRun E a K ast) res := by
    by_cases hd : ∀ K, (cliRun E a K ast).1 = .timeout
    · rcases C22_diverges hR hd _ _ (expired E a) fuel with h1 | ⟨sp, s', h1⟩ | ⟨sp, s', h1⟩
      · rw [hr] at h1; simp at h1
      · rw [hr] at h1; exact .inr (.inl ⟨sp, s', Option.some.inj h1⟩)
      · rw [hr] at h1; exact .inl ⟨sp, s', Option.some.inj h1⟩
    · rw [Classical.not_forall] at hd
      obtain ⟨K, hK⟩ := hd
      rcases (hR.outcome K).run_any ⟨hK, hu K, cli_no_overflow E a K ast⟩ (hR.sp _) hr with h1 | h1 | h1
      · exact .inl h1
      · exact .inr (.inl h1)
      · exact .inr (.inr ⟨K, h1⟩)
  rcases main with ⟨sp, s, rfl⟩ | h1
  · by_cases ha : ∀ t, expired E a t = false
    · exfalso
      obtain ⟨j, s', h1, h2, h3⟩ := VM.run_clockless ha _ _ _ hr
      by_cases hd : ∀ K, (cliRun E a K ast).1 = .timeout
      · have ho : ∀ B, ∃ σ', Outcome ((machine E a script).host.withLimits none none) B noSlots (machine E a script).vm (.timeout, σ') := by
          intro B
          have := hR.outcome B
          have hB := hd B
          unfold cliRun at hB
          generalize evalProgram _ B ast _ = r at this hB
          obtain ⟨o, σ'⟩ := r
          simp only at hB; subst hB
          exact ⟨σ', this⟩
        rcases Outcome.step_forever ho (hR.sp _) h1 with ⟨s2, h5⟩ | ⟨_, _, h5⟩
        · exact absurd (h2.symm.trans h5) (h3 s2)
        · have := h2.symm.trans h5; simp at this
      · rw [Classical.not_forall] at hd
        obtain ⟨K, hK⟩ := hd
        rcases (hR.outcome K).step_any ⟨hK, hu K, cli_no_overflow E a K ast⟩ (hR.sp _) h1 with ⟨s2, h5⟩ | ⟨_, _, h5⟩ | h5
        · exact absurd (h2.symm.trans h5) (h3 s2)
        · have := h2.symm.trans h5; simp at this
        · have h6 : Agree (machine E a script).host (cliRun E a K ast) (.err .runtimeLimit sp s) := by
            rw [← h2]; exact h5
          obtain ⟨sp', h7, _⟩ := h6
          exact absurd (cli_ordinary E a K ast h7) (by decide)
    · rw [Classical.not_forall] at ha
      obtain ⟨t, ht⟩ := ha
      refine .inl ⟨?_, sp, s, rfl⟩
      unfold expired at ht
      split at ht
      · simp at ht
      · next ms hms => exact ⟨ms, t, hms, by simpa using ht⟩
  · exact .inr h1

end Quilt.Props
