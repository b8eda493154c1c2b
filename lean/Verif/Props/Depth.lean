import Verif.Sem.Flat
import Verif.Sem.WornReady
import Verif.Props.Room
import Verif.Props.Ends
import Verif.Props.Output

/-!
# Programs without recursion: C95

`rankedTopL ρ N ast` (`Verif/Sem/Flat.lean`) is read off the program text: calls go to functions by their names, every function at the top level of a file has a rank
`ρ` below `N`, and calls functions of lower rank only. Such programs never have more than `N` calls in progress. So explicit sizes of the two stacks are enough for them,
and without `while` they always have an outcome.
-/

namespace Quilt.Props

open Lib Peg Cli

variable {D : Type} {W : World} {M : Machine.Setup D} {data : D} {name : String} {T : List Char} {ast : List Node} {S : SHost D} {σ : SSt D} {m : Machine D}
  {ρ : String → Option Nat} {N : Nat}

private theorem no_exits {script : Script} (h : Prepared M data script S σ m) : m.vm.exitFns = [] ∧ σ.exits = [] ∧ m.vm.frames = [] := by
  induction h with
  | new => exact ⟨rfl, rfl, rfl⟩
  | builtin _ _ _ ih => exact ih
  | global _ _ _ ih => exact ih
  | external x _ _ h1 ih =>
    unfold Machine.setExternal at h1
    split at h1
    · cases h1
    · split at h1
      · cases h1; exact ih
      · cases h1

/-! ## The semantics -/

private def plain (S : SHost D) (ρ : String → Option Nat) (N : Nat) : Ranks D :=
  ⟨S, ρ, N, fun _ _ => True, fun _ => True, fun _ _ _ _ _ _ _ => trivial, fun _ _ _ _ _ _ _ => trivial, fun _ _ _ _ => trivial, fun _ _ _ => trivial, fun _ _ _ => trivial⟩

/-- In the semantics that gives up on a call inside of `N` others, no call is given up: the program does the same as without a bound on calls. -/
theorem C95_semantics (h : Runs M data ast S σ m) (hr : rankedTopL ρ N ast = true) (hg : ∀ x, ρ x ≠ none → σ.globals x = none) (B : Nat) :
    (evalTop S (callD S B N) B ast σ).1 ≠ .deep := by
  obtain ⟨script, _, h2⟩ := h.prepared
  have hs : FlatSt (plain S ρ N) 0 σ := by
    refine ⟨fun x r hx v hv => ?_, fun g hg => ?_, trivial⟩
    · rw [hg x (by rw [show ρ x = some r from hx]; simp)] at hv; cases hv
    · rw [(no_exits h2).2.1] at hg; cases hg
  have := flat_program (K := plain S ρ N) hr hs B
  intro hd
  rw [show (plain S ρ N).S = S from rfl, show (plain S ρ N).N = N from rfl] at this
  generalize evalTop S (callD S B N) B ast σ = q at this hd
  obtain ⟨o, σ'⟩ := q
  simp only at hd
  subst hd
  exact this

/-- Without `while`, such a program has an outcome: it does not run forever. -/
theorem C95_ends (h : Runs M data ast S σ m) (hr : rankedTopL ρ N ast = true) (hg : ∀ x, ρ x ≠ none → σ.globals x = none) (hcalm : calmL ast = true) :
    ∃ K, (evalProgram S K ast σ).1 ≠ .timeout := by
  obtain ⟨B, o, σ', h1, h2⟩ := C77_semantics h hcalm N
  have h3 := h2 B (Nat.le_refl _)
  have hd := C95_semantics h hr hg B
  refine ⟨max B N, ?_⟩
  rw [callD_program (by rw [h3]; exact h1) hd, h3]
  exact h1

/-! ## The machine -/

private def countedRanks (S : SHost D) (ρ : String → Option Nat) (N : Nat) : Ranks (D × VM.Count) where
  S := S.wear VM.Count.enter VM.Count.leave
  ρ := ρ
  N := N
  I L d := d.2.1 = L ∧ d.2.2 ≤ N
  Fin d := d.2.2 ≤ N
  fn x f hb L d args hd := by
    have : (f d args S.lim).2.2 = d.2 := by
      simp only [SHost.wear] at hb
      cases hS : S.builtins x with
      | none => rw [hS] at hb; rcases hb with hb | ⟨_, hb⟩ <;> cases hb
      | some b =>
        rw [hS] at hb
        cases b <;> rcases hb with hb | ⟨_, hb⟩ <;> cases hb <;> rfl
    show (f d args S.lim).2.2.1 = L ∧ (f d args S.lim).2.2.2 ≤ N
    rw [this]; exact hd
  ctx x f e hb L d hd := by
    have : (e d).2.2 = d.2 := by
      simp only [SHost.wear] at hb
      cases hS : S.builtins x with
      | none => rw [hS] at hb; cases hb
      | some b =>
        rw [hS] at hb
        cases b <;> cases hb; rfl
    show (e d).2.2.1 = L ∧ (e d).2.2.2 ≤ N
    rw [this]; exact hd
  enter L d hL hd := by
    show d.2.1 + 1 = L + 1 ∧ max d.2.2 (d.2.1 + 1) ≤ N
    have := hd.1; have := hd.2
    omega
  exit L d hd := by
    show d.2.1 - 1 = L ∧ d.2.2 ≤ N
    have := hd.1; have := hd.2
    omega
  fin L d hd := hd.2

private theorem agree_left {H : Host D} {r : Out SVal × SSt D} {x : StepR D} {P : D → Prop} (h : Agree H r x) (hP : P r.2.data) (hx : x ≠ .panic) : x.Left P := by
  cases x with
  | next s => exact h.elim
  | panic => exact absurd rfl hx
  | done w s =>
    obtain ⟨v, _, _, h3, _⟩ := h
    show P s.data
    rw [h3]; exact hP
  | err e sp s =>
    obtain ⟨_, _, _, h3, _⟩ := h
    show P s.data
    rw [h3]; exact hP

private theorem definite_agree {H : Host D} {r : Out SVal × SSt D} {x : StepR D} (h : Agree H r x) (hd : Definite H.cfg.chk r.1) : x ≠ .panic := by
  rintro rfl
  rcases h with h | ⟨h1, v, h2⟩
  · rw [h] at hd; exact hd
  · rw [h2] at hd; exact absurd (h1.symm.trans hd) (by simp)

private theorem definite_out {chk : Bool} {o : Out SVal} (hd : Definite chk o) : o ≠ .timeout ∧ ∀ b, o ≠ .unspec b := by
  cases o <;> simp_all [Definite]

/-- A machine without limits never has more than `N` calls in progress. (For programs that end, and not with a crash.) -/
private theorem frames_unlim (h : Runs M data ast S σ m) (hr : rankedTopL ρ N ast = true) (hg : ∀ x, ρ x ≠ none → σ.globals x = none) {k : Nat}
    (hd : Definite m.host.cfg.chk (evalProgram S k ast σ).1) {j : Nat} {s : VM D} (hs : m.vm.steps (m.host.withLimits none none) j = some s) : s.frames.length ≤ N := by
  obtain ⟨script, h1, h2⟩ := h.prepared
  obtain ⟨hx, hσ, hf⟩ := no_exits h2
  have hR : Runs (M.wear VM.Count.enter VM.Count.leave) (data, ((0, 0) : VM.Count)) ast (S.wear VM.Count.enter VM.Count.leave) (σ.wear ((0, 0) : VM.Count))
      (m.wear VM.Count.enter VM.Count.leave (0, 0)) := ⟨⟨script, h1, h2.wear _⟩, h.wf, h.size, h.names⟩
  obtain ⟨e', he⟩ := evalProgram_worn (T := S) (en := VM.Count.enter) (ex := VM.Count.leave) k ast σ ((0, 0) : VM.Count)
  have hfst : (evalProgram (S.wear VM.Count.enter VM.Count.leave) k ast (σ.wear ((0, 0) : VM.Count))).1 = (evalProgram S k ast σ).1 := congrArg Prod.fst he
  have hdo := definite_out hd
  obtain ⟨j1, s1, h3, h4⟩ := (h.outcome k).agree hdo.1 hdo.2
  obtain ⟨j2, s2, h5, h6⟩ := (hR.outcome k).agree (by rw [hfst]; exact hdo.1) (by intro b; rw [hfst]; exact hdo.2 b)
  have hend : (evalProgram (S.wear VM.Count.enter VM.Count.leave) k ast (σ.wear ((0, 0) : VM.Count))).2.data.2.2 ≤ N := by
    refine flat_end (K := countedRanks S ρ N) hr ⟨fun x r hx' v hv => ?_, fun g hg' => ?_, ⟨rfl, Nat.zero_le _⟩⟩ k
    · have : σ.globals x = none := hg x (by rw [show ρ x = some r from hx']; simp)
      rw [show (σ.wear ((0, 0) : VM.Count)).globals = σ.globals from rfl, this] at hv
      cases hv
    · simp [SSt.wear, hσ] at hg'
  have hp1 : s1.step (m.host.withLimits none none) ≠ .panic := definite_agree h4 hd
  have hjj : j ≤ j1 := by
    by_cases hj : j ≤ j1
    · exact hj
    · obtain ⟨i, rfl⟩ : ∃ i, j = j1 + (i + 1) := ⟨j - j1 - 1, by omega⟩
      rw [Reach.steps_add j1 (i + 1) h3] at hs
      simp only [VM.steps] at hs
      have := h4.terminal
      generalize s1.step (m.host.withLimits none none) = x at hs this
      cases x with
      | next s' => exact absurd rfl (this s')
      | _ => cases hs
  refine _root_.Quilt.VM.frames_le (H := m.host.withLimits none none) hf hx h3 (fun e hw => ?_) hp1 hjj hs
  have ht : ∀ x, (s1.wear e).step ((m.host.withLimits none none).wear VM.Count.enter VM.Count.leave) ≠ .next x := by
    obtain ⟨e3, h7⟩ := _root_.Quilt.VM.step_wear (H := m.host.withLimits none none) (en := VM.Count.enter) (ex := VM.Count.leave) s1 e
    rw [h7]
    have := h4.terminal
    generalize s1.step (m.host.withLimits none none) = x at this
    cases x with
    | next s' => exact absurd rfl (this s')
    | _ => intro y hy; cases hy
  have hpw : (s1.wear e).step ((m.host.withLimits none none).wear VM.Count.enter VM.Count.leave) ≠ .panic := by
    obtain ⟨e3, h7⟩ := _root_.Quilt.VM.step_wear (H := m.host.withLimits none none) (en := VM.Count.enter) (ex := VM.Count.leave) s1 e
    rw [h7]
    generalize s1.step (m.host.withLimits none none) = x at hp1
    cases x with
    | panic => exact absurd rfl hp1
    | _ => intro hy; cases hy
  have hsame := _root_.Quilt.VM.steps_det (H := (m.host.withLimits none none).wear VM.Count.enter VM.Count.leave) hw rfl ht h5 rfl h6.terminal
  rw [hsame] at hpw ⊢
  exact agree_left (P := fun d : D × VM.Count => d.2.2 ≤ N) h6 hend hpw

private theorem frames_lim (h : Runs M data ast S σ m) (hr : rankedTopL ρ N ast = true) (hg : ∀ x, ρ x ≠ none → σ.globals x = none) {k : Nat}
    (hd : Definite m.host.cfg.chk (evalProgram S k ast σ).1) (ho : (evalProgram S k ast σ).1.definite) (n c : Nat) {j : Nat} {s : VM D}
    (hs : m.vm.steps (m.withLimits n c).host j = some s) : s.frames.length ≤ N := by
  rcases _root_.Quilt.VM.steps_unlim j (h.sp n) hs with ⟨h1, _⟩ | ⟨i, si, _, h1, h2⟩
  · exact frames_unlim h hr hg hd h1
  · exfalso
    obtain ⟨j1, s1, h3, h4⟩ := (h.outcome k).agree ho.1 ho.2.1
    have ht : ∀ x, si.step (m.host.withLimits none none) ≠ .next x := by
      obtain ⟨_, _, h5⟩ := h2
      rw [h5]; simp
    have := _root_.Quilt.VM.steps_det h3 rfl h4.terminal h1 rfl ht
    rw [← this] at h2
    exact h4.notOver ho h2

private theorem definite_of {chk : Bool} {o : Out SVal} (hd : Definite chk o) (hov : ∀ sp, o ≠ .err (.overflow .stackOverflow) sp) : o.definite :=
  ⟨(definite_out hd).1, (definite_out hd).2, hov⟩

/-- C95: whatever the limits are, every state that a run reaches has at most `N` calls in progress. (For programs whose outcome is a value or an error.) -/
theorem C95_calls (h : RunsText W M data name T ast S σ m) (hr : rankedTopL ρ N ast = true) (hg : ∀ x, ρ x ≠ none → σ.globals x = none) {k : Nat}
    (hd : Definite m.host.cfg.chk (evalProgram S k ast σ).1) (hov : ∀ sp, (evalProgram S k ast σ).1 ≠ .err (.overflow .stackOverflow) sp) (n c j : Nat) {s : VM D}
    (hs : m.vm.steps (m.withLimits n c).host j = some s) : s.frames.length ≤ N :=
  frames_lim (C53_hypotheses h).1 hr hg hd (definite_of hd hov) n c hs

private theorem run_ranked (h : RunsText W M data name T ast S σ m) (hQ : Peaceful S) (hr : rankedTopL ρ N ast = true) (hg : ∀ x, ρ x ≠ none → σ.globals x = none) {k : Nat}
    (hd : Definite m.host.cfg.chk (evalProgram S k ast σ).1) (ho : (evalProgram S k ast σ).1.definite) {n c : Nat} (hc : N < c) (hn : (N + 1) * frameSize ast < n)
    {clock : Nat → Bool} (hclk : ∀ t, clock t = false) : ∃ fuel res, (m.withLimits n c).run clock fuel = some res ∧ Agree m.host (evalProgram S k ast σ) res := by
  have hR := C53_hypotheses h
  obtain ⟨j, s', h1, h2⟩ := (hR.1.outcome k).agree ho.1 ho.2.1
  exact run_within (begins hR.1 hR.2 hQ) hR.1.sp h1 h2 ho (C := N + 1) (fun i _ s hs => Nat.lt_succ_of_le (frames_unlim hR.1 hr hg hd hs)) hc hn hclk

/-- A program that has a value returns it if the machine allows `N + 1` nested calls, and more than `frameSize ast` values for each of them. -/
theorem C95_value (h : RunsText W M data name T ast S σ m) (hQ : Peaceful S) (hr : rankedTopL ρ N ast = true) (hg : ∀ x, ρ x ≠ none → σ.globals x = none) {k : Nat}
    {v : SVal} {σ' : SSt D} (he : evalProgram S k ast σ = (.ok v, σ')) {n c : Nat} (hc : N < c) (hn : (N + 1) * frameSize ast < n) {clock : Nat → Bool}
    (hclk : ∀ t, clock t = false) :
    ∃ fuel w s', (m.withLimits n c).run clock fuel = some (.done w s') ∧ SameVal v w ∧ s'.data = σ'.data ∧ SameGlobals m.host.syms σ' s' := by
  obtain ⟨fuel, res, h1, h2⟩ := run_ranked h hQ hr hg (k := k) (by rw [he]; trivial) (by rw [he]; exact ⟨by simp, by simp, by simp⟩) hc hn hclk
  rw [he] at h2
  cases res with
  | done w s' =>
    obtain ⟨v', h3, h4, h5, h6, _⟩ := h2
    simp only [Out.ok.injEq, reduceCtorEq, or_false] at h3
    subst h3
    exact ⟨fuel, w, s', h1, h4, h5, h6⟩
  | err e sp s' => obtain ⟨_, h3, _⟩ := h2; simp at h3
  | panic => rcases h2 with h3 | ⟨_, _, h3⟩ <;> simp at h3
  | next s' => exact h2.elim

/-- A program that has an error reports this error on such a machine. -/
theorem C95_error (h : RunsText W M data name T ast S σ m) (hQ : Peaceful S) (hr : rankedTopL ρ N ast = true) (hg : ∀ x, ρ x ≠ none → σ.globals x = none) {k : Nat}
    {e : Err} {sp : Option Span} {σ' : SSt D} (he : evalProgram S k ast σ = (.err e sp, σ')) (hov : e ≠ .overflow .stackOverflow) {n c : Nat} (hc : N < c)
    (hn : (N + 1) * frameSize ast < n) {clock : Nat → Bool} (hclk : ∀ t, clock t = false) :
    ∃ fuel sp' s', (m.withLimits n c).run clock fuel = some (.err e sp' s') ∧ (∀ x, sp = some x → sp' = x) ∧ s'.data = σ'.data ∧ SameGlobals m.host.syms σ' s' := by
  obtain ⟨fuel, res, h1, h2⟩ := run_ranked h hQ hr hg (k := k) (by rw [he]; trivial) (by rw [he]; exact ⟨by simp, by simp, by simpa using hov⟩) hc hn hclk
  rw [he] at h2
  cases res with
  | done w s' => obtain ⟨_, h3, _⟩ := h2; simp at h3
  | err e' sp' s' =>
    obtain ⟨sp1, h3, h4, h5, h6, _⟩ := h2
    simp only [Out.err.injEq] at h3
    obtain ⟨rfl, rfl⟩ := h3
    exact ⟨fuel, sp', s', h1, h4, h5, h6⟩
  | panic => rcases h2 with h3 | ⟨_, _, h3⟩ <;> simp at h3
  | next s' => exact h2.elim

/-- Such a machine never reports a stack overflow, whatever the clock shows. -/
theorem C95_no_overflow (h : RunsText W M data name T ast S σ m) (hQ : Peaceful S) (hr : rankedTopL ρ N ast = true) (hg : ∀ x, ρ x ≠ none → σ.globals x = none) {k : Nat}
    (hd : Definite m.host.cfg.chk (evalProgram S k ast σ).1) (hov : ∀ sp, (evalProgram S k ast σ).1 ≠ .err (.overflow .stackOverflow) sp) {n c : Nat} (hc : N < c)
    (hn : (N + 1) * frameSize ast < n) (clock : Nat → Bool) (fuel : Nat) (sp : Span) (s : VM D) :
    (m.withLimits n c).run clock fuel ≠ some (.err (.overflow .stackOverflow) sp s) := by
  intro hx
  have ho := definite_of hd hov
  obtain ⟨fuel', res, h1, h2⟩ := run_ranked h hQ hr hg hd ho hc hn (clock := fun _ => false) fun _ => rfl
  rcases _root_.Quilt.VM.run_cases clock fuel 0 0 hx with ⟨_, _, h3⟩ | ⟨j, s1, _, h3, h4, h5⟩
  · simp at h3
  · obtain ⟨j', s', h6, h7, h8⟩ := _root_.Quilt.Props.VM.run_clockless (fun _ => rfl) fuel' 0 0 h1
    have := _root_.Quilt.VM.steps_det h3 h4 h5 h6 h7 h8
    subst this
    exact h2.notOver ho ⟨_, _, rfl⟩

/-! ## The command -/

variable {E : Cli.Env} {a : Cli.Args} {k : Nat} {src : List Char} {script : Script}

private theorem finish_err (c : Sources) (e : Err) (sp : Span) (s : VM Io) :
    ∃ b, finish E a c (.err e sp s) = some (.exit ⟨1, s.data.out ++ "Traceback (most recent call last):\n".toList ++ b, some (.error e sp)⟩) := by
  obtain ⟨b, hb⟩ := trace_ok c (Machine.traceBack s)
  refine ⟨b, ?_⟩
  simp only [finish, hb, List.append_assoc]

/-- The command on a file without recursion that has a value: with `N` below the limit on calls and `N + 1` times `frameSize ast` below the size of the stack - the
limits asked for, else 1000 and 500000 - and no time limit it ends with status 0 and prints what is prescribed. -/
theorem C95_command_value (h : MainFile E a k name src ast script) (ha : a.maxRuntime = none) (hr : rankedTopL ρ N ast = true) (hc : N < a.callStackSize.getD 1000)
    (hn : (N + 1) * frameSize ast < a.stackSize.getD 500000) {K : Nat} {v : SVal} {σ' : SSt Io} (he : cliRun E a K ast = (.ok v, σ')) :
    ∃ fuel t, main E a k fuel name (.ok src) = some (.exit ⟨0, σ'.data.out ++ t, none⟩) ∧ Tail E a v t := by
  obtain ⟨fuel, w, s', h1, h2, h3, _⟩ := C95_value h.text (C89_library E a) hr (fun _ _ => rfl) he hc hn (expired_never (E := E) ha)
  rw [← cli_machine_own] at h1
  refine ⟨fuel, returned a.result (w.text E.L.F vname) (isNone w), ?_, ?_⟩
  · rw [h.main, h1, Option.bind_some]
    simp only [finish, h3]
  · rw [same_text h2, same_none h2]
    unfold returned
    refine ⟨fun h1 h2 => ?_, fun h1 => ?_⟩
    · have : isNone v = false := by cases v <;> simp [isNone] at h2 ⊢
      simp [h1, this]
    · rcases h1 with h1 | rfl
      · simp [h1]
      · simp [isNone]

/-- The same for a file that has an error. -/
theorem C95_command_error (h : MainFile E a k name src ast script) (ha : a.maxRuntime = none) (hr : rankedTopL ρ N ast = true) (hc : N < a.callStackSize.getD 1000)
    (hn : (N + 1) * frameSize ast < a.stackSize.getD 500000) {K : Nat} {e : Err} {sp : Option Span} {σ' : SSt Io} (he : cliRun E a K ast = (.err e sp, σ')) :
    ∃ fuel b sp', (∀ x, sp = some x → sp' = x) ∧ main E a k fuel name (.ok src) =
      some (.exit ⟨1, σ'.data.out ++ "Traceback (most recent call last):\n".toList ++ b, some (.error e sp')⟩) := by
  have hne : e ≠ .overflow .stackOverflow := by
    rintro rfl
    exact cli_no_overflow E a K ast sp (congrArg Prod.fst he)
  obtain ⟨fuel, sp', s', h1, h2, h3, _⟩ := C95_error h.text (C89_library E a) hr (fun _ _ => rfl) he hne hc hn (expired_never (E := E) ha)
  rw [← cli_machine_own] at h1
  obtain ⟨b, hb⟩ := finish_err (E := E) (a := a) (parseWithIncludes E.W k name src ⟨[], []⟩).2.sources e sp' s'
  exact ⟨fuel, b, sp', h2, by rw [h.main, h1, Option.bind_some, hb, h3]⟩

/-- So the command on a file without recursion and without `while` either ends in one of these two ways, or the program crashes or returns outside of functions. -/
theorem C95_command (h : MainFile E a k name src ast script) (ha : a.maxRuntime = none) (hr : rankedTopL ρ N ast = true) (hcalm : calmL ast = true)
    (hc : N < a.callStackSize.getD 1000) (hn : (N + 1) * frameSize ast < a.stackSize.getD 500000) (hcmp : ∀ K, (cliRun E a K ast).1 ≠ .unspec true) :
    (∃ K v σ' fuel t, cliRun E a K ast = (.ok v, σ') ∧ main E a k fuel name (.ok src) = some (.exit ⟨0, σ'.data.out ++ t, none⟩) ∧ Tail E a v t) ∨
    (∃ K e sp σ' fuel b sp', cliRun E a K ast = (.err e sp, σ') ∧ (∀ x, sp = some x → sp' = x) ∧ main E a k fuel name (.ok src) =
      some (.exit ⟨1, σ'.data.out ++ "Traceback (most recent call last):\n".toList ++ b, some (.error e sp')⟩)) ∨
    ∃ K, (cliRun E a K ast).1 = .panic ∨ ∃ v, (cliRun E a K ast).1 = .ret v := by
  obtain ⟨K, hK⟩ := C95_ends h.runs hr (fun _ _ => rfl) hcalm
  have hu := C53_specified h.text K
  have hv := hcmp K
  generalize hq : evalProgram (cliHost E a) K ast (startSt ⟨[], 0⟩) = q at hK hu
  have hq' : cliRun E a K ast = q := hq
  obtain ⟨o, σ'⟩ := q
  cases o with
  | ok v =>
    obtain ⟨fuel, t, h1, h2⟩ := C95_command_value h ha hr hc hn hq'
    exact .inl ⟨K, v, σ', fuel, t, hq', h1, h2⟩
  | err e sp =>
    obtain ⟨fuel, b, sp', h1, h2⟩ := C95_command_error h ha hr hc hn hq'
    exact .inr (.inl ⟨K, e, sp, σ', fuel, b, sp', hq', h1, h2⟩)
  | panic => exact .inr (.inr ⟨K, .inl (by rw [hq'])⟩)
  | ret v => exact .inr (.inr ⟨K, .inr ⟨v, by rw [hq']⟩⟩)
  | timeout => exact absurd rfl hK
  | deep =>
    have := h.runs.outcome K
    rw [hq] at this
    exact this.elim
  | unspec b =>
    cases b with
    | true => exact absurd (congrArg Prod.fst hq') hv
    | false => exact absurd rfl hu

/-! ## Examples -/

/-- Two functions, the second calls the first. -/
private def sumFile : List Char := "fn sq(x) { x * x }\nfn sum(n) { let s = 0\n for i in 0:n { s += sq(i) }\n s }\nsum(4) + sq(2)".toList

private def ranks : String → Option Nat
  | "sq" => some 0
  | "sum" => some 1
  | _ => none

private def checkRanks (T : List Char) (ρ : String → Option Nat) (N : Nat) : Bool :=
  match (parseWithIncludes Check.env.W 1 "main" T ⟨[], []⟩).1 with
  | .ok ast => rankedTopL ρ N ast && calmL ast && decide ((N + 1) * frameSize ast < 500000)
  | _ => false

private def isInt (i : Int) : Out SVal × SSt Io → Bool
  | (.ok (.int j), _) => i == j.toInt
  | _ => false

/-- The file meets the hypotheses of all theorems above: it has the value 18, its ranks are below 2, and the default limits are large enough. -/
example : ∃ ast script v σ', MainFile Check.env cliArgs 1 "main" sumFile ast script ∧ cliRun Check.env cliArgs 9 ast = (.ok v, σ') ∧ rankedTopL ranks 2 ast = true ∧
    calmL ast = true ∧ 2 < cliArgs.callStackSize.getD 1000 ∧ (2 + 1) * frameSize ast < cliArgs.stackSize.getD 500000 := by
  obtain ⟨ast, script, h1, h2⟩ := checkFile_main (T := sumFile) (good := isInt 18) (by decide +kernel)
  have h3 : checkRanks sumFile ranks 2 = true := by decide +kernel
  unfold checkRanks at h3
  rw [h1.parsed] at h3
  simp only [Bool.and_eq_true, decide_eq_true_eq] at h3
  generalize hr : cliRun Check.env cliArgs 9 ast = r at h2
  obtain ⟨o, σ'⟩ := r
  cases o <;> simp [isInt] at h2
  exact ⟨ast, script, _, σ', h1, hr, h3.1.1, h3.1.2, by decide, h3.2⟩

/-- How the file ends under the limits `n` and `c`: whether the stack overflows, and how many calls are in progress then. -/
private def overflows (T : List Char) (n c : Nat) : Option (Option Nat) :=
  match (parseWithIncludes Check.env.W 1 "main" T ⟨[], []⟩).1 with
  | .ok ast => match compile Check.env.cfg ast with
    | .ok script => match (machine Check.env (cliArgs.withStacks n c) script).run (fun _ => false) 300 with
      | some (.err (.overflow .stackOverflow) _ s) => some (some s.frames.length)
      | some (.done _ _) => some none
      | _ => none
    | _ => none
  | _ => none

/-- Two nested calls happen: with a limit of one, the run is reported to overflow the stack. -/
example : overflows sumFile 1000 1 = some (some 1) ∧ overflows sumFile 1000 3 = some none := by decide +kernel

/-- Recursive programs have no ranks: whatever is chosen, `fn f(x) { return f(x) }  f(1)` is refused. -/
example (ρ : String → Option Nat) (N : Nat) : rankedTopL ρ N demoRec = false := by
  cases h : ρ "f" with
  | none => simp [demoRec, rankedTopL, Node.rankedTop, Node.ranked, Node.ranksBelow, h]
  | some r => simp [demoRec, rankedTopL, Node.rankedTop, rankedL, Node.ranked, rankedR, Node.ranksBelow, h]

end Quilt.Props
