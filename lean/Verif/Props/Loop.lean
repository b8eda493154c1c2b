import Verif.ReplLoop
import Verif.CliSem
import Verif.Props.Session
import Verif.Check.Env

/-!
# The interactive loop: C70

What the program does without a main file: it asks for a line, runs it in the session of all lines before, prints its value
or reports its error, and asks again. The specification is the direct semantics with the whole standard library, as in C32
and C64; the input may also be read by the lines themselves (`@input`), so each line is what the outside answers when the
loop asks.
-/

namespace Quilt.Props

open Lib Peg Cli

variable {E : Cli.Env} {a : Cli.Args} {clock : Nat → Nat → Bool} {k fuel : Nat} {σ σ' : SSt Io} {n : Nat} {r r0 r1 : Repl Io} {ast : List Node}

/-- The builtins of the loop as the direct semantics sees them. -/
def loopLib (E : Cli.Env) : List (String × Builtin Io SClos) := (stdioLib E.L SClos.name E.O E.cfg.chk).map fun p => (p.1, .fn p.2)

/-- The host of the direct semantics for the lines. -/
def loopHost (E : Cli.Env) (a : Cli.Args) : SHost Io := sessionHost (setup E a) (loopLib E)

/-- The loop is about to ask for a line; the lines so far led to the source state `σ` and have `n` syntax nodes. -/
def Waiting (E : Cli.Env) (a : Cli.Args) : SSt Io → Nat → Repl Io → Prop :=
  Session (setup E a) ⟨[], 0⟩ (loopLib E) ((stdioLib E.L vname E.O E.cfg.chk).map fun p => (p.1, .fn p.2))

/-- After the prompt is printed and a line is read. -/
def prompted (d : Io) : Io := ⟨d.out ++ ">>> ".toList, d.asked + 2⟩

/-- The outside lets the prompt be shown, and the line it answers is `t` up to spaces around it. -/
structure Typed (E : Cli.Env) (d : Io) (t : List Char) : Prop where
  flush : E.O.flush d.asked = true
  line : ∃ s, E.O.line (d.asked + 1) = some s ∧ t = trimEndText (trimStartText s)

theorem lastOf_rel {D : Type} {lim : Limits} {l : List (String × BFn D SClos)} {l' : List (String × BFn D VClos)} (h : LibRel lim l l') (x : String) :
    BuiltinRel lim (lastOf (l.map fun p => (p.1, Builtin.fn p.2)) x) (lastOf (l'.map fun p => (p.1, Builtin.fn p.2)) x) := by
  induction h with
  | nil => exact trivial
  | @cons y f f' l l' hb _ ih =>
    simp only [List.map_cons, lastOf]
    revert ih
    cases lastOf (l.map fun p => (p.1, Builtin.fn p.2)) x with
    | none =>
      cases lastOf (l'.map fun p => (p.1, Builtin.fn p.2)) x with
      | none =>
        intro _
        simp only
        split
        · exact hb
        · exact trivial
      | some b => intro h; exact h.elim
    | some b =>
      cases lastOf (l'.map fun p => (p.1, Builtin.fn p.2)) x with
      | none => intro h; cases b <;> exact h.elim
      | some b' => exact id

theorem loop_related (E : Cli.Env) (a : Cli.Args) (x : String) :
    BuiltinRel (setup E a).opts.lim (lastOf (loopLib E) x) (lastOf ((stdioLib E.L vname E.O E.cfg.chk).map fun p => (p.1, Builtin.fn p.2)) x) :=
  lastOf_rel (stdio_rel E.L E.O _ E.cfg.chk) x

theorem Waiting.io (h : Waiting E a σ n r) : Cli.io r = σ.data := by
  obtain ⟨γ, hok⟩ := (Session.inv (loop_related E a) h).ok
  exact hok.data

theorem Waiting.with (h : Waiting E a σ n r) (d : Io) : Waiting E a { σ with data := d } n (withIo r d) := Session.host d h

theorem round_typed {t : List Char} (h : Typed E (io r) t) (ht : t ≠ []) :
    round E clock k fuel r = ((withIo r (prompted (io r))).execute E.W k t (clock r.c) fuel).map (respond E) := by
  obtain ⟨hf, s, hs, rfl⟩ := h
  have h1 : (trimEndText (trimStartText s)).isEmpty = false := by
    cases hq : trimEndText (trimStartText s) with
    | nil => exact absurd hq ht
    | cons => rfl
  unfold round
  simp only [Io.print, Io.tick, hf, if_true, hs, h1]
  rfl

/-- The report of a failed line: the header of the traceback, its entries, and the error. The session is not changed otherwise. -/
theorem report_eq (r : Repl Io) (e : Cli.Shown) : ∃ b, report r e = .again (withIo r ((io r).print ("Traceback (most recent call last):\n".toList ++ b))) (some e) := by
  obtain ⟨b, hb⟩ := trace_ok r.cache (Machine.traceBack r.vm.vm)
  exact ⟨b, by simp only [report, hb]⟩

/-! ## C70 -/

/-- The loop starts with a fresh session and the greeting. -/
theorem C70_start (E : Cli.Env) (a : Cli.Args) : Waiting E a (startSt ⟨"Quilt REPL\n".toList, 0⟩) 0 (repl E a) :=
  Waiting.with (σ := startSt ⟨[], 0⟩) Session.new _

/-- An empty line, or one of spaces only: only the prompt is printed. -/
theorem C70_blank (hw : Waiting E a σ n r) (ht : Typed E σ.data []) :
    ∃ r', round E clock k fuel r = some (.again r' none) ∧ Waiting E a { σ with data := prompted σ.data } n r' := by
  rw [← hw.io] at ht
  obtain ⟨hf, s, hs, h0⟩ := ht
  refine ⟨withIo r (prompted (io r)), ?_, ?_⟩
  · unfold round
    simp only [Io.print, Io.tick, hf, if_true, hs, ← h0, List.isEmpty_nil]
    rfl
  · rw [← hw.io]; exact hw.with _

/-- The text of a value as the loop prints it: nothing for `none`. -/
def ShownAs (E : Cli.Env) (v : SVal) (t : List Char) : Prop := (v = .none → t = []) ∧ (v ≠ .none → t = v.text E.L.F SClos.name ++ ['\n'])

theorem respond_value {v : SVal} {w : VVal} (h : SameVal v w) (r : Repl Io) :
    ∃ t, ShownAs E v t ∧ respond E (.value w, r) = .again (withIo r ((io r).print t)) none := by
  have h1 := same_text (E := E) h
  have h2 := same_none h
  simp only [respond, h1, h2]
  cases hv : isNone v with
  | true =>
    have : v = .none := by cases v <;> simp [isNone] at hv ⊢
    refine ⟨[], ⟨fun _ => rfl, fun h => absurd this h⟩, ?_⟩
    have hio : withIo r ((io r).print []) = r := by simp [withIo, Cli.io, Io.print, Repl.withVm]
    rw [hio, if_pos rfl]
  | false =>
    refine ⟨v.text E.L.F SClos.name ++ ['\n'], ⟨?_, fun _ => rfl⟩, ?_⟩
    · rintro rfl; simp [isNone] at hv
    · simp

theorem Machine.withOwn {a : Cli.Args} {m : Machine Io} (h : m.host.opts = opts a) :
    m.withLimits (a.stackSize.getD 500000) (a.callStackSize.getD 1000) = m := by
  show { m with host := m.host.withLimits (some (a.stackSize.getD 500000)) (some (a.callStackSize.getD 1000)) } = m
  have : m.host.withLimits (some (a.stackSize.getD 500000)) (some (a.callStackSize.getD 1000)) = m.host := by
    have h1 : some (a.stackSize.getD 500000) = m.host.opts.stackSize := by rw [h]; rfl
    have h2 : some (a.callStackSize.getD 1000) = m.host.opts.callStackSize := by rw [h]; rfl
    unfold Host.withLimits
    rw [h1, h2]
  rw [this]

/-- The line `t` is read as `ast` and accepted by the compiler, within its limits (C25, C53). `r1` is the session then. -/
structure Accepted (E : Cli.Env) (k : Nat) (n : Nat) (r : Repl Io) (t : List Char) (ast : List Node) (r1 : Repl Io) : Prop where
  read : ∃ r0, (withIo r (prompted (io r))).read E.W k t = (.ok ast, r0) ∧ r0.load ast = (.ok (), r1)
  placed : ∀ x ∈ ast, x.placedTop = true
  size : n + sizeL ast + (loopLib E).length ≤ 65535

/-- A round with an accepted line is a line of a session. -/
theorem Accepted.round {t : List Char} (h : Accepted E k n r t ast r1) (hw : Waiting E a σ n r) (ht : Typed E σ.data t) (hne : t ≠ []) :
    (∃ r0, Line (setup E a) ⟨[], 0⟩ (loopLib E) ((stdioLib E.L vname E.O E.cfg.chk).map fun p => (p.1, .fn p.2)) { σ with data := prompted σ.data } n r0 ast r1) ∧
    round E clock k fuel r = (r1.vm.run (clock r.c) fuel).bind (fun
      | .done v s => some (respond E (.value v, r1.withVm s))
      | .err e sp s => some (respond E (.runErr e sp, r1.withVm s))
      | .panic => some .crash
      | .next _ => none) ∧
    r1.vm.withLimits (a.stackSize.getD 500000) (a.callStackSize.getD 1000) = r1.vm := by
  obtain ⟨⟨r0, hr, hl⟩, hp, hs⟩ := h
  have hlen : ((stdioLib E.L vname E.O E.cfg.chk).map fun p => (p.1, (Builtin.fn p.2 : Builtin Io VClos))).length = (loopLib E).length := by
    have : ∀ {l : List (String × BFn Io SClos)} {l' : List (String × BFn Io VClos)}, LibRel (setup E a).opts.lim l l' → l'.length = l.length := by
      intro l l' h
      induction h with
      | nil => rfl
      | cons _ _ ih => simp [ih]
    simp only [List.length_map, loopLib]
    exact this (stdio_rel E.L E.O _ E.cfg.chk)
  have hw' := hw.with (prompted (io r))
  have hline := (C32_text hw' (loop_related E a) hr hl hp (by rw [hlen]; exact hs)).1
  rw [hw.io] at hline
  refine ⟨⟨r0, hline⟩, ?_, ?_⟩
  · rw [← hw.io] at ht
    rw [round_typed ht hne]
    unfold Repl.execute
    rw [hr]
    simp only
    unfold Repl.line
    rw [hl]
    simp only
    generalize r1.vm.run (clock r.c) fuel = q
    cases q with
    | none => rfl
    | some q => cases q <;> rfl
  · have hi := hline.session.inv hline.related
    obtain ⟨g', hld⟩ := hi.load hline.wf hline.size hline.loaded
    exact Machine.withOwn (hld.added.opts.trans hi.opts)

/-- A line with a value: whatever the limits and the clock are, the value is printed after what the line itself printed
and the loop waits in the prescribed state; or a limit was hit, and that is reported. -/
theorem C70_value {t : List Char} (hw : Waiting E a σ n r) (ht : Typed E σ.data t) (hne : t ≠ []) (h : Accepted E k n r t ast r1) {K : Nat} {v : SVal}
    (he : evalProgram (loopHost E a) K ast { σ with data := prompted σ.data } = (.ok v, σ')) {q : Round} (hr : round E clock k fuel r = some q) :
    (∃ r' p, q = .again r' none ∧ ShownAs E v p ∧ Waiting E a { σ' with exits := [], data := σ'.data.print p } (n + sizeL ast) r') ∨
    ∃ r' e sp, q = .again r' (some (.error e sp)) ∧ (e = .overflow .stackOverflow ∨ e = .runtimeLimit) := by
  obtain ⟨⟨r0, hl⟩, hround, hown⟩ := h.round (clock := clock) (fuel := fuel) hw ht hne
  rw [hround] at hr
  cases hrun : r1.vm.run (clock r.c) fuel with
  | none => rw [hrun] at hr; simp at hr
  | some res =>
    rw [hrun] at hr
    have hfail : ∀ e sp s, some (respond E (.runErr e sp, r1.withVm s)) = some q → (e = .overflow .stackOverflow ∨ e = .runtimeLimit) →
        ∃ r' e sp, q = .again r' (some (.error e sp)) ∧ (e = .overflow .stackOverflow ∨ e = .runtimeLimit) := by
      intro e sp s h1 h2
      obtain ⟨b, hb⟩ := report_eq (r1.withVm s) (.error e sp)
      simp only [respond, hb, Option.some.injEq] at h1
      exact ⟨_, e, sp, h1.symm, h2⟩
    rcases C32_value_or_limit hl he (a.stackSize.getD 500000) (a.callStackSize.getD 1000) (clock r.c) fuel (res := res) (by rw [hown]; exact hrun) with
      ⟨w, s', rfl, h1, h2, _, h4⟩ | ⟨sp, s', rfl⟩ | ⟨sp, s', rfl⟩
    · obtain ⟨p, hp, hq⟩ := respond_value (E := E) h1 (r1.withVm s')
      refine .inl ⟨withIo (r1.withVm s') ((io (r1.withVm s')).print p), p, ?_, hp, ?_⟩
      · simp only [Option.bind_some, Option.some.injEq] at hr
        rw [← hr, hq]
      · have hio : io (r1.withVm s') = σ'.data := h2
        rw [hio]
        exact Waiting.with (σ := { σ' with exits := [] }) h4 _
    · exact .inr (hfail _ sp s' hr (.inl rfl))
    · exact .inr (hfail _ sp s' hr (.inr rfl))

/-- A line that fails: the error is reported at the prescribed position, after what the line printed and a traceback, or a limit was hit.
If no captured variable was on the stack when the error occurred (C33), the loop waits in the prescribed state. -/
theorem C70_error {t : List Char} (hw : Waiting E a σ n r) (ht : Typed E σ.data t) (hne : t ≠ []) (h : Accepted E k n r t ast r1) {K : Nat} {e : Err}
    {sp : Option Span} (he : evalProgram (loopHost E a) K ast { σ with data := prompted σ.data } = (.err e sp, σ'))
    (hno : e ≠ .overflow .stackOverflow) (hnb : ∀ x, e ≠ .name (.undefinedBuiltin x)) {q : Round} (hr : round E clock k fuel r = some q) :
    (∃ r' sp' b, q = .again r' (some (.error e sp')) ∧ (∀ x, sp = some x → sp' = x) ∧
      io r' = σ'.data.print ("Traceback (most recent call last):\n".toList ++ b) ∧
      (e ≠ .runtimeLimit → r'.vm.vm.openUps = [] → Waiting E a { σ' with exits := [], data := io r' } (n + sizeL ast) r')) ∨
    ∃ r' e sp, q = .again r' (some (.error e sp)) ∧ (e = .overflow .stackOverflow ∨ e = .runtimeLimit) := by
  obtain ⟨⟨r0, hl⟩, hround, hown⟩ := h.round (clock := clock) (fuel := fuel) hw ht hne
  rw [hround] at hr
  cases hrun : r1.vm.run (clock r.c) fuel with
  | none => rw [hrun] at hr; simp at hr
  | some res =>
    rw [hrun] at hr
    have hrep : ∀ e sp s, some (respond E (.runErr e sp, r1.withVm s)) = some q →
        ∃ b, q = .again (withIo (r1.withVm s) ((io (r1.withVm s)).print ("Traceback (most recent call last):\n".toList ++ b))) (some (.error e sp)) := by
      intro e sp s h1
      obtain ⟨b, hb⟩ := report_eq (r1.withVm s) (.error e sp)
      simp only [respond, hb, Option.some.injEq] at h1
      exact ⟨b, h1.symm⟩
    rcases C32_error_or_limit hl he hno hnb (a.stackSize.getD 500000) (a.callStackSize.getD 1000) (clock r.c) fuel (res := res) (by rw [hown]; exact hrun) with
      ⟨sp', s', rfl, h1, h2, _, h4⟩ | ⟨sp, s', rfl⟩ | ⟨sp, s', rfl⟩
    · obtain ⟨b, hb⟩ := hrep _ _ _ hr
      have hio : io (r1.withVm s') = σ'.data := h2
      rw [hio] at hb
      refine .inl ⟨_, sp', b, hb, h1, rfl, fun h5 h6 => ?_⟩
      exact Waiting.with (σ := { σ' with exits := [] }) (h4 h5 h6) _
    · obtain ⟨b, hb⟩ := hrep _ _ _ hr
      exact .inr ⟨_, _, _, hb, .inl rfl⟩
    · obtain ⟨b, hb⟩ := hrep _ _ _ hr
      exact .inr ⟨_, _, _, hb, .inr rfl⟩

/-- A line that cannot be read: a traceback and the report of the syntax error; nothing in the session changes. -/
theorem C70_unread {t : List Char} (hw : Waiting E a σ n r) (ht : Typed E σ.data t) (hne : t ≠ []) {e : IErr}
    (hr : (withIo r (prompted (io r))).read E.W k t = (.err e, r0)) :
    ∃ r' b, round E clock k fuel r = some (.again r' (some (.reading e))) ∧
      Waiting E a { σ with data := (prompted σ.data).print ("Traceback (most recent call last):\n".toList ++ b) } n r' := by
  have hw' := hw.with (prompted (io r))
  rw [← hw.io] at ht ⊢
  rw [round_typed ht hne]
  obtain ⟨b, hb⟩ := report_eq r0 (.reading e)
  refine ⟨withIo r0 ((io r0).print ("Traceback (most recent call last):\n".toList ++ b)), b, ?_, ?_⟩
  · unfold Repl.execute
    rw [hr]
    simp only [Option.map_some, respond, hb]
  · unfold Repl.read at hr
    generalize parseWithIncludes _ _ _ _ _ = x at hr
    obtain ⟨o, c⟩ := x
    simp only [Prod.mk.injEq] at hr
    obtain ⟨_, rfl⟩ := hr
    exact Waiting.with (σ := { σ with data := prompted (io r) }) (Session.unread _ _ hw') _

/-- The process ends only if the prompt cannot be written, no line can be read, or the line panics. -/
theorem C70_crash (h : round E clock k fuel r = some .crash) :
    E.O.flush (io r).asked = false ∨ E.O.line ((io r).asked + 1) = none ∨
      ∃ t r', Typed E (io r) t ∧ t ≠ [] ∧ (withIo r (prompted (io r))).execute E.W k t (clock r.c) fuel = some (.panic, r') := by
  cases hf : E.O.flush (io r).asked with
  | false => exact .inl rfl
  | true =>
    cases hs : E.O.line ((io r).asked + 1) with
    | none => exact .inr (.inl rfl)
    | some s =>
      by_cases hne : trimEndText (trimStartText s) = []
      · unfold round at h
        simp only [Io.print, Io.tick, hf, if_true, hs, hne, List.isEmpty_nil] at h
        simp at h
      · have ht : Typed E (io r) (trimEndText (trimStartText s)) := ⟨hf, s, hs, rfl⟩
        rw [round_typed ht hne] at h
        cases hx : (withIo r (prompted (io r))).execute E.W k (trimEndText (trimStartText s)) (clock r.c) fuel with
        | none => rw [hx] at h; simp at h
        | some p =>
          obtain ⟨l, r'⟩ := p
          rw [hx] at h
          have hrep : ∀ e, report r' e ≠ .crash := by
            intro e
            obtain ⟨b, hb⟩ := report_eq r' e
            rw [hb]; simp
          cases l with
          | panic => exact .inr (.inr ⟨_, r', ht, hne, hx⟩)
          | value v => simp [respond] at h
          | readErr e => simp only [Option.map_some, respond, Option.some.injEq] at h; exact absurd h (hrep _)
          | compileErr e sp => simp only [Option.map_some, respond, Option.some.injEq] at h; exact absurd h (hrep _)
          | runErr e sp => simp only [Option.map_some, respond, Option.some.injEq] at h; exact absurd h (hrep _)

/-- At the end of the input, where `read_line` answers an empty line again and again, the loop does not end: it prints the prompt
for ever. -/
theorem C70_violated_end (hf : ∀ i, E.O.flush i = true) (m : Nat) (hend : ∀ i, m ≤ i → E.O.line i = some []) :
    ∀ (j : Nat) (r : Repl Io), m ≤ (io r).asked + 1 → ∃ r', rounds E clock k fuel j r = some (some r', []) ∧
      (io r').out = (io r).out ++ (List.replicate j ">>> ".toList).flatten
  | 0, r, _ => ⟨r, rfl, by simp⟩
  | j + 1, r, hm => by
    obtain ⟨r', h1, h2⟩ := C70_violated_end hf m hend j (withIo r (prompted (io r))) (by show m ≤ (io r).asked + 2 + 1; omega)
    refine ⟨r', ?_, ?_⟩
    · have h0 : round E clock k fuel r = some (.again (withIo r (prompted (io r))) none) := by
        unfold round
        simp only [Io.print, Io.tick, hf, if_true, hend _ hm]
        rfl
      simp only [rounds, h0, Option.bind_some, h1, Option.map_some, Option.toList_none, List.nil_append]
    · rw [h2]
      show (io r).out ++ ">>> ".toList ++ _ = _
      simp [List.replicate_succ]

/-- A session of `n` rounds is one round after the other, each beginning where the one before ended; the reports are shown in this
order. If the process ends, it is in the last of fewer than `n + 1` rounds. -/
theorem C70_session {es : List Cli.Shown} {o : Option (Repl Io)} (h : rounds E clock k fuel n r = some (o, es)) :
    ∃ (j : Nat) (at_ : Nat → Repl Io) (shown : Nat → Option Cli.Shown), at_ 0 = r ∧ j ≤ n ∧ (∀ i < j, round E clock k fuel (at_ i) = some (.again (at_ (i + 1)) (shown i))) ∧
      es = (List.range j).filterMap shown ∧
      ((o = some (at_ j) ∧ j = n) ∨ (o = none ∧ j < n ∧ round E clock k fuel (at_ j) = some .crash)) := by
  induction n generalizing r o es with
  | zero =>
    cases h
    exact ⟨0, fun _ => r, fun _ => none, rfl, Nat.le_refl _, by omega, rfl, .inl ⟨rfl, rfl⟩⟩
  | succ n ih =>
    unfold rounds at h
    cases hq : round E clock k fuel r with
    | none => rw [hq] at h; cases h
    | some q =>
      rw [hq] at h
      cases q with
      | crash =>
        cases h
        exact ⟨0, fun _ => r, fun _ => none, rfl, by omega, by omega, rfl, .inr ⟨rfl, by omega, hq⟩⟩
      | again r1 e =>
        simp only [Option.bind_some, Option.map_eq_some_iff] at h
        obtain ⟨⟨o', es'⟩, h1, h2⟩ := h
        cases h2
        obtain ⟨j, f, g, h3, h4, h5, h6, h7⟩ := ih h1
        refine ⟨j + 1, fun i => match i with | 0 => r | i + 1 => f i, fun i => match i with | 0 => e | i + 1 => g i, rfl, by omega, ?_, ?_, ?_⟩
        · intro i hi
          cases i with
          | zero => simp only [h3]; exact hq
          | succ i => exact h5 i (by omega)
        · rw [List.range_succ_eq_map, List.filterMap_cons, List.filterMap_map, h6]
          cases e <;> rfl
        · rcases h7 with ⟨h8, h9⟩ | ⟨h8, h9, h10⟩
          · exact .inl ⟨h8, by omega⟩
          · exact .inr ⟨h8, by omega, h10⟩

/-! ### Examples -/

/-- Somebody types these lines and then ends the input. -/
def replLines (ls : List String) : Outside := { Check.nobody with line := fun i => some ((ls.map String.toList).getD (i / 2) []) }

def replEnv (ls : List String) : Cli.Env := { Check.env with O := replLines ls }

/-- What is printed up to the end of `n` rounds. -/
def transcript (ls : List String) (n : Nat) : Option (List Char) :=
  (rounds (replEnv ls) (fun _ _ => false) 5 1000 n (repl (replEnv ls) {})).bind fun p => p.1.map fun r => (io r).out

private def checkLine (E : Cli.Env) (a : Cli.Args) (t : List Char) (good : Out SVal × SSt Io → Bool) : Bool :=
  match (withIo (repl E a) (prompted ⟨"Quilt REPL\n".toList, 0⟩)).read E.W 1 t with
  | (.ok ast, r0) => (r0.load ast).1 matches .ok () && (ast.all Node.placedTop &&
    (decide (0 + sizeL ast + (loopLib E).length ≤ 65535) && good (evalProgram (loopHost E a) 9 ast (startSt (prompted ⟨"Quilt REPL\n".toList, 0⟩)))))
  | _ => false

private theorem checkLine_accepted {t : List Char} {good : Out SVal × SSt Io → Bool} (h : checkLine E a t good = true) :
    ∃ ast r1, Accepted E 1 0 (repl E a) t ast r1 ∧ good (evalProgram (loopHost E a) 9 ast (startSt (prompted ⟨"Quilt REPL\n".toList, 0⟩))) = true := by
  unfold checkLine at h
  have hio : io (repl E a) = ⟨"Quilt REPL\n".toList, 0⟩ := rfl
  split at h
  · rename_i ast r0 hr
    simp only [Bool.and_eq_true, decide_eq_true_eq] at h
    obtain ⟨h1, h2, h3, h4⟩ := h
    cases hl : r0.load ast with
    | mk o r1 =>
      rw [hl] at h1
      cases o with
      | ok u => exact ⟨ast, r1, ⟨⟨r0, by rw [hio]; exact hr, hl⟩, fun x hx => List.all_eq_true.1 h2 x hx, h3⟩, h4⟩
      | err => simp at h1
      | panic => simp at h1
  · simp at h

private def good7 : Out SVal × SSt Io → Bool
  | (.ok (.int 7), σ) => σ.data.out == "Quilt REPL\n>>> 3 \n".toList
  | _ => false

private def goodZero : Out SVal × SSt Io → Bool
  | (.err .zeroDivision (some _), _) => true
  | _ => false

/-- The hypotheses of `C70_value` for a first line that prints. -/
example : Typed (replEnv ["  if @println(3) == none { 3 + 4 }\n"]) ⟨"Quilt REPL\n".toList, 0⟩ "if @println(3) == none { 3 + 4 }".toList ∧
    ∃ ast r1, Accepted (replEnv ["  if @println(3) == none { 3 + 4 }\n"]) 1 0 (repl (replEnv ["  if @println(3) == none { 3 + 4 }\n"]) {})
      "if @println(3) == none { 3 + 4 }".toList ast r1 ∧
      good7 (evalProgram (loopHost (replEnv ["  if @println(3) == none { 3 + 4 }\n"]) {}) 9 ast (startSt (prompted ⟨"Quilt REPL\n".toList, 0⟩))) = true :=
  ⟨⟨rfl, _, rfl, by decide +kernel⟩, checkLine_accepted (by decide +kernel)⟩

/-- Those of `C70_error`. -/
example : ∃ ast r1, Accepted Check.env 1 0 (repl Check.env {}) "[1, 2 / 0]".toList ast r1 ∧
    goodZero (evalProgram (loopHost Check.env {}) 9 ast (startSt (prompted ⟨"Quilt REPL\n".toList, 0⟩))) = true := checkLine_accepted (by decide +kernel)

/-- A session of the interactive loop. -/
example : transcript ["let x = 5\n", "  x + 2  \n", "\n", "@println(x)\n"] 6 =
    some "Quilt REPL\n>>> >>> 7\n>>> >>> 5 \n>>> >>> ".toList := by decide +kernel

/-- Two reports, in this order. -/
example : ((rounds (replEnv ["1 +\n", "2 / 0\n"]) (fun _ _ => false) 5 1000 2 (repl (replEnv ["1 +\n", "2 / 0\n"]) {})).map fun p =>
    p.2.map fun | .reading _ => 1 | .error .zeroDivision _ => 2 | _ => 0) = some [1, 2] := by decide +kernel

/-- After a line that cannot be read, the traceback is not about this line: its entry shows the last line that was run. -/
theorem C70_violated_trace : transcript ["7\n", "1 +\n"] 2 =
    some "Quilt REPL\n>>> 7\n>>> Traceback (most recent call last):\n   File \"@__exec__0\", line 0, in @__repl__\n      7\n".toList := by
  decide +kernel

end Quilt.Props
