import Verif.Vm.Keeps
import Verif.Props.Worlds
import Verif.Props.Larger

/-!
# What programs print: C94

Output is only added, and only by the builtins that print. So programs that do not call these print nothing; and what a run has printed when a limit stops it is
the beginning of what the program prints with larger limits, and of what it is meant to print.
-/

namespace Quilt.Props

open Lib Peg Cli

variable {D : Type} {W : World} {M : Machine.Setup D} {data : D} {name : String} {T : List Char} {ast : List Node} {S : SHost D} {σ : SSt D} {m m' : Machine D}
  {R : D → D → Prop}

private theorem keeps_limits {H : Host D} (K : H.Keeps R) (n c : Option Nat) : (H.withLimits n c).Keeps R := ⟨K.refl, K.trans, K.fn, K.ctx, K.enter, K.exit⟩

private theorem no_exits {script : Script} (h : Prepared M data script S σ m) : m.vm.exitFns = [] := by
  induction h with
  | new => rfl
  | builtin _ _ _ ih => exact ih
  | global _ _ _ ih => exact ih
  | external x _ _ h1 ih =>
    unfold Machine.setExternal at h1
    split at h1
    · cases h1
    · split at h1
      · cases h1; exact ih
      · cases h1

/-! ## The machine -/

/-- What holds between the data before and after every call of a builtin, of an exit of a context manager and of a hook holds between the data before and after every
run, whatever the program, the limits and the clock are and however the run ends. -/
theorem C94_grows (K : m.host.Keeps R) (hx : m.vm.exitFns = []) {clock : Nat → Bool} {fuel : Nat} {r : StepR D} (hr : m.run clock fuel = some r) :
    r.Left (R m.vm.data) :=
  _root_.Quilt.VM.run_keeps K clock fuel 0 0 m.vm (by intro e he; rw [hx] at he; cases he) hr

/-- Only builtins that a program calls change the data: the machine `m'` was prepared like `m`, but with other functions under the names `A`. If it keeps `R`, then the run of a
program that calls none of `A` keeps `R` on `m`, too. -/
theorem C94_uncalled {A : String → Prop} {script : Script} (hp : ∃ k c c', parseWithIncludes W k name T c = (.ok ast, c')) (hc : compile M.cfg ast = .ok script)
    (ht : Twins A M data script S σ m m') (hpl : ∀ n ∈ ast, n.placedTop = true) (hsz : sizeL ast ≤ 65535) (hn : m.host.syms.entries.length ≤ 65536) (hQ : Modest S)
    (hcmp : ∀ K, (evalProgram S K ast σ).1 ≠ .unspec true) (hA : ∀ n ∈ subsL ast, ∀ x, n.calls = some x → ¬ A x) (K : m'.host.Keeps R) {n c : Nat} {clock : Nat → Bool}
    {fuel : Nat} {r : StepR D} (hr : (m.withLimits n c).run clock fuel = some r) : r.Left (R m.vm.data) := by
  rw [C91_machine hp hc ht hpl hsz hn hQ hcmp hA] at hr
  have h1 : m'.vm = m.vm := by
    obtain ⟨_, mp, _, h2, h3, _⟩ := ht.spoil .halt
    exact (congrArg Machine.vm h3.host).trans (congrArg Machine.vm h2.host).symm
  have h2 := no_exits ht.prepared
  rw [← h1] at h2 ⊢
  exact C94_grows (m := m'.withLimits n c) (keeps_limits K _ _) h2 hr

/-- Larger limits: the run ends in the same way, or the smaller machine reports a limit; then the larger one ends with data that come from the data the
smaller one ended with. (For runs that end at all, and not with a crash.) -/
theorem C94_cut (h : RunsText W M data name T ast S σ m) (hQ : Honest S) (hcmp : ∀ K, (evalProgram S K ast σ).1 ≠ .unspec true) (K : m.host.Keeps R)
    {n n' c c' k' : Nat} (hn : n ≤ n') (hc : c ≤ c') (hk : m.host.opts.lim.strMax ≤ k')
    (hB : ∀ i b, m.host.builtins i = some b → b.Blind m.host.opts.lim ⟨k', m.host.opts.lim.arrMax⟩)
    {clock clock' : Nat → Bool} (hclk : ∀ t, clock' t = true → clock t = true) {fuel fuel' : Nat} {r r' : StepR D}
    (hr : (m.withLimits n c).run clock fuel = some r) (hr' : ((m.withStrings k').withLimits n' c').run clock' fuel' = some r') :
    r = r' ∨ ∃ e sp s, r = .err e sp s ∧ LimitErr e ∧ r'.Left (R s.data) := by
  have hl : m.vm.exitFns = [] := no_exits h.prepared.choose_spec.2
  let H := m.host.withLimits (some n) (some c)
  let H' := (m.host.withLimits (some n') (some c')).withStrings k'
  have hA : H.Alike H' := ⟨rfl, fun i f hf d args => congrArg Prod.snd (hB i _ hf d args).symm, fun i f e hf d args => congrArg Prod.snd (hB i _ hf d args).symm, rfl⟩
  have hK : H'.Keeps R := by
    refine ⟨K.refl, K.trans, fun i f hf d args => ?_, fun i f e hf => ⟨fun d args => ?_, (K.ctx i f e hf).2⟩, K.enter, K.exit⟩
    · show R d (f d args ⟨k', m.host.opts.lim.arrMax⟩).2
      rw [← hB i _ hf d args]; exact K.fn i f hf d args
    · show R d (f d args ⟨k', m.host.opts.lim.arrMax⟩).2
      rw [← hB i _ hf d args]; exact (K.ctx i f e hf).1 d args
  refine _root_.Quilt.VM.run_cut (H := H) (H' := H') hA hK (L := LimitErr)
    (I := fun s => s.sp ≤ n ∧ ∀ k s', s.steps (m.host.withLimits none none) k = some s' → ¬ _root_.Quilt.VM.Over (s'.step (m.host.withLimits none none)))
    (.inr (.inr rfl)) (fun s hs => ?_) hclk fuel fuel' 0 0 m.vm (by intro e he; rw [hl] at he; cases he) ⟨(C53_hypotheses h).1.sp n, never_over h hQ hcmp⟩ hr hr'
  obtain ⟨h1, h2⟩ := hs
  have h0 := h2 0 s rfl
  rcases _root_.Quilt.VM.step_raise (H := m.host) h1 hn hc with ⟨sp, x, h3⟩ | h3 | h3
  · exact .inl ⟨_, sp, x, h3, .inl rfl⟩
  · exact (h0 h3).elim
  · have hB' : ∀ i b, (m.host.withLimits (some n') (some c')).builtins i = some b → b.Roomy m.host.opts.lim.strMax k' m.host.opts.lim.arrMax := by
      intro i b hb
      have := hB i b hb
      cases b with
      | fn f => exact fun d args => .inr (this d args)
      | ctx f e => exact fun d args => .inr (this d args)
    rcases _root_.Quilt.VM.step_strings (H := m.host.withLimits (some n') (some c')) (k := k') hk hB' s with ⟨sp, x, h4⟩ | h4
    · exact .inl ⟨_, sp, x, h3.trans h4, .inr (.inl rfl)⟩
    · refine .inr ⟨h3.trans h4, fun s' hs' => ?_⟩
      have hl := _root_.Quilt.VM.step_lim (H := m.host) (m := c) h1
      rw [show s.step (m.host.withLimits (some n) (some c)) = .next s' from hs'] at hl
      generalize hy : s.step (m.host.withLimits none none) = r at hl h0
      cases hl with
      | stray => exact (h0 ⟨_, _, rfl⟩).elim
      | same _ hle => exact ⟨hle s' rfl, fun k s2 hk => h2 (k + 1) s2 (by simp only [_root_.Quilt.VM.steps, hy]; exact hk)⟩

/-- The semantics says how the program ends, and that it does not crash. -/
def Definite (chk : Bool) : Out SVal → Prop
  | .ok _ | .err _ _ => True
  | .ret _ => chk = false
  | _ => False

/-- The prescribed data: a run ends with the data that the semantics prescribes, or it reports a limit; then the prescribed data come from the data it ends with. -/
theorem C94_prescribed (h : RunsText W M data name T ast S σ m) (hQ : Honest S) (hcmp : ∀ K, (evalProgram S K ast σ).1 ≠ .unspec true) (K : m.host.Keeps R) {k : Nat}
    (hd : Definite m.host.cfg.chk (evalProgram S k ast σ).1) {n c : Nat} {clock : Nat → Bool} {fuel : Nat} {r : StepR D} (hr : (m.withLimits n c).run clock fuel = some r) :
    (∃ e sp s, r = .err e sp s ∧ LimitErr e ∧ R s.data (evalProgram S k ast σ).2.data) ∨ r.Left (· = (evalProgram S k ast σ).2.data) ∧ r ≠ .panic := by
  have hl : m.vm.exitFns = [] := no_exits h.prepared.choose_spec.2
  have hR := (C53_hypotheses h).1
  have h1 : (evalProgram S k ast σ).1 ≠ .timeout := by intro h; rw [h] at hd; exact hd
  have h2 : ∀ b, (evalProgram S k ast σ).1 ≠ .unspec b := by intro b h; rw [h] at hd; exact hd
  obtain ⟨j, s', h3, h4⟩ := (hR.outcome k).agree h1 h2
  have h5 := _root_.Quilt.VM.run_of_steps (clock := fun _ => false) (fun _ => rfl) j 0 0 h3 rfl h4.terminal
  have h6 : (s'.step (m.host.withLimits none none)).Left (· = (evalProgram S k ast σ).2.data) ∧ s'.step (m.host.withLimits none none) ≠ .panic := by
    generalize s'.step (m.host.withLimits none none) = r' at h4
    cases r' with
    | next => exact h4.elim
    | done => obtain ⟨_, _, _, h, _⟩ := h4; exact ⟨h, by simp⟩
    | err => obtain ⟨_, _, _, h, _⟩ := h4; exact ⟨h, by simp⟩
    | panic =>
      rcases h4 with h4 | ⟨h4, v, h4'⟩
      · rw [h4] at hd; exact hd.elim
      · rw [h4'] at hd
        have hd : m.host.cfg.chk = false := hd
        have h4 : m.host.cfg.chk = true := h4
        rw [hd] at h4; cases h4
  have hA : (m.host.withLimits (some n) (some c)).Alike (m.host.withLimits none none) := ⟨rfl, fun _ _ _ _ _ => rfl, fun _ _ _ _ _ _ => rfl, rfl⟩
  have := _root_.Quilt.VM.run_cut (H := m.host.withLimits (some n) (some c)) (H' := m.host.withLimits none none) hA (keeps_limits K _ _) (L := LimitErr)
    (I := fun s => s.sp ≤ n ∧ ∀ k s', s.steps (m.host.withLimits none none) k = some s' → ¬ _root_.Quilt.VM.Over (s'.step (m.host.withLimits none none)))
    (.inr (.inr rfl)) (fun s hs => ?_) (clock := clock) (clock' := fun _ => false) (by simp) fuel (j + 1) 0 0 m.vm (by intro e he; rw [hl] at he; cases he)
    ⟨hR.sp n, never_over h hQ hcmp⟩ hr h5
  · rcases this with h7 | ⟨e, sp, x, h7, h8, h9⟩
    · rw [h7]; exact .inr h6
    · refine .inl ⟨e, sp, x, h7, h8, ?_⟩
      revert h9 h6
      cases s'.step (m.host.withLimits none none) with
      | panic => intro h6; exact (h6.2 rfl).elim
      | _ => intro h6 h9; rw [← h6.1]; exact h9
  · obtain ⟨h1, h2⟩ := hs
    have h0 := h2 0 s rfl
    have hl := _root_.Quilt.VM.step_lim (H := m.host) (m := c) h1
    generalize hy : s.step (m.host.withLimits none none) = r at hl h0 ⊢
    generalize hz : s.step (m.host.withLimits (some n) (some c)) = r1 at hl ⊢
    cases hl with
    | stray => exact (h0 ⟨_, _, rfl⟩).elim
    | over _ sp x => exact .inl ⟨_, sp, x, rfl, .inl rfl⟩
    | same _ hle =>
      exact .inr ⟨rfl, fun s' hs' => ⟨hle s' hs', fun k s2 hk => h2 (k + 1) s2 (by simp only [_root_.Quilt.VM.steps, hy, hs']; exact hk)⟩⟩

/-! ## The library -/

/-- The builtins that print. -/
def printing : List String := ["println", "print", "debug", "input"]

private theorem quiet_io {C : Type} (L : Ops) {req : List PKind} {body : Params C req → Io → Res (Val C) × Io} (h : ∀ xs d, (body xs d).2.out = d.out) (d : Io)
    (args : List (Val C)) (lim : Limits) : (builtinIo L req body d args lim).2.out = d.out := by
  unfold builtinIo
  split
  · exact h ..
  · rfl
  · rfl

private theorem stdio_quiet {C : Type} (L : Ops) (O : Outside) (chk : Bool) (cname : C → String) {p : String × BFn Io C} (hp : p ∈ stdioLib L cname O chk) (hx : p.1 ∉ printing)
    (d : Io) (args : List (Val C)) (lim : Limits) : (p.2 d args lim).2.out = d.out := by
  have cons : ∀ {x : String} {f : BFn Io C} {l : List (String × BFn Io C)}, (printing.contains x = false → ∀ d args lim, (f d args lim).2.out = d.out) →
      (∀ p ∈ l, p.1 ∉ printing → ∀ d args lim, (p.2 d args lim).2.out = d.out) → ∀ p ∈ (x, f) :: l, p.1 ∉ printing → ∀ d args lim, (p.2 d args lim).2.out = d.out := by
    intro x f l h1 h2 p hp hx
    rcases List.mem_cons.1 hp with rfl | hp
    · exact h1 (by simpa using hx)
    · exact h2 p hp hx
  have int : ∀ a b d, (randint O a b d : Res (Val C) × Io).2.out = d.out := by intros; unfold randint; split <;> rfl
  have float : ∀ a b d, (randfloat L O a b d : Res (Val C) × Io).2.out = d.out := by intros; unfold randfloat; split; rfl; split <;> rfl
  have choice : ∀ (l : List (Val C)) d, (randchoice O l d).2.out = d.out := by intros; unfold randchoice; split; rfl; split <;> rfl
  have bow : ∀ d, (randomRainbowColor O d : Res (Val C) × Io).2.out = d.out := by intros; unfold randomRainbowColor; split <;> rfl
  have gnow : ∀ d, (now O d : Res (Val C) × Io).2.out = d.out := by intros; unfold now; split <;> rfl
  have gdate : ∀ d, (date O d : Res (Val C) × Io).2.out = d.out := by intros; unfold date; split <;> rfl
  have gread : ∀ t d, (readfile O t d : Res (Val C) × Io).2.out = d.out := by intros; unfold readfile; split <;> rfl
  have gsame : ∀ (a b : Val C) d, (same L O a b d).2.out = d.out := by intros; unfold same; split <;> rfl
  have geq : ∀ a b d, (assertEq L cname O a b d).2.out = d.out := by
    intro a b d
    have := gsame a b d
    unfold assertEq
    split <;> simp_all
  have gne : ∀ a b d, (assertNe L cname O a b d).2.out = d.out := by
    intro a b d
    have := gsame a b d
    unfold assertNe
    split <;> simp_all
  unfold stdioLib at hp
  simp only [List.mem_append] at hp
  rcases hp with ((((hp | hp) | hp) | hp) | hp) | hp
  · obtain ⟨g, hg⟩ := quiet_std L chk cname hp
    rw [hg]
  · unfold randLib at hp
    exact cons (fun _ => quiet_io L fun _ _ => rfl) (cons (fun _ => quiet_io L fun _ _ => rfl) (cons (fun _ => quiet_io L fun _ _ => int ..)
      (cons (fun _ => quiet_io L fun _ _ => float ..) (cons (fun _ => quiet_io L fun _ _ => choice ..) (by simp))))) p hp hx d args lim
  · unfold randColorLib at hp
    exact cons (fun _ => quiet_io L fun _ _ => rfl) (cons (fun _ => quiet_io L fun _ _ => rfl) (cons (fun _ => quiet_io L fun _ _ => bow ..) (by simp))) p hp hx d args lim
  · unfold timeLib at hp
    exact cons (fun _ => quiet_io L fun _ _ => gnow ..) (cons (fun _ => quiet_io L fun _ _ => gdate ..) (by simp)) p hp hx d args lim
  · unfold ioLib at hp
    exact cons (fun h => absurd h (by decide)) (cons (fun h => absurd h (by decide)) (cons (fun h => absurd h (by decide)) (cons (fun h => absurd h (by decide))
      (cons (fun _ => quiet_io L fun _ _ => gread ..) (by simp))))) p hp hx d args lim
  · unfold compareLib at hp
    exact cons (fun _ => quiet_io L fun _ _ => geq ..) (cons (fun _ => quiet_io L fun _ _ => gne ..) (by simp)) p hp hx d args lim

private def printsSome : Option (Res (Val String) × Io) → Bool
  | some (_, d) => !d.out.isEmpty
  | none => false

/-- In the library, exactly these builtins print: the others leave the output as it is, for all arguments; these add to it for some. -/
theorem C94_library :
    (∀ {C : Type} (L : Ops) (O : Outside) (chk : Bool) (cname : C → String) (lim : Limits) (d d' : Io) (x : String) (args : List (Val C)) (r : Res (Val C)), x ∉ printing →
      callIo L O chk cname lim d x args = some (r, d') → d'.out = d.out) ∧
    ∀ x ∈ printing, ∃ (args : List (Val String)) (r : Res (Val String)) (d' : Io), callIo Check.env.L Check.env.O true id ⟨9, 9⟩ ⟨[], 0⟩ x args = some (r, d') ∧ d'.out ≠ [] := by
  constructor
  · intro C L O chk cname lim d d' x args r hx h
    unfold callIo at h
    rw [Option.map_eq_some_iff] at h
    obtain ⟨f, h1, h2⟩ := h
    have := stdio_quiet L O chk cname (mem_of_lookup h1) hx d args lim
    simp only [h2] at this
    exact this
  · have key : ∀ x, printsSome (callIo Check.env.L Check.env.O true id ⟨9, 9⟩ ⟨[], 0⟩ x [.str ['a']]) = true →
        ∃ (args : List (Val String)) (r : Res (Val String)) (d' : Io), callIo Check.env.L Check.env.O true id ⟨9, 9⟩ ⟨[], 0⟩ x args = some (r, d') ∧ d'.out ≠ [] := by
      intro x h
      cases h1 : callIo Check.env.L Check.env.O true id ⟨9, 9⟩ ⟨[], 0⟩ x [.str ['a']] with
      | none => rw [h1] at h; cases h
      | some r =>
        obtain ⟨r, d'⟩ := r
        rw [h1] at h
        refine ⟨_, r, d', h1, fun h2 => ?_⟩
        simp [printsSome, h2] at h
    have all : printing.all (fun x => printsSome (callIo Check.env.L Check.env.O true id ⟨9, 9⟩ ⟨[], 0⟩ x [.str ['a']])) = true := by decide +kernel
    exact fun x hx => key x (List.all_eq_true.1 all x hx)

/-! ## The command -/

variable {E : Cli.Env} {a a' : Cli.Args} {k : Nat} {src : List Char} {script : Script}

/-- The program printed `p`; the command added the value, if it was asked for, or the traceback. -/
def Wrote (a : Cli.Args) (p : List Char) (e : End) : Prop :=
  e.status = 0 ∧ (e.out = p ∨ a.result = true ∧ ∃ v, e.out = p ++ "RETURNED: ".toList ++ v ++ ['\n']) ∨
  e.status = 1 ∧ ∃ b, e.out = p ++ "Traceback (most recent call last):\n".toList ++ b

/-- What was reported is that a limit was reached. -/
def Limited (e : End) : Prop := ∃ x sp, e.shown = some (.error x sp) ∧ LimitErr x

private theorem machine_blind (E : Cli.Env) (a : Cli.Args) (script : Script) (k k' n : Nat) (i : Nat) (b : Builtin Io VClos) (hb : (machine E a script).host.builtins i = some b) :
    b.Blind ⟨k, n⟩ ⟨k', n⟩ := by
  unfold machine at hb
  refine addBuiltins_all (P := fun b => b.Blind ⟨k, n⟩ ⟨k', n⟩) _ _ ?_ ?_ i b hb
  · intro p hp
    obtain ⟨q, hq, rfl⟩ := List.mem_map.1 hp
    exact fun d args => roomy_mem k k' n hq d args
  · intro i b h; cases h

private theorem cli_data (E : Cli.Env) (a : Cli.Args) (script : Script) : (machine E a script).vm.data = ⟨[], 0⟩ := by
  have : ∀ (bs : List (String × Builtin Io VClos)) (m : Machine Io), (m.addBuiltins bs).vm = m.vm := by
    intro bs
    induction bs with
    | nil => intro m; rfl
    | cons p bs ih =>
      intro m
      exact ih { m with host := { m.host with syms := (m.host.syms.add p.1).2, builtins := upd m.host.builtins (m.host.syms.add p.1).1 (some p.2) } }
  unfold machine
  rw [this]
  rfl

attribute [local irreducible] machine

private theorem finish_wrote {c : Sources} {r : StepR Io} {e : End} (h : finish E a c r = some (.exit e)) :
    ∃ p, Wrote a p e ∧ (∀ P : Io → Prop, r.Left P → ∃ d, P d ∧ d.out = p) ∧ ∀ x sp s, r = .err x sp s → e.shown = some (.error x sp) ∧ p = s.data.out := by
  cases r with
  | next => cases h
  | panic => simp [finish] at h
  | done v s =>
    simp only [finish, Option.some.injEq, Outcome.exit.injEq] at h
    subst h
    refine ⟨s.data.out, .inl ⟨rfl, ?_⟩, fun P h => ⟨_, h, rfl⟩, by simp⟩
    unfold returned
    split
    · rename_i h
      simp only [Bool.and_eq_true] at h
      exact .inr ⟨h.1, v.text E.L.F vname, by simp only [List.append_assoc]⟩
    · exact .inl (by simp)
  | err x sp s =>
    obtain ⟨b, hb⟩ := trace_ok c (Machine.traceBack s)
    simp only [finish, hb, Option.some.injEq, Outcome.exit.injEq] at h
    subst h
    refine ⟨s.data.out, .inr ⟨rfl, b, by simp only [List.append_assoc]⟩, fun P h => ⟨_, h, rfl⟩, ?_⟩
    intro x' sp' s' h
    cases h
    exact ⟨rfl, rfl⟩

private theorem main_run (h : MainFile E a k name src ast script) {fuel : Nat} {e : End} (hm : main E a k fuel name (.ok src) = some (.exit e)) :
    ∃ r, (machine E a script).run (expired E a) fuel = some r ∧ finish E a (parseWithIncludes E.W k name src ⟨[], []⟩).2.sources r = some (.exit e) := by
  rw [h.main] at hm
  exact Option.bind_eq_some_iff.1 hm

private theorem keeps_lib {R' : Io → Io → Prop} (hR : ∀ d : Io, R' d d) (hT : ∀ {a b c : Io}, R' a b → R' b c → R' a c) {m : Machine Io} {l : List (String × BFn Io VClos)}
    (hl : ∀ p ∈ l, ∀ d args lim, R' d (p.2 d args lim).2) (hb : m.host.builtins = fun _ => none) (h1 : m.host.onEnter = id) (h2 : m.host.onExit = id) :
    (m.addBuiltins (l.map fun p => (p.1, .fn p.2))).host.Keeps R' := by
  have h3 : ∀ (bs : List (String × Builtin Io VClos)) (m : Machine Io), (m.addBuiltins bs).host.onEnter = m.host.onEnter ∧ (m.addBuiltins bs).host.onExit = m.host.onExit := by
    intro bs
    induction bs with
    | nil => intro m; exact ⟨rfl, rfl⟩
    | cons p bs ih =>
      intro m
      exact ih { m with host := { m.host with syms := (m.host.syms.add p.1).2, builtins := upd m.host.builtins (m.host.syms.add p.1).1 (some p.2) } }
  have h4 : ∀ i b, (m.addBuiltins (l.map fun p => (p.1, .fn p.2))).host.builtins i = some b → ∃ f, b = .fn f ∧ ∀ d args lim, R' d (f d args lim).2 := by
    refine addBuiltins_all (P := fun b => ∃ f, b = .fn f ∧ ∀ d args lim, R' d (f d args lim).2) _ _ ?_ ?_
    · intro p hp
      obtain ⟨q, hq, rfl⟩ := List.mem_map.1 hp
      exact ⟨q.2, rfl, hl q hq⟩
    · intro i b h; rw [hb] at h; cases h
  refine ⟨hR, hT, fun i f hf d args => ?_, fun i f e hf => ?_, fun d => ?_, fun d => ?_⟩
  · obtain ⟨g, h5, h6⟩ := h4 i _ hf
    cases h5; exact h6 ..
  · obtain ⟨g, h5, _⟩ := h4 i _ hf
    cases h5
  · rw [(h3 _ _).1, h1]; exact hR d
  · rw [(h3 _ _).2, h2]; exact hR d

/-- The output only grows. -/
def More (d d' : Io) : Prop := d.out <+: d'.out

private theorem machine_more (E : Cli.Env) (a : Cli.Args) (script : Script) : (machine E a script).host.Keeps More := by
  unfold machine
  refine keeps_lib (R' := More) (fun d => List.prefix_refl _) (fun h1 h2 => List.IsPrefix.trans h1 h2) (fun p hp d args lim => ?_) rfl rfl rfl
  obtain ⟨t, ht⟩ := (C63_append E.L E.O E.cfg.chk vname lim d hp args).1
  exact ⟨t, ht.symm⟩

/-- The command with larger limits ends in the same way, or what stopped it was a limit; then what the program printed is the beginning of what it prints with the
larger limits. -/
theorem C94_command (h : MainFile E a k name src ast script) (hcmp : ∀ K, (cliRun E a K ast).1 ≠ .unspec true) (ha : Larger a a') {fuel fuel' : Nat} {e e' : End}
    (hm : main E a k fuel name (.ok src) = some (.exit e)) (hm' : main E a' k fuel' name (.ok src) = some (.exit e')) :
    e = e' ∨ Limited e ∧ ∃ p p', Wrote a p e ∧ Wrote a' p' e' ∧ p <+: p' := by
  obtain ⟨r, h1, h2⟩ := main_run h hm
  obtain ⟨r', h1', h2'⟩ := main_run (main_args h a') hm'
  have hclk : ∀ t, expired E a' t = true → expired E a t = true := by
    intro t ht
    unfold expired at ht ⊢
    cases h1 : a'.maxRuntime with
    | none => rw [h1] at ht; cases ht
    | some t' =>
      obtain ⟨t0, h2, h3⟩ := ha.time t' h1
      rw [h1] at ht; rw [h2]
      simp only [decide_eq_true_eq] at ht ⊢
      exact Nat.lt_of_le_of_lt (Nat.mul_le_mul_right _ h3) ht
  have hs : (machine E a script).host.opts.lim.strMax ≤ a'.stringMaxSize.getD 262144 := by rw [machine_own_opts]; exact ha.strings
  have hB : ∀ i b, (machine E a script).host.builtins i = some b →
      b.Blind (machine E a script).host.opts.lim ⟨a'.stringMaxSize.getD 262144, (machine E a script).host.opts.lim.arrMax⟩ := by
    intro i b hb
    exact machine_blind E a script _ _ _ i b hb
  rw [cli_machine_own] at h1
  rw [machine_larger ha] at h1'
  rcases C94_cut h.text (C85_library E a).1 hcmp (machine_more E a script) ha.stack ha.calls hs hB hclk h1 h1' with h3 | ⟨x, sp, s, rfl, h4, h5⟩
  · left
    have hf : finish E a' = finish E a := by
      funext c r
      cases r <;> simp only [finish, ha.result]
    rw [h3, ← hf, h2'] at h2
    cases h2; rfl
  · right
    obtain ⟨p, h6, _, h7⟩ := finish_wrote h2
    obtain ⟨p', h6', h8, _⟩ := finish_wrote h2'
    obtain ⟨h10, rfl⟩ := h7 _ _ _ rfl
    obtain ⟨d, h9, rfl⟩ := h8 _ h5
    exact ⟨⟨x, sp, h10, h4⟩, _, _, h6, h6', h9⟩

/-- What the semantics prescribes, whatever the limits: the command prints all of it, or what stopped it was a limit and it prints the beginning of it. -/
theorem C94_meant (h : MainFile E a k name src ast script) (hcmp : ∀ K, (cliRun E a K ast).1 ≠ .unspec true) {K : Nat} (hd : Definite E.cfg.chk (cliRun E a K ast).1)
    {fuel : Nat} {e : End} (hm : main E a k fuel name (.ok src) = some (.exit e)) :
    ∃ p, Wrote a p e ∧ (p = (cliRun E a K ast).2.data.out ∨ Limited e ∧ p <+: (cliRun E a K ast).2.data.out) := by
  obtain ⟨r, h1, h2⟩ := main_run h hm
  rw [cli_machine_own] at h1
  rw [← cli_machine_cfg E a script] at hd
  obtain ⟨p, h6, h8, h7⟩ := finish_wrote h2
  refine ⟨p, h6, ?_⟩
  rcases C94_prescribed h.text (C85_library E a).1 hcmp (machine_more E a script) hd h1 with ⟨x, sp, s, rfl, h4, h5⟩ | ⟨h3, _⟩
  · obtain ⟨h10, rfl⟩ := h7 _ _ _ rfl
    exact .inr ⟨⟨x, sp, h10, h4⟩, h5⟩
  · obtain ⟨d, h9, rfl⟩ := h8 _ h3
    exact .inl (by rw [h9]; rfl)

/-- The command: a program that calls no builtin that prints, prints nothing. -/
theorem C94_silent (h : MainFile E a k name src ast script) (hcmp : ∀ K, (cliRun E a K ast).1 ≠ .unspec true) (hA : ∀ n ∈ subsL ast, ∀ x, n.calls = some x → x ∉ printing)
    {fuel : Nat} {e : End} (hm : main E a k fuel name (.ok src) = some (.exit e)) : Wrote a [] e := by
  obtain ⟨r, h1, h2⟩ := main_run h hm
  rw [cli_machine_own] at h1
  obtain ⟨p, h6, h8, _⟩ := finish_wrote h2
  let mute : String × BFn Io VClos → String × BFn Io VClos := fun q => if q.1 ∈ printing then (q.1, fun d _ _ => (.err .halt, d)) else q
  have twin : ∀ l : List (String × BFn Io VClos), LibTwin (· ∈ printing) l (l.map mute) := by
    intro l
    induction l with
    | nil => trivial
    | cons q l ih =>
      obtain ⟨x, f⟩ := q
      simp only [List.map_cons]
      by_cases hx : x ∈ printing
      · simp only [mute, hx, if_true]; exact ⟨rfl, .inl hx, ih⟩
      · simp only [mute, hx, if_false]; exact ⟨rfl, .inr rfl, ih⟩
  have ht : Twins (· ∈ printing) (setup E a) ⟨[], 0⟩ script (cliHost E a) (startSt ⟨[], 0⟩) (machine E a script)
      ((Machine.new (setup E a) ⟨[], 0⟩ script).addBuiltins (((stdioLib E.L vname E.O E.cfg.chk).map mute).map fun p => (p.1, .fn p.2))) := by
    unfold machine
    exact twins_lib (M := setup E a) (stdio_rel E.L E.O _ E.cfg.chk) (twin _) .new
  have hK : ((Machine.new (setup E a) ⟨[], 0⟩ script).addBuiltins (((stdioLib E.L vname E.O E.cfg.chk).map mute).map fun p => (p.1, .fn p.2))).host.Keeps
      fun d d' => d'.out = d.out := by
    refine keeps_lib (R' := fun d d' => d'.out = d.out) (fun d => rfl) (fun h1 h2 => Eq.trans h2 h1) (fun p hp d args lim => ?_) rfl rfl rfl
    obtain ⟨q, hq, rfl⟩ := List.mem_map.1 hp
    by_cases hx : q.1 ∈ printing
    · simp only [mute, hx, if_true]
    · simp only [mute, hx, if_false]
      exact stdio_quiet E.L E.O E.cfg.chk vname hq hx d args lim
  have h3 := C94_uncalled (W := E.W) (name := name) (T := src) ⟨k, _, (parseWithIncludes E.W k name src ⟨[], []⟩).2, Prod.ext h.parsed rfl⟩ h.compiled ht h.placed h.size h.names
    (cli_modest E a) hcmp hA hK h1
  obtain ⟨d, h9, rfl⟩ := h8 _ h3
  have h10 : (machine E a script).vm.data.out = [] := by
    have : (machine E a script).vm.data = ⟨[], 0⟩ := cli_data E a script
    rw [this]
  rw [h10] at h9
  rw [h9] at h6
  exact h6

/-- The text: no file contains the name of a builtin that prints, and functions are not compared (`NoCompared`: no file contains `fn`, or none contains `==`,
`!=` and `switch`). -/
theorem C94_text (h : MainFile E a k name src ast script) (hn : NoCompared E k name src) (hA : ∀ x ∈ printing, Absent E k name src x)
    {fuel : Nat} {e : End} (hm : main E a k fuel name (.ok src) = some (.exit e)) : Wrote a [] e := by
  have hp : parseWithIncludes E.W k name src ⟨[], []⟩ = (.ok ast, (parseWithIncludes E.W k name src ⟨[], []⟩).2) := by rw [← h.parsed]
  refine C94_silent h (C80_text h hn) (fun n hn' x hx hm => ?_) hm
  have key : ∀ y : Name, y.1 = x → y ∈ n.words → False := by
    intro y hy hw
    obtain ⟨f, t, h1, u, v, h2, _⟩ := (C78_names hp hn').2 y hw
    exact hA x hm _ (List.mem_of_getElem? h1) ⟨u, v, by rw [← hy]; exact h2⟩
  cases n with
  | builtin _ y _ => cases hx; exact key y rfl (.head _)
  | ctx _ y _ v _ => cases hx; exact key y rfl (.head _)
  | _ => cases hx

/-! ## Examples -/

/-- Output from nested calls. -/
private def downFile : List Char := "fn down(n) { @print(n)\n if n < 1 { 0 } else { down(n - 1) } }\ndown(3)".toList

/-- Functions that are passed around, a loop and `@assert_eq`, but nothing that prints. -/
private def quietFile : List Char :=
  "fn twice(f, x) { f(f(x)) }\nlet n = 0\nfor w in [\"a\", \"bb\"] { n += @len(twice(fn(s) { s .. w }, w)) }\n@assert_eq(n, 9)\nn".toList

private def few : Cli.Args := { result := true, callStackSize := some 2 }

private theorem few_fewer : Larger few cliArgs := ⟨rfl, fun _ h => (nomatch h), Nat.le_refl _, by decide, Nat.le_refl _, rfl⟩

private def saidOf : Option Cli.Outcome → Nat × List Char
  | some (.exit e) => (e.status, e.out)
  | _ => (9, [])

private def downGood : Out SVal × SSt Io → Bool
  | (.ok _, σ) => σ.data.out == "3 2 1 0 ".toList
  | _ => false

private def tameFile (T : List Char) (names : List String) : Bool :=
  match (parseWithIncludes Check.env.W 1 "main" T ⟨[], []⟩).1 with
  | .ok ast => tameL true ast && (subsL ast).all fun n => match n.calls with | some x => !names.contains x | none => true
  | _ => false

/-- A file that meets the hypotheses of `C94_command` and `C94_meant`, with the limits `few` and with the default ones: the prescribed output, and what is printed. -/
example : ∃ ast script, MainFile Check.env few 1 "main" downFile ast script ∧ (∀ K, (cliRun Check.env few K ast).1 ≠ .unspec true) ∧ Larger few cliArgs ∧
    Definite Check.env.cfg.chk (cliRun Check.env cliArgs 9 ast).1 ∧ (cliRun Check.env cliArgs 9 ast).2.data.out = "3 2 1 0 ".toList ∧
    saidOf (main Check.env cliArgs 1 400 "main" (.ok downFile)) = (0, "3 2 1 0 RETURNED: 0\n".toList) ∧
    (saidOf (main Check.env few 1 400 "main" (.ok downFile))).2.take 14 = "3 2 Traceback ".toList := by
  obtain ⟨ast, script, h1, h3⟩ := checkFile_main (T := downFile) (good := downGood) (by decide +kernel)
  have h2 : tameFile downFile [] = true := by decide +kernel
  unfold tameFile at h2
  rw [h1.parsed] at h2
  simp only [Bool.and_eq_true] at h2
  refine ⟨ast, script, main_args h1 few, fun K => C80_never (main_args h1 few).runs h2.1 K, few_fewer, ?_, ?_, by decide +kernel, by decide +kernel⟩
  · revert h3
    generalize cliRun Check.env cliArgs 9 ast = r
    obtain ⟨o, σ⟩ := r
    cases o <;> simp [downGood, Definite]
  · revert h3
    generalize cliRun Check.env cliArgs 9 ast = r
    obtain ⟨o, σ⟩ := r
    cases o <;> simp [downGood]

/-- A file that meets the hypotheses of `C94_silent`. -/
example : ∃ ast script, MainFile Check.env cliArgs 1 "main" quietFile ast script ∧ (∀ K, (cliRun Check.env cliArgs K ast).1 ≠ .unspec true) ∧
    (∀ n ∈ subsL ast, ∀ x, n.calls = some x → x ∉ printing) ∧ saidOf (main Check.env cliArgs 1 400 "main" (.ok quietFile)) = (0, "RETURNED: 9\n".toList) ∧
    (saidOf (main Check.env few 1 400 "main" (.ok quietFile))).1 = 0 := by
  obtain ⟨ast, script, h1, _⟩ := checkFile_main (T := quietFile) (good := fun _ => true) (by decide +kernel)
  have h2 : tameFile quietFile printing = true := by decide +kernel
  unfold tameFile at h2
  rw [h1.parsed] at h2
  simp only [Bool.and_eq_true, List.all_eq_true] at h2
  refine ⟨ast, script, h1, fun K => C80_never h1.runs h2.1 K, fun n hn x hx hm => ?_, by decide +kernel, by decide +kernel⟩
  have := h2.2 n hn
  simp [hx, hm] at this

/-- A file that meets the hypotheses of `C94_text`. -/
example : ∃ ast script, MainFile Check.env cliArgs 1 "main" "let t = 1\nfor i in 0:3 { t = t * 2 }\nt".toList ast script ∧
    NoCompared Check.env 1 "main" "let t = 1\nfor i in 0:3 { t = t * 2 }\nt".toList ∧
    ∀ x ∈ printing, Absent Check.env 1 "main" "let t = 1\nfor i in 0:3 { t = t * 2 }\nt".toList x := by
  obtain ⟨ast, script, h1, _⟩ := checkFile_main (T := "let t = 1\nfor i in 0:3 { t = t * 2 }\nt".toList) (good := fun _ => true) (by decide +kernel)
  refine ⟨ast, script, h1, .inl (absent_of (by decide +kernel)), fun x hx => absent_of ?_⟩
  have : printing.all (fun x => (parseWithIncludes Check.env.W 1 "main" "let t = 1\nfor i in 0:3 { t = t * 2 }\nt".toList ⟨[], []⟩).2.sources.all
    (fun f => !found x.toList f.2)) = true := by decide +kernel
  exact List.all_eq_true.1 this x hx

/-- A machine that sets the output back on entry does not meet the hypothesis of `C94_grows`. -/
example (H : Host Io) : ¬ ({ H with onEnter := fun d => { d with out := [] } } : Host Io).Keeps More := by
  intro K
  have := K.enter ⟨['a'], 0⟩
  simp [More] at this

end Quilt.Props
