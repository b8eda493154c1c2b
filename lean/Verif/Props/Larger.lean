import Verif.Sem.Raise
import Verif.Props.Blame
import Verif.Props.Io
import Verif.Props.Room

/-!
# Larger limits: C92

The limits of the machine (`VmOptions`) stop a program, and do nothing else: with a larger stack, more nested calls, longer strings or more time, a program
does the same as before, unless what stopped it was one of these limits. (The limit of arrays, which every array carries with it, stays the same here.)
-/

namespace Quilt.Props

open Lib Peg Cli

variable {D : Type} {W : World} {M : Machine.Setup D} {data : D} {name : String} {T : List Char} {ast : List Node} {S : SHost D} {σ : SSt D} {m : Machine D}

/-- The errors that say that a limit was reached: too many values on the stack or too many nested calls, a string that is too long, or too much time. -/
def LimitErr (e : Err) : Prop := e = .overflow .stackOverflow ∨ e = .overflow .stringTooLarge ∨ e = .runtimeLimit

/-- The machine with another limit for strings. -/
def _root_.Quilt.Machine.withStrings (m : Machine D) (k : Nat) : Machine D := { m with host := m.host.withStrings k }

theorem never_over (h : RunsText W M data name T ast S σ m) (hQ : Honest S) (hcmp : ∀ K, (evalProgram S K ast σ).1 ≠ .unspec true) (k : Nat) (s' : VM D)
    (hk : m.vm.steps (m.host.withLimits none none) k = some s') : ¬ _root_.Quilt.VM.Over (s'.step (m.host.withLimits none none)) := by
  have hR := (C53_hypotheses h).1
  by_cases hd : ∀ k, (evalProgram S k ast σ).1 = .timeout
  · refine Outcome.calm_forever (γ := noSlots) (fun B => ?_) hk
    have := hR.outcome B
    have hB := hd B
    generalize evalProgram S B ast σ = r at this hB
    obtain ⟨o, σ'⟩ := r
    simp only at hB; subst hB
    exact ⟨σ', this⟩
  · rw [Classical.not_forall] at hd
    obtain ⟨K, hK⟩ := hd
    have hu : ∀ b, (evalProgram S K ast σ).1 ≠ .unspec b := by
      intro b
      cases b with
      | true => exact hcmp K
      | false => exact C53_specified h K
    exact (hR.outcome K).calm ⟨hK, hu, fun sp => honest_overflow hR hQ sp⟩ hk

/-- The machine: with larger limits and a clock that stops it at fewer moments, it does the same for any number of instructions - the same value, the same error at
the same place, the same crash, the same state -, unless the smaller machine reports that it reached a limit. The builtins of the host may report that, too, and
must not depend on the limit of strings otherwise. -/
theorem C92_machine (h : RunsText W M data name T ast S σ m) (hQ : Honest S) (hcmp : ∀ K, (evalProgram S K ast σ).1 ≠ .unspec true)
    {n n' c c' k' : Nat} (hn : n ≤ n') (hc : c ≤ c') (hk : m.host.opts.lim.strMax ≤ k')
    (hB : ∀ i b, m.host.builtins i = some b → b.Roomy m.host.opts.lim.strMax k' m.host.opts.lim.arrMax)
    {clock clock' : Nat → Bool} (hclk : ∀ t, clock' t = true → clock t = true) (fuel : Nat) :
    (m.withLimits n c).run clock fuel = ((m.withStrings k').withLimits n' c').run clock' fuel ∨
    ∃ e sp s, (m.withLimits n c).run clock fuel = some (.err e sp s) ∧ LimitErr e := by
  rcases _root_.Quilt.VM.run_raise (H := m.host) hn hc clock fuel 0 0 ((C53_hypotheses h).1.sp n) (never_over h hQ hcmp) with ⟨sp, x, h1⟩ | h1
  · exact .inr ⟨_, sp, x, h1, .inl rfl⟩
  · rcases _root_.Quilt.VM.run_strings (H := m.host.withLimits (some n') (some c')) (k := k') hk hB clock fuel 0 0 m.vm with ⟨sp, x, h2⟩ | h2
    · exact .inr ⟨_, sp, x, h1.trans h2, .inr (.inl rfl)⟩
    · rcases _root_.Quilt.VM.run_clock (H := (m.host.withLimits (some n') (some c')).withStrings k') hclk fuel 0 0 m.vm with ⟨sp, x, h3⟩ | h3
      · exact .inr ⟨_, sp, x, (h1.trans h2).trans h3, .inr (.inr rfl)⟩
      · exact .inl ((h1.trans h2).trans h3)

set_option maxRecDepth 100000 in
private theorem stdio_roomy {C : Type} (L : Ops) (O : Outside) (chk : Bool) (cname : C → String) (k k' n : Nat) :
    (stdioLib L cname O chk).map (fun p => (p.1, fun d args => p.2 d args ⟨k, n⟩)) = (stdioLib L cname O chk).map (fun p => (p.1, fun d args => p.2 d args ⟨k', n⟩)) := by
  rfl

theorem roomy_mem {C : Type} {L : Ops} {O : Outside} {chk : Bool} {cname : C → String} (k k' n : Nat) {p : String × BFn Io C} (hp : p ∈ stdioLib L cname O chk)
    (d : Io) (args : List (Val C)) : p.2 d args ⟨k, n⟩ = p.2 d args ⟨k', n⟩ := by
  have key : ∀ l : List (String × BFn Io C), l.map (fun p => (p.1, fun d args => p.2 d args ⟨k, n⟩)) = l.map (fun p => (p.1, fun d args => p.2 d args ⟨k', n⟩)) →
      p ∈ l → p.2 d args ⟨k, n⟩ = p.2 d args ⟨k', n⟩ := by
    intro l
    induction l with
    | nil => intro _ h; cases h
    | cons q l ih =>
      intro h hp
      simp only [List.map_cons, List.cons.injEq, Prod.mk.injEq, true_and] at h
      rcases List.mem_cons.1 hp with rfl | hp
      · exact congrFun (congrFun h.1 d) args
      · exact ih h.2 hp
  exact key _ (stdio_roomy L O chk cname k k' n) hp

/-- The library: no builtin looks at the limit of strings. -/
theorem C92_library {C : Type} (L : Ops) (O : Outside) (chk : Bool) (cname : C → String) (k k' n : Nat) (d : Io) (x : String) (args : List (Val C)) :
    callIo L O chk cname ⟨k, n⟩ d x args = callIo L O chk cname ⟨k', n⟩ d x args := by
  unfold callIo
  have key : ∀ l : List (String × BFn Io C), (∀ p ∈ l, p.2 d args ⟨k, n⟩ = p.2 d args ⟨k', n⟩) → ((l.lookup x).map fun f => f d args ⟨k, n⟩) = (l.lookup x).map fun f => f d args ⟨k', n⟩ := by
    intro l
    induction l with
    | nil => intro _; rfl
    | cons q l ih =>
      intro h
      obtain ⟨y, f⟩ := q
      simp only [List.lookup_cons]
      split
      · exact congrArg some (h _ List.mem_cons_self)
      · exact ih fun p hp => h p (List.mem_cons_of_mem _ hp)
  exact key _ fun p hp => roomy_mem k k' n hp d args

/-! ## The command -/

/-- Other arguments, with larger limits; without `--max-runtime` there is no limit of time. -/
structure Larger (a a' : Cli.Args) : Prop where
  result : a'.result = a.result
  time : ∀ t', a'.maxRuntime = some t' → ∃ t, a.maxRuntime = some t ∧ t ≤ t'
  stack : a.stackSize.getD 500000 ≤ a'.stackSize.getD 500000
  calls : a.callStackSize.getD 1000 ≤ a'.callStackSize.getD 1000
  strings : a.stringMaxSize.getD 262144 ≤ a'.stringMaxSize.getD 262144
  arrays : a'.arrayMaxSize.getD 262144 = a.arrayMaxSize.getD 262144

theorem addBuiltins_opts (o : Opts) : ∀ (bs : List (String × Builtin D VClos)) (m : Machine D),
    ({ m with host := { m.host with opts := o } } : Machine D).addBuiltins bs = { m.addBuiltins bs with host := { (m.addBuiltins bs).host with opts := o } }
  | [], _ => rfl
  | (x, b) :: bs, m => addBuiltins_opts o bs { m with host := { m.host with syms := (m.host.syms.add x).2, builtins := upd m.host.builtins (m.host.syms.add x).1 (some b) } }

theorem addBuiltins_all {P : Builtin D VClos → Prop} : ∀ (bs : List (String × Builtin D VClos)) (m : Machine D), (∀ p ∈ bs, P p.2) →
    (∀ i b, m.host.builtins i = some b → P b) → ∀ i b, (m.addBuiltins bs).host.builtins i = some b → P b
  | [], _, _, h => h
  | (x, b) :: bs, m, hb, h => by
    refine addBuiltins_all bs { m with host := { m.host with syms := (m.host.syms.add x).2, builtins := upd m.host.builtins (m.host.syms.add x).1 (some b) } }
      (fun p hp => hb p (List.mem_cons_of_mem _ hp)) fun i b' hi => ?_
    simp only [upd] at hi
    split at hi
    · cases hi; exact hb _ List.mem_cons_self
    · exact h i b' hi


variable {E : Cli.Env} {a a' : Cli.Args} {k : Nat} {src : List Char} {script : Script}

theorem machine_opts (E : Cli.Env) (a a' : Cli.Args) (script : Script) :
    machine E a' script = { machine E a script with host := { (machine E a script).host with opts := opts a' } } := by
  unfold machine
  rw [← addBuiltins_opts]
  rfl

theorem machine_own_opts (E : Cli.Env) (a : Cli.Args) (script : Script) : (machine E a script).host.opts = opts a := by
  rw [machine_opts E a a]

theorem machine_larger (ha : Larger a a') :
    machine E a' script = ((machine E a script).withStrings (a'.stringMaxSize.getD 262144)).withLimits (a'.stackSize.getD 500000) (a'.callStackSize.getD 1000) := by
  rw [machine_opts E a a']
  have h1 := machine_own_opts E a script
  have h2 := ha.arrays
  unfold Machine.withStrings Machine.withLimits Host.withLimits Host.withStrings
  simp only [h1]
  simp only [opts, h2]

private theorem machine_roomy (E : Cli.Env) (a : Cli.Args) (script : Script) (k k' n : Nat) (i : Nat) (b : Builtin Io VClos) (hb : (machine E a script).host.builtins i = some b) :
    b.Roomy k k' n := by
  unfold machine at hb
  refine addBuiltins_all (P := fun b => b.Roomy k k' n) _ _ ?_ ?_ i b hb
  · intro p hp
    obtain ⟨q, hq, rfl⟩ := List.mem_map.1 hp
    exact fun d args => .inr (roomy_mem k k' n hq d args)
  · intro i b h; cases h

attribute [local irreducible] machine

theorem main_args (h : MainFile E a k name src ast script) (a' : Cli.Args) : MainFile E a' k name src ast script :=
  ⟨h.parsed, h.compiled, h.placed, h.size, by
    rw [machine_opts E a a' script]; exact h.names⟩

private theorem finish_err (c : Sources) (e : Err) (sp : Span) (s : VM Io) : ∃ out, finish E a c (.err e sp s) = some (.exit ⟨1, out, some (.error e sp)⟩) := by
  obtain ⟨b, hb⟩ := trace_ok c (Machine.traceBack s)
  exact ⟨_, by simp only [finish, hb]; rfl⟩

/-- The command with larger limits: the same output, report and status for any number of instructions, or what stopped it was a limit. -/
theorem C92_command (h : MainFile E a k name src ast script) (hcmp : ∀ K, (cliRun E a K ast).1 ≠ .unspec true) (ha : Larger a a') (fuel : Nat) :
    main E a k fuel name (.ok src) = main E a' k fuel name (.ok src) ∨
    ∃ out e sp, main E a k fuel name (.ok src) = some (.exit ⟨1, out, some (.error e sp)⟩) ∧ LimitErr e := by
  have h' := main_args h a'
  have hf : finish E a' = finish E a := by
    funext c r
    cases r <;> simp only [finish, ha.result]
  have hclk : ∀ t, expired E a' t = true → expired E a t = true := by
    intro t ht
    unfold expired at ht ⊢
    cases h1 : a'.maxRuntime with
    | none => rw [h1] at ht; cases ht
    | some t' =>
      obtain ⟨t0, h2, h3⟩ := ha.time t' h1
      rw [h1] at ht; rw [h2]
      simp only [decide_eq_true_eq] at ht ⊢
      exact Nat.lt_of_le_of_lt (Nat.mul_le_mul_right _ h3) ht
  rw [h.main, h'.main, hf, machine_larger ha]
  have hs : (machine E a script).host.opts.lim.strMax ≤ a'.stringMaxSize.getD 262144 := by rw [machine_own_opts]; exact ha.strings
  have := C92_machine h.text (C85_library E a).1 hcmp ha.stack ha.calls hs (machine_roomy E a script _ _ _) hclk fuel
  rw [← cli_machine_own] at this
  rcases this with h1 | ⟨e, sp, s, h1, h2⟩
  · exact .inl (by rw [h1])
  · right
    obtain ⟨b, hb⟩ := finish_err (E := E) (a := a) (parseWithIncludes E.W k name src ⟨[], []⟩).2.sources e sp s
    exact ⟨_, e, sp, by rw [h1, Option.bind_some, hb], h2⟩

/-- The text: functions are not compared (`NoCompared`: no file contains `fn`, or none contains `==`, `!=` and `switch`). -/
theorem C92_text (h : MainFile E a k name src ast script) (hn : NoCompared E k name src) (ha : Larger a a') (fuel : Nat) :
    main E a k fuel name (.ok src) = main E a' k fuel name (.ok src) ∨
    ∃ out e sp, main E a k fuel name (.ok src) = some (.exit ⟨1, out, some (.error e sp)⟩) ∧ LimitErr e :=
  C92_command h (C80_text h hn) ha fuel

/-! ## Examples -/

private def found (s : List Char) : List Char → Bool
  | [] => s.isPrefixOf []
  | c :: l => s.isPrefixOf (c :: l) || found s l

private theorem found_of (s : List Char) : ∀ p q : List Char, found s (p ++ s ++ q) = true
  | [], q => by
    have : s.isPrefixOf (s ++ q) = true := List.isPrefixOf_iff_prefix.2 (List.prefix_append s q)
    rw [List.nil_append]
    generalize s ++ q = l at this
    cases l <;> simp [found, this]
  | c :: p, q => by
    have := found_of s p q
    simp only [List.cons_append, found, this, Bool.or_true]

private theorem absent {T : List Char} {s : String} (h : (parseWithIncludes Check.env.W 1 "main" T ⟨[], []⟩).2.sources.all (fun f => !found s.toList f.2) = true) :
    Absent Check.env 1 "main" T s := by
  rintro f hf ⟨p, q, h1⟩
  have h2 := List.all_eq_true.1 h f hf
  rw [h1, found_of] at h2
  cases h2

/-- Little room: at most 6 nested calls, 40 values, strings of 8 bytes. -/
private def little : Cli.Args := { cliArgs with stackSize := some 40, callStackSize := some 6, stringMaxSize := some 8 }

private theorem little_larger : Larger little cliArgs := ⟨rfl, (fun _ h => by cases h), by decide, by decide, by decide, rfl⟩

private def showFile (n : Char) : List Char :=
  "fn down(n, s) { if n > 0 { down(n - 1, s .. \"ab\") } else { s } }\n@print(down(".toList ++ [n] ++ ", \"x\"))\ntrue".toList

private def shown : Option Cli.Outcome → Option (Bool × List Char)
  | some (.exit ⟨0, out, none⟩) => some (true, out)
  | some (.exit ⟨1, _, some (.error e _)⟩) => some (e == .overflow .stackOverflow || e == .overflow .stringTooLarge, [])
  | _ => none

/-- It meets the hypotheses and works with little room. -/
example : ∃ ast script, MainFile Check.env little 1 "main" (showFile '3') ast script ∧ NoCompared Check.env 1 "main" (showFile '3') ∧ Larger little cliArgs ∧
    shown (main Check.env little 1 400 "main" (.ok (showFile '3'))) = some (true, "xababab RETURNED: true\n".toList) := by
  obtain ⟨ast, script, h1, _⟩ := checkFile_main (T := showFile '3') (good := fun _ => true) (by decide +kernel)
  exact ⟨ast, script, main_args h1 little, .inr ⟨absent (by decide +kernel), absent (by decide +kernel), absent (by decide +kernel)⟩, little_larger, by decide +kernel⟩

/-- With more rounds it does not: the limit of strings stops it, and without this limit the number of calls; the usual limits do not. -/
example : shown (main Check.env little 1 400 "main" (.ok (showFile '6'))) = some (true, []) ∧
    shown (main Check.env { little with stringMaxSize := none } 1 400 "main" (.ok (showFile '6'))) = some (true, []) ∧
    shown (main Check.env cliArgs 1 400 "main" (.ok (showFile '6'))) = some (true, "xabababababab RETURNED: true\n".toList) := by decide +kernel

end Quilt.Props
