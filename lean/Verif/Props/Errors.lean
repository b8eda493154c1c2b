import Verif.Props.Cli

/-!
# The kinds of errors: C65

Which errors running programs report (`Err.language`, `Err.ordinary`): not those of the compiler, no stack underflows, no `halt`, no
memory limit.
-/

namespace Quilt.Props

open Lib Peg Cli

variable {D : Type} {W : World} {M : Machine.Setup D} {data : D} {name : String} {T : List Char} {ast : List Node} {S : SHost D} {σ : SSt D} {m : Machine D}

/-- The semantics: errors of the language and those of the builtins. -/
theorem C65_semantics {Q : Err → Prop} (h : Runs M data ast S σ m) (hS : ∀ x b, S.builtins x = some b → BuiltinIn Q S.lim b) {k : Nat} {e : Err} {sp : Option Span}
    (he : (evalProgram S k ast σ).1 = .err e sp) : e.language = true ∨ Q e := by
  obtain ⟨script, h1, h2⟩ := h.prepared
  have : σ.exits = [] := by
    clear h1 h hS he
    induction h2 with
    | new => rfl
    | builtin _ _ _ ih => exact ih
    | global _ _ _ ih => exact ih
    | external _ _ _ _ ih => exact ih
  exact evalProgram_errors hS k ast (fun f hf => by rw [this] at hf; simp at hf) he

/-- The machine: errors of the language, those of the builtins, and the two limits. -/
theorem C65_kinds {Q : Err → Prop} (h : RunsText W M data name T ast S σ m) (hS : ∀ x b, S.builtins x = some b → BuiltinIn Q S.lim b) (hQ : ¬ Q (.overflow .stackOverflow))
    (hcmp : ∀ k, (evalProgram S k ast σ).1 ≠ .unspec true) (n c : Nat) (clock : Nat → Bool) (fuel : Nat) {e : Err} {sp : Span} {s' : VM D}
    (hr : (m.withLimits n c).run clock fuel = some (.err e sp s')) :
    e.language = true ∨ Q e ∨ e = .overflow .stackOverflow ∨ e = .runtimeLimit := by
  have hR := (C53_hypotheses h).1
  by_cases hd : ∀ k, (evalProgram S k ast σ).1 = .timeout
  · rcases C22_diverges hR hd n c clock fuel with h1 | ⟨_, _, h1⟩ | ⟨_, _, h1⟩ <;> rw [hr] at h1 <;> simp at h1 <;> simp [h1.1]
  · rw [Classical.not_forall] at hd
    obtain ⟨k, hk⟩ := hd
    have hov : ∀ sp, (evalProgram S k ast σ).1 ≠ .err (.overflow .stackOverflow) sp := by
      intro sp h1
      rcases C65_semantics hR hS h1 with h2 | h2
      · exact absurd h2 (by decide)
      · exact hQ h2
    have hu : ∀ b, (evalProgram S k ast σ).1 ≠ .unspec b := by
      intro b
      cases b with
      | true => exact hcmp k
      | false => exact C53_specified h k
    rcases (hR.outcome k).run_any ⟨hk, hu, hov⟩ (hR.sp n) hr with ⟨_, _, h1⟩ | ⟨_, _, h1⟩ | ⟨sp', h1, _⟩
    · cases h1; exact .inr (.inr (.inr rfl))
    · cases h1; exact .inr (.inr (.inl rfl))
    · rcases C65_semantics hR hS h1 with h2 | h2
      · exact .inl h2
      · exact .inr (.inl h2)

/-- Every builtin of the standard library fails, if at all, with an error of operations on values (never one about undeclared names) or one with a message. -/
theorem C65_library (L : Ops) (O : Outside) (chk : Bool) {C : Type} (cname : C → String) {x : String} {f : BFn Io C} (hf : (x, f) ∈ stdioLib L cname O chk) (d : Io)
    (args : List (Val C)) (lim : Limits) {e : Err} (he : (f d args lim).1 = .err e) : e.ofValue = true ∨ ∃ msg, e = .builtin msg := by
  have := ((stdio_ord L chk O cname _ hf).of d args lim).of e he
  cases e with
  | builtin msg => exact .inr ⟨msg, rfl⟩
  | _ => exact .inl this

/-- The command line program reports such errors, the stack limit, and the time limit if there is one. -/
theorem C65_reported {E : Cli.Env} {a : Cli.Args} {k : Nat} {src : List Char} {script : Script} (h : MainFile E a k name src ast script)
    (hcmp : ∀ K, (cliRun E a K ast).1 ≠ .unspec true) {fuel : Nat} {out : List Char} {e : Err} {sp : Span}
    (hm : main E a k fuel name (.ok src) = some (.exit ⟨1, out, some (.error e sp)⟩)) :
    e.language = true ∨ (∃ msg, e = .builtin msg) ∨ e = .overflow .stackOverflow ∨ (e = .runtimeLimit ∧ ∃ ms t, a.maxRuntime = some ms ∧ ms * 1000000 < E.elapsed t) := by
  obtain ⟨e', sp', h1, h2⟩ := C64_failure h hcmp hm
  cases h1
  rcases h2 with h2 | h2 | ⟨K, sp', σ', b, h2, _⟩
  · exact .inr (.inr (.inr h2))
  · exact .inr (.inr (.inl h2))
  · have := cli_ordinary E a K ast (congrArg Prod.fst h2)
    cases e with
    | builtin msg => exact .inr (.inl ⟨msg, rfl⟩)
    | _ => exact .inl this

/-- Failing files that meet the hypotheses are in `Verif/Props/Cli.lean`. Errors of the language, e.g. that of a division by zero; not those of the compiler. -/
example : Err.language .zeroDivision = true ∧ Err.language (.syntax .returnOutsideFunction) = false ∧ Err.language .halt = false ∧
    Err.language (.overflow .stackUnderflow) = false := ⟨rfl, rfl, rfl, rfl⟩

end Quilt.Props
