import Verif.Compiler.NoPanic
import Verif.Sem.Session
import Verif.Compiler.Names
import Verif.Compiler.Accept
import Verif.Parser.Placed
import Verif.Props.Correct
import Verif.Props.Text

/-!
# Interactive sessions: C32, C33

The specification is the direct semantics `evalProgram` applied to one line after another, each
line starting in the source state in which the line before it ended. The model of the session is
`Verif/Repl.lean`.
-/

namespace Quilt.Props

variable {D : Type}

/-- Histories of sessions whose lines were all accepted by the compiler and ended with the value or the error prescribed
by the direct semantics. `σ` is the source state reached by the direct semantics, `n` the number of syntax nodes
compiled so far. `sbs` are the builtins of the session as the direct semantics sees them. Lines that
ended with an error are included if no captured variable was on the stack when the error
occurred (see `C33_dangling_violated`) and if the error is not one of those that depend on limits or on
builtin ids. -/
inductive Session (M : Machine.Setup D) (data : D) (sbs : List (String × Builtin D SClos)) (vbs : List (String × Builtin D VClos)) :
    SSt D → Nat → Repl D → Prop
  /-- `Repl::new`. -/
  | new : Session M data sbs vbs ⟨fun _ => .none, 0, fun _ => none, data, []⟩ 0 (Repl.new M data vbs)
  /-- A text that could not be read. -/
  | unread {σ : SSt D} {n : Nat} {r : Repl D} (cache : List (String × List Char)) (c : Nat) :
      Session M data sbs vbs σ n r → Session M data sbs vbs σ n { r with cache := cache, c := c }
  /-- The host data changed between lines. -/
  | host {σ : SSt D} {n : Nat} {r : Repl D} (d : D) :
      Session M data sbs vbs σ n r → Session M data sbs vbs { σ with data := d } n (r.withVm { r.vm.vm with data := d })
  /-- A line with a value. -/
  | value {σ σ' : SSt D} {n k a b fuel : Nat} {r r1 : Repl D} {ast : List Node} {v : SVal} {w : VVal} {s' : VM D} {clock : Nat → Bool} :
      Session M data sbs vbs σ n r → r.load ast = (.ok (), r1) → wfProgram ast = true → n + sizeL ast ≤ 65535 → r1.vm.host.syms.entries.length ≤ 65536 →
      evalProgram (sessionHost M sbs) k ast σ = (.ok v, σ') → (r1.vm.withLimits a b).run clock fuel = some (.done w s') →
      Session M data sbs vbs { σ' with exits := [] } (n + sizeL ast) (r1.withVm s')
  /-- A line that failed while running. -/
  | error {σ σ' : SSt D} {n k a b fuel : Nat} {r r1 : Repl D} {ast : List Node} {e e' : Err} {sp : Option Span} {sp' : Span} {s' : VM D} {clock : Nat → Bool} :
      Session M data sbs vbs σ n r → r.load ast = (.ok (), r1) → wfProgram ast = true → n + sizeL ast ≤ 65535 → r1.vm.host.syms.entries.length ≤ 65536 →
      evalProgram (sessionHost M sbs) k ast σ = (.err e sp, σ') → e ≠ .overflow .stackOverflow → (∀ x, e ≠ .name (.undefinedBuiltin x)) →
      (r1.vm.withLimits a b).run clock fuel = some (.err e' sp' s') → e' ≠ .overflow .stackOverflow → e' ≠ .runtimeLimit → s'.openUps = [] →
      Session M data sbs vbs { σ' with exits := [] } (n + sizeL ast) (r1.withVm s')

/-- `r1` is the session `r` after the compiler accepted the line `ast` and the script was handed to the VM. -/
structure Line (M : Machine.Setup D) (data : D) (sbs : List (String × Builtin D SClos)) (vbs : List (String × Builtin D VClos)) (σ : SSt D) (n : Nat)
    (r : Repl D) (ast : List Node) (r1 : Repl D) : Prop where
  session : Session M data sbs vbs σ n r
  related : ∀ x, BuiltinRel M.opts.lim (lastOf sbs x) (lastOf vbs x)
  loaded : r.load ast = (.ok (), r1)
  wf : wfProgram ast = true
  size : n + sizeL ast ≤ 65535
  names : r1.vm.host.syms.entries.length ≤ 65536

variable {M : Machine.Setup D} {data : D} {sbs : List (String × Builtin D SClos)} {vbs : List (String × Builtin D VClos)} {σ σ' : SSt D} {n : Nat}
  {r r1 : Repl D} {ast : List Node}

theorem Session.inv (hb : ∀ x, BuiltinRel M.opts.lim (lastOf sbs x) (lastOf vbs x)) (h : Session M data sbs vbs σ n r) : SessInv M vbs σ n r := by
  induction h with
  | new => exact SessInv.new M data vbs
  | unread cache c _ ih => exact ⟨ih.builtins, ih.cfg, ih.opts, ih.enter, ih.exit, ih.depth, ih.locals, ih.ups, ih.encl, ih.chunk, ih.small, ih.ok, ih.names⟩
  | host d _ ih =>
    refine ⟨ih.builtins, ih.cfg, ih.opts, ih.enter, ih.exit, ih.depth, ih.locals, ih.ups, ih.encl, ih.chunk, ih.small, ?_, ih.names⟩
    obtain ⟨γ, h⟩ := ih.ok
    exact ⟨γ, rfl, h.exits, h.globals, h.slot, h.cell, h.opened, h.slotInj, h.cellInj, h.out⟩
  | value _ h1 h2 h3 h4 h5 h6 ih =>
    obtain ⟨g', hl⟩ := ih.load h2 h3 h1
    exact hl.value hb ih h2 h3 h4 (.inl h5) h6
  | error _ h1 h2 h3 h4 h5 h6 h7 h8 h9 h10 h11 ih =>
    obtain ⟨g', hl⟩ := ih.load h2 h3 h1
    exact hl.error hb ih h2 h3 h4 h5 h6 h7 h8 h9 h10 h11

/-- No builtin is callable under an id of a name it was not added for. -/
def NoStale (r : Repl D) : Prop :=
  ∀ i b, r.vm.host.builtins i = some b → ∃ x, r.vm.host.syms.entries[i]? = some x ∧ (lastOf r.builtins x).isSome = true

theorem Line.outcome (h : Line M data sbs vbs σ n r ast r1) :
    ∃ γ, ∀ k, (NoStale r1 ∨ ∀ x sp, (evalProgram (sessionHost M sbs) k ast σ).1 ≠ .err (.name (.undefinedBuiltin x)) sp) →
      Outcome (r1.vm.host.withLimits none none) k γ r1.vm.vm (evalProgram (sessionHost M sbs) k ast σ) := by
  have hi := h.session.inv h.related
  obtain ⟨g', hl⟩ := hi.load h.wf h.size h.loaded
  obtain ⟨γ, ho⟩ := hl.outcome h.related hi h.wf hl.added.inv hl.added.pre h.names
  have hsub := hl.sub h.names (p := r1.vm.host.syms) (fun i x hx => .inr hx)
  refine ⟨γ, fun k hk => ?_⟩
  rcases hk with hk | hk
  · have heq : clean vbs r1.vm.host.syms = r1.vm.host.builtins := by
      funext i
      cases hb : r1.vm.host.builtins i with
      | none =>
        rcases hsub i with h1 | h1
        · exact h1
        · rw [h1]; exact hb
      | some b =>
        obtain ⟨x, h1, h2⟩ := hk i b hb
        rw [hl.builtins] at h2
        rw [← hb]
        rcases hsub i with h3 | h3
        · unfold clean at h3; rw [h1] at h3; simp only at h3; rw [h3] at h2; simp at h2
        · exact h3
    have := ho k
    rw [heq] at this
    exact this
  · exact Outcome.host (H := r1.vm.host.withLimits none none) hsub (ho k) hk

theorem Line.sp (h : Line M data sbs vbs σ n r ast r1) (a : Nat) : r1.vm.vm.sp ≤ a := by
  obtain ⟨g', hl⟩ := (h.session.inv h.related).load h.wf h.size h.loaded
  rw [hl.rest.2]; omega

/-! ## C32 -/

/-- A line whose value is `v` under the direct semantics, from the state the lines before it led to, returns `v` when run
with large enough limits, with the prescribed effects on host data and globals; and the session goes on
from the prescribed state. -/
theorem C32_value (h : Line M data sbs vbs σ n r ast r1) {k : Nat} {v : SVal} (he : evalProgram (sessionHost M sbs) k ast σ = (.ok v, σ')) :
    ∃ N C, ∀ a c, N ≤ a → C ≤ c → ∀ clock : Nat → Bool, (∀ t, clock t = false) →
      ∃ fuel w s', (r1.vm.withLimits a c).run clock fuel = some (.done w s') ∧
        SameVal v w ∧ s'.data = σ'.data ∧ SameGlobals r1.vm.host.syms σ' s' ∧
        Session M data sbs vbs { σ' with exits := [] } (n + sizeL ast) (r1.withVm s') := by
  obtain ⟨γ, ho⟩ := h.outcome
  replace ho := ho k (.inr (by rw [he]; simp))
  rw [he] at ho
  obtain ⟨N, C, hN⟩ := ho.run_big ⟨by simp, by simp, by simp⟩
  refine ⟨N, C, fun a c ha hc clock hclk => ?_⟩
  obtain ⟨fuel, res, h1, h2⟩ := hN a c ha hc clock hclk
  cases res with
  | done w s' =>
    obtain ⟨v', h3, h4, h5, h6, _⟩ := h2
    simp only [Out.ok.injEq, reduceCtorEq, or_false] at h3
    subst h3
    exact ⟨fuel, w, s', h1, h4, h5, h6, .value h.session h.loaded h.wf h.size h.names he h1⟩
  | err e sp s' => obtain ⟨_, h3, _⟩ := h2; simp at h3
  | panic => rcases h2 with h3 | ⟨_, _, h3⟩ <;> simp at h3
  | next s' => exact h2.elim

/-- Under any limits and any clock, such a line returns nothing else: the prescribed value, or one of the limits was hit. -/
theorem C32_value_or_limit (h : Line M data sbs vbs σ n r ast r1) {k : Nat} {v : SVal} (he : evalProgram (sessionHost M sbs) k ast σ = (.ok v, σ'))
    (a c : Nat) (clock : Nat → Bool) (fuel : Nat) {res : StepR D} (hr : (r1.vm.withLimits a c).run clock fuel = some res) :
    (∃ w s', res = .done w s' ∧ SameVal v w ∧ s'.data = σ'.data ∧ SameGlobals r1.vm.host.syms σ' s' ∧
      Session M data sbs vbs { σ' with exits := [] } (n + sizeL ast) (r1.withVm s')) ∨
    (∃ sp s', res = .err (.overflow .stackOverflow) sp s') ∨ ∃ sp s', res = .err .runtimeLimit sp s' := by
  obtain ⟨γ, ho⟩ := h.outcome
  replace ho := ho k (.inr (by rw [he]; simp))
  rw [he] at ho
  rcases ho.run_any ⟨by simp, by simp, by simp⟩ (h.sp a) hr with h1 | h1 | h2
  · exact .inr (.inr h1)
  · exact .inr (.inl h1)
  · cases res with
    | done w s' =>
      obtain ⟨v', h3, h4, h5, h6, _⟩ := h2
      simp only [Out.ok.injEq, reduceCtorEq, or_false] at h3
      subst h3
      exact .inl ⟨w, s', rfl, h4, h5, h6, .value h.session h.loaded h.wf h.size h.names he hr⟩
    | err e sp s' => obtain ⟨_, h3, _⟩ := h2; simp at h3
    | panic => rcases h2 with h3 | ⟨_, _, h3⟩ <;> simp at h3
    | next s' => exact h2.elim

/-- A line that fails under the direct semantics fails with the same error at the prescribed position, with the
prescribed effects on host data and globals. -/
theorem C32_error (h : Line M data sbs vbs σ n r ast r1) {k : Nat} {e : Err} {sp : Option Span} (he : evalProgram (sessionHost M sbs) k ast σ = (.err e sp, σ'))
    (hne : e ≠ .overflow .stackOverflow) (hnb : ∀ x, e ≠ .name (.undefinedBuiltin x)) :
    ∃ N C, ∀ a c, N ≤ a → C ≤ c → ∀ clock : Nat → Bool, (∀ t, clock t = false) →
      ∃ fuel sp' s', (r1.vm.withLimits a c).run clock fuel = some (.err e sp' s') ∧ (∀ x, sp = some x → sp' = x) ∧
        s'.data = σ'.data ∧ SameGlobals r1.vm.host.syms σ' s' := by
  obtain ⟨γ, ho⟩ := h.outcome
  replace ho := ho k (.inr (by rw [he]; simp [hnb]))
  rw [he] at ho
  obtain ⟨N, C, hN⟩ := ho.run_big ⟨by simp, by simp, by simp [hne]⟩
  refine ⟨N, C, fun a c ha hc clock hclk => ?_⟩
  obtain ⟨fuel, res, h1, h2⟩ := hN a c ha hc clock hclk
  cases res with
  | done w s' => obtain ⟨_, h3, _⟩ := h2; simp at h3
  | err e' sp' s' =>
    obtain ⟨sp'', h3, h4, h5, h6, _⟩ := h2
    simp only [Out.err.injEq] at h3
    obtain ⟨rfl, rfl⟩ := h3
    exact ⟨fuel, sp', s', h1, h4, h5, h6⟩
  | panic => rcases h2 with h3 | ⟨_, _, h3⟩ <;> simp at h3
  | next s' => exact h2.elim

/-- Under any limits and clock: that error at that position, or a limit was hit. If no captured variable was on the stack
when the error occurred, the session goes on from the prescribed state. -/
theorem C32_error_or_limit (h : Line M data sbs vbs σ n r ast r1) {k : Nat} {e : Err} {sp : Option Span}
    (he : evalProgram (sessionHost M sbs) k ast σ = (.err e sp, σ')) (hne : e ≠ .overflow .stackOverflow) (hnb : ∀ x, e ≠ .name (.undefinedBuiltin x))
    (a c : Nat) (clock : Nat → Bool) (fuel : Nat) {res : StepR D} (hr : (r1.vm.withLimits a c).run clock fuel = some res) :
    (∃ sp' s', res = .err e sp' s' ∧ (∀ x, sp = some x → sp' = x) ∧ s'.data = σ'.data ∧ SameGlobals r1.vm.host.syms σ' s' ∧
      (e ≠ .runtimeLimit → s'.openUps = [] → Session M data sbs vbs { σ' with exits := [] } (n + sizeL ast) (r1.withVm s'))) ∨
    (∃ sp s', res = .err (.overflow .stackOverflow) sp s') ∨ ∃ sp s', res = .err .runtimeLimit sp s' := by
  obtain ⟨γ, ho⟩ := h.outcome
  replace ho := ho k (.inr (by rw [he]; simp [hnb]))
  rw [he] at ho
  rcases ho.run_any ⟨by simp, by simp, by simp [hne]⟩ (h.sp a) hr with h1 | h1 | h2
  · exact .inr (.inr h1)
  · exact .inr (.inl h1)
  · cases res with
    | done w s' => obtain ⟨_, h3, _⟩ := h2; simp at h3
    | err e' sp' s' =>
      obtain ⟨sp'', h3, h4, h5, h6, _⟩ := h2
      simp only [Out.err.injEq] at h3
      obtain ⟨rfl, rfl⟩ := h3
      exact .inl ⟨sp', s', rfl, h4, h5, h6, fun h7 h8 => .error h.session h.loaded h.wf h.size h.names he hne hnb hr hne h7 h8⟩
    | panic => rcases h2 with h3 | ⟨_, _, h3⟩ <;> simp at h3
    | next s' => exact h2.elim

/-- A line that panics under the direct semantics panics. -/
theorem C32_panic (h : Line M data sbs vbs σ n r ast r1) {k : Nat} (he : evalProgram (sessionHost M sbs) k ast σ = (.panic, σ')) :
    ∃ N C, ∀ a c, N ≤ a → C ≤ c → ∀ clock : Nat → Bool, (∀ t, clock t = false) →
      ∃ fuel, (r1.vm.withLimits a c).run clock fuel = some .panic := by
  obtain ⟨γ, ho⟩ := h.outcome
  replace ho := ho k (.inr (by rw [he]; simp))
  rw [he] at ho
  obtain ⟨N, C, hN⟩ := ho.run_big ⟨by simp, by simp, by simp⟩
  refine ⟨N, C, fun a c ha hc clock hclk => ?_⟩
  obtain ⟨fuel, res, h1, h2⟩ := hN a c ha hc clock hclk
  cases res with
  | done w s' => obtain ⟨_, h3, _⟩ := h2; simp at h3
  | err e' sp' s' => obtain ⟨_, h3, _⟩ := h2; simp at h3
  | panic => exact ⟨fuel, h1⟩
  | next s' => exact h2.elim

/-- A line without outcome under the direct semantics returns nothing but limit errors. -/
theorem C32_diverges (h : Line M data sbs vbs σ n r ast r1) (hd : ∀ k, (evalProgram (sessionHost M sbs) k ast σ).1 = .timeout)
    (a c : Nat) (clock : Nat → Bool) (fuel : Nat) {res : StepR D} (hr : (r1.vm.withLimits a c).run clock fuel = some res) :
    (∃ sp s', res = .err (.overflow .stackOverflow) sp s') ∨ ∃ sp s', res = .err .runtimeLimit sp s' := by
  obtain ⟨γ, ho⟩ := h.outcome
  have ho' : ∀ B, ∃ σ', Outcome (r1.vm.host.withLimits none none) B γ r1.vm.vm (.timeout, σ') := by
    intro B
    have hB := hd B
    have := ho B (.inr (by rw [hB]; simp))
    generalize evalProgram (sessionHost M sbs) B ast σ = q at this hB
    obtain ⟨o, σ'⟩ := q
    simp only at hB; subst hB
    exact ⟨σ', this⟩
  rcases Outcome.run_forever ho' (h.sp a) hr with h1 | h1
  · obtain ⟨sp, x, rfl⟩ := h1; exact .inr ⟨sp, x, rfl⟩
  · obtain ⟨sp, x, rfl⟩ := h1; exact .inl ⟨sp, x, rfl⟩

/-- Lines given as text: everything that the parser reads and the compiler accepts is a line to which the theorems above apply,
if its declarations stand where no operand of an unfinished expression is on the stack (see C25). The direct semantics says
what such a line does, unless it compares functions. -/
theorem C32_text {W : Peg.World} {j : Nat} {T : List Char} {r0 : Repl D} (hs : Session M data sbs vbs σ n r0) (hb : ∀ x, BuiltinRel M.opts.lim (lastOf sbs x) (lastOf vbs x))
    (hread : r0.read W j T = (.ok ast, r)) (hl : r.load ast = (.ok (), r1)) (hp : ∀ a ∈ ast, a.placedTop = true)
    (hn : n + sizeL ast + vbs.length ≤ 65535) : Line M data sbs vbs σ n r ast r1 ∧ shapedProgram ast = true := by
  unfold Repl.read at hread
  generalize hpw : Peg.parseWithIncludes W j ("@__exec__" ++ String.ofList (showNat r0.c)) T ⟨r0.cache, []⟩ = q at hread
  obtain ⟨o, c⟩ := q
  simp only [Prod.mk.injEq] at hread
  obtain ⟨rfl, rfl⟩ := hread
  have hs' : Session M data sbs vbs σ n { r0 with cache := c.sources, c := r0.c + 1 } := .unread _ _ hs
  have hi := hs'.inv hb
  have hwi : withinL true ast = true := by
    have := hl
    unfold Repl.load at this
    split at this
    · rename_i hc; exact compileStmts_within hi.depth hc
    · simp at this
    · simp at this
  have hw := wf_of_parsed hpw hwi hp
  obtain ⟨g', hld⟩ := hi.load hw (by omega) hl
  have hlen := hld.added.length
  have hgl := hld.small.globals
  replace hlen : r1.vm.host.syms.entries.length ≤ g'.globals.entries.length + vbs.length := hlen
  refine ⟨⟨hs', hb, hl, hw, by omega, by omega⟩, ?_⟩
  cases j with
  | zero => unfold Peg.parseWithIncludes at hpw; cases hpw
  | succ j =>
    unfold Peg.parseWithIncludes at hpw
    obtain ⟨ast0, c1, h1, h2⟩ := Peg.IM.bind_ok.1 hpw
    obtain ⟨⟨i, h3⟩, rfl⟩ := Peg.addParse_ok.1 h1
    exact shaped_of_parsed (C41_bodies_end h3) (fun _ _ _ _ => trivial) (Peg.each_spliced h2).1 hwi

/-! ### Whole sessions -/

/-- The values of the lines of a session under the direct semantics. Exit functions of contexts do not survive a line. -/
def evalLines (S : SHost D) (k : Nat) : List (List Node) → SSt D → Option (List SVal × SSt D)
  | [], σ => some ([], σ)
  | ast :: asts, σ =>
    match evalProgram S k ast σ with
    | (.ok v, σ') => (evalLines S k asts { σ' with exits := [] }).map fun (vs, σ'') => (v :: vs, σ'')
    | _ => none

/-- The results of the lines of a session given as syntax trees; `none`: some line is still running. -/
def Repl.lines (r : Repl D) (clock : Nat → Nat → Bool) (fuel : Nat) : List (List Node) → Option (List (LineR D) × Repl D)
  | [] => some ([], r)
  | ast :: asts =>
    match r.line ast (clock asts.length) fuel with
    | some (res, r') => (Repl.lines r' clock fuel asts).map fun (ress, r'') => (res :: ress, r'')
    | none => none

/-- The results are the prescribed values, up to the first line that hits a limit. -/
inductive Follows : List SVal → List (LineR D) → Prop
  | nil : Follows [] []
  | value {v : SVal} {w : VVal} {vs : List SVal} {rs : List (LineR D)} : SameVal v w → Follows vs rs → Follows (v :: vs) (.value w :: rs)
  | stack {sp : Span} {vs : List SVal} {rs : List (LineR D)} : Follows vs (.runErr (.overflow .stackOverflow) sp :: rs)
  | time {sp : Span} {vs : List SVal} {rs : List (LineR D)} : Follows vs (.runErr .runtimeLimit sp :: rs)
  | rejected {e : Err} {sp : Span} {vs : List SVal} {rs : List (LineR D)} : Follows vs (.compileErr e sp :: rs)

/-- Any session: if the lines have values one after another under the direct semantics, the session
returns these values (up to the first line that is rejected by the compiler or hits a limit),
whatever was defined, changed, captured or called in between. `opsOkL`: operators stand where the compiler can handle
them (see C58). -/
theorem C32_session {a c : Nat} (hM : M.opts.stackSize = some a) (hM' : M.opts.callStackSize = some c)
    (hb : ∀ x, BuiltinRel M.opts.lim (lastOf sbs x) (lastOf vbs x)) (clock : Nat → Nat → Bool) (fuel k : Nat) :
    ∀ (asts : List (List Node)) {σ σ' : SSt D} {n : Nat} {r r' : Repl D} {vs : List SVal} {rs : List (LineR D)}, Session M data sbs vbs σ n r →
      (∀ ast ∈ asts, wfProgram ast = true ∧ opsOkL M.cfg.chk ast = true) → n + (asts.map sizeL).sum + vbs.length ≤ 65535 →
      evalLines (sessionHost M sbs) k asts σ = some (vs, σ') → Repl.lines r clock fuel asts = some (rs, r') → Follows vs rs := by
  intro asts
  induction asts with
  | nil =>
    intro σ σ' n r r' vs rs _ _ _ he hr
    simp only [evalLines, Option.some.injEq, Prod.mk.injEq] at he
    simp only [Repl.lines, Option.some.injEq, Prod.mk.injEq] at hr
    rw [← he.1, ← hr.1]; exact .nil
  | cons ast asts ih =>
    intro σ σ' n r r' vs rs hs hw hn he hr
    simp only [List.map_cons, List.sum_cons] at hn
    simp only [evalLines] at he
    simp only [Repl.lines] at hr
    split at he
    case h_2 => simp at he
    rename_i v σ1 he1
    split at hr
    case h_2 => simp at hr
    rename_i res r2 hr1
    simp only [Option.map_eq_some_iff, Prod.exists, Prod.mk.injEq] at he hr
    obtain ⟨vs', σ2, he2, rfl, rfl⟩ := he
    obtain ⟨rs', r3, hr2, rfl, rfl⟩ := hr
    unfold Repl.line at hr1
    split at hr1
    · rename_i r1 hl
      have hi := hs.inv hb
      obtain ⟨g', hld⟩ := hi.load (hw ast (by simp)).1 (by omega) hl
      have hlen := hld.added.length
      have hgl := hld.small.globals
      replace hlen : r1.vm.host.syms.entries.length ≤ g'.globals.entries.length + vbs.length := hlen
      have hline : Line M data sbs vbs σ n r ast r1 := ⟨hs, hb, hl, (hw ast (by simp)).1, by omega, by omega⟩
      have hlim : r1.vm.withLimits a c = r1.vm := by
        have ho : r1.vm.host.opts = M.opts := hld.added.opts.trans hi.opts
        have : r1.vm.host.withLimits (some a) (some c) = r1.vm.host := by
          unfold Host.withLimits
          rw [ho, ← hM, ← hM', ← ho]
        show ({ r1.vm with host := r1.vm.host.withLimits (some a) (some c) } : Machine D) = r1.vm
        rw [this]
      cases hrun : r1.vm.run (clock asts.length) fuel with
      | none => rw [hrun] at hr1; simp at hr1
      | some q =>
        rw [hrun] at hr1
        have hkey := C32_value_or_limit hline he1 a c (clock asts.length) fuel (res := q) (by rw [hlim]; exact hrun)
        rcases hkey with ⟨w, s', rfl, h1, h2, h3, h4⟩ | ⟨sp, s', rfl⟩ | ⟨sp, s', rfl⟩
        · simp only [Option.some.injEq, Prod.mk.injEq] at hr1
          obtain ⟨rfl, rfl⟩ := hr1
          exact .value h1 (ih h4 (fun x hx => hw x (by simp [hx])) (by omega) he2 hr2)
        · simp only [Option.some.injEq, Prod.mk.injEq] at hr1
          obtain ⟨rfl, rfl⟩ := hr1
          exact .stack
        · simp only [Option.some.injEq, Prod.mk.injEq] at hr1
          obtain ⟨rfl, rfl⟩ := hr1
          exact .time
    · simp only [Option.some.injEq, Prod.mk.injEq] at hr1
      obtain ⟨rfl, rfl⟩ := hr1
      exact .rejected
    · rename_i r1 hl
      exfalso
      have hnp := compileStmts_no_panic (cfg := r.vm.host.cfg) (ast := ast) (by rw [(hs.inv hb).cfg]; exact (hw ast (by simp)).2) r.compiler
      unfold Repl.load at hl
      split at hl <;> simp_all

/-! ### Ids -/

/-- Whatever the lines of a session do and however they end — also for lines that are rejected by the compiler —, names keep
their ids: an id once assigned to a global name is assigned to it ever after. -/
theorem C32_ids {clock : Nat → Bool} {fuel : Nat} {res : LineR D} {r' : Repl D} (hi : r.compiler.g.globals.Inv) (h : r.line ast clock fuel = some (res, r'))
    {x : String} {i : Nat} (hx : r.compiler.g.globals.get i = some x) : r'.compiler.g.globals.get i = some x ∧ r'.compiler.g.globals.Inv := by
  have key : r.compiler.g.globals.Grows r'.compiler.g.globals := by
    have hg := CM.gr_stmts r.vm.host.cfg ast r.compiler
    unfold Repl.line Repl.load at h
    cases hc : compileStmts r.vm.host.cfg ast r.compiler with
    | mk o st =>
      rw [hc] at h hg
      cases o with
      | ok sp =>
        simp only at h
        split at h <;> simp only [Option.some.injEq, Prod.mk.injEq, reduceCtorEq] at h <;> (obtain ⟨_, rfl⟩ := h; exact hg)
      | err e sp =>
        simp only [Option.some.injEq, Prod.mk.injEq] at h
        obtain ⟨_, rfl⟩ := h; exact hg
      | panic =>
        simp only [Option.some.injEq, Prod.mk.injEq] at h
        obtain ⟨_, rfl⟩ := h; exact hg
  refine ⟨?_, key.2 hi⟩
  have h1 : r.compiler.g.globals.entries[i]? = some x := hx
  obtain ⟨t, ht⟩ := key.1
  show r'.compiler.g.globals.entries[i]? = some x
  rw [← ht, List.getElem?_append_left (List.getElem?_eq_some_iff.1 h1).1]; exact h1

/-- Handing a script to the VM keeps its globals and the host data. -/
theorem C32_globals_kept (h : r.load ast = (.ok (), r1)) (hs : Session M data sbs vbs σ n r) (hb : ∀ x, BuiltinRel M.opts.lim (lastOf sbs x) (lastOf vbs x))
    (hw : wfProgram ast = true) (hn : n + sizeL ast ≤ 65535) : r1.vm.vm.globals = r.vm.vm.globals ∧ r1.vm.vm.data = r.vm.vm.data := by
  obtain ⟨g', hl⟩ := (hs.inv hb).load hw hn h
  have hm := hl.vm
  exact ⟨congrArg Mem.globals hm, congrArg Mem.data hm⟩

/-! ### A concrete session -/

private def z : Span := Span.default
private def int (i : Int) : Node := .lit z (.int (BitVec.ofInt 64 i))

/-- `let x = 1` -/
def sLine1 : List Node := [.decl z (.one ("x", z)) (int 1), .lit z .none]
/-- `fn inc(d) { x = x + d  x }` -/
def sLine2 : List Node := [.func z ("inc", z) [("d", z)] [.assign z ("x", z) (.bin z .add (.ident z "x") (.ident z "d")), .ret z (some (.ident z "x"))], .lit z .none]
/-- `inc(3)` -/
def sLine3 : List Node := [.call z (.ident z "inc") [int 3]]
/-- `x` -/
def sLine4 : List Node := [.ident z "x"]
/-- `1 / 0` -/
def sLine5 : List Node := [.bin z .div (int 1) (int 0)]

/-- The integers and errors among the results. -/
inductive Shown where
  | int (i : Int) | other | err (e : Err) | compile | panic
  deriving DecidableEq, Repr

def LineR.shown : LineR D → Shown
  | .value (.int i) => .int i.toInt
  | .value _ => .other
  | .runErr e _ => .err e
  | .compileErr _ _ => .compile
  | .readErr _ => .other
  | .panic => .panic

/-- What a session shows. -/
def shows (r : Repl D) (asts : List (List Node)) : Option (List Shown) :=
  (Repl.lines r (fun _ _ => false) 100 asts).map fun p => p.1.map LineR.shown

/-- A new session. -/
def demoRepl (bs : List (String × Builtin Int VClos)) : Repl Int := Repl.new demoSetup 7 bs

example : shows (demoRepl []) [sLine1, sLine2, sLine3, sLine3, sLine5, sLine4] = some [.other, .other, .int 4, .int 7, .err .zeroDivision, .int 7] := by
  decide +kernel

example : (∀ x, BuiltinRel (D := Int) demoSetup.opts.lim (lastOf [] x) (lastOf [] x)) ∧ (∀ ast ∈ [sLine1, sLine2, sLine3, sLine3, sLine4], wfProgram ast = true) ∧
    (evalLines (sessionHost demoSetup []) 9 [sLine1, sLine2, sLine3, sLine3, sLine4] demoσ).isSome = true :=
  ⟨fun x => by simp only [lastOf]; trivial, by decide +kernel, by decide +kernel⟩

/-! ## C33 -/

/-- `let y = 5` and then a rejected `return` (outside of functions, in a block). -/
def sBad : List Node := [.decl z (.one ("y", z)) (int 5), .assign z ("x", z) (.ret z (some (int 2)))]
/-- `y` -/
def sY : List Node := [.ident z "y"]

/-- Violated: a line that the compiler rejects has effects. The code emitted before the rejection is run together with the
next line: `y` is undefined in a new session, but after the rejected line `let y = 5 …` it is 5. -/
theorem C33_failed_line_violated :
    shows (demoRepl []) [sY] = some [.err (.name (.undefined "y"))] ∧ shows (demoRepl []) [sBad, sY] = some [.compile, .int 5] := by
  decide +kernel

/-- What remains true: a line that the compiler rejects changes neither the VM nor the builtins nor the ids of names
(`C32_ids`); what is left behind is in the compiler. -/
theorem C33_failed_line_partial {e : Err} {sp : Span} (h : r.load ast = (.err e sp, r1)) :
    r1.vm = r.vm ∧ r1.builtins = r.builtins ∧ ∀ clock fuel, r.line ast clock fuel = some (.compileErr e sp, r1) := by
  have h' := h
  unfold Repl.load at h'
  split at h'
  · simp at h'
  · simp only [Prod.mk.injEq] at h'
    obtain ⟨_, rfl⟩ := h'
    exact ⟨rfl, rfl, fun clock fuel => by unfold Repl.line; rw [h]⟩
  · simp at h'

/-- A text that the parser or the include resolver rejects changes neither the compiler nor the VM: the next line, given as
a syntax tree, has the same result. -/
theorem C33_unread {W : Peg.World} {k : Nat} {T : List Char} {clock : Nat → Bool} {fuel : Nat} {e : Peg.IErr} (h : r.execute W k T clock fuel = some (.readErr e, r1)) :
    r1.vm = r.vm ∧ r1.compiler = r.compiler ∧ r1.builtins = r.builtins ∧
    ∀ ast clock fuel, (r1.line ast clock fuel).map Prod.fst = (r.line ast clock fuel).map Prod.fst := by
  have key : ∃ cache c, r1 = { r with cache := cache, c := c } := by
    unfold Repl.execute Repl.read at h
    generalize Peg.parseWithIncludes W k ("@__exec__" ++ String.ofList (showNat r.c)) T ⟨r.cache, []⟩ = q at h
    obtain ⟨o, c⟩ := q
    cases o with
    | ok ast =>
      exfalso
      simp only [Repl.line] at h
      split at h
      · split at h <;> simp at h
      · simp at h
      · simp at h
    | err e' =>
      simp only [Option.some.injEq, Prod.mk.injEq] at h
      exact ⟨_, _, h.2.symm⟩
    | oof => simp at h
  obtain ⟨cache, c, rfl⟩ := key
  refine ⟨rfl, rfl, rfl, fun ast clock fuel => ?_⟩
  simp only [Repl.line, Repl.load]
  cases compileStmts r.vm.host.cfg ast r.compiler with
  | mk o st =>
    cases o with
    | ok sp =>
      simp only
      split <;> rfl
    | err => rfl
    | panic => rfl

/-- A builtin `f` with the value 42. -/
def demoBs : List (String × Builtin Int VClos) := [("f", .fn fun d _ _ => (.ok (.int 42), d))]
/-- `none` -/
def sNone : List Node := [.lit z .none]
/-- A call of the undefined builtin `g`. -/
def sG : List Node := [.builtin z ("g", z) []]

/-- Violated: a call of an undefined builtin is not always reported. In a new session `@g()` is an error, but after the line
`none` it calls the builtin `f`, which the VM still holds under the id that the compiler now gives to `g`. -/
theorem C33_stale_builtin_violated :
    shows (demoRepl demoBs) [sG] = some [.err (.name (.undefinedBuiltin "g"))] ∧ shows (demoRepl demoBs) [sNone, sG] = some [.other, .int 42] := by
  decide +kernel

/-- `let h = none` -/
def sH : List Node := [.decl z (.one ("h", z)) (.lit z .none), .lit z .none]
/-- `{ let a = 5  h = fn() { a }  1 / 0 }` -/
def sCapture : List Node := [.block z [.decl z (.one ("a", z)) (int 5), .assign z ("h", z) (.lambda z [] [.ret z (some (.ident z "a"))]), .bin z .div (int 1) (int 0)]]
/-- `h() + 1` -/
def sCall : List Node := [.bin z .add (.call z (.ident z "h") []) (int 1)]
/-- `{ let b = 8  h() + 1 }` -/
def sCall2 : List Node := [.block z [.decl z (.one ("b", z)) (int 8), .bin z .add (.call z (.ident z "h") []) (int 1)]]

/-- What the direct semantics shows for the lines of a session that goes on after errors. -/
def specShows (S : SHost Int) : List (List Node) → SSt Int → List Shown
  | [], _ => []
  | ast :: asts, σ =>
    let r := evalProgram S 9 ast σ
    (match r.1 with
      | .ok (.int i) => .int i.toInt
      | .err e _ => .err e
      | .panic => .panic
      | _ => .other) :: specShows S asts { r.2 with exits := [] }

/-- Violated: a line that fails at run time while a captured variable is on the stack leaves closures that read whatever is on
the stack later. After `let h = none` and `{ let a = 5  h = fn() { a }  1 / 0 }`, the function `h` returns the
variable `b` of the line that calls it, or itself. -/
theorem C33_dangling_violated :
    specShows (sessionHost demoSetup []) [sH, sCapture, sCall2] demoσ = [.other, .err .zeroDivision, .int 6] ∧
    shows (demoRepl []) [sH, sCapture, sCall2] = some [.other, .err .zeroDivision, .int 9] ∧
    shows (demoRepl []) [sH, sCapture, sCall] = some [.other, .err .zeroDivision, .err (.type (.unsupportedBinary "+" "closure" "int"))] := by
  decide +kernel

/-- What remains true: calls of undefined builtins are reported as such in lines before which no builtin was left under the
id of another name; for instance in the first line (`C33_first_line`). -/
theorem C33_undefined_builtin_partial (h : Line M data sbs vbs σ n r ast r1) (hst : NoStale r1) {k : Nat} {x : String} {sp : Option Span}
    (he : evalProgram (sessionHost M sbs) k ast σ = (.err (.name (.undefinedBuiltin x)) sp, σ')) :
    ∃ N C, ∀ a c, N ≤ a → C ≤ c → ∀ clock : Nat → Bool, (∀ t, clock t = false) →
      ∃ fuel sp' s', (r1.vm.withLimits a c).run clock fuel = some (.err (.name (.undefinedBuiltin x)) sp' s') ∧ (∀ y, sp = some y → sp' = y) ∧
        s'.data = σ'.data ∧ SameGlobals r1.vm.host.syms σ' s' := by
  obtain ⟨γ, ho⟩ := h.outcome
  replace ho := ho k (.inl hst)
  rw [he] at ho
  obtain ⟨N, C, hN⟩ := ho.run_big ⟨by simp, by simp, by simp⟩
  refine ⟨N, C, fun a c ha hc clock hclk => ?_⟩
  obtain ⟨fuel, res, h1, h2⟩ := hN a c ha hc clock hclk
  cases res with
  | done w s' => obtain ⟨_, h3, _⟩ := h2; simp at h3
  | err e' sp' s' =>
    obtain ⟨sp'', h3, h4, h5, h6, _⟩ := h2
    simp only [Out.err.injEq] at h3
    obtain ⟨rfl, rfl⟩ := h3
    exact ⟨fuel, sp', s', h1, h4, h5, h6⟩
  | panic => rcases h2 with h3 | ⟨_, _, h3⟩ <;> simp at h3
  | next s' => exact h2.elim

/-- The first accepted line of a session finds no stale builtins, also if texts were rejected by the parser before. -/
theorem C33_first_line (h : Line M data sbs vbs σ n r ast r1) (hf : r.vm = (Repl.new M data vbs).vm) : NoStale r1 := by
  obtain ⟨g', hl⟩ := (h.session.inv h.related).load h.wf h.size h.loaded
  have h0 : ∀ i, r.vm.host.builtins i = none := by rw [hf]; intro i; rfl
  intro i b hb
  rcases Nat.lt_or_ge i r1.vm.host.syms.entries.length with hlt | hge
  · refine ⟨_, List.getElem?_eq_getElem hlt, ?_⟩
    have := hl.added.table h.names i _ (List.getElem?_eq_getElem hlt)
    rw [hl.builtins]
    rw [hb] at this
    generalize lastOf vbs _ = q at this
    cases q with
    | some _ => rfl
    | none => simp only at this; replace this : some b = r.vm.host.builtins i := this; rw [h0] at this; simp at this
  · have := hl.added.out h.names i hge
    rw [hb] at this
    replace this : some b = r.vm.host.builtins i := this
    rw [h0] at this; simp at this

example : ∃ r1, Line demoSetup 7 [] [] demoσ 0 (demoRepl []) sG r1 ∧ (evalProgram (sessionHost demoSetup []) 9 sG demoσ).1 = .err (.name (.undefinedBuiltin "g")) (some z) := by
  have h1 : ((demoRepl []).load sG).1 matches .ok () := by decide +kernel
  refine ⟨((demoRepl []).load sG).2, ⟨.new, fun x => by simp only [lastOf]; trivial, ?_, by decide +kernel, by decide +kernel, by decide +kernel⟩, by rfl⟩
  generalize (demoRepl []).load sG = q at h1
  obtain ⟨o, r⟩ := q
  cases o with
  | ok u => rfl
  | err => simp at h1
  | panic => simp at h1

end Quilt.Props
