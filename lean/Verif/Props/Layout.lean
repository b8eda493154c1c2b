import Verif.Sem.Layout
import Verif.Parser.Complete
import Verif.Props.Text

/-!
# Layout and names of local variables do not matter: C71

`AlphaProg` (`Verif/Sem/Rename.lean`) says when two programs differ in positions and names of local variables only.
-/

namespace Quilt.Props

open Peg Cs

variable {D : Type}

/-- Functions with the same name and number of parameters. -/
def AlikeFn (c c' : VClos) : Prop := c.fn.name = c'.fn.name ∧ c.fn.arity = c'.fn.arity

/-- The same value, up to the code of functions. -/
def SameUpToCode : VVal → VVal → Prop := Val.Rel AlikeFn

/-- The same global variables, found through the two symbol tables. -/
def AlikeGlobals (P P' : Pool String) (s s' : VM D) : Prop :=
  ∀ (i j : Nat) x, P.get i = some x → P'.get j = some x → Val.RelO AlikeFn (s.globals i) (s'.globals j)

/-- The same result: value or error (at any position), data and globals. -/
def SameResult (P P' : Pool String) : StepR D → StepR D → Prop
  | .done w s, .done w' s' => SameUpToCode w w' ∧ s.data = s'.data ∧ AlikeGlobals P P' s s'
  | .err e _ s, .err e' _ s' => e = e' ∧ s.data = s'.data ∧ AlikeGlobals P P' s s'
  | .panic, .panic => True
  | _, _ => False

/-- A run that hit one of the two stack limits or the time limit. -/
def HitLimit : StepR D → Prop
  | .err e _ _ => e = .overflow .stackOverflow ∨ e = .runtimeLimit
  | _ => False

/-- The same outcome of the direct semantics, up to the code of functions and the positions of errors. -/
def SameOutcome : Out SVal × SSt D → Out SVal × SSt D → Prop
  | (o, σ), (o', σ') => σ.data = σ'.data ∧ match o, o' with
    | .ok v, .ok w | .ret v, .ret w => Val.Rel (fun c c' : SClos => c.name = c'.name ∧ c.params.length = c'.params.length) v w
    | .err e _, .err e' _ => e = e'
    | .panic, .panic | .timeout, .timeout | .deep, .deep => True
    | .unspec b, .unspec b' => b = b'
    | _, _ => False

variable {W : World} {M : Machine.Setup D} {data : D} {ast ast' : List Node} {S : SHost D} {σ : SSt D} {m m' : Machine D}

private theorem Runs.lockstep (h : Runs M data ast S σ m) (ha : AlphaProg ast ast') (k : Nat) :
    Out.Alpha VAlpha (evalProgram S k ast σ).1 (evalProgram S k ast' σ).1 ∧ StAlpha (evalProgram S k ast σ).2 (evalProgram S k ast' σ).2 := by
  obtain ⟨script, _, h2⟩ := h.prepared
  exact evalProgram_alpha h2.alpha.1 k ha σ σ h2.alpha.2

private theorem alpha_fn {c c' : SClos} (h : CAlpha c c') : c.name = c'.name ∧ c.params.length = c'.params.length := ⟨h.name, h.params⟩

/-- Programs that differ in positions and names of local variables have the same outcome, within the same bound on loops and calls. -/
theorem C71_semantics (h : Runs M data ast S σ m) (ha : AlphaProg ast ast') (k : Nat) : SameOutcome (evalProgram S k ast σ) (evalProgram S k ast' σ) := by
  obtain ⟨h1, h2⟩ := h.lockstep ha k
  generalize evalProgram S k ast σ = r at h1 h2
  generalize evalProgram S k ast' σ = r' at h1 h2
  obtain ⟨o, τ⟩ := r
  obtain ⟨o', τ'⟩ := r'
  refine ⟨h2.data, ?_⟩
  cases o <;> cases o' <;> first
    | exact h1.elim
    | exact Val.Rel.mono (fun _ _ h => alpha_fn h) h1
    | exact h1.1
    | exact h1

private theorem alike {v v' : SVal} {w w' : VVal} (h : VAlpha v v') (h1 : SameVal v w) (h2 : SameVal v' w') : SameUpToCode w w' := by
  have h3 : Val.Rel (fun (c' : SClos) (d : VClos) => d.fn.name = c'.name ∧ d.fn.arity = c'.params.length) v' w :=
    Val.Rel.comp (fun _ _ _ (h : CAlpha _ _) (h1 : SameFn _ _) => ⟨h1.1.trans h.name, h1.2.trans h.params⟩) h h1
  exact Val.Rel.comp (fun _ _ _ h (h1 : SameFn _ _) => ⟨h.1.trans h1.1.symm, h.2.trans h1.2.symm⟩) h3 h2

private theorem alikeGlobals {P P' : Pool String} {σ σ' : SSt D} {s s' : VM D} (h : StAlpha σ σ') (h1 : SameGlobals P σ s) (h2 : SameGlobals P' σ' s') :
    AlikeGlobals P P' s s' := by
  intro i j x hi hj
  have a := h.globals x
  have b := h1 i x hi
  have c := h2 j x hj
  generalize σ.globals x = o at a b
  generalize σ'.globals x = o' at a c
  generalize s.globals i = q at b ⊢
  generalize s'.globals j = q' at c ⊢
  cases o <;> cases o' <;> simp only [Val.RelO] at a <;> cases q <;> simp only [Val.RelO] at b <;> cases q' <;> simp only [Val.RelO] at c ⊢
  exact alike a b c

/-- Compiled and run: if one of the programs ends without hitting a limit, then so does the other one, given large enough stacks and time, with
the same result. `hret`: with debug assertions, no `return` outside of functions (C20). -/
theorem C71_runs (h : Runs M data ast S σ m) (h' : Runs M data ast' S σ m') (ha : AlphaProg ast ast') (hu : ∀ k b, (evalProgram S k ast σ).1 ≠ .unspec b)
    (hov : ∀ k sp, (evalProgram S k ast σ).1 ≠ .err (.overflow .stackOverflow) sp) (hret : M.cfg.chk = true → ∀ k v, (evalProgram S k ast σ).1 ≠ .ret v)
    (n c : Nat) (clock : Nat → Bool) (fuel : Nat) {res : StepR D} (hr : (m.withLimits n c).run clock fuel = some res) (hl : ¬ HitLimit res) :
    ∃ N C, ∀ n c, N ≤ n → C ≤ c → ∀ clock : Nat → Bool, (∀ t, clock t = false) →
      ∃ fuel res', (m'.withLimits n c).run clock fuel = some res' ∧ SameResult m.host.syms m'.host.syms res res' := by
  by_cases hd : ∀ k, (evalProgram S k ast σ).1 = .timeout
  · rcases C22_diverges h hd n c clock fuel with h1 | ⟨_, _, h1⟩ | ⟨_, _, h1⟩ <;> rw [hr] at h1
    · cases h1
    · cases h1; exact absurd (.inl rfl) hl
    · cases h1; exact absurd (.inr rfl) hl
  · rw [Classical.not_forall] at hd
    obtain ⟨k, hk⟩ := hd
    have hcfg : m.host.cfg = M.cfg ∧ m'.host.cfg = M.cfg := by
      obtain ⟨_, a1, a2⟩ := h.prepared
      obtain ⟨_, b1, b2⟩ := h'.prepared
      have e : ∀ {script S σ} {m : Machine D}, Prepared M data script S σ m → m.host.cfg = M.cfg := by
        intro script S σ m hp
        induction hp with
        | new => rfl
        | builtin _ _ _ ih => exact ih
        | global _ _ _ ih => exact ih
        | @external S σ m m' x v w _ _ hset ih =>
          unfold Machine.setExternal at hset
          split at hset
          · simp at hset
          · split at hset
            · simp only [Prod.mk.injEq, true_and] at hset; subst hset; exact ih
            · simp at hset
      exact ⟨e a2, e b2⟩
    obtain ⟨hA, hσ⟩ := h.lockstep ha k
    have ho := h.outcome k
    have ho' := h'.outcome k
    have hu := hu k
    have hov := hov k
    have hret := fun hc => hret hc k
    generalize evalProgram S k ast σ = r at hk hA hσ ho hu hov hret
    generalize evalProgram S k ast' σ = r' at hA hσ ho'
    obtain ⟨o, τ⟩ := r
    obtain ⟨o', τ'⟩ := r'
    have hdef : o'.definite := by
      refine ⟨?_, ?_, ?_⟩
      · rintro rfl; cases o <;> first | exact hA.elim | exact hk rfl
      · rintro b rfl; cases o <;> first | exact hA.elim | exact hu _ rfl
      · rintro sp rfl; cases o <;> first | exact hA.elim | (obtain rfl := hA.1; exact hov _ rfl)
    rcases ho.run_any ⟨hk, hu, hov⟩ (h.sp n) hr with ⟨_, _, h1⟩ | ⟨_, _, h1⟩ | h2
    · subst h1; exact absurd (.inr rfl) hl
    · subst h1; exact absurd (.inl rfl) hl
    · obtain ⟨N, C, hN⟩ := ho'.run_big hdef
      refine ⟨N, C, fun n c hn hc clock hclk => ?_⟩
      obtain ⟨fuel, res', k1, k2⟩ := hN n c hn hc clock hclk
      refine ⟨fuel, res', k1, ?_⟩
      cases res with
      | done w s =>
        obtain ⟨v, e, a1, a2, a3, _⟩ := h2
        cases res' with
        | done w' s' =>
          obtain ⟨v', e', b1, b2, b3, _⟩ := k2
          have hv : VAlpha v v' := by
            rcases e with e | e <;> rcases e' with e' | e' <;> simp only at e e' <;> subst e <;> subst e' <;> first | exact hA.elim | exact hA
          exact ⟨alike hv a1 b1, a2.trans (hσ.data.trans b2.symm), alikeGlobals hσ a3 b3⟩
        | err => obtain ⟨_, e', _⟩ := k2; rcases e with e | e <;> simp only at e e' <;> subst e <;> subst e' <;> exact hA.elim
        | panic =>
          rcases k2 with e' | ⟨hc, v', e'⟩
          · rcases e with e | e <;> simp only at e e' <;> subst e <;> subst e' <;> exact hA.elim
          · simp only at e'; subst e'
            cases o <;> first | exact hA.elim | exact absurd rfl (hret (hcfg.2 ▸ hc) _)
        | next => exact k2.elim
      | err e sp s =>
        obtain ⟨sp', e1, _, a2, a3, _⟩ := h2
        simp only at e1; subst e1
        cases res' with
        | done => obtain ⟨v', e', _⟩ := k2; rcases e' with e' | e' <;> simp only at e' <;> subst e' <;> exact hA.elim
        | err e2 sp2 s2 =>
          obtain ⟨sp3, e', _, b2, b3, _⟩ := k2
          simp only at e'; subst e'
          exact ⟨hA.1, a2.trans (hσ.data.trans b2.symm), alikeGlobals hσ a3 b3⟩
        | panic => rcases k2 with e' | ⟨hc, v', e'⟩ <;> simp only at e' <;> subst e' <;> exact hA.elim
        | next => exact k2.elim
      | panic =>
        rcases h2 with e | ⟨hc, v, e⟩
        · simp only at e; subst e
          cases res' with
          | done => obtain ⟨v', e', _⟩ := k2; rcases e' with e' | e' <;> simp only at e' <;> subst e' <;> exact hA.elim
          | err => obtain ⟨_, e', _⟩ := k2; simp only at e'; subst e'; exact hA.elim
          | panic => trivial
          | next => exact k2.elim
        · exact absurd e (hret (hcfg.1 ▸ hc) v)
      | next => exact h2.elim

/-- Two texts of the reference grammar (C54) with the same syntax tree, that is, with other blanks, comments, line ends, parentheses, notations of
literals: if one of them, with its includes, is read as a program, so is the other, as the same program up to positions. -/
theorem C71_blanks (p q : Prog) (hp : p.ok = true) (hq : q.ok = true) (h : p.ast W.float = q.ast W.float) {k : Nat} {name : String} {c c' : Cache}
    (hr : parseWithIncludes W k name p.text c = (.ok ast, c')) :
    ∃ ast' c'', parseWithIncludes W k name q.text c = (.ok ast', c'') ∧ stripL ast = stripL ast' ∧ AlphaProg ast ast' := by
  have hra : ReadAlike W p.text q.text := by
    intro id
    obtain ⟨a, i, h1, h2⟩ := parse_text ⟨id, W.float⟩ p hp
    obtain ⟨b, j, h3, h4⟩ := parse_text ⟨id, W.float⟩ q hq
    rw [h1, h3]
    exact h2.trans (h.trans h4.symm)
  have := (includes_sim W k).1 name p.text q.text hra c c ⟨rfl, rfl⟩
  rw [hr] at this
  generalize parseWithIncludes W k name q.text c = r at this ⊢
  obtain ⟨o, c''⟩ := r
  cases o with
  | ok b => exact ⟨b, c'', rfl, this.1, alphaProg_ofStrip ast this.1⟩
  | err => exact this.1.elim
  | oof => exact this.1.elim

/-- What texts mean: the value, errors and effects of a text of the reference grammar are those of its syntax tree. -/
theorem C71_reference (p : Prog) (hp : p.ok = true) {id : Nat} {i : Inp} (hr : parseCode ⟨id, W.float⟩ p.text = .ok ast i) (h : Runs M data ast S σ m) (k : Nat) :
    SameOutcome (evalProgram S k ast σ) (evalProgram S k (p.ast W.float) σ) := by
  refine C71_semantics h (alphaProg_ofStrip ast ?_) k
  obtain ⟨a, j, h1, h2⟩ := parse_text ⟨id, W.float⟩ p hp
  rw [hr] at h1
  cases h1
  rw [← h2, strip_stripL]

/-! ## Examples -/

private def z : Span := Span.default
private def w (i : Nat) : Span := ⟨i, i + 1, 0⟩

/-- `fn f(y) { return y + 1 }  f(2)`, at other positions, is `demoProg` (C20) with another name of the parameter. -/
private def demoProg' : List Node :=
  [.func (w 0) ("f", w 1) [("y", w 2)] [.ret (w 3) (some (.bin (w 4) .add (.ident (w 5) "y") (.lit (w 6) (.int 1))))],
   .call (w 7) (.ident (w 8) "f") [.lit (w 9) (.int 2)]]

private theorem demo_alpha : AlphaProg demoProg demoProg' := by
  simp only [AlphaProg, demoProg, demoProg', Node.AlphaTop, Node.Alpha, AlphaL, AlphaB, AlphaE, Ren.call, Ren.Same]
  repeat' first | rfl | trivial | apply Exists.intro | apply And.intro | simp [Ren.Same]

/-- Both run, and what `C71_runs` assumes holds: the value is 3. -/
example : (∃ script script', Runs demoSetup 7 demoProg demoS demoσ (Machine.new demoSetup 7 script) ∧ Runs demoSetup 7 demoProg' demoS demoσ (Machine.new demoSetup 7 script')) ∧
    AlphaProg demoProg demoProg' ∧ (evalProgram demoS 5 demoProg' demoσ).1 = .ok (.int 3) := by
  obtain ⟨s, h⟩ := demo_runs demoProg (by decide +kernel) (by decide +kernel) (by decide +kernel)
  obtain ⟨s', h'⟩ := demo_runs demoProg' (by decide +kernel) (by decide +kernel) (by decide +kernel)
  exact ⟨⟨s, s', h, h'⟩, demo_alpha, rfl⟩

/-- `let a, b = v  { let c = a  let a = b  c }` is `let a, b = v  { let b = a  let d = b  b }` with consistently renamed locals … -/
example : AlphaProg [.decl z (.many [("a", z), ("b", z)]) (.ident z "v"), .block z [.decl z (.one ("c", z)) (.ident z "a"), .decl z (.one ("a", z)) (.ident z "b"), .ident z "c"]]
    [.decl z (.many [("a", z), ("b", z)]) (.ident z "v"), .block z [.decl z (.one ("e", z)) (.ident z "a"), .decl z (.one ("d", z)) (.ident z "b"), .ident z "e"]] := by
  simp only [AlphaProg, Node.AlphaTop, Node.Alpha, AlphaB]
  repeat' first | rfl | trivial | apply Exists.intro | apply And.intro | simp [Ren.after, Ren.decl, Ren.Same, Var.Fits, Var.binds]

/-- … but `fn(x) { fn(y) { x } }` is not `fn(x) { fn(x) { x } }`: the name is captured … -/
example : ¬ AlphaProg [.lambda z [("x", z)] [.lambda z [("y", z)] [.ident z "x"]]] [.lambda z [("x", z)] [.lambda z [("x", z)] [.ident z "x"]]] := by
  simp [AlphaProg, Node.AlphaTop, Node.Alpha, AlphaB, Ren.call, Ren.Same]

/-- … and globals cannot be renamed. -/
example : ¬ AlphaProg [.decl z (.one ("x", z)) (.lit z (.int 1)), .ident z "x"] [.decl z (.one ("y", z)) (.lit z (.int 1)), .ident z "y"] := by
  simp [AlphaProg, Node.AlphaTop, Node.Alpha, Var.Fits, Var.binds]

private def g1 : Gap := [.space]
private def tight : Prog := ⟨[], [(.func g1 "f" [] [] [([], "x", [])] [] [] [(.bin .add (.ident "x") [] [] (.lit (.int (.pos (.dec ['1', '6'])))), [])], [.newline]),
  (.call (.ident "f") [] [] [([], .lit (.int (.pos (.dec ['2']))), [])], [])]⟩
private def loose : Prog := ⟨[.newline, .comment " add".toList, .newline], [(.func g1 "f" g1 g1 [([], "x", g1)] g1 [.newline] [(.paren [] (.bin .add (.ident "x") g1 g1 (.lit (.int (.pos (.hex ['1', '0']))))) [], [.newline])], [.newline, .newline]),
  (.call (.ident "f") [] g1 [([], .lit (.int (.pos (.dec ['2']))), g1)], [.newline])]⟩

/-- Two layouts of one program, with other blanks, comments, parentheses and notations of numbers. -/
example : tight.ok = true ∧ loose.ok = true ∧ tight.ast W.float = loose.ast W.float ∧ String.ofList tight.text = "fn f(x){x+16}\nf(2)" ∧
    String.ofList loose.text = "\n// add\n\nfn f ( x ) {\n(x + 0x10)\n}\n\nf( 2 )\n" := by
  refine ⟨by decide +kernel, by decide +kernel, rfl, by decide +kernel, by decide +kernel⟩

end Quilt.Props
