import Verif.Vm.Room
import Verif.Props.Blame
import Verif.Props.Flow

/-!
# How much of the stack a program needs: C89

`frameSize ast` (`Verif/Compiler/RoomSpec.lean`) is read off the program text: the largest number of values that one call of one of its functions - or the
program itself - has on the stack at once. C89: whatever happens at run time, the stack holds no more than this many values for each call that is in
progress. So a stack overflow means that calls are nested too deeply, never that a loop, a long list of statements or an expression used up the stack.
-/

namespace Quilt.Props

open _root_.Quilt.VM Lib Peg Cli

variable {D : Type} {W : World} {M : Machine.Setup D} {data : D} {name : String} {T : List Char} {ast : List Node} {S : SHost D} {σ : SSt D} {m : Machine D}

/-- No builtin pretends that the stack overflowed, whatever it is called with. -/
def Peaceful (S : SHost D) : Prop :=
  (∀ x f, (S.builtins x = some (.fn f) ∨ ∃ g, S.builtins x = some (.ctx f g)) → ∀ d vs, (f d vs S.lim).1 ≠ .err (.overflow .stackOverflow)) ∧
  ∀ x f g, S.builtins x = some (.ctx f g) → ∀ d, (g d).1 ≠ .err (.overflow .stackOverflow)

/-! ## The machine at the start -/

theorem BRel.calm {lim : Limits} {f : BFn D SClos} {f' : BFn D VClos} (h : BRel lim f f') (hf : ∀ d vs, (f d vs lim).1 ≠ .err stackOver) (d : D) (args : List VVal)
    (ha : Val.AllCL (fun _ => True) args) : (f' d args lim).1 ≠ .err stackOver := by
  obtain ⟨us, hu⟩ := Val.exists_leftL (R := fun (c : SClos) (c' : VClos) => c.name = c'.fn.name) (Q := fun _ => True)
    (fun c' _ => ⟨⟨c'.fn.name, Span.default, [], [], default⟩, rfl⟩) args ha
  have := (h.rel _ (fun c c' hc => hc) d us args hu).1
  intro hv
  rw [hv] at this
  cases hr : (f d us lim).1 with
  | ok u => rw [hr] at this; simp [Res.Rel] at this
  | err e =>
    rw [hr] at this
    simp only [Res.Rel] at this
    subst this
    exact hf d us hr
  | panic => rw [hr] at this; simp [Res.Rel] at this

/-- What a prepared machine starts with. -/
structure Begins (K : Nat) (m : Machine D) : Prop where
  calm : ∀ i b, m.host.builtins i = some b → b.Calm m.host.opts.lim
  honest : VM.Honest m.host
  flow : Cfi (FnIn K) m.vm
  height : Ht K m.vm

theorem prepared_vals {script : Script} {P : VClos → Prop} (h : Prepared M data script S σ m) : VM.ValsOk P m.vm := by
  induction h with
  | new =>
    refine ⟨fun _ => trivial, fun c v h => ?_, fun i v h => by simp [Machine.new] at h, fun v h => by simp [Machine.new] at h⟩
    cases h; trivial
  | builtin x _ _ ih => exact ih
  | @global S σ m x v w _ hv ih =>
    refine ⟨ih.stack, ih.heap, fun i u hu => ?_, ih.blocks⟩
    simp only [Machine.insertGlobal] at hu
    unfold upd at hu
    split at hu
    · cases hu; exact Val.Rel.right (fun _ _ h => h.elim) _ _ hv
    · exact ih.globals i u hu
  | @external S σ m m' x v w _ hv hset ih =>
    unfold Machine.setExternal at hset
    split at hset
    · simp at hset
    · split at hset
      · simp only [Prod.mk.injEq, true_and] at hset
        subst hset
        refine ⟨ih.stack, ih.heap, fun i u hu => ?_, ih.blocks⟩
        simp only at hu
        unfold upd at hu
        split at hu
        · cases hu; exact Val.Rel.right (fun _ _ h => h.elim) _ _ hv
        · exact ih.globals i u hu
      · simp at hset

theorem compile_symsInv {cfg : Cfg} {script : Script} (hc : compile cfg ast = .ok script) (hsz : sizeL ast ≤ 65535) : script.syms.Inv := by
  unfold compile at hc
  generalize hst : (CState.new "@__main__").setMainSpan ast = st at hc
  have hg : st.g = (CState.new "@__main__").g := by
    rw [← hst]; unfold CState.setMainSpan; split <;> rfl
  have hsmall : GSmall 0 st.g := by
    rw [hg]
    refine ⟨⟨?_, ?_, ?_, Pool.inv_empty, ?_⟩, ?_, ?_, Pool.inv_empty⟩ <;> simp [CState.new, Pool.empty]
  cases hcs : compileStmts cfg ast st with
  | mk o st' =>
    rw [hcs] at hc
    cases o with
    | ok sp =>
      simp only [COut.ok.injEq] at hc
      obtain ⟨c, g', h1, h2, h3, h4⟩ := compile_gen hsmall (by omega) hcs
      subst h2
      have hsy : script.syms = g'.globals := by rw [← hc]; rfl
      rw [hsy]; exact h4.globalsInv
    | err e sp => simp at hc
    | panic => simp at hc

theorem begins (h : Runs M data ast S σ m) (hs : shapedProgram ast = true) (hQ : Peaceful S) : Begins (frameSize ast) m := by
  obtain ⟨script, h1, h2⟩ := h.prepared
  have hr := compile_room h1 hs h.size
  have hi := h2.inv (compile_symsInv h1 h.size)
  have hB : ∀ i b, m.host.builtins i = some b → ∃ x a, S.builtins x = some a ∧ BuiltinRel M.opts.lim (some a) (some b) := by
    intro i b hb
    have ht := hi.builtins h.names
    by_cases hl : m.host.syms.entries.length ≤ i
    · rw [ht.out i hl] at hb; cases hb
    · obtain ⟨x, hx⟩ : ∃ x, m.host.syms.entries[i]? = some x := ⟨_, List.getElem?_eq_getElem (by omega)⟩
      have := ht.on i x hx
      rw [hb] at this
      cases ha : S.builtins x with
      | none => rw [ha] at this; exact this.elim
      | some a => exact ⟨x, a, ha, ha ▸ this⟩
  refine ⟨fun i b hb => ?_, ?_, ⟨prepared_vals h2, ⟨by rw [hi.frame]; exact hr.1, by rw [hi.frame]; exact .zero⟩, fun f hf => by rw [hi.frames] at hf; cases hf⟩, ?_⟩
  · obtain ⟨x, a, ha, hab⟩ := hB i b hb
    rw [hi.lim.2]
    cases a with
    | fn f =>
      cases b with
      | fn f' => exact fun d args hargs => BRel.calm hab (fun d vs => hi.lim.1 ▸ hQ.1 x f (.inl ha) d vs) d args hargs
      | ctx f' e' => exact hab.elim
    | ctx f e =>
      cases b with
      | fn f' => exact hab.elim
      | ctx f' e' =>
        obtain ⟨hab, rfl⟩ := hab
        exact ⟨fun d args hargs => BRel.calm hab (fun d vs => hi.lim.1 ▸ hQ.1 x f (.inr ⟨_, ha⟩) d vs) d args hargs, hQ.2 x f e ha⟩
  · intro i f hf
    rw [hi.lim.2]
    rcases hf with hf | ⟨e, hf⟩ <;> obtain ⟨x, a, ha, hab⟩ := hB i _ hf <;> cases a with
    | fn f0 => first | exact BRel.fromArgs hab | exact hab.elim
    | ctx f0 e0 => first | exact BRel.fromArgs hab.1 | exact hab.elim
  · obtain ⟨c, hc, o, ht, a1, a2, a3, a4⟩ := hr.2
    refine ⟨0, ⟨ht, ?_, ?_⟩, ?_, ?_, ?_⟩
    · rw [hi.frame]; exact ⟨c, hc, a4, a3⟩
    · rw [hi.frame]; exact a1
    · rw [hi.frame, hi.frames]; rfl
    · rw [hi.frame, hi.sp]
    · intro f hf; rw [hi.exits.1] at hf; cases hf

theorem Begins.limits {K : Nat} (h : Begins K m) (n c : Nat) : Begins K (m.withLimits n c) := ⟨h.calm, h.honest, h.flow, h.height⟩

theorem frameSize_pos (ast : List Node) : 1 ≤ frameSize ast := by unfold frameSize; omega

private theorem scale {K L C n : Nat} (hK : 1 ≤ K) (hL : L ≤ C) (h : (C + 1) * K ≤ n + C) : (L + 1) * K ≤ n + L := by
  obtain ⟨d, rfl⟩ : ∃ d, C = L + d := ⟨C - L, by omega⟩
  have : d ≤ d * K := Nat.le_mul_of_pos_right _ hK
  simp only [Nat.add_mul, Nat.one_mul] at h ⊢
  omega

/-! ## C89 -/

/-- In every state that a run reaches, the stack holds at most `frameSize ast` values for the program and for each call in progress (one less for each
call, because the result takes the place of the function). -/
theorem C89_stack (h : RunsText W M data name T ast S σ m) (hQ : Peaceful S) (n c k : Nat) {s : VM D}
    (hk : m.vm.steps (m.withLimits n c).host k = some s) : s.sp + s.frames.length ≤ (s.frames.length + 1) * frameSize ast := by
  have hR := C53_hypotheses h
  have hb := (begins hR.1 hR.2 hQ).limits n c
  exact (steps_ht (n := n) rfl hb.calm hb.honest hb.flow hb.height hk).sp_le

/-- A stack overflow means that `c` calls are in progress - the limit -, or too many for a stack of size `n`: more than `frameSize ast` values for each call
would have been necessary to fill it otherwise. -/
theorem C89_overflow (h : RunsText W M data name T ast S σ m) (hQ : Peaceful S) (n c : Nat) (clock : Nat → Bool) (fuel : Nat) {sp : Span} {s : VM D}
    (hr : (m.withLimits n c).run clock fuel = some (.err (.overflow .stackOverflow) sp s)) :
    c ≤ s.frames.length ∨ n + s.frames.length < (s.frames.length + 1) * frameSize ast := by
  have hR := C53_hypotheses h
  have hb := (begins hR.1 hR.2 hQ).limits n c
  rcases run_out (n := n) rfl hb.calm hb.honest clock fuel 0 0 _ hb.flow hb.height hr rfl with h1 | ⟨n', h1, h2⟩
  · exact .inl (by simpa [Machine.withLimits, Host.withLimits, reached] using h1)
  · obtain rfl : n = n' := by simpa [Machine.withLimits, Host.withLimits] using h1
    exact .inr h2

/-- So with a stack that is large enough for `c` calls, whatever they are, only the depth of calls can overflow. -/
theorem C89_depth (h : RunsText W M data name T ast S σ m) (hQ : Peaceful S) {n c : Nat} (hn : (c + 1) * frameSize ast ≤ n + c) (clock : Nat → Bool)
    (fuel : Nat) {sp : Span} {s : VM D} (hr : (m.withLimits n c).run clock fuel = some (.err (.overflow .stackOverflow) sp s)) : c ≤ s.frames.length := by
  rcases C89_overflow h hQ n c clock fuel hr with h1 | h1
  · exact h1
  · by_cases hc : c ≤ s.frames.length
    · exact hc
    · have := scale (frameSize_pos ast) (L := s.frames.length) (by omega) hn
      omega

private theorem frames_bound {H : Host D} {s : VM D} : ∀ k, ∃ C, ∀ j, j ≤ k → ∀ s', s.steps H j = some s' → s'.frames.length < C
  | 0 => ⟨s.frames.length + 1, fun j hj s' h => by
      obtain rfl : j = 0 := by omega
      simp only [steps, Option.some.injEq] at h
      subst h; omega⟩
  | k + 1 => by
    obtain ⟨C, hC⟩ := frames_bound (H := H) (s := s) k
    cases hs : s.steps H (k + 1) with
    | none =>
      refine ⟨C, fun j hj s' h => ?_⟩
      by_cases hjk : j ≤ k
      · exact hC j hjk s' h
      · obtain rfl : j = k + 1 := by omega
        rw [hs] at h; cases h
    | some s1 =>
      refine ⟨max C (s1.frames.length + 1), fun j hj s' h => ?_⟩
      by_cases hjk : j ≤ k
      · have := hC j hjk s' h; omega
      · obtain rfl : j = k + 1 := by omega
        rw [hs] at h; cases h; omega

/-- A run without limits that never has `C` calls in progress ends in the same way on a machine that allows `C` nested calls and `C * K` values. -/
theorem run_within {K C : Nat} {r : Out SVal × SSt D} (hb : Begins K m) (hsp : ∀ n, m.vm.sp ≤ n) {k : Nat} {s' : VM D}
    (h1 : m.vm.steps (m.host.withLimits none none) k = some s') (h2 : Agree m.host r (s'.step (m.host.withLimits none none))) (hd : r.1.definite)
    (hC : ∀ j, j ≤ k → ∀ s', m.vm.steps (m.host.withLimits none none) j = some s' → s'.frames.length < C) {n c : Nat} (hc : C ≤ c) (hn : C * K < n)
    {clock : Nat → Bool} (hclk : ∀ t, clock t = false) : ∃ fuel res, (m.withLimits n c).run clock fuel = some res ∧ Agree m.host r res := by
  have hstep : ∀ j sj, j ≤ k → m.vm.steps (m.host.withLimits none none) j = some sj → ∀ s2, j + 1 ≤ k → sj.step (m.host.withLimits none none) = .next s2 → s2.sp < n := by
    intro j sj hj hs s2 hj2 hnx
    have hs2 : m.vm.steps (m.host.withLimits none none) (j + 1) = some s2 := by
      rw [Reach.steps_add j 1 hs]; simp [steps, hnx]
    obtain ⟨N, C', hN⟩ := steps_big (j + 1) hs2
    have hb' := hb.limits N C'
    have := (steps_ht (n := N) rfl hb'.calm hb'.honest hb'.flow hb'.height (hN N C' (Nat.le_refl _) (Nat.le_refl _)).1).sp_le
    have hlt := hC (j + 1) hj2 s2 hs2
    have := Nat.mul_le_mul_right K (Nat.succ_le_of_lt hlt)
    simp only [Nat.succ_eq_add_one] at this
    omega
  rcases steps_lim (n := n) (c := c) k (hsp n) h1 with ⟨h3, h4⟩ | ⟨j, sj, hj, h3, h4⟩
  · have hl := step_lim (H := m.host) (m := c) h4
    generalize hx : s'.step (m.host.withLimits none none) = r0 at hl h2
    generalize hy : s'.step (m.host.withLimits (some n) (some c)) = r1 at hl
    cases hl with
    | stray sp x _ => exact absurd ⟨_, _, rfl⟩ (h2.notOver hd)
    | same _ hle => exact ⟨k + 1, r0, run_of_steps hclk k 0 0 h3 hy h2.terminal, h2⟩
    | over _ sp x ho =>
      rcases ho with ho | ⟨s2, ho, _⟩
      · have := hC k (Nat.le_refl _) s' h1; omega
      · subst ho; exact h2.elim
  · exfalso
    have stop : ∀ i si, i ≤ k → m.vm.steps (m.host.withLimits none none) i = some si → ¬ Over (si.step (m.host.withLimits none none)) := by
      intro i si hi h6 h7
      have ht : ∀ x, si.step (m.host.withLimits none none) ≠ .next x := by
        obtain ⟨_, _, h8⟩ := h7
        rw [h8]; simp
      have := steps_det h1 rfl h2.terminal h6 rfl ht
      rw [← this] at h7
      exact h2.notOver hd h7
    rcases steps_unlim j (hsp n) h3 with ⟨h6, h7⟩ | ⟨i, si, hi, h6, h7⟩
    · have hlen := hC j (Nat.le_of_lt hj) sj h6
      have hst := hstep j sj (Nat.le_of_lt hj) h6
      have hno := stop j sj (Nat.le_of_lt hj) h6
      have hl := step_lim (H := m.host) (m := c) h7
      generalize sj.step (m.host.withLimits none none) = r0 at hl hst hno
      generalize sj.step (m.host.withLimits (some n) (some c)) = r1 at hl h4
      cases hl with
      | stray sp x _ => exact hno ⟨_, _, rfl⟩
      | same _ hle => exact hno h4
      | over _ sp x ho =>
        rcases ho with ho | ⟨s2, ho, h8⟩
        · omega
        · have := hst s2 hj ho; omega
    · exact stop i si (by omega) h6 h7

private theorem run_room {B K : Nat} {γ : LocMap} {r : Out SVal × SSt D} (hb : Begins K m) (hK : 1 ≤ K) (hsp : ∀ n, m.vm.sp ≤ n)
    (h : Outcome (m.host.withLimits none none) B γ m.vm r)
    (hd : r.1.definite) : ∃ C, ∀ n c, C ≤ c → (C + 1) * K ≤ n → ∀ clock : Nat → Bool, (∀ t, clock t = false) →
      ∃ fuel res, (m.withLimits n c).run clock fuel = some res ∧ Agree m.host r res := by
  obtain ⟨k, s', h1, h2⟩ := h.agree hd.1 hd.2.1
  obtain ⟨C, hC⟩ := frames_bound (H := m.host.withLimits none none) (s := m.vm) k
  refine ⟨C, fun n c hc hn clock hclk => run_within hb hsp h1 h2 hd hC hc ?_ hclk⟩
  simp only [Nat.add_mul, Nat.one_mul] at hn
  omega

/-- A program that has a value has it on every machine that allows enough nested calls; the stack needs `frameSize ast` values for each of them, no matter how
long the program runs. -/
theorem C89_value (h : RunsText W M data name T ast S σ m) (hQ : Peaceful S) {k : Nat} {v : SVal} {σ' : SSt D} (he : evalProgram S k ast σ = (.ok v, σ')) :
    ∃ C, ∀ n c, C ≤ c → (C + 1) * frameSize ast ≤ n → ∀ clock : Nat → Bool, (∀ t, clock t = false) →
      ∃ fuel w s', (m.withLimits n c).run clock fuel = some (.done w s') ∧ SameVal v w ∧ s'.data = σ'.data ∧ SameGlobals m.host.syms σ' s' := by
  have hR := C53_hypotheses h
  have ho := hR.1.outcome k
  rw [he] at ho
  obtain ⟨C, hN⟩ := run_room (begins hR.1 hR.2 hQ) (frameSize_pos ast) hR.1.sp ho ⟨by simp, by simp, by simp⟩
  refine ⟨C, fun n c hc hn clock hclk => ?_⟩
  obtain ⟨fuel, res, h1, h2⟩ := hN n c hc hn clock hclk
  cases res with
  | done w s' =>
    obtain ⟨v', h3, h4, h5, h6, _⟩ := h2
    simp only [Out.ok.injEq, reduceCtorEq, or_false] at h3
    subst h3
    exact ⟨fuel, w, s', h1, h4, h5, h6⟩
  | err e sp s' => obtain ⟨_, h3, _⟩ := h2; simp at h3
  | panic => rcases h2 with h3 | ⟨_, _, h3⟩ <;> simp at h3
  | next s' => exact h2.elim

/-- On a machine whose stack has `frameSize ast` values for each call that it allows, such a program returns this value, or exceeds the depth of calls or the time. -/
theorem C89_value_or_limit (h : RunsText W M data name T ast S σ m) (hQ : Peaceful S) {k : Nat} {v : SVal} {σ' : SSt D} (he : evalProgram S k ast σ = (.ok v, σ'))
    {n c : Nat} (hn : (c + 1) * frameSize ast ≤ n + c) (clock : Nat → Bool) (fuel : Nat) {res : StepR D} (hr : (m.withLimits n c).run clock fuel = some res) :
    (∃ w s', res = .done w s' ∧ SameVal v w ∧ s'.data = σ'.data ∧ SameGlobals m.host.syms σ' s') ∨
    (∃ sp s', res = .err (.overflow .stackOverflow) sp s' ∧ c ≤ s'.frames.length) ∨ ∃ sp s', res = .err .runtimeLimit sp s' := by
  rcases C20_value_or_limit (C53_hypotheses h).1 he n c clock fuel hr with h1 | ⟨sp, s', h1⟩ | h1
  · exact .inl h1
  · subst h1
    exact .inr (.inl ⟨sp, s', rfl, C89_depth h hQ hn clock fuel hr⟩)
  · exact .inr (.inr h1)

/-! ## The command -/

variable {E : Cli.Env} {a : Cli.Args} {k : Nat} {src : List Char} {script : Script}

/-- The standard library does not pretend that the stack overflowed. -/
theorem C89_library (E : Cli.Env) (a : Cli.Args) : Peaceful (cliHost E a) := by
  refine ⟨fun x f h d vs he => ?_, fun x f g h d he => ?_⟩
  · rcases h with h | ⟨g, h⟩
    · exact absurd (cli_builtins E a x _ h d vs _ he) (by decide)
    · exact absurd ((cli_builtins E a x _ h).1 d vs _ he) (by decide)
  · exact absurd ((cli_builtins E a x _ h).2 d _ he) (by decide)

/-- The command with its default limits (500000 values, 1000 calls): a program whose functions need at most 500 values each is only reported to overflow the
stack if 1000 calls are in progress. -/
theorem C89_command (h : MainFile E a k name src ast script) (hs : a.stackSize = none) (hcs : a.callStackSize = none) (hK : frameSize ast ≤ 500) {fuel : Nat}
    {out : List Char} {sp : Span} (hm : main E a k fuel name (.ok src) = some (.exit ⟨1, out, some (.error (.overflow .stackOverflow) sp)⟩)) :
    ∃ s, (machine E a script).run (expired E a) fuel = some (.err (.overflow .stackOverflow) sp s) ∧ 1000 ≤ s.frames.length := by
  rw [h.main] at hm
  cases hr : (machine E a script).run (expired E a) fuel with
  | none => rw [hr] at hm; cases hm
  | some r =>
    rw [hr] at hm
    cases r with
    | err e sp' s =>
      obtain ⟨rfl, rfl⟩ : e = .overflow .stackOverflow ∧ sp' = sp := by
        simp only [Option.bind_some, finish] at hm
        split at hm
        · simp only [Option.some.injEq, Cli.Outcome.exit.injEq, Cli.End.mk.injEq, Cli.Shown.error.injEq] at hm
          exact hm.2.2
        · cases hm
      refine ⟨s, rfl, ?_⟩
      have ho := cli_machine_own E a script
      rw [hs, hcs] at ho
      simp only [Option.getD_none] at ho
      rw [ho] at hr
      exact C89_depth h.text (C89_library E a) (n := 500000) (c := 1000) (by omega) (expired E a) fuel hr
    | _ => cases hm

/-! ## Examples -/

/-- `frameSize`, the stack pointer and the number of calls in progress at the end, and whether this is a stack overflow. -/
private def endsAt (T : List Char) (n c : Nat) : Option (Nat × Nat × Nat × Bool) :=
  match (parseWithIncludes Check.env.W 1 "main" T ⟨[], []⟩).1 with
  | .ok ast => match compile Check.env.cfg ast with
    | .ok script => match (machine Check.env (cliArgs.withStacks n c) script).run (fun _ => false) 300 with
      | some (.err e _ s) => some (frameSize ast, s.sp, s.frames.length, e == .overflow .stackOverflow)
      | some (.done _ s) => some (frameSize ast, s.sp, s.frames.length, false)
      | _ => none
    | _ => none
  | _ => none

private def any : Out SVal × SSt Io → Bool
  | (.ok _, _) => true
  | _ => false

/-- A loop with a local variable and a nested array in it. -/
private def loopFile : List Char := "let s = 0\nfor i in 0:6 { let t = [i, [i, i + 1]]\n s += t[1][0] }\ns".toList

/-- A function that calls itself five times. -/
private def callFile : List Char := "fn f(n) { if n == 0 { 0 } else { 1 + f(n - 1) } }\nf(5)".toList

/-- Both programs meet the hypotheses and have a value. -/
example : ∀ T ∈ [loopFile, callFile], ∃ ast script v σ', MainFile Check.env cliArgs 1 "main" T ast script ∧ cliRun Check.env cliArgs 9 ast = (.ok v, σ') := by
  intro T hT
  have : ∀ T ∈ [loopFile, callFile], checkFile T any = true := by decide +kernel
  obtain ⟨ast, script, h1, h2⟩ := checkFile_main (this T hT)
  generalize hr : cliRun Check.env cliArgs 9 ast = r at h2
  obtain ⟨o, σ'⟩ := r
  cases o <;> simp [any] at h2
  exact ⟨ast, script, _, σ', h1, hr⟩

/-- The loop needs 9 values by `frameSize`, however often it is repeated; 8 are enough, 7 are not, although no call is in progress. -/
example : endsAt loopFile 9 0 = some (9, 0, 0, false) ∧ endsAt loopFile 8 0 = some (9, 0, 0, false) ∧
    endsAt loopFile 7 0 = some (9, 7, 0, true) := by decide +kernel

/-- The function needs 6 values for each call by `frameSize`. With a large stack only the sixth call in progress is too much; with a stack that is smaller than
`C89_depth` asks for, the stack can be full before. -/
example : endsAt callFile 31 5 = some (6, 17, 5, true) ∧ endsAt callFile 1000 5 = some (6, 17, 5, true) ∧
    endsAt callFile 10 5 = some (6, 10, 3, true) ∧ endsAt callFile 36 6 = some (6, 0, 0, false) := by decide +kernel

end Quilt.Props
