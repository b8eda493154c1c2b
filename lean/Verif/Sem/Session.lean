import Verif.Sem.Ready
import Verif.Vm.HostSub
import Verif.Repl

/-!
# Interactive sessions against the direct semantics
-/

namespace Quilt

variable {D : Type}

/-- The last entry of a name. -/
def lastOf {β : Type} : List (String × β) → String → Option β
  | [], _ => none
  | (y, b) :: bs, x =>
    match lastOf bs x with
    | some b' => some b'
    | none => if y = x then some b else none

theorem lastOf_mem {β : Type} {x : String} : ∀ {bs : List (String × β)} {b : β}, lastOf bs x = some b → (x, b) ∈ bs
  | [], _, h => by simp [lastOf] at h
  | (y, b') :: bs, b, h => by
    simp only [lastOf] at h
    cases hl : lastOf bs x with
    | some c =>
      rw [hl] at h
      simp only [Option.some.injEq] at h
      subst h
      exact List.mem_cons_of_mem _ (lastOf_mem hl)
    | none =>
      rw [hl] at h
      simp only at h
      split at h
      · simp only [Option.some.injEq] at h; subst h; rename_i h; subst h; simp
      · simp at h

/-- What adding builtins does. -/
structure Added (bs : List (String × Builtin D VClos)) (m m' : Machine D) : Prop where
  vm : m'.vm = m.vm
  cfg : m'.host.cfg = m.host.cfg
  opts : m'.host.opts = m.host.opts
  enter : m'.host.onEnter = m.host.onEnter
  exit : m'.host.onExit = m.host.onExit
  fuel : m'.host.eqFuel = m.host.eqFuel
  inv : m'.host.syms.Inv
  pre : m.host.syms.entries <+: m'.host.syms.entries
  names : ∀ x b, (x, b) ∈ bs → x ∈ m'.host.syms.entries
  table : m'.host.syms.entries.length ≤ 65536 → ∀ (i : Nat) x, m'.host.syms.entries[i]? = some x →
    m'.host.builtins i = match lastOf bs x with
      | some b => some b
      | none => m.host.builtins i
  out : m'.host.syms.entries.length ≤ 65536 → ∀ i : Nat, m'.host.syms.entries.length ≤ i → m'.host.builtins i = m.host.builtins i
  length : m'.host.syms.entries.length ≤ m.host.syms.entries.length + bs.length

theorem addBuiltins_added : ∀ (bs : List (String × Builtin D VClos)) {m : Machine D}, m.host.syms.Inv → Added bs m (m.addBuiltins bs)
  | [], m, h => ⟨rfl, rfl, rfl, rfl, rfl, rfl, h, List.prefix_refl _, by simp, fun _ i x _ => by simp only [lastOf]; rfl, fun _ _ _ => rfl, Nat.le_refl _⟩
  | (y, b) :: bs, m, h => by
    have hi := Pool.inv_add h y
    have hp := Pool.add_prefix m.host.syms y
    have ih := addBuiltins_added bs (m := { m with host :=
      { m.host with syms := (m.host.syms.add y).2, builtins := upd m.host.builtins (m.host.syms.add y).1 (some b) } }) hi
    show Added _ m (Machine.addBuiltins { m with host :=
      { m.host with syms := (m.host.syms.add y).2, builtins := upd m.host.builtins (m.host.syms.add y).1 (some b) } } bs)
    generalize hm : Machine.addBuiltins { m with host :=
      { m.host with syms := (m.host.syms.add y).2, builtins := upd m.host.builtins (m.host.syms.add y).1 (some b) } } bs = m' at ih
    have hpre : (m.host.syms.add y).2.entries <+: m'.host.syms.entries := ih.pre
    refine ⟨ih.vm, ih.cfg, ih.opts, ih.enter, ih.exit, ih.fuel, ih.inv, hp.trans hpre, ?_, ?_, ?_, ?_⟩
    · intro x b' hx
      rcases List.mem_cons.1 hx with hx | hx
      · cases hx
        refine hpre.subset ?_
        have := Pool.add_entries h y
        rw [this]
        split
        · assumption
        · simp
      · exact ih.names x b' hx
    · intro hl i x hx
      have hl2 : (m.host.syms.add y).2.entries.length ≤ 65536 := Nat.le_trans hpre.length_le hl
      have hy := Pool.add_pos h y hl2
      have hy' : m'.host.syms.entries[(m.host.syms.add y).1]? = some y := by
        obtain ⟨t, ht⟩ := hpre
        rw [← ht, List.getElem?_append_left (List.getElem?_eq_some_iff.1 hy).1]; exact hy
      have := ih.table hl i x hx
      rw [this]
      simp only [lastOf]
      cases hlo : lastOf bs x with
      | some c => rfl
      | none =>
        simp only
        by_cases hxy : y = x
        · subst hxy
          have hii : i = (m.host.syms.add y).1 := nodup_get ih.inv.nodup hx hy'
          subst hii
          rw [if_pos rfl, upd_same]
        · rw [if_neg hxy]
          have hii : i ≠ (m.host.syms.add y).1 := by
            rintro rfl
            rw [hy'] at hx
            exact hxy (Option.some.inj hx)
          exact upd_other _ _ hii
    · intro hl i hi
      rw [ih.out hl i hi]
      have hl2 : (m.host.syms.add y).2.entries.length ≤ 65536 := Nat.le_trans hpre.length_le hl
      have hy := (List.getElem?_eq_some_iff.1 (Pool.add_pos h y hl2)).1
      have := hpre.length_le
      exact upd_other _ _ (by omega)
    · have h1 := ih.length
      have h2 := Pool.add_entries h y
      replace h1 : m'.host.syms.entries.length ≤ (m.host.syms.add y).2.entries.length + bs.length := h1
      rw [h2] at h1
      simp only [List.length_cons]
      split at h1
      · omega
      · simp only [List.length_append, List.length_cons, List.length_nil] at h1; omega

/-! ## The state of a session -/

/-- The host of the direct semantics for a session. -/
def sessionHost (M : Machine.Setup D) (bs : List (String × Builtin D SClos)) : SHost D :=
  ⟨M.cfg, M.opts.lim, lastOf bs, M.onEnter, M.onExit⟩

/-- Between lines, a session corresponds to a source state. `n` is the number of nodes compiled so far. -/
structure SessInv (M : Machine.Setup D) (vbs : List (String × Builtin D VClos)) (σ : SSt D) (n : Nat) (r : Repl D) : Prop where
  builtins : r.builtins = vbs
  cfg : r.vm.host.cfg = M.cfg
  opts : r.vm.host.opts = M.opts
  enter : r.vm.host.onEnter = M.onEnter
  exit : r.vm.host.onExit = M.onExit
  depth : r.compiler.g.cur.depth = 0
  locals : r.compiler.g.cur.locals = []
  ups : r.compiler.g.cur.upvalues = []
  encl : r.compiler.g.encl = []
  chunk : r.compiler.head.chunk = Chunk.empty
  small : GSmall n r.compiler.g
  ok : ∃ γ, Ok M.cfg r.compiler.g.globals.entries γ noSlots σ (Machine.resetVm r.vm.vm).mem
  names : ∀ x, x ∉ r.compiler.g.globals.entries → σ.globals x = none

theorem SessInv.ginv {M : Machine.Setup D} {vbs : List (String × Builtin D VClos)} {σ : SSt D} {n : Nat} {r : Repl D} (h : SessInv M vbs σ n r) :
    GInv r.compiler.g := by
  refine ⟨?_, ⟨?_, h.small.cur.constsInv⟩, ?_, h.small.globalsInv⟩
  · rw [h.encl]; exact h.ups
  · rw [h.locals]; simp
  · rw [h.encl]; simp

/-- Correspondence with a larger symbol table. -/
theorem Ok.grow {cfg : Cfg} {syms syms' : List String} {γ slots : LocMap} {σ : SSt D} {m : Mem D} (h : Ok cfg syms γ slots σ m) (hp : syms <+: syms')
    (hnd : syms'.Nodup) (hn : ∀ x, x ∉ syms → σ.globals x = none) : Ok cfg syms' γ slots σ m := by
  have hc : ∀ {sc vc}, CRel cfg syms γ sc vc → CRel cfg syms' γ sc vc := by
    intro sc vc ⟨g, s, code, g1, h1, h2, h3, h4, h5, h6, h7, h8⟩
    exact ⟨g, s, code, g1, h1, h2, h3, h4, h5, h6, h7.trans hp, h8⟩
  have hv : ∀ {v w}, VRel cfg syms γ v w → VRel cfg syms' γ v w := fun h => Val.Rel.mono (fun _ _ => hc) h
  refine ⟨h.data, h.exits, ?_, ?_, ?_, h.opened, h.slotInj, h.cellInj, ?_⟩
  · intro i x hx
    by_cases hi : i < syms.length
    · have hx' : syms[i]? = some x := by
        obtain ⟨t, rfl⟩ := hp
        rw [List.getElem?_append_left hi] at hx; exact hx
      have := h.globals i x hx'
      generalize σ.globals x = a at this
      generalize m.globals i = b at this
      cases a <;> cases b <;> simp only [Val.RelO] at this ⊢
      exact hv this
    · have hx' : x ∉ syms := by
        intro hm
        obtain ⟨j, hj⟩ := List.getElem?_of_mem hm
        have hj' : syms'[j]? = some x := by
          obtain ⟨t, rfl⟩ := hp
          rw [List.getElem?_append_left (List.getElem?_eq_some_iff.1 hj).1]; exact hj
        have := nodup_get hnd hx hj'
        have := (List.getElem?_eq_some_iff.1 hj).1
        omega
      rw [hn x hx', h.out i (by omega)]
      trivial
  · intro l loc hl
    obtain ⟨a, b, c⟩ := h.slot l loc hl
    exact ⟨a, b, hv c⟩
  · intro c loc hl
    obtain ⟨a, b, d⟩ := h.cell c loc hl
    refine ⟨a, b, ?_⟩
    generalize m.heap c = w at d
    cases w with
    | opened l => exact d
    | closed w => exact ⟨hv d.1, d.2⟩
  · intro i hi
    exact h.out i (Nat.le_trans hp.length_le hi)

/-- After a reset nothing is on the stack and no exit function is pending. -/
theorem Ok.reset {cfg : Cfg} {syms : List String} {γ slots : LocMap} {σ : SSt D} {s : VM D} {stack : Nat → VVal} {sp : Nat}
    (h : Ok cfg syms γ slots σ { s.mem with stack := stack, sp := sp }) (ho : s.openUps = []) :
    Ok cfg syms γ noSlots { σ with exits := [] } (Machine.resetVm s).mem := by
  refine ⟨h.data, rfl, h.globals, by simp [noSlots], ?_, ?_, by simp [noSlots], h.cellInj, h.out⟩
  · intro c loc hl
    obtain ⟨a, b, d⟩ := h.cell c loc hl
    refine ⟨a, b, ?_⟩
    have d' : CellOk cfg syms γ slots s.openUps (σ.store loc) c loc (s.heap c) := d
    show CellOk cfg syms γ noSlots [] (σ.store loc) c loc (s.heap c)
    generalize s.heap c = w at d'
    cases w with
    | opened l => rw [ho] at d'; exact absurd d'.2 (by simp)
    | closed w => exact ⟨d'.1, by simp [noSlots]⟩
  · intro c hc
    have : c ∈ ([] : List Nat) := hc
    simp at this

/-- A new session. -/
theorem SessInv.new (M : Machine.Setup D) (data : D) (vbs : List (String × Builtin D VClos)) :
    SessInv M vbs ⟨fun _ => .none, 0, fun _ => none, data, []⟩ 0 (Repl.new M data vbs) := by
  refine ⟨rfl, rfl, rfl, rfl, rfl, rfl, rfl, rfl, rfl, rfl, ?_, ⟨noSlots, ?_⟩, fun _ _ => rfl⟩
  · refine ⟨⟨?_, ?_, ?_, Pool.inv_empty, ?_⟩, ?_, ?_, Pool.inv_empty⟩ <;> simp [Repl.new, CState.new, Pool.empty]
  · refine ⟨rfl, rfl, ?_, by simp [noSlots], by simp [noSlots], ?_, by simp [noSlots], by simp [noSlots], fun _ _ => rfl⟩
    · intro i x hx; simp [Repl.new, CState.new, Pool.empty] at hx
    · intro c hc
      have : c ∈ ([] : List Nat) := hc
      simp at this

/-! ## One line -/

/-- The builtins of a session, by the ids of a symbol table. -/
def clean (vbs : List (String × Builtin D VClos)) (p : Pool String) (i : Nat) : Option (Builtin D VClos) :=
  match p.entries[i]? with
  | some x => lastOf vbs x
  | none => none

/-- What loading a line leads to. -/
structure Loaded (M : Machine.Setup D) (vbs : List (String × Builtin D VClos)) (σ : SSt D) (n : Nat) (ast : List Node) (r r1 : Repl D) (g' : GState) : Prop where
  small : GSmall (n + sizeL ast) g'
  grow : r.compiler.g.globals.entries <+: g'.globals.entries
  comp : r1.compiler.g = ⟨⟨[], [], 0, g'.cur.symPool, g'.cur.constPool⟩, [], g'.globals, g'.externals⟩
  chunk : r1.compiler.head.chunk = Chunk.empty
  added : Added vbs { r.vm with host := { r.vm.host with syms := g'.globals } , vm := r1.vm.vm } r1.vm
  vm : r1.vm.vm.mem = (Machine.resetVm r.vm.vm).mem
  builtins : r1.builtins = vbs
  code : ∃ c sp st, genStmts M.cfg true ast r.compiler.g = .ok (sp, c, g') ∧ GM.fnFits g'.cur c = true ∧
    r1.vm.vm.frame = ⟨CM.finish g'.cur st, r.vm.vm.frame.ups, 0, 0⟩ ∧ st.chunk = Chunk.empty.emit c
  rest : r1.vm.vm.frames = [] ∧ r1.vm.vm.sp = 0

theorem SessInv.load {M : Machine.Setup D} {vbs : List (String × Builtin D VClos)} {σ : SSt D} {n : Nat} {r r1 : Repl D} (h : SessInv M vbs σ n r)
    {ast : List Node} (hw : wfProgram ast = true) (hs : n + sizeL ast ≤ 65535) (hl : r.load ast = (.ok (), r1)) : ∃ g', Loaded M vbs σ n ast r r1 g' := by
  unfold Repl.load at hl
  cases hc : compileStmts r.vm.host.cfg ast r.compiler with
  | mk o st =>
    rw [hc] at hl
    cases o with
    | err => simp at hl
    | panic => simp at hl
    | ok sp =>
      simp only [Prod.mk.injEq, true_and] at hl
      obtain ⟨c, g', h1, h2, h3, h4⟩ := compile_gen h.small hs hc
      subst h2
      rw [h.cfg] at h1
      have hfree : UpsFree r.compiler.g := by
        intro l hl u hu
        rw [h.encl] at hl
        simp only [List.mem_singleton] at hl
        subst hl
        rw [h.ups] at hu; simp at hu
      obtain ⟨e1, _⟩ := top_stmts M.cfg ast h.ginv hfree hw h.depth h1
      have hadd := addBuiltins_added vbs (m := r.vm.updateScript (CState.script (r.compiler.emit c g'))) h4.globalsInv
      have hv : r1.vm = (r.vm.updateScript (CState.script (r.compiler.emit c g'))).addBuiltins vbs := by rw [← hl, ← h.builtins]
      rw [← hv] at hadd
      refine ⟨g', h4, e1.1.globals, by rw [← hl]; rfl, by rw [← hl]; rfl, ?_, ?_, by rw [← hl]; exact h.builtins, ⟨c, sp, (r.compiler.emit c g').head, h1, h3, ?_, ?_⟩, ?_⟩
      · exact ⟨rfl, hadd.cfg, hadd.opts, hadd.enter, hadd.exit, hadd.fuel, hadd.inv, hadd.pre, hadd.names, hadd.table, hadd.out, hadd.length⟩
      · rw [hadd.vm]; rfl
      · rw [hadd.vm]; rfl
      · show r.compiler.head.chunk.emit c = _; rw [h.chunk]
      · rw [hadd.vm]; exact ⟨rfl, rfl⟩

/-- The line on the machine without limits, for suitable symbol tables. -/
theorem Loaded.outcome {M : Machine.Setup D} {sbs : List (String × Builtin D SClos)} {vbs : List (String × Builtin D VClos)} (hb : ∀ x, BuiltinRel M.opts.lim (lastOf sbs x) (lastOf vbs x))
    {σ : SSt D} {n : Nat} {r r1 : Repl D} (h : SessInv M vbs σ n r)
    {ast : List Node} (hw : wfProgram ast = true) {g' : GState} (hl : Loaded M vbs σ n ast r r1 g')
    {p : Pool String} (hp : p.Inv) (hg : g'.globals.entries <+: p.entries) (hlen : p.entries.length ≤ 65536) :
    ∃ γ, ∀ k, Outcome ((r1.vm.host.withLimits none none).with p (clean vbs p)) k γ r1.vm.vm (evalProgram (sessionHost M sbs) k ast σ) := by
  obtain ⟨γ, hok⟩ := h.ok
  refine ⟨γ, fun k => ?_⟩
  obtain ⟨c, sp, st, h1, h2, h3, h4⟩ := hl.code
  have hcfg : r1.vm.host.cfg = M.cfg := hl.added.cfg.trans h.cfg
  have hopts : r1.vm.host.opts = M.opts := hl.added.opts.trans h.opts
  have hH : HRel ((r1.vm.host.withLimits none none).with p (clean vbs p)) (sessionHost M sbs) := by
    refine ⟨hcfg.symm, ?_, rfl, rfl, (hl.added.enter.trans h.enter).symm, (hl.added.exit.trans h.exit).symm, hp, hlen, ?_⟩
    · show M.opts.lim = r1.vm.host.opts.lim; rw [hopts]
    · intro i x hx
      show BuiltinRel r1.vm.host.opts.lim (lastOf sbs x) (clean vbs p i)
      have : clean vbs p i = lastOf vbs x := by unfold clean; replace hx : p.entries[i]? = some x := hx; rw [hx]
      rw [this, hopts]; exact hb x
  have hidle : Idle ((r1.vm.host.withLimits none none).with p (clean vbs p)) γ σ r1.vm.vm := by
    refine ⟨?_, hl.rest.2, hl.rest.1, by rw [h3]⟩
    show Ok r1.vm.host.cfg p.entries γ noSlots σ r1.vm.vm.mem
    rw [hl.vm, hcfg]
    exact hok.grow (hl.grow.trans hg) hp.nodup h.names
  refine run_program hH h.ginv h.depth h.locals h.encl (g' := g') (c := c) (sp0 := sp) ?_ h2 hw hg (h := st) h4 hidle ?_ ?_ k
  · show genStmts r1.vm.host.cfg true ast _ = _; rw [hcfg]; exact h1
  · rw [h3]
  · rw [h3]

theorem Loaded.sub {M : Machine.Setup D} {vbs : List (String × Builtin D VClos)} {σ : SSt D} {n : Nat} {ast : List Node} {r r1 : Repl D} {g' : GState}
    (hl : Loaded M vbs σ n ast r r1 g') (hlen : r1.vm.host.syms.entries.length ≤ 65536) {p : Pool String}
    (hp : ∀ (i : Nat) x, p.entries[i]? = some x → lastOf vbs x = none ∨ r1.vm.host.syms.entries[i]? = some x) (i : Nat) :
    clean vbs p i = none ∨ clean vbs p i = r1.vm.host.builtins i := by
  unfold clean
  cases hx : p.entries[i]? with
  | none => exact .inl rfl
  | some x =>
    simp only
    cases hb : lastOf vbs x with
    | none => exact .inl rfl
    | some b =>
      rcases hp i x hx with h | h
      · rw [hb] at h; cases h
      · have := hl.added.table hlen i x h
        rw [hb] at this
        exact .inr this.symm

/-! ## Other builtins -/

section
variable {H : Host D} {p : Pool String} {b : Nat → Option (Builtin D VClos)} {B : Nat} {γ : LocMap} {s : VM D} {v : SVal} {σ' : SSt D}

theorem Reach.host (hb : ∀ i, b i = none ∨ b i = H.builtins i) {k : Nat} {s s' : VM D} (h : Reach (H.with p b) k s s') : Reach H k s s' := by
  obtain ⟨n, h1, h2⟩ := h
  exact ⟨n, h1, VM.steps_host hb h2⟩

theorem done_host (hb : ∀ i, b i = none ∨ b i = H.builtins i) {s s' : VM D} {w : VVal} (h : s.step (H.with p b) = .done w s') : s.step H = .done w s' := by
  have := VM.step_host (p := p) (s := s) hb
  rw [h] at this
  generalize s.step H = r at this
  cases this; rfl

theorem panic_host (hb : ∀ i, b i = none ∨ b i = H.builtins i) {s : VM D} (h : s.step (H.with p b) = .panic) : s.step H = .panic := by
  have := VM.step_host (p := p) (s := s) hb
  rw [h] at this
  generalize s.step H = r at this
  cases this; rfl

theorem err_host (hb : ∀ i, b i = none ∨ b i = H.builtins i) {s s' : VM D} {e : Err} {sp : Span} (h : s.step (H.with p b) = .err e sp s')
    (he : ∀ n, e ≠ .name (.undefinedBuiltin n)) : ∃ e', s.step H = .err e' sp s' ∧ (p = H.syms → e' = e) := by
  have := VM.step_host (p := p) (s := s) hb
  rw [h] at this
  generalize s.step H = r at this
  cases this with
  | same => exact ⟨e, rfl, fun _ => rfl⟩
  | undef i => exact ⟨_, rfl, fun hp => by rw [hp]⟩
  | builtin n => exact absurd rfl (he n)

/-- A machine with additional builtins, if the program does not call a builtin it does not know. -/
theorem Outcome.host {r : Out SVal × SSt D} (hb : ∀ i, b i = none ∨ b i = H.builtins i) (h : Outcome (H.with H.syms b) B γ s r)
    (he : ∀ n sp, r.1 ≠ .err (.name (.undefinedBuiltin n)) sp) : Outcome H B γ s r := by
  obtain ⟨o, σ'⟩ := r
  cases o with
  | ok v =>
    obtain ⟨s', w, s'', γ', h1, h2, h3, h4, h5⟩ := h
    exact ⟨s', w, s'', γ', h1.host hb, done_host hb h2, h3, h4, ⟨h5.ok, h5.sp, h5.frames, h5.base⟩⟩
  | ret v =>
    obtain ⟨s', w, s'', γ', h1, h2, h3, h4, h5⟩ := h
    exact ⟨s', w, s'', γ', h1.host hb, h2.imp (done_host hb) (fun h => ⟨h.1, panic_host hb h.2⟩), h3, h4, ⟨h5.ok, h5.sp, h5.frames, h5.base⟩⟩
  | err e sp =>
    obtain ⟨s', sp', s'', h1, h2, h3, h4⟩ := h
    obtain ⟨e', h5, h6⟩ := err_host hb h2 (fun n hn => he n sp (by rw [hn]))
    rw [h6 rfl] at h5
    exact ⟨s', sp', s'', h1.host hb, h5, h3, h4⟩
  | panic =>
    obtain ⟨s', h1, h2⟩ := h
    exact ⟨s', h1.host hb, panic_host hb h2⟩
  | timeout =>
    obtain ⟨s', h1⟩ := h
    exact ⟨s', h1.host hb⟩
  | deep => exact h.elim
  | unspec => trivial

end

/-! ## Results of limited runs are results of runs without limits -/

theorem VM.run_unlim {H : Host D} {n c fuel i j : Nat} {s : VM D} (hs : s.sp ≤ n) {clock : Nat → Bool} {res : StepR D}
    (hr : s.run (H.withLimits (some n) (some c)) clock fuel i j = some res) :
    (∃ sp x, res = .err .runtimeLimit sp x) ∨ VM.Over res ∨
    (∃ k s', s.steps (H.withLimits none none) k = some s' ∧ s'.step (H.withLimits none none) = res ∧ ∀ x, res ≠ .next x) ∨
    ∃ k s', s.steps (H.withLimits none none) k = some s' ∧ VM.Over (s'.step (H.withLimits none none)) := by
  rcases VM.run_cases clock fuel i j hr with h1 | ⟨k, s1, _, h2, h3, h4⟩
  · exact .inl h1
  · rcases VM.steps_unlim k hs h2 with ⟨h5, h6⟩ | ⟨j', sj, _, h5, h6⟩
    · have hl := VM.step_lim (H := H) (m := c) h6
      rw [h3] at hl
      generalize hx : s1.step (H.withLimits none none) = r0 at hl
      cases hl with
      | stray sp x => exact .inr (.inr (.inr ⟨k, s1, h5, by rw [hx]; exact ⟨_, _, rfl⟩⟩))
      | same => exact .inr (.inr (.inl ⟨k, s1, h5, hx, h4⟩))
      | over => exact .inr (.inl ⟨_, _, rfl⟩)
    · exact .inr (.inr (.inr ⟨j', sj, h5, h6⟩))

/-! ## Sessions go on -/

section
variable {M : Machine.Setup D} {sbs : List (String × Builtin D SClos)} {vbs : List (String × Builtin D VClos)} {σ σ' : SSt D} {n : Nat} {r r1 : Repl D}
  {ast : List Node} {g' : GState}

/-- If for all suitable symbol tables the machine state `s'` corresponds to `σ'`, the session goes on from there. -/
theorem Loaded.next (h : SessInv M vbs σ n r) (hl : Loaded M vbs σ n ast r r1 g') (hsz : n + sizeL ast ≤ 65535)
    (hlen : r1.vm.host.syms.entries.length ≤ 65536) {s' : VM D}
    (hok : ∀ p : Pool String, p.Inv → g'.globals.entries <+: p.entries → p.entries.length ≤ 65536 →
      (∀ i, clean vbs p i = none ∨ clean vbs p i = r1.vm.host.builtins i) →
      ∃ γ, Ok M.cfg p.entries γ noSlots { σ' with exits := [] } (Machine.resetVm s').mem) :
    SessInv M vbs { σ' with exits := [] } (n + sizeL ast) (r1.withVm s') := by
  have hgl : g'.globals.entries.length ≤ 65535 := by have := hl.small.globals; omega
  have hpre : g'.globals.entries <+: r1.vm.host.syms.entries := hl.added.pre
  have hcomp : (r1.withVm s').compiler = r1.compiler := rfl
  obtain ⟨γ, ok0⟩ := hok g'.globals hl.small.globalsInv (List.prefix_refl _) (by omega) (hl.sub hlen (p := g'.globals) fun i x hx => .inr (by
    obtain ⟨t, ht⟩ := hpre
    rw [← ht, List.getElem?_append_left (List.getElem?_eq_some_iff.1 hx).1]; exact hx))
  refine ⟨hl.builtins, hl.added.cfg.trans h.cfg, hl.added.opts.trans h.opts, hl.added.enter.trans h.enter, hl.added.exit.trans h.exit, ?_, ?_, ?_, ?_, hl.chunk, ?_, ⟨γ, ?_⟩, ?_⟩
  · rw [hcomp, hl.comp]
  · rw [hcomp, hl.comp]
  · rw [hcomp, hl.comp]
  · rw [hcomp, hl.comp]
  · rw [hcomp, hl.comp]
    exact ⟨⟨by simp, by simp, hl.small.cur.consts, hl.small.cur.constsInv, by simp⟩, by simp, hl.small.globals, hl.small.globalsInv⟩
  · rw [hcomp, hl.comp]; exact ok0
  · intro x hx
    rw [hcomp, hl.comp] at hx
    show σ'.globals x = none
    have key : ∀ {p : Pool String} {i : Nat} {γ : LocMap}, p.entries[i]? = some x → g'.globals.entries.length ≤ i →
        Ok M.cfg p.entries γ noSlots { σ' with exits := [] } (Machine.resetVm s').mem → σ'.globals x = none := by
      intro p i γ hi hge hok
      have h1 := hok.globals i x hi
      have h2 := ok0.out i hge
      rw [h2] at h1
      cases hg : σ'.globals x with
      | none => rfl
      | some v => replace h1 : Val.RelO _ (σ'.globals x) none := h1; rw [hg] at h1; exact h1.elim
    by_cases hq : x ∈ r1.vm.host.syms.entries
    · obtain ⟨i, hi⟩ := List.getElem?_of_mem hq
      obtain ⟨γ1, ok1⟩ := hok r1.vm.host.syms hl.added.inv hpre hlen (hl.sub hlen fun i x hx => .inr hx)
      refine key hi ?_ ok1
      rcases Nat.lt_or_ge i g'.globals.entries.length with hlt | hge
      · obtain ⟨t, ht⟩ := hpre
        rw [← ht, List.getElem?_append_left hlt] at hi
        exact absurd (List.mem_of_getElem? hi) hx
      · exact hge
    · have he := Pool.add_entries hl.small.globalsInv x
      rw [if_neg hx] at he
      obtain ⟨γ1, ok1⟩ := hok (g'.globals.add x).2 (Pool.inv_add hl.small.globalsInv x) (Pool.add_prefix _ _) (by rw [he]; simp; omega)
        (hl.sub hlen fun i y hy => by
          rw [he] at hy
          rcases Nat.lt_or_ge i g'.globals.entries.length with hlt | hge
          · rw [List.getElem?_append_left hlt] at hy
            obtain ⟨t, ht⟩ := hpre
            refine .inr ?_
            rw [← ht, List.getElem?_append_left hlt]; exact hy
          · rw [List.getElem?_append_right hge] at hy
            have hy' : y = x := by
              cases hi : i - g'.globals.entries.length with
              | zero => rw [hi] at hy; simpa using hy.symm
              | succ k => rw [hi] at hy; simp at hy
            subst hy'
            left
            cases hb : lastOf vbs y with
            | none => rfl
            | some b => exact absurd (hl.added.names y b (lastOf_mem hb)) hq)
      refine key (p := (g'.globals.add x).2) (i := g'.globals.entries.length) ?_ (Nat.le_refl _) ok1
      rw [he]; simp

/-- A line with a value. -/
theorem Loaded.value (hb : ∀ x, BuiltinRel M.opts.lim (lastOf sbs x) (lastOf vbs x)) (h : SessInv M vbs σ n r) (hw : wfProgram ast = true)
    (hsz : n + sizeL ast ≤ 65535) (hl : Loaded M vbs σ n ast r r1 g') (hlen : r1.vm.host.syms.entries.length ≤ 65536)
    {k : Nat} {v : SVal} (he : evalProgram (sessionHost M sbs) k ast σ = (.ok v, σ') ∨ evalProgram (sessionHost M sbs) k ast σ = (.ret v, σ'))
    {a c fuel : Nat} {clock : Nat → Bool} {w : VVal} {s' : VM D} (hr : (r1.vm.withLimits a c).run clock fuel = some (.done w s')) :
    SessInv M vbs { σ' with exits := [] } (n + sizeL ast) (r1.withVm s') := by
  refine hl.next h hsz hlen fun p hp hg hpl hsub => ?_
  obtain ⟨γ, ho⟩ := hl.outcome hb h hw hp hg hpl
  replace ho := ho k
  replace hsub : ∀ i, clean vbs p i = none ∨ clean vbs p i = (r1.vm.host.withLimits none none).builtins i := hsub
  have hmain : ∃ s1 w1 s2 γ', Reach (r1.vm.host.withLimits none none) 0 r1.vm.vm s1 ∧
      (s1.step (r1.vm.host.withLimits none none) = .done w1 s2 ∨ s1.step (r1.vm.host.withLimits none none) = .panic) ∧
      Idle ((r1.vm.host.withLimits none none).with p (clean vbs p)) γ' σ' s2 := by
    rcases he with he | he
    · rw [he] at ho
      obtain ⟨s1, w1, s2, γ', h1, h2, _, _, h5⟩ := ho
      exact ⟨s1, w1, s2, γ', h1.host hsub, .inl (done_host hsub h2), h5⟩
    · rw [he] at ho
      obtain ⟨s1, w1, s2, γ', h1, h2, _, _, h5⟩ := ho
      refine ⟨s1, w1, s2, γ', h1.host hsub, ?_, h5⟩
      rcases h2 with h2 | ⟨_, h2⟩
      · exact .inl (done_host hsub h2)
      · exact .inr (panic_host hsub h2)
  obtain ⟨s1, w1, s2, γ', ⟨k1, _, h1⟩, h2, h3⟩ := hmain
  have hterm : ∀ x, s1.step (r1.vm.host.withLimits none none) ≠ .next x := by
    intro x hx
    rcases h2 with h2 | h2 <;> rw [h2] at hx <;> cases hx
  have hsp : r1.vm.vm.sp ≤ a := by rw [hl.rest.2]; omega
  have hfin : s1.step (r1.vm.host.withLimits none none) = .done w s' := by
    rcases VM.run_unlim hsp hr with ⟨_, _, h4⟩ | ⟨_, _, h4⟩ | ⟨k2, s3, h4, h5, h6⟩ | ⟨k2, s3, h4, h5⟩
    · cases h4
    · cases h4
    · exact VM.steps_det h1 rfl hterm h4 h5 h6
    · obtain ⟨sp, x, h6⟩ := h5
      have := VM.steps_det h1 rfl hterm h4 h6 (by simp)
      rcases h2 with h2 | h2 <;> rw [h2] at this <;> cases this
  rcases h2 with h2 | h2 <;> rw [hfin] at h2 <;> cases h2
  refine ⟨γ', ?_⟩
  have hok := h3.ok
  replace hok : Ok r1.vm.host.cfg p.entries γ' noSlots σ' s'.mem := hok
  rw [hl.added.cfg.trans h.cfg] at hok
  exact hok.reset (stack := s'.stack) (sp := s'.sp) h3.openUps

/-- A line that fails where no captured variable is still on the stack. -/
theorem Loaded.error (hb : ∀ x, BuiltinRel M.opts.lim (lastOf sbs x) (lastOf vbs x)) (h : SessInv M vbs σ n r) (hw : wfProgram ast = true)
    (hsz : n + sizeL ast ≤ 65535) (hl : Loaded M vbs σ n ast r r1 g') (hlen : r1.vm.host.syms.entries.length ≤ 65536)
    {k : Nat} {e : Err} {sp : Option Span} (he : evalProgram (sessionHost M sbs) k ast σ = (.err e sp, σ'))
    (hne : e ≠ .overflow .stackOverflow) (hnb : ∀ x, e ≠ .name (.undefinedBuiltin x))
    {a c fuel : Nat} {clock : Nat → Bool} {e' : Err} {sp' : Span} {s' : VM D} (hr : (r1.vm.withLimits a c).run clock fuel = some (.err e' sp' s'))
    (hne' : e' ≠ .overflow .stackOverflow) (hnl : e' ≠ .runtimeLimit) (hou : s'.openUps = []) :
    SessInv M vbs { σ' with exits := [] } (n + sizeL ast) (r1.withVm s') := by
  refine hl.next h hsz hlen fun p hp hg hpl hsub => ?_
  obtain ⟨γ, ho⟩ := hl.outcome hb h hw hp hg hpl
  replace ho := ho k
  rw [he] at ho
  obtain ⟨s1, sp1, s2, h1, h2, _, h3⟩ := ho
  obtain ⟨k1, _, h1⟩ := Reach.host (H := r1.vm.host.withLimits none none) hsub h1
  obtain ⟨e2, h4, _⟩ := err_host (H := r1.vm.host.withLimits none none) hsub h2 hnb
  have hno : e2 ≠ .overflow .stackOverflow := by
    intro hx
    have := VM.step_host (H := r1.vm.host.withLimits none none) (p := p) (s := s1) hsub
    rw [h2, h4] at this
    cases this with
    | same => exact hne hx
    | undef => cases hx
    | builtin => exact hnb _ rfl
  have hsp : r1.vm.vm.sp ≤ a := by rw [hl.rest.2]; omega
  have hfin : (.err e2 sp1 s2 : StepR D) = .err e' sp' s' := by
    rcases VM.run_unlim hsp hr with ⟨_, _, h5⟩ | ⟨_, _, h5⟩ | ⟨k2, s3, h5, h6, h7⟩ | ⟨k2, s3, h5, h6⟩
    · cases h5; exact absurd rfl hnl
    · cases h5; exact absurd rfl hne'
    · exact VM.steps_det h1 h4 (by simp) h5 h6 h7
    · obtain ⟨sp, x, h7⟩ := h6
      have := VM.steps_det h1 h4 (by simp) h5 h7 (by simp)
      cases this
      exact absurd rfl hno
  cases hfin
  obtain ⟨γ', slots, stack, sp2, _, hok⟩ := h3
  replace hok : Ok r1.vm.host.cfg p.entries γ' slots σ' { s'.mem with stack := stack, sp := sp2 } := hok
  rw [hl.added.cfg.trans h.cfg] at hok
  exact ⟨γ', hok.reset hou⟩

end

end Quilt
