import Verif.Vm.Flow
import Verif.Vm.Place
import Verif.Parser.Sources
import Verif.Sem.Ready
import Verif.Sem.Reuse
import Verif.Props.Text

/-!
# Control flow and positions: C60, C61
-/

namespace Quilt.Props

open VM Peg

variable {D : Type}

/-- `f` is one of the functions of the programs `asts`: the main function or a function among the constants of such a one. -/
def Loaded (cfg : Cfg) (asts : List (List Node)) (f : Func) : Prop :=
  ∃ ast ∈ asts, ∃ script, compile cfg ast = .ok script ∧ Within script.fn f

/-- Everything a host may do with a VM, in any order: create it, add builtins that make no functions of their own, set
globals and externals to plain values or to functions it got from there, run it for a number of steps or to
any kind of end - a value, an error, a limit -, reset it, give it another script. `asts` are the programs so far. -/
inductive History (M : Machine.Setup D) : List (List Node) → Machine D → Prop
  | new (data : D) {ast : List Node} {script : Script} : compile M.cfg ast = .ok script → sizeL ast ≤ 65535 → History M [ast] (Machine.new M data script)
  | builtin {asts : List (List Node)} {m : Machine D} (x : String) {b : Builtin D VClos} : History M asts m →
      (∀ f, (b = .fn f ∨ ∃ e, b = .ctx f e) → FromArgs M.opts.lim f) → History M asts (m.addBuiltins [(x, b)])
  | global {asts : List (List Node)} {m : Machine D} (x : String) {w : VVal} : History M asts m → w.AllC (fun c => Loaded M.cfg asts c.fn) →
      History M asts (m.insertGlobal x w)
  | external {asts : List (List Node)} {m m' : Machine D} (x : String) {w : VVal} : History M asts m → w.AllC (fun c => Loaded M.cfg asts c.fn) →
      m.setExternal x w = (.ok (), m') → History M asts m'
  | steps {asts : List (List Node)} {m : Machine D} {k : Nat} {s : VM D} : History M asts m → m.vm.steps m.host k = some s → History M asts (m.withVm s)
  | run {asts : List (List Node)} {m : Machine D} {clock : Nat → Bool} {fuel : Nat} {r : StepR D} {s : VM D} : History M asts m → m.run clock fuel = some r →
      ((∃ v, r = .done v s) ∨ ∃ e sp, r = .err e sp s) → History M asts (m.withVm s)
  | reset {asts : List (List Node)} {m : Machine D} : History M asts m → History M asts m.reset
  | update {asts : List (List Node)} {m : Machine D} {ast : List Node} {script : Script} : History M asts m → compile M.cfg ast = .ok script →
      sizeL ast ≤ 65535 → History M (ast :: asts) (m.updateScript script)

theorem Loaded.cons {cfg : Cfg} {ast : List Node} {asts : List (List Node)} {f : Func} (h : Loaded cfg asts f) : Loaded cfg (ast :: asts) f := by
  obtain ⟨a, h1, h2⟩ := h
  exact ⟨a, List.mem_cons_of_mem _ h1, h2⟩

theorem loaded_compiled {cfg : Cfg} {asts : List (List Node)} (h : ∀ ast ∈ asts, sizeL ast ≤ 65535) : Compiled (Loaded cfg asts) := by
  constructor
  · rintro f ⟨ast, ha, script, hc, hw⟩
    exact ((compile_fnOk hc (h ast ha)).within hw).code
  · rintro f g ⟨ast, ha, script, hc, hw⟩ hg
    exact ⟨ast, ha, script, hc, .const hw hg⟩

theorem allC_mono {P Q : VClos → Prop} (h : ∀ c, P c → Q c) {v : VVal} (hv : v.AllC P) : v.AllC Q := by
  rw [Val.allC_rel] at hv ⊢
  exact Val.Rel.mono (fun a b hab => ⟨hab.1, h a hab.2⟩) hv

theorem Cfi.mono {W W' : Func → Prop} (h : ∀ f, W f → W' f) {s : VM D} (hs : Cfi W s) : Cfi W' s :=
  ⟨⟨fun i => allC_mono (fun c => h c.fn) (hs.vals.stack i), fun c v hv => allC_mono (fun c => h c.fn) (hs.vals.heap c v hv),
    fun i v hv => allC_mono (fun c => h c.fn) (hs.vals.globals i v hv), fun v hv => allC_mono (fun c => h c.fn) (hs.vals.blocks v hv)⟩,
   ⟨h _ hs.cur.1, hs.cur.2⟩, fun f hf => ⟨h _ (hs.susp f hf).1, (hs.susp f hf).2⟩⟩

theorem History.cfi {M : Machine.Setup D} {asts : List (List Node)} {m : Machine D} (h : History M asts m) :
    (∀ ast ∈ asts, sizeL ast ≤ 65535) ∧ m.host.opts = M.opts ∧ Honest m.host ∧ Cfi (Loaded M.cfg asts) m.vm := by
  induction h with
  | @new data ast script hc hsz =>
    refine ⟨by simpa using hsz, rfl, fun i f h => by simp [Machine.new] at h, ⟨fun _ => trivial, fun c v h => ?_, fun i v h => by simp [Machine.new] at h, fun v h => by simp [Machine.new] at h⟩,
      ⟨⟨ast, by simp, script, hc, .self⟩, .zero⟩, fun f h => by simp [Machine.new] at h⟩
    cases h; trivial
  | @builtin asts m x b _ hb ih =>
    obtain ⟨h0, h1, h2, h3⟩ := ih
    refine ⟨h0, h1, fun i f hf => ?_, h3⟩
    simp only [Machine.addBuiltins] at hf ⊢
    by_cases hi : i = (m.host.syms.add x).1
    · rw [hi, upd_same] at hf
      rw [h1]
      exact hb f (by simpa using hf)
    · rw [upd_other _ _ hi] at hf
      exact h2 i f hf
  | @global asts m x w _ hv ih => exact ⟨ih.1, ih.2.1, ih.2.2.1, ih.2.2.2.setGlobal hv⟩
  | @external asts m m' x w _ hv hm ih =>
    unfold Machine.setExternal at hm
    split at hm
    · simp at hm
    · split at hm
      · simp only [Prod.mk.injEq, true_and] at hm
        subst hm
        exact ⟨ih.1, ih.2.1, ih.2.2.1, ih.2.2.2.setGlobal hv⟩
      · simp at hm
  | @steps asts m k s _ hs ih => exact ⟨ih.1, ih.2.1, ih.2.2.1, steps_cfi (loaded_compiled ih.1) ih.2.2.1 ih.2.2.2 hs⟩
  | @run asts m clock fuel r s _ hr hk ih =>
    have := run_cfi (loaded_compiled ih.1) ih.2.2.1 clock fuel 0 0 _ ih.2.2.2 hr
    refine ⟨ih.1, ih.2.1, ih.2.2.1, ?_⟩
    rcases hk with ⟨v, rfl⟩ | ⟨e, sp, rfl⟩
    · exact this.1
    · exact this
  | @reset asts m _ ih =>
    obtain ⟨h0, h1, h2, h3⟩ := ih
    exact ⟨h0, h1, h2, ⟨h3.vals.stack, h3.vals.heap, h3.vals.globals, fun v h => by simp [Machine.reset, Machine.resetVm] at h⟩, ⟨h3.cur.1, .zero⟩,
      fun f h => by simp [Machine.reset, Machine.resetVm] at h⟩
  | @update asts m ast script _ hc hsz ih =>
    obtain ⟨h0, h1, h2, h3⟩ := ih
    have h4 := Cfi.mono (W' := Loaded M.cfg (ast :: asts)) (fun f hf => hf.cons) h3
    exact ⟨by simpa using ⟨hsz, h0⟩, h1, h2, ⟨h4.vals.stack, h4.vals.heap, h4.vals.globals, fun v h => by simp [Machine.updateScript, Machine.resetVm] at h⟩,
      ⟨⟨ast, by simp, script, hc, .self⟩, .zero⟩, fun f h => by simp [Machine.updateScript, Machine.resetVm] at h⟩

/-! ## Concrete machines for the examples -/

/-- The machine after `k` steps with the program `T`. -/
def stepped (T : String) (k : Nat) : Option (List Node × Machine Int) :=
  match parseWithIncludes ⟨fun _ => none, fun _ => 0⟩ 1 "main" T.toList ⟨[], []⟩ with
  | (.ok ast, _) => match compile demoSetup.cfg ast with
    | .ok script => match (Machine.new demoSetup 7 script).vm.steps (Machine.new demoSetup 7 script).host k with
      | some s => if sizeL ast ≤ 65535 then some (ast, (Machine.new demoSetup 7 script).withVm s) else none
      | none => none
    | _ => none
  | _ => none

theorem stepped_history {T : String} {k : Nat} {ast : List Node} {m : Machine Int} (h : stepped T k = some (ast, m)) :
    (∃ c', parseWithIncludes ⟨fun _ => none, fun _ => 0⟩ 1 "main" T.toList ⟨[], []⟩ = (.ok ast, c')) ∧ History demoSetup [ast] m := by
  unfold stepped at h
  split at h
  · rename_i a c' hp
    split at h
    · rename_i script hc
      split at h
      · rename_i s hs
        split at h
        · cases h
          exact ⟨⟨_, hp⟩, .steps (.new 7 hc (by assumption)) hs⟩
        · cases h
      · cases h
    · cases h
  · cases h

/-- The error and the traceback of a run of the text. -/
def errOf (T : String) : Option (Err × Span × List Machine.TraceEntry) :=
  match parseCode ⟨0, fun _ => 0⟩ T.toList with
  | .ok ast _ => match compile demoSetup.cfg ast with
    | .ok script => match (Machine.new demoSetup 7 script).run (fun _ => false) 100 with
      | some (.err e sp s) => some (e, sp, Machine.traceBack s)
      | _ => none
    | _ => none
  | _ => none

/-! ## C61: control flow -/

/-- Whatever a host does with a VM: at every moment the current frame executes a function of one of the programs, at the
beginning of an instruction or at the end of the code, and the frames below wait behind call instructions of
functions of the programs. -/
theorem C61_frames {M : Machine.Setup D} {asts : List (List Node)} {m : Machine D} (h : History M asts m) :
    (Loaded M.cfg asts m.vm.frame.fn ∧ Boundary m.vm.frame.fn m.vm.frame.ip) ∧
    ∀ f ∈ m.vm.frames, Loaded M.cfg asts f.fn ∧
      ∃ p n, Boundary f.fn p ∧ decode f.fn.consts (f.fn.ops.drop p) = some (.callFunction n, 2) ∧ f.ip = p + 2 :=
  ⟨h.cfi.2.2.2.cur, h.cfi.2.2.2.susp⟩

/-- Every function value the program can reach - on the stack, in a captured variable, in a global, also inside arrays
and pairs - is one of the functions of the programs; code that was not compiled from them does not appear. -/
theorem C61_values {M : Machine.Setup D} {asts : List (List Node)} {m : Machine D} (h : History M asts m) :
    (∀ i, (m.vm.stack i).AllC fun c => Loaded M.cfg asts c.fn) ∧ (∀ c v, m.vm.heap c = .closed v → v.AllC fun c => Loaded M.cfg asts c.fn) ∧
    ∀ i v, m.vm.globals i = some v → v.AllC fun c => Loaded M.cfg asts c.fn :=
  ⟨h.cfi.2.2.2.vals.stack, h.cfi.2.2.2.vals.heap, h.cfi.2.2.2.vals.globals⟩

/-- So the VM never reads operands as instructions or bytes that are none: unless it is at the end of the code, there is
an instruction at the instruction pointer. -/
theorem C61_decodes {M : Machine.Setup D} {asts : List (List Node)} {m : Machine D} (h : History M asts m) (hl : m.vm.frame.ip < m.vm.frame.fn.ops.length) :
    ∃ i n, decode m.vm.frame.fn.consts (m.vm.frame.fn.ops.drop m.vm.frame.ip) = some (i, n) := by
  obtain ⟨h1, _, _, h2⟩ := h.cfi
  obtain ⟨c, hc⟩ := (loaded_compiled h1).code _ h2.cur.1
  obtain ⟨a, b, hab, hp⟩ := (hc.boundary _).1 h2.cur.2
  cases b with
  | nil =>
    rw [hc.length, hab, ← hp] at hl
    simp at hl
  | cons q b => rw [← hp]; exact ⟨q.i, _, hc.dec a q b hab⟩

/-- A machine in the middle of a run: a function that came from `g` is being executed, and a closure is in a global. -/
example : ∃ ast m, History demoSetup [ast] m ∧ m.vm.frames.length = 1 ∧ m.vm.frame.ip < m.vm.frame.fn.ops.length ∧ m.vm.frame.fn.name = "h" ∧
    ∃ i c, m.vm.globals i = some (.clos c) := by
  have h : (match stepped "fn g(a) {\n  fn h(b) {\n    a + b\n  }\n  h\n}\nlet k = g(1)\nk(2)" 14 with
    | some (_, m) => m.vm.frames.length == 1 && decide (m.vm.frame.ip < m.vm.frame.fn.ops.length) && m.vm.frame.fn.name == "h" &&
        (match m.vm.globals 0 with | some (.clos _) => true | _ => false)
    | none => false) = true := by decide +kernel
  split at h
  · rename_i ast m hs
    simp only [Bool.and_eq_true, beq_iff_eq, decide_eq_true_eq] at h
    refine ⟨ast, m, (stepped_history hs).2, h.1.1.1, h.1.1.2, h.1.2, 0, ?_⟩
    have h1 := h.2
    split at h1
    · exact ⟨_, by assumption⟩
    · cases h1
  · cases h

/-! ## C60: positions -/

/-- The spans of an instruction: every byte but the last has the span `sp`, the last one `last`; both come from the node
the instruction was made for (`Origin`). -/
theorem C60_origin {cfg : Cfg} {ast : List Node} {script : Script} (hc : compile cfg ast = .ok script) (hsz : sizeL ast ≤ 65535) {g : Func} (hw : Within script.fn g)
    {p n : Nat} {i : Instr} (hp : Boundary g p) (hd : decode g.consts (g.ops.drop p) = some (i, n)) :
    0 < n ∧ ∃ sp last, Origin (subsL ast) i sp last ∧ (∀ k, k + 1 < n → g.getSpan (p + k) = sp) ∧ g.getSpan (p + n - 1) = last := by
  obtain ⟨h1, sp, last, h2, _, _, h3, h4⟩ := ((compile_fnAt hc hsz).within hw).spot hp hd
  exact ⟨h1, sp, last, h2, h3, h4⟩

/-- Every position in the code of a program read from a text, and that of every function's name, lies in the text it was
read from: in the main source or in the one of an included file; or it is the default position. -/
theorem C60_in_text {W : World} {k : Nat} {name : String} {T : List Char} {c c' : Cache} {ast : List Node} {cfg : Cfg} {script : Script}
    (hp : parseWithIncludes W k name T c = (.ok ast, c')) (hc : compile cfg ast = .ok script) (hsz : sizeL ast ≤ 65535) {g : Func} (hw : Within script.fn g) :
    (∀ i < g.ops.length, InSources c'.sources (g.getSpan i) ∨ g.getSpan i = Span.default) ∧ (InSources c'.sources g.nameSpan ∨ g.nameSpan = Span.default) := by
  obtain ⟨cd, h1, _, _, _, h5, h6, h7, _⟩ := (compile_fnAt hc hsz).within hw
  refine ⟨fun i hi => ?_, h7.imp_left (parsed_spans hp)⟩
  have hl : i < cd.spans.length := by rw [Code.spans_length, ← h1]; exact hi
  have : g.getSpan i = cd.spans[i] := by rw [Func.getSpan, h5, List.getElem?_eq_getElem hl]; rfl
  rw [this]
  exact (GS.spans_at h6 _ (List.getElem_mem hl)).imp_left (parsed_spans hp)

/-- An error that ends a run is reported at the program node whose instruction raised it: for operators, calls, indexing,
arrays, ranges, conditions and loops at the node, for builtins and contexts at their name. The exceptions are listed
at `Err.located`. -/
theorem C60_error_partial {M : Machine.Setup D} {asts : List (List Node)} {m : Machine D} (h : History M asts m) {clock : Nat → Bool} {fuel : Nat} {e : Err} {sp : Span} {s : VM D}
    (hr : m.run clock fuel = some (.err e sp s)) (he : e.located = true) :
    ∃ ast ∈ asts, ∃ k s0 i n sp0, m.vm.steps m.host k = some s0 ∧ decode s0.frame.fn.consts (s0.frame.fn.ops.drop s0.frame.ip) = some (i, n) ∧
      s0.step m.host = .err e sp s ∧ i.free = false ∧ Origin (subsL ast) i sp0 sp := by
  obtain ⟨h1, _, h2, h3⟩ := h.cfi
  obtain ⟨k, s0, hk, hs⟩ := run_err clock fuel 0 0 he hr
  have h4 := steps_cfi (loaded_compiled h1) h2 h3 hk
  obtain ⟨⟨ast, ha, script, hc, hw⟩, hb⟩ := h4.cur
  have hfn := (compile_fnAt hc (h1 ast ha)).within hw
  obtain ⟨cd, hcd⟩ := hfn.ok.code
  unfold step at hs
  split at hs
  · cases hs; simp [Err.located] at he
  · split at hs
    · rename_i i n hd
      obtain ⟨hn, sp0, last, ho, _, _, _, hlast⟩ := hfn.spot hb hd
      have hx := exec_located (H := m.host) (s := { s0 with frame := { s0.frame with ip := s0.frame.ip + n } }) i (by
        intro k l hi hk
        obtain ⟨a, b, hab, hp⟩ := (hcd.boundary _).1 hb
        cases b with
        | nil =>
          rw [← hp, hcd.ops, hab] at hd
          simp [Code.len, decode] at hd
        | cons q b =>
          rw [← hp, hcd.dec a q b hab] at hd
          simp only [Option.some.injEq, Prod.mk.injEq] at hd
          have ht := hcd.table q (by simp [hab])
          rw [hd.1] at ht
          rcases hi with rfl | ⟨us, rfl⟩
          · obtain ⟨f, hf, _⟩ := ht
            rw [hf] at hk; cases hk
          · obtain ⟨f, hf, _⟩ := ht
            rw [hf] at hk; cases hk)
      rw [hs] at hx
      obtain ⟨hx1, hx2, _⟩ := hx he
      have hlast : sp = last := by rw [hx2, ← hlast]
      refine ⟨ast, ha, k, s0, i, n, sp0, hk, hd, ?_, hx1, hlast ▸ ho⟩
      unfold step
      rw [if_neg (by assumption), hd]
      exact hs
    · cases hs

/-- The division in the second line is what failed, and that is where the error is reported. -/
example : (errOf "fn f(a) {\n  (1 + 2) / a\n}\nf(0)").map (fun r => (r.1, r.2.1)) = some (.zeroDivision, ⟨12, 23, 0⟩) ∧ Err.zeroDivision.located = true := by decide +kernel

/-- Not so for a call with the wrong number of arguments: the position reported is that of the next instruction, here the name
`x` (characters 18 to 19) and not the call (22 to 29). -/
theorem C60_violated_arity : (errOf "fn f(a) { a }\nlet x = f(1, 2)\nx").map (fun r => (r.1, r.2.1)) = some (.type (.mismatchedArity "f" 1 2), ⟨18, 19, 0⟩) ∧
    (String.ofList (("fn f(a) { a }\nlet x = f(1, 2)\nx".toList.drop 18).take 1) = "x") := by decide +kernel

end Quilt.Props
