import Verif.Drawn
import Verif.Vm.Reported
import Verif.Props.Report
import Verif.Props.Facade
import Verif.Props.SyntaxErrors
import Verif.Props.Listing
import Verif.Check.Env
import Verif.Lib.IoRel

/-!
# C88: error reports point into the files that were read, and can be drawn
-/

namespace Quilt.Props

open _root_.Quilt.VM Peg _root_.Quilt.Machine

variable {D : Type}

/-! ## Reports of runs -/

/-- The program was read from texts that are among the sources, under their numbers. -/
def ReadInto (ss : Sources) (ast : List Node) : Prop :=
  ∃ W k name T c c', parseWithIncludes W k name T c = (.ok ast, c') ∧ c'.sources <+: ss

theorem inSources_default {ss : Sources} (h : ss ≠ []) : InSources ss Span.default := by
  cases ss with
  | nil => exact absurd rfl h
  | cons p ss => exact ⟨p.1, p.2, rfl, rfl, [], [], p.2, rfl, rfl, rfl⟩

theorem ReadInto.ne {ss : Sources} {ast : List Node} (h : ReadInto ss ast) : ss ≠ [] := by
  obtain ⟨W, k, name, T, c, c', hp, ⟨r, rfl⟩⟩ := h
  simp [main_source hp]

/-- All positions in the code. -/
theorem ReadInto.code {ss : Sources} {ast : List Node} (h : ReadInto ss ast) {cfg : Cfg} {script : Script} (hc : compile cfg ast = .ok script) (hsz : sizeL ast ≤ 65535) {g : Func}
    (hw : Within script.fn g) : (∀ j, InSources ss (g.getSpan j)) ∧ InSources ss g.nameSpan := by
  have h0 := inSources_default h.ne
  obtain ⟨W, k, name, T, c, c', hp, hpre⟩ := h
  obtain ⟨h1, h2⟩ := C60_in_text hp hc hsz hw
  have of : ∀ {sp}, InSources c'.sources sp ∨ sp = Span.default → InSources ss sp := by
    rintro sp (h | rfl)
    · exact h.mono hpre
    · exact h0
  refine ⟨fun j => ?_, of h2⟩
  by_cases hj : j < g.ops.length
  · exact of (h1 j hj)
  · obtain ⟨cd, h1, _, _, _, h5, _⟩ := (compile_fnAt hc hsz).within hw
    have : g.getSpan j = Span.default := by
      rw [Func.getSpan, h5, List.getElem?_eq_none (by rw [Code.spans_length, ← h1]; omega)]; rfl
    rw [this]
    exact h0

/-- However a run ends with an error - on a machine that has run other programs before, or on a new one -, the error is reported at a place in one of the files
that were read, and so is every frame of the traceback. (`InSources`: the place begins and ends at a character of the file, and does not end before
it begins.) -/
theorem C88_run {M : Machine.Setup D} {asts : List (List Node)} {m : Machine D} (h : History M asts m) {ss : Sources} (hs : ∀ ast ∈ asts, ReadInto ss ast)
    {clock : Nat → Bool} {fuel : Nat} {e : Err} {sp : Span} {s : VM D} (hr : m.run clock fuel = some (.err e sp s)) :
    InSources ss sp ∧ ∀ x q, TraceEntry.frame x q ∈ traceBack s → InSources ss q := by
  obtain ⟨h1, _, h2, h3⟩ := h.cfi
  have h4 : Cfi (Loaded M.cfg asts) s := run_cfi (loaded_compiled h1) h2 clock fuel 0 0 _ h3 hr
  have ok : ∀ g, Loaded M.cfg asts g → (∀ j, InSources ss (g.getSpan j)) ∧ InSources ss g.nameSpan := by
    rintro g ⟨ast, ha, script, hc, hw⟩
    exact (hs ast ha).code hc (h1 ast ha) hw
  have hcur := ok _ h4.cur.1
  have hfr : ∀ f ∈ s.frames, ∀ j, InSources ss (f.fn.getSpan j) := fun f hf => (ok _ (h4.susp f hf).1).1
  constructor
  · rcases run_reported clock fuel 0 0 hr with ⟨j, rfl⟩ | rfl
    · exact hcur.1 j
    · exact hcur.2
  · intro x q hq
    simp only [traceBack, List.mem_append, List.mem_singleton, List.mem_map, traceFrame] at hq
    rcases hq with ((hq | ⟨f, hf, hq⟩) | hq) | hq
    · cases hq; exact hcur.1 _
    · cases hq; exact hfr f (List.dropLast_subset _ (List.mem_of_mem_take hf)) _
    · split at hq <;> simp at hq
    · split at hq
      · rename_i f hf
        simp only [List.mem_singleton, TraceEntry.frame.injEq] at hq
        rw [hq.2]
        exact hfr f (List.mem_of_getLast? hf) _
      · simp at hq

/-! ## Reports of the command line program -/

theorem history_lib {M : Machine.Setup D} {asts : List (List Node)} : ∀ {l : List (String × BFn D SClos)} {l' : List (String × BFn D VClos)},
    Lib.LibRelG SClos.name Lib.vname M.opts.lim l l' → ∀ {m : Machine D}, History M asts m → History M asts (m.addBuiltins (l'.map fun p => (p.1, .fn p.2)))
  | _, _, .nil, _, h => h
  | _, _, .cons (x := x) (f' := f') hb hl, m, h => by
    have h1 : History M asts (m.addBuiltins [(x, .fn f')]) := .builtin x h (by
      rintro f (h | ⟨e, h⟩)
      · cases h; exact BRel.fromArgs hb
      · cases h)
    exact history_lib hl h1

theorem history_cli {E : Cli.Env} {a : Cli.Args} {ast : List Node} {script : Script} (hc : compile E.cfg ast = .ok script) (hsz : sizeL ast ≤ 65535) :
    History (Cli.setup E a) [ast] (Cli.machine E a script) :=
  history_lib (Lib.stdio_rel _ _ _ E.cfg.chk) (.new _ hc hsz)

/-- The report begins at its label, and that marks a part of the text of one of the sources. -/
def Placed (ss : Sources) (r : Report) : Prop :=
  ∃ file text pre mid post, ss[r.label.src]? = some (file, text) ∧ text = pre ++ mid ++ post ∧ r.label.start = utf8Len pre ∧ r.label.stop = utf8Len (pre ++ mid) ∧
    r.source = r.label.src ∧ r.offset = r.label.start

theorem placed_err {ss : Sources} {e : Err} {sp : Span} {plain : Char → Bool} {limit : List Char} (h : InSources ss sp) : Placed ss (e.report plain limit sp) := by
  obtain ⟨file, T, h1, _, pre, mid, post, h2, h3, h4⟩ := h
  exact ⟨file, T, pre, mid, post, h1, h2, h3, h4, rfl, rfl⟩

/-- Whatever error the command line program reports - on reading, compiling or running -, the report is about a part of one of the files that were read. (`ss` are the
sources that it is printed with.) -/
theorem C88_command {E : Cli.Env} {a : Cli.Args} {k fuel : Nat} {name : String} {src : List Char} {status : Nat} {out : List Char} {sh : Cli.Shown} {ss : Sources}
    (hss : ss = (parseWithIncludes E.W k name src ⟨[], []⟩).2.sources) (hsz : ∀ ast, (parseWithIncludes E.W k name src ⟨[], []⟩).1 = .ok ast → sizeL ast ≤ 65535)
    (hm : Cli.main E a k fuel name (.ok src) = some (.exit ⟨status, out, some sh⟩)) (plain : Char → Bool) (limit : List Char) :
    ∃ r, sh.report plain limit E.W.float ss = some r ∧ Placed ss r := by
  have hd := C84_default E.cfg E.W k name src
  simp only [Cli.main] at hm
  rcases hp : parseWithIncludes E.W k name src ⟨[], []⟩ with ⟨r, c⟩
  rw [hp] at hm hss hsz hd
  simp only at hss hm hd hsz
  subst hss
  cases r with
  | oof => cases hm
  | err e =>
    simp only [Option.some.injEq, Cli.Outcome.exit.injEq, Cli.End.mk.injEq] at hm
    obtain ⟨-, -, rfl⟩ := hm
    cases e with
    | incl e sp => exact ⟨_, rfl, placed_err (C84_sources (honest_default E.W) hd).2⟩
    | parse i =>
      obtain ⟨file, text, l, u, h1, rfl, h3, a, b, h4, h5, -⟩ := C82_include hp
      have h6 : c.sources[l.length]? = some (file, text) := by rw [h1]; simp
      refine ⟨u.report l.length, ?_, file, text, a, [], b, h6, by simp [h4], h5, ?_, rfl, rfl⟩
      · simp only [Cli.Shown.report, IErr.report, h6, h3]
      · simp only [Unexpected.report, List.append_nil]; exact h5
  | ok ast =>
    dsimp only at hm hd
    cases hc : compile E.cfg ast with
    | panic => rw [hc] at hm; cases hm
    | err e sp =>
      rw [hc] at hm hd
      simp only [Option.some.injEq, Cli.Outcome.exit.injEq, Cli.End.mk.injEq] at hm
      obtain ⟨-, -, rfl⟩ := hm
      exact ⟨_, rfl, placed_err (C84_sources (honest_default E.W) hd).2⟩
    | ok script =>
      rw [hc] at hm
      dsimp only at hm
      obtain ⟨res, hr, hf⟩ := Option.bind_eq_some_iff.1 hm
      cases res with
      | next s => cases hf
      | panic => cases hf
      | done v s => simp [Cli.finish] at hf
      | err e sp s =>
        have h1 := (C88_run (ss := c.sources) (history_cli hc (hsz _ rfl)) (by
          intro ast' ha
          rw [List.mem_singleton] at ha
          subst ha
          exact ⟨_, _, _, _, _, _, hp, List.prefix_refl _⟩) hr).1
        simp only [Cli.finish] at hf
        split at hf
        · simp only [Option.some.injEq, Cli.Outcome.exit.injEq, Cli.End.mk.injEq] at hf
          obtain ⟨-, -, rfl⟩ := hf
          exact ⟨_, rfl, placed_err h1⟩
        · cases hf

/-! ## Drawing -/

theorem place_total {t : List Char} (h : t ≠ []) (o : Nat) : ∃ p, (Source.ofText t).place o = .ok p ∧ (o ≤ t.length → p ≠ none) := by
  have h1 := offsetLine_total h o
  have h2 : (Source.ofText t).len = t.length := rfl
  unfold Source.place
  unfold Source.offsetLine at h1 ⊢
  rw [h2] at h1 ⊢
  by_cases ho : o ≤ t.length
  · rw [if_pos ho] at h1 ⊢
    dsimp only at h1 ⊢
    split at h1
    · next hlt =>
      rw [if_pos hlt]
      simp only [Res.bind, List.getElem?_eq_getElem hlt]
      have hle : ((Source.ofText t).lines[((Source.ofText t).lines.takeWhile fun l => decide (l.offset ≤ o)).length - 1]).offset ≤ o := by
        generalize hls : (Source.ofText t).lines = ls at hlt
        have hpos : 0 < (ls.takeWhile fun l => decide (l.offset ≤ o)).length := by
          cases ls with
          | nil => simp at hlt
          | cons l ls =>
            have : l.offset = 0 := by
              simp only [Source.ofText] at hls
              cases hp : pieces t with
              | nil => rw [hp] at hls; cases hls
              | cons p ps => rw [hp, Source.mkLines] at hls; cases hls; rfl
            simp [this]
        have hpre := List.takeWhile_prefix (fun l : SrcLine => decide (l.offset ≤ o)) (l := ls)
        have hlt' : (ls.takeWhile fun l => decide (l.offset ≤ o)).length - 1 < (ls.takeWhile fun l => decide (l.offset ≤ o)).length := by omega
        have := hpre.getElem hlt'
        rw [← this]
        have hm := List.getElem_mem hlt'
        simpa using List.all_eq_true.1 List.all_takeWhile _ hm
      rw [if_pos hle]
      exact ⟨_, rfl, fun _ h => by cases h⟩
    · exact absurd rfl h1
  · rw [if_neg ho]
    exact ⟨none, rfl, fun h => absurd h ho⟩

theorem utf8Len_append (a b : List Char) : utf8Len (a ++ b) = utf8Len a + utf8Len b := by simp [utf8Len]

/-- Such a report is drawn, and names the file, if the file is not empty. Missing: empty files (`C88_violated_empty`). -/
theorem C88_drawn_partial {ss : Sources} {r : Report} (h : Placed ss r) (hne : ∀ f t, ss[r.label.src]? = some (f, t) → t ≠ []) :
    ∃ file text place, ss[r.source]? = some (file, text) ∧ r.head ss = .ok (.at file place) := by
  obtain ⟨file, text, pre, mid, post, h1, h2, h3, h4, h5, h6⟩ := h
  have ht := hne _ _ h1
  have hle : r.label.start ≤ r.label.stop := by rw [h3, h4, utf8Len_append]; omega
  obtain ⟨p1, hp1, -⟩ := place_total ht r.label.start
  obtain ⟨p2, hp2, -⟩ := place_total ht (max (r.label.stop - 1) r.label.start)
  refine ⟨file, text, p1.map fun p => (p.1 + 1, p.2 + 1), h5 ▸ h1, ?_⟩
  simp only [Report.head, Sources.display, Sources.fetch, h1, Option.map_some, if_pos hle, hp1, hp2, Res.bind, h5, if_pos, h6, Res.map]

theorem split_lines : ∀ pre : List Char, ∃ done l1, pre = done ++ l1 ∧ endsLine done ∧ (∀ c ∈ l1, isBreak c = false) ∧ done.countP isBreak = pre.countP isBreak ∧
    l1.length = (pre.reverse.takeWhile fun c => !isBreak c).length := by
  intro pre
  refine ⟨(pre.reverse.dropWhile fun c => !isBreak c).reverse, (pre.reverse.takeWhile fun c => !isBreak c).reverse, ?_, ?_, ?_, ?_, by simp⟩
  · rw [← List.reverse_append, List.takeWhile_append_dropWhile, List.reverse_reverse]
  · cases hd : pre.reverse.dropWhile fun c => !isBreak c with
    | nil => exact .inl rfl
    | cons b d =>
      refine .inr ⟨d.reverse, b, by simp, ?_⟩
      have := List.head_dropWhile_not (fun c => !isBreak c) (l := pre.reverse) (by rw [hd]; simp)
      simpa [hd] using this
  · intro c hc
    simpa using List.all_eq_true.1 List.all_takeWhile _ (List.mem_reverse.1 hc)
  · have h1 : (pre.reverse.takeWhile fun c => !isBreak c).countP isBreak = 0 := by
      rw [List.countP_eq_zero]
      intro c hc
      simpa using List.all_eq_true.1 List.all_takeWhile _ hc
    have h2 := congrArg (List.countP isBreak) (List.takeWhile_append_dropWhile (p := fun c => !isBreak c) (l := pre.reverse))
    rw [List.countP_append, h1, Nat.zero_add] at h2
    rw [List.countP_reverse, h2, List.countP_reverse]

/-- The place shown in the first line of the drawing is that of the first character marked: its line and its column, both counted from 1. Missing: files with characters that
are not ASCII (`C88_violated_characters`), and the end of a file behind its last line (`C88_violated_end`). -/
theorem C88_place_partial {ss : Sources} {r : Report} (h : Placed ss r) {file : String} {pre rest : List Char} (hs : ss[r.label.src]? = some (file, pre ++ rest))
    (ha : ∀ c ∈ pre ++ rest, c.toNat < 128) (hp : r.label.start = utf8Len pre) (he : rest = [] → ∃ p c, pre = p ++ [c] ∧ isBreak c = false) :
    r.head ss = .ok (.at file (some (pre.countP isBreak + 1, (pre.reverse.takeWhile fun c => !isBreak c).length + 1))) := by
  have hp' : r.label.start = pre.length := hp.trans (ascii_bytes fun c hc => ha c (by simp [hc]))
  obtain ⟨done, l1, h1, h2, h3, h4, h5⟩ := split_lines pre
  have hsp : ∃ l2 after, rest = l2 ++ after ∧ (∀ c ∈ l2, isBreak c = false) ∧ ∀ b t, after = b :: t → isBreak b = true := by
    refine ⟨rest.takeWhile fun c => !isBreak c, rest.dropWhile fun c => !isBreak c, List.takeWhile_append_dropWhile.symm, ?_, ?_⟩
    · intro c hc
      simpa using List.all_eq_true.1 List.all_takeWhile _ hc
    · intro b t hb
      have := List.head_dropWhile_not (fun c => !isBreak c) (l := rest) (by rw [hb]; simp)
      simpa [hb] using this
  obtain ⟨l2, after, h6, h7, h8⟩ := hsp
  have hne : l1 ++ l2 ++ after ≠ [] := by
    intro hnil
    simp only [List.append_eq_nil_iff] at hnil
    obtain ⟨⟨rfl, rfl⟩, rfl⟩ := hnil
    obtain ⟨p, c, hpc, hc⟩ := he (by simp [h6])
    have : (pre.reverse.takeWhile fun c => !isBreak c).length = 0 := by rw [← h5]; rfl
    rw [hpc] at this
    simp [hc] at this
  have htext : pre ++ rest = done ++ (l1 ++ l2) ++ after := by rw [h1, h6]; simp
  obtain ⟨k1, o, n, k2, rfl⟩ := offsetLine_at (l1 := l1) (l2 := l2) h2 (by
    intro c hc
    rcases List.mem_append.1 hc with hc | hc
    · exact h3 c hc
    · exact h7 c hc) h8 hne
  rw [← htext, ← h1, ← hp'] at k1
  rw [← htext] at k2
  have hpl : (Source.ofText (pre ++ rest)).place r.label.start = .ok (some (done.countP isBreak, l1.length)) := by
    have hlen : r.label.start = done.length + l1.length := by rw [hp', h1]; simp
    simp only [Source.place, k1, Res.bind, k2]
    rw [if_pos (by omega), hlen]
    simp
  obtain ⟨file', text, place, g1, g2⟩ := C88_drawn_partial h (by
    intro f t ht
    rw [hs] at ht
    cases ht
    intro hnil
    rw [htext] at hnil
    simp only [List.append_eq_nil_iff] at hnil
    exact hne (by simp [hnil]))
  obtain ⟨_, _, _, _, _, _, _, _, _, h9, h10⟩ := h
  simp only [Report.head, Sources.display, Sources.fetch, hs, Option.map_some, hpl, h9, h10, if_pos] at g2 ⊢
  split at g2
  · rename_i hle
    rw [if_pos hle]
    cases hx : (Source.ofText (pre ++ rest)).place (max (r.label.stop - 1) r.label.start) with
    | ok x => simp only [Res.bind, Res.map, Option.map_some, h4, h5]
    | err x => rw [hx] at g2; cases g2
    | panic => rw [hx] at g2; cases g2
  · cases g2

/-- In the traceback of a run no frame is passed over: each is shown with its file and a line. Missing: empty files and files with characters that are not ASCII. -/
theorem C88_trace_partial {M : Machine.Setup D} {asts : List (List Node)} {m : Machine D} (h : History M asts m) {ss : Sources} (hs : ∀ ast ∈ asts, ReadInto ss ast)
    (ha : ∀ p ∈ ss, p.2 ≠ [] ∧ ∀ c ∈ p.2, c.toNat < 128) {clock : Nat → Bool} {fuel : Nat} {e : Err} {sp : Span} {s : VM D} (hr : m.run clock fuel = some (.err e sp s))
    {x : String} {q : Span} (hq : TraceEntry.frame x q ∈ traceBack s) (hx : "...".toList.isPrefixOf x.toList = false) :
    ∃ file text n line, ss[q.src]? = some (file, text) ∧ entryText ss (.frame x q) = .ok ("   File \"".toList ++ file.toList ++ "\", line ".toList ++ showNat n ++ ", in ".toList ++
      x.toList ++ ['\n'] ++ "      ".toList ++ line ++ ['\n']) := by
  obtain ⟨file, text, h1, _, pre, mid, post, h2, h3, _⟩ := (C88_run h hs hr).2 x q hq
  obtain ⟨h4, h5⟩ := ha _ (List.mem_of_getElem? h1)
  have hle : q.start ≤ text.length := by
    rw [h3, ascii_bytes fun c hc => h5 c (by simp [h2, hc]), h2]; simp
  have h0 : (Source.ofText text).len ≠ 0 := by simpa [Source.ofText] using h4
  obtain ⟨p, hp, hp'⟩ := place_total h4 q.start
  obtain ⟨⟨l, col⟩, rfl⟩ := Option.ne_none_iff_exists'.1 (hp' hle)
  simp only [Source.place] at hp
  cases hl : (Source.ofText text).offsetLine q.start with
  | panic => rw [hl] at hp; cases hp
  | err y => rw [hl] at hp; cases hp
  | ok o =>
    rw [hl] at hp
    cases o with
    | none => cases hp
    | some l' =>
      simp only [Res.bind] at hp
      cases hline : (Source.ofText text).lines[l']? with
      | none => rw [hline] at hp; cases hp
      | some line =>
        refine ⟨file, text, l', Lib.trimStartText line.chars, h1, ?_⟩
        simp only [entryText, hx, Bool.false_eq_true, if_false, h1, if_neg h0, hl, Res.bind, hline]

/-! ## Concrete programs -/

/-- What the command line program draws first, for a main file without includes. -/
def headOf (a : Cli.Args) (src : String) : Option (Res Headline) :=
  match Cli.main Check.env a 1 200 "main" (.ok src.toList) with
  | some (.exit ⟨_, _, some sh⟩) => (sh.report (fun _ => true) [] Check.env.W.float [("main", src.toList)]).map (Report.head [("main", src.toList)])
  | _ => none

def headIs (a : Cli.Args) (src : String) (h : Headline) : Bool := match headOf a src with
  | some (.ok h') => decide (h' = h)
  | _ => false

/-- A syntax error, an error of the compiler, errors of a run: the places are right. -/
example : headIs {} "let x = 1\nlet = 2" (.at "main" (some (2, 5))) = true ∧ headIs {} "let x = 1\nreturn x" (.at "main" (some (2, 1))) = true ∧
    headIs {} "let x = 0\nlet y =\n  1 / x" (.at "main" (some (3, 3))) = true ∧
    headIs { callStackSize := some 3 } "fn f(n) {\n  1 + f(n)\n}\nf(0)" (.at "main" (some (2, 3))) = true := by decide +kernel

/-- A run that fails in a function, as `C88_run` and `C88_trace_partial` have it: two frames are listed. -/
example : ∃ ast m e sp s x q, History demoSetup [ast] m ∧ ReadInto [("main", "fn f(a) {\n  1 / a\n}\n2 + f(0)".toList)] ast ∧
    m.run (fun _ => false) 100 = some (.err e sp s) ∧ sp = ⟨12, 17, 0⟩ ∧ .frame x q ∈ traceBack s ∧ x = "f" ∧ (traceBack s).length = 2 := by
  have h : (match parseWithIncludes ⟨fun _ => none, fun _ => 0⟩ 1 "main" "fn f(a) {\n  1 / a\n}\n2 + f(0)".toList ⟨[], []⟩ with
    | (.ok ast, c) => decide (c.sources = [("main", "fn f(a) {\n  1 / a\n}\n2 + f(0)".toList)]) && decide (sizeL ast ≤ 65535) && match compile demoSetup.cfg ast with
      | .ok script => match (Machine.new demoSetup 7 script).run (fun _ => false) 100 with
        | some (.err _ sp s) => decide (sp = ⟨12, 17, 0⟩) && decide ((traceBack s).map (fun | .frame x _ => x | .more _ => "") = ["f", "@__main__"])
        | _ => false
      | _ => false
    | _ => false) = true := by decide +kernel
  split at h
  · rename_i ast c hp
    simp only [Bool.and_eq_true, decide_eq_true_eq] at h
    obtain ⟨⟨h1, h2⟩, h3⟩ := h
    split at h3
    · rename_i script hc
      split at h3
      · rename_i e sp s hr
        simp only [Bool.and_eq_true, decide_eq_true_eq] at h3
        obtain ⟨h4, h5⟩ := h3
        cases ht : traceBack s with
        | nil => rw [ht] at h5; cases h5
        | cons a l =>
          rw [ht] at h5
          cases a with
          | more n => simp at h5
          | frame x q =>
            simp only [List.map_cons, List.cons.injEq] at h5
            refine ⟨ast, _, e, sp, s, x, q, .new 7 hc h2, ⟨_, _, _, _, _, _, hp, h1 ▸ List.prefix_refl _⟩, hr, h4, by rw [ht]; simp, h5.1, ?_⟩
            rw [ht]
            have := congrArg List.length h5.2
            simp at this
            simp [this]
      · cases h3
    · cases h3
  · cases h

/-- Violated for an empty main file: with a stack without room the error is reported in the empty file, and drawing the report panics. -/
theorem C88_violated_empty : (match headOf { stackSize := some 0 } "" with | some .panic => true | _ => false) = true := by decide +kernel

/-- Violated for other characters: the division is in line 2; after more of them there is no place at all. -/
theorem C88_violated_characters : headIs {} "let a = \"éééééééé\"\n1 / 0\n2\n3" (.at "main" (some (4, 1))) = true ∧
    headIs {} "let a = \"éééééééééééééééé\"\n1 / 0" (.at "main" none) = true := by decide +kernel

/-- Violated at the end of a file that ends with a line break: the message says line 2, column 1, the drawing line 1, column 4. -/
theorem C88_violated_end : headIs {} "f(\n" (.at "main" (some (1, 4))) = true ∧
    (report "f(\n").map (fun e => (e.line, e.column)) = some (2, 1) := by decide +kernel

end Quilt.Props
