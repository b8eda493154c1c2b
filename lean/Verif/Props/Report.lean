import Verif.ReportLemmas
import Verif.Props.Flow

/-!
# The text of tracebacks: C59
-/

namespace Quilt.Props

open VM Peg Machine

variable {D : Type}

/-- `get_lineno`: one more than the number of line breaks before the position - what an editor shows. The text is cut at the
position's line `l1 ++ l2`: it is preceded by whole lines and followed by a line break or nothing. Positions count
characters. -/
theorem C59_lineno {c : Sources} {sp : Span} {file : String} {done l1 l2 after : List Char} (hs : c[sp.src]? = some (file, done ++ (l1 ++ l2) ++ after))
    (hp : sp.start = (done ++ l1).length) (hd : endsLine done) (hl : ∀ a ∈ l1 ++ l2, isBreak a = false) (ha : ∀ b r, after = b :: r → isBreak b = true)
    (hne : l1 ++ l2 ++ after ≠ []) : c.lineno sp = .ok (some (done.countP isBreak + 1)) := by
  have h := (offsetLine_at hd hl ha hne).1
  have h0 : (Source.ofText (done ++ (l1 ++ l2) ++ after)).len ≠ 0 := by
    intro h0
    apply hne
    have := List.length_eq_zero_iff.1 h0
    simp at this
    simp [this]
  simp only [Sources.lineno, hs, if_neg h0, hp, h, Res.map, Option.map]

/-- The text of an entry of a traceback: file, number of line breaks before the position, name of the function, and the line,
without white space at its ends. -/
theorem C59_entry_partial {c : Sources} {sp : Span} {file name : String} {done l1 l2 after : List Char} (hs : c[sp.src]? = some (file, done ++ (l1 ++ l2) ++ after))
    (hp : sp.start = (done ++ l1).length) (hd : endsLine done) (hl : ∀ a ∈ l1 ++ l2, isBreak a = false) (ha : ∀ b r, after = b :: r → isBreak b = true)
    (hne : l1 ++ l2 ++ after ≠ []) (hn : "...".toList.isPrefixOf name.toList = false) :
    entryText c (.frame name sp) = .ok ("   File \"".toList ++ file.toList ++ "\", line ".toList ++ showNat (done.countP isBreak) ++ ", in ".toList ++ name.toList ++ ['\n'] ++
      "      ".toList ++ Lib.trimStartText (Lib.trimEndText (l1 ++ l2)) ++ ['\n']) := by
  obtain ⟨h, o, n, h1, -⟩ := offsetLine_at hd hl ha hne
  have h0 : (Source.ofText (done ++ (l1 ++ l2) ++ after)).len ≠ 0 := by
    intro h0
    apply hne
    have := List.length_eq_zero_iff.1 h0
    simp at this
    simp [this]
  have ht : Lib.trimEndText ((l1 ++ l2) ++ after.take 1) = Lib.trimEndText (l1 ++ l2) := trimEnd_break ha
  rw [ht] at h1
  simp only [entryText, hn, Bool.false_eq_true, ↓reduceIte, hs, if_neg h0, hp, h, Res.bind, h1]

/-- The number shown for a position is one less than `get_lineno` gives for it - and the report printed above it. -/
theorem C59_violated_number {c : Sources} {sp : Span} {file name : String} {done l1 l2 after : List Char} (hs : c[sp.src]? = some (file, done ++ (l1 ++ l2) ++ after))
    (hp : sp.start = (done ++ l1).length) (hd : endsLine done) (hl : ∀ a ∈ l1 ++ l2, isBreak a = false) (ha : ∀ b r, after = b :: r → isBreak b = true)
    (hne : l1 ++ l2 ++ after ≠ []) (hn : "...".toList.isPrefixOf name.toList = false) :
    ∃ n rest, entryText c (.frame name sp) = .ok ("   File \"".toList ++ file.toList ++ "\", line ".toList ++ showNat n ++ ", in ".toList ++ rest) ∧ c.lineno sp = .ok (some (n + 1)) := by
  refine ⟨done.countP isBreak, name.toList ++ (['\n'] ++ ("      ".toList ++ (Lib.trimStartText (Lib.trimEndText (l1 ++ l2)) ++ ['\n']))), ?_, C59_lineno hs hp hd hl ha hne⟩
  rw [C59_entry_partial hs hp hd hl ha hne hn]
  simp only [List.append_assoc]

/-- Writing a traceback never panics, whatever the sources and entries are. -/
theorem C59_total (c : Sources) (es : List TraceEntry) : traceText c es ≠ .panic := by
  have h1 : ∀ e, entryText c e ≠ .panic := by
    intro e
    unfold entryText
    split
    · simp
    · split
      · simp
      · split
        · simp
        · rename_i file t _
          simp only
          split
          · simp
          · rename_i h0
            have h2 := offsetLine_total (t := t) (fun h => h0 (by rw [h]; rfl))
            rename_i sp _ _ _
            cases ho : (Source.ofText t).offsetLine sp.start with
            | panic => exact absurd ho (h2 _)
            | err e => simp [Res.bind]
            | ok o =>
              cases o with
              | none => simp [Res.bind]
              | some l => simp only [Res.bind]; split <;> simp
  have h2 : ∀ es, entriesText c es ≠ .panic := by
    intro es
    induction es with
    | nil => simp [entriesText]
    | cons e es ih =>
      have := h1 e
      rw [entriesText]
      cases he : entryText c e with
      | panic => exact absurd he this
      | err => simp [Res.bind]
      | ok a =>
        cases hr : entriesText c es with
        | panic => exact absurd hr ih
        | _ => simp [Res.bind, Res.map]
  have := h2 es.reverse
  revert this
  unfold traceText
  cases entriesText c es.reverse <;> simp [Res.map]

private theorem entryText_ok (c : Sources) (e : TraceEntry) : ∃ t, entryText c e = .ok t := by
  have h := C59_total c [e]
  simp only [traceText, List.reverse_singleton, entriesText] at h
  cases he : entryText c e with
  | ok t => exact ⟨t, rfl⟩
  | panic => rw [he] at h; exact absurd rfl h
  | err x =>
    exfalso
    unfold entryText at he
    split at he
    · cases he
    · split at he
      · cases he
      · split at he
        · cases he
        · simp only at he
          split at he
          · cases he
          · rename_i sp _ _ _ t _ _
            cases ho : (Source.ofText t).offsetLine sp.start with
            | panic => rw [ho] at he; cases he
            | err y =>
              unfold Source.offsetLine at ho
              split at ho
              · simp only at ho; split at ho <;> cases ho
              · cases ho
            | ok o =>
              rw [ho] at he
              cases o with
              | none => cases he
              | some l => simp only [Res.bind] at he; split at he <;> cases he

private theorem entriesText_map (c : Sources) {E : TraceEntry → List Char} (hE : ∀ e, entryText c e = .ok (E e)) (es : List TraceEntry) :
    entriesText c es = .ok (es.flatMap E) := by
  induction es with
  | nil => rfl
  | cons e es ih => simp [entriesText, hE, ih]

/-- The whole text of a traceback: the main program first, then how many frames are left out, then at most eight frames in the
order of the calls, then the function that was running. (What is said of a frame is `C59_entry_partial`.) -/
theorem C59_text (c : Sources) (s : VM D) : ∃ E : TraceEntry → List Char, (∀ e, entryText c e = .ok (E e)) ∧
    traceText c (traceBack s) = .ok ("Traceback (most recent call last):\n".toList ++
      (match s.frames.getLast? with
        | some main => E (.frame main.fn.name (main.fn.getSpan main.ip))
        | none => []) ++
      (if s.frames.length ≤ 10 then []
        else if s.frames.length = 11 then "   ... 1 more frame\n".toList
        else "   ... ".toList ++ showNat (s.frames.length - 10) ++ " more frames\n".toList) ++
      (s.frames.dropLast.take 8).reverse.flatMap (fun f => E (traceFrame f)) ++ E (traceFrame s.frame)) := by
  obtain ⟨E, hE⟩ : ∃ E : TraceEntry → List Char, ∀ e, entryText c e = .ok (E e) := ⟨fun e => (entryText_ok c e).choose, fun e => (entryText_ok c e).choose_spec⟩
  refine ⟨E, hE, ?_⟩
  have hm : ∀ n, E (.more n) = "   ".toList ++ moreText n ++ ['\n'] := fun n => by
    have := hE (.more n)
    simp only [entryText, Res.ok.injEq] at this
    exact this.symm
  have hmore : ((if s.frames.length > 10 then [TraceEntry.more (s.frames.length - 10)] else []).reverse.flatMap E) =
      (if s.frames.length ≤ 10 then []
        else if s.frames.length = 11 then "   ... 1 more frame\n".toList
        else "   ... ".toList ++ showNat (s.frames.length - 10) ++ " more frames\n".toList) := by
    by_cases h1 : s.frames.length ≤ 10
    · rw [if_neg (by omega), if_pos h1]; rfl
    · rw [if_pos (by omega), if_neg h1]
      simp only [List.reverse_singleton, List.flatMap_cons, List.flatMap_nil, List.append_nil, hm, moreText]
      by_cases h2 : s.frames.length = 11
      · rw [if_pos h2, h2]; decide +kernel
      · rw [if_neg h2, if_neg (by omega)]
        have e1 : "   ... ".toList = "   ".toList ++ "... ".toList := rfl
        have e2 : " more frames\n".toList = " more frame".toList ++ (['s'] ++ ['\n']) := rfl
        rw [e1, e2]
        simp only [List.append_assoc]
  rw [← hmore]
  simp only [traceText, traceBack, entriesText_map c hE, Res.map_ok, List.reverse_append, List.flatMap_append, List.append_assoc, List.reverse_singleton, List.flatMap_cons,
    List.flatMap_nil, List.append_nil, ← List.map_reverse, List.flatMap_map]
  cases s.frames.getLast? <;> simp

/-- Three frames: the main program, one call, the function that runs. -/
example : ∃ E : TraceEntry → List Char, traceText [] (traceBack { demoVm [] [] with
    frames := [⟨demoFn [] [], [], 0, 0⟩, ⟨.mk "main" Span.default 0 0 [] Rle.empty [] [], [], 0, 0⟩] }) =
    .ok ("Traceback (most recent call last):\n".toList ++ E (.frame "main" Span.default) ++ [] ++ E (.frame "f" Span.default) ++ E (.frame "f" Span.default)) :=
  have ⟨E, _, h⟩ := C59_text [] { demoVm [] [] with frames := [⟨demoFn [] [], [], 0, 0⟩, ⟨.mk "main" Span.default 0 0 [] Rle.empty [] [], [], 0, 0⟩] }
  ⟨E, h.trans (by simp [traceFrame, demoVm, demoFn, Func.name, Func.getSpan]; rfl)⟩

/-- The frames of a traceback, except the last one: each frame waiting for a call is shown at the position of that call - the whole
call expression `fn(args)` in the text the program was read from. (`traceFrame` is what `trace_back` lists for a
frame, see `C42_traceback`.) -/
theorem C59_calls {M : Machine.Setup D} {W : World} {k : Nat} {file : String} {T : List Char} {c c' : Cache} {ast : List Node} {m : Machine D}
    (hp : parseWithIncludes W k file T c = (.ok ast, c')) (h : History M [ast] m) {f : Frame} (hf : f ∈ m.vm.frames) :
    ∃ sp fn args src text pre mid post, Node.call sp fn args ∈ subsL ast ∧ traceFrame f = .frame f.fn.name sp ∧
      c'.sources[sp.src]? = some (src, text) ∧ text = pre ++ mid ++ post ∧ sp.start = utf8Len pre ∧ sp.stop = utf8Len (pre ++ mid) := by
  obtain ⟨⟨ast', ha, script, hc, hw⟩, p, n, hb, hd, hip⟩ := (C61_frames h).2 f hf
  rw [List.mem_singleton] at ha
  subst ha
  obtain ⟨_, sp0, sp, ho, _, hl⟩ := C60_origin hc (h.cfi.1 _ (by simp)) hw hb hd
  have hk : f.ip - 1 = p + 2 - 1 := by rw [hip]
  obtain ⟨rfl, fn, args, hn, _⟩ := ho
  obtain ⟨src, text, h1, _, pre, mid, post, h2, h3, h4⟩ := parsed_spans hp ⟨_, hn, .inl rfl⟩
  exact ⟨sp, fn, args, src, text, pre, mid, post, hn, by rw [traceFrame, hk, hl], h1, h2, h3, h4⟩

/-- A machine in the middle of a run, with two frames waiting. -/
example : ∃ ast m f, (∃ c', parseWithIncludes ⟨fun _ => none, fun _ => 0⟩ 1 "main" "fn f(a) {\n  1 / a\n}\nfn g() {\n  f(0)\n}\ng()".toList ⟨[], []⟩ = (.ok ast, c')) ∧
    History demoSetup [ast] m ∧ m.vm.frames.length = 2 ∧ f ∈ m.vm.frames ∧ traceFrame f = .frame "g" ⟨31, 35, 0⟩ := by
  have h : (match stepped "fn f(a) {\n  1 / a\n}\nfn g() {\n  f(0)\n}\ng()" 9 with
    | some (_, m) => m.vm.frames.length == 2 && decide (m.vm.frames.head?.map traceFrame = some (.frame "g" ⟨31, 35, 0⟩))
    | none => false) = true := by decide +kernel
  split at h
  · rename_i ast m hs
    obtain ⟨h1, h2⟩ := stepped_history hs
    simp only [Bool.and_eq_true, beq_iff_eq, decide_eq_true_eq] at h
    cases hf : m.vm.frames with
    | nil => simp [hf] at h
    | cons f fs =>
      refine ⟨ast, m, f, h1, h2, ?_⟩
      rw [hf] at h ⊢
      simpa using h
  · cases h

/-! ### Witnesses -/

/-- The text printed for it. -/
def traceOf (T : String) : Option String :=
  match errOf T with
  | some (_, _, t) => match traceText [("main", T.toList)] t with
    | .ok t => some (String.ofList t)
    | _ => none
  | none => none

/-- The main program is shown at the instruction after the call, which may be on another line: here the call is on the second
line and the traceback shows the third. -/
theorem C59_violated_main : traceOf "fn f() { 1 / 0 }\nf() +\n1" =
    some "Traceback (most recent call last):\n   File \"main\", line 2, in @__main__\n      1\n   File \"main\", line 0, in f\n      fn f() { 1 / 0 }\n" := by
  decide +kernel

/-- Positions count bytes and the line table characters: after characters of more than one byte the traceback shows a wrong
line. The division is on the second line and the traceback shows the fourth. -/
theorem C59_violated_bytes : traceOf "let a = \"éééééééé\"\n1 / 0\n2\n3" =
    some "Traceback (most recent call last):\n   File \"main\", line 3, in @__main__\n      3\n" := by
  decide +kernel

/-- Entries as they should be, but for the numbers. -/
example : traceOf "fn f(a) {\n  1 / a\n}\nfn g() {\n  f(0)\n}\ng()" =
    some "Traceback (most recent call last):\n   File \"main\", line 6, in @__main__\n      g()\n   File \"main\", line 4, in g\n      f(0)\n   File \"main\", line 1, in f\n      1 / a\n" := by
  decide +kernel

/-- A position in the middle of the second of three lines. -/
example : Sources.lineno [("main", "let a = 1\na + 2\n3".toList)] ⟨12, 13, 0⟩ = .ok (some 2) := by
  have := C59_lineno (c := [("main", "let a = 1\na + 2\n3".toList)]) (sp := ⟨12, 13, 0⟩) (file := "main") (done := "let a = 1\n".toList) (l1 := "a ".toList)
    (l2 := "+ 2".toList) (after := "\n3".toList) rfl rfl (.inr ⟨"let a = 1".toList, '\n', rfl, by decide⟩) (by decide) (by rintro b r h; cases h; decide) (by decide)
  exact this

end Quilt.Props
