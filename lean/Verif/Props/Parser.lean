import Verif.Parser.Sound
import Verif.Parser.IncludeLemmas
import Verif.Parser.Tie
import Verif.Parser.LiteralText
import Verif.Props.Correct

/-!
# Properties of the parser: C38, C39, C40, C41, C51, C52
-/

namespace Quilt.Props

open Quilt.Peg

/-! ## C51: parsing terminates -/

/-- The parser of programs finishes on every text: the recursion of the grammar never runs out of the fuel
that the model gives it, which is the number of remaining characters. -/
theorem C51_code_terminates (E : Env) (T : List Char) : (∃ ast i, parseCode E T = .ok ast i) ∨ parseCode E T = .fail := by
  have := parseCode_good E T
  cases h : parseCode E T with
  | ok ast i => exact .inl ⟨ast, i, rfl⟩
  | fail => exact .inr rfl
  | oof => rw [h] at this; exact this.elim

/-- Likewise the parser of literals. -/
theorem C51_literal_terminates (E : Env) (T : List Char) : (∃ l i, parseLiteral E T = .ok l i) ∨ parseLiteral E T = .fail := by
  have h := Good.literal (T := T) (n := T.length) E ⟨0, T⟩ ⟨[], rfl, rfl⟩ (Nat.le_refl _)
  unfold parseLiteral
  rw [P.bind_app]
  revert h
  cases literal E ⟨0, T⟩ with
  | ok l j =>
    intro _
    show (∃ l' i, (do eof; pure l : P Literal) j = .ok l' i) ∨ (do eof; pure l : P Literal) j = .fail
    rw [P.bind_app]
    unfold eof
    cases j.rest with
    | nil => exact .inl ⟨l, j, rfl⟩
    | cons c cs => exact .inr rfl
  | fail => exact fun _ => .inr rfl
  | oof => exact False.elim

/-- A text that parses, and one that does not. -/
example : (match parseCode ⟨0, fun _ => 0⟩ "let a = fn(x) { x * 2 }\n[a(3), -1:4][0]".toList with | .ok ast _ => ast.length == 2 | _ => false) = true ∧
    (match parseCode ⟨0, fun _ => 0⟩ "let a = (".toList with | .fail => true | _ => false) = true := by decide +kernel

/-! ## C52: spans -/

/-- Every span in a syntax tree belongs to the source that was parsed, lies within its text and begins and ends
between characters. (Nodes, names of variables, parameters, builtins and included files.)
The names are identifiers and no keywords. -/
theorem C52_spans {E : Env} {T : List Char} {ast : List Node} {i : Inp} (h : parseCode E T = .ok ast i) :
    AllL (fun sp => sp.src = E.src ∧ ∃ pre mid post, T = pre ++ mid ++ post ∧ sp.start = utf8Len pre ∧ sp.stop = utf8Len (pre ++ mid))
      (fun x => IsIdent x.1 ∧ x.2.src = E.src ∧ ∃ pre mid post, T = pre ++ mid ++ post ∧ x.2.start = utf8Len pre ∧ x.2.stop = utf8Len (pre ++ mid)) (fun _ _ => True) ast := by
  have := parseCode_good E T
  rw [h] at this
  exact AllL_mono (fun _ h => h) (fun _ h => h) (fun _ _ _ => trivial) this.list

/-! ## C41: implicit `none` and `return` -/

/-- After parsing the program and every body in it end well: the last statement is a `return` or, outside of
functions, an expression; functions end with `return`. -/
theorem C41_bodies_end {E : Env} {T : List Char} {ast : List Node} {i : Inp} (h : parseCode E T = .ok ast i) : AllB (fun _ => True) (fun _ => True) EndsWell false ast := by
  have := parseCode_good E T
  rw [h] at this
  exact AllB_iff.2 ⟨(AllB_iff.1 this).1, AllL_mono (fun _ _ => trivial) (fun _ _ => trivial) (fun _ _ h => h) this.list⟩

/-- The rewriting makes every body end well. -/
theorem C41_ends (isFn : Bool) (sp : Span) (b : List Node) : EndsWell isFn (addImplicitNone isFn sp b) := endsWell_add isFn sp b

/-- On bodies whose parts were parsed the rewriting preserves all statements and adds at most one: the result is the body,
possibly with `none` or `return` added at the end, or with the last expression wrapped in `return`. -/
theorem C41_preserves {S : Span → Prop} {N : Name → Prop} (isFn : Bool) (sp : Span) {b : List Node} (h : AllL S N EndsWell b) :
    let b' := addImplicitNone isFn sp b
    (b' = b ∧ ∃ u sp e, b = u ++ [.ret sp e]) ∨
    (∃ sp, b' = b ++ [if isFn then .ret sp none else .lit sp .none]) ∨
    (∃ u n, b = u ++ [n] ∧ n.isStatement = false ∧ b' = u ++ [if isFn then .ret n.span (some n) else n]) := by
  intro b'
  have hb : b' = closeBody isFn sp b := addImplicit_eq isFn sp b h
  unfold closeBody at hb
  cases hl : b.getLast? with
  | none =>
    have : b = [] := by simpa using hl
    subst this
    exact .inr (.inl ⟨sp, hb⟩)
  | some n =>
    obtain ⟨u, hu⟩ := List.getLast?_eq_some_iff.1 hl
    rw [hl] at hb
    cases hs : n.isStatement with
    | true =>
      cases n <;> first | (cases hs; done) | (left; exact ⟨hb, u, _, _, hu⟩) | (right; left; exact ⟨_, hb⟩)
    | false =>
      right; right
      refine ⟨u, n, hu, hs, ?_⟩
      have e : b.dropLast = u := by rw [hu]; simp
      cases n <;> first | (cases hs; done) | (rw [← e]; exact hb)

/-- The rewriting is idempotent: on the body of a function, and on any body whose parts were parsed. -/
theorem C41_idempotent {S : Span → Prop} {N : Name → Prop} (isFn : Bool) (sp sp' : Span) {b : List Node} (h : AllL S N EndsWell b) :
    addImplicitNone isFn sp' (addImplicitNone isFn sp b) = addImplicitNone isFn sp b := by
  rcases C41_preserves isFn sp h with ⟨h1, u, s, e, h2⟩ | ⟨s, h1⟩ | ⟨u, n, h1, h2, h3⟩
  · have : ∀ (u : List Node), addImplicitNone isFn sp' (u ++ [.ret s e]) = u ++ [.ret s e] := addImplicit_ret isFn sp' s e
    rw [h1, h2]; exact this u
  · rw [h1]
    cases isFn with
    | true => exact addImplicit_ret true sp' s none b
    | false =>
      have : ∀ (u : List Node), addImplicitNone false sp' (u ++ [.lit s .none]) = u ++ [.lit s .none] := addImplicit_lit sp' s
      exact this b
  · rw [h3]
    cases isFn with
    | true => exact addImplicit_ret true sp' _ _ u
    | false =>
      have hw : AllL S N EndsWell (u ++ [n]) := by rw [← h1]; exact h
      have := addImplicit_eq (S := S) false sp' (u ++ [n]) hw
      simp only [Bool.false_eq_true, if_false]
      rw [this]
      unfold closeBody
      rw [List.getLast?_concat]
      cases n <;> first | (cases h2; done) | simp [returnLast, Node.isStatement]

/-- A function body and a block: `return` and `none` are added where needed. -/
example : (match parseCode ⟨0, fun _ => 0⟩ "fn f(x) { if x { let y = 1 } }".toList with
    | .ok [.func _ _ _ [.ret _ (some (.cond _ _ [.decl .., .lit _ .none] none))], .lit _ .none] _ => true
    | _ => false) = true := by decide +kernel

/-- Programs that were read (with their includes) and compiled satisfy the shape needed by the correctness
theorems: statements occur only in statement position, every block ends with an expression or `return`, every function
with `return`. -/
theorem C41_shaped {W : World} {cfg : Cfg} {k : Nat} {name : String} {T : List Char} {c c' : Cache} {ast : List Node} {script : Script}
    (h : parseWithIncludes W k name T c = (.ok ast, c')) (hc : compile cfg ast = .ok script) : shapedProgram ast = true := by
  cases k with
  | zero => unfold parseWithIncludes at h; cases h
  | succ k =>
    unfold parseWithIncludes at h
    obtain ⟨ast0, c1, h1, h2⟩ := IM.bind_ok.1 h
    obtain ⟨⟨j, h3⟩, rfl⟩ := addParse_ok.1 h1
    exact shaped_of_parsed (C41_bodies_end h3) (fun _ _ _ _ => trivial) (each_spliced h2).1 (compile_accepts hc).1

/-! ## C38: includes -/

/-- Reading a program with includes succeeds exactly if the text parses and no file is included twice or was
included before, every included file exists and parses, and no included file includes anything. The result is then the
parsed program where each include contains the statements of its file. -/
theorem C38_includes {W : World} {name : String} {T : List Char} {c : Cache} {ast' : List Node} :
    (∃ k c', parseWithIncludes W k name T c = (.ok ast', c')) ↔
    ∃ ast j, parseCode ⟨c.sources.length, W.float⟩ T = .ok ast j ∧ Spliced W (c.sources.length + 1) ast ast' ∧ (inclNames ast).Nodup ∧
      ∀ x ∈ inclNames ast, x ∉ c.resolved := by
  constructor
  · rintro ⟨k, c', h⟩
    cases k with
    | zero => unfold parseWithIncludes at h; cases h
    | succ k =>
      unfold parseWithIncludes at h
      obtain ⟨ast, c1, h1, h2⟩ := IM.bind_ok.1 h
      obtain ⟨⟨j, h3⟩, rfl⟩ := addParse_ok.1 h1
      obtain ⟨h4, h5⟩ := each_spliced h2
      refine ⟨ast, j, h3, ?_, h5, fun x hx => each_resolved h2 x hx⟩
      simpa using h4
  · rintro ⟨ast, j, h1, h2, h3, h4⟩
    obtain ⟨c', hc, _⟩ := Spliced.each (k := 0) (c := { c with sources := c.sources ++ [(name, T)] }) (by simpa using h2) h3 h4
    refine ⟨3, c', ?_⟩
    unfold parseWithIncludes
    exact IM.bind_ok.2 ⟨ast, _, addParse_ok.2 ⟨⟨j, h1⟩, rfl⟩, hc⟩

/-- Including a file again is an error at the place of the second include; including a missing file is an
error at that place. `pre` are the statements before. -/
theorem C38_errors {W : World} {name : String} {T : List Char} {pre pre' post : List Node} {sp xsp : Span} {x : String} {b : Option (List Node)} {j : Inp}
    (h : parseCode ⟨0, W.float⟩ T = .ok (pre ++ .include sp (x, xsp) b :: post) j) (hp : Spliced W 1 pre pre') (hn : (inclNames pre).Nodup) :
    (x ∈ inclNames pre → ∃ c', parseWithIncludes W 3 name T ⟨[], []⟩ = (.err (.incl (.circularInclude x) xsp), c')) ∧
    (x ∉ inclNames pre → W.files x = none → ∃ c', parseWithIncludes W 3 name T ⟨[], []⟩ = (.err (.incl (.couldNotResolve x) xsp), c')) := by
  obtain ⟨c1, hc1, hr0⟩ := Spliced.each (k := 0) (c := ⟨[(name, T)], []⟩) hp hn (by simp)
  have h1 : addParse W name T ⟨[], []⟩ = (.ok (pre ++ .include sp (x, xsp) b :: post), ⟨[(name, T)], []⟩) := addParse_ok.2 ⟨⟨j, h⟩, rfl⟩
  have hr : ∀ y, y ∈ c1.resolved ↔ y ∈ inclNames pre := fun y => by simpa using hr0 y
  have hrun : ∀ e, resolveNode W 2 (.include sp (x, xsp) b) c1 = (.err e, c1) → parseWithIncludes W 3 name T ⟨[], []⟩ = (.err e, c1) := by
    intro e he
    unfold parseWithIncludes IM.bind
    rw [h1]
    exact each_err hc1 he
  constructor
  · intro hx
    refine ⟨c1, hrun _ ?_⟩
    unfold resolveNode
    simp only
    rw [if_pos ((hr x).2 hx)]
  · intro hx hf
    refine ⟨c1, hrun _ ?_⟩
    unfold resolveNode
    simp only
    rw [if_neg (fun hm => hx ((hr x).1 hm)), hf]

/-- A world with three files. -/
def world : World := ⟨fun x => if x = "a" then some "let x = 1".toList else if x = "b" then some "fn f() { x }".toList else if x = "c" then some "include \"a\"".toList else
  if x = "d" then some "include \"d\"".toList else none, fun _ => 0⟩

/-- What an include contains. -/
def inclSize : Node → Nat
  | .include _ _ (some b) => b.length
  | _ => 0

example : (match parseWithIncludes world 3 "main" "include \"a\"\ninclude \"b\"\nf() + x".toList ⟨[], []⟩ with
    | (.ok ast, _) => ast.map inclSize == [2, 2, 0]
    | _ => false) = true := by decide +kernel

example : (match parseWithIncludes world 3 "main" "include \"a\"\ninclude \"a\"\nx".toList ⟨[], []⟩ with
    | (.err e, _) => e == .incl (.circularInclude "a") ⟨20, 23, 0⟩
    | _ => false) = true ∧
  (match parseWithIncludes world 3 "main" "include \"z\"\nx".toList ⟨[], []⟩ with
    | (.err e, _) => e == .incl (.couldNotResolve "z") ⟨8, 11, 0⟩
    | _ => false) = true := by decide +kernel

/-- A file that includes another one can never be included: whatever the fuel, reading does not succeed. -/
theorem C38_violated_nested {W : World} {name : String} {T src : List Char} {c : Cache} {ast : List Node} {j : Inp} {x : String}
    (h : parseCode ⟨c.sources.length, W.float⟩ T = .ok ast j) (hx : x ∈ inclNames ast) (hf : W.files x = some src)
    (hn : ∀ id inc j, parseCode ⟨id, W.float⟩ src = .ok inc j → inclNames inc ≠ []) :
    ¬ ∃ k ast' c', parseWithIncludes W k name T c = (.ok ast', c') := by
  rintro ⟨k, ast', c', hk⟩
  obtain ⟨ast0, j0, h1, h2, _⟩ := C38_includes.1 ⟨k, c', hk⟩
  rw [h] at h1
  cases h1
  obtain ⟨id, inc, j, hp, hi⟩ := h2.file_of_mem hx hf
  exact hn id inc j hp hi

/-- The file `c` includes `a`, which includes nothing; including `c` is reported as circular. -/
theorem C38_violated_nested_circular : (match parseWithIncludes world 9 "main" "include \"c\"\n1".toList ⟨[], []⟩ with
    | (.err e, c) => e == .incl (.circularInclude "a") ⟨8, 11, 1⟩ && c.resolved == ["c", "a"]
    | _ => false) = true := by decide +kernel

theorem parse_d (id : Nat) (f : List Char → BitVec 64) : parseCode ⟨id, f⟩ "include \"d\"".toList =
    .ok [.include ⟨0, 11, id⟩ ("d", ⟨8, 11, id⟩) none, .lit ⟨0, 11, id⟩ .none] ⟨11, []⟩ := by cbv

/-- A file including itself is not reported as circular: the recursion does not end, however deep it may go. -/
theorem C38_violated_cycle : ∀ (k : Nat) (name : String) (c : Cache), "d" ∉ c.resolved → (parseWithIncludes world k name "include \"d\"".toList c).1 matches .oof := by
  have key : ∀ (k : Nat) (name : String) (c : Cache), "d" ∉ c.resolved → ∃ c', parseWithIncludes world k name "include \"d\"".toList c = (.oof, c') := by
    intro k
    induction k using Nat.strongRecOn with
    | ind k ih =>
      intro name c hc
      cases k with
      | zero => exact ⟨c, by unfold parseWithIncludes; rfl⟩
      | succ k =>
        unfold parseWithIncludes
        simp only [IM.bind, addParse, parse_d, IM.each]
        cases k with
        | zero =>
          refine ⟨{ c with sources := c.sources ++ [(name, "include \"d\"".toList)] }, ?_⟩
          unfold resolveNode
          simp [hc]
        | succ k =>
          obtain ⟨c', hc'⟩ := ih k (by omega) "d" { c with sources := c.sources ++ [(name, "include \"d\"".toList)] } hc
          refine ⟨c', ?_⟩
          unfold resolveNode
          have hd : world.files "d" = some "include \"d\"".toList := by decide +kernel
          simp only [hc, if_false, hd, IM.bind, hc']
  intro k name c hc
  obtain ⟨c', h⟩ := key k name c hc
  rw [h]

/-! ## C39: colour literals -/

/-- Six digits are three bytes, eight are four, and three digits stand for six, each doubled. -/
theorem C39_channels (a b c d e f g h : Char) :
    hexToRgba [a, b, c, d, e, f] = some (hexByte [a, b], hexByte [c, d], hexByte [e, f], 255) ∧
    hexToRgba [a, b, c, d, e, f, g, h] = some (hexByte [a, b], hexByte [c, d], hexByte [e, f], hexByte [g, h]) ∧
    (digitVal a < 16 → digitVal b < 16 → digitVal c < 16 → hexToRgba [a, b, c] = hexToRgba [a, a, b, b, c, c]) := by
  refine ⟨rfl, rfl, fun ha hb hc => ?_⟩
  have hd : ∀ x, digitVal x < 16 → hexByte [x] * 17 = hexByte [x, x] := by
    intro x hx
    simp only [hexByte, digitsVal, List.foldl_cons, List.foldl_nil]
    generalize digitVal x = v at hx
    revert v; decide
  show some (hexByte [a] * 17, hexByte [b] * 17, hexByte [c] * 17, (255 : BitVec 8)) = some (hexByte [a, a], hexByte [b, b], hexByte [c, c], 255)
  rw [hd a ha, hd b hb, hd c hc]

/-- The value of two digits. -/
theorem C39_byte (a b : Char) (ha : digitVal a < 16) (hb : digitVal b < 16) : (hexByte [a, b]).toNat = 16 * digitVal a + digitVal b := by
  simp only [hexByte, digitsVal, List.foldl_cons, List.foldl_nil, BitVec.toNat_ofNat]
  omega

/-- A colour literal with three, six or eight digits is read as the colour with these channels. -/
theorem C39_read (E : Env) {ds : List Char} {r g b a : BitVec 8} (h : ∀ d ∈ ds, isHex d = true) (hc : hexToRgba ds = some (r, g, b, a)) :
    ∃ i, parseLiteral E ('#' :: ds) = .ok (.color r g b a) i := by
  have h1 : Reads (literalN E (ds.length + 2)) ('#' :: ds) [] (.color r g b a) :=
    Reads.no_word (show _ = _ by decide) (show _ = _ by decide) (show _ = _ by decide) rfl (.left (Reads.hex h trivial hc))
  obtain ⟨q, hq⟩ := h1 0
  rw [List.append_nil] at hq
  have hl : literal E ⟨0, '#' :: ds⟩ = .ok (.color r g b a) ⟨q, []⟩ := hq
  refine ⟨⟨q, []⟩, ?_⟩
  unfold parseLiteral
  rw [bind_def, hl]
  rfl

/-- Digit strings of other lengths are rejected (but see `C39_violated_seven`). -/
theorem C39_rejected_partial (E : Env) {ds : List Char} (h : ∀ d ∈ ds, isHex d = true) (hl : ds.length ∉ [3, 6, 7, 8]) : parseLiteral E ('#' :: ds) = .fail := by
  have hc : hexToRgba ds = none := by
    unfold hexToRgba
    simp only [List.mem_cons, List.not_mem_nil, or_false, not_or] at hl
    rw [if_neg hl.1, if_pos (by omega)]
  have h1 : Fails (literalN E (ds.length + 2)) ('#' :: ds) := by
    have hw : ∀ x, ('#' == x) = false → NotHead (· == x) ('#' :: ds) := fun x hx => hx
    have hnum : NotHead isNum ('#' :: ds) := show isNum '#' = false by decide
    have hh := Fails.hex (r := []) h trivial hc
    rw [List.append_nil] at hh
    exact .or (Fails.word (c := 't') (cs := ['r', 'u', 'e']) (by decide) (hw _ (by decide))) <| .or (Fails.word (c := 'f') (cs := ['a', 'l', 's', 'e']) (by decide) (hw _ (by decide))) <|
      .or (Fails.word (c := 'n') (cs := ['o', 'n', 'e']) (by decide) (hw _ (by decide))) <| .or hh <| .or (Fails.bind (Fails.float hnum)) <| .or (Fails.range hnum) <|
      .or (Fails.bind (Fails.int hnum)) <| .or (Fails.bind (Fails.string (hw _ (by decide)))) <| .or (Fails.bind (Fails.str (c := '(') (cs := []) (by decide) (hw _ (by decide))))
      (Fails.bind (Fails.str (c := '[') (cs := []) (by decide) (hw _ (by decide))))
  have hl : literal E ⟨0, '#' :: ds⟩ = .fail := h1 0
  unfold parseLiteral
  rw [bind_def, hl]

/-- Seven digits are accepted, and the last one is ignored. -/
theorem C39_violated_seven (E : Env) (a b c d e f g : Char) (h : ∀ x ∈ [a, b, c, d, e, f, g], isHex x = true) :
    ∃ i, parseLiteral E ['#', a, b, c, d, e, f, g] = .ok (.color (hexByte [a, b]) (hexByte [c, d]) (hexByte [e, f]) 255) i :=
  C39_read E h rfl

/-- Printing a colour gives `#` and eight digits, which are read as the same colour. -/
theorem C39_roundtrip {C : Type} (E : Env) (F : FOps) (cname : C → String) (r g b a : BitVec 8) :
    ∃ ds, (Val.color r g b a : Val C).text F cname = '#' :: ds ∧ ds.length = 8 ∧ (∀ d ∈ ds, isHex d = true) ∧
      ∃ i, parseLiteral E ('#' :: ds) = .ok (.color r g b a) i := by
  refine ⟨hexText r ++ hexText g ++ hexText b ++ hexText a, by unfold Val.text; rfl, rfl, ?_, ?_⟩
  · intro d hd
    simp only [List.mem_append] at hd
    rcases hd with ((hd | hd) | hd) | hd <;> exact hexText_hex _ d hd
  · refine C39_read E ?_ (hexToRgba_text r g b a)
    intro d hd
    simp only [List.mem_append] at hd
    rcases hd with ((hd | hd) | hd) | hd <;> exact hexText_hex _ d hd

example : (match parseLiteral ⟨0, fun _ => 0⟩ "#f0A".toList with | .ok l _ => l == .color 255 0 170 255 | _ => false) = true ∧
    (match parseLiteral ⟨0, fun _ => 0⟩ "#12345678".toList with | .ok l _ => l == .color 0x12 0x34 0x56 0x78 | _ => false) = true ∧
    (match parseLiteral ⟨0, fun _ => 0⟩ "#1234".toList with | .fail => true | _ => false) = true ∧
    (match parseLiteral ⟨0, fun _ => 0⟩ "#1234567".toList with | .ok l _ => l == .color 0x12 0x34 0x56 255 | _ => false) = true := by decide +kernel

/-! ## C40: printed literals read back -/

/-- The printed form of a value made of `none`, booleans, integers, ranges, colours, pairs and arrays of any nesting
is read as a literal whose value equals the printed one. -/
theorem C40_roundtrip {C : Type} (E : Env) (F : FOps) (cname : C → String) (ceq : C → C → Option Bool) {v : Val C} {l : Literal} (h : v.lit? = some l) :
    (∃ i, parseLiteral E (v.text F cname) = .ok l i) ∧ (l.toVal : Val C).eqv F ceq v = some true :=
  ⟨parseLiteral_text (by simp) h, lit?_eqv F ceq (by simp) v h⟩

/-- All literals without strings and floats are covered. -/
theorem C40_literals {C : Type} (E : Env) (F : FOps) (cname : C → String) {l : Literal} (h : l.plain = true) :
    ∃ i, parseLiteral E ((l.toVal : Val C).text F cname) = .ok l i :=
  parseLiteral_text (fl := fun _ => none) (by simp) (plain_lit? l h)

example : (Val.arr [.pair (.int (-5)) (.range 0 (-3)), .arr [] 0 9, .color 1 2 3 250, .bool true, .none] 48 99 : Val Unit).lit? =
    some (.arr [.pair (.int (-5)) (.range 0 (-3)), .arr [], .color 1 2 3 250, .bool true, .none]) ∧
  (Val.arr [.pair (.int (-5)) (.range 0 (-3)), .arr [] 0 9, .color 1 2 3 250, .bool true, .none] 48 99 : Val Unit).text demoSetup.cfg.F (fun _ => "") =
    "[(-5, 0:-3), [], #010203fa, true, none]".toList := by decide +kernel

end Quilt.Props
