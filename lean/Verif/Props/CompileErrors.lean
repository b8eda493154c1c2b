import Verif.Compiler.Exact
import Verif.Parser.Sources
import Verif.Props.NoPanic

/-!
# What the compiler rejects, and where

`Faulty ast e sp` (`Verif/Compiler/Places.lean`) says, over the places of a program, what is wrong with it and where.
-/

namespace Quilt.Props
open Peg

private theorem start_g (ast : List Node) : ((CState.new "@__main__").setMainSpan ast).g = (CState.new "@__main__").g := by
  unfold CState.setMainSpan; split <;> rfl

private theorem start_inv (ast : List Node) : TopSt 0 [] ((CState.new "@__main__").setMainSpan ast).g := by
  rw [start_g]
  refine ⟨⟨rfl, ⟨by simp [CState.new], Pool.inv_empty⟩, by simp [CState.new], Pool.inv_empty⟩, rfl, ⟨⟨?_, ?_, ?_, Pool.inv_empty, ?_⟩, ?_, ?_, Pool.inv_empty⟩, ?_⟩ <;>
    simp [CState.new, Pool.empty]

private theorem gen_err {cfg : Cfg} {ast : List Node} {e : Err} {sp : Span} (h : compile cfg ast = .err e sp) :
    genStmts cfg false ast ((CState.new "@__main__").setMainSpan ast).g = .err e sp := by
  unfold compile at h
  generalize hst : (CState.new "@__main__").setMainSpan ast = st at h ⊢
  have hgd := gd_stmts cfg ast 0 st.g (by rw [← hst, start_g]; rfl)
  rcases (Ref.ref_stmts cfg false ast).elim st st.g rfl with ⟨a, c, g', h3, h4⟩ | ⟨e', sp', s', h3, h4⟩ | ⟨s', _, h4⟩ | h3
  · rw [h4] at h; simp at h
  · rw [h4] at h
    simp only [COut.err.injEq] at h
    rw [h3, h.1, h.2]
  · rw [h4] at h; simp at h
  · rw [h3] at hgd; exact hgd.elim

/-- Whatever the compiler complains about is true: the program has a place at fault in the way the error says, and the
error points at it; or it declares an external name for the second time, and the error points at the second declaration. -/
theorem C83_blame {cfg : Cfg} {ast : List Node} {e : Err} {sp : Span} (hs : sizeL ast ≤ 65535) (h : compile cfg ast = .err e sp) : Faulty ast e sp := by
  have hg := gen_err h
  have h0 := start_inv ast
  rcases ge_stmts (L := places ast) cfg ast 0 (fun p hp => hp) _ h0.inv h0.depth e sp hg with h1 | ⟨_, x, _, rfl, _⟩
  · exact .inl h1
  · obtain ⟨pre, post, h1, h2⟩ := (gxe_stmts cfg ast _ 0 [] h0 (by omega)).2 x sp hg
    exact .inr ⟨x, pre, post, rfl, h1, by simpa using h2⟩

/-- For programs of any size the complaint is true, except that the name of an external declaration complained about may
have been declared before only in the sense that its number was. -/
theorem C83_blame_any {cfg : Cfg} {ast : List Node} {e : Err} {sp : Span} (h : compile cfg ast = .err e sp) :
    (∃ p ∈ places ast, Fault p e sp) ∨ ∃ x, e = .name (.externalRedefined x) ∧ (x, sp) ∈ externNames (places ast) := by
  have h0 := start_inv ast
  rcases ge_stmts (L := places ast) cfg ast 0 (fun p hp => hp) _ h0.inv h0.depth e sp (gen_err h) with h1 | ⟨_, x, _, rfl, hm⟩
  · exact .inl h1
  · exact .inr ⟨x, rfl, List.mem_filterMap.2 ⟨_, hm, rfl⟩⟩

/-- What the compiler accepts has nothing wrong with it, except perhaps that a construct is large. -/
theorem C83_accepts {cfg : Cfg} {ast : List Node} {script : Script} (h : compile cfg ast = .ok script) {e : Err} {sp : Span} (hf : Faulty ast e sp) :
    e = .overflow .jumpTooLarge := by
  obtain ⟨h1, h2⟩ := compile_accepts h
  rcases hf with ⟨p, hp, hf⟩ | ⟨x, pre, post, rfl, he, hx⟩
  · exact (clean_list ast true h1 p hp).1 e sp hf
  · rw [externsL_sites] at h2
    unfold places at he
    rw [he, List.map_append, List.nodup_append] at h2
    exact absurd rfl (h2.2.2 x hx x (by simp))

/-- Exactly the programs with nothing wrong are accepted: programs of size up to 8191, for which no construct is too large
to be jumped over. The operators are those that do not crash the compiler (C58). -/
theorem C83_exact {cfg : Cfg} {ast : List Node} (ho : opsOkL cfg.chk ast = true) (hs : sizeL ast ≤ 8191) :
    (∃ script, compile cfg ast = .ok script) ↔ ∀ e sp, ¬ Faulty ast e sp := by
  constructor
  · rintro ⟨script, h⟩ e sp hf
    have he := C83_accepts h hf
    rcases hf with ⟨p, hp, hf⟩ | ⟨x, pre, post, he', _⟩
    · have h1 := hf.large he
      have h2 := (clean_list ast true (compile_accepts h).1 p hp).2
      omega
    · subst he; cases he'
  · intro hf
    cases h : compile cfg ast with
    | ok script => exact ⟨script, rfl⟩
    | err e sp => exact absurd (C83_blame (by omega) h) (hf e sp)
    | panic => exact absurd (compile_panic h) (C58_trees ho _)

/-! ## Program texts -/

/-- No include at top level of the statement is unresolved. -/
def Resolved (n : Node) : Prop := ∀ p ∈ (⟨n, false, true⟩ : Place) :: n.parts true, ∀ sp x, p ≠ ⟨.include sp x none, false, true⟩

theorem resolved_plain {n : Node} (h : ∀ sp x b, n ≠ .include sp x b) : Resolved n := by
  intro p hp sp x he
  subst he
  rcases List.mem_cons.1 hp with he | hp
  · simp only [Place.mk.injEq, and_true, true_and] at he
    exact h sp x none he.symm
  · rw [inner_same true h] at hp
    have := inner_top n _ hp
    cases this

theorem resolvedL : ∀ {ns : List Node}, (∀ n ∈ ns, Resolved n) → ∀ p ∈ innerL false true ns, ∀ sp x, p ≠ ⟨.include sp x none, false, true⟩
  | [], _, p, hp => by simp [innerL] at hp
  | n :: ns, h, p, hp => by
    rw [innerL] at hp
    rcases List.mem_append.1 hp with hp | hp
    · exact h n (by simp) p hp
    · exact resolvedL (fun m hm => h m (by simp [hm])) p hp

private theorem each_resolved' {f : Node → IM Node} (hf : ∀ n c n' c', f n c = (.ok n', c') → Resolved n') :
    ∀ {ns : List Node} {c c' : Cache} {ns' : List Node}, IM.each f ns c = (.ok ns', c') → ∀ n ∈ ns', Resolved n
  | [], c, c', ns', h => by cases h; simp
  | n :: ns, c, c', ns', h => by
    unfold IM.each at h
    obtain ⟨m, c1, h1, h2⟩ := IM.bind_ok.1 h
    obtain ⟨ms, c2, h3, h4⟩ := IM.bind_ok.1 h2
    cases h4
    intro x hx
    rcases List.mem_cons.1 hx with rfl | hx
    · exact hf _ _ _ _ h1
    · exact each_resolved' hf h3 x hx

private theorem node_resolved {W : World} : ∀ (k : Nat) n c n' c', resolveNode W k n c = (.ok n', c') → Resolved n'
  | k, n, c, n', c', h => by
    cases n with
    | «include» sp x b =>
      obtain ⟨x, xsp⟩ := x
      cases k with
      | zero => unfold resolveNode at h; split at h <;> simp at h
      | succ k =>
        unfold resolveNode at h
        split at h
        · simp at h
        · split at h
          · simp at h
          · obtain ⟨inc, c1, h1, h2⟩ := IM.bind_ok.1 h
            obtain ⟨_, c2, h3, h4⟩ := IM.bind_ok.1 h2
            obtain ⟨inc', c3, h5, h6⟩ := IM.bind_ok.1 h4
            cases h3
            cases h6
            intro p hp sp' x' he
            rcases List.mem_cons.1 hp with rfl | hp
            · cases he
            · simp only [Node.parts, innerO] at hp
              exact resolvedL (each_resolved' (node_resolved k) h5) p hp sp' x' he
    | _ => cases k <;> (unfold resolveNode at h; cases h; exact resolved_plain (by rintro _ _ _ ⟨⟩))

private theorem parsed_resolved {W : World} {k : Nat} {name : String} {T : List Char} {c c' : Cache} {ast : List Node} (h : parseWithIncludes W k name T c = (.ok ast, c')) :
    ∀ p ∈ places ast, ∀ sp x, p ≠ ⟨.include sp x none, false, true⟩ := by
  cases k with
  | zero => unfold parseWithIncludes at h; cases h
  | succ k =>
    unfold parseWithIncludes at h
    obtain ⟨a, c1, h1, h2⟩ := IM.bind_ok.1 h
    exact resolvedL (each_resolved' (node_resolved k) h2)

/-- For a program text: what the compiler complains about is true, lies in one of the sources that were read, and is not
that an include was left unresolved. -/
theorem C83_text {W : World} {k : Nat} {name : String} {T : List Char} {c c' : Cache} {ast : List Node} {cfg : Cfg} {e : Err} {sp : Span}
    (hp : parseWithIncludes W k name T c = (.ok ast, c')) (hs : sizeL ast ≤ 65535) (h : compile cfg ast = .err e sp) :
    Faulty ast e sp ∧ InSources c'.sources sp ∧ ∀ x, e ≠ .include (.unresolvedInclude x) := by
  have hf := C83_blame hs h
  refine ⟨hf, parsed_spans hp hf.at, ?_⟩
  rintro x rfl
  rcases hf with ⟨p, hm, hf⟩ | ⟨_, _, _, he, _⟩
  · cases hf with
    | unresolved => exact parsed_resolved hp _ hm _ _ rfl
  · cases he

/-- Exactly the texts with nothing wrong are accepted. -/
theorem C83_text_exact {W : World} {k : Nat} {name : String} {T : List Char} {c c' : Cache} {ast : List Node} {cfg : Cfg}
    (hp : parseWithIncludes W k name T c = (.ok ast, c')) (ho : plainOps cfg.chk ast = true) (hs : sizeL ast ≤ 8191) :
    (∃ script, compile cfg ast = .ok script) ↔ ∀ e sp, ¬ Faulty ast e sp := C83_exact (plainOps_ok hp ho) hs

/-! ## Concrete texts -/

private def errW : World := ⟨fun x => if x = "lib" then some "external b = 2".toList else none, fun _ => 0⟩

/-- The error and its position for a text. -/
private def complaint (T : String) : Option (Err × Span) := match parseWithIncludes errW 5 "main" T.toList ⟨[], []⟩ with
  | (.ok ast, _) => match compile demoSetup.cfg ast with
    | .err e sp => if sizeL ast ≤ 8191 then some (e, sp) else none
    | _ => none
  | _ => none

/-- A text that is accepted, within the limits of the theorems. -/
private def accepted (T : String) : Bool := match parseWithIncludes errW 5 "main" T.toList ⟨[], []⟩ with
  | (.ok ast, _) => match compile demoSetup.cfg ast with
    | .ok _ => decide (sizeL ast ≤ 8191) && plainOps demoSetup.cfg.chk ast
    | _ => false
  | _ => false

private theorem complaint_iff {T : String} {e : Err} {sp : Span} (h : complaint T = some (e, sp)) :
    ∃ ast c, parseWithIncludes errW 5 "main" T.toList ⟨[], []⟩ = (.ok ast, c) ∧ sizeL ast ≤ 8191 ∧ compile demoSetup.cfg ast = .err e sp ∧ Faulty ast e sp := by
  unfold complaint at h
  split at h
  · rename_i ast c hp
    split at h
    · rename_i e' sp' hc
      split at h
      · rename_i hs
        simp only [Option.some.injEq, Prod.mk.injEq] at h
        obtain ⟨rfl, rfl⟩ := h
        exact ⟨ast, c, hp, hs, hc, C83_blame (by omega) hc⟩
      · cases h
    · cases h
  · cases h

/-- A `return` at top level. -/
example : ∃ ast c, parseWithIncludes errW 5 "main" "let x = 1 return x".toList ⟨[], []⟩ = (.ok ast, c) ∧ sizeL ast ≤ 8191 ∧
    compile demoSetup.cfg ast = .err (.syntax .returnOutsideFunction) ⟨10, 18, 0⟩ ∧ Faulty ast (.syntax .returnOutsideFunction) ⟨10, 18, 0⟩ :=
  complaint_iff (T := "let x = 1 return x") (by decide +kernel)

/-- An external name declared in a function. -/
example : ∃ ast c, parseWithIncludes errW 5 "main" "fn f() { external b = 1 }".toList ⟨[], []⟩ = (.ok ast, c) ∧ sizeL ast ≤ 8191 ∧
    compile demoSetup.cfg ast = .err (.name (.externalNotGlobal "b")) ⟨18, 19, 0⟩ ∧ Faulty ast (.name (.externalNotGlobal "b")) ⟨18, 19, 0⟩ :=
  complaint_iff (T := "fn f() { external b = 1 }") (by decide +kernel)

/-- An external name that an included file declares again: the error is in the included file. -/
example : ∃ ast c, parseWithIncludes errW 5 "main" "external b = 1 include \"lib\"".toList ⟨[], []⟩ = (.ok ast, c) ∧ sizeL ast ≤ 8191 ∧
    compile demoSetup.cfg ast = .err (.name (.externalRedefined "b")) ⟨9, 10, 1⟩ ∧ Faulty ast (.name (.externalRedefined "b")) ⟨9, 10, 1⟩ :=
  complaint_iff (T := "external b = 1 include \"lib\"") (by decide +kernel)

/-- An include in a block. -/
example : ∃ ast c, parseWithIncludes errW 5 "main" "{ include \"lib\" }".toList ⟨[], []⟩ = (.ok ast, c) ∧ sizeL ast ≤ 8191 ∧
    compile demoSetup.cfg ast = .err (.include .includeNotTopLevel) ⟨10, 15, 0⟩ ∧ Faulty ast (.include .includeNotTopLevel) ⟨10, 15, 0⟩ :=
  complaint_iff (T := "{ include \"lib\" }") (by decide +kernel)

/-- A function declaration as an argument. -/
example : ∃ ast c, parseWithIncludes errW 5 "main" "f(fn g() {})".toList ⟨[], []⟩ = (.ok ast, c) ∧ sizeL ast ≤ 8191 ∧
    compile demoSetup.cfg ast = .err (.syntax .statementAsExpression) ⟨2, 11, 0⟩ ∧ Faulty ast (.syntax .statementAsExpression) ⟨2, 11, 0⟩ :=
  complaint_iff (T := "f(fn g() {})") (by decide +kernel)

private theorem accepted_iff {T : String} (h : accepted T = true) :
    ∃ ast c, parseWithIncludes errW 5 "main" T.toList ⟨[], []⟩ = (.ok ast, c) ∧ plainOps demoSetup.cfg.chk ast = true ∧ sizeL ast ≤ 8191 ∧
      ∀ e sp, ¬ Faulty ast e sp := by
  unfold accepted at h
  split at h
  · rename_i ast c hp
    split at h
    · rename_i s hc
      rw [Bool.and_eq_true, decide_eq_true_eq] at h
      exact ⟨ast, c, hp, h.2, h.1, (C83_text_exact hp h.2 h.1).1 ⟨s, hc⟩⟩
    · cases h
  · cases h

private def fineText : String := "include \"lib\" external a = 1 fn f(x) { if x { return a } else { [b, x] } } f(1)"

/-- A text with nothing wrong. -/
example : ∃ ast c, parseWithIncludes errW 5 "main" fineText.toList ⟨[], []⟩ = (.ok ast, c) ∧ plainOps demoSetup.cfg.chk ast = true ∧ sizeL ast ≤ 8191 ∧
    ∀ e sp, ¬ Faulty ast e sp := accepted_iff (T := fineText) (by decide +kernel)

end Quilt.Props
