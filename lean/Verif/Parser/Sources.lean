import Verif.Compiler.Spans
import Verif.Parser.Sound
import Verif.Parser.IncludeLemmas

/-!
# The positions in a program with includes

Used for C60.
-/

namespace Quilt.Peg

/-- The span lies in one of the sources: from a character boundary of its text to a later one. -/
def InSources (ss : List (String × List Char)) (sp : Span) : Prop := ∃ name T, ss[sp.src]? = some (name, T) ∧ SpanIn sp.src T sp

theorem InSources.mono {ss ss' : List (String × List Char)} (h : ss <+: ss') {sp : Span} (hs : InSources ss sp) : InSources ss' sp := by
  obtain ⟨name, T, h1, h2⟩ := hs
  refine ⟨name, T, ?_, h2⟩
  obtain ⟨r, rfl⟩ := h
  rw [List.getElem?_append_left (List.getElem?_eq_some_iff.1 h1).1]; exact h1

/-- The node and all nodes in it. -/
def Sited (ss : List (String × List Char)) (n : Node) : Prop := ∀ m ∈ n.subs, Own (InSources ss) m

theorem Sited.mono {ss ss' : List (String × List Char)} (h : ss <+: ss') {n : Node} (hs : Sited ss n) : Sited ss' n :=
  fun m hm => ⟨(hs m hm).1.mono h, fun x hx => ((hs m hm).2 x hx).mono h⟩

theorem mem_subsL {m : Node} : ∀ {ns : List Node}, m ∈ subsL ns ↔ ∃ n ∈ ns, m ∈ n.subs
  | [] => by simp [subsL]
  | n :: ns => by rw [subsL, List.mem_append, mem_subsL]; simp

variable {W : World}

theorem addParse_sited {name : String} {src : List Char} {c c' : Cache} {ast : List Node} (h : addParse W name src c = (.ok ast, c')) :
    c.sources <+: c'.sources ∧ ∀ n ∈ ast, Sited c'.sources n := by
  unfold addParse at h
  simp only at h
  have hg := parseCode_good ⟨c.sources.length, W.float⟩ src
  split at h
  · rename_i a i hp
    rw [hp] at hg
    simp only [Prod.mk.injEq, IRes.ok.injEq] at h
    obtain ⟨rfl, rfl⟩ := h
    refine ⟨List.prefix_append _ _, fun n hn m hm => ?_⟩
    have h0 : ∀ sp, SpanIn c.sources.length src sp → InSources (c.sources ++ [(name, src)]) sp := by
      intro sp hs
      refine ⟨name, src, ?_, ?_⟩
      · rw [hs.1]; simp
      · rw [hs.1]; exact hs
    have := all_subsL (S := SpanIn c.sources.length src) (fun x hx => hx.2) a (AllB_iff.1 hg).2 m (mem_subsL.2 ⟨n, hn, hm⟩)
    exact ⟨h0 _ this.1, fun x hx => h0 _ (this.2 x hx)⟩
  · simp at h
  · simp at h

theorem each_sited {f : Node → IM Node} (hf : ∀ n c n' c', f n c = (.ok n', c') → Sited c.sources n → c.sources <+: c'.sources ∧ Sited c'.sources n') :
    ∀ {ns : List Node} {c c' : Cache} {ns' : List Node}, IM.each f ns c = (.ok ns', c') → (∀ n ∈ ns, Sited c.sources n) → c.sources <+: c'.sources ∧ ∀ n ∈ ns', Sited c'.sources n
  | [], c, c', ns', h, _ => by cases h; exact ⟨List.prefix_refl _, by simp⟩
  | n :: ns, c, c', ns', h, hs => by
    unfold IM.each at h
    obtain ⟨m, c1, h1, h2⟩ := IM.bind_ok.1 h
    obtain ⟨ms, c2, h3, h4⟩ := IM.bind_ok.1 h2
    cases h4
    obtain ⟨k1, k2⟩ := hf _ _ _ _ h1 (hs n (by simp))
    obtain ⟨l1, l2⟩ := each_sited hf h3 fun n hn => (hs n (List.mem_cons_of_mem _ hn)).mono k1
    refine ⟨k1.trans l1, fun x hx => ?_⟩
    rcases List.mem_cons.1 hx with rfl | hx
    · exact k2.mono l1
    · exact l2 x hx

theorem includes_sited : ∀ k : Nat,
    (∀ name src (c : Cache) ast c', parseWithIncludes W k name src c = (.ok ast, c') → c.sources <+: c'.sources ∧ ∀ n ∈ ast, Sited c'.sources n) ∧
    (∀ n (c : Cache) n' c', resolveNode W k n c = (.ok n', c') → Sited c.sources n → c.sources <+: c'.sources ∧ Sited c'.sources n')
  | 0 => by
    refine ⟨fun name src c ast c' h => (by unfold parseWithIncludes at h; cases h), fun n c n' c' h hs => ?_⟩
    cases n with
    | «include» sp x b =>
      obtain ⟨x, xsp⟩ := x
      unfold resolveNode at h
      split at h <;> simp at h
    | _ => unfold resolveNode at h; cases h; exact ⟨List.prefix_refl _, hs⟩
  | k + 1 => by
    obtain ⟨ih1, ih2⟩ := includes_sited k
    constructor
    · intro name src c ast c' h
      unfold parseWithIncludes at h
      obtain ⟨a, c1, h1, h2⟩ := IM.bind_ok.1 h
      obtain ⟨k1, k2⟩ := addParse_sited h1
      obtain ⟨l1, l2⟩ := each_sited ih2 h2 k2
      exact ⟨k1.trans l1, l2⟩
    · intro n c n' c' h hs
      cases n with
      | «include» sp x b =>
        obtain ⟨x, xsp⟩ := x
        unfold resolveNode at h
        split at h
        · simp at h
        · split at h
          · simp at h
          · obtain ⟨inc, c1, h1, h2⟩ := IM.bind_ok.1 h
            obtain ⟨_, c2, h3, h4⟩ := IM.bind_ok.1 h2
            obtain ⟨inc', c3, h5, h6⟩ := IM.bind_ok.1 h4
            cases h3
            cases h6
            obtain ⟨k1, k2⟩ := ih1 _ _ _ _ _ h1
            obtain ⟨l1, l2⟩ := each_sited ih2 h5 k2
            have hall : c.sources <+: c'.sources := k1.trans l1
            refine ⟨hall, fun m hm => ?_⟩
            simp only [Node.subs, List.mem_cons, subsO] at hm
            rcases hm with rfl | hm
            · have := hs _ (Node.self_subs _)
              exact ⟨this.1.mono hall, fun y hy => (this.2 y hy).mono hall⟩
            · obtain ⟨n, hn, hm⟩ := mem_subsL.1 hm
              exact l2 n hn m hm
      | _ => unfold resolveNode at h; cases h; exact ⟨List.prefix_refl _, hs⟩

/-- All spans of a program with includes lie in the sources that were read. -/
theorem parsed_spans {k : Nat} {name : String} {T : List Char} {c c' : Cache} {ast : List Node} (h : parseWithIncludes W k name T c = (.ok ast, c')) {sp : Span}
    (hs : SpanOf ast sp) : InSources c'.sources sp := by
  obtain ⟨_, h2⟩ := (includes_sited k).1 _ _ _ _ _ h
  obtain ⟨m, hm, hsp⟩ := hs
  obtain ⟨n, hn, hm⟩ := mem_subsL.1 hm
  have := h2 n hn m hm
  rcases hsp with rfl | ⟨x, hx, rfl⟩
  · exact this.1
  · exact this.2 x hx

end Quilt.Peg
