import Verif.Parser.Sound
import Verif.Parser.IncludeLemmas
import Verif.Compiler.Accept
import Verif.Sem.Shaped

/-!
# Parsed and compiled programs are well shaped

The parser ends every body properly; the compiler rejects statements as expressions.
-/

namespace Quilt

theorem endsRet_of {b : List Node} : endsWell true b = true → endsRet b = true := by
  induction b with
  | nil => exact id
  | cons n ns ih =>
    cases ns with
    | nil => cases n <;> simp [endsWell, endsRet]
    | cons m ms => intro h; rw [endsWell_cons n (by simp)] at h; cases n <;> exact ih h

theorem endsWell_of_fn {isFn : Bool} {b : List Node} : endsWell isFn b = true → endsWell false b = true := by
  induction b with
  | nil => exact id
  | cons n ns ih =>
    cases ns with
    | nil => cases n <;> cases isFn <;> simp [endsWell]
    | cons m ms => intro h; rw [endsWell_cons n (by simp)] at h ⊢; exact ih h

section
variable {S : Span → Prop} {N : Name → Prop}

mutual
theorem shape_node : ∀ (n : Node) (t : Bool), n.All S N EndsWell → n.within t = true → (t = false ∨ n.isStatement = false) → n.shaped = true
  | .lit .., t, _, _, _ => by unfold Node.shaped; rfl
  | .ident .., t, _, _, _ => by unfold Node.shaped; rfl
  | .assign _ _ e, t, h, w, _ => by
    unfold Node.All at h; unfold Node.within at w; unfold Node.shaped
    simp only [Bool.and_eq_true, Bool.not_eq_true'] at w
    simp [w.1, shape_node e t h.2.2 w.2 (.inr w.1)]
  | .un _ _ e, t, h, w, _ => by
    unfold Node.All at h; unfold Node.within at w; unfold Node.shaped
    simp only [Bool.and_eq_true, Bool.not_eq_true'] at w
    simp [w.1, shape_node e t h.2 w.2 (.inr w.1)]
  | .decl _ _ e, t, h, w, _ => by
    unfold Node.All at h; unfold Node.within at w; unfold Node.shaped
    simp only [Bool.and_eq_true, Bool.not_eq_true'] at w
    simp [w.1.1, shape_node e t h.2.2 w.1.2 (.inr w.1.1)]
  | .pair _ a b, t, h, w, _ => by
    unfold Node.All at h; unfold Node.within at w; unfold Node.shaped
    simp only [Bool.and_eq_true, Bool.not_eq_true'] at w
    simp [w.1.1, w.2.1, shape_node a t h.2.1 w.1.2 (.inr w.1.1), shape_node b t h.2.2 w.2.2 (.inr w.2.1)]
  | .range _ a b, t, h, w, _ => by
    unfold Node.All at h; unfold Node.within at w; unfold Node.shaped
    simp only [Bool.and_eq_true, Bool.not_eq_true'] at w
    simp [w.1.1, w.2.1, shape_node a t h.2.1 w.1.2 (.inr w.1.1), shape_node b t h.2.2 w.2.2 (.inr w.2.1)]
  | .bin _ _ a b, t, h, w, _ => by
    unfold Node.All at h; unfold Node.within at w; unfold Node.shaped
    simp only [Bool.and_eq_true, Bool.not_eq_true'] at w
    simp [w.1.1, w.2.1, shape_node a t h.2.1 w.1.2 (.inr w.1.1), shape_node b t h.2.2 w.2.2 (.inr w.2.1)]
  | .index _ a b, t, h, w, _ => by
    unfold Node.All at h; unfold Node.within at w; unfold Node.shaped
    simp only [Bool.and_eq_true, Bool.not_eq_true'] at w
    simp [w.1.1, w.2.1, shape_node a t h.2.1 w.1.2 (.inr w.1.1), shape_node b t h.2.2 w.2.2 (.inr w.2.1)]
  | .array _ items, t, h, w, _ => by
    unfold Node.All at h; unfold Node.within at w; unfold Node.shaped
    simp only [Bool.and_eq_true] at w
    exact shape_all items t h.2 w.2
  | .block _ b, t, h, w, _ => by
    unfold Node.All at h; unfold Node.within at w; unfold Node.shaped
    exact shape_blk b (AllB_iff.1 h.2).2 (AllB_iff.1 h.2).1 w
  | .cond _ c th el, t, h, w, _ => by
    unfold Node.All at h; unfold Node.within at w; unfold Node.shaped
    simp only [Bool.and_eq_true, Bool.not_eq_true'] at w
    simp [w.1.1.1, shape_node c t h.2.1 w.1.1.2 (.inr w.1.1.1), shape_blk th (AllB_iff.1 h.2.2.1).2 (AllB_iff.1 h.2.2.1).1 w.1.2, shape_opt el h.2.2.2 w.2]
  | .switch _ v cs d, t, h, w, _ => by
    unfold Node.All at h; unfold Node.within at w; unfold Node.shaped
    simp only [Bool.and_eq_true, Bool.not_eq_true'] at w
    simp [w.1.1.1, shape_node v t h.2.1 w.1.1.2 (.inr w.1.1.1), shape_cases cs t h.2.2.1 w.1.2, shape_opt d h.2.2.2 w.2]
  | .while _ c b, t, h, w, _ => by
    unfold Node.All at h; unfold Node.within at w; unfold Node.shaped
    simp only [Bool.and_eq_true, Bool.not_eq_true'] at w
    simp [w.1.1, shape_node c t h.2.1 w.1.2 (.inr w.1.1), shape_blk b (AllB_iff.1 h.2.2).2 (AllB_iff.1 h.2.2).1 w.2]
  | .forIn _ _ it b, t, h, w, _ => by
    unfold Node.All at h; unfold Node.within at w; unfold Node.shaped
    simp only [Bool.and_eq_true, Bool.not_eq_true'] at w
    simp [w.1.1, shape_node it false h.2.2.1 w.1.2 (.inr w.1.1), shape_blk b (AllB_iff.1 h.2.2.2).2 (AllB_iff.1 h.2.2.2).1 w.2]
  | .forMulti _ _ it b, t, h, w, _ => by
    unfold Node.All at h; unfold Node.within at w; unfold Node.shaped
    simp only [Bool.and_eq_true, Bool.not_eq_true'] at w
    simp [w.1.2.1, shape_node it false h.2.2.1 w.1.2.2 (.inr w.1.2.1), shape_blk b (AllB_iff.1 h.2.2.2).2 (AllB_iff.1 h.2.2.2).1 w.2]
  | .lambda _ _ b, t, h, w, _ => by
    unfold Node.All at h; unfold Node.within at w; unfold Node.shaped
    simp only [Bool.and_eq_true] at w
    simp [shape_blk b (AllB_iff.1 h.2.2).2 (endsWell_of_fn (AllB_iff.1 h.2.2).1) w.2, endsRet_of (AllB_iff.1 h.2.2).1]
  | .func _ _ _ b, t, h, w, _ => by
    unfold Node.All at h; unfold Node.within at w; unfold Node.shaped
    simp only [Bool.and_eq_true] at w
    simp [shape_blk b (AllB_iff.1 h.2.2.2).2 (endsWell_of_fn (AllB_iff.1 h.2.2.2).1) w.2, endsRet_of (AllB_iff.1 h.2.2.2).1]
  | .call _ f args, t, h, w, _ => by
    unfold Node.All at h; unfold Node.within at w; unfold Node.shaped
    simp only [Bool.and_eq_true, Bool.not_eq_true'] at w
    simp [w.1.2.1, shape_node f t h.2.1 w.1.2.2 (.inr w.1.2.1), shape_all args t h.2.2 w.2]
  | .builtin _ _ args, t, h, w, _ => by
    unfold Node.All at h; unfold Node.within at w; unfold Node.shaped
    simp only [Bool.and_eq_true] at w
    exact shape_all args t h.2.2 w.2
  | .ctx _ _ args _ b, t, h, w, _ => by
    unfold Node.All at h; unfold Node.within at w; unfold Node.shaped
    simp only [Bool.and_eq_true] at w
    simp [shape_all args t h.2.2.1 w.1.1.2, shape_blk b (AllB_iff.1 h.2.2.2.2).2 (AllB_iff.1 h.2.2.2.2).1 w.2]
  | .ret _ e, t, h, w, ht => by
    unfold Node.All at h; unfold Node.within at w; unfold Node.shaped
    simp only [Bool.and_eq_true] at w
    exact shape_ret e t h.2 w.2
  | .extern .., t, _, w, ht => by
    unfold Node.within at w
    simp only [Bool.and_eq_true] at w
    rcases ht with ht | ht
    · rw [ht] at w; exact absurd w.1 (by decide)
    · cases ht
  | .include .., t, _, w, ht => by
    unfold Node.within at w
    simp only [Bool.and_eq_true] at w
    rcases ht with ht | ht
    · rw [ht] at w; exact absurd w.1 (by decide)
    · cases ht
termination_by structural n => n
theorem shape_blk : ∀ (b : List Node), AllL S N EndsWell b → endsWell false b = true → withinL false b = true → shapedBlk b = true
  | [], _, e, _ => by cases e
  | [n], h, e, w => by
    unfold AllL at h; unfold withinL at w; unfold shapedBlk
    simp only [Bool.and_eq_true] at w
    have hn := shape_node n false h.1 w.1 (.inl rfl)
    rw [hn]
    cases n <;> first | rfl | cases e
  | n :: n' :: ns, h, e, w => by
    unfold AllL at h; unfold withinL at w; unfold shapedBlk
    simp only [Bool.and_eq_true] at w
    rw [endsWell_cons n (by simp)] at e
    simp [shape_node n false h.1 w.1 (.inl rfl), shape_blk (n' :: ns) h.2 e w.2]
termination_by structural n => n
theorem shape_all : ∀ (ns : List Node) (t : Bool), AllL S N EndsWell ns → withinA t ns = true → shapedAll ns = true
  | [], _, _, _ => by unfold shapedAll; rfl
  | n :: ns, t, h, w => by
    unfold AllL at h; unfold withinA at w; unfold shapedAll
    simp only [Bool.and_eq_true, Bool.not_eq_true'] at w
    simp [w.1.1, shape_node n t h.1 w.1.2 (.inr w.1.1), shape_all ns t h.2 w.2]
termination_by structural n => n
theorem shape_opt : ∀ (b : Option (List Node)), AllO S N EndsWell b → withinO false b = true → shapedOpt b = true
  | some b, h, w => by
    unfold AllO at h; unfold withinO at w; unfold shapedOpt
    exact shape_blk b (AllB_iff.1 h).2 (AllB_iff.1 h).1 w
  | none, _, _ => by unfold shapedOpt; rfl
termination_by structural n => n
theorem shape_ret : ∀ (e : Option Node) (t : Bool), AllE S N EndsWell e → withinE t e = true → shapedRet e = true
  | some e, t, h, w => by
    unfold AllE at h; unfold withinE at w; unfold shapedRet
    simp only [Bool.and_eq_true, Bool.not_eq_true'] at w
    simp [w.1, shape_node e t h w.2 (.inr w.1)]
  | none, _, _, _ => by unfold shapedRet; rfl
termination_by structural n => n
theorem shape_cases : ∀ (cs : List (Node × List Node)) (t : Bool), AllC S N EndsWell cs → withinC t cs = true → shapedCases cs = true
  | [], _, _, _ => by unfold shapedCases; rfl
  | (c, b) :: cs, t, h, w => by
    unfold AllC at h; unfold withinC at w; unfold shapedCases
    simp only [Bool.and_eq_true, Bool.not_eq_true'] at w
    simp [w.1.1.1, shape_node c t h.1 w.1.1.2 (.inr w.1.1.1), shape_blk b (AllB_iff.1 h.2.1).2 (AllB_iff.1 h.2.1).1 w.1.2, shape_cases cs t h.2.2 w.2]
termination_by structural n => n
end

/-- Included files are parsed files. -/
def InclOk (S : Span → Prop) (N : Name → Prop) : Node → Prop
  | .include _ _ (some b) => ∃ S' : Span → Prop, AllL S' N EndsWell b ∧ Peg.inclNames b = []
  | n => n.All S N EndsWell

theorem shapeTop_plain {n : Node} (h : n.All S N EndsWell) (hi : Peg.inclName n = none) (w : n.within true = true) : n.shapedTop = true := by
  cases n with
  | decl _ v e =>
    unfold Node.All at h; unfold Node.within at w; unfold Node.shapedTop
    simp only [Bool.and_eq_true, Bool.not_eq_true'] at w
    simp [w.1.1, shape_node e true h.2.2 w.1.2 (.inr w.1.1)]
  | extern _ _ e =>
    unfold Node.All at h; unfold Node.within at w; unfold Node.shapedTop
    simp only [Bool.and_eq_true, Bool.not_eq_true'] at w
    simp [w.2.1, shape_node e true h.2.2 w.2.2 (.inr w.2.1)]
  | func _ _ _ b =>
    unfold Node.All at h; unfold Node.within at w; unfold Node.shapedTop
    simp only [Bool.and_eq_true] at w
    simp [shape_blk b (AllB_iff.1 h.2.2.2).2 (endsWell_of_fn (AllB_iff.1 h.2.2.2).1) w.2, endsRet_of (AllB_iff.1 h.2.2.2).1]
  | ret => unfold Node.within at w; simp at w
  | «include» => cases hi
  | _ => unfold Node.shapedTop; exact shape_node _ true h w (.inr rfl)

theorem shape_each : ∀ {b : List Node}, AllL S N EndsWell b → Peg.inclNames b = [] → withinL true b = true → shapedEach b = true
  | [], _, _, _ => by unfold shapedEach; rfl
  | n :: ns, h, hi, w => by
    unfold AllL at h; unfold withinL at w; unfold shapedEach
    simp only [Bool.and_eq_true] at w
    cases hn : Peg.inclName n with
    | some x => simp [Peg.inclNames, hn] at hi
    | none =>
      rw [Peg.inclNames, List.filterMap_cons_none hn] at hi
      simp [shapeTop_plain h.1 hn w.1, shape_each h.2 hi w.2]

theorem shapeTop {n : Node} (h : InclOk S N n) (w : n.within true = true) : n.shapedTop = true := by
  cases n with
  | «include» sp x b =>
    unfold Node.within at w
    cases b with
    | none => unfold withinI at w; simp at w
    | some b =>
      unfold withinI at w
      obtain ⟨S', h1, h2⟩ := h
      unfold Node.shapedTop shapedIncl
      exact shape_each h1 h2 (by simpa using w)
  | _ => exact shapeTop_plain (N := N) h rfl w

theorem shapeProgram : ∀ {ast : List Node}, (∀ n ∈ ast, InclOk S N n) → endsWell false ast = true → withinL true ast = true → shapedProgram ast = true
  | [], _, e, _ => by cases e
  | [n], h, e, w => by
    unfold withinL at w; unfold shapedProgram
    simp only [Bool.and_eq_true] at w
    have hs : n.isStatement = false := by
      cases n <;> first | rfl | (cases e; done) | (have := w.1; unfold Node.within at this; simp at this; done)
    have hn := h n (by simp)
    have hn' : n.All S N EndsWell := by cases n <;> first | exact hn | cases hs
    simp [hs, shape_node n true hn' w.1 (.inr hs)]
  | n :: n' :: ns, h, e, w => by
    unfold withinL at w; unfold shapedProgram
    simp only [Bool.and_eq_true] at w
    rw [endsWell_cons n (by simp)] at e
    simp [shapeTop (h n (by simp)) w.1, shapeProgram (ast := n' :: ns) (fun m hm => h m (by simp [hm])) e w.2]

end

open Peg in
/-- The parts of a program with resolved includes are well formed. -/
theorem Spliced.inclOk {W : World} {S : Span → Prop} {N : Name → Prop} {id : Nat} {ast ast' : List Node} (h : Spliced W id ast ast')
    (hn : ∀ id src x, Peg.NameIn id src x → N x) : AllL S N EndsWell ast → (∀ n ∈ ast', InclOk S N n) := by
  induction h with
  | nil => exact fun _ n hn => absurd hn (by simp)
  | @other id n ns ns' hn _ ih =>
    intro ha m hm
    unfold AllL at ha
    rcases List.mem_cons.1 hm with rfl | hm
    · cases m <;> first | exact ha.1 | cases hn
    · exact ih ha.2 m hm
  | @file id sp x xsp b src inc j ns ns' hf hp hi _ ih =>
    intro ha m hm
    unfold AllL at ha
    rcases List.mem_cons.1 hm with rfl | hm
    · have := parseCode_good ⟨id, W.float⟩ src
      rw [hp] at this
      exact ⟨_, AllL_mono (fun _ h => h) (hn _ _) (fun _ _ h => h) this.list, hi⟩
    · exact ih ha.2 m hm

open Peg in
theorem Spliced.ends {W : World} {id : Nat} {ast ast' : List Node} (h : Spliced W id ast ast') : endsWell false ast = true → endsWell false ast' = true := by
  have hne : ∀ {id a b}, Spliced W id a b → (a = [] ↔ b = []) := by
    intro id a b h; cases h <;> simp
  induction h with
  | nil => exact fun h => h
  | @other id n ns ns' hn hs ih =>
    intro h
    by_cases he : ns = []
    · have := (hne hs).1 he; subst he; subst this; exact h
    · rw [endsWell_cons n he] at h
      rw [endsWell_cons n (fun e => he ((hne hs).2 e))]
      exact ih h
  | @file id sp x xsp b src inc j ns ns' hf hp hi hs ih =>
    intro h
    by_cases he : ns = []
    · subst he; cases h
    · rw [endsWell_cons _ he] at h
      rw [endsWell_cons _ (fun e => he ((hne hs).2 e))]
      exact ih h

/-- Programs that were read and are within the compiler's limits are well shaped. -/
theorem shaped_of_parsed {W : Peg.World} {S : Span → Prop} {N : Name → Prop} {id : Nat} {ast ast' : List Node} (ha : AllB S N EndsWell false ast)
    (hn : ∀ id src x, Peg.NameIn id src x → N x) (h : Peg.Spliced W id ast ast') (hc : withinL true ast' = true) : shapedProgram ast' = true :=
  shapeProgram (S := S) (N := N) (Spliced.inclOk h hn ha.list) (Spliced.ends h (AllB_iff.1 ha).1) hc

end Quilt
