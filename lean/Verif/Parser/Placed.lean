import Verif.Parser.Tie
import Verif.Sem.SimTop

/-!
# From parsed programs to the hypotheses of the correctness theorems

What the parser and the compiler guarantee, and the one condition left: declarations stand where the compiler
expects them.
-/

namespace Quilt

mutual
/-- `al` says that no operand of an unfinished expression is on the stack. Declarations, named functions, `for` loops and
variables of `with` occur only where this is so. -/
def Node.placed (al : Bool) : Node → Bool
  | .lit .. | .ident .. | .extern .. | .include .. => true
  | .assign _ _ e => e.placed al
  | .pair _ a b | .range _ a b | .bin _ _ a b => a.placed al && b.placed false
  | .index _ e i => i.placed al && e.placed false
  | .array _ items => placedRev al items
  | .un _ _ e => e.placed al
  | .block _ body => placedL al body
  | .cond _ c th el => c.placed false && placedL al th && placedO al el
  | .switch _ v cs d => v.placed false && placedC al cs && placedO al d
  | .while _ c b => c.placed false && placedL al b
  | .forIn _ _ it b | .forMulti _ _ it b => al && it.placed false && placedL true b
  | .lambda _ _ b => placedL true b
  | .call _ f args => f.placed al && placedArgs false args
  | .builtin _ _ args => placedArgs al args
  | .ctx _ _ args v b => placedArgs al args && (v.isNone || al) && placedL al b
  | .decl _ _ e => al && e.placed al
  | .func _ _ _ b => al && placedL true b
  | .ret _ e => placedE al e
termination_by structural n => n
def placedL (al : Bool) : List Node → Bool
  | [] => true
  | n :: ns => n.placed al && placedL al ns
termination_by structural n => n
/-- Arguments are evaluated left to right. -/
def placedArgs (al : Bool) : List Node → Bool
  | [] => true
  | n :: ns => n.placed al && placedArgs false ns
termination_by structural n => n
/-- Array items are evaluated right to left. -/
def placedRev (al : Bool) : List Node → Bool
  | [] => true
  | n :: ns => placedRev al ns && n.placed (al && ns.isEmpty)
termination_by structural n => n
def placedO (al : Bool) : Option (List Node) → Bool
  | some b => placedL al b
  | none => true
termination_by structural n => n
def placedE (al : Bool) : Option Node → Bool
  | some e => e.placed al
  | none => true
termination_by structural n => n
def placedC (al : Bool) : List (Node × List Node) → Bool
  | [] => true
  | (c, b) :: cs => c.placed false && placedL al b && placedC al cs
termination_by structural n => n
end

/-- At top level. -/
def Node.placedTop : Node → Bool
  | .extern _ _ e => e.placed true
  | .include _ _ (some b) => b.all fun
    | .extern _ _ e => e.placed true
    | n => n.placed true
  | n => n.placed true

section
variable {S : Span → Prop} {N : Name → Prop} (hN : ∀ x : Name, N x → nameOk x.1 = true)
include hN
set_option linter.unusedSectionVars false

mutual
theorem wf_node : ∀ (n : Node) (t al : Bool), n.All S N EndsWell → n.within t = true → (t = false ∨ n.isStatement = false) → n.placed al = true → n.wf al = true
  | .lit .., _, _, _, _, _, _ => by unfold Node.wf; rfl
  | .ident .., t, al, h, _, _, _ => by unfold Node.All at h; unfold Node.wf; exact hN _ h.2
  | .assign _ _ e, t, al, h, w, _, p => by
    unfold Node.All at h; unfold Node.within at w; unfold Node.placed at p; unfold Node.wf
    simp only [Bool.and_eq_true, Bool.not_eq_true'] at w
    simp [hN _ h.2.1, wf_node e t al h.2.2 w.2 (.inr w.1) p]
  | .un _ _ e, t, al, h, w, _, p => by
    unfold Node.All at h; unfold Node.within at w; unfold Node.placed at p; unfold Node.wf
    simp only [Bool.and_eq_true, Bool.not_eq_true'] at w
    exact wf_node e t al h.2 w.2 (.inr w.1) p
  | .decl _ v e, t, al, h, w, _, p => by
    unfold Node.All at h; unfold Node.within at w; unfold Node.placed at p; unfold Node.wf
    simp only [Bool.and_eq_true, Bool.not_eq_true'] at w p
    have hv : v.ok = true := by
      cases v with
      | one x => exact hN _ (h.2.1 x (by simp [Var.names]))
      | many xs => exact List.all_eq_true.2 fun x hx => hN _ (h.2.1 x hx)
    rw [wf_node e t al h.2.2 w.1.2 (.inr w.1.1) p.2, p.1, hv]
    rfl
  | .pair _ a b, t, al, h, w, _, p => by
    unfold Node.All at h; unfold Node.within at w; unfold Node.placed at p; unfold Node.wf
    simp only [Bool.and_eq_true, Bool.not_eq_true'] at w p
    simp [wf_node a t al h.2.1 w.1.2 (.inr w.1.1) p.1, wf_node b t false h.2.2 w.2.2 (.inr w.2.1) p.2]
  | .range _ a b, t, al, h, w, _, p => by
    unfold Node.All at h; unfold Node.within at w; unfold Node.placed at p; unfold Node.wf
    simp only [Bool.and_eq_true, Bool.not_eq_true'] at w p
    simp [wf_node a t al h.2.1 w.1.2 (.inr w.1.1) p.1, wf_node b t false h.2.2 w.2.2 (.inr w.2.1) p.2]
  | .bin _ _ a b, t, al, h, w, _, p => by
    unfold Node.All at h; unfold Node.within at w; unfold Node.placed at p; unfold Node.wf
    simp only [Bool.and_eq_true, Bool.not_eq_true'] at w p
    simp [wf_node a t al h.2.1 w.1.2 (.inr w.1.1) p.1, wf_node b t false h.2.2 w.2.2 (.inr w.2.1) p.2]
  | .index _ a b, t, al, h, w, _, p => by
    unfold Node.All at h; unfold Node.within at w; unfold Node.placed at p; unfold Node.wf
    simp only [Bool.and_eq_true, Bool.not_eq_true'] at w p
    simp [wf_node a t false h.2.1 w.1.2 (.inr w.1.1) p.2, wf_node b t al h.2.2 w.2.2 (.inr w.2.1) p.1]
  | .array _ items, t, al, h, w, _, p => by
    unfold Node.All at h; unfold Node.within at w; unfold Node.placed at p; unfold Node.wf
    simp only [Bool.and_eq_true] at w
    exact wf_rev items t al h.2 w.2 p
  | .block _ b, t, al, h, w, _, p => by
    unfold Node.All at h; unfold Node.within at w; unfold Node.placed at p; unfold Node.wf
    exact wf_blk b al (AllB_iff.1 h.2).2 (AllB_iff.1 h.2).1 w p
  | .cond _ c th el, t, al, h, w, _, p => by
    unfold Node.All at h; unfold Node.within at w; unfold Node.placed at p; unfold Node.wf
    simp only [Bool.and_eq_true, Bool.not_eq_true'] at w p
    simp [wf_node c t false h.2.1 w.1.1.2 (.inr w.1.1.1) p.1.1, wf_blk th al (AllB_iff.1 h.2.2.1).2 (AllB_iff.1 h.2.2.1).1 w.1.2 p.1.2, wf_opt el al h.2.2.2 w.2 p.2]
  | .switch _ v cs d, t, al, h, w, _, p => by
    unfold Node.All at h; unfold Node.within at w; unfold Node.placed at p; unfold Node.wf
    simp only [Bool.and_eq_true, Bool.not_eq_true'] at w p
    simp [wf_node v t false h.2.1 w.1.1.2 (.inr w.1.1.1) p.1.1, wf_cases cs t al h.2.2.1 w.1.2 p.1.2, wf_opt d al h.2.2.2 w.2 p.2]
  | .while _ c b, t, al, h, w, _, p => by
    unfold Node.All at h; unfold Node.within at w; unfold Node.placed at p; unfold Node.wf
    simp only [Bool.and_eq_true, Bool.not_eq_true'] at w p
    simp [wf_node c t false h.2.1 w.1.2 (.inr w.1.1) p.1, wf_blk b al (AllB_iff.1 h.2.2).2 (AllB_iff.1 h.2.2).1 w.2 p.2]
  | .forIn _ x it b, t, al, h, w, _, p => by
    unfold Node.All at h; unfold Node.within at w; unfold Node.placed at p; unfold Node.wf
    simp only [Bool.and_eq_true, Bool.not_eq_true'] at w p
    simp [p.1.1, hN _ h.2.1, wf_node it false false h.2.2.1 w.1.2 (.inr w.1.1) p.1.2, wf_blk b true (AllB_iff.1 h.2.2.2).2 (AllB_iff.1 h.2.2.2).1 w.2 p.2]
  | .forMulti _ xs it b, t, al, h, w, _, p => by
    unfold Node.All at h; unfold Node.within at w; unfold Node.placed at p; unfold Node.wf
    simp only [Bool.and_eq_true, Bool.not_eq_true'] at w p
    have hx : (xs.all fun x => nameOk x.1) = true := List.all_eq_true.2 fun x hx => hN _ (h.2.1 x hx)
    rw [p.1.1, hx, wf_node it false false h.2.2.1 w.1.2.2 (.inr w.1.2.1) p.1.2, wf_blk b true (AllB_iff.1 h.2.2.2).2 (AllB_iff.1 h.2.2.2).1 w.2 p.2]
    rfl
  | .lambda _ ps b, t, al, h, w, _, p => by
    unfold Node.All at h; unfold Node.within at w; unfold Node.placed at p; unfold Node.wf
    simp only [Bool.and_eq_true] at w
    have hx : (ps.all fun x => nameOk x.1) = true := List.all_eq_true.2 fun x hx => hN _ (h.2.1 x hx)
    rw [hx, wf_blk b true (AllB_iff.1 h.2.2).2 (endsWell_of_fn (AllB_iff.1 h.2.2).1) w.2 p]
    rfl
  | .func _ x ps b, t, al, h, w, _, p => by
    unfold Node.All at h; unfold Node.within at w; unfold Node.placed at p; unfold Node.wf
    simp only [Bool.and_eq_true] at w p
    have hx : (ps.all fun x => nameOk x.1) = true := List.all_eq_true.2 fun x hx => hN _ (h.2.2.1 x hx)
    rw [p.1, hN _ h.2.1, hx, wf_blk b true (AllB_iff.1 h.2.2.2).2 (endsWell_of_fn (AllB_iff.1 h.2.2.2).1) w.2 p.2]
    rfl
  | .call _ f args, t, al, h, w, _, p => by
    unfold Node.All at h; unfold Node.within at w; unfold Node.placed at p; unfold Node.wf
    simp only [Bool.and_eq_true, Bool.not_eq_true'] at w p
    simp [wf_node f t al h.2.1 w.1.2.2 (.inr w.1.2.1) p.1, wf_args args t false h.2.2 w.2 p.2]
  | .builtin _ _ args, t, al, h, w, _, p => by
    unfold Node.All at h; unfold Node.within at w; unfold Node.placed at p; unfold Node.wf
    simp only [Bool.and_eq_true] at w
    exact wf_args args t al h.2.2 w.2 p
  | .ctx _ _ args v b, t, al, h, w, _, p => by
    unfold Node.All at h; unfold Node.within at w; unfold Node.placed at p; unfold Node.wf
    simp only [Bool.and_eq_true] at w p
    have hv : varOk v = true := by
      cases v with
      | none => rfl
      | some v =>
        cases v with
        | one x => exact hN _ (h.2.2.2.1 x (by simp [Var.names]))
        | many xs => exact List.all_eq_true.2 fun x hx => hN _ (h.2.2.2.1 x hx)
    rw [wf_args args t al h.2.2.1 w.1.1.2 p.1.1, p.1.2, hv, wf_blk b al (AllB_iff.1 h.2.2.2.2).2 (AllB_iff.1 h.2.2.2.2).1 w.2 p.2]
    rfl
  | .ret _ e, t, al, h, w, ht, p => by
    unfold Node.All at h; unfold Node.within at w; unfold Node.placed at p; unfold Node.wf
    simp only [Bool.and_eq_true] at w
    exact wf_ret e t al h.2 w.2 p
  | .extern .., t, _, _, w, ht, _ => by
    unfold Node.within at w
    simp only [Bool.and_eq_true] at w
    rcases ht with ht | ht
    · rw [ht] at w; exact absurd w.1 (by decide)
    · cases ht
  | .include .., t, _, _, w, ht, _ => by
    unfold Node.within at w
    simp only [Bool.and_eq_true] at w
    rcases ht with ht | ht
    · rw [ht] at w; exact absurd w.1 (by decide)
    · cases ht
termination_by structural n => n
theorem wf_blk : ∀ (b : List Node) (al : Bool), AllL S N EndsWell b → endsWell false b = true → withinL false b = true → placedL al b = true → wfStmts al b = true
  | [], _, _, e, _, _ => by cases e
  | [n], al, h, e, w, p => by
    unfold AllL at h; unfold withinL at w; unfold placedL at p; unfold wfStmts
    simp only [Bool.and_eq_true] at w p
    rw [wf_node n false al h.1 w.1 (.inl rfl) p.1]
    cases n <;> first | rfl | cases e
  | n :: n' :: ns, al, h, e, w, p => by
    unfold AllL at h; unfold withinL at w; unfold placedL at p; unfold wfStmts
    simp only [Bool.and_eq_true] at w p
    rw [endsWell_cons n (by simp)] at e
    simp [wf_node n false al h.1 w.1 (.inl rfl) p.1, wf_blk (n' :: ns) al h.2 e w.2 p.2]
termination_by structural n => n
theorem wf_args : ∀ (ns : List Node) (t al : Bool), AllL S N EndsWell ns → withinA t ns = true → placedArgs al ns = true → wfArgs al ns = true
  | [], _, _, _, _, _ => by unfold wfArgs; rfl
  | n :: ns, t, al, h, w, p => by
    unfold AllL at h; unfold withinA at w; unfold placedArgs at p; unfold wfArgs
    simp only [Bool.and_eq_true, Bool.not_eq_true'] at w p
    simp [wf_node n t al h.1 w.1.2 (.inr w.1.1) p.1, wf_args ns t false h.2 w.2 p.2]
termination_by structural n => n
theorem wf_rev : ∀ (ns : List Node) (t al : Bool), AllL S N EndsWell ns → withinA t ns = true → placedRev al ns = true → wfRev al ns = true
  | [], _, _, _, _, _ => by unfold wfRev; rfl
  | n :: ns, t, al, h, w, p => by
    unfold AllL at h; unfold withinA at w; unfold placedRev at p; unfold wfRev
    simp only [Bool.and_eq_true, Bool.not_eq_true'] at w p
    rw [wf_node n t _ h.1 w.1.2 (.inr w.1.1) p.2, wf_rev ns t al h.2 w.2 p.1]
    rfl
termination_by structural n => n
theorem wf_opt : ∀ (b : Option (List Node)) (al : Bool), AllO S N EndsWell b → withinO false b = true → placedO al b = true → wfOpt al b = true
  | some b, al, h, w, p => by
    unfold AllO at h; unfold withinO at w; unfold placedO at p; unfold wfOpt
    exact wf_blk b al (AllB_iff.1 h).2 (AllB_iff.1 h).1 w p
  | none, _, _, _, _ => by unfold wfOpt; rfl
termination_by structural n => n
theorem wf_ret : ∀ (e : Option Node) (t al : Bool), AllE S N EndsWell e → withinE t e = true → placedE al e = true → wfRet al e = true
  | some e, t, al, h, w, p => by
    unfold AllE at h; unfold withinE at w; unfold placedE at p; unfold wfRet
    simp only [Bool.and_eq_true, Bool.not_eq_true'] at w
    exact wf_node e t al h w.2 (.inr w.1) p
  | none, _, _, _, _, _ => by unfold wfRet; rfl
termination_by structural n => n
theorem wf_cases : ∀ (cs : List (Node × List Node)) (t al : Bool), AllC S N EndsWell cs → withinC t cs = true → placedC al cs = true → wfCases al cs = true
  | [], _, _, _, _, _ => by unfold wfCases; rfl
  | (c, b) :: cs, t, al, h, w, p => by
    unfold AllC at h; unfold withinC at w; unfold placedC at p; unfold wfCases
    simp only [Bool.and_eq_true, Bool.not_eq_true'] at w p
    simp [wf_node c t false h.1 w.1.1.2 (.inr w.1.1.1) p.1.1, wf_blk b al (AllB_iff.1 h.2.1).2 (AllB_iff.1 h.2.1).1 w.1.2 p.1.2, wf_cases cs t al h.2.2 w.2 p.2]
termination_by structural n => n
end

theorem wfTop_plain {n : Node} (h : n.All S N EndsWell) (hi : Peg.inclName n = none) (w : n.within true = true) (p : n.placedTop = true) : n.wfTop = true := by
  cases n with
  | decl _ v e =>
    unfold Node.placedTop Node.placed at p
    unfold Node.All at h; unfold Node.within at w; unfold Node.wfTop
    simp only [Bool.and_eq_true, Bool.not_eq_true'] at w p
    have hv : v.ok = true := by
      cases v with
      | one x => exact hN _ (h.2.1 x (by simp [Var.names]))
      | many xs => exact List.all_eq_true.2 fun x hx => hN _ (h.2.1 x hx)
    simp [hv, wf_node hN e true true h.2.2 w.1.2 (.inr w.1.1) p.2]
  | extern _ x e =>
    unfold Node.placedTop at p
    unfold Node.All at h; unfold Node.within at w; unfold Node.wfTop
    simp only [Bool.and_eq_true, Bool.not_eq_true'] at w
    simp [hN _ h.2.1, wf_node hN e true true h.2.2 w.2.2 (.inr w.2.1) p]
  | func _ x ps b =>
    unfold Node.placedTop Node.placed at p
    unfold Node.All at h; unfold Node.within at w; unfold Node.wfTop
    simp only [Bool.and_eq_true] at w p
    have hx : (ps.all fun x => nameOk x.1) = true := List.all_eq_true.2 fun x hx => hN _ (h.2.2.1 x hx)
    rw [hN _ h.2.1, hx, wf_blk hN b true (AllB_iff.1 h.2.2.2).2 (endsWell_of_fn (AllB_iff.1 h.2.2.2).1) w.2 p.2]
    rfl
  | ret => unfold Node.within at w; simp at w
  | «include» => cases hi
  | _ => unfold Node.placedTop at p; unfold Node.wfTop; exact wf_node hN _ true true h w (.inr rfl) p

theorem wf_each : ∀ {b : List Node}, AllL S N EndsWell b → Peg.inclNames b = [] → withinL true b = true → (∀ n ∈ b, n.placedTop = true) → wfEach b = true
  | [], _, _, _, _ => by unfold wfEach; rfl
  | n :: ns, h, hi, w, p => by
    unfold AllL at h; unfold withinL at w; unfold wfEach
    simp only [Bool.and_eq_true] at w
    cases hn : Peg.inclName n with
    | some x => simp [Peg.inclNames, hn] at hi
    | none =>
      rw [Peg.inclNames, List.filterMap_cons_none hn] at hi
      rw [wfTop_plain hN h.1 hn w.1 (p n (by simp)), wf_each h.2 hi w.2 fun m hm => p m (by simp [hm])]
      rfl

theorem wfTop_of {n : Node} (h : InclOk S N n) (w : n.within true = true) (p : n.placedTop = true) : n.wfTop = true := by
  cases n with
  | «include» sp x b =>
    unfold Node.within at w
    cases b with
    | none => unfold withinI at w; simp at w
    | some b =>
      unfold withinI at w
      obtain ⟨S', h1, h2⟩ := h
      unfold Node.placedTop at p
      unfold Node.wfTop wfIncl
      refine wf_each hN h1 h2 (by simpa using w) fun n hn => ?_
      have hp := List.all_eq_true.1 p n hn
      cases hn' : Peg.inclName n with
      | some x => exact absurd (List.mem_filterMap.2 ⟨n, hn, hn'⟩) (by rw [show b.filterMap Peg.inclName = [] from h2]; simp)
      | none => cases n <;> first | exact hp | cases hn'
  | _ => exact wfTop_plain hN (S := S) h rfl w p

theorem wfProgram_of : ∀ {ast : List Node}, (∀ n ∈ ast, InclOk S N n) → endsWell false ast = true → withinL true ast = true → (∀ n ∈ ast, n.placedTop = true) → wfProgram ast = true
  | [], _, e, _, _ => by cases e
  | [n], h, e, w, p => by
    unfold withinL at w; unfold wfProgram
    simp only [Bool.and_eq_true] at w
    have hs : n.isStatement = false := by
      cases n <;> first | rfl | (cases e; done) | (have := w.1; unfold Node.within at this; simp at this; done)
    simp [hs, wfTop_of hN (h n (by simp)) w.1 (p n (by simp))]
  | n :: n' :: ns, h, e, w, p => by
    unfold withinL at w; unfold wfProgram
    simp only [Bool.and_eq_true] at w
    rw [endsWell_cons n (by simp)] at e
    simp [wfTop_of hN (h n (by simp)) w.1 (p n (by simp)), wfProgram_of (ast := n' :: ns) (fun m hm => h m (by simp [hm])) e w.2 fun m hm => p m (by simp [hm])]

end

theorem nameOk_ident {x : String} (h : Peg.IsIdent x) : nameOk x = true := by
  obtain ⟨c, cs, rfl, h1, _, _⟩ := h
  unfold nameOk isTemp
  rw [String.toList_ofList]
  simp only [List.head?_cons]
  cases hc : c == '#' with
  | true => rw [eq_of_beq hc] at h1; exact absurd h1 (by decide)
  | false =>
    have : c ≠ '#' := by simpa using hc
    simp [this]

/-- Programs that were read and are within the compiler's limits are well formed if their declarations are placed well. -/
theorem wf_of_parsed {W : Peg.World} {k : Nat} {name : String} {T : List Char} {c c' : Peg.Cache} {ast : List Node}
    (h : Peg.parseWithIncludes W k name T c = (.ok ast, c')) (hc : withinL true ast = true) (hp : ∀ n ∈ ast, n.placedTop = true) : wfProgram ast = true := by
  cases k with
  | zero => unfold Peg.parseWithIncludes at h; cases h
  | succ k =>
    unfold Peg.parseWithIncludes at h
    obtain ⟨ast0, c1, h1, h2⟩ := Peg.IM.bind_ok.1 h
    obtain ⟨⟨j, h3⟩, rfl⟩ := Peg.addParse_ok.1 h1
    have h4 := Peg.parseCode_good ⟨c.sources.length, W.float⟩ T
    rw [h3] at h4
    have h5 : AllL (Peg.SpanIn c.sources.length T) (fun x => nameOk x.1 = true) EndsWell ast0 := AllL_mono (fun _ h => h) (fun x h => nameOk_ident h.1) (fun _ _ h => h) h4.list
    have hs := (Peg.each_spliced h2).1
    exact wfProgram_of (N := fun x => nameOk x.1 = true) (fun _ h => h) (Spliced.inclOk hs (fun _ _ x h => nameOk_ident h.1) h5) (Spliced.ends hs (AllB_iff.1 h4).1) hc hp

end Quilt
