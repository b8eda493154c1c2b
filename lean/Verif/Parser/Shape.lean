import Verif.Parser.Implicit

/-!
# Spans and bodies of syntax trees

and what `add_implicit_none` does to them.
-/

namespace Quilt

/-- The names of a variable. -/
def Var.names : Option Var → List Name
  | some (.one x) => [x]
  | some (.many xs) => xs
  | none => []

/-- The last statement is a `return`, or an expression if this is not the body of a function. -/
def endsWell (isFn : Bool) : List Node → Bool
  | [] => false
  | [.ret ..] => true
  | [n] => !isFn && !n.isStatement
  | _ :: n :: ns => endsWell isFn (n :: ns)

section
variable (S : Span → Prop) (N : Name → Prop) (B : Bool → List Node → Prop)

mutual
/-- All spans in the syntax tree satisfy `S`, all names `N`, all bodies satisfy `B` (`B true` for bodies of functions);
operators stand where they can (the grammar has a binary `~`). Included files are not considered. -/
def Node.All : Node → Prop
  | .lit sp _ => S sp
  | .ident sp x => S sp ∧ N (x, sp)
  | .array sp es => S sp ∧ AllL es
  | .pair sp a b | .range sp a b | .index sp a b => S sp ∧ a.All ∧ b.All
  | .bin sp op a b => (S sp ∧ (op.isUnary = true → op = .bitNot)) ∧ a.All ∧ b.All
  | .decl sp v e => S sp ∧ (∀ x ∈ Var.names (some v), N x) ∧ e.All
  | .extern sp x e | .assign sp x e => S sp ∧ N x ∧ e.All
  | .func sp x ps b => S sp ∧ N x ∧ (∀ x ∈ ps, N x) ∧ AllB true b
  | .lambda sp ps b => S sp ∧ (∀ x ∈ ps, N x) ∧ AllB true b
  | .block sp b => S sp ∧ AllB false b
  | .cond sp c th el => S sp ∧ c.All ∧ AllB false th ∧ AllO el
  | .switch sp v cs d => S sp ∧ v.All ∧ AllC cs ∧ AllO d
  | .forIn sp x it b => S sp ∧ N x ∧ it.All ∧ AllB false b
  | .forMulti sp xs it b => S sp ∧ (∀ x ∈ xs, N x) ∧ it.All ∧ AllB false b
  | .while sp c b => S sp ∧ c.All ∧ AllB false b
  | .un sp op e => (S sp ∧ op.isUnary = true) ∧ e.All
  | .call sp f args => S sp ∧ f.All ∧ AllL args
  | .builtin sp x args => S sp ∧ N x ∧ AllL args
  | .ctx sp x args v b => S sp ∧ N x ∧ AllL args ∧ (∀ x ∈ Var.names v, N x) ∧ AllB false b
  | .include sp x b => S sp ∧ S x.2 ∧ b = none
  | .ret sp e => S sp ∧ AllE e
termination_by structural n => n
def AllL : List Node → Prop
  | [] => True
  | n :: ns => n.All ∧ AllL ns
termination_by structural n => n
/-- A body. -/
def AllB (isFn : Bool) : List Node → Prop
  | [] => B isFn []
  | n :: ns => B isFn (n :: ns) ∧ n.All ∧ AllL ns
termination_by structural n => n
def AllO : Option (List Node) → Prop
  | some b => AllB false b
  | none => True
termination_by structural n => n
def AllE : Option Node → Prop
  | some e => e.All
  | none => True
termination_by structural n => n
def AllC : List (Node × List Node) → Prop
  | [] => True
  | (c, b) :: cs => c.All ∧ AllB false b ∧ AllC cs
termination_by structural n => n
end

variable {S N B}

theorem AllB_iff {isFn : Bool} {b : List Node} : AllB S N B isFn b ↔ B isFn b ∧ AllL S N B b := by
  cases b <;> simp [AllB, AllL]

theorem AllL_iff {ns : List Node} : AllL S N B ns ↔ ∀ n ∈ ns, n.All S N B := by
  induction ns with
  | nil => simp [AllL]
  | cons n ns ih => simp [AllL, ih]

theorem AllC_iff {cs : List (Node × List Node)} : AllC S N B cs ↔ ∀ c ∈ cs, c.1.All S N B ∧ AllB S N B false c.2 := by
  induction cs with
  | nil => simp [AllC]
  | cons c cs ih => obtain ⟨c, b⟩ := c; simp [AllC, ih, and_assoc]

theorem Node.All.span {n : Node} (h : n.All S N B) : S n.span := by
  cases n <;> unfold Node.All at h <;> first | exact h | exact h.1 | exact h.1.1

theorem AllB.list {isFn : Bool} {b : List Node} (h : AllB S N B isFn b) : AllL S N B b := (AllB_iff.1 h).2

end

/-- Bodies end well. -/
abbrev EndsWell (isFn : Bool) (b : List Node) : Prop := endsWell isFn b = true

theorem endsWell_cons {isFn : Bool} (n : Node) {ns : List Node} (h : ns ≠ []) : endsWell isFn (n :: ns) = endsWell isFn ns := by
  cases ns with
  | nil => exact absurd rfl h
  | cons m ms => cases n <;> rfl

theorem addImplicitLast_ne (isFn : Bool) (n : Node) : addImplicitLast isFn n ≠ [] := by
  cases n <;> simp [addImplicitLast]

theorem addImplicit_ne (isFn : Bool) (sp : Span) : ∀ b : List Node, addImplicitNone isFn sp b ≠ []
  | [] => by simp [addImplicitNone]
  | [n] => by unfold addImplicitNone; exact addImplicitLast_ne isFn n
  | n :: n' :: ns => by simp [addImplicitNone]

theorem endsWell_end (isFn : Bool) (sp : Span) : endsWell isFn [implicitEnd isFn sp] = true := by
  cases isFn <;> rfl

theorem endsWell_returnLast {isFn : Bool} {n : Node} (h : n.isStatement = false) : endsWell isFn [returnLast isFn n] = true := by
  cases isFn with
  | true => rfl
  | false => cases n <;> first | rfl | cases h

theorem endsWell_last (isFn : Bool) (n : Node) : endsWell isFn (addImplicitLast isFn n) = true := by
  cases n <;> unfold addImplicitLast <;> first
    | rfl
    | exact endsWell_returnLast rfl
    | exact (endsWell_cons _ (by simp)).trans (endsWell_end _ _)

/-- Afterwards bodies end well. -/
theorem endsWell_add (isFn : Bool) (sp : Span) : ∀ b : List Node, endsWell isFn (addImplicitNone isFn sp b) = true
  | [] => by unfold addImplicitNone; exact endsWell_end isFn sp
  | [n] => by unfold addImplicitNone; exact endsWell_last isFn n
  | n :: n' :: ns => by
    unfold addImplicitNone
    rw [endsWell_cons n (addImplicit_ne isFn sp _)]
    exact endsWell_add isFn sp (n' :: ns)

/-- Closing a body: an empty one gets `none` or `return`, a final `return` stays, another final statement is followed
by `none` or `return`, a final expression is returned by functions. -/
def closeBody (isFn : Bool) (sp : Span) (b : List Node) : List Node :=
  match b.getLast? with
  | none => [implicitEnd isFn sp]
  | some (.ret ..) => b
  | some n => if n.isStatement then b ++ [implicitEnd isFn n.span] else b.dropLast ++ [returnLast isFn n]

section
variable {S : Span → Prop} {N : Name → Prop}

mutual
/-- On bodies whose inner bodies end well only the end of the body itself changes. -/
theorem addImplicit_eq (isFn : Bool) (sp : Span) : ∀ b : List Node, AllL S N EndsWell b → addImplicitNone isFn sp b = closeBody isFn sp b
  | [], _ => by unfold addImplicitNone; rfl
  | [n], h => by
    unfold addImplicitNone
    unfold AllL at h
    exact addImplicitLast_eq isFn sp n h.1
  | n :: n' :: ns, h => by
    unfold AllL at h
    unfold addImplicitNone
    rw [addImplicit_eq isFn sp (n' :: ns) h.2]
    simp only [closeBody, List.getLast?_cons_cons]
    cases hl : (n' :: ns).getLast? with
    | none => simp at hl
    | some m => cases m <;> simp [Node.isStatement]
termination_by structural n => n
theorem addImplicitLast_eq (isFn : Bool) (sp : Span) : ∀ n : Node, n.All S N EndsWell → addImplicitLast isFn n = closeBody isFn sp [n]
  | .block sp b, h => by
    unfold Node.All at h
    unfold addImplicitLast
    rw [addImplicit_id sp b h.2]; rfl
  | .cond sp c th el, h => by
    unfold Node.All at h
    unfold addImplicitLast
    rw [addImplicit_id sp th h.2.2.1, addImplicitOpt_id sp el h.2.2.2]; rfl
  | .forIn sp x it b, h => by
    unfold Node.All at h
    unfold addImplicitLast
    rw [addImplicit_id sp b h.2.2.2]; rfl
  | .forMulti sp xs it b, h => by
    unfold Node.All at h
    unfold addImplicitLast
    rw [addImplicit_id sp b h.2.2.2]; rfl
  | .while sp c b, h => by
    unfold Node.All at h
    unfold addImplicitLast
    rw [addImplicit_id sp b h.2.2]; rfl
  | .ctx sp x args v b, h => by
    unfold Node.All at h
    unfold addImplicitLast
    rw [addImplicit_id sp b h.2.2.2.2]; rfl
  | .ret .., h | .decl .., h | .extern .., h | .func .., h | .include .., h | .lit .., h | .array .., h | .pair .., h | .range .., h
  | .ident .., h | .assign .., h | .lambda .., h | .switch .., h | .bin .., h | .un .., h | .call .., h | .builtin .., h | .index .., h => by
    unfold addImplicitLast; rfl
termination_by structural n => n
theorem addImplicit_id (sp : Span) : ∀ b : List Node, AllB S N EndsWell false b → addImplicitNone false sp b = b
  | [], h => by unfold AllB at h; cases h
  | [n], h => by
    unfold AllB at h
    unfold addImplicitNone
    rw [addImplicitLast_eq false sp n h.2.1]
    have h1 := h.1
    cases n <;> first | rfl | cases h1
  | n :: n' :: ns, h => by
    unfold AllB at h
    unfold addImplicitNone
    have h1 := h.1
    have h2 := h.2.2
    unfold AllL at h2
    rw [addImplicit_id sp (n' :: ns) (by unfold AllB; exact ⟨by rw [EndsWell, endsWell_cons n (by simp)] at h1; exact h1, h2⟩)]
termination_by structural n => n
theorem addImplicitOpt_id (sp : Span) : ∀ b : Option (List Node), AllO S N EndsWell b → addImplicitOpt sp b = b
  | some b, h => by unfold AllO at h; unfold addImplicitOpt; rw [addImplicit_id sp b h]
  | none, _ => by unfold addImplicitOpt; rfl
termination_by structural n => n
end

theorem All_end {B : Bool → List Node → Prop} {isFn : Bool} {sp : Span} (h : S sp) : (implicitEnd isFn sp).All S N B := by
  cases isFn <;> simp [implicitEnd, Node.All, AllE, h]

theorem All_returnLast {B : Bool → List Node → Prop} {isFn : Bool} {n : Node} (h : n.All S N B) : (returnLast isFn n).All S N B := by
  cases isFn
  · exact h
  · simp only [returnLast, if_true, Node.All, AllE]; exact ⟨h.span, h⟩

theorem closeBody_all {B : Bool → List Node → Prop} {isFn : Bool} {sp : Span} {b : List Node} (hs : S sp) (h : AllL S N B b) : AllL S N B (closeBody isFn sp b) := by
  rw [AllL_iff] at h ⊢
  unfold closeBody
  intro n hn
  cases hl : b.getLast? with
  | none => simp only [hl, List.mem_singleton] at hn; subst hn; exact All_end hs
  | some m =>
    have hm : m ∈ b := List.mem_of_getLast? hl
    have hm' := h m hm
    have key : n ∈ b ++ [implicitEnd isFn m.span] ∨ n ∈ b.dropLast ++ [returnLast isFn m] := by
      rw [hl] at hn
      cases m <;> simp only [Node.isStatement, if_true, Bool.false_eq_true, if_false] at hn <;> first | exact .inl hn | exact .inr hn | exact .inl (by simp [hn])
    rcases key with key | key <;> simp only [List.mem_append, List.mem_singleton] at key <;> rcases key with key | rfl
    · exact h n key
    · exact All_end hm'.span
    · exact h n (List.dropLast_subset _ key)
    · exact All_returnLast hm'

/-- The bodies the parser makes. -/
theorem addImplicit_all {isFn : Bool} {sp : Span} {b : List Node} (hs : S sp) (h : AllL S N EndsWell b) : AllB S N EndsWell isFn (addImplicitNone isFn sp b) :=
  AllB_iff.2 ⟨endsWell_add isFn sp b, by rw [addImplicit_eq isFn sp b h]; exact closeBody_all hs h⟩

end

theorem addImplicit_ret (isFn : Bool) (sp s : Span) (e : Option Node) : ∀ u : List Node, addImplicitNone isFn sp (u ++ [.ret s e]) = u ++ [.ret s e]
  | [] => by simp [addImplicitNone, addImplicitLast]
  | [n] => by simp [addImplicitNone, addImplicitLast]
  | n :: n' :: u => by
    have := addImplicit_ret isFn sp s e (n' :: u)
    simp only [List.cons_append] at this ⊢
    unfold addImplicitNone
    rw [this]

theorem addImplicit_lit (sp s : Span) : ∀ u : List Node, addImplicitNone false sp (u ++ [.lit s .none]) = u ++ [.lit s .none]
  | [] => by simp [addImplicitNone, addImplicitLast, returnLast]
  | [n] => by simp [addImplicitNone, addImplicitLast, returnLast]
  | n :: n' :: u => by
    have := addImplicit_lit sp s (n' :: u)
    simp only [List.cons_append] at this ⊢
    unfold addImplicitNone
    rw [this]

section
variable {S S' : Span → Prop} {N N' : Name → Prop} {B B' : Bool → List Node → Prop} (hs : ∀ sp, S sp → S' sp) (hn : ∀ x, N x → N' x) (hb : ∀ f b, B f b → B' f b)
set_option linter.unusedSectionVars false
include hs hn hb

mutual
/-- Weaker properties. -/
theorem Node.All_mono : ∀ n : Node, n.All S N B → n.All S' N' B'
  | .lit .., h => by unfold Node.All at h ⊢; exact hs _ h
  | .ident .., h => by unfold Node.All at h ⊢; exact ⟨hs _ h.1, hn _ h.2⟩
  | .array _ es, h => by unfold Node.All at h ⊢; exact ⟨hs _ h.1, AllL_mono' es h.2⟩
  | .pair _ a b, h => by unfold Node.All at h ⊢; exact ⟨hs _ h.1, Node.All_mono a h.2.1, Node.All_mono b h.2.2⟩
  | .range _ a b, h => by unfold Node.All at h ⊢; exact ⟨hs _ h.1, Node.All_mono a h.2.1, Node.All_mono b h.2.2⟩
  | .bin _ _ a b, h => by unfold Node.All at h ⊢; exact ⟨⟨hs _ h.1.1, h.1.2⟩, Node.All_mono a h.2.1, Node.All_mono b h.2.2⟩
  | .index _ a b, h => by unfold Node.All at h ⊢; exact ⟨hs _ h.1, Node.All_mono a h.2.1, Node.All_mono b h.2.2⟩
  | .decl _ v e, h => by unfold Node.All at h ⊢; exact ⟨hs _ h.1, fun x hx => hn _ (h.2.1 x hx), Node.All_mono e h.2.2⟩
  | .extern _ x e, h => by unfold Node.All at h ⊢; exact ⟨hs _ h.1, hn _ h.2.1, Node.All_mono e h.2.2⟩
  | .assign _ x e, h => by unfold Node.All at h ⊢; exact ⟨hs _ h.1, hn _ h.2.1, Node.All_mono e h.2.2⟩
  | .func _ x ps b, h => by unfold Node.All at h ⊢; exact ⟨hs _ h.1, hn _ h.2.1, fun x hx => hn _ (h.2.2.1 x hx), AllB_mono true b h.2.2.2⟩
  | .lambda _ ps b, h => by unfold Node.All at h ⊢; exact ⟨hs _ h.1, fun x hx => hn _ (h.2.1 x hx), AllB_mono true b h.2.2⟩
  | .block _ b, h => by unfold Node.All at h ⊢; exact ⟨hs _ h.1, AllB_mono false b h.2⟩
  | .cond _ c th el, h => by unfold Node.All at h ⊢; exact ⟨hs _ h.1, Node.All_mono c h.2.1, AllB_mono false th h.2.2.1, AllO_mono el h.2.2.2⟩
  | .switch _ v cs d, h => by unfold Node.All at h ⊢; exact ⟨hs _ h.1, Node.All_mono v h.2.1, AllC_mono cs h.2.2.1, AllO_mono d h.2.2.2⟩
  | .forIn _ x it b, h => by unfold Node.All at h ⊢; exact ⟨hs _ h.1, hn _ h.2.1, Node.All_mono it h.2.2.1, AllB_mono false b h.2.2.2⟩
  | .forMulti _ xs it b, h => by unfold Node.All at h ⊢; exact ⟨hs _ h.1, fun x hx => hn _ (h.2.1 x hx), Node.All_mono it h.2.2.1, AllB_mono false b h.2.2.2⟩
  | .while _ c b, h => by unfold Node.All at h ⊢; exact ⟨hs _ h.1, Node.All_mono c h.2.1, AllB_mono false b h.2.2⟩
  | .un _ _ e, h => by unfold Node.All at h ⊢; exact ⟨⟨hs _ h.1.1, h.1.2⟩, Node.All_mono e h.2⟩
  | .call _ f args, h => by unfold Node.All at h ⊢; exact ⟨hs _ h.1, Node.All_mono f h.2.1, AllL_mono' args h.2.2⟩
  | .builtin _ x args, h => by unfold Node.All at h ⊢; exact ⟨hs _ h.1, hn _ h.2.1, AllL_mono' args h.2.2⟩
  | .ctx _ x args v b, h => by unfold Node.All at h ⊢; exact ⟨hs _ h.1, hn _ h.2.1, AllL_mono' args h.2.2.1, fun x hx => hn _ (h.2.2.2.1 x hx), AllB_mono false b h.2.2.2.2⟩
  | .include _ x _, h => by unfold Node.All at h ⊢; exact ⟨hs _ h.1, hs _ h.2.1, h.2.2⟩
  | .ret _ e, h => by unfold Node.All at h ⊢; exact ⟨hs _ h.1, AllE_mono e h.2⟩
termination_by structural n => n
theorem AllL_mono' : ∀ ns : List Node, AllL S N B ns → AllL S' N' B' ns
  | [], _ => by unfold AllL; trivial
  | n :: ns, h => by unfold AllL at h ⊢; exact ⟨Node.All_mono n h.1, AllL_mono' ns h.2⟩
termination_by structural n => n
theorem AllB_mono (isFn : Bool) : ∀ ns : List Node, AllB S N B isFn ns → AllB S' N' B' isFn ns
  | [], h => by unfold AllB at h ⊢; exact hb _ _ h
  | n :: ns, h => by unfold AllB at h ⊢; exact ⟨hb _ _ h.1, Node.All_mono n h.2.1, AllL_mono' ns h.2.2⟩
termination_by structural n => n
theorem AllO_mono : ∀ b : Option (List Node), AllO S N B b → AllO S' N' B' b
  | some b, h => by unfold AllO at h ⊢; exact AllB_mono false b h
  | none, _ => by unfold AllO; trivial
termination_by structural n => n
theorem AllE_mono : ∀ e : Option Node, AllE S N B e → AllE S' N' B' e
  | some e, h => by unfold AllE at h ⊢; exact Node.All_mono e h
  | none, _ => by unfold AllE; trivial
termination_by structural n => n
theorem AllC_mono : ∀ cs : List (Node × List Node), AllC S N B cs → AllC S' N' B' cs
  | [], _ => by unfold AllC; trivial
  | (c, b) :: cs, h => by unfold AllC at h ⊢; exact ⟨Node.All_mono c h.1, AllB_mono false b h.2.1, AllC_mono cs h.2.2⟩
termination_by structural n => n
end

theorem AllL_mono {ns : List Node} (h : AllL S N B ns) : AllL S' N' B' ns := AllL_mono' hs hn hb ns h

end

end Quilt
