import Verif.Sem.Compare
import Verif.Sem.Finish
import Verif.Parser.Nest

/-!
# Programs that compare no functions: from the nodes of the program
-/

namespace Quilt

open Peg

/-- Neither a function (if not `t`), nor a comparison or `switch` (if `t`). -/
def Node.safe (t : Bool) : Node → Bool
  | .func .. | .lambda .. => t
  | .switch .. => !t
  | .bin _ op _ _ => !t || !(op == .eq || op == .neq)
  | _ => true

mutual
theorem tame_of (t : Bool) (h : Node → Prop) (hw : ∀ n, h n → n.safe t = true) : ∀ n : Node, (∀ m ∈ n.subs, h m) → n.tame t = true
  | .lit .., _ | .ident .., _ => rfl
  | .assign _ _ e, hs | .un _ _ e, hs | .decl _ _ e, hs | .extern _ _ e, hs => by unfold Node.tame; exact tame_of t h hw e fun m hm => hs m (by simp [Node.subs, hm])
  | .pair _ a b, hs | .range _ a b, hs | .index _ a b, hs => by
    unfold Node.tame; rw [tame_of t h hw a fun m hm => hs m (by simp [Node.subs, hm]), tame_of t h hw b fun m hm => hs m (by simp [Node.subs, hm])]; rfl
  | .bin sp op a b, hs => by
    unfold Node.tame; rw [tame_of t h hw a fun m hm => hs m (by simp [Node.subs, hm]), tame_of t h hw b fun m hm => hs m (by simp [Node.subs, hm])]
    have := hw _ (hs _ (Node.self_subs _))
    simp only [Node.safe] at this
    cases t with
    | false => rfl
    | true =>
      rw [Bool.not_true, Bool.false_or] at this ⊢
      rw [this]; simp
  | .lambda _ _ b, hs | .func _ _ _ b, hs => by
    unfold Node.tame
    rw [tameL_of t h hw b fun m hm => hs m (by simp [Node.subs, hm]), Bool.and_true]
    exact hw _ (hs _ (Node.self_subs _))
  | .array _ b, hs | .block _ b, hs | .builtin _ _ b, hs => by unfold Node.tame; exact tameL_of t h hw b fun m hm => hs m (by simp [Node.subs, hm])
  | .cond _ c th el, hs => by
    unfold Node.tame
    rw [tame_of t h hw c fun m hm => hs m (by simp [Node.subs, hm]), tameL_of t h hw th fun m hm => hs m (by simp [Node.subs, hm]), tameO_of t h hw el fun m hm => hs m (by simp [Node.subs, hm])]; rfl
  | .switch _ v cs d, hs => by
    unfold Node.tame
    rw [tame_of t h hw v fun m hm => hs m (by simp [Node.subs, hm]), tameC_of t h hw cs (by have := hw _ (hs _ (Node.self_subs _)); simpa [Node.safe] using this) (fun m hm => hs m (by simp [Node.subs, hm])), tameO_of t h hw d fun m hm => hs m (by simp [Node.subs, hm])]; rfl
  | .while _ it b, hs | .forIn _ _ it b, hs | .forMulti _ _ it b, hs => by
    unfold Node.tame; rw [tame_of t h hw it fun m hm => hs m (by simp [Node.subs, hm]), tameL_of t h hw b fun m hm => hs m (by simp [Node.subs, hm])]; rfl
  | .call _ f args, hs => by unfold Node.tame; rw [tame_of t h hw f fun m hm => hs m (by simp [Node.subs, hm]), tameL_of t h hw args fun m hm => hs m (by simp [Node.subs, hm])]; rfl
  | .ctx _ _ args _ b, hs => by unfold Node.tame; rw [tameL_of t h hw args fun m hm => hs m (by simp [Node.subs, hm]), tameL_of t h hw b fun m hm => hs m (by simp [Node.subs, hm])]; rfl
  | .ret _ e, hs => by
    unfold Node.tame
    cases e with
    | none => rfl
    | some e => unfold tameR; exact tame_of t h hw e fun m hm => hs m (by simp [Node.subs, subsE, hm])
  | .include _ _ b, hs => by unfold Node.tame; exact tameO_of t h hw b fun m hm => hs m (by simp [Node.subs, hm])
termination_by structural n => n
theorem tameL_of (t : Bool) (h : Node → Prop) (hw : ∀ n, h n → n.safe t = true) : ∀ ns : List Node, (∀ m ∈ subsL ns, h m) → tameL t ns = true
  | [], _ => rfl
  | n :: ns, hs => by unfold tameL; rw [tame_of t h hw n fun m hm => hs m (by simp [subsL, hm]), tameL_of t h hw ns fun m hm => hs m (by simp [subsL, hm])]; rfl
termination_by structural n => n
theorem tameO_of (t : Bool) (h : Node → Prop) (hw : ∀ n, h n → n.safe t = true) : ∀ o : Option (List Node), (∀ m ∈ subsO o, h m) → tameO t o = true
  | none, _ => rfl
  | some b, hs => by unfold tameO; exact tameL_of t h hw b fun m hm => hs m (by simp [subsO, hm])
termination_by structural n => n
theorem tameC_of (t : Bool) (h : Node → Prop) (hw : ∀ n, h n → n.safe t = true) : ∀ cs : List (Node × List Node), t = false → (∀ m ∈ subsC cs, h m) → ∀ p, tameC t p cs = true
  | [], _, _, _ => rfl
  | (c, b) :: cs, ht, hs, p => by
    unfold tameC
    rw [tame_of t h hw c fun m hm => hs m (by simp [subsC, hm]), tameL_of t h hw b fun m hm => hs m (by simp [subsC, hm]), tameC_of t h hw cs ht (fun m hm => hs m (by simp [subsC, hm])) p, ht]; rfl
termination_by structural n => n
end


variable {D : Type}

/-- Prepared hosts and states contain no functions at all. -/
theorem Prepared.fine {t : Bool} {M : Machine.Setup D} {data : D} {script : Script} {S : SHost D} {σ : SSt D} {m : Machine D} (h : Prepared M data script S σ m) :
    S.lim = M.opts.lim ∧ (∀ x, FineB t (S.builtins x) S.lim) ∧ FineSt t σ := by
  have plain : ∀ {v : SVal} {w : VVal}, PlainVal v w → Fine t v := fun {v w} h => Only.ofV v w (Val.Rel.mono (fun _ _ h => h.elim) h)
  have glob : ∀ {σ : SSt D} {x : String} {v : SVal}, FineSt t σ → Fine t v → FineSt t { σ with globals := updName σ.globals x (some v) } := by
    intro σ x v hs hv
    refine ⟨hs.1, fun y w hw => ?_⟩
    replace hw : (if y = x then some v else σ.globals y) = some w := hw
    split at hw
    · cases hw; exact hv
    · exact hs.2 y w hw
  induction h with
  | new => exact ⟨rfl, fun _ => trivial, fun _ => trivial, fun _ _ h => by simp at h⟩
  | @builtin S σ m x b b' _ hb ih =>
    refine ⟨ih.1, fun y => ?_, ih.2.2⟩
    show FineB t (if y = x then some b else S.builtins y) S.lim
    split
    · rw [ih.1]; exact hb.fine
    · exact ih.2.1 y
  | global x _ hv ih => exact ⟨ih.1, ih.2.1, glob ih.2.2 (plain hv)⟩
  | external x _ hv _ ih => exact ⟨ih.1, ih.2.1, glob ih.2.2 (plain hv)⟩

end Quilt
