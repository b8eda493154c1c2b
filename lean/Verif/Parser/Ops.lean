import Verif.Parser.Tie
import Verif.Compiler.NoPanic

/-!
# Operators of programs that were read from text
-/

namespace Quilt

/-- The operators the grammar puts in binary nodes. -/
def readBin (op : Op) : Bool := !op.isUnary || decide (op = .bitNot)

section
variable {S : Span → Prop} {N : Name → Prop} {B : Bool → List Node → Prop}

mutual
theorem Node.All.ops : ∀ n : Node, n.All S N B → n.ops readBin (fun op _ => op.isUnary) = true
  | .lit .., _ | .ident .., _ => by unfold Node.ops; rfl
  | .array _ es, h => by unfold Node.All at h; unfold Node.ops; exact AllL.ops es h.2
  | .pair _ x y, h | .range _ x y, h | .index _ x y, h => by
    unfold Node.All at h; unfold Node.ops
    rw [Bool.and_eq_true]
    exact ⟨Node.All.ops x h.2.1, Node.All.ops y h.2.2⟩
  | .bin _ op x y, h => by
    unfold Node.All at h; unfold Node.ops
    rw [Bool.and_eq_true, Bool.and_eq_true]
    refine ⟨⟨?_, Node.All.ops x h.2.1⟩, Node.All.ops y h.2.2⟩
    have := h.1.2
    unfold readBin
    cases hu : op.isUnary with
    | false => rfl
    | true => simp [this hu]
  | .un _ op e, h => by
    unfold Node.All at h; unfold Node.ops
    rw [Bool.and_eq_true]
    exact ⟨h.1.2, Node.All.ops e h.2⟩
  | .decl _ _ e, h => by unfold Node.All at h; unfold Node.ops; exact Node.All.ops e h.2.2
  | .extern _ _ e, h => by unfold Node.All at h; unfold Node.ops; exact Node.All.ops e h.2.2
  | .assign _ _ e, h => by unfold Node.All at h; unfold Node.ops; exact Node.All.ops e h.2.2
  | .func _ _ _ body, h => by unfold Node.All at h; unfold Node.ops; exact AllB.ops true body h.2.2.2
  | .lambda _ _ body, h => by unfold Node.All at h; unfold Node.ops; exact AllB.ops true body h.2.2
  | .block _ body, h => by unfold Node.All at h; unfold Node.ops; exact AllB.ops false body h.2
  | .cond _ c th el, h => by
    unfold Node.All at h; unfold Node.ops
    rw [Bool.and_eq_true, Bool.and_eq_true]
    exact ⟨⟨Node.All.ops c h.2.1, AllB.ops false th h.2.2.1⟩, AllO.ops el h.2.2.2⟩
  | .switch _ v cs d, h => by
    unfold Node.All at h; unfold Node.ops
    rw [Bool.and_eq_true, Bool.and_eq_true]
    exact ⟨⟨Node.All.ops v h.2.1, AllC.ops cs h.2.2.1⟩, AllO.ops d h.2.2.2⟩
  | .forIn _ _ it body, h | .forMulti _ _ it body, h => by
    unfold Node.All at h; unfold Node.ops
    rw [Bool.and_eq_true]
    exact ⟨Node.All.ops it h.2.2.1, AllB.ops false body h.2.2.2⟩
  | .while _ c body, h => by
    unfold Node.All at h; unfold Node.ops
    rw [Bool.and_eq_true]
    exact ⟨Node.All.ops c h.2.1, AllB.ops false body h.2.2⟩
  | .call _ f args, h => by
    unfold Node.All at h; unfold Node.ops
    rw [Bool.and_eq_true]
    exact ⟨Node.All.ops f h.2.1, AllL.ops args h.2.2⟩
  | .builtin _ _ args, h => by unfold Node.All at h; unfold Node.ops; exact AllL.ops args h.2.2
  | .ctx _ _ args _ body, h => by
    unfold Node.All at h; unfold Node.ops
    rw [Bool.and_eq_true]
    exact ⟨AllL.ops args h.2.2.1, AllB.ops false body h.2.2.2.2⟩
  | .include _ _ body, h => by unfold Node.All at h; unfold Node.ops; rw [h.2.2]; rfl
  | .ret _ e, h => by unfold Node.All at h; unfold Node.ops; exact AllE.ops e h.2
termination_by structural n => n
theorem AllL.ops : ∀ ns : List Node, AllL S N B ns → opsL readBin (fun op _ => op.isUnary) ns = true
  | [], _ => by unfold opsL; rfl
  | n :: ns, h => by
    unfold AllL at h; unfold opsL
    rw [Bool.and_eq_true]
    exact ⟨Node.All.ops n h.1, AllL.ops ns h.2⟩
termination_by structural n => n
theorem AllB.ops (f : Bool) : ∀ ns : List Node, AllB S N B f ns → opsL readBin (fun op _ => op.isUnary) ns = true
  | [], _ => by unfold opsL; rfl
  | n :: ns, h => by
    unfold AllB at h; unfold opsL
    rw [Bool.and_eq_true]
    exact ⟨Node.All.ops n h.2.1, AllL.ops ns h.2.2⟩
termination_by structural n => n
theorem AllO.ops : ∀ o : Option (List Node), AllO S N B o → opsO readBin (fun op _ => op.isUnary) o = true
  | some b, h => by unfold AllO at h; unfold opsO; exact AllB.ops false b h
  | none, _ => by unfold opsO; rfl
termination_by structural n => n
theorem AllE.ops : ∀ o : Option Node, AllE S N B o → opsE readBin (fun op _ => op.isUnary) o = true
  | some e, h => by unfold AllE at h; unfold opsE; exact Node.All.ops e h
  | none, _ => by unfold opsE; rfl
termination_by structural n => n
theorem AllC.ops : ∀ cs : List (Node × List Node), AllC S N B cs → opsC readBin (fun op _ => op.isUnary) cs = true
  | [], _ => by unfold opsC; rfl
  | (c, b) :: cs, h => by
    unfold AllC at h; unfold opsC
    rw [Bool.and_eq_true, Bool.and_eq_true]
    exact ⟨⟨Node.All.ops c h.1, AllB.ops false b h.2.1⟩, AllC.ops cs h.2.2⟩
termination_by structural n => n
end

theorem InclOk.ops {n : Node} (h : InclOk S N n) : n.ops readBin (fun op _ => op.isUnary) = true := by
  cases n with
  | «include» sp x b =>
    cases b with
    | none => unfold Node.ops; rfl
    | some b =>
      obtain ⟨S', h1, _⟩ := h
      unfold Node.ops opsO
      exact AllL.ops b h1
  | _ => exact Node.All.ops (N := N) (B := EndsWell) _ h

theorem opsL_mem {b : Op → Bool} {u : Op → Node → Bool} : ∀ {ns : List Node}, (∀ n ∈ ns, n.ops b u = true) → opsL b u ns = true
  | [], _ => by unfold opsL; rfl
  | n :: ns, h => by
    unfold opsL
    rw [Bool.and_eq_true]
    exact ⟨h n (by simp), opsL_mem fun m hm => h m (by simp [hm])⟩

end

/-- Unary nodes have unary operators and binary nodes binary ones or `~`. -/
theorem ops_of_parsed {W : Peg.World} {k : Nat} {name : String} {T : List Char} {c c' : Peg.Cache} {ast : List Node}
    (h : Peg.parseWithIncludes W k name T c = (.ok ast, c')) : opsL readBin (fun op _ => op.isUnary) ast = true := by
  cases k with
  | zero => unfold Peg.parseWithIncludes at h; cases h
  | succ k =>
    unfold Peg.parseWithIncludes at h
    obtain ⟨ast0, c1, h1, h2⟩ := Peg.IM.bind_ok.1 h
    obtain ⟨⟨j, h3⟩, rfl⟩ := Peg.addParse_ok.1 h1
    have h4 := Peg.parseCode_good ⟨c.sources.length, W.float⟩ T
    rw [h3] at h4
    exact opsL_mem fun n hn => (Spliced.inclOk (N := fun _ => True) (Peg.each_spliced h2).1 (fun _ _ _ _ => trivial)
      (AllL_mono (fun _ h => h) (fun _ _ => trivial) (fun _ _ h => h) h4.list) n hn).ops

end Quilt
