import Verif.Sem.Post

/-!
# Values all of whose functions satisfy a predicate
-/

namespace Quilt

/-- Identity on functions satisfying `Q`. -/
def OnlyR (Q : SClos → Prop) (c c' : SClos) : Prop := c = c' ∧ Q c

/-- All functions in a value satisfy `Q`. -/
def Only (Q : SClos → Prop) (v : SVal) : Prop := Val.Rel (OnlyR Q) v v
def OnlyL (Q : SClos → Prop) (vs : List SVal) : Prop := Val.RelL (OnlyR Q) vs vs

/-- Functions of the same name, where `Q` holds. -/
def Named (Q : SClos → Prop) (c : SClos) (c' : VClos) : Prop := Q c ∧ c.name = c'.fn.name

/-- A VM function with a given name. -/
def someVClos (x : String) : VClos := ⟨.mk x Span.default 0 0 [] Rle.empty [] [], []⟩

mutual
/-- Only Q values have counterparts. -/
theorem Only.toV {Q : SClos → Prop} : ∀ v : SVal, Val.Rel (OnlyR Q) v v → ∃ w : VVal, Val.Rel (Named Q) v w
  | .none, _ => ⟨.none, trivial⟩
  | .bool b, _ => ⟨.bool b, rfl⟩
  | .int b, _ => ⟨.int b, rfl⟩
  | .float b, _ => ⟨.float b, rfl⟩
  | .range a b, _ => ⟨.range a b, rfl, rfl⟩
  | .color a b c d, _ => ⟨.color a b c d, rfl, rfl, rfl, rfl⟩
  | .str s, _ => ⟨.str s, rfl⟩
  | .special a n, _ => ⟨.special a n, rfl, rfl⟩
  | .arr xs s m, h => by
    simp only [Val.Rel] at h
    obtain ⟨ys, hy⟩ := OnlyL.toV xs h.1
    exact ⟨.arr ys s m, hy, rfl, rfl⟩
  | .loopCtx i, _ => ⟨.loopCtx i, rfl⟩
  | .pair a b, h => by
    simp only [Val.Rel] at h
    obtain ⟨x, hx⟩ := Only.toV a h.1
    obtain ⟨y, hy⟩ := Only.toV b h.2
    exact ⟨.pair x y, hx, hy⟩
  | .func _, h => by simp [Val.Rel] at h
  | .clos c, h => by
    simp only [Val.Rel] at h
    exact ⟨.clos (someVClos c.name), h.2, rfl⟩
termination_by structural v => v
theorem OnlyL.toV {Q : SClos → Prop} : ∀ vs : List SVal, Val.RelL (OnlyR Q) vs vs → ∃ ws : List VVal, Val.RelL (Named Q) vs ws
  | [], _ => ⟨[], trivial⟩
  | v :: vs, h => by
    simp only [Val.RelL] at h
    obtain ⟨x, hx⟩ := Only.toV v h.1
    obtain ⟨y, hy⟩ := OnlyL.toV vs h.2
    exact ⟨x :: y, hx, hy⟩
termination_by structural v => v
end

mutual
/-- And conversely. -/
theorem Only.ofV {Q : SClos → Prop} : ∀ (v : SVal) (w : VVal), Val.Rel (Named Q) v w → Val.Rel (OnlyR Q) v v
  | .none, _, _ => trivial
  | .bool _, _, _ | .int _, _, _ | .float _, _, _ | .str _, _, _ | .loopCtx _, _, _ => rfl
  | .range .., _, _ | .special .., _, _ => ⟨rfl, rfl⟩
  | .color .., _, _ => ⟨rfl, rfl, rfl, rfl⟩
  | .arr xs s m, w, h => by
    cases w <;> simp only [Val.Rel] at h
    exact ⟨OnlyL.ofV xs _ h.1, rfl, rfl⟩
  | .pair a b, w, h => by
    cases w <;> simp only [Val.Rel] at h
    exact ⟨Only.ofV a _ h.1, Only.ofV b _ h.2⟩
  | .func _, w, h => by simp [Val.Rel] at h
  | .clos c, w, h => by
    cases w <;> simp only [Val.Rel] at h
    exact ⟨rfl, h.1⟩
termination_by structural v => v
theorem OnlyL.ofV {Q : SClos → Prop} : ∀ (vs : List SVal) (ws : List VVal), Val.RelL (Named Q) vs ws → Val.RelL (OnlyR Q) vs vs
  | [], _, _ => trivial
  | v :: vs, [], h => by simp [Val.RelL] at h
  | v :: vs, w :: ws, h => by
    simp only [Val.RelL] at h
    exact ⟨Only.ofV v w h.1, OnlyL.ofV vs ws h.2⟩
termination_by structural v => v
end

theorem OnlyL.all {Q : SClos → Prop} : ∀ {vs : List SVal}, OnlyL Q vs → ∀ v ∈ vs, Only Q v
  | [], _, _, hv => by simp at hv
  | v :: vs, h, w, hw => by
    simp only [OnlyL, Val.RelL] at h
    rcases List.mem_cons.1 hw with rfl | hw
    · exact h.1
    · exact OnlyL.all h.2 w hw


theorem Only.mono {Q Q' : SClos → Prop} (h : ∀ c, Q c → Q' c) {v : SVal} (hv : Only Q v) : Only Q' v :=
  Val.Rel.mono (fun _ _ hr => ⟨hr.1, h _ hr.2⟩) hv

/-- Builtins related to machine builtins do not make up functions. -/
theorem BRel.only {D : Type} {Q : SClos → Prop} {lim : Limits} {f : BFn D SClos} {f' : BFn D VClos} (h : BRel lim f f') (d : D) (args : List SVal)
    (v : SVal) (ha : OnlyL Q args) (hv : (f d args lim).1 = .ok v) : Only Q v := by
  obtain ⟨ws, hw⟩ := OnlyL.toV args ha
  have := (h.rel (Named Q) (fun _ _ hr => hr.2) d args ws hw).1
  rw [hv] at this
  generalize (f' d ws lim).1 = r at this
  cases r with
  | ok w => exact Only.ofV v w this
  | err e => exact this.elim
  | panic => exact this.elim

end Quilt
