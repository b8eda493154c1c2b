import Verif.Compiler.RoomSpec
import Verif.Compiler.GenExt
import Verif.Compiler.Jumps
import Verif.Sem.Shaped

/-!
# Generated code has a static stack height at every position

Relative to the frame of the function.
-/

namespace Quilt

/-- Values popped and values pushed by an instruction that continues with the next one. -/
def Instr.eff : Instr → Option (Nat × Nat)
  | loadNone | loadConst _ | loadLocal _ | loadGlobal _ | loadUpvalue _ | createFunction _ | createClosure .. | newLoopCtx | blockReturn => some (0, 1)
  | blockResult | pop | closeUpvalue | defineGlobal _ | defineGlobalDefaulted _ => some (1, 0)
  | setLocal _ | setGlobal _ | setUpvalue _ | unary _ => some (1, 1)
  | swap => some (2, 2)
  | swapPop | indexGet | createPair | createRange | binary _ => some (2, 1)
  | popMany n => some (n, 0)
  | createArray n | enterContext _ n | callBuiltin _ n => some (n, 1)
  | callFunction n => some (n + 1, 1)
  | unpack n => some (1, n)
  | exitContext => some (0, 0)
  | _ => none

/-- The heights `ht` before and after the instruction at position `p`, in code of length `L`, go together. -/
def Instr.Flows (ht : Nat → Nat) (L p : Nat) (i : Instr) : Prop :=
  match i with
  | .ret => 1 ≤ ht p
  | .jumpForward o => p + 3 + o ≤ L ∧ ht (p + 3 + o) = ht p
  | .jumpBackward o => o ≤ p + 3 ∧ ht (p + 3 - o) = ht p
  | .jumpIfFalse o => 1 ≤ ht p ∧ p + 3 + o ≤ L ∧ ht (p + 3) = ht p ∧ ht (p + 3 + o) = ht p
  | .jumpIfNotEq o => 2 ≤ ht p ∧ p + 3 + o ≤ L ∧ ht (p + 3) + 1 = ht p ∧ ht (p + 3 + o) + 1 = ht p
  | .iterNext o => 3 ≤ ht p ∧ p + 3 + o ≤ L ∧ ht (p + 3) = ht p + 1 ∧ ht (p + 3 + o) = ht p
  | i => ∃ a b, i.eff = some (a, b) ∧ a ≤ ht p ∧ ht (p + i.enc.length) = ht p - a + b

/-- All instructions of the code, which starts at position `p`. -/
def Code.Flows (ht : Nat → Nat) (L : Nat) : Nat → Code → Prop
  | _, [] => True
  | p, q :: c => q.i.Flows ht L p ∧ Code.Flows ht L (p + q.i.enc.length) c

theorem Code.Flows.append {ht : Nat → Nat} {L : Nat} : ∀ {a b : Code} {p : Nat}, Code.Flows ht L p (a ++ b) ↔ Code.Flows ht L p a ∧ Code.Flows ht L (p + a.len) b
  | [], b, p => by simp [Code.Flows]
  | q :: a, b, p => by
    simp only [List.cons_append, Code.Flows, append (a := a), Code.len_cons, Nat.add_assoc, and_assoc]

theorem Instr.Flows.place {ht F : Nat → Nat} {L L' k p : Nat} {i : Instr} (h : i.Flows ht L p) (hp : p + i.enc.length ≤ L)
    (hF : ∀ x, x ≤ L → F (k + x) = ht x) (hL : k + L ≤ L') : i.Flows F L' (k + p) := by
  have h0 := hF p (by omega)
  unfold Instr.Flows at h ⊢
  have e1 : ∀ x, k + p + x = k + (p + x) := fun x => by omega
  have e2 : ∀ x y, k + p + x + y = k + (p + x + y) := fun x y => by omega
  split at h
  · rw [h0]; exact h
  · rename_i o
    refine ⟨by omega, ?_⟩
    rw [h0, e2, hF _ h.1]; exact h.2
  · rename_i o
    have hlen : (Instr.enc (.jumpBackward o)).length = 3 := by simp [Instr.enc, u16le]
    refine ⟨by omega, ?_⟩
    rw [h0, show k + p + 3 - o = k + (p + 3 - o) by omega, hF _ (by omega)]; exact h.2
  · rename_i o
    have hlen : (Instr.enc (.jumpIfFalse o)).length = 3 := by simp [Instr.enc, u16le]
    refine ⟨by omega, by omega, ?_, ?_⟩
    · rw [h0, e1, hF _ (by omega)]; exact h.2.2.1
    · rw [h0, e2, hF _ (by omega)]; exact h.2.2.2
  · rename_i o
    refine ⟨by omega, by omega, ?_, ?_⟩
    · rw [h0, e1, hF _ (by omega)]; exact h.2.2.1
    · rw [h0, e2, hF _ (by omega)]; exact h.2.2.2
  · rename_i o
    refine ⟨by omega, by omega, ?_, ?_⟩
    · rw [h0, e1, hF _ (by omega)]; exact h.2.2.1
    · rw [h0, e2, hF _ (by omega)]; exact h.2.2.2
  · obtain ⟨a, b, h1, h2, h3⟩ := h
    refine ⟨a, b, h1, by omega, ?_⟩
    rw [h0, e1, hF _ hp]; exact h3

theorem Code.Flows.place {ht F : Nat → Nat} {L L' k : Nat} (hF : ∀ x, x ≤ L → F (k + x) = ht x) (hL : k + L ≤ L') :
    ∀ {c : Code} {p : Nat}, Code.Flows ht L p c → p + c.len ≤ L → Code.Flows F L' (k + p) c
  | [], _, _, _ => trivial
  | q :: c, p, h, hp => by
    simp only [Code.len_cons] at hp
    refine ⟨h.1.place (by omega) hF hL, ?_⟩
    have := place hF hL h.2 (by omega)
    rwa [← Nat.add_assoc] at this

/-- Code that starts with height `h` and ends with height `o`, and never exceeds height `K`. -/
def Seg (K : Nat) (c : Code) (h o : Nat) : Prop :=
  ∃ ht : Nat → Nat, ht 0 = h ∧ ht c.len = o ∧ (∀ p, ht p ≤ K) ∧ Code.Flows ht c.len 0 c

namespace Seg
variable {K : Nat} {a b c : Code} {h o m : Nat}

theorem out_le (hs : Seg K c h o) : o ≤ K := by obtain ⟨ht, _, rfl, h3, _⟩ := hs; exact h3 _
theorem in_le (hs : Seg K c h o) : h ≤ K := by obtain ⟨ht, rfl, _, h3, _⟩ := hs; exact h3 _

theorem nil (hh : h ≤ K) : Seg K [] h h := ⟨fun _ => h, rfl, rfl, fun _ => hh, trivial⟩

theorem append (ha : Seg K a h m) (hb : Seg K b m o) : Seg K (a ++ b) h o := by
  obtain ⟨f, f0, f1, f2, f3⟩ := ha
  obtain ⟨g, g0, g1, g2, g3⟩ := hb
  have hF : ∀ x, x ≤ a.len → (if x < a.len then f x else g (x - a.len)) = f x := by
    intro x hx
    split
    · rfl
    · have : x = a.len := by omega
      subst this; simp [g0, f1]
  refine ⟨fun x => if x < a.len then f x else g (x - a.len), ?_, ?_, ?_, ?_⟩
  · exact (hF 0 (by omega)).trans f0
  · have : ¬ a.len + b.len < a.len := by omega
    simp [this, g1]
  · intro p; simp only; split <;> simp [f2, g2]
  · rw [Code.Flows.append]
    refine ⟨?_, ?_⟩
    · have := Code.Flows.place (k := 0) (F := fun x => if x < a.len then f x else g (x - a.len)) (L' := (a ++ b).len)
        (fun x hx => by simpa using hF x hx) (by simp) f3 (by simp)
      simpa using this
    · have := Code.Flows.place (k := a.len) (F := fun x => if x < a.len then f x else g (x - a.len)) (L' := (a ++ b).len)
        (fun x hx => by have : ¬ a.len + x < a.len := by omega
                        simp [this]) (by simp) g3 (by simp)
      simpa using this

theorem one {q : Piece} {x y : Nat} (he : q.i.eff = some (x, y)) (hx : x ≤ h) (hh : h ≤ K) (ho : o = h - x + y) (hK : o ≤ K) : Seg K [q] h o := by
  subst ho
  have hpos := q.i.enc_pos
  refine ⟨fun p => if p = 0 then h else h - x + y, rfl, ?_, fun p => by simp only; split <;> omega, ?_⟩
  · have : q.i.enc.length ≠ 0 := by omega
    simp [this]
  · refine ⟨?_, trivial⟩
    unfold Instr.Flows
    split
    all_goals first
      | (rename_i hi; rw [hi] at he; simp [Instr.eff] at he)
      | skip
    refine ⟨x, y, he, by simpa using hx, ?_⟩
    have : q.i.enc.length ≠ 0 := by omega
    simp [this]

theorem cons {q : Piece} {x y : Nat} (hs : Seg K c m o) (he : q.i.eff = some (x, y)) (hx : x ≤ h) (hh : h ≤ K) (hm : m = h - x + y) : Seg K (q :: c) h o :=
  append (one (q := q) he hx hh hm hs.in_le) hs

theorem ret {q : Piece} (hi : q.i = .ret) (h1 : 1 ≤ h) (hh : h ≤ K) (ho : o ≤ K) : Seg K [q] h o := by
  refine ⟨fun p => if p = 0 then h else o, rfl, ?_, fun p => by simp only; split <;> omega, ?_, trivial⟩
  · simp [hi, Instr.enc]
  · rw [hi]; simpa [Instr.Flows] using h1

/-- Two branches: the first one, which follows the test, ends with a jump over the second one. -/
theorem branch {J T : Piece} {x : Nat} (hJ : J.i = .jumpIfFalse (a.len + 3) ∧ 1 ≤ h ∧ x = h ∨ J.i = .jumpIfNotEq (a.len + 3) ∧ 2 ≤ h ∧ x + 1 = h)
    (hT : T.i = .jumpForward b.len) (hh : h ≤ K) (ha : Seg K a x o) (hb : Seg K b x o) : Seg K (J :: (a ++ T :: b)) h o := by
  obtain ⟨f, f0, f1, f2, f3⟩ := ha
  obtain ⟨g, g0, g1, g2, g3⟩ := hb
  have lJ : J.i.enc.length = 3 := by rcases hJ with ⟨e, _⟩ | ⟨e, _⟩ <;> simp [e, Instr.enc, u16le]
  have lT : T.i.enc.length = 3 := by simp [hT, Instr.enc, u16le]
  have hL : Code.len (J :: (a ++ T :: b)) = 6 + a.len + b.len := by simp [lJ, lT]; omega
  let F : Nat → Nat := fun p => if p < 3 then h else if p ≤ 3 + a.len then f (p - 3) else g (p - (6 + a.len))
  have Fa : ∀ x, x ≤ a.len → F (3 + x) = f x := by
    intro x hx
    have : ¬ 3 + x < 3 := by omega
    have : 3 + x ≤ 3 + a.len := by omega
    simp [F, *]
  have Fb : ∀ x, x ≤ b.len → F (6 + a.len + x) = g x := by
    intro x hx
    have h1 : ¬ 6 + a.len + x < 3 := by omega
    have h2 : ¬ 6 + a.len + x ≤ 3 + a.len := by omega
    simp [F, h1, h2]
  have F0 : F 0 = h := rfl
  refine ⟨F, F0, ?_, ?_, ?_⟩
  · rw [hL, Fb _ (Nat.le_refl _), g1]
  · intro p; simp only [F]; split
    · exact hh
    · split
      · exact f2 _
      · exact g2 _
  · rw [hL]
    refine ⟨?_, ?_⟩
    · have e1 : F 3 = x := by have := Fa 0 (by omega); simpa [f0] using this
      have e2 : F (0 + 3 + (a.len + 3)) = x := by
        have := Fb 0 (by omega)
        rw [g0] at this; rw [← this]; congr 1; omega
      rcases hJ with ⟨e, h1, rfl⟩ | ⟨e, h1, h2⟩
      · rw [e]; exact ⟨by rw [F0]; exact h1, by omega, by rw [F0]; exact e1, by rw [F0]; exact e2⟩
      · rw [e]; exact ⟨by rw [F0]; exact h1, by omega, by rw [F0, e1]; exact h2, by rw [F0, e2]; exact h2⟩
    · rw [lJ, Code.Flows.append]
      refine ⟨?_, ?_, ?_⟩
      · exact Code.Flows.place (k := 3) Fa (by omega) f3 (by omega)
      · rw [hT]
        have e1 : F (0 + 3 + a.len) = o := by rw [show 0 + 3 + a.len = 3 + a.len by omega, Fa _ (Nat.le_refl _), f1]
        have e2 : F (0 + 3 + a.len + 3 + b.len) = o := by
          rw [show 0 + 3 + a.len + 3 + b.len = 6 + a.len + b.len by omega, Fb _ (Nat.le_refl _), g1]
        exact ⟨by omega, by rw [e1, e2]⟩
      · have := Code.Flows.place (k := 6 + a.len) Fb (L' := 6 + a.len + b.len) (by omega) g3 (by omega)
        rw [lT, show 0 + 3 + a.len + 3 = 6 + a.len + 0 by omega]; exact this

/-- A `while` loop: test, body, jump back to the test. -/
theorem loop {J T P : Piece} (hJ : J.i = .jumpIfFalse (b.len + 3)) (hT : T.i = .jumpBackward (a.len + b.len + 6)) (hP : P.i = .pop)
    (ha : Seg K a h (h + 1)) (hb : Seg K b (h + 1) h) : Seg K (a ++ J :: (b ++ [T, P])) h h := by
  have hh := ha.out_le
  obtain ⟨f, f0, f1, f2, f3⟩ := ha
  obtain ⟨g, g0, g1, g2, g3⟩ := hb
  have lJ : J.i.enc.length = 3 := by simp [hJ, Instr.enc, u16le]
  have lT : T.i.enc.length = 3 := by simp [hT, Instr.enc, u16le]
  have lP : P.i.enc.length = 1 := by simp [hP, Instr.enc]
  have hL : Code.len (a ++ J :: (b ++ [T, P])) = a.len + b.len + 7 := by simp [lJ, lT, lP]; omega
  let F : Nat → Nat := fun p => if p ≤ a.len then f p else if p ≤ a.len + 3 + b.len then g (p - (a.len + 3)) else if p < a.len + b.len + 7 then h + 1 else h
  have Fa : ∀ x, x ≤ a.len → F (0 + x) = f x := by intro x hx; simp [F, hx]
  have Fb : ∀ x, x ≤ b.len → F (a.len + 3 + x) = g x := by
    intro x hx
    have h1 : ¬ a.len + 3 + x ≤ a.len := by omega
    have h2 : a.len + 3 + x ≤ a.len + 3 + b.len := by omega
    simp only [F, h1, h2, if_true, if_false]; congr 1; omega
  have Fx : F (a.len + b.len + 6) = h + 1 := by
    have h1 : ¬ a.len + b.len + 6 ≤ a.len := by omega
    have h2 : ¬ a.len + b.len + 6 ≤ a.len + 3 + b.len := by omega
    simp only [F, h1, h2, if_false]; simp
  have Fe : F (a.len + b.len + 7) = h := by
    have h1 : ¬ a.len + b.len + 7 ≤ a.len := by omega
    have h2 : ¬ a.len + b.len + 7 ≤ a.len + 3 + b.len := by omega
    simp only [F, h1, h2, if_false]; simp
  have F0 : F 0 = h := by have := Fa 0 (by omega); simpa [f0] using this
  have Fj : F a.len = h + 1 := by have := Fa a.len (Nat.le_refl _); simpa [f1] using this
  refine ⟨F, F0, ?_, ?_, ?_⟩
  · rw [hL]; exact Fe
  · intro p; simp only [F]; split
    · exact f2 _
    · split
      · exact g2 _
      · split <;> omega
  · rw [hL, Code.Flows.append]
    refine ⟨Code.Flows.place Fa (by omega) f3 (by omega), ?_, ?_⟩
    · rw [hJ]
      have e1 : F (0 + a.len + 3) = h + 1 := by
        have := Fb 0 (by omega); rw [g0] at this; rw [← this]; congr 1; omega
      have e2 : F (0 + a.len + 3 + (b.len + 3)) = h + 1 := by rw [← Fx]; congr 1; omega
      have e3 : F (0 + a.len) = h + 1 := by rw [Nat.zero_add]; exact Fj
      exact ⟨by omega, by omega, by rw [e1, e3], by rw [e2, e3]⟩
    · rw [lJ, Code.Flows.append]
      refine ⟨?_, ?_, ?_, trivial⟩
      · have := Code.Flows.place (k := a.len + 3) (L' := a.len + b.len + 7) Fb (by omega) g3 (by omega)
        simpa using this
      · rw [hT]
        have e1 : F (0 + a.len + 3 + b.len) = h := by
          have := Fb b.len (Nat.le_refl _); rw [g1] at this; rw [← this]; congr 1; omega
        have e2 : F (0 + a.len + 3 + b.len + 3 - (a.len + b.len + 6)) = h := by rw [← F0]; congr 1; omega
        exact ⟨by omega, by rw [e1, e2]⟩
      · rw [hP, lT]
        have e1 : F (0 + a.len + 3 + b.len + 3) = h + 1 := by rw [← Fx]; congr 1; omega
        have e2 : F (0 + a.len + 3 + b.len + 3 + 1) = h := by rw [← Fe]; congr 1; omega
        exact ⟨1, 0, rfl, by rw [e1]; omega, by rw [e1]; exact e2⟩

/-- The loop of a `for`. -/
theorem iter {J T : Piece} (hJ : J.i = .iterNext (b.len + 3)) (hT : T.i = .jumpBackward (b.len + 6)) (h3 : 3 ≤ h)
    (hb : Seg K b (h + 1) h) : Seg K (J :: (b ++ [T])) h h := by
  have hh := hb.in_le
  obtain ⟨g, g0, g1, g2, g3⟩ := hb
  have lJ : J.i.enc.length = 3 := by simp [hJ, Instr.enc, u16le]
  have lT : T.i.enc.length = 3 := by simp [hT, Instr.enc, u16le]
  have hL : Code.len (J :: (b ++ [T])) = b.len + 6 := by simp [lJ, lT]; omega
  let F : Nat → Nat := fun p => if p < 3 then h else if p ≤ 3 + b.len then g (p - 3) else h
  have Fb : ∀ x, x ≤ b.len → F (3 + x) = g x := by
    intro x hx
    have h1 : ¬ 3 + x < 3 := by omega
    have h2 : 3 + x ≤ 3 + b.len := by omega
    simp only [F, h1, h2, if_true, if_false]; congr 1; omega
  have Fe : F (b.len + 6) = h := by
    have h1 : ¬ b.len + 6 < 3 := by omega
    have h2 : ¬ b.len + 6 ≤ 3 + b.len := by omega
    simp only [F, h1, h2, if_false]
  have F0 : F 0 = h := rfl
  refine ⟨F, F0, by rw [hL]; exact Fe, ?_, ?_⟩
  · intro p; simp only [F]; split
    · omega
    · split
      · exact g2 _
      · omega
  · rw [hL]
    refine ⟨?_, ?_⟩
    · rw [hJ]
      have e1 : F (0 + 3) = h + 1 := by have := Fb 0 (by omega); rw [g0] at this; rw [← this]
      have e2 : F (0 + 3 + (b.len + 3)) = h := by rw [← Fe]; congr 1; omega
      exact ⟨by rw [F0]; exact h3, by omega, by rw [e1, F0], by rw [e2, F0]⟩
    · rw [lJ, Code.Flows.append]
      refine ⟨?_, ?_, trivial⟩
      · exact Code.Flows.place (k := 3) Fb (by omega) g3 (by omega)
      · rw [hT]
        have e1 : F (0 + 3 + b.len) = h := by
          have := Fb b.len (Nat.le_refl _); rw [g1] at this; rw [show 0 + 3 + b.len = 3 + b.len by omega]; exact this
        have e2 : F (0 + 3 + b.len + 3 - (b.len + 6)) = h := by rw [← F0]; congr 1; omega
        exact ⟨by omega, by rw [e1, e2]⟩

theorem flush {sp : Span} {q : Nat} (hK : h + q ≤ K) : Seg K (GM.flush q sp) (h + q) h := by
  unfold GM.flush
  split
  · exact one (x := q) (y := 0) rfl (by omega) hK (by omega) (by omega)
  · split
    · exact one (x := 1) (y := 0) rfl (by omega) hK (by omega) (by omega)
    · have : q = 0 := by omega
      subst this; exact nil hK

theorem exitOps {sp : Span} : ∀ {cs : List Bool} {q h : Nat}, h + cs.length + q ≤ K → Seg K (GM.exitOps sp cs q) (h + cs.length + q) h
  | [], q, h, hK => by simpa [GM.exitOps] using flush hK
  | false :: cs, q, h, hK => by
    have := exitOps (sp := sp) (cs := cs) (q := q + 1) (h := h) (by simp at hK; omega)
    simp only [GM.exitOps, List.length_cons]
    rwa [show h + (cs.length + 1) + q = h + cs.length + (q + 1) by omega]
  | true :: cs, q, h, hK => by
    simp only [List.length_cons] at hK
    have h1 := exitOps (sp := sp) (cs := cs) (q := 0) (h := h) (by omega)
    simp only [GM.exitOps, List.length_cons]
    refine append (append (flush (h := h + (cs.length + 1)) (by omega)) ?_) h1
    exact one (x := 1) (y := 0) rfl (by omega) (by omega) (by omega) (by omega)

theorem exitCode {sp : Span} {cs : List Bool} (hK : h + 1 + cs.length ≤ K) : Seg K (GM.exitCode sp cs) (h + 1 + cs.length) (h + 1) := by
  unfold GM.exitCode
  split
  · rename_i h1; subst h1; exact nil hK
  · have h1 := exitOps (K := K) (sp := sp) (cs := cs) (q := 0) (h := h) (by omega)
    refine append (append (one (x := 1) (y := 0) rfl (by omega) hK rfl (by omega)) ?_) (one (x := 0) (y := 1) (h := h) rfl (by omega) (by omega) (by omega) (by omega))
    rwa [show h + 1 + cs.length - 1 + 0 = h + cs.length + 0 by omega]

end Seg

end Quilt
