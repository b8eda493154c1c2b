import Verif.Compiler.Jumps
import Verif.Sem.Api
import Verif.Disasm

/-!
# Instruction boundaries of compiled functions
-/

namespace Quilt

/-- Offsets at which instructions start when the bytes are read one instruction after the other,
including the end of the last one. -/
inductive Boundary (f : Func) : Nat → Prop
  | zero : Boundary f 0
  | next {p n : Nat} {i : Instr} : Boundary f p → decode f.consts (f.ops.drop p) = some (i, n) → Boundary f (p + n)

/-- `Within f g`: `g` is `f` or a function among the constants of a function within `f`. -/
inductive Within (f : Func) : Func → Prop
  | self : Within f f
  | const {g h : Func} : Within f g → Const.fn h ∈ g.consts → Within f h

/-- Where an instruction of length `n` at offset `p` jumps to. -/
def Instr.target (p n : Nat) : Instr → Option Nat
  | jumpIfFalse o | jumpIfNotEq o | jumpForward o | iterNext o => some (p + n + o)
  | jumpBackward o => some (p + n - o)
  | _ => none

/-- `f` is the encoding of `c`, and its jumps and constants are in order. -/
structure IsCode (f : Func) (c : Code) : Prop where
  ops : f.ops = c.ops
  dec : ∀ (a : Code) (q : Piece) (b : Code), c = a ++ q :: b → decode f.consts (f.ops.drop a.len) = some (q.i, q.i.enc.length)
  jumps : ∀ (a : Code) (q : Piece) (b : Code), c = a ++ q :: b → JumpIn a q.i b
  table : ∀ q ∈ c, q.i.InTable f.consts

theorem Code.ops_length (c : Code) : c.ops.length = c.len := rfl

theorem isCode_of {f : Func} {c : Code} (h1 : f.ops = c.ops) (h2 : CodeOk f.consts c) (h3 : ∀ q ∈ c, q.i.small = true) (h4 : f.consts.length ≤ 65536) : IsCode f c := by
  refine ⟨h1, ?_, ?_, fun q hq => h2.2 q hq h4⟩
  · intro (a : Code) q (b : Code) hc
    have hq : q ∈ c := by simp [hc]
    have hf : q.i.Fits f.consts := by
      refine Instr.fits_of_small (h3 q hq) fun k us hi => ?_
      have := h2.2 q hq h4
      rw [hi] at this; exact this
    have : f.ops.drop a.len = q.i.enc ++ Code.ops b := by
      rw [h1, hc, Code.ops_append, Code.ops_cons]
      simp [Code.len]
    rw [this]; exact decode_enc _ _ hf _
  · intro a q b hc
    simpa using h2.1 a q b hc

theorem FnOk.code {f : Func} (h : FnOk f) : ∃ c, IsCode f c := by
  obtain ⟨c, h1, h2, h3, h4, _⟩ := h
  exact ⟨c, isCode_of h1 h2 h3 h4⟩

theorem FnOk.within {f g : Func} (h : FnOk f) (hw : Within f g) : FnOk g := by
  induction hw with
  | self => exact h
  | const _ hm ih => obtain ⟨c, _, _, _, _, h5⟩ := ih; exact h5 _ hm

theorem IsCode.boundary {f : Func} {c : Code} (h : IsCode f c) (p : Nat) : Boundary f p ↔ ∃ a b : Code, c = a ++ b ∧ a.len = p := by
  constructor
  · intro hb
    induction hb with
    | zero => exact ⟨[], c, rfl, rfl⟩
    | @next p n i _ hd ih =>
      obtain ⟨a, b, hc, rfl⟩ := ih
      cases b with
      | nil =>
        have hl : f.ops.drop a.len = [] := by
          rw [h.ops, hc]; simp [Code.len]
        rw [hl] at hd; simp [decode] at hd
      | cons q b =>
        rw [h.dec a q b hc] at hd
        simp only [Option.some.injEq, Prod.mk.injEq] at hd
        exact ⟨a ++ [q], b, by simp [hc], by simp [hd.2]⟩
  · rintro ⟨a, b, hc, rfl⟩
    have : ∀ (a' a'' : Code), c = a' ++ a'' → Boundary f a'.len := by
      intro a'
      induction h' : a'.length generalizing a' with
      | zero => intro a'' _; rw [List.length_eq_zero_iff.1 h']; exact .zero
      | succ k ih =>
        intro a'' hc'
        have hne : a' ≠ [] := by rintro rfl; simp at h'
        obtain ⟨x, q, rfl⟩ : ∃ (x : Code) (q : Piece), a' = x ++ [q] := ⟨a'.dropLast, a'.getLast hne, (List.dropLast_concat_getLast hne).symm⟩
        have hb := ih x (by simpa using h') ([q] ++ a'') (by simpa using hc')
        have := Boundary.next hb (h.dec x q a'' (by simpa using hc'))
        simpa using this
    exact this a b hc

theorem IsCode.length {f : Func} {c : Code} (h : IsCode f c) : f.ops.length = c.len := by rw [h.ops]; rfl

/-- A successful compilation yields well-formed functions. -/
theorem compile_fnOk {cfg : Cfg} {ast : List Node} {script : Script} (hc : compile cfg ast = .ok script) (hsz : sizeL ast ≤ 65535) : FnOk script.fn := by
  unfold compile at hc
  generalize hst : (CState.new "@__main__").setMainSpan ast = st at hc
  have hg : st.g = (CState.new "@__main__").g := by
    rw [← hst]; unfold CState.setMainSpan; split <;> rfl
  have hhead : st.head.chunk = Chunk.empty := by
    rw [← hst]; unfold CState.setMainSpan; split <;> rfl
  have hsmall : GSmall 0 st.g := by
    rw [hg]
    refine ⟨⟨?_, ?_, ?_, Pool.inv_empty, ?_⟩, ?_, ?_, Pool.inv_empty⟩ <;> simp [CState.new, Pool.empty]
  have hl : LvsOk st.g := by
    rw [hg]
    exact ⟨⟨Pool.inv_empty, by simp [CState.new, Pool.empty]⟩, by simp [CState.new]⟩
  cases hcs : compileStmts cfg ast st with
  | mk o st' =>
    rw [hcs] at hc
    cases o with
    | ok sp =>
      simp only [COut.ok.injEq] at hc
      obtain ⟨c, g', h1, h2, h3, h4⟩ := compile_gen hsmall (by omega) hcs
      subst h2
      obtain ⟨k1, _, k3, _⟩ := gj_stmts cfg ast [] _ _ _ _ h1 List.nil_prefix hl
      rw [← hc]
      refine GJ.finish_ok k1.1 k3 h3 ?_
      show st.head.chunk.emit c = _
      rw [hhead]
    | err e sp => simp at hc
    | panic => simp at hc

end Quilt
