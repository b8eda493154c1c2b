import Verif.Sem.SimFun

/-!
# Simulation: entering and leaving scopes, declaring variables
-/

namespace Quilt
variable {D : Type}

/-- Only cells, the stack pointer and the instruction pointer change. -/
structure Still (s s' : VM D) : Prop where
  frames : s'.frames = s.frames
  br : s'.blockResults = s.blockResults
  fn : s'.frame.fn = s.frame.fn
  ups : s'.frame.ups = s.frame.ups
  base : s'.frame.st = s.frame.st
  stack : s'.stack = s.stack

theorem Still.refl (s : VM D) : Still s s := ⟨rfl, rfl, rfl, rfl, rfl, rfl⟩

theorem Still.trans {s s' s'' : VM D} (h : Still s s') (h' : Still s' s'') : Still s s'' :=
  ⟨h'.frames.trans h.frames, h'.br.trans h.br, h'.fn.trans h.fn, h'.ups.trans h.ups, h'.base.trans h.base,
    h'.stack.trans h.stack⟩

/-- Forgetting variables from `base` on. -/
def cutAt (slots : LocMap) (base : Nat) : LocMap := fun l => if l < base then slots l else none

theorem cutAt_lt {slots : LocMap} {base l : Nat} (h : l < base) : cutAt slots base l = slots l := by simp [cutAt, h]
theorem cutAt_ge {slots : LocMap} {base l : Nat} (h : base ≤ l) : cutAt slots base l = none := by
  simp [cutAt, Nat.not_lt.2 h]

section
variable {H : Host D} {S : SHost D}

/-- Popping `q` temporaries. -/
theorem flush_sim {fn : Func} {s : VM D} {sp : Span} {q : Nat} {rest : Code} (hfn : s.frame.fn = fn)
    (hc : CodeAt fn s.frame.ip (GM.flush q sp ++ rest)) (hq : q ≤ s.sp) :
    Reach H 0 s { s.goto (s.frame.ip + Code.len (GM.flush q sp)) with sp := s.sp - q } := by
  subst hfn
  unfold GM.flush at hc ⊢
  by_cases h2 : q ≥ 2
  · simp only [h2, if_true] at hc ⊢
    have := VM.step_code (H := H) hc.left (Instr.fits_of_small (hc.2.2 _ (by simp)) (by simp))
    have h3 : ¬ s.sp < q := by omega
    simp only [VM.exec, VM.goto_sp, h3, if_false] at this
    refine (Reach.step (s' := _) ?_).mono (Nat.zero_le _)
    rw [this]
    simp
  · by_cases h1 : q = 1
    · subst h1
      simp only [Nat.reduceLeDiff, ge_iff_le, if_false, if_true] at hc ⊢
      have := VM.step_code (H := H) hc.left (Instr.fits_of_small (hc.2.2 _ (by simp)) (by simp))
      have h3 : s.sp ≠ 0 := by omega
      simp only [VM.exec, VM.pop, VM.goto_sp, h3, if_false] at this
      refine (Reach.step (s' := _) ?_).mono (Nat.zero_le _)
      rw [this]
      simp
    · have h0 : q = 0 := by omega
      subst h0
      exact Reach.refl H s

/-- Removing the variables of a scope. -/
theorem exitOps_sim (hH : H.opts.stackSize = none) {fn : Func} {sp : Span} {rest : Code} {γ : LocMap} {σ : SSt D} {base : Nat} :
    ∀ (caps : List Bool) (q : Nat) {s : VM D} {slots : LocMap}, s.frame.fn = fn →
    CodeAt fn s.frame.ip (GM.exitOps sp caps q ++ rest) → s.sp = base + caps.length + q →
    Ok H.cfg H.syms.entries γ slots σ s.mem → (∀ l, base + caps.length ≤ l → slots l = none) →
    (∀ l, OpenAt s.mem l → base ≤ l → caps.reverse[l - base]? = some true) →
    ∃ s', Reach H 0 s s' ∧ Still s s' ∧ s'.sp = base ∧ s'.frame.ip = s.frame.ip + Code.len (GM.exitOps sp caps q) ∧
      Ok H.cfg H.syms.entries γ (cutAt slots base) σ s'.mem ∧ (∀ l, OpenAt s'.mem l → OpenAt s.mem l ∧ l < base)
  | [], q, s, slots, hfn, hc, hsp, hok, habove, hopen => by
    simp only [List.length_nil, Nat.add_zero] at hsp habove
    have hcut : cutAt slots base = slots := by
      funext l
      by_cases h : l < base
      · rw [cutAt_lt h]
      · rw [cutAt_ge (by omega), habove l (by omega)]
    refine ⟨_, flush_sim (H := H) hfn hc (by omega), ⟨rfl, rfl, rfl, rfl, rfl, rfl⟩, by simp; omega, by simp [GM.exitOps], ?_, ?_⟩
    · rw [hcut]
      refine hok.setStack rfl rfl rfl rfl rfl rfl fun l loc hl => ⟨?_, rfl⟩
      have : l < base := by
        by_cases h : l < base
        · exact h
        · rw [habove l (by omega)] at hl; cases hl
      show l < s.sp - q
      omega
    · intro l hl
      have hl' : OpenAt s.mem l := hl
      refine ⟨hl', ?_⟩
      by_cases h : l < base
      · exact h
      · have := hopen l hl' (by omega); simp at this
  | false :: cs, q, s, slots, hfn, hc, hsp, hok, habove, hopen => by
    simp only [List.length_cons] at hsp habove
    have hno : ¬ OpenAt s.mem (base + cs.length) := by
      intro h
      have := hopen _ h (by omega)
      simp at this
    obtain ⟨s', h1, h2, h3, h4, h5, h6⟩ := exitOps_sim hH (base := base) cs (q + 1) (s := s) (slots := upd slots (base + cs.length) none) hfn hc (by omega)
      (hok.drop hno) (by
        intro l hl
        by_cases he : l = base + cs.length
        · subst he; simp
        · rw [upd_other _ _ he]; exact habove l (by omega)) (by
        intro l hl hb
        have := hopen l hl hb
        rw [List.reverse_cons, List.getElem?_append] at this
        split at this
        · exact this
        · rename_i hlt
          simp only [List.length_reverse] at hlt this
          cases hk : l - base - cs.length with
          | zero => rw [hk] at this; simp at this
          | succ n => rw [hk] at this; simp at this)
    refine ⟨s', h1, h2, h3, h4, ?_, h6⟩
    have : cutAt (upd slots (base + cs.length) none) base = cutAt slots base := by
      funext l
      by_cases h : l < base
      · rw [cutAt_lt h, cutAt_lt h, upd_other _ _ (by omega)]
      · rw [cutAt_ge (by omega), cutAt_ge (by omega)]
    rw [← this]; exact h5
  | true :: cs, q, s, slots, hfn, hc, hsp, hok, habove, hopen => by
    simp only [List.length_cons] at hsp habove
    simp only [GM.exitOps, List.append_assoc] at hc
    have r1 := flush_sim (H := H) hfn hc (by omega)
    have hc1 := hc.right
    generalize hs1 : ({ s.goto (s.frame.ip + Code.len (GM.flush q sp)) with sp := s.sp - q } : VM D) = s1 at r1
    have e1 : s1.sp = base + cs.length + 1 := by subst hs1; show s.sp - q = _; omega
    have e2 : s1.frame.fn = fn := by subst hs1; exact hfn
    have e3 : s1.frame.ip = s.frame.ip + Code.len (GM.flush q sp) := by subst hs1; rfl
    have e4 : Still s s1 := by subst hs1; exact ⟨rfl, rfl, rfl, rfl, rfl, rfl⟩
    have ok1 : Ok H.cfg H.syms.entries γ slots σ s1.mem := by
      subst hs1
      refine hok.setStack rfl rfl rfl rfl rfl rfl fun l loc hl => ⟨?_, rfl⟩
      show l < s.sp - q
      by_cases h : l < base + (cs.length + 1)
      · omega
      · rw [habove l (by omega)] at hl; cases hl
    have op1 : ∀ l, OpenAt s1.mem l → OpenAt s.mem l := by subst hs1; exact fun l h => h
    clear hs1
    rw [← e3] at hc1
    have hst := VM.step_code (H := H) (s := s1) (by rw [e2]; exact hc1) (Instr.fits_of_small (hc1.2.2 _ (by simp)) (by simp))
    have h0 : s1.sp ≠ 0 := by omega
    simp only [VM.exec, VM.goto_sp, h0, if_false] at hst
    have hrest := closeUp_rest H (s1.goto (s1.frame.ip + Instr.closeUpvalue.enc.length)) (s1.sp - 1)
    obtain ⟨_, _, _, _, k5, k6, k7, k8, k9⟩ := hrest
    have ok2 := Ok.close (H := H) (s := s1.goto (s1.frame.ip + Instr.closeUpvalue.enc.length)) ok1 hH (s1.sp - 1)
    have op2 := fun l => openAt_closeUp (H := H) (s := s1.goto (s1.frame.ip + Instr.closeUpvalue.enc.length)) hH (l := s1.sp - 1) (l' := l)
    generalize (s1.goto (s1.frame.ip + Instr.closeUpvalue.enc.length)).closeUp H (s1.sp - 1) = s2 at hst k5 k6 k7 k8 k9 ok2 op2
    have k6' : s2.sp = s1.sp := k6
    obtain ⟨s', h1, h2, h3, h4, h5, h6⟩ := exitOps_sim hH (base := base) cs 0 (s := { s2 with sp := s2.sp - 1 }) (slots := upd slots (s1.sp - 1) none)
      (by show s2.frame.fn = fn; rw [k7]; exact e2)
      (by
        have := CodeAt.tail hc1
        show CodeAt fn s2.frame.ip _
        rw [k7]; exact this)
      (by show s2.sp - 1 = _; omega)
      (by
        refine ok2.setStack rfl rfl rfl rfl rfl rfl fun l loc hl => ⟨?_, rfl⟩
        show l < s2.sp - 1
        by_cases he : l = s1.sp - 1
        · subst he; simp at hl
        · rw [upd_other _ _ he] at hl
          by_cases h : l < base + (cs.length + 1)
          · omega
          · rw [habove l (by omega)] at hl; cases hl)
      (by
        intro l hl
        by_cases he : l = s1.sp - 1
        · subst he; simp
        · rw [upd_other _ _ he]; exact habove l (by omega))
      (by
        intro l hl hb
        obtain ⟨o1, o2⟩ := op2 l hl
        have := hopen l (op1 l o1) hb
        rw [List.reverse_cons, List.getElem?_append] at this
        split at this
        · exact this
        · rename_i hlt
          simp only [List.length_reverse] at hlt this
          cases hk : l - base - cs.length with
          | zero => omega
          | succ n => rw [hk] at this; simp at this)
    refine ⟨s', (r1.trans (Reach.step hst)).mono (by omega) |>.trans h1, ?_, h3, ?_, ?_, ?_⟩
    · refine e4.trans (Still.trans ⟨?_, ?_, ?_, ?_, ?_, ?_⟩ h2)
      · exact k8
      · exact k9
      · show s2.frame.fn = _; rw [k7]; rfl
      · show s2.frame.ups = _; rw [k7]; rfl
      · show s2.frame.st = _; rw [k7]; rfl
      · exact k5
    · rw [h4]
      show s2.frame.ip + _ = _
      rw [k7]
      simp [GM.exitOps, e3]; omega
    · have : cutAt (upd slots (s1.sp - 1) none) base = cutAt slots base := by
        funext l
        by_cases h : l < base
        · rw [cutAt_lt h, cutAt_lt h, upd_other _ _ (by omega)]
        · rw [cutAt_ge (by omega), cutAt_ge (by omega)]
      rw [← this]; exact h5
    · intro l hl
      obtain ⟨o1, o2⟩ := h6 l hl
      exact ⟨op1 l (op2 l o1).1, o2⟩

/-- After a list of statements: its value is on top, above the new variables. -/
structure SQ (H : Host D) (A : Act) (K : Nat → Prop) (slots : LocMap) (g g' : GState) (s : VM D) (ip : Nat) (v : SVal)
    (γ' slots' : LocMap) (σ' : SSt D) (s' : VM D) : Prop where
  below : ∀ l, l < A.st + g.cur.locals.length → slots' l = slots l
  above : ∀ l, A.st + g'.cur.locals.length ≤ l → slots' l = none
  same : ∀ i, i < s.sp → slots i = none → s'.stack i = s.stack i
  sp : s'.sp + g.cur.locals.length = s.sp + g'.cur.locals.length + 1
  al : s.sp = A.st + g.cur.locals.length ∨ g'.cur.locals.length = g.cur.locals.length
  ip : s'.frame.ip = ip
  val : VRel H.cfg H.syms.entries γ' v (s'.stack (s'.sp - 1))
  ok : Ok H.cfg H.syms.entries γ' slots' σ' s'.mem
  openK : OpenK K s'.mem

theorem Post.andThen {α : Type} {A : Act} {B : Bd} {K : Nat → Prop} {γ slots : LocMap} {s : VM D} {r : Out α × SSt D}
    {Q Q' : α → LocMap → LocMap → SSt D → VM D → Prop} (h : Post H A B K γ slots s r Q)
    (hf : ∀ a γ' slots' σ' s', Ext A.st γ slots s γ' slots' s' → Q a γ' slots' σ' s' →
      Post H A B K γ' slots' s' ((.ok a, σ') : Out α × SSt D) Q') : Post H A B K γ slots s r Q' := by
  obtain ⟨o, σ'⟩ := r
  cases o with
  | ok a =>
    obtain ⟨γ', slots', s', h1, h2, h3⟩ := h
    exact Post.of_reach h1 h2 Bd.refl (hf _ _ _ _ _ h2 h3)
  | ret v => exact h
  | err e sp => exact h
  | panic => exact h
  | timeout => exact h
  | deep => exact h
  | unspec => trivial

/-- Positions that may be open inside a scope with variables from `base` on. -/
def innerK (K : Nat → Prop) (A : Act) (base : Nat) (locals : List Local) : Nat → Prop := fun l =>
  if l < base then K l else ∃ x, locals[l - A.st]? = some x ∧ x.captured = true

theorem innerK_lt {K : Nat → Prop} {A : Act} {base l : Nat} {locals : List Local} (h : l < base) :
    innerK K A base locals l ↔ K l := by simp [innerK, h]

theorem openAt_slot {cfg : Cfg} {syms : List String} {γ slots : LocMap} {σ : SSt D} {m : Mem D} (h : Ok cfg syms γ slots σ m) {l : Nat}
    (ho : OpenAt m l) : ∃ loc, slots l = some loc := by
  obtain ⟨c, hc, hh⟩ := ho
  obtain ⟨loc, l', h1, h2⟩ := h.opened c hc
  rw [hh] at h2; cases h2
  have := (h.cell c loc h1).2.2
  rw [hh] at this
  exact ⟨loc, this.1⟩

/-- Entering a scope. -/
theorem St.enter {A : Act} {K : Nat → Prop} {γ slots : LocMap} {g g1 : GState} {env : SEnv} {σ : SSt D} {s : VM D} (locals : List Local)
    (h : St H A K γ slots g env σ s) (h1 : g1.cur.locals = g.cur.locals) (h2 : g1.encl = g.encl) (hi : GInv g1) (hf : UpsFree g1) :
    St H A (innerK K A (A.st + g.cur.locals.length) locals) γ slots g1 env σ s := by
  obtain ⟨envL, a1, a2, a3, a4⟩ := h.frame
  refine ⟨hi, hf, h.act, ⟨envL, a1, by rw [h1]; exact a2, by rw [h1]; exact a3, by rw [h2]; exact a4⟩, h.ok, ?_, h.le⟩
  intro l hl
  obtain ⟨loc, hs⟩ := openAt_slot h.ok hl
  have := h.slotLt hs
  rw [innerK_lt this]
  exact h.openK l hl

theorem GLevel.staying_append (l : GLevel) (d : Nat) : l.staying d ++ (l.leaving d).reverse = l.locals := by
  rw [GLevel.staying, GLevel.leaving, ← List.reverse_append, List.takeWhile_append_dropWhile, List.reverse_reverse]

/-- The variables outside a scope. -/
theorem exit_locals {g gb : GState} {new : List Local} (hi : GInv g) (hib : GInv gb) (he : GExtN new g.enterScope gb) :
    gb.cur.locals = gb.exitScope.cur.locals ++ new ∧ gb.exitScope.cur.locals.length = g.cur.locals.length := by
  obtain ⟨a1, a2, a3⟩ := exitScope_ext hi hib he
  have h := GLevel.staying_append gb.cur (gb.cur.depth - 1)
  rw [a3, List.reverse_reverse] at h
  obtain ⟨old, h1, h2⟩ := a1.locals
  refine ⟨h.symm, ?_⟩
  rw [h1, List.append_nil, ← h2.length_eq]

/-- The tables at the end of a scope. -/
theorem Bound.enter {A : Act} {K : Nat → Prop} {g gb : GState} {new : List Local} (hb : Bound H A K gb.exitScope) (hi : GInv g)
    (hib : GInv gb) (he : GExtN new g.enterScope gb) :
    Bound H A (innerK K A (A.st + g.cur.locals.length) gb.cur.locals) gb := by
  obtain ⟨h1, h2⟩ := exit_locals hi hib he
  refine ⟨hb.ups, hb.consts, hb.constsLen, hb.globals, ?_⟩
  intro i l hl hc
  unfold innerK
  split
  · rename_i hlt
    rw [h1, List.getElem?_append_left (by omega)] at hl
    exact hb.caps i l hl hc
  · exact ⟨l, by rw [Nat.add_sub_cancel_left]; exact hl, hc⟩

/-- Leaving a scope: its variables disappear from below the value. -/
theorem sim_leave (hH : HRel H S) {A : Act} {B : Bd} {K : Nat → Prop} {γ slots slots1 : LocMap} {g gb : GState} {env : SEnv} {σ σ1 : SSt D}
    {s0 s1 : VM D} {v : SVal} {ip : Nat} {sp : Span} {new : List Local} {γ0 : LocMap} (hst : St H A K γ0 slots g env σ s0)
    (hib : GInv gb) (he : GExtN new g.enterScope gb) (ha : ActOk γ A s1) (hc : CodeAt A.fn s1.frame.ip (gb.exitC sp))
    (hq : SQ H A (innerK K A (A.st + g.cur.locals.length) gb.cur.locals) slots g gb s0 ip v γ slots1 σ1 s1) :
    Post H A B K γ slots1 s1 ((.ok v, σ1) : Out SVal × SSt D) (EQ H K slots s0 (ip + Code.len (gb.exitC sp))) := by
  obtain ⟨h1, h2⟩ := exit_locals hst.inv hib he
  obtain ⟨_, _, h3⟩ := exitScope_ext hst.inv hib he
  have hlen : gb.cur.locals.length = g.cur.locals.length + new.length := by rw [h1, List.length_append, h2]
  have hsp := hq.sp
  have hcaps : ∀ l, OpenAt s1.mem l → A.st + g.cur.locals.length ≤ l →
      (new.map (·.captured))[l - (A.st + g.cur.locals.length)]? = some true := by
    intro l hl hle
    have := hq.openK l hl
    unfold innerK at this
    rw [if_neg (by omega)] at this
    obtain ⟨x, hx, hxc⟩ := this
    rw [h1, List.getElem?_append_right (by omega), h2] at hx
    have e : l - A.st - g.cur.locals.length = l - (A.st + g.cur.locals.length) := by omega
    rw [e] at hx
    simp [hx, hxc]
  have hcut : cutAt slots1 (A.st + g.cur.locals.length) = slots := by
    funext l
    by_cases hl : l < A.st + g.cur.locals.length
    · rw [cutAt_lt hl, hq.below l hl]
    · rw [cutAt_ge (by omega)]
      cases hs : slots l with
      | none => rfl
      | some loc => have := hst.slotLt hs; omega
  have hop : ∀ l, OpenAt s1.mem l → l < A.st + g.cur.locals.length → K l := by
    intro l hl hlt
    exact (innerK_lt hlt).1 (hq.openK l hl)
  unfold GState.exitC GM.exitCode at hc ⊢
  rw [h3, List.map_reverse] at hc ⊢
  by_cases hn : new = []
  · subst hn
    simp only [List.length_nil, Nat.add_zero] at hlen
    simp only [List.map_nil, List.reverse_nil, if_true, Code.len_nil, Nat.add_zero] at hc ⊢
    have hs1 : slots1 = slots := by
      rw [← hcut]
      funext l
      by_cases hl : l < A.st + g.cur.locals.length
      · rw [cutAt_lt hl]
      · rw [cutAt_ge (by omega), hq.above l (by omega)]
    have e : s1.sp - 1 = s0.sp := by omega
    have hv := hq.val
    rw [e] at hv
    refine Post.pure' (H := H) (A := A) ⟨hs1, hq.same, by omega, hq.ip, hv, by rw [← hs1]; exact hq.ok, ?_⟩
    intro l hl
    refine hop l hl ?_
    by_cases hlt : l < A.st + g.cur.locals.length
    · exact hlt
    · have := hcaps l hl (by omega)
      simp at this
  · have hne : ((new.map (·.captured)).reverse) ≠ [] := by simpa using hn
    have hal : s0.sp = A.st + g.cur.locals.length := by
      rcases hq.al with h | h
      · exact h
      · have : new.length = 0 := by omega
        exact absurd (List.length_eq_zero_iff.1 this) hn
    rw [if_neg hne] at hc ⊢
    simp only [List.singleton_append] at hc ⊢
    have hstep := step_at (H := H) ha.fn hc (by simp)
    have hp1 : s1.sp ≠ 0 := by omega
    simp only [VM.exec, VM.popSwapOut, VM.goto_sp, hp1, if_false, VM.goto_stack] at hstep
    have hc1 := hc.tail
    generalize hs2 : ({ s1.goto (s1.frame.ip + Instr.blockResult.enc.length) with
        sp := s1.sp - 1, stack := upd s1.stack (s1.sp - 1) .none, blockResults := s1.stack (s1.sp - 1) :: s1.blockResults } : VM D) = s2
    have hstep2 : s1.step H = .next s2 := by rw [← hs2]; exact hstep
    have e1 : s2.frame.fn = A.fn := by rw [← hs2]; exact ha.fn
    have e2 : s2.frame.ip = s1.frame.ip + Instr.blockResult.enc.length := by rw [← hs2]; rfl
    have e3 : s2.sp = s1.sp - 1 := by rw [← hs2]
    have e4 : s2.stack = upd s1.stack (s1.sp - 1) .none := by rw [← hs2]
    have e5 : s2.blockResults = s1.stack (s1.sp - 1) :: s1.blockResults := by rw [← hs2]
    have e6 : s2.frames = s1.frames ∧ s2.frame.ups = s1.frame.ups ∧ s2.frame.st = s1.frame.st := by rw [← hs2]; exact ⟨rfl, rfl, rfl⟩
    have ok2 : Ok H.cfg H.syms.entries γ slots1 σ1 s2.mem := by
      rw [← hs2]
      refine hq.ok.setStack rfl rfl rfl rfl rfl rfl fun l loc hl => ?_
      have hlt : l < A.st + gb.cur.locals.length := by
        by_cases h : l < A.st + gb.cur.locals.length
        · exact h
        · rw [hq.above l (by omega)] at hl; cases hl
      exact ⟨show l < s1.sp - 1 by omega, upd_other _ _ (by omega)⟩
    have op2 : ∀ l, OpenAt s2.mem l → OpenAt s1.mem l := by rw [← hs2]; exact fun l h => h
    rw [← e2] at hc1
    obtain ⟨s3, r1, r2, r3, r4, r5, r6⟩ := exitOps_sim hH.stack (base := A.st + g.cur.locals.length) (σ := σ1) (γ := γ)
      (new.map (·.captured)).reverse 0 (s := s2) (slots := slots1) e1 hc1 (by rw [e3]; simp; omega) ok2
      (by intro l hl; simp at hl; exact hq.above l (by omega))
      (by intro l hl hle; rw [List.reverse_reverse]; exact hcaps l (op2 l hl) hle)
    rw [hcut] at r5
    have hc2 := hc1.right
    rw [← r4] at hc2
    have hfn3 : s3.frame.fn = A.fn := r2.fn.trans e1
    have hstep3 := step_at (H := H) hfn3 hc2 (by simp)
    have hbr : s3.blockResults = s1.stack (s1.sp - 1) :: s1.blockResults := r2.br.trans e5
    simp only [VM.exec, VM.goto_br, hbr, VM.push_none hH.stack] at hstep3
    refine ⟨γ, slots, _, ((Reach.step hstep2).trans (r1.trans (Reach.step hstep3))).mono (by omega), ?_, ?_⟩
    · refine ⟨γ.le_refl, ?_, r2.frames.trans e6.1, rfl, r2.fn.trans (e1.trans ha.fn.symm), r2.ups.trans e6.2.1, r2.base.trans e6.2.2, ?_⟩
      · intro l hl
        exact (hq.below l (by omega)).symm
      · intro l hl _
        simp only [VM.pushU, VM.goto_sp, VM.goto_stack]
        rw [upd_other _ _ (by omega), r2.stack, e4, upd_other _ _ (by omega)]
    · have hs3 : s3.stack = upd s1.stack (s1.sp - 1) .none := r2.stack.trans e4
      refine ⟨rfl, ?_, ?_, ?_, ?_, ?_, ?_⟩
      · intro i hi hnone
        simp only [VM.pushU, VM.goto_sp, VM.goto_stack]
        rw [upd_other _ _ (by omega), hs3, upd_other _ _ (by omega)]
        exact hq.same i hi hnone
      · simp only [VM.pushU, VM.goto_sp]; omega
      · simp only [VM.pushU, VM.goto_ip]
        rw [r4, e2, hq.ip]
        simp; omega
      · simp only [VM.pushU, VM.goto_sp, VM.goto_stack]
        have : s3.sp = s0.sp := by omega
        rw [this, upd_same]
        exact hq.val
      · refine r5.setStack rfl rfl rfl rfl rfl rfl fun l loc hl => ?_
        have := hst.slotLt hl
        exact ⟨show l < s3.sp + 1 by omega, upd_other _ _ (by show l ≠ s3.sp; omega)⟩
      · intro l hl
        obtain ⟨o1, o2⟩ := r6 l hl
        exact hop l (op2 l o1) o2

/-! ## New variables -/

/-- Declaring variables whose values are already on the stack. -/
theorem bindVars_sim {cfg : Cfg} {syms : List String} {γ : LocMap} {s : VM D} {st d : Nat} {envC : SEnv} :
    ∀ (xs : List String) {vs : List SVal} {slots : LocMap} {ls : List Local} {envL : SEnv} {σ : SSt D},
    vs.length = xs.length → (xs.all nameOk) = true → Ok cfg syms γ slots σ s.mem → LocEnv slots st ls envL →
    (∀ l, st + ls.length ≤ l → slots l = none) → st + ls.length + xs.length ≤ s.sp →
    Val.RelL (CRel cfg syms γ) vs (seg s.stack (st + ls.length) vs.length) →
    ∃ slots' envL' σ', SM.bindVars (xs.zip vs) (envL ++ envC) σ = (.ok (envL' ++ envC), σ') ∧
      Ok cfg syms γ slots' σ' s.mem ∧ LocEnv slots' st (ls ++ xs.map fun n => ⟨n, d, false⟩) envL' ∧
      (∀ l, st + ls.length + xs.length ≤ l → slots' l = none) ∧ (∀ l, l < st + ls.length → slots' l = slots l)
  | [], [], slots, ls, envL, σ, _, _, hok, hl, hab, hsp, _ =>
    ⟨slots, envL, σ, rfl, hok, by simpa using hl, by simpa using hab, fun _ _ => rfl⟩
  | x :: xs, v :: vs, slots, ls, envL, σ, hlen, hx, hok, hl, hab, hsp, hv => by
    simp only [List.length_cons] at hlen hsp hv
    simp only [List.all_cons, Bool.and_eq_true] at hx
    rw [seg_succ] at hv
    have ok1 := hok.alloc (hab (st + ls.length) (Nat.le_refl _)) (by show _ < s.sp; omega) hv.1
    have hl1 : LocEnv (upd slots (st + ls.length) (some σ.next)) st (ls ++ [⟨x, d, false⟩]) ((x, σ.next) :: envL) := by
      refine LocEnv.var (l := ⟨x, d, false⟩) (hl.congr fun i hi hi' => upd_other _ _ (by omega)) ?_ (by simp)
      simpa [nameOk] using hx.1
    obtain ⟨slots', envL', σ', h1, h2, h3, h4, h5⟩ := bindVars_sim (envC := envC) (d := d) xs (vs := vs) (by omega) hx.2 ok1 hl1
      (by
        intro l hl'
        simp only [List.length_append, List.length_singleton] at hl'
        rw [upd_other _ _ (by omega)]; exact hab l (by omega))
      (by simp; omega)
      (by simpa [Nat.add_assoc] using hv.2)
    refine ⟨slots', envL', σ', ?_, h2, by simpa using h3, ?_, ?_⟩
    · exact h1
    · intro l hl'; simp only [List.length_cons] at hl'; exact h4 l (by simp; omega)
    · intro l hl'
      rw [h5 l (by simp; omega), upd_other _ _ (by omega)]
  | [], _ :: _, _, _, _, _, hlen, _, _, _, _, _, _ => by simp at hlen
  | _ :: _, [], _, _, _, _, hlen, _, _, _, _, _, _ => by simp at hlen

end

end Quilt
