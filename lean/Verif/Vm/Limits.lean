import Verif.Vm.Lemmas

/-!
# The machine with limits against the machine without
-/

namespace Quilt

/-- The same host with other limits. -/
def Host.withLimits {D : Type} (H : Host D) (n m : Option Nat) : Host D :=
  { H with opts := { H.opts with stackSize := n, callStackSize := m } }

/-- What a machine limited to `n` values and `m` suspended frames (`fr` of them in use) may do
(second outcome) where the machine without limits does `r`: the same, within the limit, or a
`StackOverflow` because the step needs a full stack or a further frame. Nothing is said where the
machine without limits rejects an access above the stack pointer (`oobR`). -/
inductive Lim {D : Type} (n m fr : Nat) : StepR D → StepR D → Prop
  | stray (sp x r) : Lim n m fr (.err (.overflow .stackOverflow) sp x) r
  | same (r) : (∀ s', r = .next s' → s'.sp ≤ n) → Lim n m fr r r
  | over (r sp x) : (m ≤ fr ∨ ∃ s', r = .next s' ∧ n ≤ s'.sp) →
      Lim n m fr r (.err (.overflow .stackOverflow) sp x)

namespace VM
variable {D : Type} {H : Host D} {s : VM D} {n m fr : Nat}

theorem Lim.panic : Lim n m fr (.panic : StepR D) .panic := .same _ (by simp)

theorem Lim.errAt {e : Err} : Lim n m fr (s.errAt e) (s.errAt e) :=
  .same _ (by intro s' h; simp [VM.errAt] at h)

theorem Lim.err1 {e : Err} : Lim n m fr (s.err1 e) (s.err1 e) :=
  .same _ (by intro s' h; simp [VM.err1] at h)

theorem Lim.next {s : VM D} (h : s.sp ≤ n) : Lim n m fr (.next s) (.next s) :=
  .same _ (by intro s' h'; simp at h'; rw [← h']; exact h)

theorem Lim.push {v : VVal} : Lim n m fr (s.push (H.withLimits none none) v)
    (s.push (H.withLimits (some n) (some m)) v) := by
  simp only [VM.push, Host.withLimits, reached, Bool.false_eq_true, if_false]
  by_cases h : n ≤ s.sp
  · simp only [h, decide_true, if_true]
    exact .over _ _ _ (.inr ⟨_, rfl, by simp [pushU]; omega⟩)
  · simp only [h, decide_false, Bool.false_eq_true, if_false]
    exact Lim.next (by simp [pushU]; omega)

theorem Lim.lift {α : Type} {r : Res α} {k k' : α → StepR D}
    (h : ∀ a, Lim n m fr (k a) (k' a)) : Lim n m fr (s.lift r k) (s.lift r k') := by
  cases r with
  | ok a => exact h a
  | err e => exact Lim.err1
  | panic => exact Lim.panic

theorem Lim.pop {k k' : VVal → VM D → StepR D} (hs : s.sp ≤ n)
    (h : ∀ v (s' : VM D), s'.sp ≤ n → s'.frames = s.frames → Lim n m fr (k v s') (k' v s')) :
    Lim n m fr (s.pop k) (s.pop k') := by
  unfold VM.pop; split
  · exact Lim.panic
  · exact h _ _ (by simp; omega) rfl

theorem Lim.popSwapOut {k k' : VVal → VM D → StepR D} (hs : s.sp ≤ n)
    (h : ∀ v (s' : VM D), s'.sp ≤ n → s'.frames = s.frames → Lim n m fr (k v s') (k' v s')) :
    Lim n m fr (s.popSwapOut k) (s.popSwapOut k') := by
  unfold VM.popSwapOut; split
  · exact Lim.panic
  · exact h _ _ (by simp; omega) rfl

theorem pushAll_none (vs : List VVal) :
    ∃ s', s.pushAll (H.withLimits none none) vs = .next s' ∧ s'.sp = s.sp + vs.length := by
  induction vs generalizing s with
  | nil => exact ⟨s, rfl, rfl⟩
  | cons v vs ih =>
    simp only [pushAll, VM.push, Host.withLimits, reached, Bool.false_eq_true, if_false]
    obtain ⟨s', h1, h2⟩ := ih (s := s.pushU v)
    refine ⟨s', h1, ?_⟩
    rw [h2]; simp [pushU]; omega

theorem Lim.pushAll (vs : List VVal) (hs : s.sp ≤ n) :
    Lim n m fr (s.pushAll (H.withLimits none none) vs)
      (s.pushAll (H.withLimits (some n) (some m)) vs) := by
  induction vs generalizing s with
  | nil => exact Lim.next hs
  | cons v vs ih =>
    by_cases h : n ≤ s.sp
    · obtain ⟨s', h1, h2⟩ := pushAll_none (H := H) (s := s) (v :: vs)
      rw [h1]
      have : s.pushAll (H.withLimits (some n) (some m)) (v :: vs) =
          .err (.overflow .stackOverflow) (s.frame.fn.getSpan s.frame.ip) s := by
        simp [VM.pushAll, VM.push, Host.withLimits, reached, h, VM.errAt]
      rw [this]
      exact .over _ _ _ (.inr ⟨_, rfl, by simp at h2; omega⟩)
    · simp only [VM.pushAll, VM.push, Host.withLimits, reached, h, decide_false, Bool.false_eq_true,
        if_false]
      exact ih (by simp [pushU]; omega)

theorem Lim.runBuiltin {f : BFn D VClos} {k : Nat} {ex : Option (ExitFn D)} :
    Lim n m fr (s.runBuiltin (H.withLimits none none) f k ex)
      (s.runBuiltin (H.withLimits (some n) (some m)) f k ex) := by
  unfold VM.runBuiltin; split
  · exact Lim.errAt
  · exact Lim.lift fun v => Lim.push

theorem closeUp_lim {last : Nat} (h : last < n) :
    s.closeUp (H.withLimits (some n) (some m)) last = s.closeUp (H.withLimits none none) last := by
  have : ¬ n ≤ last := by omega
  simp [closeUp, Host.withLimits, reached, this]

theorem closeRange_lim {lo k : Nat} (h : lo + k ≤ n) :
    s.closeRange (H.withLimits (some n) (some m)) lo k =
      s.closeRange (H.withLimits none none) lo k := by
  induction k generalizing s lo with
  | zero => rfl
  | succ k ih =>
    simp only [closeRange]
    rw [closeUp_lim (by omega), ih (by omega)]

theorem exec_lim (hs : s.sp ≤ n) (i : Instr) :
    Lim n m s.frames.length (s.exec (H.withLimits none none) i)
      (s.exec (H.withLimits (some n) (some m)) i) := by
  cases i with
  | halt => exact Lim.err1
  | loadNone => exact Lim.push
  | loadNoneMany k =>
    simp only [exec, Host.withLimits, reached, Bool.false_eq_true, if_false]
    by_cases h : n ≤ s.sp + k
    · simp only [h, decide_true, if_true]
      exact .over _ _ _ (.inr ⟨_, rfl, h⟩)
    · simp only [h, decide_false, Bool.false_eq_true, if_false]
      exact Lim.next (by simp; omega)
  | ret =>
    simp only [exec, VM.pop]; split
    · exact Lim.panic
    · rename_i h0
      rcases Nat.lt_or_ge s.frame.st (s.sp - 1) with h | h
      · simp only [closeRange_lim (H := H) (m := m) (s := { s with sp := s.sp - 1 })
          (lo := s.frame.st) (k := s.sp - 1 - s.frame.st) (n := n) (by omega)]
        split
        · exact Lim.push
        · by_cases hc : H.cfg.chk = true ∧ s.sp - 1 ≠ 0
          · simp only [Host.withLimits, closeRange_same, hc, ne_eq, not_false_eq_true, and_self, if_true]
            exact Lim.panic
          · simp only [Host.withLimits, closeRange_same, hc, if_false]
            exact .same _ (by simp)
      · have : s.sp - 1 - s.frame.st = 0 := by omega
        simp only [this, closeRange]
        split
        · exact Lim.push
        · by_cases hc : H.cfg.chk = true ∧ s.sp - 1 ≠ 0
          · simp only [Host.withLimits, hc, ne_eq, not_false_eq_true, and_self, if_true]
            exact Lim.panic
          · simp only [Host.withLimits, hc, if_false]
            exact .same _ (by simp)
  | blockResult =>
    simp only [exec]; apply Lim.popSwapOut hs; intro v s' h _; exact Lim.next h
  | blockReturn =>
    simp only [exec]; split
    · exact Lim.push
    · exact Lim.errAt
  | pop => simp only [exec]; apply Lim.pop hs; intro v s' h _; exact Lim.next h
  | swap => simp only [exec]; split; exact Lim.panic; exact Lim.next hs
  | swapPop => simp only [exec]; split; exact Lim.panic; exact Lim.next (by simp; omega)
  | popMany k => simp only [exec]; split; exact Lim.panic; exact Lim.next (by simp; omega)
  | loadConst k =>
    simp only [exec]; split
    · exact Lim.push
    · exact Lim.push
    · exact Lim.panic
  | loadLocal k =>
    simp only [exec]
    by_cases h : s.sp ≤ s.frame.st + k
    · simp only [oob, oobR, VM.errAt, Host.withLimits, h, decide_true, if_true]; exact .stray _ _ _
    · have : ¬ n ≤ s.frame.st + k ∨ ¬ n ≤ s.frame.st + k := by omega
      have e1 : oob (H.withLimits none none).opts.stackSize s.sp (s.frame.st + k) = false := by
        simp [oob, Host.withLimits]; omega
      by_cases h' : n ≤ s.frame.st + k
      · omega
      · have e2 : oob (H.withLimits (some n) (some m)).opts.stackSize s.sp (s.frame.st + k) = false := by
          simp [oob, Host.withLimits]; omega
        rw [e1, e2]; exact Lim.push
  | setLocal k =>
    simp only [exec]
    by_cases h : s.sp ≤ s.frame.st + k
    · simp only [oob, oobR, VM.errAt, Host.withLimits, h, decide_true, if_true]
      split
      · exact Lim.panic
      · exact .stray _ _ _
    · have e1 : oob (H.withLimits none none).opts.stackSize s.sp (s.frame.st + k) = false := by
        simp [oob, Host.withLimits]; omega
      have e2 : oob (H.withLimits (some n) (some m)).opts.stackSize s.sp (s.frame.st + k) = false := by
        simp [oob, Host.withLimits]; omega
      rw [e1, e2]
      split
      · exact Lim.panic
      · exact Lim.next hs
  | loadGlobal k =>
    simp only [exec]; split
    · exact Lim.push
    · exact Lim.err1
  | defineGlobal k => simp only [exec]; apply Lim.pop hs; intro v s' h _; exact Lim.next h
  | defineGlobalDefaulted k =>
    simp only [exec]; apply Lim.pop hs; intro v s' h _
    split <;> exact Lim.next h
  | setGlobal k =>
    simp only [exec]; split
    · exact Lim.panic
    · split
      · exact Lim.next hs
      · exact Lim.err1
  | setUpvalue k =>
    simp only [exec]; split
    · exact Lim.panic
    · split
      · split
        · rename_i l _
          by_cases h : s.sp ≤ l
          · simp only [oob, oobR, VM.errAt, Host.withLimits, h, decide_true, if_true]; exact .stray _ _ _
          · have e1 : oob (H.withLimits none none).opts.stackSize s.sp l = false := by
              simp [oob, Host.withLimits]; omega
            have e2 : oob (H.withLimits (some n) (some m)).opts.stackSize s.sp l = false := by
              simp [oob, Host.withLimits]; omega
            rw [e1, e2]; exact Lim.next hs
        · exact Lim.next hs
      · exact Lim.panic
  | loadUpvalue k =>
    simp only [exec]; split
    · split
      · rename_i l _
        by_cases h : s.sp ≤ l
        · simp only [oob, oobR, VM.errAt, Host.withLimits, h, decide_true, if_true]; exact .stray _ _ _
        · have e1 : oob (H.withLimits none none).opts.stackSize s.sp l = false := by
            simp [oob, Host.withLimits]; omega
          have e2 : oob (H.withLimits (some n) (some m)).opts.stackSize s.sp l = false := by
            simp [oob, Host.withLimits]; omega
          rw [e1, e2]; exact Lim.push
      · exact Lim.push
    · exact Lim.panic
  | indexGet =>
    simp only [exec]; apply Lim.pop hs; intro v s' h _
    apply Lim.pop h; intro v' s'' h' _
    exact Lim.lift fun a => Lim.push
  | closeUpvalue =>
    simp only [exec]; split
    · exact Lim.panic
    · rw [closeUp_lim (by omega)]
      refine Lim.next ?_
      have := closeUp_same (H := H.withLimits none none) (s := s) (s.sp - 1)
      simp only [this.1]; omega
  | createPair =>
    simp only [exec, VM.pop]; split
    · exact Lim.panic
    · split
      · exact Lim.panic
      · exact Lim.next (by simp [pushU]; omega)
  | createArray k =>
    simp only [exec]; split
    · exact Lim.panic
    · exact Lim.lift fun a => Lim.push
  | createRange =>
    simp only [exec]; apply Lim.pop hs; intro v s' h _
    apply Lim.pop h; intro v' s'' h' _
    exact Lim.lift fun a => Lim.push
  | unpack k =>
    simp only [exec]; apply Lim.popSwapOut hs; intro v s' h _
    exact Lim.lift fun a => Lim.pushAll _ h
  | createFunction k =>
    simp only [exec]; split
    · exact Lim.push
    · exact Lim.errAt
    · exact Lim.panic
  | createClosure k us =>
    simp only [exec]; split
    · split
      · exact Lim.push
      · exact Lim.panic
    · exact Lim.errAt
    · exact Lim.panic
  | exitContext =>
    simp only [exec]; split
    · exact Lim.lift fun _ => Lim.next hs
    · exact Lim.next hs
  | enterContext k a =>
    simp only [exec, Host.withLimits]; split
    · exact Lim.runBuiltin (H := H)
    · exact Lim.runBuiltin (H := H)
    · exact Lim.err1
  | callBuiltin k a =>
    simp only [exec, Host.withLimits]; split
    · exact Lim.runBuiltin (H := H)
    · exact Lim.errAt
    · exact Lim.err1
  | callFunction a =>
    simp only [exec]; split
    · exact Lim.panic
    · simp only [Host.withLimits, reached, Bool.false_eq_true, if_false]
      by_cases h : m ≤ s.frames.length
      · simp only [h, decide_true, if_true]
        exact .over _ _ _ (.inl h)
      · simp only [h, decide_false, Bool.false_eq_true, if_false]
        split
        · split
          · exact Lim.errAt
          · exact Lim.next hs
        · split
          · exact Lim.errAt
          · exact Lim.next hs
        · exact Lim.err1
  | jumpForward o => exact Lim.next hs
  | jumpBackward o => simp only [exec]; split; exact Lim.panic; exact Lim.next hs
  | jumpIfFalse o =>
    simp only [exec]; split
    · exact Lim.panic
    · refine Lim.lift fun b => ?_
      split <;> exact Lim.next hs
  | jumpIfNotEq o =>
    simp only [exec]; split
    · exact Lim.panic
    · simp only [VM.ceq, Host.withLimits]
      split
      · exact Lim.next (by simp; omega)
      · exact Lim.next (by simp; omega)
      · exact Lim.panic
  | newLoopCtx => exact Lim.push
  | iterNext o =>
    simp only [exec]; split
    · exact Lim.panic
    · split
      · refine Lim.lift fun r => ?_
        split
        · exact Lim.push
        · exact Lim.next hs
      · exact Lim.err1
  | unary op =>
    simp only [exec, VM.pop]; split
    · exact Lim.panic
    · exact Lim.lift fun v => Lim.next (by simp [pushU]; omega)
  | binary op =>
    simp only [exec, VM.pop]; split
    · exact Lim.panic
    · split
      · exact Lim.panic
      · exact Lim.lift fun v => Lim.next (by simp [pushU]; omega)

/-- One step of the limited machine against one step of the machine without limits. -/
theorem step_lim (hs : s.sp ≤ n) :
    Lim n m s.frames.length (s.step (H.withLimits none none))
      (s.step (H.withLimits (some n) (some m))) := by
  unfold step; split
  · exact Lim.errAt
  · split
    · rename_i i k _
      exact exec_lim (s := { s with frame := { s.frame with ip := s.frame.ip + k } }) hs _
    · exact Lim.panic

end VM
end Quilt
