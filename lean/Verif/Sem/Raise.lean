import Verif.Vm.Spoil
import Verif.Sem.Ready

/-!
# Machines with larger limits

A machine with a larger stack, more room for calls or strings, or more time does the same as before, unless the smaller one reports that it reached one of its
limits. Used for C92.
-/

namespace Quilt

variable {D : Type}

/-! ## Stack and calls -/

namespace VM
variable {H : Host D} {s : VM D} {n n' c c' : Nat}

theorem closeRange_calls {a b b' : Option Nat} (s : VM D) : ∀ lo k, s.closeRange (H.withLimits a b) lo k = s.closeRange (H.withLimits a b') lo k := by
  intro lo k
  induction k generalizing s lo with
  | zero => rfl
  | succ k ih => exact ih (s := s.closeUp (H.withLimits a b) lo) (lo := lo + 1)

theorem pushAll_calls {a b b' : Option Nat} (vs : List VVal) : ∀ s : VM D, s.pushAll (H.withLimits a b) vs = s.pushAll (H.withLimits a b') vs := by
  induction vs with
  | nil => intro s; rfl
  | cons v vs ih =>
    intro s
    simp only [pushAll, ih]
    rfl

/-- Only calls look at the number of calls in progress. -/
theorem exec_calls {a b b' : Option Nat} (i : Instr) (hi : ∀ k, i ≠ .callFunction k) : s.exec (H.withLimits a b) i = s.exec (H.withLimits a b') i := by
  cases i with
  | ret => simp only [exec, closeRange_calls (b := b) (b' := b')]; rfl
  | unpack k => simp only [exec, pushAll_calls (b := b) (b' := b')]
  | callFunction k => exact (hi k rfl).elim
  | _ => rfl

/-- One instruction with larger limits. -/
theorem exec_raise (hs : s.sp ≤ n) (hn : n ≤ n') (hc : c ≤ c') (i : Instr) :
    Over (s.exec (H.withLimits (some n) (some c)) i) ∨ Over (s.exec (H.withLimits none none) i) ∨
      s.exec (H.withLimits (some n) (some c)) i = s.exec (H.withLimits (some n') (some c')) i := by
  by_cases hi : ∃ k, i = .callFunction k
  · obtain ⟨k, rfl⟩ := hi
    simp only [exec, Host.withLimits, reached]
    by_cases h : c ≤ s.frames.length
    · by_cases h0 : s.sp < k + 1
      · simp [h0]
      · left; simp only [h0, h, decide_true, if_true, if_false]; exact ⟨_, _, rfl⟩
    · have h' : ¬ c' ≤ s.frames.length := by omega
      right; right; simp only [h, h']
  · have hi : ∀ k, i ≠ .callFunction k := fun k h => hi ⟨k, h⟩
    rw [exec_calls (b := some c) (b' := some (s.frames.length + 1)) i hi, exec_calls (b := some c') (b' := some (s.frames.length + 1)) i hi]
    have h1 := exec_lim (H := H) (m := s.frames.length + 1) hs i
    have h2 := exec_lim (H := H) (m := s.frames.length + 1) (Nat.le_trans hs hn) i
    generalize s.exec (H.withLimits none none) i = r0 at h1 h2
    by_cases hnn : n = n'
    · subst hnn; exact .inr (.inr rfl)
    · generalize s.exec (H.withLimits (some n) (some (s.frames.length + 1))) i = r1 at h1
      generalize s.exec (H.withLimits (some n') (some (s.frames.length + 1))) i = r2 at h2
      cases h1 with
      | stray => exact .inr (.inl ⟨_, _, rfl⟩)
      | over => exact .inl ⟨_, _, rfl⟩
      | same _ h3 =>
        cases h2 with
        | stray => exact .inr (.inl ⟨_, _, rfl⟩)
        | same => exact .inr (.inr rfl)
        | over _ sp x h4 =>
          rcases h4 with h4 | ⟨s', h4, h5⟩
          · omega
          · have := h3 s' h4; omega

theorem step_raise (hs : s.sp ≤ n) (hn : n ≤ n') (hc : c ≤ c') :
    Over (s.step (H.withLimits (some n) (some c))) ∨ Over (s.step (H.withLimits none none)) ∨
      s.step (H.withLimits (some n) (some c)) = s.step (H.withLimits (some n') (some c')) := by
  unfold step; split
  · exact .inr (.inr rfl)
  · split
    · rename_i i k _
      exact exec_raise (s := { s with frame := { s.frame with ip := s.frame.ip + k } }) hs hn hc i
    · exact .inr (.inr rfl)

/-- Whole runs, if the machine without limits rejects no access. -/
theorem run_raise (hn : n ≤ n') (hc : c ≤ c') (clock : Nat → Bool) : ∀ (fuel i j : Nat) {s : VM D}, s.sp ≤ n →
    (∀ k s', s.steps (H.withLimits none none) k = some s' → ¬ Over (s'.step (H.withLimits none none))) →
    (∃ sp x, s.run (H.withLimits (some n) (some c)) clock fuel i j = some (.err (.overflow .stackOverflow) sp x)) ∨
      s.run (H.withLimits (some n) (some c)) clock fuel i j = s.run (H.withLimits (some n') (some c')) clock fuel i j
  | 0, _, _, _, _, _ => .inr rfl
  | fuel + 1, i, j, s, hs, hN => by
    have h1 := step_raise (H := H) hs hn hc
    have h0 := hN 0 s rfl
    have hl := step_lim (H := H) (m := c) hs
    rw [run, run]
    split
    · exact .inr rfl
    · simp only
      rcases h1 with ⟨sp, x, h1⟩ | h1 | h1
      · rw [h1]; exact .inl ⟨_, _, rfl⟩
      · exact (h0 h1).elim
      · rw [← h1]
        cases hx : s.step (H.withLimits (some n) (some c)) with
        | next s' =>
          simp only
          split
          · exact .inr rfl
          · rw [hx] at hl
            generalize hy : s.step (H.withLimits none none) = r at hl h0
            cases hl with
            | stray => exact (h0 ⟨_, _, rfl⟩).elim
            | same _ hle =>
              exact run_raise hn hc clock fuel _ _ (hle s' rfl) fun k s2 hk => hN (k + 1) s2 (by simp only [steps, hy]; exact hk)
        | _ => exact .inr rfl

end VM

/-- The machine without limits rejects no access, if the semantics says what the program does. -/
theorem Outcome.calm {H : Host D} {B : Nat} {γ : LocMap} {s : VM D} {r : Out SVal × SSt D} (h : Outcome (H.withLimits none none) B γ s r)
    (hd : r.1.definite) {k : Nat} {s' : VM D} (hk : s.steps (H.withLimits none none) k = some s') : ¬ VM.Over (s'.step (H.withLimits none none)) := by
  obtain ⟨j, s1, h1, h2⟩ := h.agree hd.1 hd.2.1
  intro h3
  have := VM.steps_det h1 rfl h2.terminal hk rfl (by obtain ⟨_, _, h4⟩ := h3; rw [h4]; simp)
  rw [← this] at h3
  exact h2.notOver hd h3

theorem Outcome.calm_forever {H : Host D} {γ : LocMap} {s : VM D} (h : ∀ B, ∃ σ', Outcome (H.withLimits none none) B γ s (.timeout, σ'))
    {k : Nat} {s' : VM D} (hk : s.steps (H.withLimits none none) k = some s') : ¬ VM.Over (s'.step (H.withLimits none none)) := by
  rintro ⟨sp, x, h3⟩
  obtain ⟨_, s1, j, h1, h2⟩ := h (k + 1)
  have := VM.steps_bound hk h3 (by simp) h2
  omega

/-! ## Strings -/

/-- The same host with another limit for strings. -/
def Host.withStrings (H : Host D) (k : Nat) : Host D := { H with opts := { H.opts with lim := ⟨k, H.opts.lim.arrMax⟩ } }

/-- `r` says that a string is too large, or is the same as `r'`. -/
def Res.Str {α : Type} (r r' : Res α) : Prop := r = .err (.overflow .stringTooLarge) ∨ r = r'

theorem strCat_raise {C : Type} {k k' : Nat} (hk : k ≤ k') (a b : List Char) : (strCat k a b : Res (Val C)).Str (strCat k' a b) := by
  unfold strCat Res.Str
  split
  · exact .inl rfl
  · rw [if_neg (by omega)]; exact .inr rfl

theorem strMul_raise {C : Type} {k k' : Nat} (hk : k ≤ k') (chk : Bool) (l : List Char) (r : BitVec 64) : (Val.strMul chk k l r : Res (Val C)).Str (Val.strMul chk k' l r) := by
  unfold Val.strMul Res.Str
  simp only
  split
  · exact .inr rfl
  · split
    · split
      · exact .inl rfl
      · rw [if_neg (by omega)]; exact .inr rfl
    · split
      · exact .inr rfl
      · split
        · exact .inl rfl
        · rw [if_neg (by omega)]; exact .inr rfl

theorem binary_raise {C : Type} {k k' a : Nat} (hk : k ≤ k') (cfg : Cfg) (ceq : C → C → Option Bool) (op : Op) (x y : Val C) :
    (Val.binary cfg ⟨k, a⟩ ceq op x y).Str (Val.binary cfg ⟨k', a⟩ ceq op x y) := by
  have hc := @strCat_raise C _ _ hk
  have hm := @strMul_raise C _ _ hk
  cases op with
  | add => cases x <;> cases y <;> first | exact hc _ _ | exact .inr rfl
  | mul => cases x <;> cases y <;> first | exact hm _ _ _ | exact .inr rfl
  | join => cases x <;> cases y <;> first | exact hc _ _ | exact .inr rfl
  | _ => exact .inr rfl

/-- The builtin says that a string is too large, or does not depend on the limit. -/
def BFn.Roomy {C : Type} (k k' a : Nat) (f : BFn D C) : Prop := ∀ d args, (f d args ⟨k, a⟩).1 = .err (.overflow .stringTooLarge) ∨ f d args ⟨k, a⟩ = f d args ⟨k', a⟩

def Builtin.Roomy {C : Type} (k k' a : Nat) : Builtin D C → Prop
  | .fn f | .ctx f _ => f.Roomy k k' a

namespace VM
variable {H : Host D} {s : VM D} {k : Nat}

theorem closeRange_strings (s : VM D) : ∀ lo n, s.closeRange (H.withStrings k) lo n = s.closeRange H lo n := by
  intro lo n
  induction n generalizing s lo with
  | zero => rfl
  | succ n ih => exact ih (s := s.closeUp H lo) (lo := lo + 1)

theorem pushAll_strings (vs : List VVal) : ∀ s : VM D, s.pushAll (H.withStrings k) vs = s.pushAll H vs := by
  induction vs with
  | nil => intro s; rfl
  | cons v vs ih =>
    intro s
    simp only [pushAll, ih]
    rfl

theorem lift_raise {α : Type} {r r' : Res α} {g : α → StepR D} (h : r.Str r') : (s.lift r g).Spoilt (.overflow .stringTooLarge) (s.lift r' g) := by
  rcases h with h | h
  · subst h; exact .inl ⟨_, _, rfl⟩
  · subst h; exact .inr rfl

theorem builtin_raise {f : BFn D VClos} (hf : f.Roomy H.opts.lim.strMax k H.opts.lim.arrMax) (n : Nat) (ex : Option (ExitFn D)) :
    (s.runBuiltin H f n ex).Spoilt (.overflow .stringTooLarge) (s.runBuiltin (H.withStrings k) f n ex) := by
  unfold runBuiltin; split
  · exact .inr rfl
  · simp only
    rcases hf s.data (s.topN n).reverse with h | h
    · left
      have : (f s.data (s.topN n).reverse H.opts.lim).1 = .err (.overflow .stringTooLarge) := h
      rw [this]; exact ⟨_, _, rfl⟩
    · right
      have : f s.data (s.topN n).reverse H.opts.lim = f s.data (s.topN n).reverse (H.withStrings k).opts.lim := h
      rw [← this]; rfl

theorem exec_strings (hk : H.opts.lim.strMax ≤ k) (hB : ∀ i b, H.builtins i = some b → b.Roomy H.opts.lim.strMax k H.opts.lim.arrMax) (i : Instr) :
    (s.exec H i).Spoilt (.overflow .stringTooLarge) (s.exec (H.withStrings k) i) := by
  cases i with
  | ret =>
    right
    simp only [exec, closeRange_strings]
    rfl
  | unpack n => right; simp only [exec, pushAll_strings]
  | enterContext i n =>
    have := hB i
    simp only [exec, show (H.withStrings k).builtins = H.builtins from rfl]
    generalize H.builtins i = b at this
    match b, this with
    | some (.fn f), h => exact builtin_raise (h _ rfl) ..
    | some (.ctx f ex), h => exact builtin_raise (h _ rfl) ..
    | none, _ => exact .inr rfl
  | callBuiltin i n =>
    have := hB i
    simp only [exec, show (H.withStrings k).builtins = H.builtins from rfl]
    generalize H.builtins i = b at this
    match b, this with
    | some (.fn f), h => exact builtin_raise (h _ rfl) ..
    | some (.ctx f ex), _ => exact .inr rfl
    | none, _ => exact .inr rfl
  | binary op =>
    simp only [exec, pop]
    split
    · exact .inr rfl
    · split
      · exact .inr rfl
      · exact lift_raise (binary_raise hk ..)
  | _ => exact .inr rfl

theorem step_strings (hk : H.opts.lim.strMax ≤ k) (hB : ∀ i b, H.builtins i = some b → b.Roomy H.opts.lim.strMax k H.opts.lim.arrMax) (s : VM D) :
    (s.step H).Spoilt (.overflow .stringTooLarge) (s.step (H.withStrings k)) := by
  unfold step; split
  · exact .inr rfl
  · split
    · exact exec_strings hk hB _
    · exact .inr rfl

theorem run_strings (hk : H.opts.lim.strMax ≤ k) (hB : ∀ i b, H.builtins i = some b → b.Roomy H.opts.lim.strMax k H.opts.lim.arrMax) (clock : Nat → Bool) :
    ∀ (fuel i j : Nat) (s : VM D), (∃ sp x, s.run H clock fuel i j = some (.err (.overflow .stringTooLarge) sp x)) ∨
      s.run H clock fuel i j = s.run (H.withStrings k) clock fuel i j
  | 0, _, _, _ => .inr rfl
  | fuel + 1, i, j, s => by
    rw [run, run]
    split
    · exact .inr rfl
    · simp only
      rcases step_strings hk hB s with ⟨sp, x, h1⟩ | h1
      · rw [h1]; exact .inl ⟨_, _, rfl⟩
      · rw [← h1]
        cases hx : s.step H with
        | next s' =>
          simp only
          split
          · exact .inr rfl
          · exact run_strings hk hB clock fuel _ _ s'
        | _ => exact .inr rfl

/-! ## Time -/

/-- A clock that stops the run less often. -/
theorem run_clock {clock clock' : Nat → Bool} (hc : ∀ t, clock' t = true → clock t = true) : ∀ (fuel i j : Nat) (s : VM D),
    (∃ sp x, s.run H clock fuel i j = some (.err .runtimeLimit sp x)) ∨ s.run H clock fuel i j = s.run H clock' fuel i j
  | 0, _, _, _ => .inr rfl
  | fuel + 1, i, j, s => by
    rw [run, run]
    by_cases h1 : j > 64 ∧ clock (2 * i) = true
    · rw [if_pos h1]; exact .inl ⟨_, _, rfl⟩
    · have h1' : ¬ (j > 64 ∧ clock' (2 * i) = true) := fun h => h1 ⟨h.1, hc _ h.2⟩
      rw [if_neg h1, if_neg h1']
      simp only
      cases hx : s.step H with
      | next s' =>
        simp only
        by_cases h2 : s.atBuiltin = true ∧ clock (2 * i + 1) = true
        · rw [if_pos h2]; exact .inl ⟨_, _, rfl⟩
        · have h2' : ¬ (s.atBuiltin = true ∧ clock' (2 * i + 1) = true) := fun h => h2 ⟨h.1, hc _ h.2⟩
          rw [if_neg h2, if_neg h2']
          exact run_clock hc fuel _ _ s'
      | _ => exact .inr rfl

end VM
end Quilt
