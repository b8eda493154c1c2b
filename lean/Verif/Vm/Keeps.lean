import Verif.Vm.Inv

/-!
# What a run does to the data of the host

Only builtins, the exits of context managers and the hooks change it. Used for C94.
-/

namespace Quilt

variable {D : Type}

/-- The property holds of the data that an iteration leaves behind, whether the run goes on or not. -/
def StepR.Left (P : D → Prop) : StepR D → Prop
  | .next s | .err _ _ s | .done _ s => P s.data
  | .panic => True

/-- Everything the host offers changes the data in this way only. -/
structure Host.Keeps (R : D → D → Prop) (H : Host D) : Prop where
  refl : ∀ d, R d d
  trans : ∀ {a b c}, R a b → R b c → R a c
  fn : ∀ i f, H.builtins i = some (.fn f) → ∀ d args, R d (f d args H.opts.lim).2
  ctx : ∀ i f e, H.builtins i = some (.ctx f e) → (∀ d args, R d (f d args H.opts.lim).2) ∧ ∀ d, R d (e d).2
  enter : ∀ d, R d (H.onEnter d)
  exit : ∀ d, R d (H.onExit d)

/-- The builtin does not look at the limits that differ. -/
def Builtin.Blind {C : Type} (l l' : Limits) : Builtin D C → Prop
  | .fn f | .ctx f _ => ∀ d args, f d args l = f d args l'

namespace VM
variable {H H' : Host D} {s : VM D} {P : D → Prop} {R : D → D → Prop}

/-- The data after an instruction that is no call. -/
def after (H : Host D) (s : VM D) : Instr → D
  | .ret => match s.frames with
    | [] => s.data
    | _ :: _ => H.onExit s.data
  | .exitContext => match s.exitFns with
    | [] => s.data
    | e :: _ => (e s.data).2
  | .callBuiltin i n => match H.builtins i with
    | some (.fn f) => if s.sp < n then s.data else (f s.data (s.topN n).reverse H.opts.lim).2
    | _ => s.data
  | .enterContext i n => match H.builtins i with
    | some (.fn f) | some (.ctx f _) => if s.sp < n then s.data else (f s.data (s.topN n).reverse H.opts.lim).2
    | none => s.data
  | _ => s.data

theorem left_oobR (h : P s.data) : (s.oobR H).Left P := by
  unfold oobR; split
  · trivial
  · exact h

theorem left_push {v : VVal} (h : P s.data) : (s.push H v).Left P := by
  unfold push; split <;> exact h

theorem left_lift {α : Type} {r : Res α} {k : α → StepR D} (h : P s.data) (hk : ∀ a, (k a).Left P) : (s.lift r k).Left P := by
  cases r with
  | ok a => exact hk a
  | err e => exact h
  | panic => trivial

theorem left_pop {k : VVal → VM D → StepR D} (h : ∀ v s', s'.data = s.data → (k v s').Left P) : (s.pop k).Left P := by
  unfold pop; split
  · trivial
  · exact h _ _ rfl

theorem left_popSwapOut {k : VVal → VM D → StepR D} (h : ∀ v s', s'.data = s.data → (k v s').Left P) : (s.popSwapOut k).Left P := by
  unfold popSwapOut; split
  · trivial
  · exact h _ _ rfl

theorem left_pushAll (vs : List VVal) : ∀ {s : VM D}, P s.data → (s.pushAll H vs).Left P := by
  induction vs with
  | nil => intro s h; exact h
  | cons v vs ih =>
    intro s h
    unfold pushAll push
    split
    · rename_i h1
      split at h1
      · simp [errAt] at h1
      · cases h1; exact ih h
    · rename_i h1
      split <;> exact h

theorem left_runBuiltin {f : BFn D VClos} {n : Nat} {ex : Option (ExitFn D)} :
    (s.runBuiltin H f n ex).Left (· = if s.sp < n then s.data else (f s.data (s.topN n).reverse H.opts.lim).2) := by
  unfold runBuiltin
  split
  · rfl
  · exact left_lift rfl fun v => left_push rfl

theorem exec_left (i : Instr) (hi : ∀ k, i ≠ .callFunction k) : (exec H s i).Left (· = s.after H i) := by
  cases i with
  | callFunction n => exact (hi n rfl).elim
  | ret =>
    simp only [exec, pop]
    by_cases h0 : s.sp = 0
    · rw [if_pos h0]; trivial
    · rw [if_neg h0]
      have hc := closeRange_same (H := H) (s := { s with sp := s.sp - 1 }) s.frame.st (s.sp - 1 - s.frame.st)
      simp only at hc ⊢
      generalize closeRange H { s with sp := s.sp - 1 } s.frame.st (s.sp - 1 - s.frame.st) = s1 at hc ⊢
      have hd : s1.data = s.data := hc.2.2.2.2.1
      have hf : s1.frames = s.frames := hc.2.2.1
      cases hx : s.frames with
      | cons f fs =>
        rw [hx] at hf
        simp only [hf, after, hx]
        exact left_push (by rw [hd])
      | nil =>
        rw [hx] at hf
        simp only [hf, after, hx]
        split
        · trivial
        · exact hd
  | createClosure k us =>
    simp only [exec]; split
    · split
      · rename_i hc
        exact left_push (captureAll_same us hc).2.2.2.2.1
      · trivial
    · rfl
    · trivial
  | closeUpvalue =>
    simp only [exec]; split
    · trivial
    · exact (closeUp_same (H := H) (s := s) (s.sp - 1)).2.2.2.2.1
  | binary op =>
    simp only [exec]; refine left_pop fun _ s1 h1 => left_pop fun _ s2 h2 => ?_
    exact left_lift (h2.trans h1) fun v => h2.trans h1
  | unary op =>
    simp only [exec]; refine left_pop fun _ s1 h1 => ?_
    exact left_lift h1 fun v => h1
  | indexGet =>
    simp only [exec]; refine left_pop fun _ s1 h1 => left_pop fun _ s2 h2 => ?_
    exact left_lift (h2.trans h1) fun v => left_push (h2.trans h1)
  | createRange =>
    simp only [exec]; refine left_pop fun _ s1 h1 => left_pop fun _ s2 h2 => ?_
    exact left_lift (h2.trans h1) fun v => left_push (h2.trans h1)
  | createPair =>
    simp only [exec]; refine left_pop fun _ s1 h1 => left_pop fun _ s2 h2 => ?_
    exact h2.trans h1
  | createArray n =>
    simp only [exec]; split
    · trivial
    · exact left_lift rfl fun v => left_push rfl
  | unpack n =>
    simp only [exec]; refine left_popSwapOut fun _ s1 h1 => ?_
    exact left_lift h1 fun v => left_pushAll _ h1
  | iterNext o =>
    simp only [exec]; split
    · trivial
    · split
      · refine left_lift rfl fun r => ?_
        split
        · exact left_push rfl
        · rfl
      · rfl
  | exitContext =>
    simp only [exec, after]
    cases s.exitFns with
    | nil => rfl
    | cons e es => exact left_lift rfl fun _ => rfl
  | enterContext k m =>
    simp only [exec, after]
    match H.builtins k with
    | some (.fn f) => exact left_runBuiltin
    | some (.ctx f e) => exact left_runBuiltin
    | none => rfl
  | callBuiltin k m =>
    simp only [exec, after]
    match H.builtins k with
    | some (.fn f) => exact left_runBuiltin
    | some (.ctx f e) => rfl
    | none => rfl
  | jumpIfFalse o =>
    simp only [exec]; split
    · trivial
    · refine left_lift rfl fun c => ?_
      split <;> rfl
  | jumpIfNotEq o =>
    simp only [exec]; split
    · trivial
    · split
      · rfl
      · rfl
      · trivial
  | jumpForward o => rfl
  | jumpBackward o =>
    simp only [exec]; split
    · trivial
    · rfl
  | halt => rfl
  | loadNone => exact left_push rfl
  | newLoopCtx => exact left_push rfl
  | loadNoneMany n => simp only [exec]; split <;> rfl
  | blockResult => simp only [exec]; exact left_popSwapOut fun _ s1 h1 => h1
  | blockReturn =>
    simp only [exec]; split
    · exact left_push rfl
    · rfl
  | pop => simp only [exec]; exact left_pop fun _ s1 h1 => h1
  | defineGlobal k => simp only [exec]; exact left_pop fun _ s1 h1 => h1
  | defineGlobalDefaulted k =>
    simp only [exec]; refine left_pop fun _ s1 h1 => ?_
    split <;> exact h1
  | swap => simp only [exec]; split; trivial; rfl
  | swapPop => simp only [exec]; split; trivial; rfl
  | popMany n => simp only [exec]; split; trivial; rfl
  | loadConst i =>
    simp only [exec]; split
    · exact left_push rfl
    · exact left_push rfl
    · trivial
  | loadLocal i =>
    simp only [exec]; split
    · exact left_oobR rfl
    · exact left_push rfl
  | setLocal i =>
    simp only [exec]; split
    · trivial
    · split
      · exact left_oobR rfl
      · rfl
  | loadGlobal i =>
    simp only [exec]; split
    · exact left_push rfl
    · rfl
  | setGlobal i =>
    simp only [exec]; split
    · trivial
    · split <;> rfl
  | setUpvalue i =>
    simp only [exec]; split
    · trivial
    · split
      · split
        · split
          · exact left_oobR rfl
          · rfl
        · rfl
      · trivial
  | loadUpvalue i =>
    simp only [exec]; split
    · split
      · split
        · exact left_oobR rfl
        · exact left_push rfl
      · exact left_push rfl
    · trivial
  | createFunction i =>
    simp only [exec]; split
    · exact left_push rfl
    · rfl
    · trivial

/-- A call changes the data only if it takes place. -/
theorem exec_call (n : Nat) : (∃ s', exec H s (.callFunction n) = .next s' ∧ s'.data = H.onEnter s.data) ∨
    (∀ s', exec H s (.callFunction n) ≠ .next s') ∧ (exec H s (.callFunction n)).Left (· = s.data) := by
  simp only [exec]; split
  · exact .inr ⟨by simp, trivial⟩
  · split
    · exact .inr ⟨by simp [errAt], rfl⟩
    · split
      · split
        · exact .inr ⟨by simp [errAt], rfl⟩
        · exact .inl ⟨_, rfl, rfl⟩
      · split
        · exact .inr ⟨by simp [errAt], rfl⟩
        · exact .inl ⟨_, rfl, rfl⟩
      · exact .inr ⟨by simp [err1], rfl⟩

/-! ## Whole runs -/

/-- The exits of the entered context managers change the data in this way only. -/
def Leaving (R : D → D → Prop) (s : VM D) : Prop := ∀ e ∈ s.exitFns, ∀ d, R d (e d).2

theorem kept_data (K : H.Keeps R) (d : D) : Kept H fun s : VM D => R d s.data ∧ s.Leaving R where
  plain s s' h _ h2 h3 _ _ _ := by unfold Leaving; rw [h2, h3]; exact h
  close s l h := by
    have := closeUp_same (H := H) (s := s) l
    unfold Leaving
    rw [this.2.2.2.2.1, this.2.2.2.2.2.1]; exact h
  capture s l h := by
    have := capture_same (s := s) l
    unfold Leaving
    rw [this.2.2.2.2.1, this.2.2.2.2.2.1]; exact h
  setCell s c v w h _ := h
  call s f h _ := ⟨K.trans h.1 (K.enter _), h.2⟩
  ret s f fs _ h _ := ⟨K.trans h.1 (K.exit _), h.2⟩
  builtin s i f args h hb := by
    refine ⟨K.trans h.1 ?_, h.2⟩
    rcases hb with hb | ⟨e, hb⟩
    · exact K.fn i f hb _ _
    · exact (K.ctx i f e hb).1 _ _
  enter s i f e h hb := ⟨h.1, by
    intro e' he' x
    rcases List.mem_cons.1 he' with rfl | he'
    · exact (K.ctx i f _ hb).2 x
    · exact h.2 e' he' x⟩
  exit s e es h he := by
    have h2 := h.2
    unfold Leaving at h2
    rw [he] at h2
    exact ⟨K.trans h.1 (h2 e (by simp) _), fun e' he' => h2 e' (by simp [he'])⟩

theorem after_keeps (K : H.Keeps R) (hs : s.Leaving R) (i : Instr) : R s.data (s.after H i) := by
  unfold after
  split
  · split
    · exact K.refl _
    · exact K.exit _
  · split
    · exact K.refl _
    · rename_i he; exact hs _ (by rw [he]; exact List.mem_cons_self) _
  · split
    · rename_i hb
      split
      · exact K.refl _
      · exact K.fn _ _ hb _ _
    · exact K.refl _
  · split
    · rename_i hb
      split
      · exact K.refl _
      · exact K.fn _ _ hb _ _
    · rename_i hb
      split
      · exact K.refl _
      · exact (K.ctx _ _ _ hb).1 _ _
    · exact K.refl _
  · exact K.refl _

theorem Left.mono {Q : D → Prop} {r : StepR D} (hr : r.Left P) (h : ∀ d, P d → Q d) : r.Left Q := by
  cases r with
  | panic => trivial
  | _ => exact h _ hr

theorem exec_keeps (K : H.Keeps R) (hs : s.Leaving R) (i : Instr) : (exec H s i).Left (R s.data) := by
  by_cases hi : ∃ k, i = .callFunction k
  · obtain ⟨k, rfl⟩ := hi
    rcases exec_call (H := H) (s := s) k with ⟨s', h1, h2⟩ | ⟨_, h1⟩
    · rw [h1]; show R _ s'.data; rw [h2]; exact K.enter _
    · exact Left.mono h1 fun d hd => hd ▸ K.refl _
  · exact Left.mono (exec_left i fun k h => hi ⟨k, h⟩) fun d hd => hd ▸ after_keeps K hs i

theorem step_keeps (K : H.Keeps R) (hs : s.Leaving R) : (s.step H).Left (R s.data) := by
  unfold step
  split
  · exact K.refl _
  · split
    · rename_i n _
      exact exec_keeps (s := { s with frame := { s.frame with ip := s.frame.ip + n } }) K hs _
    · trivial

theorem step_leaving (K : H.Keeps R) (hs : s.Leaving R) {s' : VM D} (h : s.step H = .next s') : s'.Leaving R :=
  ((kept_data K s.data).step ⟨K.refl _, hs⟩ h).2

/-- However a run ends, the data it leaves is what it found, changed in this way. -/
theorem run_keeps (K : H.Keeps R) (clock : Nat → Bool) : ∀ (fuel i j : Nat) (s : VM D) {r : StepR D}, s.Leaving R → s.run H clock fuel i j = some r → r.Left (R s.data)
  | 0, _, _, _, _, _, h => by simp [run] at h
  | fuel + 1, i, j, s, r, hl, h => by
    have hs := step_keeps K hl
    unfold run at h
    split at h
    · simp only [Option.some.injEq] at h; subst h; exact K.refl _
    · simp only at h
      split at h
      · rename_i s' h1
        rw [h1] at hs
        split at h
        · simp only [Option.some.injEq] at h; subst h; exact hs
        · exact Left.mono (run_keeps K clock fuel _ _ s' (step_leaving K hl h1) h) fun d hd => K.trans hs hd
      · simp only [Option.some.injEq] at h; subst h; exact hs

/-! ## Two runs -/

/-- The hosts do the same to the data. -/
structure _root_.Quilt.Host.Alike (H H' : Host D) : Prop where
  builtins : H'.builtins = H.builtins
  fn : ∀ i f, H.builtins i = some (.fn f) → ∀ d args, (f d args H'.opts.lim).2 = (f d args H.opts.lim).2
  ctx : ∀ i f e, H.builtins i = some (.ctx f e) → ∀ d args, (f d args H'.opts.lim).2 = (f d args H.opts.lim).2
  exit : H'.onExit = H.onExit

theorem after_alike (h : H.Alike H') (i : Instr) : s.after H' i = s.after H i := by
  unfold after
  split
  · split
    · rfl
    · rw [h.exit]
  · rfl
  · simp only [h.builtins]
    split
    · rename_i hb; rw [h.fn _ _ hb]
    · rfl
  · simp only [h.builtins]
    split
    · rename_i hb; rw [h.fn _ _ hb]
    · rename_i hb; rw [h.ctx _ _ _ hb]
    · rfl
  · rfl

/-- Where one of two alike hosts stops with an error, the other has the same data, or more. -/
theorem step_alike (h : H.Alike H') (K : H'.Keeps R) {e : Err} {sp : Span} {x : VM D} (hx : s.step H = .err e sp x) : (s.step H').Left (R x.data) := by
  unfold step at hx ⊢
  split
  · rename_i hl
    rw [if_pos hl] at hx
    cases hx
    exact K.refl _
  · rename_i hl
    rw [if_neg hl] at hx
    split
    · rename_i i n hd
      rw [hd] at hx
      simp only at hx
      generalize { s with frame := { s.frame with ip := s.frame.ip + n } } = s at hx ⊢
      by_cases hi : ∃ k, i = .callFunction k
      · obtain ⟨k, rfl⟩ := hi
        have h1 : x.data = s.data := by
          rcases exec_call (H := H) (s := s) k with ⟨s', h1, h2⟩ | ⟨_, h1⟩
          · rw [h1] at hx; cases hx
          · rw [hx] at h1; exact h1
        rw [h1]
        rcases exec_call (H := H') (s := s) k with ⟨s', h1, h2⟩ | ⟨_, h1⟩
        · rw [h1]; show R _ s'.data; rw [h2]; exact K.enter _
        · exact Left.mono h1 fun d hd => hd ▸ K.refl _
      · have hi : ∀ k, i ≠ .callFunction k := fun k h => hi ⟨k, h⟩
        have h1 := exec_left (H := H) (s := s) i hi
        rw [hx] at h1
        have h1 : x.data = s.after H i := h1
        refine Left.mono (exec_left (H := H') (s := s) i hi) fun d hd => ?_
        rw [hd, h1, after_alike h]; exact K.refl _
    · trivial

/-- The second run does the same, or the first one stops early, with an error of the kind `L`; then the second one goes on from the data the first one leaves. -/
theorem run_cut (h : H.Alike H') (K : H'.Keeps R) {L : Err → Prop} {I : VM D → Prop} (hL : L .runtimeLimit)
    (hI : ∀ s, I s → (∃ e sp x, s.step H = .err e sp x ∧ L e) ∨ s.step H = s.step H' ∧ ∀ s', s.step H = .next s' → I s')
    {clock clock' : Nat → Bool} (hc : ∀ t, clock' t = true → clock t = true) : ∀ (fuel fuel' i j : Nat) (s : VM D) {r r' : StepR D}, s.Leaving R → I s →
    s.run H clock fuel i j = some r → s.run H' clock' fuel' i j = some r' →
    r = r' ∨ ∃ e sp x, r = .err e sp x ∧ L e ∧ r'.Left (R x.data)
  | 0, _, _, _, _, _, _, _, _, h1, _ => by simp [run] at h1
  | _ + 1, 0, _, _, _, _, _, _, _, _, h2 => by simp [run] at h2
  | fuel + 1, fuel' + 1, i, j, s, r, r', hl, hi, h1, h2 => by
    have h0 := h2
    rw [run] at h1 h2
    by_cases h3 : j > 64 ∧ clock (2 * i) = true
    · rw [if_pos h3] at h1
      cases h1
      exact .inr ⟨_, _, _, rfl, hL, run_keeps K clock' _ _ _ s hl h0⟩
    · have h3' : ¬ (j > 64 ∧ clock' (2 * i) = true) := fun h => h3 ⟨h.1, hc _ h.2⟩
      rw [if_neg h3] at h1; rw [if_neg h3'] at h2
      simp only at h1 h2
      rcases hI s hi with ⟨e, sp, x, h4, h5⟩ | ⟨h4, h5⟩
      · rw [h4] at h1
        cases h1
        refine .inr ⟨_, _, _, rfl, h5, ?_⟩
        have h6 := step_alike h K h4
        split at h2
        · rename_i s' h7
          rw [h7] at h6
          have h6 : R x.data s'.data := h6
          split at h2
          · cases h2; exact h6
          · exact Left.mono (run_keeps K clock' _ _ _ s' (step_leaving K hl h7) h2) fun d hd => K.trans h6 hd
        · cases h2; exact h6
      · rw [h4] at h1
        split at h2
        · rename_i s' h7
          rw [h7] at h1
          simp only at h1
          have hl' := step_leaving K hl h7
          by_cases h8 : s.atBuiltin = true ∧ clock (2 * i + 1) = true
          · rw [if_pos h8] at h1
            cases h1
            refine .inr ⟨_, _, _, rfl, hL, ?_⟩
            split at h2
            · cases h2; exact K.refl _
            · exact run_keeps K clock' _ _ _ s' hl' h2
          · have h8' : ¬ (s.atBuiltin = true ∧ clock' (2 * i + 1) = true) := fun h => h8 ⟨h.1, hc _ h.2⟩
            rw [if_neg h8] at h1; rw [if_neg h8'] at h2
            exact run_cut h K hL hI hc fuel fuel' _ _ s' hl' (h5 s' (h4.trans h7)) h1 h2
        · rename_i h7
          cases h2
          split at h1
          · rename_i s' h8; exact (h7 s' h8).elim
          · cases h1; exact .inl rfl

end VM
end Quilt
