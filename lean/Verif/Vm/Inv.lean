import Verif.Vm.Lemmas

/-!
# Invariants of arbitrary bytecode
-/

namespace Quilt.VM
variable {D : Type} {H : Host D}

/-- At most `n` live values, and nothing changed at or beyond position `n`. -/
def Bounded (n : Nat) (s0 : VM D) (s : VM D) : Prop :=
  s.sp ≤ n ∧ ∀ i, n ≤ i → s.stack i = s0.stack i

theorem Bounded.pushU {n : Nat} {s0 s : VM D} (h : Bounded n s0 s) {v : VVal} (hs : s.sp < n) :
    Bounded n s0 (s.pushU v) := by
  refine ⟨by simp [VM.pushU]; omega, fun i hi => ?_⟩
  simp only [VM.pushU]
  rw [upd_other _ _ (by omega)]
  exact h.2 i hi

theorem reached_some {n k : Nat} (h : reached (some n) k = false) : k < n := by
  simp [reached] at h; omega

theorem exec_bounded {n : Nat} (hn : H.opts.stackSize = some n) (s0 s : VM D) (h : Bounded n s0 s)
    (i : Instr) : (exec H s i).All (Bounded n s0) := by
  obtain ⟨h1, h2⟩ := h
  have hr : ∀ {k}, reached H.opts.stackSize k = false → k < n := by
    intro k hk; rw [hn] at hk; exact reached_some hk
  have ho : ∀ {k}, oob H.opts.stackSize s.sp k = false → k < n := by
    intro k hk; rw [hn] at hk; simp [oob] at hk; omega
  have hb : ∀ {s' : VM D} {v}, s'.sp ≤ n → s'.stack = s.stack →
      reached H.opts.stackSize s'.sp = false → Bounded n s0 (s'.pushU v) := by
    intro s' v a b c
    exact Bounded.pushU ⟨a, by rw [b]; exact h2⟩ (hr c)
  cases i with
  | halt => trivial
  | ret =>
    simp only [exec]; apply all_pop
    intro h0
    have hc := closeRange_same (H := H) (s := { s with sp := s.sp - 1 }) s.frame.st (s.sp - 1 - s.frame.st)
    split
    · apply all_push
      intro hf
      refine hb ?_ ?_ hf
      · exact Nat.le_of_lt (hr hf)
      · exact hc.2.1
    · split <;> trivial
  | pop =>
    simp only [exec]
    exact all_pop fun h0 => ⟨by simp; omega, h2⟩
  | popMany k =>
    simp only [exec]; split
    · trivial
    · exact ⟨by simp; omega, h2⟩
  | swap =>
    simp only [exec]; split
    · trivial
    · refine ⟨h1, fun i hi => ?_⟩
      simp only [swapped]
      rw [upd_other _ _ (by omega), upd_other _ _ (by omega)]; exact h2 i hi
  | swapPop =>
    simp only [exec]; split
    · trivial
    · refine ⟨by simp; omega, fun i hi => ?_⟩
      simp only [swapped]
      rw [upd_other _ _ (by omega), upd_other _ _ (by omega)]; exact h2 i hi
  | loadConst k =>
    simp only [exec]; split
    · exact all_push (hb h1 rfl)
    · exact all_push (hb h1 rfl)
    · trivial
  | loadLocal k =>
    simp only [exec]; split
    · exact all_oobR
    · exact all_push (hb h1 rfl)
  | setLocal k =>
    simp only [exec]; split
    · trivial
    split
    · exact all_oobR
    · rename_i hk
      simp only [Bool.not_eq_true] at hk
      have := ho hk
      refine ⟨h1, fun i hi => ?_⟩
      show upd _ _ _ i = _
      rw [upd_other _ _ (by omega)]; exact h2 i hi
  | defineGlobal k =>
    simp only [exec]
    exact all_pop fun h0 => ⟨by simp; omega, h2⟩
  | loadUpvalue k =>
    simp only [exec]; split
    · split
      · split
        · exact all_oobR
        · exact all_push (hb h1 rfl)
      · exact all_push (hb h1 rfl)
    · trivial
  | setUpvalue k =>
    simp only [exec]; split
    · trivial
    · split
      · split
        · split
          · exact all_oobR
          · rename_i hk
            have := ho (by simpa using hk)
            refine ⟨h1, fun i hi => ?_⟩
            show upd _ _ _ i = _
            rw [upd_other _ _ (by omega)]; exact h2 i hi
        · exact ⟨h1, h2⟩
      · trivial
  | loadGlobal k =>
    simp only [exec]; split
    · exact all_push (hb h1 rfl)
    · trivial
  | setGlobal k =>
    simp only [exec]; split
    · trivial
    · split
      · exact ⟨h1, h2⟩
      · trivial
  | defineGlobalDefaulted k =>
    simp only [exec]; apply all_pop; intro h0
    split
    · exact ⟨by simp; omega, h2⟩
    · exact ⟨by simp; omega, h2⟩
  | closeUpvalue =>
    simp only [exec]; split
    · trivial
    · have hc := closeUp_same (H := H) (s := s) (s.sp - 1)
      refine ⟨by simp [hc.1]; omega, ?_⟩
      simp only [hc.2.1]; exact h2
  | createFunction k =>
    simp only [exec]; split
    · exact all_push (hb h1 rfl)
    · trivial
    · trivial
  | createClosure k us =>
    simp only [exec]; split
    · split
      · rename_i hc
        have := captureAll_same us hc
        exact all_push (hb (by omega) this.2.1)
      · trivial
    · trivial
    · trivial
  | createPair =>
    simp only [exec]; apply all_pop; intro h0; apply all_pop; intro h0'
    simp only [all_next]
    apply Bounded.pushU
    · exact ⟨by simp at *; omega, h2⟩
    · simp at *; omega
  | createArray k =>
    simp only [exec]; split
    · trivial
    · apply all_lift; intro v _
      refine all_push (hb ?_ rfl)
      simp; omega
  | createRange =>
    simp only [exec]; apply all_pop; intro h0; apply all_pop; intro h0'
    apply all_lift; intro v _
    refine all_push (hb ?_ rfl)
    simp; omega
  | callFunction k =>
    simp only [exec]; split
    · trivial
    · split
      · trivial
      · split
        · split
          · trivial
          · exact ⟨h1, h2⟩
        · split
          · trivial
          · exact ⟨h1, h2⟩
        · trivial
  | callBuiltin k m =>
    simp only [exec]; split
    · refine all_runBuiltin fun hm v hv => hb ?_ rfl hv
      simp; omega
    · trivial
    · trivial
  | enterContext k m =>
    simp only [exec]; split
    · refine all_runBuiltin fun hm v hv => hb ?_ rfl hv
      simp; omega
    · refine all_runBuiltin fun hm v hv => hb ?_ rfl hv
      simp; omega
    · trivial
  | exitContext =>
    simp only [exec]; split
    · apply all_lift; intro _ _; exact ⟨h1, h2⟩
    · exact ⟨h1, h2⟩
  | blockResult =>
    simp only [exec]; apply all_popSwapOut; intro h0
    refine ⟨by simp; omega, fun i hi => ?_⟩
    show upd _ _ _ i = _
    rw [upd_other _ _ (by omega)]; exact h2 i hi
  | blockReturn =>
    simp only [exec]; split
    · exact all_push (hb h1 rfl)
    · trivial
  | jumpIfFalse o =>
    simp only [exec]; split
    · trivial
    · apply all_lift; intro b _
      split <;> exact ⟨h1, h2⟩
  | jumpIfNotEq o =>
    simp only [exec]; split
    · trivial
    · split
      · exact ⟨by simp; omega, h2⟩
      · exact ⟨by simp; omega, h2⟩
      · trivial
  | jumpForward o => exact ⟨h1, h2⟩
  | jumpBackward o =>
    simp only [exec]; split
    · trivial
    · exact ⟨h1, h2⟩
  | unpack k =>
    simp only [exec]; apply all_popSwapOut; intro h0
    apply all_lift; intro vs _
    apply all_pushAll
    · refine ⟨by simp; omega, fun i hi => ?_⟩
      show upd _ _ _ i = _
      rw [upd_other _ _ (by omega)]; exact h2 i hi
    · intro s v hs hf; exact hs.pushU (hr hf)
  | loadNone =>
    simp only [exec]
    exact all_push (hb h1 rfl)
  | loadNoneMany k =>
    simp only [exec]; split
    · trivial
    · rename_i hf
      have := hr (by simpa using hf)
      exact ⟨Nat.le_of_lt this, h2⟩
  | newLoopCtx =>
    simp only [exec]
    exact all_push (hb h1 rfl)
  | iterNext o =>
    simp only [exec]; split
    · trivial
    · split
      · apply all_lift; intro r _
        have hb' : ∀ x, Bounded n s0 { s with stack := upd s.stack (s.sp - 3) x } := by
          intro x
          refine ⟨h1, fun i hi => ?_⟩
          show upd _ _ _ i = _
          rw [upd_other _ _ (by omega)]; exact h2 i hi
        split
        · apply all_push; intro hf
          exact (hb' _).pushU (hr hf)
        · exact hb' _
      · trivial
  | indexGet =>
    simp only [exec]; apply all_pop; intro h0; apply all_pop; intro h0'
    apply all_lift; intro v _
    refine all_push (hb ?_ rfl)
    simp; omega
  | unary op =>
    simp only [exec]; apply all_pop; intro h0
    apply all_lift; intro v _
    rw [all_next]
    apply Bounded.pushU
    · exact ⟨by simp at *; omega, h2⟩
    · simp at *; omega
  | binary op =>
    simp only [exec]; apply all_pop; intro h0; apply all_pop; intro h0'
    apply all_lift; intro v _
    rw [all_next]
    apply Bounded.pushU
    · exact ⟨by simp at *; omega, h2⟩
    · simp at *; omega

theorem step_bounded {n : Nat} (hn : H.opts.stackSize = some n) {s0 s s' : VM D}
    (h : Bounded n s0 s) (hs : s.step H = .next s') : Bounded n s0 s' :=
  all_imp (step_all fun i _ _ => by apply exec_bounded hn; exact ⟨h.1, h.2⟩) hs

/-- A property of states that does not look at the stack, the globals, the block results and the
current frame, and that is kept by the elementary effects of instructions. -/
structure Kept (H : Host D) (P : VM D → Prop) : Prop where
  plain : ∀ s s' : VM D, P s → s'.frames = s.frames → s'.data = s.data → s'.exitFns = s.exitFns →
    s'.heap = s.heap → s'.hp = s.hp → s'.openUps = s.openUps → P s'
  close : ∀ (s : VM D) l, P s → P (s.closeUp H l)
  capture : ∀ (s : VM D) l, P s → P (s.capture l).2
  setCell : ∀ (s : VM D) c v w, P s → s.heap c = .closed w → P { s with heap := upd s.heap c (.closed v) }
  call : ∀ (s : VM D) f, P s → reached H.opts.callStackSize s.frames.length = false →
    P { s with frames := s.frame :: s.frames, frame := f, data := H.onEnter s.data }
  ret : ∀ (s : VM D) f fs sp, P s → s.frames = f :: fs →
    P { s with frames := fs, data := H.onExit s.data, sp := sp, frame := f }
  builtin : ∀ (s : VM D) i f args, P s →
    (H.builtins i = some (.fn f) ∨ ∃ e, H.builtins i = some (.ctx f e)) →
    P { s with data := (f s.data args H.opts.lim).2 }
  enter : ∀ (s : VM D) i f e, P s → H.builtins i = some (.ctx f e) →
    P { s with exitFns := e :: s.exitFns }
  exit : ∀ (s : VM D) e es, P s → s.exitFns = e :: es → P { s with exitFns := es, data := (e s.data).2 }

variable {P : VM D → Prop}

theorem Kept.push (K : Kept H P) {s : VM D} {v : VVal} (h : P s) : (s.push H v).All P :=
  all_push fun _ => K.plain s _ h rfl rfl rfl rfl rfl rfl

theorem Kept.closeRange (K : Kept H P) {s : VM D} (lo n : Nat) (h : P s) : P (s.closeRange H lo n) := by
  induction n generalizing s lo with
  | zero => exact h
  | succ n ih => exact ih _ (K.close _ _ h)

theorem Kept.captureAll (K : Kept H P) {s s' : VM D} {us : List (Nat × Nat)} {cs : List Nat} (h : P s)
    (hc : s.captureAll us = some (cs, s')) : P s' := by
  induction us generalizing s cs s' with
  | nil => simp [VM.captureAll] at hc; obtain ⟨_, rfl⟩ := hc; exact h
  | cons u us ih =>
    obtain ⟨l, i⟩ := u
    simp only [VM.captureAll] at hc
    split at hc
    · have := K.capture s (s.frame.st + i) h
      revert hc this
      generalize s.capture (s.frame.st + i) = r
      obtain ⟨c, s1⟩ := r
      intro hc this
      simp only at hc this
      split at hc
      · rename_i h2
        simp at hc
        obtain ⟨_, rfl⟩ := hc
        exact ih this h2
      · cases hc
    · split at hc
      · split at hc
        · rename_i h2
          simp at hc
          obtain ⟨_, rfl⟩ := hc
          exact ih h h2
        · cases hc
      · cases hc

theorem Kept.exec (K : Kept H P) {s : VM D} (h : P s) (i : Instr) : (exec H s i).All P := by
  have pl : ∀ {s' : VM D}, s'.frames = s.frames → s'.data = s.data → s'.exitFns = s.exitFns →
      s'.heap = s.heap → s'.hp = s.hp → s'.openUps = s.openUps → P s' :=
    fun h1 h2 h3 h4 h5 h6 => K.plain s _ h h1 h2 h3 h4 h5 h6
  have pl0 : ∀ {s' : VM D}, (s'.frames = s.frames ∧ s'.data = s.data ∧ s'.exitFns = s.exitFns ∧
      s'.heap = s.heap ∧ s'.hp = s.hp ∧ s'.openUps = s.openUps) → P s' :=
    fun ⟨h1, h2, h3, h4, h5, h6⟩ => pl h1 h2 h3 h4 h5 h6
  cases i with
  | halt => trivial
  | ret =>
    simp only [VM.exec]; apply all_pop; intro h0
    have hk : P (VM.closeRange H { s with sp := s.sp - 1 } s.frame.st (s.sp - 1 - s.frame.st)) :=
      K.closeRange _ _ (pl rfl rfl rfl rfl rfl rfl)
    split
    · rename_i f fs hf
      exact K.push (K.ret _ f fs _ hk hf)
    · split <;> trivial
  | pop => simp only [VM.exec]; exact all_pop fun _ => pl0 ⟨rfl, rfl, rfl, rfl, rfl, rfl⟩
  | popMany k =>
    simp only [VM.exec]; split
    · trivial
    · exact pl0 ⟨rfl, rfl, rfl, rfl, rfl, rfl⟩
  | swap =>
    simp only [VM.exec]; split
    · trivial
    · exact pl0 ⟨rfl, rfl, rfl, rfl, rfl, rfl⟩
  | swapPop =>
    simp only [VM.exec]; split
    · trivial
    · exact pl0 ⟨rfl, rfl, rfl, rfl, rfl, rfl⟩
  | loadConst k =>
    simp only [VM.exec]; split
    · exact K.push h
    · exact K.push h
    · trivial
  | loadLocal k =>
    simp only [VM.exec]; split
    · exact all_oobR
    · exact K.push h
  | setLocal k =>
    simp only [VM.exec]; split
    · trivial
    split
    · exact all_oobR
    · exact pl0 ⟨rfl, rfl, rfl, rfl, rfl, rfl⟩
  | defineGlobal k => simp only [VM.exec]; exact all_pop fun _ => pl0 ⟨rfl, rfl, rfl, rfl, rfl, rfl⟩
  | loadUpvalue k =>
    simp only [VM.exec]; split
    · split
      · split
        · exact all_oobR
        · exact K.push h
      · exact K.push h
    · trivial
  | setUpvalue k =>
    simp only [VM.exec]; split
    · trivial
    · split
      · split
        · split
          · exact all_oobR
          · exact pl0 ⟨rfl, rfl, rfl, rfl, rfl, rfl⟩
        · rename_i hc
          exact K.setCell s _ _ _ h hc
      · trivial
  | loadGlobal k =>
    simp only [VM.exec]; split
    · exact K.push h
    · trivial
  | setGlobal k =>
    simp only [VM.exec]; split
    · trivial
    · split
      · exact pl0 ⟨rfl, rfl, rfl, rfl, rfl, rfl⟩
      · trivial
  | defineGlobalDefaulted k =>
    simp only [VM.exec]; apply all_pop; intro h0
    split
    · exact pl0 ⟨rfl, rfl, rfl, rfl, rfl, rfl⟩
    · exact pl0 ⟨rfl, rfl, rfl, rfl, rfl, rfl⟩
  | closeUpvalue =>
    simp only [VM.exec]; split
    · trivial
    · exact K.plain _ _ (K.close s (s.sp - 1) h) rfl rfl rfl rfl rfl rfl
  | createFunction k =>
    simp only [VM.exec]; split
    · exact K.push h
    · trivial
    · trivial
  | createClosure k us =>
    simp only [VM.exec]; split
    · split
      · rename_i hc; exact K.push (K.captureAll h hc)
      · trivial
    · trivial
    · trivial
  | createPair =>
    simp only [VM.exec]; apply all_pop; intro h0; apply all_pop; intro h0'
    exact pl0 ⟨rfl, rfl, rfl, rfl, rfl, rfl⟩
  | createArray k =>
    simp only [VM.exec]; split
    · trivial
    · apply all_lift; intro v _
      exact K.push (pl0 ⟨rfl, rfl, rfl, rfl, rfl, rfl⟩)
  | createRange =>
    simp only [VM.exec]; apply all_pop; intro h0; apply all_pop; intro h0'
    apply all_lift; intro v _
    exact K.push (pl0 ⟨rfl, rfl, rfl, rfl, rfl, rfl⟩)
  | callFunction k =>
    simp only [VM.exec]; split
    · trivial
    · split
      · trivial
      · rename_i hr
        have hr : reached H.opts.callStackSize s.frames.length = false := by simpa using hr
        split
        · split
          · trivial
          · exact K.call s _ h hr
        · split
          · trivial
          · exact K.call s _ h hr
        · trivial
  | callBuiltin k m =>
    simp only [VM.exec]; split
    · rename_i f hb
      refine all_runBuiltin fun hm v hv => ?_
      exact K.plain _ _ (K.builtin s k f (s.topN m).reverse h (.inl hb)) rfl rfl rfl rfl rfl rfl
    · trivial
    · trivial
  | enterContext k m =>
    simp only [VM.exec]; split
    · rename_i f hb
      refine all_runBuiltin fun hm v hv => ?_
      exact K.plain _ _ (K.builtin s k f (s.topN m).reverse h (.inl hb)) rfl rfl rfl rfl rfl rfl
    · rename_i f e hb
      refine all_runBuiltin fun hm v hv => ?_
      exact K.plain _ _ (K.builtin _ k f (s.topN m).reverse (K.enter s k f e h hb) (.inr ⟨e, hb⟩))
        rfl rfl rfl rfl rfl rfl
    · trivial
  | exitContext =>
    simp only [VM.exec]; split
    · rename_i e es he
      apply all_lift; intro _ _
      exact K.exit s e es h he
    · exact h
  | blockResult =>
    simp only [VM.exec]; apply all_popSwapOut; intro h0
    exact pl0 ⟨rfl, rfl, rfl, rfl, rfl, rfl⟩
  | blockReturn =>
    simp only [VM.exec]; split
    · exact K.push (pl0 ⟨rfl, rfl, rfl, rfl, rfl, rfl⟩)
    · trivial
  | jumpIfFalse o =>
    simp only [VM.exec]; split
    · trivial
    · apply all_lift; intro b _
      split <;> exact pl0 ⟨rfl, rfl, rfl, rfl, rfl, rfl⟩
  | jumpIfNotEq o =>
    simp only [VM.exec]; split
    · trivial
    · split
      · exact pl0 ⟨rfl, rfl, rfl, rfl, rfl, rfl⟩
      · exact pl0 ⟨rfl, rfl, rfl, rfl, rfl, rfl⟩
      · trivial
  | jumpForward o => exact pl0 ⟨rfl, rfl, rfl, rfl, rfl, rfl⟩
  | jumpBackward o =>
    simp only [VM.exec]; split
    · trivial
    · exact pl0 ⟨rfl, rfl, rfl, rfl, rfl, rfl⟩
  | unpack k =>
    simp only [VM.exec]; apply all_popSwapOut; intro h0
    apply all_lift; intro vs _
    apply all_pushAll
    · exact pl0 ⟨rfl, rfl, rfl, rfl, rfl, rfl⟩
    · intro s v hs _; exact K.plain s _ hs rfl rfl rfl rfl rfl rfl
  | loadNone => simp only [VM.exec]; exact K.push h
  | loadNoneMany k =>
    simp only [VM.exec]; split
    · trivial
    · exact pl0 ⟨rfl, rfl, rfl, rfl, rfl, rfl⟩
  | newLoopCtx => simp only [VM.exec]; exact K.push h
  | iterNext o =>
    simp only [VM.exec]; split
    · trivial
    · split
      · apply all_lift; intro r _
        split
        · exact K.push (pl0 ⟨rfl, rfl, rfl, rfl, rfl, rfl⟩)
        · exact pl0 ⟨rfl, rfl, rfl, rfl, rfl, rfl⟩
      · trivial
  | indexGet =>
    simp only [VM.exec]; apply all_pop; intro h0; apply all_pop; intro h0'
    apply all_lift; intro v _
    exact K.push (pl0 ⟨rfl, rfl, rfl, rfl, rfl, rfl⟩)
  | unary op =>
    simp only [VM.exec]; apply all_pop; intro h0
    apply all_lift; intro v _
    exact pl0 ⟨rfl, rfl, rfl, rfl, rfl, rfl⟩
  | binary op =>
    simp only [VM.exec]; apply all_pop; intro h0; apply all_pop; intro h0'
    apply all_lift; intro v _
    exact pl0 ⟨rfl, rfl, rfl, rfl, rfl, rfl⟩

theorem Kept.step (K : Kept H P) {s s' : VM D} (h : P s) (hs : s.step H = .next s') : P s' :=
  all_imp (step_all fun i _ _ => by apply K.exec; exact K.plain s _ h rfl rfl rfl rfl rfl rfl) hs

theorem Kept.steps (K : Kept H P) {s s' : VM D} {k : Nat} (h : P s) (hs : s.steps H k = some s') : P s' :=
  steps_induct (fun _ _ hp hq => K.step hp hq) h hs

/-! ### Call depth -/

theorem kept_frames {m : Nat} (hm : H.opts.callStackSize = some m) :
    Kept H fun s : VM D => s.frames.length ≤ m where
  plain s s' h h1 _ _ _ _ _ := by rw [h1]; exact h
  close s l h := by rw [(closeUp_same l).2.2.1]; exact h
  capture s l h := by rw [(capture_same l).2.2.1]; exact h
  setCell s c v w h _ := h
  call s f h hr := by rw [hm] at hr; have := reached_some hr; simp; omega
  ret s f fs _ h hf := by rw [hf] at h; simp at h; simp; omega
  builtin s i f args h _ := h
  enter s i f e h _ := h
  exit s e es h _ := h

/-! ### Hooks -/

/-- `d` minus the number of suspended frames, for a measure `d` of the host data. -/
theorem kept_depth (d : D → Int) (c : Int)
    (hE : ∀ x, d (H.onEnter x) = d x + 1) (hX : ∀ x, d (H.onExit x) = d x - 1)
    (hB : ∀ i f, (H.builtins i = some (.fn f) ∨ ∃ e, H.builtins i = some (.ctx f e)) →
      ∀ x args, d (f x args H.opts.lim).2 = d x)
    (hC : ∀ i f e, H.builtins i = some (.ctx f e) → ∀ x, d (e x).2 = d x) :
    Kept H fun s : VM D => d s.data - s.frames.length = c ∧ ∀ e ∈ s.exitFns, ∀ x, d (e x).2 = d x where
  plain s s' h h1 h2 h3 _ _ _ := by rw [h1, h2, h3]; exact h
  close s l h := by
    have := closeUp_same (H := H) (s := s) l
    rw [this.2.2.1, this.2.2.2.2.1, this.2.2.2.2.2.1]; exact h
  capture s l h := by
    have := capture_same (s := s) l
    rw [this.2.2.1, this.2.2.2.2.1, this.2.2.2.2.2.1]; exact h
  setCell s c v w h _ := h
  call s f h hr := ⟨by have := h.1; simp [hE]; omega, h.2⟩
  ret s f fs _ h hf := ⟨by have := h.1; simp [hf] at this; simp [hX]; omega, h.2⟩
  builtin s i f args h hb := ⟨by simp [hB i f hb, h.1], h.2⟩
  enter s i f e h hb := ⟨h.1, by
    intro e' he' x
    rcases List.mem_cons.1 he' with rfl | he'
    · exact hC i f _ hb x
    · exact h.2 e' he' x⟩
  exit s e es h he := by
    rw [he] at h
    exact ⟨by simp [h.2 e (by simp), h.1], fun e' he' => h.2 e' (by simp [he'])⟩

/-! ### Captured cells -/

/-- The table of open cells: it lists exactly the open cells, and no two open cells share a
stack position. -/
structure CellsOk (s : VM D) : Prop where
  listed : ∀ c, c ∈ s.openUps ↔ c < s.hp ∧ ∃ l, s.heap c = .opened l
  inj : ∀ c c' l, c < s.hp → c' < s.hp → s.heap c = .opened l → s.heap c' = .opened l → c = c'

/-- Cells after `closeUp`. -/
theorem closeUp_heap {s : VM D} (h : CellsOk s) (last c : Nat) (hc : c < s.hp)
    (hr : reached H.opts.stackSize last = false) :
    (s.closeUp H last).heap c =
      (match s.heap c with
       | .opened l => if l = last then .closed (s.stack last) else .opened l
       | x => x) := by
  simp only [closeUp, hr, Bool.false_eq_true, if_false]
  have := h.listed c
  cases hh : s.heap c with
  | opened l =>
    have hm : c ∈ s.openUps := this.2 ⟨hc, l, hh⟩
    simp [hm]
  | closed v => split <;> simp

theorem closeUp_cells {s : VM D} (h : CellsOk s) (last : Nat) : CellsOk (s.closeUp H last) := by
  by_cases hr : reached H.opts.stackSize last = true
  · have : s.closeUp H last = s := by simp [closeUp, hr]
    rw [this]; exact h
  · have hr : reached H.opts.stackSize last = false := by simpa using hr
    have hhp : (s.closeUp H last).hp = s.hp := (closeUp_same last).2.2.2.2.2.2.2.2
    have hh := closeUp_heap (H := H) h last (hr := hr)
    constructor
    · intro c
      rw [hhp]
      constructor
      · intro hm
        have hm' : c ∈ s.openUps := by
          simp only [closeUp, hr, Bool.false_eq_true, if_false] at hm
          exact (List.mem_filter.1 hm).1
        have hc := ((h.listed c).1 hm').1
        refine ⟨hc, ?_⟩
        simp only [closeUp, hr, Bool.false_eq_true, if_false] at hm ⊢
        have := (List.mem_filter.1 hm).2
        revert this
        simp only [hm', if_true]
        cases hx : s.heap c with
        | opened l => by_cases hl : l = last <;> simp [hl]
        | closed v => simp
      · rintro ⟨hc, l, hl⟩
        have he := hh c hc
        rw [hl] at he
        have ho : ∃ l, s.heap c = .opened l := by
          cases hx : s.heap c with
          | opened l => exact ⟨l, rfl⟩
          | closed v => rw [hx] at he; simp at he
        have hm : c ∈ s.openUps := (h.listed c).2 ⟨hc, ho⟩
        simp only [closeUp, hr, Bool.false_eq_true, if_false] at hl ⊢
        refine List.mem_filter.2 ⟨hm, ?_⟩
        rw [hl]
    · intro c c' l hc hc' h1 h2
      rw [hhp] at hc hc'
      rw [hh c hc] at h1
      rw [hh c' hc'] at h2
      cases hx : s.heap c with
      | closed v => rw [hx] at h1; simp at h1
      | opened k =>
        cases hy : s.heap c' with
        | closed v => rw [hy] at h2; simp at h2
        | opened k' =>
          rw [hx] at h1; rw [hy] at h2
          simp only at h1 h2
          split at h1
          · cases h1
          · split at h2
            · cases h2
            · cases h1; cases h2
              exact h.inj c c' _ hc hc' hx hy

theorem capture_cells {s : VM D} (h : CellsOk s) (loc : Nat) : CellsOk (s.capture loc).2 := by
  unfold capture
  split
  · exact h
  · rename_i hn
    rw [List.find?_eq_none] at hn
    constructor
    · intro c
      by_cases hc : c = s.hp
      · subst hc; simp
      · have := h.listed c
        simp only [List.mem_append, List.mem_singleton, hc, or_false, this]
        rw [upd_other _ _ hc]
        constructor
        · rintro ⟨a, b⟩; exact ⟨by omega, b⟩
        · rintro ⟨a, b⟩; exact ⟨by omega, b⟩
    · intro c c' l hc hc' h1 h2
      simp only at hc hc' h1 h2
      by_cases e : c = s.hp
      · by_cases e' : c' = s.hp
        · omega
        · rw [upd_other _ _ e'] at h2
          subst e
          simp at h1
          subst h1
          have hm := (h.listed c').2 ⟨by omega, _, h2⟩
          have := hn c' hm
          simp [h2] at this
      · by_cases e' : c' = s.hp
        · rw [upd_other _ _ e] at h1
          subst e'
          simp at h2
          subst h2
          have hm := (h.listed c).2 ⟨by omega, _, h1⟩
          have := hn c hm
          simp [h1] at this
        · rw [upd_other _ _ e] at h1
          rw [upd_other _ _ e'] at h2
          exact h.inj c c' l (by omega) (by omega) h1 h2

theorem kept_cells : Kept H (fun s : VM D => CellsOk s) where
  plain s s' h _ _ _ h4 h5 h6 :=
    ⟨by rw [h4, h5, h6]; exact h.listed, by rw [h4, h5]; exact h.inj⟩
  close s l h := closeUp_cells h l
  capture s l h := capture_cells h l
  setCell s c v w h hc := by
    constructor
    · intro c'
      rw [h.listed c']
      by_cases e : c' = c
      · subst e; simp [hc]
      · simp only [upd_other _ _ e]
    · intro a b l ha hb h1 h2
      simp only at h1 h2
      by_cases e : a = c
      · subst e; simp at h1
      · by_cases e' : b = c
        · subst e'; simp at h2
        · rw [upd_other _ _ e] at h1; rw [upd_other _ _ e'] at h2
          exact h.inj a b l ha hb h1 h2
  call s f h hr := ⟨h.listed, h.inj⟩
  ret s f fs _ h hf := ⟨h.listed, h.inj⟩
  builtin s i f args h hb := ⟨h.listed, h.inj⟩
  enter s i f e h hb := ⟨h.listed, h.inj⟩
  exit s e es h he := ⟨h.listed, h.inj⟩

end Quilt.VM
