import Verif.Vm.Machine

/-!
# Invariants of the values of a run

What operators, constants and builtins preserve holds of all values in all states of a run, for arbitrary bytecode.
-/

namespace Quilt.VM

variable {D : Type}

/-- Values that satisfy `Q` and functions that satisfy `W` lead to such values only. -/
structure Keeps (H : Host D) (Q : VVal → Prop) (W : Func → Prop) : Prop where
  none : Q .none
  loop : ∀ k, Q (.loopCtx k)
  lit : ∀ f l, W f → Const.lit l ∈ f.consts → Q l.toVal
  fn : ∀ f g, W f → Const.fn g ∈ f.consts → W g
  func : ∀ f, Q (.func f) ↔ W f
  clos : ∀ c : VClos, Q (.clos c) ↔ W c.fn
  pair : ∀ a b, Q a → Q b → Q (.pair a b)
  binary : ∀ ceq op a b v, Q a → Q b → Val.binary H.cfg H.opts.lim ceq op a b = .ok v → Q v
  unary : ∀ op a v, Q a → Val.unary H.cfg op a = .ok v → Q v
  index : ∀ a b v, Q a → Q b → Val.indexGet H.cfg.chk a b = .ok v → Q v
  range : ∀ a b v, Q a → Q b → Val.mkRange a b = .ok v → Q v
  array : ∀ vs v, (∀ w ∈ vs, Q w) → Val.mkArray H.opts.lim vs = .ok v → Q v
  unpack : ∀ v n vs, Q v → Val.unpack v n = .ok vs → ∀ w ∈ vs, Q w
  iter : ∀ v k w, Q v → Val.iterItem H.cfg.chk v k = .ok (some w) → Q w
  builtin : ∀ i f, (H.builtins i = some (.fn f) ∨ ∃ e, H.builtins i = some (.ctx f e)) → ∀ d args, (∀ w ∈ args, Q w) →
    ∀ v, (f d args H.opts.lim).1 = .ok v → Q v

/-- All values and functions of a state. -/
structure AllVals (Q : VVal → Prop) (W : Func → Prop) (s : VM D) : Prop where
  stack : ∀ i, Q (s.stack i)
  heap : ∀ c v, s.heap c = .closed v → Q v
  globals : ∀ i v, s.globals i = some v → Q v
  blocks : ∀ v ∈ s.blockResults, Q v
  frame : W s.frame.fn
  frames : ∀ f ∈ s.frames, W f.fn

/-- … also of the state a run ends with, and of its value. -/
def _root_.Quilt.StepR.Vals (Q : VVal → Prop) (W : Func → Prop) : StepR D → Prop
  | .next s => AllVals Q W s
  | .err _ _ s => AllVals Q W s
  | .done v s => Q v ∧ AllVals Q W s
  | .panic => True

variable {H : Host D} {Q : VVal → Prop} {W : Func → Prop} {s : VM D}

theorem AllVals.setStack (h : AllVals Q W s) {l : Nat} {v : VVal} (hv : Q v) : AllVals Q W { s with stack := upd s.stack l v } := by
  refine ⟨fun i => ?_, h.heap, h.globals, h.blocks, h.frame, h.frames⟩
  show Q ((upd s.stack l v) i)
  unfold upd; split
  · exact hv
  · exact h.stack i

theorem AllVals.setSp (h : AllVals Q W s) (n : Nat) : AllVals Q W { s with sp := n } := ⟨h.stack, h.heap, h.globals, h.blocks, h.frame, h.frames⟩

theorem AllVals.setIp (h : AllVals Q W s) (p : Nat) : AllVals Q W { s with frame := { s.frame with ip := p } } :=
  ⟨h.stack, h.heap, h.globals, h.blocks, h.frame, h.frames⟩

theorem AllVals.setGlobal (h : AllVals Q W s) {i : Nat} {v : VVal} (hv : Q v) : AllVals Q W { s with globals := upd s.globals i (some v) } := by
  refine ⟨h.stack, h.heap, fun j w hw => ?_, h.blocks, h.frame, h.frames⟩
  have hw : upd s.globals i (some v) j = some w := hw
  unfold upd at hw; split at hw
  · cases hw; exact hv
  · exact h.globals j w hw

theorem vals_pushU (h : AllVals Q W s) {v : VVal} (hv : Q v) : AllVals Q W (s.pushU v) := (h.setStack hv).setSp _

theorem vals_push (h : AllVals Q W s) {v : VVal} (hv : Q v) : (s.push H v).Vals Q W := by
  unfold push; split
  · exact h
  · exact vals_pushU h hv

theorem vals_lift {α : Type} {r : Res α} {k : α → StepR D} (h : AllVals Q W s) (hk : ∀ a, r = .ok a → (k a).Vals Q W) : (s.lift r k).Vals Q W := by
  cases r with
  | ok a => exact hk a rfl
  | err e => exact h
  | panic => trivial

theorem vals_oobR (h : AllVals Q W s) : (s.oobR H).Vals Q W := by
  unfold oobR; split
  · trivial
  · exact h

theorem vals_pop (h : AllVals Q W s) {k : VVal → VM D → StepR D} (hk : ∀ v s', AllVals Q W s' → Q v → s'.frames = s.frames → (k v s').Vals Q W) : (s.pop k).Vals Q W := by
  unfold pop; split
  · trivial
  · exact hk _ _ (h.setSp _) (h.stack _) rfl

theorem vals_popSwapOut (hK : Keeps H Q W) (h : AllVals Q W s) {k : VVal → VM D → StepR D} (hk : ∀ v s', AllVals Q W s' → Q v → (k v s').Vals Q W) :
    (s.popSwapOut k).Vals Q W := by
  unfold popSwapOut; split
  · trivial
  · exact hk _ _ ((h.setStack hK.none).setSp _) (h.stack _)

theorem vals_pushAll : ∀ (vs : List VVal) {s : VM D}, AllVals Q W s → (∀ v ∈ vs, Q v) → (s.pushAll H vs).Vals Q W
  | [], _, h, _ => h
  | v :: vs, s, h, hv => by
    unfold pushAll
    have := vals_push (H := H) h (hv v (by simp))
    split
    · rename_i s' hs
      rw [hs] at this
      exact vals_pushAll vs this fun w hw => hv w (List.mem_cons_of_mem _ hw)
    · exact this

theorem AllVals.closeUp (h : AllVals Q W s) (l : Nat) : AllVals Q W (s.closeUp H l) := by
  unfold VM.closeUp; split
  · exact h
  · refine ⟨h.stack, fun c v hv => ?_, h.globals, h.blocks, h.frame, h.frames⟩
    simp only at hv
    split at hv
    · split at hv
      · split at hv
        · cases hv; exact h.stack _
        · exact h.heap c v hv
      · exact h.heap c v hv
    · exact h.heap c v hv

theorem AllVals.closeRange (n : Nat) : ∀ {s : VM D} (lo : Nat), AllVals Q W s → AllVals Q W (s.closeRange H lo n) := by
  induction n with
  | zero => intro s lo h; exact h
  | succ n ih => intro s lo h; exact ih _ (h.closeUp lo)

theorem AllVals.capture (h : AllVals Q W s) (l : Nat) : AllVals Q W (s.capture l).2 := by
  unfold VM.capture; split
  · exact h
  · refine ⟨h.stack, fun c v hv => ?_, h.globals, h.blocks, h.frame, h.frames⟩
    have hv : upd s.heap s.hp (.opened l) c = .closed v := hv
    unfold upd at hv; split at hv
    · cases hv
    · exact h.heap c v hv

theorem AllVals.captureAll : ∀ (us : List (Nat × Nat)) {s s' : VM D} {cs : List Nat}, AllVals Q W s → s.captureAll us = some (cs, s') → AllVals Q W s'
  | [], s, s', cs, h, hc => by simp [VM.captureAll] at hc; obtain ⟨_, rfl⟩ := hc; exact h
  | (l, i) :: us, s, s', cs, h, hc => by
    simp only [VM.captureAll] at hc
    split at hc
    · have := h.capture (s.frame.st + i)
      revert hc this
      generalize s.capture (s.frame.st + i) = r
      obtain ⟨c, s1⟩ := r
      intro hc this
      simp only at hc this
      split at hc
      · rename_i h2
        simp at hc
        obtain ⟨_, rfl⟩ := hc
        exact AllVals.captureAll us this h2
      · cases hc
    · split at hc
      · split at hc
        · rename_i h2
          simp at hc
          obtain ⟨_, rfl⟩ := hc
          exact AllVals.captureAll us h h2
        · cases hc
      · cases hc

theorem vals_runBuiltin (hK : Keeps H Q W) (h : AllVals Q W s) {i : Nat} {f : BFn D VClos} (hf : H.builtins i = some (.fn f) ∨ ∃ e, H.builtins i = some (.ctx f e)) {n : Nat}
    {ex : Option (ExitFn D)} : (s.runBuiltin H f n ex).Vals Q W := by
  unfold runBuiltin
  split
  · exact h
  · have hc : ∀ (x : List (ExitFn D)) (d : D), AllVals Q W { s with sp := s.sp - n, exitFns := x, data := d } := fun x d =>
      ⟨h.stack, h.heap, h.globals, h.blocks, h.frame, h.frames⟩
    refine vals_lift (hc _ _) fun v hv => vals_push (hc _ _) ?_
    refine hK.builtin i f hf _ _ ?_ v hv
    intro w hw
    rw [List.mem_reverse, topN, List.mem_map] at hw
    obtain ⟨j, _, rfl⟩ := hw
    exact h.stack _

/-- One instruction. -/
theorem exec_vals (hK : Keeps H Q W) (i : Instr) (h : AllVals Q W s) : (exec H s i).Vals Q W := by
  cases i with
  | ret =>
    simp only [exec]
    refine vals_pop h fun v s' h' hv hf2 => ?_
    have h3 := h'.closeRange (H := H) (s'.sp - s'.frame.st) s'.frame.st
    split
    · rename_i f fs hf
      refine vals_push ?_ hv
      exact ⟨h3.stack, h3.heap, h3.globals, h3.blocks, h3.frames f (by simp [hf]), fun g hg => h3.frames g (by rw [hf]; exact List.mem_cons_of_mem _ hg)⟩
    · split
      · trivial
      · exact ⟨hv, h3.setSp _⟩
  | callFunction k =>
    have hcall : ∀ (fn : Func) (ups : List Nat) (st : Nat) (d : D), W fn →
        AllVals Q W { s with frames := s.frame :: s.frames, frame := { fn := fn, ups := ups, ip := 0, st := st }, data := d } := fun fn ups st d hw =>
      ⟨h.stack, h.heap, h.globals, h.blocks, hw, fun g hg => by
        rcases List.mem_cons.1 hg with rfl | hg
        · exact h.frame
        · exact h.frames g hg⟩
    have hst := h.stack (s.sp - k - 1)
    simp only [exec]; split
    · trivial
    · split
      · exact h
      · split
        · rename_i hv
          rw [hv] at hst
          split
          · exact h
          · exact hcall _ _ _ _ ((hK.clos _).1 hst)
        · rename_i hv
          rw [hv] at hst
          split
          · exact h
          · exact hcall _ _ _ _ ((hK.func _).1 hst)
        · exact h
  | createClosure k us =>
    simp only [exec]; split
    · rename_i f hf
      split
      · rename_i hcap
        exact vals_push (h.captureAll us hcap) ((hK.clos _).2 (hK.fn _ _ h.frame (List.mem_of_getElem? hf)))
      · trivial
    · exact h
    · trivial
  | createFunction k =>
    simp only [exec]; split
    · rename_i f hf
      exact vals_push h ((hK.clos _).2 (hK.fn _ _ h.frame (List.mem_of_getElem? hf)))
    · exact h
    · trivial
  | loadConst k =>
    simp only [exec]; split
    · rename_i f hf
      exact vals_push h (hK.lit _ _ h.frame (List.mem_of_getElem? hf))
    · rename_i f hf
      exact vals_push h ((hK.func _).2 (hK.fn _ _ h.frame (List.mem_of_getElem? hf)))
    · trivial
  | closeUpvalue =>
    simp only [exec]; split
    · trivial
    · exact (h.closeUp _).setSp _
  | binary op =>
    simp only [exec]; refine vals_pop h fun b s1 h1 hb _ => vals_pop h1 fun a s2 h2 ha _ => ?_
    exact vals_lift h2 fun v hv => vals_pushU h2 (hK.binary _ _ _ _ _ ha hb hv)
  | unary op =>
    simp only [exec]; refine vals_pop h fun a s1 h1 ha _ => ?_
    exact vals_lift h1 fun v hv => vals_pushU h1 (hK.unary _ _ _ ha hv)
  | indexGet =>
    simp only [exec]; refine vals_pop h fun b s1 h1 hb _ => vals_pop h1 fun a s2 h2 ha _ => ?_
    exact vals_lift h2 fun v hv => vals_push h2 (hK.index _ _ _ hb ha hv)
  | createRange =>
    simp only [exec]; refine vals_pop h fun b s1 h1 hb _ => vals_pop h1 fun a s2 h2 ha _ => ?_
    exact vals_lift h2 fun v hv => vals_push h2 (hK.range _ _ _ ha hb hv)
  | createPair =>
    simp only [exec]; refine vals_pop h fun b s1 h1 hb _ => vals_pop h1 fun a s2 h2 ha _ => ?_
    exact vals_pushU h2 (hK.pair _ _ ha hb)
  | createArray k =>
    simp only [exec]; split
    · trivial
    · refine vals_lift h fun v hv => vals_push (h.setSp _) (hK.array _ _ ?_ hv)
      intro w hw
      rw [topN, List.mem_map] at hw
      obtain ⟨j, _, rfl⟩ := hw
      exact h.stack _
  | unpack k =>
    simp only [exec]; refine vals_popSwapOut hK h fun v s1 h1 hv => vals_lift h1 fun vs hvs => vals_pushAll _ h1 ?_
    exact fun w hw => hK.unpack _ _ _ hv hvs w (List.mem_reverse.1 hw)
  | iterNext o =>
    simp only [exec]; split
    · trivial
    · split
      · rename_i j _
        have h1 := h.setStack (l := s.sp - 3) (v := .loopCtx (j + 1)) (hK.loop _)
        refine vals_lift h1 fun r hr => ?_
        split
        · exact vals_push h1 (hK.iter _ _ _ (h1.stack _) hr)
        · exact AllVals.setIp h1 _
      · exact h
  | exitContext =>
    simp only [exec]; split
    · rename_i e es _
      have hc : AllVals Q W { s with exitFns := es, data := (e s.data).2 } := ⟨h.stack, h.heap, h.globals, h.blocks, h.frame, h.frames⟩
      exact vals_lift hc fun _ _ => hc
    · exact h
  | enterContext k m =>
    simp only [exec]; split
    · rename_i hf; exact vals_runBuiltin hK h (.inl hf)
    · rename_i hf; exact vals_runBuiltin hK h (.inr ⟨_, hf⟩)
    · exact h
  | callBuiltin k m =>
    simp only [exec]; split
    · rename_i hf; exact vals_runBuiltin hK h (.inl hf)
    · exact h
    · exact h
  | jumpIfFalse o =>
    simp only [exec]; split
    · trivial
    · refine vals_lift h fun c _ => ?_
      split
      · exact h
      · exact h.setIp _
  | jumpIfNotEq o =>
    simp only [exec]; split
    · trivial
    · split
      · exact h.setSp _
      · exact AllVals.setIp (h.setSp (s.sp - 1)) _
      · trivial
  | jumpForward o => exact h.setIp _
  | jumpBackward o =>
    simp only [exec]; split
    · trivial
    · exact h.setIp _
  | halt => exact h
  | loadNone => exact vals_push h hK.none
  | newLoopCtx => exact vals_push h (hK.loop _)
  | loadNoneMany k =>
    simp only [exec]; split
    · exact h.setSp _
    · exact h.setSp _
  | blockResult =>
    simp only [exec]; refine vals_popSwapOut hK h fun v s1 h1 hv => ?_
    refine ⟨h1.stack, h1.heap, h1.globals, fun w hw => ?_, h1.frame, h1.frames⟩
    rcases List.mem_cons.1 hw with rfl | hw
    · exact hv
    · exact h1.blocks w hw
  | blockReturn =>
    simp only [exec]; split
    · rename_i v vs hb
      refine vals_push ?_ (h.blocks v (by simp [hb]))
      exact ⟨h.stack, h.heap, h.globals, fun w hw => h.blocks w (by rw [hb]; exact List.mem_cons_of_mem _ hw), h.frame, h.frames⟩
    · exact h
  | pop => simp only [exec]; exact vals_pop h fun _ s1 h1 _ _ => h1
  | popMany k =>
    simp only [exec]; split
    · trivial
    · exact h.setSp _
  | swap =>
    simp only [exec]; split
    · trivial
    · exact (h.setStack (h.stack _)).setStack (h.stack _)
  | swapPop =>
    simp only [exec]; split
    · trivial
    · exact ((h.setStack (h.stack _)).setStack (h.stack _)).setSp _
  | loadLocal k =>
    simp only [exec]; split
    · exact vals_oobR h
    · exact vals_push h (h.stack _)
  | setLocal k =>
    simp only [exec]; split
    · trivial
    · split
      · exact vals_oobR h
      · exact h.setStack (h.stack _)
  | loadGlobal k =>
    simp only [exec]; split
    · rename_i hg; exact vals_push h (h.globals _ _ hg)
    · exact h
  | defineGlobal k => simp only [exec]; exact vals_pop h fun _ s1 h1 hv _ => h1.setGlobal hv
  | defineGlobalDefaulted k =>
    simp only [exec]; refine vals_pop h fun _ s1 h1 hv _ => ?_
    split
    · exact h1
    · exact h1.setGlobal hv
  | setGlobal k =>
    simp only [exec]; split
    · trivial
    · split
      · exact h.setGlobal (h.stack _)
      · exact h
  | setUpvalue k =>
    simp only [exec]; split
    · trivial
    · split
      · split
        · split
          · exact vals_oobR h
          · exact h.setStack (h.stack _)
        · rename_i c _ _ _
          refine ⟨h.stack, fun c' v hv => ?_, h.globals, h.blocks, h.frame, h.frames⟩
          simp only [upd] at hv
          split at hv
          · cases hv; exact h.stack _
          · exact h.heap c' v hv
      · trivial
  | loadUpvalue k =>
    simp only [exec]; split
    · split
      · split
        · exact vals_oobR h
        · exact vals_push h (h.stack _)
      · rename_i hv; exact vals_push h (h.heap _ _ hv)
    · trivial

theorem step_vals (hK : Keeps H Q W) (h : AllVals Q W s) : (s.step H).Vals Q W := by
  unfold step
  split
  · exact h
  · split
    · exact exec_vals hK _ (h.setIp _)
    · trivial

theorem steps_vals (hK : Keeps H Q W) : ∀ {k : Nat} {s s' : VM D}, AllVals Q W s → s.steps H k = some s' → AllVals Q W s'
  | 0, s, s', h, hs => by simp [steps] at hs; exact hs ▸ h
  | k + 1, s, s', h, hs => by
    have h1 := step_vals hK h
    rw [steps] at hs
    cases hst : s.step H with
    | next s1 => rw [hst] at hs h1; exact steps_vals hK h1 hs
    | done v s1 => simp [hst] at hs
    | err e sp s1 => simp [hst] at hs
    | panic => simp [hst] at hs

/-- Also at the end of a run, however it ends. -/
theorem run_vals (hK : Keeps H Q W) (clock : Nat → Bool) :
    ∀ (fuel i n : Nat) (s : VM D) {r : StepR D}, AllVals Q W s → s.run H clock fuel i n = some r → r.Vals Q W
  | 0, _, _, _, _, _, h => by simp [run] at h
  | fuel + 1, i, n, s, r, hb, h => by
    have hs := step_vals hK hb
    unfold run at h
    split at h
    · simp only [Option.some.injEq] at h; subst h; exact hb
    · simp only at h
      split at h
      · rename_i s' h1
        rw [h1] at hs
        split at h
        · simp only [Option.some.injEq] at h; subst h; exact hs
        · exact run_vals hK clock fuel _ _ s' hs h
      · simp only [Option.some.injEq] at h; subst h; exact hs

end Quilt.VM
