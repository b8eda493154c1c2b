import Verif.Sem.Worn
import Verif.Vm.Keeps

/-!
# A machine that carries something along

The machine with data as in `Verif/Sem/Worn.lean`. It takes the same steps. If calls and returns are counted in this way, the count is the number of
calls in progress. Used for C95.
-/

namespace Quilt

variable {D E : Type}

def Host.wear (en ex : E → E) (H : Host D) : Host (D × E) :=
  ⟨H.cfg, H.opts, fun i => (H.builtins i).map Builtin.wear, H.syms, fun d => (H.onEnter d.1, en d.2), fun d => (H.onExit d.1, ex d.2), H.eqFuel⟩

def VM.wear (e : E) (s : VM D) : VM (D × E) :=
  ⟨(s.data, e), s.exitFns.map ExitFn.wear, s.blockResults, s.globals, s.openUps, s.heap, s.hp, s.frames, s.frame, s.stack, s.sp⟩

def StepR.wear (e : E) : StepR D → StepR (D × E)
  | .next s => .next (s.wear e)
  | .done v s => .done v (s.wear e)
  | .err x sp s => .err x sp (s.wear e)
  | .panic => .panic

namespace VM
variable {H : Host D} {s : VM D} {e : E} {en ex : E → E}

theorem push_wear {v : VVal} : (s.wear e).push (H.wear en ex) v = (s.push H v).wear e := by
  unfold push
  show (if reached H.opts.stackSize s.sp = true then _ else _) = _
  split <;> rfl

theorem pushAll_wear (vs : List VVal) : ∀ s : VM D, (s.wear e).pushAll (H.wear en ex) vs = (s.pushAll H vs).wear e := by
  induction vs with
  | nil => intro s; rfl
  | cons v vs ih =>
    intro s
    simp only [pushAll, push_wear]
    generalize hr : s.push H v = r
    cases r with
    | next s' => exact ih s'
    | _ => rfl

theorem lift_wear {α : Type} {r : Res α} {k : α → StepR D} {k' : α → StepR (D × E)} (h : ∀ a, k' a = (k a).wear e) : (s.wear e).lift r k' = (s.lift r k).wear e := by
  cases r with
  | ok a => exact h a
  | err e => rfl
  | panic => rfl

theorem pop_wear {k : VVal → VM D → StepR D} {k' : VVal → VM (D × E) → StepR (D × E)} (h : ∀ v s, k' v (s.wear e) = (k v s).wear e) :
    (s.wear e).pop k' = (s.pop k).wear e := by
  unfold pop
  show (if s.sp = 0 then _ else _) = _
  split
  · rfl
  · exact h _ { s with sp := s.sp - 1 }

theorem popSwapOut_wear {k : VVal → VM D → StepR D} {k' : VVal → VM (D × E) → StepR (D × E)} (h : ∀ v s, k' v (s.wear e) = (k v s).wear e) :
    (s.wear e).popSwapOut k' = (s.popSwapOut k).wear e := by
  unfold popSwapOut
  show (if s.sp = 0 then _ else _) = _
  split
  · rfl
  · exact h _ { s with sp := s.sp - 1, stack := upd s.stack (s.sp - 1) .none }

theorem oobR_wear : (s.wear e).oobR (H.wear en ex) = (s.oobR H).wear e := by
  unfold oobR
  show (match H.opts.stackSize with | some _ => StepR.panic | none => _) = _
  cases H.opts.stackSize <;> rfl

theorem closeUp_wear (l : Nat) : (s.wear e).closeUp (H.wear en ex) l = (s.closeUp H l).wear e := by
  unfold closeUp
  show (if reached H.opts.stackSize l = true then _ else _) = _
  split <;> rfl

theorem closeRange_wear (n : Nat) : ∀ (s : VM D) (lo : Nat), (s.wear e).closeRange (H.wear en ex) lo n = (s.closeRange H lo n).wear e := by
  induction n with
  | zero => intro s lo; rfl
  | succ n ih => intro s lo; simp only [closeRange, closeUp_wear]; exact ih _ _

theorem capture_wear (l : Nat) : (s.wear e).capture l = ((s.capture l).1, (s.capture l).2.wear e) := by
  unfold capture
  simp only [show (s.wear e).heap = s.heap from rfl, show (s.wear e).openUps = s.openUps from rfl]
  split <;> rfl

theorem captureAll_wear (us : List (Nat × Nat)) : ∀ s : VM D, (s.wear e).captureAll us = (s.captureAll us).map fun r => (r.1, r.2.wear e) := by
  induction us with
  | nil => intro s; rfl
  | cons u us ih =>
    intro s
    obtain ⟨l, i⟩ := u
    unfold captureAll
    split
    · rw [show (s.wear e).frame = s.frame from rfl, capture_wear]
      simp only [ih]
      cases (s.capture (s.frame.st + i)).2.captureAll us <;> rfl
    · rw [show (s.wear e).frame = s.frame from rfl]
      cases s.frame.ups[i]? with
      | none => rfl
      | some c =>
        simp only [ih]
        cases s.captureAll us <;> rfl

theorem runBuiltin_wear {f : BFn D VClos} {n : Nat} {x : Option (ExitFn D)} :
    (s.wear e).runBuiltin (H.wear en ex) (BFn.wear f) n (x.map ExitFn.wear) = (s.runBuiltin H f n x).wear e := by
  unfold runBuiltin
  show (if s.sp < n then _ else _) = _
  split
  · rfl
  · cases x with
    | none =>
      exact lift_wear (s := { s with sp := s.sp - n, data := (f s.data (s.topN n).reverse H.opts.lim).2 }) fun a =>
        push_wear (s := { s with sp := s.sp - n, data := (f s.data (s.topN n).reverse H.opts.lim).2 })
    | some x =>
      exact lift_wear (s := { s with sp := s.sp - n, exitFns := x :: s.exitFns, data := (f s.data (s.topN n).reverse H.opts.lim).2 }) fun a =>
        push_wear (s := { s with sp := s.sp - n, exitFns := x :: s.exitFns, data := (f s.data (s.topN n).reverse H.opts.lim).2 })

/-- One instruction. -/
theorem exec_wear (i : Instr) : ∃ e', exec (H.wear en ex) (s.wear e) i = (exec H s i).wear e' := by
  cases i with
  | callFunction n =>
    simp only [exec]
    show ∃ e', (if s.sp < n + 1 then _ else if reached H.opts.callStackSize s.frames.length = true then _ else _) = _
    split
    · exact ⟨e, rfl⟩
    · split
      · exact ⟨e, rfl⟩
      · rw [show (s.wear e).stack ((s.wear e).sp - n - 1) = s.stack (s.sp - n - 1) from rfl]
        cases s.stack (s.sp - n - 1) with
        | clos c =>
          simp only
          by_cases hn : n ≠ c.fn.arity
          · rw [if_pos hn, if_pos hn]; exact ⟨e, rfl⟩
          · rw [if_neg hn, if_neg hn]; exact ⟨en e, rfl⟩
        | func f =>
          simp only
          by_cases hn : n ≠ f.arity
          · rw [if_pos hn, if_pos hn]; exact ⟨e, rfl⟩
          · rw [if_neg hn, if_neg hn]; exact ⟨en e, rfl⟩
        | _ => exact ⟨e, rfl⟩
  | ret =>
    simp only [exec, pop]
    show ∃ e', (if s.sp = 0 then _ else _) = _
    split
    · exact ⟨e, rfl⟩
    · have hc := closeRange_wear (H := H) (e := e) (en := en) (ex := ex) (s.sp - 1 - s.frame.st) { s with sp := s.sp - 1 } s.frame.st
      simp only [show closeRange (H.wear en ex) { s.wear e with sp := (s.wear e).sp - 1 } (s.wear e).frame.st ((s.wear e).sp - 1 - (s.wear e).frame.st) = _ from hc]
      generalize closeRange H { s with sp := s.sp - 1 } s.frame.st (s.sp - 1 - s.frame.st) = s1
      rw [show (s1.wear e).frames = s1.frames from rfl]
      cases hf : s1.frames with
      | cons f fs => exact ⟨ex e, push_wear (s := { s1 with frames := fs, data := H.onExit s1.data, sp := s1.frame.st, frame := f })⟩
      | nil =>
        simp only
        refine ⟨e, ?_⟩
        show (if H.cfg.chk = true ∧ s1.sp ≠ 0 then _ else _) = _
        split
        · rfl
        · simp only [StepR.wear, VM.wear, hf]
  | createClosure k us =>
    refine ⟨e, ?_⟩
    simp only [exec]
    rw [show (s.wear e).frame = s.frame from rfl]
    split
    · rw [captureAll_wear]
      cases s.captureAll us with
      | none => rfl
      | some r => exact push_wear
    · rfl
    · rfl
  | closeUpvalue =>
    refine ⟨e, ?_⟩
    simp only [exec]
    show (if s.sp = 0 then _ else _) = _
    split
    · rfl
    · simp only [show (s.wear e).sp = s.sp from rfl, closeUp_wear]; rfl
  | binary op => exact ⟨e, by simp only [exec]; exact pop_wear fun _ _ => pop_wear fun _ _ => lift_wear fun _ => rfl⟩
  | unary op => exact ⟨e, by simp only [exec]; exact pop_wear fun _ _ => lift_wear fun _ => rfl⟩
  | indexGet => exact ⟨e, by simp only [exec]; exact pop_wear fun _ _ => pop_wear fun _ _ => lift_wear fun _ => push_wear⟩
  | createRange => exact ⟨e, by simp only [exec]; exact pop_wear fun _ _ => pop_wear fun _ _ => lift_wear fun _ => push_wear⟩
  | createPair => exact ⟨e, by simp only [exec]; exact pop_wear fun _ _ => pop_wear fun _ _ => rfl⟩
  | createArray n =>
    refine ⟨e, ?_⟩
    simp only [exec]
    show (if s.sp < n then _ else _) = _
    split
    · rfl
    · exact lift_wear fun v => push_wear (s := { s with sp := s.sp - n })
  | unpack n => exact ⟨e, by simp only [exec]; exact popSwapOut_wear fun _ _ => lift_wear fun _ => pushAll_wear _ _⟩
  | iterNext o =>
    refine ⟨e, ?_⟩
    simp only [exec]
    show (if s.sp < 3 then _ else _) = _
    split
    · rfl
    · rw [show (s.wear e).stack ((s.wear e).sp - 3) = s.stack (s.sp - 3) from rfl]
      cases s.stack (s.sp - 3) with
      | loopCtx k =>
        refine lift_wear (s := { s with stack := upd s.stack (s.sp - 3) (.loopCtx (k + 1)) }) fun r => ?_
        cases r with
        | some v => exact push_wear (s := { s with stack := upd s.stack (s.sp - 3) (.loopCtx (k + 1)) })
        | none => rfl
      | _ => rfl
  | exitContext =>
    refine ⟨e, ?_⟩
    simp only [exec]
    rw [show (s.wear e).exitFns = s.exitFns.map ExitFn.wear from rfl]
    cases hx : s.exitFns with
    | nil => rfl
    | cons g es => exact lift_wear (s := { s with exitFns := es, data := (g s.data).2 }) fun _ => rfl
  | enterContext k m =>
    refine ⟨e, ?_⟩
    simp only [exec, Host.wear]
    cases hb : H.builtins k with
    | none => rfl
    | some b =>
      cases b with
      | fn f => exact runBuiltin_wear (x := none)
      | ctx f g => exact runBuiltin_wear (x := some g)
  | callBuiltin k m =>
    refine ⟨e, ?_⟩
    simp only [exec, Host.wear]
    cases hb : H.builtins k with
    | none => rfl
    | some b =>
      cases b with
      | fn f => exact runBuiltin_wear (x := none)
      | ctx f g => rfl
  | jumpIfFalse o =>
    refine ⟨e, ?_⟩
    simp only [exec]
    show (if s.sp = 0 then _ else _) = _
    split
    · rfl
    · refine lift_wear fun c => ?_
      cases c <;> rfl
  | jumpIfNotEq o =>
    refine ⟨e, ?_⟩
    simp only [exec]
    show (if s.sp < 2 then _ else match Val.eqv H.cfg.F (ceq H { s with sp := s.sp - 1 }) (s.stack (s.sp - 1 - 1)) (s.stack (s.sp - 1)) with
      | some true => _ | some false => _ | none => _) = _
    split
    · rfl
    · generalize Val.eqv H.cfg.F (ceq H { s with sp := s.sp - 1 }) (s.stack (s.sp - 1 - 1)) (s.stack (s.sp - 1)) = r
      match r with
      | some true => rfl
      | some false => rfl
      | none => rfl
  | jumpForward o => exact ⟨e, rfl⟩
  | jumpBackward o =>
    refine ⟨e, ?_⟩
    simp only [exec]
    show (if s.frame.ip < o then _ else _) = _
    split <;> rfl
  | halt => exact ⟨e, rfl⟩
  | loadNone => exact ⟨e, push_wear⟩
  | newLoopCtx => exact ⟨e, push_wear⟩
  | loadNoneMany n =>
    refine ⟨e, ?_⟩
    simp only [exec]
    show (if reached H.opts.stackSize (s.sp + n) = true then _ else _) = _
    split <;> rfl
  | blockResult => exact ⟨e, by simp only [exec]; exact popSwapOut_wear fun _ _ => rfl⟩
  | blockReturn =>
    refine ⟨e, ?_⟩
    simp only [exec]
    rw [show (s.wear e).blockResults = s.blockResults from rfl]
    cases s.blockResults with
    | nil => rfl
    | cons v vs => exact push_wear (s := { s with blockResults := vs })
  | pop => exact ⟨e, by simp only [exec]; exact pop_wear fun _ _ => rfl⟩
  | defineGlobal k => exact ⟨e, by simp only [exec]; exact pop_wear fun _ _ => rfl⟩
  | defineGlobalDefaulted k =>
    refine ⟨e, ?_⟩
    simp only [exec]
    refine pop_wear fun v s => ?_
    rw [show (s.wear e).globals = s.globals from rfl]
    cases s.globals k <;> rfl
  | swap =>
    refine ⟨e, ?_⟩
    simp only [exec]
    show (if s.sp < 2 then _ else _) = _
    split <;> rfl
  | swapPop =>
    refine ⟨e, ?_⟩
    simp only [exec]
    show (if s.sp < 2 then _ else _) = _
    split <;> rfl
  | popMany n =>
    refine ⟨e, ?_⟩
    simp only [exec]
    show (if s.sp < n then _ else _) = _
    split <;> rfl
  | loadConst i =>
    refine ⟨e, ?_⟩
    simp only [exec]
    rw [show (s.wear e).frame = s.frame from rfl]
    split
    · exact push_wear
    · exact push_wear
    · rfl
  | loadLocal i =>
    refine ⟨e, ?_⟩
    simp only [exec]
    show (if oob H.opts.stackSize s.sp (s.frame.st + i) = true then _ else _) = _
    split
    · exact oobR_wear
    · exact push_wear
  | setLocal i =>
    refine ⟨e, ?_⟩
    simp only [exec]
    show (if s.sp = 0 then _ else if oob H.opts.stackSize s.sp (s.frame.st + i) = true then _ else _) = _
    split
    · rfl
    · split
      · exact oobR_wear
      · rfl
  | loadGlobal i =>
    refine ⟨e, ?_⟩
    simp only [exec]
    rw [show (s.wear e).globals = s.globals from rfl]
    cases s.globals i with
    | some v => exact push_wear
    | none => rfl
  | setGlobal i =>
    refine ⟨e, ?_⟩
    simp only [exec]
    show (if s.sp = 0 then _ else match s.globals i with | some _ => _ | none => _) = _
    split
    · rfl
    · cases s.globals i <;> rfl
  | setUpvalue i =>
    refine ⟨e, ?_⟩
    simp only [exec]
    show (if s.sp = 0 then _ else match s.frame.ups[i]? with | some c => _ | none => _) = _
    split
    · rfl
    · cases s.frame.ups[i]? with
      | none => rfl
      | some c =>
        simp only
        rw [show (s.wear e).heap = s.heap from rfl]
        cases s.heap c with
        | opened l =>
          simp only
          show (if oob H.opts.stackSize s.sp l = true then _ else _) = _
          split
          · exact oobR_wear
          · rfl
        | closed v => rfl
  | loadUpvalue i =>
    refine ⟨e, ?_⟩
    simp only [exec]
    rw [show (s.wear e).frame = s.frame from rfl]
    cases s.frame.ups[i]? with
    | none => rfl
    | some c =>
      simp only
      rw [show (s.wear e).heap = s.heap from rfl]
      cases s.heap c with
      | opened l =>
        simp only
        show (if oob H.opts.stackSize s.sp l = true then _ else _) = _
        split
        · exact oobR_wear
        · exact push_wear
      | closed v => exact push_wear
  | createFunction i =>
    refine ⟨e, ?_⟩
    simp only [exec]
    rw [show (s.wear e).frame = s.frame from rfl]
    split
    · exact push_wear
    · rfl
    · rfl

theorem step_wear (s : VM D) (e : E) : ∃ e', (s.wear e).step (H.wear en ex) = (s.step H).wear e' := by
  unfold step
  rw [show (s.wear e).frame = s.frame from rfl]
  split
  · exact ⟨e, rfl⟩
  · split
    · rename_i i n _
      exact exec_wear (s := { s with frame := { s.frame with ip := s.frame.ip + n } }) i
    · exact ⟨e, rfl⟩

theorem steps_wear : ∀ (k : Nat) (s : VM D) (e : E) {s' : VM D}, s.steps H k = some s' → ∃ e', (s.wear e).steps (H.wear en ex) k = some (s'.wear e')
  | 0, s, e, s', h => by cases h; exact ⟨e, rfl⟩
  | k + 1, s, e, s', h => by
    obtain ⟨e', h1⟩ := step_wear (H := H) (en := en) (ex := ex) s e
    simp only [steps] at h ⊢
    rw [h1]
    generalize s.step H = r at h
    cases r with
    | next s1 => exact steps_wear k s1 e' h
    | _ => cases h

/-! ## Counting calls -/

/-- The number of calls in progress, and the largest such number so far. -/
abbrev Count := Nat × Nat

def Count.enter (e : Count) : Count := (e.1 + 1, max e.2 (e.1 + 1))
def Count.leave (e : Count) : Count := (e.1 - 1, e.2)

/-- The count is right. -/
def Counted (s : VM (D × Count)) : Prop := (s.data.2.1 = s.frames.length ∧ s.frames.length ≤ s.data.2.2) ∧ s.Leaving fun a b : D × Count => b.2 = a.2

private theorem wear_builtin {H : Host D} {i : Nat} {f : BFn (D × Count) VClos} (hb : (H.wear Count.enter Count.leave).builtins i = some (.fn f) ∨
    ∃ e, (H.wear Count.enter Count.leave).builtins i = some (.ctx f e)) : ∀ d args lim, (f d args lim).2.2 = d.2 := by
  intro d args lim
  simp only [Host.wear] at hb
  cases hh : H.builtins i with
  | none => simp [hh] at hb
  | some b =>
    cases b with
    | fn g =>
      simp only [hh, Option.map_some, Builtin.wear, Option.some.injEq, Builtin.fn.injEq, reduceCtorEq, exists_false, or_false] at hb
      rw [← hb]; rfl
    | ctx g h =>
      simp only [hh, Option.map_some, Builtin.wear, Option.some.injEq, Builtin.ctx.injEq, reduceCtorEq, false_or] at hb
      obtain ⟨e, hb, _⟩ := hb
      rw [← hb]; rfl

private theorem wear_exit {H : Host D} {i : Nat} {f : BFn (D × Count) VClos} {e : ExitFn (D × Count)} (hb : (H.wear Count.enter Count.leave).builtins i = some (.ctx f e)) :
    ∀ d, (e d).2.2 = d.2 := by
  intro d
  simp only [Host.wear] at hb
  cases hh : H.builtins i with
  | none => simp [hh] at hb
  | some b =>
    cases b with
    | fn g => simp [hh, Builtin.wear] at hb
    | ctx g h =>
      simp only [hh, Option.map_some, Builtin.wear, Option.some.injEq, Builtin.ctx.injEq] at hb
      rw [← hb.2]; rfl

theorem kept_counted (H : Host D) : Kept (H.wear Count.enter Count.leave) Counted where
  plain s s' h h1 h2 h3 _ _ _ := by unfold Counted Leaving at *; rw [h1, h2, h3]; exact h
  close s l h := by
    have := closeUp_same (H := H.wear Count.enter Count.leave) (s := s) l
    unfold Counted Leaving at *
    rw [this.2.2.2.2.1, this.2.2.2.2.2.1, this.2.2.1]; exact h
  capture s l h := by
    have := capture_same (s := s) l
    unfold Counted Leaving at *
    rw [this.2.2.2.2.1, this.2.2.2.2.2.1, this.2.2.1]; exact h
  setCell s c v w h _ := h
  call s f h _ := by
    refine ⟨?_, h.2⟩
    have := h.1
    show (s.data.2.1 + 1 = (s.frame :: s.frames).length) ∧ (s.frame :: s.frames).length ≤ max s.data.2.2 (s.data.2.1 + 1)
    simp only [List.length_cons]
    omega
  ret s f fs _ h hf := by
    refine ⟨?_, h.2⟩
    have := h.1
    rw [hf, List.length_cons] at this
    show (s.data.2.1 - 1 = fs.length) ∧ fs.length ≤ s.data.2.2
    omega
  builtin s i f args h hb := by
    refine ⟨?_, h.2⟩
    have := h.1
    show (f s.data args _).2.2.1 = s.frames.length ∧ s.frames.length ≤ (f s.data args _).2.2.2
    rw [wear_builtin hb]; exact this
  enter s i f e h hb := ⟨h.1, by
    intro e' he' x
    rcases List.mem_cons.1 he' with rfl | he'
    · exact wear_exit hb x
    · exact h.2 e' he' x⟩
  exit s e es h he := by
    have h2 := h.2
    unfold Leaving at h2
    rw [he] at h2
    refine ⟨?_, fun e' he' => h2 e' (by simp [he'])⟩
    have := h.1
    show (e s.data).2.2.1 = s.frames.length ∧ s.frames.length ≤ (e s.data).2.2.2
    rw [h2 e (by simp)]; exact this

/-- The largest number only grows. -/
theorem keeps_most (H : Host D) : (H.wear Count.enter Count.leave).Keeps fun a b : D × Count => a.2.2 ≤ b.2.2 where
  refl _ := Nat.le_refl _
  trans := Nat.le_trans
  fn i f hb d args := by rw [wear_builtin (.inl hb)]; exact Nat.le_refl _
  ctx i f e hb := ⟨fun d args => by rw [wear_builtin (.inr ⟨e, hb⟩)]; exact Nat.le_refl _, fun d => by rw [wear_exit hb]; exact Nat.le_refl _⟩
  enter d := Nat.le_max_left _ _
  exit d := Nat.le_refl _

private theorem steps_rest {H : Host D} : ∀ (k : Nat) {i : Nat} {s s1 s2 : VM D}, s.steps H k = some s1 → s.steps H (k + i) = some s2 → s1.steps H i = some s2
  | 0, i, s, s1, s2, h1, h2 => by cases h1; rwa [Nat.zero_add] at h2
  | k + 1, i, s, s1, s2, h1, h2 => by
    rw [show k + 1 + i = (k + i) + 1 by omega] at h2
    simp only [steps] at h1 h2
    generalize s.step H = r at h1 h2
    cases r with
    | next s' => exact steps_rest k h1 h2
    | _ => cases h1

/-- A run that ends with the largest number at most `N` never had more than `N` calls in progress. -/
theorem frames_le {H : Host D} {s : VM D} (hf : s.frames = []) (hx : s.exitFns = []) {j : Nat} {s1 : VM D} (h1 : s.steps H j = some s1) {N : Nat}
    (h2 : ∀ e, (s.wear ((0, 0) : Count)).steps (H.wear Count.enter Count.leave) j = some (s1.wear e) → ((s1.wear e).step (H.wear Count.enter Count.leave)).Left fun d => d.2.2 ≤ N)
    (hp : s1.step H ≠ .panic) {k : Nat} (hk : k ≤ j) {s2 : VM D} (h3 : s.steps H k = some s2) : s2.frames.length ≤ N := by
  obtain ⟨e2, h4⟩ := steps_wear (en := Count.enter) (ex := Count.leave) k s (0, 0) h3
  have hc : Counted (s.wear ((0, 0) : Count)) := ⟨⟨by simp [VM.wear, hf], by simp [VM.wear, hf]⟩, by intro f hf'; simp [VM.wear, hx] at hf'⟩
  have hc2 := (kept_counted H).steps hc h4
  obtain ⟨e1, h5⟩ := steps_wear (en := Count.enter) (ex := Count.leave) j s (0, 0) h1
  have h6 := h2 e1 h5
  obtain ⟨i, rfl⟩ : ∃ i, j = k + i := ⟨j - k, by omega⟩
  have h7 := steps_rest k h4 h5
  have hl : (s2.wear e2).Leaving fun a b : D × Count => a.2.2 ≤ b.2.2 := fun f hf d => Nat.le_of_eq (congrArg Prod.snd (hc2.2 f hf d)).symm
  have hd := (kept_data (keeps_most H) (s2.wear e2).data).steps ⟨Nat.le_refl _, hl⟩ h7
  have h8 := step_keeps (keeps_most H) hd.2
  have h9 : (s2.wear e2).frames.length ≤ (s2.wear e2).data.2.2 := hc2.1.2
  obtain ⟨e3, h10⟩ := step_wear (H := H) (en := Count.enter) (ex := Count.leave) s1 e1
  rw [h10] at h6 h8
  have h11 : (s2.wear e2).data.2.2 ≤ (s1.wear e1).data.2.2 := hd.1
  have h12 : (s2.wear e2).frames = s2.frames := rfl
  rw [h12] at h9
  generalize s1.step H = r at h6 h8 hp
  cases r with
  | panic => exact (hp rfl).elim
  | next s' => exact Nat.le_trans (Nat.le_trans (Nat.le_trans h9 h11) h8) h6
  | done v s' => exact Nat.le_trans (Nat.le_trans (Nat.le_trans h9 h11) h8) h6
  | err x sp s' => exact Nat.le_trans (Nat.le_trans (Nat.le_trans h9 h11) h8) h6

end VM

end Quilt
