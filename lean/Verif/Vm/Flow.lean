import Verif.Compiler.Boundary
import Verif.Sem.Rel
import Verif.Sem.Post
import Verif.Vm.Bottom

/-!
# Control flow of compiled code

During a run of compiled code every frame executes a compiled function and stands at the start of an
instruction, suspended frames right behind a call. Used for C59 and C61.
-/

namespace Quilt

mutual
/-- All functions in a value satisfy `P` (there are no bare function constants in it). -/
def Val.AllC {C : Type} (P : C → Prop) : Val C → Prop
  | .clos c => P c
  | .func _ => False
  | .pair a b => Val.AllC P a ∧ Val.AllC P b
  | .arr xs _ _ => Val.AllCL P xs
  | _ => True
termination_by structural v => v
def Val.AllCL {C : Type} (P : C → Prop) : List (Val C) → Prop
  | [] => True
  | v :: vs => Val.AllC P v ∧ Val.AllCL P vs
termination_by structural v => v
end

namespace Val
variable {C C' : Type} {P : C → Prop}

theorem allCL_iff {vs : List (Val C)} : AllCL P vs ↔ ∀ v ∈ vs, AllC P v := by
  induction vs with
  | nil => simp [AllCL]
  | cons v vs ih => simp [AllCL, ih]

mutual
theorem allC_rel : ∀ (v : Val C), AllC P v ↔ Rel (fun a b => a = b ∧ P a) v v
  | .arr xs s m => by simp only [AllC, Rel]; simp [allCL_rel xs]
  | .pair a b => by simp only [AllC, Rel]; rw [allC_rel a, allC_rel b]
  | .clos c => by simp [AllC, Rel]
  | .func _ => by simp [AllC, Rel]
  | .none | .bool _ | .int _ | .float _ | .range .. | .color .. | .str _ | .special .. | .loopCtx _ => by simp [AllC, Rel]
termination_by structural v => v
theorem allCL_rel : ∀ (vs : List (Val C)), AllCL P vs ↔ RelL (fun a b => a = b ∧ P a) vs vs
  | [] => by simp [AllCL, RelL]
  | v :: vs => by simp only [AllCL, RelL]; rw [allC_rel v, allCL_rel vs]
termination_by structural v => v
end

theorem Rel.allC {r : Res (Val C)} (h : Res.Rel (Rel fun a b => a = b ∧ P a) r r) : ∀ v, r = .ok v → AllC P v := by
  intro v hv; subst hv; exact (allC_rel v).2 h

mutual
/-- A value on the other side, given one for every function. -/
theorem exists_left {R : C → C' → Prop} {Q : C' → Prop} (h : ∀ c', Q c' → ∃ c, R c c') : ∀ v : Val C', AllC Q v → ∃ u, Rel R u v
  | .arr xs s m, hv => by
    simp only [AllC] at hv
    obtain ⟨us, hu⟩ := exists_leftL h xs hv
    exact ⟨.arr us s m, by simp [Rel, hu]⟩
  | .pair a b, hv => by
    simp only [AllC] at hv
    obtain ⟨u, hu⟩ := exists_left h a hv.1
    obtain ⟨w, hw⟩ := exists_left h b hv.2
    exact ⟨.pair u w, by simp [Rel, hu, hw]⟩
  | .clos c, hv => by
    obtain ⟨d, hd⟩ := h c hv
    exact ⟨.clos d, by simpa [Rel] using hd⟩
  | .func _, hv => by simp [AllC] at hv
  | .none, _ => ⟨.none, by simp [Rel]⟩
  | .bool a, _ => ⟨.bool a, by simp [Rel]⟩
  | .int a, _ => ⟨.int a, by simp [Rel]⟩
  | .float a, _ => ⟨.float a, by simp [Rel]⟩
  | .range a b, _ => ⟨.range a b, by simp [Rel]⟩
  | .color a b c d, _ => ⟨.color a b c d, by simp [Rel]⟩
  | .str a, _ => ⟨.str a, by simp [Rel]⟩
  | .special a n, _ => ⟨.special a n, by simp [Rel]⟩
  | .loopCtx a, _ => ⟨.loopCtx a, by simp [Rel]⟩
termination_by structural v => v
theorem exists_leftL {R : C → C' → Prop} {Q : C' → Prop} (h : ∀ c', Q c' → ∃ c, R c c') : ∀ vs : List (Val C'), AllCL Q vs → ∃ us, RelL R us vs
  | [], _ => ⟨[], by simp [RelL]⟩
  | v :: vs, hv => by
    simp only [AllCL] at hv
    obtain ⟨u, hu⟩ := exists_left h v hv.1
    obtain ⟨us, hus⟩ := exists_leftL h vs hv.2
    exact ⟨u :: us, by simp [RelL, hu, hus]⟩
termination_by structural v => v
end

mutual
theorem Rel.right {R : C → C' → Prop} {Q : C' → Prop} (h : ∀ c c', R c c' → Q c') : ∀ (u : Val C) (v : Val C'), Rel R u v → AllC Q v
  | .arr xs _ _, .arr ys _ _, hv => by simp only [Rel] at hv; simpa [AllC] using RelL.right h xs ys hv.1
  | .pair a b, .pair a' b', hv => by simp only [Rel] at hv; exact ⟨Rel.right h a a' hv.1, Rel.right h b b' hv.2⟩
  | .clos c, .clos c', hv => h c c' (by simpa [Rel] using hv)
  | u, .none, _ | u, .bool _, _ | u, .int _, _ | u, .float _, _ | u, .range .., _ | u, .color .., _ | u, .str _, _ | u, .special .., _ | u, .loopCtx _, _ => by simp [AllC]
  | u, .func _, hv => by cases u <;> simp [Rel] at hv
  | .none, .arr .., hv | .bool _, .arr .., hv | .int _, .arr .., hv | .float _, .arr .., hv | .range .., .arr .., hv | .color .., .arr .., hv | .str _, .arr .., hv
  | .special .., .arr .., hv | .loopCtx _, .arr .., hv | .func _, .arr .., hv | .clos _, .arr .., hv | .pair .., .arr .., hv => by simp [Rel] at hv
  | .none, .pair .., hv | .bool _, .pair .., hv | .int _, .pair .., hv | .float _, .pair .., hv | .range .., .pair .., hv | .color .., .pair .., hv | .str _, .pair .., hv
  | .special .., .pair .., hv | .loopCtx _, .pair .., hv | .func _, .pair .., hv | .clos _, .pair .., hv | .arr .., .pair .., hv => by simp [Rel] at hv
  | .none, .clos _, hv | .bool _, .clos _, hv | .int _, .clos _, hv | .float _, .clos _, hv | .range .., .clos _, hv | .color .., .clos _, hv | .str _, .clos _, hv
  | .special .., .clos _, hv | .loopCtx _, .clos _, hv | .func _, .clos _, hv | .pair .., .clos _, hv | .arr .., .clos _, hv => by simp [Rel] at hv
termination_by structural v => v
theorem RelL.right {R : C → C' → Prop} {Q : C' → Prop} (h : ∀ c c', R c c' → Q c') : ∀ (us : List (Val C)) (vs : List (Val C')), RelL R us vs → AllCL Q vs
  | [], [], _ => by simp [AllCL]
  | u :: us, v :: vs, hv => by simp only [RelL] at hv; exact ⟨Rel.right h u v hv.1, RelL.right h us vs hv.2⟩
  | [], _ :: _, hv => by simp [RelL] at hv
  | _ :: _, [], hv => by simp [RelL] at hv
termination_by structural v => v
end

theorem allC_lit (l : Literal) : AllC P (l.toVal : Val C) := (allC_rel _).2 (Rel.toVal l)

end Val

/-- A builtin that yields no functions but those in its arguments. -/
def FromArgs {D : Type} (lim : Limits) (f : BFn D VClos) : Prop :=
  ∀ (P : VClos → Prop) (d : D) (args : List VVal), Val.AllCL P args → ∀ v, (f d args lim).1 = .ok v → v.AllC P

/-- Builtins that treat functions as opaque do not make new ones. -/
theorem BRel.fromArgs {D : Type} {lim : Limits} {f : BFn D SClos} {f' : BFn D VClos} (h : BRel lim f f') : FromArgs lim f' := by
  intro P d args ha v hv
  obtain ⟨us, hu⟩ := Val.exists_leftL (R := fun (c : SClos) (c' : VClos) => c.name = c'.fn.name ∧ P c') (Q := P)
    (fun c' hc => ⟨⟨c'.fn.name, Span.default, [], [], default⟩, rfl, hc⟩) args ha
  have := (h.rel _ (fun c c' hc => hc.1) d us args hu).1
  rw [hv] at this
  cases hf : (f d us lim).1 with
  | ok u => rw [hf] at this; exact Val.Rel.right (fun c c' hc => hc.2) u v this
  | err => rw [hf] at this; simp [Res.Rel] at this
  | panic => rw [hf] at this; simp [Res.Rel] at this

namespace VM
variable {D : Type} {H : Host D}

/-- All builtins of the host. -/
def Honest (H : Host D) : Prop :=
  ∀ i f, (H.builtins i = some (.fn f) ∨ ∃ e, H.builtins i = some (.ctx f e)) → FromArgs H.opts.lim f

/-- The functions in the values of a state. -/
structure ValsOk (P : VClos → Prop) (s : VM D) : Prop where
  stack : ∀ i, (s.stack i).AllC P
  heap : ∀ c v, s.heap c = .closed v → v.AllC P
  globals : ∀ i v, s.globals i = some v → v.AllC P
  blocks : ∀ v ∈ s.blockResults, v.AllC P

/-- A class of compiled functions, closed under the functions among the constants. -/
structure Compiled (W : Func → Prop) : Prop where
  code : ∀ f, W f → ∃ c, IsCode f c
  const : ∀ f g, W f → Const.fn g ∈ f.consts → W g

/-- A frame that executes a function of the class and stands at the start of an instruction. -/
def Stands (W : Func → Prop) (f : Frame) : Prop := W f.fn ∧ Boundary f.fn f.ip

/-- A frame that stands right behind a call instruction. -/
def Suspended (W : Func → Prop) (f : Frame) : Prop :=
  W f.fn ∧ ∃ p n, Boundary f.fn p ∧ decode f.fn.consts (f.fn.ops.drop p) = some (.callFunction n, 2) ∧ f.ip = p + 2

theorem Suspended.stands {W : Func → Prop} {f : Frame} (h : Suspended W f) : Stands W f := by
  obtain ⟨h1, p, n, h2, h3, h4⟩ := h
  exact ⟨h1, h4 ▸ .next h2 h3⟩

structure Cfi (W : Func → Prop) (s : VM D) : Prop where
  vals : ValsOk (fun c => W c.fn) s
  cur : Stands W s.frame
  susp : ∀ f ∈ s.frames, Suspended W f

variable {W : Func → Prop} {s : VM D}

theorem cfi_push (h : Cfi W s) {v : VVal} (hv : v.AllC fun c => W c.fn) : (s.push H v).Each (Cfi W) := by
  unfold push; split
  · exact h
  · refine ⟨⟨fun i => ?_, h.vals.heap, h.vals.globals, h.vals.blocks⟩, h.cur, h.susp⟩
    show ((upd s.stack s.sp v) i).AllC _
    unfold upd; split
    · exact hv
    · exact h.vals.stack i

theorem cfi_pushU (h : Cfi W s) {v : VVal} (hv : v.AllC fun c => W c.fn) : Cfi W (s.pushU v) := by
  refine ⟨⟨fun i => ?_, h.vals.heap, h.vals.globals, h.vals.blocks⟩, h.cur, h.susp⟩
  show ((upd s.stack s.sp v) i).AllC _
  unfold upd; split
  · exact hv
  · exact h.vals.stack i

theorem Cfi.setStack (h : Cfi W s) {l : Nat} {v : VVal} (hv : v.AllC fun c => W c.fn) : Cfi W { s with stack := upd s.stack l v } := by
  refine ⟨⟨fun i => ?_, h.vals.heap, h.vals.globals, h.vals.blocks⟩, h.cur, h.susp⟩
  show ((upd s.stack l v) i).AllC _
  unfold upd; split
  · exact hv
  · exact h.vals.stack i

theorem Cfi.setSp (h : Cfi W s) (n : Nat) : Cfi W { s with sp := n } := ⟨⟨h.vals.stack, h.vals.heap, h.vals.globals, h.vals.blocks⟩, h.cur, h.susp⟩
theorem Cfi.setData (h : Cfi W s) (d : D) : Cfi W { s with data := d } := ⟨⟨h.vals.stack, h.vals.heap, h.vals.globals, h.vals.blocks⟩, h.cur, h.susp⟩
theorem Cfi.setIp (h : Cfi W s) {p : Nat} (hp : Boundary s.frame.fn p) : Cfi W { s with frame := { s.frame with ip := p } } :=
  ⟨⟨h.vals.stack, h.vals.heap, h.vals.globals, h.vals.blocks⟩, ⟨h.cur.1, hp⟩, h.susp⟩
theorem Cfi.setGlobal (h : Cfi W s) {i : Nat} {v : VVal} (hv : v.AllC fun c => W c.fn) : Cfi W { s with globals := upd s.globals i (some v) } := by
  refine ⟨⟨h.vals.stack, h.vals.heap, fun j w hw => ?_, h.vals.blocks⟩, h.cur, h.susp⟩
  have hw : upd s.globals i (some v) j = some w := hw
  unfold upd at hw; split at hw
  · cases hw; exact hv
  · exact h.vals.globals j w hw

theorem cfi_lift {α : Type} {r : Res α} {k : α → StepR D} (h : Cfi W s) (hk : ∀ a, r = .ok a → (k a).Each (Cfi W)) : (s.lift r k).Each (Cfi W) := by
  cases r with
  | ok a => exact hk a rfl
  | err e => exact h
  | panic => trivial

theorem cfi_oobR (h : Cfi W s) : (s.oobR H).Each (Cfi W) := by
  unfold oobR; split
  · trivial
  · exact h

theorem cfi_pop (h : Cfi W s) {k : VVal → VM D → StepR D} (hk : ∀ v s', Cfi W s' → v.AllC (fun c => W c.fn) → s'.frame = s.frame → s'.frames = s.frames → (k v s').Each (Cfi W)) :
    (s.pop k).Each (Cfi W) := by
  unfold pop; split
  · trivial
  · exact hk _ _ (h.setSp _) (h.vals.stack _) rfl rfl

theorem cfi_popSwapOut (h : Cfi W s) {k : VVal → VM D → StepR D} (hk : ∀ v s', Cfi W s' → v.AllC (fun c => W c.fn) → (k v s').Each (Cfi W)) :
    (s.popSwapOut k).Each (Cfi W) := by
  unfold popSwapOut; split
  · trivial
  · exact hk _ _ ((h.setStack (by simp [Val.AllC])).setSp _) (h.vals.stack _)

theorem cfi_pushAll : ∀ (vs : List VVal) {s : VM D}, Cfi W s → (∀ v ∈ vs, v.AllC fun c => W c.fn) → (s.pushAll H vs).Each (Cfi W)
  | [], _, h, _ => h
  | v :: vs, s, h, hv => by
    unfold pushAll
    have := cfi_push (H := H) h (hv v (by simp))
    split
    · rename_i s' hs
      rw [hs] at this
      exact cfi_pushAll vs this fun w hw => hv w (List.mem_cons_of_mem _ hw)
    · exact this

theorem Cfi.closeUp (h : Cfi W s) (l : Nat) : Cfi W (s.closeUp H l) := by
  unfold VM.closeUp; split
  · exact h
  · refine ⟨⟨h.vals.stack, fun c v hv => ?_, h.vals.globals, h.vals.blocks⟩, h.cur, h.susp⟩
    simp only at hv
    split at hv
    · split at hv
      · split at hv
        · cases hv; exact h.vals.stack _
        · exact h.vals.heap c v hv
      · exact h.vals.heap c v hv
    · exact h.vals.heap c v hv

theorem Cfi.closeRange (n : Nat) : ∀ {s : VM D} (lo : Nat), Cfi W s → Cfi W (s.closeRange H lo n) := by
  induction n with
  | zero => intro s lo h; exact h
  | succ n ih => intro s lo h; exact ih _ (h.closeUp lo)

theorem Cfi.capture (h : Cfi W s) (l : Nat) : Cfi W (s.capture l).2 := by
  unfold VM.capture; split
  · exact h
  · refine ⟨⟨h.vals.stack, fun c v hv => ?_, h.vals.globals, h.vals.blocks⟩, h.cur, h.susp⟩
    have hv : upd s.heap s.hp (.opened l) c = .closed v := hv
    unfold upd at hv; split at hv
    · cases hv
    · exact h.vals.heap c v hv

theorem Cfi.captureAll : ∀ (us : List (Nat × Nat)) {s s' : VM D} {cs : List Nat}, Cfi W s → s.captureAll us = some (cs, s') → Cfi W s'
  | [], s, s', cs, h, hc => by simp [VM.captureAll] at hc; obtain ⟨_, rfl⟩ := hc; exact h
  | (l, i) :: us, s, s', cs, h, hc => by
    simp only [VM.captureAll] at hc
    split at hc
    · have := h.capture (s.frame.st + i)
      revert hc this
      generalize s.capture (s.frame.st + i) = r
      obtain ⟨c, s1⟩ := r
      intro hc this
      simp only at hc this
      split at hc
      · rename_i h2
        simp at hc
        obtain ⟨_, rfl⟩ := hc
        exact Cfi.captureAll us this h2
      · cases hc
    · split at hc
      · split at hc
        · rename_i h2
          simp at hc
          obtain ⟨_, rfl⟩ := hc
          exact Cfi.captureAll us h h2
        · cases hc
      · cases hc

theorem cfi_runBuiltin (hH : Honest H) (h : Cfi W s) {i : Nat} {f : BFn D VClos} (hf : H.builtins i = some (.fn f) ∨ ∃ e, H.builtins i = some (.ctx f e)) {n : Nat} {ex : Option (ExitFn D)} :
    (s.runBuiltin H f n ex).Each (Cfi W) := by
  unfold runBuiltin
  split
  · exact h
  · have hc : ∀ (x : List (ExitFn D)) (d : D), Cfi W { s with sp := s.sp - n, exitFns := x, data := d } := fun x d =>
      ⟨⟨h.vals.stack, h.vals.heap, h.vals.globals, h.vals.blocks⟩, h.cur, h.susp⟩
    refine cfi_lift (hc _ _) fun v hv => cfi_push (hc _ _) ?_
    refine hH i f hf _ _ _ ?_ v hv
    rw [Val.allCL_iff]
    intro w hw
    rw [List.mem_reverse, topN, List.mem_map] at hw
    obtain ⟨j, _, rfl⟩ := hw
    exact h.vals.stack _

/-- Jumps of an instruction lead to instructions. -/
theorem jump_ok {f : Func} {c : Code} (h : IsCode f c) {p n : Nat} {i : Instr} (hp : Boundary f p) (hd : decode f.consts (f.ops.drop p) = some (i, n)) :
    (∀ t, i.target p n = some t → Boundary f t) ∧ (i.InTable f.consts) := by
  obtain ⟨a, b, hab, rfl⟩ := (h.boundary p).1 hp
  cases b with
  | nil =>
    have hl : f.ops.drop a.len = [] := by rw [h.ops, hab]; simp [Code.len]
    rw [hl] at hd; simp [decode] at hd
  | cons q b =>
    rw [h.dec a q b hab] at hd
    simp only [Option.some.injEq, Prod.mk.injEq] at hd
    obtain ⟨rfl, rfl⟩ := hd
    refine ⟨fun t ht => ?_, h.table q (by simp [hab])⟩
    have hj := h.jumps a q b hab
    have fwd : ∀ o, (∃ b1 b2 : Code, b = b1 ++ b2 ∧ b1.len = o) → Boundary f (a.len + q.i.enc.length + o) := by
      rintro o ⟨b1, b2, rfl, rfl⟩
      exact (h.boundary _).2 ⟨a ++ q :: b1, b2, by simp [hab], by simp; omega⟩
    cases hi : q.i <;> rw [hi] at hj ht <;> simp only [Instr.target, Option.some.injEq, reduceCtorEq] at ht <;> subst ht <;> simp only [JumpIn] at hj
    case jumpBackward o =>
      obtain ⟨a1, a2, rfl, h2⟩ := hj
      refine (h.boundary _).2 ⟨a1, a2 ++ q :: b, by simp [hab], ?_⟩
      simp [Instr.enc, u16le]; omega
    all_goals (have := fwd _ hj; rwa [hi] at this)

/-- One instruction. -/
theorem exec_cfi (hW : Compiled W) (hH : Honest H) {p n : Nat} {i : Instr} (hp : Boundary s.frame.fn p)
    (hd : decode s.frame.fn.consts (s.frame.fn.ops.drop p) = some (i, n)) (hip : s.frame.ip = p + n) (h : Cfi W s) : (exec H s i).Each (Cfi W) := by
  obtain ⟨c, hc⟩ := hW.code _ h.cur.1
  obtain ⟨hj, ht⟩ := jump_ok hc hp hd
  have hrel : ∀ v : VVal, v.AllC (fun c => W c.fn) ↔ Val.Rel (fun a b => a = b ∧ W a.fn) v v := Val.allC_rel
  cases i with
  | ret =>
    simp only [exec]
    refine cfi_pop h fun v s' h' hv hf1 hf2 => ?_
    have h3 := h'.closeRange (H := H) (s'.sp - s'.frame.st) s'.frame.st
    split
    · rename_i f fs hf
      refine cfi_push ?_ hv
      exact ⟨⟨h3.vals.stack, h3.vals.heap, h3.vals.globals, h3.vals.blocks⟩, (h3.susp f (by simp [hf])).stands, fun g hg => h3.susp g (by rw [hf]; exact List.mem_cons_of_mem _ hg)⟩
    · split
      · trivial
      · rename_i hf _
        exact ⟨h3.setSp _, hf⟩
  | callFunction k =>
    obtain rfl : n = 2 := by
      obtain ⟨a, b, hab, rfl⟩ := (hc.boundary p).1 hp
      cases b with
      | nil =>
        have hl : s.frame.fn.ops.drop a.len = [] := by rw [hc.ops, hab]; simp [Code.len]
        rw [hl] at hd; simp [decode] at hd
      | cons q b =>
        rw [hc.dec a q b hab] at hd
        simp only [Option.some.injEq, Prod.mk.injEq] at hd
        rw [← hd.2, hd.1]; rfl
    have hs : Suspended W s.frame := ⟨h.cur.1, p, k, hp, hd, hip⟩
    have hcall : ∀ (fn : Func) (ups : List Nat) (st : Nat) (d : D), W fn →
        Cfi W { s with frames := s.frame :: s.frames, frame := { fn := fn, ups := ups, ip := 0, st := st }, data := d } := fun fn ups st d hw =>
      ⟨⟨h.vals.stack, h.vals.heap, h.vals.globals, h.vals.blocks⟩, ⟨hw, .zero⟩, fun g hg => by
        rcases List.mem_cons.1 hg with rfl | hg
        · exact hs
        · exact h.susp g hg⟩
    have hst := h.vals.stack (s.sp - k - 1)
    simp only [exec]; split
    · trivial
    · split
      · exact h
      · split
        · rename_i hv
          rw [hv] at hst
          split
          · exact h
          · exact hcall _ _ _ _ (by simpa [Val.AllC] using hst)
        · rename_i hv
          rw [hv] at hst; simp [Val.AllC] at hst
        · exact h
  | createClosure k us =>
    simp only [exec]; split
    · rename_i f hf
      split
      · rename_i hcap
        exact cfi_push (h.captureAll us hcap) (by simpa [Val.AllC] using hW.const _ _ h.cur.1 (List.mem_of_getElem? hf))
      · trivial
    · exact h
    · trivial
  | createFunction k =>
    simp only [exec]; split
    · rename_i f hf
      exact cfi_push h (by simpa [Val.AllC] using hW.const _ _ h.cur.1 (List.mem_of_getElem? hf))
    · exact h
    · trivial
  | loadConst k =>
    simp only [exec]; split
    · exact cfi_push h (Val.allC_lit _)
    · rename_i f hf
      obtain ⟨l, hl⟩ := ht
      rw [hl] at hf; cases hf
    · trivial
  | closeUpvalue =>
    simp only [exec]; split
    · trivial
    · exact (h.closeUp _).setSp _
  | binary op =>
    simp only [exec]; refine cfi_pop h fun b s1 h1 hb _ _ => cfi_pop h1 fun a s2 h2 ha _ _ => ?_
    refine cfi_lift h2 fun v hv => cfi_pushU h2 ?_
    by_cases h3 : op = .eq
    · subst h3
      simp only [Val.binary, Val.equal] at hv
      split at hv <;> cases hv
      all_goals simp [Val.AllC]
    · by_cases h4 : op = .neq
      · subst h4
        simp only [Val.binary, Val.notEqual] at hv
        split at hv <;> cases hv
        all_goals simp [Val.AllC]
      · exact Val.Rel.allC (Val.rel_binary _ _ _ _ op h3 h4 ((hrel a).1 ha) ((hrel b).1 hb)) v hv
  | unary op =>
    simp only [exec]; refine cfi_pop h fun a s1 h1 ha _ _ => ?_
    exact cfi_lift h1 fun v hv => cfi_pushU h1 (Val.Rel.allC (Val.rel_unary _ op ((hrel a).1 ha)) v hv)
  | indexGet =>
    simp only [exec]; refine cfi_pop h fun b s1 h1 hb _ _ => cfi_pop h1 fun a s2 h2 ha _ _ => ?_
    exact cfi_lift h2 fun v hv => cfi_push h2 (Val.Rel.allC (Val.rel_indexGet _ ((hrel b).1 hb) ((hrel a).1 ha)) v hv)
  | createRange =>
    simp only [exec]; refine cfi_pop h fun b s1 h1 hb _ _ => cfi_pop h1 fun a s2 h2 ha _ _ => ?_
    exact cfi_lift h2 fun v hv => cfi_push h2 (Val.Rel.allC (Val.rel_mkRange ((hrel a).1 ha) ((hrel b).1 hb)) v hv)
  | createPair =>
    simp only [exec]; refine cfi_pop h fun b s1 h1 hb _ _ => cfi_pop h1 fun a s2 h2 ha _ _ => ?_
    exact cfi_pushU h2 ⟨ha, hb⟩
  | createArray k =>
    simp only [exec]; split
    · trivial
    · refine cfi_lift h fun v hv => cfi_push (h.setSp _) (Val.Rel.allC (Val.rel_mkArray _ ?_) v hv)
      rw [← Val.allCL_rel (P := fun c : VClos => W c.fn), Val.allCL_iff]
      intro w hw
      rw [topN, List.mem_map] at hw
      obtain ⟨j, _, rfl⟩ := hw
      exact h.vals.stack _
  | unpack k =>
    simp only [exec]; refine cfi_popSwapOut h fun v s1 h1 hv => cfi_lift h1 fun vs hvs => cfi_pushAll _ h1 ?_
    have := Val.rel_unpack k ((hrel v).1 hv)
    rw [hvs] at this
    have := (Val.allCL_rel (P := fun c : VClos => W c.fn) vs).2 this
    rw [Val.allCL_iff] at this
    exact fun w hw => this w (List.mem_reverse.1 hw)
  | iterNext o =>
    have hb := hj (p + n + o) rfl
    simp only [exec]; split
    · trivial
    · split
      · rename_i j _
        have h1 := h.setStack (l := s.sp - 3) (v := .loopCtx (j + 1)) (by simp [Val.AllC])
        refine cfi_lift h1 fun r hr => ?_
        split
        · rename_i v
          have := Val.rel_iterItem H.cfg.chk j ((hrel _).1 (h1.vals.stack (s.sp - 2)))
          rw [hr] at this
          refine cfi_push h1 ((hrel _).2 this)
        · refine Cfi.setIp h1 ?_
          show Boundary s.frame.fn (s.frame.ip + o)
          rw [hip]; exact hb
      · exact h
  | exitContext =>
    simp only [exec]; split
    · rename_i e es _
      have hc : Cfi W { s with exitFns := es, data := (e s.data).2 } := ⟨⟨h.vals.stack, h.vals.heap, h.vals.globals, h.vals.blocks⟩, h.cur, h.susp⟩
      exact cfi_lift hc fun _ _ => hc
    · exact h
  | enterContext k m =>
    simp only [exec]; split
    · rename_i hf; exact cfi_runBuiltin hH h (.inl hf)
    · rename_i hf; exact cfi_runBuiltin hH h (.inr ⟨_, hf⟩)
    · exact h
  | callBuiltin k m =>
    simp only [exec]; split
    · rename_i hf; exact cfi_runBuiltin hH h (.inl hf)
    · exact h
    · exact h
  | jumpIfFalse o =>
    have hb := hj (p + n + o) rfl
    simp only [exec]; split
    · trivial
    · refine cfi_lift h fun c _ => ?_
      split
      · exact h
      · exact h.setIp (hip ▸ hb)
  | jumpIfNotEq o =>
    have hb := hj (p + n + o) rfl
    simp only [exec]; split
    · trivial
    · split
      · exact h.setSp _
      · exact Cfi.setIp (h.setSp (s.sp - 1)) (hip ▸ hb)
      · trivial
  | jumpForward o => exact h.setIp (hip ▸ hj (p + n + o) rfl)
  | jumpBackward o =>
    simp only [exec]; split
    · trivial
    · exact h.setIp (hip ▸ hj (p + n - o) rfl)
  | halt => exact h
  | loadNone => exact cfi_push h (by simp [Val.AllC])
  | newLoopCtx => exact cfi_push h (by simp [Val.AllC])
  | loadNoneMany k =>
    simp only [exec]; split
    · exact h.setSp _
    · exact h.setSp _
  | blockResult =>
    simp only [exec]; refine cfi_popSwapOut h fun v s1 h1 hv => ?_
    refine ⟨⟨h1.vals.stack, h1.vals.heap, h1.vals.globals, fun w hw => ?_⟩, h1.cur, h1.susp⟩
    rcases List.mem_cons.1 hw with rfl | hw
    · exact hv
    · exact h1.vals.blocks w hw
  | blockReturn =>
    simp only [exec]; split
    · rename_i v vs hb
      refine cfi_push ?_ (h.vals.blocks v (by simp [hb]))
      exact ⟨⟨h.vals.stack, h.vals.heap, h.vals.globals, fun w hw => h.vals.blocks w (by rw [hb]; exact List.mem_cons_of_mem _ hw)⟩, h.cur, h.susp⟩
    · exact h
  | pop => simp only [exec]; exact cfi_pop h fun _ s1 h1 _ _ _ => h1
  | popMany k =>
    simp only [exec]; split
    · trivial
    · exact h.setSp _
  | swap =>
    simp only [exec]; split
    · trivial
    · exact (h.setStack (h.vals.stack _)).setStack (h.vals.stack _)
  | swapPop =>
    simp only [exec]; split
    · trivial
    · exact ((h.setStack (h.vals.stack _)).setStack (h.vals.stack _)).setSp _
  | loadLocal k =>
    simp only [exec]; split
    · exact cfi_oobR h
    · exact cfi_push h (h.vals.stack _)
  | setLocal k =>
    simp only [exec]; split
    · trivial
    · split
      · exact cfi_oobR h
      · exact h.setStack (h.vals.stack _)
  | loadGlobal k =>
    simp only [exec]; split
    · rename_i hg; exact cfi_push h (h.vals.globals _ _ hg)
    · exact h
  | defineGlobal k => simp only [exec]; exact cfi_pop h fun _ s1 h1 hv _ _ => h1.setGlobal hv
  | defineGlobalDefaulted k =>
    simp only [exec]; refine cfi_pop h fun _ s1 h1 hv _ _ => ?_
    split
    · exact h1
    · exact h1.setGlobal hv
  | setGlobal k =>
    simp only [exec]; split
    · trivial
    · split
      · exact h.setGlobal (h.vals.stack _)
      · exact h
  | setUpvalue k =>
    simp only [exec]; split
    · trivial
    · split
      · split
        · split
          · exact cfi_oobR h
          · exact h.setStack (h.vals.stack _)
        · rename_i c _ _ _
          refine ⟨⟨h.vals.stack, fun c' v hv => ?_, h.vals.globals, h.vals.blocks⟩, h.cur, h.susp⟩
          simp only [upd] at hv
          split at hv
          · cases hv; exact h.vals.stack _
          · exact h.vals.heap c' v hv
      · trivial
  | loadUpvalue k =>
    simp only [exec]; split
    · split
      · split
        · exact cfi_oobR h
        · exact cfi_push h (h.vals.stack _)
      · rename_i hv; exact cfi_push h (h.vals.heap _ _ hv)
    · trivial

theorem step_cfi (hW : Compiled W) (hH : Honest H) (h : Cfi W s) : (s.step H).Each (Cfi W) := by
  unfold step
  split
  · exact h
  · split
    · rename_i i n hd
      exact exec_cfi hW hH (p := s.frame.ip) (n := n) h.cur.2 hd rfl (h.setIp (.next h.cur.2 hd))
    · trivial

theorem steps_cfi (hW : Compiled W) (hH : Honest H) : ∀ {k : Nat} {s s' : VM D}, Cfi W s → s.steps H k = some s' → Cfi W s'
  | 0, s, s', h, hs => by simp [steps] at hs; exact hs ▸ h
  | k + 1, s, s', h, hs => by
    have h1 := step_cfi hW hH h
    rw [steps] at hs
    cases hst : s.step H with
    | next s1 => rw [hst] at hs h1; exact steps_cfi hW hH h1 hs
    | done v s1 => simp [hst] at hs
    | err e sp s1 => simp [hst] at hs
    | panic => simp [hst] at hs

/-- Also at the end of a run, however it ends. -/
theorem run_cfi (hW : Compiled W) (hH : Honest H) (clock : Nat → Bool) :
    ∀ (fuel i n : Nat) (s : VM D) {r : StepR D}, Cfi W s → s.run H clock fuel i n = some r → r.Each (Cfi W)
  | 0, _, _, _, _, _, h => by simp [run] at h
  | fuel + 1, i, n, s, r, hb, h => by
    have hs := step_cfi hW hH hb
    unfold run at h
    split at h
    · simp only [Option.some.injEq] at h; subst h; exact hb
    · simp only at h
      split at h
      · rename_i s' h1
        rw [h1] at hs
        split at h
        · simp only [Option.some.injEq] at h; subst h; exact hs
        · exact run_cfi hW hH clock fuel _ _ s' hs h
      · simp only [Option.some.injEq] at h; subst h; exact hs

theorem compiled_fnOk : Compiled FnOk := ⟨fun _ h => h.code, fun _ _ h hg => h.within (.const .self hg)⟩

theorem compiled_within {f : Func} (h : FnOk f) : Compiled (Within f) := ⟨fun _ hw => (h.within hw).code, fun _ _ hw hg => .const hw hg⟩

end VM
end Quilt
