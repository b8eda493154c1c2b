import Verif.Compiler.Rooms
import Verif.Vm.Flow
import Verif.Sem.Errors

/-!
# The stack of a run of compiled code

Every frame holds as many values as the height of its code says, so the stack pointer is bounded by the number of frames. Used for C89.
-/

namespace Quilt

theorem VM.compiled_fnIn (K : Nat) : VM.Compiled (FnIn K) :=
  ⟨fun _ h => h.ok.code, fun _ _ h hg => by cases h with | mk c o h1 h2 h3 h4 h5 h6 => exact h6 _ hg⟩

/-- The heights of the code of a function. -/
def Typed (K : Nat) (f : Func) (ht : Nat → Nat) : Prop := ∃ c, IsCode f c ∧ Code.Flows ht c.len 0 c ∧ ∀ p, ht p ≤ K

theorem Code.Flows.at {ht : Nat → Nat} {L : Nat} {a b : Code} {q : Piece} {p : Nat} (h : Code.Flows ht L p (a ++ q :: b)) : q.i.Flows ht L (p + a.len) :=
  (Code.Flows.append.1 h).2.1

theorem Typed.flows {K : Nat} {f : Func} {ht : Nat → Nat} (h : Typed K f ht) {p n : Nat} {i : Instr} (hp : Boundary f p)
    (hd : decode f.consts (f.ops.drop p) = some (i, n)) : ∃ L, i.Flows ht L p ∧ n = i.enc.length := by
  obtain ⟨c, hc, hf, _⟩ := h
  obtain ⟨a, b, hab, rfl⟩ := (hc.boundary p).1 hp
  cases b with
  | nil =>
    have hl : f.ops.drop a.len = [] := by rw [hc.ops, hab]; simp [Code.len]
    rw [hl] at hd; simp [decode] at hd
  | cons q b =>
    rw [hc.dec a q b hab] at hd
    simp only [Option.some.injEq, Prod.mk.injEq] at hd
    obtain ⟨rfl, rfl⟩ := hd
    rw [hab] at hf
    refine ⟨_, by simpa using hf.at, rfl⟩

theorem FnIn.typed {K : Nat} {f : Func} (h : FnIn K f) : ∃ ht, Typed K f ht ∧ ht 0 = f.arity + 1 := by
  cases h with
  | mk c o h1 h2 h3 h4 h5 h6 =>
    obtain ⟨ht, a1, a2, a3, a4⟩ := h5
    exact ⟨ht, ⟨c, isCode_of h1 h2 h3 h4, a4, a3⟩, a1⟩

/-- Stack overflow. -/
abbrev stackOver : Err := .overflow .stackOverflow

/-- A builtin that does not report a stack overflow. -/
def Builtin.Calm {D : Type} (lim : Limits) : Builtin D VClos → Prop
  | .fn f => ∀ d args, Val.AllCL (fun _ => True) args → (f d args lim).1 ≠ .err stackOver
  | .ctx f x => (∀ d args, Val.AllCL (fun _ => True) args → (f d args lim).1 ≠ .err stackOver) ∧ ∀ d, (x d).1 ≠ .err stackOver

mutual
theorem Val.AllC.mono {C : Type} {P Q : C → Prop} (h : ∀ c, P c → Q c) : ∀ (v : Val C), Val.AllC P v → Val.AllC Q v
  | .arr xs _ _, hv => by simp only [Val.AllC] at hv ⊢; exact Val.AllCL.mono h xs hv
  | .pair a b, hv => by simp only [Val.AllC] at hv ⊢; exact ⟨Val.AllC.mono h a hv.1, Val.AllC.mono h b hv.2⟩
  | .clos c, hv => h c hv
  | .func _, hv => by simp [Val.AllC] at hv
  | .none, _ | .bool _, _ | .int _, _ | .float _, _ | .range .., _ | .color .., _ | .str _, _ | .special .., _ | .loopCtx _, _ => by simp [Val.AllC]
termination_by structural v => v
theorem Val.AllCL.mono {C : Type} {P Q : C → Prop} (h : ∀ c, P c → Q c) : ∀ (vs : List (Val C)), Val.AllCL P vs → Val.AllCL Q vs
  | [], _ => by simp [Val.AllCL]
  | v :: vs, hv => by simp only [Val.AllCL] at hv ⊢; exact ⟨Val.AllC.mono h v hv.1, Val.AllCL.mono h vs hv.2⟩
termination_by structural vs => vs
end

namespace VM
variable {D : Type} {H : Host D} {K : Nat}

/-- The suspended frames below a frame that starts at slot `st`: each waits for one value in place of the callee. -/
def Chain (K : Nat) : Nat → List Frame → Prop
  | st, [] => st = 0
  | st, f :: fs => (∃ ht, Typed K f.fn ht ∧ 1 ≤ ht f.ip ∧ f.st + ht f.ip = st + 1) ∧ Chain K f.st fs

theorem Chain.le : ∀ {fs : List Frame} {st : Nat}, Chain K st fs → st + fs.length ≤ fs.length * K
  | [], st, h => by simp only [Chain] at h; subst h; simp
  | f :: fs, st, ⟨⟨ht, ⟨_, _, _, h1⟩, h2, h3⟩, h4⟩ => by
    have := Chain.le h4
    have := h1 f.ip
    simp only [List.length_cons, Nat.add_mul, Nat.one_mul]
    omega

/-- The exit functions that wait. -/
def Exits (s : VM D) : Prop := ∀ x ∈ s.exitFns, ∀ d, (x d).1 ≠ .err stackOver

/-- In the middle of an instruction: the frame holds `x` values; where it continues it has to hold `y`. -/
structure Mid (K y x : Nat) (s : VM D) : Prop where
  typed : ∃ ht, Typed K s.frame.fn ht ∧ ht s.frame.ip = y
  chain : Chain K s.frame.st s.frames
  sp : s.sp = s.frame.st + x
  exits : Exits s

/-- Between instructions. -/
def Ht (K : Nat) (s : VM D) : Prop := ∃ x, Mid K x x s

/-- What a stack overflow means: too many calls, or too many for a stack of this size. -/
def Deep (H : Host D) (K : Nat) (s : VM D) : Prop :=
  reached H.opts.callStackSize s.frames.length ∨ ∃ n, H.opts.stackSize = some n ∧ n + s.frames.length < (s.frames.length + 1) * K

/-- What holds after an instruction. -/
def Out (H : Host D) (K : Nat) : StepR D → Prop
  | .next s => Ht K s
  | .err e _ s => e = stackOver → Deep H K s
  | _ => True

variable {s : VM D} {x y : Nat}

theorem Mid.le (h : Mid K y x s) : y ≤ K := by obtain ⟨ht, ⟨_, _, _, h1⟩, rfl⟩ := h.typed; exact h1 _

theorem Mid.next (h : Mid K y x s) (hxy : x = y) : Out H K (.next s) := ⟨y, hxy ▸ h⟩

theorem Mid.with (h : Mid K y x s) {x' : Nat} {s' : VM D} (h1 : s'.frame = s.frame) (h2 : s'.frames = s.frames) (h3 : s'.sp = s.frame.st + x')
    (h4 : ∀ f ∈ s'.exitFns, f ∈ s.exitFns) : Mid K y x' s' :=
  ⟨by rw [h1]; exact h.typed, by rw [h1, h2]; exact h.chain, by rw [h1]; exact h3, fun f hf => h.exits f (h4 f hf)⟩

theorem out_errAt {e : Err} (he : e ≠ stackOver) : Out H K (s.errAt e) := fun h => absurd h he
theorem out_err1 {e : Err} (he : e ≠ stackOver) : Out H K (s.err1 e) := fun h => absurd h he

theorem Mid.deep {n : Nat} (h : Mid K y x s) (hxy : x < y) (hn : H.opts.stackSize = some n) (hr : reached H.opts.stackSize s.sp = true) : Deep H K s := by
  refine .inr ⟨n, hn, ?_⟩
  have h1 := h.chain.le
  have h2 := h.le
  have h3 := h.sp
  rw [hn] at hr
  simp only [reached, decide_eq_true_eq] at hr
  simp only [Nat.add_mul, Nat.one_mul]
  omega

theorem Mid.pushU (h : Mid K y x s) {v : VVal} : Mid K y (x + 1) (s.pushU v) :=
  h.with rfl rfl (by show s.sp + 1 = _; rw [h.sp]; omega) (fun _ h => h)

variable {n : Nat} (hn : H.opts.stackSize = some n)
include hn

theorem out_push (h : Mid K y x s) (hxy : x + 1 = y) {v : VVal} : Out H K (s.push H v) := by
  unfold push; split
  · rename_i hr
    exact fun _ => h.deep (by omega) hn hr
  · exact h.pushU.next hxy

theorem out_pushAll : ∀ (vs : List VVal) {s : VM D} {x : Nat}, Mid K y x s → x + vs.length = y → Out H K (s.pushAll H vs)
  | [], _, _, h, hxy => h.next (by simpa using hxy)
  | v :: vs, s, x, h, hxy => by
    simp only [List.length_cons] at hxy
    unfold pushAll push
    split
    · rename_i s' hs
      split at hs
      · cases hs
      · cases hs; exact out_pushAll vs h.pushU (by omega)
    · rename_i r hr
      split
      · rename_i hre
        exact fun _ => h.deep (by omega) hn hre
      · exact absurd (by simp_all) (hr (s.pushU v))

theorem out_oob : Out H K (s.oobR H) := by
  unfold oobR; rw [hn]; trivial

omit hn in
theorem out_pop (h : Mid K y (x + 1) s) {k : VVal → VM D → StepR D} (hk : ∀ v s', Mid K y x s' → s'.frame = s.frame → s'.frames = s.frames → Out H K (k v s')) : Out H K (s.pop k) := by
  unfold pop; split
  · trivial
  · exact hk _ _ (h.with rfl rfl (by show s.sp - 1 = _; rw [h.sp]; omega) (fun _ h => h)) rfl rfl

omit hn in
theorem out_popSwapOut (h : Mid K y (x + 1) s) {k : VVal → VM D → StepR D} (hk : ∀ v s', Mid K y x s' → Out H K (k v s')) : Out H K (s.popSwapOut k) := by
  unfold popSwapOut; split
  · trivial
  · exact hk _ _ (h.with rfl rfl (by show s.sp - 1 = _; rw [h.sp]; omega) (fun _ h => h))

omit hn in
theorem out_lift {α : Type} {r : Res α} {k : α → StepR D} (hr : r.Lang) (hk : ∀ a, r = .ok a → Out H K (k a)) : Out H K (s.lift r k) := by
  cases r with
  | ok a => exact hk a rfl
  | err e => exact out_err1 (by rintro rfl; cases hr.of _ rfl)
  | panic => trivial

omit hn in
theorem closeUp_mid (h : Mid K y x s) (l : Nat) : Mid K y x (s.closeUp H l) := by
  unfold VM.closeUp; split
  · exact h
  · exact h.with rfl rfl h.sp (fun _ h => h)

omit hn in
theorem closeRange_keep (n : Nat) : ∀ {s : VM D} (lo : Nat), (s.closeRange H lo n).frame = s.frame ∧ (s.closeRange H lo n).frames = s.frames ∧ (s.closeRange H lo n).exitFns = s.exitFns := by
  induction n with
  | zero => intro s lo; exact ⟨rfl, rfl, rfl⟩
  | succ n ih =>
    intro s lo
    have : (s.closeUp H lo).frame = s.frame ∧ (s.closeUp H lo).frames = s.frames ∧ (s.closeUp H lo).exitFns = s.exitFns := by
      unfold VM.closeUp; split <;> exact ⟨rfl, rfl, rfl⟩
    unfold closeRange
    obtain ⟨h1, h2, h3⟩ := ih (s := s.closeUp H lo) (lo + 1)
    exact ⟨h1.trans this.1, h2.trans this.2.1, h3.trans this.2.2⟩

omit hn in
theorem capture_keep (l : Nat) : (s.capture l).2.frame = s.frame ∧ (s.capture l).2.frames = s.frames ∧ (s.capture l).2.exitFns = s.exitFns ∧ (s.capture l).2.sp = s.sp := by
  unfold VM.capture; split <;> exact ⟨rfl, rfl, rfl, rfl⟩

omit hn in
theorem captureAll_keep : ∀ (us : List (Nat × Nat)) {s s' : VM D} {cs : List Nat}, s.captureAll us = some (cs, s') →
    s'.frame = s.frame ∧ s'.frames = s.frames ∧ s'.exitFns = s.exitFns ∧ s'.sp = s.sp
  | [], s, s', cs, hc => by simp [VM.captureAll] at hc; obtain ⟨_, rfl⟩ := hc; exact ⟨rfl, rfl, rfl, rfl⟩
  | (l, i) :: us, s, s', cs, hc => by
    simp only [VM.captureAll] at hc
    split at hc
    · have := capture_keep (s := s) (s.frame.st + i)
      revert hc this
      generalize s.capture (s.frame.st + i) = r
      obtain ⟨c, s1⟩ := r
      intro hc this
      simp only at hc this
      split at hc
      · rename_i h2
        simp at hc
        obtain ⟨_, rfl⟩ := hc
        obtain ⟨a1, a2, a3, a4⟩ := captureAll_keep us h2
        exact ⟨a1.trans this.1, a2.trans this.2.1, a3.trans this.2.2.1, a4.trans this.2.2.2⟩
      · cases hc
    · split at hc
      · split at hc
        · rename_i h2
          simp at hc
          obtain ⟨_, rfl⟩ := hc
          exact captureAll_keep us h2
        · cases hc
      · cases hc

theorem out_runBuiltin (h : Mid K y x s) (hv : ∀ i, (s.stack i).AllC fun c => FnIn K c.fn) {f : BFn D VClos} {m : Nat} {ex : Option (ExitFn D)} (hxy : x - m + 1 = y) (hm : m ≤ x)
    (hf : ∀ d args, Val.AllCL (fun _ => True) args → (f d args H.opts.lim).1 ≠ .err stackOver) (he : ∀ e, ex = some e → ∀ d, (e d).1 ≠ .err stackOver) :
    Out H K (s.runBuiltin H f m ex) := by
  have hsp := h.sp
  unfold runBuiltin
  split
  · exact out_errAt (by simp)
  · have hc : ∀ (xs : List (ExitFn D)) (d : D), (∀ e ∈ xs, e ∈ s.exitFns ∨ ex = some e) → Mid K y (x - m) { s with sp := s.sp - m, exitFns := xs, data := d } := fun xs d hxs => by
      refine ⟨h.typed, h.chain, by show s.sp - m = s.frame.st + (x - m); omega, fun e hm => ?_⟩
      rcases hxs e hm with h1 | h1
      · exact h.exits e h1
      · exact he e h1
    have ha : Val.AllCL (fun _ => True) (s.topN m).reverse := by
      rw [Val.allCL_iff]
      intro w hw
      rw [List.mem_reverse, topN, List.mem_map] at hw
      obtain ⟨j, _, rfl⟩ := hw
      exact Val.AllC.mono (fun _ _ => trivial) _ (hv _)
    have hq := hf s.data _ ha
    simp only
    generalize f s.data (s.topN m).reverse H.opts.lim = r at hq ⊢
    obtain ⟨r, d⟩ := r
    cases r with
    | ok v =>
      refine out_push hn (hc _ d fun e hm => ?_) (by omega)
      cases ex with
      | none => exact .inl hm
      | some e' => rcases List.mem_cons.1 hm with rfl | hm <;> simp_all
    | err e => exact out_err1 (by rintro rfl; exact hq rfl)
    | panic => trivial

/-- One instruction. -/
theorem exec_out (hH : ∀ i b, H.builtins i = some b → b.Calm H.opts.lim) (hC : Cfi (FnIn K) s) {ht : Nat → Nat} (hT : Typed K s.frame.fn ht)
    (hch : Chain K s.frame.st s.frames) (hX : Exits s) {p : Nat} {i : Instr} {L : Nat} (hF : i.Flows ht L p) (hip : s.frame.ip = p + i.enc.length)
    (hsp : s.sp = s.frame.st + ht p) : Out H K (exec H s i) := by
  have mid : ∀ x, x = ht p → ∀ y, ht (p + i.enc.length) = y → Mid K y x s := fun x hx y hy => ⟨⟨ht, hT, by rw [hip]; exact hy⟩, hch, by rw [hx]; exact hsp, hX⟩
  have jump : ∀ {s' : VM D} {q : Nat}, s'.frame = { s.frame with ip := q } → s'.frames = s.frames → s'.exitFns = s.exitFns → s'.sp = s.frame.st + ht q → Ht K s' := fun {s' q} h1 h2 h3 h4 =>
    ⟨ht q, ⟨ht, by rw [h1]; exact hT, by rw [h1]⟩, by rw [h1, h2]; exact hch, by rw [h1]; exact h4, fun e he => hX e (h3 ▸ he)⟩
  have l3 : ∀ o, (Instr.enc (.jumpForward o)).length = 3 ∧ (Instr.enc (.jumpBackward o)).length = 3 ∧ (Instr.enc (.jumpIfFalse o)).length = 3 ∧
      (Instr.enc (.jumpIfNotEq o)).length = 3 ∧ (Instr.enc (.iterNext o)).length = 3 := fun o => by simp [Instr.enc, u16le]
  cases i with
  | ret =>
    simp only [Instr.Flows] at hF
    simp only [exec]; unfold pop; split
    · trivial
    · rename_i hs0
      dsimp only
      have hk := closeRange_keep (H := H) (s := { s with sp := s.sp - 1 }) (s.sp - 1 - s.frame.st) s.frame.st
      generalize ({ s with sp := s.sp - 1 } : VM D).closeRange H s.frame.st (s.sp - 1 - s.frame.st) = s3 at hk ⊢
      obtain ⟨c1, c2, c3⟩ := hk
      simp only at c1 c2 c3
      split
      · rename_i f fs hf
        rw [← c2, hf] at hch
        obtain ⟨⟨ht', hT', h1, h2⟩, h3⟩ := hch
        refine out_push (y := ht' f.ip) (x := ht' f.ip - 1) hn ?_ (by omega)
        refine ⟨⟨ht', hT', rfl⟩, h3, ?_, fun e he => hX e (c3 ▸ he)⟩
        show s3.frame.st = f.st + (ht' f.ip - 1)
        rw [c1]; omega
      · split <;> trivial
  | jumpForward o =>
    simp only [Instr.Flows] at hF
    refine jump (q := s.frame.ip + o) rfl rfl rfl ?_
    rw [hip, (l3 o).1, hF.2]; exact hsp
  | jumpBackward o =>
    simp only [Instr.Flows] at hF
    simp only [exec]; split
    · trivial
    · refine jump (q := s.frame.ip - o) rfl rfl rfl ?_
      rw [hip, (l3 o).2.1, hF.2]; exact hsp
  | jumpIfFalse o =>
    simp only [Instr.Flows] at hF
    simp only [exec]; split
    · trivial
    · refine out_lift (Val.isTruthy_lang ..) fun b _ => ?_
      split
      · exact (mid _ rfl _ rfl).next (by rw [(l3 o).2.2.1]; exact hF.2.2.1.symm)
      · refine jump (q := s.frame.ip + o) rfl rfl rfl ?_
        rw [hip, (l3 o).2.2.1, hF.2.2.2]; exact hsp
  | jumpIfNotEq o =>
    simp only [Instr.Flows] at hF
    simp only [exec]; split
    · trivial
    · have m := (mid _ rfl _ rfl).with (s' := { s with sp := s.sp - 1 }) (x' := ht p - 1) rfl rfl (by show s.sp - 1 = _; omega) (fun _ h => h)
      split
      · exact m.next (by rw [(l3 o).2.2.2.1]; omega)
      · refine jump (q := s.frame.ip + o) rfl rfl rfl ?_
        show s.sp - 1 = _
        rw [hip, (l3 o).2.2.2.1]; omega
      · trivial
  | iterNext o =>
    simp only [Instr.Flows] at hF
    simp only [exec]; split
    · trivial
    · split
      · refine out_lift (Val.iterItem_lang ..) fun r _ => ?_
        split
        · refine out_push (x := ht p) hn ?_ hF.2.2.1.symm
          exact (mid _ rfl _ (by rw [(l3 o).2.2.2.2])).with rfl rfl hsp (fun _ h => h)
        · refine jump (q := s.frame.ip + o) rfl rfl rfl ?_
          show s.sp = _
          rw [hip, (l3 o).2.2.2.2, hF.2.2.2]; exact hsp
      · exact out_err1 (by simp)
  | callFunction k =>
    obtain ⟨a, b, h1, h2, h3⟩ := hF
    cases h1
    have hst := hC.vals.stack (s.sp - k - 1)
    simp only [exec]; split
    · trivial
    · split
      · rename_i hr
        exact fun _ => .inl hr
      · have go : ∀ (fn : Func) (ups : List Nat), FnIn K fn → Out H K (if k ≠ fn.arity then s.errAt (.type (.mismatchedArity fn.name fn.arity k))
            else .next { s with frames := s.frame :: s.frames, frame := { fn := fn, ups := ups, ip := 0, st := s.sp - k - 1 }, data := H.onEnter s.data }) := by
          intro fn ups hfn
          split
          · exact out_errAt (by simp)
          · rename_i ha
            obtain ⟨ht', t1, t2⟩ := hfn.typed
            refine ⟨k + 1, ⟨ht', t1, ?_⟩, ⟨⟨ht, hT, ?_, ?_⟩, hch⟩, ?_, hX⟩
            · show ht' 0 = k + 1
              rw [t2]; omega
            · rw [hip, h3]; omega
            · show s.frame.st + ht s.frame.ip = s.sp - k - 1 + 1
              rw [hip, h3]; omega
            · show s.sp = s.sp - k - 1 + (k + 1)
              omega
        split
        · rename_i c hv
          rw [hv] at hst
          exact go _ _ (by simpa [Val.AllC] using hst)
        · rename_i hv
          rw [hv] at hst; simp [Val.AllC] at hst
        · exact out_err1 (by simp)
  | halt => obtain ⟨a, b, h1, _⟩ := hF; cases h1
  | loadNoneMany k => obtain ⟨a, b, h1, _⟩ := hF; cases h1
  | enterContext k m =>
    obtain ⟨a, b, h1, h2, h3⟩ := hF
    cases h1
    simp only [exec]; split
    · rename_i hf; exact out_runBuiltin hn (mid _ rfl _ h3) hC.vals.stack rfl h2 (hH _ _ hf) (by simp)
    · rename_i hf; exact out_runBuiltin hn (mid _ rfl _ h3) hC.vals.stack rfl h2 (hH _ _ hf).1 (fun e h => by cases h; exact (hH _ _ hf).2)
    · exact out_err1 (by simp)
  | callBuiltin k m =>
    obtain ⟨a, b, h1, h2, h3⟩ := hF
    cases h1
    simp only [exec]; split
    · rename_i hf; exact out_runBuiltin hn (mid _ rfl _ h3) hC.vals.stack rfl h2 (hH _ _ hf) (by simp)
    · exact out_errAt (by simp)
    · exact out_err1 (by simp)
  | exitContext =>
    obtain ⟨a, b, h1, h2, h3⟩ := hF
    cases h1
    simp only [exec]; split
    · rename_i e es he
      have hx := hX e (by rw [he]; simp) s.data
      generalize e s.data = r at hx ⊢
      obtain ⟨r, d⟩ := r
      cases r with
      | ok v => exact ((mid _ rfl _ h3).with (x' := ht p) (s' := { s with exitFns := es, data := d }) rfl rfl hsp (fun f hf => by rw [he]; exact List.mem_cons_of_mem _ hf)).next (by omega)
      | err e => exact out_err1 (by rintro rfl; exact hx rfl)
      | panic => trivial
    · exact (mid _ rfl _ h3).next (by omega)
  | createArray k =>
    obtain ⟨a, b, h1, h2, h3⟩ := hF
    cases h1
    simp only [exec]; split
    · trivial
    · refine out_lift (Val.mkArray_lang ..) fun v _ => out_push (x := ht p - k) hn ?_ rfl
      exact (mid _ rfl _ h3).with rfl rfl (by show s.sp - k = _; omega) (fun _ h => h)
  | unpack k =>
    obtain ⟨a, b, h1, h2, h3⟩ := hF
    cases h1
    simp only [exec]
    refine out_popSwapOut (x := ht p - 1) (mid _ (by omega) _ h3) fun v s' m => out_lift (Val.unpack_lang ..) fun vs hvs => out_pushAll hn _ m ?_
    rw [List.length_reverse, unpack_length hvs]
  | createClosure k us =>
    obtain ⟨a, b, h1, h2, h3⟩ := hF
    cases h1
    simp only [exec]; split
    · split
      · rename_i hcap
        obtain ⟨a1, a2, a3, a4⟩ := captureAll_keep us hcap
        exact out_push hn ((mid _ rfl _ h3).with (x' := ht p) a1 a2 (by rw [a4]; exact hsp) (fun f hf => a3 ▸ hf)) (by omega)
      · trivial
    · exact out_errAt (by simp)
    · trivial
  | closeUpvalue =>
    obtain ⟨a, b, h1, h2, h3⟩ := hF
    cases h1
    simp only [exec]; split
    · trivial
    · have m := closeUp_mid (H := H) (mid _ rfl _ h3) (s.sp - 1)
      have e := m.sp
      exact (m.with (x' := ht p - 1) (s' := { s.closeUp H (s.sp - 1) with sp := (s.closeUp H (s.sp - 1)).sp - 1 }) rfl rfl
        (by show (s.closeUp H (s.sp - 1)).sp - 1 = _; rw [e]; omega) (fun _ h => h)).next (by omega)
  | swapPop =>
    obtain ⟨a, b, h1, h2, h3⟩ := hF
    cases h1
    simp only [exec]; split
    · trivial
    · exact ((mid _ rfl _ h3).with (x' := ht p - 1) (s' := { s with sp := s.sp - 1, stack := s.swapped }) rfl rfl (by show s.sp - 1 = _; omega) (fun _ h => h)).next (by omega)
  | popMany k =>
    obtain ⟨a, b, h1, h2, h3⟩ := hF
    cases h1
    simp only [exec]; split
    · trivial
    · exact ((mid _ rfl _ h3).with (x' := ht p - k) (s' := { s with sp := s.sp - k }) rfl rfl (by show s.sp - k = _; omega) (fun _ h => h)).next (by omega)
  | swap =>
    obtain ⟨a, b, h1, h2, h3⟩ := hF
    cases h1
    simp only [exec]; split
    · trivial
    · exact ((mid _ rfl _ h3).with (x' := ht p) (s' := { s with stack := s.swapped }) rfl rfl hsp (fun _ h => h)).next (by omega)
  | blockReturn =>
    obtain ⟨a, b, h1, h2, h3⟩ := hF
    cases h1
    simp only [exec]; split
    · refine out_push (x := ht p) hn ?_ rfl
      exact (mid _ rfl _ h3).with rfl rfl hsp (fun _ h => h)
    · exact out_errAt (by simp)
  | blockResult =>
    obtain ⟨a, b, h1, h2, h3⟩ := hF
    cases h1
    simp only [exec]
    exact out_popSwapOut (x := ht p - 1) (mid _ (by omega) _ h3) fun v s' m => (m.with (x' := ht p - 1) (s' := { s' with blockResults := v :: s'.blockResults }) rfl rfl m.sp (fun _ h => h)).next (by omega)
  | pop =>
    obtain ⟨a, b, h1, h2, h3⟩ := hF
    cases h1
    simp only [exec]
    exact out_pop (x := ht p - 1) (mid _ (by omega) _ h3) fun v s' m _ _ => m.next (by omega)
  | binary op =>
    obtain ⟨a, b, h1, h2, h3⟩ := hF
    cases h1
    simp only [exec]
    exact out_pop (x := ht p - 1) (mid _ (by omega) _ h3) fun v s' m _ _ => out_pop (x := ht p - 2) (by rwa [show ht p - 2 + 1 = ht p - 1 by omega]) fun w s2 m2 _ _ =>
      out_lift (Val.binary_lang ..) fun u _ => m2.pushU.next (by omega)
  | unary op =>
    obtain ⟨a, b, h1, h2, h3⟩ := hF
    cases h1
    simp only [exec]
    exact out_pop (x := ht p - 1) (mid _ (by omega) _ h3) fun v s' m _ _ => out_lift (Val.unary_lang ..) fun u _ => m.pushU.next (by omega)
  | indexGet =>
    obtain ⟨a, b, h1, h2, h3⟩ := hF
    cases h1
    simp only [exec]
    exact out_pop (x := ht p - 1) (mid _ (by omega) _ h3) fun v s' m _ _ => out_pop (x := ht p - 2) (by rwa [show ht p - 2 + 1 = ht p - 1 by omega]) fun w s2 m2 _ _ =>
      out_lift (Val.indexGet_lang ..) fun u _ => out_push hn m2 (by omega)
  | createRange =>
    obtain ⟨a, b, h1, h2, h3⟩ := hF
    cases h1
    simp only [exec]
    exact out_pop (x := ht p - 1) (mid _ (by omega) _ h3) fun v s' m _ _ => out_pop (x := ht p - 2) (by rwa [show ht p - 2 + 1 = ht p - 1 by omega]) fun w s2 m2 _ _ =>
      out_lift (Val.mkRange_lang ..) fun u _ => out_push hn m2 (by omega)
  | createPair =>
    obtain ⟨a, b, h1, h2, h3⟩ := hF
    cases h1
    simp only [exec]
    exact out_pop (x := ht p - 1) (mid _ (by omega) _ h3) fun v s' m _ _ => out_pop (x := ht p - 2) (by rwa [show ht p - 2 + 1 = ht p - 1 by omega]) fun w s2 m2 _ _ =>
      m2.pushU.next (by omega)
  | defineGlobal k =>
    obtain ⟨a, b, h1, h2, h3⟩ := hF
    cases h1
    simp only [exec]
    exact out_pop (x := ht p - 1) (mid _ (by omega) _ h3) fun v s' m _ _ => (m.with (x' := ht p - 1) (s' := { s' with globals := upd s'.globals k (some v) }) rfl rfl m.sp (fun _ h => h)).next (by omega)
  | defineGlobalDefaulted k =>
    obtain ⟨a, b, h1, h2, h3⟩ := hF
    cases h1
    simp only [exec]
    refine out_pop (x := ht p - 1) (mid _ (by omega) _ h3) fun v s' m _ _ => ?_
    split
    · exact m.next (by omega)
    · exact (m.with (x' := ht p - 1) (s' := { s' with globals := upd s'.globals k (some v) }) rfl rfl m.sp (fun _ h => h)).next (by omega)
  | setGlobal k =>
    obtain ⟨a, b, h1, h2, h3⟩ := hF
    cases h1
    simp only [exec]; split
    · trivial
    · split
      · exact ((mid _ rfl _ h3).with (x' := ht p) (s' := { s with globals := upd s.globals k (some (s.stack (s.sp - 1))) }) rfl rfl hsp (fun _ h => h)).next (by omega)
      · exact out_err1 (by simp)
  | setLocal k =>
    obtain ⟨a, b, h1, h2, h3⟩ := hF
    cases h1
    simp only [exec]; split
    · trivial
    · split
      · exact out_oob hn
      · exact ((mid _ rfl _ h3).with (x' := ht p) (s' := { s with stack := upd s.stack (s.frame.st + k) (s.stack (s.sp - 1)) }) rfl rfl hsp (fun _ h => h)).next (by omega)
  | setUpvalue k =>
    obtain ⟨a, b, h1, h2, h3⟩ := hF
    cases h1
    simp only [exec]; split
    · trivial
    · split
      · split
        · split
          · exact out_oob hn
          · rename_i l _ _
            exact ((mid _ rfl _ h3).with (x' := ht p) (s' := { s with stack := upd s.stack l (s.stack (s.sp - 1)) }) rfl rfl hsp (fun _ h => h)).next (by omega)
        · rename_i c _ _ _ _
          exact ((mid _ rfl _ h3).with (x' := ht p) (s' := { s with heap := upd s.heap c (.closed (s.stack (s.sp - 1))) }) rfl rfl hsp (fun _ h => h)).next (by omega)
      · trivial
  | loadUpvalue k =>
    obtain ⟨a, b, h1, h2, h3⟩ := hF
    cases h1
    simp only [exec]; split
    · split
      · split
        · exact out_oob hn
        · exact out_push hn (mid _ rfl _ h3) (by omega)
      · exact out_push hn (mid _ rfl _ h3) (by omega)
    · trivial
  | loadLocal k =>
    obtain ⟨a, b, h1, h2, h3⟩ := hF
    cases h1
    simp only [exec]; split
    · exact out_oob hn
    · exact out_push hn (mid _ rfl _ h3) (by omega)
  | loadGlobal k =>
    obtain ⟨a, b, h1, h2, h3⟩ := hF
    cases h1
    simp only [exec]; split
    · exact out_push hn (mid _ rfl _ h3) (by omega)
    · exact out_err1 (by simp)
  | loadConst k =>
    obtain ⟨a, b, h1, h2, h3⟩ := hF
    cases h1
    simp only [exec]; split
    · exact out_push hn (mid _ rfl _ h3) (by omega)
    · exact out_push hn (mid _ rfl _ h3) (by omega)
    · trivial
  | createFunction k =>
    obtain ⟨a, b, h1, h2, h3⟩ := hF
    cases h1
    simp only [exec]; split
    · exact out_push hn (mid _ rfl _ h3) (by omega)
    · exact out_errAt (by simp)
    · trivial
  | loadNone =>
    obtain ⟨a, b, h1, h2, h3⟩ := hF
    cases h1
    exact out_push hn (mid _ rfl _ h3) (by omega)
  | newLoopCtx =>
    obtain ⟨a, b, h1, h2, h3⟩ := hF
    cases h1
    exact out_push hn (mid _ rfl _ h3) (by omega)

theorem step_out (hH : ∀ i b, H.builtins i = some b → b.Calm H.opts.lim) (hC : Cfi (FnIn K) s) (hh : Ht K s) : Out H K (s.step H) := by
  obtain ⟨x, ⟨ht, hT, hx⟩, h2, h3, h4⟩ := hh
  unfold step
  split
  · exact out_errAt (by simp)
  · split
    · rename_i i m hd
      obtain ⟨L, hF, rfl⟩ := hT.flows hC.cur.2 hd
      exact exec_out hn hH (hC.setIp (.next hC.cur.2 hd)) (ht := ht) hT h2 h4 (p := s.frame.ip) hF rfl (by show s.sp = s.frame.st + _; rw [hx]; exact h3)
    · trivial

/-- The whole run. -/
theorem run_out (hH : ∀ i b, H.builtins i = some b → b.Calm H.opts.lim) (hO : Honest H) (clock : Nat → Bool) :
    ∀ (fuel i m : Nat) (s : VM D) {r : StepR D}, Cfi (FnIn K) s → Ht K s → s.run H clock fuel i m = some r → Out H K r
  | 0, _, _, _, _, _, _, h => by simp [run] at h
  | fuel + 1, i, m, s, r, hC, hh, h => by
    have h1 := step_out hn hH hC hh
    have h2 := step_cfi (compiled_fnIn K) hO hC
    unfold run at h
    split at h
    · simp only [Option.some.injEq] at h; subst h; intro he; cases he
    · simp only at h
      split at h
      · rename_i s' hs
        rw [hs] at h1 h2
        split at h
        · simp only [Option.some.injEq] at h; subst h; intro he; cases he
        · exact run_out hH hO clock fuel _ _ s' h2 h1 h
      · simp only [Option.some.injEq] at h; subst h; exact h1

omit hn in
/-- The stack between instructions. -/
theorem Ht.sp_le (hh : Ht K s) : s.sp + s.frames.length ≤ (s.frames.length + 1) * K := by
  obtain ⟨x, h⟩ := hh
  have h1 := h.chain.le
  have h2 := h.le
  have h3 := h.sp
  simp only [Nat.add_mul, Nat.one_mul]
  omega

theorem steps_ht (hH : ∀ i b, H.builtins i = some b → b.Calm H.opts.lim) (hO : Honest H) : ∀ {k : Nat} {s s' : VM D}, Cfi (FnIn K) s → Ht K s → s.steps H k = some s' → Ht K s'
  | 0, s, s', _, hh, hs => by simp [steps] at hs; exact hs ▸ hh
  | k + 1, s, s', hC, hh, hs => by
    have h1 := step_out hn hH hC hh
    have h2 := step_cfi (compiled_fnIn K) hO hC
    rw [steps] at hs
    cases hst : s.step H with
    | next s1 => rw [hst] at hs h1 h2; exact steps_ht hH hO h2 h1 hs
    | done v s1 => simp [hst] at hs
    | err e sp s1 => simp [hst] at hs
    | panic => simp [hst] at hs

end VM
end Quilt
