import Verif.Vm.Values
import Verif.Compiler.Consts
import Verif.Props.Correct
import Verif.Props.Values
import Verif.Props.Strings
import Verif.Props.Lang

/-!
# The size limits hold for all values of a run: C72
-/

namespace Quilt.Props

variable {C : Type}

mutual
/-- The bytes a value counts: those of its texts, and 16 for everything that is not made of other values. -/
def bytesIn : Val C → Nat
  | .str t => byteLen t
  | .arr xs _ _ => bytesInL xs
  | .pair a b => bytesIn a + bytesIn b
  | _ => 16
termination_by structural v => v
def bytesInL : List (Val C) → Nat
  | [] => 0
  | v :: vs => bytesIn v + bytesInL vs
termination_by structural v => v
end

mutual
/-- All texts in the value, and names of kinds of values of the host, have at most `S` bytes, all arrays count at most `A` bytes and know what they count; functions satisfy `W`. -/
def Small (S A : Nat) (W : Func → Prop) : VVal → Prop
  | .str t => byteLen t ≤ S
  | .arr xs n _ => n = bytesInL xs ∧ n ≤ A ∧ SmallL S A W xs
  | .pair a b => Small S A W a ∧ Small S A W b
  | .func f => W f
  | .clos c => W c.fn
  | .special id _ => byteLen id.toList ≤ S
  | _ => True
termination_by structural v => v
def SmallL (S A : Nat) (W : Func → Prop) : List VVal → Prop
  | [] => True
  | v :: vs => Small S A W v ∧ SmallL S A W vs
termination_by structural v => v
end

/-- The constants of a function and of the functions in it are small. -/
def SmallFn (S A : Nat) (f : Func) : Prop := ∀ g, Within f g → ∀ l, Const.lit l ∈ g.consts → Small S A (fun _ => True) l.toVal

/-- Small values, with functions with small constants. -/
abbrev Fits (S A : Nat) : VVal → Prop := Small S A (SmallFn S A)

section
variable {S A : Nat} {W : Func → Prop}

theorem smallL_iff {vs : List VVal} : SmallL S A W vs ↔ ∀ v ∈ vs, Small S A W v := by
  induction vs with
  | nil => simp [SmallL]
  | cons v vs ih => simp [SmallL, ih]

theorem bytes_size : ∀ {v : VVal}, Small S A W v → v.getSize = bytesIn v
  | .str t, _ => by simp only [Val.getSize, bytesIn, utf8Len_eq]
  | .arr xs n m, h => by simp only [Small] at h; simp only [Val.getSize, bytesIn]; exact h.1
  | .pair a b, h => by simp only [Small] at h; simp only [Val.getSize, bytesIn, bytes_size h.1, bytes_size h.2]
  | .none, _ | .bool _, _ | .int _, _ | .float _, _ | .range .., _ | .color .., _ | .special .., _ | .loopCtx _, _ | .func _, _ | .clos _, _ => by simp [Val.getSize, bytesIn]

private theorem bytesL_append (xs ys : List VVal) : bytesInL (xs ++ ys) = bytesInL xs + bytesInL ys := by
  induction xs with
  | nil => simp [bytesInL]
  | cons x xs ih => simp only [List.cons_append, bytesInL, ih]; omega

private theorem strCat_small {n : Nat} (hn : n ≤ S) {a b : List Char} {v : VVal} (h : strCat n a b = .ok v) : Small S A W v := by
  unfold strCat at h
  split at h
  · cases h
  · cases h
    simp only [Small, ← utf8Len_eq, utf8Len_append]
    omega

private theorem wrapI_small {c : Bool} {r : Int} {v : VVal} (h : wrapI c r = .ok v) : Small S A W v := by
  unfold wrapI at h
  split at h
  · cases h; trivial
  · split at h
    · cases h
    · cases h; trivial

private theorem chan4_small {a b c d : Res (BitVec 8)} {v : VVal} (h : chan4 a b c d = .ok v) : Small S A W v := by
  unfold chan4 at h
  cases a <;> cases b <;> cases c <;> cases d <;> simp [Res.bind] at h
  subst h; trivial

private theorem removeAll_le (p : List Char) : ∀ (k : Nat) (l : List Char), utf8Len (removeAll p k l) ≤ utf8Len l
  | _, [] => by simp [removeAll]
  | k + 1, c :: cs => by have := removeAll_le p k cs; simp only [removeAll, utf8Len, List.map_cons, List.sum_cons] at *; omega
  | 0, c :: cs => by
    simp only [removeAll]
    split
    · have := removeAll_le p (p.length - 1) cs; simp only [utf8Len, List.map_cons, List.sum_cons] at *; omega
    · have := removeAll_le p 0 cs; simp only [utf8Len, List.map_cons, List.sum_cons] at *; omega

private theorem extend_small {lm : Nat} : ∀ (r : List VVal) (v : Vecc VVal) {v' : Vecc VVal}, SmallL S A W r → SmallL S A W v.data → v.size = bytesInL v.data →
    Vecc.extend Val.getSize v r = (.ok (), v') → v'.size = bytesInL v'.data ∧ v'.size = v.size + bytesInL r ∧ SmallL S A W v'.data
  | [], v, v', _, h2, h3, h => by cases h; exact ⟨h3, by simp [bytesInL], h2⟩
  | x :: r, v, v', h1, h2, h3, h => by
    simp only [SmallL] at h1
    unfold Vecc.extend at h
    simp only at h
    split at h
    · cases h
    · have := extend_small (lm := lm) r _ h1.2 ?_ ?_ h
      · obtain ⟨a, b, c⟩ := this
        refine ⟨a, ?_, c⟩
        simp only [bytesInL, ← bytes_size h1.1] at *; omega
      · rw [smallL_iff] at h2 ⊢
        intro w hw
        rcases List.mem_append.1 hw with hw | hw
        · exact h2 w hw
        · rw [List.mem_singleton] at hw; exact hw ▸ h1.1
      · simp only [bytesL_append, bytesInL, h3, bytes_size h1.1]; omega

private theorem binary_small {cfg : Cfg} {lim : Limits} {ceq : VClos → VClos → Option Bool} (hS : lim.strMax ≤ S) (hA : lim.arrMax ≤ A) (op : Op) {a b v : VVal} (ha : Small S A W a)
    (hb : Small S A W b) (h : Val.binary cfg lim ceq op a b = .ok v) : Small S A W v := by
  cases op with
  | add =>
    simp only [Val.binary] at h
    unfold Val.add at h
    split at h <;> first | exact strCat_small hS h | exact wrapI_small h | (cases h <;> trivial)
  | sub =>
    simp only [Val.binary] at h
    unfold Val.subtract at h
    split at h <;> first | exact wrapI_small h | (cases h <;> trivial)
  | mul =>
    simp only [Val.binary] at h
    unfold Val.multiply at h
    split at h
    · unfold Val.strMul at h
      split at h
      · cases h
      · simp only at h
        split at h
        · split at h
          · cases h
          · cases h
            simp only [Small, ← utf8Len_eq, utf8Len_replicate]
            omega
        · split at h
          · cases h
          · split at h <;> cases h
    all_goals first | exact wrapI_small h | (cases h <;> trivial)
  | div =>
    simp only [Val.binary] at h
    unfold Val.divide at h
    split at h
    · cases h
    · split at h
      · cases h
        simp only [Small] at ha ⊢
        rw [← utf8Len_eq] at ha ⊢
        exact Nat.le_trans (removeAll_le _ _ _) ha
      · split at h
        · cases h
        · cases h; trivial
      all_goals first | exact chan4_small h | (cases h <;> trivial)
  | mod =>
    simp only [Val.binary] at h
    unfold Val.modulo at h
    split at h
    · cases h
    · split at h
      · split at h
        · cases h
        · cases h; trivial
      all_goals (cases h <;> trivial)
  | pow =>
    simp only [Val.binary] at h
    unfold Val.power at h
    split at h <;> first | exact wrapI_small h | (cases h <;> trivial)
  | eq =>
    simp only [Val.binary, Val.equal] at h
    split at h <;> cases h
    trivial
  | neq =>
    simp only [Val.binary, Val.notEqual] at h
    split at h <;> cases h
    trivial
  | lt => simp only [Val.binary, Val.lt] at h; unfold Val.compare at h; split at h <;> cases h <;> trivial
  | gt => simp only [Val.binary, Val.gt] at h; unfold Val.compare at h; split at h <;> cases h <;> trivial
  | lte => simp only [Val.binary, Val.le] at h; unfold Val.compare at h; split at h <;> cases h <;> trivial
  | gte => simp only [Val.binary, Val.ge] at h; unfold Val.compare at h; split at h <;> cases h <;> trivial
  | and => simp only [Val.binary] at h; unfold Val.land at h; split at h <;> cases h <;> trivial
  | or => simp only [Val.binary] at h; unfold Val.lor at h; split at h <;> cases h <;> trivial
  | join =>
    simp only [Val.binary] at h
    unfold Val.join at h
    split at h
    case h_10 l ls lm r rs rm =>
      unfold Val.arrJoin at h
      split at h
      · cases h
      · simp only [Small] at ha hb
        split at h
        · rename_i v' he
          obtain ⟨h1, h2, h3⟩ := extend_small (lm := lm) r _ hb.2.2 ha.2.2 ha.1 he
          cases h
          simp only [Small]
          simp only at h2
          exact ⟨h1, by omega, h3⟩
        · cases h
        · cases h
    all_goals first | exact strCat_small hS h | exact chan4_small h | (cases h <;> trivial)
  | bitAnd => simp only [Val.binary] at h; unfold Val.bitOp at h; split at h <;> cases h <;> trivial
  | bitOr => simp only [Val.binary] at h; unfold Val.bitOp at h; split at h <;> cases h <;> trivial
  | bitXor => simp only [Val.binary] at h; unfold Val.bitOp at h; split at h <;> cases h <;> trivial
  | shl =>
    simp only [Val.binary, Val.shl] at h
    unfold Val.shiftOp at h
    split at h
    · split at h
      · cases h; trivial
      · split at h <;> cases h
        trivial
    · cases h
  | shr =>
    simp only [Val.binary, Val.shr] at h
    unfold Val.shiftOp at h
    split at h
    · split at h
      · cases h; trivial
      · split at h <;> cases h
        trivial
    · cases h
  | not | neg | bitNot => simp [Val.binary] at h

private theorem unary_small {cfg : Cfg} (op : Op) {a v : VVal} (h : Val.unary cfg op a = .ok v) : Small S A W v := by
  cases op <;> simp only [Val.unary, reduceCtorEq] at h
  · unfold Val.lnot at h; split at h <;> cases h <;> trivial
  · unfold Val.negate at h; split at h <;> first | exact wrapI_small h | (cases h <;> trivial)
  · unfold Val.bnot at h; split at h <;> cases h <;> trivial

theorem char_small {t : List Char} {c : Char} (h : c ∈ t) (ht : byteLen t ≤ S) : Small S A W (.str [c]) := by
  rw [← utf8Len_eq] at ht
  simp only [Small, ← utf8Len_eq]
  have : c.utf8Size ≤ (t.map Char.utf8Size).sum := by
    clear ht
    induction t with
    | nil => cases h
    | cons d t ih =>
      simp only [List.map_cons, List.sum_cons]
      rcases List.mem_cons.1 h with rfl | h
      · omega
      · have := ih h; omega
  simp only [utf8Len, List.map_cons, List.map_nil, List.sum_cons, List.sum_nil] at *
  omega

private theorem index_small {chk : Bool} {a b v : VVal} (ha : Small S A W a) (h : Val.indexGet chk a b = .ok v) : Small S A W v := by
  unfold Val.indexGet at h
  split at h
  · rename_i idx
    split at h
    · rename_i xs _ _
      cases hf : fixIndex chk idx xs.length <;> simp only [hf, Res.bind, reduceCtorEq] at h
      split at h <;> cases h
      rename_i hv
      simp only [Small] at ha
      exact smallL_iff.1 ha.2.2 v (List.mem_of_getElem? hv)
    · rename_i t
      cases hf : fixIndex chk idx t.length <;> simp only [hf, Res.bind, reduceCtorEq] at h
      split at h <;> cases h
      rename_i v hv
      exact char_small (List.mem_of_getElem? hv) (by simpa only [Small] using ha)
    · cases hf : fixIndex chk idx 4 <;> simp only [hf, Res.bind, reduceCtorEq] at h
      split at h <;> cases h
      trivial
    · rename_i x y
      cases hf : fixIndex chk idx 2 <;> simp only [hf, Res.bind, reduceCtorEq] at h
      split at h <;> cases h
      rename_i v hv
      simp only [Small] at ha
      have := List.mem_of_getElem? hv
      simp only [List.mem_cons, List.not_mem_nil, or_false] at this
      rcases this with rfl | rfl
      · exact ha.1
      · exact ha.2
    · cases h
  · cases h

private theorem pushAll_small {m : Nat} : ∀ (vs : List VVal) (v : Vecc VVal) {v' : Vecc VVal}, SmallL S A W vs → SmallL S A W v.data → v.size = bytesInL v.data → v.size ≤ m → v.maxSize = m →
    Val.pushAllV v vs = .ok v' → v'.size = bytesInL v'.data ∧ v'.size ≤ m ∧ SmallL S A W v'.data
  | [], v, v', _, h2, h3, h4, _, h => by cases h; exact ⟨h3, h4, h2⟩
  | x :: vs, v, v', h1, h2, h3, h4, h5, h => by
    simp only [SmallL] at h1
    unfold Val.pushAllV Vecc.push at h
    split at h
    · rename_i heq
      split at heq
      · cases heq
      · simp only [Prod.mk.injEq, true_and] at heq
        subst heq
        refine pushAll_small vs _ h1.2 ?_ ?_ ?_ ?_ h
        · rw [smallL_iff] at h2 ⊢
          intro w hw
          rcases List.mem_append.1 hw with hw | hw
          · exact h2 w hw
          · rw [List.mem_singleton] at hw; exact hw ▸ h1.1
        · simp only [bytesL_append, bytesInL, h3, bytes_size h1.1]; omega
        · simp only; omega
        · exact h5
    · cases h
    · cases h

private theorem keeps {D : Type} {H : Host D} (hS : H.opts.lim.strMax ≤ S) (hA : H.opts.lim.arrMax ≤ A)
    (hB : ∀ i f, (H.builtins i = some (.fn f) ∨ ∃ e, H.builtins i = some (.ctx f e)) → ∀ d args, (∀ w ∈ args, Fits S A w) → ∀ v, (f d args H.opts.lim).1 = .ok v → Fits S A v) :
    VM.Keeps H (Fits S A) (SmallFn S A) := by
  have lit : ∀ (l : Literal), Small S A (fun _ => True) l.toVal → Fits S A l.toVal := by
    have : ∀ (l : Literal), (Small S A (fun _ => True) (l.toVal : VVal) → Fits S A l.toVal) := by
      intro l
      induction l using Literal.rec (motive_2 := fun ls => SmallL S A (fun _ => True) (Literal.toVal.toValL ls : List VVal) → SmallL S A (SmallFn S A) (Literal.toVal.toValL ls)) with
      | arr xs ih => intro h; simp only [Literal.toVal, Small] at h ⊢; exact ⟨h.1, h.2.1, ih h.2.2⟩
      | pair a b iha ihb => intro h; simp only [Literal.toVal, Small] at h ⊢; exact ⟨iha h.1, ihb h.2⟩
      | nil => simp [Literal.toVal.toValL, SmallL]
      | cons x xs ih1 ih2 => rename_i h; simp only [Literal.toVal.toValL, SmallL] at h ⊢; exact ⟨ih1 h.1, ih2 h.2⟩
      | _ => intro h; exact h
    exact this
  refine ⟨trivial, fun _ => trivial, fun f l hf hl => lit l (hf f .self l hl), fun f g hf hg h hh l hl => hf h ?_ l hl, fun _ => ?_, fun _ => ?_, fun a b ha hb => ?_,
    fun ceq op a b v ha hb h => binary_small hS hA op ha hb h, fun op a v _ h => unary_small op h, fun a b v ha _ h => index_small ha h, fun a b v _ _ h => ?_, fun vs v hv h => ?_, ?_, ?_, hB⟩
  · clear hl
    induction hh with
    | self => exact .const .self hg
    | const _ h2 ih => exact .const ih h2
  · simp only [Fits, Small]
  · simp only [Fits, Small]
  · simp only [Fits, Small]; exact ⟨ha, hb⟩
  · unfold Val.mkRange at h
    split at h <;> cases h
    trivial
  · unfold Val.mkArray at h
    cases hp : Val.pushAllV (Vecc.new H.opts.lim.arrMax) vs <;> simp only [hp, Res.map, reduceCtorEq] at h
    cases h
    obtain ⟨h1, h2, h3⟩ := pushAll_small (S := S) (A := A) (W := SmallFn S A) (m := H.opts.lim.arrMax) vs _ (smallL_iff.2 hv) (by simp [Vecc.new, SmallL]) (by simp [Vecc.new, bytesInL]) (by simp [Vecc.new]) rfl hp
    simp only [Fits, Small]
    exact ⟨h1, by omega, h3⟩
  · intro v n vs hv h
    unfold Val.unpack at h
    split at h
    · split at h <;> cases h
      simp only [Fits, Small] at hv
      intro w hw
      simp only [List.mem_cons, List.not_mem_nil, or_false] at hw
      rcases hw with rfl | rfl
      · exact hv.1
      · exact hv.2
    · split at h <;> cases h
      simp only [Fits, Small] at hv
      exact smallL_iff.1 hv.2.2
    · split at h
      · cases h
      · split at h <;> cases h
        intro w hw
        rw [List.mem_map] at hw
        obtain ⟨_, _, rfl⟩ := hw
        trivial
    · cases h
  · intro v k w hv h
    unfold Val.iterItem at h
    split at h
    · simp only [Res.ok.injEq] at h
      simp only [Fits, Small] at hv
      exact smallL_iff.1 hv.2.2 w (List.mem_of_getElem? h)
    · simp only at h
      split at h
      · cases h
      · simp only [Res.ok.injEq] at h
        split at h <;> cases h
        trivial
    · simp only [Res.ok.injEq, Option.map_eq_some_iff] at h
      obtain ⟨c, hc, rfl⟩ := h
      exact char_small (List.mem_of_getElem? hc) (by simpa only [Fits, Small] using hv)
    · simp only [Res.ok.injEq, Option.map_eq_some_iff] at h
      obtain ⟨c, hc, rfl⟩ := h
      trivial
    · cases h

end

/-- `b` gives small values when its arguments are small. -/
def KeepsSmall {D : Type} (S A : Nat) (lim : Limits) (b : Builtin D VClos) : Prop :=
  ∀ f, (b = .fn f ∨ ∃ e, b = .ctx f e) → ∀ d args, (∀ w ∈ args, Fits S A w) → ∀ v, (f d args lim).1 = .ok v → Fits S A v

section
variable {D : Type} {M : Machine.Setup D} {data : D} {ast : List Node} {So : SHost D} {σ : SSt D} {m : Machine D}

private theorem prepared_vals {S A : Nat} {script : Script} (h : Prepared M data script So σ m) (hf : SmallFn S A script.fn) (hg : ∀ i v, m.vm.globals i = some v → Fits S A v) :
    VM.AllVals (Fits S A) (SmallFn S A) m.vm := by
  have key : (∀ i, m.vm.stack i = .none) ∧ (∀ c v, m.vm.heap c = .closed v → v = .none) ∧ m.vm.blockResults = [] ∧ m.vm.frame.fn = script.fn ∧ m.vm.frames = [] := by
    clear hg
    induction h with
    | new => exact ⟨fun _ => rfl, fun c v hv => by simp only [Machine.new, Cell.closed.injEq] at hv; exact hv.symm, rfl, rfl, rfl⟩
    | builtin x _ _ ih => exact ih
    | global x _ _ ih => exact ih
    | @external S σ m m' x v w _ _ hset ih =>
      unfold Machine.setExternal at hset
      split at hset
      · simp at hset
      · split at hset
        · simp only [Prod.mk.injEq, true_and] at hset; subst hset; exact ih
        · simp at hset
  obtain ⟨h1, h2, h3, h4, h5⟩ := key
  refine ⟨fun i => h1 i ▸ trivial, fun c v hv => h2 c v hv ▸ trivial, hg, fun v hv => ?_, h4 ▸ hf, fun f hv => ?_⟩
  · rw [h3] at hv; cases hv
  · rw [h5] at hv; cases hv

/-- Whatever a program does, under any limits of stack and time: if its literals, the values given by the host and the results of builtins for
small arguments have texts of at most `S` and arrays of at most `A` bytes, where `S` and `A` are at least the configured limits, then so have all values
of all states (also those hidden in functions, in captured variables and in variables out of reach), and so has the value of the program. -/
theorem C72_sizes_partial (h : Runs M data ast So σ m) {S A : Nat} (hS : M.opts.lim.strMax ≤ S) (hA : M.opts.lim.arrMax ≤ A)
    (hl : ∀ l ∈ litsL ast, Small S A (fun _ => True) l.toVal) (hg : ∀ i v, m.vm.globals i = some v → Fits S A v)
    (hB : ∀ i b, m.host.builtins i = some b → KeepsSmall S A M.opts.lim b) (n c : Nat) :
    (∀ k s', (m.withLimits n c).vm.steps (m.withLimits n c).host k = some s' → VM.AllVals (Fits S A) (SmallFn S A) s') ∧
    ∀ clock fuel res, (m.withLimits n c).run clock fuel = some res → res.Vals (Fits S A) (SmallFn S A) := by
  obtain ⟨script, hc, hp⟩ := h.prepared
  have hopts : m.host.opts = M.opts := by
    clear hg hB hc h
    induction hp with
    | new => rfl
    | builtin x _ _ ih => exact ih
    | global x _ _ ih => exact ih
    | @external S σ m m' x v w _ _ hset ih =>
      unfold Machine.setExternal at hset
      split at hset
      · simp at hset
      · split at hset
        · simp only [Prod.mk.injEq, true_and] at hset; subst hset; exact ih
        · simp at hset
  have hf : SmallFn S A script.fn := compile_lits hc h.size ⟨hl, fun _ => trivial, fun _ => trivial, fun _ => trivial⟩
  have h0 := prepared_vals hp hf hg
  have hlim : (m.withLimits n c).host.opts.lim = M.opts.lim := by show m.host.opts.lim = _; rw [hopts]
  have hK : VM.Keeps (m.withLimits n c).host (Fits S A) (SmallFn S A) := by
    refine keeps (hlim ▸ hS) (hlim ▸ hA) fun i f hi d args ha v hv => ?_
    rw [hlim] at hv
    rcases hi with hi | ⟨e, hi⟩
    · exact hB i _ hi f (.inl rfl) d args ha v hv
    · exact hB i _ hi f (.inr ⟨e, rfl⟩) d args ha v hv
  exact ⟨fun k s' hk => VM.steps_vals hK h0 hk, fun clock fuel res hr => VM.run_vals hK clock fuel 0 0 _ h0 hr⟩

/-- In particular no array of a run has more than `A` items that are not empty. -/
theorem C72_items {S A : Nat} {W : Func → Prop} {xs : List VVal} {n k : Nat} (h : Small S A W (.arr xs n k)) : (xs.filter fun v => decide (bytesIn v ≠ 0)).length ≤ A := by
  simp only [Small] at h
  refine Nat.le_trans ?_ (h.1 ▸ h.2.1)
  clear h
  induction xs with
  | nil => simp
  | cons x xs ih =>
    simp only [List.filter_cons, bytesInL]
    split
    · rename_i hx
      have := of_decide_eq_true hx
      simp only [List.length_cons]; omega
    · omega

private def z' : Span := Span.default

/-- `fn f(x) { return x .. "é" }  [f("a"), 1]` -/
def memProg : List Node :=
  [.func z' ("f", z') [("x", z')] [.ret z' (some (.bin z' .join (.ident z' "x") (.lit z' (.str ['é']))))],
   .array z' [.call z' (.ident z' "f") [.lit z' (.str ['a'])], .lit z' (.int 1)]]

example : (∃ script, Runs demoSetup 7 memProg demoS demoσ (Machine.new demoSetup 7 script) ∧ (∀ i, (Machine.new demoSetup 7 script).vm.globals i = none) ∧
      ∀ i, (Machine.new demoSetup 7 script).host.builtins i = none) ∧
    demoSetup.opts.lim = ⟨100, 100⟩ ∧ litsL memProg = [.str ['é'], .str ['a'], .int 1] ∧ (evalProgram demoS 3 memProg demoσ).1 = .ok (.arr [.str ['a', 'é'], .int 1] 19 100) ∧
    Fits 100 100 (.arr [.str ['a', 'é'], .int 1] 19 100) := by
  refine ⟨?_, rfl, by decide, rfl, ?_⟩
  · obtain ⟨script, h⟩ := demo_runs memProg (by decide +kernel) (by decide +kernel) (by decide +kernel)
    exact ⟨script, h, fun _ => rfl, fun _ => rfl⟩
  · simp only [Small, SmallL, bytesInL, bytesIn]
    exact ⟨by decide, by decide, by decide, trivial, trivial⟩

end

/-! ## What the limits do not limit -/

open SM

private def z : Span := Span.default

/-- `let a = e0  for i in s { a = e }` -/
def growProg (e0 e : Node) : List Node := [.decl z (.one ("a", z)) e0] ++ [.forIn z ("i", z) (.ident z "s") [.assign z ("a", z) e]]

/-- Neither texts nor arrays may be larger than 0 bytes. -/
def growSetup : Machine.Setup Int := { demoSetup with opts := { demoSetup.opts with lim := ⟨0, 0⟩ } }

/-- The machine for the program, with the global variable `s` set to `0:n`. -/
def growMachine (script : Script) (n : Nat) : Machine Int := (Machine.new growSetup 7 script).insertGlobal "s" (.range 0 (BitVec.ofNat 32 n))

private def growS : SHost Int := { demoS with lim := ⟨0, 0⟩ }

private theorem grow_visits {e : Node} {vs : Nat → SVal} {call : SClos → List SVal → SM Int SVal} {W : Nat}
    (he : ∀ k l (σ : SSt Int), σ.globals "a" = some (vs k) → evalNode growS call W e [("i", l)] σ = (.ok (vs (k + 1)), σ)) :
    ∀ (xs : List SVal) (k : Nat) (σ : SSt Int), σ.globals "a" = some (vs k) → ∀ last, last = vs k ∨ xs ≠ [] →
      ∃ σ', Visits (iteration growS call W "i" [.assign z ("a", z) e] []) xs last σ (vs (k + xs.length)) σ'
  | [], k, σ, _, last, hl => by
    obtain rfl := hl.resolve_right (by simp)
    exact ⟨σ, .done⟩
  | x :: xs, k, σ, ha, last, _ => by
    obtain ⟨σ', h⟩ := grow_visits he xs (k + 1) { { σ with store := upd σ.store σ.next x, next := σ.next + 1 } with
      globals := fun y => if y = "a" then some (vs (k + 1)) else σ.globals y } (by simp) (vs (k + 1)) (.inl rfl)
    rw [List.length_cons, show k + (xs.length + 1) = k + 1 + xs.length by omega]
    refine ⟨σ', .step ?_ h⟩
    have step := he k σ.next { σ with store := upd σ.store σ.next x, next := σ.next + 1 } ha
    unfold iteration evalStmts
    simp only [Node.isStatement, Bool.false_eq_true]
    unfold evalNode
    refine (bind_of_ok step).trans ?_
    simp only [writeVar, lookup, show ("i" = "a") = False by decide, if_false]
    refine (bind_of_ok (a := ()) ((bind_of_ok (a := some (vs k)) (by show (Out.ok (σ.globals "a"), _) = _; rw [ha])).trans rfl)).trans rfl

mutual
private theorem bytes_rel {R : SClos → VClos → Prop} : ∀ {v : SVal} {w : VVal}, Val.Rel R v w → bytesIn w = bytesIn v
  | .none, .none, _ | .bool _, .bool _, _ | .int _, .int _, _ | .float _, .float _, _ | .range .., .range .., _ | .color .., .color .., _ | .special .., .special .., _
  | .loopCtx _, .loopCtx _, _ | .clos _, .clos _, _ => rfl
  | .str a, .str b, h => by simp only [Val.Rel] at h; rw [h]; rfl
  | .arr xs s m, .arr ys s' m', h => by simp only [Val.Rel] at h; simp only [bytesIn]; exact bytesL_rel h.1
  | .pair a b, .pair a' b', h => by simp only [Val.Rel] at h; simp only [bytesIn, bytes_rel h.1, bytes_rel h.2]
private theorem bytesL_rel {R : SClos → VClos → Prop} : ∀ {v : List SVal} {w : List VVal}, Val.RelL R v w → bytesInL w = bytesInL v
  | [], [], _ => rfl
  | a :: as, b :: bs, h => by simp only [Val.RelL] at h; simp only [bytesInL, bytes_rel h.1, bytesL_rel h.2]
end

private theorem grow_returns {e0 e : Node} {vs : Nat → SVal} (hc : compiles growSetup.cfg (growProg e0 e) 65535 = true) (hw : wfProgram (growProg e0 e) = true) (hsz : sizeL (growProg e0 e) ≤ 65535)
    (h0 : ∀ k (σ : SSt Int), evalNode growS (callN growS k k) k e0 [] σ = (.ok (vs 0), σ))
    (he : ∀ k call W l (σ : SSt Int), σ.globals "a" = some (vs k) → evalNode growS call W e [("i", l)] σ = (.ok (vs (k + 1)), σ)) (n : Nat) (hn : 0 < n) (hb : n < 2 ^ 31) :
    ∃ script, compile growSetup.cfg (growProg e0 e) = .ok script ∧ ∃ σ', Returns (growMachine script n) (vs n) σ' := by
  unfold compiles at hc
  split at hc
  · rename_i script hs
    refine ⟨script, hs, ?_⟩
    have hnames := of_decide_eq_true hc
    have hr : Runs growSetup 7 (growProg e0 e) growS { demoσ with globals := updName demoσ.globals "s" (some (.range 0 (BitVec.ofNat 32 n))) } (growMachine script n) := by
      refine ⟨⟨script, hs, .global "s" .new (by simp [PlainVal, Val.Rel])⟩, hw, hsz, ?_⟩
      show (script.syms.add "s").2.entries.length ≤ 65536
      unfold Pool.add
      split
      · simp only; omega
      · simp only [List.length_append, List.length_singleton]; omega
    have hnt : (BitVec.ofNat 32 n).toInt = n := by
      rw [BitVec.toInt_eq_toNat_of_lt] <;> rw [BitVec.toNat_ofNat] <;> omega
    have hlen : ((List.range ((BitVec.ofNat 32 n).toInt - (0 : BitVec 32).toInt).toNat).map fun (k : Nat) => (Val.int (BitVec.ofInt 64 ((0 : BitVec 32).toInt + k)) : SVal)).length = n := by
      rw [List.length_map, List.length_range, hnt]; simp
    generalize hσ : ({ demoσ with globals := updName demoσ.globals "s" (some (.range 0 (BitVec.ofNat 32 n))) } : SSt Int) = σ0 at hr
    have hs0 : σ0.globals "s" = some (.range 0 (BitVec.ofNat 32 n)) := by rw [← hσ]; simp [updName]
    generalize hσ1 : ({ σ0 with globals := fun y => if y = "a" then some (vs 0) else σ0.globals y } : SSt Int) = σ1
    have hpre : evTop growS (n + 1) [.decl z (.one ("a", z)) e0] σ0 = (.ok (), σ1) := by
      unfold evTop evalEach
      simp only [Node.isStatement]
      refine (bind_of_ok (a := ()) (σ1 := σ1) ?_).trans rfl
      unfold evalTopStmt
      refine (bind_of_ok (h0 (n + 1) σ0)).trans ?_
      rw [← hσ1]; rfl
    have hit : ev growS (n + 1) (.ident z "s") [] σ1 = (.ok (.range 0 (BitVec.ofNat 32 n)), σ1) := by
      unfold ev evalNode readVar
      simp only [lookup]
      refine (bind_of_ok (a := some (.range 0 (BitVec.ofNat 32 n))) (σ1 := σ1) ?_).trans rfl
      show (Out.ok (σ1.globals "s"), σ1) = _
      rw [← hσ1]; simp [hs0]
    have hloop := (C28_for_program hr hpre hit).1
    generalize hxs : (List.range ((BitVec.ofNat 32 n).toInt - (0 : BitVec 32).toInt).toNat).map (fun (k : Nat) => (Val.int (BitVec.ofInt 64 ((0 : BitVec 32).toInt + k)) : SVal)) = xs at hlen
    obtain ⟨σ', hv⟩ := grow_visits (fun k l σ h => he k (callN growS (n + 1) (n + 1)) (n + 1) l σ h) xs 0 σ1 (by rw [← hσ1]; simp) .none
      (.inr (fun h => by rw [h] at hlen; simp at hlen; omega))
    rw [Nat.zero_add, hlen] at hv
    exact ⟨σ', hloop xs _ σ' (by rw [← hxs]; rfl) (.inr (by rw [hlen]; exact hb)) (by rw [hlen]; omega) hv⟩
  · cases hc

/-- `[""]` and `a .. a` -/
def growItems : List Node := growProg (.array z [.lit z (.str [])]) (.bin z .join (.ident z "a") (.ident z "a"))

/-- `1` and `(a, a)` -/
def growPairs : List Node := growProg (.lit z (.int 1)) (.pair z (.ident z "a") (.ident z "a"))

private theorem read_a {call : SClos → List SVal → SM Int SVal} {W l : Nat} {σ : SSt Int} {v : SVal} (h : σ.globals "a" = some v) :
    evalNode growS call W (.ident z "a") [("i", l)] σ = (.ok v, σ) := by
  unfold evalNode readVar
  simp only [lookup, show ("i" = "a") = False by decide, if_false]
  refine (bind_of_ok (a := some v) (σ1 := σ) ?_).trans rfl
  show (Out.ok (σ.globals "a"), σ) = _
  rw [h]

private theorem extend_empty : ∀ (k : Nat) (d : List SVal), Vecc.extend Val.getSize (⟨d, 0, 0⟩ : Vecc SVal) (List.replicate k (.str [])) = (.ok (), ⟨d ++ List.replicate k (.str []), 0, 0⟩)
  | 0, d => by simp [Vecc.extend]
  | k + 1, d => by
    rw [List.replicate_succ]
    unfold Vecc.extend
    simp only [Val.getSize, utf8Len, List.map_nil, List.sum_nil, Nat.add_zero, gt_iff_lt, Nat.lt_irrefl, if_false]
    rw [extend_empty k]
    simp

/-- Items of 0 bytes are not limited: with limits of 0 bytes for texts and arrays, `let a = [""]  for i in 0:n { a = a .. a }` returns an array
of `2^n` items. -/
theorem C72_violated_items (n : Nat) (hn : 0 < n) (hb : n < 2 ^ 31) :
    ∃ script, compile growSetup.cfg growItems = .ok script ∧ ∃ N C, ∀ n' c, N ≤ n' → C ≤ c → ∀ clock : Nat → Bool, (∀ t, clock t = false) →
      ∃ fuel xs s', ((growMachine script n).withLimits n' c).run clock fuel = some (.done (.arr xs 0 0) s') ∧ xs.length = 2 ^ n := by
  have he : ∀ k (call : SClos → List SVal → SM Int SVal) W l (σ : SSt Int), σ.globals "a" = some (.arr (List.replicate (2 ^ k) (.str [])) 0 0) →
      evalNode growS call W (.bin z .join (.ident z "a") (.ident z "a")) [("i", l)] σ = (.ok (.arr (List.replicate (2 ^ (k + 1)) (.str [])) 0 0), σ) := by
    intro k call W l σ h
    unfold evalNode
    refine (bind_of_ok (read_a h)).trans ((bind_of_ok (read_a h)).trans ?_)
    unfold evalBin
    simp only [Val.binary, Val.join, Val.arrJoin]
    rw [show growS.lim.arrMax = 0 from rfl, if_neg (by omega), extend_empty]
    simp only [SM.lift, List.replicate_append_replicate]
    rw [show 2 ^ k + 2 ^ k = 2 ^ (k + 1) by omega]
    rfl
  obtain ⟨script, h1, σ', N, C, h2⟩ := grow_returns (e0 := .array z [.lit z (.str [])]) (e := .bin z .join (.ident z "a") (.ident z "a"))
    (vs := fun k => .arr (List.replicate (2 ^ k) (.str [])) 0 0) (by decide +kernel) (by decide +kernel) (by decide +kernel) (fun _ _ => rfl) he n hn hb
  refine ⟨script, h1, N, C, fun n' c hn' hc' clock hcl => ?_⟩
  obtain ⟨fuel, w, s', h3, h4, _⟩ := h2 n' c hn' hc' clock hcl
  cases w <;> simp only [SameVal, Val.Rel] at h4
  obtain ⟨h5, rfl, rfl⟩ := h4
  exact ⟨fuel, _, s', h3, by rw [← h5.length_eq, List.length_replicate]⟩

private def tower : Nat → SVal
  | 0 => .int 1
  | n + 1 => .pair (tower n) (tower n)

private theorem tower_bytes : ∀ n, bytesIn (tower n) = 16 * 2 ^ n
  | 0 => rfl
  | n + 1 => by simp only [tower, bytesIn, tower_bytes n]; omega

/-- Pairs are not limited: with limits of 0 bytes for texts and arrays, `let a = 1  for i in 0:n { a = (a, a) }` returns a value of `16 · 2^n` bytes.
(The VM shares the halves, but counting, comparing, printing and hashing take `2^n` steps.) -/
theorem C72_violated_pairs (n : Nat) (hn : 0 < n) (hb : n < 2 ^ 31) :
    ∃ script, compile growSetup.cfg growPairs = .ok script ∧ ∃ N C, ∀ n' c, N ≤ n' → C ≤ c → ∀ clock : Nat → Bool, (∀ t, clock t = false) →
      ∃ fuel w s', ((growMachine script n).withLimits n' c).run clock fuel = some (.done w s') ∧ bytesIn w = 16 * 2 ^ n := by
  obtain ⟨script, h1, σ', N, C, h2⟩ := grow_returns (e0 := .lit z (.int 1)) (e := .pair z (.ident z "a") (.ident z "a"))
    (vs := tower) (by decide +kernel) (by decide +kernel) (by decide +kernel) (fun _ _ => by unfold evalNode; rfl)
    (fun k call W l σ h => by unfold evalNode; exact (bind_of_ok (read_a h)).trans ((bind_of_ok (read_a h)).trans rfl)) n hn hb
  refine ⟨script, h1, N, C, fun n' c hn' hc' clock hcl => ?_⟩
  obtain ⟨fuel, w, s', h3, h4, _⟩ := h2 n' c hn' hc' clock hcl
  exact ⟨fuel, w, s', h3, by rw [bytes_rel h4, tower_bytes]⟩

/-- Builtins do not respect the limit for texts: `@replace(s, "a", "aa")` doubles `n` times `a` under any limits. -/
theorem C72_violated_builtin (L : Lib.Ops) (chk : Bool) (cname : C → String) (lim : Limits) (n : Nat) :
    ∃ t, callStd L chk cname lim "replace" [.str (List.replicate n 'a'), .str ['a'], .str ['a', 'a']] = some (.ok (.str t)) ∧ byteLen t = 2 * n := by
  refine ⟨_, rfl, ?_⟩
  rw [← utf8Len_eq]
  show utf8Len (Lib.replaceGo ['a'] ['a', 'a'] 0 (List.replicate n 'a')) = _
  induction n with
  | zero => rfl
  | succ n ih =>
    rw [List.replicate_succ]
    unfold Lib.replaceGo
    simp only [List.isPrefixOf, beq_self_eq_true, Bool.true_and, if_true]
    rw [utf8Len_append, show ['a'].length - 1 = 0 from rfl, ih]
    show 2 + _ = _
    omega

example : ∃ script, compile growSetup.cfg growItems = .ok script ∧ ∃ N C, ∀ n' c, N ≤ n' → C ≤ c → ∀ clock : Nat → Bool, (∀ t, clock t = false) →
    ∃ fuel xs s', ((growMachine script 40).withLimits n' c).run clock fuel = some (.done (.arr xs 0 0) s') ∧ xs.length = 2 ^ 40 := C72_violated_items 40 (by decide) (by decide)

end Quilt.Props
