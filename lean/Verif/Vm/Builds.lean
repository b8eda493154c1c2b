import Verif.Vm.Machine
import Verif.Vm.Api

/-!
# Builds with and without checks

`cfg.chk` selects the build: with overflow checks and debug assertions, or without. Whatever the first does the second does as well, unless
the first one crashes. Used for C90.
-/

namespace Quilt

/-- `r` is a crash or the same as `r'`. -/
def Res.Strict {α : Type} (r r' : Res α) : Prop := r = .panic ∨ r = r'

theorem Res.Strict.rfl {α : Type} {r : Res α} : r.Strict r := .inr (by trivial)

theorem Res.Strict.bind {α β : Type} {r r' : Res α} {k k' : α → Res β} (h : r.Strict r') (hk : ∀ a, (k a).Strict (k' a)) : (r.bind k).Strict (r'.bind k') := by
  rcases h with h | h
  · subst h; exact .inl (by trivial)
  · subst h
    cases r with
    | ok a => exact hk a
    | err e => exact .rfl
    | panic => exact .rfl

/-- The configuration without checks. -/
def Cfg.release (cfg : Cfg) : Cfg := ⟨cfg.F, false⟩

section
variable {C : Type} (cfg : Cfg) (chk : Bool)

theorem wrapI_strict (r : Int) : (wrapI chk r : Res (Val C)).Strict (wrapI false r) := by
  unfold wrapI; split
  · exact .rfl
  · split
    · exact .inl (by trivial)
    · exact .rfl

theorem chanAvg_strict (a b : BitVec 8) : (chanAvg chk a b).Strict (chanAvg false a b) := by
  unfold chanAvg; split
  · exact .rfl
  · split
    · exact .inl (by trivial)
    · exact .rfl

theorem chan4_strict {r g b a r' g' b' a' : Res (BitVec 8)} (h1 : r.Strict r') (h2 : g.Strict g') (h3 : b.Strict b') (h4 : a.Strict a') :
    (chan4 r g b a : Res (Val C)).Strict (chan4 r' g' b' a') :=
  h1.bind fun _ => h2.bind fun _ => h3.bind fun _ => h4.bind fun _ => .rfl

theorem strMul_strict (n : Nat) (l : List Char) (r : BitVec 64) : (Val.strMul chk n l r : Res (Val C)).Strict (Val.strMul false n l r) := by
  unfold Val.strMul; split
  · exact .rfl
  · simp only; split
    · exact .rfl
    · split
      · exact .inl (by trivial)
      · exact .rfl

theorem shiftOp_strict (op : String) (f : BitVec 64 → Nat → BitVec 64) (a b : Val C) : (Val.shiftOp chk op f a b).Strict (Val.shiftOp false op f a b) := by
  unfold Val.shiftOp; split
  · split
    · exact .rfl
    · split
      · exact .inl (by trivial)
      · exact .rfl
  · exact .rfl

theorem binary_strict (lim : Limits) (ceq : C → C → Option Bool) (op : Op) (a b : Val C) : (Val.binary cfg lim ceq op a b).Strict (Val.binary cfg.release lim ceq op a b) := by
  cases op with
  | add => simp only [Val.binary]; unfold Val.add; split <;> first | exact .rfl | exact wrapI_strict ..
  | sub => simp only [Val.binary]; unfold Val.subtract; split <;> first | exact .rfl | exact wrapI_strict ..
  | mul => simp only [Val.binary]; unfold Val.multiply; split <;> first | exact .rfl | exact wrapI_strict .. | exact strMul_strict ..
  | pow => simp only [Val.binary]; unfold Val.power; split <;> first | exact .rfl | exact wrapI_strict ..
  | join =>
    simp only [Val.binary]; unfold Val.join
    split <;> first | exact .rfl | exact chan4_strict (chanAvg_strict ..) (chanAvg_strict ..) (chanAvg_strict ..) (chanAvg_strict ..)
  | shl => exact shiftOp_strict ..
  | shr => exact shiftOp_strict ..
  | _ => exact .rfl

theorem unary_strict (op : Op) (a : Val C) : (Val.unary cfg op a).Strict (Val.unary cfg.release op a) := by
  cases op with
  | neg => simp only [Val.unary]; unfold Val.negate; split <;> first | exact .rfl | exact wrapI_strict ..
  | _ => exact .rfl

theorem fixIndex_strict (i : BitVec 64) (n : Nat) : (fixIndex chk i n).Strict (fixIndex false i n) := by
  unfold fixIndex
  refine Res.Strict.bind ?_ fun _ => .rfl
  split
  · split
    · exact .inl (by trivial)
    · simp only [Bool.false_eq_true, and_false, if_false]
      split
      · exact .rfl
      · split
        · exact .rfl
        · split
          · exact .inl (by trivial)
          · exact .rfl
  · exact .rfl

theorem indexGet_strict (a b : Val C) : (Val.indexGet chk a b).Strict (Val.indexGet false a b) := by
  unfold Val.indexGet
  split
  · split <;> first | exact .rfl | exact (fixIndex_strict ..).bind fun _ => .rfl
  · exact .rfl

theorem iterItem_strict (v : Val C) (k : Nat) : (Val.iterItem chk v k).Strict (Val.iterItem false v k) := by
  unfold Val.iterItem
  split <;> try exact .rfl
  simp only [Bool.false_eq_true, false_and, if_false]
  split
  · exact .inl (by trivial)
  · exact .rfl

end

/-! ## The machine -/

variable {D : Type}

/-- The builtin of the build with checks and the one of the other. -/
def BFn.Strict {C : Type} (f f' : BFn D C) : Prop := ∀ d args lim, (f d args lim).1 = .panic ∨ f d args lim = f' d args lim

def Builtin.Strict : Option (Builtin D VClos) → Option (Builtin D VClos) → Prop
  | none, none => True
  | some (.fn f), some (.fn f') => BFn.Strict f f'
  | some (.ctx f e), some (.ctx f' e') => BFn.Strict f f' ∧ e = e'
  | _, _ => False

/-- The host without checks. -/
def Host.release (H : Host D) (B : Nat → Option (Builtin D VClos)) : Host D := { H with cfg := H.cfg.release, builtins := B }

/-- `r` is a crash or the same as `r'`. -/
def StepR.Strict (r r' : StepR D) : Prop := r = .panic ∨ r = r'

namespace VM
variable {H : Host D} {B : Nat → Option (Builtin D VClos)} {s : VM D}

theorem strict_rfl {r : StepR D} : r.Strict r := .inr rfl

theorem strict_pop {k k' : VVal → VM D → StepR D} (h : ∀ v s, (k v s).Strict (k' v s)) : (s.pop k).Strict (s.pop k') := by
  unfold pop; split
  · exact strict_rfl
  · exact h _ _

theorem strict_lift {α : Type} {r r' : Res α} {k k' : α → StepR D} (h : r.Strict r') (hk : ∀ a, (k a).Strict (k' a)) : (s.lift r k).Strict (s.lift r' k') := by
  rcases h with h | h
  · subst h; exact .inl rfl
  · subst h
    cases r with
    | ok a => exact hk a
    | err e => exact strict_rfl
    | panic => exact strict_rfl

theorem strict_builtin {f f' : BFn D VClos} (h : BFn.Strict f f') (n : Nat) (ex : Option (ExitFn D)) :
    (s.runBuiltin H f n ex).Strict (s.runBuiltin (H.release B) f' n ex) := by
  unfold runBuiltin; split
  · exact strict_rfl
  · simp only
    rcases h s.data (s.topN n).reverse H.opts.lim with h1 | h1
    · left
      simp only [h1]; rfl
    · right
      show _ = _
      simp only [Host.release, h1]; rfl

theorem closeRange_release (s : VM D) : ∀ lo n, s.closeRange (H.release B) lo n = s.closeRange H lo n := by
  intro lo n
  induction n generalizing s lo with
  | zero => rfl
  | succ n ih => exact ih (s := s.closeUp H lo) (lo := lo + 1)

theorem pushAll_release (vs : List VVal) : ∀ s : VM D, s.pushAll (H.release B) vs = s.pushAll H vs := by
  induction vs with
  | nil => intro s; rfl
  | cons v vs ih =>
    intro s
    simp only [pushAll, ih]
    rfl

theorem exec_strict (hB : ∀ i, Builtin.Strict (H.builtins i) (B i)) (i : Instr) : (s.exec H i).Strict (s.exec (H.release B) i) := by
  cases i with
  | ret =>
    simp only [exec]
    refine strict_pop fun v s => ?_
    rw [closeRange_release]
    split
    · exact strict_rfl
    · simp only [Host.release, Cfg.release, Bool.false_eq_true, false_and, if_false]
      split
      · exact .inl rfl
      · exact strict_rfl
  | indexGet => exact strict_pop fun v s => strict_pop fun w s => strict_lift (indexGet_strict ..) fun _ => strict_rfl
  | enterContext i n =>
    have := hB i
    simp only [exec, show (H.release B).builtins = B from rfl]
    generalize H.builtins i = b at this
    generalize B i = b' at this
    match b, b', this with
    | none, none, _ => exact strict_rfl
    | some (.fn f), some (.fn f'), h => exact strict_builtin h ..
    | some (.ctx f e), some (.ctx f' _), ⟨h, rfl⟩ => exact strict_builtin h ..
  | callBuiltin i n =>
    have := hB i
    simp only [exec, show (H.release B).builtins = B from rfl]
    generalize H.builtins i = b at this
    generalize B i = b' at this
    match b, b', this with
    | none, none, _ => exact strict_rfl
    | some (.fn f), some (.fn f'), h => exact strict_builtin h ..
    | some (.ctx f e), some (.ctx f' _), ⟨h, rfl⟩ => exact strict_rfl
  | iterNext o =>
    simp only [exec]
    split
    · exact strict_rfl
    · split
      · exact strict_lift (iterItem_strict ..) fun _ => strict_rfl
      · exact strict_rfl
  | unpack n =>
    right
    simp only [exec, pushAll_release]
  | unary op => exact strict_pop fun v s => strict_lift (unary_strict ..) fun _ => strict_rfl
  | binary op => exact strict_pop fun v s => strict_pop fun w s => strict_lift (binary_strict ..) fun _ => strict_rfl
  | _ => exact strict_rfl

theorem step_strict (hB : ∀ i, Builtin.Strict (H.builtins i) (B i)) : (s.step H).Strict (s.step (H.release B)) := by
  unfold step; split
  · exact strict_rfl
  · split
    · exact exec_strict hB _
    · exact strict_rfl

/-- The whole run: the build with checks crashes, or both do the same and are left in the same state. -/
theorem run_strict (hB : ∀ i, Builtin.Strict (H.builtins i) (B i)) (clock : Nat → Bool) :
    ∀ (fuel i n : Nat) (s : VM D), s.run H clock fuel i n = some .panic ∨ s.run H clock fuel i n = s.run (H.release B) clock fuel i n
  | 0, _, _, _ => .inr rfl
  | fuel + 1, i, n, s => by
    have h1 := step_strict (s := s) hB
    simp only [run]
    split
    · exact .inr rfl
    · rcases h1 with h1 | h1
      · rw [h1]; exact .inl rfl
      · rw [← h1]
        split
        · split
          · exact .inr rfl
          · exact run_strict hB clock fuel _ _ _
        · exact .inr rfl

end VM
end Quilt
