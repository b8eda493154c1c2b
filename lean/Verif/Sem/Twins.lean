import Verif.Vm.Spoil
import Verif.Sem.Ready
import Verif.Sem.Spoil

/-!
# Two preparations of a machine

They take the same steps, but register different functions under some names. Used for C91.
-/

namespace Quilt

variable {D : Type}

/-- Two machines prepared by their hosts for the same program, as in `Prepared`, in the same steps, except that functions registered under the names `A` may
differ. `S` and `σ` belong to the first machine. -/
inductive Twins (A : String → Prop) (M : Machine.Setup D) (data : D) (script : Script) : SHost D → SSt D → Machine D → Machine D → Prop
  | new : Twins A M data script ⟨M.cfg, M.opts.lim, fun _ => none, M.onEnter, M.onExit⟩ ⟨fun _ => .none, 0, fun _ => none, data, []⟩
      (Machine.new M data script) (Machine.new M data script)
  | builtin {S σ m m'} (x : String) {b : Builtin D SClos} {b' : Builtin D VClos} : Twins A M data script S σ m m' → BuiltinRel M.opts.lim (some b) (some b') →
      Twins A M data script { S with builtins := updName S.builtins x (some b) } σ (m.addBuiltins [(x, b')]) (m'.addBuiltins [(x, b')])
  | other {S σ m m'} (x : String) {f : BFn D SClos} {f' g : BFn D VClos} : A x → Twins A M data script S σ m m' → BRel M.opts.lim f f' →
      Twins A M data script { S with builtins := updName S.builtins x (some (.fn f)) } σ (m.addBuiltins [(x, .fn f')]) (m'.addBuiltins [(x, .fn g)])
  | global {S σ m m'} (x : String) {v : SVal} {w : VVal} : Twins A M data script S σ m m' → PlainVal v w →
      Twins A M data script S { σ with globals := updName σ.globals x (some v) } (m.insertGlobal x w) (m'.insertGlobal x w)
  | external {S σ m m' n n'} (x : String) {v : SVal} {w : VVal} : Twins A M data script S σ m m' → PlainVal v w → m.setExternal x w = (.ok (), n) →
      m'.setExternal x w = (.ok (), n') → Twins A M data script S { σ with globals := updName σ.globals x (some v) } n n'

namespace Twins
variable {A : String → Prop} {M : Machine.Setup D} {data : D} {script : Script} {S : SHost D} {σ : SSt D} {m m' : Machine D}

theorem prepared (h : Twins A M data script S σ m m') : Prepared M data script S σ m := by
  induction h with
  | new => exact .new
  | builtin x _ hb ih => exact .builtin x ih hb
  | other x _ _ hb ih => exact .builtin (b := .fn _) (b' := .fn _) x ih hb
  | global x _ hv ih => exact .global x ih hv
  | external x _ hv h1 _ ih => exact .external x ih hv h1

/-- A third preparation, where functions that differ are replaced by one that fails with `e`. -/
theorem spoil (e : Err) (h : Twins A M data script S σ m m') : ∃ S' n, Prepared M data script S' σ n ∧ n.Spoilt e m ∧ n.Spoilt e m' ∧
    S = { S' with builtins := S.builtins } ∧
    ∀ x, A x ∧ S'.builtins x = some (.fn fun d _ _ => (.err e, d)) ∨ S'.builtins x = S.builtins x := by
  induction h with
  | new => exact ⟨_, _, .new, .rfl, .rfl, rfl, fun _ => .inr rfl⟩
  | @builtin S σ m m' x b b' _ hb ih =>
    obtain ⟨S', n, h1, h2, h3, h4, h5⟩ := ih
    have hb' : Builtin.Spoilt e (some b') (some b') := by
      cases b' with
      | fn => exact .inr rfl
      | ctx => rfl
    refine ⟨_, _, .builtin x h1 hb, h2.add x hb', h3.add x hb', ?_, fun y => ?_⟩
    · rw [h4]
    simp only [updName]
    split
    · exact .inr rfl
    · exact h5 y
  | @other S σ m m' x f f' g hA _ hb ih =>
    obtain ⟨S', n, h1, h2, h3, h4, h5⟩ := ih
    refine ⟨_, _, .builtin (b := .fn fun d _ _ => (.err e, d)) (b' := .fn fun d _ _ => (.err e, d)) x h1 ⟨fun _ _ _ _ _ _ => ⟨rfl, rfl⟩⟩, h2.add x (.inl rfl),
      h3.add x (.inl rfl), ?_, fun y => ?_⟩
    · rw [h4]
    simp only [updName]
    split
    · rename_i hy; subst hy; exact .inl ⟨hA, rfl⟩
    · exact h5 y
  | global x _ hv ih =>
    obtain ⟨S', n, h1, h2, h3, h4, h5⟩ := ih
    exact ⟨_, _, .global x h1 hv, h2.insertGlobal .., h3.insertGlobal .., h4, h5⟩
  | @external S σ m m' n n' x v w _ hv hm hm' ih =>
    obtain ⟨S', n, h1, h2, h3, h4, h5⟩ := ih
    have k2 := h2.setExternal x w
    have k3 := h3.setExternal x w
    rw [hm] at k2; rw [hm'] at k3
    exact ⟨_, (n.setExternal x w).2, .external x h1 hv (Prod.ext k2.1 rfl), k2.2, k3.2, h4, h5⟩

end Twins
end Quilt
