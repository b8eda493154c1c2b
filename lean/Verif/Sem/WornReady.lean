import Verif.Vm.Worn
import Verif.Sem.Ready

/-!
# Preparing a machine that carries something along
-/

namespace Quilt

variable {D E : Type}

def Machine.Setup.wear (en ex : E → E) (M : Machine.Setup D) : Machine.Setup (D × E) :=
  ⟨M.cfg, M.opts, fun d => (M.onEnter d.1, en d.2), fun d => (M.onExit d.1, ex d.2), M.eqFuel⟩

def Machine.wear (en ex : E → E) (e : E) (m : Machine D) : Machine (D × E) := ⟨m.host.wear en ex, m.externals, m.vm.wear e⟩

theorem BRel.wear {lim : Limits} {f : BFn D SClos} {f' : BFn D VClos} (h : BRel lim f f') : BRel lim (BFn.wear f : BFn (D × E) SClos) (BFn.wear f') := by
  refine ⟨fun R hR d args args' ha => ?_⟩
  have := h.rel R hR d.1 args args' ha
  exact ⟨this.1, by simp only [BFn.wear, this.2]⟩

theorem BuiltinRel.wear {lim : Limits} : ∀ {b : Builtin D SClos} {b' : Builtin D VClos}, BuiltinRel lim (some b) (some b') →
    BuiltinRel lim (some (b.wear : Builtin (D × E) SClos)) (some b'.wear)
  | .fn _, .fn _, h => BRel.wear h
  | .ctx _ _, .ctx _ _, h => ⟨BRel.wear h.1, by rw [h.2]⟩
  | .fn _, .ctx _ _, h => h.elim
  | .ctx _ _, .fn _, h => h.elim

variable {M : Machine.Setup D} {data : D} {script : Script} {S : SHost D} {σ : SSt D} {m : Machine D} {en ex : E → E}

theorem Prepared.wear (e : E) (h : Prepared M data script S σ m) : Prepared (M.wear en ex) (data, e) script (S.wear en ex) (σ.wear e) (m.wear en ex e) := by
  induction h with
  | new => exact .new
  | @builtin S σ m x b b' h hb ih =>
    have := Prepared.builtin (M := M.wear en ex) x ih (BuiltinRel.wear hb)
    have h1 : SHost.wear en ex { S with builtins := updName S.builtins x (some b) } = { S.wear en ex with builtins := updName (S.wear en ex).builtins x (some b.wear) } := by
      simp only [SHost.wear, SHost.mk.injEq, true_and, and_true]
      funext y
      unfold updName
      split <;> rfl
    have h2 : Machine.wear en ex e (m.addBuiltins [(x, b')]) = (m.wear en ex e).addBuiltins [(x, b'.wear)] := by
      simp only [Machine.wear, Machine.addBuiltins, Host.wear, Machine.mk.injEq, Host.mk.injEq, true_and, and_true]
      funext i
      simp only [upd]
      split <;> rfl
    rw [h1, h2]
    exact this
  | @global S σ m x v w h hv ih => exact Prepared.global (M := M.wear en ex) x ih hv
  | @external S σ m m' x v w h hv hset ih =>
    refine Prepared.external (M := M.wear en ex) (m' := m'.wear en ex e) x ih hv ?_
    unfold Machine.setExternal at hset ⊢
    rw [show (m.wear en ex e).host.syms = m.host.syms from rfl, show (m.wear en ex e).externals = m.externals from rfl]
    generalize m.host.syms.id? x = o at hset
    cases o with
    | none => simp at hset
    | some i =>
      simp only at hset ⊢
      split at hset
      · rename_i hi
        rw [if_pos hi]
        simp only [Prod.mk.injEq, true_and] at hset
        subst hset
        rfl
      · simp at hset

end Quilt
