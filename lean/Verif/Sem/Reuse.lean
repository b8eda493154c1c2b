import Verif.Sem.Session
import Verif.Vm.Bottom

/-!
# Running a script again after `reset_state`
-/

namespace Quilt

variable {D : Type}

/-- The same VM in another state. -/
def Machine.withVm (m : Machine D) (s : VM D) : Machine D := { m with vm := s }

section
variable {ast : List Node} {S : SHost D} {γ : LocMap} {σ σ' : SSt D} {m : Machine D} {a c fuel : Nat} {clock : Nat → Bool} {s' : VM D}

theorem fn_of_bottom {b : Func × List Nat × Nat} {s : VM D} (h : VM.Bot b s) (hf : s.frames = []) : s.frame.fn = b.1 := by
  unfold VM.Bot VM.bottom at h
  rw [hf] at h
  rw [← h]; rfl

/-- After a reset in a state that corresponds to `σ'` the script can be run again. -/
theorem AtStart.reset (h : AtStart ast S γ σ m) {γ' slots : LocMap} {stack : Nat → VVal} {sp : Nat}
    (hok : Ok m.host.cfg m.host.syms.entries γ' slots σ' { s'.mem with stack := stack, sp := sp }) (ho : s'.openUps = [])
    (hf : s'.frame.fn = m.vm.frame.fn) : AtStart ast S γ' { σ' with exits := [] } (m.withVm s').reset := by
  obtain ⟨g, g', sp, c, hd, h1, h2, h3, h4, h5, h6, h7, h8, h9⟩ := h.code
  refine ⟨h.host, ⟨g, g', sp, c, hd, h1, h2, h3, h4, h5, h6, h7, h8, ?_⟩, ⟨?_, rfl, rfl, rfl⟩, rfl⟩
  · show s'.frame.fn = _; rw [hf, h9]
  · exact hok.reset ho

/-- A run with a value. -/
theorem AtStart.value (h : AtStart ast S γ σ m) (hw : wfProgram ast = true) {k : Nat} {v : SVal}
    (he : evalProgram S k ast σ = (.ok v, σ') ∨ evalProgram S k ast σ = (.ret v, σ')) {w : VVal}
    (hr : (m.withLimits a c).run clock fuel = some (.done w s')) : ∃ γ', AtStart ast S γ' { σ' with exits := [] } (m.withVm s').reset := by
  have ho := h.outcome hw k
  have hmain : ∃ s1 w1 s2 γ', Reach (m.host.withLimits none none) 0 m.vm s1 ∧
      (s1.step (m.host.withLimits none none) = .done w1 s2 ∨ s1.step (m.host.withLimits none none) = .panic) ∧
      Idle (m.host.withLimits none none) γ' σ' s2 := by
    rcases he with he | he
    · rw [he] at ho
      obtain ⟨s1, w1, s2, γ', h1, h2, _, _, h5⟩ := ho
      exact ⟨s1, w1, s2, γ', h1, .inl h2, h5⟩
    · rw [he] at ho
      obtain ⟨s1, w1, s2, γ', h1, h2, _, _, h5⟩ := ho
      exact ⟨s1, w1, s2, γ', h1, h2.imp id (·.2), h5⟩
  obtain ⟨s1, w1, s2, γ', ⟨k1, _, h1⟩, h2, h3⟩ := hmain
  have hterm : ∀ x, s1.step (m.host.withLimits none none) ≠ .next x := by
    intro x hx
    rcases h2 with h2 | h2 <;> rw [h2] at hx <;> cases hx
  have hsp : m.vm.sp ≤ a := by rw [h.idle.sp]; omega
  have hfin : s1.step (m.host.withLimits none none) = .done w s' := by
    rcases VM.run_unlim hsp hr with ⟨_, _, h4⟩ | ⟨_, _, h4⟩ | ⟨k2, s3, h4, h5, h6⟩ | ⟨k2, s3, h4, h5⟩
    · cases h4
    · cases h4
    · exact VM.steps_det h1 rfl hterm h4 h5 h6
    · obtain ⟨sp, x, h6⟩ := h5
      have := VM.steps_det h1 rfl hterm h4 h6 (by simp)
      rcases h2 with h2 | h2 <;> rw [h2] at this <;> cases this
  rcases h2 with h2 | h2 <;> rw [hfin] at h2 <;> cases h2
  have hb : VM.Bot (VM.fixed m.vm.frame) m.vm := by
    unfold VM.Bot VM.bottom; rw [h.idle.frames]; rfl
  have hb' := VM.run_bottom (H := (m.withLimits a c).host) clock fuel 0 0 _ hb hr
  exact ⟨γ', h.reset (stack := s'.stack) (sp := s'.sp) h3.ok h3.openUps (fn_of_bottom hb'.1 h3.frames)⟩

/-- A run that failed outside of all calls and where no captured variable was on the stack. -/
theorem AtStart.error (h : AtStart ast S γ σ m) (hw : wfProgram ast = true) {k : Nat} {e : Err} {sp : Option Span}
    (he : evalProgram S k ast σ = (.err e sp, σ')) (hne : e ≠ .overflow .stackOverflow)
    {e' : Err} {sp' : Span} (hr : (m.withLimits a c).run clock fuel = some (.err e' sp' s'))
    (hne' : e' ≠ .overflow .stackOverflow) (hnl : e' ≠ .runtimeLimit) (hou : s'.openUps = []) (hfr : s'.frames = []) :
    ∃ γ', AtStart ast S γ' { σ' with exits := [] } (m.withVm s').reset := by
  have ho := h.outcome hw k
  rw [he] at ho
  obtain ⟨s1, sp1, s2, ⟨k1, _, h1⟩, h2, _, h3⟩ := ho
  have hsp : m.vm.sp ≤ a := by rw [h.idle.sp]; omega
  have hfin : (.err e sp1 s2 : StepR D) = .err e' sp' s' := by
    rcases VM.run_unlim hsp hr with ⟨_, _, h5⟩ | ⟨_, _, h5⟩ | ⟨k2, s3, h5, h6, h7⟩ | ⟨k2, s3, h5, h6⟩
    · cases h5; exact absurd rfl hnl
    · cases h5; exact absurd rfl hne'
    · exact VM.steps_det h1 h2 (by simp) h5 h6 h7
    · obtain ⟨sp, x, h7⟩ := h6
      have := VM.steps_det h1 h2 (by simp) h5 h7 (by simp)
      cases this
      exact absurd rfl hne
  cases hfin
  obtain ⟨γ', slots, stack, sp2, _, hok⟩ := h3
  have hb : VM.Bot (VM.fixed m.vm.frame) m.vm := by
    unfold VM.Bot VM.bottom; rw [h.idle.frames]; rfl
  have hb' := VM.run_bottom (H := (m.withLimits a c).host) clock fuel 0 0 _ hb hr
  exact ⟨γ', h.reset hok hou (fn_of_bottom hb' hfr)⟩

/-- `set_external` between runs. -/
theorem AtStart.external (h : AtStart ast S γ σ m) {x : String} {v : SVal} {w : VVal} (hv : PlainVal v w) {m' : Machine D}
    (hset : m.setExternal x w = (.ok (), m')) : AtStart ast S γ { σ with globals := updName σ.globals x (some v) } m' := by
  unfold Machine.setExternal at hset
  cases hid : m.host.syms.id? x with
  | none => rw [hid] at hset; simp at hset
  | some i =>
    rw [hid] at hset
    simp only at hset
    split at hset
    case isFalse => simp at hset
    simp only [Prod.mk.injEq, true_and] at hset
    subst hset
    have hinv := h.host.symsInv
    have hlen := h.host.symsLen
    obtain ⟨k, h1, h2⟩ := (Pool.Inv.look hinv x i).1 hid
    obtain ⟨h3, _⟩ := List.getElem?_eq_some_iff.1 h1
    rw [Pool.fromUsize, Nat.mod_eq_of_lt (by omega)] at h2
    subst h2
    have ok := h.idle.ok
    refine ⟨h.host, h.code, ⟨⟨ok.data, ok.exits, ?_, ok.slot, ok.cell, ok.opened, ok.slotInj, ok.cellInj, ?_⟩, h.idle.sp, h.idle.frames, h.idle.base⟩, h.ip⟩
    · intro j y hy
      show Val.RelO _ (updName σ.globals x (some v) y) (upd m.vm.globals i (some w) j)
      by_cases hjk : j = i
      · subst hjk
        have hxy : x = y := by
          have : (some x : Option String) = some y := h1.symm.trans hy
          exact Option.some.inj this
        subst hxy
        simp only [updName, if_true, upd_same]
        exact Val.Rel.mono (fun _ _ h => h.elim) hv
      · have : y ≠ x := by rintro rfl; exact hjk (nodup_get hinv.nodup hy h1)
        simp only [updName, this, if_false, upd_other _ _ hjk]
        exact ok.globals j y hy
    · intro j hj
      show upd m.vm.globals i (some w) j = none
      have hj' : (m.host.withLimits none none).syms.entries.length ≤ j := hj
      rw [upd_other _ _ (by omega)]
      exact ok.out j hj

end

end Quilt
