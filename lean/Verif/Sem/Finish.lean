import Verif.Sem.Ends
import Verif.Sem.Ready
import Verif.Vm.Inv

/-!
# Machines running programs without `while` stop

Given a limit on the call stack.
-/

namespace Quilt

variable {D : Type}

/-- Calls nested at most `n` deep are executed as prescribed, deeper ones add `n + 1` frames. -/
theorem callD_ok {H : Host D} {S : SHost D} {W : Nat} (hH : HRel H S) : ∀ n : Nat, CallOk H (callD S W n) ⟨0, some (n + 1)⟩
  | 0 => by
    intro A K γ slots σ s0 s sc vc args p hok hk hsl hle hsame hsp htop hrel hargs hlen hstep
    simp only [callD]
    refine ⟨1, _, rfl, (Reach.step hstep).mono (Nat.zero_le _), ?_⟩
    simp
  | n + 1 => by
    have := callOk_step (B := ⟨0, some (n + 2)⟩) (W := W) hH (fun ns => sim_stmts (B := ⟨0, some (n + 1)⟩) hH (callD_ok (W := W) hH n) (Nat.zero_le _) ns)
    exact this

/-- The machine against the semantics with calls nested at most `n` deep. -/
theorem AtStart.outcomeD {ast : List Node} {S : SHost D} {γ : LocMap} {σ : SSt D} {m : Machine D} (h : AtStart ast S γ σ m) (hw : wfProgram ast = true) (W n : Nat) :
    OutcomeD (m.host.withLimits none none) ⟨0, some (n + 1)⟩ γ m.vm (evalTop S (callD S W n) W ast σ) := by
  obtain ⟨g, g', sp, c, hd, h1, h2, h3, h4, h5, h6, h7, h8, h9⟩ := h.code
  exact run_top h.host h1 h2 h3 h4 (h := hd) h5 h6 hw h7 h8 h.idle h9 h.ip (callD_ok h.host n) (Nat.zero_le _)

/-- Prepared hosts and states contain no functions with `while`. -/
theorem Prepared.calm {M : Machine.Setup D} {data : D} {script : Script} {S : SHost D} {σ : SSt D} {m : Machine D} (h : Prepared M data script S σ m) :
    S.lim = M.opts.lim ∧ (∀ x, CalmB (S.builtins x) S.lim) ∧ CalmSt σ := by
  have plain : ∀ {v : SVal} {w : VVal}, PlainVal v w → Calm v := fun {v w} h => Only.ofV v w (Val.Rel.mono (fun _ _ h => h.elim) h)
  have glob : ∀ {σ : SSt D} {x : String} {v : SVal}, CalmSt σ → Calm v → CalmSt { σ with globals := updName σ.globals x (some v) } := by
    intro σ x v hs hv
    refine ⟨hs.1, fun y w hw => ?_⟩
    replace hw : (if y = x then some v else σ.globals y) = some w := hw
    split at hw
    · cases hw; exact hv
    · exact hs.2 y w hw
  induction h with
  | new => exact ⟨rfl, fun _ => trivial, fun _ => trivial, fun _ _ h => by simp at h⟩
  | @builtin S σ m x b b' _ hb ih =>
    refine ⟨ih.1, fun y => ?_, ih.2.2⟩
    show CalmB (if y = x then some b else S.builtins y) S.lim
    split
    · rw [ih.1]; exact hb.calm
    · exact ih.2.1 y
  | global x _ hv ih => exact ⟨ih.1, ih.2.1, glob ih.2.2 (plain hv)⟩
  | external x _ hv _ ih => exact ⟨ih.1, ih.2.1, glob ih.2.2 (plain hv)⟩

namespace VM
variable {H : Host D}

/-- A run that is not over after `fuel` steps has executed these steps. -/
theorem run_none (clock : Nat → Bool) : ∀ (fuel i j : Nat) {s : VM D}, s.run H clock fuel i j = none → ∃ s', s.steps H fuel = some s'
  | 0, i, j, s, h => ⟨s, rfl⟩
  | fuel + 1, i, j, s, h => by
    rw [run] at h
    split at h
    · simp at h
    · simp only at h
      cases hx : s.step H with
      | next s1 =>
        rw [hx] at h
        simp only at h
        split at h
        · simp at h
        · obtain ⟨s', h1⟩ := run_none clock fuel _ _ h
          exact ⟨s', by simp only [steps, hx]; exact h1⟩
      | _ => rw [hx] at h; simp at h

end VM

/-- The limited machine makes only finitely many steps if the one without limits ends, or nests more calls than allowed. -/
theorem OutcomeD.stops {H : Host D} {n c : Nat} {B : Bd} (hB : B.depth = some (c + 1)) {γ : LocMap} {s : VM D} {r : Out SVal × SSt D}
    (h : OutcomeD (H.withLimits none none) B γ s r) (ht : r.1 ≠ .timeout) (hu : ∀ b, r.1 ≠ .unspec b) (hov : ∀ sp, r.1 ≠ .err (.overflow .stackOverflow) sp)
    (hs : s.sp ≤ n) (hf : s.frames.length ≤ c) : ∃ k, s.steps (H.withLimits (some n) (some c)) k = none := by
  rcases h with h | ⟨_, d, s', h1, ⟨k, _, h2⟩, h3⟩
  · obtain ⟨k, s', h1, h2⟩ := h.agree ht hu
    have hno := h2.notOver ⟨ht, hu, hov⟩
    refine ⟨k + 1, ?_⟩
    cases hk : s.steps (H.withLimits (some n) (some c)) (k + 1) with
    | none => rfl
    | some s2 =>
      rcases VM.steps_unlim (k + 1) hs hk with ⟨h3, _⟩ | ⟨j, sj, _, h4, h5⟩
      · exact absurd (VM.steps_bound h1 rfl h2.terminal h3) (by omega)
      · have ht : ∀ x, sj.step (H.withLimits none none) ≠ .next x := by
          obtain ⟨_, _, h6⟩ := h5
          rw [h6]; simp
        have := VM.steps_det h1 rfl h2.terminal h4 rfl ht
        rw [← this] at h5
        exact absurd h5 hno
  · rw [hB] at h1
    cases h1
    refine ⟨k, ?_⟩
    cases hk : s.steps (H.withLimits (some n) (some c)) k with
    | none => rfl
    | some s2 =>
      have hfr : s2.frames.length ≤ c := (VM.kept_frames (H := H.withLimits (some n) (some c)) rfl).steps hf hk
      rcases VM.steps_unlim k hs hk with ⟨h4, _⟩ | ⟨j, sj, h0, h4, _, _, h6⟩
      · rw [h2] at h4; cases h4; omega
      · exact absurd (VM.steps_bound h4 h6 (by simp) h2) (by omega)

end Quilt
