import Verif.Sem.SimBase

/-!
# Simulation: expressions without control flow
-/

namespace Quilt
variable {D : Type}

/-! ## Variables -/

theorem resolveUp_none {x : String} : ∀ {ps : List GLevel} {l : GLevel}, resolveUp x l ps = none →
    ∀ p ∈ ps, lastIdx x p.locals = none
  | [], _, _ => by simp
  | p :: ps, l, h => by
    simp only [resolveUp] at h
    cases h1 : lastIdx x p.locals with
    | some i => rw [h1] at h; simp at h
    | none =>
      rw [h1] at h
      simp only at h
      cases h2 : resolveUp x p ps with
      | some r => obtain ⟨i, p', ps'⟩ := r; rw [h2] at h; simp at h
      | none =>
        intro q hq
        rcases List.mem_cons.1 hq with rfl | hq
        · exact h1
        · exact resolveUp_none h2 q hq

theorem not_mem_enclNames {x : String} : ∀ {ps : List GLevel}, (∀ p ∈ ps, lastIdx x p.locals = none) → x ∉ enclNames ps
  | [], _ => by simp [enclNames]
  | p :: ps, h => by
    simp only [enclNames, List.mem_append, not_or]
    refine ⟨?_, not_mem_enclNames fun q hq => h q (by simp [hq])⟩
    have := lastIdx_none.1 (h p (by simp))
    simp only [GLevel.names, List.mem_filter, List.mem_reverse, List.mem_map]
    rintro ⟨⟨l, hl, rfl⟩, _⟩
    exact this l hl rfl

theorem addGlobal_id {g g' : GState} {x : String} {i : Nat} (h : GInv g) (he : g.addGlobal x = (i, g')) {syms : List String}
    (hs : g'.globals.entries <+: syms) (hl : syms.length ≤ 65536) : syms[i]? = some x := by
  obtain ⟨k, h1, h2⟩ := Pool.add_id h.globals x
  simp only [GState.addGlobal, Prod.mk.injEq] at he
  obtain ⟨rfl, rfl⟩ := he
  have h3 := getElem?_prefix hs h1
  have h4 : k < syms.length := (List.getElem?_eq_some_iff.1 h3).1
  rw [h2, Pool.fromUsize, Nat.mod_eq_of_lt (Nat.lt_of_lt_of_le h4 hl)]
  exact h3

theorem addConst_id {g g' : GState} {x : Const} {i : Nat} (h : GInv g) (he : g.addConst x = (i, g')) {consts : List Const}
    (hs : g'.cur.constPool.entries <+: consts) (hl : consts.length ≤ 65536) : consts[i]? = some x := by
  obtain ⟨k, h1, h2⟩ := Pool.add_id h.cur.consts x
  simp only [GState.addConst, Prod.mk.injEq] at he
  obtain ⟨rfl, rfl⟩ := he
  have h3 := getElem?_prefix hs h1
  have h4 : k < consts.length := (List.getElem?_eq_some_iff.1 h3).1
  rw [h2, Pool.fromUsize, Nat.mod_eq_of_lt (Nat.lt_of_lt_of_le h4 hl)]
  exact h3

/-- What a reference means in the machine. -/
def RefOk (H : Host D) (A : Act) (γ slots : LocMap) (env : SEnv) (x : String) : GState.Ref → Prop
  | .loc i => ∃ loc, lookup x env = some loc ∧ slots (A.st + i) = some loc
  | .up j => ∃ c loc, A.ups[j]? = some c ∧ γ c = some loc ∧ lookup x env = some loc
  | .glob i => lookup x env = none ∧ H.syms.entries[i]? = some x

section
variable {H : Host D} {S : SHost D} {A : Act} {B : Bd} {K : Nat → Prop} {γ slots : LocMap} {g g' : GState} {env : SEnv}
  {σ : SSt D} {s s0 : VM D}

theorem resolve_sim (hH : HRel H S) {x : String} {r : GState.Ref} (hi : GInv g) (hf : FrameOk slots A g env)
    (hcells : ∀ (j : Nat) (u : Upv), A.us[j]? = some u →
      ∃ c loc, A.ups[j]? = some c ∧ γ c = some loc ∧ lookup u.name A.envC = some loc)
    (hx : nameOk x = true) (hr : g.resolve x = (r, g')) (hb : Bound H A K g') : RefOk H A γ slots env x r := by
  obtain ⟨envL, rfl, h2, h3, h4⟩ := hf
  have hx' : isTemp x = false := by simpa [nameOk] using hx
  unfold GState.resolve at hr
  cases h5 : lastIdx x g.cur.locals with
  | some i =>
    rw [h5] at hr
    simp only [Prod.mk.injEq] at hr
    obtain ⟨rfl, rfl⟩ := hr
    exact h2.lookup_some hx' h5 _
  | none =>
    rw [h5] at hr
    simp only at hr
    cases h6 : resolveUp x g.cur g.encl with
    | some q =>
      obtain ⟨j, l, ls⟩ := q
      rw [h6] at hr
      simp only [Prod.mk.injEq] at hr
      obtain ⟨rfl, rfl⟩ := hr
      obtain ⟨_, _, _, _, u, hu, hn⟩ := resolveUp_spec hi.chain h6
      have := getElem?_prefix hb.ups hu
      obtain ⟨c, loc, k1, k2, k3⟩ := hcells j u this
      refine ⟨c, loc, k1, k2, ?_⟩
      rw [h2.lookup_none h5, ← hn]; exact k3
    | none =>
      rw [h6] at hr
      simp only at hr
      cases h7 : g.addGlobal x with
      | mk i g1 =>
        rw [h7] at hr
        simp only [Prod.mk.injEq] at hr
        obtain ⟨rfl, rfl⟩ := hr
        refine ⟨?_, addGlobal_id hi h7 hb.globals hH.symsLen⟩
        rw [h2.lookup_none h5, lookup_eq_none, h4]
        exact not_mem_enclNames (resolveUp_none h6)

theorem step_at (hfn : s.frame.fn = A.fn) {q : Piece} {c : Code} (hc : CodeAt A.fn s.frame.ip (q :: c))
    (hn : ∀ k us, q.i ≠ .createClosure k us) : s.step H = (s.goto (s.frame.ip + q.i.enc.length)).exec H q.i := by
  apply VM.step_code (q := q) (c := c)
  · rw [hfn]; exact hc
  · exact Instr.fits_of_small (hc.2.2 q (by simp)) fun k us h => absurd h (hn k us)

theorem span_at (hfn : s.frame.fn = A.fn) {q : Piece} {c : Code} (hc : CodeAt A.fn s.frame.ip (q :: c)) :
    s.frame.fn.getSpan (s.frame.ip + q.i.enc.length - 1) = q.lastSp := by
  rw [hfn]; exact hc.lastSpan

/-- Reading a variable. -/
theorem sim_load (hH : HRel H S) (ha : ActOk γ A s) (hok : Ok H.cfg H.syms.entries γ slots σ s.mem) (hk : OpenK K s.mem)
    (hle : A.st ≤ s.sp) {x : String} {r : GState.Ref} (hr : RefOk H A γ slots env x r) {sp : Span} {c : Code}
    (hc : CodeAt A.fn s.frame.ip (.at' r.load sp :: c)) :
    Post H A B K γ slots s (readVar x sp env σ) (EQ H K slots s (s.frame.ip + r.load.enc.length)) := by
  have hs : ∀ l loc, slots l = some loc → l < s.sp := fun l loc hl => (hok.slot l loc hl).1
  have hstep := step_at (H := H) ha.fn hc (by cases r <;> simp [GState.Ref.load])
  have hspan := span_at ha.fn hc
  cases r with
  | loc i =>
    obtain ⟨loc, h1, h2⟩ := hr
    obtain ⟨h3, _, h5⟩ := hok.slot _ _ h2
    simp only [readVar, h1]
    refine Post.op (r := .ok (σ.store loc)) (r' := .ok (s.stack (A.st + i))) (sp := sp) (k := 0) h5 ?_ hok hk hs (fun _ _ _ => rfl) rfl hle
    show _ = _
    rw [hstep]
    have h3' : A.st + i < s.sp := h3
    simp [GState.Ref.load, VM.exec, ha.st, hH.stack, oob, VM.push_none hH.stack, VM.repl, VM.pushU]
    omega
  | up j =>
    obtain ⟨cl, loc, h1, h2, h3⟩ := hr
    simp only [readVar, h3]
    obtain ⟨_, _, h4⟩ := hok.cell _ _ h2
    have h4' : CellOk H.cfg H.syms.entries γ slots s.openUps (σ.store loc) cl loc (s.heap cl) := h4
    cases hh : s.heap cl with
    | opened l =>
      rw [hh] at h4'
      obtain ⟨h5, _, h6⟩ := hok.slot _ _ h4'.1
      refine Post.op (r := .ok (σ.store loc)) (r' := .ok (s.stack l)) (sp := sp) (k := 0) h6 ?_ hok hk hs (fun _ _ _ => rfl) rfl hle
      show _ = _
      rw [hstep]
      have h5' : l < s.sp := h5
      simp [GState.Ref.load, VM.exec, ha.ups, h1, hh, hH.stack, oob, VM.push_none hH.stack, VM.repl, VM.pushU, Nat.not_le.2 h5']
    | closed w =>
      rw [hh] at h4'
      refine Post.op (r := .ok (σ.store loc)) (r' := .ok w) (sp := sp) (k := 0) h4'.1 ?_ hok hk hs (fun _ _ _ => rfl) rfl hle
      show _ = _
      rw [hstep]
      simp [GState.Ref.load, VM.exec, ha.ups, h1, hh, VM.push_none hH.stack, VM.repl, VM.pushU]
  | glob i =>
    obtain ⟨h1, h2⟩ := hr
    have h3 := hok.globals i x h2
    have h3' : Val.RelO (CRel H.cfg H.syms.entries γ) (σ.globals x) (s.globals i) := h3
    have hn : VM.symName H i = x := by simp [VM.symName, Pool.get, h2]
    cases h4 : σ.globals x with
    | some v =>
      cases h5 : s.globals i with
      | none => rw [h4, h5] at h3'; exact h3'.elim
      | some w =>
        rw [h4, h5] at h3'
        have : readVar x sp env σ = SM.lift (.ok v) sp σ := by
          simp [readVar, h1, bind, SM.bind, SM.getGlobal, h4, SM.lift]
        rw [this]
        refine Post.op (r := .ok v) (r' := .ok w) (sp := sp) (k := 0) h3' ?_ hok hk hs (fun _ _ _ => rfl) rfl hle
        show _ = _
        rw [hstep]
        simp [GState.Ref.load, VM.exec, h5, VM.push_none hH.stack, VM.repl, VM.pushU]
    | none =>
      cases h5 : s.globals i with
      | some w => rw [h4, h5] at h3'; exact h3'.elim
      | none =>
        have : readVar x sp env σ = (.err (.name (.undefined x)) (some sp), σ) := by
          simp [readVar, h1, bind, SM.bind, SM.getGlobal, h4, SM.err]
        rw [this]
        refine Post.err (sp' := sp) (s'' := s.goto (s.frame.ip + (GState.Ref.glob i).load.enc.length)) ?_ (fun y hy => by cases hy; rfl)
          (slots' := slots) (stack := s.stack) (p := s.sp) hok
        rw [hstep]
        simp only [GState.Ref.load, VM.exec, VM.goto_globals, h5, VM.err1, VM.goto_fn, VM.goto_ip, hn]
        simp only [GState.Ref.load] at hspan
        rw [hspan]

/-- Assigning a variable: the value stays on the stack. -/
theorem sim_store (hH : HRel H S) (ha : ActOk γ A s) (hok : Ok H.cfg H.syms.entries γ slots σ s.mem) (hk : OpenK K s.mem)
    {x : String} {r : GState.Ref} (hr : RefOk H A γ slots env x r) {sp : Span} {c : Code}
    (hc : CodeAt A.fn s.frame.ip (.at' r.store sp :: c)) (hsp : 0 < s.sp) {v : SVal}
    (hv : VRel H.cfg H.syms.entries γ v (s.stack (s.sp - 1))) :
    Post H A B K γ slots s (writeVar x sp env v σ) (fun _ γ' slots' σ' s' => γ' = γ ∧ slots' = slots ∧
      (∀ i, slots i = none → s'.stack i = s.stack i) ∧ s'.sp = s.sp ∧ s'.frame.ip = s.frame.ip + r.store.enc.length ∧
      Ok H.cfg H.syms.entries γ slots σ' s'.mem ∧ OpenK K s'.mem) := by
  have hstep := step_at (H := H) ha.fn hc (by cases r <;> simp [GState.Ref.store])
  have hspan := span_at ha.fn hc
  have hsp0 : s.sp ≠ 0 := by omega
  -- assignment to stack position `l`
  have key : ∀ l loc, lookup x env = some loc → slots l = some loc → ∀ s',
      s' = { s.goto (s.frame.ip + r.store.enc.length) with stack := upd s.stack l (s.stack (s.sp - 1)) } →
      s.step H = .next s' →
      Post H A B K γ slots s (writeVar x sp env v σ) (fun _ γ' slots' σ' s' => γ' = γ ∧ slots' = slots ∧
      (∀ i, slots i = none → s'.stack i = s.stack i) ∧ s'.sp = s.sp ∧ s'.frame.ip = s.frame.ip + r.store.enc.length ∧
      Ok H.cfg H.syms.entries γ slots σ' s'.mem ∧ OpenK K s'.mem) := by
    intro l loc h1 h2 s' hs' hst
    subst hs'
    simp only [writeVar, h1]
    have hne : ∀ i, slots i = none → i ≠ l := fun i hi he => by subst he; rw [h2] at hi; cases hi
    refine ⟨γ, slots, _, (Reach.step hst).mono (by omega), ?_, rfl, rfl, ?_, rfl, rfl, ?_, ?_⟩
    · exact ⟨γ.le_refl, fun _ _ => rfl, rfl, rfl, rfl, rfl, rfl, fun i _ hi => upd_other _ _ (hne i hi)⟩
    · intro i hi; exact upd_other _ _ (hne i hi)
    · exact hok.storeSlot h2 hv
    · exact hk
  cases r with
  | loc i =>
    obtain ⟨loc, h1, h2⟩ := hr
    obtain ⟨h3, _, _⟩ := hok.slot _ _ h2
    refine key _ _ h1 h2 _ rfl ?_
    rw [hstep]
    have h3' : A.st + i < s.sp := h3
    simp [GState.Ref.store, VM.exec, hsp0, ha.st, hH.stack, oob]
    omega
  | up j =>
    obtain ⟨cl, loc, h1, h2, h3⟩ := hr
    obtain ⟨_, _, h4⟩ := hok.cell _ _ h2
    have h4' : CellOk H.cfg H.syms.entries γ slots s.openUps (σ.store loc) cl loc (s.heap cl) := h4
    cases hh : s.heap cl with
    | opened l =>
      rw [hh] at h4'
      obtain ⟨h5, _, h6⟩ := hok.slot _ _ h4'.1
      refine key _ _ h3 h4'.1 _ rfl ?_
      rw [hstep]
      have h5' : l < s.sp := h5
      simp [GState.Ref.store, VM.exec, hsp0, ha.ups, h1, hh, hH.stack, oob, Nat.not_le.2 h5']
    | closed w =>
      have hst : s.step H = .next { s.goto (s.frame.ip + (GState.Ref.up j).store.enc.length) with
          heap := upd s.heap cl (.closed (s.stack (s.sp - 1))) } := by
        rw [hstep]
        simp [GState.Ref.store, VM.exec, hsp0, ha.ups, h1, hh]
      simp only [writeVar, h3]
      refine ⟨γ, slots, _, (Reach.step hst).mono (by omega), ?_, rfl, rfl, fun _ _ => rfl, rfl, rfl, ?_, ?_⟩
      · exact ⟨γ.le_refl, fun _ _ => rfl, rfl, rfl, rfl, rfl, rfl, fun i _ hi => rfl⟩
      · exact hok.storeClosed h2 hh hv
      · rintro l ⟨c', hc', hh'⟩
        have hh'' : upd s.heap cl (.closed (s.stack (s.sp - 1))) c' = .opened l := hh'
        by_cases he : c' = cl
        · subst he; simp at hh''
        · rw [upd_other _ _ he] at hh''; exact hk l ⟨c', hc', hh''⟩
  | glob i =>
    obtain ⟨h1, h2⟩ := hr
    have h3 := hok.globals i x h2
    have h3' : Val.RelO (CRel H.cfg H.syms.entries γ) (σ.globals x) (s.globals i) := h3
    have hn : VM.symName H i = x := by simp [VM.symName, Pool.get, h2]
    cases h4 : σ.globals x with
    | some v0 =>
      cases h5 : s.globals i with
      | none => rw [h4, h5] at h3'; exact h3'.elim
      | some w =>
        have : writeVar x sp env v σ = (.ok (), { σ with globals := fun y => if y = x then some v else σ.globals y }) := by
          simp [writeVar, h1, bind, SM.bind, SM.getGlobal, h4, SM.defGlobal]
        rw [this]
        have hst : s.step H = .next { s.goto (s.frame.ip + (GState.Ref.glob i).store.enc.length) with
            globals := upd s.globals i (some (s.stack (s.sp - 1))) } := by
          rw [hstep]
          simp [GState.Ref.store, VM.exec, hsp0, h5]
        refine ⟨γ, slots, _, (Reach.step hst).mono (by omega), ?_, rfl, rfl, fun _ _ => rfl, rfl, rfl, ?_, hk⟩
        · exact ⟨γ.le_refl, fun _ _ => rfl, rfl, rfl, rfl, rfl, rfl, fun i _ hi => rfl⟩
        · exact hok.setGlobal hH.symsInv.nodup h2 hv
    | none =>
      cases h5 : s.globals i with
      | some w => rw [h4, h5] at h3'; exact h3'.elim
      | none =>
        have : writeVar x sp env v σ = (.err (.name (.undefined x)) (some sp), σ) := by
          simp [writeVar, h1, bind, SM.bind, SM.getGlobal, h4, SM.err]
        rw [this]
        refine Post.err (sp' := sp) (s'' := s.goto (s.frame.ip + (GState.Ref.glob i).store.enc.length)) ?_ (fun y hy => by cases hy; rfl)
          (slots' := slots) (stack := s.stack) (p := s.sp) hok
        rw [hstep]
        simp only [GState.Ref.store, VM.exec, VM.goto_globals, VM.goto_sp, hsp0, if_false, h5, VM.err1, VM.goto_fn, VM.goto_ip, hn]
        simp only [GState.Ref.store] at hspan
        rw [hspan]

end

end Quilt
