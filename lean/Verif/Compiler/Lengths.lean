import Verif.Compiler.Accept
import Verif.Compiler.Fits

/-!
# Code is at most eight bytes per unit of size

Used to show that only large programs contain jumps that are too long.
-/

namespace Quilt

/-- A suspended level: same locals, few new upvalues. -/
structure LvUp (s : Nat) (l l' : GLevel) : Prop where
  locals : l'.locals.length = l.locals.length
  ups : 4 * l'.upvalues.length ≤ 4 * l.upvalues.length + s
  depth : l'.depth = l.depth

/-- Suspended levels. -/
def EnclUp (s : Nat) : List GLevel → List GLevel → Prop
  | [], [] => True
  | a :: as, b :: bs => LvUp s a b ∧ EnclUp s as bs
  | _, _ => False

theorem LvUp.mono {s s' : Nat} {a b : GLevel} (h : LvUp s a b) (hs : s ≤ s') : LvUp s' a b := ⟨h.1, by have := h.2; omega, h.3⟩
theorem LvUp.trans {s s' : Nat} {a b c : GLevel} (h : LvUp s a b) (h' : LvUp s' b c) : LvUp (s + s') a c :=
  ⟨h'.1.trans h.1, by have := h.2; have := h'.2; omega, h'.3.trans h.3⟩

theorem EnclUp.mono {s s' : Nat} (hs : s ≤ s') : ∀ {a b : List GLevel}, EnclUp s a b → EnclUp s' a b
  | [], [], _ => trivial
  | _ :: _, _ :: _, h => ⟨h.1.mono hs, mono hs h.2⟩
  | [], _ :: _, h | _ :: _, [], h => h.elim
theorem EnclUp.trans {s s' : Nat} : ∀ {a b c : List GLevel}, EnclUp s a b → EnclUp s' b c → EnclUp (s + s') a c
  | [], [], [], _, _ => trivial
  | _ :: _, _ :: _, _ :: _, h, h' => ⟨h.1.trans h'.1, trans h.2 h'.2⟩
  | [], _ :: _, _, h, _ | _ :: _, [], _, h, _ | [], [], _ :: _, _, h | _ :: _, _ :: _, [], _, h => h.elim
theorem EnclUp.refl : ∀ a : List GLevel, EnclUp 0 a a
  | [] => trivial
  | _ :: as => ⟨⟨rfl, by omega, rfl⟩, refl as⟩

/-- What a run of a generator costs: `n` bytes, four of which are lent for each local until it is removed. -/
structure Cost (k' n w s : Nat) (E : Prop) (g g' : GState) : Prop where
  len : n + 4 * g'.cur.locals.length ≤ 4 * g.cur.locals.length + w
  ups : 4 * g'.cur.upvalues.length ≤ 4 * g.cur.upvalues.length + s
  encl : EnclUp s g.encl g'.encl
  depth : g'.cur.depth = k'
  ext : E → g'.externals = g.externals

/-- From scope depth `k` the generator leads to depth `k'`; its code and `v` of its result take at most `w` bytes, its
upvalues are at most a quarter of `s`, and under `E` no external names are added. -/
def GCost {α : Type} (k k' : Nat) (x : GM α) (v : α → Nat) (w s : Nat) (E : Prop) : Prop :=
  ∀ g a c g', g.cur.depth = k → x g = .ok (a, c, g') → Cost k' (c.len + v a) w s E g g'

namespace GCost
open GM
variable {α β : Type} {k k1 k2 k' : Nat} {w w' s s' : Nat} {v : α → Nat} {E : Prop}

theorem mono {x : GM α} {v' : α → Nat} {d : Nat} (h : GCost k k' x v w s E) (hs : s ≤ s') (hw : w + d ≤ w') (hv : ∀ a, v' a ≤ v a + d) :
    GCost k k' x v' w' s' E := by
  intro g a c g' hk hx
  have := h g a c g' hk hx
  have h1 := this.len
  have h2 := hv a
  exact ⟨by omega, by have := this.ups; omega, this.encl.mono hs, this.depth, this.ext⟩

theorem bind {x : GM α} {f : α → GM β} {v' : β → Nat} (h : GCost k k1 x v w s E) (hf : ∀ a, GCost k1 k2 (f a) v' (v a + w') s' E) :
    GCost k k2 (x >>= f) v' (w + w') (s + s') E := by
  intro g b c g2 hk hx
  obtain ⟨a, c1, g1, c2, h1, h2, rfl⟩ := bind_ok.1 hx
  have p := h g a c1 g1 hk h1
  have q := hf a g1 b c2 g2 p.depth h2
  have := p.len
  have := q.len
  refine ⟨by rw [Code.len_append]; omega, by have := p.ups; have := q.ups; omega, p.encl.trans q.encl, q.depth, fun e => (q.ext e).trans (p.ext e)⟩

/-- A bind whose first part has nothing to hand over. -/
theorem seq {x : GM α} {f : α → GM β} {v' : β → Nat} (h : GCost k k1 x (fun _ => 0) w s E) (hf : ∀ a, GCost k1 k2 (f a) v' w' s' E) :
    GCost k k2 (x >>= f) v' (w + w') (s + s') E :=
  bind h fun a => (hf a).mono (d := 0) (Nat.le_refl _) (by omega) (fun _ => Nat.le_refl _)

theorem pure {a : α} {n : Nat} : GCost k k (Pure.pure a : GM α) (fun _ => n) n 0 E := by
  intro g b c g' hk hx
  obtain ⟨_, rfl, rfl⟩ := pure_ok.1 hx
  exact ⟨by simp [Code.len_nil]; omega, by omega, .refl _, hk, fun _ => rfl⟩

theorem ret {a : α} {n : Nat} (h : v a ≤ n) : GCost k k (Pure.pure a : GM α) v n 0 E := by
  intro g b c g' hk hx
  obtain ⟨rfl, rfl, rfl⟩ := pure_ok.1 hx
  exact ⟨by simp only [Code.len_nil]; omega, by omega, .refl _, hk, fun _ => rfl⟩

theorem throw {e : Err} {sp : Span} : GCost k k' (GM.throw e sp : GM α) v w s E := fun g a c g' _ hx => by simp [GM.throw] at hx
theorem panic : GCost k k' (GM.panic : GM α) v w s E := fun g a c g' _ hx => by simp [GM.panic] at hx
theorem emit {c : Code} : GCost k k (GM.emit c) (fun _ => 0) c.len 0 E := by
  intro g b c' g' hk hx
  obtain ⟨rfl, rfl⟩ := emit_ok.1 hx
  exact ⟨by simp; omega, by omega, .refl _, hk, fun _ => rfl⟩
theorem emit1 {i : Instr} {sp : Span} {n : Nat} (h : i.enc.length ≤ n := by decide) : GCost k k (GM.emit1 i sp) (fun _ => 0) n 0 E :=
  (emit (c := [.at' i sp])).mono (d := 0) (Nat.le_refl _) (by simpa [Code.len_cons] using h) (fun _ => Nat.le_refl _)
theorem isGlobal : GCost k k GM.isGlobal (fun _ => 0) 0 0 E := by
  intro g b c g' hk hx
  obtain ⟨_, rfl, rfl⟩ := isGlobal_ok.1 hx
  exact ⟨by simp, by omega, .refl _, hk, fun _ => rfl⟩
theorem getG : GCost k k GM.getG (fun _ => 0) 0 0 E := by
  intro g b c g' hk hx
  obtain ⟨_, rfl, rfl⟩ := getG_ok.1 hx
  exact ⟨by simp, by omega, .refl _, hk, fun _ => rfl⟩

theorem sub {x : GM Unit} {n : Nat} (h : GCost k k' x (fun _ => n) w s E) : GCost k k' (GM.sub x) (fun c => c.len + n) w s E := by
  intro g c c0 g' hk hx
  obtain ⟨⟨u, h1⟩, rfl⟩ := sub_ok.1 hx
  have := h g u c g' hk h1
  have h1 := this.len
  exact ⟨by simp [Code.len_nil]; omega, this.ups, this.encl, this.depth, this.ext⟩

theorem onG {f : GState → GState} (h : ∀ g, g.cur.depth = k → Cost k' 0 w s E g (f g)) : GCost k k' (GM.onG f) (fun _ => 0) w s E := by
  intro g b c g' hk hx
  obtain ⟨rfl, rfl⟩ := onG_ok.1 hx
  exact h g hk
theorem onG' {f : GState → α × GState} (h : ∀ g, g.cur.depth = k → Cost k' 0 w s E g (f g).2) : GCost k k' (GM.onG' f) (fun _ => 0) w s E := by
  intro g b c g' hk hx
  obtain ⟨rfl, h1⟩ := onG'_ok.1 hx
  have := h g hk
  rw [h1] at this
  exact this

theorem ite {x y : GM α} {c : Prop} [Decidable c] (h : c → GCost k k' x v w s E) (h' : ¬ c → GCost k k' y v w s E) : GCost k k' (if c then x else y) v w s E := by
  split
  · exact h ‹_›
  · exact h' ‹_›

theorem addConst (c : Const) : GCost k k (GM.onG' fun g => g.addConst c) (fun _ => 0) 0 0 E :=
  onG' fun g hk => ⟨by simp [GState.addConst, GState.onCur], by simp [GState.addConst, GState.onCur], .refl _, hk, fun _ => rfl⟩
theorem addGlobal (x : String) : GCost k k (GM.onG' fun g => g.addGlobal x) (fun _ => 0) 0 0 E :=
  onG' fun g hk => ⟨by simp [GState.addGlobal], by simp [GState.addGlobal], .refl _, hk, fun _ => rfl⟩

theorem addUpvalue_up (l : GLevel) (i : Nat) (b : Bool) (x : String) : LvUp 4 l (l.addUpvalue i b x).2 := by
  unfold GLevel.addUpvalue
  split
  · exact ⟨rfl, Nat.le_add_right _ _, rfl⟩
  · exact ⟨rfl, by simp; omega, rfl⟩

theorem resolveUp_up {x : String} : ∀ {ps : List GLevel} {l : GLevel} {j : Nat} {l' : GLevel} {ps' : List GLevel}, resolveUp x l ps = some (j, l', ps') →
    LvUp 4 l l' ∧ EnclUp 4 ps ps'
  | [], l, j, l', ps', h => by simp [resolveUp] at h
  | p :: ps, l, j, l', ps', h => by
    simp only [resolveUp] at h
    cases hi : lastIdx x p.locals with
    | some i =>
      simp only [hi, Option.some.injEq, Prod.mk.injEq] at h
      obtain ⟨rfl, rfl, rfl⟩ := h
      exact ⟨addUpvalue_up _ _ _ _, ⟨by simp [GLevel.mark], by simp [GLevel.mark], rfl⟩, (EnclUp.refl _).mono (Nat.zero_le _)⟩
    | none =>
      simp only [hi] at h
      cases hr : resolveUp x p ps with
      | none => simp [hr] at h
      | some r =>
        obtain ⟨i, p', ps''⟩ := r
        obtain ⟨k1, k2⟩ := resolveUp_up hr
        simp only [hr, Option.some.injEq, Prod.mk.injEq] at h
        obtain ⟨rfl, rfl, rfl⟩ := h
        exact ⟨addUpvalue_up _ _ _ _, k1, k2⟩

theorem resolve (x : String) : GCost k k (GM.onG' fun g => g.resolve x) (fun _ => 0) 0 4 E := by
  refine onG' fun g hk => ?_
  simp only [GState.resolve]
  split
  · exact ⟨by simp, by simp, (EnclUp.refl _).mono (Nat.zero_le _), hk, fun _ => rfl⟩
  · split
    · rename_i h
      obtain ⟨h1, h2⟩ := resolveUp_up h
      exact ⟨by simp [h1.locals], h1.ups, h2, (GD.resolveUp_depth h).1.trans hk, fun _ => rfl⟩
    · exact ⟨by simp [GState.addGlobal], by simp [GState.addGlobal], (EnclUp.refl _).mono (Nat.zero_le _), hk, fun _ => rfl⟩

theorem getVariable (x : String) (sp : Span) : GCost k k (GM.getVariable x sp) (fun _ => 0) 3 4 E :=
  (seq (resolve x) fun r => emit1 (n := 3) (by cases r <;> simp [GState.Ref.load, Instr.enc, u16le])).mono (d := 0) (by omega) (by omega) (fun _ => Nat.le_refl _)
theorem setVariable (x : String) (sp : Span) : GCost k k (GM.setVariable x sp) (fun _ => 0) 3 4 E :=
  (seq (resolve x) fun r => emit1 (n := 3) (by cases r <;> simp [GState.Ref.store, Instr.enc, u16le])).mono (d := 0) (by omega) (by omega) (fun _ => Nat.le_refl _)

theorem defineLocals (xs : List String) : GCost k k (GM.defineLocals xs) (fun _ => 0) (4 * xs.length) 0 E := by
  refine onG fun g hk => ?_
  obtain ⟨a, b, c, d, e, f⟩ := defineLocals_spec g xs
  obtain ⟨_, _, _, h4⟩ := GD.defineLocals_same xs g
  exact ⟨by rw [a]; simp; omega, by rw [b]; omega, by rw [e]; exact .refl _, c.trans hk, fun _ => h4⟩

theorem defineGlobal (x : String) (sp : Span) : GCost k k (GM.defineGlobal x sp) (fun _ => 0) 3 0 E :=
  (seq (addGlobal x) fun i => emit1 (n := 3) (by simp [Instr.enc, u16le])).mono (d := 0) (by omega) (by omega) (fun _ => Nat.le_refl _)
theorem defineGlobals : ∀ xs : List Name, GCost k k (GM.defineGlobals xs) (fun _ => 0) (3 * xs.length) 0 E
  | [] => pure
  | (x, sp) :: xs => (seq (defineGlobal x sp) fun _ => defineGlobals xs).mono (d := 0) (by omega) (by simp; omega) (fun _ => Nat.le_refl _)

theorem enterScope : GCost k (k + 1) (GM.onG GState.enterScope) (fun _ => 0) 0 0 E :=
  onG fun g hk => ⟨by simp [GState.enterScope, GState.onCur], by simp [GState.enterScope, GState.onCur], .refl _, by show g.cur.depth + 1 = k + 1; omega, fun _ => rfl⟩
theorem reserveTemp : GCost k k (GM.onG GState.reserveTemp) (fun _ => 0) 4 0 E := by
  refine onG fun g hk => ?_
  rw [reserveTemp_eq]
  obtain ⟨a, b, c, d, e, f⟩ := defineLocals_spec g ["#__temp_" ++ String.ofList (showNat g.cur.locals.length)]
  obtain ⟨_, _, _, h4⟩ := GD.defineLocals_same ["#__temp_" ++ String.ofList (showNat g.cur.locals.length)] g
  exact ⟨by rw [a]; simp; omega, by rw [b]; omega, by rw [e]; exact .refl _, c.trans hk, fun _ => h4⟩

theorem exitOps_len (sp : Span) : ∀ (cs : List Bool) (q : Nat), (GM.exitOps sp cs q).len ≤ 2 * (cs.length + q) := by
  have hf : ∀ q, (GM.flush q sp).len ≤ 2 * q := by
    intro q
    simp only [GM.flush]
    split
    · simp [Instr.enc, u16le]; omega
    · split
      · simp [Instr.enc]; omega
      · simp
  intro cs
  induction cs with
  | nil => intro q; simpa [GM.exitOps] using hf q
  | cons b cs ih =>
    intro q
    cases b with
    | false => have := ih (q + 1); simp only [GM.exitOps, List.length_cons]; omega
    | true =>
      have := ih 0
      have := hf q
      simp only [GM.exitOps, List.length_cons, Code.len_append, Code.len_cons, Code.len_nil]
      simp only [Instr.enc, List.length_cons, List.length_nil]
      omega

theorem exitCode_len (sp : Span) (cs : List Bool) : (GM.exitCode sp cs).len ≤ 4 * cs.length := by
  unfold GM.exitCode
  split
  · simp
  · rename_i h
    have h1 := exitOps_len sp cs 0
    have h2 : 0 < cs.length := List.length_pos_iff.2 h
    simp only [Code.len_append, Code.len_cons, Code.len_nil, Instr.enc, List.length_cons, List.length_nil]
    omega

theorem exitScope (sp : Span) : GCost (k + 1) k (GM.exitScope sp) (fun _ => 0) 0 0 E := by
  intro g a c g' hk hx
  obtain ⟨rfl, rfl⟩ := exitScope_ok.1 hx
  have h1 := exitCode_len sp ((g.cur.leaving (g.cur.depth - 1)).map (·.captured))
  have h2 : (g.cur.leaving (g.cur.depth - 1)).length + (g.cur.staying (g.cur.depth - 1)).length = g.cur.locals.length := by
    simp only [GLevel.leaving, GLevel.staying, List.length_reverse]
    rw [← List.length_append, List.takeWhile_append_dropWhile, List.length_reverse]
  refine ⟨?_, by simp [GState.exitScope, GState.onCur], .refl _, by show g.cur.depth - 1 = k; omega, fun _ => rfl⟩
  rw [List.length_map] at h1
  show _ + 0 + 4 * (g.cur.staying (g.cur.depth - 1)).length ≤ _
  omega

theorem inScope {body : GM Span} (h : GCost (k + 1) (k + 1) body (fun _ => 0) w s E) : GCost k k (GM.inScope body) (fun _ => 0) w s E :=
  (seq enterScope fun _ => seq h fun s => exitScope s).mono (d := 0) (by omega) (by omega) (fun _ => Nat.le_refl _)

theorem ctxVar (sp csp : Span) : ∀ v : Option Var, GCost k k (GM.ctxVar sp csp v) (fun _ => 0) (7 + 4 * varCount v) 4 E
  | some (.one (y, ysp)) => (seq (defineLocals [y]) fun _ => setVariable y ysp).mono (d := 0) (by omega) (by simp [varCount, Var.count]) (fun _ => Nat.le_refl _)
  | some (.many xs) => ite (fun _ => throw) fun _ => (seq (emit1 (n := 2) (by simp [Instr.enc, u8b])) fun _ => defineLocals (xs.map Prod.fst).reverse).mono (d := 0) (by omega)
      (by simp [varCount, Var.count] <;> omega) (fun _ => Nat.le_refl _)
  | none => (emit1 (n := 1)).mono (d := 0) (by omega) (by omega) (fun _ => Nat.le_refl _)

theorem declVar (sp : Span) : ∀ v : Var, GCost k k (GM.declVar sp v) (fun _ => 0) (3 + 4 * v.count) 4 E
  | .one (x, xsp) => by
    refine (seq (s' := 4) (w' := 7) isGlobal fun b => ?_).mono (d := 0) (by omega) (by simp [Var.count]) (fun _ => Nat.le_refl _)
    exact ite (fun _ => (defineGlobal x xsp).mono (d := 0) (by omega) (by omega) (fun _ => Nat.le_refl _)) fun _ =>
      (seq (defineLocals [x]) fun _ => setVariable x xsp).mono (d := 0) (by omega) (by simp) (fun _ => Nat.le_refl _)
  | .many xs => by
    refine ite (fun _ => throw) fun _ => ?_
    have := seq (k2 := k) (s' := 0 + 0) (w' := 0 + 4 * xs.length) (v' := fun _ => 0) (E := E) (emit1 (k := k) (i := .unpack xs.length) (sp := sp) (n := 2) (by simp [Instr.enc, u8b])) fun _ =>
      seq isGlobal (f := fun b => if b = true then GM.defineGlobals xs else GM.defineLocals (xs.map Prod.fst).reverse) fun b =>
        ite (fun _ => (defineGlobals xs).mono (d := 0) (by omega) (by omega) (fun _ => Nat.le_refl _)) fun _ =>
          (defineLocals (xs.map Prod.fst).reverse).mono (d := 0) (by omega) (by simp) (fun _ => Nat.le_refl _)
    exact this.mono (d := 0) (by omega) (by simp [Var.count] <;> omega) (fun _ => Nat.le_refl _)

theorem encUps_len : ∀ us : List (Nat × Nat), (encUps us).length = 3 * us.length
  | [] => rfl
  | (a, b) :: us => by have := encUps_len us; simp [encUps, u8b, u16le, this]; omega

theorem closInstr_len (i : Nat) (us : List Upv) : (closInstr i us).enc.length = 3 + 3 * us.length := by
  unfold closInstr
  split
  · rename_i h; simp [h, Instr.enc, u16le]
  · simp [Instr.enc, u16le, encUps_len]; omega

theorem func {name : Name} {params : List Name} {sp : Span} {body : GM Span} (h : GCost (k + 1) (k + 1) body (fun _ => 0) w s E) :
    GCost k k (GM.func false name params sp body) (fun _ => 0) (3 + s) s E := by
  intro g a c g' hk hx
  rw [func_ok] at hx
  obtain ⟨t, cb, g1, l, ls, h1, h2, _, rfl, rfl⟩ := hx
  obtain ⟨e1, e2, e3, _, e5, _⟩ := enterFn_spec g name.1 (params.map Prod.fst)
  have hb := h _ _ _ _ (by rw [e3]; omega) h1
  have he := hb.encl
  rw [e5, h2] at he
  have hu := hb.ups
  rw [e2, List.length_nil] at hu
  have hx : (g.enterFn name.1 (params.map Prod.fst)).externals = g.externals :=
    (GD.defineLocals_same (name.1 :: params.map Prod.fst) ({ g with cur := GLevel.fresh g.cur.depth, encl := g.cur :: g.encl } : GState)).2.2.2
  refine ⟨?_, ?_, ?_, ?_, ?_⟩
  · have := he.1.locals
    simp only [Code.len_cons, Code.len_nil, closInstr_len]
    show _ + 0 + 4 * l.locals.length ≤ _
    omega
  · exact he.1.ups
  · exact he.2
  · exact he.1.depth.trans hk
  · intro e; exact (hb.ext e).trans hx

theorem assemble_len : ∀ (ps : List (Code × Span)) (d : Code), (GM.assemble ps d).len = (ps.map fun p => p.1.len + 3).sum + d.len
  | [], d => by simp [GM.assemble]
  | (c, sp) :: ps, d => by
    have := assemble_len ps d
    simp only [GM.assemble, Code.len_append, Code.len_cons, Code.len_nil, this, List.map_cons, List.sum_cons, Instr.enc, u16le, List.length_cons, List.length_nil]
    omega

theorem gexprIn {m : Mode} {sp : Span} {act : GM Unit} (h : GCost k k act (fun _ => 10) w s E) : GCost k k (Quilt.gexprIn m sp act) (fun _ => 9) w s E :=
  (bind (v' := fun _ => 9) (w' := 0) (s' := 0) h fun _ => ite (fun _ => (emit1 (n := 1)).mono (d := 9) (by omega) (by omega) (fun _ => by omega)) fun _ =>
    (pure (n := 9)).mono (d := 0) (by omega) (by omega) (fun _ => by omega)).mono (d := 0) (by omega) (by omega) (fun _ => by omega)

theorem gstmtIn {m : Mode} {sp : Span} {act : GM Unit} {v : Unit → Nat} (h : m ≠ .expr → GCost k k act v w s E) : GCost k k (Quilt.gstmtIn m sp act) v w s E := by
  cases m with
  | expr => exact throw
  | stmt => exact h (by simp)

theorem externTail (x : String) (xsp : Span) (hE : E → 0 < k) : GCost k k (do
    if !(← GM.isGlobal) then GM.throw (.name (.externalNotGlobal x)) xsp
    else
      let i ← GM.onG' fun g => g.addGlobal x
      let g ← GM.getG
      if i ∈ g.externals then GM.throw (.name (.externalRedefined x)) xsp
      else
        GM.onG fun g => { g with externals := i :: g.externals }
        GM.emit1 (.defineGlobalDefaulted i) xsp) (fun _ => 0) 3 0 E := by
  intro g a c g' hk hx
  simp only [bind_ok, isGlobal_ok] at hx
  obtain ⟨_, _, g0, _, ⟨rfl, _, e0⟩, hx, rfl⟩ := hx
  subst e0
  by_cases h0 : g0.cur.depth = 0
  · simp only [h0, decide_true, Bool.not_true, Bool.false_eq_true, if_false, bind_ok, onG'_ok, getG_ok, ite_throw_ok, onG_ok, emit1_ok] at hx
    obtain ⟨i, _, g1', _, ⟨rfl, h1⟩, ⟨_, _, g1, _, ⟨rfl, rfl, e3⟩, ⟨hi, _, _, _, _, ⟨rfl, rfl⟩, ⟨rfl, rfl⟩, rfl⟩, rfl⟩, rfl⟩ := hx
    subst e3
    have e2 : g1 = { g0 with globals := (g0.globals.add x).2 } := (congrArg Prod.snd h1).symm
    subst e2
    refine ⟨?_, by simp, .refl _, hk, fun e => by have := hE e; omega⟩
    simp [*, Instr.enc, u16le, Code.len_cons]
    omega
  · simp [h0, GM.throw] at hx

end GCost

/-- Declares no external names as a statement. -/
def Node.noExterns : Node → Bool
  | .extern .. | .include .. => false
  | _ => true

/-- Weakening with nothing handed over. -/
theorem GCost.wk {α : Type} {k k' w w' s s' : Nat} {x : GM α} {E : Prop} {n : Nat} (h : GCost k k' x (fun _ => 0) w s E) (hs : s ≤ s') (hw : w + n ≤ w') :
    GCost k k' x (fun _ => n) w' s' E := h.mono (d := n) hs hw fun _ => by omega

theorem GCost.z {α : Type} {k k' w s : Nat} {x : GM α} {E : Prop} {n : Nat} (h : GCost k k' x (fun _ => n) w s E) : GCost k k' x (fun _ => 0) w s E :=
  h.mono (d := 0) (Nat.le_refl _) (Nat.le_refl _) fun _ => by omega

open GCost in
mutual
theorem cost_node (cfg : Cfg) : ∀ (n : Node) (m : Mode) (k : Nat) {E : Prop}, (E → m = .expr ∨ 0 < k ∨ n.noExterns = true) →
    GCost k k (genNode cfg false m n) (fun _ => 9) (8 * n.size) n.size E
  | .lit sp l, m, k, E, hE => by
    unfold genNode
    refine GCost.gexprIn ?_
    cases l with
    | none => exact (GCost.emit1 (n := 1)).wk (by omega) (by simp [Node.size])
    | _ => exact (GCost.seq (GCost.addConst _) fun i => GCost.emit1 (n := 3) (by simp [Instr.enc, u16le])).wk (by omega) (by simp [Node.size])
  | .ident sp x, m, k, E, hE => by
    unfold genNode
    exact GCost.gexprIn ((GCost.getVariable x sp).wk (by simp [Node.size]) (by simp [Node.size]))
  | .assign sp (x, xsp) e, m, k, E, hE => by
    unfold genNode
    exact GCost.gexprIn ((GCost.seq (cost_node cfg e .expr k fun _ => .inl rfl).z fun _ => GCost.setVariable x xsp).wk (by simp [Node.size]; omega) (by simp [Node.size]; omega))
  | .un sp op e, m, k, E, hE => by
    unfold genNode
    refine GCost.gexprIn ?_
    cases hf : foldUnary cfg op e with
    | some r =>
      cases r with
      | ok l => exact (GCost.seq (GCost.addConst _) fun i => GCost.emit1 (n := 3) (by simp [Instr.enc, u16le])).wk (by omega) (by simp [Node.size]; omega)
      | err => exact GCost.panic
      | panic => exact GCost.panic
    | none =>
      exact (GCost.seq (s' := 0) (cost_node cfg e .expr k fun _ => .inl rfl).z fun _ => GCost.ite (fun _ => GCost.emit1 (n := 1) (by simp [Instr.enc])) fun _ => GCost.panic).wk
        (by simp [Node.size]) (by simp [Node.size]; omega)
  | .bin sp op a b, m, k, E, hE => by
    unfold genNode
    exact GCost.gexprIn ((GCost.seq (cost_node cfg a .expr k fun _ => .inl rfl).z fun _ => GCost.seq (s' := 0) (cost_node cfg b .expr k fun _ => .inl rfl).z fun _ =>
      GCost.ite (fun _ => GCost.panic) fun _ => GCost.emit1 (n := 1) (by simp [Instr.enc])).wk (by simp [Node.size]) (by simp [Node.size]; omega))
  | .pair sp a b, m, k, E, hE => by
    unfold genNode
    exact GCost.gexprIn ((GCost.seq (cost_node cfg a .expr k fun _ => .inl rfl).z fun _ => GCost.seq (cost_node cfg b .expr k fun _ => .inl rfl).z fun _ =>
      GCost.emit1 (n := 1)).wk (by simp [Node.size]) (by simp [Node.size]; omega))
  | .range sp a b, m, k, E, hE => by
    unfold genNode
    exact GCost.gexprIn ((GCost.seq (cost_node cfg a .expr k fun _ => .inl rfl).z fun _ => GCost.seq (cost_node cfg b .expr k fun _ => .inl rfl).z fun _ =>
      GCost.emit1 (n := 1)).wk (by simp [Node.size]) (by simp [Node.size]; omega))
  | .index sp a b, m, k, E, hE => by
    unfold genNode
    exact GCost.gexprIn ((GCost.seq (cost_node cfg b .expr k fun _ => .inl rfl).z fun _ => GCost.seq (cost_node cfg a .expr k fun _ => .inl rfl).z fun _ =>
      GCost.emit1 (n := 1)).wk (by simp [Node.size]; omega) (by simp [Node.size]; omega))
  | .array sp items, m, k, E, hE => by
    unfold genNode
    exact GCost.gexprIn (GCost.ite (fun _ => GCost.throw) fun _ => (GCost.seq (cost_rev cfg items k) fun _ => GCost.emit1 (n := 2) (by simp [Instr.enc, u8b])).wk
      (by simp [Node.size]) (by simp [Node.size]; omega))
  | .block sp body, m, k, E, hE => by
    unfold genNode
    exact GCost.gexprIn ((GCost.inScope (cost_stmts cfg body (k + 1) fun _ => by omega)).wk (by simp [Node.size]) (by simp [Node.size]; omega))
  | .call sp f args, m, k, E, hE => by
    unfold genNode
    exact GCost.gexprIn (GCost.ite (fun _ => GCost.throw) fun _ => (GCost.seq (cost_node cfg f .expr k fun _ => .inl rfl).z fun _ => GCost.seq (cost_args cfg args k) fun _ =>
      GCost.emit1 (n := 2) (by simp [Instr.enc, u8b])).wk (by simp [Node.size]) (by simp [Node.size]; omega))
  | .builtin sp x args, m, k, E, hE => by
    unfold genNode
    exact GCost.gexprIn (GCost.ite (fun _ => GCost.throw) fun _ => (GCost.seq (cost_args cfg args k) fun _ => GCost.seq (GCost.addGlobal x.1) fun i => GCost.emit.mono (w' := 4) (d := 0) (Nat.le_refl _)
      (by simp [Code.len_cons, Instr.enc, u16le, u8b]) (fun _ => Nat.le_refl _)).wk (by simp [Node.size]) (by simp [Node.size]; omega))
  | .ctx sp x args v body, m, k, E, hE => by
    unfold genNode
    exact GCost.gexprIn (GCost.ite (fun _ => GCost.throw) fun _ => (GCost.seq (cost_args cfg args k) fun _ => GCost.seq (GCost.addGlobal x.1) fun i =>
      GCost.seq (GCost.emit.mono (w' := 4) (d := 0) (Nat.le_refl _) (by simp [Code.len_cons, Instr.enc, u16le, u8b]) (fun _ => Nat.le_refl _)) fun _ =>
      GCost.seq GCost.enterScope fun _ => GCost.seq (GCost.ctxVar sp x.2 v) fun _ => GCost.seq (cost_stmts cfg body (k + 1) fun _ => by omega) fun _ =>
      GCost.seq (GCost.exitScope sp) fun _ => GCost.emit1 (n := 1)).wk (by simp only [Node.size]; omega) (by simp only [Node.size]; omega))
  | .cond sp c th el, m, k, E, hE => by
    unfold genNode
    refine GCost.gexprIn ((GCost.seq (GCost.emit1 (n := 1)) fun _ => GCost.seq (cost_node cfg c .expr k fun _ => .inl rfl).z fun _ =>
      GCost.bind (w' := 8 * sizeO el + 15) (s' := sizeO el + 0) (v' := fun _ => 0) (GCost.sub (GCost.inScope (cost_stmts cfg th (k + 1) fun _ => by omega))) fun a => GCost.ite (fun _ => GCost.throw) fun _ =>
      (GCost.bind (w' := a.len + 12) (s' := 0) (v' := fun _ => 0) (GCost.sub (cost_else cfg sp el k)) fun b => GCost.ite (fun _ => GCost.throw) fun _ => GCost.emit.wk (Nat.le_refl _) ?_).wk (Nat.le_refl _) ?_).wk ?_ ?_)
    · simp only [Code.len_append, Code.len_cons, Code.len_nil, Instr.enc, u16le, List.length_cons, List.length_nil]; omega
    · omega
    · simp only [Node.size]; omega
    · simp only [Node.size]; omega
  | .switch sp v cs d, m, k, E, hE => by
    unfold genNode
    refine GCost.gexprIn ((GCost.seq (GCost.emit1 (n := 1)) fun _ => GCost.seq (cost_node cfg v .expr k fun _ => .inl rfl).z fun _ =>
      GCost.bind (w' := 8 * sizeO d + 3) (s' := sizeO d + 0) (v' := fun _ => 0) (cost_cases cfg cs k) fun ps =>
      (GCost.bind (w' := (ps.map fun p => p.1.len + 3).sum) (s' := 0) (v' := fun _ => 0) (GCost.sub (cost_else cfg sp d k)) fun b => GCost.ite (fun _ => GCost.throw) fun _ => GCost.emit.wk (Nat.le_refl _) ?_).wk (Nat.le_refl _) ?_).wk ?_ ?_)
    · rw [assemble_len]; omega
    · omega
    · simp only [Node.size]; omega
    · simp only [Node.size]; omega
  | .while sp c body, m, k, E, hE => by
    unfold genNode
    refine GCost.gexprIn ((GCost.seq (GCost.emit1 (n := 1)) fun _ => GCost.bind (w' := 8 * sizeL body + 10) (s' := sizeL body + 0) (v' := fun _ => 0) (GCost.sub (cost_node cfg c .expr k fun _ => .inl rfl).z) fun cc =>
      (GCost.bind (w' := cc.len + 10) (s' := 0) (v' := fun _ => 0) (GCost.sub (GCost.inScope (cost_stmts cfg body (k + 1) fun _ => by omega))) fun b => GCost.ite (fun _ => GCost.throw) fun _ => GCost.emit.wk (Nat.le_refl _) ?_).wk (Nat.le_refl _) ?_).wk ?_ ?_)
    · simp only [Code.len_append, Code.len_cons, Code.len_nil, Instr.enc, u16le, List.length_cons, List.length_nil]; omega
    · omega
    · simp only [Node.size]; omega
    · simp only [Node.size]; omega
  | .forIn sp (x, xsp) it body, m, k, E, hE => by
    unfold genNode
    refine GCost.gexprIn ((GCost.seq GCost.enterScope fun _ => GCost.seq GCost.reserveTemp fun _ => GCost.seq GCost.reserveTemp fun _ => GCost.seq (GCost.emit1 (n := 1)) fun _ =>
      GCost.seq (cost_node cfg it .expr (k + 1) fun _ => .inl rfl).z fun _ => GCost.seq GCost.enterScope fun _ => GCost.seq (GCost.emit1 (n := 1)) fun _ =>
      GCost.bind (w' := 6) (s' := 0) (v' := fun _ => 0) (GCost.sub (GCost.seq (GCost.emit1 (n := 1)) fun _ => GCost.seq (GCost.defineLocals [x]) fun _ => GCost.seq (cost_stmts cfg body (k + 2) fun _ => by omega) fun _ => GCost.exitScope (k := k + 1) sp)) fun b =>
      GCost.ite (fun _ => GCost.throw) fun _ => (GCost.seq (GCost.emit.wk (w' := b.len + 6) (Nat.le_refl _) ?_) fun _ => GCost.exitScope sp).wk (Nat.le_refl _) (Nat.le_refl _)).wk ?_ ?_)
    · simp only [Code.len_append, Code.len_cons, Code.len_nil, Instr.enc, u16le, List.length_cons, List.length_nil]; omega
    · simp only [Node.size]; omega
    · simp only [Node.size, List.length_cons, List.length_nil]; omega
  | .forMulti sp xs it body, m, k, E, hE => by
    unfold genNode
    refine GCost.gexprIn (GCost.mono (d := 10) (v := fun _ => 0) (GCost.seq (w' := 22 + 4 * xs.length + 8 * (it.size + sizeL body)) (s' := it.size + sizeL body) GCost.enterScope fun _ => GCost.ite (fun _ => GCost.throw) fun hl =>
      (GCost.seq GCost.reserveTemp fun _ => GCost.seq GCost.reserveTemp fun _ => GCost.seq (GCost.emit1 (n := 1)) fun _ =>
      GCost.seq (cost_node cfg it .expr (k + 1) fun _ => .inl rfl).z fun _ => GCost.seq GCost.enterScope fun _ => GCost.seq (GCost.emit1 (n := 1)) fun _ =>
      GCost.bind (w' := 6) (s' := 0) (v' := fun _ => 0) (GCost.sub (GCost.seq (GCost.emit1 (n := 1)) fun _ => GCost.seq (GCost.emit1 (n := 2) (by simp [Instr.enc, u8b])) fun _ => GCost.seq (GCost.defineLocals (xs.map Prod.fst).reverse) fun _ => GCost.seq (cost_stmts cfg body (k + 2) fun _ => by omega) fun _ => GCost.exitScope (k := k + 1) sp)) fun b =>
      GCost.ite (fun _ => GCost.throw) fun _ => (GCost.seq (GCost.emit.wk (w' := b.len + 6) (Nat.le_refl _) ?_) fun _ => GCost.exitScope sp).wk (Nat.le_refl _) (Nat.le_refl _)).wk ?_ ?_) ?_ ?_ (fun _ => by omega))
    · simp only [Code.len_append, Code.len_cons, Code.len_nil, Instr.enc, u16le, List.length_cons, List.length_nil]; omega
    · omega
    · simp only [List.length_reverse, List.length_map]; omega
    · simp only [Node.size]; omega
    · simp only [Node.size]; omega
  | .lambda sp ps body, m, k, E, hE => by
    unfold genNode
    exact GCost.gexprIn (GCost.ite (fun _ => GCost.throw) fun _ => (GCost.func (cost_stmts cfg body (k + 1) fun _ => by omega)).wk (by simp only [Node.size]; omega) (by simp only [Node.size]; omega))
  | .func sp name ps body, m, k, E, hE => by
    unfold genNode
    refine GCost.gstmtIn fun _ => GCost.ite (fun _ => GCost.throw) fun _ => (GCost.seq (w' := 7) (s' := 4) (GCost.func (cost_stmts cfg body (k + 1) fun _ => by omega)) fun _ => (GCost.seq (w' := 7) (s' := 4) GCost.isGlobal fun b =>
      GCost.ite (fun _ => (GCost.defineGlobal name.1 sp).wk (by omega) (by omega)) fun _ => (GCost.seq (GCost.defineLocals [name.1]) fun _ => GCost.setVariable name.1 sp).wk (by omega) (by simp)).wk (by omega) (by omega)).wk ?_ ?_
    · simp only [Node.size]; omega
    · simp only [Node.size]; omega
  | .decl sp v e, m, k, E, hE => by
    unfold genNode
    refine GCost.gstmtIn fun _ => (GCost.seq (cost_node cfg e .expr k fun _ => .inl rfl).z fun _ => GCost.declVar sp v).wk ?_ ?_
    · simp only [Node.size]; omega
    · simp only [Node.size]; omega
  | .extern sp (x, xsp) e, m, k, E, hE => by
    unfold genNode
    refine GCost.gstmtIn fun hm => (GCost.seq (cost_node cfg e .expr k fun _ => .inl rfl).z fun _ => GCost.externTail x xsp fun h => ?_).wk ?_ ?_
    · rcases hE h with h | h | h
      · exact absurd h hm
      · exact h
      · simp [Node.noExterns] at h
    · simp only [Node.size]; omega
    · simp only [Node.size]; omega
  | .include sp (x, xsp) body, m, k, E, hE => by
    unfold genNode
    refine GCost.gstmtIn fun hm => (GCost.seq (w' := 8 * sizeO body) (s' := sizeO body) GCost.getG fun g => GCost.ite (fun _ => GCost.throw) fun _ => cost_incl cfg x xsp body k fun h => ?_).wk ?_ ?_
    · rcases hE h with h | h | h
      · exact absurd h hm
      · exact h
      · simp [Node.noExterns] at h
    · simp only [Node.size]; omega
    · simp only [Node.size]; omega
  | .ret sp e, m, k, E, hE => by
    unfold genNode
    refine GCost.gstmtIn fun hm => (GCost.seq (w' := 8 * sizeE e + 2) (s' := sizeE e) GCost.getG fun g => GCost.ite (fun _ => GCost.throw) fun _ => (GCost.seq (cost_opt cfg sp e k) fun _ => GCost.emit1 (i := .ret) (n := 1)).wk ?_ ?_).wk ?_ ?_
    · omega
    · omega
    · simp only [Node.size]; omega
    · simp only [Node.size]; omega
termination_by structural n => n
theorem cost_stmts (cfg : Cfg) : ∀ (ns : List Node) (k : Nat) {E : Prop}, (E → 0 < k) → GCost k k (genStmts cfg false ns) (fun _ => 0) (8 * sizeL ns) (sizeL ns) E
  | [], k, E, hE => by unfold genStmts; exact GCost.pure
  | [n], k, E, hE => by
    unfold genStmts
    exact (GCost.seq (cost_node cfg n _ k fun e => .inr (.inl (hE e))).z fun _ => GCost.pure (n := 0)).wk (by simp [sizeL]) (by simp [sizeL])
  | n :: n' :: ns, k, E, hE => by
    unfold genStmts
    exact (GCost.seq (cost_node cfg n _ k fun e => .inr (.inl (hE e))).z fun _ => cost_stmts cfg (n' :: ns) k hE).wk (by simp [sizeL]) (by simp [sizeL]; omega)
termination_by structural n => n
theorem cost_each (cfg : Cfg) : ∀ (ns : List Node) (k : Nat) {E : Prop}, (E → 0 < k) → GCost k k (genEach cfg false ns) (fun _ => 0) (8 * sizeL ns) (sizeL ns) E
  | [], k, E, hE => by unfold genEach; exact GCost.pure
  | n :: ns, k, E, hE => by
    unfold genEach
    exact (GCost.seq (cost_node cfg n _ k fun e => .inr (.inl (hE e))).z fun _ => cost_each cfg ns k hE).wk (by simp [sizeL]) (by simp [sizeL]; omega)
termination_by structural n => n
theorem cost_args (cfg : Cfg) : ∀ (ns : List Node) (k : Nat) {E : Prop}, GCost k k (genArgs cfg false ns) (fun _ => 0) (8 * sizeL ns) (sizeL ns) E
  | [], k, E => by unfold genArgs; exact GCost.pure
  | n :: ns, k, E => by
    unfold genArgs
    exact (GCost.seq (cost_node cfg n .expr k fun _ => .inl rfl).z fun _ => cost_args cfg ns k).wk (by simp [sizeL]) (by simp [sizeL]; omega)
termination_by structural n => n
theorem cost_rev (cfg : Cfg) : ∀ (ns : List Node) (k : Nat) {E : Prop}, GCost k k (genRev cfg false ns) (fun _ => 0) (8 * sizeL ns) (sizeL ns) E
  | [], k, E => by unfold genRev; exact GCost.pure
  | n :: ns, k, E => by
    unfold genRev
    exact (GCost.seq (cost_rev cfg ns k) fun _ => (cost_node cfg n .expr k fun _ => .inl rfl).z).wk (by simp [sizeL]; omega) (by simp [sizeL]; omega)
termination_by structural n => n
theorem cost_cases (cfg : Cfg) : ∀ (cs : List (Node × List Node)) (k : Nat) {E : Prop}, GCost k k (genCases cfg false cs) (fun ps => (ps.map fun p => p.1.len + 3).sum) (8 * sizeC cs) (sizeC cs) E
  | [], k, E => by unfold genCases; exact GCost.ret (by simp)
  | (c, body) :: cs, k, E => by
    unfold genCases
    refine GCost.mono (d := 0) (v := fun ps => (ps.map fun p => p.1.len + 3).sum) (GCost.bind (w' := 8 * (sizeL body + sizeC cs)) (s' := sizeL body + sizeC cs) (GCost.sub (cost_node cfg c .expr k fun _ => .inl rfl)) fun cc =>
      GCost.mono (d := 0) (v := fun ps => (ps.map fun p => p.1.len + 3).sum) (GCost.bind (w' := cc.len + 9 + 8 * sizeC cs) (s' := sizeC cs) (GCost.sub (n := 0) (GCost.inScope (cost_stmts cfg body (k + 1) fun _ => by omega))) fun b =>
        GCost.ite (fun _ => GCost.throw) fun _ => GCost.mono (d := 0) (v := fun ps => (ps.map fun p => p.1.len + 3).sum) (GCost.bind (w' := cc.len + b.len + 9) (s' := 0) (cost_cases cfg cs k) fun ps => GCost.ret ?_) ?_ ?_ fun _ => Nat.le_refl _) ?_ ?_ fun _ => Nat.le_refl _) ?_ ?_ fun _ => Nat.le_refl _
    · simp only [List.map_cons, List.sum_cons, Code.len_append, Code.len_cons, Code.len_nil, Instr.enc, u16le, List.length_cons, List.length_nil]; omega
    · omega
    · omega
    · omega
    · omega
    · simp only [sizeC]; omega
    · simp only [sizeC]; omega
termination_by structural n => n
theorem cost_else (cfg : Cfg) (sp : Span) : ∀ (b : Option (List Node)) (k : Nat) {E : Prop}, GCost k k (genElse cfg false sp b) (fun _ => 0) (8 * sizeO b + 3) (sizeO b) E
  | some body, k, E => by
    unfold genElse
    exact (GCost.seq (GCost.emit1 (n := 3)) fun _ => GCost.inScope (cost_stmts cfg body (k + 1) fun _ => by omega)).wk (by simp [sizeO]) (by simp [sizeO]; omega)
  | none, k, E => by unfold genElse; exact (GCost.emit1 (n := 1)).wk (by omega) (by omega)
termination_by structural n => n
theorem cost_opt (cfg : Cfg) (sp : Span) : ∀ (e : Option Node) (k : Nat) {E : Prop}, GCost k k (genOpt cfg false sp e) (fun _ => 0) (8 * sizeE e + 1) (sizeE e) E
  | some e, k, E => by unfold genOpt; exact (cost_node cfg e .expr k fun _ => .inl rfl).z.wk (by simp [sizeE]) (by simp [sizeE])
  | none, k, E => by unfold genOpt; exact (GCost.emit1 (n := 1)).wk (by omega) (by omega)
termination_by structural n => n
theorem cost_incl (cfg : Cfg) (x : String) (xsp : Span) : ∀ (b : Option (List Node)) (k : Nat) {E : Prop}, (E → 0 < k) → GCost k k (genIncl cfg false x xsp b) (fun _ => 0) (8 * sizeO b) (sizeO b) E
  | some b, k, E, hE => by unfold genIncl; exact (cost_each cfg b k hE).wk (by simp [sizeO]) (by simp [sizeO])
  | none, k, E, hE => by unfold genIncl; exact GCost.throw
termination_by structural n => n
end

end Quilt
