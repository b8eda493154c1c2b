import Verif.Sem.Source
import Verif.Sem.Rel
import Verif.Sem.Wf

/-!
# Correspondence between source states and machine states

`γ` maps cells (captured variables) to locations of the source store, `slots` maps stack positions
holding variables to locations. Stack positions outside `slots` hold temporaries.
-/

namespace Quilt

/-- The part of a machine state that holds data. -/
structure Mem (D : Type) where
  data : D
  exitFns : List (ExitFn D)
  globals : Nat → Option VVal
  openUps : List Nat
  heap : Nat → Cell
  hp : Nat
  stack : Nat → VVal
  sp : Nat

def VM.mem {D : Type} (s : VM D) : Mem D :=
  ⟨s.data, s.exitFns, s.globals, s.openUps, s.heap, s.hp, s.stack, s.sp⟩

/-- Partial maps to store locations. -/
abbrev LocMap := Nat → Option Nat

def LocMap.le (a b : LocMap) : Prop := ∀ i l, a i = some l → b i = some l

theorem LocMap.le_refl (a : LocMap) : a.le a := fun _ _ h => h
theorem LocMap.le_trans {a b c : LocMap} (h : a.le b) (h' : b.le c) : a.le c := fun i l hi => h' i l (h i l hi)

/-- Names visible in a level, innermost first. -/
def GLevel.names (l : GLevel) : List String := ((l.locals.map (·.name)).reverse).filter nameOk

def enclNames : List GLevel → List String
  | [] => []
  | l :: ls => l.names ++ enclNames ls

/-- Local names visible at a point of code generation. -/
def GState.names (g : GState) : List String := g.cur.names ++ enclNames g.encl

/-- A machine closure implements a source closure: its code is generated from the body, and its
cells are the captured variables. -/
def CRel (cfg : Cfg) (syms : List String) (γ : LocMap) (sc : SClos) (vc : VClos) : Prop :=
  ∃ g s code g1,
    genStmts cfg true sc.body (g.enterFn sc.name sc.params) = .ok (s, code, g1) ∧
    vc.fn = GM.mkFunc (sc.name, sc.nameSpan) sc.params.length g1.cur code ∧
    GM.fnFits g1.cur code = true ∧ GInv g ∧ UpsFree g ∧
    sc.env.map Prod.fst = g.names ∧ g1.globals.entries <+: syms ∧
    wfStmts true sc.body = true ∧ nameOk sc.name = true ∧ (sc.params.all nameOk) = true ∧
    vc.ups.length = g1.cur.upvalues.length ∧
    ∀ (j : Nat) (u : Upv), g1.cur.upvalues[j]? = some u →
      ∃ c loc, vc.ups[j]? = some c ∧ γ c = some loc ∧ lookup u.name sc.env = some loc

theorem CRel.mono {cfg : Cfg} {syms : List String} {γ γ' : LocMap} (h : γ.le γ') {sc : SClos} {vc : VClos}
    (hc : CRel cfg syms γ sc vc) : CRel cfg syms γ' sc vc := by
  obtain ⟨g, s, code, g1, h1, h2, h3, h4, h5, h6, h7, h8, h9, h10, h11, h12⟩ := hc
  refine ⟨g, s, code, g1, h1, h2, h3, h4, h5, h6, h7, h8, h9, h10, h11, fun j u hu => ?_⟩
  obtain ⟨c, loc, a, b, d⟩ := h12 j u hu
  exact ⟨c, loc, a, h c loc b, d⟩

theorem CRel.name {cfg : Cfg} {syms : List String} {γ : LocMap} (sc : SClos) (vc : VClos) (hc : CRel cfg syms γ sc vc) : sc.name = vc.fn.name := by
  obtain ⟨g, s, code, g1, h1, h2, -⟩ := hc
  rw [h2]; rfl

/-- Related values. -/
abbrev VRel (cfg : Cfg) (syms : List String) (γ : LocMap) : SVal → VVal → Prop := Val.Rel (CRel cfg syms γ)

theorem VRel.mono {cfg : Cfg} {syms : List String} {γ γ' : LocMap} (h : γ.le γ') {a : SVal} {b : VVal}
    (hv : VRel cfg syms γ a b) : VRel cfg syms γ' a b := Val.Rel.mono (fun _ _ => CRel.mono h) hv

/-- What a cell says about its location. -/
def CellOk (cfg : Cfg) (syms : List String) (γ slots : LocMap) (openUps : List Nat) (v : SVal) (c loc : Nat) : Cell → Prop
  | .opened l => slots l = some loc ∧ c ∈ openUps
  | .closed w => VRel cfg syms γ v w ∧ ∀ l, slots l ≠ some loc

/-- Corresponding states. -/
structure Ok {D : Type} (cfg : Cfg) (syms : List String) (γ slots : LocMap) (σ : SSt D) (m : Mem D) : Prop where
  data : m.data = σ.data
  exits : m.exitFns = σ.exits
  globals : ∀ (i : Nat) x, syms[i]? = some x → Val.RelO (CRel cfg syms γ) (σ.globals x) (m.globals i)
  slot : ∀ l loc, slots l = some loc → l < m.sp ∧ loc < σ.next ∧ VRel cfg syms γ (σ.store loc) (m.stack l)
  cell : ∀ c loc, γ c = some loc → c < m.hp ∧ loc < σ.next ∧ CellOk cfg syms γ slots m.openUps (σ.store loc) c loc (m.heap c)
  opened : ∀ c ∈ m.openUps, ∃ loc l, γ c = some loc ∧ m.heap c = .opened l
  slotInj : ∀ l l' loc, slots l = some loc → slots l' = some loc → l = l'
  cellInj : ∀ c c' loc, γ c = some loc → γ c' = some loc → c = c'
  out : ∀ i, syms.length ≤ i → m.globals i = none

/-- Some cell is open at stack position `l`. -/
def OpenAt {D : Type} (m : Mem D) (l : Nat) : Prop := ∃ c ∈ m.openUps, m.heap c = .opened l

/-- Open cells are at the allowed positions only. -/
def OpenK {D : Type} (K : Nat → Prop) (m : Mem D) : Prop := ∀ l, OpenAt m l → K l

theorem nodup_get {α : Type} {l : List α} (h : l.Nodup) {i j : Nat} {x : α} (hi : l[i]? = some x) (hj : l[j]? = some x) :
    i = j := by
  obtain ⟨h1, h2⟩ := List.getElem?_eq_some_iff.1 hi
  obtain ⟨h3, h4⟩ := List.getElem?_eq_some_iff.1 hj
  have hp := List.pairwise_iff_getElem.1 h
  rcases Nat.lt_trichotomy i j with hlt | heq | hlt
  · exact absurd (h2.trans h4.symm) (hp i j h1 h3 hlt)
  · exact heq
  · exact absurd (h4.trans h2.symm) (hp j i h3 h1 hlt)

theorem upd_none_le (f : LocMap) {i l : Nat} (h : f i = none) : LocMap.le f (upd f i (some l)) := by
  intro j k hj
  by_cases hij : j = i
  · subst hij; rw [h] at hj; cases hj
  · rw [upd_other _ _ hij]; exact hj

namespace Ok
variable {D : Type} {cfg : Cfg} {syms : List String} {γ slots : LocMap} {σ : SSt D} {m : Mem D}

/-- Temporaries may change. -/
theorem setStack (h : Ok cfg syms γ slots σ m) {m' : Mem D} (h1 : m'.data = m.data) (h2 : m'.exitFns = m.exitFns)
    (h3 : m'.globals = m.globals) (h4 : m'.openUps = m.openUps) (h5 : m'.heap = m.heap) (h6 : m'.hp = m.hp)
    (h7 : ∀ l loc, slots l = some loc → l < m'.sp ∧ m'.stack l = m.stack l) : Ok cfg syms γ slots σ m' := by
  refine ⟨h1.trans h.data, h2.trans h.exits, by rw [h3]; exact h.globals, ?_, by rw [h4, h5, h6]; exact h.cell,
    by rw [h4, h5]; exact h.opened, h.slotInj, h.cellInj, by rw [h3]; exact h.out⟩
  intro l loc hl
  obtain ⟨a, b, c⟩ := h.slot l loc hl
  obtain ⟨d, e⟩ := h7 l loc hl
  exact ⟨d, b, by rw [e]; exact c⟩

/-- Assigning a variable on the stack. -/
theorem storeSlot (h : Ok cfg syms γ slots σ m) {l loc : Nat} (hl : slots l = some loc) {v : SVal} {w : VVal}
    (hv : VRel cfg syms γ v w) :
    Ok cfg syms γ slots { σ with store := upd σ.store loc v } { m with stack := upd m.stack l w } := by
  refine ⟨h.data, h.exits, h.globals, ?_, ?_, h.opened, h.slotInj, h.cellInj, h.out⟩
  · intro l' loc' hl'
    obtain ⟨a, b, c⟩ := h.slot l' loc' hl'
    refine ⟨a, b, ?_⟩
    by_cases he : l' = l
    · subst he; rw [hl] at hl'; cases hl'; simpa using hv
    · have : loc' ≠ loc := by rintro rfl; exact he (h.slotInj _ _ _ hl' hl)
      simp only [upd_other _ _ he, upd_other _ _ this]; exact c
  · intro c loc' hc
    obtain ⟨a, b, d⟩ := h.cell c loc' hc
    refine ⟨a, b, ?_⟩
    show CellOk cfg syms γ slots m.openUps (upd σ.store loc v loc') c loc' (m.heap c)
    cases hh : m.heap c with
    | opened l' => rw [hh] at d; exact d
    | closed w' =>
      rw [hh] at d
      have : loc' ≠ loc := by rintro rfl; exact d.2 l hl
      rw [upd_other _ _ this]; exact d

/-- Assigning a closed variable. -/
theorem storeClosed (h : Ok cfg syms γ slots σ m) {c loc : Nat} (hc : γ c = some loc) {w0 : VVal}
    (hh : m.heap c = .closed w0) {v : SVal} {w : VVal} (hv : VRel cfg syms γ v w) :
    Ok cfg syms γ slots { σ with store := upd σ.store loc v } { m with heap := upd m.heap c (.closed w) } := by
  have hno : ∀ l, slots l ≠ some loc := by
    have := (h.cell c loc hc).2.2; rw [hh] at this; exact this.2
  refine ⟨h.data, h.exits, h.globals, ?_, ?_, ?_, h.slotInj, h.cellInj, h.out⟩
  · intro l' loc' hl'
    obtain ⟨a, b, d⟩ := h.slot l' loc' hl'
    refine ⟨a, b, ?_⟩
    have : loc' ≠ loc := by rintro rfl; exact hno _ hl'
    simp only [upd_other _ _ this]; exact d
  · intro c' loc' hc'
    obtain ⟨a, b, d⟩ := h.cell c' loc' hc'
    refine ⟨a, b, ?_⟩
    by_cases he : c' = c
    · subst he; rw [hc] at hc'; cases hc'
      simp only [upd_same]; exact ⟨hv, hno⟩
    · have : loc' ≠ loc := by rintro rfl; exact he (h.cellInj _ _ _ hc' hc)
      simp only [upd_other _ _ this, upd_other _ _ he]; exact d
  · intro c' hc'
    obtain ⟨loc', l, a, b⟩ := h.opened c' hc'
    refine ⟨loc', l, a, ?_⟩
    have : c' ≠ c := by rintro rfl; rw [hh] at b; cases b
    simp only [upd_other _ _ this]; exact b

/-- A new variable in a temporary's place. -/
theorem alloc (h : Ok cfg syms γ slots σ m) {l : Nat} (hl : slots l = none) (hs : l < m.sp) {v : SVal}
    (hv : VRel cfg syms γ v (m.stack l)) :
    Ok cfg syms γ (upd slots l (some σ.next)) { σ with store := upd σ.store σ.next v, next := σ.next + 1 } m := by
  have hfresh : ∀ l', slots l' ≠ some σ.next := fun l' hl' => by
    have := (h.slot l' _ hl').2.1; omega
  refine ⟨h.data, h.exits, h.globals, ?_, ?_, h.opened, ?_, h.cellInj, h.out⟩
  · intro l' loc' hl'
    by_cases he : l' = l
    · subst he; simp at hl'; subst hl'
      exact ⟨hs, Nat.lt_succ_self _, by simpa using hv⟩
    · rw [upd_other _ _ he] at hl'
      obtain ⟨a, b, c⟩ := h.slot l' loc' hl'
      refine ⟨a, Nat.lt_succ_of_lt b, ?_⟩
      have : loc' ≠ σ.next := by omega
      simp only [upd_other _ _ this]; exact c
  · intro c loc' hc
    obtain ⟨a, b, d⟩ := h.cell c loc' hc
    refine ⟨a, Nat.lt_succ_of_lt b, ?_⟩
    have hne : loc' ≠ σ.next := by omega
    show CellOk cfg syms γ _ m.openUps (upd σ.store σ.next v loc') c loc' (m.heap c)
    rw [upd_other _ _ hne]
    cases hh : m.heap c with
    | opened l' =>
      rw [hh] at d
      refine ⟨?_, d.2⟩
      have : l' ≠ l := by rintro rfl; have := d.1; rw [hl] at this; cases this
      rw [upd_other _ _ this]; exact d.1
    | closed w' =>
      rw [hh] at d
      refine ⟨d.1, fun l' hl' => ?_⟩
      by_cases he : l' = l
      · subst he; simp at hl'; exact hne hl'.symm
      · rw [upd_other _ _ he] at hl'; exact d.2 l' hl'
  · intro l1 l2 loc' h1 h2
    by_cases he1 : l1 = l
    · by_cases he2 : l2 = l
      · rw [he1, he2]
      · subst he1; simp at h1; subst h1
        rw [upd_other _ _ he2] at h2; exact absurd h2 (hfresh _)
    · rw [upd_other _ _ he1] at h1
      by_cases he2 : l2 = l
      · subst he2; simp at h2; subst h2; exact absurd h1 (hfresh _)
      · rw [upd_other _ _ he2] at h2; exact h.slotInj _ _ _ h1 h2

/-- Forgetting a variable on the stack that no cell refers to. -/
theorem drop (h : Ok cfg syms γ slots σ m) {l : Nat} (ho : ¬ OpenAt m l) : Ok cfg syms γ (upd slots l none) σ m := by
  have hle : ∀ l' loc, upd slots l none l' = some loc → l' ≠ l ∧ slots l' = some loc := by
    intro l' loc hl'
    by_cases he : l' = l
    · subst he; simp at hl'
    · rw [upd_other _ _ he] at hl'; exact ⟨he, hl'⟩
  refine ⟨h.data, h.exits, h.globals, fun l' loc hl' => h.slot l' loc (hle _ _ hl').2, ?_, h.opened,
    fun l1 l2 loc h1 h2 => h.slotInj _ _ _ (hle _ _ h1).2 (hle _ _ h2).2, h.cellInj, h.out⟩
  intro c loc hc
  obtain ⟨a, b, d⟩ := h.cell c loc hc
  refine ⟨a, b, ?_⟩
  cases hh : m.heap c with
  | opened l' =>
    rw [hh] at d
    refine ⟨?_, d.2⟩
    have : l' ≠ l := by rintro rfl; exact ho ⟨c, d.2, hh⟩
    rw [upd_other _ _ this]; exact d.1
  | closed w => rw [hh] at d; exact ⟨d.1, fun l' hl' => d.2 l' (hle _ _ hl').2⟩

/-- Defining a global. -/
theorem setGlobal (h : Ok cfg syms γ slots σ m) (hn : syms.Nodup) {i : Nat} {x : String} (hx : syms[i]? = some x)
    {v : SVal} {w : VVal} (hv : VRel cfg syms γ v w) :
    Ok cfg syms γ slots { σ with globals := fun y => if y = x then some v else σ.globals y }
      { m with globals := upd m.globals i (some w) } := by
  refine ⟨h.data, h.exits, ?_, h.slot, h.cell, h.opened, h.slotInj, h.cellInj, fun i' hi' => ?_⟩
  rotate_left
  · have : i < syms.length := (List.getElem?_eq_some_iff.1 hx).1
    have : i' ≠ i := by omega
    simp only [upd_other _ _ this]
    exact h.out i' hi'
  intro i' x' hx'
  by_cases he : i' = i
  · subst he; rw [hx] at hx'; cases hx'; simp [Val.RelO]; exact hv
  · have : x' ≠ x := by
      rintro rfl
      exact he (nodup_get hn hx' hx)
    simp only [this, if_false, upd_other _ _ he]
    exact h.globals i' x' hx'

theorem setData (h : Ok cfg syms γ slots σ m) (d : D) : Ok cfg syms γ slots { σ with data := d } { m with data := d } :=
  ⟨rfl, h.exits, h.globals, h.slot, h.cell, h.opened, h.slotInj, h.cellInj, h.out⟩

theorem setExits (h : Ok cfg syms γ slots σ m) (e : List (ExitFn D)) :
    Ok cfg syms γ slots { σ with exits := e } { m with exitFns := e } :=
  ⟨h.data, rfl, h.globals, h.slot, h.cell, h.opened, h.slotInj, h.cellInj, h.out⟩

end Ok

section Cells
variable {D : Type} {cfg : Cfg} {syms : List String} {γ slots : LocMap} {σ : SSt D} {H : Host D} {s : VM D}

theorem closeUp_heap (H : Host D) (s : VM D) (hH : H.opts.stackSize = none) (l c : Nat) :
    (s.closeUp H l).heap c =
      if c ∈ s.openUps then
        match s.heap c with
        | .opened l' => if l' = l then Cell.closed (s.stack l) else s.heap c
        | x => x
      else s.heap c := by
  simp only [VM.closeUp, hH, reached, Bool.false_eq_true, if_false]
  rfl

theorem closeUp_openUps (H : Host D) (s : VM D) (hH : H.opts.stackSize = none) (l : Nat) :
    (s.closeUp H l).openUps = s.openUps.filter fun c => match (s.closeUp H l).heap c with | .opened _ => true | _ => false := by
  simp only [VM.closeUp, hH, reached, Bool.false_eq_true, if_false]
  rfl

theorem closeUp_rest (H : Host D) (s : VM D) (l : Nat) :
    (s.closeUp H l).data = s.data ∧ (s.closeUp H l).exitFns = s.exitFns ∧ (s.closeUp H l).globals = s.globals ∧
    (s.closeUp H l).hp = s.hp ∧ (s.closeUp H l).stack = s.stack ∧ (s.closeUp H l).sp = s.sp ∧
    (s.closeUp H l).frame = s.frame ∧ (s.closeUp H l).frames = s.frames ∧
    (s.closeUp H l).blockResults = s.blockResults := by
  unfold VM.closeUp
  split <;> simp

theorem openAt_closeUp (hH : H.opts.stackSize = none) {l l' : Nat} (h : OpenAt (s.closeUp H l).mem l') :
    OpenAt s.mem l' ∧ l' ≠ l := by
  obtain ⟨c, hc, hh⟩ := h
  have hh' : (s.closeUp H l).heap c = .opened l' := hh
  have hc' : c ∈ (s.closeUp H l).openUps := hc
  rw [closeUp_openUps H s hH] at hc'
  have hm : c ∈ s.openUps := (List.mem_filter.1 hc').1
  rw [closeUp_heap H s hH, if_pos hm] at hh'
  cases h0 : s.heap c with
  | closed w => rw [h0] at hh'; cases hh'
  | opened l0 =>
    rw [h0] at hh'
    by_cases he : l0 = l
    · simp [he] at hh'
    · simp [he] at hh'; subst hh'; exact ⟨⟨c, hm, h0⟩, he⟩

/-- Closing a variable on the stack. -/
theorem Ok.close (h : Ok cfg syms γ slots σ s.mem) (hH : H.opts.stackSize = none) (l : Nat) :
    Ok cfg syms γ (upd slots l none) σ (s.closeUp H l).mem := by
  obtain ⟨r1, r2, r3, r4, r5, r6, _⟩ := closeUp_rest H s l
  have hle : ∀ l' loc, upd slots l none l' = some loc → l' ≠ l ∧ slots l' = some loc := by
    intro l' loc hl'
    by_cases he : l' = l
    · subst he; simp at hl'
    · rw [upd_other _ _ he] at hl'; exact ⟨he, hl'⟩
  refine ⟨r1.trans h.data, r2.trans h.exits, ?_, ?_, ?_, ?_,
    fun l1 l2 loc h1 h2 => h.slotInj _ _ _ (hle _ _ h1).2 (hle _ _ h2).2, h.cellInj, fun i hi => (congrFun r3 i).trans (h.out i hi)⟩
  · intro i x hx
    show Val.RelO _ _ ((s.closeUp H l).globals i)
    rw [r3]; exact h.globals i x hx
  · intro l' loc hl'
    show l' < (s.closeUp H l).sp ∧ _ ∧ VRel cfg syms γ _ ((s.closeUp H l).stack l')
    rw [r5, r6]; exact h.slot l' loc (hle _ _ hl').2
  · intro c loc hc
    obtain ⟨a, b, d⟩ := h.cell c loc hc
    refine ⟨by show c < (s.closeUp H l).hp; rw [r4]; exact a, b, ?_⟩
    show CellOk cfg syms γ (upd slots l none) (s.closeUp H l).openUps _ c loc ((s.closeUp H l).heap c)
    have d' : CellOk cfg syms γ slots s.openUps (σ.store loc) c loc (s.heap c) := d
    cases h0 : s.heap c with
    | closed w =>
      rw [h0] at d'
      have : (s.closeUp H l).heap c = .closed w := by rw [closeUp_heap H s hH, h0]; split <;> rfl
      rw [this]
      exact ⟨d'.1, fun l' hl' => d'.2 l' (hle _ _ hl').2⟩
    | opened l0 =>
      rw [h0] at d'
      obtain ⟨d1, d2⟩ := d'
      by_cases he : l0 = l
      · subst he
        have : (s.closeUp H l0).heap c = .closed (s.stack l0) := by
          rw [closeUp_heap H s hH, if_pos d2, h0]; simp
        rw [this]
        refine ⟨(h.slot l0 loc d1).2.2, fun l' hl' => ?_⟩
        obtain ⟨e1, e2⟩ := hle _ _ hl'
        exact e1 (h.slotInj _ _ _ e2 d1)
      · have : (s.closeUp H l).heap c = .opened l0 := by
          rw [closeUp_heap H s hH, if_pos d2, h0]; simp [he]
        rw [this]
        refine ⟨by rw [upd_other _ _ he]; exact d1, ?_⟩
        rw [closeUp_openUps H s hH, List.mem_filter]
        exact ⟨d2, by rw [this]⟩
  · intro c hc
    have hc' : c ∈ (s.closeUp H l).openUps := hc
    rw [closeUp_openUps H s hH, List.mem_filter] at hc'
    obtain ⟨loc, _, a, _⟩ := h.opened c hc'.1
    cases h0 : (s.closeUp H l).heap c with
    | closed w => rw [h0] at hc'; simp at hc'
    | opened l0 => exact ⟨loc, l0, a, h0⟩

theorem closeRange_rest (H : Host D) (n : Nat) : ∀ (s : VM D) (lo : Nat),
    (s.closeRange H lo n).data = s.data ∧ (s.closeRange H lo n).exitFns = s.exitFns ∧ (s.closeRange H lo n).globals = s.globals ∧
    (s.closeRange H lo n).hp = s.hp ∧ (s.closeRange H lo n).stack = s.stack ∧ (s.closeRange H lo n).sp = s.sp ∧
    (s.closeRange H lo n).frame = s.frame ∧ (s.closeRange H lo n).frames = s.frames ∧
    (s.closeRange H lo n).blockResults = s.blockResults := by
  induction n with
  | zero => intro s lo; simp [VM.closeRange]
  | succ n ih =>
    intro s lo
    obtain ⟨a1, a2, a3, a4, a5, a6, a7, a8, a9⟩ := ih (s.closeUp H lo) (lo + 1)
    obtain ⟨b1, b2, b3, b4, b5, b6, b7, b8, b9⟩ := closeUp_rest H s lo
    simp only [VM.closeRange]
    exact ⟨a1.trans b1, a2.trans b2, a3.trans b3, a4.trans b4, a5.trans b5, a6.trans b6, a7.trans b7, a8.trans b8, a9.trans b9⟩

/-- Closing all variables of a range. -/
theorem Ok.closeRange (hH : H.opts.stackSize = none) (n : Nat) : ∀ {s : VM D} {slots slots' : LocMap} {lo : Nat},
    Ok cfg syms γ slots σ s.mem → (∀ l, slots' l = if lo ≤ l ∧ l < lo + n then none else slots l) →
    Ok cfg syms γ slots' σ (s.closeRange H lo n).mem ∧
    ∀ l, OpenAt (s.closeRange H lo n).mem l → OpenAt s.mem l ∧ ¬ (lo ≤ l ∧ l < lo + n) := by
  induction n with
  | zero =>
    intro s slots slots' lo h hs
    have : slots' = slots := by funext l; rw [hs]; simp; omega
    rw [this]
    exact ⟨h, fun l hl => ⟨hl, by omega⟩⟩
  | succ n ih =>
    intro s slots slots' lo h hs
    obtain ⟨a, b⟩ := ih (s := s.closeUp H lo) (slots' := slots') (lo := lo + 1) (h.close hH lo) (by
      intro l
      rw [hs]
      by_cases he : l = lo
      · subst he; simp
      · rw [upd_other _ _ he]
        by_cases h1 : lo ≤ l ∧ l < lo + (n + 1)
        · rw [if_pos h1, if_pos (by omega)]
        · rw [if_neg h1, if_neg (by omega)])
    refine ⟨a, fun l hl => ?_⟩
    obtain ⟨c, d⟩ := b l hl
    obtain ⟨e, f⟩ := openAt_closeUp hH c
    exact ⟨e, by omega⟩

/-- Capturing a variable on the stack. -/
theorem Ok.capture (h : Ok cfg syms γ slots σ s.mem) {l loc c : Nat} {s' : VM D} (hl : slots l = some loc)
    (hc : s.capture l = (c, s')) :
    ∃ γ', γ.le γ' ∧ γ' c = some loc ∧ Ok cfg syms γ' slots σ s'.mem ∧
      (∀ l', OpenAt s'.mem l' → OpenAt s.mem l' ∨ l' = l) ∧
      s'.stack = s.stack ∧ s'.sp = s.sp ∧ s'.frame = s.frame ∧ s'.frames = s.frames ∧
      s'.blockResults = s.blockResults := by
  unfold VM.capture at hc
  split at hc
  · rename_i c0 hf
    simp only [Prod.mk.injEq] at hc
    obtain ⟨rfl, rfl⟩ := hc
    have hm := List.mem_of_find?_eq_some hf
    have hp := List.find?_some hf
    obtain ⟨loc', l', h1, h2⟩ := h.opened c0 hm
    have h2' : s.heap c0 = .opened l' := h2
    rw [h2'] at hp
    simp at hp; subst hp
    have := (h.cell c0 loc' h1).2.2
    rw [h2] at this
    have h3 := this.1
    rw [hl] at h3; cases h3
    exact ⟨γ, γ.le_refl, h1, h, fun l' h => .inl h, rfl, rfl, rfl, rfl, rfl⟩
  · rename_i hf
    simp only [Prod.mk.injEq] at hc
    obtain ⟨rfl, rfl⟩ := hc
    have hγ : γ s.hp = none := by
      cases hg : γ s.hp with
      | none => rfl
      | some loc' => have := (h.cell _ _ hg).1; exact absurd this (Nat.lt_irrefl _)
    have hle := upd_none_le γ (i := s.hp) (l := loc) hγ
    have hnew : ∀ c', γ c' ≠ some loc := by
      intro c' hc'
      have := (h.cell c' loc hc').2.2
      have this' : CellOk cfg syms γ slots s.openUps (σ.store loc) c' loc (s.heap c') := this
      cases hh : s.heap c' with
      | closed w => rw [hh] at this'; exact this'.2 l hl
      | opened l' =>
        rw [hh] at this'
        have he := h.slotInj _ _ _ this'.1 hl
        subst he
        have := List.find?_eq_none.1 hf c' this'.2
        rw [hh] at this
        simp at this
    refine ⟨upd γ s.hp (some loc), hle, by simp, ?_, ?_, rfl, rfl, rfl, rfl, rfl⟩
    · refine ⟨h.data, h.exits, ?_, ?_, ?_, ?_, h.slotInj, ?_, h.out⟩
      · intro i x hx
        have := h.globals i x hx
        show Val.RelO _ _ (s.globals i)
        have this' : Val.RelO (CRel cfg syms γ) (σ.globals x) (s.globals i) := this
        cases h1 : σ.globals x <;> cases h2 : s.globals i <;> rw [h1, h2] at this' <;> simp only [Val.RelO] at this' ⊢
        exact VRel.mono hle this'
      · intro l' loc' hl'
        obtain ⟨a, b, d⟩ := h.slot l' loc' hl'
        exact ⟨a, b, VRel.mono hle d⟩
      · intro c' loc' hc'
        by_cases he : c' = s.hp
        · subst he
          simp at hc'; subst hc'
          refine ⟨Nat.lt_succ_self _, (h.slot l loc hl).2.1, ?_⟩
          show CellOk cfg syms _ slots (s.openUps ++ [s.hp]) _ _ _ (upd s.heap s.hp (.opened l) s.hp)
          simp only [upd_same]
          exact ⟨hl, by simp⟩
        · rw [upd_other _ _ he] at hc'
          obtain ⟨a, b, d⟩ := h.cell c' loc' hc'
          refine ⟨Nat.lt_succ_of_lt a, b, ?_⟩
          show CellOk cfg syms _ slots (s.openUps ++ [s.hp]) _ _ _ (upd s.heap s.hp (.opened l) c')
          rw [upd_other _ _ he]
          have d' : CellOk cfg syms γ slots s.openUps (σ.store loc') c' loc' (s.heap c') := d
          cases hh : s.heap c' with
          | closed w => rw [hh] at d'; exact ⟨VRel.mono hle d'.1, d'.2⟩
          | opened l' => rw [hh] at d'; exact ⟨d'.1, by simp [d'.2]⟩
      · intro c' hc'
        have hc'' : c' ∈ s.openUps ++ [s.hp] := hc'
        show ∃ loc l', _ ∧ upd s.heap s.hp (.opened l) c' = .opened l'
        by_cases he : c' = s.hp
        · subst he; exact ⟨loc, l, by simp, by simp⟩
        · have : c' ∈ s.openUps := by simpa [he] using hc''
          obtain ⟨loc', l', a, b⟩ := h.opened c' this
          exact ⟨loc', l', hle _ _ a, by rw [upd_other _ _ he]; exact b⟩
      · intro c1 c2 loc' h1 h2
        by_cases he1 : c1 = s.hp
        · by_cases he2 : c2 = s.hp
          · rw [he1, he2]
          · subst he1; simp at h1; subst h1
            rw [upd_other _ _ he2] at h2; exact absurd h2 (hnew _)
        · rw [upd_other _ _ he1] at h1
          by_cases he2 : c2 = s.hp
          · subst he2; simp at h2; subst h2; exact absurd h1 (hnew _)
          · rw [upd_other _ _ he2] at h2; exact h.cellInj _ _ _ h1 h2
    · rintro l' ⟨c', hc', hh⟩
      have hc'' : c' ∈ s.openUps ++ [s.hp] := hc'
      have hh' : upd s.heap s.hp (.opened l) c' = .opened l' := hh
      by_cases he : c' = s.hp
      · subst he; simp at hh'; exact .inr hh'.symm
      · rw [upd_other _ _ he] at hh'
        exact .inl ⟨c', by simp [he] at hc''; exact hc'', hh'⟩

end Cells

end Quilt
