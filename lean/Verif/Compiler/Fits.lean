import Verif.Compiler.GenCases

/-!
# Programs of bounded size do not outgrow 16-bit tables
-/

namespace Quilt

/-- Number of names a declaration binds. -/
def Var.count : Var → Nat
  | .one _ => 1
  | .many xs => xs.length

def varCount : Option Var → Nat
  | some v => v.count
  | none => 0

mutual
/-- Size of a program: 4 for each node and 1 for each name it binds. -/
def Node.size : Node → Nat
  | .lit .. | .ident .. => 4
  | .assign _ _ e | .un _ _ e => 4 + e.size
  | .pair _ a b | .range _ a b | .bin _ _ a b | .index _ a b => 4 + (a.size + b.size)
  | .array _ items => 4 + sizeL items
  | .block _ body => 4 + sizeL body
  | .cond _ c th el => 4 + (c.size + (sizeL th + sizeO el))
  | .switch _ v cs d => 4 + (v.size + (sizeC cs + sizeO d))
  | .while _ c b => 4 + (c.size + sizeL b)
  | .forIn _ _ it b => 5 + (it.size + sizeL b)
  | .forMulti _ xs it b => 4 + xs.length + (it.size + sizeL b)
  | .lambda _ ps b => 4 + ps.length + sizeL b
  | .func _ _ ps b => 5 + ps.length + sizeL b
  | .call _ f args => 4 + (f.size + sizeL args)
  | .builtin _ _ args => 4 + sizeL args
  | .ctx _ _ args v b => 4 + varCount v + (sizeL args + sizeL b)
  | .decl _ v e => 4 + v.count + e.size
  | .extern _ _ e => 5 + e.size
  | .include _ _ b => 4 + sizeO b
  | .ret _ e => 4 + sizeE e
termination_by structural n => n
def sizeL : List Node → Nat
  | [] => 0
  | n :: ns => n.size + sizeL ns
termination_by structural n => n
def sizeC : List (Node × List Node) → Nat
  | [] => 0
  | (c, b) :: cs => (c.size + sizeL b) + sizeC cs
termination_by structural n => n
def sizeO : Option (List Node) → Nat
  | some b => sizeL b
  | none => 0
termination_by structural n => n
def sizeE : Option Node → Nat
  | some e => e.size
  | none => 0
termination_by structural n => n
end

/-- A level whose tables have at most `m` entries. -/
structure LvSmall (m : Nat) (l : GLevel) : Prop where
  locals : l.locals.length ≤ m
  ups : l.upvalues.length ≤ m
  consts : l.constPool.entries.length ≤ m
  constsInv : l.constPool.Inv
  idx : ∀ u ∈ l.upvalues, u.idx ≤ m

structure GSmall (m : Nat) (g : GState) : Prop where
  cur : LvSmall m g.cur
  encl : ∀ l ∈ g.encl, LvSmall m l
  globals : g.globals.entries.length ≤ m
  globalsInv : g.globals.Inv

theorem LvSmall.mono {m m' : Nat} {l : GLevel} (h : LvSmall m l) (hm : m ≤ m') : LvSmall m' l :=
  ⟨by have := h.locals; omega, by have := h.ups; omega, by have := h.consts; omega, h.constsInv,
    fun u hu => Nat.le_trans (h.idx u hu) hm⟩

theorem GSmall.mono {m m' : Nat} {g : GState} (h : GSmall m g) (hm : m ≤ m') : GSmall m' g :=
  ⟨h.cur.mono hm, fun l hl => (h.encl l hl).mono hm, by have := h.globals; omega, h.globalsInv⟩

/-- Result of a generator that stays within `M` entries. -/
def FitR {α : Type} (M : Nat) (P : α → Prop) : GRes (α × Code × GState) → Prop
  | .ok (a, c, g') => P a ∧ (∀ q ∈ c, q.i.small = true) ∧ GSmall M g'
  | .unfit => False
  | _ => True

/-- The generator adds at most `w` entries to each table; its code is small. -/
def Fit {α : Type} (x : GM α) (w : Nat) (P : α → Prop := fun _ => True) : Prop :=
  ∀ m g, GSmall m g → m + w ≤ 65535 → FitR (m + w) P (x g)

namespace Fit
open GM
variable {α β : Type}

theorem mono {x : GM α} {w w' : Nat} {P Q : α → Prop} (h : Fit x w P) (hw : w ≤ w') (hP : ∀ a, P a → Q a := by exact fun _ h => h) :
    Fit x w' Q := by
  intro m g hg hm
  have := h m g hg (by omega)
  cases hx : x g with
  | ok r =>
    rw [hx] at this
    exact ⟨hP _ this.1, this.2.1, this.2.2.mono (by omega)⟩
  | unfit => rw [hx] at this; exact this
  | err => trivial
  | panic => trivial

theorem bind {x : GM α} {f : α → GM β} {w w' : Nat} {P : α → Prop} {Q : β → Prop} (h : Fit x w P) (hf : ∀ a, P a → Fit (f a) w' Q) :
    Fit (x >>= f) (w + w') Q := by
  intro m g hg hm
  have h1 := h m g hg (by omega)
  rw [bind_app]
  cases hx : x g with
  | ok r =>
    obtain ⟨a, c, g'⟩ := r
    rw [hx] at h1
    have h2 := hf a h1.1 _ _ h1.2.2 (by omega)
    simp only
    cases hy : f a g' with
    | ok r =>
      obtain ⟨b, c', g''⟩ := r
      rw [hy] at h2
      refine ⟨h2.1, fun q hq => ?_, h2.2.2.mono (by omega)⟩
      rcases List.mem_append.1 hq with hq | hq
      · exact h1.2.1 q hq
      · exact h2.2.1 q hq
    | unfit => rw [hy] at h2; exact h2
    | err => trivial
    | panic => trivial
  | unfit => rw [hx] at h1; exact h1
  | err => trivial
  | panic => trivial

theorem pure {a : α} {P : α → Prop} (h : P a) : Fit (Pure.pure a) 0 P := fun _ _ hg _ => ⟨h, by simp, hg⟩
theorem throw {e : Err} {sp : Span} {P : α → Prop} {w : Nat} : Fit (GM.throw e sp : GM α) w P := fun _ _ _ _ => trivial
theorem panic {P : α → Prop} {w : Nat} : Fit (GM.panic : GM α) w P := fun _ _ _ _ => trivial
theorem emit {c : Code} (h : ∀ q ∈ c, q.i.small = true) : Fit (GM.emit c) 0 := fun _ _ hg _ => ⟨trivial, h, hg⟩
theorem emit1 {i : Instr} {sp : Span} (h : i.small = true) : Fit (GM.emit1 i sp) 0 :=
  emit (by intro q hq; simp only [List.mem_singleton] at hq; subst hq; exact h)
theorem getG : Fit GM.getG 0 := fun _ _ hg _ => ⟨trivial, by simp, hg⟩
theorem isGlobal : Fit GM.isGlobal 0 := fun _ _ hg _ => ⟨trivial, by simp, hg⟩

theorem sub {x : GM Unit} {w : Nat} (h : Fit x w) : Fit (GM.sub x) w fun c => ∀ q ∈ c, q.i.small = true := by
  intro m g hg hm
  have h1 := h m g hg hm
  simp only [GM.sub]
  cases hx : x g with
  | ok r => rw [hx] at h1; exact ⟨h1.2.1, by simp, h1.2.2⟩
  | unfit => rw [hx] at h1; exact h1
  | err => trivial
  | panic => trivial

theorem onG {f : GState → GState} {w : Nat} (h : ∀ m g, GSmall m g → GSmall (m + w) (f g)) : Fit (GM.onG f) w :=
  fun m g hg _ => ⟨trivial, by simp, h m g hg⟩

theorem ite {x y : GM α} {w : Nat} {P : α → Prop} {c : Prop} [Decidable c] (h : c → Fit x w P) (h' : ¬ c → Fit y w P) :
    Fit (if c then x else y) w P := by
  split
  · exact h ‹_›
  · exact h' ‹_›

end Fit

/-! ## Table operations -/

theorem Pool.add_small {α : Type} [DecidableEq α] {p : Pool α} (h : p.Inv) (v : α) {m : Nat} (hm : p.entries.length ≤ m) :
    (p.add v).1 < 65536 ∧ (p.add v).2.entries.length ≤ m + 1 := by
  constructor
  · obtain ⟨k, _, h2⟩ := Pool.add_id h v
    rw [h2]; exact Nat.mod_lt _ (by decide)
  · rw [Pool.add_entries h]
    split
    · omega
    · simp; omega

theorem LvSmall.addUpvalue {m : Nat} {l : GLevel} (h : LvSmall m l) {i : Nat} (hi : i ≤ m) (b : Bool) (x : String) :
    (l.addUpvalue i b x).1 ≤ m ∧ LvSmall (m + 1) (l.addUpvalue i b x).2 := by
  simp only [GLevel.addUpvalue]
  cases hf : GLevel.findUp i b l.upvalues with
  | some j =>
    refine ⟨?_, h.mono (by omega)⟩
    have hlt : ∀ {us : List Upv} {j : Nat}, GLevel.findUp i b us = some j → j < us.length := by
      intro us
      induction us with
      | nil => intro j h; simp [GLevel.findUp] at h
      | cons u us ih =>
        intro j h
        simp only [GLevel.findUp] at h
        split at h
        · simp at h; subst h; simp
        · cases hq : GLevel.findUp i b us with
          | none => simp [hq] at h
          | some q => simp [hq] at h; subst h; have := ih hq; simp; omega
    have := hlt hf; have := h.ups
    simp only; omega
  | none =>
    refine ⟨h.ups, ⟨by have := h.locals; simp only; omega, by have := h.ups; simp; omega, by have := h.consts; simp only; omega, h.constsInv, ?_⟩⟩
    intro u hu
    rcases List.mem_append.1 hu with hu | hu
    · have := h.idx u hu; omega
    · simp only [List.mem_singleton] at hu; subst hu; simp only; omega

theorem lastIdx_lt {x : String} : ∀ {ls : List Local} {i : Nat}, lastIdx x ls = some i → i < ls.length
  | [], i, h => by simp [lastIdx] at h
  | l :: ls, i, h => by
    simp only [lastIdx] at h
    cases hq : lastIdx x ls with
    | some j => simp [hq] at h; subst h; have := lastIdx_lt hq; simp; omega
    | none =>
      simp only [hq] at h
      split at h
      · simp at h; subst h; simp
      · simp at h

theorem LvSmall.mark {m : Nat} {l : GLevel} (h : LvSmall m l) (i : Nat) : LvSmall m (l.mark i) :=
  ⟨by have := h.locals; simpa [GLevel.mark] using this, h.ups, h.consts, h.constsInv, h.idx⟩

theorem resolveUp_small {m : Nat} {x : String} : ∀ {ps : List GLevel} {l : GLevel} {j : Nat} {l' : GLevel} {ps' : List GLevel},
    LvSmall m l → (∀ p ∈ ps, LvSmall m p) → resolveUp x l ps = some (j, l', ps') →
    j ≤ m ∧ LvSmall (m + 1) l' ∧ ∀ p ∈ ps', LvSmall (m + 1) p
  | [], l, j, l', ps', hl, hps, h => by simp [resolveUp] at h
  | p :: ps, l, j, l', ps', hl, hps, h => by
    have hp := hps p (by simp)
    have hps' := fun q hq => hps q (List.mem_cons_of_mem _ hq)
    simp only [resolveUp] at h
    cases hi : lastIdx x p.locals with
    | some i =>
      have hlt := lastIdx_lt hi
      have hpl := hp.locals
      obtain ⟨h1, h2⟩ := hl.addUpvalue (i := i) (by omega) true x
      simp only [hi, Option.some.injEq, Prod.mk.injEq] at h
      obtain ⟨rfl, rfl, rfl⟩ := h
      refine ⟨h1, h2, fun q hq => ?_⟩
      rcases List.mem_cons.1 hq with rfl | hq
      · exact (hp.mark i).mono (by omega)
      · exact (hps' q hq).mono (by omega)
    | none =>
      simp only [hi] at h
      cases hr : resolveUp x p ps with
      | none => simp [hr] at h
      | some r =>
        obtain ⟨i, p', ps''⟩ := r
        obtain ⟨k1, k2, k3⟩ := resolveUp_small hp hps' hr
        obtain ⟨h1, h2⟩ := hl.addUpvalue (i := i) k1 false x
        simp only [hr, Option.some.injEq, Prod.mk.injEq] at h
        obtain ⟨rfl, rfl, rfl⟩ := h
        refine ⟨h1, h2, fun q hq => ?_⟩
        rcases List.mem_cons.1 hq with rfl | hq
        · exact k2
        · exact k3 q hq

theorem GSmall.addGlobal {m : Nat} {g : GState} (h : GSmall m g) (x : String) :
    (g.addGlobal x).1 < 65536 ∧ GSmall (m + 1) (g.addGlobal x).2 := by
  obtain ⟨h1, h2⟩ := Pool.add_small h.globalsInv x h.globals
  refine ⟨h1, ⟨h.cur.mono (by omega), fun l hl => (h.encl l hl).mono (by omega), h2, Pool.inv_add h.globalsInv x⟩⟩

theorem LvSmall.addConst {m : Nat} {l : GLevel} (h : LvSmall m l) (c : Const) : LvSmall (m + 1) { l with constPool := (l.constPool.add c).2 } :=
  ⟨by have := h.locals; simp only; omega, by have := h.ups; simp only; omega, (Pool.add_small h.constsInv c h.consts).2, Pool.inv_add h.constsInv c,
    fun u hu => by have := h.idx u hu; omega⟩

theorem GSmall.addConst {m : Nat} {g : GState} (h : GSmall m g) (c : Const) :
    (g.addConst c).1 < 65536 ∧ GSmall (m + 1) (g.addConst c).2 :=
  ⟨(Pool.add_small h.cur.constsInv c h.cur.consts).1,
    ⟨h.cur.addConst c, fun l hl => (h.encl l hl).mono (by omega), by have := h.globals; simp only [GState.addConst, GState.onCur]; omega, h.globalsInv⟩⟩

theorem GSmall.resolve {m : Nat} {g : GState} (h : GSmall m g) (x : String) (hm : m + 1 ≤ 65535) :
    (g.resolve x).1.load.small = true ∧ (g.resolve x).1.store.small = true ∧ GSmall (m + 1) (g.resolve x).2 := by
  simp only [GState.resolve]
  cases hi : lastIdx x g.cur.locals with
  | some i =>
    have := lastIdx_lt hi
    have := h.cur.locals
    have h3 : i < 65536 := by omega
    exact ⟨by simpa [GState.Ref.load, Instr.small] using h3, by simpa [GState.Ref.store, Instr.small] using h3, h.mono (by omega)⟩
  | none =>
    simp only
    cases hr : resolveUp x g.cur g.encl with
    | some r =>
      obtain ⟨j, l, ls⟩ := r
      obtain ⟨h1, h2, h3⟩ := resolveUp_small h.cur h.encl hr
      have h4 : j < 65536 := by omega
      exact ⟨by simpa [GState.Ref.load, Instr.small] using h4, by simpa [GState.Ref.store, Instr.small] using h4,
        ⟨h2, h3, by have := h.globals; simp only; omega, h.globalsInv⟩⟩
    | none =>
      obtain ⟨h1, h2⟩ := h.addGlobal x
      exact ⟨by simpa [GState.Ref.load, Instr.small] using h1, by simpa [GState.Ref.store, Instr.small] using h1, h2⟩

theorem LvSmall.defineLocal {m : Nat} {l : GLevel} (h : LvSmall m l) (x : String) : LvSmall (m + 1) (l.defineLocal x) :=
  ⟨by have := h.locals; simp [GLevel.defineLocal]; omega, by have := h.ups; simp only [GLevel.defineLocal]; omega,
    by have := h.consts; simp only [GLevel.defineLocal]; omega, h.constsInv, fun u hu => by have := h.idx u hu; omega⟩

theorem GSmall.defineLocal {m : Nat} {g : GState} (h : GSmall m g) (x : String) : GSmall (m + 1) (g.defineLocal x) :=
  ⟨h.cur.defineLocal x, fun l hl => (h.encl l hl).mono (by omega), by have := h.globals; simp only [GState.defineLocal, GState.onCur]; omega, h.globalsInv⟩

theorem GSmall.defineLocals {m : Nat} : ∀ {xs : List String} {g : GState}, GSmall m g → GSmall (m + xs.length) (g.defineLocals xs)
  | [], g, h => h
  | x :: xs, g, h => by
    have := GSmall.defineLocals (xs := xs) (h.defineLocal x)
    exact this.mono (by simp; omega)

theorem GSmall.onCur {m m' : Nat} {g : GState} (h : GSmall m g) {f : GLevel → GLevel} (hm : m ≤ m') (hf : LvSmall m' (f g.cur)) : GSmall m' (g.onCur f) :=
  ⟨hf, fun l hl => (h.encl l hl).mono hm, by have := h.globals; simp only [GState.onCur]; omega, h.globalsInv⟩

theorem GSmall.enterScope {m : Nat} {g : GState} (h : GSmall m g) : GSmall m g.enterScope :=
  h.onCur (Nat.le_refl _) ⟨h.cur.locals, h.cur.ups, h.cur.consts, h.cur.constsInv, h.cur.idx⟩

theorem GSmall.reserveTemp {m : Nat} {g : GState} (h : GSmall m g) : GSmall (m + 1) g.reserveTemp :=
  h.onCur (Nat.le_succ _) (h.cur.defineLocal _)

theorem GSmall.exitScope {m : Nat} {g : GState} (h : GSmall m g) : GSmall m g.exitScope := by
  refine h.onCur (Nat.le_refl _) ⟨?_, h.cur.ups, h.cur.consts, h.cur.constsInv, h.cur.idx⟩
  have h1 := h.cur.locals
  have h2 : (g.cur.staying (g.cur.depth - 1)).length ≤ g.cur.locals.length := by
    simp only [GLevel.staying, List.length_reverse]
    exact Nat.le_trans (List.dropWhile_sublist _).length_le (by simp)
  simp only; omega

theorem exitOps_small (sp : Span) : ∀ (cs : List Bool) (q : Nat), cs.length + q ≤ 65535 → ∀ p ∈ GM.exitOps sp cs q, p.i.small = true := by
  have hfl : ∀ q, q ≤ 65535 → ∀ p ∈ GM.flush q sp, p.i.small = true := by
    intro q hq p hp
    simp only [GM.flush] at hp
    split at hp
    · simp only [List.mem_singleton] at hp; subst hp; simp [Instr.small]; omega
    · split at hp
      · simp only [List.mem_singleton] at hp; subst hp; rfl
      · simp at hp
  intro cs
  induction cs with
  | nil => intro q hq p hp; exact hfl q (by simpa using hq) p hp
  | cons b cs ih =>
    intro q hq p hp
    cases b with
    | false => exact ih (q + 1) (by simp at hq; omega) p hp
    | true =>
      simp only [GM.exitOps, List.append_assoc, List.mem_append, List.mem_singleton] at hp
      rcases hp with hp | hp | hp
      · exact hfl q (by simp at hq; omega) p hp
      · subst hp; rfl
      · exact ih 0 (by simp at hq; omega) p hp

namespace Fit
open GM

theorem addGlobal (x : String) : Fit (onG' fun g => g.addGlobal x) 1 fun i => i < 65536 :=
  fun m g hg hm => ⟨(hg.addGlobal x).1, by simp, (hg.addGlobal x).2⟩

theorem addConst (c : Const) : Fit (onG' fun g => g.addConst c) 1 fun i => i < 65536 :=
  fun m g hg hm => ⟨(hg.addConst c).1, by simp, (hg.addConst c).2⟩

theorem getVariable (x : String) (sp : Span) : Fit (GM.getVariable x sp) 1 := by
  refine bind (w := 1) (w' := 0) (P := fun r => r.load.small = true) ?_ fun r hr => emit1 hr
  exact fun m g hg hm => ⟨(hg.resolve x hm).1, by simp, (hg.resolve x hm).2.2⟩

theorem setVariable (x : String) (sp : Span) : Fit (GM.setVariable x sp) 1 := by
  refine bind (w := 1) (w' := 0) (P := fun r => r.store.small = true) ?_ fun r hr => emit1 hr
  exact fun m g hg hm => ⟨(hg.resolve x hm).2.1, by simp, (hg.resolve x hm).2.2⟩

theorem defineLocals (xs : List String) : Fit (GM.defineLocals xs) xs.length := onG fun _ _ h => h.defineLocals

theorem defineGlobal (x : String) (sp : Span) : Fit (GM.defineGlobal x sp) 1 :=
  bind (w := 1) (w' := 0) (addGlobal x) fun i hi => emit1 (by simpa [Instr.small] using hi)

theorem defineGlobals : ∀ xs : List Name, Fit (GM.defineGlobals xs) xs.length
  | [] => pure trivial
  | x :: xs => by
    have := bind (w := 1) (defineGlobal x.1 x.2) fun _ _ => defineGlobals xs
    exact this.mono (by simp; omega)

theorem exitScope (sp : Span) : Fit (GM.exitScope sp) 0 := by
  intro m g hg hm
  refine ⟨trivial, fun q hq => ?_, hg.exitScope⟩
  simp only [GM.exitCode] at hq
  split at hq
  · simp at hq
  · simp only [List.append_assoc, List.mem_append, List.mem_singleton] at hq
    rcases hq with rfl | hq | rfl
    · rfl
    · refine exitOps_small sp _ 0 ?_ q hq
      have h1 := hg.cur.locals
      have h2 : (g.cur.leaving (g.cur.depth - 1)).length ≤ g.cur.locals.length := by
        simp only [GLevel.leaving]
        exact Nat.le_trans (List.takeWhile_sublist _).length_le (by simp)
      simp only [List.length_map]; omega
    · rfl

theorem inScope {body : GM Span} {w : Nat} (h : Fit body w) : Fit (GM.inScope body) w := by
  have := bind (w := 0) (w' := w + 0) (f := fun _ => body >>= fun s => GM.exitScope s) (onG fun _ _ h => h.enterScope) fun _ _ =>
    bind h fun s _ => exitScope s
  exact this.mono (by omega)

theorem ctxVar (sp csp : Span) : ∀ v : Option Var, Fit (GM.ctxVar sp csp v) (1 + varCount v)
  | some (.one (y, ysp)) => by
    have := bind (defineLocals [y]) fun _ _ => setVariable y ysp
    exact this.mono (by simp [varCount, Var.count])
  | some (.many xs) => by
    refine ite (fun _ => throw) fun h => ?_
    have := bind (emit1 (i := .unpack xs.length) (sp := sp) (by simp [Instr.small]; omega)) fun _ _ => defineLocals (xs.map Prod.fst).reverse
    exact this.mono (by simp [varCount, Var.count])
  | none => (emit1 rfl).mono (Nat.zero_le _)

theorem declVar (sp : Span) : ∀ v : Var, Fit (GM.declVar sp v) (1 + v.count)
  | .one (x, xsp) => by
    refine (bind (w := 0) (w' := 2) isGlobal fun b _ => ?_).mono (by simp [Var.count])
    refine ite (fun _ => (defineGlobal x xsp).mono (by omega)) fun _ => ?_
    exact (bind (defineLocals [x]) fun _ _ => setVariable x xsp).mono (by simp)
  | .many xs => by
    refine ite (fun _ => throw) fun h => ?_
    have := bind (w' := 0 + xs.length) (emit1 (i := .unpack xs.length) (sp := sp) (by simp [Instr.small]; omega)) fun _ _ =>
      bind isGlobal (f := fun b => if b = true then GM.defineGlobals xs else GM.defineLocals (xs.map Prod.fst).reverse) fun b _ =>
        ite (fun _ => defineGlobals xs) fun _ => (defineLocals (xs.map Prod.fst).reverse).mono (by simp)
    exact this.mono (by simp [Var.count])

theorem closInstr_small {i : Nat} {us : List Upv} (hi : i < 65536) (hu : ∀ u ∈ us, u.idx < 65536) : (closInstr i us).small = true := by
  simp only [closInstr]
  split
  · simpa [Instr.small] using hi
  · simp only [Instr.small, Bool.and_eq_true, decide_eq_true_eq, List.all_eq_true, List.mem_map]
    refine ⟨hi, ?_⟩
    rintro _ ⟨u, hu', rfl⟩
    refine ⟨?_, hu u hu'⟩
    simp only; split <;> decide

theorem func {strict : Bool} {name : Name} {params : List Name} {sp : Span} {body : GM Span} {w : Nat} (h : Fit body w) :
    Fit (GM.func strict name params sp body) (2 + params.length + w) := by
  intro m g hg hm
  have hg1 : GSmall (m + (1 + params.length)) (g.enterFn name.1 (params.map Prod.fst)) := by
    have h0 : GSmall m ({ g with cur := GLevel.fresh g.cur.depth, encl := g.cur :: g.encl } : GState) := by
      refine ⟨⟨Nat.zero_le _, Nat.zero_le _, Nat.zero_le _, Pool.inv_empty, by simp [GLevel.fresh]⟩, ?_, hg.globals, hg.globalsInv⟩
      intro l hl
      rcases List.mem_cons.1 hl with rfl | hl
      · exact hg.cur
      · exact hg.encl l hl
    have := h0.defineLocals (xs := name.1 :: params.map Prod.fst)
    exact this.mono (by simp; omega)
  have h1 := h _ _ hg1 (by omega)
  simp only [GM.func]
  generalize hx : body (g.enterFn name.1 (params.map Prod.fst)) = r at h1
  cases r with
  | ok r =>
    obtain ⟨a, c, g1⟩ := r
    obtain ⟨_, hs, hg2⟩ := h1
    simp only
    cases he : g1.encl with
    | nil => trivial
    | cons l ls =>
      simp only
      have hfit : GM.fnFits g1.cur c = true := by
        have := hg2.cur.consts
        have := hg2.cur.ups
        simp only [GM.fnFits, Bool.and_eq_true, decide_eq_true_eq, List.all_eq_true]
        exact ⟨⟨hs, by omega⟩, by omega⟩
      rw [hfit]
      simp only [Bool.not_true, Bool.and_false, Bool.false_eq_true, if_false]
      have hg3 : GSmall (m + (1 + params.length) + w) ({ g1 with cur := l, encl := ls } : GState) :=
        ⟨hg2.encl l (by rw [he]; simp), fun p hp => hg2.encl p (by rw [he]; exact List.mem_cons_of_mem _ hp), hg2.globals, hg2.globalsInv⟩
      obtain ⟨k1, k2⟩ := hg3.addConst (.fn (GM.mkFunc name params.length g1.cur c))
      refine ⟨trivial, ?_, k2.mono (by omega)⟩
      intro q hq
      simp only [List.mem_singleton] at hq
      subst hq
      refine closInstr_small k1 fun u hu => ?_
      have := hg2.cur.idx u hu
      omega
  | unfit => exact h1
  | err => trivial
  | panic => trivial

theorem assemble : ∀ (ps : List (Code × Span)) {d : Code}, (∀ p ∈ ps, ∀ q ∈ p.1, q.i.small = true) → (∀ q ∈ d, q.i.small = true) →
    (ps ≠ [] → (GM.assemble ps.tail d).len ≤ 65535) → ∀ q ∈ GM.assemble ps d, q.i.small = true
  | [], d, hps, hd, hl => hd
  | (c, sp) :: ps, d, hps, hd, hl => by
    have hl' : (GM.assemble ps d).len ≤ 65535 := hl (by simp)
    intro q hq
    simp only [GM.assemble, List.append_assoc, List.mem_append, List.mem_singleton] at hq
    rcases hq with hq | hq | hq
    · exact hps (c, sp) (by simp) q hq
    · subst hq; simp only [Instr.small, decide_eq_true_eq]; omega
    · refine assemble ps (fun p hp => hps p (List.mem_cons_of_mem _ hp)) hd (fun hne => ?_) q hq
      cases ps with
      | nil => exact absurd rfl hne
      | cons p ps =>
        obtain ⟨c', sp'⟩ := p
        simp only [GM.assemble, Code.len_append] at hl'
        simp only [List.tail_cons]; omega

theorem gexprIn {m : Mode} {sp : Span} {act : GM Unit} {w : Nat} (h : Fit act w) : Fit (Quilt.gexprIn m sp act) w := by
  have := bind (w' := 0) h (f := fun _ => if m = .stmt true then GM.emit1 .pop sp else Pure.pure ()) fun _ _ =>
    ite (fun _ => emit1 rfl) fun _ => pure trivial
  exact this

theorem externTail (x : String) (xsp : Span) : Fit (do
    if !(← GM.isGlobal) then GM.throw (.name (.externalNotGlobal x)) xsp
    else
      let i ← onG' fun g => g.addGlobal x
      let g ← GM.getG
      if i ∈ g.externals then GM.throw (.name (.externalRedefined x)) xsp
      else
        GM.onG fun g => { g with externals := i :: g.externals }
        GM.emit1 (.defineGlobalDefaulted i) xsp) 1 := by
  refine bind (w := 0) (w' := 1) isGlobal fun b _ => ?_
  refine ite (fun _ => throw) fun _ => ?_
  refine bind (w := 1) (w' := 0) (addGlobal x) fun i hi => ?_
  refine bind (w := 0) (w' := 0) getG fun g _ => ?_
  refine ite (fun _ => throw) fun _ => ?_
  refine bind (w := 0) (w' := 0) (onG fun m g h => ⟨h.cur, h.encl, h.globals, h.globalsInv⟩) fun _ _ => ?_
  exact emit1 (by simpa [Instr.small] using hi)

theorem gstmtIn {m : Mode} {sp : Span} {act : GM Unit} {w : Nat} (h : Fit act w) : Fit (Quilt.gstmtIn m sp act) w := by
  cases m with
  | expr => exact throw
  | stmt => exact h

end Fit

mutual
theorem fit_node (cfg : Cfg) (strict : Bool) : ∀ (n : Node) (m : Mode), Fit (genNode cfg strict m n) n.size
  | .lit sp l, m => by
    unfold genNode
    refine Fit.gexprIn ?_
    cases l with
    | none => exact (Fit.emit1 rfl).mono (Nat.zero_le _)
    | _ => exact (Fit.bind (Fit.addConst _) fun i hi => Fit.emit1 (by simpa [Instr.small] using hi)).mono (by simp [Node.size])
  | .ident sp x, m => by
    unfold genNode
    exact Fit.gexprIn ((Fit.getVariable x sp).mono (by simp [Node.size]))
  | .assign sp (x, xsp) e, m => by
    unfold genNode
    exact Fit.gexprIn ((Fit.bind (fit_node cfg strict e .expr) fun _ _ => Fit.setVariable x xsp).mono (by simp [Node.size]; omega))
  | .un sp op e, m => by
    unfold genNode
    refine Fit.gexprIn ?_
    cases hf : foldUnary cfg op e with
    | some r =>
      cases r with
      | ok l => exact (Fit.bind (Fit.addConst _) fun i hi => Fit.emit1 (by simpa [Instr.small] using hi)).mono (by simp [Node.size]; omega)
      | err => exact Fit.panic
      | panic => exact Fit.panic
    | none =>
      refine (Fit.bind (fit_node cfg strict e .expr) (w' := 0) fun _ _ => Fit.ite (fun h => Fit.emit1 ?_) fun _ => Fit.panic).mono (by simp [Node.size])
      cases op <;> simp_all [Op.isUnary, Instr.small, Op.isBinary]
  | .bin sp op a b, m => by
    unfold genNode
    refine Fit.gexprIn ((Fit.bind (fit_node cfg strict a .expr) fun _ _ => Fit.bind (fit_node cfg strict b .expr) (w' := 0) fun _ _ =>
      Fit.ite (fun _ => Fit.panic) fun h => Fit.emit1 ?_).mono (by simp [Node.size]))
    cases op <;> simp_all [Op.isUnary, Instr.small, Op.isBinary]
  | .pair sp a b, m => by
    unfold genNode
    exact Fit.gexprIn ((Fit.bind (fit_node cfg strict a .expr) fun _ _ => Fit.bind (fit_node cfg strict b .expr) fun _ _ => Fit.emit1 rfl).mono (by simp [Node.size]))
  | .range sp a b, m => by
    unfold genNode
    exact Fit.gexprIn ((Fit.bind (fit_node cfg strict a .expr) fun _ _ => Fit.bind (fit_node cfg strict b .expr) fun _ _ => Fit.emit1 rfl).mono (by simp [Node.size]))
  | .index sp a b, m => by
    unfold genNode
    exact Fit.gexprIn ((Fit.bind (fit_node cfg strict b .expr) fun _ _ => Fit.bind (fit_node cfg strict a .expr) fun _ _ => Fit.emit1 rfl).mono (by simp [Node.size]; omega))
  | .array sp items, m => by
    unfold genNode
    refine Fit.gexprIn (Fit.ite (fun _ => Fit.throw) fun h => ?_)
    exact (Fit.bind (fit_rev cfg strict items) fun _ _ => Fit.emit1 (by simp [Instr.small]; omega)).mono (by simp [Node.size])
  | .block sp body, m => by
    unfold genNode
    exact Fit.gexprIn ((Fit.inScope (fit_stmts cfg strict body)).mono (by simp [Node.size]))
  | .call sp f args, m => by
    unfold genNode
    refine Fit.gexprIn (Fit.ite (fun _ => Fit.throw) fun h => ?_)
    exact (Fit.bind (fit_node cfg strict f .expr) fun _ _ => Fit.bind (fit_args cfg strict args) fun _ _ => Fit.emit1 (by simp [Instr.small]; omega)).mono (by simp [Node.size])
  | .builtin sp x args, m => by
    unfold genNode
    refine Fit.gexprIn (Fit.ite (fun _ => Fit.throw) fun h => ?_)
    refine (Fit.bind (fit_args cfg strict args) fun _ _ => Fit.bind (Fit.addGlobal x.1) (w' := 0) fun i hi => Fit.emit ?_).mono (by simp [Node.size]; omega)
    intro q hq
    simp only [List.mem_singleton] at hq; subst hq
    simp only [Instr.small, Bool.and_eq_true, decide_eq_true_eq]; omega
  | .ctx sp x args v body, m => by
    unfold genNode
    refine Fit.gexprIn (Fit.ite (fun _ => Fit.throw) fun h => ?_)
    refine (Fit.bind (fit_args cfg strict args) fun _ _ => Fit.bind (Fit.addGlobal x.1) (w' := 0 + (0 + ((1 + varCount v) + (sizeL body + (0 + 0))))) fun i hi => Fit.bind (Fit.emit ?_) fun _ _ =>
      Fit.bind (Fit.onG fun _ _ h => h.enterScope) fun _ _ => Fit.bind (Fit.ctxVar sp x.2 v) fun _ _ => Fit.bind (fit_stmts cfg strict body) fun _ _ =>
      Fit.bind (Fit.exitScope sp) fun _ _ => Fit.emit1 rfl).mono (by simp only [Node.size]; omega)
    intro q hq
    simp only [List.mem_singleton] at hq; subst hq
    simp only [Instr.small, Bool.and_eq_true, decide_eq_true_eq]; omega
  | .cond sp c th el, m => by
    unfold genNode
    refine Fit.gexprIn ((Fit.bind (Fit.emit1 rfl) fun _ _ => Fit.bind (fit_node cfg strict c .expr) fun _ _ =>
      Fit.bind (Fit.sub (Fit.inScope (fit_stmts cfg strict th))) (w' := sizeO el) fun a ha => Fit.ite (fun _ => Fit.throw) fun h1 =>
      (Fit.bind (Fit.sub (fit_else cfg strict sp el)) (w' := 0) fun b hb => Fit.ite (fun _ => Fit.throw) fun h2 => Fit.emit ?_).mono (Nat.le_refl _)).mono (by simp only [Node.size]; omega))
    intro q hq
    simp only [List.cons_append, List.nil_append, List.append_assoc, List.mem_cons, List.mem_append] at hq
    rcases hq with rfl | rfl | hq | rfl | hq
    · simp only [Instr.small, decide_eq_true_eq]; omega
    · rfl
    · exact ha q hq
    · simp only [Instr.small, decide_eq_true_eq]; omega
    · exact hb q hq
  | .switch sp v cs d, m => by
    unfold genNode
    refine Fit.gexprIn ((Fit.bind (Fit.emit1 rfl) fun _ _ => Fit.bind (fit_node cfg strict v .expr) fun _ _ =>
      Fit.bind (fit_cases cfg strict cs) fun ps hps => Fit.bind (Fit.sub (fit_else cfg strict sp d)) (w' := 0) fun b hb =>
      Fit.ite (fun _ => Fit.throw) fun h => Fit.emit ?_).mono (by simp only [Node.size]; omega))
    refine Fit.assemble ps hps hb fun hne => ?_
    have : ¬ (GM.assemble ps.tail b).len > 65535 := fun h' => h ⟨hne, h'⟩
    omega
  | .while sp c body, m => by
    unfold genNode
    refine Fit.gexprIn ((Fit.bind (Fit.emit1 rfl) fun _ _ => Fit.bind (Fit.sub (fit_node cfg strict c .expr)) fun cc hcc =>
      Fit.bind (Fit.sub (Fit.inScope (fit_stmts cfg strict body))) (w' := 0) fun b hb =>
      Fit.ite (fun _ => Fit.throw) fun h => Fit.emit ?_).mono (by simp only [Node.size]; omega))
    intro q hq
    simp only [List.append_assoc, List.mem_append, List.mem_cons, List.not_mem_nil, or_false] at hq
    rcases hq with hq | (rfl | rfl) | hq | rfl | rfl
    · exact hcc q hq
    · simp only [Instr.small, decide_eq_true_eq]; omega
    · rfl
    · exact hb q hq
    · simp only [Instr.small, decide_eq_true_eq]; omega
    · rfl
  | .forIn sp (x, xsp) it body, m => by
    unfold genNode
    refine Fit.gexprIn ((Fit.bind (Fit.onG fun _ _ h => h.enterScope) (w := 0) fun _ _ => Fit.bind (Fit.onG fun _ _ h => h.reserveTemp) fun _ _ =>
      Fit.bind (Fit.onG fun _ _ h => h.reserveTemp) fun _ _ => Fit.bind (Fit.emit1 rfl) fun _ _ => Fit.bind (fit_node cfg strict it .expr) fun _ _ =>
      Fit.bind (Fit.onG fun _ _ h => h.enterScope) (w := 0) fun _ _ => Fit.bind (Fit.emit1 rfl) fun _ _ =>
      Fit.bind (Fit.sub (Fit.bind (Fit.emit1 rfl) fun _ _ => Fit.bind (Fit.defineLocals [x]) fun _ _ => Fit.bind (fit_stmts cfg strict body) fun _ _ => Fit.exitScope sp)) (w' := 0) fun b hb =>
      Fit.ite (fun _ => Fit.throw) fun h => (Fit.bind (Fit.emit ?_) fun _ _ => Fit.exitScope sp).mono (Nat.le_refl _)).mono
        (by simp only [Node.size, List.length_cons, List.length_nil]; omega))
    intro q hq
    simp only [List.cons_append, List.nil_append, List.mem_cons, List.mem_append, List.not_mem_nil, or_false] at hq
    rcases hq with rfl | hq | rfl
    · simp only [Instr.small, decide_eq_true_eq]; omega
    · exact hb q hq
    · simp only [Instr.small, decide_eq_true_eq]; omega
  | .forMulti sp xs it body, m => by
    unfold genNode
    refine Fit.gexprIn ((Fit.bind (Fit.onG fun _ _ h => h.enterScope) (w := 0) (w' := 3 + xs.length + (it.size + sizeL body)) fun _ _ => Fit.ite (fun _ => Fit.throw) fun hx =>
      (Fit.bind (Fit.onG fun _ _ h => h.reserveTemp) fun _ _ =>
      Fit.bind (Fit.onG fun _ _ h => h.reserveTemp) fun _ _ => Fit.bind (Fit.emit1 rfl) fun _ _ => Fit.bind (fit_node cfg strict it .expr) fun _ _ =>
      Fit.bind (Fit.onG fun _ _ h => h.enterScope) (w := 0) fun _ _ => Fit.bind (Fit.emit1 rfl) fun _ _ =>
      Fit.bind (Fit.sub (Fit.bind (Fit.emit1 rfl) fun _ _ => Fit.bind (Fit.emit1 (by simp only [Instr.small, decide_eq_true_eq]; omega)) fun _ _ =>
        Fit.bind (Fit.defineLocals (xs.map Prod.fst).reverse) fun _ _ => Fit.bind (fit_stmts cfg strict body) fun _ _ => Fit.exitScope sp)) (w' := 0) fun b hb =>
      Fit.ite (fun _ => Fit.throw) fun h => (Fit.bind (Fit.emit ?_) fun _ _ => Fit.exitScope sp).mono (Nat.le_refl _)).mono
        (by simp only [List.length_reverse, List.length_map]; omega)).mono
        (by simp only [Node.size]; omega))
    intro q hq
    simp only [List.cons_append, List.nil_append, List.mem_cons, List.mem_append, List.not_mem_nil, or_false] at hq
    rcases hq with rfl | hq | rfl
    · simp only [Instr.small, decide_eq_true_eq]; omega
    · exact hb q hq
    · simp only [Instr.small, decide_eq_true_eq]; omega
  | .lambda sp ps body, m => by
    unfold genNode
    exact Fit.gexprIn (Fit.ite (fun _ => Fit.throw) fun _ => (Fit.func (fit_stmts cfg strict body)).mono (by simp only [Node.size]; omega))
  | .func sp name ps body, m => by
    unfold genNode
    exact Fit.gstmtIn (Fit.ite (fun _ => Fit.throw) fun _ => (Fit.bind (Fit.func (fit_stmts cfg strict body)) fun _ _ => Fit.bind Fit.isGlobal (w' := 2) fun b _ =>
      Fit.ite (fun _ => (Fit.defineGlobal name.1 sp).mono (by omega)) fun _ => (Fit.bind (Fit.defineLocals [name.1]) fun _ _ => Fit.setVariable name.1 sp).mono (by simp)).mono
        (by simp only [Node.size]; omega))
  | .decl sp v e, m => by
    unfold genNode
    exact Fit.gstmtIn ((Fit.bind (fit_node cfg strict e .expr) fun _ _ => Fit.declVar sp v).mono (by simp only [Node.size]; omega))
  | .extern sp (x, xsp) e, m => by
    unfold genNode
    exact Fit.gstmtIn ((Fit.bind (fit_node cfg strict e .expr) fun _ _ => Fit.externTail x xsp).mono (by simp only [Node.size]; omega))
  | .include sp (x, xsp) body, m => by
    unfold genNode
    exact Fit.gstmtIn ((Fit.bind Fit.getG (w' := sizeO body) fun g _ => Fit.ite (fun _ => Fit.throw) fun _ => fit_incl cfg strict x xsp body).mono (by simp only [Node.size]; omega))
  | .ret sp e, m => by
    unfold genNode
    exact Fit.gstmtIn ((Fit.bind Fit.getG (w' := sizeE e) fun g _ => Fit.ite (fun _ => Fit.throw) fun _ => (Fit.bind (fit_opt cfg strict sp e) fun _ _ => Fit.emit1 rfl).mono (Nat.le_refl _)).mono
      (by simp only [Node.size]; omega))
termination_by structural n => n
theorem fit_stmts (cfg : Cfg) (strict : Bool) : ∀ ns : List Node, Fit (genStmts cfg strict ns) (sizeL ns)
  | [] => by unfold genStmts; exact Fit.pure trivial
  | [n] => by
    unfold genStmts
    exact (Fit.bind (fit_node cfg strict n _) fun _ _ => Fit.pure trivial).mono (by simp [sizeL])
  | n :: n' :: ns => by
    unfold genStmts
    exact (Fit.bind (fit_node cfg strict n _) fun _ _ => fit_stmts cfg strict (n' :: ns)).mono (by simp [sizeL])
termination_by structural n => n
theorem fit_each (cfg : Cfg) (strict : Bool) : ∀ ns : List Node, Fit (genEach cfg strict ns) (sizeL ns)
  | [] => by unfold genEach; exact Fit.pure trivial
  | n :: ns => by
    unfold genEach
    exact (Fit.bind (fit_node cfg strict n _) fun _ _ => fit_each cfg strict ns).mono (by simp [sizeL])
termination_by structural n => n
theorem fit_args (cfg : Cfg) (strict : Bool) : ∀ ns : List Node, Fit (genArgs cfg strict ns) (sizeL ns)
  | [] => by unfold genArgs; exact Fit.pure trivial
  | n :: ns => by
    unfold genArgs
    exact (Fit.bind (fit_node cfg strict n _) fun _ _ => fit_args cfg strict ns).mono (by simp [sizeL])
termination_by structural n => n
theorem fit_rev (cfg : Cfg) (strict : Bool) : ∀ ns : List Node, Fit (genRev cfg strict ns) (sizeL ns)
  | [] => by unfold genRev; exact Fit.pure trivial
  | n :: ns => by
    unfold genRev
    exact (Fit.bind (fit_rev cfg strict ns) fun _ _ => fit_node cfg strict n _).mono (by simp [sizeL]; omega)
termination_by structural n => n
theorem fit_cases (cfg : Cfg) (strict : Bool) : ∀ cs : List (Node × List Node), Fit (genCases cfg strict cs) (sizeC cs)
    fun ps => ∀ p ∈ ps, ∀ q ∈ p.1, q.i.small = true
  | [] => by unfold genCases; exact Fit.pure (by simp)
  | (c, body) :: cs => by
    unfold genCases
    refine Fit.mono (P := fun ps => ∀ p ∈ ps, ∀ q ∈ p.1, q.i.small = true) (Fit.bind (Fit.sub (fit_node cfg strict c .expr)) fun cc hcc =>
      Fit.bind (Fit.sub (Fit.inScope (fit_stmts cfg strict body))) (w' := sizeC cs) fun b hb => Fit.ite (fun _ => Fit.throw) fun h => ?_)
      (by simp only [sizeC]; omega)
    refine Fit.bind (fit_cases cfg strict cs) (w' := 0) fun ps hps => Fit.pure ?_
    intro p hp q hq
    rcases List.mem_cons.1 hp with rfl | hp
    · simp only [List.append_assoc, List.mem_append, List.mem_cons, List.not_mem_nil, or_false] at hq
      rcases hq with hq | (rfl | rfl) | hq
      · exact hcc q hq
      · simp only [Instr.small, decide_eq_true_eq]; omega
      · rfl
      · exact hb q hq
    · exact hps p hp q hq
termination_by structural n => n
theorem fit_else (cfg : Cfg) (strict : Bool) (sp : Span) : ∀ b : Option (List Node), Fit (genElse cfg strict sp b) (sizeO b)
  | some body => by
    unfold genElse
    exact (Fit.bind (Fit.emit1 rfl) fun _ _ => Fit.inScope (fit_stmts cfg strict body)).mono (by simp [sizeO])
  | none => by unfold genElse; exact Fit.emit1 rfl
termination_by structural n => n
theorem fit_opt (cfg : Cfg) (strict : Bool) (sp : Span) : ∀ e : Option Node, Fit (genOpt cfg strict sp e) (sizeE e)
  | some e => by unfold genOpt; exact (fit_node cfg strict e .expr).mono (by simp [sizeE])
  | none => by unfold genOpt; exact Fit.emit1 rfl
termination_by structural n => n
theorem fit_incl (cfg : Cfg) (strict : Bool) (x : String) (xsp : Span) : ∀ b : Option (List Node), Fit (genIncl cfg strict x xsp b) (sizeO b)
  | some b => by unfold genIncl; exact (fit_each cfg strict b).mono (by simp [sizeO])
  | none => by unfold genIncl; exact Fit.throw
termination_by structural n => n
end

/-- Whole programs of bounded size fit, also when the tables are not empty at first (`m` entries). -/
theorem fit_program {cfg : Cfg} {strict : Bool} {ns : List Node} {g : GState} {m : Nat} (hg : GSmall m g) (hm : m + sizeL ns ≤ 65535) :
    genStmts cfg strict ns g ≠ .unfit ∧ ∀ sp c g', genStmts cfg strict ns g = .ok (sp, c, g') →
      GM.fnFits g'.cur c = true ∧ GSmall (m + sizeL ns) g' := by
  have h := fit_stmts cfg strict ns m g hg hm
  refine ⟨fun hu => by rw [hu] at h; exact h, fun sp c g' hx => ?_⟩
  rw [hx] at h
  obtain ⟨_, h1, h2⟩ := h
  have := h2.cur.consts
  have := h2.cur.ups
  simp only [GM.fnFits, Bool.and_eq_true, decide_eq_true_eq, List.all_eq_true]
  exact ⟨⟨⟨h1, by omega⟩, by omega⟩, h2⟩

end Quilt
