import Verif.Compiler.Fits

/-!
# Jumps of generated code

All jumps of generated code lead to instructions of the same code, for functions at any depth.
-/

namespace Quilt

/-- Instructions which neither jump nor use constants. -/
def Instr.plain : Instr → Bool
  | jumpIfFalse _ | jumpIfNotEq _ | jumpForward _ | jumpBackward _ | iterNext _ => false
  | createClosure .. | createFunction _ | loadConst _ => false
  | _ => true

/-- The instruction, between code `a` and code `b`, jumps into one of them (if it jumps): between two instructions. -/
def JumpIn (a : Code) (i : Instr) (b : Code) : Prop :=
  match i with
  | .jumpIfFalse o | .jumpIfNotEq o | .jumpForward o | .iterNext o => ∃ b1 b2, b = b1 ++ b2 ∧ b1.len = o
  | .jumpBackward o => ∃ a1 a2, a = a1 ++ a2 ∧ a2.len + 3 = o
  | _ => True

/-- All jumps of `c` stay in `pre ++ c ++ post`. -/
def JumpsIn (pre c post : Code) : Prop := ∀ a q b, c = a ++ q :: b → JumpIn (pre ++ a) q.i (b ++ post)

abbrev Jumps (c : Code) : Prop := JumpsIn [] c []

theorem JumpIn.mono {a b : Code} {i : Instr} (x y : Code) (h : JumpIn a i b) : JumpIn (x ++ a) i (b ++ y) := by
  unfold JumpIn at h ⊢
  split <;> simp only at h ⊢
  all_goals first
    | trivial
    | (obtain ⟨b1, b2, rfl, h⟩ := h; first | exact ⟨b1, b2 ++ y, by simp, h⟩ | exact ⟨x ++ b1, b2, by simp, h⟩)

theorem JumpsIn.mono {pre c post : Code} (x y : Code) (h : JumpsIn pre c post) : JumpsIn (x ++ pre) c (post ++ y) := by
  intro a q b hc
  have := (h a q b hc).mono x y
  simpa using this

theorem JumpsIn.of {c : Code} (h : Jumps c) (x y : Code) : JumpsIn x c y := by simpa using h.mono x y

theorem JumpsIn.nil {pre post : Code} : JumpsIn pre [] post := by intro a q b h; simp at h

theorem JumpsIn.cons {pre c post : Code} {q : Piece} (h : JumpIn pre q.i (c ++ post)) (h' : JumpsIn (pre ++ [q]) c post) : JumpsIn pre (q :: c) post := by
  intro a r b hc
  cases a with
  | nil => simp only [List.nil_append, List.cons.injEq] at hc; obtain ⟨rfl, rfl⟩ := hc; simpa using h
  | cons x a =>
    simp only [List.cons_append, List.cons.injEq] at hc
    obtain ⟨rfl, rfl⟩ := hc
    simpa using h' a r b rfl

theorem JumpsIn.append {pre c1 c2 post : Code} (h : JumpsIn pre c1 (c2 ++ post)) (h' : JumpsIn (pre ++ c1) c2 post) : JumpsIn pre (c1 ++ c2) post := by
  induction c1 generalizing pre with
  | nil => simpa using h'
  | cons q c ih =>
    refine JumpsIn.cons (by simpa using h [] q c rfl) (ih (fun a r b hc => ?_) (by simpa using h'))
    have := h (q :: a) r b (by simp [hc])
    simpa using this

theorem JumpsIn.single {pre post : Code} {q : Piece} (h : JumpIn pre q.i post) : JumpsIn pre [q] post := JumpsIn.cons (by simpa using h) JumpsIn.nil

/-- The constants used by the instruction are of the right kind. -/
def Instr.InTable (K : List Const) : Instr → Prop
  | createClosure i us => ∃ g, K[i]? = some (.fn g) ∧ g.upvalueCount = us.length
  | createFunction i => ∃ g, K[i]? = some (.fn g) ∧ g.upvalueCount = 0
  | loadConst i => ∃ l, K[i]? = some (.lit l)
  | _ => True

/-- All constants used are of the right kind (unless there are too many). -/
def ClosIn (K : List Const) (c : Code) : Prop := ∀ q ∈ c, K.length ≤ 65536 → q.i.InTable K

theorem Instr.InTable.mono {K K' : List Const} {i : Instr} (hK : K <+: K') (h : i.InTable K) : i.InTable K' := by
  obtain ⟨t, rfl⟩ := hK
  have e : ∀ {j : Nat} {k : Const}, K[j]? = some k → (K ++ t)[j]? = some k := fun {j k} h => by
    rw [List.getElem?_append_left (List.getElem?_eq_some_iff.1 h).1]; exact h
  unfold Instr.InTable at h ⊢
  split <;> simp only at h ⊢
  · obtain ⟨g, h1, h2⟩ := h; exact ⟨g, e h1, h2⟩
  · obtain ⟨g, h1, h2⟩ := h; exact ⟨g, e h1, h2⟩
  · obtain ⟨g, h1⟩ := h; exact ⟨g, e h1⟩

theorem ClosIn.mono {K K' : List Const} {c : Code} (hK : K <+: K') (h : ClosIn K c) : ClosIn K' c :=
  fun q hq hl => (h q hq (Nat.le_trans hK.length_le hl)).mono hK

theorem ClosIn.append {K : List Const} {a b : Code} (h : ClosIn K a) (h' : ClosIn K b) : ClosIn K (a ++ b) := by
  intro q hq
  rcases List.mem_append.1 hq with hq | hq
  · exact h q hq
  · exact h' q hq

structure CodeOk (K : List Const) (c : Code) : Prop where
  jumps : Jumps c
  clos : ClosIn K c

theorem CodeOk.mono {K K' : List Const} {c : Code} (hK : K <+: K') (h : CodeOk K c) : CodeOk K' c := ⟨h.1, h.2.mono hK⟩
theorem CodeOk.append {K : List Const} {a b : Code} (h : CodeOk K a) (h' : CodeOk K b) : CodeOk K (a ++ b) :=
  ⟨JumpsIn.append (.of h.1 _ _) (.of h'.1 _ _), h.2.append h'.2⟩

theorem JumpsIn.plain {c : Code} (h : ∀ q ∈ c, q.i.plain = true) (pre post : Code) : JumpsIn pre c post := by
  intro a q b hc
  have := h q (by simp [hc])
  unfold JumpIn
  split <;> simp_all [Instr.plain]

theorem ClosIn.plain {K : List Const} {c : Code} (h : ∀ q ∈ c, q.i.plain = true) : ClosIn K c := by
  intro q hq _
  have := h q hq
  unfold Instr.InTable
  split <;> simp_all [Instr.plain]

theorem CodeOk.plain {K : List Const} {c : Code} (h : ∀ q ∈ c, q.i.plain = true) : CodeOk K c := ⟨JumpsIn.plain h _ _, ClosIn.plain h⟩

/-- Jump instructions. -/
def Instr.isJump : Instr → Bool
  | jumpIfFalse _ | jumpIfNotEq _ | jumpForward _ | jumpBackward _ | iterNext _ => true
  | _ => false

theorem ClosIn.jump {K : List Const} {i : Instr} {sp : Span} (h : i.isJump = true) : ClosIn K [.at' i sp] := by
  intro q hq _
  simp only [List.mem_singleton] at hq
  subst hq
  show i.InTable K
  cases i <;> first | trivial | simp [Instr.isJump] at h

/-- The function consists of well-formed code, and so do all functions in its constants. -/
inductive FnOk : Func → Prop
  | mk {f : Func} (c : Code) : f.ops = c.ops → CodeOk f.consts c → (∀ q ∈ c, q.i.small = true) → f.consts.length ≤ 65536 →
      (∀ g, .fn g ∈ f.consts → FnOk g) → FnOk f

/-- A pool of constants with well-formed functions only. -/
structure PoolOk (p : Pool Const) : Prop where
  inv : p.Inv
  fns : ∀ f, Const.fn f ∈ p.entries → FnOk f

def LvsOk (g : GState) : Prop := PoolOk g.cur.constPool ∧ ∀ p ∈ g.encl.map (·.constPool), PoolOk p

/-- Constants are only added, and only to the current level. -/
structure Keeps (g g' : GState) : Prop where
  cur : g.cur.constPool.entries <+: g'.cur.constPool.entries
  encl : g'.encl.map (·.constPool) = g.encl.map (·.constPool)

theorem Keeps.refl (g : GState) : Keeps g g := ⟨List.prefix_refl _, rfl⟩
theorem Keeps.trans {a b c : GState} (h : Keeps a b) (h' : Keeps b c) : Keeps a c := ⟨h.cur.trans h'.cur, h'.encl.trans h.encl⟩

/-- The generator emits well-formed code and keeps the pools well-formed. -/
def GJ {α : Type} (K : List Const) (x : GM α) (Q : α → List Const → Prop := fun _ _ => True) : Prop :=
  ∀ g a c g', x g = .ok (a, c, g') → K <+: g.cur.constPool.entries → LvsOk g →
    LvsOk g' ∧ Keeps g g' ∧ CodeOk g'.cur.constPool.entries c ∧ Q a g'.cur.constPool.entries

namespace GJ
open GM
variable {α β : Type} {K : List Const}

theorem bind {x : GM α} {f : α → GM β} {Q : α → List Const → Prop} {R : β → List Const → Prop} (h : GJ K x Q)
    (hf : ∀ a K', K <+: K' → Q a K' → GJ K' (f a) R) : GJ K (x >>= f) R := by
  intro g b c g' hx hK hg
  rw [bind_app] at hx
  cases h1 : x g with
  | ok r =>
    obtain ⟨a, c1, g1⟩ := r
    simp only [h1] at hx
    cases h2 : f a g1 with
    | ok r =>
      obtain ⟨b', c2, g2⟩ := r
      simp only [h2, GRes.ok.injEq, Prod.mk.injEq] at hx
      obtain ⟨rfl, rfl, rfl⟩ := hx
      obtain ⟨k1, k2, k3, k4⟩ := h g a c1 g1 h1 hK hg
      obtain ⟨l1, l2, l3, l4⟩ := hf a _ (hK.trans k2.cur) k4 g1 b' c2 g2 h2 (List.prefix_refl _) k1
      exact ⟨l1, k2.trans l2, (k3.mono l2.cur).append l3, l4⟩
    | _ => simp [h2] at hx
  | _ => simp [h1] at hx

theorem mono {x : GM α} {K' : List Const} (h : GJ K x Q) (hK : K <+: K') : GJ K' x Q := fun g a c g' hx hK' => h g a c g' hx (hK.trans hK')

/-- Sequencing that ignores the value. -/
theorem seq {x : GM α} {f : α → GM β} {Q : α → List Const → Prop} {R : β → List Const → Prop} (h : ∀ K, GJ K x Q) (hf : ∀ a K, GJ K (f a) R) : GJ K (x >>= f) R :=
  bind (h K) fun a K' _ _ => hf a K'

theorem pure {a : α} {Q : α → List Const → Prop} (h : ∀ K', K <+: K' → Q a K') : GJ K (Pure.pure a) Q := by
  intro g b c g' hx hK hg
  simp only [pure_app, GRes.ok.injEq, Prod.mk.injEq] at hx
  obtain ⟨rfl, rfl, rfl⟩ := hx
  exact ⟨hg, .refl _, .plain (by simp), h _ hK⟩

theorem throw {e : Err} {sp : Span} {Q : α → List Const → Prop} : GJ K (GM.throw e sp : GM α) Q := by intro g a c g' hx; simp [GM.throw] at hx
theorem panic {Q : α → List Const → Prop} : GJ K (GM.panic : GM α) Q := by intro g a c g' hx; simp [GM.panic] at hx

theorem emit {c : Code} (h : CodeOk K c) : GJ K (GM.emit c) := by
  intro g a c' g' hx hK hg
  simp only [GM.emit, GRes.ok.injEq, Prod.mk.injEq] at hx
  obtain ⟨_, rfl, rfl⟩ := hx
  exact ⟨hg, .refl _, h.mono hK, trivial⟩

theorem emit1 {i : Instr} {sp : Span} (h : i.plain = true) : GJ K (GM.emit1 i sp) :=
  emit (.plain (by intro q hq; simp only [List.mem_singleton] at hq; subst hq; exact h))

theorem getG : GJ K GM.getG := by
  intro g a c g' hx hK hg
  simp only [GM.getG, GRes.ok.injEq, Prod.mk.injEq] at hx
  obtain ⟨rfl, rfl, rfl⟩ := hx
  exact ⟨hg, .refl _, .plain (by simp), trivial⟩
theorem isGlobal : GJ K GM.isGlobal := by
  intro g a c g' hx hK hg
  simp only [GM.isGlobal, GRes.ok.injEq, Prod.mk.injEq] at hx
  obtain ⟨rfl, rfl, rfl⟩ := hx
  exact ⟨hg, .refl _, .plain (by simp), trivial⟩

theorem sub {x : GM Unit} (h : GJ K x) : GJ K (GM.sub x) fun c K' => CodeOk K' c := by
  intro g a c g' hx hK hg
  simp only [GM.sub] at hx
  cases h1 : x g with
  | ok r =>
    obtain ⟨u, c1, g1⟩ := r
    simp only [h1, GRes.ok.injEq, Prod.mk.injEq] at hx
    obtain ⟨rfl, rfl, rfl⟩ := hx
    obtain ⟨k1, k2, k3, _⟩ := h g u c1 g1 h1 hK hg
    exact ⟨k1, k2, .plain (by simp), k3⟩
  | _ => simp [h1] at hx

/-- State changes that leave constants alone. -/
theorem onG' {f : GState → α × GState} (h : ∀ g, (f g).2.cur.constPool = g.cur.constPool ∧ (f g).2.encl.map (·.constPool) = g.encl.map (·.constPool)) :
    GJ K (GM.onG' f) := by
  intro g a c g' hx hK hg
  simp only [GM.onG', GRes.ok.injEq, Prod.mk.injEq] at hx
  obtain ⟨rfl, rfl, rfl⟩ := hx
  obtain ⟨h1, h2⟩ := h g
  exact ⟨⟨h1 ▸ hg.1, h2 ▸ hg.2⟩, ⟨h1 ▸ List.prefix_refl _, h2⟩, .plain (by simp), trivial⟩

theorem onG {f : GState → GState} (h : ∀ g, (f g).cur.constPool = g.cur.constPool ∧ (f g).encl.map (·.constPool) = g.encl.map (·.constPool)) : GJ K (GM.onG f) := by
  intro g a c g' hx hK hg
  exact onG' (f := fun g => ((), f g)) h g a c g' hx hK hg

theorem ite {x y : GM α} {Q : α → List Const → Prop} {c : Prop} [Decidable c] (h : c → GJ K x Q) (h' : ¬ c → GJ K y Q) : GJ K (if c then x else y) Q := by
  split
  · exact h ‹_›
  · exact h' ‹_›

theorem addConst (l : Literal) : GJ K (GM.onG' fun g => g.addConst (.lit l)) fun i K' => K'.length ≤ 65536 → K'[i]? = some (.lit l) := by
  intro g a c g' hx hK hg
  simp only [GM.onG', GRes.ok.injEq, Prod.mk.injEq] at hx
  obtain ⟨rfl, rfl, rfl⟩ := hx
  refine ⟨⟨⟨Pool.inv_add hg.1.inv _, fun f hf => ?_⟩, hg.2⟩, ⟨Pool.add_prefix _ _, rfl⟩, .plain (by simp), Pool.add_pos hg.1.inv _⟩
  have hf : Const.fn f ∈ (g.cur.constPool.add (.lit l)).2.entries := hf
  rw [Pool.add_entries hg.1.inv] at hf
  split at hf
  · exact hg.1.fns f hf
  · rcases List.mem_append.1 hf with hf | hf
    · exact hg.1.fns f hf
    · simp at hf

theorem loadLit (l : Literal) (sp : Span) : GJ K (GM.onG' (fun g => g.addConst (.lit l)) >>= fun i => GM.emit1 (.loadConst i) sp) :=
  bind (addConst l) fun i K' _ hi => emit ⟨.single trivial, fun q hq hl => by
    simp only [List.mem_singleton] at hq; subst hq; exact ⟨l, hi hl⟩⟩

theorem addUpvalue_consts (l : GLevel) (i : Nat) (b : Bool) (x : String) : (l.addUpvalue i b x).2.constPool = l.constPool := by
  unfold GLevel.addUpvalue; split <;> rfl

theorem resolveUp_consts {x : String} : ∀ {ps : List GLevel} {l : GLevel} {j : Nat} {l' : GLevel} {ps' : List GLevel}, resolveUp x l ps = some (j, l', ps') →
    l'.constPool = l.constPool ∧ ps'.map (·.constPool) = ps.map (·.constPool)
  | [], l, j, l', ps', h => by simp [resolveUp] at h
  | p :: ps, l, j, l', ps', h => by
    simp only [resolveUp] at h
    cases hi : lastIdx x p.locals with
    | some i =>
      simp only [hi, Option.some.injEq, Prod.mk.injEq] at h
      obtain ⟨rfl, rfl, rfl⟩ := h
      exact ⟨addUpvalue_consts _ _ _ _, rfl⟩
    | none =>
      simp only [hi] at h
      cases hr : resolveUp x p ps with
      | none => simp [hr] at h
      | some r =>
        obtain ⟨i, p', ps''⟩ := r
        obtain ⟨k1, k2⟩ := resolveUp_consts hr
        simp only [hr, Option.some.injEq, Prod.mk.injEq] at h
        obtain ⟨rfl, rfl, rfl⟩ := h
        exact ⟨addUpvalue_consts _ _ _ _, by simp [k1, k2]⟩

theorem resolve (x : String) : GJ K (GM.onG' fun g => g.resolve x) := by
  refine onG' fun g => ?_
  simp only [GState.resolve]
  split
  · exact ⟨rfl, rfl⟩
  · split
    · rename_i h; exact resolveUp_consts h
    · exact ⟨rfl, rfl⟩

theorem addGlobal (x : String) : GJ K (GM.onG' fun g => g.addGlobal x) := onG' fun _ => ⟨rfl, rfl⟩

theorem load_plain (r : GState.Ref) : r.load.plain = true := by cases r <;> rfl
theorem store_plain (r : GState.Ref) : r.store.plain = true := by cases r <;> rfl

theorem getVariable (x : String) (sp : Span) : GJ K (GM.getVariable x sp) := seq (fun _ => resolve x) fun r _ => emit1 (load_plain r)
theorem setVariable (x : String) (sp : Span) : GJ K (GM.setVariable x sp) := seq (fun _ => resolve x) fun r _ => emit1 (store_plain r)

theorem defineLocals_same : ∀ (xs : List String) (g : GState), (g.defineLocals xs).cur.constPool = g.cur.constPool ∧ (g.defineLocals xs).encl.map (·.constPool) = g.encl.map (·.constPool)
  | [], _ => ⟨rfl, rfl⟩
  | x :: xs, g => defineLocals_same xs (g.defineLocal x)

theorem defineLocals (xs : List String) : GJ K (GM.defineLocals xs) := onG (defineLocals_same xs)
theorem defineGlobal (x : String) (sp : Span) : GJ K (GM.defineGlobal x sp) := seq (fun _ => addGlobal x) fun _ _ => emit1 rfl
theorem defineGlobals : ∀ xs : List Name, ∀ K, GJ K (GM.defineGlobals xs)
  | [], _ => pure fun _ _ => trivial
  | (x, sp) :: xs, _ => seq (fun _ => defineGlobal x sp) fun _ _ => defineGlobals xs _

theorem flush_plain (sp : Span) (q : Nat) : ∀ p ∈ GM.flush q sp, p.i.plain = true := by
  intro p hp
  unfold GM.flush at hp
  split at hp
  · simp only [List.mem_singleton] at hp; subst hp; rfl
  · split at hp
    · simp only [List.mem_singleton] at hp; subst hp; rfl
    · simp at hp

theorem exitOps_plain (sp : Span) : ∀ (cs : List Bool) (q : Nat), ∀ p ∈ GM.exitOps sp cs q, p.i.plain = true
  | [], q => flush_plain sp q
  | false :: cs, q => exitOps_plain sp cs (q + 1)
  | true :: cs, q => by
    intro p hp
    simp only [GM.exitOps, List.mem_append, List.mem_singleton] at hp
    rcases hp with (hp | rfl) | hp
    · exact flush_plain sp q p hp
    · rfl
    · exact exitOps_plain sp cs 0 p hp

theorem exitCode_plain (sp : Span) (cs : List Bool) : ∀ p ∈ GM.exitCode sp cs, p.i.plain = true := by
  intro p hp
  unfold GM.exitCode at hp
  split at hp
  · simp at hp
  · simp only [List.mem_append, List.mem_singleton] at hp
    rcases hp with (rfl | hp) | rfl
    · rfl
    · exact exitOps_plain sp cs 0 p hp
    · rfl

theorem exitScope (sp : Span) : GJ K (GM.exitScope sp) := by
  intro g a c g' hx hK hg
  simp only [GM.exitScope, GRes.ok.injEq, Prod.mk.injEq] at hx
  obtain ⟨_, rfl, rfl⟩ := hx
  exact ⟨hg, ⟨List.prefix_refl _, rfl⟩, .plain (exitCode_plain _ _), trivial⟩

theorem enterScope : GJ K (GM.onG GState.enterScope) := onG fun _ => ⟨rfl, rfl⟩
theorem reserveTemp : GJ K (GM.onG GState.reserveTemp) := onG fun _ => ⟨rfl, rfl⟩

theorem inScope {body : GM Span} (h : ∀ K, GJ K body) : GJ K (GM.inScope body) :=
  seq (fun _ => enterScope) fun _ _ => seq h fun s _ => exitScope s

theorem ctxVar (sp csp : Span) : ∀ v : Option Var, GJ K (GM.ctxVar sp csp v)
  | some (.one (y, ysp)) => seq (fun _ => defineLocals [y]) fun _ _ => setVariable y ysp
  | some (.many xs) => ite (fun _ => throw) fun _ => seq (fun _ => emit1 rfl) fun _ _ => defineLocals (xs.map Prod.fst).reverse
  | none => emit1 rfl

theorem declVar (sp : Span) : ∀ v : Var, GJ K (GM.declVar sp v)
  | .one (x, xsp) => seq (fun _ => isGlobal) fun _ _ => ite (fun _ => defineGlobal x xsp) fun _ => seq (fun _ => defineLocals [x]) fun _ _ => setVariable x xsp
  | .many xs => ite (fun _ => throw) fun _ => seq (fun _ => emit1 rfl) fun _ _ => seq (fun _ => isGlobal) fun b _ =>
      (ite (fun _ => defineGlobals xs _) fun _ => defineLocals (xs.map Prod.fst).reverse : GJ _ (if b = true then GM.defineGlobals xs else GM.defineLocals (xs.map Prod.fst).reverse))

theorem gexprIn {m : Mode} {sp : Span} {act : GM Unit} (h : ∀ K, GJ K act) : GJ K (Quilt.gexprIn m sp act) :=
  seq h fun _ _ => ite (fun _ => emit1 rfl) fun _ => pure fun _ _ => trivial

theorem gstmtIn {m : Mode} {sp : Span} {act : GM Unit} (h : GJ K act) : GJ K (Quilt.gstmtIn m sp act) := by
  cases m with
  | expr => exact throw
  | stmt => exact h

/-- A finished function is well-formed. -/
theorem finish_ok {l : GLevel} {h : Head} {c : Code} (hp : PoolOk l.constPool) (hc : CodeOk l.constPool.entries c) (hf : fnFits l c = true)
    (hh : h.chunk = Chunk.empty.emit c) : FnOk (CM.finish l h) := by
  simp only [fnFits, Bool.and_eq_true, decide_eq_true_eq, List.all_eq_true] at hf
  by_cases hd : l.depth = 0
  · refine .mk (c ++ [.at' .ret Span.default]) ?_ (hc.append (.plain (by simp [Instr.plain]))) ?_ hf.1.2 hp.fns
    · simp [CM.finish, hd, Func.ops, Chunk.writeU8, Bytes.writeU8, Code.ops, Instr.enc, hh, Chunk.emit, Chunk.empty]
    · intro q hq
      rcases List.mem_append.1 hq with hq | hq
      · exact hf.1.1 q hq
      · simp only [List.mem_singleton] at hq; subst hq; rfl
  · refine .mk c ?_ hc hf.1.1 hf.1.2 hp.fns
    simp [CM.finish, hd, Func.ops, hh, Chunk.emit, Chunk.empty]

theorem func {name : Name} {params : List Name} {sp : Span} {body : GM Span} (h : ∀ K, GJ K body) : GJ K (GM.func true name params sp body) := by
  intro g a c g' hx hK hg
  obtain ⟨e1, e2⟩ := defineLocals_same (name.1 :: params.map Prod.fst) ({ g with cur := GLevel.fresh g.cur.depth, encl := g.cur :: g.encl } : GState)
  have hg1 : LvsOk (g.enterFn name.1 (params.map Prod.fst)) := by
    refine ⟨?_, ?_⟩
    · show PoolOk (GState.defineLocals _ _).cur.constPool
      rw [e1]
      exact ⟨Pool.inv_empty, by simp [GLevel.fresh, Pool.empty]⟩
    · show ∀ p ∈ (GState.defineLocals _ _).encl.map (·.constPool), PoolOk p
      rw [e2]
      intro p hp
      simp only [List.map_cons, List.mem_cons] at hp
      rcases hp with rfl | hp
      · exact hg.1
      · exact hg.2 p hp
  simp only [GM.func] at hx
  cases h1 : body (g.enterFn name.1 (params.map Prod.fst)) with
  | ok r =>
    obtain ⟨s, cb, g1⟩ := r
    simp only [h1] at hx
    obtain ⟨k1, k2, k3, _⟩ := h [] _ _ _ _ h1 (List.nil_prefix) hg1
    have ke : g1.encl.map (·.constPool) = g.cur.constPool :: g.encl.map (·.constPool) := k2.encl.trans e2
    cases h2 : g1.encl with
    | nil => rw [h2] at ke; simp at ke
    | cons l ls =>
      rw [h2, List.map_cons, List.cons.injEq] at ke
      simp only [h2, Bool.true_and] at hx
      cases hf : fnFits g1.cur cb with
      | false => simp [hf] at hx
      | true =>
        simp only [hf, Bool.not_true, Bool.false_eq_true, if_false, GRes.ok.injEq, Prod.mk.injEq] at hx
        obtain ⟨_, rfl, rfl⟩ := hx
        have hfn : FnOk (mkFunc name params.length g1.cur cb) := finish_ok k1.1 k3 hf rfl
        have hpl : PoolOk l.constPool := ke.1 ▸ hg.1
        have hup : (mkFunc name params.length g1.cur cb).upvalueCount = g1.cur.upvalues.length := by
          simp only [fnFits, Bool.and_eq_true, decide_eq_true_eq] at hf
          exact Nat.mod_eq_of_lt hf.2
        generalize mkFunc name params.length g1.cur cb = fn at *
        refine ⟨⟨⟨Pool.inv_add hpl.inv _, fun f hf' => ?_⟩, ?_⟩, ⟨?_, ke.2⟩, ⟨?_, ?_⟩, trivial⟩
        · have hf' : Const.fn f ∈ (l.constPool.add (.fn fn)).2.entries := hf'
          rw [Pool.add_entries hpl.inv] at hf'
          split at hf'
          · exact hpl.fns f hf'
          · rcases List.mem_append.1 hf' with hf' | hf'
            · exact hpl.fns f hf'
            · simp only [List.mem_singleton, Const.fn.injEq] at hf'; subst hf'; exact hfn
        · show ∀ p ∈ ls.map (·.constPool), PoolOk p
          rw [ke.2]; exact hg.2
        · show _ <+: (l.constPool.add (.fn fn)).2.entries
          rw [← ke.1]; exact Pool.add_prefix _ _
        · refine JumpsIn.single ?_
          unfold JumpIn GM.closInstr
          split <;> simp_all <;> split at * <;> simp_all
        · intro q hq hl
          simp only [List.mem_singleton] at hq
          subst hq
          show (GM.closInstr _ _).InTable _
          unfold GM.closInstr
          split
          · rename_i hu
            exact ⟨fn, Pool.add_pos hpl.inv _ hl, by rw [hup]; simpa using hu⟩
          · exact ⟨fn, Pool.add_pos hpl.inv _ hl, by rw [hup]; simp⟩
  | _ => simp [h1] at hx

/-- Code of a case, which is followed by a jump. -/
structure CaseOk (K : List Const) (p : Code × Span) : Prop where
  jumps : ∀ o, JumpsIn [] p.1 [.at' (.jumpForward o) p.2]
  clos : ClosIn K p.1

theorem CaseOk.mono {K K' : List Const} {p : Code × Span} (hK : K <+: K') (h : CaseOk K p) : CaseOk K' p := ⟨h.1, h.2.mono hK⟩

theorem assemble : ∀ (ps : List (Code × Span)) {d : Code}, (∀ p ∈ ps, CaseOk K p) → CodeOk K d → CodeOk K (GM.assemble ps d)
  | [], _, _, hd => hd
  | (c, sp) :: ps, d, hps, hd => by
    have h1 := hps (c, sp) (by simp)
    have h2 := assemble ps (fun p hp => hps p (List.mem_cons_of_mem _ hp)) hd
    simp only [GM.assemble]
    refine ⟨.append (.append (by simpa using (h1.1 (GM.assemble ps d).len).mono [] (GM.assemble ps d)) (.single ?_)) (.of h2.1 _ _), (h1.2.append (.jump rfl)).append h2.2⟩
    exact ⟨GM.assemble ps d, [], by simp, rfl⟩

theorem externTail (x : String) (xsp : Span) : GJ K (do
    if !(← GM.isGlobal) then GM.throw (.name (.externalNotGlobal x)) xsp
    else
      let i ← GM.onG' fun g => g.addGlobal x
      let g ← GM.getG
      if i ∈ g.externals then GM.throw (.name (.externalRedefined x)) xsp
      else
        GM.onG fun g => { g with externals := i :: g.externals }
        GM.emit1 (.defineGlobalDefaulted i) xsp) := by
  refine seq (fun _ => isGlobal) fun b _ => ite (fun _ => throw) fun _ => seq (fun _ => addGlobal x) fun i _ => seq (fun _ => getG) fun g _ => ite (fun _ => throw) fun _ => ?_
  exact seq (fun _ => onG fun _ => ⟨rfl, rfl⟩) fun _ _ => emit1 rfl

end GJ

theorem JumpIn.fwd {a b : Code} {b1 b2 : Code} {i : Instr} {o : Nat} (hi : i = .jumpIfFalse o ∨ i = .jumpIfNotEq o ∨ i = .jumpForward o ∨ i = .iterNext o)
    (hb : b = b1 ++ b2) (hl : b1.len = o) : JumpIn a i b := by
  rcases hi with rfl | rfl | rfl | rfl <;> exact ⟨b1, b2, hb, hl⟩

theorem for_code {K : List Const} {b : Code} {sp xsp : Span} (hb : CodeOk K b) :
    CodeOk K ([.at' (.iterNext (b.len + 3)) sp] ++ b ++ [.at' (.jumpBackward (b.len + 6)) xsp]) := by
  refine ⟨.append (.append (.single (.fwd (.inr (.inr (.inr rfl))) (b1 := b ++ [.at' (.jumpBackward (b.len + 6)) xsp]) (b2 := []) ?_ ?_)) (.of hb.1 _ _))
    (.single ⟨[], [.at' (.iterNext (b.len + 3)) sp] ++ b, ?_, ?_⟩), ((ClosIn.jump rfl).append hb.2).append (.jump rfl)⟩
  · simp
  · simp [Instr.enc, u16le]
  · simp
  · simp [Instr.enc, u16le]; omega

mutual
theorem gj_node (cfg : Cfg) : ∀ (n : Node) (m : Mode) (K : List Const), GJ K (genNode cfg true m n)
  | .lit sp l, m, K => by
    unfold genNode
    refine GJ.gexprIn fun K => ?_
    cases l with
    | none => exact GJ.emit1 rfl
    | _ => exact GJ.loadLit _ _
  | .ident sp x, m, K => by unfold genNode; exact GJ.gexprIn fun _ => GJ.getVariable x sp
  | .assign sp (x, xsp) e, m, K => by unfold genNode; exact GJ.gexprIn fun _ => GJ.seq (gj_node cfg e .expr) fun _ _ => GJ.setVariable x xsp
  | .un sp op e, m, K => by
    unfold genNode
    refine GJ.gexprIn fun K => ?_
    cases hf : foldUnary cfg op e with
    | some r =>
      cases r with
      | ok l => exact GJ.loadLit _ _
      | err => exact GJ.panic
      | panic => exact GJ.panic
    | none => exact GJ.seq (gj_node cfg e .expr) fun _ _ => GJ.ite (fun h => GJ.emit1 rfl) fun _ => GJ.panic
  | .bin sp op a b, m, K => by
    unfold genNode
    exact GJ.gexprIn fun _ => GJ.seq (gj_node cfg a .expr) fun _ _ => GJ.seq (gj_node cfg b .expr) fun _ _ => GJ.ite (fun _ => GJ.panic) fun h => GJ.emit1 rfl
  | .pair sp a b, m, K => by
    unfold genNode
    exact GJ.gexprIn fun _ => GJ.seq (gj_node cfg a .expr) fun _ _ => GJ.seq (gj_node cfg b .expr) fun _ _ => GJ.emit1 rfl
  | .range sp a b, m, K => by
    unfold genNode
    exact GJ.gexprIn fun _ => GJ.seq (gj_node cfg a .expr) fun _ _ => GJ.seq (gj_node cfg b .expr) fun _ _ => GJ.emit1 rfl
  | .index sp a b, m, K => by
    unfold genNode
    exact GJ.gexprIn fun _ => GJ.seq (gj_node cfg b .expr) fun _ _ => GJ.seq (gj_node cfg a .expr) fun _ _ => GJ.emit1 rfl
  | .array sp items, m, K => by
    unfold genNode
    exact GJ.gexprIn fun _ => GJ.ite (fun _ => GJ.throw) fun _ => GJ.seq (gj_rev cfg items) fun _ _ => GJ.emit1 rfl
  | .block sp body, m, K => by unfold genNode; exact GJ.gexprIn fun _ => GJ.inScope (gj_stmts cfg body)
  | .call sp f args, m, K => by
    unfold genNode
    exact GJ.gexprIn fun _ => GJ.ite (fun _ => GJ.throw) fun _ => GJ.seq (gj_node cfg f .expr) fun _ _ => GJ.seq (gj_args cfg args) fun _ _ => GJ.emit1 rfl
  | .builtin sp x args, m, K => by
    unfold genNode
    exact GJ.gexprIn fun _ => GJ.ite (fun _ => GJ.throw) fun _ => GJ.seq (gj_args cfg args) fun _ _ => GJ.seq (fun _ => GJ.addGlobal x.1) fun i _ =>
      GJ.emit (.plain (by simp [Instr.plain]))
  | .ctx sp x args v body, m, K => by
    unfold genNode
    exact GJ.gexprIn fun _ => GJ.ite (fun _ => GJ.throw) fun _ => GJ.seq (gj_args cfg args) fun _ _ => GJ.seq (fun _ => GJ.addGlobal x.1) fun i _ =>
      GJ.seq (fun _ => GJ.emit (.plain (by simp [Instr.plain]))) fun _ _ => GJ.seq (fun _ => GJ.enterScope) fun _ _ => GJ.seq (fun _ => GJ.ctxVar sp x.2 v) fun _ _ =>
      GJ.seq (gj_stmts cfg body) fun _ _ => GJ.seq (fun _ => GJ.exitScope sp) fun _ _ => GJ.emit1 rfl
  | .cond sp c th el, m, K => by
    unfold genNode
    refine GJ.gexprIn fun _ => GJ.seq (fun _ => GJ.emit1 rfl) fun _ _ => GJ.seq (gj_node cfg c .expr) fun _ K => ?_
    refine GJ.bind (GJ.sub (GJ.inScope (gj_stmts cfg th))) fun a K1 hK1 ha => GJ.ite (fun _ => GJ.throw) fun _ => ?_
    refine GJ.bind (GJ.sub (gj_else cfg sp el _)) fun b K2 hK2 hb => GJ.ite (fun _ => GJ.throw) fun _ => GJ.emit ?_
    replace ha := ha.mono hK2
    refine ⟨.append (.append (.append (.cons (.fwd (.inl rfl) (b1 := .at' (.popMany 2) sp :: a ++ [.at' (.jumpForward b.len) sp]) (b2 := b) ?_ ?_) (.plain ?_ _ _)) (.of ha.1 _ _))
      (.single (.fwd (.inr (.inr (.inl rfl))) (b1 := b) (b2 := []) ?_ rfl))) (.of hb.1 _ _), ?_⟩
    · simp
    · simp [Instr.enc, u16le]; omega
    · simp [Instr.plain]
    · simp
    · refine ClosIn.append (ClosIn.append (ClosIn.append (ClosIn.append (a := [_]) (b := [_]) (.jump rfl) (.plain ?_)) ha.2) (.jump rfl)) hb.2
      simp [Instr.plain]
  | .switch sp v cs d, m, K => by
    unfold genNode
    refine GJ.gexprIn fun _ => GJ.seq (fun _ => GJ.emit1 rfl) fun _ _ => GJ.seq (gj_node cfg v .expr) fun _ K => ?_
    refine GJ.bind (gj_cases cfg cs K) fun ps K1 hK1 hps => GJ.bind (GJ.sub (gj_else cfg sp d _)) fun b K2 hK2 hb => GJ.ite (fun _ => GJ.throw) fun _ => GJ.emit ?_
    exact GJ.assemble ps (fun p hp => (hps p hp).mono hK2) hb
  | .while sp c body, m, K => by
    unfold genNode
    refine GJ.gexprIn fun _ => GJ.seq (fun _ => GJ.emit1 rfl) fun _ K => ?_
    refine GJ.bind (GJ.sub (gj_node cfg c .expr K)) fun cc K1 hK1 hcc => GJ.bind (GJ.sub (GJ.inScope (gj_stmts cfg body))) fun b K2 hK2 hb =>
      GJ.ite (fun _ => GJ.throw) fun _ => GJ.emit ?_
    replace hcc := hcc.mono hK2
    refine ⟨.append (.append (.append (.of hcc.1 _ _) (.cons (.fwd (.inl rfl) (b1 := .at' (.popMany 2) c.span :: b ++ [.at' (.jumpBackward (cc.len + b.len + 9)) c.span])
      (b2 := [.at' .pop c.span]) ?_ ?_) (.plain ?_ _ _))) (.of hb.1 _ _)) (.cons ⟨[], cc ++ [.at' (.jumpIfFalse (b.len + 6)) sp, .at' (.popMany 2) c.span] ++ b, ?_, ?_⟩ (.plain ?_ _ _)), ?_⟩
    · simp
    · simp [Instr.enc, u16le]; omega
    · simp [Instr.plain]
    · simp
    · simp [Instr.enc, u16le]; omega
    · simp [Instr.plain]
    · refine ClosIn.append (ClosIn.append (hcc.2.append (ClosIn.append (a := [_]) (b := [_]) (.jump rfl) (.plain ?_))) hb.2) (ClosIn.append (a := [_]) (b := [_]) (.jump rfl) (.plain ?_))
      · simp [Instr.plain]
      · simp [Instr.plain]
  | .forIn sp (x, xsp) it body, m, K => by
    unfold genNode
    refine GJ.gexprIn fun _ => GJ.seq (fun _ => GJ.enterScope) fun _ _ => GJ.seq (fun _ => GJ.reserveTemp) fun _ _ => GJ.seq (fun _ => GJ.reserveTemp) fun _ _ =>
      GJ.seq (fun _ => GJ.emit1 rfl) fun _ _ => GJ.seq (gj_node cfg it .expr) fun _ _ => GJ.seq (fun _ => GJ.enterScope) fun _ _ => GJ.seq (fun _ => GJ.emit1 rfl) fun _ K => ?_
    refine GJ.bind (GJ.sub (GJ.seq (fun _ => GJ.emit1 rfl) fun _ _ => GJ.seq (fun _ => GJ.defineLocals [x]) fun _ _ => GJ.seq (gj_stmts cfg body) fun _ _ => GJ.exitScope sp)) fun b K1 hK1 hb =>
      GJ.ite (fun _ => GJ.throw) fun _ => GJ.bind (GJ.emit (for_code hb)) fun _ _ _ _ => GJ.exitScope sp
  | .forMulti sp xs it body, m, K => by
    unfold genNode
    refine GJ.gexprIn fun _ => GJ.seq (fun _ => GJ.enterScope) fun _ _ => GJ.ite (fun _ => GJ.throw) fun _ => GJ.seq (fun _ => GJ.reserveTemp) fun _ _ => GJ.seq (fun _ => GJ.reserveTemp) fun _ _ =>
      GJ.seq (fun _ => GJ.emit1 rfl) fun _ _ => GJ.seq (gj_node cfg it .expr) fun _ _ => GJ.seq (fun _ => GJ.enterScope) fun _ _ => GJ.seq (fun _ => GJ.emit1 rfl) fun _ K => ?_
    refine GJ.bind (GJ.sub (GJ.seq (fun _ => GJ.emit1 rfl) fun _ _ => GJ.seq (fun _ => GJ.emit1 rfl) fun _ _ => GJ.seq (fun _ => GJ.defineLocals (xs.map Prod.fst).reverse) fun _ _ => GJ.seq (gj_stmts cfg body) fun _ _ => GJ.exitScope sp)) fun b K1 hK1 hb =>
      GJ.ite (fun _ => GJ.throw) fun _ => GJ.bind (GJ.emit (for_code hb)) fun _ _ _ _ => GJ.exitScope sp
  | .lambda sp ps body, m, K => by
    unfold genNode
    exact GJ.gexprIn fun _ => GJ.ite (fun _ => GJ.throw) fun _ => GJ.func (gj_stmts cfg body)
  | .func sp name ps body, m, K => by
    unfold genNode
    exact GJ.gstmtIn (GJ.ite (fun _ => GJ.throw) fun _ => GJ.seq (fun _ => GJ.func (gj_stmts cfg body)) fun _ _ => GJ.seq (fun _ => GJ.isGlobal) fun b _ =>
      GJ.ite (fun _ => GJ.defineGlobal name.1 sp) fun _ => GJ.seq (fun _ => GJ.defineLocals [name.1]) fun _ _ => GJ.setVariable name.1 sp)
  | .decl sp v e, m, K => by
    unfold genNode
    exact GJ.gstmtIn (GJ.seq (gj_node cfg e .expr) fun _ _ => GJ.declVar sp v)
  | .extern sp (x, xsp) e, m, K => by
    unfold genNode
    exact GJ.gstmtIn (GJ.seq (gj_node cfg e .expr) fun _ _ => GJ.externTail x xsp)
  | .include sp (x, xsp) body, m, K => by
    unfold genNode
    exact GJ.gstmtIn (GJ.seq (fun _ => GJ.getG) fun g _ => GJ.ite (fun _ => GJ.throw) fun _ => gj_incl cfg x xsp body _)
  | .ret sp e, m, K => by
    unfold genNode
    exact GJ.gstmtIn (GJ.seq (fun _ => GJ.getG) fun g _ => GJ.ite (fun _ => GJ.throw) fun _ => GJ.seq (gj_opt cfg sp e) fun _ _ => GJ.emit1 rfl)
termination_by structural n => n
theorem gj_stmts (cfg : Cfg) : ∀ (ns : List Node) (K : List Const), GJ K (genStmts cfg true ns)
  | [], _ => by unfold genStmts; exact GJ.pure fun _ _ => trivial
  | [n], _ => by unfold genStmts; exact GJ.seq (gj_node cfg n _) fun _ _ => GJ.pure fun _ _ => trivial
  | n :: n' :: ns, _ => by unfold genStmts; exact GJ.seq (gj_node cfg n _) fun _ => gj_stmts cfg (n' :: ns)
termination_by structural n => n
theorem gj_each (cfg : Cfg) : ∀ (ns : List Node) (K : List Const), GJ K (genEach cfg true ns)
  | [], _ => by unfold genEach; exact GJ.pure fun _ _ => trivial
  | n :: ns, _ => by unfold genEach; exact GJ.seq (gj_node cfg n _) fun _ => gj_each cfg ns
termination_by structural n => n
theorem gj_args (cfg : Cfg) : ∀ (ns : List Node) (K : List Const), GJ K (genArgs cfg true ns)
  | [], _ => by unfold genArgs; exact GJ.pure fun _ _ => trivial
  | n :: ns, _ => by unfold genArgs; exact GJ.seq (gj_node cfg n _) fun _ => gj_args cfg ns
termination_by structural n => n
theorem gj_rev (cfg : Cfg) : ∀ (ns : List Node) (K : List Const), GJ K (genRev cfg true ns)
  | [], _ => by unfold genRev; exact GJ.pure fun _ _ => trivial
  | n :: ns, _ => by unfold genRev; exact GJ.seq (gj_rev cfg ns) fun _ => gj_node cfg n _
termination_by structural n => n
theorem gj_cases (cfg : Cfg) : ∀ (cs : List (Node × List Node)) (K : List Const), GJ K (genCases cfg true cs) fun ps K' => ∀ p ∈ ps, GJ.CaseOk K' p
  | [], _ => by unfold genCases; exact GJ.pure fun _ _ => by simp
  | (c, body) :: cs, K => by
    unfold genCases
    refine GJ.bind (GJ.sub (gj_node cfg c .expr K)) fun cc K1 hK1 hcc => GJ.bind (GJ.sub (GJ.inScope (gj_stmts cfg body))) fun b K2 hK2 hb => GJ.ite (fun _ => GJ.throw) fun _ =>
      GJ.bind (gj_cases cfg cs K2) fun ps K3 hK3 hps => GJ.pure fun K4 hK4 p hp => ?_
    rcases List.mem_cons.1 hp with rfl | hp
    · replace hcc := hcc.mono (hK2.trans (hK3.trans hK4))
      replace hb := hb.mono (hK3.trans hK4)
      refine ⟨fun o => .append (.append (.of hcc.1 _ _) (.cons (.fwd (.inr (.inl rfl)) (b1 := .at' (.popMany 2) c.span :: b ++ [.at' (.jumpForward o) c.span]) (b2 := []) ?_ ?_)
        (.plain ?_ _ _))) (.of hb.1 _ _), ClosIn.append (hcc.2.append (ClosIn.append (a := [_]) (b := [_]) (.jump rfl) (.plain ?_))) hb.2⟩
      · simp
      · simp [Instr.enc, u16le]; omega
      · simp [Instr.plain]
      · simp [Instr.plain]
    · exact (hps p hp).mono hK4
termination_by structural n => n
theorem gj_else (cfg : Cfg) (sp : Span) : ∀ (b : Option (List Node)) (K : List Const), GJ K (genElse cfg true sp b)
  | some body, _ => by unfold genElse; exact GJ.seq (fun _ => GJ.emit1 rfl) fun _ _ => GJ.inScope (gj_stmts cfg body)
  | none, _ => by unfold genElse; exact GJ.emit1 rfl
termination_by structural n => n
theorem gj_opt (cfg : Cfg) (sp : Span) : ∀ (e : Option Node) (K : List Const), GJ K (genOpt cfg true sp e)
  | some e, K => by unfold genOpt; exact gj_node cfg e .expr K
  | none, _ => by unfold genOpt; exact GJ.emit1 rfl
termination_by structural n => n
theorem gj_incl (cfg : Cfg) (x : String) (xsp : Span) : ∀ (b : Option (List Node)) (K : List Const), GJ K (genIncl cfg true x xsp b)
  | some b, K => by unfold genIncl; exact gj_each cfg b K
  | none, _ => by unfold genIncl; exact GJ.throw
termination_by structural n => n
end

end Quilt
