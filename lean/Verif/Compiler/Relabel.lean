import Verif.Compiler.Compile

/-!
# Renaming, and moving to other places

The compiler applied to a program whose names and places have been replaced one by one. Used for C96.
-/

namespace Quilt

/-- Names are replaced by names and places by places, different ones by different ones. The names that the compiler invents stay, and the default place. -/
structure Relabel where
  name : String → String
  place : Span → Span
  name_inj : ∀ x y, name x = name y → x = y
  place_inj : ∀ x y, place x = place y → x = y
  lambda : name "@__lambda__" = "@__lambda__"
  main : name "@__main__" = "@__main__"
  temp : ∀ n, name ("#__temp_" ++ String.ofList (showNat n)) = "#__temp_" ++ String.ofList (showNat n)
  default : place Span.default = Span.default

namespace Relabel

def onName (R : Relabel) (x : Name) : Name := (R.name x.1, R.place x.2)

def var (R : Relabel) : Var → Var
  | .one x => .one (R.onName x)
  | .many xs => .many (xs.map R.onName)

mutual
/-- The program with other names and places. Names of builtins are replaced as well; a renaming may leave them. Names of included files stay. -/
def node (R : Relabel) : Node → Node
  | .lit sp l => .lit (R.place sp) l
  | .array sp xs => .array (R.place sp) (nodes R xs)
  | .pair sp a b => .pair (R.place sp) (node R a) (node R b)
  | .range sp a b => .range (R.place sp) (node R a) (node R b)
  | .ident sp x => .ident (R.place sp) (R.name x)
  | .decl sp v e => .decl (R.place sp) (R.var v) (node R e)
  | .extern sp x e => .extern (R.place sp) (R.onName x) (node R e)
  | .assign sp x e => .assign (R.place sp) (R.onName x) (node R e)
  | .func sp x ps b => .func (R.place sp) (R.onName x) (ps.map R.onName) (nodes R b)
  | .lambda sp ps b => .lambda (R.place sp) (ps.map R.onName) (nodes R b)
  | .block sp b => .block (R.place sp) (nodes R b)
  | .cond sp c t e => .cond (R.place sp) (node R c) (nodes R t) (nodesO R e)
  | .switch sp v cs d => .switch (R.place sp) (node R v) (casesOf R cs) (nodesO R d)
  | .forIn sp x i b => .forIn (R.place sp) (R.onName x) (node R i) (nodes R b)
  | .forMulti sp xs i b => .forMulti (R.place sp) (xs.map R.onName) (node R i) (nodes R b)
  | .while sp c b => .while (R.place sp) (node R c) (nodes R b)
  | .bin sp o a b => .bin (R.place sp) o (node R a) (node R b)
  | .un sp o a => .un (R.place sp) o (node R a)
  | .call sp f as => .call (R.place sp) (node R f) (nodes R as)
  | .builtin sp x as => .builtin (R.place sp) (R.onName x) (nodes R as)
  | .ctx sp x as v b => .ctx (R.place sp) (R.onName x) (nodes R as) (v.map R.var) (nodes R b)
  | .index sp e i => .index (R.place sp) (node R e) (node R i)
  | .include sp x b => .include (R.place sp) (x.1, R.place x.2) (nodesO R b)
  | .ret sp e => .ret (R.place sp) (nodeO R e)
termination_by structural n => n
def nodes (R : Relabel) : List Node → List Node
  | [] => []
  | n :: ns => node R n :: nodes R ns
termination_by structural n => n
def nodesO (R : Relabel) : Option (List Node) → Option (List Node)
  | some b => some (nodes R b)
  | none => none
termination_by structural n => n
def nodeO (R : Relabel) : Option Node → Option Node
  | some e => some (node R e)
  | none => none
termination_by structural n => n
def casesOf (R : Relabel) : List (Node × List Node) → List (Node × List Node)
  | [] => []
  | (c, b) :: cs => (node R c, nodes R b) :: casesOf R cs
termination_by structural n => n
end

def spans (R : Relabel) (r : Rle Span) : Rle Span := ⟨r.runs.map fun p => (p.1, R.place p.2)⟩

mutual
/-- A compiled function with other names and places: the instructions and the other constants stay. -/
def func (R : Relabel) : Func → Func
  | .mk n sp a u ops ss cs ys => .mk (R.name n) (R.place sp) a u ops (R.spans ss) (consts R cs) (ys.map R.name)
termination_by structural f => f
def const (R : Relabel) : Const → Const
  | .lit l => .lit l
  | .fn f => .fn (func R f)
termination_by structural c => c
def consts (R : Relabel) : List Const → List Const
  | [] => []
  | c :: cs => const R c :: consts R cs
termination_by structural c => c
end

/-- Errors about names. -/
def err (R : Relabel) : Err → Err
  | .name (.externalNotGlobal x) => .name (.externalNotGlobal (R.name x))
  | .name (.externalRedefined x) => .name (.externalRedefined (R.name x))
  | e => e

def pool {α : Type} (f : α → α) (p : Pool α) : Pool α := ⟨p.entries.map f, p.dups.map fun q => (f q.1, q.2)⟩

/-- The script with other names and places. -/
def script (R : Relabel) (s : Script) : Script := ⟨s.externals, pool R.name s.syms, R.func s.fn⟩

/-- What the compiler answers. -/
def out {α β : Type} (R : Relabel) (f : α → β) : COut α → COut β
  | .ok a => .ok (f a)
  | .err e sp => .err (R.err e) (R.place sp)
  | .panic => .panic

/-! ## States of the compiler -/

def loc (R : Relabel) (l : Local) : Local := { l with name := R.name l.name }
def upv (R : Relabel) (u : Upv) : Upv := { u with name := R.name u.name }

def level (R : Relabel) (l : GLevel) : GLevel :=
  ⟨l.locals.map R.loc, l.upvalues.map R.upv, l.depth, pool R.name l.symPool, pool R.const l.constPool⟩

def gstate (R : Relabel) (g : GState) : GState := ⟨R.level g.cur, g.encl.map R.level, pool R.name g.globals, g.externals⟩

def chunk (R : Relabel) (c : Chunk) : Chunk := ⟨c.ops, R.spans c.spans⟩

def head (R : Relabel) (h : Head) : Head := ⟨R.name h.name, R.place h.span, h.arity, R.chunk h.chunk⟩

def state (R : Relabel) (s : CState) : CState := ⟨R.gstate s.g, R.head s.head, s.heads.map R.head⟩

variable (R : Relabel)

/-! ## Different things stay different -/

theorem runs_inj : ∀ {a b : List (Nat × Span)}, a.map (fun p => (p.1, R.place p.2)) = b.map (fun p => (p.1, R.place p.2)) → a = b
  | [], [], _ => rfl
  | [], _ :: _, h => by simp at h
  | _ :: _, [], h => by simp at h
  | (n, x) :: xs, (m, y) :: ys, h => by
    simp only [List.map_cons, List.cons.injEq, Prod.mk.injEq] at h
    rw [h.1.1, R.place_inj _ _ h.1.2, runs_inj h.2]

theorem spans_inj {a b : Rle Span} (h : R.spans a = R.spans b) : a = b := by
  obtain ⟨a⟩ := a
  obtain ⟨b⟩ := b
  simp only [spans, Rle.mk.injEq] at h
  rw [runs_inj R h]

theorem names_inj : ∀ {a b : List String}, a.map R.name = b.map R.name → a = b
  | [], [], _ => rfl
  | [], _ :: _, h => by simp at h
  | _ :: _, [], h => by simp at h
  | x :: xs, y :: ys, h => by
    simp only [List.map_cons, List.cons.injEq] at h
    rw [R.name_inj _ _ h.1, names_inj h.2]

mutual
theorem func_inj : ∀ f g : Func, R.func f = R.func g → f = g
  | .mk n sp a u ops ss cs ys, .mk n' sp' a' u' ops' ss' cs' ys', h => by
    simp only [func, Func.mk.injEq] at h
    obtain ⟨h1, h2, h3, h4, h5, h6, h7, h8⟩ := h
    rw [R.name_inj _ _ h1, R.place_inj _ _ h2, h3, h4, h5, spans_inj R h6, consts_inj cs cs' h7, names_inj R h8]
theorem const_inj : ∀ c d : Const, R.const c = R.const d → c = d
  | .lit _, .lit _, h => by simpa [const] using h
  | .lit _, .fn _, h => by simp [const] at h
  | .fn _, .lit _, h => by simp [const] at h
  | .fn f, .fn g, h => by
    simp only [const, Const.fn.injEq] at h
    rw [func_inj f g h]
theorem consts_inj : ∀ cs ds : List Const, R.consts cs = R.consts ds → cs = ds
  | [], [], _ => rfl
  | [], _ :: _, h => by simp [consts] at h
  | _ :: _, [], h => by simp [consts] at h
  | c :: cs, d :: ds, h => by
    simp only [consts, List.cons.injEq] at h
    rw [const_inj c d h.1, consts_inj cs ds h.2]
end

theorem consts_map : ∀ cs : List Const, R.consts cs = cs.map R.const
  | [] => rfl
  | c :: cs => by simp only [consts, List.map_cons, consts_map cs]

/-! ## Tables -/

variable {α : Type} [DecidableEq α] {f : α → α}

theorem lookup_pool (hf : ∀ x y, f x = f y → x = y) (v : α) : ∀ d : List (α × Nat), Pool.lookup (f v) (d.map fun q => (f q.1, q.2)) = Pool.lookup v d
  | [] => rfl
  | (w, i) :: d => by
    simp only [List.map_cons, Pool.lookup, lookup_pool hf v d]
    by_cases h : w = v
    · simp [h]
    · rw [if_neg h, if_neg fun h' => h (hf _ _ h')]

theorem add_pool (hf : ∀ x y, f x = f y → x = y) (p : Pool α) (v : α) : (pool f p).add (f v) = ((p.add v).1, pool f (p.add v).2) := by
  unfold Pool.add
  rw [show (pool f p).dups = p.dups.map fun q => (f q.1, q.2) from rfl, lookup_pool hf]
  cases Pool.lookup v p.dups with
  | some i => rfl
  | none => simp [pool]

omit [DecidableEq α] in
theorem addForce_pool (p : Pool α) (v : α) : (pool f p).addForce (f v) = ((p.addForce v).1, pool f (p.addForce v).2) := by
  simp [Pool.addForce, pool]

theorem lastIdx_map (x : String) : ∀ ls : List Local, lastIdx (R.name x) (ls.map R.loc) = lastIdx x ls
  | [] => rfl
  | l :: ls => by
    simp only [List.map_cons, lastIdx, lastIdx_map x ls]
    have : (R.loc l).name = R.name x ↔ l.name = x := ⟨fun h => R.name_inj _ _ h, fun h => by rw [← h]; rfl⟩
    simp only [this]

theorem findUp_map (i : Nat) (b : Bool) : ∀ us : List Upv, GLevel.findUp i b (us.map R.upv) = GLevel.findUp i b us
  | [] => rfl
  | u :: us => by
    simp only [List.map_cons, GLevel.findUp, findUp_map i b us]
    rfl

theorem addUpvalue_level (l : GLevel) (i : Nat) (b : Bool) (x : String) : (R.level l).addUpvalue i b (R.name x) = ((l.addUpvalue i b x).1, R.level (l.addUpvalue i b x).2) := by
  unfold GLevel.addUpvalue
  rw [show (R.level l).upvalues = l.upvalues.map R.upv from rfl, findUp_map]
  cases GLevel.findUp i b l.upvalues with
  | some j => rfl
  | none => simp [level, upv]

theorem mark_level (l : GLevel) (i : Nat) : (R.level l).mark i = R.level (l.mark i) := by
  have : ∀ (ls : List Local) (i : Nat), (ls.map R.loc).modify i (fun x => { x with captured := true }) = (ls.modify i fun x => { x with captured := true }).map R.loc := by
    intro ls
    induction ls with
    | nil => intro i; cases i <;> rfl
    | cons l ls ih =>
      intro i
      cases i with
      | zero => rfl
      | succ i => simp [ih i]
  simp only [GLevel.mark, level, this]

theorem takeWhile_map (p : Local → Bool) (hp : ∀ l, p (R.loc l) = p l) : ∀ ls : List Local, (ls.map R.loc).takeWhile p = (ls.takeWhile p).map R.loc
  | [] => rfl
  | l :: ls => by
    simp only [List.map_cons, List.takeWhile_cons, hp, takeWhile_map p hp ls]
    split <;> rfl

theorem dropWhile_map (p : Local → Bool) (hp : ∀ l, p (R.loc l) = p l) : ∀ ls : List Local, (ls.map R.loc).dropWhile p = (ls.dropWhile p).map R.loc
  | [] => rfl
  | l :: ls => by
    simp only [List.map_cons, List.dropWhile_cons, hp, dropWhile_map p hp ls]
    split <;> rfl

theorem defineLocal_level (l : GLevel) (x : String) : (R.level l).defineLocal (R.name x) = R.level (l.defineLocal x) := by
  have h : ∀ ls : List Local, ((ls.map R.loc).any fun y => y.name = R.name x) = ls.any fun y => y.name = x := by
    intro ls
    induction ls with
    | nil => rfl
    | cons y ys ih =>
      simp only [List.map_cons, List.any_cons, ih]
      congr 1
      rw [decide_eq_decide]
      exact ⟨fun h => R.name_inj _ _ h, fun h => by rw [← h]; rfl⟩
  unfold GLevel.defineLocal
  rw [show (R.level l).locals = l.locals.map R.loc from rfl, show (R.level l).depth = l.depth from rfl, ← List.map_reverse, takeWhile_map R _ (fun _ => rfl), h,
    show (R.level l).symPool = pool R.name l.symPool from rfl, addForce_pool, add_pool R.name_inj]
  simp only [level, GLevel.mk.injEq, List.map_append, List.map_cons, List.map_nil]
  refine ⟨rfl, trivial, trivial, ?_, trivial⟩
  split <;> rfl

theorem reserveTemp_level (l : GLevel) : (R.level l).reserveTemp = R.level l.reserveTemp := by
  unfold GLevel.reserveTemp
  have : (R.level l).locals.length = l.locals.length := by simp [level]
  rw [this, ← defineLocal_level, R.temp]

theorem leaving_level (l : GLevel) (d : Nat) : (R.level l).leaving d = (l.leaving d).map R.loc := by
  unfold GLevel.leaving
  rw [show (R.level l).locals = l.locals.map R.loc from rfl, ← List.map_reverse, takeWhile_map R _ (fun _ => rfl)]

theorem staying_level (l : GLevel) (d : Nat) : (R.level l).staying d = (l.staying d).map R.loc := by
  unfold GLevel.staying
  rw [show (R.level l).locals = l.locals.map R.loc from rfl, ← List.map_reverse, dropWhile_map R _ (fun _ => rfl), List.map_reverse]

theorem resolveUp_level (x : String) : ∀ (ps : List GLevel) (l : GLevel), resolveUp (R.name x) (R.level l) (ps.map R.level) =
    (resolveUp x l ps).map fun r => (r.1, R.level r.2.1, r.2.2.map R.level)
  | [], l => rfl
  | p :: ps, l => by
    simp only [List.map_cons, resolveUp]
    rw [show (R.level p).locals = p.locals.map R.loc from rfl, lastIdx_map, resolveUp_level x ps p]
    cases lastIdx x p.locals with
    | some i => simp only [addUpvalue_level, mark_level, Option.map_some, List.map_cons]
    | none =>
      cases resolveUp x p ps with
      | none => rfl
      | some r =>
        obtain ⟨i, p', ps'⟩ := r
        simp only [Option.map_some, addUpvalue_level, List.map_cons]

theorem addGlobal_gstate (g : GState) (x : String) : (R.gstate g).addGlobal (R.name x) = ((g.addGlobal x).1, R.gstate (g.addGlobal x).2) := by
  unfold GState.addGlobal
  rw [show (R.gstate g).globals = pool R.name g.globals from rfl, add_pool R.name_inj]
  rfl

theorem addConst_gstate (g : GState) (c : Const) : (R.gstate g).addConst (R.const c) = ((g.addConst c).1, R.gstate (g.addConst c).2) := by
  unfold GState.addConst
  rw [show (R.gstate g).cur.constPool = pool R.const g.cur.constPool from rfl, add_pool (const_inj R)]
  rfl

theorem resolve_gstate (g : GState) (x : String) : (R.gstate g).resolve (R.name x) = ((g.resolve x).1, R.gstate (g.resolve x).2) := by
  unfold GState.resolve
  rw [show (R.gstate g).cur.locals = g.cur.locals.map R.loc from rfl, lastIdx_map, show (R.gstate g).cur = R.level g.cur from rfl,
    show (R.gstate g).encl = g.encl.map R.level from rfl, resolveUp_level]
  cases lastIdx x g.cur.locals with
  | some i => rfl
  | none =>
    cases resolveUp x g.cur g.encl with
    | some r => rfl
    | none => simp only [Option.map_none, addGlobal_gstate]

theorem defineLocals_gstate : ∀ (xs : List String) (g : GState), (R.gstate g).defineLocals (xs.map R.name) = R.gstate (g.defineLocals xs)
  | [], g => rfl
  | x :: xs, g => by
    simp only [List.map_cons, GState.defineLocals]
    rw [← defineLocals_gstate xs]
    congr 1
    simp only [GState.defineLocal, GState.onCur, gstate, defineLocal_level]

theorem enterScope_gstate (g : GState) : (R.gstate g).enterScope = R.gstate g.enterScope := rfl

theorem exitScope_gstate (g : GState) : (R.gstate g).exitScope = R.gstate g.exitScope := by
  simp only [GState.exitScope, GState.onCur, gstate, staying_level]
  rfl

theorem reserveTemp_gstate (g : GState) : (R.gstate g).reserveTemp = R.gstate g.reserveTemp := by
  simp only [GState.reserveTemp, GState.onCur, gstate, reserveTemp_level]

theorem enterFn_gstate (g : GState) (x : String) (ps : List String) : (R.gstate g).enterFn (R.name x) (ps.map R.name) = R.gstate (g.enterFn x ps) := by
  unfold GState.enterFn
  rw [← List.map_cons (f := R.name), ← defineLocals_gstate]
  rfl

/-! ## Chunks -/

theorem bump_map (v : Span) (n : Nat) : ∀ rs : List (Nat × Span), Rle.bump (R.place v) n (rs.map fun p => (p.1, R.place p.2)) =
    (Rle.bump v n rs).map fun p => (p.1, R.place p.2)
  | [] => rfl
  | [(c, w)] => by
    simp only [List.map_cons, List.map_nil, Rle.bump]
    by_cases h : w = v
    · simp [h]
    · rw [if_neg h, if_neg fun h' => h (R.place_inj _ _ h')]; rfl
  | r :: r' :: rs => by
    have := bump_map v n (r' :: rs)
    simp only [List.map_cons, Rle.bump] at this ⊢
    rw [this]

theorem writeU8_chunk (c : Chunk) (b : UInt8) (sp : Span) : (R.chunk c).writeU8 b (R.place sp) = R.chunk (c.writeU8 b sp) := by
  simp only [Chunk.writeU8, chunk, spans, Rle.push, bump_map]

theorem writeU16_chunk (c : Chunk) (v : Nat) (sp : Span) : (R.chunk c).writeU16 v (R.place sp) = R.chunk (c.writeU16 v sp) := by
  simp only [Chunk.writeU16, chunk, spans, Rle.pushN, bump_map]

theorem patchU16_chunk (c : Chunk) (i v : Nat) : (R.chunk c).patchU16 i v = (c.patchU16 i v).map R.chunk := by
  unfold Chunk.patchU16
  rw [show (R.chunk c).ops = c.ops from rfl]
  cases Bytes.patchU16 c.ops i v <;> rfl

theorem lastSpan_chunk (c : Chunk) : (R.chunk c).lastSpan = R.place c.lastSpan := by
  unfold Chunk.lastSpan Rle.last?
  simp only [chunk, spans, List.getLast?_map]
  cases c.spans.runs.getLast? with
  | none => exact R.default.symm
  | some p => rfl

theorem finish_head (l : GLevel) (h : Head) : CM.finish (R.level l) (R.head h) = R.func (CM.finish l h) := by
  unfold CM.finish
  rw [show (R.level l).depth = l.depth from rfl, show (R.head h).chunk = R.chunk h.chunk from rfl, lastSpan_chunk, writeU8_chunk]
  by_cases hd : l.depth = 0
  · simp only [hd, if_true, func, consts_map]
    simp [level, pool, head, chunk]
  · simp only [hd, if_false, func, consts_map]
    simp [level, pool, head, chunk]

/-! ## Actions -/

/-- The second action does with other names and places what the first does. -/
def Acts {α : Type} (r : α → α) (x x' : CM α) : Prop := ∀ s, x' (R.state s) = (R.out r (x s).1, R.state (x s).2)

section
variable {R} {α β : Type} {r : α → α} {q : β → β}

theorem Acts.pure (a : α) : Acts R r (Pure.pure a) (Pure.pure (r a)) := fun _ => rfl

theorem Acts.bind {x x' : CM α} {f f' : α → CM β} (hx : Acts R r x x') (hf : ∀ a, Acts R q (f a) (f' (r a))) : Acts R q (x >>= f) (x' >>= f') := by
  intro s
  show CM.bind x' f' (R.state s) = (R.out q (CM.bind x f s).1, R.state (CM.bind x f s).2)
  unfold CM.bind
  rw [hx s]
  generalize x s = y
  obtain ⟨o, s'⟩ := y
  cases o with
  | ok a => exact hf a s'
  | err e sp => rfl
  | panic => rfl

theorem Acts.throw {e : Err} {sp : Span} (he : R.err e = e) : Acts R r (CM.throw e sp) (CM.throw e (R.place sp)) := fun s => by
  simp only [CM.throw, out, he]

theorem Acts.panic : Acts R r CM.panic CM.panic := fun _ => rfl

theorem Acts.ite {p : Prop} [Decidable p] {x x' y y' : CM α} (hx : Acts R r x x') (hy : Acts R r y y') : Acts R r (if p then x else y) (if p then x' else y') := by
  split
  · exact hx
  · exact hy

end

section
variable {R}

theorem acts_onG {f f' : GState → GState} (h : ∀ g, f' (R.gstate g) = R.gstate (f g)) : Acts R id (CM.onG f) (CM.onG f') := by
  intro s
  have := h s.g
  simp only [CM.onG, state, this]
  rfl

theorem acts_onG' {α : Type} {r : α → α} {f f' : GState → α × GState} (h : ∀ g, f' (R.gstate g) = (r (f g).1, R.gstate (f g).2)) : Acts R r (CM.onG' f) (CM.onG' f') := by
  intro s
  have := h s.g
  simp only [CM.onG', state, this]
  rfl

theorem acts_getG : Acts R R.gstate CM.getG CM.getG := fun _ => rfl

theorem acts_onChunk {f f' : Chunk → Chunk} (h : ∀ c, f' (R.chunk c) = R.chunk (f c)) : Acts R id (CM.onChunk f) (CM.onChunk f') := by
  intro s
  have := h s.head.chunk
  simp only [CM.onChunk, state, head, this]
  rfl

theorem acts_len : Acts R id CM.len CM.len := fun _ => rfl

theorem acts_isGlobal : Acts R id CM.isGlobal CM.isGlobal := fun _ => rfl

theorem acts_writeU8 (b : UInt8) (sp : Span) : Acts R id (CM.writeU8 b sp) (CM.writeU8 b (R.place sp)) := acts_onChunk fun c => writeU8_chunk R c b sp

theorem acts_writeU16 (v : Nat) (sp : Span) : Acts R id (CM.writeU16 v sp) (CM.writeU16 v (R.place sp)) := acts_onChunk fun c => writeU16_chunk R c v sp

theorem acts_writeOpU8 (b : UInt8) (v : Nat) (sp : Span) : Acts R id (CM.writeOpU8 b v sp) (CM.writeOpU8 b v (R.place sp)) :=
  .bind (acts_writeU8 _ _) fun _ => acts_writeU8 _ _

theorem acts_writeOpU16 (b : UInt8) (v : Nat) (sp : Span) : Acts R id (CM.writeOpU16 b v sp) (CM.writeOpU16 b v (R.place sp)) :=
  .bind (acts_writeU8 _ _) fun _ => acts_writeU16 _ _

theorem acts_writeJump (b : UInt8) (sp : Span) : Acts R id (CM.writeJump b sp) (CM.writeJump b (R.place sp)) :=
  .bind (acts_writeOpU16 _ _ _) fun _ => .bind acts_len fun _ => .pure _

theorem acts_writeJumpBackward (n : Nat) (sp : Span) : Acts R id (CM.writeJumpBackward n sp) (CM.writeJumpBackward n (R.place sp)) :=
  .bind acts_len fun _ => .ite (.throw rfl) (acts_writeOpU16 _ _ _)

theorem acts_patchU16 (i v : Nat) : Acts R id (CM.patchU16 i v) (CM.patchU16 i v) := by
  intro s
  unfold CM.patchU16
  rw [show (R.state s).head.chunk = R.chunk s.head.chunk from rfl, patchU16_chunk]
  cases s.head.chunk.patchU16 i v <;> rfl

theorem acts_patchJump (i : Nat) (sp : Span) : Acts R id (CM.patchJump i sp) (CM.patchJump i (R.place sp)) :=
  .bind acts_len fun _ => .ite (.throw rfl) (acts_patchU16 _ _)

theorem acts_patchJumps (sp : Span) : ∀ js : List Nat, Acts R id (CM.patchJumps sp js) (CM.patchJumps (R.place sp) js)
  | [] => .pure ()
  | j :: js => .bind (acts_patchJump j sp) fun _ => acts_patchJumps sp js

theorem acts_flushPops (n : Nat) (sp : Span) : Acts R id (CM.flushPops n sp) (CM.flushPops n (R.place sp)) :=
  .ite (acts_writeOpU16 _ _ _) (.ite (acts_writeU8 _ _) (.pure ()))

theorem acts_writePops (sp : Span) : ∀ (cs : List Bool) (n : Nat), Acts R id (CM.writePops sp cs n) (CM.writePops (R.place sp) cs n)
  | [], n => acts_flushPops n sp
  | false :: cs, n => acts_writePops sp cs (n + 1)
  | true :: cs, n => .bind (acts_flushPops n sp) fun _ => .bind (acts_writeU8 _ _) fun _ => acts_writePops sp cs 0

theorem acts_exitScope (sp : Span) : Acts R id (CM.exitScope sp) (CM.exitScope (R.place sp)) := by
  refine .bind acts_getG fun g => .bind (acts_onG (exitScope_gstate R)) fun _ => ?_
  rw [show (R.gstate g).cur = R.level g.cur from rfl, leaving_level, show (R.level g.cur).depth = g.cur.depth from rfl, List.map_map]
  have h : (List.map R.loc (g.cur.leaving (g.cur.depth - 1)) ≠ []) ↔ (g.cur.leaving (g.cur.depth - 1) ≠ []) := by simp
  simp only [h]
  exact .ite (.bind (acts_writeU8 _ _) fun _ => .bind (acts_writePops _ _ _) fun _ => acts_writeU8 _ _) (.pure ())

theorem acts_resolve (x : String) : Acts R id (CM.onG' fun g => g.resolve x) (CM.onG' fun g => g.resolve (R.name x)) := acts_onG' fun g => resolve_gstate R g x

theorem acts_getVariable (x : String) (sp : Span) : Acts R id (CM.getVariable x sp) (CM.getVariable (R.name x) (R.place sp)) :=
  .bind (acts_resolve x) fun a => by cases a <;> exact acts_writeOpU16 _ _ _

theorem acts_setVariable (x : String) (sp : Span) : Acts R id (CM.setVariable x sp) (CM.setVariable (R.name x) (R.place sp)) :=
  .bind (acts_resolve x) fun a => by cases a <;> exact acts_writeOpU16 _ _ _

theorem acts_defineLocals (xs : List String) : Acts R id (CM.defineLocals xs) (CM.defineLocals (xs.map R.name)) := acts_onG (defineLocals_gstate R xs)

theorem fst_map (ps : List Name) : (ps.map R.onName).map Prod.fst = (ps.map Prod.fst).map R.name := by simp [onName]

theorem acts_enterFn (x : Name) (ps : List Name) : Acts R id (CM.enterFn x ps) (CM.enterFn (R.onName x) (ps.map R.onName)) := by
  intro s
  simp only [CM.enterFn, fst_map, List.length_map]
  rw [show (R.state s).g = R.gstate s.g from rfl, show (R.onName x).1 = R.name x.1 from rfl, enterFn_gstate]
  rfl

/-- What is left of a function. -/
def left (R : Relabel) (p : Func × List Upv) : Func × List Upv := (R.func p.1, p.2.map R.upv)

theorem acts_exitFn : Acts R R.left CM.exitFn CM.exitFn := by
  intro s
  unfold CM.exitFn
  rw [show (R.state s).g.encl = s.g.encl.map R.level from rfl, show (R.state s).heads = s.heads.map R.head from rfl, show (R.state s).g.cur = R.level s.g.cur from rfl,
    show (R.state s).head = R.head s.head from rfl, finish_head]
  cases s.g.encl with
  | nil => rfl
  | cons l ls =>
    cases hh : s.heads with
    | nil => rfl
    | cons h hs => rfl

theorem acts_writeUps (sp : Span) : ∀ us : List Upv, Acts R id (CM.writeUps sp us) (CM.writeUps (R.place sp) (us.map R.upv))
  | [] => .pure ()
  | _ :: us => .bind (acts_writeU8 _ _) fun _ => .bind (acts_writeU16 _ _) fun _ => acts_writeUps sp us

theorem acts_addConst (c : Const) : Acts R id (CM.onG' fun g => g.addConst c) (CM.onG' fun g => g.addConst (R.const c)) := acts_onG' fun g => addConst_gstate R g c

theorem acts_addGlobal (x : String) : Acts R id (CM.onG' fun g => g.addGlobal x) (CM.onG' fun g => g.addGlobal (R.name x)) := acts_onG' fun g => addGlobal_gstate R g x

theorem acts_closeFn (sp : Span) : Acts R id (CM.closeFn sp) (CM.closeFn (R.place sp)) := by
  refine .bind acts_exitFn fun p => ?_
  obtain ⟨f, us⟩ := p
  refine .bind (acts_addConst (.fn f)) fun i => ?_
  simp only [List.length_map]
  exact .ite (.bind (acts_writeOpU16 _ _ _) fun _ => acts_writeUps sp us) (acts_writeOpU16 _ _ _)

theorem acts_defineGlobal (b : UInt8) (x : String) (sp : Span) : Acts R id (CM.defineGlobal b x sp) (CM.defineGlobal b (R.name x) (R.place sp)) :=
  .bind (acts_addGlobal x) fun _ => acts_writeOpU16 _ _ _

theorem acts_defineGlobals : ∀ xs : List Name, Acts R id (CM.defineGlobals xs) (CM.defineGlobals (xs.map R.onName))
  | [] => .pure ()
  | (x, sp) :: xs => .bind (acts_defineGlobal 9 x sp) fun _ => acts_defineGlobals xs

theorem acts_writeBuiltin (b : UInt8) (x : Name) (n : Nat) (sp : Span) : Acts R id (CM.writeBuiltin b x n sp) (CM.writeBuiltin b (R.onName x) n (R.place sp)) :=
  .bind (acts_writeU8 _ _) fun _ => .bind (acts_addGlobal x.1) fun _ => .bind (acts_writeU16 _ _) fun _ => acts_writeU8 _ _

theorem acts_inScope {b b' : CM Span} (h : Acts R R.place b b') : Acts R id (CM.inScope b) (CM.inScope b') :=
  .bind (acts_onG (enterScope_gstate R)) fun _ => .bind h fun sp => acts_exitScope sp

theorem acts_thenPart (b : UInt8) (sp : Span) {x x' : CM Unit} (h : Acts R id x x') : Acts R id (CM.thenPart b sp x) (CM.thenPart b (R.place sp) x') :=
  .bind (acts_writeJump _ _) fun _ => .bind (acts_writeOpU16 _ _ _) fun _ => .bind h fun _ => .bind (acts_writeJump _ _) fun _ => .bind (acts_patchJump _ _) fun _ => .pure _

theorem names_rev (xs : List Name) : ((xs.map R.onName).map Prod.fst).reverse = ((xs.map Prod.fst).reverse).map R.name := by rw [fst_map, List.map_reverse]

theorem acts_ctxVar (sp csp : Span) (v : Option Var) : Acts R id (CM.ctxVar sp csp v) (CM.ctxVar (R.place sp) (R.place csp) (v.map R.var)) := by
  cases v with
  | none => exact acts_writeU8 _ _
  | some v =>
    cases v with
    | one y => exact .bind (acts_defineLocals [y.1]) fun _ => acts_setVariable y.1 y.2
    | many xs =>
      simp only [Option.map_some, var, CM.ctxVar, List.length_map, names_rev]
      exact .ite (.throw rfl) (.bind (acts_writeOpU8 _ _ _) fun _ => acts_defineLocals _)

theorem acts_declVar (sp : Span) (v : Var) : Acts R id (CM.declVar sp v) (CM.declVar (R.place sp) (R.var v)) := by
  cases v with
  | one y => exact .bind acts_isGlobal fun b => .ite (acts_defineGlobal 9 y.1 y.2) (.bind (acts_defineLocals [y.1]) fun _ => acts_setVariable y.1 y.2)
  | many xs =>
    simp only [var, CM.declVar, List.length_map, names_rev]
    exact .ite (.throw rfl) (.bind (acts_writeOpU8 _ _ _) fun _ => .bind acts_isGlobal fun b => .ite (acts_defineGlobals xs) (acts_defineLocals _))

theorem acts_exprIn (m : Mode) (sp : Span) {x x' : CM Unit} (h : Acts R id x x') : Acts R id (exprIn m sp x) (exprIn m (R.place sp) x') :=
  .bind h fun _ => .ite (acts_writeU8 _ _) (.pure ())

theorem acts_stmtIn (m : Mode) (sp : Span) {x x' : CM Unit} (h : Acts R id x x') : Acts R id (stmtIn m sp x) (stmtIn m (R.place sp) x') := by
  cases m with
  | expr => exact .throw rfl
  | stmt p => exact h

theorem acts_throwName (f : String → NameErr) (hf : ∀ x, R.err (.name (f x)) = .name (f (R.name x))) (x : String) (sp : Span) :
    Acts R id (CM.throw (α := Unit) (.name (f x)) sp) (CM.throw (.name (f (R.name x))) (R.place sp)) := fun s => by simp only [CM.throw, out, hf]

end

/-! ## Programs -/

theorem node_span (n : Node) : (R.node n).span = R.place n.span := by cases n <;> rfl

theorem nodes_length : ∀ ns : List Node, (R.nodes ns).length = ns.length
  | [] => rfl
  | _ :: ns => by simp only [nodes, List.length_cons, nodes_length ns]

theorem foldUnary_node (cfg : Cfg) (op : Op) (e : Node) : foldUnary cfg op (R.node e) = foldUnary cfg op e := by
  cases e with
  | lit sp l => cases op <;> cases l <;> rfl
  | _ => cases op <;> rfl

variable {R} (cfg : Cfg)

mutual
theorem acts_node (m : Mode) : ∀ n : Node, Acts R id (compileNode cfg m n) (compileNode cfg m (R.node n))
  | .ret sp e => acts_stmtIn m sp <| .bind acts_getG fun g => .ite (.throw rfl) (.bind (acts_opt sp e) fun _ => acts_writeU8 _ _)
  | .func sp x ps b => by
    simp only [node, compileNode, List.length_map]
    exact acts_stmtIn m sp <| .ite (.throw rfl) <| .bind (acts_enterFn x ps) fun _ => .bind (acts_stmts b) fun _ => .bind (acts_closeFn sp) fun _ =>
      .bind acts_isGlobal fun g => .ite (acts_defineGlobal 9 x.1 sp) (.bind (acts_defineLocals [x.1]) fun _ => acts_setVariable x.1 sp)
  | .decl sp v e => acts_stmtIn m sp <| .bind (acts_node .expr e) fun _ => acts_declVar sp v
  | .extern sp (x, xsp) e => acts_stmtIn m sp <| .bind (acts_node .expr e) fun _ => .bind acts_isGlobal fun g =>
      .ite (acts_throwName .externalNotGlobal (fun _ => rfl) x xsp) <| .bind (acts_addGlobal x) fun i => .bind acts_getG fun g =>
        .ite (acts_throwName .externalRedefined (fun _ => rfl) x xsp) (.bind (acts_onG fun g => rfl) fun _ => acts_writeOpU16 _ _ _)
  | .include sp (x, xsp) b => acts_stmtIn m sp <| .bind acts_getG fun g => .ite (.throw rfl) (acts_incl x xsp b)
  | .lit sp l => by
    simp only [node, compileNode]
    refine acts_exprIn m sp ?_
    cases l with
    | none => exact acts_writeU8 _ _
    | _ => exact .bind (acts_addConst (.lit _)) fun _ => acts_writeOpU16 _ _ _
  | .pair sp a b => acts_exprIn m sp <| .bind (acts_node .expr a) fun _ => .bind (acts_node .expr b) fun _ => acts_writeU8 _ _
  | .array sp xs => by
    simp only [node, compileNode, nodes_length]
    exact acts_exprIn m sp <| .ite (.throw rfl) <| .bind (acts_rev xs) fun _ => acts_writeOpU8 _ _ _
  | .range sp a b => acts_exprIn m sp <| .bind (acts_node .expr a) fun _ => .bind (acts_node .expr b) fun _ => acts_writeU8 _ _
  | .ident sp x => acts_exprIn m sp <| acts_getVariable x sp
  | .block sp b => acts_exprIn m sp <| acts_inScope (acts_stmts b)
  | .assign sp (x, xsp) e => acts_exprIn m sp <| .bind (acts_node .expr e) fun _ => acts_setVariable x xsp
  | .call sp f as => by
    simp only [node, compileNode, nodes_length]
    exact acts_exprIn m sp <| .ite (.throw rfl) <| .bind (acts_node .expr f) fun _ => .bind (acts_args as) fun _ => acts_writeOpU8 _ _ _
  | .index sp e i => acts_exprIn m sp <| .bind (acts_node .expr i) fun _ => .bind (acts_node .expr e) fun _ => acts_writeU8 _ _
  | .builtin sp x as => by
    simp only [node, compileNode, nodes_length]
    exact acts_exprIn m sp <| .ite (.throw rfl) <| .bind (acts_args as) fun _ => acts_writeBuiltin _ _ _ _
  | .ctx sp x as v b => by
    simp only [node, compileNode, nodes_length]
    exact acts_exprIn m sp <| .ite (.throw rfl) <| .bind (acts_args as) fun _ => .bind (acts_writeBuiltin _ _ _ _) fun _ => .bind (acts_onG (enterScope_gstate R)) fun _ =>
      .bind (acts_ctxVar sp x.2 v) fun _ => .bind (acts_stmts b) fun _ => .bind (acts_exitScope sp) fun _ => acts_writeU8 _ _
  | .cond sp c t e => acts_exprIn m sp <| .bind (acts_writeU8 _ _) fun _ => .bind (acts_node .expr c) fun _ => .bind (acts_thenPart _ _ (acts_inScope (acts_stmts t))) fun _ =>
      .bind (acts_else sp e) fun _ => acts_patchJump _ _
  | .switch sp v cs d => acts_exprIn m sp <| .bind (acts_writeU8 _ _) fun _ => .bind (acts_node .expr v) fun _ => .bind (acts_cases cs) fun _ => .bind (acts_else sp d) fun _ =>
      acts_patchJumps _ _
  | .while sp c b => by
    simp only [node, compileNode, node_span]
    exact acts_exprIn m sp <| .bind (acts_writeU8 _ _) fun _ => .bind acts_len fun _ => .bind (acts_node .expr c) fun _ => .bind (acts_writeJump _ _) fun _ =>
      .bind (acts_writeOpU16 _ _ _) fun _ => .bind (acts_inScope (acts_stmts b)) fun _ => .bind (acts_writeJumpBackward _ _) fun _ => .bind (acts_patchJump _ _) fun _ => acts_writeU8 _ _
  | .forIn sp (x, xsp) i b => acts_exprIn m sp <| .bind (acts_onG (enterScope_gstate R)) fun _ => .bind (acts_onG (reserveTemp_gstate R)) fun _ =>
      .bind (acts_onG (reserveTemp_gstate R)) fun _ => .bind (acts_writeU8 _ _) fun _ => .bind (acts_node .expr i) fun _ => .bind (acts_onG (enterScope_gstate R)) fun _ =>
      .bind (acts_writeU8 _ _) fun _ => .bind acts_len fun _ => .bind (acts_writeJump _ _) fun _ => .bind (acts_writeU8 _ _) fun _ => .bind (acts_defineLocals [x]) fun _ =>
      .bind (acts_stmts b) fun _ => .bind (acts_exitScope sp) fun _ => .bind (acts_writeJumpBackward _ _) fun _ => .bind (acts_patchJump _ _) fun _ => acts_exitScope sp
  | .forMulti sp xs i b => by
    simp only [node, compileNode, node_span, List.length_map, names_rev]
    exact acts_exprIn m sp <| .bind (acts_onG (enterScope_gstate R)) fun _ => .ite (.throw rfl) <| .bind (acts_onG (reserveTemp_gstate R)) fun _ =>
      .bind (acts_onG (reserveTemp_gstate R)) fun _ => .bind (acts_writeU8 _ _) fun _ => .bind (acts_node .expr i) fun _ => .bind (acts_onG (enterScope_gstate R)) fun _ =>
      .bind (acts_writeU8 _ _) fun _ => .bind acts_len fun _ => .bind (acts_writeJump _ _) fun _ => .bind (acts_writeU8 _ _) fun _ => .bind (acts_writeOpU8 _ _ _) fun _ =>
      .bind (acts_defineLocals _) fun _ =>
      .bind (acts_stmts b) fun _ => .bind (acts_exitScope sp) fun _ => .bind (acts_writeJumpBackward _ _) fun _ => .bind (acts_patchJump _ _) fun _ => acts_exitScope sp
  | .lambda sp ps b => by
    simp only [node, compileNode, List.length_map]
    have := acts_enterFn (R := R) ("@__lambda__", sp) ps
    rw [show R.onName ("@__lambda__", sp) = ("@__lambda__", R.place sp) by simp only [onName, R.lambda]] at this
    exact acts_exprIn m sp <| .ite (.throw rfl) <| .bind this fun _ => .bind (acts_stmts b) fun _ => acts_closeFn sp
  | .bin sp op a b => acts_exprIn m sp <| .bind (acts_node .expr a) fun _ => .bind (acts_node .expr b) fun _ => .ite .panic (acts_writeU8 _ _)
  | .un sp op e => by
    simp only [node, compileNode, foldUnary_node]
    refine acts_exprIn m sp ?_
    cases foldUnary cfg op e with
    | none => exact .bind (acts_node .expr e) fun _ => .ite (acts_writeU8 _ _) .panic
    | some l =>
      cases l with
      | ok l => exact .bind (acts_addConst (.lit l)) fun _ => acts_writeOpU16 _ _ _
      | _ => exact .panic
theorem acts_stmts : ∀ ns : List Node, Acts R R.place (compileStmts cfg ns) (compileStmts cfg (R.nodes ns))
  | [] => by
    have := Acts.pure (R := R) (r := R.place) Span.default
    rw [R.default] at this
    exact this
  | [n] => by
    simp only [nodes, compileStmts, node_span]
    exact .bind (acts_node (.stmt false) n) fun _ => .pure n.span
  | n :: n' :: ns => .bind (acts_node (.stmt true) n) fun _ => acts_stmts (n' :: ns)
theorem acts_each : ∀ ns : List Node, Acts R id (compileEach cfg ns) (compileEach cfg (R.nodes ns))
  | [] => .pure ()
  | n :: ns => .bind (acts_node (.stmt true) n) fun _ => acts_each ns
theorem acts_args : ∀ ns : List Node, Acts R id (compileArgs cfg ns) (compileArgs cfg (R.nodes ns))
  | [] => .pure ()
  | n :: ns => .bind (acts_node .expr n) fun _ => acts_args ns
theorem acts_rev : ∀ ns : List Node, Acts R id (compileRev cfg ns) (compileRev cfg (R.nodes ns))
  | [] => .pure ()
  | n :: ns => .bind (acts_rev ns) fun _ => acts_node .expr n
theorem acts_cases : ∀ cs : List (Node × List Node), Acts R id (compileCases cfg cs) (compileCases cfg (R.casesOf cs))
  | [] => .pure _
  | (c, b) :: cs => by
    simp only [casesOf, compileCases, node_span]
    exact .bind (acts_node .expr c) fun _ => .bind (acts_thenPart _ _ (acts_inScope (acts_stmts b))) fun _ => .bind (acts_cases cs) fun _ => .pure _
theorem acts_else (sp : Span) : ∀ e : Option (List Node), Acts R id (compileElse cfg sp e) (compileElse cfg (R.place sp) (R.nodesO e))
  | some b => .bind (acts_writeOpU16 _ _ _) fun _ => acts_inScope (acts_stmts b)
  | none => acts_writeU8 _ _
theorem acts_opt (sp : Span) : ∀ e : Option Node, Acts R id (compileOpt cfg sp e) (compileOpt cfg (R.place sp) (R.nodeO e))
  | some e => acts_node .expr e
  | none => acts_writeU8 _ _
theorem acts_incl (x : String) (xsp : Span) : ∀ b : Option (List Node), Acts R id (compileIncl cfg x xsp b) (compileIncl cfg x (R.place xsp) (R.nodesO b))
  | some b => acts_each b
  | none => .throw rfl
end

theorem new_state (ast : List Node) : R.state ((CState.new "@__main__").setMainSpan ast) = (CState.new "@__main__").setMainSpan (R.nodes ast) := by
  cases ast with
  | nil => simp only [nodes, CState.setMainSpan, CState.new, state, head, gstate, R.main, R.default]; rfl
  | cons n ns => simp only [nodes, CState.setMainSpan, CState.new, state, head, gstate, R.main, node_span]; rfl

/-- The compiler on the program with other names and places. -/
theorem compile_nodes (ast : List Node) : compile cfg (R.nodes ast) = R.out R.script (compile cfg ast) := by
  unfold compile
  rw [← new_state, acts_stmts cfg ast]
  generalize compileStmts cfg ast _ = y
  obtain ⟨o, s⟩ := y
  cases o with
  | ok sp =>
    simp only [out, script, CState.script, COut.ok.injEq]
    rw [← finish_head]
    rfl
  | err e sp => rfl
  | panic => rfl

end Relabel

end Quilt
