import Verif.Compiler.Boundary
import Verif.Parser.Shape

/-!
# Where the positions in code come from

Every instruction carries the span of a node or a name of the syntax tree; call instructions carry the span of
a call. Used for C60.
-/

namespace Quilt

mutual
/-- All nodes of a syntax tree, included programs too. -/
def Node.subs : Node → List Node
  | .ret sp e => .ret sp e :: subsE e
  | .func sp x ps b => .func sp x ps b :: subsL b
  | .decl sp v e => .decl sp v e :: e.subs
  | .extern sp x e => .extern sp x e :: e.subs
  | .include sp x b => .include sp x b :: subsO b
  | .lit sp l => [.lit sp l]
  | .pair sp a b => .pair sp a b :: (a.subs ++ b.subs)
  | .array sp es => .array sp es :: subsL es
  | .range sp a b => .range sp a b :: (a.subs ++ b.subs)
  | .ident sp x => [.ident sp x]
  | .block sp b => .block sp b :: subsL b
  | .assign sp x e => .assign sp x e :: e.subs
  | .call sp f args => .call sp f args :: (f.subs ++ subsL args)
  | .index sp a b => .index sp a b :: (a.subs ++ b.subs)
  | .builtin sp x args => .builtin sp x args :: subsL args
  | .ctx sp x args v b => .ctx sp x args v b :: (subsL args ++ subsL b)
  | .cond sp c th el => .cond sp c th el :: (c.subs ++ subsL th ++ subsO el)
  | .switch sp v cs d => .switch sp v cs d :: (v.subs ++ subsC cs ++ subsO d)
  | .while sp c b => .while sp c b :: (c.subs ++ subsL b)
  | .forIn sp x it b => .forIn sp x it b :: (it.subs ++ subsL b)
  | .forMulti sp xs it b => .forMulti sp xs it b :: (it.subs ++ subsL b)
  | .lambda sp ps b => .lambda sp ps b :: subsL b
  | .bin sp op a b => .bin sp op a b :: (a.subs ++ b.subs)
  | .un sp op e => .un sp op e :: e.subs
termination_by structural n => n
def subsL : List Node → List Node
  | [] => []
  | n :: ns => n.subs ++ subsL ns
termination_by structural n => n
def subsO : Option (List Node) → List Node
  | some b => subsL b
  | none => []
termination_by structural n => n
def subsE : Option Node → List Node
  | some e => e.subs
  | none => []
termination_by structural n => n
def subsC : List (Node × List Node) → List Node
  | [] => []
  | (c, b) :: cs => c.subs ++ subsL b ++ subsC cs
termination_by structural n => n
end

/-- The names written in a node itself. -/
def Node.names : Node → List Name
  | .func _ x ps _ => x :: ps
  | .decl _ v _ => Var.names (some v)
  | .extern _ x _ | .assign _ x _ | .include _ x _ | .builtin _ x _ => [x]
  | .ctx _ x _ v _ => x :: Var.names v
  | .forIn _ x _ _ => [x]
  | .forMulti _ xs _ _ => xs
  | .lambda _ ps _ => ps
  | _ => []

/-- A span of a node or a name in a tree. -/
def SpanOf (ast : List Node) (sp : Span) : Prop := ∃ n ∈ subsL ast, n.span = sp ∨ ∃ x ∈ n.names, x.2 = sp

theorem Node.self_subs (n : Node) : n ∈ n.subs := by cases n <;> simp [Node.subs]

/-- The node assigns to or declares a variable at the given place. -/
def Node.storesAt (sp : Span) : Node → Prop
  | .assign _ x _ => x.2 = sp
  | .decl _ (.one x) _ => x.2 = sp
  | .ctx _ _ _ (some (.one x)) _ => x.2 = sp
  | .func sp' _ _ _ => sp' = sp
  | _ => False

/-- An instruction, the span of its bytes and that of its last byte come from one of the given nodes. For the
instructions that cannot fail, or only by exceeding the stack, the two spans agree. -/
def Origin (ns : List Node) : Instr → Span → Span → Prop
  | .callFunction n, sp, last => last = sp ∧ ∃ f args, .call sp f args ∈ ns ∧ args.length = n
  | .callBuiltin _ n, sp, last => ∃ x args, .builtin sp x args ∈ ns ∧ args.length = n ∧ last = x.2
  | .enterContext _ n, sp, last => ∃ x args v b, .ctx sp x args v b ∈ ns ∧ args.length = n ∧ last = x.2
  | .exitContext, sp, last => last = sp ∧ ∃ x args v b, .ctx sp x args v b ∈ ns
  | .binary op, sp, last => last = sp ∧ ∃ a b, .bin sp op a b ∈ ns
  | .unary op, sp, last => last = sp ∧ ∃ a, .un sp op a ∈ ns
  | .indexGet, sp, last => last = sp ∧ ∃ a b, .index sp a b ∈ ns
  | .createArray n, sp, last => last = sp ∧ ∃ es, .array sp es ∈ ns ∧ es.length = n
  | .createRange, sp, last => last = sp ∧ ∃ a b, .range sp a b ∈ ns
  | .iterNext _, sp, last => last = sp ∧ ((∃ x it b, .forIn sp x it b ∈ ns) ∨ ∃ xs it b, .forMulti sp xs it b ∈ ns)
  | .loadGlobal _, sp, last => last = sp ∧ ∃ x, .ident sp x ∈ ns
  | .halt, _, _ => False
  | .setGlobal _, sp, last => last = sp ∧ ∃ n ∈ ns, n.storesAt sp
  | .jumpIfFalse _, sp, last => last = sp ∧ ((∃ c th el, .cond sp c th el ∈ ns) ∨ ∃ c b, .while sp c b ∈ ns)
  | .unpack n, sp, last => last = sp ∧ ((∃ xs e, .decl sp (.many xs) e ∈ ns ∧ xs.length = n) ∨
      (∃ x args xs b, .ctx sp x args (some (.many xs)) b ∈ ns ∧ xs.length = n) ∨
      ∃ sp' xs it b, .forMulti sp' xs it b ∈ ns ∧ xs.length = n ∧ sp = it.span)
  | _, sp, last => last = sp

/-- Spans of an instruction: both satisfy `S`, and they come from a node for it. -/
structure PieceAt (S : Span → Prop) (N : List Node) (q : Piece) : Prop where
  sp : S q.sp
  last : S q.lastSp
  node : Origin N q.i q.sp q.lastSp

/-- The spans in the function are the ones of code with the given property; and so in all functions among its
constants. -/
inductive FnAt (S : Span → Prop) (N : List Node) : Func → Prop
  | mk {f : Func} (c : Code) : f.ops = c.ops → CodeOk f.consts c → (∀ q ∈ c, q.i.small = true) → f.consts.length ≤ 65536 →
      (∀ k, f.spans.get k = c.spans[k]?) → (∀ q ∈ c, PieceAt S N q) → S f.nameSpan → (∀ g, .fn g ∈ f.consts → FnAt S N g) → FnAt S N f

theorem FnAt.ok {S : Span → Prop} {N : List Node} {f : Func} (h : FnAt S N f) : FnOk f := by
  induction h with
  | mk c h1 h2 h3 h4 _ _ _ _ ih => exact .mk c h1 h2 h3 h4 ih

structure PoolAt (S : Span → Prop) (N : List Node) (p : Pool Const) : Prop where
  inv : p.Inv
  fns : ∀ f, Const.fn f ∈ p.entries → FnAt S N f

def LvsAt (S : Span → Prop) (N : List Node) (g : GState) : Prop := PoolAt S N g.cur.constPool ∧ ∀ p ∈ g.encl.map (·.constPool), PoolAt S N p

theorem PoolAt.ok {S : Span → Prop} {N : List Node} {p : Pool Const} (h : PoolAt S N p) : PoolOk p := ⟨h.inv, fun f hf => (h.fns f hf).ok⟩

theorem LvsAt.ok {S : Span → Prop} {N : List Node} {g : GState} (h : LvsAt S N g) : LvsOk g := ⟨h.1.ok, fun p hp => (h.2 p hp).ok⟩

/-- The generator emits code with spans as they should be. -/
def GS (S : Span → Prop) (N : List Node) {α : Type} (x : GM α) (Q : α → Prop := fun _ => True) : Prop :=
  ∀ g a c g', x g = .ok (a, c, g') → LvsAt S N g →
    LvsAt S N g' ∧ g'.encl.map (·.constPool) = g.encl.map (·.constPool) ∧ (∀ q ∈ c, PieceAt S N q) ∧ Q a

namespace GS
open GM
variable {α β : Type} {S : Span → Prop} {N : List Node}

theorem bind {x : GM α} {f : α → GM β} {Q : α → Prop} {R : β → Prop} (h : GS S N x Q) (hf : ∀ a, Q a → GS S N (f a) R) : GS S N (x >>= f) R := by
  intro g b c g' hx hg
  rw [bind_app] at hx
  cases h1 : x g with
  | ok r =>
    obtain ⟨a, c1, g1⟩ := r
    simp only [h1] at hx
    cases h2 : f a g1 with
    | ok r =>
      obtain ⟨b', c2, g2⟩ := r
      simp only [h2, GRes.ok.injEq, Prod.mk.injEq] at hx
      obtain ⟨rfl, rfl, rfl⟩ := hx
      obtain ⟨k1, k2, k3, k4⟩ := h g a c1 g1 h1 hg
      obtain ⟨l1, l2, l3, l4⟩ := hf a k4 g1 b' c2 g2 h2 k1
      refine ⟨l1, l2.trans k2, fun q hq => ?_, l4⟩
      rcases List.mem_append.1 hq with hq | hq
      · exact k3 q hq
      · exact l3 q hq
    | _ => simp [h2] at hx
  | _ => simp [h1] at hx

theorem seq {x : GM α} {f : α → GM β} {Q : α → Prop} {R : β → Prop} (h : GS S N x Q) (hf : ∀ a, GS S N (f a) R) : GS S N (x >>= f) R :=
  bind h fun a _ => hf a

theorem pure {a : α} {Q : α → Prop} (h : Q a) : GS S N (Pure.pure a) Q := by
  intro g b c g' hx hg
  simp only [pure_app, GRes.ok.injEq, Prod.mk.injEq] at hx
  obtain ⟨rfl, rfl, rfl⟩ := hx
  exact ⟨hg, rfl, by simp, h⟩

theorem throw {e : Err} {sp : Span} {Q : α → Prop} : GS S N (GM.throw e sp : GM α) Q := by intro g a c g' hx; simp [GM.throw] at hx
theorem panic {Q : α → Prop} : GS S N (GM.panic : GM α) Q := by intro g a c g' hx; simp [GM.panic] at hx

theorem emit {c : Code} (h : ∀ q ∈ c, PieceAt S N q) : GS S N (GM.emit c) := by
  intro g a c' g' hx hg
  simp only [GM.emit, GRes.ok.injEq, Prod.mk.injEq] at hx
  obtain ⟨_, rfl, rfl⟩ := hx
  exact ⟨hg, rfl, h, trivial⟩

end GS

/-- An instruction without condition on its origin. -/
def Instr.free : Instr → Bool
  | halt | callFunction _ | callBuiltin _ _ | enterContext _ _ | exitContext | binary _ | unary _ | indexGet | createArray _ | createRange
  | iterNext _ | loadGlobal _ | setGlobal _ | jumpIfFalse _ | unpack _ => false
  | _ => true

theorem Instr.free_origin {i : Instr} (h : i.free = true) (N : List Node) (sp : Span) : Origin N i sp sp := by
  cases i <;> first | rfl | simp [free] at h

theorem PieceAt.of {S : Span → Prop} {N : List Node} {i : Instr} {sp : Span} (h : S sp) (hi : i.free = true) : PieceAt S N (.at' i sp) :=
  ⟨h, h, Instr.free_origin hi N sp⟩

theorem PieceAt.by {S : Span → Prop} {N : List Node} {i : Instr} {sp : Span} (h : S sp) (hi : Origin N i sp sp) : PieceAt S N (.at' i sp) :=
  ⟨h, h, hi⟩

namespace GS
open GM
variable {α β : Type} {S : Span → Prop} {N : List Node}

theorem emit1 {i : Instr} {sp : Span} (h : S sp) (hi : i.free = true) : GS S N (GM.emit1 i sp) :=
  emit (by intro q hq; simp only [List.mem_singleton] at hq; subst hq; exact .of h hi)

theorem emitN {i : Instr} {sp : Span} (h : S sp) (hi : Origin N i sp sp) : GS S N (GM.emit1 i sp) :=
  emit (by intro q hq; simp only [List.mem_singleton] at hq; subst hq; exact .by h hi)

theorem getG : GS S N GM.getG := by
  intro g a c g' hx hg
  simp only [GM.getG, GRes.ok.injEq, Prod.mk.injEq] at hx
  obtain ⟨rfl, rfl, rfl⟩ := hx
  exact ⟨hg, rfl, by simp, trivial⟩
theorem isGlobal : GS S N GM.isGlobal := by
  intro g a c g' hx hg
  simp only [GM.isGlobal, GRes.ok.injEq, Prod.mk.injEq] at hx
  obtain ⟨rfl, rfl, rfl⟩ := hx
  exact ⟨hg, rfl, by simp, trivial⟩

theorem sub {x : GM Unit} (h : GS S N x) : GS S N (GM.sub x) fun c => ∀ q ∈ c, PieceAt S N q := by
  intro g a c g' hx hg
  simp only [GM.sub] at hx
  cases h1 : x g with
  | ok r =>
    obtain ⟨u, c1, g1⟩ := r
    simp only [h1, GRes.ok.injEq, Prod.mk.injEq] at hx
    obtain ⟨rfl, rfl, rfl⟩ := hx
    obtain ⟨k1, k2, k3, _⟩ := h g u c1 g1 h1 hg
    exact ⟨k1, k2, by simp, k3⟩
  | _ => simp [h1] at hx

theorem onG' {f : GState → α × GState} (h : ∀ g, (f g).2.cur.constPool = g.cur.constPool ∧ (f g).2.encl.map (·.constPool) = g.encl.map (·.constPool)) :
    GS S N (GM.onG' f) := by
  intro g a c g' hx hg
  simp only [GM.onG', GRes.ok.injEq, Prod.mk.injEq] at hx
  obtain ⟨rfl, rfl, rfl⟩ := hx
  obtain ⟨h1, h2⟩ := h g
  exact ⟨⟨h1 ▸ hg.1, h2 ▸ hg.2⟩, h2, by simp, trivial⟩

theorem onG {f : GState → GState} (h : ∀ g, (f g).cur.constPool = g.cur.constPool ∧ (f g).encl.map (·.constPool) = g.encl.map (·.constPool)) : GS S N (GM.onG f) := by
  intro g a c g' hx hg
  exact onG' (f := fun g => ((), f g)) h g a c g' hx hg

theorem ite {x y : GM α} {Q : α → Prop} {c : Prop} [Decidable c] (h : GS S N x Q) (h' : GS S N y Q) : GS S N (if c then x else y) Q := by
  split
  · exact h
  · exact h'

theorem addConst (l : Literal) : GS S N (GM.onG' fun g => g.addConst (.lit l)) := by
  intro g a c g' hx hg
  simp only [GM.onG', GRes.ok.injEq, Prod.mk.injEq] at hx
  obtain ⟨rfl, rfl, rfl⟩ := hx
  refine ⟨⟨⟨Pool.inv_add hg.1.inv _, fun f hf => ?_⟩, hg.2⟩, rfl, by simp, trivial⟩
  have hf : Const.fn f ∈ (g.cur.constPool.add (.lit l)).2.entries := hf
  rw [Pool.add_entries hg.1.inv] at hf
  split at hf
  · exact hg.1.fns f hf
  · rcases List.mem_append.1 hf with hf | hf
    · exact hg.1.fns f hf
    · simp at hf

theorem loadLit (l : Literal) {sp : Span} (h : S sp) : GS S N (GM.onG' (fun g => g.addConst (.lit l)) >>= fun i => GM.emit1 (.loadConst i) sp) :=
  seq (addConst l) fun _ => emit1 h rfl

theorem resolve (x : String) : GS S N (GM.onG' fun g => g.resolve x) := by
  refine onG' fun g => ?_
  simp only [GState.resolve]
  split
  · exact ⟨rfl, rfl⟩
  · split
    · rename_i h; exact GJ.resolveUp_consts h
    · exact ⟨rfl, rfl⟩

theorem addGlobal (x : String) : GS S N (GM.onG' fun g => g.addGlobal x) := onG' fun _ => ⟨rfl, rfl⟩

theorem getVariable (x : String) {sp : Span} (h : S sp) (hi : .ident sp x ∈ N) : GS S N (GM.getVariable x sp) := seq (resolve x) fun r => by
  cases r with
  | loc i => exact emit1 h rfl
  | up i => exact emit1 h rfl
  | glob i => exact emitN h ⟨rfl, x, hi⟩
theorem setVariable (x : String) {sp : Span} (h : S sp) (hi : ∃ n ∈ N, n.storesAt sp) : GS S N (GM.setVariable x sp) := seq (resolve x) fun r => by
  cases r with
  | loc i => exact emit1 h rfl
  | up i => exact emit1 h rfl
  | glob i => exact emitN h ⟨rfl, hi⟩

theorem defineLocals (xs : List String) : GS S N (GM.defineLocals xs) := onG (GJ.defineLocals_same xs)
theorem defineGlobal (x : String) {sp : Span} (h : S sp) : GS S N (GM.defineGlobal x sp) := seq (addGlobal x) fun _ => emit1 h rfl
theorem defineGlobals : ∀ xs : List Name, (∀ x ∈ xs, S x.2) → GS S N (GM.defineGlobals xs)
  | [], _ => pure trivial
  | (x, sp) :: xs, h => seq (defineGlobal x (h (x, sp) (by simp))) fun _ => defineGlobals xs fun y hy => h y (List.mem_cons_of_mem _ hy)

theorem flush_at {sp : Span} (h : S sp) (q : Nat) : ∀ p ∈ GM.flush q sp, PieceAt S N p := by
  intro p hp
  unfold GM.flush at hp
  split at hp
  · simp only [List.mem_singleton] at hp; subst hp; exact .of h rfl
  · split at hp
    · simp only [List.mem_singleton] at hp; subst hp; exact .of h rfl
    · simp at hp

theorem exitOps_at {sp : Span} (h : S sp) : ∀ (cs : List Bool) (q : Nat), ∀ p ∈ GM.exitOps sp cs q, PieceAt S N p
  | [], q => flush_at h q
  | false :: cs, q => exitOps_at h cs (q + 1)
  | true :: cs, q => by
    intro p hp
    simp only [GM.exitOps, List.mem_append, List.mem_singleton] at hp
    rcases hp with (hp | rfl) | hp
    · exact flush_at h q p hp
    · exact .of h rfl
    · exact exitOps_at h cs 0 p hp

theorem exitCode_at {sp : Span} (h : S sp) (cs : List Bool) : ∀ p ∈ GM.exitCode sp cs, PieceAt S N p := by
  intro p hp
  unfold GM.exitCode at hp
  split at hp
  · simp at hp
  · simp only [List.mem_append, List.mem_singleton] at hp
    rcases hp with (rfl | hp) | rfl
    · exact .of h rfl
    · exact exitOps_at h cs 0 p hp
    · exact .of h rfl

theorem exitScope {sp : Span} (h : S sp) : GS S N (GM.exitScope sp) := by
  intro g a c g' hx hg
  simp only [GM.exitScope, GRes.ok.injEq, Prod.mk.injEq] at hx
  obtain ⟨_, rfl, rfl⟩ := hx
  exact ⟨hg, rfl, exitCode_at h _, trivial⟩

theorem enterScope : GS S N (GM.onG GState.enterScope) := onG fun _ => ⟨rfl, rfl⟩
theorem reserveTemp : GS S N (GM.onG GState.reserveTemp) := onG fun _ => ⟨rfl, rfl⟩

theorem inScope {body : GM Span} (h : GS S N body S) : GS S N (GM.inScope body) :=
  seq enterScope fun _ => bind h fun _ hs => exitScope hs

theorem ctxVar {sp : Span} {x : Name} {args b : List Node} (csp : Span) (h : S sp) : ∀ v : Option Var, (∀ x ∈ Var.names v, S x.2) → .ctx sp x args v b ∈ N → GS S N (GM.ctxVar sp csp v)
  | some (.one (y, ysp)), hv, hn => seq (defineLocals [y]) fun _ => setVariable y (hv (y, ysp) (by simp [Var.names])) ⟨_, hn, rfl⟩
  | some (.many xs), _, hn => ite throw (seq (emitN h ⟨rfl, .inr (.inl ⟨x, args, xs, b, hn, rfl⟩)⟩) fun _ => defineLocals (xs.map Prod.fst).reverse)
  | none, _, _ => emit1 h rfl

theorem declVar {sp : Span} {e : Node} (h : S sp) : ∀ v : Var, (∀ x ∈ Var.names (some v), S x.2) → .decl sp v e ∈ N → GS S N (GM.declVar sp v)
  | .one (x, xsp), hv, hn => seq isGlobal fun _ => ite (defineGlobal x (hv (x, xsp) (by simp [Var.names]))) (seq (defineLocals [x]) fun _ => setVariable x (hv (x, xsp) (by simp [Var.names])) ⟨_, hn, rfl⟩)
  | .many xs, hv, hn => ite throw (seq (emitN h ⟨rfl, .inl ⟨xs, e, hn, rfl⟩⟩) fun _ => seq isGlobal fun b =>
      (ite (defineGlobals xs hv) (defineLocals (xs.map Prod.fst).reverse) : GS S N (if b = true then GM.defineGlobals xs else GM.defineLocals (xs.map Prod.fst).reverse)))

theorem gexprIn {m : Mode} {sp : Span} {act : GM Unit} (hs : S sp) (h : GS S N act) : GS S N (Quilt.gexprIn m sp act) :=
  seq h fun _ => ite (emit1 hs rfl) (pure trivial)

theorem gstmtIn {m : Mode} {sp : Span} {act : GM Unit} (h : GS S N act) : GS S N (Quilt.gstmtIn m sp act) := by
  cases m with
  | expr => exact throw
  | stmt => exact h

theorem toList_foldl (ss : List Span) : ∀ r : Rle Span, (ss.foldl Rle.push r).toList = r.toList ++ ss := by
  induction ss with
  | nil => intro r; simp
  | cons a ss ih => intro r; simp [ih, Rle.toList_push]

theorem nonZero_foldl (ss : List Span) : ∀ r : Rle Span, r.NonZero → (ss.foldl Rle.push r).NonZero := by
  induction ss with
  | nil => intro r h; exact h
  | cons a ss ih => intro r h; exact ih _ (Rle.nonZero_bump _ 1 (by decide) _ h)

theorem emit_toList (c : Code) : (Chunk.empty.emit c).spans.toList = c.spans := by
  simp [Chunk.emit, Chunk.empty, toList_foldl]

theorem spans_at {c : Code} (hc : ∀ q ∈ c, PieceAt S N q) : ∀ sp ∈ c.spans, S sp := by
  induction c with
  | nil => simp
  | cons q c ih =>
    intro sp hsp
    rw [Code.spans_cons] at hsp
    rcases List.mem_append.1 hsp with h | h
    · have := hc q (by simp)
      unfold Piece.spans at h
      rcases List.mem_append.1 h with h | h
      · rw [(List.mem_replicate.1 h).2]; exact this.sp
      · simp only [List.mem_singleton] at h; subst h; exact this.last
    · exact ih (fun q hq => hc q (List.mem_cons_of_mem _ hq)) sp h

theorem finish_at {l : GLevel} {h : Head} {c : Code} (hd0 : S Span.default) (hp : PoolAt S N l.constPool) (hc : ∀ q ∈ c, PieceAt S N q)
    (hh : h.chunk = Chunk.empty.emit c) (hn : S h.span) (hok : CodeOk l.constPool.entries c) (hf : fnFits l c = true) : FnAt S N (CM.finish l h) := by
  simp only [fnFits, Bool.and_eq_true, decide_eq_true_eq, List.all_eq_true] at hf
  by_cases hd : l.depth = 0
  · have hz : (Chunk.empty.emit c).spans.NonZero := nonZero_foldl _ _ (by intro r hr; cases hr)
    have hlast : S h.chunk.lastSpan := by
      rw [Chunk.lastSpan, hh, Rle.last?_eq _ hz, emit_toList]
      cases hl : c.spans.getLast? with
      | none => exact hd0
      | some sp => exact spans_at hc sp (List.mem_of_getLast? hl)
    refine .mk (c ++ [.at' .ret h.chunk.lastSpan]) ?_ (hok.append (.plain (by simp [Instr.plain]))) ?_ hf.1.2 ?_ ?_ hn hp.fns
    · simp [CM.finish, hd, Func.ops, Chunk.writeU8, Bytes.writeU8, Code.ops, Instr.enc, hh, Chunk.emit, Chunk.empty]
    · intro q hq
      rcases List.mem_append.1 hq with hq | hq
      · exact hf.1.1 q hq
      · simp only [List.mem_singleton] at hq; subst hq; rfl
    · intro k
      rw [Rle.get_eq]
      simp [CM.finish, hd, Func.spans, Chunk.writeU8, Rle.toList_push, hh, emit_toList, Code.spans, Piece.spans, Instr.enc]
    · intro q hq
      rcases List.mem_append.1 hq with hq | hq
      · exact hc q hq
      · simp only [List.mem_singleton] at hq; subst hq; exact .of hlast rfl
  · refine .mk c ?_ hok hf.1.1 hf.1.2 ?_ hc hn hp.fns
    · simp [CM.finish, hd, Func.ops, hh, Chunk.emit, Chunk.empty]
    · intro k
      rw [Rle.get_eq]
      simp [CM.finish, hd, Func.spans, hh, emit_toList]

theorem func {name : Name} {params : List Name} {sp : Span} {body : GM Span} (hd0 : S Span.default) (hn : S name.2) (hs : S sp) (hj : ∀ K, GJ K body) (h : GS S N body S) :
    GS S N (GM.func true name params sp body) := by
  intro g a c g' hx hg
  obtain ⟨e1, e2⟩ := GJ.defineLocals_same (name.1 :: params.map Prod.fst) ({ g with cur := GLevel.fresh g.cur.depth, encl := g.cur :: g.encl } : GState)
  have hg1 : LvsAt S N (g.enterFn name.1 (params.map Prod.fst)) := by
    refine ⟨?_, ?_⟩
    · show PoolAt S N (GState.defineLocals _ _).cur.constPool
      rw [e1]
      exact ⟨Pool.inv_empty, by simp [GLevel.fresh, Pool.empty]⟩
    · show ∀ p ∈ (GState.defineLocals _ _).encl.map (·.constPool), PoolAt S N p
      rw [e2]
      intro p hp
      simp only [List.map_cons, List.mem_cons] at hp
      rcases hp with rfl | hp
      · exact hg.1
      · exact hg.2 p hp
  simp only [GM.func] at hx
  cases h1 : body (g.enterFn name.1 (params.map Prod.fst)) with
  | ok r =>
    obtain ⟨s, cb, g1⟩ := r
    simp only [h1] at hx
    obtain ⟨k1, k2, k3, _⟩ := h _ _ _ _ h1 hg1
    obtain ⟨_, _, j3, _⟩ := hj [] _ _ _ _ h1 List.nil_prefix hg1.ok
    have ke : g1.encl.map (·.constPool) = g.cur.constPool :: g.encl.map (·.constPool) := k2.trans e2
    cases h2 : g1.encl with
    | nil => rw [h2] at ke; simp at ke
    | cons l ls =>
      rw [h2, List.map_cons, List.cons.injEq] at ke
      simp only [h2, Bool.true_and] at hx
      cases hf : fnFits g1.cur cb with
      | false => simp [hf] at hx
      | true =>
        simp only [hf, Bool.not_true, Bool.false_eq_true, if_false, GRes.ok.injEq, Prod.mk.injEq] at hx
        obtain ⟨_, rfl, rfl⟩ := hx
        have hfn : FnAt S N (mkFunc name params.length g1.cur cb) := finish_at hd0 k1.1 k3 rfl hn j3 hf
        have hpl : PoolAt S N l.constPool := ke.1 ▸ hg.1
        generalize mkFunc name params.length g1.cur cb = fn at *
        refine ⟨⟨⟨Pool.inv_add hpl.inv _, fun f hf' => ?_⟩, ?_⟩, ke.2, ?_, trivial⟩
        · have hf' : Const.fn f ∈ (l.constPool.add (.fn fn)).2.entries := hf'
          rw [Pool.add_entries hpl.inv] at hf'
          split at hf'
          · exact hpl.fns f hf'
          · rcases List.mem_append.1 hf' with hf' | hf'
            · exact hpl.fns f hf'
            · simp only [List.mem_singleton, Const.fn.injEq] at hf'; subst hf'; exact hfn
        · show ∀ p ∈ ls.map (·.constPool), PoolAt S N p
          rw [ke.2]; exact hg.2
        · intro q hq
          simp only [List.mem_singleton] at hq
          subst hq
          exact .of hs (by unfold GM.closInstr; split <;> rfl)
  | _ => simp [h1] at hx

theorem assemble : ∀ (ps : List (Code × Span)) {d : Code}, (∀ p ∈ ps, (∀ q ∈ p.1, PieceAt S N q) ∧ S p.2) → (∀ q ∈ d, PieceAt S N q) →
    ∀ q ∈ GM.assemble ps d, PieceAt S N q
  | [], _, _, hd => hd
  | (c, sp) :: ps, d, hps, hd => by
    have h1 := hps (c, sp) (by simp)
    have h2 := assemble ps (fun p hp => hps p (List.mem_cons_of_mem _ hp)) hd
    intro q hq
    simp only [GM.assemble, List.mem_append, List.mem_singleton] at hq
    rcases hq with (hq | rfl) | hq
    · exact h1.1 q hq
    · exact .of h1.2 rfl
    · exact h2 q hq

theorem externTail (x : String) {xsp : Span} (h : S xsp) : GS S N (do
    if !(← GM.isGlobal) then GM.throw (.name (.externalNotGlobal x)) xsp
    else
      let i ← GM.onG' fun g => g.addGlobal x
      let g ← GM.getG
      if i ∈ g.externals then GM.throw (.name (.externalRedefined x)) xsp
      else
        GM.onG fun g => { g with externals := i :: g.externals }
        GM.emit1 (.defineGlobalDefaulted i) xsp) := by
  refine seq isGlobal fun b => ite throw <| seq (addGlobal x) fun i => seq getG fun g => ite throw ?_
  exact seq (onG fun _ => ⟨rfl, rfl⟩) fun _ => emit1 h rfl

end GS

/-- Spans of a node and of the nodes in it. -/
structure Has (S : Span → Prop) (N : List Node) (ns : List Node) : Prop where
  span : ∀ n ∈ ns, S n.span
  names : ∀ n ∈ ns, ∀ x ∈ n.names, S x.2
  all : ∀ n ∈ ns, n ∈ N

theorem Has.mono {S : Span → Prop} {N : List Node} {ns ms : List Node} (h : Has S N ns) (hm : ∀ n ∈ ms, n ∈ ns) : Has S N ms :=
  ⟨fun n hn => h.1 n (hm n hn), fun n hn => h.2 n (hm n hn), fun n hn => h.3 n (hm n hn)⟩

theorem for_at {S : Span → Prop} {N : List Node} {b : Code} {sp xsp : Span} (hb : ∀ q ∈ b, PieceAt S N q) (h : S sp) (h' : S xsp)
    (hn : (∃ x it b, .forIn sp x it b ∈ N) ∨ ∃ xs it b, .forMulti sp xs it b ∈ N) :
    ∀ q ∈ [.at' (.iterNext (b.len + 3)) sp] ++ b ++ [.at' (.jumpBackward (b.len + 6)) xsp], PieceAt S N q := by
  intro q hq
  simp only [List.mem_append, List.mem_singleton] at hq
  rcases hq with (rfl | hq) | rfl
  · exact .by h ⟨rfl, hn⟩
  · exact hb q hq
  · exact .of h' rfl

section
set_option linter.unusedSectionVars false
variable {S : Span → Prop} {N : List Node} (hd0 : S Span.default) (cfg : Cfg)
include hd0

mutual
theorem gs_node : ∀ (n : Node) (m : Mode), Has S N n.subs → GS S N (genNode cfg true m n)
  | .lit sp l, m, h => by
    have hsp := h.span _ (Node.self_subs _)
    have hn := h.all _ (Node.self_subs _)
    unfold genNode
    refine GS.gexprIn hsp ?_
    cases l with
    | none => exact GS.emit1 hsp rfl
    | _ => exact GS.loadLit _ hsp
  | .ident sp x, m, h => by
    have hsp := h.span _ (Node.self_subs _)
    have hn := h.all _ (Node.self_subs _)
    unfold genNode; exact GS.gexprIn hsp (GS.getVariable x hsp hn)
  | .assign sp (x, xsp) e, m, h => by
    have hsp := h.span _ (Node.self_subs _)
    have hn := h.all _ (Node.self_subs _)
    have hx := h.names _ (Node.self_subs _) (x, xsp) (by simp [Node.names])
    unfold genNode; exact GS.gexprIn hsp (GS.seq (gs_node e .expr (h.mono (by simp +contextual [Node.subs]))) fun _ => GS.setVariable x hx ⟨_, hn, rfl⟩)
  | .un sp op e, m, h => by
    have hsp := h.span _ (Node.self_subs _)
    have hn := h.all _ (Node.self_subs _)
    unfold genNode
    refine GS.gexprIn hsp ?_
    cases hf : foldUnary cfg op e with
    | some r =>
      cases r with
      | ok l => exact GS.loadLit _ hsp
      | err => exact GS.panic
      | panic => exact GS.panic
    | none => exact GS.seq (gs_node e .expr (h.mono (by simp +contextual [Node.subs]))) fun _ => GS.ite (GS.emitN hsp ⟨rfl, e, hn⟩) GS.panic
  | .bin sp op a b, m, h => by
    have hsp := h.span _ (Node.self_subs _)
    have hn := h.all _ (Node.self_subs _)
    unfold genNode
    exact GS.gexprIn hsp (GS.seq (gs_node a .expr (h.mono (by simp +contextual [Node.subs]))) fun _ =>
      GS.seq (gs_node b .expr (h.mono (by simp +contextual [Node.subs]))) fun _ => GS.ite GS.panic (GS.emitN hsp ⟨rfl, a, b, hn⟩))
  | .pair sp a b, m, h => by
    have hsp := h.span _ (Node.self_subs _)
    have hn := h.all _ (Node.self_subs _)
    unfold genNode
    exact GS.gexprIn hsp (GS.seq (gs_node a .expr (h.mono (by simp +contextual [Node.subs]))) fun _ =>
      GS.seq (gs_node b .expr (h.mono (by simp +contextual [Node.subs]))) fun _ => GS.emit1 hsp rfl)
  | .range sp a b, m, h => by
    have hsp := h.span _ (Node.self_subs _)
    have hn := h.all _ (Node.self_subs _)
    unfold genNode
    exact GS.gexprIn hsp (GS.seq (gs_node a .expr (h.mono (by simp +contextual [Node.subs]))) fun _ =>
      GS.seq (gs_node b .expr (h.mono (by simp +contextual [Node.subs]))) fun _ => GS.emitN hsp ⟨rfl, a, b, hn⟩)
  | .index sp a b, m, h => by
    have hsp := h.span _ (Node.self_subs _)
    have hn := h.all _ (Node.self_subs _)
    unfold genNode
    exact GS.gexprIn hsp (GS.seq (gs_node b .expr (h.mono (by simp +contextual [Node.subs]))) fun _ =>
      GS.seq (gs_node a .expr (h.mono (by simp +contextual [Node.subs]))) fun _ => GS.emitN hsp ⟨rfl, a, b, hn⟩)
  | .array sp items, m, h => by
    have hsp := h.span _ (Node.self_subs _)
    have hn := h.all _ (Node.self_subs _)
    unfold genNode
    exact GS.gexprIn hsp (GS.ite GS.throw (GS.seq (gs_rev items (h.mono (by simp +contextual [Node.subs]))) fun _ => GS.emitN hsp ⟨rfl, items, hn, rfl⟩))
  | .block sp body, m, h => by
    have hsp := h.span _ (Node.self_subs _)
    have hn := h.all _ (Node.self_subs _)
    unfold genNode; exact GS.gexprIn hsp (GS.inScope (gs_stmts body (h.mono (by simp +contextual [Node.subs]))))
  | .call sp f args, m, h => by
    have hsp := h.span _ (Node.self_subs _)
    have hn := h.all _ (Node.self_subs _)
    unfold genNode
    refine GS.gexprIn hsp (GS.ite GS.throw (GS.seq (gs_node f .expr (h.mono (by simp +contextual [Node.subs]))) fun _ =>
      GS.seq (gs_args args (h.mono (by simp +contextual [Node.subs]))) fun _ => GS.emitN hsp ⟨rfl, f, args, hn, rfl⟩))
  | .builtin sp x args, m, h => by
    have hsp := h.span _ (Node.self_subs _)
    have hn := h.all _ (Node.self_subs _)
    have hx := h.names _ (Node.self_subs _) x (by simp [Node.names])
    unfold genNode
    refine GS.gexprIn hsp (GS.ite GS.throw (GS.seq (gs_args args (h.mono (by simp +contextual [Node.subs]))) fun _ => GS.seq (GS.addGlobal x.1) fun i =>
      GS.emit ?_))
    intro q hq
    simp only [List.mem_singleton] at hq
    subst hq
    exact ⟨hsp, hx, x, args, hn, rfl, rfl⟩
  | .ctx sp x args v body, m, h => by
    have hsp := h.span _ (Node.self_subs _)
    have hn := h.all _ (Node.self_subs _)
    have hx := h.names _ (Node.self_subs _) x (by simp [Node.names])
    have hv : ∀ y ∈ Var.names v, S y.2 := fun y hy => h.names _ (Node.self_subs _) y (by simp [Node.names, hy])
    unfold genNode
    refine GS.gexprIn hsp (GS.ite GS.throw (GS.seq (gs_args args (h.mono (by simp +contextual [Node.subs]))) fun _ => GS.seq (GS.addGlobal x.1) fun i =>
      GS.seq (GS.emit ?_) fun _ => GS.seq GS.enterScope fun _ => GS.seq (GS.ctxVar x.2 hsp v hv hn) fun _ =>
      GS.seq (gs_stmts body (h.mono (by simp +contextual [Node.subs]))) fun _ => GS.seq (GS.exitScope hsp) fun _ => GS.emitN hsp ⟨rfl, x, args, v, body, hn⟩))
    intro q hq
    simp only [List.mem_singleton] at hq
    subst hq
    exact ⟨hsp, hx, x, args, v, body, hn, rfl, rfl⟩
  | .cond sp c th el, m, h => by
    have hsp := h.span _ (Node.self_subs _)
    have hn := h.all _ (Node.self_subs _)
    unfold genNode
    refine GS.gexprIn hsp (GS.seq (GS.emit1 hsp rfl) fun _ => GS.seq (gs_node c .expr (h.mono (by simp +contextual [Node.subs]))) fun _ => ?_)
    refine GS.bind (GS.sub (GS.inScope (gs_stmts th (h.mono (by simp +contextual [Node.subs]))))) fun a ha => GS.ite GS.throw ?_
    refine GS.bind (GS.sub (gs_else el hsp (h.mono (by simp +contextual [Node.subs])))) fun b hb => GS.ite GS.throw (GS.emit ?_)
    intro q hq
    simp only [List.mem_append, List.mem_cons, List.not_mem_nil, or_false] at hq
    rcases hq with (((rfl | rfl) | hq) | rfl) | hq
    · exact .by hsp ⟨rfl, .inl ⟨c, th, el, hn⟩⟩
    · exact .of hsp rfl
    · exact ha q hq
    · exact .of hsp rfl
    · exact hb q hq
  | .switch sp v cs d, m, h => by
    have hsp := h.span _ (Node.self_subs _)
    have hn := h.all _ (Node.self_subs _)
    unfold genNode
    refine GS.gexprIn hsp (GS.seq (GS.emit1 hsp rfl) fun _ => GS.seq (gs_node v .expr (h.mono (by simp +contextual [Node.subs]))) fun _ => ?_)
    exact GS.bind (gs_cases cs (h.mono (by simp +contextual [Node.subs]))) fun ps hps =>
      GS.bind (GS.sub (gs_else d hsp (h.mono (by simp +contextual [Node.subs])))) fun b hb => GS.ite GS.throw (GS.emit (GS.assemble ps hps hb))
  | .while sp c body, m, h => by
    have hsp := h.span _ (Node.self_subs _)
    have hn := h.all _ (Node.self_subs _)
    have hc : S c.span := h.span _ (by simp [Node.subs, Node.self_subs])
    unfold genNode
    refine GS.gexprIn hsp (GS.seq (GS.emit1 hsp rfl) fun _ => ?_)
    refine GS.bind (GS.sub (gs_node c .expr (h.mono (by simp +contextual [Node.subs])))) fun cc hcc =>
      GS.bind (GS.sub (GS.inScope (gs_stmts body (h.mono (by simp +contextual [Node.subs]))))) fun b hb => GS.ite GS.throw (GS.emit ?_)
    intro q hq
    simp only [List.mem_append, List.mem_cons, List.not_mem_nil, or_false] at hq
    rcases hq with ((hq | rfl | rfl) | hq) | rfl | rfl
    · exact hcc q hq
    · exact .by hsp ⟨rfl, .inr ⟨c, body, hn⟩⟩
    · exact .of hc rfl
    · exact hb q hq
    · exact .of hc rfl
    · exact .of hc rfl
  | .forIn sp (x, xsp) it body, m, h => by
    have hsp := h.span _ (Node.self_subs _)
    have hn := h.all _ (Node.self_subs _)
    have hx := h.names _ (Node.self_subs _) (x, xsp) (by simp [Node.names])
    unfold genNode
    refine GS.gexprIn hsp (GS.seq GS.enterScope fun _ => GS.seq GS.reserveTemp fun _ => GS.seq GS.reserveTemp fun _ =>
      GS.seq (GS.emit1 hsp rfl) fun _ => GS.seq (gs_node it .expr (h.mono (by simp +contextual [Node.subs]))) fun _ => GS.seq GS.enterScope fun _ => GS.seq (GS.emit1 hsp rfl) fun _ => ?_)
    exact GS.bind (GS.sub (GS.seq (GS.emit1 hsp rfl) fun _ => GS.seq (GS.defineLocals [x]) fun _ => GS.seq (gs_stmts body (h.mono (by simp +contextual [Node.subs]))) fun _ => GS.exitScope hsp))
      fun b hb => GS.ite GS.throw (GS.seq (GS.emit (for_at hb hsp hx (.inl ⟨_, _, _, hn⟩))) fun _ => GS.exitScope hsp)
  | .forMulti sp xs it body, m, h => by
    have hsp := h.span _ (Node.self_subs _)
    have hn := h.all _ (Node.self_subs _)
    have hi : S it.span := h.span _ (by simp [Node.subs, Node.self_subs])
    unfold genNode
    refine GS.gexprIn hsp (GS.seq GS.enterScope fun _ => GS.ite GS.throw (GS.seq GS.reserveTemp fun _ => GS.seq GS.reserveTemp fun _ =>
      GS.seq (GS.emit1 hsp rfl) fun _ => GS.seq (gs_node it .expr (h.mono (by simp +contextual [Node.subs]))) fun _ => GS.seq GS.enterScope fun _ => GS.seq (GS.emit1 hsp rfl) fun _ => ?_))
    exact GS.bind (GS.sub (GS.seq (GS.emit1 hsp rfl) fun _ => GS.seq (GS.emitN hi ⟨rfl, .inr (.inr ⟨sp, xs, it, body, hn, rfl, rfl⟩)⟩) fun _ => GS.seq (GS.defineLocals (xs.map Prod.fst).reverse) fun _ =>
      GS.seq (gs_stmts body (h.mono (by simp +contextual [Node.subs]))) fun _ => GS.exitScope hsp))
      fun b hb => GS.ite GS.throw (GS.seq (GS.emit (for_at hb hsp hsp (.inr ⟨_, _, _, hn⟩))) fun _ => GS.exitScope hsp)
  | .lambda sp ps body, m, h => by
    have hsp := h.span _ (Node.self_subs _)
    have hn := h.all _ (Node.self_subs _)
    unfold genNode
    exact GS.gexprIn hsp (GS.ite GS.throw (GS.func hd0 hsp hsp (fun K => gj_stmts cfg body K) (gs_stmts body (h.mono (by simp +contextual [Node.subs])))))
  | .func sp name ps body, m, h => by
    have hsp := h.span _ (Node.self_subs _)
    have hn := h.all _ (Node.self_subs _)
    have hx := h.names _ (Node.self_subs _) name (by simp [Node.names])
    unfold genNode
    exact GS.gstmtIn (GS.ite GS.throw (GS.seq (GS.func hd0 hx hsp (fun K => gj_stmts cfg body K) (gs_stmts body (h.mono (by simp +contextual [Node.subs])))) fun _ => GS.seq GS.isGlobal fun b =>
      GS.ite (GS.defineGlobal name.1 hsp) (GS.seq (GS.defineLocals [name.1]) fun _ => GS.setVariable name.1 hsp ⟨_, hn, rfl⟩)))
  | .decl sp v e, m, h => by
    have hsp := h.span _ (Node.self_subs _)
    have hn := h.all _ (Node.self_subs _)
    have hv : ∀ y ∈ Var.names (some v), S y.2 := fun y hy => h.names _ (Node.self_subs _) y (by simp [Node.names, hy])
    unfold genNode
    exact GS.gstmtIn (GS.seq (gs_node e .expr (h.mono (by simp +contextual [Node.subs]))) fun _ => GS.declVar hsp v hv hn)
  | .extern sp (x, xsp) e, m, h => by
    have hx := h.names _ (Node.self_subs _) (x, xsp) (by simp [Node.names])
    unfold genNode
    exact GS.gstmtIn (GS.seq (gs_node e .expr (h.mono (by simp +contextual [Node.subs]))) fun _ => GS.externTail x hx)
  | .include sp (x, xsp) body, m, h => by
    unfold genNode
    exact GS.gstmtIn (GS.seq GS.getG fun g => GS.ite GS.throw (gs_incl x xsp body (h.mono (by simp +contextual [Node.subs]))))
  | .ret sp e, m, h => by
    have hsp := h.span _ (Node.self_subs _)
    have hn := h.all _ (Node.self_subs _)
    unfold genNode
    exact GS.gstmtIn (GS.seq GS.getG fun g => GS.ite GS.throw (GS.seq (gs_opt e hsp (h.mono (by simp +contextual [Node.subs]))) fun _ => GS.emit1 hsp rfl))
termination_by structural n => n
theorem gs_stmts : ∀ (ns : List Node), Has S N (subsL ns) → GS S N (genStmts cfg true ns) S
  | [], _ => by unfold genStmts; exact GS.pure hd0
  | [n], h => by
    unfold genStmts
    exact GS.seq (gs_node n _ (h.mono (by simp +contextual [subsL]))) fun _ => GS.pure (h.span n (by simp [subsL, Node.self_subs]))
  | n :: n' :: ns, h => by
    unfold genStmts
    exact GS.seq (gs_node n _ (h.mono (by simp +contextual [subsL]))) fun _ => gs_stmts (n' :: ns) (h.mono (by rw [subsL.eq_def (n :: n' :: ns)]; simp +contextual))
termination_by structural n => n
theorem gs_each : ∀ (ns : List Node), Has S N (subsL ns) → GS S N (genEach cfg true ns)
  | [], _ => by unfold genEach; exact GS.pure trivial
  | n :: ns, h => by
    unfold genEach
    exact GS.seq (gs_node n _ (h.mono (by simp +contextual [subsL]))) fun _ => gs_each ns (h.mono (by simp +contextual [subsL]))
termination_by structural n => n
theorem gs_args : ∀ (ns : List Node), Has S N (subsL ns) → GS S N (genArgs cfg true ns)
  | [], _ => by unfold genArgs; exact GS.pure trivial
  | n :: ns, h => by
    unfold genArgs
    exact GS.seq (gs_node n _ (h.mono (by simp +contextual [subsL]))) fun _ => gs_args ns (h.mono (by simp +contextual [subsL]))
termination_by structural n => n
theorem gs_rev : ∀ (ns : List Node), Has S N (subsL ns) → GS S N (genRev cfg true ns)
  | [], _ => by unfold genRev; exact GS.pure trivial
  | n :: ns, h => by
    unfold genRev
    exact GS.seq (gs_rev ns (h.mono (by simp +contextual [subsL]))) fun _ => gs_node n _ (h.mono (by simp +contextual [subsL]))
termination_by structural n => n
theorem gs_cases : ∀ (cs : List (Node × List Node)), Has S N (subsC cs) → GS S N (genCases cfg true cs) fun ps => ∀ p ∈ ps, (∀ q ∈ p.1, PieceAt S N q) ∧ S p.2
  | [], _ => by unfold genCases; exact GS.pure (by simp)
  | (c, body) :: cs, h => by
    have hc : S c.span := h.span _ (by simp [subsC, Node.self_subs])
    unfold genCases
    refine GS.bind (GS.sub (gs_node c .expr (h.mono (by simp +contextual [subsC])))) fun cc hcc =>
      GS.bind (GS.sub (GS.inScope (gs_stmts body (h.mono (by simp +contextual [subsC]))))) fun b hb => GS.ite GS.throw <|
      GS.bind (gs_cases cs (h.mono (by simp +contextual [subsC]))) fun ps hps => GS.pure fun p hp => ?_
    rcases List.mem_cons.1 hp with rfl | hp
    · refine ⟨fun q hq => ?_, hc⟩
      simp only [List.mem_append, List.mem_cons, List.not_mem_nil, or_false] at hq
      rcases hq with (hq | rfl | rfl) | hq
      · exact hcc q hq
      · exact .of hc rfl
      · exact .of hc rfl
      · exact hb q hq
    · exact hps p hp
termination_by structural n => n
theorem gs_else {sp : Span} : ∀ (b : Option (List Node)), S sp → Has S N (subsO b) → GS S N (genElse cfg true sp b)
  | some body, hsp, h => by unfold genElse; exact GS.seq (GS.emit1 hsp rfl) fun _ => GS.inScope (gs_stmts body (h.mono (by simp +contextual [subsO])))
  | none, hsp, _ => by unfold genElse; exact GS.emit1 hsp rfl
termination_by structural n => n
theorem gs_opt {sp : Span} : ∀ (e : Option Node), S sp → Has S N (subsE e) → GS S N (genOpt cfg true sp e)
  | some e, _, h => by unfold genOpt; exact gs_node e .expr (h.mono (by simp +contextual [subsE]))
  | none, hsp, _ => by unfold genOpt; exact GS.emit1 hsp rfl
termination_by structural n => n
theorem gs_incl (x : String) (xsp : Span) : ∀ (b : Option (List Node)), Has S N (subsO b) → GS S N (genIncl cfg true x xsp b)
  | some b, h => by unfold genIncl; exact gs_each b (h.mono (by simp +contextual [subsO]))
  | none, _ => by unfold genIncl; exact GS.throw
termination_by structural n => n
end
end

theorem FnAt.within {S : Span → Prop} {N : List Node} {f g : Func} (h : FnAt S N f) (hw : Within f g) : FnAt S N g := by
  induction hw with
  | self => exact h
  | const _ hm ih => obtain ⟨c, _, _, _, _, _, _, _, h5⟩ := ih; exact h5 _ hm

/-- The instruction that starts at a place in the code, and the spans of its bytes. -/
theorem FnAt.spot {S : Span → Prop} {N : List Node} {f : Func} (h : FnAt S N f) {p n : Nat} {i : Instr} (hp : Boundary f p)
    (hd : decode f.consts (f.ops.drop p) = some (i, n)) :
    0 < n ∧ ∃ sp last, Origin N i sp last ∧ S sp ∧ S last ∧ (∀ k, k + 1 < n → f.getSpan (p + k) = sp) ∧ f.getSpan (p + n - 1) = last := by
  obtain ⟨c, h1, h2, h3, h4, h5, h6, h7, h8⟩ := h
  have hic : IsCode f c := by
    refine ⟨h1, ?_, fun a q b hc => by simpa using h2.1 a q b hc, fun q hq => h2.2 q hq h4⟩
    intro (a : Code) q (b : Code) hc
    have hq : q ∈ c := by simp [hc]
    have hf : q.i.Fits f.consts := by
      refine Instr.fits_of_small (h3 q hq) fun k us hi => ?_
      have := h2.2 q hq h4
      rw [hi] at this; exact this
    have : f.ops.drop a.len = q.i.enc ++ Code.ops b := by
      rw [h1, hc, Code.ops_append, Code.ops_cons]
      simp [Code.len]
    rw [this]; exact decode_enc _ _ hf _
  obtain ⟨a, b, hc, rfl⟩ := (hic.boundary p).1 hp
  cases b with
  | nil =>
    have hl : f.ops.drop a.len = [] := by rw [h1, hc]; simp [Code.len]
    rw [hl] at hd; simp [decode] at hd
  | cons q b =>
    rw [hic.dec a q b hc] at hd
    simp only [Option.some.injEq, Prod.mk.injEq] at hd
    obtain ⟨rfl, rfl⟩ := hd
    have hq := h6 q (by simp [hc])
    have hpos : 0 < q.i.enc.length := Instr.enc_pos q.i
    have hlen : (Code.spans a).length = a.len := by rw [Code.spans_length]; rfl
    refine ⟨hpos, q.sp, q.lastSp, hq.node, hq.sp, hq.last, fun k hk => ?_, ?_⟩
    · rw [Func.getSpan, h5, hc, Code.spans_append, Code.spans_cons, List.getElem?_append_right (by omega), hlen]
      simp only [Nat.add_sub_cancel_left]
      rw [List.getElem?_append_left (by simp [Piece.spans]; omega)]
      unfold Piece.spans
      rw [List.getElem?_append_left (by simp; omega)]
      simp [show k < q.i.enc.length - 1 by omega]
    · rw [Func.getSpan, h5, hc, Code.spans_append, Code.spans_cons, List.getElem?_append_right (by omega), hlen]
      rw [show a.len + q.i.enc.length - 1 - a.len = q.i.enc.length - 1 by omega]
      rw [List.getElem?_append_left (by simp [Piece.spans])]
      unfold Piece.spans
      rw [List.getElem?_append_right (by simp)]
      simp

theorem main_span : ∀ ast : List Node, SpanOf ast ((CState.new "@__main__").setMainSpan ast).head.span ∨ ((CState.new "@__main__").setMainSpan ast).head.span = Span.default
  | [] => .inr rfl
  | n :: _ => .inl ⟨n, by simp [subsL, Node.self_subs], .inl rfl⟩

/-- A successful compilation yields code whose spans are those of the tree. -/
theorem compile_fnAt {cfg : Cfg} {ast : List Node} {script : Script} (hc : compile cfg ast = .ok script) (hsz : sizeL ast ≤ 65535) :
    FnAt (fun sp => SpanOf ast sp ∨ sp = Span.default) (subsL ast) script.fn := by
  unfold compile at hc
  generalize hst : (CState.new "@__main__").setMainSpan ast = st at hc
  have hg : st.g = (CState.new "@__main__").g := by
    rw [← hst]; unfold CState.setMainSpan; split <;> rfl
  have hhead : st.head.chunk = Chunk.empty := by
    rw [← hst]; unfold CState.setMainSpan; split <;> rfl
  have hsmall : GSmall 0 st.g := by
    rw [hg]
    refine ⟨⟨?_, ?_, ?_, Pool.inv_empty, ?_⟩, ?_, ?_, Pool.inv_empty⟩ <;> simp [CState.new, Pool.empty]
  have hl : LvsAt (fun sp => SpanOf ast sp ∨ sp = Span.default) (subsL ast) st.g := by
    rw [hg]
    exact ⟨⟨Pool.inv_empty, by simp [CState.new, Pool.empty]⟩, by simp [CState.new]⟩
  have hhas : Has (fun sp => SpanOf ast sp ∨ sp = Span.default) (subsL ast) (subsL ast) :=
    ⟨fun n hn => .inl ⟨n, hn, .inl rfl⟩, fun n hn x hx => .inl ⟨n, hn, .inr ⟨x, hx, rfl⟩⟩, fun _ hn => hn⟩
  cases hcs : compileStmts cfg ast st with
  | mk o st' =>
    rw [hcs] at hc
    cases o with
    | ok sp =>
      simp only [COut.ok.injEq] at hc
      obtain ⟨c, g', h1, h2, h3, h4⟩ := compile_gen hsmall (by omega) hcs
      subst h2
      obtain ⟨k1, _, k3, _⟩ := gs_stmts (.inr rfl) cfg ast hhas _ _ _ _ h1 hl
      rw [← hc]
      refine GS.finish_at (.inr rfl) k1.1 k3 ?_ ?_ (gj_stmts cfg ast [] _ _ _ _ h1 List.nil_prefix hl.ok).2.2.1 h3
      · show st.head.chunk.emit c = _
        rw [hhead]
      · show _ ∨ st.head.span = _
        rw [← hst]
        exact main_span ast
    | err e sp => simp at hc
    | panic => simp at hc

/-- The node's own spans. -/
def Own (S : Span → Prop) (m : Node) : Prop := S m.span ∧ ∀ x ∈ m.names, S x.2
section
set_option linter.unusedSectionVars false
variable {S : Span → Prop} {N : Name → Prop} {B : Bool → List Node → Prop} (hN : ∀ x, N x → S x.2)
include hN
mutual
theorem all_subs : ∀ n : Node, n.All S N B → ∀ m ∈ n.subs, Own S m
  | .lit sp l, h => by simp [Node.subs, Own, Node.span, Node.names, Node.All] at h ⊢; exact h
  | .ident sp x, h => by simp [Node.subs, Own, Node.span, Node.names, Node.All] at h ⊢; exact h.1
  | .array sp es, h => by
    have h1 := all_subsL es h.2
    intro m hm; rcases List.mem_cons.1 hm with rfl | hm
    · exact ⟨h.1, by simp [Node.names]⟩
    · exact h1 m hm
  | .pair sp a b, h | .range sp a b, h | .index sp a b, h => by
    have h1 := all_subs a h.2.1
    have h2 := all_subs b h.2.2
    intro m hm; rcases List.mem_cons.1 hm with rfl | hm
    · exact ⟨h.1, by simp [Node.names]⟩
    · exact (List.mem_append.1 hm).elim (h1 m) (h2 m)
  | .bin sp op a b, h => by
    have h1 := all_subs a h.2.1
    have h2 := all_subs b h.2.2
    intro m hm; rcases List.mem_cons.1 hm with rfl | hm
    · exact ⟨h.1.1, by simp [Node.names]⟩
    · exact (List.mem_append.1 hm).elim (h1 m) (h2 m)
  | .decl sp v e, h => by
    have h1 := all_subs e h.2.2
    intro m hm; rcases List.mem_cons.1 hm with rfl | hm
    · exact ⟨h.1, fun x hx => hN x (h.2.1 x hx)⟩
    · exact h1 m hm
  | .extern sp x e, h | .assign sp x e, h => by
    have h1 := all_subs e h.2.2
    intro m hm; rcases List.mem_cons.1 hm with rfl | hm
    · exact ⟨h.1, fun y hy => by rw [List.mem_singleton.1 hy]; exact hN x h.2.1⟩
    · exact h1 m hm
  | .func sp x ps b, h => by
    have h1 := all_subsL b (AllB_iff.1 h.2.2.2).2
    intro m hm; rcases List.mem_cons.1 hm with rfl | hm
    · exact ⟨h.1, fun y hy => (List.mem_cons.1 hy).elim (fun e => e ▸ hN x h.2.1) fun hy => hN y (h.2.2.1 y hy)⟩
    · exact h1 m hm
  | .lambda sp ps b, h => by
    have h1 := all_subsL b (AllB_iff.1 h.2.2).2
    intro m hm; rcases List.mem_cons.1 hm with rfl | hm
    · exact ⟨h.1, fun y hy => hN y (h.2.1 y hy)⟩
    · exact h1 m hm
  | .block sp b, h => by
    have h1 := all_subsL b (AllB_iff.1 h.2).2
    intro m hm; rcases List.mem_cons.1 hm with rfl | hm
    · exact ⟨h.1, by simp [Node.names]⟩
    · exact h1 m hm
  | .cond sp c th el, h => by
    have h1 := all_subs c h.2.1
    have h2 := all_subsL th (AllB_iff.1 h.2.2.1).2
    have h3 := all_subsO el h.2.2.2
    intro m hm; rcases List.mem_cons.1 hm with rfl | hm
    · exact ⟨h.1, by simp [Node.names]⟩
    · rcases List.mem_append.1 hm with hm | hm
      · exact (List.mem_append.1 hm).elim (h1 m) (h2 m)
      · exact h3 m hm
  | .switch sp v cs d, h => by
    have h1 := all_subs v h.2.1
    have h2 := all_subsC cs h.2.2.1
    have h3 := all_subsO d h.2.2.2
    intro m hm; rcases List.mem_cons.1 hm with rfl | hm
    · exact ⟨h.1, by simp [Node.names]⟩
    · rcases List.mem_append.1 hm with hm | hm
      · exact (List.mem_append.1 hm).elim (h1 m) (h2 m)
      · exact h3 m hm
  | .forIn sp x it b, h => by
    have h1 := all_subs it h.2.2.1
    have h2 := all_subsL b (AllB_iff.1 h.2.2.2).2
    intro m hm; rcases List.mem_cons.1 hm with rfl | hm
    · exact ⟨h.1, fun y hy => by rw [List.mem_singleton.1 hy]; exact hN x h.2.1⟩
    · exact (List.mem_append.1 hm).elim (h1 m) (h2 m)
  | .forMulti sp xs it b, h => by
    have h1 := all_subs it h.2.2.1
    have h2 := all_subsL b (AllB_iff.1 h.2.2.2).2
    intro m hm; rcases List.mem_cons.1 hm with rfl | hm
    · exact ⟨h.1, fun y hy => hN y (h.2.1 y hy)⟩
    · exact (List.mem_append.1 hm).elim (h1 m) (h2 m)
  | .while sp c b, h => by
    have h1 := all_subs c h.2.1
    have h2 := all_subsL b (AllB_iff.1 h.2.2).2
    intro m hm; rcases List.mem_cons.1 hm with rfl | hm
    · exact ⟨h.1, by simp [Node.names]⟩
    · exact (List.mem_append.1 hm).elim (h1 m) (h2 m)
  | .un sp op e, h => by
    have h1 := all_subs e h.2
    intro m hm; rcases List.mem_cons.1 hm with rfl | hm
    · exact ⟨h.1.1, by simp [Node.names]⟩
    · exact h1 m hm
  | .call sp f args, h => by
    have h1 := all_subs f h.2.1
    have h2 := all_subsL args h.2.2
    intro m hm; rcases List.mem_cons.1 hm with rfl | hm
    · exact ⟨h.1, by simp [Node.names]⟩
    · exact (List.mem_append.1 hm).elim (h1 m) (h2 m)
  | .builtin sp x args, h => by
    have h1 := all_subsL args h.2.2
    intro m hm; rcases List.mem_cons.1 hm with rfl | hm
    · exact ⟨h.1, fun y hy => by rw [List.mem_singleton.1 hy]; exact hN x h.2.1⟩
    · exact h1 m hm
  | .ctx sp x args v b, h => by
    have h1 := all_subsL args h.2.2.1
    have h2 := all_subsL b (AllB_iff.1 h.2.2.2.2).2
    intro m hm; rcases List.mem_cons.1 hm with rfl | hm
    · exact ⟨h.1, fun y hy => (List.mem_cons.1 hy).elim (fun e => e ▸ hN x h.2.1) fun hy => hN y (h.2.2.2.1 y hy)⟩
    · exact (List.mem_append.1 hm).elim (h1 m) (h2 m)
  | .include sp x b, h => by
    obtain ⟨h1, h2, rfl⟩ := h
    intro m hm; rcases List.mem_cons.1 hm with rfl | hm
    · exact ⟨h1, fun y hy => by rw [List.mem_singleton.1 hy]; exact h2⟩
    · simp [subsO] at hm
  | .ret sp e, h => by
    have h1 := all_subsE e h.2
    intro m hm; rcases List.mem_cons.1 hm with rfl | hm
    · exact ⟨h.1, by simp [Node.names]⟩
    · exact h1 m hm
termination_by structural n => n
theorem all_subsL : ∀ ns : List Node, AllL S N B ns → ∀ m ∈ subsL ns, Own S m
  | [], _ => by simp [subsL]
  | n :: ns, h => by
    have h1 := all_subs n h.1
    have h2 := all_subsL ns h.2
    intro m hm
    exact (List.mem_append.1 hm).elim (h1 m) (h2 m)
termination_by structural n => n
theorem all_subsO : ∀ b : Option (List Node), AllO S N B b → ∀ m ∈ subsO b, Own S m
  | none, _ => by simp [subsO]
  | some b, h => all_subsL b (AllB_iff.1 h).2
termination_by structural n => n
theorem all_subsE : ∀ e : Option Node, AllE S N B e → ∀ m ∈ subsE e, Own S m
  | none, _ => by simp [subsE]
  | some e, h => all_subs e h
termination_by structural n => n
theorem all_subsC : ∀ cs : List (Node × List Node), AllC S N B cs → ∀ m ∈ subsC cs, Own S m
  | [], _ => by simp [subsC]
  | (c, b) :: cs, h => by
    have h1 := all_subs c h.1
    have h2 := all_subsL b (AllB_iff.1 h.2.1).2
    have h3 := all_subsC cs h.2.2
    intro m hm
    rcases List.mem_append.1 hm with hm | hm
    · exact (List.mem_append.1 hm).elim (h1 m) (h2 m)
    · exact h3 m hm
termination_by structural n => n
end

theorem SpanOf.all {ast : List Node} (h : AllL S N B ast) {sp : Span} (hs : SpanOf ast sp) : S sp := by
  obtain ⟨n, hn, rfl | ⟨x, hx, rfl⟩⟩ := hs
  · exact (all_subsL hN ast h n hn).1
  · exact (all_subsL hN ast h n hn).2 x hx
end

end Quilt
