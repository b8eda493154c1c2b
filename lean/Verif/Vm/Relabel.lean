import Verif.Compiler.Relabel

/-!
# The machine on a program with other names and places

It takes the same steps. Used for C96.
-/

namespace Quilt
namespace Relabel

def clos (R : Relabel) (c : VClos) : VClos := ⟨R.func c.fn, c.ups⟩

mutual
/-- A value with other names and places in its functions. -/
def val (R : Relabel) : VVal → VVal
  | .none => .none
  | .bool b => .bool b
  | .int i => .int i
  | .float f => .float f
  | .range a b => .range a b
  | .color a b c d => .color a b c d
  | .str s => .str s
  | .special a n => .special a n
  | .arr xs s m => .arr (vals R xs) s m
  | .loopCtx i => .loopCtx i
  | .pair a b => .pair (val R a) (val R b)
  | .func f => .func (R.func f)
  | .clos c => .clos (R.clos c)
termination_by structural v => v
def vals (R : Relabel) : List VVal → List VVal
  | [] => []
  | v :: vs => val R v :: vals R vs
termination_by structural v => v
end

/-- Errors of a run about names. -/
def raised (R : Relabel) : Err → Err
  | .name (.undefined x) => .name (.undefined (R.name x))
  | .name (.undefinedBuiltin x) => .name (.undefinedBuiltin (R.name x))
  | .type (.mismatchedArity x n m) => .type (.mismatchedArity (R.name x) n m)
  | e => e

def res {α β : Type} (R : Relabel) (f : α → β) : Res α → Res β
  | .ok a => .ok (f a)
  | .err e => .err (R.raised e)
  | .panic => .panic

variable (R : Relabel)

theorem vals_map : ∀ vs : List VVal, R.vals vs = vs.map R.val
  | [] => rfl
  | v :: vs => by simp only [vals, List.map_cons, vals_map vs]

theorem vals_length (vs : List VVal) : (R.vals vs).length = vs.length := by simp [vals_map]

theorem val_ntype (v : VVal) : (R.val v).ntype = v.ntype := by cases v <;> rfl

theorem val_getSize : ∀ v : VVal, (R.val v).getSize = v.getSize
  | .pair a b => by simp only [val, Val.getSize, val_getSize a, val_getSize b]
  | .none | .bool _ | .int _ | .float _ | .range _ _ | .color _ _ _ _ | .str _ | .special _ _ | .arr _ _ _ | .loopCtx _ | .func _ | .clos _ => rfl
termination_by structural v => v

mutual
theorem val_lit : ∀ l : Literal, R.val l.toVal = l.toVal
  | .none | .bool _ | .int _ | .float _ | .range _ _ | .color _ _ _ _ | .str _ => rfl
  | .arr xs => by simp only [Literal.toVal, val, vals_lit xs]
  | .pair a b => by simp only [Literal.toVal, val, val_lit a, val_lit b]
termination_by structural l => l
theorem vals_lit : ∀ xs : List Literal, R.vals (Literal.toVal.toValL xs) = Literal.toVal.toValL xs
  | [] => rfl
  | x :: xs => by simp only [Literal.toVal.toValL, vals, val_lit x, vals_lit xs]
termination_by structural l => l
end

mutual
/-- Values are equal if the relabelled ones are, functions included. -/
theorem val_eqv (F : FOps) {ceq ceq' : VClos → VClos → Option Bool} (h : ∀ a b, ceq' (R.clos a) (R.clos b) = ceq a b) :
    ∀ a b : VVal, Val.eqv F ceq' (R.val a) (R.val b) = Val.eqv F ceq a b
  | .arr xs _ _, b => by
    cases b with
    | arr ys _ _ => simp only [val, Val.eqv, vals_length, vals_eqv F h xs ys]
    | _ => rfl
  | .pair x y, b => by
    cases b with
    | pair u v => simp only [val, Val.eqv, val_eqv F h x u, val_eqv F h y v]
    | _ => rfl
  | .clos c, b => by
    cases b with
    | clos d => exact h c d
    | _ => rfl
  | .func f, b => by
    cases b with
    | func g =>
      simp only [val, Val.eqv]
      rw [show decide (R.func f = R.func g) = decide (f = g) from decide_eq_decide.mpr ⟨R.func_inj f g, fun h => by rw [h]⟩]
    | _ => rfl
  | .none, b | .bool _, b | .int _, b | .float _, b | .range _ _, b | .color _ _ _ _, b | .str _, b | .special _ _, b | .loopCtx _, b => by cases b <;> rfl
termination_by structural a => a
theorem vals_eqv (F : FOps) {ceq ceq' : VClos → VClos → Option Bool} (h : ∀ a b, ceq' (R.clos a) (R.clos b) = ceq a b) :
    ∀ a b : List VVal, Val.eqvL F ceq' (R.vals a) (R.vals b) = Val.eqvL F ceq a b
  | [], b => by cases b <;> rfl
  | x :: xs, b => by
    cases b with
    | nil => rfl
    | cons y ys => simp only [vals, Val.eqvL, val_eqv F h x y, vals_eqv F h xs ys]
termination_by structural a => a
end

theorem val_isZero (F : FOps) (v : VVal) : (R.val v).isZero F = v.isZero F := by cases v <;> rfl

theorem val_isTruthy (F : FOps) (v : VVal) : (R.val v).isTruthy F = R.res id (v.isTruthy F) := by cases v <;> rfl

theorem res_wrapI (chk : Bool) (r : Int) : wrapI chk r = R.res R.val (wrapI chk r) := by
  unfold wrapI
  split
  · rfl
  · split <;> rfl

theorem res_strCat (m : Nat) (a b : List Char) : strCat m a b = R.res R.val (strCat m a b) := by
  unfold strCat
  split <;> rfl

theorem res_chan4 {r g b a : Res (BitVec 8)} (hr : R.res id r = r) (hg : R.res id g = g) (hb : R.res id b = b) (ha : R.res id a = a) :
    chan4 r g b a = R.res R.val (chan4 r g b a) := by
  cases r <;> cases g <;> cases b <;> cases a <;> simp_all [chan4, Res.bind, res, val]

theorem res_chanDiv (a b : BitVec 8) : R.res id (chanDiv a b) = chanDiv a b := by
  unfold chanDiv
  split <;> rfl

theorem res_chanAvg (chk : Bool) (a b : BitVec 8) : R.res id (chanAvg chk a b) = chanAvg chk a b := by
  unfold chanAvg
  split
  · rfl
  · split <;> rfl

theorem res_strMul (chk : Bool) (m : Nat) (l : List Char) (r : BitVec 64) : Val.strMul chk m l r = R.res R.val (Val.strMul chk m l r) := by
  unfold Val.strMul
  split
  · rfl
  · dsimp only
    split
    · split <;> rfl
    · split
      · rfl
      · split <;> rfl

theorem extend_vals (r : List VVal) : ∀ (l : List VVal) (s m : Nat),
    Vecc.extend Val.getSize ⟨R.vals l, s, m⟩ (R.vals r) = ((Vecc.extend Val.getSize ⟨l, s, m⟩ r).1,
      ⟨R.vals (Vecc.extend Val.getSize ⟨l, s, m⟩ r).2.data, (Vecc.extend Val.getSize ⟨l, s, m⟩ r).2.size, (Vecc.extend Val.getSize ⟨l, s, m⟩ r).2.maxSize⟩) := by
  induction r with
  | nil => intro l s m; rfl
  | cons x r ih =>
    intro l s m
    simp only [vals, Vecc.extend, val_getSize]
    split
    · rfl
    · rw [show R.vals l ++ [R.val x] = R.vals (l ++ [x]) by simp [vals_map]]
      exact ih _ _ _

theorem extend_err (r : List VVal) : ∀ (v : Vecc VVal), R.res id (Vecc.extend Val.getSize v r).1 = (Vecc.extend Val.getSize v r).1 := by
  induction r with
  | nil => intro v; rfl
  | cons x r ih =>
    intro v
    simp only [Vecc.extend]
    split
    · rfl
    · exact ih _

theorem res_arrJoin (n : Nat) (l r : List VVal) (ls lm rs : Nat) : Val.arrJoin n (R.vals l) ls lm (R.vals r) rs = R.res R.val (Val.arrJoin n l ls lm r rs) := by
  unfold Val.arrJoin
  split
  · rfl
  · rw [extend_vals]
    have h := R.extend_err r ⟨l, ls, lm⟩
    generalize Vecc.extend Val.getSize ⟨l, ls, lm⟩ r = q at h
    obtain ⟨a, v⟩ := q
    cases a with
    | ok u => rfl
    | err e =>
      simp only [res, Res.err.injEq] at h ⊢
      exact h.symm
    | panic => rfl

theorem pushAllV_vals (r : List VVal) : ∀ v : Vecc VVal,
    Val.pushAllV ⟨R.vals v.data, v.size, v.maxSize⟩ (R.vals r) = R.res (fun v => ⟨R.vals v.data, v.size, v.maxSize⟩) (Val.pushAllV v r) := by
  induction r with
  | nil => intro v; rfl
  | cons x r ih =>
    intro v
    simp only [vals, Val.pushAllV, Vecc.push, val_getSize]
    by_cases h : v.size + x.getSize > v.maxSize
    · simp only [if_pos h]; rfl
    · simp only [if_neg h]
      rw [show R.vals v.data ++ [R.val x] = R.vals (v.data ++ [x]) by simp [vals_map]]
      exact ih ⟨v.data ++ [x], v.size + x.getSize, v.maxSize⟩

theorem res_mkArray (lim : Limits) (xs : List VVal) : Val.mkArray lim (R.vals xs) = R.res R.val (Val.mkArray lim xs) := by
  unfold Val.mkArray
  have h := R.pushAllV_vals xs (Vecc.new lim.arrMax)
  rw [show (⟨R.vals (Vecc.new lim.arrMax).data, (Vecc.new lim.arrMax : Vecc VVal).size, (Vecc.new lim.arrMax : Vecc VVal).maxSize⟩ : Vecc VVal) = Vecc.new lim.arrMax from rfl] at h
  rw [h]
  cases Val.pushAllV (Vecc.new lim.arrMax) xs <;> rfl

theorem res_mkRange (a b : VVal) : Val.mkRange (R.val a) (R.val b) = R.res R.val (Val.mkRange a b) := by
  cases a <;> cases b <;> rfl

theorem res_fixIndex (chk : Bool) (i : BitVec 64) (n : Nat) : R.res id (fixIndex chk i n) = fixIndex chk i n := by
  have h : ∀ k, R.res id (if k ≥ n then Res.err (.index i) else .ok k) = if k ≥ n then Res.err (.index i) else .ok k := fun k => by split <;> rfl
  unfold fixIndex
  dsimp only
  split
  · split
    · rfl
    · split
      · rfl
      · split
        · exact h _
        · split
          · rfl
          · exact h _
  · exact h _

theorem res_bind {α : Type} {r : Res α} {f g : α → Res VVal} (hr : R.res id r = r) (h : ∀ a, g a = R.res R.val (f a)) : r.bind g = R.res R.val (r.bind f) := by
  cases r with
  | ok a => exact h a
  | err e => simp only [res, Res.err.injEq] at hr; simp only [Res.bind, res, hr]
  | panic => rfl

theorem res_indexGet (chk : Bool) (v i : VVal) : Val.indexGet chk (R.val v) (R.val i) = R.res R.val (Val.indexGet chk v i) := by
  cases i with
  | int i =>
    cases v with
    | arr xs s m =>
      simp only [val, Val.indexGet, vals_length]
      refine R.res_bind (R.res_fixIndex _ _ _) fun k => ?_
      simp only [vals_map, List.getElem?_map]
      cases xs[k]? <;> rfl
    | str s =>
      simp only [val, Val.indexGet]
      refine R.res_bind (R.res_fixIndex _ _ _) fun k => ?_
      cases s[k]? <;> rfl
    | color a b c d =>
      simp only [val, Val.indexGet]
      refine R.res_bind (R.res_fixIndex _ _ _) fun k => ?_
      cases [a, b, c, d][k]? <;> rfl
    | pair a b =>
      simp only [val, Val.indexGet]
      refine R.res_bind (R.res_fixIndex _ _ _) fun k => ?_
      rcases k with _ | _ | k <;> rfl
    | _ => rfl
  | _ => rfl

theorem res_unpack (n : Nat) (v : VVal) : Val.unpack (R.val v) n = R.res R.vals (Val.unpack v n) := by
  cases v with
  | pair a b => simp only [val, Val.unpack]; split <;> rfl
  | arr xs s m => simp only [val, Val.unpack, vals_length]; split <;> rfl
  | color a b c d =>
    simp only [val, Val.unpack]
    split
    · rfl
    · split
      · simp only [res, vals_map, List.map_map]
        rfl
      · rfl
  | _ => rfl

theorem res_iterItem (chk : Bool) (k : Nat) (v : VVal) : Val.iterItem chk (R.val v) k = R.res (Option.map R.val) (Val.iterItem chk v k) := by
  cases v with
  | arr xs s m => simp only [val, Val.iterItem, res, vals_map, List.getElem?_map]
  | range a b =>
    simp only [val, Val.iterItem]
    split
    · rfl
    · simp only [res]; split <;> rfl
  | str s => simp only [val, Val.iterItem, res]; cases s[k]? <;> rfl
  | color a b c d => simp only [val, Val.iterItem, res]; cases [a, b, c, d][k]? <;> rfl
  | _ => rfl

theorem res_unary (cfg : Cfg) (op : Op) (a : VVal) : Val.unary cfg op (R.val a) = R.res R.val (Val.unary cfg op a) := by
  cases op <;> first | rfl | skip
  all_goals cases a <;> first | rfl | exact R.res_wrapI _ _

theorem res_add (cfg : Cfg) (m : Nat) (a b : VVal) : Val.add cfg m (R.val a) (R.val b) = R.res R.val (Val.add cfg m a b) := by
  cases a <;> cases b <;> first | rfl | exact R.res_wrapI _ _ | exact R.res_strCat _ _ _

theorem res_subtract (cfg : Cfg) (a b : VVal) : Val.subtract cfg (R.val a) (R.val b) = R.res R.val (Val.subtract cfg a b) := by
  cases a <;> cases b <;> first | rfl | exact R.res_wrapI _ _

theorem res_multiply (cfg : Cfg) (m : Nat) (a b : VVal) : Val.multiply cfg m (R.val a) (R.val b) = R.res R.val (Val.multiply cfg m a b) := by
  cases a <;> cases b <;> first | rfl | exact R.res_wrapI _ _ | exact R.res_strMul _ _ _ _

theorem res_power (cfg : Cfg) (a b : VVal) : Val.power cfg (R.val a) (R.val b) = R.res R.val (Val.power cfg a b) := by
  cases a <;> cases b <;> first | rfl | exact R.res_wrapI _ _

theorem res_compare (cfg : Cfg) (op : String) (ci cf : BitVec 64 → BitVec 64 → Bool) (a b : VVal) :
    Val.compare cfg op ci cf (R.val a) (R.val b) = R.res R.val (Val.compare cfg op ci cf a b) := by
  cases a <;> cases b <;> rfl

theorem res_join (cfg : Cfg) (m n : Nat) (a b : VVal) : Val.join cfg m n (R.val a) (R.val b) = R.res R.val (Val.join cfg m n a b) := by
  cases a <;> cases b <;>
    first
    | rfl
    | exact R.res_strCat _ _ _
    | exact R.res_arrJoin _ _ _ _ _ _
    | exact R.res_chan4 (R.res_chanAvg _ _ _) (R.res_chanAvg _ _ _) (R.res_chanAvg _ _ _) (R.res_chanAvg _ _ _)

theorem res_bitOp (op : String) (f : BitVec 64 → BitVec 64 → BitVec 64) (a b : VVal) : Val.bitOp op f (R.val a) (R.val b) = R.res R.val (Val.bitOp op f a b) := by
  cases a <;> cases b <;> rfl

theorem res_shiftOp (chk : Bool) (op : String) (f : BitVec 64 → Nat → BitVec 64) (a b : VVal) :
    Val.shiftOp chk op f (R.val a) (R.val b) = R.res R.val (Val.shiftOp chk op f a b) := by
  cases a with
  | int l =>
    cases b with
    | int r =>
      simp only [val, Val.shiftOp]
      split
      · rfl
      · split <;> rfl
    | _ => rfl
  | _ => cases b <;> rfl

theorem res_divide (cfg : Cfg) (a b : VVal) : Val.divide cfg (R.val a) (R.val b) = R.res R.val (Val.divide cfg a b) := by
  unfold Val.divide
  rw [val_isZero]
  split
  · rfl
  · cases a <;> cases b <;>
      first
      | rfl
      | exact R.res_chan4 (R.res_chanDiv _ _) (R.res_chanDiv _ _) (R.res_chanDiv _ _) (R.res_chanDiv _ _)
      | (simp only [val]; split <;> rfl)

theorem res_modulo (cfg : Cfg) (a b : VVal) : Val.modulo cfg (R.val a) (R.val b) = R.res R.val (Val.modulo cfg a b) := by
  unfold Val.modulo
  rw [val_isZero]
  split
  · rfl
  · cases a <;> cases b <;>
      first
      | rfl
      | (simp only [val]; split <;> rfl)

theorem res_binary (cfg : Cfg) (lim : Limits) {ceq ceq' : VClos → VClos → Option Bool} (h : ∀ a b, ceq' (R.clos a) (R.clos b) = ceq a b) (op : Op) (a b : VVal) :
    Val.binary cfg lim ceq' op (R.val a) (R.val b) = R.res R.val (Val.binary cfg lim ceq op a b) := by
  cases op <;> simp only [Val.binary, Val.gt, Val.ge, Val.lt, Val.le, Val.shl, Val.shr]
  case eq =>
    simp only [Val.equal, R.val_eqv cfg.F h]
    cases Val.eqv cfg.F ceq a b <;> rfl
  case neq =>
    simp only [Val.notEqual, R.val_eqv cfg.F h]
    cases Val.eqv cfg.F ceq a b <;> rfl
  case add => exact R.res_add _ _ _ _
  case sub => exact R.res_subtract _ _ _
  case mul => exact R.res_multiply _ _ _ _
  case div => exact R.res_divide _ _ _
  case mod => exact R.res_modulo _ _ _
  case pow => exact R.res_power _ _ _
  case lt => exact R.res_compare _ _ _ _ _ _
  case gt => exact R.res_compare _ _ _ _ _ _
  case lte => exact R.res_compare _ _ _ _ _ _
  case gte => exact R.res_compare _ _ _ _ _ _
  case and => cases a <;> cases b <;> rfl
  case or => cases a <;> cases b <;> rfl
  case join => exact R.res_join _ _ _ _ _
  case bitAnd => exact R.res_bitOp _ _ _ _
  case bitOr => exact R.res_bitOp _ _ _ _
  case bitXor => exact R.res_bitOp _ _ _ _
  case shl => exact R.res_shiftOp _ _ _ _ _
  case shr => exact R.res_shiftOp _ _ _ _ _
  all_goals rfl

/-! ## Places and instructions -/

theorem getRuns_map (rs : List (Nat × Span)) : ∀ i, Rle.getRuns (rs.map fun p => (p.1, R.place p.2)) i = (Rle.getRuns rs i).map R.place := by
  induction rs with
  | nil => intro i; rfl
  | cons r rs ih =>
    intro i
    simp only [List.map_cons, Rle.getRuns]
    split
    · rfl
    · exact ih _

theorem func_getSpan (f : Func) (i : Nat) : (R.func f).getSpan i = R.place (f.getSpan i) := by
  obtain ⟨n, sp, a, u, ops, ss, cs, ys⟩ := f
  have h := R.getRuns_map ss.runs i
  show ((Rle.getRuns (ss.runs.map fun p => (p.1, R.place p.2)) i).getD Span.default) = R.place ((Rle.getRuns ss.runs i).getD Span.default)
  rw [h]
  cases Rle.getRuns ss.runs i with
  | none => exact R.default.symm
  | some _ => rfl

theorem func_ops (f : Func) : (R.func f).ops = f.ops := by cases f; rfl
theorem func_arity (f : Func) : (R.func f).arity = f.arity := by cases f; rfl
theorem func_name (f : Func) : (R.func f).name = R.name f.name := by cases f; rfl
theorem func_nameSpan (f : Func) : (R.func f).nameSpan = R.place f.nameSpan := by cases f; rfl
theorem func_upvalueCount (f : Func) : (R.func f).upvalueCount = f.upvalueCount := by cases f; rfl
theorem func_consts (f : Func) (i : Nat) : (R.func f).consts[i]? = f.consts[i]?.map R.const := by
  cases f
  simp only [func, Func.consts, consts_map, List.getElem?_map]

theorem decClos_consts (f : Func) (bs : List UInt8) : decClos (R.func f).consts bs = decClos f.consts bs := by
  match bs with
  | [] => rfl
  | [_] => rfl
  | a :: b :: bs =>
    simp only [decClos, func_consts]
    cases f.consts[a.toNat + 256 * b.toNat]? with
    | none => rfl
    | some c =>
      cases c with
      | lit l => rfl
      | fn g => simp only [Option.map_some, const, func_upvalueCount]

theorem decode_consts (f : Func) (bs : List UInt8) : decode (R.func f).consts bs = decode f.consts bs := by
  cases bs with
  | nil => rfl
  | cons op bs => simp only [decode, decClos_consts]

/-! ## States -/

variable {D : Type}

def cell (R : Relabel) : Cell → Cell
  | .opened l => .opened l
  | .closed v => .closed (R.val v)

def frame (R : Relabel) (f : Frame) : Frame := ⟨R.func f.fn, f.ups, f.ip, f.st⟩

/-- The errors of leaving a context with other names. -/
def exit (R : Relabel) (e : ExitFn D) : ExitFn D := fun d => (R.res id (e d).1, (e d).2)

def builtin (R : Relabel) : Builtin D VClos → Builtin D VClos
  | .fn f => .fn f
  | .ctx f e => .ctx f (R.exit e)

def host (R : Relabel) (H : Host D) : Host D :=
  ⟨H.cfg, H.opts, fun i => (H.builtins i).map R.builtin, pool R.name H.syms, H.onEnter, H.onExit, H.eqFuel⟩

/-- The state of the machine with other names and places. -/
def vm (R : Relabel) (s : VM D) : VM D :=
  ⟨s.data, s.exitFns.map R.exit, R.vals s.blockResults, fun i => (s.globals i).map R.val, s.openUps, fun c => R.cell (s.heap c), s.hp, s.frames.map R.frame, R.frame s.frame,
    fun i => R.val (s.stack i), s.sp⟩

def stepR (R : Relabel) : StepR D → StepR D
  | .next s => .next (R.vm s)
  | .done v s => .done (R.val v) (R.vm s)
  | .err e sp s => .err (R.raised e) (R.place sp) (R.vm s)
  | .panic => .panic

/-- A function of the host does the same with functions that have other names and places. -/
def AlikeFn (R : Relabel) (lim : Limits) (f : BFn D VClos) : Prop := ∀ d args, f d (R.vals args) lim = (R.res R.val (f d args lim).1, (f d args lim).2)

def Alike (R : Relabel) (lim : Limits) : Builtin D VClos → Prop
  | .fn f => R.AlikeFn lim f
  | .ctx f _ => R.AlikeFn lim f

/-- The name in the message for a symbol without name stays, and functions of the host treat functions alike. -/
structure Fits (R : Relabel) (H : Host D) : Prop where
  unknown : R.name "unkown???" = "unkown???"
  alike : ∀ i b, H.builtins i = some b → R.Alike H.opts.lim b

variable {R : Relabel} {H : Host D} {s : VM D}

theorem upd_comp {α β : Type} (f : α → β) (g : Nat → α) (i : Nat) (v : α) : (fun j => f (upd g i v j)) = upd (fun j => f (g j)) i (f v) := by
  funext j
  simp only [upd]
  split <;> rfl

theorem errAt_vm (e : Err) (he : R.raised e = e) : (R.vm s).errAt e = R.stepR (s.errAt e) := by
  simp only [VM.errAt, stepR, he, vm, frame, func_getSpan]

theorem err1_vm (e : Err) : (R.vm s).err1 (R.raised e) = R.stepR (s.err1 e) := by
  simp only [VM.err1, stepR, vm, frame, func_getSpan]

theorem pushU_vm (v : VVal) : (R.vm s).pushU (R.val v) = R.vm (s.pushU v) := by
  simp only [VM.pushU, vm, upd_comp]

theorem push_vm (v : VVal) : (R.vm s).push (R.host H) (R.val v) = R.stepR (s.push H v) := by
  unfold VM.push
  show (if reached H.opts.stackSize s.sp = true then _ else _) = _
  split
  · exact errAt_vm _ rfl
  · rw [pushU_vm]; rfl

theorem pushAll_vm (vs : List VVal) : ∀ s : VM D, (R.vm s).pushAll (R.host H) (R.vals vs) = R.stepR (s.pushAll H vs) := by
  induction vs with
  | nil => intro s; rfl
  | cons v vs ih =>
    intro s
    simp only [vals, VM.pushAll, push_vm]
    cases s.push H v with
    | next s' => exact ih s'
    | _ => rfl

theorem lift_vm {α β : Type} {f : α → β} {r : Res α} {k : α → StepR D} {k' : β → StepR D} (h : ∀ a, k' (f a) = R.stepR (k a)) :
    (R.vm s).lift (R.res f r) k' = R.stepR (s.lift r k) := by
  cases r with
  | ok a => exact h a
  | err e => exact err1_vm e
  | panic => rfl

theorem pop_vm {k k' : VVal → VM D → StepR D} (h : ∀ v s, k' (R.val v) (R.vm s) = R.stepR (k v s)) : (R.vm s).pop k' = R.stepR (s.pop k) := by
  unfold VM.pop
  show (if s.sp = 0 then _ else _) = _
  split
  · rfl
  · exact h _ { s with sp := s.sp - 1 }

theorem popSwapOut_vm {k k' : VVal → VM D → StepR D} (h : ∀ v s, k' (R.val v) (R.vm s) = R.stepR (k v s)) : (R.vm s).popSwapOut k' = R.stepR (s.popSwapOut k) := by
  unfold VM.popSwapOut
  show (if s.sp = 0 then _ else _) = _
  split
  · rfl
  · have h1 := h (s.stack (s.sp - 1)) { s with sp := s.sp - 1, stack := upd s.stack (s.sp - 1) .none }
    rw [← h1]
    congr 1
    simp only [vm, upd_comp]
    rfl

theorem oobR_vm : (R.vm s).oobR (R.host H) = R.stepR (s.oobR H) := by
  unfold VM.oobR
  show (match H.opts.stackSize with | some _ => StepR.panic | none => _) = _
  cases H.opts.stackSize with
  | some _ => rfl
  | none => exact errAt_vm _ rfl

theorem closeUp_vm (l : Nat) : (R.vm s).closeUp (R.host H) l = R.vm (s.closeUp H l) := by
  unfold VM.closeUp
  show (if reached H.opts.stackSize l = true then _ else _) = _
  split
  · rfl
  · have hh : (fun c => if c ∈ s.openUps then match R.cell (s.heap c) with
          | .opened l' => if l' = l then Cell.closed (R.val (s.stack l)) else R.cell (s.heap c)
          | x => x else R.cell (s.heap c)) =
        fun c => R.cell (if c ∈ s.openUps then match s.heap c with
          | .opened l' => if l' = l then Cell.closed (s.stack l) else s.heap c
          | x => x else s.heap c) := by
      funext c
      by_cases hc : c ∈ s.openUps
      · simp only [if_pos hc]
        cases s.heap c with
        | opened l' => simp only [cell]; split <;> rfl
        | closed v => rfl
      · simp only [if_neg hc]
    simp only [vm]
    congr 1
    refine List.filter_congr fun c _ => ?_
    have hc := congrFun hh c
    refine (congrArg (fun q : Cell => match q with | .opened _ => true | _ => false) hc).trans ?_
    generalize (if c ∈ s.openUps then match s.heap c with
          | .opened l' => if l' = l then Cell.closed (s.stack l) else s.heap c
          | x => x else s.heap c) = q
    cases q <;> rfl

theorem closeRange_vm (n : Nat) : ∀ (s : VM D) (lo : Nat), (R.vm s).closeRange (R.host H) lo n = R.vm (s.closeRange H lo n) := by
  induction n with
  | zero => intro s lo; rfl
  | succ n ih => intro s lo; simp only [VM.closeRange, closeUp_vm]; exact ih _ _

theorem capture_vm (l : Nat) : (R.vm s).capture l = ((s.capture l).1, R.vm (s.capture l).2) := by
  unfold VM.capture
  have hf : (fun c => match (R.vm s).heap c with | .opened l' => l' == l | _ => false) = fun c => match s.heap c with | .opened l' => l' == l | _ => false := by
    funext c
    show (match R.cell (s.heap c) with | .opened l' => l' == l | _ => false) = _
    cases s.heap c <;> rfl
  generalize hq : List.find? _ (R.vm s).openUps = q
  generalize hq' : List.find? _ s.openUps = q'
  have : q = q' := hq.symm.trans ((congrArg (fun f => List.find? f s.openUps) hf).trans hq')
  subst this
  cases q with
  | some c => rfl
  | none =>
    simp only [vm, upd_comp]
    rfl

theorem captureAll_vm (us : List (Nat × Nat)) : ∀ s : VM D, (R.vm s).captureAll us = (s.captureAll us).map fun r => (r.1, R.vm r.2) := by
  induction us with
  | nil => intro s; rfl
  | cons u us ih =>
    intro s
    obtain ⟨l, i⟩ := u
    unfold VM.captureAll
    split
    · rw [show (R.vm s).frame.st = s.frame.st from rfl, capture_vm]
      simp only [ih]
      cases (s.capture (s.frame.st + i)).2.captureAll us <;> rfl
    · rw [show (R.vm s).frame.ups = s.frame.ups from rfl]
      cases s.frame.ups[i]? with
      | none => rfl
      | some c =>
        simp only [ih]
        cases s.captureAll us <;> rfl

theorem cellsEq_vm {heap : Nat → Cell} {veq veq' : VVal → VVal → Option Bool} (h : ∀ a b, veq' (R.val a) (R.val b) = veq a b) :
    ∀ as bs : List Nat, cellsEq (fun c => R.cell (heap c)) veq' as bs = cellsEq heap veq as bs
  | [], _ => rfl
  | _ :: _, [] => rfl
  | a :: as, b :: bs => by
    simp only [cellsEq, cellsEq_vm h as bs]
    cases heap a <;> cases heap b <;> simp only [cell, h]

theorem closEq_vm (F : FOps) (heap : Nat → Cell) : ∀ (n : Nat) (a b : VClos), closEq F (fun c => R.cell (heap c)) n (R.clos a) (R.clos b) = closEq F heap n a b
  | 0, _, _ => rfl
  | n + 1, a, b => by
    unfold closEq
    by_cases h : a.fn = b.fn
    · rw [if_neg (show ¬ (R.clos a).fn ≠ (R.clos b).fn from not_not_intro (by simp only [clos, h])), if_neg (not_not_intro h)]
      by_cases hl : a.ups.length = b.ups.length
      · rw [if_neg (show ¬ (R.clos a).ups.length ≠ (R.clos b).ups.length from not_not_intro hl), if_neg (not_not_intro hl)]
        exact cellsEq_vm (fun x y => R.val_eqv F (closEq_vm F heap n) x y) _ _
      · rw [if_pos (show (R.clos a).ups.length ≠ (R.clos b).ups.length from hl), if_pos hl]
    · rw [if_pos (show (R.clos a).fn ≠ (R.clos b).fn from fun h' => h (R.func_inj _ _ h')), if_pos h]

theorem ceq_vm (a b : VClos) : (R.vm s).ceq (R.host H) (R.clos a) (R.clos b) = s.ceq H a b := closEq_vm _ _ _ _ _

theorem symName_host (hf : R.Fits H) (i : Nat) : VM.symName (R.host H) i = R.name (VM.symName H i) := by
  simp only [VM.symName, host, pool, Pool.get, List.getElem?_map]
  cases H.syms.entries[i]? with
  | none => exact hf.unknown.symm
  | some x => rfl

theorem topN_vm (n : Nat) : (R.vm s).topN n = R.vals (s.topN n) := by
  simp only [VM.topN, vals_map, List.map_map]
  rfl

theorem runBuiltin_vm {f : BFn D VClos} (hf : R.AlikeFn H.opts.lim f) {n : Nat} {x : Option (ExitFn D)} :
    (R.vm s).runBuiltin (R.host H) f n (x.map R.exit) = R.stepR (s.runBuiltin H f n x) := by
  unfold VM.runBuiltin
  show (if s.sp < n then _ else _) = _
  split
  · exact errAt_vm _ rfl
  · have ht : ((R.vm s).topN n).reverse = R.vals (s.topN n).reverse := by rw [topN_vm]; simp [vals_map]
    rw [ht]
    dsimp only
    rw [show (R.vm s).data = s.data from rfl, show (R.host H).opts = H.opts from rfl, hf]
    cases x with
    | none =>
      exact lift_vm (s := { s with sp := s.sp - n, data := (f s.data (s.topN n).reverse H.opts.lim).2 }) fun a =>
        push_vm (s := { s with sp := s.sp - n, data := (f s.data (s.topN n).reverse H.opts.lim).2 }) a
    | some x =>
      exact lift_vm (s := { s with sp := s.sp - n, exitFns := x :: s.exitFns, data := (f s.data (s.topN n).reverse H.opts.lim).2 }) fun a =>
        push_vm (s := { s with sp := s.sp - n, exitFns := x :: s.exitFns, data := (f s.data (s.topN n).reverse H.opts.lim).2 }) a

/-- One instruction. -/
theorem exec_vm (hf : R.Fits H) (i : Instr) : VM.exec (R.host H) (R.vm s) i = R.stepR (VM.exec H s i) := by
  cases i with
  | callFunction n =>
    simp only [VM.exec]
    show (if s.sp < n + 1 then _ else if reached H.opts.callStackSize (s.frames.map R.frame).length = true then _ else _) = _
    rw [List.length_map]
    split
    · rfl
    · split
      · exact errAt_vm _ rfl
      · rw [show (R.vm s).stack ((R.vm s).sp - n - 1) = R.val (s.stack (s.sp - n - 1)) from rfl]
        cases s.stack (s.sp - n - 1) with
        | clos c =>
          simp only [val, clos, func_arity]
          by_cases hn : n ≠ c.fn.arity
          · rw [if_pos hn, if_pos hn]
            simp only [VM.errAt, stepR, vm, frame, func_getSpan, func_name, raised]
          · rw [if_neg hn, if_neg hn]; rfl
        | func f =>
          simp only [val, func_arity]
          by_cases hn : n ≠ f.arity
          · rw [if_pos hn, if_pos hn]
            simp only [VM.errAt, stepR, vm, frame, func_getSpan, func_name, raised]
          · rw [if_neg hn, if_neg hn]; rfl
        | _ => exact err1_vm (.type (.notCallable _))
  | ret =>
    simp only [VM.exec, VM.pop]
    show (if s.sp = 0 then _ else _) = _
    split
    · rfl
    · have hc := closeRange_vm (H := H) (R := R) (s.sp - 1 - s.frame.st) { s with sp := s.sp - 1 } s.frame.st
      simp only [show VM.closeRange (R.host H) { R.vm s with sp := (R.vm s).sp - 1 } (R.vm s).frame.st ((R.vm s).sp - 1 - (R.vm s).frame.st) = _ from hc]
      generalize VM.closeRange H { s with sp := s.sp - 1 } s.frame.st (s.sp - 1 - s.frame.st) = s1
      rw [show (R.vm s1).frames = s1.frames.map R.frame from rfl]
      cases hx : s1.frames with
      | cons f fs => exact push_vm (s := { s1 with frames := fs, data := H.onExit s1.data, sp := s1.frame.st, frame := f }) _
      | nil =>
        simp only [List.map_nil]
        show (if H.cfg.chk = true ∧ s1.sp ≠ 0 then _ else _) = _
        split
        · rfl
        · simp only [stepR, vm, hx, List.map_nil, frame]
  | createClosure k us =>
    simp only [VM.exec]
    rw [show (R.vm s).frame.fn = R.func s.frame.fn from rfl, func_consts]
    cases s.frame.fn.consts[k]? with
    | none => rfl
    | some c =>
      cases c with
      | lit l => exact errAt_vm _ rfl
      | fn f =>
        simp only [Option.map_some, const, captureAll_vm]
        cases s.captureAll us with
        | none => rfl
        | some r => exact push_vm (.clos ⟨f, r.1⟩)
  | closeUpvalue =>
    simp only [VM.exec]
    show (if s.sp = 0 then _ else _) = _
    split
    · rfl
    · simp only [show (R.vm s).sp = s.sp from rfl, closeUp_vm]; rfl
  | binary op =>
    simp only [VM.exec]
    refine pop_vm fun b s => pop_vm fun a s => ?_
    rw [show Val.binary (R.host H).cfg (R.host H).opts.lim ((R.vm s).ceq (R.host H)) op (R.val a) (R.val b) = _ from
      R.res_binary H.cfg H.opts.lim (ceq_vm (H := H) (s := s)) op a b]
    exact lift_vm fun v => by rw [pushU_vm]; rfl
  | unary op =>
    simp only [VM.exec]
    refine pop_vm fun a s => ?_
    rw [res_unary]
    exact lift_vm fun v => by rw [pushU_vm]; rfl
  | indexGet =>
    simp only [VM.exec]
    refine pop_vm fun b s => pop_vm fun a s => ?_
    rw [res_indexGet]
    exact lift_vm fun v => push_vm v
  | createRange =>
    simp only [VM.exec]
    refine pop_vm fun b s => pop_vm fun a s => ?_
    rw [res_mkRange]
    exact lift_vm fun v => push_vm v
  | createPair =>
    simp only [VM.exec]
    refine pop_vm fun b s => pop_vm fun a s => ?_
    exact congrArg StepR.next (pushU_vm (.pair a b))
  | createArray n =>
    simp only [VM.exec]
    show (if s.sp < n then _ else _) = _
    split
    · rfl
    · rw [topN_vm, show (R.host H).opts.lim = H.opts.lim from rfl, res_mkArray]
      exact lift_vm fun v => push_vm (s := { s with sp := s.sp - n }) v
  | unpack n =>
    simp only [VM.exec]
    refine popSwapOut_vm fun v s => ?_
    rw [res_unpack]
    refine lift_vm fun vs => ?_
    rw [show (R.vals vs).reverse = R.vals vs.reverse by simp [vals_map]]
    exact pushAll_vm _ _
  | iterNext o =>
    simp only [VM.exec]
    show (if s.sp < 3 then _ else _) = _
    split
    · rfl
    · rw [show (R.vm s).stack ((R.vm s).sp - 3) = R.val (s.stack (s.sp - 3)) from rfl]
      cases s.stack (s.sp - 3) with
      | loopCtx k =>
        simp only [val]
        have hs : { R.vm s with stack := upd (R.vm s).stack ((R.vm s).sp - 3) (.loopCtx (k + 1)) } = R.vm { s with stack := upd s.stack (s.sp - 3) (.loopCtx (k + 1)) } := by
          simp only [vm, upd_comp]; rfl
        rw [hs, show upd (R.vm s).stack ((R.vm s).sp - 3) (.loopCtx (k + 1)) ((R.vm s).sp - 2) = R.val (upd s.stack (s.sp - 3) (.loopCtx (k + 1)) (s.sp - 2)) from
          congrFun (congrArg VM.stack hs) (s.sp - 2)]
        rw [show (R.host H).cfg = H.cfg from rfl, res_iterItem]
        refine lift_vm (s := { s with stack := upd s.stack (s.sp - 3) (.loopCtx (k + 1)) }) fun r => ?_
        cases r with
        | some v => exact push_vm (s := { s with stack := upd s.stack (s.sp - 3) (.loopCtx (k + 1)) }) v
        | none => exact congrArg (fun t : VM D => StepR.next { t with frame := { t.frame with ip := t.frame.ip + o } }) hs
      | _ => exact err1_vm (.type .failedToIterate)
  | exitContext =>
    simp only [VM.exec]
    rw [show (R.vm s).exitFns = s.exitFns.map R.exit from rfl]
    cases hx : s.exitFns with
    | nil => rfl
    | cons g es => exact lift_vm (f := id) (s := { s with exitFns := es, data := (g s.data).2 }) fun _ => rfl
  | enterContext k m =>
    have hs := symName_host hf k
    simp only [VM.exec]
    rw [show (R.host H).builtins k = (H.builtins k).map R.builtin from rfl]
    cases hb : H.builtins k with
    | none =>
      simp only [Option.map_none, hs]
      exact err1_vm (.name (.undefinedBuiltin _))
    | some b =>
      have ha := hf.alike k b hb
      cases b with
      | fn f => exact runBuiltin_vm (x := none) ha
      | ctx f g => exact runBuiltin_vm (x := some g) ha
  | callBuiltin k m =>
    have hs := symName_host hf k
    simp only [VM.exec]
    rw [show (R.host H).builtins k = (H.builtins k).map R.builtin from rfl]
    cases hb : H.builtins k with
    | none =>
      simp only [Option.map_none, hs]
      exact err1_vm (.name (.undefinedBuiltin _))
    | some b =>
      have ha := hf.alike k b hb
      cases b with
      | fn f => exact runBuiltin_vm (x := none) ha
      | ctx f g => exact errAt_vm _ rfl
  | jumpIfFalse o =>
    simp only [VM.exec]
    show (if s.sp = 0 then _ else _) = _
    split
    · rfl
    · rw [show (R.vm s).stack ((R.vm s).sp - 1) = R.val (s.stack (s.sp - 1)) from rfl, val_isTruthy]
      refine lift_vm (f := id) fun c => ?_
      cases c <;> rfl
  | jumpIfNotEq o =>
    simp only [VM.exec]
    have he := R.val_eqv H.cfg.F (ceq_vm (H := H) (s := { s with sp := s.sp - 1 })) (s.stack (s.sp - 1 - 1)) (s.stack (s.sp - 1))
    show (if s.sp < 2 then _ else match Val.eqv H.cfg.F (VM.ceq (R.host H) (R.vm { s with sp := s.sp - 1 })) (R.val (s.stack (s.sp - 1 - 1))) (R.val (s.stack (s.sp - 1))) with
      | some true => _ | some false => _ | none => _) = _
    rw [he]
    split
    · rfl
    · generalize Val.eqv H.cfg.F (VM.ceq H { s with sp := s.sp - 1 }) (s.stack (s.sp - 1 - 1)) (s.stack (s.sp - 1)) = r
      match r with
      | some true => rfl
      | some false => rfl
      | none => rfl
  | jumpForward o => rfl
  | jumpBackward o =>
    simp only [VM.exec]
    show (if s.frame.ip < o then _ else _) = _
    split <;> rfl
  | halt => exact err1_vm .halt
  | loadNone => exact push_vm .none
  | newLoopCtx => exact push_vm (.loopCtx 0)
  | loadNoneMany n =>
    simp only [VM.exec]
    show (if reached H.opts.stackSize (s.sp + n) = true then _ else _) = _
    split
    · exact err1_vm (s := { s with sp := s.sp + n }) (.overflow .stackOverflow)
    · rfl
  | blockResult => simp only [VM.exec]; exact popSwapOut_vm fun _ _ => rfl
  | blockReturn =>
    simp only [VM.exec]
    rw [show (R.vm s).blockResults = R.vals s.blockResults from rfl]
    cases s.blockResults with
    | nil => exact errAt_vm _ rfl
    | cons v vs => exact push_vm (s := { s with blockResults := vs }) v
  | pop => simp only [VM.exec]; exact pop_vm fun _ _ => rfl
  | defineGlobal k =>
    simp only [VM.exec]
    refine pop_vm fun v s => ?_
    simp only [stepR, vm, upd_comp]
    rfl
  | defineGlobalDefaulted k =>
    simp only [VM.exec]
    refine pop_vm fun v s => ?_
    rw [show (R.vm s).globals k = (s.globals k).map R.val from rfl]
    cases s.globals k with
    | some _ => rfl
    | none => simp only [stepR, vm, upd_comp, Option.map_none, Option.map_some]
  | swap =>
    simp only [VM.exec]
    show (if s.sp < 2 then _ else _) = _
    split
    · rfl
    · simp only [stepR, vm, VM.swapped, upd_comp]
  | swapPop =>
    simp only [VM.exec]
    show (if s.sp < 2 then _ else _) = _
    split
    · rfl
    · simp only [stepR, vm, VM.swapped, upd_comp]
  | popMany n =>
    simp only [VM.exec]
    show (if s.sp < n then _ else _) = _
    split <;> rfl
  | loadConst i =>
    simp only [VM.exec]
    rw [show (R.vm s).frame.fn = R.func s.frame.fn from rfl, func_consts]
    cases s.frame.fn.consts[i]? with
    | none => rfl
    | some c =>
      cases c with
      | lit l =>
        simp only [Option.map_some, const]
        rw [← push_vm, val_lit]
      | fn f => exact push_vm (.func f)
  | loadLocal i =>
    simp only [VM.exec]
    show (if oob H.opts.stackSize s.sp (s.frame.st + i) = true then _ else _) = _
    split
    · exact oobR_vm
    · exact push_vm _
  | setLocal i =>
    simp only [VM.exec]
    show (if s.sp = 0 then _ else if oob H.opts.stackSize s.sp (s.frame.st + i) = true then _ else _) = _
    split
    · rfl
    · split
      · exact oobR_vm
      · simp only [stepR, vm, upd_comp]; rfl
  | loadGlobal i =>
    have hs := symName_host hf i
    simp only [VM.exec]
    rw [show (R.vm s).globals i = (s.globals i).map R.val from rfl]
    cases s.globals i with
    | some v => exact push_vm v
    | none =>
      simp only [Option.map_none, hs]
      exact err1_vm (.name (.undefined _))
  | setGlobal i =>
    have hs := symName_host hf i
    simp only [VM.exec]
    show (if s.sp = 0 then _ else match (s.globals i).map R.val with | some _ => _ | none => _) = _
    split
    · rfl
    · cases s.globals i with
      | some v => simp only [stepR, vm, upd_comp, Option.map_some]
      | none =>
        simp only [Option.map_none, hs]
        exact err1_vm (.name (.undefined _))
  | setUpvalue i =>
    simp only [VM.exec]
    show (if s.sp = 0 then _ else match s.frame.ups[i]? with | some c => _ | none => _) = _
    split
    · rfl
    · cases s.frame.ups[i]? with
      | none => rfl
      | some c =>
        simp only
        rw [show (R.vm s).heap c = R.cell (s.heap c) from rfl]
        cases s.heap c with
        | opened l =>
          simp only [cell]
          show (if oob H.opts.stackSize s.sp l = true then _ else _) = _
          split
          · exact oobR_vm
          · simp only [stepR, vm, upd_comp]
        | closed v =>
          simp only [stepR, vm]
          rw [upd_comp R.cell]
          rfl
  | loadUpvalue i =>
    simp only [VM.exec]
    rw [show (R.vm s).frame.ups = s.frame.ups from rfl]
    cases s.frame.ups[i]? with
    | none => rfl
    | some c =>
      simp only
      rw [show (R.vm s).heap c = R.cell (s.heap c) from rfl]
      cases s.heap c with
      | opened l =>
        simp only [cell]
        show (if oob H.opts.stackSize s.sp l = true then _ else _) = _
        split
        · exact oobR_vm
        · exact push_vm _
      | closed v => exact push_vm v
  | createFunction i =>
    simp only [VM.exec]
    rw [show (R.vm s).frame.fn = R.func s.frame.fn from rfl, func_consts]
    cases s.frame.fn.consts[i]? with
    | none => rfl
    | some c =>
      cases c with
      | lit l => exact errAt_vm _ rfl
      | fn f => exact push_vm (.clos ⟨f, []⟩)

theorem step_vm (hf : R.Fits H) (s : VM D) : (R.vm s).step (R.host H) = R.stepR (s.step H) := by
  unfold VM.step
  rw [show (R.vm s).frame.fn = R.func s.frame.fn from rfl, func_ops, decode_consts, show (R.vm s).frame.ip = s.frame.ip from rfl]
  split
  · exact errAt_vm _ rfl
  · split
    · rename_i i n _
      exact exec_vm hf (s := { s with frame := { s.frame with ip := s.frame.ip + n } }) i
    · rfl

theorem errF_vm (s : VM D) : (R.vm s).errF = R.place s.errF := by
  unfold VM.errF
  have : ((R.vm s).frames = []) ↔ s.frames = [] := by simp [vm]
  by_cases h : s.frames = []
  · rw [if_pos h, if_pos (this.mpr h)]
    exact R.func_getSpan _ _
  · rw [if_neg h, if_neg fun h' => h (this.mp h')]
    exact R.func_nameSpan _

/-- The same number of steps, to the same end. -/
theorem run_vm (hf : R.Fits H) (clock : Nat → Bool) : ∀ (fuel i n : Nat) (s : VM D), (R.vm s).run (R.host H) clock fuel i n = (s.run H clock fuel i n).map R.stepR
  | 0, _, _, _ => rfl
  | fuel + 1, i, n, s => by
    unfold VM.run
    split
    · simp only [Option.map_some, stepR, errF_vm, raised]
    · rw [step_vm hf]
      rw [show (R.vm s).atBuiltin = s.atBuiltin by unfold VM.atBuiltin; rw [show (R.vm s).frame.fn = R.func s.frame.fn from rfl, func_ops]; rfl]
      dsimp only
      cases s.step H with
      | next s' =>
        simp only [stepR]
        split
        · simp only [Option.map_some, stepR, errF_vm, raised]
        · exact run_vm hf clock fuel _ _ s'
      | _ => rfl

/-! ## The machine with its host -/

/-- A machine with other names and places. -/
def machine (R : Relabel) (m : Machine D) : Machine D := ⟨R.host m.host, m.externals, R.vm m.vm⟩

theorem machine_new (M : Machine.Setup D) (data : D) (script : Script) : Machine.new M data (R.script script) = R.machine (Machine.new M data script) := rfl

theorem machine_update (m : Machine D) (script : Script) : (R.machine m).updateScript (R.script script) = R.machine (m.updateScript script) := rfl

theorem machine_reset (m : Machine D) : (R.machine m).reset = R.machine m.reset := rfl

theorem machine_global (m : Machine D) (x : String) (v : VVal) : (R.machine m).insertGlobal (R.name x) (R.val v) = R.machine (m.insertGlobal x v) := by
  have h := add_pool R.name_inj m.host.syms x
  simp only [Machine.insertGlobal, machine, host, h, vm, upd_comp]
  rfl

theorem machine_builtins (m : Machine D) (x : String) (b : Builtin D VClos) : (R.machine m).addBuiltins [(R.name x, R.builtin b)] = R.machine (m.addBuiltins [(x, b)]) := by
  have h := add_pool R.name_inj m.host.syms x
  simp only [Machine.addBuiltins, machine, host, h, upd_comp]
  rfl

theorem machine_external (m : Machine D) (x : String) (v : VVal) {m' : Machine D} (h : m.setExternal x v = (.ok (), m')) :
    (R.machine m).setExternal (R.name x) (R.val v) = (.ok (), R.machine m') := by
  have hl := lookup_pool R.name_inj x m.host.syms.dups
  simp only [Machine.setExternal, Pool.id?] at h ⊢
  rw [show (R.machine m).host.syms.dups = m.host.syms.dups.map fun q => (R.name q.1, q.2) from rfl, hl]
  cases hx : Pool.lookup x m.host.syms.dups with
  | none => rw [hx] at h; simp at h
  | some i =>
    rw [hx] at h
    simp only [show (R.machine m).externals = m.externals from rfl] at h ⊢
    by_cases hi : i ∈ m.externals
    · simp only [if_pos hi, Prod.mk.injEq, true_and] at h ⊢
      subst h
      simp only [machine, vm, upd_comp]
      rfl
    · simp [if_neg hi] at h

def entry (R : Relabel) : Machine.TraceEntry → Machine.TraceEntry
  | .frame x sp => .frame (R.name x) (R.place sp)
  | .more n => .more n

theorem traceBack_vm (s : VM D) : Machine.traceBack (R.vm s) = (Machine.traceBack s).map R.entry := by
  have hf : ∀ f : Frame, Machine.traceFrame (R.frame f) = R.entry (Machine.traceFrame f) := fun f => by
    simp only [Machine.traceFrame, frame, entry, func_name, func_getSpan]
  have hm : ∀ fs : List Frame, (fs.map R.frame).map Machine.traceFrame = (fs.map Machine.traceFrame).map R.entry := fun fs => by
    simp only [List.map_map]
    exact List.map_congr_left fun f _ => hf f
  unfold Machine.traceBack
  rw [show (R.vm s).frames = s.frames.map R.frame from rfl, show (R.vm s).frame = R.frame s.frame from rfl]
  simp only [List.map_append, List.length_map, List.getLast?_map, ← List.map_dropLast, ← List.map_take, hm, hf, List.map_cons, List.map_nil]
  congr 1
  · congr 1
    split <;> rfl
  · cases s.frames.getLast? with
    | none => rfl
    | some f => simp only [Option.map_some, List.map_cons, List.map_nil, entry, frame, func_name, func_getSpan]

end Relabel
end Quilt
