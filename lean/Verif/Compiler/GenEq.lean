import Verif.Compiler.Gen

/-!
# The compiler model writes the code of the functional generator
-/

namespace Quilt

theorem Rle.bump_two {α : Type} [DecidableEq α] (v : α) (rs : List (Nat × α)) :
    Rle.bump v 2 rs = Rle.bump v 1 (Rle.bump v 1 rs) := by
  induction rs with
  | nil => simp [Rle.bump]
  | cons r rs ih =>
    cases rs with
    | nil =>
      obtain ⟨c, w⟩ := r
      by_cases h : w = v <;> simp [Rle.bump, h]
    | cons r' rs =>
      simp only [Rle.bump, ih]
      generalize hb : Rle.bump v 1 (r' :: rs) = b
      cases b with
      | nil => cases rs <;> simp [Rle.bump] at hb; split at hb <;> simp at hb
      | cons x b => simp [Rle.bump]

theorem Rle.pushN_two {α : Type} [DecidableEq α] (r : Rle α) (v : α) :
    r.pushN v 2 = (r.push v).push v := by
  simp [Rle.pushN, Rle.push, Rle.bump_two]

@[simp] theorem Chunk.emit_nil (c : Chunk) : c.emit [] = c := by simp [Chunk.emit]
@[simp] theorem Chunk.emit_emit (c : Chunk) (a b : Code) : (c.emit a).emit b = c.emit (a ++ b) := by
  simp [Chunk.emit]

namespace CState

/-- The state after writing code and changing the name tables. -/
def emit (s : CState) (code : Code) (g : GState) : CState :=
  { s with g := g, head := { s.head with chunk := s.head.chunk.emit code } }

@[simp] theorem emit_g (s : CState) (c : Code) (g : GState) : (s.emit c g).g = g := rfl
@[simp] theorem emit_heads (s : CState) (c : Code) (g : GState) : (s.emit c g).heads = s.heads := rfl
@[simp] theorem emit_emit (s : CState) (c c' : Code) (g g' : GState) :
    (s.emit c g).emit c' g' = s.emit (c ++ c') g' := by
  simp [emit]
@[simp] theorem emit_self (s : CState) : s.emit [] s.g = s := by
  simp [emit]
theorem emit_nil (s : CState) (g : GState) : s.emit [] g = { s with g := g } := by simp [emit]
theorem emit_len (s : CState) (c : Code) (g : GState) :
    (s.emit c g).head.chunk.ops.length = s.head.chunk.ops.length + c.len := by
  simp [emit, Chunk.emit, Code.len]

end CState

namespace CM
variable {α β : Type}

@[simp] theorem bind_app (x : CM α) (f : α → CM β) (s : CState) :
    (x >>= f) s = match x s with
      | (.ok a, s') => f a s'
      | (.err e sp, s') => (.err e sp, s')
      | (.panic, s') => (.panic, s') := rfl

@[simp] theorem pure_app (a : α) (s : CState) : (pure a : CM α) s = (.ok a, s) := rfl
@[simp] theorem throw_app (e : Err) (sp : Span) (s : CState) : (throw e sp : CM α) s = (.err e sp, s) := rfl
@[simp] theorem panic_app (s : CState) : (panic : CM α) s = (.panic, s) := rfl
@[simp] theorem onG_app (f : GState → GState) (s : CState) : onG f s = (.ok (), s.emit [] (f s.g)) := by
  simp [onG, CState.emit_nil]
@[simp] theorem onG'_app (f : GState → α × GState) (s : CState) :
    onG' f s = (.ok (f s.g).1, s.emit [] (f s.g).2) := by
  simp [onG', CState.emit_nil]
@[simp] theorem getG_app (s : CState) : getG s = (.ok s.g, s) := rfl
@[simp] theorem isGlobal_app (s : CState) : isGlobal s = (.ok (decide (s.g.cur.depth = 0)), s) := rfl
@[simp] theorem len_app (s : CState) : len s = (.ok s.head.chunk.ops.length, s) := rfl

theorem writeU8_emit (i : Instr) (b : UInt8) (h : i.enc = [b]) (sp : Span) (s : CState) :
    writeU8 b sp s = (.ok (), s.emit [.at' i sp] s.g) := by
  simp [writeU8, onChunk, CState.emit, Chunk.emit, Code.ops, Code.spans, Piece.spans, h,
    Chunk.writeU8, Bytes.writeU8]

theorem writeOpU16_emit (i : Instr) (op : UInt8) (v : Nat) (h : i.enc = op :: u16le v) (sp : Span)
    (s : CState) : writeOpU16 op v sp s = (.ok (), s.emit [.at' i sp] s.g) := by
  simp [writeOpU16, writeU16, writeU8, onChunk, CState.emit, Chunk.emit, Code.ops, Code.spans,
    Piece.spans, h, Chunk.writeU8, Bytes.writeU8, Chunk.writeU16, Bytes.writeU16, u16le,
    List.replicate_succ, Rle.pushN_two]

theorem writeOpU8_emit (i : Instr) (op : UInt8) (v : Nat) (h : i.enc = op :: u8b v) (sp : Span)
    (s : CState) : writeOpU8 op v sp s = (.ok (), s.emit [.at' i sp] s.g) := by
  simp [writeOpU8, writeU8, onChunk, CState.emit, Chunk.emit, Code.ops, Code.spans,
    Piece.spans, h, Chunk.writeU8, Bytes.writeU8, u8b, List.replicate_succ]

theorem writeJump_emit (J : Nat → Instr) (op : UInt8) (h : ∀ n, (J n).enc = op :: u16le n) (sp : Span)
    (s : CState) :
    writeJump op sp s = (.ok (s.head.chunk.ops.length + 1), s.emit [.at' (J 0) sp] s.g) := by
  simp only [writeJump, bind_app, writeOpU16_emit (J 0) op 0 (h 0), len_app, pure_app,
    CState.emit_len, Code.len_cons, h, Code.len_nil, List.length_cons]
  simp [u16le]

theorem set_two (a : List UInt8) (x y x' y' : UInt8) (b : List UInt8) (n : Nat) (hn : n = a.length) :
    ((a ++ x :: y :: b).set n x').set (n + 1) y' = a ++ x' :: y' :: b := by
  subst hn
  induction a with
  | nil => rfl
  | cons z a ih => simpa using ih

theorem patchU16_mid (a b : List UInt8) (x y : UInt8) (n v : Nat) (hn : n = a.length) :
    Bytes.patchU16 (a ++ x :: y :: b) n v = .ok (a ++ u16le v ++ b) := by
  have h := set_two a x y (UInt8.ofNat (v % 256)) (UInt8.ofNat (v / 256 % 256)) b n hn
  subst hn
  simp [Bytes.patchU16, Bytes.patchU8, Res.bind, u16le] at h ⊢

theorem patchJump_emit (J : Nat → Instr) (op : UInt8) (h : ∀ n, (J n).enc = op :: u16le n) (sp sp' : Span)
    (s : CState) (A B code : Code) (g : GState) (off n0 : Nat) (hc : code = A ++ .at' (J n0) sp' :: B)
    (ho : off = s.head.chunk.ops.length + A.len + 1) :
    patchJump off sp (s.emit code g) =
      if B.len > 65535 then (.err (.overflow .jumpTooLarge) sp, s.emit code g)
      else (.ok (), s.emit (A ++ .at' (J B.len) sp' :: B) g) := by
  subst hc
  have hl : (s.emit (A ++ .at' (J n0) sp' :: B) g).head.chunk.ops.length - 2 - off = B.len := by
    simp only [CState.emit_len, Code.len_append, Code.len_cons, h, List.length_cons, u16le]
    simp; omega
  simp only [patchJump, bind_app, len_app, hl]
  generalize B.len = k
  split
  · rfl
  · have hops : (s.emit (A ++ .at' (J n0) sp' :: B) g).head.chunk.ops =
        (s.head.chunk.ops ++ A.ops ++ [op]) ++ UInt8.ofNat (n0 % 256) :: UInt8.ofNat (n0 / 256 % 256) :: B.ops := by
      simp [CState.emit, Chunk.emit, Code.ops_cons, h, u16le]
    have hp := patchU16_mid (s.head.chunk.ops ++ A.ops ++ [op]) B.ops (UInt8.ofNat (n0 % 256))
      (UInt8.ofNat (n0 / 256 % 256)) off k (by simp [ho, Code.len]; omega)
    have hsp : ∀ n, (Piece.at' (J n) sp').spans = [sp', sp', sp'] := by
      intro n; simp [Piece.spans, h, u16le, List.replicate_succ]
    simp only [patchU16, Chunk.patchU16, hops, hp, Res.map]
    simp [CState.emit, Chunk.emit, Code.ops_cons, h, Code.spans_cons, hsp]

theorem writeJumpBackward_emit (start : Nat) (sp : Span) (s : CState) (c : Code) (g : GState) (k : Nat)
    (hs : start + k = s.head.chunk.ops.length + c.len + 3) :
    writeJumpBackward start sp (s.emit c g) =
      if k > 65535 then (.err (.overflow .jumpTooLarge) sp, s.emit c g)
      else (.ok (), s.emit (c ++ [.at' (.jumpBackward k) sp]) g) := by
  have hk : s.head.chunk.ops.length + c.len + 3 - start = k := by omega
  simp only [writeJumpBackward, bind_app, len_app, CState.emit_len, hk]
  split
  · rfl
  · rw [writeOpU16_emit (.jumpBackward k) 30 k rfl]; simp

theorem flushPops_emit (q : Nat) (sp : Span) (s : CState) :
    flushPops q sp s = (.ok (), s.emit (GM.flush q sp) s.g) := by
  unfold flushPops GM.flush
  split
  · rw [writeOpU16_emit (.popMany q) 3 q rfl]
  · split
    · rw [writeU8_emit .pop 2 rfl]
    · simp

theorem writePops_emit (sp : Span) (cs : List Bool) (q : Nat) (s : CState) :
    writePops sp cs q s = (.ok (), s.emit (GM.exitOps sp cs q) s.g) := by
  induction cs generalizing q s with
  | nil => exact flushPops_emit q sp s
  | cons b cs ih =>
    cases b with
    | false => exact ih (q + 1) s
    | true =>
      simp only [writePops, bind_app, flushPops_emit, writeU8_emit .closeUpvalue 15 rfl, ih,
        CState.emit_g, CState.emit_emit, GM.exitOps]

theorem exitScope_emit (sp : Span) (s : CState) :
    exitScope sp s = (.ok (), s.emit
      (GM.exitCode sp ((s.g.cur.leaving (s.g.cur.depth - 1)).map (·.captured))) s.g.exitScope) := by
  unfold exitScope GM.exitCode
  simp only [bind_app, getG_app, onG_app]
  by_cases h : s.g.cur.leaving (s.g.cur.depth - 1) = []
  · simp [h]
  · simp only [ne_eq, h, not_false_eq_true, if_true, bind_app, writeU8_emit .blockResult 25 rfl,
      writePops_emit, writeU8_emit .blockReturn 26 rfl, CState.emit_g, CState.emit_emit, List.map_eq_nil_iff,
      if_false]
    simp

theorem getVariable_emit (x : String) (sp : Span) (s : CState) :
    getVariable x sp s = (.ok (), s.emit [.at' (s.g.resolve x).1.load sp] (s.g.resolve x).2) := by
  simp only [getVariable, bind_app, onG'_app]
  generalize s.g.resolve x = r
  obtain ⟨r, g⟩ := r
  cases r with
  | loc i => simp only [writeOpU16_emit (.loadLocal i) 7 i rfl]; simp [GState.Ref.load]
  | up i => simp only [writeOpU16_emit (.loadUpvalue i) 10 i rfl]; simp [GState.Ref.load]
  | glob i => simp only [writeOpU16_emit (.loadGlobal i) 12 i rfl]; simp [GState.Ref.load]

theorem setVariable_emit (x : String) (sp : Span) (s : CState) :
    setVariable x sp s = (.ok (), s.emit [.at' (s.g.resolve x).1.store sp] (s.g.resolve x).2) := by
  simp only [setVariable, bind_app, onG'_app]
  generalize s.g.resolve x = r
  obtain ⟨r, g⟩ := r
  cases r with
  | loc i => simp only [writeOpU16_emit (.setLocal i) 8 i rfl]; simp [GState.Ref.store]
  | up i => simp only [writeOpU16_emit (.setUpvalue i) 11 i rfl]; simp [GState.Ref.store]
  | glob i => simp only [writeOpU16_emit (.setGlobal i) 13 i rfl]; simp [GState.Ref.store]

theorem writeUps_emit (sp : Span) (us : List Upv) (s : CState) :
    writeUps sp us s = (.ok (), { s with head := { s.head with chunk :=
      ⟨s.head.chunk.ops ++ encUps (us.map fun u => ((if u.isLocal then 1 else 0), u.idx)),
       (List.replicate (3 * us.length) sp).foldl Rle.push s.head.chunk.spans⟩ } }) := by
  induction us generalizing s with
  | nil => simp [writeUps, encUps]
  | cons u us ih =>
    simp only [writeUps, bind_app, writeU8, writeU16, onChunk, ih]
    have : (3 * (us.length + 1)) = 3 * us.length + 1 + 1 + 1 := by omega
    cases hu : u.isLocal <;>
      simp [hu, Chunk.writeU8, Bytes.writeU8, Chunk.writeU16, Bytes.writeU16, encUps, u8b, this,
        List.replicate_succ, Rle.pushN_two]

theorem writeClos_emit (i : Nat) (us : List Upv) (sp : Span) (s : CState) :
    (if us.length > 0 then do writeOpU16 17 i sp; writeUps sp us else writeOpU16 16 i sp) s =
      (.ok (), s.emit [.at' (GM.closInstr i us) sp] s.g) := by
  cases us with
  | nil => simpa [GM.closInstr] using writeOpU16_emit (.createFunction i) 16 i rfl sp s
  | cons u us =>
    simp only [List.length_cons, gt_iff_lt, Nat.zero_lt_succ, if_true, bind_app, writeUps_emit,
      writeOpU16, writeU8, writeU16, onChunk]
    have h1 : (u :: us).map (fun u => ((if u.isLocal then 1 else 0), u.idx)) ≠ [] := by simp
    simp only [GM.closInstr, reduceCtorEq, if_false, CState.emit, Chunk.emit, Code.ops_cons,
      Code.spans_cons, Code.ops_nil, Code.spans_nil, Piece.spans, Instr.enc,
      Chunk.writeU8, Bytes.writeU8, Chunk.writeU16, Bytes.writeU16]
    have h2 : ((17 : UInt8) :: u16le i ++ encUps ((u :: us).map (fun u => ((if u.isLocal then 1 else 0), u.idx)))).length - 1
        = 3 * (us.length + 1) + 1 + 1 := by
      simp [encUps_length, u16le]
    rw [h2]
    have h3 : List.replicate (3 * (us.length + 1) + 1 + 1) sp ++ [sp] =
        sp :: sp :: sp :: List.replicate (3 * (us.length + 1)) sp := by
      rw [← List.replicate_succ']
      simp [List.replicate_succ]
    rw [h3]
    simp [Rle.pushN_two]

theorem writeBuiltin_emit (I : Nat → Nat → Instr) (op : UInt8)
    (h : ∀ i n, (I i n).enc = op :: u16le i ++ u8b n) (x : Name) (n : Nat) (sp : Span) (s : CState) :
    writeBuiltin op x n sp s =
      (.ok (), s.emit [⟨I (s.g.addGlobal x.1).1 n, sp, x.2⟩] (s.g.addGlobal x.1).2) := by
  simp [writeBuiltin, writeU16, writeU8, onChunk, CState.emit, Chunk.emit, Code.ops, Code.spans,
    Piece.spans, h, Chunk.writeU8, Bytes.writeU8, Chunk.writeU16, Bytes.writeU16, u16le, u8b,
    List.replicate_succ, Rle.pushN_two]

end CM

/-- The compiler function `c` writes exactly what the generator `x` produces, and fails with the
same error. Nothing is said when a table overflowed. -/
def Ref {α : Type} (c : CM α) (x : GM α) : Prop :=
  ∀ s, match x s.g with
    | .ok (a, code, g) => c s = (.ok a, s.emit code g)
    | .err e sp => (c s).1 = .err e sp
    | .panic => (c s).1 = .panic
    | .unfit => True

namespace Ref
variable {α β : Type}

theorem elim {c : CM α} {x : GM α} (h : Ref c x) (s : CState) (g : GState) (hg : s.g = g) :
    (∃ a code g', x g = .ok (a, code, g') ∧ c s = (.ok a, s.emit code g')) ∨
    (∃ e sp s', x g = .err e sp ∧ c s = (.err e sp, s')) ∨
    (∃ s', x g = .panic ∧ c s = (.panic, s')) ∨ x g = .unfit := by
  subst hg
  have := h s
  revert this
  cases x s.g with
  | ok r => obtain ⟨a, code, g'⟩ := r; intro h; exact .inl ⟨_, _, _, rfl, h⟩
  | err e sp => intro h; exact .inr (.inl ⟨e, sp, (c s).2, rfl, by rw [← h]⟩)
  | panic => intro h; exact .inr (.inr (.inl ⟨(c s).2, rfl, by rw [← h]⟩))
  | unfit => intro _; exact .inr (.inr (.inr rfl))

theorem intro {c : CM α} {x : GM α} (h : ∀ s, match x s.g with
    | .ok (a, code, g) => c s = (.ok a, s.emit code g)
    | .err e sp => (c s).1 = .err e sp
    | .panic => (c s).1 = .panic
    | .unfit => True) : Ref c x := h

theorem bind {c : CM α} {x : GM α} {f : α → CM β} {F : α → GM β} (h : Ref c x)
    (hf : ∀ a, Ref (f a) (F a)) : Ref (c >>= f) (x >>= F) := by
  intro s
  rcases h.elim s s.g rfl with ⟨a, code, g', h1, h2⟩ | ⟨e, sp, s', h1, h2⟩ | ⟨s', h1, h2⟩ | h1
  · rcases (hf a).elim (s.emit code g') g' rfl with ⟨b, code', g'', h3, h4⟩ | ⟨e, sp, s', h3, h4⟩ | ⟨s', h3, h4⟩ | h3 <;>
      simp_all
  all_goals simp_all

theorem pure (a : α) : Ref (Pure.pure a) (Pure.pure a) := by
  intro s; simp [Pure.pure, GM.ret, CM.ret]
theorem throw (e : Err) (sp : Span) : Ref (CM.throw e sp : CM α) (GM.throw e sp) := by
  intro s; simp [GM.throw]
theorem panic : Ref (CM.panic : CM α) GM.panic := by
  intro s; simp [GM.panic]
theorem onG (f : GState → GState) : Ref (CM.onG f) (GM.onG f) := by
  intro s; simp [GM.onG]
theorem onG' (f : GState → α × GState) : Ref (CM.onG' f) (GM.onG' f) := by
  intro s; simp [GM.onG']
theorem getG : Ref CM.getG GM.getG := by
  intro s; simp [GM.getG]
theorem isGlobal : Ref CM.isGlobal GM.isGlobal := by
  intro s; simp [GM.isGlobal]
theorem exitScope (sp : Span) : Ref (CM.exitScope sp) (GM.exitScope sp) := by
  intro s; simp [GM.exitScope, CM.exitScope_emit]
theorem writeU8 (i : Instr) (b : UInt8) (h : i.enc = [b]) (sp : Span) :
    Ref (CM.writeU8 b sp) (GM.emit1 i sp) := by
  intro s; simp [GM.emit1, GM.emit, CM.writeU8_emit i b h]
theorem writeOpU8 (i : Instr) (b : UInt8) (n : Nat) (h : i.enc = b :: u8b n) (sp : Span) :
    Ref (CM.writeOpU8 b n sp) (GM.emit1 i sp) := by
  intro s; simp [GM.emit1, GM.emit, CM.writeOpU8_emit i b n h]
theorem writeOpU16 (i : Instr) (b : UInt8) (n : Nat) (h : i.enc = b :: u16le n) (sp : Span) :
    Ref (CM.writeOpU16 b n sp) (GM.emit1 i sp) := by
  intro s; simp [GM.emit1, GM.emit, CM.writeOpU16_emit i b n h]
theorem getVariable (x : String) (sp : Span) : Ref (CM.getVariable x sp) (GM.getVariable x sp) := by
  intro s
  simp [GM.getVariable, GM.onG', GM.emit1, GM.emit, CM.getVariable_emit]
theorem setVariable (x : String) (sp : Span) : Ref (CM.setVariable x sp) (GM.setVariable x sp) := by
  intro s
  simp [GM.setVariable, GM.onG', GM.emit1, GM.emit, CM.setVariable_emit]
theorem defineLocals (ns : List String) : Ref (CM.defineLocals ns) (GM.defineLocals ns) := onG _
theorem defineGlobal (x : String) (sp : Span) : Ref (CM.defineGlobal 9 x sp) (GM.defineGlobal x sp) :=
  bind (onG' _) fun i => writeOpU16 (.defineGlobal i) 9 i rfl sp
theorem defineGlobals (ns : List Name) : Ref (CM.defineGlobals ns) (GM.defineGlobals ns) := by
  induction ns with
  | nil => exact pure ()
  | cons n ns ih => exact bind (defineGlobal _ _) fun _ => ih
theorem writeBuiltin (I : Nat → Nat → Instr) (op : UInt8)
    (h : ∀ i n, (I i n).enc = op :: u16le i ++ u8b n) (x : Name) (n : Nat) (sp : Span) :
    Ref (CM.writeBuiltin op x n sp) (do
      let i ← GM.onG' fun g => g.addGlobal x.1
      GM.emit [⟨I i n, sp, x.2⟩]) := by
  intro s
  simp [GM.onG', GM.emit, CM.writeBuiltin_emit I op h]

theorem assoc_gm {γ : Type} (x : GM α) (f : α → GM β) (k : β → GM γ) :
    ((x >>= f) >>= k) = (x >>= fun a => f a >>= k) := by
  funext g
  simp only [GM.bind_app]
  cases x g with
  | ok r =>
    obtain ⟨a, c, g1⟩ := r
    simp only
    cases f a g1 with
    | ok r =>
      obtain ⟨b, c', g2⟩ := r
      simp only
      cases k b g2 <;> simp
    | _ => rfl
  | _ => rfl

theorem assoc_cm {γ : Type} (x : CM α) (f : α → CM β) (k : β → CM γ) :
    ((x >>= f) >>= k) = (x >>= fun a => f a >>= k) := by
  funext s
  simp only [CM.bind_app]
  rcases x s with ⟨_ | _ | _, s'⟩ <;> rfl

theorem assoc3 {γ δ : Type} {a : CM α} {b : CM β} {c : β → CM γ} {d : γ → CM δ} {X : GM δ}
    (h : Ref ((do let _ ← a; let y ← b; c y) >>= d) X) :
    Ref (do let _ ← a; let y ← b; let z ← c y; d z) X := by
  simp only [assoc_cm] at h
  exact h

theorem ite {p : Prop} [Decidable p] {c c' : CM α} {x x' : GM α} (h : p → Ref c x) (h' : ¬p → Ref c' x') :
    Ref (if p then c else c') (if p then x else x') := by
  split
  · exact h ‹_›
  · exact h' ‹_›

theorem inScope {c : CM Span} {x : GM Span} (h : Ref c x) :
    Ref (CM.inScope c) (GM.inScope x) :=
  bind (onG _) fun _ => bind h fun _ => exitScope _

theorem exprIn {c : CM Unit} {x : GM Unit} (m : Mode) (sp : Span) (h : Ref c x) :
    Ref (Quilt.exprIn m sp c) (gexprIn m sp x) :=
  bind h fun _ => ite (fun _ => writeU8 .pop 2 rfl sp) fun _ => pure ()

theorem stmtIn {c : CM Unit} {x : GM Unit} (m : Mode) (sp : Span) (h : Ref c x) :
    Ref (Quilt.stmtIn m sp c) (gstmtIn m sp x) := by
  cases m with
  | expr => exact throw _ _
  | stmt p => exact h

/-- A function: level entered, body, level left. -/
theorem func {c : CM Span} {x : GM Span} (strict : Bool) (name : Name) (params : List Name) (sp : Span)
    (h : Ref c x) :
    Ref (do CM.enterFn name params; let _ ← c; CM.closeFn sp) (GM.func strict name params sp x) := by
  intro s
  simp only [GM.func, CM.bind_app, CM.enterFn]
  generalize hs1 : (⟨s.g.enterFn name.1 (params.map Prod.fst),
      ⟨name.1, name.2, params.length, Chunk.empty⟩, s.head :: s.heads⟩ : CState) = s1
  have hg : s1.g = s.g.enterFn name.1 (params.map Prod.fst) := by rw [← hs1]
  rcases h.elim s1 _ hg with ⟨a, code, g', h1, h2⟩ | ⟨e, sp, s', h1, h2⟩ | ⟨s', h1, h2⟩ | h1
  · simp only [h1, h2]
    subst hs1
    simp only [CM.closeFn, CM.bind_app, CM.exitFn, CState.emit]
    cases he : g'.encl with
    | nil => rfl
    | cons l ls =>
      by_cases hf : (strict && !GM.fnFits g'.cur code) = true
      · simp [hf]
      · simp only [hf]
        simp only [CM.onG'_app, CM.writeClos_emit]
        simp [GM.mkFunc, Chunk.emit, CState.emit]
  all_goals simp [h1]
  all_goals simp [h2]


theorem sub_app (x : GM Unit) (g : GState) : GM.sub x g =
    match x g with
    | .ok (_, c, g') => .ok (c, [], g')
    | .err e sp => .err e sp
    | .panic => .panic
    | .unfit => .unfit := rfl

theorem emit_app (c : Code) (g : GState) : GM.emit c g = .ok ((), c, g) := rfl
theorem emit1_app (i : Instr) (sp : Span) (g : GState) : GM.emit1 i sp g = .ok ((), [.at' i sp], g) := rfl
theorem throw_app (e : Err) (sp : Span) (g : GState) : (GM.throw e sp : GM α) g = .err e sp := rfl

theorem ctxVar (sp csp : Span) (v : Option Var) : Ref (CM.ctxVar sp csp v) (GM.ctxVar sp csp v) := by
  match v with
  | some (.one y) => exact bind (defineLocals _) fun _ => setVariable _ _
  | some (.many ns) =>
    exact ite (fun _ => throw _ _) fun _ => bind (writeOpU8 (.unpack _) 31 _ rfl _) fun _ => defineLocals _
  | none => exact writeU8 .pop 2 rfl sp

theorem declVar (sp : Span) (v : Var) : Ref (CM.declVar sp v) (GM.declVar sp v) := by
  match v with
  | .one y =>
    exact bind isGlobal fun b => ite (fun _ => defineGlobal _ _) fun _ =>
      bind (defineLocals _) fun _ => setVariable _ _
  | .many ns =>
    exact ite (fun _ => throw _ _) fun _ => bind (writeOpU8 (.unpack _) 31 _ rfl _) fun _ =>
      bind isGlobal fun b => ite (fun _ => defineGlobals _) fun _ => defineLocals _


theorem thenPart (J : Nat → Instr) (op : UInt8) (hJ : ∀ n, (J n).enc = op :: u16le n)
    (sp : Span) {th : CM Unit} {T : GM Unit} (hT : Ref th T) (s : CState) (g : GState) (hg : s.g = g) :
    (∃ u a g', T g = .ok (u, a, g') ∧ a.len + 6 ≤ 65535 ∧
      CM.thenPart op sp th s = (.ok (s.head.chunk.ops.length + a.len + 7), s.emit
            ([.at' (J (a.len + 6)) sp, .at' (.popMany 2) sp] ++ a ++ [.at' (.jumpForward 0) sp]) g')) ∨
    (∃ u a g' s', T g = .ok (u, a, g') ∧ a.len + 6 > 65535 ∧
      CM.thenPart op sp th s = (.err (.overflow .jumpTooLarge) sp, s')) ∨
    (∃ e x s', T g = .err e x ∧ CM.thenPart op sp th s = (.err e x, s')) ∨
    (∃ s', T g = .panic ∧ CM.thenPart op sp th s = (.panic, s')) ∨ T g = .unfit := by
  subst hg
  simp only [CM.thenPart, CM.bind_app, CM.writeJump_emit J op hJ, CM.writeOpU16_emit (.popMany 2) 3 2 rfl,
    CState.emit_emit, CState.emit_g]
  rcases hT.elim (s.emit ([.at' (J 0) sp] ++ [.at' (.popMany 2) sp]) s.g) s.g rfl with
    ⟨_, a, g', h1, h2⟩ | ⟨e, x, s', h1, h2⟩ | ⟨s', h1, h2⟩ | h1
  · simp only [h1, h2, CM.writeJump_emit .jumpForward 29 (fun _ => rfl), CState.emit_emit, CState.emit_g]
    rw [CM.patchJump_emit J op hJ sp sp s [] ([.at' (.popMany 2) sp] ++ a ++ [.at' (.jumpForward 0) sp])
      _ _ _ 0 (by simp) (by simp)]
    have hl : Code.len ([.at' (.popMany 2) sp] ++ a ++ [.at' (.jumpForward 0) sp]) = a.len + 6 := by
      simp [Instr.enc, u16le]; omega
    simp only [hl]
    by_cases hk : a.len + 6 > 65535
    · rw [if_pos hk]; exact .inr (.inl ⟨_, _, _, _, rfl, hk, rfl⟩)
    · refine .inl ⟨_, _, _, rfl, by omega, ?_⟩
      have h7 : Code.len ([.at' (J 0) sp] ++ [.at' (.popMany 2) sp] ++ a) = a.len + 6 := by
        simp only [Code.len_append, Code.len_cons, hJ, Code.len_nil]; simp [Instr.enc, u16le]; omega
      simp only [hk, if_false, CM.pure_app, CState.emit_len, h7]
      simp; omega
  · simp only [h1, h2]; exact .inr (.inr (.inl ⟨_, _, _, rfl, rfl⟩))
  · simp only [h1, h2]; exact .inr (.inr (.inr (.inl ⟨_, trivial, rfl⟩)))
  · exact .inr (.inr (.inr (.inr h1)))

theorem cond (sp : Span) {c th el : CM Unit} {C T E : GM Unit} (hC : Ref c C) (hT : Ref th T) (hE : Ref el E) :
    Ref (do
      CM.writeU8 32 sp
      c
      let endJump ← CM.thenPart 27 sp th
      el
      CM.patchJump endJump sp) (do
    GM.emit1 .loadNone sp
    C
    let a ← GM.sub T
    if a.len + 6 > 65535 then GM.throw (.overflow .jumpTooLarge) sp
    else
      let b ← GM.sub E
      if b.len > 65535 then GM.throw (.overflow .jumpTooLarge) sp
      else
        GM.emit ([.at' (.jumpIfFalse (a.len + 6)) sp, .at' (.popMany 2) sp] ++ a
          ++ [.at' (.jumpForward b.len) sp] ++ b)) := by
  refine bind (writeU8 .loadNone 32 rfl sp) fun _ => bind hC fun _ => ?_
  intro s
  simp only [CM.bind_app, GM.bind_app, sub_app]
  rcases thenPart .jumpIfFalse 27 (fun _ => rfl) sp hT s s.g rfl with
    ⟨u, a, g', h1, hl, h2⟩ | ⟨u, a, g', s', h1, hl, h2⟩ | ⟨e, x, s', h1, h2⟩ | ⟨s', h1, h2⟩ | h1
  · simp only [h1, h2, gt_iff_lt, Nat.not_lt.2 hl, if_false, GM.bind_app, sub_app]
    generalize hk : s.head.chunk.ops.length + a.len + 7 = k
    rcases hE.elim (s.emit ([.at' (.jumpIfFalse (a.len + 6)) sp, .at' (.popMany 2) sp] ++ a ++ [.at' (.jumpForward 0) sp]) g')
      g' rfl with ⟨_, b, g'', h3, h4⟩ | ⟨e, x, s', h3, h4⟩ | ⟨s', h3, h4⟩ | h3
    · simp only [h3, h4, CState.emit_emit]
      rw [CM.patchJump_emit .jumpForward 29 (fun _ => rfl) sp sp s
        ([.at' (.jumpIfFalse (a.len + 6)) sp, .at' (.popMany 2) sp] ++ a) b _ _ _ 0 (by simp)
        (by simp [Instr.enc, u16le]; omega)]
      by_cases hb : b.len > 65535
      · simp [hb, throw_app]
      · simp [hb, emit_app]
    · simp only [h3, h4]
    · simp only [h3, h4]
    · simp only [h3]
  · simp only [h1, h2, hl, if_true, throw_app]
  · simp only [h1, h2]
  · simp only [h1, h2]
  · simp only [h1]

theorem «while» (sp csp : Span) {c b : CM Unit} {C B : GM Unit} (hC : Ref c C) (hB : Ref b B) :
    Ref (do
      CM.writeU8 32 sp
      let start ← CM.len
      c
      let exit ← CM.writeJump 27 sp
      CM.writeOpU16 3 2 csp
      b
      CM.writeJumpBackward start csp
      CM.patchJump exit sp
      CM.writeU8 2 csp) (do
    GM.emit1 .loadNone sp
    let cc ← GM.sub C
    let b ← GM.sub B
    if cc.len + b.len + 9 > 65535 then GM.throw (.overflow .jumpTooLarge) csp
    else
      GM.emit (cc ++ [.at' (.jumpIfFalse (b.len + 6)) sp, .at' (.popMany 2) csp] ++ b
        ++ [.at' (.jumpBackward (cc.len + b.len + 9)) csp, .at' .pop csp])) := by
  refine bind (writeU8 .loadNone 32 rfl sp) fun _ => ?_
  intro s
  simp only [CM.bind_app, GM.bind_app, sub_app, CM.len_app]
  rcases hC.elim s s.g rfl with ⟨_, cc, g', h1, h2⟩ | ⟨e, x, s', h1, h2⟩ | ⟨s', h1, h2⟩ | h1
  · simp only [h1, h2, CM.writeJump_emit .jumpIfFalse 27 (fun _ => rfl), CM.writeOpU16_emit (.popMany 2) 3 2 rfl,
      CState.emit_emit, CState.emit_g, CState.emit_len]
    rcases hB.elim (s.emit (cc ++ [.at' (.jumpIfFalse 0) sp] ++ [.at' (.popMany 2) csp]) g') g' rfl with
      ⟨_, b, g'', h3, h4⟩ | ⟨e, x, s', h3, h4⟩ | ⟨s', h3, h4⟩ | h3
    · simp only [h3, h4, CState.emit_emit]
      rw [CM.writeJumpBackward_emit _ _ _ _ _ (cc.len + b.len + 9) (by simp [Instr.enc, u16le]; omega)]
      by_cases hb : cc.len + b.len + 9 > 65535
      · simp [hb, throw_app]
      · simp only [hb, if_false]
        rw [CM.patchJump_emit .jumpIfFalse 27 (fun _ => rfl) sp sp s cc ([.at' (.popMany 2) csp] ++ b ++
          [.at' (.jumpBackward (cc.len + b.len + 9)) csp]) _ _ _ 0 (by simp) (by omega)]
        have hl : Code.len ([.at' (.popMany 2) csp] ++ b ++ [.at' (.jumpBackward (cc.len + b.len + 9)) csp]) = b.len + 6 := by
          simp [Instr.enc, u16le]; omega
        have hb' : ¬ (b.len + 6 > 65535) := by omega
        simp only [hl, hb', if_false, CM.writeU8_emit .pop 2 rfl, emit_app]
        simp
    · simp only [h3, h4]
    · simp only [h3, h4]
    · simp only [h3]
  · simp only [h1, h2]
  · simp only [h1, h2]
  · simp only [h1]

/-- The part shared by both loops over iterables. -/
theorem iter (sp xsp : Span) {b : CM Unit} {B : GM Unit} (hB : Ref b B) :
    Ref (do
      let start ← CM.len
      let exit ← CM.writeJump 35 sp
      b
      CM.writeJumpBackward start xsp
      CM.patchJump exit xsp
      CM.exitScope sp) (do
    let b ← GM.sub B
    if b.len + 6 > 65535 then GM.throw (.overflow .jumpTooLarge) xsp
    else
      GM.emit ([.at' (.iterNext (b.len + 3)) sp] ++ b ++ [.at' (.jumpBackward (b.len + 6)) xsp])
      GM.exitScope sp) := by
  intro s
  simp only [CM.bind_app, GM.bind_app, sub_app, CM.len_app, CM.writeJump_emit .iterNext 35 (fun _ => rfl)]
  rcases hB.elim (s.emit [.at' (.iterNext 0) sp] s.g) s.g rfl with
    ⟨_, b, g', h3, h4⟩ | ⟨e, x, s', h3, h4⟩ | ⟨s', h3, h4⟩ | h3
  · simp only [h3, h4, CState.emit_emit]
    rw [CM.writeJumpBackward_emit _ _ _ _ _ (b.len + 6) (by simp [Instr.enc, u16le]; omega)]
    by_cases hb : b.len + 6 > 65535
    · simp [hb, throw_app]
    · simp only [hb, if_false]
      rw [CM.patchJump_emit .iterNext 35 (fun _ => rfl) xsp sp s [] (b ++
        [.at' (.jumpBackward (b.len + 6)) xsp]) _ _ _ 0 (by simp) (by simp)]
      have hl : Code.len (b ++ [.at' (.jumpBackward (b.len + 6)) xsp]) = b.len + 3 := by
        simp [Instr.enc, u16le]
      have hb' : ¬ (b.len + 3 > 65535) := by omega
      simp only [hl, hb', if_false, CM.exitScope_emit, emit_app, GM.bind_app, GM.exitScope]
      simp
  · simp only [h3, h4]
  · simp only [h3, h4]
  · simp only [h3]

/-- Cases with the jumps to the end still to be patched. -/
def holes : List (Code × Span) → Code
  | [] => []
  | (c, sp) :: ps => c ++ .at' (.jumpForward 0) sp :: holes ps

/-- Positions of these jumps. -/
def holePos (n : Nat) : List (Code × Span) → List Nat
  | [] => []
  | (c, _) :: ps => (n + c.len + 1) :: holePos (n + c.len + 3) ps

theorem len_assemble (ps : List (Code × Span)) (d : Code) : (GM.assemble ps d).len = (holes ps).len + d.len := by
  induction ps with
  | nil => simp [GM.assemble, holes]
  | cons p ps ih => obtain ⟨c, sp⟩ := p; simp [GM.assemble, holes, ih, Instr.enc, u16le]; omega

theorem patchJumps (sp : Span) (ps : List (Code × Span)) (s : CState) (pre d : Code) (g : GState) :
    ps ≠ [] → (GM.assemble ps.tail d).len > 65535 →
    ∃ s', CM.patchJumps sp (holePos (s.head.chunk.ops.length + pre.len) ps) (s.emit (pre ++ holes ps ++ d) g) =
      (.err (.overflow .jumpTooLarge) sp, s') := by
  intro hne hl
  cases ps with
  | nil => exact absurd rfl hne
  | cons p ps =>
    obtain ⟨c, csp⟩ := p
    simp only [holePos, CM.patchJumps, CM.bind_app]
    rw [CM.patchJump_emit .jumpForward 29 (fun _ => rfl) sp csp s (pre ++ c) (holes ps ++ d) _ _ _ 0
      (by simp [holes]) (by simp; omega)]
    have : (holes ps ++ d : Code).len = (GM.assemble ps d).len := by simp [len_assemble]
    simp only [List.tail_cons] at hl
    simp only [this, hl, if_true]
    exact ⟨_, rfl⟩

theorem patchJumps_ok (sp : Span) (ps : List (Code × Span)) (s : CState) (pre d : Code) (g : GState) :
    (ps ≠ [] → (GM.assemble ps.tail d).len ≤ 65535) →
    CM.patchJumps sp (holePos (s.head.chunk.ops.length + pre.len) ps) (s.emit (pre ++ holes ps ++ d) g) =
      (.ok (), s.emit (pre ++ GM.assemble ps d) g) := by
  intro hl
  induction ps generalizing pre with
  | nil => simp [holePos, CM.patchJumps, holes, GM.assemble]
  | cons p ps ih =>
    obtain ⟨c, csp⟩ := p
    have hl := hl (by simp)
    simp only [holePos, CM.patchJumps, CM.bind_app]
    rw [CM.patchJump_emit .jumpForward 29 (fun _ => rfl) sp csp s (pre ++ c) (holes ps ++ d) _ _ _ 0
      (by simp [holes]) (by simp; omega)]
    have h1 : (holes ps ++ d : Code).len = (GM.assemble ps d).len := by simp [len_assemble]
    simp only [List.tail_cons] at hl
    have h2 : ¬ (GM.assemble ps d).len > 65535 := by omega
    simp only [h1, h2, if_false]
    have h3 := ih (pre ++ c ++ [.at' (.jumpForward (GM.assemble ps d).len) csp]) (by
      intro hne
      cases ps with
      | nil => exact absurd rfl hne
      | cons q ps =>
        obtain ⟨c', sp'⟩ := q
        simp only [List.tail_cons]
        have : (GM.assemble ((c', sp') :: ps) d).len = c'.len + 3 + (GM.assemble ps d).len := by
          simp [GM.assemble, Instr.enc, u16le]; omega
        omega)
    have h4 : s.head.chunk.ops.length + Code.len (pre ++ c ++ [.at' (.jumpForward (GM.assemble ps d).len) csp]) =
        s.head.chunk.ops.length + pre.len + c.len + 3 := by
      simp [Instr.enc, u16le]; omega
    rw [h4] at h3
    simp only [List.append_assoc, List.cons_append, List.nil_append, GM.assemble] at h3 ⊢
    exact h3

/-- Relation for the cases of a switch: code with holes. -/
def CasesRef (c : CM (List Nat)) (x : GM (List (Code × Span))) : Prop :=
  ∀ s, match x s.g with
    | .ok (ps, code, g) => code = [] ∧ c s = (.ok (holePos s.head.chunk.ops.length ps), s.emit (holes ps) g)
    | .err e sp => ∃ s', c s = (.err e sp, s')
    | .panic => ∃ s', c s = (.panic, s')
    | .unfit => True

theorem cases_nil : CasesRef (Pure.pure []) (Pure.pure []) := by
  intro s; simp [holes, holePos]

theorem cases_cons (csp : Span) {c b : CM Unit} {C B : GM Unit} {r : CM (List Nat)} {R : GM (List (Code × Span))}
    (hC : Ref c C) (hB : Ref b B) (hR : CasesRef r R) :
    CasesRef (do
      c
      let endJump ← CM.thenPart 28 csp b
      let js ← r
      return endJump :: js) (do
    let cc ← GM.sub C
    let b ← GM.sub B
    if b.len + 6 > 65535 then GM.throw (.overflow .jumpTooLarge) csp
    else
      let ps ← R
      return ((cc ++ [.at' (.jumpIfNotEq (b.len + 6)) csp, .at' (.popMany 2) csp] ++ b, csp) :: ps)) := by
  intro s
  simp only [CM.bind_app, GM.bind_app, sub_app]
  rcases hC.elim s s.g rfl with ⟨_, cc, g1, h1, h2⟩ | ⟨e, x, s', h1, h2⟩ | ⟨s', h1, h2⟩ | h1
  · simp only [h1, h2]
    rcases thenPart .jumpIfNotEq 28 (fun _ => rfl) csp hB (s.emit cc g1) g1 rfl with
      ⟨u, a, g2, h3, hl, h4⟩ | ⟨u, a, g2, s', h3, hl, h4⟩ | ⟨e, x, s', h3, h4⟩ | ⟨s', h3, h4⟩ | h3
    · simp only [h3, h4, gt_iff_lt, Nat.not_lt.2 hl, if_false, GM.bind_app, CState.emit_emit]
      have h5 := hR (s.emit (cc ++ ([.at' (.jumpIfNotEq (a.len + 6)) csp, .at' (.popMany 2) csp] ++ a ++ [.at' (.jumpForward 0) csp])) g2)
      simp only [CState.emit_g] at h5
      revert h5
      cases R g2 with
      | ok q =>
        obtain ⟨ps, code, g3⟩ := q
        rintro ⟨rfl, h5⟩
        simp only [h5, GM.pure_app, CM.pure_app, CState.emit_emit, CState.emit_len]
        have hk : Code.len (cc ++ ([.at' (.jumpIfNotEq (a.len + 6)) csp, .at' (.popMany 2) csp] ++ a ++ [.at' (.jumpForward 0) csp])) = cc.len + a.len + 9 := by
          simp [Instr.enc, u16le]; omega
        have hk' : Code.len (cc ++ [.at' (.jumpIfNotEq (a.len + 6)) csp, .at' (.popMany 2) csp] ++ a) = cc.len + a.len + 6 := by
          simp [Instr.enc, u16le]; omega
        simp only [holePos, holes, hk, hk']
        refine ⟨by simp, ?_⟩
        simp
        refine ⟨by omega, by congr 1⟩
      | err e x => rintro ⟨s', h5⟩; simp only [h5]; exact ⟨_, rfl⟩
      | panic => rintro ⟨s', h5⟩; simp only [h5]; exact ⟨_, rfl⟩
      | unfit => intro _; trivial
    · simp only [h3, h4, hl, if_true, throw_app]; exact ⟨_, rfl⟩
    · simp only [h3, h4]; exact ⟨_, rfl⟩
    · simp only [h3, h4]; exact ⟨_, rfl⟩
    · simp only [h3]
  · simp only [h1, h2]; exact ⟨_, rfl⟩
  · simp only [h1, h2]; exact ⟨_, rfl⟩
  · simp only [h1]

theorem switch (sp : Span) {v d : CM Unit} {V D : GM Unit} {r : CM (List Nat)} {R : GM (List (Code × Span))}
    (hV : Ref v V) (hR : CasesRef r R) (hD : Ref d D) :
    Ref (do
      CM.writeU8 32 sp
      v
      let jumps ← r
      d
      CM.patchJumps sp jumps) (do
    GM.emit1 .loadNone sp
    V
    let ps ← R
    let d ← GM.sub D
    if ps ≠ [] ∧ (GM.assemble ps.tail d).len > 65535 then GM.throw (.overflow .jumpTooLarge) sp
    else GM.emit (GM.assemble ps d)) := by
  refine bind (writeU8 .loadNone 32 rfl sp) fun _ => bind hV fun _ => ?_
  intro s
  simp only [CM.bind_app, GM.bind_app, sub_app]
  have h5 := hR s
  revert h5
  cases R s.g with
  | ok q =>
    obtain ⟨ps, code, g3⟩ := q
    rintro ⟨rfl, h5⟩
    simp only [h5]
    rcases hD.elim (s.emit (holes ps) g3) g3 rfl with ⟨_, b, g1, h1, h2⟩ | ⟨e, x, s', h1, h2⟩ | ⟨s', h1, h2⟩ | h1
    · simp only [h1, h2, CState.emit_emit]
      have hp := patchJumps sp ps s [] b g1
      have hp' := patchJumps_ok sp ps s [] b g1
      simp only [Code.len_nil, Nat.add_zero, List.nil_append] at hp hp'
      by_cases hc : ps ≠ [] ∧ (GM.assemble ps.tail b).len > 65535
      · obtain ⟨s', hs'⟩ := hp hc.1 hc.2
        rw [if_pos hc, hs']; simp [throw_app]
      · have := hp' (by intro hne; simp only [hne, not_false_eq_true, true_and, ne_eq] at hc; omega)
        rw [if_neg hc, this]; simp only [emit_app]
        simp
    · simp only [h1, h2]
    · simp only [h1, h2]
    · simp only [h1]
  | err e x => rintro ⟨s', h5⟩; simp only [h5]
  | panic => rintro ⟨s', h5⟩; simp only [h5]
  | unfit => intro _; trivial


set_option maxHeartbeats 1000000

theorem fold_case (cfg : Cfg) (sp : Span) (op : Op) (e : Node) {c : CM Unit} {x : GM Unit}
    (h : Ref c x) :
    Ref (match foldUnary cfg op e with
      | some (.ok l) => do
        let i ← CM.onG' fun g => g.addConst (.lit l)
        CM.writeOpU16 6 i sp
      | some _ => CM.panic
      | none => c)
    (match foldUnary cfg op e with
      | some (.ok l) => do
        let i ← GM.onG' fun g => g.addConst (.lit l)
        GM.emit1 (.loadConst i) sp
      | some _ => GM.panic
      | none => x) := by
  match foldUnary cfg op e with
  | some (.ok l) => exact bind (onG' _) fun i => writeOpU16 (.loadConst i) 6 i rfl sp
  | some (.err _) => exact panic
  | some .panic => exact panic
  | none => exact h

theorem enc_binary (op : Op) : (Instr.binary op).enc = [opCode op] := rfl
theorem enc_unary (op : Op) : (Instr.unary op).enc = [opCode op] := rfl

mutual
theorem ref_node (cfg : Cfg) (strict : Bool) (m : Mode) :
    ∀ n, Ref (compileNode cfg m n) (genNode cfg strict m n)
  | .ret sp e => stmtIn m sp <| bind getG fun g => ite (fun _ => throw _ _) fun _ =>
      bind (ref_opt cfg strict sp e) fun _ => writeU8 .ret 1 rfl sp
  | .func sp name params body => by
      refine stmtIn m sp <| ite (fun _ => throw _ _) fun _ => ?_
      have h := bind (f := fun _ => do
          if ← CM.isGlobal then CM.defineGlobal 9 name.1 sp
          else
            CM.defineLocals [name.1]
            CM.setVariable name.1 sp) (F := fun _ => do
          if ← GM.isGlobal then GM.defineGlobal name.1 sp
          else
            GM.defineLocals [name.1]
            GM.setVariable name.1 sp) (Ref.func strict name params sp (ref_stmts cfg strict body))
        fun _ => bind isGlobal fun b => ite (fun _ => defineGlobal _ _) fun _ =>
          bind (defineLocals _) fun _ => setVariable _ _
      exact assoc3 h
  | .decl sp v e => stmtIn m sp <| bind (ref_node cfg strict .expr e) fun _ => declVar sp v
  | .extern sp (x, xsp) e => stmtIn m sp <| bind (ref_node cfg strict .expr e) fun _ =>
      bind isGlobal fun b => ite (fun _ => throw _ _) fun _ => bind (onG' _) fun i =>
        bind getG fun g => ite (fun _ => throw _ _) fun _ => bind (onG _) fun _ =>
          writeOpU16 (.defineGlobalDefaulted i) 14 i rfl xsp
  | .include sp (x, xsp) body => stmtIn m sp <| bind getG fun g => ite (fun _ => throw _ _) fun _ =>
      ref_incl cfg strict x xsp body
  | .lit sp l => exprIn m sp <| by
      cases l <;> first
        | exact writeU8 .loadNone 32 rfl sp
        | exact bind (onG' _) fun i => writeOpU16 (.loadConst i) 6 i rfl sp
  | .pair sp a b => exprIn m sp <| bind (ref_node cfg strict .expr a) fun _ =>
      bind (ref_node cfg strict .expr b) fun _ => writeU8 .createPair 18 rfl sp
  | .array sp items => exprIn m sp <| ite (fun _ => throw _ _) fun _ =>
      bind (ref_rev cfg strict items) fun _ => writeOpU8 (.createArray _) 19 _ rfl sp
  | .range sp a b => exprIn m sp <| bind (ref_node cfg strict .expr a) fun _ =>
      bind (ref_node cfg strict .expr b) fun _ => writeU8 .createRange 20 rfl sp
  | .ident sp x => exprIn m sp <| getVariable x sp
  | .block sp body => exprIn m sp <| inScope (ref_stmts cfg strict body)
  | .assign sp (x, xsp) e => exprIn m sp <| bind (ref_node cfg strict .expr e) fun _ => setVariable x xsp
  | .call sp f args => exprIn m sp <| ite (fun _ => throw _ _) fun _ =>
      bind (ref_node cfg strict .expr f) fun _ => bind (ref_args cfg strict args) fun _ =>
        writeOpU8 (.callFunction _) 21 _ rfl sp
  | .index sp e i => exprIn m sp <| bind (ref_node cfg strict .expr i) fun _ =>
      bind (ref_node cfg strict .expr e) fun _ => writeU8 .indexGet 36 rfl sp
  | .builtin sp x args => exprIn m sp <| ite (fun _ => throw _ _) fun _ =>
      bind (ref_args cfg strict args) fun _ => writeBuiltin .callBuiltin 22 (fun _ _ => rfl) x _ sp
  | .ctx sp x args v body => exprIn m sp <| ite (fun _ => throw _ _) fun _ =>
      bind (ref_args cfg strict args) fun _ => by
        have h := bind (f := fun _ => do
            CM.onG GState.enterScope
            CM.ctxVar sp x.2 v
            let _ ← compileStmts cfg body
            CM.exitScope sp
            CM.writeU8 24 sp) (F := fun _ => do
            GM.onG GState.enterScope
            GM.ctxVar sp x.2 v
            let _ ← genStmts cfg strict body
            GM.exitScope sp
            GM.emit1 .exitContext sp)
          (writeBuiltin .enterContext 23 (fun _ _ => rfl) x args.length sp)
          fun _ => bind (onG _) fun _ => bind (ctxVar _ _ _) fun _ => bind (ref_stmts cfg strict body) fun _ =>
            bind (exitScope _) fun _ => writeU8 .exitContext 24 rfl sp
        rw [assoc_gm] at h
        exact h
  | .cond sp c th el => exprIn m sp <| cond sp (ref_node cfg strict .expr c)
      (inScope (ref_stmts cfg strict th)) (ref_else cfg strict sp el)
  | .switch sp v cases dflt => exprIn m sp <| switch sp (ref_node cfg strict .expr v)
      (ref_cases cfg strict cases) (ref_else cfg strict sp dflt)
  | .while sp c body => exprIn m sp <| «while» sp c.span (ref_node cfg strict .expr c)
      (inScope (ref_stmts cfg strict body))
  | .forIn sp (x, xsp) it body => exprIn m sp <| bind (onG _) fun _ => bind (onG _) fun _ => bind (onG _) fun _ =>
      bind (writeU8 .newLoopCtx 34 rfl sp) fun _ => bind (ref_node cfg strict .expr it) fun _ =>
        bind (onG _) fun _ => bind (writeU8 .loadNone 32 rfl sp) fun _ => by
          have h := iter sp xsp (b := do
            CM.writeU8 5 sp
            CM.defineLocals [x]
            let _ ← compileStmts cfg body
            CM.exitScope sp) (B := do
            GM.emit1 .swapPop sp
            GM.defineLocals [x]
            let _ ← genStmts cfg strict body
            GM.exitScope sp) (bind (writeU8 .swapPop 5 rfl sp) fun _ =>
              bind (defineLocals _) fun _ => bind (ref_stmts cfg strict body) fun _ => exitScope _)
          simp only [assoc_cm] at h
          exact h
  | .forMulti sp xs it body => exprIn m sp <| bind (onG _) fun _ => ite (fun _ => throw _ _) fun _ =>
      bind (onG _) fun _ => bind (onG _) fun _ =>
      bind (writeU8 .newLoopCtx 34 rfl sp) fun _ => bind (ref_node cfg strict .expr it) fun _ =>
        bind (onG _) fun _ => bind (writeU8 .loadNone 32 rfl sp) fun _ => by
          have h := iter sp sp (b := do
            CM.writeU8 5 sp
            CM.writeOpU8 31 xs.length it.span
            CM.defineLocals (xs.map Prod.fst).reverse
            let _ ← compileStmts cfg body
            CM.exitScope sp) (B := do
            GM.emit1 .swapPop sp
            GM.emit1 (.unpack xs.length) it.span
            GM.defineLocals (xs.map Prod.fst).reverse
            let _ ← genStmts cfg strict body
            GM.exitScope sp) (bind (writeU8 .swapPop 5 rfl sp) fun _ =>
              bind (writeOpU8 (.unpack _) 31 _ rfl _) fun _ =>
              bind (defineLocals _) fun _ => bind (ref_stmts cfg strict body) fun _ => exitScope _)
          simp only [assoc_cm] at h
          exact h
  | .lambda sp params body => exprIn m sp <| ite (fun _ => throw _ _) fun _ =>
      Ref.func strict ("@__lambda__", sp) params sp (ref_stmts cfg strict body)
  | .bin sp op a b => exprIn m sp <| bind (ref_node cfg strict .expr a) fun _ =>
      bind (ref_node cfg strict .expr b) fun _ => ite (fun _ => panic) fun _ => writeU8 _ _ (enc_binary op) sp
  | .un sp op e => exprIn m sp <| fold_case cfg sp op e <|
      bind (ref_node cfg strict .expr e) fun _ => ite (fun _ => writeU8 _ _ (enc_unary op) sp) fun _ => panic
termination_by structural n => n
theorem ref_stmts (cfg : Cfg) (strict : Bool) : ∀ ns, Ref (compileStmts cfg ns) (genStmts cfg strict ns)
  | [] => pure _
  | [n] => bind (ref_node cfg strict (.stmt false) n) fun _ => pure _
  | n :: n' :: ns => bind (ref_node cfg strict (.stmt true) n) fun _ => ref_stmts cfg strict (n' :: ns)
termination_by structural n => n
theorem ref_each (cfg : Cfg) (strict : Bool) : ∀ ns, Ref (compileEach cfg ns) (genEach cfg strict ns)
  | [] => pure _
  | n :: ns => bind (ref_node cfg strict (.stmt true) n) fun _ => ref_each cfg strict ns
termination_by structural n => n
theorem ref_args (cfg : Cfg) (strict : Bool) : ∀ ns, Ref (compileArgs cfg ns) (genArgs cfg strict ns)
  | [] => pure _
  | n :: ns => bind (ref_node cfg strict .expr n) fun _ => ref_args cfg strict ns
termination_by structural n => n
theorem ref_rev (cfg : Cfg) (strict : Bool) : ∀ ns, Ref (compileRev cfg ns) (genRev cfg strict ns)
  | [] => pure _
  | n :: ns => bind (ref_rev cfg strict ns) fun _ => ref_node cfg strict .expr n
termination_by structural n => n
theorem ref_cases (cfg : Cfg) (strict : Bool) :
    ∀ cs, CasesRef (compileCases cfg cs) (genCases cfg strict cs)
  | [] => cases_nil
  | (c, body) :: cs => cases_cons c.span (ref_node cfg strict .expr c) (inScope (ref_stmts cfg strict body))
      (ref_cases cfg strict cs)
termination_by structural n => n
theorem ref_else (cfg : Cfg) (strict : Bool) (sp : Span) :
    ∀ b, Ref (compileElse cfg sp b) (genElse cfg strict sp b)
  | some body => bind (writeOpU16 (.popMany 2) 3 2 rfl sp) fun _ => inScope (ref_stmts cfg strict body)
  | none => writeU8 .pop 2 rfl sp
termination_by structural n => n
theorem ref_opt (cfg : Cfg) (strict : Bool) (sp : Span) :
    ∀ b, Ref (compileOpt cfg sp b) (genOpt cfg strict sp b)
  | some e => ref_node cfg strict .expr e
  | none => writeU8 .loadNone 32 rfl sp
termination_by structural n => n
theorem ref_incl (cfg : Cfg) (strict : Bool) (x : String) (xsp : Span) :
    ∀ b, Ref (compileIncl cfg x xsp b) (genIncl cfg strict x xsp b)
  | some body => ref_each cfg strict body
  | none => throw _ _
termination_by structural n => n
end

end Ref

end Quilt
