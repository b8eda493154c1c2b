import Verif.Compiler.Boundary

/-!
# The disassembler reads compiled code like the machine
-/

namespace Quilt

/-- The operands of an instruction, in the order of its encoding. -/
def Instr.operands : Instr → List Nat
  | popMany n | loadConst n | loadLocal n | setLocal n | defineGlobal n | loadUpvalue n
  | setUpvalue n | loadGlobal n | setGlobal n | defineGlobalDefaulted n | createFunction n
  | jumpIfFalse n | jumpIfNotEq n | jumpForward n | jumpBackward n | iterNext n
  | createArray n | callFunction n | unpack n | loadNoneMany n => [n]
  | callBuiltin i n | enterContext i n => [i, n]
  | createClosure i us => i :: us.flatMap fun u => [u.1, u.2]
  | _ => []

/-- The operand shown: the only one, the number of arguments, or the constant of a closure. -/
def Instr.operand : Instr → Option Nat
  | callBuiltin _ n | enterContext _ n => some n
  | createClosure i _ => some i
  | i => i.operands.head?

/-- Operators as they are written in programs. -/
def Op.sign : Op → String
  | .add => "+" | .sub => "-" | .mul => "*" | .div => "/" | .mod => "%" | .pow => "**" | .eq => "==" | .neq => "!=" | .lt => "<" | .gt => ">"
  | .lte => "<=" | .gte => ">=" | .and => "&&" | .or => "||" | .not => "!" | .neg => "-" | .join => ".." | .bitAnd => "&" | .bitOr => "|"
  | .bitXor => "^" | .bitNot => "~" | .shl => "<<" | .shr => ">>"

/-- Where a function is declared. -/
def DEnv.home (E : DEnv) (f : Func) : Nat × String := ((E.lineno f.nameSpan).getD 0, (E.fname f.nameSpan).getD "unknown")

/-- What is shown besides the operands, for an instruction of `f` at `p` that is `n` bytes long. -/
def Instr.hint (E : DEnv) (f : Func) (p n : Nat) : Instr → Option Hint
  | .loadNone => some (.const .none)
  | .loadConst k | .createFunction k => (f.consts[k]?).map fun
    | .lit l => .const l
    | .fn g => .function g.name (E.home g).1 (E.home g).2
  | .createClosure k us => (f.consts[k]?).bind fun
    | .lit _ => none
    | .fn g => some (.closure g.name (E.home g).1 (E.home g).2 us.length)
  | .loadGlobal k | .setGlobal k | .defineGlobal k | .defineGlobalDefaulted k => some (.symbol ((E.globals[k]?).getD "unknown"))
  | .loadLocal k | .setLocal k => some (.symbol ((f.symbols[k]?).getD "unknown"))
  | .callBuiltin k _ | .enterContext k _ => some (.builtin ((E.globals[k]?).getD "unknown"))
  | .unary op | .binary op => some (.op op.sign)
  | i => (i.target p n).map .jump

theorem Instr.hint_jump (E : DEnv) (f : Func) (p n : Nat) (i : Instr) (t : Nat) : i.hint E f p n = some (.jump t) ↔ i.target p n = some t := by
  cases i <;> simp only [Instr.hint, Instr.target, Option.map_some, Option.map_none, reduceCtorEq, Option.some.injEq, Hint.jump.injEq, iff_self]
  case loadConst k => rcases h : f.consts[k]? with _ | k <;> simp; cases k <;> simp
  case createFunction k => rcases h : f.consts[k]? with _ | k <;> simp; cases k <;> simp
  case createClosure k us => rcases h : f.consts[k]? with _ | k <;> simp; cases k <;> simp

theorem decUps_length : ∀ (n : Nat) {l : List UInt8} {us : List (Nat × Nat)} {k : Nat}, decUps n l = some (us, k) → us.length = n
  | 0, l, us, k, h => by
    simp only [decUps, Option.some.injEq, Prod.mk.injEq] at h
    obtain ⟨rfl, rfl⟩ := h
    rfl
  | n + 1, l, us, k, h => by
    match l, h with
    | x :: a :: b :: bs, h =>
      simp only [decUps] at h
      cases hr : decUps n bs with
      | none => simp [hr] at h
      | some r =>
        obtain ⟨us', k'⟩ := r
        simp only [hr, Option.some.injEq, Prod.mk.injEq] at h
        obtain ⟨rfl, rfl⟩ := h
        simp [decUps_length n hr]

namespace Disasm

theorem rd8_drop {ops : List UInt8} {p : Nat} {l : List UInt8} (h : ops.drop p = l) (k : Nat) : rd8 ops (p + k) = (l[k]?).map UInt8.toNat := by
  subst h; simp [rd8]

theorem rd16_drop {ops : List UInt8} {p : Nat} {l : List UInt8} (h : ops.drop p = l) (k : Nat) {a b : UInt8} (ha : l[k]? = some a) (hb : l[k + 1]? = some b) :
    rd16 ops (p + k) = some (a.toNat + 256 * b.toNat) := by
  simp [rd16, rd8_drop h, ha, show p + k + 1 = p + (k + 1) by omega, hb]

theorem rdUps_dec : ∀ (n : Nat) {ops : List UInt8} {p : Nat} {l : List UInt8} {us : List (Nat × Nat)} {k : Nat}, ops.drop p = l → decUps n l = some (us, k) →
    rdUps ops n p = some (us.flatMap (fun u => [u.1, u.2]), p + k)
  | 0, ops, p, l, us, k, _, h => by
    simp only [decUps, Option.some.injEq, Prod.mk.injEq] at h
    obtain ⟨rfl, rfl⟩ := h
    rfl
  | n + 1, ops, p, l, us, k, hl, h => by
    match l, h with
    | x :: a :: b :: bs, h =>
      simp only [decUps] at h
      cases hr : decUps n bs with
      | none => simp [hr] at h
      | some r =>
        obtain ⟨us', k'⟩ := r
        simp only [hr, Option.some.injEq, Prod.mk.injEq] at h
        obtain ⟨rfl, rfl⟩ := h
        have hd : ops.drop (p + 3) = bs := by rw [← List.drop_drop, hl]; rfl
        have := rdUps_dec n hd hr
        have h1 := rd8_drop hl 0
        have h2 := rd16_drop hl 1 (a := a) (b := b) rfl rfl
        simp only [Nat.add_zero, List.getElem?_cons_zero, Option.map_some] at h1
        simp [rdUps, h1, h2, this]; omega

/-- Reading one instruction of well-formed code. -/
theorem op_decode (E : DEnv) {f : Func} {p n : Nat} {i : Instr} (hd : decode f.consts (f.ops.drop p) = some (i, n)) (ht : i.InTable f.consts)
    (hj : ∀ o, i = .jumpBackward o → o ≤ p + n) :
    ∃ b r, f.ops[p]? = some b ∧ op E f b.toNat (p + 1) = some r ∧ r.next = p + n ∧ 0 < n ∧ r.opargs = i.operands ∧ r.push = i.target p n ∧
      r.oparg = i.operand ∧ r.hint = i.hint E f p n := by
  generalize hl : f.ops.drop p = l at hd
  match l, hd with
  | b :: bs, hd =>
    have hb : f.ops[p]? = some b := by
      have : (f.ops.drop p)[0]? = some b := by rw [hl]; rfl
      simpa using this
    have h1 : f.ops.drop (p + 1) = bs := by rw [← List.drop_drop, hl]; rfl
    have d16 : ∀ {g : Nat → Instr}, dec16 g bs = some (i, n) → ∃ v, rd16 f.ops (p + 1) = some v ∧ i = g v ∧ n = 3 := by
      intro g h
      match bs, h1, h with
      | x :: y :: _, h1, h =>
        simp only [dec16, Option.some.injEq, Prod.mk.injEq] at h
        exact ⟨_, by simpa using rd16_drop h1 0 (a := x) (b := y) rfl rfl, h.1.symm, h.2.symm⟩
    have d8 : ∀ {g : Nat → Instr}, dec8 g bs = some (i, n) → ∃ v, rd8 f.ops (p + 1) = some v ∧ i = g v ∧ n = 2 := by
      intro g h
      match bs, h1, h with
      | x :: _, h1, h =>
        simp only [dec8, Option.some.injEq, Prod.mk.injEq] at h
        exact ⟨_, by simpa using rd8_drop h1 0, h.1.symm, h.2.symm⟩
    have d168 : ∀ {g : Nat → Nat → Instr}, dec168 g bs = some (i, n) → ∃ v w, rd16 f.ops (p + 1) = some v ∧ rd8 f.ops (p + 3) = some w ∧ i = g v w ∧ n = 4 := by
      intro g h
      match bs, h1, h with
      | x :: y :: z :: _, h1, h =>
        simp only [dec168, Option.some.injEq, Prod.mk.injEq] at h
        exact ⟨_, _, by simpa using rd16_drop h1 0 (a := x) (b := y) rfl rfl, by simpa [Nat.add_assoc] using rd8_drop h1 2, h.1.symm, h.2.symm⟩
    refine ⟨b, ?_⟩
    simp only [hb, true_and]
    unfold decode at hd
    simp only at hd
    split at hd
    case h_18 => -- createClosure
      rename_i hop
      rw [hop]
      match bs, h1, hd with
      | x :: y :: bs', h1, hd =>
        simp only [decClos] at hd
        have h16 : rd16 f.ops (p + 1) = some (x.toNat + 256 * y.toNat) := by simpa using rd16_drop h1 0 (a := x) (b := y) rfl rfl
        cases hk : f.consts[x.toNat + 256 * y.toNat]? with
        | none => simp [hk] at hd
        | some k =>
          cases k with
          | lit l =>
            simp only [hk, Option.some.injEq, Prod.mk.injEq] at hd
            obtain ⟨rfl, rfl⟩ := hd
            simp [Instr.InTable, hk] at ht
          | fn g =>
            simp only [hk] at hd
            cases hu : decUps g.upvalueCount bs' with
            | none => simp [hu] at hd
            | some r =>
              obtain ⟨us, k⟩ := r
              simp only [hu, Option.some.injEq, Prod.mk.injEq] at hd
              obtain ⟨rfl, rfl⟩ := hd
              have h2 : f.ops.drop (p + 3) = bs' := by rw [show p + 3 = p + 1 + 2 from rfl, ← List.drop_drop, h1]; rfl
              have := rdUps_dec _ h2 hu
              refine ⟨_, by simp [op, h16, hk, this]; rfl, ?_⟩
              simp [Instr.operands, Instr.target, Instr.operand, Instr.hint, hk, DEnv.home, extractFn, decUps_length _ hu]; omega
    case h_31 => -- jumpBackward
      rename_i hop
      rw [hop]
      obtain ⟨v, h2, rfl, rfl⟩ := d16 hd
      have := hj v rfl
      refine ⟨_, by simp only [op, h2, Option.bind_eq_bind, Option.bind_some]; rw [if_neg (by omega)]; rfl, ?_⟩
      simp [Instr.operands, Instr.target, Instr.operand, Instr.hint]
    all_goals first
      | (rename_i hop
         rw [hop]
         obtain ⟨v, h2, rfl, rfl⟩ := d16 hd
         first
           | (refine ⟨_, by simp [op, h2]; rfl, ?_⟩
              simp [Instr.operands, Instr.target, Instr.operand, Instr.hint]; done)
           | (refine ⟨_, by simp only [op, h2, Option.bind_eq_bind, Option.bind_some]; rfl, ?_⟩
              simp [Instr.operands, Instr.target, Instr.operand, Instr.hint, show v + (p + 1 + 2) = p + 3 + v by omega]; done)
           | (obtain ⟨k, hk⟩ := ht
              refine ⟨_, by simp [op, h2, hk]; rfl, ?_⟩
              cases k <;> simp [Instr.operands, Instr.target, Instr.operand, Instr.hint, hk, constHint, extractFn, DEnv.home])
           | (obtain ⟨k, hk, _⟩ := ht
              refine ⟨_, by simp [op, h2, hk]; rfl, ?_⟩
              simp [Instr.operands, Instr.target, Instr.operand, Instr.hint, hk, constHint, extractFn, DEnv.home]))
      | (rename_i hop
         rw [hop]
         obtain ⟨v, h2, rfl, rfl⟩ := d8 hd
         refine ⟨_, by simp [op, h2]; rfl, ?_⟩
         simp [Instr.operands, Instr.target, Instr.operand, Instr.hint])
      | (rename_i hop
         rw [hop]
         obtain ⟨v, w, h2, h3, rfl, rfl⟩ := d168 hd
         refine ⟨_, by simp [op, h2, h3]; rfl, ?_⟩
         simp [Instr.operands, Instr.target, Instr.operand, Instr.hint])
      | (rename_i hop
         rw [hop]
         simp only [Option.some.injEq, Prod.mk.injEq] at hd
         obtain ⟨rfl, rfl⟩ := hd
         refine ⟨_, rfl, ?_⟩
         simp [Instr.operands, Instr.target, Instr.operand, Instr.hint, Op.sign, opHint])
      | simp at hd

end Disasm

/-- The lines from offset `p` on are the instructions from `p` to the end of the function that come from a known line: offset,
opcode and operands of each, the line and span it comes from, what it refers to, and for jumps (only) the address they lead to. -/
inductive Listed (E : DEnv) (f : Func) : Nat → List DLine → Prop
  | done : Listed E f f.ops.length []
  | line {p n : Nat} {i : Instr} {l : DLine} {ls : List DLine} : decode f.consts (f.ops.drop p) = some (i, n) → l.offset = p →
      f.ops[p]? = some l.opcode → l.opargs = i.operands → l.oparg = i.operand → l.hint = i.hint E f p n → (∀ t, l.hint = some (.jump t) ↔ i.target p n = some t) →
      E.lineno (f.getSpan p) = some l.line → l.span = ((f.getSpan p).start, (f.getSpan p).stop) → Listed E f (p + n) ls → Listed E f p (l :: ls)
  | skip {p n : Nat} {i : Instr} {ls : List DLine} : decode f.consts (f.ops.drop p) = some (i, n) → E.lineno (f.getSpan p) = none → Listed E f (p + n) ls → Listed E f p ls

/-- If the line of the first byte of an instruction is unknown, so are the lines of its other bytes. -/
def Steady (E : DEnv) (f : Func) : Prop :=
  ∀ p n i, Boundary f p → decode f.consts (f.ops.drop p) = some (i, n) → E.lineno (f.getSpan p) = none → ∀ k < n, E.lineno (f.getSpan (p + k)) = none

mutual
/-- The function and the functions among its constants, in preorder. -/
def Func.all : Func → List Func
  | .mk n ns a u o sp c sy => .mk n ns a u o sp c sy :: Const.allL c
termination_by structural f => f
def Const.all : Const → List Func
  | .lit _ => []
  | .fn f => f.all
termination_by structural c => c
def Const.allL : List Const → List Func
  | [] => []
  | c :: cs => c.all ++ Const.allL cs
termination_by structural cs => cs
end

/-- The targets of forward jumps are marked as such. -/
def Marked (ls : List DLine) : Prop :=
  ∀ l ∈ ls, ∀ t, l.hint = some (.jump t) → l.offset < t → ∀ k ∈ ls, k.offset = t → k.isJump = true

/-- One listing per function. -/
inductive Lists (E : DEnv) : List Func → List FnDis → Prop
  | nil : Lists E [] []
  | cons {f : Func} {d : FnDis} {fs : List Func} {ds : List FnDis} : d.name = f.name ∧ (d.line, d.file) = E.home f → Listed E f 0 d.lines → Marked d.lines → Lists E fs ds →
      Lists E (f :: fs) (d :: ds)

theorem Lists.append {E : DEnv} {fs gs : List Func} {ds es : List FnDis} (h : Lists E fs ds) (h' : Lists E gs es) : Lists E (fs ++ gs) (ds ++ es) := by
  induction h with
  | nil => exact h'
  | cons h1 h2 h3 _ ih => exact .cons h1 h2 h3 ih

namespace Disasm

/-- Bytes without a line are passed over. -/
theorem chunk_skip (E : DEnv) {f : Func} : ∀ (n fuel p : Nat) (jumps : List Nat), (∀ k < n, E.lineno (f.getSpan (p + k)) = none) → p + n ≤ f.ops.length →
    chunk E f (fuel + n) p jumps = chunk E f fuel (p + n) jumps
  | 0, fuel, p, jumps, _, _ => rfl
  | n + 1, fuel, p, jumps, h, hl => by
    have hp : f.ops[p]? = some f.ops[p] := List.getElem?_eq_getElem (by omega)
    have h0 : E.lineno (f.getSpan p) = none := h 0 (by omega)
    have ih := chunk_skip E n fuel (p + 1) jumps (fun k hk => by rw [show p + 1 + k = p + (k + 1) by omega]; exact h (k + 1) (by omega)) (by omega)
    rw [show fuel + (n + 1) = (fuel + n) + 1 by omega, chunk, hp]
    simp only [h0]
    rw [ih, show p + 1 + n = p + (n + 1) by omega]

theorem chunk_listed (E : DEnv) {f : Func} {c : Code} (h : IsCode f c) (hk : Steady E f) :
    ∀ (fuel : Nat) (a b : Code) (jumps : List Nat), c = a ++ b → b.len ≤ fuel → Boundary f a.len → ∃ ls js, chunk E f fuel a.len jumps = some (ls, js) ∧ Listed E f a.len ls ∧
      (∀ k ∈ ls, a.len ≤ k.offset) ∧ (∀ k ∈ ls, k.offset ∈ jumps → k.isJump = true) ∧ Marked ls
  | fuel, a, [], jumps, hc, _, _ => by
    have hl : f.ops.length = a.len := by rw [h.length, hc]; simp
    have hn : f.ops[a.len]? = none := by simp [hl]
    refine ⟨[], jumps, ?_, hl ▸ .done, by simp, by simp, by simp [Marked]⟩
    cases fuel with
    | zero => rfl
    | succ k => simp [chunk, hn]
  | 0, a, q :: b, jumps, hc, hf, _ => by have := q.i.enc_pos; simp at hf; simp [hf.1] at this
  | fuel + 1, a, q :: b, jumps, hc, hf, hbd => by
    have hd := h.dec a q b hc
    have hpos := q.i.enc_pos
    have hp : a.len + q.i.enc.length ≤ f.ops.length := by
      rw [h.length, hc]; simp
    have hf' : q.i.enc.length + Code.len b ≤ fuel + 1 := by simpa using hf
    have e' : Code.len (a ++ [q]) = a.len + q.i.enc.length := by simp
    have hbd' : Boundary f (Code.len (a ++ [q])) := e' ▸ .next hbd hd
    cases hline : E.lineno (f.getSpan a.len) with
    | none =>
      obtain ⟨ls, js, k1, k2, k3, k4, k5⟩ := chunk_listed E h hk (fuel + 1 - q.i.enc.length) (a ++ [q]) b jumps (by simp [hc]) (by omega) hbd'
      rw [e'] at k1 k2 k3
      refine ⟨ls, js, ?_, .skip hd hline k2, fun k hk' => by have := k3 k hk'; omega, k4, k5⟩
      have := chunk_skip E q.i.enc.length (fuel + 1 - q.i.enc.length) a.len jumps (hk _ _ _ hbd hd hline) hp
      rw [show fuel + 1 - q.i.enc.length + q.i.enc.length = fuel + 1 by omega] at this
      rw [this, k1]
    | some line =>
    obtain ⟨bt, r, h1, h2, h3, h4, h5, h6, h8, h9⟩ := op_decode E hd (h.table q (by simp [hc])) (by
      intro o ho
      have := h.jumps a q b hc
      rw [ho] at this
      obtain ⟨a1, a2, rfl, e⟩ := this
      rw [ho]
      have h3 : (Instr.jumpBackward o).enc.length = 3 := rfl
      rw [h3, ← e]; simp)
    have h7 : ∀ t, r.hint = some (.jump t) ↔ q.i.target a.len q.i.enc.length = some t := fun t => by rw [h9]; exact Instr.hint_jump ..
    obtain ⟨ls, js, k1, k2, k3, k4, k5⟩ := chunk_listed E h hk fuel (a ++ [q]) b (jumps.erase a.len ++ r.push.toList) (by simp [hc]) (by omega) hbd'
    rw [e'] at k1 k2 k3
    refine ⟨_, js, by simp only [chunk, h1, hline, h2, h3, k1, Option.bind_eq_bind, Option.bind_some]; rfl, ?_⟩
    refine ⟨.line hd rfl h1 h5 h8 h9 h7 hline rfl k2, ?_, ?_, ?_⟩
    · intro k hk'
      rcases List.mem_cons.1 hk' with rfl | hk'
      · exact Nat.le_refl _
      · have := k3 k hk'; omega
    · intro k hk' hj
      rcases List.mem_cons.1 hk' with rfl | hk'
      · simpa using hj
      · have := k3 k hk'
        exact k4 k hk' (List.mem_append_left _ ((List.mem_erase_of_ne (by omega)).2 hj))
    · intro l hl t ht hlt k hk' hkt
      rcases List.mem_cons.1 hl with rfl | hl
      · rcases List.mem_cons.1 hk' with rfl | hk'
        · simp only at hkt hlt; omega
        · refine k4 k hk' (List.mem_append_right _ ?_)
          rw [h6, (h7 t).1 ht, hkt]; simp
      · rcases List.mem_cons.1 hk' with rfl | hk'
        · have := k3 l hl; simp only at hkt; omega
        · exact k5 l hl t ht hlt k hk' hkt
termination_by fuel a b => b.length

theorem modify_last {α : Type} (g : α → α) (x : α) : ∀ xs : List α, (xs ++ [x]).modify xs.length g = xs ++ [g x]
  | [] => rfl
  | y :: xs => by simp [modify_last g x xs]

theorem enter_listed (E : DEnv) {f : Func} (h : FnOk f) (hk : Steady E f) (s : DState) (hs : s.idx = s.output.length) :
    ∃ d js, enter E f s = some { jumps := js, output := s.output ++ [d], idx := s.idx } ∧ (d.name = f.name ∧ (d.line, d.file) = E.home f) ∧ Listed E f 0 d.lines ∧ Marked d.lines := by
  obtain ⟨c, hc⟩ := h.code
  obtain ⟨ls, js, k1, k2, _, _, k5⟩ := chunk_listed E hc hk f.ops.length [] c s.jumps rfl (Nat.le_of_eq hc.length.symm) .zero
  refine ⟨⟨f.name, (extractFn E f).2.1, (extractFn E f).2.2, ls⟩, js, ?_, ⟨rfl, rfl⟩, k2, k5⟩
  simp only [Code.len_nil] at k1
  simp only [enter, k1, Option.bind_eq_bind, Option.bind_some, DState.addLines, extractFn, pure, hs]
  simp [modify_last]

mutual
theorem func_listed (E : DEnv) : ∀ (f : Func) (s : DState), FnOk f → (∀ g ∈ f.all, Steady E g) → s.idx = s.output.length →
    ∃ ds s', func E f s = some s' ∧ s'.output = s.output ++ ds ∧ s'.idx + 1 = s'.output.length ∧ Lists E f.all ds
  | .mk n ns a u o sp c sy, s, h, hk, hs => by
    unfold Func.all at hk
    obtain ⟨d, js, h1, h2, h3, h4⟩ := enter_listed E h (hk _ (by simp)) s hs
    have hc : ∀ g, Const.fn g ∈ c → FnOk g := by obtain ⟨_, _, _, _, _, h5⟩ := h; exact h5
    obtain ⟨ds, s', k1, k2, k3, k4⟩ := consts_listed E c { jumps := js, output := s.output ++ [d], idx := s.idx } hc (fun g hg => hk g (List.mem_cons_of_mem _ hg)) (show s.idx + 1 = (s.output ++ [d]).length by simp [hs])
    refine ⟨d :: ds, s', ?_, by simpa using k2, k3, ?_⟩
    · simp only [func, h1, Option.bind_eq_bind, Option.bind_some]; exact k1
    · unfold Func.all; exact .cons h2 h3 h4 k4
termination_by structural f => f
theorem const_listed (E : DEnv) : ∀ (c : Const) (s : DState), (∀ g, c = .fn g → FnOk g) → (∀ g ∈ c.all, Steady E g) → s.idx + 1 = s.output.length →
    ∃ ds s', const E c s = some s' ∧ s'.output = s.output ++ ds ∧ s'.idx + 1 = s'.output.length ∧ Lists E c.all ds
  | .lit _, s, _, _, hs => ⟨[], s, by unfold const; rfl, by simp, hs, by unfold Const.all; exact .nil⟩
  | .fn f, s, h, hk, hs => by
    unfold Const.all at hk ⊢
    obtain ⟨ds, s', k⟩ := func_listed E f { s with idx := s.idx + 1 } (h f rfl) hk hs
    exact ⟨ds, s', by unfold const; exact k⟩
termination_by structural c => c
theorem consts_listed (E : DEnv) : ∀ (cs : List Const) (s : DState), (∀ g, Const.fn g ∈ cs → FnOk g) → (∀ g ∈ Const.allL cs, Steady E g) →
    s.idx + 1 = s.output.length → ∃ ds s', consts E cs s = some s' ∧ s'.output = s.output ++ ds ∧ s'.idx + 1 = s'.output.length ∧ Lists E (Const.allL cs) ds
  | [], s, _, _, hs => ⟨[], s, by unfold consts; rfl, by simp, hs, by unfold Const.allL; exact .nil⟩
  | c :: cs, s, h, hk, hs => by
    unfold Const.allL at hk ⊢
    obtain ⟨ds, s1, k1, k2, k3, k4⟩ := const_listed E c s (fun g hg => h g (by simp [hg])) (fun g hg => hk g (List.mem_append_left _ hg)) hs
    obtain ⟨es, s2, l1, l2, l3, l4⟩ := consts_listed E cs s1 (fun g hg => h g (by simp [hg])) (fun g hg => hk g (List.mem_append_right _ hg)) k3
    refine ⟨ds ++ es, s2, ?_, by rw [l2, k2, List.append_assoc], l3, k4.append l4⟩
    unfold consts
    simp only [k1, Option.bind_eq_bind, Option.bind_some]; exact l1
termination_by structural cs => cs
end

end Disasm

/-- The functions listed are the functions within. -/
theorem Within.trans {f g h : Func} (h1 : Within f g) (h2 : Within g h) : Within f h := by
  induction h2 with
  | self => exact h1
  | const _ hm ih => exact .const ih hm

mutual
theorem all_within : ∀ (f g : Func), g ∈ f.all → Within f g
  | .mk n ns a u o sp c sy, g, h => by
    unfold Func.all at h
    rcases List.mem_cons.1 h with rfl | h
    · exact .self
    · obtain ⟨k, hk, hw⟩ := allL_within c g h
      exact (Within.const .self hk).trans hw
termination_by structural f => f
theorem const_within : ∀ (c : Const) (g : Func), g ∈ c.all → ∃ k, c = .fn k ∧ Within k g
  | .lit _, g, h => by unfold Const.all at h; simp at h
  | .fn f, g, h => by unfold Const.all at h; exact ⟨f, rfl, all_within f g h⟩
termination_by structural c => c
theorem allL_within : ∀ (cs : List Const) (g : Func), g ∈ Const.allL cs → ∃ k, Const.fn k ∈ cs ∧ Within k g
  | [], g, h => by unfold Const.allL at h; simp at h
  | c :: cs, g, h => by
    unfold Const.allL at h
    rcases List.mem_append.1 h with h | h
    · obtain ⟨k, rfl, hw⟩ := const_within c g h; exact ⟨k, by simp, hw⟩
    · obtain ⟨k, hk, hw⟩ := allL_within cs g h; exact ⟨k, by simp [hk], hw⟩
termination_by structural cs => cs
end

theorem mem_allL {k g : Func} : ∀ {cs : List Const}, Const.fn k ∈ cs → g ∈ k.all → g ∈ Const.allL cs
  | c :: cs, h, hg => by
    unfold Const.allL
    rcases List.mem_cons.1 h with rfl | h
    · exact List.mem_append_left _ (by unfold Const.all; exact hg)
    · exact List.mem_append_right _ (mem_allL h hg)

theorem all_self (f : Func) : f ∈ f.all := by cases f; unfold Func.all; simp

mutual
theorem all_trans : ∀ (f g h : Func), g ∈ f.all → h ∈ g.all → h ∈ f.all
  | .mk n ns a u o sp c sy, g, h, hg, hh => by
    unfold Func.all at hg
    rcases List.mem_cons.1 hg with rfl | hg
    · exact hh
    · unfold Func.all; exact List.mem_cons_of_mem _ (allL_trans c g h hg hh)
termination_by structural f => f
theorem constAll_trans : ∀ (c : Const) (g h : Func), g ∈ c.all → h ∈ g.all → h ∈ c.all
  | .lit _, g, h, hg, _ => by unfold Const.all at hg; simp at hg
  | .fn f, g, h, hg, hh => by unfold Const.all at hg ⊢; exact all_trans f g h hg hh
termination_by structural c => c
theorem allL_trans : ∀ (cs : List Const) (g h : Func), g ∈ Const.allL cs → h ∈ g.all → h ∈ Const.allL cs
  | [], g, h, hg, _ => by unfold Const.allL at hg; simp at hg
  | c :: cs, g, h, hg, hh => by
    unfold Const.allL at hg ⊢
    rcases List.mem_append.1 hg with hg | hg
    · exact List.mem_append_left _ (constAll_trans c g h hg hh)
    · exact List.mem_append_right _ (allL_trans cs g h hg hh)
termination_by structural cs => cs
end

theorem within_all {f g : Func} (h : Within f g) : g ∈ f.all := by
  induction h with
  | self => exact all_self f
  | @const g h _ hm ih =>
    refine all_trans f g h ih ?_
    cases g
    unfold Func.all
    exact List.mem_cons_of_mem _ (mem_allL hm (all_self h))

theorem decode_pos {consts : List Const} {l : List UInt8} {i : Instr} {n : Nat} (hd : decode consts l = some (i, n)) : 0 < n := by
  unfold decode at hd
  split at hd
  · simp at hd
  · split at hd
    all_goals first
      | (simp only [Option.some.injEq, Prod.mk.injEq] at hd; omega)
      | (simp only [dec16] at hd; split at hd <;> simp at hd; omega)
      | (simp only [dec8] at hd; split at hd <;> simp at hd; omega)
      | (simp only [dec168] at hd; split at hd <;> simp at hd; omega)
      | (unfold decClos at hd; (repeat' split at hd) <;> simp at hd <;> omega)
      | simp at hd

/-- The offsets of a listing. -/
theorem Listed.offsets {E : DEnv} {f : Func} {p : Nat} {ls : List DLine} (h : Listed E f p ls) (hp : Boundary f p) :
    (∀ l ∈ ls, Boundary f l.offset ∧ p ≤ l.offset ∧ l.offset < f.ops.length ∧ E.lineno (f.getSpan l.offset) ≠ none) ∧ ls.Pairwise (fun a b => a.offset < b.offset) := by
  induction h with
  | done => simp
  | @line p n i l ls hd ho hb _ _ _ _ hline _ _ ih =>
    obtain ⟨h1, h2⟩ := ih (.next hp hd)
    have hn := decode_pos hd
    have hl : l.offset < f.ops.length := by
      rw [ho]; exact (List.getElem?_eq_some_iff.1 hb).1
    refine ⟨?_, ?_⟩
    · intro l' hl'
      rcases List.mem_cons.1 hl' with rfl | hl'
      · exact ⟨ho ▸ hp, by omega, hl, by rw [ho, hline]; simp⟩
      · obtain ⟨a, b, c⟩ := h1 l' hl'; exact ⟨a, by omega, c⟩
    · refine List.pairwise_cons.2 ⟨fun l' hl' => ?_, h2⟩
      have := (h1 l' hl').2.1; omega
  | @skip p n i ls hd _ _ ih =>
    obtain ⟨h1, h2⟩ := ih (.next hp hd)
    exact ⟨fun l hl => ⟨(h1 l hl).1, by have := (h1 l hl).2.1; omega, (h1 l hl).2.2⟩, h2⟩

theorem Listed.covers {E : DEnv} {f : Func} {ls : List DLine} (h : Listed E f 0 ls) {q : Nat} (hq : Boundary f q) (hl : q < f.ops.length) (hk : E.lineno (f.getSpan q) ≠ none) :
    ∃ l ∈ ls, l.offset = q := by
  have key : ∃ ls', Listed E f q ls' ∧ ls' <:+ ls := by
    clear hk
    induction hq with
    | zero => exact ⟨ls, h, List.suffix_refl _⟩
    | @next p n i hp hd ih =>
      have hpl : p < f.ops.length := by omega
      obtain ⟨ls', k1, k2⟩ := ih hpl
      cases k1 with
      | done => omega
      | line hd' _ _ _ _ _ _ _ _ k =>
        rw [hd] at hd'
        simp only [Option.some.injEq, Prod.mk.injEq] at hd'
        obtain ⟨rfl, rfl⟩ := hd'
        exact ⟨_, k, (List.suffix_cons _ _).trans k2⟩
      | skip hd' _ k =>
        rw [hd] at hd'
        simp only [Option.some.injEq, Prod.mk.injEq] at hd'
        obtain ⟨rfl, rfl⟩ := hd'
        exact ⟨_, k, k2⟩
  obtain ⟨ls', k1, k2⟩ := key
  cases k1 with
  | done => omega
  | @line _ _ _ l _ _ ho _ _ _ _ _ _ _ _ => exact ⟨l, k2.subset (by simp), ho⟩
  | skip _ h0 _ => exact absurd h0 hk

end Quilt
