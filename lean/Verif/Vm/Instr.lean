import Verif.Bytecode
import Verif.Value

/-!
# Instructions: byte encoding of `bytecode/src/bytecode.rs:26-90`

The VM reads an opcode byte and then its operands one after the other. `decode` performs these
reads, `Instr.enc` is the byte sequence the compiler writes for an instruction.
-/

namespace Quilt

/-- One VM instruction with its operands. For `createClosure` the operands include the
`(is_local, index)` records that follow the constant index. -/
inductive Instr where
  | halt | ret | pop
  | popMany (n : Nat)
  | swap | swapPop
  | loadConst (i : Nat)
  | loadLocal (i : Nat)
  | setLocal (i : Nat)
  | defineGlobal (i : Nat)
  | loadUpvalue (i : Nat)
  | setUpvalue (i : Nat)
  | loadGlobal (i : Nat)
  | setGlobal (i : Nat)
  | defineGlobalDefaulted (i : Nat)
  | closeUpvalue
  | createFunction (i : Nat)
  | createClosure (i : Nat) (ups : List (Nat × Nat))
  | createPair
  | createArray (n : Nat)
  | createRange
  | callFunction (n : Nat)
  | callBuiltin (i n : Nat)
  | enterContext (i n : Nat)
  | exitContext
  | blockResult | blockReturn
  | jumpIfFalse (o : Nat)
  | jumpIfNotEq (o : Nat)
  | jumpForward (o : Nat)
  | jumpBackward (o : Nat)
  | unpack (n : Nat)
  | loadNone
  | loadNoneMany (n : Nat)
  | newLoopCtx
  | iterNext (o : Nat)
  | indexGet
  | unary (op : Op)
  | binary (op : Op)
  deriving DecidableEq, Repr

/-- Opcode numbers of the operators, `bytecode/src/bytecode.rs:68-89`. `Not`, `Neg`, `BitNot`
are unary. -/
def opCode : Op → UInt8
  | .neg => 38 | .not => 39
  | .add => 41 | .sub => 42 | .mul => 43 | .div => 44 | .mod => 45 | .pow => 46
  | .eq => 47 | .neq => 48 | .gt => 49 | .gte => 50 | .lt => 51 | .lte => 52
  | .and => 53 | .or => 54 | .join => 55
  | .bitAnd => 56 | .bitOr => 57 | .bitXor => 58 | .bitNot => 59 | .shl => 60 | .shr => 61

/-- Whether the operator has a binary instruction. -/
def Op.isBinary : Op → Bool
  | .neg | .not | .bitNot => false
  | _ => true

/-- One-byte operand (`write_u8`, with `as u8` truncation). -/
def u8b (n : Nat) : List UInt8 := [UInt8.ofNat n]

/-- The operand bytes of the captured variables, `compiler/src/lib.rs:357-361`. -/
def encUps : List (Nat × Nat) → List UInt8
  | [] => []
  | (l, i) :: us => u8b l ++ u16le i ++ encUps us

/-- Byte encoding; opcode numbers are the positions in the list `bytecode.rs:26-90`. -/
def Instr.enc : Instr → List UInt8
  | halt => [0]
  | ret => [1]
  | pop => [2]
  | popMany n => 3 :: u16le n
  | swap => [4]
  | swapPop => [5]
  | loadConst i => 6 :: u16le i
  | loadLocal i => 7 :: u16le i
  | setLocal i => 8 :: u16le i
  | defineGlobal i => 9 :: u16le i
  | loadUpvalue i => 10 :: u16le i
  | setUpvalue i => 11 :: u16le i
  | loadGlobal i => 12 :: u16le i
  | setGlobal i => 13 :: u16le i
  | defineGlobalDefaulted i => 14 :: u16le i
  | closeUpvalue => [15]
  | createFunction i => 16 :: u16le i
  | createClosure i us => 17 :: u16le i ++ encUps us
  | createPair => [18]
  | createArray n => 19 :: u8b n
  | createRange => [20]
  | callFunction n => 21 :: u8b n
  | callBuiltin i n => 22 :: u16le i ++ u8b n
  | enterContext i n => 23 :: u16le i ++ u8b n
  | exitContext => [24]
  | blockResult => [25]
  | blockReturn => [26]
  | jumpIfFalse o => 27 :: u16le o
  | jumpIfNotEq o => 28 :: u16le o
  | jumpForward o => 29 :: u16le o
  | jumpBackward o => 30 :: u16le o
  | unpack n => 31 :: u8b n
  | loadNone => [32]
  | loadNoneMany n => 33 :: u8b n
  | newLoopCtx => [34]
  | iterNext o => 35 :: u16le o
  | indexGet => [36]
  | unary op => [opCode op]
  | binary op => [opCode op]

/-- Reads `n` captured-variable records. -/
def decUps : Nat → List UInt8 → Option (List (Nat × Nat) × Nat)
  | 0, _ => some ([], 0)
  | n + 1, l :: a :: b :: bs =>
    match decUps n bs with
    | some (us, k) => some ((l.toNat, a.toNat + 256 * b.toNat) :: us, k + 3)
    | none => none
  | _ + 1, _ => none

/-- Instruction with a `u16` operand, from the bytes after the opcode. -/
def dec16 (f : Nat → Instr) : List UInt8 → Option (Instr × Nat)
  | a :: b :: _ => some (f (a.toNat + 256 * b.toNat), 3)
  | _ => none

/-- Instruction with a `u8` operand. -/
def dec8 (f : Nat → Instr) : List UInt8 → Option (Instr × Nat)
  | a :: _ => some (f a.toNat, 2)
  | _ => none

/-- Instruction with a `u16` and a `u8` operand. -/
def dec168 (f : Nat → Nat → Instr) : List UInt8 → Option (Instr × Nat)
  | a :: b :: c :: _ => some (f (a.toNat + 256 * b.toNat) c.toNat, 4)
  | _ => none

/-- `interpreter/src/vm.rs:656-680`: the number of records is the `upvalue_count` of the function
constant; a constant which is no function has none (the instruction then fails before reading
any); a missing constant is an index panic. -/
def decClos (consts : List Const) : List UInt8 → Option (Instr × Nat)
  | a :: b :: bs =>
    match consts[a.toNat + 256 * b.toNat]? with
    | some (.fn g) =>
      match decUps g.upvalueCount bs with
      | some (us, k) => some (.createClosure (a.toNat + 256 * b.toNat) us, k + 3)
      | none => none
    | some (.lit _) => some (.createClosure (a.toNat + 256 * b.toNat) [], 3)
    | none => none
  | _ => none

/-- Opcode and operand reads of `interpreter/src/vm.rs:285-1092` from the bytes starting at `ip`;
yields the instruction and its length. `none` is a Rust panic: an operand beyond the end of the
chunk, or an opcode without implementation (`IndexSet`, `UnarySpread`, unknown bytes,
`vm.rs:1089-1091`). Unlike in the source all operands are read before the instruction starts. -/
def decode (consts : List Const) : List UInt8 → Option (Instr × Nat)
  | [] => none
  | op :: bs =>
    match op.toNat with
    | 0 => some (.halt, 1)
    | 1 => some (.ret, 1)
    | 2 => some (.pop, 1)
    | 3 => dec16 .popMany bs
    | 4 => some (.swap, 1)
    | 5 => some (.swapPop, 1)
    | 6 => dec16 .loadConst bs
    | 7 => dec16 .loadLocal bs
    | 8 => dec16 .setLocal bs
    | 9 => dec16 .defineGlobal bs
    | 10 => dec16 .loadUpvalue bs
    | 11 => dec16 .setUpvalue bs
    | 12 => dec16 .loadGlobal bs
    | 13 => dec16 .setGlobal bs
    | 14 => dec16 .defineGlobalDefaulted bs
    | 15 => some (.closeUpvalue, 1)
    | 16 => dec16 .createFunction bs
    | 17 => decClos consts bs
    | 18 => some (.createPair, 1)
    | 19 => dec8 .createArray bs
    | 20 => some (.createRange, 1)
    | 21 => dec8 .callFunction bs
    | 22 => dec168 .callBuiltin bs
    | 23 => dec168 .enterContext bs
    | 24 => some (.exitContext, 1)
    | 25 => some (.blockResult, 1)
    | 26 => some (.blockReturn, 1)
    | 27 => dec16 .jumpIfFalse bs
    | 28 => dec16 .jumpIfNotEq bs
    | 29 => dec16 .jumpForward bs
    | 30 => dec16 .jumpBackward bs
    | 31 => dec8 .unpack bs
    | 32 => some (.loadNone, 1)
    | 33 => dec8 .loadNoneMany bs
    | 34 => some (.newLoopCtx, 1)
    | 35 => dec16 .iterNext bs
    | 36 => some (.indexGet, 1)
    | 38 => some (.unary .neg, 1)
    | 39 => some (.unary .not, 1)
    | 41 => some (.binary .add, 1)
    | 42 => some (.binary .sub, 1)
    | 43 => some (.binary .mul, 1)
    | 44 => some (.binary .div, 1)
    | 45 => some (.binary .mod, 1)
    | 46 => some (.binary .pow, 1)
    | 47 => some (.binary .eq, 1)
    | 48 => some (.binary .neq, 1)
    | 49 => some (.binary .gt, 1)
    | 50 => some (.binary .gte, 1)
    | 51 => some (.binary .lt, 1)
    | 52 => some (.binary .lte, 1)
    | 53 => some (.binary .and, 1)
    | 54 => some (.binary .or, 1)
    | 55 => some (.binary .join, 1)
    | 56 => some (.binary .bitAnd, 1)
    | 57 => some (.binary .bitOr, 1)
    | 58 => some (.binary .bitXor, 1)
    | 59 => some (.unary .bitNot, 1)
    | 60 => some (.binary .shl, 1)
    | 61 => some (.binary .shr, 1)
    | _ => none

/-- Operands that survive the encoding, given the constants of the chunk. -/
def Instr.Fits (consts : List Const) : Instr → Prop
  | popMany n | loadConst n | loadLocal n | setLocal n | defineGlobal n | loadUpvalue n
  | setUpvalue n | loadGlobal n | setGlobal n | defineGlobalDefaulted n | createFunction n
  | jumpIfFalse n | jumpIfNotEq n | jumpForward n | jumpBackward n | iterNext n => n < 65536
  | createArray n | callFunction n | unpack n | loadNoneMany n => n < 256
  | callBuiltin i n | enterContext i n => i < 65536 ∧ n < 256
  | createClosure i us =>
    i < 65536 ∧ (∃ g, consts[i]? = some (.fn g) ∧ g.upvalueCount = us.length) ∧
      ∀ u ∈ us, u.1 < 256 ∧ u.2 < 65536
  | unary op => op.isBinary = false
  | binary op => op.isBinary = true
  | _ => True

theorem u16le_eq (n : Nat) : u16le n = [UInt8.ofNat (n % 256), UInt8.ofNat (n / 256 % 256)] := rfl

theorem decUps_enc (us : List (Nat × Nat)) (h : ∀ u ∈ us, u.1 < 256 ∧ u.2 < 65536) (rest : List UInt8) :
    decUps us.length (encUps us ++ rest) = some (us, 3 * us.length) := by
  induction us with
  | nil => rfl
  | cons u us ih =>
    obtain ⟨l, i⟩ := u
    have h1 := h (l, i) (by simp)
    have ih := ih fun u hu => h u (by simp [hu])
    have hi := Bytes.le_roundtrip i h1.2
    have hl : (UInt8.ofNat l).toNat = l := by
      have := h1.1; simp at this ⊢; omega
    simp only [List.length_cons, encUps, u8b, u16le_eq, List.cons_append,
      List.nil_append, decUps, ih, hi, hl]
    simp; omega

theorem encUps_length (us : List (Nat × Nat)) : (encUps us).length = 3 * us.length := by
  induction us with
  | nil => rfl
  | cons u us ih => simp [encUps, u8b, u16le, ih]; omega

theorem dec16_enc {f : Nat → Instr} {n : Nat} (h : n < 65536) (rest : List UInt8) :
    dec16 f (u16le n ++ rest) = some (f n, 3) := by
  simp only [u16le_eq, List.cons_append, List.nil_append, dec16, Bytes.le_roundtrip n h]

theorem dec8_enc {f : Nat → Instr} {n : Nat} (h : n < 256) (rest : List UInt8) :
    dec8 f (u8b n ++ rest) = some (f n, 2) := by
  have hl : (UInt8.ofNat n).toNat = n := by simp; omega
  simp only [u8b, List.cons_append, List.nil_append, dec8, hl]

theorem dec168_enc {f : Nat → Nat → Instr} {i n : Nat} (h : i < 65536) (h' : n < 256)
    (rest : List UInt8) :
    dec168 f (u16le i ++ u8b n ++ rest) = some (f i n, 4) := by
  have hl : (UInt8.ofNat n).toNat = n := by simp; omega
  simp only [u8b, u16le_eq, List.cons_append, List.nil_append, dec168, hl, Bytes.le_roundtrip i h]

/-- Decoding inverts encoding. -/
theorem decode_enc (consts : List Const) (i : Instr) (h : i.Fits consts) (rest : List UInt8) :
    decode consts (i.enc ++ rest) = some (i, i.enc.length) := by
  cases i with
  | createClosure i us =>
    obtain ⟨hi, ⟨g, hg, hc⟩, hu⟩ := h
    have hi' := Bytes.le_roundtrip i hi
    have := decUps_enc us hu rest
    rw [← hc] at this
    simp only [Instr.enc, u16le_eq, List.cons_append, List.nil_append, decode, decClos, hi', hg,
      UInt8.reduceToNat, this]
    simp [encUps_length, hc]
  | callBuiltin i n =>
    exact dec168_enc h.1 h.2 rest
  | enterContext i n =>
    exact dec168_enc h.1 h.2 rest
  | unary op => cases op <;> first | rfl | exact absurd h (by simp [Instr.Fits, Op.isBinary])
  | binary op => cases op <;> first | rfl | exact absurd h (by simp [Instr.Fits, Op.isBinary])
  | _ => first | rfl | exact dec16_enc h rest | exact dec8_enc h rest

theorem Instr.enc_pos (i : Instr) : 0 < i.enc.length := by
  cases i <;> simp [Instr.enc]

end Quilt
