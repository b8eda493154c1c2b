import Verif.Ast
import Verif.Common.Vecc
import Verif.Common.Rle

/-!
# Values: `interpreter/src/value.rs`

`Val C` is the value type with closures represented by an abstract type `C`: the VM
instantiates `C` by function + captured cells, the source semantics by syntax + environment.
`Rc` sharing of immutable data is not represented.
-/

namespace Quilt

/-- Floating point operations of the host, on bit patterns; nothing is assumed about them. -/
structure FOps where
  add : BitVec 64 → BitVec 64 → BitVec 64
  sub : BitVec 64 → BitVec 64 → BitVec 64
  mul : BitVec 64 → BitVec 64 → BitVec 64
  div : BitVec 64 → BitVec 64 → BitVec 64
  rem : BitVec 64 → BitVec 64 → BitVec 64
  pow : BitVec 64 → BitVec 64 → BitVec 64
  neg : BitVec 64 → BitVec 64
  ofInt : BitVec 64 → BitVec 64
  toInt : BitVec 64 → BitVec 64
  eq : BitVec 64 → BitVec 64 → Bool
  lt : BitVec 64 → BitVec 64 → Bool
  le : BitVec 64 → BitVec 64 → Bool
  toStr : BitVec 64 → List Char

/-- Build configuration: float operations, and `chk` = overflow checks and debug assertions on. -/
structure Cfg where
  F : FOps
  chk : Bool

/-- UTF-8 length of a string (`String::len`). -/
def utf8Len (s : List Char) : Nat := (s.map Char.utf8Size).sum

mutual
/-- `interpreter/src/value.rs:187-193` `Function` with its chunk
(`bytecode/src/chunk.rs:6-11`) inlined. -/
inductive Func where
  | mk (name : String) (nameSpan : Span) (arity : Nat) (upvalueCount : Nat)
      (ops : List UInt8) (spans : Rle Span) (consts : List Const) (symbols : List String)
/-- A constant of a compiled chunk. The compiler only ever stores literals
(`compiler/src/lib.rs:484,937`) and functions (`:353,877`). -/
inductive Const where
  | lit (l : Literal)
  | fn (f : Func)
end

namespace Func
def name : Func → String | mk n _ _ _ _ _ _ _ => n
def nameSpan : Func → Span | mk _ s _ _ _ _ _ _ => s
def arity : Func → Nat | mk _ _ a _ _ _ _ _ => a
def upvalueCount : Func → Nat | mk _ _ _ u _ _ _ _ => u
def ops : Func → List UInt8 | mk _ _ _ _ o _ _ _ => o
def spans : Func → Rle Span | mk _ _ _ _ _ s _ _ => s
def consts : Func → List Const | mk _ _ _ _ _ _ c _ => c
def symbols : Func → List String | mk _ _ _ _ _ _ _ s => s
/-- `Chunk::get_span`, `bytecode/src/chunk.rs:85-87`. -/
def getSpan (f : Func) (i : Nat) : Span := (f.spans.get i).getD Span.default
end Func

deriving instance DecidableEq for Rle

mutual
/-- Structural equality (`#[derive(PartialEq)]`, `value.rs:187`). Float constants are compared
bitwise here; Rust would compare them with `f64 ==`, which differs only for NaN / -0.0 constants. -/
def Func.beq : Func → Func → Bool
  | .mk n s a u o sp c sy, .mk n' s' a' u' o' sp' c' sy' =>
    n == n' && decide (s = s') && a == a' && u == u' && o == o' && decide (sp = sp') &&
      Const.beqL c c' && sy == sy'
termination_by structural f => f
def Const.beq : Const → Const → Bool
  | .lit a, .lit b => decide (a = b)
  | .fn f, .fn g => Func.beq f g
  | _, _ => false
termination_by structural f => f
def Const.beqL : List Const → List Const → Bool
  | [], [] => true
  | a :: as, b :: bs => Const.beq a b && Const.beqL as bs
  | _, _ => false
termination_by structural f => f
end

mutual
theorem Func.beq_iff : ∀ a b : Func, Func.beq a b = true ↔ a = b
  | .mk n s a u o sp c sy, .mk n' s' a' u' o' sp' c' sy' => by
    simp [Func.beq, Const.beqL_iff c c', and_assoc]
termination_by structural f => f
theorem Const.beq_iff : ∀ a b : Const, Const.beq a b = true ↔ a = b
  | .lit a, b => by cases b <;> simp [Const.beq]
  | .fn f, b => by
    cases b <;> simp [Const.beq]
    exact Func.beq_iff f _
termination_by structural f => f
theorem Const.beqL_iff : ∀ a b : List Const, Const.beqL a b = true ↔ a = b
  | [], b => by cases b <;> simp [Const.beqL]
  | x :: xs, b => by
    cases b <;> simp [Const.beqL]
    rw [Const.beq_iff x, Const.beqL_iff xs]
termination_by structural f => f
end

instance : DecidableEq Func := fun a b =>
  if h : Func.beq a b = true then isTrue ((Func.beq_iff a b).1 h)
  else isFalse fun e => h ((Func.beq_iff a b).2 e)

instance : DecidableEq Const := fun a b =>
  if h : Const.beq a b = true then isTrue ((Const.beq_iff a b).1 h)
  else isFalse fun e => h ((Const.beq_iff a b).2 e)

/-- `interpreter/src/value.rs:56-78`. `arr` carries the `Vecc` fields. -/
inductive Val (C : Type) where
  | none
  | bool (b : Bool)
  | int (i : BitVec 64)
  | float (f : BitVec 64)
  | range (l r : BitVec 32)
  | color (r g b a : BitVec 8)
  | str (s : List Char)
  | special (id : String) (n : Nat)
  | arr (data : List (Val C)) (size maxSize : Nat)
  | loopCtx (i : Nat)
  | pair (a b : Val C)
  | func (f : Func)
  | clos (c : C)

namespace Val
variable {C : Type}

instance : Inhabited (Val C) := ⟨none⟩

/-- `interpreter/src/value.rs:129-147`. -/
def ntype : Val C → String
  | none => "none"
  | bool _ => "bool"
  | int _ => "int"
  | float _ => "float"
  | range _ _ => "range"
  | color _ _ _ _ => "color"
  | str _ => "str"
  | special id _ => id
  | arr _ _ _ => "list"
  | pair _ _ => "pair"
  | func _ => "function"
  | clos _ => "closure"
  | loopCtx _ => "loop_ctx"

/-- `interpreter/src/value.rs:17-30`. `usize` overflow of nested pairs is not modelled
(it needs more than 2^59 leaves). -/
def getSize : Val C → Nat
  | str s => utf8Len s
  | arr _ size _ => size
  | pair a b => getSize a + getSize b
  | _ => 16

mutual
/-- `#[derive(PartialEq)]`, `interpreter/src/value.rs:56`, `Vecc` equality
`common/src/vecc.rs:86-93` (element data only; slice equality compares lengths first).
`ceq` is closure equality; `none` means that native recursion ran out.
The pointer-equality shortcut of `Rc<T: Eq>` is not modelled: it is unobservable except for
pairs containing NaN. -/
def eqv (F : FOps) (ceq : C → C → Option Bool) : Val C → Val C → Option Bool
  | .none, .none => some true
  | .bool a, .bool b => some (a == b)
  | .int a, .int b => some (a == b)
  | .float a, .float b => some (F.eq a b)
  | .range a b, .range c d => some (a == c && b == d)
  | .color a b c d, .color a' b' c' d' => some (a == a' && b == b' && c == c' && d == d')
  | .str a, .str b => some (a == b)
  | .special a n, .special b m => some (a == b && n == m)
  | .arr a _ _, .arr b _ _ => if a.length = b.length then eqvL F ceq a b else some false
  | .loopCtx a, .loopCtx b => some (a == b)
  | .pair a b, .pair c d =>
    match eqv F ceq a c with
    | some true => eqv F ceq b d
    | r => r
  | .func f, .func g => some (decide (f = g))
  | .clos f, .clos g => ceq f g
  | _, _ => some false
termination_by structural v => v
def eqvL (F : FOps) (ceq : C → C → Option Bool) : List (Val C) → List (Val C) → Option Bool
  | a :: as, b :: bs =>
    match eqv F ceq a b with
    | some true => eqvL F ceq as bs
    | r => r
  | _, _ => some true
termination_by structural v => v
end

end Val

/-- The constant literals as values: `compiler/src/lib.rs:1117-1131`. Array literals get
`force_new`, i.e. their limit is their own size (`common/src/vecc.rs:111-118`). -/
def Literal.toVal {C : Type} : Literal → Val C
  | .none => .none
  | .bool b => .bool b
  | .int n => .int n
  | .float n => .float n
  | .color r g b a => .color r g b a
  | .str s => .str s
  | .arr xs =>
    let vs := toValL xs
    .arr vs (Vecc.total Val.getSize vs) (Vecc.total Val.getSize vs)
  | .pair a b => .pair a.toVal b.toVal
  | .range l r => .range l r
where
  toValL : List Literal → List (Val C)
  | [] => []
  | x :: xs => x.toVal :: toValL xs

/-! ## Text of numbers -/

/-- Decimal digit. -/
def digitChar (d : Nat) : Char := Char.ofNat (48 + d)

/-- `u64::to_string`-style decimal digits of a natural number. -/
def showNat (n : Nat) : List Char :=
  if _h : n < 10 then [digitChar n] else showNat (n / 10) ++ [digitChar (n % 10)]
termination_by n
decreasing_by omega

/-- `i64::to_string`. -/
def showInt (i : Int) : List Char :=
  if i < 0 then '-' :: showNat i.natAbs else showNat i.natAbs

end Quilt
