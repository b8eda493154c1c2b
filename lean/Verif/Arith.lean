import Verif.Value

/-!
# Operators: `interpreter/src/arith.rs`

`chk` selects the build with overflow checks (`true`, debug) or without (`false`, release).
`as`-casts and `usize` arithmetic are written out on `Nat`/`Int`.
-/

namespace Quilt

/-- Result of an `i64` operation whose mathematical value is `r`. -/
def wrapI {C : Type} (chk : Bool) (r : Int) : Res (Val C) :=
  if -2 ^ 63 ≤ r ∧ r < 2 ^ 63 then .ok (.int (BitVec.ofInt 64 r))
  else if chk then .panic else .ok (.int (BitVec.ofInt 64 r))

/-- `str::replace(pat, "")`: drops the leftmost non-overlapping occurrences of `pat`;
`skip` characters of the current occurrence are still to be dropped. The empty pattern
matches everywhere and removes nothing. -/
def removeAll (pat : List Char) : Nat → List Char → List Char
  | _, [] => []
  | k + 1, _ :: cs => removeAll pat k cs
  | 0, c :: cs =>
    if pat ≠ [] ∧ pat.isPrefixOf (c :: cs) then removeAll pat (pat.length - 1) cs
    else c :: removeAll pat 0 cs

/-- `u8::saturating_add/sub/mul`, and `u8` addition followed by `/ 2` (debug: panics). -/
def satAdd (a b : BitVec 8) : BitVec 8 := BitVec.ofNat 8 (min (a.toNat + b.toNat) 255)
def satSub (a b : BitVec 8) : BitVec 8 := BitVec.ofNat 8 (a.toNat - b.toNat)
def satMul (a b : BitVec 8) : BitVec 8 := BitVec.ofNat 8 (min (a.toNat * b.toNat) 255)
def chanDiv (a b : BitVec 8) : Res (BitVec 8) :=
  if b.toNat = 0 then .panic else .ok (BitVec.ofNat 8 (a.toNat / b.toNat))
def chanAvg (chk : Bool) (a b : BitVec 8) : Res (BitVec 8) :=
  if a.toNat + b.toNat < 256 then .ok (BitVec.ofNat 8 ((a.toNat + b.toNat) / 2))
  else if chk then .panic else .ok (BitVec.ofNat 8 ((a.toNat + b.toNat) % 256 / 2))

/-- Four channel results, evaluated in order. -/
def chan4 {C : Type} (r g b a : Res (BitVec 8)) : Res (Val C) :=
  r.bind fun r => g.bind fun g => b.bind fun b => a.bind fun a => .ok (.color r g b a)

/-- `String` result checked against `string_max_size`. -/
def strCat {C : Type} (strMax : Nat) (a b : List Char) : Res (Val C) :=
  if utf8Len a + utf8Len b > strMax then .err (.overflow .stringTooLarge) else .ok (.str (a ++ b))

/-- `bool::to_string`. -/
def showBool (b : Bool) : List Char := if b then "true".toList else "false".toList

namespace Val
variable {C : Type}

/-- The `TypeError` of a binary operator. -/
def badBin (op : String) (a b : Val C) : Err := .type (.unsupportedBinary op a.ntype b.ntype)

/-- `arith.rs:11-20`. -/
def lnot : Val C → Res (Val C)
  | bool b => .ok (bool (!b))
  | v => .err (.type (.unsupportedUnary "!" v.ntype))

/-- `arith.rs:23-34`. -/
def negate (cfg : Cfg) : Val C → Res (Val C)
  | int i => wrapI cfg.chk (-i.toInt)
  | float f => .ok (float (cfg.F.neg f))
  | v => .err (.type (.unsupportedUnary "-" v.ntype))

/-- `arith.rs:494-503`. -/
def bnot : Val C → Res (Val C)
  | int i => .ok (int (~~~i))
  | v => .err (.type (.unsupportedUnary "~" v.ntype))

/-- `arith.rs:70-96`. -/
def add (cfg : Cfg) (strMax : Nat) : Val C → Val C → Res (Val C)
  | str l, str r => strCat strMax l r
  | int l, int r => wrapI cfg.chk (l.toInt + r.toInt)
  | float l, float r => .ok (float (cfg.F.add l r))
  | int l, float r => .ok (float (cfg.F.add (cfg.F.ofInt l) r))
  | float l, int r => .ok (float (cfg.F.add l (cfg.F.ofInt r)))
  | color a b c d, color a' b' c' d' =>
    .ok (color (satAdd a a') (satAdd b b') (satAdd c c') (satAdd d d'))
  | a, b => .err (badBin "+" a b)

/-- `arith.rs:99-118`. -/
def subtract (cfg : Cfg) : Val C → Val C → Res (Val C)
  | int l, int r => wrapI cfg.chk (l.toInt - r.toInt)
  | float l, float r => .ok (float (cfg.F.sub l r))
  | int l, float r => .ok (float (cfg.F.sub (cfg.F.ofInt l) r))
  | float l, int r => .ok (float (cfg.F.sub l (cfg.F.ofInt r)))
  | color a b c d, color a' b' c' d' =>
    .ok (color (satSub a a') (satSub b b') (satSub c c') (satSub d d'))
  | a, b => .err (badBin "-" a b)

/-- `arith.rs:123-142`. `lhs.len() * rhs` is a `usize` product; `str::repeat` panics when the
capacity overflows. Allocation failure is not modelled. -/
def strMul (chk : Bool) (strMax : Nat) (l : List Char) (r : BitVec 64) : Res (Val C) :=
  if r.toInt < 0 then .err (.type (.unsupportedBinary "*" "str" "-int"))
  else
    let p := utf8Len l * r.toNat
    if p < 2 ^ 64 then
      if p > strMax then .err (.overflow .stringTooLarge)
      else .ok (str (List.replicate r.toNat l).flatten)
    else if chk then .panic
    else if p % 2 ^ 64 > strMax then .err (.overflow .stringTooLarge)
    else .panic

/-- `arith.rs:121-160`. -/
def multiply (cfg : Cfg) (strMax : Nat) : Val C → Val C → Res (Val C)
  | str l, int r => strMul cfg.chk strMax l r
  | int l, int r => wrapI cfg.chk (l.toInt * r.toInt)
  | float l, float r => .ok (float (cfg.F.mul l r))
  | int l, float r => .ok (float (cfg.F.mul (cfg.F.ofInt l) r))
  | float l, int r => .ok (float (cfg.F.mul l (cfg.F.ofInt r)))
  | color a b c d, color a' b' c' d' =>
    .ok (color (satMul a a') (satMul b b') (satMul c c') (satMul d d'))
  | a, b => .err (badBin "*" a b)

/-- The test `other == &Value::Int(0) || other == &Value::Float(0.0)`, `arith.rs:164,192`. -/
def isZero (F : FOps) : Val C → Bool
  | int i => i == 0
  | float f => F.eq f 0
  | _ => false

/-- `i64` division/remainder panics on `MIN / -1` in every build. -/
def divOverflows (l r : BitVec 64) : Bool := l == BitVec.intMin 64 && r == -1

/-- `arith.rs:163-188`. -/
def divide (cfg : Cfg) (a b : Val C) : Res (Val C) :=
  if b.isZero cfg.F then .err .zeroDivision
  else match a, b with
  | str l, str r => .ok (str (removeAll r 0 l))
  | int l, int r => if divOverflows l r then .panic else .ok (int (l.sdiv r))
  | float l, float r => .ok (float (cfg.F.div l r))
  | int l, float r => .ok (float (cfg.F.div (cfg.F.ofInt l) r))
  | float l, int r => .ok (float (cfg.F.div l (cfg.F.ofInt r)))
  | color a b c d, color a' b' c' d' =>
    chan4 (chanDiv a a') (chanDiv b b') (chanDiv c c') (chanDiv d d')
  | a, b => .err (badBin "/" a b)

/-- `arith.rs:191-207`. -/
def modulo (cfg : Cfg) (a b : Val C) : Res (Val C) :=
  if b.isZero cfg.F then .err .zeroDivision
  else match a, b with
  | int l, int r => if divOverflows l r then .panic else .ok (int (l.srem r))
  | float l, float r => .ok (float (cfg.F.rem l r))
  | int l, float r => .ok (float (cfg.F.rem (cfg.F.ofInt l) r))
  | float l, int r => .ok (float (cfg.F.rem l (cfg.F.ofInt r)))
  | a, b => .err (badBin "%" a b)

/-- `arith.rs:210-223`. `*rhs as u32` keeps the low 32 bits. `i64::pow` panics (debug) iff some
intermediate product overflows, which is the case iff the final value does. -/
def power (cfg : Cfg) : Val C → Val C → Res (Val C)
  | int l, int r => wrapI cfg.chk (l.toInt ^ (r.toNat % 2 ^ 32))
  | float l, float r => .ok (float (cfg.F.pow l r))
  | int l, float r => .ok (float (cfg.F.pow (cfg.F.ofInt l) r))
  | float l, int r => .ok (float (cfg.F.pow l (cfg.F.ofInt r)))
  | a, b => .err (badBin "**" a b)

/-- `arith.rs:226-236`. -/
def land : Val C → Val C → Res (Val C)
  | bool a, bool b => .ok (bool (a && b))
  | a, b => .err (badBin "&&" a b)

/-- `arith.rs:239-249`. -/
def lor : Val C → Val C → Res (Val C)
  | bool a, bool b => .ok (bool (a || b))
  | a, b => .err (badBin "||" a b)

/-- `arith.rs:252-254`; exhausting the native stack while comparing is a panic. -/
def equal (cfg : Cfg) (ceq : C → C → Option Bool) (a b : Val C) : Res (Val C) :=
  match eqv cfg.F ceq a b with
  | some r => .ok (bool r)
  | .none => .panic

/-- `arith.rs:257-259`. -/
def notEqual (cfg : Cfg) (ceq : C → C → Option Bool) (a b : Val C) : Res (Val C) :=
  match eqv cfg.F ceq a b with
  | some r => .ok (bool (!r))
  | .none => .panic

/-- The four comparison operators share one shape, `arith.rs:262-323`. -/
def compare (cfg : Cfg) (op : String) (ci : BitVec 64 → BitVec 64 → Bool)
    (cf : BitVec 64 → BitVec 64 → Bool) : Val C → Val C → Res (Val C)
  | int l, int r => .ok (bool (ci l r))
  | float l, float r => .ok (bool (cf l r))
  | int l, float r => .ok (bool (cf (cfg.F.ofInt l) r))
  | float l, int r => .ok (bool (cf l (cfg.F.ofInt r)))
  | a, b => .err (badBin op a b)

/-- `arith.rs:262-275`; IEEE `a > b` is `b < a`. -/
def gt (cfg : Cfg) : Val C → Val C → Res (Val C) :=
  compare cfg ">" (fun l r => r.slt l) (fun l r => cfg.F.lt r l)
/-- `arith.rs:278-291`. -/
def ge (cfg : Cfg) : Val C → Val C → Res (Val C) :=
  compare cfg ">=" (fun l r => r.sle l) (fun l r => cfg.F.le r l)
/-- `arith.rs:294-307`. -/
def lt (cfg : Cfg) : Val C → Val C → Res (Val C) :=
  compare cfg "<" (fun l r => l.slt r) (fun l r => cfg.F.lt l r)
/-- `arith.rs:310-323`. -/
def le (cfg : Cfg) : Val C → Val C → Res (Val C) :=
  compare cfg "<=" (fun l r => l.sle r) (fun l r => cfg.F.le l r)

/-- `arith.rs:326-336`. -/
def isTruthy (F : FOps) : Val C → Res Bool
  | bool b => .ok b
  | int i => .ok (i != 0)
  | float f => .ok (!F.eq f 0)
  | str s => .ok (!s.isEmpty)
  | none => .ok false
  | color r g b a => .ok (!(r == 0 && g == 0 && b == 0 && a == 0))
  | v => .err (.type (.expected "truthy" v.ntype))

/-- `arith.rs:425-434`: the left operand is cloned and extended, so the clone keeps the left
operand's own `max_size`. -/
def arrJoin (arrMax : Nat) (l : List (Val C)) (ls lm : Nat) (r : List (Val C)) (rs : Nat) :
    Res (Val C) :=
  if ls + rs > arrMax then .err (.overflow .arrayTooLarge)
  else match Vecc.extend getSize (⟨l, ls, lm⟩ : Vecc (Val C)) r with
    | (.ok (), v) => .ok (arr v.data v.size v.maxSize)
    | (.err e, _) => .err e
    | (.panic, _) => .panic

/-- `arith.rs:339-452`. -/
def join (cfg : Cfg) (strMax arrMax : Nat) : Val C → Val C → Res (Val C)
  | str l, str r => strCat strMax l r
  | str l, int r => strCat strMax l (showInt r.toInt)
  | str l, float r => strCat strMax l (cfg.F.toStr r)
  | str l, bool r => strCat strMax l (showBool r)
  | str l, none => strCat strMax l "none".toList
  | int l, str r => strCat strMax (showInt l.toInt) r
  | float l, str r => strCat strMax (cfg.F.toStr l) r
  | bool l, str r => strCat strMax (showBool l) r
  | none, str r => strCat strMax "none".toList r
  | arr l ls lm, arr r rs _ => arrJoin arrMax l ls lm r rs
  | color a b c d, color a' b' c' d' =>
    chan4 (chanAvg cfg.chk a a') (chanAvg cfg.chk b b') (chanAvg cfg.chk c c')
      (chanAvg cfg.chk d d')
  | a, b => .err (badBin ".." a b)

/-- `arith.rs:455-491`, the three bitwise operators. -/
def bitOp (op : String) (f : BitVec 64 → BitVec 64 → BitVec 64) : Val C → Val C → Res (Val C)
  | int l, int r => .ok (int (f l r))
  | a, b => .err (badBin op a b)

/-- `i64 << i64` / `i64 >> i64`: an amount outside 0..63 panics (debug) or is masked. -/
def shiftOp (chk : Bool) (op : String) (f : BitVec 64 → Nat → BitVec 64) :
    Val C → Val C → Res (Val C)
  | int l, int r =>
    if r.toNat < 64 then .ok (int (f l r.toNat))
    else if chk then .panic else .ok (int (f l (r.toNat % 64)))
  | a, b => .err (badBin op a b)

/-- `arith.rs:506-516`. -/
def shl (chk : Bool) : Val C → Val C → Res (Val C) := shiftOp chk "<<" (fun l n => l <<< n)
/-- `arith.rs:519-529`. -/
def shr (chk : Bool) : Val C → Val C → Res (Val C) := shiftOp chk ">>" (fun l n => l.sshiftRight n)

end Val

/-- The size limits of `VmOptions` used by operators, `interpreter/src/vm.rs:14-27`. -/
structure Limits where
  strMax : Nat
  arrMax : Nat
  deriving DecidableEq, Repr

/-- The binary operator instructions `interpreter/src/vm.rs:920-1083` (dispatch on the AST
operator that the compiler maps to each of them, `compiler/src/lib.rs:771-800`). The
operators `Not`, `Neg`, `BitNot` have no binary form. -/
def Val.binary {C : Type} (cfg : Cfg) (lim : Limits) (ceq : C → C → Option Bool) :
    Op → Val C → Val C → Res (Val C)
  | .add, a, b => a.add cfg lim.strMax b
  | .sub, a, b => a.subtract cfg b
  | .mul, a, b => a.multiply cfg lim.strMax b
  | .div, a, b => a.divide cfg b
  | .mod, a, b => a.modulo cfg b
  | .pow, a, b => a.power cfg b
  | .eq, a, b => a.equal cfg ceq b
  | .neq, a, b => a.notEqual cfg ceq b
  | .lt, a, b => a.lt cfg b
  | .gt, a, b => a.gt cfg b
  | .lte, a, b => a.le cfg b
  | .gte, a, b => a.ge cfg b
  | .and, a, b => a.land b
  | .or, a, b => a.lor b
  | .join, a, b => a.join cfg lim.strMax lim.arrMax b
  | .bitAnd, a, b => a.bitOp "&" (· &&& ·) b
  | .bitOr, a, b => a.bitOp "|" (· ||| ·) b
  | .bitXor, a, b => a.bitOp "^" (· ^^^ ·) b
  | .shl, a, b => a.shl cfg.chk b
  | .shr, a, b => a.shr cfg.chk b
  | .not, _, _ | .neg, _, _ | .bitNot, _, _ => .panic

/-- The unary operator instructions `interpreter/src/vm.rs:906-914,1084-1087`. -/
def Val.unary {C : Type} (cfg : Cfg) : Op → Val C → Res (Val C)
  | .not, a => a.lnot
  | .neg, a => a.negate cfg
  | .bitNot, a => a.bnot
  | _, _ => .panic

/-- `interpreter/src/arith.rs:534-550`, for `len < 2^63` (so that `len as i64` is exact). -/
def fixIndex (chk : Bool) (idx : BitVec 64) (len : Nat) : Res Nat :=
  let index : Res Nat :=
    if idx.toInt < 0 then
      -- `-idx` overflows for `i64::MIN`
      if idx = BitVec.intMin 64 ∧ chk then .panic
      else if (-idx).toInt > (len : Int) then .err (.index idx)
      else
        -- `len + idx as usize`
        let s := len + idx.toNat
        if s < 2 ^ 64 then .ok s else if chk then .panic else .ok (s % 2 ^ 64)
    else .ok idx.toNat
  index.bind fun i => if i ≥ len then .err (.index idx) else .ok i

end Quilt
