import Verif.Lib.Io

/-!
# 64-bit floats

The operations of `f64` that the code uses: IEEE 754 binary64 with rounding to nearest, ties to even, as the Rust
reference prescribes. Magnitudes are natural numbers in units of 2^-1074, the least positive float. NaN is always the
same bit pattern (Rust leaves sign and payload of a NaN open). Transcendental functions and `powf`, `powi`, whose precision Rust leaves
open, remain parameters.
-/

namespace Quilt.Ieee

/-- The magnitude of the float with these bits (without the sign), in units of 2^-1074. For bits below those of infinity. -/
def mag (b : Nat) : Nat := if b < 2 ^ 52 then b else (2 ^ 52 + b % 2 ^ 52) * 2 ^ (b / 2 ^ 52 - 1)

/-- `n / d` rounded to the nearest integer, ties to even. -/
def nearest (n d : Nat) : Nat :=
  let q := n / d
  let r := n % d
  if 2 * r < d ∨ (2 * r = d ∧ q % 2 = 0) then q else q + 1

/-- The bits of the float nearest to `n / d` units, without a bound on the exponent. -/
def roundMag (n d : Nat) : Nat :=
  let s := if n / d < 2 ^ 53 then 0 else (n / d).log2 - 52
  s * 2 ^ 52 + nearest n (d * 2 ^ s)

/-- The bits of infinity, of the quiet NaN, and of the sign. -/
def infBits : Nat := 2047 * 2 ^ 52
def nan : BitVec 64 := 0x7FF8000000000000

/-- The float with a sign and the bits of a magnitude. -/
def mk (neg : Bool) (b : Nat) : BitVec 64 := BitVec.ofNat 64 (if neg then 2 ^ 63 + b else b)

/-- The sign, and the bits without it. -/
def isNeg (x : BitVec 64) : Bool := x.msb
def bits (x : BitVec 64) : Nat := x.toNat % 2 ^ 63

def isNaN (x : BitVec 64) : Bool := infBits < bits x
def isInf (x : BitVec 64) : Bool := bits x == infBits
def isFinite (x : BitVec 64) : Bool := bits x < infBits

/-- The value of a finite float in units of 2^-1074. -/
def val (x : BitVec 64) : Int := if isNeg x then -(mag (bits x) : Int) else mag (bits x)

/-- One, in these units. -/
def one : Nat := 2 ^ 1074

/-- Rounding, with overflow to infinity. -/
def round (neg : Bool) (n d : Nat) : BitVec 64 := mk neg (Nat.min (roundMag n d) infBits)

def neg (x : BitVec 64) : BitVec 64 := mk (!isNeg x) (bits x)
def abs (x : BitVec 64) : BitVec 64 := mk false (bits x)

def add (x y : BitVec 64) : BitVec 64 :=
  if isNaN x || isNaN y then nan
  else if isInf x then (if isInf y && isNeg x != isNeg y then nan else x)
  else if isInf y then y
  else
    let v := val x + val y
    if v = 0 then mk (isNeg x && isNeg y) 0 else round (v < 0) v.natAbs 1

def sub (x y : BitVec 64) : BitVec 64 := if isNaN y then nan else add x (neg y)

def mul (x y : BitVec 64) : BitVec 64 :=
  if isNaN x || isNaN y then nan
  else
    let s := isNeg x != isNeg y
    if isInf x then (if bits y = 0 then nan else mk s infBits)
    else if isInf y then (if bits x = 0 then nan else mk s infBits)
    else round s (mag (bits x) * mag (bits y)) one

def div (x y : BitVec 64) : BitVec 64 :=
  if isNaN x || isNaN y then nan
  else
    let s := isNeg x != isNeg y
    if isInf x then (if isInf y then nan else mk s infBits)
    else if isInf y then mk s 0
    else if bits y = 0 then (if bits x = 0 then nan else mk s infBits)
    else round s (mag (bits x) * one) (mag (bits y))

/-- `%`: what is left of `x` after subtracting `y` as often as possible, with the sign of `x`. -/
def rem (x y : BitVec 64) : BitVec 64 :=
  if isNaN x || isNaN y || isInf x || bits y = 0 then nan
  else if isInf y then x
  else round (isNeg x) (mag (bits x) % mag (bits y)) 1

/-- The square root; the nearest float is found from the root of an integer and whether it is exact. -/
def sqrt (x : BitVec 64) : BitVec 64 :=
  if isNaN x then nan
  else if bits x = 0 then x
  else if isNeg x then nan
  else if isInf x then x
  else
    let n := mag (bits x) * one
    let r := isqrt n
    round false (2 * r + if r * r = n then 0 else 1) 2
where
  /-- The integer square root, bit by bit. -/
  isqrt (n : Nat) : Nat := go n (n.log2 / 2 + 1) 0
  go (n : Nat) : Nat → Nat → Nat
    | 0, r => r
    | k + 1, r => let r' := r + 2 ^ k; go n k (if r' * r' ≤ n then r' else r)

def eq (x y : BitVec 64) : Bool := !isNaN x && !isNaN y && (x == y || (bits x == 0 && bits y == 0))

/-- The order of the floats as integers: negative floats in reverse. -/
def rank (x : BitVec 64) : Int := if isNeg x then -(bits x : Int) else bits x

def lt (x y : BitVec 64) : Bool := !isNaN x && !isNaN y && decide (rank x < rank y)
def le (x y : BitVec 64) : Bool := !isNaN x && !isNaN y && decide (rank x ≤ rank y)

/-- `f64::min`, `max`: the other number if one is NaN; of 0 and -0 either may be given, here the second. -/
def min (x y : BitVec 64) : BitVec 64 := if isNaN x then y else if isNaN y then x else if lt x y then x else y
def max (x y : BitVec 64) : BitVec 64 := if isNaN x then y else if isNaN y then x else if lt y x then x else y

/-- `f64::clamp`. -/
def clamp (x lo hi : BitVec 64) : BitVec 64 := if lt x lo then lo else if lt hi x then hi else x

/-- `i as f64`. -/
def ofInt (i : Int) : BitVec 64 := round (i < 0) (i.natAbs * one) 1

/-- The integer part, towards zero. -/
def trunc (x : BitVec 64) : Int := if isNeg x then -((mag (bits x) / one : Nat) : Int) else (mag (bits x) / one : Nat)

/-- `x as i64`, `as u8`, ...: towards zero, saturating, NaN is 0. -/
def toRange (lo hi : Int) (x : BitVec 64) : Int :=
  if isNaN x then 0
  else if isInf x then (if isNeg x then lo else hi)
  else Max.max lo (Min.min hi (trunc x))

/-- A float with an integral value and the sign of `x`. -/
def integral (x : BitVec 64) (n : Nat) : BitVec 64 := if isFinite x then round (isNeg x) (n * one) 1 else if isNaN x then nan else x

/-- `f64::round`: half away from zero. -/
def roundHalf (x : BitVec 64) : BitVec 64 := integral x ((2 * mag (bits x) + one) / (2 * one))
def up (x : BitVec 64) : Nat := (mag (bits x) + (one - 1)) / one
def down (x : BitVec 64) : Nat := mag (bits x) / one
def floor (x : BitVec 64) : BitVec 64 := integral x (if isNeg x then up x else down x)
def ceil (x : BitVec 64) : BitVec 64 := integral x (if isNeg x then down x else up x)

/-! ## Text -/

/-- The float nearest to `n * 10 ^ e`. -/
def decimal (neg : Bool) (n : Nat) (e : Int) : BitVec 64 := round neg (n * 10 ^ e.toNat * one) (10 ^ (-e).toNat)

/-- The leading decimal digits of a text, and the rest. -/
def digits (s : List Char) : List Char × List Char := s.span fun c => '0' ≤ c && c ≤ '9'

/-- The number written with decimal digits. -/
def number (ds : List Char) : Nat := ds.foldl (fun n c => 10 * n + (c.toNat - 48)) 0

def signOf : List Char → Bool × List Char
  | '-' :: s => (true, s)
  | '+' :: s => (false, s)
  | s => (false, s)

/-- The exponent after a number; nothing else may follow. -/
def exponent : List Char → Option Int
  | [] => some 0
  | c :: s =>
    if c = 'e' ∨ c = 'E' then
      match signOf s with
      | (n, s) => match digits s with
        | ([], _) => none
        | (ds, []) => some (if n then -(number ds : Int) else number ds)
        | _ => none
    else none

/-- `f64::from_str`: a sign, then `inf`, `infinity`, `nan` in any case, or a decimal number with a fraction and an exponent. -/
def parse (s : List Char) : Option (BitVec 64) :=
  match signOf s with
  | (n, s) =>
    if s.map Char.toLower = "inf".toList ∨ s.map Char.toLower = "infinity".toList then some (mk n infBits)
    else if s.map Char.toLower = "nan".toList then some nan
    else match digits s with
      | (ds, '.' :: s) => match digits s with
        | (fs, s) => if ds = [] ∧ fs = [] then none else (exponent s).map fun e => decimal n (number (ds ++ fs)) (e - fs.length)
      | (ds, s) => if ds = [] then none else (exponent s).map fun e => decimal n (number ds) e

/-- The digits of `d * 10 ^ e` without an exponent. -/
def plain (d : Nat) (e : Int) : List Char :=
  let ds := showNat d
  if 0 ≤ e then ds ++ List.replicate e.toNat '0'
  else if (-e).toNat < ds.length then ds.take (ds.length - (-e).toNat) ++ ['.'] ++ ds.drop (ds.length - (-e).toNat)
  else "0.".toList ++ List.replicate ((-e).toNat - ds.length) '0' ++ ds

/-- The decimals with the last digit at `10 ^ e` on either side of the float with bits `b` that are nearest to this float,
the nearer one first. -/
def candidates (b : Nat) (e : Int) : List Nat :=
  let n := mag b * 10 ^ (-e).toNat
  let d := one * 10 ^ e.toNat
  if 2 * (n % d) < d ∨ (2 * (n % d) = d ∧ n / d % 2 = 0) then [n / d, n / d + 1] else [n / d + 1, n / d]

/-- The exponents to try, for one digit up to 17. -/
def exponents (b : Nat) : List Int :=
  let len : Int := if mag b < one then -((showNat (one / mag b)).length : Int) + 1 else (showNat (mag b / one)).length
  (List.range 19).map fun (p : Nat) => len - p

/-- The shortest decimal of which the float is the nearest: one digit after the other is added. (If there were none with 17 digits, the exact
decimal.) -/
def shortest (b : Nat) : Nat × Int :=
  let found := (exponents b).flatMap fun e => (candidates b e).map fun d => (d, e)
  match found.find? fun (d, e) => decimal false d e == mk false b && decide (0 < d) with
  | some r => r
  | none => (mag b * 5 ^ 1074, -1074)

/-- `{}` of a float. -/
def toStr (x : BitVec 64) : List Char :=
  if isNaN x then "NaN".toList
  else (if isNeg x then ['-'] else []) ++
    if isInf x then "inf".toList else if bits x = 0 then ['0'] else plain (shortest (bits x)).1 (shortest (bits x)).2

/-! ## The operations together -/

/-- What is left open. -/
structure Rest where
  pow : BitVec 64 → BitVec 64 → BitVec 64
  powi : BitVec 64 → BitVec 32 → BitVec 64
  unary : String → BitVec 64 → BitVec 64
  atan2 : BitVec 64 → BitVec 64 → BitVec 64
  toF32 : BitVec 64 → BitVec 32
  intToF32 : BitVec 64 → BitVec 32
  upper : Char → List Char
  lower : List Char → List Char
  hash : List Tok → BitVec 64

def fops (R : Rest) : FOps where
  add := add
  sub := sub
  mul := mul
  div := div
  rem := rem
  pow := R.pow
  neg := neg
  ofInt i := ofInt i.toInt
  toInt x := BitVec.ofInt 64 (toRange (-2 ^ 63) (2 ^ 63 - 1) x)
  eq := eq
  lt := lt
  le := le
  toStr := toStr

def ops (R : Rest) : Lib.Ops where
  F := fops R
  toI32 x := BitVec.ofInt 32 (toRange (-2 ^ 31) (2 ^ 31 - 1) x)
  toU8 x := BitVec.ofInt 8 (toRange 0 255 x)
  intToF32 := R.intToF32
  toF32 := R.toF32
  min := min
  max := max
  abs := abs
  round := roundHalf
  floor := floor
  ceil := ceil
  powi := R.powi
  unary f x := if f = "sqrt" then sqrt x else R.unary f x
  atan2 := R.atan2
  clamp := clamp
  parse := parse
  upper := R.upper
  lower := R.lower
  hash := R.hash

end Quilt.Ieee
