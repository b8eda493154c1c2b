import Verif.Lib.Args

/-!
# `qstd/src/core.rs`

Each definition is the body of the builtin; its signature is in `Verif/Lib/Std.lean`.
-/

namespace Quilt.Lib

variable {C : Type}

/-- `error(..)`, `builtins/mod.rs:307-313`. -/
def fail {α : Type} (msg : List Char) : Res α := .err (.builtin (String.ofList msg))

/-- `impl From<Vec<T>> for Value`, `interpreter/src/value.rs:404-415`: the limit is the size of the items. -/
def ofVec (xs : List (Val C)) : Val C := .arr xs (Vecc.total Val.getSize xs) (Vecc.total Val.getSize xs)

/-- `make_value_array`, `interpreter/src/value.rs:400-402`. -/
def makeArray (xs : List (Val C)) (max : Nat) : Res (Val C) :=
  (Vecc.tryNewFrom Val.getSize xs max).map fun v => .arr v.data v.size v.maxSize

/-- `core.rs:15-23`. -/
def get (chk : Bool) (list : List (Val C)) (index : BitVec 64) : Res (Val C) :=
  (fixIndex chk index list.length).bind fun i =>
    match list[i]? with
    | some v => .ok v
    | none => .err (.index index)

/-- `core.rs:27-37`. -/
def set (chk : Bool) (lim : Limits) (list : List (Val C)) (index : BitVec 64) (value : Val C) : Res (Val C) :=
  (fixIndex chk index list.length).bind fun i =>
    if i < list.length then makeArray (list.set i value) lim.arrMax else .err (.index index)

/-- `core.rs:44-52` and `54-62`: a negative bound counts from the end; `bad` is the index reported
when it is out of range. `-i` overflows for the least integer. -/
def sliceBound (chk : Bool) (len : Nat) (i bad : BitVec 64) : Res (BitVec 64) :=
  if i.toInt < 0 then
    if i = BitVec.intMin 64 ∧ chk then .panic
    else if (-i).toInt > (len : Int) then .err (.index bad)
    else .ok (BitVec.ofNat 64 len + i)
  else .ok i

/-- `core.rs:40-69`, for lists shorter than `2^63`. Slicing panics when the end is out of range. -/
def slice (chk : Bool) (list : List (Val C)) (start stop : BitVec 64) : Res (Val C) :=
  (sliceBound chk list.length start start).bind fun s =>
    -- the error for the end reports the (already adjusted) start
    (sliceBound chk list.length stop s).bind fun e =>
      if s.toInt > e.toInt then fail "start index is greater than end index".toList
      else if s.toNat ≤ e.toNat ∧ e.toNat ≤ list.length then .ok (ofVec ((list.take e.toNat).drop s.toNat))
      else .panic

/-- `core.rs:72-74`. -/
def str (F : FOps) (cname : C → String) (arg : Val C) : Res (Val C) := .ok (.str (arg.text F cname))

/-- `core.rs:77-89`: `{:b}`, `{:o}`, `{:x}` print the two's complement bits. -/
def inBase (b : Nat) (val : BitVec 64) : Res (Val C) := .ok (.str (showBase b val.toNat))

/-- `core.rs:92-98`. -/
def char (val : BitVec 64) : Res (Val C) :=
  let n := (val.setWidth 32).toNat
  if n < 0xD800 ∨ (0xE000 ≤ n ∧ n < 0x110000) then .ok (.str [Char.ofNat n])
  else fail ("invalid character code `".toList ++ showInt val.toInt ++ ['`'])

/-- `char::to_digit`. -/
def toDigit (b : Nat) (c : Char) : Option Nat :=
  let d :=
    if 48 ≤ c.toNat ∧ c.toNat ≤ 57 then some (c.toNat - 48)
    else if 97 ≤ c.toNat ∧ c.toNat ≤ 122 then some (c.toNat - 87)
    else if 65 ≤ c.toNat ∧ c.toNat ≤ 90 then some (c.toNat - 55)
    else none
  d.bind fun d => if d < b then some d else none

/-- The digit loop of `from_str_radix`, with checked multiplication and addition or subtraction. -/
def accDigits (lo hi : Int) (neg : Bool) (b : Nat) : Int → List Char → Option Int
  | acc, [] => some acc
  | acc, c :: cs =>
    (toDigit b c).bind fun d =>
      let m := acc * (b : Int)
      if m < lo ∨ hi < m then none
      else
        let r := if neg then m - (d : Int) else m + (d : Int)
        if r < lo ∨ hi < r then none else accDigits lo hi neg b r cs

/-- `from_str_radix` of the Rust standard library for the integer type with the range `lo..=hi`. -/
def fromStrRadix (lo hi : Int) (b : Nat) : List Char → Option Int
  | [] => none
  | ['+'] => none
  | ['-'] => none
  | '+' :: cs => accDigits lo hi false b 0 cs
  | '-' :: cs => if lo < 0 then accDigits lo hi true b 0 cs else accDigits lo hi false b 0 ('-' :: cs)
  | cs => accDigits lo hi false b 0 cs

/-- `i64::from_str_radix`, and `str::parse::<i64>` for base 10. -/
def parseI64 (b : Nat) (s : List Char) : Option (BitVec 64) :=
  (fromStrRadix (-2 ^ 63) (2 ^ 63 - 1) b s).map (BitVec.ofInt 64)

/-- `core.rs:101-114`. -/
def intFromRadix (val : List Char) (radix : BitVec 32) : Res (Val C) :=
  if radix.toInt < 2 ∨ radix.toInt > 36 then
    fail ("radix must be between 2 and 36, got `".toList ++ showInt radix.toInt ++ ['`'])
  else
    match parseI64 radix.toNat val with
    | some i => .ok (.int i)
    | none => .err (.type (.parseError val "int"))

/-- `core.rs:117-128`. -/
def int (F : FOps) : Val C → Res (Val C)
  | .int i => .ok (.int i)
  | .float f => .ok (.int (F.toInt f))
  | .str s =>
    match parseI64 10 s with
    | some i => .ok (.int i)
    | none => .err (.type (.parseError s "int"))
  | v => .err (.type (.cannotConvert v.ntype "int"))

/-- `core.rs:130-141`; the last error names `int`. -/
def float (L : Ops) : Val C → Res (Val C)
  | .int i => .ok (.float (L.F.ofInt i))
  | .float f => .ok (.float f)
  | .str s =>
    match L.parse s with
    | some f => .ok (.float f)
    | none => .err (.type (.parseError s "float"))
  | v => .err (.type (.cannotConvert v.ntype "int"))

/-- `core.rs:143-155`. -/
def bool (F : FOps) : Val C → Res (Val C)
  | .bool b => .ok (.bool b)
  | .int i => .ok (.bool (i != 0))
  | .float f => .ok (.bool (!F.eq f 0))
  | .str s =>
    if s = "true".toList then .ok (.bool true)
    else if s = "false".toList then .ok (.bool false)
    else .err (.type (.parseError s "bool"))
  | v => .err (.type (.cannotConvert v.ntype "bool"))

/-- `str::trim_matches(c)`. -/
def trimChar (c : Char) (s : List Char) : List Char :=
  ((s.dropWhile (· == c)).reverse.dropWhile (· == c)).reverse

/-- `u8::from_str_radix(&c, 16).unwrap_or(0)`, `core.rs:180,186`. -/
def hexByte (s : List Char) : BitVec 8 := BitVec.ofInt 8 ((fromStrRadix 0 255 16 s).getD 0)

/-- `core.rs:157-196`. -/
def color : Val C → Res (Val C)
  | .color r g b a => .ok (.color r g b a)
  | .int i => .ok (.color ((i.sshiftRight 24).setWidth 8) ((i.sshiftRight 16).setWidth 8) ((i.sshiftRight 8).setWidth 8) (i.setWidth 8))
  | .str ss =>
    match (trimChar '#' ss).take 8 with
    | [a, b, c, d, e, f, g, h] => .ok (.color (hexByte [a, b]) (hexByte [c, d]) (hexByte [e, f]) (hexByte [g, h]))
    | [a, b, c, d, e, f] => .ok (.color (hexByte [a, b]) (hexByte [c, d]) (hexByte [e, f]) 255)
    | [a, b, c] => .ok (.color (hexByte [a, a]) (hexByte [b, b]) (hexByte [c, c]) 255)
    | _ => fail ("invalid color `".toList ++ ss ++ ['`'])
  | v => .err (.type (.cannotConvert v.ntype "color"))

/-- `core.rs:199-205`: the length of a string is its number of bytes. -/
def len : Val C → Res (Val C)
  | .arr xs _ _ => .ok (.int (BitVec.ofNat 64 xs.length))
  | .str s => .ok (.int (BitVec.ofNat 64 (utf8Len s)))
  | v => fail ("type `".toList ++ v.ntype.toList ++ "` has no length".toList)

/-- `core.rs:208-210`. -/
def gettype (arg : Val C) : Res (Val C) := .ok (.str arg.ntype.toList)

end Quilt.Lib
