import Verif.Value

/-!
# Printed values: `impl Display for Value`, `interpreter/src/value.rs:86-124`
-/

namespace Quilt

/-- A digit up to `z`, lower case. -/
def radixChar (d : Nat) : Char := if d < 10 then digitChar d else Char.ofNat (87 + d)

/-- The digits of a number in a base (`{:b}`, `{:o}`, `{:x}`); only used for bases from 2 to 36. -/
def showBase (b n : Nat) : List Char :=
  if _h : n < b ∨ b < 2 then [radixChar n] else showBase b (n / b) ++ [radixChar (n % b)]
termination_by n
decreasing_by exact Nat.div_lt_self (by omega) (by omega)

/-- `{:02x}` of a byte. -/
def hexText (b : BitVec 8) : List Char := [radixChar (b.toNat / 16), radixChar (b.toNat % 16)]

namespace Val
variable {C : Type}

mutual
/-- `interpreter/src/value.rs:86-124`; `cname` is the name of the function of a closure. -/
def text (F : FOps) (cname : C → String) : Val C → List Char
  | .none => "none".toList
  | .bool b => if b then "true".toList else "false".toList
  | .int i => showInt i.toInt
  | .float f => F.toStr f
  | .range l r => showInt l.toInt ++ ':' :: showInt r.toInt
  | .color r g b a => '#' :: (hexText r ++ hexText g ++ hexText b ++ hexText a)
  | .str s => s
  | .special id n => "<special id=".toList ++ id.toList ++ " value=".toList ++ showNat n ++ ['>']
  | .arr xs _ _ => '[' :: (textL F cname xs ++ [']'])
  | .loopCtx i => "<loop_ctx ".toList ++ showNat i ++ ['>']
  | .pair a b => '(' :: (text F cname a ++ ',' :: ' ' :: (text F cname b ++ [')']))
  | .func f => "<function ".toList ++ f.name.toList ++ ['>']
  | .clos c => "<closure ".toList ++ (cname c).toList ++ ['>']
termination_by structural v => v
/-- The items, separated by `, `. -/
def textL (F : FOps) (cname : C → String) : List (Val C) → List Char
  | [] => []
  | v :: vs => text F cname v ++ textR F cname vs
termination_by structural v => v
/-- The items after the first one, `interpreter/src/value.rs:97-102`. -/
def textR (F : FOps) (cname : C → String) : List (Val C) → List Char
  | [] => []
  | v :: vs => ',' :: ' ' :: (text F cname v ++ textR F cname vs)
termination_by structural v => v
end

end Val

end Quilt
