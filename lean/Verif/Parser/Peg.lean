import Verif.Ast

/-!
# PEG combinators

The parsing primitives that the `peg` macro (crate `peg` 0.8.1) generates code for. The input is a
position (byte offset into the UTF-8 text) and the remaining characters. Failure carries no data here; the
error messages are modelled in `Verif.Parser.Traced`. `oof` means that the fuel of a loop or
recursion ran out; `Verif.Parser.Sound` shows that this never happens.
-/

namespace Quilt.Peg

/-- Position (in bytes) and remaining text. -/
structure Inp where
  pos : Nat
  rest : List Char
  deriving DecidableEq, Repr

/-- `peg::RuleResult`, with out-of-fuel. -/
inductive R (α : Type) where
  | ok (a : α) (i : Inp)
  | fail
  | oof
  deriving Repr

/-- A parsing expression. -/
def P (α : Type) := Inp → R α

variable {α β : Type}

/-- Sequence. -/
def P.bind (x : P α) (f : α → P β) : P β := fun i => match x i with
  | .ok a i' => f a i'
  | .fail => .fail
  | .oof => .oof

instance : Monad P where
  pure a := fun i => .ok a i
  bind := P.bind

/-- Failure (`expected!` or an action returning `Err`). -/
def fail : P α := fun _ => .fail

/-- Ordered choice. -/
def orElse (x y : P α) : P α := fun i => match x i with
  | .ok a i' => .ok a i'
  | .fail => y i
  | .oof => .oof

@[inherit_doc] infixr:30 " </> " => orElse

/-- `position!()`. -/
def position : P Nat := fun i => .ok i.pos i

/-- A character class. -/
def cls (f : Char → Bool) : P Char := fun i => match i.rest with
  | c :: cs => if f c then .ok c ⟨i.pos + c.utf8Size, cs⟩ else .fail
  | [] => .fail

/-- The given characters. -/
def chars : List Char → P Unit
  | [] => pure ()
  | c :: cs => do
    let _ ← cls (· == c)
    chars cs

/-- A string. -/
def str (s : String) : P Unit := chars s.toList

/-- `!x`. -/
def notP (x : P α) : P Unit := fun i => match x i with
  | .ok .. => .fail
  | .fail => .ok () i
  | .oof => .oof

/-- `x?`. -/
def opt (x : P α) : P (Option α) := fun i => match x i with
  | .ok a i' => .ok (some a) i'
  | .fail => .ok none i
  | .oof => .oof

/-- `x*`, at most `n` times. -/
def manyN (x : P α) : Nat → P (List α)
  | 0 => fun _ => .oof
  | n + 1 => fun i => match x i with
    | .ok a i' => (do let as ← manyN x n; pure (a :: as) : P (List α)) i'
    | .fail => .ok [] i
    | .oof => .oof

/-- `x*`. Each repetition must consume a character. -/
def many (x : P α) : P (List α) := fun i => manyN x (i.rest.length + 1) i

/-- `x+`. -/
def many1 (x : P α) : P (List α) := do
  let a ← x
  let as ← many x
  pure (a :: as)

/-- `x ++ sep`. -/
def sepBy1 (x : P α) (sep : P β) : P (List α) := do
  let a ← x
  let as ← many (do let _ ← sep; x)
  pure (a :: as)

/-- `x ** sep`. -/
def sepBy (x : P α) (sep : P β) : P (List α) := sepBy1 x sep </> pure []

/-- End of input, required by public rules. -/
def eof : P Unit := fun i => match i.rest with
  | [] => .ok () i
  | _ :: _ => .fail

end Quilt.Peg
