import Verif.Common.Basic

/-!
# Syntax trees: `parser/src/literal.rs`, `parser/src/node.rs`

`NodeS = (Node, Span)` is represented by giving every constructor its span as first
argument. Floats are their 64 bits.
-/

namespace Quilt

/-- `parser/src/literal.rs:13-25`. Strings are lists of Unicode scalar values. -/
inductive Literal where
  | none
  | bool (b : Bool)
  | int (i : BitVec 64)
  | float (f : BitVec 64)
  | range (l r : BitVec 32)
  | color (r g b a : BitVec 8)
  | str (s : List Char)
  | arr (xs : List Literal)
  | pair (a b : Literal)
  deriving Repr

mutual
/-- Structural equality of literals. -/
def Literal.beq : Literal → Literal → Bool
  | .none, .none => true
  | .bool a, .bool b => a == b
  | .int a, .int b => a == b
  | .float a, .float b => a == b
  | .range a b, .range c d => a == c && b == d
  | .color a b c d, .color a' b' c' d' => a == a' && b == b' && c == c' && d == d'
  | .str a, .str b => a == b
  | .arr a, .arr b => Literal.beqL a b
  | .pair a b, .pair c d => Literal.beq a c && Literal.beq b d
  | _, _ => false
termination_by structural l => l
def Literal.beqL : List Literal → List Literal → Bool
  | [], [] => true
  | a :: as, b :: bs => Literal.beq a b && Literal.beqL as bs
  | _, _ => false
termination_by structural l => l
end

mutual
theorem Literal.beq_iff : ∀ a b : Literal, Literal.beq a b = true ↔ a = b
  | .none, b => by cases b <;> simp [Literal.beq]
  | .bool _, b => by cases b <;> simp [Literal.beq]
  | .int _, b => by cases b <;> simp [Literal.beq]
  | .float _, b => by cases b <;> simp [Literal.beq]
  | .range _ _, b => by cases b <;> simp [Literal.beq]
  | .color _ _ _ _, b => by cases b <;> simp [Literal.beq, and_assoc]
  | .str _, b => by cases b <;> simp [Literal.beq]
  | .arr x, b => by
    cases b <;> simp [Literal.beq]
    exact Literal.beqL_iff x _
  | .pair x y, b => by
    cases b <;> simp [Literal.beq]
    rw [Literal.beq_iff x, Literal.beq_iff y]
termination_by structural l => l
theorem Literal.beqL_iff : ∀ a b : List Literal, Literal.beqL a b = true ↔ a = b
  | [], b => by cases b <;> simp [Literal.beqL]
  | x :: xs, b => by
    cases b <;> simp [Literal.beqL]
    rw [Literal.beq_iff x, Literal.beqL_iff xs]
termination_by structural l => l
end

instance : DecidableEq Literal := fun a b =>
  if h : Literal.beq a b = true then isTrue ((Literal.beq_iff a b).1 h)
  else isFalse fun e => h ((Literal.beq_iff a b).2 e)

/-- `parser/src/node.rs:71-79`. -/
inductive Op where
  | add | sub | mul | div | mod | pow | eq | neq | lt | gt | lte | gte | and | or | not | neg | join
  | bitAnd | bitOr | bitXor | bitNot | shl | shr
  deriving DecidableEq, Repr

/-- Operators of unary nodes; in a binary node they are `unreachable!`, `compiler/src/lib.rs:916`, and the others are in
a unary node, `:947`. -/
def Op.isUnary : Op → Bool
  | .neg | .not | .bitNot => true
  | _ => false

/-- A name with its span, `Spanned<String>`. -/
abbrev Name := String × Span

/-- `parser/src/node.rs:65-69`. -/
inductive Var where
  | one (n : Name)
  | many (ns : List Name)
  deriving DecidableEq, Repr

/-- `parser/src/node.rs:8-63`. -/
inductive Node where
  | lit (sp : Span) (l : Literal)
  | array (sp : Span) (items : List Node)
  | pair (sp : Span) (l r : Node)
  | range (sp : Span) (l r : Node)
  | ident (sp : Span) (name : String)
  | decl (sp : Span) (v : Var) (e : Node)
  | extern (sp : Span) (n : Name) (e : Node)
  | assign (sp : Span) (n : Name) (e : Node)
  | func (sp : Span) (n : Name) (params : List Name) (body : List Node)
  | lambda (sp : Span) (params : List Name) (body : List Node)
  | block (sp : Span) (body : List Node)
  | cond (sp : Span) (c : Node) (th : List Node) (el : Option (List Node))
  | switch (sp : Span) (v : Node) (cases : List (Node × List Node)) (dflt : Option (List Node))
  | forIn (sp : Span) (x : Name) (it : Node) (body : List Node)
  | forMulti (sp : Span) (xs : List Name) (it : Node) (body : List Node)
  | while (sp : Span) (c : Node) (body : List Node)
  | bin (sp : Span) (op : Op) (l r : Node)
  | un (sp : Span) (op : Op) (e : Node)
  | call (sp : Span) (f : Node) (args : List Node)
  | builtin (sp : Span) (n : Name) (args : List Node)
  | ctx (sp : Span) (n : Name) (args : List Node) (v : Option Var) (body : List Node)
  | index (sp : Span) (e i : Node)
  | include (sp : Span) (n : Name) (body : Option (List Node))
  | ret (sp : Span) (e : Option Node)
  deriving Repr

namespace Node

/-- The span component of `NodeS`. -/
def span : Node → Span
  | lit sp _ | array sp _ | pair sp _ _ | range sp _ _ | ident sp _ | decl sp _ _ | extern sp _ _
  | assign sp _ _ | func sp _ _ _ | lambda sp _ _ | block sp _ | cond sp _ _ _ | switch sp _ _ _
  | forIn sp _ _ _ | forMulti sp _ _ _ | «while» sp _ _ | bin sp _ _ _ | un sp _ _ | call sp _ _
  | builtin sp _ _ | ctx sp _ _ _ _ | index sp _ _ | «include» sp _ _ | ret sp _ => sp

/-- `parser/src/node.rs:88-98` (`is_statement` 104-106 is `ntype == Statement`). -/
def isStatement : Node → Bool
  | decl .. | extern .. | func .. | «include» .. | ret .. => true
  | _ => false

/-- `parser/src/node.rs:100-102`. -/
def isExpression (n : Node) : Bool := !n.isStatement

end Node

end Quilt
