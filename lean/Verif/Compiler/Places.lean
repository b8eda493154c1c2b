import Verif.Compiler.Fits

/-!
# Where a program can be at fault

A specification of what the compiler must reject, over the places of a program, and of the position it must name.
-/

namespace Quilt

/-- A node of a program with the way it is used: as an expression or as a statement; `top`: as a statement outside of
blocks and functions. -/
structure Place where
  node : Node
  expr : Bool
  top : Bool

mutual
/-- The places inside a node; `top`: whether the node is a statement outside of blocks and functions. The statements of
an included program are where the include is. -/
def Node.parts (top : Bool) : Node → List Place
  | .lit .. | .ident .. => []
  | .assign _ _ e | .un _ _ e | .decl _ _ e | .extern _ _ e => ⟨e, true, false⟩ :: e.parts false
  | .pair _ a b | .range _ a b | .bin _ _ a b | .index _ a b => (⟨a, true, false⟩ :: a.parts false) ++ (⟨b, true, false⟩ :: b.parts false)
  | .array _ items => innerL true false items
  | .block _ body => innerL false false body
  | .cond _ c th el => (⟨c, true, false⟩ :: c.parts false) ++ (innerL false false th ++ innerO false el)
  | .switch _ v cs d => (⟨v, true, false⟩ :: v.parts false) ++ (innerC cs ++ innerO false d)
  | .while _ c b => (⟨c, true, false⟩ :: c.parts false) ++ innerL false false b
  | .forIn _ _ it b | .forMulti _ _ it b => (⟨it, true, false⟩ :: it.parts false) ++ innerL false false b
  | .lambda _ _ b | .func _ _ _ b => innerL false false b
  | .call _ f args => (⟨f, true, false⟩ :: f.parts false) ++ innerL true false args
  | .builtin _ _ args => innerL true false args
  | .ctx _ _ args _ b => innerL true false args ++ innerL false false b
  | .include _ _ b => innerO top b
  | .ret _ e => innerE e
termination_by structural n => n
/-- The places of a list of nodes. -/
def innerL (expr top : Bool) : List Node → List Place
  | [] => []
  | n :: ns => (⟨n, expr, top⟩ :: n.parts top) ++ innerL expr top ns
termination_by structural n => n
/-- The places of the cases of a `switch`. -/
def innerC : List (Node × List Node) → List Place
  | [] => []
  | (c, b) :: cs => (⟨c, true, false⟩ :: c.parts false) ++ (innerL false false b ++ innerC cs)
termination_by structural n => n
def innerO (top : Bool) : Option (List Node) → List Place
  | some b => innerL false top b
  | none => []
termination_by structural n => n
def innerE : Option Node → List Place
  | some e => ⟨e, true, false⟩ :: e.parts false
  | none => []
termination_by structural n => n
end

/-- The places of a program. -/
def places (ast : List Node) : List Place := innerL false true ast

/-- Where the jumps of a construct are reported. -/
def Node.jumpSpans : Node → List Span
  | .cond sp .. | .forMulti sp .. => [sp]
  | .switch sp _ cs _ => sp :: cs.map fun c => c.1.span
  | .while _ c _ => [c.span]
  | .forIn _ x .. => [x.2]
  | _ => []

/-- The number of positions a construct hands over, whose limit is 255, with the error and its position. -/
def Node.counts : Node → List (Nat × OverflowErr × Span)
  | .array sp es => [(es.length, .tooManyItems, sp)]
  | .call sp _ args | .builtin sp _ args => [(args.length, .tooManyArgs, sp)]
  | .ctx sp x args v _ => (args.length, .tooManyArgs, sp) :: match v with
    | some (.many xs) => [(xs.length, .tooMuchToUnpack, x.2)]
    | _ => []
  | .func sp _ ps _ | .lambda sp ps _ => [(ps.length, .tooManyParams, sp)]
  | .decl sp (.many xs) _ | .forMulti sp xs .. => [(xs.length, .tooMuchToUnpack, sp)]
  | _ => []

/-- A place is at fault, with the error and the position it is to be reported at.
* a statement used as an expression;
* a `return` at top level; an `extern` or an include elsewhere; an include that was not resolved;
* more than 255 elements, arguments, parameters or destructured names;
* a conditional, `switch` or loop of size above 8191, which may be too large to jump over. -/
inductive Fault : Place → Err → Span → Prop
  | statement {n : Node} {t : Bool} (h : n.isStatement = true) : Fault ⟨n, true, t⟩ (.syntax .statementAsExpression) n.span
  | ret {sp : Span} {e : Option Node} : Fault ⟨.ret sp e, false, true⟩ (.syntax .returnOutsideFunction) sp
  | extern {sp : Span} {x : Name} {e : Node} : Fault ⟨.extern sp x e, false, false⟩ (.name (.externalNotGlobal x.1)) x.2
  | inner {sp : Span} {x : Name} {b : Option (List Node)} : Fault ⟨.include sp x b, false, false⟩ (.include .includeNotTopLevel) x.2
  | unresolved {sp : Span} {x : Name} : Fault ⟨.include sp x none, false, true⟩ (.include (.unresolvedInclude x.1)) x.2
  | count {n : Node} {e t : Bool} {c : Nat × OverflowErr × Span} (h : c ∈ n.counts) (h' : 255 < c.1) : Fault ⟨n, e, t⟩ (.overflow c.2.1) c.2.2
  | jump {n : Node} {e t : Bool} {sp : Span} (h : sp ∈ n.jumpSpans) (h' : 8191 < n.size) : Fault ⟨n, e, t⟩ (.overflow .jumpTooLarge) sp

/-- The external names a program declares, in order. -/
def externNames (ps : List Place) : List Name := ps.filterMap fun p =>
  match p with
  | ⟨.extern _ x _, false, true⟩ => some x
  | _ => none

/-- A program is at fault: one of its places is, or it declares an external name for a second time. -/
def Faulty (ast : List Node) (e : Err) (sp : Span) : Prop :=
  (∃ p ∈ places ast, Fault p e sp) ∨
  ∃ x pre post, e = .name (.externalRedefined x) ∧ externNames (places ast) = pre ++ (x, sp) :: post ∧ x ∈ pre.map Prod.fst

end Quilt
