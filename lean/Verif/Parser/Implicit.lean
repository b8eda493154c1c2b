import Verif.Ast

/-!
# Implicit `none` and `return`: `parser/src/parser.rs:324-378`
-/

namespace Quilt

/-- The statement pushed at the end of a body, `parser/src/parser.rs:326-330, 371-375`. -/
def implicitEnd (isFn : Bool) (sp : Span) : Node := if isFn then .ret sp none else .lit sp .none

/-- `parser/src/parser.rs:365-368`: in a function the last expression is returned. -/
def returnLast (isFn : Bool) (n : Node) : Node := if isFn then .ret n.span (some n) else n

mutual
/-- `add_implicit_none`, `parser/src/parser.rs:324-378`, as a function from bodies to bodies.
`sp` is the span of the body. -/
def addImplicitNone (isFn : Bool) (sp : Span) : List Node → List Node
  | [] => [implicitEnd isFn sp]
  | [n] => addImplicitLast isFn n
  | n :: n' :: ns => n :: addImplicitNone isFn sp (n' :: ns)
termination_by structural n => n
/-- The treatment of the last statement, `parser/src/parser.rs:332-376`. -/
def addImplicitLast (isFn : Bool) : Node → List Node
  | .ret sp e => [.ret sp e]
  | .block sp b => [returnLast isFn (.block sp (addImplicitNone false sp b))]
  | .cond sp c th el => [returnLast isFn (.cond sp c (addImplicitNone false sp th) (addImplicitOpt sp el))]
  | .forIn sp x it b => [returnLast isFn (.forIn sp x it (addImplicitNone false sp b))]
  | .forMulti sp xs it b => [returnLast isFn (.forMulti sp xs it (addImplicitNone false sp b))]
  | .while sp c b => [returnLast isFn (.while sp c (addImplicitNone false sp b))]
  | .ctx sp x args v b => [returnLast isFn (.ctx sp x args v (addImplicitNone false sp b))]
  | .decl sp v e => [.decl sp v e, implicitEnd isFn sp]
  | .extern sp x e => [.extern sp x e, implicitEnd isFn sp]
  | .func sp x ps b => [.func sp x ps b, implicitEnd isFn sp]
  | .include sp x b => [.include sp x b, implicitEnd isFn sp]
  | .lit sp l => [returnLast isFn (.lit sp l)]
  | .array sp es => [returnLast isFn (.array sp es)]
  | .pair sp a b => [returnLast isFn (.pair sp a b)]
  | .range sp a b => [returnLast isFn (.range sp a b)]
  | .ident sp x => [returnLast isFn (.ident sp x)]
  | .assign sp x e => [returnLast isFn (.assign sp x e)]
  | .lambda sp ps b => [returnLast isFn (.lambda sp ps b)]
  | .switch sp v cs d => [returnLast isFn (.switch sp v cs d)]
  | .bin sp op a b => [returnLast isFn (.bin sp op a b)]
  | .un sp op e => [returnLast isFn (.un sp op e)]
  | .call sp f args => [returnLast isFn (.call sp f args)]
  | .builtin sp x args => [returnLast isFn (.builtin sp x args)]
  | .index sp e i => [returnLast isFn (.index sp e i)]
termination_by structural n => n
/-- The `else` part, `parser/src/parser.rs:347-349`. -/
def addImplicitOpt (sp : Span) : Option (List Node) → Option (List Node)
  | some b => some (addImplicitNone false sp b)
  | none => none
termination_by structural n => n
end

end Quilt
