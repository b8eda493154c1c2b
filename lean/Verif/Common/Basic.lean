/-!
# Spans, errors and outcomes

Models `common/src/span.rs` and the error enums of `common/src/error.rs`.
-/

namespace Quilt

/-- `common/src/span.rs:8-15` `Span(start, end, src_id)`. -/
structure Span where
  start : Nat
  stop : Nat
  src : Nat
  deriving DecidableEq, Repr

/-- `#[derive(Default)]` on `Span`, `common/src/span.rs:7`. -/
def Span.default : Span := ⟨0, 0, 0⟩

instance : Inhabited Span := ⟨Span.default⟩

/-- `common/src/error.rs:204-248`. `ValueType` is `&'static str`. -/
inductive TypeErr where
  | expected (want got : String)
  | cannotConvert (src dst : String)
  | cannotCompare (lhs rhs : String)
  | parseError (text : List Char) (ty : String)
  | mismatchedArity (name : String) (expected got : Nat)
  | notCallable (ty : String)
  | unsupportedBinary (op lhs rhs : String)
  | unpackable (ty : String)
  | insufficientValues (len argc : Nat)
  | unsupportedUnary (op rhs : String)
  | notIterable (ty : String)
  | failedToIterate
  | cannotHash (ty : String)
  deriving DecidableEq, Repr

/-- `common/src/error.rs:271-290`. -/
inductive NameErr where
  | undefined (name : String)
  | alreadyDefined (name : String)
  | undefinedBuiltin (name : String)
  | externalNotGlobal (name : String)
  | externalRedefined (name : String)
  | externalNotDefined (name : String)
  deriving DecidableEq, Repr

/-- `common/src/error.rs:305-336`. -/
inductive OverflowErr where
  | tooManyItems
  | tooManyParams
  | tooManyArgs
  | tooMuchToUnpack
  | stackOverflow
  | stackUnderflow
  | instructionOverflow
  | jumpTooLarge
  | stringTooLarge
  | arrayTooLarge
  deriving DecidableEq, Repr

/-- `common/src/error.rs:355-368`. -/
inductive IncludeErr where
  | includeNotTopLevel
  | unresolvedInclude (name : String)
  | couldNotResolve (name : String)
  | circularInclude (name : String)
  deriving DecidableEq, Repr

/-- `common/src/error.rs:397-411`; the payload of `UnexpectedToken` is dropped. -/
inductive SyntaxErr where
  | unexpectedToken
  | statementAsExpression
  | returnOutsideFunction
  deriving DecidableEq, Repr

/-- `common/src/error.rs:28-63`. `RuntimeLimitExceeded` carries the configured
limit in the source; the payload is dropped. `BuiltinError` keeps its message. -/
inductive Err where
  | name (e : NameErr)
  | overflow (e : OverflowErr)
  | type (e : TypeErr)
  | builtin (msg : String)
  | «include» (e : IncludeErr)
  | «syntax» (e : SyntaxErr)
  | index (i : BitVec 64)
  | zeroDivision
  | runtimeLimit
  | memoryLimit
  | halt
  deriving DecidableEq, Repr

/-- Outcome of a Rust function returning `Result<α, Error>` which may also panic
(`panic` also stands for a native abort). -/
inductive Res (α : Type u) where
  | ok (a : α)
  | err (e : Err)
  | panic
  deriving DecidableEq, Repr

namespace Res
variable {α : Type u} {β : Type v}

/-- `?`-style sequencing. -/
def bind (x : Res α) (f : α → Res β) : Res β :=
  match x with
  | ok a => f a
  | err e => err e
  | panic => panic

def map (f : α → β) (x : Res α) : Res β :=
  match x with
  | ok a => ok (f a)
  | err e => err e
  | panic => panic

@[simp] theorem bind_ok (a : α) (f : α → Res β) : (ok a).bind f = f a := rfl
@[simp] theorem bind_err (e : Err) (f : α → Res β) : (err e : Res α).bind f = err e := rfl
@[simp] theorem bind_panic (f : α → Res β) : (panic : Res α).bind f = panic := rfl
@[simp] theorem map_ok (a : α) (f : α → β) : (ok a).map f = ok (f a) := rfl
@[simp] theorem map_err (e : Err) (f : α → β) : (err e : Res α).map f = err e := rfl
@[simp] theorem map_panic (f : α → β) : (panic : Res α).map f = panic := rfl

end Res

end Quilt
