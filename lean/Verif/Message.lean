import Verif.Show

/-!
# What errors say: `common/src/error.rs:28-63`, `:185-470`

The texts of `#[error("…")]` and `name`. Reports (drawn by `ariadne`) show both.
-/

namespace Quilt

/-- One character inside `{:?}` of a string (`char::escape_debug_ext` without single quotes). `plain` tells which characters
other than the ones named here are printed as they are (Unicode tables of the Rust library). -/
def debugChar (plain : Char → Bool) (c : Char) : List Char :=
  if c = '\x00' then ['\\', '0']
  else if c = '\t' then ['\\', 't']
  else if c = '\r' then ['\\', 'r']
  else if c = '\n' then ['\\', 'n']
  else if c = '"' then ['\\', '"']
  else if c = '\\' then ['\\', '\\']
  else if plain c then [c]
  else ['\\', 'u', '{'] ++ showBase 16 c.toNat ++ ['}']

/-- `{:?}` of a string. -/
def debugText (plain : Char → Bool) (s : String) : List Char := '"' :: (s.toList.flatMap (debugChar plain) ++ ['"'])

variable (plain : Char → Bool)

/-- `error.rs:203-248`. -/
def TypeErr.text : TypeErr → List Char
  | .expected w g => "expected `".toList ++ w.toList ++ "` got `".toList ++ g.toList ++ "`".toList
  | .cannotConvert a b => "cannot convert `".toList ++ a.toList ++ "` to `".toList ++ b.toList ++ "`".toList
  | .cannotCompare a b => "cannot compare `".toList ++ a.toList ++ "` and `".toList ++ b.toList ++ "`".toList
  | .parseError t ty => "cannot parse '".toList ++ t ++ "' as `".toList ++ ty.toList ++ "`".toList
  | .mismatchedArity f e g => "function '".toList ++ f.toList ++ "' expected `".toList ++ showNat e ++ "` arguments got `".toList ++ showNat g ++ "`".toList
  | .notCallable a => "cannot use `".toList ++ a.toList ++ "` as a function".toList
  | .unsupportedBinary op l r => "unsupported binary operation `".toList ++ op.toList ++ "` on `".toList ++ l.toList ++ "` and `".toList ++ r.toList ++ "`".toList
  | .unpackable a => "cannot unpack `".toList ++ a.toList ++ "`".toList
  | .insufficientValues n m => "cannot unpack a ".toList ++ showNat n ++ " item value into ".toList ++ showNat m ++ " values".toList
  | .unsupportedUnary op r => "unsupported unary operation `".toList ++ op.toList ++ "` on `".toList ++ r.toList ++ "`".toList
  | .notIterable a => "cannot iterate over `".toList ++ a.toList ++ "`".toList
  | .failedToIterate => "failed to iterate :(".toList
  | .cannotHash a => "cannot hash `".toList ++ a.toList ++ "`".toList

/-- `error.rs:270-289`. -/
def NameErr.text : NameErr → List Char
  | .undefined x => "name ".toList ++ debugText plain x ++ " is not defined".toList
  | .alreadyDefined x => "name ".toList ++ debugText plain x ++ " is already defined".toList
  | .undefinedBuiltin x => "builtin ".toList ++ debugText plain x ++ " is not defined".toList
  | .externalNotGlobal x => "external ".toList ++ debugText plain x ++ " is not in the global scope".toList
  | .externalRedefined x => "external ".toList ++ debugText plain x ++ " is aldready defined".toList
  | .externalNotDefined x => "external ".toList ++ debugText plain x ++ " is not defined".toList

/-- `error.rs:304-335`. -/
def OverflowErr.text : OverflowErr → List Char
  | .tooManyItems => "an array cannot have more than 256 items".toList
  | .tooManyParams => "cannot define more than 256 parameters in a function".toList
  | .tooManyArgs => "cannot use more than 256 arguments in a function call".toList
  | .tooMuchToUnpack => "cannot unpack more than 256 values".toList
  | .stackOverflow => "stack overflow".toList
  | .stackUnderflow => "stack underflow".toList
  | .instructionOverflow => "instruction overflow".toList
  | .jumpTooLarge => "jump too large".toList
  | .stringTooLarge => "string too large".toList
  | .arrayTooLarge => "array too large".toList

/-- `error.rs:354-367`. -/
def IncludeErr.text : IncludeErr → List Char
  | .includeNotTopLevel => "includes can only be at the top level of a file".toList
  | .unresolvedInclude x => "unresolved include: ".toList ++ debugText plain x
  | .couldNotResolve x => "could not resolve include: ".toList ++ debugText plain x
  | .circularInclude x => "circular include: ".toList ++ debugText plain x

/-- `error.rs:396-410`; of an unexpected token only the beginning (position and expected tokens are not modelled). -/
def SyntaxErr.text : SyntaxErr → List Char
  | .unexpectedToken => "unexpected token at line ".toList
  | .statementAsExpression => "statement was used in place of expression".toList
  | .returnOutsideFunction => "return outside of function".toList

/-- `error.rs:28-63`; `limit` is the text of the time limit, which the model of errors leaves out. -/
def Err.text (limit : List Char) : Err → List Char
  | .name e => "NameError: ".toList ++ e.text plain
  | .overflow e => "OverflowError: ".toList ++ e.text
  | .type e => "TypeError: ".toList ++ e.text
  | .builtin m => "BuiltinError: ".toList ++ m.toList
  | .include e => "IncludeError: ".toList ++ e.text plain
  | .syntax e => "SyntaxError: ".toList ++ e.text
  | .index i => "index `".toList ++ showInt i.toInt ++ "` out of bounds".toList
  | .zeroDivision => "Division by zero".toList
  | .runtimeLimit => "Runtime limit exceeded: ".toList ++ limit
  | .memoryLimit => "Memory limit exceeded".toList
  | .halt => "Halt".toList

/-- `NamedError::name`, `error.rs:185-201`, `:250-268`, `:291-302`, `:337-352`, `:369-378`, `:412-420`, `:460-464`. -/
def Err.title : Err → String
  | .name (.undefined _) => "Undefined"
  | .name (.alreadyDefined _) => "AlreadyDefined"
  | .name (.undefinedBuiltin _) => "UndefinedBuiltin"
  | .name (.externalNotGlobal _) => "ExternalNotGlobal"
  | .name (.externalRedefined _) => "ExternalRedefined"
  | .name (.externalNotDefined _) => "ExternalNotDefined"
  | .overflow .tooManyItems => "TooManyItems"
  | .overflow .tooManyParams => "TooManyParams"
  | .overflow .tooManyArgs => "TooManyArgs"
  | .overflow .tooMuchToUnpack => "TooMuchToUnpack"
  | .overflow .stackOverflow => "StackOverflow"
  | .overflow .stackUnderflow => "StackUnderflow"
  | .overflow .instructionOverflow => "InstructionOverflow"
  | .overflow .jumpTooLarge => "JumpTooLarge"
  | .overflow .stringTooLarge => "StringTooLarge"
  | .overflow .arrayTooLarge => "ArrayTooLarge"
  | .type (.expected ..) => "Expected"
  | .type (.cannotConvert ..) => "CannotConvert"
  | .type (.cannotCompare ..) => "CannotCompare"
  | .type (.parseError ..) => "ParseError"
  | .type (.mismatchedArity ..) => "MismatchedArity"
  | .type (.notCallable _) => "NotCallable"
  | .type (.unsupportedBinary ..) => "UnsupportedBinaryOperation"
  | .type (.unpackable _) => "Unpackable"
  | .type (.insufficientValues ..) => "InsufficientValues"
  | .type (.unsupportedUnary ..) => "UnsupportedUnaryOperation"
  | .type (.notIterable _) => "NotIterable"
  | .type .failedToIterate => "FailedToIterate"
  | .type (.cannotHash _) => "CannotHash"
  | .builtin _ => "BuiltinError"
  | .include .includeNotTopLevel => "IncludeNotTopLevel"
  | .include (.unresolvedInclude _) => "UnresolvedInclude"
  | .include (.couldNotResolve _) => "CouldNotResolve"
  | .include (.circularInclude _) => "CircularInclude"
  | .syntax .unexpectedToken => "UnexpectedToken"
  | .syntax .statementAsExpression => "StatementAsExpression"
  | .syntax .returnOutsideFunction => "ReturnOutsideFunction"
  | .index _ => "IndexError"
  | .zeroDivision => "ZeroDivisionError"
  | .runtimeLimit => "RuntimeLimitExceeded"
  | .memoryLimit => "MemoryLimitExceeded"
  | .halt => "Halt"

end Quilt
