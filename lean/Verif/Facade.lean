import Verif.Parser.Includes
import Verif.Compiler.Compile

/-!
# The library interface: `build_script`, `src/lib.rs:34-71`, with any include resolver

`parse_with_includes` and `resolve_includes` (`parser/src/includes.rs:71-114`) for an arbitrary implementation of the trait `IncludeResolver`
(`includes.rs:12-15`); `Verif/Parser/Includes.lean` is the same for `DefaultIncludeResolver` (`C84_default`).
-/

namespace Quilt.Peg

/-- `ErrorS`: a syntax error, of which only the number of the source is kept (see `IErr`), or any other error with its position. -/
inductive BErr where
  | parse (src : Nat)
  | at (e : Err) (sp : Span)

/-- Results; `oof` is running out of recursion depth. -/
inductive BRes (α : Type) where
  | ok (a : α)
  | err (e : BErr)
  | oof

/-- The texts of a `SourceCache`, with their names. -/
abbrev Texts := List (String × List Char)

/-- Computations with a resolver in state `S`, on a cache. -/
abbrev BM (S α : Type) := S → Texts → BRes α × S × Texts

def BM.bind {S α β : Type} (x : BM S α) (f : α → BM S β) : BM S β := fun s c => match x s c with
  | (.ok a, s', c') => f a s' c'
  | (.err e, s', c') => (.err e, s', c')
  | (.oof, s', c') => (.oof, s', c')

def BM.each {S α β : Type} (f : α → BM S β) : List α → BM S (List β)
  | [] => fun s c => (.ok [], s, c)
  | a :: as => BM.bind (f a) fun b => BM.bind (BM.each f as) fun bs s c => (.ok (b :: bs), s, c)

/-- An implementation of `IncludeResolver`, `includes.rs:12-15`, with state `S`. -/
structure Resolver (S : Type) where
  resolve : Name → BM S (List Node)
  wasResolved : S → String → Bool

/-- `SourceCache::add` and `parse_code`, `includes.rs:77-85`. -/
def addParseG {S : Type} (float : List Char → BitVec 64) (name : String) (src : List Char) : BM S (List Node) := fun s c =>
  match parseCode ⟨c.length, float⟩ src with
  | .ok ast _ => (.ok ast, s, c ++ [(name, src)])
  | .fail => (.err (.parse c.length), s, c ++ [(name, src)])
  | .oof => (.oof, s, c ++ [(name, src)])

/-- One step of the loop of `resolve_includes`, `includes.rs:93-111`. The number bounds the depth of the recursion; it is handed to the resolver,
which may call `parse_with_includes` itself. -/
def resolveNodeG {S : Type} (R : Nat → Resolver S) : Nat → Node → BM S Node
  | 0, .include _ (x, xsp) _ => fun s c =>
    if (R 0).wasResolved s x then (.err (.at (.include (.circularInclude x)) xsp), s, c) else (.oof, s, c)
  | k + 1, .include sp (x, xsp) _ => fun s c =>
    if (R k).wasResolved s x then (.err (.at (.include (.circularInclude x)) xsp), s, c)
    else (BM.bind ((R k).resolve (x, xsp)) fun inc => BM.bind (BM.each (resolveNodeG R k) inc) fun inc' s c =>
      (.ok (.include sp (x, xsp) (some inc')), s, c)) s c
  | _, n => fun s c => (.ok n, s, c)

/-- `parse_with_includes`, `includes.rs:71-86`. -/
def parseWithG {S : Type} (float : List Char → BitVec 64) (R : Nat → Resolver S) : Nat → String → List Char → BM S (List Node)
  | 0, _, _ => fun s c => (.oof, s, c)
  | k + 1, name, src => BM.bind (addParseG float name src) fun ast => BM.each (resolveNodeG R k) ast

/-- Errors of `DefaultIncludeResolver` as errors of any resolver. -/
def IErr.out : IErr → BErr
  | .parse n => .parse n
  | .incl e sp => .at (.include e) sp

def IRes.out {α : Type} : IRes α → BRes α
  | .ok a => .ok a
  | .err e => .err e.out
  | .oof => .oof

/-- A computation of `Verif/Parser/Includes.lean`; the state of `DefaultIncludeResolver` is the set of names resolved. -/
def IM.out {α : Type} (x : IM α) : BM (List String) α := fun s c => ((x ⟨c, s⟩).1.out, (x ⟨c, s⟩).2.resolved, (x ⟨c, s⟩).2.sources)

/-- `DefaultIncludeResolver`, `includes.rs:17-42`. -/
def defaultResolver (W : World) (k : Nat) : Resolver (List String) where
  resolve := fun x => match W.files x.1 with
    | none => fun s c => (.err (.at (.include (.couldNotResolve x.1)) x.2), s, c)
    | some src => BM.bind (parseWithIncludes W k x.1 src).out fun ast s c => (.ok ast, x.1 :: s, c)
  wasResolved s x := decide (x ∈ s)

end Quilt.Peg

namespace Quilt
open Peg

/-- `Result<Script, EZError>`, `lib.rs:34-37`: an error comes with all sources read so far. -/
inductive Built where
  | ok (script : Script)
  | err (e : BErr) (sources : Texts)
  | panic
  | oof

/-- `build_script`, `lib.rs:53-71`. -/
def buildScript {S : Type} (cfg : Cfg) (float : List Char → BitVec 64) (R : Nat → Resolver S) (k : Nat) (name : String) (src : List Char) (s : S) : Built :=
  match parseWithG float R k name src s [] with
  | (.oof, _, _) => .oof
  | (.err e, _, c) => .err e c
  | (.ok ast, _, c) => match compile cfg ast with
    | .ok script => .ok script
    | .err e sp => .err (.at e sp) c
    | .panic => .panic

end Quilt

namespace Quilt.Peg

/-- A resolver such as a host would write: texts by name, read with `Cache::parse` (`includes.rs:62-69`), each name marked as resolved when it is read.
Not in the repository; an instance of the trait. -/
def shelf (float : List Char → BitVec 64) (files : String → Option (List Char)) (_ : Nat) : Resolver (List String) where
  resolve := fun x s c => match files x.1 with
    | none => (.err (.at (.include (.couldNotResolve x.1)) x.2), s, c)
    | some src => addParseG float x.1 src (x.1 :: s) c
  wasResolved s x := decide (x ∈ s)

end Quilt.Peg
