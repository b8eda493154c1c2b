import Verif.Parser.Grammar

/-!
# Includes: `parser/src/includes.rs`

The file system is a function from names to texts. `SourceCache` (`common/src/sourcecache.rs:9-12, 52-59`) is the
list of texts added so far; a text's number is its index.
-/

namespace Quilt.Peg

/-- Errors of parsing with includes. Parse errors only carry the number of the source; the rest is determined by its text (`C82_include`). -/
inductive IErr where
  | parse (src : Nat)
  | incl (e : IncludeErr) (sp : Span)
  deriving DecidableEq, Repr

/-- Results; `oof` is running out of recursion depth. -/
inductive IRes (α : Type) where
  | ok (a : α)
  | err (e : IErr)
  | oof
  deriving Repr

/-- `SourceCache` and the names in `DefaultIncludeResolver::resolved`, `includes.rs:17-20`. -/
structure Cache where
  sources : List (String × List Char)
  resolved : List String
  deriving DecidableEq, Repr

/-- Computations on the cache. -/
abbrev IM (α : Type) := Cache → IRes α × Cache

def IM.bind {α β : Type} (x : IM α) (f : α → IM β) : IM β := fun c => match x c with
  | (.ok a, c') => f a c'
  | (.err e, c') => (.err e, c')
  | (.oof, c') => (.oof, c')

/-- Run on each element. -/
def IM.each {α β : Type} (f : α → IM β) : List α → IM (List β)
  | [] => fun c => (.ok [], c)
  | a :: as => IM.bind (f a) fun b => IM.bind (IM.each f as) fun bs c => (.ok (b :: bs), c)

/-- The world: files, and float parsing. -/
structure World where
  files : String → Option (List Char)
  float : List Char → BitVec 64

/-- `SourceCache::add` followed by `parse_code`, `includes.rs:77-85`. -/
def addParse (W : World) (name : String) (src : List Char) : IM (List Node) := fun c =>
  let id := c.sources.length
  let c' := { c with sources := c.sources ++ [(name, src)] }
  match parseCode ⟨id, W.float⟩ src with
  | .ok ast _ => (.ok ast, c')
  | .fail => (.err (.parse id), c')
  | .oof => (.oof, c')

mutual
/-- `parse_with_includes`, `includes.rs:71-86`. The number bounds the recursion depth. -/
def parseWithIncludes (W : World) : Nat → String → List Char → IM (List Node)
  | 0, _, _ => fun c => (.oof, c)
  | k + 1, name, src => IM.bind (addParse W name src) fun ast => IM.each (resolveNode W k) ast
termination_by structural k => k
/-- One step of the loop of `resolve_includes`, `includes.rs:93-111`, with
`DefaultIncludeResolver::resolve`, `includes.rs:23-37`. -/
def resolveNode (W : World) : Nat → Node → IM Node
  | 0, .include _ (x, xsp) _ => fun c =>
    if x ∈ c.resolved then (.err (.incl (.circularInclude x) xsp), c) else (.oof, c)
  | k + 1, .include sp (x, xsp) _ => fun c =>
    if x ∈ c.resolved then (.err (.incl (.circularInclude x) xsp), c)
    else match W.files x with
      | none => (.err (.incl (.couldNotResolve x) xsp), c)
      | some src =>
        (IM.bind (parseWithIncludes W k x src) fun inc => IM.bind (fun c => (.ok (), { c with resolved := x :: c.resolved })) fun _ =>
          IM.bind (IM.each (resolveNode W k) inc) fun inc' c => (.ok (.include sp (x, xsp) (some inc')), c)) c
  | _, n => fun c => (.ok n, c)
termination_by structural k => k
end

end Quilt.Peg
