import Verif.Lib.Strings
import Verif.Vm.Api

/-!
# Positions, lines and the text of tracebacks

`common/src/sourcecache.rs`, the `TraceBack` part of `common/src/error.rs`, and the line table of the
third-party crate `ariadne` (0.1.5, `src/source.rs`), which is modelled from its documentation: a text is cut
after every line break (one of seven characters), offsets count characters.
-/

namespace Quilt

/-- The line breaks of `ariadne`. -/
def isBreak (c : Char) : Bool :=
  let n := c.toNat
  n == 13 || n == 10 || n == 11 || n == 12 || n == 0x85 || n == 0x2028 || n == 0x2029

/-- `str::split_inclusive` at the line breaks. -/
def pieces : List Char → List (List Char)
  | [] => []
  | c :: cs => if isBreak c then [c] :: pieces cs else Lib.consHead c (pieces cs)

/-- `ariadne::Line`: offset of the line in characters, number of characters with the line break, text without
the white space at its end. -/
structure SrcLine where
  offset : Nat
  len : Nat
  chars : List Char

/-- `ariadne::Source`. -/
structure Source where
  lines : List SrcLine
  len : Nat

namespace Source

def mkLines : Nat → List (List Char) → List SrcLine
  | _, [] => []
  | o, p :: ps => ⟨o, p.length, Lib.trimEndText p⟩ :: mkLines (o + p.length) ps

/-- `Source::from`. -/
def ofText (t : List Char) : Source := ⟨mkLines 0 (pieces t), t.length⟩

/-- `Source::get_offset_line`: the number of the last line that starts at or before the offset (found by binary
search in the table, whose offsets increase); panics for an empty table. -/
def offsetLine (s : Source) (o : Nat) : Res (Option Nat) :=
  if o ≤ s.len then
    let i := (s.lines.takeWhile fun l => decide (l.offset ≤ o)).length - 1
    if i < s.lines.length then .ok (some i) else .panic
  else .ok none

end Source

/-- `SourceCache`, `common/src/sourcecache.rs:9-12`: names and texts; the number of a source is its index. -/
abbrev Sources := List (String × List Char)

/-- `SourceCache::get_lineno`, `sourcecache.rs:36-46`. -/
def Sources.lineno (c : Sources) (sp : Span) : Res (Option Nat) :=
  match c[sp.src]? with
  | none => .ok none
  | some (_, t) =>
    let s := Source.ofText t
    if s.len = 0 then .ok none else (s.offsetLine sp.start).map fun l => l.map (· + 1)

namespace Machine

/-- `format!("... {} more frame{}", n, s)`, `interpreter/src/vm.rs:243-246`. -/
def moreText (n : Nat) : List Char := "... ".toList ++ showNat n ++ " more frame".toList ++ (if n = 1 then [] else ['s'])

/-- One round of the loop of `to_string` for tracebacks, `common/src/error.rs:143-172` (`print`, `:109-137`, prints
the same). -/
def entryText (c : Sources) : TraceEntry → Res (List Char)
  | .more n => .ok ("   ".toList ++ moreText n ++ ['\n'])
  | .frame name sp =>
    if "...".toList.isPrefixOf name.toList then .ok ("   ".toList ++ name.toList ++ ['\n'])
    else match c[sp.src]? with
      | none => .ok []
      | some (file, t) =>
        let s := Source.ofText t
        if s.len = 0 then .ok []
        else (s.offsetLine sp.start).bind fun
          | none => .ok []
          | some l => match s.lines[l]? with
            | none => .ok []
            | some line =>
              .ok ("   File \"".toList ++ file.toList ++ "\", line ".toList ++ showNat l ++ ", in ".toList ++ name.toList ++ ['\n'] ++
                "      ".toList ++ Lib.trimStartText line.chars ++ ['\n'])

/-- The entries in the order given. -/
def entriesText (c : Sources) : List TraceEntry → Res (List Char)
  | [] => .ok []
  | e :: es => (entryText c e).bind fun a => (entriesText c es).map fun b => a ++ b

/-- `to_string` for tracebacks, `common/src/error.rs:140-175`. -/
def traceText (c : Sources) (es : List TraceEntry) : Res (List Char) :=
  (entriesText c es.reverse).map fun b => "Traceback (most recent call last):\n".toList ++ b

end Machine

end Quilt
