import Verif.Report
import Verif.Message
import Verif.Parser.Traced
import Verif.Cli

/-!
# Error reports: `common/src/error.rs:65-100`, `common/src/sourcecache.rs:14-27`

What a report is made of, and how the third-party crate `ariadne` (0.1.5, `src/write.rs`) starts to draw it: the source is
fetched, the label must not end before it starts, the lines of its ends and of the report itself are looked up, and the first
line that is drawn shows the name of the source and the place. This much of `ariadne` is modelled from its documentation and its
published source; the drawing of the marked lines is not modelled.
-/

namespace Quilt

/-- `SourceCache::fetch`, `sourcecache.rs:15-20`; `none` is the error "Source not found". -/
def Sources.fetch (c : Sources) (id : Nat) : Option Source := c[id]?.map fun p => Source.ofText p.2

/-- `SourceCache::display`, `sourcecache.rs:22-26`. -/
def Sources.display (c : Sources) (id : Nat) : Option String := c[id]?.map (·.1)

/-- What `ErrorExt::report` hands to `ariadne`, `error.rs:66-82`: the kind, the source and the offset of the report, one label with
its message; without colours. The help of a builtin error (`:75-79`) is left out, as in `Err`. -/
structure Report where
  title : String
  source : Nat
  offset : Nat
  label : Span
  message : List Char

/-- `ErrorExt::report` for `ErrorS`, `error.rs:66-82`. `plain` says which characters `{:?}` does not escape, `limit` is the text of
the time limit (see `Err.text`). -/
def Err.report (plain : Char → Bool) (limit : List Char) (e : Err) (sp : Span) : Report := ⟨e.title, sp.src, sp.start, sp, e.text plain limit⟩

/-- The same for a syntax error, with `syntax_error`, `parser/src/lib.rs:15-32`: the label is empty. -/
def Peg.Unexpected.report (id : Nat) (e : Peg.Unexpected) : Report :=
  ⟨"UnexpectedToken", id, e.offset, ⟨e.offset, e.offset, id⟩, "SyntaxError: ".toList ++ e.text.toList⟩

/-- The report of an error of reading, `cli/src/main.rs:108-113`; `none` if there is no syntax error in the source with that
number. -/
def Peg.IErr.report (plain : Char → Bool) (limit : List Char) (float : List Char → BitVec 64) (c : Sources) : Peg.IErr → Option Report
  | .incl e sp => some ((Err.include e).report plain limit sp)
  | .parse i => match c[i]? with
    | none => none
    | some (_, t) => match Peg.readCode ⟨i, float⟩ t with
      | some (.error (.ok e)) => some (e.report i)
      | _ => none

/-- The report that `main` prints, `cli/src/main.rs:111`, `:124`, `:176`; none for a main file that cannot be opened. -/
def Cli.Shown.report (plain : Char → Bool) (limit : List Char) (float : List Char → BitVec 64) (c : Sources) : Cli.Shown → Option Report
  | .file _ => none
  | .reading e => e.report plain limit float c
  | .error e sp => some (e.report plain limit sp)

/-- The first line of the drawing: the name of the source, line and column or `?:?`. For a source that is not found there is
none. -/
inductive Headline where
  | lost
  | at (file : String) (place : Option (Nat × Nat))
  deriving DecidableEq, Repr

/-- `Source::get_offset_line`: line and column, from 0. -/
def Source.place (s : Source) (o : Nat) : Res (Option (Nat × Nat)) :=
  (s.offsetLine o).bind fun
    | none => .ok none
    | some l => match s.lines[l]? with
      | none => .panic
      | some line => if line.offset ≤ o then .ok (some (l, o - line.offset)) else .panic

/-- How `ariadne` starts: `get_source_groups` and the head of the first group. -/
def Report.head (c : Sources) (r : Report) : Res Headline :=
  match c.display r.label.src, c.fetch r.label.src with
  | some file, some s =>
    if r.label.start ≤ r.label.stop then
      (s.place r.label.start).bind fun _ => (s.place (max (r.label.stop - 1) r.label.start)).bind fun _ =>
        (s.place (if r.label.src = r.source then r.offset else r.label.start)).map fun p => .at file (p.map fun p => (p.1 + 1, p.2 + 1))
    else .panic
  | _, _ => .ok .lost

end Quilt
