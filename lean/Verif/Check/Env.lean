import Verif.Cli

/-!
# A concrete environment

For evaluating programs that do not compute with floats.
-/

namespace Quilt.Check

open Quilt.Lib Quilt.Peg

/-- For programs that do not compute with floats. -/
def noFloats : FOps :=
  { add := fun a _ => a, sub := fun a _ => a, mul := fun a _ => a, div := fun a _ => a, rem := fun a _ => a, pow := fun a _ => a,
    neg := id, ofInt := id, toInt := id, eq := fun _ _ => false, lt := fun _ _ => false, le := fun _ _ => false, toStr := fun _ => [] }

def noOps : Ops :=
  { F := noFloats, toI32 := fun _ => 0, toU8 := fun _ => 0, intToF32 := fun _ => 0, toF32 := fun _ => 0, min := fun a _ => a,
    max := fun a _ => a, abs := id, round := id, floor := id, ceil := id, powi := fun a _ => a, unary := fun _ a => a,
    atan2 := fun a _ => a, clamp := fun a _ _ => a, parse := fun _ => none, upper := fun c => [c], lower := id, hash := fun _ => 0 }

def files : World := ⟨fun _ => none, fun _ => 0⟩

/-- Nobody types, there are no files, and every random number is zero. -/
def nobody : Outside :=
  { flush := fun _ => true, line := fun _ => none, file := fun _ _ => .error [], rand := fun _ => 0, clock := fun _ => none, unitF := id,
    between := fun _ a _ => a, finite := fun _ => true, secs := fun _ => 0, fnEq := fun _ => false }

def env : Cli.Env := ⟨⟨noFloats, true⟩, noOps, files, nobody, 100, fun _ => 0⟩

end Quilt.Check
