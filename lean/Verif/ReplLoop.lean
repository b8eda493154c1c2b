import Verif.Cli
import Verif.Repl

/-!
# The loop of the interactive session: `cli/src/main.rs:86-90`, `cli/src/repl.rs:61-96`
-/

namespace Quilt.Cli

open Quilt.Lib Quilt.Peg

/-- Host data of the session: output and number of questions asked. -/
def io (r : Repl Io) : Io := r.vm.vm.data

def withIo (r : Repl Io) (d : Io) : Repl Io := r.withVm { r.vm.vm with data := d }

/-- What is left of one round of the loop. -/
inductive Round where
  | again (r : Repl Io) (shown : Option Shown)
  | crash

/-- A failed line, `repl.rs:86-92`: the traceback of the machine, then the report. -/
def report (r : Repl Io) (e : Shown) : Round :=
  match Machine.traceText r.cache (Machine.traceBack r.vm.vm) with
  | .ok t => .again (withIo r ((io r).print t)) (some e)
  | _ => .crash

variable (E : Env) (a : Args)

/-- What is done with the result of a line, `repl.rs:78-93`. -/
def respond : LineR Io × Repl Io → Round
  | (.value v, r) => .again (if isNone v then r else withIo r ((io r).print (v.text E.L.F vname ++ ['\n']))) none
  | (.readErr e, r) => report r (.reading e)
  | (.compileErr e sp, r) => report r (.error e sp)
  | (.runErr e sp, r) => report r (.error e sp)
  | (.panic, _) => .crash

/-- One round of the loop, `repl.rs:64-94`. `clock c` tells for the `c`-th line whether its time is up. `none`: the line is
still running after `fuel` instructions or `k` nested includes. -/
def round (clock : Nat → Nat → Bool) (k fuel : Nat) (r : Repl Io) : Option Round :=
  let d := (io r).print ">>> ".toList
  if E.O.flush d.asked then
    match E.O.line d.tick.asked with
    | none => some .crash
    | some s =>
      let t := trimEndText (trimStartText s)
      let r := withIo r d.tick.tick
      if t.isEmpty then some (.again r none)
      else (r.execute E.W k t (clock r.c) fuel).map (respond E)
  else some .crash

/-- `n` rounds, with the reports shown. -/
def rounds (clock : Nat → Nat → Bool) (k fuel : Nat) : Nat → Repl Io → Option (Option (Repl Io) × List Shown)
  | 0, r => some (some r, [])
  | n + 1, r => (round E clock k fuel r).bind fun
    | .crash => some (none, [])
    | .again r e => (rounds clock k fuel n r).map fun (r', es) => (r', e.toList ++ es)

/-- The start of the loop, `main.rs:87-88`, `repl.rs:22-34`, `:61-62`. -/
def repl : Repl Io :=
  withIo (Repl.new (setup E a) ⟨[], 0⟩ ((stdioLib E.L vname E.O E.cfg.chk).map fun p => (p.1, .fn p.2))) ⟨"Quilt REPL\n".toList, 0⟩

end Quilt.Cli
