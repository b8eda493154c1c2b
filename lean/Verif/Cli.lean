import Verif.Lib.Io
import Verif.Report
import Verif.Compiler.Compile
import Verif.Parser.Includes

/-!
# The command line program: `cli/src/main.rs:61-177`

With a main file; without one it starts a REPL (`Verif/ReplLoop.lean`). Without the flags `--debug`, `--timeit` and
`--disassemble`, for which see `Cli.mainWith` in `Verif/Listing.lean`.
-/

namespace Quilt.Cli

open Quilt.Lib Quilt.Peg

/-- The arguments, `main.rs:7-59`. -/
structure Args where
  result : Bool := false
  maxRuntime : Option Nat := none
  stackSize : Option Nat := none
  callStackSize : Option Nat := none
  stringMaxSize : Option Nat := none
  arrayMaxSize : Option Nat := none

/-- `main.rs:64-84` on `VmOptions::default`, `interpreter/src/vm.rs:54-64`. -/
def opts (a : Args) : Opts where
  stackSize := some (a.stackSize.getD 500000)
  callStackSize := some (a.callStackSize.getD 1000)
  lim := ⟨a.stringMaxSize.getD 262144, a.arrayMaxSize.getD 262144⟩

/-- What the program is built with and what surrounds it: the float operations, the machine, the files for `include`, the
answers to the builtins; `elapsed t` is the number of nanoseconds since the start of the run at the `t`-th moment. -/
structure Env where
  cfg : Cfg
  L : Ops
  W : World
  O : Outside
  eqFuel : Nat
  elapsed : Nat → Nat

variable (E : Env) (a : Args)

/-- `start.elapsed() > max_runtime`; the default is `Duration::MAX`, which is not reached. -/
def expired (t : Nat) : Bool := match a.maxRuntime with
  | none => false
  | some ms => decide (E.elapsed t > ms * 1000000)

def setup : Machine.Setup Io := { cfg := E.cfg, opts := opts a, onEnter := id, onExit := id, eqFuel := E.eqFuel }

/-- `VM::new((), script, opts)` and `add_builtins(qstd::stdio)`, `main.rs:146-148`. -/
def machine (script : Script) : Machine Io :=
  (Machine.new (setup E a) ⟨[], 0⟩ script).addBuiltins ((stdioLib E.L vname E.O E.cfg.chk).map fun p => (p.1, .fn p.2))

/-- What is reported with `ErrorExt::print` (drawn by `ariadne`, not modelled), or with `eprintln!` for the main file. -/
inductive Shown where
  | file (e : List Char)
  | reading (e : IErr)
  | error (e : Err) (sp : Span)

/-- How the program ends: exit status, standard output up to the drawn report, the report. -/
structure End where
  status : Nat
  out : List Char
  shown : Option Shown

inductive Outcome where
  | exit (e : End)
  | crash

/-- `println!("RETURNED: {}", value)`, `main.rs:162-168`. -/
def returned (result : Bool) (text : List Char) (isNone : Bool) : List Char :=
  if result && !isNone then "RETURNED: ".toList ++ text ++ ['\n'] else []

/-- `Value::None`. -/
def isNone {C : Type} : Val C → Bool
  | .none => true
  | _ => false

/-- What follows `vm.run()`, `main.rs:161-177`. -/
def finish (sources : Sources) : StepR Io → Option Outcome
  | .next _ => none
  | .panic => some .crash
  | .done v s => some (.exit ⟨0, s.data.out ++ returned a.result (v.text E.L.F vname) (isNone v), none⟩)
  | .err e sp s => match Machine.traceText sources (Machine.traceBack s) with
    | .ok t => some (.exit ⟨1, s.data.out ++ t, some (.error e sp)⟩)
    | _ => some .crash

/-- `main`, `main.rs:61-177`, on the result of `read_to_string`: how it ends, `none` if it is not at its end after `k` nested
includes and `fuel` instructions. -/
def main (k fuel : Nat) (name : String) (file : Except (List Char) (List Char)) : Option Outcome :=
  match file with
  | .error e => some (.exit ⟨1, [], some (.file e)⟩)
  | .ok src => match parseWithIncludes E.W k name src ⟨[], []⟩ with
    | (.oof, _) => none
    | (.err e, _) => some (.exit ⟨1, [], some (.reading e)⟩)
    | (.ok ast, c) => match compile E.cfg ast with
      | .panic => some .crash
      | .err e sp => some (.exit ⟨1, [], some (.error e sp)⟩)
      | .ok script => ((machine E a script).run (expired E a) fuel).bind (finish E a c.sources)

end Quilt.Cli
