import Verif.Compiler.Compile
import Verif.Parser.Includes
import Verif.Vm.Api

/-!
# The interactive session: `cli/src/repl.rs`
-/

namespace Quilt

/-- `Repl`, `cli/src/repl.rs:5-16`. `builtins` is what the functions in the field of that name add
(`add_builtins_list`); functions that change the VM in another way are not modelled. `cache` holds
the sources; each line is read with a new include resolver (`repl.rs:42-46`). -/
structure Repl (D : Type) where
  vm : Machine D
  compiler : CState
  cache : List (String × List Char)
  c : Nat
  builtins : List (String × Builtin D VClos)

/-- Result of a line. -/
inductive LineR (D : Type) where
  | value (v : VVal)
  | readErr (e : Peg.IErr)
  | compileErr (e : Err) (sp : Span)
  | runErr (e : Err) (sp : Span)
  | panic

namespace Repl
variable {D : Type}

/-- `Repl::new`, `repl.rs:22-34`. -/
def new (M : Machine.Setup D) (data : D) (builtins : List (String × Builtin D VClos)) : Repl D where
  vm := Machine.new M data (CState.new "@__repl__").script
  compiler := CState.new "@__repl__"
  cache := []
  c := 0
  builtins := builtins

/-- The part of `Repl::execute` between parsing and running, `repl.rs:48-57`: compile with the same
compiler; on success hand the script to the VM, reset the compiler and add the builtins again. -/
def load (r : Repl D) (ast : List Node) : COut Unit × Repl D :=
  match compileStmts r.vm.host.cfg ast r.compiler with
  | (.ok _, st) =>
    (.ok (), { r with compiler := st.reset "@__repl__", vm := (r.vm.updateScript st.script).addBuiltins r.builtins })
  | (.err e sp, st) => (.err e sp, { r with compiler := st })
  | (.panic, st) => (.panic, { r with compiler := st })

/-- The session with another state of the machine. -/
def withVm (r : Repl D) (s : VM D) : Repl D := { r with vm := { r.vm with vm := s } }

/-- A line given as a syntax tree: compile and run. `none`: still running after `fuel` instructions.
After a panic the process ends. -/
def line (r : Repl D) (ast : List Node) (clock : Nat → Bool) (fuel : Nat) : Option (LineR D × Repl D) :=
  match r.load ast with
  | (.ok (), r) =>
    match r.vm.run clock fuel with
    | some (.done v s) => some (.value v, r.withVm s)
    | some (.err e sp s) => some (.runErr e sp, r.withVm s)
    | some .panic => some (.panic, r)
    | some (.next _) => none
    | none => none
  | (.err e sp, r) => some (.compileErr e sp, r)
  | (.panic, r) => some (.panic, r)

/-- Parsing of a line, `repl.rs:37-46`. `k` bounds the depth of includes. -/
def read (W : Peg.World) (k : Nat) (r : Repl D) (source : List Char) : Peg.IRes (List Node) × Repl D :=
  let (o, c) := Peg.parseWithIncludes W k ("@__exec__" ++ String.ofList (showNat r.c)) source ⟨r.cache, []⟩
  (o, { r with cache := c.sources, c := r.c + 1 })

/-- `Repl::execute`, `repl.rs:36-59`. -/
def execute (W : Peg.World) (k : Nat) (r : Repl D) (source : List Char) (clock : Nat → Bool) (fuel : Nat) : Option (LineR D × Repl D) :=
  match r.read W k source with
  | (.ok ast, r) => r.line ast clock fuel
  | (.err e, r) => some (.readErr e, r)
  | (.oof, _) => none

end Repl

end Quilt
