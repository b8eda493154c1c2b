import Verif.Vm.Machine

/-!
# Host interface of the VM: `interpreter/src/vm.rs:97-255`
-/

namespace Quilt

/-- `Script`, `interpreter/src/lib.rs:10-15`. -/
structure Script where
  externals : List Nat
  syms : Pool String
  fn : Func

/-- `Script::check_external`, `interpreter/src/lib.rs:27-33`. -/
def Script.checkExternal (s : Script) (name : String) : Bool :=
  match s.syms.id? name with
  | some i => decide (i ∈ s.externals)
  | none => false

/-- A `VM` value with everything it owns, `interpreter/src/vm.rs:66-90`. -/
structure Machine (D : Type) where
  host : Host D
  externals : List Nat
  vm : VM D

namespace Machine
variable {D : Type}

/-- Configuration of a VM: build, options, hooks of the data type. -/
structure Setup (D : Type) where
  cfg : Cfg
  opts : Opts
  onEnter : D → D
  onExit : D → D
  eqFuel : Nat

/-- `VM::new`, `vm.rs:97-133`. -/
def new (S : Setup D) (data : D) (script : Script) : Machine D where
  host :=
    { cfg := S.cfg, opts := S.opts, builtins := fun _ => none, syms := script.syms,
      onEnter := S.onEnter, onExit := S.onExit, eqFuel := S.eqFuel }
  externals := script.externals
  vm :=
    { data := data, exitFns := [], blockResults := [], globals := fun _ => none, openUps := [],
      heap := fun _ => .closed .none, hp := 0, frames := [],
      frame := { fn := script.fn, ups := [], ip := 0, st := 0 }, stack := fun _ => .none, sp := 0 }

/-- `VM::reset_state`, `vm.rs:135-143`. -/
def resetVm (s : VM D) : VM D :=
  { s with sp := 0, frames := [], frame := { s.frame with ip := 0, st := 0 }, openUps := [],
           blockResults := [], exitFns := [] }

def reset (m : Machine D) : Machine D := { m with vm := resetVm m.vm }

/-- `VM::update_script`, `vm.rs:145-156`: the externals are not replaced. -/
def updateScript (m : Machine D) (script : Script) : Machine D :=
  let s := resetVm m.vm
  { m with
    host := { m.host with syms := script.syms }
    vm := { s with frame := { s.frame with fn := script.fn } } }

/-- `VM::insert_global`, `vm.rs:178-181`. -/
def insertGlobal (m : Machine D) (name : String) (v : VVal) : Machine D :=
  let (i, p) := m.host.syms.add name
  { m with host := { m.host with syms := p }, vm := { m.vm with globals := upd m.vm.globals i (some v) } }

/-- `VM::set_external`, `vm.rs:184-196`. -/
def setExternal (m : Machine D) (name : String) (v : VVal) : Res Unit × Machine D :=
  match m.host.syms.id? name with
  | none => (.err (.name (.externalNotDefined name)), m)
  | some i =>
    if i ∈ m.externals then
      (.ok (), { m with vm := { m.vm with globals := upd m.vm.globals i (some v) } })
    else (.err (.name (.externalNotDefined name)), m)

/-- `VM::add_builtins_list`, `vm.rs:204-211`. -/
def addBuiltins (m : Machine D) : List (String × Builtin D VClos) → Machine D
  | [] => m
  | (name, b) :: bs =>
    let (i, p) := m.host.syms.add name
    addBuiltins { m with host :=
      { m.host with syms := p, builtins := upd m.host.builtins i (some b) } } bs

/-- `VM::run`, `vm.rs:257`: the loop starts with the counter at 0. -/
def run (m : Machine D) (clock : Nat → Bool) (fuel : Nat) : Option (StepR D) :=
  m.vm.run m.host clock fuel 0 0

/-- Entry of a traceback. -/
inductive TraceEntry where
  | frame (name : String) (sp : Span)
  | more (n : Nat)
  deriving DecidableEq, Repr

/-- Entry for a frame, with the span at `ip - 1` (`vm.rs:222-230`, `:232-240`). -/
def traceFrame (f : Frame) : TraceEntry := .frame f.fn.name (f.fn.getSpan (f.ip - 1))

/-- `VM::trace_back`, `vm.rs:218-255`. `s.frames` has the most recent frame first while the Rust
vector has it last: `iter().skip(1).rev().take(8)` are the first 8 elements of the list without
its last one, `first()` is the last element. -/
def traceBack (s : VM D) : List TraceEntry :=
  [traceFrame s.frame] ++
  (s.frames.dropLast.take 8).map traceFrame ++
  (if s.frames.length > 10 then [.more (s.frames.length - 10)] else []) ++
  (match s.frames.getLast? with
   | some f => [.frame f.fn.name (f.fn.getSpan f.ip)]
   | none => [])

end Machine

end Quilt
