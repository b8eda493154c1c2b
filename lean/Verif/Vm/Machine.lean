import Verif.Vm.Instr
import Verif.Vm.Prims
import Verif.Common.Pool

/-!
# The virtual machine: `interpreter/src/vm.rs`
-/

namespace Quilt

/-- `interpreter/src/value.rs:221-225`: a function with its captured cells. A cell
(`Rc<RefCell<Upvalue>>`) is an index into the machine's `heap`. -/
structure VClos where
  fn : Func
  ups : List Nat
  deriving DecidableEq

abbrev VVal := Val VClos

/-- `interpreter/src/value.rs:260-264` `Upvalue`. -/
inductive Cell where
  | opened (loc : Nat)
  | closed (v : VVal)

/-- `interpreter/src/vm.rs:1332-1336` `CallFrame`: closure, instruction pointer, stack base. -/
structure Frame where
  fn : Func
  ups : List Nat
  ip : Nat
  st : Nat

/-- `BuiltinFnReg`, `interpreter/src/builtins/mod.rs:78`, over values with closures `C`. Of the
options only the size limits are passed. On failure the data may have been changed too. -/
abbrev BFn (D C : Type) := D → List (Val C) → Limits → Res (Val C) × D

/-- `ContextExit`, `builtins/mod.rs:81`. -/
abbrev ExitFn (D : Type) := D → Res Unit × D

/-- `BuiltinFn`, `builtins/mod.rs:83-88`. -/
inductive Builtin (D C : Type) where
  | fn (f : BFn D C)
  | ctx (entry : BFn D C) (exit : ExitFn D)

/-- `VmOptions`, `interpreter/src/vm.rs:14-27`, without the time limit (see `run`). `none` stands
for an idealised machine without the limit; the actual machine always has `some`. -/
structure Opts where
  stackSize : Option Nat
  callStackSize : Option Nat
  lim : Limits

/-- `n >= limit`. -/
def reached (limit : Option Nat) (n : Nat) : Bool :=
  match limit with
  | some m => decide (m ≤ n)
  | none => false

/-- Access to stack position `i` panics: beyond the stack vector. The idealised machine without
limit is stricter than the source and rejects every access at or above the stack pointer (see `oobR`). -/
def oob (limit : Option Nat) (sp i : Nat) : Bool :=
  match limit with
  | some m => decide (m ≤ i)
  | none => decide (sp ≤ i)

/-- What stays fixed during a run: configuration, options, builtins, `global_symbols`, the
`VmData` hooks (`builtins/mod.rs:13-18`), and the native recursion depth available to closure
comparison. -/
structure Host (D : Type) where
  cfg : Cfg
  opts : Opts
  builtins : Nat → Option (Builtin D VClos)
  syms : Pool String
  onEnter : D → D
  onExit : D → D
  eqFuel : Nat

/-- The mutable part of `VM`, `interpreter/src/vm.rs:66-90`. `stack` is the fixed-size stack
vector as a function (`opts.stackSize` bounds the valid indices), `frames` has the most recent
frame first, `heap` holds the cells ever created (`hp` many). -/
structure VM (D : Type) where
  data : D
  exitFns : List (ExitFn D)
  blockResults : List VVal
  globals : Nat → Option VVal
  openUps : List Nat
  heap : Nat → Cell
  hp : Nat
  frames : List Frame
  frame : Frame
  stack : Nat → VVal
  sp : Nat

/-- Outcome of one instruction. -/
inductive StepR (D : Type) where
  | next (s : VM D)
  | done (v : VVal) (s : VM D)
  | err (e : Err) (sp : Span) (s : VM D)
  | panic

/-- Function update (array / map write). -/
def upd {α : Type} (f : Nat → α) (i : Nat) (v : α) : Nat → α := fun j => if j = i then v else f j

@[simp] theorem upd_same {α : Type} (f : Nat → α) (i : Nat) (v : α) : upd f i v i = v := by
  simp [upd]
theorem upd_other {α : Type} (f : Nat → α) {i j : Nat} (v : α) (h : j ≠ i) : upd f i v j = f j := by
  simp [upd, h]

/-- Comparison of captured cells, `interpreter/src/value.rs:241-248`; `veq` compares values. -/
def cellsEq (heap : Nat → Cell) (veq : VVal → VVal → Option Bool) : List Nat → List Nat → Option Bool
  | a :: as, b :: bs =>
    match (match heap a, heap b with
      | .opened l, .opened r => some (decide (l = r))
      | .closed l, .closed r => veq l r
      | _, _ => some false) with
    | some true => cellsEq heap veq as bs
    | r => r
  | _, _ => some true

/-- Closure equality `interpreter/src/value.rs:236-250`. The fuel is the native stack; `none`
means that it was exhausted. -/
def closEq (F : FOps) (heap : Nat → Cell) : Nat → VClos → VClos → Option Bool
  | 0, _, _ => none
  | n + 1, a, b =>
    if a.fn ≠ b.fn then some false
    else if a.ups.length ≠ b.ups.length then some false
    else cellsEq heap (Val.eqv F (closEq F heap n)) a.ups b.ups

namespace VM
variable {D : Type}

/-- `VM::error`, `vm.rs:1145-1148`: span at `ip`. -/
def errAt (s : VM D) (e : Err) : StepR D := .err e (s.frame.fn.getSpan s.frame.ip) s

/-- `VM::error_1`, `vm.rs:1151-1159`: span at `ip - 1`. -/
def err1 (s : VM D) (e : Err) : StepR D := .err e (s.frame.fn.getSpan (s.frame.ip - 1)) s

/-- Access beyond the stack vector (`oob`) panics. The idealised machine without limit, which has
no stack overflows of its own, reports such an access as one; so panics stay recognisable. -/
def oobR (H : Host D) (s : VM D) : StepR D :=
  match H.opts.stackSize with
  | some _ => .panic
  | none => s.errAt (.overflow .stackOverflow)

/-- `map_err(|e| self.error_1(e))?` -/
def lift {α : Type} (s : VM D) (r : Res α) (k : α → StepR D) : StepR D :=
  match r with
  | .ok a => k a
  | .err e => s.err1 e
  | .panic => .panic

/-- `push_unchecked`, `vm.rs:1186-1189`. -/
def pushU (s : VM D) (v : VVal) : VM D := { s with stack := upd s.stack s.sp v, sp := s.sp + 1 }

/-- `push`, `vm.rs:1173-1183`. -/
def push (H : Host D) (s : VM D) (v : VVal) : StepR D :=
  if reached H.opts.stackSize s.sp then s.errAt (.overflow .stackOverflow)
  else .next (s.pushU v)

/-- Several pushes, as in `Unpack`. -/
def pushAll (H : Host D) (s : VM D) : List VVal → StepR D
  | [] => .next s
  | v :: vs =>
    match s.push H v with
    | .next s' => pushAll H s' vs
    | r => r

/-- `pop`, `vm.rs:1203-1215`. Underflow is a debug assertion; in release builds the wrapped
index panics in every use but `Pop` itself; it is modelled as a panic throughout. -/
def pop (s : VM D) (k : VVal → VM D → StepR D) : StepR D :=
  if s.sp = 0 then .panic
  else k (s.stack (s.sp - 1)) { s with sp := s.sp - 1 }

/-- `pop_swap_out`, `vm.rs:1230-1241`: pop, leaving `none` in the slot. -/
def popSwapOut (s : VM D) (k : VVal → VM D → StepR D) : StepR D :=
  if s.sp = 0 then .panic
  else k (s.stack (s.sp - 1))
    { s with sp := s.sp - 1, stack := upd s.stack (s.sp - 1) .none }

/-- The top `n` values, topmost first. -/
def topN (s : VM D) (n : Nat) : List VVal := (List.range n).map fun i => s.stack (s.sp - 1 - i)

/-- The stack after `swap`, `vm.rs:1290-1298`. -/
def swapped (s : VM D) : Nat → VVal :=
  upd (upd s.stack (s.sp - 1) (s.stack (s.sp - 2))) (s.sp - 2) (s.stack (s.sp - 1))

/-- `close_upvalues(last)`, `vm.rs:1123-1145`. -/
def closeUp (H : Host D) (s : VM D) (last : Nat) : VM D :=
  if reached H.opts.stackSize last then s
  else
    let heap' := fun c =>
      if c ∈ s.openUps then
        match s.heap c with
        | .opened l => if l = last then Cell.closed (s.stack last) else s.heap c
        | x => x
      else s.heap c
    { s with
      heap := heap'
      openUps := s.openUps.filter fun c => match heap' c with | .opened _ => true | _ => false }

/-- The loop of `Return`, `vm.rs:301-303`: closes `lo, lo+1, ..., lo+n-1`. -/
def closeRange (H : Host D) (s : VM D) (lo : Nat) : Nat → VM D
  | 0 => s
  | n + 1 => closeRange H (s.closeUp H lo) (lo + 1) n

/-- `capture_upvalue`, `vm.rs:1106-1120`. -/
def capture (s : VM D) (loc : Nat) : Nat × VM D :=
  match s.openUps.find? fun c => match s.heap c with | .opened l => l == loc | _ => false with
  | some c => (c, s)
  | none =>
    (s.hp, { s with heap := upd s.heap s.hp (.opened loc), hp := s.hp + 1, openUps := s.openUps ++ [s.hp] })

/-- Cells of a new closure, `vm.rs:664-676`; `none` is an index panic. -/
def captureAll (s : VM D) : List (Nat × Nat) → Option (List Nat × VM D)
  | [] => some ([], s)
  | (l, i) :: us =>
    if l = 1 then
      let (c, s') := s.capture (s.frame.st + i)
      match captureAll s' us with
      | some (cs, s'') => some (c :: cs, s'')
      | none => none
    else
      match s.frame.ups[i]? with
      | some c =>
        match captureAll s us with
        | some (cs, s') => some (c :: cs, s')
        | none => none
      | none => none

/-- Name used in error messages, `vm.rs:386-391`. -/
def symName (H : Host D) (i : Nat) : String := (H.syms.get i).getD "unkown???"

/-- Value equality of the VM. -/
def ceq (H : Host D) (s : VM D) : VClos → VClos → Option Bool := closEq H.cfg.F s.heap H.eqFuel

/-- A builtin call on the top `n` values, `vm.rs:699-713`, `:740-750` (the argument slice is
`stack[sp-n..sp]`, i.e. in source order). -/
def runBuiltin (H : Host D) (s : VM D) (f : BFn D VClos) (n : Nat) (exit : Option (ExitFn D)) : StepR D :=
  if s.sp < n then s.errAt (.overflow .stackUnderflow)
  else
    let args := (s.topN n).reverse
    let s := { s with
      sp := s.sp - n
      exitFns := match exit with | some e => e :: s.exitFns | none => s.exitFns }
    let (r, d) := f s.data args H.opts.lim
    let s := { s with data := d }
    s.lift r fun v => s.push H v

/-- The body of one instruction, `interpreter/src/vm.rs:285-1092`; `s.frame.ip` is already behind
the operands. On an error the stack pointer of the returned state may differ from the source
(`CreateArray` pops its operands one at a time); only `reset` reads it afterwards. -/
def exec (H : Host D) (s : VM D) : Instr → StepR D
  | .halt => s.err1 .halt
  | .loadNone => s.push H .none
  | .loadNoneMany n =>
    let s := { s with sp := s.sp + n }
    if reached H.opts.stackSize s.sp then s.err1 (.overflow .stackOverflow) else .next s
  | .ret =>
    s.pop fun result s =>
      let s := s.closeRange H s.frame.st (s.sp - s.frame.st)
      match s.frames with
      | f :: fs =>
        { s with frames := fs, data := H.onExit s.data, sp := s.frame.st, frame := f }.push H result
      | [] =>
        if H.cfg.chk ∧ s.sp ≠ 0 then .panic
        else .done result { s with sp := s.frame.st }
  | .blockResult => s.popSwapOut fun v s => .next { s with blockResults := v :: s.blockResults }
  | .blockReturn =>
    match s.blockResults with
    | v :: vs => { s with blockResults := vs }.push H v
    | [] => s.errAt (.overflow .stackUnderflow)
  | .pop => s.pop fun _ s => .next s
  | .swap =>
    if s.sp < 2 then .panic
    else .next { s with stack := s.swapped }
  | .swapPop =>
    if s.sp < 2 then .panic
    else .next { s with sp := s.sp - 1, stack := s.swapped }
  | .popMany n => if s.sp < n then .panic else .next { s with sp := s.sp - n }
  | .loadConst i =>
    match s.frame.fn.consts[i]? with
    | some (.lit l) => s.push H l.toVal
    | some (.fn f) => s.push H (.func f)
    | none => .panic
  | .loadLocal i =>
    if oob H.opts.stackSize s.sp (s.frame.st + i) then s.oobR H
    else s.push H (s.stack (s.frame.st + i))
  | .setLocal i =>
    if s.sp = 0 then .panic
    else if oob H.opts.stackSize s.sp (s.frame.st + i) then s.oobR H
    else .next { s with stack := upd s.stack (s.frame.st + i) (s.stack (s.sp - 1)) }
  | .loadGlobal i =>
    match s.globals i with
    | some v => s.push H v
    | none => s.err1 (.name (.undefined (symName H i)))
  | .defineGlobal i => s.pop fun v s => .next { s with globals := upd s.globals i (some v) }
  | .defineGlobalDefaulted i =>
    s.pop fun v s =>
      match s.globals i with
      | some _ => .next s
      | none => .next { s with globals := upd s.globals i (some v) }
  | .setGlobal i =>
    if s.sp = 0 then .panic
    else match s.globals i with
    | some _ => .next { s with globals := upd s.globals i (some (s.stack (s.sp - 1))) }
    | none => s.err1 (.name (.undefined (symName H i)))
  | .setUpvalue i =>
    if s.sp = 0 then .panic
    else match s.frame.ups[i]? with
    | some c =>
      match s.heap c with
      | .opened l =>
        if oob H.opts.stackSize s.sp l then s.oobR H
        else .next { s with stack := upd s.stack l (s.stack (s.sp - 1)) }
      | .closed _ => .next { s with heap := upd s.heap c (.closed (s.stack (s.sp - 1))) }
    | none => .panic
  | .loadUpvalue i =>
    match s.frame.ups[i]? with
    | some c =>
      match s.heap c with
      | .opened l => if oob H.opts.stackSize s.sp l then s.oobR H else s.push H (s.stack l)
      | .closed v => s.push H v
    | none => .panic
  | .indexGet =>
    s.pop fun value s => s.pop fun index s =>
      s.lift (Val.indexGet H.cfg.chk value index) fun v => s.push H v
  | .closeUpvalue =>
    if s.sp = 0 then .panic
    else
      let s := s.closeUp H (s.sp - 1)
      .next { s with sp := s.sp - 1 }
  | .createPair => s.pop fun b s => s.pop fun a s => .next (s.pushU (.pair a b))
  | .createArray n =>
    if s.sp < n then .panic
    else s.lift (Val.mkArray H.opts.lim (s.topN n)) fun v => { s with sp := s.sp - n }.push H v
  | .createRange =>
    s.pop fun b s => s.pop fun a s => s.lift (Val.mkRange a b) fun v => s.push H v
  | .unpack n =>
    s.popSwapOut fun v s => s.lift (Val.unpack v n) fun vs => s.pushAll H vs.reverse
  | .createFunction i =>
    match s.frame.fn.consts[i]? with
    | some (.fn f) => s.push H (.clos ⟨f, []⟩)
    | some (.lit l) => s.errAt (.type (.notCallable (l.toVal : VVal).ntype))
    | none => .panic
  | .createClosure i us =>
    match s.frame.fn.consts[i]? with
    | some (.fn f) =>
      match s.captureAll us with
      | some (cs, s') => s'.push H (.clos ⟨f, cs⟩)
      | none => .panic
    | some (.lit l) => s.errAt (.type (.notCallable (l.toVal : VVal).ntype))
    | none => .panic
  | .exitContext =>
    match s.exitFns with
    | e :: es =>
      let (r, d) := e s.data
      let s := { s with exitFns := es, data := d }
      s.lift r fun _ => .next s
    | [] => .next s
  | .enterContext i n =>
    match H.builtins i with
    | some (.fn f) => s.runBuiltin H f n none
    | some (.ctx f e) => s.runBuiltin H f n (some e)
    | none => s.err1 (.name (.undefinedBuiltin (symName H i)))
  | .callBuiltin i n =>
    match H.builtins i with
    | some (.fn f) => s.runBuiltin H f n none
    | some (.ctx _ _) => s.errAt (.type (.notCallable "context manager"))
    | none => s.err1 (.name (.undefinedBuiltin (symName H i)))
  | .callFunction n =>
    if s.sp < n + 1 then .panic
    else if reached H.opts.callStackSize s.frames.length then s.errAt (.overflow .stackOverflow)
    else
      let go (fn : Func) (ups : List Nat) : StepR D :=
        if n ≠ fn.arity then s.errAt (.type (.mismatchedArity fn.name fn.arity n))
        else .next { s with
          frames := s.frame :: s.frames
          frame := { fn := fn, ups := ups, ip := 0, st := s.sp - n - 1 }
          data := H.onEnter s.data }
      match s.stack (s.sp - n - 1) with
      | .clos c => go c.fn c.ups
      | .func f => go f []
      | v => s.err1 (.type (.notCallable v.ntype))
  | .jumpForward o => .next { s with frame := { s.frame with ip := s.frame.ip + o } }
  | .jumpBackward o =>
    if s.frame.ip < o then .panic
    else .next { s with frame := { s.frame with ip := s.frame.ip - o } }
  | .jumpIfFalse o =>
    if s.sp = 0 then .panic
    else s.lift ((s.stack (s.sp - 1)).isTruthy H.cfg.F) fun b =>
      if b then .next s else .next { s with frame := { s.frame with ip := s.frame.ip + o } }
  | .jumpIfNotEq o =>
    if s.sp < 2 then .panic
    else
      let s := { s with sp := s.sp - 1 }
      match Val.eqv H.cfg.F (s.ceq H) (s.stack (s.sp - 1)) (s.stack s.sp) with
      | some true => .next s
      | some false => .next { s with frame := { s.frame with ip := s.frame.ip + o } }
      | none => .panic
  | .newLoopCtx => s.push H (.loopCtx 0)
  | .iterNext o =>
    if s.sp < 3 then .panic
    else match s.stack (s.sp - 3) with
    | .loopCtx k =>
      let s := { s with stack := upd s.stack (s.sp - 3) (.loopCtx (k + 1)) }
      s.lift (Val.iterItem H.cfg.chk (s.stack (s.sp - 2)) k) fun r =>
        match r with
        | some v => s.push H v
        | none => .next { s with frame := { s.frame with ip := s.frame.ip + o } }
    | _ => s.err1 (.type .failedToIterate)
  | .unary op => s.pop fun a s => s.lift (a.unary H.cfg op) fun v => .next (s.pushU v)
  | .binary op =>
    s.pop fun b s => s.pop fun a s =>
      s.lift (Val.binary H.cfg H.opts.lim (s.ceq H) op a b) fun v => .next (s.pushU v)

/-- One iteration of the loop `vm.rs:260-1094`, without the clock. -/
def step (H : Host D) (s : VM D) : StepR D :=
  if s.frame.fn.ops.length ≤ s.frame.ip then s.errAt (.overflow .instructionOverflow)
  else match decode s.frame.fn.consts (s.frame.fn.ops.drop s.frame.ip) with
  | some (i, n) => { s with frame := { s.frame with ip := s.frame.ip + n } }.exec H i
  | none => .panic

/-- `n` steps, if no step ends the run. -/
def steps (H : Host D) : Nat → VM D → Option (VM D)
  | 0, s => some s
  | n + 1, s =>
    match s.step H with
    | .next s' => steps H n s'
    | _ => none

/-- `VM::errorf`, `vm.rs:1162-1170`. -/
def errF (s : VM D) : Span :=
  if s.frames = [] then s.frame.fn.getSpan s.frame.ip else s.frame.fn.nameSpan

/-- Whether the next instruction is `CallBuiltin`, after which `run` also reads the clock
(`vm.rs:763`). -/
def atBuiltin (s : VM D) : Bool := s.frame.fn.ops[s.frame.ip]? == some 22

/-- `VM::run`, `vm.rs:257-1095`. `clock k` says whether the time limit is exceeded at the
`k`-th moment: moment `2 i` is the head of iteration `i`, moment `2 i + 1` its end. `n` is the
counter of the loop. `none`: still running after `fuel` iterations. -/
def run (H : Host D) (clock : Nat → Bool) : (fuel i n : Nat) → VM D → Option (StepR D)
  | 0, _, _, _ => none
  | fuel + 1, i, n, s =>
    if n > 64 ∧ clock (2 * i) then some (.err .runtimeLimit s.errF s)
    else
      let n' := if n > 64 then 0 else n + 1
      match s.step H with
      | .next s' =>
        if s.atBuiltin ∧ clock (2 * i + 1) then some (.err .runtimeLimit s'.errF s')
        else run H clock fuel (i + 1) n' s'
      | r => some r

end VM

end Quilt
