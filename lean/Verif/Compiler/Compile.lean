import Verif.Compiler.State
import Verif.Vm.Api

/-!
# The compiler: `compiler/src/lib.rs`, function by function, with back-patching
-/

namespace Quilt

/-- The part of `Level` (`lib.rs:1037-1047`) holding the function under construction. -/
structure Head where
  name : String
  span : Span
  arity : Nat
  chunk : Chunk

/-- `Compiler`, `lib.rs:18-22`. `heads` runs parallel to `g.encl`. -/
structure CState where
  g : GState
  head : Head
  heads : List Head

/-- Result of a compiler function. -/
inductive COut (α : Type) where
  | ok (a : α)
  | err (e : Err) (sp : Span)
  | panic

/-- Compiler functions: `&mut self` methods returning `Result<_, ErrorS>`. The state is kept on
failure (REPL sessions observe it). -/
def CM (α : Type) := CState → COut α × CState

namespace CM

def ret {α : Type} (a : α) : CM α := fun s => (.ok a, s)

def bind {α β : Type} (x : CM α) (f : α → CM β) : CM β := fun s =>
  match x s with
  | (.ok a, s') => f a s'
  | (.err e sp, s') => (.err e sp, s')
  | (.panic, s') => (.panic, s')

instance : Monad CM where
  pure := ret
  bind := bind

def throw {α : Type} (e : Err) (sp : Span) : CM α := fun s => (.err e sp, s)
def panic {α : Type} : CM α := fun s => (.panic, s)

/-- Change of the name tables. -/
def onG (f : GState → GState) : CM Unit := fun s => (.ok (), { s with g := f s.g })

/-- Change of the name tables with a result. -/
def onG' {α : Type} (f : GState → α × GState) : CM α := fun s => (.ok (f s.g).1, { s with g := (f s.g).2 })

def getG : CM GState := fun s => (.ok s.g, s)

/-- Change of the current chunk. -/
def onChunk (f : Chunk → Chunk) : CM Unit := fun s =>
  (.ok (), { s with head := { s.head with chunk := f s.head.chunk } })

/-- `chunk.len()`. -/
def len : CM Nat := fun s => (.ok s.head.chunk.ops.length, s)

/-- `write_op`/`write_u8`, `lib.rs:60-67`. -/
def writeU8 (b : UInt8) (sp : Span) : CM Unit := onChunk fun c => c.writeU8 b sp

/-- `write_u16`, `lib.rs:70-72`. -/
def writeU16 (v : Nat) (sp : Span) : CM Unit := onChunk fun c => c.writeU16 v sp

/-- `write_op_u8`, `lib.rs:88-91`. -/
def writeOpU8 (op : UInt8) (b : Nat) (sp : Span) : CM Unit := do
  writeU8 op sp
  writeU8 (UInt8.ofNat b) sp

/-- `write_op_u16`, `lib.rs:94-97`. -/
def writeOpU16 (op : UInt8) (v : Nat) (sp : Span) : CM Unit := do
  writeU8 op sp
  writeU16 v sp

/-- `write_jump`, `lib.rs:100-103`. -/
def writeJump (op : UInt8) (sp : Span) : CM Nat := do
  writeOpU16 op 0 sp
  let n ← len
  return n - 2

/-- `write_jump_backward`, `lib.rs:106-113`. -/
def writeJumpBackward (start : Nat) (sp : Span) : CM Unit := do
  let n ← len
  let jump := n + 3 - start
  if jump > 65535 then throw (.overflow .jumpTooLarge) sp
  else writeOpU16 30 jump sp

/-- `patch_u16`, `lib.rs:83-85`. -/
def patchU16 (offset v : Nat) : CM Unit := fun s =>
  match s.head.chunk.patchU16 offset v with
  | .ok c => (.ok (), { s with head := { s.head with chunk := c } })
  | _ => (.panic, s)

/-- `patch_jump`, `lib.rs:116-123`. -/
def patchJump (offset : Nat) (sp : Span) : CM Unit := do
  let n ← len
  let jump := n - 2 - offset
  if jump > 65535 then throw (.overflow .jumpTooLarge) sp
  else patchU16 offset jump

/-- Patches a list of jumps, `lib.rs:718-720`. -/
def patchJumps (sp : Span) : List Nat → CM Unit
  | [] => pure ()
  | j :: js => do patchJump j sp; patchJumps sp js

/-- The pending `Pop`s, `lib.rs:196-200`, `:207-211`. The counter is a `u16` in the source; more
than 65535 variables leaving one scope are not modelled. -/
def flushPops (q : Nat) (sp : Span) : CM Unit :=
  if q ≥ 2 then writeOpU16 3 q sp
  else if q = 1 then writeU8 2 sp
  else pure ()

/-- The loop `lib.rs:191-205` and the final flush; `true` = captured. -/
def writePops (sp : Span) : List Bool → Nat → CM Unit
  | [], q => flushPops q sp
  | false :: cs, q => writePops sp cs (q + 1)
  | true :: cs, q => do
    flushPops q sp
    writeU8 15 sp
    writePops sp cs 0

/-- `exit_scope`, `lib.rs:168-215`. -/
def exitScope (sp : Span) : CM Unit := do
  let g ← getG
  let out := g.cur.leaving (g.cur.depth - 1)
  onG GState.exitScope
  if out ≠ [] then
    writeU8 25 sp
    writePops sp (out.map (·.captured)) 0
    writeU8 26 sp

/-- `get_variable`, `lib.rs:962-971`. -/
def getVariable (x : String) (sp : Span) : CM Unit := do
  match ← onG' fun g => g.resolve x with
  | .loc i => writeOpU16 7 i sp
  | .up i => writeOpU16 10 i sp
  | .glob i => writeOpU16 12 i sp

/-- `set_variable`, `lib.rs:973-982`. -/
def setVariable (x : String) (sp : Span) : CM Unit := do
  match ← onG' fun g => g.resolve x with
  | .loc i => writeOpU16 8 i sp
  | .up i => writeOpU16 11 i sp
  | .glob i => writeOpU16 13 i sp

/-- `define_local` over several names, in order. -/
def defineLocals (names : List String) : CM Unit := onG fun g => g.defineLocals names

/-- `enter_level` with a new level, `enter_scope`, and the parameters' `define_local`. -/
def enterFn (name : Name) (params : List Name) : CM Unit := fun s =>
  (.ok (), { s with
    g := s.g.enterFn name.1 (params.map Prod.fst)
    head := { name := name.1, span := name.2, arity := params.length, chunk := Chunk.empty }
    heads := s.head :: s.heads })

/-- `Level::finish`, `lib.rs:1050-1062`. -/
def finish (l : GLevel) (h : Head) : Func :=
  let c := if l.depth = 0 then h.chunk.writeU8 1 h.chunk.lastSpan else h.chunk
  .mk h.name h.span h.arity (l.upvalues.length % 65536) c.ops c.spans l.constPool.entries l.symPool.entries

/-- `exit_level`, `lib.rs:157-161`. -/
def exitFn : CM (Func × List Upv) := fun s =>
  match s.g.encl, s.heads with
  | l :: ls, h :: hs =>
    (.ok (finish s.g.cur s.head, s.g.cur.upvalues), { g := { s.g with cur := l, encl := ls }, head := h, heads := hs })
  | _, _ => (.panic, s)

/-- The captured variables after `CreateClosure`, `lib.rs:356-359`. -/
def writeUps (sp : Span) : List Upv → CM Unit
  | [] => pure ()
  | u :: us => do
    writeU8 (if u.isLocal then 1 else 0) sp
    writeU16 u.idx sp
    writeUps sp us

/-- After the body of a function: `lib.rs:350-362`, `:874-886`. -/
def closeFn (sp : Span) : CM Unit := do
  let (f, ups) ← exitFn
  let i ← onG' fun g => g.addConst (.fn f)
  if ups.length > 0 then
    writeOpU16 17 i sp
    writeUps sp ups
  else writeOpU16 16 i sp

/-- `add_global_symbol` and one instruction, e.g. `lib.rs:366-367`. -/
def defineGlobal (op : UInt8) (x : String) (sp : Span) : CM Unit := do
  let i ← onG' fun g => g.addGlobal x
  writeOpU16 op i sp

/-- Global definitions of several names, `lib.rs:396-399`. -/
def defineGlobals : List Name → CM Unit
  | [] => pure ()
  | (x, sp) :: ns => do defineGlobal 9 x sp; defineGlobals ns

/-- A builtin or context call after its arguments, `lib.rs:568-572`, `:591-595`. -/
def writeBuiltin (op : UInt8) (x : Name) (argc : Nat) (sp : Span) : CM Unit := do
  writeU8 op sp
  let i ← onG' fun g => g.addGlobal x.1
  writeU16 i sp
  writeU8 (UInt8.ofNat argc) x.2

/-- `self.is_global()`. -/
def isGlobal : CM Bool := fun s => (.ok (decide (s.g.cur.depth = 0)), s)

/-- `compile_block`, `lib.rs:288-293`, around the statements. -/
def inScope (body : CM Span) : CM Unit := do
  onG GState.enterScope
  let s ← body
  exitScope s

/-- The code between a test and the alternative, `lib.rs:648-658` and `:691-702`: jump to the
alternative, body, jump to the end; yields the position of the latter. -/
def thenPart (op : UInt8) (sp : Span) (body : CM Unit) : CM Nat := do
  let elseJump ← writeJump op sp
  writeOpU16 3 2 sp
  body
  let endJump ← writeJump 29 sp
  patchJump elseJump sp
  return endJump

/-- The variable of a context, `lib.rs:607-628`. -/
def ctxVar (sp csp : Span) : Option Var → CM Unit
  | some (.one (y, ysp)) => do
    defineLocals [y]
    setVariable y ysp
  | some (.many names) =>
    if names.length > 255 then throw (.overflow .tooMuchToUnpack) csp
    else do
      writeOpU8 31 names.length sp
      defineLocals (names.map Prod.fst).reverse
  | none => writeU8 2 sp

/-- The variables of a declaration, `lib.rs:377-406`. -/
def declVar (sp : Span) : Var → CM Unit
  | .one (x, xsp) => do
    if ← isGlobal then defineGlobal 9 x xsp
    else
      defineLocals [x]
      setVariable x xsp
  | .many names => do
    if names.length > 255 then throw (.overflow .tooMuchToUnpack) sp
    else
      writeOpU8 31 names.length sp
      if ← isGlobal then defineGlobals names
      else defineLocals (names.map Prod.fst).reverse

end CM

/-- How a node is compiled: `compile_expr`, or `compile_stmnt` with its `pop_last` flag. -/
inductive Mode where
  | expr
  | stmt (pop : Bool)
  deriving DecidableEq, Repr

open CM in
/-- The last part of `compile_stmnt` (`lib.rs:466-471`) around an expression. -/
def exprIn (m : Mode) (sp : Span) (act : CM Unit) : CM Unit := do
  act
  if m = .stmt true then writeU8 2 sp

open CM in
/-- Statements reached through `compile_expr` are rejected, `lib.rs:954-956`. -/
def stmtIn (m : Mode) (sp : Span) (act : CM Unit) : CM Unit :=
  match m with
  | .expr => throw (.syntax .statementAsExpression) sp
  | .stmt _ => act

open CM in
mutual
/-- `compile_stmnt` (`lib.rs:295-475`) and `compile_expr` (`lib.rs:477-960`) in one function. -/
def compileNode (cfg : Cfg) (m : Mode) : Node → CM Unit
  -- lib.rs:299-311
  | .ret sp e => stmtIn m sp do
    let g ← getG
    if g.cur.depth = 0 then throw (.syntax .returnOutsideFunction) sp
    else
      compileOpt cfg sp e
      writeU8 1 sp
  -- lib.rs:312-372
  | .func sp name params body => stmtIn m sp do
    if params.length > 255 then throw (.overflow .tooManyParams) sp
    else
      enterFn name params
      let _ ← compileStmts cfg body
      closeFn sp
      if ← isGlobal then defineGlobal 9 name.1 sp
      else
        defineLocals [name.1]
        setVariable name.1 sp
  -- lib.rs:374-407
  | .decl sp v e => stmtIn m sp do
    compileNode cfg .expr e
    declVar sp v
  -- lib.rs:409-423
  | .extern sp (x, xsp) e => stmtIn m sp do
    compileNode cfg .expr e
    if !(← isGlobal) then throw (.name (.externalNotGlobal x)) xsp
    else
      let i ← onG' fun g => g.addGlobal x
      let g ← getG
      if i ∈ g.externals then throw (.name (.externalRedefined x)) xsp
      else
        onG fun g => { g with externals := i :: g.externals }
        writeOpU16 14 i xsp
  -- lib.rs:446-464
  | .include sp (x, xsp) body => stmtIn m sp do
    let g ← getG
    if g.cur.depth > 0 then throw (.include .includeNotTopLevel) xsp
    else compileIncl cfg x xsp body
  -- lib.rs:479-487
  | .lit sp l => exprIn m sp do
    match l with
    | .none => writeU8 32 sp
    | l =>
      let i ← onG' fun g => g.addConst (.lit l)
      writeOpU16 6 i sp
  -- lib.rs:488-493
  | .pair sp a b => exprIn m sp do
    compileNode cfg .expr a
    compileNode cfg .expr b
    writeU8 18 sp
  -- lib.rs:495-507
  | .array sp items => exprIn m sp do
    if items.length > 255 then throw (.overflow .tooManyItems) sp
    else
      compileRev cfg items
      writeOpU8 19 items.length sp
  -- lib.rs:509-513
  | .range sp a b => exprIn m sp do
    compileNode cfg .expr a
    compileNode cfg .expr b
    writeU8 20 sp
  -- lib.rs:515-517
  | .ident sp x => exprIn m sp do getVariable x sp
  -- lib.rs:519-521
  | .block sp body => exprIn m sp do inScope (compileStmts cfg body)
  -- lib.rs:523-526
  | .assign sp (x, xsp) e => exprIn m sp do
    compileNode cfg .expr e
    setVariable x xsp
  -- lib.rs:528-544
  | .call sp f args => exprIn m sp do
    if args.length > 255 then throw (.overflow .tooManyArgs) sp
    else
      compileNode cfg .expr f
      compileArgs cfg args
      writeOpU8 21 args.length sp
  -- lib.rs:546-550
  | .index sp e i => exprIn m sp do
    compileNode cfg .expr i
    compileNode cfg .expr e
    writeU8 36 sp
  -- lib.rs:558-574
  | .builtin sp x args => exprIn m sp do
    if args.length > 255 then throw (.overflow .tooManyArgs) sp
    else
      compileArgs cfg args
      writeBuiltin 22 x args.length sp
  -- lib.rs:576-635
  | .ctx sp x args v body => exprIn m sp do
    if args.length > 255 then throw (.overflow .tooManyArgs) sp
    else
      compileArgs cfg args
      writeBuiltin 23 x args.length sp
      onG GState.enterScope
      ctxVar sp x.2 v
      let _ ← compileStmts cfg body
      exitScope sp
      writeU8 24 sp
  -- lib.rs:637-672
  | .cond sp c th el => exprIn m sp do
    writeU8 32 sp
    compileNode cfg .expr c
    let endJump ← thenPart 27 sp (inScope (compileStmts cfg th))
    compileElse cfg sp el
    patchJump endJump sp
  -- lib.rs:674-721
  | .switch sp v cases dflt => exprIn m sp do
    writeU8 32 sp
    compileNode cfg .expr v
    let jumps ← compileCases cfg cases
    compileElse cfg sp dflt
    patchJumps sp jumps
  -- lib.rs:723-747
  | .while sp c body => exprIn m sp do
    writeU8 32 sp
    let start ← len
    compileNode cfg .expr c
    let exit ← writeJump 27 sp
    writeOpU16 3 2 c.span
    inScope (compileStmts cfg body)
    writeJumpBackward start c.span
    patchJump exit sp
    writeU8 2 c.span
  -- lib.rs:749-786
  | .forIn sp (x, xsp) it body => exprIn m sp do
    onG GState.enterScope
    onG GState.reserveTemp
    onG GState.reserveTemp
    writeU8 34 sp
    compileNode cfg .expr it
    onG GState.enterScope
    writeU8 32 sp
    let start ← len
    let exit ← writeJump 35 sp
    writeU8 5 sp
    defineLocals [x]
    let _ ← compileStmts cfg body
    exitScope sp
    writeJumpBackward start xsp
    patchJump exit xsp
    exitScope sp
  -- lib.rs:788-838
  | .forMulti sp xs it body => exprIn m sp do
    onG GState.enterScope
    if xs.length > 255 then throw (.overflow .tooMuchToUnpack) sp
    else
      onG GState.reserveTemp
      onG GState.reserveTemp
      writeU8 34 sp
      compileNode cfg .expr it
      onG GState.enterScope
      writeU8 32 sp
      let start ← len
      let exit ← writeJump 35 sp
      writeU8 5 sp
      writeOpU8 31 xs.length it.span
      defineLocals (xs.map Prod.fst).reverse
      let _ ← compileStmts cfg body
      exitScope sp
      writeJumpBackward start sp
      patchJump exit sp
      exitScope sp
  -- lib.rs:840-887
  | .lambda sp params body => exprIn m sp do
    if params.length > 255 then throw (.overflow .tooManyParams) sp
    else
      enterFn ("@__lambda__", sp) params
      let _ ← compileStmts cfg body
      closeFn sp
  -- lib.rs:889-920
  | .bin sp op a b => exprIn m sp do
    compileNode cfg .expr a
    compileNode cfg .expr b
    if op.isUnary then panic else writeU8 (opCode op) sp
  -- lib.rs:922-952
  | .un sp op e => exprIn m sp do
    match foldUnary cfg op e with
    | some (.ok l) =>
      let i ← onG' fun g => g.addConst (.lit l)
      writeOpU16 6 i sp
    | some _ => panic
    | none =>
      compileNode cfg .expr e
      if op.isUnary then writeU8 (opCode op) sp else panic
termination_by structural n => n
/-- `compile_stmnts`, `lib.rs:265-286`. -/
def compileStmts (cfg : Cfg) : List Node → CM Span
  | [] => pure Span.default
  | [n] => do
    compileNode cfg (.stmt false) n
    return n.span
  | n :: n' :: ns => do
    compileNode cfg (.stmt true) n
    compileStmts cfg (n' :: ns)
termination_by structural n => n
/-- Body of an include, `lib.rs:453-455`. -/
def compileEach (cfg : Cfg) : List Node → CM Unit
  | [] => pure ()
  | n :: ns => do
    compileNode cfg (.stmt true) n
    compileEach cfg ns
termination_by structural n => n
/-- Arguments in order, e.g. `lib.rs:538-540`. -/
def compileArgs (cfg : Cfg) : List Node → CM Unit
  | [] => pure ()
  | n :: ns => do
    compileNode cfg .expr n
    compileArgs cfg ns
termination_by structural n => n
/-- Array items in reverse, `lib.rs:502-504`. -/
def compileRev (cfg : Cfg) : List Node → CM Unit
  | [] => pure ()
  | n :: ns => do
    compileRev cfg ns
    compileNode cfg .expr n
termination_by structural n => n
/-- Cases of a switch, `lib.rs:686-705`; yields the jumps to the end. -/
def compileCases (cfg : Cfg) : List (Node × List Node) → CM (List Nat)
  | [] => pure []
  | (c, body) :: cs => do
    compileNode cfg .expr c
    let endJump ← thenPart 28 c.span (inScope (compileStmts cfg body))
    let js ← compileCases cfg cs
    return endJump :: js
termination_by structural n => n
/-- `else` part (`lib.rs:660-669`), default of a switch (`lib.rs:707-716`). -/
def compileElse (cfg : Cfg) (sp : Span) : Option (List Node) → CM Unit
  | some body => do
    writeOpU16 3 2 sp
    inScope (compileStmts cfg body)
  | none => writeU8 2 sp
termination_by structural n => n
/-- Returned expression, `lib.rs:304-308`. -/
def compileOpt (cfg : Cfg) (sp : Span) : Option Node → CM Unit
  | some e => compileNode cfg .expr e
  | none => writeU8 32 sp
termination_by structural n => n
/-- Included program, `lib.rs:451-463`. -/
def compileIncl (cfg : Cfg) (x : String) (xsp : Span) : Option (List Node) → CM Unit
  | some body => compileEach cfg body
  | none => throw (.include (.unresolvedInclude x)) xsp
termination_by structural n => n
end

/-- `Compiler::new`, `lib.rs:25-45`. -/
def CState.new (name : String) : CState where
  g := { cur := { locals := [], upvalues := [], depth := 0, symPool := Pool.empty, constPool := Pool.empty },
         encl := [], globals := Pool.empty, externals := [] }
  head := { name := name, span := Span.default, arity := 0, chunk := Chunk.empty }
  heads := []

/-- `set_main_span`, `lib.rs:259-263`. -/
def CState.setMainSpan (s : CState) (ast : List Node) : CState :=
  match ast with
  | n :: _ => { s with head := { s.head with span := n.span } }
  | [] => s

/-- `take_as_script`/`clone_as_script`, `lib.rs:224-238`. -/
def CState.script (s : CState) : Script where
  externals := s.g.externals
  syms := s.g.globals
  fn := CM.finish s.g.cur s.head

/-- `reset_state`, `lib.rs:240-258`. -/
def CState.reset (s : CState) (name : String) : CState :=
  { g := { cur := { locals := [], upvalues := [], depth := 0, symPool := s.g.cur.symPool, constPool := s.g.cur.constPool },
           encl := [], globals := s.g.globals, externals := s.g.externals }
    head := { name := name, span := Span.default, arity := 0, chunk := Chunk.empty }
    heads := [] }

/-- `Compiler::compile`, `lib.rs:217-222`. -/
def compile (cfg : Cfg) (ast : List Node) : COut Script :=
  match compileStmts cfg ast ((CState.new "@__main__").setMainSpan ast) with
  | (.ok _, s) => .ok s.script
  | (.err e sp, _) => .err e sp
  | (.panic, _) => .panic

end Quilt
