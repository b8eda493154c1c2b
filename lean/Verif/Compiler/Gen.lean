import Verif.Compiler.Compile

/-!
# A functional code generator

`genNode` produces a list of instructions without back-patching: a jump is emitted once the code it
skips is known. `GenEq.lean` proves that the compiler model of `Compile.lean` writes the bytes of
exactly this code. There is no counterpart in `/repo`.
-/

namespace Quilt

/-- One instruction with the spans of its bytes: all bytes have span `sp` but the last one, which
has `lastSp` (they differ for builtin calls only, `compiler/src/lib.rs:568-572`). -/
structure Piece where
  i : Instr
  sp : Span
  lastSp : Span

abbrev Code := List Piece

namespace Piece

/-- An instruction with a single span. -/
abbrev at' (i : Instr) (sp : Span) : Piece := ⟨i, sp, sp⟩

/-- The spans of the bytes. -/
def spans (p : Piece) : List Span := List.replicate (p.i.enc.length - 1) p.sp ++ [p.lastSp]

end Piece

namespace Code

/-- The bytes. -/
def ops : Code → List UInt8
  | [] => []
  | p :: c => p.i.enc ++ ops c

/-- The span of every byte. -/
def spans : Code → List Span
  | [] => []
  | p :: c => p.spans ++ spans c

/-- Number of bytes. -/
def len (c : Code) : Nat := c.ops.length

@[simp] theorem ops_nil : ops [] = [] := rfl
@[simp] theorem spans_nil : spans [] = [] := rfl
@[simp] theorem len_nil : len [] = 0 := rfl
theorem ops_cons (p : Piece) (c : Code) : ops (p :: c) = p.i.enc ++ ops c := rfl
theorem spans_cons (p : Piece) (c : Code) : spans (p :: c) = p.spans ++ spans c := rfl
@[simp] theorem len_cons (p : Piece) (c : Code) : len (p :: c) = p.i.enc.length + len c := by
  simp [len, ops_cons]

@[simp] theorem ops_append (a b : Code) : ops (a ++ b) = ops a ++ ops b := by
  induction a with
  | nil => rfl
  | cons p a ih => simp [ops_cons, ih]
@[simp] theorem spans_append (a b : Code) : spans (a ++ b) = spans a ++ spans b := by
  induction a with
  | nil => rfl
  | cons p a ih => simp [spans_cons, ih]
@[simp] theorem len_append (a b : Code) : len (a ++ b) = len a + len b := by simp [len]

theorem spans_length (c : Code) : (spans c).length = (ops c).length := by
  induction c with
  | nil => rfl
  | cons p c ih =>
    have := p.i.enc_pos
    simp [spans_cons, ops_cons, Piece.spans, ih]; omega

end Code

/-- Appends code to a chunk. -/
def Chunk.emit (c : Chunk) (code : Code) : Chunk :=
  ⟨c.ops ++ code.ops, code.spans.foldl Rle.push c.spans⟩

/-- Operands that survive truncation, except for the contents of tables. -/
def Instr.small : Instr → Bool
  | popMany n | loadConst n | loadLocal n | setLocal n | defineGlobal n | loadUpvalue n
  | setUpvalue n | loadGlobal n | setGlobal n | defineGlobalDefaulted n | createFunction n
  | jumpIfFalse n | jumpIfNotEq n | jumpForward n | jumpBackward n | iterNext n => n < 65536
  | createArray n | callFunction n | unpack n | loadNoneMany n => n < 256
  | callBuiltin i n | enterContext i n => i < 65536 && n < 256
  | createClosure i us => i < 65536 && us.all fun u => u.1 < 256 && u.2 < 65536
  | unary op => !op.isBinary
  | binary op => op.isBinary
  | _ => true

/-- Result of code generation. `unfit`: a table of some function outgrew its 16-bit indices. -/
inductive GRes (α : Type) where
  | ok (a : α)
  | err (e : Err) (sp : Span)
  | panic
  | unfit

/-- Generators: results, emitted code, name tables. -/
def GM (α : Type) := GState → GRes (α × Code × GState)

namespace GM

def ret {α : Type} (a : α) : GM α := fun g => .ok (a, [], g)

def bind {α β : Type} (x : GM α) (f : α → GM β) : GM β := fun g =>
  match x g with
  | .ok (a, c, g') =>
    match f a g' with
    | .ok (b, c', g'') => .ok (b, c ++ c', g'')
    | .err e sp => .err e sp
    | .panic => .panic
    | .unfit => .unfit
  | .err e sp => .err e sp
  | .panic => .panic
  | .unfit => .unfit

instance : Monad GM where
  pure := ret
  bind := bind

@[simp] theorem bind_app {α β : Type} (x : GM α) (f : α → GM β) (g : GState) :
    (x >>= f) g = match x g with
      | .ok (a, c, g') =>
        match f a g' with
        | .ok (b, c', g'') => .ok (b, c ++ c', g'')
        | .err e sp => .err e sp
        | .panic => .panic
        | .unfit => .unfit
      | .err e sp => .err e sp
      | .panic => .panic
      | .unfit => .unfit := rfl

@[simp] theorem pure_app {α : Type} (a : α) (g : GState) : (pure a : GM α) g = .ok (a, [], g) := rfl

def throw {α : Type} (e : Err) (sp : Span) : GM α := fun _ => .err e sp
def panic {α : Type} : GM α := fun _ => .panic
def emit (c : Code) : GM Unit := fun g => .ok ((), c, g)
def emit1 (i : Instr) (sp : Span) : GM Unit := emit [.at' i sp]
def onG (f : GState → GState) : GM Unit := fun g => .ok ((), [], f g)
def onG' {α : Type} (f : GState → α × GState) : GM α := fun g => .ok ((f g).1, [], (f g).2)
def getG : GM GState := fun g => .ok (g, [], g)

/-- Runs a generator and hands over its code instead of emitting it. -/
def sub (x : GM Unit) : GM Code := fun g =>
  match x g with
  | .ok (_, c, g') => .ok (c, [], g')
  | .err e sp => .err e sp
  | .panic => .panic
  | .unfit => .unfit

/-- The pending `Pop`s of a scope exit. -/
def flush (q : Nat) (sp : Span) : Code :=
  if q ≥ 2 then [.at' (.popMany q) sp] else if q = 1 then [.at' .pop sp] else []

/-- Removal of the locals of a scope, topmost first; `true` = captured. -/
def exitOps (sp : Span) : List Bool → Nat → Code
  | [], q => flush q sp
  | false :: cs, q => exitOps sp cs (q + 1)
  | true :: cs, q => flush q sp ++ [.at' .closeUpvalue sp] ++ exitOps sp cs 0

/-- The code leaving a scope. -/
def exitCode (sp : Span) (caps : List Bool) : Code :=
  if caps = [] then [] else [.at' .blockResult sp] ++ exitOps sp caps 0 ++ [.at' .blockReturn sp]

def exitScope (sp : Span) : GM Unit := fun g =>
  .ok ((), exitCode sp ((g.cur.leaving (g.cur.depth - 1)).map (·.captured)), g.exitScope)

def getVariable (x : String) (sp : Span) : GM Unit := do
  let r ← onG' fun g => g.resolve x
  emit1 r.load sp

def setVariable (x : String) (sp : Span) : GM Unit := do
  let r ← onG' fun g => g.resolve x
  emit1 r.store sp

def defineLocals (names : List String) : GM Unit := onG fun g => g.defineLocals names

def defineGlobal (x : String) (sp : Span) : GM Unit := do
  let i ← onG' fun g => g.addGlobal x
  emit1 (.defineGlobal i) sp

def defineGlobals : List Name → GM Unit
  | [] => pure ()
  | (x, sp) :: ns => do defineGlobal x sp; defineGlobals ns

def isGlobal : GM Bool := fun g => .ok (decide (g.cur.depth = 0), [], g)

/-- The function made of finished code. -/
def mkFunc (name : Name) (arity : Nat) (l : GLevel) (c : Code) : Func :=
  CM.finish l ⟨name.1, name.2, arity, Chunk.empty.emit c⟩

/-- Instruction creating the function value. -/
def closInstr (i : Nat) (ups : List Upv) : Instr :=
  if ups = [] then .createFunction i
  else .createClosure i (ups.map fun u => ((if u.isLocal then 1 else 0), u.idx))

/-- No table of the function outgrew 16 bits. -/
def fnFits (l : GLevel) (c : Code) : Bool :=
  c.all (·.i.small) && l.constPool.entries.length ≤ 65536 && l.upvalues.length < 65536

/-- A function value: a new level, its body, and the instruction in the enclosing level. -/
def func (strict : Bool) (name : Name) (params : List Name) (sp : Span) (body : GM Span) : GM Unit :=
  fun g =>
    match body (g.enterFn name.1 (params.map Prod.fst)) with
    | .ok (_, c, g1) =>
      match g1.encl with
      | [] => .panic
      | l :: ls =>
        if strict && !fnFits g1.cur c then .unfit
        else
          let r := ({ g1 with cur := l, encl := ls } : GState).addConst
            (.fn (mkFunc name params.length g1.cur c))
          .ok ((), [.at' (closInstr r.1 g1.cur.upvalues) sp], r.2)
    | .err e sp => .err e sp
    | .panic => .panic
    | .unfit => .unfit

/-- A scope around statements: `compile_block`. -/
def inScope (body : GM Span) : GM Unit := do
  onG GState.enterScope
  let s ← body
  exitScope s

/-- The variable of a context. -/
def ctxVar (sp csp : Span) : Option Var → GM Unit
  | some (.one (y, ysp)) => do
    defineLocals [y]
    setVariable y ysp
  | some (.many names) =>
    if names.length > 255 then throw (.overflow .tooMuchToUnpack) csp
    else do
      emit1 (.unpack names.length) sp
      defineLocals (names.map Prod.fst).reverse
  | none => emit1 .pop sp

/-- The variables of a declaration. -/
def declVar (sp : Span) : Var → GM Unit
  | .one (x, xsp) => do
    if ← isGlobal then defineGlobal x xsp
    else
      defineLocals [x]
      setVariable x xsp
  | .many names => do
    if names.length > 255 then throw (.overflow .tooMuchToUnpack) sp
    else
      emit1 (.unpack names.length) sp
      if ← isGlobal then defineGlobals names
      else defineLocals (names.map Prod.fst).reverse

/-- Cases and default of a switch put together: every case jumps over what follows. -/
def assemble : List (Code × Span) → Code → Code
  | [], d => d
  | (c, sp) :: ps, d => c ++ [.at' (.jumpForward (assemble ps d).len) sp] ++ assemble ps d

end GM

open GM in
/-- An expression in a mode. -/
def gexprIn (m : Mode) (sp : Span) (act : GM Unit) : GM Unit := do
  act
  if m = .stmt true then emit1 .pop sp

open GM in
/-- A statement in a mode. -/
def gstmtIn (m : Mode) (sp : Span) (act : GM Unit) : GM Unit :=
  match m with
  | .expr => throw (.syntax .statementAsExpression) sp
  | .stmt _ => act

open GM in
mutual
/-- Code of a node. -/
def genNode (cfg : Cfg) (strict : Bool) (m : Mode) : Node → GM Unit
  | .ret sp e => gstmtIn m sp do
    let g ← getG
    if g.cur.depth = 0 then throw (.syntax .returnOutsideFunction) sp
    else
      genOpt cfg strict sp e
      emit1 .ret sp
  | .func sp name params body => gstmtIn m sp do
    if params.length > 255 then throw (.overflow .tooManyParams) sp
    else
      GM.func strict name params sp (genStmts cfg strict body)
      if ← isGlobal then defineGlobal name.1 sp
      else
        defineLocals [name.1]
        setVariable name.1 sp
  | .decl sp v e => gstmtIn m sp do
    genNode cfg strict .expr e
    declVar sp v
  | .extern sp (x, xsp) e => gstmtIn m sp do
    genNode cfg strict .expr e
    if !(← isGlobal) then throw (.name (.externalNotGlobal x)) xsp
    else
      let i ← onG' fun g => g.addGlobal x
      let g ← getG
      if i ∈ g.externals then throw (.name (.externalRedefined x)) xsp
      else
        onG fun g => { g with externals := i :: g.externals }
        emit1 (.defineGlobalDefaulted i) xsp
  | .include sp (x, xsp) body => gstmtIn m sp do
    let g ← getG
    if g.cur.depth > 0 then throw (.include .includeNotTopLevel) xsp
    else genIncl cfg strict x xsp body
  | .lit sp l => gexprIn m sp do
    match l with
    | .none => emit1 .loadNone sp
    | l =>
      let i ← onG' fun g => g.addConst (.lit l)
      emit1 (.loadConst i) sp
  | .pair sp a b => gexprIn m sp do
    genNode cfg strict .expr a
    genNode cfg strict .expr b
    emit1 .createPair sp
  | .array sp items => gexprIn m sp do
    if items.length > 255 then throw (.overflow .tooManyItems) sp
    else
      genRev cfg strict items
      emit1 (.createArray items.length) sp
  | .range sp a b => gexprIn m sp do
    genNode cfg strict .expr a
    genNode cfg strict .expr b
    emit1 .createRange sp
  | .ident sp x => gexprIn m sp do getVariable x sp
  | .block sp body => gexprIn m sp do inScope (genStmts cfg strict body)
  | .assign sp (x, xsp) e => gexprIn m sp do
    genNode cfg strict .expr e
    setVariable x xsp
  | .call sp f args => gexprIn m sp do
    if args.length > 255 then throw (.overflow .tooManyArgs) sp
    else
      genNode cfg strict .expr f
      genArgs cfg strict args
      emit1 (.callFunction args.length) sp
  | .index sp e i => gexprIn m sp do
    genNode cfg strict .expr i
    genNode cfg strict .expr e
    emit1 .indexGet sp
  | .builtin sp x args => gexprIn m sp do
    if args.length > 255 then throw (.overflow .tooManyArgs) sp
    else
      genArgs cfg strict args
      let i ← onG' fun g => g.addGlobal x.1
      emit [⟨.callBuiltin i args.length, sp, x.2⟩]
  | .ctx sp x args v body => gexprIn m sp do
    if args.length > 255 then throw (.overflow .tooManyArgs) sp
    else
      genArgs cfg strict args
      let i ← onG' fun g => g.addGlobal x.1
      emit [⟨.enterContext i args.length, sp, x.2⟩]
      onG GState.enterScope
      ctxVar sp x.2 v
      let _ ← genStmts cfg strict body
      exitScope sp
      emit1 .exitContext sp
  | .cond sp c th el => gexprIn m sp do
    emit1 .loadNone sp
    genNode cfg strict .expr c
    let a ← sub (inScope (genStmts cfg strict th))
    if a.len + 6 > 65535 then throw (.overflow .jumpTooLarge) sp
    else
      let b ← sub (genElse cfg strict sp el)
      if b.len > 65535 then throw (.overflow .jumpTooLarge) sp
      else
        emit ([.at' (.jumpIfFalse (a.len + 6)) sp, .at' (.popMany 2) sp] ++ a
          ++ [.at' (.jumpForward b.len) sp] ++ b)
  | .switch sp v cases dflt => gexprIn m sp do
    emit1 .loadNone sp
    genNode cfg strict .expr v
    let ps ← genCases cfg strict cases
    let d ← sub (genElse cfg strict sp dflt)
    if ps ≠ [] ∧ (assemble ps.tail d).len > 65535 then throw (.overflow .jumpTooLarge) sp
    else emit (assemble ps d)
  | .while sp c body => gexprIn m sp do
    emit1 .loadNone sp
    let cc ← sub (genNode cfg strict .expr c)
    let b ← sub (inScope (genStmts cfg strict body))
    if cc.len + b.len + 9 > 65535 then throw (.overflow .jumpTooLarge) c.span
    else
      emit (cc ++ [.at' (.jumpIfFalse (b.len + 6)) sp, .at' (.popMany 2) c.span] ++ b
        ++ [.at' (.jumpBackward (cc.len + b.len + 9)) c.span, .at' .pop c.span])
  | .forIn sp (x, xsp) it body => gexprIn m sp do
    onG GState.enterScope
    onG GState.reserveTemp
    onG GState.reserveTemp
    emit1 .newLoopCtx sp
    genNode cfg strict .expr it
    onG GState.enterScope
    emit1 .loadNone sp
    let b ← sub do
      emit1 .swapPop sp
      defineLocals [x]
      let _ ← genStmts cfg strict body
      exitScope sp
    if b.len + 6 > 65535 then throw (.overflow .jumpTooLarge) xsp
    else
      emit ([.at' (.iterNext (b.len + 3)) sp] ++ b ++ [.at' (.jumpBackward (b.len + 6)) xsp])
      exitScope sp
  | .forMulti sp xs it body => gexprIn m sp do
    onG GState.enterScope
    if xs.length > 255 then throw (.overflow .tooMuchToUnpack) sp
    else
      onG GState.reserveTemp
      onG GState.reserveTemp
      emit1 .newLoopCtx sp
      genNode cfg strict .expr it
      onG GState.enterScope
      emit1 .loadNone sp
      let b ← sub do
        emit1 .swapPop sp
        emit1 (.unpack xs.length) it.span
        defineLocals (xs.map Prod.fst).reverse
        let _ ← genStmts cfg strict body
        exitScope sp
      if b.len + 6 > 65535 then throw (.overflow .jumpTooLarge) sp
      else
        emit ([.at' (.iterNext (b.len + 3)) sp] ++ b ++ [.at' (.jumpBackward (b.len + 6)) sp])
        exitScope sp
  | .lambda sp params body => gexprIn m sp do
    if params.length > 255 then throw (.overflow .tooManyParams) sp
    else GM.func strict ("@__lambda__", sp) params sp (genStmts cfg strict body)
  | .bin sp op a b => gexprIn m sp do
    genNode cfg strict .expr a
    genNode cfg strict .expr b
    if op.isUnary then panic else emit1 (.binary op) sp
  | .un sp op e => gexprIn m sp do
    match foldUnary cfg op e with
    | some (.ok l) =>
      let i ← onG' fun g => g.addConst (.lit l)
      emit1 (.loadConst i) sp
    | some _ => panic
    | none =>
      genNode cfg strict .expr e
      if op.isUnary then emit1 (.unary op) sp else panic
termination_by structural n => n
/-- Code of a statement list; yields the span of the last statement. -/
def genStmts (cfg : Cfg) (strict : Bool) : List Node → GM Span
  | [] => pure Span.default
  | [n] => do
    genNode cfg strict (.stmt false) n
    return n.span
  | n :: n' :: ns => do
    genNode cfg strict (.stmt true) n
    genStmts cfg strict (n' :: ns)
termination_by structural n => n
/-- Body of an include. -/
def genEach (cfg : Cfg) (strict : Bool) : List Node → GM Unit
  | [] => pure ()
  | n :: ns => do
    genNode cfg strict (.stmt true) n
    genEach cfg strict ns
termination_by structural n => n
/-- Arguments. -/
def genArgs (cfg : Cfg) (strict : Bool) : List Node → GM Unit
  | [] => pure ()
  | n :: ns => do
    genNode cfg strict .expr n
    genArgs cfg strict ns
termination_by structural n => n
/-- Array items, last one first. -/
def genRev (cfg : Cfg) (strict : Bool) : List Node → GM Unit
  | [] => pure ()
  | n :: ns => do
    genRev cfg strict ns
    genNode cfg strict .expr n
termination_by structural n => n
/-- Cases of a switch, each without the jump to the end. -/
def genCases (cfg : Cfg) (strict : Bool) : List (Node × List Node) → GM (List (Code × Span))
  | [] => pure []
  | (c, body) :: cs => do
    let cc ← sub (genNode cfg strict .expr c)
    let b ← sub (inScope (genStmts cfg strict body))
    if b.len + 6 > 65535 then throw (.overflow .jumpTooLarge) c.span
    else
      let ps ← genCases cfg strict cs
      return ((cc ++ [.at' (.jumpIfNotEq (b.len + 6)) c.span, .at' (.popMany 2) c.span] ++ b, c.span) :: ps)
termination_by structural n => n
/-- `else` part of a conditional, default of a switch. -/
def genElse (cfg : Cfg) (strict : Bool) (sp : Span) : Option (List Node) → GM Unit
  | some body => do
    emit1 (.popMany 2) sp
    inScope (genStmts cfg strict body)
  | none => emit1 .pop sp
termination_by structural n => n
/-- Returned expression. -/
def genOpt (cfg : Cfg) (strict : Bool) (sp : Span) : Option Node → GM Unit
  | some e => genNode cfg strict .expr e
  | none => emit1 .loadNone sp
termination_by structural n => n
/-- Included program. -/
def genIncl (cfg : Cfg) (strict : Bool) (x : String) (xsp : Span) : Option (List Node) → GM Unit
  | some body => genEach cfg strict body
  | none => throw (.include (.unresolvedInclude x)) xsp
termination_by structural n => n
end

end Quilt
