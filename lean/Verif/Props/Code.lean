import Verif.DisasmLemmas
import Verif.Compiler.Accept
import Verif.Props.Correct

/-!
# Properties of compiled code: C26 (jumps), C43 (disassembly), C45 (limits), C31 (external names)
-/

namespace Quilt.Props

open VM

variable {D : Type}

/-! ## C26: jumps -/

/-- In every function of a compiled program, however deeply nested, reading instruction after
instruction from the start never leaves the code, meets no undecodable bytes, and the target of every
jump is again the start of an instruction (or the end of the code); backward jumps do not lead before
the start. (`Instr.target` is where the machine continues: `C26_machine`.) -/
theorem C26_jumps {cfg : Cfg} {ast : List Node} {script : Script} (hc : compile cfg ast = .ok script) (hsz : sizeL ast ≤ 65535)
    {f : Func} (hf : Within script.fn f) {p : Nat} (hp : Boundary f p) :
    p ≤ f.ops.length ∧ (p < f.ops.length → ∃ i n, decode f.consts (f.ops.drop p) = some (i, n) ∧
      (∀ t, i.target p n = some t → Boundary f t) ∧ ∀ o, i = .jumpBackward o → o ≤ p + n) := by
  obtain ⟨c, h⟩ := ((compile_fnOk hc hsz).within hf).code
  obtain ⟨a, b, hab, rfl⟩ := (h.boundary p).1 hp
  have hlen := h.length
  refine ⟨by rw [hlen, hab]; simp, fun hlt => ?_⟩
  cases b with
  | nil => rw [hlen, hab] at hlt; simp at hlt
  | cons q b =>
    refine ⟨q.i, q.i.enc.length, h.dec a q b hab, ?_, ?_⟩
    · intro t ht
      rw [h.boundary]
      have hj := h.jumps a q b hab
      have fwd : ∀ {o : Nat}, (∃ b1 b2 : Code, b = b1 ++ b2 ∧ b1.len = o) → ∃ a' b' : Code, c = a' ++ b' ∧ a'.len = a.len + q.i.enc.length + o := by
        rintro o ⟨b1, b2, rfl, rfl⟩
        exact ⟨a ++ q :: b1, b2, by simp [hab], by simp; omega⟩
      cases hi : q.i <;> rw [hi] at hj ht <;> simp only [Instr.target, Option.some.injEq, reduceCtorEq] at ht <;> subst ht
      case jumpBackward o =>
        obtain ⟨a1, a2, rfl, e⟩ := hj
        refine ⟨a1, a2 ++ q :: b, by simp [hab], ?_⟩
        simp [Instr.enc, u16le]; omega
      all_goals (rw [← hi]; exact fwd hj)
    · intro o ho
      have hj := h.jumps a q b hab
      rw [ho] at hj ⊢
      obtain ⟨a1, a2, rfl, e⟩ := hj
      simp [Instr.enc, u16le]; omega

/-- Jump instructions lead to the next instruction or to their target, unconditional ones to their target. -/
theorem C26_machine (H : Host D) {s s' : VM D} {i : Instr} {n t : Nat} (hd : decode s.frame.fn.consts (s.frame.fn.ops.drop s.frame.ip) = some (i, n))
    (ht : i.target s.frame.ip n = some t) (hs : s.step H = .next s') :
    s'.frame.fn = s.frame.fn ∧ (s'.frame.ip = t ∨ (s'.frame.ip = s.frame.ip + n ∧ ∀ o, i ≠ .jumpForward o ∧ i ≠ .jumpBackward o)) := by
  have hl : ¬ s.frame.fn.ops.length ≤ s.frame.ip := by
    intro hl
    rw [List.drop_of_length_le hl] at hd
    simp [decode] at hd
  simp only [VM.step, hl, if_false, hd] at hs
  cases i <;> simp only [Instr.target, Option.some.injEq, reduceCtorEq] at ht <;> subst ht <;> simp only [VM.exec] at hs
  case jumpForward o =>
    simp only [StepR.next.injEq] at hs; subst hs; simp
  case jumpBackward o =>
    split at hs
    · cases hs
    · simp only [StepR.next.injEq] at hs; subst hs; simp
  case jumpIfFalse o =>
    split at hs
    · cases hs
    · simp only [VM.lift] at hs
      split at hs
      · split at hs <;> (simp only [StepR.next.injEq] at hs; subst hs; simp)
      · cases hs
      · cases hs
  case jumpIfNotEq o =>
    split at hs
    · cases hs
    · split at hs
      · simp only [StepR.next.injEq] at hs; subst hs; simp
      · simp only [StepR.next.injEq] at hs; subst hs; simp
      · cases hs
  case iterNext o =>
    split at hs
    · cases hs
    · split at hs
      · simp only [VM.lift] at hs
        split at hs
        · split at hs
          · simp only [VM.push] at hs
            split at hs
            · cases hs
            · simp only [StepR.next.injEq] at hs; subst hs; simp [VM.pushU]
          · simp only [StepR.next.injEq] at hs; subst hs; simp
        · cases hs
        · cases hs
      · cases hs

/-- Code written so far for the current function. -/
def bytes (s : CState) : Nat := s.head.chunk.ops.length

/-- A `while` whose way back is longer than 65535 bytes (test and body, compiled without error, and
the two jumps) is rejected. -/
theorem C26_while_too_large (cfg : Cfg) (m : Mode) (sp : Span) (c : Node) (body : List Node) {s s1 s2 : CState}
    (hc : (do CM.writeU8 32 sp; compileNode cfg .expr c) s = (.ok (), s1))
    (hb : (do let _ ← CM.writeJump 27 sp; CM.writeOpU16 3 2 c.span; CM.inScope (compileStmts cfg body)) s1 = (.ok (), s2))
    (h : 65535 < bytes s2 + 3 - (bytes s + 1)) : ∃ s', compileNode cfg m (.while sp c body) s = (.err (.overflow .jumpTooLarge) c.span, s') := by
  have h32 : ∀ s, CM.writeU8 32 sp s = (.ok (), s.emit [.at' .loadNone sp] s.g) := CM.writeU8_emit .loadNone 32 rfl sp
  have hl : (s.emit [.at' .loadNone sp] s.g).head.chunk.ops.length = bytes s + 1 := by rw [CState.emit_len]; rfl
  simp only [CM.bind_app, h32] at hc
  have hw : compileNode cfg m (.while sp c body) = exprIn m sp (do
    CM.writeU8 32 sp
    let start ← CM.len
    compileNode cfg .expr c
    let exit ← CM.writeJump 27 sp
    CM.writeOpU16 3 2 c.span
    CM.inScope (compileStmts cfg body)
    CM.writeJumpBackward start c.span
    CM.patchJump exit sp
    CM.writeU8 2 c.span) := by rw [compileNode]
  rw [hw]
  simp only [exprIn, CM.bind_app, h32, CM.len_app, hc, hl]
  have hj := CM.writeJump_emit .jumpIfFalse 27 (fun _ => rfl) sp s1
  simp only [CM.bind_app, hj, CM.writeOpU16_emit (.popMany 2) 3 2 rfl] at hb ⊢
  rw [hb]
  have h' : 65535 < s2.head.chunk.ops.length + 3 - (bytes s + 1) := h
  simp only [CM.writeJumpBackward, CM.bind_app, CM.len_app]
  rw [if_pos h']
  exact ⟨_, rfl⟩

/-- Non-trivial use: `while true { none; none; … }` with `N ≥ 32765` statements. -/
theorem C26_while_too_large_case (cfg : Cfg) (sp : Span) (N : Nat) (hN : 32765 ≤ N) :
    compile cfg [.while sp (.lit sp (.bool true)) (List.replicate (N + 1) (.lit sp .none))] = .err (.overflow .jumpTooLarge) sp := by
  have key : ∀ N s, ∃ s', compileStmts cfg (List.replicate (N + 1) (.lit sp .none)) s = (.ok sp, s') ∧ bytes s' = bytes s + 2 * N + 1 := by
    intro N
    induction N with
    | zero =>
      intro s
      refine ⟨s.emit [.at' .loadNone sp] s.g, ?_, by rw [bytes, CState.emit_len]; rfl⟩
      simp [compileStmts, compileNode, exprIn, CM.writeU8_emit .loadNone 32 rfl, Node.span]
    | succ N ih =>
      intro s
      obtain ⟨s', h1, h2⟩ := ih ((s.emit [.at' .loadNone sp] s.g).emit [.at' .pop sp] s.g)
      refine ⟨s', ?_, ?_⟩
      · rw [List.replicate_succ] at h1
        rw [List.replicate_succ, List.replicate_succ]
        simp only [compileStmts, compileNode, exprIn, CM.bind_app, CM.writeU8_emit .loadNone 32 rfl, if_true, CM.writeU8_emit .pop 2 rfl]
        exact h1
      · rw [h2]
        simp only [bytes, CState.emit_len]
        simp [Code.len, Code.ops, Instr.enc]; omega
  generalize hst : (CState.new "@__main__").setMainSpan [.while sp (.lit sp (.bool true)) (List.replicate (N + 1) (.lit sp .none))] = st
  have hc : ∃ s1, (do CM.writeU8 32 sp; compileNode cfg .expr (.lit sp (.bool true))) st = (.ok (), s1) ∧ bytes st + 4 = bytes s1 := by
    simp only [compileNode, exprIn, CM.bind_app, CM.writeU8_emit .loadNone 32 rfl, CM.onG'_app]
    simp only [CM.writeOpU16_emit (.loadConst _) 6 _ rfl]
    exact ⟨_, rfl, by simp only [bytes, CState.emit_len]; rfl⟩
  obtain ⟨s1, hc, e1⟩ := hc
  have hb : ∃ s2, (do let _ ← CM.writeJump 27 sp; CM.writeOpU16 3 2 sp; CM.inScope (compileStmts cfg (List.replicate (N + 1) (.lit sp .none)))) s1 = (.ok (), s2) ∧
      bytes s1 + 6 + 2 * N + 1 ≤ bytes s2 := by
    simp only [CM.bind_app, CM.writeJump_emit .jumpIfFalse 27 (fun _ => rfl), CM.writeOpU16_emit (.popMany 2) 3 2 rfl, CM.inScope, CM.onG_app]
    generalize hs3 : CState.emit _ _ _ = s3
    have e3 : bytes s3 = bytes s1 + 6 := by subst hs3; simp only [bytes, CState.emit_len]; rfl
    obtain ⟨s4, h1, h2⟩ := key N s3
    simp only [h1, CM.exitScope_emit]
    exact ⟨_, rfl, by simp only [bytes, CState.emit_len] at h2 e3 ⊢; omega⟩
  obtain ⟨s2, hb, e2⟩ := hb
  obtain ⟨s', h⟩ := C26_while_too_large cfg (.stmt false) sp _ _ hc hb (by omega)
  rw [compile, hst]
  simp only [compileStmts, CM.bind_app, h]
  rfl


/-- An `if` whose first branch is longer than 65535 bytes, with its jumps, is rejected. -/
theorem C26_if_too_large (cfg : Cfg) (m : Mode) (sp : Span) (c : Node) (th : List Node) (el : Option (List Node)) {s s1 s2 : CState}
    (hc : (do CM.writeU8 32 sp; compileNode cfg .expr c) s = (.ok (), s1))
    (hb : (do let _ ← CM.writeJump 27 sp; CM.writeOpU16 3 2 sp; CM.inScope (compileStmts cfg th)) s1 = (.ok (), s2))
    (h : 65535 < bytes s2 - bytes s1) : ∃ s', compileNode cfg m (.cond sp c th el) s = (.err (.overflow .jumpTooLarge) sp, s') := by
  have h32 : ∀ s, CM.writeU8 32 sp s = (.ok (), s.emit [.at' .loadNone sp] s.g) := CM.writeU8_emit .loadNone 32 rfl sp
  have hw : compileNode cfg m (.cond sp c th el) = exprIn m sp (do
    CM.writeU8 32 sp
    compileNode cfg .expr c
    let endJump ← CM.thenPart 27 sp (CM.inScope (compileStmts cfg th))
    compileElse cfg sp el
    CM.patchJump endJump sp) := by rw [compileNode]
  rw [hw]
  simp only [CM.bind_app, h32] at hc
  have hj := CM.writeJump_emit .jumpIfFalse 27 (fun _ => rfl) sp s1
  have hk := CM.writeJump_emit .jumpForward 29 (fun _ => rfl) sp s2
  simp only [exprIn, CM.thenPart, CM.bind_app, h32, hc, hj, CM.writeOpU16_emit (.popMany 2) 3 2 rfl] at hb ⊢
  simp only [hb, hk, CM.patchJump, CM.bind_app, CM.len_app, CState.emit_len]
  have h' : 65535 < s2.head.chunk.ops.length - s1.head.chunk.ops.length := h
  have : s2.head.chunk.ops.length + Code.len [Piece.at' (Instr.jumpForward 0) sp] - 2 - (s1.head.chunk.ops.length + 1) > 65535 := by
    simp [Code.len, Instr.enc, u16le, Code.ops]; omega
  rw [if_pos this]
  exact ⟨_, rfl⟩

example : ∃ script, compile demoSetup.cfg demoProg = .ok script ∧ ∃ f, Within script.fn f ∧ Boundary f 0 ∧ 0 < f.ops.length := by
  have h : compiles demoSetup.cfg demoProg 65536 = true := by decide +kernel
  unfold compiles at h
  split at h
  · rename_i script hc
    have h0 : (match compile demoSetup.cfg demoProg with | .ok s => decide (0 < s.fn.ops.length) | _ => false) = true := by decide +kernel
    rw [hc] at h0
    exact ⟨script, hc, script.fn, .self, .zero, by simpa using h0⟩
  · cases h

/-! ## C43: disassembly -/

/-- The disassembler does not fail on compiled programs, if no instruction has a known line only in its later bytes (`Steady`; `C76_listed` shows it for
programs read from files), and lists
exactly the functions of the program, in preorder, with their names, lines and files, each as its sequence of instructions whose line is known: offsets,
opcodes, operands, lines, the constants, names and operators they refer to (`Instr.hint`), for every jump (and nothing else) its target,
and a mark at the targets of forward jumps. What is missing: marks at other places are not meaningful, see `C43_violated_marks`. -/
theorem C43_listing_partial (E : DEnv) {cfg : Cfg} {ast : List Node} {script : Script} (hc : compile cfg ast = .ok script) (hsz : sizeL ast ≤ 65535)
    (hk : ∀ f, Within script.fn f → Steady E f) :
    (∃ ds, Disasm.script E script.fn = some ds ∧ Lists E script.fn.all ds) ∧ ∀ f, f ∈ script.fn.all ↔ Within script.fn f := by
  refine ⟨?_, fun f => ⟨all_within _ f, within_all⟩⟩
  obtain ⟨ds, s', h1, h2, _, h3⟩ := Disasm.func_listed E script.fn ⟨[], [], 0⟩ (compile_fnOk hc hsz) (fun g hg => hk g (all_within _ g hg)) rfl
  refine ⟨ds, ?_, h3⟩
  rw [Disasm.script, h1]
  simpa using h2

/-- In a listing the offsets are the instruction boundaries of the code whose line is known, in increasing order. -/
theorem C43_offsets {E : DEnv} {f : Func} {ls : List DLine} (h : Listed E f 0 ls) :
    ls.Pairwise (fun a b => a.offset < b.offset) ∧ ∀ p, (∃ l ∈ ls, l.offset = p) ↔ Boundary f p ∧ p < f.ops.length ∧ E.lineno (f.getSpan p) ≠ none := by
  obtain ⟨h1, h2⟩ := h.offsets .zero
  refine ⟨h2, fun p => ⟨?_, fun ⟨hp, hl, hk⟩ => h.covers hp hl hk⟩⟩
  rintro ⟨l, hl, rfl⟩
  exact ⟨(h1 l hl).1, (h1 l hl).2.2⟩

/-- A mark at a line without a jump to it, or a jump to a line without mark. -/
def marksOk (ds : List FnDis) : Bool :=
  ds.all fun d => d.lines.all fun l => l.isJump == d.lines.any fun k => match k.hint with | some (.jump t) => t == l.offset | _ => false

local notation "z" => Span.default

/-- `fn a() { while false {} return none } fn b() { return [none] }` -/
def marksProg : List Node :=
  [.func z ("a", z) [] [.while z (.lit z (.bool false)) [], .ret z none],
   .func z ("b", z) [] [.ret z (some (.array z [.lit z .none]))]]

def marksEnv : DEnv := ⟨fun _ => some 1, fun _ => none, []⟩

/-- The disassembler's mark of one line of one function. -/
def markAt (fn off : Nat) (ds : List FnDis) : Option Bool :=
  (ds[fn]?).bind fun d => (d.lines.find? fun l => l.offset == off).map (·.isJump)

/-- The disassembler's mark of one line of one function of a program. -/
def markOf (ast : List Node) (fn off : Nat) : Option Bool :=
  match compile demoSetup.cfg ast with
  | .ok s => (Disasm.script marksEnv s.fn).bind fun ds => if marksOk ds then none else markAt fn off ds
  | _ => none

/-- The target of the backward jump in `a` (offset 1) carries no mark; the mark appears at offset 1
of the next function, which has no jumps. -/
theorem C43_violated_marks : markOf marksProg 1 1 = some false ∧ markOf marksProg 2 1 = some true := by decide +kernel

example : ∃ script ds, compile demoSetup.cfg marksProg = .ok script ∧ Disasm.script marksEnv script.fn = some ds ∧ Lists marksEnv script.fn.all ds := by
  have h : compiles demoSetup.cfg marksProg 65536 = true := by decide +kernel
  unfold compiles at h
  split at h
  · rename_i script hc
    obtain ⟨⟨ds, h1, h2⟩, _⟩ := C43_listing_partial marksEnv hc (by decide) fun _ _ _ _ _ _ _ h => by simp [marksEnv] at h
    exact ⟨script, ds, hc, h1, h2⟩
  · cases h

/-- Names shown for local variables are looked up in the wrong table: in `{ let a = 1; { let a = 2; a } }`
the inner variable has index 1, and the table of names only one entry. -/
theorem C43_violated_local_names :
    (match compile demoSetup.cfg [.block z [.decl z (.one ("a", z)) (.lit z (.int 1)), .block z [.decl z (.one ("a", z)) (.lit z (.int 2)), .ident z "a"]]] with
     | .ok s => (Disasm.script marksEnv s.fn).bind fun ds => (ds[0]?).bind fun d => (d.lines.filter fun l => l.opcode == 7).head?.bind fun l =>
        match l.hint with | some (.symbol x) => some (x, l.oparg) | _ => none
     | _ => none) = some ("unknown", some 1) := by decide +kernel

/-! ## C45: limits of the compiler -/

/-- A program that compiles has at most 255 array elements, arguments, parameters and destructured
names at every place. -/
theorem C45_within {cfg : Cfg} {ast : List Node} {script : Script} (hc : compile cfg ast = .ok script) : withinL true ast = true :=
  (compile_accepts hc).1

/-- Beyond the limit the compiler reports the error of the construct at its place, in any mode and
state, and before anything else. -/
theorem C45_rejected (cfg : Cfg) (m : Mode) (s : CState) (sp : Span) :
    (∀ items, 255 < items.length → compileNode cfg m (.array sp items) s = (.err (.overflow .tooManyItems) sp, s)) ∧
    (∀ f args, 255 < args.length → compileNode cfg m (.call sp f args) s = (.err (.overflow .tooManyArgs) sp, s)) ∧
    (∀ x args, 255 < args.length → compileNode cfg m (.builtin sp x args) s = (.err (.overflow .tooManyArgs) sp, s)) ∧
    (∀ x args v b, 255 < args.length → compileNode cfg m (.ctx sp x args v b) s = (.err (.overflow .tooManyArgs) sp, s)) ∧
    (∀ ps b, 255 < ps.length → compileNode cfg m (.lambda sp ps b) s = (.err (.overflow .tooManyParams) sp, s)) ∧
    (∀ x ps b p, 255 < ps.length → compileNode cfg (.stmt p) (.func sp x ps b) s = (.err (.overflow .tooManyParams) sp, s)) ∧
    (∀ xs it b, 255 < xs.length → ∃ s', compileNode cfg m (.forMulti sp xs it b) s = (.err (.overflow .tooMuchToUnpack) sp, s')) ∧
    (∀ xs e p s', 255 < xs.length → compileNode cfg .expr e s = (.ok (), s') → compileNode cfg (.stmt p) (.decl sp (.many xs) e) s = (.err (.overflow .tooMuchToUnpack) sp, s')) := by
  refine ⟨?_, ?_, ?_, ?_, ?_, ?_, ?_, ?_⟩
  · intro items h; simp only [compileNode, exprIn, CM.bind_app, gt_iff_lt, h, if_true, CM.throw_app]
  · intro f args h; simp only [compileNode, exprIn, CM.bind_app, gt_iff_lt, h, if_true, CM.throw_app]
  · intro f args h; simp only [compileNode, exprIn, CM.bind_app, gt_iff_lt, h, if_true, CM.throw_app]
  · intro x args v b h; simp only [compileNode, exprIn, CM.bind_app, gt_iff_lt, h, if_true, CM.throw_app]
  · intro ps b h; simp only [compileNode, exprIn, CM.bind_app, gt_iff_lt, h, if_true, CM.throw_app]
  · intro x ps b p h; simp only [compileNode, stmtIn, gt_iff_lt, h, if_true, CM.throw_app]
  · intro xs it b h; simp only [compileNode, exprIn, CM.bind_app, CM.onG_app, gt_iff_lt, h, if_true, CM.throw_app]; exact ⟨_, rfl⟩
  · intro xs e p s' h he; simp only [compileNode, stmtIn, CM.bind_app, he, CM.declVar, gt_iff_lt, h, if_true, CM.throw_app]

/-- Up to the limit the number is encoded without loss: the last bytes written are the opcode and the number. -/
theorem C45_encoded (cfg : Cfg) {s s' : CState} (sp : Span) :
    (∀ items, compileNode cfg .expr (.array sp items) s = (.ok (), s') → ∃ pre b, s'.head.chunk.ops = pre ++ [19, b] ∧ b.toNat = items.length) ∧
    (∀ f args, compileNode cfg .expr (.call sp f args) s = (.ok (), s') → ∃ pre b, s'.head.chunk.ops = pre ++ [21, b] ∧ b.toNat = args.length) ∧
    (∀ x args, compileNode cfg .expr (.builtin sp x args) s = (.ok (), s') → ∃ pre a b c, s'.head.chunk.ops = pre ++ [22, a, b, c] ∧ c.toNat = args.length) ∧
    (∀ xs e p, compileNode cfg (.stmt p) (.decl sp (.many xs) e) s = (.ok (), s') → ∃ pre b post, s'.head.chunk.ops = pre ++ [31, b] ++ post ∧ b.toNat = xs.length) := by
  have bnd : ∀ {α β : Type} {x : CM α} {f : α → CM β} {b : β} {s s' : CState}, (x >>= f) s = (.ok b, s') → ∃ a s1, x s = (.ok a, s1) ∧ f a s1 = (.ok b, s') := by
    intro α β x f b s s' h
    rw [CM.bind_app] at h
    split at h
    · exact ⟨_, _, by assumption, h⟩
    · cases h
    · cases h
  have num : ∀ n : Nat, ¬ 255 < n → (UInt8.ofNat n).toNat = n := by intro n h; simp; omega
  have fin : ∀ {op : UInt8} {n : Nat} {s s' : CState} {sp : Span}, CM.writeOpU8 op n sp s = (.ok (), s') → s'.head.chunk.ops = s.head.chunk.ops ++ [op, UInt8.ofNat n] := by
    intro op n s s' sp h
    simp only [CM.writeOpU8, CM.writeU8, CM.onChunk, CM.bind_app, Prod.mk.injEq, true_and] at h
    subst h
    simp [Chunk.writeU8, Bytes.writeU8]
  have nop : ∀ {sp : Span} {act : CM Unit} {s s' : CState}, exprIn .expr sp act s = (.ok (), s') → act s = (.ok (), s') := by
    intro sp act s s' h
    obtain ⟨_, _, h1, h2⟩ := bnd h
    simp only [reduceCtorEq, if_false, CM.pure_app, Prod.mk.injEq, true_and] at h2
    rw [h1, h2]
  have glob : ∀ (xs : List Name) (s s' : CState), CM.defineGlobals xs s = (.ok (), s') → ∃ post, s'.head.chunk.ops = s.head.chunk.ops ++ post := by
    intro xs
    induction xs with
    | nil => intro s s' h; simp only [CM.defineGlobals, CM.pure_app, Prod.mk.injEq, true_and] at h; subst h; exact ⟨[], by simp⟩
    | cons y ys ih =>
      intro s s' h
      obtain ⟨y, ysp⟩ := y
      simp only [CM.defineGlobals] at h
      obtain ⟨_, s3, h3, h⟩ := bnd h
      obtain ⟨post, hp⟩ := ih _ _ h
      simp only [CM.defineGlobal, CM.bind_app, CM.onG'_app, CM.writeOpU16_emit (.defineGlobal _) 9 _ rfl, Prod.mk.injEq, true_and] at h3
      subst h3
      exact ⟨_, by rw [hp]; simp [CState.emit, Chunk.emit]; rfl⟩
  refine ⟨?_, ?_, ?_, ?_⟩
  · intro items h
    rw [compileNode] at h
    replace h := nop h
    split at h
    · cases h
    · rename_i hl
      obtain ⟨_, s1, _, h2⟩ := bnd h
      exact ⟨_, _, fin h2, num _ hl⟩
  · intro f args h
    rw [compileNode] at h
    replace h := nop h
    split at h
    · cases h
    · rename_i hl
      obtain ⟨_, s1, _, h2⟩ := bnd h
      obtain ⟨_, s2, _, h2⟩ := bnd h2
      exact ⟨_, _, fin h2, num _ hl⟩
  · intro x args h
    rw [compileNode] at h
    replace h := nop h
    split at h
    · cases h
    · rename_i hl
      obtain ⟨_, s1, _, h2⟩ := bnd h
      simp only [CM.writeBuiltin, CM.writeU8, CM.writeU16, CM.onChunk, CM.bind_app, CM.onG'_app, CState.emit_nil, Prod.mk.injEq, true_and] at h2
      subst h2
      exact ⟨_, _, _, _, by simp [Chunk.writeU8, Bytes.writeU8, Chunk.writeU16, Bytes.writeU16, u16le, List.append_assoc]; rfl, num _ hl⟩
  · intro xs e p h
    rw [compileNode] at h
    simp only [stmtIn] at h
    obtain ⟨_, s1, _, h⟩ := bnd h
    simp only [CM.declVar] at h
    split at h
    · cases h
    · rename_i hl
      obtain ⟨_, s2, h1, h⟩ := bnd h
      have h1 := fin h1
      simp only [CM.bind_app, CM.isGlobal_app] at h
      split at h
      · obtain ⟨post, hp⟩ := glob _ _ _ h
        exact ⟨_, _, post, by rw [hp, h1], num _ hl⟩
      · simp only [CM.defineLocals, CM.onG_app, Prod.mk.injEq, true_and] at h
        subst h
        exact ⟨_, _, [], by simp [h1, CState.emit_nil]; rfl, num _ hl⟩

/-- Non-trivial cases of both sides: an array of 255 elements and one of 256, inside a function. -/
def bigArray (n : Nat) : List Node := [.func Span.default ("f", Span.default) [] [.ret Span.default (some (.array ⟨1, 2, 0⟩ (List.replicate n (.lit Span.default .none))))]]

example : compiles demoSetup.cfg (bigArray 255) 65536 = true := by decide +kernel
example : (match compile demoSetup.cfg (bigArray 256) with | .err e sp => some (e, sp) | _ => none) = some (.overflow .tooManyItems, ⟨1, 2, 0⟩) := by decide +kernel

/-! ## C31: external names -/

/-- A program that compiles declares no external name twice (also counting included programs), and
none below the top level (`Node.within`). -/
theorem C31_declared_once {cfg : Cfg} {ast : List Node} {script : Script} (hc : compile cfg ast = .ok script) :
    (externsL ast).Nodup ∧ withinL true ast = true :=
  ⟨(compile_accepts hc).2, (compile_accepts hc).1⟩

/-- The error of the second declaration, after the first and with anything accepted in between. -/
theorem C31_redeclared (cfg : Cfg) (sp xsp : Span) (x : String) (e : Node) (p : Bool) {s s1 : CState} {i : Nat} (he : compileNode cfg .expr e s = (.ok (), s1))
    (hd : s1.g.cur.depth = 0) (hi : s1.g.globals.id? x = some i) (hx : i ∈ s1.g.externals) :
    ∃ s', compileNode cfg (.stmt p) (.extern sp (x, xsp) e) s = (.err (.name (.externalRedefined x)) xsp, s') := by
  have ha : s1.g.addGlobal x = (i, s1.g) := by
    unfold Pool.id? at hi
    simp [GState.addGlobal, Pool.add, hi]
  simp [compileNode, stmtIn, he, hd, ha, hx]

/-- The error of a declaration below the top level. -/
theorem C31_not_global (cfg : Cfg) (sp xsp : Span) (x : String) (e : Node) (p : Bool) {s s1 : CState} (he : compileNode cfg .expr e s = (.ok (), s1))
    (hd : s1.g.cur.depth ≠ 0) : compileNode cfg (.stmt p) (.extern sp (x, xsp) e) s = (.err (.name (.externalNotGlobal x)) xsp, s1) := by
  simp [compileNode, stmtIn, he, hd]

example : compiles demoSetup.cfg [.extern Span.default ("a", Span.default) (.lit Span.default (.int 1)), .extern Span.default ("b", Span.default) (.ident Span.default "a")] 65536 = true := by decide +kernel
example : (match compile demoSetup.cfg [.extern Span.default ("a", Span.default) (.lit Span.default (.int 1)), .extern Span.default ("a", ⟨3, 4, 0⟩) (.ident Span.default "a")] with
    | .err e sp => some (e, sp) | _ => none) = some (.name (.externalRedefined "a"), ⟨3, 4, 0⟩) := by decide +kernel
example : (match compile demoSetup.cfg [.block Span.default [.extern Span.default ("a", ⟨3, 4, 0⟩) (.lit Span.default (.int 1))]] with
    | .err e sp => some (e, sp) | _ => none) = some (.name (.externalNotGlobal "a"), ⟨3, 4, 0⟩) := by decide +kernel

end Quilt.Props
