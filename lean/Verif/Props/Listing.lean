import Verif.Check.Env
import Verif.Listing
import Verif.Props.Messages
import Verif.Props.Code
import Verif.Props.Cli
import Verif.Parser.Nest
import Verif.Props.Flow

/-!
# Listings as text: C75; the flags of the command: C76
-/

namespace Quilt.Props

open Lib Peg Cli TextSep

/-- No colours, as when the output is not a terminal. -/
def noPaint : Colour → List Char → List Char := fun _ t => t

/-- What a line of a listing shows. -/
structure Columns where
  line : Nat
  isJump : Bool
  offset : Nat
  opcode : String
  oparg : Option Nat
  hint : List Char
  deriving DecidableEq

def columns (F : FOps) (plain : Char → Bool) (l : DLine) : Columns :=
  ⟨l.line, l.isJump, l.offset, opName l.opcode, l.oparg, l.hintText F plain noPaint⟩

private theorem pad_sep {k : Nat} {s s' X X' : List Char} (hs : ' ' ∉ s) (hs' : ' ' ∉ s') (h : padTo k s ++ ' ' :: X = padTo k s' ++ ' ' :: X') : s = s' ∧ X = X' := by
  have key : ∀ (m : Nat) (Y : List Char), List.replicate m ' ' ++ ' ' :: Y = ' ' :: (List.replicate m ' ' ++ Y) := by
    intro m Y
    induction m with
    | zero => rfl
    | succ m ih => simp [List.replicate_succ, ih]
  unfold padTo at h
  simp only [List.append_assoc, key] at h
  obtain ⟨rfl, h2⟩ := sep hs hs' h
  exact ⟨rfl, List.append_cancel_left h2⟩

private theorem opNames_plain : ∀ s ∈ opNames, ' ' ∉ s.toList := by decide +kernel

private theorem opName_plain (b : UInt8) : ' ' ∉ (opName b).toList := by
  unfold opName
  cases h : opNames[b.toNat]? with
  | none => decide +kernel
  | some s => exact opNames_plain s (List.mem_of_getElem? h)

private theorem opNames_nodup : opNames.Nodup ∧ "Unknown" ∉ opNames := by decide +kernel

/-- Opcodes have different names. -/
theorem C75_names {b c : UInt8} (h : opName b = opName c) : b = c ∨ (62 ≤ b.toNat ∧ 62 ≤ c.toNat) := by
  unfold opName at h
  have hl : opNames.length = 62 := rfl
  cases hb : opNames[b.toNat]? with
  | none =>
    cases hc : opNames[c.toNat]? with
    | none => simp only [List.getElem?_eq_none_iff] at hb hc; exact .inr ⟨by omega, by omega⟩
    | some s =>
      rw [hb, hc] at h
      simp only [Option.getD_none, Option.getD_some] at h
      exact absurd (h ▸ List.mem_of_getElem? hc) opNames_nodup.2
  | some s =>
    cases hc : opNames[c.toNat]? with
    | none =>
      rw [hb, hc] at h
      simp only [Option.getD_none, Option.getD_some] at h
      exact absurd (h ▸ List.mem_of_getElem? hb) opNames_nodup.2
    | some s' =>
      rw [hb, hc] at h
      simp only [Option.getD_some] at h
      subst h
      obtain ⟨h1, h2⟩ := List.getElem?_eq_some_iff.1 hb
      obtain ⟨h3, h4⟩ := List.getElem?_eq_some_iff.1 hc
      have hp := List.pairwise_iff_getElem.1 opNames_nodup.1
      rcases Nat.lt_trichotomy b.toNat c.toNat with h | h | h
      · exact absurd (h2.trans h4.symm) (hp _ _ h1 h3 h)
      · exact .inl (UInt8.toNat_inj.1 h)
      · exact absurd (h4.trans h2.symm) (hp _ _ h3 h1 h)

/-- The names of the operators of instructions. -/
def opCalled : Op → String
  | .neg => "UnaryNegate" | .not => "UnaryNot" | .bitNot => "BitwiseNot"
  | .add => "BinaryAdd" | .sub => "BinarySubtract" | .mul => "BinaryMultiply" | .div => "BinaryDivide" | .mod => "BinaryModulo" | .pow => "BinaryPower"
  | .eq => "BinaryEqual" | .neq => "BinaryNotEqual" | .gt => "BinaryGreater" | .gte => "BinaryGreaterEqual" | .lt => "BinaryLess" | .lte => "BinaryLessEqual"
  | .and => "BinaryAnd" | .or => "BinaryOr" | .join => "BinaryJoin"
  | .bitAnd => "BitwiseAnd" | .bitOr => "BitwiseOr" | .bitXor => "BitwiseXor" | .shl => "BitwiseLeftShift" | .shr => "BitwiseRightShift"

/-- The names of instructions, as the machine understands them. -/
def called : Instr → String
  | .halt => "Halt" | .ret => "Return" | .pop => "Pop" | .popMany _ => "PopMany" | .swap => "Swap" | .swapPop => "SwapPop"
  | .loadConst _ => "LoadConst" | .loadLocal _ => "LoadLocal" | .setLocal _ => "SetLocal" | .defineGlobal _ => "DefineGlobal"
  | .loadUpvalue _ => "LoadUpvalue" | .setUpvalue _ => "SetUpvalue" | .loadGlobal _ => "LoadGlobal" | .setGlobal _ => "SetGlobal"
  | .defineGlobalDefaulted _ => "DefineGlobalDefaulted" | .closeUpvalue => "CloseUpvalue"
  | .createFunction _ => "CreateFunction" | .createClosure _ _ => "CreateClosure" | .createPair => "CreatePair" | .createArray _ => "CreateArray"
  | .createRange => "CreateRange" | .callFunction _ => "CallFunction" | .callBuiltin _ _ => "CallBuiltin" | .enterContext _ _ => "EnterContext"
  | .exitContext => "ExitContext" | .blockResult => "BlockResult" | .blockReturn => "BlockReturn"
  | .jumpIfFalse _ => "JumpIfFalse" | .jumpIfNotEq _ => "JumpIfNotEq" | .jumpForward _ => "JumpForward" | .jumpBackward _ => "JumpBackward"
  | .unpack _ => "Unpack" | .loadNone => "LoadNone" | .loadNoneMany _ => "LoadNoneMany" | .newLoopCtx => "NewLoopCtx" | .iterNext _ => "IterNext"
  | .indexGet => "IndexGet" | .unary op => opCalled op | .binary op => opCalled op

/-- The name that is shown for the first byte of an instruction is the name of the instruction that the machine reads there. -/
theorem C75_called (i : Instr) : i.enc.head?.map opName = some (called i) := by
  cases i with
  | unary op => cases op <;> rfl
  | binary op => cases op <;> rfl
  | _ => rfl

private theorem digit_blank : ∀ d < 10, digitChar d ≠ ' ' := by decide

private theorem digit_nl : ∀ d < 10, digitChar d ≠ '\n' := by decide

private theorem pad_head {k n : Nat} {X Y : List Char} (h : padTo k (showNat n) ++ X = ' ' :: Y) : False := by
  obtain ⟨d, t, h1, h2⟩ := showNat_head digit_blank n
  rw [padTo, h1] at h
  simp only [List.cons_append, List.cons.injEq] at h
  exact h2 h.1

private theorem no_blank (n : Nat) : ' ' ∉ showNat n := showNat_no digit_blank n

private theorem col_line {last n n' : Nat} {X X' : List Char}
    (h : (if last ≠ n then padTo 4 (showNat n) ++ "   ".toList else "       ".toList) ++ X = (if last ≠ n' then padTo 4 (showNat n') ++ "   ".toList else "       ".toList) ++ X') :
    n = n' ∧ X = X' := by
  have e7 : "       ".toList = ' ' :: "      ".toList := by decide +kernel
  have e3 : "   ".toList = ' ' :: "  ".toList := by decide +kernel
  by_cases h1 : last = n
  · by_cases h2 : last = n'
    · rw [if_neg (by simpa using h1), if_neg (by simpa using h2)] at h
      exact ⟨h1.symm.trans h2, List.append_cancel_left h⟩
    · rw [if_neg (by simpa using h1), if_pos h2, e7] at h
      simp only [List.append_assoc] at h
      exact (pad_head h.symm).elim
  · by_cases h2 : last = n'
    · rw [if_pos h1, if_neg (by simpa using h2), e7] at h
      simp only [List.append_assoc] at h
      exact (pad_head h).elim
    · rw [if_pos h1, if_pos h2, e3] at h
      simp only [List.append_assoc, List.cons_append] at h
      obtain ⟨a, b⟩ := pad_sep (no_blank _) (no_blank _) h
      exact ⟨showNat_inj a, List.append_cancel_left b⟩

private theorem col_mark {b b' : Bool} {X X' : List Char} (h : (if b then ">>  ".toList else "    ".toList) ++ X = (if b' then ">>  ".toList else "    ".toList) ++ X') : b = b' ∧ X = X' := by
  have e4 : "    ".toList = ' ' :: "   ".toList := by decide +kernel
  have ej : ">>  ".toList = '>' :: ">  ".toList := by decide +kernel
  cases b <;> cases b'
  · exact ⟨rfl, List.append_cancel_left h⟩
  · rw [if_neg (by simp), if_pos rfl, e4, ej] at h
    simp only [List.cons_append, List.cons.injEq] at h
    exact absurd h.1 (by decide)
  · rw [if_pos rfl, if_neg (by simp), e4, ej] at h
    simp only [List.cons_append, List.cons.injEq] at h
    exact absurd h.1 (by decide)
  · exact ⟨rfl, List.append_cancel_left h⟩

private theorem col_arg {o o' : Option Nat} {X X' : List Char}
    (h : (match o with | some n => padTo 4 (showNat n) ++ [' '] | none => "     ".toList) ++ X = (match o' with | some n => padTo 4 (showNat n) ++ [' '] | none => "     ".toList) ++ X') :
    o = o' ∧ X = X' := by
  have e5 : "     ".toList = ' ' :: "    ".toList := by decide +kernel
  cases o <;> cases o'
  · exact ⟨rfl, List.append_cancel_left h⟩
  · simp only [e5, List.append_assoc] at h
    exact (pad_head h.symm).elim
  · simp only [e5, List.append_assoc] at h
    exact (pad_head h).elim
  · simp only [List.append_assoc, List.cons_append, List.nil_append] at h
    obtain ⟨a, b⟩ := pad_sep (no_blank _) (no_blank _) h
    exact ⟨by rw [showNat_inj a], b⟩

/-- A line of a listing can be read back: its columns, and where it ends, whatever follows. The number is shown when it is not that of the line before. -/
theorem C75_line (F : FOps) (plain : Char → Bool) {l l' : DLine} {last : Nat} {r r' : List Char}
    (hn : '\n' ∉ l.hintText F plain noPaint) (hn' : '\n' ∉ l'.hintText F plain noPaint)
    (h : l.text F plain noPaint last ++ r = l'.text F plain noPaint last ++ r') : columns F plain l = columns F plain l' ∧ r = r' := by
  unfold DLine.text at h
  simp only [noPaint, List.append_assoc, List.cons_append, List.nil_append] at h
  obtain ⟨h1, h⟩ := col_line h
  obtain ⟨h2, h⟩ := col_mark h
  obtain ⟨h3, h⟩ := pad_sep (no_blank _) (no_blank _) h
  obtain ⟨h4, h⟩ := pad_sep (opName_plain _) (opName_plain _) h
  obtain ⟨h5, h⟩ := col_arg h
  obtain ⟨h6, h⟩ := sep hn hn' h
  refine ⟨?_, h⟩
  unfold columns
  rw [h1, h2, showNat_inj h3, String.toList_inj.1 h4, h5, h6]

/-- So can the lines of a function: all columns of all lines. -/
theorem C75_lines (F : FOps) (plain : Char → Bool) : ∀ {ls ls' : List DLine} {first : Bool} {last : Nat},
    (∀ l ∈ ls, '\n' ∉ l.hintText F plain noPaint) → (∀ l ∈ ls', '\n' ∉ l.hintText F plain noPaint) →
    linesText F plain noPaint first last ls = linesText F plain noPaint first last ls' → ls.map (columns F plain) = ls'.map (columns F plain) := by
  have start : ∀ (l : DLine) (last : Nat) (X : List Char), ∃ d t, l.text F plain noPaint last ++ X = d :: t ∧ d ≠ '\n' := by
    intro l last X
    unfold DLine.text
    simp only [noPaint]
    split
    · obtain ⟨d, t, h1, h2⟩ := showNat_head digit_nl l.line
      rw [padTo, h1]
      exact ⟨d, _, rfl, h2⟩
    · exact ⟨' ', _, rfl, by decide⟩
  intro ls
  induction ls with
  | nil =>
    intro ls' first last _ _ h
    cases ls' with
    | nil => rfl
    | cons l' ls' =>
      exfalso
      simp only [linesText] at h
      obtain ⟨d, t, h1, _⟩ := start l' last (linesText F plain noPaint false l'.line ls')
      rw [h1] at h
      split at h <;> simp at h
  | cons l ls ih =>
    intro ls' first last hl hl' h
    cases ls' with
    | nil =>
      exfalso
      simp only [linesText] at h
      obtain ⟨d, t, h1, _⟩ := start l last (linesText F plain noPaint false l.line ls)
      rw [h1] at h
      split at h <;> simp at h
    | cons l' ls' =>
      simp only [linesText] at h
      have hx : l.text F plain noPaint last ++ linesText F plain noPaint false l.line ls = l'.text F plain noPaint last ++ linesText F plain noPaint false l'.line ls' := by
        obtain ⟨d, t, h1, h2⟩ := start l last (linesText F plain noPaint false l.line ls)
        obtain ⟨d', t', h1', h2'⟩ := start l' last (linesText F plain noPaint false l'.line ls')
        split at h <;> split at h
        · exact List.append_cancel_left h
        · rw [h1'] at h
          simp only [List.cons_append, List.nil_append, List.cons.injEq] at h
          exact absurd h.1.symm h2'
        · rw [h1] at h
          simp only [List.cons_append, List.nil_append, List.cons.injEq] at h
          exact absurd h.1 h2
        · exact h
      obtain ⟨h1, h2⟩ := C75_line F plain (hl l (by simp)) (hl' l' (by simp)) hx
      have h3 : l.line = l'.line := congrArg Columns.line h1
      rw [h3] at h2
      rw [List.map_cons, List.map_cons, h1, ih (fun l hl1 => hl l (by simp [hl1])) (fun l hl1 => hl' l (by simp [hl1])) h2]

/-- Jumps are told from all other hints, with their targets; the arrow points forward exactly for targets further on. -/
theorem C75_jump (F : FOps) (plain : Char → Bool) (l : DLine) :
    (∀ a, l.hint = some (.jump a) → l.hintText F plain noPaint = (if l.offset < a then ">> ".toList else "<< ".toList) ++ showNat a) ∧
    ∀ l' : DLine, l.hintText F plain noPaint = l'.hintText F plain noPaint → ∀ a, l.hint = some (.jump a) → l'.hint = some (.jump a) := by
  have h1 : ∀ l : DLine, ∀ a, l.hint = some (.jump a) → l.hintText F plain noPaint = (if l.offset < a then ">> ".toList else "<< ".toList) ++ showNat a := by
    intro l a h
    unfold DLine.hintText
    rw [h]; rfl
  refine ⟨h1 l, fun l' h a ha => ?_⟩
  have er : ">> ".toList = ['>', '>', ' '] := by decide +kernel
  have el : "<< ".toList = ['<', '<', ' '] := by decide +kernel
  rw [h1 l a ha, er, el] at h
  cases hh : l'.hint with
  | none => 
    have e : l'.hintText F plain noPaint = [] := by unfold DLine.hintText; rw [hh]
    rw [e] at h
    split at h <;> simp at h
  | some x =>
    cases x with
    | jump b =>
      rw [h1 l' b hh, er, el] at h
      have : showNat a = showNat b := by split at h <;> split at h <;> simpa using h
      rw [showNat_inj this]
    | _ =>
      exfalso
      unfold DLine.hintText at h
      rw [hh] at h
      dsimp only at h
      split at h <;> simp at h

/-- The names and files shown in a hint. -/
def hintWords : Hint → List String
  | .function n _ f => [n, f]
  | .closure n _ f _ => [n, f]
  | .symbol s | .builtin s | .op s => [s]
  | _ => []

private theorem showInt_nl (i : Int) : '\n' ∉ showInt i := by
  unfold showInt
  split
  · simpa using showNat_no digit_nl _
  · exact showNat_no digit_nl _

private theorem debugText_nl (plain : Char → Bool) (s : String) : '\n' ∉ debugText plain s := by
  unfold debugText
  simp only [List.mem_cons, List.mem_append, List.mem_flatMap, List.not_mem_nil, or_false, not_or, not_exists, not_and]
  refine ⟨by decide, fun c _ => ?_, by decide⟩
  unfold debugChar
  split <;> try decide
  split <;> try decide
  split <;> try decide
  split <;> try decide
  split <;> try decide
  split <;> try decide
  split
  · simpa using Ne.symm ‹¬ c = '\n'›
  · have := digit_no (c := '\n') (by decide) (b := 16) (by decide) (by decide) c.toNat
    simpa using this

private theorem hex_nl (b : BitVec 8) : '\n' ∉ hexText b := by
  revert b
  decide +kernel

private theorem joined_nl {xs : List (List Char)} (h : ∀ x ∈ xs, '\n' ∉ x) : '\n' ∉ (xs.intersperse ", ".toList).flatten := by
  have hc : '\n' ∉ ", ".toList := by decide +kernel
  induction xs with
  | nil => simp
  | cons x xs ih =>
    have hx := h x (by simp)
    have ih := ih fun y hy => h y (by simp [hy])
    cases xs with
    | nil => simpa using hx
    | cons y ys => 
      rw [List.intersperse_cons₂, List.flatten_cons, List.flatten_cons]
      simp only [List.mem_append, not_or]
      exact ⟨hx, hc, ih⟩

mutual
private theorem lit_nl (F : FOps) (hF : ∀ f, '\n' ∉ F.toStr f) (plain : Char → Bool) : ∀ l : Literal, '\n' ∉ l.hintText F plain noPaint
  | .none => by unfold Literal.hintText; decide +kernel
  | .bool b => by unfold Literal.hintText noPaint; cases b <;> decide +kernel
  | .int i => by unfold Literal.hintText; exact showInt_nl _
  | .float f => by unfold Literal.hintText; exact hF f
  | .range l r => by
    unfold Literal.hintText noPaint
    simp only [List.mem_append, List.mem_cons, not_or]
    exact ⟨showInt_nl _, by decide, showInt_nl _⟩
  | .color r g b a => by
    unfold Literal.hintText
    simp only [List.mem_append, List.mem_cons, not_or]
    exact ⟨by decide, ⟨⟨hex_nl _, hex_nl _⟩, hex_nl _⟩, hex_nl _⟩
  | .str s => by unfold Literal.hintText; exact debugText_nl plain _
  | .arr xs => by
    have h := lits_nl F hF plain xs
    have hd : '\n' ∉ ", ...]".toList := by decide +kernel
    unfold Literal.hintText
    split
    · simp only [List.mem_append, List.mem_cons, List.not_mem_nil, or_false, not_or]
      exact ⟨⟨by decide, joined_nl h⟩, by decide⟩
    · simp only [List.mem_append, List.mem_cons, not_or]
      exact ⟨⟨by decide, joined_nl fun x hx => h x (List.mem_of_mem_take hx)⟩, hd⟩
  | .pair a b => by
    have hc : '\n' ∉ ", ".toList := by decide +kernel
    unfold Literal.hintText
    simp only [List.mem_append, List.mem_cons, List.not_mem_nil, or_false, not_or]
    exact ⟨by decide, ⟨⟨lit_nl F hF plain a, hc⟩, lit_nl F hF plain b⟩, by decide⟩
termination_by structural l => l
private theorem lits_nl (F : FOps) (hF : ∀ f, '\n' ∉ F.toStr f) (plain : Char → Bool) : ∀ ls : List Literal, ∀ x ∈ Literal.hintTexts F plain noPaint ls, '\n' ∉ x
  | [], x, hx => by unfold Literal.hintTexts at hx; cases hx
  | l :: ls, x, hx => by
    unfold Literal.hintTexts at hx
    rcases List.mem_cons.1 hx with rfl | hx
    · exact lit_nl F hF plain l
    · exact lits_nl F hF plain ls x hx
termination_by structural ls => ls
end

private theorem hint_function (F : FOps) (plain : Char → Bool) (n : String) (line : Nat) (file : String) : (Hint.function n line file).text F plain noPaint =
    "<func ".toList ++ n.toList ++ ", file \"".toList ++ file.toList ++ "\", line ".toList ++ showNat line ++ ['>'] := rfl

private theorem hint_closure (F : FOps) (plain : Char → Bool) (n : String) (line : Nat) (file : String) (ups : Nat) : (Hint.closure n line file ups).text F plain noPaint =
    "<closure ".toList ++ n.toList ++ ", file \"".toList ++ file.toList ++ "\", line ".toList ++ showNat line ++ ", (upvalues=".toList ++ showNat ups ++ ")>".toList := rfl

private theorem hint_symbol (F : FOps) (plain : Char → Bool) (s : String) : (Hint.symbol s).text F plain noPaint = s.toList := rfl

private theorem hint_op (F : FOps) (plain : Char → Bool) (s : String) : (Hint.op s).text F plain noPaint = s.toList := rfl

private theorem hint_builtin (F : FOps) (plain : Char → Bool) (s : String) : (Hint.builtin s).text F plain noPaint = "<builtin ".toList ++ s.toList ++ ['>'] := rfl

private theorem hint_jump (F : FOps) (plain : Char → Bool) (a : Nat) : (Hint.jump a).text F plain noPaint = ">> ".toList ++ showNat a := rfl

private theorem hint_const (F : FOps) (plain : Char → Bool) (l : Literal) : (Hint.const l).text F plain noPaint = l.hintText F plain noPaint := rfl

private theorem hintText_none {F : FOps} {plain : Char → Bool} {l : DLine} (h : l.hint = none) : l.hintText F plain noPaint = [] := by unfold DLine.hintText; rw [h]

private theorem hintText_some {F : FOps} {plain : Char → Bool} {l : DLine} {x : Hint} (h : l.hint = some x) (hj : ∀ a, x ≠ .jump a) :
    l.hintText F plain noPaint = '(' :: (x.text F plain noPaint ++ [')']) := by
  unfold DLine.hintText
  rw [h]
  cases x with
  | jump a => exact absurd rfl (hj a)
  | _ => rfl

/-- The condition of `C75_line` holds unless a name or the name of a file has a line break: texts in constants are escaped. -/
theorem C75_breaks {F : FOps} (hF : ∀ f, '\n' ∉ F.toStr f) (plain : Char → Bool) {l : DLine} (h : ∀ x, l.hint = some x → ∀ w ∈ hintWords x, '\n' ∉ w.toList) :
    '\n' ∉ l.hintText F plain noPaint := by
  have nat : ∀ n, '\n' ∉ showNat n := showNat_no digit_nl
  cases hx : l.hint with
  | none => rw [hintText_none hx]; simp
  | some x =>
    have hw := h x hx
    have f1 : '\n' ∉ "<func ".toList := by decide +kernel
    have f2 : '\n' ∉ ", file \"".toList := by decide +kernel
    have f3 : '\n' ∉ "\", line ".toList := by decide +kernel
    have f4 : '\n' ∉ "<closure ".toList := by decide +kernel
    have f5 : '\n' ∉ ", (upvalues=".toList := by decide +kernel
    have f6 : '\n' ∉ ")>".toList := by decide +kernel
    have f7 : '\n' ∉ "<builtin ".toList := by decide +kernel
    have f8 : '\n' ∉ ">> ".toList := by decide +kernel
    by_cases hj : ∃ a, x = .jump a
    · obtain ⟨a, rfl⟩ := hj
      have e2 : '\n' ∉ "<< ".toList := by decide +kernel
      rw [(C75_jump F plain l).1 a hx]
      simp only [List.mem_append, not_or]
      exact ⟨by split <;> assumption, nat _⟩
    rw [hintText_some hx (fun a e => hj ⟨a, e⟩)]
    simp only [List.mem_cons, List.mem_append, List.not_mem_nil, or_false, not_or]
    refine ⟨by decide, ?_, by decide⟩
    cases x <;> simp only [hintWords, List.mem_cons, List.not_mem_nil, or_false, forall_eq_or_imp, forall_eq] at hw <;>
      simp only [hint_function, hint_closure, hint_symbol, hint_op, hint_builtin, hint_jump, hint_const, List.mem_append, List.mem_cons, List.not_mem_nil, or_false, not_or]
    case const l => exact lit_nl F hF plain l
    case function => exact ⟨⟨⟨⟨⟨⟨f1, hw.1⟩, f2⟩, hw.2⟩, f3⟩, nat _⟩, by decide⟩
    case closure => exact ⟨⟨⟨⟨⟨⟨⟨⟨f4, hw.1⟩, f2⟩, hw.2⟩, f3⟩, nat _⟩, f5⟩, nat _⟩, f6⟩
    case symbol => exact hw
    case builtin => exact ⟨⟨f7, hw⟩, by decide⟩
    case jump => exact ⟨f8, nat _⟩
    case op => exact hw

/-! ## C76: the flags of the command -/

variable {E : Cli.Env} {a : Cli.Args} {k fuel : Nat} {name : String} {file : Except (List Char) (List Char)} {plain : Char → Bool} {paint : Colour → List Char → List Char}

/-- Output with flags: lines before everything else, and perhaps one line (`TOOK: …`) between what the program printed and what follows it. -/
def Added (fl : Flags) (out out' : List Char) : Prop :=
  ∃ pre o1 mid o2, out = o1 ++ o2 ∧ out' = pre ++ o1 ++ mid ++ o2 ∧ (pre = [] ∨ pre.getLast? = some '\n') ∧ (mid = [] ∨ mid = timeLine fl.timeit "TOOK" fl.took)

/-- The same end, but for the output. -/
def SameEnd (fl : Flags) : Option Cli.Outcome → Option Cli.Outcome → Prop
  | none, none => True
  | some .crash, some .crash => True
  | some (.exit e), some (.exit e') => e'.status = e.status ∧ e'.shown = e.shown ∧ Added fl e.out e'.out
  | _, _ => False

private theorem time_end (on : Bool) (label : String) (t : List Char) : timeLine on label t = [] ∨ (timeLine on label t).getLast? = some '\n' := by
  unfold timeLine
  cases on
  · exact .inl rfl
  · rw [if_pos rfl, List.getLast?_append]; exact .inr rfl

private theorem end_append {a b : List Char} (ha : a = [] ∨ a.getLast? = some '\n') (hb : b = [] ∨ b.getLast? = some '\n') : a ++ b = [] ∨ (a ++ b).getLast? = some '\n' := by
  rcases hb with rfl | hb
  · simpa using ha
  · exact .inr (by simp [List.getLast?_append, hb])

private theorem listing_end (ds : List FnDis) : listing plain paint E ds = [] ∨ (listing plain paint E ds).getLast? = some '\n' := by
  unfold listing
  induction ds with
  | nil => exact .inl rfl
  | cons d ds ih => rw [List.map_cons, List.flatten_cons]; exact end_append (.inr (by rw [List.getLast?_append]; rfl)) ih

private theorem before_end {fl : Flags} {c : Sources} {script : Script} {pre : List Char} (h : before plain paint E fl c script = some pre) : pre = [] ∨ pre.getLast? = some '\n' := by
  unfold before at h
  dsimp only at h
  split at h
  · rw [Option.map_eq_some_iff] at h
    obtain ⟨ds, _, rfl⟩ := h
    exact end_append (end_append (end_append (time_end ..) (time_end ..)) (time_end ..)) (listing_end ds)
  · cases h
    exact end_append (time_end ..) (time_end ..)

private theorem lineno_mono {ss : Sources} {g : List String} {a b : Span} (h : Inside a b) (ha : (Sources.denv ss g).lineno a = none) : (Sources.denv ss g).lineno b = none := by
  obtain ⟨h1, h2, -⟩ := h
  simp only [Sources.denv, Sources.lineno, h1] at ha ⊢
  cases hs : ss[a.src]? with
  | none => rfl
  | some s =>
    obtain ⟨n, T⟩ := s
    simp only [hs] at ha
    dsimp only
    by_cases hne : (Source.ofText T).len = 0
    · rw [if_pos hne]
    · rw [if_neg hne] at ha ⊢
      have hT : T ≠ [] := by rintro rfl; exact hne rfl
      have h4 := offsetLine_total hT a.start
      have h5 := offsetLine_total hT b.start
      unfold Source.offsetLine at ha h4 h5 ⊢
      by_cases hb : b.start ≤ (Source.ofText T).len
      · rw [if_pos (by omega)] at ha h4
        dsimp only at ha h4
        split at h4
        · next hlt => rw [if_pos hlt] at ha; simp [Res.map] at ha
        · exact absurd rfl h4
      · rw [if_neg hb]; rfl

/-- For programs read from files no instruction has a known line only in its later bytes: positions in it do not go backwards. -/
theorem steady {E : Cli.Env} {k : Nat} {name : String} {src : List Char} {ast : List Node} {script : Script} {c : Cache} (hp : parseWithIncludes E.W k name src ⟨[], []⟩ = (.ok ast, c))
    (hc : compile E.cfg ast = .ok script) (hsz : sizeL ast ≤ 65535) {f : Func} (hw : Within script.fn f) : Steady (Sources.denv c.sources script.syms.entries) f := by
  intro p n i hb hd h0 j hj
  obtain ⟨hn, sp, last, ho, h1, h2⟩ := C60_origin hc hsz hw hb hd
  have hneat := parsed_neat hp
  have hin : Inside sp last := by
    cases i
    case callBuiltin b m => obtain ⟨x, args, h3, _, rfl⟩ := ho; exact (hneat _ h3).names x (by simp [Node.names])
    case enterContext b m => obtain ⟨x, args, v, b, h3, _, rfl⟩ := ho; exact (hneat _ h3).names x (by simp [Node.names])
    all_goals first | exact ho.elim | (obtain ⟨rfl, _⟩ := ho; exact Inside.refl _) | (simp only [Origin] at ho; subst ho; exact Inside.refl _)
  by_cases h3 : n = 1
  · subst h3
    have : j = 0 := by omega
    subst this; exact h0
  · have h4 := h1 0 (by omega)
    rw [Nat.add_zero] at h4
    by_cases h5 : j + 1 < n
    · rw [h1 j h5, ← h4]; exact h0
    · rw [show p + j = p + n - 1 by omega, h2]
      exact lineno_mono hin (h4 ▸ h0)

/-- The listing can be made for every program that compiles: one entry per function, with all its instructions that come from a known line (`C76_listed_partial` tells when these are
all). -/
theorem C76_listed {E : Cli.Env} {k : Nat} {name : String} {src : List Char} {ast : List Node} {script : Script} {c : Cache} (hp : parseWithIncludes E.W k name src ⟨[], []⟩ = (.ok ast, c))
    (hc : compile E.cfg ast = .ok script) (hsz : sizeL ast ≤ 65535) :
    ∃ ds, Disasm.script (Sources.denv c.sources script.syms.entries) script.fn = some ds ∧ Lists (Sources.denv c.sources script.syms.entries) script.fn.all ds :=
  (C43_listing_partial _ hc hsz fun _ hw => steady hp hc hsz hw).1

/-- Flags only add lines to the output: exit status, report, crashes and whether the command ends at all are as without them. (Programs of more than 65535 nodes
are left out where a listing is asked for.) -/
theorem C76_flags (fl : Flags) (hl : ∀ src ast c script, file = .ok src → parseWithIncludes E.W k name src ⟨[], []⟩ = (.ok ast, c) → compile E.cfg ast = .ok script →
      fl.disassemble = true → sizeL ast ≤ 65535) :
    SameEnd fl (main E a k fuel name file) (mainWith plain paint E a fl k fuel name file) := by
  unfold Cli.main mainWith
  cases file with
  | error e => exact ⟨rfl, rfl, [], [], [], [], rfl, rfl, .inl rfl, .inl rfl⟩
  | ok src =>
    have hl := hl src
    dsimp only
    generalize hp : parseWithIncludes E.W k name src ⟨[], []⟩ = r at hl
    obtain ⟨o, c⟩ := r
    cases o with
    | oof => trivial
    | err e => exact ⟨rfl, rfl, [], [], [], [], rfl, rfl, .inl rfl, .inl rfl⟩
    | ok ast =>
      dsimp only
      have hl := hl ast c
      cases hc : compile E.cfg ast with
      | panic => trivial
      | err e sp => exact ⟨rfl, rfl, timeLine fl.debug "PARSED" fl.parsed, [], [], [], rfl, by simp only [List.append_nil], time_end .., .inl rfl⟩
      | ok script =>
        have hl := hl script rfl rfl hc
        dsimp only
        cases hb : before plain paint E fl c.sources script with
        | none =>
          exfalso
          unfold before at hb
          dsimp only at hb
          split at hb
          · next hd =>
            obtain ⟨ds, h1, _⟩ := C76_listed hp hc (hl hd)
            simp [h1] at hb
          · cases hb
        | some pre =>
          have he := before_end hb
          dsimp only
          cases (machine E a script).run (expired E a) fuel with
          | none => trivial
          | some r =>
            simp only [Option.bind_some]
            cases r with
            | next s => trivial
            | panic => trivial
            | done v s => exact ⟨rfl, rfl, pre, _, _, _, rfl, rfl, he, .inr rfl⟩
            | err e sp s =>
              simp only [finish, finishWith]
              cases Machine.traceText c.sources (Machine.traceBack s) with
              | ok t => exact ⟨rfl, rfl, pre, _, _, _, rfl, rfl, he, .inr rfl⟩
              | err e => trivial
              | panic => trivial

/-- Without flags nothing changes. -/
theorem C76_none : mainWith plain paint E a {} k fuel name file = main E a k fuel name file := by
  unfold Cli.main mainWith
  cases file with
  | error e => rfl
  | ok src =>
    dsimp only
    cases parseWithIncludes E.W k name src ⟨[], []⟩ with
    | mk o c =>
      cases o with
      | oof => rfl
      | err e => rfl
      | ok ast =>
        dsimp only
        cases compile E.cfg ast with
        | panic => rfl
        | err e sp => rfl
        | ok script =>
          simp only [before, timeLine, Bool.false_eq_true, if_false]
          congr 1
          funext r
          cases r with
          | err e sp s => simp only [finish, finishWith, timeLine]; cases Machine.traceText c.sources (Machine.traceBack s) <;> simp
          | _ => simp [finish, finishWith, timeLine]

theorem ascii_bytes {t : List Char} (h : ∀ c ∈ t, c.toNat < 128) : Peg.bytes t = t.length := by
  induction t with
  | nil => rfl
  | cons c t ih =>
    have hc := h c (by simp)
    have ih := ih fun d hd => h d (by simp [hd])
    unfold Peg.bytes at ih ⊢
    have : c.utf8Size = 1 := by
      unfold Char.utf8Size
      have : c.val.toNat < 128 := hc
      rw [if_pos (by rw [UInt32.le_iff_toNat_le]; simp; omega)]
    simp only [List.map_cons, List.sum_cons, List.length_cons, this, ih]; omega

theorem main_source {W : World} {src : List Char} {ast : List Node} {c c' : Cache} (hp : parseWithIncludes W k name src c = (.ok ast, c')) : c'.sources ≠ [] := by
  cases k with
  | zero => unfold parseWithIncludes at hp; cases hp
  | succ k =>
    unfold parseWithIncludes at hp
    obtain ⟨x, c1, h1, h2⟩ := IM.bind_ok.1 hp
    have h3 := (each_sited (includes_sited k).2 h2 (addParse_sited h1).2).1
    obtain ⟨-, rfl⟩ := addParse_ok.1 h1
    intro h4
    rw [h4] at h3
    simp at h3

/-- All instructions come from a known line, if the files are not empty and all their characters are ASCII. Missing: files with other characters, for which it is false
(`C76_violated_characters`). -/
theorem C76_listed_partial {src : List Char} {ast : List Node} {script : Script} {c : Cache} (hp : parseWithIncludes E.W k name src ⟨[], []⟩ = (.ok ast, c)) (hc : compile E.cfg ast = .ok script)
    (hsz : sizeL ast ≤ 65535) (hs : ∀ s ∈ c.sources, s.2 ≠ [] ∧ ∀ ch ∈ s.2, ch.toNat < 128) {f : Func} (hw : Within script.fn f) (p : Nat) :
    (Sources.denv c.sources script.syms.entries).lineno (f.getSpan p) ≠ none := by
  have h0 := main_source hp
  have known : ∀ sp, (SpanOf ast sp ∨ sp = Span.default) → (Sources.denv c.sources script.syms.entries).lineno sp ≠ none := by
    intro sp h
    have h1 : ∃ n T, c.sources[sp.src]? = some (n, T) ∧ sp.start ≤ T.length := by
      rcases h with h | rfl
      · obtain ⟨n, T, h1, -, pre, mid, post, h2, h3, -⟩ := parsed_spans hp h
        refine ⟨n, T, h1, ?_⟩
        have := (hs _ (List.mem_of_getElem? h1)).2
        rw [h3, ascii_bytes (t := pre) (fun ch hch => this ch (by simp [h2, hch])), h2]
        simp
      · cases hcs : c.sources with
        | nil => exact absurd hcs h0
        | cons s ss => exact ⟨s.1, s.2, rfl, Nat.zero_le _⟩
    obtain ⟨n, T, h1, h2⟩ := h1
    have hne := (hs _ (List.mem_of_getElem? h1)).1
    have h4 := offsetLine_total hne sp.start
    have h5 : (Source.ofText T).len = T.length := rfl
    have h6 : T.length ≠ 0 := by simpa using hne
    simp only [Sources.denv, Sources.lineno, h1, h5, if_neg h6]
    unfold Source.offsetLine at h4 ⊢
    rw [if_pos (by rw [h5]; exact h2)] at h4 ⊢
    dsimp only at h4 ⊢
    split at h4
    · next hlt => rw [if_pos hlt]; simp [Res.map]
    · exact absurd rfl h4
  have hf := compile_fnAt hc hsz
  refine known _ ?_
  cases hf.within hw with
  | mk c1 _ _ _ _ h5 h6 _ _ =>
    rw [Func.getSpan, h5]
    cases hx : c1.spans[p]? with
    | none => exact .inr rfl
    | some sp => exact GS.spans_at h6 sp (List.mem_of_getElem? hx)

/-- The functions of a listing of a program text, with the number of instructions shown and of bytes of code. -/
private def shown (src : String) : Option (List (String × Nat × Nat)) :=
  match parseWithIncludes Check.env.W 1 "main" src.toList ⟨[], []⟩ with
  | (.ok ast, c) => match compile Check.env.cfg ast with
    | .ok script => (Disasm.script (Sources.denv c.sources script.syms.entries) script.fn).map fun (ds : List FnDis) =>
        ds.map fun d => (d.name, d.lines.length, script.fn.ops.length)
    | _ => none
  | _ => none

/-- The listing that `C76_listed_partial` speaks of. -/
example : shown "// a comment without them\n@print(1)" = some [("@__main__", 3, 8)] := by decide +kernel

/-- Violated: positions are counted in bytes and looked up as if they were counted in characters. After enough characters other than ASCII nothing is listed at all:
here `--disassemble` shows a program without instructions. -/
theorem C76_violated_characters : shown "// éééééééééééééééééééé\n@print(1)" = some [("@__main__", 0, 8)] := by decide +kernel

/-- The output with all flags. -/
example : (match mainWith (fun _ => true) noPaint Check.env { result := true } { disassemble := true, timeit := true, debug := true, took := "1ms".toList } 1 100 "main"
      (.ok "let x = 4\n@print(x, \"a\")\n7".toList) with
    | some (.exit e) => decide (e.status = 0) && decide (e.out =
        ("PARSED: \nCOMPILED: \nDISASSEMBLED: \n" ++
         "Disassembly of <func @__main__, file \"main\", line 1>\n" ++
         "1          0    LoadConst       0    (4)\n" ++
         "           3    DefineGlobal    0    (x)\n\n" ++
         "2          6    LoadGlobal      0    (x)\n" ++
         "           9    LoadConst       1    (\"a\")\n" ++
         "           12   CallBuiltin     2    (<builtin print>)\n" ++
         "           16   Pop                  \n\n" ++
         "3          17   LoadConst       2    (7)\n" ++
         "           20   Return               \n\n" ++
         "4 a TOOK: 1ms\nRETURNED: 7\n").toList)
    | _ => false) = true := by decide +kernel

end Quilt.Props
