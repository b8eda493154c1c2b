import Verif.Lib.Io
import Verif.Sem.Errors

/-!
# The errors of the standard library

Every builtin fails, if at all, with an error of operations on values or with one that has a message (`Err.ofLib`).
-/

namespace Quilt

/-- Errors of the language, and errors with a message. -/
def Err.ordinary : Err → Bool
  | .builtin _ => true
  | e => e.language

/-- Errors of operations on values, and errors with a message. -/
def Err.ofLib : Err → Bool
  | .builtin _ => true
  | e => e.ofValue

theorem Err.ordinary_of {e : Err} (h : e.language = true) : e.ordinary = true := by
  cases e <;> first | rfl | exact h

theorem Err.ofLib_of {e : Err} (h : e.ofValue = true) : e.ofLib = true := by
  cases e <;> first | rfl | exact h

theorem Err.ordinary_lib {e : Err} (h : e.ofLib = true) : e.ordinary = true := by
  cases e <;> first | rfl | exact h | cases h

namespace Lib

open Quilt
variable {α β C D : Type}

/-- Fails, if at all, with such an error. -/
structure Ord (r : Res α) : Prop where
  of : ∀ e, r = .err e → e.ofLib = true

theorem Ord.ok {a : α} : Ord (.ok a) := ⟨by simp⟩
theorem Ord.panic : Ord (.panic : Res α) := ⟨by simp⟩
theorem Ord.err {e : Err} (h : e.ofLib = true) : Ord (.err e : Res α) := ⟨by simp [h]⟩
theorem Ord.fail {msg : List Char} : Ord (fail msg : Res α) := .err rfl
theorem Ord.bind {r : Res α} {f : α → Res β} (h : Ord r) (hf : ∀ a, Ord (f a)) : Ord (r.bind f) := by
  cases r with
  | ok a => exact hf a
  | err e => exact .err (h.of e rfl)
  | panic => exact .panic
theorem Ord.map {r : Res α} {f : α → β} (h : Ord r) : Ord (r.map f) := by
  cases r with
  | ok a => exact .ok
  | err e => exact .err (h.of e rfl)
  | panic => exact .panic
theorem Ord.lang {r : Res α} (h : r.Lang) : Ord r := ⟨fun e he => Err.ofLib_of (h.of e he)⟩

/-- Splits and closes the leaves. -/
macro "ord" : tactic => `(tactic| repeat' first
  | exact Ord.ok | exact Ord.panic | exact Ord.fail | exact Ord.err rfl | (refine Ord.bind ?_ fun _ => ?_) | apply Ord.map | split)

theorem consume_ord (a : Args C) (w : String) : Ord (a.consume w) := by
  unfold Args.consume
  split <;> ord

theorem take_ord (L : Ops) (k : PKind) (a : Args C) : Ord (a.take L k) := by
  cases k <;> simp only [Args.take, Args.int, Args.int32, Args.u8, Args.bool, Args.float, Args.double, Args.num, Args.str, Args.color, Args.list,
    Args.pair, Args.rest, Args.any, Args.special]
  case rest => exact .ok
  case any => exact consume_ord ..
  all_goals
    refine (consume_ord ..).bind fun p => ?_
    obtain ⟨v, a⟩ := p
    dsimp only
    ord

theorem stop_ord (a : Args C) : Ord a.stop := by
  unfold Args.stop
  split <;> ord

theorem takeReq_ord (L : Ops) : ∀ (ks : List PKind) (a : Args C), Ord (takeReq L ks a)
  | [], _ => .ok
  | k :: ks, a => (take_ord L k a).bind fun _ => (takeReq_ord L ks _).map

theorem takeOpt_ord (L : Ops) : ∀ (os : OptParams C) (a : Args C), Ord (takeOpt L os a)
  | [], _ => .ok
  | o :: os, a => by
    refine Ord.bind ?_ fun _ => (takeOpt_ord L os _).map
    unfold Args.optional
    split
    · exact .ok
    · exact (take_ord L _ a).map

/-- A builtin that fails with ordinary errors only. -/
structure BOrd (f : BFn D C) : Prop where
  of : ∀ d args lim, Ord (f d args lim).1

theorem builtin_ord {L : Ops} {req : List PKind} {opt : OptParams C} {body : Params C req → Params C (opt.map (·.1)) → Limits → Res (Val C)}
    (h : ∀ xs ys lim, Ord (body xs ys lim)) : BOrd (builtin L req opt body : BFn D C) :=
  ⟨fun _ _ lim => (takeReq_ord L req _).bind fun _ => (takeOpt_ord L opt _).bind fun _ => (stop_ord _).bind fun _ => h _ _ lim⟩

theorem builtinIo_ord {L : Ops} {req : List PKind} {body : Params C req → Io → Res (Val C) × Io} (h : ∀ xs d, Ord (body xs d).1) :
    BOrd (builtinIo L req body : BFn Io C) := by
  refine ⟨fun d args lim => ?_⟩
  unfold builtinIo
  have : Ord ((takeReq L req (Args.new args)).bind fun (xs, a) => a.stop.map fun _ => xs) := (takeReq_ord L req _).bind fun _ => (stop_ord _).map
  generalize ((takeReq L req (Args.new args)).bind fun (xs, a) => a.stop.map fun _ => xs) = r at this
  cases r with
  | ok xs => exact h xs d
  | err e => exact .err (this.of e rfl)
  | panic => exact .panic

theorem fixIndex_ord (chk : Bool) (i : BitVec 64) (n : Nat) : Ord (fixIndex chk i n) := .lang (Val.fixIndex_lang chk i n)

theorem makeArray_ord (xs : List (Val C)) (m : Nat) : Ord (makeArray xs m) := by
  unfold makeArray Vecc.tryNewFrom
  ord

theorem sliceBound_ord (chk : Bool) (n : Nat) (i b : BitVec 64) : Ord (sliceBound chk n i b) := by
  unfold sliceBound
  ord

/-- All entries of a library. -/
def LibOrd (l : List (String × BFn D C)) : Prop := ∀ p ∈ l, BOrd p.2

theorem LibOrd.nil : LibOrd ([] : List (String × BFn D C)) := by simp [LibOrd]
theorem LibOrd.cons {x : String} {f : BFn D C} {l : List (String × BFn D C)} (h : BOrd f) (hl : LibOrd l) : LibOrd ((x, f) :: l) := by
  intro p hp
  rcases List.mem_cons.1 hp with rfl | hp
  · exact h
  · exact hl p hp
theorem LibOrd.append {l l' : List (String × BFn D C)} (h : LibOrd l) (h' : LibOrd l') : LibOrd (l ++ l') := by
  intro p hp
  rcases List.mem_append.1 hp with hp | hp
  · exact h p hp
  · exact h' p hp


section
variable (L : Ops) (chk : Bool) (lim : Limits) (O : Outside) (cname : C → String)

theorem get_ord (l : List (Val C)) (i : BitVec 64) : Ord (get chk l i) := by
  unfold get
  refine (fixIndex_ord ..).bind fun _ => ?_
  ord
theorem set_ord (l : List (Val C)) (i : BitVec 64) (v : Val C) : Ord (set chk lim l i v) := by
  unfold set
  refine (fixIndex_ord ..).bind fun _ => ?_
  split
  · exact makeArray_ord ..
  · ord
theorem slice_ord (l : List (Val C)) (i j : BitVec 64) : Ord (slice chk l i j) := by
  unfold slice
  refine (sliceBound_ord ..).bind fun _ => (sliceBound_ord ..).bind fun _ => ?_
  ord
theorem str_ord (v : Val C) : Ord (str L.F cname v) := .ok
theorem inBase_ord (b : Nat) (i : BitVec 64) : Ord (inBase b i : Res (Val C)) := .ok
theorem char_ord (i : BitVec 64) : Ord (char i : Res (Val C)) := by unfold char; dsimp only; ord
theorem intFromRadix_ord (s : List Char) (r : BitVec 32) : Ord (intFromRadix s r : Res (Val C)) := by unfold intFromRadix; ord
theorem int_ord (v : Val C) : Ord (int L.F v) := by unfold int; ord
theorem float_ord (v : Val C) : Ord (float L v) := by unfold float; ord
theorem bool_ord (v : Val C) : Ord (bool L.F v) := by unfold bool; ord
theorem color_ord (v : Val C) : Ord (color v) := by unfold color; ord
theorem len_ord (v : Val C) : Ord (len v) := by unfold len; ord

theorem core_ord : LibOrd (coreLib L chk cname : List (String × BFn D C)) := by
  unfold coreLib
  repeat' apply LibOrd.cons
  all_goals first
    | exact LibOrd.nil
    | exact builtin_ord fun _ _ _ => get_ord ..
    | exact builtin_ord fun _ _ _ => set_ord ..
    | exact builtin_ord fun _ _ _ => slice_ord ..
    | exact builtin_ord fun _ _ _ => str_ord ..
    | exact builtin_ord fun _ _ _ => inBase_ord ..
    | exact builtin_ord fun _ _ _ => char_ord ..
    | exact builtin_ord fun _ _ _ => intFromRadix_ord ..
    | exact builtin_ord fun _ _ _ => int_ord ..
    | exact builtin_ord fun _ _ _ => float_ord ..
    | exact builtin_ord fun _ _ _ => bool_ord ..
    | exact builtin_ord fun _ _ _ => color_ord ..
    | exact builtin_ord fun _ _ _ => len_ord ..
    | exact builtin_ord fun _ _ _ => Ord.ok

theorem logFn_ord (n : String) (v : Val C) : Ord (logFn L n v) := by unfold logFn; ord
theorem hash_ord (v : Val C) : Ord (hash L v) := by unfold hash; ord
theorem minMax_ord (f g : BitVec 64 → BitVec 64 → BitVec 64) (a b : Val C) : Ord (minMax f g L.F a b) := by unfold minMax; ord
theorem min_ord (a b : Val C) : Ord (min L a b) := minMax_ord ..
theorem max_ord (a b : Val C) : Ord (max L a b) := minMax_ord ..
theorem roundFn_ord (f : BitVec 64 → BitVec 64) (v : Val C) : Ord (roundFn L.F f v) := by unfold roundFn; ord
theorem fix_ord (v : Val C) (i : BitVec 64) : Ord (fix L v i) := by unfold fix; ord
theorem abs_ord (v : Val C) : Ord (abs chk L v) := by unfold abs; ord
theorem clamp_ord (a b c : BitVec 64) : Ord (clamp L a b c : Res (Val C)) := by unfold clamp; ord
theorem interp_ord (a b c : BitVec 64) : Ord (interp L.F a b c : Res (Val C)) := by unfold interp; ord

theorem math_ord : LibOrd (mathLib L chk : List (String × BFn D C)) := by
  unfold mathLib
  repeat' apply LibOrd.cons
  all_goals first
    | exact LibOrd.nil
    | exact builtin_ord fun _ _ _ => logFn_ord ..
    | exact builtin_ord fun _ _ _ => hash_ord ..
    | exact builtin_ord fun _ _ _ => min_ord ..
    | exact builtin_ord fun _ _ _ => max_ord ..
    | exact builtin_ord fun _ _ _ => roundFn_ord ..
    | exact builtin_ord fun _ _ _ => fix_ord ..
    | exact builtin_ord fun _ _ _ => abs_ord ..
    | exact builtin_ord fun _ _ _ => clamp_ord ..
    | exact builtin_ord fun _ _ _ => interp_ord ..
    | exact builtin_ord fun _ _ _ => Ord.ok

theorem test_ord : LibOrd (testLib L : List (String × BFn D C)) := by
  unfold testLib
  repeat' apply LibOrd.cons
  · refine builtin_ord fun xs _ _ => ?_
    obtain ⟨b, u⟩ := xs
    show Ord (assert b)
    unfold assert
    ord
  · exact builtin_ord fun _ _ _ => Ord.fail
  · exact builtin_ord fun _ _ _ => Ord.fail
  · exact builtin_ord fun _ _ _ => Ord.fail
  · exact LibOrd.nil

theorem color_lib_ord : LibOrd (colorLib L : List (String × BFn D C)) := by
  unfold colorLib
  repeat' apply LibOrd.cons
  all_goals first
    | exact LibOrd.nil
    | exact builtin_ord fun _ _ _ => Ord.ok
    | exact builtin_ord fun _ _ _ => makeArray_ord ..
    | skip
  refine builtin_ord fun xs _ _ => ?_
  obtain ⟨c, u⟩ := xs
  show Ord (contrastColor L c)
  unfold contrastColor
  ord

theorem truncate_ord (s : List Char) (n : BitVec 64) (e : List Char) : Ord (truncate s n e : Res (Val C)) := by unfold truncate; dsimp only; ord

theorem string_ord : LibOrd (stringLib L cname : List (String × BFn D C)) := by
  unfold stringLib
  repeat' apply LibOrd.cons
  all_goals first
    | exact LibOrd.nil
    | exact builtin_ord fun _ _ _ => Ord.ok
    | exact builtin_ord fun _ _ _ => makeArray_ord ..
    | exact builtin_ord fun _ _ _ => truncate_ord ..
    | skip

theorem std_ord : LibOrd (stdLib L chk cname : List (String × BFn D C)) :=
  ((((core_ord L chk cname).append (math_ord L chk)).append (color_lib_ord L)).append (string_ord L cname)).append (test_ord L)

theorem randint_ord (a b : BitVec 64) (d : Io) : Ord (randint O a b d : Res (Val C) × Io).1 := by unfold randint; ord
theorem randfloat_ord (a b : BitVec 64) (d : Io) : Ord (randfloat L O a b d : Res (Val C) × Io).1 := by unfold randfloat; ord
theorem randchoice_ord (l : List (Val C)) (d : Io) : Ord (randchoice O l d).1 := by unfold randchoice; ord
theorem randomRainbowColor_ord (d : Io) : Ord (randomRainbowColor O d : Res (Val C) × Io).1 := by unfold randomRainbowColor; ord
theorem now_ord (d : Io) : Ord (now O d : Res (Val C) × Io).1 := by unfold now; ord
theorem date_ord (d : Io) : Ord (date O d : Res (Val C) × Io).1 := by unfold date; ord
theorem input_ord (p : List Char) (d : Io) : Ord (input O p d : Res (Val C) × Io).1 := by unfold input; dsimp only; ord
theorem readfile_ord (p : List Char) (d : Io) : Ord (readfile O p d : Res (Val C) × Io).1 := by unfold readfile; ord
theorem assertEq_ord (a b : Val C) (d : Io) : Ord (assertEq L cname O a b d).1 := by unfold assertEq; ord
theorem assertNe_ord (a b : Val C) (d : Io) : Ord (assertNe L cname O a b d).1 := by unfold assertNe; ord

/-- Every builtin of the library fails, if at all, with an ordinary error. -/
theorem stdio_ord : LibOrd (stdioLib L cname O chk) := by
  refine (((((std_ord L chk cname).append ?_).append ?_).append ?_).append ?_).append ?_
  · unfold randLib
    repeat' apply LibOrd.cons
    all_goals first
      | exact LibOrd.nil
      | exact builtinIo_ord fun _ _ => randint_ord ..
      | exact builtinIo_ord fun _ _ => randfloat_ord ..
      | exact builtinIo_ord fun _ _ => randchoice_ord ..
      | exact builtinIo_ord fun _ _ => Ord.ok
  · unfold randColorLib
    repeat' apply LibOrd.cons
    all_goals first
      | exact LibOrd.nil
      | exact builtinIo_ord fun _ _ => randomRainbowColor_ord ..
      | exact builtinIo_ord fun _ _ => Ord.ok
  · unfold timeLib
    repeat' apply LibOrd.cons
    all_goals first
      | exact LibOrd.nil
      | exact builtinIo_ord fun _ _ => now_ord ..
      | exact builtinIo_ord fun _ _ => date_ord ..
  · unfold ioLib
    repeat' apply LibOrd.cons
    all_goals first
      | exact LibOrd.nil
      | exact builtinIo_ord fun _ _ => input_ord ..
      | exact builtinIo_ord fun _ _ => readfile_ord ..
      | exact builtinIo_ord fun _ _ => Ord.ok
  · unfold compareLib
    repeat' apply LibOrd.cons
    all_goals first
      | exact LibOrd.nil
      | exact builtinIo_ord fun _ _ => assertEq_ord ..
      | exact builtinIo_ord fun _ _ => assertNe_ord ..
end

end Lib
end Quilt
