import Verif.Lib.Io
import Verif.Sem.Errors

/-!
# Crashes of the standard library

Only the builtins `crashers` can crash.
-/

namespace Quilt
namespace Lib

open Quilt
variable {α β C D : Type}

/-- The builtins that can crash: `slice` with an end beyond the list, `randfloat` with a range of NaN or one that is too large, `clamp` if the
comparisons of floats contradict each other (those of IEEE do not, `C87_clamp`); in builds that check arithmetic also those that turn the sign of a number, of which the least has no counterpart. -/
def crashers : Bool → List String
  | false => ["slice", "clamp", "randfloat"]
  | true => ["slice", "clamp", "randfloat", "get", "set", "abs"]

/-- Does not crash. -/
structure Calm (r : Res α) : Prop where
  of : r ≠ .panic

theorem Calm.ok {a : α} : Calm (.ok a) := ⟨by simp⟩
theorem Calm.err {e : Err} : Calm (.err e : Res α) := ⟨by simp⟩
theorem Calm.fail {msg : List Char} : Calm (fail msg : Res α) := .err
theorem Calm.bind {r : Res α} {f : α → Res β} (h : Calm r) (hf : ∀ a, Calm (f a)) : Calm (r.bind f) := by
  cases r with
  | ok a => exact hf a
  | err e => exact .err
  | panic => exact absurd rfl h.of
theorem Calm.map {r : Res α} {f : α → β} (h : Calm r) : Calm (r.map f) := by
  cases r with
  | ok a => exact .ok
  | err e => exact .err
  | panic => exact absurd rfl h.of

/-- Splits and closes the leaves. -/
macro "calm" : tactic => `(tactic| repeat' first
  | exact Calm.ok | exact Calm.fail | exact Calm.err | (refine Calm.bind ?_ fun _ => ?_) | apply Calm.map | split)

theorem consume_calm (a : Args C) (w : String) : Calm (a.consume w) := by
  unfold Args.consume
  split <;> calm

theorem take_calm (L : Ops) (k : PKind) (a : Args C) : Calm (a.take L k) := by
  cases k <;> simp only [Args.take, Args.int, Args.int32, Args.u8, Args.bool, Args.float, Args.double, Args.num, Args.str, Args.color, Args.list,
    Args.pair, Args.rest, Args.any, Args.special]
  case rest => exact .ok
  case any => exact consume_calm ..
  all_goals
    refine (consume_calm ..).bind fun p => ?_
    obtain ⟨v, a⟩ := p
    dsimp only
    calm

theorem stop_calm (a : Args C) : Calm a.stop := by
  unfold Args.stop
  split <;> calm

theorem takeReq_calm (L : Ops) : ∀ (ks : List PKind) (a : Args C), Calm (takeReq L ks a)
  | [], _ => .ok
  | k :: ks, a => (take_calm L k a).bind fun _ => (takeReq_calm L ks _).map

theorem takeOpt_calm (L : Ops) : ∀ (os : OptParams C) (a : Args C), Calm (takeOpt L os a)
  | [], _ => .ok
  | o :: os, a => by
    refine Calm.bind ?_ fun _ => (takeOpt_calm L os _).map
    unfold Args.optional
    split
    · exact .ok
    · exact (take_calm L _ a).map

/-- A builtin that fails with ordinary errors only. -/
structure BCalm (f : BFn D C) : Prop where
  of : ∀ d args lim, Calm (f d args lim).1

theorem builtin_calm {L : Ops} {req : List PKind} {opt : OptParams C} {body : Params C req → Params C (opt.map (·.1)) → Limits → Res (Val C)}
    (h : ∀ xs ys lim, Calm (body xs ys lim)) : BCalm (builtin L req opt body : BFn D C) :=
  ⟨fun _ _ lim => (takeReq_calm L req _).bind fun _ => (takeOpt_calm L opt _).bind fun _ => (stop_calm _).bind fun _ => h _ _ lim⟩

theorem builtinIo_calm {L : Ops} {req : List PKind} {body : Params C req → Io → Res (Val C) × Io} (h : ∀ xs d, Calm (body xs d).1) :
    BCalm (builtinIo L req body : BFn Io C) := by
  refine ⟨fun d args lim => ?_⟩
  unfold builtinIo
  have : Calm ((takeReq L req (Args.new args)).bind fun (xs, a) => a.stop.map fun _ => xs) := (takeReq_calm L req _).bind fun _ => (stop_calm _).map
  generalize ((takeReq L req (Args.new args)).bind fun (xs, a) => a.stop.map fun _ => xs) = r at this
  cases r with
  | ok xs => exact h xs d
  | err e => exact .err
  | panic => exact absurd rfl this.of

theorem fixIndex_calm (i : BitVec 64) (n : Nat) : Calm (fixIndex false i n) := by
  refine ⟨?_⟩
  unfold fixIndex
  dsimp only
  repeat' split
  all_goals simp only [Res.bind]
  all_goals repeat' split
  all_goals simp_all

theorem makeArray_calm (xs : List (Val C)) (m : Nat) : Calm (makeArray xs m) := by
  unfold makeArray Vecc.tryNewFrom
  calm

/-- All entries of a library. -/
def LibCalm (chk : Bool) (l : List (String × BFn D C)) : Prop := ∀ p ∈ l, p.1 ∈ crashers chk ∨ BCalm p.2

theorem LibCalm.nil {chk : Bool} : LibCalm chk ([] : List (String × BFn D C)) := by simp [LibCalm]
theorem LibCalm.cons {chk : Bool} {x : String} {f : BFn D C} {l : List (String × BFn D C)} (h : x ∈ crashers chk ∨ BCalm f) (hl : LibCalm chk l) : LibCalm chk ((x, f) :: l) := by
  intro p hp
  rcases List.mem_cons.1 hp with rfl | hp
  · exact h
  · exact hl p hp
theorem LibCalm.append {chk : Bool} {l l' : List (String × BFn D C)} (h : LibCalm chk l) (h' : LibCalm chk l') : LibCalm chk (l ++ l') := by
  intro p hp
  rcases List.mem_append.1 hp with hp | hp
  · exact h p hp
  · exact h' p hp


section
variable (L : Ops) (chk : Bool) (lim : Limits) (O : Outside) (cname : C → String)

theorem get_calm (l : List (Val C)) (i : BitVec 64) : Calm (get false l i) := by
  unfold get
  refine (fixIndex_calm ..).bind fun _ => ?_
  calm
theorem set_calm (l : List (Val C)) (i : BitVec 64) (v : Val C) : Calm (set false lim l i v) := by
  unfold set
  refine (fixIndex_calm ..).bind fun _ => ?_
  split
  · exact makeArray_calm ..
  · calm
theorem str_calm (v : Val C) : Calm (str L.F cname v) := .ok
theorem inBase_calm (b : Nat) (i : BitVec 64) : Calm (inBase b i : Res (Val C)) := .ok
theorem char_calm (i : BitVec 64) : Calm (char i : Res (Val C)) := by unfold char; dsimp only; calm
theorem intFromRadix_calm (s : List Char) (r : BitVec 32) : Calm (intFromRadix s r : Res (Val C)) := by unfold intFromRadix; calm
theorem int_calm (v : Val C) : Calm (int L.F v) := by unfold int; calm
theorem float_calm (v : Val C) : Calm (float L v) := by unfold float; calm
theorem bool_calm (v : Val C) : Calm (bool L.F v) := by unfold bool; calm
theorem color_calm (v : Val C) : Calm (color v) := by unfold color; calm
theorem len_calm (v : Val C) : Calm (len v) := by unfold len; calm

theorem core_calm : LibCalm chk (coreLib L chk cname : List (String × BFn D C)) := by
  have hs : ∀ x ∈ crashers false, x ∈ crashers chk := by cases chk <;> decide
  unfold coreLib
  repeat' apply LibCalm.cons
  all_goals first
    | exact LibCalm.nil
    | exact .inl (hs _ (by decide))
    | (cases chk with | false => exact .inr (builtin_calm fun _ _ _ => get_calm ..) | true => exact .inl (by decide))
    | (cases chk with | false => exact .inr (builtin_calm fun _ _ _ => set_calm ..) | true => exact .inl (by decide))
    | exact .inr (builtin_calm fun _ _ _ => str_calm ..)
    | exact .inr (builtin_calm fun _ _ _ => inBase_calm ..)
    | exact .inr (builtin_calm fun _ _ _ => char_calm ..)
    | exact .inr (builtin_calm fun _ _ _ => intFromRadix_calm ..)
    | exact .inr (builtin_calm fun _ _ _ => int_calm ..)
    | exact .inr (builtin_calm fun _ _ _ => float_calm ..)
    | exact .inr (builtin_calm fun _ _ _ => bool_calm ..)
    | exact .inr (builtin_calm fun _ _ _ => color_calm ..)
    | exact .inr (builtin_calm fun _ _ _ => len_calm ..)
    | exact .inr (builtin_calm fun _ _ _ => Calm.ok)

theorem logFn_calm (n : String) (v : Val C) : Calm (logFn L n v) := by unfold logFn; calm
theorem hash_calm (v : Val C) : Calm (hash L v) := by unfold hash; calm
theorem minMax_calm (f g : BitVec 64 → BitVec 64 → BitVec 64) (a b : Val C) : Calm (minMax f g L.F a b) := by unfold minMax; calm
theorem min_calm (a b : Val C) : Calm (min L a b) := minMax_calm ..
theorem max_calm (a b : Val C) : Calm (max L a b) := minMax_calm ..
theorem roundFn_calm (f : BitVec 64 → BitVec 64) (v : Val C) : Calm (roundFn L.F f v) := by unfold roundFn; calm
theorem fix_calm (v : Val C) (i : BitVec 64) : Calm (fix L v i) := by unfold fix; calm
theorem abs_calm (v : Val C) : Calm (abs false L v) := by unfold abs; simp; calm
theorem interp_calm (a b c : BitVec 64) : Calm (interp L.F a b c : Res (Val C)) := by unfold interp; calm

theorem math_calm : LibCalm chk (mathLib L chk : List (String × BFn D C)) := by
  have hs : ∀ x ∈ crashers false, x ∈ crashers chk := by cases chk <;> decide
  unfold mathLib
  repeat' apply LibCalm.cons
  all_goals first
    | exact LibCalm.nil
    | exact .inl (hs _ (by decide))
    | exact .inr (builtin_calm fun _ _ _ => logFn_calm ..)
    | exact .inr (builtin_calm fun _ _ _ => hash_calm ..)
    | exact .inr (builtin_calm fun _ _ _ => min_calm ..)
    | exact .inr (builtin_calm fun _ _ _ => max_calm ..)
    | exact .inr (builtin_calm fun _ _ _ => roundFn_calm ..)
    | exact .inr (builtin_calm fun _ _ _ => fix_calm ..)
    | (cases chk with | false => exact .inr (builtin_calm fun _ _ _ => abs_calm ..) | true => exact .inl (by decide))
    | exact .inr (builtin_calm fun _ _ _ => interp_calm ..)
    | exact .inr (builtin_calm fun _ _ _ => Calm.ok)

theorem test_calm : LibCalm chk (testLib L : List (String × BFn D C)) := by
  unfold testLib
  repeat' apply LibCalm.cons
  · refine .inr (builtin_calm fun xs _ _ => ?_)
    obtain ⟨b, u⟩ := xs
    show Calm (assert b)
    unfold assert
    calm
  · exact .inr (builtin_calm fun _ _ _ => Calm.fail)
  · exact .inr (builtin_calm fun _ _ _ => Calm.fail)
  · exact .inr (builtin_calm fun _ _ _ => Calm.fail)
  · exact LibCalm.nil

theorem color_lib_calm : LibCalm chk (colorLib L : List (String × BFn D C)) := by
  unfold colorLib
  repeat' apply LibCalm.cons
  all_goals first
    | exact LibCalm.nil
    | exact .inl (hs _ (by decide))
    | exact .inr (builtin_calm fun _ _ _ => Calm.ok)
    | exact .inr (builtin_calm fun _ _ _ => makeArray_calm ..)
    | skip
  refine .inr (builtin_calm fun xs _ _ => ?_)
  obtain ⟨c, u⟩ := xs
  show Calm (contrastColor L c)
  unfold contrastColor
  calm

theorem truncate_calm (s : List Char) (n : BitVec 64) (e : List Char) : Calm (truncate s n e : Res (Val C)) := by unfold truncate; dsimp only; calm

theorem string_calm : LibCalm chk (stringLib L cname : List (String × BFn D C)) := by
  unfold stringLib
  repeat' apply LibCalm.cons
  all_goals first
    | exact LibCalm.nil
    | exact .inl (hs _ (by decide))
    | exact .inr (builtin_calm fun _ _ _ => Calm.ok)
    | exact .inr (builtin_calm fun _ _ _ => makeArray_calm ..)
    | exact .inr (builtin_calm fun _ _ _ => truncate_calm ..)
    | skip

theorem std_calm : LibCalm chk (stdLib L chk cname : List (String × BFn D C)) :=
  ((((core_calm L chk cname).append (math_calm L chk)).append (color_lib_calm L chk)).append (string_calm L chk cname)).append (test_calm L chk)

theorem randint_calm (a b : BitVec 64) (d : Io) : Calm (randint O a b d : Res (Val C) × Io).1 := by unfold randint; calm
theorem randchoice_calm (l : List (Val C)) (d : Io) : Calm (randchoice O l d).1 := by
  unfold randchoice
  split
  · calm
  · rename_i hl
    have : 0 < l.length := List.length_pos_iff.2 hl
    split
    · calm
    · rename_i h
      have := Nat.mod_lt (O.rand d.asked).toNat this
      rw [List.getElem?_eq_none_iff] at h
      omega
theorem randomRainbowColor_calm (d : Io) : Calm (randomRainbowColor O d : Res (Val C) × Io).1 := by
  unfold randomRainbowColor
  split
  · calm
  · rename_i h
    have := Nat.mod_lt (O.rand d.asked).toNat (show 0 < 10 by omega)
    rw [List.getElem?_eq_none_iff] at h
    have : (rainbow : List (Val C)).length = 10 := rfl
    omega
theorem now_calm (d : Io) : Calm (now O d : Res (Val C) × Io).1 := by unfold now; calm
theorem date_calm (d : Io) : Calm (date O d : Res (Val C) × Io).1 := by unfold date; calm
theorem input_calm (p : List Char) (d : Io) : Calm (input O p d : Res (Val C) × Io).1 := by unfold input; dsimp only; calm
theorem readfile_calm (p : List Char) (d : Io) : Calm (readfile O p d : Res (Val C) × Io).1 := by unfold readfile; calm
theorem assertEq_calm (a b : Val C) (d : Io) : Calm (assertEq L cname O a b d).1 := by unfold assertEq; calm
theorem assertNe_calm (a b : Val C) (d : Io) : Calm (assertNe L cname O a b d).1 := by unfold assertNe; calm

/-- Every builtin of the library fails, if at all, with an ordinary error. -/
theorem stdio_calm : LibCalm chk (stdioLib L cname O chk) := by
  refine (((((std_calm L chk cname).append ?_).append ?_).append ?_).append ?_).append ?_
  · have hs : ∀ x ∈ crashers false, x ∈ crashers chk := by cases chk <;> decide
    unfold randLib
    repeat' apply LibCalm.cons
    all_goals first
      | exact LibCalm.nil
      | exact .inl (hs _ (by decide))
      | exact .inr (builtinIo_calm fun _ _ => randint_calm ..)
      | exact .inr (builtinIo_calm fun _ _ => randchoice_calm ..)
      | exact .inr (builtinIo_calm fun _ _ => Calm.ok)
  · unfold randColorLib
    repeat' apply LibCalm.cons
    all_goals first
      | exact LibCalm.nil
      | exact .inr (builtinIo_calm fun _ _ => randomRainbowColor_calm ..)
      | exact .inr (builtinIo_calm fun _ _ => Calm.ok)
  · unfold timeLib
    repeat' apply LibCalm.cons
    all_goals first
      | exact LibCalm.nil
      | exact .inr (builtinIo_calm fun _ _ => now_calm ..)
      | exact .inr (builtinIo_calm fun _ _ => date_calm ..)
  · unfold ioLib
    repeat' apply LibCalm.cons
    all_goals first
      | exact LibCalm.nil
      | exact .inr (builtinIo_calm fun _ _ => input_calm ..)
      | exact .inr (builtinIo_calm fun _ _ => readfile_calm ..)
      | exact .inr (builtinIo_calm fun _ _ => Calm.ok)
  · unfold compareLib
    repeat' apply LibCalm.cons
    all_goals first
      | exact LibCalm.nil
      | exact .inr (builtinIo_calm fun _ _ => assertEq_calm ..)
      | exact .inr (builtinIo_calm fun _ _ => assertNe_calm ..)
end

end Lib
end Quilt
