import Verif.Lib.DocLemmas

/-!
# The documentation of the standard library, compared with the library entry by entry
-/

namespace Quilt.Docs

open Lib

variable {C D : Type} (L : Ops) (chk : Bool) (O : Outside) (cname : C → String)

/-- A result whose type is the promised one, by looking at all ways a body ends. -/
macro "gives" : tactic => `(tactic| focus (repeat' first
  | exact Gives.err | exact Gives.fail | exact Gives.panic | exact Gives.none | exact Gives.any | exact Gives.one rfl
  | (apply Gives.bind; intro _) | split))

/-- The parameters of an entry. -/
macro "sig" : tactic => `(tactic| (repeat' first | exact Sig.nil | (refine Sig.req rfl rfl (by decide) ?_) | (refine Sig.opt rfl rfl (by simp) ?_)))

theorem makeArray_gives (xs : List (Val C)) (m : Nat) : Gives ["list"] (makeArray xs m) := by
  unfold makeArray
  cases Vecc.tryNewFrom Val.getSize xs m with
  | ok v => exact .one rfl
  | err e => exact .err
  | panic => exact .panic

theorem set_gives (lim : Limits) (l : List (Val C)) (i : BitVec 64) (v : Val C) : Gives ["list"] (Lib.set chk lim l i v) := by
  unfold Lib.set
  refine .bind fun _ => ?_
  split
  · exact makeArray_gives ..
  · exact .err

theorem slice_gives (l : List (Val C)) (i j : BitVec 64) : Gives ["list"] (slice chk l i j) := by unfold slice; gives
theorem char_gives (i : BitVec 64) : Gives ["str"] (char i : Res (Val C)) := by unfold char; dsimp only; gives
theorem radix_gives (s : List Char) (i : BitVec 32) : Gives ["int"] (intFromRadix s i : Res (Val C)) := by unfold intFromRadix; gives
theorem int_gives (v : Val C) : Gives ["int"] (int L.F v) := by unfold int; gives
theorem float_gives (v : Val C) : Gives ["float"] (float L v) := by unfold float; gives
theorem bool_gives (v : Val C) : Gives ["bool"] (Lib.bool L.F v) := by unfold Lib.bool; gives
theorem color_gives (v : Val C) : Gives ["color"] (color v) := by unfold color; gives
theorem len_gives (v : Val C) : Gives ["int"] (len v) := by unfold len; gives

theorem core_told : LibTold (coreLib L chk cname : List (String × BFn D C)) core_DOCS.builtins := by
  unfold coreLib core_DOCS
  refine .cons rfl (builtin_told (by sig) fun _ _ _ => Gives.any) ?_
  refine .cons rfl (builtin_told (by sig) fun _ _ _ => set_gives ..) ?_
  refine .cons rfl (builtin_told (by sig) fun _ _ _ => slice_gives ..) ?_
  refine .cons rfl (builtin_told (by sig) fun _ _ _ => .one rfl) ?_
  refine .cons rfl (builtin_told (by sig) fun _ _ _ => .one rfl) ?_
  refine .cons rfl (builtin_told (by sig) fun _ _ _ => .one rfl) ?_
  refine .cons rfl (builtin_told (by sig) fun _ _ _ => .one rfl) ?_
  refine .cons rfl (builtin_told (by sig) fun _ _ _ => char_gives ..) ?_
  refine .cons rfl (builtin_told (by sig) fun _ _ _ => radix_gives ..) ?_
  refine .cons rfl (builtin_told (by sig) fun _ _ _ => int_gives ..) ?_
  refine .cons rfl (builtin_told (by sig) fun _ _ _ => float_gives ..) ?_
  refine .cons rfl (builtin_told (by sig) fun _ _ _ => bool_gives ..) ?_
  refine .cons rfl (builtin_told (by sig) fun _ _ _ => color_gives ..) ?_
  refine .cons rfl (builtin_told (by sig) fun _ _ _ => len_gives ..) ?_
  refine .cons rfl (builtin_told (by sig) fun _ _ _ => .one rfl) ?_
  exact .nil

theorem logFn_gives (f : String) (v : Val C) : Gives ["float"] (logFn L f v) := by unfold logFn; gives
theorem hash_gives (v : Val C) : Gives ["int"] (Lib.hash L v) := by unfold Lib.hash; gives
theorem minMax_gives {p q} (F : FOps) (a b : Val C) : Gives ["num"] (minMax p q F a b) := by unfold minMax; gives
theorem roundFn_gives (F : FOps) {f} (v : Val C) : Gives ["int"] (roundFn F f v) := by unfold roundFn; gives
theorem fix_gives (v : Val C) (d : BitVec 64) : Gives ["num"] (fix L v d) := by
  unfold fix
  split
  · split <;> exact .one rfl
  · split <;> exact .one rfl
  · exact .err
theorem clamp_gives (a b c : BitVec 64) : Gives ["float"] (clamp L a b c : Res (Val C)) := by unfold clamp; gives
theorem abs_gives (v : Val C) : Gives ["num"] (abs chk L v) := by unfold abs; gives

theorem math_told : LibTold (mathLib L chk : List (String × BFn D C)) (math_DOCS.builtins.take 21) := by
  unfold mathLib math_DOCS
  refine .cons rfl (builtin_told (by sig) fun _ _ _ => logFn_gives ..) ?_
  refine .cons rfl (builtin_told (by sig) fun _ _ _ => logFn_gives ..) ?_
  refine .cons rfl (builtin_told (by sig) fun _ _ _ => logFn_gives ..) ?_
  refine .cons rfl (builtin_told (by sig) fun _ _ _ => hash_gives ..) ?_
  refine .cons rfl (builtin_told (by sig) fun _ _ _ => minMax_gives ..) ?_
  refine .cons rfl (builtin_told (by sig) fun _ _ _ => minMax_gives ..) ?_
  refine .cons rfl (builtin_told (by sig) fun _ _ _ => roundFn_gives ..) ?_
  refine .cons rfl (builtin_told (by sig) fun _ _ _ => roundFn_gives ..) ?_
  refine .cons rfl (builtin_told (by sig) fun _ _ _ => roundFn_gives ..) ?_
  refine .cons rfl (builtin_told (by sig) fun _ _ _ => fix_gives ..) ?_
  refine .cons rfl (builtin_told (by sig) fun _ _ _ => clamp_gives ..) ?_
  refine .cons rfl (builtin_told (by sig) fun _ _ _ => .one rfl) ?_
  refine .cons rfl (builtin_told (by sig) fun _ _ _ => abs_gives ..) ?_
  iterate 8 refine .cons rfl (builtin_told (by sig) fun _ _ _ => .one rfl) ?_
  exact .nil

theorem mix_gives (a b : Rgba) (t : BitVec 64) : Gives ["color"] (mix L a b t : Res (Val C)) := by unfold mix; dsimp only; gives
theorem contrastColor_gives (c : Rgba) : Gives ["color"] (contrastColor L c : Res (Val C)) := by unfold contrastColor; gives

theorem color_told : LibTold (colorLib L : List (String × BFn D C)) (colors_DOCS.builtins.take 26 ++ colors_DOCS.builtins.drop 29) := by
  unfold colorLib colors_DOCS
  iterate 25 refine .cons rfl (builtin_told (by sig) fun _ _ _ => .one rfl) ?_
  refine .cons rfl (builtin_told (by sig) fun _ _ _ => contrastColor_gives ..) ?_
  refine .cons rfl (builtin_told (by sig) fun _ _ _ => makeArray_gives ..) ?_
  exact .nil

theorem truncate_gives (s : List Char) (n : BitVec 64) (e : List Char) : Gives ["str"] (truncate s n e : Res (Val C)) := by unfold truncate; dsimp only; gives

theorem string_told : LibTold (stringLib L cname : List (String × BFn D C)) strings_DOCS.builtins := by
  unfold stringLib strings_DOCS
  refine .cons rfl (builtin_told (by sig) fun _ _ _ => truncate_gives ..) ?_
  iterate 4 refine .cons rfl (builtin_told (by sig) fun _ _ _ => .one rfl) ?_
  refine .cons rfl (builtin_told (by sig) fun _ _ _ => makeArray_gives ..) ?_
  iterate 9 refine .cons rfl (builtin_told (by sig) fun _ _ _ => .one rfl) ?_
  exact .nil

theorem assert_gives (b : Bool) : Gives [] (assert b : Res (Val C)) := by unfold assert; gives

theorem test_told : LibTold (testLib L : List (String × BFn D C)) (testing_DOCS.builtins.take 1 ++ testing_DOCS.builtins.drop 3) := by
  unfold testLib testing_DOCS
  refine .cons rfl (builtin_told (by sig) fun _ _ _ => assert_gives ..) ?_
  iterate 3 refine .cons rfl (builtin_told (by sig) fun _ _ _ => .fail) ?_
  exact .nil

theorem randint_gives (a b : BitVec 64) (d : Io) : Gives ["int"] (randint O a b d : Res (Val C) × Io).1 := by unfold randint; gives
theorem randfloat_gives (a b : BitVec 64) (d : Io) : Gives ["float"] (randfloat L O a b d : Res (Val C) × Io).1 := by unfold randfloat; gives

theorem rand_told : LibTold (randLib L O : List (String × BFn Io C)) (math_DOCS.builtins.drop 21) := by
  unfold randLib math_DOCS
  iterate 2 refine .cons rfl (io_told (by sig) fun _ _ => .one rfl) ?_
  refine .cons rfl (io_told (by sig) fun _ _ => randint_gives ..) ?_
  refine .cons rfl (io_told (by sig) fun _ _ => randfloat_gives ..) ?_
  refine .cons rfl (io_told (by sig) fun _ _ => Gives.any) ?_
  exact .nil

theorem rainbow_color {v : Val C} (h : v ∈ (rainbow : List (Val C))) : hasType "color" v = true := by
  unfold rainbow at h
  simp only [List.mem_cons, List.not_mem_nil, or_false] at h
  rcases h with rfl | rfl | rfl | rfl | rfl | rfl | rfl | rfl | rfl | rfl <;> rfl

theorem randomRainbowColor_gives (d : Io) : Gives ["color"] (randomRainbowColor O d : Res (Val C) × Io).1 := by
  unfold randomRainbowColor
  split
  · rename_i v hv
    exact .one (rainbow_color (List.mem_of_getElem? hv))
  · exact .panic

theorem randColor_told : LibTold (randColorLib L O : List (String × BFn Io C)) ((colors_DOCS.builtins.drop 26).take 3) := by
  unfold randColorLib colors_DOCS
  iterate 2 refine .cons rfl (io_told (by sig) fun _ _ => .one rfl) ?_
  refine .cons rfl (io_told (by sig) fun _ _ => randomRainbowColor_gives ..) ?_
  exact .nil

theorem now_gives (d : Io) : Gives ["float"] (now O d : Res (Val C) × Io).1 := by unfold now; gives
theorem date_gives (d : Io) : Gives ["str"] (date O d : Res (Val C) × Io).1 := by unfold date; gives

theorem time_told : LibTold (timeLib L O : List (String × BFn Io C)) time_DOCS.builtins := by
  unfold timeLib time_DOCS
  refine .cons rfl (io_told (by sig) fun _ _ => now_gives ..) ?_
  refine .cons rfl (io_told (by sig) fun _ _ => date_gives ..) ?_
  exact .nil

theorem input_gives (p : List Char) (d : Io) : Gives ["str"] (input O p d : Res (Val C) × Io).1 := by unfold input; dsimp only; gives
theorem readfile_gives (p : List Char) (d : Io) : Gives ["str"] (readfile O p d : Res (Val C) × Io).1 := by unfold readfile; gives

theorem io_lib_told : LibTold (ioLib L cname O : List (String × BFn Io C)) io_DOCS.builtins := by
  unfold ioLib io_DOCS
  iterate 3 refine .cons rfl (rest_told rfl fun _ _ => .none) ?_
  refine .cons rfl (io_told (by sig) fun _ _ => input_gives ..) ?_
  refine .cons rfl (io_told (by sig) fun _ _ => readfile_gives ..) ?_
  exact .nil

theorem assertEq_gives (a b : Val C) (d : Io) : Gives [] (assertEq L cname O a b d).1 := by unfold assertEq; gives
theorem assertNe_gives (a b : Val C) (d : Io) : Gives [] (assertNe L cname O a b d).1 := by unfold assertNe; gives

theorem compare_told : LibTold (compareLib L cname O : List (String × BFn Io C)) ((testing_DOCS.builtins.drop 1).take 2) := by
  unfold compareLib testing_DOCS
  refine .cons rfl (io_told (by sig) fun _ _ => assertEq_gives ..) ?_
  refine .cons rfl (io_told (by sig) fun _ _ => assertNe_gives ..) ?_
  exact .nil

/-- The documentation, in the order of `stdioLib`. -/
def audited : List BuiltinDoc :=
  core_DOCS.builtins ++ math_DOCS.builtins.take 21 ++ (colors_DOCS.builtins.take 26 ++ colors_DOCS.builtins.drop 29) ++ strings_DOCS.builtins ++
    (testing_DOCS.builtins.take 1 ++ testing_DOCS.builtins.drop 3) ++ math_DOCS.builtins.drop 21 ++ (colors_DOCS.builtins.drop 26).take 3 ++
    time_DOCS.builtins ++ io_DOCS.builtins ++ (testing_DOCS.builtins.drop 1).take 2

theorem stdio_told : LibTold (stdioLib L cname O chk) audited :=
  (((((((((core_told L chk cname).append (math_told L chk)).append (color_told L)).append (string_told L cname)).append (test_told L)).append (rand_told L O)).append
    (randColor_told L O)).append (time_told L O)).append (io_lib_told L O cname)).append (compare_told L O cname)

end Quilt.Docs
