import Verif.Vm.Builds
import Verif.Lib.Io

/-!
# The standard library in builds with and without checks
-/

namespace Quilt.Lib

variable {C D : Type} (L : Ops) (chk : Bool) (O : Outside) (cname : C → String)

theorem get_strict (l : List (Val C)) (i : BitVec 64) : (get chk l i).Strict (get false l i) := (fixIndex_strict ..).bind fun _ => .rfl

theorem set_strict (lim : Limits) (l : List (Val C)) (i : BitVec 64) (v : Val C) : (set chk lim l i v).Strict (set false lim l i v) :=
  (fixIndex_strict ..).bind fun _ => .rfl

theorem sliceBound_strict (n : Nat) (i bad : BitVec 64) : (sliceBound chk n i bad).Strict (sliceBound false n i bad) := by
  unfold sliceBound
  split
  · simp only [Bool.false_eq_true, and_false, if_false]
    split
    · exact .inl (by trivial)
    · exact .rfl
  · exact .rfl

theorem slice_strict (l : List (Val C)) (i j : BitVec 64) : (slice chk l i j).Strict (slice false l i j) :=
  (sliceBound_strict ..).bind fun _ => (sliceBound_strict ..).bind fun _ => .rfl

theorem abs_strict (v : Val C) : (abs chk L v).Strict (abs false L v) := by
  unfold abs
  split
  · simp only [Bool.false_eq_true, and_false, if_false]
    split
    · exact .inl (by trivial)
    · exact .rfl
  all_goals exact .rfl

theorem builtin_strict {req : List PKind} {opt : OptParams C} {f f' : Params C req → Params C (opt.map (·.1)) → Limits → Res (Val C)}
    (h : ∀ xs ys lim, (f xs ys lim).Strict (f' xs ys lim)) : BFn.Strict (builtin L req opt f : BFn D C) (builtin L req opt f') := by
  intro d args lim
  have := Res.Strict.bind (Res.Strict.rfl (r := takeReq L req (Args.new args))) fun p =>
    Res.Strict.bind (Res.Strict.rfl (r := takeOpt L opt p.2)) fun q =>
      Res.Strict.bind (Res.Strict.rfl (r := q.2.stop)) fun _ => h p.1 q.1 lim
  rcases this with h1 | h1
  · exact .inl h1
  · exact .inr (Prod.ext h1 rfl)

/-- The same names, and builtins that agree unless the first crashes. -/
def LibStrict : List (String × BFn D C) → List (String × BFn D C) → Prop
  | [], [] => True
  | (x, f) :: l, (y, g) :: l' => x = y ∧ BFn.Strict f g ∧ LibStrict l l'
  | _, _ => False

theorem LibStrict.rfl : ∀ l : List (String × BFn D C), LibStrict l l
  | [] => trivial
  | (_, _) :: l => ⟨Eq.refl _, fun _ _ _ => .inr (Eq.refl _), LibStrict.rfl l⟩

theorem LibStrict.append : ∀ {a a' b b' : List (String × BFn D C)}, LibStrict a a' → LibStrict b b' → LibStrict (a ++ b) (a' ++ b')
  | [], [], _, _, _, h => h
  | (_, _) :: _, (_, _) :: _, _, _, h, h' => ⟨h.1, h.2.1, LibStrict.append h.2.2 h'⟩
  | [], _ :: _, _, _, h, _ => h.elim
  | _ :: _, [], _, _, h, _ => h.elim

theorem core_strict : LibStrict (coreLib L chk cname : List (String × BFn D C)) (coreLib L false cname) :=
  ⟨rfl, builtin_strict L fun _ _ _ => get_strict .., rfl, builtin_strict L fun _ _ _ => set_strict .., rfl, builtin_strict L fun _ _ _ => slice_strict ..,
    LibStrict.rfl _⟩

theorem math_strict : LibStrict (mathLib L chk : List (String × BFn D C)) (mathLib L false) :=
  ⟨rfl, fun _ _ _ => .inr rfl, rfl, fun _ _ _ => .inr rfl, rfl, fun _ _ _ => .inr rfl, rfl, fun _ _ _ => .inr rfl, rfl, fun _ _ _ => .inr rfl,
    rfl, fun _ _ _ => .inr rfl, rfl, fun _ _ _ => .inr rfl, rfl, fun _ _ _ => .inr rfl, rfl, fun _ _ _ => .inr rfl, rfl, fun _ _ _ => .inr rfl,
    rfl, fun _ _ _ => .inr rfl, rfl, fun _ _ _ => .inr rfl, rfl, builtin_strict L fun _ _ _ => abs_strict .., LibStrict.rfl _⟩

theorem stdio_strict : LibStrict (stdioLib L cname O chk) (stdioLib L cname O false) :=
  ((((((((core_strict L chk cname).append (math_strict L chk)).append (.rfl _)).append (.rfl _)).append (.rfl _)).append (.rfl _)).append (.rfl _)).append (.rfl _)).append (.rfl _)
    |>.append (.rfl _)

end Quilt.Lib
