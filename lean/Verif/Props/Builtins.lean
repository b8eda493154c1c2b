import Verif.Lib.Std
import Verif.Lib.ArgLemmas
import Verif.Lib.Radix
import Verif.Props.Arith

/-!
# Properties C36, C37, C46: builtins

`PKind.accept` (what an argument becomes for a parameter), `Given`, `Filled`, `Fits` in
`Verif/Lib/ArgLemmas.lean` and `Numeral` in `Verif/Lib/Radix.lean` are the specifications.
-/

namespace Quilt.Props
open Quilt Quilt.Lib

variable {C D : Type}

/-! ## C36 the argument protocol -/

/-- As many arguments as there are required parameters and at most as many more as there are
optional ones, all of the right kinds: the body gets them in order, with the defaults for the
missing ones. The host data stays as it is. -/
theorem C36_accepts (L : Ops) {req : List PKind} {opt : OptParams C} (body : Params C req → Params C (opt.map (·.1)) → Limits → Res (Val C))
    {as bs : List (Val C)} {xs ys} (h : Given L req as xs) (h' : Filled L opt bs ys) (d : D) (lim : Limits) :
    builtin L req opt body d (as ++ bs) lim = (body xs ys lim, d) :=
  builtin_accepts L body h h' d lim

/-- Too few arguments: an error that names the first missing parameter. -/
theorem C36_too_few (L : Ops) {req : List PKind} {opt : OptParams C} (body : Params C req → Params C (opt.map (·.1)) → Limits → Res (Val C))
    (hr : .rest ∉ req) {args : List (Val C)} (hf : Fits L req args) {k : PKind} (hk : req[args.length]? = some k) (d : D) (lim : Limits) :
    builtin L req opt body d args lim = (.err (.builtin ("too litte arguments supplied to builtin, expected `" ++ k.word ++ "`")), d) := by
  obtain ⟨hlt, hk'⟩ := List.getElem?_eq_some_iff.1 hk
  have hsplit : req = req.take args.length ++ k :: req.drop (args.length + 1) := by
    rw [← hk', List.getElem_cons_drop, List.take_append_drop]
  have hfit : Fits L (req.take args.length) args := fun i k v h1 h2 => by
    rw [List.getElem?_take] at h1
    split at h1
    · exact hf i k v h1 h2
    · cases h1
  obtain ⟨xs, hxs⟩ := hfit.given (by simp; omega)
  have := takeReq_fails L (ks' := req.drop (args.length + 1)) (k := k) (by rintro rfl; exact hr (List.mem_of_getElem? hk)) hxs [] [] _ (Or.inl ⟨rfl, rfl⟩)
  rw [← hsplit] at this
  simp only [List.nil_append, List.append_nil, List.length_nil] at this
  simp only [builtin, Args.new, this, Res.bind_err]

/-- Too many arguments: an error that names the type of the first one too many. -/
theorem C36_too_many (L : Ops) {req : List PKind} {opt : OptParams C} (body : Params C req → Params C (opt.map (·.1)) → Limits → Res (Val C))
    {args : List (Val C)} (hf : Fits L (req ++ opt.map (·.1)) args) {v : Val C} (hv : args[req.length + opt.length]? = some v) (d : D) (lim : Limits) :
    builtin L req opt body d args lim = (.err (.builtin ("too many arguments, got extra " ++ v.ntype)), d) := by
  obtain ⟨hlt, hv'⟩ := List.getElem?_eq_some_iff.1 hv
  have hsplit : args = args.take req.length ++ ((args.drop req.length).take opt.length ++ v :: args.drop (req.length + opt.length + 1)) := by
    have : (args.drop req.length).drop opt.length = v :: args.drop (req.length + opt.length + 1) := by
      rw [List.drop_drop, ← hv', List.getElem_cons_drop]
    rw [← this, List.take_append_drop, List.take_append_drop]
  generalize hA : args.take req.length = as at hsplit
  generalize hB : (args.drop req.length).take opt.length = bs at hsplit
  have ha : as.length = req.length := by rw [← hA]; simp; omega
  have hb : bs.length = opt.length := by rw [← hB]; simp; omega
  obtain ⟨xs, hxs⟩ := Fits.given (L := L) (ks := req) (vs := as) (fun i k w h1 h2 => by
    have hi : i < req.length := (List.getElem?_eq_some_iff.1 h1).1
    exact hf i k w (by rw [List.getElem?_append_left hi]; exact h1) (by rw [hsplit, List.getElem?_append_left (by omega)]; exact h2)) ha
  obtain ⟨ys, hys⟩ := Fits.given (L := L) (ks := opt.map (·.1)) (vs := bs) (fun i k w h1 h2 => by
    have hi : i < bs.length := (List.getElem?_eq_some_iff.1 h2).1
    refine hf (req.length + i) k w (by rw [List.getElem?_append_right (by omega), Nat.add_sub_cancel_left]; exact h1) ?_
    rw [hsplit, List.getElem?_append_right (by omega), ha, Nat.add_sub_cancel_left, List.getElem?_append_left hi]
    exact h2) (by simpa using hb)
  have h1 := takeReq_given L hxs [] (bs ++ v :: args.drop (req.length + opt.length + 1))
  simp only [List.nil_append, List.length_nil] at h1
  have h2 : ∀ (os : OptParams C) (bs : List (Val C)) (ys : Params C (os.map (·.1))) (pre post : List (Val C)), Given L (os.map (·.1)) bs ys →
      takeOpt L os ⟨pre ++ (bs ++ post), pre.length⟩ = .ok (ys, ⟨pre ++ (bs ++ post), (pre ++ bs).length⟩) := by
    intro os
    induction os with
    | nil => intro bs ys pre post h; cases h; simp [takeOpt]
    | cons o os ih =>
      intro bs ys pre post h
      cases h with
      | @cons _ _ u us x xs hx hg =>
      have := ih us xs (pre ++ [u]) post hg
      simp only [List.append_assoc, List.length_append, List.length_cons, List.length_nil, Nat.zero_add, List.cons_append, List.nil_append] at this
      have hlen : ¬ (pre ++ u :: (us ++ post)).length - pre.length = 0 := by simp
      simp only [takeOpt, Args.optional, Args.len, List.cons_append, hlen, if_false, take_eq L (accept_ne_rest hx), List.getElem?_append_right (Nat.le_refl _), Nat.sub_self,
        List.getElem?_cons_zero, hx, Res.bind_ok, Res.map_ok, Option.getD_some]
      rw [this]
      simp only [Res.map_ok, List.length_append, List.length_cons]
  have h3 := h2 opt bs ys as (v :: args.drop (req.length + opt.length + 1)) hys
  have h4 := stop_more (as ++ bs) v (args.drop (req.length + opt.length + 1))
  rw [List.append_assoc] at h4
  rw [show builtin L req opt body d args lim = builtin L req opt body d (as ++ (bs ++ v :: args.drop (req.length + opt.length + 1))) lim by rw [← hsplit]]
  simp only [builtin, Args.new, h1, Res.bind_ok, h3, h4, Res.bind_err]

/-- An argument of the wrong kind: a type error that names the parameter's kind and the argument's
type, for the first such argument. -/
theorem C36_wrong_kind (L : Ops) {req : List PKind} {opt : OptParams C} (body : Params C req → Params C (opt.map (·.1)) → Limits → Res (Val C))
    (hr : .rest ∉ req ++ opt.map (·.1)) {args : List (Val C)} (i : Nat) {k : PKind} {v : Val C} (hk : (req ++ opt.map (·.1))[i]? = some k) (hv : args[i]? = some v)
    (hf : Fits L (req ++ opt.map (·.1)) (args.take i)) (hno : k.accept L v = none) (d : D) (lim : Limits) :
    builtin L req opt body d args lim = (.err (.type (.expected k.word v.ntype)), d) := by
  have hkr : k ≠ .rest := by rintro rfl; exact hr (List.mem_of_getElem? hk)
  obtain ⟨hvl, hv'⟩ := List.getElem?_eq_some_iff.1 hv
  have hargs : args = args.take i ++ v :: args.drop (i + 1) := by rw [← hv', List.getElem_cons_drop, List.take_append_drop]
  have hat : ∀ (j : Nat) (q : PKind) (w : Val C), (req ++ opt.map (·.1))[j]? = some q → j < i → args[j]? = some w → ∃ x, q.accept L w = some x :=
    fun j q w h1 hj h2 => hf j q w h1 (by rw [List.getElem?_take_of_lt hj]; exact h2)
  by_cases hi : i < req.length
  · rw [List.getElem?_append_left hi] at hk
    obtain ⟨_, hk'⟩ := List.getElem?_eq_some_iff.1 hk
    have hsplit : req = req.take i ++ k :: req.drop (i + 1) := by rw [← hk', List.getElem_cons_drop, List.take_append_drop]
    obtain ⟨xs, hxs⟩ := Fits.given (L := L) (ks := req.take i) (vs := args.take i) (fun j q w h1 h2 => by
      rw [List.getElem?_take] at h1 h2
      split at h1
      · next hj =>
        rw [if_pos hj] at h2
        exact hat j q w (by rw [List.getElem?_append_left (by omega)]; exact h1) hj h2
      · cases h1) (by simp; omega)
    have := takeReq_fails L (ks' := req.drop (i + 1)) hkr hxs [] (v :: args.drop (i + 1)) _ (Or.inr ⟨v, _, rfl, hno, rfl⟩)
    rw [← hsplit] at this
    simp only [List.nil_append, List.length_nil, ← hargs] at this
    simp only [builtin, Args.new, this, Res.bind_err]
  · have hilt : i < (req ++ opt.map (·.1)).length := (List.getElem?_eq_some_iff.1 hk).1
    simp only [List.length_append, List.length_map] at hilt
    rw [List.getElem?_append_right (by omega), List.getElem?_map] at hk
    obtain ⟨o, ho, rfl⟩ := Option.map_eq_some_iff.1 hk
    obtain ⟨holt, ho'⟩ := List.getElem?_eq_some_iff.1 ho
    generalize hj : i - req.length = j at *
    have hsplit : opt = opt.take j ++ o :: opt.drop (j + 1) := by rw [← ho', List.getElem_cons_drop, List.take_append_drop]
    have hA : args.take i = args.take req.length ++ (args.drop req.length).take j := by
      rw [show i = req.length + j by omega, List.take_add]
    generalize hAe : args.take req.length = as at hA
    generalize hBe : (args.drop req.length).take j = bs at hA
    have ha : as.length = req.length := by rw [← hAe]; simp; omega
    have hb : bs.length = j := by rw [← hBe]; simp; omega
    rw [hA] at hargs
    obtain ⟨xs, hxs⟩ := Fits.given (L := L) (ks := req) (vs := as) (fun m q w h1 h2 => by
      have hm : m < req.length := (List.getElem?_eq_some_iff.1 h1).1
      exact hat m q w (by rw [List.getElem?_append_left hm]; exact h1) (by omega)
        (by rw [hargs, List.append_assoc, List.getElem?_append_left (by omega)]; exact h2)) ha
    obtain ⟨ys, hys⟩ := Fits.given (L := L) (ks := (opt.take j).map (·.1)) (vs := bs) (fun m q w h1 h2 => by
      have hm : m < bs.length := (List.getElem?_eq_some_iff.1 h2).1
      rw [List.map_take, List.getElem?_take_of_lt (by omega)] at h1
      refine hat (req.length + m) q w (by rw [List.getElem?_append_right (by omega), Nat.add_sub_cancel_left]; exact h1) (by omega) ?_
      rw [hargs, List.append_assoc, List.getElem?_append_right (by omega), ha, Nat.add_sub_cancel_left, List.getElem?_append_left hm]
      exact h2) (by simp; omega)
    have h1 := takeReq_given L hxs [] (bs ++ v :: args.drop (i + 1))
    have h2 := takeOpt_fails L (os' := opt.drop (j + 1)) hkr hys as (v := v) (ws := args.drop (i + 1)) hno
    rw [← hsplit] at h2
    simp only [List.nil_append, List.length_nil] at h1
    rw [← List.append_assoc, ← hargs] at h1
    rw [← hargs] at h2
    simp only [builtin, Args.new, h1, Res.bind_ok, h2, Res.bind_err]

/-- These are all the cases, for builtins without a rest parameter: so a builtin with `k` required
and `m` optional parameters never runs its body with fewer than `k` or more than `k + m` arguments. -/
theorem C36_cases (L : Ops) (req : List PKind) (opt : OptParams C) (args : List (Val C)) :
    (∃ as bs xs ys, args = as ++ bs ∧ Given L req as xs ∧ Filled L opt bs ys) ∨
    (Fits L req args ∧ ∃ k, req[args.length]? = some k) ∨
    (Fits L (req ++ opt.map (·.1)) args ∧ ∃ v, args[req.length + opt.length]? = some v) ∨
    ∃ (i : Nat) (k : PKind) (v : Val C), (req ++ opt.map (·.1))[i]? = some k ∧ args[i]? = some v ∧ Fits L (req ++ opt.map (·.1)) (args.take i) ∧ k.accept L v = none := by
  by_cases hf : Fits L (req ++ opt.map (·.1)) args
  · by_cases h1 : args.length < req.length
    · exact Or.inr (Or.inl ⟨fun i k v a b => hf i k v (by rw [List.getElem?_append_left (List.getElem?_eq_some_iff.1 a).1]; exact a) b,
        _, List.getElem?_eq_getElem h1⟩)
    · by_cases h2 : req.length + opt.length < args.length
      · exact Or.inr (Or.inr (Or.inl ⟨hf, _, List.getElem?_eq_getElem h2⟩))
      · left
        have hA : (args.take req.length).length = req.length := by simp; omega
        obtain ⟨xs, hxs⟩ := Fits.given (L := L) (ks := req) (vs := args.take req.length) (fun i k v a b => by
          have hi := (List.getElem?_eq_some_iff.1 a).1
          rw [List.getElem?_take_of_lt hi] at b
          exact hf i k v (by rw [List.getElem?_append_left hi]; exact a) b) hA
        obtain ⟨ys, hys⟩ := Fits.filled (L := L) (os := opt) (vs := args.drop req.length) (fun i k v a b => by
          rw [List.getElem?_drop] at b
          exact hf (req.length + i) k v (by rw [List.getElem?_append_right (by omega), Nat.add_sub_cancel_left]; exact a) b) (by simp; omega)
        exact ⟨_, _, xs, ys, (List.take_append_drop _ _).symm, hxs, hys⟩
  · right; right; right
    have hex : ∃ i : Nat, ∃ (k : PKind) (v : Val C), (req ++ opt.map (·.1))[i]? = some k ∧ args[i]? = some v ∧ k.accept L v = none := by
      apply Classical.byContradiction
      intro hn
      apply hf
      intro i k v a b
      cases hx : k.accept L v with
      | some x => exact ⟨x, rfl⟩
      | none => exact absurd ⟨i, k, v, a, b, hx⟩ hn
    have hmin : ∃ i : Nat, (∃ (k : PKind) (v : Val C), (req ++ opt.map (·.1))[i]? = some k ∧ args[i]? = some v ∧ k.accept L v = none) ∧
        ∀ j < i, ¬ ∃ (k : PKind) (v : Val C), (req ++ opt.map (·.1))[j]? = some k ∧ args[j]? = some v ∧ k.accept L v = none := by
      obtain ⟨i, hi⟩ := hex
      induction i using Nat.strongRecOn with
      | ind i ih =>
        by_cases h : ∃ j < i, ∃ (k : PKind) (v : Val C), (req ++ opt.map (·.1))[j]? = some k ∧ args[j]? = some v ∧ k.accept L v = none
        · obtain ⟨j, hj, h⟩ := h; exact ih j hj h
        · exact ⟨i, hi, fun j hj hh => h ⟨j, hj, hh⟩⟩
    obtain ⟨i, ⟨k, v, a, b, c⟩, hm⟩ := hmin
    refine ⟨i, k, v, a, b, fun j q w h1 h2 => ?_, c⟩
    rw [List.getElem?_take] at h2
    split at h2
    · next hj =>
      cases hx : q.accept L w with
      | some x => exact ⟨x, rfl⟩
      | none => exact absurd ⟨q, w, h1, h2, hx⟩ (hm j hj)
    · cases h2

/-- A rest parameter takes all arguments. -/
theorem C36_rest (L : Ops) (body : Params C [.rest] → Params C [] → Limits → Res (Val C)) (args : List (Val C)) (d : D) (lim : Limits) :
    builtin L [.rest] [] body d args lim = (body (args, ()) () lim, d) := by
  have h : takeReq L [.rest] (Args.new args) = .ok ((args, ()), ⟨args, args.length⟩) := by
    show Res.ok (((if 0 = args.length then [] else args.drop 0), ()), _) = _
    cases args <;> rfl
  unfold builtin
  rw [h]
  show (Res.bind (Args.stop ⟨args, args.length⟩) fun _ => body (args, ()) () lim, d) = _
  rw [stop_end]
  rfl

/-- `@truncate("quilt", 4)` takes the default ellipsis; `@truncate("quilt")` lacks an argument;
`@truncate("quilt", none)` has one of the wrong kind; four arguments are too many. -/
example (L : Ops) (d : D) (lim : Limits) (f : BFn D C) (hf : (stringLib L fun _ => "").lookup "truncate" = some f) :
    (f d [.str "quilt".toList, .int 4] lim).1 = .ok (.str "q...".toList) ∧
    (f d [.str "quilt".toList] lim).1 = .err (.builtin "too litte arguments supplied to builtin, expected `int`") ∧
    (f d [.str "quilt".toList, .none] lim).1 = .err (.type (.expected "int" "none")) ∧
    (f d [.str "quilt".toList, .int 4, .str [], .none] lim).1 = .err (.builtin "too many arguments, got extra none") := by
  obtain rfl : _ = f := Option.some.inj hf
  refine ⟨?_, ?_, ?_, ?_⟩
  · exact congrArg Prod.fst (C36_accepts (C := C) (req := [.str, .int]) (opt := [⟨.str, "...".toList⟩]) (as := [.str "quilt".toList, .int 4]) (bs := []) L
      (fun (s, n, ()) (e, ()) _ => truncate s n e) (.cons rfl (.cons rfl .nil)) (.done _) d lim)
  · exact congrArg Prod.fst (C36_too_few (opt := [⟨.str, "...".toList⟩]) L (fun (s, n, ()) (e, ()) _ => truncate s n e) (req := [.str, .int]) (by decide)
      (args := [.str "quilt".toList]) (fun i k v h1 h2 => by
        match i, h1, h2 with
        | 0, h1, h2 => cases h1; cases h2; exact ⟨_, rfl⟩
        | i + 1, _, h2 => simp at h2) (k := .int) rfl d lim)
  · exact congrArg Prod.fst (C36_wrong_kind (opt := [⟨.str, "...".toList⟩]) L (fun (s, n, ()) (e, ()) _ => truncate s n e) (req := [.str, .int]) (show PKind.rest ∉ [.str, .int, .str] by decide)
      (args := [.str "quilt".toList, .none]) 1 (k := .int) rfl rfl (fun i k v h1 h2 => by
        match i, h1, h2 with
        | 0, h1, h2 => cases h1; cases h2; exact ⟨_, rfl⟩
        | i + 1, _, h2 => simp at h2) rfl d lim)
  · exact congrArg Prod.fst (C36_too_many (opt := [⟨.str, "...".toList⟩]) L (fun (s, n, ()) (e, ()) _ => truncate s n e) (req := [.str, .int])
      (args := [.str "quilt".toList, .int 4, .str [], .none]) (fun i k v h1 h2 => by
        match i, h1, h2 with
        | 0, h1, h2 => cases h1; cases h2; exact ⟨_, rfl⟩
        | 1, h1, h2 => cases h1; cases h2; exact ⟨_, rfl⟩
        | 2, h1, h2 => cases h1; cases h2; exact ⟨_, rfl⟩
        | i + 3, h1, _ => simp at h1) rfl d lim)

/-- A call of a builtin of the standard library, by name. -/
def callStd (L : Ops) (chk : Bool) (cname : C → String) (lim : Limits) (name : String) (args : List (Val C)) : Option (Res (Val C)) :=
  ((stdLib (D := Unit) L chk cname).lookup name).map fun f => (f () args lim).1

/-! ## C37 get, set, slice -/

/-- `@get` is indexing, with the same positions and the same errors; pairs count as two items. -/
theorem C37_get (L : Ops) (chk : Bool) (cname : C → String) (lim : Limits) (i : BitVec 64) :
    (∀ (xs : List (Val C)) s m, callStd L chk cname lim "get" [.arr xs s m, .int i] = some (Val.indexGet chk (.arr xs s m) (.int i))) ∧
    ∀ a b : Val C, callStd L chk cname lim "get" [.pair a b, .int i] = some (Val.indexGet chk (.pair a b) (.int i)) := by
  have key : ∀ xs : List (Val C), Lib.get chk xs i = (fixIndex chk i xs.length).bind fun k => match xs[k]? with | some v => .ok v | _ => .panic := by
    intro xs
    unfold Lib.get
    cases h : fixIndex chk i xs.length with
    | ok k =>
      have hk : k < xs.length := by
        unfold fixIndex at h
        simp only at h
        generalize (if i.toInt < 0 then _ else _ : Res Nat) = r at h
        cases r with
        | ok j => simp only [Res.bind_ok] at h; split at h <;> simp at h; omega
        | err e => simp at h
        | panic => simp at h
      simp [List.getElem?_eq_getElem hk]
    | err e => rfl
    | panic => rfl
  exact ⟨fun xs s m => congrArg some (key xs), fun a b => congrArg some (key [a, b])⟩

/-- `@set` at an index that is in range: the items with that one replaced, unless they are too large
together. -/
theorem C37_set (L : Ops) (chk : Bool) (cname : C → String) (lim : Limits) (xs : List (Val C)) (s m : Nat) (i : BitVec 64) (v old : Val C)
    (hi : Val.indexGet chk (.arr xs s m) (.int i) = .ok old) :
    (callStd L chk cname lim "set" [.arr xs s m, .int i, v] = some (.err (.overflow .arrayTooLarge)) ∧ lim.arrMax + old.getSize < (xs.map Val.getSize).sum + v.getSize) ∨
    ∃ ys, callStd L chk cname lim "set" [.arr xs s m, .int i, v] = some (.ok (.arr ys (ys.map Val.getSize).sum lim.arrMax)) ∧
      (ys.map Val.getSize).sum ≤ lim.arrMax ∧ ys.length = xs.length ∧
      (∀ s' m', Val.indexGet chk (.arr ys s' m') (.int i) = .ok v) ∧
      ∀ (j : BitVec 64) s' m', fixIndex chk j xs.length ≠ fixIndex chk i xs.length →
        Val.indexGet chk (.arr ys s' m') (.int j) = Val.indexGet chk (.arr xs s m) (.int j) := by
  simp only [Val.indexGet] at hi
  have hcall : callStd L chk cname lim "set" [.arr xs s m, .int i, v] = some (Lib.set chk lim xs i v) := rfl
  rw [hcall]
  unfold Lib.set
  cases h : fixIndex chk i xs.length with
  | err e => rw [h] at hi; simp at hi
  | panic => rw [h] at hi; simp at hi
  | ok k =>
    rw [h] at hi
    simp only [Res.bind_ok] at hi ⊢
    cases hk : xs[k]? with
    | none => rw [hk] at hi; simp at hi
    | some w =>
      rw [hk] at hi
      simp only [Res.ok.injEq] at hi
      subst hi
      have hlt : k < xs.length := (List.getElem?_eq_some_iff.1 hk).1
      have htot := Vecc.total_set_getElem? (sz := Val.getSize) xs k v w hk
      rw [if_pos hlt]
      unfold makeArray Vecc.tryNewFrom
      split
      · next hbig =>
        left
        refine ⟨rfl, ?_⟩
        have : Vecc.total Val.getSize xs = (xs.map Val.getSize).sum := rfl
        omega
      · next hbig =>
        right
        refine ⟨xs.set k v, rfl, by show Vecc.total _ _ ≤ _; omega, by simp, fun s' m' => ?_, fun j s' m' hj => ?_⟩
        · simp [Val.indexGet, h, hlt]
        · simp only [Val.indexGet, List.length_set]
          cases hj' : fixIndex chk j xs.length with
          | ok q =>
            simp only [Res.bind_ok]
            rw [List.getElem?_set_ne (by rintro rfl; exact hj (by rw [hj']))]
          | err e => rfl
          | panic => rfl

/-- `@set` at an index that is out of range reports what `@get` reports. -/
theorem C37_set_range (L : Ops) (chk : Bool) (cname : C → String) (lim : Limits) (xs : List (Val C)) (s m : Nat) (i : BitVec 64) (v : Val C) (e : Err)
    (hi : Val.indexGet chk (.arr xs s m) (.int i) = .err e) : callStd L chk cname lim "set" [.arr xs s m, .int i, v] = some (.err e) := by
  have hcall : callStd L chk cname lim "set" [.arr xs s m, .int i, v] = some (Lib.set chk lim xs i v) := rfl
  rw [hcall]
  simp only [Val.indexGet] at hi
  unfold Lib.set
  cases h : fixIndex chk i xs.length with
  | err e' => rw [h] at hi; simp at hi; subst hi; rfl
  | panic => rw [h] at hi; simp at hi
  | ok k =>
    rw [h] at hi
    simp only [Res.bind_ok] at hi
    split at hi <;> simp at hi

/-- The hypothesis holds for `@set([1, 2, 3], 1, v)`. -/
example : Val.indexGet true (.arr [.int 1, .int 2, .int 3] 3 3 : Val Nat) (.int 1) = .ok (.int 2) := rfl

/-- Where a bound of a slice points. -/
def slicePos (n : Nat) (i : BitVec 64) : Int := if i.toInt < 0 then n + i.toInt else i.toInt

theorem sliceBound_ok (chk : Bool) {n : Nat} (hn : n < 2 ^ 63) {i : BitVec 64} (hi : -(n : Int) ≤ i.toInt) (bad : BitVec 64) :
    ∃ p, sliceBound chk n i bad = .ok p ∧ p.toInt = slicePos n i ∧ p.toNat = (slicePos n i).toNat ∧ 0 ≤ slicePos n i := by
  have h1 := BitVec.toInt_eq_toNat_cond i
  have h2 := i.isLt
  unfold sliceBound slicePos
  split
  · next h0 =>
    have hne : ¬ (i = BitVec.intMin 64 ∧ chk = true) := by
      rintro ⟨rfl, _⟩
      rw [show (BitVec.intMin 64).toInt = -2 ^ 63 by decide] at hi
      omega
    have hneg : (-i).toInt = -i.toInt := by
      rw [BitVec.toInt_neg]
      have : i.toInt ≠ -2 ^ 63 := by omega
      have := BitVec.le_toInt i
      simp only [Int.bmod] at *
      omega
    rw [if_neg hne, if_neg (by omega)]
    have hnat : (BitVec.ofNat 64 n + i).toNat = (n + i.toNat) % 2 ^ 64 := by rw [BitVec.toNat_add, BitVec.toNat_ofNat, Nat.mod_eq_of_lt (show n < 2 ^ 64 by omega)]
    have h3 := BitVec.toInt_eq_toNat_cond (BitVec.ofNat 64 n + i)
    rw [hnat] at h3
    refine ⟨_, rfl, ?_, ?_, by omega⟩
    · split at h1 <;> split at h3 <;> omega
    · rw [hnat]
      split at h1 <;> omega
  · refine ⟨i, rfl, rfl, ?_, by omega⟩
    split at h1 <;> omega

/-- `@slice(xs, i, j)`, where negative bounds count from the end: the items from the first bound up
to, not including, the second. -/
theorem C37_slice (L : Ops) (chk : Bool) (cname : C → String) (lim : Limits) (xs : List (Val C)) (s m : Nat) (hn : xs.length < 2 ^ 63) (i j : BitVec 64)
    (hi : -(xs.length : Int) ≤ i.toInt) (hj : -(xs.length : Int) ≤ j.toInt) (hij : slicePos xs.length i ≤ slicePos xs.length j)
    (hjn : slicePos xs.length j ≤ xs.length) :
    ∃ ys, callStd L chk cname lim "slice" [.arr xs s m, .int i, .int j] = some (.ok (.arr ys (ys.map Val.getSize).sum (ys.map Val.getSize).sum)) ∧
      (ys.length : Int) = slicePos xs.length j - slicePos xs.length i ∧
      ∀ k < ys.length, ys[k]? = xs[(slicePos xs.length i).toNat + k]? := by
  obtain ⟨p, hp, p1, p2, p3⟩ := sliceBound_ok chk hn hi i
  obtain ⟨q, hq, q1, q2, q3⟩ := sliceBound_ok chk hn hj p
  have hcall : callStd L chk cname lim "slice" [.arr xs s m, .int i, .int j] = some (slice chk xs i j) := rfl
  refine ⟨(xs.take q.toNat).drop p.toNat, ?_, ?_, ?_⟩
  · rw [hcall]
    unfold slice
    rw [hp, Res.bind_ok, hq, Res.bind_ok, if_neg (by omega), if_pos (by omega)]
    rfl
  · simp only [List.length_drop, List.length_take]; omega
  · intro k hk
    simp only [List.length_drop, List.length_take] at hk
    rw [List.getElem?_drop, List.getElem?_take_of_lt (by omega), p2]

/-- Bounds in the wrong order are an error. -/
theorem C37_slice_order (L : Ops) (chk : Bool) (cname : C → String) (lim : Limits) (xs : List (Val C)) (s m : Nat) (hn : xs.length < 2 ^ 63) (i j : BitVec 64)
    (hi : -(xs.length : Int) ≤ i.toInt) (hj : -(xs.length : Int) ≤ j.toInt) (hij : slicePos xs.length j < slicePos xs.length i) :
    callStd L chk cname lim "slice" [.arr xs s m, .int i, .int j] = some (.err (.builtin "start index is greater than end index")) := by
  obtain ⟨p, hp, p1, p2, p3⟩ := sliceBound_ok chk hn hi i
  obtain ⟨q, hq, q1, q2, q3⟩ := sliceBound_ok chk hn hj p
  have hcall : callStd L chk cname lim "slice" [.arr xs s m, .int i, .int j] = some (slice chk xs i j) := rfl
  rw [hcall]
  unfold slice
  rw [hp, Res.bind_ok, hq, Res.bind_ok, if_pos (by omega)]
  rfl

/-- The doubtful case: an end beyond the last item aborts the program instead of being an error. -/
theorem C37_slice_panics (L : Ops) (chk : Bool) (cname : C → String) (lim : Limits) (xs : List (Val C)) (s m : Nat) (hn : xs.length < 2 ^ 63) (i j : BitVec 64)
    (hi : -(xs.length : Int) ≤ i.toInt) (hij : slicePos xs.length i ≤ slicePos xs.length j) (hjn : (xs.length : Int) < slicePos xs.length j) :
    callStd L chk cname lim "slice" [.arr xs s m, .int i, .int j] = some .panic := by
  have hj : -(xs.length : Int) ≤ j.toInt := by unfold slicePos at hjn; split at hjn <;> omega
  obtain ⟨p, hp, p1, p2, p3⟩ := sliceBound_ok chk hn hi i
  obtain ⟨q, hq, q1, q2, q3⟩ := sliceBound_ok chk hn hj p
  have hcall : callStd L chk cname lim "slice" [.arr xs s m, .int i, .int j] = some (slice chk xs i j) := rfl
  rw [hcall]
  unfold slice
  rw [hp, Res.bind_ok, hq, Res.bind_ok, if_neg (by omega), if_neg (by omega)]

/-- The hypotheses hold for `@slice([1, 2, 3, 4], -3, 3)`. -/
example : -((4 : Nat) : Int) ≤ (-3 : BitVec 64).toInt ∧ slicePos 4 (-3) ≤ slicePos 4 3 ∧ slicePos 4 3 ≤ (4 : Nat) := by decide
/-- And those of the panic for `@slice([1], 0, 2)`. -/
example : slicePos 1 0 ≤ slicePos 1 2 ∧ ((1 : Nat) : Int) < slicePos 1 2 := by decide

/-! ## C46 numbers and text -/

theorem parseI64_some {b : Nat} (hb : 1 ≤ b) {s : List Char} {z : Int} (h : Numeral b s z) (h1 : -2 ^ 63 ≤ z) (h2 : z < 2 ^ 63) :
    parseI64 b s = some (BitVec.ofInt 64 z) := by
  unfold parseI64
  rw [(fromStrRadix_iff (by decide) (by decide) hb s z).2 ⟨h, h1, by omega⟩]
  rfl

theorem parseI64_none {b : Nat} (hb : 1 ≤ b) {s : List Char} (h : ∀ z, Numeral b s z → z < -2 ^ 63 ∨ 2 ^ 63 ≤ z) : parseI64 b s = none := by
  unfold parseI64
  cases hr : fromStrRadix (-2 ^ 63) (2 ^ 63 - 1) b s with
  | none => rfl
  | some z =>
    obtain ⟨h1, h2, h3⟩ := (fromStrRadix_iff (by decide) (by decide) hb s z).1 hr
    rcases h z h1 with h | h <;> omega

/-- `@int(@str(n))` is `n`. -/
theorem C46_int_str (L : Ops) (chk : Bool) (cname : C → String) (lim : Limits) (n : BitVec 64) :
    ∃ t, callStd L chk cname lim "str" [.int n] = some (.ok t) ∧ callStd L chk cname lim "int" [t] = some (.ok (.int n)) := by
  refine ⟨_, rfl, ?_⟩
  have hcall : callStd L chk cname lim "int" [.str (showInt n.toInt)] = some (int L.F (.str (showInt n.toInt))) := rfl
  show callStd L chk cname lim "int" [.str (showInt n.toInt)] = _
  rw [hcall]
  simp only [int, parseI64_some (by decide) (showInt_numeral n.toInt) (BitVec.le_toInt n) BitVec.toInt_lt, BitVec.ofInt_toInt]

/-- `@int` and `@int_from_radix` accept exactly the numerals (an optional sign and at least one digit,
of either case) whose value fits in 64 bits, with that value; any other text is a `ParseError`. -/
theorem C46_parse (L : Ops) (chk : Bool) (cname : C → String) (lim : Limits) (s : List Char) (r : BitVec 64) (hr : 2 ≤ r.toInt ∧ r.toInt ≤ 36) :
    (∀ z, Numeral r.toNat s z → -2 ^ 63 ≤ z → z < 2 ^ 63 →
      callStd L chk cname lim "int_from_radix" [.str s, .int r] = some (.ok (.int (BitVec.ofInt 64 z))) ∧
      (r.toNat = 10 → callStd L chk cname lim "int" [.str s] = some (.ok (.int (BitVec.ofInt 64 z))))) ∧
    ((∀ z, Numeral r.toNat s z → z < -2 ^ 63 ∨ 2 ^ 63 ≤ z) →
      callStd L chk cname lim "int_from_radix" [.str s, .int r] = some (.err (.type (.parseError s "int"))) ∧
      (r.toNat = 10 → callStd L chk cname lim "int" [.str s] = some (.err (.type (.parseError s "int"))))) := by
  have h1 := BitVec.toInt_eq_toNat_cond r
  have h2 := r.isLt
  have hn : (r.setWidth 32).toNat = r.toNat := by
    rw [BitVec.toNat_setWidth]; split at h1 <;> omega
  have hz : (r.setWidth 32).toInt = r.toInt := by
    have := BitVec.toInt_eq_toNat_cond (r.setWidth 32)
    rw [hn] at this
    split at h1 <;> split at this <;> omega
  have hb : 1 ≤ r.toNat := by split at h1 <;> omega
  have hc1 : callStd L chk cname lim "int_from_radix" [.str s, .int r] = some (intFromRadix s (r.setWidth 32)) := rfl
  have hc2 : callStd L chk cname lim "int" [.str s] = some (int L.F (.str s)) := rfl
  rw [hc1, hc2]
  unfold intFromRadix
  rw [hz, hn, if_neg (by omega)]
  constructor
  · intro z hz h3 h4
    refine ⟨by rw [parseI64_some hb hz h3 h4], fun h10 => ?_⟩
    rw [h10] at hz
    simp only [int, parseI64_some (by decide) hz h3 h4]
  · intro h
    refine ⟨by rw [parseI64_none hb h], fun h10 => ?_⟩
    rw [h10] at h
    simp only [int, parseI64_none (by decide) h]

/-- `@int_from_radix(@bin(n), 2)`, and likewise for octal and hexadecimal, is `n` for every `n` that
is not negative. -/
theorem C46_radix (L : Ops) (chk : Bool) (cname : C → String) (lim : Limits) (n : BitVec 64) (hn : 0 ≤ n.toInt) {f : String} {r : BitVec 64}
    (hf : (f, r) ∈ [("bin", (2 : BitVec 64)), ("oct", 8), ("hex", 16)]) :
    ∃ t, callStd L chk cname lim f [.int n] = some (.ok t) ∧ callStd L chk cname lim "int_from_radix" [t, .int r] = some (.ok (.int n)) := by
  have h1 := BitVec.toInt_eq_toNat_cond n
  have h2 := n.isLt
  have hnat : (n.toNat : Int) = n.toInt := by split at h1 <;> omega
  have main : ∀ (b : BitVec 64), 2 ≤ b.toInt ∧ b.toInt ≤ 36 → 2 ≤ b.toNat → b.toNat ≤ 36 →
      callStd L chk cname lim "int_from_radix" [.str (showBase b.toNat n.toNat), .int b] = some (.ok (.int n)) := by
    intro b hb b1 b2
    have := ((C46_parse L chk cname lim (showBase b.toNat n.toNat) b hb).1 _ (.plain (showBase_digits b1 b2 n.toNat)) (by omega)
      (by have := BitVec.toInt_lt (x := n); omega)).1
    rw [this, hnat, BitVec.ofInt_toInt]
  simp only [List.mem_cons, Prod.mk.injEq, List.not_mem_nil, or_false] at hf
  rcases hf with ⟨rfl, rfl⟩ | ⟨rfl, rfl⟩ | ⟨rfl, rfl⟩
  · exact ⟨_, rfl, main 2 (by decide) (by decide) (by decide)⟩
  · exact ⟨_, rfl, main 8 (by decide) (by decide) (by decide)⟩
  · exact ⟨_, rfl, main 16 (by decide) (by decide) (by decide)⟩

/-- Negative numbers print as their two's complement, which does not read back. -/
theorem C46_radix_negative (L : Ops) (chk : Bool) (cname : C → String) (lim : Limits) (n : BitVec 64) (hn : n.toInt < 0) {f : String} {r : BitVec 64}
    (hf : (f, r) ∈ [("bin", (2 : BitVec 64)), ("oct", 8), ("hex", 16)]) :
    ∃ t, callStd L chk cname lim f [.int n] = some (.ok (.str t)) ∧ Numeral r.toNat t (n.toInt + 2 ^ 64) ∧
      callStd L chk cname lim "int_from_radix" [.str t, .int r] = some (.err (.type (.parseError t "int"))) := by
  have h1 := BitVec.toInt_eq_toNat_cond n
  have h2 := n.isLt
  have hnat : (n.toNat : Int) = n.toInt + 2 ^ 64 := by split at h1 <;> omega
  have main : ∀ (b : BitVec 64), 2 ≤ b.toInt ∧ b.toInt ≤ 36 → 2 ≤ b.toNat → b.toNat ≤ 36 →
      Numeral b.toNat (showBase b.toNat n.toNat) (n.toInt + 2 ^ 64) ∧
      callStd L chk cname lim "int_from_radix" [.str (showBase b.toNat n.toNat), .int b] = some (.err (.type (.parseError (showBase b.toNat n.toNat) "int"))) := by
    intro b hb b1 b2
    have hnum := Numeral.plain (showBase_digits b1 b2 n.toNat)
    rw [hnat] at hnum
    refine ⟨hnum, ((C46_parse L chk cname lim (showBase b.toNat n.toNat) b hb).2 fun z hz => ?_).1⟩
    have := hz.unique hnum
    have := BitVec.le_toInt n
    right; omega
  simp only [List.mem_cons, Prod.mk.injEq, List.not_mem_nil, or_false] at hf
  rcases hf with ⟨rfl, rfl⟩ | ⟨rfl, rfl⟩ | ⟨rfl, rfl⟩
  · exact ⟨_, rfl, main 2 (by decide) (by decide) (by decide)⟩
  · exact ⟨_, rfl, main 8 (by decide) (by decide) (by decide)⟩
  · exact ⟨_, rfl, main 16 (by decide) (by decide) (by decide)⟩

/-- A radix outside 2 to 36 is refused. -/
theorem C46_bad_radix (L : Ops) (chk : Bool) (cname : C → String) (lim : Limits) (s : List Char) (r : BitVec 64) (hr : (r.setWidth 32).toInt < 2 ∨ 36 < (r.setWidth 32).toInt) :
    ∃ msg, callStd L chk cname lim "int_from_radix" [.str s, .int r] = some (.err (.builtin msg)) := by
  have hc1 : callStd L chk cname lim "int_from_radix" [.str s, .int r] = some (intFromRadix s (r.setWidth 32)) := rfl
  rw [hc1]
  unfold intFromRadix
  rw [if_pos (by omega)]
  exact ⟨_, rfl⟩

/-- `-Ff` is a numeral of base 16 for -255; `12x` is no numeral of base 10. -/
example : Numeral 16 "-Ff".toList (-255) ∧ ∀ z, ¬ Numeral 10 "12x".toList z := by
  refine ⟨.minus (.more (.one (d := 15) (Or.inr rfl) (by decide)) (d := 15) (Or.inl rfl) (by decide)), fun z hz => ?_⟩
  cases hz with
  | plain h => have := (digits_iff.1 h).2; simp [valueOf, toDigit] at this

end Quilt.Props
