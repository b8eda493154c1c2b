import Verif.Lib.Args

/-!
# Facts about argument lists of builtins
-/

namespace Quilt.Lib

variable {C D : Type}

/-- What an argument becomes when it is taken for a parameter of a kind; `none` if it is refused. -/
def PKind.accept (L : Ops) : (k : PKind) → Val C → Option (k.T C)
  | .int, .int i => some i
  | .int, .float f => some (L.F.toInt f)
  | .int32, .int i => some (i.setWidth 32)
  | .int32, .float f => some (L.toI32 f)
  | .u8, .int i => some (if i.toInt < 0 then (0 : BitVec 8) else if i.toInt ≤ 255 then i.setWidth 8 else (255 : BitVec 8))
  | .u8, .float f => some (L.toU8 (L.max (L.min (L.F.mul f f255) f255) 0))
  | .bool, .bool b => some b
  | .float, .int i => some (L.intToF32 i)
  | .float, .float f => some (L.toF32 f)
  | .double, .int i | .num, .int i => some (L.F.ofInt i)
  | .double, .float f | .num, .float f => some f
  | .str, .str s => some s
  | .color, .color r g b a => some (r, g, b, a)
  | .list, .arr xs _ _ => some xs
  | .list, .pair a b => some [a, b]
  | .pair, .pair a b => some (a, b)
  | .any, v => some v
  | .special id, .special s n => if s = id then some n else none
  | _, _ => none

/-- How error messages name a kind. -/
def PKind.word : PKind → String
  | .int | .int32 => "int"
  | .u8 => "u8"
  | .bool => "bool"
  | .float | .double => "float"
  | .num => "num"
  | .str => "str"
  | .color => "color"
  | .list => "list"
  | .pair => "pair"
  | .rest => "rest"
  | .any => "any"
  | .special id => id

theorem u8_clamp (i : BitVec 64) :
    BitVec.ofInt 8 (Max.max (Min.min i.toInt 255) 0) = if i.toInt < 0 then 0 else if i.toInt ≤ 255 then i.setWidth 8 else 255 := by
  split
  · rw [show Max.max (Min.min i.toInt 255) 0 = 0 by omega]; rfl
  · split
    · rw [show Max.max (Min.min i.toInt 255) 0 = i.toInt by omega]
      apply BitVec.eq_of_toInt_eq
      rw [BitVec.toInt_ofInt, BitVec.toInt_setWidth]
      have h1 := BitVec.toInt_eq_toNat_cond i
      have h2 := i.isLt
      congr 1
      split at h1 <;> omega
    · rw [show Max.max (Min.min i.toInt 255) 0 = 255 by omega]; rfl

/-- Taking a parameter other than the rest: the next argument, if accepted. -/
theorem take_eq (L : Ops) {k : PKind} (hk : k ≠ .rest) (a : Args C) :
    a.take L k = match a.args[a.idx]? with
      | none => .err (.builtin ("too litte arguments supplied to builtin, expected `" ++ k.word ++ "`"))
      | some v => match k.accept L v with
        | some x => .ok (x, ⟨a.args, a.idx + 1⟩)
        | none => .err (.type (.expected k.word v.ntype)) := by
  cases hv : a.args[a.idx]? with
  | none =>
    cases k <;>
      simp [Args.take, Args.int, Args.int32, Args.u8, Args.bool, Args.float, Args.double, Args.num, Args.str, Args.color, Args.list,
        Args.pair, Args.any, Args.special, Args.consume, Args.next, hv, PKind.word] at hk ⊢ <;> rfl
  | some v =>
    cases k with
    | rest => exact absurd rfl hk
    | special id =>
      simp only [Args.take, Args.special, Args.consume, Args.next, hv, Res.bind_ok]
      cases v with
      | special s n =>
        simp only [PKind.accept, PKind.word, Args.expected, Val.ntype]
        by_cases h : id = s
        · subst h; simp only [if_true]; rfl
        · rw [if_neg h, if_neg (fun e => h e.symm)]; rfl
      | _ => rfl
    | u8 =>
      simp only [Args.take, Args.u8, Args.consume, Args.next, hv, Res.bind_ok]
      cases v with
      | int i => simp only [u8_clamp, PKind.accept]; rfl
      | _ => rfl
    | _ =>
      simp only [Args.take, Args.int, Args.int32, Args.bool, Args.float, Args.double, Args.num, Args.str, Args.color, Args.list,
        Args.pair, Args.any, Args.consume, Args.next, hv, Res.bind_ok]
      cases v <;> rfl

/-- Arguments taken for required parameters. -/
inductive Given (L : Ops) : (ks : List PKind) → List (Val C) → Params C ks → Prop
  | nil : Given L [] [] ()
  | cons {k ks v vs x xs} : k.accept L v = some x → Given L ks vs xs → Given L (k :: ks) (v :: vs) (x, xs)

/-- The defaults of optional parameters. -/
def defaults : (os : OptParams C) → Params C (os.map (·.1))
  | [] => ()
  | o :: os => (o.2, defaults os)

/-- Arguments taken for optional parameters, with defaults for the missing ones. -/
inductive Filled (L : Ops) : (os : OptParams C) → List (Val C) → Params C (os.map (·.1)) → Prop
  | done (os) : Filled L os [] (defaults os)
  | cons {o : (k : PKind) × k.T C} {os v vs x xs} : o.1.accept L v = some x → Filled L os vs xs → Filled L (o :: os) (v :: vs) (x, xs)

theorem accept_rest (L : Ops) (v : Val C) : PKind.accept L .rest v = none := by cases v <;> rfl

theorem accept_ne_rest {L : Ops} {k : PKind} {v : Val C} {x : k.T C} (h : k.accept L v = some x) : k ≠ .rest := by
  rintro rfl; rw [accept_rest] at h; cases h

theorem takeReq_given (L : Ops) {ks : List PKind} {vs : List (Val C)} {xs : Params C ks} (h : Given L ks vs xs) (pre post : List (Val C)) :
    takeReq L ks ⟨pre ++ vs ++ post, pre.length⟩ = .ok (xs, ⟨pre ++ vs ++ post, (pre ++ vs).length⟩) := by
  induction h generalizing pre with
  | nil => simp [takeReq]
  | @cons k ks v vs x xs hx hg ih =>
    have hk : k ≠ .rest := accept_ne_rest hx
    have := ih (pre ++ [v])
    simp only [List.append_assoc, List.length_append, List.length_cons, List.length_nil, Nat.zero_add, List.cons_append, List.nil_append] at this
    simp only [takeReq, take_eq L hk, List.append_assoc, List.getElem?_append_right (Nat.le_refl _), Nat.sub_self, List.cons_append, List.getElem?_cons_zero, hx,
      Res.bind_ok]
    rw [this]
    simp only [Res.map_ok, List.length_append, List.length_cons]

theorem takeOpt_filled (L : Ops) {os : OptParams C} {vs : List (Val C)} {xs : Params C (os.map (·.1))} (h : Filled L os vs xs) (pre : List (Val C)) :
    takeOpt L os ⟨pre ++ vs, pre.length⟩ = .ok (xs, ⟨pre ++ vs, (pre ++ vs).length⟩) := by
  induction h generalizing pre with
  | done os =>
    induction os with
    | nil => simp [takeOpt, defaults]
    | cons o os ih => simp only [takeOpt, Args.optional, Args.len, List.append_nil, Nat.sub_self, if_true, Res.bind_ok, Option.getD_none] at ih ⊢; rw [ih]; rfl
  | @cons o os v vs x xs hx hg ih =>
    have hk : o.1 ≠ .rest := accept_ne_rest hx
    have := ih (pre ++ [v])
    simp only [List.append_assoc, List.length_append, List.length_cons, List.length_nil, Nat.zero_add, List.cons_append, List.nil_append] at this
    have hlen : ¬ (pre ++ v :: vs).length - pre.length = 0 := by simp
    simp only [takeOpt, Args.optional, Args.len, hlen, if_false, take_eq L hk, List.getElem?_append_right (Nat.le_refl _), Nat.sub_self, List.getElem?_cons_zero, hx,
      Res.bind_ok, Res.map_ok, Option.getD_some]
    rw [this]
    simp only [Res.map_ok, List.length_append, List.length_cons]

theorem stop_end (vs : List (Val C)) : Args.stop ⟨vs, vs.length⟩ = .ok () := by simp [Args.stop, Args.next]

theorem stop_more (vs : List (Val C)) (v : Val C) (ws : List (Val C)) :
    Args.stop ⟨vs ++ v :: ws, vs.length⟩ = .err (.builtin ("too many arguments, got extra " ++ v.ntype)) := by simp [Args.stop, Args.next]

theorem builtin_accepts (L : Ops) {req : List PKind} {opt : OptParams C} (body : Params C req → Params C (opt.map (·.1)) → Limits → Res (Val C))
    {as bs : List (Val C)} {xs ys} (h : Given L req as xs) (h' : Filled L opt bs ys) (d : D) (lim : Limits) :
    builtin L req opt body d (as ++ bs) lim = (body xs ys lim, d) := by
  have h1 := takeReq_given L h [] bs
  simp only [List.nil_append, List.length_nil] at h1
  simp only [builtin, Args.new, h1, Res.bind_ok, takeOpt_filled L h' as, stop_end]

/-- The arguments, as far as they and the parameters go, are accepted. -/
def Fits (L : Ops) (ks : List PKind) (vs : List (Val C)) : Prop :=
  ∀ (i : Nat) (k : PKind) (v : Val C), ks[i]? = some k → vs[i]? = some v → ∃ x, k.accept L v = some x

theorem Fits.given {L : Ops} : ∀ {ks : List PKind} {vs : List (Val C)}, Fits L ks vs → vs.length = ks.length → ∃ xs, Given L ks vs xs
  | [], [], _, _ => ⟨(), .nil⟩
  | k :: ks, v :: vs, h, hl => by
    obtain ⟨x, hx⟩ := h 0 k v rfl rfl
    obtain ⟨xs, hxs⟩ := Fits.given (ks := ks) (vs := vs) (fun i k v => h (i + 1) k v) (by simpa using hl)
    exact ⟨(x, xs), .cons hx hxs⟩
  | [], _ :: _, _, hl => by simp at hl
  | _ :: _, [], _, hl => by simp at hl

theorem Fits.filled {L : Ops} : ∀ {os : OptParams C} {vs : List (Val C)}, Fits L (os.map (·.1)) vs → vs.length ≤ os.length → ∃ xs, Filled L os vs xs
  | os, [], _, _ => ⟨_, .done os⟩
  | o :: os, v :: vs, h, hl => by
    obtain ⟨x, hx⟩ := h 0 o.1 v rfl rfl
    obtain ⟨xs, hxs⟩ := Fits.filled (os := os) (vs := vs) (fun i k v => h (i + 1) k v) (by simpa using hl)
    exact ⟨(x, xs), .cons hx hxs⟩
  | [], _ :: _, _, hl => by simp at hl

/-- A parameter that no argument is left for, or that refuses its argument, ends the call. -/
theorem takeReq_fails (L : Ops) {ks ks' : List PKind} {k : PKind} (hk : k ≠ .rest) {vs : List (Val C)} {xs : Params C ks} (h : Given L ks vs xs)
    (pre post : List (Val C)) (e : Err)
    (he : (post = [] ∧ e = .builtin ("too litte arguments supplied to builtin, expected `" ++ k.word ++ "`")) ∨
      ∃ v ws, post = v :: ws ∧ k.accept L v = none ∧ e = .type (.expected k.word v.ntype)) :
    takeReq L (ks ++ k :: ks') ⟨pre ++ vs ++ post, pre.length⟩ = .err e := by
  induction h generalizing pre with
  | nil =>
    simp only [List.nil_append, List.append_nil, takeReq, take_eq L hk]
    rcases he with ⟨rfl, rfl⟩ | ⟨v, ws, rfl, hv, rfl⟩
    · simp
    · simp [hv]
  | @cons k' ks v vs x xs hx hg ih =>
    have hk' : k' ≠ .rest := accept_ne_rest hx
    have := ih (pre ++ [v])
    simp only [List.append_assoc, List.length_append, List.length_cons, List.length_nil, Nat.zero_add, List.cons_append, List.nil_append] at this
    simp only [List.cons_append, takeReq, take_eq L hk', List.append_assoc, List.getElem?_append_right (Nat.le_refl _), Nat.sub_self, List.getElem?_cons_zero, hx,
      Res.bind_ok]
    rw [this]
    rfl

theorem takeOpt_fails (L : Ops) {os : OptParams C} {o : (k : PKind) × k.T C} {os' : OptParams C} (hk : o.1 ≠ .rest) {vs : List (Val C)} {xs : Params C (os.map (·.1))}
    (h : Given L (os.map (·.1)) vs xs) (pre : List (Val C)) {v : Val C} {ws : List (Val C)} (hv : o.1.accept L v = none) :
    takeOpt L (os ++ o :: os') ⟨pre ++ vs ++ v :: ws, pre.length⟩ = .err (.type (.expected o.1.word v.ntype)) := by
  induction os generalizing pre vs with
  | nil =>
    cases h
    have hlen : ¬ (pre ++ v :: ws).length - pre.length = 0 := by simp
    simp [takeOpt, Args.optional, Args.len, take_eq L hk, hv]
  | cons q os ih =>
    cases h with
    | @cons _ _ u vs x xs hx hg =>
    have hk' : q.1 ≠ .rest := accept_ne_rest hx
    have := ih hg (pre ++ [u])
    simp only [List.append_assoc, List.length_append, List.length_cons, List.length_nil, Nat.zero_add, List.cons_append, List.nil_append] at this
    have hlen : ¬ (pre ++ u :: (vs ++ v :: ws)).length - pre.length = 0 := by simp
    simp only [List.cons_append, takeOpt, Args.optional, Args.len, List.append_assoc, hlen, if_false, take_eq L hk', List.getElem?_append_right (Nat.le_refl _), Nat.sub_self,
      List.getElem?_cons_zero, hx, Res.bind_ok, Res.map_ok]
    rw [this]
    rfl

end Quilt.Lib
