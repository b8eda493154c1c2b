import Verif.Props.Memory
import Verif.Lib.Errors

/-!
# Which builtins of the standard library respect the size limits: C72
-/

namespace Quilt.Props

open Lib

variable {D : Type} {S A : Nat} {W : Func → Prop}

/-- Arguments of a kind that come from small values. -/
def PSmall (S A : Nat) (W : Func → Prop) : (k : PKind) → k.T VClos → Prop
  | .str, t => byteLen t ≤ S
  | .list, xs => SmallL S A W xs
  | .rest, xs => SmallL S A W xs
  | .pair, (a, b) => Small S A W a ∧ Small S A W b
  | .any, v => Small S A W v
  | _, _ => True

def PsSmall (S A : Nat) (W : Func → Prop) : (ks : List PKind) → Params VClos ks → Prop
  | [], _ => True
  | k :: ks, (x, xs) => PSmall S A W k x ∧ PsSmall S A W ks xs

private theorem consume_small {a a' : Args VClos} {v : VVal} {w : String} (h : a.consume w = .ok (v, a')) (ha : ∀ v ∈ a.args, Small S A W v) :
    Small S A W v ∧ ∀ v ∈ a'.args, Small S A W v := by
  unfold Args.consume Args.next at h
  split at h
  · rename_i v' a'' heq
    simp only [Prod.mk.injEq] at heq
    obtain ⟨h1, h2⟩ := heq
    simp only [Res.ok.injEq, Prod.mk.injEq] at h
    obtain ⟨rfl, rfl⟩ := h
    exact ⟨ha _ (List.mem_of_getElem? h1), by rw [← h2]; exact ha⟩
  · cases h

private theorem bind_ok {α β : Type} {r : Res α} {f : α → Res β} {b : β} (h : r.bind f = .ok b) : ∃ a, r = .ok a ∧ f a = .ok b := by
  cases r with
  | ok a => exact ⟨a, rfl, h⟩
  | err e => cases h
  | panic => cases h

private theorem take_small (L : Ops) (k : PKind) {a a' : Args VClos} {x : k.T VClos} (h : a.take L k = .ok (x, a')) (ha : ∀ v ∈ a.args, Small S A W v) :
    PSmall S A W k x ∧ ∀ v ∈ a'.args, Small S A W v := by
  cases k <;> simp only [Args.take, Args.int, Args.int32, Args.u8, Args.bool, Args.float, Args.double, Args.num, Args.str, Args.color, Args.list,
    Args.pair, Args.rest, Args.any, Args.special] at h
  case rest =>
    simp only [Args.remaining] at h
    obtain ⟨rfl, rfl⟩ := h
    refine ⟨smallL_iff.2 fun v hv => ?_, ha⟩
    split at hv
    · cases hv
    · exact ha v (List.mem_of_mem_drop hv)
  case any => exact consume_small h ha
  all_goals
    obtain ⟨⟨v, a1⟩, h1, h2⟩ := bind_ok h
    obtain ⟨hv, ha1⟩ := consume_small h1 ha
    dsimp only at h2
    split at h2 <;> first
      | (cases h2; exact ⟨trivial, ha1⟩)
      | (cases h2; exact ⟨hv, ha1⟩)
      | (cases h2; simp only [Small] at hv; exact ⟨hv.2.2, ha1⟩)
      | (cases h2; simp only [Small] at hv; exact ⟨⟨hv.1, hv.2, trivial⟩, ha1⟩)
      | (split at h2 <;> cases h2; exact ⟨trivial, ha1⟩)
      | cases h2

private theorem takeReq_small (L : Ops) : ∀ (ks : List PKind) {a a' : Args VClos} {xs : Params VClos ks}, takeReq L ks a = .ok (xs, a') → (∀ v ∈ a.args, Small S A W v) →
    PsSmall S A W ks xs ∧ ∀ v ∈ a'.args, Small S A W v
  | [], _, _, _, h, ha => by cases h; exact ⟨trivial, ha⟩
  | k :: ks, a, a', xs, h, ha => by
    obtain ⟨⟨x, a1⟩, h1, h2⟩ := bind_ok h
    obtain ⟨k1, k2⟩ := take_small L k h1 ha
    dsimp only at h2
    cases h3 : takeReq L ks a1 <;> simp only [h3, Res.map, reduceCtorEq] at h2
    rename_i p
    obtain ⟨ys, a2⟩ := p
    cases h2
    obtain ⟨l1, l2⟩ := takeReq_small L ks h3 k2
    exact ⟨⟨k1, l1⟩, l2⟩

private theorem takeOpt_small (L : Ops) : ∀ (os : OptParams VClos) {a a' : Args VClos} {xs : Params VClos (os.map (·.1))}, takeOpt L os a = .ok (xs, a') → (∀ o ∈ os, PSmall S A W o.1 o.2) →
    (∀ v ∈ a.args, Small S A W v) → PsSmall S A W (os.map (·.1)) xs
  | [], _, _, _, _, _, _ => trivial
  | o :: os, a, a', xs, h, ho, ha => by
    obtain ⟨⟨x, a1⟩, h1, h2⟩ := bind_ok h
    dsimp only at h2
    cases h3 : takeOpt L os a1 <;> simp only [h3, Res.map, reduceCtorEq] at h2
    rename_i p
    obtain ⟨ys, a2⟩ := p
    cases h2
    unfold Args.optional at h1
    split at h1
    · cases h1
      exact ⟨ho o (List.mem_cons_self ..), takeOpt_small L os h3 (fun o ho' => ho o (List.mem_cons_of_mem _ ho')) ha⟩
    · cases h4 : a.take L o.1 <;> simp only [h4, Res.map, reduceCtorEq] at h1
      rename_i p
      obtain ⟨y, a3⟩ := p
      cases h1
      obtain ⟨k1, k2⟩ := take_small L o.1 h4 ha
      exact ⟨k1, takeOpt_small L os h3 (fun o ho' => ho o (List.mem_cons_of_mem _ ho')) k2⟩

/-- A function that gives small values when its arguments are small. -/
structure BSmall (S A : Nat) (lim : Limits) (f : BFn D VClos) : Prop where
  of : ∀ d args, (∀ w ∈ args, Fits S A w) → ∀ v, (f d args lim).1 = .ok v → Fits S A v

variable {lim : Limits}

private theorem builtin_small {L : Ops} {req : List PKind} {opt : OptParams VClos} {body : Params VClos req → Params VClos (opt.map (·.1)) → Limits → Res VVal}
    (ho : ∀ o ∈ opt, PSmall S A (SmallFn S A) o.1 o.2)
    (h : ∀ xs ys v, PsSmall S A (SmallFn S A) req xs → PsSmall S A (SmallFn S A) _ ys → body xs ys lim = .ok v → Fits S A v) : BSmall S A lim (builtin L req opt body : BFn D VClos) := by
  refine ⟨fun d args ha v hv => ?_⟩
  unfold builtin at hv
  obtain ⟨⟨xs, a⟩, h1, h2⟩ := bind_ok hv
  obtain ⟨⟨ys, a'⟩, h3, h4⟩ := bind_ok h2
  obtain ⟨_, _, h5⟩ := bind_ok h4
  obtain ⟨k1, k2⟩ := takeReq_small L req h1 ha
  exact h xs ys v k1 (takeOpt_small L opt h3 ho k2) h5

/-- Results that are small whatever the arguments: numbers, truth values, colours, `none`. -/
private structure Atom (r : Res VVal) : Prop where
  of : ∀ v, r = .ok v → ∀ S A W, Small S A W v

private theorem Atom.err {e : Err} : Atom (.err e) := ⟨by simp⟩
private theorem Atom.fail {m : List Char} : Atom (fail m) := .err
private theorem Atom.panic : Atom .panic := ⟨by simp⟩
private theorem Atom.int {i : BitVec 64} : Atom (.ok (.int i)) := ⟨fun v h => by cases h; exact fun _ _ _ => trivial⟩
private theorem Atom.float {i : BitVec 64} : Atom (.ok (.float i)) := ⟨fun v h => by cases h; exact fun _ _ _ => trivial⟩
private theorem Atom.bool {i : Bool} : Atom (.ok (.bool i)) := ⟨fun v h => by cases h; exact fun _ _ _ => trivial⟩
private theorem Atom.color {a b c d : BitVec 8} : Atom (.ok (.color a b c d)) := ⟨fun v h => by cases h; exact fun _ _ _ => trivial⟩
private theorem Atom.none : Atom (.ok .none) := ⟨fun v h => by cases h; exact fun _ _ _ => trivial⟩

private theorem atom {L : Ops} {req : List PKind} {body : Params VClos req → Params VClos [] → Limits → Res VVal} (h : ∀ xs ys, Atom (body xs ys lim)) :
    BSmall S A lim (builtin L req [] body : BFn D VClos) :=
  builtin_small (by simp) fun xs ys v _ _ hv => (h xs ys).of v hv S A _

/-- Splits and closes the leaves. -/
local macro "atoms" : tactic => `(tactic| repeat' first
  | exact Atom.err | exact Atom.fail | exact Atom.panic | exact Atom.int | exact Atom.float | exact Atom.bool | exact Atom.color | exact Atom.none | split)

private theorem total_bytes {xs : List VVal} (h : SmallL S A W xs) : Vecc.total Val.getSize xs = bytesInL xs := by
  induction xs with
  | nil => simp [Vecc.total, bytesInL]
  | cons x xs ih =>
    simp only [SmallL] at h
    simp only [Vecc.total, List.map_cons, List.sum_cons, bytesInL, bytes_size h.1] at ih ⊢
    rw [ih h.2]

private theorem makeArray_small {xs : List VVal} {n : Nat} {v : VVal} (hn : n ≤ A) (hx : SmallL S A W xs) (h : makeArray xs n = .ok v) : Small S A W v := by
  unfold makeArray Vecc.tryNewFrom at h
  split at h
  · cases h
  · cases h
    simp only [Small]
    exact ⟨total_bytes hx, by omega, hx⟩

private theorem get_small {chk : Bool} {l : List VVal} {i : BitVec 64} {v : VVal} (hl : SmallL S A W l) (h : Lib.get chk l i = .ok v) : Small S A W v := by
  unfold Lib.get at h
  obtain ⟨j, _, h2⟩ := bind_ok h
  split at h2
  · cases h2
    rename_i h3
    exact smallL_iff.1 hl v (List.mem_of_getElem? h3)
  · cases h2

private theorem set_small {chk : Bool} {l : List VVal} {i : BitVec 64} {w v : VVal} (hA : lim.arrMax ≤ A) (hl : SmallL S A W l) (hw : Small S A W w) (h : Lib.set chk lim l i w = .ok v) :
    Small S A W v := by
  unfold Lib.set at h
  obtain ⟨j, _, h2⟩ := bind_ok h
  split at h2
  · refine makeArray_small hA (smallL_iff.2 fun u hu => ?_) h2
    rcases List.mem_or_eq_of_mem_set hu with hu | rfl
    · exact smallL_iff.1 hl u hu
    · exact hw
  · cases h2

private theorem radix_ascii {d : Nat} (h : d < 36) : (radixChar d).toNat < 128 := by
  have : ∀ d : Fin 36, (radixChar d).toNat < 128 := by decide
  exact this ⟨d, h⟩

private theorem showBase_len {b : Nat} (hb : 2 ≤ b) (hb' : b ≤ 36) : ∀ (k n : Nat), n < b ^ (k + 1) → byteLen (showBase b n) ≤ k + 1
  | 0, n, h => by
    unfold showBase
    have h : n < b := by simpa using h
    rw [dif_pos (.inl h), ← utf8Len_eq, utf8Len_ascii (by simpa using radix_ascii (by omega))]
    simp
  | k + 1, n, h => by
    unfold showBase
    split
    · rename_i h
      rw [← utf8Len_eq, utf8Len_ascii (by simpa using radix_ascii (by omega))]
      simp
    · have h1 : n / b < b ^ (k + 1) := by
        rw [Nat.div_lt_iff_lt_mul (by omega)]
        rwa [Nat.pow_succ] at h
      have := showBase_len hb hb' k _ h1
      rw [← utf8Len_eq] at this ⊢
      rw [utf8Len_append, utf8Len_ascii (s := [_]) (by simpa using radix_ascii (d := n % b) (by have := Nat.mod_lt n (show b > 0 by omega); omega))]
      simp only [List.length_singleton]
      omega

private theorem inBase_small {b : Nat} (hb : 2 ≤ b) (hb' : b ≤ 36) (hS : 64 ≤ S) {i : BitVec 64} {v : VVal} (h : inBase b i = .ok v) : Small S A W v := by
  cases h
  simp only [Small]
  refine Nat.le_trans (showBase_len hb hb' 63 _ (Nat.lt_of_lt_of_le i.isLt ?_)) hS
  exact Nat.pow_le_pow_left hb 64

private theorem char_le (hS : 4 ≤ S) {i : BitVec 64} {v : VVal} (h : Lib.char i = .ok v) : Small S A W v := by
  unfold Lib.char at h
  dsimp only at h
  split at h
  · cases h
    simp only [Small, ← utf8Len_eq, utf8Len, List.map_cons, List.map_nil, List.sum_cons, List.sum_nil]
    have := Char.utf8Size_le_four (Char.ofNat (i.setWidth 32).toNat)
    omega
  · cases h

private theorem type_small (hS : 64 ≤ S) {w v : VVal} (hw : Small S A W w) (h : gettype w = .ok v) : Small S A W v := by
  cases h
  cases w <;> first
    | (simp only [Small, Val.ntype] at hw ⊢; exact hw)
    | (simp only [Small, Val.ntype]; refine Nat.le_trans ?_ hS; decide)

theorem utf8Len_sub {a b : List Char} (h : a.Sublist b) : utf8Len a ≤ utf8Len b := by
  induction h with
  | slnil => exact Nat.le_refl _
  | cons c _ ih => simp only [utf8Len, List.map_cons, List.sum_cons] at *; omega
  | cons_cons c _ ih => simp only [utf8Len, List.map_cons, List.sum_cons] at *; omega

private theorem sub_small {t u : List Char} (h : u.Sublist t) (ht : byteLen t ≤ S) : byteLen u ≤ S := by
  rw [← utf8Len_eq] at *
  exact Nat.le_trans (utf8Len_sub h) ht

private theorem trimStart_sub (t : List Char) : (trimStartText t).Sublist t := List.dropWhile_sublist _
private theorem trimEnd_sub (t : List Char) : (trimEndText t).Sublist t := by
  have := (List.dropWhile_sublist isSpace (l := t.reverse)).reverse
  rwa [List.reverse_reverse] at this

private theorem splitGo_sub (sep : List Char) : ∀ (t : List Char) (k : Nat) , ∀ p ∈ splitGo sep k t, p.Sublist t
  | [], k => by cases k <;> simp [splitGo]
  | c :: cs, k + 1 => fun p hp => .cons _ (splitGo_sub sep cs k p hp)
  | c :: cs, 0 => by
    intro p hp
    simp only [splitGo] at hp
    split at hp
    · rcases List.mem_cons.1 hp with rfl | hp
      · exact List.nil_sublist _
      · exact .cons _ (splitGo_sub sep cs _ p hp)
    · have ih := splitGo_sub sep cs 0
      generalize splitGo sep 0 cs = ps at *
      cases ps with
      | nil => simp only [consHead, List.mem_singleton] at hp; subst hp; exact .cons_cons _ (List.nil_sublist _)
      | cons q qs =>
        rcases List.mem_cons.1 hp with rfl | hp
        · exact .cons_cons _ (ih q (List.mem_cons_self ..))
        · exact .cons _ (ih p (List.mem_cons_of_mem _ hp))

private theorem splitText_sub (t sep : List Char) : ∀ p ∈ splitText t sep, p.Sublist t := by
  intro p hp
  unfold splitText at hp
  split at hp
  · simp only [List.cons_append, List.mem_cons, List.mem_append, List.mem_map] at hp
    rcases hp with rfl | ⟨c, hc, rfl⟩ | h
    · exact List.nil_sublist _
    · exact List.singleton_sublist.2 hc
    · simp at h; subst h; exact List.nil_sublist _
  · exact splitGo_sub sep t 0 p hp

private theorem split_small (hA : lim.arrMax ≤ A) {t sep : List Char} {v : VVal} (ht : byteLen t ≤ S) (h : split lim t sep = .ok v) : Small S A W v := by
  refine makeArray_small hA (smallL_iff.2 fun w hw => ?_) h
  obtain ⟨p, hp, rfl⟩ := List.mem_map.1 hw
  exact sub_small (splitText_sub t sep p hp) ht

private theorem chars_bytes (t : List Char) : bytesInL (t.map fun c => (.str [c] : VVal)) = byteLen t := by
  induction t with
  | nil => rfl
  | cons c t ih =>
    simp only [List.map_cons, bytesInL, bytesIn, ih]
    simp only [← utf8Len_eq, utf8Len, List.map_cons, List.map_nil, List.sum_cons, List.sum_nil, Nat.add_zero]

private theorem chars_small (hA : S ≤ A) {t : List Char} {v : VVal} (ht : byteLen t ≤ S) (h : chars t = .ok v) : Small S A W v := by
  cases h
  have hs : SmallL S A W (t.map fun c => (.str [c] : VVal)) := by
    refine smallL_iff.2 fun w hw => ?_
    obtain ⟨c, hc, rfl⟩ := List.mem_map.1 hw
    exact sub_small (List.singleton_sublist.2 hc) ht
  simp only [ofVec, Small, total_bytes hs, chars_bytes]
  exact ⟨trivial, by omega, hs⟩

private theorem rainbow_small (hA : lim.arrMax ≤ A) {v : VVal} (h : rainbowColors lim = .ok v) : Small S A W v := by
  refine makeArray_small hA (smallL_iff.2 fun w hw => ?_) h
  simp only [rainbow, List.mem_cons, List.not_mem_nil, or_false] at hw
  rcases hw with rfl | rfl | rfl | rfl | rfl | rfl | rfl | rfl | rfl | rfl <;> trivial

/-- The entries of a library whose names are not in `ex`. -/
def LibSmall (S A : Nat) (lim : Limits) (ex : List String) (l : List (String × BFn D VClos)) : Prop := ∀ p ∈ l, p.1 ∉ ex → BSmall S A lim p.2

variable {ex : List String}

private theorem LibSmall.nil : LibSmall S A lim ex ([] : List (String × BFn D VClos)) := by simp [LibSmall]
private theorem LibSmall.cons {x : String} {f : BFn D VClos} {l : List (String × BFn D VClos)} (h : x ∉ ex → BSmall S A lim f) (hl : LibSmall S A lim ex l) :
    LibSmall S A lim ex ((x, f) :: l) := by
  intro p hp
  rcases List.mem_cons.1 hp with rfl | hp
  · exact h
  · exact hl p hp
private theorem LibSmall.append {l l' : List (String × BFn D VClos)} (h : LibSmall S A lim ex l) (h' : LibSmall S A lim ex l') : LibSmall S A lim ex (l ++ l') := by
  intro p hp
  rcases List.mem_append.1 hp with hp | hp
  · exact h p hp
  · exact h' p hp

section
variable (L : Ops) (chk : Bool)

private theorem int_atom (v : VVal) : Atom (int L.F v) := by unfold int; atoms
private theorem float_atom (v : VVal) : Atom (float L v) := by unfold float; atoms
private theorem bool_atom (v : VVal) : Atom (Lib.bool L.F v) := by unfold Lib.bool; atoms
private theorem color_atom (v : VVal) : Atom (color v) := by unfold color; atoms
private theorem len_atom (v : VVal) : Atom (len v) := by unfold len; atoms
private theorem radix_atom (s : List Char) (r : BitVec 32) : Atom (intFromRadix s r) := by unfold intFromRadix; atoms
private theorem log_atom (n : String) (v : VVal) : Atom (logFn L n v) := by unfold logFn; atoms
private theorem hash_atom (v : VVal) : Atom (Lib.hash L v) := by unfold Lib.hash; atoms
private theorem minMax_atom (f g : BitVec 64 → BitVec 64 → BitVec 64) (a b : VVal) : Atom (minMax f g L.F a b) := by unfold minMax; atoms
private theorem round_atom (f : BitVec 64 → BitVec 64) (v : VVal) : Atom (roundFn L.F f v) := by unfold roundFn; atoms
private theorem fix_atom (v : VVal) (i : BitVec 64) : Atom (fix L v i) := by
  unfold fix
  dsimp only
  split
  · split <;> atoms
  · split <;> atoms
  · atoms
private theorem abs_atom (v : VVal) : Atom (abs chk L v) := by unfold abs; atoms
private theorem clamp_atom (a b c : BitVec 64) : Atom (clamp L a b c) := by unfold clamp; atoms
private theorem assert_atom (b : Bool) : Atom (assert b) := by unfold assert; atoms
private theorem contrast_atom (c : Rgba) : Atom (contrastColor L c) := by unfold contrastColor; atoms

/-- Those that can give more. -/
def growing : List String := ["slice", "str", "truncate", "capitalize", "title", "uppercase", "lowercase", "join", "replace"]

private theorem core_small (hA : lim.arrMax ≤ A) (hS : 64 ≤ S) : LibSmall S A lim growing (coreLib L chk vname : List (String × BFn D VClos)) := by
  unfold coreLib
  repeat' apply LibSmall.cons
  all_goals first
    | exact LibSmall.nil
    | exact fun h => absurd (by decide) h
    | intro _
  all_goals first
    | exact atom fun _ _ => radix_atom ..
    | exact atom fun _ _ => int_atom ..
    | exact atom fun _ _ => float_atom ..
    | exact atom fun _ _ => bool_atom ..
    | exact atom fun _ _ => color_atom ..
    | exact atom fun _ _ => len_atom ..
    | exact builtin_small (by simp) fun xs _ v hx _ h => get_small hx.1 h
    | exact builtin_small (by simp) fun xs _ v hx _ h => set_small hA hx.1 hx.2.2.1 h
    | exact builtin_small (by simp) fun xs _ v hx _ h => inBase_small (by omega) (by omega) hS h
    | exact builtin_small (by simp) fun xs _ v hx _ h => char_le (by omega) h
    | exact builtin_small (by simp) fun xs _ v hx _ h => type_small hS hx.1 h

private theorem math_small : LibSmall S A lim growing (mathLib L chk : List (String × BFn D VClos)) := by
  unfold mathLib
  repeat' apply LibSmall.cons
  all_goals first
    | exact LibSmall.nil
    | intro _
  all_goals first
    | exact atom fun _ _ => Atom.float
    | exact atom fun _ _ => log_atom ..
    | exact atom fun _ _ => hash_atom ..
    | exact atom fun _ _ => minMax_atom ..
    | exact atom fun _ _ => round_atom ..
    | exact atom fun _ _ => fix_atom ..
    | exact atom fun _ _ => abs_atom ..
    | exact atom fun _ _ => clamp_atom ..

private theorem color_small (hA : lim.arrMax ≤ A) : LibSmall S A lim growing (colorLib L : List (String × BFn D VClos)) := by
  unfold colorLib
  repeat' apply LibSmall.cons
  all_goals first
    | exact LibSmall.nil
    | intro _
  all_goals first
    | exact atom fun _ _ => Atom.color
    | exact atom fun _ _ => Atom.float
    | exact atom fun _ _ => Atom.int
    | exact atom fun _ _ => contrast_atom ..
    | exact builtin_small (by simp) fun _ _ v _ _ h => rainbow_small hA h

private theorem string_small (hA : lim.arrMax ≤ A) (hS : 64 ≤ S) (hSA : S ≤ A) : LibSmall S A lim growing (stringLib L vname : List (String × BFn D VClos)) := by
  unfold stringLib
  repeat' apply LibSmall.cons
  all_goals first
    | exact LibSmall.nil
    | exact fun h => absurd (by decide) h
    | intro _
  · refine builtin_small ?_ fun xs ys v hx _ h => split_small hA hx.1 h
    intro o ho
    rw [List.mem_singleton] at ho
    subst ho
    exact Nat.le_trans (by decide) hS
  · exact builtin_small (by simp) fun xs _ v hx _ h => by cases h; exact sub_small (.trans (trimEnd_sub _) (trimStart_sub _)) hx.1
  · exact builtin_small (by simp) fun xs _ v hx _ h => by cases h; exact sub_small (trimStart_sub _) hx.1
  · exact builtin_small (by simp) fun xs _ v hx _ h => by cases h; exact sub_small (trimEnd_sub _) hx.1
  · exact atom fun _ _ => Atom.bool
  · exact atom fun _ _ => Atom.bool
  · exact atom fun _ _ => Atom.bool
  · exact builtin_small (by simp) fun xs _ v hx _ h => chars_small hSA hx.1 h

private theorem test_small : LibSmall S A lim growing (testLib L : List (String × BFn D VClos)) := by
  unfold testLib
  repeat' apply LibSmall.cons
  all_goals first
    | exact LibSmall.nil
    | intro _
  all_goals first
    | exact atom fun _ _ => assert_atom ..
    | exact atom fun _ _ => Atom.fail

/-- Except for nine, the builtins of the library give only small values for small values, if texts of 64 bytes are
small (for `@bin`) and the characters of a small text together (for `@chars`). -/
theorem C72_std (hA : lim.arrMax ≤ A) (hS : 64 ≤ S) (hSA : S ≤ A) {x : String} {f : BFn D VClos} (h : (x, f) ∈ stdLib L chk vname)
    (hx : x ∉ ["slice", "str", "truncate", "capitalize", "title", "uppercase", "lowercase", "join", "replace"]) : KeepsSmall S A lim (.fn f) := by
  have hb := (((((core_small L chk hA hS).append (math_small L chk)).append (color_small L hA)).append (string_small L hA hS hSA)).append (test_small L)) (x, f) h hx
  intro g hg d args ha v hv
  have : f = g := by
    rcases hg with hg | ⟨_, hg⟩ <;> cases hg
    rfl
  subst this
  exact hb.of d args ha v hv
end

section
variable (L : Ops) (chk : Bool)

private def tower2 : Nat → VVal
  | 0 => .int 1
  | n + 1 => .pair (tower2 n) (tower2 n)

private theorem tower2_bytes : ∀ n, bytesIn (tower2 n) = 16 * 2 ^ n
  | 0 => rfl
  | n + 1 => by simp only [tower2, bytesIn, tower2_bytes n]; omega

private theorem tower2_small : ∀ n, Small S A W (tower2 n)
  | 0 => trivial
  | n + 1 => by simp only [tower2, Small]; exact ⟨tower2_small n, tower2_small n⟩

private theorem rep_bytes (c : Char) (n : Nat) : utf8Len (List.replicate n c) = c.utf8Size * n := by
  induction n with
  | zero => simp [utf8Len]
  | succ n ih =>
    simp only [utf8Len, List.replicate_succ, List.map_cons, List.sum_cons] at *
    rw [ih, Nat.mul_succ]; omega

/-- Five of the nine give values that are not small for some small arguments, whatever the limits (which are less than `2^64`). -/
theorem C72_growing (hS : 64 ≤ S) (hS' : S < 2 ^ 64) (lim : Limits) {x : String} (hx : x ∈ ["slice", "str", "truncate", "join", "replace"]) :
    ∃ args, (∀ w ∈ args, Fits S A w) ∧ ∃ v, callStd L chk vname lim x args = some (.ok v) ∧ ¬ Fits S A v := by
  have ha : utf8Len (List.replicate S 'a') = S := by rw [rep_bytes]; show 1 * S = S; omega
  have has : Fits S A (.str (List.replicate S 'a')) := by simp only [Fits, Small, ← utf8Len_eq, ha]; omega
  simp only [List.mem_cons, List.not_mem_nil, or_false] at hx
  rcases hx with rfl | rfl | rfl | rfl | rfl
  · have ht := tower2_small (S := S) (A := A) (W := SmallFn S A) A
    refine ⟨[.pair (tower2 A) (tower2 A), .int 0, .int 2], ?_, _, rfl, ?_⟩
    · simp only [List.mem_cons, List.not_mem_nil, or_false]
      rintro w (rfl | rfl | rfl)
      · simp only [Fits, Small]; exact ⟨ht, ht⟩
      · trivial
      · trivial
    · show ¬ Small S A _ (ofVec [tower2 A, tower2 A])
      simp only [ofVec, Small]
      rintro ⟨h1, h2, _⟩
      have h3 : Vecc.total Val.getSize [tower2 A, tower2 A] = 32 * 2 ^ A := by
        simp only [Vecc.total, List.map_cons, List.map_nil, List.sum_cons, List.sum_nil, bytes_size ht, tower2_bytes]; omega
      have := Nat.lt_two_pow_self (n := A)
      omega
  · refine ⟨[.pair (.str (List.replicate S 'a')) .none], ?_, _, rfl, ?_⟩
    · simp only [List.mem_cons, List.not_mem_nil, or_false]
      rintro w rfl
      simp only [Fits, Small]
      exact ⟨has, trivial⟩
    · show ¬ byteLen ('(' :: (List.replicate S 'a' ++ ',' :: ' ' :: _)) ≤ S
      rw [← utf8Len_eq]
      have : ∀ t, utf8Len ('(' :: t) = 1 + utf8Len t := fun t => rfl
      rw [this, utf8Len_append, ha]
      omega
  · have he : ∀ n, utf8Len (List.replicate n '😀') = 4 * n := fun n => by rw [rep_bytes]; rfl
    have hes : Fits S A (.str (List.replicate (S / 4) '😀')) := by simp only [Fits, Small, ← utf8Len_eq, he]; omega
    refine ⟨[.str (List.replicate (S / 4) '😀'), .int (BitVec.ofNat 64 (S / 4 - 1)), .str (List.replicate (S / 4) '😀')], ?_, .str (List.replicate (S / 4) '😀' ++ List.replicate (S / 4) '😀'), ?_, ?_⟩
    · simp only [List.mem_cons, List.not_mem_nil, or_false]
      rintro w (rfl | rfl | rfl)
      · exact hes
      · trivial
      · exact hes
    · have : callStd L chk vname lim "truncate" [.str (List.replicate (S / 4) '😀'), .int (BitVec.ofNat 64 (S / 4 - 1)), .str (List.replicate (S / 4) '😀')] =
          some (truncate (List.replicate (S / 4) '😀') (BitVec.ofNat 64 (S / 4 - 1)) (List.replicate (S / 4) '😀')) := rfl
      rw [this]
      unfold truncate
      have h1 : (BitVec.ofNat 64 (S / 4 - 1)).toNat = S / 4 - 1 := by
        rw [BitVec.toNat_ofNat]; omega
      simp only [h1, List.length_replicate]
      have h2 : utf8Len ((List.replicate (S / 4) '😀').take (S / 4 - 1)) = 4 * (S / 4 - 1) := by
        rw [List.take_replicate, he, Nat.min_eq_left (by omega)]
      rw [if_pos (by omega), h2, show Min.min (4 * (S / 4 - 1) - S / 4) (S / 4) = S / 4 from Nat.min_eq_right (by omega)]
      simp only [List.drop_replicate, Nat.sub_self, List.replicate_zero, backOver, List.take_replicate, Nat.min_self]
    · simp only [Fits, Small, ← utf8Len_eq, utf8Len_append, he]
      omega
  · refine ⟨[.pair (.str (List.replicate S 'a')) (.str (List.replicate S 'a'))], ?_, _, rfl, ?_⟩
    · simp only [List.mem_cons, List.not_mem_nil, or_false]
      rintro w rfl
      simp only [Fits, Small]
      exact ⟨has, has⟩
    · show ¬ byteLen (List.replicate S 'a' ++ [] ++ List.replicate S 'a') ≤ S
      rw [← utf8Len_eq, utf8Len_append, utf8Len_append, ha]
      omega
  · obtain ⟨t, h1, h2⟩ := C72_violated_builtin L chk vname lim S
    refine ⟨_, ?_, _, h1, ?_⟩
    · simp only [List.mem_cons, List.not_mem_nil, or_false]
      rintro w (rfl | rfl | rfl)
      · exact has
      · simp only [Fits, Small]; exact Nat.le_trans (by decide) hS
      · simp only [Fits, Small]; exact Nat.le_trans (by decide) hS
    · simp only [Fits, Small, h2]
      omega

/-- The other four change letters: they give longer texts if letters become longer (as `ŉ` does, and `İ` in the other direction). -/
theorem C72_case (lim : Limits) :
    (∀ c, isSpace c = false → byteLen [c] < byteLen (L.upper c) → ∀ x ∈ ["capitalize", "title", "uppercase"],
      ∃ t, callStd L chk vname lim x [.str [c]] = some (.ok (.str t)) ∧ byteLen [c] < byteLen t) ∧
    (∀ s, byteLen s < byteLen (L.lower s) → ∃ t, callStd L chk vname lim "lowercase" [.str s] = some (.ok (.str t)) ∧ byteLen s < byteLen t) := by
  refine ⟨fun c hc h x hx => ?_, fun s h => ⟨_, rfl, h⟩⟩
  simp only [List.mem_cons, List.not_mem_nil, or_false] at hx
  rcases hx with rfl | rfl | rfl
  · exact ⟨L.upper c ++ [], rfl, by simpa using h⟩
  · refine ⟨L.upper c, ?_, h⟩
    have : callStd L chk vname lim "title" [.str [c]] = some (title L [c]) := rfl
    rw [this]
    simp [title, wordsGo, hc, joinText, capitalText]
  · exact ⟨L.upper c ++ [], rfl, by simpa using h⟩

/-! ## With the builtins that ask the world -/

private theorem builtinIo_small {req : List PKind} {body : Params VClos req → Io → Res VVal × Io}
    (h : ∀ xs d v, PsSmall S A (SmallFn S A) req xs → (body xs d).1 = .ok v → Fits S A v) : BSmall S A lim (builtinIo L req body : BFn Io VClos) := by
  refine ⟨fun d args ha v hv => ?_⟩
  unfold builtinIo at hv
  split at hv
  · rename_i xs h1
    obtain ⟨⟨xs', a⟩, h2, h3⟩ := bind_ok h1
    cases h4 : a.stop <;> simp only [h4, Res.map, reduceCtorEq, Res.ok.injEq] at h3
    subst h3
    exact h _ _ _ (takeReq_small L req h2 ha).1 hv
  · cases hv
  · cases hv

private theorem atomIo {req : List PKind} {body : Params VClos req → Io → Res VVal × Io} (h : ∀ xs d, Atom (body xs d).1) :
    BSmall S A lim (builtinIo L req body : BFn Io VClos) :=
  builtinIo_small L fun xs d v _ hv => (h xs d).of v hv S A _

variable (O : Outside)

private theorem randint_atom (a b : BitVec 64) (d : Io) : Atom (randint O a b d).1 := by unfold randint; atoms
private theorem randfloat_atom (a b : BitVec 64) (d : Io) : Atom (randfloat L O a b d).1 := by unfold randfloat; atoms
private theorem now_atom (d : Io) : Atom (now O d).1 := by unfold now; atoms
private theorem eq_atom (a b : VVal) (d : Io) : Atom (assertEq L vname O a b d).1 := by unfold assertEq; atoms
private theorem ne_atom (a b : VVal) (d : Io) : Atom (assertNe L vname O a b d).1 := by unfold assertNe; atoms

private theorem choice_small {l : List VVal} {d : Io} {v : VVal} (hl : SmallL S A W l) (h : (randchoice O l d).1 = .ok v) : Small S A W v := by
  unfold randchoice at h
  split at h
  · cases h
  · split at h
    · cases h
      rename_i h3
      exact smallL_iff.1 hl v (List.mem_of_getElem? h3)
    · cases h

private theorem rrainbow_small {d : Io} {v : VVal} (h : (randomRainbowColor O d).1 = .ok v) : Small S A W v := by
  unfold randomRainbowColor at h
  split at h
  · cases h
    rename_i h3
    have hw := List.mem_of_getElem? h3
    simp only [rainbow, List.mem_cons, List.not_mem_nil, or_false] at hw
    rcases hw with rfl | rfl | rfl | rfl | rfl | rfl | rfl | rfl | rfl | rfl <;> trivial
  · cases h

private theorem digit_ascii {d : Nat} (h : d < 10) : (digitChar d).toNat < 128 := by
  have : ∀ d : Fin 10, (digitChar d).toNat < 128 := by decide
  exact this ⟨d, h⟩

private theorem showNat_len : ∀ (k n : Nat), n < 10 ^ (k + 1) → utf8Len (showNat n) ≤ k + 1
  | 0, n, h => by
    unfold showNat
    have h : n < 10 := by simpa using h
    rw [dif_pos h, utf8Len_ascii (by simpa using digit_ascii h)]
    simp
  | k + 1, n, h => by
    unfold showNat
    split
    · rename_i h
      rw [utf8Len_ascii (by simpa using digit_ascii h)]
      simp
    · have := showNat_len k (n / 10) (by rw [Nat.pow_succ] at h; omega)
      rw [utf8Len_append, utf8Len_ascii (s := [_]) (by simpa using digit_ascii (d := n % 10) (by omega))]
      simp only [List.length_singleton]
      omega

private theorem date_small (hO : ∀ n t, O.clock n = some t → t / 1000000000 < 2 ^ 64) (hS : 64 ≤ S) {d : Io} {v : VVal} (h : (date O d).1 = .ok v) : Small S A W v := by
  unfold date at h
  split at h
  · cases h
    rename_i t ht
    have := hO _ _ ht
    simp only [Small, ← utf8Len_eq]
    refine Nat.le_trans ?_ hS
    unfold dateText
    have hs : ∀ c : Char, c.toNat < 128 → utf8Len [c] = 1 := fun c h => by rw [utf8Len_ascii (by simpa using h)]; rfl
    simp only [utf8Len_append, hs '-' (by decide), hs ' ' (by decide), hs ':' (by decide)]
    generalize t / 1000000000 = n at *
    have h1 := showNat_len 19 (1970 + n / 60 / 60 / 24 / 365) (by omega)
    have h2 := showNat_len 2 (n / 60 / 60 / 24 % 365 / 30) (by omega)
    have h3 := showNat_len 2 (n / 60 / 60 / 24 % 365 % 30) (by omega)
    have h4 := showNat_len 2 (n / 60 / 60 % 24) (by omega)
    have h5 := showNat_len 2 (n / 60 % 60) (by omega)
    have h6 := showNat_len 2 (n % 60) (by omega)
    omega
  · cases h

/-- The same for the library with random numbers, time, input and output, except for `@input` and `@readfile`, which give texts of any length. -/
theorem C72_stdio (hA : lim.arrMax ≤ A) (hS : 64 ≤ S) (hSA : S ≤ A) (hO : ∀ n t, O.clock n = some t → t / 1000000000 < 2 ^ 64) {x : String} {f : BFn Io VClos}
    (h : (x, f) ∈ stdioLib L vname O chk) (hx : x ∉ ["slice", "str", "truncate", "capitalize", "title", "uppercase", "lowercase", "join", "replace", "input", "readfile"]) :
    KeepsSmall S A lim (.fn f) := by
  have key : ∀ f', (x, f') ∈ randLib L O ++ randColorLib L O ++ timeLib L O ++ ioLib L vname O ++ compareLib L vname O → BSmall S A lim f' := by
    intro f' hf'
    have : LibSmall S A lim ["input", "readfile"] (randLib L O ++ randColorLib L O ++ timeLib L O ++ ioLib L vname O ++ compareLib L vname O) := by
      refine (((LibSmall.append (LibSmall.append ?_ ?_) ?_).append ?_).append ?_)
      · unfold randLib
        repeat' apply LibSmall.cons
        all_goals first
          | exact LibSmall.nil
          | intro _
        all_goals first
          | exact atomIo L fun _ _ => Atom.float
          | exact atomIo L fun _ _ => Atom.bool
          | exact atomIo L fun _ _ => randint_atom ..
          | exact atomIo L fun _ _ => randfloat_atom ..
          | exact builtinIo_small L fun _ _ _ hx h => choice_small O hx.1 h
      · unfold randColorLib
        repeat' apply LibSmall.cons
        all_goals first
          | exact LibSmall.nil
          | intro _
        all_goals first
          | exact atomIo L fun _ _ => Atom.color
          | exact builtinIo_small L fun _ _ _ hx h => rrainbow_small O h
      · unfold timeLib
        repeat' apply LibSmall.cons
        all_goals first
          | exact LibSmall.nil
          | intro _
        all_goals first
          | exact atomIo L fun _ _ => now_atom ..
          | exact builtinIo_small L fun _ _ _ hx h => date_small O hO hS h
      · unfold ioLib
        repeat' apply LibSmall.cons
        all_goals first
          | exact LibSmall.nil
          | exact fun h => absurd (by decide) h
          | exact fun _ => atomIo L fun _ _ => Atom.none
      · unfold compareLib
        repeat' apply LibSmall.cons
        all_goals first
          | exact LibSmall.nil
          | exact fun _ => atomIo L fun _ _ => eq_atom ..
          | exact fun _ => atomIo L fun _ _ => ne_atom ..
    refine this _ hf' fun h => hx ?_
    simp only [List.mem_cons, List.not_mem_nil, or_false] at h ⊢
    rcases h with h | h <;> simp [h]
  have hm : (x, f) ∈ stdLib L chk vname ∨ (x, f) ∈ randLib L O ++ randColorLib L O ++ timeLib L O ++ ioLib L vname O ++ compareLib L vname O := by
    unfold stdioLib at h
    simp only [List.mem_append] at h ⊢
    simpa only [or_assoc] using h
  rcases hm with hm | hm
  · refine C72_std L chk hA hS hSA hm fun h => hx ?_
    simp only [List.mem_cons, List.not_mem_nil, or_false] at h ⊢
    rcases h with h | h | h | h | h | h | h | h | h <;> simp [h]
  · intro g hg d args ha v hv
    have : f = g := by
      rcases hg with hg | ⟨_, hg⟩ <;> cases hg
      rfl
    subst this
    exact (key f hm).of d args ha v hv
end

example (L : Ops) : KeepsSmall 64 64 ⟨0, 64⟩ (.fn (D := Unit) (builtin L [.str] [] fun (s, ()) () _ => chars s)) :=
  C72_std L true (by decide) (by decide) (by decide) (x := "chars")
    (List.mem_append_left _ (List.mem_append_right _ (by unfold stringLib; repeat' first | exact List.mem_cons_self .. | apply List.mem_cons_of_mem))) (by decide)

example (L : Ops) : ∃ args, (∀ w ∈ args, Fits 64 100 w) ∧ ∃ v, callStd L true vname ⟨64, 100⟩ "truncate" args = some (.ok v) ∧ ¬ Fits 64 100 v :=
  C72_growing L true (by decide) (by decide) _ (by decide)

end Quilt.Props
