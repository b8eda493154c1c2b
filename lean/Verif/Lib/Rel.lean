import Verif.Lib.Std
import Verif.Sem.Ready

/-!
# The standard library on corresponding values

The builtins look at functions only through their names, so that they do the same on the values of the
direct semantics and on those of the machine.
-/

namespace Quilt.Lib

open Quilt

variable {C C' D : Type} {R : C → C' → Prop}

set_option linter.unusedSectionVars false

/-- The cases of `Val.Rel`. -/
inductive RelI (R : C → C' → Prop) : Val C → Val C' → Prop
  | none : RelI R .none .none
  | bool (b) : RelI R (.bool b) (.bool b)
  | int (b) : RelI R (.int b) (.int b)
  | float (b) : RelI R (.float b) (.float b)
  | range (a b) : RelI R (.range a b) (.range a b)
  | color (r g b a) : RelI R (.color r g b a) (.color r g b a)
  | str (s) : RelI R (.str s) (.str s)
  | special (i n) : RelI R (.special i n) (.special i n)
  | arr {xs ys} (s m) : Val.RelL R xs ys → RelI R (.arr xs s m) (.arr ys s m)
  | loopCtx (i) : RelI R (.loopCtx i) (.loopCtx i)
  | pair {a b a' b'} : Val.Rel R a a' → Val.Rel R b b' → RelI R (.pair a b) (.pair a' b')
  | clos {c c'} : R c c' → RelI R (.clos c) (.clos c')

theorem relI {v : Val C} {w : Val C'} (h : Val.Rel R v w) : RelI R v w := by
  cases v <;> cases w <;> simp only [Val.Rel] at h
  case none.none => exact .none
  case bool.bool => subst h; exact .bool _
  case int.int => subst h; exact .int _
  case float.float => subst h; exact .float _
  case range.range => obtain ⟨rfl, rfl⟩ := h; exact .range _ _
  case color.color => obtain ⟨rfl, rfl, rfl, rfl⟩ := h; exact .color _ _ _ _
  case str.str => subst h; exact .str _
  case special.special => obtain ⟨rfl, rfl⟩ := h; exact .special _ _
  case arr.arr => obtain ⟨h, rfl, rfl⟩ := h; exact .arr _ _ h
  case loopCtx.loopCtx => subst h; exact .loopCtx _
  case pair.pair => exact .pair h.1 h.2
  case clos.clos => exact .clos h

/-! ## Arguments -/

/-- Corresponding parameters. -/
def TRel (R : C → C' → Prop) : (k k' : PKind) → k.T C → k'.T C' → Prop
  | .int, .int, a, b => @Eq (BitVec 64) a b
  | .int32, .int32, a, b => @Eq (BitVec 32) a b
  | .u8, .u8, a, b => @Eq (BitVec 8) a b
  | .bool, .bool, a, b => @Eq Bool a b
  | .float, .float, a, b => @Eq (BitVec 32) a b
  | .double, .double, a, b => @Eq (BitVec 64) a b
  | .num, .num, a, b => @Eq (BitVec 64) a b
  | .str, .str, a, b => @Eq (List Char) a b
  | .color, .color, a, b => @Eq (BitVec 8 × BitVec 8 × BitVec 8 × BitVec 8) a b
  | .list, .list, a, b => Val.RelL R a b
  | .pair, .pair, a, b => Val.Rel R a.1 b.1 ∧ Val.Rel R a.2 b.2
  | .rest, .rest, a, b => Val.RelL R a b
  | .any, .any, a, b => Val.Rel R a b
  | .special _, .special _, a, b => @Eq Nat a b
  | _, _, _, _ => False

def ARel (R : C → C' → Prop) (a : Args C) (a' : Args C') : Prop := Val.RelL R a.args a'.args ∧ a.idx = a'.idx

def PRel (R : C → C' → Prop) : (ks ks' : List PKind) → Params C ks → Params C' ks' → Prop
  | [], [], _, _ => True
  | k :: ks, k' :: ks', x, y => TRel R k k' x.1 y.1 ∧ PRel R ks ks' x.2 y.2
  | _, _, _, _ => False

theorem consume_rel {a : Args C} {a' : Args C'} (h : ARel R a a') (want : String) :
    Res.Rel (fun p p' => Val.Rel R p.1 p'.1 ∧ ARel R p.2 p'.2) (a.consume want) (a'.consume want) := by
  unfold Args.consume Args.next
  rw [← h.2]
  rcases h.1.get a.idx with ⟨h1, h2⟩ | ⟨v, w, h1, h2, h3⟩
  · rw [h1, h2]; rfl
  · rw [h1, h2]; exact ⟨h3, h.1, by rw [h.2]⟩

theorem take_rel {a : Args C} {a' : Args C'} (h : ARel R a a') (L : Ops) (k : PKind) :
    Res.Rel (fun p p' => TRel R k k p.1 p'.1 ∧ ARel R p.2 p'.2) (a.take L k) (a'.take L k) := by
  cases k with
  | rest =>
    show Res.Rel _ a.rest a'.rest
    unfold Args.rest Args.remaining
    rw [← h.2, ← h.1.length_eq]
    refine ⟨?_, h.1, rfl⟩
    show Val.RelL R _ _
    split
    · trivial
    · have h1 := Val.relL_iff.1 h.1
      refine Val.relL_iff.2 ⟨by simp [h1.1], fun i x y hx hy => ?_⟩
      simp only [List.getElem?_drop] at hx hy
      exact h1.2 _ _ _ hx hy
  | any => exact consume_rel h _
  | special id =>
    refine Res.Rel.bind (consume_rel h _) fun p p' hp => ?_
    obtain ⟨v, a⟩ := p
    obtain ⟨v', a'⟩ := p'
    have hp2 := hp.2
    cases relI hp.1 with
    | special i n =>
      simp only
      split
      · exact ⟨rfl, hp2⟩
      · rfl
    | _ => rfl
  | _ =>
    refine Res.Rel.bind (consume_rel h _) fun p p' hp => ?_
    obtain ⟨v, a⟩ := p
    obtain ⟨v', a'⟩ := p'
    have hp2 := hp.2
    cases relI hp.1 <;> first
      | rfl
      | exact ⟨rfl, hp2⟩
      | exact ⟨⟨by assumption, by assumption, trivial⟩, hp2⟩
      | exact ⟨⟨by assumption, by assumption⟩, hp2⟩
      | exact ⟨by assumption, hp2⟩

theorem map_rel {α β γ δ : Type} {P : α → β → Prop} {Q : γ → δ → Prop} {r : Res α} {r' : Res β} (h : Res.Rel P r r') {f : α → γ} {f' : β → δ}
    (hf : ∀ a b, P a b → Q (f a) (f' b)) : Res.Rel Q (r.map f) (r'.map f') := by
  cases r <;> cases r' <;> simp only [Res.Rel] at h
  · exact hf _ _ h
  · exact h
  · trivial

theorem takeReq_rel (L : Ops) (ks : List PKind) {a : Args C} {a' : Args C'} (h : ARel R a a') :
    Res.Rel (fun p p' => PRel R ks ks p.1 p'.1 ∧ ARel R p.2 p'.2) (takeReq L ks a) (takeReq L ks a') := by
  induction ks generalizing a a' with
  | nil => exact ⟨trivial, h⟩
  | cons k ks ih =>
    refine Res.Rel.bind (take_rel h L k) fun p p' hp => ?_
    exact map_rel (ih hp.2) fun q q' hq => ⟨⟨hp.1, hq.1⟩, hq.2⟩

/-- Corresponding optional parameters with corresponding defaults. -/
inductive ORel (R : C → C' → Prop) : OptParams C → OptParams C' → Prop
  | nil : ORel R [] []
  | cons {k x x' os os'} : TRel R k k x x' → ORel R os os' → ORel R (⟨k, x⟩ :: os) (⟨k, x'⟩ :: os')

theorem takeOpt_rel (L : Ops) {os : OptParams C} {os' : OptParams C'} (ho : ORel R os os') {a : Args C} {a' : Args C'} (h : ARel R a a') :
    Res.Rel (fun p p' => PRel R _ _ p.1 p'.1 ∧ ARel R p.2 p'.2) (takeOpt L os a) (takeOpt L os' a') := by
  induction ho generalizing a a' with
  | nil => exact ⟨trivial, h⟩
  | @cons k x x' os os' hx _ ih =>
    unfold takeOpt
    have hopt : Res.Rel (fun p p' => TRel R k k (p.1.getD x) (p'.1.getD x') ∧ ARel R p.2 p'.2) (a.optional L k) (a'.optional L k) := by
      unfold Args.optional Args.len
      rw [← h.2, ← h.1.length_eq]
      split
      · exact ⟨hx, h⟩
      · exact map_rel (take_rel h L k) fun p p' hp => ⟨hp.1, hp.2⟩
    refine Res.Rel.bind hopt fun p p' hp => ?_
    exact map_rel (ih hp.2) fun q q' hq => ⟨⟨hp.1, hq.1⟩, hq.2⟩

theorem stop_rel {a : Args C} {a' : Args C'} (h : ARel R a a') : a.stop = a'.stop := by
  unfold Args.stop Args.next
  rw [← h.2]
  rcases h.1.get a.idx with ⟨h1, h2⟩ | ⟨v, w, h1, h2, h3⟩
  · rw [h1, h2]
  · rw [h1, h2]; simp only [h3.ntype]

/-- Builtins with the same signature and corresponding bodies correspond. -/
theorem builtin_rel (L : Ops) (lim : Limits) (req : List PKind) {opt : OptParams C} {opt' : OptParams C'} (ho : ORel R opt opt')
    {body : Params C req → Params C (opt.map (·.1)) → Limits → Res (Val C)}
    {body' : Params C' req → Params C' (opt'.map (·.1)) → Limits → Res (Val C')}
    (hb : ∀ xs xs' ys ys', PRel R req req xs xs' → PRel R _ _ ys ys' → Res.Rel (Val.Rel R) (body xs ys lim) (body' xs' ys' lim))
    (d : D) {args : List (Val C)} {args' : List (Val C')} (ha : Val.RelL R args args') :
    Res.Rel (Val.Rel R) (builtin L req opt body d args lim).1 (builtin L req opt' body' d args' lim).1 ∧
    (builtin L req opt body d args lim).2 = (builtin L req opt' body' d args' lim).2 := by
  refine ⟨?_, rfl⟩
  refine Res.Rel.bind (takeReq_rel (R := R) (a := Args.new args) (a' := Args.new args') L req ⟨ha, rfl⟩) fun p p' hp => ?_
  refine Res.Rel.bind (takeOpt_rel L ho hp.2) fun q q' hq => ?_
  simp only
  rw [stop_rel hq.2]
  cases q'.2.stop with
  | ok u => exact hb _ _ _ _ hp.1 hq.1
  | err e => rfl
  | panic => trivial

/-! ## Bodies -/

theorem total_rel {xs : List (Val C)} {ys : List (Val C')} (h : Val.RelL R xs ys) : Vecc.total Val.getSize xs = Vecc.total Val.getSize ys := by
  unfold Vecc.total
  induction xs generalizing ys with
  | nil => cases ys with
    | nil => rfl
    | cons => simp [Val.RelL] at h
  | cons x xs ih => cases ys with
    | nil => simp [Val.RelL] at h
    | cons y ys =>
      simp only [Val.RelL] at h
      simp only [List.map_cons, List.sum_cons, ih h.2, h.1.getSize]

theorem ofVec_rel {xs : List (Val C)} {ys : List (Val C')} (h : Val.RelL R xs ys) : Val.Rel R (ofVec xs) (ofVec ys) :=
  ⟨h, total_rel h, total_rel h⟩

theorem makeArray_rel {xs : List (Val C)} {ys : List (Val C')} (h : Val.RelL R xs ys) (max : Nat) :
    Res.Rel (Val.Rel R) (makeArray xs max) (makeArray ys max) := by
  unfold makeArray Vecc.tryNewFrom
  rw [total_rel h]
  split
  · rfl
  · exact ⟨h, total_rel h ▸ rfl, rfl⟩

theorem get_rel (chk : Bool) {xs : List (Val C)} {ys : List (Val C')} (h : Val.RelL R xs ys) (i : BitVec 64) :
    Res.Rel (Val.Rel R) (get chk xs i) (get chk ys i) := by
  unfold Lib.get
  rw [h.length_eq]
  cases fixIndex chk i ys.length with
  | ok k =>
    simp only [Res.bind_ok]
    rcases h.get k with ⟨h1, h2⟩ | ⟨v, w, h1, h2, h3⟩
    · rw [h1, h2]; rfl
    · rw [h1, h2]; exact h3
  | err e => rfl
  | panic => trivial

theorem set_rel (chk : Bool) (lim : Limits) {xs : List (Val C)} {ys : List (Val C')} (h : Val.RelL R xs ys) (i : BitVec 64)
    {v : Val C} {w : Val C'} (hv : Val.Rel R v w) : Res.Rel (Val.Rel R) (set chk lim xs i v) (set chk lim ys i w) := by
  unfold Lib.set
  rw [h.length_eq]
  cases fixIndex chk i ys.length with
  | ok k =>
    simp only [Res.bind_ok]
    split
    · refine makeArray_rel ?_ _
      rw [Val.relL_iff] at h ⊢
      refine ⟨by simp [h.1], fun j a b ha hb => ?_⟩
      rw [List.getElem?_set] at ha hb
      split at ha
      · next hj =>
        rw [if_pos hj, ← h.1] at hb
        split at ha
        · next hlt => rw [if_pos hlt] at hb; cases ha; cases hb; exact hv
        · simp at ha
      · next hj => rw [if_neg hj] at hb; exact h.2 j a b ha hb
    · rfl
  | err e => rfl
  | panic => trivial

theorem slice_rel (chk : Bool) {xs : List (Val C)} {ys : List (Val C')} (h : Val.RelL R xs ys) (i j : BitVec 64) :
    Res.Rel (Val.Rel R) (slice chk xs i j) (slice chk ys i j) := by
  unfold slice
  rw [h.length_eq]
  cases sliceBound chk ys.length i i with
  | ok s =>
    simp only [Res.bind_ok]
    cases sliceBound chk ys.length j s with
    | ok e =>
      simp only [Res.bind_ok]
      split
      · rfl
      · split
        · refine ofVec_rel ?_
          rw [Val.relL_iff] at h ⊢
          refine ⟨by simp [h.1], fun k a b ha hb => ?_⟩
          rw [List.getElem?_drop, List.getElem?_take] at ha hb
          split at ha
          · next hk => rw [if_pos hk] at hb; exact h.2 _ a b ha hb
          · simp at ha
        · trivial
    | err e => rfl
    | panic => trivial
  | err e => rfl
  | panic => trivial

section
variable (F : FOps) {cn : C → String} {cn' : C' → String} (hn : ∀ c c', R c c' → cn c = cn' c')
include hn

mutual
theorem text_rel : ∀ {v : Val C} {w : Val C'}, Val.Rel R v w → v.text F cn = w.text F cn'
  | .none, w, h | .bool _, w, h | .int _, w, h | .float _, w, h | .range _ _, w, h
  | .color _ _ _ _, w, h | .str _, w, h | .special _ _, w, h | .loopCtx _, w, h => by
    cases relI h; unfold Val.text; rfl
  | .func _, w, h => by simp [Val.Rel] at h
  | .arr _ _ _, w, h => by
    cases w <;> simp only [Val.Rel] at h
    unfold Val.text
    rw [textL_rel h.1]
  | .pair _ _, w, h => by
    cases w <;> simp only [Val.Rel] at h
    unfold Val.text
    rw [text_rel h.1, text_rel h.2]
  | .clos _, w, h => by
    cases w <;> simp only [Val.Rel] at h
    unfold Val.text
    rw [hn _ _ h]
termination_by structural v => v
theorem textL_rel : ∀ {vs : List (Val C)} {ws : List (Val C')}, Val.RelL R vs ws → Val.textL F cn vs = Val.textL F cn' ws
  | [], ws, h => by cases ws with
    | nil => rfl
    | cons => simp [Val.RelL] at h
  | v :: vs, ws, h => by cases ws with
    | nil => simp [Val.RelL] at h
    | cons w ws =>
      simp only [Val.RelL] at h
      unfold Val.textL
      rw [text_rel h.1, textR_rel h.2]
termination_by structural vs => vs
theorem textR_rel : ∀ {vs : List (Val C)} {ws : List (Val C')}, Val.RelL R vs ws → Val.textR F cn vs = Val.textR F cn' ws
  | [], ws, h => by cases ws with
    | nil => rfl
    | cons => simp [Val.RelL] at h
  | v :: vs, ws, h => by cases ws with
    | nil => simp [Val.RelL] at h
    | cons w ws =>
      simp only [Val.RelL] at h
      unfold Val.textR
      rw [text_rel h.1, textR_rel h.2]
termination_by structural vs => vs
end

theorem texts_rel {vs : List (Val C)} {ws : List (Val C')} (h : Val.RelL R vs ws) : vs.map (fun v => v.text F cn) = ws.map fun v => v.text F cn' := by
  induction vs generalizing ws with
  | nil => cases ws with
    | nil => rfl
    | cons => simp [Val.RelL] at h
  | cons v vs ih => cases ws with
    | nil => simp [Val.RelL] at h
    | cons w ws =>
      simp only [Val.RelL] at h
      simp only [List.map_cons]
      rw [text_rel F hn h.1, ih h.2]

end

mutual
theorem hash_rel : ∀ {v : Val C} {w : Val C'}, Val.Rel R v w → v.hashToks (fun _ => []) = w.hashToks fun _ => []
  | .none, w, h | .bool _, w, h | .int _, w, h | .float _, w, h | .range _ _, w, h
  | .color _ _ _ _, w, h | .str _, w, h | .special _ _, w, h | .loopCtx _, w, h | .clos _, w, h => by
    cases relI h <;> rfl
  | .func _, w, h => by simp [Val.Rel] at h
  | .arr _ _ _, w, h => by
    cases w <;> simp only [Val.Rel] at h
    simp only [Val.hashToks]
    rw [hashL_rel h.1, h.1.length_eq, h.2.1, h.2.2]
  | .pair _ _, w, h => by
    cases w <;> simp only [Val.Rel] at h
    simp only [Val.hashToks]
    rw [hash_rel h.1, hash_rel h.2]
termination_by structural v => v
theorem hashL_rel : ∀ {vs : List (Val C)} {ws : List (Val C')}, Val.RelL R vs ws → Val.hashToksL (fun _ => []) vs = Val.hashToksL (fun _ => []) ws
  | [], ws, h => by cases ws with
    | nil => rfl
    | cons => simp [Val.RelL] at h
  | v :: vs, ws, h => by cases ws with
    | nil => simp [Val.RelL] at h
    | cons w ws =>
      simp only [Val.RelL] at h
      simp only [Val.hashToksL]
      rw [hash_rel h.1, hashL_rel h.2]
termination_by structural vs => vs
end

theorem strs_rel (xs : List (List Char)) : Val.RelL R (xs.map (Val.str (C := C))) (xs.map Val.str) := by
  induction xs with
  | nil => trivial
  | cons x xs ih => exact ⟨rfl, ih⟩

theorem chars_rel (xs : List Char) : Val.RelL R (xs.map fun c => Val.str (C := C) [c]) (xs.map fun c => Val.str [c]) := by
  induction xs with
  | nil => trivial
  | cons x xs ih => exact ⟨rfl, ih⟩

/-! ## The library -/

section
variable {cn : C → String} {cn' : C' → String}

/-- The same names, with corresponding builtins. -/
inductive LibRelG {C C' : Type} (cn : C → String) (cn' : C' → String) (lim : Limits) : List (String × BFn D C) → List (String × BFn D C') → Prop
  | nil : LibRelG cn cn' lim [] []
  | cons {x f f' l l'} : BRelG cn cn' lim f f' → LibRelG cn cn' lim l l' → LibRelG cn cn' lim ((x, f) :: l) ((x, f') :: l')

theorem LibRelG.append {lim : Limits} {l m : List (String × BFn D C)} {l' m' : List (String × BFn D C')} (h : LibRelG cn cn' lim l l') (h' : LibRelG cn cn' lim m m') :
    LibRelG cn cn' lim (l ++ m) (l' ++ m') := by
  induction h with
  | nil => exact h'
  | cons hb _ ih => exact .cons hb ih

/-- Builtins without optional parameters. -/
theorem brel {L : Ops} {lim : Limits} {req : List PKind} {body : Params C req → Params C [] → Limits → Res (Val C)}
    {body' : Params C' req → Params C' [] → Limits → Res (Val C')}
    (hb : ∀ (R : C → C' → Prop), (∀ c c', R c c' → cn c = cn' c') → ∀ xs xs', PRel R req req xs xs' →
      Res.Rel (Val.Rel R) (body xs () lim) (body' xs' () lim)) :
    BRelG cn cn' (D := D) lim (builtin L req [] body) (builtin L req [] body') :=
  ⟨fun R hR d _ _ ha => builtin_rel L lim req (opt := []) (opt' := []) .nil (fun xs xs' _ _ h _ => hb R hR xs xs' h) d ha⟩

/-- Builtins with one optional text. -/
theorem brel1 {L : Ops} {lim : Limits} {req : List PKind} (t : List Char) {body : Params C req → Params C [.str] → Limits → Res (Val C)}
    {body' : Params C' req → Params C' [.str] → Limits → Res (Val C')}
    (hb : ∀ (R : C → C' → Prop), (∀ c c', R c c' → cn c = cn' c') → ∀ xs xs' (t : List Char), PRel R req req xs xs' →
      Res.Rel (Val.Rel R) (body xs (t, ()) lim) (body' xs' (t, ()) lim)) :
    BRelG cn cn' (D := D) lim (builtin L req [⟨.str, t⟩] body) (builtin L req [⟨.str, t⟩] body') :=
  ⟨fun R hR d _ _ ha => builtin_rel L lim req (opt := [⟨.str, t⟩]) (opt' := [⟨.str, t⟩]) (.cons (k := .str) rfl .nil)
    (fun xs xs' ys ys' h h' => by
      obtain ⟨y, u⟩ := ys
      obtain ⟨y', u'⟩ := ys'
      obtain rfl : y = y' := h'.1
      exact hb R hR xs xs' y h) d ha⟩

/-- Bodies that look at one value. -/
theorem brel_any {L : Ops} {lim : Limits} {body : Val C → Res (Val C)} {body' : Val C' → Res (Val C')}
    (hb : ∀ (R : C → C' → Prop) v w, RelI R v w → Res.Rel (Val.Rel R) (body v) (body' w)) :
    BRelG cn cn' (D := D) lim (builtin L [.any] [] fun (v, ()) () _ => body v) (builtin L [.any] [] fun (v, ()) () _ => body' v) :=
  brel fun R _ xs xs' h => hb R xs.1 xs'.1 (relI h.1)

theorem core_rel (L : Ops) (chk : Bool) (lim : Limits) : LibRelG cn cn' (D := D) lim (coreLib L chk cn) (coreLib L chk cn') := by
  unfold coreLib
  refine .cons ?_ (.cons ?_ (.cons ?_ (.cons ?_ (.cons ?_ (.cons ?_ (.cons ?_ (.cons ?_ (.cons ?_ (.cons ?_ (.cons ?_ (.cons ?_ (.cons ?_ (.cons ?_ (.cons ?_ .nil))))))))))))))
  · exact brel fun R _ xs xs' h => by
      obtain ⟨a, i, u⟩ := xs
      obtain ⟨a', i', u'⟩ := xs'
      obtain ⟨h1, h2, _⟩ := h
      cases h2
      exact get_rel chk h1 i
  · exact brel fun R _ xs xs' h => by
      obtain ⟨a, i, v, u⟩ := xs
      obtain ⟨a', i', v', u'⟩ := xs'
      obtain ⟨h1, h2, h3, _⟩ := h
      cases h2
      exact set_rel chk lim h1 i h3
  · exact brel fun R _ xs xs' h => by
      obtain ⟨a, i, v, u⟩ := xs
      obtain ⟨a', i', v', u'⟩ := xs'
      obtain ⟨h1, h2, h3, _⟩ := h
      cases h2
      cases h3
      exact slice_rel chk h1 i v
  · exact brel fun R hR xs xs' h => by
      obtain ⟨v, u⟩ := xs
      obtain ⟨v', u'⟩ := xs'
      exact text_rel L.F hR h.1
  · exact brel fun R _ xs xs' h => by
      obtain ⟨v, u⟩ := xs
      obtain ⟨v', u'⟩ := xs'
      obtain ⟨h1, _⟩ := h
      cases h1
      exact rfl
  · exact brel fun R _ xs xs' h => by
      obtain ⟨v, u⟩ := xs
      obtain ⟨v', u'⟩ := xs'
      obtain ⟨h1, _⟩ := h
      cases h1
      exact rfl
  · exact brel fun R _ xs xs' h => by
      obtain ⟨v, u⟩ := xs
      obtain ⟨v', u'⟩ := xs'
      obtain ⟨h1, _⟩ := h
      cases h1
      exact rfl
  · exact brel fun R _ xs xs' h => by
      obtain ⟨v, u⟩ := xs
      obtain ⟨v', u'⟩ := xs'
      obtain ⟨h1, _⟩ := h
      cases h1
      show Res.Rel _ (char v) (char v)
      unfold char
      simp only
      split <;> rfl
  · exact brel fun R _ xs xs' h => by
      obtain ⟨v, r, u⟩ := xs
      obtain ⟨v', r', u'⟩ := xs'
      obtain ⟨h1, h2, _⟩ := h
      cases h1
      cases h2
      show Res.Rel _ (intFromRadix v r) (intFromRadix v r)
      unfold intFromRadix
      split
      · rfl
      · split <;> rfl
  · refine brel_any (body := int L.F) (body' := int L.F) fun R v w h => ?_
    cases h with
    | str s => simp only [int]; split <;> rfl
    | _ => rfl
  · refine brel_any (body := float L) (body' := float L) fun R v w h => ?_
    cases h with
    | str s => simp only [float]; split <;> rfl
    | _ => rfl
  · refine brel_any (body := bool L.F) (body' := bool L.F) fun R v w h => ?_
    cases h with
    | str s => simp only [bool]; (split; rfl); (split <;> rfl)
    | _ => rfl
  · refine brel_any (body := color) (body' := color) fun R v w h => ?_
    cases h with
    | str s => simp only [color]; split <;> first | rfl | exact ⟨rfl, rfl, rfl, rfl⟩
    | color r g b a => exact ⟨rfl, rfl, rfl, rfl⟩
    | int i => exact ⟨rfl, rfl, rfl, rfl⟩
    | _ => rfl
  · refine brel_any (body := len) (body' := len) fun R v w h => ?_
    cases h with
    | arr s m h => show Val.Rel R (.int _) (.int _); rw [h.length_eq]; rfl
    | _ => rfl
  · refine brel_any (body := gettype) (body' := gettype) fun R v w h => ?_
    cases h <;> rfl

theorem math_rel (L : Ops) (chk : Bool) (lim : Limits) : LibRelG cn cn' (D := D) lim (mathLib L chk) (mathLib L chk) := by
  unfold mathLib
  refine .cons ?_ (.cons ?_ (.cons ?_ (.cons ?_ (.cons ?_ (.cons ?_ (.cons ?_ (.cons ?_ (.cons ?_ (.cons ?_ (.cons ?_ (.cons ?_ (.cons ?_ (.cons ?_ (.cons ?_ (.cons ?_ (.cons ?_ (.cons ?_ (.cons ?_ (.cons ?_ (.cons ?_ .nil))))))))))))))))))))
  · refine brel_any (body := logFn L "log10") (body' := logFn L "log10") fun R v w h => ?_
    cases h <;> rfl
  · refine brel_any (body := logFn L "log2") (body' := logFn L "log2") fun R v w h => ?_
    cases h <;> rfl
  · refine brel_any (body := logFn L "log10") (body' := logFn L "log10") fun R v w h => ?_
    cases h <;> rfl
  · refine brel_any (body := hash L) (body' := hash L) fun R v w h => ?_
    cases h with
    | pair h1 h2 => show Val.Rel R (.int _) (.int _); simp only [Val.hashToks, hash_rel h1, hash_rel h2]; rfl
    | _ => rfl
  · exact brel fun R _ xs xs' h => by
      obtain ⟨a, b, u⟩ := xs
      obtain ⟨a', b', u'⟩ := xs'
      obtain ⟨h1, h2, _⟩ := h
      show Res.Rel _ (min L a b) (min L a' b')
      cases relI h1 <;> cases relI h2 <;> rfl
  · exact brel fun R _ xs xs' h => by
      obtain ⟨a, b, u⟩ := xs
      obtain ⟨a', b', u'⟩ := xs'
      obtain ⟨h1, h2, _⟩ := h
      show Res.Rel _ (max L a b) (max L a' b')
      cases relI h1 <;> cases relI h2 <;> rfl
  · refine brel_any (body := roundFn L.F L.round) (body' := roundFn L.F L.round) fun R v w h => ?_
    cases h <;> rfl
  · refine brel_any (body := roundFn L.F L.floor) (body' := roundFn L.F L.floor) fun R v w h => ?_
    cases h <;> rfl
  · refine brel_any (body := roundFn L.F L.ceil) (body' := roundFn L.F L.ceil) fun R v w h => ?_
    cases h <;> rfl
  · exact brel fun R _ xs xs' h => by
      obtain ⟨a, b, u⟩ := xs
      obtain ⟨a', b', u'⟩ := xs'
      obtain ⟨h1, h2, _⟩ := h
      cases h2
      show Res.Rel _ (fix L a b) (fix L a' b)
      cases relI h1 with
      | int i => simp only [fix]; split <;> rfl
      | float i => simp only [fix]; split <;> rfl
      | _ => rfl
  · exact brel fun R _ xs xs' h => by
      obtain ⟨x0, x1, x2, u⟩ := xs
      obtain ⟨y0, y1, y2, u'⟩ := xs'
      obtain ⟨h0, h1, h2, _⟩ := h
      cases h0
      cases h1
      cases h2
      show Res.Rel _ (clamp L x0 x1 x2) (clamp L x0 x1 x2)
      unfold clamp
      (split; rfl)
      (split; rfl)
      split <;> trivial
  · exact brel fun R _ xs xs' h => by
      obtain ⟨x0, x1, x2, u⟩ := xs
      obtain ⟨y0, y1, y2, u'⟩ := xs'
      obtain ⟨h0, h1, h2, _⟩ := h
      cases h0
      cases h1
      cases h2
      exact rfl
  · refine brel_any (body := abs chk L) (body' := abs chk L) fun R v w h => ?_
    cases h with
    | int i => simp only [abs]; split <;> trivial
    | _ => rfl
  · exact brel fun R _ xs xs' h => by
      obtain ⟨x0, u⟩ := xs
      obtain ⟨y0, u'⟩ := xs'
      obtain ⟨h0, _⟩ := h
      cases h0
      exact rfl
  · exact brel fun R _ xs xs' h => by
      obtain ⟨x0, u⟩ := xs
      obtain ⟨y0, u'⟩ := xs'
      obtain ⟨h0, _⟩ := h
      cases h0
      exact rfl
  · exact brel fun R _ xs xs' h => by
      obtain ⟨x0, u⟩ := xs
      obtain ⟨y0, u'⟩ := xs'
      obtain ⟨h0, _⟩ := h
      cases h0
      exact rfl
  · exact brel fun R _ xs xs' h => by
      obtain ⟨x0, u⟩ := xs
      obtain ⟨y0, u'⟩ := xs'
      obtain ⟨h0, _⟩ := h
      cases h0
      exact rfl
  · exact brel fun R _ xs xs' h => by
      obtain ⟨x0, u⟩ := xs
      obtain ⟨y0, u'⟩ := xs'
      obtain ⟨h0, _⟩ := h
      cases h0
      exact rfl
  · exact brel fun R _ xs xs' h => by
      obtain ⟨x0, u⟩ := xs
      obtain ⟨y0, u'⟩ := xs'
      obtain ⟨h0, _⟩ := h
      cases h0
      exact rfl
  · exact brel fun R _ xs xs' h => by
      obtain ⟨x0, x1, u⟩ := xs
      obtain ⟨y0, y1, u'⟩ := xs'
      obtain ⟨h0, h1, _⟩ := h
      cases h0
      cases h1
      exact rfl
  · exact brel fun R _ xs xs' h => by
      obtain ⟨x0, u⟩ := xs
      obtain ⟨y0, u'⟩ := xs'
      obtain ⟨h0, _⟩ := h
      cases h0
      exact rfl

theorem wheel_rel (L : Ops) (h c m a : BitVec 64) : Val.Rel R (wheel L h c m a) (wheel L h c m a) := ⟨rfl, rfl, rfl, rfl⟩

theorem color_rel (L : Ops) (lim : Limits) : LibRelG cn cn' (D := D) lim (colorLib L) (colorLib L) := by
  unfold colorLib
  refine .cons ?_ (.cons ?_ (.cons ?_ (.cons ?_ (.cons ?_ (.cons ?_ (.cons ?_ (.cons ?_ (.cons ?_ (.cons ?_ (.cons ?_ (.cons ?_ (.cons ?_ (.cons ?_ (.cons ?_ (.cons ?_ (.cons ?_ (.cons ?_ (.cons ?_ (.cons ?_ (.cons ?_ (.cons ?_ (.cons ?_ (.cons ?_ (.cons ?_ (.cons ?_ (.cons ?_ .nil))))))))))))))))))))))))))
  · exact brel fun R _ xs xs' h => by
      obtain ⟨x0, x1, x2, x3, u⟩ := xs
      obtain ⟨y0, y1, y2, y3, u'⟩ := xs'
      obtain ⟨h0, h1, h2, h3, _⟩ := h
      cases h0
      cases h1
      cases h2
      cases h3
      exact ⟨rfl, rfl, rfl, rfl⟩
  · exact brel fun R _ xs xs' h => by
      obtain ⟨x0, x1, x2, u⟩ := xs
      obtain ⟨y0, y1, y2, u'⟩ := xs'
      obtain ⟨h0, h1, h2, _⟩ := h
      cases h0
      cases h1
      cases h2
      exact ⟨rfl, rfl, rfl, rfl⟩
  · exact brel fun R _ xs xs' h => by
      obtain ⟨x0, x1, x2, x3, u⟩ := xs
      obtain ⟨y0, y1, y2, y3, u'⟩ := xs'
      obtain ⟨h0, h1, h2, h3, _⟩ := h
      cases h0
      cases h1
      cases h2
      cases h3
      exact wheel_rel (R := R) L _ _ _ _
  · exact brel fun R _ xs xs' h => by
      obtain ⟨x0, x1, x2, u⟩ := xs
      obtain ⟨y0, y1, y2, u'⟩ := xs'
      obtain ⟨h0, h1, h2, _⟩ := h
      cases h0
      cases h1
      cases h2
      exact wheel_rel (R := R) L _ _ _ _
  · exact brel fun R _ xs xs' h => by
      obtain ⟨x0, x1, x2, x3, u⟩ := xs
      obtain ⟨y0, y1, y2, y3, u'⟩ := xs'
      obtain ⟨h0, h1, h2, h3, _⟩ := h
      cases h0
      cases h1
      cases h2
      cases h3
      exact wheel_rel (R := R) L _ _ _ _
  · exact brel fun R _ xs xs' h => by
      obtain ⟨x0, x1, x2, u⟩ := xs
      obtain ⟨y0, y1, y2, u'⟩ := xs'
      obtain ⟨h0, h1, h2, _⟩ := h
      cases h0
      cases h1
      cases h2
      exact wheel_rel (R := R) L _ _ _ _
  · exact brel fun R _ xs xs' h => by
      obtain ⟨x0, u⟩ := xs
      obtain ⟨y0, u'⟩ := xs'
      obtain ⟨h0, _⟩ := h
      cases h0
      exact rfl
  · exact brel fun R _ xs xs' h => by
      obtain ⟨x0, u⟩ := xs
      obtain ⟨y0, u'⟩ := xs'
      obtain ⟨h0, _⟩ := h
      cases h0
      exact rfl
  · exact brel fun R _ xs xs' h => by
      obtain ⟨x0, u⟩ := xs
      obtain ⟨y0, u'⟩ := xs'
      obtain ⟨h0, _⟩ := h
      cases h0
      exact rfl
  · exact brel fun R _ xs xs' h => by
      obtain ⟨x0, u⟩ := xs
      obtain ⟨y0, u'⟩ := xs'
      obtain ⟨h0, _⟩ := h
      cases h0
      exact rfl
  · exact brel fun R _ xs xs' h => by
      obtain ⟨x0, u⟩ := xs
      obtain ⟨y0, u'⟩ := xs'
      obtain ⟨h0, _⟩ := h
      cases h0
      exact rfl
  · exact brel fun R _ xs xs' h => by
      obtain ⟨x0, u⟩ := xs
      obtain ⟨y0, u'⟩ := xs'
      obtain ⟨h0, _⟩ := h
      cases h0
      exact rfl
  · exact brel fun R _ xs xs' h => by
      obtain ⟨x0, u⟩ := xs
      obtain ⟨y0, u'⟩ := xs'
      obtain ⟨h0, _⟩ := h
      cases h0
      exact rfl
  · exact brel fun R _ xs xs' h => by
      obtain ⟨x0, u⟩ := xs
      obtain ⟨y0, u'⟩ := xs'
      obtain ⟨h0, _⟩ := h
      cases h0
      exact rfl
  · exact brel fun R _ xs xs' h => by
      obtain ⟨x0, u⟩ := xs
      obtain ⟨y0, u'⟩ := xs'
      obtain ⟨h0, _⟩ := h
      cases h0
      exact rfl
  · exact brel fun R _ xs xs' h => by
      obtain ⟨x0, x1, u⟩ := xs
      obtain ⟨y0, y1, u'⟩ := xs'
      obtain ⟨h0, h1, _⟩ := h
      cases h0
      cases h1
      exact rfl
  · exact brel fun R _ xs xs' h => by
      obtain ⟨x0, u⟩ := xs
      obtain ⟨y0, u'⟩ := xs'
      obtain ⟨h0, _⟩ := h
      cases h0
      exact ⟨rfl, rfl, rfl, rfl⟩
  · exact brel fun R _ xs xs' h => by
      obtain ⟨x0, x1, u⟩ := xs
      obtain ⟨y0, y1, u'⟩ := xs'
      obtain ⟨h0, h1, _⟩ := h
      cases h0
      cases h1
      exact ⟨rfl, rfl, rfl, rfl⟩
  · exact brel fun R _ xs xs' h => by
      obtain ⟨x0, x1, x2, u⟩ := xs
      obtain ⟨y0, y1, y2, u'⟩ := xs'
      obtain ⟨h0, h1, h2, _⟩ := h
      cases h0
      cases h1
      cases h2
      exact ⟨rfl, rfl, rfl, rfl⟩
  · exact brel fun R _ xs xs' h => by
      obtain ⟨x0, x1, u⟩ := xs
      obtain ⟨y0, y1, u'⟩ := xs'
      obtain ⟨h0, h1, _⟩ := h
      cases h0
      cases h1
      exact ⟨rfl, rfl, rfl, rfl⟩
  · exact brel fun R _ xs xs' h => by
      obtain ⟨x0, x1, u⟩ := xs
      obtain ⟨y0, y1, u'⟩ := xs'
      obtain ⟨h0, h1, _⟩ := h
      cases h0
      cases h1
      exact ⟨rfl, rfl, rfl, rfl⟩
  · exact brel fun R _ xs xs' h => by
      obtain ⟨x0, x1, u⟩ := xs
      obtain ⟨y0, y1, u'⟩ := xs'
      obtain ⟨h0, h1, _⟩ := h
      cases h0
      cases h1
      exact ⟨rfl, rfl, rfl, rfl⟩
  · exact brel fun R _ xs xs' h => by
      obtain ⟨x0, x1, u⟩ := xs
      obtain ⟨y0, y1, u'⟩ := xs'
      obtain ⟨h0, h1, _⟩ := h
      cases h0
      cases h1
      exact ⟨rfl, rfl, rfl, rfl⟩
  · exact brel fun R _ xs xs' h => by
      obtain ⟨x0, x1, u⟩ := xs
      obtain ⟨y0, y1, u'⟩ := xs'
      obtain ⟨h0, h1, _⟩ := h
      cases h0
      cases h1
      exact ⟨rfl, rfl, rfl, rfl⟩
  · exact brel fun R _ xs xs' h => by
      obtain ⟨x0, u⟩ := xs
      obtain ⟨y0, u'⟩ := xs'
      obtain ⟨h0, _⟩ := h
      cases h0
      exact ⟨rfl, rfl, rfl, rfl⟩
  · exact brel fun R _ xs xs' h => by
      obtain ⟨x0, u⟩ := xs
      obtain ⟨y0, u'⟩ := xs'
      obtain ⟨h0, _⟩ := h
      cases h0
      show Res.Rel _ (contrastColor L x0) (contrastColor L x0)
      unfold contrastColor
      split <;> exact ⟨rfl, rfl, rfl, rfl⟩
  · exact brel fun R _ xs xs' h => by
      exact makeArray_rel (by repeat' first | trivial | constructor) _

theorem string_rel (L : Ops) (lim : Limits) : LibRelG cn cn' (D := D) lim (stringLib L cn) (stringLib L cn') := by
  unfold stringLib
  refine .cons ?_ (.cons ?_ (.cons ?_ (.cons ?_ (.cons ?_ (.cons ?_ (.cons ?_ (.cons ?_ (.cons ?_ (.cons ?_ (.cons ?_ (.cons ?_ (.cons ?_ (.cons ?_ (.cons ?_ .nil))))))))))))))
  · exact brel1 _ fun R _ xs xs' t h => by
      obtain ⟨x0, x1, u⟩ := xs
      obtain ⟨y0, y1, u'⟩ := xs'
      obtain ⟨h0, h1, _⟩ := h
      cases h0
      cases h1
      show Res.Rel _ (truncate x0 x1 t) (truncate x0 x1 t)
      unfold truncate
      simp only
      split <;> rfl
  · exact brel fun R _ xs xs' h => by
      obtain ⟨x0, u⟩ := xs
      obtain ⟨y0, u'⟩ := xs'
      obtain ⟨h0, _⟩ := h
      cases h0
      exact rfl
  · exact brel fun R _ xs xs' h => by
      obtain ⟨x0, u⟩ := xs
      obtain ⟨y0, u'⟩ := xs'
      obtain ⟨h0, _⟩ := h
      cases h0
      exact rfl
  · exact brel fun R _ xs xs' h => by
      obtain ⟨x0, u⟩ := xs
      obtain ⟨y0, u'⟩ := xs'
      obtain ⟨h0, _⟩ := h
      cases h0
      exact rfl
  · exact brel fun R _ xs xs' h => by
      obtain ⟨x0, u⟩ := xs
      obtain ⟨y0, u'⟩ := xs'
      obtain ⟨h0, _⟩ := h
      cases h0
      exact rfl
  · exact brel1 _ fun R _ xs xs' t h => by
      obtain ⟨x0, u⟩ := xs
      obtain ⟨y0, u'⟩ := xs'
      obtain ⟨h0, _⟩ := h
      cases h0
      exact makeArray_rel (strs_rel _) _
  · exact brel1 _ fun R hR xs xs' t h => by
      obtain ⟨x, u⟩ := xs
      obtain ⟨y, u'⟩ := xs'
      show Val.Rel R (.str (joinText t _)) (.str (joinText t _))
      rw [texts_rel L.F hR h.1]
      rfl
  · exact brel fun R _ xs xs' h => by
      obtain ⟨x0, x1, x2, u⟩ := xs
      obtain ⟨y0, y1, y2, u'⟩ := xs'
      obtain ⟨h0, h1, h2, _⟩ := h
      cases h0
      cases h1
      cases h2
      exact rfl
  · exact brel fun R _ xs xs' h => by
      obtain ⟨x0, u⟩ := xs
      obtain ⟨y0, u'⟩ := xs'
      obtain ⟨h0, _⟩ := h
      cases h0
      exact rfl
  · exact brel fun R _ xs xs' h => by
      obtain ⟨x0, u⟩ := xs
      obtain ⟨y0, u'⟩ := xs'
      obtain ⟨h0, _⟩ := h
      cases h0
      exact rfl
  · exact brel fun R _ xs xs' h => by
      obtain ⟨x0, u⟩ := xs
      obtain ⟨y0, u'⟩ := xs'
      obtain ⟨h0, _⟩ := h
      cases h0
      exact rfl
  · exact brel fun R _ xs xs' h => by
      obtain ⟨x0, x1, u⟩ := xs
      obtain ⟨y0, y1, u'⟩ := xs'
      obtain ⟨h0, h1, _⟩ := h
      cases h0
      cases h1
      exact rfl
  · exact brel fun R _ xs xs' h => by
      obtain ⟨x0, x1, u⟩ := xs
      obtain ⟨y0, y1, u'⟩ := xs'
      obtain ⟨h0, h1, _⟩ := h
      cases h0
      cases h1
      exact rfl
  · exact brel fun R _ xs xs' h => by
      obtain ⟨x0, x1, u⟩ := xs
      obtain ⟨y0, y1, u'⟩ := xs'
      obtain ⟨h0, h1, _⟩ := h
      cases h0
      cases h1
      exact rfl
  · exact brel fun R _ xs xs' h => by
      obtain ⟨x0, u⟩ := xs
      obtain ⟨y0, u'⟩ := xs'
      obtain ⟨h0, _⟩ := h
      cases h0
      show Val.Rel R (ofVec _) (ofVec _)
      exact ofVec_rel (chars_rel x0)

theorem test_rel (L : Ops) (lim : Limits) : LibRelG cn cn' (D := D) lim (testLib L) (testLib L) := by
  unfold testLib
  refine .cons ?_ (.cons ?_ (.cons ?_ (.cons ?_ .nil)))
  · exact brel fun R _ xs xs' h => by
      obtain ⟨x0, u⟩ := xs
      obtain ⟨y0, u'⟩ := xs'
      obtain ⟨h0, _⟩ := h
      cases h0
      show Res.Rel _ (assert x0) (assert x0)
      unfold assert
      split <;> trivial
  · exact brel fun R _ xs xs' h => by
      exact rfl
  · exact brel fun R _ xs xs' h => by
      obtain ⟨x0, u⟩ := xs
      obtain ⟨y0, u'⟩ := xs'
      obtain ⟨h0, _⟩ := h
      cases h0
      exact rfl
  · exact brel fun R _ xs xs' h => by
      exact rfl

theorem std_rel (L : Ops) (chk : Bool) (lim : Limits) : LibRelG cn cn' (D := D) lim (stdLib L chk cn) (stdLib L chk cn') :=
  ((((core_rel L chk lim).append (math_rel L chk lim)).append (color_rel L lim)).append (string_rel L lim)).append (test_rel L lim)

end

abbrev LibRel (lim : Limits) (l : List (String × BFn D SClos)) (l' : List (String × BFn D VClos)) : Prop := LibRelG SClos.name vname lim l l'

end Quilt.Lib
