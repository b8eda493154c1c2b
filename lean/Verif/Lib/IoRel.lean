import Verif.Lib.Io
import Verif.Lib.Rel

/-!
# Random numbers, time, input and output on corresponding values
-/

namespace Quilt.Lib

open Quilt

variable {C C' : Type} {cn : C → String} {cn' : C' → String}

theorem io_brel {L : Ops} {lim : Limits} {req : List PKind} {body : Params C req → Io → Res (Val C) × Io} {body' : Params C' req → Io → Res (Val C') × Io}
    (hb : ∀ (R : C → C' → Prop), (∀ c c', R c c' → cn c = cn' c') → ∀ xs xs' d, PRel R req req xs xs' →
      Res.Rel (Val.Rel R) (body xs d).1 (body' xs' d).1 ∧ (body xs d).2 = (body' xs' d).2) :
    BRelG cn cn' lim (builtinIo L req body) (builtinIo L req body') := by
  refine ⟨fun R hR d args args' ha => ?_⟩
  have h : Res.Rel (PRel R req req) ((takeReq L req (Args.new args)).bind fun (xs, a) => a.stop.map fun _ => xs)
      ((takeReq L req (Args.new args')).bind fun (xs, a) => a.stop.map fun _ => xs) := by
    refine Res.Rel.bind (takeReq_rel (R := R) (a := Args.new args) (a' := Args.new args') L req ⟨ha, rfl⟩) fun p p' hp => ?_
    obtain ⟨x, a⟩ := p
    obtain ⟨x', a'⟩ := p'
    simp only
    rw [stop_rel hp.2]
    cases a'.stop with
    | ok u => exact hp.1
    | err e => rfl
    | panic => trivial
  unfold builtinIo
  revert h
  generalize ((takeReq L req (Args.new args)).bind fun (xs, a) => a.stop.map fun _ => xs) = x
  generalize ((takeReq L req (Args.new args')).bind fun (xs, a) => a.stop.map fun _ => xs) = y
  intro h
  cases x <;> cases y <;> simp only [Res.Rel] at h
  · exact hb R hR _ _ d h
  · subst h; exact ⟨rfl, rfl⟩
  · exact ⟨trivial, rfl⟩

variable (L : Ops) (O : Outside) (lim : Limits)

theorem choice_rel {R : C → C' → Prop} {xs : List (Val C)} {ys : List (Val C')} (h : Val.RelL R xs ys) (d : Io) :
    Res.Rel (Val.Rel R) (randchoice O xs d).1 (randchoice O ys d).1 ∧ (randchoice O xs d).2 = (randchoice O ys d).2 := by
  unfold randchoice
  have hl := h.length_eq
  have hz : xs = [] ↔ ys = [] := by rw [← List.length_eq_zero_iff, ← List.length_eq_zero_iff, hl]
  by_cases hx : xs = []
  · rw [if_pos hx, if_pos (hz.1 hx)]; exact ⟨rfl, rfl⟩
  · rw [if_neg hx, if_neg fun h => hx (hz.2 h), hl]
    rcases h.get ((O.rand d.asked).toNat % ys.length) with ⟨h1, h2⟩ | ⟨v, w, h1, h2, h3⟩
    · rw [h1, h2]; exact ⟨trivial, rfl⟩
    · rw [h1, h2]; exact ⟨h3, rfl⟩

theorem rand_rel : LibRelG cn cn' lim (randLib L O) (randLib L O) := by
  unfold randLib
  refine .cons ?_ (.cons ?_ (.cons ?_ (.cons ?_ (.cons ?_ .nil))))
  · exact io_brel fun R _ xs xs' d h => ⟨rfl, rfl⟩
  · exact io_brel fun R _ xs xs' d h => ⟨rfl, rfl⟩
  · exact io_brel fun R _ xs xs' d h => by
      obtain ⟨x0, x1, u⟩ := xs
      obtain ⟨y0, y1, u'⟩ := xs'
      obtain ⟨h0, h1, _⟩ := h
      cases h0
      cases h1
      show Res.Rel _ (randint O x0 x1 d).1 (randint O x0 x1 d).1 ∧ (randint O x0 x1 d).2 = (randint O x0 x1 d).2
      unfold randint
      split <;> exact ⟨rfl, rfl⟩
  · exact io_brel fun R _ xs xs' d h => by
      obtain ⟨x0, x1, u⟩ := xs
      obtain ⟨y0, y1, u'⟩ := xs'
      obtain ⟨h0, h1, _⟩ := h
      cases h0
      cases h1
      show Res.Rel _ (randfloat L O x0 x1 d).1 (randfloat L O x0 x1 d).1 ∧ (randfloat L O x0 x1 d).2 = (randfloat L O x0 x1 d).2
      unfold randfloat
      split
      · exact ⟨rfl, rfl⟩
      · split
        · exact ⟨rfl, rfl⟩
        · exact ⟨trivial, rfl⟩
  · exact io_brel fun R _ xs xs' d h => by
      obtain ⟨x0, u⟩ := xs
      obtain ⟨y0, u'⟩ := xs'
      exact choice_rel O h.1 d

theorem randColor_rel : LibRelG cn cn' lim (randColorLib L O) (randColorLib L O) := by
  unfold randColorLib
  refine .cons ?_ (.cons ?_ (.cons ?_ .nil))
  · exact io_brel fun R _ xs xs' d h => ⟨⟨rfl, rfl, rfl, rfl⟩, rfl⟩
  · exact io_brel fun R _ xs xs' d h => ⟨⟨rfl, rfl, rfl, rfl⟩, rfl⟩
  · exact io_brel fun R _ xs xs' d h => by
      show Res.Rel _ (randomRainbowColor O d).1 (randomRainbowColor O d).1 ∧ (randomRainbowColor O d).2 = (randomRainbowColor O d).2
      have hr : Val.RelL R (rainbow : List (Val C)) (rainbow : List (Val C')) := by repeat' first | trivial | constructor
      unfold randomRainbowColor
      rcases hr.get ((O.rand d.asked).toNat % 10) with ⟨h1, h2⟩ | ⟨v, w, h1, h2, h3⟩
      · rw [h1, h2]; exact ⟨trivial, rfl⟩
      · rw [h1, h2]; exact ⟨h3, rfl⟩

theorem time_rel : LibRelG cn cn' lim (timeLib L O) (timeLib L O) := by
  unfold timeLib
  refine .cons ?_ (.cons ?_ .nil)
  · exact io_brel fun R _ xs xs' d h => by
      show Res.Rel _ (now O d).1 (now O d).1 ∧ (now O d).2 = (now O d).2
      unfold now
      split <;> exact ⟨rfl, rfl⟩
  · exact io_brel fun R _ xs xs' d h => by
      show Res.Rel _ (date O d).1 (date O d).1 ∧ (date O d).2 = (date O d).2
      unfold date
      split <;> exact ⟨rfl, rfl⟩

theorem printed_rel {R : C → C' → Prop} (hR : ∀ c c', R c c' → cn c = cn' c') {vs : List (Val C)} {ws : List (Val C')} (h : Val.RelL R vs ws) :
    printed L cn vs = printed L cn' ws := by
  have := texts_rel L.F hR h
  unfold printed
  rw [List.flatMap_def, List.flatMap_def]
  have h1 := congrArg (List.map (· ++ [' '])) this
  rw [List.map_map, List.map_map] at h1
  exact congrArg List.flatten h1

theorem io_rel : LibRelG cn cn' lim (ioLib L cn O) (ioLib L cn' O) := by
  unfold ioLib
  refine .cons ?_ (.cons ?_ (.cons ?_ (.cons ?_ (.cons ?_ .nil))))
  · exact io_brel fun R hR xs xs' d h => by
      obtain ⟨x0, u⟩ := xs
      obtain ⟨y0, u'⟩ := xs'
      refine ⟨trivial, ?_⟩
      show (println L _ x0 d).2 = (println L _ y0 d).2
      unfold println
      rw [printed_rel L hR h.1]
  · exact io_brel fun R hR xs xs' d h => by
      obtain ⟨x0, u⟩ := xs
      obtain ⟨y0, u'⟩ := xs'
      refine ⟨trivial, ?_⟩
      show (print L _ x0 d).2 = (print L _ y0 d).2
      unfold print
      rw [printed_rel L hR h.1]
  · exact io_brel fun R hR xs xs' d h => by
      obtain ⟨x0, u⟩ := xs
      obtain ⟨y0, u'⟩ := xs'
      refine ⟨trivial, ?_⟩
      show (debug L _ x0 d).2 = (debug L _ y0 d).2
      unfold debug
      rw [printed_rel L hR h.1]
  · exact io_brel fun R hR xs xs' d h => by
      obtain ⟨x0, u⟩ := xs
      obtain ⟨y0, u'⟩ := xs'
      obtain ⟨h0, _⟩ := h
      cases h0
      show Res.Rel _ (input O x0 d).1 (input O x0 d).1 ∧ (input O x0 d).2 = (input O x0 d).2
      unfold input
      simp only
      split
      · split <;> exact ⟨rfl, rfl⟩
      · exact ⟨rfl, rfl⟩
  · exact io_brel fun R hR xs xs' d h => by
      obtain ⟨x0, u⟩ := xs
      obtain ⟨y0, u'⟩ := xs'
      obtain ⟨h0, _⟩ := h
      cases h0
      show Res.Rel _ (readfile O x0 d).1 (readfile O x0 d).1 ∧ (readfile O x0 d).2 = (readfile O x0 d).2
      unfold readfile
      split <;> exact ⟨rfl, rfl⟩

theorem same_rel {R : C → C' → Prop} {a b : Val C} {a' b' : Val C'} (ha : Val.Rel R a a') (hb : Val.Rel R b b') (d : Io) :
    same L O a b d = same L O a' b' d := by
  unfold same
  rw [ha.eqv_none L.F hb]

theorem assertEq_rel {R : C → C' → Prop} (hR : ∀ c c', R c c' → cn c = cn' c') {a b : Val C} {a' b' : Val C'} (ha : Val.Rel R a a')
    (hb : Val.Rel R b b') (d : Io) :
    Res.Rel (Val.Rel R) (assertEq L cn O a b d).1 (assertEq L cn' O a' b' d).1 ∧
      (assertEq L cn O a b d).2 = (assertEq L cn' O a' b' d).2 := by
  unfold assertEq assertText
  rw [same_rel L O ha hb, text_rel L.F hR ha, text_rel L.F hR hb]
  split <;> first | exact ⟨rfl, rfl⟩ | exact ⟨trivial, rfl⟩

theorem assertNe_rel {R : C → C' → Prop} (hR : ∀ c c', R c c' → cn c = cn' c') {a b : Val C} {a' b' : Val C'} (ha : Val.Rel R a a')
    (hb : Val.Rel R b b') (d : Io) :
    Res.Rel (Val.Rel R) (assertNe L cn O a b d).1 (assertNe L cn' O a' b' d).1 ∧
      (assertNe L cn O a b d).2 = (assertNe L cn' O a' b' d).2 := by
  unfold assertNe assertText
  rw [same_rel L O ha hb, text_rel L.F hR ha, text_rel L.F hR hb]
  split <;> first | exact ⟨rfl, rfl⟩ | exact ⟨trivial, rfl⟩

theorem compare_rel : LibRelG cn cn' lim (compareLib L cn O) (compareLib L cn' O) := by
  unfold compareLib
  refine .cons ?_ (.cons ?_ .nil)
  · exact io_brel fun R hR xs xs' d h => by
      obtain ⟨x0, x1, u⟩ := xs
      obtain ⟨y0, y1, u'⟩ := xs'
      exact assertEq_rel L O hR h.1 h.2.1 d
  · exact io_brel fun R hR xs xs' d h => by
      obtain ⟨x0, x1, u⟩ := xs
      obtain ⟨y0, y1, u'⟩ := xs'
      exact assertNe_rel L O hR h.1 h.2.1 d

/-- The whole library. -/
theorem stdio_rel (chk : Bool) : LibRelG cn cn' lim (stdioLib L cn O chk) (stdioLib L cn' O chk) :=
  (((((std_rel L chk lim).append (rand_rel L O lim)).append (randColor_rel L O lim)).append (time_rel L O lim)).append (io_rel L O lim)).append
    (compare_rel L O lim)

end Quilt.Lib
