import Verif.Parser.Gives

/-!
# Reading lists: elements between commas, statements one after another
-/

namespace Quilt.Cs

open Peg

variable {α β γ : Type}

/-- The texts of elements with the gaps around them. -/
def joined (t : γ → List Char) (es : List (Gap × γ × Gap)) : List (List Char) := es.map fun e => e.1.text ++ t e.2.1 ++ e.2.2.text

theorem commas_cons (t : List Char) (ts : List (List Char)) : commas (t :: ts) = t ++ ts.flatMap (',' :: ·) := by
  induction ts generalizing t with
  | nil => simp [commas]
  | cons u ts ih => rw [show commas (t :: u :: ts) = t ++ ',' :: commas (u :: ts) from rfl, ih]; simp

theorem noSkip_comma (s : List Char) : NoSkip (',' :: s) := noSkip_cons (by decide)

/-- The end of a list: what follows after the last element. -/
structure ListEnd (gt : Gap) (r : List Char) : Prop where
  gok : gt.ok = true
  ns : NoSkip r
  comma : NotHead (· == ',') r

/-- One element of a list and the gaps around it. -/
theorem gives_elem {x : P α} {g : Gap} {t : List Char} {G : Gap} {r : List Char} {Q : α → Prop} (hg : g.ok = true) (ht : NoSkip (t ++ (G.text ++ r)))
    (hr : NoSkip r) (hx : Gives x (t ++ (G.text ++ r)) fun a s' => Q a ∧ ∃ G' : Gap, G'.ok = true ∧ s' = G'.text ++ r) :
    Gives (do skip; let y ← x; skip; pure y : P α) (g.text ++ (t ++ (G.text ++ r))) fun a s' => Q a ∧ s' = r := by
  refine (takes_skip hg ht).bind (hx.bind ?_)
  rintro a s' ⟨ha, G', hG', rfl⟩
  exact (takes_skip hG' hr).bind (Gives.pure ⟨ha, rfl⟩)

/-- The elements after the first one. -/
theorem gives_more {x : P α} {t : γ → List Char} {π : α → β} {v : γ → β} {gt : Gap} {r : List Char} (he : ListEnd gt r) (N : Nat) :
    ∀ (es : List (Gap × γ × Gap)), (∀ e ∈ es, e.1.ok = true ∧ e.2.2.ok = true) →
    (∀ e ∈ es, ∀ s, NoSkip (t e.2.1 ++ s)) →
    (∀ e ∈ es, ∀ s, (t e.2.1 ++ (e.2.2.text ++ ',' :: s)).length < N →
      Gives x (t e.2.1 ++ (e.2.2.text ++ ',' :: s)) fun a s' => π a = v e.2.1 ∧ ∃ G' : Gap, G'.ok = true ∧ s' = G'.text ++ ',' :: s) →
    (∀ e, es.getLast? = some e → (t e.2.1 ++ (Gap.text (e.2.2 ++ gt) ++ r)).length < N →
      Gives x (t e.2.1 ++ (Gap.text (e.2.2 ++ gt) ++ r)) fun a s' => π a = v e.2.1 ∧ ∃ G' : Gap, G'.ok = true ∧ s' = G'.text ++ r) →
    es ≠ [] → ((joined t es).flatMap (',' :: ·) ++ (gt.text ++ r)).length < N →
    Gives (many (do let _ ← str ","; (do skip; let y ← x; skip; pure y : P α))) ((joined t es).flatMap (',' :: ·) ++ (gt.text ++ r))
      fun as s' => as.map π = es.map (fun e => v e.2.1) ∧ s' = r
  | [], _, _, _, _, h, _ => absurd rfl h
  | [(g, e, g')], hok, hns, _, hx', _, hlen => by
    have hg := hok _ (List.mem_singleton.2 rfl)
    have e1 : (joined t [(g, e, g')]).flatMap (',' :: ·) ++ (gt.text ++ r) = ',' :: (g.text ++ (t e ++ (Gap.text (g' ++ gt) ++ r))) := by
      simp [joined, Gap.text_append]
    rw [e1] at hlen ⊢
    have h1 := gives_elem (Q := fun a => π a = v e) hg.1 (hns _ (List.mem_singleton.2 rfl) _) he.ns (hx' _ rfl (by simp at hlen ⊢; omega))
    refine Gives.many_cons (Q := fun a s' => π a = v e ∧ s' = r) ((Takes.char (by decide) _).bind h1) ?_ ?_
    · rintro a s' ⟨_, rfl⟩; simp; omega
    · rintro a s' ⟨ha, rfl⟩
      refine (Gives.many_nil (Fails.bind (Fails.char (by decide) he.comma))).imp ?_
      rintro as s'' ⟨rfl, rfl⟩
      exact ⟨by simp [ha], rfl⟩
  | (g, e, g') :: e2 :: es, hok, hns, hx, hx', _, hlen => by
    have hg := hok _ (List.mem_cons_self)
    have e1 : (joined t ((g, e, g') :: e2 :: es)).flatMap (',' :: ·) ++ (gt.text ++ r) =
        ',' :: (g.text ++ (t e ++ (g'.text ++ ((joined t (e2 :: es)).flatMap (',' :: ·) ++ (gt.text ++ r))))) := by
      simp [joined]
    obtain ⟨s, hs⟩ : ∃ s, (joined t (e2 :: es)).flatMap (',' :: ·) ++ (gt.text ++ r) = ',' :: s := ⟨_, by simp [joined]; rfl⟩
    have ih := gives_more (π := π) (v := v) (x := x) he N (e2 :: es) (fun e he => hok e (List.mem_cons_of_mem _ he)) (fun e he => hns e (List.mem_cons_of_mem _ he))
      (fun e he => hx e (List.mem_cons_of_mem _ he)) (fun e he => hx' e (by rw [List.getLast?_cons_cons]; exact he)) (by simp)
    rw [e1] at hlen ⊢
    rw [hs] at ih hlen ⊢
    have h1 := gives_elem (Q := fun a => π a = v e) hg.1 (hns _ (List.mem_cons_self) _) (noSkip_comma s) (hx _ (List.mem_cons_self) s (by simp at hlen ⊢; omega))
    refine Gives.many_cons (Q := fun a s' => π a = v e ∧ s' = ',' :: s) ((Takes.char (by decide) _).bind h1) ?_ ?_
    · rintro a s' ⟨_, rfl⟩; simp; omega
    · rintro a s' ⟨ha, rfl⟩
      refine (ih (by simp at hlen ⊢; omega)).imp ?_
      rintro as s'' ⟨h, rfl⟩
      exact ⟨by simp [ha, h], rfl⟩

/-- Elements between commas, with a gap before and one after. -/
theorem gives_commas1 {x : P α} {t : γ → List Char} {π : α → β} {v : γ → β} {g0 gt : Gap} {r : List Char} (he : ListEnd gt r) (hg0 : g0.ok = true) (N : Nat)
    {es : List (Gap × γ × Gap)} (hok : ∀ e ∈ es, e.1.ok = true ∧ e.2.2.ok = true) (hns : ∀ e ∈ es, ∀ s, NoSkip (t e.2.1 ++ s))
    (hx : ∀ e ∈ es, ∀ s, (t e.2.1 ++ (e.2.2.text ++ ',' :: s)).length < N →
      Gives x (t e.2.1 ++ (e.2.2.text ++ ',' :: s)) fun a s' => π a = v e.2.1 ∧ ∃ G' : Gap, G'.ok = true ∧ s' = G'.text ++ ',' :: s)
    (hx' : ∀ e, es.getLast? = some e → (t e.2.1 ++ (Gap.text (e.2.2 ++ gt) ++ r)).length < N →
      Gives x (t e.2.1 ++ (Gap.text (e.2.2 ++ gt) ++ r)) fun a s' => π a = v e.2.1 ∧ ∃ G' : Gap, G'.ok = true ∧ s' = G'.text ++ r)
    (hne : es ≠ []) (hlen : (commas (joined t es) ++ (gt.text ++ r)).length < N) :
    Gives (skip >>= fun _ => sepBy1 (do skip; let y ← x; skip; pure y : P α) (str ",")) (g0.text ++ (commas (joined t es) ++ (gt.text ++ r)))
      fun as s' => as.map π = es.map (fun e => v e.2.1) ∧ s' = r := by
  cases es with
  | nil => exact absurd rfl hne
  | cons e es =>
    obtain ⟨g, e, g'⟩ := e
    have hg := hok _ (List.mem_cons_self)
    have e1 : commas (joined t ((g, e, g') :: es)) ++ (gt.text ++ r) = g.text ++ (t e ++ (g'.text ++ ((joined t es).flatMap (',' :: ·) ++ (gt.text ++ r)))) := by
      simp [joined, commas_cons]
    rw [e1] at hlen ⊢
    have hsk : ∀ s, Takes skip (g0.text ++ (g.text ++ (t e ++ s))) () (t e ++ s) := fun s => by
      rw [← List.append_assoc, ← Gap.text_append]
      exact takes_skip (by rw [Gap.ok_append, hg0, hg.1]; rfl) (hns _ (List.mem_cons_self) _)
    refine (hsk _).bind ?_
    cases es with
    | nil =>
      have e2 : g'.text ++ ((joined t ([] : List (Gap × γ × Gap))).flatMap (',' :: ·) ++ (gt.text ++ r)) = Gap.text (g' ++ gt) ++ r := by simp [joined, Gap.text_append]
      rw [e2] at hlen ⊢
      have h1 := gives_elem (g := []) (Q := fun a => π a = v e) rfl (hns _ (List.mem_cons_self) _) he.ns (hx' _ rfl (by simp at hlen ⊢; omega))
      refine Gives.bind h1 ?_
      rintro a s' ⟨ha, rfl⟩
      refine Takes.bind (Gives.many_nil (Fails.bind (Fails.char (by decide) he.comma))) (Gives.pure ⟨by simp [ha], rfl⟩)
    | cons e2 es =>
      obtain ⟨s, hs⟩ : ∃ s, (joined t (e2 :: es)).flatMap (',' :: ·) ++ (gt.text ++ r) = ',' :: s := ⟨_, by simp [joined]; rfl⟩
      have ih := gives_more (π := π) (v := v) (x := x) he N (e2 :: es) (fun e he => hok e (List.mem_cons_of_mem _ he)) (fun e he => hns e (List.mem_cons_of_mem _ he))
        (fun e he => hx e (List.mem_cons_of_mem _ he)) (fun e he => hx' e (by rw [List.getLast?_cons_cons]; exact he)) (by simp)
      rw [hs] at ih hlen ⊢
      have h1 := gives_elem (g := []) (Q := fun a => π a = v e) rfl (hns _ (List.mem_cons_self) _) (noSkip_comma s) (hx _ (List.mem_cons_self) s (by simp at hlen ⊢; omega))
      refine Gives.bind h1 ?_
      rintro a s' ⟨ha, rfl⟩
      refine (ih (by simp at hlen ⊢; omega)).bind ?_
      rintro as s'' ⟨h, rfl⟩
      exact Gives.pure ⟨by simp [ha, h], rfl⟩

theorem takes_no_comma {r : List Char} (h : NotHead (· == ',') r) : Takes (opt (str ",")) r none r := Takes.opt_none (Fails.char (by decide) h)

theorem gives_commaSep1 {x : P α} {t : γ → List Char} {π : α → β} {v : γ → β} {g0 gt : Gap} {r : List Char} (he : ListEnd gt r) (hg0 : g0.ok = true) (N : Nat)
    {es : List (Gap × γ × Gap)} (hok : ∀ e ∈ es, e.1.ok = true ∧ e.2.2.ok = true) (hns : ∀ e ∈ es, ∀ s, NoSkip (t e.2.1 ++ s))
    (hx : ∀ e ∈ es, ∀ s, (t e.2.1 ++ (e.2.2.text ++ ',' :: s)).length < N →
      Gives x (t e.2.1 ++ (e.2.2.text ++ ',' :: s)) fun a s' => π a = v e.2.1 ∧ ∃ G' : Gap, G'.ok = true ∧ s' = G'.text ++ ',' :: s)
    (hx' : ∀ e, es.getLast? = some e → (t e.2.1 ++ (Gap.text (e.2.2 ++ gt) ++ r)).length < N →
      Gives x (t e.2.1 ++ (Gap.text (e.2.2 ++ gt) ++ r)) fun a s' => π a = v e.2.1 ∧ ∃ G' : Gap, G'.ok = true ∧ s' = G'.text ++ r)
    (hne : es ≠ []) (hlen : (commas (joined t es) ++ (gt.text ++ r)).length < N) :
    Gives (commaSep1 x) (g0.text ++ (commas (joined t es) ++ (gt.text ++ r))) fun as s' => as.map π = es.map (fun e => v e.2.1) ∧ s' = r := by
  have h := gives_commas1 he hg0 N hok hns hx hx' hne hlen
  intro p
  obtain ⟨as, q, s', h1, h2, rfl⟩ := h p
  have e1 : commaSep1 x = (skip >>= fun _ => sepBy1 (do skip; let y ← x; skip; pure y : P α) (str ",")) >>= fun v => (do
      let _ ← opt (str ","); skip; pure v : P (List α)) := by
    funext i
    unfold commaSep1
    simp only [bind_def]
    cases skip i <;> rfl
  rw [e1, bind_def, h1]
  obtain ⟨_, q', _, h3, rfl, rfl⟩ := takes_no_comma he.comma q
  obtain ⟨_, q'', _, h4, rfl, rfl⟩ := takes_skip_nil he.ns q'
  exact ⟨as, q'', _, by simp only [bind_def, h3, h4]; rfl, h2, rfl⟩

theorem gives_commaSep {x : P α} {t : γ → List Char} {π : α → β} {v : γ → β} {g0 gt : Gap} {r : List Char} (he : ListEnd gt r) (hg0 : g0.ok = true) (N : Nat)
    {es : List (Gap × γ × Gap)} (hok : ∀ e ∈ es, e.1.ok = true ∧ e.2.2.ok = true) (hns : ∀ e ∈ es, ∀ s, NoSkip (t e.2.1 ++ s))
    (hx : ∀ e ∈ es, ∀ s, (t e.2.1 ++ (e.2.2.text ++ ',' :: s)).length < N →
      Gives x (t e.2.1 ++ (e.2.2.text ++ ',' :: s)) fun a s' => π a = v e.2.1 ∧ ∃ G' : Gap, G'.ok = true ∧ s' = G'.text ++ ',' :: s)
    (hx' : ∀ e, es.getLast? = some e → (t e.2.1 ++ (Gap.text (e.2.2 ++ gt) ++ r)).length < N →
      Gives x (t e.2.1 ++ (Gap.text (e.2.2 ++ gt) ++ r)) fun a s' => π a = v e.2.1 ∧ ∃ G' : Gap, G'.ok = true ∧ s' = G'.text ++ r)
    (hnil : es = [] → Fails x r) (hlen : (commas (joined t es) ++ (gt.text ++ r)).length < N) :
    Gives (commaSep x) (g0.text ++ (commas (joined t es) ++ (gt.text ++ r))) fun as s' => as.map π = es.map (fun e => v e.2.1) ∧ s' = r := by
  cases es with
  | nil =>
    have e1 : g0.text ++ (commas (joined t ([] : List (Gap × γ × Gap))) ++ (gt.text ++ r)) = Gap.text (g0 ++ gt) ++ r := by simp [joined, commas, Gap.text_append]
    rw [e1]
    unfold commaSep
    refine (takes_skip (by rw [Gap.ok_append, hg0, he.gok]; rfl) he.ns).bind ?_
    refine Takes.bind (a := []) (s' := r) ?_ ((takes_no_comma he.comma).bind ((takes_skip_nil he.ns).bind (Gives.pure ⟨rfl, rfl⟩)))
    exact Gives.right (Fails.bind (Fails.take (takes_skip_nil he.ns) (Fails.bind (hnil rfl)))) (Gives.pure ⟨rfl, rfl⟩)
  | cons e es =>
    have h := gives_commas1 he hg0 N hok hns hx hx' (by simp) hlen
    intro p
    obtain ⟨as, q, s', h1, h2, rfl⟩ := h p
    have e1 : commaSep x = skip >>= fun _ => (sepBy (do skip; let y ← x; skip; pure y : P α) (str ",")) >>= fun v => (do
        let _ ← opt (str ","); skip; pure v : P (List α)) := rfl
    rw [bind_def] at h1
    rw [e1, bind_def]
    cases hs : skip ⟨p, g0.text ++ (commas (joined t (e :: es)) ++ (gt.text ++ s'))⟩ with
    | fail => rw [hs] at h1; cases h1
    | oof => rw [hs] at h1; cases h1
    | ok u i =>
      rw [hs] at h1
      have h1 : sepBy1 (do skip; let y ← x; skip; pure y : P α) (str ",") i = .ok as ⟨q, s'⟩ := h1
      obtain ⟨_, q', _, h3, rfl, rfl⟩ := takes_no_comma he.comma q
      obtain ⟨_, q'', _, h4, rfl, rfl⟩ := takes_skip_nil he.ns q'
      refine ⟨as, q'', _, ?_, h2, rfl⟩
      show ((sepBy (do skip; let y ← x; skip; pure y : P α) (str ",")) >>= fun v => (do
        let _ ← opt (str ","); skip; pure v : P (List α)) : P (List α)) i = _
      rw [bind_def, sepBy, orElse, h1]
      simp only [bind_def, h3, h4]; rfl

end Quilt.Cs
