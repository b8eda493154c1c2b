import Verif.Facade
import Verif.Parser.Sources

/-!
# Computations with a resolver

Used for C84.
-/

namespace Quilt.Peg

variable {S : Type}

/-! ## `DefaultIncludeResolver` -/

theorem out_bind {α β : Type} (x : IM α) (f : α → IM β) : (IM.bind x f).out = BM.bind x.out fun a => (f a).out := by
  funext s c
  unfold BM.bind IM.out IM.bind
  cases h : x ⟨c, s⟩ with
  | mk r c' => cases r <;> rfl

theorem out_each {α β : Type} (f : α → IM β) : ∀ as : List α, (IM.each f as).out = BM.each (fun a => (f a).out) as
  | [] => rfl
  | a :: as => by
    unfold IM.each BM.each
    rw [out_bind]
    congr 1
    funext b
    rw [out_bind, out_each f as]
    rfl

theorem out_addParse (W : World) (name : String) (src : List Char) : (addParse W name src).out = addParseG W.float name src := by
  funext s c
  unfold IM.out addParse addParseG
  dsimp only
  cases parseCode ⟨c.length, W.float⟩ src <;> rfl

theorem out_node (W : World) : ∀ (k : Nat) (n : Node), (resolveNode W k n).out = resolveNodeG (defaultResolver W) k n
  | k, n => by
    cases n with
    | «include» sp x b =>
      obtain ⟨x, xsp⟩ := x
      cases k with
      | zero =>
        funext s c
        unfold IM.out resolveNode resolveNodeG defaultResolver
        by_cases hx : x ∈ s <;> simp [hx, IRes.out, IErr.out]
      | succ k =>
        funext s c
        have ih : (fun n => (resolveNode W k n).out) = resolveNodeG (defaultResolver W) k := funext fun n => out_node W k n
        unfold resolveNodeG
        by_cases hx : x ∈ s
        · unfold IM.out resolveNode
          simp [hx, IRes.out, IErr.out, defaultResolver]
        · cases hf : W.files x with
          | none =>
            unfold IM.out resolveNode
            simp [hx, hf, IRes.out, IErr.out, defaultResolver, BM.bind]
          | some src =>
            have h1 : (resolveNode W (k + 1) (.include sp (x, xsp) b)).out s c = (IM.bind (parseWithIncludes W k x src) fun inc =>
                IM.bind (fun c => (.ok (), { c with resolved := x :: c.resolved })) fun _ =>
                  IM.bind (IM.each (resolveNode W k) inc) fun inc' c => (.ok (.include sp (x, xsp) (some inc')), c)).out s c := by
              unfold IM.out
              rw [show resolveNode W (k + 1) (.include sp (x, xsp) b) ⟨c, s⟩ = _ by unfold resolveNode; rw [if_neg hx, hf]]
            rw [h1, out_bind]
            simp only [out_bind, out_each, ih]
            simp only [defaultResolver, hx, hf, decide_false, Bool.false_eq_true, ↓reduceIte]
            unfold BM.bind
            rcases (parseWithIncludes W k x src).out s c with ⟨r, s', c'⟩
            cases r <;> rfl
    | _ => funext s c; cases k <;> (unfold IM.out resolveNode resolveNodeG; rfl)

theorem out_default (W : World) (k : Nat) (name : String) (src : List Char) :
    (parseWithIncludes W k name src).out = parseWithG W.float (defaultResolver W) k name src := by
  cases k with
  | zero => unfold parseWithIncludes parseWithG; rfl
  | succ k =>
    unfold parseWithIncludes parseWithG
    rw [out_bind, out_addParse]
    congr 1
    funext ast
    rw [out_each]
    congr 1
    funext n
    exact out_node W k n

/-! ## Where errors are -/

/-- The error is about one of the sources: a text that cannot be parsed, or a position in it. -/
def Located (float : List Char → BitVec 64) (c : Texts) : BErr → Prop
  | .parse i => ∃ name T, c[i]? = some (name, T) ∧ parseCode ⟨i, float⟩ T = .fail
  | .at _ sp => InSources c sp

theorem Located.mono {float : List Char → BitVec 64} {c c' : Texts} (h : c <+: c') {e : BErr} (he : Located float c e) : Located float c' e := by
  cases e with
  | «at» e sp => exact InSources.mono h he
  | parse i =>
    obtain ⟨name, T, h1, h2⟩ := he
    obtain ⟨r, rfl⟩ := h
    exact ⟨name, T, by rw [List.getElem?_append_left (List.getElem?_eq_some_iff.1 h1).1]; exact h1, h2⟩

/-- From these sources the computation only adds sources, its errors are about them and its results are `good`. -/
def Faithful {α : Type} (float : List Char → BitVec 64) (x : BM S α) (s : S) (c : Texts) (good : α → Texts → Prop) : Prop := match x s c with
  | (.ok a, _, c') => c <+: c' ∧ good a c'
  | (.err e, _, c') => c <+: c' ∧ Located float c' e
  | (.oof, _, c') => c <+: c'

variable {float : List Char → BitVec 64}

theorem Faithful.grow {α : Type} {x : BM S α} {s : S} {c0 c : Texts} (h0 : c0 <+: c) {good : α → Texts → Prop} (h : Faithful float x s c good) {r : BRes α} {s' : S} {c' : Texts}
    (hx : x s c = (r, s', c')) : c0 <+: c' := by
  unfold Faithful at h
  rw [hx] at h
  cases r with
  | ok a => exact h0.trans h.1
  | err e => exact h0.trans h.1
  | oof => exact h0.trans h

theorem Faithful.bind {α β : Type} {x : BM S α} {f : α → BM S β} {s : S} {c : Texts} {good : α → Texts → Prop} {good' : β → Texts → Prop}
    (hx : Faithful float x s c good) (hf : ∀ a s' c', c <+: c' → good a c' → Faithful float (f a) s' c' good') : Faithful float (BM.bind x f) s c good' := by
  unfold Faithful at hx
  unfold Faithful BM.bind
  rcases hr : x s c with ⟨r, s', c'⟩
  rw [hr] at hx
  cases r with
  | err e => exact hx
  | oof => exact hx
  | ok a =>
    have := hf a s' c' hx.1 hx.2
    unfold Faithful at this
    dsimp only at this ⊢
    rcases hr2 : f a s' c' with ⟨r2, s2, c2⟩
    rw [hr2] at this
    cases r2 with
    | ok b => exact ⟨hx.1.trans this.1, this.2⟩
    | err e => exact ⟨hx.1.trans this.1, this.2⟩
    | oof => exact hx.1.trans this

theorem Faithful.each {f : Node → BM S Node} (hf : ∀ n s c, Sited c n → Faithful float (f n) s c fun n' c' => Sited c' n') :
    ∀ (ns : List Node) (s : S) (c : Texts), (∀ n ∈ ns, Sited c n) → Faithful float (BM.each f ns) s c fun ns' c' => ∀ n ∈ ns', Sited c' n
  | [], s, c, _ => ⟨List.prefix_refl _, by simp⟩
  | n :: ns, s, c, h => by
    unfold BM.each
    refine Faithful.bind (hf n s c (h n (by simp))) fun n' s1 c1 h1 hn => ?_
    refine Faithful.bind (Faithful.each hf ns s1 c1 fun m hm => (h m (by simp [hm])).mono h1) fun ns' s2 c2 h2 hns => ?_
    refine ⟨List.prefix_refl _, fun m hm => ?_⟩
    rcases List.mem_cons.1 hm with rfl | hm
    · exact hn.mono h2
    · exact hns m hm

/-- An implementation of the trait that tells the truth: asked for a name at a position in the sources, it only adds sources, what it returns stands in
the sources, and its errors are about the sources. -/
def Resolver.Honest (float : List Char → BitVec 64) (R : Resolver S) : Prop :=
  ∀ x s c, InSources c x.2 → Faithful float (R.resolve x) s c fun ast c' => ∀ n ∈ ast, Sited c' n

theorem Faithful.addParse (name : String) (src : List Char) (s : S) (c : Texts) :
    Faithful float (addParseG float name src) s c fun ast c' => ∀ n ∈ ast, Sited c' n := by
  have hg := parseCode_good ⟨c.length, float⟩ src
  unfold Faithful addParseG
  cases hp : parseCode ⟨c.length, float⟩ src with
  | oof => rw [hp] at hg; exact hg.elim
  | fail => exact ⟨List.prefix_append _ _, name, src, by simp, hp⟩
  | ok ast i =>
    have h := addParse_sited (W := ⟨fun _ => none, float⟩) (name := name) (src := src) (c := ⟨c, []⟩) (ast := ast) (c' := ⟨c ++ [(name, src)], []⟩)
      (by unfold Peg.addParse; simp only [hp])
    exact h

theorem Faithful.node {R : Nat → Resolver S} : ∀ (k : Nat), (∀ j, j < k → (R j).Honest float) → ∀ (n : Node) (s : S) (c : Texts), Sited c n →
    Faithful float (resolveNodeG R k n) s c fun n' c' => Sited c' n'
  | k, hR, n, s, c, hn => by
    cases n with
    | «include» sp x b =>
      obtain ⟨x, xsp⟩ := x
      have hx : InSources c xsp := (hn _ (Node.self_subs _)).2 (x, xsp) (by simp [Node.names])
      cases k with
      | zero =>
        unfold Faithful resolveNodeG
        dsimp only
        by_cases hw : (R 0).wasResolved s x = true
        · rw [if_pos hw]; exact ⟨List.prefix_refl _, hx⟩
        · rw [if_neg hw]; exact List.prefix_refl _
      | succ k =>
        unfold resolveNodeG
        by_cases hw : (R k).wasResolved s x = true
        · unfold Faithful; dsimp only; rw [if_pos hw]; exact ⟨List.prefix_refl _, hx⟩
        · have := Faithful.bind (good' := fun n' c' => Sited c' n') (hR k (by omega) (x, xsp) s c hx) (f := fun inc => BM.bind (BM.each (resolveNodeG R k) inc) fun inc' s c =>
              (.ok (.include sp (x, xsp) (some inc')), s, c)) fun inc s1 c1 h1 hi =>
            Faithful.bind (Faithful.each (fun n s c => Faithful.node k (fun j hj => hR j (by omega)) n s c) inc s1 c1 hi) fun inc' s2 c2 h2 hi' => by
              refine ⟨List.prefix_refl _, fun m hm => ?_⟩
              simp only [Node.subs, List.mem_cons, subsO] at hm
              rcases hm with rfl | hm
              · have := hn _ (Node.self_subs _)
                exact ⟨this.1.mono (h1.trans h2), fun y hy => (this.2 y hy).mono (h1.trans h2)⟩
              · obtain ⟨n, hn, hm⟩ := mem_subsL.1 hm
                exact hi' n hn m hm
          unfold Faithful at this ⊢
          dsimp only
          rw [if_neg hw]
          exact this
    | _ => cases k <;> (unfold Faithful resolveNodeG; exact ⟨List.prefix_refl _, hn⟩)

theorem Faithful.parseWith {R : Nat → Resolver S} {k : Nat} (hR : ∀ j, j < k → (R j).Honest float) (name : String) (src : List Char) (s : S) (c : Texts) :
    Faithful float (parseWithG float R k name src) s c fun ast c' => ∀ n ∈ ast, Sited c' n := by
  cases k with
  | zero => unfold parseWithG; exact List.prefix_refl _
  | succ k =>
    unfold parseWithG
    exact Faithful.bind (Faithful.addParse name src s c) fun ast s1 c1 _ h => Faithful.each (Faithful.node k fun j hj => hR j (by omega)) ast s1 c1 h

/-- The text itself is added first. -/
theorem parseWith_first {R : Nat → Resolver S} {k : Nat} (hR : ∀ j, j < k → (R j).Honest float) {name : String} {src : List Char} {s s' : S} {c c' : Texts}
    {r : BRes (List Node)} (h : parseWithG float R (k + 1) name src s c = (r, s', c')) : c ++ [(name, src)] <+: c' := by
  unfold parseWithG BM.bind at h
  have hs := Faithful.addParse (float := float) name src s c
  have hg := parseCode_good ⟨c.length, float⟩ src
  unfold Faithful at hs
  unfold addParseG at h hs
  cases hp : parseCode ⟨c.length, float⟩ src with
  | oof => rw [hp] at hg; exact hg.elim
  | fail => simp only [hp] at h; cases h; exact List.prefix_refl _
  | ok ast i =>
    simp only [hp] at h hs
    exact Faithful.grow (List.prefix_refl _) (Faithful.each (Faithful.node k hR) ast s _ hs.2) h

theorem honest_default (W : World) : ∀ k : Nat, (defaultResolver W k).Honest W.float
  | k => by
    intro x s c hx
    obtain ⟨x, xsp⟩ := x
    unfold defaultResolver
    dsimp only
    cases W.files x with
    | none => exact ⟨List.prefix_refl _, hx⟩
    | some src =>
      dsimp only
      rw [out_default]
      exact Faithful.bind (Faithful.parseWith (fun j hj => honest_default W j) x src s c) fun ast s1 c1 _ h => ⟨List.prefix_refl _, h⟩
termination_by k => k

theorem honest_shelf (files : String → Option (List Char)) (k : Nat) : (shelf float files k).Honest float := by
  intro x s c hx
  unfold shelf
  dsimp only
  cases hf : files x.1 with
  | none => exact ⟨List.prefix_refl _, hx⟩
  | some src => exact Faithful.addParse (float := float) x.1 src (x.1 :: s) c

end Quilt.Peg

namespace Quilt.Peg

variable {S : Type} {float : List Char → BitVec 64}

theorem BM.bind_ok {α β : Type} {x : BM S α} {f : α → BM S β} {s s' : S} {c c' : Texts} {b : β} :
    BM.bind x f s c = (.ok b, s', c') ↔ ∃ a s1 c1, x s c = (.ok a, s1, c1) ∧ f a s1 c1 = (.ok b, s', c') := by
  unfold BM.bind
  rcases h : x s c with ⟨r, s1, c1⟩
  cases r with
  | ok a => exact ⟨fun h => ⟨a, s1, c1, rfl, h⟩, by rintro ⟨_, _, _, h1, h2⟩; cases h1; exact h2⟩
  | _ => simp

/-! ## The name of the program -/

/-- The same sources, except that the first is named `n` and `m`. -/
inductive Renamed (n m : String) : Texts → Texts → Prop where
  | mk {T rest} : Renamed n m ((n, T) :: rest) ((m, T) :: rest)

theorem Renamed.length {n m : String} {c d : Texts} (h : Renamed n m c d) : c.length = d.length := by cases h; rfl

theorem Renamed.append {n m : String} {c d : Texts} (h : Renamed n m c d) (e : Texts) : Renamed n m (c ++ e) (d ++ e) := by cases h; exact .mk

/-- The computation does not look at the name of the first source. -/
def Blind {α : Type} (x : BM S α) : Prop :=
  ∀ n m s c d, Renamed n m c d → (x s c).1 = (x s d).1 ∧ (x s c).2.1 = (x s d).2.1 ∧ Renamed n m (x s c).2.2 (x s d).2.2

theorem Blind.pure {α : Type} (a : BRes α) : Blind (S := S) fun s c => (a, s, c) := fun _ _ _ _ _ h => ⟨rfl, rfl, h⟩

theorem Blind.bind {α β : Type} {x : BM S α} {f : α → BM S β} (hx : Blind x) (hf : ∀ a, Blind (f a)) : Blind (BM.bind x f) := by
  intro n1 n2 s c d h
  obtain ⟨h1, h2, h3⟩ := hx n1 n2 s c d h
  unfold BM.bind
  rcases hc : x s c with ⟨r, s1, c1⟩
  rcases hd : x s d with ⟨r', s1', d1⟩
  rw [hc, hd] at h1 h2 h3
  dsimp only at h1 h2 h3
  subst h1 h2
  cases r with
  | ok a => exact hf a n1 n2 s1 c1 d1 h3
  | err e => exact ⟨rfl, rfl, h3⟩
  | oof => exact ⟨rfl, rfl, h3⟩

theorem Blind.each {α β : Type} {f : α → BM S β} (hf : ∀ a, Blind (f a)) : ∀ as : List α, Blind (BM.each f as)
  | [] => .pure _
  | a :: as => by
    unfold BM.each
    exact .bind (hf a) fun b => .bind (Blind.each hf as) fun bs => .pure _

theorem Blind.addParse (name : String) (src : List Char) : Blind (S := S) (addParseG float name src) := by
  intro n1 n2 s c d h
  unfold addParseG
  rw [h.length]
  cases parseCode ⟨d.length, float⟩ src <;> exact ⟨rfl, rfl, h.append _⟩

theorem Blind.node {R : Nat → Resolver S} : ∀ (k : Nat), (∀ j, j < k → ∀ x, Blind ((R j).resolve x)) → ∀ n : Node, Blind (resolveNodeG R k n)
  | k, hR, n => by
    cases n with
    | «include» sp x b =>
      obtain ⟨x, xsp⟩ := x
      cases k with
      | zero =>
        intro n1 n2 s c d h
        unfold resolveNodeG
        by_cases hw : (R 0).wasResolved s x = true
        · simp only [if_pos hw]; exact ⟨trivial, trivial, h⟩
        · simp only [if_neg hw]; exact ⟨trivial, trivial, h⟩
      | succ k =>
        intro n1 n2 s c d h
        unfold resolveNodeG
        by_cases hw : (R k).wasResolved s x = true
        · simp only [if_pos hw]; exact ⟨trivial, trivial, h⟩
        · simp only [if_neg hw]
          exact Blind.bind (hR k (by omega) (x, xsp)) (fun inc => Blind.bind (Blind.each (Blind.node k fun j hj => hR j (by omega)) inc) fun inc' => .pure _) n1 n2 s c d h
    | _ => cases k <;> (unfold resolveNodeG; exact .pure _)

theorem Blind.parseWith {R : Nat → Resolver S} {k : Nat} (hR : ∀ j, j < k → ∀ x, Blind ((R j).resolve x)) (name : String) (src : List Char) :
    Blind (parseWithG float R k name src) := by
  cases k with
  | zero => unfold parseWithG; exact .pure _
  | succ k =>
    unfold parseWithG
    exact .bind (.addParse _ _) fun ast => .each (Blind.node k fun j hj => hR j (by omega)) ast

theorem blind_default (W : World) : ∀ (k : Nat) (x : Name), Blind ((defaultResolver W k).resolve x)
  | k, x => by
    unfold defaultResolver
    dsimp only
    cases W.files x.1 with
    | none => exact .pure _
    | some src =>
      dsimp only
      rw [out_default]
      exact .bind (.parseWith (fun j hj => blind_default W j) _ _) fun ast n1 n2 s c d h => ⟨rfl, rfl, h⟩
termination_by k => k

theorem blind_shelf (files : String → Option (List Char)) (k : Nat) (x : Name) : Blind ((shelf float files k).resolve x) := by
  unfold shelf
  dsimp only
  cases hf : files x.1 with
  | none => intro n1 n2 s c d h; exact ⟨rfl, rfl, h⟩
  | some src =>
    intro n1 n2 s c d h
    exact Blind.addParse x.1 src n1 n2 (x.1 :: s) c d h

/-- Two names for the same text. -/
theorem parseWith_renamed {R : Nat → Resolver S} {k : Nat} (hR : ∀ j, j < k → ∀ x, Blind ((R j).resolve x)) (n m : String) (src : List Char) (s : S) :
    (parseWithG float R (k + 1) n src s []).1 = (parseWithG float R (k + 1) m src s []).1 ∧
    Renamed n m (parseWithG float R (k + 1) n src s []).2.2 (parseWithG float R (k + 1) m src s []).2.2 := by
  simp only [parseWithG, BM.bind, addParseG]
  cases parseCode ⟨([] : Texts).length, float⟩ src with
  | oof => exact ⟨rfl, .mk⟩
  | fail => exact ⟨rfl, .mk⟩
  | ok ast i =>
    obtain ⟨h1, _, h3⟩ := Blind.each (Blind.node k hR) ast n m s [(n, src)] [(m, src)] .mk
    exact ⟨h1, h3⟩

/-! ## A shelf of texts -/

section shelf

variable {files : String → Option (List Char)}

/-- What a computation with a shelf does: the texts added are those of the shelf, under their names, which are marked. -/
def Shelved {α : Type} (files : String → Option (List Char)) (x : BM (List String) α) : Prop :=
  ∀ s c r s' c', x s c = (r, s', c') → ∃ new : Texts, c' = c ++ new ∧ s' = (new.map (·.1)).reverse ++ s ∧ (s.Nodup → s'.Nodup) ∧ ∀ p ∈ new, files p.1 = some p.2

theorem Shelved.pure {α : Type} (a : BRes α) : Shelved files fun s c => (a, s, c) := fun s c r s' c' h => by
  cases h; exact ⟨[], by simp⟩

theorem Shelved.bind {α β : Type} {x : BM (List String) α} {f : α → BM (List String) β} (hx : Shelved files x) (hf : ∀ a, Shelved files (f a)) : Shelved files (BM.bind x f) := by
  intro s c r s' c' h
  unfold BM.bind at h
  rcases hr : x s c with ⟨r1, s1, c1⟩
  obtain ⟨n1, rfl, rfl, h3, h4⟩ := hx s c r1 s1 c1 hr
  rw [hr] at h
  cases r1 with
  | err e => cases h; exact ⟨n1, rfl, rfl, h3, h4⟩
  | oof => cases h; exact ⟨n1, rfl, rfl, h3, h4⟩
  | ok a =>
    obtain ⟨n2, rfl, rfl, k3, k4⟩ := hf a _ _ r s' c' h
    refine ⟨n1 ++ n2, by simp, by simp, fun h => k3 (h3 h), fun p hp => ?_⟩
    rcases List.mem_append.1 hp with hp | hp
    · exact h4 p hp
    · exact k4 p hp

theorem Shelved.each {α β : Type} {f : α → BM (List String) β} (hf : ∀ a, Shelved files (f a)) : ∀ as : List α, Shelved files (BM.each f as)
  | [] => .pure _
  | a :: as => by
    unfold BM.each
    exact .bind (hf a) fun b => .bind (Shelved.each hf as) fun bs => .pure _

theorem Shelved.node : ∀ (k : Nat) (n : Node), Shelved files (resolveNodeG (shelf float files) k n)
  | k, n => by
    cases n with
    | «include» sp x b =>
      obtain ⟨x, xsp⟩ := x
      cases k with
      | zero =>
        intro s c r s' c' h
        unfold resolveNodeG at h
        split at h <;> (cases h; exact ⟨[], by simp⟩)
      | succ k =>
        intro s c r s' c' h
        unfold resolveNodeG at h
        by_cases hw : x ∈ s
        · rw [if_pos (by simpa [shelf] using hw)] at h; cases h; exact ⟨[], by simp⟩
        · rw [if_neg (by simpa [shelf] using hw)] at h
          unfold BM.bind at h
          cases hf : files x with
          | none => simp only [shelf, hf] at h; cases h; exact ⟨[], by simp⟩
          | some src =>
            have hg := parseCode_good ⟨c.length, float⟩ src
            have hnew : ∀ p ∈ [(x, src)], files p.1 = some p.2 := by simpa using hf
            simp only [shelf, hf, addParseG] at h
            cases hp : parseCode ⟨c.length, float⟩ src with
            | oof => rw [hp] at hg; exact hg.elim
            | fail =>
              simp only [hp] at h
              cases h
              exact ⟨[(x, src)], rfl, rfl, fun hs => List.nodup_cons.2 ⟨hw, hs⟩, hnew⟩
            | ok inc i =>
              simp only [hp] at h
              obtain ⟨new, rfl, rfl, h3, h4⟩ := (Shelved.bind (Shelved.each (Shelved.node k) inc) fun inc' => .pure _) _ _ r s' c' h
              refine ⟨(x, src) :: new, by simp, by simp, fun hs => h3 (List.nodup_cons.2 ⟨hw, hs⟩), fun p hp => ?_⟩
              rcases List.mem_cons.1 hp with rfl | hp
              · exact hf
              · exact h4 p hp
    | _ => cases k <;> (unfold resolveNodeG; exact .pure _)

/-- How many of the names are not marked yet. -/
def left (names s : List String) : Nat := (names.filter fun x => !decide (x ∈ s)).length

theorem left_le (names : List String) {s s' : List String} (h : s ⊆ s') : left names s' ≤ left names s := by
  unfold left
  induction names with
  | nil => simp
  | cons x xs ih =>
    simp only [List.filter_cons]
    by_cases h1 : x ∈ s
    · simp [h1, h h1]; exact ih
    · by_cases h2 : x ∈ s'
      · simp [h1, h2]; omega
      · simp [h1, h2]; exact ih

theorem left_lt {names s : List String} {x : String} (hx : x ∈ names) (hs : x ∉ s) : left names (x :: s) < left names s := by
  induction names with
  | nil => simp at hx
  | cons y ys ih =>
    have hle := left_le ys (s := s) (s' := x :: s) (by simp)
    unfold left at ih hle ⊢
    simp only [List.filter_cons]
    by_cases hy : y = x
    · subst hy; simp [hs] at hle ⊢; omega
    · have := ih ((List.mem_cons.1 hx).resolve_left fun h => hy h.symm)
      by_cases h1 : y ∈ s <;> simp [h1, hy] at this hle ⊢ <;> omega

theorem each_ends {f : Node → BM (List String) Node} {names : List String} {k : Nat} (hs : ∀ n, Shelved files (f n))
    (hf : ∀ n s c, left names s < k → (f n s c).1 ≠ .oof) : ∀ ns s c, left names s < k → (BM.each f ns s c).1 ≠ .oof
  | [], s, c, _ => by simp [BM.each]
  | n :: ns, s, c, h => by
    have h1 := hf n s c h
    unfold BM.each BM.bind
    rcases hr : f n s c with ⟨r, s1, c1⟩
    obtain ⟨new, _, rfl, _⟩ := hs n s c r s1 c1 hr
    rw [hr] at h1
    cases r with
    | oof => exact absurd rfl h1
    | err e => simp
    | ok a =>
      have h2 := each_ends hs hf ns ((new.map (·.1)).reverse ++ s) c1 (Nat.lt_of_le_of_lt (left_le names (by simp)) h)
      dsimp only
      rcases hr2 : BM.each f ns ((new.map (·.1)).reverse ++ s) c1 with ⟨r2, s2, c2⟩
      rw [hr2] at h2
      cases r2 with
      | oof => exact absurd rfl h2
      | _ => simp

theorem node_ends {names : List String} (hn : ∀ x, (files x).isSome → x ∈ names) : ∀ (k : Nat) (n : Node) (s : List String) (c : Texts), left names s < k →
    (resolveNodeG (shelf float files) k n s c).1 ≠ .oof
  | 0, _, _, _, h => absurd h (by omega)
  | k + 1, n, s, c, h => by
    cases n with
    | «include» sp x b =>
      obtain ⟨x, xsp⟩ := x
      unfold resolveNodeG
      by_cases hw : x ∈ s
      · rw [if_pos (by simpa [shelf] using hw)]; simp
      · rw [if_neg (by simpa [shelf] using hw)]
        cases hf : files x with
        | none => simp [shelf, hf, BM.bind]
        | some src =>
          have hg := parseCode_good ⟨c.length, float⟩ src
          unfold BM.bind
          simp only [shelf, hf, addParseG]
          cases hp : parseCode ⟨c.length, float⟩ src with
          | oof => rw [hp] at hg; exact hg.elim
          | fail => simp
          | ok inc i =>
            have hx := hn x (by simp [hf])
            have hlt := left_lt hx hw
            have := each_ends (names := names) (Shelved.node (float := float) k) (node_ends hn k) inc (x :: s) (c ++ [(x, src)]) (by omega)
            dsimp only
            rcases hr : BM.each (resolveNodeG (shelf float files) k) inc (x :: s) (c ++ [(x, src)]) with ⟨r, s1, c1⟩
            rw [hr] at this
            cases r with
            | oof => exact absurd rfl this
            | _ => simp
    | _ => unfold resolveNodeG; simp

end shelf

/-! ## The bound on the depth -/

/-- `y` gives what `x` gives, where that ends. -/
def Below {α : Type} (x y : BM S α) : Prop := ∀ s c, (x s c).1 ≠ .oof → y s c = x s c

theorem Below.refl {α : Type} (x : BM S α) : Below x x := fun _ _ _ => rfl

theorem Below.bind {α β : Type} {x y : BM S α} {f g : α → BM S β} (h : Below x y) (hf : ∀ a, Below (f a) (g a)) : Below (BM.bind x f) (BM.bind y g) := by
  intro s c hs
  have h1 := h s c
  unfold BM.bind at hs ⊢
  rcases hr : x s c with ⟨r, s1, c1⟩
  rw [hr] at hs h1
  cases r with
  | oof => exact absurd rfl hs
  | err e => rw [h1 (by simp)]
  | ok a => rw [h1 (by simp)]; exact hf a s1 c1 hs

theorem Below.each {α β : Type} {f g : α → BM S β} (h : ∀ a, Below (f a) (g a)) : ∀ as : List α, Below (BM.each f as) (BM.each g as)
  | [] => .refl _
  | a :: as => by
    unfold BM.each
    exact .bind (h a) fun b => .bind (Below.each h as) fun bs => .refl _

theorem Below.node {R : Resolver S} : ∀ (k : Nat) (n : Node), Below (resolveNodeG (fun _ => R) k n) (resolveNodeG (fun _ => R) (k + 1) n)
  | k, n => by
    cases n with
    | «include» sp x b =>
      obtain ⟨x, xsp⟩ := x
      intro s c h
      cases k with
      | zero =>
        unfold resolveNodeG at h ⊢
        by_cases hw : R.wasResolved s x = true
        · simp [hw]
        · simp [hw] at h
      | succ k =>
        unfold resolveNodeG at h ⊢
        by_cases hw : R.wasResolved s x = true
        · simp [hw]
        · simp only [hw, Bool.false_eq_true, ↓reduceIte] at h ⊢
          exact Below.bind (.refl _) (fun inc => .bind (Below.each (Below.node k) inc) fun inc' => .refl _) s c h
    | _ => cases k <;> (unfold resolveNodeG; exact .refl _)

theorem Below.parseWith {R : Resolver S} (k : Nat) (name : String) (src : List Char) :
    Below (parseWithG float (fun _ => R) k name src) (parseWithG float (fun _ => R) (k + 1) name src) := by
  cases k with
  | zero => intro s c h; simp [parseWithG] at h
  | succ k => unfold parseWithG; exact .bind (.refl _) fun ast => .each (Below.node k) ast

end Quilt.Peg
