import Verif.Parser.Includes

/-!
# When including succeeds
-/

namespace Quilt.Peg

/-- The name of an include. -/
def inclName : Node → Option String
  | .include _ x _ => some x.1
  | _ => none

/-- The names included, in order. -/
def inclNames (ast : List Node) : List String := ast.filterMap inclName

/-- `Spliced W id ast ast'`: `ast'` is `ast` where each include contains the statements of its file, the first file
parsed as source number `id`, the next one as `id + 1` and so on; the files include nothing further. -/
inductive Spliced (W : World) : Nat → List Node → List Node → Prop where
  | nil {id} : Spliced W id [] []
  | other {id n ns ns'} (hn : inclName n = none) (h : Spliced W id ns ns') : Spliced W id (n :: ns) (n :: ns')
  | file {id sp x xsp b src inc j ns ns'} (hf : W.files x = some src) (hp : parseCode ⟨id, W.float⟩ src = .ok inc j) (hi : inclNames inc = [])
    (h : Spliced W (id + 1) ns ns') : Spliced W id (.include sp (x, xsp) b :: ns) (.include sp (x, xsp) (some inc) :: ns')

variable {W : World}

theorem IM.bind_ok {α β : Type} {x : IM α} {f : α → IM β} {c c' : Cache} {b : β} :
    IM.bind x f c = (.ok b, c') ↔ ∃ a c1, x c = (.ok a, c1) ∧ f a c1 = (.ok b, c') := by
  unfold IM.bind
  cases h : x c with
  | mk r c1 =>
    cases r with
    | ok a => exact ⟨fun h => ⟨a, c1, rfl, h⟩, by rintro ⟨_, _, h1, h2⟩; cases h1; exact h2⟩
    | _ => simp

theorem resolveNode_other {k : Nat} {n : Node} (h : inclName n = none) : resolveNode W k n = fun c => (.ok n, c) := by
  cases n <;> first | (simp [inclName] at h; done) | (cases k <;> (unfold resolveNode; rfl))

/-- Without includes nothing happens. -/
theorem each_other {k : Nat} : ∀ {ast : List Node} {c : Cache}, inclNames ast = [] → IM.each (resolveNode W k) ast c = (.ok ast, c)
  | [], c, _ => rfl
  | n :: ns, c, h => by
    cases hn : inclName n with
    | some x => simp [inclNames, hn] at h
    | none =>
      rw [inclNames, List.filterMap_cons_none hn] at h
      unfold IM.each
      exact IM.bind_ok.2 ⟨n, c, by rw [resolveNode_other hn], IM.bind_ok.2 ⟨ns, c, each_other h, rfl⟩⟩

theorem each_mono {k : Nat} (hr : ∀ n c r c', resolveNode W k n c = (r, c') → c.resolved ⊆ c'.resolved) :
    ∀ (ast : List Node) (c : Cache) r c', IM.each (resolveNode W k) ast c = (r, c') → c.resolved ⊆ c'.resolved
  | [], c, r, c', h => by cases h; exact fun _ h => h
  | n :: ns, c, r, c', h => by
    unfold IM.each IM.bind at h
    cases hn : resolveNode W k n c with
    | mk r1 c1 =>
      have h1 := hr n c r1 c1 hn
      rw [hn] at h
      cases r1 with
      | err e => cases h; exact h1
      | oof => cases h; exact h1
      | ok m =>
        simp only at h
        cases he : IM.each (resolveNode W k) ns c1 with
        | mk r2 c2 =>
          have h2 := each_mono hr ns c1 r2 c2 he
          rw [he] at h
          cases r2 <;> cases h <;> exact fun x hx => h2 (h1 hx)

mutual
theorem pwi_mono : ∀ (k : Nat) (name : String) (src : List Char) (c : Cache) r c', parseWithIncludes W k name src c = (r, c') → c.resolved ⊆ c'.resolved
  | 0, _, _, c, r, c', h => by unfold parseWithIncludes at h; cases h; exact fun _ h => h
  | k + 1, name, src, c, r, c', h => by
    unfold parseWithIncludes IM.bind at h
    have ha : ∀ r c1, addParse W name src c = (r, c1) → c1.resolved = c.resolved := by
      intro r c1 ha
      unfold addParse at ha
      simp only at ha
      split at ha <;> cases ha <;> rfl
    cases hp : addParse W name src c with
    | mk r1 c1 =>
      have h1 := ha r1 c1 hp
      rw [hp] at h
      cases r1 with
      | err e => cases h; rw [h1]; exact fun _ h => h
      | oof => cases h; rw [h1]; exact fun _ h => h
      | ok ast => rw [← h1]; exact each_mono (node_mono k) ast c1 r c' h
termination_by structural k => k
theorem node_mono : ∀ (k : Nat) (n : Node) (c : Cache) r c', resolveNode W k n c = (r, c') → c.resolved ⊆ c'.resolved
  | k, n, c, r, c', h => by
    cases hn : inclName n with
    | none => rw [resolveNode_other hn] at h; cases h; exact fun _ h => h
    | some y =>
      cases n <;> first | (simp [inclName] at hn; done) | skip
      rename_i sp x b
      obtain ⟨x, xsp⟩ := x
      match k with
      | 0 =>
        unfold resolveNode at h
        split at h <;> cases h <;> exact fun _ h => h
      | k + 1 =>
        unfold resolveNode at h
        split at h
        · cases h; exact fun _ h => h
        · split at h
          · cases h; exact fun _ h => h
          · rename_i src _
            unfold IM.bind at h
            cases hp : parseWithIncludes W k x src c with
            | mk r1 c1 =>
              have h1 := pwi_mono k x src c r1 c1 hp
              rw [hp] at h
              cases r1 with
              | err e => cases h; exact h1
              | oof => cases h; exact h1
              | ok inc =>
                simp only at h
                cases he : IM.each (resolveNode W k) inc { c1 with resolved := x :: c1.resolved } with
                | mk r2 c2 =>
                  have h2 := each_mono (node_mono k) inc _ r2 c2 he
                  rw [he] at h
                  cases r2 <;> cases h <;> exact fun x hx => h2 (List.mem_cons_of_mem _ (h1 hx))
termination_by structural k => k
end

/-- An include that was resolved before is an error. -/
theorem each_resolved {k : Nat} : ∀ {ast : List Node} {c c' : Cache} {ast' : List Node}, IM.each (resolveNode W k) ast c = (.ok ast', c') →
    ∀ x ∈ inclNames ast, x ∉ c.resolved
  | [], _, _, _, _ => by simp [inclNames]
  | n :: ns, c, c', ast', h => by
    unfold IM.each at h
    obtain ⟨m, c1, h1, h2⟩ := IM.bind_ok.1 h
    obtain ⟨ms, c2, h3, _⟩ := IM.bind_ok.1 h2
    have ih := each_resolved h3
    intro x hx hc
    simp only [inclNames, List.mem_filterMap, List.mem_cons] at hx
    obtain ⟨n', hn' | hn', hx⟩ := hx
    · subst hn'
      cases n' <;> first | (simp [inclName] at hx; done) | skip
      rename_i sp y b
      obtain ⟨y, ysp⟩ := y
      simp only [inclName, Option.some.injEq] at hx
      subst hx
      cases k <;> (unfold resolveNode at h1; rw [if_pos hc] at h1; cases h1)
    · exact ih x (List.mem_filterMap.2 ⟨n', hn', hx⟩) (node_mono k n c _ c1 h1 hc)

/-- The included names are resolved afterwards and stay. -/
theorem each_names {k : Nat} : ∀ {ast : List Node} {c c' : Cache} {ast' : List Node}, IM.each (resolveNode W k) ast c = (.ok ast', c') →
    inclNames ast' = inclNames ast ∧ ∀ x ∈ inclNames ast, x ∈ c'.resolved
  | [], _, _, _, h => by cases h; simp [inclNames]
  | n :: ns, c, c', ast', h => by
    unfold IM.each at h
    obtain ⟨m, c1, h1, h2⟩ := IM.bind_ok.1 h
    obtain ⟨ms, c2, h3, h4⟩ := IM.bind_ok.1 h2
    cases h4
    obtain ⟨i1, i2⟩ := each_names h3
    have key : inclName m = inclName n ∧ ∀ x, inclName n = some x → x ∈ c1.resolved := by
      cases hn : inclName n with
      | none => rw [resolveNode_other hn] at h1; cases h1; simp [hn]
      | some y =>
        cases n <;> first | (simp [inclName] at hn; done) | skip
        rename_i sp x b
        obtain ⟨x, xsp⟩ := x
        simp only [inclName, Option.some.injEq] at hn
        subst hn
        cases k with
        | zero => unfold resolveNode at h1; split at h1 <;> cases h1
        | succ k =>
          unfold resolveNode at h1
          split at h1
          · cases h1
          · split at h1
            · cases h1
            · obtain ⟨inc, c3, h5, h6⟩ := IM.bind_ok.1 h1
              obtain ⟨_, c4, h7, h8⟩ := IM.bind_ok.1 h6
              cases h7
              obtain ⟨inc', c5, h9, h10⟩ := IM.bind_ok.1 h8
              cases h10
              exact ⟨rfl, by intro x hx; cases hx; exact each_mono (node_mono k) _ _ _ _ h9 (by simp)⟩
    refine ⟨?_, ?_⟩
    · simp only [inclNames] at i1 ⊢
      simp only [List.filterMap_cons, key.1, i1]
    · intro x hx
      simp only [inclNames, List.mem_filterMap, List.mem_cons] at hx
      obtain ⟨n', hn' | hn', hx⟩ := hx
      · subst hn'
        exact each_mono (node_mono k) _ _ _ _ h3 (key.2 x hx)
      · exact i2 x (List.mem_filterMap.2 ⟨n', hn', hx⟩)

theorem addParse_ok {name : String} {src : List Char} {c c' : Cache} {ast : List Node} : addParse W name src c = (.ok ast, c') ↔
    (∃ j, parseCode ⟨c.sources.length, W.float⟩ src = .ok ast j) ∧ c' = { c with sources := c.sources ++ [(name, src)] } := by
  unfold addParse
  simp only
  cases h : parseCode ⟨c.sources.length, W.float⟩ src <;> simp [eq_comm]

/-- Success of including. -/
theorem each_spliced {k : Nat} : ∀ {ast : List Node} {c c' : Cache} {ast' : List Node}, IM.each (resolveNode W k) ast c = (.ok ast', c') →
    Spliced W c.sources.length ast ast' ∧ (inclNames ast).Nodup
  | [], _, _, _, h => by cases h; exact ⟨.nil, List.nodup_nil⟩
  | n :: ns, c, c', ast', h => by
    have h0 := h
    unfold IM.each at h
    obtain ⟨m, c1, h1, h2⟩ := IM.bind_ok.1 h
    obtain ⟨ms, c2, h3, h4⟩ := IM.bind_ok.1 h2
    cases h4
    have ih := each_spliced h3
    cases hn : inclName n with
    | none =>
      rw [resolveNode_other hn] at h1
      cases h1
      exact ⟨.other hn ih.1, by simp only [inclNames, List.filterMap_cons_none hn]; exact ih.2⟩
    | some y =>
      cases n <;> first | (simp [inclName] at hn; done) | skip
      rename_i sp x b
      obtain ⟨x, xsp⟩ := x
      simp only [inclName, Option.some.injEq] at hn
      subst hn
      cases k with
      | zero => unfold resolveNode at h1; split at h1 <;> cases h1
      | succ k =>
        unfold resolveNode at h1
        split at h1
        · cases h1
        · split at h1
          · cases h1
          · rename_i src hf
            obtain ⟨inc, c3, h5, h6⟩ := IM.bind_ok.1 h1
            obtain ⟨_, c4, h7, h8⟩ := IM.bind_ok.1 h6
            cases h7
            obtain ⟨inc', c5, h9, h10⟩ := IM.bind_ok.1 h8
            cases h10
            cases k with
            | zero => unfold parseWithIncludes at h5; cases h5
            | succ k =>
              unfold parseWithIncludes at h5
              obtain ⟨ast0, c6, h11, h12⟩ := IM.bind_ok.1 h5
              obtain ⟨⟨j, hj⟩, rfl⟩ := addParse_ok.1 h11
              obtain ⟨e1, e2⟩ := each_names h12
              have e3 := each_resolved h9
              rw [e1] at e3
              have e4 : inclNames ast0 = [] := by
                cases hz : inclNames ast0 with
                | nil => rfl
                | cons z zs =>
                  have : z ∈ inclNames ast0 := by rw [hz]; simp
                  exact absurd (List.mem_cons_of_mem _ (e2 z this)) (e3 z this)
              rw [each_other e4] at h12
              cases h12
              rw [each_other e4] at h9
              cases h9
              refine ⟨.file hf hj e4 (by simpa using ih.1), ?_⟩
              simp only [inclNames, List.filterMap_cons, inclName]
              refine List.nodup_cons.2 ⟨fun hx => ?_, ih.2⟩
              exact each_resolved h3 x hx (by simp)

theorem Spliced.each {k : Nat} {ast ast' : List Node} : ∀ {c : Cache}, Spliced W c.sources.length ast ast' → (inclNames ast).Nodup →
    (∀ x ∈ inclNames ast, x ∉ c.resolved) → ∃ c', IM.each (resolveNode W (k + 2)) ast c = (.ok ast', c') ∧ ∀ y, y ∈ c'.resolved ↔ y ∈ inclNames ast ∨ y ∈ c.resolved := by
  suffices h : ∀ id, Spliced W id ast ast' → ∀ c : Cache, id = c.sources.length → (inclNames ast).Nodup →
      (∀ x ∈ inclNames ast, x ∉ c.resolved) → ∃ c', IM.each (resolveNode W (k + 2)) ast c = (.ok ast', c') ∧ ∀ y, y ∈ c'.resolved ↔ y ∈ inclNames ast ∨ y ∈ c.resolved from
    fun {c} h1 h2 h3 => h _ h1 c rfl h2 h3
  intro id h
  induction h with
  | nil => exact fun c _ _ _ => ⟨c, rfl, by simp [inclNames]⟩
  | other hn _ ih =>
    intro c hid h1 h2
    simp only [inclNames, List.filterMap_cons_none hn] at h1 h2
    obtain ⟨c', hc, hr⟩ := ih c hid h1 h2
    exact ⟨c', IM.bind_ok.2 ⟨_, c, by rw [resolveNode_other hn], IM.bind_ok.2 ⟨_, c', hc, rfl⟩⟩, by simpa [inclNames, List.filterMap_cons_none hn] using hr⟩
  | @file id sp x xsp b src inc j ns ns' hf hp hi _ ih =>
    intro c hid h1 h2
    simp only [inclNames, List.filterMap_cons, inclName] at h1 h2
    obtain ⟨h3, h4⟩ := List.nodup_cons.1 h1
    have hx : x ∉ c.resolved := h2 x (by simp)
    obtain ⟨c', hc, hr⟩ := ih ⟨c.sources ++ [(x, src)], x :: c.resolved⟩ (by simp [hid]) h4 (by
      intro y hy
      simp only [List.mem_cons, not_or]
      exact ⟨fun e => h3 (by subst e; exact hy), h2 y (List.mem_cons_of_mem _ hy)⟩)
    refine ⟨c', IM.bind_ok.2 ⟨_, ⟨c.sources ++ [(x, src)], x :: c.resolved⟩, ?_, IM.bind_ok.2 ⟨_, c', hc, rfl⟩⟩, fun y => by
      rw [hr y]
      simp only [inclNames, List.filterMap_cons, inclName, List.mem_cons]
      exact ⟨fun h => h.elim (fun h => .inl (.inr h)) fun h => h.elim (fun h => .inl (.inl h)) .inr,
        fun h => h.elim (fun h => h.elim (fun h => .inr (.inl h)) .inl) fun h => .inr (.inr h)⟩⟩
    unfold resolveNode
    rw [if_neg hx, hf]
    refine IM.bind_ok.2 ⟨inc, ⟨c.sources ++ [(x, src)], c.resolved⟩, ?_, IM.bind_ok.2 ⟨(), _, rfl, IM.bind_ok.2 ⟨inc, _, each_other hi, rfl⟩⟩⟩
    unfold parseWithIncludes
    exact IM.bind_ok.2 ⟨inc, _, addParse_ok.2 ⟨⟨j, by rw [← hid]; exact hp⟩, rfl⟩, each_other hi⟩

/-- After a success the rest is processed; the first error is reported. -/
theorem each_err {k : Nat} {n : Node} {post : List Node} {e : IErr} {c1 c2 : Cache} : ∀ {pre pre' : List Node} {c : Cache},
    IM.each (resolveNode W k) pre c = (.ok pre', c1) → resolveNode W k n c1 = (.err e, c2) → IM.each (resolveNode W k) (pre ++ n :: post) c = (.err e, c2)
  | [], _, c, h, hn => by
    cases h
    show IM.each _ (n :: post) c1 = _
    unfold IM.each IM.bind
    rw [hn]
  | m :: ms, _, c, h, hn => by
    unfold IM.each at h
    obtain ⟨m', c', h1, h2⟩ := IM.bind_ok.1 h
    obtain ⟨ms', c'', h3, h4⟩ := IM.bind_ok.1 h2
    cases h4
    show IM.each _ (m :: (ms ++ n :: post)) c = _
    unfold IM.each IM.bind
    rw [h1]
    simp only
    rw [each_err h3 hn]

/-- Every included file was read and includes nothing. -/
theorem Spliced.file_of_mem {id : Nat} {ast ast' : List Node} {x : String} {src : List Char} (h : Spliced W id ast ast') :
    x ∈ inclNames ast → W.files x = some src → ∃ id inc j, parseCode ⟨id, W.float⟩ src = .ok inc j ∧ inclNames inc = [] := by
  induction h with
  | nil => simp [inclNames]
  | other hn _ ih => simpa [inclNames, List.filterMap_cons_none hn] using ih
  | @file id sp y ysp b src' inc j ns ns' hf hp hi _ ih =>
    intro hx hs
    simp only [inclNames, List.filterMap_cons, inclName, List.mem_cons] at hx
    rcases hx with rfl | hx
    · rw [hf] at hs; cases hs; exact ⟨id, inc, j, hp, hi⟩
    · exact ih hx hs

end Quilt.Peg
