import Verif.Compiler.Blame
import Verif.Compiler.Accept
import Verif.Compiler.NoPanic
import Verif.Compiler.Spans

/-!
# Complaints about external names declared twice are true; accepted programs have no place at fault
-/

namespace Quilt

/-! ## External names among the places of a program -/

mutual
theorem inner_top : ∀ (n : Node), ∀ p ∈ n.parts false, p.top = false
  | .lit .., p, h | .ident .., p, h => by simp [Node.parts] at h
  | .assign _ _ e, p, h | .un _ _ e, p, h | .decl _ _ e, p, h | .extern _ _ e, p, h => by
    simp only [Node.parts, List.mem_cons] at h
    rcases h with rfl | h
    · rfl
    · exact inner_top e p h
  | .pair _ a b, p, h | .range _ a b, p, h | .bin _ _ a b, p, h | .index _ a b, p, h => by
    simp only [Node.parts, List.mem_append, List.mem_cons] at h
    rcases h with (rfl | h) | (rfl | h)
    · rfl
    · exact inner_top a p h
    · rfl
    · exact inner_top b p h
  | .array _ es, p, h => by unfold Node.parts at h; exact innerL_top true es p h
  | .block _ es, p, h => by unfold Node.parts at h; exact innerL_top false es p h
  | .cond _ c th el, p, h => by
    simp only [Node.parts, List.mem_append, List.mem_cons] at h
    rcases h with (rfl | h) | (h | h)
    · rfl
    · exact inner_top c p h
    · exact innerL_top false th p h
    · exact innerO_top el p h
  | .switch _ v cs d, p, h => by
    simp only [Node.parts, List.mem_append, List.mem_cons] at h
    rcases h with (rfl | h) | (h | h)
    · rfl
    · exact inner_top v p h
    · exact innerC_top cs p h
    · exact innerO_top d p h
  | .while _ c b, p, h | .forIn _ _ c b, p, h | .forMulti _ _ c b, p, h => by
    simp only [Node.parts, List.mem_append, List.mem_cons] at h
    rcases h with (rfl | h) | h
    · rfl
    · exact inner_top c p h
    · exact innerL_top false b p h
  | .lambda _ _ b, p, h | .func _ _ _ b, p, h => by unfold Node.parts at h; exact innerL_top false b p h
  | .call _ f args, p, h => by
    simp only [Node.parts, List.mem_append, List.mem_cons] at h
    rcases h with (rfl | h) | h
    · rfl
    · exact inner_top f p h
    · exact innerL_top true args p h
  | .builtin _ _ args, p, h => by unfold Node.parts at h; exact innerL_top true args p h
  | .ctx _ _ args _ b, p, h => by
    simp only [Node.parts, List.mem_append] at h
    rcases h with h | h
    · exact innerL_top true args p h
    · exact innerL_top false b p h
  | .include _ _ b, p, h => by unfold Node.parts at h; exact innerO_top b p h
  | .ret _ e, p, h => by unfold Node.parts at h; exact innerE_top e p h
termination_by structural n => n
theorem innerL_top (e : Bool) : ∀ (ns : List Node), ∀ p ∈ innerL e false ns, p.top = false
  | [], p, h => by simp [innerL] at h
  | n :: ns, p, h => by
    simp only [innerL, List.mem_append, List.mem_cons] at h
    rcases h with (rfl | h) | h
    · rfl
    · exact inner_top n p h
    · exact innerL_top e ns p h
termination_by structural n => n
theorem innerC_top : ∀ (cs : List (Node × List Node)), ∀ p ∈ innerC cs, p.top = false
  | [], p, h => by simp [innerC] at h
  | (c, b) :: cs, p, h => by
    simp only [innerC, List.mem_append, List.mem_cons] at h
    rcases h with (rfl | h) | (h | h)
    · rfl
    · exact inner_top c p h
    · exact innerL_top false b p h
    · exact innerC_top cs p h
termination_by structural n => n
theorem innerO_top : ∀ (b : Option (List Node)), ∀ p ∈ innerO false b, p.top = false
  | some b, p, h => by unfold innerO at h; exact innerL_top false b p h
  | none, p, h => by simp [innerO] at h
termination_by structural n => n
theorem innerE_top : ∀ (e : Option Node), ∀ p ∈ innerE e, p.top = false
  | some e, p, h => by
    simp only [innerE, List.mem_cons] at h
    rcases h with rfl | h
    · rfl
    · exact inner_top e p h
  | none, p, h => by simp [innerE] at h
termination_by structural n => n
end

/-- Only the places inside an include depend on where it is. -/
theorem inner_same {n : Node} (t : Bool) (h : ∀ sp x b, n ≠ .include sp x b) : n.parts t = n.parts false := by
  cases n with
  | «include» sp x b => exact absurd rfl (h sp x b)
  | _ => simp only [Node.parts]

theorem externNames_low {ps : List Place} (h : ∀ p ∈ ps, p.top = false) : externNames ps = [] := by
  unfold externNames
  rw [List.filterMap_eq_nil_iff]
  intro p hp
  have := h p hp
  split
  · simp at this
  · rfl

theorem externNames_append (ps qs : List Place) : externNames (ps ++ qs) = externNames ps ++ externNames qs := by
  unfold externNames; exact List.filterMap_append ..

/-- The external names a top-level statement declares. -/
def Node.sites (n : Node) : List Name := externNames (⟨n, false, true⟩ :: n.parts true)

theorem sites_none {n : Node} (h : n.noExterns = true) : n.sites = [] := by
  unfold Node.sites
  rw [inner_same true (by rintro sp x b rfl; simp [Node.noExterns] at h)]
  have := externNames_low (inner_top n)
  unfold externNames at this ⊢
  rw [List.filterMap_cons]
  split
  · exact this
  · rename_i h'
    split at h'
    · rename_i he; cases he; simp [Node.noExterns] at h
    · cases h'

theorem sites_extern (sp : Span) (x : Name) (e : Node) : (Node.extern sp x e).sites = [x] := by
  unfold Node.sites
  rw [inner_same true (by rintro _ _ _ ⟨⟩)]
  have := externNames_low (inner_top (.extern sp x e))
  unfold externNames at this ⊢
  rw [List.filterMap_cons, this]

theorem sites_include (sp : Span) (x : Name) (b : Option (List Node)) : (Node.include sp x b).sites = externNames (innerO true b) := by
  unfold Node.sites externNames
  rw [List.filterMap_cons]
  simp only [Node.parts]

theorem names_cons (n : Node) (ns : List Node) : externNames (innerL false true (n :: ns)) = n.sites ++ externNames (innerL false true ns) := by
  rw [innerL, externNames_append]; rfl

mutual
theorem externs_sites : ∀ n : Node, n.externs = n.sites.map Prod.fst
  | .extern sp x e => by rw [sites_extern]; unfold Node.externs; rfl
  | .include sp x b => by rw [sites_include]; unfold Node.externs; exact externsO_sites b
  | .lit .. | .ident .. | .assign .. | .un .. | .bin .. | .pair .. | .range .. | .index .. | .array .. | .block .. | .call .. | .builtin .. | .ctx ..
  | .cond .. | .switch .. | .while .. | .forIn .. | .forMulti .. | .lambda .. | .func .. | .decl .. | .ret .. => by
    rw [sites_none rfl]; unfold Node.externs; rfl
termination_by structural n => n
theorem externsL_sites : ∀ ns : List Node, externsL ns = (externNames (innerL false true ns)).map Prod.fst
  | [] => by simp [externsL, innerL, externNames]
  | n :: ns => by rw [names_cons, List.map_append, ← externs_sites n, ← externsL_sites ns, externsL]
termination_by structural n => n
theorem externsO_sites : ∀ b : Option (List Node), externsO b = (externNames (innerO true b)).map Prod.fst
  | some b => by unfold externsO innerO; exact externsL_sites b
  | none => by simp [externsO, innerO, externNames]
termination_by structural n => n
end

/-! ## Complaints about redefinition -/

theorem Pool.id_inj {p : Pool String} (h : p.Inv) (hl : p.entries.length ≤ 65536) {x y : String} {i : Nat} (hx : p.id? x = some i) (hy : p.id? y = some i) : x = y := by
  obtain ⟨a, h1, h2⟩ := (h.look x i).1 hx
  obtain ⟨b, h3, h4⟩ := (h.look y i).1 hy
  have ha := (List.getElem?_eq_some_iff.1 h1).1
  have hb := (List.getElem?_eq_some_iff.1 h3).1
  have : a = b := by
    unfold Pool.fromUsize at h2 h4
    omega
  subst this
  rw [h1] at h3
  exact Option.some.inj h3

/-- A state at top level in which the external names are all among `X`; its tables have at most `m` entries. -/
structure TopSt (m : Nat) (X : List String) (g : GState) : Prop where
  inv : GInv g
  depth : g.cur.depth = 0
  small : GSmall m g
  known : ∀ i ∈ g.externals, ∃ x ∈ X, g.globals.id? x = some i

/-- The generator makes the names `Y` external; it complains about one of them only if it was external already. -/
def GXE {α : Type} (x : GM α) (w : Nat) (Y : List Name) : Prop :=
  ∀ g m X, TopSt m X g → m + w ≤ 65535 →
    (∀ a c g', x g = .ok (a, c, g') → TopSt (m + w) (X ++ Y.map Prod.fst) g') ∧
    ∀ y sp, x g = .err (.name (.externalRedefined y)) sp → ∃ pre post, Y = pre ++ (y, sp) :: post ∧ y ∈ X ++ pre.map Prod.fst

theorem GXE.bind {α β : Type} {x : GM α} {f : α → GM β} {w w' W : Nat} {Y Z V : List Name} (h : GXE x w Y) (hf : ∀ a, GXE (f a) w' Z) (hw : W = w + w') (hV : V = Y ++ Z) :
    GXE (x >>= f) W V := by
  subst hw hV
  intro g m X hg hm
  obtain ⟨h1, h2⟩ := h g m X hg (by omega)
  constructor
  · intro b c g' hx
    obtain ⟨a, c1, g1, c2, k1, k2, _⟩ := GM.bind_ok.1 hx
    have := (hf a g1 _ _ (h1 a c1 g1 k1) (by omega)).1 b c2 g' k2
    rwa [List.map_append, ← List.append_assoc, ← Nat.add_assoc]
  · intro y sp hx
    rcases GM.bind_err hx with k1 | ⟨a, c1, g1, k1, k2⟩
    · obtain ⟨pre, post, e1, e2⟩ := h2 y sp k1
      exact ⟨pre, post ++ Z, by simp [e1], e2⟩
    · obtain ⟨pre, post, e1, e2⟩ := (hf a g1 _ _ (h1 a c1 g1 k1) (by omega)).2 y sp k2
      exact ⟨Y ++ pre, post, by simp [e1], by rw [List.map_append, ← List.append_assoc]; exact e2⟩

theorem GXE.pure {α : Type} {a : α} : GXE (Pure.pure a : GM α) 0 [] := by
  intro g m X hg _
  refine ⟨fun b c g' hx => ?_, fun y sp hx => by simp at hx⟩
  obtain ⟨_, _, rfl⟩ := GM.pure_ok.1 hx
  simpa using hg

theorem Fault.not_redefined {p : Place} {y : String} {sp : Span} (h : Fault p (.name (.externalRedefined y)) sp) : False := nomatch h

/-- Expressions and statements other than `extern` and `include` declare no external names. -/
theorem GXE.quiet (cfg : Cfg) (n : Node) (m : Mode) (h : m = .expr ∨ n.noExterns = true) : GXE (genNode cfg false m n) n.size [] := by
  intro g w X hg hw
  constructor
  · intro a c g' hx
    have h1 := ext_node cfg false n m hg.inv hx
    have h2 := gd_node cfg n m 0 g hg.depth
    have h3 := fit_node cfg false n m w g hg.small hw
    rw [hx] at h2 h3
    have h4 := (cost_node cfg n m 0 (E := True) (fun _ => h.imp_right .inr) g a c g' hg.depth hx).ext trivial
    refine ⟨h1.1.2, h2.1.1, h3.2.2, ?_⟩
    rw [h4]
    intro i hi
    obtain ⟨x, hx, hi⟩ := hg.known i hi
    exact ⟨x, by simpa using hx, h2.1.2.ids x i hi⟩
  · intro y sp hx
    exfalso
    cases m with
    | expr =>
      rcases ge_node (L := ⟨n, true, false⟩ :: n.parts false) cfg n .expr 0 false (fun h => nomatch h) (by simp [Mode.isExpr]) (fun p hp => by simp [hp]) g hg.inv hg.depth _ _ hx with ⟨p, _, hf⟩ | ⟨sp', x, e, _, hm⟩
      · exact hf.not_redefined
      · rcases List.mem_cons.1 hm with he | hm
        · cases he
        · have := inner_top n _ hm
          simp at this
    | stmt b =>
      have h : n.noExterns = true := by simpa using h
      rcases ge_node (L := ⟨n, false, true⟩ :: n.parts true) cfg n (.stmt b) 0 true (fun _ => rfl) (by simp [Mode.isExpr]) (fun p hp => by simp [hp]) g hg.inv hg.depth _ _ hx with ⟨p, _, hf⟩ | ⟨sp', x, e, _, hm⟩
      · exact hf.not_redefined
      · rcases List.mem_cons.1 hm with he | hm
        · cases he; simp [Node.noExterns] at h
        · rw [inner_same true (by rintro sp x b rfl; simp [Node.noExterns] at h)] at hm
          have := inner_top n _ hm
          simp at this

theorem GXE.externTail (x : String) (xsp : Span) : GXE (do
    if !(← GM.isGlobal) then GM.throw (.name (.externalNotGlobal x)) xsp
    else
      let i ← GM.onG' fun g => g.addGlobal x
      let g ← GM.getG
      if i ∈ g.externals then GM.throw (.name (.externalRedefined x)) xsp
      else
        GM.onG fun g => { g with externals := i :: g.externals }
        GM.emit1 (.defineGlobalDefaulted i) xsp) 1 [(x, xsp)] := by
  intro g m X hg hm
  constructor
  · intro a c g' hx
    have hs := Fit.externTail x xsp m g hg.small hm
    rw [hx] at hs
    simp only [GM.bind_ok, GM.isGlobal_ok] at hx
    obtain ⟨_, _, g0, _, ⟨rfl, _, e0⟩, hx, _⟩ := hx
    subst e0
    simp only [hg.depth, decide_true, Bool.not_true, Bool.false_eq_true, if_false, GM.bind_ok, GM.onG'_ok, GM.getG_ok, GM.ite_throw_ok, GM.onG_ok, GM.emit1_ok] at hx
    obtain ⟨i, _, g1', _, ⟨_, h1⟩, ⟨_, _, g1, _, ⟨rfl, _, e3⟩, ⟨hi, _, _, _, _, ⟨_, rfl⟩, ⟨_, rfl⟩, _⟩, _⟩, _⟩ := hx
    subst e3
    have e1 : i = (g0.globals.add x).1 := (congrArg Prod.fst h1).symm
    have e2 : g1 = { g0 with globals := (g0.globals.add x).2 } := (congrArg Prod.snd h1).symm
    subst e2
    refine ⟨⟨hg.inv.chain, hg.inv.cur, hg.inv.encl, Pool.inv_add hg.inv.globals x⟩, hg.depth, hs.2.2, ?_⟩
    intro j hj
    rcases List.mem_cons.1 hj with rfl | hj
    · exact ⟨x, by simp, by rw [e1]; exact Pool.id_add_self x⟩
    · obtain ⟨y, h2, h3⟩ := hg.known j hj
      exact ⟨y, by simp [h2], Pool.id_add h3⟩
  · intro y sp hx
    rcases GM.bind_err hx with h | ⟨b, _, g1, h1, hx⟩
    · simp [GM.isGlobal] at h
    obtain ⟨rfl, _, rfl⟩ := GM.isGlobal_ok.1 h1
    simp only [hg.depth, decide_true, Bool.not_true, Bool.false_eq_true, if_false] at hx
    rcases GM.bind_err hx with h | ⟨i, _, g2, h2, hx⟩
    · simp [GM.onG'] at h
    obtain ⟨_, h2⟩ := GM.onG'_ok.1 h2
    have e1 : i = (g1.globals.add x).1 := (congrArg Prod.fst h2).symm
    have e2 : g2 = { g1 with globals := (g1.globals.add x).2 } := (congrArg Prod.snd h2).symm
    rcases GM.bind_err hx with h | ⟨g3, _, g4, h3, hx4⟩
    · simp [GM.getG] at h
    obtain ⟨rfl, _, rfl⟩ := GM.getG_ok.1 h3
    clear hx
    have hx := hx4
    clear hx4
    split at hx
    · rename_i hi
      simp only [GM.throw, GRes.err.injEq, Err.name.injEq, NameErr.externalRedefined.injEq] at hx
      obtain ⟨rfl, rfl⟩ := hx
      refine ⟨[], [], rfl, ?_⟩
      rw [e2] at hi
      obtain ⟨z, h4, h5⟩ := hg.known i hi
      have h6 := Pool.id_add (y := x) h5
      have h7 := Pool.id_add_self (p := g1.globals) x
      rw [← e1] at h7
      have hl := (Pool.add_small hg.inv.globals x hg.small.globals).2
      have := Pool.id_inj (Pool.inv_add hg.inv.globals x) (by omega) h6 h7
      simpa [this] using h4
    · rcases GM.bind_err hx with h | ⟨_, _, _, _, hx⟩
      · simp [GM.onG] at h
      · simp [GM.emit1, GM.emit] at hx

theorem GXE.gstmtIn {m : Mode} {sp : Span} {act : GM Unit} {w : Nat} {Y : List Name} (h : GXE act w Y) : GXE (Quilt.gstmtIn m sp act) w Y := by
  cases m with
  | expr =>
    intro g m X hg _
    exact ⟨fun a c g' hx => by simp [Quilt.gstmtIn, GM.throw] at hx, fun y sp hx => by simp [Quilt.gstmtIn, GM.throw] at hx⟩
  | stmt => exact h

theorem GXE.wk {α : Type} {x : GM α} {w w' : Nat} {Y : List Name} (h : GXE x w Y) (hw : w ≤ w') : GXE x w' Y := by
  intro g m X hg hm
  obtain ⟨h1, h2⟩ := h g m X hg (by omega)
  exact ⟨fun a c g' hx => have k := h1 a c g' hx; ⟨k.inv, k.depth, k.small.mono (by omega), k.known⟩, h2⟩

mutual
theorem gxe_node (cfg : Cfg) : ∀ (n : Node) (m : Mode), GXE (genNode cfg false m n) n.size n.sites
  | .extern sp (x, xsp) e, m => by
    rw [sites_extern]
    unfold genNode
    exact (GXE.gstmtIn (GXE.bind (GXE.quiet cfg e .expr (.inl rfl)) (fun _ => GXE.externTail x xsp) rfl rfl)).wk (by simp only [Node.size]; omega)
  | .include sp (x, xsp) body, m => by
    rw [sites_include]
    unfold genNode
    refine (GXE.gstmtIn (w := sizeO body) ?_).wk (by simp only [Node.size]; omega)
    intro g m X hg hm
    have h := gxe_incl cfg x xsp body g m X hg hm
    rw [GM.bind_app]
    simp only [GM.getG, hg.depth, gt_iff_lt, Nat.lt_irrefl, if_false]
    revert h
    generalize genIncl cfg false x xsp body = y
    cases hy : y g with
    | ok r => obtain ⟨u, c, g'⟩ := r; intro h; refine ⟨fun a c' g'' hx => ?_, fun y sp hx => by simp at hx⟩
              simp only [GRes.ok.injEq, Prod.mk.injEq] at hx
              obtain ⟨_, _, rfl⟩ := hx
              exact h.1 _ _ _ rfl
    | err e sp => intro h; exact ⟨fun a c' g'' hx => by simp at hx, fun y sp hx => h.2 y sp hx⟩
    | panic => intro h; exact ⟨fun a c' g'' hx => by simp at hx, fun y sp hx => by simp at hx⟩
    | unfit => intro h; exact ⟨fun a c' g'' hx => by simp at hx, fun y sp hx => by simp at hx⟩
  | .lit .., m | .ident .., m | .assign .., m | .un .., m | .bin .., m | .pair .., m | .range .., m | .index .., m | .array .., m | .block .., m | .call .., m
  | .builtin .., m | .ctx .., m | .cond .., m | .switch .., m | .while .., m | .forIn .., m | .forMulti .., m | .lambda .., m | .func .., m | .decl .., m | .ret .., m => by
    rw [sites_none rfl]; exact GXE.quiet cfg _ m (.inr rfl)
termination_by structural n => n
theorem gxe_stmts (cfg : Cfg) : ∀ ns : List Node, GXE (genStmts cfg false ns) (sizeL ns) (externNames (innerL false true ns))
  | [] => by unfold genStmts; simp only [sizeL, innerL]; exact GXE.pure
  | [n] => by
    unfold genStmts
    rw [names_cons]
    exact GXE.bind (gxe_node cfg n _) (fun _ => GXE.pure) (by simp [sizeL]) (by simp [innerL, externNames])
  | n :: n' :: ns => by
    unfold genStmts
    rw [names_cons]
    exact GXE.bind (gxe_node cfg n _) (fun _ => gxe_stmts cfg (n' :: ns)) (by rw [sizeL]) rfl
termination_by structural n => n
theorem gxe_each (cfg : Cfg) : ∀ ns : List Node, GXE (genEach cfg false ns) (sizeL ns) (externNames (innerL false true ns))
  | [] => by unfold genEach; simp only [sizeL, innerL]; exact GXE.pure
  | n :: ns => by
    unfold genEach
    rw [names_cons]
    exact GXE.bind (gxe_node cfg n _) (fun _ => gxe_each cfg ns) (by rw [sizeL]) rfl
termination_by structural n => n
theorem gxe_incl (cfg : Cfg) (x : String) (xsp : Span) : ∀ b : Option (List Node), GXE (genIncl cfg false x xsp b) (sizeO b) (externNames (innerO true b))
  | some b => by unfold genIncl innerO sizeO; exact gxe_each cfg b
  | none => by
    unfold genIncl
    intro g m X hg _
    exact ⟨fun a c g' hx => by simp [GM.throw] at hx, fun y sp hx => by simp [GM.throw] at hx⟩
termination_by structural n => n
end

/-! ## Accepted programs have no place at fault -/

/-- The only fault a place may have is its size, which is at most `s`. -/
def Place.Clean (s : Nat) (p : Place) : Prop := (∀ e sp, Fault p e sp → e = .overflow .jumpTooLarge) ∧ p.node.size ≤ s

theorem Place.Clean.mono {s s' : Nat} {p : Place} (h : p.Clean s) (hs : s ≤ s') : p.Clean s' := ⟨h.1, Nat.le_trans h.2 hs⟩

theorem clean_own {n : Node} {top e t : Bool} (h : n.within top = true) (he : e = true → n.isStatement = false) (ht : e = false → t = top) :
    Place.Clean n.size ⟨n, e, t⟩ := by
  refine ⟨fun er sp hf => ?_, Nat.le_refl _⟩
  cases hf with
  | statement h' => rw [he rfl] at h'; cases h'
  | ret => have := ht rfl; subst this; simp [Node.within] at h
  | extern => have := ht rfl; subst this; simp [Node.within] at h
  | inner => have := ht rfl; subst this; simp [Node.within] at h
  | unresolved => simp [Node.within, withinI] at h
  | jump => rfl
  | @count _ _ _ c hc hl =>
    exfalso
    cases n with
    | array | call | builtin | lambda | func | forMulti =>
      simp only [Node.counts, List.mem_singleton] at hc
      subst hc
      simp only [Node.within, Bool.and_eq_true, decide_eq_true_eq] at h
      simp only at hl
      omega
    | ctx sp x args v b =>
      simp only [Node.within, Bool.and_eq_true, decide_eq_true_eq] at h
      simp only [Node.counts, List.mem_cons] at hc
      rcases hc with rfl | hc
      · simp only at hl; omega
      · cases v with
        | none => simp at hc
        | some v =>
          cases v with
          | one => simp at hc
          | many xs =>
            simp only [List.mem_singleton] at hc
            subst hc
            simp only [Var.within, decide_eq_true_eq] at h
            simp only at hl
            omega
    | decl sp v b =>
      cases v with
      | one => simp [Node.counts] at hc
      | many xs =>
        simp only [Node.counts, List.mem_singleton] at hc
        subst hc
        simp only [Node.within, Var.within, Bool.and_eq_true, decide_eq_true_eq] at h
        simp only at hl
        omega
    | _ => simp [Node.counts] at hc

/-- A node used as an expression. -/
theorem clean_expr (n : Node) (hi : ∀ (top t : Bool), n.within top = true → (n.noExterns = false → t = top) → ∀ p ∈ n.parts t, p.Clean n.size)
    (top : Bool) (hw : (!n.isStatement && n.within top) = true) (p : Place) (h : p ∈ (⟨n, true, false⟩ : Place) :: n.parts false) : p.Clean n.size := by
  simp only [Bool.and_eq_true, Bool.not_eq_eq_eq_not, Bool.not_true] at hw
  rcases List.mem_cons.1 h with rfl | h
  · exact clean_own hw.2 (fun _ => hw.1) fun h => nomatch h
  · refine hi top false hw.2 (fun h => ?_) p h
    cases n <;> simp_all [Node.noExterns, Node.isStatement]

mutual
theorem clean_inner : ∀ (n : Node) (top t : Bool), n.within top = true → (n.noExterns = false → t = top) → ∀ p ∈ n.parts t, p.Clean n.size
  | .lit .., _, _, _, _, p, h | .ident .., _, _, _, _, p, h => by simp [Node.parts] at h
  | .assign _ _ e, top, t, hw, ht, p, h | .un _ _ e, top, t, hw, ht, p, h => by
    simp only [Node.within] at hw
    simp only [Node.parts] at h
    exact (clean_expr e (clean_inner e) top hw p h).mono (by simp only [Node.size]; omega)
  | .decl _ _ e, top, t, hw, ht, p, h => by
    simp only [Node.within] at hw
    rw [Bool.and_eq_true] at hw
    simp only [Node.parts] at h
    exact (clean_expr e (clean_inner e) top hw.1 p h).mono (by simp only [Node.size]; omega)
  | .extern _ _ e, top, t, hw, ht, p, h => by
    simp only [Node.within] at hw
    rw [Bool.and_eq_true] at hw
    simp only [Node.parts] at h
    exact (clean_expr e (clean_inner e) top hw.2 p h).mono (by simp only [Node.size]; omega)
  | .pair _ a b, top, t, hw, ht, p, h | .range _ a b, top, t, hw, ht, p, h | .bin _ _ a b, top, t, hw, ht, p, h | .index _ a b, top, t, hw, ht, p, h => by
    simp only [Node.within] at hw
    rw [Bool.and_eq_true] at hw
    simp only [Node.parts] at h
    rcases List.mem_append.1 h with h | h
    · exact (clean_expr a (clean_inner a) top hw.1 p h).mono (by simp only [Node.size]; omega)
    · exact (clean_expr b (clean_inner b) top hw.2 p h).mono (by simp only [Node.size]; omega)
  | .array _ es, top, t, hw, ht, p, h => by
    simp only [Node.within] at hw
    rw [Bool.and_eq_true] at hw
    simp only [Node.parts] at h
    exact (clean_args es top hw.2 p h).mono (by simp only [Node.size]; omega)
  | .block _ b, top, t, hw, ht, p, h => by
    simp only [Node.within] at hw
    simp only [Node.parts] at h
    exact (clean_list b false hw p h).mono (by simp only [Node.size]; omega)
  | .cond _ c th el, top, t, hw, ht, p, h => by
    simp only [Node.within] at hw
    rw [Bool.and_eq_true, Bool.and_eq_true] at hw
    simp only [Node.parts] at h
    rcases List.mem_append.1 h with h | h
    · exact (clean_expr c (clean_inner c) top hw.1.1 p h).mono (by simp only [Node.size]; omega)
    rcases List.mem_append.1 h with h | h
    · exact (clean_list th false hw.1.2 p h).mono (by simp only [Node.size]; omega)
    · exact (clean_opt el false hw.2 p h).mono (by simp only [Node.size]; omega)
  | .switch _ v cs d, top, t, hw, ht, p, h => by
    simp only [Node.within] at hw
    rw [Bool.and_eq_true, Bool.and_eq_true] at hw
    simp only [Node.parts] at h
    rcases List.mem_append.1 h with h | h
    · exact (clean_expr v (clean_inner v) top hw.1.1 p h).mono (by simp only [Node.size]; omega)
    rcases List.mem_append.1 h with h | h
    · exact (clean_cases cs top hw.1.2 p h).mono (by simp only [Node.size]; omega)
    · exact (clean_opt d false hw.2 p h).mono (by simp only [Node.size]; omega)
  | .while _ c b, top, t, hw, ht, p, h => by
    simp only [Node.within] at hw
    rw [Bool.and_eq_true] at hw
    simp only [Node.parts] at h
    rcases List.mem_append.1 h with h | h
    · exact (clean_expr c (clean_inner c) top hw.1 p h).mono (by simp only [Node.size]; omega)
    · exact (clean_list b false hw.2 p h).mono (by simp only [Node.size]; omega)
  | .forIn _ _ c b, top, t, hw, ht, p, h => by
    simp only [Node.within] at hw
    rw [Bool.and_eq_true] at hw
    simp only [Node.parts] at h
    rcases List.mem_append.1 h with h | h
    · exact (clean_expr c (clean_inner c) false hw.1 p h).mono (by simp only [Node.size]; omega)
    · exact (clean_list b false hw.2 p h).mono (by simp only [Node.size]; omega)
  | .forMulti _ _ c b, top, t, hw, ht, p, h => by
    simp only [Node.within] at hw
    rw [Bool.and_eq_true, Bool.and_eq_true] at hw
    simp only [Node.parts] at h
    rcases List.mem_append.1 h with h | h
    · exact (clean_expr c (clean_inner c) false hw.1.2 p h).mono (by simp only [Node.size]; omega)
    · exact (clean_list b false hw.2 p h).mono (by simp only [Node.size]; omega)
  | .lambda _ _ b, top, t, hw, ht, p, h | .func _ _ _ b, top, t, hw, ht, p, h => by
    simp only [Node.within] at hw
    rw [Bool.and_eq_true] at hw
    simp only [Node.parts] at h
    exact (clean_list b false hw.2 p h).mono (by simp only [Node.size]; omega)
  | .call _ f args, top, t, hw, ht, p, h => by
    simp only [Node.within] at hw
    rw [Bool.and_eq_true, Bool.and_eq_true] at hw
    simp only [Node.parts] at h
    rcases List.mem_append.1 h with h | h
    · exact (clean_expr f (clean_inner f) top hw.1.2 p h).mono (by simp only [Node.size]; omega)
    · exact (clean_args args top hw.2 p h).mono (by simp only [Node.size]; omega)
  | .builtin _ _ args, top, t, hw, ht, p, h => by
    simp only [Node.within] at hw
    rw [Bool.and_eq_true] at hw
    simp only [Node.parts] at h
    exact (clean_args args top hw.2 p h).mono (by simp only [Node.size]; omega)
  | .ctx _ _ args _ b, top, t, hw, ht, p, h => by
    simp only [Node.within] at hw
    rw [Bool.and_eq_true, Bool.and_eq_true, Bool.and_eq_true] at hw
    simp only [Node.parts] at h
    rcases List.mem_append.1 h with h | h
    · exact (clean_args args top hw.1.1.2 p h).mono (by simp only [Node.size]; omega)
    · exact (clean_list b false hw.2 p h).mono (by simp only [Node.size]; omega)
  | .include _ _ b, top, t, hw, ht, p, h => by
    simp only [Node.within] at hw
    rw [Bool.and_eq_true] at hw
    simp only [Node.parts] at h
    have := ht rfl
    subst this
    exact (clean_incl b t hw.2 p h).mono (by simp only [Node.size]; omega)
  | .ret _ e, top, t, hw, ht, p, h => by
    simp only [Node.within] at hw
    rw [Bool.and_eq_true] at hw
    simp only [Node.parts] at h
    exact (clean_ret e top hw.2 p h).mono (by simp only [Node.size]; omega)
termination_by structural n => n
theorem clean_list : ∀ (ns : List Node) (top : Bool), withinL top ns = true → ∀ p ∈ innerL false top ns, p.Clean (sizeL ns)
  | [], top, hw, p, h => by simp [innerL] at h
  | n :: ns, top, hw, p, h => by
    simp only [withinL] at hw
    rw [Bool.and_eq_true] at hw
    simp only [innerL] at h
    rcases List.mem_append.1 h with h | h
    · rcases List.mem_cons.1 h with rfl | h
      · exact (clean_own hw.1 (fun h => by cases h) fun _ => rfl).mono (by simp only [sizeL]; omega)
      · exact (clean_inner n top top hw.1 (fun _ => rfl) p h).mono (by simp only [sizeL]; omega)
    · exact (clean_list ns top hw.2 p h).mono (by simp only [sizeL]; omega)
termination_by structural n => n
theorem clean_args : ∀ (ns : List Node) (top : Bool), withinA top ns = true → ∀ p ∈ innerL true false ns, p.Clean (sizeL ns)
  | [], top, hw, p, h => by simp [innerL] at h
  | n :: ns, top, hw, p, h => by
    simp only [withinA] at hw
    rw [Bool.and_eq_true] at hw
    simp only [innerL] at h
    rcases List.mem_append.1 h with h | h
    · exact (clean_expr n (clean_inner n) top hw.1 p h).mono (by simp only [sizeL]; omega)
    · exact (clean_args ns top hw.2 p h).mono (by simp only [sizeL]; omega)
termination_by structural n => n
theorem clean_cases : ∀ (cs : List (Node × List Node)) (top : Bool), withinC top cs = true → ∀ p ∈ innerC cs, p.Clean (sizeC cs)
  | [], top, hw, p, h => by simp [innerC] at h
  | (c, b) :: cs, top, hw, p, h => by
    simp only [withinC] at hw
    rw [Bool.and_eq_true, Bool.and_eq_true] at hw
    simp only [innerC] at h
    rcases List.mem_append.1 h with h | h
    · exact (clean_expr c (clean_inner c) top hw.1.1 p h).mono (by simp only [sizeC]; omega)
    rcases List.mem_append.1 h with h | h
    · exact (clean_list b false hw.1.2 p h).mono (by simp only [sizeC]; omega)
    · exact (clean_cases cs top hw.2 p h).mono (by simp only [sizeC]; omega)
termination_by structural n => n
theorem clean_opt : ∀ (b : Option (List Node)) (top : Bool), withinO top b = true → ∀ p ∈ innerO top b, p.Clean (sizeO b)
  | some b, top, hw, p, h => by unfold withinO at hw; unfold innerO at h; exact (clean_list b top hw p h).mono (by simp only [sizeO]; omega)
  | none, top, hw, p, h => by simp [innerO] at h
termination_by structural n => n
theorem clean_incl : ∀ (b : Option (List Node)) (top : Bool), withinI top b = true → ∀ p ∈ innerO top b, p.Clean (sizeO b)
  | some b, top, hw, p, h => by unfold withinI at hw; unfold innerO at h; exact (clean_list b top hw p h).mono (by simp only [sizeO]; omega)
  | none, top, hw, p, h => by simp [innerO] at h
termination_by structural n => n
theorem clean_ret : ∀ (e : Option Node) (top : Bool), withinE top e = true → ∀ p ∈ innerE e, p.Clean (sizeE e)
  | some e, top, hw, p, h => by unfold withinE at hw; unfold innerE at h; exact (clean_expr e (clean_inner e) top hw p h).mono (by simp only [sizeE]; omega)
  | none, top, hw, p, h => by simp [innerE] at h
termination_by structural n => n
end

theorem counts_jump {n : Node} {c : Nat × OverflowErr × Span} (h : c ∈ n.counts) : c.2.1 ≠ .jumpTooLarge := by
  cases n with
  | decl sp v => cases v <;> simp [Node.counts] at h; subst h; simp
  | ctx sp x args v b =>
    simp only [Node.counts, List.mem_cons] at h
    rcases h with rfl | h
    · simp
    · split at h
      · simp only [List.mem_singleton] at h; subst h; simp
      · simp at h
  | _ => simp [Node.counts] at h <;> subst h <;> simp

theorem Fault.large {p : Place} {e : Err} {sp : Span} (h : Fault p e sp) (he : e = .overflow .jumpTooLarge) : 8191 < p.node.size := by
  cases h with
  | jump _ h => exact h
  | count hc _ => simp only [Err.overflow.injEq] at he; exact absurd he (counts_jump hc)
  | _ => cases he

/-! ## Positions -/

mutual
theorem inner_subs : ∀ (n : Node) (t : Bool), ∀ p ∈ n.parts t, p.node ∈ n.subs
  | .lit .., _, p, h | .ident .., _, p, h => by simp [Node.parts] at h
  | .assign _ _ e, t, p, h | .un _ _ e, t, p, h | .decl _ _ e, t, p, h | .extern _ _ e, t, p, h => by
    simp only [Node.parts, List.mem_cons] at h
    rw [Node.subs]
    rcases h with rfl | h
    · exact List.mem_cons_of_mem _ (Node.self_subs e)
    · exact List.mem_cons_of_mem _ (inner_subs e _ p h)
  | .pair _ a b, t, p, h | .range _ a b, t, p, h | .bin _ _ a b, t, p, h | .index _ a b, t, p, h => by
    simp only [Node.parts, List.mem_append, List.mem_cons] at h
    simp only [Node.subs, List.mem_append, List.mem_cons]
    rcases h with (rfl | h) | (rfl | h)
    · exact .inr (.inl (Node.self_subs a))
    · exact .inr (.inl (inner_subs a _ p h))
    · exact .inr (.inr (Node.self_subs b))
    · exact .inr (.inr (inner_subs b _ p h))
  | .array _ es, t, p, h => by unfold Node.parts at h; rw [Node.subs]; exact List.mem_cons_of_mem _ (innerL_subs _ _ es p h)
  | .block _ es, t, p, h => by unfold Node.parts at h; rw [Node.subs]; exact List.mem_cons_of_mem _ (innerL_subs _ _ es p h)
  | .cond _ c th el, t, p, h => by
    simp only [Node.parts, List.mem_append, List.mem_cons] at h
    simp only [Node.subs, List.mem_append, List.mem_cons]
    rcases h with (rfl | h) | (h | h)
    · exact .inr (.inl (.inl (Node.self_subs c)))
    · exact .inr (.inl (.inl (inner_subs c _ p h)))
    · exact .inr (.inl (.inr (innerL_subs _ _ th p h)))
    · exact .inr (.inr (innerO_subs _ el p h))
  | .switch _ v cs d, t, p, h => by
    simp only [Node.parts, List.mem_append, List.mem_cons] at h
    simp only [Node.subs, List.mem_append, List.mem_cons]
    rcases h with (rfl | h) | (h | h)
    · exact .inr (.inl (.inl (Node.self_subs v)))
    · exact .inr (.inl (.inl (inner_subs v _ p h)))
    · exact .inr (.inl (.inr (innerC_subs cs p h)))
    · exact .inr (.inr (innerO_subs _ d p h))
  | .while _ c b, t, p, h | .forIn _ _ c b, t, p, h | .forMulti _ _ c b, t, p, h => by
    simp only [Node.parts, List.mem_append, List.mem_cons] at h
    simp only [Node.subs, List.mem_append, List.mem_cons]
    rcases h with (rfl | h) | h
    · exact .inr (.inl (Node.self_subs c))
    · exact .inr (.inl (inner_subs c _ p h))
    · exact .inr (.inr (innerL_subs _ _ b p h))
  | .lambda _ _ b, t, p, h | .func _ _ _ b, t, p, h => by unfold Node.parts at h; rw [Node.subs]; exact List.mem_cons_of_mem _ (innerL_subs _ _ b p h)
  | .call _ f args, t, p, h => by
    simp only [Node.parts, List.mem_append, List.mem_cons] at h
    simp only [Node.subs, List.mem_append, List.mem_cons]
    rcases h with (rfl | h) | h
    · exact .inr (.inl (Node.self_subs f))
    · exact .inr (.inl (inner_subs f _ p h))
    · exact .inr (.inr (innerL_subs _ _ args p h))
  | .builtin _ _ args, t, p, h => by unfold Node.parts at h; rw [Node.subs]; exact List.mem_cons_of_mem _ (innerL_subs _ _ args p h)
  | .ctx _ _ args _ b, t, p, h => by
    simp only [Node.parts, List.mem_append] at h
    simp only [Node.subs, List.mem_append, List.mem_cons]
    rcases h with h | h
    · exact .inr (.inl (innerL_subs _ _ args p h))
    · exact .inr (.inr (innerL_subs _ _ b p h))
  | .include _ _ b, t, p, h => by unfold Node.parts at h; rw [Node.subs]; exact List.mem_cons_of_mem _ (innerO_subs _ b p h)
  | .ret _ e, t, p, h => by unfold Node.parts at h; rw [Node.subs]; exact List.mem_cons_of_mem _ (innerE_subs e p h)
termination_by structural n => n
theorem innerL_subs (e t : Bool) : ∀ (ns : List Node), ∀ p ∈ innerL e t ns, p.node ∈ subsL ns
  | [], p, h => by simp [innerL] at h
  | n :: ns, p, h => by
    simp only [innerL, List.mem_append, List.mem_cons] at h
    rw [subsL, List.mem_append]
    rcases h with (rfl | h) | h
    · exact .inl (Node.self_subs n)
    · exact .inl (inner_subs n _ p h)
    · exact .inr (innerL_subs e t ns p h)
termination_by structural n => n
theorem innerC_subs : ∀ (cs : List (Node × List Node)), ∀ p ∈ innerC cs, p.node ∈ subsC cs
  | [], p, h => by simp [innerC] at h
  | (c, b) :: cs, p, h => by
    simp only [innerC, List.mem_append, List.mem_cons] at h
    simp only [subsC, List.mem_append]
    rcases h with (rfl | h) | (h | h)
    · exact .inl (.inl (Node.self_subs c))
    · exact .inl (.inl (inner_subs c _ p h))
    · exact .inl (.inr (innerL_subs _ _ b p h))
    · exact .inr (innerC_subs cs p h)
termination_by structural n => n
theorem innerO_subs (t : Bool) : ∀ (b : Option (List Node)), ∀ p ∈ innerO t b, p.node ∈ subsO b
  | some b, p, h => by unfold innerO at h; unfold subsO; exact innerL_subs _ _ b p h
  | none, p, h => by simp [innerO] at h
termination_by structural n => n
theorem innerE_subs : ∀ (e : Option Node), ∀ p ∈ innerE e, p.node ∈ subsE e
  | some e, p, h => by
    simp only [innerE, List.mem_cons] at h
    unfold subsE
    rcases h with rfl | h
    · exact Node.self_subs e
    · exact inner_subs e _ p h
  | none, p, h => by simp [innerE] at h
termination_by structural n => n
end

theorem counts_span {n : Node} {c : Nat × OverflowErr × Span} (h : c ∈ n.counts) : c.2.2 = n.span ∨ ∃ x ∈ n.names, x.2 = c.2.2 := by
  cases n with
  | decl sp v => cases v <;> simp [Node.counts] at h; subst h; exact .inl rfl
  | ctx sp x args v b =>
    simp only [Node.counts, List.mem_cons] at h
    rcases h with rfl | h
    · exact .inl rfl
    · split at h
      · simp only [List.mem_singleton] at h; subst h; exact .inr ⟨x, by simp [Node.names], rfl⟩
      · simp at h
  | _ => simp [Node.counts] at h <;> subst h <;> exact .inl rfl

theorem case_mem {c : Node × List Node} : ∀ {cs : List (Node × List Node)}, c ∈ cs → c.1 ∈ subsC cs
  | (a, b) :: cs, h => by
    simp only [subsC, List.mem_append]
    rcases List.mem_cons.1 h with rfl | h
    · exact .inl (.inl (Node.self_subs _))
    · exact .inr (case_mem h)

theorem jump_span {n : Node} {sp : Span} (h : sp ∈ n.jumpSpans) : (∃ m ∈ n.subs, m.span = sp) ∨ ∃ x ∈ n.names, x.2 = sp := by
  cases n with
  | cond | forMulti => simp only [Node.jumpSpans, List.mem_singleton] at h; exact .inl ⟨_, Node.self_subs _, h.symm⟩
  | switch sp' v cs d =>
    simp only [Node.jumpSpans, List.mem_cons, List.mem_map] at h
    rcases h with rfl | ⟨c, hc, rfl⟩
    · exact .inl ⟨_, Node.self_subs _, rfl⟩
    · exact .inl ⟨c.1, by simp only [Node.subs, List.mem_append, List.mem_cons]; exact .inr (.inl (.inr (case_mem hc))), rfl⟩
  | «while» sp' c b =>
    simp only [Node.jumpSpans, List.mem_singleton] at h
    exact .inl ⟨c, by simp only [Node.subs, List.mem_append, List.mem_cons]; exact .inr (.inl (Node.self_subs c)), h.symm⟩
  | forIn sp' x it b =>
    simp only [Node.jumpSpans, List.mem_singleton] at h
    exact .inr ⟨x, by simp [Node.names], h.symm⟩
  | _ => simp [Node.jumpSpans] at h

/-- A fault is reported at a node or a name of the place. -/
theorem Fault.at {p : Place} {e : Err} {sp : Span} (h : Fault p e sp) : (∃ m ∈ p.node.subs, m.span = sp) ∨ ∃ x ∈ p.node.names, x.2 = sp := by
  cases h with
  | statement => exact .inl ⟨_, Node.self_subs _, rfl⟩
  | ret => exact .inl ⟨_, Node.self_subs _, rfl⟩
  | extern => exact .inr ⟨_, by simp [Node.names], rfl⟩
  | inner => exact .inr ⟨_, by simp [Node.names], rfl⟩
  | unresolved => exact .inr ⟨_, by simp [Node.names], rfl⟩
  | count h =>
    rcases counts_span h with h | h
    · exact .inl ⟨_, Node.self_subs _, h.symm⟩
    · exact .inr h
  | jump h => exact jump_span h

mutual
theorem subs_trans {a b : Node} (hb : b ∈ a.subs) : ∀ n : Node, a ∈ n.subs → b ∈ n.subs
  | .ret _ e, h => by
    simp only [Node.subs, List.mem_append, List.mem_cons] at h ⊢
    rcases h with rfl | h
    · simpa only [Node.subs, List.mem_append, List.mem_cons] using hb
    · exact .inr (subsE_trans hb e h)
  | .func _ _ _ c, h => by
    simp only [Node.subs, List.mem_append, List.mem_cons] at h ⊢
    rcases h with rfl | h
    · simpa only [Node.subs, List.mem_append, List.mem_cons] using hb
    · exact .inr (subsL_trans hb c h)
  | .decl _ _ e, h => by
    simp only [Node.subs, List.mem_append, List.mem_cons] at h ⊢
    rcases h with rfl | h
    · simpa only [Node.subs, List.mem_append, List.mem_cons] using hb
    · exact .inr (subs_trans hb e h)
  | .extern _ _ e, h => by
    simp only [Node.subs, List.mem_append, List.mem_cons] at h ⊢
    rcases h with rfl | h
    · simpa only [Node.subs, List.mem_append, List.mem_cons] using hb
    · exact .inr (subs_trans hb e h)
  | .include _ _ c, h => by
    simp only [Node.subs, List.mem_append, List.mem_cons] at h ⊢
    rcases h with rfl | h
    · simpa only [Node.subs, List.mem_append, List.mem_cons] using hb
    · exact .inr (subsO_trans hb c h)
  | .lit .., h => by
    simp only [Node.subs, List.mem_singleton] at h; subst h; exact hb
  | .pair _ x y, h => by
    simp only [Node.subs, List.mem_append, List.mem_cons] at h ⊢
    rcases h with rfl | h | h
    · simpa only [Node.subs, List.mem_append, List.mem_cons] using hb
    · exact .inr (.inl (subs_trans hb x h))
    · exact .inr (.inr (subs_trans hb y h))
  | .array _ es, h => by
    simp only [Node.subs, List.mem_append, List.mem_cons] at h ⊢
    rcases h with rfl | h
    · simpa only [Node.subs, List.mem_append, List.mem_cons] using hb
    · exact .inr (subsL_trans hb es h)
  | .range _ x y, h => by
    simp only [Node.subs, List.mem_append, List.mem_cons] at h ⊢
    rcases h with rfl | h | h
    · simpa only [Node.subs, List.mem_append, List.mem_cons] using hb
    · exact .inr (.inl (subs_trans hb x h))
    · exact .inr (.inr (subs_trans hb y h))
  | .ident .., h => by
    simp only [Node.subs, List.mem_singleton] at h; subst h; exact hb
  | .block _ c, h => by
    simp only [Node.subs, List.mem_append, List.mem_cons] at h ⊢
    rcases h with rfl | h
    · simpa only [Node.subs, List.mem_append, List.mem_cons] using hb
    · exact .inr (subsL_trans hb c h)
  | .assign _ _ e, h => by
    simp only [Node.subs, List.mem_append, List.mem_cons] at h ⊢
    rcases h with rfl | h
    · simpa only [Node.subs, List.mem_append, List.mem_cons] using hb
    · exact .inr (subs_trans hb e h)
  | .call _ f args, h => by
    simp only [Node.subs, List.mem_append, List.mem_cons] at h ⊢
    rcases h with rfl | h | h
    · simpa only [Node.subs, List.mem_append, List.mem_cons] using hb
    · exact .inr (.inl (subs_trans hb f h))
    · exact .inr (.inr (subsL_trans hb args h))
  | .index _ x y, h => by
    simp only [Node.subs, List.mem_append, List.mem_cons] at h ⊢
    rcases h with rfl | h | h
    · simpa only [Node.subs, List.mem_append, List.mem_cons] using hb
    · exact .inr (.inl (subs_trans hb x h))
    · exact .inr (.inr (subs_trans hb y h))
  | .builtin _ _ args, h => by
    simp only [Node.subs, List.mem_append, List.mem_cons] at h ⊢
    rcases h with rfl | h
    · simpa only [Node.subs, List.mem_append, List.mem_cons] using hb
    · exact .inr (subsL_trans hb args h)
  | .ctx _ _ args _ c, h => by
    simp only [Node.subs, List.mem_append, List.mem_cons] at h ⊢
    rcases h with rfl | h | h
    · simpa only [Node.subs, List.mem_append, List.mem_cons] using hb
    · exact .inr (.inl (subsL_trans hb args h))
    · exact .inr (.inr (subsL_trans hb c h))
  | .cond _ c th el, h => by
    simp only [Node.subs, List.mem_append, List.mem_cons] at h ⊢
    rcases h with rfl | (h | h) | h
    · simpa only [Node.subs, List.mem_append, List.mem_cons] using hb
    · exact .inr (.inl (.inl (subs_trans hb c h)))
    · exact .inr (.inl (.inr (subsL_trans hb th h)))
    · exact .inr (.inr (subsO_trans hb el h))
  | .switch _ v cs d, h => by
    simp only [Node.subs, List.mem_append, List.mem_cons] at h ⊢
    rcases h with rfl | (h | h) | h
    · simpa only [Node.subs, List.mem_append, List.mem_cons] using hb
    · exact .inr (.inl (.inl (subs_trans hb v h)))
    · exact .inr (.inl (.inr (subsC_trans hb cs h)))
    · exact .inr (.inr (subsO_trans hb d h))
  | .while _ c b', h => by
    simp only [Node.subs, List.mem_append, List.mem_cons] at h ⊢
    rcases h with rfl | h | h
    · simpa only [Node.subs, List.mem_append, List.mem_cons] using hb
    · exact .inr (.inl (subs_trans hb c h))
    · exact .inr (.inr (subsL_trans hb b' h))
  | .forIn _ _ it b', h => by
    simp only [Node.subs, List.mem_append, List.mem_cons] at h ⊢
    rcases h with rfl | h | h
    · simpa only [Node.subs, List.mem_append, List.mem_cons] using hb
    · exact .inr (.inl (subs_trans hb it h))
    · exact .inr (.inr (subsL_trans hb b' h))
  | .forMulti _ _ it b', h => by
    simp only [Node.subs, List.mem_append, List.mem_cons] at h ⊢
    rcases h with rfl | h | h
    · simpa only [Node.subs, List.mem_append, List.mem_cons] using hb
    · exact .inr (.inl (subs_trans hb it h))
    · exact .inr (.inr (subsL_trans hb b' h))
  | .lambda _ _ b', h => by
    simp only [Node.subs, List.mem_append, List.mem_cons] at h ⊢
    rcases h with rfl | h
    · simpa only [Node.subs, List.mem_append, List.mem_cons] using hb
    · exact .inr (subsL_trans hb b' h)
  | .bin _ _ x y, h => by
    simp only [Node.subs, List.mem_append, List.mem_cons] at h ⊢
    rcases h with rfl | h | h
    · simpa only [Node.subs, List.mem_append, List.mem_cons] using hb
    · exact .inr (.inl (subs_trans hb x h))
    · exact .inr (.inr (subs_trans hb y h))
  | .un _ _ e, h => by
    simp only [Node.subs, List.mem_append, List.mem_cons] at h ⊢
    rcases h with rfl | h
    · simpa only [Node.subs, List.mem_append, List.mem_cons] using hb
    · exact .inr (subs_trans hb e h)
termination_by structural n => n
theorem subsL_trans {a b : Node} (hb : b ∈ a.subs) : ∀ ns : List Node, a ∈ subsL ns → b ∈ subsL ns
  | [], h => by simp [subsL] at h
  | n :: ns, h => by
    simp only [subsL, List.mem_append] at h ⊢
    exact h.imp (subs_trans hb n) (subsL_trans hb ns)
termination_by structural n => n
theorem subsO_trans {a b : Node} (hb : b ∈ a.subs) : ∀ o : Option (List Node), a ∈ subsO o → b ∈ subsO o
  | some ns, h => by unfold subsO at h ⊢; exact subsL_trans hb ns h
  | none, h => by simp [subsO] at h
termination_by structural n => n
theorem subsE_trans {a b : Node} (hb : b ∈ a.subs) : ∀ o : Option Node, a ∈ subsE o → b ∈ subsE o
  | some n, h => by unfold subsE at h ⊢; exact subs_trans hb n h
  | none, h => by simp [subsE] at h
termination_by structural n => n
theorem subsC_trans {a b : Node} (hb : b ∈ a.subs) : ∀ cs : List (Node × List Node), a ∈ subsC cs → b ∈ subsC cs
  | [], h => by simp [subsC] at h
  | (c, d) :: cs, h => by
    simp only [subsC, List.mem_append] at h ⊢
    rcases h with (h | h) | h
    · exact .inl (.inl (subs_trans hb c h))
    · exact .inl (.inr (subsL_trans hb d h))
    · exact .inr (subsC_trans hb cs h)
termination_by structural n => n
end

/-- A fault of a program is reported at a node or a name of the program. -/
theorem Faulty.at {ast : List Node} {e : Err} {sp : Span} (h : Faulty ast e sp) : SpanOf ast sp := by
  rcases h with ⟨p, hp, hf⟩ | ⟨x, pre, post, _, he, _⟩
  · have hm := innerL_subs _ _ ast p hp
    rcases hf.at with ⟨m, h1, h2⟩ | h
    · exact ⟨m, subsL_trans h1 ast hm, .inl h2⟩
    · exact ⟨p.node, hm, .inr h⟩
  · have : (x, sp) ∈ externNames (places ast) := by rw [he]; simp
    obtain ⟨p, hp, h⟩ := List.mem_filterMap.1 this
    have hm := innerL_subs _ _ ast p hp
    split at h
    · simp only [Option.some.injEq] at h
      subst h
      exact ⟨_, hm, .inr ⟨(x, sp), by simp [Node.names], rfl⟩⟩
    · cases h

end Quilt
