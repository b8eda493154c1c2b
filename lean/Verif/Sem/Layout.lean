import Verif.Sem.Alpha
import Verif.Sem.Ready
import Verif.Parser.Strip
import Verif.Parser.Includes

/-!
# Programs that differ in positions only

They are equal up to renaming; include resolution keeps them so. What is known about builtins of prepared machines also shows that they
treat functions with the same name alike.
-/

namespace Quilt

/-- Nothing is renamed. -/
def Ren.Id (ρ : Ren) : Prop := ∀ p ∈ ρ, p.1 = p.2

theorem Name.strip_fst {x y : Name} (h : x.strip = y.strip) : x.1 = y.1 := (Prod.mk.inj h).1

namespace Ren

theorem Id.nil : Ren.Id [] := by simp [Ren.Id]
theorem Id.cons {x y : String} {ρ : Ren} (h : x = y) (hr : ρ.Id) : Ren.Id ((x, y) :: ρ) := by
  intro p hp
  rcases List.mem_cons.1 hp with rfl | hp
  · exact h
  · exact hr p hp
theorem Id.append {ρ ρ' : Ren} (h : ρ.Id) (h' : ρ'.Id) : Ren.Id (ρ ++ ρ') := by
  intro p hp
  rcases List.mem_append.1 hp with hp | hp
  · exact h p hp
  · exact h' p hp
theorem Id.reverse {ρ : Ren} (h : ρ.Id) : Ren.Id ρ.reverse := fun p hp => h p (List.mem_reverse.1 hp)
theorem Id.zip : ∀ xs : List String, Ren.Id (xs.zip xs)
  | [] => .nil
  | _ :: xs => .cons rfl (Id.zip xs)

theorem Id.same : ∀ {ρ : Ren}, ρ.Id → ∀ x : String, ρ.Same x x
  | [], _, _ => rfl
  | (a, b) :: ρ, h, x => by
    have hab : a = b := h (a, b) List.mem_cons_self
    subst hab
    by_cases hx : x = a
    · exact .inl ⟨hx, hx⟩
    · exact .inr ⟨hx, hx, Id.same (fun p hp => h p (List.mem_cons_of_mem _ hp)) x⟩

theorem strip_names {xs ys : List Name} (h : xs.map Name.strip = ys.map Name.strip) : xs.map Prod.fst = ys.map Prod.fst ∧ xs.length = ys.length := by
  have h1 := congrArg (List.map Prod.fst) h
  simp only [List.map_map] at h1
  refine ⟨h1, ?_⟩
  simpa using congrArg List.length h

theorem Id.call {f : String} {ps qs : List Name} {ρ : Ren} (hr : ρ.Id) (h : ps.map Name.strip = qs.map Name.strip) : Ren.Id (ρ.call f ps qs) := by
  unfold Ren.call
  rw [(strip_names h).1]
  exact (Id.zip _).reverse.append (.cons rfl hr)

theorem fits_of_strip {v w : Var} (h : v.strip = w.strip) : v.Fits w ∧ v.binds = w.binds := by
  cases v <;> cases w <;> simp only [Var.strip, Var.one.injEq, Var.many.injEq, reduceCtorEq] at h
  · exact ⟨trivial, by simp only [Var.binds, Name.strip_fst h]⟩
  · exact ⟨(strip_names h).2, (strip_names h).1⟩

theorem Id.decl {v w : Var} {ρ : Ren} (hr : ρ.Id) (h : v.strip = w.strip) : Ren.Id (ρ.decl v w) := by
  unfold Ren.decl
  rw [(fits_of_strip h).2]
  exact (Id.zip _).append hr

theorem Id.after {n m : Node} {ρ : Ren} (hr : ρ.Id) (h : n.strip = m.strip) : Ren.Id (ρ.after n m) := by
  cases n with
  | decl => cases m <;> simp only [Node.strip, Node.decl.injEq, reduceCtorEq] at h; exact hr.decl h.2.1
  | func => exact .cons rfl hr
  | _ => exact hr

end Ren

mutual
theorem Node.Alpha.ofStrip : ∀ (n : Node) {m : Node} {ρ : Ren}, ρ.Id → n.strip = m.strip → n.Alpha ρ m
  | .lit _ l, m, ρ, hr, h => by
    cases m <;> simp only [Node.strip, Node.lit.injEq, reduceCtorEq] at h
    unfold Node.Alpha; obtain ⟨_, rfl⟩ := h; exact ⟨_, rfl⟩
  | .ident _ x, m, ρ, hr, h => by
    cases m <;> simp only [Node.strip, Node.ident.injEq, reduceCtorEq] at h
    unfold Node.Alpha; obtain ⟨_, rfl⟩ := h; exact ⟨_, _, rfl, hr.same _⟩
  | .assign _ x e, m, ρ, hr, h => by
    cases m <;> simp only [Node.strip, Node.assign.injEq, reduceCtorEq] at h
    unfold Node.Alpha; refine ⟨_, _, _, rfl, ?_, .ofStrip e hr h.2.2⟩
    rw [Name.strip_fst h.2.1]; exact hr.same _
  | .pair _ a b, m, ρ, hr, h => by
    cases m <;> simp only [Node.strip, Node.pair.injEq, reduceCtorEq] at h
    unfold Node.Alpha; exact ⟨_, _, _, rfl, .ofStrip a hr h.2.1, .ofStrip b hr h.2.2⟩
  | .range _ a b, m, ρ, hr, h => by
    cases m <;> simp only [Node.strip, Node.range.injEq, reduceCtorEq] at h
    unfold Node.Alpha; exact ⟨_, _, _, rfl, .ofStrip a hr h.2.1, .ofStrip b hr h.2.2⟩
  | .index _ a b, m, ρ, hr, h => by
    cases m <;> simp only [Node.strip, Node.index.injEq, reduceCtorEq] at h
    unfold Node.Alpha; exact ⟨_, _, _, rfl, .ofStrip a hr h.2.1, .ofStrip b hr h.2.2⟩
  | .bin _ op a b, m, ρ, hr, h => by
    cases m <;> simp only [Node.strip, Node.bin.injEq, reduceCtorEq] at h
    obtain ⟨_, rfl, h1, h2⟩ := h
    unfold Node.Alpha; exact ⟨_, _, _, rfl, .ofStrip a hr h1, .ofStrip b hr h2⟩
  | .un _ op e, m, ρ, hr, h => by
    cases m <;> simp only [Node.strip, Node.un.injEq, reduceCtorEq] at h
    obtain ⟨_, rfl, h1⟩ := h
    unfold Node.Alpha; exact ⟨_, _, rfl, .ofStrip e hr h1⟩
  | .array _ es, m, ρ, hr, h => by
    cases m <;> simp only [Node.strip, Node.array.injEq, reduceCtorEq] at h
    unfold Node.Alpha; exact ⟨_, _, rfl, alphaL_ofStrip es hr h.2⟩
  | .call _ f es, m, ρ, hr, h => by
    cases m <;> simp only [Node.strip, Node.call.injEq, reduceCtorEq] at h
    unfold Node.Alpha; exact ⟨_, _, _, rfl, .ofStrip f hr h.2.1, alphaL_ofStrip es hr h.2.2⟩
  | .builtin _ x es, m, ρ, hr, h => by
    cases m <;> simp only [Node.strip, Node.builtin.injEq, reduceCtorEq] at h
    unfold Node.Alpha; exact ⟨_, _, _, rfl, Name.strip_fst h.2.1, alphaL_ofStrip es hr h.2.2⟩
  | .block _ b, m, ρ, hr, h => by
    cases m <;> simp only [Node.strip, Node.block.injEq, reduceCtorEq] at h
    unfold Node.Alpha; exact ⟨_, _, rfl, alphaB_ofStrip b hr h.2⟩
  | .cond _ c b o, m, ρ, hr, h => by
    cases m <;> simp only [Node.strip, Node.cond.injEq, reduceCtorEq] at h
    unfold Node.Alpha; exact ⟨_, _, _, _, rfl, .ofStrip c hr h.2.1, alphaB_ofStrip b hr h.2.2.1, alphaO_ofStrip o hr h.2.2.2⟩
  | .switch _ e cs o, m, ρ, hr, h => by
    cases m <;> simp only [Node.strip, Node.switch.injEq, reduceCtorEq] at h
    unfold Node.Alpha; exact ⟨_, _, _, _, rfl, .ofStrip e hr h.2.1, alphaC_ofStrip cs hr h.2.2.1, alphaO_ofStrip o hr h.2.2.2⟩
  | .while _ c b, m, ρ, hr, h => by
    cases m <;> simp only [Node.strip, Node.while.injEq, reduceCtorEq] at h
    unfold Node.Alpha; exact ⟨_, _, _, rfl, .ofStrip c hr h.2.1, alphaB_ofStrip b hr h.2.2⟩
  | .forIn _ x e b, m, ρ, hr, h => by
    cases m <;> simp only [Node.strip, Node.forIn.injEq, reduceCtorEq] at h
    unfold Node.Alpha; exact ⟨_, _, _, _, rfl, .ofStrip e hr h.2.2.1, alphaB_ofStrip b (.cons (Name.strip_fst h.2.1) hr) h.2.2.2⟩
  | .forMulti _ xs e b, m, ρ, hr, h => by
    cases m <;> simp only [Node.strip, Node.forMulti.injEq, reduceCtorEq] at h
    unfold Node.Alpha
    exact ⟨_, _, _, _, rfl, (Ren.strip_names h.2.1).2, .ofStrip e hr h.2.2.1, alphaB_ofStrip b (hr.decl (congrArg Var.many h.2.1)) h.2.2.2⟩
  | .lambda _ ps b, m, ρ, hr, h => by
    cases m <;> simp only [Node.strip, Node.lambda.injEq, reduceCtorEq] at h
    unfold Node.Alpha; exact ⟨_, _, _, rfl, (Ren.strip_names h.2.1).2, alphaB_ofStrip b (hr.call h.2.1) h.2.2⟩
  | .func _ f ps b, m, ρ, hr, h => by
    cases m <;> simp only [Node.strip, Node.func.injEq, reduceCtorEq] at h
    unfold Node.Alpha; exact ⟨_, _, _, _, rfl, Name.strip_fst h.2.1, (Ren.strip_names h.2.2.1).2, alphaB_ofStrip b (hr.call h.2.2.1) h.2.2.2⟩
  | .ctx _ x es none b, m, ρ, hr, h => by
    cases m <;> simp only [Node.strip, Node.ctx.injEq, reduceCtorEq] at h
    rename_i v' _
    cases v' <;> simp only [Option.map, reduceCtorEq, false_and, and_false] at h
    unfold Node.Alpha; exact ⟨_, _, _, _, rfl, Name.strip_fst h.2.1, alphaL_ofStrip es hr h.2.2.1, alphaB_ofStrip b hr h.2.2.2.2⟩
  | .ctx _ x es (some v) b, m, ρ, hr, h => by
    cases m <;> simp only [Node.strip, Node.ctx.injEq, reduceCtorEq] at h
    rename_i v' _
    cases v' <;> simp only [Option.map, reduceCtorEq, false_and, and_false, Option.some.injEq] at h
    unfold Node.Alpha
    exact ⟨_, _, _, _, _, rfl, Name.strip_fst h.2.1, (Ren.fits_of_strip h.2.2.2.1).1, alphaL_ofStrip es hr h.2.2.1, alphaB_ofStrip b (hr.decl h.2.2.2.1) h.2.2.2.2⟩
  | .decl _ v e, m, ρ, hr, h => by
    cases m <;> simp only [Node.strip, Node.decl.injEq, reduceCtorEq] at h
    unfold Node.Alpha; exact ⟨_, _, _, rfl, (Ren.fits_of_strip h.2.1).1, .ofStrip e hr h.2.2⟩
  | .extern _ x e, m, ρ, hr, h => by
    cases m <;> simp only [Node.strip, Node.extern.injEq, reduceCtorEq] at h
    unfold Node.Alpha; exact ⟨_, _, _, rfl, Name.strip_fst h.2.1, .ofStrip e hr h.2.2⟩
  | .include _ x b, m, ρ, hr, h => by
    cases m <;> simp only [Node.strip, Node.include.injEq, reduceCtorEq] at h
    unfold Node.Alpha; exact ⟨_, _, _, rfl, (Prod.mk.inj h.2.1).1⟩
  | .ret _ o, m, ρ, hr, h => by
    cases m <;> simp only [Node.strip, Node.ret.injEq, reduceCtorEq] at h
    unfold Node.Alpha; exact ⟨_, _, rfl, alphaE_ofStrip o hr h.2⟩
termination_by structural n => n
theorem alphaL_ofStrip : ∀ (ns : List Node) {ms : List Node} {ρ : Ren}, ρ.Id → stripL ns = stripL ms → AlphaL ns ρ ms
  | [], ms, ρ, hr, h => by
    cases ms <;> simp only [stripL, reduceCtorEq] at h
    unfold AlphaL; rfl
  | n :: ns, ms, ρ, hr, h => by
    cases ms <;> simp only [stripL, reduceCtorEq, List.cons.injEq] at h
    unfold AlphaL; exact ⟨_, _, rfl, .ofStrip n hr h.1, alphaL_ofStrip ns hr h.2⟩
termination_by structural n => n
theorem alphaB_ofStrip : ∀ (ns : List Node) {ms : List Node} {ρ : Ren}, ρ.Id → stripL ns = stripL ms → AlphaB ns ρ ms
  | [], ms, ρ, hr, h => by
    cases ms <;> simp only [stripL, reduceCtorEq] at h
    unfold AlphaB; rfl
  | n :: ns, ms, ρ, hr, h => by
    cases ms <;> simp only [stripL, reduceCtorEq, List.cons.injEq] at h
    unfold AlphaB; exact ⟨_, _, rfl, .ofStrip n hr h.1, alphaB_ofStrip ns (hr.after h.1) h.2⟩
termination_by structural n => n
theorem alphaO_ofStrip : ∀ (o : Option (List Node)) {o' : Option (List Node)} {ρ : Ren}, ρ.Id → stripO o = stripO o' → AlphaO o ρ o'
  | none, o', ρ, hr, h => by
    cases o' <;> simp only [stripO, reduceCtorEq] at h
    unfold AlphaO; rfl
  | some b, o', ρ, hr, h => by
    cases o' <;> simp only [stripO, reduceCtorEq, Option.some.injEq] at h
    unfold AlphaO; exact ⟨_, rfl, alphaB_ofStrip b hr h⟩
termination_by structural n => n
theorem alphaE_ofStrip : ∀ (o : Option Node) {o' : Option Node} {ρ : Ren}, ρ.Id → stripE o = stripE o' → AlphaE o ρ o'
  | none, o', ρ, hr, h => by
    cases o' <;> simp only [stripE, reduceCtorEq] at h
    unfold AlphaE; rfl
  | some b, o', ρ, hr, h => by
    cases o' <;> simp only [stripE, reduceCtorEq, Option.some.injEq] at h
    unfold AlphaE; exact ⟨_, rfl, .ofStrip b hr h⟩
termination_by structural n => n
theorem alphaC_ofStrip : ∀ (cs : List (Node × List Node)) {ds : List (Node × List Node)} {ρ : Ren}, ρ.Id → stripC cs = stripC ds → AlphaC cs ρ ds
  | [], ds, ρ, hr, h => by
    cases ds with
    | nil => unfold AlphaC; rfl
    | cons d ds => obtain ⟨_, _⟩ := d; simp only [stripC, reduceCtorEq] at h
  | (c, b) :: cs, ds, ρ, hr, h => by
    cases ds with
    | nil => simp only [stripC, reduceCtorEq] at h
    | cons d ds =>
      obtain ⟨c', b'⟩ := d
      simp only [stripC, List.cons.injEq, Prod.mk.injEq] at h
      unfold AlphaC; exact ⟨_, _, _, rfl, .ofStrip c hr h.1.1, alphaB_ofStrip b hr h.1.2, alphaC_ofStrip cs hr h.2⟩
termination_by structural n => n
end

mutual
theorem Node.AlphaTop.ofStrip : ∀ (n : Node) {m : Node}, n.strip = m.strip → n.AlphaTop m
  | .decl _ v e, m, h => by
    cases m <;> simp only [Node.strip, Node.decl.injEq, reduceCtorEq] at h
    unfold Node.AlphaTop; exact ⟨_, _, _, rfl, (Ren.fits_of_strip h.2.1).1, (Ren.fits_of_strip h.2.1).2, .ofStrip e .nil h.2.2⟩
  | .include _ x b, m, h => by
    cases m <;> simp only [Node.strip, Node.include.injEq, reduceCtorEq] at h
    unfold Node.AlphaTop; exact ⟨_, _, _, rfl, (Prod.mk.inj h.2.1).1, alphaIncl_ofStrip b h.2.2⟩
  | .extern .., m, h | .func .., m, h | .ret .., m, h
  | .lit .., m, h | .ident .., m, h | .assign .., m, h | .pair .., m, h
  | .range .., m, h | .array .., m, h | .index .., m, h | .un .., m, h
  | .bin .., m, h | .block .., m, h | .cond .., m, h | .switch .., m, h
  | .while .., m, h | .forIn .., m, h | .forMulti .., m, h | .lambda .., m, h
  | .call .., m, h | .builtin .., m, h | .ctx .., m, h => Node.Alpha.ofStrip _ .nil h
termination_by structural n => n
theorem alphaProg_ofStrip : ∀ (ns : List Node) {ms : List Node}, stripL ns = stripL ms → AlphaProg ns ms
  | [], ms, h => by
    cases ms <;> simp only [stripL, reduceCtorEq] at h
    unfold AlphaProg; rfl
  | n :: ns, ms, h => by
    cases ms <;> simp only [stripL, reduceCtorEq, List.cons.injEq] at h
    unfold AlphaProg; exact ⟨_, _, rfl, .ofStrip n h.1, alphaProg_ofStrip ns h.2⟩
termination_by structural n => n
theorem alphaIncl_ofStrip : ∀ (o : Option (List Node)) {o' : Option (List Node)}, stripO o = stripO o' → AlphaIncl o o'
  | none, o', h => by
    cases o' <;> simp only [stripO, reduceCtorEq] at h
    unfold AlphaIncl; rfl
  | some b, o', h => by
    cases o' <;> simp only [stripO, reduceCtorEq, Option.some.injEq] at h
    unfold AlphaIncl; exact ⟨_, rfl, alphaProg_ofStrip b h⟩
termination_by structural n => n
end

theorem Name.strip_strip (x : Name) : x.strip.strip = x.strip := rfl
theorem Name.map_strip (xs : List Name) : (xs.map Name.strip).map Name.strip = xs.map Name.strip := by simp [Name.strip_strip]
theorem Var.strip_strip : ∀ v : Var, v.strip.strip = v.strip
  | .one _ => rfl
  | .many xs => congrArg Var.many (Name.map_strip xs)

mutual
theorem Node.strip_strip : ∀ n : Node, n.strip.strip = n.strip
  | .lit .. | .ident .. => rfl
  | .array _ es => by simp only [Node.strip, strip_stripL es]
  | .pair _ a b => by simp only [Node.strip, a.strip_strip, b.strip_strip]
  | .range _ a b => by simp only [Node.strip, a.strip_strip, b.strip_strip]
  | .decl _ v e => by simp only [Node.strip, v.strip_strip, e.strip_strip]
  | .extern _ x e => by simp only [Node.strip, x.strip_strip, e.strip_strip]
  | .assign _ x e => by simp only [Node.strip, x.strip_strip, e.strip_strip]
  | .func _ x ps b => by simp only [Node.strip, x.strip_strip, Name.map_strip ps, strip_stripL b]
  | .lambda _ ps b => by simp only [Node.strip, Name.map_strip ps, strip_stripL b]
  | .block _ b => by simp only [Node.strip, strip_stripL b]
  | .cond _ c th el => by simp only [Node.strip, c.strip_strip, strip_stripL th, strip_stripO el]
  | .switch _ v cs d => by simp only [Node.strip, v.strip_strip, strip_stripC cs, strip_stripO d]
  | .forIn _ x it b => by simp only [Node.strip, x.strip_strip, it.strip_strip, strip_stripL b]
  | .forMulti _ xs it b => by simp only [Node.strip, Name.map_strip xs, it.strip_strip, strip_stripL b]
  | .while _ c b => by simp only [Node.strip, c.strip_strip, strip_stripL b]
  | .bin _ op a b => by simp only [Node.strip, a.strip_strip, b.strip_strip]
  | .un _ op e => by simp only [Node.strip, e.strip_strip]
  | .call _ f args => by simp only [Node.strip, f.strip_strip, strip_stripL args]
  | .builtin _ x args => by simp only [Node.strip, x.strip_strip, strip_stripL args]
  | .ctx _ x args v b => by
    simp only [Node.strip, x.strip_strip, strip_stripL args, strip_stripL b]
    cases v with
    | none => rfl
    | some v => simp only [Option.map, v.strip_strip]
  | .index _ e i => by simp only [Node.strip, e.strip_strip, i.strip_strip]
  | .include _ x b => by simp only [Node.strip, strip_stripO b]
  | .ret _ e => by simp only [Node.strip, strip_stripE e]
termination_by structural n => n
theorem strip_stripL : ∀ ns : List Node, stripL (stripL ns) = stripL ns
  | [] => rfl
  | n :: ns => by simp only [stripL, n.strip_strip, strip_stripL ns]
termination_by structural n => n
theorem strip_stripO : ∀ o : Option (List Node), stripO (stripO o) = stripO o
  | none => rfl
  | some b => by simp only [stripO, strip_stripL b]
termination_by structural n => n
theorem strip_stripE : ∀ o : Option Node, stripE (stripE o) = stripE o
  | none => rfl
  | some b => by simp only [stripE, b.strip_strip]
termination_by structural n => n
theorem strip_stripC : ∀ cs : List (Node × List Node), stripC (stripC cs) = stripC cs
  | [] => rfl
  | (c, b) :: cs => by simp only [stripC, c.strip_strip, strip_stripL b, strip_stripC cs]
termination_by structural n => n
end

/-! ## Include resolution -/

namespace Peg

/-- Caches with as many files, of which the same are resolved. -/
def Cache.Sim (c c' : Cache) : Prop := c.sources.length = c'.sources.length ∧ c.resolved = c'.resolved

/-- The same result up to `P` and the positions of errors. -/
def IRes.Sim {α : Type} (P : α → α → Prop) : IRes α → IRes α → Prop
  | .ok a, .ok b => P a b
  | .err (.parse i), .err (.parse j) => i = j
  | .err (.incl e _), .err (.incl e' _) => e = e'
  | .oof, .oof => True
  | _, _ => False

/-- Computations that agree on such caches. -/
def IM.Sim {α : Type} (P : α → α → Prop) (x y : IM α) : Prop := ∀ c c', c.Sim c' → IRes.Sim P (x c).1 (y c').1 ∧ (x c).2.Sim (y c').2

theorem IM.Sim.bind {α β : Type} {P : α → α → Prop} {Q : β → β → Prop} {x y : IM α} {f g : α → IM β} (hx : IM.Sim P x y) (hf : ∀ a b, P a b → IM.Sim Q (f a) (g b)) :
    IM.Sim Q (IM.bind x f) (IM.bind y g) := by
  intro c c' hc
  have := hx c c' hc
  simp only [IM.bind]
  generalize x c = r at this
  generalize y c' = r' at this
  obtain ⟨o, d⟩ := r
  obtain ⟨o', d'⟩ := r'
  obtain ⟨h1, h2⟩ := this
  match o, o', h1 with
  | .ok _, .ok _, h1 => exact hf _ _ h1 _ _ h2
  | .err (.parse _), .err (.parse _), h1 => exact ⟨h1, h2⟩
  | .err (.incl _ _), .err (.incl _ _), h1 => exact ⟨h1, h2⟩
  | .oof, .oof, _ => exact ⟨trivial, h2⟩

/-- Texts that are read alike, whatever their number. -/
def ReadAlike (W : World) (src src' : List Char) : Prop := ∀ id, match parseCode ⟨id, W.float⟩ src, parseCode ⟨id, W.float⟩ src' with
  | .ok a _, .ok b _ => stripL a = stripL b
  | .fail, .fail => True
  | .oof, .oof => True
  | _, _ => False

theorem ReadAlike.refl (W : World) (src : List Char) : ReadAlike W src src := by
  intro id
  generalize parseCode ⟨id, W.float⟩ src = r
  cases r <;> simp

theorem addParse_sim {W : World} {name : String} {src src' : List Char} (h : ReadAlike W src src') :
    IM.Sim (fun a b => stripL a = stripL b) (addParse W name src) (addParse W name src') := by
  intro c c' hc
  have h := h c.sources.length
  have hl : (c.sources ++ [(name, src)]).length = (c'.sources ++ [(name, src')]).length := by simp [hc.1]
  simp only [addParse, ← hc.1]
  generalize parseCode ⟨c.sources.length, W.float⟩ src = r at h ⊢
  generalize parseCode ⟨c.sources.length, W.float⟩ src' = r' at h ⊢
  cases r <;> cases r' <;> first
    | exact h.elim
    | exact ⟨h, hl, hc.2⟩
    | exact ⟨rfl, hl, hc.2⟩

theorem each_sim {f : Node → IM Node} (hf : ∀ n m, n.strip = m.strip → IM.Sim (fun a b => a.strip = b.strip) (f n) (f m)) : ∀ (ns ms : List Node), stripL ns = stripL ms →
    IM.Sim (fun a b => stripL a = stripL b) (IM.each f ns) (IM.each f ms)
  | [], [], _ => fun _ _ hc => ⟨rfl, hc⟩
  | n :: ns, m :: ms, h => by
    simp only [stripL, List.cons.injEq] at h
    unfold IM.each
    exact .bind (hf n m h.1) fun a b hab => .bind (each_sim hf ns ms h.2) fun as bs habs c c' hc => ⟨by simp only [IRes.Sim, stripL, hab, habs], hc⟩
  | [], _ :: _, h => by simp [stripL] at h
  | _ :: _, [], h => by simp [stripL] at h

theorem resolve_other {W : World} {k : Nat} {n : Node} (h : ∀ sp x b, n ≠ .include sp x b) : resolveNode W k n = fun c => (.ok n, c) := by
  cases n <;> first | exact absurd rfl (h _ _ _) | (cases k <;> (unfold resolveNode; rfl))

/-- A node other than an include. -/
private theorem resolve_sim_other {W : World} {k : Nat} {n m : Node} (h : n.strip = m.strip) (h1 : ∀ sp x b, n ≠ .include sp x b) :
    IM.Sim (fun a b => a.strip = b.strip) (resolveNode W k n) (resolveNode W k m) := by
  have h2 : ∀ sp x b, m ≠ .include sp x b := by
    rintro sp x b rfl
    cases n <;> first | exact absurd rfl (h1 _ _ _) | simp only [Node.strip, reduceCtorEq] at h
  rw [resolve_other h1, resolve_other h2]
  exact fun c c' hc => ⟨h, hc⟩

theorem includes_sim (W : World) : ∀ k : Nat, (∀ (name : String) (src src' : List Char), ReadAlike W src src' →
      IM.Sim (fun a b => stripL a = stripL b) (parseWithIncludes W k name src) (parseWithIncludes W k name src')) ∧
    ∀ n m : Node, n.strip = m.strip → IM.Sim (fun a b => a.strip = b.strip) (resolveNode W k n) (resolveNode W k m)
  | 0 => by
    refine ⟨fun name src src' h => ?_, fun n m h => ?_⟩
    · unfold parseWithIncludes; exact fun _ _ hc => ⟨trivial, hc⟩
    · by_cases hn : ∃ sp x b, n = .include sp x b
      · obtain ⟨sp, ⟨x, xsp⟩, b, rfl⟩ := hn
        cases m <;> simp only [Node.strip, Node.include.injEq, reduceCtorEq] at h
        rename_i sp' y b'
        obtain ⟨y, ysp⟩ := y
        obtain ⟨_, h2, _⟩ := h
        obtain rfl : x = y := (Prod.mk.inj h2).1
        unfold resolveNode
        intro c c' hc
        simp only [← hc.2]
        split
        · exact ⟨rfl, hc⟩
        · exact ⟨trivial, hc⟩
      · exact resolve_sim_other h fun sp x b e => hn ⟨sp, x, b, e⟩
  | k + 1 => by
    obtain ⟨ih1, ih2⟩ := includes_sim W k
    refine ⟨fun name src src' h => ?_, fun n m h => ?_⟩
    · unfold parseWithIncludes
      exact .bind (addParse_sim h) fun a b hab => each_sim ih2 a b hab
    · by_cases hn : ∃ sp x b, n = .include sp x b
      · obtain ⟨sp, ⟨x, xsp⟩, b, rfl⟩ := hn
        cases m <;> simp only [Node.strip, Node.include.injEq, reduceCtorEq] at h
        rename_i sp' y b'
        obtain ⟨y, ysp⟩ := y
        obtain ⟨_, h2, _⟩ := h
        obtain rfl : x = y := (Prod.mk.inj h2).1
        unfold resolveNode
        intro c c' hc
        simp only [← hc.2]
        split
        · exact ⟨rfl, hc⟩
        · split
          · exact ⟨rfl, hc⟩
          · rename_i src _
            have hmark : IM.Sim (fun _ _ : Unit => True) (fun c => (.ok (), { c with resolved := x :: c.resolved })) (fun c => (.ok (), { c with resolved := x :: c.resolved })) :=
              fun c c' hc => ⟨trivial, hc.1, congrArg (x :: ·) hc.2⟩
            refine IM.Sim.bind (ih1 x src src (.refl W src)) (fun a b hab => .bind hmark fun _ _ _ =>
              .bind (each_sim ih2 a b hab) fun a' b' hab' c c' hc => ⟨?_, hc⟩) c c' hc
            simp only [IRes.Sim, Node.strip, stripO, hab']
      · exact resolve_sim_other h fun sp x b e => hn ⟨sp, x, b, e⟩

end Peg

/-! ## Values -/

variable {A B C : Type}

mutual
/-- Values that agree with the same one agree. -/
theorem Val.Rel.comp {P : A → B → Prop} {Q : A → C → Prop} {R : B → C → Prop} (hR : ∀ a b c, P a b → Q a c → R b c) :
    ∀ {a : Val A} {b : Val B} {c : Val C}, Val.Rel P a b → Val.Rel Q a c → Val.Rel R b c
  | .none, b, c, h, h' | .bool _, b, c, h, h' | .int _, b, c, h, h' | .float _, b, c, h, h' | .range _ _, b, c, h, h'
  | .color _ _ _ _, b, c, h, h' | .str _, b, c, h, h' | .special _ _, b, c, h, h' | .loopCtx _, b, c, h, h' | .func _, b, c, h, h' => by
    cases b <;> simp only [Val.Rel] at h <;> cases c <;> simp_all [Val.Rel]
  | .arr _ _ _, b, c, h, h' => by
    cases b <;> simp only [Val.Rel] at h
    cases c <;> simp only [Val.Rel] at h' ⊢
    exact ⟨Val.RelL.comp hR h.1 h'.1, h.2.1.symm.trans h'.2.1, h.2.2.symm.trans h'.2.2⟩
  | .pair _ _, b, c, h, h' => by
    cases b <;> simp only [Val.Rel] at h
    cases c <;> simp only [Val.Rel] at h' ⊢
    exact ⟨Val.Rel.comp hR h.1 h'.1, Val.Rel.comp hR h.2 h'.2⟩
  | .clos _, b, c, h, h' => by
    cases b <;> simp only [Val.Rel] at h
    cases c <;> simp only [Val.Rel] at h' ⊢
    exact hR _ _ _ h h'
termination_by structural a => a
theorem Val.RelL.comp {P : A → B → Prop} {Q : A → C → Prop} {R : B → C → Prop} (hR : ∀ a b c, P a b → Q a c → R b c) :
    ∀ {a : List (Val A)} {b : List (Val B)} {c : List (Val C)}, Val.RelL P a b → Val.RelL Q a c → Val.RelL R b c
  | [], b, c, h, h' => by
    cases b <;> simp only [Val.RelL] at h
    cases c <;> simp_all [Val.RelL]
  | _ :: _, b, c, h, h' => by
    cases b <;> simp only [Val.RelL] at h
    cases c <;> simp only [Val.RelL] at h' ⊢
    exact ⟨Val.Rel.comp hR h.1 h'.1, Val.RelL.comp hR h.2 h'.2⟩
termination_by structural a => a
end

mutual
theorem Val.Rel.swap {P : A → B → Prop} : ∀ {a : Val A} {b : Val B}, Val.Rel P a b → Val.Rel (fun b a => P a b) b a
  | .none, b, h | .bool _, b, h | .int _, b, h | .float _, b, h | .range _ _, b, h
  | .color _ _ _ _, b, h | .str _, b, h | .special _ _, b, h | .loopCtx _, b, h | .func _, b, h => by
    cases b <;> simp_all [Val.Rel]
  | .arr _ _ _, b, h => by
    cases b <;> simp only [Val.Rel] at h ⊢
    exact ⟨Val.RelL.swap h.1, h.2.1.symm, h.2.2.symm⟩
  | .pair _ _, b, h => by
    cases b <;> simp only [Val.Rel] at h ⊢
    exact ⟨Val.Rel.swap h.1, Val.Rel.swap h.2⟩
  | .clos _, b, h => by
    cases b <;> simp only [Val.Rel] at h ⊢
    exact h
termination_by structural a => a
theorem Val.RelL.swap {P : A → B → Prop} : ∀ {a : List (Val A)} {b : List (Val B)}, Val.RelL P a b → Val.RelL (fun b a => P a b) b a
  | [], b, h => by cases b <;> simp_all [Val.RelL]
  | _ :: _, b, h => by
    cases b <;> simp only [Val.RelL] at h ⊢
    exact ⟨Val.Rel.swap h.1, Val.RelL.swap h.2⟩
termination_by structural a => a
end

/-! ## Builtins -/

/-- A function of the machine that stands for the `i`-th pair of functions. -/
def stand (T : List (SClos × SClos)) (c : SClos × SClos → SClos) (a : SClos) (v : VClos) : Prop :=
  ∃ i p, v.ups = [i] ∧ T[i]? = some p ∧ a = c p ∧ v.fn.name = p.1.name

theorem stand.mono {T T' : List (SClos × SClos)} (h : T <+: T') {c : SClos × SClos → SClos} (a : SClos) (v : VClos) (hs : stand T c a v) : stand T' c a v := by
  obtain ⟨i, p, h1, h2, h3, h4⟩ := hs
  obtain ⟨r, rfl⟩ := h
  refine ⟨i, p, h1, ?_, h3, h4⟩
  have : i < T.length := by
    rcases Nat.lt_or_ge i T.length with h | h
    · exact h
    · rw [List.getElem?_eq_none h] at h2; cases h2
  rw [List.getElem?_append_left this]; exact h2

variable {R : SClos → SClos → Prop}

mutual
/-- Functions of the machine that stand for the pairs of functions in two values. -/
theorem stands (hR : ∀ a b, R a b → a.name = b.name) : ∀ (a : SVal) {b : SVal} {T : List (SClos × SClos)}, Val.Rel R a b → (∀ p ∈ T, R p.1 p.2) →
    ∃ T' w, T <+: T' ∧ (∀ p ∈ T', R p.1 p.2) ∧ Val.Rel (stand T' Prod.fst) a w ∧ Val.Rel (stand T' Prod.snd) b w
  | .none, b, T, h, hT => by cases b <;> simp only [Val.Rel] at h; exact ⟨T, .none, List.prefix_refl _, hT, trivial, trivial⟩
  | .bool x, b, T, h, hT => by cases b <;> simp only [Val.Rel] at h; exact ⟨T, .bool x, List.prefix_refl _, hT, rfl, h.symm⟩
  | .int x, b, T, h, hT => by cases b <;> simp only [Val.Rel] at h; exact ⟨T, .int x, List.prefix_refl _, hT, rfl, h.symm⟩
  | .float x, b, T, h, hT => by cases b <;> simp only [Val.Rel] at h; exact ⟨T, .float x, List.prefix_refl _, hT, rfl, h.symm⟩
  | .str x, b, T, h, hT => by cases b <;> simp only [Val.Rel] at h; exact ⟨T, .str x, List.prefix_refl _, hT, rfl, h.symm⟩
  | .loopCtx x, b, T, h, hT => by cases b <;> simp only [Val.Rel] at h; exact ⟨T, .loopCtx x, List.prefix_refl _, hT, rfl, h.symm⟩
  | .range x y, b, T, h, hT => by
    cases b <;> simp only [Val.Rel] at h; exact ⟨T, .range x y, List.prefix_refl _, hT, ⟨rfl, rfl⟩, h.1.symm, h.2.symm⟩
  | .special x y, b, T, h, hT => by
    cases b <;> simp only [Val.Rel] at h; exact ⟨T, .special x y, List.prefix_refl _, hT, ⟨rfl, rfl⟩, h.1.symm, h.2.symm⟩
  | .color x y z u, b, T, h, hT => by
    cases b <;> simp only [Val.Rel] at h
    exact ⟨T, .color x y z u, List.prefix_refl _, hT, ⟨rfl, rfl, rfl, rfl⟩, h.1.symm, h.2.1.symm, h.2.2.1.symm, h.2.2.2.symm⟩
  | .func _, b, T, h, hT => by cases b <;> simp only [Val.Rel] at h
  | .arr xs s m, b, T, h, hT => by
    cases b <;> simp only [Val.Rel] at h
    obtain ⟨T', ws, h1, h2, h3, h4⟩ := standsL hR xs h.1 hT
    exact ⟨T', .arr ws s m, h1, h2, ⟨h3, rfl, rfl⟩, h4, h.2.1.symm, h.2.2.symm⟩
  | .pair x y, b, T, h, hT => by
    cases b <;> simp only [Val.Rel] at h
    obtain ⟨T1, w1, h1, h2, h3, h4⟩ := stands hR x h.1 hT
    obtain ⟨T2, w2, k1, k2, k3, k4⟩ := stands hR y h.2 h2
    exact ⟨T2, .pair w1 w2, h1.trans k1, k2, ⟨h3.mono (stand.mono k1), k3⟩, h4.mono (stand.mono k1), k4⟩
  | .clos c, b, T, h, hT => by
    cases b <;> simp only [Val.Rel] at h
    rename_i c'
    refine ⟨T ++ [(c, c')], .clos ⟨.mk c.name Span.default 0 0 [] ⟨[]⟩ [] [], [T.length]⟩, List.prefix_append _ _, ?_, ⟨T.length, (c, c'), rfl, by simp, rfl, rfl⟩,
      ⟨T.length, (c, c'), rfl, by simp, rfl, rfl⟩⟩
    intro p hp
    rcases List.mem_append.1 hp with hp | hp
    · exact hT p hp
    · rw [List.mem_singleton.1 hp]; exact h
termination_by structural a => a
theorem standsL (hR : ∀ a b, R a b → a.name = b.name) : ∀ (a : List SVal) {b : List SVal} {T : List (SClos × SClos)}, Val.RelL R a b → (∀ p ∈ T, R p.1 p.2) →
    ∃ T' w, T <+: T' ∧ (∀ p ∈ T', R p.1 p.2) ∧ Val.RelL (stand T' Prod.fst) a w ∧ Val.RelL (stand T' Prod.snd) b w
  | [], b, T, h, hT => by cases b <;> simp only [Val.RelL] at h; exact ⟨T, [], List.prefix_refl _, hT, trivial, trivial⟩
  | x :: xs, b, T, h, hT => by
    cases b <;> simp only [Val.RelL] at h
    obtain ⟨T1, w1, h1, h2, h3, h4⟩ := stands hR x h.1 hT
    obtain ⟨T2, w2, k1, k2, k3, k4⟩ := standsL hR xs h.2 h2
    exact ⟨T2, w1 :: w2, h1.trans k1, k2, ⟨h3.mono (stand.mono k1), k3⟩, h4.mono (stand.mono k1), k4⟩
termination_by structural a => a
end

/-- A builtin that cannot tell functions from those of the machine cannot tell functions with the same name apart. -/
theorem BRel.alpha {D : Type} {lim : Limits} {f : BFn D SClos} {f' : BFn D VClos} (h : BRel lim f f') : BRelG SClos.name SClos.name lim f f := by
  refine ⟨fun R hR d args args' ha => ?_⟩
  obtain ⟨T, w, _, hT, h1, h2⟩ := standsL hR args ha (T := []) (by simp)
  have k1 := h.rel (stand T Prod.fst) (fun c v hs => by obtain ⟨i, p, _, _, rfl, e⟩ := hs; exact e.symm) d args w h1
  have k2 := h.rel (stand T Prod.snd) (fun c v hs => by
    obtain ⟨i, p, _, hp, rfl, e⟩ := hs
    rw [← hR p.1 p.2 (hT p (List.mem_of_getElem? hp))]; exact e.symm) d args' w h2
  refine ⟨?_, k1.2.trans k2.2.symm⟩
  have k1 := k1.1
  have k2 := k2.1
  generalize (f d args lim).1 = r1 at k1
  generalize (f d args' lim).1 = r2 at k2
  generalize (f' d w lim).1 = r at k1 k2
  cases r1 <;> cases r <;> simp only [Res.Rel] at k1 <;> cases r2 <;> simp only [Res.Rel] at k2 ⊢
  · refine Val.Rel.comp (R := R) ?_ k1.swap k2.swap
    rintro v a b ⟨i, p, h1, h2, rfl, _⟩ ⟨j, q, h3, h4, rfl, _⟩
    rw [h1] at h3
    cases h3
    rw [h2] at h4
    cases h4
    exact hT p (List.mem_of_getElem? h2)
  · exact k1.trans k2.symm

/-- The builtins of prepared machines. -/
theorem Prepared.alpha {D : Type} {M : Machine.Setup D} {data : D} {script : Script} {S : SHost D} {σ : SSt D} {m : Machine D} (h : Prepared M data script S σ m) :
    (∀ x b, S.builtins x = some b → BuiltinAlpha S.lim b) ∧ StAlpha σ σ := by
  have hlim : S.lim = M.opts.lim := by
    induction h with
    | new => rfl
    | builtin _ _ _ ih => exact ih
    | global _ _ _ ih => exact ih
    | external _ _ _ _ ih => exact ih
  have hg : ∀ {σ : SSt D} {x : String} {v : SVal} {w : VVal}, StAlpha σ σ → PlainVal v w → StAlpha { σ with globals := updName σ.globals x (some v) } { σ with globals := updName σ.globals x (some v) } := by
    intro σ x v w hs hv
    refine ⟨hs.store, rfl, fun y => ?_, rfl, rfl⟩
    show Val.RelO CAlpha (updName σ.globals x (some v) y) (updName σ.globals x (some v) y)
    unfold updName
    split
    · exact Val.Rel.comp (fun _ _ _ h => h.elim) (Val.Rel.swap hv) (Val.Rel.swap hv)
    · exact hs.globals y
  induction h with
  | new => exact ⟨fun _ _ h => (by cases h), ⟨fun _ => trivial, rfl, fun _ => trivial, rfl, rfl⟩⟩
  | @builtin S σ m x b b' _ hb ih =>
    refine ⟨fun y c hc => ?_, (ih hlim).2⟩
    simp only [updName] at hc
    split at hc
    · cases hc
      have hlim : S.lim = M.opts.lim := hlim
      show BuiltinAlpha S.lim b
      rw [hlim]
      cases b <;> cases b' <;> simp only [BuiltinRel] at hb
      · exact hb.alpha
      · exact hb.1.alpha
    · exact (ih hlim).1 y c hc
  | global x _ hv ih => exact ⟨(ih hlim).1, hg (ih hlim).2 hv⟩
  | external x _ hv _ ih => exact ⟨(ih hlim).1, hg (ih hlim).2 hv⟩

end Quilt
