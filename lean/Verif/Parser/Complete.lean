import Verif.Parser.Conds

/-!
# Every text of the reference grammar is read
-/

namespace Quilt.Cs

open Peg

def ReadsR (E : Env) : Option (Gap × Cst) → Prop
  | none => True
  | some (_, e) => ReadsTo E e

mutual
theorem reads (E : Env) : ∀ c : Cst, c.ok = true → ReadsTo E c ∧ (c.isIf = true → IfReads E c)
  | .lit _, h => ⟨form_lit E h, nofun⟩
  | .ident _, h => ⟨form_ident E h, nofun⟩
  | .paren _ e _, h => ⟨form_paren E h (reads E e (by simp only [Cst.ok, Bool.and_eq_true] at h; exact h.1.2)).1, nofun⟩
  | .array _ es, h => ⟨form_array E h (readsL E es (by simp only [Cst.ok, Bool.and_eq_true] at h; exact h.1.2)), nofun⟩
  | .pair _ a _ _ b _, h => ⟨form_pair E h (reads E a (by simp only [Cst.ok, Bool.and_eq_true] at h; exact h.1.1.1.1.1.2)).1
      (reads E b (by simp only [Cst.ok, Bool.and_eq_true] at h; exact h.1.1.2)).1, nofun⟩
  | .builtin _ _ _ es, h => ⟨form_builtin E h (readsL E es (by simp only [Cst.ok, Bool.and_eq_true] at h; exact h.2)), nofun⟩
  | .call f _ _ es, h => ⟨form_call E h (reads E f (by simp only [Cst.ok, Bool.and_eq_true] at h; exact h.1.1.1.1)).1
      (readsL E es (by simp only [Cst.ok, Bool.and_eq_true] at h; exact h.2)), nofun⟩
  | .index e _ _ i _, h => ⟨form_index E h (reads E e (by simp only [Cst.ok, Bool.and_eq_true] at h; exact h.1.1.1.1.1)).1
      (reads E i (by simp only [Cst.ok, Bool.and_eq_true] at h; exact h.1.2)).1, nofun⟩
  | .bin _ a _ _ b, h => ⟨form_bin E h (reads E a (by simp only [Cst.ok, Bool.and_eq_true] at h; exact h.1.1.1.1.1.1.1)).1
      (reads E b (by simp only [Cst.ok, Bool.and_eq_true] at h; exact h.1.1.1.2)).1, nofun⟩
  | .un _ _ e, h => ⟨form_un E h (reads E e (by simp only [Cst.ok, Bool.and_eq_true] at h; exact h.1.1.2)).1, nofun⟩
  | .assign _ _ _ _ e, h => ⟨form_assign E h (reads E e (by simp only [Cst.ok, Bool.and_eq_true] at h; exact h.1.2)).1, nofun⟩
  | .decl _ _ _ _ _ e, h => ⟨form_decl E h (reads E e (by simp only [Cst.ok, Bool.and_eq_true] at h; exact h.1.2)).1, nofun⟩
  | .declMany _ _ _ e, h => ⟨form_declMany E h (reads E e (by simp only [Cst.ok, Bool.and_eq_true] at h; exact h.1.2)).1, nofun⟩
  | .extern _ _ _ _ e, h => ⟨form_extern E h (reads E e (by simp only [Cst.ok, Bool.and_eq_true] at h; exact h.1.2)).1, nofun⟩
  | .func _ _ _ _ _ _ _ b, h => ⟨form_func E h (readsB E b (by simp only [Cst.ok, Bool.and_eq_true] at h; exact h.2)), nofun⟩
  | .lambda _ _ _ _ _ b, h => ⟨form_lambda E h (readsB E b (by simp only [Cst.ok, Bool.and_eq_true] at h; exact h.2)), nofun⟩
  | .while _ c _ _ b, h => ⟨form_while E h (reads E c (by simp only [Cst.ok, Bool.and_eq_true] at h; exact h.1.1.1.1.1.2)).1
      (readsB E b (by simp only [Cst.ok, Bool.and_eq_true] at h; exact h.2)), nofun⟩
  | .forIn _ _ _ _ it _ _ b, h => ⟨form_forIn E h (reads E it (by simp only [Cst.ok, Bool.and_eq_true] at h; exact h.1.1.1.1.1.2)).1
      (readsB E b (by simp only [Cst.ok, Bool.and_eq_true] at h; exact h.2)), nofun⟩
  | .forMany _ _ _ it _ _ b, h => ⟨form_forMany E h (reads E it (by simp only [Cst.ok, Bool.and_eq_true] at h; exact h.1.1.1.1.1.2)).1
      (readsB E b (by simp only [Cst.ok, Bool.and_eq_true] at h; exact h.2)), nofun⟩
  | .ctx _ _ _ _ _ es _ _ _ b, h => ⟨form_ctx E h (readsL E es (by simp only [Cst.ok, Bool.and_eq_true] at h; exact h.1.1.1.1.2))
      (readsB E b (by simp only [Cst.ok, Bool.and_eq_true] at h; exact h.2)), nofun⟩
  | .include _ _, h => ⟨form_include E h, nofun⟩
  | .block _ b, h => ⟨form_block E h (readsB E b (by simp only [Cst.ok, Bool.and_eq_true] at h; exact h.2)), nofun⟩
  | .ifThen _ c _ _ b, h =>
    have i := if_ifThen E h (reads E c (by simp only [Cst.ok, Bool.and_eq_true] at h; exact h.1.1.1.1.1.2)).1 (readsB E b (by simp only [Cst.ok, Bool.and_eq_true] at h; exact h.2))
    ⟨form_if E h rfl i, fun _ => i⟩
  | .ifElse _ c _ _ b _ _ _ e, h =>
    have i := if_ifElse E h (reads E c (by simp only [Cst.ok, Bool.and_eq_true] at h; exact h.1.1.1.1.1.1.1.1.1.2)).1
      (readsB E b (by simp only [Cst.ok, Bool.and_eq_true] at h; exact h.1.1.1.1.2)) (readsB E e (by simp only [Cst.ok, Bool.and_eq_true] at h; exact h.2))
    ⟨form_if E h rfl i, fun _ => i⟩
  | .elseIf _ c _ _ b _ _ e, h =>
    have i := if_elseIf E h (reads E c (by simp only [Cst.ok, Bool.and_eq_true] at h; exact h.1.1.1.1.1.1.1.1.1.1.2)).1
      (readsB E b (by simp only [Cst.ok, Bool.and_eq_true] at h; exact h.1.1.1.1.1.2))
      ((reads E e (by simp only [Cst.ok, Bool.and_eq_true] at h; exact h.1.2)).2 (by simp only [Cst.ok, Bool.and_eq_true] at h; cases e <;> first | rfl | exact h.2))
    ⟨form_if E h rfl i, fun _ => i⟩
  | .switch _ v _ _ cs d, h => ⟨form_switch E h (reads E v (by simp only [Cst.ok, Bool.and_eq_true] at h; exact h.1.1.1.1.1.1.2)).1
      (readsC E cs (by simp only [Cst.ok, Bool.and_eq_true] at h; exact h.1.2)) (readsD E d (by simp only [Cst.ok, Bool.and_eq_true] at h; exact h.2)), nofun⟩
  | .ret e, h => by
    have ih := readsR E e (by simp only [Cst.ok] at h; exact h)
    cases e with
    | none => exact ⟨form_ret_none E, nofun⟩
    | some e => exact ⟨form_ret_some E h ih, nofun⟩
termination_by structural c => c
theorem readsL (E : Env) : ∀ es : List (Gap × Cst × Gap), Cst.oks es = true → AllRead E es
  | [], _ => nofun
  | (g, e, g') :: es, h => by
    simp only [Cst.oks, Bool.and_eq_true] at h
    have h1 := (reads E e h.1.1.2).1
    have h2 := readsL E es h.2
    intro x hx
    cases hx with
    | head => exact ⟨h.1.1.1, h.1.1.2, h.1.2, h1⟩
    | tail _ hx => exact h2 x hx
termination_by structural c => c
theorem readsB (E : Env) : ∀ b : List (Cst × Gap), Cst.okB b = true → AllStmts E b
  | [], _ => nofun
  | (c, g) :: b, h => by
    simp only [Cst.okB, Bool.and_eq_true] at h
    have h1 := (reads E c h.1.1.1).1
    have h2 := readsB E b h.1.2
    intro x hx
    cases hx with
    | head => exact ⟨h.1.1.1, h1⟩
    | tail _ hx => exact h2 x hx
termination_by structural c => c
theorem readsC (E : Env) : ∀ cs : List (List (Gap × Cst × Gap) × Gap × List (Cst × Gap) × Gap), Cst.okC cs = true → AllCases E cs
  | [], _ => nofun
  | (vs, b0, b, g) :: cs, h => by
    simp only [Cst.okC, Bool.and_eq_true, Bool.not_eq_true'] at h
    obtain ⟨⟨⟨⟨⟨⟨⟨h1, h2⟩, h3⟩, h4⟩, h5⟩, h6⟩, h7⟩, h8⟩ := h
    have i1 := readsL E vs h1
    have i2 := readsB E b h6
    have i3 := readsC E cs h8
    intro x hx
    cases hx with
    | head => exact ⟨i1, h2, h3, h4, h5, h6, h7, i2⟩
    | tail _ hx => exact i3 x hx
termination_by structural c => c
theorem readsD (E : Env) : ∀ d : Option (Gap × Gap × List (Cst × Gap) × Gap), Cst.okD d = true → DefOk E d
  | none, _ => nofun
  | some (g, b0, b, g'), h => by
    simp only [Cst.okD, Bool.and_eq_true] at h
    have i := readsB E b h.1.2
    intro _ _ _ _ e
    cases e
    exact i
termination_by structural c => c
theorem readsR (E : Env) : ∀ e : Option (Gap × Cst), Cst.okR e = true → ReadsR E e
  | none, _ => trivial
  | some (g, e), h => (reads E e (by simp only [Cst.okR, Bool.and_eq_true] at h; exact h.1.2)).1
termination_by structural c => c
end

theorem node_gives {E : Env} {s : List Char} {Q : Node → List Char → Prop} (h : Gives (nodeN E (s.length + 1) 0) s Q) : Gives (node E) s Q := fun p => h p

theorem node_fails {E : Env} {s : List Char} (h : Fails (nodeN E (s.length + 1) 0) s) : Fails (node E) s := fun p => h p

theorem stmtParser_top {E : Env} {N : Nat} {b : List (Cst × Gap)} (hb : AllStmts E b) : StmtParser E (node E) N b where
  reads _ _ hm _ ha hs hw _ := node_gives ((hb _ hm).2.node (hb _ hm).1 ha hs hw (Nat.zero_le _) (Nat.lt_succ_self _))
  bad s _ hbad := node_fails (recBad_node E _ 0 s (Nat.lt_succ_self _) hbad)

/-- The text of a program is read as that program. -/
theorem parse_text (E : Env) (p : Prog) (h : p.ok = true) : ∃ ast i, parseCode E p.text = .ok ast i ∧ stripL ast = p.ast E.float := by
  obtain ⟨g, b⟩ := p
  simp only [Prog.ok, Bool.and_eq_true] at h
  have hns : NoSkip (Cst.textB b ++ []) := by
    cases b with
    | nil => exact noSkip_nil
    | cons e b =>
      obtain ⟨c, g⟩ := e
      simp only [Cst.okB, Bool.and_eq_true] at h
      rw [Cst.textB]
      simp only [List.append_assoc]
      exact Cst.noSkip h.2.1.1.1 _
  have key : Gives (do let a ← code E; eof; pure a : P (List Node)) (g.text ++ (Cst.textB b ++ [])) fun a _ => stripL a = addImplicitNone false Span.default (Cst.astB E.float b) := by
    refine Gives.bind (Q := fun a s => stripL a = addImplicitNone false Span.default (Cst.astB E.float b) ∧ s = []) ?_ ?_
    · unfold code
      refine (takes_skip h.1 hns).bind (Gives.position.bind fun _ _ e => e ▸ ?_)
      refine (Gives.opt_some (gives_stmts stmtEnd_nil h.2 (stmtParser_top (readsB E b h.2)) (Nat.lt_succ_self _))).bind ?_
      rintro _ _ ⟨as, rfl, h1, G, h2, rfl⟩
      refine Gives.position.bind fun _ _ e => e ▸ ((takes_skip h2 noSkip_nil).bind (Gives.pure ⟨?_, rfl⟩))
      rw [strip_addImplicitNone, Option.getD_some, h1]
    · rintro a _ ⟨ha, rfl⟩
      exact Gives.bind (Q := fun _ _ => True) (fun p => ⟨(), p, [], rfl, trivial⟩) fun _ _ _ => Gives.pure ha
  obtain ⟨a, q, s, h1, h2⟩ := key 0
  rw [List.append_nil] at h1
  exact ⟨a, ⟨q, s⟩, h1, h2⟩

end Quilt.Cs
