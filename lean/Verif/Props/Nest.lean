import Verif.Check.Env
import Verif.Parser.Nest
import Verif.Props.Ends
import Verif.Props.Flow

/-!
# Positions and the text: C78

`Node.kids` are the direct parts of a node, `Node.names` the names written in it, `Node.keyword` a word or sign that belongs to it.
-/

namespace Quilt.Props

open Lib Peg Cli

variable {D : Type} {W : World} {k : Nat} {name : String} {T : List Char} {c c' : Cache} {ast : List Node}

/-- Positions follow the structure of the program: the position of a part lies in that of the whole. Missing: in `x op= e` the
position of `x op e` is that of `e` (`C78_violated_compound`). -/
theorem C78_nested_partial (hp : parseWithIncludes W k name T c = (.ok ast, c')) {n : Node} (hn : n ∈ subsL ast) {m : Node} (hm : m ∈ n.kids) :
    (m.span.src = n.span.src ∧ n.span.start ≤ m.span.start ∧ m.span.stop ≤ n.span.stop) ∨
    ∃ p ∈ subsL ast, ∃ x op e, p.target = some x ∧ n ∈ p.kids ∧ n = .bin e.span op (.ident x.2 x.1) e ∧ m = .ident x.2 x.1 ∧ x.2.stop ≤ e.span.start :=
  (parsed_neat hp n hn).kids m hm

/-- Where a name is said to stand, it stands in the text, and in the construct it belongs to. -/
theorem C78_names (hp : parseWithIncludes W k name T c = (.ok ast, c')) {n : Node} (hn : n ∈ subsL ast) :
    (∀ x ∈ n.names, x.2.src = n.span.src ∧ n.span.start ≤ x.2.start ∧ x.2.stop ≤ n.span.stop) ∧
    ∀ x ∈ n.words, ∃ file text, c'.sources[x.2.src]? = some (file, text) ∧ TextAt text x.2.start x.2.stop x.1.toList :=
  ⟨(parsed_neat hp n hn).names, (parsed_neat hp n hn).words⟩

/-- In the text of a construct its word or sign occurs; for the operator of `x op= e`, in the text of the assignment. -/
theorem C78_keywords (hp : parseWithIncludes W k name T c = (.ok ast, c')) {n : Node} (hn : n ∈ subsL ast) {s : String} (hs : n.keyword = some s) :
    ∃ p ∈ subsL ast, (p = n ∨ ∃ x op e, p.target = some x ∧ n ∈ p.kids ∧ n = .bin e.span op (.ident x.2 x.1) e) ∧
      ∃ file text, c'.sources[p.span.src]? = some (file, text) ∧ Occurs text p.span.start p.span.stop s.toList := by
  rcases (parsed_neat hp n hn).keyword s hs with h | ⟨p, hp, ⟨_, _, h1, x, op, e, h2, h3, h4, _⟩, h5⟩
  · exact ⟨n, hn, .inl rfl, h⟩
  · simp only [List.mem_singleton] at h1
    subst h1
    exact ⟨_, hp, .inr ⟨x, op, e, h2, h3, h4⟩, h5⟩

/-- The tree of a text. -/
def treeOf (T : String) : Option (List Node) := match parseWithIncludes Check.env.W 1 "main" T.toList ⟨[], []⟩ with | (.ok ast, _) => some ast | _ => none

/-- `x` at 19 to 20 in `f(x)` at 17 to 21 in the `if` at 10 to 23. -/
example : (treeOf "let x = 1\nif x { f(x) }").map (fun ast => (subsL ast).map fun n => (n.span, n.keyword, n.names)) =
    some [(⟨0, 9, 0⟩, some "let", [("x", ⟨4, 5, 0⟩)]), (⟨8, 9, 0⟩, none, []), (⟨10, 23, 0⟩, some "if", []), (⟨13, 14, 0⟩, some "x", []), (⟨17, 21, 0⟩, some "(", []),
      (⟨17, 18, 0⟩, some "f", []), (⟨19, 20, 0⟩, some "x", [])] := by decide +kernel

/-- In `let x = 1\nx += none` the sum gets the position 15 to 19 of its right side; the left one is at 10. An error of the addition is underlined
without the operator. -/
theorem C78_violated_compound : (treeOf "let x = 1\nx += none").map (fun ast => (subsL ast).filterMap fun n => match n with | .bin sp _ a _ => some (sp, a.span) | _ => none) =
      some [(⟨15, 19, 0⟩, ⟨10, 11, 0⟩)] ∧
    (errOf "let x = 1\nx += none").map (fun r => r.2.1) = some ⟨15, 19, 0⟩ := by decide +kernel

/-- What stands at the place of an error, by the instruction that raised it. -/
def Shows (ss : List (String × List Char)) (ast : List Node) (sp : Span) : Instr → Prop
  | .callBuiltin _ n => ∃ sp' x args, .builtin sp' (x, sp) args ∈ subsL ast ∧ args.length = n ∧ NameIs ss (x, sp)
  | .enterContext _ n => ∃ sp' x args v b, .ctx sp' (x, sp) args v b ∈ subsL ast ∧ args.length = n ∧ NameIs ss (x, sp)
  | .exitContext => WordAt ss sp "with"
  | .callFunction _ => WordAt ss sp "("
  | .indexGet | .createArray _ => WordAt ss sp "["
  | .createRange => WordAt ss sp ":"
  | .iterNext _ => WordAt ss sp "for"
  | .unary op => WordAt ss sp op.written
  | .binary op => WordAt ss sp op.written ∨ ∃ p ∈ subsL ast, WordAt ss p.span op.written ∧ ∃ x e, p.target = some x ∧ .bin e.span op (.ident x.2 x.1) e ∈ p.kids ∧ sp = e.span
  | .jumpIfFalse _ => WordAt ss sp "if" ∨ WordAt ss sp "while"
  | .loadGlobal _ => ∃ x, .ident sp x ∈ subsL ast ∧ WordAt ss sp x
  | _ => True

/-- An error that ends a run is reported where the text shows the construct that raised it: builtins and contexts at their name, operators with their sign
or, in `op=`, at the right side of the assignment. Missing: the errors listed at `Err.located`. -/
theorem C78_error_partial {M : Machine.Setup D} {m : Machine D} (hp : parseWithIncludes W k name T c = (.ok ast, c')) (h : History M [ast] m) {clock : Nat → Bool} {fuel : Nat} {e : Err}
    {sp : Span} {s : VM D} (hr : m.run clock fuel = some (.err e sp s)) (he : e.located = true) :
    ∃ j s0 i n, m.vm.steps m.host j = some s0 ∧ decode s0.frame.fn.consts (s0.frame.fn.ops.drop s0.frame.ip) = some (i, n) ∧ s0.step m.host = .err e sp s ∧ Shows c'.sources ast sp i := by
  obtain ⟨ast', ha, j, s0, i, n, sp0, h1, h2, h3, -, h5⟩ := C60_error_partial h hr he
  simp only [List.mem_singleton] at ha
  subst ha
  refine ⟨j, s0, i, n, h1, h2, h3, ?_⟩
  have neat := parsed_neat hp
  have word : ∀ n ∈ subsL ast', ∀ s, n.keyword = some s → (∀ sp op a b, n ≠ .bin sp op a b) → WordAt c'.sources n.span s := fun n hn s hs hb => by
    rcases (neat n hn).keyword s hs with h | ⟨_, _, ⟨_, _, _, _, op, _, _, _, h, _⟩, _⟩
    · exact h
    · exact absurd h (hb _ _ _ _)
  cases i
  case callBuiltin b a =>
    obtain ⟨x, args, k1, k2, rfl⟩ := h5
    exact ⟨_, x.1, args, k1, k2, (neat _ k1).words x (by simp [Node.words, Node.names])⟩
  case enterContext b a =>
    obtain ⟨x, args, v, b, k1, k2, rfl⟩ := h5
    exact ⟨_, x.1, args, v, b, k1, k2, (neat _ k1).words x (by simp [Node.words, Node.names])⟩
  case exitContext => obtain ⟨rfl, x, args, v, b, k1⟩ := h5; exact word _ k1 _ rfl nofun
  case callFunction => obtain ⟨rfl, f, args, k1, _⟩ := h5; exact word _ k1 _ rfl nofun
  case indexGet => obtain ⟨rfl, f, args, k1⟩ := h5; exact word _ k1 _ rfl nofun
  case createArray => obtain ⟨rfl, f, k1, _⟩ := h5; exact word _ k1 _ rfl nofun
  case createRange => obtain ⟨rfl, f, args, k1⟩ := h5; exact word _ k1 _ rfl nofun
  case iterNext =>
    obtain ⟨rfl, ⟨x, it, b, k1⟩ | ⟨x, it, b, k1⟩⟩ := h5
    · exact word _ k1 _ rfl nofun
    · exact word _ k1 _ rfl nofun
  case unary op => obtain ⟨rfl, f, k1⟩ := h5; exact word _ k1 _ rfl nofun
  case binary op =>
    obtain ⟨rfl, a, b, k1⟩ := h5
    rcases (neat _ k1).keyword _ rfl with h | ⟨p, hp, ⟨_, _, k2, x, op', e', k3, k4, k5, _⟩, k6⟩
    · exact .inl h
    · simp only [List.mem_singleton] at k2
      subst k2
      simp only [Node.bin.injEq] at k5
      obtain ⟨rfl, rfl, rfl, rfl⟩ := k5
      exact .inr ⟨_, hp, k6, x, b, k3, k4, rfl⟩
  case jumpIfFalse =>
    obtain ⟨rfl, ⟨_, _, _, k1⟩ | ⟨_, _, k1⟩⟩ := h5
    · exact .inl (word _ k1 _ rfl nofun)
    · exact .inr (word _ k1 _ rfl nofun)
  case loadGlobal => obtain ⟨rfl, x, k1⟩ := h5; exact ⟨x, k1, word _ k1 _ rfl nofun⟩
  all_goals trivial

/-- The builtin in the second line fails; the position is that of its name. -/
example : (errOf "let x = none\nx\n@int([1])").map (fun r => r.2.1) = some ⟨16, 19, 0⟩ ∧ ("let x = none\nx\n@int([1])".toList.drop 16).take 3 = "int".toList := by decide +kernel

mutual
private theorem calm_of (h : Node → Prop) (hw : ∀ n, h n → ∀ sp c b, n ≠ .while sp c b) : ∀ n : Node, (∀ m ∈ n.subs, h m) → n.calm = true
  | .lit .., _ | .ident .., _ => rfl
  | .assign _ _ e, hs | .un _ _ e, hs | .decl _ _ e, hs | .extern _ _ e, hs => by unfold Node.calm; exact calm_of h hw e fun m hm => hs m (by simp [Node.subs, hm])
  | .pair _ a b, hs | .range _ a b, hs | .bin _ _ a b, hs | .index _ a b, hs => by
    unfold Node.calm; rw [calm_of h hw a fun m hm => hs m (by simp [Node.subs, hm]), calm_of h hw b fun m hm => hs m (by simp [Node.subs, hm])]; rfl
  | .array _ b, hs | .block _ b, hs | .lambda _ _ b, hs | .func _ _ _ b, hs | .builtin _ _ b, hs => by unfold Node.calm; exact calmL_of h hw b fun m hm => hs m (by simp [Node.subs, hm])
  | .cond _ c th el, hs => by
    unfold Node.calm
    rw [calm_of h hw c fun m hm => hs m (by simp [Node.subs, hm]), calmL_of h hw th fun m hm => hs m (by simp [Node.subs, hm]), calmO_of h hw el fun m hm => hs m (by simp [Node.subs, hm])]; rfl
  | .switch _ v cs d, hs => by
    unfold Node.calm
    rw [calm_of h hw v fun m hm => hs m (by simp [Node.subs, hm]), calmC_of h hw cs fun m hm => hs m (by simp [Node.subs, hm]), calmO_of h hw d fun m hm => hs m (by simp [Node.subs, hm])]; rfl
  | .while sp c b, hs => absurd rfl (hw _ (hs _ (Node.self_subs _)) sp c b)
  | .forIn _ _ it b, hs | .forMulti _ _ it b, hs => by
    unfold Node.calm; rw [calm_of h hw it fun m hm => hs m (by simp [Node.subs, hm]), calmL_of h hw b fun m hm => hs m (by simp [Node.subs, hm])]; rfl
  | .call _ f args, hs => by unfold Node.calm; rw [calm_of h hw f fun m hm => hs m (by simp [Node.subs, hm]), calmL_of h hw args fun m hm => hs m (by simp [Node.subs, hm])]; rfl
  | .ctx _ _ args _ b, hs => by unfold Node.calm; rw [calmL_of h hw args fun m hm => hs m (by simp [Node.subs, hm]), calmL_of h hw b fun m hm => hs m (by simp [Node.subs, hm])]; rfl
  | .ret _ e, hs => by
    unfold Node.calm
    cases e with
    | none => rfl
    | some e => unfold calmR; exact calm_of h hw e fun m hm => hs m (by simp [Node.subs, subsE, hm])
  | .include _ _ b, hs => by unfold Node.calm; exact calmO_of h hw b fun m hm => hs m (by simp [Node.subs, hm])
termination_by structural n => n
private theorem calmL_of (h : Node → Prop) (hw : ∀ n, h n → ∀ sp c b, n ≠ .while sp c b) : ∀ ns : List Node, (∀ m ∈ subsL ns, h m) → calmL ns = true
  | [], _ => rfl
  | n :: ns, hs => by unfold calmL; rw [calm_of h hw n fun m hm => hs m (by simp [subsL, hm]), calmL_of h hw ns fun m hm => hs m (by simp [subsL, hm])]; rfl
termination_by structural n => n
private theorem calmO_of (h : Node → Prop) (hw : ∀ n, h n → ∀ sp c b, n ≠ .while sp c b) : ∀ o : Option (List Node), (∀ m ∈ subsO o, h m) → calmO o = true
  | none, _ => rfl
  | some b, hs => by unfold calmO; exact calmL_of h hw b fun m hm => hs m (by simp [subsO, hm])
termination_by structural n => n
private theorem calmC_of (h : Node → Prop) (hw : ∀ n, h n → ∀ sp c b, n ≠ .while sp c b) : ∀ cs : List (Node × List Node), (∀ m ∈ subsC cs, h m) → calmC cs = true
  | [], _ => rfl
  | (c, b) :: cs, hs => by
    unfold calmC
    rw [calm_of h hw c fun m hm => hs m (by simp [subsC, hm]), calmL_of h hw b fun m hm => hs m (by simp [subsC, hm]), calmC_of h hw cs fun m hm => hs m (by simp [subsC, hm])]; rfl
termination_by structural n => n
end

/-- The command ends, without a time limit as well, if the word `while` does not occur in the files it reads, not even in a comment. -/
theorem C77_text {E : Cli.Env} {a : Cli.Args} {src : List Char} {script : Script} (h : MainFile E a k name src ast script)
    (hw : ∀ f ∈ (parseWithIncludes E.W k name src ⟨[], []⟩).2.sources, ¬ ∃ p q, f.2 = p ++ "while".toList ++ q) (hcmp : ∀ K, (cliRun E a K ast).1 ≠ .unspec true) :
    ∃ fuel out, main E a k fuel name (.ok src) = some out := by
  refine C77_command h (calmL_of (· ∈ subsL ast) ?_ ast fun _ hm => hm) hcmp
  rintro n hn sp c b rfl
  have hp : parseWithIncludes E.W k name src ⟨[], []⟩ = (.ok ast, (parseWithIncludes E.W k name src ⟨[], []⟩).2) := by rw [← h.parsed]
  obtain ⟨p, _, _, f, t, h1, _, _, _, _, u, v, h2, _⟩ := C78_keywords hp hn rfl
  exact hw _ (List.mem_of_getElem? h1) ⟨u, v, h2⟩

private def endsFile : List Char := "fn f(x) { x * x }\nlet s = 0\nfor i in 0:4 { s = s + f(i) }\ns".toList

private def good14 : Out SVal × SSt Io → Bool
  | (.ok (.int i), _) => i == 14
  | _ => false

/-- A file to which it applies. -/
example : ∃ ast script, MainFile Check.env cliArgs 1 "main" endsFile ast script ∧ (∀ f ∈ (parseWithIncludes Check.env.W 1 "main" endsFile ⟨[], []⟩).2.sources, ¬ ∃ p q, f.2 = p ++ "while".toList ++ q) ∧
    ∀ K, (cliRun Check.env cliArgs K ast).1 ≠ .unspec true := by
  obtain ⟨ast, script, h1, h2⟩ := checkFile_main (T := endsFile) (good := good14) (by decide +kernel)
  refine ⟨ast, script, h1, fun f hf => ?_, fun K => ?_⟩
  · have h3 : (parseWithIncludes Check.env.W 1 "main" endsFile ⟨[], []⟩).2.sources.all (fun s => decide ('w' ∉ s.2)) = true := by decide +kernel
    have h4 := of_decide_eq_true (List.all_eq_true.1 h3 f hf)
    rintro ⟨p, q, h5⟩
    exact h4 (by rw [h5]; simp)
  · have h3 : ∃ i σ, cliRun Check.env cliArgs 9 ast = (.ok (.int i), σ) := by
      unfold good14 at h2
      split at h2
      · exact ⟨_, _, by assumption⟩
      · cases h2
    obtain ⟨i, σ, h3⟩ := h3
    intro h4
    rcases Nat.le_total K 9 with h5 | h5
    · have := evalProgram_mono _ h5 ast _ (by unfold cliRun at h4; rw [h4]; simp)
      unfold cliRun at h3 h4
      rw [this] at h3
      rw [h3] at h4
      cases h4
    · have := evalProgram_mono _ h5 ast _ (by unfold cliRun at h3; rw [h3]; simp)
      unfold cliRun at h3 h4
      rw [this, h3] at h4
      cases h4

end Quilt.Props
