import Verif.FacadeLemmas
import Verif.Props.CompileErrors
import Verif.Cli

/-!
# C84: `build_script`
-/

namespace Quilt.Props

open Quilt.Peg

variable {S : Type} {float : List Char → BitVec 64}

/-- With `DefaultIncludeResolver` it is reading with includes, then compiling. -/
theorem C84_default (cfg : Cfg) (W : World) (k : Nat) (name : String) (src : List Char) :
    buildScript cfg W.float (defaultResolver W) k name src [] = match parseWithIncludes W k name src ⟨[], []⟩ with
      | (.oof, _) => .oof
      | (.err (.parse i), c) => .err (.parse i) c.sources
      | (.err (.incl e sp), c) => .err (.at (.include e) sp) c.sources
      | (.ok ast, c) => match compile cfg ast with
        | .ok script => .ok script
        | .err e sp => .err (.at e sp) c.sources
        | .panic => .panic := by
  unfold buildScript
  rw [← out_default]
  unfold IM.out
  rcases parseWithIncludes W k name src ⟨[], []⟩ with ⟨r, c⟩
  cases r with
  | ok ast => rfl
  | oof => rfl
  | err e => cases e <;> rfl

/-- The command does the same with its main file: it ends with the error, or runs the script. -/
theorem C84_command (E : Cli.Env) (a : Cli.Args) (k fuel : Nat) (name : String) (src : List Char) :
    match buildScript E.cfg E.W.float (defaultResolver E.W) k name src [] with
    | .ok script => ∃ sources, Cli.main E a k fuel name (.ok src) = ((Cli.machine E a script).run (Cli.expired E a) fuel).bind (Cli.finish E a sources)
    | .err (.parse i) _ => Cli.main E a k fuel name (.ok src) = some (.exit ⟨1, [], some (.reading (.parse i))⟩)
    | .err (.at e sp) _ => Cli.main E a k fuel name (.ok src) = some (.exit ⟨1, [], some (.error e sp)⟩) ∨
        ∃ i, e = .include i ∧ Cli.main E a k fuel name (.ok src) = some (.exit ⟨1, [], some (.reading (.incl i sp))⟩)
    | .panic => Cli.main E a k fuel name (.ok src) = some .crash
    | .oof => Cli.main E a k fuel name (.ok src) = none := by
  rw [C84_default]
  unfold Cli.main
  dsimp only
  rcases parseWithIncludes E.W k name src ⟨[], []⟩ with ⟨r, c⟩
  cases r with
  | oof => rfl
  | err e =>
    cases e with
    | parse i => rfl
    | incl e sp => exact .inr ⟨e, rfl, rfl⟩
  | ok ast =>
    dsimp only
    cases compile E.cfg ast with
    | ok script => exact ⟨c.sources, rfl⟩
    | err e sp => exact .inl rfl
    | panic => rfl

/-- The error that comes back is about the sources that come back with it, the first of which is the program, whatever the
resolver, if only it is honest. -/
theorem C84_sources {cfg : Cfg} {R : Nat → Resolver S} (hR : ∀ j, (R j).Honest float) {k : Nat} {name : String} {src : List Char} {s : S} {e : BErr} {c : Texts}
    (h : buildScript cfg float R k name src s = .err e c) : c[0]? = some (name, src) ∧ Located float c e := by
  unfold buildScript at h
  have hk := Faithful.parseWith (k := k) (fun j _ => hR j) name src s []
  unfold Faithful at hk
  rcases hp : parseWithG float R k name src s [] with ⟨r, s', c'⟩
  rw [hp] at h hk
  have hfirst : ∀ j, k = j + 1 → c'[0]? = some (name, src) := by
    rintro j rfl
    obtain ⟨t, rfl⟩ := parseWith_first (fun j _ => hR j) hp
    rfl
  have hk0 : ∀ a, r ≠ a ∨ k ≠ 0 ∨ r = .oof := by
    intro a
    cases k with
    | zero => unfold parseWithG at hp; cases hp; exact .inr (.inr rfl)
    | succ k => exact .inr (.inl (by omega))
  cases r with
  | oof => cases h
  | err e' =>
    cases h
    rcases hk0 (.err e) with h | h | h
    · exact absurd rfl h
    · obtain ⟨j, rfl⟩ := Nat.exists_eq_succ_of_ne_zero h
      exact ⟨hfirst j rfl, hk.2⟩
    · cases h
  | ok ast =>
    dsimp only at h
    have hk1 : k ≠ 0 := by
      rintro rfl
      unfold parseWithG at hp; cases hp
    obtain ⟨j, rfl⟩ := Nat.exists_eq_succ_of_ne_zero hk1
    cases hc : compile cfg ast with
    | ok script => rw [hc] at h; cases h
    | panic => rw [hc] at h; cases h
    | err e' sp =>
      rw [hc] at h
      cases h
      refine ⟨hfirst j rfl, ?_⟩
      have hs : SpanOf ast sp := by
        rcases C83_blame_any hc with h1 | ⟨x, rfl, hx⟩
        · exact Faulty.at (e := e') (.inl h1)
        · obtain ⟨pre, post, he⟩ := List.append_of_mem hx
          obtain ⟨p, hp, h⟩ := List.mem_filterMap.1 hx
          have hm := innerL_subs _ _ ast p hp
          refine ⟨p.node, hm, .inr ⟨(x, sp), ?_, rfl⟩⟩
          split at h
          · simp only [Option.some.injEq] at h
            rename_i hn _
            simp_all [Node.names]
          · cases h
      obtain ⟨m, hm, hsp⟩ := hs
      obtain ⟨n, hn, hm⟩ := mem_subsL.1 hm
      have := hk.2 n hn m hm
      rcases hsp with rfl | ⟨x, hx, rfl⟩
      · exact this.1
      · exact this.2 x hx

/-- The default resolver and shelves are honest. -/
theorem C84_honest (W : World) (files : String → Option (List Char)) (j : Nat) :
    (defaultResolver W j).Honest W.float ∧ (shelf float files j).Honest float := ⟨honest_default W j, honest_shelf files j⟩

private theorem each_resolvedG {f : Node → BM S Node} (hf : ∀ n s c n' s' c', f n s c = (.ok n', s', c') → Resolved n') :
    ∀ {ns : List Node} {s s' : S} {c c' : Texts} {ns' : List Node}, BM.each f ns s c = (.ok ns', s', c') → ∀ n ∈ ns', Resolved n
  | [], s, s', c, c', ns', h => by cases h; simp
  | n :: ns, s, s', c, c', ns', h => by
    unfold BM.each at h
    obtain ⟨m, s1, c1, h1, h2⟩ := BM.bind_ok.1 h
    obtain ⟨ms, s2, c2, h3, h4⟩ := BM.bind_ok.1 h2
    cases h4
    intro x hx
    rcases List.mem_cons.1 hx with rfl | hx
    · exact hf _ _ _ _ _ _ h1
    · exact each_resolvedG hf h3 x hx

private theorem node_resolvedG {R : Nat → Resolver S} : ∀ (k : Nat) n s c n' s' c', resolveNodeG R k n s c = (.ok n', s', c') → Resolved n'
  | k, n, s, c, n', s', c', h => by
    cases n with
    | «include» sp x b =>
      obtain ⟨x, xsp⟩ := x
      cases k with
      | zero => unfold resolveNodeG at h; split at h <;> simp at h
      | succ k =>
        unfold resolveNodeG at h
        split at h
        · simp at h
        · obtain ⟨inc, s1, c1, h1, h2⟩ := BM.bind_ok.1 h
          obtain ⟨inc', s2, c2, h5, h6⟩ := BM.bind_ok.1 h2
          cases h6
          intro p hp sp' x' he
          rcases List.mem_cons.1 hp with rfl | hp
          · cases he
          · simp only [Node.parts, innerO] at hp
            exact resolvedL (each_resolvedG (node_resolvedG k) h5) p hp sp' x' he
    | _ => cases k <;> (unfold resolveNodeG at h; cases h; exact resolved_plain (by rintro _ _ _ ⟨⟩))

/-- Whatever the resolver, the compiler finds no include that was left unresolved. -/
theorem C84_resolved {cfg : Cfg} {R : Nat → Resolver S} {k : Nat} {name : String} {src : List Char} {s s' : S} {c c' : Texts} {ast : List Node}
    (hp : parseWithG float R k name src s c = (.ok ast, s', c')) (x : String) (sp : Span) : compile cfg ast ≠ .err (.include (.unresolvedInclude x)) sp := by
  intro h
  have hr : ∀ p ∈ places ast, ∀ sp x, p ≠ ⟨.include sp x none, false, true⟩ := by
    cases k with
    | zero => unfold parseWithG at hp; cases hp
    | succ k =>
      unfold parseWithG at hp
      obtain ⟨a, s1, c1, h1, h2⟩ := BM.bind_ok.1 hp
      exact resolvedL (each_resolvedG (node_resolvedG k) h2)
  rcases C83_blame_any h with ⟨p, hm, hf⟩ | ⟨_, he, _⟩
  · cases hf with
    | unresolved => exact hr _ hm _ _ rfl
  · cases he

/-- The same result, with the first source under another name. -/
def Built.rename (m : String) : Built → Built
  | .err e ((_, T) :: c) => .err e ((m, T) :: c)
  | b => b

/-- The name of the program is only kept as the name of the first source, if the resolver does not look at it there. -/
theorem C84_name {cfg : Cfg} {R : Nat → Resolver S} (hR : ∀ j x, Blind ((R j).resolve x)) {k : Nat} (n m : String) (src : List Char) (s : S) :
    buildScript cfg float R k m src s = Built.rename m (buildScript cfg float R k n src s) := by
  cases k with
  | zero => unfold buildScript parseWithG; rfl
  | succ k =>
    obtain ⟨h1, h2⟩ := parseWith_renamed (float := float) (k := k) (fun j _ => hR j) n m src s
    unfold buildScript
    rcases hn : parseWithG float R (k + 1) n src s [] with ⟨r, s1, c⟩
    rcases hm : parseWithG float R (k + 1) m src s [] with ⟨r', s2, d⟩
    rw [hn, hm] at h1 h2
    dsimp only at h1 h2
    subst h1
    cases h2
    cases r with
    | oof => rfl
    | err e => rfl
    | ok ast => dsimp only; cases compile cfg ast <;> rfl

/-- Neither the default resolver nor a shelf looks at the names of the sources. -/
theorem C84_blind (W : World) (files : String → Option (List Char)) (j : Nat) (x : Name) :
    Blind ((defaultResolver W j).resolve x) ∧ Blind ((shelf float files j).resolve x) := ⟨blind_default W j x, blind_shelf files j x⟩

/-- With a shelf each text is read at most once, under its name. -/
theorem C84_once {files : String → Option (List Char)} {k : Nat} {name : String} {src : List Char} {r : BRes (List Node)} {s : List String} {c : Texts}
    (h : parseWithG float (shelf float files) (k + 1) name src [] [] = (r, s, c)) :
    ∃ rest, c = (name, src) :: rest ∧ (rest.map (·.1)).Nodup ∧ ∀ p ∈ rest, files p.1 = some p.2 := by
  unfold parseWithG BM.bind addParseG at h
  have hg := parseCode_good ⟨([] : Texts).length, float⟩ src
  cases hp : parseCode ⟨([] : Texts).length, float⟩ src with
  | oof => rw [hp] at hg; exact hg.elim
  | fail => simp only [hp] at h; cases h; exact ⟨[], rfl, by simp, by simp⟩
  | ok ast i =>
    simp only [hp] at h
    obtain ⟨new, rfl, rfl, h3, h4⟩ := Shelved.each (Shelved.node k) ast _ _ _ _ _ h
    refine ⟨new, rfl, ?_, h4⟩
    have := h3 (by simp)
    simp only [List.append_nil] at this
    exact (List.reverse_perm _).nodup_iff.1 this

/-- With a shelf of finitely many texts building always comes to an end, also when the texts include each other. -/
theorem C84_ends {cfg : Cfg} {files : String → Option (List Char)} {names : List String} (hn : ∀ x, (files x).isSome → x ∈ names) {k : Nat} (hk : names.length + 2 ≤ k)
    (name : String) (src : List Char) (s : List String) : buildScript cfg float (shelf float files) k name src s ≠ .oof := by
  obtain ⟨k, rfl⟩ : ∃ j, k = j + 1 := ⟨k - 1, by omega⟩
  have hl : left names s < k := by
    have : left names s ≤ names.length := List.length_filter_le _ _
    omega
  have h : (parseWithG float (shelf float files) (k + 1) name src s []).1 ≠ .oof := by
    have hg := parseCode_good ⟨([] : Texts).length, float⟩ src
    simp only [parseWithG, BM.bind, addParseG]
    cases hp : parseCode ⟨([] : Texts).length, float⟩ src with
    | oof => rw [hp] at hg; exact hg.elim
    | fail => simp
    | ok ast i => exact each_ends (Shelved.node k) (node_ends hn k) ast s _ hl
  unfold buildScript
  rcases hr : parseWithG float (shelf float files) (k + 1) name src s [] with ⟨r, s', c'⟩
  rw [hr] at h
  cases r with
  | oof => exact absurd rfl h
  | err e => simp
  | ok ast => dsimp only; cases compile cfg ast <;> simp

/-- For a resolver that does not read with includes itself, the bound on the depth does not matter. -/
theorem C84_depth {cfg : Cfg} {R : Resolver S} {k k' : Nat} (hk : k ≤ k') {name : String} {src : List Char} {s : S}
    (h : buildScript cfg float (fun _ => R) k name src s ≠ .oof) :
    buildScript cfg float (fun _ => R) k' name src s = buildScript cfg float (fun _ => R) k name src s := by
  induction hk with
  | refl => rfl
  | @step j _ ih =>
    rw [← ih] at h ⊢
    unfold buildScript at h ⊢
    rw [Below.parseWith j name src s []]
    intro h1
    rcases hr : parseWithG float (fun _ => R) j name src s [] with ⟨r, s1, c1⟩
    rw [hr] at h h1
    dsimp only at h1
    subst h1
    exact h rfl

/-- The compiler only panics on an operator that it does not know. -/
theorem C84_panic_partial {cfg : Cfg} {R : Nat → Resolver S} {k : Nat} {name : String} {src : List Char} {s : S} (h : buildScript cfg float R k name src s = .panic) :
    ∃ ast s' c', parseWithG float R k name src s [] = (.ok ast, s', c') ∧ opsOkL cfg.chk ast = false := by
  unfold buildScript at h
  rcases hr : parseWithG float R k name src s [] with ⟨r, s1, c1⟩
  rw [hr] at h
  cases r with
  | oof => cases h
  | err e => cases h
  | ok ast =>
    refine ⟨ast, s1, c1, rfl, ?_⟩
    dsimp only at h
    cases hc : compile cfg ast with
    | ok script => rw [hc] at h; cases h
    | err e sp => rw [hc] at h; cases h
    | panic =>
      cases ho : opsOkL cfg.chk ast with
      | false => rfl
      | true => exact absurd (compile_panic hc) (C58_trees ho _)

/-! ## Concrete programs -/

private def books : String → Option (List Char)
  | "a" => some "include \"b\"\nlet y = x + 1".toList
  | "b" => some "let x = 1".toList
  | "c" => some "include \"d\"".toList
  | "d" => some "include \"c\"".toList
  | "e" => some "let y = 1\n{ external z = 1 }".toList
  | "f" => some "let = 1".toList
  | _ => none

private theorem books_names : ∀ x, (books x).isSome → x ∈ ["a", "b", "c", "d", "e", "f"] := by
  intro x h
  unfold books at h
  split at h <;> simp_all

/-- What becomes of a text with these books: the names of the sources, and the error with its position. -/
private def outcome (T : String) : Option (List String × Option (Option Err × Nat × Nat × Nat)) :=
  match buildScript demoSetup.cfg (fun _ => 0) (shelf (fun _ => 0) books) 8 "main" T.toList [] with
  | .ok _ => some ([], none)
  | .err (.parse i) c => some (c.map (·.1), some (none, i, 0, 0))
  | .err (.at e sp) c => some (c.map (·.1), some (some e, sp.src, sp.start, sp.stop))
  | _ => none

/-- Texts that include texts, which `DefaultIncludeResolver` cannot read (`C38_violated_nested`). -/
example : outcome "include \"a\"\nx + y" = some ([], none) := by decide +kernel

/-- Texts that include each other, on which `DefaultIncludeResolver` does not end (`C38_violated_cycle`): `c` in the text of `d`. -/
example : outcome "include \"c\"\n1" = some (["main", "c", "d"], some (some (.include (.circularInclude "c")), 2, 8, 11)) := by decide +kernel

example : outcome "include \"b\"\ninclude \"e\"\n1" = some (["main", "b", "e"], some (some (.name (.externalNotGlobal "z")), 2, 21, 22)) := by decide +kernel

example : outcome "include \"b\"\ninclude \"f\"\n1" = some (["main", "b", "f"], some (none, 2, 0, 0)) := by decide +kernel

example : outcome "include \"b\"\ninclude \"g\"\n1" = some (["main", "b"], some (some (.include (.couldNotResolve "g")), 0, 20, 23)) := by decide +kernel

/-- The theorems apply to these: the build ends with an error about its sources, for every bound on the depth from 8 on. -/
example {k : Nat} (hk : 8 ≤ k) : ∃ e c, buildScript demoSetup.cfg (fun _ => 0) (shelf (fun _ => 0) books) k "main" "include \"c\"\n1".toList [] = .err e c ∧
    Located (fun _ => 0) c e ∧ c.length = 3 := by
  have h : outcome "include \"c\"\n1" = some (["main", "c", "d"], some (some (.include (.circularInclude "c")), 2, 8, 11)) := by decide +kernel
  have hd := C84_depth (cfg := demoSetup.cfg) (R := shelf (fun _ => 0) books 0) hk (name := "main") (src := "include \"c\"\n1".toList) (s := [])
    (C84_ends books_names (by decide) _ _ _)
  unfold outcome at h
  rw [show shelf (fun _ => 0) books = fun _ => shelf (fun _ => 0) books 0 from rfl] at h ⊢
  rw [hd]
  split at h
  · cases h
  · simp at h
  · rename_i e sp c hb
    refine ⟨_, c, hb, (C84_sources (fun j => honest_shelf books 0) hb).2, ?_⟩
    simp only [Option.some.injEq, Prod.mk.injEq] at h
    have := congrArg List.length h.1
    simpa using this
  · cases h

end Quilt.Props
