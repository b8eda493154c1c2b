import Verif.Lib.DocAudit
import Verif.Props.Io

/-!
# The documentation of builtins tells the truth: C79
-/

namespace Quilt.Props

open Lib Docs

variable {C : Type} (L : Ops) (O : Outside) (chk : Bool) (cname : C → String) (lim : Limits) (d : Io)

/-- All that is documented, group by group. -/
def allDocs : List BuiltinDoc := groups.flatMap (·.builtins)

private theorem allDocs_names : (allDocs.map (·.name)).Nodup := by decide +kernel

private theorem audited_all : ∀ doc ∈ audited, doc ∈ allDocs := by decide +kernel

private theorem all_audited : ∀ doc ∈ allDocs, doc ∈ audited := by decide +kernel

private theorem same_doc {a b : BuiltinDoc} (ha : a ∈ allDocs) (hb : b ∈ allDocs) (h : a.name = b.name) : a = b := by
  have := allDocs_names
  generalize allDocs = l at this ha hb
  induction l with
  | nil => cases ha
  | cons c l ih =>
    simp only [List.map_cons, List.nodup_cons, List.mem_map, not_exists, not_and] at this
    rcases List.mem_cons.1 ha with ea | ha' <;> rcases List.mem_cons.1 hb with eb | hb'
    · rw [ea, eb]
    · rw [ea] at h; exact absurd h.symm (this.1 b hb')
    · rw [eb] at h; exact absurd h (this.1 a ha')
    · exact ih this.2 ha' hb'

private theorem getDoc_mem {g : BuiltinGroup} (hg : g ∈ groups) {name : String} {doc : BuiltinDoc} (h : getDoc g name = some doc) : doc ∈ allDocs ∧ doc.name = name :=
  ⟨List.mem_flatMap.2 ⟨g, hg, List.mem_of_find?_eq_some h⟩, by simpa using List.find?_some h⟩

private theorem told_of {g : BuiltinGroup} (hg : g ∈ groups) {name : String} {doc : BuiltinDoc} (h : getDoc g name = some doc) :
    ∃ f, (stdioLib L cname O chk).lookup name = some f ∧ Told doc f := by
  obtain ⟨h1, h2⟩ := getDoc_mem hg h
  have hn : name ∈ (stdioLib L cname O chk).map Prod.fst := by
    rw [(stdio_told L chk O cname).names]
    exact List.mem_map.2 ⟨doc, all_audited doc h1, h2⟩
  obtain ⟨f, hf⟩ : ∃ f, (stdioLib L cname O chk).lookup name = some f := by
    generalize stdioLib L cname O chk = l at hn
    induction l with
    | nil => cases hn
    | cons p l ih =>
      obtain ⟨y, b⟩ := p
      rw [List.lookup_cons]
      cases hy : name == y
      · simp only [List.map_cons, List.mem_cons] at hn
        rcases hn with rfl | hn
        · simp at hy
        · exact ih hn
      · exact ⟨b, rfl⟩
  obtain ⟨doc', h3, h4, h5⟩ := (stdio_told L chk O cname).mem (mem_of_lookup hf)
  rw [same_doc h1 (audited_all _ h3) (h2.trans h4.symm)]
  exact ⟨f, hf, h5⟩

/-- The builtins that exist are the builtins that are documented, each once and under its own name. -/
theorem C79_names (name : String) (args : List (Val C)) :
    ((callIo L O chk cname lim d name args).isSome = true ↔ ∃ g ∈ groups, ∃ doc ∈ g.builtins, doc.name = name) ∧
    ∀ g ∈ groups, ∀ doc ∈ g.builtins, doc.name = name → getDoc g name = some doc ∧ ∀ g' ∈ groups, getDoc g' name ≠ none → g' = g := by
  have hfind : ∀ g ∈ groups, ∀ doc ∈ g.builtins, doc.name = name → getDoc g name = some doc := by
    intro g hg doc hd hn
    have : (g.builtins.find? (·.name == name)).isSome := by
      rw [List.find?_isSome]; exact ⟨doc, hd, by simp [hn]⟩
    obtain ⟨doc', h'⟩ := Option.isSome_iff_exists.1 this
    have h'' : getDoc g name = some doc' := h'
    obtain ⟨h1, h2⟩ := getDoc_mem hg h''
    rw [h'', same_doc h1 (List.mem_flatMap.2 ⟨g, hg, hd⟩) (h2.trans hn.symm)]
  refine ⟨⟨fun h => ?_, fun ⟨g, hg, doc, hd, hn⟩ => ?_⟩, fun g hg doc hd hn => ⟨hfind g hg doc hd hn, fun g' hg' h' => ?_⟩⟩
  · simp only [callIo, Option.isSome_map] at h
    obtain ⟨f, hf⟩ := Option.isSome_iff_exists.1 h
    obtain ⟨doc, h1, h2, _⟩ := (stdio_told L chk O cname).mem (mem_of_lookup hf)
    obtain ⟨g, hg, hd⟩ := List.mem_flatMap.1 (audited_all doc h1)
    exact ⟨g, hg, doc, hd, h2⟩
  · obtain ⟨f, hf, _⟩ := told_of L O chk cname hg (hfind g hg doc hd hn)
    simp [callIo, hf]
  · obtain ⟨doc', hd'⟩ := Option.ne_none_iff_exists'.1 h'
    obtain ⟨h1, h2⟩ := getDoc_mem hg' hd'
    have hm : doc' ∈ g'.builtins := List.mem_of_find?_eq_some hd'
    have key : ∀ a ∈ groups, ∀ b ∈ groups, (∃ x ∈ a.builtins, x ∈ b.builtins) → a = b := by decide +kernel
    exact key g' hg' g hg ⟨doc', hm, by rw [same_doc h1 (List.mem_flatMap.2 ⟨g, hg, hd⟩) (h2.trans hn.symm)]; exact hd⟩

/-- A call whose arguments do not match the documented parameters fails with the error that the documentation gives, and does
nothing else; so a call that succeeds has arguments as documented. -/
theorem C79_arguments {g : BuiltinGroup} (hg : g ∈ groups) {name : String} {doc : BuiltinDoc} (h : getDoc g name = some doc) (args : List (Val C)) :
    (∀ e, complaint doc.args args = some e → callIo L O chk cname lim d name args = some (.err e, d)) ∧
    (∀ v d', callIo L O chk cname lim d name args = some (.ok v, d') → complaint doc.args args = none) := by
  obtain ⟨f, hf, ht⟩ := told_of L O chk cname hg h
  have h1 : ∀ e, complaint doc.args args = some e → callIo L O chk cname lim d name args = some (.err e, d) := fun e he => by
    simp only [callIo, hf, Option.map_some, ht.refuses d args lim e he]
  refine ⟨h1, fun v d' hv => ?_⟩
  cases hc : complaint doc.args args with
  | none => rfl
  | some e => rw [h1 e hc] at hv; cases hv

/-- What a builtin returns has a documented type; a builtin without documented types returns `none`. -/
theorem C79_returns {g : BuiltinGroup} (hg : g ∈ groups) {name : String} {doc : BuiltinDoc} (h : getDoc g name = some doc) (args : List (Val C)) {v : Val C} {d' : Io}
    (hv : callIo L O chk cname lim d name args = some (.ok v, d')) :
    (doc.returns = [] → v = .none) ∧ (doc.returns ≠ [] → ∃ t ∈ doc.returns, hasType t v = true) := by
  obtain ⟨f, hf, ht⟩ := told_of L O chk cname hg h
  simp only [callIo, hf, Option.map_some, Option.some.injEq] at hv
  exact ht.gives d args lim v (by rw [hv])

private theorem takeReq_more (L : Ops) (ks : List PKind) (hk : .rest ∉ ks) (args more : List (Val C)) (i : Nat) (hi : i + ks.length = args.length) :
    (∃ xs, takeReq L ks ⟨args, i⟩ = .ok (xs, ⟨args, args.length⟩) ∧ takeReq L ks ⟨args ++ more, i⟩ = .ok (xs, ⟨args ++ more, args.length⟩)) ∨
    ∃ e, takeReq L ks ⟨args, i⟩ = .err e ∧ takeReq L ks ⟨args ++ more, i⟩ = .err e := by
  induction ks generalizing i with
  | nil => exact .inl ⟨(), by simp only [List.length_nil, Nat.add_zero] at hi; subst hi; exact ⟨rfl, rfl⟩⟩
  | cons k ks ih =>
    simp only [List.mem_cons, not_or] at hk
    simp only [List.length_cons] at hi
    have hlt : i < args.length := by omega
    simp only [takeReq, take_eq L (Ne.symm hk.1), List.getElem?_append_left hlt, List.getElem?_eq_getElem hlt]
    cases k.accept L args[i] with
    | none => exact .inr ⟨_, rfl, rfl⟩
    | some x =>
      rcases ih hk.2 (i + 1) (by omega) with ⟨xs, h1, h2⟩ | ⟨e, h1, h2⟩
      · exact .inl ⟨(x, xs), by simp [h1], by simp [h2]⟩
      · exact .inr ⟨e, by simp [h1], by simp [h2]⟩

private theorem builtin_default {D : Type} (L : Ops) {ks : List PKind} (hk : .rest ∉ ks) {t : List Char} {body : Params C ks → Params C [.str] → Limits → Res (Val C)}
    (args : List (Val C)) (hl : args.length = ks.length) (d : D) (lim : Limits) :
    builtin L ks [⟨.str, t⟩] body d args lim = builtin L ks [⟨.str, t⟩] body d (args ++ [.str t]) lim := by
  unfold builtin Args.new
  rcases takeReq_more L ks hk args [.str t] 0 (by omega) with ⟨xs, h1, h2⟩ | ⟨e, h1, h2⟩
  · rw [h1, h2]
    simp only [Res.bind_ok]
    have h3 : takeOpt L [⟨.str, t⟩] ⟨args, args.length⟩ = .ok ((t, ()), ⟨args, args.length⟩) := by simp [takeOpt, Args.optional, Args.len]; rfl
    have h4 : takeOpt L [⟨.str, t⟩] ⟨args ++ [.str t], args.length⟩ = .ok ((t, ()), ⟨args ++ [.str t], (args ++ [Val.str t]).length⟩) := by
      simp [takeOpt, Args.optional, Args.len, Args.take, Args.str, Args.consume, Args.next]; rfl
    rw [h3, h4]
    simp only [Res.bind_ok, stop_end]
  · rw [h1, h2]

/-- A documented default is the value of a parameter that is left out. -/
theorem C79_defaults {g : BuiltinGroup} (hg : g ∈ groups) {name : String} {doc : BuiltinDoc} (h : getDoc g name = some doc) {n : Nat} {a : Arg}
    (ha : doc.args[n]? = some a) (ho : a.optional = true) :
    ∃ x : String, a.default = some ("String::from(\"" ++ x ++ "\")") ∧ ∀ args : List (Val C), args.length = n →
      callIo L O chk cname lim d name args = callIo L O chk cname lim d name (args ++ [.str x.toList]) := by
  obtain ⟨h1, h2⟩ := getDoc_mem hg h
  have key : ∀ doc ∈ allDocs, (∃ a ∈ doc.args, a.optional = true) → doc = truncate_DOC ∨ doc = split_DOC ∨ doc = join_DOC := by decide +kernel
  rcases key doc h1 ⟨a, List.mem_of_getElem? ha, ho⟩ with rfl | rfl | rfl
  · have hn : n = 2 ∧ a = opt "ellipsis" "str" "String::from(\"...\")" := by
      match n with
      | 0 => cases ha; cases ho
      | 1 => cases ha; cases ho
      | 2 => cases ha; exact ⟨rfl, rfl⟩
      | n + 3 => simp [truncate_DOC, Docs.doc] at ha
    obtain ⟨rfl, rfl⟩ := hn
    refine ⟨"...", rfl, fun args hl => ?_⟩
    subst h2
    show some _ = some _
    exact congrArg some (builtin_default L (ks := [.str, .int]) (by decide) args hl d lim)
  · have hn : n = 1 ∧ a = opt "sep" "str" "String::from(\" \")" := by
      match n with
      | 0 => cases ha; cases ho
      | 1 => cases ha; exact ⟨rfl, rfl⟩
      | n + 2 => simp [split_DOC, Docs.doc] at ha
    obtain ⟨rfl, rfl⟩ := hn
    refine ⟨" ", rfl, fun args hl => ?_⟩
    subst h2
    show some _ = some _
    exact congrArg some (builtin_default L (ks := [.str]) (by decide) args hl d lim)
  · have hn : n = 1 ∧ a = opt "sep" "str" "String::from(\"\")" := by
      match n with
      | 0 => cases ha; cases ho
      | 1 => cases ha; exact ⟨rfl, rfl⟩
      | n + 2 => simp [join_DOC, Docs.doc] at ha
    obtain ⟨rfl, rfl⟩ := hn
    refine ⟨"", rfl, fun args hl => ?_⟩
    subst h2
    show some _ = some _
    exact congrArg some (builtin_default L (ks := [.list]) (by decide) args hl d lim)

/-- Every builtin but one has a description that ends a line. -/
theorem C79_described_partial : ∀ g ∈ groups, ∀ doc ∈ g.builtins, doc.name ≠ "alpha" →
    doc.description ≠ "" ∧ doc.description ≠ "\n" ∧ doc.description.toList.getLast? = some '\n' := by decide +kernel

/-- `@alpha` has none (`colors.rs:98`). -/
theorem C79_violated_description : getDoc colors_DOCS "alpha" = some alpha_DOC ∧ alpha_DOC.description = "" := by decide +kernel

/-- The documentation of `@truncate(s: str, len: int, ?ellipsis: str = String::from("..."))` and what it says of some calls. -/
example : getDoc strings_DOCS "truncate" = some truncate_DOC ∧ truncate_DOC.returns = ["str"] ∧
    truncate_DOC.args = [⟨"s", "str", false, none⟩, ⟨"len", "int", false, none⟩, ⟨"ellipsis", "str", true, some "String::from(\"...\")"⟩] := by decide +kernel
example : complaint truncate_DOC.args [Val.str "quilt".toList, (Val.int 4 : Val C)] = none := rfl
example : complaint truncate_DOC.args [Val.str "quilt".toList, (Val.none : Val C)] = some (.type (.expected "int" "none")) := rfl
example : complaint truncate_DOC.args [(Val.str "quilt".toList : Val C)] = some (.builtin "too litte arguments supplied to builtin, expected `int`") := rfl
example : complaint int_from_radix_DOC.args [Val.str "1".toList, (Val.bool true : Val C)] = some (.type (.expected "int" "bool")) := rfl
example : complaint println_DOC.args [Val.none, (Val.int 1 : Val C)] = none := rfl
example : callIo L O chk cname lim d "get" [.arr [.int 7] 16 16, .int 0, .int (1 : BitVec 64)] = some (.err (.builtin "too many arguments, got extra int"), d) :=
  (C79_arguments L O chk cname lim d (g := core_DOCS) (by simp [groups]) (doc := get_DOC) (by decide +kernel) _).1 _ rfl
example : callIo L O chk cname lim d "join" [.arr [.int 7, .int 8] 32 32] = callIo L O chk cname lim d "join" [.arr [.int 7, .int 8] 32 32, .str []] :=
  have ⟨x, hx, h⟩ := C79_defaults L O chk cname lim d (g := strings_DOCS) (by simp [groups]) (doc := join_DOC) (name := "join") (by decide +kernel) (n := 1) rfl rfl
  have : x = "" := by
    have h1 := congrArg (fun o => (o.map String.length).getD 0) hx
    have h3 : "String::from(\"".length = 14 ∧ "\")".length = 2 := by decide +kernel
    simp only [Option.map_some, Option.getD_some, String.length_append, h3] at h1
    have h4 : (opt "sep" "str" "String::from(\"\")").default = some "String::from(\"\")" := rfl
    rw [h4, Option.map_some, Option.getD_some, show "String::from(\"\")".length = 16 by decide +kernel] at h1
    exact String.length_eq_zero_iff.1 (by omega)
  by subst this; exact h _ rfl

end Quilt.Props
