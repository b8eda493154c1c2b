import Verif.Props.Lang
import Verif.Sem.Program

/-!
# Variables, calls, contexts: C23, C24, C25, C27, C29, C34
-/

namespace Quilt.Props

open SM
open VM (CellsOk)

variable {D : Type} {M : Machine.Setup D} {data : D} {S : SHost D} {m : Machine D} {pre : List Node} {k : Nat} {σ σ0 σ1 σ2 σ' : SSt D} {v r : SVal}
variable {call : SClos → List SVal → SM D SVal} {W : Nat} {env : SEnv}

private def z : Span := Span.default

/-! ## C29: destructuring -/

/-- The names stand for the values, position by position: each name is a variable with a new location
holding its value; nothing else changes. -/
structure Binds (names : List String) (vs : List SVal) (env : SEnv) (σ : SSt D) (env' : SEnv) (σ' : SSt D) : Prop where
  named : ∀ (i : Nat) (x : String), names[i]? = some x → ∃ w l, vs[i]? = some w ∧ lookup x env' = some l ∧ σ.next ≤ l ∧ l < σ'.next ∧ σ'.store l = w
  distinct : ∀ x ∈ names, ∀ y ∈ names, lookup x env' = lookup y env' → x = y
  others : ∀ y, y ∉ names → lookup y env' = lookup y env
  old : ∀ l, l < σ.next → σ'.store l = σ.store l
  rest : σ'.globals = σ.globals ∧ σ'.data = σ.data ∧ σ'.exits = σ.exits

theorem bindVars_binds {bs : List (String × SVal)} (hn : (bs.map Prod.fst).Nodup) (env : SEnv) (σ : SSt D) :
    ∃ env' σ', bindVars bs env σ = (.ok env', σ') ∧ Binds (bs.map Prod.fst) (bs.map Prod.snd) env σ env' σ' := by
  refine ⟨_, _, bindVars_eq bs env σ, ?_⟩
  have hlook : ∀ (i : Nat) (x : String), (bs.map Prod.fst)[i]? = some x → ∃ w, bs[i]? = some (x, w) ∧ lookup x (bound bs σ.next ++ env) = some (σ.next + i) := by
    intro i x hx
    rw [List.getElem?_map] at hx
    cases hb : bs[i]? with
    | none => rw [hb] at hx; simp at hx
    | some b =>
      rw [hb] at hx
      simp only [Option.map_some, Option.some.injEq] at hx
      obtain ⟨y, w⟩ := b
      simp only at hx
      subst hx
      refine ⟨w, rfl, ?_⟩
      rw [lookup_append, lookup_bound_some y bs σ.next i w hb ?_]
      · rfl
      · rw [List.map_drop]
        have h1 : (bs.map Prod.fst)[i]? = some y := by rw [List.getElem?_map, hb]; rfl
        intro hm
        obtain ⟨j, hj⟩ := List.mem_iff_getElem?.1 hm
        rw [List.getElem?_drop] at hj
        have := nodup_get hn h1 hj
        omega
  refine ⟨fun i x hx => ?_, fun x hx y hy he => ?_, fun y hy => ?_, fun l hl => storeAll_below _ _ _ _ hl, rfl, rfl, rfl⟩
  · obtain ⟨w, h1, h2⟩ := hlook i x hx
    have hi : i < bs.length := (List.getElem?_eq_some_iff.1 h1).1
    exact ⟨w, σ.next + i, by rw [List.getElem?_map, h1]; rfl, h2, by omega, by simp only; omega, storeAll_get bs σ.store σ.next i (x, w) h1⟩
  · obtain ⟨i, hi⟩ := List.mem_iff_getElem?.1 hx
    obtain ⟨j, hj⟩ := List.mem_iff_getElem?.1 hy
    obtain ⟨_, _, h2⟩ := hlook i x hi
    obtain ⟨_, _, h3⟩ := hlook j y hj
    rw [h2, h3] at he
    have : i = j := by simpa using he
    subst this
    rw [hi] at hj
    exact Option.some.inj hj
  · rw [lookup_append, lookup_bound_none y bs σ.next hy]; rfl

theorem Binds.reverse {names : List String} {vs : List SVal} {env' : SEnv} (hl : names.length = vs.length)
    (h : Binds names.reverse vs.reverse env σ env' σ') : Binds names vs env σ env' σ' := by
  refine ⟨fun i x hx => ?_, fun x hx y hy => h.distinct x (by simpa using hx) y (by simpa using hy), fun y hy => h.others y (by simpa using hy), h.old, h.rest⟩
  have hi : i < names.length := (List.getElem?_eq_some_iff.1 hx).1
  obtain ⟨w, l, h1, h2⟩ := h.named (names.length - 1 - i) x (by
    rw [List.getElem?_reverse (by omega), show names.length - 1 - (names.length - 1 - i) = i by omega]; exact hx)
  refine ⟨w, l, ?_, h2⟩
  rw [List.getElem?_reverse (by omega), show vs.length - 1 - (names.length - 1 - i) = i by omega] at h1
  exact h1

/-- The values that names are bound to when `v` is unpacked into `n` names, if it can be. -/
def unpacked (v : SVal) (n : Nat) : Option (List SVal) :=
  match components v with
  | some cs => if cs.length = n ∨ (v.ntype = "color" ∧ 1 ≤ n ∧ n ≤ 4) then some (cs.take n) else none
  | none => none

theorem unpack_ok {v : SVal} {n : Nat} {cs : List SVal} (h : unpacked v n = some cs) : v.unpack n = .ok cs ∧ cs.length = n := by
  have hu := C29_unpack v n
  unfold unpacked at h
  cases hc : components v with
  | none => rw [hc] at h; simp at h
  | some xs =>
    rw [hc] at h hu
    simp only at h hu
    split at h
    · rename_i hcond
      simp only [Option.some.injEq] at h
      subst h
      have hcol : v.ntype = "color" → xs.length = 4 := by
        intro hcol
        cases v <;> simp [Val.ntype, components] at hcol hc
        subst hc; rfl
      rw [hu, if_neg, if_pos]
      · refine ⟨rfl, ?_⟩
        rcases hcond with h1 | ⟨h1, h2, h3⟩
        · simp; omega
        · have := hcol h1; simp; omega
      · rcases hcond with h1 | h1
        · exact .inl h1
        · exact .inr ⟨h1.1, h1.2.1⟩
      · rintro ⟨h1, h2⟩
        have := hcol h1
        rcases hcond with h3 | h3 <;> omega
    · simp at h

/-- `let x1, …, xn = v` in a local scope, different names: the `k`-th name stands for the `k`-th component. -/
theorem C29_local {xs : List (String × Span)} {cs : List SVal} (sp : Span) (hv : unpacked v xs.length = some cs) (hn : (xs.map Prod.fst).Nodup)
    (env : SEnv) (σ : SSt D) : ∃ env' σ', declVars (.many xs) sp v env σ = (.ok env', σ') ∧ Binds (xs.map Prod.fst) cs env σ env' σ' := by
  obtain ⟨h1, h2⟩ := unpack_ok hv
  have hz : (((xs.map Prod.fst).zip cs).reverse.map Prod.fst) = (xs.map Prod.fst).reverse := by
    rw [List.map_reverse, List.map_fst_zip (by simp [h2])]
  have hz' : (((xs.map Prod.fst).zip cs).reverse.map Prod.snd) = cs.reverse := by
    rw [List.map_reverse, List.map_snd_zip (by simp [h2])]
  obtain ⟨env', σ', h3, h4⟩ := bindVars_binds (bs := ((xs.map Prod.fst).zip cs).reverse) (by rw [hz]; exact List.pairwise_reverse.2 (hn.imp Ne.symm)) env σ
  rw [hz, hz'] at h4
  refine ⟨env', σ', ?_, h4.reverse (by simp [h2])⟩
  unfold declVars
  simp only [h1]
  exact (bind_of_ok (show (SM.lift (.ok cs) sp : SM D (List SVal)) σ = (.ok cs, σ) from rfl)).trans h3

/-- The errors. -/
theorem C29_errors (xs : List (String × Span)) (sp : Span) (env : SEnv) (σ : SSt D) (v : SVal) :
    (components v = none → declVars (.many xs) sp v env σ = (.err (.type (.unpackable v.ntype)) (some sp), σ)) ∧
    (∀ cs, components v = some cs → cs.length ≠ xs.length → (v.ntype ≠ "color" ∨ xs = []) →
      declVars (.many xs) sp v env σ = (.err (.type (.insufficientValues cs.length xs.length)) (some sp), σ)) := by
  have hu := C29_unpack v xs.length
  refine ⟨fun h => ?_, fun cs h hl hc => ?_⟩
  · rw [h] at hu
    simp only at hu
    unfold declVars
    simp only [hu]
    rfl
  · rw [h] at hu
    simp only at hu
    rw [if_neg, if_neg] at hu
    · unfold declVars
      simp only [hu]
      rfl
    · rintro (h1 | h1)
      · exact hl h1
      · rcases hc with hc | hc
        · exact hc h1.1
        · subst hc; simp at h1
    · rintro ⟨h1, h2⟩
      rcases hc with hc | hc
      · exact hc h1
      · subst hc; simp at h2

theorem defGlobals_eq : ∀ (bs : List (String × SVal)) (σ : SSt D), ∃ g, defGlobals bs σ = (.ok (), { σ with globals := g }) ∧
    (∀ y, y ∉ bs.map Prod.fst → g y = σ.globals y) ∧ ((bs.map Prod.fst).Nodup → ∀ b ∈ bs, g b.1 = some b.2)
  | [], σ => ⟨σ.globals, rfl, fun _ _ => rfl, fun _ b hb => by simp at hb⟩
  | (x, v) :: r, σ => by
    obtain ⟨g, h1, h2, h3⟩ := defGlobals_eq r { σ with globals := fun y => if y = x then some v else σ.globals y }
    refine ⟨g, h1, fun y hy => ?_, fun hn b hb => ?_⟩
    · simp only [List.map_cons, List.mem_cons, not_or] at hy
      rw [h2 y hy.2]; exact if_neg hy.1
    · simp only [List.map_cons, List.nodup_cons] at hn
      rcases List.mem_cons.1 hb with rfl | hb
      · rw [h2 _ hn.1]; exact if_pos rfl
      · exact h3 hn.2 b hb

/-- Compiled programs `pre; let x1, …, xn = e; last` with different names: in the state before `last`, and so in the VM
after `last = none`, the `k`-th global holds the `k`-th component, other globals are unchanged. -/
theorem C29_program {sp sp' : Span} {xs : List (String × Span)} {e : Node} {cs : List SVal}
    (h : Runs M data ((pre ++ [.decl sp (.many xs) e]) ++ [.lit sp' .none]) S σ0 m) (hpre : evTop S k pre σ0 = (.ok (), σ))
    (he : ev S k e [] σ = (.ok v, σ1)) (hv : unpacked v xs.length = some cs) (hn : (xs.map Prod.fst).Nodup) :
    ∃ g, Returns m .none { σ1 with globals := g } ∧ (∀ y, y ∉ xs.map Prod.fst → g y = σ1.globals y) ∧
      ∀ (i : Nat) x, xs[i]? = some x → g x.1 = cs[i]? := by
  obtain ⟨h1, h2⟩ := unpack_ok hv
  obtain ⟨g, h3, h4, h5⟩ := defGlobals_eq ((xs.map Prod.fst).zip cs) σ1
  rw [List.map_fst_zip (by simp [h2])] at h4 h5
  have hst : evTop S k (pre ++ [.decl sp (.many xs) e]) σ0 = (.ok (), { σ1 with globals := g }) := by
    unfold evTop
    rw [evalEach_append, bind_of_ok hpre]
    simp only [evalEach, Node.isStatement, evalTopStmt]
    refine (bind_of_ok (a := ()) (σ1 := { σ1 with globals := g }) ?_).trans rfl
    rw [bind_of_ok he]
    simp only [h1]
    exact (bind_of_ok (show (SM.lift (.ok cs) sp : SM D (List SVal)) σ1 = (.ok cs, σ1) from rfl)).trans h3
  refine ⟨g, returns h rfl hst rfl, h4, fun i x hx => ?_⟩
  have hi : i < xs.length := (List.getElem?_eq_some_iff.1 hx).1
  have hc : cs[i]? = some cs[i] := List.getElem?_eq_getElem (by omega)
  rw [hc]
  refine h5 hn (x.1, cs[i]) (List.mem_iff_getElem?.2 ⟨i, ?_⟩)
  rw [List.getElem?_zip_eq_some]
  exact ⟨by rw [List.getElem?_map, hx]; rfl, hc⟩

/-- `let a, b = 1 -> 2  none` -/
def demoDestruct : List Node := ([] ++ [.decl z (.many [("a", z), ("b", z)]) (.pair z (.lit z (.int 1)) (.lit z (.int 2)))]) ++ [.lit z .none]

example : (∃ script, Runs demoSetup 7 demoDestruct demoS demoσ (Machine.new demoSetup 7 script)) ∧
    ev demoS 3 (.pair z (.lit z (.int 1)) (.lit z (.int 2))) [] demoσ = (.ok (.pair (.int 1) (.int 2)), demoσ) ∧
    unpacked (.pair (.int 1) (.int 2)) 2 = some [.int 1, .int 2] :=
  ⟨demo_runs demoDestruct (by decide +kernel) (by decide +kernel) (by decide +kernel), rfl, rfl⟩

/-! ## C27: calls -/

/-- Arguments are evaluated left to right. -/
inductive ArgsRun (ev : Node → SM D SVal) : List Node → SSt D → List SVal → SSt D → Prop
  | nil {σ : SSt D} : ArgsRun ev [] σ [] σ
  | cons {n : Node} {ns : List Node} {v : SVal} {vs : List SVal} {σ σ1 σ' : SSt D} : ev n σ = (.ok v, σ1) → ArgsRun ev ns σ1 vs σ' → ArgsRun ev (n :: ns) σ (v :: vs) σ'

theorem args_run : ∀ (ns : List Node) (σ : SSt D) (vs : List SVal) (σ' : SSt D),
    evalArgs S call W ns env σ = (.ok vs, σ') ↔ ArgsRun (fun n => evalNode S call W n env) ns σ vs σ'
  | [], σ, vs, σ' => by
    rw [evalArgs, pure_ok_iff]
    constructor
    · rintro ⟨rfl, rfl⟩; exact .nil
    · rintro ⟨⟩; exact ⟨rfl, rfl⟩
  | n :: ns, σ, vs, σ' => by
    have ih := args_run ns
    rw [evalArgs, bind_ok_iff]
    constructor
    · rintro ⟨v, σ1, h1, h2⟩
      obtain ⟨ws, σ2, h3, h4⟩ := bind_ok_iff.1 h2
      obtain ⟨rfl, rfl⟩ := pure_ok_iff.1 h4
      exact .cons h1 ((ih _ _ _).1 h3)
    · rintro (_ | ⟨h1, h2⟩)
      exact ⟨_, _, h1, bind_ok_iff.2 ⟨_, _, (ih _ _ _).2 h2, pure_ok_iff.2 ⟨rfl, rfl⟩⟩⟩

/-- `f(a1, …, an)`, anywhere: the callee, then the arguments left to right are evaluated; then the callee is
called if it is a function with `n` parameters. -/
theorem C27_call (sp : Span) (f : Node) (args : List Node) :
    evalNode S call W (.call sp f args) env σ = (.ok r, σ') ↔
      ∃ c σ1 vs σ2, evalNode S call W f env σ = (.ok (.clos c), σ1) ∧ ArgsRun (fun n => evalNode S call W n env) args σ1 vs σ2 ∧
        vs.length = c.params.length ∧ call c vs σ2 = (.ok r, σ') := by
  have he : evalNode S call W (.call sp f args) env = (do
      let f ← evalNode S call W f env
      let vs ← evalArgs S call W args env
      applyVal call sp f vs) := by rw [evalNode]
  rw [he, bind_ok_iff]
  constructor
  · rintro ⟨fv, σ1, h1, h2⟩
    obtain ⟨vs, σ2, h3, h4⟩ := bind_ok_iff.1 h2
    unfold applyVal at h4
    split at h4
    · split at h4
      · simp [SM.err] at h4
      · rename_i c hne
        exact ⟨c, σ1, vs, σ2, h1, (args_run _ _ _ _).1 h3, by simpa using hne, h4⟩
    · simp [SM.err] at h4
  · rintro ⟨c, σ1, vs, σ2, h1, h2, h3, h4⟩
    refine ⟨_, σ1, h1, bind_ok_iff.2 ⟨vs, σ2, (args_run _ _ _ _).2 h2, ?_⟩⟩
    simp only [applyVal, h3, ne_eq, not_true_eq_false, if_false]
    exact h4

/-- Wrong number of arguments, or not a function: an error, and nothing of the callee has been run (the
state is that after the arguments). -/
theorem C27_rejects (sp : Span) (f : Node) (args : List Node) {fv : SVal} {vs : List SVal} (hf : evalNode S call W f env σ = (.ok fv, σ1))
    (ha : ArgsRun (fun n => evalNode S call W n env) args σ1 vs σ2) :
    (∀ c, fv = .clos c → vs.length ≠ c.params.length →
      evalNode S call W (.call sp f args) env σ = (.err (.type (.mismatchedArity c.name c.params.length vs.length)) none, σ2)) ∧
    ((∀ c, fv ≠ .clos c) → evalNode S call W (.call sp f args) env σ = (.err (.type (.notCallable fv.ntype)) (some sp), σ2)) := by
  have he : evalNode S call W (.call sp f args) env = (do
      let f ← evalNode S call W f env
      let vs ← evalArgs S call W args env
      applyVal call sp f vs) := by rw [evalNode]
  rw [he, bind_of_ok hf, bind_of_ok ((args_run _ _ _ _).2 ha)]
  refine ⟨?_, fun h => ?_⟩
  · rintro c rfl hne
    simp only [applyVal, ne_eq, hne, not_false_eq_true, if_true]
    rfl
  · unfold applyVal
    split
    · exact absurd rfl (h _)
    · rfl

/-- Calls: the body is run in the scope of the function's definition, extended by the function's name and the parameters, which
stand for the arguments by position (names all different); it yields the value returned. -/
theorem C27_body {c : SClos} {vs : List SVal} {n : Nat} (hl : vs.length = c.params.length) (hn : (c.name :: c.params).Nodup) :
    callN S W (n + 1) c vs σ = (.ok r, σ') ↔ ∃ env1 σ1 σ2,
      Binds (c.name :: c.params) (.clos c :: vs) c.env { σ with data := S.onEnter σ.data } env1 σ1 ∧
      bindVars (callScope c vs) c.env { σ with data := S.onEnter σ.data } = (.ok env1, σ1) ∧
      evalStmts S (callN S W n) W c.body env1 σ1 = (.ret r, σ2) ∧ σ' = { σ2 with data := S.onExit σ2.data } := by
  have h1 : (callScope c vs).map Prod.fst = c.name :: c.params := by
    simp only [callScope, List.map_cons]; rw [List.map_fst_zip (by omega)]
  have h2 : (callScope c vs).map Prod.snd = .clos c :: vs := by
    simp only [callScope, List.map_cons]; rw [List.map_snd_zip (by omega)]
  obtain ⟨env1, σ1, h3, h4⟩ := bindVars_binds (bs := callScope c vs) (by rw [h1]; exact hn) c.env { σ with data := S.onEnter σ.data }
  rw [h1, h2] at h4
  simp only [callN, bind_of_ok h3]
  constructor
  · intro h
    split at h <;> simp only [Prod.mk.injEq, Out.ok.injEq, reduceCtorEq, false_and] at h
    rename_i w σ2 hw
    obtain ⟨rfl, rfl⟩ := h
    exact ⟨env1, σ1, σ2, h4, h3, hw, rfl⟩
  · rintro ⟨env1', σ1', σ2, _, h5, h6, rfl⟩
    rw [h3] at h5
    simp only [Prod.mk.injEq, Out.ok.injEq] at h5
    obtain ⟨rfl, rfl⟩ := h5
    rw [h6]

/-- Compiled programs ending with a call. -/
theorem C27_call_program {sp : Span} {f : Node} {args : List Node} {fv : SVal} {vs : List SVal} (h : Runs M data (pre ++ [.call sp f args]) S σ0 m)
    (hpre : evTop S k pre σ0 = (.ok (), σ)) (hf : ev S k f [] σ = (.ok fv, σ1)) (ha : ArgsRun (fun n => ev S k n []) args σ1 vs σ2) :
    (∀ c r σ', fv = .clos c → vs.length = c.params.length → callN S k k c vs σ2 = (.ok r, σ') → Returns m r σ') ∧
    ((∀ c, fv ≠ .clos c) → Raises m (.type (.notCallable fv.ntype)) sp σ2) ∧
    (∀ c, fv = .clos c → vs.length ≠ c.params.length → ∃ N C, ∀ n c', N ≤ n → C ≤ c' → ∀ clock : Nat → Bool, (∀ t, clock t = false) →
      ∃ fuel sp s', (m.withLimits n c').run clock fuel = some (.err (.type (.mismatchedArity c.name c.params.length vs.length)) sp s') ∧ s'.data = σ2.data) := by
  refine ⟨fun c r σ' hc hl hr => ?_, fun hc => ?_, fun c hc hl => ?_⟩
  · subst hc
    exact returns h rfl hpre ((C27_call sp f args).2 ⟨c, σ1, vs, σ2, hf, ha, hl, hr⟩)
  · exact raises h rfl hpre ((C27_rejects sp f args hf ha).2 hc) (by simp)
  · obtain ⟨N, C, hN⟩ := C21_error h ((evalProgram_snoc rfl hpre).trans ((C27_rejects sp f args hf ha).1 c hc hl)) (by simp)
    refine ⟨N, C, fun n c' hn hc' clock hk => ?_⟩
    obtain ⟨fuel, sp', s', h1, _, h3, _⟩ := hN n c' hn hc' clock hk
    exact ⟨fuel, sp', s', h1, h3⟩

/-- `fn f(a, b) { return a - b }  f(5, 3)` -/
def demoCall : List Node :=
  [.func z ("f", z) [("a", z), ("b", z)] [.ret z (some (.bin z .sub (.ident z "a") (.ident z "b")))]] ++ [.call z (.ident z "f") [.lit z (.int 5), .lit z (.int 3)]]

example : (∃ script, Runs demoSetup 7 demoCall demoS demoσ (Machine.new demoSetup 7 script)) ∧
    ∃ c σ1 σ2, evTop demoS 3 [.func z ("f", z) [("a", z), ("b", z)] [.ret z (some (.bin z .sub (.ident z "a") (.ident z "b")))]] demoσ = (.ok (), σ1) ∧
      ev demoS 3 (.ident z "f") [] σ1 = (.ok (.clos c), σ1) ∧ ArgsRun (fun n => ev demoS 3 n []) [.lit z (.int 5), .lit z (.int 3)] σ1 [.int 5, .int 3] σ1 ∧
      c.params = ["a", "b"] ∧ callN demoS 3 3 c [.int 5, .int 3] σ1 = (.ok (.int 2), σ2) :=
  ⟨demo_runs demoCall (by decide +kernel) (by decide +kernel) (by decide +kernel), _, _, _, rfl, rfl, .cons rfl (.cons rfl .nil), rfl, rfl⟩

/-! ## C23: sharing of captured variables

First for arbitrary bytecode: cells. `CellsOk` holds in every reachable state (C50). -/

/-- Value of a captured variable: on the stack as long as its scope is active, then in the cell. -/
def cellVal (s : VM D) (c : Nat) : VVal :=
  match s.heap c with
  | .opened l => s.stack l
  | .closed v => v

/-- Two closures over the same cell: one reads what the other one has written; other variables are unaffected. -/
theorem C23_set (H : Host D) (s s' : VM D) (hs : CellsOk s) (i c : Nat) (hi : s.frame.ups[i]? = some c) (hc : c < s.hp)
    (h : s.exec H (.setUpvalue i) = .next s') :
    cellVal s' c = s.stack (s.sp - 1) ∧ (∀ c', c' < s.hp → c' ≠ c → cellVal s' c' = cellVal s c') := by
  unfold VM.exec at h
  simp only [hi] at h
  split at h
  · simp at h
  · cases hh : s.heap c with
    | opened l =>
      rw [hh] at h
      simp only at h
      split at h
      · rename_i ho; unfold VM.oobR VM.errAt at h; split at h <;> simp at h
      · simp only [StepR.next.injEq] at h
        subst h
        refine ⟨by simp [cellVal, hh], fun c' hc' hne => ?_⟩
        simp only [cellVal]
        cases hh' : s.heap c' with
        | closed v => rfl
        | opened l' =>
          have : l' ≠ l := by rintro rfl; exact hne (hs.inj c' c l' hc' hc hh' hh)
          exact upd_other _ _ this
    | closed v =>
      rw [hh] at h
      simp only [StepR.next.injEq] at h
      subst h
      exact ⟨by simp [cellVal], fun c' hc' hne => by simp [cellVal, upd_other _ _ hne]⟩

/-- Reading a captured variable pushes its value. -/
theorem C23_get (H : Host D) (s s' : VM D) (i c : Nat) (hi : s.frame.ups[i]? = some c) (h : s.exec H (.loadUpvalue i) = .next s') :
    s'.stack s.sp = cellVal s c ∧ s'.sp = s.sp + 1 := by
  unfold VM.exec at h
  simp only [hi] at h
  have push : ∀ v, s.push H v = .next s' → s'.stack s.sp = v ∧ s'.sp = s.sp + 1 := by
    intro v hv
    unfold VM.push at hv
    split at hv
    · simp [VM.errAt] at hv
    · simp only [StepR.next.injEq] at hv; subst hv; simp [VM.pushU]
  cases hh : s.heap c with
  | opened l =>
    rw [hh] at h
    simp only at h
    split at h
    · unfold VM.oobR VM.errAt at h; split at h <;> simp at h
    · have := push _ h; simpa [cellVal, hh] using this
  | closed v => rw [hh] at h; have := push _ h; simpa [cellVal, hh] using this

/-- The scope that declared a captured variable accesses it through its stack slot: the same variable. -/
theorem C23_declaring_scope (H : Host D) (s s' : VM D) (hs : CellsOk s) (i c : Nat) (hc : c < s.hp) (ho : s.heap c = .opened (s.frame.st + i)) :
    (s.exec H (.setLocal i) = .next s' → cellVal s' c = s.stack (s.sp - 1) ∧ (∀ c', c' < s.hp → c' ≠ c → cellVal s' c' = cellVal s c')) ∧
    (s.exec H (.loadLocal i) = .next s' → s'.stack s.sp = cellVal s c ∧ s'.sp = s.sp + 1) := by
  constructor
  · intro h
    unfold VM.exec at h
    simp only at h
    split at h
    · simp at h
    · split at h
      · unfold VM.oobR VM.errAt at h; split at h <;> simp at h
      · simp only [StepR.next.injEq] at h
        subst h
        refine ⟨by simp [cellVal, ho], fun c' hc' hne => ?_⟩
        simp only [cellVal]
        cases hh' : s.heap c' with
        | closed v => rfl
        | opened l' =>
          have : l' ≠ s.frame.st + i := by rintro rfl; exact hne (hs.inj c' c _ hc' hc hh' ho)
          exact upd_other _ _ this
  · intro h
    unfold VM.exec at h
    simp only at h
    split at h
    · unfold VM.oobR VM.errAt at h; split at h <;> simp at h
    · unfold VM.push at h
      split at h
      · simp [VM.errAt] at h
      · simp only [StepR.next.injEq] at h; subst h; simp [VM.pushU, cellVal, ho]

theorem closeUp_cellVal (H : Host D) (s : VM D) (hs : CellsOk s) (l : Nat) (c : Nat) (hc : c < s.hp) :
    cellVal (s.closeUp H l) c = cellVal s c := by
  by_cases hr : reached H.opts.stackSize l = true
  · simp [VM.closeUp, hr]
  · have h1 := VM.closeUp_heap (H := H) hs l c hc (by simpa using hr)
    have h2 : (s.closeUp H l).stack = s.stack := by unfold VM.closeUp; split <;> rfl
    simp only [cellVal, h1, h2]
    cases hh : s.heap c with
    | opened l' =>
      simp only
      by_cases hl : l' = l
      · subst hl; simp
      · simp [hl]
    | closed v => rfl

/-- Leaving the scope of a variable (its slot is closed) changes no captured variable. -/
theorem C23_survives_scope (H : Host D) (s s' : VM D) (hs : CellsOk s) (h : s.exec H .closeUpvalue = .next s') (c : Nat) (hc : c < s.hp) :
    cellVal s' c = cellVal s c := by
  unfold VM.exec at h
  simp only at h
  split at h
  · simp at h
  · simp only [StepR.next.injEq] at h
    subst h
    exact closeUp_cellVal H s hs _ c hc

theorem closeRange_cells (H : Host D) : ∀ (n lo : Nat) (s : VM D), CellsOk s → ∀ c, c < s.hp →
    cellVal (s.closeRange H lo n) c = cellVal s c ∧ CellsOk (s.closeRange H lo n) ∧ (s.closeRange H lo n).hp = s.hp ∧ (s.closeRange H lo n).stack = s.stack ∧
    ∀ l, (s.closeRange H lo n).heap c = .opened l → s.heap c = .opened l ∧ (l < lo ∨ lo + n ≤ l ∨ reached H.opts.stackSize l = true)
  | 0, lo, s, hs, c, hc => ⟨rfl, hs, rfl, rfl, fun l hl => ⟨hl, by omega⟩⟩
  | n + 1, lo, s, hs, c, hc => by
    have h1 := VM.closeUp_cells (H := H) hs lo
    have h2 : (s.closeUp H lo).hp = s.hp := by unfold VM.closeUp; split <;> rfl
    have h3 : (s.closeUp H lo).stack = s.stack := by unfold VM.closeUp; split <;> rfl
    obtain ⟨a, b, d, e, f⟩ := closeRange_cells H n (lo + 1) (s.closeUp H lo) h1 c (by omega)
    refine ⟨a.trans (closeUp_cellVal H s hs lo c hc), b, d.trans h2, e.trans h3, fun l hl => ?_⟩
    obtain ⟨f1, f2⟩ := f l hl
    by_cases hr : reached H.opts.stackSize lo = true
    · have he : s.closeUp H lo = s := by simp [VM.closeUp, hr]
      rw [he] at f1
      refine ⟨f1, ?_⟩
      by_cases hlo : l = lo
      · subst hlo; exact .inr (.inr hr)
      · rcases f2 with f2 | f2 | f2
        · exact .inl (by omega)
        · exact .inr (.inl (by omega))
        · exact .inr (.inr f2)
    · have h4 := VM.closeUp_heap (H := H) hs lo c hc (by simpa using hr)
      rw [h4] at f1
      cases hh : s.heap c with
      | closed v => rw [hh] at f1; simp at f1
      | opened l' =>
        rw [hh] at f1
        simp only at f1
        split at f1
        · simp at f1
        · rename_i hne
          simp only [Cell.opened.injEq] at f1
          subst f1
          refine ⟨rfl, ?_⟩
          rcases f2 with f2 | f2 | f2
          · exact .inl (by omega)
          · exact .inr (.inl (by omega))
          · exact .inr (.inr f2)

/-- Returning from a call (captured variables are below the result, within the stack) changes no captured variable. -/
theorem C23_survives_return (H : Host D) (s s' : VM D) (hs : CellsOk s) (h : s.exec H .ret = .next s')
    (hb : ∀ c l, c < s.hp → s.heap c = .opened l → l < s.sp - 1 ∧ reached H.opts.stackSize l = false) (c : Nat) (hc : c < s.hp) :
    cellVal s' c = cellVal s c := by
  unfold VM.exec VM.pop at h
  simp only at h
  split at h
  · simp at h
  · have hs' : CellsOk { s with sp := s.sp - 1 } := ⟨hs.listed, hs.inj⟩
    obtain ⟨a, b, d, e, f⟩ := closeRange_cells H (s.sp - 1 - s.frame.st) s.frame.st { s with sp := s.sp - 1 } hs' c hc
    generalize hq : VM.closeRange H { s with sp := s.sp - 1 } s.frame.st (s.sp - 1 - s.frame.st) = q at h a b d e f
    have hst : q.frame.st = s.frame.st := by
      rw [← hq]
      have : ∀ (n lo : Nat) (t : VM D), (t.closeRange H lo n).frame = t.frame := by
        intro n
        induction n with
        | zero => intro lo t; rfl
        | succ n ih => intro lo t; rw [VM.closeRange, ih]; unfold VM.closeUp; split <;> rfl
      rw [this]
    split at h
    · unfold VM.push at h
      split at h
      · simp [VM.errAt] at h
      · simp only [StepR.next.injEq] at h
        subst h
        have ha : cellVal s c = cellVal { s with sp := s.sp - 1 } c := rfl
        rw [ha, ← a]
        simp only [cellVal, VM.pushU]
        cases hh : q.heap c with
        | closed v => rfl
        | opened l =>
          obtain ⟨f1, f2⟩ := f l hh
          obtain ⟨g1, g2⟩ := hb c l hc f1
          refine upd_other _ _ ?_
          rw [hst]
          rcases f2 with f2 | f2 | f2
          · omega
          · omega
          · rw [g2] at f2; simp at f2
    · split at h <;> simp at h

/-- Source level: assignment through one scope is read through every scope (of any function or block) where the name stands for the same
variable, and through no other. -/
theorem C23_shared {env1 : SEnv} {x : String} {l : Nat} {sp : Span} (h1 : lookup x env1 = some l) (σ : SSt D) (v : SVal) :
    ∃ σ', writeVar x sp env1 v σ = (.ok (), σ') ∧
      (∀ y env2 sp', lookup y env2 = some l → readVar y sp' env2 σ' = (.ok v, σ')) ∧
      ∀ y env2 sp' w, lookup y env2 ≠ some l → readVar y sp' env2 σ = (.ok w, σ) → readVar y sp' env2 σ' = (.ok w, σ') := by
  refine ⟨{ σ with store := upd σ.store l v }, by simp only [writeVar, h1]; rfl, fun y env2 sp' h2 => ?_, fun y env2 sp' w h2 hr => ?_⟩
  · simp only [readVar, h2, SM.load, upd_same]
  · unfold readVar at hr ⊢
    cases hl : lookup y env2 with
    | some l' =>
      rw [hl] at hr
      simp only [SM.load, Prod.mk.injEq, Out.ok.injEq, and_true] at hr ⊢
      rw [upd_other _ _ (by rintro rfl; exact h2 hl)]; exact hr
    | none =>
      rw [hl] at hr
      simp only at hr ⊢
      obtain ⟨o, σ1, h3, h4⟩ := bind_ok_iff.1 hr
      simp only [SM.getGlobal, Prod.mk.injEq, Out.ok.injEq] at h3
      obtain ⟨rfl, rfl⟩ := h3
      refine bind_ok_iff.2 ⟨σ.globals y, { σ with store := upd σ.store l v }, rfl, ?_⟩
      cases hg : σ.globals y with
      | none => rw [hg] at h4; simp [SM.err] at h4
      | some u =>
        rw [hg] at h4
        obtain ⟨rfl, _⟩ := pure_ok_iff.1 h4
        rfl

/-- Functions see the variables of their scope themselves, not copies. -/
theorem C23_captures (sp : Span) (params : List (String × Span)) (body : List Node) :
    ∃ c, evalNode S call W (.lambda sp params body) env σ = (.ok (.clos c), σ) ∧ ∀ x, lookup x c.env = lookup x env :=
  ⟨_, by rw [evalNode]; rfl, fun _ => rfl⟩

/-- The outcome is the integer. -/
def valueInt (o : Out SVal) (i : BitVec 64) : Bool :=
  match o with
  | .ok (.int b) => b == i
  | _ => false

/-- `fn mk() { let n = 0  fn inc() { n = n + 1  return n }  fn get() { return n }  inc()  inc()  return [inc, get] }  let i, g = mk()  i()  g()`:
both functions refer to the same variable, after the call of `mk` has ended. -/
def demoShare : List Node :=
  [.func z ("mk", z) [] [.decl z (.one ("n", z)) (.lit z (.int 0)),
      .func z ("inc", z) [] [.assign z ("n", z) (.bin z .add (.ident z "n") (.lit z (.int 1))), .ret z (some (.ident z "n"))],
      .func z ("get", z) [] [.ret z (some (.ident z "n"))], .call z (.ident z "inc") [], .call z (.ident z "inc") [],
      .ret z (some (.array z [.ident z "inc", .ident z "get"]))],
    .decl z (.many [("i", z), ("g", z)]) (.call z (.ident z "mk") []), .call z (.ident z "i") []] ++ [.call z (.ident z "g") []]

example : (∃ script, Runs demoSetup 7 demoShare demoS demoσ (Machine.new demoSetup 7 script)) ∧ valueInt (evalProgram demoS 9 demoShare demoσ).1 3 = true :=
  ⟨demo_runs demoShare (by decide +kernel) (by decide +kernel) (by decide +kernel), by decide +kernel⟩

/-! ## C24: loop variables -/

/-- No function within the value refers to variable `l`. -/
def Unaware (l : Nat) (v : SVal) : Prop := Only (fun c => ∀ p ∈ c.env, p.2 ≠ l) v

/-- Nothing refers to variable `l`: neither the scope nor any function stored anywhere. -/
structure Fresh (l : Nat) (env : SEnv) (σ : SSt D) : Prop where
  scope : ∀ p ∈ env, p.2 ≠ l
  store : ∀ l', Unaware l (σ.store l')
  globals : ∀ x v, σ.globals x = some v → Unaware l v

/-- Everything refers to existing variables only. Holds in all states that programs reach, see `reached_closed`. -/
abbrev Closed (env : SEnv) (σ : SSt D) : Prop := EnvOk none σ.next env ∧ StOk (fun _ => false) False none σ

theorem Closed.fresh (h : Closed env σ) : Fresh σ.next env σ := by
  have hv : ∀ v, ValOk (fun _ => false) False none σ.next v → Unaware σ.next v :=
    fun v => Only.mono fun c hc p hp => Nat.ne_of_lt (hc.1.1 p hp)
  exact ⟨fun p hp => Nat.ne_of_lt (h.1.1 p hp), fun l' => hv _ (h.2.1 l'), fun x v hx => hv v (h.2.2.1 x v hx)⟩

/-- What is known of every host and state a program starts with. -/
theorem Runs.scope {ast : List Node} (h : Runs M data ast S σ m) : (∀ x, BuiltinOk (S.builtins x) S.lim) ∧ ∀ K dsc, StOk K dsc none σ := by
  obtain ⟨script, _, h2⟩ := h.prepared
  exact ⟨(h2.scope (fun _ => false) False).2.1, fun K dsc => (h2.scope K dsc).2.2⟩

theorem calls_bp (hS : ∀ x, BuiltinOk (S.builtins x) S.lim) {hid : Option (Nat × SVal)} (W n : Nat) : BP.CallBP (fun _ => false) False hid (callN S W n) :=
  BP.callN hS (fun h => h.elim) n

/-- Top-level statements lead to states in order. -/
theorem reached_closed {ast : List Node} (h : Runs M data ast S σ0 m) (hpre : evTop S k pre σ0 = (.ok (), σ)) : Closed [] σ := by
  obtain ⟨h1, h2⟩ := h.scope
  have := (BP.each h1 (K := fun _ => false) (dsc := False) (hid := none) (fun h => h.elim) (calls_bp h1 k k) (W := k) pre 0 fun h => h.elim) σ0 (Nat.zero_le _) (h2 _ _)
  unfold evTop at hpre
  rw [hpre] at this
  exact ⟨BP.envNil, this.1⟩

/-- So do expressions. -/
theorem eval_closed (hS : ∀ x, BuiltinOk (S.builtins x) S.lim) (hcl : Closed env σ) {e : Node} (he : ev S k e env σ = (.ok v, σ1)) :
    Closed env σ1 ∧ σ.next ≤ σ1.next ∧ ValOk (fun _ => false) False none σ1.next v := by
  have := (BP.node hS (K := fun _ => false) (dsc := False) (hid := none) (fun h => h.elim) (calls_bp hS k k) (W := k) e false env σ.next (fun h => h.elim) hcl.1)
    σ (Nat.le_refl _) hcl.2
  unfold ev at he
  rw [he] at this
  exact ⟨⟨hcl.1.mono this.2.1, this.1⟩, this.2.1, this.2.2.1⟩

/-- Each iteration of a `for` loop has a variable of its own: it does not exist before, nothing refers to it, and there are
at least as many new variables as there were iterations. (The variable of an iteration starting in state `σ` is `σ.next`, see `iteration`.) -/
theorem C24_iterations (hS : ∀ x, BuiltinOk (S.builtins x) S.lim) (x : String) (body : List Node) : ∀ (xs : List SVal) (last : SVal) (σ : SSt D),
    Closed env σ → (∀ w ∈ xs, ValOk (fun _ => false) False none σ.next w) → Visits (iteration S (callN S k k) k x body env) xs last σ r σ' →
    Closed env σ' ∧ Fresh σ'.next env σ' ∧ σ.next + xs.length ≤ σ'.next
  | [], last, σ, hcl, hxs, hv => by
    cases hv
    exact ⟨hcl, hcl.fresh, Nat.le_refl _⟩
  | y :: ys, last, σ, hcl, hxs, hv => by
    cases hv with
    | @step _ w _ _ _ _ σ1 _ h1 h2 =>
      have hb := BP.bind (BP.bindVars (D := D) (K := fun _ => false) (dsc := False) (hid := none) (r := true) (bs := [(x, y)]) (env := env) (n0 := σ.next)
          (by simpa using hxs y (by simp)) hcl.1) fun n1 env' hn he' =>
        BP.stmts hS (fun h => h.elim) (calls_bp hS k k) (W := k) body false env' n1 (fun h => h.elim) he'
      have hb := hb σ (Nat.le_refl _) hcl.2
      have heq : (bindVars [(x, y)] env >>= fun env' => evalStmts S (callN S k k) k body env') σ = (.ok w, σ1) := h1
      have hnext : σ.next + 1 ≤ σ1.next := by
        have := (BP.stmts hS (K := fun _ => false) (dsc := False) (hid := none) (fun h => h.elim) (calls_bp hS k k) (W := k) body false ((x, σ.next) :: env) (σ.next + 1)
          (fun h => h.elim) (by
            refine ⟨fun p hp => ?_, fun _ _ h => by simp at h⟩
            rcases List.mem_cons.1 hp with rfl | hp
            · exact Nat.lt_succ_self _
            · exact Nat.lt_succ_of_lt (hcl.1.1 p hp))) { σ with store := upd σ.store σ.next y, next := σ.next + 1 } (Nat.le_refl _) (by
              have := (BP.alloc (D := D) (K := fun _ => false) (dsc := False) (hid := none) (r := true) (n0 := σ.next) (hxs y (by simp))) σ (Nat.le_refl _) hcl.2
              exact this.1)
        unfold iteration at h1
        rw [h1] at this
        exact this.2.1
      rw [heq] at hb
      have hcl1 : Closed env σ1 := ⟨hcl.1.mono hb.2.1, hb.1⟩
      obtain ⟨a, b, c⟩ := C24_iterations hS x body ys w σ1 hcl1 (fun u hu => (hxs u (by simp [hu])).mono hb.2.1) h2
      exact ⟨a, b, by simp only [List.length_cons]; omega⟩

/-- Variables of two iterations of a loop are different: before the later one there was at least one more allocation. -/
theorem C24_distinct (hS : ∀ x, BuiltinOk (S.builtins x) S.lim) (x : String) (body : List Node) {y : SVal} {ys : List SVal} {last w l2 : SVal}
    (hcl : Closed env σ) (hxs : ∀ w ∈ y :: ys, ValOk (fun _ => false) False none σ.next w) (h1 : iteration S (callN S k k) k x body env y σ = (.ok w, σ1))
    (h2 : Visits (iteration S (callN S k k) k x body env) ys w σ1 l2 σ2) : σ.next ≠ σ2.next ∧ Fresh σ2.next env σ2 := by
  obtain ⟨_, h3, h4⟩ := C24_iterations hS x body (y :: ys) last σ hcl hxs (.step h1 h2)
  simp only [List.length_cons] at h4
  exact ⟨by omega, h3⟩

/-- Assigning to one variable does not change what is read from another one. -/
theorem C24_independent {env1 env2 : SEnv} {x y : String} {l l' : Nat} {sp sp' : Span} (h1 : lookup x env1 = some l) (h2 : lookup y env2 = some l') (hne : l ≠ l')
    (σ : SSt D) (v : SVal) : ∃ σ', writeVar x sp env1 v σ = (.ok (), σ') ∧ readVar y sp' env2 σ' = (.ok (σ.store l'), σ') := by
  obtain ⟨σ', h3, _, h4⟩ := C23_shared (sp := sp) h1 σ v
  refine ⟨σ', h3, h4 y env2 sp' _ (by rw [h2]; simpa using hne.symm) ?_⟩
  simp only [readVar, h2]; rfl

theorem elements_ok {K : String → Bool} {dsc : Prop} {n : Nat} {v : SVal} {xs : List SVal} (hv : ValOk K dsc none n v) (hx : elements v = some xs) :
    ∀ w ∈ xs, ValOk K dsc none n w := by
  intro w hw
  cases v <;> simp only [elements, Option.some.injEq, reduceCtorEq] at hx
  case arr ys _ _ => subst hx; exact ValsOk.all hv.1 w hw
  all_goals
    subst hx
    simp only [List.mem_map, List.mem_cons, List.not_mem_nil, or_false] at hw
  case color => rcases hw with rfl | rfl | rfl | rfl <;> rfl
  all_goals obtain ⟨_, _, rfl⟩ := hw; rfl

/-- In compiled programs `pre; for x in it { body }`: the loop's iterations have different, fresh variables. -/
theorem C24_program {sp : Span} {x : String × Span} {it : Node} {body : List Node} (h : Runs M data (pre ++ [.forIn sp x it body]) S σ0 m)
    (hpre : evTop S k pre σ0 = (.ok (), σ)) (hit : ev S k it [] σ = (.ok v, σ1)) {xs ys : List SVal} (hx : elements v = some (xs ++ ys))
    (hvis : Visits (iteration S (callN S k k) k x.1 body []) xs .none σ1 r σ2) : Fresh σ2.next [] σ2 ∧ σ1.next + xs.length ≤ σ2.next := by
  have hS := h.scope.1
  obtain ⟨h1, _, h3⟩ := eval_closed hS (reached_closed h hpre) hit
  obtain ⟨_, h5, h6⟩ := C24_iterations hS x.1 body xs .none σ1 h1 (fun w hw => elements_ok h3 hx w (by simp [hw])) hvis
  exact ⟨h5, h6⟩

/-- `for x in [5, 6] { x = 9 }`: variables 0 and 1. -/
def demoVars : List Node := [] ++ [.forIn z ("x", z) (.array z [.lit z (.int 5), .lit z (.int 6)]) [.assign z ("x", z) (.lit z (.int 9))]]

example : (∃ script, Runs demoSetup 7 demoVars demoS demoσ (Machine.new demoSetup 7 script)) ∧ evTop demoS 3 [] demoσ = (.ok (), demoσ) ∧
    ∃ v σ2, ev demoS 3 (.array z [.lit z (.int 5), .lit z (.int 6)]) [] demoσ = (.ok v, demoσ) ∧ elements v = some [.int 5, .int 6] ∧
      Visits (iteration demoS (callN demoS 3 3) 3 "x" [.assign z ("x", z) (.lit z (.int 9))] []) [.int 5, .int 6] .none demoσ (.int 9) σ2 ∧ σ2.next = 2 :=
  ⟨demo_runs demoVars (by decide +kernel) (by decide +kernel) (by decide +kernel), rfl, _, _, rfl, rfl, .step rfl (.step rfl .done), rfl⟩

/-! ## C25: scoping -/

/-- The local of the current function that a name refers to: the last one declared (so the innermost one). -/
def LastNamed (x : String) (ls : List Local) (i : Nat) : Prop :=
  (∃ l, ls[i]? = some l ∧ l.name = x) ∧ ∀ j l, ls[j]? = some l → l.name = x → j ≤ i

theorem lastIdx_last {x : String} : ∀ {ls : List Local} {i : Nat}, lastIdx x ls = some i → LastNamed x ls i
  | [], i, h => by simp [lastIdx] at h
  | l :: ls, i, h => by
    refine ⟨lastIdx_some h, fun j l' hj hn => ?_⟩
    simp only [lastIdx] at h
    cases h1 : lastIdx x ls with
    | some k =>
      rw [h1] at h
      simp only [Option.some.injEq] at h
      subst h
      cases j with
      | zero => omega
      | succ j => have := (lastIdx_last h1).2 j l' (by simpa using hj) hn; omega
    | none =>
      rw [h1] at h
      simp at h
      cases j with
      | zero => omega
      | succ j => exact absurd hn (lastIdx_none.1 h1 l' (List.mem_of_getElem? (by simpa using hj)))

/-- The variable that a function's `j`-th captured variable is: local `i` of the `d`-th enclosing function. -/
inductive Captured : GLevel → List GLevel → Nat → Nat → Nat → Prop
  | here {l p ps j} {u : Upv} : l.upvalues[j]? = some u → u.isLocal = true → Captured l (p :: ps) j 0 u.idx
  | up {l p ps j d i} {u : Upv} : l.upvalues[j]? = some u → u.isLocal = false → Captured p ps u.idx d i → Captured l (p :: ps) j (d + 1) i

theorem chain_captured : ∀ (ps : List GLevel) (l : GLevel), ChainOk l ps → ∀ (j : Nat) (u : Upv), l.upvalues[j]? = some u →
    ∃ d i p, Captured l ps j d i ∧ ps[d]? = some p ∧ LastNamed u.name p.locals i ∧ ∀ d' q, d' < d → ps[d']? = some q → ∀ y ∈ q.locals, y.name ≠ u.name
  | [], l, hc, j, u, hu => by
    have : l.upvalues = [] := hc
    rw [this] at hu; simp at hu
  | p :: ps, l, hc, j, u, hu => by
    have h1 := hc.1 u (List.mem_of_getElem? hu)
    cases hl : u.isLocal with
    | true =>
      rw [hl] at h1
      simp only [if_true] at h1
      exact ⟨0, u.idx, p, .here hu hl, rfl, lastIdx_last h1.1, fun d' q hd' => by omega⟩
    | false =>
      rw [hl] at h1
      simp only [Bool.false_eq_true, if_false] at h1
      obtain ⟨h2, u', h3, h4⟩ := h1
      obtain ⟨d, i, q, h5, h6, h7, h8⟩ := chain_captured ps p hc.2 u.idx u' h3
      refine ⟨d + 1, i, q, .up hu hl h5, by simpa using h6, h4 ▸ h7, fun d' q' hd' hq' => ?_⟩
      cases d' with
      | zero => simp at hq'; subst hq'; exact lastIdx_none.1 h2
      | succ d' => rw [← h4]; exact h8 d' q' (by omega) (by simpa using hq')

/-- What the compiler (in any state its tables can be in) takes a name for: the innermost declaration of the current function; else the innermost
one of the nearest enclosing function that has one; else the global of this name. -/
theorem C25_resolves {g g' : GState} {x : String} {r : GState.Ref} (h : GInv g) (he : g.resolve x = (r, g')) :
    match r with
    | .loc i => LastNamed x g.cur.locals i
    | .up j => (∀ y ∈ g.cur.locals, y.name ≠ x) ∧ ∃ d i p, Captured g'.cur g'.encl j d i ∧ g'.encl[d]? = some p ∧ LastNamed x p.locals i ∧
        ∀ d' q, d' < d → g'.encl[d']? = some q → ∀ y ∈ q.locals, y.name ≠ x
    | .glob i => (∀ y ∈ g.cur.locals, y.name ≠ x) ∧ (∀ l ∈ g.encl, ∀ y ∈ l.locals, y.name ≠ x) ∧ (g'.globals.entries.length ≤ 65536 → g'.globals.entries[i]? = some x) := by
  unfold GState.resolve at he
  cases h1 : lastIdx x g.cur.locals with
  | some i =>
    rw [h1] at he; simp only [Prod.mk.injEq] at he
    obtain ⟨rfl, rfl⟩ := he
    exact lastIdx_last h1
  | none =>
    rw [h1] at he; simp only at he
    cases h2 : resolveUp x g.cur g.encl with
    | some q =>
      obtain ⟨j, l, ls⟩ := q
      rw [h2] at he
      simp only [Prod.mk.injEq] at he
      obtain ⟨rfl, rfl⟩ := he
      obtain ⟨_, _, _, h3, u, h4, h5⟩ := resolveUp_spec h.chain h2
      subst h5
      exact ⟨lastIdx_none.1 h1, chain_captured ls l h3 j u h4⟩
    | none =>
      rw [h2] at he
      simp only [GState.addGlobal, Prod.mk.injEq] at he
      obtain ⟨rfl, rfl⟩ := he
      simp only
      · refine ⟨lastIdx_none.1 h1, ?_, fun hl => Pool.add_pos h.globals x hl⟩
        have : ∀ (ps : List GLevel) (l : GLevel), resolveUp x l ps = none → ∀ p ∈ ps, ∀ y ∈ p.locals, y.name ≠ x := by
          intro ps
          induction ps with
          | nil => intro l _ p hp; simp at hp
          | cons q ps ih =>
            intro l hn p hp
            simp only [resolveUp] at hn
            cases h3 : lastIdx x q.locals with
            | some i => rw [h3] at hn; simp at hn
            | none =>
              rw [h3] at hn
              simp only at hn
              rcases List.mem_cons.1 hp with rfl | hp
              · exact lastIdx_none.1 h3
              · refine ih q ?_ p hp
                cases h4 : resolveUp x q ps with
                | none => rfl
                | some w => obtain ⟨a, b, c⟩ := w; rw [h4] at hn; simp at hn
        exact this g.encl g.cur h2

/-- Three nested functions (innermost first) of which the outermost declares `x` twice and the one in between nothing: captured through it. -/
example : (⟨⟨[⟨"y", 1, false⟩], [], 1, Pool.empty, Pool.empty⟩, [⟨[], [], 1, Pool.empty, Pool.empty⟩, ⟨[⟨"x", 1, false⟩, ⟨"x", 2, false⟩, ⟨"z", 2, false⟩], [], 2, Pool.empty, Pool.empty⟩], Pool.empty, []⟩ : GState).resolve "x" =
    (.up 0, ⟨⟨[⟨"y", 1, false⟩], [⟨0, false, "x"⟩], 1, Pool.empty, Pool.empty⟩, [⟨[], [⟨1, true, "x"⟩], 1, Pool.empty, Pool.empty⟩, ⟨[⟨"x", 1, false⟩, ⟨"x", 2, true⟩, ⟨"z", 2, false⟩], [], 2, Pool.empty, Pool.empty⟩], Pool.empty, []⟩) := rfl

/-- Variable `l` cannot be named: not in the scope, nor in any function stored anywhere (it may be shadowed there). -/
structure Hidden (l : Nat) (env : SEnv) (σ : SSt D) : Prop where
  allocated : l < σ.next
  scope : EnvOk none σ.next env ∧ ∀ y, lookup y env ≠ some l
  store : ∀ l', Only (fun c => EnvOk none σ.next c.env ∧ ∀ y, lookup y c.env ≠ some l) (σ.store l')
  globals : ∀ x v, σ.globals x = some v → Only (fun c => EnvOk none σ.next c.env ∧ ∀ y, lookup y c.env ≠ some l) v

theorem Hidden.st {l : Nat} (h : Hidden l env σ) : StOk (fun _ => false) False (some (l, σ.store l)) σ ∧ EnvOk (some (l, σ.store l)) σ.next env := by
  have hc : ∀ c : SClos, (EnvOk none σ.next c.env ∧ ∀ y, lookup y c.env ≠ some l) → ClosOk (fun _ => false) False (some (l, σ.store l)) σ.next c := by
    rintro c ⟨h1, h2⟩
    refine ⟨⟨h1.1, fun l' v hl' y => ?_⟩, fun h => h.elim⟩
    simp only [Option.some.injEq, Prod.mk.injEq] at hl'
    obtain ⟨rfl, rfl⟩ := hl'
    exact h2 y
  refine ⟨⟨fun l' => (h.store l').mono hc, fun x v hx => (h.globals x v hx).mono hc, fun l' v hl' => ?_⟩, h.scope.1.1, fun l' v hl' y => ?_⟩
  · simp only [Option.some.injEq, Prod.mk.injEq] at hl'
    obtain ⟨rfl, rfl⟩ := hl'
    exact ⟨h.allocated, rfl⟩
  · simp only [Option.some.injEq, Prod.mk.injEq] at hl'
    obtain ⟨rfl, rfl⟩ := hl'
    exact h.scope.2 y

/-- Evaluating statements leaves every variable they cannot name unchanged, whatever the outcome. -/
theorem C25_unnamed_unchanged (hS : ∀ x, BuiltinOk (S.builtins x) S.lim) {l : Nat} (h : Hidden l env σ) (body : List Node) :
    (evBlock S k body env σ).2.store l = σ.store l := by
  obtain ⟨h1, h2⟩ := h.st
  have := (BP.stmts hS (fun h => h.elim) (calls_bp hS k k) (W := k) body false env σ.next (fun h => h.elim) h2) σ (Nat.le_refl _) h1
  exact (this.1.2.2 l _ rfl).2

/-- Shadowing: in `{ let x = e1  { let x = lit  body }  x }`, after any statements `pre` and for any `body`, the VM
returns the value of the outer `x`, `e1`. -/
theorem C25_shadowing {sp1 sp2 sp3 sp4 sp5 sp6 : Span} {x : String} {xsp xsp' : Span} {e1 : Node} {lit : Literal} {body : List Node} {w : SVal}
    (h : Runs M data (pre ++ [.block sp1 [.decl sp2 (.one (x, xsp)) e1, .block sp3 (.decl sp4 (.one (x, xsp')) (.lit sp5 lit) :: body), .ident sp6 x]]) S σ0 m)
    (hpre : evTop S k pre σ0 = (.ok (), σ)) (he : ev S k e1 [] σ = (.ok v, σ1))
    (hb : evBlock S k body [(x, σ1.next + 1), (x, σ1.next)]
      { σ1 with store := upd (upd σ1.store σ1.next v) (σ1.next + 1) lit.toVal, next := σ1.next + 2 } = (.ok w, σ2)) :
    Returns m v σ2 := by
  have hS := h.scope.1
  obtain ⟨hcl, _, hv⟩ := eval_closed hS (reached_closed h hpre) he
  have hfr := hcl.fresh
  have hone : ∀ {u : SVal}, ValOk (fun _ => false) False none σ1.next u → Only (fun c => EnvOk none (σ1.next + 2) c.env ∧ ∀ y, lookup y c.env ≠ some σ1.next) u := by
    intro u hu
    refine Only.mono (fun c hc => ⟨hc.1.mono (by omega), fun y hy => ?_⟩) hu
    have : ∀ (e : SEnv), (∀ p ∈ e, p.2 < σ1.next) → lookup y e ≠ some σ1.next := by
      intro e
      induction e with
      | nil => intro _; simp [lookup]
      | cons p e ih =>
        intro hp
        obtain ⟨a, b⟩ := p
        simp only [lookup]
        split
        · have := hp (a, b) (by simp); simp only at this; simp; omega
        · exact ih fun q hq => hp q (by simp [hq])
    exact this c.env hc.1.1 hy
  have hh : Hidden σ1.next [(x, σ1.next + 1), (x, σ1.next)]
      { σ1 with store := upd (upd σ1.store σ1.next v) (σ1.next + 1) lit.toVal, next := σ1.next + 2 } := by
    refine ⟨by simp, ⟨⟨by simp, fun _ _ h => by simp at h⟩, fun y => ?_⟩, fun l' => ?_, fun y u hu => hone (hcl.2.2.1 y u hu)⟩
    · simp only [lookup]
      split
      · simp
      · simp
    · show Only _ (upd (upd σ1.store σ1.next v) (σ1.next + 1) lit.toVal l')
      by_cases h1 : l' = σ1.next + 1
      · subst h1; rw [upd_same]; exact Val.Rel.toVal lit
      · rw [upd_other _ _ h1]
        by_cases h2 : l' = σ1.next
        · subst h2; rw [upd_same]; exact hone hv
        · rw [upd_other _ _ h2]; exact hone (hcl.2.1 l')
  have hun := C25_unnamed_unchanged (k := k) hS hh body
  rw [hb] at hun
  have hun : σ2.store σ1.next = v := by
    rw [hun]
    show upd (upd σ1.store σ1.next v) (σ1.next + 1) lit.toVal σ1.next = v
    rw [upd_other _ _ (by omega), upd_same]
  refine returns h rfl hpre ?_
  have hbody : body ≠ [] := by rintro rfl; simp [evBlock, evalStmts, SM.unspec] at hb
  obtain ⟨b0, bs, rfl⟩ : ∃ b0 bs, body = b0 :: bs := by cases body with | nil => exact absurd rfl hbody | cons a b => exact ⟨a, b, rfl⟩
  unfold ev at he ⊢
  unfold evBlock at hb
  simp only [evalNode, evalStmts, Node.isStatement, evalStmt, if_true, Bool.false_eq_true, if_false]
  refine (bind_of_ok (a := [(x, σ1.next)]) (σ1 := { σ1 with store := upd σ1.store σ1.next v, next := σ1.next + 1 }) ?_).trans ?_
  · exact (bind_of_ok he).trans rfl
  refine (bind_of_ok (a := w) (σ1 := σ2) ?_).trans ?_
  · refine (bind_of_ok (a := [(x, σ1.next + 1), (x, σ1.next)])
      (σ1 := { σ1 with store := upd (upd σ1.store σ1.next v) (σ1.next + 1) lit.toVal, next := σ1.next + 2 }) ?_).trans hb
    rfl
  · simp only [readVar, lookup, if_true, SM.load, hun]

/-- `{ let x = 1  { let x = 2  x = 3 }  x }` -/
def demoShadow : List Node := [] ++ [.block z [.decl z (.one ("x", z)) (.lit z (.int 1)),
  .block z (.decl z (.one ("x", z)) (.lit z (.int 2)) :: [.assign z ("x", z) (.lit z (.int 3))]), .ident z "x"]]

example : (∃ script, Runs demoSetup 7 demoShadow demoS demoσ (Machine.new demoSetup 7 script)) ∧
    ∃ σ2, evBlock demoS 3 [.assign z ("x", z) (.lit z (.int 3))] [("x", 1), ("x", 0)]
      { demoσ with store := upd (upd demoσ.store 0 (.int 1)) 1 (.int 2), next := 2 } = (.ok (.int 3), σ2) :=
  ⟨demo_runs demoShadow (by decide +kernel) (by decide +kernel) (by decide +kernel), _, rfl⟩

/-- Code of an expression obeying the slot discipline, placed anywhere in a program: afterwards its value is on top of the stack, everything else below (operands that
are still needed, loop counters, …) is unchanged, variables hold what the direct semantics prescribes, and the function continues behind the code.
(`St`, `Bound`, `CodeAt`: the machine executes a function compiled from source, in a state corresponding to `σ`.) The full statement, without the
discipline `wf`, is false, see `C25_violated`. -/
theorem C25_expression_partial {H : Host D} {A : Act} {K : Nat → Prop} {γ slots : LocMap} {g g' : GState} {s : VM D} {c : Code} {n : Node} {al : Bool}
    (hH : HRel H S) (hg : genNode H.cfg true .expr n g = .ok ((), c, g')) (hw : n.wf al = true) (hb : Bound H A K g') (hc : CodeAt A.fn s.frame.ip c)
    (hst : St H A K γ slots g env σ s) (hal : al = true → s.sp = A.st + g.cur.locals.length) (he : evalNode S (callN S k k) k n env σ = (.ok v, σ')) :
    ∃ γ' t s', s.steps H t = some s' ∧ s'.sp = s.sp + 1 ∧ VRel H.cfg H.syms.entries γ' v (s'.stack s.sp) ∧
      s'.frames = s.frames ∧ s'.frame = { s.frame with ip := s.frame.ip + c.len } ∧ s'.blockResults = s.blockResults ∧
      (∀ i, i < s.sp → slots i = none → s'.stack i = s.stack i) ∧
      ∀ i l, slots i = some l → VRel H.cfg H.syms.entries γ' (σ'.store l) (s'.stack i) := by
  have h := sim_node hH (callN_ok hH (B := ⟨k, none⟩) (W := k) k (Nat.le_succ _) (Nat.le_succ _)) (Nat.le_refl k) n hg hw hb hc hst hal
  rw [he] at h
  obtain ⟨γ', slots', s', ⟨t, _, h1⟩, h2, h3⟩ := h
  refine ⟨γ', t, s', h1, h3.sp, h3.val, h2.frames, ?_, h2.br, h3.same, fun i l hl => (h3.ok.slot i l hl).2.2⟩
  have := h3.ip
  have := h2.fn
  have := h2.ups
  have := h2.base
  cases hf : s'.frame
  cases hf' : s.frame
  simp_all

/-- The program compiles, and the VM returns the integer. -/
def returnsInt (ast : List Node) (i : BitVec 64) : Bool :=
  match compile demoSetup.cfg ast with
  | .ok script =>
    match (Machine.new demoSetup 7 script).run (fun _ => false) 100 with
    | some (.done (.int b) _) => b == i
    | _ => false
  | _ => false

/-- `1 + { let a = 2  a }` -/
def misaligned : List Node := [.bin z .add (.lit z (.int 1)) (.block z [.decl z (.one ("a", z)) (.lit z (.int 2)), .ident z "a"])]

/-- The discipline is necessary: this program's value is 3, the VM returns 4 (`a` is taken to be in the slot of the
pending operand 1, which it overwrites). -/
theorem C25_violated : (∃ σ', evalProgram demoS 3 misaligned demoσ = (.ok (.int 3), σ')) ∧ returnsInt misaligned 4 = true ∧ wfProgram misaligned = false :=
  ⟨⟨_, rfl⟩, by decide +kernel, by decide +kernel⟩

/-! ## C34: contexts -/

/-- `with @x(args) as v { body }`, anywhere: if only context managers are used as contexts and no `return` leaves a context (`disc`), the
exit function of this very context is run exactly once, after the body, on the data the body left; pending exit functions are as before. -/
theorem C34_exits_partial (hS : ∀ x, BuiltinOk (S.builtins x) S.lim) {K : String → Bool} (hK : ∀ x, K x = true → ∃ f e, S.builtins x = some (.ctx f e))
    {sp : Span} {x : String × Span} {args : List Node} {vr : Option Var} {body : List Node} {i : Bool}
    (hd : (Node.ctx sp x args vr body).disc K i = true) (henv : EnvOk none σ.next env) (hst : StOk K True none σ)
    (he : ev S k (.ctx sp x args vr body) env σ = (.ok r, σ')) :
    ∃ f e vs σ1 w d1 env2 σ2 σ3 d3, S.builtins x.1 = some (.ctx f e) ∧ ArgsRun (fun n => ev S k n env) args σ vs σ1 ∧
      f σ1.data vs S.lim = (.ok w, d1) ∧ ctxVars vr sp w env { σ1 with data := d1, exits := e :: σ1.exits } = (.ok env2, σ2) ∧
      evBlock S k body env2 σ2 = (.ok r, σ3) ∧ σ3.exits = e :: σ.exits ∧ e σ3.data = (.ok (), d3) ∧ σ' = { σ3 with data := d3, exits := σ.exits } := by
  simp only [Node.disc, Bool.and_eq_true] at hd
  obtain ⟨⟨hd1, hd2⟩, hd3⟩ := hd
  obtain ⟨f, e, hb⟩ := hK x.1 hd1
  have hcall : BP.CallBP K True none (callN S k k) := BP.callN hS (fun _ => hK) k
  unfold ev at he
  rw [show evalNode S (callN S k k) k (.ctx sp x args vr body) env = (do
    let vs ← evalArgs S (callN S k k) k args env
    let r ← enterCtx S x.1 x.2 vs
    let env' ← ctxVars vr sp r env
    let res ← evalStmts S (callN S k k) k body env'
    popExit sp
    return res) from by rw [evalNode]] at he
  obtain ⟨vs, σ1, h1, he⟩ := bind_ok_iff.1 he
  obtain ⟨w, σ1', h2, he⟩ := bind_ok_iff.1 he
  obtain ⟨env2, σ2, h3, he⟩ := bind_ok_iff.1 he
  obtain ⟨res, σ3, h4, he⟩ := bind_ok_iff.1 he
  obtain ⟨_, σ4, h5, he⟩ := bind_ok_iff.1 he
  obtain ⟨rfl, rfl⟩ := pure_ok_iff.1 he
  have b1 := BP.args hS (fun _ => hK) hcall (W := k) args i env σ.next (fun _ => hd2) henv σ (Nat.le_refl _) hst
  rw [h1] at b1
  have b2 := BP.enterCtx hS (dsc := True) (K := K) (hid := none) (x := x.1) (sp := x.2) b1.2.2.1 (fun _ => ⟨f, e, hb⟩) σ1 (Nat.le_refl _) b1.1
  rw [h2] at b2
  have b3 := BP.ctxVars (D := D) (r := false) (v := vr) (sp := sp) b2.2.2.1 (henv.mono (Nat.le_trans b1.2.1 b2.2.1)) σ1' (Nat.le_refl _) b2.1
  rw [h3] at b3
  have b4 := BP.stmts hS (fun _ => hK) hcall (W := k) body true env2 σ2.next (fun _ => hd3) b3.2.2.1 σ2 (Nat.le_refl _) b3.1
  rw [h4] at b4
  have hx1 : σ.exits = σ1.exits := b1.2.2.2 trivial
  have hx3 : σ1'.exits = σ2.exits := b3.2.2.2 trivial
  have hx4 : σ2.exits = σ3.exits := b4.2.2.2 trivial
  have h2' : ∃ d1, f σ1.data vs S.lim = (.ok w, d1) ∧ σ1' = { σ1 with data := d1, exits := e :: σ1.exits } := by
    unfold enterCtx at h2
    rw [hb] at h2
    simp only at h2
    obtain ⟨_, σa, ha, hb'⟩ := bind_ok_iff.1 h2
    simp only [SM.pushExit, Prod.mk.injEq, true_and] at ha
    subst ha
    simp only [SM.host] at hb'
    cases hq : f σ1.data vs S.lim with
    | mk q d =>
      rw [hq] at hb'
      cases q with
      | ok a =>
        simp only [Prod.mk.injEq, Out.ok.injEq] at hb'
        obtain ⟨rfl, rfl⟩ := hb'
        exact ⟨d, rfl, rfl⟩
      | err _ => simp at hb'
      | panic => simp at hb'
  obtain ⟨d1, hf, rfl⟩ := h2'
  have hex : σ3.exits = e :: σ.exits := by rw [← hx4, ← hx3, hx1]
  unfold SM.popExit at h5
  rw [hex] at h5
  simp only [SM.host] at h5
  cases hq : e σ3.data with
  | mk q d3 =>
    rw [hq] at h5
    cases q with
    | ok a =>
      simp only [Prod.mk.injEq, true_and] at h5
      exact ⟨f, e, vs, σ1, w, d1, env2, σ2, σ3, d3, hb, (args_run _ _ _ _).1 h1, hf, h3, h4, hex, by rw [hq], h5.symm⟩
    | err _ => simp at h5
    | panic => simp at h5

/-- Expressions and blocks obeying the discipline leave the pending exit functions as they are, also when returning from a function. -/
theorem C34_balanced_partial (hS : ∀ x, BuiltinOk (S.builtins x) S.lim) {K : String → Bool} (hK : ∀ x, K x = true → ∃ f e, S.builtins x = some (.ctx f e))
    {body : List Node} {i : Bool} (hd : discL K i body = true) (henv : EnvOk none σ.next env) (hst : StOk K True none σ)
    (he : evBlock S k body env σ = (.ok r, σ') ∨ evBlock S k body env σ = (.ret r, σ')) : σ'.exits = σ.exits := by
  have hcall : BP.CallBP K True none (callN S k k) := BP.callN hS (fun _ => hK) k
  have b := BP.stmts hS (fun _ => hK) hcall (W := k) body i env σ.next (fun _ => hd) henv σ (Nat.le_refl _) hst
  unfold evBlock at he
  rcases he with he | he
  · rw [he] at b; exact (b.2.2.2 trivial).symm
  · rw [he] at b; exact (b.2.2.2 trivial).2.symm

/-- Compiled programs ending with a context: the VM's data is what the context's exit function made of it. -/
theorem C34_program_partial {K : String → Bool} (hK : ∀ x, K x = true → ∃ f e, S.builtins x = some (.ctx f e)) {sp : Span} {x : String × Span} {args : List Node} {vr : Option Var} {body : List Node}
    (h : Runs M data (pre ++ [.ctx sp x args vr body]) S σ0 m) (hd : discL K false (pre ++ [.ctx sp x args vr body]) = true)
    (hpre : evTop S k pre σ0 = (.ok (), σ)) (he : ev S k (.ctx sp x args vr body) [] σ = (.ok r, σ')) :
    Returns m r σ' ∧ ∃ f e d d', S.builtins x.1 = some (.ctx f e) ∧ e d = (.ok (), d') ∧ σ'.data = d' ∧ σ'.exits = σ.exits := by
  refine ⟨returns h rfl hpre he, ?_⟩
  obtain ⟨hS, h2⟩ := h.scope
  have happ : ∀ (a b : List Node), discL K false (a ++ b) = (discL K false a && discL K false b) := by
    intro a b
    induction a with
    | nil => simp [discL]
    | cons n a ih => simp [discL, ih, Bool.and_assoc]
  rw [happ, Bool.and_eq_true] at hd
  have hcall : BP.CallBP K True none (callN S k k) := BP.callN hS (fun _ => hK) k
  have b := BP.each hS (K := K) (dsc := True) (hid := none) (fun _ => hK) hcall (W := k) pre 0 (fun _ => hd.1) σ0 (Nat.zero_le _) (h2 _ _)
  unfold evTop at hpre
  rw [hpre] at b
  simp only [discL, Bool.and_true] at hd
  obtain ⟨f, e, vs, σ1, w, d1, env2, σ2, σ3, d3, h1, _, _, _, _, _, h7, rfl⟩ := C34_exits_partial hS hK hd.2 BP.envNil b.1 he
  exact ⟨f, e, σ3.data, d3, h1, h7, rfl, rfl⟩

/-- `with @c() { 1 }` with a registered context manager. -/
def demoWith : List Node := [] ++ [.ctx z ("c", z) [] none [.lit z (.int 1)]]
def demoWithS : SHost Int := { demoS with builtins := updName demoS.builtins "c" (some (.ctx (fun d _ _ => (.ok .none, d * 10 + 1)) fun d => (.ok (), d * 10 + 2))) }

example : (∃ m, Runs demoSetup 7 demoWith demoWithS demoσ m) ∧ (∀ x, decide (x = "c") = true → ∃ f e, demoWithS.builtins x = some (.ctx f e)) ∧
    discL (fun x => decide (x = "c")) false demoWith = true ∧ ∃ σ', ev demoWithS 3 (.ctx z ("c", z) [] none [.lit z (.int 1)]) [] demoσ = (.ok (.int 1), σ') ∧ σ'.data = 712 := by
  refine ⟨?_, fun x hx => ?_, by decide +kernel, _, rfl, rfl⟩
  · have hc : ∃ script, compile demoSetup.cfg demoWith = .ok script ∧
        ((Machine.new demoSetup 7 script).addBuiltins [("c", .ctx (fun d _ _ => (.ok .none, d * 10 + 1)) fun d => (.ok (), d * 10 + 2))]).host.syms.entries.length ≤ 65536 := by
      have h : compiles demoSetup.cfg demoWith 100 = true := by decide +kernel
      unfold compiles at h
      split at h
      · rename_i script hc
        refine ⟨script, hc, ?_⟩
        have := of_decide_eq_true h
        have : (script.syms.add "c").2.entries.length ≤ script.syms.entries.length + 1 := by unfold Pool.add; split <;> simp
        show (script.syms.add "c").2.entries.length ≤ 65536
        omega
      · simp at h
    obtain ⟨script, hc, hl⟩ := hc
    have hb : BuiltinRel demoSetup.opts.lim (some (.ctx (fun d _ _ => (.ok .none, d * 10 + 1)) fun d => (.ok (), d * 10 + 2) : Builtin Int SClos))
        (some (.ctx (fun d _ _ => (.ok .none, d * 10 + 1)) fun d => (.ok (), d * 10 + 2))) :=
      ⟨⟨fun _ _ _ _ _ _ => ⟨trivial, rfl⟩⟩, rfl⟩
    exact ⟨_, ⟨script, hc, .builtin "c" (b' := .ctx (fun d _ _ => (.ok .none, d * 10 + 1)) fun d => (.ok (), d * 10 + 2)) .new hb⟩, by decide +kernel, by decide +kernel, hl⟩
  · simp only [decide_eq_true_eq] at hx
    subst hx
    exact ⟨_, _, rfl⟩

/-- A context manager that appends 1 to the digits of the data when entered and 2 when left, and a plain builtin that appends 3. -/
def demoCtxs : List (String × Builtin Int VClos) :=
  [("c", .ctx (fun d _ _ => (.ok .none, d * 10 + 1)) fun d => (.ok (), d * 10 + 2)), ("p", .fn fun d _ _ => (.ok .none, d * 10 + 3))]

/-- The program compiles, and the VM ends normally with the data. -/
def leavesData (ast : List Node) (d : Int) : Bool :=
  match compile demoSetup.cfg ast with
  | .ok script =>
    match ((Machine.new demoSetup 0 script).addBuiltins demoCtxs).run (fun _ => false) 100 with
    | some (.done _ s) => s.data == d
    | _ => false
  | _ => false

/-- `with @c() { @p()  with @c() { @p() }  @p() }`: enter, p, enter, p, leave, p, leave. -/
example : leavesData [.ctx z ("c", z) [] none [.builtin z ("p", z) [], .ctx z ("c", z) [] none [.builtin z ("p", z) []], .builtin z ("p", z) []]] 1313232 = true := by decide +kernel

/-- The discipline is necessary. A plain builtin used as a context inside a context: `with @c() { with @p() { @p() }  @p() }` leaves the outer context
at the end of the inner block, before the last `@p()`. -/
theorem C34_violated_plain :
    leavesData [.ctx z ("c", z) [] none [.ctx z ("p", z) [] none [.builtin z ("p", z) []], .builtin z ("p", z) []]] 13323 = true := by decide +kernel

/-- `fn f() { with @c() { return 1 } }  f()`: the context is never left. -/
theorem C34_violated_return :
    leavesData [.func z ("f", z) [] [.ctx z ("c", z) [] none [.ret z (some (.lit z (.int 1)))], .ret z none], .call z (.ident z "f") []] 1 = true := by decide +kernel

end Quilt.Props
