import Verif.Props.Correct
import Verif.Props.Values
import Verif.Props.VmApi

/-!
# Language constructs: C15, C28, C29, C44

Each construct is characterised for every scope and state of the direct semantics (arbitrary
subterms, any nesting), and for compiled programs that end with it, after arbitrary statements `pre`: what
the VM returns or reports.
-/

namespace Quilt.Props

open SM

variable {D : Type}

/-- With large enough limits the VM returns `v`, leaving host data and globals as in `σ'`. -/
def Returns (m : Machine D) (v : SVal) (σ' : SSt D) : Prop :=
  ∃ N C, ∀ n c, N ≤ n → C ≤ c → ∀ clock : Nat → Bool, (∀ t, clock t = false) →
    ∃ fuel w s', (m.withLimits n c).run clock fuel = some (.done w s') ∧
      SameVal v w ∧ s'.data = σ'.data ∧ SameGlobals m.host.syms σ' s'

/-- With large enough limits the VM reports the error at this position, leaving host data as in `σ'`. -/
def Raises (m : Machine D) (e : Err) (sp : Span) (σ' : SSt D) : Prop :=
  ∃ N C, ∀ n c, N ≤ n → C ≤ c → ∀ clock : Nat → Bool, (∀ t, clock t = false) →
    ∃ fuel s', (m.withLimits n c).run clock fuel = some (.err e sp s') ∧ s'.data = σ'.data

/-- Expressions evaluated with bound `k`. -/
abbrev ev (S : SHost D) (k : Nat) (n : Node) (env : SEnv) : SM D SVal := evalNode S (callN S k k) k n env
abbrev evBlock (S : SHost D) (k : Nat) (ns : List Node) (env : SEnv) : SM D SVal := evalStmts S (callN S k k) k ns env
abbrev evTop (S : SHost D) (k : Nat) (ns : List Node) : SM D Unit := evalEach S (callN S k k) k ns

variable {M : Machine.Setup D} {data : D} {S : SHost D} {m : Machine D} {pre : List Node} {n : Node} {k : Nat} {σ σ0 σ1 σ2 σ' : SSt D} {v r : SVal}

theorem returns (h : Runs M data (pre ++ [n]) S σ0 m) (hn : n.isStatement = false) (hpre : evTop S k pre σ0 = (.ok (), σ1))
    (he : ev S k n [] σ1 = (.ok v, σ')) : Returns m v σ' :=
  C20_value h ((evalProgram_snoc hn hpre).trans he)

theorem raises {e : Err} {sp : Span} (h : Runs M data (pre ++ [n]) S σ0 m) (hn : n.isStatement = false) (hpre : evTop S k pre σ0 = (.ok (), σ1))
    (he : ev S k n [] σ1 = (.err e (some sp), σ')) (hne : e ≠ .overflow .stackOverflow) : Raises m e sp σ' := by
  obtain ⟨N, C, hN⟩ := C21_error h ((evalProgram_snoc hn hpre).trans he) hne
  refine ⟨N, C, fun n c hn hc clock hk => ?_⟩
  obtain ⟨fuel, sp', s', h1, h2, h3, _⟩ := hN n c hn hc clock hk
  have := h2 sp rfl
  subst this
  exact ⟨fuel, s', h1, h3⟩

variable {call : SClos → List SVal → SM D SVal} {W : Nat} {env : SEnv}

/-! ## C15: branches follow truthiness -/

theorem truthy_eq (S : SHost D) (sp : Span) (v : SVal) (σ : SSt D) : Quilt.truthy S sp v σ = match truth S.cfg.F v with
    | some b => (.ok b, σ)
    | none => (.err (.type (.expected "truthy" v.ntype)) (some sp), σ) := by
  unfold Quilt.truthy
  rw [C15_truthy]
  cases truth S.cfg.F v <;> rfl

/-- `if c { th } else { el }`, anywhere: the verdict on the condition's value selects the branch. -/
theorem C15_if (sp : Span) (c : Node) (th : List Node) (el : Option (List Node)) (hc : evalNode S call W c env σ = (.ok v, σ1)) :
    evalNode S call W (.cond sp c th el) env σ = match truth S.cfg.F v, el with
      | some true, _ => evalStmts S call W th env σ1
      | some false, some b => evalStmts S call W b env σ1
      | some false, none => (.ok .none, σ1)
      | none, _ => (.err (.type (.expected "truthy" v.ntype)) (some sp), σ1) := by
  unfold evalNode
  rw [bind_of_ok hc]
  have ht := truthy_eq S sp v σ1
  cases htr : truth S.cfg.F v with
  | none =>
    rw [htr] at ht
    exact bind_of_err ht
  | some b =>
    rw [htr] at ht
    rw [bind_of_ok ht]
    cases b with
    | true => rfl
    | false => cases el <;> simp only [Bool.false_eq_true, if_false, evalOpt] <;> rfl

/-- `n` iterations of a loop with condition `c` and body `b`, started with `last` as value so far: the
condition holds before each and fails after the last one. -/
inductive Loops (F : FOps) (c b : SM D SVal) : Nat → SVal → SSt D → SVal → SSt D → Prop
  | stop {last v : SVal} {σ σ1 : SSt D} : c σ = (.ok v, σ1) → truth F v = some false → Loops F c b 0 last σ last σ1
  | again {n : Nat} {last v w r : SVal} {σ σ1 σ2 σ' : SSt D} : c σ = (.ok v, σ1) → truth F v = some true → b σ1 = (.ok w, σ2) →
      Loops F c b n w σ2 r σ' → Loops F c b (n + 1) last σ r σ'

theorem whileN_loops (S : SHost D) (sp : Span) (c b : SM D SVal) : ∀ (W : Nat) (last : SVal) (σ : SSt D) (r : SVal) (σ' : SSt D),
    whileN S sp c b W last σ = (.ok r, σ') ↔ ∃ n, n < W ∧ Loops S.cfg.F c b n last σ r σ'
  | 0, last, σ, r, σ' => by simp [whileN, SM.timeout]
  | W + 1, last, σ, r, σ' => by
    have ih := whileN_loops S sp c b W
    unfold whileN
    rw [bind_ok_iff]
    constructor
    · rintro ⟨v, σ1, h1, h2⟩
      rw [bind_ok_iff] at h2
      obtain ⟨t, σ2, h3, h4⟩ := h2
      rw [truthy_eq] at h3
      cases htr : truth S.cfg.F v with
      | none => rw [htr] at h3; simp at h3
      | some t' =>
        rw [htr] at h3
        simp only [Prod.mk.injEq, Out.ok.injEq] at h3
        obtain ⟨rfl, rfl⟩ := h3
        cases t' with
        | false =>
          obtain ⟨rfl, rfl⟩ := pure_ok_iff.1 h4
          exact ⟨0, by omega, .stop h1 htr⟩
        | true =>
          obtain ⟨w, σ3, h5, h6⟩ := bind_ok_iff.1 h4
          obtain ⟨n, h7, h8⟩ := (ih w σ3 r σ').1 h6
          exact ⟨n + 1, by omega, .again h1 htr h5 h8⟩
    · rintro ⟨n, hn, hl⟩
      cases hl with
      | stop h1 h2 =>
        refine ⟨_, _, h1, ?_⟩
        have ht := truthy_eq S sp (by assumption) σ'
        rw [h2] at ht
        rw [bind_of_ok ht]; rfl
      | @again _ _ v _ _ _ σ1 _ _ h1 h2 h3 h4 =>
        refine ⟨_, _, h1, ?_⟩
        have ht := truthy_eq S sp v σ1
        rw [h2] at ht
        rw [bind_of_ok ht, if_pos rfl, bind_of_ok h3]
        exact (ih _ _ r σ').2 ⟨_, by omega, h4⟩

/-- `while c { body }`, anywhere: the body is run as long as the condition is true; the value is that
of the last iteration, or none. (`W`: bound on the number of iterations.) -/
theorem C15_while (sp : Span) (c : Node) (body : List Node) :
    evalNode S call W (.while sp c body) env σ = (.ok r, σ') ↔
      ∃ n, n < W ∧ Loops S.cfg.F (evalNode S call W c env) (evalStmts S call W body env) n .none σ r σ' := by
  have he : evalNode S call W (.while sp c body) env = whileN S sp (evalNode S call W c env) (evalStmts S call W body env) W .none := by
    rw [evalNode]
  rw [he]
  exact whileN_loops S sp _ _ W .none σ r σ'

/-- Compiled programs ending with `if`: the VM takes the branch. -/
theorem C15_if_program {sp : Span} {c : Node} {th : List Node} {el : Option (List Node)} (h : Runs M data (pre ++ [.cond sp c th el]) S σ0 m)
    (hpre : evTop S k pre σ0 = (.ok (), σ)) (hc : ev S k c [] σ = (.ok v, σ1)) :
    (∀ r σ', truth S.cfg.F v = some true → evBlock S k th [] σ1 = (.ok r, σ') → Returns m r σ') ∧
    (∀ b r σ', truth S.cfg.F v = some false → el = some b → evBlock S k b [] σ1 = (.ok r, σ') → Returns m r σ') ∧
    (truth S.cfg.F v = some false → el = none → Returns m .none σ1) ∧
    (truth S.cfg.F v = none → Raises m (.type (.expected "truthy" v.ntype)) sp σ1) := by
  have hif := C15_if sp c th el hc
  refine ⟨fun r σ' ht hb => ?_, fun b r σ' ht he hb => ?_, fun ht he => ?_, fun ht => ?_⟩
  · rw [ht] at hif
    exact returns h rfl hpre (hif.trans hb)
  · rw [ht, he] at hif
    rw [he] at h
    exact returns h rfl hpre (hif.trans hb)
  · rw [ht, he] at hif
    rw [he] at h
    exact returns h rfl hpre hif
  · rw [ht] at hif
    exact raises h rfl hpre hif (by simp)

/-- Compiled programs ending with `while`. -/
theorem C15_while_program {sp : Span} {c : Node} {body : List Node} (h : Runs M data (pre ++ [.while sp c body]) S σ0 m)
    (hpre : evTop S k pre σ0 = (.ok (), σ)) {n : Nat} (hn : n < k) (hl : Loops S.cfg.F (ev S k c []) (evBlock S k body []) n .none σ r σ') :
    Returns m r σ' :=
  returns h rfl hpre ((C15_while sp c body).2 ⟨n, hn, hl⟩)

private def z : Span := Span.default

/-- `if "" { 1 } else { 2 }` -/
def demoIf : List Node := [] ++ [.cond z (.lit z (.str [])) [.lit z (.int 1)] (some [.lit z (.int 2)])]

example : (∃ script, Runs demoSetup 7 demoIf demoS demoσ (Machine.new demoSetup 7 script)) ∧
    ev demoS 3 (.lit z (.str [])) [] demoσ = (.ok (.str []), demoσ) ∧ truth demoS.cfg.F (.str [] : SVal) = some false :=
  ⟨demo_runs demoIf (by decide +kernel) (by decide +kernel) (by decide +kernel), rfl, rfl⟩

example : Loops demoS.cfg.F (ev demoS 3 (.lit z (.int 0)) []) (evBlock demoS 3 [.lit z .none] []) 0 .none demoσ .none demoσ :=
  .stop (v := .int 0) rfl rfl

/-! ## C28: for loops -/

/-- Running `b` on each of the items in order; the value is that of the last one, `last` if there is none. -/
inductive Visits (b : SVal → SM D SVal) : List SVal → SVal → SSt D → SVal → SSt D → Prop
  | done {last : SVal} {σ : SSt D} : Visits b [] last σ last σ
  | step {x v last r : SVal} {xs : List SVal} {σ σ1 σ' : SSt D} : b x σ = (.ok v, σ1) → Visits b xs v σ1 r σ' → Visits b (x :: xs) last σ r σ'

theorem forN_visits {item : Nat → SM D (Option SVal)} {b : SVal → SM D SVal} {xs : List SVal} (hi : ∀ k, k ≤ xs.length → item k = pure xs[k]?) :
    ∀ (W k : Nat) (last : SVal) (σ : SSt D) (r : SVal) (σ' : SSt D), k ≤ xs.length → xs.length - k < W →
      (forN item b W k last σ = (.ok r, σ') ↔ Visits b (xs.drop k) last σ r σ')
  | 0, _, _, _, _, _, _, h => by omega
  | W + 1, k, last, σ, r, σ', hk, hW => by
    have ih := forN_visits (b := b) hi W (k + 1)
    unfold forN
    rw [hi k hk]
    by_cases hlt : k < xs.length
    · rw [List.getElem?_eq_getElem hlt, List.drop_eq_getElem_cons hlt]
      rw [bind_of_ok (show (pure (some xs[k]) : SM D (Option SVal)) σ = (.ok (some xs[k]), σ) from rfl)]
      refine bind_ok_iff.trans ?_
      constructor
      · rintro ⟨v, σ1, h1, h2⟩
        exact .step h1 ((ih v σ1 r σ' (by omega) (by omega)).1 h2)
      · rintro (_ | ⟨h1, h2⟩)
        exact ⟨_, _, h1, (ih _ _ r σ' (by omega) (by omega)).2 h2⟩
    · rw [List.getElem?_eq_none (by omega), List.drop_eq_nil_of_le (by omega)]
      rw [bind_of_ok (show (pure none : SM D (Option SVal)) σ = (.ok none, σ) from rfl)]
      refine (show (pure last : SM D SVal) σ = (.ok r, σ') ↔ _ from ?_)
      rw [pure_ok_iff]
      constructor
      · rintro ⟨rfl, rfl⟩; exact .done
      · rintro ⟨⟩; exact ⟨rfl, rfl⟩

/-- Iteration over `v` is possible for all its elements: in builds with overflow checks, ranges must have less
than `2^31` elements. -/
def Iterable (S : SHost D) (xs : List SVal) : Prop := S.cfg.chk = false ∨ xs.length < 2 ^ 31

theorem items_eq {S : SHost D} {v : SVal} {xs : List SVal} (hv : elements v = some xs) (hx : Iterable S xs) (sp : Span) (k : Nat) (hk : k ≤ xs.length) :
    (lift (v.iterItem S.cfg.chk k) sp : SM D (Option SVal)) = pure xs[k]? := by
  have : Val.iterItem S.cfg.chk v k = .ok xs[k]? := by
    cases hch : S.cfg.chk with
    | false => exact C28_items v xs hv k hk
    | true => exact C28_items_checked v xs hv (hx.resolve_left (by simp [hch])) k hk
  rw [this]; rfl

/-- One iteration: the body in a scope where `x` is a new variable holding the item. -/
def iteration (S : SHost D) (call : SClos → List SVal → SM D SVal) (W : Nat) (x : String) (body : List Node) (env : SEnv) (item : SVal) : SM D SVal :=
  fun σ => evalStmts S call W body ((x, σ.next) :: env) { σ with store := upd σ.store σ.next item, next := σ.next + 1 }

/-- `for x in it { body }`, anywhere: the body is run for each element, in order, each once. -/
theorem C28_for (sp : Span) (x : String × Span) (it : Node) (body : List Node) {xs : List SVal} (hit : evalNode S call W it env σ = (.ok v, σ1))
    (hv : elements v = some xs) (hx : Iterable S xs) (hW : xs.length < W) :
    evalNode S call W (.forIn sp x it body) env σ = (.ok r, σ') ↔ Visits (iteration S call W x.1 body env) xs .none σ1 r σ' := by
  unfold evalNode
  rw [bind_of_ok hit]
  exact forN_visits (items_eq hv hx sp) W 0 .none σ1 r σ' (by omega) (by omega)

/-- Iterating over other kinds is a `TypeError`. -/
theorem C28_for_not_iterable (sp : Span) (x : String × Span) (it : Node) (body : List Node) (hit : evalNode S call W it env σ = (.ok v, σ1))
    (hv : elements v = none) (hW : 0 < W) :
    evalNode S call W (.forIn sp x it body) env σ = (.err (.type (.notIterable v.ntype)) (some sp), σ1) := by
  obtain ⟨w, rfl⟩ : ∃ w, W = w + 1 := ⟨W - 1, by omega⟩
  unfold evalNode
  rw [bind_of_ok hit]
  show forN _ _ (w + 1) 0 .none σ1 = _
  unfold forN
  refine bind_of_err ?_
  rw [C28_not_iterable _ _ hv]
  rfl

/-- Compiled programs ending with a `for` loop. -/
theorem C28_for_program {sp : Span} {x : String × Span} {it : Node} {body : List Node} (h : Runs M data (pre ++ [.forIn sp x it body]) S σ0 m)
    (hpre : evTop S k pre σ0 = (.ok (), σ)) (hit : ev S k it [] σ = (.ok v, σ1)) :
    (∀ xs r σ', elements v = some xs → Iterable S xs → xs.length < k → Visits (iteration S (callN S k k) k x.1 body []) xs .none σ1 r σ' → Returns m r σ') ∧
    (elements v = none → 0 < k → Raises m (.type (.notIterable v.ntype)) sp σ1) :=
  ⟨fun _ _ _ hv hx hk hvis => returns h rfl hpre ((C28_for sp x it body hit hv hx hk).2 hvis),
   fun hv hk => raises h rfl hpre (C28_for_not_iterable sp x it body hit hv hk) (by simp)⟩

/-- `for i in 0:2 { i }` -/
def demoFor : List Node := [] ++ [.forIn z ("i", z) (.range z (.lit z (.int 0)) (.lit z (.int 2))) [.ident z "i"]]

example : (∃ script, Runs demoSetup 7 demoFor demoS demoσ (Machine.new demoSetup 7 script)) ∧
    ev demoS 4 (.range z (.lit z (.int 0)) (.lit z (.int 2))) [] demoσ = (.ok (.range 0 2), demoσ) ∧
    elements (.range 0 2 : SVal) = some [.int 0, .int 1] ∧
    ∃ σ', Visits (iteration demoS (callN demoS 4 4) 4 "i" [.ident z "i"] []) [.int 0, .int 1] .none demoσ (.int 1) σ' :=
  ⟨demo_runs demoFor (by decide +kernel) (by decide +kernel) (by decide +kernel), rfl, rfl, _, .step rfl (.step rfl .done)⟩

/-! ## C44: switch -/

/-- The cases in order, for subject value `x`: case values are evaluated up to the first one equal to `x`, whose
body is picked. -/
inductive Picks (F : FOps) (ev : Node → SM D SVal) (x : SVal) : List (Node × List Node) → SSt D → Option (List Node) → SSt D → Prop
  | none {σ : SSt D} : Picks F ev x [] σ none σ
  | hit {c : Node} {b : List Node} {cs : List (Node × List Node)} {y : SVal} {σ σ1 : SSt D} : ev c σ = (.ok y, σ1) →
      Val.eqv F (fun _ _ => Option.none) x y = some true → Picks F ev x ((c, b) :: cs) σ (some b) σ1
  | miss {c : Node} {b : List Node} {cs : List (Node × List Node)} {y : SVal} {o : Option (List Node)} {σ σ1 σ' : SSt D} : ev c σ = (.ok y, σ1) →
      Val.eqv F (fun _ _ => Option.none) x y = some false → Picks F ev x cs σ1 o σ' → Picks F ev x ((c, b) :: cs) σ o σ'

/-- The body picked, else the default, else nothing. -/
def pickedBody (o d : Option (List Node)) : Option (List Node) := o.or d

theorem eqVals_ok {F : FOps} {a b : SVal} {t : Bool} {σ σ' : SSt D} : (eqVals F a b : SM D Bool) σ = (.ok t, σ') ↔
    Val.eqv F (fun _ _ => none) a b = some t ∧ σ = σ' := by
  unfold eqVals
  cases Val.eqv F (fun _ _ => none) a b with
  | none => simp [SM.incomparable]
  | some u => exact pure_ok_iff.trans (by simp)

theorem cases_picks (S : SHost D) (call : SClos → List SVal → SM D SVal) (W : Nat) (env : SEnv) (x : SVal) (d : SM D SVal) :
    ∀ (cs : List (Node × List Node)) (σ : SSt D) (r : SVal) (σ' : SSt D), evalCases S call W cs x env d σ = (.ok r, σ') ↔
      ∃ o σ1, Picks S.cfg.F (fun c => evalNode S call W c env) x cs σ o σ1 ∧
        (match o with
        | some b => evalStmts S call W b env σ1
        | none => d σ1) = (.ok r, σ')
  | [], σ, r, σ' => by
    unfold evalCases
    constructor
    · intro h; exact ⟨none, σ, .none, h⟩
    · rintro ⟨o, σ1, hp, h⟩; cases hp; exact h
  | (c, b) :: cs, σ, r, σ' => by
    have ih := cases_picks S call W env x d cs
    unfold evalCases
    rw [bind_ok_iff]
    constructor
    · rintro ⟨y, σ1, h1, h2⟩
      obtain ⟨t, σ2, h3, h4⟩ := bind_ok_iff.1 h2
      obtain ⟨h3', rfl⟩ := eqVals_ok.1 h3
      cases t with
      | true => exact ⟨some b, σ1, .hit h1 h3', h4⟩
      | false =>
        obtain ⟨o, σ3, h5, h6⟩ := (ih σ1 r σ').1 h4
        exact ⟨o, σ3,   .miss h1 h3' h5, h6⟩
    · rintro ⟨o, σ1, hp, h⟩
      cases hp with
      | hit h1 h2 => exact ⟨_, _, h1, by rw [bind_of_ok (eqVals_ok.2 ⟨h2, rfl⟩)]; exact h⟩
      | miss h1 h2 h3 =>
        refine ⟨_, _, h1, ?_⟩
        rw [bind_of_ok (eqVals_ok.2 ⟨h2, rfl⟩)]
        exact (ih _ r σ').2 ⟨o, σ1, h3, h⟩

/-- `switch v { c1: b1 … } else { d }`, anywhere: the subject is evaluated once, then case values in order up to
the first equal one, then only the body picked; without one the default; without a default the value is none. -/
theorem C44_switch (sp : Span) (subj : Node) (cs : List (Node × List Node)) (d : Option (List Node)) :
    evalNode S call W (.switch sp subj cs d) env σ = (.ok r, σ') ↔
      ∃ x σ1 o σ2, evalNode S call W subj env σ = (.ok x, σ1) ∧ Picks S.cfg.F (fun c => evalNode S call W c env) x cs σ1 o σ2 ∧
        match pickedBody o d with
        | some b => evalStmts S call W b env σ2 = (.ok r, σ')
        | none => r = .none ∧ σ' = σ2 := by
  have he : evalNode S call W (.switch sp subj cs d) env = (do
      let x ← evalNode S call W subj env
      evalCases S call W cs x env (evalOpt S call W d env)) := by rw [evalNode]
  rw [he, bind_ok_iff]
  constructor
  · rintro ⟨x, σ1, h1, h2⟩
    obtain ⟨o, σ2, h3, h4⟩ := (cases_picks S call W env x _ cs σ1 r σ').1 h2
    refine ⟨x, σ1, o, σ2, h1, h3, ?_⟩
    cases o with
    | some b => exact h4
    | none =>
      cases d with
      | some b => simpa [pickedBody, evalOpt] using h4
      | none =>
        obtain ⟨rfl, rfl⟩ := pure_ok_iff.1 (by simpa only [evalOpt] using h4)
        exact ⟨rfl, rfl⟩
  · rintro ⟨x, σ1, o, σ2, h1, h3, h4⟩
    refine ⟨x, σ1, h1, (cases_picks S call W env x _ cs σ1 r σ').2 ⟨o, σ2, h3, ?_⟩⟩
    cases o with
    | some b => exact h4
    | none =>
      cases d with
      | some b => simpa [pickedBody, evalOpt] using h4
      | none =>
        obtain ⟨rfl, rfl⟩ := h4
        simp only [evalOpt]; rfl

/-- Compiled programs ending with `switch`. -/
theorem C44_switch_program {sp : Span} {subj : Node} {cs : List (Node × List Node)} {d o : Option (List Node)} {x : SVal}
    (h : Runs M data (pre ++ [.switch sp subj cs d]) S σ0 m) (hpre : evTop S k pre σ0 = (.ok (), σ)) (hv : ev S k subj [] σ = (.ok x, σ1))
    (hp : Picks S.cfg.F (fun c => ev S k c []) x cs σ1 o σ2) :
    (∀ b r σ', pickedBody o d = some b → evBlock S k b [] σ2 = (.ok r, σ') → Returns m r σ') ∧
    (pickedBody o d = none → Returns m .none σ2) := by
  refine ⟨fun b r σ' hb he => ?_, fun hb => ?_⟩
  · exact returns h rfl hpre ((C44_switch sp subj cs d).2 ⟨x, σ1, o, σ2, hv, hp, by rw [hb]; exact he⟩)
  · exact returns h rfl hpre ((C44_switch sp subj cs d).2 ⟨x, σ1, o, σ2, hv, hp, by rw [hb]; exact ⟨rfl, rfl⟩⟩)

/-- `switch 2 { 1: 10, 2: 20, 1 / 0: 30 }`: the last case value is not evaluated. -/
def demoSwitch : List Node := [] ++ [.switch z (.lit z (.int 2))
  [(.lit z (.int 1), [.lit z (.int 10)]), (.lit z (.int 2), [.lit z (.int 20)]), (.bin z .div (.lit z (.int 1)) (.lit z (.int 0)), [.lit z (.int 30)])] none]

example : (∃ script, Runs demoSetup 7 demoSwitch demoS demoσ (Machine.new demoSetup 7 script)) ∧
    Picks demoS.cfg.F (fun c => ev demoS 3 c []) (.int 2)
      [(.lit z (.int 1), [.lit z (.int 10)]), (.lit z (.int 2), [.lit z (.int 20)]), (.bin z .div (.lit z (.int 1)) (.lit z (.int 0)), [.lit z (.int 30)])]
      demoσ (some [.lit z (.int 20)]) demoσ :=
  ⟨demo_runs demoSwitch (by decide +kernel) (by decide +kernel) (by decide +kernel), .miss (y := .int 1) rfl rfl (.hit (y := .int 2) rfl rfl)⟩

end Quilt.Props
