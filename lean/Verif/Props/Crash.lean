import Verif.Props.Blame
import Verif.Lib.Crash
import Verif.Props.Numbers
import Verif.Props.Io
import Verif.Lib.Ieee

/-!
# The part of the program that brings down the process: C87

`Crashes` (`Verif/Sem/BlameSpec.lean`) says which expressions and statements can crash, and with which values of their parts.
-/

namespace Quilt.Props

open Lib Peg Cli

variable {D : Type} {W : World} {M : Machine.Setup D} {data : D} {name : String} {T : List Char} {ast : List Node} {S : SHost D} {σ : SSt D} {m : Machine D}

/-- The semantics: whenever a program crashes, a part of it is to blame. -/
theorem C87_semantics (h : Runs M data ast S σ m) {k : Nat} (he : (evalProgram S k ast σ).1 = .panic) : ∃ n ∈ subsL ast, Crashes S n := by
  obtain ⟨script, h1, h2⟩ := h.prepared
  have h3 := h2.held ⟨S, (· ∈ subsL ast), false, fun _ => false, compile_placed h1⟩ rfl
  exact program_crash (K := ⟨S, (· ∈ subsL ast), false, fun _ => false, compile_placed h1⟩) (Γ := []) h3.1 (fun _ h => by cases h) (fun _ h => h) (fun h => by cases h)
    (h3.2 [] fun _ h => by cases h) k he

/-- The machine, with any limits and clock: it crashes because of a part of the program or, with debug assertions, because of a `return` outside
of functions. -/
theorem C87_machine (h : RunsText W M data name T ast S σ m) (hQ : Honest S) (hcmp : ∀ k, (evalProgram S k ast σ).1 ≠ .unspec true) (n c : Nat) (clock : Nat → Bool)
    (fuel : Nat) (hr : (m.withLimits n c).run clock fuel = some .panic) :
    (∃ n ∈ subsL ast, Crashes S n) ∨ m.host.cfg.chk = true ∧ ∃ k v, (evalProgram S k ast σ).1 = .ret v := by
  have hR := (C53_hypotheses h).1
  by_cases hd : ∀ k, (evalProgram S k ast σ).1 = .timeout
  · rcases C22_diverges hR hd n c clock fuel with h1 | ⟨_, _, h1⟩ | ⟨_, _, h1⟩ <;> rw [hr] at h1 <;> simp at h1
  · rw [Classical.not_forall] at hd
    obtain ⟨k, hk⟩ := hd
    have hu : ∀ b, (evalProgram S k ast σ).1 ≠ .unspec b := by
      intro b
      cases b with
      | true => exact hcmp k
      | false => exact C53_specified h k
    rcases (hR.outcome k).run_any ⟨hk, hu, fun sp => honest_overflow hR hQ sp⟩ (hR.sp n) hr with ⟨_, _, h1⟩ | ⟨_, _, h1⟩ | h1 | ⟨h1, v, h2⟩
    · cases h1
    · cases h1
    · exact .inl (C87_semantics hR h1)
    · exact .inr ⟨h1, k, v, h2⟩

/-! ## The standard library -/

variable {E : Cli.Env} {a : Cli.Args} {k : Nat} {src : List Char} {script : Script}

private theorem withLib_calm {chk : Bool} : ∀ (l : List (String × BFn Io SClos)) (B : String → Option (Builtin Io SClos)), LibCalm chk l →
    (∀ x b, B x = some b → ∃ f, b = .fn f ∧ (x ∈ crashers chk ∨ BCalm f)) →
    ∀ x b, withLib l B x = some b → ∃ f, b = .fn f ∧ (x ∈ crashers chk ∨ BCalm f)
  | [], _, _, hB => hB
  | p :: l, B, hl, hB => by
    refine withLib_calm l _ (fun q hq => hl q (List.mem_cons_of_mem _ hq)) ?_
    intro x b hb
    simp only [updName] at hb
    split at hb
    · rename_i hx
      cases hb
      subst hx
      exact ⟨_, rfl, hl p List.mem_cons_self⟩
    · exact hB x b hb

/-- Only the builtins `crashers` crash, and contexts do not crash when they are left. -/
theorem C87_library (E : Cli.Env) (a : Cli.Args) :
    (∀ x args, Answers (cliHost E a) x args .panic → x ∈ crashers E.cfg.chk) ∧ ¬ Leaves (cliHost E a) .panic := by
  have h := withLib_calm (chk := E.cfg.chk) (stdioLib E.L SClos.name E.O E.cfg.chk) (fun _ => none) (stdio_calm E.L E.cfg.chk E.O SClos.name) (by simp)
  constructor
  · rintro x args ⟨f, d, vs, h1 | ⟨g, h1⟩, _, h2⟩
    · obtain ⟨f', h3, h4⟩ := h x _ h1
      cases h3
      exact h4.resolve_right fun h4 => (h4.of d vs _).of h2
    · obtain ⟨f', h3, _⟩ := h x _ h1
      cases h3
  · rintro ⟨x, f, g, d, h1, _⟩
    obtain ⟨f', h3, _⟩ := h x _ h1
    cases h3

/-- With the floats of IEEE, `clamp` does not crash. -/
theorem C87_clamp {C : Type} (R : Ieee.Rest) (x lo hi : BitVec 64) : (Lib.clamp (Ieee.ops R) x lo hi : Res (Val C)) ≠ .panic := by
  show (if Ieee.lt hi lo = true then Lib.fail "min must be less than max".toList
    else if (!Ieee.eq lo lo || !Ieee.eq hi hi) = true then Lib.fail "min and max must be numbers".toList
    else if Ieee.le lo hi = true then Res.ok (Val.float (Ieee.clamp x lo hi)) else Res.panic) ≠ Res.panic
  by_cases h1 : Ieee.lt hi lo = true
  · rw [if_pos h1]; simp [Lib.fail]
  · rw [if_neg h1]
    by_cases h2 : (!Ieee.eq lo lo || !Ieee.eq hi hi) = true
    · rw [if_pos h2]; simp [Lib.fail]
    · rw [if_neg h2, if_pos]
      · simp
      · simp only [Ieee.lt, Ieee.le, Ieee.eq, Bool.or_eq_true, not_or, Bool.not_eq_true', Bool.and_eq_true, decide_eq_true_eq, Bool.not_eq_false, beq_self_eq_true, true_or, and_true] at h1 h2 ⊢
        exact ⟨⟨h2.1.1, h2.2.1⟩, Int.not_lt.1 fun h => h1 ⟨⟨h2.2.1, h2.1.1⟩, h⟩⟩

/-- The others do, with some arguments: as they say in all builds, and in builds that check arithmetic. -/
theorem C87_crashers {C : Type} (R : Ieee.Rest) (O : Outside) (cname : C → String) (lim : Limits) (d : Io) (chk : Bool) :
    (∃ args, callIo (Ieee.ops R) O chk cname lim d "slice" args = some (.panic, d)) ∧ (∃ args, callIo (Ieee.ops R) O chk cname lim d "randfloat" args = some (.panic, d)) ∧
    ∀ x ∈ ["get", "set", "abs"], ∃ args, callIo (Ieee.ops R) O true cname lim d x args = some (.panic, d) := by
  have hf : fixIndex true (-1) 1 = .panic := by decide +kernel
  refine ⟨⟨[.arr [] 0 0, .int 0, .int 1], ?_⟩, ⟨[.float 0, .float Ieee.nan], ?_⟩, ?_⟩
  · cases chk <;> rfl
  · exact C63_violated_randfloat _ _ _ _ _ _ _ _ (show Ieee.le Ieee.nan 0 = false by decide) (show Ieee.lt 0 Ieee.nan = false by decide)
  · intro x hx
    simp only [List.mem_cons, List.not_mem_nil, or_false] at hx
    rcases hx with rfl | rfl | rfl
    · have h1 : ∀ i, callIo (Ieee.ops R) O true cname lim d "get" [.arr [.none] 1 1, .int i] = some (Lib.get true [.none] i, d) := fun _ => rfl
      refine ⟨_, (h1 (-1)).trans ?_⟩
      unfold Lib.get
      rw [show [(Val.none : Val C)].length = 1 from rfl, hf]
      rfl
    · have h1 : ∀ i, callIo (Ieee.ops R) O true cname lim d "set" [.arr [.none] 1 1, .int i, .none] = some (Lib.set true lim [.none] i .none, d) := fun _ => rfl
      refine ⟨_, (h1 (-1)).trans ?_⟩
      unfold Lib.set
      rw [show [(Val.none : Val C)].length = 1 from rfl, hf]
      rfl
    · exact ⟨[.int (BitVec.intMin 64)], rfl⟩

/-- The command: it crashes because of a part of the program or, with debug assertions, because of a `return` outside of functions. -/
theorem C87_command (h : MainFile E a k name src ast script) (hcmp : ∀ K, (cliRun E a K ast).1 ≠ .unspec true) {fuel : Nat} (hm : main E a k fuel name (.ok src) = some .crash) :
    (∃ n ∈ subsL ast, Crashes (cliHost E a) n) ∨ E.cfg.chk = true ∧ ∃ K v, (cliRun E a K ast).1 = .ret v := by
  obtain ⟨K, h1 | ⟨h1, v, h2⟩⟩ := C64_crash h hcmp hm
  · exact .inl (C87_semantics h.runs h1)
  · exact .inr ⟨h1, K, v, h2⟩

/-! ## Programs that cannot crash -/

/-- Expressions that are no strings. -/
def _root_.Quilt.Node.notText : Node → Bool
  | .lit _ (.str _) => false
  | .lit .. | .un .. | .pair .. | .range .. | .array .. | .lambda .. => true
  | .bin _ op a b =>
    match op with
    | .add | .div => a.notText || b.notText
    | .mul => a.notText
    | .join => false
    | _ => true
  | _ => false

/-- Divisors that are written as numbers other than `-1`. -/
def _root_.Quilt.Node.divisor : Node → Bool
  | .lit _ (.int i) => i != -1
  | .lit _ (.float _) => true
  | _ => false

/-- Expressions and statements that obviously do not crash (in builds that do not check arithmetic). -/
def _root_.Quilt.Node.steady : Node → Bool
  | .bin _ op a b =>
    match op with
    | .div | .mod => b.divisor
    | .mul => a.notText
    | _ => true
  | .decl _ (.many xs) _ | .forMulti _ xs _ _ => decide (xs.length ≤ 4)
  | .builtin _ x _ => !(crashers false).contains x.1
  | .ctx _ x _ v _ => !(crashers false).contains x.1 && (match v with | some (.many xs) => decide (xs.length ≤ 4) | _ => true)
  | _ => true

private theorem binary_text {cfg : Cfg} {lim : Limits} {ceq : SClos → SClos → Option Bool} {op : Op} {x y : SVal} {s : List Char} (h : Val.binary cfg lim ceq op x y = .ok (.str s)) :
    op = .join ∨ (∃ l r, op = .add ∧ x = .str l ∧ y = .str r) ∨ (∃ l, op = .mul ∧ x = .str l) ∨ ∃ l r, op = .div ∧ x = .str l ∧ y = .str r := by
  have w : ∀ {chk : Bool} {r : Int}, (wrapI chk r : Res SVal) ≠ .ok (.str s) := by
    intro chk r h
    unfold wrapI at h
    split at h <;> try split at h
    all_goals cases h
  have c4 : ∀ {r g b a : Res (BitVec 8)}, (chan4 r g b a : Res SVal) ≠ .ok (.str s) := by
    intro r g b a h
    cases r <;> cases g <;> cases b <;> cases a <;> cases h
  cases op <;> simp only [Val.binary] at h
  case join => exact .inl rfl
  case add =>
    unfold Val.add at h
    split at h <;> first | exact absurd h w | cases h; done | exact .inr (.inl ⟨_, _, rfl, rfl, rfl⟩)
  case mul =>
    unfold Val.multiply at h
    split at h <;> first | exact absurd h w | cases h; done | exact .inr (.inr (.inl ⟨_, rfl, rfl⟩))
  case div =>
    unfold Val.divide at h
    split at h
    · cases h
    · split at h <;> first | cases h; done | exact .inr (.inr (.inr ⟨_, _, rfl, rfl, rfl⟩)) | (split at h <;> cases h) | skip
      exact absurd h c4
  case sub => unfold Val.subtract at h; split at h <;> first | exact absurd h w | cases h; done
  case mod =>
    unfold Val.modulo at h
    split at h
    · cases h
    · split at h <;> first | cases h; done | (split at h <;> cases h)
  case pow => unfold Val.power at h; split at h <;> first | exact absurd h w | cases h; done
  case eq => unfold Val.equal at h; split at h <;> cases h
  case neq => unfold Val.notEqual at h; split at h <;> cases h
  case lt => unfold Val.lt Val.compare at h; split at h <;> cases h
  case gt => unfold Val.gt Val.compare at h; split at h <;> cases h
  case lte => unfold Val.le Val.compare at h; split at h <;> cases h
  case gte => unfold Val.ge Val.compare at h; split at h <;> cases h
  case and => unfold Val.land at h; split at h <;> cases h
  case or => unfold Val.lor at h; split at h <;> cases h
  case shl => unfold Val.shl Val.shiftOp at h; split at h <;> first | cases h; done | (split at h <;> first | cases h; done | (split at h <;> cases h))
  case shr => unfold Val.shr Val.shiftOp at h; split at h <;> first | cases h; done | (split at h <;> first | cases h; done | (split at h <;> cases h))
  all_goals first | cases h; done | (unfold Val.bitOp at h; split at h <;> cases h)

private theorem lift_ok {α : Type} {r : Res α} {sp : Span} {σ σ' : SSt D} {v : α} (h : (SM.lift r sp : SM D α) σ = (.ok v, σ')) : r = .ok v := by
  cases r <;> cases h
  rfl

private theorem bin_text {S : SHost D} {op : Op} {sp : Span} {x y : SVal} {s : List Char} {σ σ' : SSt D} (h : evalBin S op sp x y σ = (.ok (.str s), σ')) :
    op = .join ∨ (∃ l r, op = .add ∧ x = .str l ∧ y = .str r) ∨ (∃ l, op = .mul ∧ x = .str l) ∨ ∃ l r, op = .div ∧ x = .str l ∧ y = .str r := by
  unfold evalBin at h
  split at h
  · obtain ⟨_, _, _, h⟩ := SM.bind_ok h
    cases h
  · obtain ⟨_, _, _, h⟩ := SM.bind_ok h
    cases h
  · exact binary_text (lift_ok h)

private theorem notText_gives : ∀ {n : Node} {s : List Char}, n.notText = true → ¬ Gives S n (.str s)
  | .lit _ l, s => by
    rintro hn ⟨W, j, env, σ, σ', h⟩
    cases l <;> first | cases hn; done | (simp only [evalNode] at h; cases h)
  | .un _ op e, s => by
    rintro hn ⟨W, j, env, σ, σ', h⟩
    simp only [evalNode] at h
    obtain ⟨v, _, _, h⟩ := SM.bind_ok h
    replace h := lift_ok h
    cases op <;> simp only [Val.unary] at h <;> first | cases h; done | skip
    · unfold Val.lnot at h; split at h <;> cases h
    · unfold Val.negate at h
      split at h <;> first | cases h; done | skip
      unfold wrapI at h
      split at h <;> try split at h
      all_goals cases h
    · unfold Val.bnot at h; split at h <;> cases h
  | .pair .., s => by
    rintro hn ⟨W, j, env, σ, σ', h⟩
    simp only [evalNode] at h
    obtain ⟨v, _, _, h⟩ := SM.bind_ok h
    obtain ⟨v, _, _, h⟩ := SM.bind_ok h
    cases h
  | .range .., s => by
    rintro hn ⟨W, j, env, σ, σ', h⟩
    simp only [evalNode] at h
    obtain ⟨v, _, _, h⟩ := SM.bind_ok h
    obtain ⟨v, _, _, h⟩ := SM.bind_ok h
    replace h := lift_ok h
    unfold Val.mkRange at h
    split at h <;> cases h
  | .array .., s => by
    rintro hn ⟨W, j, env, σ, σ', h⟩
    simp only [evalNode] at h
    obtain ⟨v, _, _, h⟩ := SM.bind_ok h
    replace h := lift_ok h
    unfold Val.mkArray at h
    generalize Val.pushAllV (Vecc.new S.lim.arrMax) v = r at h
    cases r <;> cases h
  | .lambda .., s => by
    rintro hn ⟨W, j, env, σ, σ', h⟩
    simp only [evalNode] at h
    cases h
  | .bin _ op x y, s => by
    rintro hn ⟨W, j, env, σ, σ', h⟩
    simp only [evalNode] at h
    obtain ⟨v, _, hx, h⟩ := SM.bind_ok h
    obtain ⟨w, _, hy, h⟩ := SM.bind_ok h
    rcases bin_text h with rfl | ⟨l, r, rfl, rfl, rfl⟩ | ⟨l, rfl, rfl⟩ | ⟨l, r, rfl, rfl, rfl⟩
    · cases hn
    · simp only [Node.notText, Bool.or_eq_true] at hn
      exact hn.elim (fun hn => notText_gives hn ⟨W, j, _, _, _, hx⟩) (fun hn => notText_gives hn ⟨W, j, _, _, _, hy⟩)
    · exact notText_gives (by simpa only [Node.notText] using hn) ⟨W, j, _, _, _, hx⟩
    · simp only [Node.notText, Bool.or_eq_true] at hn
      exact hn.elim (fun hn => notText_gives hn ⟨W, j, _, _, _, hx⟩) (fun hn => notText_gives hn ⟨W, j, _, _, _, hy⟩)
  | .ident .., _ | .assign .., _ | .decl .., _ | .extern .., _ | .index .., _ | .block .., _ | .cond .., _ | .switch .., _ | .while .., _ | .forIn .., _
  | .forMulti .., _ | .func .., _ | .call .., _ | .builtin .., _ | .ctx .., _ | .ret .., _ | .include .., _ => by simp [Node.notText]

private theorem divisor_gives {n : Node} {v : SVal} (hn : n.divisor = true) (h : Gives S n v) : v.number = true ∧ v ≠ .int (-1) := by
  obtain ⟨W, j, env, σ, σ', h⟩ := h
  unfold Node.divisor at hn
  split at hn
  · simp only [evalNode] at h
    cases h
    exact ⟨rfl, by simpa [Literal.toVal] using hn⟩
  · simp only [evalNode] at h
    cases h
    exact ⟨rfl, by simp [Literal.toVal]⟩
  · cases hn

/-- Such programs do not crash: the command, built without checks of arithmetic, whatever the limits, the time, the input and so on. -/
theorem C87_steady (h : MainFile E a k name src ast script) (hcmp : ∀ K, (cliRun E a K ast).1 ≠ .unspec true) (hc : E.cfg.chk = false) (hs : ∀ n ∈ subsL ast, n.steady = true) (fuel : Nat) :
    main E a k fuel name (.ok src) ≠ some .crash := by
  intro hm
  rcases C87_command h hcmp hm with ⟨n, hn, h1⟩ | ⟨h1, _⟩
  · have hb : ∀ {x : String} {args : List Node}, (!(crashers false).contains x) = true → ¬ Answers (cliHost E a) x args .panic := by
      intro x args hx h2
      have := (C87_library E a).1 x args h2
      rw [hc] at this
      simp [this] at hx
    have hc' : (cliHost E a).cfg.chk ≠ true := by
      rw [show (cliHost E a).cfg = E.cfg from rfl, hc]; decide
    have hp : ∀ {P : SVal → Prop} {n : Nat}, decide (n ≤ 4) = true → ¬ PartsCrash P n := fun h2 h3 => by have := of_decide_eq_true h2; have := h3.1; omega
    have h2 := hs n hn
    cases h1 with
    | binary h3 =>
      cases h3 with
      | least h4 h5 h6 =>
        rcases h4 with rfl | rfl <;> exact (divisor_gives (by simpa only [Node.steady] using h2) h6).2 rfl
      | channel h4 h5 h6 =>
        subst h4
        exact Bool.false_ne_true (divisor_gives (by simpa only [Node.steady] using h2) h6).1
      | «repeat» s k h4 h5 => subst h4; exact notText_gives (by simpa only [Node.steady] using h2) h5
      | result h4 => exact hc' h4
      | shift h4 => exact hc' h4
      | mix h4 => exact hc' h4
    | unary h4 => exact hc' h4
    | index _ _ h4 => exact hc' h4
    | forIn _ _ h4 => exact hc' h4
    | forMulti _ _ h4 => exact hc' h4
    | forParts h4 => exact hp (by simpa only [Node.steady] using h2) h4
    | declParts h4 => exact hp (by simpa only [Node.steady] using h2) h4
    | ctxParts h4 => exact hp (by simp only [Node.steady, Bool.and_eq_true] at h2; exact h2.2) h4
    | builtin h4 => exact hb (by simpa only [Node.steady] using h2) h4
    | context h4 => exact hb (by simp only [Node.steady, Bool.and_eq_true] at h2; exact h2.1) h4
    | leave h4 => exact (C87_library E a).2 h4
  · rw [hc] at h1; cases h1

/-- A build without checks. -/
private def fastEnv : Cli.Env := { Check.env with cfg := { Check.env.cfg with chk := false } }

private def fastFile (T : List Char) (good : List Node → Out SVal × SSt Io → Bool) : Bool :=
  match parseWithIncludes fastEnv.W 1 "main" T ⟨[], []⟩ with
  | (.ok ast, _) => ast.all Node.placedTop && decide (sizeL ast ≤ 65535) &&
    (match compile fastEnv.cfg ast with
    | .ok script => decide ((machine fastEnv cliArgs script).host.syms.entries.length ≤ 65536)
    | _ => false) && good ast (cliRun fastEnv cliArgs 9 ast)
  | _ => false

private theorem fastFile_main {T : List Char} {good : List Node → Out SVal × SSt Io → Bool} (h : fastFile T good = true) :
    ∃ ast script, MainFile fastEnv cliArgs 1 "main" T ast script ∧ good ast (cliRun fastEnv cliArgs 9 ast) = true := by
  unfold fastFile at h
  split at h
  · rename_i ast c' hp
    simp only [Bool.and_eq_true, decide_eq_true_eq] at h
    obtain ⟨⟨⟨h1, h2⟩, h3⟩, h4⟩ := h
    split at h3
    · rename_i script hc
      exact ⟨ast, script, ⟨by rw [hp], hc, List.all_eq_true.1 h1, h2, of_decide_eq_true h3⟩, h4⟩
    · simp at h3
  · simp at h

private def crashed (ast : List Node) : Out SVal × SSt Io → Bool
  | (.panic, _) => !(subsL ast).all Node.steady
  | _ => false

private def ended (ast : List Node) : Out SVal × SSt Io → Bool
  | (.ok _, _) | (.err .., _) => tameL false ast && (subsL ast).all Node.steady
  | _ => false

/-- Files that crash: the least number divided by `-1`, colours divided, strings repeated, colours taken apart, builtins. None of them is steady. -/
example : ["(-9223372036854775807 - 1) / (-1)", "(-9223372036854775807 - 1) % (-1)", "#ffffff / #ff00ff", "\"abcd\" * 4611686018427387904", "let a, b, c, d, e = #ffffff",
      "for a, b, c, d, e in [#ffffff] { a }", "@slice([1], 0, 5)"].all (fun T => fastFile T.toList crashed) = true := by
  decide +kernel

/-- Steady files: they end with a value or an error, also those that come close to the ones above. -/
private def steadyFiles : List String :=
  ["(-9223372036854775807 - 1) / 2", "1 / 0", "2 * 4611686018427387904", "(3 - 1) * 4", "let a, b, c, d = #ffffff\na", "let a, b, c = #ffffff", "-(-9223372036854775807 - 1)",
    "9223372036854775807 + 1", "1 << 64", "for a, b in [[1, 2]] { @print(a)\n b % 7 }"]

private theorem steady_ended : steadyFiles.all (fun T => fastFile T.toList ended) = true := by decide +kernel

example : ∀ T ∈ steadyFiles, ∃ ast script, MainFile fastEnv cliArgs 1 "main" T.toList ast script ∧ (∀ K, (cliRun fastEnv cliArgs K ast).1 ≠ .unspec true) ∧
    fastEnv.cfg.chk = false ∧ ∀ n ∈ subsL ast, n.steady = true := by
  intro T hT
  obtain ⟨ast, script, h1, h2⟩ := fastFile_main (List.all_eq_true.1 steady_ended T hT)
  have h3 : tameL false ast = true ∧ (subsL ast).all Node.steady = true := by
    unfold ended at h2
    split at h2
    · simpa using h2
    · simpa using h2
    · cases h2
  exact ⟨ast, script, h1, fun K => C80_never h1.runs (t := false) h3.1 K, rfl, List.all_eq_true.1 h3.2⟩

end Quilt.Props
