import Verif.Sem.CompareText

/-!
# Which part of a program is to blame for an error

`Faults S N m e sp`, `Unbound S m e sp`: the error `e`, reported at `sp`, is a fault of the expression or statement `m`; `sp` is missing where
the instruction of the machine reports no place of its own. `Crashes S m`: `m` can bring down the process. What they say about the values of
operands, conditions and so on refers to values that these really evaluate to (`Gives`). `scopedL`: every name is declared where it is used.
-/

namespace Quilt

/-! ## Names in scope -/

/-- The names of variables of a `let` or of a context. -/
def Var.defs : Option Var → List String
  | some (.one x) => [x.1]
  | some (.many xs) => xs.map Prod.fst
  | none => []

mutual
/-- The names that the following statements can use because of this one. -/
def Node.binds : Node → List String
  | .decl _ v _ => Var.defs (some v)
  | .func _ x _ _ | .extern _ x _ => [x.1]
  | .include _ _ b => bindsO b
  | _ => []
termination_by structural n => n
def bindsL : List Node → List String
  | [] => []
  | n :: ns => n.binds ++ bindsL ns
termination_by structural n => n
def bindsO : Option (List Node) → List String
  | some b => bindsL b
  | none => []
termination_by structural n => n
end

mutual
/-- Variables that are read or assigned are among the names `Γ` or declared inside, before their use; builtins satisfy `B`. The body of a
function may use the names in scope where it is written, its parameters and, if it has one, its name. -/
def Node.scoped (B : String → Bool) (Γ : List String) : Node → Bool
  | .lit .. => true
  | .ident _ x => Γ.contains x
  | .assign _ x e => e.scoped B Γ && Γ.contains x.1
  | .un _ _ e | .decl _ _ e | .extern _ _ e => e.scoped B Γ
  | .pair _ a b | .range _ a b | .bin _ _ a b | .index _ a b => a.scoped B Γ && b.scoped B Γ
  | .array _ items => scopedA B Γ items
  | .block _ body => scopedL B Γ body
  | .cond _ c th el => c.scoped B Γ && scopedL B Γ th && scopedO B Γ el
  | .switch _ v cs d => v.scoped B Γ && scopedC B Γ cs && scopedO B Γ d
  | .while _ c b => c.scoped B Γ && scopedL B Γ b
  | .forIn _ x it b => it.scoped B Γ && scopedL B (x.1 :: Γ) b
  | .forMulti _ xs it b => it.scoped B Γ && scopedL B (xs.map Prod.fst ++ Γ) b
  | .lambda _ ps b => scopedL B (ps.map Prod.fst ++ Γ) b
  | .func _ x ps b => scopedL B (ps.map Prod.fst ++ x.1 :: Γ) b
  | .call _ f args => f.scoped B Γ && scopedA B Γ args
  | .builtin _ x args => scopedA B Γ args && B x.1
  | .ctx _ x args v b => scopedA B Γ args && B x.1 && scopedL B (Var.defs v ++ Γ) b
  | .ret _ e => scopedR B Γ e
  | .include _ _ b => scopedO B Γ b
termination_by structural n => n
/-- Statements: each of them can use what those before it declare. -/
def scopedL (B : String → Bool) (Γ : List String) : List Node → Bool
  | [] => true
  | n :: ns => n.scoped B Γ && scopedL B (n.binds ++ Γ) ns
termination_by structural n => n
/-- Arguments and items. -/
def scopedA (B : String → Bool) (Γ : List String) : List Node → Bool
  | [] => true
  | n :: ns => n.scoped B Γ && scopedA B Γ ns
termination_by structural n => n
def scopedO (B : String → Bool) (Γ : List String) : Option (List Node) → Bool
  | some b => scopedL B Γ b
  | none => true
termination_by structural n => n
def scopedR (B : String → Bool) (Γ : List String) : Option Node → Bool
  | some e => e.scoped B Γ
  | none => true
termination_by structural n => n
def scopedC (B : String → Bool) (Γ : List String) : List (Node × List Node) → Bool
  | [] => true
  | (c, b) :: cs => c.scoped B Γ && scopedL B Γ b && scopedC B Γ cs
termination_by structural n => n
end

/-! ## Faults -/

/-- Whole numbers. -/
def Val.whole {C : Type} : Val C → Bool
  | .int _ => true
  | _ => false

/-- Numbers. -/
def Val.number {C : Type} : Val C → Bool
  | .int _ | .float _ => true
  | _ => false

/-- Values that can be joined to a string. -/
def Val.joins {C : Type} : Val C → Bool
  | .str _ | .int _ | .float _ | .bool _ | .none => true
  | _ => false

/-- The operands that an operator takes. -/
def Op.takes {C : Type} (op : Op) (a b : Val C) : Bool :=
  let num := a.number && b.number
  let int := a.whole && b.whole
  let col := match a, b with | .color .., .color .. => true | _, _ => false
  let str := match a, b with | .str _, .str _ => true | _, _ => false
  match op with
  | .add => num || str || col
  | .sub => num || col
  | .mul => num || col || (match a with | .str _ => b.whole | _ => false)
  | .div => num || str || col
  | .mod | .pow | .lt | .gt | .lte | .gte => num
  | .and | .or => match a, b with | .bool _, .bool _ => true | _, _ => false
  | .join => col || (match a, b with | .str _, v | v, .str _ => v.joins | .arr .., .arr .. => true | _, _ => false)
  | .bitAnd | .bitOr | .bitXor | .shl | .shr => int
  | .eq | .neq => true
  | .not | .neg | .bitNot => false

/-- The operand that a prefix operator takes. -/
def Op.takesOne {C : Type} : Op → Val C → Bool
  | .not, .bool _ => true
  | .neg, v => v.number
  | .bitNot, v => v.whole
  | _, _ => false

/-- The values that can be conditions. -/
def Val.decides {C : Type} : Val C → Bool
  | .bool _ | .int _ | .float _ | .str _ | .none | .color .. => true
  | _ => false

/-- The values that loops go through. -/
def Val.iterates {C : Type} : Val C → Bool
  | .arr .. | .range .. | .str _ | .color .. => true
  | _ => false

/-- The number of parts that an index selects from. -/
def Val.extent {C : Type} : Val C → Option Nat
  | .arr xs _ _ => some xs.length
  | .str s => some s.length
  | .color .. => some 4
  | .pair .. => some 2
  | _ => .none

/-- The number of parts that several variables are bound to. -/
def Val.parts {C : Type} : Val C → Option Nat
  | .arr xs _ _ => some xs.length
  | .color .. => some 4
  | .pair .. => some 2
  | _ => .none

/-- The text of a value that is joined to a string. -/
def Val.joined {C : Type} (F : FOps) : Val C → Option (List Char)
  | .str s => some s
  | .int i => some (showInt i.toInt)
  | .float f => some (F.toStr f)
  | .bool b => some (if b then "true".toList else "false".toList)
  | .none => some "none".toList
  | _ => .none

/-- Zero. -/
def Val.nought {C : Type} (F : FOps) : Val C → Bool
  | .int i => i == 0
  | .float f => F.eq f 0
  | _ => false

/-- The exact result of an arithmetic operator on whole numbers; exponents are taken modulo 2³². -/
def Op.exact : Op → BitVec 64 → BitVec 64 → Option Int
  | .add, x, y => some (x.toInt + y.toInt)
  | .sub, x, y => some (x.toInt - y.toInt)
  | .mul, x, y => some (x.toInt * y.toInt)
  | .pow, x, y => some (x.toInt ^ (y.toNat % 2 ^ 32))
  | _, _, _ => none

section
variable {D : Type} (S : SHost D)

/-- The expression evaluates to the value, in some state. -/
def Gives (n : Node) (v : SVal) : Prop := ∃ W j env σ σ', evalNode S (callN S W j) W n env σ = (.ok v, σ')

/-- The expressions evaluate to the values. -/
def GivesL : List Node → List SVal → Prop
  | [], [] => True
  | n :: ns, v :: vs => Gives S n v ∧ GivesL ns vs
  | _, _ => False

/-- What can be wrong with the operands of an operator. -/
inductive OpFault (op : Op) (a b : Node) : Err → Prop
  | types (l r : SVal) : Gives S a l → Gives S b r → op.takes l r = false → OpFault op a b (.type (.unsupportedBinary op.written l.ntype r.ntype))
  | zero (r : SVal) : op = .div ∨ op = .mod → Gives S b r → r.nought S.cfg.F = true → OpFault op a b .zeroDivision
  | concat (s t : List Char) : op = .add → Gives S a (.str s) → Gives S b (.str t) → S.lim.strMax < utf8Len s + utf8Len t → OpFault op a b (.overflow .stringTooLarge)
  | repeat (s : List Char) (k : BitVec 64) : op = .mul → Gives S a (.str s) → Gives S b (.int k) → 0 ≤ k.toInt → S.lim.strMax < utf8Len s * k.toNat →
      OpFault op a b (.overflow .stringTooLarge)
  | join (l r : SVal) (s t : List Char) : op = .join → Gives S a l → Gives S b r → l.joined S.cfg.F = some s → r.joined S.cfg.F = some t →
      S.lim.strMax < utf8Len s + utf8Len t → OpFault op a b (.overflow .stringTooLarge)
  | array (xs ys : List SVal) (n m n' m' : Nat) : op = .join → Gives S a (.arr xs n m) → Gives S b (.arr ys n' m') →
      S.lim.arrMax < n + n' ∨ m < n + (ys.map Val.getSize).sum → OpFault op a b (.overflow .arrayTooLarge)
  | times (s : List Char) (k : BitVec 64) : op = .mul → Gives S a (.str s) → Gives S b (.int k) → k.toInt < 0 → OpFault op a b (.type (.unsupportedBinary "*" "str" "-int"))

/-- What can be wrong with a value (one of `P`) that `n` variables are bound to: it has another number of parts, or none. -/
inductive PartsFault (P : SVal → Prop) (n : Nat) : Err → Prop
  | number {l : Nat} (v : SVal) : P v → v.parts = some l → l ≠ n → PartsFault P n (.type (.insufficientValues l n))
  | none (v : SVal) : P v → v.parts = none → PartsFault P n (.type (.unpackable v.ntype))

/-- What can be wrong with the parts of an index expression: the index, counted from the end if negative, is out of range, or there is
nothing to select from, or the index is no number. -/
inductive IndexFault (a i : Node) : Err → Prop
  | range (v : SVal) {n : Nat} (k : BitVec 64) : Gives S a v → Gives S i (.int k) → v.extent = some n → k.toInt < -n ∨ (n : Int) ≤ k.toInt → IndexFault a i (.index k)
  | value (v : SVal) : Gives S a v → v.extent = none → IndexFault a i (.type (.expected "indexable" v.ntype))
  | index (v : SVal) : Gives S i v → v.whole = false → IndexFault a i (.type (.expected "int" v.ntype))

/-- Calling the builtin `x` with the arguments can have the result. -/
def Answers (x : String) (args : List Node) (r : Res SVal) : Prop :=
  ∃ f d vs, (S.builtins x = some (.fn f) ∨ ∃ g, S.builtins x = some (.ctx f g)) ∧ GivesL S args vs ∧ (f d vs S.lim).1 = r

/-- Leaving some context can have the result. -/
def Leaves (r : Res Unit) : Prop := ∃ x f g d, S.builtins x = some (.ctx f g) ∧ (g d).1 = r

/-- A loop over the expression can come to the item. -/
def Visits (it : Node) (w : SVal) : Prop := ∃ v k, Gives S it v ∧ v.iterItem S.cfg.chk k = .ok (some w)

/-- A function of the given name with the given number of parameters is written here; functions without a name are reported as
`@__lambda__`. -/
def Node.defines : Node → String → Nat → Prop
  | .func _ x ps _, f, k => x.1 = f ∧ ps.length = k
  | .lambda _ ps _, f, k => "@__lambda__" = f ∧ ps.length = k
  | _, _, _ => False

/-- Names that are not declared. -/
inductive Unbound : Node → Err → Option Span → Prop
  | read {sp : Span} {x : String} : Unbound (.ident sp x) (.name (.undefined x)) (some sp)
  | write {sp : Span} {x : Name} {e : Node} : Unbound (.assign sp x e) (.name (.undefined x.1)) (some x.2)
  | builtin {sp : Span} {x : Name} {args : List Node} : S.builtins x.1 = none → Unbound (.builtin sp x args) (.name (.undefinedBuiltin x.1)) (some x.2)
  | context {sp : Span} {x : Name} {args : List Node} {v : Option Var} {b : List Node} : S.builtins x.1 = none →
      Unbound (.ctx sp x args v b) (.name (.undefinedBuiltin x.1)) (some x.2)

/-- All other faults; `N`: the nodes of the program. -/
inductive Faults (N : Node → Prop) : Node → Err → Option Span → Prop
  | range {sp : Span} {a b : Node} (v : SVal) : Gives S a v ∨ Gives S b v → v.whole = false → Faults N (.range sp a b) (.type (.expected "int" v.ntype)) (some sp)
  | array {sp : Span} {items : List Node} (vs : List SVal) : GivesL S items vs → S.lim.arrMax < (vs.map Val.getSize).sum →
      Faults N (.array sp items) (.overflow .arrayTooLarge) (some sp)
  | index {sp : Span} {a i : Node} {e : Err} : IndexFault S a i e → Faults N (.index sp a i) e (some sp)
  | unary {sp : Span} {op : Op} {a : Node} (v : SVal) : Gives S a v → op.takesOne v = false → Faults N (.un sp op a) (.type (.unsupportedUnary op.written v.ntype)) (some sp)
  | binary {sp : Span} {op : Op} {a b : Node} {e : Err} : OpFault S op a b e → Faults N (.bin sp op a b) e (some sp)
  | cond {sp : Span} {c : Node} {th : List Node} {el : Option (List Node)} (v : SVal) : Gives S c v → v.decides = false →
      Faults N (.cond sp c th el) (.type (.expected "truthy" v.ntype)) (some sp)
  | while {sp : Span} {c : Node} {b : List Node} (v : SVal) : Gives S c v → v.decides = false → Faults N (.while sp c b) (.type (.expected "truthy" v.ntype)) (some sp)
  | forIn {sp : Span} {x : Name} {it : Node} {b : List Node} (v : SVal) : Gives S it v → v.iterates = false → Faults N (.forIn sp x it b) (.type (.notIterable v.ntype)) (some sp)
  | forMulti {sp : Span} {xs : List Name} {it : Node} {b : List Node} (v : SVal) : Gives S it v → v.iterates = false →
      Faults N (.forMulti sp xs it b) (.type (.notIterable v.ntype)) (some sp)
  | forParts {sp : Span} {xs : List Name} {it : Node} {b : List Node} {e : Err} : PartsFault (Visits S it) xs.length e → Faults N (.forMulti sp xs it b) e (some it.span)
  | declParts {sp : Span} {xs : List Name} {a : Node} {e : Err} : PartsFault (Gives S a) xs.length e → Faults N (.decl sp (.many xs) a) e (some sp)
  | ctxParts {sp : Span} {x : Name} {args : List Node} {xs : List Name} {b : List Node} {e : Err} : PartsFault (fun v => Answers S x.1 args (.ok v)) xs.length e →
      Faults N (.ctx sp x args (some (.many xs)) b) e (some sp)
  | call {sp : Span} {f : Node} {args : List Node} (v : SVal) : Gives S f v → (∀ c, v ≠ .clos c) → Faults N (.call sp f args) (.type (.notCallable v.ntype)) (some sp)
  | arity {sp : Span} {f : Node} {args : List Node} (c : SClos) : Gives S f (.clos c) → c.params.length ≠ args.length → (∃ n, N n ∧ n.defines c.name c.params.length) →
      Faults N (.call sp f args) (.type (.mismatchedArity c.name c.params.length args.length)) none
  | calledContext {sp : Span} {x : Name} {args : List Node} : (∃ f g, S.builtins x.1 = some (.ctx f g)) →
      Faults N (.builtin sp x args) (.type (.notCallable "context manager")) none
  | builtin {sp : Span} {x : Name} {args : List Node} {e : Err} : Answers S x.1 args (.err e) → Faults N (.builtin sp x args) e (some x.2)
  | context {sp : Span} {x : Name} {args : List Node} {v : Option Var} {b : List Node} {e : Err} : Answers S x.1 args (.err e) → Faults N (.ctx sp x args v b) e (some x.2)
  | leave {sp : Span} {x : Name} {args : List Node} {v : Option Var} {b : List Node} {e : Err} : Leaves S (.err e) → Faults N (.ctx sp x args v b) e (some sp)

/-! ## Crashes -/

/-- Operators that crash; the last three only where overflow is checked. -/
inductive OpCrash (op : Op) (a b : Node) : Prop
  | least : op = .div ∨ op = .mod → Gives S a (.int (BitVec.intMin 64)) → Gives S b (.int (-1)) → OpCrash op a b
  | channel {p q r s p' q' r' s' : BitVec 8} : op = .div → Gives S a (.color p q r s) → Gives S b (.color p' q' r' s') → p' = 0 ∨ q' = 0 ∨ r' = 0 ∨ s' = 0 → OpCrash op a b
  | repeat (s : List Char) (k : BitVec 64) : op = .mul → Gives S a (.str s) → Gives S b (.int k) → 0 ≤ k.toInt → 2 ^ 64 ≤ utf8Len s * k.toNat → OpCrash op a b
  | result {x y : BitVec 64} {r : Int} : S.cfg.chk = true → Gives S a (.int x) → Gives S b (.int y) → op.exact x y = some r → r < -2 ^ 63 ∨ 2 ^ 63 ≤ r → OpCrash op a b
  | shift {x y : BitVec 64} : S.cfg.chk = true → op = .shl ∨ op = .shr → Gives S a (.int x) → Gives S b (.int y) → 64 ≤ y.toNat → OpCrash op a b
  | mix {p q r s p' q' r' s' : BitVec 8} : S.cfg.chk = true → op = .join → Gives S a (.color p q r s) → Gives S b (.color p' q' r' s') →
      256 ≤ p.toNat + p'.toNat ∨ 256 ≤ q.toNat + q'.toNat ∨ 256 ≤ r.toNat + r'.toNat ∨ 256 ≤ s.toNat + s'.toNat → OpCrash op a b

/-- A colour among the values `P` is taken apart into more than four parts. -/
def PartsCrash (P : SVal → Prop) (n : Nat) : Prop := 4 < n ∧ ∃ r g b a, P (.color r g b a)

/-- The expression or statement can bring down the process. -/
inductive Crashes : Node → Prop
  | binary {sp : Span} {op : Op} {a b : Node} : OpCrash S op a b → Crashes (.bin sp op a b)
  | unary {sp : Span} {a : Node} : S.cfg.chk = true → Gives S a (.int (BitVec.intMin 64)) → Crashes (.un sp .neg a)
  | index {sp : Span} {a i : Node} (v : SVal) {n : Nat} (k : BitVec 64) : S.cfg.chk = true → Gives S a v → Gives S i (.int k) → v.extent = some n →
      k = BitVec.intMin 64 ∨ -n ≤ k.toInt ∧ k.toInt < 0 → Crashes (.index sp a i)
  | forIn {sp : Span} {x : Name} {it : Node} {b : List Node} (s e : BitVec 32) : S.cfg.chk = true → Gives S it (.range s e) → 2 ^ 31 ≤ e.toInt - s.toInt → Crashes (.forIn sp x it b)
  | forMulti {sp : Span} {xs : List Name} {it : Node} {b : List Node} (s e : BitVec 32) : S.cfg.chk = true → Gives S it (.range s e) → 2 ^ 31 ≤ e.toInt - s.toInt → Crashes (.forMulti sp xs it b)
  | forParts {sp : Span} {xs : List Name} {it : Node} {b : List Node} : PartsCrash (Visits S it) xs.length → Crashes (.forMulti sp xs it b)
  | declParts {sp : Span} {xs : List Name} {a : Node} : PartsCrash (Gives S a) xs.length → Crashes (.decl sp (.many xs) a)
  | ctxParts {sp : Span} {x : Name} {args : List Node} {xs : List Name} {b : List Node} : PartsCrash (fun v => Answers S x.1 args (.ok v)) xs.length →
      Crashes (.ctx sp x args (some (.many xs)) b)
  | builtin {sp : Span} {x : Name} {args : List Node} : Answers S x.1 args .panic → Crashes (.builtin sp x args)
  | context {sp : Span} {x : Name} {args : List Node} {v : Option Var} {b : List Node} : Answers S x.1 args .panic → Crashes (.ctx sp x args v b)
  | leave {sp : Span} {x : Name} {args : List Node} {v : Option Var} {b : List Node} : Leaves S .panic → Crashes (.ctx sp x args v b)

end

end Quilt
