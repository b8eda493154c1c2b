import Verif.Ast

/-!
# Programs up to positions and names of local variables

A specification: when two programs differ at most in positions and in a consistent choice of names for local variables and
parameters. Names of functions and globals are visible in printed values, in errors and to the host and must be equal.
-/

namespace Quilt

/-- Local variables of the two programs that correspond, innermost first. -/
abbrev Ren := List (String × String)

/-- `x` is the variable in one program that `y` is in the other: the first entry with `x` on the left is the first with `y` on the
right; names without entry are global and must be equal. -/
def Ren.Same : Ren → String → String → Prop
  | [], x, y => x = y
  | (a, b) :: ρ, x, y => (x = a ∧ y = b) ∨ (x ≠ a ∧ y ≠ b ∧ Ren.Same ρ x y)

/-- Inside of a function: its name, then its parameters, the last one innermost. -/
def Ren.call (f : String) (ps qs : List Name) (ρ : Ren) : Ren := ((ps.map Prod.fst).zip (qs.map Prod.fst)).reverse ++ (f, f) :: ρ

/-- Declarations of as many variables. -/
def Var.Fits : Var → Var → Prop
  | .one _, .one _ => True
  | .many xs, .many ys => xs.length = ys.length
  | _, _ => False

/-- The names declared. -/
def Var.binds : Var → List String
  | .one x => [x.1]
  | .many xs => xs.map Prod.fst

/-- After a declaration. -/
def Ren.decl (v w : Var) (ρ : Ren) : Ren := v.binds.zip w.binds ++ ρ

/-- After a statement. -/
def Ren.after : Node → Node → Ren → Ren
  | .decl _ v _, .decl _ w _, ρ => ρ.decl v w
  | .func _ f _ _, _, ρ => (f.1, f.1) :: ρ
  | _, _, ρ => ρ

mutual
/-- Equal up to positions and the names of local variables. -/
def Node.Alpha : Node → Ren → Node → Prop
  | .lit _ l, _, m => ∃ sp, m = .lit sp l
  | .ident _ x, ρ, m => ∃ sp y, m = .ident sp y ∧ ρ.Same x y
  | .assign _ x e, ρ, m => ∃ sp y e', m = .assign sp y e' ∧ ρ.Same x.1 y.1 ∧ e.Alpha ρ e'
  | .pair _ a b, ρ, m => ∃ sp a' b', m = .pair sp a' b' ∧ a.Alpha ρ a' ∧ b.Alpha ρ b'
  | .range _ a b, ρ, m => ∃ sp a' b', m = .range sp a' b' ∧ a.Alpha ρ a' ∧ b.Alpha ρ b'
  | .index _ a b, ρ, m => ∃ sp a' b', m = .index sp a' b' ∧ a.Alpha ρ a' ∧ b.Alpha ρ b'
  | .bin _ op a b, ρ, m => ∃ sp a' b', m = .bin sp op a' b' ∧ a.Alpha ρ a' ∧ b.Alpha ρ b'
  | .un _ op e, ρ, m => ∃ sp e', m = .un sp op e' ∧ e.Alpha ρ e'
  | .array _ es, ρ, m => ∃ sp es', m = .array sp es' ∧ AlphaL es ρ es'
  | .call _ f es, ρ, m => ∃ sp f' es', m = .call sp f' es' ∧ f.Alpha ρ f' ∧ AlphaL es ρ es'
  | .builtin _ x es, ρ, m => ∃ sp y es', m = .builtin sp y es' ∧ x.1 = y.1 ∧ AlphaL es ρ es'
  | .block _ b, ρ, m => ∃ sp b', m = .block sp b' ∧ AlphaB b ρ b'
  | .cond _ c b o, ρ, m => ∃ sp c' b' o', m = .cond sp c' b' o' ∧ c.Alpha ρ c' ∧ AlphaB b ρ b' ∧ AlphaO o ρ o'
  | .switch _ e cs o, ρ, m => ∃ sp e' cs' o', m = .switch sp e' cs' o' ∧ e.Alpha ρ e' ∧ AlphaC cs ρ cs' ∧ AlphaO o ρ o'
  | .while _ c b, ρ, m => ∃ sp c' b', m = .while sp c' b' ∧ c.Alpha ρ c' ∧ AlphaB b ρ b'
  | .forIn _ x e b, ρ, m => ∃ sp y e' b', m = .forIn sp y e' b' ∧ e.Alpha ρ e' ∧ AlphaB b ((x.1, y.1) :: ρ) b'
  | .forMulti _ xs e b, ρ, m => ∃ sp ys e' b', m = .forMulti sp ys e' b' ∧ xs.length = ys.length ∧ e.Alpha ρ e' ∧ AlphaB b (ρ.decl (.many xs) (.many ys)) b'
  | .lambda _ ps b, ρ, m => ∃ sp qs b', m = .lambda sp qs b' ∧ ps.length = qs.length ∧ AlphaB b (ρ.call "@__lambda__" ps qs) b'
  | .func _ f ps b, ρ, m => ∃ sp g qs b', m = .func sp g qs b' ∧ f.1 = g.1 ∧ ps.length = qs.length ∧ AlphaB b (ρ.call f.1 ps qs) b'
  | .ctx _ x es none b, ρ, m => ∃ sp y es' b', m = .ctx sp y es' none b' ∧ x.1 = y.1 ∧ AlphaL es ρ es' ∧ AlphaB b ρ b'
  | .ctx _ x es (some v) b, ρ, m => ∃ sp y es' w b', m = .ctx sp y es' (some w) b' ∧ x.1 = y.1 ∧ v.Fits w ∧ AlphaL es ρ es' ∧ AlphaB b (ρ.decl v w) b'
  | .decl _ v e, ρ, m => ∃ sp w e', m = .decl sp w e' ∧ v.Fits w ∧ e.Alpha ρ e'
  | .extern _ x e, ρ, m => ∃ sp y e', m = .extern sp y e' ∧ x.1 = y.1 ∧ e.Alpha ρ e'
  | .include _ x _, _, m => ∃ sp y b', m = .include sp y b' ∧ x.1 = y.1
  | .ret _ o, ρ, m => ∃ sp o', m = .ret sp o' ∧ AlphaE o ρ o'
termination_by structural n => n
/-- Expressions. -/
def AlphaL : List Node → Ren → List Node → Prop
  | [], _, ms => ms = []
  | n :: ns, ρ, ms => ∃ m ms', ms = m :: ms' ∧ n.Alpha ρ m ∧ AlphaL ns ρ ms'
termination_by structural n => n
/-- Statements of a block. -/
def AlphaB : List Node → Ren → List Node → Prop
  | [], _, ms => ms = []
  | n :: ns, ρ, ms => ∃ m ms', ms = m :: ms' ∧ n.Alpha ρ m ∧ AlphaB ns (ρ.after n m) ms'
termination_by structural n => n
def AlphaO : Option (List Node) → Ren → Option (List Node) → Prop
  | none, _, o => o = none
  | some b, ρ, o => ∃ b', o = some b' ∧ AlphaB b ρ b'
termination_by structural n => n
def AlphaE : Option Node → Ren → Option Node → Prop
  | none, _, o => o = none
  | some e, ρ, o => ∃ e', o = some e' ∧ e.Alpha ρ e'
termination_by structural n => n
/-- Cases of `switch`. -/
def AlphaC : List (Node × List Node) → Ren → List (Node × List Node) → Prop
  | [], _, cs => cs = []
  | (c, b) :: cs, ρ, ds => ∃ c' b' ds', ds = (c', b') :: ds' ∧ c.Alpha ρ c' ∧ AlphaB b ρ b' ∧ AlphaC cs ρ ds'
termination_by structural n => n
end

mutual
/-- At the top level, where declared names are global. -/
def Node.AlphaTop : Node → Node → Prop
  | .decl _ v e, m => ∃ sp w e', m = .decl sp w e' ∧ v.Fits w ∧ v.binds = w.binds ∧ e.Alpha [] e'
  | .include _ x b, m => ∃ sp y b', m = .include sp y b' ∧ x.1 = y.1 ∧ AlphaIncl b b'
  | n, m => n.Alpha [] m
termination_by structural n => n
def AlphaProg : List Node → List Node → Prop
  | [], ms => ms = []
  | n :: ns, ms => ∃ m ms', ms = m :: ms' ∧ n.AlphaTop m ∧ AlphaProg ns ms'
termination_by structural n => n
def AlphaIncl : Option (List Node) → Option (List Node) → Prop
  | none, o => o = none
  | some b, o => ∃ b', o = some b' ∧ AlphaProg b b'
termination_by structural n => n
end

end Quilt
