import Verif.Parser.Grammar

/-!
# Programs without positions
-/

namespace Quilt

/-- A name at the default position. -/
def Name.strip (x : Name) : Name := (x.1, Span.default)

def Var.strip : Var → Var
  | .one x => .one x.strip
  | .many xs => .many (xs.map Name.strip)

mutual
/-- The program with all positions replaced by the default. -/
def Node.strip : Node → Node
  | .lit _ l => .lit Span.default l
  | .array _ es => .array Span.default (stripL es)
  | .pair _ a b => .pair Span.default a.strip b.strip
  | .range _ a b => .range Span.default a.strip b.strip
  | .ident _ x => .ident Span.default x
  | .decl _ v e => .decl Span.default v.strip e.strip
  | .extern _ x e => .extern Span.default x.strip e.strip
  | .assign _ x e => .assign Span.default x.strip e.strip
  | .func _ x ps b => .func Span.default x.strip (ps.map Name.strip) (stripL b)
  | .lambda _ ps b => .lambda Span.default (ps.map Name.strip) (stripL b)
  | .block _ b => .block Span.default (stripL b)
  | .cond _ c th el => .cond Span.default c.strip (stripL th) (stripO el)
  | .switch _ v cs d => .switch Span.default v.strip (stripC cs) (stripO d)
  | .forIn _ x it b => .forIn Span.default x.strip it.strip (stripL b)
  | .forMulti _ xs it b => .forMulti Span.default (xs.map Name.strip) it.strip (stripL b)
  | .while _ c b => .while Span.default c.strip (stripL b)
  | .bin _ op a b => .bin Span.default op a.strip b.strip
  | .un _ op e => .un Span.default op e.strip
  | .call _ f args => .call Span.default f.strip (stripL args)
  | .builtin _ x args => .builtin Span.default x.strip (stripL args)
  | .ctx _ x args v b => .ctx Span.default x.strip (stripL args) (v.map Var.strip) (stripL b)
  | .index _ e i => .index Span.default e.strip i.strip
  | .include _ x b => .include Span.default (x.1, Span.default) (stripO b)
  | .ret _ e => .ret Span.default (stripE e)
termination_by structural n => n
def stripL : List Node → List Node
  | [] => []
  | n :: ns => n.strip :: stripL ns
termination_by structural n => n
def stripO : Option (List Node) → Option (List Node)
  | some b => some (stripL b)
  | none => none
termination_by structural n => n
def stripE : Option Node → Option Node
  | some e => some e.strip
  | none => none
termination_by structural n => n
def stripC : List (Node × List Node) → List (Node × List Node)
  | [] => []
  | (c, b) :: cs => (c.strip, stripL b) :: stripC cs
termination_by structural n => n
end

theorem stripL_map (l : List Node) : stripL l = l.map Node.strip := by
  induction l with
  | nil => rfl
  | cons n ns ih => rw [stripL, ih]; rfl

theorem strip_respan (sp : Span) (n : Node) : (Peg.respan sp n).strip = n.strip := by cases n <;> rfl

theorem strip_span (n : Node) : n.strip.span = Span.default := by cases n <;> rfl

theorem strip_implicitEnd (f : Bool) (sp : Span) : (implicitEnd f sp).strip = implicitEnd f Span.default := by cases f <;> rfl

theorem strip_returnLast (f : Bool) (n : Node) : (returnLast f n).strip = returnLast f n.strip := by
  cases f with
  | false => rfl
  | true => show (Node.ret n.span (some n)).strip = Node.ret n.strip.span (some n.strip); rw [strip_span]; rfl

mutual
/-- The implicit end does not depend on positions. -/
theorem strip_addImplicitNone (f : Bool) (sp : Span) : ∀ b : List Node, stripL (addImplicitNone f sp b) = addImplicitNone f Span.default (stripL b)
  | [] => by
    show [(implicitEnd f sp).strip] = _
    rw [strip_implicitEnd]; rfl
  | [n] => by
    show stripL (addImplicitLast f n) = addImplicitLast f n.strip
    exact strip_addImplicitLast f n
  | n :: n' :: ns => by
    show n.strip :: stripL (addImplicitNone f sp (n' :: ns)) = n.strip :: addImplicitNone f Span.default (stripL (n' :: ns))
    rw [strip_addImplicitNone f sp (n' :: ns)]
termination_by structural b => b
theorem strip_addImplicitLast (f : Bool) : ∀ n : Node, stripL (addImplicitLast f n) = addImplicitLast f n.strip
  | .ret sp e => rfl
  | .block sp b => by
    show [(returnLast f (.block sp (addImplicitNone false sp b))).strip] = [returnLast f (.block Span.default (addImplicitNone false Span.default (stripL b)))]
    rw [strip_returnLast, ← strip_addImplicitNone false sp b]; rfl
  | .cond sp c th el => by
    show [(returnLast f (.cond sp c (addImplicitNone false sp th) (addImplicitOpt sp el))).strip] =
      [returnLast f (.cond Span.default c.strip (addImplicitNone false Span.default (stripL th)) (addImplicitOpt Span.default (stripO el)))]
    rw [strip_returnLast, ← strip_addImplicitNone false sp th, ← strip_addImplicitOpt sp el]; rfl
  | .forIn sp x it b => by
    show [(returnLast f (.forIn sp x it (addImplicitNone false sp b))).strip] = [returnLast f (.forIn Span.default x.strip it.strip (addImplicitNone false Span.default (stripL b)))]
    rw [strip_returnLast, ← strip_addImplicitNone false sp b]; rfl
  | .forMulti sp xs it b => by
    show [(returnLast f (.forMulti sp xs it (addImplicitNone false sp b))).strip] =
      [returnLast f (.forMulti Span.default (xs.map Name.strip) it.strip (addImplicitNone false Span.default (stripL b)))]
    rw [strip_returnLast, ← strip_addImplicitNone false sp b]; rfl
  | .while sp c b => by
    show [(returnLast f (.while sp c (addImplicitNone false sp b))).strip] = [returnLast f (.while Span.default c.strip (addImplicitNone false Span.default (stripL b)))]
    rw [strip_returnLast, ← strip_addImplicitNone false sp b]; rfl
  | .ctx sp x args v b => by
    show [(returnLast f (.ctx sp x args v (addImplicitNone false sp b))).strip] =
      [returnLast f (.ctx Span.default x.strip (stripL args) (v.map Var.strip) (addImplicitNone false Span.default (stripL b)))]
    rw [strip_returnLast, ← strip_addImplicitNone false sp b]; rfl
  | .decl sp v e => by
    show [(Node.decl sp v e).strip, (implicitEnd f sp).strip] = _
    rw [strip_implicitEnd]; rfl
  | .extern sp x e => by
    show [(Node.extern sp x e).strip, (implicitEnd f sp).strip] = _
    rw [strip_implicitEnd]; rfl
  | .func sp x ps b => by
    show [(Node.func sp x ps b).strip, (implicitEnd f sp).strip] = _
    rw [strip_implicitEnd]; rfl
  | .include sp x b => by
    show [(Node.include sp x b).strip, (implicitEnd f sp).strip] = _
    rw [strip_implicitEnd]; rfl
  | .lit sp l => congrArg (· :: []) (strip_returnLast f (.lit sp l))
  | .array sp es => congrArg (· :: []) (strip_returnLast f (.array sp es))
  | .pair sp a b => congrArg (· :: []) (strip_returnLast f (.pair sp a b))
  | .range sp a b => congrArg (· :: []) (strip_returnLast f (.range sp a b))
  | .ident sp x => congrArg (· :: []) (strip_returnLast f (.ident sp x))
  | .assign sp x e => congrArg (· :: []) (strip_returnLast f (.assign sp x e))
  | .lambda sp ps b => congrArg (· :: []) (strip_returnLast f (.lambda sp ps b))
  | .switch sp v cs d => congrArg (· :: []) (strip_returnLast f (.switch sp v cs d))
  | .bin sp op a b => congrArg (· :: []) (strip_returnLast f (.bin sp op a b))
  | .un sp op e => congrArg (· :: []) (strip_returnLast f (.un sp op e))
  | .call sp g args => congrArg (· :: []) (strip_returnLast f (.call sp g args))
  | .builtin sp x args => congrArg (· :: []) (strip_returnLast f (.builtin sp x args))
  | .index sp e i => congrArg (· :: []) (strip_returnLast f (.index sp e i))
termination_by structural n => n
theorem strip_addImplicitOpt (sp : Span) : ∀ b : Option (List Node), stripO (addImplicitOpt sp b) = addImplicitOpt Span.default (stripO b)
  | some b => congrArg some (strip_addImplicitNone false sp b)
  | none => rfl
termination_by structural b => b
end

end Quilt
