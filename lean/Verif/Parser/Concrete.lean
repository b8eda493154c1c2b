import Verif.Parser.Grammar

/-!
# Concrete syntax

A reference grammar of the language, independent of the order in which the parser tries its alternatives: `Cst` is the type of concrete
syntax trees (with all spaces and comments), `Cst.text` the text of a tree, `Cst.ast` the program it stands for, and `Cst.ok` says
which trees are proper: operators bind by their level, names are names, words are kept apart, and the few texts that mean something
else by another rule are excluded. That the parser reads the text of every proper tree as its program is C54.
-/

namespace Quilt.Cs

open Peg

/-! ## Spaces -/

/-- Pieces of what may stand between two tokens. -/
inductive GapItem where
  | space | tab | newline | crlf | semi
  | comment (cs : List Char)
  /-- A backslash before the end of the line. -/
  | cont
  deriving DecidableEq, Repr

def GapItem.text : GapItem → List Char
  | .space => [' ']
  | .tab => ['\t']
  | .newline => ['\n']
  | .crlf => ['\r', '\n']
  | .semi => [';']
  | .comment cs => '/' :: '/' :: (cs ++ ['\n'])
  | .cont => ['\\', '\n']

/-- Comments do not contain ends of lines or semicolons. -/
def GapItem.ok : GapItem → Bool
  | .comment cs => cs.all fun c => c != '\n' && c != '\r' && c != ';'
  | _ => true

def GapItem.isWs : GapItem → Bool
  | .space | .tab => true
  | _ => false

abbrev Gap := List GapItem

namespace Gap
def text (g : Gap) : List Char := g.flatMap GapItem.text
def ok (g : Gap) : Bool := g.all GapItem.ok
/-- Only blanks and tabs. -/
def isWs (g : Gap) : Bool := g.all GapItem.isWs
end Gap

/-- The gap keeps a word apart from the text that follows. -/
def apart (g : Gap) (t : List Char) : Bool := !g.isEmpty || !(t.head?.any isIdChar)

/-! ## Literals -/

/-- Unsigned integers. -/
inductive Num where
  | dec (ds : List Char)
  | bin (ds : List Char)
  | hex (ds : List Char)
  | oct (ds : List Char)

namespace Num
def text : Num → List Char
  | dec ds => ds
  | bin ds => '0' :: 'b' :: ds
  | hex ds => '0' :: 'x' :: ds
  | oct ds => '0' :: 'o' :: ds

def val : Num → Nat
  | dec ds => digitsVal 10 ds
  | bin ds => digitsVal 2 ds
  | hex ds => digitsVal 16 ds
  | oct ds => digitsVal 8 ds

def digits : Num → Bool
  | dec ds => !ds.isEmpty && ds.all isDig
  | bin ds => !ds.isEmpty && ds.all isBin
  | hex ds => !ds.isEmpty && ds.all isHex
  | oct ds => !ds.isEmpty && ds.all isOct
end Num

/-- Integers; negative ones are decimal. -/
inductive SNum where
  | pos (n : Num)
  | neg (ds : List Char)

namespace SNum
def text : SNum → List Char
  | pos n => n.text
  | neg ds => '-' :: ds

def val : SNum → Int
  | pos n => n.val
  | neg ds => -(digitsVal 10 ds : Int)

/-- Digits, and the number fits in `w` bits. -/
def ok (w : Nat) : SNum → Bool
  | pos n => n.digits && decide (n.val < 2 ^ (w - 1))
  | neg ds => !ds.isEmpty && ds.all isDig && decide (digitsVal 10 ds ≤ 2 ^ (w - 1))
end SNum

/-- Literals. -/
inductive LitC where
  | none
  | bool (b : Bool)
  | color (ds : List Char)
  | float (neg : Bool) (ds fs : List Char)
  | int (n : SNum)
  | range (a : SNum) (g g' : Gap) (b : SNum)
  | str (cs : List Char)
  | pair (g1 : Gap) (a : LitC) (g2 g3 : Gap) (b : LitC) (g4 : Gap)
  /-- Each element stands between two gaps. -/
  | arr (g : Gap) (es : List (Gap × LitC × Gap))

/-- The given texts with commas in between. -/
def commas : List (List Char) → List Char
  | [] => []
  | [t] => t
  | t :: ts => t ++ ',' :: commas ts

namespace LitC
mutual
def text : LitC → List Char
  | none => ['n', 'o', 'n', 'e']
  | bool true => ['t', 'r', 'u', 'e']
  | bool false => ['f', 'a', 'l', 's', 'e']
  | color ds => '#' :: ds
  | float neg ds fs => (if neg then ['-'] else []) ++ ds ++ '.' :: fs
  | int n => n.text
  | range a g g' b => a.text ++ g.text ++ ':' :: (g'.text ++ b.text)
  | str cs => '"' :: (cs ++ ['"'])
  | pair g1 a g2 g3 b g4 => '(' :: (g1.text ++ text a ++ g2.text ++ ',' :: (g3.text ++ text b ++ g4.text ++ [')']))
  | arr g es => '[' :: (g.text ++ commas (texts es) ++ [']'])
termination_by structural l => l
def texts : List (Gap × LitC × Gap) → List (List Char)
  | [] => []
  | (g, l, g') :: es => (g.text ++ text l ++ g'.text) :: texts es
termination_by structural l => l
end

mutual
/-- The value of a literal; `float` converts decimal text. -/
def val (float : List Char → BitVec 64) : LitC → Literal
  | none => .none
  | bool b => .bool b
  | color ds => match hexToRgba ds with
    | some (r, g, b, a) => .color r g b a
    | Option.none => .none
  | .float neg ds fs => .float (float ((if neg then ['-'] else []) ++ ds ++ '.' :: fs))
  | int n => .int (BitVec.ofInt 64 n.val)
  | range a _ _ b => .range (BitVec.ofInt 32 a.val) (BitVec.ofInt 32 b.val)
  | str cs => .str cs
  | pair _ a _ _ b _ => .pair (val float a) (val float b)
  | arr _ es => .arr (vals float es)
termination_by structural l => l
def vals (float : List Char → BitVec 64) : List (Gap × LitC × Gap) → List Literal
  | [] => []
  | (_, l, _) :: es => val float l :: vals float es
termination_by structural l => l
end

mutual
def ok : LitC → Bool
  | none | bool _ => true
  | color ds => !ds.isEmpty && ds.all isHex && (hexToRgba ds).isSome
  | float _ ds fs => !ds.isEmpty && ds.all isDig && !fs.isEmpty && fs.all isDig
  | int n => n.ok 64
  | range a g g' b => a.ok 32 && g.ok && g'.ok && b.ok 32
  | str cs => cs.all (· != '"')
  | pair g1 a g2 g3 b g4 => g1.ok && ok a && g2.ok && g3.ok && ok b && g4.ok
  | arr g es => g.ok && oks es
termination_by structural l => l
def oks : List (Gap × LitC × Gap) → Bool
  | [] => true
  | (g, l, g') :: es => g.ok && ok l && g'.ok && oks es
termination_by structural l => l
end

/-- The literal begins with a minus sign that is part of a number (and not of a range). -/
def isNeg : LitC → Bool
  | int (.neg _) | float true _ _ => true
  | _ => false

def isInt : LitC → Bool
  | int _ => true
  | _ => false

def isRange : LitC → Bool
  | range .. => true
  | _ => false

/-- A decimal number without sign. -/
def isDec : LitC → Bool
  | int (.pos (.dec _)) | float false _ _ => true
  | _ => false
end LitC

/-! ## Operators -/

/-- Operators between two expressions. -/
inductive Infix where
  | range | and | or | eq | neq | gte | lte | gt | lt | bitAnd | bitOr | bitXor | shl | shr | tilde | join | add | sub | mul | div | mod | pow
  deriving DecidableEq, Repr

namespace Infix
def all : List Infix := [range, and, or, eq, neq, gte, lte, gt, lt, bitAnd, bitOr, bitXor, shl, shr, tilde, join, add, sub, mul, div, mod, pow]

def text : Infix → List Char
  | range => [':'] | and => ['&', '&'] | or => ['|', '|'] | eq => ['=', '='] | neq => ['!', '='] | gte => ['>', '='] | lte => ['<', '=']
  | gt => ['>'] | lt => ['<'] | bitAnd => ['&'] | bitOr => ['|'] | bitXor => ['^'] | shl => ['<', '<'] | shr => ['>', '>'] | tilde => ['~']
  | join => ['.', '.'] | add => ['+'] | sub => ['-'] | mul => ['*'] | div => ['/'] | mod => ['%'] | pow => ['*', '*']

/-- How tightly the operator binds. All operators associate to the left. -/
def lvl : Infix → Nat
  | range => 8
  | and | or => 9
  | eq | neq | gte | lte | gt | lt => 10
  | bitAnd | bitOr | bitXor | shl | shr | tilde => 11
  | join => 12
  | add | sub => 13
  | mul | div | mod => 14
  | pow => 15

def ast (a b : Node) : Infix → Node
  | range => .range Span.default a b
  | and => .bin Span.default .and a b | or => .bin Span.default .or a b | eq => .bin Span.default .eq a b | neq => .bin Span.default .neq a b
  | gte => .bin Span.default .gte a b | lte => .bin Span.default .lte a b | gt => .bin Span.default .gt a b | lt => .bin Span.default .lt a b
  | bitAnd => .bin Span.default .bitAnd a b | bitOr => .bin Span.default .bitOr a b | bitXor => .bin Span.default .bitXor a b
  | shl => .bin Span.default .shl a b | shr => .bin Span.default .shr a b | tilde => .bin Span.default .bitNot a b | join => .bin Span.default .join a b
  | add => .bin Span.default .add a b | sub => .bin Span.default .sub a b | mul => .bin Span.default .mul a b | div => .bin Span.default .div a b
  | mod => .bin Span.default .mod a b | pow => .bin Span.default .pow a b
end Infix

/-- Operators before an expression. -/
inductive Prefix where
  | not | neg | bitNot
  deriving DecidableEq, Repr

namespace Prefix
def char : Prefix → Char
  | not => '!' | neg => '-' | bitNot => '~'
def op : Prefix → Op
  | not => .not | neg => .neg | bitNot => .bitNot
end Prefix

/-- The operators of `x op= e`. -/
inductive AOp where
  | add | sub | mul | div | mod | and | or | bitAnd | bitOr | bitXor | shl | shr | join
  deriving DecidableEq, Repr

namespace AOp
def text : AOp → List Char
  | add => ['+'] | sub => ['-'] | mul => ['*'] | div => ['/'] | mod => ['%'] | and => ['&', '&'] | or => ['|', '|'] | bitAnd => ['&'] | bitOr => ['|']
  | bitXor => ['^'] | shl => ['<', '<'] | shr => ['>', '>'] | join => ['.', '.']
def op : AOp → Op
  | add => .add | sub => .sub | mul => .mul | div => .div | mod => .mod | and => .and | or => .or | bitAnd => .bitAnd | bitOr => .bitOr
  | bitXor => .bitXor | shl => .shl | shr => .shr | join => .join
end AOp

/-- The text of an assignment operator. -/
def aopText : Option AOp → List Char
  | some o => o.text ++ ['=']
  | none => ['=']

/-- What is assigned: `x op= e` stands for `x = x op e`. -/
def aopAst (x : String) (e : Node) : Option AOp → Node
  | some o => .bin Span.default o.op (.ident Span.default x) e
  | none => e

/-! ## Trees -/

/-- A name between two gaps. -/
abbrev NameC := Gap × String × Gap

/-- Concrete syntax trees. Bodies in braces are lists of statements, each followed by a gap. -/
inductive Cst where
  | lit (l : LitC)
  | ident (x : String)
  | paren (g : Gap) (e : Cst) (g' : Gap)
  | array (g : Gap) (es : List (Gap × Cst × Gap))
  | pair (g1 : Gap) (a : Cst) (g2 g3 : Gap) (b : Cst) (g4 : Gap)
  | builtin (x : String) (g g0 : Gap) (es : List (Gap × Cst × Gap))
  | call (f : Cst) (g g0 : Gap) (es : List (Gap × Cst × Gap))
  | index (e : Cst) (g g1 : Gap) (i : Cst) (g2 : Gap)
  | bin (op : Infix) (a : Cst) (g g' : Gap) (b : Cst)
  | un (op : Prefix) (g : Gap) (e : Cst)
  | assign (x : String) (g : Gap) (op : Option AOp) (g' : Gap) (e : Cst)
  | decl (g0 : Gap) (x : String) (g : Gap) (op : Option AOp) (g' : Gap) (e : Cst)
  | declMany (g0 : Gap) (xs : List NameC) (g' : Gap) (e : Cst)
  | extern (g0 : Gap) (x : String) (g g' : Gap) (e : Cst)
  /-- A function with a name. -/
  | func (g : Gap) (x : String) (g1 g0 : Gap) (ps : List NameC) (g2 b0 : Gap) (b : List (Cst × Gap))
  | lambda (g g0 : Gap) (ps : List NameC) (g2 b0 : Gap) (b : List (Cst × Gap))
  | while (g : Gap) (c : Cst) (g' b0 : Gap) (b : List (Cst × Gap))
  | forIn (g : Gap) (x : String) (g1 g2 : Gap) (it : Cst) (g3 b0 : Gap) (b : List (Cst × Gap))
  | forMany (g : Gap) (xs : List NameC) (g2 : Gap) (it : Cst) (g3 b0 : Gap) (b : List (Cst × Gap))
  | ctx (g g1 : Gap) (x : String) (g2 g0 : Gap) (es : List (Gap × Cst × Gap)) (v : Option (Gap × Gap × List NameC)) (g3 b0 : Gap) (b : List (Cst × Gap))
  | include (g : Gap) (s : List Char)
  | block (b0 : Gap) (b : List (Cst × Gap))
  /-- Without `else`. -/
  | ifThen (g : Gap) (c : Cst) (g' b0 : Gap) (b : List (Cst × Gap))
  | ifElse (g : Gap) (c : Cst) (g' b0 : Gap) (b : List (Cst × Gap)) (g1 g2 e0 : Gap) (e : List (Cst × Gap))
  /-- `else if`; the last component is the second condition. -/
  | elseIf (g : Gap) (c : Cst) (g' b0 : Gap) (b : List (Cst × Gap)) (g1 g2 : Gap) (e : Cst)
  /-- Each case has its values, a body, and a gap after it; the default has a gap before and after its body. -/
  | switch (g : Gap) (v : Cst) (g1 g2 : Gap) (cs : List (List (Gap × Cst × Gap) × Gap × List (Cst × Gap) × Gap)) (d : Option (Gap × Gap × List (Cst × Gap) × Gap))
  | ret (e : Option (Gap × Cst))

/-- Names that are not keywords (`if` and `else` can be used as names in some places; not here). -/
def nameOk (x : String) : Bool :=
  match x.toList with
  | c :: cs => isIdStart c && cs.all isIdChar && !(reserved.contains x) && x != "if" && x != "else"
  | [] => false

def namesText : List NameC → List (List Char)
  | [] => []
  | (g, x, g') :: xs => (g.text ++ x.toList ++ g'.text) :: namesText xs

def namesOk (xs : List NameC) : Bool := xs.all fun (g, x, g') => g.ok && nameOk x && g'.ok

/-- Names at default positions. -/
def names (xs : List NameC) : List Name := xs.map fun (_, x, _) => (x, Span.default)

namespace Cst

mutual
def text : Cst → List Char
  | lit l => l.text
  | ident x => x.toList
  | paren g e g' => '(' :: (g.text ++ text e ++ g'.text ++ [')'])
  | array g es => '[' :: (g.text ++ commas (texts es) ++ [']'])
  | pair g1 a g2 g3 b g4 => '(' :: (g1.text ++ text a ++ g2.text ++ ',' :: (g3.text ++ text b ++ g4.text ++ [')']))
  | builtin x g g0 es => '@' :: (x.toList ++ g.text ++ '(' :: (g0.text ++ commas (texts es) ++ [')']))
  | call f g g0 es => text f ++ g.text ++ '(' :: (g0.text ++ commas (texts es) ++ [')'])
  | index e g g1 i g2 => text e ++ g.text ++ '[' :: (g1.text ++ text i ++ g2.text ++ [']'])
  | bin op a g g' b => text a ++ g.text ++ op.text ++ g'.text ++ text b
  | un op g e => op.char :: (g.text ++ text e)
  | assign x g op g' e => x.toList ++ g.text ++ aopText op ++ g'.text ++ text e
  | decl g0 x g op g' e => ['l', 'e', 't'] ++ g0.text ++ x.toList ++ g.text ++ aopText op ++ g'.text ++ text e
  | declMany g0 xs g' e => ['l', 'e', 't'] ++ g0.text ++ commas (namesText xs) ++ '=' :: (g'.text ++ text e)
  | extern g0 x g g' e => ['e', 'x', 't', 'e', 'r', 'n', 'a', 'l'] ++ g0.text ++ x.toList ++ g.text ++ '=' :: (g'.text ++ text e)
  | func g x g1 g0 ps g2 b0 b => ['f', 'n'] ++ g.text ++ x.toList ++ g1.text ++ '(' :: (g0.text ++ commas (namesText ps) ++ ')' :: (g2.text ++ '{' :: (b0.text ++ textB b ++ ['}'])))
  | lambda g g0 ps g2 b0 b => ['f', 'n'] ++ g.text ++ '(' :: (g0.text ++ commas (namesText ps) ++ ')' :: (g2.text ++ '{' :: (b0.text ++ textB b ++ ['}'])))
  | «while» g c g' b0 b => ['w', 'h', 'i', 'l', 'e'] ++ g.text ++ text c ++ g'.text ++ '{' :: (b0.text ++ textB b ++ ['}'])
  | forIn g x g1 g2 it g3 b0 b => ['f', 'o', 'r'] ++ g.text ++ x.toList ++ g1.text ++ ['i', 'n'] ++ g2.text ++ text it ++ g3.text ++ '{' :: (b0.text ++ textB b ++ ['}'])
  | forMany g xs g2 it g3 b0 b => ['f', 'o', 'r'] ++ g.text ++ commas (namesText xs) ++ ['i', 'n'] ++ g2.text ++ text it ++ g3.text ++ '{' :: (b0.text ++ textB b ++ ['}'])
  | ctx g g1 x g2 g0 es v g3 b0 b => ['w', 'i', 't', 'h'] ++ g.text ++ '@' :: (g1.text ++ x.toList ++ g2.text ++ '(' :: (g0.text ++ commas (texts es) ++ ')' ::
      ((match v with
        | some (h, h', xs) => h.text ++ ['a', 's'] ++ h'.text ++ commas (namesText xs)
        | none => []) ++ g3.text ++ '{' :: (b0.text ++ textB b ++ ['}']))))
  | «include» g s => ['i', 'n', 'c', 'l', 'u', 'd', 'e'] ++ g.text ++ '"' :: (s ++ ['"'])
  | block b0 b => '{' :: (b0.text ++ textB b ++ ['}'])
  | ifThen g c g' b0 b => ['i', 'f'] ++ g.text ++ text c ++ g'.text ++ '{' :: (b0.text ++ textB b ++ ['}'])
  | ifElse g c g' b0 b g1 g2 e0 e => ['i', 'f'] ++ g.text ++ text c ++ g'.text ++ '{' :: (b0.text ++ textB b ++ '}' :: (g1.text ++ ['e', 'l', 's', 'e'] ++ g2.text ++
      '{' :: (e0.text ++ textB e ++ ['}'])))
  | elseIf g c g' b0 b g1 g2 e => ['i', 'f'] ++ g.text ++ text c ++ g'.text ++ '{' :: (b0.text ++ textB b ++ '}' :: (g1.text ++ ['e', 'l', 's', 'e'] ++ g2.text ++ text e))
  | switch g v g1 g2 cs d => ['s', 'w', 'i', 't', 'c', 'h'] ++ g.text ++ text v ++ g1.text ++ '{' :: (g2.text ++ textC cs ++ textD d ++ ['}'])
  | ret e => ['r', 'e', 't', 'u', 'r', 'n'] ++ textR e
termination_by structural c => c
def texts : List (Gap × Cst × Gap) → List (List Char)
  | [] => []
  | (g, e, g') :: es => (g.text ++ text e ++ g'.text) :: texts es
termination_by structural c => c
def textB : List (Cst × Gap) → List Char
  | [] => []
  | (c, g) :: b => text c ++ g.text ++ textB b
termination_by structural c => c
def textC : List (List (Gap × Cst × Gap) × Gap × List (Cst × Gap) × Gap) → List Char
  | [] => []
  | (vs, b0, b, g) :: cs => ['c', 'a', 's', 'e'] ++ commas (texts vs) ++ '{' :: (b0.text ++ textB b ++ '}' :: (g.text ++ textC cs))
termination_by structural c => c
def textD : Option (Gap × Gap × List (Cst × Gap) × Gap) → List Char
  | none => []
  | some (g, b0, b, g') => ['d', 'e', 'f', 'a', 'u', 'l', 't'] ++ g.text ++ '{' :: (b0.text ++ textB b ++ '}' :: g'.text)
termination_by structural c => c
def textR : Option (Gap × Cst) → List Char
  | none => []
  | some (g, e) => g.text ++ text e
termination_by structural c => c
end

/-! ### Meaning -/

mutual
/-- The program a tree stands for, without positions. -/
def ast (float : List Char → BitVec 64) : Cst → Node
  | lit l => .lit Span.default (l.val float)
  | ident x => .ident Span.default x
  | paren _ e _ => ast float e
  | array _ es => .array Span.default (asts float es)
  | pair _ a _ _ b _ => .pair Span.default (ast float a) (ast float b)
  | builtin x _ _ es => .builtin Span.default (x, Span.default) (asts float es)
  | call f _ _ es => .call Span.default (ast float f) (asts float es)
  | index e _ _ i _ => .index Span.default (ast float e) (ast float i)
  | bin op a _ _ b => op.ast (ast float a) (ast float b)
  | un op _ e => .un Span.default op.op (ast float e)
  | assign x _ op _ e => .assign Span.default (x, Span.default) (aopAst x (ast float e) op)
  | decl _ x _ op _ e => .decl Span.default (.one (x, Span.default)) (aopAst x (ast float e) op)
  | declMany _ xs _ e => .decl Span.default (.many (names xs)) (ast float e)
  | extern _ x _ _ e => .extern Span.default (x, Span.default) (ast float e)
  | func _ x _ _ ps _ _ b => .func Span.default (x, Span.default) (names ps) (addImplicitNone true Span.default (astB float b))
  | lambda _ _ ps _ _ b => .lambda Span.default (names ps) (addImplicitNone true Span.default (astB float b))
  | «while» _ c _ _ b => .while Span.default (ast float c) (addImplicitNone false Span.default (astB float b))
  | forIn _ x _ _ it _ _ b => .forIn Span.default (x, Span.default) (ast float it) (addImplicitNone false Span.default (astB float b))
  | forMany _ xs _ it _ _ b => .forMulti Span.default (names xs) (ast float it) (addImplicitNone false Span.default (astB float b))
  | ctx _ _ x _ _ es v _ _ b => .ctx Span.default (x, Span.default) (asts float es)
      (match v with
        | some (_, _, [(_, y, _)]) => some (.one (y, Span.default))
        | some (_, _, ys) => some (.many (names ys))
        | none => none) (addImplicitNone false Span.default (astB float b))
  | «include» _ s => .include Span.default (String.ofList s, Span.default) none
  | block _ b => .block Span.default (addImplicitNone false Span.default (astB float b))
  | ifThen _ c _ _ b => .cond Span.default (ast float c) (addImplicitNone false Span.default (astB float b)) none
  | ifElse _ c _ _ b _ _ _ e => .cond Span.default (ast float c) (addImplicitNone false Span.default (astB float b))
      (some (addImplicitNone false Span.default (astB float e)))
  | elseIf _ c _ _ b _ _ e => .cond Span.default (ast float c) (addImplicitNone false Span.default (astB float b)) (some [ast float e])
  | switch _ v _ _ cs d => .switch Span.default (ast float v) (astC float cs) (astD float d)
  | ret e => .ret Span.default (astR float e)
termination_by structural c => c
def asts (float : List Char → BitVec 64) : List (Gap × Cst × Gap) → List Node
  | [] => []
  | (_, e, _) :: es => ast float e :: asts float es
termination_by structural c => c
def astB (float : List Char → BitVec 64) : List (Cst × Gap) → List Node
  | [] => []
  | (c, _) :: b => ast float c :: astB float b
termination_by structural c => c
/-- A case with several values stands for as many cases. -/
def astC (float : List Char → BitVec 64) : List (List (Gap × Cst × Gap) × Gap × List (Cst × Gap) × Gap) → List (Node × List Node)
  | [] => []
  | (vs, _, b, _) :: cs => (asts float vs).map (fun v => (v, addImplicitNone false Span.default (astB float b))) ++ astC float cs
termination_by structural c => c
def astD (float : List Char → BitVec 64) : Option (Gap × Gap × List (Cst × Gap) × Gap) → Option (List Node)
  | none => none
  | some (_, _, b, _) => some (addImplicitNone false Span.default (astB float b))
termination_by structural c => c
def astR (float : List Char → BitVec 64) : Option (Gap × Cst) → Option Node
  | none => none
  | some (_, e) => some (ast float e)
termination_by structural c => c
end

/-! ### Proper trees -/

/-- How tightly the outermost operator binds. -/
def lvl : Cst → Nat
  | ret _ => 0
  | assign .. | decl .. | declMany .. | extern .. | ifThen .. | ifElse .. | elseIf .. | switch .. => 2
  | bin op .. => op.lvl
  | un .. => 16
  | call .. | index .. => 17
  | _ => 18

/-- The text takes the spaces after it: that of `if`, of `switch` and of `return` without value. -/
def wide : Cst → Bool
  | ifThen .. | ifElse .. | elseIf .. | switch .. => true
  | assign _ _ _ _ e | decl _ _ _ _ _ e | declMany _ _ _ e | extern _ _ _ _ e => wide e
  | ret none => true
  | ret (some (_, e)) => wide e
  | _ => false

/-- Ends with `return`. -/
def bareRet : Cst → Bool
  | ret none => true
  | ret (some (_, e)) => bareRet e
  | _ => false

/-- The text ends with an integer. -/
def endsInt : Cst → Bool
  | lit l => l.isInt
  | bin _ _ _ _ b => endsInt b
  | un _ _ e => endsInt e
  | assign _ _ _ _ e | decl _ _ _ _ _ e | declMany _ _ _ e | extern _ _ _ _ e => endsInt e
  | ret (some (_, e)) => endsInt e
  | _ => false

/-- The text begins with a range literal. -/
def startsRange : Cst → Bool
  | lit l => l.isRange
  | bin _ a _ _ _ => startsRange a
  | call f _ _ _ => startsRange f
  | index e _ _ _ _ => startsRange e
  | _ => false

/-- The text is that of a literal (which is then what it means inside an array or pair of literals). -/
def isLit : Cst → Bool
  | lit _ => true
  | un .neg [] (lit l) => l.isDec
  | _ => false

end Cst

/-- The text begins with an integer. -/
def startsInt : List Char → Bool
  | '-' :: c :: _ => isDig c
  | c :: _ => isDig c
  | [] => false

/-- After the gap, the statement cannot be taken for a continuation of the one before: it does not begin with a character that can also
continue an expression, and if it begins with a parenthesis, it is on another line. -/
def fresh (wide : Bool) (g : Gap) (t : List Char) : Bool :=
  !g.isEmpty && (g == [.semi] || g.head? != some .semi) &&
  match t.head? with
  | some c => c != '-' && c != '~' && c != '[' && (c != '(' || (!wide && !g.isWs))
  | none => false

namespace Cst

mutual
def ok : Cst → Bool
  | lit l => l.ok && !l.isNeg
  | ident x => nameOk x
  | paren g e g' => g.ok && ok e && g'.ok
  | array g es => g.ok && oks es && !allLit es
  | pair g1 a g2 g3 b g4 => g1.ok && ok a && g2.ok && g3.ok && ok b && g4.ok && !(a.isLit && b.isLit)
  | builtin x g g0 es => nameOk x && g.isWs && g0.ok && oks es
  | call f g g0 es => ok f && decide (17 ≤ f.lvl) && g.isWs && g0.ok && oks es
  | index e g g1 i g2 => ok e && decide (17 ≤ e.lvl) && g.ok && g1.ok && ok i && g2.ok
  | bin op a g g' b => ok a && decide (op.lvl ≤ a.lvl) && g.ok && g'.ok && ok b && decide (op.lvl < b.lvl) &&
      -- `1 : 2` is a literal, also in `x + 1 : 2`
      !(decide (op = .range) && a.endsInt && startsInt b.text) &&
      -- `///`
      !(decide (op = .div) && g'.head?.any fun i => i.text.head? == some '/')
  | un op g e => g.ok && ok e && decide (16 ≤ e.lvl) && !(decide (op = .neg) && g.isEmpty && e.startsRange)
  | assign x g _ g' e => nameOk x && g.ok && g'.ok && ok e && decide (2 ≤ e.lvl)
  | decl g0 x g _ g' e => g0.ok && !g0.isEmpty && nameOk x && g.ok && g'.ok && ok e && decide (2 ≤ e.lvl)
  | declMany g0 xs g' e => g0.ok && !g0.isEmpty && namesOk xs && decide (2 ≤ xs.length) && g'.ok && ok e && decide (2 ≤ e.lvl)
  | extern g0 x g g' e => g0.ok && !g0.isEmpty && nameOk x && g.ok && g'.ok && ok e && decide (2 ≤ e.lvl)
  | func g x g1 g0 ps g2 b0 b => g.ok && !g.isEmpty && nameOk x && g1.ok && g0.ok && namesOk ps && g2.ok && b0.ok && okB b
  | lambda g g0 ps g2 b0 b => g.ok && g0.ok && namesOk ps && g2.ok && b0.ok && okB b
  | «while» g c g' b0 b => g.ok && ok c && !c.bareRet && apart g c.text && g'.ok && b0.ok && okB b
  | forIn g x g1 g2 it g3 b0 b => g.ok && !g.isEmpty && nameOk x && g1.ok && !g1.isEmpty && g2.ok && ok it && !it.bareRet && apart g2 it.text && g3.ok && b0.ok && okB b
  | forMany g xs g2 it g3 b0 b => g.ok && !g.isEmpty && namesOk xs && decide (2 ≤ xs.length) && (xs.getLast?.all fun x => !x.2.2.isEmpty) && g2.ok && ok it && !it.bareRet &&
      apart g2 it.text && g3.ok && b0.ok && okB b
  | ctx g g1 x g2 g0 es v g3 b0 b => g.ok && g1.ok && nameOk x && g2.ok && g0.ok && oks es &&
      (match v with
        | some (h, h', xs) => h.ok && h'.ok && !h'.isEmpty && namesOk xs && !xs.isEmpty
        | none => true) && g3.ok && b0.ok && okB b
  | «include» g s => g.ok && s.all (· != '"')
  | block b0 b => b0.ok && okB b
  | ifThen g c g' b0 b => g.ok && ok c && !c.bareRet && apart g c.text && g'.ok && b0.ok && okB b
  | ifElse g c g' b0 b g1 g2 e0 e => g.ok && ok c && !c.bareRet && apart g c.text && g'.ok && b0.ok && okB b && g1.ok && g2.ok && e0.ok && okB e
  | elseIf g c g' b0 b g1 g2 e => g.ok && ok c && !c.bareRet && apart g c.text && g'.ok && b0.ok && okB b && g1.ok && g2.ok && !g2.isEmpty && ok e && (match e with
      | ifThen .. | ifElse .. | elseIf .. => true
      | _ => false)
  | switch g v g1 g2 cs d => g.ok && ok v && !v.bareRet && apart g v.text && g1.ok && g2.ok && okC cs && okD d
  | ret e => okR e
termination_by structural c => c
def oks : List (Gap × Cst × Gap) → Bool
  | [] => true
  | (g, e, g') :: es => g.ok && ok e && g'.ok && oks es
termination_by structural c => c
def allLit : List (Gap × Cst × Gap) → Bool
  | [] => true
  | (_, e, _) :: es => e.isLit && allLit es
termination_by structural c => c
/-- One of them ends with `return` (which would take the block after it for its value). -/
def anyBare : List (Gap × Cst × Gap) → Bool
  | [] => false
  | (_, e, _) :: es => e.bareRet || anyBare es
termination_by structural c => c
/-- Statements: a statement ends where it seems to. -/
def okB : List (Cst × Gap) → Bool
  | [] => true
  | (c, g) :: b => ok c && g.ok && okB b && (b.isEmpty || (!c.bareRet && fresh c.wide g (textB b)))
termination_by structural c => c
def okC : List (List (Gap × Cst × Gap) × Gap × List (Cst × Gap) × Gap) → Bool
  | [] => true
  | (vs, b0, b, g) :: cs => oks vs && !vs.isEmpty && !anyBare vs && apart [] (commas (texts vs)) && b0.ok && okB b && g.ok && okC cs
termination_by structural c => c
def okD : Option (Gap × Gap × List (Cst × Gap) × Gap) → Bool
  | none => true
  | some (g, b0, b, g') => g.ok && b0.ok && okB b && g'.ok
termination_by structural c => c
def okR : Option (Gap × Cst) → Bool
  | none => true
  | some (g, e) => g.isWs && ok e && apart g e.text
termination_by structural c => c
end

end Cst

/-! ## Programs -/

/-- A program: a gap and statements. -/
structure Prog where
  g : Gap
  b : List (Cst × Gap)

namespace Prog
def text (p : Prog) : List Char := p.g.text ++ Cst.textB p.b
def ast (float : List Char → BitVec 64) (p : Prog) : List Node := addImplicitNone false Span.default (Cst.astB float p.b)
def ok (p : Prog) : Bool := p.g.ok && Cst.okB p.b
end Prog

end Quilt.Cs
