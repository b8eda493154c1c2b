import Verif.Parser.Peg
import Verif.Parser.Implicit

/-!
# The grammar: `parser/src/parser.rs:8-297`

One definition per rule. Recursive rules take the recursive occurrences as arguments (`rec`), the
knot is tied with fuel in `literalN` and `nodeN`. The meaning of `precedence!` is that of the `peg`
macro: prefix and atom operators are tried in order of appearance whatever the minimal level, then
infix and postfix operators of level at least the minimal one, in order of appearance, as long as
one matches. An infix operator of level `p` with the marker `(@)` left parses its right side at level `p + 1`,
a prefix operator of level `p` with the marker `@` its operand at level `p + 1`.
-/

namespace Quilt.Peg

/-- The grammar parameter `src_id`, and the conversion of decimal text to a float (`str::parse::<f64>`,
not modelled). -/
structure Env where
  src : Nat
  float : List Char → BitVec 64

/-- `parser.rs:12-13`. -/
def spanned (E : Env) {α : Type} (x : P α) : P (α × Span) := do
  let s ← position
  let a ← x
  let e ← position
  pure (a, ⟨s, e, E.src⟩)

/-- `parser.rs:15`. -/
def term : P Unit := (do let _ ← opt (str "\r"); str "\n") </> str ";"

/-- `parser.rs:16`. -/
def comment : P Unit := do
  str "//"
  let _ ← many (do notP term; cls fun _ => true)
  pure ()

/-- `parser.rs:17`. -/
def terminator : P Unit := do
  let _ ← opt comment
  term

/-- `parser.rs:18`. -/
def isSimpleWhitespace (c : Char) : Bool :=
  c == ' ' || c == '\t' || c == '\u0009' || c == '\u000B' || c == '\u000C' || c == '\u0020' || c == '\u00A0'

def simpleWhitespace : P Unit := do let _ ← cls isSimpleWhitespace; pure ()

/-- `parser.rs:19`. -/
def whitespace : P Unit := simpleWhitespace </> (do str "\\"; term)

/-- The rule `_`, `parser.rs:21`. -/
def skip : P Unit := do let _ ← many (whitespace </> terminator </> comment); pure ()

/-- The rule `__`, `parser.rs:22`. -/
def skip1 : P Unit := do let _ ← many1 (whitespace </> comment); pure ()

/-- `parser.rs:23`. -/
def ws : P Unit := do let _ ← many simpleWhitespace; pure ()

/-- `parser.rs:25`. -/
def commaSep {α : Type} (x : P α) : P (List α) := do
  skip
  let v ← sepBy (do skip; let y ← x; skip; pure y) (str ",")
  let _ ← opt (str ",")
  skip
  pure v

/-- `parser.rs:26`. -/
def commaSep1 {α : Type} (x : P α) : P (List α) := do
  skip
  let v ← sepBy1 (do skip; let y ← x; skip; pure y) (str ",")
  let _ ← opt (str ",")
  skip
  pure v

def isAlpha (c : Char) : Bool := ('a' ≤ c && c ≤ 'z') || ('A' ≤ c && c ≤ 'Z')
def isDig (c : Char) : Bool := '0' ≤ c && c ≤ '9'
def isBin (c : Char) : Bool := '0' ≤ c && c ≤ '1'
def isOct (c : Char) : Bool := '0' ≤ c && c ≤ '7'
def isHex (c : Char) : Bool := isDig c || ('a' ≤ c && c ≤ 'f') || ('A' ≤ c && c ≤ 'F')
/-- First character of identifiers. -/
def isIdStart (c : Char) : Bool := isAlpha c || c == '_'
/-- Further characters of identifiers. -/
def isIdChar (c : Char) : Bool := isAlpha c || isDig c || c == '_'

/-- `parser.rs:28`. -/
def kw (s : String) : P Unit := do
  str s
  notP (cls isIdChar)

/-- `parser.rs:32`. (`if` and `else` are not in the list.) -/
def reserved : List String :=
  ["true", "false", "none", "let", "fn", "include", "with", "as", "while", "for", "in", "return", "switch", "default", "case", "external"]

/-- `parser.rs:30-38`. -/
def ident : P String := do
  let c ← cls isIdStart
  let cs ← many (cls isIdChar)
  let n := String.ofList (c :: cs)
  if n ∈ reserved then fail else pure n

/-- The value of a digit character (hexadecimal or less). -/
def digitVal (c : Char) : Nat :=
  if isDig c then c.toNat - '0'.toNat
  else if 'a' ≤ c && c ≤ 'f' then c.toNat - 'a'.toNat + 10
  else c.toNat - 'A'.toNat + 10

/-- The number written by the digits. -/
def digitsVal (base : Nat) (ds : List Char) : Nat := ds.foldl (fun n d => n * base + digitVal d) 0

/-- `iN::from_str_radix(ds, base).unwrap_or(0)` and `str::parse::<iN>().unwrap_or(0)` (with an optional
minus sign), for `N` bits: `0` if the number is out of range. -/
def intOf (w : Nat) (neg : Bool) (base : Nat) (ds : List Char) : BitVec w :=
  let v := digitsVal base ds
  if neg then (if v ≤ 2 ^ (w - 1) then BitVec.ofInt w (-(v : Int)) else 0)
  else (if v < 2 ^ (w - 1) then BitVec.ofNat w v else 0)

/-- `INT`, `INT32`, `parser.rs:40-52`. -/
def int (w : Nat) : P (BitVec w) :=
  (do str "0b"; let ds ← many1 (cls isBin); pure (intOf w false 2 ds)) </>
  (do str "0x"; let ds ← many1 (cls isHex); pure (intOf w false 16 ds)) </>
  (do str "0o"; let ds ← many1 (cls isOct); pure (intOf w false 8 ds)) </>
  (do let m ← opt (str "-"); let ds ← many1 (cls isDig); pure (intOf w m.isSome 10 ds))

/-- `FLOAT`, `parser.rs:54-56`. -/
def float (E : Env) : P (BitVec 64) := do
  let m ← opt (str "-")
  let ds ← many1 (cls isDig)
  str "."
  notP (str ".")
  let fs ← many (cls isDig)
  pure (E.float ((if m.isSome then ['-'] else []) ++ ds ++ ['.'] ++ fs))

/-- `u8::from_str_radix(s, 16)` for at most two hexadecimal digits. -/
def hexByte (ds : List Char) : BitVec 8 := BitVec.ofNat 8 (digitsVal 16 ds)

/-- `hex_to_rgba`, `parser.rs:299-322`, on a string without leading `#`. The string is made of
hexadecimal digits, so `from_str_radix` succeeds. -/
def hexToRgba (s : List Char) : Option (BitVec 8 × BitVec 8 × BitVec 8 × BitVec 8) :=
  if s.length = 3 then
    some (hexByte (s.take 1) * 17, hexByte ((s.drop 1).take 1) * 17, hexByte ((s.drop 2).take 1) * 17, 255)
  else if s.length < 6 ∨ s.length > 8 then none
  else
    some (hexByte (s.take 2), hexByte ((s.drop 2).take 2), hexByte ((s.drop 4).take 2),
      if s.length = 8 then hexByte ((s.drop 6).take 2) else 255)

/-- `HEX`, `parser.rs:58-65`. -/
def hex : P Literal := do
  str "#"
  let s ← many1 (cls isHex)
  match hexToRgba s with
  | some (r, g, b, a) => pure (.color r g b a)
  | none => fail

/-- `doubleQuotedCharacter`, `parser.rs:71-74`. The second alternative is never successful, as the
first one accepts every character but `"`. -/
def quotedChar : P Char :=
  (do notP (str "\""); cls fun _ => true) </>
  (do
    str "\\u{"
    let ds ← many1 (cls isHex)
    str "}"
    let v := digitsVal 16 ds
    let v := if v < 2 ^ 32 then v else 0
    pure (if h : v.isValidChar then Char.ofNatAux v h else ' '))

/-- `STRING`, `parser.rs:67-69`. -/
def string : P (List Char) := do
  str "\""
  let s ← many quotedChar
  str "\""
  pure s

/-- A range of two integers, in `literal` and `node`. -/
def rangeLit : P Literal := do
  let s ← int 32
  skip
  str ":"
  skip
  let e ← int 32
  pure (.range s e)

/-- `literal`, `parser.rs:76-86`. -/
def literalF (E : Env) (lit : P Literal) : P Literal :=
  (do kw "true"; pure (.bool true)) </>
  (do kw "false"; pure (.bool false)) </>
  (do kw "none"; pure .none) </>
  hex </>
  (do let f ← float E; pure (.float f)) </>
  rangeLit </>
  (do let i ← int 64; pure (.int i)) </>
  (do let s ← string; pure (.str s)) </>
  (do str "("; skip; let h ← lit; skip; str ","; skip; let t ← lit; skip; str ")"; pure (.pair h t)) </>
  (do str "["; skip; let e ← commaSep lit; skip; str "]"; pure (.arr e))

/-- `literal` with recursion depth below `k`. -/
def literalN (E : Env) : Nat → P Literal
  | 0 => fun _ => .oof
  | k + 1 => literalF E (literalN E k)

/-- `literal`; each nesting level consumes a character, so this fuel suffices. -/
def literal (E : Env) : P Literal := fun i => literalN E (i.rest.length + 1) i

/-- `op`, `parser.rs:126-140`. -/
def opP : P Op :=
  (do str "+"; pure .add) </> (do str "-"; pure .sub) </> (do str "*"; pure .mul) </> (do str "/"; pure .div) </>
  (do str "%"; pure .mod) </> (do str "**"; pure .pow) </> (do str "&&"; pure .and) </> (do str "||"; pure .or) </>
  (do str "&"; pure .bitAnd) </> (do str "|"; pure .bitOr) </> (do str "^"; pure .bitXor) </>
  (do str "<<"; pure .shl) </> (do str ">>"; pure .shr) </> (do str ".."; pure .join)

section
variable (E : Env) (node : P Node)

/-- `parser.rs:283-288`. -/
def block (isFn : Bool) : P (List Node) := do
  let s ← position
  str "{"
  skip
  let code ← sepBy node (str ";" </> skip)
  skip
  str "}"
  let e ← position
  pure (addImplicitNone isFn ⟨s, e, E.src⟩ code)

/-- `parser.rs:88-101` (`_elif`, `else_elif`, `if_condition`). The result still has to be given its
span. The first argument bounds the number of `else if`. -/
def ifCondition : Nat → P (Span → Node)
  | 0 => fun _ => .oof
  | k + 1 => do
    skip
    kw "if"
    skip
    let c ← node
    skip
    let th ← block E node false
    skip
    let el ← opt (do
      kw "else"
      skip
      block E node false </> (do
        let s ← position
        skip
        let code ← ifCondition k
        skip
        let e ← position
        pure [code ⟨s, e, E.src⟩]))
    skip
    pure fun sp => .cond sp c th el

/-- `parser.rs:103-104`. -/
def case_ : P (List Node × List Node) := do
  skip
  kw "case"
  skip
  let value ← sepBy1 node (do skip; str ","; skip)
  skip
  let code ← block E node false
  skip
  pure (value, code)

/-- `parser.rs:106-107`. -/
def defaultCase : P (List Node) := do
  skip
  kw "default"
  skip
  let code ← block E node false
  skip
  pure code

/-- `parser.rs:109-124`. -/
def switchCase : P (Span → Node) := do
  skip
  kw "switch"
  skip
  let value ← node
  skip
  str "{"
  skip
  let cases ← sepBy (case_ E node) skip
  skip
  let dflt ← opt (defaultCase E node)
  skip
  str "}"
  skip
  pure fun sp => .switch sp value (cases.flatMap fun c => c.1.map fun v => (v, c.2)) dflt

/-- `x op= e` stands for `x = x op e`, `parser.rs:151-160, 162-171`. -/
def opAssign (x : Name) (op : Option Op) (e : Node) : Node :=
  match op with
  | some op => .bin e.span op (.ident x.2 x.1) e
  | none => e

/-- The variable of `with`, `parser.rs:219-230`. -/
def withVar : Option (List Name) → Option Var
  | some [x] => some (.one x)
  | some xs => some (.many xs)
  | none => none

end

/-- The same node with another span (`e.0` of a parenthesised expression). -/
def respan (sp : Span) : Node → Node
  | .lit _ l => .lit sp l
  | .array _ es => .array sp es
  | .pair _ a b => .pair sp a b
  | .range _ a b => .range sp a b
  | .ident _ x => .ident sp x
  | .decl _ v e => .decl sp v e
  | .extern _ x e => .extern sp x e
  | .assign _ x e => .assign sp x e
  | .func _ x ps b => .func sp x ps b
  | .lambda _ ps b => .lambda sp ps b
  | .block _ b => .block sp b
  | .cond _ c th el => .cond sp c th el
  | .switch _ v cs d => .switch sp v cs d
  | .forIn _ x it b => .forIn sp x it b
  | .forMulti _ xs it b => .forMulti sp xs it b
  | .while _ c b => .while sp c b
  | .bin _ op a b => .bin sp op a b
  | .un _ op e => .un sp op e
  | .call _ f args => .call sp f args
  | .builtin _ x args => .builtin sp x args
  | .ctx _ x args v b => .ctx sp x args v b
  | .index _ e i => .index sp e i
  | .include _ x b => .include sp x b
  | .ret _ e => .ret sp e

section
variable (E : Env) (depth : Nat) (rec : Nat → P Node)

/-- Prefix operators and atoms of `node` in order of appearance, `parser.rs:142-281`. `rec p`
parses an operand of level at least `p`; the rule `node` itself is `rec 0`. -/
def prefixes : List (P (Span → Node)) :=
  [ (do kw "return"; let _ ← opt skip1; let e ← opt (rec 0); pure fun sp => .ret sp e),
    (do
      kw "external"; skip; let i ← spanned E ident; skip; str "="; skip
      let n ← rec 3
      pure fun sp => .extern sp i n),
    (do
      kw "let"; skip; let i ← spanned E ident; skip; let op ← opt opP; str "="; skip
      let n ← rec 3
      pure fun sp => .decl sp (.one i) (opAssign i op n)),
    (do
      kw "let"; skip; let is ← commaSep1 (spanned E ident); skip; str "="; skip
      let e ← rec 3
      pure fun sp => .decl sp (.many is) e),
    (do
      let i ← spanned E ident; skip; let op ← opt opP; str "="; skip
      let e ← rec 3
      pure fun sp => .assign sp i (opAssign i op e)),
    (do
      kw "fn"; skip; let name ← opt (spanned E ident); skip; str "("; skip
      let args ← commaSep (spanned E ident); skip; str ")"; skip
      let body ← block E (rec 0) true
      pure fun sp => match name with
        | some name => .func sp name args body
        | none => .lambda sp args body),
    ifCondition E (rec 0) depth,
    switchCase E (rec 0),
    (do
      kw "while"; skip; let c ← rec 0; skip
      let body ← block E (rec 0) false
      pure fun sp => .while sp c body),
    (do
      kw "for"; skip; let x ← spanned E ident; skip; kw "in"; skip; let it ← rec 0; skip
      let body ← block E (rec 0) false
      pure fun sp => .forIn sp x it body),
    (do
      kw "for"; skip; let xs ← commaSep1 (spanned E ident); skip; kw "in"; skip; let it ← rec 0; skip
      let body ← block E (rec 0) false
      pure fun sp => .forMulti sp xs it body),
    (do
      kw "with"; skip; str "@"; skip; let name ← spanned E ident; skip; str "("; skip
      let args ← commaSep (rec 0); skip; str ")"
      let v ← opt (do skip; kw "as"; skip; commaSep (spanned E ident))
      skip
      let body ← block E (rec 0) false
      pure fun sp => .ctx sp name args (withVar v) body),
    (do
      kw "include"; skip; let s ← spanned E string
      pure fun sp => .include sp (String.ofList s.1, s.2) none),
    (do let l ← rangeLit; pure fun sp => .lit sp l),
    (do str "!"; skip; let e ← rec 17; pure fun sp => .un sp .not e),
    (do str "-"; skip; let e ← rec 17; pure fun sp => .un sp .neg e),
    (do str "~"; skip; let e ← rec 17; pure fun sp => .un sp .bitNot e),
    (do let l ← literal E; pure fun sp => .lit sp l),
    (do str "["; skip; let e ← commaSep (rec 0); skip; str "]"; pure fun sp => .array sp e),
    (do
      str "("; skip; let l ← rec 0; skip; str ","; skip; let r ← rec 0; skip; str ")"
      pure fun sp => .pair sp l r),
    (do
      str "("; skip; let l ← literal E; skip; str ","; skip; let r ← literal E; skip; str ")"
      pure fun sp => .lit sp (.pair l r)),
    (do
      str "@"; let i ← spanned E ident; ws; str "("; skip; let args ← commaSep (rec 0); skip; str ")"
      pure fun sp => .builtin sp i args),
    (do let i ← ident; pure fun sp => .ident sp i),
    (do str "("; skip; let e ← rec 0; skip; str ")"; pure fun sp => respan sp e),
    (do let b ← block E (rec 0) false; pure fun sp => .block sp b) ]

/-- The first success. -/
def firstOf : List (P (Span → Node)) → P (Span → Node)
  | [] => fail
  | x :: xs => x </> firstOf xs

/-- The binary operators with their levels in order of appearance, `parser.rs:235-263`. -/
def infixOps : List (Nat × String × (Span → Node → Node → Node)) :=
  [ (8, ":", .range),
    (9, "&&", (.bin · .and)), (9, "||", (.bin · .or)),
    (10, "==", (.bin · .eq)), (10, "!=", (.bin · .neq)), (10, ">=", (.bin · .gte)), (10, "<=", (.bin · .lte)),
    (10, ">", (.bin · .gt)), (10, "<", (.bin · .lt)),
    (11, "&", (.bin · .bitAnd)), (11, "|", (.bin · .bitOr)), (11, "^", (.bin · .bitXor)), (11, "<<", (.bin · .shl)),
    (11, ">>", (.bin · .shr)), (11, "~", (.bin · .bitNot)),
    (12, "..", (.bin · .join)),
    (13, "+", (.bin · .add)), (13, "-", (.bin · .sub)),
    (14, "*", (.bin · .mul)), (14, "/", (.bin · .div)), (14, "%", (.bin · .mod)),
    (15, "**", (.bin · .pow)) ]

/-- One infix operator applied to the expression `l` parsed before. -/
def infix_ (min : Nat) (l : Node) (op : Nat × String × (Span → Node → Node → Node)) : P (Span → Node) :=
  if op.1 ≥ min then do
    skip
    str op.2.1
    skip
    let r ← rec (op.1 + 1)
    pure fun sp => op.2.2 sp l r
  else fail

/-- Infix and postfix operators, in order of appearance. -/
def postfixes (min : Nat) (l : Node) : List (P (Span → Node)) :=
  List.append (infixOps.map (infix_ rec min l))
  [ (if 17 ≥ min then do
      ws; str "("; skip; let args ← commaSep (rec 0); skip; str ")"
      pure fun sp => .call sp l args
     else fail),
    (if 17 ≥ min then do
      skip; str "["; skip; let i ← rec 0; skip; str "]"
      pure fun sp => .index sp l i
     else fail) ]

/-- The loop of `precedence!`: extend `l`, which started at `start`, as long as possible. -/
def climb (min start : Nat) : Nat → Node → P Node
  | 0, _ => fun _ => .oof
  | n + 1, l => fun i => match (do
      let f ← firstOf (postfixes rec min l)
      let e ← position
      pure (f ⟨start, e, E.src⟩) : P Node) i with
    | .ok l' i' => climb min start n l' i'
    | .fail => .ok l i
    | .oof => .oof

/-- The loop with enough fuel: every operator consumes a character. -/
def climbAll (min start : Nat) (l : Node) : P Node := fun i => climb E rec min start (i.rest.length + 1) l i

/-- `precedence!` at minimal level `min`. -/
def nodeF (min : Nat) : P Node := do
  let start ← position
  let f ← firstOf (prefixes E depth rec)
  let e ← position
  climbAll E rec min start (f ⟨start, e, E.src⟩)

end

/-- `node` with recursion depth below `k`. -/
def nodeN (E : Env) : Nat → Nat → P Node
  | 0 => fun _ _ => .oof
  | k + 1 => nodeF E (k + 1) (nodeN E k)

/-- The rule `node`; each nesting level consumes a character, so this fuel suffices. -/
def node (E : Env) : P Node := fun i => nodeN E (i.rest.length + 1) 0 i

/-- `code`, `parser.rs:290-295`. -/
def code (E : Env) : P (List Node) := do
  skip
  let s ← position
  let code ← opt (sepBy (node E) (str ";" </> skip))
  let e ← position
  skip
  pure (addImplicitNone false ⟨s, e, E.src⟩ (code.getD []))

/-- `parse_code`, `parser/src/lib.rs:41-46`. The error value (position and expected tokens) is left out; see `readCode` in `Traced.lean`. -/
def parseCode (E : Env) (text : List Char) : R (List Node) :=
  (do let a ← code E; eof; pure a : P (List Node)) ⟨0, text⟩

/-- `parse_literal`, `parser/src/lib.rs:34-39`. -/
def parseLiteral (E : Env) (text : List Char) : R Literal :=
  (do let a ← literal E; eof; pure a : P Literal) ⟨0, text⟩

end Quilt.Peg
