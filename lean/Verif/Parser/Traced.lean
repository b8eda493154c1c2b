import Verif.Parser.Grammar

/-!
# The grammar with its failures

`parser/src/parser.rs:8-297` once more, now with what the code that `peg` 0.8.1 generates keeps for the error message: each literal,
character class and `expected!` that fails outside of `quiet!` and of lookahead notes its position and name (`ErrorState::mark_failure`); custom
methods (`##parse_string_literal` in `KW`) note nothing. `peg` parses a second time to collect the names at the furthest position; here all
failures are collected at once. `Verif.Parser.Forget` shows that otherwise this is the grammar of `Verif.Parser.Grammar`, whose comments are not
repeated. Names of character classes are written as in the source (the spacing of `stringify!` is not modelled).
-/

namespace Quilt.Peg

/-- A failure: where, and what was expected. -/
structure Mark where
  pos : Nat
  tok : String
  deriving DecidableEq, Repr

namespace Tr

/-- A parsing expression that notes failures. -/
def T (α : Type) := Inp → R α × List Mark

variable {α β : Type}

/-- Sequence. -/
def T.bind (x : T α) (f : α → T β) : T β := fun i => match x i with
  | (.ok a i', m) => ((f a i').1, m ++ (f a i').2)
  | (.fail, m) => (.fail, m)
  | (.oof, m) => (.oof, m)

instance : Monad T where
  pure a := fun i => (.ok a i, [])
  bind := T.bind

/-- Failure without a note. -/
def fail : T α := fun _ => (.fail, [])

/-- `expected!(tok)`, and `Err(tok)` of a conditional action. -/
def expected (tok : String) : T α := fun i => (.fail, [⟨i.pos, tok⟩])

/-- `quiet!{ x }`: `suppress_fail` is positive in `x`. -/
def quiet (x : T α) : T α := fun i => ((x i).1, [])

/-- Ordered choice. -/
def orElse (x y : T α) : T α := fun i => match x i with
  | (.ok a i', m) => (.ok a i', m)
  | (.fail, m) => ((y i).1, m ++ (y i).2)
  | (.oof, m) => (.oof, m)

@[inherit_doc] infixr:30 " <//> " => orElse

/-- `position!()`. -/
def position : T Nat := fun i => (.ok i.pos i, [])

/-- A character class. -/
def cls (f : Char → Bool) (tok : String) : T Char := fun i => (Peg.cls f i, match Peg.cls f i with | .fail => [⟨i.pos, tok⟩] | _ => [])

/-- How a literal is named: as in the source, in quotes. -/
def quoted (s : String) : String := "\"" ++ s ++ "\""

/-- A literal. -/
def str (s : String) : T Unit := fun i => (Peg.str s i, match Peg.str s i with | .fail => [⟨i.pos, quoted s⟩] | _ => [])

/-- `##parse_string_literal(s)`. -/
def method (s : String) : T Unit := fun i => (Peg.str s i, [])

/-- `!x`. -/
def notP (x : T α) : T Unit := fun i => match (x i).1 with
  | .ok .. => (.fail, [])
  | .fail => (.ok () i, [])
  | .oof => (.oof, [])

/-- `x?`. -/
def opt (x : T α) : T (Option α) := fun i => match x i with
  | (.ok a i', m) => (.ok (some a) i', m)
  | (.fail, m) => (.ok none i, m)
  | (.oof, m) => (.oof, m)

/-- `x*`, at most `n` times. -/
def manyN (x : T α) : Nat → T (List α)
  | 0 => fun _ => (.oof, [])
  | n + 1 => fun i => match x i with
    | (.ok a i', m) =>
      let r := (do let as ← manyN x n; pure (a :: as) : T (List α)) i'
      (r.1, m ++ r.2)
    | (.fail, m) => (.ok [] i, m)
    | (.oof, m) => (.oof, m)

/-- `x*`. -/
def many (x : T α) : T (List α) := fun i => manyN x (i.rest.length + 1) i

/-- `x+`. -/
def many1 (x : T α) : T (List α) := do
  let a ← x
  let as ← many x
  pure (a :: as)

/-- `x ++ sep`. -/
def sepBy1 (x : T α) (sep : T β) : T (List α) := do
  let a ← x
  let as ← many (do let _ ← sep; x)
  pure (a :: as)

/-- `x ** sep`. -/
def sepBy (x : T α) (sep : T β) : T (List α) := sepBy1 x sep <//> pure []

/-- End of input. -/
def eof : T Unit := fun i => (Peg.eof i, match Peg.eof i with | .fail => [⟨i.pos, "EOF"⟩] | _ => [])

/-- `parser.rs:12-13`. -/
def spanned (E : Env) {α : Type} (x : T α) : T (α × Span) := do
  let s ← position
  let a ← x
  let e ← position
  pure (a, ⟨s, e, E.src⟩)

/-- `parser.rs:15`. -/
def term : T Unit := (do let _ ← opt (str "\r"); str "\n") <//> str ";"

/-- `parser.rs:16`. -/
def comment : T Unit := do
  str "//"
  let _ ← many (do notP term; cls (fun _ => true) "[_]")
  pure ()

/-- `parser.rs:17`. -/
def terminator : T Unit := do
  let _ ← opt comment
  term

def simpleWhitespace : T Unit := do let _ ← cls isSimpleWhitespace "[' ' | '\\t' | '\\u{09}' | '\\u{0B}' | '\\u{0C}' | '\\u{20}' | '\\u{A0}' ]"; pure ()

/-- `parser.rs:19`. -/
def whitespace : T Unit := simpleWhitespace <//> (do str "\\"; term)

/-- The rule `_`, `parser.rs:21`. -/
def skip : T Unit := quiet do let _ ← many (whitespace <//> terminator <//> comment); pure ()

/-- The rule `__`, `parser.rs:22`. -/
def skip1 : T Unit := quiet do let _ ← many1 (whitespace <//> comment); pure ()

/-- `parser.rs:23`. -/
def ws : T Unit := quiet do let _ ← many simpleWhitespace; pure ()

/-- `parser.rs:25`. -/
def commaSep {α : Type} (x : T α) : T (List α) := do
  skip
  let v ← sepBy (do skip; let y ← x; skip; pure y) (str ",")
  let _ ← opt (str ",")
  skip
  pure v

/-- `parser.rs:26`. -/
def commaSep1 {α : Type} (x : T α) : T (List α) := do
  skip
  let v ← sepBy1 (do skip; let y ← x; skip; pure y) (str ",")
  let _ ← opt (str ",")
  skip
  pure v

/-- `parser.rs:28`. -/
def kw (s : String) : T Unit := do
  method s
  notP (cls isIdChar "['a'..='z' | 'A'..='Z' | '0'..='9' | '_']")

/-- `parser.rs:30-38`. -/
def ident : T String := quiet (do
  let c ← cls isIdStart "['a'..='z' | 'A'..='Z' | '_']"
  let cs ← many (cls isIdChar "['a'..='z' | 'A'..='Z' | '0'..='9' | '_']")
  let n := String.ofList (c :: cs)
  if n ∈ reserved then expected "Invalid identifier" else pure n) <//>
  expected "identifier"

/-- `INT`, `INT32`, `parser.rs:40-52`. -/
def int (w : Nat) : T (BitVec w) :=
  quiet (do str "0b"; let ds ← many1 (cls isBin "['0'..='1']"); pure (intOf w false 2 ds)) <//>
  quiet (do str "0x"; let ds ← many1 (cls isHex "['0'..='9' | 'a'..='f' | 'A'..='F']"); pure (intOf w false 16 ds)) <//>
  quiet (do str "0o"; let ds ← many1 (cls isOct "['0'..='7']"); pure (intOf w false 8 ds)) <//>
  quiet (do let m ← opt (str "-"); let ds ← many1 (cls isDig "['0'..='9']"); pure (intOf w m.isSome 10 ds)) <//>
  expected "integer"

/-- `FLOAT`, `parser.rs:54-56`. -/
def float (E : Env) : T (BitVec 64) := quiet (do
  let m ← opt (str "-")
  let ds ← many1 (cls isDig "['0'..='9']")
  str "."
  notP (str ".")
  let fs ← many (cls isDig "['0'..='9']")
  pure (E.float ((if m.isSome then ['-'] else []) ++ ds ++ ['.'] ++ fs))) <//>
  expected "float"

/-- `HEX`, `parser.rs:58-65`. -/
def hex : T Literal := do
  str "#"
  let s ← many1 (cls isHex "['0'..='9' | 'a'..='f' | 'A'..='F']")
  match hexToRgba s with
  | some (r, g, b, a) => pure (.color r g b a)
  | none => expected "Invalid hex color"

/-- `doubleQuotedCharacter`, `parser.rs:71-74`. The second alternative is never successful, as the
first one accepts every character but `"`. -/
def quotedChar : T Char :=
  (do notP (str "\""); cls (fun _ => true) "[_]") <//>
  (do
    str "\\u{"
    let ds ← many1 (cls isHex "['0'..='9' | 'a'..='f' | 'A'..='F']")
    str "}"
    let v := digitsVal 16 ds
    let v := if v < 2 ^ 32 then v else 0
    pure (if h : v.isValidChar then Char.ofNatAux v h else ' ')) <//>
  expected "valid escape sequence"

/-- `STRING`, `parser.rs:67-69`. -/
def string : T (List Char) := quiet (do
  str "\""
  let s ← many quotedChar
  str "\""
  pure s) <//>
  expected "string"

/-- A range of two integers, in `literal` and `node`. -/
def rangeLit : T Literal := do
  let s ← int 32
  skip
  str ":"
  skip
  let e ← int 32
  pure (.range s e)

/-- `literal`, `parser.rs:76-86`. -/
def literalF (E : Env) (lit : T Literal) : T Literal :=
  (do kw "true"; pure (.bool true)) <//>
  (do kw "false"; pure (.bool false)) <//>
  (do kw "none"; pure .none) <//>
  hex <//>
  (do let f ← float E; pure (.float f)) <//>
  rangeLit <//>
  (do let i ← int 64; pure (.int i)) <//>
  (do let s ← string; pure (.str s)) <//>
  (do str "("; skip; let h ← lit; skip; str ","; skip; let t ← lit; skip; str ")"; pure (.pair h t)) <//>
  (do str "["; skip; let e ← commaSep lit; skip; str "]"; pure (.arr e))

/-- `literal` with recursion depth below `k`. -/
def literalN (E : Env) : Nat → T Literal
  | 0 => fun _ => (.oof, [])
  | k + 1 => literalF E (literalN E k)

/-- `literal`; each nesting level consumes a character, so this fuel suffices. -/
def literal (E : Env) : T Literal := fun i => literalN E (i.rest.length + 1) i

/-- `op`, `parser.rs:126-140`. -/
def opP : T Op :=
  (do str "+"; pure .add) <//> (do str "-"; pure .sub) <//> (do str "*"; pure .mul) <//> (do str "/"; pure .div) <//>
  (do str "%"; pure .mod) <//> (do str "**"; pure .pow) <//> (do str "&&"; pure .and) <//> (do str "||"; pure .or) <//>
  (do str "&"; pure .bitAnd) <//> (do str "|"; pure .bitOr) <//> (do str "^"; pure .bitXor) <//>
  (do str "<<"; pure .shl) <//> (do str ">>"; pure .shr) <//> (do str ".."; pure .join)

section
variable (E : Env) (node : T Node)

/-- `parser.rs:283-288`. -/
def block (isFn : Bool) : T (List Node) := do
  let s ← position
  str "{"
  skip
  let code ← sepBy node (str ";" <//> skip)
  skip
  str "}"
  let e ← position
  pure (addImplicitNone isFn ⟨s, e, E.src⟩ code)

/-- `parser.rs:88-101` (`_elif`, `else_elif`, `if_condition`). The result still has to be given its
span. The first argument bounds the number of `else if`. -/
def ifCondition : Nat → T (Span → Node)
  | 0 => fun _ => (.oof, [])
  | k + 1 => do
    skip
    kw "if"
    skip
    let c ← node
    skip
    let th ← block E node false
    skip
    let el ← opt (do
      kw "else"
      skip
      block E node false <//> (do
        let s ← position
        skip
        let code ← ifCondition k
        skip
        let e ← position
        pure [code ⟨s, e, E.src⟩]))
    skip
    pure fun sp => .cond sp c th el

/-- `parser.rs:103-104`. -/
def case_ : T (List Node × List Node) := do
  skip
  kw "case"
  skip
  let value ← sepBy1 node (do skip; str ","; skip)
  skip
  let code ← block E node false
  skip
  pure (value, code)

/-- `parser.rs:106-107`. -/
def defaultCase : T (List Node) := do
  skip
  kw "default"
  skip
  let code ← block E node false
  skip
  pure code

/-- `parser.rs:109-124`. -/
def switchCase : T (Span → Node) := do
  skip
  kw "switch"
  skip
  let value ← node
  skip
  str "{"
  skip
  let cases ← sepBy (case_ E node) skip
  skip
  let dflt ← opt (defaultCase E node)
  skip
  str "}"
  skip
  pure fun sp => .switch sp value (cases.flatMap fun c => c.1.map fun v => (v, c.2)) dflt

end

section
variable (E : Env) (depth : Nat) (rec : Nat → T Node)

/-- Prefix operators and atoms of `node` in order of appearance, `parser.rs:142-281`. `rec p`
parses an operand of level at least `p`; the rule `node` itself is `rec 0`. -/
def prefixes : List (T (Span → Node)) :=
  [ (do kw "return"; let _ ← opt skip1; let e ← opt (rec 0); pure fun sp => .ret sp e),
    (do
      kw "external"; skip; let i ← spanned E ident; skip; str "="; skip
      let n ← rec 3
      pure fun sp => .extern sp i n),
    (do
      kw "let"; skip; let i ← spanned E ident; skip; let op ← opt opP; str "="; skip
      let n ← rec 3
      pure fun sp => .decl sp (.one i) (opAssign i op n)),
    (do
      kw "let"; skip; let is ← commaSep1 (spanned E ident); skip; str "="; skip
      let e ← rec 3
      pure fun sp => .decl sp (.many is) e),
    (do
      let i ← spanned E ident; skip; let op ← opt opP; str "="; skip
      let e ← rec 3
      pure fun sp => .assign sp i (opAssign i op e)),
    (do
      kw "fn"; skip; let name ← opt (spanned E ident); skip; str "("; skip
      let args ← commaSep (spanned E ident); skip; str ")"; skip
      let body ← block E (rec 0) true
      pure fun sp => match name with
        | some name => .func sp name args body
        | none => .lambda sp args body),
    ifCondition E (rec 0) depth,
    switchCase E (rec 0),
    (do
      kw "while"; skip; let c ← rec 0; skip
      let body ← block E (rec 0) false
      pure fun sp => .while sp c body),
    (do
      kw "for"; skip; let x ← spanned E ident; skip; kw "in"; skip; let it ← rec 0; skip
      let body ← block E (rec 0) false
      pure fun sp => .forIn sp x it body),
    (do
      kw "for"; skip; let xs ← commaSep1 (spanned E ident); skip; kw "in"; skip; let it ← rec 0; skip
      let body ← block E (rec 0) false
      pure fun sp => .forMulti sp xs it body),
    (do
      kw "with"; skip; let name ← (do str "@"; skip; spanned E ident) <//> expected "builtin"; skip; str "("; skip
      let args ← commaSep (rec 0); skip; str ")"
      let v ← opt (do skip; kw "as"; skip; commaSep (spanned E ident))
      skip
      let body ← block E (rec 0) false
      pure fun sp => .ctx sp name args (withVar v) body),
    (do
      kw "include"; skip; let s ← spanned E string
      pure fun sp => .include sp (String.ofList s.1, s.2) none),
    (do let l ← rangeLit; pure fun sp => .lit sp l),
    (do str "!"; skip; let e ← rec 17; pure fun sp => .un sp .not e),
    (do str "-"; skip; let e ← rec 17; pure fun sp => .un sp .neg e),
    (do str "~"; skip; let e ← rec 17; pure fun sp => .un sp .bitNot e),
    (do let l ← literal E; pure fun sp => .lit sp l),
    (do str "["; skip; let e ← commaSep (rec 0); skip; str "]"; pure fun sp => .array sp e),
    (do
      str "("; skip; let l ← rec 0; skip; str ","; skip; let r ← rec 0; skip; str ")"
      pure fun sp => .pair sp l r),
    (do
      str "("; skip; let l ← literal E; skip; str ","; skip; let r ← literal E; skip; str ")"
      pure fun sp => .lit sp (.pair l r)),
    (do
      str "@"; let i ← spanned E ident; ws; str "("; skip; let args ← commaSep (rec 0); skip; str ")"
      pure fun sp => .builtin sp i args),
    (do let i ← ident; pure fun sp => .ident sp i),
    (do str "("; skip; let e ← rec 0; skip; str ")"; pure fun sp => respan sp e),
    (do let b ← block E (rec 0) false; pure fun sp => .block sp b) ]

/-- The first success. -/
def firstOf : List (T (Span → Node)) → T (Span → Node)
  | [] => fail
  | x :: xs => x <//> firstOf xs

/-- One infix operator applied to the expression `l` parsed before. -/
def infix_ (min : Nat) (l : Node) (op : Nat × String × (Span → Node → Node → Node)) : T (Span → Node) :=
  if op.1 ≥ min then do
    skip
    str op.2.1
    skip
    let r ← rec (op.1 + 1)
    pure fun sp => op.2.2 sp l r
  else fail

/-- Infix and postfix operators, in order of appearance. -/
def postfixes (min : Nat) (l : Node) : List (T (Span → Node)) :=
  List.append (infixOps.map (infix_ rec min l))
  [ (if 17 ≥ min then do
      ws; str "("; skip; let args ← commaSep (rec 0); skip; str ")"
      pure fun sp => .call sp l args
     else fail),
    (if 17 ≥ min then do
      skip; str "["; skip; let i ← rec 0; skip; str "]"
      pure fun sp => .index sp l i
     else fail) ]

/-- The loop of `precedence!`: extend `l`, which started at `start`, as long as possible. -/
def climb (min start : Nat) : Nat → Node → T Node
  | 0, _ => fun _ => (.oof, [])
  | n + 1, l => fun i => match (do
      let f ← firstOf (postfixes rec min l)
      let e ← position
      pure (f ⟨start, e, E.src⟩) : T Node) i with
    | (.ok l' i', m) => ((climb min start n l' i').1, m ++ (climb min start n l' i').2)
    | (.fail, m) => (.ok l i, m)
    | (.oof, m) => (.oof, m)

/-- The loop with enough fuel: every operator consumes a character. -/
def climbAll (min start : Nat) (l : Node) : T Node := fun i => climb E rec min start (i.rest.length + 1) l i

/-- `precedence!` at minimal level `min`. -/
def nodeF (min : Nat) : T Node := do
  let start ← position
  let f ← firstOf (prefixes E depth rec)
  let e ← position
  climbAll E rec min start (f ⟨start, e, E.src⟩)

end

/-- `node` with recursion depth below `k`. -/
def nodeN (E : Env) : Nat → Nat → T Node
  | 0 => fun _ _ => (.oof, [])
  | k + 1 => nodeF E (k + 1) (nodeN E k)

/-- The rule `node`; each nesting level consumes a character, so this fuel suffices. -/
def node (E : Env) : T Node := fun i => nodeN E (i.rest.length + 1) 0 i

/-- `code`, `parser.rs:290-295`. -/
def code (E : Env) : T (List Node) := do
  skip
  let s ← position
  let code ← opt (sepBy (node E) (str ";" <//> skip))
  let e ← position
  skip
  pure (addImplicitNone false ⟨s, e, E.src⟩ (code.getD []))

/-- The public rule `code`, with the end of the text. -/
def all (E : Env) : T (List Node) := do let a ← code E; eof; pure a

/-- The public rule `literal`, with the end of the text. -/
def allLiteral (E : Env) : T Literal := do let a ← literal E; eof; pure a

end Tr

/-- Where `peg` reports the error: the furthest failure (`ErrorState::max_err_pos`, at first 0). -/
def furthest (ms : List Mark) : Nat := ms.foldl (fun p m => max p m.pos) 0

/-- Insertion into a sorted list without repetition. -/
def insertName (s : String) : List String → List String
  | [] => [s]
  | t :: ts => if s = t then t :: ts else if s < t then s :: t :: ts else t :: insertName s ts

/-- The names of what failed there, a set (`ExpectedSet`), sorted by `syntax_error`, `parser/src/lib.rs:20-21`. -/
def expectedAt (p : Nat) (ms : List Mark) : List String := ((ms.filter (·.pos = p)).map Mark.tok).foldr insertName []

/-- `&text[..p]`: the text before a byte position; `none` (a panic) if no character begins there. -/
def before : List Char → Nat → Option (List Char)
  | _, 0 => some []
  | [], _ + 1 => none
  | c :: cs, p + 1 => if c.utf8Size ≤ p + 1 then (before cs (p + 1 - c.utf8Size)).map (c :: ·) else none

/-- `SyntaxError::UnexpectedToken` with its position, `parser/src/lib.rs:15-32`, `common/src/error.rs:381-403`. -/
structure Unexpected where
  line : Nat
  column : Nat
  expected : List String
  offset : Nat
  deriving DecidableEq, Repr

/-- `syntax_error`, `parser/src/lib.rs:15-32`, with `position_repr` of `peg` for `str`: lines are counted from 1 by line feeds, columns from 1 by
characters. -/
def syntaxError (text : List Char) (ms : List Mark) : Res Unexpected :=
  match before text (furthest ms) with
  | none => .panic
  | some pre => .ok {
      line := (pre.filter (· == '\n')).length + 1
      column := (pre.reverse.takeWhile (· != '\n')).length + 1
      expected := expectedAt (furthest ms) ms
      offset := furthest ms }

/-- The message, `common/src/error.rs:381-400`: names separated by commas. -/
def Unexpected.text (e : Unexpected) : String :=
  s!"unexpected token at line {e.line}, column {e.column}, expected one of {", ".intercalate e.expected}"

/-- What `parse_code` gives, `parser/src/lib.rs:41-46`: `none`, out of fuel. -/
def readCode (E : Env) (text : List Char) : Option (Except (Res Unexpected) (List Node)) :=
  match Tr.all E ⟨0, text⟩ with
  | (.ok a _, _) => some (.ok a)
  | (.fail, ms) => some (.error (syntaxError text ms))
  | (.oof, _) => none

/-- What `parse_literal` gives, `parser/src/lib.rs:34-39`. -/
def readLiteral (E : Env) (text : List Char) : Option (Except (Res Unexpected) Literal) :=
  match Tr.allLiteral E ⟨0, text⟩ with
  | (.ok a _, _) => some (.ok a)
  | (.fail, ms) => some (.error (syntaxError text ms))
  | (.oof, _) => none

end Quilt.Peg
