import Verif.Lib.Core

/-!
# `qstd/src/strings.rs`
-/

namespace Quilt.Lib

variable {C : Type}

/-- `char::is_whitespace`: the Unicode `White_Space` property. -/
def isSpace (c : Char) : Bool :=
  let n := c.toNat
  (9 ≤ n && n ≤ 13) || n == 32 || n == 0x85 || n == 0xA0 || n == 0x1680 || (0x2000 ≤ n && n ≤ 0x200A) ||
    n == 0x2028 || n == 0x2029 || n == 0x202F || n == 0x205F || n == 0x3000

/-- The loop `strings.rs:26-32`: the position moves back by the width of every white-space character
found after it. -/
def backOver (i : Nat) : List Char → Nat
  | [] => i
  | c :: cs => if isSpace c then backOver (i - c.utf8Size) cs else i

/-- `strings.rs:14-40`. `char_indices().nth(len)` yields a byte offset. -/
def truncate (s : List Char) (len : BitVec 64) (ellipsis : List Char) : Res (Val C) :=
  let n := len.toNat
  if n < s.length then
    let i := min (utf8Len (s.take n) - ellipsis.length) s.length
    .ok (.str (s.take (backOver i (s.drop i)) ++ ellipsis))
  else .ok (.str s)

/-- `strings.rs:43-49`. -/
def capitalText (L : Ops) : List Char → List Char
  | [] => []
  | c :: cs => L.upper c ++ cs

def capitalize (L : Ops) (s : List Char) : Res (Val C) := .ok (.str (capitalText L s))

/-- `str::split_whitespace`; `cur` is the word being read, reversed. -/
def wordsGo (cur : List Char) : List Char → List (List Char)
  | [] => if cur.isEmpty then [] else [cur.reverse]
  | c :: cs =>
    if isSpace c then (if cur.isEmpty then wordsGo [] cs else cur.reverse :: wordsGo [] cs)
    else wordsGo (c :: cur) cs

/-- `[String]::join`. -/
def joinText (sep : List Char) : List (List Char) → List Char
  | [] => []
  | [x] => x
  | x :: y :: xs => x ++ sep ++ joinText sep (y :: xs)

/-- `strings.rs:52-62`. -/
def title (L : Ops) (s : List Char) : Res (Val C) :=
  .ok (.str (joinText [' '] ((wordsGo [] s).map (capitalText L))))

/-- `strings.rs:65-67`. -/
def uppercase (L : Ops) (s : List Char) : Res (Val C) := .ok (.str (s.flatMap L.upper))

/-- `strings.rs:70-72`. -/
def lowercase (L : Ops) (s : List Char) : Res (Val C) := .ok (.str (L.lower s))

/-- Adds a character in front of the first piece. -/
def consHead (c : Char) : List (List Char) → List (List Char)
  | [] => [[c]]
  | p :: ps => (c :: p) :: ps

/-- `str::split` by a string that is not empty: `skip` characters belong to a match. -/
def splitGo (sep : List Char) : Nat → List Char → List (List Char)
  | _, [] => [[]]
  | skip + 1, _ :: cs => splitGo sep skip cs
  | 0, c :: cs =>
    if sep.isPrefixOf (c :: cs) then [] :: splitGo sep (sep.length - 1) cs else consHead c (splitGo sep 0 cs)

/-- `str::split`: the empty string matches at every character boundary. -/
def splitText (s sep : List Char) : List (List Char) :=
  if sep.isEmpty then [] :: (s.map fun c => [c]) ++ [[]] else splitGo sep 0 s

/-- `strings.rs:76-78`. -/
def split (lim : Limits) (s sep : List Char) : Res (Val C) := makeArray ((splitText s sep).map .str) lim.arrMax

/-- `strings.rs:81-83`. -/
def join (F : FOps) (cname : C → String) (s : List (Val C)) (sep : List Char) : Res (Val C) :=
  .ok (.str (joinText sep (s.map fun v => v.text F cname)))

/-- `str::replace` of a string that is not empty. -/
def replaceGo (old new : List Char) : Nat → List Char → List Char
  | _, [] => []
  | skip + 1, _ :: cs => replaceGo old new skip cs
  | 0, c :: cs =>
    if old.isPrefixOf (c :: cs) then new ++ replaceGo old new (old.length - 1) cs else c :: replaceGo old new 0 cs

/-- `str::replace`. -/
def replaceText (s old new : List Char) : List Char :=
  if old.isEmpty then new ++ s.flatMap (fun c => c :: new) else replaceGo old new 0 s

/-- `strings.rs:86-88`. -/
def replace (s old new : List Char) : Res (Val C) := .ok (.str (replaceText s old new))

/-- `str::trim_start`, `str::trim_end`. -/
def trimStartText (s : List Char) : List Char := s.dropWhile isSpace
def trimEndText (s : List Char) : List Char := (s.reverse.dropWhile isSpace).reverse

/-- `strings.rs:91-93`. -/
def trim (s : List Char) : Res (Val C) := .ok (.str (trimEndText (trimStartText s)))

/-- `strings.rs:96-98`. -/
def trimStart (s : List Char) : Res (Val C) := .ok (.str (trimStartText s))

/-- `strings.rs:101-103`. -/
def trimEnd (s : List Char) : Res (Val C) := .ok (.str (trimEndText s))

/-- `strings.rs:106-108`. -/
def startsWith (s start : List Char) : Res (Val C) := .ok (.bool (start.isPrefixOf s))

/-- `strings.rs:111-113`. -/
def endsWith (s stop : List Char) : Res (Val C) := .ok (.bool (stop.isSuffixOf s))

/-- `str::contains`. -/
def containsText (s x : List Char) : Bool :=
  match s with
  | [] => x.isPrefixOf []
  | c :: cs => x.isPrefixOf (c :: cs) || containsText cs x

/-- `strings.rs:116-118`. -/
def contains (s x : List Char) : Res (Val C) := .ok (.bool (containsText s x))

/-- `strings.rs:121-123`. -/
def chars (s : List Char) : Res (Val C) := .ok (ofVec (s.map fun c => .str [c]))

end Quilt.Lib
