import Verif.Lib.Std

/-!
# Random numbers, time, input and output

`qstd/src/math.rs:189-226`, the random colours of `colors.rs`, `time.rs`, `io.rs`, the comparisons of `testing.rs`. What is outside of the program answers
the questions the builtins ask (`Outside`); these builtins have the output so far and the number of questions asked as host
data. Writing to the standard output is assumed to succeed (`print!` panics otherwise).
-/

namespace Quilt.Lib

/-- What answers the builtins: each answer may depend on the number of questions asked before, so that any sequence of
answers is possible. Functions of the Rust standard library and of `rand` that turn answers into floats are
included. -/
structure Outside where
  /-- `stdout().flush()` -/
  flush : Nat → Bool
  /-- `stdin().read_line`: the line with its end, empty at the end of the input; `none` for an error -/
  line : Nat → Option (List Char)
  /-- `fs::read_to_string`: the text, or the message of the error -/
  file : Nat → List Char → Except (List Char) (List Char)
  /-- the next number of the random number generator -/
  rand : Nat → BitVec 64
  /-- nanoseconds since 1970; `none` if the clock is set to a time before -/
  clock : Nat → Option Nat
  /-- `rand::random::<f64>` from a random number -/
  unitF : BitVec 64 → BitVec 64
  /-- `gen_range` on floats, from a random number -/
  between : BitVec 64 → BitVec 64 → BitVec 64 → BitVec 64
  /-- `f64::is_finite` -/
  finite : BitVec 64 → Bool
  /-- `Duration::as_secs_f64` from nanoseconds -/
  secs : Nat → BitVec 64
  /-- the result of a comparison that depends on the equality of functions: builtins of the model see the names of
  functions only -/
  fnEq : Nat → Bool

/-- The standard output so far and the number of questions asked. -/
structure Io where
  out : List Char
  asked : Nat
  deriving DecidableEq, Repr

variable {C : Type}

/-- `generate_builtins!` as in `builtin`, for bodies that act on the outside. -/
def builtinIo (L : Ops) (req : List PKind) (body : Params C req → Io → Res (Val C) × Io) : BFn Io C := fun d args _ =>
  match (takeReq L req (Args.new args)).bind fun (xs, a) => a.stop.map fun _ => xs with
  | .ok xs => body xs d
  | .err e => (.err e, d)
  | .panic => (.panic, d)

namespace Io

/-- `print!`. -/
def print (d : Io) (t : List Char) : Io := { d with out := d.out ++ t }

/-- One more question. -/
def tick (d : Io) : Io := { d with asked := d.asked + 1 }

end Io

variable (L : Ops) (cname : C → String) (O : Outside)

/-- `for arg in to_print { print!("{} ", arg) }`, `io.rs:12-14`. -/
def printed (vs : List (Val C)) : List Char := vs.flatMap fun v => v.text L.F cname ++ [' ']

/-- `io.rs:11-17`. -/
def println (vs : List (Val C)) (d : Io) : Res (Val C) × Io := (.ok .none, d.print (printed L cname vs ++ ['\n']))

/-- `io.rs:20-25`. -/
def print (vs : List (Val C)) (d : Io) : Res (Val C) × Io := (.ok .none, d.print (printed L cname vs))

/-- `io.rs:28-38`. -/
def debug (vs : List (Val C)) (d : Io) : Res (Val C) × Io :=
  (.ok .none, d.print ("\x1b[38;5;208mDEBUG: ".toList ++ printed L cname vs ++ "\x1b[0m\n".toList))

/-- `io.rs:41-53`. -/
def input (prompt : List Char) (d : Io) : Res (Val C) × Io :=
  let d := d.print prompt
  if O.flush d.asked then
    match O.line d.tick.asked with
    | some s => (.ok (.str (trimEndText (trimStartText s))), d.tick.tick)
    | none => (fail "could not read input".toList, d.tick.tick)
  else (fail "could not flush stdout".toList, d.tick)

/-- `io.rs:56-61`. -/
def readfile (path : List Char) (d : Io) : Res (Val C) × Io :=
  match O.file d.asked path with
  | .ok s => (.ok (.str s), d.tick)
  | .error e => (fail ("could not read file: ".toList ++ e), d.tick)

/-- `time.rs:9-15`. -/
def now (d : Io) : Res (Val C) × Io :=
  match O.clock d.asked with
  | some t => (.ok (.float (O.secs t)), d.tick)
  | none => (fail "failed to get time".toList, d.tick)

/-- The text of `@date` for a number of seconds, `time.rs:25-38`. -/
def dateText (secs : Nat) : List Char :=
  let mins := secs / 60
  let hours := mins / 60
  let days := hours / 24
  let year := 1970 + days / 365
  let month := days % 365 / 30
  let day := days % 365 % 30
  showNat year ++ ['-'] ++ showNat month ++ ['-'] ++ showNat day ++ [' '] ++ showNat (hours % 24) ++ [':'] ++ showNat (mins % 60) ++ [':'] ++
    showNat (secs % 60)

/-- `time.rs:18-41`. -/
def date (d : Io) : Res (Val C) × Io :=
  match O.clock d.asked with
  | some t => (.ok (.str (dateText (t / 1000000000))), d.tick)
  | none => (fail "failed to get time".toList, d.tick)

/-- `math.rs:190-192`. -/
def random (d : Io) : Res (Val C) × Io := (.ok (.float (O.unitF (O.rand d.asked))), d.tick)

/-- `math.rs:195-197`. -/
def randbool (d : Io) : Res (Val C) × Io := (.ok (.bool (O.rand d.asked).msb), d.tick)

/-- `math.rs:200-206`; `gen_range` gives some number of the range. -/
def randint (start stop : BitVec 64) (d : Io) : Res (Val C) × Io :=
  if start.toInt ≥ stop.toInt then (fail "start must be less than end".toList, d)
  else (.ok (.int (BitVec.ofInt 64 (start.toInt + (O.rand d.asked).toNat % (stop.toInt - start.toInt)))), d.tick)

/-- `math.rs:209-215`; `gen_range` panics if the range is empty (which the test does not exclude for NaN) or longer
than the greatest float. -/
def randfloat (start stop : BitVec 64) (d : Io) : Res (Val C) × Io :=
  if L.F.le stop start then (fail "start must be less than end".toList, d)
  else if L.F.lt start stop && O.finite (L.F.sub stop start) then (.ok (.float (O.between (O.rand d.asked) start stop)), d.tick)
  else (.panic, d)

/-- `math.rs:218-226`. -/
def randchoice (l : List (Val C)) (d : Io) : Res (Val C) × Io :=
  if l = [] then (fail "list must not be empty".toList, d)
  else match l[(O.rand d.asked).toNat % l.length]? with
    | some v => (.ok v, d.tick)
    | none => (.panic, d.tick)

/-- `colors.rs:195-202`. -/
def randomColor (d : Io) : Res (Val C) × Io :=
  let wide : BitVec 32 := (O.rand d.asked).setWidth 32
  (.ok (.color (wide.setWidth 8) ((wide >>> 8).setWidth 8) ((wide >>> 16).setWidth 8) 255), d.tick)

/-- `colors.rs:205-212`. -/
def randomPastelColor (d : Io) : Res (Val C) × Io :=
  let wide : BitVec 32 := (O.rand d.asked).setWidth 32
  let f (c : BitVec 8) : BitVec 8 := L.toU8 (L.F.add (L.F.mul (ofU8 L c) fhalf) f127_5)
  (.ok (.color (f (wide.setWidth 8)) (f ((wide >>> 8).setWidth 8)) (f ((wide >>> 16).setWidth 8)) 255), d.tick)

/-- `colors.rs:215-218`. -/
def randomRainbowColor (d : Io) : Res (Val C) × Io :=
  match (rainbow : List (Val C))[(O.rand d.asked).toNat % 10]? with
  | some v => (.ok v, d.tick)
  | none => (.panic, d.tick)

/-- `a == b`, `value.rs` (derived `PartialEq`). -/
def same (a b : Val C) (d : Io) : Bool × Io :=
  match Val.eqv L.F (fun _ _ => Option.none) a b with
  | some r => (r, d)
  | none => (O.fnEq d.asked, d.tick)

/-- The message of the two asserts. -/
def assertText (op : String) (a b : Val C) : List Char :=
  "assertion failed: `(left ".toList ++ op.toList ++ " right)`\n  left: `".toList ++ a.text L.F cname ++ "`\n right: `".toList ++
    b.text L.F cname ++ "`".toList

/-- `testing.rs:18-24`. -/
def assertEq (a b : Val C) (d : Io) : Res (Val C) × Io :=
  match same L O a b d with
  | (true, d') => (.ok .none, d')
  | (false, d') => (fail (assertText L cname "==" a b), d')

/-- `testing.rs:27-33`. -/
def assertNe (a b : Val C) (d : Io) : Res (Val C) × Io :=
  match same L O a b d with
  | (false, d') => (.ok .none, d')
  | (true, d') => (fail (assertText L cname "!=" a b), d')

/-- The part of `testing` that compares, `testing.rs:17-33`. -/
def compareLib : List (String × BFn Io C) :=
  [("assert_eq", builtinIo L [.any, .any] fun (a, b, ()) d => assertEq L cname O a b d),
   ("assert_ne", builtinIo L [.any, .any] fun (a, b, ()) d => assertNe L cname O a b d)]

/-- The random part of `math`, `math.rs:189-226`. -/
def randLib : List (String × BFn Io C) :=
  [("random", builtinIo L [] fun () d => random O d),
   ("randbool", builtinIo L [] fun () d => randbool O d),
   ("randint", builtinIo L [.int, .int] fun (a, b, ()) d => randint O a b d),
   ("randfloat", builtinIo L [.double, .double] fun (a, b, ()) d => randfloat L O a b d),
   ("randchoice", builtinIo L [.list] fun (l, ()) d => randchoice O l d)]

/-- The random part of `colors`, `colors.rs:194-218`. -/
def randColorLib : List (String × BFn Io C) :=
  [("random_color", builtinIo L [] fun () d => randomColor O d),
   ("random_pastel_color", builtinIo L [] fun () d => randomPastelColor L O d),
   ("random_rainbow_color", builtinIo L [] fun () d => randomRainbowColor O d)]

/-- `time`, `time.rs:4-42`. -/
def timeLib : List (String × BFn Io C) :=
  [("now", builtinIo L [] fun () d => now O d),
   ("date", builtinIo L [] fun () d => date O d)]

/-- `io`, `io.rs:6-62`. -/
def ioLib : List (String × BFn Io C) :=
  [("println", builtinIo L [.rest] fun (vs, ()) d => println L cname vs d),
   ("print", builtinIo L [.rest] fun (vs, ()) d => print L cname vs d),
   ("debug", builtinIo L [.rest] fun (vs, ()) d => debug L cname vs d),
   ("input", builtinIo L [.str] fun (s, ()) d => input O s d),
   ("readfile", builtinIo L [.str] fun (s, ()) d => readfile O s d)]

/-- `stdio`, `qstd/src/lib.rs:32-39`. (The entries are in another order; names are
different, so the order shows only in the numbers of the symbols.) -/
def stdioLib (chk : Bool) : List (String × BFn Io C) :=
  stdLib L chk cname ++ randLib L O ++ randColorLib L O ++ timeLib L O ++ ioLib L cname O ++ compareLib L cname O

end Quilt.Lib
