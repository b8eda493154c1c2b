import Verif.Check.Env

/-!
# Conformance: the programs of the repository run in the model

The test programs of `src/tests` and the programs of `readme.md` are read, compiled and run by the model of the command
line program, with the limits of `src/tests/mod.rs`. Nothing here is a property; it is a check
that the model says of these programs what the repository says of them.
The smaller ones are evaluated by the kernel, the larger ones by `#guard`.
-/

namespace Quilt.Check

open Quilt.Lib Quilt.Peg

/-- The command with the limits of `test_code`, `src/tests/mod.rs:5-48`, and with `--result`. -/
def testCode (stack calls fuel : Nat) (src : String) : Option Cli.Outcome :=
  Cli.main env { result := true, stackSize := some stack, callStackSize := some calls, stringMaxSize := some 100000, arrayMaxSize := some 100000 }
    5 fuel "test" (.ok src.toList)

/-- The program ends with status 0, after printing the given text and returning the given value. -/
def passes (stack calls fuel : Nat) (src : String) (value out : String) : Bool :=
  match testCode stack calls fuel src with
  | some (.exit ⟨0, o, none⟩) => o == out.toList ++ if value = "none" then [] else ("RETURNED: " ++ value ++ "\n").toList
  | _ => false

/-- `arith`. -/
example : passes 20 1 3000
    "// arithmetic tests\n\nlet x = 5\nx = x + 1\nx = x * 20 - (5 / 2) ** (2)\nx / 2\n\n@assert_eq(x, 116)"
    "none" "" = true := by decide +kernel

-- `bitwise`.
#guard passes 64 64 3000
    "// bitwise tests\n\nlet x = 5 & 1\nx = 5 | 20\nx = 5 ^ 1\n\n// left shift\nx = 1 << 3\n\n// right shift\nx = 8 >> 1\n\n@assert_eq(x, 4)\n\nlet b = 0b001 | 0b010\n\n@assert_eq(b, 0b011)\n\n// bitwise not\nlet c = ~0b001\n\n@assert_eq(c, -2)\n@assert_eq(0x100, 256)\n@assert_eq(0o100, 64)\n"
    "none" ""

-- `closure`.
#guard passes 64 5 3000
    "fn NewCounter() {\n    let count = 0\n\n    fn Increment() {\n        count = count + 1\n    }\n\n    fn Decrement() {\n        count = count - 1\n    }\n\n    fn Get() {\n        count\n    }\n\n    return [Increment, Decrement, Get]\n}\n\nlet incr, decr, get = NewCounter()\n\n\nincr()\nincr()\nincr()\n\ndecr()\n\n@assert_eq(get(), 2)\n\n{\n    {\n        let incr, decr, get = NewCounter()\n\n        decr()\n\n        incr()\n        incr()\n        incr()\n        incr()\n        incr()\n\n        @assert_eq(get(), 4)\n    }\n}\n\n\n@assert_eq(get(), 2)\n\nfn SOUP() {\n    let a = 0\n\n    let b = [\n        fn() {\n            a = a + 1\n        },\n        fn() {\n            a = a - 1\n        },\n        fn() {\n            a\n        }\n    ]\n}\n\nfn GOOP() {\n    let a = 0\n\n    let b = [\n        fn() {\n            a = a + 1\n        },\n        fn() {\n            a = a - 1\n        },\n        fn() {\n            a\n        }\n    ]\n\n    return b\n}\n\nlet a = SOUP()\nlet a, b, c = GOOP()"
    "none" ""

-- `conds`.
#guard passes 20 1 3000
    "// conditional tests\n\nlet a = 1\nlet b = 20\n\n\nlet ans = if (a > b) {\n    \"true\"\n} else {\n    \"false\"\n}\n\n@assert_eq(ans, \"false\")\n\nlet ans2 = 0\nfor i in 1:10 {\n    if (i % 2 == 0) {\n        ans2 = ans2 + i\n    }\n}\n\n@assert_eq(ans2, 20)\n\nlet bruh = if 1 < 0 {\n    \"bruh\"\n}\n\n@assert_eq(bruh, none)\n\nlet bruh2 =  if 1 > 0 {\n\n} else {\n    \"bruh\"\n}\n\n@assert_eq(bruh2, none)\n"
    "none" ""

-- `loops`.
#guard passes 20 2 3000
    "fn fizzbuzz(n) {\n    for i in 0 : n + 1{\n        let fizz = i % 3 == 0\n        let buzz = i % 5 == 0\n\n        if fizz && buzz {\n            @println(\"fizzbuzz\")\n        } else if fizz {\n            @println(\"fizz\")\n        } else if buzz {\n            @println(\"buzz\")\n        } else {\n            @println(i)\n        }\n    }\n}\n\n\nfizzbuzz(20)\n\n\n\nlet i = 0\nlet ans = 0\nwhile (i = i + 1) < 20 {\n    if i % 3 == 0 {\n        ans = ans + i\n    }\n}\n\n@print(ans)\n\n\n\n\nfor a, b, c in [[1, 2, 3], [4, 5, 6], [7, 8, 9]] {\n    @print(a, b, c)\n}\n\n\nlet r, g, b, a = @rgba(1, 2, 3, 4)\n\n@assert_eq(r, 1)\n@assert_eq(g, 2)\n@assert_eq(b, 3)\n@assert_eq(a, 4)\n\n\nlet r, g, b = @rgba(1, 2, 3, 4)\n\n@assert_eq(r, 1)\n@assert_eq(g, 2)\n@assert_eq(b, 3)\n\n\nlet r, = @rgba(1, 2, 3, 4)\n\n@assert_eq(r, 1)\n"
    "none" "fizzbuzz \n1 \n2 \nfizz \n4 \nbuzz \nfizz \n7 \n8 \nfizz \nbuzz \n11 \nfizz \n13 \n14 \nfizzbuzz \n16 \n17 \nfizz \n19 \nbuzz \n63 1 2 3 4 5 6 7 8 9 "

/-- `recursion` (with a smaller argument). -/
example : passes 64 64 3000
    "fn fib(n) {\n    if n < 2 {\n        n\n    } else {\n        fib(n - 1) + fib(n - 2)\n    }\n}\n\n@assert_eq(fib(6), 8)"
    "none" "" = true := by decide +kernel

/-- `readme: recursion` (with a smaller argument). -/
example : passes 64 64 3000
    "fn fib(n) {\n    if n < 2 {\n        return n\n    }\n\n    return fib(n - 1) + fib(n - 2)\n}\n\nfib(6)\n"
    "8" "" = true := by decide +kernel

/-- `readme: switch` (with a smaller argument). -/
example : passes 64 64 3000
    "fn fib(n) {\n    switch n {\n        case 0, 1 {\n            n\n        }\n\n        default {\n            fib(n - 1) + fib(n - 2)\n        }\n    }\n}\n\nfib(6)\n"
    "8" "" = true := by decide +kernel

-- `readme: loops and destructuring`.
#guard passes 64 5 3000
    "// loops\nlet i = 0\n// assignements are expressions (as well as if statements and loops)\nlet res = while (i = i + 1) < 10 {\n    i * 20\n}\n\n// native rust function\n@print(res)\n\n// for loops\nfor i in 0:10 {\n    for j in [1, 2, 3, i] {\n        @print(i, j)\n    }\n    @print(i)\n}\n\n// destructuring\nlet a, b = (1, 2)\nfor a, b, c in [[1, 2, 3], [4, 5, 6], [7, 8, 9]] {\n    @print(a, b, c)\n}\n\n"
    "none" "180 0 1 0 2 0 3 0 0 0 1 1 1 2 1 3 1 1 1 2 1 2 2 2 3 2 2 2 3 1 3 2 3 3 3 3 3 4 1 4 2 4 3 4 4 4 5 1 5 2 5 3 5 5 5 6 1 6 2 6 3 6 6 6 7 1 7 2 7 3 7 7 7 8 1 8 2 8 3 8 8 8 9 1 9 2 9 3 9 9 9 1 2 3 4 5 6 7 8 9 "

-- `readme: closures`.
#guard passes 64 5 3000
    "// closures\nfn NewCounter() {\n    let count = 0\n\n    fn Increment() {\n        count += 1\n    }\n\n    fn Decrement() {\n        count -= 1\n    }\n\n    // lambdas\n    let Get = fn() { count }\n\n    // implicit return\n    [Increment, Decrement, Get]\n}\n\nlet incr, decr, get = NewCounter()\nincr()\nincr()\ndecr()\nget()\n"
    "1" ""

/-- The listing of `assets/fib_dis.png`: the code of the function `fib` shown there, byte for byte. -/
example : (match parseWithIncludes files 5 "fib.ql"
      "fn fib(n) {\n    if n < 2 {\n        n\n    } else {\n        fib(n - 1) + fib(n - 2)\n    }\n}\n\nfib(20)\n".toList ⟨[], []⟩ with
    | (.ok ast, _) => match compile ⟨noFloats, true⟩ ast with
      | .ok script => script.fn.consts.map fun
        | .fn f => f.ops
        | .lit _ => []
      | _ => []
    | _ => []) =
    [[Instr.loadNone, .loadLocal 1, .loadConst 0, .binary .lt, .jumpIfFalse 9, .popMany 2, .loadLocal 1, .jumpForward 28, .popMany 2,
      .loadLocal 0, .loadLocal 1, .loadConst 1, .binary .sub, .callFunction 1, .loadLocal 0, .loadLocal 1, .loadConst 0, .binary .sub,
      .callFunction 1, .binary .add, .ret].flatMap Instr.enc, []] := by
  decide +kernel

end Quilt.Check
