import Verif.Lib.Strings
import Verif.Lib.Colors

/-!
# The signatures of the standard library

`qstd/src/core.rs`, `math.rs`, `colors.rs`, `strings.rs`, `testing.rs`: the parameter lists as given to
`generate_builtins!`. Random numbers, time, input and output, and `assert_eq` and `assert_ne`, which compare functions
by their captured variables, are in `Verif/Lib/Io.lean`.
-/

namespace Quilt.Lib

variable {C D : Type}

/-- `core`, `qstd/src/core.rs:10-215`. -/
def coreLib (L : Ops) (chk : Bool) (cname : C → String) : List (String × BFn D C) :=
  [("get", builtin L [.list, .int] [] fun (l, i, ()) () _ => get chk l i),
   ("set", builtin L [.list, .int, .any] [] fun (l, i, v, ()) () lim => set chk lim l i v),
   ("slice", builtin L [.list, .int, .int] [] fun (l, s, e, ()) () _ => slice chk l s e),
   ("str", builtin L [.any] [] fun (v, ()) () _ => str L.F cname v),
   ("bin", builtin L [.int] [] fun (i, ()) () _ => inBase 2 i),
   ("oct", builtin L [.int] [] fun (i, ()) () _ => inBase 8 i),
   ("hex", builtin L [.int] [] fun (i, ()) () _ => inBase 16 i),
   ("char", builtin L [.int] [] fun (i, ()) () _ => char i),
   ("int_from_radix", builtin L [.str, .int32] [] fun (s, r, ()) () _ => intFromRadix s r),
   ("int", builtin L [.any] [] fun (v, ()) () _ => int L.F v),
   ("float", builtin L [.any] [] fun (v, ()) () _ => float L v),
   ("bool", builtin L [.any] [] fun (v, ()) () _ => bool L.F v),
   ("color", builtin L [.any] [] fun (v, ()) () _ => color v),
   ("len", builtin L [.any] [] fun (v, ()) () _ => len v),
   ("gettype", builtin L [.any] [] fun (v, ()) () _ => gettype v)]

/-- `math`, `qstd/src/math.rs:10-190`. -/
def mathLib (L : Ops) (chk : Bool) : List (String × BFn D C) :=
  [("log", builtin L [.any] [] fun (v, ()) () _ => logFn L "log10" v),
   ("log2", builtin L [.any] [] fun (v, ()) () _ => logFn L "log2" v),
   ("log10", builtin L [.any] [] fun (v, ()) () _ => logFn L "log10" v),
   ("hash", builtin L [.any] [] fun (v, ()) () _ => hash L v),
   ("min", builtin L [.any, .any] [] fun (a, b, ()) () _ => min L a b),
   ("max", builtin L [.any, .any] [] fun (a, b, ()) () _ => max L a b),
   ("round", builtin L [.any] [] fun (v, ()) () _ => roundFn L.F L.round v),
   ("floor", builtin L [.any] [] fun (v, ()) () _ => roundFn L.F L.floor v),
   ("ceil", builtin L [.any] [] fun (v, ()) () _ => roundFn L.F L.ceil v),
   ("fix", builtin L [.any, .int] [] fun (v, d, ()) () _ => fix L v d),
   ("clamp", builtin L [.num, .num, .num] [] fun (a, m, mm, ()) () _ => clamp L a m mm),
   ("interp", builtin L [.num, .num, .num] [] fun (a, b, t, ()) () _ => interp L.F a b t),
   ("abs", builtin L [.any] [] fun (v, ()) () _ => abs chk L v),
   ("sin", builtin L [.num] [] fun (a, ()) () _ => .ok (.float (L.unary "sin" a))),
   ("cos", builtin L [.num] [] fun (a, ()) () _ => .ok (.float (L.unary "cos" a))),
   ("tan", builtin L [.num] [] fun (a, ()) () _ => .ok (.float (L.unary "tan" a))),
   ("asin", builtin L [.num] [] fun (a, ()) () _ => .ok (.float (L.unary "asin" a))),
   ("acos", builtin L [.num] [] fun (a, ()) () _ => .ok (.float (L.unary "acos" a))),
   ("atan", builtin L [.num] [] fun (a, ()) () _ => .ok (.float (L.unary "atan" a))),
   ("atan2", builtin L [.num, .num] [] fun (a, b, ()) () _ => .ok (.float (L.atan2 a b))),
   ("sqrt", builtin L [.num] [] fun (a, ()) () _ => .ok (.float (L.unary "sqrt" a)))]

/-- `colors`, `qstd/src/colors.rs:9-225`, without the random ones. -/
def colorLib (L : Ops) : List (String × BFn D C) :=
  [("rgba", builtin L [.u8, .u8, .u8, .u8] [] fun (r, g, b, a, ()) () _ => rgba r g b a),
   ("rgb", builtin L [.u8, .u8, .u8] [] fun (r, g, b, ()) () _ => rgb r g b),
   ("hsla", builtin L [.double, .double, .double, .double] [] fun (h, s, l, a, ()) () _ => .ok (hslaToRgba L h s l a)),
   ("hsl", builtin L [.double, .double, .double] [] fun (h, s, l, ()) () _ => .ok (hslaToRgba L h s l f1)),
   ("hsva", builtin L [.double, .double, .double, .double] [] fun (h, s, v, a, ()) () _ => .ok (hsvaToRgba L h s v a)),
   ("hsv", builtin L [.double, .double, .double] [] fun (h, s, v, ()) () _ => .ok (hsvaToRgba L h s v f1)),
   ("r", builtin L [.color] [] fun ((r, _, _, _), ()) () _ => channel r),
   ("g", builtin L [.color] [] fun ((_, g, _, _), ()) () _ => channel g),
   ("b", builtin L [.color] [] fun ((_, _, b, _), ()) () _ => channel b),
   ("a", builtin L [.color] [] fun ((_, _, _, a), ()) () _ => channel a),
   ("luma", builtin L [.color] [] fun (c, ()) () _ => luma L c),
   ("hue", builtin L [.color] [] fun (c, ()) () _ => hue L c),
   ("saturation", builtin L [.color] [] fun (c, ()) () _ => saturation L c),
   ("brightness", builtin L [.color] [] fun (c, ()) () _ => brightness L c),
   ("contrast", builtin L [.color] [] fun (c, ()) () _ => contrast L c),
   ("cdifference", builtin L [.color, .color] [] fun (a, b, ()) () _ => cdifference L a b),
   ("invert", builtin L [.color] [] fun ((r, g, b, a), ()) () _ => invert r g b a),
   ("alpha", builtin L [.color, .double] [] fun ((r, g, b, a), x, ()) () _ => alpha L r g b a x),
   ("mix", builtin L [.color, .color, .double] [] fun (a, b, t, ()) () _ => mix L a b t),
   ("lighten", builtin L [.color, .double] [] fun (c, t, ()) () _ => lighten L c t),
   ("darken", builtin L [.color, .double] [] fun (c, t, ()) () _ => darken L c t),
   ("saturate", builtin L [.color, .double] [] fun (c, t, ()) () _ => saturate L c t),
   ("desaturate", builtin L [.color, .double] [] fun (c, t, ()) () _ => desaturate L c t),
   ("fade", builtin L [.color, .double] [] fun (c, t, ()) () _ => fade L c t),
   ("complement", builtin L [.color] [] fun (c, ()) () _ => complement L c),
   ("contrast_color", builtin L [.color] [] fun (c, ()) () _ => contrastColor L c),
   ("rainbow_colors", builtin L [] [] fun () () lim => rainbowColors lim)]

/-- `strings`, `qstd/src/strings.rs:9-126`. -/
def stringLib (L : Ops) (cname : C → String) : List (String × BFn D C) :=
  [("truncate", builtin L [.str, .int] [⟨.str, "...".toList⟩] fun (s, n, ()) (e, ()) _ => truncate s n e),
   ("capitalize", builtin L [.str] [] fun (s, ()) () _ => capitalize L s),
   ("title", builtin L [.str] [] fun (s, ()) () _ => title L s),
   ("uppercase", builtin L [.str] [] fun (s, ()) () _ => uppercase L s),
   ("lowercase", builtin L [.str] [] fun (s, ()) () _ => lowercase L s),
   ("split", builtin L [.str] [⟨.str, [' ']⟩] fun (s, ()) (sep, ()) lim => split lim s sep),
   ("join", builtin L [.list] [⟨.str, []⟩] fun (l, ()) (sep, ()) _ => join L.F cname l sep),
   ("replace", builtin L [.str, .str, .str] [] fun (s, old, new, ()) () _ => replace s old new),
   ("trim", builtin L [.str] [] fun (s, ()) () _ => trim s),
   ("trim_start", builtin L [.str] [] fun (s, ()) () _ => trimStart s),
   ("trim_end", builtin L [.str] [] fun (s, ()) () _ => trimEnd s),
   ("starts_with", builtin L [.str, .str] [] fun (s, x, ()) () _ => startsWith s x),
   ("ends_with", builtin L [.str, .str] [] fun (s, x, ()) () _ => endsWith s x),
   ("contains", builtin L [.str, .str] [] fun (s, x, ()) () _ => contains s x),
   ("chars", builtin L [.str] [] fun (s, ()) () _ => chars s)]

/-- `testing`, `qstd/src/testing.rs:4-49`, without the two that compare values. -/
def testLib (L : Ops) : List (String × BFn D C) :=
  [("assert", builtin L [.bool] [] fun (b, ()) () _ => assert b),
   ("unreachable", builtin L [] [] fun () () _ => fail "unreachable code reached".toList),
   ("panic", builtin L [.str] [] fun (s, ()) () _ => fail s),
   ("todo", builtin L [] [] fun () () _ => fail "not yet implemented".toList)]

/-- `std`, `qstd/src/lib.rs:19-30`, as far as modelled. -/
def stdLib (L : Ops) (chk : Bool) (cname : C → String) : List (String × BFn D C) :=
  coreLib L chk cname ++ mathLib L chk ++ colorLib L ++ stringLib L cname ++ testLib L

/-- The name of a machine function. -/
def vname (c : VClos) : String := c.fn.name

end Quilt.Lib
