import Verif.Lib.Io

/-!
# The documentation of builtins: `interpreter/src/builtins/docs.rs`, `builtins/macros.rs`, `qstd/src/*.rs`

`generate_builtins!` makes, from the same signature as the function itself, a constant that describes it. The tables
below are the signatures and comments of `qstd/src`; `req`, `opt` and `doc` are what the macro does with them.
-/

namespace Quilt.Docs

/-- `docs.rs:18-25` `Arg`. -/
structure Arg where
  name : String
  type : String
  optional : Bool
  default : Option String
  deriving DecidableEq, Repr

/-- `docs.rs:9-16` `BuiltinDoc`. -/
structure BuiltinDoc where
  name : String
  description : String
  args : List Arg
  returns : List String
  deriving DecidableEq, Repr

/-- `docs.rs:1-7` `BuiltinGroup`. -/
structure BuiltinGroup where
  name : String
  description : String
  builtins : List BuiltinDoc
  deriving DecidableEq, Repr

/-- `macros.rs:46-51`: a required parameter. -/
def req (name type : String) : Arg := ⟨name, type, false, none⟩

/-- `macros.rs:52-59`: an optional parameter with its default, as written. -/
def opt (name type default : String) : Arg := ⟨name, type, true, some default⟩

/-- `concat!($($doc, '\n'), *)`, `macros.rs:45`, `70`. -/
def lines (ls : List String) : String := ls.foldr (fun l t => l ++ "\n" ++ t) ""

/-- `macros.rs:43-62`. -/
def doc (name : String) (ls : List String) (args : List Arg) (returns : List String) : BuiltinDoc := ⟨name, lines ls, args, returns⟩

/-- `get_<group>_doc`, `macros.rs:92-99`. -/
def getDoc (g : BuiltinGroup) (name : String) : Option BuiltinDoc := g.builtins.find? (·.name == name)

/-- `core.rs:15`. -/
def get_DOC := doc "get" ["Get an item from a list at a given index."] [req "list" "list", req "index" "int"] ["any"]
/-- `core.rs:27`. -/
def set_DOC := doc "set" ["Set an item in a list at a given index."] [req "list" "list", req "index" "int", req "value" "any"] ["list"]
/-- `core.rs:40`. -/
def slice_DOC := doc "slice" ["Get a slice of a list."] [req "list" "list", req "start" "int", req "end" "int"] ["list"]
/-- `core.rs:72`. -/
def str_DOC := doc "str" ["Convert a value to a string."] [req "arg" "any"] ["str"]
/-- `core.rs:77`. -/
def bin_DOC := doc "bin" ["Convert an integer to its binary representation as a string."] [req "val" "int"] ["str"]
/-- `core.rs:82`. -/
def oct_DOC := doc "oct" ["Convert an integer to its octal representation as a string."] [req "val" "int"] ["str"]
/-- `core.rs:87`. -/
def hex_DOC := doc "hex" ["Convert an integer to its hexadecimal representation as a string."] [req "val" "int"] ["str"]
/-- `core.rs:92`. -/
def char_DOC := doc "char" ["Convert a character code to a string."] [req "val" "int"] ["str"]
/-- `core.rs:101`. -/
def int_from_radix_DOC := doc "int_from_radix" ["Convert a string to an integer with a given radix."] [req "val" "str", req "radix" "int32"] ["int"]
/-- `core.rs:117`. -/
def int_DOC := doc "int" ["Convert a value to an integer."] [req "arg" "any"] ["int"]
/-- `core.rs:130`. -/
def float_DOC := doc "float" ["Convert a value to a float."] [req "arg" "any"] ["float"]
/-- `core.rs:143`. -/
def bool_DOC := doc "bool" ["Convert a value to a boolean."] [req "arg" "any"] ["bool"]
/-- `core.rs:157`. -/
def color_DOC := doc "color" ["Convert a value to a color"] [req "arg" "any"] ["color"]
/-- `core.rs:199`. -/
def len_DOC := doc "len" ["Get the length of an array or string."] [req "arg" "any"] ["int"]
/-- `core.rs:208`. -/
def gettype_DOC := doc "gettype" ["Get the type of a value as a string."] [req "arg" "any"] ["str"]

/-- `core_DOCS`, `core.rs:11-212`. -/
def core_DOCS : BuiltinGroup := ⟨"core", lines ["Basic builtin functions."],
    [get_DOC, set_DOC, slice_DOC, str_DOC, bin_DOC, oct_DOC, hex_DOC, char_DOC, int_from_radix_DOC, int_DOC, float_DOC, bool_DOC, color_DOC, len_DOC,
     gettype_DOC]⟩

/-- `math.rs:15`. -/
def log_DOC := doc "log" ["Compute the log10 of a number."] [req "arg" "any"] ["float"]
/-- `math.rs:24`. -/
def log2_DOC := doc "log2" ["Compute the log2 of a number."] [req "arg" "any"] ["float"]
/-- `math.rs:33`. -/
def log10_DOC := doc "log10" ["Compute the log10 of a number."] [req "arg" "any"] ["float"]
/-- `math.rs:42`. -/
def hash_DOC := doc "hash" ["Compute an arbitrary hash of a value."] [req "arg" "any"] ["int"]
/-- `math.rs:63`. -/
def min_DOC := doc "min" ["Get the min of two numbers."] [req "a" "any", req "b" "any"] ["num"]
/-- `math.rs:74`. -/
def max_DOC := doc "max" ["Get the max of two numbers."] [req "a" "any", req "b" "any"] ["num"]
/-- `math.rs:85`. -/
def round_DOC := doc "round" ["Round a number to the nearest whole number."] [req "a" "any"] ["int"]
/-- `math.rs:94`. -/
def floor_DOC := doc "floor" ["Round a number down to the nearest whole number."] [req "a" "any"] ["int"]
/-- `math.rs:103`. -/
def ceil_DOC := doc "ceil" ["Round a number up to the nearest whole number."] [req "a" "any"] ["int"]
/-- `math.rs:112`. -/
def fix_DOC := doc "fix" ["Fix number to n digits after the decimal point."] [req "a" "any", req "digits" "int"] ["num"]
/-- `math.rs:123`. -/
def clamp_DOC := doc "clamp" ["Clamp a number between two values."] [req "a" "num", req "m" "num", req "mm" "num"] ["float"]
/-- `math.rs:136`. -/
def interp_DOC := doc "interp" ["Linearly interpolate between two numbers."] [req "a" "num", req "b" "num", req "t" "num"] ["float"]
/-- `math.rs:141`. -/
def abs_DOC := doc "abs" ["Get the absolute value of a number."] [req "a" "any"] ["num"]
/-- `math.rs:150`. -/
def sin_DOC := doc "sin" ["Compute the sin of a number in radians."] [req "a" "num"] ["float"]
/-- `math.rs:155`. -/
def cos_DOC := doc "cos" ["Compute the cos of a number in radians."] [req "a" "num"] ["float"]
/-- `math.rs:160`. -/
def tan_DOC := doc "tan" ["Compute the tan of a number in radians."] [req "a" "num"] ["float"]
/-- `math.rs:165`. -/
def asin_DOC := doc "asin" ["Compute the asin of a number in radians."] [req "a" "num"] ["float"]
/-- `math.rs:170`. -/
def acos_DOC := doc "acos" ["Compute the acos of a number in radians."] [req "a" "num"] ["float"]
/-- `math.rs:175`. -/
def atan_DOC := doc "atan" ["Compute the atan of a number in radians."] [req "a" "num"] ["float"]
/-- `math.rs:180`. -/
def atan2_DOC := doc "atan2" ["Compute the atan2 of a number in radians."] [req "a" "num", req "b" "num"] ["float"]
/-- `math.rs:185`. -/
def sqrt_DOC := doc "sqrt" ["Compute the sqrt of a number."] [req "a" "num"] ["float"]
/-- `math.rs:190`. -/
def random_DOC := doc "random" ["Get a random number between 0 and 1."] [] ["float"]
/-- `math.rs:195`. -/
def randbool_DOC := doc "randbool" ["Get a random boolean."] [] ["bool"]
/-- `math.rs:200`. -/
def randint_DOC := doc "randint" ["Get a random integer between two values."] [req "start" "int", req "end" "int"] ["int"]
/-- `math.rs:209`. -/
def randfloat_DOC := doc "randfloat" ["Get a random float between two values."] [req "start" "double", req "end" "double"] ["float"]
/-- `math.rs:218`. -/
def randchoice_DOC := doc "randchoice" ["Get a random value from a list."] [req "list" "list"] ["any"]

/-- `math_DOCS`, `math.rs:11-228`. -/
def math_DOCS : BuiltinGroup := ⟨"math", lines ["Math functions."],
    [log_DOC, log2_DOC, log10_DOC, hash_DOC, min_DOC, max_DOC, round_DOC, floor_DOC, ceil_DOC, fix_DOC, clamp_DOC, interp_DOC, abs_DOC, sin_DOC,
     cos_DOC, tan_DOC, asin_DOC, acos_DOC, atan_DOC, atan2_DOC, sqrt_DOC, random_DOC, randbool_DOC, randint_DOC, randfloat_DOC, randchoice_DOC]⟩

/-- `colors.rs:14`. -/
def rgba_DOC := doc "rgba" ["Create a color from RGBA values."] [req "r" "u8", req "g" "u8", req "b" "u8", req "a" "u8"] ["color"]
/-- `colors.rs:19`. -/
def rgb_DOC := doc "rgb" ["Create a color from RGB values."] [req "r" "u8", req "g" "u8", req "b" "u8"] ["color"]
/-- `colors.rs:24`. -/
def hsla_DOC := doc "hsla" ["Create a color from HSLA values."] [req "h" "double", req "s" "double", req "l" "double", req "a" "double"] ["color"]
/-- `colors.rs:29`. -/
def hsl_DOC := doc "hsl" ["Create a color from HSL values."] [req "h" "double", req "s" "double", req "l" "double"] ["color"]
/-- `colors.rs:34`. -/
def hsva_DOC := doc "hsva" ["Create a color from HSVA values."] [req "h" "double", req "s" "double", req "v" "double", req "a" "double"] ["color"]
/-- `colors.rs:39`. -/
def hsv_DOC := doc "hsv" ["Create a color from HSV values."] [req "h" "double", req "s" "double", req "v" "double"] ["color"]
/-- `colors.rs:44`. -/
def r_DOC := doc "r" ["Get the Red value of a color."] [req "c" "color"] ["int"]
/-- `colors.rs:49`. -/
def g_DOC := doc "g" ["Get the Green value of a color."] [req "c" "color"] ["int"]
/-- `colors.rs:54`. -/
def b_DOC := doc "b" ["Get the Blue value of a color."] [req "c" "color"] ["int"]
/-- `colors.rs:59`. -/
def a_DOC := doc "a" ["Get the Alpha value of a color."] [req "c" "color"] ["int"]
/-- `colors.rs:64`. -/
def luma_DOC := doc "luma" ["Compute the luminance of a color."] [req "c" "color"] ["float"]
/-- `colors.rs:69`. -/
def hue_DOC := doc "hue" ["Compute the hue of a color."] [req "c" "color"] ["float"]
/-- `colors.rs:74`. -/
def saturation_DOC := doc "saturation" ["Compute the saturation of a color."] [req "c" "color"] ["float"]
/-- `colors.rs:79`. -/
def brightness_DOC := doc "brightness" ["Compute the brightness of a color."] [req "c" "color"] ["float"]
/-- `colors.rs:84`. -/
def contrast_DOC := doc "contrast" ["Compute the contrast of a color."] [req "c" "color"] ["float"]
/-- `colors.rs:89`. -/
def cdifference_DOC := doc "cdifference" ["Compute the difference between two colors."] [req "a" "color", req "b" "color"] ["float"]
/-- `colors.rs:94`. -/
def invert_DOC := doc "invert" ["Invert a color."] [req "c" "color"] ["color"]
/-- `colors.rs:98`. -/
def alpha_DOC := doc "alpha" [] [req "c" "color", req "a" "double"] ["color"]
/-- `colors.rs:104`. -/
def mix_DOC := doc "mix" ["Mix two colors."] [req "c1" "color", req "c2" "color", req "t" "double"] ["color"]
/-- `colors.rs:116`. -/
def lighten_DOC := doc "lighten" ["Lighten a color."] [req "c" "color", req "t" "double"] ["color"]
/-- `colors.rs:128`. -/
def darken_DOC := doc "darken" ["Darken a color."] [req "c" "color", req "t" "double"] ["color"]
/-- `colors.rs:140`. -/
def saturate_DOC := doc "saturate" ["Saturate a color."] [req "c" "color", req "t" "double"] ["color"]
/-- `colors.rs:152`. -/
def desaturate_DOC := doc "desaturate" ["Desaturate a color."] [req "c" "color", req "t" "double"] ["color"]
/-- `colors.rs:164`. -/
def fade_DOC := doc "fade" ["Fade a color."] [req "c" "color", req "t" "double"] ["color"]
/-- `colors.rs:176`. -/
def complement_DOC := doc "complement" ["Get the complement of a color."] [req "c" "color"] ["color"]
/-- `colors.rs:186`. -/
def contrast_color_DOC := doc "contrast_color" ["Get white or black depending on the luminance of a color."] [req "c" "color"] ["color"]
/-- `colors.rs:195`. -/
def random_color_DOC := doc "random_color" ["Random color."] [] ["color"]
/-- `colors.rs:205`. -/
def random_pastel_color_DOC := doc "random_pastel_color" ["Random pastel color."] [] ["color"]
/-- `colors.rs:215`. -/
def random_rainbow_color_DOC := doc "random_rainbow_color" ["Random rainbow color."] [] ["color"]
/-- `colors.rs:222`. -/
def rainbow_colors_DOC := doc "rainbow_colors" ["Get a list of 10 colors on the rainbow."] [] ["list"]

/-- `colors_DOCS`, `colors.rs:10-297`. -/
def colors_DOCS : BuiltinGroup := ⟨"colors", lines ["Color manipulation functions."],
    [rgba_DOC, rgb_DOC, hsla_DOC, hsl_DOC, hsva_DOC, hsv_DOC, r_DOC, g_DOC, b_DOC, a_DOC, luma_DOC, hue_DOC, saturation_DOC, brightness_DOC,
     contrast_DOC, cdifference_DOC, invert_DOC, alpha_DOC, mix_DOC, lighten_DOC, darken_DOC, saturate_DOC, desaturate_DOC, fade_DOC, complement_DOC,
     contrast_color_DOC, random_color_DOC, random_pastel_color_DOC, random_rainbow_color_DOC, rainbow_colors_DOC]⟩

/-- `strings.rs:14`. -/
def truncate_DOC := doc "truncate" ["Truncate a string to a given length and add a custom ellipsis."] [req "s" "str", req "len" "int", opt "ellipsis" "str" "String::from(\"...\")"] ["str"]
/-- `strings.rs:43`. -/
def capitalize_DOC := doc "capitalize" ["Capitalize the first letter of a string."] [req "s" "str"] ["str"]
/-- `strings.rs:52`. -/
def title_DOC := doc "title" ["Capitalize the first letter of every word in a string."] [req "s" "str"] ["str"]
/-- `strings.rs:65`. -/
def uppercase_DOC := doc "uppercase" ["Convert a string to uppercase."] [req "s" "str"] ["str"]
/-- `strings.rs:70`. -/
def lowercase_DOC := doc "lowercase" ["Convert a string to lowercase."] [req "s" "str"] ["str"]
/-- `strings.rs:76`. -/
def split_DOC := doc "split" ["Split a string into a list of strings at a given separator."] [req "s" "str", opt "sep" "str" "String::from(\" \")"] ["list"]
/-- `strings.rs:81`. -/
def join_DOC := doc "join" ["Join a list of values into a single string with a given separator."] [req "s" "list", opt "sep" "str" "String::from(\"\")"] ["str"]
/-- `strings.rs:86`. -/
def replace_DOC := doc "replace" ["Replace all instances of a substring with another substring."] [req "s" "str", req "old" "str", req "new" "str"] ["str"]
/-- `strings.rs:91`. -/
def trim_DOC := doc "trim" ["Trim whitespace from the beginning and end of a string."] [req "s" "str"] ["str"]
/-- `strings.rs:96`. -/
def trim_start_DOC := doc "trim_start" ["Trim whitespace from the beginning of a string."] [req "s" "str"] ["str"]
/-- `strings.rs:101`. -/
def trim_end_DOC := doc "trim_end" ["Trim whitespace from the end of a string."] [req "s" "str"] ["str"]
/-- `strings.rs:106`. -/
def starts_with_DOC := doc "starts_with" ["Check if a string starts with a given substring."] [req "s" "str", req "start" "str"] ["bool"]
/-- `strings.rs:111`. -/
def ends_with_DOC := doc "ends_with" ["Check if a string ends with a given substring."] [req "s" "str", req "end" "str"] ["bool"]
/-- `strings.rs:116`. -/
def contains_DOC := doc "contains" ["Check if a string contains a given substring."] [req "s" "str", req "contains" "str"] ["bool"]
/-- `strings.rs:121`. -/
def chars_DOC := doc "chars" ["Get all characters in a string as a list of strings."] [req "s" "str"] ["list"]

/-- `strings_DOCS`, `strings.rs:10-125`. -/
def strings_DOCS : BuiltinGroup := ⟨"strings", lines ["String manipulation functions."],
    [truncate_DOC, capitalize_DOC, title_DOC, uppercase_DOC, lowercase_DOC, split_DOC, join_DOC, replace_DOC, trim_DOC, trim_start_DOC, trim_end_DOC,
     starts_with_DOC, ends_with_DOC, contains_DOC, chars_DOC]⟩

/-- `testing.rs:9`. -/
def assert_DOC := doc "assert" ["Assert that a value is true."] [req "value" "bool"] []
/-- `testing.rs:18`. -/
def assert_eq_DOC := doc "assert_eq" ["Assert that two values are equal."] [req "a" "any", req "b" "any"] []
/-- `testing.rs:27`. -/
def assert_ne_DOC := doc "assert_ne" ["Assert that two values are not equal."] [req "a" "any", req "b" "any"] []
/-- `testing.rs:36`. -/
def unreachable_DOC := doc "unreachable" ["Panic that this code is unreachable."] [] []
/-- `testing.rs:41`. -/
def panic_DOC := doc "panic" ["Panic with a message."] [req "message" "str"] []
/-- `testing.rs:46`. -/
def todo_DOC := doc "todo" ["Panic that this code is not yet implemented."] [] []

/-- `testing_DOCS`, `testing.rs:5-50`. -/
def testing_DOCS : BuiltinGroup := ⟨"testing", lines ["Testing asserts."],
    [assert_DOC, assert_eq_DOC, assert_ne_DOC, unreachable_DOC, panic_DOC, todo_DOC]⟩

/-- `time.rs:9`. -/
def now_DOC := doc "now" ["Get the current time in seconds since the unix epoch."] [] ["float"]
/-- `time.rs:18`. -/
def date_DOC := doc "date" ["Get the current date in the format: YYYY-MM-DD HH:MM:SS."] [] ["str"]

/-- `time_DOCS`, `time.rs:5-43`. -/
def time_DOCS : BuiltinGroup := ⟨"time", lines ["Time functions."],
    [now_DOC, date_DOC]⟩

/-- `io.rs:11`. -/
def println_DOC := doc "println" ["Print a value to stdout."] [req "to_print" "rest"] []
/-- `io.rs:20`. -/
def print_DOC := doc "print" ["Print a value to stdout, without a newline."] [req "to_print" "rest"] []
/-- `io.rs:28`. -/
def debug_DOC := doc "debug" ["Print marked debug value to stdout."] [req "to_print" "rest"] []
/-- `io.rs:41`. -/
def input_DOC := doc "input" ["Get a value from stdin."] [req "prompt" "str"] ["str"]
/-- `io.rs:56`. -/
def readfile_DOC := doc "readfile" ["Read a file to a string."] [req "path" "str"] ["str"]

/-- `io_DOCS`, `io.rs:7-63`. -/
def io_DOCS : BuiltinGroup := ⟨"io", lines ["IO functions."],
    [println_DOC, print_DOC, debug_DOC, input_DOC, readfile_DOC]⟩

/-- The groups that `stdio` adds, `qstd/src/lib.rs:19-39`, in order. -/
def groups : List BuiltinGroup := [core_DOCS, math_DOCS, colors_DOCS, strings_DOCS, testing_DOCS, time_DOCS, io_DOCS]

end Quilt.Docs
