import Verif.Lib.Math

/-!
# `qstd/src/colors.rs`: the functions that compute in floats

The constants are the bit patterns of the literals in the source.
-/

namespace Quilt.Lib

variable {C : Type}

/-- `1.0`, `2.0`, `3.0`, `4.0`, `5.0`, `60.0`, `-1.0`, `0.5`, `127.5`, `186.0`. -/
def f1 : BitVec 64 := 0x3FF0000000000000
def f2 : BitVec 64 := 0x4000000000000000
def f3 : BitVec 64 := 0x4008000000000000
def f4 : BitVec 64 := 0x4010000000000000
def f5 : BitVec 64 := 0x4014000000000000
def f60 : BitVec 64 := 0x404E000000000000
def fm1 : BitVec 64 := 0xBFF0000000000000
def fhalf : BitVec 64 := 0x3FE0000000000000
def f127_5 : BitVec 64 := 0x405FE00000000000
def f186 : BitVec 64 := 0x4067400000000000
/-- `0.2126`, `0.7152`, `0.0722`, `0.299`, `0.587`, `0.114`. -/
def f0_2126 : BitVec 64 := 0x3FCB367A0F9096BC
def f0_7152 : BitVec 64 := 0x3FE6E2EB1C432CA5
def f0_0722 : BitVec 64 := 0x3FB27BB2FEC56D5D
def f0_299 : BitVec 64 := 0x3FD322D0E5604189
def f0_587 : BitVec 64 := 0x3FE2C8B439581062
def f0_114 : BitVec 64 := 0x3FBD2F1A9FBE76C9

abbrev Rgba := BitVec 8 × BitVec 8 × BitVec 8 × BitVec 8

/-- `c as f64` for a channel. -/
def ofU8 (L : Ops) (c : BitVec 8) : BitVec 64 := L.F.ofInt (c.setWidth 64)

/-- `x.round() as u8`. -/
def roundU8 (L : Ops) (x : BitVec 64) : BitVec 8 := L.toU8 (L.round x)

/-- `c[0] as f64 * x + c[1] as f64 * y + c[2] as f64 * z`. -/
def weigh (L : Ops) (x y z : BitVec 64) (c : Rgba) : BitVec 64 :=
  L.F.add (L.F.add (L.F.mul (ofU8 L c.1) x) (L.F.mul (ofU8 L c.2.1) y)) (L.F.mul (ofU8 L c.2.2.1) z)

/-- `colors.rs:63-66`. -/
def luma (L : Ops) (c : Rgba) : Res (Val C) := .ok (.float (weigh L f0_2126 f0_7152 f0_0722 c))
/-- `colors.rs:68-71`. -/
def hue (L : Ops) (c : Rgba) : Res (Val C) := .ok (.float (weigh L f0_299 f0_587 f0_114 c))
/-- `colors.rs:78-81`. -/
def brightness (L : Ops) (c : Rgba) : Res (Val C) := .ok (.float (weigh L f0_299 f0_587 f0_114 c))

/-- `(c[0] as f64 - 0.5).abs() + ..`. -/
def spread (L : Ops) (c : Rgba) : BitVec 64 :=
  L.F.add (L.F.add (L.abs (L.F.sub (ofU8 L c.1) fhalf)) (L.abs (L.F.sub (ofU8 L c.2.1) fhalf))) (L.abs (L.F.sub (ofU8 L c.2.2.1) fhalf))

/-- `colors.rs:73-76`. -/
def saturation (L : Ops) (c : Rgba) : Res (Val C) := .ok (.float (spread L c))
/-- `colors.rs:83-86`. -/
def contrast (L : Ops) (c : Rgba) : Res (Val C) := .ok (.float (spread L c))

/-- `colors.rs:88-91`. -/
def cdifference (L : Ops) (a b : Rgba) : Res (Val C) :=
  .ok (.float (L.F.div (L.F.add (L.F.add (L.abs (L.F.sub (ofU8 L a.1) (ofU8 L b.1))) (L.abs (L.F.sub (ofU8 L a.2.1) (ofU8 L b.2.1))))
    (L.abs (L.F.sub (ofU8 L a.2.2.1) (ofU8 L b.2.2.1)))) f3))

/-- `t.max(0.0).min(1.0)`. -/
def unit (L : Ops) (t : BitVec 64) : BitVec 64 := L.min (L.max t 0) f1

/-- A colour from the channels of one, with the same function for each. -/
def mapColor (f : BitVec 8 → BitVec 8) (c : Rgba) : Val C := .color (f c.1) (f c.2.1) (f c.2.2.1) (f c.2.2.2)

/-- `colors.rs:103-113`. -/
def mix (L : Ops) (c1 c2 : Rgba) (t : BitVec 64) : Res (Val C) :=
  let t := unit L t
  let f a b := roundU8 L (L.F.add (L.F.mul (ofU8 L a) (L.F.sub f1 t)) (L.F.mul (ofU8 L b) t))
  .ok (.color (f c1.1 c2.1) (f c1.2.1 c2.2.1) (f c1.2.2.1 c2.2.2.1) (f c1.2.2.2 c2.2.2.2))

/-- `colors.rs:115-125`. -/
def lighten (L : Ops) (c : Rgba) (t : BitVec 64) : Res (Val C) :=
  let t := unit L t
  .ok (mapColor (fun a => roundU8 L (L.F.add (L.F.mul (ofU8 L a) (L.F.sub f1 t)) (L.F.mul f255 t))) c)

/-- `colors.rs:127-137`. -/
def darken (L : Ops) (c : Rgba) (t : BitVec 64) : Res (Val C) :=
  let t := unit L t
  .ok (mapColor (fun a => roundU8 L (L.F.mul (ofU8 L a) (L.F.sub f1 t))) c)

/-- `colors.rs:139-149`. -/
def saturate (L : Ops) (c : Rgba) (t : BitVec 64) : Res (Val C) :=
  let t := unit L t
  .ok (mapColor (fun a => roundU8 L (L.F.add (L.F.mul (ofU8 L a) (L.F.sub f1 t)) (L.F.mul (ofU8 L a) t))) c)

/-- `colors.rs:151-161`. -/
def desaturate (L : Ops) (c : Rgba) (t : BitVec 64) : Res (Val C) :=
  let t := unit L t
  .ok (mapColor (fun a => roundU8 L (L.F.add (L.F.mul (ofU8 L a) (L.F.sub f1 t)) (L.F.mul (ofU8 L a) t))) c)

/-- `colors.rs:163-173`. -/
def fade (L : Ops) (c : Rgba) (t : BitVec 64) : Res (Val C) :=
  let t := unit L t
  .ok (mapColor (fun a => roundU8 L (L.F.mul (ofU8 L a) (L.F.sub f1 t))) c)

/-- `colors.rs:175-183`. -/
def complement (L : Ops) (c : Rgba) : Res (Val C) := .ok (mapColor (fun a => roundU8 L (L.F.mul (ofU8 L a) fm1)) c)

/-- `colors.rs:185-192`. -/
def contrastColor (L : Ops) (c : Rgba) : Res (Val C) :=
  if L.F.lt f186 (weigh L f0_299 f0_587 f0_114 c) then .ok (.color 0 0 0 c.2.2.2) else .ok (.color 255 255 255 c.2.2.2)

/-- The six sectors of the colour wheel, `colors.rs:247-259`, `277-289`. -/
def sector (L : Ops) (h c x : BitVec 64) : BitVec 64 × BitVec 64 × BitVec 64 :=
  if L.F.lt h f1 then (c, x, 0)
  else if L.F.lt h f2 then (x, c, 0)
  else if L.F.lt h f3 then (0, c, x)
  else if L.F.lt h f4 then (0, x, c)
  else if L.F.lt h f5 then (x, 0, c)
  else (c, 0, x)

/-- `c * (1.0 - (h_ % 2.0 - 1.0).abs())`. -/
def second (L : Ops) (h c : BitVec 64) : BitVec 64 := L.F.mul c (L.F.sub f1 (L.abs (L.F.sub (L.F.rem h f2) f1)))

/-- `((x + m).max(0.0).min(1.0) * 255.0).round() as u8`. -/
def level (L : Ops) (x m : BitVec 64) : BitVec 8 := roundU8 L (L.F.mul (unit L (L.F.add x m)) f255)

/-- The end of both conversions, `colors.rs:261-266`, `291-296`. -/
def wheel (L : Ops) (h c m a : BitVec 64) : Val C :=
  let h_ := L.F.div h f60
  let (r, g, b) := sector L h_ c (second L h_ c)
  .color (level L r m) (level L g m) (level L b m) (roundU8 L (L.F.mul a f255))

/-- `hsla_to_rgba`, `colors.rs:240-267`. -/
def hslaToRgba (L : Ops) (h s l a : BitVec 64) : Val C :=
  let c := L.F.mul (L.F.sub f1 (L.abs (L.F.sub (L.F.mul f2 l) f1))) s
  wheel L h c (L.F.sub l (L.F.div c f2)) a

/-- `hsva_to_rgba`, `colors.rs:269-296`. -/
def hsvaToRgba (L : Ops) (h s v a : BitVec 64) : Val C :=
  let c := L.F.mul v s
  wheel L h c (L.F.sub v c) a

end Quilt.Lib
