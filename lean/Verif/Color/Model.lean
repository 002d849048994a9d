import Verif.Sieve.Model

/-!
Model of `cp_color_by_name` of `src/hob3l/gc.c` with the table of `src/hob3l/gc-color.sieve`.

A name is the list of the bytes of a C string, without the NUL.
-/

namespace Hob3l.Color

open Hob3l.Matq

/-- the bytes of an ASCII string -/
def cs (s : String) : List Nat := s.toList.map Char.toNat

/-- the entries of gc-color.sieve:8-155 -/
def table : List (List Nat × Nat) := [
  (cs "aliceblue", 0xf0f8ff),
  (cs "antiquewhite", 0xfaebd7),
  (cs "aqua", 0x00ffff),
  (cs "aquamarine", 0x7fffd4),
  (cs "azure", 0xf0ffff),
  (cs "beige", 0xf5f5dc),
  (cs "bisque", 0xffe4c4),
  (cs "black", 0x000000),
  (cs "blanchedalmond", 0xffebcd),
  (cs "blue", 0x0000ff),
  (cs "blueviolet", 0x8a2be2),
  (cs "brown", 0xa52a2a),
  (cs "burlywood", 0xdeb887),
  (cs "cadetblue", 0x5f9ea0),
  (cs "chartreuse", 0x7fff00),
  (cs "chocolate", 0xd2691e),
  (cs "coral", 0xff7f50),
  (cs "cornflowerblue", 0x6495ed),
  (cs "cornsilk", 0xfff8dc),
  (cs "crimson", 0xdc143c),
  (cs "cyan", 0x00ffff),
  (cs "darkblue", 0x00008b),
  (cs "darkcyan", 0x008b8b),
  (cs "darkgoldenrod", 0xb8860b),
  (cs "darkgray", 0xa9a9a9),
  (cs "darkgreen", 0x006400),
  (cs "darkgrey", 0xa9a9a9),
  (cs "darkkhaki", 0xbdb76b),
  (cs "darkmagenta", 0x8b008b),
  (cs "darkolivegreen", 0x556b2f),
  (cs "darkorange", 0xff8c00),
  (cs "darkorchid", 0x9932cc),
  (cs "darkred", 0x8b0000),
  (cs "darksalmon", 0xe9967a),
  (cs "darkseagreen", 0x8fbc8f),
  (cs "darkslateblue", 0x483d8b),
  (cs "darkslategray", 0x2f4f4f),
  (cs "darkslategrey", 0x2f4f4f),
  (cs "darkturquoise", 0x00ced1),
  (cs "darkviolet", 0x9400d3),
  (cs "deeppink", 0xff1493),
  (cs "deepskyblue", 0x00bfff),
  (cs "dimgray", 0x696969),
  (cs "dimgrey", 0x696969),
  (cs "dodgerblue", 0x1e90ff),
  (cs "firebrick", 0xb22222),
  (cs "floralwhite", 0xfffaf0),
  (cs "forestgreen", 0x228b22),
  (cs "fuchsia", 0xff00ff),
  (cs "gainsboro", 0xdcdcdc),
  (cs "ghostwhite", 0xf8f8ff),
  (cs "gold", 0xffd700),
  (cs "goldenrod", 0xdaa520),
  (cs "gray", 0x808080),
  (cs "green", 0x008000),
  (cs "greenyellow", 0xadff2f),
  (cs "grey", 0x808080),
  (cs "honeydew", 0xf0fff0),
  (cs "hotpink", 0xff69b4),
  (cs "indianred", 0xcd5c5c),
  (cs "indigo", 0x4b0082),
  (cs "ivory", 0xfffff0),
  (cs "khaki", 0xf0e68c),
  (cs "lavender", 0xe6e6fa),
  (cs "lavenderblush", 0xfff0f5),
  (cs "lawngreen", 0x7cfc00),
  (cs "lemonchiffon", 0xfffacd),
  (cs "lightblue", 0xadd8e6),
  (cs "lightcoral", 0xf08080),
  (cs "lightcyan", 0xe0ffff),
  (cs "lightgoldenrodyellow", 0xfafad2),
  (cs "lightgray", 0xd3d3d3),
  (cs "lightgreen", 0x90ee90),
  (cs "lightgrey", 0xd3d3d3),
  (cs "lightpink", 0xffb6c1),
  (cs "lightsalmon", 0xffa07a),
  (cs "lightseagreen", 0x20b2aa),
  (cs "lightskyblue", 0x87cefa),
  (cs "lightslategray", 0x778899),
  (cs "lightslategrey", 0x778899),
  (cs "lightsteelblue", 0xb0c4de),
  (cs "lightyellow", 0xffffe0),
  (cs "lime", 0x00ff00),
  (cs "limegreen", 0x32cd32),
  (cs "linen", 0xfaf0e6),
  (cs "magenta", 0xff00ff),
  (cs "maroon", 0x800000),
  (cs "mediumaquamarine", 0x66cdaa),
  (cs "mediumblue", 0x0000cd),
  (cs "mediumorchid", 0xba55d3),
  (cs "mediumpurple", 0x9370db),
  (cs "mediumseagreen", 0x3cb371),
  (cs "mediumslateblue", 0x7b68ee),
  (cs "mediumspringgreen", 0x00fa9a),
  (cs "mediumturquoise", 0x48d1cc),
  (cs "mediumvioletred", 0xc71585),
  (cs "midnightblue", 0x191970),
  (cs "mintcream", 0xf5fffa),
  (cs "mistyrose", 0xffe4e1),
  (cs "moccasin", 0xffe4b5),
  (cs "navajowhite", 0xffdead),
  (cs "navy", 0x000080),
  (cs "oldlace", 0xfdf5e6),
  (cs "olive", 0x808000),
  (cs "olivedrab", 0x6b8e23),
  (cs "orange", 0xffa500),
  (cs "orangered", 0xff4500),
  (cs "orchid", 0xda70d6),
  (cs "palegoldenrod", 0xeee8aa),
  (cs "palegreen", 0x98fb98),
  (cs "paleturquoise", 0xafeeee),
  (cs "palevioletred", 0xdb7093),
  (cs "papayawhip", 0xffefd5),
  (cs "peachpuff", 0xffdab9),
  (cs "peru", 0xcd853f),
  (cs "pink", 0xffc0cb),
  (cs "plum", 0xdda0dd),
  (cs "powderblue", 0xb0e0e6),
  (cs "purple", 0x800080),
  (cs "red", 0xff0000),
  (cs "rosybrown", 0xbc8f8f),
  (cs "royalblue", 0x4169e1),
  (cs "saddlebrown", 0x8b4513),
  (cs "salmon", 0xfa8072),
  (cs "sandybrown", 0xf4a460),
  (cs "seagreen", 0x2e8b57),
  (cs "seashell", 0xfff5ee),
  (cs "sienna", 0xa0522d),
  (cs "silver", 0xc0c0c0),
  (cs "skyblue", 0x87ceeb),
  (cs "slateblue", 0x6a5acd),
  (cs "slategray", 0x708090),
  (cs "slategrey", 0x708090),
  (cs "snow", 0xfffafa),
  (cs "springgreen", 0x00ff7f),
  (cs "steelblue", 0x4682b4),
  (cs "tan", 0xd2b48c),
  (cs "teal", 0x008080),
  (cs "thistle", 0xd8bfd8),
  (cs "tomato", 0xff6347),
  (cs "turquoise", 0x40e0d0),
  (cs "violet", 0xee82ee),
  (cs "wheat", 0xf5deb3),
  (cs "white", 0xffffff),
  (cs "whitesmoke", 0xf5f5f5),
  (cs "yellow", 0xffff00),
  (cs "yellowgreen", 0x9acd32)]

/-- `cp_color_rgb_t` -/
structure Rgb where
  r : Nat
  g : Nat
  b : Nat
  deriving DecidableEq, Repr

/-- how a call ends: `true` with a colour, `false`, or an access via a NULL pointer -/
inductive Res where
  | ok (c : Rgb)
  | no
  | crash
  deriving DecidableEq, Repr

/-- the loop gc.c:51-66: the value of the hexadecimal digits as a 32 bit unsigned integer; `none` is `return false` -/
def hexLoop : List Nat → Nat → Option Nat
  | [], v => some v
  | c :: rest, v =>
    if 48 ≤ c ∧ c ≤ 57 then hexLoop rest ((v * 16 + (c - 48)) % 2 ^ 32)
    else if 97 ≤ c ∧ c ≤ 102 then hexLoop rest ((v * 16 + (c - 97) + 10) % 2 ^ 32)
    else if 65 ≤ c ∧ c ≤ 70 then hexLoop rest ((v * 16 + (c - 65) + 10) % 2 ^ 32)
    else none

/-- gc.c:68-80: one or two digits per component -/
def ofHex (len v : Nat) : Rgb :=
  if len = 4 then ⟨((v >>> 8) &&& 0xf) * 0x11, ((v >>> 4) &&& 0xf) * 0x11, (v &&& 0xf) * 0x11⟩
  else ⟨(v >>> 16) &&& 0xff, (v >>> 8) &&& 0xff, v &&& 0xff⟩

/-- gc.c:83-88: by name; `color_find` is generated by `mksieve` (the model in `Verif.Sieve`); the result of `color_find` is
used without a check for NULL -/
def byName (name : List Nat) : Option Res := do
  let r ← Sieve.find (table.map Prod.fst) name
  match r with
  | none => some .crash
  | some i => do
    let e ← table[i]?
    some (.ok ⟨(e.2 >>> 16) &&& 0xff, (e.2 >>> 8) &&& 0xff, e.2 &&& 0xff⟩)

/-- `cp_color_by_name` gc.c:38-89; the outer `none` would be a failure inside of `color_find` -/
def colorByName (name : List Nat) : Option Res :=
  match name with
  | 35 :: rest =>
    if name.length ≠ 4 ∧ name.length ≠ 7 then some .no
    else
      match hexLoop rest 0 with
      | none => some .no
      | some v => some (.ok (ofHex name.length v))
  | _ => byName name

end Hob3l.Color
