import Verif.Model.Blend
import Verif.Model.Config

/-!
Model of /repo/blendmode.go and of the table in /repo/composite/draw.go: names of blend modes and the drawer of each.
-/

namespace Psd

/-- blendmode.go:9-38, 44-101: the keys and names of the `switch`, in order. -/
def blendNames : List (List UInt8 × List UInt8) :=
  [ (ascii "pass", ascii "pass-through"), (ascii "norm", ascii "normal"), (ascii "diss", ascii "dissolve"),
    (ascii "dark", ascii "darken"), (ascii "mul ", ascii "multiply"), (ascii "idiv", ascii "color-burn"),
    (ascii "lbrn", ascii "linear-burn"), (ascii "dkCl", ascii "darker-color"), (ascii "lite", ascii "lighten"),
    (ascii "scrn", ascii "screen"), (ascii "div ", ascii "color-dodge"), (ascii "lddg", ascii "linear-dodge"),
    (ascii "lgCl", ascii "lighter-color"), (ascii "over", ascii "overlay"), (ascii "sLit", ascii "soft-light"),
    (ascii "hLit", ascii "hard-light"), (ascii "vLit", ascii "vivid-light"), (ascii "lLit", ascii "linear-light"),
    (ascii "pLit", ascii "pin-light"), (ascii "hMix", ascii "hard-mix"), (ascii "diff", ascii "difference"),
    (ascii "smud", ascii "exclusion"), (ascii "fsub", ascii "subtract"), (ascii "fdiv", ascii "divide"),
    (ascii "hue ", ascii "hue"), (ascii "sat ", ascii "saturation"), (ascii "colr", ascii "color"),
    (ascii "lum ", ascii "luminosity") ]

/-- blendmode.go:43-103 `BlendMode.String`. -/
def blendName (bm : List UInt8) : List UInt8 :=
  match blendNames.find? (fun e => e.1 = bm) with
  | some e => e.2
  | none => ascii "unknown-blend-name-" ++ bm

/-- composite/draw.go:13-40 `blendModes`. -/
def blendTable : List (List UInt8 × Mode) :=
  [ (ascii "norm", .sep .normal), (ascii "dark", .sep .darken), (ascii "mul ", .sep .multiply),
    (ascii "idiv", .sep .colorBurn), (ascii "lbrn", .sep .linearBurn), (ascii "dkCl", .darkerColor),
    (ascii "lite", .sep .lighten), (ascii "scrn", .sep .screen), (ascii "div ", .sep .colorDodge),
    (ascii "lddg", .sep .add), (ascii "lgCl", .lighterColor), (ascii "over", .sep .overlay),
    (ascii "sLit", .sep .softLight), (ascii "hLit", .sep .hardLight), (ascii "lLit", .sep .linearLight),
    (ascii "vLit", .sep .vividLight), (ascii "pLit", .sep .pinLight), (ascii "hMix", .sep .hardMix),
    (ascii "diff", .sep .difference), (ascii "smud", .sep .exclusion), (ascii "fsub", .sep .subtract),
    (ascii "fdiv", .sep .divide), (ascii "hue ", .nonSep .hue), (ascii "sat ", .nonSep .saturation),
    (ascii "colr", .nonSep .color), (ascii "lum ", .nonSep .luminosity) ]

/-- composite/draw.go:43 `blendModes[bm]`; `none` is the nil interface of a missing key. -/
def blendMode (bm : List UInt8) : Option Mode := (blendTable.find? fun e => e.1 = bm).map Prod.snd

end Psd
