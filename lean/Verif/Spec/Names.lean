import Verif.Model.Blend

/-!
# What "decimal" means

Written from the ordinary notation of integers, without reference to the code.
-/

namespace Psd

/-- The number written by a list of digits, most significant first. -/
def digitsValue (ds : List Nat) : Nat := ds.foldl (fun v d => 10 * v + d) 0

/-- `s` is the usual decimal notation of `x`: a minus sign for a negative number, then at least one digit, no digit
above nine, no leading zero but in `0` itself. -/
def IsDecimal (x : Int) (s : List UInt8) : Prop :=
  ∃ ds : List Nat, ds ≠ [] ∧ (∀ d ∈ ds, d < 10) ∧ (ds.head? = some 0 → ds = [0]) ∧
    digitsValue ds = x.natAbs ∧ s = (if x < 0 then [45] else []) ++ ds.map fun d => UInt8.ofNat (48 + d)

/-! ### Blend modes

From the table of blend mode keys in Adobe's description of the file format. Photoshop's "Linear Dodge (Add)" is one mode; the
package has two drawers for it, `Add` and `LinearDodge`, and the second has no key of its own. -/

/-- The key of a blend mode. -/
def modeKey : Mode → String
  | .sep .normal => "norm"
  | .sep .darken => "dark"
  | .sep .multiply => "mul "
  | .sep .colorBurn => "idiv"
  | .sep .linearBurn => "lbrn"
  | .darkerColor => "dkCl"
  | .sep .lighten => "lite"
  | .sep .screen => "scrn"
  | .sep .colorDodge => "div "
  | .sep .linearDodge => "lddg"
  | .sep .add => "lddg"
  | .lighterColor => "lgCl"
  | .sep .overlay => "over"
  | .sep .softLight => "sLit"
  | .sep .hardLight => "hLit"
  | .sep .vividLight => "vLit"
  | .sep .linearLight => "lLit"
  | .sep .pinLight => "pLit"
  | .sep .hardMix => "hMix"
  | .sep .difference => "diff"
  | .sep .exclusion => "smud"
  | .sep .subtract => "fsub"
  | .sep .divide => "fdiv"
  | .nonSep .hue => "hue "
  | .nonSep .saturation => "sat "
  | .nonSep .color => "colr"
  | .nonSep .luminosity => "lum "

/-- The name of a blend mode. -/
def modeName : Mode → String
  | .sep .normal => "normal"
  | .sep .darken => "darken"
  | .sep .multiply => "multiply"
  | .sep .colorBurn => "color-burn"
  | .sep .linearBurn => "linear-burn"
  | .darkerColor => "darker-color"
  | .sep .lighten => "lighten"
  | .sep .screen => "screen"
  | .sep .colorDodge => "color-dodge"
  | .sep .linearDodge => "linear-dodge"
  | .sep .add => "linear-dodge"
  | .lighterColor => "lighter-color"
  | .sep .overlay => "overlay"
  | .sep .softLight => "soft-light"
  | .sep .hardLight => "hard-light"
  | .sep .vividLight => "vivid-light"
  | .sep .linearLight => "linear-light"
  | .sep .pinLight => "pin-light"
  | .sep .hardMix => "hard-mix"
  | .sep .difference => "difference"
  | .sep .exclusion => "exclusion"
  | .sep .subtract => "subtract"
  | .sep .divide => "divide"
  | .nonSep .hue => "hue"
  | .nonSep .saturation => "saturation"
  | .nonSep .color => "color"
  | .nonSep .luminosity => "luminosity"

end Psd
