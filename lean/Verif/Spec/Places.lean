import Verif.Spec.FilePair

/-!
# Layers with the same settings, and moved layers
-/

namespace Psd.Spec

/-- The two layers are of the same kind, with the same blend mode, opacity, visibility and clipping, and both have masks in effect, with the same default colour, or none. Their pictures and the values of their masks may be others. -/
structure Layer.SameSettings (l l' : Layer) : Prop where
  kind : l'.kind = l.kind
  mode : l'.blendKey = l.blendKey
  opacity : l'.opacity = l.opacity
  visible : l'.flags.toNat / 2 % 2 = l.flags.toNat / 2 % 2
  clipping : l'.clipping = 0 ↔ l.clipping = 0
  clbl : l'.clbl.getD true = l.clbl.getD true
  maskOn : l'.mask.On ↔ l.mask.On
  maskColor : l'.mask.color = l.mask.color

/-- `l'` looks at `(x', y')` as `l` does at `(x, y)`: it has the same settings, and there the same colour and the same mask value. -/
structure Layer.LooksAs (l : Layer) (x y : Int) (l' : Layer) (x' y' : Int) : Prop extends Layer.SameSettings l l' where
  colour : l'.colour x' y' = l.colour x y
  veil : l'.veil x' y' = l.veil x y

/-- `l'` is the layer `l` moved to the right by `dx` and down by `dy`, with its mask. -/
def Layer.MovedBy (l : Layer) (dx dy : Int) (l' : Layer) : Prop := ∀ x y, l.LooksAs x y l' (x + dx) (y + dy)

/-- What holds of the layers with the same number. -/
def LayersAlike (layers layers' : List Layer) (P : Layer → Layer → Prop) : Prop :=
  layers.length = layers'.length ∧ ∀ (k : Nat) l l', layers[k]? = some l → layers'[k]? = some l' → P l l'

end Psd.Spec
