import Verif.Spec.Channels

/-!
# The negative of a document
-/

namespace Psd

/-- Each of the two blend modes does to negatives what the other does to positives: both are normal mode, or they are darken and lighten, multiply and screen, colour burn and colour dodge, or linear
burn and linear dodge, which documents have as `add` (`C67_keys_of_modes`). -/
def DualModes (b b' : List UInt8) : Prop :=
  ∃ m m', blendMode b = some (.sep m) ∧ blendMode b' = some (.sep m') ∧ (m.dual = some m' ∨ m = .normal ∧ m' = .normal ∨ m = .linearBurn ∧ m' = .add ∨ m = .add ∧ m' = .linearBurn)

/-- `l'` is the layer `l` in the dual blend mode; a pass-through folder stays one. The opacity is full. -/
def LayerRec.Dual (l l' : LayerRec) : Prop :=
  l' = { l with blendMode := l'.blendMode, sdBlendMode := l'.sdBlendMode } ∧ l.opacity = 255 ∧ (l.folder = false → DualModes l.blendMode l'.blendMode) ∧
  (l.folder = true → DualModes l.sdBlendMode l'.sdBlendMode ∨ l.sdBlendMode = ascii "pass" ∧ l'.sdBlendMode = ascii "pass")

/-- The same layers in the same folders, in the dual blend modes, all at full opacity. -/
inductive DualDoc : List (LTree LayerRec) → List (LTree LayerRec) → Prop
  | nil : DualDoc [] []
  | cons (l l' : LayerRec) (sub sub' rest rest' : List (LTree LayerRec)) : l.Dual l' → DualDoc sub sub' → DualDoc rest rest' → DualDoc (.node l sub :: rest) (.node l' sub' :: rest')

/-- `q` is the negative of the opaque pixel `p`, or both are transparent black. -/
def Px.NegativeOf (p q : Px) : Prop := (p = ⟨0, 0, 0, 0⟩ ∧ q = ⟨0, 0, 0, 0⟩) ∨ (p.a = 255 ∧ q = p.negative)

/-- The layers have pixels in the same tiles, and in the tile `pt` the pixel `i` of every layer is opaque in both, the one the negative of the other, or fully transparent in both. -/
def NegativePixels (canvas canvas' : Int → Option (List (TPt × Tile))) (pt : TPt) (i : Nat) : Prop :=
  ∀ id, match (canvas id).bind (·.lookup pt), (canvas' id).bind (·.lookup pt) with
    | none, none => True
    | some t, some t' => ((t i).a = 0 ∧ (t' i).a = 0) ∨ ((t i).a = 255 ∧ t' i = (t i).negative)
    | _, _ => False

end Psd
