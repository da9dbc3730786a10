import Verif.Spec.Blend

/-
What is documented about blend modes besides their formulas: the neutral colour of each, which of them do not care which
layer is on top, and which pairs turn into each other when all colours are inverted.
-/

namespace Psd

/-- The documented neutral colour of a mode, the same byte in all channels: white for the modes that darken, black for
those that lighten and for the comparative ones, 50% grey for the contrast modes. Normal and hard mix have none. -/
def Sep.neutral : Sep → Option UInt8
  | .darken | .multiply | .colorBurn | .linearBurn | .divide => some 255
  | .lighten | .screen | .colorDodge | .linearDodge | .add | .difference | .exclusion | .subtract => some 0
  | .overlay | .softLight | .hardLight | .linearLight | .vividLight | .pinLight => some 128
  | .normal | .hardMix => none

/-- The modes documented as commutative: exchanging the two layers changes nothing. -/
def Sep.commutative : Sep → Bool
  | .darken | .multiply | .linearBurn | .lighten | .screen | .linearDodge | .add | .difference | .exclusion => true
  | _ => false

/-- The mode that does to negatives what `m` does to positives, for the modes that come in such pairs. -/
def Sep.dual : Sep → Option Sep
  | .darken => some .lighten
  | .lighten => some .darken
  | .multiply => some .screen
  | .screen => some .multiply
  | .colorBurn => some .colorDodge
  | .colorDodge => some .colorBurn
  | .linearBurn => some .linearDodge
  | .linearDodge => some .linearBurn
  | _ => none

/-- The modes whose result grows with the backdrop by their formula: all but the two that measure a distance. -/
def Sep.increasing : Sep → Bool
  | .difference | .exclusion => false
  | _ => true

/-- The modes whose result grows with the source by their formula. -/
def Sep.increasingInSource : Sep → Bool
  | .difference | .exclusion | .subtract | .divide => false
  | _ => true

/-- The negative of a pixel. -/
def Px.negative (p : Px) : Px := ⟨255 - p.r, 255 - p.g, 255 - p.b, p.a⟩

/-- No channel of `p` is brighter than that of `q`, and the alpha is the same. -/
def Px.Darker (p q : Px) : Prop := p.r ≤ q.r ∧ p.g ≤ q.g ∧ p.b ≤ q.b ∧ p.a = q.a

/-- Each channel of `p` is that of `q` or at most one level away from it; the alpha is the same. -/
def Px.Near (p q : Px) : Prop :=
  (p.r.toNat ≤ q.r.toNat + 1 ∧ q.r.toNat ≤ p.r.toNat + 1) ∧ (p.g.toNat ≤ q.g.toNat + 1 ∧ q.g.toNat ≤ p.g.toNat + 1) ∧
  (p.b.toNat ≤ q.b.toNat + 1 ∧ q.b.toNat ≤ p.b.toNat + 1) ∧ p.a = q.a

end Psd
