import Verif.Model.PorterDuff
import Verif.Spec.Color

/-
The Porter-Duff operators of the W3C compositing specification on the scale 0..65535, in unbounded integers.
-/

namespace Psd

/-- The coverage factors `(Fs, Fd)` of each operator from the alphas of the source and the destination. -/
def PD.factors : PD → Nat → Nat → Nat × Nat
  | .clear, _, _ => (0, 0)
  | .copy, _, _ => (65535, 0)
  | .dest, _, _ => (0, 65535)
  | .srcOver, as, _ => (65535, 65535 - as)
  | .destOver, _, ad => (65535 - ad, 65535)
  | .srcIn, _, ad => (ad, 0)
  | .destIn, as, _ => (0, as)
  | .srcOut, _, ad => (65535 - ad, 0)
  | .destOut, as, _ => (0, 65535 - as)
  | .srcAtop, as, ad => (ad, 65535 - as)
  | .destAtop, as, ad => (65535 - ad, as)
  | .xor, as, ad => (65535 - ad, 65535 - as)

/-- `Fs * S + Fd * D` for one component, rounded down. -/
def PD.mix (op : PD) (as ad s d : Nat) : Nat :=
  ((op.factors as ad).1 * s + (op.factors as ad).2 * d) / 65535

/-- `v` is the result of `op` for the premultiplied colours `s` and `d`. -/
def PorterDuff (op : PD) (s d v : RGBA32) : Prop :=
  v.a.toNat = op.mix s.a.toNat d.a.toNat s.a.toNat d.a.toNat ∧
  v.r.toNat = op.mix s.a.toNat d.a.toNat s.r.toNat d.r.toNat ∧
  v.g.toNat = op.mix s.a.toNat d.a.toNat s.g.toNat d.g.toNat ∧
  v.b.toNat = op.mix s.a.toNat d.a.toNat s.b.toNat d.b.toNat

/-- The premultiplied colour of a pixel: bytes widened by 257, the colour of a non-premultiplied pixel multiplied by its
alpha (rounded down). -/
def Px.Means (k : PixKind) (p : Px) (v : RGBA32) : Prop :=
  let f (x : UInt8) : Nat := match k with
    | .rgba => x.toNat * 257
    | .nrgba => scale16 (x.toNat * 257) (p.a.toNat * 257)
  v.a.toNat = p.a.toNat * 257 ∧ v.r.toNat = f p.r ∧ v.g.toNat = f p.g ∧ v.b.toNat = f p.b

/-- The pixel stored for the premultiplied colour `v`: the high bytes, after dividing by the alpha for a
non-premultiplied image; a fully transparent pixel has no colour. -/
def Px.Stores (k : PixKind) (v : RGBA32) (p : Px) : Prop :=
  let f (x : UInt32) : Nat := match k with
    | .rgba => x.toNat / 256
    | .nrgba => x.toNat * 65535 / v.a.toNat / 256
  p.a.toNat = v.a.toNat / 256 ∧ p.r.toNat = f v.r ∧ p.g.toNat = f v.g ∧ p.b.toNat = f v.b

/-- The premultiplied colour a source stands for. -/
def PDSrc.Means : PDSrc → RGBA32 → Prop
  | .px k p, v => p.Means k v
  | .alpha a, v => v = ⟨0, 0, 0, UInt32.ofNat (a.toNat * 257)⟩
  | .uniform c, v => v = c

/-- The bytes of a premultiplied pixel obey the contract of `image.RGBA`: no channel above the alpha. -/
def Px.Valid (k : PixKind) (p : Px) : Prop := k = .rgba → p.r ≤ p.a ∧ p.g ≤ p.a ∧ p.b ≤ p.a

def PDSrc.Valid : PDSrc → Prop
  | .px k p => p.Valid k
  | .alpha _ => True
  | .uniform c => Premultiplied c

end Psd
