import Verif.Model.Blend16
import Verif.Spec.Blend
import Verif.Spec.Color

/-
What drawing one pixel means on the scale 0..65535, in unbounded integers.
-/

namespace Psd

/-- The soft-light polynomial (for `d < 16384`). -/
def softN16 (d : Nat) : Nat := (262140 - (786420 - 16 * d) / 65535 * d) * d / 65535

/-- The largest `r` with `r * r ≤ n`. -/
def IsSqrt (n r : Nat) : Prop := r * r ≤ n ∧ n < (r + 1) * (r + 1)

/-- The exact integer value of each channel formula. -/
def chanN16 : Sep → Nat → Nat → Nat
  | .normal, s, _ => s
  | .darken, s, d => min s d
  | .multiply, s, d => s * d / 65535
  | .colorBurn, s, d => if d = 65535 then 65535 else if s = 0 then 0 else 65535 - min ((65535 - d) * 65535 / s) 65535
  | .linearBurn, s, d => d - (65535 - s)
  | .lighten, s, d => max s d
  | .screen, s, d => s + d - s * d / 65535
  | .colorDodge, s, d => if d = 0 then 0 else if s = 65535 then 65535 else min (d * 65535 / (65535 - s)) 65535
  | .linearDodge, s, d => min (s + d) 65535
  | .add, s, d => s + d
  | .overlay, s, d => if d < 32768 then s * d / 32768 else 65535 - (131071 - 2 * d) * (65535 - s) / 65535
  | .softLight, s, d =>
    if s < 32768 then d - (65535 - 2 * s) * d / 65535 * (65535 - d) / 65535
    else d + (2 * s - 65535) * ((if d < 16384 then softN16 d else sqrtU32.isqrt (d * 65535)) - d) / 65535
  | .hardLight, s, d => if s < 32768 then d * s / 32768 else d + (2 * s - 65535) - d * (2 * s - 65535) / 65535
  | .linearLight, s, d => if s < 32768 then d + 2 * s - 65535 else min (d + (2 * s - 65536)) 65535
  | .vividLight, s, d =>
    if s < 32768 then (if s = 0 then 0 else 65535 - min ((65535 - d) * 65535 / (2 * s)) 65535)
    else if s = 65535 then 65535 else min (d * 65535 / (131070 - 2 * s)) 65535
  | .pinLight, s, d => if s < 32768 then min (2 * s) d else max (2 * s - 65536) d
  | .hardMix, s, d =>
    if (if s < 32768 then (if d = 65535 then 65535 else if s = 0 then 0 else 65535 - min ((65535 - d) * 65535 / (2 * s)) 65535)
      else if d = 0 then 0 else min (d * 65535 / (131071 - 2 * s)) 65535) ≤ 32768 then 0 else 65535
  | .difference, s, d => if d < s then s - d else d - s
  | .exclusion, s, d => d + s - d * s / 32768
  | .subtract, s, d => d - s
  | .divide, s, d => if d = 0 then 0 else if s = 0 then 65535 else min (d * 65535 / s) 65535

/-- The luminosity of a colour times 65536. -/
def lumN16 (c : RGB Nat) : Nat := 19661 * c.r + 38666 * c.g + 7209 * c.b

/-- A colour as the code holds it. -/
def RGB.u32 (c : RGB Nat) : RGB UInt32 := ⟨UInt32.ofNat c.r, UInt32.ofNat c.g, UInt32.ofNat c.b⟩

/-- A colour as integers. -/
def RGB.ints (c : RGB UInt32) : RGB Nat := ⟨c.r.toNat, c.g.toNat, c.b.toNat⟩

/-- The blended colour of `s` and `d`. The step that sets a luminosity, which runs in floating point, is `F.setLum`. -/
def blendN16 (F : FloatLum) (m : Mode) (s d : RGB Nat) : RGB Nat :=
  match m with
  | .sep m => ⟨chanN16 m s.r d.r, chanN16 m s.g d.g, chanN16 m s.b d.b⟩
  | .darkerColor => if lumN16 s < lumN16 d then s else d
  | .lighterColor => if lumN16 d < lumN16 s then s else d
  | .nonSep .hue => (F.setLum (setSatN s (d.hi - d.lo)).u32 d.u32).ints
  | .nonSep .saturation => (F.setLum (setSatN d (s.hi - s.lo)).u32 d.u32).ints
  | .nonSep .color => (F.setLum s.u32 d.u32).ints
  | .nonSep .luminosity => (F.setLum d.u32 s.u32).ints

/-- A channel with its alpha divided out, rounded down. -/
def straight (c a : Nat) : Nat := c * 65535 / a

/-- The colour of a pixel on the 16-bit scale, without its alpha. -/
def Px.colour (k : PixKind) (p : Px) : RGB Nat :=
  let f (x : UInt8) : Nat := match k with
    | .rgba => straight (x.toNat * 257) (p.a.toNat * 257)
    | .nrgba => x.toNat * 257
  ⟨f p.r, f p.g, f p.b⟩

/-- The weights of the blended colour, of the source alone and of the backdrop alone, for the effective source alpha `t`
and the backdrop alpha `d`. -/
def weight1 (t d : Nat) : Nat := scale16 t d
def weight2 (t d : Nat) : Nat := scale16 t (65535 - d)
def weight3 (t d : Nat) : Nat := scale16 (65535 - t) d

/-- The weighted sum of a channel. -/
def mixed (t da c s d : Nat) : Nat := c * weight1 t da + s * weight2 t da + d * weight3 t da

/-- The weighted sums of the three channels. -/
def mixedRGB (t da : Nat) (c s d : RGB Nat) : RGB Nat :=
  ⟨mixed t da c.r s.r d.r, mixed t da c.g s.g d.g, mixed t da c.b s.b d.b⟩

/-- The effective source alpha on the 16-bit scale. -/
def effective (s : Px) (op : Nat) : Nat := scale16 (s.a.toNat * 257) (op * 257)

/-- The weighted sums for two pixels. -/
def sums16 (F : FloatLum) (m : Mode) (sk dk : PixKind) (op : Nat) (s d : Px) : RGB Nat :=
  mixedRGB (effective s op) (d.a.toNat * 257) (blendN16 F m (s.colour sk) (d.colour dk)) (s.colour sk) (d.colour dk)

/-- The alpha of the result on the 16-bit scale. -/
def alpha16 (t da : Nat) : Nat := weight1 t da + weight2 t da + weight3 t da

/-- What a weighted sum is divided by: the alpha, or 65535 where the image holds premultiplied colours. -/
def divN16 (k : PixKind) (a : Nat) : Nat := match k with | .nrgba => a | .rgba => 65535

/-- Alpha compositing of a source pixel `s` at opacity `op` over a backdrop pixel `d` on the 16-bit scale, giving `p`:
nothing changes when the effective source alpha or the resulting alpha is 0; otherwise the alpha is the sum of the weights
and each channel the weighted sum divided by the alpha, or by 65535 where the image holds premultiplied colours, at most
65535. The bytes are the high bytes. -/
def Composite16 (F : FloatLum) (m : Mode) (sk dk : PixKind) (op : Nat) (s d p : Px) : Prop :=
  let t := effective s op
  let a := alpha16 t (d.a.toNat * 257)
  let k := divN16 dk a
  let v := sums16 F m sk dk op s d
  if t = 0 ∨ a = 0 then p = d
  else p.a.toNat = a / 256 ∧ p.r.toNat = min 65535 (v.r / k) / 256 ∧ p.g.toNat = min 65535 (v.g / k) / 256 ∧
    p.b.toNat = min 65535 (v.b / k) / 256

/-- A premultiplied colour with its alpha divided out. -/
def RGBA32.colour (v : RGBA32) : RGB Nat :=
  ⟨straight v.r.toNat v.a.toNat, straight v.g.toNat v.a.toNat, straight v.b.toNat v.a.toNat⟩

/-- Compositing a premultiplied colour `s` through a mask of alpha `ma` over `d`: the premultiplied colour to store, or
none where the mask or the result is fully transparent. -/
def CompositeFB (F : FloatLum) (m : Mode) (ma : Nat) (s d : RGBA32) (out : Option RGBA32) : Prop :=
  let t := scale16 s.a.toNat ma
  let a := alpha16 t d.a.toNat
  let v := mixedRGB t d.a.toNat (blendN16 F m s.colour d.colour) s.colour d.colour
  if ma = 0 ∨ a = 0 then out = none
  else ∃ p, out = some p ∧ p.a.toNat = a ∧ p.r.toNat = v.r / 65535 ∧ p.g.toNat = v.g / 65535 ∧ p.b.toNat = v.b / 65535

end Psd
