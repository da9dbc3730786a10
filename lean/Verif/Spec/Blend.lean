import Verif.Model.Blend

/-
What drawing one pixel means, in unbounded integers: the blend mode's formula on the 0..255 scale and the compositing of
the blended colour with the source and the backdrop. Nothing here wraps around or depends on the word size.
-/

namespace Psd

/-- The soft-light polynomial, floor after each scaling (for `d < 64`). -/
def softN (d : Nat) : Nat :=
  (((((16 * (d : Int) - 3060) * 32897) / 8388608) * d + 1020) * d * 32897 / 8388608).toNat

/-- The exact integer value of each channel formula. -/
def chanN : Sep → Nat → Nat → Nat
  | .normal, s, _ => s
  | .darken, s, d => min s d
  | .multiply, s, d => s * d / 255
  | .colorBurn, s, d => if d = 255 then 255 else if s = 0 then 0 else 255 - min ((255 - d) * 255 / s) 255
  | .linearBurn, s, d => d - (255 - s)
  | .lighten, s, d => max s d
  | .screen, s, d => s + d - s * d / 255
  | .colorDodge, s, d => if d = 0 then 0 else if s = 255 then 255 else min (d * 255 / (255 - s)) 255
  | .linearDodge, s, d => min (s + d) 255
  | .add, s, d => s + d
  | .overlay, s, d => if d < 128 then s * (2 * d) / 255 else 255 - (511 - 2 * d) * (255 - s) / 255
  | .softLight, s, d =>
    if s < 128 then d - (255 - 2 * s) * d / 255 * (255 - d) / 255
    else d + (2 * s - 255) * ((if d < 64 then softN d else sqrtU32.isqrt (d * 255)) - d) / 255
  | .hardLight, s, d => if s < 128 then d * (2 * s) / 255 else d + (2 * s - 255) - d * (2 * s - 255) / 255
  | .linearLight, s, d => if s < 128 then d + 2 * s - 255 else min (d + (2 * s - 256)) 255
  | .vividLight, s, d =>
    if s < 128 then (if s = 0 then 0 else 255 - min ((255 - d) * 255 / (2 * s)) 255)
    else if s = 255 then 255 else min (d * 255 / (510 - 2 * s)) 255
  | .pinLight, s, d => if s < 128 then min (2 * s) d else max (2 * s - 256) d
  | .hardMix, s, d =>
    if (if s < 128 then (if d = 255 then 255 else if s = 0 then 0 else 255 - min ((255 - d) * 255 / (2 * s)) 255)
      else if d = 0 then 0 else min (d * 255 / (511 - 2 * s)) 255) ≤ 128 then 0 else 255
  | .difference, s, d => if d < s then s - d else d - s
  | .exclusion, s, d => d + s - d * s * 32897 / 4194304
  | .subtract, s, d => d - s
  | .divide, s, d => if d = 0 then 0 else if s = 0 then 255 else min (d * 255 / s) 255

/-- The luminosity of a colour: `(77 r + 151 g + 28 b) / 256`, rounded down. -/
def lumZ (r g b : Int) : Int := (77 * r + 151 * g + 28 * b) / 256

/-- ClipColor of the compositing specification in exact integers: move the channels towards the luminosity `l` until
they fit. -/
def clipZ (r g b : Int) : RGB Nat :=
  let l := lumZ r g b
  let n := min r (min g b)
  let x := max r (max g b)
  let up (c : Int) : Int := if n < 0 then l + ((c - l) * l).tdiv (l - n) else c
  let down (c : Int) : Int := if 255 < x then l + ((c - l) * (255 - l)).tdiv (x - l) else c
  let fin (c : Int) : Nat := (max 0 (min (down (up c)) 255)).toNat
  ⟨fin r, fin g, fin b⟩

/-- SetLum in exact integers. -/
def setLumZ (c : RGB Nat) (l : Int) : RGB Nat :=
  let k := l - lumZ c.r c.g c.b
  clipZ (c.r + k) (c.g + k) (c.b + k)

/-- The largest and smallest channel. -/
def RGB.hi (c : RGB Nat) : Nat := max c.r (max c.g c.b)
def RGB.lo (c : RGB Nat) : Nat := min c.r (min c.g c.b)

/-- SetSat in exact integers: the channels are spread from 0 to `s`. -/
def setSatN (c : RGB Nat) (s : Nat) : RGB Nat :=
  let f (v : Nat) : Nat := if c.lo < c.hi then (v - c.lo) * s / (c.hi - c.lo) else 0
  ⟨f c.r, f c.g, f c.b⟩

/-- The blended colour in exact integers. -/
def blendN (m : Mode) (s d : RGB Nat) : RGB Nat :=
  match m with
  | .sep m => ⟨chanN m s.r d.r, chanN m s.g d.g, chanN m s.b d.b⟩
  | .darkerColor => if lumZ s.r s.g s.b < lumZ d.r d.g d.b then s else d
  | .lighterColor => if lumZ d.r d.g d.b < lumZ s.r s.g s.b then s else d
  | .nonSep .hue => setLumZ (setSatN s (d.hi - d.lo)) (lumZ d.r d.g d.b)
  | .nonSep .saturation => setLumZ (setSatN d (s.hi - s.lo)) (lumZ d.r d.g d.b)
  | .nonSep .color => setLumZ s (lumZ d.r d.g d.b)
  | .nonSep .luminosity => setLumZ d (lumZ s.r s.g s.b)

/-- All channels of a colour are at most `k`. -/
def RGB.Le (c : RGB Nat) (k : Nat) : Prop := c.r ≤ k ∧ c.g ≤ k ∧ c.b ≤ k

/-- Alpha compositing of a source pixel `s` at opacity `op` over a backdrop pixel `d` with blend mode `m`, giving `p`.
`t` is the effective source alpha, `a1`, `a2`, `a3` the weights of the blended colour, of the source alone and of the
backdrop alone; each is rounded down. Nothing changes when the effective alpha or the resulting alpha is 0. Otherwise
the alpha is the sum of the weights and each channel is the weighted mean, rounded down and limited to 255. -/
def Composite (m : Mode) (op : Nat) (s d p : Px) : Prop :=
  let t := s.a.toNat * op / 255
  let a1 := t * d.a.toNat / 255
  let a2 := t * (255 - d.a.toNat) / 255
  let a3 := (255 - t) * d.a.toNat / 255
  let a := a1 + a2 + a3
  let c := blendN m ⟨s.r.toNat, s.g.toNat, s.b.toNat⟩ ⟨d.r.toNat, d.g.toNat, d.b.toNat⟩
  if t = 0 ∨ a = 0 then p = d
  else p.a.toNat = a ∧
    p.r.toNat = min 255 ((c.r * a1 + s.r.toNat * a2 + d.r.toNat * a3) / a) ∧
    p.g.toNat = min 255 ((c.g * a1 + s.g.toNat * a2 + d.g.toNat * a3) / a) ∧
    p.b.toNat = min 255 ((c.b * a1 + s.b.toNat * a2 + d.b.toNat * a3) / a)

end Psd
