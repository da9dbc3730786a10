import Verif.Model.PorterDuff

/-
Model of the 16-bit pixel arithmetic of package blend: drawing from or onto RGBA images, and the fallback for all other
images (blend/zblends.go, generated from blend/genblend.go).
-/

namespace Psd

/-- util.go:113-116, 137-154 `setLum16`, `clipColor16` use `float64`: the colour they give to `c`
when setting it to the luminosity of `l` is a parameter, which `float64Lum` (Model/Float64.lean) gives. Its channels are at most 0xffff
(`clamp16f`, util.go:194-202). -/
structure FloatLum where
  setLum : RGB UInt32 → RGB UInt32 → RGB UInt32
  le : ∀ c l, (setLum c l).r.toNat ≤ 65535 ∧ (setLum c l).g.toNat ≤ 65535 ∧ (setLum c l).b.toNat ≤ 65535

/-- util.go:100-102 `lum16`, times 65536: the products, sums and the division by a power of two are exact in `float64`
for channels below 2 ^ 32, so comparing the floats is comparing these integers. -/
def lum16 (c : RGB UInt32) : Nat := c.r.toNat * 19661 + c.g.toNat * 38666 + c.b.toNat * 7209

/-- One channel on the 16-bit scale: `CodePerChannel16` or `CodePerChannel` of each mode with `To16`
(genblend.go:31-41, 64-372; zblends.go: the lines after `var r, g, b uint32` in `draw<Mode>RGBAToNRGBA`, which start at
215, 674, 1157, 1628, 2165, 3143, 3626, 4097, 4604, 5498, 5957, 6494, 7067, 7586, 8153, 8840, 9581, 10316, 10799, 11258,
11777). -/
def chan16 : Sep → UInt32 → UInt32 → Res UInt32
  | .normal, s, _ => .ok s
  | .darken, s, d => .ok (if s < d then s else d)
  | .multiply, s, d => .ok (s * d / 0xffff)
  | .colorBurn, s, d =>
    if d = 0xffff then .ok 0xffff
    else if s = 0 then .ok 0
    else do
      let q ← divU32 ((0xffff - d) * 0xffff) s
      .ok (0xffff - clip16 q)
  | .linearBurn, s, d => .ok (if d + s > 0xffff then d + s - 0xffff else 0)
  | .lighten, s, d => .ok (if s > d then s else d)
  | .screen, s, d => .ok (s + d - s * d / 0xffff)
  | .colorDodge, s, d =>
    if d = 0 then .ok 0
    else if s = 0xffff then .ok 0xffff
    else do
      let q ← divU32 (d * 0xffff) (0xffff - s)
      .ok (clip16 q)
  | .linearDodge, s, d => .ok (clip16 (s + d))
  | .add, s, d => .ok (s + d)
  | .overlay, s, d =>
    if d < 0x8000 then .ok (s * d / 0x8000)
    else .ok (0xffff - (0xffff - shl (d - 0x8000) 1) * (0xffff - s) / 0xffff)
  | .softLight, s, d =>
    if s < 0x8000 then
      .ok (d - (0xffff - shl s 1) * d / 0xffff * (0xffff - d) / 0xffff)
    else .ok (d + (shl s 1 - 0xffff) * (softTmp16 d - d) / 0xffff)
  | .hardLight, s, d =>
    if s < 0x8000 then .ok (d * s / 0x8000)
    else
      let tmp := shl s 1 - 0xffff
      .ok (d + tmp - d * tmp / 0xffff)
  | .linearLight, s, d =>
    if s < 0x8000 then .ok (clip0 (d + shl s 1 - 0xffff))
    else .ok (clip16 (d + shl (s - 0x8000) 1))
  | .vividLight, s, d =>
    if s < 0x8000 then
      let tmp := shl s 1
      if tmp = 0 then .ok 0
      else do
        let q ← divU32 ((0xffff - d) * 0xffff) tmp
        .ok (0xffff - clip16 q)
    else
      let tmp := shl s 1 - 0xffff
      if tmp = 0xffff then .ok 0xffff
      else do
        let q ← divU32 (d * 0xffff) (0xffff - tmp)
        .ok (clip16 q)
  | .pinLight, s, d =>
    if s < 0x8000 then .ok (if shl s 1 < d then shl s 1 else d)
    else .ok (if shl (s - 0x8000) 1 > d then shl (s - 0x8000) 1 else d)
  | .hardMix, s, d => do
    let tmp ← hardMixTmp16 s d
    .ok (if tmp ≤ 0x8000 then 0 else 0xffff)
  | .difference, s, d => .ok (if d < s then s - d else d - s)
  | .exclusion, s, d => .ok (d + s - d * s / 0x8000)
  | .subtract, s, d => .ok (if d < s then 0 else d - s)
  | .divide, s, d =>
    if d = 0 then .ok 0
    else if s = 0 then .ok 0xffff
    else do
      let q ← divU32 (d * 0xffff) s
      .ok (clip16 q)

where
  /-- The intermediate value of soft light (genblend.go:241-246, zblends.go:6538-6543). The division by the constant
  0xffff is Go's truncated `int32` division; `i * 16` is `i << 4`. -/
  softTmp16 (d : UInt32) : UInt32 :=
    if d < 0x4000 then
      let i : Int32 := d.toInt32
      ((((i * 16 - 786420) / 0xffff) * i + 262140) * i / 0xffff).toUInt32
    else sqrtU32 d 0xffff
  /-- `tmp` of hard mix before the threshold (genblend.go:311-328, zblends.go:9616-9637). -/
  hardMixTmp16 (s d : UInt32) : Res UInt32 :=
    if s < 0x8000 then
      if d = 0xffff then .ok 0xffff
      else if shl s 1 = 0 then .ok 0
      else do
        let q ← divU32 ((0xffff - d) * 0xffff) (shl s 1)
        .ok (0xffff - clip16 q)
    else
      if d = 0 then .ok 0
      else if shl (s - 0x8000) 1 = 0xffff then .ok 0xffff
      else do
        let q ← divU32 (d * 0xffff) (0xffff - shl (s - 0x8000) 1)
        .ok (clip16 q)

/-- The blended colour on the 16-bit scale (genblend.go:64-405 with `To16`). -/
def blend16 (F : FloatLum) (m : Mode) (s d : RGB UInt32) : Res (RGB UInt32) :=
  match m with
  | .sep m => do
    let r ← chan16 m s.r d.r
    let g ← chan16 m s.g d.g
    let b ← chan16 m s.b d.b
    .ok ⟨r, g, b⟩
  | .darkerColor => .ok (if lum16 s < lum16 d then s else d)
  | .lighterColor => .ok (if lum16 s > lum16 d then s else d)
  | .nonSep .hue => do
    let c ← setSat s (sat d)
    .ok (F.setLum c d)
  | .nonSep .saturation => do
    let c ← setSat d (sat s)
    .ok (F.setLum c d)
  | .nonSep .color => .ok (F.setLum s d)
  | .nonSep .luminosity => .ok (F.setLum d s)

/-- genblend.go:541-561 `drawMain1_SrcRGBAToNRGBA`, `drawMain1_DestRGBAToNRGBA`: the colour without its alpha. -/
def straight16 (v : RGBA32) : Res (RGB UInt32) :=
  if v.a = 0 then .ok ⟨0, 0, 0⟩
  else if v.a < 0xffff then do
    let r ← divU32 (v.r * 0xffff) v.a
    let g ← divU32 (v.g * 0xffff) v.a
    let b ← divU32 (v.b * 0xffff) v.a
    .ok ⟨r, g, b⟩
  else .ok ⟨v.r, v.g, v.b⟩

/-- The colour a kernel works with for a pixel of an image of the given kind. -/
def colour16 (k : PixKind) (v : RGBA32) : Res (RGB UInt32) :=
  match k with
  | .rgba => straight16 v
  | .nrgba => .ok ⟨v.r, v.g, v.b⟩

/-- What the weighted sums are divided by: the alpha (genblend.go `drawMain2_SetNRGBA`) or the scale
(`drawMain2_SetRGBA`). -/
def divisor16 (k : PixKind) (a : UInt32) : UInt32 := match k with | .nrgba => a | .rgba => 0xffff

/-- genblend.go `drawMain1`, `drawMain2`, `drawMain2_SetNRGBA`, `drawMain2_SetRGBA`: one pixel drawn from an image of kind
`sk` onto an image of kind `dk`; `alpha` is the opacity, at most 255. zblends.go: `draw<Mode>RGBAToNRGBA` (215),
`draw<Mode>NRGBAToRGBA` (274), `draw<Mode>RGBAToRGBA` (333) and their 26 copies. The kernel for NRGBA onto NRGBA runs in 8
bits (`drawNN`). -/
def draw16 (F : FloatLum) (m : Mode) (sk dk : PixKind) (alpha : UInt32) (s d : Px) : Res Px := do
  let alpha := alpha * 0x0101
  let sv := widen s
  let tmp := sv.a * alpha / 0xffff
  if tmp = 0 then .ok d
  else
    let dv := widen d
    let a1 := tmp * dv.a / 0xffff
    let a2 := tmp * (0xffff - dv.a) / 0xffff
    let a3 := (0xffff - tmp) * dv.a / 0xffff
    let a := a1 + a2 + a3
    if a = 0 then .ok d
    else
      let sc ← colour16 sk sv
      let dc ← colour16 dk dv
      let c ← blend16 F m sc dc
      let k := divisor16 dk a
      let b ← divU32 (c.b * a1 + sc.b * a2 + dc.b * a3) k
      let g ← divU32 (c.g * a1 + sc.g * a2 + dc.g * a3) k
      let r ← divU32 (c.r * a1 + sc.r * a2 + dc.r * a3) k
      let fin : UInt32 → UInt8 := fun v => if m.overMax then hi8 (clip16 v) else hi8 v
      .ok ⟨fin r, fin g, fin b, hi8 a⟩

/-- One channel stored by the fallback (genblend.go, end of `draw<Mode>Fallback`): `uint16` of it is stored. -/
def fallbackOut (over : Bool) (c s d a1 a2 a3 a : UInt32) : Res UInt32 :=
  if over then
    if a = 0 then .panic .divZero
    else .ok ((clip6416 ((s * a2 + d * a3).toUInt64 / 0xffff + c.toUInt64 * a1.toUInt64 / a.toUInt64) * a / 0xffff) &&& 0xffff)
  else .ok ((c * a1 + s * a2 + d * a3) / 0xffff &&& 0xffff)

/-- `draw<Mode>Fallback` for one pixel (zblends.go:402-468 and its 26 copies): `ma` is the mask's alpha, `s` and `d` what
`At(x, y).RGBA()` returns, the result what is passed to `Set` (`none`: the pixel is left alone). -/
def drawFB (F : FloatLum) (m : Mode) (ma : UInt32) (s d : RGBA32) : Res (Option RGBA32) := do
  if ma = 0 then .ok none
  else
    let tmp := s.a * ma / 0xffff
    let a1 := tmp * d.a / 0xffff
    let a2 := tmp * (0xffff - d.a) / 0xffff
    let a3 := (0xffff - tmp) * d.a / 0xffff
    let a := a1 + a2 + a3
    if a = 0 then .ok none
    else
      let sc ← straight16 s
      let dc ← straight16 d
      let c ← blend16 F m sc dc
      let r ← fallbackOut m.overMax c.r sc.r dc.r a1 a2 a3 a
      let g ← fallbackOut m.overMax c.g sc.g dc.g a1 a2 a3 a
      let b ← fallbackOut m.overMax c.b sc.b dc.b a1 a2 a3 a
      .ok (some ⟨r, g, b, a &&& 0xffff⟩)

end Psd
