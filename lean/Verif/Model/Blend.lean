import Verif.Model.Basic

/-
Model of the pixel arithmetic of package blend: blend/util.go and blend/zblends.go (generated from the templates in
blend/genblend.go, whose lines are cited too because every mode repeats the same code five times).
Go's `uint32` is `UInt32` and `int32` is `Int32`: both wrap; division by zero is a panic.
-/

namespace Psd

/-- Go's `a / b` on `uint32`. -/
def divU32 (a b : UInt32) : Res UInt32 := if b = 0 then .panic .divZero else .ok (a / b)

/-- Go's `a / b` on `int32` (truncated). -/
def divI32 (a b : Int32) : Res Int32 := if b = 0 then .panic .divZero else .ok (a / b)

/-- Go's `a << k` and `a >> k` on `uint32`, `k < 32`. -/
def shl (a k : UInt32) : UInt32 := a <<< k
def shr (a k : UInt32) : UInt32 := a >>> k

/-- The 21 modes that treat each channel alone (zblends.go:12-40). -/
inductive Sep where
  | normal | darken | multiply | colorBurn | linearBurn | lighten | screen | colorDodge | linearDodge | add
  | overlay | softLight | hardLight | linearLight | vividLight | pinLight | hardMix | difference | exclusion
  | subtract | divide
  deriving DecidableEq, Repr

/-- The four modes built on luminosity and saturation. -/
inductive NonSep where
  | hue | saturation | color | luminosity
  deriving DecidableEq, Repr

/-- The 27 blend modes (zblends.go:11-40). -/
inductive Mode where
  | sep (m : Sep)
  | darkerColor
  | lighterColor
  | nonSep (m : NonSep)
  deriving DecidableEq, Repr

structure RGB (α : Type) where
  r : α
  g : α
  b : α
  deriving DecidableEq, Repr

/-- One pixel of an RGBA or NRGBA image: four bytes. -/
structure Px where
  r : UInt8
  g : UInt8
  b : UInt8
  a : UInt8
  deriving DecidableEq, Repr

/-! ### blend/util.go -/

/-- util.go:14-16 `sqrt`: `uint32(math.Sqrt(float64(a)/b) * b)`, for the two values of `b` in use (255 and 65535) and `a ≤ b`: the integer
square root. `sqrt64` (Model/Sqrt64.lean) is the same in floating point; `C40_square_root` shows that they agree. -/
def sqrtU32 (a b : UInt32) : UInt32 := UInt32.ofNat (isqrt (a.toNat * b.toNat))
where
  /-- Integer square root by bisection on bits: the largest `r` with `r * r ≤ n`, for `n < 2 ^ 32`. -/
  isqrt (n : Nat) : Nat :=
    (List.range 16).foldl (fun r k => if (r + 2 ^ (15 - k)) * (r + 2 ^ (15 - k)) ≤ n then r + 2 ^ (15 - k) else r) 0

/-- util.go:18-23, 39-44 `max`, `min`. -/
def maxU (a b : UInt32) : UInt32 := if a > b then a else b
def minU (a b : UInt32) : UInt32 := if a < b then a else b

/-- util.go:25-30, 46-51 `maxs`, `mins`. -/
def maxS (a b : Int32) : Int32 := if a > b then a else b
def minS (a b : Int32) : Int32 := if a < b then a else b

/-- util.go:60-62 `sat`. -/
def sat (c : RGB UInt32) : UInt32 := maxU c.r (maxU c.g c.b) - minU c.r (minU c.g c.b)

/-- util.go:85-90 `setSatMinMidMax`. -/
def setSatMinMidMax (mn mid mx s : UInt32) : Res (UInt32 × UInt32 × UInt32) :=
  if mx > mn then do
    let q ← divU32 ((mid - mn) * s) (mx - mn)
    .ok (0, q, s)
  else .ok (0, 0, 0)

/-- util.go:64-83 `setSat`. -/
def setSat (c : RGB UInt32) (s : UInt32) : Res (RGB UInt32) :=
  if c.r ≤ c.g then
    if c.g ≤ c.b then do
      let (r, g, b) ← setSatMinMidMax c.r c.g c.b s
      .ok ⟨r, g, b⟩
    else if c.r ≤ c.b then do
      let (r, b, g) ← setSatMinMidMax c.r c.b c.g s
      .ok ⟨r, g, b⟩
    else do
      let (b, r, g) ← setSatMinMidMax c.b c.r c.g s
      .ok ⟨r, g, b⟩
  else if c.r ≤ c.b then do
    let (g, r, b) ← setSatMinMidMax c.g c.r c.b s
    .ok ⟨r, g, b⟩
  else if c.g ≤ c.b then do
    let (g, b, r) ← setSatMinMidMax c.g c.b c.r s
    .ok ⟨r, g, b⟩
  else do
    let (b, g, r) ← setSatMinMidMax c.b c.g c.r s
    .ok ⟨r, g, b⟩

/-- util.go:92-94 `lum8`. -/
def lum8 (c : RGB UInt32) : Int32 := ((c.r * 77 + c.g * 151 + c.b * 28) >>> 8).toInt32

/-- util.go:96-98 `lum8s`. -/
def lum8s (r g b : Int32) : Int32 := (r * 77 + g * 151 + b * 28) >>> 8

/-- util.go:184-192 `clamp8s`. -/
def clamp8s (a : Int32) : UInt32 := if a < 0 then 0 else if a > 0xff then 0xff else a.toUInt32

/-- util.go:118-135 `clipColor8`. -/
def clipColor8 (r g b : Int32) : Res (RGB UInt32) := do
  let lm := lum8s r g b
  let mn := minS r (minS g b)
  let mx := maxS r (maxS g b)
  let (r, g, b) ← (if mn < 0 then do
      let tmp := lm - mn
      let qr ← divI32 ((r - lm) * lm) tmp
      let qg ← divI32 ((g - lm) * lm) tmp
      let qb ← divI32 ((b - lm) * lm) tmp
      .ok (lm + qr, lm + qg, lm + qb)
    else .ok (r, g, b))
  let (r, g, b) ← (if mx > 0xff then do
      let tmp := 0xff - lm
      let tmp2 := mx - lm
      let qr ← divI32 ((r - lm) * tmp) tmp2
      let qg ← divI32 ((g - lm) * tmp) tmp2
      let qb ← divI32 ((b - lm) * tmp) tmp2
      .ok (lm + qr, lm + qg, lm + qb)
    else .ok (r, g, b))
  .ok ⟨clamp8s r, clamp8s g, clamp8s b⟩

/-- util.go:108-111 `setLum8`. -/
def setLum8 (c : RGB UInt32) (lm : Int32) : Res (RGB UInt32) :=
  let l := lm - lum8 c
  clipColor8 (c.r.toInt32 + l) (c.g.toInt32 + l) (c.b.toInt32 + l)

/-- util.go:156-161 `clip0`. -/
def clip0 (a : UInt32) : UInt32 := if a &&& 0x80000000 = 0 then a else 0

/-- util.go:163-168, 170-175 `clip8`, `clip16`. -/
def clip8 (a : UInt32) : UInt32 := if a < 0xff then a else 0xff
def clip16 (a : UInt32) : UInt32 := if a < 0xffff then a else 0xffff

/-- util.go:177-182 `clip6416`. -/
def clip6416 (a : UInt64) : UInt32 := if a < 0xffff then a.toUInt32 else 0xffff

/-! ### Channel formulas, 8-bit scale -/

/-- One channel on the 8-bit scale: the `CodePerChannel` of each mode (genblend.go:71-372 with `To8`,
genblend.go:43-52; zblends.go: the lines between `var r, g, b uint32` and the stores of each
`draw<Mode>NRGBAToNRGBA`, which start at 125, 560, 1067, 1502, 2045, 3029, 3536, 3971, 4514, 5408, 5843, 6350,
6947, 7472, 7979, 8666, 9353, 10202, 10709, 11144, 11651). -/
def chan8 : Sep → UInt32 → UInt32 → Res UInt32
  | .normal, s, _ => .ok s
  | .darken, s, d => .ok (if s < d then s else d)
  | .multiply, s, d => .ok (shr (s * d * 32897) 23)
  | .colorBurn, s, d =>
    if d = 0xff then .ok 0xff
    else if s = 0 then .ok 0
    else do
      let q ← divU32 ((0xff - d) * 0xff) s
      .ok (0xff - clip8 q)
  | .linearBurn, s, d => .ok (if d + s > 0xff then d + s - 0xff else 0)
  | .lighten, s, d => .ok (if s > d then s else d)
  | .screen, s, d => .ok (s + d - shr (s * d * 32897) 23)
  | .colorDodge, s, d =>
    if d = 0 then .ok 0
    else if s = 0xff then .ok 0xff
    else do
      let q ← divU32 (d * 0xff) (0xff - s)
      .ok (clip8 q)
  | .linearDodge, s, d => .ok (clip8 (s + d))
  | .add, s, d => .ok (s + d)
  | .overlay, s, d =>
    if d < 0x80 then .ok (shr (s * d * 32897) 22)
    else .ok (0xff - shr ((0xff - shl (d - 0x80) 1) * (0xff - s) * 32897) 23)
  | .softLight, s, d =>
    if s < 0x80 then
      .ok (d - shr (shr ((0xff - shl s 1) * d * 32897) 23 * (0xff - d) * 32897) 23)
    else
      let tmp : UInt32 :=
        if d < 0x40 then
          let i : Int32 := d.toInt32
          let x : Int32 := ((i <<< 4 - 3060) * 32897) >>> 23
          (((x * i + 1020) * i * 32897) >>> 23).toUInt32
        else sqrtU32 d 0xff
      .ok (d + shr ((shl s 1 - 0xff) * (tmp - d) * 32897) 23)
  | .hardLight, s, d =>
    if s < 0x80 then .ok (shr (d * s * 32897) 22)
    else
      let tmp := shl s 1 - 0xff
      .ok (d + tmp - shr (d * tmp * 32897) 23)
  | .linearLight, s, d =>
    if s < 0x80 then .ok (clip0 (d + shl s 1 - 0xff))
    else .ok (clip8 (d + shl (s - 0x80) 1))
  | .vividLight, s, d =>
    if s < 0x80 then
      let tmp := shl s 1
      if tmp = 0 then .ok 0
      else do
        let q ← divU32 ((0xff - d) * 0xff) tmp
        .ok (0xff - clip8 q)
    else
      let tmp := shl s 1 - 0xff
      if tmp = 0xff then .ok 0xff
      else do
        let q ← divU32 (d * 0xff) (0xff - tmp)
        .ok (clip8 q)
  | .pinLight, s, d =>
    if s < 0x80 then .ok (if shl s 1 < d then shl s 1 else d)
    else .ok (if shl (s - 0x80) 1 > d then shl (s - 0x80) 1 else d)
  | .hardMix, s, d => do
    let tmp ← hardMixTmp8 s d
    .ok (if tmp ≤ 0x80 then 0 else 0xff)
  | .difference, s, d => .ok (if d < s then s - d else d - s)
  | .exclusion, s, d => .ok (d + s - shr (d * s * 32897) 22)
  | .subtract, s, d => .ok (if d < s then 0 else d - s)
  | .divide, s, d =>
    if d = 0 then .ok 0
    else if s = 0 then .ok 0xff
    else do
      let q ← divU32 (d * 0xff) s
      .ok (clip8 q)

where
  /-- `tmp` of hard mix before the threshold (genblend.go:311-328, zblends.go:9385-9408). -/
  hardMixTmp8 (s d : UInt32) : Res UInt32 :=
    if s < 0x80 then
      if d = 0xff then .ok 0xff
      else if shl s 1 = 0 then .ok 0
      else do
        let q ← divU32 ((0xff - d) * 0xff) (shl s 1)
        .ok (0xff - clip8 q)
    else
      if d = 0 then .ok 0
      else if shl (s - 0x80) 1 = 0xff then .ok 0xff
      else do
        let q ← divU32 (d * 0xff) (0xff - shl (s - 0x80) 1)
        .ok (clip8 q)

/-- The blended colour on the 8-bit scale (genblend.go:70-405, zblends.go per mode). -/
def blend8 (m : Mode) (s d : RGB UInt32) : Res (RGB UInt32) :=
  match m with
  | .sep m => do
    let r ← chan8 m s.r d.r
    let g ← chan8 m s.g d.g
    let b ← chan8 m s.b d.b
    .ok ⟨r, g, b⟩
  | .darkerColor => .ok (if lum8 s < lum8 d then s else d)      -- zblends.go:2600-2608
  | .lighterColor => .ok (if lum8 s > lum8 d then s else d)     -- zblends.go:4979-4987
  | .nonSep .hue => do                                          -- genblend.go:374-380
    let c ← setSat s (sat d)
    setLum8 c (lum8 d)
  | .nonSep .saturation => do                                   -- genblend.go:381-387
    let c ← setSat d (sat s)
    setLum8 c (lum8 d)
  | .nonSep .color => setLum8 s (lum8 d)                        -- genblend.go:388-393
  | .nonSep .luminosity => setLum8 d (lum8 s)                   -- genblend.go:394-399

/-- Only `Add` may exceed the scale (genblend.go:199-205: `OverMax`). -/
def Mode.overMax (m : Mode) : Bool := m = .sep .add

/-- zblends.go:125-165 and its 26 copies (genblend.go:461-515): one pixel drawn from an NRGBA image onto an NRGBA
image; `alpha` is the opacity, at most 255. The second loop of the Go function (zblends.go:168-211) never runs because
`y` is 0 by then. -/
def drawNN (m : Mode) (alpha : UInt32) (s d : Px) : Res Px := do
  let alpha := alpha * 32897
  let sa := s.a.toUInt32
  let tmp := shr (sa * alpha) 23 * 32897
  if tmp = 0 then .ok d
  else
    let da := d.a.toUInt32
    let a1 := shr (tmp * da) 23
    let a2 := shr (tmp * (255 - da)) 23
    let a3 := shr ((8388735 - tmp) * da) 23
    let a := a1 + a2 + a3
    if a = 0 then .ok d
    else
      let sc : RGB UInt32 := ⟨s.r.toUInt32, s.g.toUInt32, s.b.toUInt32⟩
      let dc : RGB UInt32 := ⟨d.r.toUInt32, d.g.toUInt32, d.b.toUInt32⟩
      let c ← blend8 m sc dc
      let b ← divU32 (c.b * a1 + sc.b * a2 + dc.b * a3) a
      let g ← divU32 (c.g * a1 + sc.g * a2 + dc.g * a3) a
      let r ← divU32 (c.r * a1 + sc.r * a2 + dc.r * a3) a
      let fin : UInt32 → UInt8 := fun v => if m.overMax then (clip8 v).toUInt8 else v.toUInt8
      .ok ⟨fin r, fin g, fin b, a.toUInt8⟩

end Psd
