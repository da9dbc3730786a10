import Verif.Model.Picker

/-
Model of /repo/psd.go (Config, DecodeConfig) and /repo/imageres.go.
-/

namespace Psd

/-- ASCII bytes of a Go string literal. -/
def ascii (s : String) : List UInt8 := s.toList.map fun c => UInt8.ofNat c.toNat

/-- "8BPS" (psd.go:23). -/
def headerSignature : List UInt8 := [0x38, 0x42, 0x50, 0x53]
/-- "8BIM" (psd.go:24). -/
def sectionSignature : List UInt8 := [0x38, 0x42, 0x49, 0x4D]

/-- imageres.go:53: the block signatures accepted: 8BIM, MeSa, PHUT, AgHg, DCSR. -/
def resSignatures : List (List UInt8) :=
  [[0x38, 0x42, 0x49, 0x4D], [0x4D, 0x65, 0x53, 0x61], [0x50, 0x48, 0x55, 0x54],
   [0x41, 0x67, 0x48, 0x67], [0x44, 0x43, 0x53, 0x52]]

/-- imageres.go:9-12 `ImageResource`. -/
structure ImageResource where
  name : List UInt8
  data : List UInt8
  deriving DecidableEq, Repr

abbrev ResMap := GoMap Nat ImageResource

/-- psd.go:70-78 `Config`. `rect` is always (0,0)-(width,height). -/
structure Config where
  version : Nat
  rect : Rect
  channels : Nat
  depth : Nat
  colorMode : ColorMode
  colorModeData : List UInt8
  res : ResMap

/-- psd.go:81-83 `PSB`. -/
def Config.psb (c : Config) : Bool := c.version == 2

/-- imageres.go:36-92: one iteration of the resource loop: id, resource and bytes read. -/
def readResBlock : P (Nat × ImageResource × Int) := do
  let b ← readFull 6
  let read : Int := 6
  if b.take 4 ∉ resSignatures then P.fail (.bad "invalid image resource signature")
  else do
    let id := beAt b 4 2
    let (name, l) ← readPascalString
    let read := read + l
    let l ← adjustAlign2 l
    let read := read + l
    let b ← readFull 4
    let read := read + 4
    let data ← readFull (beAt b 0 4)
    let read := read + data.length
    let l ← adjustAlign2 data.length
    let read := read + l
    pure (id, ⟨name, data⟩, read)

/-- imageres.go:36-92: the loop `for read < imageResourceLen`.  Note that `read` counts the four
bytes of the length field too. -/
def readResLoop (total : Int) : (fuel : Nat) → (read : Int) → ResMap → P (ResMap × Int)
  | fuel, read, m =>
    if read < total then
      match fuel with
      | 0 => P.outOfFuel
      | fuel + 1 => do
        let (id, res, l) ← readResBlock
        readResLoop total fuel (read + l) (m.set id res)
    else pure (m, read)

/-- imageres.go:14-97 `readImageResource`. The recursion bound is the number of input bytes. -/
def readImageResource : P (ResMap × Int) := fun s =>
  (do
    let b ← readFull 4
    let read : Int := 4
    let imageResourceLen : Int := beAt b 0 4
    if imageResourceLen = 0 then pure (GoMap.empty, read)
    else readResLoop imageResourceLen (s.data.length + 1) read GoMap.empty : P _) s

/-- imageres.go:99-117 `hasAlphaID0`, the loop over the identifiers. -/
def alphaID0Loop : (fuel : Nat) → (data : List UInt8) → Res Bool
  | _, [] => .ok false
  | 0, _ :: _ => .fuel
  | fuel + 1, data =>
    if data.length < 4 then .panic .index
    else if beNat (data.take 4) = 0 then .ok true
    else alphaID0Loop fuel (data.drop 4)

/-- imageres.go:99-117 `hasAlphaID0`. -/
def hasAlphaID0 (res : ResMap) : Res Bool :=
  match res 0x041D with
  | none => .ok true
  | some aid => alphaID0Loop aid.data.length aid.data

/-- psd.go:98-110: palette entries `i, i+1, …, i+n-1`. -/
def paletteFrom (cmd : List UInt8) (transparent : Int) :
    (n i : Nat) → Res (List (UInt8 × UInt8 × UInt8 × UInt8))
  | 0, _ => .ok []
  | n + 1, i => do
    let r ← goIndex cmd i
    let g ← goIndex cmd (i + 256)
    let b ← goIndex cmd (i + 512)
    let rest ← paletteFrom cmd transparent n (i + 1)
    .ok ((r, g, b, if (i : Int) = transparent then 0 else 0xff) :: rest)

/-- psd.go:86-112 `Palette`; `none` is the nil palette. -/
def Config.palette (cfg : Config) : Res (Option (List (UInt8 × UInt8 × UInt8 × UInt8))) :=
  if cfg.colorMode ≠ cmIndexed then .ok none
  else do
    let t ← (match cfg.res 0x0417 with
      | some r => do
        let v ← readUint16 r.data 0
        Res.ok (v : Int)
      | none => Res.ok (-1))
    let pal ← paletteFrom cfg.colorModeData t (cfg.colorModeData.length / 3) 0
    .ok (some pal)

/-- psd.go:114-128 `makePicker`: picker kind and palette. -/
def Config.makePicker (cfg : Config) :
    Res (PickerKind × List (UInt8 × UInt8 × UInt8 × UInt8)) :=
  if cfg.colorMode = cmIndexed then do
    let pal ← cfg.palette
    .ok (.palette, pal.getD [])
  else if cfg.colorMode = cmBitmap then .ok (.gray1, [])
  else do
    let alpha ← (if (cfg.channels : Int) > cfg.colorMode.channels then hasAlphaID0 cfg.res
      else Res.ok false)
    match findPicker cfg.depth cfg.colorMode alpha with
    | some k => .ok (k, [])
    | none => .err (.bad "color mode depth is not implemeted")

/-- psd.go:142-205 `DecodeConfig`: configuration and bytes read. -/
def decodeConfig : P (Config × Int) := do
  let b ← readFull 30
  let read : Int := 30
  if b.take 4 ≠ headerSignature then P.fail (.bad "invalid format")
  else
    let version := beAt b 4 2
    if version ≠ 1 ∧ version ≠ 2 then P.fail (.bad "unexpected file version")
    else
      let channels := beAt b 12 2
      if channels < 1 ∨ channels > 56 then P.fail (.bad "unexpected the number of channels")
      else
        let width := beAt b 18 4
        let height := beAt b 14 4
        if height < 1 ∨ (version = 1 ∧ height > 30000) ∨ (version = 2 ∧ height > 300000) then
          P.fail (.bad "unexpected the height of the image")
        else if width < 1 ∨ (version = 1 ∧ width > 30000) ∨ (version = 2 ∧ width > 300000) then
          P.fail (.bad "unexpected the width of the image")
        else
          let depth := beAt b 22 2
          if depth ≠ 1 ∧ depth ≠ 8 ∧ depth ≠ 16 ∧ depth ≠ 32 then
            P.fail (.bad "unexpected color depth")
          else do
            let colorMode := int16 (beAt b 24 2)
            let ln := beAt b 26 4
            let cmd ← readFull ln
            let read := read + cmd.length
            let (res, l) ← readImageResource
            let read := read + l
            pure ({ version := version, rect := Rect.make 0 0 width height, channels := channels,
                    depth := depth, colorMode := colorMode, colorModeData := cmd, res := res },
                  read)

end Psd
