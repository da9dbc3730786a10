import Verif.Model.Compress
import Verif.Model.Config

/-
Model of /repo/layer.go.
-/

namespace Psd

/-- psd.go:28 `AdditionalInfoKey`: the four key bytes. -/
abbrev Key := List UInt8

/-- psd.go:60-66. -/
def keyLayr : Key := [0x4C, 0x61, 0x79, 0x72]
def keyLr16 : Key := [0x4C, 0x72, 0x31, 0x36]
def keyLr32 : Key := [0x4C, 0x72, 0x33, 0x32]
def keyLuni : Key := [0x6C, 0x75, 0x6E, 0x69]
def keyClbl : Key := [0x63, 0x6C, 0x62, 0x6C]
def keyLsct : Key := [0x6C, 0x73, 0x63, 0x74]
def keyLsdk : Key := [0x6C, 0x73, 0x64, 0x6B]

/-- "8B64" (layer.go:827). -/
def sig8B64 : List UInt8 := [0x38, 0x42, 0x36, 0x34]

/-- psd.go:37-49: keys with 8-byte lengths in large documents:
LMsk, Lr16, Lr32, Layr, Mt16, Mt32, Mtrn, Alph, FMsk, lnk2, FEid, FXid, PxSD. -/
def largeKeys : List Key :=
  [[0x4C, 0x4D, 0x73, 0x6B], [0x4C, 0x72, 0x31, 0x36], [0x4C, 0x72, 0x33, 0x32],
   [0x4C, 0x61, 0x79, 0x72], [0x4D, 0x74, 0x31, 0x36], [0x4D, 0x74, 0x33, 0x32],
   [0x4D, 0x74, 0x72, 0x6E], [0x41, 0x6C, 0x70, 0x68], [0x46, 0x4D, 0x73, 0x6B],
   [0x6C, 0x6E, 0x6B, 0x32], [0x46, 0x45, 0x69, 0x64], [0x46, 0x58, 0x69, 0x64],
   [0x50, 0x78, 0x53, 0x44]]

/-- psd.go:31-54 `LenSize`. -/
def lenSize (k : Key) (large : Bool) : Nat :=
  if large ∧ k ∈ largeKeys then 8 else 4

/-- layer.go:72-85 `Mask`; float64 fields are kept as their IEEE bit pattern. -/
structure Mask where
  rect : Rect := Rect.zero
  defaultColor : Nat := 0
  flags : Nat := 0
  realRect : Rect := Rect.zero
  realBackgroundColor : Nat := 0
  realFlags : Nat := 0
  userMaskDensity : Nat := 0
  userMaskFeather : Nat := 0
  vectorMaskDensity : Nat := 0
  vectorMaskFeather : Nat := 0
  deriving DecidableEq, Repr

/-- layer.go:98-102 `Channel`. -/
structure Channel where
  data : List UInt8
  picker : Picker
  deriving DecidableEq, Repr

/-- The infos map: a nil `[]byte` value and an empty one coincide (the code stores nil exactly
when the length is not positive). -/
abbrev Infos := GoMap Key (List UInt8)

/-- layer.go:10-40 `Layer`, without the children (`Layer []Layer`, see `LTree`).  `name`s are the
bytes of the Go strings.  `channel` and `picker` are filled by `readLayerImage`. -/
structure LayerRec where
  seqID : Nat := 0
  name : List UInt8 := []
  unicodeName : List UInt8 := []
  mbcsName : List UInt8 := []
  rect : Rect := Rect.zero
  channel : GoMap Int Channel := GoMap.empty
  blendMode : List UInt8 := []
  opacity : UInt8 := 0
  clipping : Bool := false
  blendClippedElements : Bool := false
  flags : UInt8 := 0
  mask : Mask := {}
  picker : Option Picker := none
  infos : Infos := GoMap.empty
  sdType : Nat := 0
  sdBlendMode : List UInt8 := []
  sdSubType : Nat := 0

/-- A layer with its children (`Layer.Layer`). -/
inductive LTree (α : Type) where
  | node (l : α) (kids : List (LTree α))

/-- layer.go:43-45. -/
def LayerRec.transparencyProtected (l : LayerRec) : Bool := l.flags &&& 1 != 0
/-- layer.go:48-50. -/
def LayerRec.visible (l : LayerRec) : Bool := l.flags &&& 2 == 0
/-- layer.go:53-55. -/
def LayerRec.hasImage (l : LayerRec) : Bool := l.sdType == 0
/-- layer.go:58-60. -/
def LayerRec.folder (l : LayerRec) : Bool := l.sdType == 1 || l.sdType == 2
/-- layer.go:63-65. -/
def LayerRec.folderIsOpen (l : LayerRec) : Bool := l.sdType == 1
/-- layer.go:88-90. -/
def Mask.enabled (m : Mask) : Bool := m.flags &&& 2 == 0
/-- layer.go:93-95. -/
def Mask.realEnabled (m : Mask) : Bool := m.realFlags &&& 2 == 0

/-- psd.go:208-213 `DecodeOptions`.  `configLoaded`: none = nil callback, `some f`: `f cfg` tells
whether the callback returns an error.  `layerImageLoaded`: whether the callback is set. -/
structure Options where
  skipLayerImage : Bool := false
  skipMergedImage : Bool := false
  configLoaded : Option (Config → Bool) := none
  layerImageLoaded : Bool := false

/-- psd.go:222-226: the `ConfigLoaded` callback returns an error. -/
def Options.rejects (o : Options) (cfg : Config) : Bool :=
  match o.configLoaded with
  | some f => f cfg
  | none => false

/-- layer.go:193-223 `buildTree`, over any record type with a section divider type. `stack` holds
the sibling lists of the enclosing open groups, innermost first; sibling lists are in order. -/
def buildTreeLoop {α : Type} (typ : α → Nat) :
    (layers : List α) → (stack : List (List (LTree α))) → (n : List (LTree α)) →
    Res (List (LTree α))
  | [], _, n => .ok n
  | l :: ls, stack, n =>
    if typ l = 1 ∨ typ l = 2 then
      match stack with
      | [] => .err (.bad "layer tree structure is broken")
      | top :: stack => buildTreeLoop typ ls stack (top ++ [.node l n])
    else if typ l = 3 then buildTreeLoop typ ls (n :: stack) []
    else buildTreeLoop typ ls stack (n ++ [.node l []])

/-- layer.go:193-223 `buildTree`. -/
def buildTree {α : Type} (typ : α → Nat) (layers : List α) : Res (List (LTree α)) :=
  buildTreeLoop typ layers [] []

/-- layer.go:228-240 (and 244-256): the contents of one section divider block. -/
def sectionDivider (b : List UInt8) : Res (Nat × List UInt8 × Nat) := do
  let typ ← readUint32 b 0
  if b.length < 12 then .ok (typ, [], 0)
  else if (b.drop 4).take 4 ≠ sectionSignature then
    .err (.bad "unexpected signature in section divider setting")
  else
    let blendMode := (b.drop 8).take 4
    if b.length < 16 then .ok (typ, blendMode, 0)
    else do
      let sub ← readUint32 b 12
      .ok (typ, blendMode, sub)

/-- layer.go:225-259 `readSectionDividerSetting`. -/
def readSectionDividerSetting (infos : Infos) : Res (Nat × List UInt8 × Nat) :=
  match infos keyLsct with
  | some b => sectionDivider b
  | none =>
    match infos keyLsdk with
    | some b => sectionDivider b
    | none => .ok (0, [], 0)

/-- layer.go:261-264 `channelData`. -/
structure ChannelData where
  chIndex : Int
  dataLen : Int
  deriving DecidableEq, Repr

/-- layer.go:320-323, 626-629: a rectangle stored as top, left, bottom, right, signed. -/
def rectS (b : List UInt8) : Rect :=
  Rect.make (int32 (beAt b 4 4)) (int32 (beAt b 0 4)) (int32 (beAt b 12 4)) (int32 (beAt b 8 4))

/-- layer.go:793-796: the same for RealRect, without the int32 conversion. -/
def rectU (b : List UInt8) : Rect :=
  Rect.make (beAt b 4 4) (beAt b 0 4) (beAt b 12 4) (beAt b 8 4)

/-- layer.go:743-798: the part of the mask data after the parameters. `rm` is `readMask`. -/
def readMaskTail (m : Mask) (maskLen rm read : Int) : P (Mask × Int) :=
  if maskLen = 20 then
    if rm < maskLen ∧ maskLen - rm ≤ 2 then do
      let b ← readFull (maskLen - rm).toNat
      pure (m, read + b.length)
    else pure (m, read)
  else if maskLen - rm < 1 then pure (m, read)
  else do
    let b ← readFull 1
    let read := read + 1
    let rm := rm + 1
    let m := { m with realFlags := beNat b }
    if maskLen - rm < 1 then pure (m, read)
    else do
      let b ← readFull 1
      let read := read + 1
      let rm := rm + 1
      let m := { m with realBackgroundColor := beNat b }
      if maskLen - rm < 16 then
        if maskLen - rm > 0 then do
          let l ← discard (maskLen - rm)
          pure (m, read + l)
        else pure (m, read)
      else do
        let b ← readFull 16
        pure ({ m with realRect := rectU b }, read + 16)

/-- layer.go:722-740: vector mask feather, then the tail. -/
def readMaskP8 (param : Nat) (m : Mask) (maskLen rm read : Int) : P (Mask × Int) :=
  if param &&& 8 ≠ 0 then
    if maskLen - rm < 8 then
      if maskLen - rm > 0 then do
        let l ← discard (maskLen - rm)
        pure (m, read + l)
      else pure (m, read)
    else do
      let b ← readFull 8
      readMaskTail { m with vectorMaskFeather := beNat b } maskLen (rm + 8) (read + 8)
  else readMaskTail m maskLen rm read

/-- layer.go:710-721: vector mask density, then the rest. -/
def readMaskP4 (param : Nat) (m : Mask) (maskLen rm read : Int) : P (Mask × Int) :=
  if param &&& 4 ≠ 0 then
    if maskLen - rm < 1 then pure (m, read)
    else do
      let b ← readFull 1
      readMaskP8 param { m with vectorMaskDensity := beNat b } maskLen (rm + 1) (read + 1)
  else readMaskP8 param m maskLen rm read

/-- layer.go:691-709: user mask feather, then the rest. -/
def readMaskP2 (param : Nat) (m : Mask) (maskLen rm read : Int) : P (Mask × Int) :=
  if param &&& 2 ≠ 0 then
    if maskLen - rm < 8 then
      if maskLen - rm > 0 then do
        let l ← discard (maskLen - rm)
        pure (m, read + l)
      else pure (m, read)
    else do
      let b ← readFull 8
      readMaskP4 param { m with userMaskFeather := beNat b } maskLen (rm + 8) (read + 8)
  else readMaskP4 param m maskLen rm read

/-- layer.go:679-690: user mask density, then the rest. -/
def readMaskP1 (param : Nat) (m : Mask) (maskLen rm read : Int) : P (Mask × Int) :=
  if param &&& 1 ≠ 0 then
    if maskLen - rm < 1 then pure (m, read)
    else do
      let b ← readFull 1
      readMaskP2 param { m with userMaskDensity := beNat b } maskLen (rm + 1) (read + 1)
  else readMaskP2 param m maskLen rm read

/-- layer.go:592-799 `readLayerMaskAndAdjustmentLayerData`: the mask and the bytes read. -/
def readMaskData (m : Mask) : P (Mask × Int) := do
  let b ← readFull 4
  let read : Int := 4
  let maskLen : Int := beAt b 0 4
  if maskLen = 0 then pure (m, read)
  else if maskLen < 16 then
    if maskLen > 0 then do
      let l ← discard maskLen
      pure (m, read + l)
    else pure (m, read)
  else do
    let b ← readFull 16
    let read := read + 16
    let rm : Int := 16
    let m := { m with rect := rectS b }
    if maskLen - rm < 1 then pure (m, read)
    else do
      let b ← readFull 1
      let read := read + 1
      let rm := rm + 1
      let m := { m with defaultColor := beNat b }
      if maskLen - rm < 1 then pure (m, read)
      else do
        let b ← readFull 1
        let read := read + 1
        let rm := rm + 1
        let m := { m with flags := beNat b, userMaskDensity := 255, vectorMaskDensity := 255 }
        if m.flags &&& 16 ≠ 0 then
          if maskLen - rm < 1 then pure (m, read)
          else do
            let b ← readFull 1
            readMaskP1 (beNat b) m maskLen (rm + 1) (read + 1)
        else readMaskTail m maskLen rm read

/-- layer.go:813-818: skip bytes until an '8' or until `infoLen` bytes are read; returns the last
byte read and the new `read`. -/
def scanSig (infoLen : Int) : (fuel : Nat) → (b0 : UInt8) → (read : Int) → P (UInt8 × Int)
  | fuel, b0, read =>
    if read < infoLen ∧ b0 ≠ 0x38 then
      match fuel with
      | 0 => P.outOfFuel
      | fuel + 1 => do
        let b ← readFull 1
        scanSig infoLen fuel (b.headD 0) (read + 1)
    else pure (b0, read)

/-- layer.go:809-864: the loop of `readAdditionalLayerInfo`. `li` is the nested `readLayerInfo`,
`bound` the recursion bound of the inner scan. -/
def addlLoop (li : P (Option (List LayerRec) × Int)) (psb : Bool) (infoLen : Int) (bound : Nat) :
    (fuel : Nat) → Infos → List LayerRec → (read : Int) → P (Infos × List LayerRec × Int)
  | fuel, infos, layers, read =>
    if read < infoLen then
      match fuel with
      | 0 => P.outOfFuel
      | fuel + 1 => do
        let (b0, read) ← scanSig infoLen bound 0 read
        if b0 ≠ 0x38 then pure (infos, layers, read)
        else do
          let b ← readFull 7
          let read := read + 7
          let b := b0 :: b
          if b.take 4 ≠ sectionSignature ∧ b.take 4 ≠ sig8B64 then
            P.fail (.bad "unexpected the signature found in the additional layer information block")
          else
            let key := b.drop 4
            if key = keyLayr ∨ key = keyLr16 ∨ key = keyLr32 then do
              let (layrs, l) ← li
              addlLoop li psb infoLen bound fuel infos (layers ++ layrs.getD []) (read + l)
            else do
              let sz := lenSize key psb
              let b ← readFull sz
              let read := read + sz
              let ln := int64 (beAt b 0 sz)
              if ln > 0 then do
                let n ← P.lift (goMake ln)
                let data ← readFull n
                addlLoop li psb infoLen bound fuel (infos.set key data) layers (read + data.length)
              else addlLoop li psb infoLen bound fuel (infos.set key []) layers read
    else pure (infos, layers, read)

/-- layer.go:801-872 `readAdditionalLayerInfo`. The layers slice is nil exactly when the list is
empty (`append(nil, xs...)`). -/
def readAdditionalWith (li : P (Option (List LayerRec) × Int)) (psb : Bool) (infoLen : Int)
    (bound : Nat) : P (Infos × List LayerRec × Int) := do
  let (infos, layers, read) ← addlLoop li psb infoLen bound bound GoMap.empty [] 0
  if infoLen ≠ read then P.fail (.bad "additional layer info read size mismatched")
  else pure (infos, layers, read)

/-- layer.go:517-590 `readLayerExtraData`; `addl` is `readAdditionalLayerInfo`. -/
def readLayerExtraData (addl : Int → P (Infos × List LayerRec × Int)) (layer : LayerRec) :
    P (LayerRec × Int) := do
  let b ← readFull 4
  let read : Int := 4
  let extraDataLen : Int := beAt b 0 4
  if extraDataLen = 0 then pure (layer, read)
  else do
    let (mask, l) ← readMaskData layer.mask
    let read := read + l
    let b ← readFull 4
    let read := read + 4
    let brl : Int := beAt b 0 4
    let l ← (if brl > 0 then discard brl else pure 0)
    let read := read + l
    let (name, l) ← readPascalString
    let read := read + l
    let l ← adjustAlign4 l
    let read := read + l
    let (infos, layers, l) ← (if read < extraDataLen + 4 then addl (extraDataLen + 4 - read)
      else pure (GoMap.empty, [], 0))
    let read := read + l
    if layers ≠ [] then P.fail (.bad "unexpected layer structure")
    else if extraDataLen + 4 ≠ read then
      P.fail (.bad "layer extra info read size mismatched")
    else pure ({ layer with mask := mask, mbcsName := name, infos := infos }, read)

/-- layer.go:335-344: the channel list of a layer record. -/
def readChannelList (intSize : Nat) : (n : Nat) → P (List ChannelData)
  | 0 => pure []
  | n + 1 => do
    let b ← readFull (2 + intSize)
    let rest ← readChannelList intSize n
    pure (⟨int16 (beAt b 0 2), int64 (beAt b 2 intSize)⟩ :: rest)

/-- layer.go:364-389: evaluate the unicode name, clbl and section divider blocks of a layer. -/
def finishRecord (layer : LayerRec) : Res LayerRec := do
  let layer ← (match layer.infos keyLuni with
    | some (d :: ds) => do
      let u ← readUnicodeString (d :: ds)
      Res.ok { layer with unicodeName := u, name := u, infos := layer.infos.del keyLuni }
    | _ => Res.ok { layer with name := layer.mbcsName })
  let layer := (match layer.infos keyClbl with
    | some (d :: _) =>
      { layer with blendClippedElements := d ≠ 0, infos := layer.infos.del keyClbl }
    | _ => { layer with blendClippedElements := true })
  let (typ, bm, sub) ← readSectionDividerSetting layer.infos
  .ok { layer with
    sdType := typ
    sdBlendMode := if bm = [] then layer.blendMode else bm
    sdSubType := sub
    infos := layer.infos.del keyLsct }

/-- layer.go:309-420: one layer record: the layer, its channel list and the bytes read. -/
def readLayerRecord (addl : Int → P (Infos × List LayerRec × Int)) (psb : Bool) (i : Nat) :
    P (LayerRec × List ChannelData × Int) := do
  let intSize := get4or8 psb
  let b ← readFull 16
  let read : Int := 16
  let rect := rectS b
  let b ← readFull 2
  let read := read + 2
  let numChannels := beAt b 0 2
  let chs ← readChannelList intSize numChannels
  let read := read + numChannels * (2 + intSize)
  let b ← readFull 12
  let read := read + 12
  if b.take 4 ≠ sectionSignature then P.fail (.bad "unexpected the blend mode signature")
  else do
    let layer : LayerRec :=
      { seqID := i, rect := rect, blendMode := (b.drop 4).take 4, opacity := (b.drop 8).headD 0,
        clipping := (b.drop 9).headD 0 ≠ 0, flags := (b.drop 10).headD 0 }
    let (layer, l) ← readLayerExtraData addl layer
    let read := read + l
    let layer ← P.lift (finishRecord layer)
    pure (layer, chs, read)

/-- layer.go:309-420: the loop over `n` layer records starting with number `i`. -/
def readLayerRecords (addl : Int → P (Infos × List LayerRec × Int)) (psb : Bool) :
    (n i : Nat) → P (List (LayerRec × List ChannelData) × Int)
  | 0, _ => pure ([], 0)
  | n + 1, i => do
    let (layer, chs, l) ← readLayerRecord addl psb i
    let (rest, l') ← readLayerRecords addl psb n (i + 1)
    pure ((layer, chs) :: rest, l + l')

/-- layer.go:463-471: the rectangle of a channel. -/
def channelRect (layer : LayerRec) (ch : Int) : Rect :=
  if ch = -3 then layer.mask.realRect
  else if ch = -2 then layer.mask.rect
  else layer.rect

/-- layer.go:472, psd.go:242: bytes of one plane, `(dx*depth+7)>>3*dy` in 64-bit arithmetic. -/
def planeSize (rect : Rect) (depth : Nat) : Int :=
  wrap64 ((rect.dx * depth + 7) / 8 * rect.dy)

/-- layer.go:476-490: the picture data of one channel after the compression method: decoding it
into `n` zero bytes and skipping what is left of the declared length.  Returns the data and
`readCh`, which is `read0` on entry. -/
def readChannelData (env : Env) (method : Int) (n : Nat) (dataLen read0 : Int) (rect : Rect)
    (depth : Nat) (psb : Bool) : P (List UInt8 × Int) := do
  let (data, l) ← (if dataLen > 2 then
      cmDecode env method (List.replicate n 0) (dataLen - 2) rect depth 1 psb
    else pure (List.replicate n 0, 0))
  let readCh := read0 + l
  let l ← (if readCh < dataLen then discard (dataLen - readCh) else pure 0)
  pure (data, readCh + l)

/-- layer.go:463-504: one channel of a layer after reading its compression method (`readCh`: bytes
read so far): the new channel map, the updated `pickerChs` and the bytes read. -/
def readChannelBody (env : Env) (cfg : Config) (layer : LayerRec) (ch : ChannelData)
    (chMap : GoMap Int Channel) (pickerChs : List (List UInt8)) (method readCh : Int) :
    P (GoMap Int Channel × List (List UInt8) × Int) := do
  let rect := channelRect layer ch.chIndex
  let n ← P.lift (goMake (planeSize rect cfg.depth))
  let pk ← P.lift (match findGrayPicker cfg.depth with
    | none => Res.panic .nilDeref
    | some k => Res.ok k)
  let (data, readCh) ← readChannelData env method n ch.dataLen readCh rect cfg.depth cfg.psb
  if readCh ≠ ch.dataLen then P.fail (.bad "layer channel read size mismatched")
  else do
    let pk ← P.lift (pk.setSource rect [data])
    let chMap := chMap.set ch.chIndex ⟨data, pk⟩
    if ch.chIndex ≥ 0 then do
      -- pickerChs[j.ChIndex] = data
      let _ ← P.lift (goIndex pickerChs ch.chIndex.toNat)
      pure (chMap, pickerChs.set ch.chIndex.toNat data, readCh)
    else if ch.chIndex = -1 then pure (chMap, pickerChs ++ [data], readCh)
    else pure (chMap, pickerChs, readCh)

/-- layer.go:447-505: one channel of a layer.  A channel of less than two bytes has no compression
method (the code then looks at a stale one, but does not use it). -/
def readChannelImage (env : Env) (cfg : Config) (layer : LayerRec) (ch : ChannelData)
    (chMap : GoMap Int Channel) (pickerChs : List (List UInt8)) :
    P (GoMap Int Channel × List (List UInt8) × Int) :=
  if ch.dataLen ≥ 2 then do
    let b ← readFull 2
    readChannelBody env cfg layer ch chMap pickerChs (int16 (beAt b 0 2)) 2
  else readChannelBody env cfg layer ch chMap pickerChs 0 0

/-- layer.go:447-505: the loop over the channels of a layer. -/
def readChannelImages (env : Env) (cfg : Config) (layer : LayerRec) :
    (chs : List ChannelData) → GoMap Int Channel → List (List UInt8) →
    P (GoMap Int Channel × List (List UInt8) × Int)
  | [], m, pcs => pure (m, pcs, 0)
  | ch :: chs, m, pcs => do
    let (m, pcs, l) ← readChannelImage env cfg layer ch m pcs
    let (m, pcs, l') ← readChannelImages env cfg layer chs m pcs
    pure (m, pcs, l + l')

/-- layer.go:441-515 `readLayerImage`: the layers with their pictures, and the bytes read. `i` is
the index of the first layer of the list, `total` the number of all layers. -/
def readLayerImages (env : Env) (cfg : Config) (o : Options) (total : Nat) :
    (i : Nat) → List (LayerRec × List ChannelData) → P (List LayerRec × Int)
  | _, [] => pure ([], 0)
  | i, (layer, chs) :: rest => do
    -- make([][]byte, cfg.ColorMode.Channels(), 8)
    let n ← P.lift (goMake cfg.colorMode.channels)
    let (chMap, pickerChs, l) ← readChannelImages env cfg layer chs GoMap.empty
      (List.replicate n [])
    let pk ← P.lift (match findPicker cfg.depth cfg.colorMode
        (cfg.colorMode.channels < pickerChs.length) with
      | none => Res.panic .nilDeref
      | some k => k.setSource layer.rect pickerChs)
    let layer := { layer with picker := some pk, channel := chMap }
    let _ ← (if o.layerImageLoaded then P.emit ⟨layer.seqID, i, total⟩ else pure ())
    let (layers, l') ← readLayerImages env cfg o total (i + 1) rest
    pure (layer :: layers, l + l')

/-- layer.go:271-439 `readLayerInfo`; `none` is the nil slice. -/
def readLayerInfoWith (env : Env) (cfg : Config) (o : Options)
    (addl : Int → P (Infos × List LayerRec × Int)) : P (Option (List LayerRec) × Int) := do
  let intSize := get4or8 cfg.psb
  let b ← readFull intSize
  let read : Int := intSize
  let layerInfoLen := int64 (beAt b 0 intSize)
  if layerInfoLen = 0 then pure (none, read)
  else do
    let b ← readFull 2
    let read := read + 2
    let raw := beAt b 0 2
    -- numLayers&0x8000 != 0: numLayers = ^numLayers + 1 in uint16 arithmetic
    let numLayers := if raw ≥ 0x8000 then (0x10000 - raw) % 0x10000 else raw
    let (recs, l) ← readLayerRecords addl cfg.psb numLayers 0
    let read := read + l
    let (layers, l) ← (if o.skipLayerImage then pure (recs.map (·.1), 0)
      else readLayerImages env cfg o recs.length 0 recs)
    let read := read + l
    let l ← (if wrap64 (layerInfoLen + intSize) > read then
        discard (wrap64 (layerInfoLen + intSize) - read)
      else pure 0)
    pure (some layers, read + l)

mutual
/-- layer.go:271-439 `readLayerInfo` with recursion depth bound `fuel`. -/
def readLayerInfo (env : Env) (cfg : Config) (o : Options) :
    (fuel : Nat) → P (Option (List LayerRec) × Int)
  | 0 => P.outOfFuel
  | fuel + 1 => readLayerInfoWith env cfg o (readAdditionalLayerInfo env cfg o fuel)

/-- layer.go:801-872 `readAdditionalLayerInfo` with recursion bound `fuel`, which also bounds its
loops. -/
def readAdditionalLayerInfo (env : Env) (cfg : Config) (o : Options) :
    (fuel : Nat) → (infoLen : Int) → P (Infos × List LayerRec × Int)
  | 0, _ => P.outOfFuel
  | fuel + 1, infoLen =>
    readAdditionalWith (readLayerInfo env cfg o fuel) cfg.psb infoLen (fuel + 1)
end

/-- psd.go:131-139 `PSD`. -/
structure PSD where
  config : Config
  channel : GoMap Int Channel := GoMap.empty
  layer : List (LTree LayerRec) := []
  infos : Infos := GoMap.empty
  data : List UInt8 := []
  picker : Option Picker := none

/-- layer.go:139-157: the global layer mask info; bytes read. -/
def readGlobalMask (remain : Int) : P Int :=
  if remain ≥ 4 then do
    let b ← readFull 4
    let g : Int := beAt b 0 4
    if g > 0 then do
      let l ← discard g
      pure (4 + l)
    else pure 4
  else pure 0

/-- layer.go:104-191 `readLayerAndMaskInfo`. -/
def readLayerAndMaskInfo (env : Env) (cfg : Config) (o : Options) (fuel : Nat) :
    P (PSD × Int) := do
  let intSize := get4or8 cfg.psb
  let b ← readFull intSize
  let read : Int := intSize
  let lmLen := int64 (beAt b 0 intSize)
  if lmLen = 0 then pure ({ config := cfg }, read)
  else do
    let total := wrap64 (lmLen + intSize)
    let (layer, l) ← (if read < total then readLayerInfo env cfg o fuel else pure (none, 0))
    let read := read + l
    let l ← readGlobalMask (wrap64 (total - read))
    let read := read + l
    let (infos, layer2, l) ← (if wrap64 (total - read) ≥ 8 then
        readAdditionalLayerInfo env cfg o fuel (wrap64 (total - read))
      else pure (GoMap.empty, [], 0))
    let read := read + l
    if layer.isSome ∧ layer2 ≠ [] then P.fail (.bad "unexpected layer structure")
    else do
      let layers := if layer2 ≠ [] then layer2 else layer.getD []
      let tree ← P.lift (buildTree LayerRec.sdType layers)
      let remain := wrap64 (total - read)
      let l ← (if remain ≠ 0 ∧ remain < intSize then discard remain else pure 0)
      let read := read + l
      if read ≠ total then P.fail (.bad "layer and mask info read size mismatched")
      else pure ({ config := cfg, layer := tree, infos := infos }, read)

end Psd
