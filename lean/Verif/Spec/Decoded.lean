import Verif.Spec.File
import Verif.Props.Tree

/-
What a caller of the decoder gets for the abstract contents of a file: the values of the library's
types (as they are modelled) that stand for the rectangles, masks, layers and documents of
`Spec/Document.lean` and `Spec/File.lean`.
-/

namespace Psd
open Spec (rowLen modeColors lastBlock num field Box MaskSpec InfoBlock Picture Layer LayerSection LayerMask Doc lastInfo numberAll mapAll)

/-- The environment is one in which the document's ZIP pictures are what they stand for, on a machine
with at least one processor. -/
def Env.Reads (env : Env) (d : Doc) : Prop := 1 ≤ env.procs ∧ d.Inflates env.inflate

instance Env.decReads (env : Env) (d : Doc) : Decidable (env.Reads d) :=
  inferInstanceAs (Decidable (_ ∧ _))

/-- A rectangle. -/
def rectOf (b : Box) : Rect := ⟨b.left, b.top, b.right, b.bottom⟩

/-- Mask data. Densities default to 255, feathers to 0. -/
def maskMeaning : MaskSpec → Mask
  | .absent => {}
  | .short r c f _ _ =>
    { rect := rectOf r, defaultColor := c.toNat, flags := f.toNat,
      userMaskDensity := 255, vectorMaskDensity := 255 }
  | .full r c f ps rf rc rr =>
    { rect := rectOf r, defaultColor := c.toNat, flags := f.toNat,
      realRect := rectOf rr, realBackgroundColor := rc.toNat, realFlags := rf.toNat,
      userMaskDensity := ((ps.bind (·.userDensity)).getD 255).toNat,
      userMaskFeather := (ps.bind (·.userFeather)).getD 0,
      vectorMaskDensity := ((ps.bind (·.vectorDensity)).getD 255).toNat,
      vectorMaskFeather := (ps.bind (·.vectorFeather)).getD 0 }
  | .block b =>
    { rect := rectOf (Spec.MaskBlock.box b), defaultColor := Spec.MaskBlock.color b, flags := Spec.MaskBlock.flags b,
      realRect := rectOf (Spec.MaskBlock.realBox b), realBackgroundColor := Spec.MaskBlock.realColor b,
      realFlags := Spec.MaskBlock.realFlags b,
      userMaskDensity := Spec.MaskBlock.userDensity b, userMaskFeather := Spec.MaskBlock.userFeather b,
      vectorMaskDensity := Spec.MaskBlock.vectorDensity b, vectorMaskFeather := Spec.MaskBlock.vectorFeather b }

/-- The blocks found in a layer's info map: all but the ones the decoder has evaluated (luni, clbl
and lsct). -/
def infosOf (bs : List InfoBlock) : Infos := fun k =>
  if k = keyLuni ∨ k = keyClbl ∨ k = keyLsct then none else lastInfo bs k

/-- The layer without its pictures, as number `i`. -/
def layerMeaning (i : Nat) (l : Layer) : LayerRec where
  seqID := i
  name := match l.unicode with | some t => Spec.utf8 t | none => l.name
  unicodeName := match l.unicode with | some t => Spec.utf8 t | none => []
  mbcsName := l.name
  rect := rectOf l.rect
  blendMode := l.blend
  opacity := l.opacity
  clipping := l.clipping ≠ 0
  blendClippedElements := l.clbl.getD true
  flags := l.flags
  mask := maskMeaning l.mask
  infos := infosOf l.blocks
  sdType := l.kind
  sdBlendMode := match l.divider with | some ⟨_, some (bm, _)⟩ => bm | _ => l.blend
  sdSubType := match l.divider with | some ⟨_, some (_, some s)⟩ => s | _ => 0

/-- The kind of a single-channel picture. -/
def grayKind (depth : Nat) : PickerKind := if depth = 1 then .gray1 else .gray (depth / 8)

/-- The channels of a layer, each with its own picture of its own rectangle. -/
def channelsMeaning (depth : Nat) (l : Layer) : GoMap Int Channel := fun id =>
  (l.lastChannel id).map fun p => ⟨p.plane, { kind := grayKind depth, rect := rectOf (l.boxOf id), src := [p.plane] }⟩

/-- The picture of a layer: its colour channels, and its transparency channel if it has one. -/
def pictureMeaning (colors depth : Nat) (l : Layer) : Picker :=
  { kind := .planes colors (depth / 8) (l.channels.any fun c => c.1 = -1)
    rect := rectOf l.rect
    src := ((List.range colors).map fun (j : Nat) => match l.lastChannel j with | some p => p.plane | none => []) ++
      ((l.channels.filter fun c => c.1 = -1).map fun c => c.2.plane).take 1 }

/-- The layer with its pictures. -/
def layerFull (colors depth : Nat) (i : Nat) (l : Layer) : LayerRec :=
  { layerMeaning i l with
    channel := channelsMeaning depth l
    picker := some (pictureMeaning colors depth l) }

/-- The layer tree of a document, with or without the pictures.  Records are numbered from 0 in
each section. -/
def treeMeaning (skip : Bool) (colors depth : Nat) (ss : List LayerSection) : List (LTree LayerRec) :=
  treesOf (ss.flatMap fun s => mapAll
    (fun p : Nat × Layer => if skip then layerMeaning p.1 p.2 else layerFull colors depth p.1 p.2)
    (numberAll 0 s.forest))

/-- The calls of `LayerImageLoaded`: for each layer section, one for each of its records in file
order, with its number, its index and the number of records. -/
def eventsMeaning (ss : List LayerSection) : List Event :=
  ss.flatMap fun s => (List.range s.layers.length).map fun j => ⟨j, j, s.layers.length⟩

/-- The configuration. -/
def configMeaning (d : Doc) : Config where
  version := d.header.version
  rect := ⟨0, 0, d.header.width, d.header.height⟩
  channels := d.header.channels
  depth := d.header.depth
  colorMode := d.header.mode
  colorModeData := d.header.colorData
  res := fun id => (lastBlock d.resources id).map fun r => ⟨r.name, r.data⟩

/-- Channel `i` of the merged picture. -/
def mergedPlane (d : Doc) (i : Nat) : List UInt8 :=
  (d.merged.plane.drop (rowLen d.header.depth d.header.width * d.header.height * i)).take
    (rowLen d.header.depth d.header.width * d.header.height)

/-- The channels of the merged picture. -/
def docChannels (d : Doc) : GoMap Int Channel := fun id =>
  if 0 ≤ id ∧ id < d.header.channels then
    some ⟨mergedPlane d id.toNat, { kind := grayKind d.header.depth, rect := (configMeaning d).rect,
                                    src := [mergedPlane d id.toNat] }⟩
  else none

/-- The colour table of an indexed document: 256 red values, then green, then blue; the transparent
index of resource 0x417, if any, has alpha 0. -/
def docPalette (d : Doc) : List (UInt8 × UInt8 × UInt8 × UInt8) :=
  (List.range 256).map fun i =>
    (d.header.colorData[i]?.getD 0, d.header.colorData[i + 256]?.getD 0, d.header.colorData[i + 512]?.getD 0,
      if (lastBlock d.resources 0x417).map (fun r => num (field r.data 0 2)) = some i then 0 else 255)

/-- The merged picture: indexed (mode 2), bitmap (mode 0), or colour planes and perhaps alpha. -/
def docPicture (d : Doc) : Picker where
  kind := if d.header.mode = 2 then .palette else if d.header.mode = 0 then .gray1
    else .planes (modeColors d.header.mode) (d.header.depth / 8) d.alpha
  rect := (configMeaning d).rect
  src := (List.range (modeColors d.header.mode +
    (if d.header.mode ≠ 2 ∧ d.header.mode ≠ 0 ∧ d.alpha then 1 else 0))).map (mergedPlane d)
  palette := if d.header.mode = 2 then docPalette d else []

/-- The document without its merged picture. -/
def docLayers (skipLayerImage : Bool) (d : Doc) : PSD where
  config := configMeaning d
  layer := treeMeaning skipLayerImage (modeColors d.header.mode) d.header.depth d.sections
  infos := lastInfo d.infoBlocks

/-- The document as it is returned. -/
def docMeaning (skipLayerImage skipMergedImage : Bool) (d : Doc) : PSD :=
  if skipMergedImage then docLayers skipLayerImage d
  else { docLayers skipLayerImage d with
    data := d.merged.plane
    channel := docChannels d
    picker := some (docPicture d) }

end Psd
