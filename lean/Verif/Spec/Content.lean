import Verif.Spec.File

/-
Independent specification of what a document contains, as opposed to how it is written down: its
contents are what is left when the choices of whoever wrote the file are taken away (version of the
container, compression of the pictures, padding, unused bytes, signatures, sign of the layer count,
place of the layer section).
-/

namespace Psd.Spec

/-- A block's key and data. -/
def InfoBlock.content (b : InfoBlock) : List UInt8 × List UInt8 := (b.key, b.data)

/-- A resource's ID, name and data. -/
def ResBlock.content (r : ResBlock) : Nat × List UInt8 × List UInt8 := (r.id, r.name, r.data)

/-- The mask without the two padding bytes of its short form. -/
def MaskSpec.content : MaskSpec → MaskSpec
  | .absent => .absent
  | .short r c f _ _ => .short r c f 0 0
  | .full r c f ps rf rc rr => .full r c f ps rf rc rr
  | .block b => .block b

/-- What a layer contains. -/
structure LayerContent where
  rect : Box
  channels : List (Int × List UInt8)
  blend : List UInt8
  opacity : UInt8
  clipping : Bool
  flags : UInt8
  mask : MaskSpec
  name : List UInt8
  blocks : List (List UInt8 × List UInt8)
  unicode : Option (List Char)
  clbl : Option Bool
  divider : Option Divider
  deriving DecidableEq, Repr

/-- The contents of a layer record: without compression, padding and blending ranges. -/
def Layer.content (l : Layer) : LayerContent where
  rect := l.rect
  channels := l.channels.map fun c => (c.1, c.2.plane)
  blend := l.blend
  opacity := l.opacity
  clipping := l.clipping ≠ 0
  flags := l.flags
  mask := l.mask.content
  name := l.name
  blocks := l.blocks.map InfoBlock.content
  unicode := l.unicode
  clbl := l.clbl
  divider := l.divider

/-- What a document contains. -/
structure Content where
  channels : Nat
  height : Nat
  width : Nat
  depth : Nat
  mode : Int
  colorData : List UInt8
  resources : List (Nat × List UInt8 × List UInt8)
  layers : List (List (Node LayerContent))
  blocks : List (List UInt8 × List UInt8)
  merged : List UInt8

/-- The contents of a document.  The layers are those of all layer sections, wherever they are. -/
def Doc.content (d : Doc) : Content where
  channels := d.header.channels
  height := d.header.height
  width := d.header.width
  depth := d.header.depth
  mode := d.header.mode
  colorData := d.header.colorData
  resources := d.resources.map ResBlock.content
  layers := d.sections.map fun s => mapAll Layer.content s.forest
  blocks := d.infoBlocks.map InfoBlock.content
  merged := d.merged.plane

end Psd.Spec
