import Verif.Spec.FileColours
import Verif.Lemmas.FilePicture
import Verif.Props.Front

/-!
# Two files with the same layers in other colours, and the pictures of a file
-/

namespace Psd
open Spec (Layer LayerSection Doc)

namespace Spec

/-- The blend mode of a layer is that of its record, with normal mode for "pass"; that of a folder is in its section divider, if there is one there. -/
def Layer.blendKey (l : Layer) : List UInt8 :=
  if l.kind = 1 ∨ l.kind = 2 then l.folderBlend else if l.blend = ascii "pass" then ascii "norm" else l.blend

/-- `l'` is the layer `l` in other colours: as opaque at every pixel, with the same opacity, visibility, clipping and mask. Its blend mode, its name, its rectangle and how its channels are stored may be others. -/
structure Layer.Recoloured (l l' : Layer) : Prop where
  kind : l'.kind = l.kind
  opacity : l'.opacity = l.opacity
  visible : l'.flags.toNat / 2 % 2 = l.flags.toNat / 2 % 2
  clipping : l'.clipping = 0 ↔ l.clipping = 0
  clbl : l'.clbl.getD true = l.clbl.getD true
  mask : l'.mask = l.mask
  veil : ∀ x y, l'.veil x y = l.veil x y
  alpha : ∀ x y, (l'.colour x y).map Px.a = (l.colour x y).map Px.a

/-- `l'` is the layer `l` with another picture: with the same opacity, visibility, clipping and mask. Its blend mode, its name, its rectangle and how its channels are stored may be others. -/
structure Layer.Repainted (l l' : Layer) : Prop where
  kind : l'.kind = l.kind
  opacity : l'.opacity = l.opacity
  visible : l'.flags.toNat / 2 % 2 = l.flags.toNat / 2 % 2
  clipping : l'.clipping = 0 ↔ l.clipping = 0
  clbl : l'.clbl.getD true = l.clbl.getD true
  mask : l'.mask = l.mask
  veil : ∀ x y, l'.veil x y = l.veil x y

/-- Something of the layer is visible in the tile of `(x, y)`. -/
def Layer.InTile (l : Layer) (ts : Nat) (x y : Int) : Prop := ∃ x' y', SharedTile ts x y x' y' ∧ l.colour x' y' ≠ none

/-- The layer is fully opaque or fully transparent at `(x, y)`. -/
def Layer.HardAt (l : Layer) (x y : Int) : Prop := ∀ q, l.colour x y = some q → q.a = 255

/-- A well-formed 8-bit RGB file with these layers, which are in one section, have pictures with red, green and blue and known blend modes, and whose masks are not of their default colour everywhere on the canvas. -/
structure Doc.RgbFile (d : Doc) (layers : List Layer) : Prop where
  valid : d.Valid
  mode : d.header.mode = 3
  depth : d.header.depth = 8
  sections : ∃ sec, d.sections = [sec] ∧ sec.layers = layers
  rgb : ∀ l ∈ layers, l.Rgb
  modes : ∀ l ∈ layers, l.ModeKnown
  masks : ∀ l ∈ layers, l.MaskVaries

end Spec

/-- `picture` is what a first rendering of the tiles `visited` shows after a program has decoded the file `d` and made a tree of it with tiles of the size `ts`: with some reader that presents the file, and some number of
processors and goroutines, some schedule, and some picture to draw on. -/
def FirstPicture (d : Doc) (layers : List Layer) (ts : Nat) (visited : List TPt) (picture : TPt → Tile) : Prop :=
  ∃ (env : Env) (s s' : St) (psd : PSD) (n : Int) (procs workers m fuel : Nat) (t : Import) (grow : Nat → Nat) (dec : List UInt8 → Option (List UInt8)) (tree : LayerTree) (diff aborted : Bool) (dest : TPt → Tile) (st : RState Tile),
    env.Reads d ∧ PresentsFront d s ∧ decode env newOptions s = .ok ((psd, n), s') ∧ 1 ≤ procs ∧ 1 ≤ ts ∧ 1 ≤ workers ∧
    ImportRun procs ts (Import.start workers (rgbLayers layers)) t ∧ t.Done ∧ layers.length ≤ m ∧ finishNew grow dec m psd.config.rect t = .ok tree ∧
    2 * m ≤ fuel ∧ visited.Nodup ∧ render tileOps tree.scene fuel diff aborted visited .empty dest = .ok (st, picture)

end Psd
