import Verif.Model.Load
import Verif.Model.Renderer

/-!
# What the renderer finds in a loaded tree
-/

namespace Psd

/-- composite/layerimage.go:324-328: the pixels of a tile, an `*image.NRGBA` whose stride is four times its width. -/
def nrgbaTile (pix : List UInt8) : Tile := fun i => ⟨pix.getD (i * 4) 0, pix.getD (i * 4 + 1) 0, pix.getD (i * 4 + 2) 0, pix.getD (i * 4 + 3) 0⟩

/-- composite/layerimage.go:513-517: the values of a tile of a mask, an `*image.Alpha` whose stride is its width. -/
def alphaTile (pix : List UInt8) : Nat → UInt8 := fun i => pix.getD i 0

/-- composite/renderer.go:356 `r.tree.layerImage[l.SeqID]`. -/
def LayerTree.image (t : LayerTree) : Int → Option LayerImage
  | .ofNat k => t.images k
  | .negSucc _ => none

/-- The tree as the renderer sees it. -/
def LayerTree.scene (t : LayerTree) : Scene Tile (Nat → UInt8) where
  h := t.heap
  root := rootPtr
  canvas id := (t.image id).bind fun img => img.canvas.map (·.map fun e => (e.1, nrgbaTile e.2))
  mask id := (((t.image id).bind LayerImage.mask).getD []).map fun e => (e.1, alphaTile e.2)

end Psd
