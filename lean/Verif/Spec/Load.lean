import Verif.Model.Load
import Verif.Spec.TileStore

/-!
# What loading a document should do
-/

namespace Psd

/-- `img` is what loading the layer `l` on its own gives. -/
def LoadsTo (procs ts : Nat) (l : LayerRec) (img : LayerImage) : Prop :=
  loadCanvas procs ts l = .ok img.canvas ∧ loadMask procs ts l = .ok img.mask

/-- The layer with the rectangles that the goroutine that loads it writes back: those of the tiles. -/
def retiled (ts : Nat) (img : LayerImage) (l : LayerRec) : LayerRec := setMaskRect ts img.mask (setRect ts img.canvas l)

/-- The `k` bytes that tiles of side `ts` hold for the pixel `(x, y)`: zeros where there is no tile. -/
def tilePixel (ts k : Nat) (m : TileMap) (x y : Int) : List UInt8 :=
  match m.lookup (x / ts * ts, y / ts * ts) with
  | some pix => (pix.drop (((y % ts).toNat * ts + (x % ts).toNat) * k)).take k
  | none => List.replicate k 0

/-- The layer has a picture. -/
def LayerRec.Pictured (l : LayerRec) : Prop := l.hasImage = true ∧ l.rect.empty = false

/-- The layer's picture has red, green and blue. -/
def LayerRec.Coloured (l : LayerRec) : Prop := l.Pictured → ∀ id ∈ [(0 : Int), 1, 2], (l.channel id).isSome = true

/-- The channels of the picture and of the mask have at least a byte for every pixel. -/
structure LayerRec.Filled (l : LayerRec) : Prop where
  picture : ∀ id c, id ≠ -2 → id ≠ -3 → l.channel id = some c → l.rect.dx * l.rect.dy ≤ (c.data.length : Int)
  mask : ∀ c, l.channel (-2) = some c → l.mask.rect.dx * l.mask.rect.dy ≤ (c.data.length : Int)

/-- The left and the upper edge are not negative or lie on the tile grid. -/
def Rect.OnGrid (ts : Nat) (r : Rect) : Prop := (0 ≤ r.minX ∨ (ts : Int) ∣ r.minX) ∧ (0 ≤ r.minY ∨ (ts : Int) ∣ r.minY)

end Psd
