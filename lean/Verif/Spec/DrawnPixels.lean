import Verif.Spec.Draw
import Verif.Spec.PorterDuff

/-!
# The pixels of images in memory

Vocabulary for C47 and C137, from the layout Go's image package documents.
-/

namespace Psd

/-- The pixel `(x, y)` of an RGBA or NRGBA image: four bytes in the order red, green, blue, alpha. -/
def Raw.fourAt (im : Raw) (m : Mem Addr UInt8) (x y : Int) : Px :=
  let byte (k : Int) : UInt8 := m (im.pix.buf, im.pix.base + ((y - im.rect.minY) * im.stride + (x - im.rect.minX) * 4 + k))
  ⟨byte 0, byte 1, byte 2, byte 3⟩

/-- The pixel `(x, y)` of an alpha image: one byte. -/
def Raw.oneAt (im : Raw) (m : Mem Addr UInt8) (x y : Int) : UInt8 :=
  m (im.pix.buf, im.pix.base + ((y - im.rect.minY) * im.stride + (x - im.rect.minX)))

/-- The pixel `(x, y)` of an image of one of Go's types. -/
def DImg.holds (m : Mem Addr UInt8) (x y : Int) : DImg → Option PDSrc
  | .four k im => some (.px k (im.fourAt m x y))
  | .alpha im => some (.alpha (im.oneAt m x y))
  | .uniform c => some (.uniform c)
  | .other _ => none

/-- How opaque a pixel is, from 0 to 65535. -/
def PDSrc.opaqueness : PDSrc → Nat
  | .px _ p => p.a.toNat * 257
  | .alpha a => a.toNat * 257
  | .uniform c => c.a.toNat

/-- The same image as a value of a type of its own: it has the same bounds and pixels, but its type does not show what it is. -/
def DImg.hidden (im : DImg) : DImg := .other ⟨im.bounds, im.cells, im.dec, im.enc⟩

end Psd
