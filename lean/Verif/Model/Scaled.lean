import Verif.Model.Resample

/-!
# Loading with a matrix

`New` of /repo/composite/layer.go with `Options.TransformMatrix` and `Options.Gamma`: what becomes of one layer. How the goroutines share the
layers out is in `Verif.Model.Load`, which has the default matrix; `loadCanvasAt_identity` and `loadMaskAt_identity` connect the two.
-/

namespace Psd

/-- layer.go:197-202: the matrix that `New` uses for `opt.TransformMatrix`. -/
def newMatrix (m : Aff3) : Aff3 :=
  let m := if m.m0 = 0 then { m with m0 := 1 } else m
  if m.m4 = 0 then { m with m4 := 1 } else m

/-- layer.go:291-303: the picture of a layer, `none` if it has none. -/
def loadCanvasAt (R : Resampler) (procs ts : Nat) (m : Aff3) (gt : Option GammaTable) (l : LayerRec) : Res (Option TileMap) :=
  if l.hasImage && !l.rect.empty then do
    let t ← newScaledTiledImage R procs ts l.rect (l.dataOf 0) (l.dataOf 1) (l.dataOf 2) ((l.channel (-1)).map Channel.data) 1 m gt
    .ok (some t)
  else .ok none

/-- layer.go:304-313: the mask of a layer. -/
def loadMaskAt (R : Resampler) (procs ts : Nat) (m : Aff3) (l : LayerRec) : Res (Option TileMap) :=
  if !l.mask.rect.empty then
    match l.channel (-2) with
    | some c => do
      let t ← newScaledTiledMask R procs ts l.mask.rect c.data (UInt8.ofNat l.mask.defaultColor) m
      .ok (some t)
    | none => .ok none
  else .ok none

end Psd
