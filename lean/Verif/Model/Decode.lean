import Verif.Model.Layer

/-
Model of `Decode` (/repo/psd.go:207-284).
-/

namespace Psd

/-- psd.go:246-255: the per-channel planes of the merged picture as (Channel index, plane). -/
def mergedPlanes (data : List UInt8) (plane : Nat) : (n i : Nat) → List (List UInt8)
  | 0, _ => []
  | n + 1, i => (data.drop (plane * i)).take plane :: mergedPlanes data plane n (i + 1)

/-- psd.go:245-255: the channel map. -/
def mergedChannels (k : PickerKind) (rect : Rect) : (planes : List (List UInt8)) → (i : Nat) →
    GoMap Int Channel
  | [], _ => GoMap.empty
  | p :: ps, i =>
    fun j => if j = (i : Int) then some ⟨p, { kind := k, rect := rect, src := [p] }⟩
      else mergedChannels k rect ps (i + 1) j

/-- psd.go:239-282: the merged image.  The planes and pickers are slices of `psd.Data`, which is
filled afterwards; the model builds them from the final contents.  The order of possible failures
is that of the code: picker selection, its `setSource`, then reading. -/
def readMerged (env : Env) (cfg : Config) (psd : PSD) : P (PSD × Int) := do
  let plane := (cfg.rect.dx.toNat * cfg.depth + 7) / 8 * cfg.rect.dy.toNat
  let gk ← P.lift (match findGrayPicker cfg.depth with
    | none => Res.panic .nilDeref
    | some k => Res.ok k)
  let (k, pal) ← P.lift cfg.makePicker
  let _ ← P.lift (k.setSource cfg.rect (List.replicate cfg.channels []))
  let b ← readFull 2
  let method := int16 (beAt b 0 2)
  let (data, l) ← cmDecode env method (List.replicate (plane * cfg.channels) 0) 0 cfg.rect
    cfg.depth cfg.channels cfg.psb
  let planes := mergedPlanes data plane cfg.channels 0
  pure ({ psd with
          data := data
          channel := mergedChannels gk cfg.rect planes 0
          picker := some { kind := k, rect := cfg.rect, src := planes.take k.arity,
                           palette := pal } },
        2 + l)

/-- psd.go:217-284 `Decode`.  The recursion bound of the layer parser is the number of input
bytes. -/
def decode (env : Env) (o : Options) : P (PSD × Int) := fun s =>
  (do
    let (cfg, read) ← decodeConfig
    if o.rejects cfg then P.fail .user
    else do
      let (psd, l) ← readLayerAndMaskInfo env cfg o (2 * s.data.length + 4)
      let read := read + l
      if o.skipMergedImage then pure (psd, read)
      else do
        let (psd, l) ← readMerged env cfg psd
        pure (psd, read + l) : P _) s

end Psd
