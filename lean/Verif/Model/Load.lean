import Verif.Model.CTree
import Verif.Model.TileStore
import Verif.Model.Transform

/-!
# Loading a document into a tree

`New` and `createCanvas` of /repo/composite/layer.go. The decoder hands every layer to a goroutine as soon as its channels are read,
by a pointer into the decoder's own array. The goroutine cuts picture and mask into tiles and *writes the rectangles of the tiles back
to the layer*, while the decoder goes on and, in the end, copies the layers into the tree it returns. An execution is any interleaving.

Simplifications: the transformation is the identity (the default of `New`), the context is not cancelled (`Verif.Model.Conc` has
cancellation), and all layers come from one section of the file, so that they are numbered by their position (`C23`). Reading a rectangle or
writing it is one action.
-/

namespace Psd

/-- layerimage.go:20 `tiledImage` and 335 `tiledMask`: the entries of the map. -/
abbrev TileMap := List ((Int × Int) × List UInt8)

/-- layerimage.go:15-18 `layerImage`; `none` is a nil map. -/
structure LayerImage where
  canvas : Option TileMap := none
  mask : Option TileMap := none
  deriving DecidableEq, Repr

/-- The bounds of a tile (layerimage.go:325, 514). -/
def tileRect (ts : Nat) (p : Int × Int) : Rect := ⟨p.1, p.2, p.1 + ts, p.2 + ts⟩

/-- layerimage.go:31-37 and 337-343 `Rect`. Go visits the entries in any order (`tilesRect_perm`). -/
def tilesRect (ts : Nat) (m : TileMap) : Rect := m.foldl (fun r e => (tileRect ts e.1).union r) Rect.zero

/-- `l.Channel[id].Data`: nil if there is no such channel. -/
def LayerRec.dataOf (l : LayerRec) (id : Int) : List UInt8 :=
  match l.channel id with
  | some c => c.data
  | none => []

/-- layer.go:291-303: the picture of a layer, `none` if it has none. -/
def loadCanvas (procs ts : Nat) (l : LayerRec) : Res (Option TileMap) :=
  if l.hasImage && !l.rect.empty then do
    let t ← newTiledImage procs ts l.rect (l.dataOf 0) (l.dataOf 1) (l.dataOf 2) ((l.channel (-1)).map Channel.data) 1
    .ok (some t)
  else .ok none

/-- layer.go:304-313: the mask of a layer. -/
def loadMask (procs ts : Nat) (l : LayerRec) : Res (Option TileMap) :=
  if !l.mask.rect.empty then
    match l.channel (-2) with
    | some c => do
      let t ← newTiledMask procs ts l.mask.rect c.data (UInt8.ofNat l.mask.defaultColor)
      .ok (some t)
    | none => .ok none
  else .ok none

/-- layer.go:302 `l.Rect = ti.Rect()`. -/
def setRect (ts : Nat) (t : Option TileMap) (l : LayerRec) : LayerRec :=
  match t with
  | some t => { l with rect := tilesRect ts t }
  | none => l

/-- layer.go:311 `l.Mask.Rect = m.Rect()`. -/
def setMaskRect (ts : Nat) (t : Option TileMap) (l : LayerRec) : LayerRec :=
  match t with
  | some t => { l with mask := { l.mask with rect := tilesRect ts t } }
  | none => l

/-- layer.go:287-319: a goroutine waiting for a layer; with a layer, by its index; after line 303; after line 313. -/
inductive Importer where
  | idle
  | got (i : Nat)
  | drawn (i : Nat) (canvas : Option TileMap)
  | masked (i : Nat) (img : LayerImage)
  deriving DecidableEq, Repr

/-- What the goroutines of `createCanvas` share: the decoder's array of layers, the map of pictures, the goroutines, how many layers
have been sent to them (layer.go:274), and the layers copied so far (`buildTree`, /repo/layer.go:204-220). -/
structure Import where
  layers : List LayerRec
  images : Nat → Option LayerImage
  workers : List Importer
  sent : Nat
  copied : List LayerRec

/-- The state when decoding starts. -/
def Import.start (workers : Nat) (layers : List LayerRec) : Import := ⟨layers, fun _ => none, List.replicate workers .idle, 0, []⟩

/-- layer.go:252-319, one action. -/
inductive ImportStep (procs ts : Nat) : Import → Import → Prop
  /-- layer.go:274 meets 289 -/
  | hand (s w) : s.sent < s.layers.length → s.workers[w]? = some .idle →
      ImportStep procs ts s { s with sent := s.sent + 1, workers := s.workers.set w (.got s.sent) }
  /-- layer.go:291-303 -/
  | draw (s w i l t) : s.workers[w]? = some (.got i) → s.layers[i]? = some l → loadCanvas procs ts l = .ok t →
      ImportStep procs ts s { s with layers := s.layers.set i (setRect ts t l), workers := s.workers.set w (.drawn i t) }
  /-- layer.go:304-313 -/
  | mask (s w i l c t) : s.workers[w]? = some (.drawn i c) → s.layers[i]? = some l → loadMask procs ts l = .ok t →
      ImportStep procs ts s { s with layers := s.layers.set i (setMaskRect ts t l), workers := s.workers.set w (.masked i ⟨c, t⟩) }
  /-- layer.go:315-317 -/
  | store (s w i l img) : s.workers[w]? = some (.masked i img) → s.layers[i]? = some l →
      ImportStep procs ts s
        { s with images := fun k => if k = l.seqID then some img else s.images k, workers := s.workers.set w .idle }
  /-- /repo/layer.go:204: `buildTree` copies the next layer, after all have been sent -/
  | copy (s l) : s.sent = s.layers.length → s.layers[s.copied.length]? = some l →
      ImportStep procs ts s { s with copied := s.copied ++ [l] }

/-- Any number of actions. -/
inductive ImportRun (procs ts : Nat) : Import → Import → Prop
  | refl (s) : ImportRun procs ts s s
  | tail {s t u} : ImportRun procs ts s t → ImportStep procs ts t u → ImportRun procs ts s u

/-- A goroutine panics, which ends the program. -/
def Import.Crashes (procs ts : Nat) (s : Import) : Prop :=
  ∃ (w i : Nat) (l : LayerRec) (e : Panic), s.layers[i]? = some l ∧
    ((s.workers[w]? = some (Importer.got i) ∧ loadCanvas procs ts l = .panic e) ∨ ∃ c, s.workers[w]? = some (Importer.drawn i c) ∧ loadMask procs ts l = .panic e)

/-- layer.go:280: all layers are sent and copied and the goroutines are through. -/
def Import.Done (s : Import) : Prop :=
  s.sent = s.layers.length ∧ s.copied.length = s.layers.length ∧ ∀ w ∈ s.workers, w = .idle

/-- layer.go:264-275: what `New` asks of the decoder. -/
def newOptions : Options where
  skipMergedImage := true
  configLoaded := some fun c => decide (c.colorMode ≠ 3)
  layerImageLoaded := true

/-- layer.go:23-32 `Tree`, without the renderer. -/
structure LayerTree where
  heap : CHeap
  images : Nat → Option LayerImage
  rect : Rect
  canvasRect : Rect

/-- layer.go:197-202: the default matrix. -/
def Aff3.identity : Aff3 := ⟨1, 0, 0, 0, 1, 0⟩

mutual

/-- builder.go:53: `b.Rect` after `buildLayer`. -/
def LTree.unionRect : LTree LayerRec → Rect → Rect
  | .node l kids, r => unionRects kids (r.union l.rect)

/-- builder.go:54-57, layer.go:228-231. -/
def unionRects : List (LTree LayerRec) → Rect → Rect
  | [], r => r
  | k :: ks, r => unionRects ks (k.unionRect r)

end

/-- layer.go:190-250 `New`, after `createCanvas` has ended in the state `s`; `docRect` is the rectangle of the file's header. -/
def finishNew (grow : Nat → Nat) (dec : List UInt8 → Option (List UInt8)) (fuel : Nat) (docRect : Rect) (s : Import) : Res LayerTree := do
  let tree ← buildTree LayerRec.sdType s.copied
  -- layer.go:283
  let canvas := transformRect docRect Aff3.identity
  .ok ⟨newTree grow dec fuel tree, s.images, (unionRects tree Rect.zero).intersect canvas, canvas⟩

end Psd
