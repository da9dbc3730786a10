import Verif.Model.CTree
import Verif.Model.TileStore

/-!
# Rendering a layer tree

/repo/composite/renderer.go and draw.go: drawing the layers tile by tile, the caches of folders and of the whole picture, and
marking them dirty. The layers are on the heap of `Verif.Model.CTree`.

The drawing is modelled one tile at a time: two calls of `updateTile` for different tiles touch different entries of every map, so
goroutines that work on different tiles (`C51`) do not meet, and the tiles may be taken one after another. Buffers are modelled by
their contents; that the buffers of the pool are blank and not shared is a model of its own (`Verif.Model.Buffers`).
Opacities are natural numbers of any size, where Go's `int` could overflow.
-/

namespace Psd

/-- The upper left corner of a tile. -/
abbrev TPt := Int × Int

/-- What the renderer does to the pixels of a tile: `P` is the contents of a `tileSize` × `tileSize` NRGBA picture and `M` of a
mask tile. Both pictures of a drawing operation cover the same rectangle. -/
structure PicOps (P M : Type) where
  /-- a new buffer -/
  blank : P
  /-- `blend.Copy.Draw(dst, dst.Rect, src, pt)`: the result does not depend on `dst` -/
  copy : P → P
  /-- composite/draw.go:42-44 `drawWithOpacity`: opacity, blend mode, destination, source -/
  draw : Nat → List UInt8 → P → P → Res P
  /-- `blend.DestIn.Draw(dst, dst.Rect, src, pt)` -/
  destIn : P → P → P
  /-- `blend.DestOver.Draw(dst, dst.Rect, src, pt)` -/
  destOver : P → P → P
  /-- `blend.DestIn.Draw(dst, dst.Rect, mask, pt)` -/
  maskIn : P → M → P
  /-- `blend.DestOut.Draw(dst, dst.Rect, mask, pt)` -/
  maskOut : P → M → P
  /-- `blend.Clear.Draw(dst, dst.Rect, image.Transparent, image.Point{})` -/
  clear : P → P
  /-- composite/draw.go:46-53 `removeAlpha` -/
  removeAlpha : P → P

/-- A tree as the renderer sees it: the layers, and for each number the tiles of its picture (`none` is a nil `Canvas`) and of
its mask (composite/layer.go:29, layerimage.go:24-27). -/
structure Scene (P M : Type) where
  h : CHeap
  root : Ptr
  canvas : Int → Option (List (TPt × P))
  mask : Int → List (TPt × M)

/-- `ld.Canvas[pt]`. -/
def Scene.pic {P M : Type} (s : Scene P M) (id : Int) (pt : TPt) : Option P := (s.canvas id).bind fun c => c.lookup pt

/-- renderer.go:13-22. -/
inductive DrawResult where
  | drew | drewFromCache | drewFromCacheInvisible | defered | skipped | invisible
  deriving DecidableEq, Repr

/-- renderer.go:309, 394 `dr == drDrew || dr == drDrewFromCache`. -/
def DrawResult.isDrawn : DrawResult → Bool
  | .drew => true
  | .drewFromCache => true
  | _ => false

/-- renderer.go:24-29. -/
inductive CacheState where
  | cached | cachedEmpty
  deriving DecidableEq, Repr

/-- renderer.go:31-36, 43, 182-185: the maps `Cached` and `Image` of every layer's cache, and the list of changes of the render
going on. A layer without cache is one with empty maps, which is what `getCache` (renderer.go:74-86) makes for it. -/
structure RState (P : Type) where
  cached : Int → TPt → Option CacheState
  image : Int → TPt → Option P
  changes : List (Int × TPt)

/-- A new renderer. -/
def RState.empty {P : Type} : RState P := ⟨fun _ _ => none, fun _ _ => none, []⟩

/-- composite/layer.go:20 `SeqIDRoot`. -/
def seqIDRoot : Int := -1

/-- `psd.BlendModePassThrough`. -/
def passThrough : List UInt8 := ascii "pass"

/-- Assignment to one entry of a map of maps, and deletion. -/
def setAt {V : Type} (m : Int → TPt → Option V) (id : Int) (pt : TPt) (v : Option V) : Int → TPt → Option V :=
  fun i q => if i = id ∧ q = pt then v else m i q

section
variable {P M : Type} (ops : PicOps P M)

/-- renderer.go:321-343 `updateCache`, with `changeList.Add` (187-202). `c` is the number of the layer whose cache it is, `none`
if it has none; the root's is −1. -/
def updateCache (dr : DrawResult) (c : Option Int) (pt : TPt) (buf : P) (st : RState P) : RState P :=
  match c with
  | none => st
  | some id =>
    match dr with
    | .drew => ⟨setAt st.cached id pt (some .cached), setAt st.image id pt (some (ops.copy buf)), st.changes ++ [(id, pt)]⟩
    | .drewFromCache => st
    | .drewFromCacheInvisible => st
    | _ => ⟨setAt st.cached id pt (some .cachedEmpty), setAt st.image id pt none, st.changes ++ [(id, pt)]⟩

/-- What a call of `drawLayer` leaves: the caches, the picture drawn onto and what happened. -/
abbrev Drawn (P : Type) := RState P × P × DrawResult

/-- renderer.go:307-310 (`scale` is the identity) and 392-395: the `n` layers from index `i` of an array. `inner` is `drawLayer`. -/
def drawKids (inner : RState P → P → Ptr → Nat → List UInt8 → Bool → Res (Drawn P)) (h : CHeap) (arr : Nat) (scale : Nat → Nat) :
    (n i : Nat) → RState P → P → Bool → Res (RState P × P × Bool)
  | 0, _, st, b, drew => .ok (st, b, drew)
  | n + 1, i, st, b, drew => do
    let l := (h.at_ (arr, i)).attr
    let (st, b, dr) ← inner st b (arr, i) (scale l.opacity) l.blendMode false
    drawKids inner h arr scale n (i + 1) st b (drew || dr.isDrawn)

/-- renderer.go:436-438, 453-455: the layers of `Clip`. -/
def drawClips (inner : RState P → P → Ptr → Nat → List UInt8 → Bool → Res (Drawn P)) (h : CHeap) (force : Bool) :
    List (Option Ptr) → RState P → P → Res (RState P × P)
  | [], st, b => .ok (st, b)
  | none :: _, _, _ => .panic .nilDeref
  | some p :: cs, st, b => do
    let l := (h.at_ p).attr
    let (st, b, _) ← inner st b p l.opacity l.blendMode force
    drawClips inner h force cs st b

/-- renderer.go:404-419: the layer's mask; `b` is the picture below. -/
def applyMask (l : CAttr) (m : Option M) (mode : List UInt8) (b buf : P) : P :=
  if l.maskEnabled then
    let buf := match m with
      | some m => if l.maskDefaultColor ≠ 255 then ops.maskIn buf m else ops.maskOut buf m
      | none => if l.maskDefaultColor ≠ 255 then ops.clear buf else buf
    if mode = passThrough then ops.destOver buf b else buf
  else buf

/-- renderer.go:404-469: the second half of `drawLayer`: from the layer's own pixels `buf` to the picture `b` and the cache. -/
def drawBuf (inner : RState P → P → Ptr → Nat → List UInt8 → Bool → Res (Drawn P)) (s : Scene P M) (pt : TPt) (p : Ptr) (c : Option Int)
    (opacity : Nat) (mode : List UInt8) (st : RState P) (b buf : P) : Res (Drawn P) := do
  let l := s.h.at_ p
  let buf := applyMask ops l.attr ((s.mask l.attr.seqID).lookup pt) mode b buf
  if l.clip.length = 0 then do
    let b ← (if mode = passThrough then .ok (ops.copy buf) else ops.draw opacity mode b buf)
    .ok (updateCache ops .drew c pt buf st, b, .drew)
  else if l.attr.blendClippedElements then do
    let (st, clipBuf) ← drawClips inner s.h true l.clip st (ops.removeAlpha (ops.copy buf))
    let clipBuf := ops.destIn clipBuf buf
    let b ← (if mode = passThrough then .ok (ops.copy clipBuf) else ops.draw opacity mode b clipBuf)
    .ok (updateCache ops .drew c pt clipBuf st, b, .drew)
  else do
    let b ← ops.draw opacity mode b buf
    let (st, b) ← drawClips inner s.h false l.clip st b
    .ok (updateCache ops .drew c pt buf st, b, .drew)

/-- renderer.go:365-378: a folder whose cache has an entry. -/
def drawCached (pt : TPt) (id : Int) (opacity : Nat) (mode : List UInt8) (st : RState P) (b : P) : CacheState → Res (Drawn P)
  | .cached =>
    match st.image id pt with
    | none => .panic .nilDeref
    | some ci => do
      let b ← (if mode = passThrough then .ok (ops.copy ci) else ops.draw opacity mode b ci)
      .ok (st, b, .drewFromCache)
  | .cachedEmpty => .ok (st, b, .drewFromCacheInvisible)

/-- renderer.go:345-469 `drawLayer`; `fuel` bounds the depth of the recursion. -/
def drawLayer (s : Scene P M) (pt : TPt) : (fuel : Nat) → RState P → P → Ptr → (opacity : Nat) → (mode : List UInt8) → (force : Bool) →
    Res (Drawn P)
  | 0, _, _, _, _, _, _ => .fuel
  | f + 1, st, b, p, opacity, mode, force =>
    let l := s.h.at_ p
    let id := l.attr.seqID
    if l.attr.visible = false ∨ opacity = 0 then .ok (st, b, .invisible)
    else if l.attr.clipping = true ∧ force = false then .ok (st, b, .defered)
    else if l.children.len = 0 then
      match s.pic id pt with
      | none => .ok (st, b, .skipped)
      | some pic => drawBuf ops (drawLayer s pt f) s pt p none opacity mode st b (ops.copy pic)
    else
      match st.cached id pt with
      | some cs => drawCached ops pt id opacity mode st b cs
      | none => do
        let buf := if mode = passThrough then ops.copy b else ops.blank
        let a := if mode = passThrough then opacity * 32897 else 255 * 32897
        let (st, buf, drew) ← drawKids (drawLayer s pt f) s.h l.children.arr (fun o => o * a / 2 ^ 23) l.children.len 0 st buf false
        if drew then drawBuf ops (drawLayer s pt f) s pt p (some id) opacity mode st b buf
        else .ok (updateCache ops .invisible (some id) pt buf st, b, .invisible)

/-- renderer.go:297-319 `updateTile`: the caches, whether the tile was drawn anew, and the state of its entry. -/
def updateTile (s : Scene P M) (fuel : Nat) (pt : TPt) (st : RState P) : Res (RState P × Bool × CacheState) :=
  match st.cached seqIDRoot pt with
  | some cs => .ok (st, false, cs)
  | none => do
    let cs := (s.h.at_ s.root).children
    let (st, buf, drew) ← drawKids (drawLayer ops s pt fuel) s.h cs.arr id cs.len 0 st ops.blank false
    if drew then .ok (updateCache ops .drew (some seqIDRoot) pt buf st, true, .cached)
    else .ok (updateCache ops .invisible (some seqIDRoot) pt buf st, true, .cachedEmpty)

/-- renderer.go:282-292: one tile of a render. The picture rendered to is modelled tile by tile, with its edges at edges of tiles. -/
def renderTile (s : Scene P M) (fuel : Nat) (diffOnly : Bool) (pt : TPt) (st : RState P) (dest : TPt → P) : Res (RState P × (TPt → P)) := do
  let (st, modified, cs) ← updateTile ops s fuel pt st
  if modified || !diffOnly then
    match cs with
    | .cached =>
      match st.image seqIDRoot pt with
      | none => .panic .nilDeref
      | some ci => .ok (st, fun q => if q = pt then ops.copy ci else dest q)
    | .cachedEmpty => .ok (st, fun q => if q = pt then ops.clear (dest q) else dest q)
  else .ok (st, dest)

/-- renderer.go:274-295 `renderInner`: the tiles the goroutines visit, one after another. -/
def renderTiles (s : Scene P M) (fuel : Nat) (diffOnly : Bool) : List TPt → RState P → (TPt → P) → Res (RState P × (TPt → P))
  | [], st, dest => .ok (st, dest)
  | pt :: pts, st, dest => do
    let (st, dest) ← renderTile ops s fuel diffOnly pt st dest
    renderTiles s fuel diffOnly pts st dest

/-- renderer.go:256-266: what is done for the changes of a render that was cancelled. -/
def revert (st : RState P) : RState P :=
  { st with cached := fun id pt => if (id, pt) ∈ st.changes then none else st.cached id pt }

/-- renderer.go:214-272 `render`, without the dirty marks: `visited` are the tiles the goroutines got to, `aborted` whether `Wait`
returned `ErrAborted`. -/
def render (s : Scene P M) (fuel : Nat) (diffOnly aborted : Bool) (visited : List TPt) (st : RState P) (dest : TPt → P) :
    Res (RState P × (TPt → P)) := do
  let (st, dest) ← renderTiles ops s fuel diffOnly visited { st with changes := [] } dest
  .ok (if aborted then revert st else st, dest)

end

/-! ### Dirty marks -/

/-- renderer.go:88-103 `buildAreaMapRecursive`: the `n` layers from index `i` of an array; `inner` is the recursive call. -/
def areaLoop {P M : Type} (inner : Ptr → List TPt) (s : Scene P M) (arr : Nat) : (n i : Nat) → List TPt
  | 0, _ => []
  | n + 1, i =>
    let l := s.h.at_ (arr, i)
    let here :=
      if l.attr.visible = false ∨ l.attr.opacity = 0 ∨ l.attr.clipping = true then []
      else match s.canvas l.attr.seqID with
        | some c => c.map Prod.fst
        | none => if l.children.len > 0 then inner (arr, i) else []
    here ++ areaLoop inner s arr n (i + 1)

/-- renderer.go:88-103; `fuel` bounds the depth of the recursion. -/
def areaKids {P M : Type} (s : Scene P M) : (fuel : Nat) → Ptr → List TPt
  | 0, _ => []
  | f + 1, p => areaLoop (areaKids s f) s (s.h.at_ p).children.arr (s.h.at_ p).children.len 0

/-- renderer.go:105-124 `buildAreaMap`: the points, in some order, perhaps more than once. -/
def areaMap {P M : Type} (s : Scene P M) (fuel : Nat) (p : Ptr) : List TPt :=
  let l := s.h.at_ p
  match s.canvas l.attr.seqID with
  | some c => c.map Prod.fst
  | none => if l.children.len > 0 then areaKids s fuel p else []

/-- renderer.go:127-133, 143-149: the entries of a layer's cache are deleted. -/
def clearArea {P : Type} (id : Int) (area : List TPt) (st : RState P) : RState P :=
  { st with cached := fun i pt => if i = id ∧ pt ∈ area then none else st.cached i pt }

/-- renderer.go:134-139, 155-162: the pass-through layers among the `n` from index `i` of an array; `inner` is the recursive call.
The order does not matter. -/
def dirtyPassLoop {P : Type} (inner : Ptr → RState P → RState P) (h : CHeap) (arr : Nat) : (n i : Nat) → RState P → RState P
  | 0, _, st => st
  | n + 1, i, st =>
    let st := if (h.at_ (arr, i)).attr.blendMode = passThrough then inner (arr, i) st else st
    dirtyPassLoop inner h arr n (i + 1) st

/-- renderer.go:126-140 `setDirtyByLayerPassThrough`; `fuel` bounds the depth of the recursion. -/
def dirtyPass {P : Type} (h : CHeap) (area : List TPt) : (fuel : Nat) → Ptr → RState P → RState P
  | 0, _, st => st
  | f + 1, p, st =>
    let l := h.at_ p
    dirtyPassLoop (dirtyPass h area f) h l.children.arr l.children.len 0 (clearArea l.attr.seqID area st)

/-- renderer.go:142-165 `setDirtyByLayerRecursive`; `fuel` bounds the depth of the recursion, `deep` that of `dirtyPass`. -/
def dirtyUp {P : Type} (h : CHeap) (area : List TPt) (deep : Nat) : (fuel : Nat) → Ptr → RState P → RState P
  | 0, _, st => st
  | f + 1, p, st =>
    let l := h.at_ p
    let st := clearArea l.attr.seqID area st
    if l.attr.clipping then
      match l.clippedBy with
      | some q => dirtyUp h area deep f q st
      | none => st
    else
      match l.parent with
      | some q =>
        let st := dirtyPassLoop (dirtyPass h area deep) h (h.at_ q).children.arr (h.at_ q).children.len 0 st
        dirtyUp h area deep f q st
      | none => st

/-- renderer.go:167-170 `setDirtyByLayer`. -/
def setDirty {P M : Type} (s : Scene P M) (fuel : Nat) (p : Ptr) (st : RState P) : RState P :=
  dirtyUp s.h (areaMap s fuel p) fuel fuel p st

/-! ### Renders and dirty marks together -/

/-- A renderer, the tree it renders and the picture rendered to. `pending` is `deferedDirtyReq`: nil when no render is going on. -/
structure RSys (P M : Type) where
  scene : Scene P M
  st : RState P
  dest : TPt → P
  diffOnly : Bool
  pending : Option (List Ptr)

/-- What can happen to a renderer, one thing at a time: the locks `renderM` and `setDirtyM` allow no other schedules, and a dirty mark made
while a render is going on does not touch what the goroutines of the render work with. -/
inductive REvent (P : Type) where
  /-- renderer.go:205-223: `Render` or `RenderDiff` is called; it waits until no other render is going on -/
  | start (dest : TPt → P) (diffOnly : Bool)
  /-- renderer.go:282-292: some goroutine finishes a tile -/
  | tile (pt : TPt)
  /-- renderer.go:172-180 `SetDirtyByLayer` -/
  | dirty (p : Ptr)
  /-- the caller assigns to fields of layers -/
  | change (h : CHeap)
  /-- renderer.go:255-272, 224-231: all goroutines have returned; the render returns -/
  | finish (aborted : Bool)

/-- renderer.go:172-180, 214-272: one event; events that are not possible are errors. -/
def RSys.step {P M : Type} (ops : PicOps P M) (fuel : Nat) (ev : REvent P) (y : RSys P M) : Res (RSys P M) :=
  match ev, y.pending with
  | .start dest diff, none => .ok { y with st := { y.st with changes := [] }, dest := dest, diffOnly := diff, pending := some [] }
  | .tile pt, some _ => do
    let (st, dest) ← renderTile ops y.scene fuel y.diffOnly pt y.st y.dest
    .ok { y with st := st, dest := dest }
  | .dirty p, none => .ok { y with st := setDirty y.scene fuel p y.st }
  | .dirty p, some ps => .ok { y with pending := some (ps ++ [p]) }
  | .change h, _ => .ok { y with scene := { y.scene with h := h } }
  | .finish aborted, some ps =>
    .ok { y with st := ps.foldl (fun st p => setDirty y.scene fuel p st) (if aborted then revert y.st else y.st), pending := none }
  | _, _ => .err (.bad "not possible")

/-- One event after another. -/
def RSys.run {P M : Type} (ops : PicOps P M) (fuel : Nat) : List (REvent P) → RSys P M → Res (RSys P M)
  | [], y => .ok y
  | ev :: evs, y => do
    let y ← y.step ops fuel ev
    RSys.run ops fuel evs y

/-! ### The pixels -/

/-- The pixels of a tile, row by row. -/
abbrev Tile := Nat → Px

/-- The value of a drawing operation on one pixel. They never fail (`C39`, `C44`). -/
def pxOr (d : Px) : Res Px → Px
  | .ok p => p
  | _ => d

/-- composite/draw.go:42-53 and the operators of package blend on tiles: both pictures are NRGBA and cover the same rectangle, so
that every pixel meets the one at the same place (`C47`). The mask of `drawWithOpacity` is uniform with alpha `uint8(opacity)`; a
blend mode that is not in the table is a nil interface. -/
def tileOps : PicOps Tile (Nat → UInt8) where
  blank := fun _ => ⟨0, 0, 0, 0⟩
  copy src := fun i => pxOr (src i) (drawPD .copy .nrgba (.px .nrgba (src i)) ⟨0, 0, 0, 0⟩)
  draw opacity bm dst src :=
    match blendMode bm with
    | none => .panic .nilDeref
    | some m => .ok fun i => pxOr (dst i) (drawNN m (UInt32.ofNat (opacity % 256)) (src i) (dst i))
  destIn dst src := fun i => pxOr (dst i) (drawPD .destIn .nrgba (.px .nrgba (src i)) (dst i))
  destOver dst src := fun i => pxOr (dst i) (drawPD .destOver .nrgba (.px .nrgba (src i)) (dst i))
  maskIn dst m := fun i => pxOr (dst i) (drawPD .destIn .nrgba (.alpha (m i)) (dst i))
  maskOut dst m := fun i => pxOr (dst i) (drawPD .destOut .nrgba (.alpha (m i)) (dst i))
  clear dst := fun i => pxOr (dst i) (drawPD .clear .nrgba (.uniform ⟨0, 0, 0, 0⟩) (dst i))
  removeAlpha b := fun i => { b i with a := 255 }

end Psd
