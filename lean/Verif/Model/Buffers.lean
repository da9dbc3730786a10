import Verif.Model.Renderer
import Verif.Model.Tiles

/-!
# The goroutines of a render and their buffers

/repo/composite/renderer.go again, this time with the buffers as arrays in memory, the pool they come from, and several goroutines. A goroutine is
a tree of single actions, and an execution is any interleaving of the actions of all goroutines. The drawing operations themselves are
`PicOps`, as in `Verif.Model.Renderer`; each reads and writes whole buffers.
-/

namespace Psd

/-- A goroutine of a render. Buffers are numbered by their `Pix` arrays. -/
inductive RProg (P : Type) where
  /-- it has returned -/
  | done
  /-- it panics -/
  | panic
  /-- renderer.go:55-61: `r.pool.Get()`; it goes on with the array -/
  | get (k : Nat → RProg P)
  /-- renderer.go:71: `r.pool.Put` -/
  | put (b : Nat) (k : RProg P)
  /-- it reads a buffer -/
  | load (b : Nat) (k : P → RProg P)
  /-- it writes to a buffer -/
  | store (b : Nat) (x : P) (k : RProg P)
  /-- renderer.go:285-287, 298-300, 364-367: it looks up `Cached[pt]` and `Image[pt]` in the cache of a layer -/
  | look (id : Int) (pt : TPt) (k : Option CacheState → Option P → RProg P)
  /-- renderer.go:327-330, 336-339: it sets `Cached[pt]` and makes or deletes `Image[pt]` -/
  | mark (id : Int) (pt : TPt) (cs : CacheState) (f : Option P → Option P) (k : RProg P)
  /-- renderer.go:331: it draws onto `Image[pt]` -/
  | paint (id : Int) (pt : TPt) (x : P) (k : RProg P)
  /-- renderer.go:187-202 `changeList.Add` -/
  | note (id : Int) (pt : TPt) (k : RProg P)
  /-- renderer.go:288, 290: it draws a tile onto the picture rendered to -/
  | out (pt : TPt) (f : P → P) (k : RProg P)
  /-- renderer.go:278: `pc.Aborted()` -/
  | ask (k : Bool → RProg P)

section
variable {P M : Type} (ops : PicOps P M)

/-- renderer.go:63-72 `putBuffer`. -/
def putB (b : Nat) (k : RProg P) : RProg P := .store b ops.blank (.put b k)

/-- renderer.go:321-343 `updateCache`; `buf` is the array of the buffer. -/
def updateCacheB (dr : DrawResult) (c : Option Int) (pt : TPt) (buf : Nat) (k : RProg P) : RProg P :=
  match c with
  | none => k
  | some id =>
    match dr with
    | .drew => .mark id pt .cached (fun o => some (o.getD ops.blank)) (.load buf fun x => .paint id pt (ops.copy x) (.note id pt k))
    | .drewFromCache => k
    | .drewFromCacheInvisible => k
    | _ => .mark id pt .cachedEmpty (fun _ => none) (.note id pt k)

/-- composite/draw.go:42-44 `drawWithOpacity`, onto the buffer `b`. -/
def drawOnB (opacity : Nat) (mode : List UInt8) (b : Nat) (x : P) (k : RProg P) : RProg P :=
  .load b fun y => match ops.draw opacity mode y x with
    | .ok z => .store b z k
    | _ => .panic

/-- renderer.go:422-426, 440-444, 369-373: a picture is drawn onto the buffer `b`, or replaces it. -/
def placeB (opacity : Nat) (mode : List UInt8) (b : Nat) (x : P) (k : RProg P) : RProg P :=
  if mode = passThrough then .store b (ops.copy x) k else drawOnB ops opacity mode b x k

/-- renderer.go:307-310, 392-395. -/
def drawKidsB (inner : Nat → Ptr → Nat → List UInt8 → Bool → (DrawResult → RProg P) → RProg P) (h : CHeap) (arr : Nat) (scale : Nat → Nat) (b : Nat) :
    (n i : Nat) → Bool → (Bool → RProg P) → RProg P
  | 0, _, drew, k => k drew
  | n + 1, i, drew, k =>
    let l := (h.at_ (arr, i)).attr
    inner b (arr, i) (scale l.opacity) l.blendMode false fun dr => drawKidsB inner h arr scale b n (i + 1) (drew || dr.isDrawn) k

/-- renderer.go:436-438, 453-455. -/
def drawClipsB (inner : Nat → Ptr → Nat → List UInt8 → Bool → (DrawResult → RProg P) → RProg P) (h : CHeap) (force : Bool) (b : Nat) :
    List (Option Ptr) → RProg P → RProg P
  | [], k => k
  | none :: _, _ => .panic
  | some p :: cs, k =>
    let l := (h.at_ p).attr
    inner b p l.opacity l.blendMode force fun _ => drawClipsB inner h force b cs k

/-- renderer.go:404-419. -/
def applyMaskB (l : CAttr) (m : Option M) (mode : List UInt8) (b buf : Nat) (k : RProg P) : RProg P :=
  if l.maskEnabled then .load buf fun x => .load b fun y => .store buf (applyMask ops l m mode y x) k else k

/-- renderer.go:404-469. `k` is what follows; it is told which array `buf.Pix` is in the end: line 445 exchanges the arrays of
`buf` and `clipBuf`, and the deferred call of line 431 puts back the array `clipBuf` has then. -/
def drawBufB (inner : Nat → Ptr → Nat → List UInt8 → Bool → (DrawResult → RProg P) → RProg P) (s : Scene P M) (pt : TPt) (p : Ptr) (c : Option Int)
    (opacity : Nat) (mode : List UInt8) (b buf : Nat) (k : Nat → DrawResult → RProg P) : RProg P :=
  let l := s.h.at_ p
  applyMaskB ops l.attr ((s.mask l.attr.seqID).lookup pt) mode b buf <|
    if l.clip.length = 0 then
      .load buf fun x => placeB ops opacity mode b x <| updateCacheB ops .drew c pt buf (k buf .drew)
    else
      .get fun clipBuf =>
        if l.attr.blendClippedElements then
          .load buf fun x => .store clipBuf (ops.removeAlpha (ops.copy x)) <|
            drawClipsB inner s.h true clipBuf l.clip <|
              .load buf fun x => .load clipBuf fun z => .store clipBuf (ops.destIn z x) <|
                .load clipBuf fun z => placeB ops opacity mode b z <|
                  updateCacheB ops .drew c pt clipBuf (putB ops buf (k clipBuf .drew))
        else
          .load buf fun x => drawOnB ops opacity mode b x <|
            drawClipsB inner s.h false b l.clip <|
              updateCacheB ops .drew c pt buf (putB ops clipBuf (k buf .drew))

/-- renderer.go:345-469 `drawLayer`, onto the buffer `b`. The buffer of a folder is put back (line 382), the one of a layer without children
is not (line 400). -/
def drawLayerB (s : Scene P M) (pt : TPt) : (fuel : Nat) → (b : Nat) → Ptr → (opacity : Nat) → (mode : List UInt8) → (force : Bool) →
    (DrawResult → RProg P) → RProg P
  | 0, _, _, _, _, _, _ => .panic
  | f + 1, b, p, opacity, mode, force, k =>
    let l := s.h.at_ p
    let id := l.attr.seqID
    if l.attr.visible = false ∨ opacity = 0 then k .invisible
    else if l.attr.clipping = true ∧ force = false then k .defered
    else if l.children.len = 0 then
      match s.pic id pt with
      | none => k .skipped
      | some pic => .get fun buf => .store buf (ops.copy pic) <| drawBufB ops (drawLayerB s pt f) s pt p none opacity mode b buf fun _ dr => k dr
    else
      .look id pt fun cs im => match cs with
        | some .cached =>
          match im with
          | none => .panic
          | some ci => placeB ops opacity mode b ci (k .drewFromCache)
        | some .cachedEmpty => k .drewFromCacheInvisible
        | none => .get fun buf =>
          let a := if mode = passThrough then opacity * 32897 else 255 * 32897
          let kids := drawKidsB (drawLayerB s pt f) s.h l.children.arr (fun o => o * a / 2 ^ 23) buf l.children.len 0 false fun drew =>
            if drew then drawBufB ops (drawLayerB s pt f) s pt p (some id) opacity mode b buf fun buf dr => putB ops buf (k dr)
            else updateCacheB ops .invisible (some id) pt buf (putB ops buf (k .invisible))
          if mode = passThrough then .load b fun y => .store buf (ops.copy y) kids else kids

/-- renderer.go:297-319 `updateTile`; `k` is told whether the tile was drawn anew and the state of its entry. -/
def updateTileB (s : Scene P M) (fuel : Nat) (pt : TPt) (k : Bool → CacheState → RProg P) : RProg P :=
  .look seqIDRoot pt fun cs _ => match cs with
    | some cs => k false cs
    | none => .get fun buf =>
      let cs := (s.h.at_ s.root).children
      drawKidsB (drawLayerB ops s pt fuel) s.h cs.arr id buf cs.len 0 false fun drew =>
        if drew then updateCacheB ops .drew (some seqIDRoot) pt buf (putB ops buf (k true .cached))
        else updateCacheB ops .invisible (some seqIDRoot) pt buf (putB ops buf (k true .cachedEmpty))

/-- renderer.go:282-292: one tile of a render. -/
def renderTileB (s : Scene P M) (fuel : Nat) (diffOnly : Bool) (pt : TPt) (k : RProg P) : RProg P :=
  updateTileB ops s fuel pt fun modified cs =>
    if modified || !diffOnly then
      match cs with
      | .cached => .look seqIDRoot pt fun _ im => match im with
        | none => .panic
        | some ci => .out pt (fun _ => ops.copy ci) k
      | .cachedEmpty => .out pt ops.clear k
    else k

/-- renderer.go:281-293: a row of tiles. -/
def renderRowB (s : Scene P M) (fuel : Nat) (diffOnly : Bool) : List TPt → RProg P → RProg P
  | [], k => k
  | pt :: pts, k => renderTileB ops s fuel diffOnly pt (renderRowB s fuel diffOnly pts k)

/-- renderer.go:274-295 `renderInner`: the rows of tiles of a goroutine. -/
def renderInnerB (s : Scene P M) (fuel : Nat) (diffOnly : Bool) : List (List TPt) → RProg P
  | [] => .done
  | row :: rows => .ask fun aborted => if aborted then .done else renderRowB ops s fuel diffOnly row (renderInnerB s fuel diffOnly rows)

/-- renderer.go:238-254, 277, 281: the rows of tiles of each of the goroutines. -/
def renderRows (procs ts : Nat) (rect : Rect) : List (List (List TPt)) :=
  (rowRanges procs ts (tileStart ts rect.minY) rect.maxY).map fun y =>
    (tileLoop ts y.1 y.2).map fun ty => (tileLoop ts (tileStart ts rect.minX) rect.maxX).map fun tx => (tx, ty)

/-- renderer.go:238-254: the goroutines a render starts; `procs` is `runtime.GOMAXPROCS(0)`. -/
def renderProgs (s : Scene P M) (fuel : Nat) (diffOnly : Bool) (procs ts : Nat) (rect : Rect) : List (RProg P) :=
  (renderRows procs ts rect).map (renderInnerB ops s fuel diffOnly)

end

/-! ### Executions -/

/-- What the goroutines share. Arrays from `next` on are not in use. -/
structure RGlob (P : Type) where
  mem : Nat → P
  pool : List Nat
  next : Nat
  st : RState P
  dest : TPt → P
  aborted : Bool

/-- One entry of an array changed. -/
def setMem {P : Type} (m : Nat → P) (b : Nat) (x : P) : Nat → P := fun c => if c = b then x else m c

/-- One action of any one of the goroutines, or a cancellation. `sync.Pool` may hand out any array that was put back, or a new one
(renderer.go:51-53), which is blank. -/
inductive RStep {P M : Type} (ops : PicOps P M) : RGlob P × List (RProg P) → RGlob P × List (RProg P) → Prop where
  | old (g : RGlob P) (ps : List (RProg P)) (i b : Nat) (k : Nat → RProg P) (h : ps[i]? = some (.get k)) (hb : b ∈ g.pool) :
      RStep ops (g, ps) ({ g with pool := g.pool.erase b }, ps.set i (k b))
  | new (g : RGlob P) (ps : List (RProg P)) (i : Nat) (k : Nat → RProg P) (h : ps[i]? = some (.get k)) :
      RStep ops (g, ps) ({ g with mem := setMem g.mem g.next ops.blank, next := g.next + 1 }, ps.set i (k g.next))
  | put (g : RGlob P) (ps : List (RProg P)) (i b : Nat) (k : RProg P) (h : ps[i]? = some (.put b k)) :
      RStep ops (g, ps) ({ g with pool := b :: g.pool }, ps.set i k)
  | load (g : RGlob P) (ps : List (RProg P)) (i b : Nat) (k : P → RProg P) (h : ps[i]? = some (.load b k)) :
      RStep ops (g, ps) (g, ps.set i (k (g.mem b)))
  | store (g : RGlob P) (ps : List (RProg P)) (i b : Nat) (x : P) (k : RProg P) (h : ps[i]? = some (.store b x k)) :
      RStep ops (g, ps) ({ g with mem := setMem g.mem b x }, ps.set i k)
  | look (g : RGlob P) (ps : List (RProg P)) (i : Nat) (id : Int) (pt : TPt) (k : Option CacheState → Option P → RProg P)
      (h : ps[i]? = some (.look id pt k)) : RStep ops (g, ps) (g, ps.set i (k (g.st.cached id pt) (g.st.image id pt)))
  | mark (g : RGlob P) (ps : List (RProg P)) (i : Nat) (id : Int) (pt : TPt) (cs : CacheState) (f : Option P → Option P) (k : RProg P)
      (h : ps[i]? = some (.mark id pt cs f k)) :
      RStep ops (g, ps) ({ g with st := { g.st with cached := setAt g.st.cached id pt (some cs), image := setAt g.st.image id pt (f (g.st.image id pt)) } }, ps.set i k)
  | paint (g : RGlob P) (ps : List (RProg P)) (i : Nat) (id : Int) (pt : TPt) (x : P) (k : RProg P) (h : ps[i]? = some (.paint id pt x k)) :
      RStep ops (g, ps) ({ g with st := { g.st with image := setAt g.st.image id pt (some x) } }, ps.set i k)
  | note (g : RGlob P) (ps : List (RProg P)) (i : Nat) (id : Int) (pt : TPt) (k : RProg P) (h : ps[i]? = some (.note id pt k)) :
      RStep ops (g, ps) ({ g with st := { g.st with changes := g.st.changes ++ [(id, pt)] } }, ps.set i k)
  | out (g : RGlob P) (ps : List (RProg P)) (i : Nat) (pt : TPt) (f : P → P) (k : RProg P) (h : ps[i]? = some (.out pt f k)) :
      RStep ops (g, ps) ({ g with dest := fun q => if q = pt then f (g.dest q) else g.dest q }, ps.set i k)
  | ask (g : RGlob P) (ps : List (RProg P)) (i : Nat) (k : Bool → RProg P) (h : ps[i]? = some (.ask k)) :
      RStep ops (g, ps) (g, ps.set i (k g.aborted))
  | cancel (g : RGlob P) (ps : List (RProg P)) (h : g.aborted = false) : RStep ops (g, ps) ({ g with aborted := true }, ps)

/-- `n` steps. -/
inductive RSteps {P M : Type} (ops : PicOps P M) : Nat → RGlob P × List (RProg P) → RGlob P × List (RProg P) → Prop where
  | refl (c : RGlob P × List (RProg P)) : RSteps ops 0 c c
  | tail {n : Nat} {c c' c'' : RGlob P × List (RProg P)} (h : RSteps ops n c c') (s : RStep ops c' c'') : RSteps ops (n + 1) c c''

end Psd
