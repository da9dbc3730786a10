import Verif.Model.Renderer

/-!
# Painting without caches

What the layers of a tree look like at one tile, as a plain recursion over the tree: no caches, no pointers. The theorems about the
caches of the renderer compare it with this.
-/

namespace Psd

/-- Sibling layers from the bottom up, as seen at one tile: the attributes of the lowest one, its pixels and its mask's, what it
contains, the layers clipped to it, and the siblings above those. -/
inductive Stk (P M : Type) where
  | nil
  | layer (a : CAttr) (pic : Option P) (mask : Option M) (kids clips rest : Stk P M)

namespace Stk
variable {P M : Type}

def isNil : Stk P M → Bool
  | nil => true
  | layer .. => false

/-- The numbers of all layers, from the bottom up. -/
def ids : Stk P M → List Int
  | nil => []
  | layer a _ _ kids clips rest => a.seqID :: (kids.ids ++ (clips.ids ++ rest.ids))

/-- How deeply they are nested; a clipped layer counts as inside the layer it is clipped to. -/
def depth : Stk P M → Nat
  | nil => 0
  | layer _ _ _ kids clips rest => max (max kids.depth clips.depth + 1) rest.depth

end Stk

section
variable {P M : Type} (ops : PicOps P M)

/-- The layer is drawn at all. `forced`: as a clipped layer on its base. -/
def drawn (a : CAttr) (forced : Bool) (o : Nat) : Bool := a.visible && o != 0 && (!a.clipping || forced)

/-- How the opacity of what a folder of opacity `o` contains is scaled. -/
def kidScale (a : CAttr) (o : Nat) : Nat → Nat :=
  fun x => x * (if a.blendMode = passThrough then o * 32897 else 255 * 32897) / 2 ^ 23

/-- What the contents of a folder are painted on: a pass-through folder has what is below it. -/
def kidStart (a : CAttr) (b : P) : P := if a.blendMode = passThrough then ops.copy b else ops.blank

/-- The pixels of a layer without children. -/
def leafPic (a : CAttr) (mask : Option M) (b : P) : Option P → Option P
  | none => none
  | some p => some (applyMask ops a mask a.blendMode b (ops.copy p))

/-- The pixels of a folder whose contents are painted. -/
def folderPic (a : CAttr) (mask : Option M) (b : P) (r : Bool × P) : Option P :=
  if r.1 then some (applyMask ops a mask a.blendMode b r.2) else none

/-- The pixels of a layer of opacity `o` over `b`, with its mask and without the layers clipped to it; `none` if there is nothing to
see. `K` paints what it contains. -/
def ownPic (a : CAttr) (pic : Option P) (mask : Option M) (leaf : Bool) (K : (Nat → Nat) → P → Res (Bool × P)) (o : Nat) (b : P) : Res (Option P) :=
  if leaf then .ok (leafPic ops a mask b pic)
  else K (kidScale a o) (kidStart ops a b) >>= fun r => .ok (folderPic ops a mask b r)

/-- The layers clipped to the one with pixels `buf` are painted. -/
def clipPic (a : CAttr) (noClips : Bool) (C : P → Res (Bool × P)) : Option P → Res (Option P)
  | none => .ok none
  | some buf =>
    if noClips || !a.blendClippedElements then .ok (some buf)
    else C (ops.removeAlpha (ops.copy buf)) >>= fun r => .ok (some (ops.destIn r.2 buf))

/-- A layer's pixels `img` are put on `b`. -/
def place (a : CAttr) (noClips : Bool) (o : Nat) (b img : P) : Res P :=
  if a.blendMode = passThrough ∧ (noClips || a.blendClippedElements) = true then .ok (ops.copy img) else ops.draw o a.blendMode b img

/-- `none` leaves the picture alone. -/
def placeOpt (a : CAttr) (noClips : Bool) (o : Nat) (b : P) : Option P → Res (Bool × P)
  | none => .ok (false, b)
  | some img => place ops a noClips o b img >>= fun b => .ok (true, b)

/-- Layers painted on `b`: whether anything was, and the picture. `forced`: they are the layers clipped to some layer. -/
def paint : Stk P M → (forced : Bool) → (scale : Nat → Nat) → P → Res (Bool × P)
  | .nil, _, _, b => .ok (false, b)
  | .layer a pic mask kids clips rest, forced, scale, b =>
    (if drawn a forced (scale a.opacity) then
      (ownPic ops a pic mask kids.isNil (paint kids false) (scale a.opacity) b >>= clipPic ops a clips.isNil (paint clips true id)) >>=
        placeOpt ops a clips.isNil (scale a.opacity) b
    else .ok (false, b)) >>= fun r =>
    paint rest forced scale r.2 >>= fun r' => .ok (r.1 || r'.1, r'.2)

/-- The layer's picture, as it is kept in its cache. -/
def layerPic (a : CAttr) (pic : Option P) (mask : Option M) (kids clips : Stk P M) (o : Nat) (b : P) : Res (Option P) :=
  ownPic ops a pic mask kids.isNil (paint ops kids false) o b >>= clipPic ops a clips.isNil (paint ops clips true id)

/-- One layer painted. -/
def paintLayer (a : CAttr) (pic : Option P) (mask : Option M) (kids clips : Stk P M) (forced : Bool) (o : Nat) (b : P) : Res (Bool × P) :=
  if drawn a forced o then layerPic ops a pic mask kids clips o b >>= placeOpt ops a clips.isNil o b else .ok (false, b)

theorem paint_layer (a : CAttr) (pic : Option P) (mask : Option M) (kids clips rest : Stk P M) (forced : Bool) (scale : Nat → Nat) (b : P) :
    paint ops (.layer a pic mask kids clips rest) forced scale b =
      paintLayer ops a pic mask kids clips forced (scale a.opacity) b >>= fun r =>
        paint ops rest forced scale r.2 >>= fun r' => .ok (r.1 || r'.1, r'.2) := rfl

end

/-! ### The tree on the heap -/

/-- All are clipping layers. -/
def Stk.allClipping {P M : Type} : Stk P M → Prop
  | .nil => True
  | .layer a _ _ _ _ rest => a.clipping = true ∧ rest.allClipping

/-- The layers `i`, …, `n - 1` of an array of the scene are these, at tile `pt`, and their `Clip` lists name the layers clipped to them,
which are the next ones. -/
def View {P M : Type} (s : Scene P M) (pt : TPt) : Stk P M → (arr i n : Nat) → Prop
  | .nil, _, i, n => i = n
  | .layer a pic mask kids clips rest, arr, i, n =>
    ∃ j, i < j ∧ j ≤ n ∧ (s.h.at_ (arr, i)).attr = a ∧ s.pic a.seqID pt = pic ∧ (s.mask a.seqID).lookup pt = mask ∧
      View s pt kids (s.h.at_ (arr, i)).children.arr 0 (s.h.at_ (arr, i)).children.len ∧
      View s pt clips arr (i + 1) j ∧ clips.allClipping ∧ (a.clipping = true → j = i + 1) ∧
      (s.h.at_ (arr, i)).clip = (List.range' (i + 1) (j - (i + 1))).map (fun k => some (arr, k)) ∧
      View s pt rest arr j n

/-! ### Caches that are right -/

section
variable {P M : Type} (ops : PicOps P M)

/-- What a picture's layers are painted on: how their opacities are scaled, and the pixels below. -/
abbrev Ctx (P : Type) := Option ((Nat → Nat) × P)

/-- The result if there is one. -/
def Res.toOption {α : Type} : Res α → Option α
  | .ok a => some a
  | _ => none

/-- The opacity and the pixels below that a layer's own picture depends on: a layer that is not pass-through has its own picture
whatever is below it. `none`: it is not known, because the layer is not drawn. -/
def ownCtx (a : CAttr) (forced : Bool) (c : Ctx P) : Option (Nat × P) :=
  if a.clipping && !forced then none
  else if a.blendMode = passThrough then
    c.bind fun c => if drawn a forced (c.1 a.opacity) then some (c.1 a.opacity, c.2) else none
  else some (255, ops.blank)

/-- An entry of a layer's cache is right: it tells what painting would give. -/
def EntryOk (C : Int → Option CacheState) (I : Int → Option P) (id : Int) (expected : Res (Option P)) : Prop :=
  match C id with
  | none => True
  | some .cachedEmpty => expected = .ok none
  | some .cached => ∃ img, expected = .ok (some img) ∧ I id = some (ops.copy img)

/-- Some layer among these has pixels at the tile and is drawn, if its folder is. -/
def Stk.area : Stk P M → Bool
  | .nil => false
  | .layer a pic _ kids _ rest =>
    (a.visible && a.opacity != 0 && !a.clipping && (if kids.isNil then pic.isSome else kids.area)) || rest.area

/-- The layer has pixels at the tile, if it is drawn. -/
def ownArea (pic : Option P) (kids : Stk P M) : Bool := if kids.isNil then pic.isSome else kids.area

/-- The entry of a layer that is not drawn is right whenever it will be drawn: there is none, or there is nothing to see. -/
def EntryQuiet (C : Int → Option CacheState) (id : Int) (pic : Option P) (kids : Stk P M) : Prop :=
  C id = none ∨ C id = some .cachedEmpty ∧ ownArea pic kids = false

def EntryAt (C : Int → Option CacheState) (I : Int → Option P) (a : CAttr) (pic : Option P) (mask : Option M) (kids clips : Stk P M) :
    Option (Nat × P) → Prop
  | none => EntryQuiet C a.seqID pic kids
  | some c => EntryOk ops C I a.seqID (layerPic ops a pic mask kids clips c.1 c.2)

/-- What the layers clipped to a layer are painted on. -/
def clipCtx (a : CAttr) (pic : Option P) (mask : Option M) (kids : Stk P M) (c : Option (Nat × P)) : Ctx P :=
  c.bind fun c => (ownPic ops a pic mask kids.isNil (paint ops kids false) c.1 c.2).toOption.bind fun r =>
    r.map fun buf => (id, ops.removeAlpha (ops.copy buf))

/-- What the siblings above a layer are painted on. -/
def nextCtx (a : CAttr) (pic : Option P) (mask : Option M) (kids clips : Stk P M) (forced : Bool) (c : Ctx P) : Ctx P :=
  c.bind fun c => (paintLayer ops a pic mask kids clips forced (c.1 a.opacity) c.2).toOption.map fun r => (c.1, r.2)

/-- The entries at a tile for all these layers, and those in them and clipped to them, are right. -/
def Coh (C : Int → Option CacheState) (I : Int → Option P) : Stk P M → (forced : Bool) → Ctx P → Prop
  | .nil, _, _ => True
  | .layer a pic mask kids clips rest, forced, c =>
    (kids.isNil = false → EntryAt ops C I a pic mask kids clips (ownCtx ops a forced c)) ∧
    Coh C I kids false ((ownCtx ops a forced c).map fun c => (kidScale a c.1, kidStart ops a c.2)) ∧
    Coh C I clips true (clipCtx ops a pic mask kids (ownCtx ops a forced c)) ∧
    Coh C I rest forced (nextCtx ops a pic mask kids clips forced c)

end

end Psd
