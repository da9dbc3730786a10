import Verif.Model.Layer
import Verif.Model.Names

/-!
# The layer tree of the compositor

/repo/composite/builder.go, cloner.go and the parts of layer.go that make a `Tree`. Layers live in arrays: the children of a
layer are a slice, and `append` may move them to a new array while pointers into the old one stay. So the tree is modelled on a
heap: a pointer to a layer is the number of an array and an index. The heap gives a zero layer for slots never written; every
index the code uses is within the slice it indexes.
-/

namespace Psd

/-- `*Layer`: array and index. -/
abbrev Ptr := Nat × Nat

/-- composite/layer.go:109-126: the fields of `Layer` that are not links. -/
structure CAttr where
  seqID : Int := 0
  name : List UInt8 := []
  folder : Bool := false
  folderOpen : Bool := false
  visible : Bool := false
  blendMode : List UInt8 := []
  opacity : Nat := 0
  clipping : Bool := false
  blendClippedElements : Bool := false
  maskEnabled : Bool := false
  maskDefaultColor : Nat := 0
  deriving DecidableEq, Repr

/-- `[]Layer`: array, length and capacity; it starts at index 0. Array 0 is the nil slice. -/
structure LSlice where
  arr : Nat := 0
  len : Nat := 0
  cap : Nat := 0
  deriving DecidableEq, Repr

/-- composite/layer.go:114-137 `Layer`; `none` is a nil pointer. -/
structure CLayer where
  attr : CAttr := {}
  parent : Option Ptr := none
  children : LSlice := {}
  clippedBy : Option Ptr := none
  clip : List (Option Ptr) := []
  deriving DecidableEq, Repr

/-- The arrays allocated so far are those below `next`. -/
structure CHeap where
  next : Nat
  at_ : Ptr → CLayer

/-- Assignment to a layer. -/
def CHeap.set (h : CHeap) (p : Ptr) (l : CLayer) : CHeap := { h with at_ := fun q => if q = p then l else h.at_ q }

/-- `append(s, v)`; `grow` is the runtime's choice of spare room in a new array. -/
def CHeap.append (grow : Nat → Nat) (h : CHeap) (s : LSlice) (v : CLayer) : CHeap × LSlice :=
  if s.len < s.cap then (h.set (s.arr, s.len) v, { s with len := s.len + 1 })
  else
    ({ next := h.next + 1,
       at_ := fun q => if q.1 = h.next then (if q.2 < s.len then h.at_ (s.arr, q.2) else if q.2 = s.len then v else {}) else h.at_ q },
     ⟨h.next, s.len + 1, s.len + 1 + grow s.len⟩)

/-- `make([]Layer, n)`. -/
def CHeap.make (h : CHeap) (n : Nat) : CHeap × LSlice :=
  ({ next := h.next + 1, at_ := fun q => if q.1 = h.next then {} else h.at_ q }, ⟨h.next, n, n⟩)

/-! ### builder.go -/

/-- builder.go:21-51: the plain fields. `decode` is the decoder of names that are not Unicode (`LayerNameEncodingDetector`);
`none` is an error. -/
def attrOf (decode : List UInt8 → Option (List UInt8)) (l : LayerRec) : CAttr where
  seqID := l.seqID
  name := if l.unicodeName = [] ∧ l.mbcsName ≠ [] then (decode l.mbcsName).getD l.mbcsName else l.unicodeName
  folder := l.folder
  folderOpen := l.folderIsOpen
  visible := l.visible
  blendMode := if l.folder then l.sdBlendMode else if l.blendMode = ascii "pass" then ascii "norm" else l.blendMode
  opacity := l.opacity.toNat
  clipping := l.clipping
  blendClippedElements := l.blendClippedElements
  maskEnabled := l.mask.enabled && !l.mask.rect.empty
  maskDefaultColor := l.mask.defaultColor

mutual

/-- builder.go:20-58 `buildLayer`, without `b.Rect`. -/
def buildLayer (grow : Nat → Nat) (dec : List UInt8 → Option (List UInt8)) : LTree LayerRec → Ptr → CHeap → CHeap
  | .node l kids, p, h => buildKids grow dec kids (some p) p (h.set p { h.at_ p with attr := attrOf dec l })

/-- builder.go:54-57 with `parent = l`, composite/layer.go:228-231 with `parent = nil`. -/
def buildKids (grow : Nat → Nat) (dec : List UInt8 → Option (List UInt8)) : List (LTree LayerRec) → (parent : Option Ptr) → Ptr → CHeap → CHeap
  | [], _, _, h => h
  | k :: ks, parent, p, h =>
    let (h, s) := h.append grow (h.at_ p).children { parent := parent }
    let h := h.set p { h.at_ p with children := s }
    let h := buildLayer grow dec k (s.arr, s.len - 1) h
    buildKids grow dec ks parent p h

end

/-- builder.go:62-65: `n` rounds of the loop from `i` on. -/
def reverseLoop {α : Type} : (n i : Nat) → List α → List α
  | 0, _, ls => ls
  | n + 1, i, ls =>
    let j := ls.length - i - 1
    match ls[i]?, ls[j]? with
    | some a, some b => reverseLoop n (i + 1) ((ls.set i b).set j a)
    | _, _ => ls

/-- builder.go:60-66 `reverse`. -/
def goReverse {α : Type} (ls : List α) : List α := reverseLoop (ls.length / 2) 0 ls

/-- builder.go:79-81. -/
def setClippedBy (base : Ptr) : List Ptr → CHeap → CHeap
  | [], h => h
  | c :: cs, h => setClippedBy base cs (h.set c { h.at_ c with clippedBy := some base })

/-- builder.go:70-87: the layers below index `i`; `inner` is the recursive call. -/
def registerLoop (inner : LSlice → CHeap → CHeap) (arr : Nat) : (i : Nat) → (clip : List Ptr) → CHeap → CHeap
  | 0, _, h => h
  | i + 1, clip, h =>
    let h := if (h.at_ (arr, i)).children.len > 0 then inner (h.at_ (arr, i)).children h else h
    if (h.at_ (arr, i)).attr.clipping then registerLoop inner arr i (clip ++ [(arr, i)]) h
    else if clip.length > 0 then
      let h := setClippedBy (arr, i) clip h
      registerLoop inner arr i [] (h.set (arr, i) { h.at_ (arr, i) with clip := (goReverse clip).map some })
    else registerLoop inner arr i clip h

/-- builder.go:68-87 `registerClippingGroup`; `fuel` bounds the depth of the recursion. -/
def registerClips : (fuel : Nat) → LSlice → CHeap → CHeap
  | 0, _, h => h
  | f + 1, s, h => registerLoop (registerClips f) s.arr s.len [] h

/-- composite/layer.go:220-227. -/
def rootAttr : CAttr := { seqID := -1, folder := true, folderOpen := true, visible := true, blendMode := ascii "norm", opacity := 255 }

/-- Where the root of a new tree is. -/
def rootPtr : Ptr := (1, 0)

/-- composite/layer.go:216-232: the layers of a new tree. -/
def newTree (grow : Nat → Nat) (dec : List UInt8 → Option (List UInt8)) (fuel : Nat) (layers : List (LTree LayerRec)) : CHeap :=
  let h : CHeap := { next := 2, at_ := fun q => if q = rootPtr then { attr := rootAttr } else {} }
  let h := buildKids grow dec layers none rootPtr h
  registerClips fuel (h.at_ rootPtr).children h

/-! ### cloner.go -/

/-- cloner.go:3 `cloner`. -/
abbrev CloneMap := Int → Option Ptr

/-- cloner.go:9-12: `n` rounds from `i` on; `inner` is the recursive call. -/
def cloneKids (inner : (src dest : Ptr) → CHeap × CloneMap → CHeap × CloneMap) (src dest : Ptr) : (n i : Nat) → CHeap × CloneMap → CHeap × CloneMap
  | 0, _, st => st
  | n + 1, i, (h, cl) =>
    let (h, cl) := inner ((h.at_ src).children.arr, i) ((h.at_ dest).children.arr, i) (h, cl)
    let c : Ptr := ((h.at_ dest).children.arr, i)
    let h := h.set c { h.at_ c with parent := some dest }
    cloneKids inner src dest n (i + 1) (h, cl)

/-- cloner.go:5-13 `clone`; `fuel` bounds the depth of the recursion. -/
def cloneLayer : (fuel : Nat) → (src dest : Ptr) → CHeap × CloneMap → CHeap × CloneMap
  | 0, _, _, st => st
  | f + 1, src, dest, (h, cl) =>
    let h := h.set dest (h.at_ src)
    let cl : CloneMap := fun id => if id = (h.at_ dest).attr.seqID then some dest else cl id
    let n := (h.at_ src).children.len
    let (h, s) := h.make n
    let h := h.set dest { h.at_ dest with children := s }
    cloneKids (cloneLayer f) src dest n 0 (h, cl)

/-- `cl[p.SeqID]`; a nil `p` panics in Go, `none` here stands for the nil pointer too (no tree holds one in `Clip`). -/
def CloneMap.find (cl : CloneMap) (h : CHeap) (p : Option Ptr) : Option Ptr :=
  match p with
  | some p => cl (h.at_ p).attr.seqID
  | none => none

/-- cloner.go:20-22. -/
def cloneBase (cl : CloneMap) (dest : Ptr) (base : Option Ptr) (h : CHeap) : CHeap :=
  match base with
  | some b => h.set dest { h.at_ dest with clippedBy := cl.find h (some b) }
  | none => h

/-- cloner.go:23-25; `inner` is the recursive call. -/
def cloneClipKids (inner : (src dest : Ptr) → CHeap → CHeap) (src dest : Ptr) : (n i : Nat) → CHeap → CHeap
  | 0, _, h => h
  | n + 1, i, h =>
    let h := inner ((h.at_ src).children.arr, i) ((h.at_ dest).children.arr, i) h
    cloneClipKids inner src dest n (i + 1) h

/-- cloner.go:15-27 `registerClippingGroup`; `fuel` bounds the depth of the recursion. -/
def cloneClips : (fuel : Nat) → (cl : CloneMap) → (src dest : Ptr) → CHeap → CHeap
  | 0, _, _, _, h => h
  | f + 1, cl, src, dest, h =>
    let h := h.set dest { h.at_ dest with clip := (h.at_ src).clip.map (cl.find h) }
    let h := cloneBase cl dest (h.at_ src).clippedBy h
    cloneClipKids (cloneClips f cl) src dest (h.at_ dest).children.len 0 h

/-- cloner.go:29-39 `Clone`: the layers. The new root is in an array of its own. -/
def cloneTree (fuel : Nat) (src : Ptr) (h : CHeap) : CHeap × Ptr :=
  let dest : Ptr := (h.next, 0)
  let h := { h with next := h.next + 1 }
  let (h, cl) := cloneLayer fuel src dest (h, fun _ => none)
  (cloneClips fuel cl src dest h, dest)

end Psd
