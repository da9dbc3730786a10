import Verif.Model.CTree

/-!
# Finding the encoding of layer names

/repo/composite/builder.go with its state: which encoding was found, and what the detector was asked. The encodings of golang.org/x/text are a
parameter.
-/

namespace Psd

/-- What `Options.LayerNameEncodingDetector` gives for bytes (`none` is a nil encoding), what decoding with an encoding gives (`none` is an
error), and `encoding.Nop`. -/
structure Namer (Enc : Type) where
  detect : List UInt8 → Option Enc
  decode : Enc → List UInt8 → Option (List UInt8)
  nop : Enc

/-- builder.go:17 `LayerNameEncoding`, and what the detector was asked so far. -/
structure NameState (Enc : Type) where
  enc : Option Enc := none
  calls : List (List UInt8) := []

variable {Enc : Type}

mutual

/-- builder.go:92-95, 107-110: one layer. -/
def gatherOne : LTree LayerRec → List (List UInt8)
  | .node l kids => l.mbcsName :: (if kids.length > 0 then gatherNames kids else [])

/-- builder.go:89-98 `gatherLayerName` for the children of a layer, 105-111 for the layers of the file. -/
def gatherNames : List (LTree LayerRec) → List (List UInt8)
  | [] => []
  | k :: ks => gatherOne k ++ gatherNames ks

end

/-- builder.go:100-118 `getLayerNameEncoding`; `doc` are the layers of the file. `New` always sets a detector (layer.go:207-209). -/
def getEncoding (N : Namer Enc) (doc : List (LTree LayerRec)) (st : NameState Enc) : Option Enc × NameState Enc :=
  match st.enc with
  | some e => (some e, st)
  | none =>
    let s := gatherNames doc
    if s.length > 0 then (N.detect s.flatten, ⟨N.detect s.flatten, st.calls ++ [s.flatten]⟩) else (some N.nop, ⟨some N.nop, st.calls⟩)

/-- builder.go:23-32: the name of a layer; calling a method of a nil encoding panics. -/
def layerName (N : Namer Enc) (doc : List (LTree LayerRec)) (l : LayerRec) (st : NameState Enc) : Res (List UInt8 × NameState Enc) :=
  if l.unicodeName = [] ∧ l.mbcsName ≠ [] then
    match getEncoding N doc st with
    | (none, _) => .panic .nilDeref
    | (some e, st) => .ok (match N.decode e l.mbcsName with | none => l.mbcsName | some n => n, st)
  else .ok (l.unicodeName, st)

mutual

/-- builder.go:20-58 `buildLayer`, without `b.Rect`. -/
def buildLayerNamed (grow : Nat → Nat) (N : Namer Enc) (doc : List (LTree LayerRec)) : LTree LayerRec → Ptr → CHeap → NameState Enc → Res (CHeap × NameState Enc)
  | .node l kids, p, h, st => do
    let (n, st) ← layerName N doc l st
    buildKidsNamed grow N doc kids (some p) p (h.set p { h.at_ p with attr := { attrOf some l with name := n } }) st

/-- builder.go:54-57 with `parent = l`, composite/layer.go:228-231 with `parent = nil`. -/
def buildKidsNamed (grow : Nat → Nat) (N : Namer Enc) (doc : List (LTree LayerRec)) : List (LTree LayerRec) → (parent : Option Ptr) → Ptr → CHeap → NameState Enc →
    Res (CHeap × NameState Enc)
  | [], _, _, h, st => .ok (h, st)
  | k :: ks, parent, p, h, st => do
    let (h, s) := h.append grow (h.at_ p).children { parent := parent }
    let h := h.set p { h.at_ p with children := s }
    let (h, st) ← buildLayerNamed grow N doc k (s.arr, s.len - 1) h st
    buildKidsNamed grow N doc ks parent p h st

end

/-- composite/layer.go:216-232: the layers of a new tree, and what the detector was asked. -/
def newTreeNamed (grow : Nat → Nat) (N : Namer Enc) (fuel : Nat) (layers : List (LTree LayerRec)) : Res (CHeap × List (List UInt8)) := do
  let h : CHeap := { next := 2, at_ := fun q => if q = rootPtr then { attr := rootAttr } else {} }
  let (h, st) ← buildKidsNamed grow N layers layers none rootPtr h {}
  .ok (registerClips fuel (h.at_ rootPtr).children h, st.calls)

end Psd
