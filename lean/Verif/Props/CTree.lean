import Verif.Lemmas.Clipping

/-!
# C53, C54: the tree made by `New`
-/

namespace Psd

def CHeap.NoClips (h : CHeap) : Prop := ∀ q, (h.at_ q).clip = [] ∧ (h.at_ q).clippedBy = none

theorem CHeap.NoClips.set {h : CHeap} (hn : h.NoClips) (p : Ptr) (l : CLayer) (hl : l.clip = [] ∧ l.clippedBy = none) : (h.set p l).NoClips := by
  intro q
  rw [CHeap.set_at]
  split
  · exact hl
  · exact hn q

theorem CHeap.NoClips.append {h : CHeap} (hn : h.NoClips) (grow : Nat → Nat) (s : LSlice) (v : CLayer) (hl : v.clip = [] ∧ v.clippedBy = none) :
    (h.append grow s v).1.NoClips := by
  unfold CHeap.append
  split
  · exact hn.set _ _ hl
  · intro q
    simp only
    split
    · split
      · exact hn _
      · split
        · exact hl
        · exact ⟨rfl, rfl⟩
    · exact hn q

mutual

theorem buildLayer_noClips (grow : Nat → Nat) (dec : List UInt8 → Option (List UInt8)) : ∀ (t : LTree LayerRec) (p : Ptr) (h : CHeap), h.NoClips →
    (buildLayer grow dec t p h).NoClips
  | .node l kids, p, h, hn => by
    rw [buildLayer]
    exact buildKids_noClips grow dec kids _ p _ (hn.set p _ (hn p))

theorem buildKids_noClips (grow : Nat → Nat) (dec : List UInt8 → Option (List UInt8)) : ∀ (ks : List (LTree LayerRec)) (par : Option Ptr) (p : Ptr) (h : CHeap), h.NoClips →
    (buildKids grow dec ks par p h).NoClips
  | [], _, _, h, hn => by
    rw [buildKids]
    exact hn
  | k :: ks, par, p, h, hn => by
    rw [buildKids]
    have h1 := hn.append grow (h.at_ p).children { parent := par } ⟨rfl, rfl⟩
    exact buildKids_noClips grow dec ks par p _ (buildLayer_noClips grow dec k _ _ (h1.set p _ (h1 p)))

end

/-- All about a new tree. -/
theorem newTree_spec (grow : Nat → Nat) (dec : List UInt8 → Option (List UInt8)) (fuel : Nat) (layers : List (LTree LayerRec)) (hf : depthAll layers ≤ fuel) :
    ∃ A F, ((newTree grow dec fuel layers).at_ rootPtr).attr = rootAttr ∧ ((newTree grow dec fuel layers).at_ rootPtr).parent = none ∧
      ((newTree grow dec fuel layers).at_ rootPtr).children.len = layers.length ∧
      BuiltKids dec (newTree grow dec fuel layers) A layers none ((newTree grow dec fuel layers).at_ rootPtr).children.arr 0 F ∧
      ClippingOk (newTree grow dec fuel layers) ((newTree grow dec fuel layers).at_ rootPtr).children.arr layers.length ∧
      AllOkKids (newTree grow dec fuel layers) layers ((newTree grow dec fuel layers).at_ rootPtr).children.arr 0 ∧
      ((newTree grow dec fuel layers).at_ rootPtr).clip = [] ∧ ((newTree grow dec fuel layers).at_ rootPtr).clippedBy = none ∧
      rootPtr.1 < (newTree grow dec fuel layers).next ∧ ∀ q, A q → q.1 < (newTree grow dec fuel layers).next := by
  obtain ⟨h0, eh0⟩ : ∃ h0 : CHeap, ({ next := 2, at_ := fun q => if q = rootPtr then { attr := rootAttr } else {} } : CHeap) = h0 := ⟨_, rfl⟩
  have er : h0.at_ rootPtr = { attr := rootAttr } := by rw [← eh0]; rfl
  have en : h0.next = 2 := by rw [← eh0]
  obtain ⟨s', F, sp⟩ := buildKids_spec grow dec layers none rootPtr h0 {} (by rw [er]) (by rw [en]; decide) (by decide) (by rw [en]; decide) (by decide) (by decide) (fun _ => rfl)
  have hnc : (buildKids grow dec layers none rootPtr h0).NoClips := by
    apply buildKids_noClips
    rw [← eh0]
    intro q
    simp only
    split <;> exact ⟨rfl, rfl⟩
  have hchildren : ((buildKids grow dec layers none rootPtr h0).at_ rootPtr).children = s' := by rw [sp.self]
  have reg := registerClips_spec dec (KidsArea h0 (buildKids grow dec layers none rootPtr h0) {} s') fuel layers none s' F (buildKids grow dec layers none rootPtr h0)
    (by rw [sp.len]; exact Nat.zero_add _) hf sp.built (fun hm => (sp.rangeF _ hm).2.2 rfl) sp.nodup (fun q _ => hnc q)
  have enew : newTree grow dec fuel layers = registerClips fuel s' (buildKids grow dec layers none rootPtr h0) := by
    unfold newTree
    dsimp only
    rw [eh0, hchildren]
  rw [← enew] at reg
  have hroot : (newTree grow dec fuel layers).at_ rootPtr = (buildKids grow dec layers none rootPtr h0).at_ rootPtr :=
    reg.frame rootPtr (fun e => sp.arrP e.symm) (fun hm => by
      have h1 := (sp.rangeF _ hm).1
      have h2 : rootPtr.1 = 1 := rfl
      omega)
  obtain ⟨c1, c2, c3⟩ := CLayer.core_eq (reg.core rootPtr)
  rw [sp.self] at c1 c2 c3
  have c3 : ((newTree grow dec fuel layers).at_ rootPtr).children = s' := c3
  refine ⟨KidsArea h0 (buildKids grow dec layers none rootPtr h0) {} s', F, by rw [c1, er], by rw [c2, er], by rw [c3, sp.len]; exact Nat.zero_add _, ?_, ?_, ?_, ?_, ?_, ?_, ?_⟩
  · rw [c3]
    exact BuiltKids.mono (fun _ h => h) (fun q _ => reg.core q) _ _ _ _ _ sp.built
  · rw [c3]; exact reg.ok
  · rw [c3]; exact reg.kids
  · rw [hroot]; exact (hnc _).1
  · rw [hroot]; exact (hnc _).2
  · rw [reg.next]
    have := sp.next
    show 1 < _
    omega
  · rintro q (⟨_, q2, _⟩ | ⟨q1, q2, _⟩)
    · rw [reg.next]; exact q2
    · have : q.1 = 0 := q2
      omega

theorem BuiltKids.get {dec : List UInt8 → Option (List UInt8)} {h : CHeap} {A : Ptr → Prop} {par : Option Ptr} {arr : Nat} :
    ∀ (ks : List (LTree LayerRec)) (i j : Nat) (F : List Nat) (k : LTree LayerRec), BuiltKids dec h A ks par arr i F → AllOkKids h ks arr i → ks[j]? = some k →
    (h.at_ (arr, i + j)).parent = par ∧ (∃ pp F', Built dec h A k (arr, i + j) pp F') ∧ AllOk h k (arr, i + j)
  | [], _, _, _, _, _, _, hj => by simp at hj
  | x :: xs, i, j, F, k, hb, ok, hj => by
    unfold BuiltKids at hb
    unfold AllOkKids at ok
    obtain ⟨b1, F1, F2, rfl, ⟨pp, b3⟩, b4⟩ := hb
    cases j with
    | zero =>
      simp only [List.getElem?_cons_zero, Option.some.injEq] at hj
      subst hj
      exact ⟨b1, ⟨pp, F1, b3⟩, ok.1⟩
    | succ j =>
      rw [List.getElem?_cons_succ] at hj
      have := BuiltKids.get xs (i + 1) j F2 k b4 ok.2 hj
      rwa [show i + 1 + j = i + (j + 1) by omega] at this

theorem Built.path {dec : List UInt8 → Option (List UInt8)} {h : CHeap} {A : Ptr → Prop} : ∀ (π : List Nat) (t : LTree LayerRec) (p pp : Ptr) (F : List Nat),
    Built dec h A t p pp F → AllOk h t p →
    match t.sub π with
    | some t' => ∃ q pp' F', slotAt h p π = some q ∧ Built dec h A t' q pp' F' ∧ AllOk h t' q
    | none => slotAt h p π = none
  | [], t, p, pp, F, hb, ok => by
    have : t.sub [] = some t := by cases t; rfl
    rw [this]
    exact ⟨p, pp, F, rfl, hb, ok⟩
  | i :: π, .node l kids, p, pp, F, hb, ok => by
    have hb0 := hb
    unfold Built at hb
    obtain ⟨_, _, _, _, b5, Fs, b6, b7⟩ := hb
    unfold AllOk at ok
    rw [LTree.sub, slotAt, b5]
    cases hk : kids[i]? with
    | none =>
      rw [List.getElem?_eq_none_iff] at hk
      rw [if_neg (by omega)]
    | some k =>
      obtain ⟨hi, _⟩ := List.getElem?_eq_some_iff.1 hk
      rw [if_pos hi]
      obtain ⟨_, ⟨pp', F', c2⟩, c3⟩ := BuiltKids.get kids 0 i Fs k b7 ok.2 hk
      rw [Nat.zero_add] at c2 c3
      exact Built.path π k _ pp' F' c2 c3

/-- A path through a new tree leads to the layer of the document on that path. -/
theorem newTree_path (grow : Nat → Nat) (dec : List UInt8 → Option (List UInt8)) (fuel : Nat) (layers : List (LTree LayerRec)) (hf : depthAll layers ≤ fuel) :
    ∃ A, (∀ q, A q → q.1 < (newTree grow dec fuel layers).next) ∧ ∀ i π, match docAt layers (i :: π) with
      | some t => ∃ q pp' F', slotAt (newTree grow dec fuel layers) rootPtr (i :: π) = some q ∧ Built dec (newTree grow dec fuel layers) A t q pp' F' ∧
          AllOk (newTree grow dec fuel layers) t q ∧ (π = [] → ((newTree grow dec fuel layers).at_ q).parent = none)
      | none => slotAt (newTree grow dec fuel layers) rootPtr (i :: π) = none := by
  obtain ⟨A, F, _, _, h3, h4, h5, h6, _, _, _, h10⟩ := newTree_spec grow dec fuel layers hf
  refine ⟨A, h10, fun i π => ?_⟩
  rw [docAt, slotAt, h3]
  cases hk : layers[i]? with
  | none =>
    rw [List.getElem?_eq_none_iff] at hk
    rw [if_neg (by omega)]
  | some k =>
    obtain ⟨hi, _⟩ := List.getElem?_eq_some_iff.1 hk
    rw [if_pos hi]
    obtain ⟨c1, ⟨pp', F', c2⟩, c3⟩ := BuiltKids.get layers 0 i F k h4 h6 hk
    rw [Nat.zero_add] at c1 c2 c3
    have := Built.path π k _ pp' F' c2 c3
    cases hs : k.sub π with
    | none => simpa only [hs] using this
    | some t =>
      simp only [hs] at this ⊢
      obtain ⟨q, pp', F', d1, d2, d3⟩ := this
      refine ⟨q, pp', F', d1, d2, d3, ?_⟩
      rintro rfl
      simp only [slotAt, Option.some.injEq] at d1
      rw [← d1]
      exact c1

theorem attrOf_shows (dec : List UInt8 → Option (List UInt8)) (l : LayerRec) : ShowsLayer dec l (attrOf dec l) where
  number := rfl
  unicodeName h := by simp [attrOf, h]
  otherName h h' n hn := by simp [attrOf, h, h', hn]
  rawName h h' hn := by simp [attrOf, h, h', hn]
  noName h h' := by simp [attrOf, h, h']
  folder := rfl
  folderOpen := rfl
  visible := rfl
  opacity := rfl
  clipping := rfl
  blendClipped := rfl
  folderMode h := by simp [attrOf, h]
  layerMode h h' := by simp [attrOf, h, h']
  noPass h h' := by simp [attrOf, h, h']
  mask := by
    simp only [attrOf, Rect.empty, Bool.and_eq_true, Bool.not_eq_true', Bool.or_eq_false_iff, decide_eq_false_iff_not, ge_iff_le,
      Int.not_le]
  maskDefault := rfl

/-- The tree made by `New` has the layers of the document, each with its attributes and in its place. -/
theorem C53_tree_is_the_document (grow : Nat → Nat) (dec : List UInt8 → Option (List UInt8)) (fuel : Nat) (layers : List (LTree LayerRec))
    (hf : depthAll layers ≤ fuel) :
    ((newTree grow dec fuel layers).at_ rootPtr).attr = rootAttr ∧
    ((newTree grow dec fuel layers).at_ rootPtr).children.len = layers.length ∧
    ∀ i π, match docAt layers (i :: π) with
      | some (.node l kids) => ∃ q, slotAt (newTree grow dec fuel layers) rootPtr (i :: π) = some q ∧
          ShowsLayer dec l ((newTree grow dec fuel layers).at_ q).attr ∧ ((newTree grow dec fuel layers).at_ q).children.len = kids.length
      | none => slotAt (newTree grow dec fuel layers) rootPtr (i :: π) = none := by
  obtain ⟨A, F, h1, _, h3, _, _, _, _, _, _, _⟩ := newTree_spec grow dec fuel layers hf
  refine ⟨h1, h3, fun i π => ?_⟩
  obtain ⟨A', _, hp⟩ := newTree_path grow dec fuel layers hf
  have := hp i π
  cases hs : docAt layers (i :: π) with
  | none => simpa only [hs] using this
  | some t =>
    simp only [hs] at this
    obtain ⟨q, pp', F', d1, d2, d3, _⟩ := this
    cases t with
    | node l kids =>
      unfold Built at d2
      exact ⟨q, d1, d2.2.2.1 ▸ attrOf_shows dec l, d2.2.2.2.2.1⟩

/-- C53: in the tree made by `New`, whatever the document and however slices grow, the children of the root and of every layer have
the clipping links they should. -/
theorem C53_clipping_groups (grow : Nat → Nat) (dec : List UInt8 → Option (List UInt8)) (fuel : Nat) (layers : List (LTree LayerRec))
    (hf : depthAll layers ≤ fuel) (π : List Nat) (q : Ptr) (hq : slotAt (newTree grow dec fuel layers) rootPtr π = some q) :
    ClippingOk (newTree grow dec fuel layers) ((newTree grow dec fuel layers).at_ q).children.arr ((newTree grow dec fuel layers).at_ q).children.len := by
  cases π with
  | nil =>
    obtain ⟨A, F, _, _, h3, _, h5, _, _, _, _, _⟩ := newTree_spec grow dec fuel layers hf
    simp only [slotAt, Option.some.injEq] at hq
    rw [← hq, h3]
    exact h5
  | cons i π =>
    obtain ⟨A', _, hp⟩ := newTree_path grow dec fuel layers hf
    have := hp i π
    cases hs : docAt layers (i :: π) with
    | none =>
      simp only [hs] at this
      rw [hq] at this
      cases this
    | some t =>
      simp only [hs] at this
      obtain ⟨q', pp', F', d1, d2, d3, _⟩ := this
      rw [hq] at d1
      injection d1 with d1
      subst d1
      cases t with
      | node l kids =>
        unfold Built at d2
        unfold AllOk at d3
        rw [d2.2.2.2.2.1]
        exact d3.1

/-- C54, as far as it is true: below the top level, `Parent` of a layer is a layer that agrees with the folder that contains it in everything but
the clipping links: same identity, same attributes, same parent, and the same `Children`. It need not be that folder itself: see
`C54_parent_is_stale`. At the top level `Parent` is nil: see `C54_top_level_has_no_parent`. -/
theorem C54_parent_partial (grow : Nat → Nat) (dec : List UInt8 → Option (List UInt8)) (fuel : Nat) (layers : List (LTree LayerRec))
    (hf : depthAll layers ≤ fuel) (i : Nat) (π : List Nat) (q : Ptr) (hq : slotAt (newTree grow dec fuel layers) rootPtr (i :: π) = some q)
    (j : Nat) (hj : j < ((newTree grow dec fuel layers).at_ q).children.len) :
    ∃ pp, ((newTree grow dec fuel layers).at_ (((newTree grow dec fuel layers).at_ q).children.arr, j)).parent = some pp ∧
      ((newTree grow dec fuel layers).at_ pp).attr = ((newTree grow dec fuel layers).at_ q).attr ∧
      ((newTree grow dec fuel layers).at_ pp).parent = ((newTree grow dec fuel layers).at_ q).parent ∧
      ((newTree grow dec fuel layers).at_ pp).children = ((newTree grow dec fuel layers).at_ q).children := by
  obtain ⟨A', _, hp⟩ := newTree_path grow dec fuel layers hf
  have := hp i π
  cases hs : docAt layers (i :: π) with
  | none =>
    simp only [hs] at this
    rw [hq] at this
    cases this
  | some t =>
    simp only [hs] at this
    obtain ⟨q', pp', F', d1, d2, d3, _⟩ := this
    rw [hq] at d1
    injection d1 with d1
    subst d1
    cases t with
    | node l kids =>
      unfold Built at d2
      unfold AllOk at d3
      obtain ⟨_, _, _, b4, b5, Fs, _, b7⟩ := d2
      have hk : kids[j]? = some (kids[j]'(by omega)) := List.getElem?_eq_getElem _
      obtain ⟨c1, _⟩ := BuiltKids.get kids 0 j Fs _ b7 d3.2 hk
      rw [Nat.zero_add] at c1
      exact ⟨pp', c1, CLayer.core_eq b4⟩

/-- C54 is false: in every document `Parent` of every top-level layer is nil, so climbing never reaches the root. -/
theorem C54_top_level_has_no_parent (grow : Nat → Nat) (dec : List UInt8 → Option (List UInt8)) (fuel : Nat) (layers : List (LTree LayerRec))
    (hf : depthAll layers ≤ fuel) (i : Nat) (hi : i < layers.length) :
    ∃ q, slotAt (newTree grow dec fuel layers) rootPtr [i] = some q ∧ ((newTree grow dec fuel layers).at_ q).parent = none := by
  obtain ⟨A', _, hp⟩ := newTree_path grow dec fuel layers hf
  have := hp i []
  have hd : docAt layers [i] = some layers[i] := by
    rw [docAt, List.getElem?_eq_getElem hi]
    cases layers[i]
    rfl
  rw [hd] at this
  obtain ⟨q, _, _, d1, _, _, d2⟩ := this
  exact ⟨q, d1, d2 rfl⟩

/-- A layer of the examples below: its number, whether it is a clipping layer, and what is in it. -/
def exCLayer (id : Nat) (clipping : Bool) (kids : List (LTree LayerRec)) : LTree LayerRec :=
  .node { seqID := id, sdType := if kids.isEmpty then 0 else 1, clipping := clipping } kids

/-- A folder with one layer in it, and a clipping layer above the folder. -/
def exCDoc : List (LTree LayerRec) := [exCLayer 0 false [exCLayer 1 false []], exCLayer 2 true []]

/-- C54 is false below the top level too: adding the second top-level layer moves the first to a new array (Go's `append` leaves no spare
room for one element of this size), and the layer in the folder keeps the old copy as its `Parent`. That copy does not know that the folder
is a clipping base. -/
theorem C54_parent_is_stale :
    let h := newTree (fun _ => 0) some 2 exCDoc
    ∃ folder child stale, slotAt h rootPtr [0] = some folder ∧ slotAt h rootPtr [0, 0] = some child ∧ (h.at_ child).parent = some stale ∧
      stale ≠ folder ∧ (h.at_ stale).attr.seqID = 0 ∧ (h.at_ folder).clip ≠ [] ∧ (h.at_ stale).clip = [] := by
  refine ⟨(4, 0), (3, 0), (2, 0), ?_⟩
  decide +kernel

/-! The hypotheses are met: a document two levels deep, with layers at all the paths. -/
example : depthAll exCDoc ≤ 2 := by decide
example : docAt exCDoc [0, 0] = some (exCLayer 1 false []) := rfl

/-- Four siblings: a clipping layer with nothing below, a base, and two clipping layers on it. -/
example :
    let h := newTree (fun n => n) some 1 [exCLayer 0 true [], exCLayer 1 false [], exCLayer 2 true [], exCLayer 3 true []]
    let arr := (h.at_ rootPtr).children.arr
    (h.at_ (arr, 0)).clippedBy = none ∧ (h.at_ (arr, 2)).clippedBy = some (arr, 1) ∧ (h.at_ (arr, 3)).clippedBy = some (arr, 1) ∧
      (h.at_ (arr, 1)).clip = [some (arr, 2), some (arr, 3)] := by
  decide +kernel

end Psd
