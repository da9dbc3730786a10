import Verif.Lemmas.Scene
import Verif.Props.Cover

/-!
# C89, C90: from a file to its picture
-/

namespace Psd

/-- The layer's blend mode is known. -/
def KnownMode (l : LayerRec) : Prop :=
  (l.folder = false → blendMode l.blendMode ≠ none ∨ l.blendMode = ascii "pass") ∧
  (l.folder = true → blendMode l.sdBlendMode ≠ none ∨ l.sdBlendMode = ascii "pass" ∧ l.blendClippedElements = true)

section
variable {procs ts : Nat} {flat : List LayerRec}

theorem copied_seqIDs (hn : flat.map LayerRec.seqID = List.range flat.length) {w : Nat} {s : Import} (r : ImportRun procs ts (Import.start w flat) s) (hd : s.Done) :
    s.copied.map LayerRec.seqID = List.range flat.length := by
  obtain ⟨h1, h2⟩ := C76_copies_partial hn r hd
  rw [← hn]
  apply List.ext_getElem?
  intro j
  rw [List.getElem?_map, List.getElem?_map]
  rcases Nat.lt_or_ge j flat.length with hj | hj
  · obtain ⟨img, rect, mr, -, b, -⟩ := h2 j _ (List.getElem?_eq_getElem hj)
    rw [b, List.getElem?_eq_getElem hj]
    rfl
  · rw [List.getElem?_eq_none hj, List.getElem?_eq_none (by omega)]

theorem copied_all (hn : flat.map LayerRec.seqID = List.range flat.length) {w : Nat} {s : Import} (r : ImportRun procs ts (Import.start w flat) s) (hd : s.Done)
    {l' : LayerRec} (h : l' ∈ s.copied) : ∃ l ∈ flat, ∃ rect mr, l' = { l with rect := rect, mask := { l.mask with rect := mr } } := by
  obtain ⟨h1, h2⟩ := C76_copies_partial hn r hd
  obtain ⟨j, hj⟩ := List.mem_iff_getElem?.1 h
  have hlt : j < flat.length := by rw [← h1]; exact (List.getElem?_eq_some_iff.1 hj).1
  obtain ⟨img, rect, mr, -, b, -⟩ := h2 j _ (List.getElem?_eq_getElem hlt)
  rw [hj] at b
  exact ⟨_, List.getElem_mem hlt, rect, mr, Option.some.inj b⟩

/-- C89: the file's topmost layer is seen. If a file is loaded, in any execution, and then rendered, the picture shows every pixel of the topmost layer that is opaque in the file, if this layer
is an ordinary one in normal mode, visible at full opacity, without a mask in effect, and not a clipping layer. Every pixel of the layer that is on the canvas is kept (`Rect.keeps_of_canvas`). -/
theorem C89_top_layer_of_file_shows (grow : Nat → Nat) (dec : List UInt8 → Option (List UInt8)) (hp : 1 ≤ procs) (hts : 1 ≤ ts)
    (hn : flat.map LayerRec.seqID = List.range flat.length) (hkn : ∀ l ∈ flat, KnownMode l) {below : List LayerRec} {l : LayerRec} (hflat : flat = below ++ [l]) (hl : l.Solid)
    (hcl : l.clipping = false) (hsd : l.sdType ≠ 3) (hpi : l.Pictured) (hco : l.Coloured) (hfi : l.Filled) {w : Nat} {s : Import}
    (r : ImportRun procs ts (Import.start w flat) s) (hd : s.Done) (n : Nat) (hf : flat.length ≤ n) (docRect : Rect) {t : LayerTree} (ht : finishNew grow dec n docRect s = .ok t)
    (x y : Int) (hxy : l.rect.Keeps ts x y) (ha : ∀ c, l.channel (-1) = some c → channelAt l.rect 1 c.data x y = 255)
    (fuel : Nat) (hfu : 2 * n ≤ fuel) (diff aborted : Bool) (visited : List TPt) (hnd : visited.Nodup) (hpt : tilePt ts x y ∈ visited) (dest : TPt → Tile) :
    ∃ st d, render tileOps t.scene fuel diff aborted visited .empty dest = .ok (st, d) ∧ d (tilePt ts x y) (tileIx ts x y) =
      ⟨channelAt l.rect 1 (l.dataOf 0) x y, channelAt l.rect 1 (l.dataOf 1) x y, channelAt l.rect 1 (l.dataOf 2) x y, 255⟩ := by
  unfold finishNew at ht
  obtain ⟨tree, e1, ht⟩ := Res.bind_eq_ok.1 ht
  injection ht with ht
  have hids := copied_seqIDs hn r hd
  have hlast : flat[below.length]? = some l := by rw [hflat]; simp
  obtain ⟨h1, h2⟩ := C76_copies_partial hn r hd
  obtain ⟨img0, rect, mr, b1, b2, -, b4⟩ := h2 below.length l hlast
  obtain ⟨lower, hlow⟩ : ∃ lower, s.copied = lower ++ [{ l with rect := rect, mask := { l.mask with rect := mr } }] := by
    have hlen : s.copied.length = below.length + 1 := by rw [h1, hflat]; simp
    refine ⟨s.copied.take below.length, ?_⟩
    conv_lhs => rw [← List.take_append_drop below.length s.copied]
    congr 1
    rw [List.drop_eq_getElem_cons (by omega), List.drop_eq_nil_of_le (by omega)]
    rw [List.getElem?_eq_getElem (by omega)] at b2
    rw [Option.some.inj b2]
  have hfo : l.sdType ≠ 1 ∧ l.sdType ≠ 2 ∧ l.sdType ≠ 3 := by
    have := hl.layer
    unfold LayerRec.folder at this
    simp only [Bool.or_eq_false_iff, beq_eq_false_iff_ne, decide_eq_false_iff_not] at this
    tauto
  have e1' := e1
  rw [hlow] at e1'
  obtain ⟨under, rfl⟩ := buildTreeLoop_last _ _ (by exact hfo) _ _ _ _ e1'
  have hsub := buildTree_sublist _ e1
  have hu : UniqueDoc (under ++ [.node { l with rect := rect, mask := { l.mask with rect := mr } } []]) :=
    UniqueDoc.of_post (List.Nodup.sublist (hsub.map _) (by rw [hids]; exact List.nodup_range))
  have hk : KnownModes (under ++ [.node { l with rect := rect, mask := { l.mask with rect := mr } } []]) := by
    refine DocAll.of_post (Q := KnownMode) fun l' h => ?_
    obtain ⟨l0, h0, rc, m0, rfl⟩ := copied_all hn r hd (hsub.subset h)
    exact hkn l0 h0
  have hdep : depthAll (under ++ [.node { l with rect := rect, mask := { l.mask with rect := mr } } []]) ≤ n := by
    have := depthAll_le (under ++ [.node { l with rect := rect, mask := { l.mask with rect := mr } } []])
    have := hsub.length_le
    omega
  have hsol : ({ l with rect := rect, mask := { l.mask with rect := mr } } : LayerRec).Solid := by
    refine ⟨hl.layer, hl.visible, hl.opacity, hl.mode, ?_⟩
    rintro ⟨g1, g2, g3⟩
    refine hl.unmasked ⟨g1, ?_⟩
    rcases b4 with rfl | ⟨m, b5, rfl⟩
    · exact ⟨g2, g3⟩
    · by_contra hc
      have : l.mask.rect.empty = true := by
        unfold Rect.empty
        simp only [Bool.or_eq_true, decide_eq_true_eq]
        omega
      have b6 := b1.2
      rw [loadMask_none (.inl this), b5] at b6
      cases b6
  have hseq : l.seqID = below.length := seqID_of_range hn hlast
  obtain ⟨img, i1, -, i2, -⟩ := C79_colours_partial hp hts hn r hd hlast hco hfi
  obtain ⟨m, i3, i4⟩ := i2 hpi
  have i5 : tilePixel ts 4 m x y = [channelAt l.rect 1 (l.dataOf 0) x y, channelAt l.rect 1 (l.dataOf 1) x y, channelAt l.rect 1 (l.dataOf 2) x y, 255] := by
    rw [i4]
    unfold cutPictureAt pictureAt
    have hxm := hxy.1
    unfold Rect.Mem at hxm
    rw [if_pos hxy, if_pos (by tauto)]
    cases hc : l.channel (-1) with
    | none => simp
    | some c =>
      simp only [Option.map_some, ha c hc]
      rfl
  obtain ⟨q, i6, i7⟩ := nrgba_pixel (px := ⟨channelAt l.rect 1 (l.dataOf 0) x y, channelAt l.rect 1 (l.dataOf 1) x y, channelAt l.rect 1 (l.dataOf 2) x y, 255⟩) i5 (show (255 : UInt8) ≠ 0 by decide)
  have hsc : t.scene = ⟨newTree grow dec n (under ++ [.node { l with rect := rect, mask := { l.mask with rect := mr } } []]), rootPtr, t.scene.canvas, t.scene.mask⟩ := by
    subst ht
    rfl
  have hcan : (t.scene.canvas (l.seqID : Int)).bind (·.lookup (tilePt ts x y)) = some q := by
    subst ht
    show ((s.images l.seqID).bind _).bind _ = _
    rw [hseq, i1]
    simp only [Option.bind_some, i3, Option.map_some]
    exact i6
  rw [hsc]
  obtain ⟨st, d, j1, j2⟩ := C87_top_layer_shows grow dec n under _ hdep hu hk hsol hcl t.scene.canvas t.scene.mask (tilePt ts x y) (tileIx ts x y) q hcan (by rw [i7]) fuel hfu diff aborted
    visited hnd hpt dest
  exact ⟨st, d, j1, by rw [j2, i7]⟩

/-- If no mask in effect is of its default colour everywhere, the copies of the layers have the attributes of the layers. -/
theorem copied_attr (dec : List UInt8 → Option (List UInt8)) (hp : 1 ≤ procs) (hts : 1 ≤ ts)
    (hn : flat.map LayerRec.seqID = List.range flat.length)
    (hm : ∀ l ∈ flat, l.mask.enabled = true → l.mask.rect.empty = false → ∀ c, l.channel (-2) = some c → l.Filled ∧
      ∃ x y, l.mask.rect.Keeps ts x y ∧ channelAt l.mask.rect 1 c.data x y ≠ (if UInt8.ofNat l.mask.defaultColor = 0 then 0 else 255))
    {w : Nat} {s : Import} (r : ImportRun procs ts (Import.start w flat) s) (hd : s.Done) :
    s.copied.length = flat.length ∧ ∀ (j : Nat) (l : LayerRec), flat[j]? = some l →
      ∃ l', s.copied[j]? = some l' ∧ attrOf dec l' = attrOf dec l ∧ l'.sdType = l.sdType := by
  obtain ⟨h1, h2⟩ := C76_copies_partial hn r hd
  refine ⟨h1, fun j l hl => ?_⟩
  obtain ⟨img, rect, mr, a, b, -, d⟩ := h2 j l hl
  refine ⟨_, b, ?_, rfl⟩
  have hme : (l.mask.enabled && !mr.empty) = (l.mask.enabled && !l.mask.rect.empty) := by
    by_cases hen : l.mask.enabled = true
    · rcases d with rfl | ⟨m, d, e⟩
      · rfl
      · have hne : l.mask.rect.empty = false := by
          cases he : l.mask.rect.empty with
          | false => rfl
          | true =>
            have := a.2
            rw [loadMask_none (.inl he), d] at this
            cases this
        cases hc : l.channel (-2) with
        | none =>
          have := a.2
          rw [loadMask_none (.inr hc), d] at this
          cases this
        | some c =>
          obtain ⟨f1, x, y, f3, f4⟩ := hm l (List.mem_of_getElem? hl) hen hne c hc
          obtain ⟨l', g1, g2, -⟩ := C77_mask_in_effect_partial hp hts hn r hd dec hl f1 hne (.inr ⟨c, x, y, hc, f3, f4⟩)
          rw [b] at g1
          injection g1 with g1
          subst g1
          rw [hne, Bool.not_false, Bool.and_true]
          exact g2
    · rw [Bool.not_eq_true] at hen
      rw [hen, Bool.false_and, Bool.false_and]
  show ({ attrOf dec l with maskEnabled := l.mask.enabled && !mr.empty } : CAttr) = attrOf dec l
  rw [hme]
  rfl

/-- C90: the picture does not depend on the schedule of the loading: two executions on a file give trees that are rendered in the same way, unless the file has a mask that is enabled and has
all its values equal to its default colour. -/
theorem C90_same_picture_partial (grow : Nat → Nat) (dec : List UInt8 → Option (List UInt8)) (hp : 1 ≤ procs) (hts : 1 ≤ ts)
    (hn : flat.map LayerRec.seqID = List.range flat.length)
    (hm : ∀ l ∈ flat, l.mask.enabled = true → l.mask.rect.empty = false → ∀ c, l.channel (-2) = some c → l.Filled ∧
      ∃ x y, l.mask.rect.Keeps ts x y ∧ channelAt l.mask.rect 1 c.data x y ≠ (if UInt8.ofNat l.mask.defaultColor = 0 then 0 else 255))
    {w w' : Nat} {s s' : Import} (r : ImportRun procs ts (Import.start w flat) s) (r' : ImportRun procs ts (Import.start w' flat) s') (hd : s.Done) (hd' : s'.Done)
    (n : Nat) (docRect : Rect) :
    (finishNew grow dec n docRect s).map LayerTree.scene = (finishNew grow dec n docRect s').map LayerTree.scene := by
  have himg := C75_same_pictures hn r r' hd hd'
  obtain ⟨k1, k2⟩ := copied_attr dec hp hts hn hm r hd
  obtain ⟨k1', k2'⟩ := copied_attr dec hp hts hn hm r' hd'
  have hall : List.Forall₂ (fun l l' => attrOf dec l = attrOf dec l' ∧ l.sdType = l'.sdType) s.copied s'.copied := by
    refine List.forall₂_iff_get.2 ⟨by omega, fun j h1 h2 => ?_⟩
    have hl := List.getElem?_eq_getElem (l := flat) (i := j) (by omega)
    obtain ⟨l1, a1, a2, a3⟩ := k2 j _ hl
    obtain ⟨l2, b1, b2, b3⟩ := k2' j _ hl
    rw [List.getElem?_eq_getElem h1] at a1
    rw [List.getElem?_eq_getElem h2] at b1
    injection a1 with a1
    injection b1 with b1
    simp only [List.get_eq_getElem, a1, b1]
    exact ⟨a2.trans b2.symm, a3.trans b3.symm⟩
  unfold finishNew buildTree
  rcases buildTree_twin hall (st := []) (st' := []) .nil (n := []) (n' := []) (by unfold Twins; trivial) with ⟨t, t', e1, e2, e3⟩ | ⟨e1, e2⟩
  · rw [e1, e2]
    simp only [Res.ok_bind, Res.map, LayerTree.scene, himg, newTree_twin grow n e3]
    rfl
  · rw [e1, e2]
    rfl

end

/-! ### Examples -/

/-- The layer of `exDotDoc`, in normal mode: its mask is black everywhere. -/
def exVeiled : LayerRec := { exDot with blendMode := ascii "norm", opacity := 255 }

theorem exVeiled_loads : LoadsTo 4 4 exVeiled exDotImage := ⟨by decide +kernel, by decide +kernel⟩

/-- What is stored. -/
def exVeiledImages (k : Nat) : Option LayerImage := if k = 0 then some exDotImage else none

theorem exVeiled_images {n : Nat} {s : Import} (r : ImportRun 4 4 (Import.start n [exVeiled]) s) (hd : s.Done) : s.images = exVeiledImages := by
  obtain ⟨h1, h2⟩ := C75_pictures_stored (flat := [exVeiled]) rfl r hd
  funext k
  cases k with
  | zero =>
    obtain ⟨img, h3, h4⟩ := h1 0 exVeiled rfl
    have e1 : img.canvas = exDotImage.canvas := Res.ok.inj (h3.1.symm.trans exVeiled_loads.1)
    have e2 : img.mask = exDotImage.mask := Res.ok.inj (h3.2.symm.trans exVeiled_loads.2)
    rw [h4, show img = ⟨img.canvas, img.mask⟩ from rfl, e1, e2]
    rfl
  | succ k =>
    rw [h2 (k + 1) (by simp)]
    rfl

/-- C90 is false of a mask that has its default colour everywhere: one execution gives a picture without the layer, which its mask hides, another one a picture with it. -/
theorem C90_uniform_mask_by_chance (n : Nat) (hw : 1 ≤ n) :
    (∃ s t, ImportRun 4 4 (Import.start n [exVeiled]) s ∧ s.Done ∧ finishNew (fun n => n) some 1 ⟨0, 0, 4, 4⟩ s = .ok t ∧
      peekPx (render tileOps t.scene 2 false false [(0, 0)] .empty blank) 5 = .ok ⟨0, 0, 0, 0⟩) ∧
    ∃ s t, ImportRun 4 4 (Import.start n [exVeiled]) s ∧ s.Done ∧ finishNew (fun n => n) some 1 ⟨0, 0, 4, 4⟩ s = .ok t ∧
      peekPx (render tileOps t.scene 2 false false [(0, 0)] .empty blank) 5 = .ok ⟨200, 0, 0, 255⟩ := by
  have hf : ∀ l ∈ [] ++ [exVeiled], LoadsTo 4 4 l ((fun _ => exDotImage) l) := by
    rintro l (_ | ⟨_, ⟨⟩⟩)
    exact exVeiled_loads
  refine ⟨?_, ?_⟩
  · obtain ⟨s, r, d, e⟩ := run_stale hw (fun _ => exDotImage) [] exVeiled hf
    refine ⟨s, ⟨newTree (fun n => n) some 1 [.node exVeiled []], exVeiledImages, (unionRects [.node exVeiled []] Rect.zero).intersect (transformRect ⟨0, 0, 4, 4⟩ Aff3.identity), transformRect ⟨0, 0, 4, 4⟩ Aff3.identity⟩, r, d, ?_, ?_⟩
    · unfold finishNew
      rw [e, exVeiled_images r d]
      rfl
    · unfold LayerTree.scene
      simp only
      decide +kernel
  · obtain ⟨s, r, d, e⟩ := run_fresh (flat := [exVeiled]) hw (fun _ => exDotImage) hf
    refine ⟨s, ⟨newTree (fun n => n) some 1 [.node (retiled 4 exDotImage exVeiled) []], exVeiledImages, (unionRects [.node (retiled 4 exDotImage exVeiled) []] Rect.zero).intersect (transformRect ⟨0, 0, 4, 4⟩ Aff3.identity), transformRect ⟨0, 0, 4, 4⟩ Aff3.identity⟩, r, d, ?_, ?_⟩
    · unfold finishNew
      rw [e, exVeiled_images r d]
      rfl
    · unfold LayerTree.scene
      simp only
      decide +kernel

/-- Two layers that fill a tile of side 2, the lower one with a mask. -/
def exLow : LayerRec := { exPlate with blendMode := ascii "mul ", opacity := 100 }
def exHigh : LayerRec := { exPlate with seqID := 1, blendMode := ascii "norm", opacity := 255, mask := {} }

/-- They meet the conditions of `C89_top_layer_of_file_shows` and `C90_same_picture_partial`, and can be loaded. -/
example : [exLow, exHigh].map LayerRec.seqID = List.range [exLow, exHigh].length ∧ (∀ l ∈ [exLow, exHigh], KnownMode l) ∧ exHigh.Solid ∧ exHigh.clipping = false ∧ exHigh.sdType ≠ 3 ∧
    exHigh.Pictured ∧ exHigh.Coloured ∧ exHigh.Filled ∧ exHigh.rect.Keeps 2 1 1 ∧ exHigh.channel (-1) = none ∧ channelAt exHigh.rect 1 (exHigh.dataOf 0) 1 1 = 6 ∧
    (∀ l ∈ [exLow, exHigh], l.mask.enabled = true → l.mask.rect.empty = false → ∀ c, l.channel (-2) = some c → l.Filled ∧
      ∃ x y, l.mask.rect.Keeps 2 x y ∧ channelAt l.mask.rect 1 c.data x y ≠ (if UInt8.ofNat l.mask.defaultColor = 0 then 0 else 255)) ∧
    ∃ s t, ImportRun 3 2 (Import.start 5 [exLow, exHigh]) s ∧ s.Done ∧ finishNew (fun n => n) some 2 ⟨0, 0, 4, 4⟩ s = .ok t := by
  have lk : ∀ id c, exPlate.channel id = some c → c.data.length = 4 := by
    intro id c h
    unfold exPlate at h
    simp only [List.lookup_cons, List.lookup_nil] at h
    split at h
    · cases h; rfl
    · split at h
      · cases h; rfl
      · split at h
        · cases h; rfl
        · split at h
          · cases h; rfl
          · cases h
  have hc : exHigh.Coloured := by
    intro _ id hid
    simp only [List.mem_cons, List.not_mem_nil, or_false] at hid
    rcases hid with rfl | rfl | rfl <;> rfl
  have hc' : exLow.Coloured := by
    intro _ id hid
    simp only [List.mem_cons, List.not_mem_nil, or_false] at hid
    rcases hid with rfl | rfl | rfl <;> rfl
  have hF : exHigh.Filled := ⟨fun id c _ _ h => by rw [lk id c h]; decide, fun c h => by rw [lk (-2) c ((congrFun (show exPlate.channel = exHigh.channel from rfl) (-2)).trans h)]; decide⟩
  have hF' : exLow.Filled := ⟨fun id c _ _ h => by rw [lk id c h]; decide, fun c h => by rw [lk (-2) c ((congrFun (show exPlate.channel = exLow.channel from rfl) (-2)).trans h)]; decide⟩
  refine ⟨rfl, ?_, ⟨rfl, rfl, rfl, rfl, by decide⟩, rfl, by decide, ⟨rfl, rfl⟩, hc, hF, by decide, rfl, by decide, ?_, ?_⟩
  · intro l hl
    fin_cases hl <;> (unfold KnownMode; decide)
  · intro l hl he hne c hch
    fin_cases hl
    · have e : exLow.channel (-2) = some ⟨[5, 0, 0, 200], ⟨.gray 1, ⟨0, 0, 2, 2⟩, [[5, 0, 0, 200]], []⟩⟩ := rfl
      rw [e] at hch
      cases hch
      exact ⟨hF', 0, 0, by decide, by decide⟩
    · exact absurd hne (by decide)
  · obtain ⟨s, r, d, e⟩ := run_fresh (procs := 3) (ts := 2) (flat := [exLow, exHigh]) (n := 5) (by decide)
      (fun l => ⟨some [((0, 0), [9, 1, 0, 255, 8, 1, 0, 255, 7, 1, 0, 255, 6, 1, 0, 255])], if l.seqID = 0 then some [((0, 0), [5, 0, 0, 200])] else none⟩)
      (fun l h => by fin_cases h <;> exact ⟨by decide +kernel, by decide +kernel⟩)
    refine ⟨s, ?_⟩
    unfold finishNew
    rw [e]
    exact ⟨_, r, d, rfl⟩

end Psd
