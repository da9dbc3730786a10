import Verif.Model.Scaled
import Verif.Props.Resample

/-!
# C93: loading with a matrix
-/

namespace Psd

section
variable {procs ts : Nat}

theorem loadCanvasAt_identity (R : Resampler) (gt : Option GammaTable) (l : LayerRec) : loadCanvasAt R procs ts Aff3.identity gt l = loadCanvas procs ts l := by
  unfold loadCanvasAt loadCanvas newScaledTiledImage
  rw [if_pos ((Aff3.isIdentity_iff _).2 rfl)]

theorem loadMaskAt_identity (R : Resampler) (l : LayerRec) : loadMaskAt R procs ts Aff3.identity l = loadMask procs ts l := by
  unfold loadMaskAt loadMask newScaledTiledMask
  split
  · cases l.channel (-2) with
    | none => rfl
    | some c =>
      simp only
      rw [if_pos ((Aff3.isIdentity_iff _).2 rfl)]
  · rfl

theorem createImage_rows {rect : Rect} {r g b : List UInt8} {a : Option (List UInt8)}
    (hr : Reads 4 1 (imageCell r g b a) rect (pictureAt rect 1 r g b a)) :
    ∃ src, createImage rect r g b a 1 = .ok src ∧ Rows 4 rect src fun x y => (pictureAt rect 1 r g b a x y).getD [0, 0, 0, 0] := by
  have e := createPixels_rows hr (·.getD [0, 0, 0, 0])
  refine ⟨_, e, rows_pixOf fun x y => ?_⟩
  by_cases hm : rect.Mem x y
  · cases hc : pictureAt rect 1 r g b a x y with
    | none => rfl
    | some px => exact hr.size x y px hm hc
  · rw [hr.outside x y hm]
    rfl

theorem createImageGamma_rows {rect : Rect} {r g b : List UInt8} {a : Option (List UInt8)}
    (hr : Reads 4 1 (imageCell r g b a) rect (pictureAt rect 1 r g b a)) (t8 : UInt8 → UInt16) :
    ∃ src, createImageGamma rect r g b a 1 t8 = .ok src ∧ Rows 8 rect src fun x y => widened t8 ((pictureAt rect 1 r g b a x y).getD [0, 0, 0, 0]) := by
  have e := createPixels_rows hr (fun px => match px with
    | some px => gammaPixel t8 px
    | none => List.replicate 8 0)
  refine ⟨_, e, ?_⟩
  have hlen : ∀ x y, (match pictureAt rect 1 r g b a x y with
    | some px => gammaPixel t8 px
    | none => List.replicate 8 0).length = 8 := by
    intro x y
    split
    · unfold gammaPixel
      split <;> rfl
    · rfl
  have := rows_pixOf (rect := rect) hlen
  refine ⟨this.1, fun x y hm => ?_⟩
  rw [this.2 x y hm]
  show _ = widened t8 ((pictureAt rect 1 r g b a x y).getD [0, 0, 0, 0])
  unfold pictureAt
  unfold Rect.Mem at hm
  beta_reduce
  rw [if_pos hm]
  cases a with
  | none => rfl
  | some a =>
    simp only
    by_cases ha : channelAt rect 1 a x y = 0
    · rw [if_pos ha]
      rfl
    · rw [if_neg ha]
      simp only [Option.getD_some, widened]
      rw [if_neg ha]
      rfl

/-- **C93** (in part) `New` with a matrix whose first and fifth entry are not 0, of a layer with a picture: its tiles hold the pixels that interpolation
gives for the picture in the file, in the rectangle that `transformRect` gives.

Missing: matrices with a 0 there, as those of quarter turns (`C93_other_matrix`); what is left of or above the canvas, up to the first grid line, of pictures whose
new rectangle has a negative edge off the tile grid (`C51_negative_edge_lost`). -/
theorem C93_picture_partial {R : Resampler} (hR : R.Proper) (hp : 1 ≤ procs) (hts : 1 ≤ ts) {l : LayerRec} (hpic : l.Pictured) (hc : l.Coloured) (hf : l.Filled)
    {m : Aff3} (hm : m ≠ Aff3.identity) (h0 : m.m0 ≠ 0) (h4 : m.m4 ≠ 0) :
    ∃ src c, Rows 4 l.rect src (fun x y => (pictureAt l.rect 1 (l.dataOf 0) (l.dataOf 1) (l.dataOf 2) ((l.channel (-1)).map Channel.data) x y).getD [0, 0, 0, 0]) ∧
      loadCanvasAt R procs ts (newMatrix m) none l = .ok (some c) ∧ Stored ts 4 c ∧
      ∀ x y, tilePixel ts 4 c x y = if (transformRect l.rect m).Keeps ts x y then asSeen (bytesAt (transformRect l.rect m) 4 (R.nrgba m (transformRect l.rect m) l.rect src) x y)
        else List.replicate 4 0 := by
  have hr := layer_reads hpic hc hf
  obtain ⟨src, e, hrows⟩ := createImage_rows hr
  obtain ⟨c, e', hst, hpx⟩ := cut4 (procs := procs) hp hts (hR.nrgba m (transformRect l.rect m) l.rect src) (transformRect_nonempty hpic.2 m)
  refine ⟨src, c, hrows, ?_, hst, hpx⟩
  have hmat : newMatrix m = m := by unfold newMatrix; simp only [if_neg h0, if_neg h4]
  unfold loadCanvasAt newScaledTiledImage
  rw [if_pos (by rw [Bool.and_eq_true, Bool.not_eq_true']; exact hpic), hmat, if_neg fun h => hm ((Aff3.isIdentity_iff _).1 h)]
  simp only
  rw [e, Res.ok_bind, e', Res.ok_bind]

/-- **C93** (in part) The same with gamma. -/
theorem C93_gamma_partial {R : Resampler} (hR : R.Proper) (hp : 1 ≤ procs) (hts : 1 ≤ ts) {l : LayerRec} (hpic : l.Pictured) (hc : l.Coloured) (hf : l.Filled)
    {m : Aff3} (hm : m ≠ Aff3.identity) (h0 : m.m0 ≠ 0) (h4 : m.m4 ≠ 0) (gt : GammaTable) :
    ∃ src c, Rows 8 l.rect src (fun x y =>
        widened gt.t8 ((pictureAt l.rect 1 (l.dataOf 0) (l.dataOf 1) (l.dataOf 2) ((l.channel (-1)).map Channel.data) x y).getD [0, 0, 0, 0])) ∧
      loadCanvasAt R procs ts (newMatrix m) (some gt) l = .ok (some c) ∧ Stored ts 4 c ∧
      ∀ x y, tilePixel ts 4 c x y = if (transformRect l.rect m).Keeps ts x y then
        asSeen (narrowed gt.t16 (bytesAt (transformRect l.rect m) 8 (R.nrgba64 m (transformRect l.rect m) l.rect src) x y)) else List.replicate 4 0 := by
  have hr := layer_reads hpic hc hf
  obtain ⟨src, e, hrows⟩ := createImageGamma_rows hr gt.t8
  obtain ⟨c, e', hst, hpx⟩ := cut8 (procs := procs) hp hts gt.t16 (hR.nrgba64 m (transformRect l.rect m) l.rect src) (transformRect_nonempty hpic.2 m)
  refine ⟨src, c, hrows, ?_, hst, hpx⟩
  have hmat : newMatrix m = m := by unfold newMatrix; simp only [if_neg h0, if_neg h4]
  unfold loadCanvasAt newScaledTiledImage
  rw [if_pos (by rw [Bool.and_eq_true, Bool.not_eq_true']; exact hpic), hmat, if_neg fun h => hm ((Aff3.isIdentity_iff _).1 h)]
  simp only
  rw [e, Res.ok_bind, e', Res.ok_bind]

/-- **C93** (in part) The same for a mask whose default colour is 0 or 255: inside the new rectangle its value is the interpolated one, outside it is the
default.

Missing: that what does not come from the mask in the file has the default colour; it is 0 (`C93_mask_border_hides`). -/
theorem C93_mask_partial {R : Resampler} (hR : R.Proper) (hp : 1 ≤ procs) (hts : 1 ≤ ts) {l : LayerRec} {ch : Channel} (hch : l.channel (-2) = some ch)
    (hne : l.mask.rect.empty = false) (hd : l.mask.defaultColor = 0 ∨ l.mask.defaultColor = 255)
    {m : Aff3} (hm : m ≠ Aff3.identity) (h0 : m.m0 ≠ 0) (h4 : m.m4 ≠ 0) :
    ∃ c, loadMaskAt R procs ts (newMatrix m) l = .ok (some c) ∧ Stored ts 1 c ∧
      ∀ x y, ∃ v, tilePixel ts 1 c x y = [if l.mask.defaultColor = 0 then v else 255 - v] ∧
        v = if (transformRect l.mask.rect m).Keeps ts x y then
            channelAt (transformRect l.mask.rect m) 1 (R.alpha m (transformRect l.mask.rect m) l.mask.rect ch.data) x y
          else UInt8.ofNat l.mask.defaultColor := by
  have hlen := hR.alpha m (transformRect l.mask.rect m) l.mask.rect ch.data
  have hfl := rows_fills hlen (c := 0) (by decide)
  rw [List.drop_zero] at hfl
  have hr := mask_reads (UInt8.ofNat l.mask.defaultColor) hfl
  obtain ⟨c, e', hst, hpx⟩ := stored_of_reads (procs := procs) hp hts hr (transformRect_nonempty hne m) (fun x y px => maskStored_seen)
  refine ⟨c, ?_, hst, fun x y => ⟨_, ?_, rfl⟩⟩
  · have hmat : newMatrix m = m := by unfold newMatrix; simp only [if_neg h0, if_neg h4]
    unfold loadMaskAt newScaledTiledMask newTiledMask
    rw [hne, hch]
    simp only [Bool.not_false, if_true]
    rw [hmat, if_neg fun h => hm ((Aff3.isIdentity_iff _).1 h), e', Res.ok_bind]
  · rw [hpx]
    unfold maskStored
    by_cases hk : (transformRect l.mask.rect m).Keeps ts x y
    · rw [if_pos hk, if_pos hk]
      have h := hk.1
      unfold Rect.Mem at h
      rw [if_pos h]
      rcases hd with hd | hd
      · rw [hd]
        simp only [show UInt8.ofNat 0 = 0 from rfl, if_true]
        split
        · rfl
        · rename_i hz
          rw [not_not.1 hz]
          rfl
      · rw [hd]
        simp only [show UInt8.ofNat 255 = 255 from rfl, show ¬((255 : UInt8) = 0) by decide, if_false, show ¬((255 : Nat) = 0) by decide]
        split
        · rfl
        · rename_i hz
          rw [not_not.1 hz]
          rfl
    · rw [if_neg hk, if_neg hk]
      rcases hd with hd | hd <;> rw [hd] <;> decide

/-- **C93** is false of matrices whose first entry is 0: `New` uses another matrix, under which no point off the left edge has the same place. -/
theorem C93_other_matrix (m : Aff3) (h : m.m0 = 0) (x y : ℚ) (hx : x ≠ 0) : ((newMatrix m).apply x y).1 ≠ (m.apply x y).1 := by
  unfold newMatrix
  simp only [if_pos h]
  intro hh
  have : x * 1 + y * m.m1 + m.m2 = x * m.m0 + y * m.m1 + m.m2 := by
    split at hh <;> exact hh
  rw [h] at this
  apply hx
  linarith

/-- The same of matrices whose fifth entry is 0. -/
theorem C93_other_matrix_y (m : Aff3) (h : m.m4 = 0) (x y : ℚ) (hy : y ≠ 0) : ((newMatrix m).apply x y).2 ≠ (m.apply x y).2 := by
  unfold newMatrix
  have h4 : (if m.m0 = 0 then { m with m0 := 1 } else m).m4 = 0 := by split <;> exact h
  simp only [if_pos h4]
  intro hh
  have : x * m.m3 + y * 1 + m.m5 = x * m.m3 + y * m.m4 + m.m5 := by
    split at hh <;> exact hh
  rw [h] at this
  apply hy
  linarith

/-- A quarter turn becomes a shear. -/
example : newMatrix ⟨0, -1, 10, 1, 0, 0⟩ = ⟨1, -1, 10, 1, 1, 0⟩ := by
  unfold newMatrix
  norm_num

/-- Moving by whole pixels. -/
def Aff3.move (x y : Int) : Aff3 := ⟨1, 0, x, 0, 1, y⟩

theorem transformRect_move (r : Rect) (h : r.minX ≤ r.maxX ∧ r.minY ≤ r.maxY) (u v : Int) :
    transformRect r (Aff3.move u v) = ⟨r.minX + u, r.minY + v, r.maxX + u + 1, r.maxY + v + 1⟩ := by
  have hx : (r.minX : ℚ) + u ≤ r.maxX + u := by
    have : (r.minX : ℚ) ≤ r.maxX := by exact_mod_cast h.1
    linarith
  have hy : (r.minY : ℚ) + v ≤ r.maxY + v := by
    have : (r.minY : ℚ) ≤ r.maxY := by exact_mod_cast h.2
    linarith
  have e : ∀ x y : ℚ, (Aff3.move u v).apply x y = (x + u, y + v) := by
    intro x y
    simp [Aff3.apply, Aff3.move]
  have m1 : ∀ a b : ℚ, a ≤ b → ¬ (a > b) := fun a b h => not_lt.2 h
  simp only [transformRect, e, FBox.first, FBox.more]
  have hx' : ¬ ((r.minX : ℚ) + u > r.maxX + u) := m1 _ _ hx
  have hy' : ¬ ((r.minY : ℚ) + v > r.maxY + v) := m1 _ _ hy
  have hmx : (if (r.minX : ℚ) + u + 1 < r.maxX + u + 1 then (r.maxX : ℚ) + u + 1 else r.minX + u + 1) = r.maxX + u + 1 := by
    split
    · rfl
    · linarith
  have hmy : (if (r.minY : ℚ) + v + 1 < r.maxY + v + 1 then (r.maxY : ℚ) + v + 1 else r.minY + v + 1) = r.maxY + v + 1 := by
    split
    · rfl
    · linarith
  have hmx2 : ¬ ((r.maxX : ℚ) + u + 1 < r.minX + u + 1) := by linarith
  simp only [hx', hy', if_false, hmx, hmy, hmx2, gt_iff_lt, lt_self_iff_false]
  have c1 : ∀ z w : Int, ⌈(z : ℚ) + w + 1⌉ = z + w + 1 := by
    intro z w
    rw [Int.ceil_add_one, Int.ceil_add_intCast, Int.ceil_intCast]
  have c2 : ∀ z w : Int, ⌊(z : ℚ) + w⌋ = z + w := by
    intro z w
    rw [Int.floor_add_intCast, Int.floor_intCast]
  simp only [c1, c2]

/-- Interpolation leaves the blank pixels to which no point of the source comes. -/
def Resampler.Blank (R : Resampler) : Prop :=
  ∀ (m : Aff3) (dst src : Rect) (pix : List UInt8) (x y : Int), dst.Mem x y → (∀ u v : ℚ, (src.minX : ℚ) ≤ u → u ≤ src.maxX → (src.minY : ℚ) ≤ v → v ≤ src.maxY →
    ¬((x : ℚ) < (m.apply u v).1 ∧ (m.apply u v).1 < x + 1 ∧ (y : ℚ) < (m.apply u v).2 ∧ (m.apply u v).2 < y + 1)) →
    channelAt dst 1 (R.alpha m dst src pix) x y = 0

/-- **C93** is false of masks whose default colour is 255, which show what is outside: if `New` moves the document by whole pixels, such a mask
gets a column of pixels at its right with the value 0, which hide the layer on the canvas, whatever the mask; without the matrix the same place has the default colour. -/
theorem C93_mask_border_hides {R : Resampler} (hR : R.Proper) (hb : R.Blank) (hp : 1 ≤ procs) (hts : 1 ≤ ts) {l : LayerRec} {ch : Channel}
    (hch : l.channel (-2) = some ch) (hne : l.mask.rect.empty = false) (hf : l.Filled) (hd : l.mask.defaultColor = 255)
    {u v : Int} (hm : u ≠ 0 ∨ v ≠ 0) {y : Int} (hy : l.mask.rect.minY ≤ y ∧ y < l.mask.rect.maxY) (hg : 0 ≤ l.mask.rect.maxX + u ∧ 0 ≤ y + v) :
    (∃ c, loadMaskAt R procs ts (newMatrix (Aff3.move u v)) l = .ok (some c) ∧ tilePixel ts 1 c (l.mask.rect.maxX + u) (y + v) = [255 - 0]) ∧
    (∃ c, loadMask procs ts l = .ok (some c) ∧ tilePixel ts 1 c l.mask.rect.maxX y = [255 - 255]) := by
  have hne' := hne
  rw [Rect.nonempty_iff] at hne'
  have er := transformRect_move l.mask.rect ⟨by omega, by omega⟩ u v
  constructor
  · obtain ⟨c, e, -, hpx⟩ := C93_mask_partial (m := Aff3.move u v) hR hp hts hch hne (.inr hd)
      (fun h => by
        have h1 := congrArg Aff3.m2 h
        have h2 := congrArg Aff3.m5 h
        simp only [Aff3.move, Aff3.identity] at h1 h2
        rcases hm with hm | hm
        · exact hm (by exact_mod_cast h1)
        · exact hm (by exact_mod_cast h2)) (by simp [Aff3.move]) (by simp [Aff3.move])
    refine ⟨c, e, ?_⟩
    obtain ⟨w, h1, h2⟩ := hpx (l.mask.rect.maxX + u) (y + v)
    have hmem : (transformRect l.mask.rect (Aff3.move u v)).Mem (l.mask.rect.maxX + u) (y + v) := by
      rw [er]
      unfold Rect.Mem
      simp only
      omega
    rw [if_pos (Rect.keeps_of_canvas hmem hg.1 hg.2), hb _ _ _ _ _ _ hmem (fun a b a1 a2 b1 b2 => by
      have : ((Aff3.move u v).apply a b).1 = a + u := by simp [Aff3.apply, Aff3.move]
      rw [this]
      push_cast
      intro hh
      linarith [hh.1])] at h2
    rw [h1, h2, hd]
    rfl
  · have hr := mask_reads (UInt8.ofNat l.mask.defaultColor) (fills_of_length (hf.mask ch hch))
    obtain ⟨c, e', -, hpx⟩ := stored_of_reads (procs := procs) hp hts hr hne (fun x y px => maskStored_seen)
    refine ⟨c, by rw [loadMask_some hne hch, e']; rfl, ?_⟩
    rw [hpx, if_neg fun h => (show ¬ l.mask.rect.Mem l.mask.rect.maxX y by unfold Rect.Mem; omega) h.1]
    rfl

/-- Interpolation that leaves everything blank. -/
def exBlank : Resampler where
  nrgba _ dst _ _ := List.replicate (dst.dx.toNat * dst.dy.toNat * 4) 0
  nrgba64 _ dst _ _ := List.replicate (dst.dx.toNat * dst.dy.toNat * 8) 0
  alpha _ dst _ _ := List.replicate (dst.dx.toNat * dst.dy.toNat * 1) 0

/-- What the theorems ask for: the layer of `C76` with its mask, moved by two pixels, and the same with a mask that shows what is outside. -/
example : exShift.Proper ∧ exBlank.Proper ∧ exBlank.Blank ∧ exPlate.Pictured ∧ (exPlate.channel (-2)).isSome = true ∧ exPlate.mask.rect.empty = false ∧
    exPlate.mask.defaultColor = 0 ∧ (⟨1, 0, 2, 0, 1, 2⟩ : Aff3) ≠ Aff3.identity ∧
    (transformRect exPlate.rect (Aff3.move 2 2)).Keeps 2 2 2 ∧ 0 ≤ exPlate.mask.rect.maxX + 2 ∧ exPlate.mask.rect.minY ≤ 0 ∧ 0 < exPlate.mask.rect.maxY ∧
    ({ exPlate with mask := { exPlate.mask with defaultColor := 255 } } : LayerRec).mask.rect.empty = false := by
  refine ⟨exShift_proper, ⟨fun _ _ _ _ => List.length_replicate .., fun _ _ _ _ => List.length_replicate .., fun _ _ _ _ => List.length_replicate ..⟩,
    fun m dst src pix x y _ _ => ?_, ⟨rfl, rfl⟩, rfl, rfl, rfl, fun h => ?_, ?_, by decide, by decide, by decide, rfl⟩
  · unfold channelAt exBlank
    rw [List.getD_eq_getElem?_getD, List.getElem?_replicate]
    split <;> rfl
  · have := congrArg Aff3.m5 h
    revert this
    decide
  · rw [transformRect_move _ (by decide)]
    decide

end

end Psd
