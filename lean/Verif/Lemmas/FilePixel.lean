import Verif.Lemmas.FilePicture
import Verif.Lemmas.PixelPaint

/-
What the loaded tiles hold of a layer of a file at one pixel; for C104.
-/

namespace Psd
open Spec (Box MaskSpec Picture Layer LayerSection Doc SharedTile)

/-- In its box a channel has a value. -/
theorem sample_some {l : Layer} {id x y : Int} {p : Picture} (hp : l.lastChannel id = some p) (hf : Fills (rectOf (l.boxOf id)) 1 p.plane)
    (hm : (rectOf (l.boxOf id)).Mem x y) : l.sample id x y = some (channelAt (rectOf (l.boxOf id)) 1 p.plane x y) := by
  have hb : (l.boxOf id).Has x y := hm
  obtain ⟨h1, h2, h3, h4⟩ := hb
  have hf := hf x y h1 h2 h3 h4
  unfold Layer.sample
  rw [if_pos ⟨h1, h2, h3, h4⟩, hp, Option.bind_some]
  unfold channelAt
  rw [Nat.cast_one, Int.mul_one] at hf ⊢
  have e : ((y - (rectOf (l.boxOf id)).minY) * (rectOf (l.boxOf id)).dx + (x - (rectOf (l.boxOf id)).minX)) =
    (y - (l.boxOf id).top) * ((l.boxOf id).right - (l.boxOf id).left) + (x - (l.boxOf id).left) := rfl
  rw [e] at hf ⊢
  have hn : 0 ≤ (y - (l.boxOf id).top) * ((l.boxOf id).right - (l.boxOf id).left) := Int.mul_nonneg (by omega) (by omega)
  rw [List.getElem?_eq_getElem (by omega), List.getD_eq_getElem?_getD, List.getElem?_eq_getElem (by omega)]
  rfl

theorem sample_outside {l : Layer} {id x y : Int} (hm : ¬(rectOf (l.boxOf id)).Mem x y) : l.sample id x y = none := by
  unfold Layer.sample
  have hm : ¬(l.boxOf id).Has x y := hm
  rw [if_neg hm]

theorem boxOf_picture (l : Layer) {id : Int} (h : id ≠ -2) (h' : id ≠ -3) : l.boxOf id = l.rect := by
  unfold Layer.boxOf
  rw [if_neg h, if_neg h']

section
variable {psb : Bool} {colors : Nat} {l : Layer}

theorem channel_fills (hv : l.Valid psb) (hp : l.PicturesValid psb 8 colors) {id : Int} {p : Picture} (h : l.lastChannel id = some p) (h3 : id ≠ -3) :
    Fills (rectOf (l.boxOf id)) 1 p.plane := by
  refine fills_of_length (Int.le_of_eq ?_)
  rw [channel_length hp h]
  unfold Layer.boxOf
  split
  · exact box_area (maskBox_valid hv.2.2.2.2.1)
  · exact box_area hv.1

theorem dataOf_plane (i : Nat) {id : Int} {p : Picture} (h : l.lastChannel id = some p) : (layerFull 3 8 i l).dataOf id = p.plane := by
  obtain ⟨c, h1, h2⟩ := layerFull_channel i h
  unfold LayerRec.dataOf
  rw [h1]
  exact h2

theorem pictured_iff (i : Nat) : (layerFull 3 8 i l).Pictured ↔ l.kind = 0 ∧ l.rect.left < l.rect.right ∧ l.rect.top < l.rect.bottom := by
  have e1 : (layerFull 3 8 i l).hasImage = (l.kind == 0) := rfl
  have e2 : (layerFull 3 8 i l).rect = rectOf l.rect := rfl
  unfold LayerRec.Pictured
  rw [e1, e2, Rect.nonempty_iff]
  simp only [beq_iff_eq]
  rfl

theorem colour_unpictured {i : Nat} (h : ¬(layerFull 3 8 i l).Pictured) (x y : Int) : l.colour x y = none := by
  rw [pictured_iff] at h
  unfold Layer.colour
  split
  · rename_i hk
    have : ¬(rectOf (l.boxOf 0)).Mem x y := by
      rw [boxOf_picture l (by decide) (by decide)]
      intro hm
      unfold Rect.Mem rectOf at hm
      simp only at hm
      exact h ⟨hk, by omega, by omega⟩
    rw [sample_outside this]
  · rfl

/-- The colours of the file are those of the loaded layer. -/
theorem colour_picture (hv : l.Valid psb) (hp : l.PicturesValid psb 8 colors) (hc : l.Rgb) {i : Nat} (hpi : (layerFull 3 8 i l).Pictured) (x y : Int) :
    pictureAt (layerFull 3 8 i l).rect 1 ((layerFull 3 8 i l).dataOf 0) ((layerFull 3 8 i l).dataOf 1) ((layerFull 3 8 i l).dataOf 2)
      (((layerFull 3 8 i l).channel (-1)).map Channel.data) x y = (l.colour x y).map fun p => [p.r, p.g, p.b, p.a] := by
  obtain ⟨hk, h1, h2⟩ := (pictured_iff i).1 hpi
  have hall := hc hk h1 h2
  have e2 : (layerFull 3 8 i l).rect = rectOf l.rect := rfl
  rw [e2]
  have hal : ((layerFull 3 8 i l).channel (-1)).map Channel.data = (l.lastChannel (-1)).map Picture.plane := by
    show ((l.lastChannel (-1)).map _).map _ = _
    rw [Option.map_map]
    rfl
  rw [hal]
  obtain ⟨p0, g0⟩ := Option.isSome_iff_exists.1 (hall 0 (by simp))
  obtain ⟨p1, g1⟩ := Option.isSome_iff_exists.1 (hall 1 (by simp))
  obtain ⟨p2, g2⟩ := Option.isSome_iff_exists.1 (hall 2 (by simp))
  rw [dataOf_plane i g0, dataOf_plane i g1, dataOf_plane i g2]
  have hb : ∀ id : Int, id ≠ -2 → id ≠ -3 → ∀ p, l.lastChannel id = some p → (rectOf l.rect).Mem x y →
      l.sample id x y = some (channelAt (rectOf l.rect) 1 p.plane x y) := by
    intro id n2 n3 p h hm
    have := sample_some h (channel_fills hv hp h n3) (by rw [boxOf_picture l n2 n3]; exact hm)
    rwa [boxOf_picture l n2 n3] at this
  by_cases hm : (rectOf l.rect).Mem x y
  · have s0 := hb 0 (by decide) (by decide) p0 g0 hm
    have s1 := hb 1 (by decide) (by decide) p1 g1 hm
    have s2 := hb 2 (by decide) (by decide) p2 g2 hm
    have hm' := hm
    unfold Rect.Mem at hm'
    unfold pictureAt Layer.colour
    rw [if_pos hm', if_pos hk, s0, s1, s2]
    cases ha : l.lastChannel (-1) with
    | none => simp
    | some pa =>
      rw [hb (-1) (by decide) (by decide) pa ha hm]
      simp only [Option.map_some, Option.isSome_some, if_true]
      split <;> rfl
  · have s0 : l.sample 0 x y = none := sample_outside (by rw [boxOf_picture l (by decide) (by decide)]; exact hm)
    unfold Rect.Mem at hm
    unfold pictureAt Layer.colour
    rw [if_neg hm, if_pos hk, s0]
    rfl

/-- What is stored of the file's mask. -/
theorem veil_mask (hv : l.Valid psb) (hp : l.PicturesValid psb 8 colors) {i : Nat} {c : Channel} (hc : (layerFull 3 8 i l).channel (-2) = some c) (x y : Int) :
    maskStored (layerFull 3 8 i l).mask.rect c.data (UInt8.ofNat (layerFull 3 8 i l).mask.defaultColor) x y = (if l.veil x y = 0 then none else some [l.veil x y]) := by
  have hr : (layerFull 3 8 i l).mask.rect = rectOf l.mask.box := maskMeaning_rect l.mask
  have hd : UInt8.ofNat (layerFull 3 8 i l).mask.defaultColor = l.mask.color := by
    show UInt8.ofNat (maskMeaning l.mask).defaultColor = _
    cases l.mask <;> simp [maskMeaning, MaskSpec.color]
  rw [hr, hd]
  have hc' : (l.lastChannel (-2)).map _ = some c := hc
  cases hl : l.lastChannel (-2) with
  | none => rw [hl] at hc'; cases hc'
  | some p =>
    rw [hl] at hc'
    cases hc'
    have hbox : l.boxOf (-2) = l.mask.box := rfl
    have flip : ∀ v : UInt8, 255 - v = 0 ↔ v = 255 := by
      intro v
      rw [← UInt8.toNat_inj, ← UInt8.toNat_inj, UInt8.toNat_sub]
      have := v.toNat_lt
      simp only [show UInt8.toNat 255 = 255 from rfl, show UInt8.toNat 0 = 0 from rfl]
      omega
    unfold maskStored
    by_cases hm : (rectOf l.mask.box).Mem x y
    · have hs := sample_some hl (channel_fills hv hp hl (by decide)) (x := x) (y := y) hm
      rw [hbox] at hs
      unfold Rect.Mem at hm
      rw [if_pos hm]
      unfold Layer.veil
      rw [hs]
      dsimp only
      by_cases hc0 : l.mask.color = 0
      · simp only [if_pos hc0]
        by_cases h : channelAt (rectOf l.mask.box) 1 p.plane x y = 0
        · simp only [h, ne_eq, not_true_eq_false, if_false, if_true]
        · simp only [h, ne_eq, not_false_eq_true, if_false, if_true]
      · simp only [if_neg hc0, flip]
        by_cases h : channelAt (rectOf l.mask.box) 1 p.plane x y = 255
        · simp only [h, ne_eq, not_true_eq_false, if_false, if_true]
        · simp only [h, ne_eq, not_false_eq_true, if_false, if_true]
    · have hs : l.sample (-2) x y = none := sample_outside hm
      unfold Rect.Mem at hm
      rw [if_neg hm]
      unfold Layer.veil
      rw [hs, if_pos rfl]

theorem veil_unmasked {i : Nat} (h : (layerFull 3 8 i l).mask.rect.empty = true ∨ (layerFull 3 8 i l).channel (-2) = none) (x y : Int) : l.veil x y = 0 := by
  have : l.sample (-2) x y = none := by
    rcases h with h | h
    · refine sample_outside fun hm => ?_
      have hr : (layerFull 3 8 i l).mask.rect = rectOf l.mask.box := maskMeaning_rect l.mask
      rw [hr] at h
      have hm : (rectOf l.mask.box).Mem x y := hm
      unfold Rect.empty at h
      unfold Rect.Mem at hm
      simp only [Bool.or_eq_true, decide_eq_true_eq] at h
      omega
    · have h : (l.lastChannel (-2)).map _ = none := h
      rw [Option.map_eq_none_iff] at h
      unfold Layer.sample
      rw [h]
      split <;> rfl
  unfold Layer.veil
  rw [this]

theorem tile_canvas {ts : Nat} (hts : 1 ≤ ts) {x x' : Int} (hx : 0 ≤ x) (h : x' / ts = x / ts) : 0 ≤ x' := by
  have h0 : 0 ≤ x / (ts : Int) := Int.ediv_nonneg hx (by omega)
  by_contra hc
  have : x' / (ts : Int) < 0 := Int.ediv_neg_of_neg_of_pos (by omega) (by omega)
  omega

/-- The pixel the renderer has of a layer. -/
theorem loaded_pixel (hv : l.Valid psb) (hp : l.PicturesValid psb 8 colors) (hc : l.Rgb) {procs ts : Nat} (hpr : 1 ≤ procs) (hts : 1 ≤ ts) {i : Nat}
    {canvas : Option TileMap} (h : loadCanvas procs ts (layerFull 3 8 i l) = .ok canvas) {x y : Int} (hx : 0 ≤ x) (hy : 0 ≤ y) :
    l.PixelIs ts x y (((canvas.map (·.map fun e => (e.1, nrgbaTile e.2))).bind (·.lookup (tilePt ts x y))).map (· (tileIx ts x y))) := by
  by_cases hpi : (layerFull 3 8 i l).Pictured
  · have hr := layer_reads hpi (coloured_of_rgb hc i) (filled_of_valid hv hp i)
    obtain ⟨m, e, -⟩ := tiles_hold_use (procs := procs) hpr hts hr hpi.2
    rw [loadCanvas_some hpi, e] at h
    cases h
    have hu := lookup_used hpr hts hr hpi.2 e x y
    have hq := tilePixel_picture hpr hts hr hpi.2 e x y
    rw [cutPictureAt_canvas hx hy, colour_picture hv hp hc hpi] at hq
    simp only [Option.map_some, Option.bind_some, lookup_tiles]
    have hex : (∃ x' y', x' / (ts : Int) = x / ts ∧ y' / (ts : Int) = y / ts ∧ (layerFull 3 8 i l).rect.Keeps ts x' y' ∧
        (pictureAt (layerFull 3 8 i l).rect 1 ((layerFull 3 8 i l).dataOf 0) ((layerFull 3 8 i l).dataOf 1) ((layerFull 3 8 i l).dataOf 2)
          (((layerFull 3 8 i l).channel (-1)).map Channel.data) x' y').isSome = true) ↔ ∃ x' y', SharedTile ts x y x' y' ∧ l.colour x' y' ≠ none := by
      constructor
      · rintro ⟨x', y', h1, h2, -, h3⟩
        rw [colour_picture hv hp hc hpi, Option.isSome_map] at h3
        exact ⟨x', y', ⟨h1, h2⟩, Option.isSome_iff_ne_none.1 h3⟩
      · rintro ⟨x', y', ⟨h1, h2⟩, h3⟩
        have h4 : (pictureAt (layerFull 3 8 i l).rect 1 ((layerFull 3 8 i l).dataOf 0) ((layerFull 3 8 i l).dataOf 1) ((layerFull 3 8 i l).dataOf 2)
          (((layerFull 3 8 i l).channel (-1)).map Channel.data) x' y').isSome = true := by
          rw [colour_picture hv hp hc hpi, Option.isSome_map]
          exact Option.isSome_iff_ne_none.2 h3
        refine ⟨x', y', h1, h2, Rect.keeps_of_canvas ?_ (tile_canvas hts hx h1) (tile_canvas hts hy h2), h4⟩
        by_contra hm
        rw [hr.outside _ _ hm] at h4
        cases h4
    rw [hex] at hu
    unfold tilePixel at hq
    unfold tilePt
    cases hl : m.lookup (x / ts * ts, y / ts * ts) with
    | none =>
      rw [hl] at hu
      intro x' y' hs
      by_contra hne
      exact absurd (hu.2 ⟨x', y', hs, hne⟩) (by decide)
    | some pix =>
      rw [hl] at hu hq
      refine ⟨hu.1 rfl, ?_⟩
      dsimp only at hq ⊢
      unfold nrgbaTile tileIx
      have hq' : ((pix.drop (((y % ts).toNat * ts + (x % ts).toNat) * 4)).take 4) =
          [((l.colour x y).getD ⟨0, 0, 0, 0⟩).r, ((l.colour x y).getD ⟨0, 0, 0, 0⟩).g, ((l.colour x y).getD ⟨0, 0, 0, 0⟩).b, ((l.colour x y).getD ⟨0, 0, 0, 0⟩).a] := by
        rw [hq]
        cases l.colour x y <;> rfl
      rw [getD_of_take hq' (show 1 < 4 by decide), getD_of_take hq' (show 2 < 4 by decide), getD_of_take hq' (show 3 < 4 by decide),
        ← Nat.add_zero (((y % ts).toNat * ts + (x % ts).toNat) * 4), getD_of_take hq' (show 0 < 4 by decide)]
      rfl
  · rw [loadCanvas_none hpi] at h
    cases h
    intro x' y' _
    exact colour_unpictured hpi x' y'

/-- The value the renderer has of a mask. -/
theorem loaded_mask (hv : l.Valid psb) (hp : l.PicturesValid psb 8 colors) {procs ts : Nat} (hpr : 1 ≤ procs) (hts : 1 ≤ ts) {i : Nat}
    {mask : Option TileMap} (h : loadMask procs ts (layerFull 3 8 i l) = .ok mask) {x y : Int} (hx : 0 ≤ x) (hy : 0 ≤ y) :
    l.MaskIs ts x y ((((mask.getD []).map fun e => (e.1, alphaTile e.2)).lookup (tilePt ts x y)).map (· (tileIx ts x y))) := by
  by_cases hno : (layerFull 3 8 i l).mask.rect.empty = true ∨ (layerFull 3 8 i l).channel (-2) = none
  · rw [loadMask_none hno] at h
    cases h
    intro x' y' _
    exact veil_unmasked hno x' y'
  · rw [not_or, Bool.not_eq_true] at hno
    obtain ⟨hne, hch⟩ := hno
    obtain ⟨c, hch⟩ := Option.ne_none_iff_exists'.1 hch
    have hr := mask_reads (UInt8.ofNat (layerFull 3 8 i l).mask.defaultColor) (fills_of_length ((filled_of_valid hv hp i).mask c hch))
    obtain ⟨m, e, -⟩ := tiles_hold_use (procs := procs) hpr hts hr hne
    rw [loadMask_some hne hch, e] at h
    cases h
    have hu := lookup_used hpr hts hr hne e x y
    have hq := tilePixel_stored hpr hts hr hne e x y
    simp only [Option.getD_some, lookup_tiles]
    have hin : ∀ x' y', l.veil x' y' ≠ 0 → (layerFull 3 8 i l).mask.rect.Mem x' y' := by
      intro x' y' h3
      by_contra hm
      have := hr.outside _ _ hm
      rw [veil_mask hv hp hch, if_neg h3] at this
      cases this
    have hex : (∃ x' y', x' / (ts : Int) = x / ts ∧ y' / (ts : Int) = y / ts ∧ (layerFull 3 8 i l).mask.rect.Keeps ts x' y' ∧
        (maskStored (layerFull 3 8 i l).mask.rect c.data (UInt8.ofNat (layerFull 3 8 i l).mask.defaultColor) x' y').isSome = true) ↔
        ∃ x' y', SharedTile ts x y x' y' ∧ l.veil x' y' ≠ 0 := by
      constructor
      · rintro ⟨x', y', h1, h2, -, h3⟩
        refine ⟨x', y', ⟨h1, h2⟩, fun h0 => ?_⟩
        rw [veil_mask hv hp hch, if_pos h0] at h3
        cases h3
      · rintro ⟨x', y', ⟨h1, h2⟩, h3⟩
        refine ⟨x', y', h1, h2, Rect.keeps_of_canvas (hin x' y' h3) (tile_canvas hts hx h1) (tile_canvas hts hy h2), ?_⟩
        rw [veil_mask hv hp hch, if_neg h3]
        rfl
    rw [hex] at hu
    have hq2 : tilePixel ts 1 m x y = [l.veil x y] := by
      rw [hq]
      by_cases h0 : l.veil x y = 0
      · rw [veil_mask hv hp hch, if_pos h0, h0]
        split <;> rfl
      · rw [if_pos (Rect.keeps_of_canvas (hin x y h0) hx hy), veil_mask hv hp hch, if_neg h0]
        rfl
    unfold tilePixel at hq2
    unfold tilePt
    cases hl : m.lookup (x / ts * ts, y / ts * ts) with
    | none =>
      rw [hl] at hu
      intro x' y' hs
      by_contra hne
      exact absurd (hu.2 ⟨x', y', hs, hne⟩) (by decide)
    | some pix =>
      rw [hl] at hu hq2
      refine ⟨hu.1 rfl, ?_⟩
      dsimp only at hq2 ⊢
      unfold alphaTile tileIx
      rw [Nat.mul_one] at hq2
      have := getD_of_take hq2 (show 0 < 1 by decide)
      rw [Nat.add_zero] at this
      rw [this]
      rfl

end

end Psd
