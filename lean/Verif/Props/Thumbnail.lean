import Verif.Lemmas.Retile
import Verif.Props.Resample
import Verif.Props.Trim
import Verif.Props.Tiles
import Verif.Spec.Thumbnail

/-!
# C94: thumbnails
-/

namespace Psd

section
variable {procs ts : Nat} {order : TileOrder}

/-- The bytes of a pixel in the rows of a picture. -/
theorem Rows.byte {k : Nat} {rect : Rect} {pix : List UInt8} {pic : Int → Int → List UInt8} (h : Rows k rect pix pic) {i j c : Nat} (hi : (i : Int) < rect.dx)
    (hj : (j : Int) < rect.dy) (hc : c < k) : pix[j * (rect.dx.toNat * k) + i * k + c]? = some ((pic (rect.minX + i) (rect.minY + j)).getD c 0) := by
  have e1 : rect.dx = rect.maxX - rect.minX := rfl
  have e2 : rect.dy = rect.maxY - rect.minY := rfl
  have hm : rect.Mem (rect.minX + i) (rect.minY + j) := by
    unfold Rect.Mem
    omega
  rw [← h.2 _ _ hm]
  obtain ⟨w, hw⟩ : ∃ w : Nat, rect.dx = w := ⟨rect.dx.toNat, by omega⟩
  obtain ⟨n, hn⟩ : ∃ n : Nat, rect.dy = n := ⟨rect.dy.toNat, by omega⟩
  have hl := h.1
  rw [hw, hn, Int.toNat_natCast, Int.toNat_natCast] at hl
  rw [hw] at hi
  rw [hn] at hj
  have hix : j * (w * k) + i * k + c < pix.length := by
    rw [hl]
    have h1 : (j + 1) * (w * k) ≤ n * (w * k) := Nat.mul_le_mul_right _ (by omega)
    have h2 : (i + 1) * k ≤ w * k := Nat.mul_le_mul_right _ (by omega)
    rw [Nat.add_mul, Nat.one_mul] at h1 h2
    have h3 : w * n * k = n * (w * k) := by ring
    omega
  have e : (bytesAt rect k pix (rect.minX + i) (rect.minY + j)).getD c 0 = pix.getD (j * (w * k) + i * k + c) 0 := by
    unfold bytesAt
    rw [List.getD_eq_getElem?_getD, List.getElem?_map, List.getElem?_range hc]
    simp only [Option.map_some, Option.getD_some]
    unfold channelAt
    rw [show rect.minY + (j : Int) - rect.minY = j by omega, show rect.minX + (i : Int) - rect.minX = i by omega, hw]
    rw [show (((j : Int) * w + i) * k).toNat = j * (w * k) + i * k by
      rw [show ((j : Int) * w + i) * k = ((j * (w * k) + i * k : Nat) : Int) by push_cast; ring]
      exact Int.toNat_natCast _]
    rw [List.getD_eq_getElem?_getD, List.getElem?_drop, Nat.add_comm c, ← List.getD_eq_getElem?_getD]
  rw [e, hw, Int.toNat_natCast, List.getD_eq_getElem?_getD, List.getElem?_eq_getElem hix]
  rfl

/-- Bytes that are those of a picture are its rows. -/
theorem Rows.of_bytes {k : Nat} {rect : Rect} {pix : List UInt8} {pic : Int → Int → List UInt8} (hk : ∀ x y, (pic x y).length = k)
    (hl : pix.length = rect.dx.toNat * rect.dy.toNat * k)
    (h : ∀ i j c : Nat, (i : Int) < rect.dx → (j : Int) < rect.dy → c < k →
      pix[j * (rect.dx.toNat * k) + i * k + c]? = some ((pic (rect.minX + i) (rect.minY + j)).getD c 0)) : Rows k rect pix pic := by
  refine ⟨hl, fun x y hm => ?_⟩
  rw [← list_of_getD (hk x y)]
  unfold bytesAt
  apply List.map_congr_left
  intro c hc
  have hc := List.mem_range.1 hc
  unfold Rect.Mem at hm
  have e1 : rect.dx = rect.maxX - rect.minX := rfl
  have e2 : rect.dy = rect.maxY - rect.minY := rfl
  obtain ⟨i, hi⟩ : ∃ i : Nat, x - rect.minX = i := ⟨(x - rect.minX).toNat, by omega⟩
  obtain ⟨j, hj⟩ : ∃ j : Nat, y - rect.minY = j := ⟨(y - rect.minY).toNat, by omega⟩
  obtain ⟨w, hw⟩ : ∃ w : Nat, rect.dx = w := ⟨rect.dx.toNat, by omega⟩
  have := h i j c (by omega) (by omega) hc
  unfold channelAt
  rw [hi, hj, hw]
  rw [show (((j : Int) * w + i) * k).toNat = j * (w * k) + i * k by
      rw [show ((j : Int) * w + i) * k = ((j * (w * k) + i * k : Nat) : Int) by push_cast; ring]
      exact Int.toNat_natCast _]
  rw [List.getD_eq_getElem?_getD, List.getElem?_drop, Nat.add_comm c]
  rw [hw, Int.toNat_natCast, show rect.minX + (i : Int) = x by omega, show rect.minY + (j : Int) = y by omega] at this
  rw [this]
  rfl

theorem CopyOf.alpha {p q : List UInt8} (h : CopyOf p q) : q.getD 3 0 = p.getD 3 0 := by
  obtain ⟨r, g, b, a, r', g', b', rfl, rfl, -⟩ := h
  rfl

theorem CopyOf.len {p q : List UInt8} (h : CopyOf p q) : q.length = 4 := by
  obtain ⟨r, g, b, a, r', g', b', rfl, rfl, -⟩ := h
  rfl

theorem Visible.mem (hts : 1 ≤ ts) {c : TileMap} (hc : Stored ts 4 c) (hne : c ≠ []) {x y : Int} (h : Visible ts c x y) : (tilesRect ts c).Mem x y := by
  by_contra hm
  apply h
  rw [tilePixel_outside hts hne hc.grid hm]
  rfl

/-- The size of a thumbnail is in proportion. -/
theorem thumbSize_spec (size : Nat) {w h : Nat} (hw : 1 ≤ w) (hh : 1 ≤ h) : InProportion size w h (thumbSize size w h) := by
  unfold thumbSize InProportion
  split
  · rename_i hlt
    exact .inl ⟨hlt, rfl, Nat.div_mul_le_self _ _, by rw [Nat.mul_comm _ w]; exact Nat.lt_mul_div_succ _ (by omega)⟩
  · rename_i hlt
    exact .inr ⟨by omega, rfl, Nat.div_mul_le_self _ _, by rw [Nat.mul_comm _ h]; exact Nat.lt_mul_div_succ _ (by omega)⟩

/-- **C94** (in part) The thumbnail of a layer with a picture. Of the least box that holds all that is seen, columns `x0` to `x1` and rows `y0` to `y1`, the
part left of `x1` and above `y1` is shrunk; its pixels are those of the layer up to the rounding of `blend.Copy`. The longer side of the thumbnail is
`size` and the other one in proportion. There is none if the box is one pixel wide or high. None of this depends on the schedule or on what is in
`tempBuffer`, and there is no panic but one of the shrinking.

Missing: column `x1` and row `y1`, and the thumbnails of layers one pixel wide or high (`C94_thin_layer_lost`). -/
theorem C94_thumbnail_partial (hts : 1 ≤ ts) {images : Nat → Option LayerImage} {k : Nat} {img : LayerImage} (hi : images k = some img) {c : TileMap}
    (hc : img.canvas = some c) (hst : Stored ts 4 c) (hne : c ≠ []) (shrink : Shrinker) (size : Nat) :
    ∃ (x0 y0 x1 y1 : Int) (flat : Int → Int → List UInt8) (src : List UInt8) (d : Nat × Nat), Box (Visible ts c) x0 y0 x1 y1 ∧
      (∀ x y, CopyOf (tilePixel ts 4 c x y) (flat x y)) ∧ Rows 4 ⟨x0, y0, x1, y1⟩ src flat ∧
      (x0 < x1 → y0 < y1 → InProportion size (x1 - x0).toNat (y1 - y0).toNat d) ∧
      ∀ procs order, 1 ≤ procs → Orders procs ts order → ∀ temp, thumbnail shrink ts order images k size temp =
        if x0 < x1 ∧ y0 < y1 then
          (shrink d.1 d.2 ⟨x0 - (tilesRect ts c).minX, y0 - (tilesRect ts c).minY, x1 - (tilesRect ts c).minX, y1 - (tilesRect ts c).minY⟩ src).map fun pix => ⟨d.1, d.2, pix⟩
        else .err (.bad "composite: no canvas") := by
  obtain ⟨flat, src, hcopy, hrows, hsrc⟩ := flattened hts hst hne
  have hemp := tilesRect_nonempty hts hne
  obtain ⟨rect, er⟩ : ∃ r, tilesRect ts c = r := ⟨_, rfl⟩
  have hemp' := hemp
  rw [Rect.nonempty_iff, er] at hemp'
  have hvm : ∀ x y, Visible ts c x y → rect.Mem x y := fun x y h => er ▸ Visible.mem hts hst hne h
  rw [er] at hrows
  have e1 : rect.dx = rect.maxX - rect.minX := rfl
  have e2 : rect.dy = rect.maxY - rect.minY := rfl
  obtain ⟨w, hw⟩ : ∃ w : Nat, rect.dx = w := ⟨rect.dx.toNat, by omega⟩
  obtain ⟨h, hh⟩ : ∃ h : Nat, rect.dy = h := ⟨rect.dy.toNat, by omega⟩
  have hshow : ∀ i j : Nat, Shows src w h (w * 4) 0 i j ↔ i < w ∧ j < h ∧ Visible ts c (rect.minX + i) (rect.minY + j) := by
    intro i j
    unfold Shows Visible
    refine ⟨fun ⟨h1, h2, a, h3, h4⟩ => ⟨h1, h2, ?_⟩, fun ⟨h1, h2, h3⟩ => ⟨h1, h2, (tilePixel ts 4 c (rect.minX + i) (rect.minY + j)).getD 3 0, ?_, ?_⟩⟩
    · have := hrows.byte (i := i) (j := j) (c := 3) (by omega) (by omega) (by decide)
      rw [hw, Int.toNat_natCast, h3, Option.some.injEq] at this
      rw [← (hcopy _ _).1.alpha, ← this]
      intro hz
      rw [hz] at h4
      exact absurd h4 (by decide)
    · have := hrows.byte (i := i) (j := j) (c := 3) (by omega) (by omega) (by decide)
      rw [hw, Int.toNat_natCast] at this
      rw [this, (hcopy _ _).1.alpha]
    · rw [gt_iff_lt, UInt8.lt_iff_toNat_lt]
      have : ((tilePixel ts 4 c (rect.minX + i) (rect.minY + j)).getD 3 0).toNat ≠ 0 := fun hz => h3 (UInt8.toNat_inj.1 hz)
      simp only [UInt8.toNat_zero]
      omega
  have hplace : ∀ x y, Visible ts c x y → ∃ i j : Nat, x = rect.minX + i ∧ y = rect.minY + j ∧ Shows src w h (w * 4) 0 i j := by
    intro x y hv
    have hm := hvm x y hv
    unfold Rect.Mem at hm
    refine ⟨(x - rect.minX).toNat, (y - rect.minY).toNat, by omega, by omega, (hshow _ _).2 ⟨by omega, by omega, ?_⟩⟩
    rw [show rect.minX + ((x - rect.minX).toNat : Int) = x by omega, show rect.minY + ((y - rect.minY).toNat : Int) = y by omega]
    exact hv
  have hsome : ∃ x y, Visible ts c x y := by
    cases c with
    | nil => exact absurd rfl hne
    | cons e c =>
      obtain ⟨x, y, -, h⟩ := hst.used e (List.mem_cons_self ..)
      exact ⟨x, y, h⟩
  have hlen : src.length = h * (w * 4) := by
    have := hrows.1
    rw [hw, hh, Int.toNat_natCast, Int.toNat_natCast] at this
    rw [this]
    ring
  obtain ⟨a0, b0, a1, b1, out, t1, ⟨_, t2⟩, ⟨_, t3⟩, ⟨_, t4⟩, ⟨_, t5⟩, t6, t7, t8⟩ := C63_trim_partial src w h (w * 4) 0 (Nat.le_refl _) hlen
    (by obtain ⟨x, y, hv⟩ := hsome; obtain ⟨i, j, -, -, hs⟩ := hplace x y hv; exact ⟨i, j, hs⟩)
  have v2 := (hshow _ _).1 t2
  have v3 := (hshow _ _).1 t3
  have v4 := (hshow _ _).1 t4
  have v5 := (hshow _ _).1 t5
  have l1 := t1 _ _ t2
  have l2 := t1 _ _ t4
  refine ⟨rect.minX + a0, rect.minY + b0, rect.minX + a1, rect.minY + b1, flat, out, thumbSize size (a1 - a0) (b1 - b0), ⟨?_, ⟨_, v2.2.2⟩, ⟨_, v3.2.2⟩, ⟨_, v4.2.2⟩, ⟨_, v5.2.2⟩⟩,
    fun x y => (hcopy x y).1, ?_, ?_, ?_⟩
  · intro x y hv
    obtain ⟨i, j, rfl, rfl, hs⟩ := hplace x y hv
    have := t1 _ _ hs
    omega
  · have d1 : (⟨rect.minX + a0, rect.minY + b0, rect.minX + a1, rect.minY + b1⟩ : Rect).dx = ((a1 - a0 : Nat) : Int) := by
      simp only [Rect.dx]
      omega
    have d2 : (⟨rect.minX + a0, rect.minY + b0, rect.minX + a1, rect.minY + b1⟩ : Rect).dy = ((b1 - b0 : Nat) : Int) := by
      simp only [Rect.dy]
      omega
    refine Rows.of_bytes (fun x y => (hcopy x y).1.len) ?_ ?_
    · rw [d1, d2, Int.toNat_natCast, Int.toNat_natCast, t7]
      ring
    · intro i j k hi hj hk
      rw [d1] at hi
      rw [d2] at hj
      rw [d1, Int.toNat_natCast]
      have := t8 (a0 + i) (b0 + j) k (by omega) (by omega) (by omega) (by omega) hk
      rw [show b0 + j - b0 = j by omega, show a0 + i - a0 = i by omega] at this
      rw [this]
      have := hrows.byte (i := a0 + i) (j := b0 + j) (c := k) (by omega) (by omega) hk
      rw [hw, Int.toNat_natCast] at this
      rw [this]
      simp only
      congr 3 <;> omega
  · intro h1 h2
    rw [show (rect.minX + a1 - (rect.minX + a0)).toNat = a1 - a0 by omega, show (rect.minY + b1 - (rect.minY + b0)).toNat = b1 - b0 by omega]
    exact thumbSize_spec size (by omega) (by omega)
  · intro procs order hp ho temp
    unfold thumbnail
    rw [if_neg (by omega), Int.toNat_natCast, hi]
    simp only [hc, hemp, Bool.false_eq_true, if_false]
    unfold thumbSource
    rw [hsrc procs order hp ho, er, hw, hh, Int.toNat_natCast, Int.toNat_natCast]
    unfold shrinkSource
    rw [t6]
    simp only [Res.ok_bind]
    have d1 : (⟨(a0 : Int), (b0 : Int), (a1 : Int), (b1 : Int)⟩ : Rect).dx = ((a1 - a0 : Nat) : Int) := by
      simp only [Rect.dx]
      omega
    have d2 : (⟨(a0 : Int), (b0 : Int), (a1 : Int), (b1 : Int)⟩ : Rect).dy = ((b1 - b0 : Nat) : Int) := by
      simp only [Rect.dy]
      omega
    rw [d1, d2, Int.toNat_natCast, Int.toNat_natCast]
    by_cases hz : a0 < a1 ∧ b0 < b1
    · rw [if_neg, if_pos (by omega)]
      · rw [show rect.minX + (a0 : Int) - rect.minX = a0 by omega, show rect.minX + (a1 : Int) - rect.minX = a1 by omega,
          show rect.minY + (b0 : Int) - rect.minY = b0 by omega, show rect.minY + (b1 : Int) - rect.minY = b1 by omega]
        cases shrink (thumbSize size (a1 - a0) (b1 - b0)).1 (thumbSize size (a1 - a0) (b1 - b0)).2 ⟨a0, b0, a1, b1⟩ out <;> rfl
      · intro hc
        have : (a1 - a0) * (b1 - b0) = 0 := by exact_mod_cast hc
        rcases Nat.mul_eq_zero.1 this with h | h <;> omega
    · rw [if_pos, if_neg (by omega)]
      have : (a1 - a0) * (b1 - b0) = 0 := by
        rcases Nat.lt_or_ge a0 a1 with h | h
        · rw [show b1 - b0 = 0 by omega, Nat.mul_zero]
        · rw [show a1 - a0 = 0 by omega, Nat.zero_mul]
      exact_mod_cast this

/-- **C94** is false of layers one pixel wide or high: whatever they show, they have no thumbnail. -/
theorem C94_thin_layer_lost (hp : 1 ≤ procs) (hts : 1 ≤ ts) (ho : Orders procs ts order) {images : Nat → Option LayerImage} {k : Nat} {img : LayerImage}
    (hi : images k = some img) {c : TileMap} (hc : img.canvas = some c) (hst : Stored ts 4 c) (hne : c ≠ [])
    (hthin : (∀ x y x' y', Visible ts c x y → Visible ts c x' y' → x = x') ∨ ∀ x y x' y', Visible ts c x y → Visible ts c x' y' → y = y')
    (shrink : Shrinker) (size : Nat) (temp : List UInt8) : thumbnail shrink ts order images k size temp = .err (.bad "composite: no canvas") := by
  obtain ⟨x0, y0, x1, y1, flat, src, d, hb, -, -, -, h⟩ := C94_thumbnail_partial hts hi hc hst hne shrink size
  rw [h procs order hp ho temp, if_neg]
  rintro ⟨h1, h2⟩
  obtain ⟨_, a⟩ := hb.left
  obtain ⟨_, b⟩ := hb.right
  obtain ⟨_, e⟩ := hb.top
  obtain ⟨_, f⟩ := hb.bottom
  rcases hthin with g | g
  · have := g _ _ _ _ a b
    omega
  · have := g _ _ _ _ e f
    omega

/-- **C94** Thumbnails are asked for in vain of layers without a picture. -/
theorem C94_no_picture (shrink : Shrinker) (images : Nat → Option LayerImage) (id : Int) (size : Nat) (temp : List UInt8)
    (h : ∀ (k : Nat) img, id = k → images k = some img → img.canvas = none ∨ img.canvas = some []) :
    ∃ e, thumbnail shrink ts order images id size temp = .err e := by
  unfold thumbnail
  split
  · exact ⟨_, rfl⟩
  · rename_i img hi
    split at hi
    · cases hi
    · rename_i hn
      rcases h id.toNat img (by omega) hi with h | h
      · rw [h]
        exact ⟨_, rfl⟩
      · rw [h]
        exact ⟨_, rfl⟩

/-- The schedule and the buffer do not matter. -/
theorem thumbnail_same {procs' : Nat} {order' : TileOrder} (hp : 1 ≤ procs) (hp' : 1 ≤ procs') (hts : 1 ≤ ts) (ho : Orders procs ts order) (ho' : Orders procs' ts order')
    {images : Nat → Option LayerImage} (hst : ∀ k img, images k = some img → img.Stored ts) (shrink : Shrinker) (id : Int) (size : Nat) (temp temp' : List UInt8) :
    thumbnail shrink ts order images id size temp = thumbnail shrink ts order' images id size temp' := by
  by_cases hid : id < 0
  · unfold thumbnail
    rw [if_pos hid]
  · obtain ⟨k, rfl⟩ : ∃ k : Nat, id = k := ⟨id.toNat, by omega⟩
    cases hi : images k with
    | none =>
      unfold thumbnail
      rw [if_neg hid, Int.toNat_natCast, hi]
    | some img =>
      cases hc : img.canvas with
      | none =>
        unfold thumbnail
        rw [if_neg hid, Int.toNat_natCast, hi]
        simp only [hc]
      | some c =>
        by_cases hne : c = []
        · unfold thumbnail
          rw [if_neg hid, Int.toNat_natCast, hi]
          simp only [hc, hne]
          rfl
        · obtain ⟨x0, y0, x1, y1, flat, src, d, -, -, -, -, h⟩ := C94_thumbnail_partial hts hi hc ((hst k img hi).1 c hc) hne shrink size
          rw [h procs order hp ho temp, h procs' order' hp' ho' temp']

theorem mem_gatherLoop {inner : Ptr → List Ptr} {arr : Nat} {q : Ptr} : ∀ (n i : Nat), q ∈ gatherLoop inner arr n i ↔ ∃ j, i ≤ j ∧ j < i + n ∧ q ∈ inner (arr, j)
  | 0, i => ⟨fun h => (by cases h), fun ⟨j, h1, h2, _⟩ => (by omega)⟩
  | n + 1, i => by
    unfold gatherLoop
    rw [List.mem_append, mem_gatherLoop n (i + 1)]
    constructor
    · rintro (h | ⟨j, h1, h2, h3⟩)
      · exact ⟨i, Nat.le_refl _, by omega, h⟩
      · exact ⟨j, by omega, by omega, h3⟩
    · rintro ⟨j, h1, h2, h3⟩
      by_cases e : j = i
      · exact .inl (e ▸ h3)
      · exact .inr ⟨j, by omega, by omega, h3⟩

/-- `gatherLayer` finds the layers of the tree. -/
theorem mem_gatherLayer {h : CHeap} {q : Ptr} : ∀ (fuel : Nat) (p : Ptr), (∀ π q, slotAt h p π = some q → π.length < fuel) →
    (q ∈ gatherLayer h fuel p ↔ ∃ π, slotAt h p π = some q)
  | 0, p, hf => absurd (hf [] p rfl) (by simp)
  | f + 1, p, hf => by
    unfold gatherLayer
    rw [List.mem_cons, mem_gatherLoop]
    have ih : ∀ j, j < (h.at_ p).children.len → (q ∈ gatherLayer h f ((h.at_ p).children.arr, j) ↔ ∃ π, slotAt h ((h.at_ p).children.arr, j) π = some q) := by
      intro j hj
      refine mem_gatherLayer f _ fun π q' e => ?_
      have := hf (j :: π) q' (by unfold slotAt; rw [if_pos hj]; exact e)
      rw [List.length_cons] at this
      omega
    constructor
    · rintro (rfl | ⟨j, -, h2, h3⟩)
      · exact ⟨[], rfl⟩
      · obtain ⟨π, e⟩ := (ih j (by omega)).1 h3
        exact ⟨j :: π, by unfold slotAt; rw [if_pos (by omega)]; exact e⟩
    · rintro ⟨π, e⟩
      cases π with
      | nil =>
        left
        unfold slotAt at e
        injection e with e
        exact e.symm
      | cons j π =>
        right
        unfold slotAt at e
        split at e
        · rename_i hj
          exact ⟨j, Nat.zero_le _, by omega, (ih j hj).2 ⟨π, e⟩⟩
        · cases e

theorem thumbnailsWork_flatten (hp : 1 ≤ procs) (n : Nat) : (thumbnailsWork procs n).flatten = List.range n := by
  unfold thumbnailsWork
  obtain ⟨w1, _, _⟩ := drawWorkers_spec (n : Int) procs hp
  have hle : 0 + (drawWorkers procs n - 1) * (n / drawWorkers procs n) ≤ n := by
    have : (drawWorkers procs n - 1) * (n / drawWorkers procs n) ≤ n :=
      Nat.le_trans (Nat.mul_le_mul_right _ (Nat.sub_le _ 1)) (by rw [Nat.mul_comm]; exact Nat.div_mul_le_self _ _)
    omega
  have key := spawnCells_flat (fun j : Nat => j) (n / drawWorkers procs n) n (drawWorkers procs n - 1) 0 hle
  simp only [List.map_id'] at key
  rw [← List.flatMap_def, key, Nat.sub_zero, List.range_eq_range']

theorem thumbnailsInner_spec {thumb : Int → List UInt8 → Res Thumb} {h : CHeap} {layers : List Ptr} {bufs : Nat → List UInt8} {f : Int → Option Thumb}
    (hthumb : ∀ id buf, match f id with | some t => thumb id buf = .ok t | none => ∃ e, thumb id buf = .err e) : ∀ (is : List Nat) (m : Int → Option Thumb),
    (∀ i ∈ is, i < layers.length) → (∀ id, m id = none ∨ m id = f id) →
    ∃ m', thumbnailsInner thumb h layers bufs is m = .ok m' ∧
      ∀ id, m' id = if (m id).isSome ∨ ∃ i ∈ is, ∃ p, layers[i]? = some p ∧ (h.at_ p).attr.seqID = id then f id else none
  | [], m, _, hm => by
    refine ⟨m, rfl, fun id => ?_⟩
    rcases hm id with e | e
    · rw [if_neg (by rintro (h | ⟨i, h, -⟩); · simp [e] at h
                     · cases h), e]
    · cases hf : f id with
      | none => simp [e, hf]
      | some t => rw [if_pos (.inl (by rw [e, hf]; rfl)), e, hf]
  | i :: is, m, hl, hm => by
    have hi := hl i (List.mem_cons_self ..)
    have hl' : ∀ j ∈ is, j < layers.length := fun j hj => hl j (List.mem_cons_of_mem _ hj)
    unfold thumbnailsInner
    rw [List.getElem?_eq_getElem hi]
    simp only
    obtain ⟨id0, e0⟩ : ∃ id0, (h.at_ layers[i]).attr.seqID = id0 := ⟨_, rfl⟩
    rw [e0]
    have ht := hthumb id0 (bufs i)
    cases hf : f id0 with
    | some t =>
      rw [hf] at ht
      rw [ht]
      simp only
      obtain ⟨m', e', h'⟩ := thumbnailsInner_spec hthumb is (fun k => if k = id0 then some t else m k) hl' fun id => by
        split
        · rename_i e
          rw [e, hf]
          exact .inr rfl
        · exact hm id
      refine ⟨m', e', fun id => ?_⟩
      rw [h' id]
      apply if_congr _ rfl rfl
      constructor
      · rintro (g | ⟨j, g1, g2⟩)
        · split at g
          · rename_i e
            exact .inr ⟨i, List.mem_cons_self .., _, List.getElem?_eq_getElem hi, by rw [e0, e]⟩
          · exact .inl g
        · exact .inr ⟨j, List.mem_cons_of_mem _ g1, g2⟩
      · rintro (g | ⟨j, g1, p, g2, g3⟩)
        · left
          split
          · rfl
          · exact g
        · rcases List.mem_cons.1 g1 with rfl | g1
          · left
            rw [List.getElem?_eq_getElem hi, Option.some.injEq] at g2
            rw [← g2, e0] at g3
            rw [if_pos g3.symm]
            rfl
          · exact .inr ⟨j, g1, p, g2, g3⟩
    | none =>
      rw [hf] at ht
      obtain ⟨e, ht⟩ := ht
      rw [ht]
      simp only
      obtain ⟨m', e', h'⟩ := thumbnailsInner_spec hthumb is m hl' hm
      refine ⟨m', e', fun id => ?_⟩
      rw [h' id]
      by_cases hid : id = id0
      · subst hid
        rw [hf]
        split <;> split <;> rfl
      · apply if_congr _ rfl rfl
        constructor
        · rintro (g | ⟨j, g1, g2⟩)
          · exact .inl g
          · exact .inr ⟨j, List.mem_cons_of_mem _ g1, g2⟩
        · rintro (g | ⟨j, g1, p, g2, g3⟩)
          · exact .inl g
          · rcases List.mem_cons.1 g1 with rfl | g1
            · rw [List.getElem?_eq_getElem hi, Option.some.injEq] at g2
              rw [← g2, e0] at g3
              exact absurd g3.symm hid
            · exact .inr ⟨j, g1, p, g2, g3⟩

/-- Without a panic of the shrinking there is none of `Thumbnail`. -/
theorem thumbnail_returns (hp : 1 ≤ procs) (hts : 1 ≤ ts) (ho : Orders procs ts order) {images : Nat → Option LayerImage}
    (hst : ∀ k img, images k = some img → img.Stored ts) {shrink : Shrinker} (hs : ∀ dw dh r pix, (∃ out, shrink dw dh r pix = .ok out) ∨ ∃ e, shrink dw dh r pix = .err e)
    (id : Int) (size : Nat) (temp : List UInt8) :
    (∃ t, thumbnail shrink ts order images id size temp = .ok t ∧ t.w ≤ size ∧ t.h ≤ size) ∨ ∃ e, thumbnail shrink ts order images id size temp = .err e := by
  by_cases h : ∀ (k : Nat) img, id = k → images k = some img → img.canvas = none ∨ img.canvas = some []
  · exact .inr (C94_no_picture shrink images id size temp h)
  · simp only [not_forall, not_or] at h
    obtain ⟨k, img, rfl, hi, h1, h2⟩ := h
    obtain ⟨c, hc⟩ := Option.ne_none_iff_exists'.1 h1
    obtain ⟨x0, y0, x1, y1, flat, src, d, -, -, -, hd, h⟩ := C94_thumbnail_partial hts hi hc ((hst k img hi).1 c hc) (fun e => h2 (e ▸ hc)) shrink size
    rw [h procs order hp ho temp]
    split
    · rename_i hlt
      rcases hs d.1 d.2 ⟨x0 - (tilesRect ts c).minX, y0 - (tilesRect ts c).minY, x1 - (tilesRect ts c).minX, y1 - (tilesRect ts c).minY⟩ src with ⟨out, e⟩ | ⟨er, e⟩
      · rw [e]
        refine .inl ⟨_, rfl, ?_⟩
        have h1 : 1 ≤ (x1 - x0).toNat := by omega
        have h2 : 1 ≤ (y1 - y0).toNat := by omega
        simp only
        rcases hd hlt.1 hlt.2 with ⟨a, b, e, -⟩ | ⟨a, b, e, -⟩
        · refine ⟨Nat.le_of_eq b, ?_⟩
          by_contra hc
          have : (x1 - x0).toNat * (size + 1) ≤ (x1 - x0).toNat * d.2 := Nat.mul_le_mul_left _ (by omega)
          have h3 : (y1 - y0).toNat * size ≤ (x1 - x0).toNat * size := Nat.mul_le_mul_right _ (by omega)
          rw [Nat.mul_add] at this
          rw [Nat.mul_comm d.2] at e
          omega
        · refine ⟨?_, Nat.le_of_eq b⟩
          by_contra hc
          have : (y1 - y0).toNat * (size + 1) ≤ (y1 - y0).toNat * d.1 := Nat.mul_le_mul_left _ (by omega)
          have h3 : (x1 - x0).toNat * size ≤ (y1 - y0).toNat * size := Nat.mul_le_mul_right _ (by omega)
          rw [Nat.mul_add] at this
          rw [Nat.mul_comm d.1] at e
          omega
      · rw [e]
        exact .inr ⟨_, rfl⟩
    · exact .inr ⟨_, rfl⟩

/-- **C94** `Thumbnails` makes the thumbnails that `Thumbnail` makes, of each layer of the tree that has one, and no others: whatever the number of
goroutines, the schedule, and what is left in the buffers that they use again. -/
theorem C94_thumbnails (hp : 1 ≤ procs) (hts : 1 ≤ ts) (t : AnyTree) (hst : ∀ k img, t.images k = some img → img.Stored ts) {shrink : Shrinker}
    (hs : ∀ dw dh r pix, (∃ out, shrink dw dh r pix = .ok out) ∨ ∃ e, shrink dw dh r pix = .err e) (fuel : Nat)
    (hfin : ∀ π q, slotAt t.heap t.root π = some q → π.length < fuel) (size : Nat) {orders : Nat → TileOrder} (ho : ∀ k, Orders procs ts (orders k))
    (bufs : Nat → List UInt8) {sched : List Nat} (hsc : Interleaves (thumbnailsWork procs (gatherLayer t.heap fuel t.root).length) sched) :
    ∃ m, t.thumbnails shrink ts orders bufs sched fuel size = .ok m ∧ (∀ id th, m id = some th → th.w ≤ size ∧ th.h ≤ size) ∧
      ∀ procs' order, 1 ≤ procs' → Orders procs' ts order → ∀ temp id th, m id = some th ↔
        (∃ π q, slotAt t.heap t.root π = some q ∧ (t.heap.at_ q).attr.seqID = id) ∧ thumbnail shrink ts order t.images id size temp = .ok th := by
  classical
  obtain ⟨f, hf⟩ : ∃ f : Int → Option Thumb, ∀ id, f id = match thumbnail shrink ts (orders 0) t.images id size [] with | .ok th => some th | _ => none := ⟨_, fun _ => rfl⟩
  have hany : ∀ procs' order, 1 ≤ procs' → Orders procs' ts order → ∀ id temp,
      match f id with | some th => thumbnail shrink ts order t.images id size temp = .ok th ∧ th.w ≤ size ∧ th.h ≤ size | none => ∃ e, thumbnail shrink ts order t.images id size temp = .err e := by
    intro procs' order hp' ho' id temp
    rw [hf, thumbnail_same hp hp' hts (ho 0) ho' hst shrink id size [] temp]
    rcases thumbnail_returns hp' hts ho' hst hs id size temp with ⟨th, e, l⟩ | ⟨er, e⟩
    · rw [e]
      exact ⟨rfl, l⟩
    · rw [e]
      exact ⟨er, rfl⟩
  obtain ⟨m, e, hm⟩ := thumbnailsInner_spec (thumb := fun id buf => thumbnail shrink ts (orders id.toNat) t.images id size buf) (h := t.heap)
    (layers := gatherLayer t.heap fuel t.root) (bufs := bufs) (f := f) (fun id buf => by
      have := hany procs (orders id.toNat) hp (ho _) id buf
      cases hfi : f id with
      | none => rw [hfi] at this; exact this
      | some th => rw [hfi] at this; exact this.1) sched (fun _ => none) (fun i hi => by
      have := hsc.1.mem_iff.1 hi
      rw [thumbnailsWork_flatten hp] at this
      exact List.mem_range.1 this) (fun _ => .inl rfl)
  have hiff : ∀ id, (∃ i ∈ sched, ∃ p, (gatherLayer t.heap fuel t.root)[i]? = some p ∧ (t.heap.at_ p).attr.seqID = id) ↔
      ∃ π q, slotAt t.heap t.root π = some q ∧ (t.heap.at_ q).attr.seqID = id := by
    intro id
    constructor
    · rintro ⟨i, -, p, g1, g2⟩
      obtain ⟨π, e⟩ := (mem_gatherLayer fuel t.root hfin).1 (List.mem_of_getElem? g1)
      exact ⟨π, p, e, g2⟩
    · rintro ⟨π, q, g1, g2⟩
      obtain ⟨i, hi, e⟩ := List.mem_iff_getElem.1 ((mem_gatherLayer fuel t.root hfin).2 ⟨π, g1⟩)
      exact ⟨i, hsc.1.mem_iff.2 (by rw [thumbnailsWork_flatten hp]; exact List.mem_range.2 hi), q, by rw [List.getElem?_eq_getElem hi, e], g2⟩
  have hm' : ∀ id, m id = if ∃ π q, slotAt t.heap t.root π = some q ∧ (t.heap.at_ q).attr.seqID = id then f id else none := by
    intro id
    rw [hm id]
    refine if_congr ?_ rfl rfl
    rw [← hiff id]
    simp
  refine ⟨m, e, fun id th h => ?_, fun procs' order hp' ho' temp id th => ?_⟩
  · rw [hm' id] at h
    split at h
    · have := hany procs (orders 0) hp (ho 0) id []
      rw [h] at this
      exact this.2
    · cases h
  · rw [hm' id]
    have := hany procs' order hp' ho' id temp
    constructor
    · intro h
      split at h
      · rename_i hin
        rw [h] at this
        exact ⟨hin, this.1⟩
      · cases h
    · rintro ⟨hin, h⟩
      rw [if_pos hin]
      cases hfi : f id with
      | none =>
        rw [hfi] at this
        obtain ⟨er, this⟩ := this
        rw [h] at this
        cases this
      | some th' =>
        rw [hfi] at this
        have := this.1
        rw [h] at this
        injection this with this
        rw [this]

/-! ## C95 -/

theorem copied_pix (p : Px) : CopyOf (asSeen p.pix) (copied p).pix := by
  by_cases ha : p.a = 0
  · obtain ⟨q, e, -, h2, -⟩ := (C46_copy_partial p ⟨0, 0, 0, 0⟩).1
    have : copied p = ⟨0, 0, 0, 0⟩ := by
      unfold copied
      rw [e]
      exact h2 ha
    rw [this]
    unfold Px.pix
    rw [asSeen4, if_pos ha]
    exact CopyOf.zero
  · have := CopyOf.copied ha
    unfold Px.pix at this ⊢
    rw [asSeen4, if_neg ha]
    exact this

theorem copyThumb_pixel {side : Nat} {place : Rect} {t : Thumb} {pic : Int → Int → Px} {x y : Int} (h1 : (⟨0, 0, side, side⟩ : Rect).Mem x y) (h2 : place.Mem x y) :
    copyThumb side place t pic x y = copied (picAt ⟨0, 0, t.w, t.h⟩ t.pix (x - place.minX) (y - place.minY)) := by
  unfold copyThumb
  rw [if_pos ⟨h1, h2⟩, copy_any]

theorem copyThumb_outside {side : Nat} {place : Rect} {t : Thumb} {pic : Int → Int → Px} {x y : Int} (h2 : ¬ place.Mem x y) :
    copyThumb side place t pic x y = pic x y := by
  unfold copyThumb
  rw [if_neg fun h => h2 h.2]

theorem picAt_pix {t : Thumb} {i j : Int} (h : 0 ≤ i ∧ i < t.w ∧ 0 ≤ j ∧ j < t.h) : (picAt ⟨0, 0, t.w, t.h⟩ t.pix i j).pix = t.pixel i j := by
  unfold Thumb.pixel picAt Px.pix
  rw [if_pos h]
  simp only [Rect.dx, Int.sub_zero]
  rfl

/-- What the sheet shows after the cells `cells`, which have no points in common. -/
theorem sheetInner_spec {m : Int → Option Thumb} {ids : List Int} {size side : Nat} (hids : ids.Nodup) : ∀ (cells : List (Nat × Rect)) (pic : Int → Int → Px)
    (places : Int → Option Rect), (∀ e ∈ cells, ∃ id t, ids[e.1]? = some id ∧ m id = some t) → (cells.map Prod.fst).Nodup →
    (∀ e ∈ cells, ∀ t x y, (∃ id, ids[e.1]? = some id ∧ m id = some t) → (thumbPlace size e.2 (t.w, t.h)).Mem x y → e.2.Mem x y ∧ (⟨0, 0, side, side⟩ : Rect).Mem x y) →
    (cells.Pairwise fun e e' => ∀ x y, e.2.Mem x y → ¬ e'.2.Mem x y) →
    ∃ pic' places', sheetInner m ids size side cells pic places = .ok (pic', places') ∧
      (∀ x y, (∀ e ∈ cells, ¬ e.2.Mem x y) → pic' x y = pic x y) ∧
      (∀ id, (∀ e ∈ cells, ids[e.1]? ≠ some id) → places' id = places id) ∧
      ∀ e ∈ cells, ∀ id t, ids[e.1]? = some id → m id = some t → places' id = some e.2 ∧
        ∀ x y, e.2.Mem x y → pic' x y = if (thumbPlace size e.2 (t.w, t.h)).Mem x y then
          copied (picAt ⟨0, 0, t.w, t.h⟩ t.pix (x - (thumbPlace size e.2 (t.w, t.h)).minX) (y - (thumbPlace size e.2 (t.w, t.h)).minY)) else pic x y
  | [], pic, places, _, _, _, _ => ⟨pic, places, rfl, fun _ _ _ => rfl, fun _ _ => rfl, fun e he => (by cases he)⟩
  | (i, cell) :: cells, pic, places, h1, h2, h3, h4 => by
    obtain ⟨id, t, hid, ht⟩ := h1 _ (List.mem_cons_self ..)
    rw [List.map_cons, List.nodup_cons] at h2
    rw [List.pairwise_cons] at h4
    obtain ⟨pic', places', e, g1, g2, g3⟩ := sheetInner_spec hids cells (copyThumb side (thumbPlace size cell (t.w, t.h)) t pic)
      (fun k => if k = id then some cell else places k) (fun e he => h1 e (List.mem_cons_of_mem _ he)) h2.2
      (fun e he => h3 e (List.mem_cons_of_mem _ he)) h4.2
    have hne : ∀ e ∈ cells, ids[e.1]? ≠ some id := by
      intro e he heq
      simp only at hid
      obtain ⟨hi, e1⟩ := List.getElem?_eq_some_iff.1 hid
      obtain ⟨hj, e2⟩ := List.getElem?_eq_some_iff.1 heq
      have := (List.Nodup.getElem_inj_iff hids).1 (e1.trans e2.symm)
      exact h2.1 (List.mem_map.2 ⟨e, he, this.symm⟩)
    have hplace : ∀ x y, (thumbPlace size cell (t.w, t.h)).Mem x y → cell.Mem x y ∧ (⟨0, 0, side, side⟩ : Rect).Mem x y := fun x y h =>
      h3 _ (List.mem_cons_self ..) t x y ⟨id, hid, ht⟩ h
    refine ⟨pic', places', ?_, ?_, ?_, ?_⟩
    · unfold sheetInner
      simp only at hid
      rw [hid]
      simp only
      rw [ht]
      exact e
    · intro x y hm
      rw [g1 x y fun e he => hm e (List.mem_cons_of_mem _ he), copyThumb_outside fun h => hm _ (List.mem_cons_self ..) (hplace x y h).1]
    · intro k hk
      rw [g2 k fun e he => hk e (List.mem_cons_of_mem _ he)]
      rw [if_neg]
      rintro rfl
      exact hk _ (List.mem_cons_self ..) hid
    · intro e' he' id' t' hid' ht'
      rcases List.mem_cons.1 he' with rfl | he'
      · rw [hid, Option.some.injEq] at hid'
        subst hid'
        rw [ht, Option.some.injEq] at ht'
        subst ht'
        refine ⟨by rw [g2 id hne, if_pos rfl], fun x y hm => ?_⟩
        rw [g1 x y fun e he => h4.1 e he x y hm]
        split
        · rename_i hp
          exact copyThumb_pixel (hplace x y hp).2 hp
        · rename_i hp
          exact copyThumb_outside hp
      · obtain ⟨k1, k2⟩ := g3 e' he' id' t' hid' ht'
        refine ⟨k1, fun x y hm => ?_⟩
        rw [k2 x y hm]
        rw [copyThumb_outside fun h => h4.1 e' he' x y (hplace x y h).1 hm]

/-- **C95** The sheet: if the least power of two into which the cells fit is at most 4096, then that is its side; every thumbnail has a cell of its own,
of the size asked for and within the sheet, and no two cells have a point in common; the cell shows the thumbnail, up to the rounding of `blend.Copy`,
in the middle and nothing else; outside of the cells the sheet is empty. If it is more there is an error. -/
theorem C95_sheet (hp : 1 ≤ procs) {m : Int → Option Thumb} {ids : List Int} (hk : Keys m ids) {size : Nat} (hs : 1 ≤ size)
    (hfit : ∀ id t, m id = some t → t.w ≤ size ∧ t.h ≤ size) :
    ∃ k, ids.length ≤ (2 ^ k / size) * (2 ^ k / size) ∧ (∀ j, j < k → (2 ^ j / size) * (2 ^ j / size) < ids.length) ∧ ∀ fuel, k < fuel →
      (4096 < 2 ^ k → ∃ e, thumbnailSheet procs fuel m ids size = .err e) ∧
      (2 ^ k ≤ 4096 → ∃ pic places, thumbnailSheet procs fuel m ids size = .ok (2 ^ k, pic, places) ∧
        (∀ id, m id = none → places id = none) ∧
        (∀ id t, m id = some t → ∃ (cell : Rect) (ox oy : Nat), places id = some cell ∧ cell.dx = size ∧ cell.dy = size ∧ 0 ≤ cell.minX ∧ 0 ≤ cell.minY ∧
          cell.maxX ≤ ((2 ^ k : Nat) : Int) ∧ cell.maxY ≤ ((2 ^ k : Nat) : Int) ∧ ox = (size - t.w) / 2 ∧ oy = (size - t.h) / 2 ∧
          ∀ i j : Nat, i < size → j < size → CopyOf (asSeen (t.pixel (i - ox) (j - oy))) (pic (cell.minX + i) (cell.minY + j)).pix) ∧
        (∀ id id' cell cell', id ≠ id' → places id = some cell → places id' = some cell' → ∀ x y, cell.Mem x y → ¬ cell'.Mem x y) ∧
        ∀ x y, (∀ id cell, places id = some cell → ¬ cell.Mem x y) → pic x y = ⟨0, 0, 0, 0⟩) := by
  obtain ⟨k, c1, c2, c3, c4, c5, c6, c7⟩ := C64_sheet procs ids.length size hp hs
  refine ⟨k, c2, c3, fun fuel hf => ⟨fun hb => ?_, fun hb => ?_⟩⟩
  · unfold thumbnailSheet
    rw [if_neg (by omega), c1 fuel hf]
    simp only
    rw [if_pos hb]
    exact ⟨_, rfl⟩
  · obtain ⟨cells, ec⟩ : ∃ cells, sheetCells procs (2 ^ k) size ids.length = cells := ⟨_, rfl⟩
    rw [ec] at c4 c5 c6 c7
    have hnd : (cells.map Prod.fst).Nodup := by rw [c4]; exact List.nodup_range
    have hin : ∀ e ∈ cells, e.1 < ids.length := fun e he => List.mem_range.1 (c4 ▸ List.mem_map.2 ⟨e, he, rfl⟩)
    have hplace : ∀ e ∈ cells, ∀ t : Thumb, t.w ≤ size → t.h ≤ size → ∀ x y, (thumbPlace size e.2 (t.w, t.h)).Mem x y ↔
        e.2.minX + ((size - t.w) / 2 : Nat) ≤ x ∧ x < e.2.minX + ((size - t.w) / 2 : Nat) + t.w ∧
        e.2.minY + ((size - t.h) / 2 : Nat) ≤ y ∧ y < e.2.minY + ((size - t.h) / 2 : Nat) + t.h := by
      intro e he t hw hh x y
      unfold thumbPlace Rect.Mem
      simp only
      rw [show ((size : Int) - t.w).tdiv 2 = ((size - t.w) / 2 : Nat) by rw [← Int.ofNat_sub hw]; rfl,
        show ((size : Int) - t.h).tdiv 2 = ((size - t.h) / 2 : Nat) by rw [← Int.ofNat_sub hh]; rfl]
    obtain ⟨pic, places, e, g1, g2, g3⟩ := sheetInner_spec (m := m) (size := size) (side := 2 ^ k) hk.1 cells (fun _ _ => ⟨0, 0, 0, 0⟩) (fun _ => none)
      (fun e he => by
        have hi := hin e he
        obtain ⟨t, ht⟩ := (hk.2 ids[e.1]).1 (List.getElem_mem hi)
        exact ⟨_, t, List.getElem?_eq_getElem hi, ht⟩) hnd
      (fun e he t x y ⟨id, h1, h2⟩ hm => by
        obtain ⟨hw, hh⟩ := hfit id t h2
        rw [hplace e he t hw hh] at hm
        have := c5 e he
        unfold Rect.dx Rect.dy at this
        unfold Rect.Mem
        constructor
        · omega
        · simp only
          omega)
      ((List.pairwise_map.1 hnd).imp_of_mem fun ha hb hne => c6 _ ha _ hb hne)
    have hcell : ∀ id t, m id = some t → ∃ e ∈ cells, ids[e.1]? = some id := by
      intro id t ht
      obtain ⟨i, hi, ei⟩ := List.mem_iff_getElem.1 ((hk.2 id).2 ⟨t, ht⟩)
      have : i ∈ cells.map Prod.fst := by rw [c4]; exact List.mem_range.2 hi
      obtain ⟨e, he, rfl⟩ := List.mem_map.1 this
      exact ⟨e, he, by rw [List.getElem?_eq_getElem hi, ei]⟩
    have hnone : ∀ id, m id = none → places id = none := by
      intro id hn
      refine g2 id fun e he h => ?_
      obtain ⟨t, ht⟩ := (hk.2 id).1 (List.mem_of_getElem? h)
      rw [hn] at ht
      cases ht
    have hat : ∀ id cell, places id = some cell → ∃ e ∈ cells, ∃ t, ids[e.1]? = some id ∧ m id = some t ∧ e.2 = cell := by
      intro id cell hc
      cases hm : m id with
      | none =>
        rw [hnone id hm] at hc
        cases hc
      | some t =>
        obtain ⟨e, he, hid⟩ := hcell id t hm
        have := (g3 e he id t hid hm).1
        rw [hc, Option.some.injEq] at this
        exact ⟨e, he, t, hid, rfl, this.symm⟩
    refine ⟨pic, places, ?_, hnone, ?_, ?_, ?_⟩
    · unfold thumbnailSheet
      rw [if_neg (by omega), c1 fuel hf]
      simp only
      rw [if_neg (by omega), ec, e]
      rfl
    · intro id t ht
      obtain ⟨e, he, hid⟩ := hcell id t ht
      obtain ⟨k1, k2⟩ := g3 e he id t hid ht
      obtain ⟨d1, d2, d3, d4, d5, d6⟩ := c5 e he
      obtain ⟨hw, hh⟩ := hfit id t ht
      refine ⟨e.2, _, _, k1, d1, d2, d3, d4, d5, d6, rfl, rfl, fun i j hi hj => ?_⟩
      have hm : e.2.Mem (e.2.minX + i) (e.2.minY + j) := by
        unfold Rect.dx at d1
        unfold Rect.dy at d2
        unfold Rect.Mem
        omega
      rw [k2 _ _ hm]
      have hpl := hplace e he t hw hh (e.2.minX + i) (e.2.minY + j)
      have e1 : (thumbPlace size e.2 (t.w, t.h)).minX = e.2.minX + ((size - t.w) / 2 : Nat) := by
        unfold thumbPlace
        simp only
        rw [← Int.ofNat_sub hw]
        rfl
      have e2 : (thumbPlace size e.2 (t.w, t.h)).minY = e.2.minY + ((size - t.h) / 2 : Nat) := by
        unfold thumbPlace
        simp only
        rw [← Int.ofNat_sub hh]
        rfl
      split
      · rename_i hin
        rw [hpl] at hin
        rw [e1, e2, show e.2.minX + (i : Int) - (e.2.minX + ((size - t.w) / 2 : Nat)) = i - ((size - t.w) / 2 : Nat) by omega,
          show e.2.minY + (j : Int) - (e.2.minY + ((size - t.h) / 2 : Nat)) = j - ((size - t.h) / 2 : Nat) by omega, ← picAt_pix (by omega)]
        exact copied_pix _
      · rename_i hin
        rw [hpl] at hin
        have : t.pixel (i - ((size - t.w) / 2 : Nat)) (j - ((size - t.h) / 2 : Nat)) = List.replicate 4 0 := by
          unfold Thumb.pixel
          rw [if_neg (by omega)]
        rw [this]
        exact CopyOf.zero
    · intro id id' cell cell' hne h h' x y
      obtain ⟨e, he, t, hid, -, rfl⟩ := hat id cell h
      obtain ⟨e', he', t', hid', -, rfl⟩ := hat id' cell' h'
      refine c6 e he e' he' (fun heq => hne ?_) x y
      rw [heq, hid'] at hid
      injection hid with hid
      exact hid.symm
    · intro x y hno
      refine g1 x y fun e he => ?_
      have hi := hin e he
      obtain ⟨t, ht⟩ := (hk.2 ids[e.1]).1 (List.getElem_mem hi)
      exact hno ids[e.1] e.2 (g3 e he _ t (List.getElem?_eq_getElem hi) ht).1

end

/-! ### Examples -/

/-- A picture of two by two pixels, in one tile. -/
def exSquare : TileMap := [((0, 0), List.replicate 16 200)]

theorem exSquare_pixel (x y : Int) : tilePixel 2 4 exSquare x y = if 0 ≤ x ∧ x < 2 ∧ 0 ≤ y ∧ y < 2 then [200, 200, 200, 200] else [0, 0, 0, 0] := by
  unfold tilePixel exSquare
  rw [List.lookup_cons]
  by_cases h : 0 ≤ x ∧ x < 2 ∧ 0 ≤ y ∧ y < 2
  · rw [if_pos h]
    have e1 : x = 0 ∨ x = 1 := by omega
    have e2 : y = 0 ∨ y = 1 := by omega
    rcases e1 with rfl | rfl <;> rcases e2 with rfl | rfl <;> rfl
  · rw [if_neg h]
    have : ((x / ((2 : Nat) : Int) * ((2 : Nat) : Int), y / ((2 : Nat) : Int) * ((2 : Nat) : Int)) == ((0 : Int), (0 : Int))) = false := by
      rw [beq_eq_false_iff_ne]
      intro hc
      rw [Prod.mk.injEq] at hc
      omega
    rw [this]
    rfl

theorem exSquare_stored : Stored 2 4 exSquare := by
  refine ⟨by decide, by decide, by decide, fun e he => ?_, fun x y h => ?_⟩
  · simp only [exSquare, List.mem_singleton] at he
    subst he
    exact ⟨0, 0, by decide, by decide⟩
  · rw [exSquare_pixel] at h ⊢
    split
    · rename_i hh
      rw [if_pos hh] at h
      exact absurd h (by decide)
    · rfl

/-- A tree with a layer in a folder and one above; the layer in the folder has a picture of two by two pixels. -/
def exThumbTree : AnyTree where
  heap := newTree (fun _ => 0) some 2 exCDoc
  root := rootPtr
  images k := if k = 1 then some ⟨some exSquare, none⟩ else none
  rect := ⟨0, 0, 2, 2⟩
  canvasRect := ⟨0, 0, 2, 2⟩

theorem exThumb_stored (k : Nat) (img : LayerImage) (h : exThumbTree.images k = some img) : img.Stored 2 := by
  unfold exThumbTree at h
  simp only at h
  split at h
  · injection h with h
    subst h
    refine ⟨fun c hc => ?_, fun c hc => (by cases hc)⟩
    injection hc with hc
    exact hc ▸ exSquare_stored
  · cases h

/-- What `C94_thumbnails` asks for: four layers with the root, two goroutines. -/
example : (∀ k img, exThumbTree.images k = some img → img.Stored 2) ∧ (∀ π q, slotAt exThumbTree.heap exThumbTree.root π = some q → π.length < 3) ∧
    Orders 4 2 (fun r => (tileWork 4 2 r).flatten) ∧ (gatherLayer exThumbTree.heap 3 exThumbTree.root).map (fun p => (exThumbTree.heap.at_ p).attr.seqID) = [-1, 0, 1, 2] ∧
    thumbnailsWork 4 4 = [[0, 1], [2, 3]] ∧ Interleaves (thumbnailsWork 4 4) [2, 0, 3, 1] := by
  refine ⟨exThumb_stored, fun π q h => ?_, fun r => List.Perm.refl _, by decide +kernel, by decide, by decide, by decide⟩
  exact ((newTree_clonable (fun _ => 0) some 2 exCDoc (by decide) exCDoc_unique).1 π q h).1

/-- What `C94_thumbnail_partial` asks for; of the two by two pixels one is left and shrunk. -/
example : exThumbTree.images 1 = some ⟨some exSquare, none⟩ ∧ Stored 2 4 exSquare ∧ exSquare ≠ [] ∧
    thumbnail (fun dw dh r pix => .ok [UInt8.ofNat dw, UInt8.ofNat dh, UInt8.ofInt r.dx, UInt8.ofInt r.dy, pix.getD 0 0]) 2 (fun r => (tileWork 4 2 r).flatten)
      exThumbTree.images 1 16 [1, 2, 3] = .ok ⟨16, 16, [16, 16, 1, 1, 200]⟩ :=
  ⟨by decide, exSquare_stored, by decide, by decide +kernel⟩

/-- What `C94_thin_layer_lost` asks for: a layer of one pixel. -/
example : Stored 1 4 exFaint ∧ exFaint ≠ [] ∧ ∀ x y x' y', Visible 1 exFaint x y → Visible 1 exFaint x' y' → x = x' := by
  refine ⟨exFaint_stored, by decide, fun x y x' y' h h' => ?_⟩
  unfold Visible at h h'
  rw [exFaint_pixel] at h h'
  split at h
  · split at h'
    · omega
    · exact absurd rfl h'
  · exact absurd rfl h

/-- What `C95_sheet` asks for: two thumbnails of three pixels in size. -/
example : Keys (fun id => if id = 4 then some (⟨3, 2, List.replicate 24 9⟩ : Thumb) else if id = 7 then some ⟨1, 3, List.replicate 12 8⟩ else none) [7, 4] ∧
    ∀ id t, (if id = 4 then some ⟨3, 2, List.replicate 24 9⟩ else if id = 7 then some ⟨1, 3, List.replicate 12 8⟩ else none : Option Thumb) = some t → t.w ≤ 3 ∧ t.h ≤ 3 := by
  refine ⟨⟨by decide, fun id => ?_⟩, fun id t h => ?_⟩
  · simp only [List.mem_cons, List.not_mem_nil, or_false]
    by_cases h4 : id = 4
    · simp [h4]
    · by_cases h7 : id = 7
      · simp [h7]
      · simp [h4, h7]
  · split at h
    · injection h with h
      subst h
      decide
    · split at h
      · injection h with h
        subst h
        decide
      · cases h

end Psd
