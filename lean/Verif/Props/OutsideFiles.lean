import Verif.Props.Document
import Verif.Lemmas.FilePicture
import Verif.Props.OutsidePixels

/-!
# Theorem C138 for the merged picture of a file
-/

namespace Psd
open Spec

theorem merged_length {d : Doc} (hv : d.Valid) {i : Nat} (hi : i < d.header.channels) : (mergedPlane d i).length = rowLen d.header.depth d.header.width * d.header.height := by
  obtain ⟨-, -, -, -, -, -, -, h8, -⟩ := hv
  have hl := plane_length h8
  unfold mergedPlane
  rw [List.length_take, List.length_drop, hl]
  generalize rowLen d.header.depth d.header.width = a
  have e : a * (d.header.height * d.header.channels) = a * d.header.height * d.header.channels := (Nat.mul_assoc ..).symm
  rw [e]
  generalize a * d.header.height = b
  have : b * (i + 1) ≤ b * d.header.channels := Nat.mul_le_mul_left _ hi
  rw [Nat.mul_add, Nat.mul_one] at this
  omega

/-- The merged picture of a well-formed file that is no bitmap is complete. -/
theorem docPicture_complete {d : Doc} (hv : d.Valid) (h0 : d.header.mode ≠ 0) : (docPicture d).Complete (d.header.depth / 8) d.header.width d.header.height := by
  obtain ⟨-, har, hle⟩ := makePicker_ok hv
  rw [har] at hle
  have hlen := fun i hi => merged_length hv (i := i) hi
  obtain ⟨-, -, -, h4, -⟩ := hv
  have hc : 1 ≤ modeColors d.header.mode := by
    unfold modeColors
    split
    · decide
    · split <;> decide
  have hdepth : d.header.depth = 8 ∨ d.header.depth = 16 ∨ d.header.depth = 32 := by
    rcases h4 with h | ⟨h | h, -⟩
    · unfold LayeredMode at h
      simp only [List.mem_cons, List.not_mem_nil, or_false] at h
      omega
    · exact absurd h.1 h0
    · exact .inl h.2.1
  have hrow : rowLen d.header.depth d.header.width * d.header.height = d.header.width * d.header.height * (d.header.depth / 8) := by
    have : rowLen d.header.depth d.header.width = d.header.width * (d.header.depth / 8) := by
      unfold rowLen
      rcases hdepth with h | h | h <;> rw [h] <;> omega
    rw [this, Nat.mul_right_comm]
  refine ⟨?_, by omega, ?_, ?_, ?_, ?_⟩
  · by_cases h2 : d.header.mode = 2
    · refine .inr ⟨?_, ?_, ?_⟩
      · unfold docPicture
        simp [h2]
      · rcases h4 with h | ⟨h | h, -⟩
        · unfold LayeredMode at h
          omega
        · exact absurd h.1 h0
        · rw [h.2.1]
      · unfold docPicture docPalette
        simp [h2]
    · refine .inl (.inr ⟨modeColors d.header.mode, d.alpha, ?_⟩)
      unfold docPicture
      simp [h2, h0]
  · intro h
    have := congrArg List.length h
    unfold docPicture at this
    simp only [List.length_map, List.length_range, List.length_nil] at this
    omega
  · show ((d.header.width : Int) - 0) = _
    omega
  · show ((d.header.height : Int) - 0) = _
    omega
  · intro pl hpl
    obtain ⟨i, hi, rfl⟩ := List.mem_map.1 hpl
    rw [hlen i (Nat.lt_of_lt_of_le (List.mem_range.1 hi) hle), hrow]

/-- **C138, negated** (for files) The merged picture of every well-formed file that is no bitmap panics when it is asked for a point above it, or for one below it, and to the right of each row of it comes the first pixel of the
next row. -/
theorem C138_in_files {env : Env} {d : Doc} (hp : env.Reads d) (hv : d.Valid) (h0 : d.header.mode ≠ 0) {o : Options} (ho : o.rejects (configMeaning d) = false) (hl : o.skipLayerImage = false)
    (hm : o.skipMergedImage = false) {s : St} (hs : Presents d s) :
    ∃ psd n s' p, decode env o s = .ok ((psd, n), s') ∧ psd.picker = some p ∧ p.rect = ⟨0, 0, d.header.width, d.header.height⟩ ∧
      (∀ x y : Int, 0 ≤ x → x < d.header.width → (y < 0 ∨ d.header.height ≤ y) → p.at x y = .panic .index) ∧ (∀ y : Int, p.at d.header.width y = p.at 0 (y + 1)) ∧
      p.Complete (d.header.depth / 8) d.header.width d.header.height := by
  obtain ⟨psd, s', h1, -, -, -, -, -, -, h2⟩ := C32_document_round_trip hp hv ho hl hm hs
  have hc := docPicture_complete hv h0
  refine ⟨psd, _, s', _, h1, h2, rfl, fun x y hx hx' hy => C138_above_and_below hc ?_, fun y => (C138_next_row hc y).1, hc⟩
  rcases hy with hy | hy
  · exact .inl ⟨hy, hx'⟩
  · exact .inr ⟨hy, hx⟩

/-- The example document meets the hypotheses. -/
example : exDoc.Valid ∧ Presents exDoc (exReader exDoc) ∧ exDoc.header.mode ≠ 0 ∧ 1 ≤ exDoc.header.width := ⟨exDoc_valid, exReader_presents, by decide, by decide⟩

/-- **C138, negated** (for layers of files) So it is with every channel of every layer of a well-formed file, other than its masks: it panics above and below the layer, and to the right of each row comes the first pixel of the
next row. -/
theorem C138_in_layers_of_files {env : Env} {d : Doc} (hp : env.Reads d) (hv : d.Valid) {o : Options} (ho : o.rejects (configMeaning d) = false) (hl : o.skipLayerImage = false) {s : St} (hs : Presents d s) :
    ∃ psd n s', decode env o s = .ok ((psd, n), s') ∧ ∀ (k i : Nat) (l : Layer), (shown d)[k]? = some (i, l) → ∃ r : LayerRec, (postAll psd.layer)[k]? = some r ∧
      ∀ id p, id ≠ -2 → id ≠ -3 → l.lastChannel id = some p → ∃ ch, r.channel id = some ch ∧ ch.picker.rect = ⟨l.rect.left, l.rect.top, l.rect.right, l.rect.bottom⟩ ∧
        (∀ x y : Int, l.rect.left ≤ x → x < l.rect.right → (y < l.rect.top ∨ l.rect.bottom ≤ y) → ch.picker.at x y = .panic .index) ∧
        (∀ y : Int, ch.picker.at l.rect.right y = ch.picker.at l.rect.left (y + 1)) ∧ ch.picker.Complete (d.header.depth / 8) l.rect.width l.rect.height := by
  obtain ⟨psd, n, s', h1, -, h3⟩ := C28_channel_pairing hp hv ho hl hs
  obtain ⟨psd', n', s2, h1', -, h3'⟩ := C24_layer_fields hp hv ho hs
  rw [h1] at h1'
  cases h1'
  refine ⟨psd, n, s', h1, fun k i l hk => ?_⟩
  obtain ⟨r, hr, hch⟩ := h3 k i l hk
  obtain ⟨r', hr', -, hrect, -⟩ := h3' k i l hk
  rw [hr] at hr'
  cases hr'
  refine ⟨r, hr, fun id p hid hid' hlast => ?_⟩
  have := hch id
  rw [hlast] at this
  obtain ⟨ch, c1, -, c3, c4, c5⟩ := this
  rw [if_neg hid, if_neg hid', hrect] at c5
  obtain ⟨sec, hsec, hmem⟩ := List.mem_flatMap.1 (List.mem_of_getElem? hk)
  have hlay : l ∈ sec.layers := by
    obtain ⟨q, hq, e⟩ := List.mem_map.1 (List.mem_filter.1 hmem).1
    cases e
    exact (List.mem_zipIdx' hq).2 ▸ List.getElem_mem _
  obtain ⟨-, -, hsv, -⟩ := section_valid hv hsec
  obtain ⟨v1, v2, -⟩ := hsv l hlay
  have hbox : l.boxOf id = l.rect := by
    unfold Layer.boxOf
    rw [if_neg hid, if_neg hid']
  have hlen := plane_length (v2 _ (mem_lastChannel hlast)).1
  rw [hbox] at hlen
  have hdepth : d.header.depth = 8 ∨ d.header.depth = 16 ∨ d.header.depth = 32 := by
    rcases sections_mode hv sec hsec with h | h
    · rw [h] at hlay
      cases hlay
    · unfold LayeredMode at h
      simp only [List.mem_cons, List.not_mem_nil, or_false] at h
      omega
  obtain ⟨⟨-, b1, -⟩, -, b2, -⟩ := v1.1
  have hc : ch.picker.Complete (d.header.depth / 8) l.rect.width l.rect.height := by
    refine ⟨.inl (.inl ?_), by omega, by rw [c3]; simp, ?_, ?_, ?_⟩
    · rw [c4]
      unfold grayKind
      rw [if_neg (by omega)]
    · rw [c5]
      unfold Rect.dx Box.width
      dsimp only
      omega
    · rw [c5]
      unfold Rect.dy Box.height
      dsimp only
      omega
    · intro pl hpl
      rw [c3, List.mem_singleton] at hpl
      have : rowLen d.header.depth l.rect.width = l.rect.width * (d.header.depth / 8) := by
        unfold rowLen
        rcases hdepth with h | h | h <;> rw [h] <;> omega
      rw [hpl, hlen, this, Nat.mul_right_comm]
  refine ⟨ch, c1, c5, fun x y hx hx' hy => C138_above_and_below hc ?_, fun y => ?_, hc⟩
  · rw [c5]
    rcases hy with hy | hy
    · exact .inl ⟨hy, hx'⟩
    · exact .inr ⟨hy, hx⟩
  · have := (C138_next_row hc y).1
    rw [c5] at this
    exact this

/-- The example document has a layer with a channel. -/
example : exDoc.Valid ∧ Presents exDoc (exReader exDoc) ∧ (shown exDoc).length = 4 ∧ exLayer.lastChannel 1 = some (.rle [[.lit [1, 2]]] []) := ⟨exDoc_valid, exReader_presents, by decide +kernel, by decide +kernel⟩

/-- **C138, negated** (for bitmap files) The merged picture of every well-formed bitmap panics when it is asked for a point above or below it, and to the right of each row, after the bits that pad it to whole bytes, comes the
first pixel of the next row. -/
theorem C138_in_bitmap_files {env : Env} {d : Doc} (hp : env.Reads d) (hv : d.Valid) (h0 : d.header.mode = 0) {o : Options} (ho : o.rejects (configMeaning d) = false) (hl : o.skipLayerImage = false)
    (hm : o.skipMergedImage = false) {s : St} (hs : Presents d s) (b : Nat) (hb : b = (d.header.width + 7) / 8) :
    ∃ psd n s' p, decode env o s = .ok ((psd, n), s') ∧ psd.picker = some p ∧ p.rect = ⟨0, 0, d.header.width, d.header.height⟩ ∧
      (∀ x y : Int, 0 ≤ x → x < d.header.width → (y < 0 ∨ d.header.height ≤ y) → p.at x y = .panic .index) ∧ (∀ y : Int, 0 ≤ y → y + 1 < d.header.height → p.at (8 * b) y = p.at 0 (y + 1)) := by
  obtain ⟨psd, s', h1, -, -, -, -, -, -, h2⟩ := C32_document_round_trip hp hv ho hl hm hs
  have hc : modeColors d.header.mode = 1 := by rw [h0]; rfl
  have hch : 0 < d.header.channels := by
    obtain ⟨-, -, -, -, h5, -⟩ := hv
    omega
  have hdepth : d.header.depth = 1 := by
    obtain ⟨-, -, -, h4, -⟩ := hv
    rcases h4 with h | ⟨h | h, -⟩
    · unfold LayeredMode at h
      omega
    · exact h.2
    · rw [h0] at h
      exact absurd h.1 (by decide)
  have hlen := merged_length hv hch
  rw [hdepth, show rowLen 1 d.header.width = b by unfold rowLen; rw [hb, Nat.mul_one]] at hlen
  have hk : (docPicture d).kind = .gray1 := by
    unfold docPicture
    simp [h0]
  have hsrc : (docPicture d).src = [mergedPlane d 0] := by
    unfold docPicture
    simp only [h0]
    rfl
  have hr : (docPicture d).rect = ⟨0, 0, d.header.width, d.header.height⟩ := rfl
  have hdx : ((docPicture d).rect.dx + 7) / 8 = (b : Int) := by
    rw [hr, hb]
    unfold Rect.dx
    dsimp only
    omega
  have hdy : (docPicture d).rect.dy = d.header.height := by
    rw [hr]
    unfold Rect.dy
    dsimp only
    omega
  have key := fun x y n hn => C138_outside_bitmap_partial hk hsrc hdx hdy hlen x y n hn
  rw [hr] at key
  simp only [Int.sub_zero] at key
  refine ⟨psd, _, s', _, h1, h2, rfl, fun x y hx hx' hy => (key x y _ rfl).2 ?_, fun y hy hy' => ?_⟩
  · rintro ⟨g1, g2⟩
    rcases hy with hy | hy
    · have : y * (8 * (b : Int)) ≤ (-1) * (8 * b) := Int.mul_le_mul_of_nonneg_right (by omega) (by omega)
      omega
    · have : (d.header.height : Int) * (8 * (b : Int)) ≤ y * (8 * b) := Int.mul_le_mul_of_nonneg_right (by omega) (by omega)
      rw [Int.mul_comm] at this
      omega
  · have e : y * (8 * (b : Int)) + 8 * b = (y + 1) * (8 * b) + 0 := by
      rw [Int.add_mul, Int.one_mul, Int.add_zero]
    by_cases hin : 0 ≤ (y + 1) * (8 * (b : Int)) + 0 ∧ (y + 1) * (8 * (b : Int)) + 0 < 8 * b * d.header.height
    · rw [((key (8 * b) y _ e.symm).1 hin).2.2, ((key 0 (y + 1) _ rfl).1 hin).2.2]
    · rw [(key (8 * b) y _ e.symm).2 hin, (key 0 (y + 1) _ rfl).2 hin]

/-- A bitmap of two rows of ten pixels. -/
def exBitsDoc : Doc where
  header := { version := 1, channels := 1, height := 2, width := 10, depth := 1, mode := 0, colorData := [] }
  resources := []
  layerMask := none
  merged := .raw [0xff, 0xc0, 0x7f, 0xc0] []

/-- It meets the hypotheses. -/
example : exBitsDoc.Valid ∧ exEnv.Reads exBitsDoc ∧ Presents exBitsDoc { data := exBitsDoc.bytes } ∧ ({} : Options).rejects (configMeaning exBitsDoc) = false := by
  refine ⟨by decide +kernel, by decide +kernel, ⟨⟨[], by simp⟩, rfl, (by decide : ReadsAtLeast 3 []), ?_⟩, rfl⟩
  have : exBitsDoc.bytes.length < 2000 := by decide +kernel
  simp only
  omega

end Psd
