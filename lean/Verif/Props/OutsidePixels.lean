import Verif.Props.Pixel

/-!
# Theorem C138: pixels outside of a picture
-/

namespace Psd

/-- A picture with samples of `sz` bytes or palette indices, `w` wide and `h` high, whose planes are complete. -/
structure Picker.Complete (p : Picker) (sz w h : Nat) : Prop where
  kind : (p.kind = .gray sz ∨ ∃ n alpha, p.kind = .planes n sz alpha) ∨ p.kind = .palette ∧ sz = 1 ∧ p.palette.length = 256
  size : 1 ≤ sz
  some : p.src ≠ []
  dx : p.rect.dx = w
  dy : p.rect.dy = h
  planes : ∀ pl ∈ p.src, pl.length = w * h * sz

theorem pickSample_outside {sz n : Nat} (hsz : 1 ≤ sz) {pl : List UInt8} (hl : pl.length = n * sz) {pos : Int} (hp : ¬ (0 ≤ pos ∧ pos < n)) : pickSample sz pl pos = .panic .index := by
  unfold pickSample
  dsimp only
  rw [if_neg]
  rintro ⟨h1, h2⟩
  apply hp
  have h3 : 0 ≤ pos := by
    rcases Int.lt_or_le pos 0 with hneg | h3
    rotate_left
    · exact h3
    have : pos * (sz : Int) < 0 := Int.mul_neg_of_neg_of_pos (by omega) (by omega)
    omega
  refine ⟨h3, ?_⟩
  obtain ⟨k, rfl⟩ := Int.eq_ofNat_of_zero_le h3
  have e : ((k : Int) * (sz : Int)).toNat = k * sz := by rw [← Int.natCast_mul]; exact Int.toNat_natCast _
  rw [e, hl] at h2
  have : (k + 1) * sz ≤ n * sz := by rw [Nat.add_mul, Nat.one_mul]; exact h2
  have := Nat.le_of_mul_le_mul_right this hsz
  omega

theorem pick_outside {p : Picker} {sz w h : Nat} (hp : p.Complete sz w h) {x y : Int} (hn : ¬ (0 ≤ pickPos p.rect x y ∧ pickPos p.rect x y < (w * h : Nat))) : p.at x y = .panic .index := by
  obtain ⟨pl, pls, hs⟩ := List.exists_cons_of_ne_nil hp.some
  have hl := hp.planes pl (by rw [hs]; exact List.mem_cons_self)
  have k1 : pickSamples sz (pickPos p.rect x y) p.src = .panic .index := by
    rw [hs]
    unfold pickSamples
    rw [pickSample_outside hp.size hl hn]
    rfl
  rcases hp.kind with (hk | ⟨n, a, hk⟩) | ⟨hk, hz, -⟩
  · unfold Picker.at
    simp only [hk, k1]
    rfl
  · unfold Picker.at
    simp only [hk, k1]
    rfl
  · unfold Picker.at
    subst hz
    have k2 : goIndexI pl (pickPos p.rect x y) = .panic .index := by
      unfold goIndexI
      split
      · unfold goIndex
        rw [List.getElem?_eq_none (by omega)]
      · rfl
    simp only [hk]
    rw [hs, show goIndex (pl :: pls) 0 = .ok pl from rfl, Res.ok_bind, k2]
    rfl

/-- A point and the point inside that has its place in the planes. -/
theorem pick_same {p : Picker} {x y x' y' : Int} (hg : p.kind ≠ .gray1) (h : pickPos p.rect x y = pickPos p.rect x' y') : p.at x y = p.at x' y' := by
  unfold Picker.at
  split
  · rw [h]
  · exact absurd ‹_› hg
  · rw [h]
  · rw [h]

/-- **C138 (partial)** `At` for a point outside of a picture gives a pixel of the picture or panics, and nothing else. Counting the pixels row by row from 0, the point has the number that it would have if the rows went on to both
sides. If there is a pixel with this number, `At` returns it, and otherwise it panics. Missing: that `At` returns no colour there, as Go's own images do, which is not so (`C138_next_row`, `C138_above_and_below`). Bitmaps, whose rows
are padded to whole bytes, are in `C138_outside_bitmap_partial`. -/
theorem C138_outside_partial {p : Picker} {sz w h : Nat} (hp : p.Complete sz w h) (x y n : Int) (hn : n = (y - p.rect.minY) * w + (x - p.rect.minX)) :
    (0 ≤ n ∧ n < w * h → p.rect.Mem (p.rect.minX + n % w) (p.rect.minY + n / w) ∧ p.at x y = p.at (p.rect.minX + n % w) (p.rect.minY + n / w)) ∧
    (¬ (0 ≤ n ∧ n < w * h) → p.at x y = .panic .index) := by
  have e : pickPos p.rect x y = n := by
    unfold pickPos
    rw [hp.dx, hn]
    omega
  have hdx := hp.dx
  have hdy := hp.dy
  unfold Rect.dx at hdx
  unfold Rect.dy at hdy
  constructor
  · rintro ⟨h1, h2⟩
    have hw : (0 : Int) < w := by
      rcases Nat.eq_zero_or_pos w with rfl | hw
      · simp at h2
        omega
      · omega
    have m1 := Int.emod_nonneg n (Int.ne_of_gt hw)
    have m2 := Int.emod_lt_of_pos n hw
    have d1 := Int.ediv_nonneg h1 (Int.le_of_lt hw)
    have d2 : n / w < h := Int.ediv_lt_of_lt_mul hw (by rw [Int.mul_comm]; exact h2)
    refine ⟨⟨by omega, by omega, by omega, by omega⟩, pick_same ?_ ?_⟩
    · rcases hp.kind with (hk | ⟨_, _, hk⟩) | ⟨hk, -⟩ <;> rw [hk] <;> exact fun h => by cases h
    · rw [e]
      unfold pickPos
      rw [hp.dx]
      have := Int.emod_add_mul_ediv n w
      rw [show p.rect.minY + n / (w : Int) - p.rect.minY = n / w by omega, Int.mul_comm (n / (w : Int))]
      omega
  · intro h1
    refine pick_outside hp ?_
    rw [e]
    push_cast
    exact h1

/-- **C138, negated** The pixel to the right of a row is the first one of the next row, and the pixel to the left of a row the last one of the row before. -/
theorem C138_next_row {p : Picker} {sz w h : Nat} (hp : p.Complete sz w h) (y : Int) :
    p.at p.rect.maxX y = p.at p.rect.minX (y + 1) ∧ p.at (p.rect.minX - 1) (y + 1) = p.at (p.rect.maxX - 1) y := by
  have hdx := hp.dx
  have hg : p.kind ≠ .gray1 := by
    rcases hp.kind with (hk | ⟨_, _, hk⟩) | ⟨hk, -⟩ <;> rw [hk] <;> exact fun h => by cases h
  unfold Rect.dx at hdx
  constructor <;> refine pick_same hg ?_ <;> unfold pickPos <;> rw [hp.dx, show y + 1 - p.rect.minY = (y - p.rect.minY) + 1 by omega, Int.add_mul] <;> omega

/-- **C138, negated** `At` panics for every point above the picture that is not right of it, and for every point below it that is not left of it. -/
theorem C138_above_and_below {p : Picker} {sz w h : Nat} (hp : p.Complete sz w h) {x y : Int} (hxy : y < p.rect.minY ∧ x < p.rect.maxX ∨ p.rect.maxY ≤ y ∧ p.rect.minX ≤ x) : p.at x y = .panic .index := by
  refine (C138_outside_partial hp x y _ rfl).2 ?_
  have hdx := hp.dx
  have hdy := hp.dy
  unfold Rect.dx at hdx
  unfold Rect.dy at hdy
  rintro ⟨h1, h2⟩
  rcases hxy with ⟨g1, g2⟩ | ⟨g1, g2⟩
  · have : (y - p.rect.minY) * (w : Int) ≤ (-1) * w := Int.mul_le_mul_of_nonneg_right (by omega) (by omega)
    omega
  · have : (h : Int) * w ≤ (y - p.rect.minY) * w := Int.mul_le_mul_of_nonneg_right (by omega) (by omega)
    rw [Int.mul_comm] at this
    omega

/-- A picture of two rows of three 16-bit samples in two planes meets the hypotheses; its pixel right of the first row is the first of the second. -/
example : (⟨.planes 1 2 true, ⟨-1, 4, 2, 6⟩, [[0, 1, 0, 2, 0, 3, 0, 4, 0, 5, 0, 6], [1, 1, 1, 2, 1, 3, 1, 4, 1, 5, 1, 6]], []⟩ : Picker).Complete 2 3 2 ∧
    Picker.at ⟨.planes 1 2 true, ⟨-1, 4, 2, 6⟩, [[0, 1, 0, 2, 0, 3, 0, 4, 0, 5, 0, 6], [1, 1, 1, 2, 1, 3, 1, 4, 1, 5, 1, 6]], []⟩ 2 4 = .ok (.samples [4, 260]) := by
  refine ⟨⟨.inl (.inr ⟨_, _, rfl⟩), by decide, by decide, by decide, by decide, ?_⟩, by decide⟩
  intro pl h
  rcases List.mem_cons.1 h with rfl | h
  · rfl
  · rw [List.mem_singleton.1 h]
    rfl

/-- **C138 (partial), for bitmaps** The same for bitmaps, whose rows go on to the next multiple of 8: `b` bytes a row are `8 * b` pixels, of which the last ones may be outside of the picture. -/
theorem C138_outside_bitmap_partial {p : Picker} {plane : List UInt8} {b h : Nat} (hk : p.kind = .gray1) (hs : p.src = [plane]) (hb : (p.rect.dx + 7) / 8 = b) (hdy : p.rect.dy = h) (hl : plane.length = b * h)
    (x y n : Int) (hn : n = (y - p.rect.minY) * (8 * b) + (x - p.rect.minX)) :
    (0 ≤ n ∧ n < 8 * b * h → (p.rect.minY ≤ p.rect.minY + n / (8 * b) ∧ p.rect.minY + n / (8 * b) < p.rect.maxY) ∧ (0 ≤ n % (8 * b) ∧ n % (8 * b) < p.rect.dx + 7) ∧
      p.at x y = p.at (p.rect.minX + n % (8 * b)) (p.rect.minY + n / (8 * b))) ∧
    (¬ (0 ≤ n ∧ n < 8 * b * h) → p.at x y = .panic .index) := by
  have e : ∀ x y : Int, p.at x y = ((goIndexI plane (((y - p.rect.minY) * (8 * b) + (x - p.rect.minX)) / 8)).bind fun c => .ok (.bit (!c.toNat.testBit (7 - (((y - p.rect.minY) * (8 * b) + (x - p.rect.minX)) % 8).toNat)))) := by
    intro x y
    unfold Picker.at
    simp only [hk, hb]
    rw [hs, show goIndex [plane] 0 = .ok plane from rfl, Res.ok_bind]
    have e1 : (y - p.rect.minY) * (8 * (b : Int)) = 8 * ((b : Int) * (y - p.rect.minY)) := by
      rw [Int.mul_comm (y - p.rect.minY), Int.mul_assoc]
    rw [e1, show (8 * ((b : Int) * (y - p.rect.minY)) + (x - p.rect.minX)) / 8 = (b : Int) * (y - p.rect.minY) + (x - p.rect.minX) / 8 by omega,
      show (8 * ((b : Int) * (y - p.rect.minY)) + (x - p.rect.minX)) % 8 = (x - p.rect.minX) % 8 by omega]
    rfl
  unfold Rect.dy at hdy
  constructor
  · rintro ⟨h1, h2⟩
    have hw : (0 : Int) < 8 * b := by
      rcases Nat.eq_zero_or_pos b with rfl | hw
      · simp at h2
        omega
      · omega
    have m1 := Int.emod_nonneg n (Int.ne_of_gt hw)
    have m2 := Int.emod_lt_of_pos n hw
    have d1 := Int.ediv_nonneg h1 (Int.le_of_lt hw)
    have d2 : n / (8 * b) < h := Int.ediv_lt_of_lt_mul hw (by rw [Int.mul_comm]; exact h2)
    refine ⟨⟨by omega, by omega⟩, ⟨m1, by omega⟩, ?_⟩
    rw [e x y, e, ← hn]
    have := Int.emod_add_mul_ediv n (8 * b)
    rw [show p.rect.minY + n / (8 * (b : Int)) - p.rect.minY = n / (8 * b) by omega, show p.rect.minX + n % (8 * (b : Int)) - p.rect.minX = n % (8 * b) by omega, Int.mul_comm (n / (8 * (b : Int))), Int.add_comm, this]
  · intro h1
    rw [e x y, ← hn]
    have h2 : goIndexI plane (n / 8) = .panic .index := by
      unfold goIndexI
      split
      · unfold goIndex
        have : 8 * (b : Int) * h = 8 * ((b * h : Nat) : Int) := by
          push_cast
          rw [Int.mul_assoc]
        rw [List.getElem?_eq_none (by omega)]
      · rfl
    rw [h2]
    rfl

/-- A bitmap of two rows of ten pixels, in two bytes each; its pixel right of the sixteenth is the first of the second row. -/
example : (((⟨0, 0, 10, 2⟩ : Rect).dx + 7) / 8 = ((2 : Nat) : Int)) ∧ Picker.at ⟨.gray1, ⟨0, 0, 10, 2⟩, [[0xff, 0xc0, 0x7f, 0xc0]], []⟩ 16 0 = .ok (.bit true) ∧
    Picker.at ⟨.gray1, ⟨0, 0, 10, 2⟩, [[0xff, 0xc0, 0x7f, 0xc0]], []⟩ 0 1 = .ok (.bit true) ∧ Picker.at ⟨.gray1, ⟨0, 0, 10, 2⟩, [[0xff, 0xc0, 0x7f, 0xc0]], []⟩ 16 1 = .panic .index := by decide

end Psd
