import Verif.Model.Tiles
import Verif.Lemmas.Basic
import Mathlib.Tactic.Ring
import Mathlib.Tactic.Linarith

/-!
# Theorem C63: trimming the unused border of a thumbnail
-/

namespace Psd

/-- The pixel `i` of a row of NRGBA bytes has an alpha above the threshold. -/
def Above (pix : List UInt8) (thr : UInt8) (i : Nat) : Prop := ∃ a, pix[i * 4 + 3]? = some a ∧ a > thr

/-- The picture's pixel `(x, y)` is visible. -/
def Shows (pix : List UInt8) (w h stride : Nat) (thr : UInt8) (x y : Nat) : Prop :=
  x < w ∧ y < h ∧ ∃ a, pix[y * stride + x * 4 + 3]? = some a ∧ a > thr

theorem findLeft_spec (pix : List UInt8) (thr : UInt8) : ∀ (n l : Nat), (∀ i, i < l + n → i * 4 + 3 < pix.length) →
    (findLeft pix thr n l = .ok none ∧ ∀ i, l ≤ i → i < l + n → ¬ Above pix thr i) ∨
    ∃ i, findLeft pix thr n l = .ok (some i) ∧ l ≤ i ∧ i < l + n ∧ Above pix thr i ∧ ∀ j, l ≤ j → j < i → ¬ Above pix thr j
  | 0, l, _ => Or.inl ⟨rfl, fun i h h' => by omega⟩
  | n + 1, l, hlen => by
    have hl := hlen l (by omega)
    have hg : pix[l * 4 + 3]? = some pix[l * 4 + 3] := List.getElem?_eq_getElem hl
    by_cases ha : pix[l * 4 + 3] > thr
    · right
      refine ⟨l, ?_, Nat.le_refl _, by omega, ⟨_, hg, ha⟩, fun j h h' => by omega⟩
      simp [findLeft, hg, ha]
    · have hna : ¬ Above pix thr l := by
        rintro ⟨a, h1, h2⟩
        rw [hg] at h1
        cases h1
        exact ha h2
      have e : findLeft pix thr (n + 1) l = findLeft pix thr n (l + 1) := by
        simp [findLeft, hg, ha]
      rw [e]
      rcases findLeft_spec pix thr n (l + 1) (fun i hi => hlen i (by omega)) with ⟨h1, h2⟩ | ⟨i, h1, h2, h3, h4, h5⟩
      · left
        refine ⟨h1, fun i hi hi' => ?_⟩
        by_cases hil : i = l
        · rw [hil]; exact hna
        · exact h2 i (by omega) (by omega)
      · right
        refine ⟨i, h1, by omega, by omega, h4, fun j hj hj' => ?_⟩
        by_cases hjl : j = l
        · rw [hjl]; exact hna
        · exact h5 j (by omega) hj'

theorem findRight_spec (pix : List UInt8) (thr : UInt8) (l : Nat) : ∀ (n : Nat), (∀ i, i < l + n → i * 4 + 3 < pix.length) →
    (∃ i, l ≤ i ∧ i < l + n ∧ Above pix thr i) →
    ∃ i, findRight pix thr l n = .ok (some i) ∧ l ≤ i ∧ i < l + n ∧ Above pix thr i ∧ ∀ j, i < j → j < l + n → ¬ Above pix thr j
  | 0, _, ⟨i, h1, h2, _⟩ => by omega
  | n + 1, hlen, ⟨i, h1, h2, h3⟩ => by
    have hl := hlen (l + n) (by omega)
    have hg : pix[(l + n) * 4 + 3]? = some pix[(l + n) * 4 + 3] := List.getElem?_eq_getElem hl
    by_cases ha : pix[(l + n) * 4 + 3] > thr
    · refine ⟨l + n, ?_, by omega, by omega, ⟨_, hg, ha⟩, fun j h h' => by omega⟩
      simp [findRight, hg, ha]
    · have hna : ¬ Above pix thr (l + n) := by
        rintro ⟨a, h1, h2⟩
        rw [hg] at h1
        cases h1
        exact ha h2
      have e : findRight pix thr l (n + 1) = findRight pix thr l n := by
        simp [findRight, hg, ha]
      have hi : i ≠ l + n := fun e => hna (e ▸ h3)
      obtain ⟨k, k1, k2, k3, k4, k5⟩ := findRight_spec pix thr l n (fun i hi => hlen i (by omega)) ⟨i, h1, by omega, h3⟩
      rw [e]
      refine ⟨k, k1, k2, by omega, k4, fun j hj hj' => ?_⟩
      by_cases hjl : j = l + n
      · rw [hjl]; exact hna
      · exact k5 j hj (by omega)

/-- `box` bounds the visible points `V` tightly; with none it is still what it was at the start. -/
structure Bounds (w h : Nat) (V : Nat → Nat → Prop) (box : Rect) : Prop where
  inside : ∀ x y, V x y → box.minX ≤ x ∧ (x : Int) ≤ box.maxX ∧ box.minY ≤ y ∧ (y : Int) ≤ box.maxY
  tight : (∃ x y, V x y) → (∃ x y, V x y ∧ (x : Int) = box.minX) ∧ (∃ x y, V x y ∧ (x : Int) = box.maxX) ∧
    (∃ x y, V x y ∧ (y : Int) = box.minY) ∧ ∃ x y, V x y ∧ (y : Int) = box.maxY
  none : (¬ ∃ x y, V x y) → box = ⟨w, h, -1, -1⟩

theorem scanRow_spec {pix : List UInt8} {thr : UInt8} {w h y : Nat} {V : Nat → Nat → Prop} {box : Rect} (hlen : ∀ i, i < w → i * 4 + 3 < pix.length)
    (hy : y < h) (hV : ∀ x y', V x y' → x < w ∧ y' < y) (hb : Bounds w h V box) :
    ∃ box', scanRow pix thr w y box = .ok box' ∧ Bounds w h (fun x y' => V x y' ∨ (y' = y ∧ x < w ∧ Above pix thr x)) box' := by
  unfold scanRow
  rcases findLeft_spec pix thr w 0 (fun i hi => hlen i (by omega)) with ⟨h1, h2⟩ | ⟨l, h1, _, h3, h4, h5⟩
  · rw [h1]
    refine ⟨box, rfl, ?_⟩
    have e : ∀ x y', (V x y' ∨ (y' = y ∧ x < w ∧ Above pix thr x)) ↔ V x y' := by
      intro x y'
      constructor
      · rintro (h | ⟨_, hx, ha⟩)
        · exact h
        · exact absurd ha (h2 x (Nat.zero_le _) (by omega))
      · exact Or.inl
    have e' : (fun x y' => V x y' ∨ (y' = y ∧ x < w ∧ Above pix thr x)) = V := by
      funext x y'
      exact propext (e x y')
    rw [e']
    exact hb
  · have hlw : l < w := by omega
    obtain ⟨r, r1, r2, r3, r4, r5⟩ := findRight_spec pix thr l (w - l) (fun i hi => hlen i (by omega)) ⟨l, Nat.le_refl _, by omega, h4⟩
    rw [h1]
    simp only [Res.ok_bind, r1]
    refine ⟨_, rfl, ?_, ?_, ?_⟩
    · rintro x y' (hv | ⟨rfl, hx, ha⟩)
      · have := hb.inside x y' hv
        have := hV x y' hv
        dsimp only
        split <;> split <;> split <;> omega
      · have x1 : l ≤ x := by
          by_contra hc
          exact h5 x (Nat.zero_le _) (by omega) ha
        have x2 : x ≤ r := by
          by_contra hc
          exact r5 x (by omega) (by omega) ha
        dsimp only
        split <;> split <;> split <;> omega
    · intro _
      have vl : V l y ∨ (y = y ∧ l < w ∧ Above pix thr l) := Or.inr ⟨rfl, hlw, h4⟩
      have vr : V r y ∨ (y = y ∧ r < w ∧ Above pix thr r) := Or.inr ⟨rfl, by omega, r4⟩
      by_cases hex : ∃ x y, V x y
      · obtain ⟨⟨a1, a2, a3, a4⟩, ⟨b1, b2, b3, b4⟩, ⟨c1, c2, c3, c4⟩, _⟩ := hb.tight hex
        refine ⟨?_, ?_, ?_, ⟨l, y, vl, rfl⟩⟩
        · dsimp only
          split
          · exact ⟨l, y, vl, rfl⟩
          · exact ⟨a1, a2, Or.inl a3, a4⟩
        · dsimp only
          split
          · exact ⟨r, y, vr, rfl⟩
          · exact ⟨b1, b2, Or.inl b3, b4⟩
        · dsimp only
          split
          · exact ⟨l, y, vl, rfl⟩
          · exact ⟨c1, c2, Or.inl c3, c4⟩
      · have := hb.none hex
        subst this
        dsimp only
        rw [if_pos (by omega), if_pos (by omega), if_pos (by omega)]
        exact ⟨⟨l, y, vl, rfl⟩, ⟨r, y, vr, rfl⟩, ⟨l, y, vl, rfl⟩, ⟨l, y, vl, rfl⟩⟩
    · intro hn
      exact absurd ⟨l, y, Or.inr ⟨rfl, hlw, h4⟩⟩ hn

theorem scanRows_spec (thr : UInt8) (w h stride : Nat) (hw : w * 4 ≤ stride) : ∀ (n y : Nat) (pix : List UInt8) (V : Nat → Nat → Prop) (box : Rect),
    y + n = h → pix.length = n * stride → (∀ x y', V x y' → x < w ∧ y' < y) → Bounds w h V box →
    ∃ box', scanRows thr w stride n y pix box = .ok box' ∧
      Bounds w h (fun x y' => V x y' ∨ (y ≤ y' ∧ Shows pix w n stride thr x (y' - y))) box'
  | 0, y, pix, V, box, _, _, _, hb => by
    refine ⟨box, rfl, ?_⟩
    have e' : (fun x y' => V x y' ∨ (y ≤ y' ∧ Shows pix w 0 stride thr x (y' - y))) = V := by
      funext x y'
      apply propext
      constructor
      · rintro (h | ⟨_, _, h, _⟩)
        · exact h
        · omega
      · exact Or.inl
    rw [e']
    exact hb
  | n + 1, y, pix, V, box, hy, hl, hV, hb => by
    have hs : stride ≤ pix.length := by rw [hl, Nat.add_mul]; omega
    obtain ⟨box1, e1, b1⟩ := scanRow_spec (pix := pix) (thr := thr) (y := y) (fun i hi => by omega) (by omega) hV hb
    obtain ⟨box2, e2, b2⟩ := scanRows_spec thr w h stride hw n (y + 1) (pix.drop stride) _ box1 (by omega)
      (by rw [List.length_drop, hl, Nat.add_mul]; omega) (by
        rintro x y' (hv | ⟨rfl, hx, _⟩)
        · have := hV x y' hv; omega
        · omega) b1
    refine ⟨box2, ?_, ?_⟩
    · simp only [scanRows, e1, Res.ok_bind, if_pos hs, e2]
    · have e' : (fun x y' => V x y' ∨ (y ≤ y' ∧ Shows pix w (n + 1) stride thr x (y' - y))) =
          (fun x y' => (V x y' ∨ (y' = y ∧ x < w ∧ Above pix thr x)) ∨
            (y + 1 ≤ y' ∧ Shows (pix.drop stride) w n stride thr x (y' - (y + 1)))) := by
        funext x y'
        apply propext
        have key : y + 1 ≤ y' → (Shows pix w (n + 1) stride thr x (y' - y) ↔ Shows (pix.drop stride) w n stride thr x (y' - (y + 1))) := by
          intro hyy
          unfold Shows
          obtain ⟨q, hq⟩ : ∃ q, y' - y = q + 1 := ⟨y' - y - 1, by omega⟩
          have hq' : y' - (y + 1) = q := by omega
          rw [hq, hq', List.getElem?_drop, Nat.add_mul]
          have : stride + (q * stride + x * 4 + 3) = q * stride + 1 * stride + x * 4 + 3 := by omega
          rw [this]
          constructor
          · rintro ⟨a, b, c⟩; exact ⟨a, by omega, c⟩
          · rintro ⟨a, b, c⟩; exact ⟨a, by omega, c⟩
        constructor
        · rintro (hv | ⟨hyy, hsh⟩)
          · exact Or.inl (Or.inl hv)
          · by_cases he : y' = y
            · subst he
              obtain ⟨s1, s2, a, s3, s4⟩ := hsh
              simp only [Nat.sub_self, Nat.zero_mul, Nat.zero_add] at s3
              exact Or.inl (Or.inr ⟨rfl, s1, a, s3, s4⟩)
            · exact Or.inr ⟨by omega, (key (by omega)).1 hsh⟩
        · rintro ((hv | ⟨rfl, hx, a, s3, s4⟩) | ⟨hyy, hsh⟩)
          · exact Or.inl hv
          · refine Or.inr ⟨Nat.le_refl _, hx, by omega, a, ?_, s4⟩
            simpa using s3
          · exact Or.inr ⟨by omega, (key hyy).2 hsh⟩
      rw [e']
      exact b2

theorem move_getElem? (pix : List UInt8) (d s w i : Nat) (hd : d + w ≤ pix.length) (hs : s + w ≤ pix.length) :
    (pix.take d ++ (pix.drop s).take w ++ pix.drop (d + w))[i]? =
      if i < d then pix[i]? else if i < d + w then pix[s + (i - d)]? else pix[i]? := by
  have l1 : (pix.take d).length = d := by rw [List.length_take]; omega
  have l2 : ((pix.drop s).take w).length = w := by rw [List.length_take, List.length_drop]; omega
  by_cases h1 : i < d
  · rw [List.append_assoc, List.getElem?_append_left (by omega), List.getElem?_take, if_pos h1, if_pos h1]
  · rw [List.append_assoc, List.getElem?_append_right (by omega), l1, if_neg h1]
    by_cases h2 : i < d + w
    · rw [List.getElem?_append_left (by omega), List.getElem?_take, if_pos (by omega), List.getElem?_drop, if_pos h2]
    · rw [List.getElem?_append_right (by omega), l2, List.getElem?_drop, if_neg h2]
      congr 1
      omega

theorem moveRows_spec (w stride : Nat) (hw : w ≤ stride) : ∀ (n d s : Nat) (pix : List UInt8), d ≤ s → s + n * stride ≤ pix.length →
    ∃ out, moveRows w stride n d s pix = .ok out ∧ out.length = pix.length ∧ (∀ i, i < d → out[i]? = pix[i]?) ∧
      ∀ j c, j < n → c < w → out[d + j * w + c]? = pix[s + j * stride + c]?
  | 0, d, s, pix, _, _ => ⟨pix, rfl, rfl, fun _ _ => rfl, fun j c h => by omega⟩
  | n + 1, d, s, pix, hd, hl => by
    rw [Nat.add_mul, Nat.one_mul] at hl
    have hds : d + w ≤ pix.length := by omega
    have hss : s + w ≤ pix.length := by omega
    obtain ⟨pix1, hp1⟩ : ∃ pix1, pix.take d ++ (pix.drop s).take w ++ pix.drop (d + w) = pix1 := ⟨_, rfl⟩
    have hg := fun i => move_getElem? pix d s w i hds hss
    rw [hp1] at hg
    have hlen : pix1.length = pix.length := by
      rw [← hp1]
      simp only [List.length_append, List.length_take, List.length_drop]
      omega
    obtain ⟨out, e, l, o1, o2⟩ := moveRows_spec w stride hw n (d + w) (s + stride) pix1 (by omega) (by omega)
    refine ⟨out, ?_, by omega, ?_, ?_⟩
    · simp only [moveRows]
      rw [if_pos ⟨hss, hds⟩, hp1, if_pos (by omega), e]
    · intro i hi
      rw [o1 i (by omega), hg i, if_pos hi]
    · intro j c hj hc
      cases j with
      | zero =>
        simp only [Nat.zero_mul, Nat.add_zero]
        rw [o1 _ (by omega), hg, if_neg (by omega), if_pos (by omega)]
        congr 1
        omega
      | succ j =>
        have h1 := o2 j c (by omega) hc
        rw [Nat.add_mul, Nat.one_mul, Nat.add_mul, Nat.one_mul]
        have e1 : d + (j * w + w) + c = d + w + j * w + c := by omega
        have e2 : s + (j * stride + stride) + c = s + stride + j * stride + c := by omega
        rw [e1, e2, h1, hg, if_neg (by omega), if_neg (by omega)]

/-- **C63** (in part) For every picture with a visible pixel: the bounding box of the visible pixels is found, columns
`x0` to `x1` and rows `y0` to `y1`, the last ones included, and of it the pixels left of `x1` and above `y1` are kept,
each with its four bytes unchanged.

Missing: column `x1` and row `y1` themselves, which are lost (`C63_last_column_lost`). -/
theorem C63_trim_partial (pix : List UInt8) (w h stride : Nat) (thr : UInt8) (hw : w * 4 ≤ stride) (hl : pix.length = h * stride)
    (hv : ∃ x y, Shows pix w h stride thr x y) :
    ∃ (x0 y0 x1 y1 : Nat) (out : List UInt8),
      (∀ x y, Shows pix w h stride thr x y → x0 ≤ x ∧ x ≤ x1 ∧ y0 ≤ y ∧ y ≤ y1) ∧
      (∃ y, Shows pix w h stride thr x0 y) ∧ (∃ y, Shows pix w h stride thr x1 y) ∧
      (∃ x, Shows pix w h stride thr x y0) ∧ (∃ x, Shows pix w h stride thr x y1) ∧
      trim pix w h stride thr = .ok (out, ⟨x0, y0, x1, y1⟩, ((x1 - x0) * 4 : Nat)) ∧
      out.length = (y1 - y0) * ((x1 - x0) * 4) ∧
      ∀ x y k, x0 ≤ x → x < x1 → y0 ≤ y → y < y1 → k < 4 →
        out[(y - y0) * ((x1 - x0) * 4) + (x - x0) * 4 + k]? = pix[y * stride + x * 4 + k]? := by
  obtain ⟨box, e, b⟩ := scanRows_spec thr w h stride hw h 0 pix (fun _ _ => False) ⟨w, h, -1, -1⟩ (by omega) hl
    (fun _ _ h => h.elim) ⟨fun _ _ h => h.elim, fun ⟨_, _, h⟩ => h.elim, fun _ => rfl⟩
  have eV : (fun x y' => False ∨ (0 ≤ y' ∧ Shows pix w h stride thr x (y' - 0))) = Shows pix w h stride thr := by
    funext x y
    simp
  rw [eV] at b
  obtain ⟨⟨a1, a2, a3, a4⟩, ⟨b1, b2, b3, b4⟩, ⟨c1, c2, c3, c4⟩, ⟨d1, d2, d3, d4⟩⟩ := b.tight hv
  have hbox : box = ⟨(a1 : Int), (c2 : Int), (b1 : Int), (d2 : Int)⟩ := by
    cases box
    simp only at a4 b4 c4 d4
    rw [a4, b4, c4, d4]
  rw [hbox] at b e
  have hA := b.inside _ _ a3
  have hC := b.inside _ _ c3
  have w1 := b3.1
  have h1 := d3.2.1
  simp only at hA hC
  have lx : a1 ≤ b1 := by omega
  have ly : c2 ≤ d2 := by omega
  have hdx : (⟨(a1 : Int), (c2 : Int), (b1 : Int), (d2 : Int)⟩ : Rect).dx = ((b1 - a1 : Nat) : Int) := by
    simp only [Rect.dx]
    omega
  have hdy : (⟨(a1 : Int), (c2 : Int), (b1 : Int), (d2 : Int)⟩ : Rect).dy = ((d2 - c2 : Nat) : Int) := by
    simp only [Rect.dy]
    omega
  have hS : c2 * stride + a1 * 4 + (d2 - c2) * stride ≤ h * stride := by
    have k1 : c2 * stride + (d2 - c2) * stride = d2 * stride := by
      rw [← Nat.add_mul]
      congr 1
      omega
    have k2 : (d2 + 1) * stride ≤ h * stride := Nat.mul_le_mul_right _ (by omega)
    rw [Nat.add_mul, Nat.one_mul] at k2
    omega
  obtain ⟨out, m1, m2, _, m4⟩ := moveRows_spec ((b1 - a1) * 4) stride (by omega) (d2 - c2) 0 (c2 * stride + a1 * 4) pix (Nat.zero_le _) (by omega)
  have hle : (d2 - c2) * ((b1 - a1) * 4) ≤ pix.length := by
    have : (d2 - c2) * ((b1 - a1) * 4) ≤ (d2 - c2) * stride := Nat.mul_le_mul_left _ (by omega)
    omega
  refine ⟨a1, c2, b1, d2, out.take ((d2 - c2) * ((b1 - a1) * 4)), ?_, ⟨a2, a3⟩, ⟨b2, b3⟩, ⟨c1, c3⟩, ⟨d1, d3⟩, ?_, ?_, ?_⟩
  · intro x y hs
    have := b.inside x y hs
    simp only at this
    omega
  · unfold trim
    have e0 : pix.take (h * stride) = pix := by rw [← hl, List.take_length]
    rw [if_neg (by omega), e0, e]
    simp only [Res.ok_bind, hdx, hdy]
    have hprod : ¬ (((b1 - a1 : Nat) : Int) * ((d2 - c2 : Nat) : Int) = (w : Int) * h) := by
      have : (b1 - a1) * (d2 - c2) < w * h := by
        calc (b1 - a1) * (d2 - c2) ≤ (b1 - a1) * h := Nat.mul_le_mul_left _ (by omega)
          _ < w * h := Nat.mul_lt_mul_of_pos_right (by omega) (by omega)
      intro hc
      have : (b1 - a1) * (d2 - c2) = w * h := by exact_mod_cast hc
      omega
    rw [if_neg hprod]
    have es : (stride : Int) * c2 + a1 * 4 = ((c2 * stride + a1 * 4 : Nat) : Int) := by push_cast; ring
    have eh : (h : Int) * stride = ((h * stride : Nat) : Int) := by push_cast; ring
    have ew : ((b1 - a1 : Nat) : Int) * 4 = (((b1 - a1) * 4 : Nat) : Int) := by push_cast; ring
    have el : ((d2 - c2 : Nat) : Int) * (((b1 - a1) * 4 : Nat) : Int) = (((d2 - c2) * ((b1 - a1) * 4) : Nat) : Int) := by push_cast; ring
    rw [es, eh, if_neg (by omega), ew]
    simp only [Int.toNat_natCast, m1, Res.ok_bind]
    rw [el, if_neg (by omega), Int.toNat_natCast]
  · rw [List.length_take]
    omega
  · intro x y k hx1 hx2 hy1 hy2 hk
    have hc : (x - a1) * 4 + k < (b1 - a1) * 4 := by omega
    have hj : y - c2 < d2 - c2 := by omega
    have hidx : (y - c2) * ((b1 - a1) * 4) + (x - a1) * 4 + k < (d2 - c2) * ((b1 - a1) * 4) := by
      have : (y - c2 + 1) * ((b1 - a1) * 4) ≤ (d2 - c2) * ((b1 - a1) * 4) := Nat.mul_le_mul_right _ hj
      rw [Nat.add_mul, Nat.one_mul] at this
      omega
    rw [List.getElem?_take, if_pos hidx]
    have := m4 (y - c2) ((x - a1) * 4 + k) hj hc
    have e1 : 0 + (y - c2) * ((b1 - a1) * 4) + ((x - a1) * 4 + k) = (y - c2) * ((b1 - a1) * 4) + (x - a1) * 4 + k := by omega
    rw [e1] at this
    rw [this]
    congr 1
    have k1 : c2 * stride + (y - c2) * stride = y * stride := by
      rw [← Nat.add_mul]
      congr 1
      omega
    omega

/-- **C63** is false of every picture with a visible pixel: one lies outside the rectangle that is left. -/
theorem C63_last_column_lost (pix : List UInt8) (w h stride : Nat) (thr : UInt8) (hw : w * 4 ≤ stride) (hl : pix.length = h * stride)
    (hv : ∃ x y, Shows pix w h stride thr x y) :
    ∃ out rect s x y, trim pix w h stride thr = .ok (out, rect, s) ∧ Shows pix w h stride thr x y ∧ ¬ rect.Mem x y := by
  obtain ⟨x0, y0, x1, y1, out, _, _, ⟨y, hy⟩, _, _, e, _⟩ := C63_trim_partial pix w h stride thr hw hl hv
  refine ⟨_, _, _, x1, y, e, hy, ?_⟩
  unfold Rect.Mem
  dsimp only
  omega

/-- A fully transparent picture makes it panic. -/
theorem C63_blank_panics (pix : List UInt8) (w h stride : Nat) (thr : UInt8) (hw : w * 4 ≤ stride) (hl : pix.length = h * stride) (h0 : 1 ≤ w)
    (hv : ¬ ∃ x y, Shows pix w h stride thr x y) : trim pix w h stride thr = .panic .index := by
  obtain ⟨box, e, b⟩ := scanRows_spec thr w h stride hw h 0 pix (fun _ _ => False) ⟨w, h, -1, -1⟩ (by omega) hl
    (fun _ _ h => h.elim) ⟨fun _ _ h => h.elim, fun ⟨_, _, h⟩ => h.elim, fun _ => rfl⟩
  have eV : (fun x y' => False ∨ (0 ≤ y' ∧ Shows pix w h stride thr x (y' - 0))) = Shows pix w h stride thr := by
    funext x y
    simp
  rw [eV] at b
  rw [b.none hv] at e
  unfold trim
  have e0 : pix.take (h * stride) = pix := by rw [← hl, List.take_length]
  rw [if_neg (by omega), e0, e]
  simp only [Res.ok_bind, Rect.dx, Rect.dy]
  have hprod : ¬ ((-1 - (w : Int)) * (-1 - (h : Int)) = (w : Int) * h) := by
    intro hc
    have : (-1 - (w : Int)) * (-1 - (h : Int)) = (w : Int) * h + w + h + 1 := by ring
    omega
  rw [if_neg hprod, if_pos]
  right
  have : (stride : Int) * h = h * stride := by ring
  omega

/-- A 3 by 2 picture with three visible pixels. -/
example : Shows [0,0,0,0, 9,9,9,5, 8,8,8,6,  0,0,0,0, 7,7,7,4, 0,0,0,0] 3 2 12 0 2 0 ∧
    trim [0,0,0,0, 9,9,9,5, 8,8,8,6,  0,0,0,0, 7,7,7,4, 0,0,0,0] 3 2 12 0 = .ok ([9,9,9,5], ⟨1, 0, 2, 1⟩, 4) := by
  refine ⟨⟨by decide, by decide, 6, by decide, by decide⟩, by decide +kernel⟩

end Psd
