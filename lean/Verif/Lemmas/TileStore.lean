import Verif.Model.TileStore
import Verif.Props.Tiles
import Verif.Lemmas.Basic

/-!
# Storing tiles: what the loops leave in the buffers
-/

namespace Psd

/-- The `q`-th group of `k` bytes. -/
def blk (k : Nat) (buf : List UInt8) (q : Nat) : List UInt8 := (buf.drop (q * k)).take k

theorem putAt_blk {k : Nat} {buf px : List UInt8} {q : Nat} (hpx : px.length = k) (hq : (q + 1) * k ≤ buf.length) :
    ∃ out, putAt buf ((q * k : Nat) : Int) px = .ok out ∧ out.length = buf.length ∧ blk k out q = px ∧ ∀ q', q' ≠ q → blk k out q' = blk k buf q' := by
  rw [Nat.add_mul, Nat.one_mul] at hq
  refine ⟨buf.take (q * k) ++ px ++ buf.drop (q * k + k), ?_, ?_, ?_, ?_⟩
  · unfold putAt
    rw [if_neg (by omega), Int.toNat_natCast, hpx]
  · simp only [List.length_append, List.length_take, List.length_drop, hpx]
    omega
  · unfold blk
    have l1 : (buf.take (q * k)).length = q * k := by rw [List.length_take]; omega
    rw [List.append_assoc, List.drop_append_of_le_length (by omega), List.drop_of_length_le (by omega), List.nil_append,
      List.take_append_of_le_length (by omega), List.take_of_length_le (by omega)]
  · intro q' hne
    unfold blk
    apply List.ext_getElem?
    intro i
    rw [List.getElem?_take, List.getElem?_take]
    by_cases hi : i < k
    · rw [if_pos hi, if_pos hi, List.getElem?_drop, List.getElem?_drop]
      rcases Nat.lt_or_gt_of_ne hne with h | h
      · have : (q' + 1) * k ≤ q * k := Nat.mul_le_mul_right _ h
        rw [Nat.add_mul, Nat.one_mul] at this
        rw [List.append_assoc, List.getElem?_append_left (by rw [List.length_take]; omega), List.getElem?_take, if_pos (by omega)]
      · have : (q + 1) * k ≤ q' * k := Nat.mul_le_mul_right _ h
        rw [Nat.add_mul, Nat.one_mul] at this
        have l1 : (buf.take (q * k) ++ px).length = q * k + k := by
          rw [List.length_append, List.length_take, hpx]; omega
        rw [List.getElem?_append_right (by omega), l1, List.getElem?_drop]
        congr 1
        omega
    · rw [if_neg hi, if_neg hi]

theorem tileCols_spec {k dX : Nat} {cell : Int → Res (Option (List UInt8))} : ∀ (n q : Nat) (sx : Int) (f : Nat → Option (List UInt8)) (buf : List UInt8)
    (used : Bool), (∀ t, t < n → cell (sx + t * dX) = .ok (f t)) → (∀ t px, t < n → f t = some px → px.length = k) → (q + n) * k ≤ buf.length →
    ∃ buf' used', tileCols k dX cell n ((q * k : Nat) : Int) sx (buf, used) = .ok (buf', used') ∧ buf'.length = buf.length ∧
      (used' = true ↔ used = true ∨ ∃ t, t < n ∧ (f t).isSome = true) ∧
      (∀ t, t < n → blk k buf' (q + t) = (f t).getD (blk k buf (q + t))) ∧
      ∀ q', q' < q ∨ q + n ≤ q' → blk k buf' q' = blk k buf q'
  | 0, q, sx, f, buf, used, _, _, _ => ⟨buf, used, rfl, rfl, ⟨Or.inl, fun h => h.elim id fun ⟨t, h, _⟩ => by omega⟩, fun t h => by omega, fun _ _ => rfl⟩
  | n + 1, q, sx, f, buf, used, hc, hk, hl => by
    have h0 : cell sx = .ok (f 0) := by simpa using hc 0 (by omega)
    have hc' : ∀ t, t < n → cell (sx + dX + t * dX) = .ok (f (t + 1)) := by
      intro t ht
      have := hc (t + 1) (by omega)
      have e : sx + ((t + 1 : Nat) : Int) * dX = sx + dX + t * dX := by push_cast; ring
      rw [e] at this
      exact this
    have eq1 : ((q * k : Nat) : Int) + k = (((q + 1) * k : Nat) : Int) := by push_cast; ring
    have hqk : (q + 1) * k ≤ buf.length := Nat.le_trans (Nat.mul_le_mul_right _ (by omega)) hl
    cases hf : f 0 with
    | none =>
      obtain ⟨buf', used', e, l, u, b1, b2⟩ := tileCols_spec n (q + 1) (sx + dX) (fun t => f (t + 1)) buf used hc'
        (fun t px ht => hk (t + 1) px (by omega)) (by rw [show q + 1 + n = q + (n + 1) from by omega]; exact hl)
      refine ⟨buf', used', ?_, l, ?_, ?_, ?_⟩
      · simp only [tileCols, h0, hf, Res.ok_bind]
        rw [eq1, e]
      · rw [u]
        constructor
        · rintro (h | ⟨t, h, h'⟩)
          · exact Or.inl h
          · exact Or.inr ⟨t + 1, by omega, h'⟩
        · rintro (h | ⟨t, h, h'⟩)
          · exact Or.inl h
          · cases t with
            | zero => rw [hf] at h'; cases h'
            | succ t => exact Or.inr ⟨t, by omega, h'⟩
      · intro t ht
        cases t with
        | zero =>
          rw [hf]
          exact b2 _ (by omega)
        | succ t =>
          have := b1 t (by omega)
          rw [show q + 1 + t = q + (t + 1) from by omega] at this
          exact this
      · intro q' hq'
        exact b2 q' (by omega)
    | some px =>
      obtain ⟨buf1, p1, p2, p3, p4⟩ := putAt_blk (q := q) (hk 0 px (by omega) hf) hqk
      obtain ⟨buf', used', e, l, u, b1, b2⟩ := tileCols_spec n (q + 1) (sx + dX) (fun t => f (t + 1)) buf1 true hc'
        (fun t px ht => hk (t + 1) px (by omega)) (by rw [show q + 1 + n = q + (n + 1) from by omega, p2]; exact hl)
      refine ⟨buf', used', ?_, by omega, ?_, ?_, ?_⟩
      · simp only [tileCols, h0, hf, Res.ok_bind, p1]
        rw [eq1, e]
      · rw [u]
        constructor
        · intro _
          exact Or.inr ⟨0, by omega, by rw [hf]; rfl⟩
        · intro _
          exact Or.inl rfl
      · intro t ht
        cases t with
        | zero =>
          rw [hf, b2 _ (by omega)]
          exact p3
        | succ t =>
          have := b1 t (by omega)
          rw [show q + 1 + t = q + (t + 1) from by omega] at this
          rw [this, p4 _ (by omega)]
      · intro q' hq'
        rw [b2 q' (by omega), p4 _ (by omega)]

theorem tileRows_spec {k dX : Nat} {cell : Int → Res (Option (List UInt8))} (w ts i0 : Nat) (hw : i0 + w ≤ ts) (sxMin sw : Int) :
    ∀ (n j0 : Nat) (sy : Int) (f : Nat → Nat → Option (List UInt8)) (buf : List UInt8) (used : Bool),
    (∀ j t, j < n → t < w → cell (sy + j * sw + sxMin + t * dX) = .ok (f j t)) →
    (∀ j t px, j < n → t < w → f j t = some px → px.length = k) → (j0 + n) * ts * k ≤ buf.length →
    ∃ buf' used', tileRows k dX cell w ((i0 * k : Nat) : Int) sxMin ((ts * k : Nat) : Int) sw n ((j0 * (ts * k) : Nat) : Int) sy (buf, used) = .ok (buf', used') ∧
      buf'.length = buf.length ∧ (used' = true ↔ used = true ∨ ∃ j t, j < n ∧ t < w ∧ (f j t).isSome = true) ∧
      (∀ j t, j < n → t < w → blk k buf' ((j0 + j) * ts + (i0 + t)) = (f j t).getD (blk k buf ((j0 + j) * ts + (i0 + t)))) ∧
      ∀ j i, i < ts → (j < j0 ∨ j0 + n ≤ j ∨ i < i0 ∨ i0 + w ≤ i) → blk k buf' (j * ts + i) = blk k buf (j * ts + i)
  | 0, j0, sy, f, buf, used, _, _, _ => ⟨buf, used, rfl, rfl, ⟨Or.inl, fun h => h.elim id fun ⟨j, t, h, _⟩ => by omega⟩, fun j t h => by omega, fun _ _ _ _ => rfl⟩
  | n + 1, j0, sy, f, buf, used, hc, hk, hl => by
    have e0 : ((j0 * (ts * k) : Nat) : Int) + ((i0 * k : Nat) : Int) = (((j0 * ts + i0) * k : Nat) : Int) := by push_cast; ring
    have hrow : (j0 * ts + i0 + w) * k ≤ (j0 + 1) * ts * k := Nat.mul_le_mul_right _ (by rw [Nat.add_mul]; omega)
    have hrow' : (j0 + 1) * ts * k ≤ (j0 + (n + 1)) * ts * k := Nat.mul_le_mul_right _ (Nat.mul_le_mul_right _ (by omega))
    obtain ⟨buf1, used1, c1, c2, c3, c4, c5⟩ := tileCols_spec (k := k) (dX := dX) (cell := cell) w (j0 * ts + i0) (sy + sxMin) (f 0) buf used
      (fun t ht => by have := hc 0 t (by omega) ht; simpa using this) (fun t px ht => hk 0 t px (by omega) ht) (by omega)
    obtain ⟨buf', used', r1, r2, r3, r4, r5⟩ := tileRows_spec w ts i0 hw sxMin sw n (j0 + 1) (sy + sw) (fun j => f (j + 1)) buf1 used1
      (fun j t hj ht => by
        have := hc (j + 1) t (by omega) ht
        have e : sy + ((j + 1 : Nat) : Int) * sw + sxMin + t * dX = sy + sw + j * sw + sxMin + t * dX := by push_cast; ring
        rw [e] at this
        exact this)
      (fun j t px hj => hk (j + 1) t px (by omega)) (by rw [c2, show j0 + 1 + n = j0 + (n + 1) from by omega]; exact hl)
    have sep : ∀ j i, i < ts → j ≠ j0 → (j * ts + i < j0 * ts + i0 ∨ j0 * ts + i0 + w ≤ j * ts + i) := by
      intro j i hi hj
      rcases Nat.lt_or_gt_of_ne hj with h | h
      · have : (j + 1) * ts ≤ j0 * ts := Nat.mul_le_mul_right _ h
        rw [Nat.add_mul] at this
        omega
      · have : (j0 + 1) * ts ≤ j * ts := Nat.mul_le_mul_right _ h
        rw [Nat.add_mul] at this
        omega
    refine ⟨buf', used', ?_, by omega, ?_, ?_, ?_⟩
    · simp only [tileRows]
      rw [e0, c1]
      simp only [Res.ok_bind]
      have e1 : ((j0 * (ts * k) : Nat) : Int) + ((ts * k : Nat) : Int) = (((j0 + 1) * (ts * k) : Nat) : Int) := by push_cast; ring
      rw [e1, r1]
    · rw [r3, c3]
      constructor
      · rintro ((h | ⟨t, h, h'⟩) | ⟨j, t, h, h', h''⟩)
        · exact Or.inl h
        · exact Or.inr ⟨0, t, by omega, h, h'⟩
        · exact Or.inr ⟨j + 1, t, by omega, h', h''⟩
      · rintro (h | ⟨j, t, h, h', h''⟩)
        · exact Or.inl (Or.inl h)
        · cases j with
          | zero => exact Or.inl (Or.inr ⟨t, h', h''⟩)
          | succ j => exact Or.inr ⟨j, t, by omega, h', h''⟩
    · intro j t hj ht
      cases j with
      | zero =>
        rw [Nat.add_zero, r5 j0 (i0 + t) (by omega) (by omega)]
        have := c4 t ht
        rw [Nat.add_assoc] at this
        exact this
      | succ j =>
        have := r4 j t (by omega) ht
        rw [show j0 + 1 + j = j0 + (j + 1) from by omega] at this
        rw [this, c5 _ (sep _ _ (by omega) (by omega))]
    · intro j i hi hh
      rw [r5 j i hi (by omega)]
      by_cases hj : j = j0
      · subst hj
        exact c5 _ (by omega)
      · exact c5 _ (sep _ _ hi hj)

/-- What `cell` finds at each place of `rect`: `c x y`. -/
structure Reads (k dX : Nat) (cell : Int → Res (Option (List UInt8))) (rect : Rect) (c : Int → Int → Option (List UInt8)) : Prop where
  cell : ∀ x y, rect.Mem x y → cell ((y - rect.minY) * (rect.dx * dX) + (x - rect.minX) * dX) = .ok (c x y)
  size : ∀ x y px, rect.Mem x y → c x y = some px → px.length = k
  outside : ∀ x y, ¬ rect.Mem x y → c x y = none

/-- A buffer for a tile with nothing in it. -/
def BlankTile (k ts : Nat) (buf : List UInt8) : Prop :=
  buf.length = ts * k * ts ∧ ∀ q, q < ts * ts → blk k buf q = List.replicate k 0

theorem blank_new (k ts : Nat) : BlankTile k ts (List.replicate (ts * k * ts) 0) := by
  refine ⟨List.length_replicate, fun q hq => ?_⟩
  unfold blk
  rw [List.drop_replicate, List.take_replicate]
  congr 1
  have : (q + 1) * k ≤ ts * ts * k := Nat.mul_le_mul_right _ hq
  have e : ts * k * ts = ts * ts * k := by ring
  rw [Nat.add_mul] at this
  omega

/-- The tile at `p` holds the picture `c`. -/
def HoldsTile (k ts : Nat) (c : Int → Int → Option (List UInt8)) (p : Int × Int) (buf : List UInt8) : Prop :=
  buf.length = ts * k * ts ∧ ∀ i j, i < ts → j < ts → blk k buf (j * ts + i) = (c (p.1 + i) (p.2 + j)).getD (List.replicate k 0)

/-- Something of the picture lies in the tile. -/
def Used (ts : Nat) (c : Int → Int → Option (List UInt8)) (p : Int × Int) : Prop :=
  ∃ i j : Nat, i < ts ∧ j < ts ∧ (c (p.1 + i) (p.2 + j)).isSome = true

theorem oneTile_spec {k dX ts : Nat} {cell : Int → Res (Option (List UInt8))} {rect : Rect} {c : Int → Int → Option (List UInt8)}
    (hr : Reads k dX cell rect c) {p : Int × Int} (h1 : rect.minX < p.1 + ts) (h2 : p.1 < rect.maxX) (h3 : rect.minY < p.2 + ts) (h4 : p.2 < rect.maxY)
    (hX : rect.minX < rect.maxX) (hY : rect.minY < rect.maxY) {buf : List UInt8} (hb : BlankTile k ts buf) :
    ∃ buf' used, oneTile k dX ts cell rect p buf = .ok (buf', used) ∧ HoldsTile k ts c p buf' ∧ (used = true ↔ Used ts c p) := by
  obtain ⟨tx, ty⟩ := p
  simp only at h1 h2 h3 h4
  obtain ⟨i0, hi0⟩ : ∃ i0 : Nat, (i0 : Int) = (if tx - rect.minX < 0 then 0 - (tx - rect.minX) else 0) := by
    split
    · exact ⟨(0 - (tx - rect.minX)).toNat, by omega⟩
    · exact ⟨0, rfl⟩
  obtain ⟨j0, hj0⟩ : ∃ j0 : Nat, (j0 : Int) = (if ty - rect.minY < 0 then 0 - (ty - rect.minY) else 0) := by
    split
    · exact ⟨(0 - (ty - rect.minY)).toNat, by omega⟩
    · exact ⟨0, rfl⟩
  obtain ⟨sx, hsx⟩ : ∃ sx : Int, sx = (if tx - rect.minX < 0 then 0 else tx - rect.minX) := ⟨_, rfl⟩
  obtain ⟨sy, hsy⟩ : ∃ sy : Int, sy = (if ty - rect.minY < 0 then 0 else ty - rect.minY) := ⟨_, rfl⟩
  obtain ⟨w, hw⟩ : ∃ w : Nat, w = ((if rect.minX + sx + (ts - i0) > rect.maxX then ts - (rect.minX + sx + (ts - i0) - rect.maxX) else (ts : Int)) - i0).toNat := ⟨_, rfl⟩
  obtain ⟨n, hn⟩ : ∃ n : Nat, n = ((if rect.minY + sy + (ts - j0) > rect.maxY then ts - (rect.minY + sy + (ts - j0) - rect.maxY) else (ts : Int)) - j0).toNat := ⟨_, rfl⟩
  have ex : sx = tx + i0 - rect.minX := by split at hi0 <;> split at hsx <;> omega
  have ey : sy = ty + j0 - rect.minY := by split at hj0 <;> split at hsy <;> omega
  have wspec : i0 + w ≤ ts ∧ tx + i0 + w ≤ rect.maxX ∧ (i0 + w = ts ∨ tx + i0 + w = rect.maxX) := by
    split at hi0 <;> split at hw <;> omega
  have nspec : j0 + n ≤ ts ∧ ty + j0 + n ≤ rect.maxY ∧ (j0 + n = ts ∨ ty + j0 + n = rect.maxY) := by
    split at hj0 <;> split at hn <;> omega
  have i0spec : rect.minX ≤ tx + i0 ∧ (i0 = 0 ∨ tx + i0 = rect.minX) := by split at hi0 <;> omega
  have j0spec : rect.minY ≤ ty + j0 ∧ (j0 = 0 ∨ ty + j0 = rect.minY) := by split at hj0 <;> omega
  have hmem : ∀ j t : Nat, j < n → t < w → rect.Mem (tx + (i0 + t : Nat)) (ty + (j0 + j : Nat)) := by
    intro j t hj ht
    unfold Rect.Mem
    omega
  obtain ⟨buf', used, e, l, u, b1, b2⟩ := tileRows_spec (k := k) (dX := dX) (cell := cell) w ts i0 wspec.1 (sx * dX) (rect.dx * dX) n j0 (sy * (rect.dx * dX))
    (fun j t => c (tx + (i0 + t : Nat)) (ty + (j0 + j : Nat))) buf false
    (fun j t hj ht => by
      have := hr.cell _ _ (hmem j t hj ht)
      rw [← this]
      congr 1
      rw [ex, ey]
      push_cast
      ring)
    (fun j t px hj ht => hr.size _ _ px (hmem j t hj ht))
    (by
      rw [hb.1]
      have : (j0 + n) * ts * k ≤ ts * ts * k := Nat.mul_le_mul_right _ (Nat.mul_le_mul_right _ nspec.1)
      have e : ts * k * ts = ts * ts * k := by ring
      omega)
  have inside : ∀ i j : Nat, i < ts → j < ts → (rect.Mem (tx + i) (ty + j) ↔ (j0 ≤ j ∧ j < j0 + n ∧ i0 ≤ i ∧ i < i0 + w)) := by
    intro i j hi hj
    unfold Rect.Mem
    omega
  refine ⟨buf', used, ?_, ⟨by rw [l]; exact hb.1, ?_⟩, ?_⟩
  · unfold oneTile
    simp only
    rw [← hi0, ← hj0, ← hsx, ← hsy, ← hw, ← hn]
    have e1 : (i0 : Int) * k = ((i0 * k : Nat) : Int) := by push_cast; ring
    have e2 : (ts : Int) * k = ((ts * k : Nat) : Int) := by push_cast; ring
    have e3 : (j0 : Int) * ((ts * k : Nat) : Int) = ((j0 * (ts * k) : Nat) : Int) := by push_cast; ring
    rw [e1, e2, e3, e]
  · intro i j hi hj
    have hq : j * ts + i < ts * ts := by
      have : (j + 1) * ts ≤ ts * ts := Nat.mul_le_mul_right _ hj
      rw [Nat.add_mul] at this
      omega
    by_cases hm : rect.Mem (tx + i) (ty + j)
    · have hin := (inside i j hi hj).1 hm
      have := b1 (j - j0) (i - i0) (by omega) (by omega)
      rw [show j0 + (j - j0) = j from by omega, show i0 + (i - i0) = i from by omega, hb.2 _ hq] at this
      exact this
    · have hin : ¬ _ := fun h => hm ((inside i j hi hj).2 h)
      rw [b2 j i hi (by omega), hb.2 _ hq]
      simp only
      rw [hr.outside _ _ hm]
      rfl
  · rw [u]
    constructor
    · rintro (h | ⟨j, t, h, h', h''⟩)
      · cases h
      · exact ⟨i0 + t, j0 + j, by omega, by omega, h''⟩
    · rintro ⟨i, j, hi, hj, hs⟩
      right
      simp only at hs
      by_cases hm : rect.Mem (tx + i) (ty + j)
      · have hin := (inside i j hi hj).1 hm
        refine ⟨j - j0, i - i0, by omega, by omega, ?_⟩
        rw [show j0 + (j - j0) = j from by omega, show i0 + (i - i0) = i from by omega]
        exact hs
      · rw [hr.outside _ _ hm] at hs
        cases hs

/-- The visited tiles that meet the area. -/
def Meets (ts : Nat) (rect : Rect) (p : Int × Int) : Prop :=
  rect.minX < p.1 + ts ∧ p.1 < rect.maxX ∧ rect.minY < p.2 + ts ∧ p.2 < rect.maxY

theorem storeTiles_spec {k dX ts : Nat} {cell : Int → Res (Option (List UInt8))} {rect : Rect} {c : Int → Int → Option (List UInt8)}
    (hr : Reads k dX cell rect c) (hX : rect.minX < rect.maxX) (hY : rect.minY < rect.maxY) : ∀ (ps : List (Int × Int)) (buf : List UInt8),
    (∀ p ∈ ps, Meets ts rect p) → BlankTile k ts buf →
    ∃ m, storeTiles k dX ts cell rect ps buf = .ok m ∧ (m.map Prod.fst).Sublist ps ∧ (∀ e ∈ m, HoldsTile k ts c e.1 e.2 ∧ Used ts c e.1) ∧
      ∀ p ∈ ps, Used ts c p → ∃ b, (p, b) ∈ m
  | [], buf, _, _ => ⟨[], rfl, List.Sublist.slnil, fun e h => (by cases h), fun p h => (by cases h)⟩
  | p :: ps, buf, hm, hb => by
    obtain ⟨m1, m2, m3, m4⟩ := hm p (List.mem_cons_self ..)
    obtain ⟨buf', used, e, hh, hu⟩ := oneTile_spec hr m1 m2 m3 m4 hX hY hb
    cases used with
    | true =>
      obtain ⟨m, r1, r2, r3, r4⟩ := storeTiles_spec hr hX hY ps (List.replicate (ts * k * ts) 0) (fun q hq => hm q (List.mem_cons_of_mem _ hq)) (blank_new k ts)
      refine ⟨(p, buf') :: m, ?_, ?_, ?_, ?_⟩
      · simp only [storeTiles, e, Res.ok_bind, r1, if_true]
      · exact r2.cons_cons p
      · intro x hx
        rcases List.mem_cons.1 hx with rfl | hx
        · exact ⟨hh, hu.1 rfl⟩
        · exact r3 x hx
      · intro q hq hq'
        rcases List.mem_cons.1 hq with rfl | hq
        · exact ⟨buf', List.mem_cons_self ..⟩
        · obtain ⟨b, hb⟩ := r4 q hq hq'
          exact ⟨b, List.mem_cons_of_mem _ hb⟩
    | false =>
      have hnu : ¬ Used ts c p := fun h => by cases hu.2 h
      have hb' : BlankTile k ts buf' := by
        refine ⟨hh.1, fun q hq => ?_⟩
        have h0 : 0 < ts := by
          rcases Nat.eq_zero_or_pos ts with h | h
          · rw [h] at hq; omega
          · exact h
        have := hh.2 (q % ts) (q / ts) (Nat.mod_lt _ h0) ((Nat.div_lt_iff_lt_mul h0).2 hq)
        rw [Nat.div_add_mod' q ts] at this
        rw [this]
        cases hc : c (p.1 + (q % ts : Nat)) (p.2 + (q / ts : Nat)) with
        | none => rfl
        | some v => exact absurd ⟨q % ts, q / ts, Nat.mod_lt _ h0, (Nat.div_lt_iff_lt_mul h0).2 hq, by rw [hc]; rfl⟩ hnu
      obtain ⟨m, r1, r2, r3, r4⟩ := storeTiles_spec hr hX hY ps buf' (fun q hq => hm q (List.mem_cons_of_mem _ hq)) hb'
      refine ⟨m, ?_, r2.cons p, r3, ?_⟩
      · simp only [storeTiles, e, Res.ok_bind, r1, if_false, Bool.false_eq_true]
      · intro q hq hq'
        rcases List.mem_cons.1 hq with rfl | hq
        · exact absurd hq' hnu
        · exact r4 q hq hq'

theorem storeAll_spec {k dX ts : Nat} {cell : Int → Res (Option (List UInt8))} {rect : Rect} {c : Int → Int → Option (List UInt8)}
    (hr : Reads k dX cell rect c) (hX : rect.minX < rect.maxX) (hY : rect.minY < rect.maxY) : ∀ (ws : List (List (Int × Int))),
    (∀ w ∈ ws, ∀ p ∈ w, Meets ts rect p) →
    ∃ m, storeAll k dX ts cell rect ws = .ok m ∧ (m.map Prod.fst).Sublist ws.flatten ∧ (∀ e ∈ m, HoldsTile k ts c e.1 e.2 ∧ Used ts c e.1) ∧
      ∀ p ∈ ws.flatten, Used ts c p → ∃ b, (p, b) ∈ m
  | [], _ => ⟨[], rfl, List.Sublist.slnil, fun e h => (by cases h), fun p h => (by cases h)⟩
  | w :: ws, hm => by
    obtain ⟨m, r1, r2, r3, r4⟩ := storeTiles_spec hr hX hY w _ (hm w (List.mem_cons_self ..)) (blank_new k ts)
    obtain ⟨m', s1, s2, s3, s4⟩ := storeAll_spec hr hX hY ws (fun v hv => hm v (List.mem_cons_of_mem _ hv))
    refine ⟨m ++ m', ?_, ?_, ?_, ?_⟩
    · simp only [storeAll, r1, s1, Res.ok_bind]
    · rw [List.map_append, List.flatten_cons]
      exact r2.append s2
    · intro e he
      rcases List.mem_append.1 he with h | h
      · exact r3 e h
      · exact s3 e h
    · intro p hp hu
      rw [List.flatten_cons] at hp
      rcases List.mem_append.1 hp with h | h
      · obtain ⟨b, hb⟩ := r4 p h hu
        exact ⟨b, List.mem_append_left _ hb⟩
      · obtain ⟨b, hb⟩ := s4 p h hu
        exact ⟨b, List.mem_append_right _ hb⟩

theorem tileWork_meets {procs ts : Nat} (hp : 1 ≤ procs) (hts : 1 ≤ ts) (rect : Rect) :
    ∀ w ∈ tileWork procs ts rect, ∀ p ∈ w, Meets ts rect p := by
  intro w hw p hpw
  obtain ⟨i, j, e, h1, h2⟩ := (mem_tileWork hp hts rect p).1 (List.mem_flatten.2 ⟨w, hw, hpw⟩)
  have key : ∀ v : Int, v < tileStart ts v + ts := by
    intro v
    obtain ⟨_, _, a, b⟩ := tileStart_spec hts v
    by_cases hv : 0 ≤ v
    · exact (a (Or.inl hv)).2
    · have := b (by omega)
      omega
  have kx := key rect.minX
  have ky := key rect.minY
  have c1 : (0 : Int) ≤ (i : Int) * ts := by positivity
  have c2 : (0 : Int) ≤ (j : Int) * ts := by positivity
  rw [e] at h1 h2 ⊢
  simp only at h1 h2
  refine ⟨?_, h1, ?_, h2⟩ <;> simp only <;> omega

end Psd
