import Verif.Lemmas.Tiles
import Mathlib.Data.Nat.Find

/-!
# Theorems C64 and C66: tiles of an area, cells of a sheet
-/

namespace Psd

/-- The pixel `(x, y)` lies in the tile of side `ts` at `p`. -/
def InTile (ts : Nat) (p : Int × Int) (x y : Int) : Prop := p.1 ≤ x ∧ x < p.1 + ts ∧ p.2 ≤ y ∧ y < p.2 + ts

/-! ## C66 -/

theorem exists_tile {ts : Nat} (hts : 1 ≤ ts) {a x : Int} (h : a ≤ x) : ∃ k : Nat, a + k * ts ≤ x ∧ x < a + k * ts + ts := by
  refine ⟨((x - a) / ts).toNat, ?_⟩
  have h0 : 0 ≤ (x - a) / (ts : Int) := Int.ediv_nonneg (by omega) (by omega)
  have h1 := Int.ediv_mul_le (x - a) (b := (ts : Int)) (by omega)
  have h2 := Int.lt_ediv_add_one_mul_self (x - a) (b := (ts : Int)) (by omega)
  rw [Int.add_mul] at h2
  rw [Int.toNat_of_nonneg h0]
  omega

theorem tile_unique {ts : Nat} {a x : Int} {k j : Nat} (h1 : a + k * ts ≤ x) (h2 : x < a + k * ts + ts) (h3 : a + j * ts ≤ x)
    (h4 : x < a + j * ts + ts) : k = j := by
  rcases Nat.lt_trichotomy k j with h | h | h
  · have : (k + 1) * ts ≤ j * ts := Nat.mul_le_mul_right _ h
    have : ((k : Int) + 1) * ts ≤ j * ts := by exact_mod_cast this
    rw [Int.add_mul] at this
    omega
  · exact h
  · have : (j + 1) * ts ≤ k * ts := Nat.mul_le_mul_right _ h
    have : ((j : Int) + 1) * ts ≤ k * ts := by exact_mod_cast this
    rw [Int.add_mul] at this
    omega

/-- The tiles that all goroutines visit. -/
theorem mem_tileWork {procs ts : Nat} (hp : 1 ≤ procs) (hts : 1 ≤ ts) (rect : Rect) (p : Int × Int) :
    p ∈ (tileWork procs ts rect).flatten ↔ ∃ i j : Nat, p = (tileStart ts rect.minX + i * ts, tileStart ts rect.minY + j * ts) ∧
      p.1 < rect.maxX ∧ p.2 < rect.maxY := by
  rw [tileWork_flat procs hp hts, mem_workerTiles, mem_tileLoop hts, mem_tileLoop hts]
  constructor
  · rintro ⟨⟨⟨i, hi⟩, h1⟩, ⟨j, hj⟩, h2⟩
    exact ⟨i, j, Prod.ext hi hj, h1, h2⟩
  · rintro ⟨i, j, e, h1, h2⟩
    exact ⟨⟨⟨i, by rw [e]⟩, h1⟩, ⟨j, by rw [e]⟩, h2⟩

/-- **C66** (in part) For every number of processors and tile size, and every area: no tile is visited twice, by the same or by another goroutine;
every pixel of the area lies in exactly one visited tile, if it is not left of the first grid line after a negative left edge, nor above the first one after a
negative upper edge, as no pixel of the canvas is; every visited tile lies on the tile grid and, if the area is not empty, meets it.

Missing: the other pixels, which are in no visited tile (`C66_negative_edge_missed`). -/
theorem C66_each_tile_once_partial (procs ts : Nat) (hp : 1 ≤ procs) (hts : 1 ≤ ts) (rect : Rect) :
    (tileWork procs ts rect).flatten.Nodup ∧
    (∀ x y, rect.Keeps ts x y → ∃ p ∈ (tileWork procs ts rect).flatten, InTile ts p x y ∧
      ∀ q ∈ (tileWork procs ts rect).flatten, InTile ts q x y → q = p) ∧
    (∀ p ∈ (tileWork procs ts rect).flatten, (ts : Int) ∣ p.1 ∧ (ts : Int) ∣ p.2 ∧
      (rect.empty = false → ∃ x y, rect.Mem x y ∧ InTile ts p x y)) := by
  obtain ⟨kx, ex, hx', hx''⟩ := tileStart_spec hts rect.minX
  obtain ⟨ky, ey, hy', hy''⟩ := tileStart_spec hts rect.minY
  have kx' : rect.minX < tileStart ts rect.minX + ts := by
    by_cases h : 0 ≤ rect.minX
    · exact (hx' (.inl h)).2
    · have := hx'' (by omega)
      omega
  have ky' : rect.minY < tileStart ts rect.minY + ts := by
    by_cases h : 0 ≤ rect.minY
    · exact (hy' (.inl h)).2
    · have := hy'' (by omega)
      omega
  refine ⟨?_, ?_, ?_⟩
  · rw [tileWork_flat procs hp hts]
    exact workerTiles_nodup hts _ _ _
  · intro x y hk
    obtain ⟨hm, hmx, hmy⟩ := (Rect.keeps_iff hts).1 hk
    unfold Rect.Mem at hm
    obtain ⟨i, i1, i2⟩ := exists_tile hts hmx
    obtain ⟨j, j1, j2⟩ := exists_tile hts hmy
    refine ⟨(tileStart ts rect.minX + i * ts, tileStart ts rect.minY + j * ts), (mem_tileWork hp hts rect _).2 ⟨i, j, rfl, ?_, ?_⟩,
      ⟨i1, i2, j1, j2⟩, ?_⟩
    · show tileStart ts rect.minX + i * ts < rect.maxX
      omega
    · show tileStart ts rect.minY + j * ts < rect.maxY
      omega
    · intro q hq ⟨q1, q2, q3, q4⟩
      obtain ⟨i', j', rfl, _, _⟩ := (mem_tileWork hp hts rect _).1 hq
      rw [tile_unique i1 i2 q1 q2, tile_unique j1 j2 q3 q4]
  · intro p hp'
    obtain ⟨i, j, rfl, h1, h2⟩ := (mem_tileWork hp hts rect _).1 hp'
    simp only at h1 h2
    have c1 : (0 : Int) ≤ (i : Int) * ts := by positivity
    have c2 : (0 : Int) ≤ (j : Int) * ts := by positivity
    refine ⟨⟨kx + i, by rw [ex]; ring⟩, ⟨ky + j, by rw [ey]; ring⟩, ?_⟩
    intro hne
    rw [Rect.nonempty_iff] at hne
    refine ⟨max rect.minX (tileStart ts rect.minX + i * ts), max rect.minY (tileStart ts rect.minY + j * ts), ?_, ?_⟩
    · unfold Rect.Mem
      omega
    · unfold InTile
      dsimp only
      omega

/-- Three goroutines, an area that starts inside a tile. -/
example : tileWork 3 4 ⟨5, 2, 10, 30⟩ = [[(4, 0), (8, 0), (4, 4), (8, 4)], [(4, 8), (8, 8), (4, 12), (8, 12)],
    [(4, 16), (8, 16), (4, 20), (8, 20), (4, 24), (8, 24), (4, 28), (8, 28)]] := by decide +kernel

/-- On an area that starts at (-5, 0) the first column of tiles is that of the tiles at -4: the pixel (-4, 2) is kept, (-5, 2) is not. -/
example : tileWork 1 4 ⟨-5, 0, 2, 4⟩ = [[(-4, 0), (0, 0)]] ∧ (⟨-5, 0, 2, 4⟩ : Rect).Keeps 4 (-4) 2 ∧ ¬ (⟨-5, 0, 2, 4⟩ : Rect).Keeps 4 (-5) 2 ∧
    (⟨-5, 0, 2, 4⟩ : Rect).Mem (-5) 2 := by decide +kernel

/-- **C66** is false for an area with a negative edge off the tile grid: the pixels before the first grid line are in no tile, because Go's division rounds
towards zero. These are the first column at least. -/
theorem C66_negative_edge_missed (procs ts : Nat) (hp : 1 ≤ procs) (hts : 1 ≤ ts) (rect : Rect) :
    (∀ x y, rect.Mem x y → ¬ rect.Keeps ts x y → ∀ p ∈ (tileWork procs ts rect).flatten, ¬ InTile ts p x y) ∧
    (rect.minX < 0 → ¬ (ts : Int) ∣ rect.minX → ∀ y, ¬ rect.Keeps ts rect.minX y) ∧
    (rect.minY < 0 → ¬ (ts : Int) ∣ rect.minY → ∀ x, ¬ rect.Keeps ts x rect.minY) := by
  have key : ∀ v : Int, v < 0 → ¬ (ts : Int) ∣ v → ¬ Crossed ts v v := by
    rintro v h hd (h0 | ⟨k, h1, h2⟩)
    · omega
    · exact hd ⟨k, by rw [Int.mul_comm]; omega⟩
  refine ⟨?_, fun h hd y hk => key _ h hd hk.2.1, fun h hd x hk => key _ h hd hk.2.2⟩
  intro x y hmem hk p hm hin
  obtain ⟨i, j, rfl, _, _⟩ := (mem_tileWork hp hts rect _).1 hm
  have c1 : (0 : Int) ≤ (i : Int) * ts := by positivity
  have c2 : (0 : Int) ≤ (j : Int) * ts := by positivity
  obtain ⟨h1, -, h2, -⟩ := hin
  simp only at h1 h2
  exact hk ((Rect.keeps_iff hts).2 ⟨hmem, by omega, by omega⟩)

example : (⟨-1, 0, 5, 5⟩ : Rect).Mem (-1) 3 ∧ ¬ ((4 : Nat) : Int) ∣ -1 := by decide

/-! ## C64 -/

theorem sheetSide_spec (n size k : Nat) : ∀ (d j : Nat), j + d = k → n ≤ (2 ^ k / size) * (2 ^ k / size) →
    (∀ i, j ≤ i → i < k → (2 ^ i / size) * (2 ^ i / size) < n) → ∀ fuel, d < fuel → sheetSide n size fuel (2 ^ j) = some (2 ^ k)
  | 0, j, hj, hk, hlt, fuel, hf => by
    obtain ⟨f, rfl⟩ : ∃ f, fuel = f + 1 := ⟨fuel - 1, by omega⟩
    have : j = k := by omega
    subst this
    simp [sheetSide, hk]
  | d + 1, j, hj, hk, hlt, fuel, hf => by
    obtain ⟨f, rfl⟩ : ∃ f, fuel = f + 1 := ⟨fuel - 1, by omega⟩
    have h1 := hlt j (Nat.le_refl _) (by omega)
    have e : 2 ^ j + 2 ^ j = 2 ^ (j + 1) := by rw [Nat.pow_succ]; omega
    simp only [sheetSide]
    rw [if_neg (by omega), e]
    exact sheetSide_spec n size k d (j + 1) (by omega) hk (fun i h h' => hlt i (by omega) h') f (by omega)

theorem spawnCells_flat {α : Type} (f : Nat → α) (step n : Nat) : ∀ (i idx : Nat), idx + i * step ≤ n →
    (spawnCells step n i idx).flatMap (fun r => (List.range' r.1 (r.2 - r.1)).map f) = (List.range' idx (n - idx)).map f
  | 0, idx, _ => by simp [spawnCells]
  | i + 1, idx, h => by
    rw [Nat.add_mul, Nat.one_mul] at h
    simp only [spawnCells, List.flatMap_cons]
    rw [spawnCells_flat f step n i (idx + step) (by omega), ← List.map_append]
    congr 1
    have e1 : idx + step - idx = step := by omega
    have e2 : n - idx = step + (n - (idx + step)) := by omega
    rw [e1, e2, ← List.range'_append]
    simp

theorem sheetCells_eq (procs : Nat) (hp : 1 ≤ procs) (t size n : Nat) :
    sheetCells procs t size n = (List.range n).map fun i => (i, sheetCell t size i) := by
  unfold sheetCells
  obtain ⟨w1, _, _⟩ := drawWorkers_spec (n : Int) procs hp
  rw [spawnCells_flat]
  · simp [List.range_eq_range']
  · have : (drawWorkers procs n - 1) * (n / drawWorkers procs n) ≤ n :=
      Nat.le_trans (Nat.mul_le_mul_right _ (Nat.sub_le _ 1)) (by rw [Nat.mul_comm]; exact Nat.div_mul_le_self _ _)
    omega

/-- **C64** For every number `n` of thumbnails and every size:
* the search for the side of the sheet ends, and finds the least power of two into which `n` squares of that size fit
  side by side;
* every thumbnail gets one cell, of the requested size, inside the sheet;
* no two cells have a point in common;
* the thumbnail of any picture fits into its cell. -/
theorem C64_sheet (procs n size : Nat) (hp : 1 ≤ procs) (hs : 1 ≤ size) : ∃ k,
    (∀ fuel, k < fuel → sheetSide n size fuel 1 = some (2 ^ k)) ∧
    n ≤ (2 ^ k / size) * (2 ^ k / size) ∧ (∀ j, j < k → (2 ^ j / size) * (2 ^ j / size) < n) ∧
    (sheetCells procs (2 ^ k) size n).map Prod.fst = List.range n ∧
    (∀ e ∈ sheetCells procs (2 ^ k) size n, e.2.dx = size ∧ e.2.dy = size ∧ 0 ≤ e.2.minX ∧ 0 ≤ e.2.minY ∧
      e.2.maxX ≤ ((2 ^ k : Nat) : Int) ∧ e.2.maxY ≤ ((2 ^ k : Nat) : Int)) ∧
    (∀ e ∈ sheetCells procs (2 ^ k) size n, ∀ e' ∈ sheetCells procs (2 ^ k) size n, e.1 ≠ e'.1 →
      ∀ x y, e.2.Mem x y → ¬ e'.2.Mem x y) ∧
    (∀ e ∈ sheetCells procs (2 ^ k) size n, ∀ sw sh, 1 ≤ sw → 1 ≤ sh → ∀ x y,
      (thumbPlace size e.2 (thumbSize size sw sh)).Mem x y → e.2.Mem x y) := by
  have hex : ∃ k, n ≤ (2 ^ k / size) * (2 ^ k / size) := by
    refine ⟨size * n, ?_⟩
    have h1 : size * n ≤ 2 ^ (size * n) := Nat.le_of_lt Nat.lt_two_pow_self
    have h2 : n ≤ 2 ^ (size * n) / size := by
      rw [Nat.le_div_iff_mul_le (by omega), Nat.mul_comm]
      exact h1
    calc n ≤ n * n := Nat.le_mul_self n
      _ ≤ _ := Nat.mul_le_mul h2 h2
  obtain ⟨k, hk, hmin⟩ : ∃ k, n ≤ (2 ^ k / size) * (2 ^ k / size) ∧ ∀ j, j < k → (2 ^ j / size) * (2 ^ j / size) < n := by
    refine ⟨Nat.find hex, Nat.find_spec hex, ?_⟩
    intro j hj
    have := Nat.find_min hex hj
    omega
  have hcell : ∀ e ∈ sheetCells procs (2 ^ k) size n, e.1 < n ∧ e.2 = sheetCell (2 ^ k) size e.1 := by
    intro e he
    rw [sheetCells_eq procs hp, List.mem_map] at he
    obtain ⟨i, hi, rfl⟩ := he
    exact ⟨List.mem_range.1 hi, rfl⟩
  obtain ⟨iw, hiw⟩ : ∃ iw, 2 ^ k / size = iw := ⟨_, rfl⟩
  have hT : iw * size ≤ 2 ^ k := by rw [← hiw]; exact Nat.div_mul_le_self _ _
  rw [hiw] at hk
  -- the column and row of a cell
  have col : ∀ i, i < n → i - i / iw * iw < iw ∧ i / iw < iw ∧ i / iw * iw ≤ i ∧ 1 ≤ iw := by
    intro i hi
    have h1 : 1 ≤ iw := by
      rcases Nat.eq_zero_or_pos iw with h | h
      · rw [h] at hk
        omega
      · exact h
    have h2 := Nat.div_mul_le_self i iw
    have h3 := Nat.lt_div_mul_add (a := i) h1
    refine ⟨by omega, ?_, h2, h1⟩
    rw [Nat.div_lt_iff_lt_mul h1]
    omega
  have bnd : ∀ a : Nat, a < iw → (a * size + size : Int) ≤ ((2 ^ k : Nat) : Int) := by
    intro a ha
    have h1 : (a + 1) * size ≤ iw * size := Nat.mul_le_mul_right _ ha
    rw [Nat.add_mul, Nat.one_mul] at h1
    have : a * size + size ≤ 2 ^ k := by omega
    exact_mod_cast this
  refine ⟨k, ?_, by rw [hiw]; exact hk, hmin, ?_, ?_, ?_, ?_⟩
  · intro fuel hf
    have := sheetSide_spec n size k k 0 (by omega) (by rw [hiw]; exact hk) (fun i _ h => hmin i h) fuel hf
    simpa using this
  · rw [sheetCells_eq procs hp, List.map_map]
    have : (Prod.fst ∘ fun i => (i, sheetCell (2 ^ k) size i)) = id := rfl
    rw [this, List.map_id]
  · intro e he
    obtain ⟨hi, ee⟩ := hcell e he
    obtain ⟨c1, c2, c3, c4⟩ := col e.1 hi
    rw [ee]
    simp only [sheetCell, hiw, Rect.dx, Rect.dy]
    have b1 := bnd _ c1
    have b2 := bnd _ c2
    push_cast at b1 b2 ⊢
    refine ⟨by ring, by ring, by positivity, by positivity, b1, b2⟩
  · intro e he e' he' hne x y h h'
    obtain ⟨hi, ee⟩ := hcell e he
    obtain ⟨hi', ee'⟩ := hcell e' he'
    obtain ⟨c1, c2, c3, c4⟩ := col e.1 hi
    obtain ⟨d1, d2, d3, d4⟩ := col e'.1 hi'
    rw [ee] at h
    rw [ee'] at h'
    simp only [sheetCell, hiw, Rect.Mem] at h h'
    have u1 := tile_unique (a := 0) (ts := size) (x := x) (k := e.1 - e.1 / iw * iw) (j := e'.1 - e'.1 / iw * iw)
      (by push_cast at h ⊢; omega) (by push_cast at h ⊢; omega) (by push_cast at h' ⊢; omega) (by push_cast at h' ⊢; omega)
    have u2 := tile_unique (a := 0) (ts := size) (x := y) (k := e.1 / iw) (j := e'.1 / iw)
      (by push_cast at h ⊢; omega) (by push_cast at h ⊢; omega) (by push_cast at h' ⊢; omega) (by push_cast at h' ⊢; omega)
    apply hne
    rw [u2] at u1 c3
    omega
  · intro e he sw sh h1 h2 x y hm
    obtain ⟨hi, ee⟩ := hcell e he
    have e1 : (e.2.maxX : Int) = e.2.minX + size ∧ e.2.maxY = e.2.minY + size := by
      rw [ee]
      exact ⟨rfl, rfl⟩
    have fit : (thumbSize size sw sh).1 ≤ size ∧ (thumbSize size sw sh).2 ≤ size := by
      unfold thumbSize
      split
      · refine ⟨Nat.le_refl _, ?_⟩
        dsimp only
        apply Nat.div_le_of_le_mul
        exact Nat.mul_le_mul_right _ (by omega)
      · refine ⟨?_, Nat.le_refl _⟩
        dsimp only
        apply Nat.div_le_of_le_mul
        exact Nat.mul_le_mul_right _ (by omega)
    obtain ⟨d, hd⟩ : ∃ d, thumbSize size sw sh = d := ⟨_, rfl⟩
    rw [hd] at hm fit
    unfold thumbPlace Rect.Mem at hm
    simp only at hm
    have t1 : Int.tdiv ((size : Int) - d.1) 2 = ((size : Int) - d.1) / 2 := Int.tdiv_eq_ediv_of_nonneg (by omega)
    have t2 : Int.tdiv ((size : Int) - d.2) 2 = ((size : Int) - d.2) / 2 := Int.tdiv_eq_ediv_of_nonneg (by omega)
    rw [t1, t2] at hm
    unfold Rect.Mem
    omega

/-- Five thumbnails of side 3 need a sheet of side 16. -/
example : sheetSide 5 3 10 1 = some 16 ∧ sheetCells 2 16 3 5 = [(0, ⟨0, 0, 3, 3⟩), (1, ⟨3, 0, 6, 3⟩), (2, ⟨6, 0, 9, 3⟩),
    (3, ⟨9, 0, 12, 3⟩), (4, ⟨12, 0, 15, 3⟩)] := by decide +kernel

end Psd
