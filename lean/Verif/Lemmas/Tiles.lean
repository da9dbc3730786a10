import Verif.Model.Tiles
import Verif.Spec.Grid
import Verif.Lemmas.Draw
import Mathlib.Tactic.Ring
import Mathlib.Tactic.Linarith

/-! Lemmas about the tile loops. -/

namespace Psd

theorem tileSteps_fuel (ts : Nat) (hts : 1 ≤ ts) (hi : Int) : ∀ (f f' : Nat) (t : Int), hi - t ≤ f → hi - t ≤ f' →
    tileSteps ts hi f t = tileSteps ts hi f' t
  | 0, 0, _, _, _ => rfl
  | 0, f' + 1, t, h, _ => by
    simp only [tileSteps]
    rw [if_neg (by push_cast at h; omega)]
  | f + 1, 0, t, _, h => by
    simp only [tileSteps]
    rw [if_neg (by push_cast at h; omega)]
  | f + 1, f' + 1, t, h, h' => by
    simp only [tileSteps]
    split
    · rw [tileSteps_fuel ts hts hi f f' (t + ts) (by push_cast at h; omega) (by push_cast at h'; omega)]
    · rfl

theorem tileLoop_stop {ts : Nat} {lo hi : Int} (h : hi ≤ lo) : tileLoop ts lo hi = [] := by
  unfold tileLoop
  have : (hi - lo).toNat = 0 := by omega
  rw [this]
  rfl

theorem tileLoop_step {ts : Nat} (hts : 1 ≤ ts) {lo hi : Int} (h : lo < hi) : tileLoop ts lo hi = lo :: tileLoop ts (lo + ts) hi := by
  unfold tileLoop
  obtain ⟨f, hf⟩ : ∃ f, (hi - lo).toNat = f + 1 := ⟨(hi - lo).toNat - 1, by omega⟩
  rw [hf]
  simp only [tileSteps, if_pos h]
  rw [tileSteps_fuel ts hts hi f (hi - (lo + ts)).toNat (lo + ts) (by omega) (by omega)]

theorem tileLoop_append {ts : Nat} (hts : 1 ≤ ts) : ∀ (q : Nat) (lo hi : Int), lo + q * ts ≤ hi →
    tileLoop ts lo (lo + q * ts) ++ tileLoop ts (lo + q * ts) hi = tileLoop ts lo hi
  | 0, lo, hi, _ => by
    rw [tileLoop_stop (by simp)]
    simp
  | q + 1, lo, hi, h => by
    have e : lo + ((q + 1 : Nat) : Int) * ts = (lo + ts) + q * ts := by push_cast; ring
    have hq : (0 : Int) ≤ (q : Int) * ts := by positivity
    rw [e] at h ⊢
    rw [tileLoop_step hts (by omega), tileLoop_step hts (show lo < hi by omega), List.cons_append, tileLoop_append hts q (lo + ts) hi h]

theorem mem_tileLoop {ts : Nat} (hts : 1 ≤ ts) (lo hi t : Int) : t ∈ tileLoop ts lo hi ↔ (∃ k : Nat, t = lo + k * ts) ∧ t < hi := by
  obtain ⟨n, hn⟩ : ∃ n, (hi - lo).toNat = n := ⟨_, rfl⟩
  induction n using Nat.strongRecOn generalizing lo with
  | _ n ih =>
    by_cases h : lo < hi
    · rw [tileLoop_step hts h, List.mem_cons, ih (hi - (lo + ts)).toNat (by omega) (lo + ts) rfl]
      constructor
      · rintro (rfl | ⟨⟨k, rfl⟩, h2⟩)
        · exact ⟨⟨0, by simp⟩, h⟩
        · exact ⟨⟨k + 1, by push_cast; ring⟩, h2⟩
      · rintro ⟨⟨k, rfl⟩, h2⟩
        cases k with
        | zero => left; simp
        | succ k => right; exact ⟨⟨k, by push_cast; ring⟩, h2⟩
    · rw [tileLoop_stop (by omega)]
      simp only [List.not_mem_nil, false_iff, not_and]
      rintro ⟨k, rfl⟩ h2
      have : (0 : Int) ≤ (k : Int) * ts := by positivity
      omega

theorem tileLoop_sorted {ts : Nat} (hts : 1 ≤ ts) (lo hi : Int) : (tileLoop ts lo hi).Pairwise (· < ·) := by
  obtain ⟨n, hn⟩ : ∃ n, (hi - lo).toNat = n := ⟨_, rfl⟩
  induction n using Nat.strongRecOn generalizing lo with
  | _ n ih =>
    by_cases h : lo < hi
    · rw [tileLoop_step hts h, List.pairwise_cons]
      refine ⟨?_, ih (hi - (lo + ts)).toNat (by omega) (lo + ts) rfl⟩
      intro t ht
      obtain ⟨⟨k, rfl⟩, _⟩ := (mem_tileLoop hts _ _ _).1 ht
      have : (0 : Int) ≤ (k : Int) * ts := by positivity
      omega
    · rw [tileLoop_stop (by omega)]
      exact .nil

theorem spawnRows_flat {ts : Nat} (hts : 1 ≤ ts) (q : Nat) (y1 : Int) : ∀ (i : Nat) (y0 : Int), y0 + i * (q * ts) ≤ y1 →
    (spawnRows (q * ts) y1 i y0).flatMap (fun r => tileLoop ts r.1 r.2) = tileLoop ts y0 y1
  | 0, y0, _ => by simp [spawnRows]
  | i + 1, y0, h => by
    have hi : (0 : Int) ≤ (i : Int) * (q * ts) := by positivity
    push_cast at h
    have h' : y0 + q * ts + i * (q * ts) ≤ y1 := by linarith
    simp only [spawnRows, List.flatMap_cons]
    rw [spawnRows_flat hts q y1 i (y0 + q * ts) h', tileLoop_append hts q y0 y1 (by omega)]

/-- The goroutines together walk over the rows of tiles as one would. -/
theorem rowRanges_flat (procs : Nat) (hp : 1 ≤ procs) {ts : Nat} (hts : 1 ≤ ts) (y0 y1 : Int) :
    (rowRanges procs ts y0 y1).flatMap (fun r => tileLoop ts r.1 r.2) = tileLoop ts y0 y1 := by
  unfold rowRanges
  simp only
  obtain ⟨n, hn⟩ : ∃ n, drawWorkers procs (Int.tdiv (y1 - y0) ts) = n := ⟨_, rfl⟩
  obtain ⟨w1, _, w3⟩ := drawWorkers_spec (Int.tdiv (y1 - y0) ts) procs hp
  rw [hn] at w1 w3 ⊢
  by_cases h1 : n = 1
  · subst h1
    simp [spawnRows]
  · have hy : 0 ≤ y1 - y0 := by
      by_contra hneg
      have h2 := w3 (by omega)
      have : Int.tdiv (y1 - y0) ts ≤ 0 := by
        have e : y1 - y0 = -(y0 - y1) := by omega
        rw [e, Int.neg_tdiv, Int.tdiv_eq_ediv_of_nonneg (by omega)]
        have : 0 ≤ (y0 - y1) / (ts : Int) := Int.ediv_nonneg (by omega) (by omega)
        omega
      omega
    obtain ⟨Y, hY⟩ : ∃ Y : Nat, y1 - y0 = Y := ⟨(y1 - y0).toNat, by omega⟩
    have e1 : Int.tdiv (y1 - y0) ts = ((Y / ts : Nat) : Int) := by
      rw [hY, Int.tdiv_eq_ediv_of_nonneg (by omega)]
      norm_cast
    have e2 : Int.tdiv (Int.tdiv (y1 - y0) ts) n * ts = (((Y / ts) / n : Nat) : Int) * ts := by
      rw [e1, Int.tdiv_eq_ediv_of_nonneg (by omega)]
      norm_cast
    rw [e2]
    apply spawnRows_flat hts
    have k1 : (n - 1) * ((Y / ts) / n) ≤ Y / ts := Nat.le_trans (Nat.mul_le_mul_right _ (Nat.sub_le n 1)) (by rw [Nat.mul_comm]; exact Nat.div_mul_le_self _ _)
    have k2 : Y / ts * ts ≤ Y := Nat.div_mul_le_self _ _
    have k3 : (n - 1) * ((Y / ts) / n * ts) ≤ Y := by
      rw [← Nat.mul_assoc]
      exact Nat.le_trans (Nat.mul_le_mul_right _ k1) k2
    have : ((n - 1 : Nat) : Int) * ((((Y / ts) / n : Nat) : Int) * ts) ≤ Y := by exact_mod_cast k3
    omega

/-- All tiles, in the order of a single goroutine. -/
theorem tileWork_flat (procs : Nat) (hp : 1 ≤ procs) {ts : Nat} (hts : 1 ≤ ts) (rect : Rect) :
    (tileWork procs ts rect).flatten = workerTiles ts (tileStart ts rect.minX) rect.maxX (tileStart ts rect.minY, rect.maxY) := by
  unfold tileWork workerTiles
  rw [← List.flatMap_def, ← rowRanges_flat procs hp hts (tileStart ts rect.minY) rect.maxY, List.flatMap_assoc]

theorem mem_workerTiles {ts : Nat} (x0 x1 : Int) (y p : Int × Int) :
    p ∈ workerTiles ts x0 x1 y ↔ p.1 ∈ tileLoop ts x0 x1 ∧ p.2 ∈ tileLoop ts y.1 y.2 := by
  unfold workerTiles
  simp only [List.mem_flatMap, List.mem_map]
  constructor
  · rintro ⟨ty, h1, tx, h2, rfl⟩
    exact ⟨h2, h1⟩
  · rintro ⟨h1, h2⟩
    exact ⟨p.2, h2, p.1, h1, rfl⟩

theorem workerTiles_nodup {ts : Nat} (hts : 1 ≤ ts) (x0 x1 : Int) (y : Int × Int) : (workerTiles ts x0 x1 y).Nodup := by
  unfold workerTiles
  rw [List.nodup_flatMap]
  constructor
  · intro ty _
    have := (tileLoop_sorted hts x0 x1)
    apply List.Nodup.map
    · intro a b hab
      exact (Prod.mk.inj hab).1
    · exact this.imp (fun h => Int.ne_of_lt h)
  · refine (tileLoop_sorted hts y.1 y.2).imp ?_
    intro a b hab p h1 h2
    simp only [List.mem_map] at h1 h2
    obtain ⟨_, _, rfl⟩ := h1
    obtain ⟨_, _, h⟩ := h2
    have := (Prod.mk.inj h).2
    omega

/-- Where the loops start. -/
theorem tileStart_spec {ts : Nat} (hts : 1 ≤ ts) (v : Int) : ∃ k : Int, tileStart ts v = k * ts ∧
    (0 ≤ v ∨ (ts : Int) ∣ v → tileStart ts v ≤ v ∧ v < tileStart ts v + ts) ∧ (v < 0 → v ≤ tileStart ts v) := by
  refine ⟨Int.tdiv v ts, rfl, ?_, ?_⟩
  · rintro (h | h)
    · unfold tileStart
      rw [Int.tdiv_eq_ediv_of_nonneg h]
      have h1 := Int.ediv_mul_le v (b := (ts : Int)) (by omega)
      have h2 := Int.lt_ediv_add_one_mul_self v (b := (ts : Int)) (by omega)
      rw [Int.add_mul] at h2
      omega
    · obtain ⟨q, rfl⟩ := h
      unfold tileStart
      have : Int.tdiv ((ts : Int) * q) ts = q := Int.mul_tdiv_cancel_left q (by omega)
      rw [this, Int.mul_comm]
      omega
  · intro h
    unfold tileStart
    have h1 : Int.tdiv v ts = -((-v) / ts) := by
      rw [← Int.neg_neg v, Int.neg_tdiv, Int.tdiv_eq_ediv_of_nonneg (by omega)]
      simp
    rw [h1]
    have := Int.ediv_mul_le (-v) (b := (ts : Int)) (by omega)
    rw [Int.neg_mul]
    omega

/-- A pixel after the edge is crossed into exactly if the loops reach it. -/
theorem crossed_iff {ts : Nat} (hts : 1 ≤ ts) {v x : Int} (h : v ≤ x) : Crossed ts v x ↔ tileStart ts v ≤ x := by
  obtain ⟨k, e, h1, h2⟩ := tileStart_spec hts v
  constructor
  · rintro (h0 | ⟨j, a, b⟩)
    · exact Int.le_trans (h1 (.inl h0)).1 h
    · by_cases h0 : 0 ≤ v
      · exact Int.le_trans (h1 (.inl h0)).1 h
      · unfold tileStart
        have hk : Int.tdiv v ts ≤ j := by
          have e1 : Int.tdiv v ts = -((-v) / ts) := by
            rw [← Int.neg_neg v, Int.neg_tdiv, Int.tdiv_eq_ediv_of_nonneg (by omega)]
            simp
          rw [e1]
          have : -j ≤ (-v) / ts := Int.le_ediv_of_mul_le (by omega) (by rw [Int.neg_mul]; omega)
          omega
        exact Int.le_trans (Int.mul_le_mul_of_nonneg_right hk (by omega)) b
  · intro h3
    by_cases h0 : 0 ≤ v
    · exact .inl h0
    · exact .inr ⟨k, by have := h2 (by omega); omega, by omega⟩

theorem Rect.keeps_iff {ts : Nat} (hts : 1 ≤ ts) {r : Rect} {x y : Int} :
    r.Keeps ts x y ↔ r.Mem x y ∧ tileStart ts r.minX ≤ x ∧ tileStart ts r.minY ≤ y := by
  unfold Rect.Keeps
  constructor
  · rintro ⟨a, b, c⟩
    exact ⟨a, (crossed_iff hts a.1).1 b, (crossed_iff hts a.2.2.1).1 c⟩
  · rintro ⟨a, b, c⟩
    exact ⟨a, (crossed_iff hts a.1).2 b, (crossed_iff hts a.2.2.1).2 c⟩

/-- If the edges are not negative or lie on the grid, all pixels are kept. -/
theorem Rect.keeps_of_grid {ts : Nat} {r : Rect} (hx : 0 ≤ r.minX ∨ (ts : Int) ∣ r.minX) (hy : 0 ≤ r.minY ∨ (ts : Int) ∣ r.minY) {x y : Int} :
    r.Keeps ts x y ↔ r.Mem x y := by
  have key : ∀ v x : Int, v ≤ x → 0 ≤ v ∨ (ts : Int) ∣ v → Crossed ts v x := by
    rintro v x h (h0 | ⟨k, hk⟩)
    · exact .inl h0
    · exact .inr ⟨k, by rw [hk, Int.mul_comm], by rw [Int.mul_comm, ← hk]; exact h⟩
  exact ⟨fun h => h.1, fun h => ⟨h, key _ _ h.1 hx, key _ _ h.2.2.1 hy⟩⟩

end Psd
