import Verif.Lemmas.Prog
import Mathlib.Tactic.Ring
import Mathlib.Tactic.Linarith
import Mathlib.Data.List.Nodup

/-!
# The walk over the pixels

Supporting facts for C48, C49 and C50: clipping, addresses, the order in which the loops visit the points, and the split
of the rows over goroutines.
-/

namespace Psd

/-! ## Rectangles and clipping -/

theorem Rect.not_mem_of_empty {r : Rect} (h : r.empty = true) (x y : Int) : ¬ r.Mem x y := by
  unfold Rect.empty at h
  unfold Rect.Mem
  simp at h
  omega

theorem Rect.nonempty_iff {r : Rect} : r.empty = false ↔ r.minX < r.maxX ∧ r.minY < r.maxY := by
  unfold Rect.empty
  simp

theorem Rect.intersect_mem (r s : Rect) (x y : Int) : (r.intersect s).Mem x y ↔ r.Mem x y ∧ s.Mem x y := by
  unfold Rect.intersect
  simp only
  split
  · rename_i h
    have h1 : ¬ Rect.zero.Mem x y := Rect.not_mem_of_empty (by decide) x y
    have h2 := Rect.not_mem_of_empty h x y
    unfold Rect.Mem at *
    simp only at *
    omega
  · unfold Rect.Mem
    simp only
    omega

theorem Rect.add_mem (r : Rect) (dx dy x y : Int) : (r.add dx dy).Mem x y ↔ r.Mem (x - dx) (y - dy) := by
  unfold Rect.add Rect.Mem
  simp only
  omega

theorem clip_mem (dst r src : Rect) (spX spY : Int) (mask : Option Rect) (mpX mpY : Int) (x y : Int) :
    (clip dst r src spX spY mask mpX mpY).r.Mem x y ↔
      r.Mem x y ∧ dst.Mem x y ∧ src.Mem (x - r.minX + spX) (y - r.minY + spY) ∧
      ∀ b, mask = some b → b.Mem (x - r.minX + mpX) (y - r.minY + mpY) := by
  have e : (clip dst r src spX spY mask mpX mpY).r = (match mask with
    | none => (r.intersect dst).intersect (src.add (r.minX - spX) (r.minY - spY))
    | some b => ((r.intersect dst).intersect (src.add (r.minX - spX) (r.minY - spY))).intersect
        (b.add (r.minX - mpX) (r.minY - mpY))) := by
    unfold clip
    simp only
    cases mask <;> (simp only; split <;> rfl)
  rw [e]
  have f : ∀ (a b c : Int), a - (b - c) = a - b + c := by intros; omega
  cases mask with
  | none =>
    simp only
    rw [Rect.intersect_mem, Rect.intersect_mem, Rect.add_mem, f, f]
    constructor
    · rintro ⟨⟨h1, h2⟩, h3⟩; exact ⟨h1, h2, h3, by intro b h; cases h⟩
    · rintro ⟨h1, h2, h3, _⟩; exact ⟨⟨h1, h2⟩, h3⟩
  | some b =>
    simp only
    rw [Rect.intersect_mem, Rect.intersect_mem, Rect.intersect_mem, Rect.add_mem, Rect.add_mem, f, f, f, f]
    constructor
    · rintro ⟨⟨⟨h1, h2⟩, h3⟩, h4⟩; exact ⟨h1, h2, h3, by intro b' h; cases h; exact h4⟩
    · rintro ⟨h1, h2, h3, h4⟩; exact ⟨⟨⟨h1, h2⟩, h3⟩, h4 b rfl⟩

theorem clip_shift (dst r src : Rect) (spX spY : Int) (mask : Option Rect) (mpX mpY : Int) :
    let c := clip dst r src spX spY mask mpX mpY
    c.spX = spX + (c.r.minX - r.minX) ∧ c.spY = spY + (c.r.minY - r.minY) ∧
    c.mpX = mpX + (c.r.minX - r.minX) ∧ c.mpY = mpY + (c.r.minY - r.minY) := by
  have key : ∀ (q : Rect),
      let c : Clipped := if q.minX - r.minX = 0 ∧ q.minY - r.minY = 0 then ⟨q, spX, spY, mpX, mpY⟩
        else ⟨q, spX + (q.minX - r.minX), spY + (q.minY - r.minY), mpX + (q.minX - r.minX), mpY + (q.minY - r.minY)⟩
      c.spX = spX + (c.r.minX - r.minX) ∧ c.spY = spY + (c.r.minY - r.minY) ∧
      c.mpX = mpX + (c.r.minX - r.minX) ∧ c.mpY = mpY + (c.r.minY - r.minY) := by
    intro q
    simp only
    split
    · simp only; omega
    · exact ⟨rfl, rfl, rfl, rfl⟩
  cases mask <;> exact key _

/-! ## Addresses -/

theorem pixOffset_bounds {n : Nat} {im : Raw} (hok : im.Ok n) {x y : Int} (h : im.rect.Mem x y) :
    0 ≤ im.stride ∧ 0 ≤ (y - im.rect.minY) * im.stride ∧ im.pixOffset n x y + n ≤ im.pix.len ∧
    im.rect.dx * n ≤ im.stride := by
  obtain ⟨h1, h2, h3, h4⟩ := h
  obtain ⟨hs, hl⟩ := hok (by rw [Rect.nonempty_iff]; omega)
  have hn : (0 : Int) ≤ n := Int.natCast_nonneg n
  have hdx : 0 ≤ im.rect.dx := by unfold Rect.dx; omega
  have hs0 : 0 ≤ im.stride := by
    have := mul_nonneg hdx hn
    omega
  have hy : 0 ≤ (y - im.rect.minY) * im.stride := mul_nonneg (by omega) hs0
  refine ⟨hs0, hy, ?_, hs⟩
  unfold Raw.pixOffset
  have a1 : (y - im.rect.minY) * im.stride ≤ (im.rect.dy - 1) * im.stride :=
    mul_le_mul_of_nonneg_right (by unfold Rect.dy; omega) hs0
  have a2 : (x - im.rect.minX + 1) * (n : Int) ≤ im.rect.dx * n := mul_le_mul_of_nonneg_right (by unfold Rect.dx; omega) hn
  have a3 : (x - im.rect.minX + 1) * (n : Int) = (x - im.rect.minX) * n + n := by ring
  omega

theorem pixOffset_apart {n : Nat} {im : Raw} (hok : im.Ok n) {x y x' y' : Int} (h : im.rect.Mem x y) (h' : im.rect.Mem x' y')
    (hne : (x, y) ≠ (x', y')) (hle : y < y' ∨ y = y' ∧ x < x') : im.pixOffset n x y + n ≤ im.pixOffset n x' y' := by
  obtain ⟨hs0, hy, _, hs⟩ := pixOffset_bounds hok h
  obtain ⟨h1, h2, h3, h4⟩ := h
  obtain ⟨h5, h6, h7, h8⟩ := h'
  have hn : (0 : Int) ≤ n := Int.natCast_nonneg n
  unfold Raw.pixOffset
  rcases hle with hlt | ⟨rfl, hlt⟩
  · have a1 : (y + 1 - im.rect.minY) * im.stride ≤ (y' - im.rect.minY) * im.stride :=
      mul_le_mul_of_nonneg_right (by omega) hs0
    have a2 : (y + 1 - im.rect.minY) * im.stride = (y - im.rect.minY) * im.stride + im.stride := by ring
    have a3 : (x - im.rect.minX + 1) * (n : Int) ≤ im.rect.dx * n := mul_le_mul_of_nonneg_right (by unfold Rect.dx; omega) hn
    have a4 : (x - im.rect.minX + 1) * (n : Int) = (x - im.rect.minX) * n + n := by ring
    have a5 : 0 ≤ (x' - im.rect.minX) * (n : Int) := mul_nonneg (by omega) hn
    omega
  · have a3 : (x - im.rect.minX + 1) * (n : Int) ≤ (x' - im.rect.minX) * n := mul_le_mul_of_nonneg_right (by omega) hn
    have a4 : (x - im.rect.minX + 1) * (n : Int) = (x - im.rect.minX) * n + n := by ring
    omega

/-- The bytes of a pixel of `n` bytes. -/
def Raw.cells (im : Raw) (n : Nat) (x y : Int) : List Addr :=
  (List.range n).map fun (t : Nat) => im.pix.addr (im.pixOffset n x y + t)

theorem four_cells {k : PixKind} {im : Raw} {x y : Int} (h : im.rect.Mem x y) : (DImg.four k im).cells x y = im.cells 4 x y := by
  show (if im.rect.Mem x y then _ else _) = _
  rw [if_pos h]
  rfl

theorem alpha_cells {im : Raw} {x y : Int} (h : im.rect.Mem x y) : (DImg.alpha im).cells x y = im.cells 1 x y := by
  show (if im.rect.Mem x y then _ else _) = _
  rw [if_pos h]
  simp [Raw.cells, List.range_succ]

theorem raw_nodup (im : Raw) (n : Nat) (x y : Int) : (im.cells n x y).Nodup := by
  unfold Raw.cells
  refine List.Nodup.map ?_ List.nodup_range
  intro a b h
  simp only [Sl.addr, Prod.mk.injEq, true_and] at h
  omega

theorem raw_disjoint {n : Nat} {im : Raw} (hok : im.Ok n) {x y x' y' : Int} (h : im.rect.Mem x y) (h' : im.rect.Mem x' y')
    (hne : (x, y) ≠ (x', y')) : ∀ a ∈ im.cells n x y, a ∉ im.cells n x' y' := by
  unfold Raw.cells Sl.addr
  intro a ha ha'
  simp only [List.mem_map, List.mem_range] at ha ha'
  obtain ⟨t, ht, rfl⟩ := ha
  obtain ⟨t', ht', e⟩ := ha'
  simp only [Prod.mk.injEq, true_and] at e
  have hc : (y < y' ∨ y = y' ∧ x < x') ∨ (y' < y ∨ y' = y ∧ x' < x) := by
    rcases lt_trichotomy y y' with g | g | g
    · exact Or.inl (Or.inl g)
    · subst g
      rcases lt_trichotomy x x' with g | g | g
      · exact Or.inl (Or.inr ⟨rfl, g⟩)
      · subst g; exact absurd rfl hne
      · exact Or.inr (Or.inr ⟨rfl, g⟩)
    · exact Or.inr (Or.inl g)
  rcases hc with hc | hc
  · have := pixOffset_apart hok h h' hne hc
    omega
  · have := pixOffset_apart hok h' h (Ne.symm hne) hc
    omega

theorem DImg.Ok.nodup {im : DImg} (hok : im.Ok) {x y : Int} (h : im.bounds.Mem x y) : (im.cells x y).Nodup := by
  cases im with
  | four k im => rw [four_cells h]; exact raw_nodup _ _ _ _
  | alpha im => rw [alpha_cells h]; exact raw_nodup _ _ _ _
  | uniform c => exact List.nodup_nil
  | other o => exact (hok x y h).1

theorem DImg.Ok.disjoint {im : DImg} (hok : im.Ok) {x y x' y' : Int} (h : im.bounds.Mem x y) (h' : im.bounds.Mem x' y')
    (hne : (x, y) ≠ (x', y')) : ∀ a ∈ im.cells x y, a ∉ im.cells x' y' := by
  cases im with
  | four k im => rw [four_cells h, four_cells h']; exact raw_disjoint hok h h' hne
  | alpha im => rw [alpha_cells h, alpha_cells h']; exact raw_disjoint hok h h' hne
  | uniform c => intro a ha; exact absurd ha (by simp [DImg.cells])
  | other o => exact (hok x y h).2.2 x' y' h' hne

theorem storePx_ok (k : PixKind) (c : RGBA32) : ∃ p, storePx k c = .ok p := by
  cases k with
  | rgba => exact ⟨_, rfl⟩
  | nrgba =>
    unfold storePx
    simp only
    split
    · exact ⟨_, rfl⟩
    · split
      · exact ⟨_, rfl⟩
      · rename_i h
        simp only [divU32, if_neg h]
        exact ⟨_, rfl⟩

theorem raw_length (im : Raw) (n : Nat) (x y : Int) : (im.cells n x y).length = n := by
  simp [Raw.cells]

theorem DImg.Ok.encLength {im : DImg} (hok : im.Ok) {x y : Int} (h : im.bounds.Mem x y) (c : RGBA32) :
    (im.enc c).length = (im.cells x y).length := by
  cases im with
  | four k im =>
    rw [four_cells h, raw_length]
    obtain ⟨p, hp⟩ := storePx_ok k c
    show (match storePx k c with | .ok p => p.bytes | _ => []).length = 4
    rw [hp]
    rfl
  | alpha im => rw [alpha_cells h, raw_length]; rfl
  | uniform c => rfl
  | other o => exact (hok x y h).2.1 c

/-! ## Points in the order of the loops -/

/-- The `u`-th pixel of the `t`-th row visited; `b`: backwards. -/
def pt (b : Bool) (r : Rect) (u t : Nat) : Int × Int :=
  if b then (r.maxX - 1 - u, r.maxY - 1 - t) else (r.minX + u, r.minY + t)

/-- `n` rows from row `lo` on. -/
def chunk (b : Bool) (r : Rect) (lo n : Nat) : List (Int × Int) :=
  (List.range' lo n).flatMap fun t => (List.range' 0 r.dx.toNat).map fun u => pt b r u t

theorem mem_chunk {b : Bool} {r : Rect} {lo n : Nat} {p : Int × Int} :
    p ∈ chunk b r lo n ↔ ∃ t, lo ≤ t ∧ t < lo + n ∧ ∃ u, u < r.dx.toNat ∧ pt b r u t = p := by
  unfold chunk
  simp only [List.mem_flatMap, List.mem_map, List.mem_range'_1, Nat.zero_le, true_and, Nat.zero_add]
  constructor
  · rintro ⟨t, ⟨h1, h2⟩, u, h3, h4⟩; exact ⟨t, h1, h2, u, h3, h4⟩
  · rintro ⟨t, h1, h2, u, h3, h4⟩; exact ⟨t, ⟨h1, h2⟩, u, h3, h4⟩

theorem pt_mem {b : Bool} {r : Rect} {u t : Nat} (hu : u < r.dx.toNat) (ht : t < r.dy.toNat) :
    r.Mem (pt b r u t).1 (pt b r u t).2 := by
  unfold Rect.dx at hu
  unfold Rect.dy at ht
  unfold pt Rect.Mem
  cases b <;> simp <;> omega

theorem pt_surj (b : Bool) {r : Rect} {x y : Int} (h : r.Mem x y) :
    ∃ u t, u < r.dx.toNat ∧ t < r.dy.toNat ∧ pt b r u t = (x, y) := by
  obtain ⟨h1, h2, h3, h4⟩ := h
  unfold Rect.dx Rect.dy
  cases b with
  | false =>
    refine ⟨(x - r.minX).toNat, (y - r.minY).toNat, by omega, by omega, ?_⟩
    simp only [pt, Bool.false_eq_true, if_false, Prod.mk.injEq]
    omega
  | true =>
    refine ⟨(r.maxX - 1 - x).toNat, (r.maxY - 1 - y).toNat, by omega, by omega, ?_⟩
    simp only [pt, if_true, Prod.mk.injEq]
    omega

/-- `p` is visited before `q`. -/
def Before (b : Bool) (p q : Int × Int) : Prop :=
  if b then q.2 < p.2 ∨ q.2 = p.2 ∧ q.1 < p.1 else p.2 < q.2 ∨ p.2 = q.2 ∧ p.1 < q.1

theorem chunk_pairwise (b : Bool) (r : Rect) (lo n : Nat) : (chunk b r lo n).Pairwise (Before b) := by
  unfold chunk
  rw [List.pairwise_flatMap]
  constructor
  · intro t _
    rw [List.pairwise_map]
    apply List.Pairwise.imp _ (List.pairwise_lt_range' (s := 0) (n := r.dx.toNat))
    intro u v huv
    unfold Before pt
    cases b <;> simp <;> omega
  · apply List.Pairwise.imp _ (List.pairwise_lt_range' (s := lo) (n := n))
    intro t t' htt p hp q hq
    simp only [List.mem_map] at hp hq
    obtain ⟨u, _, rfl⟩ := hp
    obtain ⟨v, _, rfl⟩ := hq
    unfold Before pt
    cases b <;> simp <;> omega

theorem Before.ne {b : Bool} {p q : Int × Int} (h : Before b p q) : p ≠ q := by
  rintro rfl
  unfold Before at h
  cases b <;> simp at h

/-! ## The split of the rows -/

theorem drawWorkers_spec (y : Int) : ∀ procs, 1 ≤ procs →
    1 ≤ drawWorkers procs y ∧ drawWorkers procs y ≤ procs ∧ (1 < drawWorkers procs y → 2 * (drawWorkers procs y : Int) ≤ y)
  | 0, h => by omega
  | n + 1, _ => by
    unfold drawWorkers
    split
    · rename_i h
      obtain ⟨h1, h2, h3⟩ := drawWorkers_spec y n (by omega)
      exact ⟨h1, by omega, h3⟩
    · rename_i h
      refine ⟨by omega, Nat.le_refl _, ?_⟩
      intro h1
      by_contra h2
      apply h
      push_cast at h2
      omega

/-- (first row, number of rows) of each goroutine. -/
def chunks (step : Nat) : Nat → Nat → Nat → List (Nat × Nat)
  | 0, lo, y => [(lo, y)]
  | i + 1, lo, y => (lo, step) :: chunks step i (lo + step) (y - step)

theorem chunks_mem (step : Nat) : ∀ (i lo y : Nat), i * step ≤ y → ∀ c ∈ chunks step i lo y, lo ≤ c.1 ∧ c.1 + c.2 ≤ lo + y
  | 0, lo, y, _, c, hc => by
    simp [chunks] at hc
    subst hc
    simp
  | i + 1, lo, y, h, c, hc => by
    rw [Nat.add_mul, Nat.one_mul] at h
    simp only [chunks, List.mem_cons] at hc
    rcases hc with rfl | hc
    · simp only; omega
    · have := chunks_mem step i (lo + step) (y - step) (by omega) c hc
      omega

theorem chunks_cover (step : Nat) : ∀ (i lo y : Nat), i * step ≤ y → ∀ t, lo ≤ t → t < lo + y →
    ∃ c ∈ chunks step i lo y, c.1 ≤ t ∧ t < c.1 + c.2
  | 0, lo, y, _, t, h1, h2 => ⟨(lo, y), by simp [chunks], h1, h2⟩
  | i + 1, lo, y, h, t, h1, h2 => by
    rw [Nat.add_mul, Nat.one_mul] at h
    by_cases hlt : t < lo + step
    · exact ⟨(lo, step), by simp [chunks], h1, hlt⟩
    · obtain ⟨c, hc, h3⟩ := chunks_cover step i (lo + step) (y - step) (by omega) t (by omega) (by omega)
      exact ⟨c, by simp [chunks, hc], h3⟩

theorem chunks_pairwise (step : Nat) : ∀ (i lo y : Nat), i * step ≤ y →
    (chunks step i lo y).Pairwise fun c c' => c.1 + c.2 ≤ c'.1
  | 0, lo, y, _ => by simp [chunks]
  | i + 1, lo, y, h => by
    rw [Nat.add_mul, Nat.one_mul] at h
    simp only [chunks, List.pairwise_cons]
    refine ⟨?_, chunks_pairwise step i _ _ (by omega)⟩
    intro c hc
    exact (chunks_mem step i (lo + step) (y - step) (by omega) c hc).1

/-- The rows as `Parallel` hands them out. -/
def split (procs : Nat) (y : Nat) : List (Nat × Nat) :=
  if drawWorkers procs y = 1 then [(0, y)] else chunks (y / drawWorkers procs y) (drawWorkers procs y - 1) 0 y

theorem split_fits (procs y : Nat) : (drawWorkers procs y - 1) * (y / drawWorkers procs y) ≤ y := by
  have h1 : (drawWorkers procs y - 1) * (y / drawWorkers procs y) ≤ drawWorkers procs y * (y / drawWorkers procs y) :=
    Nat.mul_le_mul_right _ (by omega)
  exact Nat.le_trans h1 (Nat.mul_div_le _ _)

theorem split_mem (procs y : Nat) : ∀ c ∈ split procs y, c.1 + c.2 ≤ y := by
  intro c hc
  unfold split at hc
  split at hc
  · simp at hc; subst hc; simp
  · have := chunks_mem _ _ _ _ (split_fits procs y) c hc; omega

theorem split_cover (procs y : Nat) : ∀ t, t < y → ∃ c ∈ split procs y, c.1 ≤ t ∧ t < c.1 + c.2 := by
  intro t ht
  unfold split
  split
  · exact ⟨(0, y), by simp, by simp, by simpa using ht⟩
  · exact chunks_cover _ _ _ _ (split_fits procs y) t (by omega) (by omega)

theorem split_pairwise (procs y : Nat) : (split procs y).Pairwise fun c c' => c.1 + c.2 ≤ c'.1 := by
  unfold split
  split
  · simp
  · exact chunks_pairwise _ _ _ _ (split_fits procs y)

theorem split_one (procs y : Nat) (hp : 1 ≤ procs) (h : procs = 1 ∨ y < 4) : split procs y = [(0, y)] := by
  unfold split
  obtain ⟨h1, h2, h3⟩ := drawWorkers_spec (y : Int) procs hp
  rw [if_pos]
  by_contra hne
  have := h3 (by omega)
  omega

end Psd
