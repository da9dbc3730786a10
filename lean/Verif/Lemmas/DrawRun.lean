import Verif.Lemmas.Draw

/-!
# What the goroutines of a draw do

Each goroutine of `drawMask` performs one operation per point, in the order of `chunk`.
-/

namespace Psd

theorem loop_eq (body : Int → Int → DProg → DProg) (end_ di dj i0 j0 : Int) (op : Nat → DProg → DProg) (k : DProg) (hdi : di ≠ 0) :
    ∀ (cnt fuel u : Nat), cnt ≤ fuel → i0 + di * ((u : Int) + cnt) = end_ →
      (∀ v : Nat, u ≤ v → v < u + cnt → ∀ k, body (i0 + di * v) (j0 + dj * v) k = op v k) →
      loop body end_ di dj fuel (i0 + di * u) (j0 + dj * u) k = (List.range' u cnt).foldr op k
  | 0, fuel, u, _, he, _ => by
    have e : i0 + di * (u : Int) = end_ := by rw [← he]; simp
    cases fuel <;> simp [loop, e]
  | cnt + 1, 0, u, h, _, _ => by omega
  | cnt + 1, fuel + 1, u, h, he, hb => by
    have hne : i0 + di * (u : Int) ≠ end_ := by
      rw [← he]
      intro e
      have e2 : di * ((cnt : Int) + 1) = 0 := by
        push_cast at e
        have : di * ((u : Int) + (cnt + 1)) = di * u + di * ((cnt : Int) + 1) := by ring
        omega
      rcases mul_eq_zero.1 e2 with g | g
      · exact hdi g
      · omega
    rw [loop, if_neg hne, hb u (Nat.le_refl _) (by omega)]
    rw [List.range'_succ, List.foldr_cons]
    congr 1
    have := loop_eq body end_ di dj i0 j0 op k hdi cnt fuel (u + 1) (by omega)
      (by rw [← he]; push_cast; ring) (fun v h1 h2 => hb v (by omega) (by omega))
    rw [← this]
    congr 1 <;> push_cast <;> ring

theorem foldr_chunk_succ (b : Bool) (r : Rect) (lo n : Nat) (op : Int × Int → DProg → DProg) (k : DProg) :
    (chunk b r lo (n + 1)).foldr op k =
      (List.range' 0 r.dx.toNat).foldr (fun u => op (pt b r u lo)) ((chunk b r (lo + 1) n).foldr op k) := by
  unfold chunk
  rw [List.range'_succ, List.flatMap_cons, List.foldr_append, List.foldr_map]

/-- What a kernel does for one point. -/
def directOp (px : List UInt8 → Px → Res Px) (sc dc : Int × Int → List Addr) (p : Int × Int) (k : DProg) : DProg :=
  readAll (sc p) fun sv => readAll (dc p) fun dv =>
    match px sv (Px.ofBytes dv) with
    | .ok q => writeAll (dc p) q.bytes k
    | _ => .panic

/-- The walk is forward unless the source lies before the destination. -/
def backward (r : Rect) (spX spY : Int) : Bool := !decide (r.minY < spY ∨ r.minY = spY ∧ r.minX ≤ spX)

theorem prepare_facts (n : Nat) (hn : 1 ≤ n) (dst src : Raw) (r : Rect) (spX spY : Int) :
    let w := prepare n dst src r spX spY
    let b := backward r spX spY
    w.sxDelta ≠ 0 ∧
    (0 ≤ r.dx → r.dx.toNat ≤ (w.sx1 - w.sx0).natAbs ∧ w.sx0 + w.sxDelta * ((0 : Nat) + (r.dx.toNat : Int)) = w.sx1) ∧
    ∀ u t : Nat,
      w.d0 + w.dyDelta * t = dst.pixOffset 4 r.minX (pt b r u t).2 ∧
      w.dx0 + w.dxDelta * u = ((pt b r u t).1 - r.minX) * 4 ∧
      w.s0 + w.syDelta * t = src.pixOffset n spX ((pt b r u t).2 - r.minY + spY) ∧
      w.sx0 + w.sxDelta * u = ((pt b r u t).1 - r.minX) * n := by
  simp only
  unfold prepare
  by_cases hf : r.minY < spY ∨ r.minY = spY ∧ r.minX ≤ spX
  · have hb : backward r spX spY = false := by unfold backward; simp only [decide_eq_true hf, Bool.not_true]
    rw [hb]
    simp only [if_pos hf]
    refine ⟨by omega, ?_, ?_⟩
    · intro hdx
      have e : ((r.dx.toNat : Nat) : Int) = r.dx := Int.toNat_of_nonneg hdx
      constructor
      · have h2 : (r.dx.toNat : Int) ≤ ((r.dx.toNat : Int)) * n := by
          have : (r.dx.toNat : Int) * 1 ≤ (r.dx.toNat : Int) * n := mul_le_mul_of_nonneg_left (by omega) (by omega)
          omega
        rw [e] at h2
        omega
      · rw [e]; push_cast; ring
    · intro u t
      unfold Raw.pixOffset pt
      simp only [Bool.false_eq_true, if_false]
      refine ⟨by ring, by ring, by ring, by ring⟩
  · have hb : backward r spX spY = true := by unfold backward; simp only [decide_eq_false hf, Bool.not_false]
    rw [hb]
    simp only [if_neg hf]
    refine ⟨by omega, ?_, ?_⟩
    · intro hdx
      have e : ((r.dx.toNat : Nat) : Int) = r.dx := Int.toNat_of_nonneg hdx
      constructor
      · have h2 : (r.dx.toNat : Int) ≤ ((r.dx.toNat : Int)) * n := by
          have : (r.dx.toNat : Int) * 1 ≤ (r.dx.toNat : Int) * n := mul_le_mul_of_nonneg_left (by omega) (by omega)
          omega
        rw [e] at h2
        have e3 : -(n : Int) - (r.dx - 1) * n = -(r.dx * n) := by ring
        rw [e3]
        omega
      · rw [e]; push_cast; ring
    · intro u t
      unfold Raw.pixOffset pt Rect.dy Rect.dx
      simp only [if_true]
      refine ⟨by ring, by ring, by ring, by ring⟩

theorem sl_from_ok (s : Sl) (lo : Int) (k : Sl → DProg) (h : 0 ≤ lo ∧ lo ≤ s.len) :
    s.from lo k = k ⟨s.buf, s.base + lo, s.len - lo⟩ := if_pos h

/-- The bytes of a pixel, found through a shortened slice. -/
theorem bytes_cells (im : Raw) (n : Nat) (hok : im.Ok n) (lo i : Int) (x y : Int) (h : im.rect.Mem x y) (e : lo + i = im.pixOffset n x y)
    (hi : 0 ≤ i) (k : List Addr → DProg) :
    Sl.bytes ⟨im.pix.buf, im.pix.base + lo, im.pix.len - lo⟩ i n k = k (im.cells n x y) := by
  unfold Sl.bytes
  obtain ⟨_, _, h1, _⟩ := pixOffset_bounds hok h
  rw [if_pos ⟨hi, by simp only; omega⟩]
  congr 1
  unfold Raw.cells
  apply List.map_congr_left
  intro t _
  simp only [Sl.addr, Prod.mk.injEq, true_and]
  omega

theorem row_nonneg {n : Nat} {im : Raw} (hok : im.Ok n) {x y : Int} (h : im.rect.Mem x y) :
    0 ≤ im.pixOffset n x y ∧ im.pixOffset n x y ≤ im.pix.len := by
  obtain ⟨_, h1, h2, _⟩ := pixOffset_bounds hok h
  have : 0 ≤ (x - im.rect.minX) * (n : Int) := mul_nonneg (by obtain ⟨h, _⟩ := h; omega) (by omega)
  unfold Raw.pixOffset at *
  omega

theorem drawFunc_eq (n : Nat) (hn : 1 ≤ n) (px : List UInt8 → Px → Res Px) (dst src : Raw) (hd : dst.Ok 4) (hs : src.Ok n)
    (r : Rect) (hdx : 0 < r.dx) (spX spY : Int)
    (hr : ∀ x y, r.Mem x y → dst.rect.Mem x y ∧ src.rect.Mem (x - r.minX + spX) (y - r.minY + spY)) :
    let w := prepare n dst src r spX spY
    ∀ (y lo : Nat), lo + y ≤ r.dy.toNat →
      drawFunc n px dst.pix src.pix w (w.d0 + w.dyDelta * lo) (w.s0 + w.syDelta * lo) y =
        (chunk (backward r spX spY) r lo y).foldr
          (directOp px (fun p => src.cells n (p.1 - r.minX + spX) (p.2 - r.minY + spY)) (fun p => dst.cells 4 p.1 p.2)) .done := by
  simp only
  obtain ⟨f1, f2, f3⟩ := prepare_facts n hn dst src r spX spY
  intro y
  induction y with
  | zero => intro lo _; simp [chunk, drawFunc]
  | succ y ih =>
    intro lo hlo
    rw [foldr_chunk_succ, drawFunc]
    have hp0 : ∀ u : Nat, u < r.dx.toNat → r.Mem (pt (backward r spX spY) r u lo).1 (pt (backward r spX spY) r u lo).2 :=
      fun u hu => pt_mem hu (by omega)
    -- the first pixel of the row, for the row's offsets
    have hrow : r.Mem r.minX (pt (backward r spX spY) r 0 lo).2 := by
      have := hp0 0 (by omega)
      unfold Rect.Mem at this ⊢
      unfold Rect.dx at hdx
      omega
    obtain ⟨hdm, hsm⟩ := hr _ _ hrow
    have hd0 := row_nonneg hd hdm
    have hs0 := row_nonneg hs hsm
    obtain ⟨g1, _, g3, _⟩ := f3 0 lo
    have es : r.minX - r.minX + spX = spX := by omega
    rw [es] at hs0
    rw [← g1] at hd0
    rw [← g3] at hs0
    rw [sl_from_ok _ _ _ hd0, sl_from_ok _ _ _ hs0]
    obtain ⟨f4, f5⟩ := f2 (by omega)
    have hl := loop_eq (fun i j => kernelPixel n px ⟨dst.pix.buf, dst.pix.base + ((prepare n dst src r spX spY).d0 + (prepare n dst src r spX spY).dyDelta * lo),
          dst.pix.len - ((prepare n dst src r spX spY).d0 + (prepare n dst src r spX spY).dyDelta * lo)⟩
        ⟨src.pix.buf, src.pix.base + ((prepare n dst src r spX spY).s0 + (prepare n dst src r spX spY).syDelta * lo),
          src.pix.len - ((prepare n dst src r spX spY).s0 + (prepare n dst src r spX spY).syDelta * lo)⟩ i j)
      (prepare n dst src r spX spY).sx1 (prepare n dst src r spX spY).sxDelta (prepare n dst src r spX spY).dxDelta
      (prepare n dst src r spX spY).sx0 (prepare n dst src r spX spY).dx0
      (fun u => directOp px (fun p => src.cells n (p.1 - r.minX + spX) (p.2 - r.minY + spY)) (fun p => dst.cells 4 p.1 p.2)
        (pt (backward r spX spY) r u lo))
      (drawFunc n px dst.pix src.pix (prepare n dst src r spX spY)
        ((prepare n dst src r spX spY).d0 + (prepare n dst src r spX spY).dyDelta * lo + (prepare n dst src r spX spY).dyDelta)
        ((prepare n dst src r spX spY).s0 + (prepare n dst src r spX spY).syDelta * lo + (prepare n dst src r spX spY).syDelta) y)
      f1 r.dx.toNat ((prepare n dst src r spX spY).sx1 - (prepare n dst src r spX spY).sx0).natAbs 0 f4 f5
      (by
        intro u _ hu k
        have hm := hp0 u (by omega)
        obtain ⟨hdm', hsm'⟩ := hr _ _ hm
        obtain ⟨k1, k2, k3, k4⟩ := f3 u lo
        have hx : 0 ≤ (pt (backward r spX spY) r u lo).1 - r.minX := by obtain ⟨h, _⟩ := hm; omega
        unfold kernelPixel directOp
        rw [bytes_cells src n hs _ _ _ _ hsm' (by rw [k3, k4]; unfold Raw.pixOffset; ring) (by rw [k4]; exact mul_nonneg hx (by omega))]
        rw [bytes_cells dst 4 hd _ _ _ _ hdm' (by rw [k1, k2]; unfold Raw.pixOffset; push_cast; ring) (by rw [k2]; omega)]
        rfl)
    have z : ∀ a b : Int, a + b * ((0 : Nat) : Int) = a := by intro a b; simp
    rw [z, z] at hl
    rw [hl]
    congr 1
    have := ih (lo + 1) (by omega)
    rw [← this]
    congr 1 <;> push_cast <;> ring

theorem spawn_eq (f : Int → Int → Int → DProg) (dyD syD : Int) (step : Nat) (D0 S0 : Int) : ∀ (i lo y : Nat), i * step ≤ y →
    spawn f dyD syD step i (D0 + dyD * lo) (S0 + syD * lo) y =
      (chunks step i lo y).map fun c => f (D0 + dyD * c.1) (S0 + syD * c.1) c.2
  | 0, lo, y, _ => by simp [spawn, chunks]
  | i + 1, lo, y, h => by
    rw [Nat.add_mul, Nat.one_mul] at h
    have e : ((y - step : Nat) : Int) = (y : Int) - step := by omega
    have := spawn_eq f dyD syD step D0 S0 i (lo + step) (y - step) (by omega)
    simp only [spawn, chunks, List.map_cons]
    rw [← this, e]
    congr 1
    congr 1 <;> push_cast <;> ring

theorem parallel_eq (procs : Nat) (hp : 1 ≤ procs) (f : Int → Int → Int → DProg) (w : Walk) (y : Nat) :
    parallel procs f w y = (split procs y).map fun c => f (w.d0 + w.dyDelta * c.1) (w.s0 + w.syDelta * c.1) c.2 := by
  unfold parallel split
  simp only
  split
  · simp
  · have := spawn_eq f w.dyDelta w.syDelta (y / drawWorkers procs y) w.d0 w.s0 (drawWorkers procs y - 1) 0 y (split_fits procs y)
    simp only [Nat.cast_zero, mul_zero, add_zero] at this
    rw [← this]
    push_cast
    rfl

/-! ## Uniform sources -/

theorem drawUniformFunc_eq (px : Px → Res Px) (dst : Raw) (hd : dst.Ok 4) (r : Rect) (hdx : 0 < r.dx)
    (hr : ∀ x y, r.Mem x y → dst.rect.Mem x y) (o : Int) (ho : o = dst.pixOffset 4 r.minX r.minY) (base : Nat) :
    ∀ (y lo : Nat), base + lo + y ≤ r.dy.toNat →
      drawUniformFunc px ⟨dst.pix.buf, dst.pix.base + (o + dst.stride * base), dst.pix.len - (o + dst.stride * base)⟩ (r.dx * 4) dst.stride (dst.stride * lo) y =
        (chunk false r (base + lo) y).foldr (directOp (fun _ => px) (fun _ => []) (fun p => dst.cells 4 p.1 p.2)) .done := by
  intro y
  induction y with
  | zero => intro lo _; simp [chunk, drawUniformFunc]
  | succ y ih =>
    intro lo hlo
    rw [foldr_chunk_succ, drawUniformFunc]
    have hp0 : ∀ u : Nat, u < r.dx.toNat → r.Mem (pt false r u (base + lo)).1 (pt false r u (base + lo)).2 :=
      fun u hu => pt_mem hu (by omega)
    have hoff : ∀ u : Nat, o + dst.stride * base + dst.stride * lo + (u : Int) * 4 =
        dst.pixOffset 4 (pt false r u (base + lo)).1 (pt false r u (base + lo)).2 := by
      intro u
      rw [ho]
      unfold Raw.pixOffset pt
      simp only [Bool.false_eq_true, if_false]
      push_cast
      ring
    have h0 := row_nonneg hd (hr _ _ (hp0 0 (by omega)))
    rw [← hoff 0] at h0
    simp only [Nat.cast_zero, zero_mul, add_zero] at h0
    have hm0 : dst.rect.Mem r.minX r.minY := hr _ _ (by
      unfold Rect.dx at hdx
      have : 0 < r.dy := by omega
      unfold Rect.dy at this
      unfold Rect.Mem; omega)
    obtain ⟨hst, _, _, _⟩ := pixOffset_bounds hd hm0
    have hlo' : 0 ≤ dst.stride * (lo : Int) := mul_nonneg hst (by omega)
    rw [sl_from_ok _ _ _ (by simp only; omega)]
    simp only
    have e1 : (r.dx * 4).natAbs = r.dx.toNat * 4 := by omega
    have hl := loop_eq (fun j _ => uniformPixel px ⟨dst.pix.buf, dst.pix.base + (o + dst.stride * base) + dst.stride * lo,
          dst.pix.len - (o + dst.stride * base) - dst.stride * lo⟩ j) (r.dx * 4) 4 0 0 0
      (fun u => directOp (fun _ => px) (fun _ => []) (fun p => dst.cells 4 p.1 p.2) (pt false r u (base + lo)))
      (drawUniformFunc px ⟨dst.pix.buf, dst.pix.base + (o + dst.stride * base), dst.pix.len - (o + dst.stride * base)⟩ (r.dx * 4) dst.stride
        (dst.stride * lo + dst.stride) y)
      (by decide) r.dx.toNat (r.dx * 4).natAbs 0 (by omega) (by simp; omega)
      (by
        intro u _ hu k
        have hm := hp0 u (by omega)
        have e2 : dst.pix.base + (o + dst.stride * base) + dst.stride * lo = dst.pix.base + (o + dst.stride * base + dst.stride * lo) := by ring
        have e3 : dst.pix.len - (o + dst.stride * base) - dst.stride * lo = dst.pix.len - (o + dst.stride * base + dst.stride * lo) := by ring
        have := bytes_cells dst 4 hd (o + dst.stride * base + dst.stride * lo) (0 + 4 * u) _ _ (hr _ _ hm) (by rw [← hoff u]; ring) (by omega)
        unfold uniformPixel
        rw [e2, e3, this]
        rfl)
    have z : ∀ a b : Int, a + b * ((0 : Nat) : Int) = a := by intro a b; simp
    rw [z, z] at hl
    rw [hl]
    congr 1
    have := ih (lo + 1) (by omega)
    rw [← Nat.add_assoc] at this
    rw [← this]
    congr 1
    push_cast
    ring

theorem spawnUniform_eq (f : Sl → Int → DProg) (dyD : Int) (step : Nat) (buf : Nat) (B L : Int) : ∀ (i lo y : Nat), i * step ≤ y →
    0 ≤ dyD → dyD * (lo + i * step : Nat) ≤ L →
    spawnUniform f dyD step i ⟨buf, B + dyD * lo, L - dyD * lo⟩ y =
      (chunks step i lo y).map fun c => f ⟨buf, B + dyD * c.1, L - dyD * c.1⟩ c.2
  | 0, lo, y, _, _, _ => by simp [spawnUniform, chunks]
  | i + 1, lo, y, h, h0, hL => by
    rw [Nat.add_mul, Nat.one_mul] at h hL
    have e : ((y - step : Nat) : Int) = (y : Int) - step := by omega
    have hs : dyD * ((lo + step : Nat) : Int) ≤ L := by
      refine le_trans (mul_le_mul_of_nonneg_left ?_ h0) hL
      push_cast
      have : 0 ≤ (i : Int) * step := mul_nonneg (by omega) (by omega)
      omega
    have e2 : dyD * ((lo + step : Nat) : Int) = dyD * lo + dyD * step := by push_cast; ring
    have := spawnUniform_eq f dyD step buf B L i (lo + step) (y - step) (by omega) h0 (by
      have e3 : lo + step + i * step = lo + (i * step + step) := by omega
      rw [e3]; exact hL)
    simp only [spawnUniform, chunks, List.map_cons]
    have hpos : 0 ≤ dyD * (step : Int) := mul_nonneg h0 (by omega)
    rw [if_pos ⟨hpos, by omega⟩]
    rw [← this, e, e2]
    congr 2
    congr 1
    · omega
    · omega

theorem parallelUniform_eq (procs : Nat) (hp : 1 ≤ procs) (f : Sl → Int → DProg) (buf : Nat) (B L dyD : Int) (y : Nat)
    (h0 : 0 ≤ dyD) (hL : dyD * ((y - 1 : Nat) : Int) ≤ L) :
    parallelUniform procs f ⟨buf, B, L⟩ dyD y = (split procs y).map fun c => f ⟨buf, B + dyD * c.1, L - dyD * c.1⟩ c.2 := by
  unfold parallelUniform split
  simp only
  obtain ⟨w1, w2, w3⟩ := drawWorkers_spec (y : Int) procs hp
  split
  · simp
  · rename_i hne
    have hw := w3 (by omega)
    have := spawnUniform_eq f dyD (y / drawWorkers procs y) buf B L (drawWorkers procs y - 1) 0 y (split_fits procs y) h0 (by
      refine le_trans (mul_le_mul_of_nonneg_left ?_ h0) hL
      have hd : 2 ≤ y / drawWorkers procs y := by
        rw [Nat.le_div_iff_mul_le (by omega)]; omega
      have hm : drawWorkers procs y * (y / drawWorkers procs y) ≤ y := Nat.mul_div_le _ _
      have : (drawWorkers procs y - 1) * (y / drawWorkers procs y) + y / drawWorkers procs y = drawWorkers procs y * (y / drawWorkers procs y) := by
        obtain ⟨k, hk⟩ : ∃ k, drawWorkers procs y = k + 1 := ⟨drawWorkers procs y - 1, by omega⟩
        rw [hk, Nat.add_sub_cancel]
        ring
      have h2 : 0 + (drawWorkers procs y - 1) * (y / drawWorkers procs y) ≤ y - 1 := by omega
      exact_mod_cast h2)
    simp only [Nat.cast_zero, mul_zero, add_zero, sub_zero] at this
    rw [← this]
    push_cast
    rfl

/-! ## The fallback -/

/-- What a fallback does for one point: `rx`, `ry` the first corner of the clipped rectangle. -/
def fallbackOp (D : Drawer) (dst src : DImg) (mask : Option DImg) (sdx sdy mdx mdy : Int) (p : Int × Int) (k : DProg) : DProg :=
  fallbackPixel D dst src mask p.1 p.2 (p.1 + sdx) (p.2 + sdy) (p.1 + mdx) (p.2 + mdy) k

/-- The fallback's rows, from the `lo`-th one on. -/
theorem fallbackFunc_eq (D : Drawer) (dst src : DImg) (mask : Option DImg) (b : Bool) (r : Rect) (hdx : 0 < r.dx)
    (sdx sdy mdx mdy : Int) (y lo : Nat) :
    let pX := if b then r.maxX - 1 else r.minX
    let pY := if b then r.maxY - 1 else r.minY
    let endX := if b then r.minX - 1 else r.maxX
    let d : Int := if b then -1 else 1
    fallbackFunc D dst src mask pX (pX + sdx) (pX + mdx) endX d (pY + d * lo) (pY + d * lo + sdy) (pY + d * lo + mdy) (pY + d * (lo + y : Nat)) =
      (chunk b r lo y).foldr (fallbackOp D dst src mask sdx sdy mdx mdy) .done := by
  simp only
  generalize hpX : (if b then r.maxX - 1 else r.minX) = pX
  generalize hpY : (if b then r.maxY - 1 else r.minY) = pY
  generalize heX : (if b then r.minX - 1 else r.maxX) = endX
  generalize hd : (if b then (-1 : Int) else 1) = d
  have hd0 : d ≠ 0 := by rw [← hd]; cases b <;> simp
  have hpt : ∀ u t : Nat, pt b r u t = (pX + d * u, pY + d * t) := by
    intro u t
    rw [← hpX, ← hpY, ← hd]
    unfold pt
    cases b
    · simp
    · simp only [if_true, Prod.mk.injEq]; omega
  have hrow : ∀ (t : Nat) (k : DProg),
      loop (fun x _ k => fallbackPixel D dst src mask x (pY + d * t) (pX + sdx + (x - pX)) (pY + d * lo + sdy + (pY + d * t - (pY + d * lo)))
        (pX + mdx + (x - pX)) (pY + d * lo + mdy + (pY + d * t - (pY + d * lo))) k) endX d 0 (endX - pX).natAbs pX 0 k =
      (List.range' 0 r.dx.toNat).foldr (fun u => fallbackOp D dst src mask sdx sdy mdx mdy (pt b r u t)) k := by
    intro t k
    have hl := loop_eq (fun x _ k => fallbackPixel D dst src mask x (pY + d * t) (pX + sdx + (x - pX)) (pY + d * lo + sdy + (pY + d * t - (pY + d * lo)))
        (pX + mdx + (x - pX)) (pY + d * lo + mdy + (pY + d * t - (pY + d * lo))) k) endX d 0 pX 0
        (fun u => fallbackOp D dst src mask sdx sdy mdx mdy (pt b r u t)) k hd0 r.dx.toNat (endX - pX).natAbs 0
        (by rw [← heX, ← hpX]; unfold Rect.dx; cases b <;> simp only [Bool.false_eq_true, if_false, if_true] <;> omega)
        (by rw [← heX, ← hpX, ← hd]; unfold Rect.dx at *; cases b <;> simp <;> omega)
        (by
          intro u _ _ k
          unfold fallbackOp
          rw [hpt]
          simp only
          congr 1 <;> ring)
    have z : ∀ a b : Int, a + b * ((0 : Nat) : Int) = a := by intro a b; simp
    rw [z, z] at hl
    exact hl
  unfold fallbackFunc
  have hl := loop_eq (fun y _ k =>
      loop (fun x _ k => fallbackPixel D dst src mask x y (pX + sdx + (x - pX)) (pY + d * lo + sdy + (y - (pY + d * lo)))
        (pX + mdx + (x - pX)) (pY + d * lo + mdy + (y - (pY + d * lo))) k) endX d 0 (endX - pX).natAbs pX 0 k)
      (pY + d * (lo + y : Nat)) d 0 pY 0
      (fun t k => (List.range' 0 r.dx.toNat).foldr (fun u => fallbackOp D dst src mask sdx sdy mdx mdy (pt b r u t)) k)
      .done hd0 y (pY + d * (lo + y : Nat) - (pY + d * lo)).natAbs lo
      (by
        have : pY + d * ((lo + y : Nat) : Int) - (pY + d * lo) = d * y := by push_cast; ring
        rw [this, Int.natAbs_mul, ← hd]
        cases b <;> simp)
      (by push_cast; ring)
      (by
        intro t _ _ k
        exact hrow t k)
  rw [zero_mul, zero_add] at hl
  rw [hl]
  unfold chunk
  generalize hL : List.range' lo y = L
  clear hL hl
  induction L with
  | nil => rfl
  | cons t L ih => rw [List.foldr_cons, ih, List.flatMap_cons, List.foldr_append, List.foldr_map]

theorem spawnFallback_eq (f : Int → Int → Int → Int → DProg) (d : Int) (step : Nat) (P S M : Int) : ∀ (i lo y : Nat), i * step ≤ y →
    spawnFallback f (P + d * (lo + y : Nat)) (step * d) i (P + d * lo) (S + d * lo) (M + d * lo) =
      (chunks step i lo y).map fun c => f (P + d * c.1) (S + d * c.1) (M + d * c.1) (P + d * (c.1 + c.2 : Nat))
  | 0, lo, y, _ => by simp [spawnFallback, chunks]
  | i + 1, lo, y, h => by
    rw [Nat.add_mul, Nat.one_mul] at h
    have := spawnFallback_eq f d step P S M i (lo + step) (y - step) (by omega)
    simp only [spawnFallback, chunks, List.map_cons]
    rw [← this]
    have e : lo + step + (y - step) = lo + y := by omega
    have e2 : ∀ Q : Int, Q + d * lo + step * d = Q + d * ((lo + step : Nat) : Int) := by intro Q; push_cast; ring
    rw [e, e2, e2, e2]

theorem parallelFallback_eq (procs : Nat) (hp : 1 ≤ procs) (f : Int → Int → Int → Int → DProg) (P S M : Int) (d : Int) (hd : d = 1 ∨ d = -1) (y : Nat) :
    parallelFallback procs f P S M (P + d * y) d =
      (split procs y).map fun c => f (P + d * c.1) (S + d * c.1) (M + d * c.1) (P + d * (c.1 + c.2 : Nat)) := by
  have ey : (if d > 0 then P + d * y - P else P - (P + d * y)) = y := by
    rcases hd with rfl | rfl
    · simp
    · simp
  unfold parallelFallback split
  simp only [ey]
  split
  · simp
  · have := spawnFallback_eq f d (y / drawWorkers procs y) P S M (drawWorkers procs y - 1) 0 y (split_fits procs y)
    simp only [Nat.cast_zero, mul_zero, add_zero, zero_add] at this
    rw [← this]
    push_cast
    rfl

end Psd
