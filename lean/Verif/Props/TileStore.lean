import Verif.Spec.TileStore
import Verif.Lemmas.TileStore
import Verif.Props.PorterDuff

/-!
# Theorems C51 and C52: pictures and masks stored as tiles
-/

namespace Psd

theorem index_eq (rect : Rect) (dX : Nat) (x y : Int) :
    (y - rect.minY) * (rect.dx * dX) + (x - rect.minX) * dX = ((y - rect.minY) * rect.dx + (x - rect.minX)) * dX := by ring

theorem byteAt_channel {rect : Rect} {dX : Nat} {ch : List UInt8} (hf : Fills rect dX ch) {x y : Int} (hm : rect.Mem x y) :
    byteAt ch ((y - rect.minY) * (rect.dx * dX) + (x - rect.minX) * dX) = .ok (channelAt rect dX ch x y) := by
  unfold Rect.Mem at hm
  have h1 := hf x y (by omega) (by omega) (by omega) (by omega)
  rw [index_eq]
  have h0 : 0 ≤ ((y - rect.minY) * rect.dx + (x - rect.minX)) * dX := by
    have a1 : 0 ≤ y - rect.minY := by omega
    have a2 : 0 ≤ rect.dx := by unfold Rect.dx; omega
    have a3 : 0 ≤ x - rect.minX := by omega
    positivity
  unfold byteAt channelAt
  rw [if_neg (by omega)]
  obtain ⟨n, hn⟩ : ∃ n, (((y - rect.minY) * rect.dx + (x - rect.minX)) * dX).toNat = n := ⟨_, rfl⟩
  rw [hn]
  have hlt : n < ch.length := by omega
  rw [List.getElem?_eq_getElem hlt, List.getD_eq_getElem?_getD, List.getElem?_eq_getElem hlt]
  rfl

theorem image_reads {rect : Rect} {dX : Nat} {r g b : List UInt8} {a : Option (List UInt8)} (hr : Fills rect dX r) (hg : Fills rect dX g)
    (hb : Fills rect dX b) (ha : ∀ v, a = some v → Fills rect dX v) : Reads 4 dX (imageCell r g b a) rect (pictureAt rect dX r g b a) := by
  refine ⟨?_, ?_, ?_⟩
  · intro x y hm
    have er := byteAt_channel hr hm
    have eg := byteAt_channel hg hm
    have eb := byteAt_channel hb hm
    have hm' := hm
    unfold Rect.Mem at hm'
    unfold pictureAt imageCell
    rw [if_pos (by omega)]
    cases a with
    | none =>
      simp only [er, eg, eb, Res.ok_bind]
      rfl
    | some v =>
      have ev := byteAt_channel (ha v rfl) hm
      simp only [er, eg, eb, ev, Res.ok_bind]
      by_cases h0 : channelAt rect dX v x y = 0
      · rw [if_neg (by rw [h0]; decide), if_pos h0]
      · have : channelAt rect dX v x y > 0 := by
          apply UInt8.lt_iff_toNat_lt.2
          exact Nat.pos_of_ne_zero fun e => h0 (UInt8.toNat_inj.1 e)
        rw [if_pos this, if_neg h0]
  · intro x y px _ hc
    unfold pictureAt at hc
    split at hc
    · simp only at hc
      split at hc <;> split at hc <;> first | (cases hc; done) | (cases hc; rfl)
    · cases hc
  · intro x y hm
    unfold Rect.Mem at hm
    unfold pictureAt
    rw [if_neg (by omega)]

/-- **C51** (in part) For every number of processors, tile size, layer rectangle and picture: the tiles lie on the grid, no two at the same place; each
holds the picture, byte for byte, where it is not transparent, and zeros elsewhere; none is empty; and every visible pixel lies in exactly one of them, if it is
not before the first grid line after a negative edge, as no pixel of the canvas is (`Rect.keeps_of_canvas`).

Missing: the pixels before that line, which are lost (`C51_negative_edge_lost`). -/
theorem C51_tiles_hold_the_picture_partial (procs ts dX : Nat) (hp : 1 ≤ procs) (hts : 1 ≤ ts) (rect : Rect) (r g b : List UInt8) (a : Option (List UInt8))
    (hr : Fills rect dX r) (hg : Fills rect dX g) (hb : Fills rect dX b) (ha : ∀ v, a = some v → Fills rect dX v)
    (hne : rect.empty = false) :
    ∃ tiles, newTiledImage procs ts rect r g b a dX = .ok tiles ∧ (tiles.map Prod.fst).Nodup ∧
      (∀ e ∈ tiles, (ts : Int) ∣ e.1.1 ∧ (ts : Int) ∣ e.1.2 ∧ e.2.length = ts * 4 * ts ∧
        (∀ i j : Nat, i < ts → j < ts →
          (e.2.drop ((j * ts + i) * 4)).take 4 = (pictureAt rect dX r g b a (e.1.1 + i) (e.1.2 + j)).getD [0, 0, 0, 0]) ∧
        ∃ i j : Nat, i < ts ∧ j < ts ∧ (pictureAt rect dX r g b a (e.1.1 + i) (e.1.2 + j)).isSome = true) ∧
      ∀ x y, rect.Keeps ts x y → (pictureAt rect dX r g b a x y).isSome = true →
        ∃ e ∈ tiles, InTile ts e.1 x y ∧ ∀ e' ∈ tiles, InTile ts e'.1 x y → e' = e := by
  rw [Rect.nonempty_iff] at hne
  obtain ⟨t1, t2, t3⟩ := C66_each_tile_once_partial procs ts hp hts rect
  have hreads := image_reads hr hg hb ha
  obtain ⟨m, e, sub, hold, all⟩ := storeAll_spec hreads hne.1 hne.2 (tileWork procs ts rect) (tileWork_meets hp hts rect)
  have hnd : (m.map Prod.fst).Nodup := sub.nodup t1
  have hfst : ∀ x ∈ m, x.1 ∈ (tileWork procs ts rect).flatten := fun x hx => sub.subset (List.mem_map_of_mem hx)
  refine ⟨m, e, hnd, ?_, ?_⟩
  · intro x hx
    obtain ⟨d1, d2, _⟩ := t3 x.1 (hfst x hx)
    exact ⟨d1, d2, (hold x hx).1.1, fun i j hi hj => (hold x hx).1.2 i j hi hj, (hold x hx).2⟩
  · intro x y hk hs
    obtain ⟨p, hpm, hin, huniq⟩ := t2 x y hk
    have hin' := hin
    unfold InTile at hin'
    obtain ⟨b, hb⟩ := all p hpm ⟨(x - p.1).toNat, (y - p.2).toNat, by omega, by omega, by
      rw [show p.1 + ((x - p.1).toNat : Int) = x from by omega, show p.2 + ((y - p.2).toNat : Int) = y from by omega]
      exact hs⟩
    refine ⟨(p, b), hb, hin, ?_⟩
    rintro ⟨p', b'⟩ he' hin2
    have : p' = p := huniq p' (hfst _ he') hin2
    subst this
    have := List.inj_on_of_nodup_map hnd he' hb rfl
    exact this

/-- **C51** is false of layers that start left of the canvas, or above it, off the tile grid: the pixels before the first grid line
after their edge are in no tile, visible or not. -/
theorem C51_negative_edge_lost (procs ts dX : Nat) (hp : 1 ≤ procs) (hts : 1 ≤ ts) (rect : Rect) (r g b : List UInt8) (a : Option (List UInt8))
    (hr : Fills rect dX r) (hg : Fills rect dX g) (hb : Fills rect dX b) (ha : ∀ v, a = some v → Fills rect dX v) (hne : rect.empty = false)
    (x y : Int) (hm : rect.Mem x y) (hk : ¬ rect.Keeps ts x y) :
    ∃ tiles, newTiledImage procs ts rect r g b a dX = .ok tiles ∧ ∀ e ∈ tiles, ¬ InTile ts e.1 x y := by
  rw [Rect.nonempty_iff] at hne
  obtain ⟨m, e, sub, _, _⟩ := storeAll_spec (image_reads hr hg hb ha) hne.1 hne.2 (tileWork procs ts rect) (tileWork_meets hp hts rect)
  exact ⟨m, e, fun v hv => (C66_negative_edge_missed procs ts hp hts rect).1 x y hm hk v.1 (sub.subset (List.mem_map_of_mem hv))⟩

/-- A 3 by 2 layer at (1, 1) cut into tiles of side 2: the last pixel is transparent, so its tile is not stored. -/
example : newTiledImage 4 2 ⟨1, 1, 4, 3⟩ [1, 2, 3, 4, 5, 6] [1, 2, 3, 4, 5, 6] [1, 2, 3, 4, 5, 6] (some [9, 9, 9, 9, 0, 0]) 1 =
    .ok [((0, 0), [0,0,0,0, 0,0,0,0, 0,0,0,0, 1,1,1,9]), ((2, 0), [0,0,0,0, 0,0,0,0, 2,2,2,9, 3,3,3,9]), ((0, 2), [0,0,0,0, 4,4,4,9, 0,0,0,0, 0,0,0,0])] := by
  decide +kernel

/-- The layer of one opaque pixel at (-1, 0) has no tile at all. -/
example : newTiledImage 4 64 ⟨-1, 0, 0, 1⟩ [1] [2] [3] none 1 = .ok [] ∧ ¬ (⟨-1, 0, 0, 1⟩ : Rect).Keeps 64 (-1) 0 ∧
    pictureAt ⟨-1, 0, 0, 1⟩ 1 [1] [2] [3] none (-1) 0 = some [1, 2, 3, 255] := by decide +kernel

/-- Of a layer from (-2, 0) to (2, 1) the half on the canvas is stored. -/
example : newTiledImage 4 4 ⟨-2, 0, 2, 1⟩ [1, 2, 3, 4] [1, 2, 3, 4] [1, 2, 3, 4] none 1 =
    .ok [((0, 0), [3,3,3,255, 4,4,4,255] ++ List.replicate 56 0)] ∧ (⟨-2, 0, 2, 1⟩ : Rect).Keeps 4 0 0 := by decide +kernel

/-! ## C52 -/

/-- What is stored for a mask. -/
def maskStored (rect : Rect) (a : List UInt8) (default : UInt8) (x y : Int) : Option (List UInt8) :=
  if rect.minX ≤ x ∧ x < rect.maxX ∧ rect.minY ≤ y ∧ y < rect.maxY then
    if default = 0 then (if channelAt rect 1 a x y ≠ 0 then some [channelAt rect 1 a x y] else none)
    else (if channelAt rect 1 a x y ≠ 255 then some [255 - channelAt rect 1 a x y] else none)
  else none

theorem mask_reads {rect : Rect} {a : List UInt8} (default : UInt8) (ha : Fills rect 1 a) :
    Reads 1 1 (maskCell a default) rect (maskStored rect a default) := by
  refine ⟨?_, ?_, ?_⟩
  · intro x y hm
    have ev := byteAt_channel ha hm
    unfold Rect.Mem at hm
    unfold maskStored maskCell
    rw [if_pos (by omega)]
    simp only [ev, Res.ok_bind]
    split <;> split <;> rfl
  · intro x y px _ hc
    unfold maskStored at hc
    split at hc <;> try (cases hc; done)
    split at hc <;> split at hc <;> first | (cases hc; done) | (cases hc; rfl)
  · intro x y hm
    unfold Rect.Mem at hm
    unfold maskStored
    rw [if_neg (by omega)]

/-- What is stored for a mask in tiles of side `ts`. -/
def keptStored (ts : Nat) (rect : Rect) (a : List UInt8) (default : UInt8) (x y : Int) : Option (List UInt8) :=
  if rect.Keeps ts x y then maskStored rect a default x y else none

/-- The value a pixel's alpha is multiplied by. -/
def effectiveMask (ts : Nat) (rect : Rect) (a : List UInt8) (default : UInt8) (x y : Int) : UInt8 :=
  if default = 255 then 255 - ((keptStored ts rect a default x y).getD [0]).headD 0 else ((keptStored ts rect a default x y).getD [0]).headD 0

theorem masked_up {N x a s u A V : Nat} (hN : N = 65535) (hx : x ≤ 255)
    (u1 : u * N ≤ x * 257 * (a * 257)) (A2 : s * 257 * (a * 257) ≤ A * N + N) (V1 : V * N ≤ s * 257 * u) (h0 : 256 ≤ A) :
    V * N / A / 256 ≤ x + 1 := by
  have hApos : 0 < A := by omega
  have hNpos : 0 < N := by omega
  have : V * N / A < 256 * (x + 2) := by
    rw [Nat.div_lt_iff_lt_mul hApos]
    have k1 : V * N * N ≤ s * 257 * (x * 257 * (a * 257)) := by
      calc V * N * N ≤ s * 257 * u * N := Nat.mul_le_mul_right _ V1
        _ = s * 257 * (u * N) := by ring
        _ ≤ _ := Nat.mul_le_mul_left _ u1
    have k2 : s * 257 * (x * 257 * (a * 257)) ≤ x * 257 * (A * N + N) := by
      calc s * 257 * (x * 257 * (a * 257)) = x * 257 * (s * 257 * (a * 257)) := by ring
        _ ≤ _ := Nat.mul_le_mul_left _ A2
    have k3 : V * N * N ≤ x * 257 * (A + 1) * N := by
      calc V * N * N ≤ x * 257 * (A * N + N) := Nat.le_trans k1 k2
        _ = _ := by ring
    have k4 : V * N ≤ x * 257 * (A + 1) := Nat.le_of_mul_le_mul_right k3 hNpos
    have k6 : x * A ≤ 255 * A := Nat.mul_le_mul_right _ hx
    have k5 : x * 257 * (A + 1) < 256 * (x + 2) * A := by
      have e1 : x * 257 * (A + 1) = 257 * (x * A) + 257 * x := by ring
      have e2 : 256 * (x + 2) * A = 256 * (x * A) + 512 * A := by ring
      omega
    omega
  generalize V * N / A = q at *
  omega

theorem masked_down {N x a s u A V : Nat} (hN : N = 65535) (hs : s * 257 ≤ N)
    (u2 : x * 257 * (a * 257) ≤ u * N + N) (A1 : A * N ≤ s * 257 * (a * 257)) (V2 : s * 257 * u ≤ V * N + N) (h0 : 256 ≤ A) :
    x ≤ V * N / A / 256 + 3 := by
  have hApos : 0 < A := by omega
  have hNpos : 0 < N := by omega
  by_contra hc
  have h4 : V * N / A < 256 * (x - 3) ∧ 4 ≤ x := by
    generalize V * N / A = q at *
    omega
  obtain ⟨h4, h5⟩ := h4
  rw [Nat.div_lt_iff_lt_mul hApos] at h4
  obtain ⟨z, rfl⟩ : ∃ z, x = z + 4 := ⟨x - 4, by omega⟩
  have e : z + 4 - 3 = z + 1 := by omega
  rw [e] at h4
  have k1 : (z + 4) * 257 * (A * N) ≤ s * 257 * (u * N + N) := by
    calc (z + 4) * 257 * (A * N) ≤ (z + 4) * 257 * (s * 257 * (a * 257)) := Nat.mul_le_mul_left _ A1
      _ = s * 257 * ((z + 4) * 257 * (a * 257)) := by ring
      _ ≤ _ := Nat.mul_le_mul_left _ u2
  have k2 : s * 257 * (u * N + N) ≤ (V * N + N) * N + N * N := by
    calc s * 257 * (u * N + N) = s * 257 * u * N + s * 257 * N := by ring
      _ ≤ _ := Nat.add_le_add (Nat.mul_le_mul_right _ V2) (Nat.mul_le_mul_right _ hs)
  have k3 : (z + 4) * 257 * A * N ≤ (V * N + N + N) * N := by
    calc (z + 4) * 257 * A * N = (z + 4) * 257 * (A * N) := by ring
      _ ≤ (V * N + N) * N + N * N := Nat.le_trans k1 k2
      _ = _ := by ring
  have k4 : (z + 4) * 257 * A ≤ V * N + N + N := Nat.le_of_mul_le_mul_right k3 hNpos
  have e1 : (z + 4) * 257 * A = 257 * (z * A) + 1028 * A := by ring
  have e2 : 256 * (z + 1) * A = 256 * (z * A) + 256 * A := by ring
  rw [e1] at k4
  rw [e2] at h4
  generalize z * A = q at *
  generalize V * N = r at *
  omega

theorem div_bounds (v n : Nat) (h : 0 < n) : v / n * n ≤ v ∧ v ≤ v / n * n + n := by
  have h1 := Nat.div_add_mod' v n
  have h2 := Nat.mod_lt v h
  constructor <;> omega

theorem masked_channel {N x a s u A V : Nat} (hN : N = 65535) (hx : x ≤ 255) (hs : s ≤ 255)
    (hu : u = x * 257 * (a * 257) / N) (hA : A = s * 257 * (a * 257) / N) (hV : V = s * 257 * u / N) (h0 : 256 ≤ A) :
    V * N / A / 256 ≤ x + 1 ∧ x ≤ V * N / A / 256 + 3 := by
  have hp : 0 < N := by omega
  have bu := div_bounds (x * 257 * (a * 257)) N hp
  have bA := div_bounds (s * 257 * (a * 257)) N hp
  have bV := div_bounds (s * 257 * u) N hp
  rw [← hu] at bu
  rw [← hA] at bA
  rw [← hV] at bV
  exact ⟨masked_up hN hx bu.1 bA.2 bV.1 h0, masked_down hN (by omega) bu.2 bA.1 bV.2 h0⟩

theorem masked_alpha {a s : Nat} (ha : a ≤ 255) (hs : s ≤ 255) :
    255 * (s * 257 * (a * 257) / 65535 / 256) < a * s + 255 ∧ a * s < 255 * (s * 257 * (a * 257) / 65535 / 256) + 255 := by
  have e : s * 257 * (a * 257) = a * s * 66049 := by ring
  rw [e]
  have : a * s ≤ 65025 := by
    calc a * s ≤ 255 * 255 := Nat.mul_le_mul ha hs
      _ = 65025 := rfl
  generalize a * s = z at *
  omega

theorem stores_masked {m : UInt8} {d p : Px} {D V : RGBA32} (hD : d.Means .nrgba D)
    (ea : V.a.toNat = m.toNat * 257 * D.a.toNat / 65535) (er : V.r.toNat = m.toNat * 257 * D.r.toNat / 65535)
    (eg : V.g.toNat = m.toNat * 257 * D.g.toNat / 65535) (eb : V.b.toNat = m.toNat * 257 * D.b.toNat / 65535)
    (hp : p.Stores .nrgba V) : MaskedBy m d p := by
  obtain ⟨da, dr, dg, db⟩ := hD
  obtain ⟨pa, pr, pg, pb⟩ := hp
  dsimp only at dr dg db pr pg pb
  have ha : d.a.toNat ≤ 255 := by have := d.a.toNat_lt; omega
  have hm : m.toNat ≤ 255 := by have := m.toNat_lt; omega
  have := masked_alpha ha hm
  rw [da] at ea
  rw [ea] at pa pr pg pb
  rw [← pa] at this
  refine ⟨this.1, this.2, ?_⟩
  intro h0 x y hxy
  have h256 : 256 ≤ m.toNat * 257 * (d.a.toNat * 257) / 65535 := by
    by_contra hc
    apply h0
    apply UInt8.toNat_inj.1
    rw [pa]
    show _ = 0
    omega
  have key : ∀ (x y : UInt8) (u w : Nat), u = scale16 (x.toNat * 257) (d.a.toNat * 257) → w = m.toNat * 257 * u / 65535 →
      y.toNat = w * 65535 / (m.toNat * 257 * (d.a.toNat * 257) / 65535) / 256 → y.toNat ≤ x.toNat + 1 ∧ x.toNat ≤ y.toNat + 3 := by
    intro x y u w hu hw hy
    have hx : x.toNat ≤ 255 := by have := x.toNat_lt; omega
    rw [hy]
    exact masked_channel rfl hx hm hu rfl hw h256
  simp only [List.mem_cons, Prod.mk.injEq, List.not_mem_nil, or_false] at hxy
  rcases hxy with ⟨rfl, rfl⟩ | ⟨rfl, rfl⟩ | ⟨rfl, rfl⟩
  · exact key _ _ _ _ dr er pr
  · exact key _ _ _ _ dg eg pg
  · exact key _ _ _ _ db eb pb

theorem destIn_masks (v : UInt8) (d : Px) : ∃ p, drawPD .destIn .nrgba (.alpha v) d = .ok p ∧ MaskedBy v d p := by
  obtain ⟨S, D, V, p, hS, hD, ⟨ea, er, eg, eb⟩, _, e, hp⟩ := C47_drawing .destIn .nrgba (.alpha v) d trivial (fun h => by cases h)
  refine ⟨p, e, ?_⟩
  have hSa : S.a.toNat = v.toNat * 257 := by
    have : S = ⟨0, 0, 0, _⟩ := hS
    rw [this]
    exact wide8 v
  unfold PD.mix PD.factors at ea er eg eb
  dsimp only at ea er eg eb
  rw [hSa, Nat.zero_mul, Nat.zero_add] at ea er eg eb
  exact stores_masked hD ea er eg eb hp

theorem destOut_masks (v : UInt8) (d : Px) : ∃ p, drawPD .destOut .nrgba (.alpha v) d = .ok p ∧ MaskedBy (255 - v) d p := by
  obtain ⟨S, D, V, p, hS, hD, ⟨ea, er, eg, eb⟩, _, e, hp⟩ := C47_drawing .destOut .nrgba (.alpha v) d trivial (fun h => by cases h)
  refine ⟨p, e, ?_⟩
  have hSa : S.a.toNat = v.toNat * 257 := by
    have : S = ⟨0, 0, 0, _⟩ := hS
    rw [this]
    exact wide8 v
  have hv := v.toNat_lt
  have hm : (255 - v).toNat * 257 = 65535 - v.toNat * 257 := by
    rw [UInt8.toNat_sub_of_le _ _ (by rw [UInt8.le_iff_toNat_le]; show v.toNat ≤ 255; omega)]
    show (255 - v.toNat) * 257 = _
    omega
  unfold PD.mix PD.factors at ea er eg eb
  dsimp only at ea er eg eb
  rw [hSa, Nat.zero_mul, Nat.zero_add, ← hm] at ea er eg eb
  exact stores_masked hD ea er eg eb hp

theorem clear_masks (d : Px) : ∃ p, drawPD .clear .nrgba (.uniform ⟨0, 0, 0, 0⟩) d = .ok p ∧ MaskedBy 0 d p := by
  refine ⟨⟨0, 0, 0, 0⟩, ?_, ?_, ?_, fun h => absurd rfl h⟩
  · unfold drawPD
    have : pdOp .clear (PDSrc.uniform ⟨0, 0, 0, 0⟩).read (readPx .nrgba d) = ⟨0, 0, 0, 0⟩ := rfl
    rw [this]
    rfl
  · show 255 * 0 < d.a.toNat * 0 + 255
    omega
  · show d.a.toNat * 0 < 255 * 0 + 255
    omega

theorem keep_masks (d : Px) : MaskedBy 255 d d := by
  refine ⟨?_, ?_, ?_⟩
  · show 255 * d.a.toNat < d.a.toNat * 255 + 255
    omega
  · show d.a.toNat * 255 < 255 * d.a.toNat + 255
    omega
  · intro _ x y hxy
    simp only [List.mem_cons, Prod.mk.injEq, List.not_mem_nil, or_false] at hxy
    rcases hxy with ⟨rfl, rfl⟩ | ⟨rfl, rfl⟩ | ⟨rfl, rfl⟩ <;> omega

theorem lookup_of_mem {p : Int × Int} {b : List UInt8} : ∀ {m : List ((Int × Int) × List UInt8)}, (m.map Prod.fst).Nodup → (p, b) ∈ m → m.lookup p = some b
  | e :: m, hn, h => by
    rw [List.map_cons, List.nodup_cons] at hn
    rcases List.mem_cons.1 h with rfl | h
    · simp [List.lookup]
    · have : p ≠ e.1 := fun he => hn.1 (he ▸ List.mem_map_of_mem h)
      have hb : (p == e.1) = false := by simpa using this
      rw [List.lookup_cons, hb]
      exact lookup_of_mem hn.2 h

theorem lookup_none {p : Int × Int} : ∀ {m : List ((Int × Int) × List UInt8)}, (∀ b, (p, b) ∉ m) → m.lookup p = none
  | [], _ => rfl
  | e :: m, h => by
    have : p ≠ e.1 := fun he => h e.2 (he ▸ List.mem_cons_self ..)
    have hb : (p == e.1) = false := by simpa using this
    rw [List.lookup_cons, hb]
    exact lookup_none fun b hb => h b (List.mem_cons_of_mem _ hb)

/-- What the renderer does with any mask: a pixel is multiplied by `effectiveMask`. -/
theorem mask_effect (procs ts : Nat) (hp : 1 ≤ procs) (hts : 1 ≤ ts) (rect : Rect) (a : List UInt8) (default : UInt8)
    (ha : Fills rect 1 a) (hne : rect.empty = false) :
    ∃ tiles, newTiledMask procs ts rect a default = .ok tiles ∧ ∀ (p : Int × Int), (ts : Int) ∣ p.1 → (ts : Int) ∣ p.2 →
      ∀ (i j : Nat), i < ts → j < ts → ∀ d : Px, ∃ out, maskPixel ts tiles default p i j d = .ok out ∧
        MaskedBy (effectiveMask ts rect a default (p.1 + i) (p.2 + j)) d out := by
  rw [Rect.nonempty_iff] at hne
  obtain ⟨t1, t2, t3⟩ := C66_each_tile_once_partial procs ts hp hts rect
  have hreads := mask_reads default ha
  obtain ⟨m, e, sub, hold, all⟩ := storeAll_spec hreads hne.1 hne.2 (tileWork procs ts rect) (tileWork_meets hp hts rect)
  have hnd : (m.map Prod.fst).Nodup := sub.nodup t1
  have hfst : ∀ x ∈ m, x.1 ∈ (tileWork procs ts rect).flatten := fun x hx => sub.subset (List.mem_map_of_mem hx)
  refine ⟨m, e, ?_⟩
  intro p hp1 hp2 i j hi hj d
  have hpix : InTile ts p (p.1 + i) (p.2 + j) := ⟨by omega, by omega, by omega, by omega⟩
  unfold maskPixel effectiveMask
  by_cases hin : ∃ b, (p, b) ∈ m
  · obtain ⟨b, hb⟩ := hin
    rw [lookup_of_mem hnd hb]
    have hh := (hold _ hb).1.2 i j hi hj
    have hq : j * ts + i < ts * ts := by
      have : (j + 1) * ts ≤ ts * ts := Nat.mul_le_mul_right _ hj
      rw [Nat.add_mul] at this
      omega
    have hlen : j * ts + i < b.length := by
      have : b.length = ts * 1 * ts := (hold _ hb).1.1
      rw [Nat.mul_one] at this
      omega
    have hks : keptStored ts rect a default (p.1 + i) (p.2 + j) = maskStored rect a default (p.1 + i) (p.2 + j) := by
      unfold keptStored
      split
      · rfl
      · rename_i hk
        by_cases hm : rect.Mem (p.1 + i) (p.2 + j)
        · exact absurd hpix ((C66_negative_edge_missed procs ts hp hts rect).1 _ _ hm hk p (hfst _ hb))
        · exact (hreads.outside _ _ hm).symm
    rw [hks]
    have hv : ((maskStored rect a default (p.1 + i) (p.2 + j)).getD [0]).headD 0 = b[j * ts + i] := by
      have : (maskStored rect a default (p.1 + i) (p.2 + j)).getD [0] = blk 1 b (j * ts + i) := hh.symm
      rw [this]
      unfold blk
      rw [Nat.mul_one, List.drop_eq_getElem_cons hlen]
      rfl
    rw [hv]
    have hbyte : byteAt b ((j * ts + i : Nat) : Int) = .ok b[j * ts + i] := by
      unfold byteAt
      rw [if_neg (by omega), Int.toNat_natCast, List.getElem?_eq_getElem hlen]
    simp only [hbyte, Res.ok_bind]
    by_cases hd : default = 255
    · rw [if_neg (by simpa using hd), if_pos hd]
      exact destOut_masks _ d
    · rw [if_pos (by simpa using hd), if_neg hd]
      exact destIn_masks _ d
  · have hin' : ∀ b, (p, b) ∉ m := fun b hb => hin ⟨b, hb⟩
    rw [lookup_none hin']
    have hv : keptStored ts rect a default (p.1 + i) (p.2 + j) = none := by
      cases hcc : keptStored ts rect a default (p.1 + i) (p.2 + j) with
      | none => rfl
      | some v =>
        exfalso
        unfold keptStored at hcc
        split at hcc
        case isFalse => cases hcc
        rename_i hm
        have hc := hcc
        obtain ⟨q, hqm, ⟨q1, q2, q3, q4⟩, _⟩ := t2 _ _ hm
        obtain ⟨⟨k1, e1⟩, ⟨k2, e2⟩, _⟩ := t3 q hqm
        obtain ⟨l1, f1⟩ := hp1
        obtain ⟨l2, f2⟩ := hp2
        have same : ∀ (k l : Int) (i : Nat), i < ts → (ts : Int) * k ≤ ts * l + i → (ts : Int) * l + i < ts * k + ts → k = l := by
          intro k l i hi h1 h2
          have a1 : (ts : Int) * k < ts * (l + 1) := by rw [Int.mul_add]; omega
          have a2 : (ts : Int) * l < ts * (k + 1) := by rw [Int.mul_add]; omega
          have b1 := Int.lt_of_mul_lt_mul_left a1 (by omega)
          have b2 := Int.lt_of_mul_lt_mul_left a2 (by omega)
          omega
        have s1 := same k1 l1 i hi (by omega) (by omega)
        have s2 := same k2 l2 j hj (by omega) (by omega)
        have : q = p := Prod.ext (by rw [e1, f1, s1]) (by rw [e2, f2, s2])
        subst this
        exact hin (all q hqm ⟨i, j, hi, hj, by rw [hc]; rfl⟩)
    rw [hv]
    by_cases hd : default = 255
    · rw [if_neg (by simpa using hd), if_pos hd]
      exact ⟨d, rfl, keep_masks d⟩
    · rw [if_pos (by simpa using hd), if_neg hd]
      exact clear_masks d

theorem compl_compl (x : UInt8) : 255 - (255 - x) = x := by
  have := x.toNat_lt
  apply UInt8.toNat_inj.1
  have h1 : (255 - x).toNat = 255 - x.toNat := UInt8.toNat_sub_of_le _ _ (by rw [UInt8.le_iff_toNat_le]; show x.toNat ≤ 255; omega)
  rw [UInt8.toNat_sub_of_le _ _ (by rw [UInt8.le_iff_toNat_le, h1]; show 255 - x.toNat ≤ 255; omega), h1]
  show 255 - (255 - x.toNat) = _
  omega

/-- **C52** (in part) For every mask whose default colour is 0 or 255, tile size and number of processors: drawing a tile of a
layer multiplies the alpha of every pixel by the mask's value there, the default colour outside the mask, to less than one
level; the colours stay within three levels unless the pixel vanishes. The pixels of the mask before the first grid line after a negative edge, none of which are
on the canvas (`cutMaskAt_canvas`), count as outside.

Missing: the other default colours, which a file may hold, and for which the mask is turned around
(`C52_other_defaults_invert`); the pixels before the first grid line. -/
theorem C52_mask_partial (procs ts : Nat) (hp : 1 ≤ procs) (hts : 1 ≤ ts) (rect : Rect) (a : List UInt8) (default : UInt8)
    (hd : default = 0 ∨ default = 255) (ha : Fills rect 1 a) (hne : rect.empty = false) :
    ∃ tiles, newTiledMask procs ts rect a default = .ok tiles ∧ ∀ (p : Int × Int), (ts : Int) ∣ p.1 → (ts : Int) ∣ p.2 →
      ∀ (i j : Nat), i < ts → j < ts → ∀ d : Px, ∃ out, maskPixel ts tiles default p i j d = .ok out ∧
        MaskedBy (cutMaskAt ts rect a default (p.1 + i) (p.2 + j)) d out := by
  obtain ⟨m, e, h⟩ := mask_effect procs ts hp hts rect a default ha hne
  refine ⟨m, e, ?_⟩
  intro p hp1 hp2 i j hi hj d
  have : effectiveMask ts rect a default (p.1 + i) (p.2 + j) = cutMaskAt ts rect a default (p.1 + i) (p.2 + j) := by
    by_cases hk : rect.Keeps ts (p.1 + i) (p.2 + j)
    case neg =>
      unfold effectiveMask keptStored cutMaskAt
      rw [if_neg hk, if_neg hk]
      rcases hd with rfl | rfl <;> rfl
    unfold effectiveMask keptStored cutMaskAt
    rw [if_pos hk, if_pos hk]
    have hmem := hk.1
    unfold Rect.Mem at hmem
    unfold maskStored
    rw [if_pos hmem]
    rcases hd with rfl | rfl
    · rw [if_neg (by decide), if_pos rfl]
      split
      · rfl
      · rename_i hh
        exact (not_not.1 hh).symm
    · rw [if_pos rfl, if_neg (by decide)]
      split
      · exact compl_compl _
      · rename_i hh
        exact (not_not.1 hh).symm
  rw [← this]
  exact h p hp1 hp2 i j hi hj d

/-- **C52** is false of every default colour other than 0 and 255: inside the mask's rectangle the alpha is multiplied by
the complement of the mask, and outside by 0, whatever the default colour. -/
theorem C52_other_defaults_invert (procs ts : Nat) (hp : 1 ≤ procs) (hts : 1 ≤ ts) (rect : Rect) (a : List UInt8) (default : UInt8)
    (hd : default ≠ 0 ∧ default ≠ 255) (ha : Fills rect 1 a) (hne : rect.empty = false) :
    ∃ tiles, newTiledMask procs ts rect a default = .ok tiles ∧ ∀ (p : Int × Int), (ts : Int) ∣ p.1 → (ts : Int) ∣ p.2 →
      ∀ (i j : Nat), i < ts → j < ts → ∀ d : Px, ∃ out, maskPixel ts tiles default p i j d = .ok out ∧
        MaskedBy (255 - cutMaskAt ts rect a 255 (p.1 + i) (p.2 + j)) d out := by
  obtain ⟨m, e, h⟩ := mask_effect procs ts hp hts rect a default ha hne
  refine ⟨m, e, ?_⟩
  intro p hp1 hp2 i j hi hj d
  have : effectiveMask ts rect a default (p.1 + i) (p.2 + j) = 255 - cutMaskAt ts rect a 255 (p.1 + i) (p.2 + j) := by
    by_cases hk : rect.Keeps ts (p.1 + i) (p.2 + j)
    case neg =>
      unfold effectiveMask keptStored cutMaskAt
      rw [if_neg hk, if_neg hk, if_neg hd.2]
      rfl
    unfold effectiveMask keptStored cutMaskAt
    rw [if_pos hk, if_pos hk]
    have hmem := hk.1
    unfold Rect.Mem at hmem
    unfold maskStored
    rw [if_neg hd.2, if_pos hmem]
    rw [if_neg hd.1]
    split
    · rfl
    · rename_i hh
      rw [not_not.1 hh]
      rfl
  rw [← this]
  exact h p hp1 hp2 i j hi hj d

/-- A mask from (-1, 0) to (1, 1) on tiles of side 2: of its values 10 and 20 the second one is kept. -/
example : newTiledMask 1 2 ⟨-1, 0, 1, 1⟩ [10, 20] 0 = .ok [((0, 0), [20, 0, 0, 0])] ∧ cutMaskAt 2 ⟨-1, 0, 1, 1⟩ [10, 20] 0 0 0 = 20 ∧
    cutMaskAt 2 ⟨-1, 0, 1, 1⟩ [10, 20] 0 (-1) 0 = 0 := by decide +kernel

/-- A 2 by 1 mask at (1, 0): one pixel half, one fully visible; hidden outside. -/
example : newTiledMask 1 2 ⟨1, 0, 3, 1⟩ [128, 255] 0 = .ok [((0, 0), [0, 128, 0, 0]), ((2, 0), [255, 0, 0, 0])] ∧
    maskPixel 2 [((0, 0), [0, 128, 0, 0]), ((2, 0), [255, 0, 0, 0])] 0 (0, 0) 1 0 ⟨200, 100, 50, 255⟩ = .ok ⟨200, 100, 50, 128⟩ ∧
    MaskedBy 128 ⟨200, 100, 50, 255⟩ ⟨200, 100, 50, 128⟩ := by
  refine ⟨by decide +kernel, by rfl, by decide, by decide, ?_⟩
  intro _ x y hxy
  simp only [List.mem_cons, Prod.mk.injEq, List.not_mem_nil, or_false] at hxy
  rcases hxy with ⟨rfl, rfl⟩ | ⟨rfl, rfl⟩ | ⟨rfl, rfl⟩ <;> decide

/-- With default colour 128 a fully visible mask hides the layer. -/
example : newTiledMask 1 2 ⟨0, 0, 2, 2⟩ [255, 255, 255, 255] 128 = .ok [] ∧
    maskPixel 2 [] 128 (0, 0) 0 0 ⟨200, 100, 50, 255⟩ = .ok ⟨0, 0, 0, 0⟩ := ⟨by decide +kernel, by rfl⟩

end Psd
