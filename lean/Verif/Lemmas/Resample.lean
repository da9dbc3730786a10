import Verif.Model.Resample
import Verif.Lemmas.Scene
import Verif.Lemmas.LoadTiles
import Verif.Spec.Resample

/-!
# Putting tiles together and cutting pictures into tiles again
-/

namespace Psd

/-! ### The bytes of a picture -/

theorem length_blocks {α : Type} {k : Nat} {f : α → List UInt8} : ∀ {l : List α}, (∀ a ∈ l, (f a).length = k) → (l.flatMap f).length = l.length * k
  | [], _ => by simp
  | a :: l, h => by
    rw [List.flatMap_cons, List.length_append, h a (List.mem_cons_self ..), length_blocks fun b hb => h b (List.mem_cons_of_mem _ hb), List.length_cons]
    ring

theorem getD_blocks {α : Type} {k : Nat} {f : α → List UInt8} {d : UInt8} : ∀ {l : List α} {i : Nat} {a : α}, (∀ a ∈ l, (f a).length = k) →
    l[i]? = some a → ∀ c, c < k → (l.flatMap f).getD (i * k + c) d = (f a).getD c d
  | [], i, a, _, h, c, hc => by simp at h
  | b :: l, 0, a, hl, h, c, hc => by
    simp only [List.getElem?_cons_zero, Option.some.injEq] at h
    subst h
    rw [List.flatMap_cons, Nat.zero_mul, Nat.zero_add, List.getD_eq_getElem?_getD, List.getElem?_append_left (by rw [hl b (List.mem_cons_self ..)]; exact hc), ← List.getD_eq_getElem?_getD]
  | b :: l, i + 1, a, hl, h, c, hc => by
    rw [List.getElem?_cons_succ] at h
    have hb := hl b (List.mem_cons_self ..)
    rw [List.flatMap_cons, List.getD_eq_getElem?_getD, List.getElem?_append_right (by rw [hb, Nat.add_mul, Nat.one_mul]; omega), hb,
      show (i + 1) * k + c - k = i * k + c by rw [Nat.add_mul, Nat.one_mul]; omega, ← List.getD_eq_getElem?_getD]
    exact getD_blocks (fun a ha => hl a (List.mem_cons_of_mem _ ha)) h c hc

section
variable {rect : Rect} {k : Nat} {pic : Int → Int → List UInt8}

theorem pixOf_length (hk : ∀ x y, (pic x y).length = k) : (pixOf rect pic).length = rect.dx.toNat * rect.dy.toNat * k := by
  rw [pixOf, length_blocks (k := k) fun _ _ => hk _ _, List.length_range]

/-- The place of a pixel in the rows of a rectangle. -/
theorem rect_index {x y : Int} (hm : rect.Mem x y) :
    ∃ i : Nat, (i : Int) = (y - rect.minY) * rect.dx + (x - rect.minX) ∧ i < rect.dx.toNat * rect.dy.toNat ∧
      rect.minX + (i % rect.dx.toNat : Nat) = x ∧ rect.minY + (i / rect.dx.toNat : Nat) = y := by
  unfold Rect.Mem at hm
  have e1 : rect.dx = rect.maxX - rect.minX := rfl
  have e2 : rect.dy = rect.maxY - rect.minY := rfl
  obtain ⟨w, hw⟩ : ∃ w : Nat, rect.dx = w := ⟨rect.dx.toNat, by omega⟩
  obtain ⟨u, hu⟩ : ∃ u : Nat, x - rect.minX = u := ⟨(x - rect.minX).toNat, by omega⟩
  obtain ⟨v, hv⟩ : ∃ v : Nat, y - rect.minY = v := ⟨(y - rect.minY).toNat, by omega⟩
  obtain ⟨h, hh⟩ : ∃ h : Nat, rect.dy = h := ⟨rect.dy.toNat, by omega⟩
  have huw : u < w := by omega
  have hvh : v < h := by omega
  refine ⟨v * w + u, ?_, ?_, ?_, ?_⟩
  · rw [hw, hu, hv]; push_cast; rfl
  · rw [hw, hh, Int.toNat_natCast, Int.toNat_natCast, Nat.mul_comm w]
    have : (v + 1) * w ≤ h * w := Nat.mul_le_mul_right _ hvh
    rw [Nat.add_mul] at this
    omega
  · rw [hw, Int.toNat_natCast, Nat.mul_comm v, Nat.mul_add_mod, Nat.mod_eq_of_lt huw]
    omega
  · rw [hw, Int.toNat_natCast, Nat.mul_comm v, Nat.mul_add_div (by omega), Nat.div_eq_of_lt huw]
    omega

theorem channelAt_pixOf (hk : ∀ x y, (pic x y).length = k) {c : Nat} (hc : c < k) {x y : Int} (hm : rect.Mem x y) :
    channelAt rect k ((pixOf rect pic).drop c) x y = (pic x y).getD c 0 := by
  obtain ⟨i, h1, h2, h3, h4⟩ := rect_index hm
  unfold channelAt
  rw [← h1]
  have e : ((i : Int) * (k : Int)).toNat = i * k := by rw [← Int.natCast_mul, Int.toNat_natCast]
  rw [e, List.getD_eq_getElem?_getD, List.getElem?_drop, ← List.getD_eq_getElem?_getD, Nat.add_comm c]
  unfold pixOf
  rw [getD_blocks (k := k) (a := i) (fun _ _ => hk _ _) (by rw [List.getElem?_range h2]) c hc, h3, h4]

theorem fills_of_bytes {ch : List UInt8} {c : Nat} (hc : c < k) (hl : rect.dx.toNat * rect.dy.toNat * k ≤ ch.length) : Fills rect k (ch.drop c) := by
  intro x y h1 h2 h3 h4
  obtain ⟨i, g1, g2, -, -⟩ := rect_index (rect := rect) (x := x) (y := y) ⟨h1, h2, h3, h4⟩
  rw [← g1, List.length_drop]
  have : (i + 1) * k ≤ rect.dx.toNat * rect.dy.toNat * k := Nat.mul_le_mul_right _ g2
  rw [Nat.add_mul, Nat.one_mul] at this
  have h : i * k < ch.length - c := by omega
  exact_mod_cast h

end

/-! ### The bounding box -/

/-- All edges are on the grid. -/
def Rect.AllOnGrid (ts : Nat) (r : Rect) : Prop := (ts : Int) ∣ r.minX ∧ (ts : Int) ∣ r.minY ∧ (ts : Int) ∣ r.maxX ∧ (ts : Int) ∣ r.maxY

/-- `s` lies in `r`. -/
def Rect.Holds (r s : Rect) : Prop := r.minX ≤ s.minX ∧ r.minY ≤ s.minY ∧ s.maxX ≤ r.maxX ∧ s.maxY ≤ r.maxY

theorem dvd_min {t a b : Int} (ha : t ∣ a) (hb : t ∣ b) : t ∣ min a b := by
  rcases Int.le_total a b with h | h
  · rwa [Int.min_eq_left h]
  · rwa [Int.min_eq_right h]

theorem dvd_max {t a b : Int} (ha : t ∣ a) (hb : t ∣ b) : t ∣ max a b := by
  rcases Int.le_total a b with h | h
  · rwa [Int.max_eq_right h]
  · rwa [Int.max_eq_left h]

theorem union_spec {r s : Rect} {ts : Nat} (hr : r.empty = false) (hg : r.AllOnGrid ts) (hs : s.empty = true ∨ s.AllOnGrid ts) :
    (r.union s).AllOnGrid ts ∧ (r.union s).Holds r ∧ (s.empty = false → (r.union s).Holds s) := by
  unfold Rect.union
  rw [hr]
  simp only [Bool.false_eq_true, if_false]
  cases h : s.empty
  · simp only [Bool.false_eq_true, if_false]
    rcases hs with hs | hs
    · rw [h] at hs; cases hs
    · refine ⟨⟨dvd_min hg.1 hs.1, dvd_min hg.2.1 hs.2.1, dvd_max hg.2.2.1 hs.2.2.1, dvd_max hg.2.2.2 hs.2.2.2⟩, ?_, fun _ => ?_⟩ <;>
        (unfold Rect.Holds; simp only; omega)
  · simp only [if_true]
    refine ⟨hg, ?_, fun h => by cases h⟩
    unfold Rect.Holds
    omega

theorem Rect.Holds.trans {r s t : Rect} (h : r.Holds s) (g : s.Holds t) : r.Holds t := by
  unfold Rect.Holds at *
  omega

theorem tileRect_grid {ts : Nat} {p : Int × Int} (h1 : (ts : Int) ∣ p.1) (h2 : (ts : Int) ∣ p.2) : (tileRect ts p).AllOnGrid ts :=
  ⟨h1, h2, Int.dvd_add h1 (Int.dvd_refl _), Int.dvd_add h2 (Int.dvd_refl _)⟩

theorem foldl_tiles_spec {ts : Nat} (hts : 1 ≤ ts) : ∀ (m : TileMap) (r : Rect), (∀ e ∈ m, (ts : Int) ∣ e.1.1 ∧ (ts : Int) ∣ e.1.2) →
    r.empty = true ∨ r.AllOnGrid ts → m ≠ [] ∨ r.AllOnGrid ts →
    (m.foldl (fun r e => (tileRect ts e.1).union r) r).AllOnGrid ts ∧
    (r.empty = false → (m.foldl (fun r e => (tileRect ts e.1).union r) r).Holds r) ∧
    ∀ e ∈ m, (m.foldl (fun r e => (tileRect ts e.1).union r) r).Holds (tileRect ts e.1)
  | [], r, _, _, h => by
    refine ⟨h.resolve_left fun h => h rfl, fun _ => ?_, fun e he => by cases he⟩
    unfold Rect.Holds
    simp
  | e :: m, r, hm, hr, _ => by
    obtain ⟨h1, h2⟩ := hm e (List.mem_cons_self ..)
    obtain ⟨u1, u2, u3⟩ := union_spec (tileRect_nonempty hts e.1) (tileRect_grid h1 h2) hr
    obtain ⟨g1, g2, g3⟩ := foldl_tiles_spec hts m _ (fun x hx => hm x (List.mem_cons_of_mem _ hx)) (.inr u1) (.inr u1)
    have g2 := g2 (union_nonempty (tileRect_nonempty hts e.1))
    refine ⟨g1, fun h => g2.trans (u3 h), fun x hx => ?_⟩
    rcases List.mem_cons.1 hx with rfl | hx
    · exact g2.trans u2
    · exact g3 x hx

/-- The box of tiles on the grid is on the grid and holds every tile. -/
theorem tilesRect_spec {ts : Nat} (hts : 1 ≤ ts) {m : TileMap} (hne : m ≠ []) (hm : ∀ e ∈ m, (ts : Int) ∣ e.1.1 ∧ (ts : Int) ∣ e.1.2) :
    (tilesRect ts m).AllOnGrid ts ∧ ∀ e ∈ m, (tilesRect ts m).Holds (tileRect ts e.1) := by
  obtain ⟨h1, -, h3⟩ := foldl_tiles_spec hts m Rect.zero hm (.inl rfl) (.inl hne)
  exact ⟨h1, h3⟩

/-! ### Putting tiles together -/

/-- What a tile shows after it was copied. -/
def copied (p : Px) : Px := pxOr p (drawPD .copy .nrgba (.px .nrgba p) ⟨0, 0, 0, 0⟩)

theorem copy_any (p d : Px) : pxOr d (drawPD .copy .nrgba (.px .nrgba p) d) = copied p := by
  obtain ⟨q, e, -⟩ := (C46_copy_partial p d).1
  have ind : ∀ D, pdOp .copy (PDSrc.px .nrgba p).read D = (PDSrc.px .nrgba p).read := fun _ => rfl
  have e' : drawPD .copy .nrgba (.px .nrgba p) ⟨0, 0, 0, 0⟩ = .ok q := by
    rw [← e]
    unfold drawPD
    rw [ind, ind]
  unfold copied
  rw [e, e']
  rfl

theorem clear_any (d : Px) : pxOr d (drawPD .clear .nrgba (.uniform ⟨0, 0, 0, 0⟩) d) = ⟨0, 0, 0, 0⟩ := by
  have : drawPD .clear .nrgba (.uniform ⟨0, 0, 0, 0⟩) d = .ok ⟨0, 0, 0, 0⟩ := by
    unfold drawPD
    have : pdOp .clear (PDSrc.uniform ⟨0, 0, 0, 0⟩).read (readPx .nrgba d) = ⟨0, 0, 0, 0⟩ := rfl
    rw [this]
    rfl
  rw [this]
  rfl

theorem alphaThrough_id (v : UInt8) : alphaThrough v = v := by
  have h : ∀ n < 256, alphaThrough (UInt8.ofNat n) = UInt8.ofNat n := by decide +kernel
  have := h v.toNat v.toNat_lt
  rwa [UInt8.ofNat_toNat] at this

theorem floor_add {ts : Nat} (hts : 1 ≤ ts) (v : Int) : v / ts * ts + ((v % ts).toNat : Int) = v := by
  rw [Int.toNat_of_nonneg (Int.emod_nonneg _ (by omega)), Int.mul_comm]
  exact Int.mul_ediv_add_emod v ts

theorem mod_lt {ts : Nat} (hts : 1 ≤ ts) (v : Int) : (v % ts).toNat < ts := by
  have := Int.emod_lt_of_pos v (show (0 : Int) < ts by omega)
  have := Int.emod_nonneg v (show (ts : Int) ≠ 0 by omega)
  omega

theorem floor_unique {ts : Nat} (hts : 1 ≤ ts) {v a : Int} (ha : (ts : Int) ∣ a) (h1 : a ≤ v) (h2 : v < a + ts) : a = v / ts * ts := by
  obtain ⟨b, rfl⟩ := ha
  have hts' : (0 : Int) < ts := by omega
  have : v / ts = b := by
    apply Int.le_antisymm
    · refine Int.lt_add_one_iff.1 (Int.ediv_lt_of_lt_mul hts' ?_)
      rw [Int.add_mul, Int.one_mul, Int.mul_comm b]
      exact h2
    · exact Int.le_ediv_of_mul_le hts' (by rw [Int.mul_comm]; exact h1)
  rw [this, Int.mul_comm]

theorem floor_mem {ts : Nat} (hts : 1 ≤ ts) (x y : Int) : (tileRect ts (tilePt ts x y)).Mem x y := by
  have h1 := floor_add hts x
  have h2 := floor_add hts y
  have h3 := mod_lt hts x
  have h4 := mod_lt hts y
  unfold tileRect tilePt Rect.Mem
  simp only
  omega

/-- A pixel has the value that its tile gives it, whatever the order of the tiles. -/
theorem foldl_pixel {V : Type} {ts : Nat} (hts : 1 ≤ ts) {rect : Rect} {x y : Int} (hm : rect.Mem x y) (f : (Int → Int → V) → Int × Int → Int → Int → V)
    (v : V) (h1 : ∀ pic, f pic (tilePt ts x y) x y = v) (h2 : ∀ pic p, ¬(tileRect ts p).Mem x y → f pic p x y = pic x y) :
    ∀ (ps : List (Int × Int)) (pic : Int → Int → V), (∀ p ∈ ps, (ts : Int) ∣ p.1 ∧ (ts : Int) ∣ p.2) → pic x y = v ∨ tilePt ts x y ∈ ps →
      ps.foldl f pic x y = v
  | [], pic, _, h => h.resolve_right (by simp)
  | p :: ps, pic, hg, h => by
    refine foldl_pixel hts hm f v h1 h2 ps (f pic p) (fun q hq => hg q (List.mem_cons_of_mem _ hq)) ?_
    by_cases hp : (tileRect ts p).Mem x y
    · left
      obtain ⟨g1, g2⟩ := hg p (List.mem_cons_self ..)
      unfold tileRect Rect.Mem at hp
      simp only at hp
      have : p = tilePt ts x y := Prod.ext (floor_unique hts g1 (by omega) (by omega)) (floor_unique hts g2 (by omega) (by omega))
      rw [this]
      exact h1 pic
    · rw [h2 pic p hp]
      rcases h with h | h
      · exact .inl h
      · rcases List.mem_cons.1 h with h | h
        · exact absurd (h ▸ floor_mem hts x y) hp
        · exact .inr h

theorem sub_toNat {ts : Nat} (hts : 1 ≤ ts) (v : Int) : (v - v / ts * ts).toNat = (v % ts).toNat := by
  have := floor_add hts v
  omega

theorem renderTiled_pixel {ts : Nat} (hts : 1 ≤ ts) {rect : Rect} {x y : Int} (hm : rect.Mem x y) {tiles : TileMap} {ps : List (Int × Int)}
    (hg : ∀ p ∈ ps, (ts : Int) ∣ p.1 ∧ (ts : Int) ∣ p.2) (hin : tilePt ts x y ∈ ps) (pic : Int → Int → Px) :
    renderTiled ts rect tiles ps pic x y = match tiles.lookup (tilePt ts x y) with
      | some buf => copied (nrgbaTile buf (tileIx ts x y))
      | none => ⟨0, 0, 0, 0⟩ := by
  unfold renderTiled
  refine foldl_pixel hts hm _ _ (fun pic => ?_) (fun pic p hp => ?_) ps pic hg (.inr hin)
  · cases tiles.lookup (tilePt ts x y) with
    | none =>
      simp only [eraseTile]
      rw [if_pos ⟨hm, floor_mem hts x y⟩, clear_any]
    | some buf =>
      simp only [copyTile]
      rw [if_pos ⟨hm, floor_mem hts x y⟩, copy_any]
      unfold tileIx
      rw [show (tilePt ts x y).2 = y / ts * ts from rfl, show (tilePt ts x y).1 = x / ts * ts from rfl, sub_toNat hts, sub_toNat hts]
  · cases tiles.lookup p with
    | none =>
      simp only [eraseTile]
      rw [if_neg fun h => hp h.2]
    | some buf =>
      simp only [copyTile]
      rw [if_neg fun h => hp h.2]

theorem renderMask_pixel {ts : Nat} (hts : 1 ≤ ts) {rect : Rect} {x y : Int} (hm : rect.Mem x y) {tiles : TileMap} {ps : List (Int × Int)}
    (hg : ∀ p ∈ ps, (ts : Int) ∣ p.1 ∧ (ts : Int) ∣ p.2) (hin : tilePt ts x y ∈ ps) (pic : Int → Int → UInt8) :
    renderMask ts rect tiles ps pic x y = match tiles.lookup (tilePt ts x y) with
      | some buf => alphaTile buf (tileIx ts x y)
      | none => 0 := by
  unfold renderMask
  refine foldl_pixel hts hm _ _ (fun pic => ?_) (fun pic p hp => ?_) ps pic hg (.inr hin)
  · rw [if_pos ⟨hm, floor_mem hts x y⟩]
    cases tiles.lookup (tilePt ts x y) with
    | none => rfl
    | some buf =>
      simp only
      rw [alphaThrough_id]
      unfold tileIx
      rw [show (tilePt ts x y).2 = y / ts * ts from rfl, show (tilePt ts x y).1 = x / ts * ts from rfl, sub_toNat hts, sub_toNat hts]
  · rw [if_neg fun h => hp h.2]

theorem Orders.tiles {procs ts : Nat} (hp : 1 ≤ procs) (hts : 1 ≤ ts) {order : TileOrder} (h : Orders procs ts order) {rect : Rect} (hg : rect.OnGrid ts) :
    (∀ p ∈ order rect, (ts : Int) ∣ p.1 ∧ (ts : Int) ∣ p.2) ∧ ∀ x y, rect.Mem x y → tilePt ts x y ∈ order rect := by
  obtain ⟨-, t2, t3⟩ := C66_each_tile_once_partial procs ts hp hts rect
  refine ⟨fun p hpm => ?_, fun x y hm => ?_⟩
  · obtain ⟨a, b, -⟩ := t3 p ((h rect).mem_iff.1 hpm)
    exact ⟨a, b⟩
  · obtain ⟨q, hq, hin, -⟩ := t2 x y ((Rect.keeps_of_grid hg.1 hg.2).2 hm)
    obtain ⟨a, b, -⟩ := t3 q hq
    unfold InTile at hin
    have : q = tilePt ts x y := Prod.ext (floor_unique hts a (by omega) (by omega)) (floor_unique hts b (by omega) (by omega))
    rw [this] at hq
    exact (h rect).mem_iff.2 hq

/-! ### Tiles that are stored -/

theorem stored_of_reads {k dX procs ts : Nat} (hp : 1 ≤ procs) (hts : 1 ≤ ts) {cell : Int → Res (Option (List UInt8))} {rect : Rect}
    {c : Int → Int → Option (List UInt8)} (hr : Reads k dX cell rect c) (hne : rect.empty = false)
    (hs : ∀ x y px, c x y = some px → px.getD (k - 1) 0 ≠ 0) :
    ∃ m, storeAll k dX ts cell rect (tileWork procs ts rect) = .ok m ∧ Stored ts k m ∧
      ∀ x y, tilePixel ts k m x y = if rect.Keeps ts x y then (c x y).getD (List.replicate k 0) else List.replicate k 0 := by
  have hne' := hne
  rw [Rect.nonempty_iff] at hne'
  obtain ⟨t1, t2, t3⟩ := C66_each_tile_once_partial procs ts hp hts rect
  obtain ⟨m, e, sub, hold, all⟩ := storeAll_spec hr hne'.1 hne'.2 (tileWork procs ts rect) (tileWork_meets hp hts rect)
  have key := fun x y => tilePixel_stored hp hts hr hne e x y
  have hgr : ∀ e ∈ m, (ts : Int) ∣ e.1.1 ∧ (ts : Int) ∣ e.1.2 := fun e he => by
    obtain ⟨a, b, -⟩ := t3 e.1 (sub.subset (List.mem_map_of_mem he))
    exact ⟨a, b⟩
  have zero : (List.replicate k (0 : UInt8)).getD (k - 1) 0 = 0 := by
    rw [List.getD_eq_getElem?_getD]
    by_cases hk : k - 1 < k
    · rw [List.getElem?_replicate, if_pos hk]; rfl
    · rw [List.getElem?_replicate, if_neg hk]; rfl
  refine ⟨m, e, ⟨sub.nodup t1, hgr, fun e he => (hold e he).1.1, fun e he => ?_, fun x y h => ?_⟩, key⟩
  · obtain ⟨i, j, hi, hj, hc⟩ := (hold e he).2
    obtain ⟨a, b⟩ := hgr e he
    refine ⟨e.1.1 + i, e.1.2 + j, Prod.ext (floor_unique hts a (by omega) (by omega)) (floor_unique hts b (by omega) (by omega)), ?_⟩
    rw [key]
    obtain ⟨px, hpx⟩ := Option.isSome_iff_exists.1 hc
    have hk : rect.Keeps ts (e.1.1 + i) (e.1.2 + j) := by
      by_contra hk
      by_cases hm : rect.Mem (e.1.1 + i) (e.1.2 + j)
      · exact (C66_negative_edge_missed procs ts hp hts rect).1 _ _ hm hk e.1 (sub.subset (List.mem_map_of_mem he)) ⟨by omega, by omega, by omega, by omega⟩
      · rw [hr.outside _ _ hm] at hpx
        cases hpx
    rw [if_pos hk, hpx]
    exact hs _ _ _ hpx
  · rw [key] at h ⊢
    by_cases hk : rect.Keeps ts x y
    case neg => rw [if_neg hk]
    rw [if_pos hk] at h ⊢
    cases hc : c x y with
    | none => rfl
    | some px =>
      rw [hc] at h
      exact absurd h (hs _ _ _ hc)

theorem pictureAt_seen {rect : Rect} {dX : Nat} {r g b : List UInt8} {a : Option (List UInt8)} {x y : Int} {px : List UInt8}
    (h : pictureAt rect dX r g b a x y = some px) : px.getD 3 0 ≠ 0 := by
  unfold pictureAt at h
  split at h
  · cases a with
    | none =>
      simp only [show ¬((255 : UInt8) = 0) by decide, if_false, Option.some.injEq] at h
      subst h
      exact show (255 : UInt8) ≠ 0 by decide
    | some a =>
      simp only at h
      split at h
      · cases h
      · injection h with h
        subst h
        assumption
  · cases h

theorem maskStored_seen {rect : Rect} {a : List UInt8} {d : UInt8} {x y : Int} {px : List UInt8} (h : maskStored rect a d x y = some px) : px.getD 0 0 ≠ 0 := by
  unfold maskStored at h
  repeat' split at h
  all_goals first | cases h | skip
  · assumption
  · rename_i hv
    show 255 - channelAt rect 1 a x y ≠ 0
    intro h0
    apply hv
    have : channelAt rect 1 a x y = 255 - (255 - channelAt rect 1 a x y) := by
      generalize channelAt rect 1 a x y = v
      rw [← UInt8.toNat_inj]
      have := v.toNat_lt
      rw [UInt8.toNat_sub_of_le, UInt8.toNat_sub_of_le] <;> (try rw [UInt8.le_iff_toNat_le]) <;> (try rw [UInt8.toNat_sub_of_le]) <;>
        (try rw [UInt8.le_iff_toNat_le]) <;> simp <;> omega
    rw [this, h0]
    rfl

end Psd
