import Verif.Lemmas.Load
import Verif.Props.TileStore

/-!
# What loading a layer stores
-/

namespace Psd

theorem mem_of_lookup {p : Int × Int} {b : List UInt8} : ∀ {m : TileMap}, m.lookup p = some b → (p, b) ∈ m
  | [], h => by cases h
  | (q, c) :: m, h => by
    rw [List.lookup_cons] at h
    split at h
    · rename_i e
      have e : p = q := by simpa using e
      cases h
      rw [e]
      exact List.mem_cons_self ..
    · exact List.mem_cons_of_mem _ (mem_of_lookup h)

/-- The tiles hold what they should at every pixel. -/
theorem tilePixel_stored {k dX procs ts : Nat} (hp : 1 ≤ procs) (hts : 1 ≤ ts) {cell : Int → Res (Option (List UInt8))} {rect : Rect}
    {c : Int → Int → Option (List UInt8)} (hr : Reads k dX cell rect c) (hne : rect.empty = false) {m : TileMap}
    (e : storeAll k dX ts cell rect (tileWork procs ts rect) = .ok m) (x y : Int) :
    tilePixel ts k m x y = if rect.Keeps ts x y then (c x y).getD (List.replicate k 0) else List.replicate k 0 := by
  rw [Rect.nonempty_iff] at hne
  obtain ⟨t1, t2, t3⟩ := C66_each_tile_once_partial procs ts hp hts rect
  obtain ⟨m', e', sub, hold, all⟩ := storeAll_spec hr hne.1 hne.2 (tileWork procs ts rect) (tileWork_meets hp hts rect)
  rw [e] at e'
  cases e'
  have hnd : (m.map Prod.fst).Nodup := sub.nodup t1
  have hts' : (0 : Int) < ts := by omega
  have hi : ∀ v : Int, v / ts * ts + ((v % ts).toNat : Int) = v := by
    intro v
    rw [Int.toNat_of_nonneg (Int.emod_nonneg _ (by omega))]
    rw [Int.mul_comm]
    exact Int.mul_ediv_add_emod v ts
  have hlt : ∀ v : Int, (v % ts).toNat < ts := by
    intro v
    have := Int.emod_lt_of_pos v hts'
    have := Int.emod_nonneg v (show (ts : Int) ≠ 0 by omega)
    omega
  have out : rect.Keeps ts x y ∨ c x y = none ∨ m.lookup (x / ts * ts, y / ts * ts) = none := by
    by_cases hk : rect.Keeps ts x y
    · exact .inl hk
    by_cases hm : rect.Mem x y
    · refine .inr (.inr ?_)
      cases hl : m.lookup (x / ts * ts, y / ts * ts) with
      | none => rfl
      | some pix =>
        have h1 := hi x
        have h2 := hi y
        have h3 := hlt x
        have h4 := hlt y
        have hin : InTile ts (x / ts * ts, y / ts * ts) x y := ⟨by dsimp only; omega, by dsimp only; omega, by dsimp only; omega, by dsimp only; omega⟩
        exact absurd hin
          ((C66_negative_edge_missed procs ts hp hts rect).1 x y hm hk _ (sub.subset (List.mem_map_of_mem (mem_of_lookup hl))))
    · exact .inr (.inl (hr.outside _ _ hm))
  unfold tilePixel
  cases hl : m.lookup (x / ts * ts, y / ts * ts) with
  | some pix =>
    have h := (hold _ (mem_of_lookup hl)).1.2 _ _ (hlt x) (hlt y)
    simp only [hi] at h
    rcases out with hk | hc | hn
    · rw [if_pos hk]
      exact h
    · rw [hc] at h ⊢
      rw [Option.getD_none, ite_self]
      exact h
    · rw [hl] at hn
      cases hn
  | none =>
    simp only
    split
    case isFalse => rfl
    rename_i hm
    cases hc : c x y with
    | none => rfl
    | some px =>
      obtain ⟨q, hq, hin, -⟩ := t2 x y hm
      obtain ⟨⟨a, ha⟩, ⟨b, hb⟩, -⟩ := t3 q hq
      unfold InTile at hin
      have key : ∀ (v a : Int), ts * a ≤ v → v < ts * a + ts → v / ts * ts = ts * a := by
        intro v a h1 h2
        have : v / ts = a := by
          apply Int.le_antisymm
          · refine Int.lt_add_one_iff.1 (Int.ediv_lt_of_lt_mul hts' ?_)
            rw [Int.add_mul, Int.one_mul, Int.mul_comm a]
            exact h2
          · exact Int.le_ediv_of_mul_le hts' (by rw [Int.mul_comm]; exact h1)
        rw [this, Int.mul_comm]
      have e1 := key x a (by omega) (by omega)
      have e2 := key y b (by omega) (by omega)
      have hqq : q = (x / ts * ts, y / ts * ts) := by
        rw [e1, e2, ← ha, ← hb]
      obtain ⟨bb, hbb⟩ := all q hq ⟨(x % ts).toNat, (y % ts).toNat, hlt x, hlt y, by rw [hqq]; simp only [hi]; rw [hc]; rfl⟩
      rw [hqq] at hbb
      rw [lookup_of_mem hnd hbb] at hl
      cases hl

theorem tilePixel_picture {dX procs ts : Nat} (hp : 1 ≤ procs) (hts : 1 ≤ ts) {cell : Int → Res (Option (List UInt8))} {rect : Rect}
    {r g b : List UInt8} {a : Option (List UInt8)} (hr : Reads 4 dX cell rect (pictureAt rect dX r g b a)) (hne : rect.empty = false) {m : TileMap}
    (e : storeAll 4 dX ts cell rect (tileWork procs ts rect) = .ok m) (x y : Int) :
    tilePixel ts 4 m x y = (cutPictureAt ts rect dX r g b a x y).getD [0, 0, 0, 0] := by
  rw [tilePixel_stored hp hts hr hne e x y]
  unfold cutPictureAt
  split <;> rfl

theorem tilePixel_mask {procs ts : Nat} (hp : 1 ≤ procs) (hts : 1 ≤ ts) {cell : Int → Res (Option (List UInt8))} {rect : Rect}
    {a : List UInt8} {d : UInt8} (hr : Reads 1 1 cell rect (maskStored rect a d)) (hne : rect.empty = false) {m : TileMap}
    (e : storeAll 1 1 ts cell rect (tileWork procs ts rect) = .ok m) (x y : Int) :
    tilePixel ts 1 m x y = [if d = 0 then cutMaskAt ts rect a 0 x y else 255 - cutMaskAt ts rect a 255 x y] := by
  rw [tilePixel_stored hp hts hr hne e x y]
  unfold cutMaskAt
  by_cases hk : rect.Keeps ts x y
  · rw [if_pos hk, if_pos hk, if_pos hk]
    have hm := hk.1
    unfold Rect.Mem at hm
    unfold maskStored
    rw [if_pos hm]
    split
    · split
      · rfl
      · rename_i hh
        rw [not_not.1 hh]
        rfl
    · split
      · rfl
      · rename_i hh
        rw [not_not.1 hh]
        rfl
  · rw [if_neg hk, if_neg hk, if_neg hk]
    split <;> rfl

theorem tiles_hold_use {k dX procs ts : Nat} (hp : 1 ≤ procs) (hts : 1 ≤ ts) {cell : Int → Res (Option (List UInt8))} {rect : Rect}
    {c : Int → Int → Option (List UInt8)} (hr : Reads k dX cell rect c) (hne : rect.empty = false) :
    ∃ m, storeAll k dX ts cell rect (tileWork procs ts rect) = .ok m ∧ ∀ e ∈ m, ∃ x y, rect.Keeps ts x y ∧ (c x y).isSome = true := by
  rw [Rect.nonempty_iff] at hne
  obtain ⟨m', e', sub, hold, all⟩ := storeAll_spec hr hne.1 hne.2 (tileWork procs ts rect) (tileWork_meets hp hts rect)
  refine ⟨m', e', fun e he => ?_⟩
  obtain ⟨i, j, hi, hj, h⟩ := (hold e he).2
  refine ⟨_, _, ?_, h⟩
  by_contra hk
  by_cases hm : rect.Mem (e.1.1 + i) (e.1.2 + j)
  · exact (C66_negative_edge_missed procs ts hp hts rect).1 _ _ hm hk e.1 (sub.subset (List.mem_map_of_mem he)) ⟨by omega, by omega, by omega, by omega⟩
  · rw [hr.outside _ _ hm] at h
    cases h

/-- A tile is stored if, and only if, something of the picture is in it. -/
theorem lookup_used {k dX procs ts : Nat} (hp : 1 ≤ procs) (hts : 1 ≤ ts) {cell : Int → Res (Option (List UInt8))} {rect : Rect}
    {c : Int → Int → Option (List UInt8)} (hr : Reads k dX cell rect c) (hne : rect.empty = false) {m : TileMap}
    (e : storeAll k dX ts cell rect (tileWork procs ts rect) = .ok m) (x y : Int) :
    (m.lookup (x / ts * ts, y / ts * ts)).isSome = true ↔
      ∃ x' y', x' / ts = x / ts ∧ y' / ts = y / ts ∧ rect.Keeps ts x' y' ∧ (c x' y').isSome = true := by
  rw [Rect.nonempty_iff] at hne
  obtain ⟨t1, t2, t3⟩ := C66_each_tile_once_partial procs ts hp hts rect
  obtain ⟨m', e', sub, hold, all⟩ := storeAll_spec hr hne.1 hne.2 (tileWork procs ts rect) (tileWork_meets hp hts rect)
  rw [e] at e'
  cases e'
  have hnd : (m.map Prod.fst).Nodup := sub.nodup t1
  have hts' : (0 : Int) < ts := by omega
  have hq : ∀ (a : Int) (i : Nat), i < ts → (a * ts + i) / (ts : Int) = a := by
    intro a i hi
    rw [Int.add_comm, Int.add_mul_ediv_right _ _ (by omega), Int.ediv_eq_zero_of_lt (by omega) (by omega), Int.zero_add]
  constructor
  · intro h
    obtain ⟨pix, hl⟩ := Option.isSome_iff_exists.1 h
    have hmem := mem_of_lookup hl
    obtain ⟨i, j, hi, hj, hs⟩ := (hold _ hmem).2
    refine ⟨_, _, hq _ i hi, hq _ j hj, ?_, hs⟩
    by_contra hk
    by_cases hm : rect.Mem (x / ts * ts + i) (y / ts * ts + j)
    · exact (C66_negative_edge_missed procs ts hp hts rect).1 _ _ hm hk _ (sub.subset (List.mem_map_of_mem hmem))
        ⟨by dsimp only; omega, by dsimp only; omega, by dsimp only; omega, by dsimp only; omega⟩
    · simp only [hr.outside _ _ hm] at hs
      cases hs
  · rintro ⟨x', y', e1, e2, hk, hs⟩
    obtain ⟨q, hqm, hin, -⟩ := t2 x' y' hk
    obtain ⟨⟨a, ha⟩, ⟨b, hb⟩, -⟩ := t3 q hqm
    unfold InTile at hin
    have k1 : ∀ v a : Int, ts * a ≤ v → v < ts * a + ts → v / ts = a := by
      intro v a h1 h2
      have := hq a (v - ts * a).toNat (by omega)
      rw [Int.toNat_of_nonneg (by omega), Int.mul_comm a] at this
      rwa [show ts * a + (v - ts * a) = v by omega] at this
    have g1 := k1 x' a (by omega) (by omega)
    have g2 := k1 y' b (by omega) (by omega)
    have hqq : q = (x / ts * ts, y / ts * ts) := by
      rw [← e1, ← e2, g1, g2, Int.mul_comm a, Int.mul_comm b, ← ha, ← hb]
    obtain ⟨bb, hbb⟩ := all q hqm ⟨(x' - q.1).toNat, (y' - q.2).toNat, by omega, by omega, by
      rw [Int.toNat_of_nonneg (by omega), Int.toNat_of_nonneg (by omega), show q.1 + (x' - q.1) = x' by omega, show q.2 + (y' - q.2) = y' by omega]
      exact hs⟩
    rw [hqq] at hbb
    rw [lookup_of_mem hnd hbb]
    rfl

/-! ### The bounding box of the tiles -/

theorem tileRect_nonempty {ts : Nat} (hts : 1 ≤ ts) (p : Int × Int) : (tileRect ts p).empty = false := by
  rw [Rect.nonempty_iff]
  unfold tileRect
  simp only
  omega

theorem union_nonempty {r s : Rect} (h : r.empty = false) : (r.union s).empty = false := by
  unfold Rect.union
  rw [h]
  simp only [Bool.false_eq_true, if_false]
  split
  · exact h
  · rename_i hs
    rw [Rect.nonempty_iff] at *
    have hs' : s.empty = false := by simpa using hs
    rw [Rect.nonempty_iff] at hs'
    simp only
    omega

theorem foldl_tiles_nonempty {ts : Nat} (hts : 1 ≤ ts) : ∀ (m : TileMap) (r : Rect), r.empty = false →
    (m.foldl (fun r e => (tileRect ts e.1).union r) r).empty = false
  | [], r, h => h
  | e :: m, r, h => foldl_tiles_nonempty hts m _ (union_nonempty (tileRect_nonempty hts _))

theorem tilesRect_empty {ts : Nat} (hts : 1 ≤ ts) (m : TileMap) : (tilesRect ts m).empty = m.isEmpty := by
  cases m with
  | nil => rfl
  | cons e m => exact foldl_tiles_nonempty hts m _ (union_nonempty (tileRect_nonempty hts _))

theorem union_rel {ts : Nat} (hts : 1 ≤ ts) (a b : Int × Int) (r : Rect) :
    (tileRect ts a).union ((tileRect ts b).union r) = (tileRect ts b).union ((tileRect ts a).union r) := by
  have ha := tileRect_nonempty hts a
  have hb := tileRect_nonempty hts b
  have key : ∀ (x y : Rect), x.empty = false → y.empty = false → (x.union y) =
      ⟨min x.minX y.minX, min x.minY y.minY, max x.maxX y.maxX, max x.maxY y.maxY⟩ := by
    intro x y hx hy
    unfold Rect.union
    rw [hx, hy]
    rfl
  rw [key _ _ ha (union_nonempty hb), key _ _ hb (union_nonempty ha)]
  cases hr : r.empty
  · rw [key _ _ hb hr, key _ _ ha hr]
    simp only [Rect.mk.injEq]
    omega
  · unfold Rect.union
    rw [ha, hb, hr]
    simp only [Bool.false_eq_true, if_false, if_true, Rect.mk.injEq]
    omega

/-- Go visits the tiles in any order: the result is the same. -/
theorem tilesRect_perm {ts : Nat} (hts : 1 ≤ ts) {m m' : TileMap} (h : m.Perm m') : tilesRect ts m = tilesRect ts m' :=
  h.foldl_eq' (fun a _ b _ r => union_rel hts b.1 a.1 r) _

/-! ### Loading one layer -/

theorem fills_of_length {rect : Rect} {ch : List UInt8} (h : rect.dx * rect.dy ≤ (ch.length : Int)) : Fills rect 1 ch := by
  intro x y h1 h2 h3 h4
  have e1 : rect.dx = rect.maxX - rect.minX := rfl
  have e2 : rect.dy = rect.maxY - rect.minY := rfl
  have h5 : (y - rect.minY) * rect.dx + (x - rect.minX) < rect.dx * rect.dy := by
    have : (y - rect.minY + 1) * rect.dx ≤ rect.dy * rect.dx := Int.mul_le_mul_of_nonneg_right (by omega) (by omega)
    rw [Int.add_mul, Int.one_mul] at this
    rw [Int.mul_comm rect.dx rect.dy]
    omega
  rw [Nat.cast_one, Int.mul_one]
  omega

theorem dataOf_length {l : LayerRec} {id : Int} (hs : (l.channel id).isSome = true) {n : Int}
    (h : ∀ c, l.channel id = some c → n ≤ (c.data.length : Int)) : n ≤ ((l.dataOf id).length : Int) := by
  unfold LayerRec.dataOf
  obtain ⟨c, hc⟩ := Option.isSome_iff_exists.1 hs
  rw [hc]
  exact h c hc

/-- The colours of a layer whose channels are all there. -/
theorem layer_reads {l : LayerRec} (hp : l.Pictured) (hc : l.Coloured) (hf : l.Filled) :
    Reads 4 1 (imageCell (l.dataOf 0) (l.dataOf 1) (l.dataOf 2) ((l.channel (-1)).map Channel.data)) l.rect
      (pictureAt l.rect 1 (l.dataOf 0) (l.dataOf 1) (l.dataOf 2) ((l.channel (-1)).map Channel.data)) := by
  have h := hc hp
  refine image_reads (fills_of_length (dataOf_length (h 0 (by simp)) fun c e => hf.picture 0 c (by decide) (by decide) e))
    (fills_of_length (dataOf_length (h 1 (by simp)) fun c e => hf.picture 1 c (by decide) (by decide) e))
    (fills_of_length (dataOf_length (h 2 (by simp)) fun c e => hf.picture 2 c (by decide) (by decide) e)) ?_
  intro v hv
  obtain ⟨c, e, rfl⟩ := Option.map_eq_some_iff.1 hv
  exact fills_of_length (hf.picture (-1) c (by decide) (by decide) e)

theorem loadCanvas_none {procs ts : Nat} {l : LayerRec} (h : ¬l.Pictured) : loadCanvas procs ts l = .ok none := by
  unfold loadCanvas
  rw [if_neg]
  intro hh
  rw [Bool.and_eq_true, Bool.not_eq_true'] at hh
  exact h hh

theorem loadCanvas_some {procs ts : Nat} {l : LayerRec} (h : l.Pictured) : loadCanvas procs ts l =
    (storeAll 4 1 ts (imageCell (l.dataOf 0) (l.dataOf 1) (l.dataOf 2) ((l.channel (-1)).map Channel.data)) l.rect (tileWork procs ts l.rect)).map some := by
  unfold loadCanvas newTiledImage
  rw [if_pos (by rw [Bool.and_eq_true, Bool.not_eq_true']; exact h)]
  cases storeAll 4 1 ts (imageCell (l.dataOf 0) (l.dataOf 1) (l.dataOf 2) ((l.channel (-1)).map Channel.data)) l.rect (tileWork procs ts l.rect) <;> rfl

theorem loadMask_none {procs ts : Nat} {l : LayerRec} (h : l.mask.rect.empty = true ∨ l.channel (-2) = none) : loadMask procs ts l = .ok none := by
  unfold loadMask
  rcases h with h | h
  · rw [h]; rfl
  · rw [h]
    split <;> rfl

theorem loadMask_some {procs ts : Nat} {l : LayerRec} {c : Channel} (h : l.mask.rect.empty = false) (hc : l.channel (-2) = some c) :
    loadMask procs ts l = (storeAll 1 1 ts (maskCell c.data (UInt8.ofNat l.mask.defaultColor)) l.mask.rect (tileWork procs ts l.mask.rect)).map some := by
  unfold loadMask newTiledMask
  rw [h, hc]
  simp only [Bool.not_false, if_true]
  cases storeAll 1 1 ts (maskCell c.data (UInt8.ofNat l.mask.defaultColor)) l.mask.rect (tileWork procs ts l.mask.rect) <;> rfl

/-- A layer whose channels are all there can be loaded. -/
theorem loads {procs ts : Nat} (hp : 1 ≤ procs) (hts : 1 ≤ ts) {l : LayerRec} (hc : l.Coloured) (hf : l.Filled) :
    ∃ img, LoadsTo procs ts l img := by
  have h1 : ∃ t, loadCanvas procs ts l = .ok t := by
    by_cases h : l.Pictured
    · obtain ⟨m, e, -⟩ := tiles_hold_use (procs := procs) hp hts (layer_reads h hc hf) h.2
      exact ⟨some m, by rw [loadCanvas_some h, e]; rfl⟩
    · exact ⟨none, loadCanvas_none h⟩
  have h2 : ∃ t, loadMask procs ts l = .ok t := by
    cases h : l.mask.rect.empty
    · cases hch : l.channel (-2) with
      | none => exact ⟨none, loadMask_none (.inr hch)⟩
      | some c =>
        obtain ⟨m, e, -⟩ := tiles_hold_use (procs := procs) hp hts (mask_reads (UInt8.ofNat l.mask.defaultColor) (fills_of_length (hf.mask c hch))) h
        exact ⟨some m, by rw [loadMask_some h hch, e]; rfl⟩
    · exact ⟨none, loadMask_none (.inl h)⟩
  obtain ⟨t, e⟩ := h1
  obtain ⟨t', e'⟩ := h2
  exact ⟨⟨t, t'⟩, e, e'⟩

/-! ### Loading returns or panics -/

/-- A result or a panic. -/
def Res.Ends {α : Type} (r : Res α) : Prop := (∃ a, r = .ok a) ∨ ∃ p, r = .panic p

theorem Res.Ends.bind {α β : Type} {r : Res α} {f : α → Res β} (h : r.Ends) (hf : ∀ a, (f a).Ends) : (r >>= f).Ends := by
  rcases h with ⟨a, rfl⟩ | ⟨p, rfl⟩
  · exact hf a
  · exact .inr ⟨p, rfl⟩

theorem ends_ok {α : Type} (a : α) : (Res.ok a).Ends := .inl ⟨a, rfl⟩

theorem byteAt_ends (l : List UInt8) (i : Int) : (byteAt l i).Ends := by
  unfold byteAt
  split
  · exact .inr ⟨_, rfl⟩
  · split
    · exact .inl ⟨_, rfl⟩
    · exact .inr ⟨_, rfl⟩

theorem putAt_ends (buf : List UInt8) (i : Int) (px : List UInt8) : (putAt buf i px).Ends := by
  unfold putAt
  split
  · exact .inr ⟨_, rfl⟩
  · exact .inl ⟨_, rfl⟩

theorem imageCell_ends (r g b : List UInt8) (a : Option (List UInt8)) (sx : Int) : (imageCell r g b a sx).Ends := by
  unfold imageCell
  cases a with
  | some a =>
    refine (byteAt_ends _ _).bind fun va => ?_
    split
    · exact (byteAt_ends _ _).bind fun _ => (byteAt_ends _ _).bind fun _ => (byteAt_ends _ _).bind fun _ => ends_ok _
    · exact ends_ok _
  | none => exact (byteAt_ends _ _).bind fun _ => (byteAt_ends _ _).bind fun _ => (byteAt_ends _ _).bind fun _ => ends_ok _

theorem maskCell_ends (a : List UInt8) (d : UInt8) (sx : Int) : (maskCell a d sx).Ends := by
  unfold maskCell
  refine (byteAt_ends _ _).bind fun va => ?_
  split <;> split <;> exact ends_ok _

section
variable {k dX ts : Nat} {cell : Int → Res (Option (List UInt8))}

theorem tileCols_ends (h : ∀ i, (cell i).Ends) : ∀ n dx sx st, (tileCols k dX cell n dx sx st).Ends
  | 0, _, _, _ => ends_ok _
  | n + 1, dx, sx, st => by
    unfold tileCols
    refine (h sx).bind fun o => ?_
    cases o with
    | some px => exact (putAt_ends _ _ _).bind fun _ => tileCols_ends h n _ _ _
    | none => exact tileCols_ends h n _ _ _

theorem tileRows_ends (h : ∀ i, (cell i).Ends) (w : Nat) (a b c d : Int) : ∀ n dy sy st, (tileRows k dX cell w a b c d n dy sy st).Ends
  | 0, _, _, _ => ends_ok _
  | n + 1, dy, sy, st => by
    unfold tileRows
    exact (tileCols_ends h _ _ _ _).bind fun _ => tileRows_ends h w a b c d n _ _ _

theorem storeTiles_ends (h : ∀ i, (cell i).Ends) (rect : Rect) : ∀ ps buf, (storeTiles k dX ts cell rect ps buf).Ends
  | [], _ => ends_ok _
  | p :: ps, buf => by
    unfold storeTiles
    refine Res.Ends.bind (by unfold oneTile; exact tileRows_ends h _ _ _ _ _ _ _ _ _) fun ⟨b, u⟩ => ?_
    simp only
    split
    · exact (storeTiles_ends h rect ps _).bind fun _ => ends_ok _
    · exact storeTiles_ends h rect ps _

theorem storeAll_ends (h : ∀ i, (cell i).Ends) (rect : Rect) : ∀ ws, (storeAll k dX ts cell rect ws).Ends
  | [] => ends_ok _
  | w :: ws => by
    unfold storeAll
    exact (storeTiles_ends h rect _ _).bind fun _ => (storeAll_ends h rect ws).bind fun _ => ends_ok _

/-! ### Pixels that cannot be read -/

theorem storeTiles_panics (hts : 1 ≤ ts) (h : ∀ i, cell i = .panic .index) {rect : Rect} (hX : rect.minX < rect.maxX) (hY : rect.minY < rect.maxY) {p : Int × Int}
    {ps : List (Int × Int)} (hm : Meets ts rect p) (buf : List UInt8) : storeTiles k dX ts cell rect (p :: ps) buf = .panic .index := by
  obtain ⟨h1, h2, h3, h4⟩ := hm
  have hcols : ∀ n dx sx st, 1 ≤ n → tileCols k dX cell n dx sx st = .panic .index := by
    intro n dx sx st hn
    cases n with
    | zero => omega
    | succ n => unfold tileCols; rw [h]; rfl
  have hrows : ∀ w a b c d n dy sy st, 1 ≤ n → 1 ≤ w → tileRows k dX cell w a b c d n dy sy st = .panic .index := by
    intro w a b c d n dy sy st hn hw
    cases n with
    | zero => omega
    | succ n => unfold tileRows; rw [hcols _ _ _ _ hw]; rfl
  unfold storeTiles oneTile
  simp only
  rw [hrows _ _ _ _ _ _ _ _ _ (by split <;> split <;> omega) (by split <;> split <;> omega)]
  rfl

theorem storeAll_panics (hts : 1 ≤ ts) (h : ∀ i, cell i = .panic .index) {rect : Rect} (hX : rect.minX < rect.maxX) (hY : rect.minY < rect.maxY) :
    ∀ (ws : List (List (Int × Int))), (∀ w ∈ ws, ∀ p ∈ w, Meets ts rect p) → ws.flatten ≠ [] → storeAll k dX ts cell rect ws = .panic .index
  | [], _, hne => absurd rfl hne
  | [] :: ws, hm, hne => by
    unfold storeAll
    rw [storeTiles, storeAll_panics hts h hX hY ws (fun w hw => hm w (List.mem_cons_of_mem _ hw)) hne]
    rfl
  | (p :: ps) :: ws, hm, hne => by
    unfold storeAll
    rw [storeTiles_panics hts h hX hY (hm _ (List.mem_cons_self ..) p (List.mem_cons_self ..))]
    rfl

end

theorem map_ends {α β : Type} {r : Res α} {f : α → β} (h : r.Ends) : (r.map f).Ends := by
  rcases h with ⟨a, rfl⟩ | ⟨p, rfl⟩
  · exact .inl ⟨_, rfl⟩
  · exact .inr ⟨_, rfl⟩

theorem loadCanvas_ends (procs ts : Nat) (l : LayerRec) : (loadCanvas procs ts l).Ends := by
  by_cases h : l.Pictured
  · rw [loadCanvas_some h]
    exact map_ends (storeAll_ends (fun i => imageCell_ends _ _ _ _ _) _ _)
  · rw [loadCanvas_none h]
    exact ends_ok _

theorem loadMask_ends (procs ts : Nat) (l : LayerRec) : (loadMask procs ts l).Ends := by
  cases h : l.mask.rect.empty
  · cases hch : l.channel (-2) with
    | none => rw [loadMask_none (.inr hch)]; exact ends_ok _
    | some c => rw [loadMask_some h hch]; exact map_ends (storeAll_ends (fun i => maskCell_ends _ _ _) _ _)
  · rw [loadMask_none (.inl h)]; exact ends_ok _

/-- An opaque layer without blue cannot be loaded. -/
theorem loadCanvas_no_blue {procs ts : Nat} (hp : 1 ≤ procs) (hts : 1 ≤ ts) {l : LayerRec} (h : l.Pictured) (hg : ∃ x y, l.rect.Keeps ts x y)
    (h2 : l.channel 2 = none) (ha : l.channel (-1) = none) : loadCanvas procs ts l = .panic .index := by
  have hne := Rect.nonempty_iff.1 h.2
  rw [loadCanvas_some h, storeAll_panics hts ?_ hne.1 hne.2 _ (tileWork_meets hp hts l.rect) ?_]
  · rfl
  · intro i
    unfold imageCell LayerRec.dataOf
    rw [ha, h2]
    simp only [Option.map_none]
    unfold byteAt
    split <;> rfl
  · obtain ⟨-, t2, -⟩ := C66_each_tile_once_partial procs ts hp hts l.rect
    obtain ⟨x, y, hk⟩ := hg
    obtain ⟨q, hq, -⟩ := t2 x y hk
    exact List.ne_nil_of_mem hq

/-- An execution goes on until it is done or a goroutine panics. -/
theorem ImportInv.progress' {procs ts : Nat} {flat : List LayerRec} {s : Import} (h : ImportInv procs ts flat s) (hw : 1 ≤ s.workers.length) (hd : ¬s.Done) :
    (∃ t, ImportStep procs ts s t) ∨ s.Crashes procs ts := by
  by_cases hidle : ∀ p ∈ s.workers, p = .idle
  · by_cases hs : s.sent < s.layers.length
    · have h0 : s.workers[0]? = some .idle := by
        rw [List.getElem?_eq_getElem (by omega), hidle _ (List.getElem_mem _)]
      exact .inl ⟨_, .hand s 0 hs h0⟩
    · have hs : s.sent = s.layers.length := Nat.le_antisymm (by rw [h.len]; exact h.sent_le) (by omega)
      by_cases hc : s.copied.length < s.layers.length
      · exact .inl ⟨_, .copy s _ hs (List.getElem?_eq_getElem hc)⟩
      · exact absurd ⟨hs, Nat.le_antisymm (by rw [h.len]; exact h.copies.1) (by omega), hidle⟩ hd
  · obtain ⟨p, hp⟩ := Classical.not_forall.1 hidle
    obtain ⟨hp, hne⟩ := Classical.not_imp.1 hp
    obtain ⟨w, hw⟩ := List.getElem?_of_mem hp
    cases p with
    | idle => exact absurd rfl hne
    | got i =>
      obtain ⟨-, l, cur, -, b, -⟩ := h.held w i _ hw rfl
      rcases loadCanvas_ends procs ts cur with ⟨t, e⟩ | ⟨pp, e⟩
      · exact .inl ⟨_, .draw s w i cur _ hw b e⟩
      · exact .inr ⟨w, i, cur, pp, b, .inl ⟨hw, e⟩⟩
    | drawn i c =>
      obtain ⟨-, l, cur, -, b, -⟩ := h.held w i _ hw rfl
      rcases loadMask_ends procs ts cur with ⟨t, e⟩ | ⟨pp, e⟩
      · exact .inl ⟨_, .mask s w i cur c _ hw b e⟩
      · exact .inr ⟨w, i, cur, pp, b, .inr ⟨c, hw, e⟩⟩
    | masked i im =>
      obtain ⟨-, l, cur, -, b, -⟩ := h.held w i _ hw rfl
      exact .inl ⟨_, .store s w i cur im hw b⟩

end Psd
