import Verif.Lemmas.Resample
import Verif.Props.Clone
import Verif.Props.Transform

/-!
# The pictures that interpolation works on, and what becomes of them
-/

namespace Psd

section
variable {procs ts : Nat} {order : TileOrder}

theorem Rect.AllOnGrid.onGrid {r : Rect} (h : r.AllOnGrid ts) : r.OnGrid ts := ⟨.inr h.1, .inr h.2.1⟩

theorem holds_mem {r s : Rect} (h : r.Holds s) {x y : Int} (hm : s.Mem x y) : r.Mem x y := by
  unfold Rect.Holds at h
  unfold Rect.Mem at *
  omega

theorem tilePixel_len {k : Nat} {m : TileMap} (hts : 1 ≤ ts) (hs : ∀ e ∈ m, e.2.length = ts * k * ts) (x y : Int) : (tilePixel ts k m x y).length = k := by
  unfold tilePixel
  split
  · rename_i pix hl
    have := hs _ (mem_of_lookup hl)
    simp only at this
    rw [List.length_take, List.length_drop, this]
    have h1 := mod_lt hts x
    have h2 := mod_lt hts y
    have h3 : ((y % ts).toNat + 1) * ts ≤ ts * ts := Nat.mul_le_mul_right _ h2
    have h4 : ((y % ts).toNat * ts + (x % ts).toNat + 1) * k ≤ ts * ts * k := Nat.mul_le_mul_right _ (by rw [Nat.add_mul] at h3; omega)
    rw [Nat.add_mul, Nat.one_mul] at h4
    have e : ts * k * ts = ts * ts * k := by ring
    omega
  · simp

/-- A tile is where something is seen. -/
theorem Stored.lookup_iff {k : Nat} (hk : 1 ≤ k) {m : TileMap} (h : Stored ts k m) (p : Int × Int) :
    (m.lookup p).isSome = true ↔ ∃ x y : Int, p = (x / ts * ts, y / ts * ts) ∧ (tilePixel ts k m x y).getD (k - 1) 0 ≠ 0 := by
  constructor
  · intro hs
    obtain ⟨b, hb⟩ := Option.isSome_iff_exists.1 hs
    exact h.used _ (mem_of_lookup hb)
  · rintro ⟨x, y, rfl, hne⟩
    by_contra hn
    apply hne
    unfold tilePixel
    rw [Option.not_isSome_iff_eq_none.1 hn]
    simp only
    rw [List.getD_eq_getElem?_getD, List.getElem?_replicate, if_pos (by omega)]
    rfl

theorem SamePlaces.of_alpha {k : Nat} (hk : 1 ≤ k) {m m' : TileMap} (h : Stored ts k m) (h' : Stored ts k m')
    (e : ∀ x y, (tilePixel ts k m x y).getD (k - 1) 0 = (tilePixel ts k m' x y).getD (k - 1) 0) : SamePlaces m m' := by
  intro p
  rw [Bool.eq_iff_iff, h.lookup_iff hk, h'.lookup_iff hk]
  simp only [e]

theorem copied_alpha (p : Px) : (copied p).a = p.a := by
  obtain ⟨q, e, h1, -⟩ := (C46_copy_partial p ⟨0, 0, 0, 0⟩).1
  unfold copied
  rw [e]
  exact h1

theorem CopyOf.copied {p : Px} (ha : p.a ≠ 0) : CopyOf p.pix (copied p).pix := by
  obtain ⟨q, e, h1, h2, h3⟩ := (C46_copy_partial p ⟨0, 0, 0, 0⟩).1
  have hq : Psd.copied p = q := by
    unfold Psd.copied
    rw [e]
    rfl
  exact ⟨p.r, p.g, p.b, p.a, q.r, q.g, q.b, rfl, by rw [hq, ← h1]; rfl, h3 ha⟩

theorem CopyOf.zero : CopyOf (List.replicate 4 0) (List.replicate 4 0) :=
  ⟨0, 0, 0, 0, 0, 0, 0, rfl, rfl, fun x y h => by
    simp only [List.mem_cons, Prod.mk.injEq, List.not_mem_nil, or_false, or_self] at h
    rw [h.1, h.2]
    exact ⟨Nat.le_refl _, by omega, fun _ => rfl⟩⟩

/-- The bytes of a pixel of a tile. -/
theorem tilePixel_px (hts : 1 ≤ ts) {m : TileMap} (hs : ∀ e ∈ m, e.2.length = ts * 4 * ts) (x y : Int) :
    tilePixel ts 4 m x y = match m.lookup (tilePt ts x y) with
      | some buf => (nrgbaTile buf (tileIx ts x y)).pix
      | none => List.replicate 4 0 := by
  have hlen := tilePixel_len hts hs x y
  unfold tilePixel at hlen ⊢
  rw [show (x / ↑ts * ↑ts, y / ↑ts * ↑ts) = tilePt ts x y from rfl] at hlen ⊢
  cases hl : m.lookup (tilePt ts x y) with
  | none => rfl
  | some buf =>
    simp only [hl] at hlen ⊢
    have e : ∀ j, j < 4 → buf.getD (tileIx ts x y * 4 + j) 0 = ((buf.drop (tileIx ts x y * 4)).take 4).getD j 0 := fun j hj => getD_of_take rfl hj
    unfold Px.pix nrgbaTile
    rw [e 1 (by decide), e 2 (by decide), e 3 (by decide), ← Nat.add_zero (tileIx ts x y * 4), e 0 (by decide), Nat.add_zero]
    show (buf.drop (tileIx ts x y * 4)).take 4 = _
    have hlen : ((buf.drop (tileIx ts x y * 4)).take 4).length = 4 := hlen
    generalize (buf.drop (tileIx ts x y * 4)).take 4 = l at hlen ⊢
    match l, hlen with
    | [a, b, c, d], _ => rfl

theorem tilePixel_value (hts : 1 ≤ ts) {m : TileMap} (hs : ∀ e ∈ m, e.2.length = ts * 1 * ts) (x y : Int) :
    tilePixel ts 1 m x y = match m.lookup (tilePt ts x y) with
      | some buf => [alphaTile buf (tileIx ts x y)]
      | none => [0] := by
  have hlen := tilePixel_len hts hs x y
  unfold tilePixel at hlen ⊢
  rw [show (x / ↑ts * ↑ts, y / ↑ts * ↑ts) = tilePt ts x y from rfl] at hlen ⊢
  cases hl : m.lookup (tilePt ts x y) with
  | none => rfl
  | some buf =>
    simp only [hl] at hlen ⊢
    have e : buf.getD (tileIx ts x y * 1 + 0) 0 = ((buf.drop (tileIx ts x y * 1)).take 1).getD 0 0 := getD_of_take rfl (by decide)
    unfold alphaTile
    rw [Nat.add_zero, Nat.mul_one] at e
    rw [e]
    have hlen : ((buf.drop (tileIx ts x y * 1)).take 1).length = 1 := hlen
    rw [Nat.mul_one] at hlen
    show (buf.drop (tileIx ts x y * 1)).take 1 = _
    rw [Nat.mul_one]
    generalize (buf.drop (tileIx ts x y)).take 1 = l at hlen ⊢
    match l, hlen with
    | [a], _ => rfl

theorem rect_point {rect : Rect} {i : Nat} (h : i < rect.dx.toNat * rect.dy.toNat) :
    rect.Mem (rect.minX + (i % rect.dx.toNat : Nat)) (rect.minY + (i / rect.dx.toNat : Nat)) ∧
      (rect.minY + (i / rect.dx.toNat : Nat) - rect.minY) * rect.dx + (rect.minX + (i % rect.dx.toNat : Nat) - rect.minX) = i := by
  have e1 : rect.dx = rect.maxX - rect.minX := rfl
  have e2 : rect.dy = rect.maxY - rect.minY := rfl
  have hw : 0 < rect.dx.toNat := Nat.pos_of_ne_zero fun e => by rw [e, Nat.zero_mul] at h; omega
  obtain ⟨w, hw'⟩ : ∃ w : Nat, rect.dx = w := ⟨rect.dx.toNat, by omega⟩
  have h1 := Nat.mod_lt i hw
  have h2 : i / rect.dx.toNat < rect.dy.toNat := Nat.div_lt_of_lt_mul h
  have h3 : (0 : Int) ≤ ((i / rect.dx.toNat : Nat) : Int) := Int.natCast_nonneg _
  have h4 : ((i / rect.dx.toNat : Nat) : Int) < rect.dy := by
    have : ((i / rect.dx.toNat : Nat) : Int) < (rect.dy.toNat : Int) := by exact_mod_cast h2
    generalize ((i / rect.dx.toNat : Nat) : Int) = q at *
    omega
  have h5 : (0 : Int) ≤ ((i % rect.dx.toNat : Nat) : Int) := Int.natCast_nonneg _
  have h6 : ((i % rect.dx.toNat : Nat) : Int) < rect.dx := by
    have : ((i % rect.dx.toNat : Nat) : Int) < (rect.dx.toNat : Int) := by exact_mod_cast h1
    generalize ((i % rect.dx.toNat : Nat) : Int) = q at *
    omega
  refine ⟨by
    unfold Rect.Mem
    generalize ((i % rect.dx.toNat : Nat) : Int) = q at *
    generalize ((i / rect.dx.toNat : Nat) : Int) = q' at *
    omega, ?_⟩
  rw [hw', Int.toNat_natCast, show rect.minY + ↑(i / w) - rect.minY = ((i / w : Nat) : Int) by omega,
    show rect.minX + ↑(i % w) - rect.minX = ((i % w : Nat) : Int) by omega]
  have := Nat.div_add_mod i w
  rw [Nat.mul_comm] at this
  exact_mod_cast this

theorem pixOf_congr {rect : Rect} {f g : Int → Int → List UInt8} (h : ∀ x y, rect.Mem x y → f x y = g x y) : pixOf rect f = pixOf rect g := by
  unfold pixOf
  rw [List.flatMap_def, List.flatMap_def]
  congr 1
  apply List.map_congr_left
  intro i hi
  exact h _ _ (rect_point (List.mem_range.1 hi)).1

theorem list_of_getD {l : List UInt8} {k : Nat} (h : l.length = k) : (List.range k).map (fun c => l.getD c 0) = l := by
  apply List.ext_getElem
  · simp [h]
  · intro i h1 h2
    simp [h2]

theorem rows_pixOf {rect : Rect} {k : Nat} {pic : Int → Int → List UInt8} (hk : ∀ x y, (pic x y).length = k) : Rows k rect (pixOf rect pic) pic := by
  refine ⟨pixOf_length hk, fun x y hm => ?_⟩
  unfold bytesAt
  rw [← list_of_getD (hk x y)]
  apply List.map_congr_left
  intro c hc
  rw [channelAt_pixOf hk (List.mem_range.1 hc) hm]

theorem bytesAt4 (rect : Rect) (pix : List UInt8) (x y : Int) :
    bytesAt rect 4 pix x y = [channelAt rect 4 pix x y, channelAt rect 4 (pix.drop 1) x y, channelAt rect 4 (pix.drop 2) x y, channelAt rect 4 (pix.drop 3) x y] := rfl

theorem bytesAt8 (rect : Rect) (pix : List UInt8) (x y : Int) :
    bytesAt rect 8 pix x y = [channelAt rect 8 pix x y, channelAt rect 8 (pix.drop 1) x y, channelAt rect 8 (pix.drop 2) x y, channelAt rect 8 (pix.drop 3) x y,
      channelAt rect 8 (pix.drop 4) x y, channelAt rect 8 (pix.drop 5) x y, channelAt rect 8 (pix.drop 6) x y, channelAt rect 8 (pix.drop 7) x y] := rfl

theorem bytesAt1 (rect : Rect) (pix : List UInt8) (x y : Int) : bytesAt rect 1 pix x y = [channelAt rect 1 pix x y] := rfl

theorem asSeen4 (r g b a : UInt8) : asSeen [r, g, b, a] = if a = 0 then List.replicate 4 0 else [r, g, b, a] := rfl

theorem asSeen1 (a : UInt8) : asSeen [a] = [a] := by
  unfold asSeen
  split
  · rename_i h
    simp only [List.length_cons, List.length_nil] at h
    have h : a = 0 := h
    rw [h]
    rfl
  · rfl

/-! ### Putting pictures together -/

/-- `blend.Copy` of the bytes of a pixel. -/
def copiedBytes : List UInt8 → List UInt8
  | [r, g, b, a] => (copied ⟨r, g, b, a⟩).pix
  | l => l

/-- The picture that `Render` puts together shows the tiles, up to the rounding of `blend.Copy`, whatever the schedule and the picture before. -/
theorem flattened (hts : 1 ≤ ts) {m : TileMap} (hm : Stored ts 4 m) (hne : m ≠ []) :
    ∃ (flat : Int → Int → List UInt8) (src : List UInt8), (∀ x y, CopyOf (tilePixel ts 4 m x y) (flat x y) ∧ flat x y = copiedBytes (tilePixel ts 4 m x y)) ∧
      Rows 4 (tilesRect ts m) src flat ∧
      ∀ procs order, 1 ≤ procs → Orders procs ts order → ∀ pic,
        (pixOf (tilesRect ts m) fun x y => (renderTiled ts (tilesRect ts m) m (order (tilesRect ts m)) pic x y).pix) = src := by
  obtain ⟨g1, g2⟩ := tilesRect_spec hts hne hm.grid
  refine ⟨fun x y => ((m.lookup (tilePt ts x y)).elim ⟨0, 0, 0, 0⟩ fun buf => copied (nrgbaTile buf (tileIx ts x y))).pix, _, fun x y => ?_, rows_pixOf fun _ _ => rfl,
    fun procs order hp ho pic => ?_⟩
  · rw [tilePixel_px hts hm.size x y]
    have hcl := hm.clean x y
    rw [tilePixel_px hts hm.size x y] at hcl
    cases hl : m.lookup (tilePt ts x y) with
    | none =>
      simp only [hl, Option.elim_none]
      exact ⟨CopyOf.zero, by decide⟩
    | some buf =>
      simp only [hl, Option.elim_some] at hcl ⊢
      refine ⟨?_, rfl⟩
      by_cases ha : (nrgbaTile buf (tileIx ts x y)).a = 0
      · have hz := hcl ha
        have : nrgbaTile buf (tileIx ts x y) = ⟨0, 0, 0, 0⟩ := by
          revert hz
          generalize nrgbaTile buf (tileIx ts x y) = p
          intro hz
          obtain ⟨r, g, b, a⟩ := p
          simp only [Px.pix, List.replicate_succ, List.replicate_zero, List.cons.injEq, and_true] at hz
          rw [hz.1, hz.2.1, hz.2.2.1, hz.2.2.2]
        rw [this]
        have : Psd.copied ⟨0, 0, 0, 0⟩ = ⟨0, 0, 0, 0⟩ := by decide
        rw [this]
        exact CopyOf.zero
      · exact CopyOf.copied ha
  · obtain ⟨o1, o2⟩ := ho.tiles hp hts g1.onGrid
    apply pixOf_congr
    intro x y hxy
    rw [renderTiled_pixel hts hxy o1 (o2 x y hxy)]
    cases m.lookup (tilePt ts x y) <;> rfl

/-- The same for masks, which are shown exactly. -/
theorem flattenedMask (hts : 1 ≤ ts) {m : TileMap} (hm : Stored ts 1 m) (hne : m ≠ []) :
    ∃ src : List UInt8, Rows 1 (tilesRect ts m) src (tilePixel ts 1 m) ∧ ∀ procs order, 1 ≤ procs → Orders procs ts order →
      (pixOf (tilesRect ts m) fun x y => [renderMask ts (tilesRect ts m) m (order (tilesRect ts m)) (fun _ _ => 0) x y]) = src := by
  obtain ⟨g1, g2⟩ := tilesRect_spec hts hne hm.grid
  refine ⟨_, rows_pixOf fun x y => tilePixel_len hts hm.size x y, fun procs order hp ho => ?_⟩
  obtain ⟨o1, o2⟩ := ho.tiles hp hts g1.onGrid
  apply pixOf_congr
  intro x y hxy
  have := renderMask_pixel (tiles := m) hts hxy o1 (o2 x y hxy) (fun _ _ => 0)
  rw [this, tilePixel_value hts hm.size]
  cases m.lookup (tilePt ts x y) <;> rfl

theorem rows_fills {rect : Rect} {k : Nat} {pix : List UInt8} (h : pix.length = rect.dx.toNat * rect.dy.toNat * k) {c : Nat} (hc : c < k) : Fills rect k (pix.drop c) :=
  fills_of_bytes hc (by rw [h])

/-! ### Cutting pictures into tiles -/

/-- An NRGBA picture is cut into tiles. -/
theorem cut4 (hp : 1 ≤ procs) (hts : 1 ≤ ts) {rect : Rect} {src : List UInt8} (hlen : src.length = rect.dx.toNat * rect.dy.toNat * 4)
    (hemp : rect.empty = false) :
    ∃ m', newTiledImage procs ts rect src (src.drop 1) (src.drop 2) (some (src.drop 3)) 4 = .ok m' ∧ Stored ts 4 m' ∧
      ∀ x y, tilePixel ts 4 m' x y = if rect.Keeps ts x y then asSeen (bytesAt rect 4 src x y) else List.replicate 4 0 := by
  have hr := image_reads (rows_fills hlen (c := 0) (by decide)) (rows_fills hlen (c := 1) (by decide)) (rows_fills hlen (c := 2) (by decide))
    (a := some (src.drop 3)) (fun v hv => by
      injection hv with hv
      subst hv
      exact rows_fills hlen (by decide))
  rw [List.drop_zero] at hr
  obtain ⟨m', e', hst, hpx⟩ := stored_of_reads (procs := procs) hp hts hr hemp (fun x y px => pictureAt_seen)
  refine ⟨m', e', hst, fun x y => ?_⟩
  rw [hpx, bytesAt4, asSeen4]
  unfold pictureAt
  by_cases hk : rect.Keeps ts x y
  · rw [if_pos hk, if_pos hk]
    have h := hk.1
    unfold Rect.Mem at h
    rw [if_pos h]
    simp only
    split <;> rfl
  · rw [if_neg hk, if_neg hk]

/-- A mask whose default is 0 is cut into tiles. -/
theorem cut1 (hp : 1 ≤ procs) (hts : 1 ≤ ts) {rect : Rect} {src : List UInt8} (hlen : src.length = rect.dx.toNat * rect.dy.toNat * 1)
    (hemp : rect.empty = false) :
    ∃ m', newTiledMask procs ts rect src 0 = .ok m' ∧ Stored ts 1 m' ∧
      ∀ x y, tilePixel ts 1 m' x y = if rect.Keeps ts x y then bytesAt rect 1 src x y else [0] := by
  have hf := rows_fills hlen (c := 0) (by decide)
  rw [List.drop_zero] at hf
  have hr := mask_reads 0 hf
  obtain ⟨m', e', hst, hpx⟩ := stored_of_reads (procs := procs) hp hts hr hemp (fun x y px => maskStored_seen)
  refine ⟨m', e', hst, fun x y => ?_⟩
  rw [hpx, bytesAt1]
  unfold maskStored
  by_cases hk : rect.Keeps ts x y
  · rw [if_pos hk, if_pos hk]
    have h := hk.1
    unfold Rect.Mem at h
    rw [if_pos h, if_pos rfl]
    split
    · rfl
    · rename_i hz
      rw [not_not.1 hz]
      rfl
  · rw [if_neg hk, if_neg hk]
    rfl

/-! ### Gamma -/

theorem eight_more {n : Nat} : ∀ {l : List UInt8}, l.length = (n + 1) * 8 → ∃ r r' g g' b b' a a' rest, l = r :: r' :: g :: g' :: b :: b' :: a :: a' :: rest
  | r :: r' :: g :: g' :: b :: b' :: a :: a' :: rest, _ => ⟨r, r', g, g', b, b', a, a', rest, rfl⟩
  | [], h => by simp at h
  | [_], h => by simp only [List.length_cons, List.length_nil] at h; omega
  | [_, _], h => by simp only [List.length_cons, List.length_nil] at h; omega
  | [_, _, _], h => by simp only [List.length_cons, List.length_nil] at h; omega
  | [_, _, _, _], h => by simp only [List.length_cons, List.length_nil] at h; omega
  | [_, _, _, _, _], h => by simp only [List.length_cons, List.length_nil] at h; omega
  | [_, _, _, _, _, _], h => by simp only [List.length_cons, List.length_nil] at h; omega
  | [_, _, _, _, _, _, _], h => by simp only [List.length_cons, List.length_nil] at h; omega

theorem restoreGamma_length (t16 : UInt16 → UInt8) : ∀ (n : Nat) (l : List UInt8), l.length = n * 8 → (restoreGamma t16 l).length = n * 8
  | 0, l, h => by
    rw [Nat.zero_mul, List.length_eq_zero_iff] at h
    subst h
    rfl
  | n + 1, l, h => by
    obtain ⟨r, r', g, g', b, b', a, a', rest, rfl⟩ := eight_more h
    have h : rest.length = n * 8 := by simp only [List.length_cons] at h; omega
    have := restoreGamma_length t16 n rest h
    simp only [restoreGamma, List.length_cons]
    omega

theorem restoreGamma_getD (t16 : UInt16 → UInt8) : ∀ (n : Nat) (l : List UInt8), l.length = n * 8 → ∀ i, i < n →
    (restoreGamma t16 l).getD (i * 8) 0 = t16 (be16 (l.getD (i * 8) 0) (l.getD (i * 8 + 1) 0)) ∧
    (restoreGamma t16 l).getD (i * 8 + 2) 0 = t16 (be16 (l.getD (i * 8 + 2) 0) (l.getD (i * 8 + 3) 0)) ∧
    (restoreGamma t16 l).getD (i * 8 + 4) 0 = t16 (be16 (l.getD (i * 8 + 4) 0) (l.getD (i * 8 + 5) 0)) ∧
    (restoreGamma t16 l).getD (i * 8 + 6) 0 = l.getD (i * 8 + 6) 0
  | 0, l, h, i, hi => by omega
  | n + 1, l, h, i, hi => by
    obtain ⟨r, r', g, g', b, b', a, a', rest, rfl⟩ := eight_more h
    have h : rest.length = n * 8 := by simp only [List.length_cons] at h; omega
    cases i with
    | zero => exact ⟨rfl, rfl, rfl, rfl⟩
    | succ i =>
      have := restoreGamma_getD t16 n rest h i (by omega)
      rw [show (i + 1) * 8 = i * 8 + 8 by ring]
      exact this

theorem createPixels_eq {cell : Int → Res (List UInt8)} {dX : Nat} {f : Nat → List UInt8} : ∀ (n i : Nat),
    (∀ j, i ≤ j → j < i + n → cell ((j * dX : Nat) : Int) = .ok (f j)) → createPixels cell dX n (i * dX) = .ok ((List.range' i n).flatMap f)
  | 0, i, _ => rfl
  | n + 1, i, h => by
    have h1 := createPixels_eq n (i + 1) fun j a b => h j (by omega) (by omega)
    unfold createPixels
    rw [h i (Nat.le_refl _) (by omega), Res.ok_bind, show i * dX + dX = (i + 1) * dX by rw [Nat.add_mul, Nat.one_mul], h1, Res.ok_bind, List.range'_succ, List.flatMap_cons]

/-- The pixels of a picture are put in rows. -/
theorem createPixels_rows {rect : Rect} {k dX : Nat} {cell : Int → Res (Option (List UInt8))} {c : Int → Int → Option (List UInt8)} (hr : Reads k dX cell rect c)
    (f : Option (List UInt8) → List UInt8) :
    createPixels (fun s => (cell s).map f) dX (rect.dx.toNat * rect.dy.toNat) 0 = .ok (pixOf rect fun x y => f (c x y)) := by
  have := createPixels_eq (cell := fun s => (cell s).map f) (dX := dX)
    (f := fun i => f (c (rect.minX + (i % rect.dx.toNat : Nat)) (rect.minY + (i / rect.dx.toNat : Nat)))) (rect.dx.toNat * rect.dy.toNat) 0 fun j _ hj => by
      rw [Nat.zero_add] at hj
      obtain ⟨hm, e⟩ := rect_point hj
      have := hr.cell _ _ hm
      rw [show ∀ a b w d : Int, a * (w * d) + b * d = (a * w + b) * d from fun a b w d => by ring, e] at this
      push_cast
      rw [this]
      rfl
  rw [Nat.zero_mul] at this
  rw [this, ← List.range_eq_range']
  rfl

end

end Psd
