import Verif.Lemmas.Retile
import Verif.Props.Load

/-!
# C91, C92: transforming a tree
-/

namespace Psd

section
variable {procs ts : Nat} {order : TileOrder}

theorem Aff3.isIdentity_iff (m : Aff3) : m.isIdentity = true ↔ m = Aff3.identity := by
  obtain ⟨a, b, c, d, e, f⟩ := m
  simp [Aff3.isIdentity, Aff3.identity, and_assoc]

theorem tilesRect_nonempty (hts : 1 ≤ ts) {m : TileMap} (hne : m ≠ []) : (tilesRect ts m).empty = false := by
  rw [tilesRect_empty hts]
  cases m with
  | nil => exact absurd rfl hne
  | cons _ _ => rfl

/-- Nothing is seen outside of the tiles. -/
theorem tilePixel_outside (hts : 1 ≤ ts) {k : Nat} {m : TileMap} (hne : m ≠ []) (hg : ∀ e ∈ m, (ts : Int) ∣ e.1.1 ∧ (ts : Int) ∣ e.1.2) {x y : Int}
    (h : ¬ (tilesRect ts m).Mem x y) : tilePixel ts k m x y = List.replicate k 0 := by
  obtain ⟨g1, g2⟩ := tilesRect_spec hts hne hg
  have h2 : m.lookup (tilePt ts x y) = none := by
    by_contra hc
    obtain ⟨b, hb⟩ := Option.ne_none_iff_exists'.1 hc
    exact h (holds_mem (g2 _ (mem_of_lookup hb)) (floor_mem hts x y))
  unfold tilePixel
  rw [show (x / ↑ts * ↑ts, y / ↑ts * ↑ts) = tilePt ts x y from rfl, h2]

theorem CopyOf.asSeen {p q : List UInt8} (h : CopyOf p q) (hz : p.getD 3 0 = 0 → p = List.replicate 4 0) : CopyOf p (asSeen q) := by
  obtain ⟨r, g, b, a, r', g', b', e1, e2, h3⟩ := h
  rw [e2, asSeen4]
  split
  · rename_i ha
    rw [hz (by rw [e1]; exact ha)]
    exact CopyOf.zero
  · exact ⟨r, g, b, a, r', g', b', e1, rfl, h3⟩

/-! ## C91 -/

theorem picture_identity (R : Resampler) (hp : 1 ≤ procs) (hts : 1 ≤ ts) (ho : Orders procs ts order) {m : TileMap} (hm : Stored ts 4 m)
    (gt : Option GammaTable) :
    ∃ m', transformCanvas R procs ts order m Aff3.identity gt = .ok m' ∧ Stored ts 4 m' ∧ SamePlaces m m' ∧
      ∀ x y, CopyOf (tilePixel ts 4 m x y) (tilePixel ts 4 m' x y) ∧ tilePixel ts 4 m' x y = asSeen (copiedBytes (tilePixel ts 4 m x y)) := by
  by_cases hne : m = []
  · subst hne
    exact ⟨[], rfl, hm, fun _ => rfl, fun x y => ⟨CopyOf.zero, by simp only [tilePixel, List.lookup_nil]; decide⟩⟩
  obtain ⟨g1, g2⟩ := tilesRect_spec hts hne hm.grid
  have hemp := tilesRect_nonempty hts hne
  obtain ⟨flat, src, hcopy, hrows, hsrc⟩ := flattened hts hm hne
  obtain ⟨m', e', hst, hpx⟩ := cut4 (procs := procs) hp hts hrows.1 hemp
  have hc : ∀ x y, CopyOf (tilePixel ts 4 m x y) (tilePixel ts 4 m' x y) ∧ tilePixel ts 4 m' x y = asSeen (copiedBytes (tilePixel ts 4 m x y)) := by
    intro x y
    rw [hpx]
    by_cases hxy : (tilesRect ts m).Mem x y
    · rw [if_pos ((Rect.keeps_of_grid g1.onGrid.1 g1.onGrid.2).2 hxy), hrows.2 x y hxy]
      exact ⟨(hcopy x y).1.asSeen (hm.clean x y), by rw [(hcopy x y).2]⟩
    · rw [if_neg fun h => hxy h.1, tilePixel_outside hts hne hm.grid hxy]
      exact ⟨CopyOf.zero, by decide⟩
  refine ⟨m', ?_, hst, SamePlaces.of_alpha (by decide) hm hst fun x y => ?_, hc⟩
  · unfold transformCanvas
    simp only [hemp, Bool.false_eq_true, if_false]
    rw [hsrc procs order hp ho]
    unfold newScaledTiledImage
    rw [if_pos ((Aff3.isIdentity_iff _).2 rfl)]
    exact e'
  · obtain ⟨r, g, b, a, r', g', b', h1, h2, -⟩ := (hc x y).1
    rw [h1, h2]
    rfl

/-- **C91** (in part) Transforming a picture by the identity: the tiles are at the same places, and every pixel is the old one up to the
rounding of `blend.Copy`.

Missing: that no colour changes, which is false (`C91_colour_lost`). -/
theorem C91_picture_partial (R : Resampler) (hp : 1 ≤ procs) (hts : 1 ≤ ts) (ho : Orders procs ts order) {m : TileMap} (hm : Stored ts 4 m)
    (gt : Option GammaTable) :
    ∃ m', transformCanvas R procs ts order m Aff3.identity gt = .ok m' ∧ Stored ts 4 m' ∧ SamePlaces m m' ∧
      ∀ x y, CopyOf (tilePixel ts 4 m x y) (tilePixel ts 4 m' x y) := by
  obtain ⟨m', a, b, c, d⟩ := picture_identity R hp hts ho hm gt
  exact ⟨m', a, b, c, fun x y => (d x y).1⟩

/-- **C91** Transforming a mask by the identity changes no value. -/
theorem C91_mask (R : Resampler) (hp : 1 ≤ procs) (hts : 1 ≤ ts) (ho : Orders procs ts order) {m : TileMap} (hm : Stored ts 1 m) :
    ∃ m', transformMask R procs ts order m Aff3.identity = .ok m' ∧ Stored ts 1 m' ∧ SamePlaces m m' ∧
      ∀ x y, tilePixel ts 1 m x y = tilePixel ts 1 m' x y := by
  by_cases hne : m = []
  · subst hne
    exact ⟨[], rfl, hm, fun _ => rfl, fun x y => rfl⟩
  obtain ⟨g1, g2⟩ := tilesRect_spec hts hne hm.grid
  have hemp := tilesRect_nonempty hts hne
  obtain ⟨src, hrows, hsrc⟩ := flattenedMask hts hm hne
  obtain ⟨m', e', hst, hpx⟩ := cut1 (procs := procs) hp hts hrows.1 hemp
  have hc : ∀ x y, tilePixel ts 1 m x y = tilePixel ts 1 m' x y := by
    intro x y
    rw [hpx]
    by_cases hxy : (tilesRect ts m).Mem x y
    · rw [if_pos ((Rect.keeps_of_grid g1.onGrid.1 g1.onGrid.2).2 hxy), hrows.2 x y hxy]
    · rw [if_neg fun h => hxy h.1, tilePixel_outside hts hne hm.grid hxy]
      rfl
  refine ⟨m', ?_, hst, SamePlaces.of_alpha (by decide) hm hst fun x y => by rw [hc], hc⟩
  unfold transformMask
  simp only [hemp, Bool.false_eq_true, if_false]
  rw [hsrc procs order hp ho]
  unfold newScaledTiledMask
  rw [if_pos ((Aff3.isIdentity_iff _).2 rfl)]
  exact e'

/-! ### All pictures of a tree -/

theorem transformInner_append (R : Resampler) (m : Aff3) (gt : Option GammaTable) : ∀ (l l' : List (Nat × LayerImage)) (out : Nat → Option LayerImage),
    transformInner R procs ts order m gt (l ++ l') out = (transformInner R procs ts order m gt l out).bind fun out => transformInner R procs ts order m gt l' out
  | [], l', out => rfl
  | (id, img) :: l, l', out => by
    show (transformImage R procs ts order m gt img >>= fun img => transformInner R procs ts order m gt (l ++ l') fun k => if k = id then some img else out k) =
      (transformImage R procs ts order m gt img >>= fun img => transformInner R procs ts order m gt l fun k => if k = id then some img else out k).bind _
    cases transformImage R procs ts order m gt img with
    | ok img => exact transformInner_append R m gt l l' _
    | err _ => rfl
    | panic => rfl
    | fuel => rfl

theorem transformAll_flatten (R : Resampler) (m : Aff3) (gt : Option GammaTable) : ∀ (ws : List (List (Nat × LayerImage))) (out : Nat → Option LayerImage),
    transformAll R procs ts order m gt ws out = transformInner R procs ts order m gt ws.flatten out
  | [], out => rfl
  | w :: ws, out => by
    rw [List.flatten_cons, transformInner_append]
    show (transformInner R procs ts order m gt w out >>= fun out => transformAll R procs ts order m gt ws out) = _
    cases transformInner R procs ts order m gt w out with
    | ok out => exact transformAll_flatten R m gt ws out
    | err _ => rfl
    | panic => rfl
    | fuel => rfl

theorem range_map_slice {α : Type} (l : List α) : ∀ (i n : Nat), i + n ≤ l.length → (List.range' i n).map (fun j => l[j]?) = ((l.drop i).take n).map some
  | i, 0, _ => by simp
  | i, n + 1, h => by
    have hi : i < l.length := by omega
    rw [List.range'_succ, List.map_cons, range_map_slice l (i + 1) n (by omega), List.drop_eq_getElem_cons hi, List.take_succ_cons, List.map_cons,
      List.getElem?_eq_getElem hi]

theorem spawnCells_le {step n : Nat} : ∀ {i idx : Nat}, idx + i * step ≤ n → ∀ r ∈ spawnCells step n i idx, r.1 ≤ r.2 ∧ r.2 ≤ n
  | 0, idx, h, r, hr => by
    simp only [spawnCells, List.mem_singleton] at hr
    subst hr
    exact ⟨by simpa using h, Nat.le_refl _⟩
  | i + 1, idx, h, r, hr => by
    rw [Nat.add_mul, Nat.one_mul] at h
    simp only [spawnCells, List.mem_cons] at hr
    rcases hr with rfl | hr
    · exact ⟨by simp, by show idx + step ≤ n; omega⟩
    · exact spawnCells_le (by omega) r hr

/-- The goroutines share out the entries. -/
theorem transformWork_flatten (hp : 1 ≤ procs) (entries : List (Nat × LayerImage)) : (transformWork procs entries).flatten = entries := by
  unfold transformWork
  obtain ⟨w1, _, _⟩ := drawWorkers_spec (entries.length : Int) procs hp
  have hle : 0 + (drawWorkers procs entries.length - 1) * (entries.length / drawWorkers procs entries.length) ≤ entries.length := by
    have : (drawWorkers procs entries.length - 1) * (entries.length / drawWorkers procs entries.length) ≤ entries.length :=
      Nat.le_trans (Nat.mul_le_mul_right _ (Nat.sub_le _ 1)) (by rw [Nat.mul_comm]; exact Nat.div_mul_le_self _ _)
    omega
  have key := spawnCells_flat (fun j => entries[j]?) (entries.length / drawWorkers procs entries.length) entries.length (drawWorkers procs entries.length - 1) 0 hle
  have h2 : (List.range' 0 (entries.length - 0)).map (fun j => entries[j]?) = entries.map some := by
    rw [range_map_slice entries 0 _ (by omega)]
    simp
  rw [h2] at key
  have h3 : ((spawnCells (entries.length / drawWorkers procs entries.length) entries.length (drawWorkers procs entries.length - 1) 0).map
      fun r => (entries.drop r.1).take (r.2 - r.1)).flatten.map some = entries.map some := by
    rw [← key, List.map_flatten, List.map_map, List.flatMap_def]
    congr 1
    apply List.map_congr_left
    intro r hr
    obtain ⟨a, b⟩ := spawnCells_le hle r hr
    rw [range_map_slice entries r.1 _ (by omega)]
    rfl
  exact List.map_injective_iff.2 (Option.some_injective _) h3

theorem transformInner_spec (R : Resampler) (m : Aff3) (gt : Option GammaTable) (f : LayerImage → LayerImage) : ∀ (l : List (Nat × LayerImage))
    (out : Nat → Option LayerImage), (l.map Prod.fst).Nodup → (∀ e ∈ l, transformImage R procs ts order m gt e.2 = .ok (f e.2)) →
    ∃ out', transformInner R procs ts order m gt l out = .ok out' ∧ (∀ k, (∀ e ∈ l, e.1 ≠ k) → out' k = out k) ∧ ∀ e ∈ l, out' e.1 = some (f e.2)
  | [], out, _, _ => ⟨out, rfl, fun _ _ => rfl, fun _ h => by cases h⟩
  | (id, img) :: l, out, hn, hf => by
    rw [List.map_cons, List.nodup_cons] at hn
    obtain ⟨out', e, h1, h2⟩ := transformInner_spec R m gt f l (fun k => if k = id then some (f img) else out k) hn.2 fun e he => hf e (List.mem_cons_of_mem _ he)
    refine ⟨out', ?_, fun k hk => ?_, fun e he => ?_⟩
    · show (transformImage R procs ts order m gt img >>= fun img => transformInner R procs ts order m gt l fun k => if k = id then some img else out k) = _
      rw [hf (id, img) (List.mem_cons_self ..), Res.ok_bind, e]
    · rw [h1 k fun e he => hk e (List.mem_cons_of_mem _ he), if_neg (Ne.symm (hk (id, img) (List.mem_cons_self ..)))]
    · rcases List.mem_cons.1 he with rfl | he
      · rw [h1 id fun e he ee => hn.1 (by
          have := List.mem_map_of_mem (f := Prod.fst) he
          rwa [ee] at this), if_pos rfl]
      · exact h2 e he

/-- Every picture of a tree is transformed on its own, whatever the order in which the map is visited and the number of goroutines. -/
theorem transform_images (R : Resampler) (hp : 1 ≤ procs) (m : Aff3) (gt : Option GammaTable) {t : AnyTree} {entries : List (Nat × LayerImage)}
    (he : Lists t.images entries) (fuel : Nat) (f : LayerImage → LayerImage)
    (hf : ∀ k img, t.images k = some img → transformImage R procs ts order m gt img = .ok (f img)) :
    t.transform R procs ts order entries fuel m gt =
      .ok ⟨(cloneTree fuel t.root t.heap).1, (cloneTree fuel t.root t.heap).2, fun k => (t.images k).map f, transformRect t.rect m, transformRect t.canvasRect m⟩ := by
  obtain ⟨out, e, h1, h2⟩ := transformInner_spec (procs := procs) (ts := ts) (order := order) R m gt f entries (fun _ => none) he.1 fun e hm => hf e.1 e.2 ((he.2 e.1 e.2).2 hm)
  have : out = fun k => (t.images k).map f := by
    funext k
    cases hk : t.images k with
    | none =>
      rw [h1 k fun e hm ee => ?_]
      · rfl
      · have := (he.2 e.1 e.2).2 hm
        rw [ee, hk] at this
        cases this
    | some img => exact h2 _ ((he.2 k img).1 hk)
  unfold AnyTree.transform
  simp only
  rw [transformAll_flatten, transformWork_flatten hp, e, Res.ok_bind, this]

/-- **C91** (in part) Transforming a tree by the identity, with or without gamma, whatever the numbers of goroutines, the schedule and the order in
which the map of pictures is visited: the layers are those of a clone (`C55`), the same layers have pictures and masks, every picture is
the old one up to the rounding of `blend.Copy`, and masks are as before.

Missing: that no colour changes, which is false (`C91_colour_lost`), and that the canvas is as large as before, which is false too
(`C91_canvas_grows`). -/
theorem C91_tree_partial (R : Resampler) (hp : 1 ≤ procs) (hts : 1 ≤ ts) (ho : Orders procs ts order) (gt : Option GammaTable) (t : AnyTree)
    (hst : ∀ k img, t.images k = some img → img.Stored ts) {entries : List (Nat × LayerImage)} (he : Lists t.images entries) (fuel : Nat) :
    ∃ t', t.transform R procs ts order entries fuel Aff3.identity gt = .ok t' ∧ (t'.heap, t'.root) = cloneTree fuel t.root t.heap ∧
      ∀ k, match t.images k with
        | none => t'.images k = none
        | some img => ∃ img', t'.images k = some img' ∧ img'.Stored ts ∧ CanvasCopy ts img.canvas img'.canvas ∧ MaskCopy ts img.mask img'.mask := by
  have key : ∀ img : LayerImage, ∃ img' : LayerImage, img.Stored ts → transformImage R procs ts order Aff3.identity gt img = .ok img' ∧ img'.Stored ts ∧
      CanvasCopy ts img.canvas img'.canvas ∧ MaskCopy ts img.mask img'.mask := by
    intro img
    by_cases h : img.Stored ts
    · obtain ⟨canvas, mask⟩ := img
      have hc : ∃ c', transformOpt (fun c => transformCanvas R procs ts order c Aff3.identity gt) canvas = .ok c' ∧ (∀ d, c' = some d → Stored ts 4 d) ∧ CanvasCopy ts canvas c' := by
        cases canvas with
        | none => exact ⟨none, rfl, ⟨fun _ h => (by cases h), trivial⟩⟩
        | some c =>
          obtain ⟨d, e, a, b, cc⟩ := C91_picture_partial R hp hts ho (h.1 c rfl) gt
          refine ⟨some d, by simp only [transformOpt]; rw [e]; rfl, fun _ h => ?_, b, cc⟩
          injection h with h
          rw [← h]
          exact a
      have hm : ∃ c', transformOpt (fun c => transformMask R procs ts order c Aff3.identity) mask = .ok c' ∧ (∀ d, c' = some d → Stored ts 1 d) ∧ MaskCopy ts mask c' := by
        cases mask with
        | none => exact ⟨none, rfl, ⟨fun _ h => (by cases h), trivial⟩⟩
        | some c =>
          obtain ⟨d, e, a, b, cc⟩ := C91_mask R hp hts ho (h.2 c rfl)
          refine ⟨some d, by simp only [transformOpt]; rw [e]; rfl, fun _ h => ?_, b, cc⟩
          injection h with h
          rw [← h]
          exact a
      obtain ⟨c', e1, a1, b1⟩ := hc
      obtain ⟨m', e2, a2, b2⟩ := hm
      refine ⟨⟨c', m'⟩, fun _ => ⟨?_, ⟨a1, a2⟩, b1, b2⟩⟩
      unfold transformImage
      simp only
      rw [e1, Res.ok_bind, e2, Res.ok_bind]
    · exact ⟨img, fun h' => absurd h' h⟩
  choose f hf using key
  refine ⟨_, transform_images R hp _ gt he fuel f fun k img hk => (hf img (hst k img hk)).1, rfl, fun k => ?_⟩
  cases hk : t.images k with
  | none => simp [hk]
  | some img => exact ⟨f img, by simp [hk], (hf img (hst k img hk)).2⟩

/-- A picture of one pixel, of the red 100 with the alpha 1, in tiles of one pixel. -/
def exFaint : TileMap := [((0, 0), [100, 0, 0, 1])]

theorem exFaint_pixel (x y : Int) : tilePixel 1 4 exFaint x y = if x = 0 ∧ y = 0 then [100, 0, 0, 1] else [0, 0, 0, 0] := by
  unfold tilePixel exFaint
  have e : ∀ z : Int, z / ((1 : Nat) : Int) * ((1 : Nat) : Int) = z := fun z => by simp
  have e' : ∀ z : Int, (z % ((1 : Nat) : Int)).toNat = 0 := fun z => by simp [Int.emod_one]
  rw [e, e, e', e', List.lookup_cons]
  by_cases h : x = 0 ∧ y = 0
  · rw [if_pos h, h.1, h.2]
    rfl
  · rw [if_neg h]
    have : ((x, y) == ((0 : Int), (0 : Int))) = false := by
      rw [beq_eq_false_iff_ne]
      intro hh
      injection hh with h1 h2
      exact h ⟨h1, h2⟩
    rw [this]
    rfl

theorem exFaint_stored : Stored 1 4 exFaint := by
  refine ⟨by decide, by decide, by decide, fun e he => ?_, fun x y h => ?_⟩
  · simp only [exFaint, List.mem_singleton] at he
    subst he
    exact ⟨0, 0, by decide, by decide⟩
  · rw [exFaint_pixel] at h ⊢
    split
    · rename_i hh
      rw [if_pos hh] at h
      exact absurd h (by decide)
    · rfl

/-- **C91** is false of nearly transparent pixels: whatever the schedule, the red 100 with the alpha 1 becomes 99. -/
theorem C91_colour_lost (R : Resampler) (hp : 1 ≤ procs) (ho : Orders procs 1 order) (gt : Option GammaTable) :
    Stored 1 4 exFaint ∧ tilePixel 1 4 exFaint 0 0 = [100, 0, 0, 1] ∧
      ∃ m', transformCanvas R procs 1 order exFaint Aff3.identity gt = .ok m' ∧ tilePixel 1 4 m' 0 0 = [99, 0, 0, 1] := by
  obtain ⟨m', a, -, -, d⟩ := picture_identity R hp (Nat.le_refl 1) ho exFaint_stored gt
  refine ⟨exFaint_stored, by decide, m', a, ?_⟩
  rw [(d 0 0).2, exFaint_pixel]
  decide

/-- **C91** is false of the canvas: it grows by a column and a row. -/
theorem C91_canvas_grows (R : Resampler) (gt : Option GammaTable) (t t' : AnyTree) (entries : List (Nat × LayerImage)) (fuel : Nat)
    (h : t.transform R procs ts order entries fuel Aff3.identity gt = .ok t') (hr : t.canvasRect.minX ≤ t.canvasRect.maxX ∧ t.canvasRect.minY ≤ t.canvasRect.maxY) :
    t'.canvasRect = ⟨t.canvasRect.minX, t.canvasRect.minY, t.canvasRect.maxX + 1, t.canvasRect.maxY + 1⟩ := by
  unfold AnyTree.transform at h
  simp only at h
  obtain ⟨im, -, h⟩ := Res.bind_eq_ok.1 h
  injection h with h
  rw [← h]
  exact C65_identity_grows _ hr

/-- Pictures and masks of a document are as `C91_tree_partial` has them, whatever the schedule of loading: 8-bit documents. -/
theorem C91_loaded (hp : 1 ≤ procs) (hts : 1 ≤ ts) {flat : List LayerRec} (hn : flat.map LayerRec.seqID = List.range flat.length) {n : Nat} {s : Import}
    (r : ImportRun procs ts (Import.start n flat) s) (hd : s.Done)
    (hl : ∀ l ∈ flat, l.Coloured ∧ l.Filled) :
    ∀ k img, s.images k = some img → img.Stored ts := by
  obtain ⟨h1, h2⟩ := C75_pictures_stored hn r hd
  intro k img hk
  rcases Nat.lt_or_ge k flat.length with hlt | hge
  · obtain ⟨img', ⟨a1, a2⟩, b⟩ := h1 k _ (List.getElem?_eq_getElem hlt)
    rw [hk] at b
    injection b with b
    subst b
    obtain ⟨hc, hf⟩ := hl _ (List.getElem_mem hlt)
    generalize flat[k] = l at *
    constructor
    · intro c e
      by_cases hpic : l.Pictured
      · have hr := layer_reads hpic hc hf
        obtain ⟨m, em, hst, -⟩ := stored_of_reads (procs := procs) hp hts hr hpic.2 (fun x y px => pictureAt_seen)
        rw [loadCanvas_some hpic, em, e] at a1
        injection a1 with a1
        injection a1 with a1
        rw [← a1]
        exact hst
      · rw [loadCanvas_none hpic, e] at a1
        cases a1
    · intro c e
      by_cases hm : l.mask.rect.empty = true ∨ l.channel (-2) = none
      · rw [loadMask_none hm, e] at a2
        cases a2
      · rw [not_or] at hm
        obtain ⟨ch, hch⟩ := Option.ne_none_iff_exists'.1 hm.2
        have hne : l.mask.rect.empty = false := by simpa using hm.1
        have hr := mask_reads (UInt8.ofNat l.mask.defaultColor) (fills_of_length (hf.mask ch hch))
        obtain ⟨m, em, hst, -⟩ := stored_of_reads (procs := procs) hp hts hr hne (fun x y px => maskStored_seen)
        rw [loadMask_some hne hch, em, e] at a2
        injection a2 with a2
        injection a2 with a2
        rw [← a2]
        exact hst
  · rw [h2 k hge] at hk
    cases hk

/-! ## C92 -/

theorem transformRect_nonempty {r : Rect} (h : r.empty = false) (m : Aff3) : (transformRect r m).empty = false := by
  rw [Rect.nonempty_iff] at h
  have := C65_contains_partial r m r.minX r.minY ⟨le_refl _, h.1, le_refl _, h.2⟩ r.minX r.minY ⟨le_refl _, by linarith⟩ ⟨le_refl _, by linarith⟩
  rw [Rect.nonempty_iff]
  constructor
  · exact_mod_cast lt_of_le_of_lt this.1 this.2.1
  · exact_mod_cast lt_of_le_of_lt this.2.2.1 this.2.2.2

/-- A 16-bit picture is brought back to 8 bits and cut into tiles. -/
theorem cut8 (hp : 1 ≤ procs) (hts : 1 ≤ ts) {rect : Rect} {src : List UInt8} (t16 : UInt16 → UInt8) (hlen : src.length = rect.dx.toNat * rect.dy.toNat * 8)
    (hemp : rect.empty = false) :
    ∃ m', newTiledImage procs ts rect (restoreGamma t16 src) ((restoreGamma t16 src).drop 2) ((restoreGamma t16 src).drop 4)
        (some ((restoreGamma t16 src).drop 6)) 8 = .ok m' ∧ Stored ts 4 m' ∧
      ∀ x y, tilePixel ts 4 m' x y = if rect.Keeps ts x y then asSeen (narrowed t16 (bytesAt rect 8 src x y)) else List.replicate 4 0 := by
  have hlen' := restoreGamma_length t16 _ _ hlen
  have hr := image_reads (rows_fills hlen' (c := 0) (by decide)) (rows_fills hlen' (c := 2) (by decide)) (rows_fills hlen' (c := 4) (by decide))
    (a := some ((restoreGamma t16 src).drop 6)) (fun v hv => by
      injection hv with hv
      subst hv
      exact rows_fills hlen' (by decide))
  rw [List.drop_zero] at hr
  obtain ⟨m', e', hst, hpx⟩ := stored_of_reads (procs := procs) hp hts hr hemp (fun x y px => pictureAt_seen)
  refine ⟨m', e', hst, fun x y => ?_⟩
  rw [hpx]
  by_cases hk : rect.Keeps ts x y
  · rw [if_pos hk, if_pos hk, bytesAt8]
    have h := hk.1
    obtain ⟨i, g1, g2, -, -⟩ := rect_index h
    have ch : ∀ (l : List UInt8) c, channelAt rect 8 (l.drop c) x y = l.getD (i * 8 + c) 0 := fun l c => by
      unfold channelAt
      rw [← g1]
      have e : ((i : Int) * ((8 : Nat) : Int)).toNat = i * 8 := by rw [← Int.natCast_mul, Int.toNat_natCast]
      rw [e, List.getD_eq_getElem?_getD, List.getElem?_drop, ← List.getD_eq_getElem?_getD, Nat.add_comm c]
    have ch0 : ∀ (l : List UInt8), channelAt rect 8 l x y = l.getD (i * 8) 0 := fun l => ch l 0
    obtain ⟨r1, r2, r3, r4⟩ := restoreGamma_getD t16 _ _ hlen i g2
    unfold pictureAt
    unfold Rect.Mem at h
    rw [if_pos h]
    simp only [ch, ch0, r1, r2, r3, r4, narrowed, asSeen4]
    split <;> rfl
  · rw [if_neg hk, if_neg hk]

/-- **C92** (in part) Transforming a picture by a matrix, whatever the schedule: the pixels are those that interpolation gives.

Missing: what is left of or above the canvas is lost up to the first grid line, if the new rectangle has a negative edge off the tile grid
(`C92_negative_edge_lost`). -/
theorem C92_picture_partial {R : Resampler} (hR : R.Proper) (hp : 1 ≤ procs) (hts : 1 ≤ ts) {c : TileMap} (hc : Stored ts 4 c) {m : Aff3} (hm : m ≠ Aff3.identity) :
    ∃ c', Resampled R ts m c c' ∧ Stored ts 4 c' ∧ ∀ order, Orders procs ts order → transformCanvas R procs ts order c m none = .ok c' := by
  by_cases hne : c = []
  · subst hne
    exact ⟨[], .inl ⟨rfl, rfl⟩, hc, fun _ _ => rfl⟩
  have hemp := tilesRect_nonempty hts hne
  obtain ⟨flat, src, hcopy, hrows, hsrc⟩ := flattened hts hc hne
  obtain ⟨c', e', hst, hpx⟩ := cut4 (procs := procs) hp hts (hR.nrgba m (transformRect (tilesRect ts c) m) (tilesRect ts c) src) (transformRect_nonempty hemp m)
  refine ⟨c', .inr ⟨flat, src, fun x y => (hcopy x y).1, hrows, hpx⟩, hst, fun order ho => ?_⟩
  unfold transformCanvas
  simp only [hemp, Bool.false_eq_true, if_false]
  rw [hsrc procs order hp ho]
  unfold newScaledTiledImage
  rw [if_neg fun h => hm ((Aff3.isIdentity_iff _).1 h)]
  simp only [createImage, if_true, Res.ok_bind]
  exact e'

theorem rows_gamma {rect : Rect} {src : List UInt8} {flat : Int → Int → List UInt8} (h : Rows 4 rect src flat) (t8 : UInt8 → UInt16) :
    ∃ wide, createImageGamma rect src (src.drop 1) (src.drop 2) (some (src.drop 3)) 4 t8 = .ok wide ∧ Rows 8 rect wide fun x y => widened t8 (flat x y) := by
  have hr := image_reads (rows_fills h.1 (c := 0) (by decide)) (rows_fills h.1 (c := 1) (by decide)) (rows_fills h.1 (c := 2) (by decide))
    (a := some (src.drop 3)) (fun v hv => by
      injection hv with hv
      subst hv
      exact rows_fills h.1 (by decide))
  rw [List.drop_zero] at hr
  have e := createPixels_rows hr (fun px => match px with
    | some px => gammaPixel t8 px
    | none => List.replicate 8 0)
  refine ⟨_, e, ?_⟩
  have hlen : ∀ x y, (match pictureAt rect 4 src (src.drop 1) (src.drop 2) (some (src.drop 3)) x y with
    | some px => gammaPixel t8 px
    | none => List.replicate 8 0).length = 8 := by
    intro x y
    split
    · unfold gammaPixel
      split <;> rfl
    · rfl
  have := rows_pixOf (rect := rect) hlen
  refine ⟨this.1, fun x y hm => ?_⟩
  rw [this.2 x y hm]
  show _ = widened t8 (flat x y)
  rw [← h.2 x y hm, bytesAt4]
  unfold pictureAt
  unfold Rect.Mem at hm
  beta_reduce
  rw [if_pos hm]
  simp only [widened]
  by_cases ha : channelAt rect 4 (src.drop 3) x y = 0
  · rw [if_pos ha, if_pos ha]
  · rw [if_neg ha, if_neg ha]
    rfl

/-- **C92** (in part) The same with gamma: interpolation works on 16-bit colours under the table, and its result goes back through the table. -/
theorem C92_gamma_partial {R : Resampler} (hR : R.Proper) (hp : 1 ≤ procs) (hts : 1 ≤ ts) {c : TileMap} (hc : Stored ts 4 c) {m : Aff3} (hm : m ≠ Aff3.identity)
    (gt : GammaTable) :
    ∃ c', ResampledGamma R ts m gt c c' ∧ Stored ts 4 c' ∧ ∀ order, Orders procs ts order → transformCanvas R procs ts order c m (some gt) = .ok c' := by
  by_cases hne : c = []
  · subst hne
    exact ⟨[], .inl ⟨rfl, rfl⟩, hc, fun _ _ => rfl⟩
  have hemp := tilesRect_nonempty hts hne
  obtain ⟨flat, src, hcopy, hrows, hsrc⟩ := flattened hts hc hne
  obtain ⟨wide, ew, hwide⟩ := rows_gamma hrows gt.t8
  obtain ⟨c', e', hst, hpx⟩ := cut8 (procs := procs) hp hts gt.t16 (hR.nrgba64 m (transformRect (tilesRect ts c) m) (tilesRect ts c) wide) (transformRect_nonempty hemp m)
  refine ⟨c', .inr ⟨flat, wide, fun x y => (hcopy x y).1, hwide, hpx⟩, hst, fun order ho => ?_⟩
  unfold transformCanvas
  simp only [hemp, Bool.false_eq_true, if_false]
  rw [hsrc procs order hp ho]
  unfold newScaledTiledImage
  rw [if_neg fun h => hm ((Aff3.isIdentity_iff _).1 h)]
  simp only
  rw [ew, Res.ok_bind]
  exact e'

/-- **C92** (in part) The same for masks. -/
theorem C92_mask_partial {R : Resampler} (hR : R.Proper) (hp : 1 ≤ procs) (hts : 1 ≤ ts) {c : TileMap} (hc : Stored ts 1 c) {m : Aff3} (hm : m ≠ Aff3.identity) :
    ∃ c', ResampledMask R ts m c c' ∧ Stored ts 1 c' ∧ ∀ order, Orders procs ts order → transformMask R procs ts order c m = .ok c' := by
  by_cases hne : c = []
  · subst hne
    exact ⟨[], .inl ⟨rfl, rfl⟩, hc, fun _ _ => rfl⟩
  have hemp := tilesRect_nonempty hts hne
  obtain ⟨src, hrows, hsrc⟩ := flattenedMask hts hc hne
  obtain ⟨c', e', hst, hpx⟩ := cut1 (procs := procs) hp hts (hR.alpha m (transformRect (tilesRect ts c) m) (tilesRect ts c) src) (transformRect_nonempty hemp m)
  refine ⟨c', .inr ⟨src, hrows, hpx⟩, hst, fun order ho => ?_⟩
  unfold transformMask
  simp only [hemp, Bool.false_eq_true, if_false]
  rw [hsrc procs order hp ho]
  unfold newScaledTiledMask
  rw [if_neg fun h => hm ((Aff3.isIdentity_iff _).1 h)]
  exact e'

/-- What a tree transformed by `m` holds for the picture and the mask `img`. -/
theorem transform_each {R : Resampler} (hR : R.Proper) (hp : 1 ≤ procs) (hts : 1 ≤ ts) {m : Aff3} (hm : m ≠ Aff3.identity) (gt : Option GammaTable) (img : LayerImage)
    (hst : img.Stored ts) :
    ∃ img' : LayerImage, img'.Stored ts ∧
      OptRel (match gt with | none => Resampled R ts m | some gt => ResampledGamma R ts m gt) img.canvas img'.canvas ∧ OptRel (ResampledMask R ts m) img.mask img'.mask ∧
      ∀ order, Orders procs ts order → transformImage R procs ts order m gt img = .ok img' := by
  obtain ⟨canvas, mask⟩ := img
  have hc : ∃ c', (∀ d, c' = some d → Stored ts 4 d) ∧ OptRel (match gt with | none => Resampled R ts m | some gt => ResampledGamma R ts m gt) canvas c' ∧
      ∀ order, Orders procs ts order → transformOpt (fun c => transformCanvas R procs ts order c m gt) canvas = .ok c' := by
    cases canvas with
    | none => exact ⟨none, fun _ h => (by cases h), trivial, fun _ _ => rfl⟩
    | some c =>
      have : ∃ c', (match gt with | none => Resampled R ts m | some gt => ResampledGamma R ts m gt) c c' ∧ Stored ts 4 c' ∧
          ∀ order, Orders procs ts order → transformCanvas R procs ts order c m gt = .ok c' := by
        cases gt with
        | none => exact C92_picture_partial hR hp hts (hst.1 c rfl) hm
        | some gt => exact C92_gamma_partial hR hp hts (hst.1 c rfl) hm gt
      obtain ⟨d, a, b, e⟩ := this
      refine ⟨some d, fun _ h => ?_, a, fun order ho => by simp only [transformOpt]; rw [e order ho]; rfl⟩
      injection h with h
      rw [← h]
      exact b
  have hk : ∃ c', (∀ d, c' = some d → Stored ts 1 d) ∧ OptRel (ResampledMask R ts m) mask c' ∧
      ∀ order, Orders procs ts order → transformOpt (fun c => transformMask R procs ts order c m) mask = .ok c' := by
    cases mask with
    | none => exact ⟨none, fun _ h => (by cases h), trivial, fun _ _ => rfl⟩
    | some c =>
      obtain ⟨d, a, b, e⟩ := C92_mask_partial hR hp hts (hst.2 c rfl) hm
      refine ⟨some d, fun _ h => ?_, a, fun order ho => by simp only [transformOpt]; rw [e order ho]; rfl⟩
      injection h with h
      rw [← h]
      exact b
  obtain ⟨c', a1, b1, e1⟩ := hc
  obtain ⟨m', a2, b2, e2⟩ := hk
  refine ⟨⟨c', m'⟩, ⟨a1, a2⟩, b1, b2, fun order ho => ?_⟩
  unfold transformImage
  simp only
  rw [e1 order ho, Res.ok_bind, e2 order ho, Res.ok_bind]

/-- **C92** (in part) Transforming a tree: whatever the schedules and the order in which the map of pictures is visited, the result is the same tree; its layers
are those of a clone (`C55`), the same layers have pictures and masks, and each is the old one under `m`, on its own. The canvas is as `C65` has it.

Missing: what is left of or above the canvas, up to the first grid line, of pictures and masks whose new rectangle has a negative edge off the tile grid (`C92_negative_edge_lost`). -/
theorem C92_tree_partial {R : Resampler} (hR : R.Proper) (hp : 1 ≤ procs) (hts : 1 ≤ ts) {m : Aff3} (hm : m ≠ Aff3.identity) (gt : Option GammaTable) (t : AnyTree)
    (hst : ∀ k img, t.images k = some img → img.Stored ts) (fuel : Nat) :
    ∃ t' : AnyTree, (∀ order entries, Orders procs ts order → Lists t.images entries → t.transform R procs ts order entries fuel m gt = .ok t') ∧
      (t'.heap, t'.root) = cloneTree fuel t.root t.heap ∧ t'.canvasRect = transformRect t.canvasRect m ∧ t'.rect = transformRect t.rect m ∧
      ∀ k, match t.images k with
        | none => t'.images k = none
        | some img => ∃ img', t'.images k = some img' ∧ img'.Stored ts ∧
            OptRel (match gt with | none => Resampled R ts m | some gt => ResampledGamma R ts m gt) img.canvas img'.canvas ∧ OptRel (ResampledMask R ts m) img.mask img'.mask := by
  have key : ∀ img : LayerImage, ∃ img' : LayerImage, (∃ k, t.images k = some img) → img'.Stored ts ∧
      OptRel (match gt with | none => Resampled R ts m | some gt => ResampledGamma R ts m gt) img.canvas img'.canvas ∧ OptRel (ResampledMask R ts m) img.mask img'.mask ∧
      ∀ order, Orders procs ts order → transformImage R procs ts order m gt img = .ok img' := by
    intro img
    by_cases h : ∃ k, t.images k = some img
    · obtain ⟨k, hk⟩ := h
      obtain ⟨img', h⟩ := transform_each hR hp hts hm gt img (hst k img hk)
      exact ⟨img', fun _ => h⟩
    · exact ⟨img, fun h' => absurd h' h⟩
  choose f hf using key
  refine ⟨⟨(cloneTree fuel t.root t.heap).1, (cloneTree fuel t.root t.heap).2, fun k => (t.images k).map f, transformRect t.rect m, transformRect t.canvasRect m⟩,
    fun order entries ho he => transform_images R hp m gt he fuel f fun k img hk => (hf img ⟨k, hk⟩).2.2.2 order ho, rfl, rfl, rfl, fun k => ?_⟩
  cases hk : t.images k with
  | none => simp [hk]
  | some img => exact ⟨f img, by simp [hk], (hf img ⟨k, hk⟩).1, (hf img ⟨k, hk⟩).2.1, (hf img ⟨k, hk⟩).2.2.1⟩

/-- **C92** is false of pictures that are moved to a negative position off the tile grid: no tile shows what is left of or above the grid line. -/
theorem C92_negative_edge_lost {R : Resampler} (hR : R.Proper) (hp : 1 ≤ procs) (hts : 1 ≤ ts) {c : TileMap} (hc : Stored ts 4 c) (hne : c ≠ [])
    (ho : Orders procs ts order) {m : Aff3} (hm : m ≠ Aff3.identity) {x y : Int}
    (hx : (transformRect (tilesRect ts c) m).Mem x y) (hk : ¬ (transformRect (tilesRect ts c) m).Keeps ts x y) :
    ∃ c', transformCanvas R procs ts order c m none = .ok c' ∧ tilePixel ts 4 c' x y = List.replicate 4 0 := by
  have hemp := tilesRect_nonempty hts hne
  obtain ⟨flat, src, hcopy, hrows, hsrc⟩ := flattened hts hc hne
  have hlen := hR.nrgba m (transformRect (tilesRect ts c) m) (tilesRect ts c) src
  obtain ⟨c', e', hpx⟩ := C51_negative_edge_lost procs ts 4 hp hts (transformRect (tilesRect ts c) m) _ _ _ (some _) (rows_fills hlen (c := 0) (by decide))
    (rows_fills hlen (c := 1) (by decide)) (rows_fills hlen (c := 2) (by decide)) (fun v hv => by
      injection hv with hv
      subst hv
      exact rows_fills hlen (c := 3) (by decide)) (transformRect_nonempty hemp m) x y hx hk
  rw [List.drop_zero] at e'
  refine ⟨c', ?_, ?_⟩
  · unfold transformCanvas
    simp only [hemp, Bool.false_eq_true, if_false]
    rw [hsrc procs order hp ho]
    unfold newScaledTiledImage
    rw [if_neg fun h => hm ((Aff3.isIdentity_iff _).1 h)]
    simp only [createImage, if_true, Res.ok_bind]
    exact e'
  · unfold tilePixel
    split
    · rename_i pix hl
      exfalso
      refine hpx _ (mem_of_lookup hl) ?_
      have := floor_mem hts x y
      unfold InTile
      unfold tileRect Rect.Mem tilePt at this
      simp only at this ⊢
      omega
    · rfl

/-- Interpolation that only knows to move by whole pixels. -/
def exShift : Resampler where
  nrgba m dst src pix := pixOf dst fun x y => if src.Mem (x - ⌊m.m2⌋) (y - ⌊m.m5⌋) then bytesAt src 4 pix (x - ⌊m.m2⌋) (y - ⌊m.m5⌋) else List.replicate 4 0
  nrgba64 m dst src pix := pixOf dst fun x y => if src.Mem (x - ⌊m.m2⌋) (y - ⌊m.m5⌋) then bytesAt src 8 pix (x - ⌊m.m2⌋) (y - ⌊m.m5⌋) else List.replicate 8 0
  alpha m dst src pix := pixOf dst fun x y => if src.Mem (x - ⌊m.m2⌋) (y - ⌊m.m5⌋) then bytesAt src 1 pix (x - ⌊m.m2⌋) (y - ⌊m.m5⌋) else [0]

theorem exShift_proper : exShift.Proper where
  nrgba m dst src pix := by
    simp only [exShift]
    refine pixOf_length fun x y => ?_
    split <;> simp [bytesAt]
  nrgba64 m dst src pix := by
    simp only [exShift]
    refine pixOf_length fun x y => ?_
    split <;> simp [bytesAt]
  alpha m dst src pix := by
    simp only [exShift]
    refine pixOf_length fun x y => ?_
    split <;> simp [bytesAt]

/-- A tree with a picture and without layers. -/
def exFaintTree : AnyTree where
  heap := newTree (fun n => n) some 1 []
  root := rootPtr
  images k := if k = 0 then some ⟨some exFaint, some []⟩ else none
  rect := ⟨0, 0, 1, 1⟩
  canvasRect := ⟨0, 0, 1, 1⟩

/-- What `C91_tree_partial` and `C92_tree_partial` ask for, with the identity and a step down by one pixel. -/
example : exShift.Proper ∧ Orders 4 1 (fun r => (tileWork 4 1 r).flatten) ∧ Lists exFaintTree.images [(0, ⟨some exFaint, some []⟩)] ∧
    (∀ k img, exFaintTree.images k = some img → img.Stored 1) ∧
    (⟨1, 0, 0, 0, 1, 1⟩ : Aff3) ≠ Aff3.identity := by
  have him : ∀ k img, exFaintTree.images k = some img → k = 0 ∧ img = ⟨some exFaint, some []⟩ := by
    intro k img h
    unfold exFaintTree at h
    simp only at h
    split at h
    · injection h with h
      exact ⟨by assumption, h.symm⟩
    · cases h
  refine ⟨exShift_proper, fun r => List.Perm.refl _, ⟨by decide, fun k img => ⟨fun h => ?_, fun h => ?_⟩⟩, fun k img h => ?_, fun h => ?_⟩
  · obtain ⟨rfl, rfl⟩ := him k img h
    exact List.mem_singleton.2 rfl
  · rw [List.mem_singleton] at h
    injection h with h1 h2
    rw [h1, h2]
    rfl
  · obtain ⟨rfl, rfl⟩ := him k img h
    refine ⟨fun c hc => ?_, fun c hc => ?_⟩
    · injection hc with hc
      rw [← hc]
      exact exFaint_stored
    · injection hc with hc
      rw [← hc]
      exact ⟨by decide, by decide, by decide, fun _ he => (by cases he), fun x y _ => rfl⟩
  · have := congrArg Aff3.m5 h
    revert this
    decide

end

end Psd
