import Verif.Lemmas.Solid
import Verif.Props.Edited

/-!
# Theorems C56, C57 and C122 with transparency

Caching loses colour where a folder's picture is partly transparent. Where the folders are solid, layers may be as transparent as they like.
-/

namespace Psd

theorem rendered_images {s : Scene Tile (Nat → UInt8)} {depth fuel : Nat} (hf : 2 * depth ≤ fuel) (ok : TreeOk s depth) (hm : ModesKnown s) {y : RSys Tile (Nat → UInt8)}
    (u : Rendered tileOps fuel s y) : ImagesOk y.st ∧ y.scene = s := by
  induction u with
  | new dest diff => exact ⟨fun id pt e => by simp [RState.empty] at e, rfl⟩
  | step y y' ev _ hev e ih =>
    obtain ⟨h1, h2⟩ := ih
    rcases step_never_panics tile_draws hf (h2 ▸ ok) (h2 ▸ hm) h1 ev hev with ⟨y1, e1, h3, h4⟩ | ⟨er, e1⟩
    · rw [e] at e1
      injection e1 with e1
      subst e1
      exact ⟨h4, h3.trans h2⟩
    · rw [e] at e1
      cases e1

theorem rendered_pixel {s : Scene Tile (Nat → UInt8)} {depth fuel : Nat} (hf : 2 * depth ≤ fuel) (ok : TreeOk s depth) (hm : ModesKnown s) {pt : TPt} {i : Nat} (sf : SolidAt s pt i)
    {y : RSys Tile (Nat → UInt8)} (u : Rendered tileOps fuel s y) : PixelOk y.scene depth y.st pt i ∧ y.scene = s := by
  induction u with
  | new dest diff => exact ⟨PixelOk.empty ok pt i, rfl⟩
  | step y y' ev _ hev e ih =>
    obtain ⟨h1, h2⟩ := ih
    obtain ⟨h3, h4⟩ := PixelOk.step hf (h2 ▸ sf) (h2 ▸ hm) h1 hev e
    exact ⟨h3, h4.trans h2⟩

/-- **C56** Whatever was rendered, cancelled and marked dirty before, in whatever order, `Render` gives the picture a new renderer would give at every pixel at which the folders of the tree are
solid; the other layers may have any pixels, masks and opacities.

Missing: pixels at which something in a folder is partly transparent (`C56_lossy_cache`). -/
theorem C56_solid_pixels_partial (s : Scene Tile (Nat → UInt8)) (depth fuel : Nat) (hf : 2 * depth ≤ fuel) (ok : TreeOk s depth) (hm : ModesKnown s)
    (y : RSys Tile (Nat → UInt8)) (u : Rendered tileOps fuel s y) (visited : List TPt) (dest : TPt → Tile) :
    ∃ st st' cached fresh, render tileOps s fuel false false visited y.st dest = .ok (st, cached) ∧ render tileOps s fuel false false visited .empty dest = .ok (st', fresh) ∧
      ∀ pt i, SolidAt s pt i → cached pt i = fresh pt i := by
  obtain ⟨hi, rfl⟩ := rendered_images hf ok hm u
  obtain ⟨st, st', c, f, e1, e2, h⟩ := render_agree hm hf ok hi visited dest
  exact ⟨st, st', c, f, e1, e2, fun pt i sf => h pt i sf (rendered_pixel hf ok hm sf u).1⟩

/-- **C56** The same, if the folders are solid everywhere. -/
theorem C56_solid_folders_partial (s : Scene Tile (Nat → UInt8)) (depth fuel : Nat) (hf : 2 * depth ≤ fuel) (ok : TreeOk s depth) (sf : SolidFolders s) (hm : ModesKnown s)
    (y : RSys Tile (Nat → UInt8)) (u : Rendered tileOps fuel s y) (visited : List TPt) (dest : TPt → Tile) :
    ∃ st st' dest', render tileOps s fuel false false visited y.st dest = .ok (st, dest') ∧ render tileOps s fuel false false visited .empty dest = .ok (st', dest') := by
  obtain ⟨st, st', c, f, e1, e2, h⟩ := C56_solid_pixels_partial s depth fuel hf ok hm y u visited dest
  have : c = f := funext fun pt => funext fun i => h pt i (sf pt i)
  subst this
  exact ⟨st, st', c, e1, e2⟩

theorem Lived.mono {P M : Type} {ops : PicOps P M} {fuel : Nat} {Ok Ok' : Scene P M → Prop} (h : ∀ s, Ok s → Ok' s) {s : Scene P M} {y : RSys P M} (u : Lived ops fuel Ok s y) :
    Lived ops fuel Ok' s y := by
  induction u with
  | new dest diff hs => exact .new dest diff (h _ hs)
  | step y y' ev _ hev e ih => exact .step y y' ev ih hev e
  | edit y y' h' ps _ hp ed hs e ih => exact .edit y y' h' ps ih hp ed (h _ hs) e

theorem ImagesOk.dirties {P M : Type} (s : Scene P M) (fuel : Nat) (ps : List Ptr) {st : RState P} (h : ImagesOk st) : ImagesOk (setDirties s fuel ps st) := by
  have hg := setDirties_deletes s fuel ps st
  refine h.less (fun id pt e => ?_) hg.2
  rcases hg.1 id pt with e' | e'
  · rw [e'] at e; cases e
  · rw [← e']; exact e

theorem lived_images {s : Scene Tile (Nat → UInt8)} {depth fuel : Nat} (hf : 2 * depth < fuel) (lk : Linked s depth) {y : RSys Tile (Nat → UInt8)} (u : Lived tileOps fuel ModesKnown s y) :
    ImagesOk y.st ∧ Linked y.scene depth ∧ ModesKnown y.scene := by
  induction u with
  | new dest diff hs => exact ⟨fun id pt e => by simp [RState.empty] at e, lk, hs⟩
  | step y y' ev _ hev e ih =>
    obtain ⟨h1, h2, h3⟩ := ih
    rcases step_never_panics tile_draws (show 2 * depth ≤ fuel by omega) h2.toTreeOk h3 h1 ev hev with ⟨y1, e1, h5, h6⟩ | ⟨er, e1⟩
    · rw [e] at e1
      injection e1 with e1
      subst e1
      rw [h5]
      exact ⟨h6, h2, h3⟩
    · rw [e] at e1
      cases e1
  | edit y y' h' ps _ hp ed hs e ih =>
    obtain ⟨h1, h2, h3⟩ := ih
    obtain ⟨scene, st, dest, diff, pending⟩ := y
    simp only at h1 h2 hp ed hs
    simp only [RSys.run, RSys.step, Res.ok_bind] at e
    have := run_dirties fuel ps _ _ hp e
    subst this
    exact ⟨h1.dirties _ fuel ps, h2.edited ed, hs⟩

theorem lived_pixel {s : Scene Tile (Nat → UInt8)} {depth fuel : Nat} (hf : 2 * depth < fuel) (lk : Linked s depth) {pt : TPt} {i : Nat} {y : RSys Tile (Nat → UInt8)}
    (u : Lived tileOps fuel (fun s => SolidAt s pt i ∧ ModesKnown s) s y) : PixelOk y.scene depth y.st pt i ∧ Linked y.scene depth ∧ SolidAt y.scene pt i ∧ ModesKnown y.scene := by
  induction u with
  | new dest diff hs => exact ⟨PixelOk.empty lk.toTreeOk pt i, lk, hs⟩
  | step y y' ev _ hev e ih =>
    obtain ⟨h1, h2, h3, h4⟩ := ih
    obtain ⟨k1, k2⟩ := PixelOk.step (by omega) h3 h4 h1 hev e
    rw [k2] at k1 ⊢
    exact ⟨k1, h2, h3, h4⟩
  | edit y y' h' ps _ hp ed hs e ih =>
    obtain ⟨h1, h2, h3, h4⟩ := ih
    obtain ⟨scene, st, dest, diff, pending⟩ := y
    simp only at h1 h2 hp ed hs
    simp only [RSys.run, RSys.step, Res.ok_bind] at e
    have := run_dirties fuel ps _ _ hp e
    subst this
    exact ⟨h1.edited hf ed h2, h2.edited ed, hs⟩

/-- **C57** In a tree whose layers know the folders they are in, whatever layers are changed between renders, if all changed ones are marked dirty then `Render` gives the picture a new
renderer of the changed tree would give, at every pixel at which in all trees rendered the folders are solid; the other layers may have any pixels, masks and opacities.

Missing: pixels at which something in a folder is partly transparent (`C56_lossy_cache`); trees as `New` makes them (`C57_new_tree_is_never_redrawn`); folders that stop being pass-through with
pass-through folders in them (`C57_pass_through_left`); layers that become or stop being clipping layers. -/
theorem C57_solid_pixels_partial (s : Scene Tile (Nat → UInt8)) (depth fuel : Nat) (hf : 2 * depth < fuel) (lk : Linked s depth)
    (y : RSys Tile (Nat → UInt8)) (u : Lived tileOps fuel ModesKnown s y) (visited : List TPt) (dest : TPt → Tile) :
    ∃ st st' cached fresh, render tileOps y.scene fuel false false visited y.st dest = .ok (st, cached) ∧ render tileOps y.scene fuel false false visited .empty dest = .ok (st', fresh) ∧
      ∀ pt i, Lived tileOps fuel (fun s => SolidAt s pt i ∧ ModesKnown s) s y → cached pt i = fresh pt i := by
  obtain ⟨h1, h2, h3⟩ := lived_images hf lk u
  obtain ⟨st, st', c, f, e1, e2, h⟩ := render_agree h3 (show 2 * depth ≤ fuel by omega) h2.toTreeOk h1 visited dest
  refine ⟨st, st', c, f, e1, e2, fun pt i ui => ?_⟩
  obtain ⟨k1, -, k3, -⟩ := lived_pixel hf lk ui
  exact h pt i k3 k1

/-- **C57** The same, if the folders are solid everywhere. -/
theorem C57_solid_folders_partial (s : Scene Tile (Nat → UInt8)) (depth fuel : Nat) (hf : 2 * depth < fuel) (lk : Linked s depth)
    (y : RSys Tile (Nat → UInt8)) (u : Lived tileOps fuel (fun s => SolidFolders s ∧ ModesKnown s) s y) (visited : List TPt) (dest : TPt → Tile) :
    ∃ st st' dest', render tileOps y.scene fuel false false visited y.st dest = .ok (st, dest') ∧ render tileOps y.scene fuel false false visited .empty dest = .ok (st', dest') := by
  obtain ⟨st, st', c, f, e1, e2, h⟩ := C57_solid_pixels_partial s depth fuel hf lk y (u.mono fun _ h => h.2) visited dest
  have : c = f := funext fun pt => funext fun i => h pt i (u.mono fun _ h => ⟨h.1 pt i, h.2⟩)
  subst this
  exact ⟨st, st', c, e1, e2⟩

/-- **C122** An edited tree shows the edited document, at every pixel at which in all trees rendered the folders are solid; the other layers may have any pixels, masks and opacities.

Missing: pixels at which something in a folder is partly transparent (`C56_lossy_cache`); the tree of `New` itself (`C57_new_tree_is_never_redrawn`); folders that stop being pass-through around
pass-through folders (`C57_pass_through_left`). -/
theorem C122_solid_pixels_partial (grow : Nat → Nat) (dec : List UInt8 → Option (List UInt8)) (n : Nat) (layers : List (LTree LayerRec)) (hf : depthAll layers ≤ n) (hu : UniqueDoc layers)
    (canvas : Int → Option (List (TPt × Tile))) (mask : Int → List (TPt × (Nat → UInt8))) (hroot : canvas (-1) = none)
    (hfold : ∀ π l kids, docAt layers π = some (.node l kids) → kids ≠ [] → canvas l.seqID = none)
    {h : CHeap} {root : Ptr} (hc : cloneTree (n + 1) rootPtr (newTree grow dec n layers) = (h, root))
    (fuel : Nat) (hfu : 2 * n < fuel) (y : RSys Tile (Nat → UInt8)) (u : Lived tileOps fuel ModesKnown ⟨h, root, canvas, mask⟩ y)
    (layers' : List (LTree LayerRec)) (hs : TreeShows dec y.scene.h y.scene.root layers') (hf' : depthAll layers' ≤ n) (hu' : UniqueDoc layers') (hk' : KnownModes layers')
    (visited : List TPt) (hnd : visited.Nodup) (dest : TPt → Tile) :
    ∃ st dest', render tileOps y.scene fuel false false visited y.st dest = .ok (st, dest') ∧
      ∀ pt, ∃ t r, IsStack dec (fun id => (canvas id).bind (·.lookup pt)) (fun id => (mask id).lookup pt) layers' t ∧ paint tileOps t false id tileOps.blank = .ok r ∧
        ∀ i, Lived tileOps fuel (fun s => SolidAt s pt i ∧ ModesKnown s) ⟨h, root, canvas, mask⟩ y →
          dest' pt i = (if pt ∈ visited then tileShown tileOps (dest pt) r else dest pt) i := by
  have lk : Linked (⟨h, root, canvas, mask⟩ : Scene Tile (Nat → UInt8)) n := by
    have := C57_clone_is_linked grow dec n layers hf hu canvas mask hroot hfold
    rw [hc] at this
    exact this
  have hcm : y.scene.canvas = canvas ∧ y.scene.mask = mask := lived_pictures u
  obtain ⟨-, lk', -⟩ := lived_images hfu lk u
  obtain ⟨st, st', dest', fresh, e1, e2, h2⟩ := C57_solid_pixels_partial _ n fuel hfu lk y u visited dest
  obtain ⟨st2, dest2, e3, h3⟩ := shows_renders lk'.toTreeOk dec hs hf' hu' hk' fuel (by omega) false false visited hnd dest
  rw [e2] at e3
  injection e3 with e3
  injection e3 with e3 e4
  subst e4
  rw [hcm.1, hcm.2] at h3
  refine ⟨st, dest', e1, fun pt => ?_⟩
  obtain ⟨t, r, k1, k2, k3⟩ := h3 pt
  exact ⟨t, r, k1, k2, fun i ui => by rw [h2 pt i ui, k3]⟩

/-- **C122** The same, if the folders are solid everywhere. -/
theorem C122_solid_folders_partial (grow : Nat → Nat) (dec : List UInt8 → Option (List UInt8)) (n : Nat) (layers : List (LTree LayerRec)) (hf : depthAll layers ≤ n) (hu : UniqueDoc layers)
    (canvas : Int → Option (List (TPt × Tile))) (mask : Int → List (TPt × (Nat → UInt8))) (hroot : canvas (-1) = none)
    (hfold : ∀ π l kids, docAt layers π = some (.node l kids) → kids ≠ [] → canvas l.seqID = none)
    {h : CHeap} {root : Ptr} (hc : cloneTree (n + 1) rootPtr (newTree grow dec n layers) = (h, root))
    (fuel : Nat) (hfu : 2 * n < fuel) (y : RSys Tile (Nat → UInt8)) (u : Lived tileOps fuel (fun s => SolidFolders s ∧ ModesKnown s) ⟨h, root, canvas, mask⟩ y)
    (layers' : List (LTree LayerRec)) (hs : TreeShows dec y.scene.h y.scene.root layers') (hf' : depthAll layers' ≤ n) (hu' : UniqueDoc layers') (hk' : KnownModes layers')
    (visited : List TPt) (hnd : visited.Nodup) (dest : TPt → Tile) :
    ∃ st dest', render tileOps y.scene fuel false false visited y.st dest = .ok (st, dest') ∧
      ∀ pt, ∃ t r, IsStack dec (fun id => (canvas id).bind (·.lookup pt)) (fun id => (mask id).lookup pt) layers' t ∧ paint tileOps t false id tileOps.blank = .ok r ∧
        dest' pt = if pt ∈ visited then tileShown tileOps (dest pt) r else dest pt := by
  obtain ⟨st, dest', e, k⟩ := C122_solid_pixels_partial grow dec n layers hf hu canvas mask hroot hfold hc fuel hfu y (u.mono fun _ h => h.2) layers' hs hf' hu' hk' visited hnd dest
  refine ⟨st, dest', e, fun pt => ?_⟩
  obtain ⟨t, r, k1, k2, k3⟩ := k pt
  exact ⟨t, r, k1, k2, funext fun i => k3 i (u.mono fun _ h => ⟨h.1 pt i, h.2⟩)⟩

/-! ### Trees with solid folders -/

/-- Documents with hard edges are a case of this. -/
theorem SolidFolders.of_hard {s : Scene Tile (Nat → UInt8)} {depth : Nat} (ok : TreeOk s depth) (he : HardEdged s) (hs : FullyShown s) : SolidFolders s := by
  intro pt i
  have hmask : ∀ id m, (s.mask id).lookup pt = some m → m i = 0 ∨ m i = 255 := fun id m e => he.masks id (pt, m) (lookup_mem e) i
  have hpic : ∀ id p, s.pic id pt = some p → (p i).a = 0 ∨ (p i).a = 255 := by
    intro id p e
    unfold Scene.pic at e
    cases hc : s.canvas id with
    | none => rw [hc] at e; cases e
    | some l =>
      rw [hc] at e
      exact he.pics id l hc (pt, p) (lookup_mem e) i
  have all : ∀ π q, π ≠ [] → slotAt s.h s.root π = some q → HardAt s pt i q := fun π q hπ hq => ⟨hpic _, hmask _, (hs π q hπ hq).1⟩
  refine ⟨fun k π q _ hq => all _ q (by simp) hq, fun k q _ _ => hmask _, fun k q hq _ r hr => ?_, fun k q _ _ _ j r _ hr => all _ r (by simp) hr⟩
  have hk : k < (s.h.at_ s.root).children.len ∧ q = ((s.h.at_ s.root).children.arr, k) := by
    rw [slotAt] at hq
    split at hq
    · rename_i hlt
      injection hq with hq
      exact ⟨hlt, hq.symm⟩
    · cases hq
  obtain ⟨hk, rfl⟩ := hk
  have := (ok.clipping [] s.root rfl k hk).2.2
  rw [this] at hr
  obtain ⟨j, hj, e⟩ := List.mem_map.1 hr
  injection e with e
  subst e
  have hj := List.mem_range.1 (List.mem_filter.1 hj).1
  exact all [j] _ (by simp) (by rw [slotAt_child hj]; rfl)

/-- And so are trees without folders that have anything in them. -/
theorem SolidFolders.of_flat {s : Scene Tile (Nat → UInt8)} (ok : TreeOk s 1) : SolidFolders s := by
  have none : ∀ k q, slotAt s.h s.root [k] = some q → ¬ 0 < (s.h.at_ q).children.len := by
    intro k q hq hl
    have := ok.finite [k, 0] ((s.h.at_ q).children.arr, 0) (by rw [show [k, 0] = [k] ++ [0] from rfl, slotAt_append [k] _ q [0] hq, slotAt_child hl]; rfl)
    simp at this
  refine fun pt i => ⟨fun k π q hπ hq => ?_, fun k q hq hl => absurd hl (none k q hq), fun k q hq hl => absurd hl (none k q hq), fun k q hq hl => absurd hl (none k q hq)⟩
  have := ok.finite (k :: π) q hq
  cases π with
  | nil => exact absurd rfl hπ
  | cons => simp at this

/-- **C56** In documents without folders cached rendering is exact for all pixels, masks, opacities, blend modes and clipping groups, and for the tree as `New` returns it. -/
theorem C56_flat_document (grow : Nat → Nat) (dec : List UInt8 → Option (List UInt8)) (layers : List (LTree LayerRec)) (hflat : depthAll layers ≤ 1) (hu : UniqueDoc layers) (hk : KnownModes layers)
    (canvas : Int → Option (List (TPt × Tile))) (mask : Int → List (TPt × (Nat → UInt8))) (fuel : Nat) (hf : 2 ≤ fuel) (y : RSys Tile (Nat → UInt8))
    (u : Rendered tileOps fuel ⟨newTree grow dec 1 layers, rootPtr, canvas, mask⟩ y) (visited : List TPt) (dest : TPt → Tile) :
    ∃ st st' dest', render tileOps ⟨newTree grow dec 1 layers, rootPtr, canvas, mask⟩ fuel false false visited y.st dest = .ok (st, dest') ∧
      render tileOps ⟨newTree grow dec 1 layers, rootPtr, canvas, mask⟩ fuel false false visited .empty dest = .ok (st', dest') := by
  obtain ⟨ok, -, hm⟩ := C98_new_is_owned grow dec 1 layers hflat hu hk canvas mask
  exact C56_solid_folders_partial _ 1 fuel (by omega) ok (.of_flat ok) hm y u visited dest

theorem lived_flat {s : Scene Tile (Nat → UInt8)} {fuel : Nat} (lk : Linked s 1) {y : RSys Tile (Nat → UInt8)} (u : Lived tileOps fuel ModesKnown s y) :
    Lived tileOps fuel (fun s => SolidFolders s ∧ ModesKnown s) s y ∧ Linked y.scene 1 := by
  induction u with
  | new dest diff hs => exact ⟨.new dest diff ⟨.of_flat lk.toTreeOk, hs⟩, lk⟩
  | step y y' ev _ hev e ih =>
    refine ⟨.step y y' ev ih.1 hev e, ?_⟩
    have hsc : y'.scene = y.scene := by
      cases ev <;> cases hp : y.pending <;> simp only [RSys.step, hp] at e
      all_goals first
        | exact absurd rfl (hev _)
        | cases e; done
        | (injection e with e; subst e; rfl)
        | (obtain ⟨r, _, e⟩ := Res.bind_eq_ok.1 e; injection e with e; subst e; rfl)
    rw [hsc]
    exact ih.2
  | edit y y' h' ps _ hp ed hs e ih =>
    have lk' := ih.2.edited ed
    refine ⟨.edit y y' h' ps ih.1 hp ed ⟨.of_flat lk'.toTreeOk, hs⟩ e, ?_⟩
    obtain ⟨scene, st, dest, diff, pending⟩ := y
    simp only at hp
    subst hp
    simp only [RSys.run, RSys.step, Res.ok_bind] at e
    have := run_dirties fuel ps _ _ rfl e
    subst this
    exact lk'

theorem sub_bare {α : Type} : ∀ (π : List Nat) (t : LTree α) (l : α) (kids : List (LTree α)), t.depth ≤ 1 → t.sub π = some (.node l kids) → kids = []
  | π, .node l' (k :: ks), l, kids, h, e => by
    simp only [LTree.depth, depthAll] at h
    have : 0 < k.depth := by cases k; simp [LTree.depth]
    omega
  | [], .node l' [], l, kids, h, e => by
    injection e with e
    injection e with e1 e2
    exact e2.symm
  | i :: π, .node l' [], l, kids, h, e => by simp [LTree.sub] at e

theorem flat_no_folders {layers : List (LTree LayerRec)} (hflat : depthAll layers ≤ 1) {P : Type} {canvas : Int → Option P} :
    ∀ π l kids, docAt layers π = some (.node l kids) → kids ≠ [] → canvas l.seqID = none := by
  intro π l kids e hk
  have key : ∀ (ks : List (LTree LayerRec)), depthAll ks ≤ 1 → ∀ (i : Nat) (k : LTree LayerRec), ks[i]? = some k → k.depth ≤ 1 := by
    intro ks
    induction ks with
    | nil => intro _ i k e; simp at e
    | cons k0 ks ih =>
      intro h i k e
      simp only [depthAll] at h
      cases i with
      | zero => simp only [List.getElem?_cons_zero, Option.some.injEq] at e; rw [← e]; omega
      | succ i => exact ih (by omega) i k (by simpa using e)
  cases π with
  | nil => cases e
  | cons i π =>
    rw [docAt] at e
    split at e
    · rename_i k hk'
      exact absurd (sub_bare π k l kids (key layers hflat i k hk') e) hk
    · cases e

/-- **C57, C122** In documents without folders the clone of the tree, edited, shows the edited document: for all pixels and masks, all edits of attributes and all histories of renders,
cancellations, edits and marks. -/
theorem C122_flat_document (grow : Nat → Nat) (dec : List UInt8 → Option (List UInt8)) (layers : List (LTree LayerRec)) (hflat : depthAll layers ≤ 1) (hu : UniqueDoc layers)
    (canvas : Int → Option (List (TPt × Tile))) (mask : Int → List (TPt × (Nat → UInt8))) (hroot : canvas (-1) = none)
    {h : CHeap} {root : Ptr} (hc : cloneTree 2 rootPtr (newTree grow dec 1 layers) = (h, root))
    (fuel : Nat) (hfu : 2 < fuel) (y : RSys Tile (Nat → UInt8)) (u : Lived tileOps fuel ModesKnown ⟨h, root, canvas, mask⟩ y)
    (layers' : List (LTree LayerRec)) (hs : TreeShows dec y.scene.h y.scene.root layers') (hf' : depthAll layers' ≤ 1) (hu' : UniqueDoc layers') (hk' : KnownModes layers')
    (visited : List TPt) (hnd : visited.Nodup) (dest : TPt → Tile) :
    ∃ st dest', render tileOps y.scene fuel false false visited y.st dest = .ok (st, dest') ∧
      ∀ pt, ∃ t r, IsStack dec (fun id => (canvas id).bind (·.lookup pt)) (fun id => (mask id).lookup pt) layers' t ∧ paint tileOps t false id tileOps.blank = .ok r ∧
        dest' pt = if pt ∈ visited then tileShown tileOps (dest pt) r else dest pt := by
  have hfold := flat_no_folders (canvas := canvas) hflat
  have lk : Linked (⟨h, root, canvas, mask⟩ : Scene Tile (Nat → UInt8)) 1 := by
    have := C57_clone_is_linked grow dec 1 layers hflat hu canvas mask hroot hfold
    rw [hc] at this
    exact this
  exact C122_solid_folders_partial grow dec 1 layers hflat hu canvas mask hroot hfold hc fuel (by omega) y (lived_flat lk u).1 layers' hs hf' hu' hk' visited hnd dest

/-- A layer shown or hidden and given another opacity. -/
theorem shows_faded {dec : List UInt8 → Option (List UInt8)} (v : Bool) (o : UInt8) {l : LayerRec} {a : CAttr} (h : ShowsLayer dec l a) :
    ShowsLayer dec { l.withVisible v with opacity := o } { a with visible := v, opacity := o.toNat } :=
  ⟨h.number, h.unicodeName, h.otherName, h.rawName, h.noName, h.folder, h.folderOpen, (withVisible_visible v l).symm, rfl, h.clipping, h.blendClipped, h.folderMode, h.layerMode, h.noPass,
    h.mask, h.maskDefault⟩

/-- **C122** In documents without folders: whatever was done before, if the tree stands for the document `layers'` and then the layer at a path is shown or hidden, given any opacity and
marked dirty, the next render shows the document with this layer shown or hidden and its opacity changed. -/
theorem C122_flat_show_and_fade (grow : Nat → Nat) (dec : List UInt8 → Option (List UInt8)) (layers : List (LTree LayerRec)) (hflat : depthAll layers ≤ 1) (hu : UniqueDoc layers)
    (canvas : Int → Option (List (TPt × Tile))) (mask : Int → List (TPt × (Nat → UInt8))) (hroot : canvas (-1) = none)
    {h : CHeap} {root : Ptr} (hc : cloneTree 2 rootPtr (newTree grow dec 1 layers) = (h, root))
    (fuel : Nat) (hfu : 2 < fuel) (y : RSys Tile (Nat → UInt8)) (u : Lived tileOps fuel ModesKnown ⟨h, root, canvas, mask⟩ y) (hpend : y.pending = none)
    (layers' : List (LTree LayerRec)) (hs : TreeShows dec y.scene.h y.scene.root layers') (hf' : depthAll layers' ≤ 1) (hu' : UniqueDoc layers') (hk' : KnownModes layers')
    (i : Nat) (p : Ptr) (hp : slotAt y.scene.h y.scene.root [i] = some p) (v : Bool) (o : UInt8) (visited : List TPt) (hnd : visited.Nodup) (dest : TPt → Tile) :
    ∃ y', RSys.run tileOps fuel [.change (withAttr y.scene.h p fun a => { a with visible := v, opacity := o.toNat }), .dirty p] y = .ok y' ∧
      Lived tileOps fuel ModesKnown ⟨h, root, canvas, mask⟩ y' ∧ y'.pending = none ∧
      TreeShows dec y'.scene.h y'.scene.root (docEdit (fun l => { l.withVisible v with opacity := o }) [i] layers') ∧
      ∃ st dest', render tileOps y'.scene fuel false false visited y'.st dest = .ok (st, dest') ∧
        ∀ pt, ∃ t r, IsStack dec (fun id => (canvas id).bind (·.lookup pt)) (fun id => (mask id).lookup pt) (docEdit (fun l => { l.withVisible v with opacity := o }) [i] layers') t ∧
          paint tileOps t false id tileOps.blank = .ok r ∧ dest' pt = if pt ∈ visited then tileShown tileOps (dest pt) r else dest pt := by
  have lk : Linked (⟨h, root, canvas, mask⟩ : Scene Tile (Nat → UInt8)) 1 := by
    have := C57_clone_is_linked grow dec 1 layers hflat hu canvas mask hroot (flat_no_folders hflat)
    rw [hc] at this
    exact this
  have lk' := (lived_flat lk u).2
  have ms := (lived_images (by omega) lk u).2.2
  obtain ⟨scene, st, de, diff, pend⟩ := y
  subst hpend
  refine ⟨_, rfl, ?_⟩
  have hed : EditOk scene.h (withAttr scene.h p fun a => { a with visible := v, opacity := o.toNat }) scene.root [p] := EditOk.one ⟨_, hp⟩ (fun a => ⟨rfl, rfl, rfl⟩)
  have ms' : ModesKnown { scene with h := withAttr scene.h p fun a => { a with visible := v, opacity := o.toNat } } := by
    intro ρ q hρ hq
    simp only at hq
    rw [slotAt_withAttr] at hq
    have := ms ρ q hρ hq
    simp only [withAttr]
    split
    · exact this
    · exact this
  have u' := Lived.edit _ _ _ [p] u rfl hed ms' rfl
  have hs' := hs.edit lk'.unique hp (fun l b => shows_faded (dec := dec) v o)
  have hk2 : KnownModes (docEdit (fun l : LayerRec => { l.withVisible v with opacity := o }) [i] layers') := by
    intro ρ l kids e
    obtain ⟨l0, k0, e0, rfl⟩ := docAt_edit_some e
    have := hk' ρ l0 k0 e0
    split
    · exact this
    · exact this
  obtain ⟨st', d', e', h'⟩ := C122_flat_document grow dec layers hflat hu canvas mask hroot hc fuel hfu _ u' _ hs' (by rw [depthAll_edit]; exact hf')
    (hu'.edit (f := fun l : LayerRec => { l.withVisible v with opacity := o }) (fun l => rfl) _) hk2 visited hnd dest
  exact ⟨u', rfl, hs', st', d', e', h'⟩

/-! ### Non-vacuity -/

/-- A red background, half transparent, a layer to be multiplied with it at opacity 77, and one clipped to that. -/
def softDoc : List (LTree LayerRec) :=
  [.node { seqID := 0, blendMode := ascii "norm", opacity := 200, blendClippedElements := true } [],
    .node { seqID := 1, blendMode := ascii "mul ", opacity := 77, blendClippedElements := true } [],
    .node { seqID := 2, blendMode := ascii "norm", opacity := 255, clipping := true } []]

/-- None of the pixels are opaque. -/
def softCanvas (id : Int) : Option (List (TPt × Tile)) :=
  if id = 0 then some [((0, 0), plainTile ⟨200, 100, 0, 128⟩)] else if id = 1 then some [((0, 0), plainTile ⟨10, 20, 130, 201⟩)]
  else if id = 2 then some [((0, 0), plainTile ⟨250, 250, 30, 99⟩)] else none

/-- The clone of its tree. -/
def softScene : Scene Tile (Nat → UInt8) where
  h := (cloneTree 2 rootPtr (newTree (fun n => n) some 1 softDoc)).1
  root := (cloneTree 2 rootPtr (newTree (fun n => n) some 1 softDoc)).2
  canvas := softCanvas
  mask := fun _ => []

theorem softDoc_unique : UniqueDoc softDoc := by
  refine UniqueDoc.of_list ?_
  simp only [docList, softDoc, LTree.number, List.map, List.nil_append]
  decide

theorem softDoc_known : KnownModes softDoc := DocAll.of_list (Q := fun l _ => (l.folder = false → blendMode l.blendMode ≠ none ∨ l.blendMode = ascii "pass") ∧
    (l.folder = true → blendMode l.sdBlendMode ≠ none ∨ l.sdBlendMode = ascii "pass" ∧ l.blendClippedElements = true)) (by
  intro x hx
  simp only [docList, softDoc, List.map, List.nil_append] at hx
  fin_cases hx <;> decide)

theorem ModesKnown.of_list {P M : Type} {s : Scene P M} (l : List (List Nat × Ptr)) (h0 : ([], s.root) ∈ l)
    (hs : ∀ x ∈ l, ∀ i, i < (s.h.at_ x.2).children.len → (x.1 ++ [i], ((s.h.at_ x.2).children.arr, i)) ∈ l)
    (hk : ∀ x ∈ l, x.1 ≠ [] → blendMode (s.h.at_ x.2).attr.blendMode ≠ none) : ModesKnown s :=
  fun π q hπ h => ⟨trivial, .inl (hk _ (slots_listed l h0 hs π q h) hπ)⟩

theorem rendered_once {P M : Type} {ops : PicOps P M} {fuel : Nat} {s : Scene P M} {dest dest' : TPt → P} {y : RSys P M}
    (e : RSys.run ops fuel [.start dest' false, .tile (0, 0), .finish false] ⟨s, .empty, dest, false, none⟩ = .ok y) : y.scene = s ∧ y.pending = none := by
  simp only [RSys.run] at e
  obtain ⟨y1, a1, e⟩ := Res.bind_eq_ok.1 e
  obtain ⟨y2, a2, e⟩ := Res.bind_eq_ok.1 e
  obtain ⟨y3, a3, e⟩ := Res.bind_eq_ok.1 e
  simp only [Res.ok.injEq] at e
  subst e
  simp only [RSys.step, Res.ok.injEq] at a1
  subst a1
  simp only [RSys.step] at a2
  obtain ⟨r, _, a2⟩ := Res.bind_eq_ok.1 a2
  simp only [Res.ok.injEq] at a2
  subst a2
  simp only [RSys.step, Res.ok.injEq] at a3
  subst a3
  exact ⟨rfl, rfl⟩

/-- The layers of the clone. -/
def softList : List (List Nat × Ptr) := [([], softScene.root), ([0], ((softScene.h.at_ softScene.root).children.arr, 0)), ([1], ((softScene.h.at_ softScene.root).children.arr, 1)),
  ([2], ((softScene.h.at_ softScene.root).children.arr, 2))]

/-- The hypotheses of `C122_flat_show_and_fade` are met, for the layer that is multiplied, by this document after a first render. -/
example : ∃ y, Lived tileOps 5 ModesKnown softScene y ∧ depthAll softDoc ≤ 1 ∧ UniqueDoc softDoc ∧ KnownModes softDoc ∧ softCanvas (-1) = none ∧
    cloneTree 2 rootPtr (newTree (fun n => n) some 1 softDoc) = (softScene.h, softScene.root) ∧ y.pending = none ∧
    TreeShows some y.scene.h y.scene.root softDoc ∧ (slotAt y.scene.h y.scene.root [1]).isSome ∧ y.st.cached (-1) (0, 0) = some .cached := by
  have hs : ModesKnown softScene := ModesKnown.of_list softList (by decide +kernel) (by decide +kernel) (by decide +kernel)
  have h : (RSys.run tileOps 5 [.start blank false, .tile (0, 0), .finish false] ⟨softScene, .empty, blank, false, none⟩ >>= fun y =>
      (.ok (y.st.cached (-1) (0, 0)) : Res (Option CacheState))) = .ok (some .cached) := by decide +kernel
  obtain ⟨y, e1, e2⟩ := Res.bind_eq_ok.1 h
  injection e2 with e2
  have hy := rendered_once e1
  refine ⟨y, Lived.run _ _ y (.new _ _ hs) (by simp) e1, by decide, softDoc_unique, softDoc_known, rfl, rfl, hy.2, ?_, ?_, e2⟩
  · rw [hy.1]
    exact clone_shows (fun n => n) some 1 softDoc (by decide) softDoc_unique rfl
  · rw [hy.1]
    decide +kernel

/-- The pixel before and after the multiplied layer is given opacity 200. -/
example :
    ((RSys.run tileOps 5 [.start blank false, .tile (0, 0), .finish false] ⟨softScene, .empty, blank, false, none⟩ >>= fun y =>
      RSys.run tileOps 5 [.change (withAttr y.scene.h ((softScene.h.at_ softScene.root).children.arr, 1) fun a => { a with visible := true, opacity := 200 }),
        .dirty ((softScene.h.at_ softScene.root).children.arr, 1)] y >>= fun y' =>
        peekPx (render tileOps y'.scene 5 false false [(0, 0)] y'.st blank) 5 >>= fun p => .ok (y.dest (0, 0) 5, p)) : Res (Px × Px)) = .ok (⟨153, 92, 24, 135⟩, ⟨114, 86, 44, 194⟩) := by
  decide +kernel

/-- A background, half transparent, and above it a folder of opacity 99, to be multiplied, with a layer in it. -/
def solidDoc : List (LTree LayerRec) :=
  [.node { seqID := 0, blendMode := ascii "norm", opacity := 200, blendClippedElements := true } [],
    .node { seqID := 2, sdType := 1, sdBlendMode := ascii "mul ", opacity := 99, blendClippedElements := true } [.node { seqID := 1, blendMode := ascii "norm", opacity := 255 } []]]

/-- The clone of its tree. -/
def solidHeap : CHeap := (cloneTree 3 rootPtr (newTree (fun n => n) some 2 solidDoc)).1

def solidRoot : Ptr := (cloneTree 3 rootPtr (newTree (fun n => n) some 2 solidDoc)).2

/-- `f` is the layer in the folder. -/
def folderScene (f : Tile) : Scene Tile (Nat → UInt8) where
  h := solidHeap
  root := solidRoot
  canvas := fun id => if id = 0 then some [((0, 0), plainTile ⟨200, 100, 0, 128⟩)] else if id = 1 then some [((0, 0), f)] else none
  mask := fun _ => []

theorem folderScene_h (f : Tile) : (folderScene f).h = solidHeap := rfl

theorem folderScene_root (f : Tile) : (folderScene f).root = solidRoot := rfl

theorem solidHeap_list : ∀ π q, slotAt solidHeap solidRoot π = some q → (π, q) ∈ editList := slots_listed editList (by decide +kernel) (by decide +kernel)

theorem solidHeap_inner : (solidHeap.at_ (8, 0)).attr.seqID = 1 ∧ (solidHeap.at_ (8, 0)).attr.opacity = 255 := by decide +kernel

theorem solidHeap_layers : ∀ x ∈ editList, ((solidHeap.at_ x.2).children.len = 0 ∨ (solidHeap.at_ x.2).clip = []) ∧ (x.1 ≠ [] → (solidHeap.at_ x.2).attr.blendMode ≠ passThrough) := by
  decide +kernel

theorem folderScene_solid {f : Tile} {i : Nat} (hf : (f i).a = 0 ∨ (f i).a = 255) (pt : TPt) : SolidAt (folderScene f) pt i := by
  have hin : HardAt (folderScene f) pt i (8, 0) := by
    refine ⟨fun p hp => ?_, fun m hm => by simp [folderScene] at hm, by rw [folderScene_h, solidHeap_inner.2]; exact .inr rfl⟩
    rw [folderScene_h, solidHeap_inner.1] at hp
    simp only [Scene.pic, folderScene, show ¬ (1 : Int) = 0 by decide, if_false, if_true, Option.bind_some, List.lookup] at hp
    split at hp
    · injection hp with hp
      rw [← hp]
      exact hf
    · cases hp
  refine ⟨fun k π q hπ hq => ?_, fun k q hq hl m hm => by simp [folderScene] at hm, fun k q hq hl r hr => ?_, fun k q hq hl hp => ?_⟩
  all_goals
    rw [folderScene_h, folderScene_root] at hq
    have hq := solidHeap_list _ q hq
    have hx := solidHeap_layers _ hq
    dsimp only at hx
  · simp only [editList, List.mem_cons, Prod.mk.injEq, List.cons.injEq, reduceCtorEq, false_and, List.not_mem_nil, or_false, false_or] at hq
    rcases hq with ⟨⟨-, h⟩, -⟩ | ⟨⟨-, h⟩, -⟩ | ⟨-, h⟩
    · exact absurd h hπ
    · exact absurd h hπ
    · rw [h]; exact hin
  · rw [folderScene_h] at hr hl
    rcases hx.1 with h | h
    · rw [h] at hl; exact absurd hl (Nat.lt_irrefl 0)
    · rw [h] at hr; exact absurd hr List.not_mem_nil
  · rw [folderScene_h] at hp
    exact absurd hp (hx.2 (by simp))

theorem folderScene_modes (f : Tile) : ModesKnown (folderScene f) := by
  refine ModesKnown.of_list (s := folderScene f) editList ?_ ?_ ?_
  · show ([], solidRoot) ∈ editList
    decide +kernel
  · show ∀ x ∈ editList, ∀ i, i < (solidHeap.at_ x.2).children.len → (x.1 ++ [i], ((solidHeap.at_ x.2).children.arr, i)) ∈ editList
    decide +kernel
  · show ∀ x ∈ editList, x.1 ≠ [] → blendMode (solidHeap.at_ x.2).attr.blendMode ≠ none
    decide +kernel

/-- The layer in the folder is opaque and has a hole. -/
def solidScene : Scene Tile (Nat → UInt8) := folderScene fun i => if i = 3 then ⟨0, 0, 0, 0⟩ else ⟨10, 20, 30, 255⟩

/-- The hypotheses of `C57_solid_folders_partial` and `C56_solid_folders_partial` are met by this tree, which is neither hard-edged nor fully shown, after a first render. -/
example : ∃ y, Lived tileOps 5 (fun s => SolidFolders s ∧ ModesKnown s) solidScene y ∧ Linked solidScene 2 ∧ y.st.cached (-1) (0, 0) = some .cached ∧ y.st.cached 2 (0, 0) = some .cached ∧
    ¬ HardEdged solidScene := by
  have hf : SolidFolders solidScene := fun pt i => by
    refine folderScene_solid ?_ pt
    split
    · exact .inl rfl
    · exact .inr rfl
  have h : (RSys.run tileOps 5 [.start blank false, .tile (0, 0), .finish false] ⟨solidScene, .empty, blank, false, none⟩ >>= fun y =>
      (.ok (y.st.cached (-1) (0, 0), y.st.cached 2 (0, 0)) : Res (Option CacheState × Option CacheState))) = .ok (some .cached, some .cached) := by decide +kernel
  obtain ⟨y, e1, e2⟩ := Res.bind_eq_ok.1 h
  injection e2 with e2
  injection e2 with e2 e3
  refine ⟨y, Lived.run _ _ y (.new _ _ ⟨hf, folderScene_modes _⟩) (by simp) e1, Linked.of_list editList (by decide +kernel) (by decide +kernel) (by decide +kernel) (by decide +kernel) (by decide +kernel) (by decide +kernel) (by decide +kernel), e2, e3, fun hh => ?_⟩
  have := hh.pics 0 _ rfl _ List.mem_cons_self 0
  revert this
  decide

/-- The layer in the folder is opaque but for pixel 7. -/
def patchScene : Scene Tile (Nat → UInt8) := folderScene fun i => if i = 7 then ⟨200, 100, 50, 3⟩ else ⟨10, 20, 30, 255⟩

/-- The hypotheses of `C57_solid_pixels_partial` and `C56_solid_pixels_partial` are met by this tree at all pixels but that one. -/
example : ∃ y, Lived tileOps 5 ModesKnown patchScene y ∧ Linked patchScene 2 ∧ y.st.cached 2 (0, 0) = some .cached ∧ (∀ pt i, i ≠ 7 → SolidAt patchScene pt i ∧
    Lived tileOps 5 (fun s => SolidAt s pt i ∧ ModesKnown s) patchScene y) ∧ ¬ SolidAt patchScene (0, 0) 7 := by
  have hf : ∀ pt i, i ≠ 7 → SolidAt patchScene pt i := fun pt i hi => folderScene_solid (.inr (by rw [if_neg hi])) pt
  have h : (RSys.run tileOps 5 [.start blank false, .tile (0, 0), .finish false] ⟨patchScene, .empty, blank, false, none⟩ >>= fun y =>
      (.ok (y.st.cached 2 (0, 0)) : Res (Option CacheState))) = .ok (some .cached) := by decide +kernel
  obtain ⟨y, e1, e2⟩ := Res.bind_eq_ok.1 h
  injection e2 with e2
  refine ⟨y, Lived.run _ _ y (.new _ _ (folderScene_modes _)) (by simp) e1, Linked.of_list editList (by decide +kernel) (by decide +kernel) (by decide +kernel) (by decide +kernel) (by decide +kernel) (by decide +kernel) (by decide +kernel), e2,
    fun pt i hi => ⟨hf pt i hi, Lived.run _ _ y (.new _ _ ⟨hf pt i hi, folderScene_modes _⟩) (by simp) e1⟩, fun hh => ?_⟩
  have := (hh.inside 1 [0] (8, 0) (by simp) (by decide +kernel)).pic _ rfl
  revert this
  decide +kernel

end Psd
