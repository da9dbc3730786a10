import Verif.Spec.Edited
import Verif.Props.CloneRender
import Verif.Props.Picture
import Verif.Lemmas.DocList
import Mathlib.Tactic.FinCases

/-!
# C122: an edited tree shows the edited document
-/

namespace Psd

/-- Nothing about the attributes of a layer is left open. -/
theorem ShowsLayer.unique {dec : List UInt8 → Option (List UInt8)} {l : LayerRec} {a b : CAttr} (ha : ShowsLayer dec l a) (hb : ShowsLayer dec l b) : a = b := by
  have hname : a.name = b.name := by
    by_cases h1 : l.unicodeName = []
    · by_cases h2 : l.mbcsName = []
      · rw [ha.noName h1 h2, hb.noName h1 h2]
      · cases h3 : dec l.mbcsName with
        | none => rw [ha.rawName h1 h2 h3, hb.rawName h1 h2 h3]
        | some n => rw [ha.otherName h1 h2 n h3, hb.otherName h1 h2 n h3]
    · rw [ha.unicodeName h1, hb.unicodeName h1]
  have hmode : a.blendMode = b.blendMode := by
    cases h1 : l.folder with
    | true => rw [ha.folderMode h1, hb.folderMode h1]
    | false =>
      by_cases h2 : l.blendMode = ascii "pass"
      · rw [ha.noPass h1 h2, hb.noPass h1 h2]
      · rw [ha.layerMode h1 h2, hb.layerMode h1 h2]
  have hmask : a.maskEnabled = b.maskEnabled := Bool.eq_iff_iff.2 (ha.mask.trans hb.mask.symm)
  have h1 := ha.number.trans hb.number.symm
  have h2 := ha.folder.trans hb.folder.symm
  have h3 := ha.folderOpen.trans hb.folderOpen.symm
  have h4 := ha.visible.trans hb.visible.symm
  have h5 := ha.opacity.trans hb.opacity.symm
  have h6 := ha.clipping.trans hb.clipping.symm
  have h7 := ha.blendClipped.trans hb.blendClipped.symm
  have h8 := ha.maskDefault.trans hb.maskDefault.symm
  cases a
  cases b
  simp_all

/-- The tree `New` makes of a document stands for it. -/
theorem newTree_shows (grow : Nat → Nat) (dec : List UInt8 → Option (List UInt8)) (n : Nat) (layers : List (LTree LayerRec)) (hf : depthAll layers ≤ n) :
    TreeShows dec (newTree grow dec n layers) rootPtr layers := by
  obtain ⟨h1, -, h3⟩ := C53_tree_is_the_document grow dec n layers hf
  refine ⟨h1, fun i π l kids e => ?_, fun i π e => ?_⟩
  · have := h3 i π
    rw [e] at this
    obtain ⟨q, h4, h5, -⟩ := this
    exact ⟨q, h4, h5⟩
  · have := h3 i π
    rw [e] at this
    exact this

/-- Trees that stand for one document look alike. -/
theorem TreeShows.alike {dec : List UInt8 → Option (List UInt8)} {h h' : CHeap} {p p' : Ptr} {layers : List (LTree LayerRec)} (a : TreeShows dec h p layers)
    (b : TreeShows dec h' p' layers) : AlikeTrees h p h' p' := by
  intro π
  match π with
  | [] => exact congrArg some (a.top.trans b.top.symm)
  | i :: π =>
    cases e : docAt layers (i :: π) with
    | none => rw [a.nothing i π e, b.nothing i π e]; rfl
    | some x =>
      obtain ⟨l, kids⟩ := x
      obtain ⟨q, h1, h2⟩ := a.layer i π l kids e
      obtain ⟨q', h3, h4⟩ := b.layer i π l kids e
      rw [h1, h3]
      exact congrArg some (h2.unique h4)

/-- A tree that looks like one that stands for a document stands for it. -/
theorem TreeShows.of_alike {dec : List UInt8 → Option (List UInt8)} {h h' : CHeap} {p p' : Ptr} {layers : List (LTree LayerRec)} (a : TreeShows dec h p layers)
    (al : AlikeTrees h p h' p') : TreeShows dec h' p' layers := by
  refine ⟨?_, fun i π l kids e => ?_, fun i π e => ?_⟩
  · have := al []
    simp only [slotAt, Option.map_some, Option.some.injEq] at this
    rw [← this]
    exact a.top
  · obtain ⟨q, h1, h2⟩ := a.layer i π l kids e
    have := al (i :: π)
    rw [h1] at this
    cases hq : slotAt h' p' (i :: π) with
    | none => rw [hq] at this; cases this
    | some q' =>
      rw [hq] at this
      simp only [Option.map_some, Option.some.injEq] at this
      exact ⟨q', rfl, this ▸ h2⟩
  · have := al (i :: π)
    rw [a.nothing i π e] at this
    cases hq : slotAt h' p' (i :: π) with
    | none => rfl
    | some q' => rw [hq] at this; cases this

/-- A first render of a tree that stands for a document shows the document: the tree need not be the one `New` made. -/
theorem shows_renders {s : Scene Tile (Nat → UInt8)} {n : Nat} (ok : TreeOk s n) (dec : List UInt8 → Option (List UInt8)) {layers : List (LTree LayerRec)} (hs : TreeShows dec s.h s.root layers)
    (hf : depthAll layers ≤ n) (hu : UniqueDoc layers) (hk : KnownModes layers) (fuel : Nat) (hfu : 2 * n ≤ fuel) (diff aborted : Bool) (visited : List TPt) (hnd : visited.Nodup)
    (dest : TPt → Tile) :
    ∃ st dest', render tileOps s fuel diff aborted visited .empty dest = .ok (st, dest') ∧
      ∀ pt, ∃ t r, IsStack dec (fun id => (s.canvas id).bind (·.lookup pt)) (fun id => (s.mask id).lookup pt) layers t ∧ paint tileOps t false id tileOps.blank = .ok r ∧
        dest' pt = if pt ∈ visited then tileShown tileOps (dest pt) r else dest pt := by
  obtain ⟨st, dest', e, h⟩ := C82_render_paints_the_layers (fun k => k) dec n layers hf hu hk s.canvas s.mask fuel hfu diff aborted visited hnd dest
  obtain ⟨ok0, -, sup⟩ := C98_new_is_owned (fun k => k) dec n layers hf hu hk s.canvas s.mask
  obtain ⟨st1, st2, dest2, e1, e2⟩ := C98_alike_renders_alike ok0 ok ((newTree_shows (fun k => k) dec n layers hf).alike hs) rfl rfl sup fuel hfu diff aborted visited hnd dest
  rw [e] at e1
  injection e1 with e1
  injection e1 with e1 e3
  subst e3
  exact ⟨st2, dest', e2, h⟩

theorem step_pictures {P M : Type} {ops : PicOps P M} {fuel : Nat} {ev : REvent P} {y y' : RSys P M} (e : y.step ops fuel ev = .ok y') :
    y'.scene.canvas = y.scene.canvas ∧ y'.scene.mask = y.scene.mask := by
  cases ev <;> cases hp : y.pending <;> simp only [RSys.step, hp] at e
  all_goals first
    | cases e; done
    | (injection e with e; subst e; exact ⟨rfl, rfl⟩)
    | (obtain ⟨r, _, e⟩ := Res.bind_eq_ok.1 e; injection e with e; subst e; exact ⟨rfl, rfl⟩)

theorem run_pictures {P M : Type} {ops : PicOps P M} {fuel : Nat} : ∀ (evs : List (REvent P)) (y y' : RSys P M), RSys.run ops fuel evs y = .ok y' →
    y'.scene.canvas = y.scene.canvas ∧ y'.scene.mask = y.scene.mask := by
  intro evs
  induction evs with
  | nil => intro y y' e; simp only [RSys.run, Res.ok.injEq] at e; rw [e]; exact ⟨rfl, rfl⟩
  | cons ev evs ih =>
    intro y y' e
    simp only [RSys.run] at e
    obtain ⟨y1, e1, e2⟩ := Res.bind_eq_ok.1 e
    obtain ⟨a1, a2⟩ := step_pictures e1
    obtain ⟨b1, b2⟩ := ih _ _ e2
    exact ⟨b1.trans a1, b2.trans a2⟩

theorem lived_pictures {P M : Type} {ops : PicOps P M} {fuel : Nat} {Ok : Scene P M → Prop} {s : Scene P M} {y : RSys P M} (u : Lived ops fuel Ok s y) :
    y.scene.canvas = s.canvas ∧ y.scene.mask = s.mask := by
  induction u with
  | new => exact ⟨rfl, rfl⟩
  | step y y' ev _ _ e ih =>
    obtain ⟨a1, a2⟩ := step_pictures e
    exact ⟨a1.trans ih.1, a2.trans ih.2⟩
  | edit y y' h' ps _ _ _ _ e ih =>
    obtain ⟨a1, a2⟩ := run_pictures _ _ _ e
    exact ⟨a1.trans ih.1, a2.trans ih.2⟩

/-- **C122** An edited tree shows the edited document. A document is loaded and cloned, its picture is rendered, layers are shown and hidden or given other blend modes, other masks or whatever, and
marked dirty, it is rendered again or a render is cancelled, and so on. If the tree then stands for a document `layers'` (by C53, this is what `New` would make of it), the next render shows
what painting the layers of that document gives.

Missing: pictures that are not hard-edged (`C56_lossy_cache`); the tree of `New` itself, which is never redrawn (`C57_new_tree_is_never_redrawn`); folders that stop being pass-through around
pass-through folders (`C57_pass_through_left`). -/
theorem C122_edited_document_partial (grow : Nat → Nat) (dec : List UInt8 → Option (List UInt8)) (n : Nat) (layers : List (LTree LayerRec)) (hf : depthAll layers ≤ n) (hu : UniqueDoc layers)
    (canvas : Int → Option (List (TPt × Tile))) (mask : Int → List (TPt × (Nat → UInt8))) (hroot : canvas (-1) = none)
    (hfold : ∀ π l kids, docAt layers π = some (.node l kids) → kids ≠ [] → canvas l.seqID = none)
    {h : CHeap} {root : Ptr} (hc : cloneTree (n + 1) rootPtr (newTree grow dec n layers) = (h, root)) (he : HardEdged ⟨h, root, canvas, mask⟩)
    (fuel : Nat) (hfu : 2 * n < fuel) (y : RSys Tile (Nat → UInt8)) (u : Lived tileOps fuel FullyShown ⟨h, root, canvas, mask⟩ y)
    (layers' : List (LTree LayerRec)) (hs : TreeShows dec y.scene.h y.scene.root layers') (hf' : depthAll layers' ≤ n) (hu' : UniqueDoc layers') (hk' : KnownModes layers')
    (visited : List TPt) (hnd : visited.Nodup) (dest : TPt → Tile) :
    ∃ st dest', render tileOps y.scene fuel false false visited y.st dest = .ok (st, dest') ∧
      ∀ pt, ∃ t r, IsStack dec (fun id => (canvas id).bind (·.lookup pt)) (fun id => (mask id).lookup pt) layers' t ∧ paint tileOps t false id tileOps.blank = .ok r ∧
        dest' pt = if pt ∈ visited then tileShown tileOps (dest pt) r else dest pt := by
  have lk : Linked (⟨h, root, canvas, mask⟩ : Scene Tile (Nat → UInt8)) n := by
    have := C57_clone_is_linked grow dec n layers hf hu canvas mask hroot hfold
    rw [hc] at this
    exact this
  have hcm : y.scene.canvas = canvas ∧ y.scene.mask = mask := lived_pictures u
  obtain ⟨-, lk', -, -⟩ := lived_good hfu lk he u
  obtain ⟨st, st', dest', e1, e2⟩ := C57_marked_is_fresh_partial _ n fuel hfu lk he y u visited dest
  obtain ⟨st2, dest2, e3, h3⟩ := shows_renders lk'.toTreeOk dec hs hf' hu' hk' fuel (by omega) false false visited hnd dest
  rw [e2] at e3
  injection e3 with e3
  injection e3 with e3 e4
  subst e4
  rw [hcm.1, hcm.2] at h3
  exact ⟨st, dest', e1, h3⟩

/-! ### Single edits -/

/-- The record of a layer. -/
def LTree.record {α : Type} : LTree α → α
  | .node l _ => l

theorem sub_edit {α : Type} (f : α → α) : ∀ (π : List Nat) (t : LTree α) (ρ : List Nat),
    ((LTree.edit f π t).sub ρ).map LTree.record = (t.sub ρ).map fun k => if ρ = π then f k.record else k.record
  | [], .node l kids, [] => rfl
  | [], .node l kids, j :: ρ => by
    show ((LTree.node (f l) kids).sub (j :: ρ)).map _ = ((LTree.node l kids).sub (j :: ρ)).map _
    simp only [LTree.sub, reduceCtorEq, if_false]
  | i :: π, .node l kids, [] => rfl
  | i :: π, .node l kids, j :: ρ => by
    show ((LTree.node l (kids.modify i (LTree.edit f π))).sub (j :: ρ)).map _ = ((LTree.node l kids).sub (j :: ρ)).map _
    simp only [LTree.sub, List.getElem?_modify]
    cases hk : kids[j]? with
    | none => rfl
    | some k =>
      simp only [Option.map_eq_map, Option.map_some]
      by_cases hij : i = j
      · subst hij
        simp only [if_true, sub_edit f π k ρ, List.cons.injEq, true_and]
      · simp only [if_neg hij, List.cons.injEq, show ¬(j = i) from fun h => hij h.symm, false_and, if_false]

theorem docAt_edit {α : Type} (f : α → α) (π : List Nat) (layers : List (LTree α)) (ρ : List Nat) :
    (docAt (docEdit f π layers) ρ).map LTree.record = (docAt layers ρ).map fun k => if ρ = π then f k.record else k.record := by
  match π, ρ with
  | [], [] => rfl
  | i :: π, [] => rfl
  | [], j :: ρ =>
    simp only [docEdit, reduceCtorEq, if_false]
  | i :: π, j :: ρ =>
    simp only [docEdit, docAt, List.getElem?_modify]
    cases hk : layers[j]? with
    | none => rfl
    | some k =>
      simp only [Option.map_eq_map, Option.map_some]
      by_cases hij : i = j
      · subst hij
        simp only [if_true, sub_edit f π k ρ, List.cons.injEq, true_and]
      · simp only [if_neg hij, List.cons.injEq, show ¬(j = i) from fun h => hij h.symm, false_and, if_false]

/-- The record at a path of the edited document. -/
theorem docAt_edit_some {α : Type} {f : α → α} {π : List Nat} {layers : List (LTree α)} {ρ : List Nat} {l : α} {kids : List (LTree α)} (e : docAt (docEdit f π layers) ρ = some (.node l kids)) :
    ∃ l0 kids0, docAt layers ρ = some (.node l0 kids0) ∧ l = if ρ = π then f l0 else l0 := by
  have := docAt_edit f π layers ρ
  rw [e] at this
  cases h : docAt layers ρ with
  | none => rw [h] at this; cases this
  | some x =>
    obtain ⟨l0, kids0⟩ := x
    rw [h] at this
    injection this with this
    exact ⟨l0, kids0, rfl, this⟩

theorem UniqueDoc.edit {layers : List (LTree LayerRec)} (hu : UniqueDoc layers) {f : LayerRec → LayerRec} (hf : ∀ l, (f l).seqID = l.seqID) (π : List Nat) : UniqueDoc (docEdit f π layers) := by
  intro ρ ρ' l l' kids kids' e e' hl
  obtain ⟨l0, k0, e0, rfl⟩ := docAt_edit_some e
  obtain ⟨l1, k1, e1, rfl⟩ := docAt_edit_some e'
  refine hu ρ ρ' l0 l1 k0 k1 e0 e1 ?_
  have key : ∀ (c : Prop) [Decidable c] (l : LayerRec), (if c then f l else l).seqID = l.seqID := fun c _ l => by split; exacts [hf l, rfl]
  rwa [key, key] at hl

mutual
theorem depth_edit {α : Type} (f : α → α) : ∀ (π : List Nat) (t : LTree α), (LTree.edit f π t).depth = t.depth
  | [], .node l kids => rfl
  | i :: π, .node l kids => by
    show depthAll (kids.modify i (LTree.edit f π)) + 1 = depthAll kids + 1
    rw [depthAll_modify f π kids i]
theorem depthAll_modify {α : Type} (f : α → α) : ∀ (π : List Nat) (kids : List (LTree α)) (i : Nat), depthAll (kids.modify i (LTree.edit f π)) = depthAll kids
  | π, [], i => by simp
  | π, k :: ks, 0 => by
    rw [List.modify_zero_cons, depthAll, depthAll, depth_edit f π k]
  | π, k :: ks, i + 1 => by
    rw [List.modify_succ_cons, depthAll, depthAll, depthAll_modify f π ks i]
end

theorem depthAll_edit {α : Type} (f : α → α) (π : List Nat) (layers : List (LTree α)) : depthAll (docEdit f π layers) = depthAll layers := by
  cases π with
  | nil => rfl
  | cons i π => exact depthAll_modify f π layers i

theorem slotAt_withAttr (h : CHeap) (p : Ptr) (g : CAttr → CAttr) : ∀ (π : List Nat) (root : Ptr), slotAt (withAttr h p g) root π = slotAt h root π := by
  have hch : ∀ q, ((withAttr h p g).at_ q).children = (h.at_ q).children := fun q => by
    simp only [withAttr]
    split <;> rfl
  intro π
  induction π with
  | nil => intro root; rfl
  | cons i π ih =>
    intro root
    rw [slotAt, slotAt, hch]
    split
    · exact ih _
    · rfl

/-- Assigning to the fields of one layer is editing one record, provided what is assigned is what `New` would read from the edited record. -/
theorem TreeShows.edit {dec : List UInt8 → Option (List UInt8)} {h : CHeap} {root p : Ptr} {layers : List (LTree LayerRec)} (a : TreeShows dec h root layers) (hu : UniqueIDs h root)
    {i : Nat} {π : List Nat} (hp : slotAt h root (i :: π) = some p) {f : LayerRec → LayerRec} {g : CAttr → CAttr} (hfg : ∀ l b, ShowsLayer dec l b → ShowsLayer dec (f l) (g b)) :
    TreeShows dec (withAttr h p g) root (docEdit f (i :: π) layers) := by
  have same : ∀ ρ q, slotAt h root ρ = some q → q = p → ρ = i :: π := fun ρ q hq e => hu ρ (i :: π) q p hq hp (by rw [e])
  refine ⟨?_, fun j ρ l kids e => ?_, fun j ρ e => ?_⟩
  · simp only [withAttr]
    rw [if_neg (fun e => by have := same [] root rfl e; cases this)]
    exact a.top
  · obtain ⟨l0, k0, e0, rfl⟩ := docAt_edit_some e
    obtain ⟨q, h1, h2⟩ := a.layer j ρ l0 k0 e0
    refine ⟨q, by rw [slotAt_withAttr]; exact h1, ?_⟩
    simp only [withAttr]
    by_cases hq : q = p
    · rw [if_pos hq, if_pos (same _ q h1 hq)]
      exact hfg _ _ h2
    · rw [if_neg hq, if_neg (fun hρ => hq ?_)]
      · exact h2
      · rw [hρ, hp] at h1
        injection h1 with h1
        exact h1.symm
  · rw [slotAt_withAttr]
    refine a.nothing j ρ ?_
    have := docAt_edit f (i :: π) layers (j :: ρ)
    rw [e] at this
    cases h0 : docAt layers (j :: ρ) with
    | none => rfl
    | some x => rw [h0] at this; cases this

theorem withVisible_visible (v : Bool) (l : LayerRec) : (l.withVisible v).visible = v := by
  have key : ∀ x : UInt8, (x &&& 253) &&& 2 = 0 ∧ (x ||| 2) &&& 2 ≠ 0 := by
    intro x
    have : ∀ n : Fin 256, (UInt8.ofNat n.val &&& 253) &&& 2 = 0 ∧ (UInt8.ofNat n.val ||| 2) &&& 2 ≠ 0 := by decide +kernel
    have := this ⟨x.toNat, x.toNat_lt⟩
    rwa [UInt8.ofNat_toNat] at this
  cases v with
  | true =>
    show (_ == _) = true
    simp [LayerRec.withVisible, (key l.flags).1]
  | false =>
    show (_ == _) = false
    simp [LayerRec.withVisible, (key l.flags).2]

/-- Showing or hiding a layer of the tree is showing or hiding it in the document. -/
theorem shows_visible {dec : List UInt8 → Option (List UInt8)} (v : Bool) {l : LayerRec} {a : CAttr} (h : ShowsLayer dec l a) :
    ShowsLayer dec (l.withVisible v) { a with visible := v } :=
  ⟨h.number, h.unicodeName, h.otherName, h.rawName, h.noName, h.folder, h.folderOpen, (withVisible_visible v l).symm, h.opacity, h.clipping, h.blendClipped, h.folderMode, h.layerMode, h.noPass,
    h.mask, h.maskDefault⟩

/-- **C122** Showing and hiding layers, the edit programs make most: whatever was done before (`Lived`), if the tree stands for the document `layers'` and then the layer at a path is shown or
hidden and marked dirty, the next render shows the document with this layer shown or hidden.

Missing: as in `C122_edited_document_partial`. -/
theorem C122_show_and_hide_partial (grow : Nat → Nat) (dec : List UInt8 → Option (List UInt8)) (n : Nat) (layers : List (LTree LayerRec)) (hf : depthAll layers ≤ n) (hu : UniqueDoc layers)
    (canvas : Int → Option (List (TPt × Tile))) (mask : Int → List (TPt × (Nat → UInt8))) (hroot : canvas (-1) = none)
    (hfold : ∀ π l kids, docAt layers π = some (.node l kids) → kids ≠ [] → canvas l.seqID = none)
    {h : CHeap} {root : Ptr} (hc : cloneTree (n + 1) rootPtr (newTree grow dec n layers) = (h, root)) (he : HardEdged ⟨h, root, canvas, mask⟩)
    (fuel : Nat) (hfu : 2 * n < fuel) (y : RSys Tile (Nat → UInt8)) (u : Lived tileOps fuel FullyShown ⟨h, root, canvas, mask⟩ y) (hpend : y.pending = none)
    (layers' : List (LTree LayerRec)) (hs : TreeShows dec y.scene.h y.scene.root layers') (hf' : depthAll layers' ≤ n) (hu' : UniqueDoc layers') (hk' : KnownModes layers')
    (i : Nat) (π : List Nat) (p : Ptr) (hp : slotAt y.scene.h y.scene.root (i :: π) = some p) (v : Bool) (visited : List TPt) (hnd : visited.Nodup) (dest : TPt → Tile) :
    ∃ y', RSys.run tileOps fuel [.change (withAttr y.scene.h p fun a => { a with visible := v }), .dirty p] y = .ok y' ∧ Lived tileOps fuel FullyShown ⟨h, root, canvas, mask⟩ y' ∧
      y'.pending = none ∧ TreeShows dec y'.scene.h y'.scene.root (docEdit (LayerRec.withVisible v) (i :: π) layers') ∧
      ∃ st dest', render tileOps y'.scene fuel false false visited y'.st dest = .ok (st, dest') ∧
        ∀ pt, ∃ t r, IsStack dec (fun id => (canvas id).bind (·.lookup pt)) (fun id => (mask id).lookup pt) (docEdit (LayerRec.withVisible v) (i :: π) layers') t ∧
          paint tileOps t false id tileOps.blank = .ok r ∧ dest' pt = if pt ∈ visited then tileShown tileOps (dest pt) r else dest pt := by
  have lk : Linked (⟨h, root, canvas, mask⟩ : Scene Tile (Nat → UInt8)) n := by
    have := C57_clone_is_linked grow dec n layers hf hu canvas mask hroot hfold
    rw [hc] at this
    exact this
  obtain ⟨-, lk', -, fs⟩ := lived_good hfu lk he u
  obtain ⟨scene, st, de, diff, pend⟩ := y
  subst hpend
  refine ⟨_, rfl, ?_⟩
  have hed : EditOk scene.h (withAttr scene.h p fun a => { a with visible := v }) scene.root [p] := EditOk.one ⟨_, hp⟩ (fun a => ⟨rfl, rfl, rfl⟩)
  have fs' : FullyShown { scene with h := withAttr scene.h p fun a => { a with visible := v } } := by
    intro ρ q hρ hq
    simp only at hq
    rw [slotAt_withAttr] at hq
    have := fs ρ q hρ hq
    simp only [withAttr]
    split
    · exact this
    · exact this
  have u' := Lived.edit _ _ _ [p] u rfl hed fs' rfl
  have hs' := hs.edit lk'.unique hp (fun l b => shows_visible (dec := dec) v)
  have hk2 : KnownModes (docEdit (LayerRec.withVisible v) (i :: π) layers') := by
    intro ρ l kids e
    obtain ⟨l0, k0, e0, rfl⟩ := docAt_edit_some e
    have := hk' ρ l0 k0 e0
    split
    · exact this
    · exact this
  obtain ⟨st', d', e', h'⟩ := C122_edited_document_partial grow dec n layers hf hu canvas mask hroot hfold hc he fuel hfu _ u' _ hs' (by rw [depthAll_edit]; exact hf') (hu'.edit (f := LayerRec.withVisible v) (fun l => rfl) _) hk2
    visited hnd dest
  exact ⟨u', rfl, hs', st', d', e', h'⟩

/-- The clone of a tree that stands for a document stands for it. -/
theorem clone_shows (grow : Nat → Nat) (dec : List UInt8 → Option (List UInt8)) (n : Nat) (layers : List (LTree LayerRec)) (hf : depthAll layers ≤ n) (hu : UniqueDoc layers) {h : CHeap}
    {root : Ptr} (hc : cloneTree (n + 1) rootPtr (newTree grow dec n layers) = (h, root)) : TreeShows dec h root layers := by
  obtain ⟨h1, h2, h3⟩ := newTree_clonable grow dec n layers hf hu
  obtain ⟨-, al, -⟩ := clone_facts (s := (⟨newTree grow dec n layers, rootPtr, fun _ => none, fun _ => []⟩ : Scene Tile (Nat → UInt8)))
    (C56_new_tree_is_ok grow dec n layers hf hu _ _) ⟨fun π q hq => (h1 π q hq).2, h3⟩ (Nat.lt_succ_self n) hc
  exact (newTree_shows grow dec n layers hf).of_alike al

/-! ### Non-vacuity -/

/-- A background, and above it a folder to be multiplied with a layer in it. -/
def editDoc : List (LTree LayerRec) :=
  [.node { seqID := 0, blendMode := ascii "norm", opacity := 255, blendClippedElements := true } [],
    .node { seqID := 2, sdType := 1, sdBlendMode := ascii "mul ", opacity := 255, blendClippedElements := true } [.node { seqID := 1, blendMode := ascii "norm", opacity := 255 } []]]

/-- The pixels of the background are opaque, the layer above has a hole. -/
def editCanvas (id : Int) : Option (List (TPt × Tile)) :=
  if id = 0 then some [((0, 0), plainTile ⟨200, 100, 0, 255⟩)] else if id = 1 then some [((0, 0), fun i => if i = 3 then ⟨0, 0, 0, 0⟩ else ⟨10, 20, 30, 255⟩)] else none

/-- The clone of its tree. -/
def editScene : Scene Tile (Nat → UInt8) where
  h := (cloneTree 3 rootPtr (newTree (fun n => n) some 2 editDoc)).1
  root := (cloneTree 3 rootPtr (newTree (fun n => n) some 2 editDoc)).2
  canvas := editCanvas
  mask := fun _ => []

/-- The layers of the clone. -/
def editList : List (List Nat × Ptr) := [([], (5, 0)), ([0], (6, 0)), ([1], (6, 1)), ([1, 0], (8, 0))]

theorem editDoc_unique : UniqueDoc editDoc := by
  refine UniqueDoc.of_list ?_
  simp only [docList, editDoc, LTree.number, List.map, List.nil_append, List.cons_append]
  decide

/-- The hypotheses of `C122_show_and_hide_partial` are met, for the layer in the folder, by this document after a first render. -/
example : ∃ y, Lived tileOps 5 FullyShown editScene y ∧ depthAll editDoc ≤ 2 ∧ UniqueDoc editDoc ∧ KnownModes editDoc ∧ editCanvas (-1) = none ∧
    (∀ π l kids, docAt editDoc π = some (.node l kids) → kids ≠ [] → editCanvas l.seqID = none) ∧ cloneTree 3 rootPtr (newTree (fun n => n) some 2 editDoc) = (editScene.h, editScene.root) ∧
    HardEdged editScene ∧ y.pending = none ∧ TreeShows some y.scene.h y.scene.root editDoc ∧ slotAt y.scene.h y.scene.root [1, 0] = some (8, 0) ∧ y.st.cached (-1) (0, 0) = some .cached := by
  have h : (RSys.run tileOps 5 [.start blank false, .tile (0, 0), .finish false] ⟨editScene, .empty, blank, false, none⟩ >>= fun y =>
      (.ok (y.st.cached (-1) (0, 0)) : Res (Option CacheState))) = .ok (some .cached) := by decide +kernel
  obtain ⟨y, e1, e2⟩ := Res.bind_eq_ok.1 h
  injection e2 with e2
  have hs : FullyShown editScene := FullyShown.of_list editList (by decide +kernel) (by decide +kernel) (by decide +kernel)
  have hy : y.scene = editScene ∧ y.pending = none := by
    simp only [RSys.run] at e1
    obtain ⟨y1, a1, e1⟩ := Res.bind_eq_ok.1 e1
    obtain ⟨y2, a2, e1⟩ := Res.bind_eq_ok.1 e1
    obtain ⟨y3, a3, e1⟩ := Res.bind_eq_ok.1 e1
    simp only [Res.ok.injEq] at e1
    subst e1
    simp only [RSys.step, Res.ok.injEq] at a1
    subst a1
    simp only [RSys.step] at a2
    obtain ⟨r, _, a2⟩ := Res.bind_eq_ok.1 a2
    simp only [Res.ok.injEq] at a2
    subst a2
    simp only [RSys.step, Res.ok.injEq] at a3
    subst a3
    exact ⟨rfl, rfl⟩
  refine ⟨y, Lived.run _ _ y (.new _ _ hs) (by simp) e1, by decide, editDoc_unique, DocAll.of_list (Q := fun l _ =>
    (l.folder = false → blendMode l.blendMode ≠ none ∨ l.blendMode = ascii "pass") ∧
    (l.folder = true → blendMode l.sdBlendMode ≠ none ∨ l.sdBlendMode = ascii "pass" ∧ l.blendClippedElements = true)) ?_, rfl,
    DocAll.of_list (Q := fun l kids => kids ≠ [] → editCanvas l.seqID = none) ?_, rfl, ⟨?_, fun id x hx => absurd hx List.not_mem_nil⟩, hy.2, ?_, ?_, e2⟩
  · intro x hx
    simp only [docList, editDoc, List.map, List.nil_append, List.cons_append] at hx
    fin_cases hx <;> decide
  · intro x hx
    simp only [docList, editDoc, List.map, List.nil_append, List.cons_append] at hx
    fin_cases hx
    · exact fun h => absurd rfl h
    · exact fun _ => rfl
    · exact fun h => absurd rfl h
  · intro id c hc x hx i
    simp only [editScene, editCanvas] at hc
    split at hc
    · injection hc with hc
      subst hc
      rw [List.mem_singleton] at hx
      subst hx
      exact .inr rfl
    · split at hc
      · injection hc with hc
        subst hc
        rw [List.mem_singleton] at hx
        subst hx
        simp only
        split
        · exact .inl rfl
        · exact .inr rfl
      · cases hc
  · rw [hy.1]
    exact clone_shows (fun n => n) some 2 editDoc (by decide) editDoc_unique rfl
  · rw [hy.1]
    decide +kernel

/-- The pixel before and after. -/
example :
    ((RSys.run tileOps 5 [.start blank false, .tile (0, 0), .finish false] ⟨editScene, .empty, blank, false, none⟩ >>= fun y =>
      RSys.run tileOps 5 [.change (withAttr y.scene.h (8, 0) fun a => { a with visible := false }), .dirty (8, 0)] y >>= fun y' =>
        peekPx (render tileOps y'.scene 5 false false [(0, 0)] y'.st blank) 5 >>= fun p => .ok (y.dest (0, 0) 5, p)) : Res (Px × Px)) = .ok (⟨7, 7, 0, 255⟩, ⟨200, 100, 0, 255⟩) := by
  decide +kernel

end Psd
