import Verif.Props.FilePixels
import Verif.Props.Solid
import Verif.Props.Again
import Verif.Spec.FileEdits

/-!
# C125: working on a file
-/

namespace Psd
open Spec (Box MaskSpec Picture Layer LayerSection LayerMask Doc Node)

/-! ### Folders in files have no pixels of their own -/

theorem DocAll.nil {Q : LayerRec → List (LTree LayerRec) → Prop} : DocAll Q [] := fun π l kids e => by
  match π with
  | [] => cases e
  | _ :: _ => simp [docAt] at e

theorem DocAll.snoc {Q : LayerRec → List (LTree LayerRec) → Prop} {xs sub : List (LTree LayerRec)} {f : LayerRec} (h : DocAll Q xs) (hs : DocAll Q sub) (hf : Q f sub) :
    DocAll Q (xs ++ [.node f sub]) := by
  intro π l kids e
  match π with
  | [] => cases e
  | j :: ρ =>
    by_cases hj : j < xs.length
    · refine h (j :: ρ) l kids ?_
      simp only [docAt, List.getElem?_append_left hj] at e ⊢
      exact e
    · obtain ⟨i, rfl⟩ : ∃ i, j = xs.length + i := ⟨j - xs.length, by omega⟩
      rw [docAt_append] at e
      cases i with
      | succ i => simp [docAt] at e
      | zero =>
        cases ρ with
        | nil =>
          simp only [docAt, List.getElem?_cons_zero, LTree.sub, Option.some.injEq, LTree.node.injEq] at e
          rw [← e.1, ← e.2]
          exact hf
        | cons k ρ => exact hs (k :: ρ) l kids e

/-- Only folders have layers in them. -/
theorem buildTreeLoop_kids : ∀ (ls : List LayerRec) (st : List (List (LTree LayerRec))) (n t : List (LTree LayerRec)),
    (∀ s ∈ st, DocAll (fun l kids => kids ≠ [] → l.sdType = 1 ∨ l.sdType = 2) s) → DocAll (fun l kids => kids ≠ [] → l.sdType = 1 ∨ l.sdType = 2) n →
    buildTreeLoop LayerRec.sdType ls st n = .ok t → DocAll (fun l kids => kids ≠ [] → l.sdType = 1 ∨ l.sdType = 2) t := by
  intro ls
  induction ls with
  | nil => intro st n t _ hn e; simp only [buildTreeLoop, Res.ok.injEq] at e; exact e ▸ hn
  | cons l ls ih =>
    intro st n t hst hn e
    unfold buildTreeLoop at e
    split at e
    · rename_i hl
      split at e
      · cases e
      · exact ih _ _ _ (fun s hs => hst s (List.mem_cons_of_mem _ hs)) ((hst _ List.mem_cons_self).snoc hn fun _ => hl) e
    · split at e
      · exact ih _ _ _ (fun s hs => by rcases List.mem_cons.1 hs with rfl | hs; exacts [hn, hst s hs]) .nil e
      · exact ih _ _ _ hst (hn.snoc .nil fun h => absurd rfl h) e

/-- What a tree that is made of a file is like. -/
theorem file_tree {d : Doc} (hv : d.Valid) (h8 : d.header.depth = 8) {sec : LayerSection} (hsec : d.sections = [sec]) (hmodes : ∀ l ∈ sec.layers, l.ModeKnown)
    (hmask : ∀ l ∈ sec.layers, l.MaskVaries) {layers : List (LTree LayerRec)} (hb : buildTree LayerRec.sdType (rgbLayers sec.layers) = .ok layers)
    {procs ts w : Nat} (hpr : 1 ≤ procs) (hts : 1 ≤ ts) {t : Import} (r : ImportRun procs ts (Import.start w (rgbLayers sec.layers)) t) (hd : t.Done)
    (grow : Nat → Nat) (dec : List UInt8 → Option (List UInt8)) (m : Nat) (hlen : sec.layers.length ≤ m) (docRect : Rect) {tree : LayerTree} (ht : finishNew grow dec m docRect t = .ok tree) :
    tree.images = t.images ∧ tree.scene = ⟨newTree grow dec m layers, rootPtr, tree.scene.canvas, tree.scene.mask⟩ ∧ UniqueDoc layers ∧ KnownModes layers ∧ depthAll layers ≤ m ∧
    tree.scene.canvas (-1) = none ∧ ∀ π l kids, docAt layers π = some (.node l kids) → kids ≠ [] → tree.scene.canvas l.seqID = none := by
  obtain ⟨himg, hsc⟩ := scene_of_file hv h8 hsec hmask hb hpr hts r hd grow dec m docRect ht
  have hsub := buildTree_sublist _ hb
  refine ⟨himg, hsc, UniqueDoc.of_post (List.Nodup.sublist (hsub.map _) (by rw [rgbLayers_seq]; exact List.nodup_range)), ?_, ?_, rfl, ?_⟩
  · refine DocAll.of_post (Q := KnownMode) fun l' h => ?_
    obtain ⟨i, l, hl, rfl⟩ := mem_rgbLayers (hsub.subset h)
    exact known_of_spec (hmodes l hl) i
  · have := depthAll_le layers
    have := hsub.length_le
    rw [rgbLayers_length] at this
    omega
  · intro π l kids e hk
    have hty := buildTreeLoop_kids _ _ _ _ (by simp) .nil hb π l kids e hk
    have hall : DocAll (fun l _ => ∃ k : Nat, (rgbLayers sec.layers)[k]? = some l ∧ l.seqID = k) layers := DocAll.of_post fun l' h => by
      obtain ⟨k, hk⟩ := List.mem_iff_getElem?.1 (hsub.subset h)
      exact ⟨k, hk, seqID_of_range (rgbLayers_seq sec.layers) hk⟩
    obtain ⟨k, hl, hid⟩ := hall π l kids e
    obtain ⟨img, ⟨a1, -⟩, a3⟩ := (C75_pictures_stored (rgbLayers_seq sec.layers) r hd).1 k _ hl
    have hnp : ¬l.Pictured := by
      intro hp
      obtain ⟨i, l0, -, rfl⟩ := mem_rgbLayers (List.mem_of_getElem? hl)
      have h0 : (layerFull 3 8 i l0).sdType = l0.kind := rfl
      rw [h0, ((pictured_iff i).1 hp).1] at hty
      rcases hty with h | h <;> cases h
    rw [loadCanvas_none hnp] at a1
    injection a1 with a1
    show ((tree.image l.seqID).bind _) = none
    rw [hid, show tree.image (k : Int) = some img from (congrFun himg k).trans a3]
    show img.canvas.map _ = none
    rw [← a1]
    rfl

/-! ### Without changes -/

/-- **C125** The picture of a file stays what it is. The file of C104 is loaded, and then rendered, in any order of tiles, cancelled or not, as often as one likes, and layers are marked dirty
that have no pixels in the tile. Another render of the tree shows at every pixel of the tile what painting the layers of the file gives.

Missing: as for C104, files with a mask in effect that has its default colour everywhere on the canvas (`C90_uniform_mask_by_chance`). -/
theorem C125_rendered_again_partial {env : Env} {d : Doc} (hp : env.Reads d) (hv : d.Valid) (hm : d.header.mode = 3) (h8 : d.header.depth = 8)
    {sec : LayerSection} (hsec : d.sections = [sec]) (hcol : ∀ l ∈ sec.layers, l.Rgb) (hmodes : ∀ l ∈ sec.layers, l.ModeKnown) (hmask : ∀ l ∈ sec.layers, l.MaskVaries)
    {s : St} (hs : PresentsFront d s) :
    ∃ psd n s', decode env newOptions s = .ok ((psd, n), s') ∧ buildTree LayerRec.sdType (rgbLayers sec.layers) = .ok psd.layer ∧
      ∀ procs ts workers : Nat, 1 ≤ procs → 1 ≤ ts → 1 ≤ workers →
        ∀ t, ImportRun procs ts (Import.start workers (rgbLayers sec.layers)) t → t.Done →
          ∀ grow dec m, sec.layers.length ≤ m → ∃ tree, finishNew grow dec m psd.config.rect t = .ok tree ∧
            ∀ fuel, 2 * m ≤ fuel → ∀ z, Rendered tileOps fuel tree.scene z → ∀ (visited : List TPt), visited.Nodup → ∀ dest : TPt → Tile,
              ∃ st picture, render tileOps tree.scene fuel false false visited z.st dest = .ok (st, picture) ∧
                ∀ x y, 0 ≤ x → 0 ≤ y → tilePt ts x y ∈ visited → QuietAt tileOps fuel tree.scene (tilePt ts x y) z →
                  ∃ (pic : Int → Option Px) (mask : Int → Option UInt8) (stack : Stk Px UInt8) (r : Bool × Px),
                  (∀ (k : Nat) l, sec.layers[k]? = some l → l.PixelIs ts x y (pic k) ∧ l.MaskIs ts x y (mask k)) ∧
                  IsStack dec pic mask psd.layer stack ∧ paint pxOps stack false id ⟨0, 0, 0, 0⟩ = .ok r ∧
                  picture (tilePt ts x y) (tileIx ts x y) = tileShown pxOps ⟨0, 0, 0, 0⟩ r := by
  obtain ⟨psd, n, s', h1, h2, h3⟩ := C104_pixels_of_file_partial hp hv hm h8 hsec hcol hmodes hmask hs
  refine ⟨psd, n, s', h1, h2, fun procs ts workers hpr hts hw t r hd grow dec m hlen => ?_⟩
  obtain ⟨tree, e1, e2⟩ := h3 procs ts workers hpr hts hw t r hd grow dec m hlen
  refine ⟨tree, e1, fun fuel hfu z hz visited hnd dest => ?_⟩
  obtain ⟨st0, fresh, f1, f2⟩ := e2 fuel hfu false false visited hnd dest
  obtain ⟨-, hsc, hu, hk, hdep, -, -⟩ := file_tree hv h8 hsec hmodes hmask h2 hpr hts r hd grow dec m hlen psd.config.rect e1
  obtain ⟨ok, -, hmk⟩ := C98_new_is_owned grow dec m psd.layer hdep hu hk tree.scene.canvas tree.scene.mask
  rw [← hsc] at ok hmk
  obtain ⟨st, st', again, fresh', g1, g2, g3⟩ := C123_known_modes tree.scene m fuel hfu ok hmk z hz visited dest
  rw [f1] at g2
  simp only [Res.ok.injEq, Prod.mk.injEq] at g2
  obtain ⟨-, rfl⟩ := g2
  refine ⟨st, again, g1, fun x y hx hy hpt hq => ?_⟩
  rw [g3 _ hq]
  exact f2 x y hx hy hpt

/-! ### With changes -/

/-- **C125** Working on a file. The file of C104 is loaded and its tree cloned, layers are shown, hidden or changed otherwise and marked dirty, the tree is rendered, completely or in part, and so
on. If the tree then stands for the layers `layers'`, the next render shows at every pixel what painting these gives, with the colours and masks the file has for them, if at this pixel everything
in folders was opaque or fully transparent all the time.

Missing: other pixels (`C56_lossy_cache`); the tree of `New` itself (`C57_new_tree_is_never_redrawn`); files with a mask in effect that has its default colour everywhere on the canvas
(`C90_uniform_mask_by_chance`). -/
theorem C125_edited_file_partial {env : Env} {d : Doc} (hp : env.Reads d) (hv : d.Valid) (hm : d.header.mode = 3) (h8 : d.header.depth = 8)
    {sec : LayerSection} (hsec : d.sections = [sec]) (hcol : ∀ l ∈ sec.layers, l.Rgb) (hmodes : ∀ l ∈ sec.layers, l.ModeKnown) (hmask : ∀ l ∈ sec.layers, l.MaskVaries)
    {s : St} (hs : PresentsFront d s) :
    ∃ psd n s', decode env newOptions s = .ok ((psd, n), s') ∧ buildTree LayerRec.sdType (rgbLayers sec.layers) = .ok psd.layer ∧
      ∀ procs ts workers : Nat, 1 ≤ procs → 1 ≤ ts → 1 ≤ workers →
        ∀ t, ImportRun procs ts (Import.start workers (rgbLayers sec.layers)) t → t.Done →
          ∀ grow dec m, sec.layers.length ≤ m → ∃ tree, finishNew grow dec m psd.config.rect t = .ok tree ∧
            ∀ h root, cloneTree (m + 1) tree.scene.root tree.scene.h = (h, root) → TreeShows dec h root psd.layer ∧
            ∀ fuel, 2 * m < fuel → ∀ z, Lived tileOps fuel ModesKnown { tree.scene with h := h, root := root } z →
              ∀ layers', TreeShows dec z.scene.h z.scene.root layers' → depthAll layers' ≤ m → UniqueDoc layers' → KnownModes layers' →
              ∀ (visited : List TPt), visited.Nodup → ∀ dest : TPt → Tile,
              ∃ st picture, render tileOps z.scene fuel false false visited z.st dest = .ok (st, picture) ∧
                ∀ x y, 0 ≤ x → 0 ≤ y → tilePt ts x y ∈ visited →
                  Lived tileOps fuel (fun s => SolidAt s (tilePt ts x y) (tileIx ts x y) ∧ ModesKnown s) { tree.scene with h := h, root := root } z →
                  ∃ (pic : Int → Option Px) (mask : Int → Option UInt8) (stack : Stk Px UInt8) (r : Bool × Px),
                  (∀ (k : Nat) l, sec.layers[k]? = some l → l.PixelIs ts x y (pic k) ∧ l.MaskIs ts x y (mask k)) ∧
                  IsStack dec pic mask layers' stack ∧ paint pxOps stack false id ⟨0, 0, 0, 0⟩ = .ok r ∧
                  picture (tilePt ts x y) (tileIx ts x y) = tileShown pxOps ⟨0, 0, 0, 0⟩ r := by
  obtain ⟨psd, n, s', h1, h2, h3⟩ := C104_pixels_of_file_partial hp hv hm h8 hsec hcol hmodes hmask hs
  refine ⟨psd, n, s', h1, h2, fun procs ts workers hpr hts hw t r hd grow dec m hlen => ?_⟩
  obtain ⟨tree, e1, -⟩ := h3 procs ts workers hpr hts hw t r hd grow dec m hlen
  obtain ⟨himg, hsc, hu, hk, hdep, hroot, hfold⟩ := file_tree hv h8 hsec hmodes hmask h2 hpr hts r hd grow dec m hlen psd.config.rect e1
  refine ⟨tree, e1, fun h root hc => ?_⟩
  rw [show tree.scene.root = rootPtr from rfl, show tree.scene.h = newTree grow dec m psd.layer by rw [hsc]] at hc
  refine ⟨clone_shows grow dec m psd.layer hdep hu hc, fun fuel hfu z hz layers' hsh hf' hu' hk' visited hnd dest => ?_⟩
  obtain ⟨st, picture, g1, g2⟩ := C122_solid_pixels_partial grow dec m psd.layer hdep hu tree.scene.canvas tree.scene.mask hroot hfold hc fuel hfu z hz layers' hsh hf' hu' hk' visited hnd dest
  refine ⟨st, picture, g1, fun x y hx hy hpt hsol => ?_⟩
  obtain ⟨T, R, k1, k2, k3⟩ := g2 (tilePt ts x y)
  rw [k3 _ hsol, if_pos hpt]
  exact file_paint hv h8 hsec hcol hpr hts r hd himg hx hy k1 k2 (dest _)

/-! ### Files without folders -/

theorem forall₂_get {α β : Type} {R : α → β → Prop} {xs : List α} {ys : List β} (h : List.Forall₂ R xs ys) {k : Nat} {b : β} (hk : ys[k]? = some b) : ∃ a, xs[k]? = some a ∧ R a b := by
  obtain ⟨hlen, hr⟩ := List.forall₂_iff_get.1 h
  obtain ⟨hlt, rfl⟩ := List.getElem?_eq_some_iff.1 hk
  exact ⟨xs[k], List.getElem?_eq_getElem (by omega), hr k (by omega) hlt⟩

theorem forall₂_right {α β : Type} {R : α → β → Prop} {xs : List α} {ys : List β} (h : List.Forall₂ R xs ys) (b : β) (hb : b ∈ ys) : ∃ a ∈ xs, R a b := by
  obtain ⟨k, hk⟩ := List.mem_iff_getElem?.1 hb
  obtain ⟨a, ha, hr⟩ := forall₂_get h hk
  exact ⟨a, List.mem_of_getElem? ha, hr⟩

theorem docAt_flat {α : Type} (rs : List α) (i j : Nat) (π : List Nat) : docAt (rs.map (LTree.node · [])) (i :: j :: π) = none := by
  simp only [docAt, List.getElem?_map]
  cases rs[i]? with
  | none => rfl
  | some a => simp [LTree.sub]

theorem depth_flat {α : Type} (rs : List α) : depthAll (rs.map (LTree.node · [])) ≤ 1 := by
  induction rs with
  | nil => simp [depthAll]
  | cons r rs ih => simp only [List.map_cons, depthAll, LTree.depth]; omega

theorem restyled_pixel {l l' : Layer} (h : l.Restyled l') {ts : Nat} {x y : Int} {p : Option Px} (hp : l.PixelIs ts x y p) : l'.PixelIs ts x y p := by
  rw [h]
  exact hp

/-- The record of one of the layers that are a list. -/
theorem docAt_rgb {ls : List Layer} {j : Nat} {π : List Nat} {r : LayerRec} {kids : List (LTree LayerRec)} (e : docAt ((rgbLayers ls).map (LTree.node · [])) (j :: π) = some (.node r kids)) :
    π = [] ∧ ∃ l, ls[j]? = some l ∧ r = layerFull 3 8 j l := by
  cases π with
  | cons i π => rw [docAt_flat] at e; cases e
  | nil =>
    refine ⟨rfl, ?_⟩
    simp only [docAt, List.getElem?_map] at e
    cases h : ls[j]? with
    | none =>
      have : (rgbLayers ls)[j]? = none := by rw [List.getElem?_eq_none_iff, rgbLayers_length]; exact List.getElem?_eq_none_iff.1 h
      rw [this] at e
      cases e
    | some l =>
      rw [rgbLayers_get h] at e
      simp only [Option.map_some, LTree.sub, Option.some.injEq, LTree.node.injEq] at e
      exact ⟨l, rfl, e.1.symm⟩

/-- The blend modes of a tree that stands for simple layers. -/
theorem shows_modes {s : Scene Tile (Nat → UInt8)} {ls : List Layer} (hls : ∀ l ∈ ls, l.Simple) {dec : List UInt8 → Option (List UInt8)}
    (hs : TreeShows dec s.h s.root ((rgbLayers ls).map (.node · []))) : ModesKnown s := by
  intro π q hπ hq
  match π with
  | [] => exact absurd rfl hπ
  | j :: π =>
    cases e : docAt ((rgbLayers ls).map (LTree.node · [])) (j :: π) with
    | none => rw [hs.nothing j π e] at hq; cases hq
    | some x =>
      obtain ⟨r, kids⟩ := x
      obtain ⟨rfl, l, hl, rfl⟩ := docAt_rgb e
      obtain ⟨q', h1, h2⟩ := hs.layer j [] _ _ e
      rw [h1] at hq
      injection hq with hq
      subst hq
      have hsl := hls l (List.mem_of_getElem? hl)
      obtain ⟨m, hm⟩ := hsl.mode
      have hne : l.blend ≠ ascii "pass" := by
        intro hc
        rw [hc, show blendMode (ascii "pass") = none by decide] at hm
        cases hm
      refine ⟨trivial, .inl ?_⟩
      rw [h2.layerMode (by show (l.kind == 1 || l.kind == 2) = false; rw [hsl.kind]; rfl) hne]
      show blendMode l.blend ≠ none
      rw [hm]
      simp

theorem step_scene {P M : Type} {ops : PicOps P M} {fuel : Nat} {y y' : RSys P M} {ev : REvent P} (hev : ∀ h, ev ≠ .change h) (e : y.step ops fuel ev = .ok y') : y'.scene = y.scene := by
  cases ev <;> cases hp : y.pending <;> simp only [RSys.step, hp] at e
  all_goals first
    | exact absurd rfl (hev _)
    | cases e; done
    | (injection e with e; subst e; rfl)
    | (obtain ⟨r, _, e⟩ := Res.bind_eq_ok.1 e; injection e with e; subst e; rfl)

/-- A file without folders, clipping layers and masks in effect: whatever was shown and hidden, faded and given another blend mode, marked, rendered and cancelled, if the tree then stands
for the layers `ls`, which are those of the file restyled, every pixel rendered is that of these layers drawn one over the other. -/
theorem flat_file_shows {env : Env} {d : Doc} (hp : env.Reads d) (hv : d.Valid) (hm : d.header.mode = 3) (h8 : d.header.depth = 8)
    {sec : LayerSection} (hsec : d.sections = [sec]) (hcol : ∀ l ∈ sec.layers, l.Rgb) (hsim : ∀ l ∈ sec.layers, l.Simple)
    {s : St} (hs : PresentsFront d s) :
    ∃ psd n s', decode env newOptions s = .ok ((psd, n), s') ∧
      ∀ procs ts workers : Nat, 1 ≤ procs → 1 ≤ ts → 1 ≤ workers →
        ∀ t, ImportRun procs ts (Import.start workers (rgbLayers sec.layers)) t → t.Done →
          ∀ grow dec m, 1 ≤ m → sec.layers.length ≤ m → ∃ tree, finishNew grow dec m psd.config.rect t = .ok tree ∧
            ∀ h root, cloneTree (m + 1) tree.scene.root tree.scene.h = (h, root) → TreeShows dec h root ((rgbLayers sec.layers).map (.node · [])) ∧
            Linked ({ tree.scene with h := h, root := root } : Scene Tile (Nat → UInt8)) 1 ∧
            ModesKnown ({ tree.scene with h := h, root := root } : Scene Tile (Nat → UInt8)) ∧
            ∀ fuel, 2 * m < fuel → ∀ z, Lived tileOps fuel ModesKnown { tree.scene with h := h, root := root } z →
              ∀ ls : List Layer, List.Forall₂ Layer.Restyled sec.layers ls → (∀ l ∈ ls, ∃ m, blendMode l.blend = some m) →
                TreeShows dec z.scene.h z.scene.root ((rgbLayers ls).map (.node · [])) →
              ∀ (visited : List TPt), visited.Nodup → ∀ dest : TPt → Tile,
              ∃ st picture, render tileOps z.scene fuel false false visited z.st dest = .ok (st, picture) ∧
                ∀ x y, 0 ≤ x → 0 ≤ y → tilePt ts x y ∈ visited →
                  picture (tilePt ts x y) (tileIx ts x y) = pxOps.copy (pxOps.copy (ls.foldl (fun p l => l.onto x y p) ⟨0, 0, 0, 0⟩)) := by
  have hmk : ∀ l ∈ sec.layers, l.MaskVaries := fun l hl h => absurd h (hsim l hl).unmasked
  have hmodes : ∀ l ∈ sec.layers, l.ModeKnown := fun l hl => modeKnown_of_simple (hsim l hl)
  obtain ⟨psd, n, s', h1, h2, h3⟩ := C125_edited_file_partial hp hv hm h8 hsec hcol hmodes hmk hs
  have flat : ∀ ls : List Layer, (∀ l ∈ ls, l.kind = 0) → buildTree LayerRec.sdType (rgbLayers ls) = .ok ((rgbLayers ls).map (.node · [])) := by
    intro ls h
    unfold buildTree
    rw [buildTreeLoop_flat, List.nil_append]
    intro x hx
    obtain ⟨i, l, hl, rfl⟩ := mem_rgbLayers hx
    have : (layerFull 3 8 i l).sdType = l.kind := rfl
    rw [this, h l hl]
    decide
  have hl : psd.layer = (rgbLayers sec.layers).map (.node · []) := by
    have := flat sec.layers fun l hl => (hsim l hl).kind
    rw [h2] at this
    injection this
  refine ⟨psd, n, s', h1, fun procs ts workers hpr hts hw t r hd grow dec m hm1 hlen => ?_⟩
  obtain ⟨tree, e1, e2⟩ := h3 procs ts workers hpr hts hw t r hd grow dec m hlen
  refine ⟨tree, e1, fun h root hc => ?_⟩
  obtain ⟨c1, c2⟩ := e2 h root hc
  have lk : Linked ({ tree.scene with h := h, root := root } : Scene Tile (Nat → UInt8)) 1 := by
    obtain ⟨-, hsc, hu, -, hdep, hroot, hfold⟩ := file_tree hv h8 hsec hmodes hmk h2 hpr hts r hd grow dec m hlen psd.config.rect e1
    have := C57_clone_is_linked grow dec m psd.layer hdep hu tree.scene.canvas tree.scene.mask hroot hfold
    rw [show tree.scene.root = rootPtr from rfl, show tree.scene.h = newTree grow dec m psd.layer by rw [hsc]] at hc
    rw [hc] at this
    refine { this with finite := fun π q hq => ?_ }
    match π, hq with
    | [], _ => simp
    | [_], _ => simp
    | i :: j :: π, hq =>
      rw [hl] at c1
      rw [c1.nothing i (j :: π) (docAt_flat _ _ _ _)] at hq
      cases hq
  have hmod : ModesKnown ({ tree.scene with h := h, root := root } : Scene Tile (Nat → UInt8)) := shows_modes hsim (hl ▸ c1)
  refine ⟨hl ▸ c1, lk, hmod, fun fuel hfu z hz ls hre hmd hsh visited hnd dest => ?_⟩
  have hls : ∀ l ∈ ls, l.Simple := by
    intro l hl
    obtain ⟨l0, hl0, hr⟩ := forall₂_right hre l hl
    have h0 := hsim l0 hl0
    refine ⟨?_, hmd l hl, ?_, ?_⟩
    · rw [hr]; exact h0.kind
    · rw [hr]; exact h0.clipping
    · rw [hr]; exact h0.unmasked
  have hb := flat ls fun l hl => (hls l hl).kind
  have hsub := buildTree_sublist _ hb
  have hu' : UniqueDoc ((rgbLayers ls).map (LTree.node · [])) := UniqueDoc.of_post (List.Nodup.sublist (hsub.map _) (by rw [rgbLayers_seq]; exact List.nodup_range))
  have hk' : KnownModes ((rgbLayers ls).map (LTree.node · [])) := by
    refine DocAll.of_post (Q := KnownMode) fun l' h => ?_
    obtain ⟨i, l, hl, rfl⟩ := mem_rgbLayers (hsub.subset h)
    exact known_of_spec (modeKnown_of_simple (hls l hl)) i
  obtain ⟨st, picture, g1, g2⟩ := c2 fuel hfu z hz _ hsh (le_trans (depth_flat _) hm1) hu' hk' visited hnd dest
  refine ⟨st, picture, g1, fun x y hx hy hpt => ?_⟩
  obtain ⟨pic, mask, stack, q, f1, f2, f3, f4⟩ := g2 x y hx hy hpt ((lived_flat lk hz).1.mono fun _ h => ⟨h.1 _ _, h.2⟩)
  rw [show (rgbLayers ls).map (LTree.node · []) = (ls.zipIdx 0).map fun p => .node (layerFull 3 8 p.2 p.1) [] by unfold rgbLayers; rw [List.map_map]; rfl] at f2
  obtain ⟨k1, k2⟩ := paint_flat ls 0 stack hls (fun j l h => by
    rw [Nat.zero_add]
    obtain ⟨l0, hl0, hr⟩ := forall₂_get hre h
    exact restyled_pixel hr (f1 j l0 hl0).1) f2 _ _ f3
  rw [f4, ← k1]
  unfold tileShown
  split
  · rfl
  · rename_i hf
    rw [k2 (by simpa using hf), px_copy_zero rfl]
    rfl

theorem docAt_rgb_none {ls ls' : List Layer} (hlen : ls'.length = ls.length) {j : Nat} {π : List Nat} (e : docAt ((rgbLayers ls').map (LTree.node · [])) (j :: π) = none) :
    docAt ((rgbLayers ls).map (LTree.node · [])) (j :: π) = none := by
  cases π with
  | cons i π => rw [docAt_flat]
  | nil =>
    simp only [docAt, List.getElem?_map] at e ⊢
    have h : (rgbLayers ls')[j]? = none := by
      cases h : (rgbLayers ls')[j]? with
      | none => rfl
      | some r => rw [h] at e; cases e
    have h' : (rgbLayers ls)[j]? = none := by
      rw [List.getElem?_eq_none_iff, rgbLayers_length] at h ⊢
      omega
    rw [h']
    rfl

theorem shows_restyled {dec : List UInt8 → Option (List UInt8)} {j : Nat} {l l' : Layer} (h : l.Restyled l') (hk : l.kind = 0) (hm : ∃ m, blendMode l'.blend = some m) {a : CAttr}
    (hs : ShowsLayer dec (layerFull 3 8 j l) a) : ShowsLayer dec (layerFull 3 8 j l') (restyle l' a) := by
  have hne : l'.blend ≠ ascii "pass" := by
    intro hc
    obtain ⟨m, hm⟩ := hm
    rw [hc, show blendMode (ascii "pass") = none by decide] at hm
    cases hm
  have hfo : (layerFull 3 8 j l').folder = false := by
    rw [h]
    show (l.kind == 1 || l.kind == 2) = false
    rw [hk]; rfl
  have key : ∀ (f o : UInt8) (b : List UInt8) (l' : Layer), l' = { l with flags := f, opacity := o, blend := b } → (layerFull 3 8 j l').folder = false → l'.blend ≠ ascii "pass" →
      ShowsLayer dec (layerFull 3 8 j l') (restyle l' a) := by
    rintro f o b _ rfl hfo hne
    refine ⟨hs.number, hs.unicodeName, hs.otherName, hs.rawName, hs.noName, hs.folder, hs.folderOpen, ?_, rfl, hs.clipping, hs.blendClipped, fun h => ?_, fun _ _ => rfl, fun _ h => absurd h hne, hs.mask,
      hs.maskDefault⟩
    · show (f.toNat / 2 % 2 == 0) = (f &&& 2 == 0)
      rw [Bool.eq_iff_iff, flag_bit, beq_iff_eq]
    · rw [hfo] at h; cases h
  exact key _ _ _ l' h hfo hne

/-- The tree stays one that stands for layers of the file restyled: if it stands for the layers `ls` and a program gives the one with the number `i` the visibility, opacity and blend mode
of `l` and marks it dirty, it stands for the layers `ls` with `l` instead of this one. -/
theorem restyle_shows (s : Scene Tile (Nat → UInt8)) (lk : Linked s 1) (dec : List UInt8 → Option (List UInt8)) (fuel : Nat) (hfu : 2 < fuel) (z : RSys Tile (Nat → UInt8))
    (u : Lived tileOps fuel ModesKnown s z) (hpend : z.pending = none) (ls : List Layer) (hls : ∀ l ∈ ls, l.Simple) (hs : TreeShows dec z.scene.h z.scene.root ((rgbLayers ls).map (.node · [])))
    (i : Nat) (old l : Layer) (hi : ls[i]? = some old) (hre : old.Restyled l) (hm : ∃ m, blendMode l.blend = some m) (p : Ptr) (hp : slotAt z.scene.h z.scene.root [i] = some p) :
    ∃ z', RSys.run tileOps fuel [.change (withAttr z.scene.h p (restyle l)), .dirty p] z = .ok z' ∧ Lived tileOps fuel ModesKnown s z' ∧ z'.pending = none ∧
      (∀ k ∈ ls.set i l, k.Simple) ∧ TreeShows dec z'.scene.h z'.scene.root ((rgbLayers (ls.set i l)).map (.node · [])) := by
  have lk' := (lived_flat lk u).2
  have ms := (lived_images (by omega) lk u).2.2
  obtain ⟨scene, st, de, diff, pend⟩ := z
  subst hpend
  dsimp only at hs hp lk' ms ⊢
  have hold := hls old (List.mem_of_getElem? hi)
  have hatt : ShowsLayer dec (layerFull 3 8 i old) (scene.h.at_ p).attr := by
    obtain ⟨q, h1, h2⟩ := hs.layer i [] (layerFull 3 8 i old) [] (by simp only [docAt, List.getElem?_map, rgbLayers_get hi]; rfl)
    rw [hp] at h1
    injection h1 with h1
    exact h1 ▸ h2
  have same : ∀ ρ q, slotAt scene.h scene.root ρ = some q → q = p → ρ = [i] := fun ρ q hq e => lk'.unique ρ [i] q p hq hp (by rw [e])
  have hnp : (scene.h.at_ p).attr.blendMode ≠ passThrough := by
    obtain ⟨m, hm⟩ := hold.mode
    have hne : old.blend ≠ ascii "pass" := by
      intro hc
      rw [hc, show blendMode (ascii "pass") = none by decide] at hm
      cases hm
    rw [hatt.layerMode (by show (old.kind == 1 || old.kind == 2) = false; rw [hold.kind]; rfl) hne]
    exact hne
  have hed : EditOk scene.h (withAttr scene.h p (restyle l)) scene.root [p] := by
    refine ⟨fun q => ?_, fun q => ?_, fun q hq => ?_, fun q hq => ?_, fun q hq h1 h2 => ?_⟩
    · simp only [withAttr]; split <;> exact ⟨rfl, rfl, rfl, rfl⟩
    · simp only [withAttr]; split <;> exact ⟨rfl, rfl⟩
    · simp only [withAttr]; rw [if_neg (by simpa using hq)]
    · rw [List.mem_singleton] at hq; rw [hq]; exact ⟨_, hp⟩
    · rw [List.mem_singleton] at hq
      subst hq
      exact absurd h1 hnp
  have ms' : ModesKnown { scene with h := withAttr scene.h p (restyle l) } := by
    intro ρ q hρ hq
    simp only at hq
    rw [slotAt_withAttr] at hq
    have := ms ρ q hρ hq
    simp only [withAttr]
    split
    · obtain ⟨m, hm⟩ := hm
      refine ⟨trivial, .inl ?_⟩
      show blendMode l.blend ≠ none
      rw [hm]
      simp
    · exact this
  refine ⟨_, rfl, Lived.edit _ _ _ [p] u rfl hed ms' rfl, rfl, ?_, ?_⟩
  · intro k hk
    rcases List.mem_or_eq_of_mem_set hk with hk | hk
    · exact hls k hk
    · rw [hk]
      refine ⟨?_, hm, ?_, ?_⟩
      · rw [hre]; exact hold.kind
      · rw [hre]; exact hold.clipping
      · rw [hre]; exact hold.unmasked
  · dsimp only
    refine ⟨?_, fun j ρ r kids e => ?_, fun j ρ e => ?_⟩
    · simp only [withAttr]
      rw [if_neg (fun e => by have := same [] scene.root rfl e; cases this)]
      exact hs.top
    · obtain ⟨rfl, k, hk, rfl⟩ := docAt_rgb e
      by_cases hj : j = i
      · subst hj
        have : k = l := by
          have hlt := (List.getElem?_eq_some_iff.1 hi).1
          rw [List.getElem?_set_self hlt] at hk
          injection hk with hk
          exact hk.symm
        subst this
        refine ⟨p, by rw [slotAt_withAttr]; exact hp, ?_⟩
        simp only [withAttr, if_pos]
        exact shows_restyled hre hold.kind hm hatt
      · rw [List.getElem?_set_ne (Ne.symm hj)] at hk
        obtain ⟨q, h1, h2⟩ := hs.layer j [] (layerFull 3 8 j k) [] (by simp only [docAt, List.getElem?_map, rgbLayers_get hk]; rfl)
        refine ⟨q, by rw [slotAt_withAttr]; exact h1, ?_⟩
        simp only [withAttr]
        rw [if_neg (fun hq => hj (by have := same _ q h1 hq; simpa using this))]
        exact h2
    · rw [slotAt_withAttr]
      exact hs.nothing j ρ (docAt_rgb_none (by simp) e)

theorem worked_ok {fuel : Nat} {s : Scene Tile (Nat → UInt8)} {ls now : List Layer} {z : RSys Tile (Nat → UInt8)} (w : Worked fuel s ls now z) (lk : Linked s 1) (hm : ModesKnown s) (hfu : 2 < fuel)
    {dec : List UInt8 → Option (List UInt8)} (hls : ∀ l ∈ ls, l.Simple) (hs : TreeShows dec s.h s.root ((rgbLayers ls).map (.node · []))) :
    Lived tileOps fuel ModesKnown s z ∧ (∀ l ∈ now, l.Simple) ∧ List.Forall₂ Layer.Restyled ls now ∧ TreeShows dec z.scene.h z.scene.root ((rgbLayers now).map (.node · [])) := by
  induction w with
  | new dest diff => exact ⟨.new dest diff hm, hls, List.forall₂_same.2 fun _ _ => rfl, hs⟩
  | step now z z' ev _ hev e ih =>
    obtain ⟨h1, h2, h3, h4⟩ := ih
    refine ⟨.step z z' ev h1 hev e, h2, h3, ?_⟩
    rw [step_scene hev e]
    exact h4
  | restyle now z z' i old l p _ hp hi hre hmd hsl e ih =>
    obtain ⟨h1, h2, h3, h4⟩ := ih
    obtain ⟨z1, e1, k1, -, k2, k3⟩ := restyle_shows s lk dec fuel hfu z h1 hp now h2 h4 i old l hi hre hmd p hsl
    rw [e] at e1
    injection e1 with e1
    subst e1
    refine ⟨k1, k2, ?_, k3⟩
    refine List.forall₂_iff_get.2 ⟨by rw [List.length_set]; exact h3.length_eq, fun j a b => ?_⟩
    obtain ⟨l0, e0, hr⟩ := forall₂_get h3 (List.getElem?_eq_getElem (by simpa using b))
    rw [List.getElem?_eq_getElem a] at e0
    injection e0 with e0
    simp only [List.get_eq_getElem, List.getElem_set]
    rw [e0]
    split
    · rename_i hij
      subst hij
      rw [List.getElem?_eq_getElem (by simpa using b)] at hi
      injection hi with hi
      rw [hi] at hr
      show l = _
      rw [hr] at hre
      exact hre
    · exact hr

/-- **C125** A file without folders, clipping layers and masks in effect is loaded and its tree cloned. Whatever layers are then shown, hidden, faded or given another blend mode and marked dirty, whatever
is rendered and cancelled: the next render shows at every pixel the layers of the file, as they are then, drawn one over the other. And between renders every layer can be given any visibility,
opacity and known blend mode. -/
theorem C125_flat_file {env : Env} {d : Doc} (hp : env.Reads d) (hv : d.Valid) (hm : d.header.mode = 3) (h8 : d.header.depth = 8)
    {sec : LayerSection} (hsec : d.sections = [sec]) (hcol : ∀ l ∈ sec.layers, l.Rgb) (hsim : ∀ l ∈ sec.layers, l.Simple)
    {s : St} (hs : PresentsFront d s) :
    ∃ psd n s', decode env newOptions s = .ok ((psd, n), s') ∧
      ∀ procs ts workers : Nat, 1 ≤ procs → 1 ≤ ts → 1 ≤ workers →
        ∀ t, ImportRun procs ts (Import.start workers (rgbLayers sec.layers)) t → t.Done →
          ∀ grow dec m, 1 ≤ m → sec.layers.length ≤ m → ∃ tree, finishNew grow dec m psd.config.rect t = .ok tree ∧
            ∀ h root, cloneTree (m + 1) tree.scene.root tree.scene.h = (h, root) →
            ∀ fuel, 2 * m < fuel → ∀ now z, Worked fuel { tree.scene with h := h, root := root } sec.layers now z →
              (z.pending = none → ∀ (i : Nat) old l, now[i]? = some old → old.Restyled l → (∃ mode, blendMode l.blend = some mode) →
                ∃ z', Worked fuel { tree.scene with h := h, root := root } sec.layers (now.set i l) z') ∧
              ∀ (visited : List TPt), visited.Nodup → ∀ dest : TPt → Tile,
              ∃ st picture, render tileOps z.scene fuel false false visited z.st dest = .ok (st, picture) ∧
                ∀ x y, 0 ≤ x → 0 ≤ y → tilePt ts x y ∈ visited →
                  picture (tilePt ts x y) (tileIx ts x y) = pxOps.copy (pxOps.copy (now.foldl (fun p l => l.onto x y p) ⟨0, 0, 0, 0⟩)) := by
  obtain ⟨psd, n, s', h1, h3⟩ := flat_file_shows hp hv hm h8 hsec hcol hsim hs
  refine ⟨psd, n, s', h1, fun procs ts workers hpr hts hw t r hd grow dec m hm1 hlen => ?_⟩
  obtain ⟨tree, e1, e2⟩ := h3 procs ts workers hpr hts hw t r hd grow dec m hm1 hlen
  refine ⟨tree, e1, fun h root hc fuel hfu now z w => ?_⟩
  obtain ⟨c1, c2, c3, c4⟩ := e2 h root hc
  obtain ⟨k1, k2, k3, k4⟩ := worked_ok w c2 c3 (by omega) hsim c1
  refine ⟨fun hp i old l hi hre hmd => ?_, fun visited hnd dest => c4 fuel hfu z k1 now k3 (fun l hl => (k2 l hl).mode) k4 visited hnd dest⟩
  obtain ⟨p, hsl, -⟩ := k4.layer i [] (layerFull 3 8 i old) [] (by simp only [docAt, List.getElem?_map, rgbLayers_get hi]; rfl)
  obtain ⟨z', e, -⟩ := restyle_shows _ c2 dec fuel (by omega) z k1 hp now k2 k4 i old l hi hre hmd p hsl
  exact ⟨z', .restyle now z z' i old l p w hp hi hre hmd hsl e⟩

/-! ### Examples -/

/-- The file `exFlatDoc` meets the hypotheses of `C125_flat_file`, as the example for C105 shows, and `exPairDoc` those of the other theorems, as the one for C102 does. Its upper layer can be
hidden, and faded and put into the mode "screen". The pixel at (1, 0), which is (27, 45, 5) when the file is loaded, is then another. -/
example : exFlatOver.Restyled { exFlatOver with flags := 2 } ∧ exFlatOver.Restyled { exFlatOver with opacity := 30, blend := ascii "scrn" } ∧
    (∃ mode, blendMode (ascii "scrn") = some mode) ∧
    ([[exFlatUnder, exFlatOver], [exFlatUnder, exFlatOver].set 1 { exFlatOver with flags := 2 }, [exFlatUnder, exFlatOver].set 1 { exFlatOver with opacity := 30, blend := ascii "scrn" }].map
      fun now => pxOps.copy (pxOps.copy (now.foldl (fun q l => l.onto 1 0 q) ⟨0, 0, 0, 0⟩))) = [⟨27, 45, 5, 255⟩, ⟨30, 60, 9, 255⟩, ⟨50, 69, 14, 255⟩] := by
  exact ⟨rfl, rfl, ⟨_, rfl⟩, by decide +kernel⟩

end Psd
