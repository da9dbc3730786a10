import Verif.Lemmas.FilePixel
import Verif.Props.FileToPicture

/-
C104, C105: the picture of a file, pixel by pixel.
-/

namespace Psd
open Spec (Box MaskSpec Picture Layer LayerSection LayerMask Doc Node)

/-- The tree made of a file, as the renderer sees it: its layers are those of the file, and it has their tiles. -/
theorem scene_of_file {d : Doc} (hv : d.Valid) (h8 : d.header.depth = 8) {sec : LayerSection} (hsec : d.sections = [sec])
    (hmask : ∀ l ∈ sec.layers, l.MaskVaries) {layers : List (LTree LayerRec)} (hb : buildTree LayerRec.sdType (rgbLayers sec.layers) = .ok layers)
    {procs ts w : Nat} (hpr : 1 ≤ procs) (hts : 1 ≤ ts) {t : Import} (r : ImportRun procs ts (Import.start w (rgbLayers sec.layers)) t) (hd : t.Done)
    (grow : Nat → Nat) (dec : List UInt8 → Option (List UInt8)) (m : Nat) (docRect : Rect) {tree : LayerTree} (ht : finishNew grow dec m docRect t = .ok tree) :
    tree.images = t.images ∧ tree.scene = ⟨newTree grow dec m layers, rootPtr, tree.scene.canvas, tree.scene.mask⟩ := by
  obtain ⟨k1, k2⟩ := copied_attr dec hpr hts (rgbLayers_seq sec.layers) (mask_varies hv h8 hsec hmask) r hd
  have hall : List.Forall₂ (fun l l' => attrOf dec l = attrOf dec l' ∧ l.sdType = l'.sdType) t.copied (rgbLayers sec.layers) := by
    refine List.forall₂_iff_get.2 ⟨k1, fun j h1 h2 => ?_⟩
    obtain ⟨l1, a1, a2, a3⟩ := k2 j _ (List.getElem?_eq_getElem h2)
    rw [List.getElem?_eq_getElem h1] at a1
    injection a1 with a1
    simp only [List.get_eq_getElem, a1]
    exact ⟨a2, a3⟩
  unfold finishNew at ht
  obtain ⟨c, e, ht⟩ := Res.bind_eq_ok.1 ht
  injection ht with ht
  unfold buildTree at e hb
  rcases buildTree_twin hall (st := []) (st' := []) .nil (n := []) (n' := []) (by unfold Twins; trivial) with ⟨t1, t2, e1, e2, e3⟩ | ⟨e1, -⟩
  · rw [e] at e1
    rw [hb] at e2
    cases e1
    cases e2
    subst ht
    refine ⟨rfl, ?_⟩
    unfold LayerTree.scene
    simp only [newTree_twin grow m e3]
  · rw [e] at e1
    cases e1

/-- Painting a tile at one of its pixels, with the colours and masks that a file has there. -/
theorem file_paint {d : Doc} (hv : d.Valid) (h8 : d.header.depth = 8) {sec : LayerSection} (hsec : d.sections = [sec]) (hcol : ∀ l ∈ sec.layers, l.Rgb)
    {procs ts w : Nat} (hpr : 1 ≤ procs) (hts : 1 ≤ ts) {t : Import} (r : ImportRun procs ts (Import.start w (rgbLayers sec.layers)) t) (hd : t.Done)
    {tree : LayerTree} (himg : tree.images = t.images) {dec : List UInt8 → Option (List UInt8)} {layers : List (LTree LayerRec)} {x y : Int} (hx : 0 ≤ x) (hy : 0 ≤ y)
    {T : Stk Tile (Nat → UInt8)} {R : Bool × Tile}
    (e3 : IsStack dec (fun id => (tree.scene.canvas id).bind (·.lookup (tilePt ts x y))) (fun id => (tree.scene.mask id).lookup (tilePt ts x y)) layers T)
    (e4 : paint tileOps T false id tileOps.blank = .ok R) (old : Tile) :
    ∃ (pic : Int → Option Px) (mask : Int → Option UInt8) (stack : Stk Px UInt8) (q : Bool × Px),
      (∀ (k : Nat) l, sec.layers[k]? = some l → l.PixelIs ts x y (pic k) ∧ l.MaskIs ts x y (mask k)) ∧
      IsStack dec pic mask layers stack ∧ paint pxOps stack false id ⟨0, 0, 0, 0⟩ = .ok q ∧
      tileShown tileOps old R (tileIx ts x y) = tileShown pxOps ⟨0, 0, 0, 0⟩ q := by
  have hsv := section_valid hv (hsec ▸ List.mem_singleton_self sec : sec ∈ d.sections)
  have hom := tile_px (tileIx ts x y)
  refine ⟨_, _, _, (R.1, R.2 (tileIx ts x y)), fun k l hl => ?_, IsStack.through (fun t => t (tileIx ts x y)) (fun m => m (tileIx ts x y)) T layers e3, paint_hom hom T false id _ R e4, ?_⟩
  · obtain ⟨img, ⟨a1, a2⟩, a3⟩ := (C75_pictures_stored (rgbLayers_seq sec.layers) r hd).1 k _ (rgbLayers_get hl)
    obtain ⟨v1, v2, -⟩ := hsv.2.2.1 l (List.mem_of_getElem? hl)
    rw [h8] at v2
    have b1 := loaded_pixel v1 v2 (hcol l (List.mem_of_getElem? hl)) hpr hts a1 hx hy
    have b2 := loaded_mask v1 v2 hpr hts a2 hx hy
    have hi : tree.image (k : Int) = some img := by
      show tree.images k = _
      rw [himg, a3]
    constructor
    · show l.PixelIs ts x y ((((tree.image k).bind _).bind _).map _)
      rw [hi]
      exact b1
    · show l.MaskIs ts x y ((((((tree.image k).bind LayerImage.mask).getD []).map _).lookup _).map _)
      rw [hi]
      exact b2
  · unfold tileShown
    dsimp only
    split
    · rw [hom.copy, hom.copy]
    · rw [clear_px]
      rfl

/-- **C104** (in part) The picture of a file, pixel by pixel. Take a well-formed 8-bit RGB file whose layers are in one section and have pictures with red, green and blue and known blend
modes. Whatever reader presents it, whatever is in the place of its merged picture, and whatever the number of processors and goroutines, the tile size and the schedule: decoding and loading it succeed, and every first rendering of the
tree shows, at every pixel of the canvas it gets to, what painting the layers of the file on a transparent pixel gives. What is painted of a layer is its colour at this pixel in the file
and the value of its mask there. (If the whole tile the pixel is in has nothing of the layer, or of its mask, it counts as missing.)

Missing: files with a mask in effect that has its default colour everywhere on the canvas (`C90_uniform_mask_by_chance`). -/
theorem C104_pixels_of_file_partial {env : Env} {d : Doc} (hp : env.Reads d) (hv : d.Valid) (hm : d.header.mode = 3) (h8 : d.header.depth = 8)
    {sec : LayerSection} (hsec : d.sections = [sec]) (hcol : ∀ l ∈ sec.layers, l.Rgb) (hmodes : ∀ l ∈ sec.layers, l.ModeKnown) (hmask : ∀ l ∈ sec.layers, l.MaskVaries)
    {s : St} (hs : PresentsFront d s) :
    ∃ psd n s', decode env newOptions s = .ok ((psd, n), s') ∧ buildTree LayerRec.sdType (rgbLayers sec.layers) = .ok psd.layer ∧
      ∀ procs ts workers : Nat, 1 ≤ procs → 1 ≤ ts → 1 ≤ workers →
        ∀ t, ImportRun procs ts (Import.start workers (rgbLayers sec.layers)) t → t.Done →
          ∀ grow dec m, sec.layers.length ≤ m → ∃ tree, finishNew grow dec m psd.config.rect t = .ok tree ∧
            ∀ fuel, 2 * m ≤ fuel → ∀ (diff aborted : Bool) (visited : List TPt), visited.Nodup → ∀ dest : TPt → Tile,
              ∃ st picture, render tileOps tree.scene fuel diff aborted visited .empty dest = .ok (st, picture) ∧
                ∀ x y, 0 ≤ x → 0 ≤ y → tilePt ts x y ∈ visited → ∃ (pic : Int → Option Px) (mask : Int → Option UInt8) (stack : Stk Px UInt8) (r : Bool × Px),
                  (∀ (k : Nat) l, sec.layers[k]? = some l → l.PixelIs ts x y (pic k) ∧ l.MaskIs ts x y (mask k)) ∧
                  IsStack dec pic mask psd.layer stack ∧ paint pxOps stack false id ⟨0, 0, 0, 0⟩ = .ok r ∧
                  picture (tilePt ts x y) (tileIx ts x y) = tileShown pxOps ⟨0, 0, 0, 0⟩ r := by
  obtain ⟨psd, n, s', h1, -, h3, -⟩ := decode_new hp hv hm h8 hsec hs
  refine ⟨psd, n, s', h1, h3, fun procs ts workers hpr hts hw t r hd grow dec m hlen => ?_⟩
  obtain ⟨tree, ht⟩ := ((load_new hv h8 hsec hcol hpr hts hw).1 t r).2.2 hd grow dec m psd.config.rect
  refine ⟨tree, ht, fun fuel hfu diff aborted visited hnd dest => ?_⟩
  obtain ⟨himg, hsc⟩ := scene_of_file hv h8 hsec hmask h3 hpr hts r hd grow dec m psd.config.rect ht
  have hsub := buildTree_sublist _ h3
  have hu : UniqueDoc psd.layer := UniqueDoc.of_post (List.Nodup.sublist (hsub.map _) (by rw [rgbLayers_seq]; exact List.nodup_range))
  have hk : KnownModes psd.layer := by
    refine DocAll.of_post (Q := KnownMode) fun l' h => ?_
    obtain ⟨i, l, hl, rfl⟩ := mem_rgbLayers (hsub.subset h)
    exact known_of_spec (hmodes l hl) i
  have hdep : depthAll psd.layer ≤ m := by
    have := depthAll_le psd.layer
    have := hsub.length_le
    rw [rgbLayers_length] at this
    omega
  obtain ⟨st, picture, e1, e2⟩ := C82_render_paints_the_layers grow dec m psd.layer hdep hu hk tree.scene.canvas tree.scene.mask fuel hfu diff aborted visited hnd dest
  rw [← hsc] at e1
  refine ⟨st, picture, e1, fun x y hx hy hpt => ?_⟩
  obtain ⟨T, R, e3, e4, e5⟩ := e2 (tilePt ts x y)
  rw [e5, if_pos hpt]
  exact file_paint hv h8 hsec hcol hpr hts r hd himg hx hy e3 e4 (dest _)

/-! ### Files without folders, clipping layers and masks -/

/-- Layers without folders are a list. -/
theorem buildTreeLoop_flat {α : Type} (f : α → Nat) : ∀ (a : List α) (st : List (List (LTree α))) (n : List (LTree α)), (∀ x ∈ a, f x ≠ 1 ∧ f x ≠ 2 ∧ f x ≠ 3) →
    buildTreeLoop f a st n = .ok (n ++ a.map fun x => .node x []) := by
  intro a
  induction a with
  | nil => intro st n _; simp [buildTreeLoop]
  | cons x a ih =>
    intro st n h
    obtain ⟨h1, h2, h3⟩ := h x List.mem_cons_self
    unfold buildTreeLoop
    rw [if_neg (by tauto), if_neg h3, ih _ _ fun y hy => h y (List.mem_cons_of_mem _ hy)]
    simp

theorem px_copy_zero {p : Px} (h : p.a = 0) : pxOps.copy p = ⟨0, 0, 0, 0⟩ := by
  have := copy_zero (p := fun _ => p) (i := 0) h
  exact this

theorem px_draw {m : Mode} {bm : List UInt8} (hm : blendMode bm = some m) (o : UInt8) (b p : Px) :
    pxOps.draw o.toNat bm b p = .ok (pxOr b (drawNN m o.toUInt32 p b)) := by
  simp only [pxOps, hm]
  rw [opacity_u8, show UInt8.ofNat o.toNat = o from UInt8.ofNat_toNat]

theorem px_draw_zero (m : Mode) (o : UInt8) (b p : Px) (h : p.a = 0) : pxOr b (drawNN m o.toUInt32 p b) = b := by
  rw [C41_transparent_nrgba m _ _ _ (.inl h)]
  rfl

/-- Painting layers that are a list. -/
theorem paint_flat {ts : Nat} {x y : Int} {dec : List UInt8 → Option (List UInt8)} {pic : Int → Option Px} {mask : Int → Option UInt8} :
    ∀ (ls : List Layer) (k : Nat) (stack : Stk Px UInt8), (∀ l ∈ ls, l.Simple) → (∀ (j : Nat) l, ls[j]? = some l → l.PixelIs ts x y (pic ((k + j : Nat) : Int))) →
    IsStack dec pic mask ((ls.zipIdx k).map fun p => .node (layerFull 3 8 p.2 p.1) []) stack → ∀ (b : Px) (r : Bool × Px), paint pxOps stack false id b = .ok r →
    r.2 = ls.foldl (fun p l => l.onto x y p) b ∧ (r.1 = false → r.2 = b) := by
  intro ls
  induction ls with
  | nil =>
    intro k stack _ _ h b r e
    cases stack with
    | nil => cases e; exact ⟨rfl, fun _ => rfl⟩
    | layer a p m kids clips rest => obtain ⟨l, sub, above, over, h1, -⟩ := h; cases h1
  | cons l ls ih =>
    intro k stack hs hpx h b r e
    obtain ⟨hsl, hss⟩ := List.forall_mem_cons.1 hs
    cases stack with
    | nil => cases h
    | layer a p m kids clips rest =>
      obtain ⟨l', sub, above, over, h1, hsh, rfl, rfl, hk, hc, ho, hcl, -, -⟩ := h
      rw [List.zipIdx_cons, List.map_cons] at h1
      simp only [List.cons.injEq, LTree.node.injEq] at h1
      obtain ⟨⟨rfl, rfl⟩, h1⟩ := h1
      have hab : above = [] := by
        cases above with
        | nil => rfl
        | cons z zs =>
          have hz : z ∈ (ls.zipIdx (k + 1)).map fun p => LTree.node (layerFull 3 8 p.2 p.1) [] := by rw [h1]; simp
          obtain ⟨⟨q, j⟩, hq, rfl⟩ := List.mem_map.1 hz
          have hq' : q ∈ ls := (List.mem_zipIdx hq).2.2 ▸ List.getElem_mem _
          have : decide (q.clipping ≠ 0) = true := hcl _ List.mem_cons_self
          rw [(hss q hq').clipping] at this
          cases this
      subst hab
      rw [List.nil_append] at h1
      rw [← h1] at ho
      have ek : kids = .nil := hk.nil
      have ec : clips = .nil := hc.nil
      subst ek
      subst ec
      rw [paint_layer] at e
      obtain ⟨r1, e1, e⟩ := Res.bind_eq_ok.1 e
      obtain ⟨r2, e2, e⟩ := Res.bind_eq_ok.1 e
      cases e
      have hrest := ih (k + 1) rest hss (fun j l hl => by
        have := hpx (j + 1) l hl
        rwa [show k + (j + 1) = k + 1 + j by omega] at this) ho r1.2 r2 e2
      have hpix := hpx 0 l rfl
      rw [Nat.add_zero] at hpix
      -- the layer
      obtain ⟨hkind, ⟨mode, hmode⟩, hclip, hmk⟩ := hsl
      have hfo : (layerFull 3 8 k l).folder = false := by
        show (l.kind == 1 || l.kind == 2) = false
        rw [hkind]; rfl
      have hne : l.blend ≠ ascii "pass" := by
        intro hc
        rw [hc, show blendMode (ascii "pass") = none by decide] at hmode
        cases hmode
      have ebm : a.blendMode = l.blend := hsh.layerMode hfo hne
      have eop : a.opacity = l.opacity.toNat := hsh.opacity
      have evi : a.visible = (l.flags &&& 2 == 0) := hsh.visible
      have ecl : a.clipping = false := by
        rw [hsh.clipping]
        show decide (l.clipping ≠ 0) = false
        rw [hclip]; rfl
      have ema : a.maskEnabled = false := by
        rw [← Bool.not_eq_true]
        intro hc
        obtain ⟨g1, g2, g3⟩ := hsh.mask.1 hc
        have g2 : (maskMeaning l.mask).rect.minX < (maskMeaning l.mask).rect.maxX := g2
        have g3 : (maskMeaning l.mask).rect.minY < (maskMeaning l.mask).rect.maxY := g3
        rw [maskMeaning_rect] at g2 g3
        exact hmk ⟨g2, g3, (maskMeaning_enabled _).1 g1⟩
      have hseq : (layerFull 3 8 k l).seqID = k := rfl
      have hone : r1.2 = l.onto x y b ∧ (r1.1 = false → r1.2 = b) := by
        unfold paintLayer at e1
        unfold Layer.onto
        by_cases hd : drawn a false (id a.opacity) = true
        · rw [if_pos hd] at e1
          unfold drawn at hd
          simp only [id, Bool.and_eq_true, bne_iff_ne, ne_eq] at hd
          have hvis : l.flags.toNat / 2 % 2 = 0 := (flag_bit l.flags).1 (evi ▸ hd.1.1)
          have hop : l.opacity ≠ 0 := by
            intro h0
            apply hd.1.2
            rw [eop, h0]
            rfl
          rw [if_pos ⟨hvis, hop⟩, hmode]
          rw [hseq] at e1
          unfold layerPic ownPic leafPic clipPic at e1
          cases hp : pic (k : Int) with
          | none =>
            rw [hp] at e1 hpix
            rw [hpix x y ⟨rfl, rfl⟩]
            cases e1
            exact ⟨rfl, fun _ => rfl⟩
          | some q =>
            rw [hp] at e1 hpix
            obtain ⟨-, rfl⟩ := hpix
            simp only [Stk.isNil, if_true, applyMask, ema, Bool.false_eq_true, if_false, Res.ok_bind, Bool.true_or, placeOpt, place] at e1
            rw [if_neg (by rw [ebm]; exact fun hc => hne hc.1)] at e1
            rw [ebm, id, eop, px_draw hmode] at e1
            cases e1
            refine ⟨?_, fun hc => by cases hc⟩
            cases hcol : l.colour x y with
            | none =>
              simp only [Option.getD_none]
              rw [px_copy_zero rfl]
              exact px_draw_zero _ _ _ _ rfl
            | some c => rfl
        · rw [if_neg hd] at e1
          cases e1
          rw [if_neg]
          · exact ⟨rfl, fun _ => rfl⟩
          · rintro ⟨h1, h2⟩
            apply hd
            unfold drawn
            rw [evi, (flag_bit l.flags).2 h1, ecl, id, eop]
            simp only [Bool.true_and, Bool.not_false, Bool.true_or, Bool.and_true, bne_iff_ne, ne_eq]
            exact fun h => h2 (UInt8.toNat_inj.1 h)
      refine ⟨?_, fun hf => ?_⟩
      · rw [List.foldl_cons, ← hone.1]
        exact hrest.1
      · simp only [Bool.or_eq_false_iff] at hf
        show r2.2 = b
        rw [hrest.2 hf.2, hone.2 hf.1]

theorem modeKnown_of_simple {l : Layer} (h : l.Simple) : l.ModeKnown := by
  unfold Layer.ModeKnown
  rw [if_neg (by rw [h.kind]; decide)]
  obtain ⟨m, hm⟩ := h.mode
  exact .inl ⟨m, ((C67_keys_of_modes _ m).1 hm).1⟩

/-- **C105** For files without folders, clipping layers and masks in effect, with no reference to tiles: every pixel shown is that of the layers drawn one over the other. -/
theorem C105_flat_file {env : Env} {d : Doc} (hp : env.Reads d) (hv : d.Valid) (hm : d.header.mode = 3) (h8 : d.header.depth = 8)
    {sec : LayerSection} (hsec : d.sections = [sec]) (hcol : ∀ l ∈ sec.layers, l.Rgb) (hsim : ∀ l ∈ sec.layers, l.Simple)
    {s : St} (hs : PresentsFront d s) :
    ∃ psd n s', decode env newOptions s = .ok ((psd, n), s') ∧ buildTree LayerRec.sdType (rgbLayers sec.layers) = .ok psd.layer ∧
      ∀ procs ts workers : Nat, 1 ≤ procs → 1 ≤ ts → 1 ≤ workers →
        ∀ t, ImportRun procs ts (Import.start workers (rgbLayers sec.layers)) t → t.Done →
          ∀ grow dec m, sec.layers.length ≤ m → ∃ tree, finishNew grow dec m psd.config.rect t = .ok tree ∧
            ∀ fuel, 2 * m ≤ fuel → ∀ (diff aborted : Bool) (visited : List TPt), visited.Nodup → ∀ dest : TPt → Tile,
              ∃ st picture, render tileOps tree.scene fuel diff aborted visited .empty dest = .ok (st, picture) ∧
                ∀ x y, 0 ≤ x → 0 ≤ y → tilePt ts x y ∈ visited →
                  picture (tilePt ts x y) (tileIx ts x y) = pxOps.copy (pxOps.copy (sec.layers.foldl (fun p l => l.onto x y p) ⟨0, 0, 0, 0⟩)) := by
  obtain ⟨psd, n, s', h1, h2, h3⟩ := C104_pixels_of_file_partial hp hv hm h8 hsec hcol (fun l hl => modeKnown_of_simple (hsim l hl)) (fun l hl h => absurd h (hsim l hl).unmasked) hs
  refine ⟨psd, n, s', h1, h2, fun procs ts workers hpr hts hw t r hd grow dec m hlen => ?_⟩
  obtain ⟨tree, e1, e2⟩ := h3 procs ts workers hpr hts hw t r hd grow dec m hlen
  refine ⟨tree, e1, fun fuel hfu diff aborted visited hnd dest => ?_⟩
  obtain ⟨st, picture, e3, e4⟩ := e2 fuel hfu diff aborted visited hnd dest
  refine ⟨st, picture, e3, fun x y hx hy hpt => ?_⟩
  obtain ⟨pic, mask, stack, q, f1, f2, f3, f4⟩ := e4 x y hx hy hpt
  have hl : psd.layer = (sec.layers.zipIdx 0).map fun p => .node (layerFull 3 8 p.2 p.1) [] := by
    have := h2
    unfold buildTree at this
    rw [buildTreeLoop_flat] at this
    · injection this with this
      rw [← this]
      unfold rgbLayers
      rw [List.nil_append, List.map_map]
      rfl
    · intro x hx
      obtain ⟨i, l, hl, rfl⟩ := mem_rgbLayers hx
      have : (layerFull 3 8 i l).sdType = l.kind := rfl
      rw [this, (hsim l hl).kind]
      decide
  rw [hl] at f2
  obtain ⟨g1, g2⟩ := paint_flat sec.layers 0 stack hsim (fun j l h => by rw [Nat.zero_add]; exact (f1 j l h).1) f2 _ _ f3
  rw [f4, ← g1]
  unfold tileShown
  split
  · rfl
  · rename_i hf
    rw [g2 (by simpa using hf), px_copy_zero rfl]
    rfl

/-! ### Examples -/

/-- A file whose upper layer is in "multiply" mode with opacity 100. -/
def exFlatUnder : Layer := exOver (.raw [255, 0, 255] []) (.raw [10, 20, 30] []) (.raw [40, 50, 60] []) (.raw [7, 8, 9] [])
def exFlatOver : Layer := { exFolder 0 with rect := ⟨0, 0, 1, 2⟩, blend := [109, 117, 108, 32], opacity := 100, channels := [(0, .raw [1, 200] []), (1, .raw [3, 100] []), (2, .raw [5, 50] [])] }
def exFlatDoc : Doc where
  header := { version := 1, channels := 3, height := 1, width := 2, depth := 8, mode := 3, colorData := [] }
  resources := []
  layerMask := some ⟨some { forest := [.layer exFlatUnder, .layer exFlatOver] }, .none []⟩
  merged := .raw (List.replicate 6 0) []

/-- It meets the hypotheses of `C105_flat_file`. The lower layer is transparent at (0, 0) and opaque at (1, 0). -/
example : exFlatDoc.Valid ∧ exZipEnv.Reads exFlatDoc ∧ Presents exFlatDoc { data := exFlatDoc.bytes } ∧
    ∃ sec, exFlatDoc.sections = [sec] ∧ (∀ l ∈ sec.layers, l.Rgb ∧ l.Simple) ∧
      ([(0, 0), (1, 0)].map fun p : Int × Int => pxOps.copy (pxOps.copy (sec.layers.foldl (fun q l => l.onto p.1 p.2 q) ⟨0, 0, 0, 0⟩))) = [⟨0, 3, 5, 100⟩, ⟨27, 45, 5, 255⟩] := by
  refine ⟨by decide +kernel, by decide +kernel, ⟨⟨[], by simp⟩, rfl, by decide, ?_⟩, _, rfl, ?_, by decide +kernel⟩
  · have : exFlatDoc.bytes.length < 2000 := by decide +kernel
    simp only; omega
  · intro l hl
    have hl : l ∈ [exFlatUnder, exFlatOver] := hl
    simp only [List.mem_cons, List.not_mem_nil, or_false] at hl
    rcases hl with rfl | rfl
    · exact ⟨fun _ _ _ => by decide, rfl, ⟨.sep .normal, by decide⟩, rfl, by decide⟩
    · exact ⟨fun _ _ _ => by decide, rfl, ⟨.sep .multiply, by decide⟩, rfl, by decide⟩

/-- What is painted of the layers of `exPairDoc`, which meets the hypotheses of `C104_pixels_of_file_partial` by the example for C102, in one tile of side 64. -/
example : (exUnder (.raw [1, 2] []) (.raw [3, 4] []) (.raw [5, 6] []) (.raw [0, 9] [])).PixelIs 64 1 0 (some ⟨2, 4, 6, 255⟩) ∧
    (exUnder (.raw [1, 2] []) (.raw [3, 4] []) (.raw [5, 6] []) (.raw [0, 9] [])).MaskIs 64 0 0 (some 0) ∧
    (exOver (.raw [255, 0, 255] []) (.raw [10, 20, 30] []) (.raw [40, 50, 60] []) (.raw [7, 8, 9] [])).PixelIs 64 0 0 (some ⟨0, 0, 0, 0⟩) ∧
    ¬(exOver (.raw [255, 0, 255] []) (.raw [10, 20, 30] []) (.raw [40, 50, 60] []) (.raw [7, 8, 9] [])).PixelIs 64 0 0 none := by
  refine ⟨⟨⟨1, 0, ⟨rfl, rfl⟩, by decide⟩, by decide⟩, ⟨⟨1, 0, ⟨rfl, rfl⟩, by decide⟩, by decide⟩, ⟨⟨1, 0, ⟨rfl, rfl⟩, by decide⟩, by decide⟩, fun h => ?_⟩
  exact absurd (h 1 0 ⟨rfl, rfl⟩) (by decide)

end Psd
