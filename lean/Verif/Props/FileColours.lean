import Verif.Spec.FileColours
import Verif.Props.Brightest
import Verif.Props.FileEdits

/-!
# C134, and C133 for files

What is said of the colours of a picture, from the bytes of a file on.
-/

namespace Psd
open Spec (Box MaskSpec Picture Layer LayerSection LayerMask Doc Node)

/-- What a tree made of a file is like, whatever its masks: its layers are those of the file, with other rectangles, and it has their pixels and masks. -/
theorem loaded_tree {d : Doc} (hv : d.Valid) (h8 : d.header.depth = 8) {sec : LayerSection} (hsec : d.sections = [sec]) (hcol : ∀ l ∈ sec.layers, l.Rgb) (hmodes : ∀ l ∈ sec.layers, l.ModeKnown)
    {procs ts w : Nat} (hpr : 1 ≤ procs) (hts : 1 ≤ ts) {t : Import} (r : ImportRun procs ts (Import.start w (rgbLayers sec.layers)) t) (hd : t.Done)
    (grow : Nat → Nat) (dec : List UInt8 → Option (List UInt8)) (m : Nat) (hlen : sec.layers.length ≤ m) (docRect : Rect) {tree : LayerTree} (ht : finishNew grow dec m docRect t = .ok tree) :
    ∃ layers, tree.scene = ⟨newTree grow dec m layers, rootPtr, tree.scene.canvas, tree.scene.mask⟩ ∧ UniqueDoc layers ∧ KnownModes layers ∧ depthAll layers ≤ m ∧ FoldersBare layers tree.scene.canvas ∧
      DocAll (fun r kids => ∃ (k : Nat) (l : Layer) (rect mr : Rect), sec.layers[k]? = some l ∧ (kids ≠ [] → l.kind = 1 ∨ l.kind = 2) ∧
        r = { layerFull 3 8 k l with rect := rect, mask := { (layerFull 3 8 k l).mask with rect := mr } }) layers ∧
      (∀ (k : Nat) l, sec.layers[k]? = some l → ∀ x y, 0 ≤ x → 0 ≤ y →
        l.PixelIs ts x y (((tree.scene.canvas k).bind (·.lookup (tilePt ts x y))).map (· (tileIx ts x y))) ∧
        l.MaskIs ts x y (((tree.scene.mask k).lookup (tilePt ts x y)).map (· (tileIx ts x y)))) ∧
      ∀ id, tree.scene.canvas id ≠ none → ∃ (k : Nat) (l : Layer), id = k ∧ sec.layers[k]? = some l := by
  have hsv := section_valid hv (hsec ▸ List.mem_singleton_self sec : sec ∈ d.sections)
  have hn := rgbLayers_seq sec.layers
  unfold finishNew at ht
  obtain ⟨layers, hb, ht⟩ := Res.bind_eq_ok.1 ht
  injection ht with ht
  have himg : tree.images = t.images := by rw [← ht]
  have hsub := buildTree_sublist _ hb
  have hstore := C75_pictures_stored hn r hd
  have hall : DocAll (fun r kids => ∃ (k : Nat) (l : Layer) (rect mr : Rect), sec.layers[k]? = some l ∧ (kids ≠ [] → l.kind = 1 ∨ l.kind = 2) ∧
        r = { layerFull 3 8 k l with rect := rect, mask := { (layerFull 3 8 k l).mask with rect := mr } }) layers := by
    have hpost : DocAll (fun r _ => ∃ (k : Nat) (l : Layer) (rect mr : Rect), sec.layers[k]? = some l ∧
        r = { layerFull 3 8 k l with rect := rect, mask := { (layerFull 3 8 k l).mask with rect := mr } }) layers := DocAll.of_post fun r' h => by
      obtain ⟨r0, h0, rect, mr, rfl⟩ := copied_all hn r hd (hsub.subset h)
      obtain ⟨k, hk⟩ := List.mem_iff_getElem?.1 h0
      have hlt : k < sec.layers.length := by
        rw [← rgbLayers_length]
        exact (List.getElem?_eq_some_iff.1 hk).1
      have := rgbLayers_get (List.getElem?_eq_getElem hlt)
      rw [hk] at this
      injection this with this
      exact ⟨k, sec.layers[k], rect, mr, List.getElem?_eq_getElem hlt, by rw [this]⟩
    intro π r' kids e
    obtain ⟨k, l, rect, mr, h1, rfl⟩ := hpost π r' kids e
    exact ⟨k, l, rect, mr, h1, fun h => buildTreeLoop_kids _ _ _ _ (by simp) .nil hb π _ kids e h, rfl⟩
  refine ⟨layers, by rw [← ht]; rfl, UniqueDoc.of_post (List.Nodup.sublist (hsub.map _) (by rw [copied_seqIDs hn r hd]; exact List.nodup_range)), ?_, ?_, ?_, hall, ?_, ?_⟩
  · intro π r' kids e
    obtain ⟨k, l, rect, mr, h1, -, rfl⟩ := hall π r' kids e
    exact known_of_spec (hmodes l (List.mem_of_getElem? h1)) k
  · have h1 := depthAll_le layers
    have h2 := hsub.length_le
    rw [(C76_copies_partial hn r hd).1, rgbLayers_length] at h2
    omega
  · intro π r' kids e hk
    obtain ⟨k, l, rect, mr, h1, h2, rfl⟩ := hall π r' kids e
    obtain ⟨img, ⟨a1, -⟩, a3⟩ := hstore.1 k _ (rgbLayers_get h1)
    have hkind : l.kind = 1 ∨ l.kind = 2 := by
      rcases hk with hk | hk
      · have hk : (l.kind == 1 || l.kind == 2) = true := hk
        simpa using hk
      · exact h2 hk
    rw [loadCanvas_none (fun hp => by
      have := ((pictured_iff k).1 hp).1
      rw [this] at hkind
      rcases hkind with h | h <;> cases h)] at a1
    injection a1 with a1
    show ((tree.image k).bind _) = none
    rw [show tree.image (k : Int) = some img from (congrFun himg k).trans a3]
    show img.canvas.map _ = none
    rw [← a1]
    rfl
  · intro k l hl x y hx hy
    obtain ⟨img, ⟨a1, a2⟩, a3⟩ := hstore.1 k _ (rgbLayers_get hl)
    obtain ⟨v1, v2, -⟩ := hsv.2.2.1 l (List.mem_of_getElem? hl)
    rw [h8] at v2
    have b1 := loaded_pixel v1 v2 (hcol l (List.mem_of_getElem? hl)) hpr hts a1 hx hy
    have b2 := loaded_mask v1 v2 hpr hts a2 hx hy
    have hi : tree.image (k : Int) = some img := (congrFun himg k).trans a3
    constructor
    · show l.PixelIs ts x y ((((tree.image k).bind _).bind _).map _)
      rw [hi]
      exact b1
    · show l.MaskIs ts x y ((((((tree.image k).bind LayerImage.mask).getD []).map _).lookup _).map _)
      rw [hi]
      exact b2
  · intro id hid
    have hi : tree.image id ≠ none := fun h => hid (by show (tree.image id).bind _ = none; rw [h]; rfl)
    cases id with
    | negSucc j => exact absurd rfl hi
    | ofNat k =>
      have hlt : k < sec.layers.length := by
        by_contra hk
        apply hi
        show tree.images k = none
        rw [himg]
        exact hstore.2 k (by rw [rgbLayers_length]; omega)
      exact ⟨k, sec.layers[k], rfl, List.getElem?_eq_getElem hlt⟩

theorem pixel_of_colour {l : Layer} {ts : Nat} {x y : Int} {p : Px} (h : l.PixelIs ts x y (some p)) : p.a = 0 ∨ l.colour x y = some p := by
  obtain ⟨-, rfl⟩ := h
  cases l.colour x y with
  | none => exact .inl rfl
  | some q => exact .inr rfl

/-- **C134** Grey layers of a file make a grey picture. Take a well-formed 8-bit RGB file whose layers are in one section and have pictures with red, green and blue and known blend modes, with whatever folders, clipping,
masks, opacities and blend modes. Whatever reader presents it, and whatever the number of processors and goroutines, the tile size and the schedule: at every pixel where the colours of all layers of the file are grey, every
first rendering shows a grey. -/
theorem C134_grey_file {env : Env} {d : Doc} (hp : env.Reads d) (hv : d.Valid) (hm : d.header.mode = 3) (h8 : d.header.depth = 8)
    {sec : LayerSection} (hsec : d.sections = [sec]) (hcol : ∀ l ∈ sec.layers, l.Rgb) (hmodes : ∀ l ∈ sec.layers, l.ModeKnown) {s : St} (hs : PresentsFront d s) :
    ∃ psd n s', decode env newOptions s = .ok ((psd, n), s') ∧ buildTree LayerRec.sdType (rgbLayers sec.layers) = .ok psd.layer ∧
      ∀ procs ts workers : Nat, 1 ≤ procs → 1 ≤ ts → 1 ≤ workers →
        ∀ t, ImportRun procs ts (Import.start workers (rgbLayers sec.layers)) t → t.Done →
          ∀ grow dec m, sec.layers.length ≤ m → ∃ tree, finishNew grow dec m psd.config.rect t = .ok tree ∧
            ∀ fuel, 2 * m ≤ fuel → ∀ (diff aborted : Bool) (visited : List TPt), visited.Nodup → ∀ dest : TPt → Tile,
              ∃ st picture, render tileOps tree.scene fuel diff aborted visited .empty dest = .ok (st, picture) ∧
                ∀ x y, 0 ≤ x → 0 ≤ y → tilePt ts x y ∈ visited → (∀ l ∈ sec.layers, ∀ q, l.colour x y = some q → q.Grey) →
                  (picture (tilePt ts x y) (tileIx ts x y)).Grey := by
  obtain ⟨psd, n, s', h1, -, h2, -⟩ := decode_new hp hv hm h8 hsec hs
  refine ⟨psd, n, s', h1, h2, fun procs ts workers hpr hts hw t r hd grow dec m hlen => ?_⟩
  obtain ⟨tree, ht⟩ := ((load_new hv h8 hsec hcol hpr hts hw).1 t r).2.2 hd grow dec m psd.config.rect
  refine ⟨tree, ht, fun fuel hfu diff aborted visited hnd dest => ?_⟩
  obtain ⟨layers, hsc, hu, hk, hdep, -, -, hpix, hids⟩ := loaded_tree hv h8 hsec hcol hmodes hpr hts r hd grow dec m hlen _ ht
  obtain ⟨st, picture, e1, -⟩ := C82_render_paints_the_layers grow dec m layers hdep hu hk tree.scene.canvas tree.scene.mask fuel hfu diff aborted visited hnd dest
  refine ⟨st, picture, hsc ▸ e1, fun x y hx hy hpt hgrey => ?_⟩
  obtain ⟨st', picture', e2, key⟩ := C130_grey_stays_grey grow dec m layers hdep hu hk tree.scene.canvas tree.scene.mask (tilePt ts x y) (tileIx ts x y) (fun id q hq ha => by
    obtain ⟨k, l, rfl, hl⟩ := hids id (fun h => by rw [h] at hq; cases hq)
    have h := (hpix k l hl x y hx hy).1
    rw [hq] at h
    exact hgrey l (List.mem_of_getElem? hl) _ ((pixel_of_colour h).resolve_left ha)) fuel hfu diff aborted visited hnd hpt dest
  rw [e1] at e2
  cases e2
  exact key

theorem file_modes {Q : Mode → Prop} (hl : ¬Q (.sep .linearDodge)) {l : Layer} (k : Nat) (h : l.BlendIn Q) :
    ((layerFull 3 8 k l).folder = false → (∃ m, blendMode l.blend = some m ∧ Q m) ∨ l.blend = ascii "pass") ∧
    ((layerFull 3 8 k l).folder = true → (∃ m, blendMode l.folderBlend = some m ∧ Q m) ∨ l.folderBlend = ascii "pass") := by
  have hfold : (layerFull 3 8 k l).folder = true ↔ l.kind = 1 ∨ l.kind = 2 := by
    show (l.kind == 1 || l.kind == 2) = true ↔ _
    simp
  have hkey : ∀ key : List UInt8, (∃ m, key = ascii (modeKey m) ∧ Q m) → ∃ m, blendMode key = some m ∧ Q m := by
    rintro key ⟨m, h1, h2⟩
    exact ⟨m, (C67_keys_of_modes _ _).2 ⟨h1, fun e => hl (e ▸ h2)⟩, h2⟩
  unfold Layer.BlendIn at h
  refine ⟨fun hf => ?_, fun hf => ?_⟩
  · rw [if_neg (fun hc => by rw [hfold.2 hc] at hf; cases hf)] at h
    exact h.imp_left (hkey _)
  · rw [if_pos (hfold.1 hf)] at h
    exact h.imp_left (hkey _)

theorem veil_off {l : Layer} {x y : Int} (h : ¬(l.mask.box.left < l.mask.box.right ∧ l.mask.box.top < l.mask.box.bottom)) : l.veil x y = 0 := by
  unfold Layer.veil Layer.sample
  rw [if_neg (by
    rintro ⟨h1, h2, h3, h4⟩
    apply h
    change l.mask.box.left ≤ x at h1
    change x < l.mask.box.right at h2
    change l.mask.box.top ≤ y at h3
    change y < l.mask.box.bottom at h4
    omega)]

/-- **C133** (for files, in part) The picture is not brighter than its brightest layer. Take the file of C134, whose blend modes never give more than the brighter of layer and backdrop: at every pixel where no layer of the
file has more than `N` in a channel, every first rendering shows at most `N`.

Missing: grey values of masks on pixels that are partly transparent, or on folders (`C133_soft_mask_brightens`). -/
theorem C133_not_brighter_file_partial {env : Env} {d : Doc} (hp : env.Reads d) (hv : d.Valid) (hm : d.header.mode = 3) (h8 : d.header.depth = 8)
    {sec : LayerSection} (hsec : d.sections = [sec]) (hcol : ∀ l ∈ sec.layers, l.Rgb) (hmodes : ∀ l ∈ sec.layers, l.ModeKnown) (hdim : ∀ l ∈ sec.layers, l.BlendIn Mode.Dimming)
    {s : St} (hs : PresentsFront d s) :
    ∃ psd n s', decode env newOptions s = .ok ((psd, n), s') ∧ buildTree LayerRec.sdType (rgbLayers sec.layers) = .ok psd.layer ∧
      ∀ procs ts workers : Nat, 1 ≤ procs → 1 ≤ ts → 1 ≤ workers →
        ∀ t, ImportRun procs ts (Import.start workers (rgbLayers sec.layers)) t → t.Done →
          ∀ grow dec m, sec.layers.length ≤ m → ∃ tree, finishNew grow dec m psd.config.rect t = .ok tree ∧
            ∀ fuel, 2 * m ≤ fuel → ∀ (diff aborted : Bool) (visited : List TPt), visited.Nodup → ∀ dest : TPt → Tile,
              ∃ st picture, render tileOps tree.scene fuel diff aborted visited .empty dest = .ok (st, picture) ∧
                ∀ x y, 0 ≤ x → 0 ≤ y → tilePt ts x y ∈ visited → (∀ l ∈ sec.layers, l.MaskHardAt x y) →
                  ∀ (c : Primary) (N : Nat), (∀ l ∈ sec.layers, ∀ q, l.colour x y = some q → (q.chan c).toNat ≤ N) →
                    ((picture (tilePt ts x y) (tileIx ts x y)).chan c).toNat ≤ N := by
  obtain ⟨psd, n, s', h1, -, h2, -⟩ := decode_new hp hv hm h8 hsec hs
  refine ⟨psd, n, s', h1, h2, fun procs ts workers hpr hts hw t r hd grow dec m hlen => ?_⟩
  obtain ⟨tree, ht⟩ := ((load_new hv h8 hsec hcol hpr hts hw).1 t r).2.2 hd grow dec m psd.config.rect
  refine ⟨tree, ht, fun fuel hfu diff aborted visited hnd dest => ?_⟩
  obtain ⟨layers, hsc, hu, hk, hdep, hbare, hall, hpix, hids⟩ := loaded_tree hv h8 hsec hcol hmodes hpr hts r hd grow dec m hlen _ ht
  obtain ⟨st, picture, e1, -⟩ := C82_render_paints_the_layers grow dec m layers hdep hu hk tree.scene.canvas tree.scene.mask fuel hfu diff aborted visited hnd dest
  refine ⟨st, picture, hsc ▸ e1, fun x y hx hy hpt hhard c N hN => ?_⟩
  have hmd : ModesIn Mode.Dimming layers := fun π r' kids e => by
    obtain ⟨k, l, rect, mr, g1, -, rfl⟩ := hall π r' kids e
    exact file_modes (Q := Mode.Dimming) (fun h => by cases h) k (hdim l (List.mem_of_getElem? g1))
  have hmh : MasksHard layers tree.scene.canvas tree.scene.mask (tilePt ts x y) (tileIx ts x y) := fun π r' kids e he v hv => by
    obtain ⟨k, l, rect, mr, g1, g2, rfl⟩ := hall π r' kids e
    obtain ⟨g3, g4⟩ := hpix k l g1 x y hx hy
    rw [show (tree.scene.mask k).lookup (tilePt ts x y) = some v from hv] at g4
    have g5 : v (tileIx ts x y) = l.veil x y := g4.2
    rw [g5]
    by_cases hbox : l.mask.box.left < l.mask.box.right ∧ l.mask.box.top < l.mask.box.bottom
    · refine (hhard l (List.mem_of_getElem? g1) ⟨hbox.1, hbox.2, (maskMeaning_enabled _).1 he⟩).imp_right (Or.imp_right fun ⟨n1, n2, n3⟩ => ⟨?_, fun p hpic => ?_⟩)
      · by_contra hk
        rcases g2 hk with h | h
        · exact n1 h
        · exact n2 h
      · rw [show (tree.scene.canvas k).bind (·.lookup (tilePt ts x y)) = some p from hpic] at g3
        exact (pixel_of_colour g3).imp_right (n3 _)
    · exact .inl (veil_off hbox)
  obtain ⟨st', picture', e2, key⟩ := C133_not_brighter_partial c N grow dec m layers hdep hu hk hmd tree.scene.canvas tree.scene.mask hbare (tilePt ts x y) (tileIx ts x y) hmh (fun id q hq ha => by
    obtain ⟨k, l, rfl, hl⟩ := hids id (fun h => by rw [h] at hq; cases hq)
    have h := (hpix k l hl x y hx hy).1
    rw [hq] at h
    exact hN l (List.mem_of_getElem? hl) _ ((pixel_of_colour h).resolve_left ha)) fuel hfu diff aborted visited hnd hpt dest
  rw [e1] at e2
  cases e2
  exact key

/-! ### Non-vacuity -/

/-- The layers of a file: the lower one in "multiply" mode with a mask of 0 and 9, the upper one with a transparent and an opaque pixel. They are grey. -/
def exGreyUnder : Layer := exUnder (.raw [1, 100] []) (.raw [1, 100] []) (.raw [1, 100] []) (.raw [0, 9] [])
def exGreyOver : Layer := exOver (.raw [255, 0, 77] []) (.raw [10, 20, 30] []) (.raw [10, 50, 30] []) (.raw [10, 8, 30] [])
def exGreyDoc : Doc where
  header := { version := 1, channels := 3, height := 1, width := 2, depth := 8, mode := 3, colorData := [] }
  resources := []
  layerMask := some ⟨some { forest := [.layer exGreyUnder, .layer exGreyOver] }, .none []⟩
  merged := .raw (List.replicate 6 0) []

/-- It meets the hypotheses of `C134_grey_file` and `C133_not_brighter_file_partial` at both pixels of the canvas, with 1 and 100 as the bounds. -/
example : exGreyDoc.Valid ∧ exZipEnv.Reads exGreyDoc ∧ Presents exGreyDoc { data := exGreyDoc.bytes } ∧
    ∃ sec, exGreyDoc.sections = [sec] ∧ (∀ l ∈ sec.layers, l.Rgb ∧ l.ModeKnown ∧ l.MaskVaries ∧ l.BlendIn Mode.Dimming ∧ l.MaskHardAt 0 0 ∧ l.MaskHardAt 1 0) ∧
      sec.layers.map (fun l => (l.colour 0 0, l.colour 1 0, l.veil 1 0)) = [(some ⟨1, 1, 1, 255⟩, some ⟨100, 100, 100, 255⟩, 9), (none, some ⟨30, 30, 30, 77⟩, 0)] := by
  refine ⟨by decide +kernel, by decide +kernel, ⟨⟨[], by simp⟩, rfl, by decide, ?_⟩, _, rfl, ?_, by decide +kernel⟩
  · have : exGreyDoc.bytes.length < 2000 := by decide +kernel
    simp only; omega
  · intro l hl
    have hl : l ∈ [exGreyUnder, exGreyOver] := hl
    simp only [List.mem_cons, List.not_mem_nil, or_false] at hl
    rcases hl with rfl | rfl
    · refine ⟨fun _ _ _ => by decide, ?_, fun _ _ => ⟨1, 0, 9, by decide, by decide, by decide, by decide⟩, ?_, fun _ => .inl (by decide), fun _ => .inr (.inr ⟨by decide, by decide, ?_⟩)⟩
      · unfold Layer.ModeKnown
        rw [if_neg (by decide)]
        exact .inl ⟨.sep .multiply, by decide⟩
      · unfold Layer.BlendIn
        rw [if_neg (by decide)]
        exact .inl ⟨.sep .multiply, by decide, rfl⟩
      · intro q hq
        rw [show exGreyUnder.colour 1 0 = some ⟨100, 100, 100, 255⟩ by decide] at hq
        cases hq
        rfl
    · refine ⟨fun _ _ _ => by decide, ?_, fun h => absurd h (by decide), ?_, fun h => absurd h (by decide), fun h => absurd h (by decide)⟩
      · unfold Layer.ModeKnown
        rw [if_neg (by decide)]
        exact .inl ⟨.sep .normal, by decide⟩
      · unfold Layer.BlendIn
        rw [if_neg (by decide)]
        exact .inl ⟨.sep .normal, by decide, rfl⟩

end Psd
