import Verif.Lemmas.FilePicture
import Verif.Props.Front

/-
C102, C103: from the bytes of a file to the picture.
-/

namespace Psd
open Spec (Box MaskSpec Picture Layer LayerSection LayerMask Doc DocBlock Trailer Node recordsAll numberAll mapAll
  WellTypedAll modeColors rowLen)

/-- Decoding a document for `New`. -/
theorem decode_new {env : Env} {d : Doc} (hp : env.Reads d) (hv : d.Valid) (hm : d.header.mode = 3) (h8 : d.header.depth = 8)
    {sec : LayerSection} (hsec : d.sections = [sec]) {s : St} (hs : PresentsFront d s) :
    ∃ psd n s', decode env newOptions s = .ok ((psd, n), s') ∧ psd.config.rect = ⟨0, 0, d.header.width, d.header.height⟩ ∧
      buildTree LayerRec.sdType (rgbLayers sec.layers) = .ok psd.layer ∧
      s'.log = s.log ++ (List.range sec.layers.length).map fun j => ⟨j, j, sec.layers.length⟩ := by
  have ho : newOptions.rejects (configMeaning d) = false := by
    show decide (d.header.mode ≠ 3) = false
    rw [hm]; rfl
  obtain ⟨s', h, -, h2⟩ := C108_any_merged_picture hp hv ho rfl hs
  refine ⟨_, _, s', h, rfl, ?_, ?_⟩
  · have ht := tree_ok false (modeColors d.header.mode) d.header.depth d.sections
      (fun sec hsec => (section_valid hv hsec).2.1)
    rw [hsec, hm, h8] at ht
    simp only [List.flatMap_cons, List.flatMap_nil, List.append_nil] at ht
    rw [rgbLayers_eq]
    show _ = Res.ok (treeMeaning false (modeColors d.header.mode) d.header.depth d.sections)
    rw [hsec, hm, h8, ← ht]
    rfl
  · rw [h2]
    show s.log ++ eventsMeaning d.sections = _
    rw [hsec]
    unfold eventsMeaning
    simp

/-- Every execution of the loading on its layers can be finished without a panic, and gives a tree. -/
theorem load_new {d : Doc} (hv : d.Valid) (h8 : d.header.depth = 8)
    {sec : LayerSection} (hsec : d.sections = [sec]) (hcol : ∀ l ∈ sec.layers, l.Rgb) {procs ts workers : Nat} (hpr : 1 ≤ procs) (hts : 1 ≤ ts)
    (hw : 1 ≤ workers) :
    (∀ t, ImportRun procs ts (Import.start workers (rgbLayers sec.layers)) t →
      ¬t.Crashes procs ts ∧ ((¬∃ u, ImportStep procs ts t u) → t.Done) ∧
      (t.Done → ∀ grow dec n docRect, ∃ tree, finishNew grow dec n docRect t = .ok tree)) ∧
    ¬∃ f : Nat → Import, f 0 = Import.start workers (rgbLayers sec.layers) ∧ ∀ i, ImportStep procs ts (f i) (f (i + 1)) := by
  have hsv := section_valid hv (hsec ▸ List.mem_singleton_self sec : sec ∈ d.sections)
  have hn := rgbLayers_seq sec.layers
  obtain ⟨e1, e2⟩ := C75_ends (procs := procs) (ts := ts) hn hw
  refine ⟨fun t r => ?_, e2⟩
  have hc : ¬t.Crashes procs ts := by
    refine (reach_inv hn r).no_crash fun l hl' => ?_
    obtain ⟨i, l, hl, rfl⟩ := mem_rgbLayers hl'
    obtain ⟨v1, v2, -⟩ := hsv.2.2.1 l hl
    rw [h8] at v2
    exact loads hpr hts (coloured_of_rgb (hcol l hl) i) (filled_of_valid v1 v2 i)
  refine ⟨hc, fun hst => (e1 t r hst).resolve_right hc, fun hd grow dec n docRect => ?_⟩
  have ht := tree_ok false 3 8 [sec] (fun s hs => by rw [List.mem_singleton] at hs; subst hs; exact hsv.2.1)
  simp only [List.flatMap_cons, List.flatMap_nil, List.append_nil] at ht
  rw [← rgbLayers_eq] at ht
  obtain ⟨h1, h2⟩ := C76_copies_partial hn r hd
  have htypes : (rgbLayers sec.layers).map LayerRec.sdType = t.copied.map LayerRec.sdType := by
    apply List.ext_getElem?
    intro i
    rw [List.getElem?_map, List.getElem?_map]
    cases hi : (rgbLayers sec.layers)[i]? with
    | none =>
      rw [List.getElem?_eq_none (by rw [List.getElem?_eq_none_iff] at hi; omega)]
    | some l =>
      obtain ⟨img, rect, mr, -, b, -⟩ := h2 i l hi
      rw [b]
      rfl
  obtain ⟨tree, he⟩ := buildTreeLoop_types _ _ _ _ htypes [] [] [] [] rfl ⟨_, ht⟩
  unfold finishNew buildTree
  rw [he]
  exact ⟨_, rfl⟩

/-- **C102** From the bytes to the picture. Take a well-formed 8-bit RGB file whose layers are in one section and have pictures with red, green and blue and
known blend modes, and whose topmost layer is plain. Whatever reader presents it, whatever is in the place of its merged picture, and whatever the number of processors and goroutines, the tile size and
the schedule: decoding succeeds; the loading ends, without a panic; and every rendering of the tree shows, at every pixel of the topmost layer that is on the
canvas and opaque in the file, the file's red, green and blue. -/
theorem C102_file_to_picture {env : Env} {d : Doc} (hp : env.Reads d) (hv : d.Valid) (hm : d.header.mode = 3) (h8 : d.header.depth = 8)
    {sec : LayerSection} (hsec : d.sections = [sec]) (hcol : ∀ l ∈ sec.layers, l.Rgb) (hmodes : ∀ l ∈ sec.layers, l.ModeKnown)
    {below : List Layer} {top : Layer} (htop : sec.layers = below ++ [top]) (hl : top.Plain) {s : St} (hs : PresentsFront d s) :
    ∃ psd n s', decode env newOptions s = .ok ((psd, n), s') ∧ buildTree LayerRec.sdType (rgbLayers sec.layers) = .ok psd.layer ∧
      s'.log = s.log ++ (List.range sec.layers.length).map (fun j => ⟨j, j, sec.layers.length⟩) ∧
      ∀ procs ts workers : Nat, 1 ≤ procs → 1 ≤ ts → 1 ≤ workers →
        (¬∃ f : Nat → Import, f 0 = Import.start workers (rgbLayers sec.layers) ∧ ∀ i, ImportStep procs ts (f i) (f (i + 1))) ∧
        ∀ t, ImportRun procs ts (Import.start workers (rgbLayers sec.layers)) t →
          ¬t.Crashes procs ts ∧ ((¬∃ u, ImportStep procs ts t u) → t.Done) ∧
          (t.Done → ∀ grow dec m, sec.layers.length ≤ m → ∃ tree, finishNew grow dec m psd.config.rect t = .ok tree ∧
            ∀ x y r g b, 0 ≤ x → 0 ≤ y → top.sample 0 x y = some r → top.sample 1 x y = some g → top.sample 2 x y = some b →
              (top.lastChannel (-1) = none ∨ top.sample (-1) x y = some 255) →
              ∀ fuel, 2 * m ≤ fuel → ∀ (diff aborted : Bool) (visited : List TPt), visited.Nodup → tilePt ts x y ∈ visited → ∀ dest : TPt → Tile,
                ∃ st picture, render tileOps tree.scene fuel diff aborted visited .empty dest = .ok (st, picture) ∧
                  picture (tilePt ts x y) (tileIx ts x y) = ⟨r, g, b, 255⟩) := by
  obtain ⟨psd, n, s', h1, -, h3, h4⟩ := decode_new hp hv hm h8 hsec hs
  refine ⟨psd, n, s', h1, h3, h4, fun procs ts workers hpr hts hw => ?_⟩
  obtain ⟨a, b⟩ := load_new hv h8 hsec hcol hpr hts hw
  refine ⟨b, fun t r => ⟨(a t r).1, (a t r).2.1, fun hd grow dec m hlen => ?_⟩⟩
  obtain ⟨tree, ht⟩ := (a t r).2.2 hd grow dec m psd.config.rect
  refine ⟨tree, ht, fun x y vr vg vb hx hy sr sg sb sa fuel hfu diff aborted visited hnd hpt dest => ?_⟩
  have hsv := section_valid hv (hsec ▸ List.mem_singleton_self sec : sec ∈ d.sections)
  have hmem : top ∈ sec.layers := by rw [htop]; simp
  obtain ⟨v1, v2, -⟩ := hsv.2.2.1 top hmem
  rw [h8] at v2
  have hflat : rgbLayers sec.layers = rgbLayers below ++ [layerFull 3 8 below.length top] := by
    rw [htop]
    unfold rgbLayers
    rw [List.zipIdx_append, List.map_append]
    simp [List.zipIdx_cons]
  have hbox : ∀ id : Int, id ≠ -2 → id ≠ -3 → top.boxOf id = top.rect := fun id h h' => by
    unfold Layer.boxOf
    rw [if_neg h, if_neg h']
  have hdata : ∀ (id : Int) (v : UInt8), id ≠ -2 → id ≠ -3 → top.sample id x y = some v →
      (rectOf top.rect).Mem x y ∧ (∃ c, (layerFull 3 8 below.length top).channel id = some c ∧ channelAt (rectOf top.rect) 1 c.data x y = v) := by
    intro id v g1 g2 h
    obtain ⟨h1, p, h2, h3⟩ := sample_channelAt h
    rw [hbox id g1 g2] at h1 h3
    obtain ⟨c, h4, h5⟩ := layerFull_channel below.length h2
    exact ⟨h1, c, h4, by rw [h5]; exact h3⟩
  obtain ⟨hmem', c0, d0, e0⟩ := hdata 0 vr (by decide) (by decide) sr
  obtain ⟨-, c1, d1, e1⟩ := hdata 1 vg (by decide) (by decide) sg
  obtain ⟨-, c2, d2, e2⟩ := hdata 2 vb (by decide) (by decide) sb
  obtain ⟨st, im, f1, f2⟩ := C89_top_layer_of_file_shows grow dec hpr hts (rgbLayers_seq sec.layers)
    (fun l hl' => by obtain ⟨i, l, hl, rfl⟩ := mem_rgbLayers hl'; exact known_of_spec (hmodes l hl) i) hflat (solid_of_plain hl _)
    (by show decide (top.clipping ≠ 0) = false; rw [hl.clipping]; rfl) (by show top.kind ≠ 3; rw [hl.kind]; decide)
    ⟨by show (top.kind == 0) = true; rw [hl.kind]; rfl, by
      have : (rectOf top.rect).empty = false := by
        unfold Rect.Mem at hmem'
        unfold Rect.empty
        simp only [Bool.or_eq_false_iff, decide_eq_false_iff_not, not_le, ge_iff_le]
        omega
      exact this⟩ (coloured_of_rgb (hcol top hmem) _) (filled_of_valid v1 v2 _) r hd m (by rw [rgbLayers_length]; exact hlen) psd.config.rect ht x y
    (Rect.keeps_of_canvas hmem' hx hy) (by
      intro c hc
      rcases sa with sa | sa
      · have : (top.lastChannel (-1)).map _ = some c := hc
        rw [sa] at this
        cases this
      · obtain ⟨-, c', h1, h2⟩ := hdata (-1) 255 (by decide) (by decide) sa
        rw [hc] at h1
        cases h1
        exact h2) fuel hfu diff aborted visited hnd hpt dest
  refine ⟨st, im, f1, ?_⟩
  rw [f2]
  have k : ∀ (id : Int) c, (layerFull 3 8 below.length top).channel id = some c → (layerFull 3 8 below.length top).dataOf id = c.data := by
    intro id c h
    unfold LayerRec.dataOf
    rw [h]
  rw [k 0 c0 d0, k 1 c1 d1, k 2 c2 d2]
  exact congr (congr (congrArg₂ Px.mk e0 e1) e2) rfl

/-- **C103** (in part) Only the contents of a file matter for its picture: two well-formed 8-bit RGB files with the same contents, whatever their version, compression, padding and so on,
are loaded into trees that are rendered alike, whatever the readers and the schedules of the loading. With one file instead of two: the picture is a function of the file.

Missing: files with a mask in effect that has its default colour everywhere on the canvas (`C90_uniform_mask_by_chance`). -/
theorem C103_same_contents_same_picture_partial {env : Env} {d₁ d₂ : Doc} (h : d₁.content = d₂.content) (hp₁ : env.Reads d₁) (hp₂ : env.Reads d₂) (hv₁ : d₁.Valid) (hv₂ : d₂.Valid)
    (hm : d₁.header.mode = 3) (h8 : d₁.header.depth = 8) {sec : LayerSection} (hsec : d₁.sections = [sec]) (hcol : ∀ l ∈ sec.layers, l.Rgb) (hmask : ∀ l ∈ sec.layers, l.MaskVaries)
    {s₁ s₂ : St} (hs₁ : PresentsFront d₁ s₁) (hs₂ : PresentsFront d₂ s₂) :
    ∃ sec₂ psd₁ n₁ s₁' psd₂ n₂ s₂', d₂.sections = [sec₂] ∧ decode env newOptions s₁ = .ok ((psd₁, n₁), s₁') ∧ decode env newOptions s₂ = .ok ((psd₂, n₂), s₂') ∧
      buildTree LayerRec.sdType (rgbLayers sec.layers) = .ok psd₁.layer ∧ buildTree LayerRec.sdType (rgbLayers sec₂.layers) = .ok psd₂.layer ∧
      ∀ procs ts w₁ w₂ : Nat, 1 ≤ procs → 1 ≤ ts → 1 ≤ w₁ → 1 ≤ w₂ → ∀ t₁ t₂, ImportRun procs ts (Import.start w₁ (rgbLayers sec.layers)) t₁ → ImportRun procs ts (Import.start w₂ (rgbLayers sec₂.layers)) t₂ →
        t₁.Done → t₂.Done → ∀ grow dec m, ∃ tree₁ tree₂, finishNew grow dec m psd₁.config.rect t₁ = .ok tree₁ ∧ finishNew grow dec m psd₂.config.rect t₂ = .ok tree₂ ∧
          tree₁.scene = tree₂.scene ∧ tree₁.canvasRect = tree₂.canvasRect := by
  have hlay : (d₁.sections.map fun s => mapAll Layer.content s.forest) = d₂.sections.map fun s => mapAll Layer.content s.forest := congrArg Spec.Content.layers h
  have hm₂ : d₂.header.mode = 3 := by rw [← hm]; exact (congrArg Spec.Content.mode h).symm
  have h8₂ : d₂.header.depth = 8 := by rw [← h8]; exact (congrArg Spec.Content.depth h).symm
  have hw : d₁.header.width = d₂.header.width := congrArg Spec.Content.width h
  have hh : d₁.header.height = d₂.header.height := congrArg Spec.Content.height h
  rw [hsec] at hlay
  obtain ⟨sec₂, hsec₂, he⟩ : ∃ sec₂, d₂.sections = [sec₂] ∧ mapAll Layer.content sec.forest = mapAll Layer.content sec₂.forest := by
    cases hd : d₂.sections with
    | nil => rw [hd] at hlay; cases hlay
    | cons a as =>
      cases as with
      | nil => rw [hd] at hlay; exact ⟨a, rfl, by simpa using hlay⟩
      | cons b bs => rw [hd] at hlay; simp at hlay
  have hflat : rgbLayers sec.layers = rgbLayers sec₂.layers := rgbLayers_content he
  obtain ⟨psd₁, n₁, s₁', a1, a2, a3, -⟩ := decode_new hp₁ hv₁ hm h8 hsec hs₁
  obtain ⟨psd₂, n₂, s₂', b1, b2, b3, -⟩ := decode_new hp₂ hv₂ hm₂ h8₂ hsec₂ hs₂
  refine ⟨sec₂, psd₁, n₁, s₁', psd₂, n₂, s₂', hsec₂, a1, b1, a3, b3, fun procs ts w₁ w₂ hpr hts hw₁ hw₂ t₁ t₂ r₁ r₂ d1 d2 grow dec m => ?_⟩
  have hrect : psd₁.config.rect = psd₂.config.rect := by rw [a2, b2, hw, hh]
  rw [← hflat] at r₂
  rw [← hrect]
  obtain ⟨tree₁, c1⟩ := ((load_new hv₁ h8 hsec hcol hpr hts hw₁).1 t₁ r₁).2.2 d1 grow dec m psd₁.config.rect
  obtain ⟨tree₂, c2⟩ := ((load_new hv₁ h8 hsec hcol hpr hts hw₂).1 t₂ r₂).2.2 d2 grow dec m psd₁.config.rect
  refine ⟨tree₁, tree₂, c1, c2, ?_, ?_⟩
  · have := C90_same_picture_partial grow dec hpr hts (rgbLayers_seq sec.layers) ?_ r₁ r₂ d1 d2 m psd₁.config.rect
    · rw [c1, c2] at this
      exact Res.ok.inj this
    · exact mask_varies hv₁ h8 hsec hmask
  · have canvas : ∀ (t : Import) (tree : LayerTree), finishNew grow dec m psd₁.config.rect t = .ok tree → tree.canvasRect = transformRect psd₁.config.rect Aff3.identity := by
      intro t tree ht
      unfold finishNew at ht
      obtain ⟨_, -, ht⟩ := Res.bind_eq_ok.1 ht
      injection ht with ht
      subst ht
      rfl
    rw [canvas _ _ c1, canvas _ _ c2]

/-! ### Examples -/

/-- The lower layer: "multiply", with a mask of 0 and 9; the upper one, one pixel to the left of the canvas, with a transparent and an opaque pixel. -/
def exUnder (a b c m : Picture) : Layer := { exFolder 0 with
  rect := ⟨0, 0, 1, 2⟩, blend := [109, 117, 108, 32], opacity := 100, mask := .short ⟨0, 0, 1, 2⟩ 0 0 0 0, channels := [(0, a), (1, b), (2, c), (-2, m)] }
def exOver (t a b c : Picture) : Layer := { exFolder 0 with rect := ⟨0, -1, 1, 2⟩, channels := [(-1, t), (0, a), (1, b), (2, c)] }

/-- A PSD file with the two layers, stored raw. -/
def exPairDoc : Doc where
  header := { version := 1, channels := 3, height := 1, width := 2, depth := 8, mode := 3, colorData := [] }
  resources := []
  layerMask := some ⟨some { forest := [.layer (exUnder (.raw [1, 2] []) (.raw [3, 4] []) (.raw [5, 6] []) (.raw [0, 9] [])),
    .layer (exOver (.raw [255, 0, 255] []) (.raw [10, 20, 30] []) (.raw [40, 50, 60] []) (.raw [7, 8, 9] []))] }, .none []⟩
  merged := .raw (List.replicate 6 0) []

/-- A PSB file with the same contents, compressed, and with other layer records around the same data. -/
def exPairPacked : Doc where
  header := { version := 2, channels := 3, height := 1, width := 2, depth := 8, mode := 3, colorData := [], reserved := [1, 2, 3, 4, 5, 6] }
  resources := []
  layerMask := some ⟨some { forest := [.layer { exUnder (.zip [1, 2] [1, 2]) (.raw [3, 4] []) (.rle [[.lit [5, 6]]] []) (.raw [0, 9] [1]) with ranges := [1, 2] },
    .layer (exOver (.raw [255, 0, 255] []) (.rle [[.lit [10, 20, 30]]] []) (.zip [40, 50, 60] [40, 50, 60]) (.raw [7, 8, 9] []))], negated := true }, .none [1, 2]⟩
  merged := .raw (List.replicate 6 0) []

/-- The two files meet the hypotheses of C102 and C103. The pixel (1, 0) of the upper layer is opaque, (0, 0) is not, and (-1, 0) is not on the canvas. -/
example : exPairDoc.Valid ∧ exPairPacked.Valid ∧ exZipEnv.Reads exPairDoc ∧ exZipEnv.Reads exPairPacked ∧ exPairDoc.content = exPairPacked.content ∧
    Presents exPairDoc { data := exPairDoc.bytes } ∧ Presents exPairPacked { data := exPairPacked.bytes, sched := [3, 7], kind := .seeker } ∧
    ∃ sec under over, exPairDoc.sections = [sec] ∧ sec.layers = [under] ++ [over] ∧ (∀ l ∈ sec.layers, l.Rgb ∧ l.ModeKnown ∧ l.MaskVaries) ∧ over.Plain ∧
      [0, 1, 2, -1].map (fun id => over.sample id 1 0) = [some 30, some 60, some 9, some 255] ∧ over.sample (-1) 0 0 = some 0 ∧ over.sample (-1) (-1) 0 = some 255 := by
  refine ⟨by decide +kernel, by decide +kernel, by decide +kernel, by decide +kernel, by rfl, ⟨⟨[], by simp⟩, rfl, by decide, ?_⟩, ⟨⟨[], by simp⟩, rfl, by decide, ?_⟩, _, _, _, rfl, rfl, ?_,
    ⟨rfl, by decide, rfl, rfl, rfl, by decide⟩, by decide, by decide, by decide⟩
  · have : exPairDoc.bytes.length < 2000 := by decide +kernel
    simp only; omega
  · have : exPairPacked.bytes.length < 2000 := by decide +kernel
    simp only; omega
  · intro l hl
    have hl : l ∈ [exUnder (.raw [1, 2] []) (.raw [3, 4] []) (.raw [5, 6] []) (.raw [0, 9] []), exOver (.raw [255, 0, 255] []) (.raw [10, 20, 30] []) (.raw [40, 50, 60] []) (.raw [7, 8, 9] [])] := hl
    simp only [List.mem_cons, List.not_mem_nil, or_false] at hl
    rcases hl with rfl | rfl
    · refine ⟨fun _ _ _ => by decide, ?_, fun _ _ => ⟨1, 0, 9, by decide, by decide, by decide, by decide⟩⟩
      unfold Layer.ModeKnown
      rw [if_neg (by decide)]
      exact .inl ⟨.sep .multiply, by decide⟩
    · refine ⟨fun _ _ _ => by decide, ?_, fun h => absurd h (by decide)⟩
      unfold Layer.ModeKnown
      rw [if_neg (by decide)]
      exact .inl ⟨.sep .normal, by decide⟩

/-- What the decoder makes of the bytes of the second file. -/
example : ((outcome (decode exZipEnv newOptions { data := exPairPacked.bytes })).map fun r => (postAll r.1.layer).map fun l => [-1, 0, 1, 2].map fun id => (l.channel id).map Channel.data) =
    .ok [[none, some [1, 2], some [3, 4], some [5, 6]], [some [255, 0, 255], some [10, 20, 30], some [40, 50, 60], some [7, 8, 9]]] := by
  decide +kernel

end Psd
