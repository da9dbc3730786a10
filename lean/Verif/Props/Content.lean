import Verif.Spec.Content
import Verif.Props.Document

/-
C100: only the contents of a file matter, not how they are written down.
-/

namespace Psd
open Spec (Box MaskSpec InfoBlock Picture Layer LayerSection LayerMask Doc DocBlock Trailer Node recordsAll numberAll
  mapAll WellTypedAll modeColors lastInfo lastBlock lmBytes rowLen num field)

theorem find_map {α β : Type} (f : α → β) (p : β → Bool) (q : α → Bool) (h : ∀ a, q a = p (f a)) : ∀ l : List α,
    (l.find? q).map f = (l.map f).find? p := by
  intro l
  induction l with
  | nil => rfl
  | cons a l ih =>
    rw [List.map_cons, List.find?_cons, List.find?_cons, h a]
    cases p (f a)
    · exact ih
    · rfl

theorem lastInfo_content {a b : List InfoBlock} (h : a.map InfoBlock.content = b.map InfoBlock.content) :
    lastInfo a = lastInfo b := by
  have key : ∀ (l : List InfoBlock) (k : List UInt8),
      lastInfo l k = (((l.map InfoBlock.content).reverse.find? fun c => c.1 = k)).map Prod.snd := by
    intro l k
    rw [← List.map_reverse, ← find_map InfoBlock.content _ (fun b => decide (b.key = k)) (fun b => rfl), Option.map_map]
    rfl
  funext k
  rw [key, key, h]

theorem lastBlock_content {a b : List Spec.ResBlock} (h : a.map Spec.ResBlock.content = b.map Spec.ResBlock.content)
    (id : Nat) : (lastBlock a id).map Spec.ResBlock.content = (lastBlock b id).map Spec.ResBlock.content := by
  have key : ∀ (l : List Spec.ResBlock),
      (lastBlock l id).map Spec.ResBlock.content = (l.map Spec.ResBlock.content).reverse.find? fun c => c.1 = id := by
    intro l
    rw [← List.map_reverse]
    exact find_map Spec.ResBlock.content (fun c => decide (c.1 = id)) (fun r => decide (r.id = id)) (fun b => rfl) _
  rw [key, key, h]

/-- A function of name and data of a block does not see the rest. -/
theorem lastBlock_map {α : Type} {a b : List Spec.ResBlock} (h : a.map Spec.ResBlock.content = b.map Spec.ResBlock.content)
    (id : Nat) (f : Spec.ResBlock → α) (g : Nat × List UInt8 × List UInt8 → α) (hf : ∀ r, f r = g r.content) :
    (lastBlock a id).map f = (lastBlock b id).map f := by
  have e : f = g ∘ Spec.ResBlock.content := funext hf
  have := congrArg (Option.map g) (lastBlock_content h id)
  rw [Option.map_map, Option.map_map] at this
  rw [e]
  exact this

/-! ### Layers -/

theorem mask_content {a b : MaskSpec} (h : a.content = b.content) :
    maskMeaning a = maskMeaning b ∧ a.box = b.box ∧ a.realBox = b.realBox := by
  cases a <;> cases b <;> simp only [MaskSpec.content, reduceCtorEq, MaskSpec.short.injEq, MaskSpec.full.injEq] at h
  · exact ⟨rfl, rfl, rfl⟩
  · obtain ⟨rfl, rfl, rfl, -⟩ := h; exact ⟨rfl, rfl, rfl⟩
  · obtain ⟨rfl, rfl, rfl, rfl, rfl, rfl, rfl⟩ := h; exact ⟨rfl, rfl, rfl⟩
  · cases h; exact ⟨rfl, rfl, rfl⟩

theorem lastChannel_content {a b : Layer} (h : a.content.channels = b.content.channels) (id : Int) :
    (a.lastChannel id).map Picture.plane = (b.lastChannel id).map Picture.plane := by
  have key : ∀ l : Layer, (l.lastChannel id).map Picture.plane =
      (l.content.channels.reverse.find? fun c => c.1 = id).map Prod.snd := by
    intro l
    unfold Layer.lastChannel
    simp only [Layer.content]
    rw [← List.map_reverse, ← find_map (fun c : Int × Picture => (c.1, c.2.plane)) _ (fun c => decide (c.1 = id)) (fun c => rfl),
      Option.map_map, Option.map_map]
    rfl
  rw [key, key, h]

theorem layer_content (i : Nat) {a b : Layer} (h : a.content = b.content) : layerMeaning i a = layerMeaning i b := by
  have hm := (mask_content (congrArg Spec.LayerContent.mask h)).1
  have hb : infosOf a.blocks = infosOf b.blocks := by
    unfold infosOf
    rw [lastInfo_content (congrArg Spec.LayerContent.blocks h)]
  have h1 : a.rect = b.rect := congrArg Spec.LayerContent.rect h
  have h2 : a.blend = b.blend := congrArg Spec.LayerContent.blend h
  have h3 : a.opacity = b.opacity := congrArg Spec.LayerContent.opacity h
  have h4 : (decide (a.clipping ≠ 0)) = decide (b.clipping ≠ 0) := congrArg Spec.LayerContent.clipping h
  have h5 : a.flags = b.flags := congrArg Spec.LayerContent.flags h
  have h6 : a.name = b.name := congrArg Spec.LayerContent.name h
  have h7 : a.unicode = b.unicode := congrArg Spec.LayerContent.unicode h
  have h8 : a.clbl = b.clbl := congrArg Spec.LayerContent.clbl h
  have h9 : a.divider = b.divider := congrArg Spec.LayerContent.divider h
  have h10 : a.kind = b.kind := by unfold Layer.kind; rw [h9]
  unfold layerMeaning
  rw [hm, hb, h1, h2, h3, h4, h5, h6, h7, h8, h9, h10]

theorem full_content (colors depth i : Nat) {a b : Layer} (h : a.content = b.content) :
    layerFull colors depth i a = layerFull colors depth i b := by
  have hc : a.content.channels = b.content.channels := by rw [h]
  have hr : a.rect = b.rect := congrArg Spec.LayerContent.rect h
  obtain ⟨-, hbox, hreal⟩ := mask_content (congrArg Spec.LayerContent.mask h)
  have hbx : ∀ id, a.boxOf id = b.boxOf id := by
    intro id; unfold Layer.boxOf; rw [hbox, hreal, hr]
  have e1 : channelsMeaning depth a = channelsMeaning depth b := by
    funext id
    have := lastChannel_content hc id
    unfold channelsMeaning
    rw [hbx]
    cases ha : a.lastChannel id <;> cases hb : b.lastChannel id <;> rw [ha, hb] at this <;>
      simp only [Option.map_some, Option.map_none, reduceCtorEq, Option.some.injEq] at this ⊢
    rw [this]
  have e2 : (a.channels.any fun c => c.1 = -1) = (b.channels.any fun c => c.1 = -1) := by
    have := congrArg (fun l : List (Int × List UInt8) => l.any fun c => c.1 = -1) hc
    simp only [Layer.content, List.any_map] at this
    exact this
  have e3 : (a.channels.filter fun c => c.1 = -1).map (fun c => c.2.plane) =
      (b.channels.filter fun c => c.1 = -1).map fun c => c.2.plane := by
    have := congrArg (fun l : List (Int × List UInt8) => (l.filter fun c => c.1 = -1).map Prod.snd) hc
    simp only [Layer.content, List.filter_map, List.map_map] at this
    exact this
  have e4 : pictureMeaning colors depth a = pictureMeaning colors depth b := by
    unfold pictureMeaning
    rw [e2, e3, hr]
    congr 2
    apply List.map_congr_left
    intro j _
    have := lastChannel_content hc j
    cases ha : a.lastChannel j <;> cases hb : b.lastChannel j <;> rw [ha, hb] at this <;>
      simp only [Option.map_some, Option.map_none, reduceCtorEq, Option.some.injEq] at this ⊢
    exact this
  unfold layerFull
  rw [layer_content i h, e1, e4]

/-! ### Forests -/

mutual
theorem node_content {β γ : Type} (c : Layer → γ) (f : Nat × Layer → β)
    (h : ∀ i a b, c a = c b → f (i, a) = f (i, b)) : ∀ (x y : Node Layer) (i : Nat), x.map c = y.map c →
    (x.number i).map f = (y.number i).map f ∧ x.records.length = y.records.length
  | .layer a, .layer b, i, e => by
    simp only [Node.map, Node.layer.injEq] at e
    simp [Spec.Node.number, Node.map, Node.records, h i a b e]
  | .layer a, .folder d kids b, i, e => by simp [Node.map] at e
  | .folder d kids b, .layer a, i, e => by simp [Node.map] at e
  | .folder d kids a, .folder d' kids' a', i, e => by
    simp only [Node.map, Node.folder.injEq] at e
    obtain ⟨e1, e2, e3⟩ := e
    obtain ⟨h1, h2⟩ := forest_content c f h kids kids' (i + 1) e2
    simp [Spec.Node.number, Node.map, Node.records, h _ _ _ e1, h _ _ _ e3, h1, h2]

theorem forest_content {β γ : Type} (c : Layer → γ) (f : Nat × Layer → β)
    (h : ∀ i a b, c a = c b → f (i, a) = f (i, b)) : ∀ (x y : List (Node Layer)) (i : Nat), mapAll c x = mapAll c y →
    mapAll f (numberAll i x) = mapAll f (numberAll i y) ∧ (recordsAll x).length = (recordsAll y).length
  | [], [], i, e => ⟨rfl, rfl⟩
  | [], b :: y, i, e => by simp [mapAll] at e
  | a :: x, [], i, e => by simp [mapAll] at e
  | a :: x, b :: y, i, e => by
    simp only [mapAll, List.cons.injEq] at e
    obtain ⟨h1, h2⟩ := node_content c f h a b i e.1
    obtain ⟨h3, h4⟩ := forest_content c f h x y (i + a.records.length) e.2
    rw [h2] at h3
    simp [numberAll, mapAll, recordsAll, h1, h2, h3, h4]
end

theorem sections_content {a b : List LayerSection}
    (h : (a.map fun s => mapAll Layer.content s.forest) = b.map fun s => mapAll Layer.content s.forest) :
    (∀ skip colors depth, treeMeaning skip colors depth a = treeMeaning skip colors depth b) ∧
      eventsMeaning a = eventsMeaning b := by
  have hf : ∀ skip colors depth, ∀ (i : Nat) (a b : Layer), a.content = b.content →
      (fun p : Nat × Layer => if skip = true then layerMeaning p.1 p.2 else layerFull colors depth p.1 p.2) (i, a) =
      (fun p : Nat × Layer => if skip = true then layerMeaning p.1 p.2 else layerFull colors depth p.1 p.2) (i, b) := by
    intro skip colors depth i a b e
    simp only [layer_content i e, full_content colors depth i e]
  induction a generalizing b with
  | nil =>
    cases b with
    | nil => exact ⟨fun _ _ _ => rfl, rfl⟩
    | cons _ _ => simp at h
  | cons s a ih =>
    cases b with
    | nil => simp at h
    | cons t b =>
      simp only [List.map_cons, List.cons.injEq] at h
      obtain ⟨h1, h2⟩ := ih h.2
      constructor
      · intro skip colors depth
        have e1 := (forest_content Layer.content (fun p : Nat × Layer => if skip = true then layerMeaning p.1 p.2 else layerFull colors depth p.1 p.2)
          (hf skip colors depth) s.forest t.forest 0 h.1).1
        have e2 : ∀ ss : List LayerSection, treeMeaning skip colors depth ss = treesOf (ss.flatMap fun s => mapAll
          (fun p : Nat × Layer => if skip then layerMeaning p.1 p.2 else layerFull colors depth p.1 p.2)
          (numberAll 0 s.forest)) := fun _ => rfl
        have e3 := h1 skip colors depth
        rw [e2, e2] at e3 ⊢
        rw [List.flatMap_cons, List.flatMap_cons, e1, treesOf_append, treesOf_append, e3]
      · have e1 : s.layers.length = t.layers.length :=
          (forest_content Layer.content (fun p : Nat × Layer => if true = true then layerMeaning p.1 p.2 else layerFull 0 0 p.1 p.2)
            (hf true 0 0) s.forest t.forest 0 h.1).2
        unfold eventsMeaning at h2 ⊢
        rw [List.flatMap_cons, List.flatMap_cons, e1, h2]

/-! ### Documents -/

theorem config_content {a b : Doc} (h : a.content = b.content) :
    configMeaning b = { configMeaning a with version := b.header.version } := by
  have hr : a.resources.map Spec.ResBlock.content = b.resources.map Spec.ResBlock.content :=
    congrArg Spec.Content.resources h
  have h1 : a.header.channels = b.header.channels := congrArg Spec.Content.channels h
  have h2 : a.header.height = b.header.height := congrArg Spec.Content.height h
  have h3 : a.header.width = b.header.width := congrArg Spec.Content.width h
  have h4 : a.header.depth = b.header.depth := congrArg Spec.Content.depth h
  have h5 : a.header.mode = b.header.mode := congrArg Spec.Content.mode h
  have h6 : a.header.colorData = b.header.colorData := congrArg Spec.Content.colorData h
  unfold configMeaning
  simp only [h1, h2, h3, h4, h5, h6]
  congr 1
  funext id
  exact (lastBlock_map hr id (fun r => (⟨r.name, r.data⟩ : ImageResource)) (fun c => ⟨c.2.1, c.2.2⟩) fun r => rfl).symm

theorem alpha_content {a b : Doc} (h : a.content = b.content) : a.alpha = b.alpha := by
  have hr : a.resources.map Spec.ResBlock.content = b.resources.map Spec.ResBlock.content :=
    congrArg Spec.Content.resources h
  have h1 : a.header.channels = b.header.channels := congrArg Spec.Content.channels h
  have h5 : a.header.mode = b.header.mode := congrArg Spec.Content.mode h
  have key : ∀ d : Doc, d.alpha = (decide (modeColors d.header.mode < d.header.channels) &&
      (((lastBlock d.resources 0x41D).map fun r => decide (∃ i < r.data.length / 4, num (field r.data (4 * i) 4) = 0)).getD true)) := by
    intro d
    unfold Doc.alpha
    cases lastBlock d.resources 0x41D <;> rfl
  rw [key, key, h1, h5,
    lastBlock_map hr 0x41D (fun r => decide (∃ i < r.data.length / 4, num (field r.data (4 * i) 4) = 0)) (fun c => decide (∃ i < c.2.2.length / 4, num (field c.2.2 (4 * i) 4) = 0)) fun r => rfl]

theorem doc_content {a b : Doc} (h : a.content = b.content) (skipL skipM : Bool) :
    docMeaning skipL skipM b =
      { docMeaning skipL skipM a with config := { (docMeaning skipL skipM a).config with version := b.header.version } } := by
  have hr : a.resources.map Spec.ResBlock.content = b.resources.map Spec.ResBlock.content :=
    congrArg Spec.Content.resources h
  have h1 : a.header.channels = b.header.channels := congrArg Spec.Content.channels h
  have h2 : a.header.height = b.header.height := congrArg Spec.Content.height h
  have h3 : a.header.width = b.header.width := congrArg Spec.Content.width h
  have h4 : a.header.depth = b.header.depth := congrArg Spec.Content.depth h
  have h5 : a.header.mode = b.header.mode := congrArg Spec.Content.mode h
  have h6 : a.header.colorData = b.header.colorData := congrArg Spec.Content.colorData h
  have h7 : a.merged.plane = b.merged.plane := congrArg Spec.Content.merged h
  have hc := config_content h
  have ht := (sections_content (congrArg Spec.Content.layers h)).1
  have hi : lastInfo a.infoBlocks = lastInfo b.infoBlocks := lastInfo_content (congrArg Spec.Content.blocks h)
  have hrect : (configMeaning b).rect = (configMeaning a).rect := by rw [hc]
  have hmp : mergedPlane b = mergedPlane a := by
    funext i; unfold mergedPlane; rw [h2, h3, h4, h7]
  have hdc : docChannels b = docChannels a := by
    unfold docChannels; rw [h1, h4, hmp, hrect]
  have hpal : docPalette b = docPalette a := by
    unfold docPalette
    rw [h6]
    have := lastBlock_map hr 0x417 (fun r => num (field r.data 0 2)) (fun c => num (field c.2.2 0 2)) fun r => rfl
    rw [this]
  have hdp : docPicture b = docPicture a := by
    unfold docPicture
    rw [h4, h5, hmp, hrect, hpal, alpha_content h]
  have hl : docLayers skipL b = { docLayers skipL a with config := { (docLayers skipL a).config with version := b.header.version } } := by
    unfold docLayers
    rw [hc, ht, hi, h4, h5]
  unfold docMeaning
  rw [hl, hdc, hdp, h7]
  cases skipM <;> rfl

/-- **C100 Only the contents of a file matter.** Any two well-formed files with the same contents, be they PSD or
PSB, their pictures raw, RLE or ZIP with or without prediction, with whatever padding, unused bytes,
signatures and blending ranges, with a positive or negated layer count, their layers in the layer section or in
an additional block, decode to the same values, the version number aside, and with the same calls
of `LayerImageLoaded`. -/
theorem C100_contents {env : Env} {d₁ d₂ : Doc} (h : d₁.content = d₂.content)
    (hp₁ : env.Reads d₁) (hp₂ : env.Reads d₂) (hv₁ : d₁.Valid) (hv₂ : d₂.Valid) {o : Options}
    (ho₁ : o.rejects (configMeaning d₁) = false) (ho₂ : o.rejects (configMeaning d₂) = false)
    {s t : St} (hs : Presents d₁ s) (ht : Presents d₂ t) :
    ∃ psd n₁ n₂ s' t', decode env o s = .ok ((psd, n₁), s') ∧
      decode env o t = .ok (({ psd with config := { psd.config with version := d₂.header.version } }, n₂), t') ∧
      psd.config.version = d₁.header.version ∧ ∃ es, s'.log = s.log ++ es ∧ t'.log = t.log ++ es := by
  obtain ⟨s', e₁, -, l₁⟩ := decode_doc hp₁ hv₁ ho₁ hs
  obtain ⟨t', e₂, -, l₂⟩ := decode_doc hp₂ hv₂ ho₂ ht
  rw [doc_content h] at e₂
  rw [← (sections_content (congrArg Spec.Content.layers h)).2] at l₂
  refine ⟨_, _, _, s', t', e₁, e₂, ?_, _, l₁, l₂⟩
  unfold docMeaning; cases o.skipMergedImage <;> rfl

/-- An inflate that takes data as they are and ignores what follows them. -/
def exZipEnv : Env := { procs := 2, inflate := fun w n => if n ≤ w.length then some (w.take n) else none, pulled := fun w _ _ => w.length }

/-- A 16-bit PSD file whose one layer is stored raw, in an additional block. -/
def exPlainDoc : Doc where
  header := { version := 1, channels := 3, height := 1, width := 2, depth := 16, mode := 3, colorData := [] }
  resources := [⟨[56, 66, 73, 77], 0x3ED, [], [1, 2, 3], 0, 0⟩]
  layerMask := some ⟨none, .blocks [] [] [.layers [56, 66, 73, 77] [76, 114, 49, 54] { forest := [.layer { exFolder 0 with
    rect := ⟨0, 0, 1, 2⟩,
    channels := [(0, .raw [0x12, 0x34, 0x56, 0x78] []), (1, .raw [0, 0, 0, 1] []), (2, .raw [0, 2, 0, 1] [])] }] } []]⟩
  merged := .raw (List.replicate 12 7) []

/-- A PSB file with the same contents: pictures compressed with ZIP and with ZIP with prediction, the
layer in the layer section, the count negated, other padding. -/
def exPackedDoc : Doc where
  header := { version := 2, channels := 3, height := 1, width := 2, depth := 16, mode := 3, colorData := [], reserved := [1, 2, 3, 4, 5, 6] }
  resources := [⟨[77, 101, 83, 97], 0x3ED, [], [1, 2, 3], 4, 5⟩]
  layerMask := some ⟨some { forest := [.layer { exFolder 0 with
    rect := ⟨0, 0, 1, 2⟩, ranges := [1, 2], filler := 7,
    channels := [(0, .zipDelta [0x12, 0x34, 0x44, 0x44, 9] 2 [[0x1234, 0x5678]]), (1, .zip [0, 0, 0, 1] [0, 0, 0, 1]),
      (2, .zipDelta [0, 2, 255, 255] 2 [[2, 1]])] }], negated := true, slack := [1] }, .none [1, 2, 3]⟩
  merged := .raw (List.replicate 12 7) []

theorem exPackedDoc_valid : exPackedDoc.Valid := by decide +kernel

theorem exPackedDoc_reads : exZipEnv.Reads exPackedDoc := by decide +kernel

/-- The two files meet the hypotheses; they have different bytes, different lengths and the same contents. -/
example : exPlainDoc.Valid ∧ exPackedDoc.Valid ∧ exZipEnv.Reads exPlainDoc ∧ exZipEnv.Reads exPackedDoc ∧
    exPlainDoc.content = exPackedDoc.content ∧ exPlainDoc.bytes.length ≠ exPackedDoc.bytes.length ∧
    Presents exPlainDoc { data := exPlainDoc.bytes } ∧ Presents exPackedDoc { data := exPackedDoc.bytes, sched := [3, 7], kind := .seeker } := by
  refine ⟨by decide +kernel, exPackedDoc_valid, by decide +kernel, exPackedDoc_reads, by rfl, by decide +kernel,
    ⟨⟨[], by simp⟩, rfl, by decide, ?_⟩, ⟨[], by simp⟩, rfl, by decide, ?_⟩
  · have : exPlainDoc.bytes.length < 2000 := by decide +kernel
    simp only; omega
  · have : exPackedDoc.bytes.length < 2000 := by decide +kernel
    simp only; omega

/-- Both give the layer's red channel back. -/
example : ((outcome (decode exZipEnv {} { data := exPlainDoc.bytes })).map fun r => (postAll r.1.layer).map fun l =>
      ([0, 1, 2].map fun i => (l.channel i).map Channel.data)) =
    ((outcome (decode exZipEnv {} { data := exPackedDoc.bytes })).map fun r => (postAll r.1.layer).map fun l =>
      ([0, 1, 2].map fun i => (l.channel i).map Channel.data)) ∧
    ((outcome (decode exZipEnv {} { data := exPackedDoc.bytes })).map fun r => (postAll r.1.layer).map fun l =>
      ([0, 1, 2].map fun i => (l.channel i).map Channel.data)) =
      .ok [[some [0x12, 0x34, 0x56, 0x78], some [0, 0, 0, 1], some [0, 2, 0, 1]]] := by decide +kernel

end Psd
