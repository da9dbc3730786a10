import Verif.Lemmas.FileRun
import Verif.Lemmas.Count
import Verif.Lemmas.Eager

/-
Properties of whole documents: C23 to C32.

`Spec/Document.lean` and `Spec/File.lean` say what a document is and which bytes represent it;
`Spec/Decoded.lean` says which values of the library's types stand for its contents.
-/

namespace Psd
open Spec (Box MaskSpec InfoBlock Picture Layer LayerSection LayerMask Doc DocBlock Trailer Node recordsAll
  WellTypedAll modeColors lastInfo lmBytes rowLen)

/-! ### A document to decode -/

/-- The reader is at the start of the document's bytes; anything may follow.  Reads deliver at least
three bytes at a time (or what was asked for); the end may be reported along with the last bytes. -/
structure Presents (d : Doc) (s : St) : Prop where
  data : ∃ rest, s.data = d.bytes ++ rest
  start : s.pos = 0
  sched : ReadsAtLeast 3 s.sched
  size : s.data.length < 2 ^ 63

theorem decode_doc_lazy {env : Env} {d : Doc} (hp : env.Reads d) (hv : d.Valid) {o : Options}
    (ho : o.rejects (configMeaning d) = false) {s : St} (hs : Presents d s) (he : s.eager = false) :
    ∃ s', decode env o s = .ok ((docMeaning o.skipLayerImage o.skipMergedImage d,
        ((usedBytes o.skipMergedImage d).length : Int)), s') ∧
      s'.pos = (usedBytes o.skipMergedImage d).length ∧
      s'.log = s.log ++ (if o.layerImageLoaded ∧ ¬ o.skipLayerImage then eventsMeaning d.sections else []) := by
  obtain ⟨rest, hd⟩ := hs.data
  have hl : d.bytes.length ≤ s.data.length := by rw [hd, List.length_append]; omega
  rw [decode_eq env o s (m := s.data.length + 1) (n := s.data.length + 3) (by omega) (by omega)]
  have hav : ∃ rest', s.avail = usedBytes o.skipMergedImage d ++ rest' := by
    refine ⟨(if o.skipMergedImage then d.merged.bytes d.psb else []) ++ rest, ?_⟩
    unfold St.avail usedBytes
    rw [hd, hs.start]
    unfold Doc.bytes
    cases o.skipMergedImage <;> simp
  obtain ⟨rest', hav⟩ := hav
  obtain ⟨sched', e, -⟩ := runs_doc env hp hv o ho (k := 3) (Nat.le_refl 3) (m := s.data.length + 1)
    (n := s.data.length + 3) (by omega) (by omega) s rest' hs.sched he hav hs.size (by rw [hs.start]; omega)
  refine ⟨_, e, ?_, rfl⟩
  simp only [hs.start, Nat.zero_add]

theorem decode_doc {env : Env} {d : Doc} (hp : env.Reads d) (hv : d.Valid) {o : Options}
    (ho : o.rejects (configMeaning d) = false) {s : St} (hs : Presents d s) :
    ∃ s', decode env o s = .ok ((docMeaning o.skipLayerImage o.skipMergedImage d,
        ((usedBytes o.skipMergedImage d).length : Int)), s') ∧
      s'.pos = (usedBytes o.skipMergedImage d).length ∧
      s'.log = s.log ++ (if o.layerImageLoaded ∧ ¬ o.skipLayerImage then eventsMeaning d.sections else []) := by
  obtain ⟨s', e, h1, h2⟩ := decode_doc_lazy hp hv ho (s := { s with kind := .plain, eager := false })
    ⟨hs.data, hs.start, hs.sched, hs.size⟩ rfl
  refine ⟨_, decode_any_reader env o (by rw [hs.start]; omega) hs.size e ?_, h1, h2⟩
  cases hm : o.skipMergedImage with
  | false => exact .inl rfl
  | true =>
    refine .inr (.inl ?_)
    obtain ⟨rest, hd⟩ := hs.data
    have h2 : 2 ≤ (d.merged.bytes d.psb).length := by
      unfold Picture.bytes
      cases d.merged <;> simp <;> omega
    rw [h1, hd, hm]
    unfold usedBytes Doc.bytes
    simp only [if_true, List.append_nil, List.length_append]
    omega

/-- Without ZIP pictures every environment will do. -/
theorem reads_stored {env : Env} (hp : 1 ≤ env.procs) {d : Doc}
    (h : ∀ s ∈ d.sections, ∀ l ∈ s.layers, ∀ c ∈ l.channels, c.2.isZip = false) : env.Reads d := by
  refine ⟨hp, fun s hs l hl c hc => ?_⟩
  have := h s hs l hl c hc
  cases he : c.2 <;> rw [he] at this <;> first | trivial | cases this

/-! ### An example -/

/-- A layer with a mask, a unicode name and an unknown block. -/
def exLayer : Layer where
  rect := ⟨-1, -2, 0, 0⟩
  channels := [(-1, .raw [255, 128] []), (0, .raw [10, 20] []), (1, .rle [[.lit [1, 2]]] []),
    (2, .rle [[.run 2 7]] [9]), (-2, .raw [200] [])]
  blend := [110, 111, 114, 109]
  opacity := 200
  clipping := 0
  flags := 8
  mask := .short ⟨-5, -4, -4, -3⟩ 255 0 0 0
  ranges := [1, 2, 3, 4]
  name := [76, 49]
  namePad := [0]
  blocks := [⟨[56, 66, 73, 77], [108, 117, 110, 105], Spec.uniData ['é', '𝄞'] ++ [0, 0], [0, 0]⟩,
    ⟨[56, 66, 73, 77], [108, 121, 105, 100], [0, 0, 0, 5], []⟩]
  unicode := some ['é', '𝄞']
  clbl := none
  divider := none

/-- A record without pictures, with section divider type `t`. -/
def exFolder (t : Nat) : Layer where
  rect := ⟨0, 0, 0, 0⟩
  channels := []
  blend := [110, 111, 114, 109]
  opacity := 255
  clipping := 0
  flags := 0
  mask := .absent
  ranges := []
  name := []
  namePad := [0, 0, 0]
  blocks := [⟨[56, 66, 73, 77], [108, 115, 99, 116], (Spec.Divider.mk t none).bytes, []⟩]
  unicode := none
  clbl := none
  divider := some ⟨t, none⟩

/-- An RGB document: a folder with two layers and a layer above it. -/
def exSection : LayerSection where
  forest := [.folder (exFolder 3) [.layer exLayer, .layer { exLayer with name := [76, 50] }] (exFolder 1),
    .layer { exLayer with clipping := 1 }]
  negated := true
  slack := [0]

def exDoc : Doc where
  header := { version := 1, channels := 4, height := 1, width := 2, depth := 8, mode := 3, colorData := [] }
  resources := []
  layerMask := some ⟨some exSection,
    .blocks [1, 2, 3] [0] [.info ⟨[56, 66, 73, 77], [80, 97, 116, 116], [7, 7], [0, 0]⟩]⟩
  merged := .raw [1, 2, 3, 4, 5, 6, 7, 8] []

theorem exDoc_valid : exDoc.Valid := by decide +kernel

theorem exDoc_reads {env : Env} (hp : 1 ≤ env.procs) : env.Reads exDoc :=
  reads_stored hp (by decide +kernel)

/-- The same document as a PSB file. -/
def exDocPSB : Doc := { exDoc with header := { exDoc.header with version := 2 } }

theorem exDocPSB_valid : exDocPSB.Valid := by decide +kernel

/-- A reader for it that delivers 3, 5, 3 bytes and then whatever is asked for. -/
def exReader (d : Doc) : St := { data := d.bytes ++ [1, 2], pos := 0, sched := [3, 5, 3], kind := .plain }

theorem exReader_presents : Presents exDoc (exReader exDoc) := by
  refine ⟨⟨_, rfl⟩, rfl, by decide, ?_⟩
  have : (exReader exDoc).data.length < 2000 := by decide +kernel
  omega


/-! ### The records of a document -/

/-- The records of a document except the folder dividers, each with its number in its layer section,
in file order. -/
def shown (d : Doc) : List (Nat × Layer) :=
  d.sections.flatMap fun s => (s.layers.zipIdx.map fun p => (p.2, p.1)).filter fun p => decide (p.2.kind ≠ 3)

mutual
theorem post_treeOf {α : Type} (typ : α → Nat) : ∀ (n : Node α), n.WellTyped typ →
    (treeOf n).post = n.records.filter fun a => decide (typ a ≠ 3)
  | .layer l, h => by
    simp only [Node.WellTyped] at h
    simp [treeOf, LTree.post, postAll, Node.records, h.2.2]
  | .folder d kids l, h => by
    simp only [Node.WellTyped] at h
    have : typ l ≠ 3 := by omega
    rw [treeOf, LTree.post, postAll_treesOf typ kids h.2.2, Node.records, List.filter_cons_of_neg (by simp [h.1]),
      List.filter_append]
    simp [this]

theorem postAll_treesOf {α : Type} (typ : α → Nat) : ∀ (ns : List (Node α)), WellTypedAll typ ns →
    postAll (treesOf ns) = (recordsAll ns).filter fun a => decide (typ a ≠ 3)
  | [], _ => by simp [treesOf, postAll, recordsAll]
  | n :: ns, h => by
    simp only [WellTypedAll] at h
    rw [treesOf, postAll, post_treeOf typ n h.1, postAll_treesOf typ ns h.2, recordsAll, List.filter_append]
end

theorem filter_flatMap' {α β : Type} (p : β → Bool) (f : α → List β) : ∀ l : List α,
    (l.flatMap f).filter p = l.flatMap fun a => (f a).filter p := by
  intro l
  induction l with
  | nil => rfl
  | cons a l ih => rw [List.flatMap_cons, List.flatMap_cons, List.filter_append, ih]

theorem doc_typed {d : Doc} (hv : d.Valid) : ∀ s ∈ d.sections, WellTypedAll Layer.kind s.forest := by
  intro s hs
  cases hm : d.layerMask with
  | none => simp [Doc.sections, hm] at hs
  | some m =>
    have hmv := hv.2.2.2.2.2.2.1 m (by simp [hm])
    simp only [Doc.sections, hm, LayerMask.sections, List.mem_append, Option.mem_toList] at hs
    rcases hs with hs | hs
    · exact (hmv.1 s hs).2.1
    · obtain ⟨b, hb, hbs⟩ := List.mem_flatMap.1 hs
      cases b with
      | info b => simp [DocBlock.section?] at hbs
      | layers sig key s' pad =>
        simp only [DocBlock.section?, List.mem_singleton] at hbs
        subst hbs
        cases ht : m.trailer with
        | none sl => simp [ht, Trailer.docBlocks] at hb
        | mask g sl => simp [ht, Trailer.docBlocks] at hb
        | blocks g lead bs =>
          have := hmv.2.1
          rw [ht] at this hb
          exact (this.2.2.2 _ hb).2.2.1.2.1

theorem post_treeMeaning (skip : Bool) (colors depth : Nat) {d : Doc}
    (h : ∀ s ∈ d.sections, WellTypedAll Layer.kind s.forest) :
    postAll (treeMeaning skip colors depth d.sections) =
      (shown d).map fun p => if skip then layerMeaning p.1 p.2 else layerFull colors depth p.1 p.2 := by
  unfold treeMeaning shown
  rw [postAll_treesOf LayerRec.sdType]
  · rw [recordsAll_flatMap, filter_flatMap', List.map_flatMap]
    congr 1
    funext s
    rw [numberAll_records, List.filter_map, List.filter_map, List.map_map]
    cases skip <;> rfl
  · exact wellTyped_flatMap fun s hs => numberAll_typed (fun p => by cases skip <;> rfl) _ _ (h s hs)


theorem layer_at {env : Env} {d : Doc} (hp : env.Reads d) (hv : d.Valid) {o : Options}
    (ho : o.rejects (configMeaning d) = false) {s : St} (hs : Presents d s) :
    ∃ psd n s', decode env o s = .ok ((psd, n), s') ∧
      psd = docMeaning o.skipLayerImage o.skipMergedImage d ∧
      (postAll psd.layer).length = (shown d).length ∧
      ∀ (k i : Nat) (l : Layer), (shown d)[k]? = some (i, l) → ∃ r : LayerRec, (postAll psd.layer)[k]? = some r ∧
        r = if o.skipLayerImage then layerMeaning i l
          else layerFull (modeColors d.header.mode) d.header.depth i l := by
  obtain ⟨s', h, -⟩ := decode_doc hp hv ho hs
  have hl : (docMeaning o.skipLayerImage o.skipMergedImage d).layer =
      treeMeaning o.skipLayerImage (modeColors d.header.mode) d.header.depth d.sections := by
    unfold docMeaning; split <;> rfl
  refine ⟨_, _, s', h, rfl, ?_, ?_⟩
  · rw [hl, post_treeMeaning _ _ _ (doc_typed hv), List.length_map]
  · intro k i l hk
    refine ⟨_, ?_, rfl⟩
    rw [hl, post_treeMeaning _ _ _ (doc_typed hv), List.getElem?_map, hk]
    rfl

theorem layer_fields {b : Bool} {colors depth i : Nat} {l : Layer} {r : LayerRec}
    (h : r = if b then layerMeaning i l else layerFull colors depth i l) :
    ∃ c p, r = { layerMeaning i l with channel := c, picker := p } := by
  cases b
  · exact ⟨channelsMeaning depth l, some (pictureMeaning colors depth l), h⟩
  · exact ⟨GoMap.empty, none, h⟩

/-- **C32 Whole-document round trip.** For every well-formed document (raw, RLE or ZIP pictures, PSD
or PSB, any folder structure) whose ZIP pictures inflate to what they stand for, whatever follows it and however its bytes are delivered in chunks of at
least three bytes, `Decode` returns that document: configuration, layer tree with all layer fields
and pictures, additional information and merged picture.  It reads the document completely and
reports its length. -/
theorem C32_document_round_trip {env : Env} {d : Doc} (hp : env.Reads d) (hv : d.Valid) {o : Options}
    (ho : o.rejects (configMeaning d) = false) (hl : o.skipLayerImage = false) (hm : o.skipMergedImage = false)
    {s : St} (hs : Presents d s) :
    ∃ psd s', decode env o s = .ok ((psd, (d.bytes.length : Int)), s') ∧ s'.pos = d.bytes.length ∧
      psd.config = configMeaning d ∧
      psd.layer = treesOf (d.sections.flatMap fun sec => Spec.mapAll
        (fun p : Nat × Layer => layerFull (modeColors d.header.mode) d.header.depth p.1 p.2)
        (Spec.numberAll 0 sec.forest)) ∧
      psd.infos = lastInfo d.infoBlocks ∧
      psd.data = d.merged.plane ∧ psd.channel = docChannels d ∧ psd.picker = some (docPicture d) := by
  obtain ⟨s', h, h2, -⟩ := decode_doc hp hv ho hs
  rw [hl, hm] at h
  rw [hm] at h2
  have hu : usedBytes false d = d.bytes := by simp [usedBytes, Doc.bytes]
  rw [hu] at h h2
  exact ⟨_, s', h, h2, rfl, rfl, rfl, rfl, rfl, rfl⟩

/-- The example document meets the hypotheses; its layer tree has two top-level nodes. -/
example : exDoc.Valid ∧ Presents exDoc (exReader exDoc) ∧ (shown exDoc).length = 4 ∧
    exDoc.forest.length = 2 := ⟨exDoc_valid, exReader_presents, by decide +kernel, by decide +kernel⟩

/-- **C24 Layer record fields round-trip.** For every layer record of every well-formed document:
the `k`-th layer (depth-first) of the decoded document has exactly the fields of the `k`-th record
that is not a folder divider. -/
theorem C24_layer_fields {env : Env} {d : Doc} (hp : env.Reads d) (hv : d.Valid) {o : Options}
    (ho : o.rejects (configMeaning d) = false) {s : St} (hs : Presents d s) :
    ∃ psd n s', decode env o s = .ok ((psd, n), s') ∧
      (postAll psd.layer).length = (shown d).length ∧
      ∀ (k i : Nat) (l : Layer), (shown d)[k]? = some (i, l) → ∃ r : LayerRec, (postAll psd.layer)[k]? = some r ∧
        r.seqID = i ∧
        r.rect = ⟨l.rect.left, l.rect.top, l.rect.right, l.rect.bottom⟩ ∧
        r.blendMode = l.blend ∧ r.opacity = l.opacity ∧ r.clipping = decide (l.clipping ≠ 0) ∧
        r.flags = l.flags ∧ r.mbcsName = l.name ∧ r.mask = maskMeaning l.mask ∧
        r.blendClippedElements = l.clbl.getD true ∧ r.sdType = l.kind ∧
        (∀ key, key ≠ keyLuni → key ≠ keyClbl → key ≠ keyLsct → r.infos key = lastInfo l.blocks key) ∧
        (o.skipLayerImage = false → ∀ id, (r.channel id).isSome = l.channels.any fun c => c.1 = id) := by
  obtain ⟨psd, n, s', h, -, h2, h3⟩ := layer_at hp hv ho hs
  refine ⟨psd, n, s', h, h2, fun k i l hk => ?_⟩
  obtain ⟨r, hr, hrl⟩ := h3 k i l hk
  refine ⟨r, hr, ?_⟩
  obtain ⟨c, p, hc⟩ := layer_fields hrl
  refine ⟨by rw [hc]; rfl, by rw [hc]; rfl, by rw [hc]; rfl, by rw [hc]; rfl, by rw [hc]; rfl, by rw [hc]; rfl,
    by rw [hc]; rfl, by rw [hc]; rfl, by rw [hc]; rfl, by rw [hc]; rfl, ?_, ?_⟩
  · intro key h1 h2 h3
    rw [hc]
    show infosOf l.blocks key = _
    unfold infosOf
    rw [if_neg (by simp [h1, h2, h3])]
  · intro hsk id
    rw [hrl, hsk]
    show (channelsMeaning d.header.depth l id).isSome = _
    unfold channelsMeaning Layer.lastChannel
    rw [Option.isSome_map, Option.isSome_map, Bool.eq_iff_iff]
    simp only [List.find?_isSome, List.mem_reverse, List.any_eq_true]


/-- The first record that is not a divider has number 1, a mask at (-4, -5) and five channels. -/
example : ∃ (k i : Nat) (l : Layer), (shown exDoc)[k]? = some (i, l) ∧ l.mask.box = ⟨-5, -4, -4, -3⟩ ∧ l.channels.length = 5 :=
  ⟨0, 1, exLayer, by decide +kernel, rfl, rfl⟩

/-- **C25 Mask rectangles keep their sign** (part).  For every layer of every well-formed document:
the mask rectangle is the signed rectangle of the file, and so is the rectangle of the real user
mask.  Missing: documents whose real user mask starts left of or above the canvas, which
well-formedness excludes; for them `C25_real_rect_loses_sign` shows that the claim is false. -/
theorem C25_mask_rects_partial {env : Env} {d : Doc} (hp : env.Reads d) (hv : d.Valid) {o : Options}
    (ho : o.rejects (configMeaning d) = false) {s : St} (hs : Presents d s) :
    ∃ psd n s', decode env o s = .ok ((psd, n), s') ∧
      (postAll psd.layer).length = (shown d).length ∧
      ∀ (k i : Nat) (l : Layer), (shown d)[k]? = some (i, l) → ∃ r : LayerRec, (postAll psd.layer)[k]? = some r ∧
        r.mask.rect = ⟨l.mask.box.left, l.mask.box.top, l.mask.box.right, l.mask.box.bottom⟩ ∧
        r.mask.realRect = ⟨l.mask.realBox.left, l.mask.realBox.top, l.mask.realBox.right, l.mask.realBox.bottom⟩ := by
  obtain ⟨psd, n, s', h, -, h2, h3⟩ := layer_at hp hv ho hs
  refine ⟨psd, n, s', h, h2, fun k i l hk => ?_⟩
  obtain ⟨r, hr, hrl⟩ := h3 k i l hk
  obtain ⟨c, p, hc⟩ := layer_fields hrl
  refine ⟨r, hr, ?_⟩
  rw [hc]
  show (maskMeaning l.mask).rect = _ ∧ (maskMeaning l.mask).realRect = _
  cases l.mask <;> exact ⟨rfl, rfl⟩

/-- **C25** (part), for all mask data, also with a real user mask off the canvas: `Mask.Rect` is the
signed rectangle of the file, and `Mask.RealRect` is that of the file if it does not start left of
or above the canvas. -/
theorem C25_mask_data_partial {m : MaskSpec} (h : m.Valid) {s : St} {rest : List UInt8}
    (hs : s.avail = m.bytes ++ rest) (hw : s.sched = []) (he : s.eager = false) (hn : s.data.length < 2 ^ 63) :
    ∃ m' s', readMaskData {} s = .ok ((m', (m.bytes.length : Int)), s') ∧
      m'.rect = ⟨m.box.left, m.box.top, m.box.right, m.box.bottom⟩ ∧
      (0 ≤ m.realBox.left → 0 ≤ m.realBox.top →
        m'.realRect = ⟨m.realBox.left, m.realBox.top, m.realBox.right, m.realBox.bottom⟩) := by
  have hl := congrArg List.length hs
  rw [St.avail_length, List.length_append] at hl
  have h4 : 4 ≤ m.bytes.length := by simp [MaskSpec.bytes]
  refine ⟨_, _, runs_mask h s rest hw he hs (by omega), ?_, fun h1 h2 => ?_⟩
  · cases m <;> rfl
  · rw [maskOf_eq h h1 h2]; cases m <;> rfl

/-- A mask and real mask with negative and positive coordinates. -/
example : (MaskSpec.full ⟨-5, -6, 7, 8⟩ 0 16 (some { userDensity := some 3 }) 1 2 ⟨0, 1, 2, 3⟩).Valid := by
  decide +kernel

def exEnv : Env := { procs := 1, inflate := fun _ _ => none, pulled := fun _ _ _ => 0 }

/-- A document with one layer whose real user mask is at (-1, -2). -/
def exOffDoc : Doc :=
  { exDoc with
    layerMask := some ⟨some { forest := [.layer { exFolder 0 with
      mask := .full ⟨-3, -4, 5, 6⟩ 0 0 none 1 2 ⟨-2, -1, 7, 8⟩ }] }, .none []⟩ }

/-- The claim is false for the real user mask: the rectangle (-1,-2)-(8,7) comes out as
(8,7)-(4294967295,4294967294). -/
theorem C25_real_rect_loses_sign :
    (outcome (decode exEnv {} { data := exOffDoc.bytes })).map
      (fun r => (postAll r.1.layer).map fun l => (l.mask.rect, l.mask.realRect)) =
    .ok [(⟨-4, -3, 6, 5⟩, ⟨8, 7, 4294967295, 4294967294⟩)] := by decide +kernel


/-- **C26 Additional layer info blocks round-trip.** For every well-formed document, with any
blocks, keys, signatures, length sizes and padding: the info map of the document gives for each key
the data of the last block with that key, and nothing else; likewise the info map of each layer,
except for the blocks that are turned into layer fields (luni, clbl, lsct).  That the sections are
consumed exactly is part of `C32_document_round_trip`. -/
theorem C26_info_blocks {env : Env} {d : Doc} (hp : env.Reads d) (hv : d.Valid) {o : Options}
    (ho : o.rejects (configMeaning d) = false) {s : St} (hs : Presents d s) :
    ∃ psd n s', decode env o s = .ok ((psd, n), s') ∧
      (∀ key, psd.infos key = lastInfo d.infoBlocks key) ∧
      (postAll psd.layer).length = (shown d).length ∧
      ∀ (k i : Nat) (l : Layer), (shown d)[k]? = some (i, l) → ∃ r : LayerRec, (postAll psd.layer)[k]? = some r ∧
        ∀ key, r.infos key = if key ∈ [keyLuni, keyClbl, keyLsct] then none else lastInfo l.blocks key := by
  obtain ⟨psd, n, s', h, hd, h2, h3⟩ := layer_at hp hv ho hs
  refine ⟨psd, n, s', h, ?_, h2, fun k i l hk => ?_⟩
  · intro key; rw [hd]; unfold docMeaning; split <;> rfl
  obtain ⟨r, hr, hrl⟩ := h3 k i l hk
  obtain ⟨c, p, hc⟩ := layer_fields hrl
  refine ⟨r, hr, fun key => ?_⟩
  rw [hc]
  show infosOf l.blocks key = _
  unfold infosOf
  simp

/-- The example has a block of the document and a block of a layer. -/
example : exDoc.infoBlocks.length = 1 ∧ lastInfo exLayer.blocks [108, 121, 105, 100] = some [0, 0, 0, 5] := by
  decide +kernel

/-- **C27 Unicode names decode.** For every layer of every well-formed document that has a unicode
name, whatever its characters: the layer's unicode name and name are that text (in UTF-8, as Go
strings are); without one, the name is the legacy name. -/
theorem C27_unicode_names {env : Env} {d : Doc} (hp : env.Reads d) (hv : d.Valid) {o : Options}
    (ho : o.rejects (configMeaning d) = false) {s : St} (hs : Presents d s) :
    ∃ psd n s', decode env o s = .ok ((psd, n), s') ∧
      (postAll psd.layer).length = (shown d).length ∧
      ∀ (k i : Nat) (l : Layer), (shown d)[k]? = some (i, l) → ∃ r : LayerRec, (postAll psd.layer)[k]? = some r ∧
        (∀ t, l.unicode = some t → r.unicodeName = Spec.utf8 t ∧ r.name = Spec.utf8 t) ∧
        (l.unicode = none → r.unicodeName = [] ∧ r.name = l.name) ∧ r.mbcsName = l.name := by
  obtain ⟨psd, n, s', h, -, h2, h3⟩ := layer_at hp hv ho hs
  refine ⟨psd, n, s', h, h2, fun k i l hk => ?_⟩
  obtain ⟨r, hr, hrl⟩ := h3 k i l hk
  obtain ⟨c, p, hc⟩ := layer_fields hrl
  refine ⟨r, hr, fun t ht => ?_, fun ht => ?_, by rw [hc]; rfl⟩ <;>
    (rw [hc]; simp only [layerMeaning, ht, and_self])

/-- A name outside the Basic Multilingual Plane. -/
example : exLayer.unicode = some ['é', '𝄞'] ∧ Spec.utf8 ['é', '𝄞'] = [0xC3, 0xA9, 0xF0, 0x9D, 0x84, 0x9E] := by
  decide +kernel

/-! ### Pictures -/

/-- **C28 Channel data is paired with its rectangle.** For every layer of every well-formed document
and every channel of it: the channel gets exactly the samples of its own data block (the last one
if the number occurs twice), with the rectangle of the layer or, for the channels -2 and -3, of the
mask; and there are no other channels. -/
theorem C28_channel_pairing {env : Env} {d : Doc} (hp : env.Reads d) (hv : d.Valid) {o : Options}
    (ho : o.rejects (configMeaning d) = false) (hl : o.skipLayerImage = false) {s : St} (hs : Presents d s) :
    ∃ psd n s', decode env o s = .ok ((psd, n), s') ∧
      (postAll psd.layer).length = (shown d).length ∧
      ∀ (k i : Nat) (l : Layer), (shown d)[k]? = some (i, l) → ∃ r : LayerRec, (postAll psd.layer)[k]? = some r ∧
        ∀ id, match l.lastChannel id with
          | none => r.channel id = none
          | some p => ∃ ch, r.channel id = some ch ∧ ch.data = p.plane ∧
              ch.picker.src = [p.plane] ∧ ch.picker.kind = grayKind d.header.depth ∧
              ch.picker.rect = (if id = -2 then r.mask.rect else if id = -3 then r.mask.realRect else r.rect) := by
  obtain ⟨psd, n, s', h, -, h2, h3⟩ := layer_at hp hv ho hs
  refine ⟨psd, n, s', h, h2, fun k i l hk => ?_⟩
  obtain ⟨r, hr, hrl⟩ := h3 k i l hk
  refine ⟨r, hr, fun id => ?_⟩
  rw [hl] at hrl
  have hc : r.channel id = channelsMeaning d.header.depth l id := by rw [hrl]; rfl
  have hr1 : r.rect = rectOf l.rect := by rw [hrl]; rfl
  have hr2 : r.mask.rect = rectOf l.mask.box := by rw [hrl]; show (maskMeaning l.mask).rect = _; cases l.mask <;> rfl
  have hr3 : r.mask.realRect = rectOf l.mask.realBox := by
    rw [hrl]; show (maskMeaning l.mask).realRect = _; cases l.mask <;> rfl
  rw [hc, hr1, hr2, hr3]
  unfold channelsMeaning
  cases l.lastChannel id with
  | none => rfl
  | some p =>
    refine ⟨_, rfl, rfl, rfl, rfl, ?_⟩
    simp only [Layer.boxOf]
    split
    · rfl
    · split <;> rfl

/-- A mask channel and a colour channel. -/
example : exLayer.lastChannel (-2) = some (.raw [200] []) ∧ exLayer.lastChannel 1 = some (.rle [[.lit [1, 2]]] []) := by
  decide +kernel

theorem channelBody_len (env : Env) (cfg : Config) (layer : LayerRec) (ch : ChannelData)
    (m : GoMap Int Channel) (pcs : List (List UInt8)) (method read : Int) :
    Ens (readChannelBody env cfg layer ch m pcs method read) fun r => r.2.2 = ch.dataLen := by
  unfold readChannelBody
  refine Ens.bind_any fun n => Ens.bind_any fun pk => Ens.bind_any fun ⟨d, l⟩ => ?_
  refine Ens.ite (fun _ => Ens.fail) fun h => Ens.bind_any fun pk => ?_
  have h : l = ch.dataLen := by omega
  exact Ens.ite (fun _ => Ens.bind_any fun _ => Ens.pure h) fun _ => Ens.ite (fun _ => Ens.pure h) fun _ => Ens.pure h

theorem channelImages_len (env : Env) (cfg : Config) (layer : LayerRec) : ∀ chs m pcs,
    Ens (readChannelImages env cfg layer chs m pcs) fun r => r.2.2 = (chs.map ChannelData.dataLen).sum := by
  intro chs
  induction chs with
  | nil => intro m pcs; exact Ens.pure rfl
  | cons ch chs ih =>
    intro m pcs
    refine Ens.bind (R := fun r => r.2.2 = ch.dataLen) ?_ fun ⟨m, pcs, l⟩ h => ?_
    · unfold readChannelImage
      exact Ens.ite (fun _ => Ens.bind_any fun b => channelBody_len _ _ _ _ _ _ _ _) fun _ => channelBody_len _ _ _ _ _ _ _ _
    · refine Ens.bind (ih m pcs) fun ⟨m, pcs, l'⟩ h' => Ens.pure ?_
      simp only at h h' ⊢
      rw [h, h', List.map_cons, List.sum_cons]

theorem layerImages_len (env : Env) (cfg : Config) (o : Options) (total : Nat) : ∀ recs i,
    Ens (readLayerImages env cfg o total i recs) fun r =>
      r.2 = (recs.map fun x => (x.2.map ChannelData.dataLen).sum).sum := by
  intro recs
  induction recs with
  | nil => intro i; exact Ens.pure rfl
  | cons x recs ih =>
    intro i
    obtain ⟨layer, chs⟩ := x
    unfold readLayerImages
    refine Ens.bind_any fun n => Ens.bind (channelImages_len env cfg layer chs _ _) fun ⟨m, pcs, l⟩ h => ?_
    refine Ens.bind_any fun pk => Ens.bind_any fun _ => Ens.bind (ih _) fun ⟨ls, l'⟩ h' => Ens.pure ?_
    simp only at h h' ⊢
    rw [h, h', List.map_cons, List.sum_cons]

/-- **C28**, for arbitrary input: reading the pictures of the layers `recs` (each with its declared
channel lengths), if it succeeds, advances by exactly the sum of the declared lengths. -/
theorem C28_declared_length (env : Env) (cfg : Config) (o : Options) (total i : Nat)
    (recs : List (LayerRec × List ChannelData)) {s s' : St} {ls : List LayerRec} {n : Int}
    (h : readLayerImages env cfg o total i recs s = .ok ((ls, n), s')) :
    n = (recs.map fun x => (x.2.map ChannelData.dataLen).sum).sum ∧ (s'.pos : Int) = s.pos + n :=
  ⟨layerImages_len env cfg o total recs i _ _ _ h, by
    have := Cnt.layerImages env cfg o total recs i s _ _ h
    simp only at this; omega⟩

/-- One layer of one 1-pixel raw channel with 2 bytes of slack. -/
example : ∃ ls s', readLayerImages exEnv (configMeaning exDoc) {} 1 0
    [({ rect := ⟨0, 0, 1, 1⟩ }, [⟨0, 5⟩])] { data := [0, 0, 7, 1, 2, 9] } = .ok ((ls, 5), s') := ⟨_, _, rfl⟩


/-! ### Options -/

mutual
/-- Apply a function to every layer of a tree. -/
def LTree.map {α β : Type} (f : α → β) : LTree α → LTree β
  | .node l kids => .node (f l) (mapTrees f kids)

def mapTrees {α β : Type} (f : α → β) : List (LTree α) → List (LTree β)
  | [] => []
  | t :: ts => t.map f :: mapTrees f ts
end

/-- A layer without its pictures. -/
def LayerRec.withoutPictures (l : LayerRec) : LayerRec := { l with channel := GoMap.empty, picker := none }

mutual
theorem treeOf_map {α β γ : Type} (f : α → β) (g : β → γ) : ∀ n : Node α,
    treeOf (n.map fun a => g (f a)) = (treeOf (n.map f)).map g
  | .layer l => by simp [Node.map, treeOf, LTree.map, mapTrees]
  | .folder d kids l => by simp only [Node.map, treeOf, LTree.map]; rw [treesOf_map f g kids]

theorem treesOf_map {α β γ : Type} (f : α → β) (g : β → γ) : ∀ ns : List (Node α),
    treesOf (Spec.mapAll (fun a => g (f a)) ns) = mapTrees g (treesOf (Spec.mapAll f ns))
  | [] => by simp [Spec.mapAll, treesOf, mapTrees]
  | n :: ns => by simp only [Spec.mapAll, treesOf, mapTrees]; rw [treeOf_map f g n, treesOf_map f g ns]
end

theorem treesOf_append {α : Type} (a b : List (Node α)) : treesOf (a ++ b) = treesOf a ++ treesOf b := by
  induction a with
  | nil => rfl
  | cons n ns ih => simp [treesOf, ih]

theorem mapTrees_append {α β : Type} (f : α → β) (a b : List (LTree α)) :
    mapTrees f (a ++ b) = mapTrees f a ++ mapTrees f b := by
  induction a with
  | nil => rfl
  | cons n ns ih => simp [mapTrees, ih]

theorem treeMeaning_skip (colors depth : Nat) : ∀ ss : List LayerSection,
    treeMeaning true colors depth ss = mapTrees LayerRec.withoutPictures (treeMeaning false colors depth ss) := by
  intro ss
  unfold treeMeaning
  induction ss with
  | nil => rfl
  | cons x ss ih =>
    rw [List.flatMap_cons, List.flatMap_cons, treesOf_append, treesOf_append, mapTrees_append, ih]
    congr 1
    exact treesOf_map (fun p : Nat × Layer => layerFull colors depth p.1 p.2) LayerRec.withoutPictures _

/-- **C29 SkipLayerImage changes no metadata.** For every well-formed document, decoding with and
without `SkipLayerImage` both succeed, and the results are the same document except that with the
option the layers have no channels and no picture. -/
theorem C29_skip_layer_image {env : Env} {d : Doc} (hp : env.Reads d) (hv : d.Valid) {o₁ o₂ : Options}
    (h₁ : o₁.rejects (configMeaning d) = false) (h₂ : o₂.rejects (configMeaning d) = false)
    (hs₁ : o₁.skipLayerImage = true) (hs₂ : o₂.skipLayerImage = false)
    (hm : o₁.skipMergedImage = o₂.skipMergedImage) {s t : St} (hs : Presents d s) (ht : Presents d t) :
    ∃ psd₁ psd₂ n s' t', decode env o₁ s = .ok ((psd₁, n), s') ∧ decode env o₂ t = .ok ((psd₂, n), t') ∧
      psd₁ = { psd₂ with layer := mapTrees LayerRec.withoutPictures psd₂.layer } := by
  obtain ⟨s', e₁, -⟩ := decode_doc hp hv h₁ hs
  obtain ⟨t', e₂, -⟩ := decode_doc hp hv h₂ ht
  rw [hs₁] at e₁
  rw [hs₂, ← hm] at e₂
  refine ⟨_, _, _, s', t', e₁, e₂, ?_⟩
  have h := treeMeaning_skip (modeColors d.header.mode) d.header.depth d.sections
  unfold docMeaning
  cases o₁.skipMergedImage <;> simp [docLayers, h]

/-- **C31 PSD and PSB encodings of one document agree.** Every document that is well-formed both as
PSD (version 1) and as PSB (version 2) decodes to the same values from both encodings, except for
the version number itself. -/
theorem C31_psd_psb_agree {env : Env} {d₁ d₂ : Doc} (hp : env.Reads d₁)
    (h1 : d₁.header.version = 1) (hd : d₂ = { d₁ with header := { d₁.header with version := 2 } })
    (hv₁ : d₁.Valid) (hv₂ : d₂.Valid) {o : Options}
    (ho₁ : o.rejects (configMeaning d₁) = false) (ho₂ : o.rejects (configMeaning d₂) = false)
    {s t : St} (hs : Presents d₁ s) (ht : Presents d₂ t) :
    ∃ psd n₁ n₂ s' t', decode env o s = .ok ((psd, n₁), s') ∧
      decode env o t = .ok (({ psd with config := { psd.config with version := 2 } }, n₂), t') ∧
      psd.config.version = 1 ∧ ∃ es, s'.log = s.log ++ es ∧ t'.log = t.log ++ es := by
  obtain ⟨s', e₁, -, l₁⟩ := decode_doc hp hv₁ ho₁ hs
  have hp₂ : env.Reads d₂ := by rw [hd]; exact hp
  obtain ⟨t', e₂, -, l₂⟩ := decode_doc hp₂ hv₂ ho₂ ht
  subst hd
  have hm : docMeaning o.skipLayerImage o.skipMergedImage { d₁ with header := { d₁.header with version := 2 } } =
      { docMeaning o.skipLayerImage o.skipMergedImage d₁ with
        config := { (docMeaning o.skipLayerImage o.skipMergedImage d₁).config with version := 2 } } := by
    unfold docMeaning; cases o.skipMergedImage <;> rfl
  rw [hm] at e₂
  refine ⟨_, _, _, s', t', e₁, e₂, ?_, _, l₁, l₂⟩
  · unfold docMeaning; cases o.skipMergedImage <;> exact h1

example : exDocPSB = { exDoc with header := { exDoc.header with version := 2 } } ∧ exDoc.Valid ∧ exDocPSB.Valid ∧
    exDoc.bytes ≠ exDocPSB.bytes := ⟨rfl, exDoc_valid, exDocPSB_valid, by decide +kernel⟩

end Psd
