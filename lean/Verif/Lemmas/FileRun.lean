import Verif.Lemmas.DocRun
import Verif.Lemmas.Run

/-
Running the parser on layer and mask information sections and on whole documents.
-/

namespace Psd
open Spec (be twos wide num field Box InfoBlock Picture Layer LayerSection LayerMask Doc DocBlock Trailer
  Node recordsAll numberAll mapAll WellTypedAll LayeredMode modeColors lastInfo lmBytes rowLen FlatMode
  resSection lastBlock)

/-! ### Trees -/

theorem recordsAll_append {α : Type} (a b : List (Node α)) :
    recordsAll (a ++ b) = recordsAll a ++ recordsAll b := by
  induction a with
  | nil => simp [recordsAll]
  | cons n ns ih => simp [recordsAll, ih]

theorem recordsAll_flatMap {α β : Type} (f : β → List (Node α)) (l : List β) :
    recordsAll (l.flatMap f) = l.flatMap fun b => recordsAll (f b) := by
  induction l with
  | nil => rfl
  | cons b l ih => rw [List.flatMap_cons, List.flatMap_cons, recordsAll_append, ih]

theorem wellTyped_append {α : Type} {typ : α → Nat} {a b : List (Node α)} (ha : WellTypedAll typ a)
    (hb : WellTypedAll typ b) : WellTypedAll typ (a ++ b) := by
  induction a with
  | nil => exact hb
  | cons n ns ih =>
    simp only [WellTypedAll] at ha
    rw [List.cons_append, WellTypedAll]
    exact ⟨ha.1, ih ha.2⟩

theorem wellTyped_flatMap {α β : Type} {typ : α → Nat} {f : β → List (Node α)} : ∀ {l : List β},
    (∀ b ∈ l, WellTypedAll typ (f b)) → WellTypedAll typ (l.flatMap f) := by
  intro l
  induction l with
  | nil => intro _; simp [WellTypedAll]
  | cons b l ih =>
    intro h
    rw [List.flatMap_cons]
    exact wellTyped_append (h b (by simp)) (ih fun x hx => h x (by simp [hx]))

mutual
theorem number_records {α : Type} (f : Nat × α → LayerRec) : ∀ (n : Node α) (i : Nat),
    ((n.number i).map f).records = (n.records.zipIdx i).map fun p => f (p.2, p.1)
  | .layer l, i => by simp [Node.number, Node.map, Node.records]
  | .folder d kids l, i => by
    simp only [Node.number, Node.map, Node.records]
    rw [numberAll_records f kids (i + 1), List.zipIdx_cons, List.map_cons, List.zipIdx_append, List.map_append]
    simp [List.zipIdx_cons, Nat.add_comm]

theorem numberAll_records {α : Type} (f : Nat × α → LayerRec) : ∀ (ns : List (Node α)) (i : Nat),
    recordsAll (mapAll f (numberAll i ns)) = ((recordsAll ns).zipIdx i).map fun p => f (p.2, p.1)
  | [], i => by simp [numberAll, mapAll, recordsAll]
  | n :: ns, i => by
    simp only [numberAll, mapAll, recordsAll]
    rw [number_records f n i, numberAll_records f ns, List.zipIdx_append, List.map_append]
end

mutual
theorem number_typed {α : Type} {typ : α → Nat} {typ' : LayerRec → Nat} {f : Nat × α → LayerRec}
    (hf : ∀ p, typ' (f p) = typ p.2) : ∀ (n : Node α) (i : Nat), n.WellTyped typ →
    ((n.number i).map f).WellTyped typ'
  | .layer l, i, h => by
    simp only [Node.number, Node.map, Node.WellTyped, hf] at h ⊢
    exact h
  | .folder d kids l, i, h => by
    simp only [Node.number, Node.map, Node.WellTyped, hf] at h ⊢
    exact ⟨h.1, h.2.1, numberAll_typed hf kids (i + 1) h.2.2⟩

theorem numberAll_typed {α : Type} {typ : α → Nat} {typ' : LayerRec → Nat} {f : Nat × α → LayerRec}
    (hf : ∀ p, typ' (f p) = typ p.2) : ∀ (ns : List (Node α)) (i : Nat), WellTypedAll typ ns →
    WellTypedAll typ' (mapAll f (numberAll i ns))
  | [], i, _ => by simp [numberAll, mapAll, WellTypedAll]
  | n :: ns, i, h => by
    simp only [WellTypedAll] at h
    simp only [numberAll, mapAll, WellTypedAll]
    exact ⟨number_typed hf n i h.1, numberAll_typed hf ns _ h.2⟩
end

theorem layersFrom_zip (f : Nat → Layer → LayerRec) : ∀ (ls : List Layer) (i : Nat),
    layersFrom f i ls = (ls.zipIdx i).map fun p => f p.2 p.1 := by
  intro ls
  induction ls with
  | nil => intro i; rfl
  | cons l ls ih => intro i; rw [List.zipIdx_cons, List.map_cons, ← ih]; rfl

theorem eventsFrom_range (total : Nat) : ∀ (n i : Nat),
    eventsFrom total i n = (List.range' i n).map fun j => ⟨j, j, total⟩ := by
  intro n
  induction n with
  | zero => intro i; rfl
  | succ n ih => intro i; rw [List.range'_succ, List.map_cons, ← ih]; rfl

theorem tree_ok (skip : Bool) (colors depth : Nat) (ss : List LayerSection)
    (h : ∀ s ∈ ss, WellTypedAll Layer.kind s.forest) :
    buildTree LayerRec.sdType (ss.flatMap fun s => sectionLayers skip colors depth s.layers) =
      .ok (treeMeaning skip colors depth ss) := by
  have e : (ss.flatMap fun s => sectionLayers skip colors depth s.layers) =
      recordsAll (ss.flatMap fun s => mapAll
        (fun p : Nat × Layer => if skip then layerMeaning p.1 p.2 else layerFull colors depth p.1 p.2)
        (numberAll 0 s.forest)) := by
    rw [recordsAll_flatMap]
    congr 1
    funext s
    rw [numberAll_records, sectionLayers, layersFrom_zip]
    rfl
  rw [e]
  refine C21_tree_mirrors_folders _ _ (wellTyped_flatMap fun s hs => numberAll_typed ?_ _ _ (h s hs))
  intro p
  cases skip <;> rfl

theorem events_ok (o : Options) (ss : List LayerSection) :
    (ss.flatMap fun s => sectionEvents o s.layers.length) =
      if o.layerImageLoaded ∧ ¬ o.skipLayerImage then eventsMeaning ss else [] := by
  unfold sectionEvents eventsMeaning
  by_cases h : o.layerImageLoaded ∧ ¬ o.skipLayerImage
  · simp only [if_pos h]
    congr 1
    funext s
    rw [eventsFrom_range, List.range_eq_range']
  · simp only [if_neg h]
    exact List.flatMap_eq_nil_iff.2 fun _ _ => rfl

/-! ### Additional blocks of the document -/

def docEnt (o : Options) (psb : Bool) (colors depth : Nat) : DocBlock → Ent
  | .info b => entOf psb b
  | .layers sig key s pad =>
    ⟨sig, key, s.bytes psb, pad, none, sectionLayers o.skipLayerImage colors depth s.layers,
      sectionEvents o s.layers.length⟩

theorem docEnt_bytes (o : Options) (psb : Bool) (colors depth : Nat) (bs : List DocBlock) :
    (bs.map (docEnt o psb colors depth)).flatMap Ent.bytes = bs.flatMap (DocBlock.bytes psb) := by
  rw [List.flatMap_map]
  congr 1
  funext b
  cases b with
  | info b => exact entOf_bytes psb b
  | layers sig key s pad => rfl

theorem docEnt_layers (o : Options) (psb : Bool) (colors depth : Nat) (bs : List DocBlock) :
    (bs.map (docEnt o psb colors depth)).flatMap Ent.layers =
      (bs.flatMap DocBlock.section?).flatMap fun s => sectionLayers o.skipLayerImage colors depth s.layers := by
  induction bs with
  | nil => rfl
  | cons b bs ih =>
    rw [List.map_cons, List.flatMap_cons, ih, List.flatMap_cons, List.flatMap_append]
    cases b with
    | info b => rfl
    | layers sig key s pad => simp [docEnt, DocBlock.section?]

theorem docEnt_events (o : Options) (psb : Bool) (colors depth : Nat) (bs : List DocBlock) :
    (bs.map (docEnt o psb colors depth)).flatMap Ent.events =
      (bs.flatMap DocBlock.section?).flatMap fun s => sectionEvents o s.layers.length := by
  induction bs with
  | nil => rfl
  | cons b bs ih =>
    rw [List.map_cons, List.flatMap_cons, ih, List.flatMap_cons, List.flatMap_append]
    cases b with
    | info b => rfl
    | layers sig key s pad => simp [docEnt, DocBlock.section?]

theorem docEnt_store (o : Options) (psb : Bool) (colors depth : Nat) (bs : List DocBlock) :
    storeEnts GoMap.empty (bs.map (docEnt o psb colors depth)) = lastInfo (bs.flatMap DocBlock.info?) := by
  rw [← storeEnts_eq psb]
  generalize (GoMap.empty : Infos) = m
  induction bs generalizing m with
  | nil => rfl
  | cons b bs ih =>
    rw [List.map_cons, List.flatMap_cons, List.map_append]
    show storeEnts ((docEnt o psb colors depth b).store m) _ = _
    rw [ih]
    cases b with
    | info b => rfl
    | layers sig key s pad => rfl

theorem mem_flatMap_length {α β : Type} (f : α → List β) {a : α} : ∀ {l : List α}, a ∈ l →
    (f a).length ≤ (l.flatMap f).length := by
  intro l
  induction l with
  | nil => intro h; cases h
  | cons x l ih =>
    intro h
    rw [List.flatMap_cons, List.length_append]
    rcases List.mem_cons.1 h with rfl | h
    · omega
    · have := ih h; omega

theorem section_mem {l : Layer} {s : LayerSection} (h : l ∈ s.layers) (psb : Bool) :
    (l.extra psb).length ≤ (s.bytes psb).length := by
  have : (l.extra psb).length ≤ (l.record psb).length := by
    unfold Layer.record; simp only [List.length_append]; omega
  have h2 : (l.record psb).length ≤ (s.layers.flatMap (Layer.record psb)).length :=
    mem_flatMap_length _ h
  unfold LayerSection.bytes LayerSection.body
  simp only [List.length_append]
  omega

theorem nested_length {k : List UInt8} (h : k ∈ Spec.nestedKeys) : k.length = 4 := by
  simp only [Spec.nestedKeys, List.mem_cons, List.not_mem_nil, or_false] at h
  rcases h with rfl | rfl | rfl <;> rfl

theorem block_mem {b : DocBlock} {bs : List DocBlock} (h : b ∈ bs) (psb : Bool) :
    (b.bytes psb).length ≤ (bs.flatMap (DocBlock.bytes psb)).length :=
  mem_flatMap_length _ h

theorem runs_docBlocks (env : Env) (hp : 1 ≤ env.procs) {cfg : Config} (o : Options) (fuel : Nat)
    (lead : List UInt8) (hlead : ∀ x ∈ lead, x ≠ 56) (bs : List DocBlock)
    (hv : ∀ b ∈ bs, b.Valid cfg.psb cfg.depth (modeColors cfg.colorMode))
    (hm : ∀ s ∈ bs.flatMap DocBlock.section?, s.layers = [] ∨ LayeredMode cfg.colorMode cfg.depth)
    (hz : ∀ s ∈ bs.flatMap DocBlock.section?, ∀ l ∈ s.layers, l.Inflates env.inflate)
    (hf : (lead ++ bs.flatMap (DocBlock.bytes cfg.psb)).length < fuel + 1) :
    RunsE (readAdditionalLayerInfo env cfg o (fuel + 3)
        ((lead ++ bs.flatMap (DocBlock.bytes cfg.psb)).length : Nat))
      (lead ++ bs.flatMap (DocBlock.bytes cfg.psb))
      (lastInfo (bs.flatMap DocBlock.info?),
        (bs.flatMap DocBlock.section?).flatMap fun s =>
          sectionLayers o.skipLayerImage (modeColors cfg.colorMode) cfg.depth s.layers,
        ((lead ++ bs.flatMap (DocBlock.bytes cfg.psb)).length : Nat))
      ((bs.flatMap DocBlock.section?).flatMap fun s => sectionEvents o s.layers.length) := by
  rw [readAdditionalLayerInfo]
  have h := runs_additional (readLayerInfo env cfg o (fuel + 2)) cfg.psb (fuel + 3)
    (bs.map (docEnt o cfg.psb (modeColors cfg.colorMode) cfg.depth)) lead ?_ hlead ?_
  · rw [docEnt_bytes, docEnt_layers, docEnt_events, docEnt_store] at h
    exact h
  · intro e he
    obtain ⟨b, hb, rfl⟩ := List.mem_map.1 he
    have hvb := hv b hb
    have hmb := block_mem hb cfg.psb
    cases b with
    | info b => exact entOf_ok _ _ hvb
    | layers sig key s pad =>
      obtain ⟨h1, h2, h3, h4⟩ := hvb
      refine ⟨h1, nested_length h2, h4, .inr ⟨h2, rfl, _, runs_layerInfo env hp o fuel h3
        (hm s (List.mem_flatMap.2 ⟨_, hb, by simp [DocBlock.section?]⟩))
        (hz s (List.mem_flatMap.2 ⟨_, hb, by simp [DocBlock.section?]⟩)) ?_, rfl⟩⟩
      intro l hl
      have := section_mem hl cfg.psb
      simp only [DocBlock.bytes, List.length_append] at hmb hf
      omega
  · rw [docEnt_bytes]; omega

/-! ### The layer and mask information section -/

theorem runs_globalMask {g : List UInt8} (hg : g.length < 2 ^ 32) {remain : Int} (h : remain ≥ 4) :
    Runs (readGlobalMask remain) (be 4 g.length ++ g) ((be 4 g.length ++ g).length : Int) := by
  unfold readGlobalMask
  rw [if_pos h]
  refine Runs.bind (Runs.readFull (by simp)) ?_
  rw [beAt_last, Nat.mod_eq_of_lt (by omega)]
  simp only
  split
  · refine Runs.bind' (b₂ := []) (Runs.discard rfl) ?_ (List.append_nil _).symm
    exact (Runs.pure _).congr rfl (by simp)
  · have : g = [] := List.eq_nil_of_length_eq_zero (by omega)
    subst this
    exact (Runs.pure _).congr rfl (by simp)

/-- What the three steps after the layer section read. -/
theorem runs_trailer (env : Env) (hp : 1 ≤ env.procs) {cfg : Config} (o : Options) (fuel : Nat)
    {t : Trailer} (hv : t.Valid cfg.psb cfg.depth (modeColors cfg.colorMode))
    (hm : ∀ s ∈ t.docBlocks.flatMap DocBlock.section?, s.layers = [] ∨ LayeredMode cfg.colorMode cfg.depth)
    (hz : ∀ s ∈ t.docBlocks.flatMap DocBlock.section?, ∀ l ∈ s.layers, l.Inflates env.inflate)
    (hf : (t.bytes cfg.psb).length < fuel + 1) (total read : Int) (h0 : 0 ≤ read) (h63 : total < 2 ^ 63)
    (ht : read + (t.bytes cfg.psb).length = total) {α : Type}
    (k : Infos → List LayerRec → Int → P α) (a : α) (es : List Event)
    (hk : ∀ l read', read' + (List.length l : Int) = total → 0 ≤ read' → l.length < wide cfg.psb →
      RunsE (k (lastInfo (t.docBlocks.flatMap DocBlock.info?))
        ((t.docBlocks.flatMap DocBlock.section?).flatMap fun s =>
          sectionLayers o.skipLayerImage (modeColors cfg.colorMode) cfg.depth s.layers) read') l a es) :
    RunsE (do
      let l ← readGlobalMask (wrap64 (total - read))
      let read := read + l
      let (infos, layer2, l) ← (if wrap64 (total - read) ≥ 8 then
          readAdditionalLayerInfo env cfg o (fuel + 3) (wrap64 (total - read))
        else pure (GoMap.empty, [], 0))
      k infos layer2 (read + l)) (t.bytes cfg.psb) a
      (((t.docBlocks.flatMap DocBlock.section?).flatMap fun s => sectionEvents o s.layers.length) ++ es) := by
  have hw8 : wide cfg.psb ≤ 8 ∧ 4 ≤ wide cfg.psb := by cases cfg.psb <;> decide
  rw [wrap64_small (by omega) (by omega)]
  cases t with
  | none slack =>
    simp only [Trailer.Valid, Trailer.bytes, Trailer.docBlocks] at *
    refine Runs.bindE' (a := (0 : Int)) (b₁ := []) (b₂ := slack) ?_ ?_ rfl
    · unfold readGlobalMask
      rw [if_neg (by omega)]
      exact Runs.pure _
    · rw [wrap64_small (by omega) (by omega), if_neg (by omega)]
      refine Runs.bindE' (b₁ := []) (b₂ := slack) (Runs.pure _) ?_ rfl
      refine hk slack _ ?_ ?_ ?_ <;> (try simp only) <;> omega
  | mask g slack =>
    obtain ⟨hg, hsl⟩ := hv
    simp only [Trailer.bytes, Trailer.docBlocks, List.length_append, be_length] at *
    refine Runs.bindE (runs_globalMask hg (by omega)) ?_
    simp only [List.length_append, be_length]
    rw [wrap64_small (by omega) (by omega), if_neg (by omega)]
    refine Runs.bindE' (b₁ := []) (b₂ := slack) (Runs.pure _) ?_ rfl
    refine hk slack _ ?_ ?_ ?_ <;> (try simp only) <;> omega
  | blocks g lead bs =>
    obtain ⟨hg, hlead, h8, hbs⟩ := hv
    simp only [Trailer.bytes, Trailer.docBlocks] at *
    have hb := runs_docBlocks env hp o fuel lead hlead bs hbs hm hz (by
      simp only [List.length_append, be_length] at hf ⊢; omega)
    generalize hX : lead ++ bs.flatMap (DocBlock.bytes cfg.psb) = X at *
    simp only [List.length_append, be_length] at hf ht
    refine Runs.bindE (runs_globalMask hg (by omega)) ?_
    simp only [List.length_append, be_length]
    have e : total - (read + (4 + g.length : Nat)) = (X.length : Nat) := by omega
    rw [e, wrap64_small (by omega) (by omega), if_pos (by omega)]
    refine RunsE.bind' hb (b₂ := []) ?_ (List.append_nil _).symm rfl
    refine hk [] _ ?_ ?_ ?_ <;> (try simp only [List.length_nil]) <;> omega

/-- layer.go:159-190: the end of `readLayerAndMaskInfo`. -/
def lmTail (cfg : Config) (total : Int) (layer : Option (List LayerRec)) (infos : Infos)
    (layer2 : List LayerRec) (read : Int) : P (PSD × Int) :=
  if layer.isSome ∧ layer2 ≠ [] then P.fail (.bad "unexpected layer structure")
  else do
    let tree ← P.lift (buildTree LayerRec.sdType (if layer2 ≠ [] then layer2 else layer.getD []))
    lmFinish cfg total read tree infos

theorem runs_lmFinish (cfg : Config) (total read : Int) (tree : List (LTree LayerRec)) (infos : Infos)
    {l : List UInt8} (hr : read + (l.length : Int) = total) (h0 : 0 ≤ read) (h63 : total < 2 ^ 63)
    (hl : l.length < wide cfg.psb) :
    Runs (lmFinish cfg total read tree infos) l
      ({ config := cfg, layer := tree, infos := infos }, total) := by
  unfold lmFinish
  simp only [get4or8_wide]
  rw [wrap64_small (by omega) (by omega)]
  refine Runs.bind' (a := (l.length : Int)) (b₁ := l) (b₂ := []) ?_ ?_ (List.append_nil _).symm
  · split
    · exact (Runs.discard (by omega)).congr rfl (by omega)
    · have : l = [] := List.eq_nil_of_length_eq_zero (by omega)
      rw [this]; exact Runs.pure _
  · rw [if_neg (by omega)]
    refine (Runs.pure _).congr rfl ?_
    rw [hr]

theorem runs_layerMask (env : Env) (hp : 1 ≤ env.procs) {cfg : Config} (o : Options) (fuel : Nat)
    {m : LayerMask} (hv : m.Valid cfg.psb cfg.depth (modeColors cfg.colorMode))
    (hm : ∀ s ∈ m.sections, s.layers = [] ∨ LayeredMode cfg.colorMode cfg.depth)
    (hz : ∀ s ∈ m.sections, ∀ l ∈ s.layers, l.Inflates env.inflate)
    (hf : (m.body cfg.psb).length < fuel + 1) :
    RunsE (readLayerAndMaskInfo env cfg o (fuel + 3)) (lmBytes cfg.psb (some m))
      ({ config := cfg, layer := treeMeaning o.skipLayerImage (modeColors cfg.colorMode) cfg.depth m.sections,
         infos := lastInfo m.infoBlocks }, ((lmBytes cfg.psb (some m)).length : Int))
      (m.sections.flatMap fun s => sectionEvents o s.layers.length) := by
  obtain ⟨h1, h2, h3, h4⟩ := hv
  obtain ⟨hbe, hlt⟩ := wide_be_at cfg.psb h4
  have hw8 : wide cfg.psb ≤ 8 ∧ 4 ≤ wide cfg.psb := by cases cfg.psb <;> decide
  have hwt : ∀ s ∈ m.sections, WellTypedAll Layer.kind s.forest := by
    intro s hs
    rcases List.mem_append.1 hs with h | h
    · exact (h1 s (by simpa using h)).2.1
    · obtain ⟨b, hb, hs⟩ := List.mem_flatMap.1 h
      cases b with
      | info b => cases hs
      | layers sig key s' pad =>
        simp only [DocBlock.section?, List.mem_singleton] at hs
        subst hs
        cases ht : m.trailer with
        | none _ => rw [ht] at hb; cases hb
        | mask _ _ => rw [ht] at hb; cases hb
        | blocks g lead bs =>
          rw [ht] at hb h2
          exact (h2.2.2.2 _ hb).2.2.1.2.1
  have htree := tree_ok o.skipLayerImage (modeColors cfg.colorMode) cfg.depth m.sections hwt
  unfold readLayerAndMaskInfo lmBytes
  simp only [get4or8_wide]
  generalize hB : m.body cfg.psb = B at *
  refine Runs.bindE (Runs.readFull (by simp)) ?_
  have hBl : wide cfg.psb ≤ B.length := by
    rw [← hB]; unfold LayerMask.body
    cases m.main with
    | none => simp
    | some s => simp only [LayerSection.bytes, List.length_append, be_length]; omega
  rw [hbe, if_neg (by omega)]
  rw [wrap64_small (by omega) (by omega), if_pos (by omega)]
  -- the layer section
  cases hmain : m.main with
  | none =>
    have hsec : m.sections = m.trailer.docBlocks.flatMap DocBlock.section? := by
      unfold LayerMask.sections; rw [hmain]; rfl
    have hBb : B = be (wide cfg.psb) 0 ++ m.trailer.bytes cfg.psb := by
      rw [← hB]; unfold LayerMask.body; rw [hmain]
    rw [hBb] at hf hBl hlt ⊢
    simp only [List.length_append, be_length] at hf hBl hlt ⊢
    refine Runs.bindE (a := (none, (wide cfg.psb : Int))) ?_ ?_
    · rw [readLayerInfo]
      unfold readLayerInfoWith
      simp only [get4or8_wide]
      refine Runs.bind' (b₂ := []) (Runs.readFull (by simp)) ?_ (List.append_nil _).symm
      rw [(wide_be_at cfg.psb (n := 0) (by cases cfg.psb <;> decide)).1]
      exact Runs.pure _
    · simp only
      rw [hsec] at htree hm hz ⊢
      refine (runs_trailer env hp o fuel h2 hm hz (by omega)
        ((wide cfg.psb + (m.trailer.bytes cfg.psb).length : Nat) + (wide cfg.psb : Int))
        ((wide cfg.psb : Int) + (wide cfg.psb : Int)) (by omega) (by omega) (by omega)
        (lmTail cfg ((wide cfg.psb + (m.trailer.bytes cfg.psb).length : Nat) + (wide cfg.psb : Int)) none)
        _ [] ?_).congr rfl rfl (List.append_nil _).symm
      intro l read' hr h0 hl
      unfold lmTail
      simp only [Option.isSome_none, Bool.false_eq_true, false_and, if_false, Option.getD_none]
      refine Runs.toE ?_
      have htl : (if ((m.trailer.docBlocks.flatMap DocBlock.section?).flatMap fun s =>
            sectionLayers o.skipLayerImage (modeColors cfg.colorMode) cfg.depth s.layers) ≠ [] then
          ((m.trailer.docBlocks.flatMap DocBlock.section?).flatMap fun s =>
            sectionLayers o.skipLayerImage (modeColors cfg.colorMode) cfg.depth s.layers) else []) =
          ((m.trailer.docBlocks.flatMap DocBlock.section?).flatMap fun s =>
            sectionLayers o.skipLayerImage (modeColors cfg.colorMode) cfg.depth s.layers) := by
        split
        · rfl
        · rename_i h; exact (Decidable.not_not.1 h).symm
      rw [htl]
      refine Runs.bind' (b₁ := []) (b₂ := l) (Runs.lift htree) ?_ rfl
      refine (runs_lmFinish cfg _ read' _ _ hr h0 (by omega) hl).congr rfl ?_
      simp only [LayerMask.infoBlocks]
      congr 1
      omega
  | some s =>
    have hnone := h3 (by rw [hmain]; rfl)
    have hsec : m.sections = [s] := by
      unfold LayerMask.sections; rw [hmain, hnone]; rfl
    have hBb : B = s.bytes cfg.psb ++ m.trailer.bytes cfg.psb := by
      rw [← hB]; unfold LayerMask.body; rw [hmain]
    rw [hBb] at hf hBl hlt ⊢
    simp only [List.length_append, be_length] at hf hBl hlt ⊢
    rw [hsec] at htree hm hz ⊢
    refine RunsE.bind' (runs_layerInfo env hp o (fuel + 1) (h1 s (by rw [hmain]; rfl)) (hm s (by simp)) (hz s (by simp))
      (fun l hl => by have := section_mem hl cfg.psb; omega)) (b₂ := m.trailer.bytes cfg.psb) (e₂ := []) ?_ rfl
      (by simp)
    simp only
    refine (runs_trailer env hp o fuel h2 (by rw [hnone]; intro s hs; cases hs) (by rw [hnone]; intro s hs; cases hs) (by omega)
      (((s.bytes cfg.psb).length + (m.trailer.bytes cfg.psb).length : Nat) + (wide cfg.psb : Int))
      ((wide cfg.psb : Int) + ((s.bytes cfg.psb).length : Int)) (by omega) (by omega) (by omega)
      (lmTail cfg (((s.bytes cfg.psb).length + (m.trailer.bytes cfg.psb).length : Nat) + (wide cfg.psb : Int)) (some _))
      _ [] ?_).congr rfl rfl (by rw [hnone]; rfl)
    intro l read' hr h0 hl
    rw [hnone]
    unfold lmTail
    simp only [List.flatMap_nil, ne_eq, not_true, and_false, if_false, Option.getD_some]
    refine Runs.toE ?_
    rw [List.flatMap_cons, List.flatMap_nil, List.append_nil] at htree
    refine Runs.bind' (b₁ := []) (b₂ := l) (Runs.lift htree) ?_ rfl
    refine (runs_lmFinish cfg _ read' _ _ hr h0 (by omega) hl).congr rfl ?_
    simp only [LayerMask.infoBlocks]
    congr 1
    omega

theorem runs_noLayerMask (env : Env) {cfg : Config} (o : Options) (fuel : Nat) :
    Runs (readLayerAndMaskInfo env cfg o fuel) (lmBytes cfg.psb none)
      ({ config := cfg }, ((lmBytes cfg.psb none).length : Int)) := by
  unfold readLayerAndMaskInfo lmBytes
  simp only [get4or8_wide]
  refine Runs.bind' (b₂ := []) (Runs.readFull (by simp)) ?_ (List.append_nil _).symm
  rw [(wide_be_at cfg.psb (n := 0) (by cases cfg.psb <;> decide)).1, if_pos Int.natCast_zero]
  exact (Runs.pure _).congr rfl (by simp)

/-! ### Any schedule -/

/-- `p` reads exactly `b`, returns `a` and makes the calls `es`, under every schedule of reads of at
least `m` bytes. -/
def RunsS (m : Nat) {α : Type} (p : P α) (b : List UInt8) (a : α) (es : List Event) : Prop :=
  ∀ (s : St) (rest : List UInt8), ReadsAtLeast m s.sched → s.eager = false → s.avail = b ++ rest →
    s.data.length < 2 ^ 63 → s.pos ≤ s.data.length →
    ∃ sched', p s = .ok (a, { s with pos := s.pos + b.length, sched := sched', log := s.log ++ es }) ∧
      ReadsAtLeast m sched'

theorem RunsE.any {α : Type} {p : P α} {b : List UInt8} {a : α} {es : List Event} {m : Nat}
    (hr : RunsE p b a es) (hs : Sim (SameBytes m) p p) : RunsS m p b a es := by
  intro s rest hsched heager hav hsize hpos
  have hl := congrArg List.length hav
  rw [St.avail_length, List.length_append] at hl
  have h1 := hr { s with sched := [] } rest rfl heager hav (by simp only; omega)
  have h2 := hs { s with sched := [] } s ⟨rfl, by simp, hsched, hsize⟩
  rw [h1] at h2
  split at h2
  · rename_i he hs
    cases he
    obtain ⟨rfl, h3⟩ := h2
    rw [hs]
    refine ⟨_, ?_, h3.2.2.1⟩
    rw [h3.1]
  all_goals first | exact h2.elim | (rename_i he _; cases he)

theorem RunsS.bind {m : Nat} {α β : Type} {p : P α} {f : α → P β} {b₁ b₂ b : List UInt8} {a : α} {c : β}
    {e₁ e₂ e : List Event} (h₁ : RunsS m p b₁ a e₁) (h₂ : RunsS m (f a) b₂ c e₂) (hb : b = b₁ ++ b₂)
    (he : e = e₁ ++ e₂) : RunsS m (p >>= f) b c e := by
  subst hb he
  intro s rest hs heag hav hsize hpos
  rw [List.append_assoc] at hav
  have hl := congrArg List.length hav
  rw [St.avail_length, List.length_append] at hl
  obtain ⟨s1, e1, hs1⟩ := h₁ s _ hs heag hav hsize hpos
  rw [P.bind_ok e1]
  obtain ⟨s2, e2, hs2⟩ := h₂ { s with pos := s.pos + b₁.length, sched := s1, log := s.log ++ e₁ } rest hs1 heag
    (avail_advance hav) hsize (by simp only; omega)
  refine ⟨s2, ?_, hs2⟩
  rw [e2]
  simp [Nat.add_assoc]

theorem RunsS.pure {m : Nat} {α : Type} (a : α) : RunsS m (Pure.pure a : P α) [] a [] :=
  fun s _ hs _ _ _ _ => ⟨s.sched, by simp, hs⟩

theorem RunsS.congr {m : Nat} {α : Type} {p : P α} {b b' : List UInt8} {a a' : α} {e e' : List Event}
    (h : RunsS m p b a e) (hb : b' = b) (ha : a' = a) (he : e' = e) : RunsS m p b' a' e' := by
  subst hb ha he; exact h

theorem RunsS.lift {m : Nat} {α : Type} {x : Res α} {a : α} (h : x = .ok a) : RunsS m (P.lift x) [] a [] := by
  subst h; exact fun s _ hs _ _ _ _ => ⟨s.sched, by simp, hs⟩

theorem RunsS.readFull {m k : Nat} {b : List UInt8} (h : b.length = k) : RunsS m (Psd.readFull k) b b [] :=
  (Runs.readFull h).toE.any (sim_readFull m k)

/-! ### The merged picture -/

theorem mergedPlanes_eq (data : List UInt8) (plane : Nat) : ∀ (n i : Nat),
    mergedPlanes data plane n i = (List.range' i n).map fun j => (data.drop (plane * j)).take plane := by
  intro n
  induction n with
  | zero => intro i; rfl
  | succ n ih => intro i; rw [List.range'_succ, List.map_cons, ← ih]; rfl

theorem mergedChannels_apply (k : PickerKind) (rect : Rect) (f : Nat → List UInt8) : ∀ (n i : Nat) (j : Int),
    mergedChannels k rect ((List.range' i n).map f) i j =
      if (i : Int) ≤ j ∧ j < i + n then
        some ⟨f j.toNat, { kind := k, rect := rect, src := [f j.toNat] }⟩ else none := by
  intro n
  induction n with
  | zero => intro i j; rw [if_neg (by omega)]; rfl
  | succ n ih =>
    intro i j
    rw [List.range'_succ, List.map_cons]
    unfold mergedChannels
    rw [ih]
    by_cases hj : j = (i : Int)
    · subst hj
      rw [if_pos rfl, if_pos (by omega)]
      rfl
    · rw [if_neg hj]
      by_cases h : (i : Int) ≤ j ∧ j < i + (n + 1 : Nat)
      · rw [if_pos h, if_pos (by omega)]
      · rw [if_neg h, if_neg (by omega)]

theorem paletteFrom_ok {cmd : List UInt8} (hc : cmd.length = 768) (t : Int) : ∀ (n i : Nat), i + n ≤ 256 →
    paletteFrom cmd t n i = .ok ((List.range' i n).map fun (j : Nat) =>
      (cmd[j]?.getD 0, cmd[j + 256]?.getD 0, cmd[j + 512]?.getD 0, if (j : Int) = t then 0 else 0xff)) := by
  intro n
  induction n with
  | zero => intro i _; rfl
  | succ n ih =>
    intro i h
    have e : ∀ k, k < 768 → goIndex cmd k = .ok (cmd[k]?.getD 0) := by
      intro k hk
      unfold goIndex
      rw [List.getElem?_eq_getElem (by omega)]
      rfl
    unfold paletteFrom
    rw [e i (by omega), e (i + 256) (by omega), e (i + 512) (by omega), ih (i + 1) (by omega),
      List.range'_succ, List.map_cons]
    rfl

theorem alphaLoop_ok : ∀ (fuel : Nat) (data : List UInt8), data.length ≤ fuel → data.length % 4 = 0 →
    alphaID0Loop fuel data = .ok (decide (∃ i < data.length / 4, num (field data (4 * i) 4) = 0)) := by
  intro fuel
  induction fuel with
  | zero =>
    intro data h1 h2
    have : data = [] := List.eq_nil_of_length_eq_zero (by omega)
    subst this
    simp [alphaID0Loop]
  | succ n ih =>
    intro data h1 h2
    cases hd : data with
    | nil => simp [alphaID0Loop]
    | cons x xs =>
      rw [← hd]
      have hl : 4 ≤ data.length := by
        have : data.length = xs.length + 1 := by rw [hd]; rfl
        omega
      have e : alphaID0Loop (n + 1) data = if data.length < 4 then .panic .index
          else if beNat (data.take 4) = 0 then .ok true
          else alphaID0Loop n (data.drop 4) := by
        rw [hd]; rfl
      rw [e, if_neg (by omega)]
      have h0 : num (field data (4 * 0) 4) = beNat (data.take 4) := by
        rw [num_eq]; unfold field; simp
      split
      · rename_i hz
        rw [decide_eq_true (⟨0, by omega, by rw [h0]; exact hz⟩ : ∃ i, i < data.length / 4 ∧ _)]
      · rename_i hz
        rw [ih _ (by rw [List.length_drop]; omega) (by rw [List.length_drop]; omega)]
        congr 1
        rw [decide_eq_decide, List.length_drop]
        have hf : ∀ i, field (data.drop 4) (4 * i) 4 = field data (4 * (i + 1)) 4 := by
          intro i; unfold field; rw [List.drop_drop]; congr 2; omega
        constructor
        · rintro ⟨i, hi, hz'⟩
          exact ⟨i + 1, by omega, by rw [← hf]; exact hz'⟩
        · rintro ⟨i, hi, hz'⟩
          cases i with
          | zero => exact absurd (by rw [← h0]; exact hz') hz
          | succ i => exact ⟨i, by omega, by rw [hf]; exact hz'⟩

theorem alpha_ok {d : Doc} (h : ∀ r ∈ lastBlock d.resources 0x41D, r.data.length % 4 = 0) :
    (if (d.header.channels : Int) > (modeColors d.header.mode : Nat) then hasAlphaID0 (configMeaning d).res
      else Res.ok false) = .ok d.alpha := by
  unfold Doc.alpha
  split
  · rename_i hgt
    rw [decide_eq_true (by omega : modeColors d.header.mode < d.header.channels), Bool.true_and]
    unfold hasAlphaID0
    have hres : (configMeaning d).res 1053 = (lastBlock d.resources 1053).map fun r => ⟨r.name, r.data⟩ := rfl
    rw [hres]
    cases hb : lastBlock d.resources 1053 with
    | none => rfl
    | some r =>
      exact alphaLoop_ok _ _ (Nat.le_refl _) (h r hb)
  · rename_i hgt
    rw [decide_eq_false (by omega : ¬ modeColors d.header.mode < d.header.channels), Bool.false_and]

/-- The picker chosen for the merged picture. -/
theorem makePicker_ok {d : Doc} (hv : d.Valid) :
    (configMeaning d).makePicker = .ok ((docPicture d).kind, (docPicture d).palette) ∧
    (docPicture d).kind.arity = modeColors d.header.mode +
      (if d.header.mode ≠ 2 ∧ d.header.mode ≠ 0 ∧ d.alpha then 1 else 0) ∧
    (docPicture d).kind.arity ≤ d.header.channels := by
  obtain ⟨-, -, -, h4, h5, h6, -⟩ := hv
  have halpha := alpha_ok h6
  rcases h4 with hm | ⟨hm, -⟩
  · have hne : d.header.mode ≠ 2 ∧ d.header.mode ≠ 0 := by
      unfold LayeredMode at hm; omega
    have hk : (docPicture d).kind = .planes (modeColors d.header.mode) (d.header.depth / 8) d.alpha := by
      unfold docPicture; simp [hne.1, hne.2]
    have hpal : (docPicture d).palette = [] := by unfold docPicture; simp [hne.1]
    have hal : d.alpha = true → modeColors d.header.mode < d.header.channels := by
      unfold Doc.alpha; intro h
      rw [Bool.and_eq_true] at h
      exact of_decide_eq_true h.1
    rw [hk, hpal]
    refine ⟨?_, ?_, ?_⟩
    · unfold Config.makePicker
      have hcm : (configMeaning d).colorMode = d.header.mode := rfl
      rw [hcm, if_neg (show ¬ d.header.mode = cmIndexed from hne.1), if_neg (show ¬ d.header.mode = cmBitmap from hne.2)]
      show ((if (d.header.channels : Int) > ColorMode.channels d.header.mode then
        hasAlphaID0 (configMeaning d).res else Res.ok false) >>= _) = _
      rw [channels_eq hm, halpha]
      show (match findPicker d.header.depth d.header.mode d.alpha with | some k => _ | none => _) = _
      rw [findPicker_layered hm]
    · cases ha : d.alpha <;> simp [PickerKind.arity, hne.1, hne.2]
    · cases ha : d.alpha
      · exact h5
      · exact hal ha
  · rcases hm with ⟨hm, -⟩ | ⟨hm, -, hcd, hr⟩
    · have hk : (docPicture d).kind = .gray1 ∧ (docPicture d).palette = [] := by
        unfold docPicture; simp [hm]
      have hc : modeColors d.header.mode = 1 := by rw [hm]; rfl
      rw [hk.1, hk.2]
      refine ⟨?_, by simp [PickerKind.arity, hm, modeColors], by rw [hc] at h5; exact h5⟩
      have hcm : (configMeaning d).colorMode = d.header.mode := rfl
      unfold Config.makePicker
      rw [hcm, if_neg (by rw [hm]; decide), if_pos (by rw [hm]; rfl)]
    · have hk : (docPicture d).kind = .palette ∧ (docPicture d).palette = docPalette d := by
        unfold docPicture; simp [hm]
      have hc : modeColors d.header.mode = 1 := by rw [hm]; rfl
      rw [hk.1, hk.2]
      refine ⟨?_, by simp [PickerKind.arity, hm, modeColors], by rw [hc] at h5; exact h5⟩
      have hcm : (configMeaning d).colorMode = d.header.mode := rfl
      have hres : (configMeaning d).res 1047 = (lastBlock d.resources 1047).map fun r => ⟨r.name, r.data⟩ := rfl
      unfold Config.makePicker Config.palette
      rw [hcm, if_pos (by rw [hm]; rfl), if_neg (by rw [hm]; decide), hres]
      have key : ∀ t : Int, (∀ i : Nat, ((i : Int) = t ↔
            (lastBlock d.resources 0x417).map (fun r => num (field r.data 0 2)) = some i)) →
          paletteFrom d.header.colorData t (d.header.colorData.length / 3) 0 = .ok (docPalette d) := by
        intro t ht
        rw [hcd, paletteFrom_ok hcd t 256 0 (by omega)]
        unfold docPalette
        rw [List.range_eq_range']
        congr 1
        apply List.map_congr_left
        intro i _
        by_cases h : (i : Int) = t
        · rw [if_pos h, if_pos ((ht i).1 h)]
        · rw [if_neg h, if_neg (fun e => h ((ht i).2 e))]
      cases hb : lastBlock d.resources 0x417 with
      | none =>
        show (paletteFrom d.header.colorData (-1) (d.header.colorData.length / 3) 0 >>= _) >>= _ = _
        rw [key (-1) (by intro i; rw [hb]; simp)]
        rfl
      | some r =>
        have h2 := hr r hb
        have h3 : readUint16 r.data 0 = .ok (num (field r.data 0 2)) := by
          unfold readUint16
          rw [if_pos (by omega), num_eq]; rfl
        show (((readUint16 r.data 0 >>= _) >>= _) >>= _) = _
        rw [h3]
        show (paletteFrom d.header.colorData (num (field r.data 0 2) : Nat) (d.header.colorData.length / 3) 0 >>= _) >>= _ = _
        rw [key _ (by intro i; rw [hb]; simp; omega)]
        rfl

theorem runs_merged (env : Env) (hp : 1 ≤ env.procs) {d : Doc} (hv : d.Valid) (psd : PSD)
    {m : Nat} (hm1 : 1 ≤ m) :
    RunsS m (readMerged env (configMeaning d) psd) (d.merged.bytes d.psb)
      ({ psd with data := d.merged.plane, channel := docChannels d, picker := some (docPicture d) },
        ((d.merged.bytes d.psb).length : Int)) [] := by
  obtain ⟨hpk, har, hle⟩ := makePicker_ok hv
  obtain ⟨hh, -, -, -, -, -, -, hpic, hsl, hnz⟩ := hv
  have hpsb : (configMeaning d).psb = d.psb := by
    unfold Config.psb Doc.psb configMeaning
    cases h : decide (d.header.version = 2) <;> simp_all
  have hmt : methodOf d.merged < 2 := by
    cases hd : d.merged <;> rw [hd] at hnz <;> first | (cases hnz; done) | simp [methodOf]
  have hg := gray_found hh.2.2.2.2.1
  have hrect : (configMeaning d).rect = ⟨0, 0, d.header.width, d.header.height⟩ := rfl
  have hdx : (configMeaning d).rect.dx.toNat = d.header.width := by rw [hrect]; unfold Rect.dx; simp
  have hdy : (configMeaning d).rect.dy.toNat = d.header.height := by rw [hrect]; unfold Rect.dy; simp
  have hdep : (configMeaning d).depth = d.header.depth := rfl
  have hch : (configMeaning d).channels = d.header.channels := rfl
  have hbytes : d.merged.bytes d.psb = be 2 (methodOf d.merged) ++ payloadOf d.psb d.merged := by
    rw [picture_bytes, hsl, List.append_nil]
  unfold readMerged
  simp only [hdx, hdy, hdep, hch, hpsb]
  rw [hbytes]
  refine RunsS.bind (b₁ := []) (a := grayKind d.header.depth)
    (RunsS.lift (by rw [hg.1])) ?_ rfl rfl
  refine RunsS.bind (b₁ := []) (RunsS.lift hpk) ?_ rfl rfl
  simp only
  refine RunsS.bind (b₁ := []) (RunsS.lift (by
    unfold PickerKind.setSource
    rw [if_pos (by rw [List.length_replicate]; exact hle)])) ?_ rfl rfl
  refine RunsS.bind (b₁ := be 2 (methodOf d.merged)) (b₂ := payloadOf d.psb d.merged)
    (RunsS.readFull (be_length _ _)) ?_ rfl rfl
  rw [beAt_last, Nat.mod_eq_of_lt (by omega)]
  have hint : int16 (methodOf d.merged) = (methodOf d.merged : Int) := by
    unfold int16; simp only; split <;> omega
  rw [hint]
  have hrun := picture_run env hp (ch := d.header.channels) hpic hnz (configMeaning d).rect hdx hdy 0
  have hplane : (d.header.width * d.header.depth + 7) / 8 * d.header.height =
      rowLen d.header.depth d.header.width * d.header.height := rfl
  rw [hplane, Nat.mul_assoc]
  refine RunsS.bind (hrun.toE.any (sim_cmDecode hm1 env (by omega) (by omega) _ _ _ _ _ _)) (b₂ := []) ?_
    (List.append_nil _).symm rfl
  refine (RunsS.pure _).congr rfl ?_ rfl
  simp only
  have hmp : mergedPlanes d.merged.plane (rowLen d.header.depth d.header.width * d.header.height)
      d.header.channels 0 = (List.range' 0 d.header.channels).map (mergedPlane d) := by
    rw [mergedPlanes_eq]; rfl
  rw [hmp]
  have h1 : docChannels d = mergedChannels (grayKind d.header.depth) (configMeaning d).rect
      ((List.range' 0 d.header.channels).map (mergedPlane d)) 0 := by
    funext j
    rw [mergedChannels_apply]
    unfold docChannels
    by_cases h : 0 ≤ j ∧ j < (d.header.channels : Int)
    · rw [if_pos h, if_pos (by omega)]
    · rw [if_neg h, if_neg (by omega)]
  have h2 : docPicture d = ⟨(docPicture d).kind, (configMeaning d).rect,
      ((List.range' 0 d.header.channels).map (mergedPlane d)).take (docPicture d).kind.arity,
      (docPicture d).palette⟩ := by
    have : (docPicture d).src = ((List.range' 0 d.header.channels).map (mergedPlane d)).take (docPicture d).kind.arity := by
      rw [← List.map_take, ← List.range_eq_range', List.take_range, Nat.min_eq_left hle, har]
      rfl
    rw [← this]
    rfl
  rw [← h1, ← h2]
  simp only [List.length_append, be_length]
  push_cast
  rfl

/-! ### Documents -/

theorem specConfig_eq (d : Doc) : specConfig d.header d.resources = configMeaning d := by
  unfold specConfig configMeaning
  congr 1
  funext id
  rw [storeBlocks_apply]
  cases lastBlock d.resources id <;> rfl

/-- The bytes that are read. -/
def usedBytes (skipMerged : Bool) (d : Doc) : List UInt8 :=
  d.header.bytes ++ resSection d.resources ++ lmBytes d.psb d.layerMask ++
    (if skipMerged then [] else d.merged.bytes d.psb)

theorem sections_mode {d : Doc} (hv : d.Valid) :
    ∀ s ∈ d.sections, s.layers = [] ∨ LayeredMode d.header.mode d.header.depth := by
  intro s hs
  rcases hv.2.2.2.1 with h | ⟨-, h⟩
  · exact .inr h
  · refine .inl ?_
    have : s.forest = [] := List.flatMap_eq_nil_iff.1 h s hs
    unfold LayerSection.layers
    rw [this]; rfl

theorem runs_doc (env : Env) {d : Doc} (hp : env.Reads d) (hv : d.Valid) (o : Options)
    (ho : o.rejects (configMeaning d) = false) {k m n : Nat} (hk : 3 ≤ k) (hm : d.bytes.length ≤ m) (hn : d.bytes.length + 3 ≤ n) :
    RunsS k (decodeF env o m n) (usedBytes o.skipMergedImage d)
      (docMeaning o.skipLayerImage o.skipMergedImage d, ((usedBytes o.skipMergedImage d).length : Int))
      (if o.layerImageLoaded ∧ ¬ o.skipLayerImage then eventsMeaning d.sections else []) := by
  have hpsb : (configMeaning d).psb = d.psb := by
    unfold Config.psb Doc.psb configMeaning
    cases h : decide (d.header.version = 2) <;> simp_all
  have hrl : (d.resources.flatMap Spec.ResBlock.bytes).length ≤ (resSection d.resources).length := by
    unfold resSection; simp
  have hdl : d.bytes.length = d.header.bytes.length + (resSection d.resources).length +
      (lmBytes d.psb d.layerMask).length + (d.merged.bytes d.psb).length := by
    unfold Doc.bytes; simp only [List.length_append]
  have hcfg := runs_config hv.1 hv.2.1 hv.2.2.1 (fuel := m) (by omega)
  rw [specConfig_eq] at hcfg
  unfold decodeF usedBytes
  rw [List.append_assoc]
  refine RunsS.bind (hcfg.toE.any (sim_decodeConfig (by omega) m)) ?_ rfl (List.nil_append _).symm
  simp only
  rw [ho]
  simp only [Bool.false_eq_true, if_false]
  have hsm := sections_mode hv
  -- the layers
  have hlm : RunsE (readLayerAndMaskInfo env (configMeaning d) o n) (lmBytes d.psb d.layerMask)
      (docLayers o.skipLayerImage d, ((lmBytes d.psb d.layerMask).length : Int))
      (d.sections.flatMap fun s => sectionEvents o s.layers.length) := by
    obtain ⟨n, rfl⟩ : ∃ k, n = k + 3 := ⟨n - 3, by omega⟩
    unfold docLayers
    have hval := hv.2.2.2.2.2.2.1
    have hse : d.sections = match d.layerMask with | none => [] | some m => m.sections := rfl
    have hin : d.infoBlocks = match d.layerMask with | none => [] | some m => m.infoBlocks := rfl
    cases hl : d.layerMask with
    | none =>
      rw [hl] at hse hin
      rw [hse, hin]
      have := runs_noLayerMask env (cfg := configMeaning d) o (n + 3)
      rw [hpsb] at this
      refine this.toE.congr rfl ?_ rfl
      rfl
    | some m =>
      rw [hl] at hse hin hdl
      have hin' := hp.2
      unfold Doc.Inflates at hin'
      rw [hse] at hsm hin' ⊢
      rw [hin]
      have hv' : m.Valid (configMeaning d).psb (configMeaning d).depth (modeColors (configMeaning d).colorMode) := by
        rw [hpsb]; exact hval m hl
      have hb : (m.body (configMeaning d).psb).length < n + 1 := by
        rw [hpsb]
        simp only [lmBytes, List.length_append] at hdl
        omega
      have := runs_layerMask env hp.1 (cfg := configMeaning d) o n hv' hsm hin' hb
      rw [hpsb] at this
      exact this
  refine RunsS.bind (hlm.any (sim_layerAndMask hk env _ o n)) ?_ rfl (e₂ := []) (by rw [events_ok, List.append_nil])
  simp only
  cases hsk : o.skipMergedImage with
  | true =>
    simp only [if_true]
    refine (RunsS.pure _).congr rfl ?_ rfl
    simp only [docMeaning, if_true, List.length_append, List.append_nil]
    congr 1
  | false =>
    simp only [Bool.false_eq_true, if_false]
    refine RunsS.bind (runs_merged env hp.1 hv _ (by omega)) (b₂ := []) ?_ (List.append_nil _).symm rfl
    refine (RunsS.pure _).congr rfl ?_ rfl
    simp only [docMeaning, Bool.false_eq_true, if_false, List.length_append]
    congr 1
    omega

end Psd
