import Verif.Props.Document
import Verif.Lemmas.Groups

/-
Properties C23 (order and numbering of the layers) and C30 (calls of `LayerImageLoaded`).
-/

namespace Psd
open Spec (Layer LayerSection Doc DocBlock)

/-! ### C23 -/

theorem pairwise_range (n : Nat) : (List.range n).Pairwise (· < ·) := List.pairwise_lt_range

/-- **C23 Layers keep file order and unique SeqID** (part), for every input: when `Decode` succeeds,
the layer tree is built from the records of some layer sections of the file, one after the other; in each
section the record at position `i` has SeqID `i`; the layers of the tree, read depth-first, are in the
order of the records.  If there is only one section with records, SeqIDs strictly increase.  Missing:
files with several layer sections, for which `C23_two_sections_repeat_seqID` shows that the claim is
false. -/
theorem C23_order_partial {env : Env} {o : Options} {s : St} {psd : PSD} {n : Int} {s' : St}
    (h : decode env o s = .ok ((psd, n), s')) :
    ∃ gs : List (List LayerRec), buildTree LayerRec.sdType gs.flatten = .ok psd.layer ∧
      (∀ g ∈ gs, ∀ i : Nat, (g[i]?).map LayerRec.seqID = if i < g.length then some i else none) ∧
      (postAll psd.layer).Sublist gs.flatten ∧
      ((gs.filter fun g => !g.isEmpty).length ≤ 1 →
        ((postAll psd.layer).map LayerRec.seqID).Pairwise (· < ·)) := by
  obtain ⟨gs, h1, h2', -⟩ := grp_decode env o s _ s' h
  have h2 : ∀ g ∈ gs, g.map LayerRec.seqID = List.range g.length := fun g hg => (h2' g hg).1
  have hs := buildTree_sublist _ h1
  refine ⟨gs, h1, fun g hg i => ?_, hs, fun hl => ?_⟩
  · rw [← List.getElem?_map, h2 g hg]
    by_cases hi : i < g.length
    · rw [if_pos hi, List.getElem?_range hi]
    · rw [if_neg hi]; exact List.getElem?_eq_none (by simpa using hi)
  · refine List.Pairwise.sublist (hs.map LayerRec.seqID) ?_
    have hf : gs.flatten = (gs.filter fun g => !g.isEmpty).flatten := List.flatten_filter_not_isEmpty.symm
    have hm : ∀ g ∈ gs.filter fun g => !g.isEmpty, g ∈ gs := fun g hg => (List.mem_filter.1 hg).1
    rw [hf]
    generalize gs.filter (fun g => !g.isEmpty) = fs at hl hm
    match fs, hl with
    | [], _ => exact List.Pairwise.nil
    | [g], _ => simpa [h2 g (hm g (List.mem_singleton.2 rfl))] using pairwise_range g.length

/-- The example document is decoded successfully. -/
example : ∃ psd n s', decode exEnv {} (exReader exDoc) = .ok ((psd, n), s') :=
  let ⟨s', h, _⟩ := decode_doc (exDoc_reads (Nat.le_refl 1)) exDoc_valid (o := {}) rfl exReader_presents
  ⟨_, _, s', h⟩

/-- The records of a section with their numbers, dividers left out, are numbered increasingly. -/
theorem shown_pairwise {d : Doc} (h : d.sections.length ≤ 1) : ((shown d).map Prod.fst).Pairwise (· < ·) := by
  unfold shown
  match hs : d.sections, h with
  | [], _ => exact List.Pairwise.nil
  | [x], _ =>
    simp only [List.flatMap_cons, List.flatMap_nil, List.append_nil]
    have e : (x.layers.zipIdx.map fun p => (p.2, p.1)).map Prod.fst = List.range x.layers.length := by
      rw [List.map_map]
      have := List.zipIdx_map_snd 0 x.layers
      rw [List.range_eq_range', ← this]; rfl
    exact List.Pairwise.sublist ((List.filter_sublist ..).map Prod.fst) (e ▸ pairwise_range _)

/-- **C23** (part), for well-formed documents that keep their layers in one section (all 8-bit
documents do): the layer read `k`-th in depth-first order is the `k`-th record of the file that is not a
folder divider, its SeqID is its position among the records, and SeqIDs strictly increase. -/
theorem C23_documents_partial {env : Env} {d : Doc} (hp : env.Reads d) (hv : d.Valid) {o : Options}
    (ho : o.rejects (configMeaning d) = false) {s : St} (hs : Presents d s) {sec : LayerSection}
    (h1 : d.sections = [sec]) :
    ∃ psd n s', decode env o s = .ok ((psd, n), s') ∧
      ((postAll psd.layer).map LayerRec.seqID).Pairwise (· < ·) ∧
      (postAll psd.layer).map LayerRec.seqID =
        (List.range sec.layers.length).filter fun i => decide (∀ l, sec.layers[i]? = some l → l.kind ≠ 3) := by
  obtain ⟨s', h, -⟩ := decode_doc hp hv ho hs
  have hl : (docMeaning o.skipLayerImage o.skipMergedImage d).layer =
      treeMeaning o.skipLayerImage (Spec.modeColors d.header.mode) d.header.depth d.sections := by
    unfold docMeaning; split <;> rfl
  have hq : (postAll (docMeaning o.skipLayerImage o.skipMergedImage d).layer).map LayerRec.seqID =
      (shown d).map Prod.fst := by
    rw [hl, post_treeMeaning _ _ _ (doc_typed hv), List.map_map]
    apply List.map_congr_left
    intro p _
    cases o.skipLayerImage <;> rfl
  refine ⟨_, _, s', h, ?_, ?_⟩
  · rw [hq]; exact shown_pairwise (by simp [h1])
  · rw [hq]
    unfold shown
    rw [h1]
    simp only [List.flatMap_cons, List.flatMap_nil, List.append_nil]
    rw [List.filter_map, List.map_map]
    have key : ∀ (ls : List Layer) (k : Nat) (all : List Layer), (∀ j, ls[j]? = all[k + j]?) →
        ((ls.zipIdx k).filter ((fun p : Nat × Layer => decide (p.2.kind ≠ 3)) ∘ fun p : Layer × Nat => (p.2, p.1))).map
          (Prod.fst ∘ fun p : Layer × Nat => (p.2, p.1)) =
        (List.range' k ls.length).filter fun i => decide (∀ l, all[i]? = some l → l.kind ≠ 3) := by
      intro ls
      induction ls with
      | nil => intro k all _; rfl
      | cons l ls ih =>
        intro k all ha
        have h0 : all[k]? = some l := by have := ha 0; simpa using this.symm
        rw [List.zipIdx_cons, List.length_cons, List.range'_succ, List.filter_cons, List.filter_cons]
        have e : (decide (∀ x, all[k]? = some x → x.kind ≠ 3)) = decide (l.kind ≠ 3) := by
          rw [h0]; simp
        rw [e]
        have ih := ih (k + 1) all fun j => by
          have := ha (j + 1)
          rw [List.getElem?_cons_succ] at this
          rw [this]; congr 1; omega
        simp only [Function.comp_apply]
        split
        · rw [List.map_cons, ih]; rfl
        · exact ih
    rw [List.range_eq_range']
    exact key sec.layers 0 sec.layers fun j => by rw [Nat.zero_add]

/-- The example document has one section with five records; the dividers are left out. -/
example : exDoc.sections = [exSection] ∧ exSection.layers.length = 5 ∧
    (List.range 5).filter (fun i => decide (∀ l, exSection.layers[i]? = some l → l.kind ≠ 3)) = [1, 2, 3, 4] :=
  ⟨rfl, by decide +kernel, by decide +kernel⟩

/-- A document with two layer blocks of one layer each. -/
def exTwoDoc : Doc :=
  { exDoc with
    layerMask := some ⟨none, .blocks [] []
      [.layers [56, 66, 73, 77] [76, 114, 49, 54] { forest := [.layer (exFolder 0)] } [],
       .layers [56, 66, 73, 77] [76, 114, 51, 50] { forest := [.layer (exFolder 0)] } []]⟩ }

/-- The claim is false when layers come from two blocks: both layers get SeqID 0. -/
theorem C23_two_sections_repeat_seqID :
    (outcome (decode exEnv {} { data := exTwoDoc.bytes })).map
      (fun r => (postAll r.1.layer).map LayerRec.seqID) = .ok [0, 0] := by decide +kernel

/-! ### C30 -/

/-- **C30 LayerImageLoaded is called once per layer in order** (part), for every input: when `Decode`
succeeds with the callback set, the calls are, for each layer section of the file in turn, one per
record with SeqID and index 0, 1, 2, … and the number of records of that section as total.  If there
is one section these are the indexes 0 to n-1 with total n, one for each record.  Without the
callback or with SkipLayerImage there are none.  Missing: several layer sections, for which
`C30_two_sections_restart` shows that the claim is false. -/
theorem C30_callbacks_partial {env : Env} {o : Options} {s : St} {psd : PSD} {n : Int} {s' : St}
    (h : decode env o s = .ok ((psd, n), s')) :
    ∃ gs : List (List LayerRec), buildTree LayerRec.sdType gs.flatten = .ok psd.layer ∧
      (∀ g ∈ gs, g.map LayerRec.seqID = List.range g.length) ∧
      s'.log = s.log ++
        (if o.layerImageLoaded ∧ ¬ o.skipLayerImage then
          gs.flatMap fun g => (List.range g.length).map fun j => ⟨j, j, g.length⟩ else []) ∧
      (∀ ls, gs = [ls] → o.layerImageLoaded = true → o.skipLayerImage = false →
        s'.log = s.log ++ (List.range ls.length).map fun j => ⟨j, j, ls.length⟩) := by
  obtain ⟨gs, h1, h2', h3⟩ := grp_decode env o s _ s' h
  have h2 : ∀ g ∈ gs, g.map LayerRec.seqID = List.range g.length := fun g hg => (h2' g hg).1
  refine ⟨gs, h1, h2, h3, ?_⟩
  rintro ls rfl hl hk
  rw [h3]; simp [calls, sectionCalls, hl, hk]

/-- **C30** (part), for well-formed documents with one layer section: the calls are exactly one per
record, in file order, with the right total. -/
theorem C30_documents_partial {env : Env} {d : Doc} (hp : env.Reads d) (hv : d.Valid) {o : Options}
    (ho : o.rejects (configMeaning d) = false) (hl : o.layerImageLoaded = true) (hk : o.skipLayerImage = false)
    {s : St} (hs : Presents d s) {sec : LayerSection} (h1 : d.sections = [sec]) :
    ∃ psd n s', decode env o s = .ok ((psd, n), s') ∧
      s'.log = s.log ++ (List.range sec.layers.length).map fun j => ⟨j, j, sec.layers.length⟩ := by
  obtain ⟨s', h, -, h3⟩ := decode_doc hp hv ho hs
  refine ⟨_, _, s', h, ?_⟩
  rw [h3, h1]
  simp [hl, hk, eventsMeaning]

/-- The example document meets the hypotheses; five calls are made. -/
example : ∃ psd n s', decode exEnv { layerImageLoaded := true } (exReader exDoc) = .ok ((psd, n), s') ∧
    s'.log = [⟨0, 0, 5⟩, ⟨1, 1, 5⟩, ⟨2, 2, 5⟩, ⟨3, 3, 5⟩, ⟨4, 4, 5⟩] :=
  C30_documents_partial (o := { layerImageLoaded := true }) (exDoc_reads (Nat.le_refl 1)) exDoc_valid rfl rfl rfl
    exReader_presents (sec := exSection) rfl

/-- The callbacks made on an input that decodes. -/
def loggedCalls {α : Type} : Res (α × St) → Option (List Event)
  | .ok (_, s) => some s.log
  | _ => none

/-- The claim is false when layers come from two blocks: the index restarts, and the total is that
of the block. -/
theorem C30_two_sections_restart :
    loggedCalls (decode exEnv { layerImageLoaded := true } { data := exTwoDoc.bytes }) =
      some [⟨0, 0, 1⟩, ⟨0, 0, 1⟩] := by decide +kernel

end Psd
