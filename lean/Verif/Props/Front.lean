import Verif.Spec.Unzipped
import Verif.Props.Document

/-
C108, for documents: with `SkipMergedImage` it does not matter what is in the place of the merged picture.
-/

namespace Psd
open Spec (Doc)

/-- The reader is at the start of a document; what is in the place of its merged picture does not matter: it may be
compressed with ZIP, be damaged, or end early. If there is nothing at all, the end must not be reported along with the last
bytes. -/
structure PresentsFront (d : Doc) (s : St) : Prop where
  data : ∃ rest, s.data = d.front ++ rest ∧ (rest ≠ [] ∨ s.eager = false)
  start : s.pos = 0
  sched : ReadsAtLeast 3 s.sched
  size : s.data.length < 2 ^ 63

theorem usedBytes_front (d : Doc) : usedBytes true d = d.front := by
  unfold usedBytes Doc.front
  simp

theorem front_bytes (d : Doc) : d.bytes = d.front ++ d.merged.bytes d.psb := rfl

/-- A reader that presents the whole document is one. -/
theorem Presents.front {d : Doc} {s : St} (h : Presents d s) : PresentsFront d s := by
  obtain ⟨rest, e⟩ := h.data
  refine ⟨⟨d.merged.bytes d.psb ++ rest, by rw [e, front_bytes, List.append_assoc], .inl ?_⟩, h.start, h.sched, h.size⟩
  have h2 : 2 ≤ (d.merged.bytes d.psb).length := by
    unfold Spec.Picture.bytes
    cases d.merged <;> simp <;> omega
  intro hn
  rw [List.append_eq_nil_iff] at hn
  rw [hn.1] at h2
  exact absurd h2 (by decide)

/-- **C108** For every well-formed document, whatever is in the place of its merged picture, `Decode` with `SkipMergedImage` returns the document
without the picture, reports how much it has read, and leaves the reader where the picture begins. -/
theorem C108_any_merged_picture {env : Env} {d : Doc} (hp : env.Reads d) (hv : d.Valid) {o : Options}
    (ho : o.rejects (configMeaning d) = false) (hm : o.skipMergedImage = true) {s : St} (hs : PresentsFront d s) :
    ∃ s', decode env o s = .ok ((docMeaning o.skipLayerImage true d, (d.front.length : Int)), s') ∧ s'.pos = d.front.length ∧
      s'.log = s.log ++ (if o.layerImageLoaded ∧ ¬ o.skipLayerImage then eventsMeaning d.sections else []) := by
  obtain ⟨rest, hd, hr⟩ := hs.data
  have hl : d.front.length + rest.length = s.data.length := by rw [hd, List.length_append]
  have hav : s.avail = d.front ++ rest := by
    unfold St.avail
    rw [hd, hs.start, List.drop_zero]
  have hrun : ∃ s', decode env o { s with kind := .plain, eager := false } = .ok ((docMeaning o.skipLayerImage true d, (d.front.length : Int)), s') ∧ s'.pos = d.front.length ∧
      s'.log = s.log ++ (if o.layerImageLoaded ∧ ¬ o.skipLayerImage then eventsMeaning d.sections else []) := by
    rw [decode_eq env o _ (m := s.data.length + d.bytes.length + 1) (n := s.data.length + d.bytes.length + 3) (by simp only; omega) (by simp only; omega)]
    obtain ⟨sched', e, -⟩ := runs_doc env hp hv o ho (k := 3) (Nat.le_refl 3) (m := s.data.length + d.bytes.length + 1)
      (n := s.data.length + d.bytes.length + 3) (by omega) (by omega) { s with kind := .plain, eager := false } rest hs.sched rfl
      (by rw [hm, usedBytes_front]; exact hav) hs.size (by simp only; rw [hs.start]; omega)
    rw [hm, usedBytes_front] at e
    refine ⟨_, e, ?_, rfl⟩
    simp only [hs.start, Nat.zero_add]
  obtain ⟨s', e, h1, h2⟩ := hrun
  refine ⟨_, decode_any_reader env o (by rw [hs.start]; omega) hs.size e (.inr ?_), h1, h2⟩
  rcases hr with h | h
  · left
    have := List.length_pos_iff.2 h
    omega
  · exact .inr h

/-- The example document without any merged picture, and with nonsense in its place. -/
example : PresentsFront exDoc { data := exDoc.front } ∧ PresentsFront exDoc { data := exDoc.front ++ [255], eager := true, kind := .seeker, sched := [5] } :=
  ⟨⟨⟨[], (List.append_nil _).symm, .inr rfl⟩, rfl, (by intro c h; cases h), (by decide +kernel)⟩,
   ⟨⟨[255], rfl, .inl (by decide)⟩, rfl, (by intro c h; simp at h; omega), (by decide +kernel)⟩⟩

end Psd
