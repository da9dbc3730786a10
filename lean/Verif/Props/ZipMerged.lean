import Verif.Lemmas.ZipMerged
import Verif.Props.Document

/-
C107: documents whose merged picture is compressed with ZIP.
-/

namespace Psd
open Spec (Picture Doc)

theorem decode_zip_lazy {env : Env} {d : Doc} (hp : env.Reads d) (hv : d.ZipValid) {o : Options}
    (ho : o.rejects (configMeaning d) = false) (hm : o.skipMergedImage = false) {s : St} {rest : List UInt8}
    (hin : d.merged.Inflates fun b n => env.inflate (b ++ rest) n) (hd : s.data = d.bytes ++ rest) (hstart : s.pos = 0)
    (hsched : ReadsAtLeast 3 s.sched) (hsize : s.data.length < 2 ^ 63) (he : s.eager = false) :
    ∃ s', decode env o s = .ok ((docMeaning o.skipLayerImage false d, (s'.pos : Int)), s') ∧
      s'.pos + d.packed.length = d.bytes.length + min (env.pulled (d.packed ++ rest) d.merged.plane.length s'.sched) (d.packed.length + rest.length) ∧
      s'.log = s.log ++ (if o.layerImageLoaded ∧ ¬ o.skipLayerImage then eventsMeaning d.sections else []) := by
  obtain ⟨hv1, hv2, hz⟩ := hv
  obtain ⟨hb, hpl⟩ := payload_packed hz
  have hbytes : d.bytes = usedBytes true d ++ d.merged.bytes d.psb := by
    unfold Doc.bytes usedBytes; simp
  rw [decode_eq env o s (m := s.data.length + d.unzipped.bytes.length + 1) (n := s.data.length + d.unzipped.bytes.length + 3) (by omega) (by omega),
    decodeF_split]
  have hav : s.avail = usedBytes true d ++ (d.merged.bytes d.psb ++ rest) := by
    unfold St.avail
    rw [hd, hstart, hbytes, List.drop_zero, List.append_assoc]
  obtain ⟨sched₁, e1, h1⟩ := pre_unzipped env hp hv1 o ho (k := 3) (Nat.le_refl 3) (m := s.data.length + d.unzipped.bytes.length + 1)
    (n := s.data.length + d.unzipped.bytes.length + 3) (by omega) (by omega) s _ hsched he hav hsize (by rw [hstart]; omega)
  rw [P.bind_ok e1]
  unfold postF
  rw [hm]
  simp only [Bool.false_eq_true, if_false]
  have hlen : d.bytes.length = (usedBytes true d).length + (2 + d.packed.length) := by
    rw [hbytes, List.length_append, hb, List.length_append, be_length]
  have hdl : s.data.length = d.bytes.length + rest.length := by rw [hd, List.length_append]
  obtain ⟨sched₂, e2⟩ := merged_zip env hv1 hv2 hz (docLayers o.skipLayerImage d)
    (s := { s with pos := s.pos + (usedBytes true d).length, sched := sched₁,
                   log := s.log ++ (if o.layerImageLoaded ∧ ¬ o.skipLayerImage then eventsMeaning d.sections else []) })
    hin h1 he (avail_advance hav) hsize (by simp only [hstart]; omega)
  rw [P.bind_ok e2]
  refine ⟨{ s with pos := s.pos + (usedBytes true d).length + (2 + zipRead env (payloadOf d.psb d.merged) rest d.merged.plane.length sched₂), sched := sched₂,
                   log := s.log ++ (if o.layerImageLoaded ∧ ¬ o.skipLayerImage then eventsMeaning d.sections else []) }, ?_, ?_, rfl⟩
  · show Res.ok _ = Res.ok _
    congr 1
    rw [Prod.mk.injEq, Prod.mk.injEq]
    refine ⟨⟨rfl, ?_⟩, rfl⟩
    simp only [hstart]
    push_cast
    omega
  · simp only [hstart, hpl]
    unfold zipRead
    omega

/-- **C107 Compressed merged pictures are read** (part). For every document whose merged picture is compressed with ZIP, with
or without prediction, in an environment that inflates the compressed data to the picture whatever follows, and for every
reader: `Decode` returns the document, its merged picture and its layers, and the calls of `LayerImageLoaded`. How far the reader
has advanced is up to `compress/zlib`: `env.pulled` bytes of the compressed data and of what follows them. Missing: that the
reader is at the end of the document; see `C107_reads_ahead`. -/
theorem C107_zip_merged_partial {env : Env} {d : Doc} (hp : env.Reads d) (hv : d.ZipValid) {o : Options}
    (ho : o.rejects (configMeaning d) = false) (hm : o.skipMergedImage = false) {s : St} {rest : List UInt8}
    (hin : d.merged.Inflates fun b n => env.inflate (b ++ rest) n) (hd : s.data = d.bytes ++ rest) (hstart : s.pos = 0)
    (hsched : ReadsAtLeast 3 s.sched) (hsize : s.data.length < 2 ^ 63) :
    ∃ s', decode env o s = .ok ((docMeaning o.skipLayerImage false d, (s'.pos : Int)), s') ∧
      s'.pos + d.packed.length = d.bytes.length + min (env.pulled (d.packed ++ rest) d.merged.plane.length s'.sched) (d.packed.length + rest.length) ∧
      s'.log = s.log ++ (if o.layerImageLoaded ∧ ¬ o.skipLayerImage then eventsMeaning d.sections else []) := by
  obtain ⟨s', e, h1, h2⟩ := decode_zip_lazy hp hv ho hm (s := { s with kind := .plain, eager := false }) hin hd hstart hsched hsize rfl
  exact ⟨_, decode_any_reader env o (by rw [hstart]; omega) hsize e (.inl hm), h1, h2⟩

/-- The claim that the reader is left at the end of the document holds exactly if `compress/zlib` reads no further than the compressed
data; if it fills a buffer from the reader, as it does for a reader that is not an `io.ByteReader`, everything after the document may be lost. -/
theorem C107_reads_ahead {env : Env} {d : Doc} (hp : env.Reads d) (hv : d.ZipValid) {o : Options}
    (ho : o.rejects (configMeaning d) = false) (hm : o.skipMergedImage = false) {s : St} {rest : List UInt8}
    (hin : d.merged.Inflates fun b n => env.inflate (b ++ rest) n) (hd : s.data = d.bytes ++ rest) (hstart : s.pos = 0)
    (hsched : ReadsAtLeast 3 s.sched) (hsize : s.data.length < 2 ^ 63) :
    ∃ s', decode env o s = .ok ((docMeaning o.skipLayerImage false d, (s'.pos : Int)), s') ∧
      ((∀ sched, env.pulled (d.packed ++ rest) d.merged.plane.length sched = d.packed.length) → s'.pos = d.bytes.length) ∧
      ((∀ sched, env.pulled (d.packed ++ rest) d.merged.plane.length sched = (d.packed ++ rest).length) → s'.pos = s.data.length) := by
  obtain ⟨s', e, h1, -⟩ := C107_zip_merged_partial hp hv ho hm hin hd hstart hsched hsize
  refine ⟨s', e, fun h => ?_, fun h => ?_⟩
  · rw [h] at h1
    omega
  · rw [h, List.length_append] at h1
    rw [hd, List.length_append]
    omega

/-! ### Examples -/

/-- The example document with a merged picture whose "compressed" form is the picture itself after a byte. -/
def exZipMerged : Doc := { exDoc with merged := .zip [120, 1, 2, 3, 4, 5, 6, 7, 8] [1, 2, 3, 4, 5, 6, 7, 8] }

/-- The same with 16-bit samples and prediction. -/
def exZipDelta : Doc where
  header := { version := 2, channels := 3, height := 1, width := 2, depth := 16, mode := 3, colorData := [] }
  resources := []
  layerMask := none
  merged := .zipDelta [120, 0, 5, 255, 255, 1, 0, 0, 1, 0, 0, 0, 9] 2 [[5, 4], [256, 257], [0, 9]]

theorem exZipMerged_valid : exZipMerged.ZipValid := by decide +kernel

example : exZipDelta.ZipValid := by decide +kernel

/-- An inflate for the examples, which reads ahead. -/
def exAheadEnv : Env := ⟨2, fun w n => if w.headD 0 = 120 then some ((w.drop 1).take n) else none, fun w _ _ => w.length⟩

/-- Bytes after the document are swallowed. -/
example : ∃ s', decode exAheadEnv {} { data := exZipMerged.bytes ++ [7, 7, 7] } =
      .ok ((docMeaning false false exZipMerged, (s'.pos : Int)), s') ∧ s'.pos = exZipMerged.bytes.length + 3 := by
  obtain ⟨s', e, -, h⟩ := C107_reads_ahead (env := exAheadEnv) (d := exZipMerged) (reads_stored (by decide) (by decide +kernel))
    exZipMerged_valid (o := {}) rfl rfl (s := { data := exZipMerged.bytes ++ [7, 7, 7] }) (rest := [7, 7, 7]) (by decide +kernel) rfl rfl
    (by intro c hc; cases hc) (by decide +kernel)
  refine ⟨s', e, ?_⟩
  rw [h fun _ => rfl]
  show (exZipMerged.bytes ++ [7, 7, 7]).length = _
  generalize exZipMerged.bytes = b
  simp

example : exZipDelta.merged.Inflates (fun b n => exAheadEnv.inflate (b ++ [1, 2]) n) ∧
    exZipDelta.merged.plane = [0, 5, 0, 4, 1, 0, 1, 1, 0, 0, 0, 9] := by decide +kernel

end Psd
