import Verif.Lemmas.FileRun
import Verif.Lemmas.Eager
import Verif.Spec.Unzipped

/-
Documents whose merged picture is compressed with ZIP.
-/

namespace Psd
open Spec (Picture Doc be modeColors lmBytes rowLen resSection)

/-- How far the reader gets with compressed data `packed` and `rest` after them. -/
def zipRead (env : Env) (packed rest : List UInt8) (want : Nat) (sched : List Nat) : Nat :=
  min (env.pulled (packed ++ rest) want sched) (packed.length + rest.length)

theorem cmDecode_zip (env : Env) {psb : Bool} {depth w h ch : Nat} {p : Picture} (hv : p.Valid psb depth w (h * ch))
    (hz : p.isZip = true) {rest : List UInt8} (hin : p.Inflates fun b n => env.inflate (b ++ rest) n) {rect : Rect}
    (hw : rect.dx.toNat = w) {s : St} (hav : s.avail = payloadOf psb p ++ rest) (hsize : s.data.length < 2 ^ 63) :
    cmDecode env (methodOf p : Nat) (List.replicate (rowLen depth w * (h * ch)) 0) 0 rect depth ch psb s =
      .ok ((p.plane, (zipRead env (payloadOf psb p) rest p.plane.length s.sched : Int)),
        { s with pos := s.pos + zipRead env (payloadOf psb p) rest p.plane.length s.sched }) := by
  have hl := plane_length hv
  have hlen : s.avail.length < 2 ^ 63 := by rw [St.avail_length]; omega
  have hwin : s.avail.take (2 ^ 63 - 1) = payloadOf psb p ++ rest := by
    rw [← hav]; exact List.take_of_length_le (by omega)
  cases p with
  | raw => cases hz
  | rle => cases hz
  | zip packed plane =>
    have hi : env.inflate (packed ++ rest) plane.length = some plane := hin
    show cmDecode env 2 _ 0 rect depth ch psb s = _
    unfold cmDecode
    rw [if_neg (by decide), if_neg (by decide), if_pos rfl, List.length_replicate, ← hl]
    unfold decodeZLIB
    simp only [if_true]
    rw [hwin]
    show (match env.inflate (packed ++ rest) plane.length with | none => _ | some out => _) = _
    rw [hi]
    simp only [Picture.plane, if_true, payloadOf, zipRead, List.length_append]
  | zipDelta packed sz rows =>
    have hi : env.inflate (packed ++ rest) (Spec.planeBytes sz rows).length = some (Spec.predicted sz rows) := hin
    obtain ⟨h0, hsz, hd, hr, hrows⟩ := hv
    have h2 : (Spec.predicted sz rows).length = (Spec.planeBytes sz rows).length := by
      rw [predicted_length sz w rows fun r hr => (hrows r hr).1,
        planeBytes_length sz w rows fun r hr => (hrows r hr).1]
    show cmDecode env 3 _ 0 rect depth ch psb s = _
    unfold cmDecode
    rw [if_neg (by decide), if_neg (by decide), if_neg (by decide), if_pos rfl, List.length_replicate, ← hl]
    rw [P.bind_ok (s' := { s with pos := s.pos + zipRead env packed rest (Spec.planeBytes sz rows).length s.sched })
      (a := (Spec.predicted sz rows, (zipRead env packed rest (Spec.planeBytes sz rows).length s.sched : Int)))]
    · simp only
      rw [hd, hw, delta_undone hsz hrows]
      rfl
    · unfold decodeZLIB
      simp only [if_true]
      rw [hwin]
      show (match env.inflate (packed ++ rest) (Spec.planeBytes sz rows).length with | none => _ | some out => _) = _
      rw [hi]
      simp only [Picture.plane, h2, if_true, payloadOf, zipRead, List.length_append]

/-- The merged picture. -/
theorem merged_zip (env : Env) {d : Doc} (hv : d.unzipped.Valid)
    (hm : d.merged.Valid d.psb d.header.depth d.header.width (d.header.height * d.header.channels)) (hz : d.merged.isZip = true)
    (psd : PSD) {s : St} {rest : List UInt8} (hin : d.merged.Inflates fun b n => env.inflate (b ++ rest) n) {k : Nat}
    (hsched : ReadsAtLeast k s.sched) (he : s.eager = false) (hav : s.avail = d.merged.bytes d.psb ++ rest)
    (hsize : s.data.length < 2 ^ 63) (hpos : s.pos ≤ s.data.length) :
    ∃ sched', readMerged env (configMeaning d) psd s =
      .ok (({ psd with data := d.merged.plane, channel := docChannels d, picker := some (docPicture d) },
          (2 + zipRead env (payloadOf d.psb d.merged) rest d.merged.plane.length sched' : Nat)),
        { s with pos := s.pos + (2 + zipRead env (payloadOf d.psb d.merged) rest d.merged.plane.length sched'), sched := sched' }) := by
  obtain ⟨hpk, har, hle⟩ := makePicker_ok hv
  have hh : d.header.Valid := hv.1
  have hpsb : (configMeaning d).psb = d.psb := by
    unfold Config.psb Doc.psb configMeaning
    cases h : decide (d.header.version = 2) <;> simp_all
  have hg := gray_found hh.2.2.2.2.1
  have hrect : (configMeaning d).rect = ⟨0, 0, d.header.width, d.header.height⟩ := rfl
  have hdx : (configMeaning d).rect.dx.toNat = d.header.width := by rw [hrect]; unfold Rect.dx; simp
  have hdy : (configMeaning d).rect.dy.toNat = d.header.height := by rw [hrect]; unfold Rect.dy; simp
  have hdep : (configMeaning d).depth = d.header.depth := rfl
  have hch : (configMeaning d).channels = d.header.channels := rfl
  have hsl : d.merged.slack = [] := by cases e : d.merged <;> rw [e] at hz <;> first | (cases hz; done) | rfl
  have hbytes : d.merged.bytes d.psb = be 2 (methodOf d.merged) ++ payloadOf d.psb d.merged := by
    rw [picture_bytes, hsl, List.append_nil]
  have hmt := method_lt d.merged
  rw [hbytes, List.append_assoc] at hav
  obtain ⟨sched', h2, -⟩ := RunsS.readFull (m := k) (be_length 2 (methodOf d.merged)) s (payloadOf d.psb d.merged ++ rest) hsched he hav hsize hpos
  rw [be_length] at h2
  refine ⟨sched', ?_⟩
  unfold readMerged
  simp only [hdx, hdy, hdep, hch, hpsb]
  rw [P.bind_ok (a := grayKind d.header.depth) (s' := s) (by rw [hg.1]; rfl)]
  rw [P.bind_ok (a := ((docPicture d).kind, (docPicture d).palette)) (s' := s) (by
    have : (configMeaning d).makePicker = .ok ((docPicture d).kind, (docPicture d).palette) := hpk
    rw [this]; rfl)]
  simp only
  have hset : (docPicture d).kind.setSource (configMeaning d).rect (List.replicate d.header.channels []) = .ok
      { kind := (docPicture d).kind, rect := (configMeaning d).rect, src := (List.replicate d.header.channels []).take (docPicture d).kind.arity } := by
    unfold PickerKind.setSource
    rw [if_pos (by rw [List.length_replicate]; exact hle)]
  rw [hset]
  rw [P.bind_ok (p := P.lift (.ok _)) (s' := s) rfl]
  rw [P.bind_ok h2]
  rw [beAt_last, Nat.mod_eq_of_lt (by omega)]
  have hint : int16 (methodOf d.merged) = (methodOf d.merged : Int) := by
    unfold int16; simp only; split <;> omega
  rw [hint]
  have hplane : (d.header.width * d.header.depth + 7) / 8 * d.header.height =
      rowLen d.header.depth d.header.width * d.header.height := rfl
  rw [hplane, Nat.mul_assoc]
  rw [List.append_nil]
  rw [P.bind_ok (cmDecode_zip env hm hz hin hdx (psb := d.psb) (s := { s with pos := s.pos + 2, sched := sched' }) (by
    have := avail_advance hav
    rw [be_length] at this
    exact this) hsize)]
  simp only
  have hmp : mergedPlanes d.merged.plane (rowLen d.header.depth d.header.width * d.header.height)
      d.header.channels 0 = (List.range' 0 d.header.channels).map (mergedPlane d) := by
    rw [mergedPlanes_eq]; rfl
  rw [hmp]
  have h1 : docChannels d = mergedChannels (grayKind d.header.depth) (configMeaning d).rect
      ((List.range' 0 d.header.channels).map (mergedPlane d)) 0 := by
    funext j
    rw [mergedChannels_apply]
    unfold docChannels
    by_cases h : 0 ≤ j ∧ j < (d.header.channels : Int)
    · rw [if_pos h, if_pos (by omega)]
    · rw [if_neg h, if_neg (by omega)]
  have h2 : docPicture d = ⟨(docPicture d).kind, (configMeaning d).rect,
      ((List.range' 0 d.header.channels).map (mergedPlane d)).take (docPicture d).kind.arity,
      (docPicture d).palette⟩ := by
    have : (docPicture d).src = ((List.range' 0 d.header.channels).map (mergedPlane d)).take (docPicture d).kind.arity := by
      have har' : (docPicture d).kind.arity = modeColors d.header.mode +
        (if d.header.mode ≠ 2 ∧ d.header.mode ≠ 0 ∧ d.alpha then 1 else 0) := har
      have hle' : (docPicture d).kind.arity ≤ d.header.channels := hle
      rw [← List.map_take, ← List.range_eq_range', List.take_range, Nat.min_eq_left hle', har']
      rfl
    rw [← this]
    rfl
  rw [← h1, ← h2]
  show Res.ok _ = _
  congr 1
  simp only [Nat.add_assoc]
  push_cast
  rfl

/-- Everything before the merged picture. -/
theorem pre_unzipped (env : Env) {d : Doc} (hp : env.Reads d) (hv : d.unzipped.Valid) (o : Options)
    (ho : o.rejects (configMeaning d) = false) {k m n : Nat} (hk : 3 ≤ k) (hm : d.unzipped.bytes.length ≤ m)
    (hn : d.unzipped.bytes.length + 3 ≤ n) :
    RunsS k (preF env o m n) (usedBytes true d)
      (configMeaning d, docLayers o.skipLayerImage d, ((usedBytes true d).length : Int))
      (if o.layerImageLoaded ∧ ¬ o.skipLayerImage then eventsMeaning d.sections else []) := by
  intro s rest hsched he hav hsize hpos
  have hr := runs_doc env (d := d.unzipped) hp hv { o with skipMergedImage := true } ho hk hm hn s rest hsched he hav hsize hpos
  obtain ⟨sched', h1, h2⟩ := hr
  refine ⟨sched', ?_, h2⟩
  rw [decodeF_split, preF_skip] at h1
  obtain ⟨r, s₂, e1, e2⟩ := P.bind_eq_ok.1 h1
  unfold postF at e2
  simp only [if_true] at e2
  have hcfg : r.1 = configMeaning d := by
    have hrl : (d.resources.flatMap Spec.ResBlock.bytes).length ≤ (resSection d.resources).length := by
      unfold resSection; simp
    have hdl : d.unzipped.bytes.length = d.header.bytes.length + (resSection d.resources).length +
        (lmBytes d.psb d.layerMask).length + (d.unzipped.merged.bytes d.psb).length := by
      unfold Doc.bytes; simp only [List.length_append]; rfl
    have hcfg := runs_config hv.1 hv.2.1 hv.2.2.1 (fuel := m) (by
      show (d.resources.flatMap Spec.ResBlock.bytes).length ≤ m
      omega)
    obtain ⟨sched₁, h3, -⟩ := hcfg.toE.any (sim_decodeConfig (m := k) (by omega) m) s (lmBytes d.psb d.layerMask ++ rest) hsched he (by
      rw [hav]
      show d.header.bytes ++ resSection d.resources ++ lmBytes d.psb d.layerMask ++ [] ++ rest = _
      simp [Spec.Doc.unzipped]) hsize hpos
    unfold preF at e1
    rw [P.bind_ok h3] at e1
    simp only at e1
    have hc : specConfig d.unzipped.header d.unzipped.resources = configMeaning d := specConfig_eq d
    rw [hc] at e1
    rw [ho] at e1
    simp only [Bool.false_eq_true, if_false] at e1
    obtain ⟨x, s₃, -, e3⟩ := P.bind_eq_ok.1 e1
    cases e3
    rfl
  have e4 := Res.ok.inj e2
  have e5 := congrArg Prod.fst e4
  have e6 := congrArg Prod.snd e4
  have e7 := congrArg Prod.fst e5
  have e8 := congrArg Prod.snd e5
  rw [e1]
  obtain ⟨c, l, n'⟩ := r
  simp only at hcfg e6 e7 e8
  rw [hcfg, e6, e7, e8]
  rfl

theorem payload_packed {d : Doc} (hz : d.merged.isZip = true) : d.merged.bytes d.psb = be 2 (methodOf d.merged) ++ d.packed ∧
    payloadOf d.psb d.merged = d.packed := by
  have hsl : d.merged.slack = [] := by cases e : d.merged <;> rw [e] at hz <;> first | (cases hz; done) | rfl
  have hb : d.merged.bytes d.psb = be 2 (methodOf d.merged) ++ payloadOf d.psb d.merged := by
    rw [picture_bytes, hsl, List.append_nil]
  have : payloadOf d.psb d.merged = d.packed := by
    unfold Spec.Doc.packed
    rw [hb, List.drop_left' (be_length _ _)]
  exact ⟨by rw [hb, this], this⟩

end Psd
