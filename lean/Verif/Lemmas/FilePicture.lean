import Verif.Spec.FilePicture
import Verif.Props.EndToEnd
import Verif.Props.Content
import Verif.Props.Names

/-
The layers of a file as the composite package gets them; for C102 and C103.
-/

namespace Psd
open Spec (Box MaskSpec Picture Layer LayerSection LayerMask Doc DocBlock Trailer Node recordsAll numberAll mapAll
  WellTypedAll modeColors rowLen)

/-! ### The layers of a document -/

/-- The layers of a section of an 8-bit RGB document, as `New` gets them from the decoder. -/
def rgbLayers (ls : List Layer) : List LayerRec := ls.zipIdx.map fun p => layerFull 3 8 p.2 p.1

theorem rgbLayers_eq (ls : List Layer) : rgbLayers ls = sectionLayers false 3 8 ls := by
  unfold rgbLayers sectionLayers
  rw [layersFrom_zip]
  rfl

theorem rgbLayers_length (ls : List Layer) : (rgbLayers ls).length = ls.length := by simp [rgbLayers]

theorem rgbLayers_get {ls : List Layer} {i : Nat} {l : Layer} (h : ls[i]? = some l) : (rgbLayers ls)[i]? = some (layerFull 3 8 i l) := by
  unfold rgbLayers
  rw [List.getElem?_map, List.getElem?_zipIdx, h]
  simp

theorem mem_rgbLayers {ls : List Layer} {r : LayerRec} (h : r ∈ rgbLayers ls) : ∃ i l, l ∈ ls ∧ r = layerFull 3 8 i l := by
  unfold rgbLayers at h
  obtain ⟨⟨l, i⟩, h1, h2⟩ := List.mem_map.1 h
  exact ⟨i, l, (List.mem_zipIdx' h1).2 ▸ List.getElem_mem _, h2.symm⟩

theorem rgbLayers_seq (ls : List Layer) : (rgbLayers ls).map LayerRec.seqID = List.range (rgbLayers ls).length := by
  rw [rgbLayers_length]
  apply List.ext_getElem?
  intro i
  rw [List.getElem?_map]
  rcases Nat.lt_or_ge i ls.length with h | h
  · rw [rgbLayers_get (List.getElem?_eq_getElem h), List.getElem?_range h]
    rfl
  · rw [List.getElem?_eq_none (by rw [rgbLayers_length]; exact h), List.getElem?_eq_none (by simpa using h)]
    rfl

theorem section_valid {d : Doc} (hv : d.Valid) {sec : LayerSection} (h : sec ∈ d.sections) :
    sec.Valid d.psb d.header.depth (modeColors d.header.mode) := by
  have hval := hv.2.2.2.2.2.2.1
  have hse : d.sections = match d.layerMask with | none => [] | some m => m.sections := rfl
  cases hl : d.layerMask with
  | none => rw [hse, hl] at h; cases h
  | some m =>
    rw [hse, hl] at h
    have hm := hval m hl
    rcases List.mem_append.1 h with h | h
    · exact hm.1 sec (by simpa using h)
    · obtain ⟨b, hb, hs⟩ := List.mem_flatMap.1 h
      cases b with
      | info b => cases hs
      | layers sig key s pad =>
        simp only [DocBlock.section?, List.mem_singleton] at hs
        subst hs
        have ht := hm.2.1
        cases he : m.trailer with
        | none slack => rw [he] at hb; cases hb
        | mask g slack => rw [he] at hb; cases hb
        | blocks g lead bs =>
          rw [he] at hb ht
          exact (ht.2.2.2 _ hb).2.2.1

theorem mem_lastChannel {l : Layer} {id : Int} {p : Picture} (h : l.lastChannel id = some p) : (id, p) ∈ l.channels := by
  unfold Layer.lastChannel at h
  cases hf : l.channels.reverse.find? (fun c => c.1 = id) with
  | none => rw [hf] at h; cases h
  | some c =>
    rw [hf] at h
    cases h
    have h1 := List.find?_some hf
    have h2 := List.mem_of_find?_eq_some hf
    simp only [decide_eq_true_eq] at h1
    rw [List.mem_reverse] at h2
    rw [← h1]
    exact h2

theorem rowLen8 (w : Nat) : rowLen 8 w = w := by unfold rowLen; omega

/-- A channel has one byte per pixel of its box. -/
theorem channel_length {psb : Bool} {colors : Nat} {l : Layer} (hp : l.PicturesValid psb 8 colors) {id : Int} {p : Picture}
    (h : l.lastChannel id = some p) : p.plane.length = (l.boxOf id).width * (l.boxOf id).height := by
  rw [plane_length (hp _ (mem_lastChannel h)).1, rowLen8]

theorem box_area {b : Box} (h : b.Valid) : (rectOf b).dx * (rectOf b).dy = ((b.width * b.height : Nat) : Int) := by
  obtain ⟨⟨-, h1, -⟩, -, h2, -⟩ := h
  unfold Rect.dx Rect.dy rectOf Box.width Box.height
  simp only
  push_cast
  rw [Int.toNat_of_nonneg (by omega), Int.toNat_of_nonneg (by omega)]

theorem maskBox_valid {m : MaskSpec} (h : m.Valid) : m.box.Valid := by
  cases m with
  | absent => exact ⟨by decide, by decide⟩
  | short r c f p q => exact h.1
  | full r c f ps rf rc rr => exact h.1
  | block b => exact boxAt_valid b 0

theorem maskMeaning_rect (m : MaskSpec) : (maskMeaning m).rect = rectOf m.box := by cases m <;> rfl

theorem bit_one : ∀ n < 256, (n &&& 2 == 0) = true ↔ n / 2 % 2 = 0 := by decide +kernel

theorem flag_bit (f : UInt8) : (f &&& 2 == 0) = true ↔ f.toNat / 2 % 2 = 0 := by
  rw [← bit_one _ f.toNat_lt, beq_iff_eq, beq_iff_eq, ← UInt8.toNat_inj, UInt8.toNat_and]
  rfl

theorem maskMeaning_enabled (m : MaskSpec) : (maskMeaning m).enabled = true ↔ m.flags.toNat / 2 % 2 = 0 := by
  cases m with
  | absent => simp [maskMeaning, Mask.enabled, MaskSpec.flags]
  | short r c f p q => exact bit_one _ f.toNat_lt
  | full r c f ps rf rc rr => exact bit_one _ f.toNat_lt
  | block b =>
    have hf := (flags_lt b).1
    simp only [MaskSpec.flags]
    rw [UInt8.toNat_ofNat_of_lt' hf]
    exact bit_one _ hf

theorem filled_of_valid {psb : Bool} {colors : Nat} {l : Layer} (hv : l.Valid psb) (hp : l.PicturesValid psb 8 colors) (i : Nat) :
    (layerFull 3 8 i l).Filled := by
  have hch : ∀ id c, (layerFull 3 8 i l).channel id = some c → c.data.length = (l.boxOf id).width * (l.boxOf id).height := by
    intro id c h
    unfold layerFull channelsMeaning at h
    simp only at h
    cases hl : l.lastChannel id with
    | none => rw [hl] at h; cases h
    | some p =>
      rw [hl] at h
      cases h
      exact channel_length hp hl
  refine ⟨fun id c h2 h3 h => ?_, fun c h => ?_⟩
  · rw [hch id c h]
    unfold Layer.boxOf
    rw [if_neg h2, if_neg h3]
    exact Int.le_of_eq (box_area hv.1)
  · rw [hch _ c h]
    show (maskMeaning l.mask).rect.dx * (maskMeaning l.mask).rect.dy ≤ _
    rw [maskMeaning_rect]
    exact Int.le_of_eq (box_area (maskBox_valid hv.2.2.2.2.1))

theorem layerFull_channel {l : Layer} {id : Int} {p : Picture} (i : Nat) (h : l.lastChannel id = some p) :
    ∃ c, (layerFull 3 8 i l).channel id = some c ∧ c.data = p.plane := by
  refine ⟨⟨p.plane, { kind := grayKind 8, rect := rectOf (l.boxOf id), src := [p.plane] }⟩, ?_, rfl⟩
  show (l.lastChannel id).map _ = _
  rw [h]
  rfl

theorem coloured_of_rgb {l : Layer} (h : l.Rgb) (i : Nat) : (layerFull 3 8 i l).Coloured := by
  rintro ⟨h1, h2⟩ id hid
  have hk : l.kind = 0 := by
    have h1 : (l.kind == 0) = true := h1
    simpa using h1
  unfold Rect.empty at h2
  simp only [Bool.or_eq_false_iff, decide_eq_false_iff_not, not_le, ge_iff_le] at h2
  have := h hk h2.1 h2.2 id hid
  show ((l.lastChannel id).map _).isSome = true
  rw [Option.isSome_map]
  exact this

theorem known_key {k : List UInt8} (h : ∃ m, k = ascii (modeKey m)) : blendMode k ≠ none := by
  obtain ⟨m, rfl⟩ := h
  by_cases hm : m = .sep .linearDodge
  · subst hm
    have : blendMode (ascii (modeKey (.sep .add))) = some (.sep .add) := (C67_keys_of_modes _ _).2 ⟨rfl, by decide⟩
    show blendMode (ascii (modeKey (.sep .add))) ≠ none
    rw [this]
    exact Option.some_ne_none _
  · rw [(C67_keys_of_modes _ m).2 ⟨rfl, hm⟩]
    exact Option.some_ne_none _

theorem known_of_spec {l : Layer} (h : l.ModeKnown) (i : Nat) : KnownMode (layerFull 3 8 i l) := by
  unfold Layer.ModeKnown at h
  have hfold : (layerFull 3 8 i l).folder = true ↔ l.kind = 1 ∨ l.kind = 2 := by
    show (l.kind == 1 || l.kind == 2) = true ↔ _
    simp
  refine ⟨fun hf => ?_, fun hf => ?_⟩
  · rw [if_neg (fun hc => by rw [hfold.2 hc] at hf; cases hf)] at h
    exact h.imp known_key id
  · rw [if_pos (hfold.1 hf)] at h
    have e : (layerFull 3 8 i l).sdBlendMode = l.folderBlend := rfl
    rw [e]
    refine h.imp known_key (And.imp_right fun hc => ?_)
    show l.clbl.getD true = true
    cases hb : l.clbl with
    | none => rfl
    | some b => cases b <;> simp_all

theorem solid_of_plain {l : Layer} (h : l.Plain) (i : Nat) : (layerFull 3 8 i l).Solid := by
  refine ⟨?_, ?_, h.opacity, h.mode, ?_⟩
  · show (l.kind == 1 || l.kind == 2) = false
    rw [h.kind]; rfl
  · exact (flag_bit l.flags).2 h.visible
  · rintro ⟨h1, h2, h3⟩
    refine h.unmasked ⟨?_, ?_, (maskMeaning_enabled _).1 h1⟩
    · have h2 : (maskMeaning l.mask).rect.minX < (maskMeaning l.mask).rect.maxX := h2
      rw [maskMeaning_rect] at h2
      exact h2
    · have h3 : (maskMeaning l.mask).rect.minY < (maskMeaning l.mask).rect.maxY := h3
      rw [maskMeaning_rect] at h3
      exact h3

/-- The sample of a channel is what the loaded layer has there. -/
theorem sample_channelAt {l : Layer} {id x y : Int} {v : UInt8} (h : l.sample id x y = some v) :
    (rectOf (l.boxOf id)).Mem x y ∧ ∃ p, l.lastChannel id = some p ∧ channelAt (rectOf (l.boxOf id)) 1 p.plane x y = v := by
  unfold Layer.sample at h
  split at h
  · rename_i hb
    refine ⟨hb, ?_⟩
    cases hp : l.lastChannel id with
    | none => rw [hp] at h; cases h
    | some p =>
      rw [hp] at h
      refine ⟨p, rfl, ?_⟩
      simp only [Option.bind_some] at h
      unfold channelAt
      rw [Nat.cast_one, Int.mul_one, List.getD_eq_getElem?_getD]
      have e : ((y - (rectOf (l.boxOf id)).minY) * (rectOf (l.boxOf id)).dx + (x - (rectOf (l.boxOf id)).minX)) =
        (y - (l.boxOf id).top) * ((l.boxOf id).right - (l.boxOf id).left) + (x - (l.boxOf id).left) := rfl
      rw [e, h]
      rfl
  · cases h

/-- The masks in effect that have values have one that is not their default colour. -/
theorem mask_varies {ts : Nat} {d : Doc} (hv : d.Valid) (h8 : d.header.depth = 8) {sec : LayerSection} (hsec : d.sections = [sec]) (hmask : ∀ l ∈ sec.layers, l.MaskVaries) :
    ∀ l ∈ rgbLayers sec.layers, l.mask.enabled = true → l.mask.rect.empty = false → ∀ c, l.channel (-2) = some c → l.Filled ∧
      ∃ x y, l.mask.rect.Keeps ts x y ∧ channelAt l.mask.rect 1 c.data x y ≠ (if UInt8.ofNat l.mask.defaultColor = 0 then 0 else 255) := by
  intro l hl hen hne c hc
  obtain ⟨i, l, hl', rfl⟩ := mem_rgbLayers hl
  obtain ⟨v1, v2, -⟩ := (section_valid hv (hsec ▸ List.mem_singleton_self sec : sec ∈ d.sections)).2.2.1 l hl'
  rw [h8] at v2
  refine ⟨filled_of_valid v1 v2 i, ?_⟩
  have hr : (layerFull 3 8 i l).mask.rect = rectOf l.mask.box := maskMeaning_rect l.mask
  have hon : l.mask.On := by
    rw [hr] at hne
    unfold Rect.empty at hne
    simp only [Bool.or_eq_false_iff, decide_eq_false_iff_not, not_le, ge_iff_le] at hne
    exact ⟨hne.1, hne.2, (maskMeaning_enabled _).1 hen⟩
  have hsome : (l.lastChannel (-2)).isSome = true := by
    have : (l.lastChannel (-2)).map _ = some c := hc
    cases hx : l.lastChannel (-2) with
    | none => rw [hx] at this; cases this
    | some p => rfl
  obtain ⟨x, y, v, hx, hy, hs, hne'⟩ := hmask l hl' hon hsome
  obtain ⟨g1, p, g2, g3⟩ := sample_channelAt hs
  obtain ⟨c', g4, g5⟩ := layerFull_channel i g2
  rw [hc] at g4
  cases g4
  rw [hr]
  refine ⟨x, y, Rect.keeps_of_canvas g1 hx hy, ?_⟩
  have hcol : UInt8.ofNat (layerFull 3 8 i l).mask.defaultColor = l.mask.color := by
    show UInt8.ofNat (maskMeaning l.mask).defaultColor = _
    cases l.mask <;> simp [maskMeaning, MaskSpec.color]
  rw [hcol, g5]
  intro hcon
  exact hne' (g3.symm.trans hcon)

/-- Whether the tree can be built depends only on the section divider types. -/
theorem buildTreeLoop_types {α β : Type} (f : α → Nat) (g : β → Nat) : ∀ (a : List α) (b : List β), a.map f = b.map g →
    ∀ (st : List (List (LTree α))) (st' : List (List (LTree β))) n n', st.length = st'.length →
    (∃ t, buildTreeLoop f a st n = .ok t) → ∃ t, buildTreeLoop g b st' n' = .ok t := by
  intro a
  induction a with
  | nil =>
    intro b h st st' n n' _ _
    cases b with
    | nil => exact ⟨n', rfl⟩
    | cons _ _ => cases h
  | cons x a ih =>
    intro b h st st' n n' hs ht
    cases b with
    | nil => cases h
    | cons y b =>
      simp only [List.map_cons, List.cons.injEq] at h
      obtain ⟨hxy, hab⟩ := h
      unfold buildTreeLoop at ht ⊢
      rw [hxy] at ht
      split
      · rename_i hc
        simp only [if_pos hc] at ht
        cases st with
        | nil => obtain ⟨t, ht⟩ := ht; cases ht
        | cons top st =>
          cases st' with
          | nil => cases hs
          | cons top' st' => exact ih b hab st st' _ _ (by simpa using hs) ht
      · rename_i hc
        simp only [if_neg hc] at ht
        split
        · rename_i h3
          simp only [if_pos h3] at ht
          exact ih b hab _ _ _ _ (by simpa using hs) ht
        · rename_i h3
          simp only [if_neg h3] at ht
          exact ih b hab _ _ _ _ hs ht

/-- Same contents, same layers. -/
theorem rgbLayers_content {a b : List (Node Layer)} (h : mapAll Layer.content a = mapAll Layer.content b) :
    rgbLayers (recordsAll a) = rgbLayers (recordsAll b) := by
  have e : ∀ ns : List (Node Layer), rgbLayers (recordsAll ns) =
      recordsAll (mapAll (fun p : Nat × Layer => layerFull 3 8 p.1 p.2) (numberAll 0 ns)) := by
    intro ns
    rw [numberAll_records]
    rfl
  rw [e, e, (forest_content Layer.content _ (fun i x y hxy => full_content 3 8 i hxy) a b 0 h).1]

end Psd
