import Verif.Props.FilePair
import Verif.Spec.Places
import Verif.Lemmas.GapPixels

/-!
# C135: the size of the tiles makes no difference to the picture; C136: the picture at a pixel depends on the layers at that pixel
-/

namespace Psd
open Spec (Layer LayerSection Doc LayersAlike)

theorem mask_on_iff {l : Layer} {k : Nat} {dec : List UInt8 → Option (List UInt8)} : (attrOf dec (layerFull 3 8 k l)).maskEnabled = true ↔ l.mask.On := by
  show ((maskMeaning l.mask).enabled && !(maskMeaning l.mask).rect.empty) = true ↔ _
  simp only [Rect.empty, Bool.and_eq_true, Bool.not_eq_true', Bool.or_eq_false_iff, decide_eq_false_iff_not, ge_iff_le, Int.not_le]
  rw [maskMeaning_rect, maskMeaning_enabled]
  exact ⟨fun ⟨g1, g2, g3⟩ => ⟨g2, g3, g1⟩, fun ⟨g2, g3, g1⟩ => ⟨g1, g2, g3⟩⟩

theorem mask_color (m : Spec.MaskSpec) : (maskMeaning m).defaultColor = m.color.toNat := by
  cases m with
  | absent => rfl
  | short => rfl
  | full => rfl
  | block b =>
    show Spec.MaskBlock.color b = (UInt8.ofNat (Spec.MaskBlock.color b)).toNat
    rw [UInt8.toNat_ofNat', Nat.mod_eq_of_lt (flags_lt b).2]

theorem settings_attr {l l' : Layer} (h : l.SameSettings l') (k : Nat) (dec dec' : List UInt8 → Option (List UInt8)) : (attrOf dec (layerFull 3 8 k l)).Re (attrOf dec' (layerFull 3 8 k l')) := by
  have fold : ∀ l : Layer, (layerFull 3 8 k l).folder = (l.kind == 1 || l.kind == 2) := fun _ => rfl
  refine ⟨?_, by rw [layer_key, layer_key, h.mode]⟩
  have hv : (layerFull 3 8 k l').visible = (layerFull 3 8 k l).visible := by
    have g : ∀ l : Layer, (layerFull 3 8 k l).visible = true ↔ l.flags.toNat / 2 % 2 = 0 := fun l => flag_bit l.flags
    rw [Bool.eq_iff_iff, g, g, h.visible]
  have hc : (layerFull 3 8 k l').clipping = (layerFull 3 8 k l).clipping := by
    show decide (l'.clipping ≠ 0) = decide (l.clipping ≠ 0)
    rw [decide_eq_decide, not_iff_not]
    exact h.clipping
  have hm : (attrOf dec' (layerFull 3 8 k l')).maskEnabled = (attrOf dec (layerFull 3 8 k l)).maskEnabled := by
    rw [Bool.eq_iff_iff]
    exact ⟨fun g => mask_on_iff.2 (h.maskOn.1 (mask_on_iff.1 g)), fun g => mask_on_iff.2 (h.maskOn.2 (mask_on_iff.1 g))⟩
  have hd : (layerFull 3 8 k l').mask.defaultColor = (layerFull 3 8 k l).mask.defaultColor := by
    show (maskMeaning l'.mask).defaultColor = (maskMeaning l.mask).defaultColor
    rw [mask_color, mask_color, h.maskColor]
  have hf : (layerFull 3 8 k l').folder = (layerFull 3 8 k l).folder := by rw [fold, fold, h.kind]
  have ho : (layerFull 3 8 k l').opacity = (layerFull 3 8 k l).opacity := h.opacity
  have hb : (layerFull 3 8 k l').blendClippedElements = (layerFull 3 8 k l).blendClippedElements := h.clbl
  unfold attrOf at hm ⊢
  simp only at hm
  rw [hv, hc, hd, ho, hb, hm]
  simp only [CAttr.mk.injEq, and_true, true_and]
  exact hf

/-- Two pictures, at places where the layers look the same: what is invisible may be missing. -/
theorem places_pair {R : Px → Px → Prop} {Op : Nat → Prop} {Mk : UInt8 → Prop} {Z : Px → Prop} {Mz : Nat → UInt8 → Prop} {P1 P2 : Prop} (ho : GapOps pxOps R Op Mk Eq Z Mz P1 P2)
    {d d' : Doc} {layers layers' : List Layer} (hf : d.RgbFile layers) (hf' : d'.RgbFile layers') {x y x' y' : Int} (hx : 0 ≤ x) (hy : 0 ≤ y) (hx' : 0 ≤ x') (hy' : 0 ≤ y')
    (hl : LayersAlike layers layers' fun l l' => l.LooksAs x y l' x' y') (hop : ∀ l ∈ layers, Op l.opacity.toNat)
    (hpx : ∀ l ∈ layers, ∀ q, l.colour x y = some q → R (pxOps.copy q) (pxOps.copy q)) (hmk : ∀ l ∈ layers, l.mask.On → Mk (l.veil x y) ∧ (l.veil x y = 0 → Mz l.mask.color.toNat 0))
    (hpass : (∀ l ∈ layers, l.blendKey ≠ ascii "pass") ∨ P1 ∧ ∀ l ∈ layers, l.clipping = 0 ∧ (l.blendKey = ascii "pass" → l.mask.On → P2))
    {ts ts' : Nat} {visited visited' : List TPt} {picture picture' : TPt → Tile} (h : FirstPicture d layers ts visited picture) (h' : FirstPicture d' layers' ts' visited' picture')
    (hpt : tilePt ts x y ∈ visited) (hpt' : tilePt ts' x' y' ∈ visited') :
    ∃ p p', R p p' ∧ picture (tilePt ts x y) (tileIx ts x y) = pxOps.copy p ∧ picture' (tilePt ts' x' y') (tileIx ts' x' y') = pxOps.copy p' := by
  obtain ⟨hlen, hl⟩ := hl
  obtain ⟨doc, dec, pic, mask, stack, r, e1, e2, e3, e4, e5⟩ := first_pixel hf h hx hy hpt
  obtain ⟨doc', dec', pic', mask', stack', r', e1', e2', e3', e4', e5'⟩ := first_pixel hf' h' hx' hy' hpt'
  have hd := docRel_of_layers (Q := fun r r' => ∃ (k : Nat) (l l' : Layer), layers[k]? = some l ∧ layers'[k]? = some l' ∧ r = layerFull 3 8 k l ∧ r' = layerFull 3 8 k l') hlen
    (fun k l l' g g' => ⟨⟨k, l, l', g, g', rfl, rfl⟩, (hl k l l' g g').kind.symm⟩) e1 e1'
  have c0 : pxOps.copy ⟨0, 0, 0, 0⟩ = ⟨0, 0, 0, 0⟩ := gap_copy_zero rfl
  have hk : ∀ l : Layer, l.blendKey = ascii "pass" → ∀ x y, l.colour x y = none := by
    intro l hb x y
    unfold Layer.blendKey at hb
    unfold Layer.colour
    rw [if_neg]
    intro h0
    rw [if_neg (by rw [h0]; decide)] at hb
    split at hb
    · revert hb; decide
    · exact absurd hb ‹_›
  have gone : ∀ {ts : Nat} {l : Layer} {x y : Int} {p : Option Px}, l.blendKey = ascii "pass" → l.PixelIs ts x y p → p = none := by
    intro ts l x y p hb hp
    cases p with
    | none => rfl
    | some p =>
      obtain ⟨⟨x1, y1, -, h2⟩, -⟩ := hp
      exact absurd (hk l hb x1 y1) h2
  have hs := stack_gap (Q := fun r r' => ∃ (k : Nat) (l l' : Layer), layers[k]? = some l ∧ layers'[k]? = some l' ∧ r = layerFull 3 8 k l ∧ r' = layerFull 3 8 k l') (o := pxOps) (R := R) (Op := Op) (Mk := Mk) (Md := Eq) (Z := Z) (Mz := Mz)
    (P1 := P1) (P2 := P2) (dec := dec) (dec' := dec') (pic := pic) (pic' := pic') (mask := mask) (mask' := mask')
    (by
      rintro _ _ ⟨k, l, l', g, g', rfl, rfl⟩
      exact congrArg CAttr.clipping (settings_attr (hl k l l' g g').toSameSettings k dec dec).1) (by rintro _ _ ⟨k, l, l', g, g', rfl, rfl⟩; rfl)
    (by
      rintro _ _ ⟨k, l, l', g, g', rfl, rfl⟩
      refine ⟨settings_attr (hl k l l' g g').toSameSettings k dec dec', hop l (List.mem_of_getElem? g), .inl ?_⟩
      rw [layer_key, layer_key, (hl k l l' g g').mode])
    (by
      rintro _ _ ⟨k, l, l', g, g', rfl, rfl⟩
      have g1 := (e2 k l g).1
      have g2 := (e2' k l' g').1
      have gc := (hl k l l' g g').colour
      show GapRel _ _ _ (pic k) (pic' k)
      cases hp : pic k with
      | none =>
        rw [hp] at g1
        cases hp' : pic' k with
        | none => trivial
        | some q =>
          rw [hp'] at g2
          show Z _
          rw [g2.2, gc, g1 x y ⟨rfl, rfl⟩, Option.getD_none, c0]
          exact ho.zblank
      | some p =>
        rw [hp] at g1
        cases hp' : pic' k with
        | none =>
          rw [hp'] at g2
          show Z _
          rw [g1.2, ← gc, g2 x' y' ⟨rfl, rfl⟩, Option.getD_none, c0]
          exact ho.zblank
        | some q =>
          rw [hp'] at g2
          show R _ _
          rw [g1.2, g2.2, gc]
          cases hc : l.colour x y with
          | none => exact ho.copy ho.blank
          | some q => exact hpx l (List.mem_of_getElem? g) q hc)
    (by
      rintro _ _ ⟨k, l, l', g, g', rfl, rfl⟩ hme
      have g1 := (e2 k l g).2
      have g2 := (e2' k l' g').2
      have gv := (hl k l l' g g').veil
      obtain ⟨hmk, hz⟩ := hmk l (List.mem_of_getElem? g) (mask_on_iff.1 hme)
      show GapRel _ _ _ (mask k) (mask' k) ∧ (∀ x, mask k = some x → Mk x) ∧ ∀ x, mask' k = some x → Mk x
      refine ⟨?_, fun v hv => ?_, fun v hv => ?_⟩
      · cases hp : mask k with
        | none =>
          rw [hp] at g1
          cases hp' : mask' k with
          | none => trivial
          | some q =>
            rw [hp'] at g2
            show Mz (maskMeaning l.mask).defaultColor _
            rw [g2.2, gv, g1 x y ⟨rfl, rfl⟩, mask_color]
            exact hz (g1 x y ⟨rfl, rfl⟩)
        | some p =>
          rw [hp] at g1
          cases hp' : mask' k with
          | none =>
            rw [hp'] at g2
            show Mz (maskMeaning l.mask).defaultColor _
            rw [g1.2, ← gv, g2 x' y' ⟨rfl, rfl⟩, mask_color]
            exact hz (by rw [← gv, g2 x' y' ⟨rfl, rfl⟩])
          | some q =>
            rw [hp'] at g2
            show p = q
            rw [g1.2, g2.2, gv]
      · rw [hv] at g1
        rw [g1.2]
        exact hmk
      · rw [hv] at g2
        rw [g2.2, gv]
        exact hmk)
    (by
      rintro _ _ ⟨k, l, l', g, g', rfl, rfl⟩ hb
      rw [layer_key] at hb
      rcases hpass with hpass | ⟨g1, hpass⟩
      · exact absurd hb (hpass l (List.mem_of_getElem? g))
      · exact ⟨g1, fun hm => (hpass l (List.mem_of_getElem? g)).2 hb (mask_on_iff.1 hm), gone hb (e2 k l g).1, gone ((hl k l l' g g').mode.trans hb) (e2' k l' g').1⟩)
    (by
      rcases hpass with hpass | ⟨-, hpass⟩
      · right
        rintro _ _ ⟨k, l, l', g, g', rfl, rfl⟩ hb
        rw [layer_key] at hb
        exact hpass l (List.mem_of_getElem? g) hb
      · left
        rintro _ _ ⟨k, l, l', g, g', rfl, rfl⟩
        show decide (l.clipping ≠ 0) = false
        rw [(hpass l (List.mem_of_getElem? g)).1]
        rfl)
    stack stack' doc doc' e3 e3' hd
  have k2 := paint_gap ho stack stack' hs false id (fun _ hx => hx) _ _ ho.blank r r' e4 e4'
  have cl : pxOps.clear ⟨0, 0, 0, 0⟩ = pxOps.copy ⟨0, 0, 0, 0⟩ := by rw [c0, px_clear]
  rw [e5, e5']
  unfold tileShown
  obtain ⟨rd, rp⟩ := r
  obtain ⟨rd', rp'⟩ := r'
  cases rd with
  | true => cases rd' with
    | true => exact ⟨_, _, ho.copy k2, rfl, rfl⟩
    | false =>
      have := paint_idle _ _ _ _ _ e4'
      subst this
      refine ⟨_, ⟨0, 0, 0, 0⟩, ?_, rfl, cl⟩
      have := ho.copy k2
      dsimp only at this
      rw [c0] at this
      exact this
  | false =>
    have := paint_idle _ _ _ _ _ e4
    subst this
    cases rd' with
    | true =>
      refine ⟨⟨0, 0, 0, 0⟩, _, ?_, cl, rfl⟩
      have := ho.copy k2
      dsimp only at this
      rw [c0] at this
      exact this
    | false => exact ⟨⟨0, 0, 0, 0⟩, ⟨0, 0, 0, 0⟩, ho.blank, cl, cl⟩

/-! ### C136 -/

/-- **C136** (in part) How opaque the picture is at a pixel depends on the layers at that pixel. Take two well-formed 8-bit RGB files whose layers have the same settings, and look the same at a pixel of the one and a pixel of
the other. The files have no pass-through folders; or no clipping layers, and no pass-through folders with masks in effect. At these pixels, first pictures of the two files are equally opaque, whatever the tile sizes.

Missing: other files with pass-through folders (`C136_moving_shows`). -/
theorem C136_transparency_partial {d d' : Doc} {layers layers' : List Layer} (hf : d.RgbFile layers) (hf' : d'.RgbFile layers') {x y x' y' : Int} (hx : 0 ≤ x) (hy : 0 ≤ y) (hx' : 0 ≤ x') (hy' : 0 ≤ y')
    (hl : LayersAlike layers layers' fun l l' => l.LooksAs x y l' x' y')
    (hpass : (∀ l ∈ layers, l.blendKey ≠ ascii "pass") ∨ ∀ l ∈ layers, l.clipping = 0 ∧ (l.blendKey = ascii "pass" → ¬l.mask.On))
    {ts ts' : Nat} {visited visited' : List TPt} {picture picture' : TPt → Tile} (h : FirstPicture d layers ts visited picture) (h' : FirstPicture d' layers' ts' visited' picture')
    (hpt : tilePt ts x y ∈ visited) (hpt' : tilePt ts' x' y' ∈ visited') :
    (picture (tilePt ts x y) (tileIx ts x y)).a = (picture' (tilePt ts' x' y') (tileIx ts' x' y')).a := by
  have ho := RelOps.pixel (R := fun p q => p.a = q.a) 0 (Mk := fun _ => True) (alpha_ops 0)
  have hg := alpha_gap 0 ⟨ho.blank, ho.copy, fun hk _ => ho.draw hk trivial, ho.no_pass, ho.clip, ho.destIn, ho.destOver, ho.maskIn, ho.maskOut, ho.clear, ho.full, fun _ _ => trivial⟩
  obtain ⟨p, p', e, e1, e2⟩ := places_pair hg hf hf' hx hy hx' hy' hl (fun _ _ => trivial) (fun _ _ _ _ => rfl) (fun _ _ _ => ⟨trivial, fun _ => rfl⟩)
    (hpass.imp_right fun h => ⟨trivial, fun l hl => ⟨(h l hl).1, fun hb hm => (h l hl).2 hb hm⟩⟩) h h' hpt hpt'
  rw [e1, e2, px_copy_alpha, px_copy_alpha]
  exact e

/-- **C136** (in part) Where there are hard edges only, the pixel of the picture depends on the layers at that pixel: if every layer is opaque or fully transparent there, every mask in effect is black or white, and all
opacities are 0 or 255, in files without pass-through folders or without clipping layers.

Missing: clipping layers together with pass-through folders, and translucent pixels (`C136_moving_shows`). -/
theorem C136_hard_edges_partial {d d' : Doc} {layers layers' : List Layer} (hf : d.RgbFile layers) (hf' : d'.RgbFile layers') {x y x' y' : Int} (hx : 0 ≤ x) (hy : 0 ≤ y) (hx' : 0 ≤ x') (hy' : 0 ≤ y')
    (hl : LayersAlike layers layers' fun l l' => l.LooksAs x y l' x' y') (hpass : (∀ l ∈ layers, l.blendKey ≠ ascii "pass") ∨ ∀ l ∈ layers, l.clipping = 0)
    {ts ts' : Nat} {visited visited' : List TPt} {picture picture' : TPt → Tile} (h : FirstPicture d layers ts visited picture) (h' : FirstPicture d' layers' ts' visited' picture')
    (hpt : tilePt ts x y ∈ visited) (hpt' : tilePt ts' x' y' ∈ visited')
    (hard : ∀ l ∈ layers, (l.opacity = 0 ∨ l.opacity = 255) ∧ (∀ q, l.colour x y = some q → q.a = 255) ∧ (l.mask.On → l.veil x y = 0 ∨ l.veil x y = 255)) :
    picture (tilePt ts x y) (tileIx ts x y) = picture' (tilePt ts' x' y') (tileIx ts' x' y') := by
  obtain ⟨p, p', e, e1, e2⟩ := places_pair crisp_gap hf hf' hx hy hx' hy' hl (fun l hl => by rcases (hard l hl).1 with h | h <;> rw [h] <;> decide) (fun l hl q hq => ⟨rfl, by
      have : q.Crisp := .inl ((hard l hl).2.1 q hq)
      rw [this.copy]
      exact this⟩) (fun l hl hm => ⟨(hard l hl).2.2 hm, fun _ => rfl⟩) (hpass.imp_right fun h => ⟨trivial, fun l hl => ⟨h l hl, fun _ _ => trivial⟩⟩) h h' hpt hpt'
  rw [e1, e2, e.1]

/-- **C136** (in part) The pixel of the picture depends on the layers at that pixel, in files without pass-through folders, whatever the blend modes, opacities and clipping layers, if masks in effect that show what is outside of
them (default colour 255) do hide something of the layer at the pixel.

Missing: white pixels of such masks (`C136_white_mask_shows`), and pass-through folders (`C136_moving_shows`). -/
theorem C136_translucent_partial {d d' : Doc} {layers layers' : List Layer} (hf : d.RgbFile layers) (hf' : d'.RgbFile layers') {x y x' y' : Int} (hx : 0 ≤ x) (hy : 0 ≤ y) (hx' : 0 ≤ x') (hy' : 0 ≤ y')
    (hl : LayersAlike layers layers' fun l l' => l.LooksAs x y l' x' y') (hmask : ∀ l ∈ layers, l.blendKey ≠ ascii "pass" ∧ (l.mask.On → l.mask.color = 255 → l.veil x y ≠ 0))
    {ts ts' : Nat} {visited visited' : List TPt} {picture picture' : TPt → Tile} (h : FirstPicture d layers ts visited picture) (h' : FirstPicture d' layers' ts' visited' picture')
    (hpt : tilePt ts x y ∈ visited) (hpt' : tilePt ts' x' y' ∈ visited') :
    picture (tilePt ts x y) (tileIx ts x y) = picture' (tilePt ts' x' y') (tileIx ts' x' y') := by
  obtain ⟨p, p', e, e1, e2⟩ := places_pair same_gap hf hf' hx hy hx' hy' hl (fun _ _ => trivial) (fun _ _ _ _ => .refl _)
    (fun l hl' hm => ⟨trivial, fun hv => ⟨fun hc => (hmask l hl').2 hm (UInt8.toNat_inj.1 hc) hv, rfl⟩⟩) (.inl fun l hl' => (hmask l hl').1) h h' hpt hpt'
  rw [e1, e2, px_copy_same e]

theorem equal_ops : RelOps pxOps Eq (fun _ => True) (fun _ => True) Eq where
  blank := rfl
  copy h := by rw [h]
  draw _ hm hb hx e e' := by
    subst hm hb hx
    rw [e] at e'
    injection e'
  no_pass {k b x y} e := by simp only [pxOps, show blendMode passThrough = none by decide, reduceCtorEq] at e
  clip h := .inl (by rw [h])
  destIn h h' := by rw [h, h']
  destOver h h' := by rw [h, h']
  maskIn _ h := by rw [h]
  maskOut _ h := by rw [h]
  clear h := by rw [h]
  full := trivial
  scale _ _ := trivial

theorem shared_moved {ts : Nat} {dx dy : Int} (hdx : (ts : Int) ∣ dx) (hdy : (ts : Int) ∣ dy) (x y x1 y1 : Int) : Spec.SharedTile ts (x + dx) (y + dy) (x1 + dx) (y1 + dy) ↔ Spec.SharedTile ts x y x1 y1 := by
  have key : ∀ a d : Int, (ts : Int) ∣ d → (a + d) / ts = a / ts + d / ts := fun a d h => Int.add_ediv_of_dvd_right h
  unfold Spec.SharedTile
  rw [key _ _ hdx, key _ _ hdx, key _ _ hdy, key _ _ hdy]
  constructor <;> rintro ⟨h1, h2⟩ <;> exact ⟨by omega, by omega⟩

/-- **C136** Moving all layers moves the picture, if they are moved by a multiple of the tile size: the picture of a well-formed 8-bit RGB file whose layers, with their masks, are those of another moved by `(dx, dy)` shows at
`(x + dx, y + dy)` what that of the other shows at `(x, y)`, for all blend modes, opacities, masks, clipping layers and folders. -/
theorem C136_moved_by_tiles {d d' : Doc} {layers layers' : List Layer} (hf : d.RgbFile layers) (hf' : d'.RgbFile layers') {ts : Nat} {dx dy : Int} (hdx : (ts : Int) ∣ dx) (hdy : (ts : Int) ∣ dy)
    (hl : LayersAlike layers layers' fun l l' => l.MovedBy dx dy l') {visited visited' : List TPt} {picture picture' : TPt → Tile} (h : FirstPicture d layers ts visited picture) (h' : FirstPicture d' layers' ts visited' picture')
    {x y : Int} (hx : 0 ≤ x) (hy : 0 ≤ y) (hx' : 0 ≤ x + dx) (hy' : 0 ≤ y + dy) (hpt : tilePt ts x y ∈ visited) (hpt' : tilePt ts (x + dx) (y + dy) ∈ visited') :
    picture' (tilePt ts (x + dx) (y + dy)) (tileIx ts (x + dx) (y + dy)) = picture (tilePt ts x y) (tileIx ts x y) := by
  obtain ⟨hlen, hl⟩ := hl
  obtain ⟨doc, dec, pic, mask, stack, r, e1, e2, e3, e4, e5⟩ := first_pixel hf h hx hy hpt
  obtain ⟨doc', dec', pic', mask', stack', r', e1', e2', e3', e4', e5'⟩ := first_pixel hf' h' hx' hy' hpt'
  have hd := docRel_of_layers (Q := fun r r' => ∃ (k : Nat) (l l' : Layer), layers[k]? = some l ∧ layers'[k]? = some l' ∧ r = layerFull 3 8 k l ∧ r' = layerFull 3 8 k l') hlen
    (fun k l l' g g' => ⟨⟨k, l, l', g, g', rfl, rfl⟩, (hl k l l' g g' x y).kind.symm⟩) e1 e1'
  have hpics : ∀ (k : Nat) l l', layers[k]? = some l → layers'[k]? = some l' → pic' k = pic k := by
    intro k l l' g g'
    have g1 := (e2 k l g).1
    have g2 := (e2' k l' g').1
    have mv := hl k l l' g g'
    have back : ∀ x1 y1, Spec.SharedTile ts (x + dx) (y + dy) x1 y1 → Spec.SharedTile ts x y (x1 - dx) (y1 - dy) ∧ l'.colour x1 y1 = l.colour (x1 - dx) (y1 - dy) := by
      intro x1 y1 hs
      have e1 : x1 = x1 - dx + dx := by omega
      have e2 : y1 = y1 - dy + dy := by omega
      refine ⟨?_, ?_⟩
      · rw [e1, e2] at hs
        exact (shared_moved hdx hdy _ _ _ _).1 hs
      · have := (mv (x1 - dx) (y1 - dy)).colour
        rwa [← e1, ← e2] at this
    cases hp : pic k with
    | none =>
      rw [hp] at g1
      cases hp' : pic' k with
      | none => rfl
      | some q =>
        rw [hp'] at g2
        obtain ⟨⟨x1, y1, h1, h2⟩, -⟩ := g2
        obtain ⟨h3, h4⟩ := back x1 y1 h1
        exact absurd (h4.trans (g1 _ _ h3)) h2
    | some p =>
      rw [hp] at g1
      cases hp' : pic' k with
      | none =>
        rw [hp'] at g2
        obtain ⟨⟨x1, y1, h1, h2⟩, -⟩ := g1
        exact absurd ((mv x1 y1).colour.symm.trans (g2 _ _ ((shared_moved hdx hdy _ _ _ _).2 h1))) h2
      | some q =>
        rw [hp'] at g2
        rw [g1.2, g2.2, (mv x y).colour]
  have hmasks : ∀ (k : Nat) l l', layers[k]? = some l → layers'[k]? = some l' → mask' k = mask k := by
    intro k l l' g g'
    have g1 := (e2 k l g).2
    have g2 := (e2' k l' g').2
    have mv := hl k l l' g g'
    have back : ∀ x1 y1, Spec.SharedTile ts (x + dx) (y + dy) x1 y1 → Spec.SharedTile ts x y (x1 - dx) (y1 - dy) ∧ l'.veil x1 y1 = l.veil (x1 - dx) (y1 - dy) := by
      intro x1 y1 hs
      have e1 : x1 = x1 - dx + dx := by omega
      have e2 : y1 = y1 - dy + dy := by omega
      refine ⟨?_, ?_⟩
      · rw [e1, e2] at hs
        exact (shared_moved hdx hdy _ _ _ _).1 hs
      · have := (mv (x1 - dx) (y1 - dy)).veil
        rwa [← e1, ← e2] at this
    cases hp : mask k with
    | none =>
      rw [hp] at g1
      cases hp' : mask' k with
      | none => rfl
      | some q =>
        rw [hp'] at g2
        obtain ⟨⟨x1, y1, h1, h2⟩, -⟩ := g2
        obtain ⟨h3, h4⟩ := back x1 y1 h1
        exact absurd (h4.trans (g1 _ _ h3)) h2
    | some p =>
      rw [hp] at g1
      cases hp' : mask' k with
      | none =>
        rw [hp'] at g2
        obtain ⟨⟨x1, y1, h1, h2⟩, -⟩ := g1
        exact absurd ((mv x1 y1).veil.symm.trans (g2 _ _ ((shared_moved hdx hdy _ _ _ _).2 h1))) h2
      | some q =>
        rw [hp'] at g2
        rw [g1.2, g2.2, (mv x y).veil]
  have hs := stack_rel (Q := fun r r' => ∃ (k : Nat) (l l' : Layer), layers[k]? = some l ∧ layers'[k]? = some l' ∧ r = layerFull 3 8 k l ∧ r' = layerFull 3 8 k l') (o := pxOps) (R := Eq) (Op := fun _ => True) (Mk := fun _ => True) (Md := Eq)
    (dec := dec) (dec' := dec') (pic := pic) (pic' := pic') (mask := mask) (mask' := mask')
    (by
      rintro _ _ ⟨k, l, l', g, g', rfl, rfl⟩
      exact congrArg CAttr.clipping (settings_attr (hl k l l' g g' x y).toSameSettings k dec dec).1)
    (by
      rintro _ _ ⟨k, l, l', g, g', rfl, rfl⟩
      refine ⟨settings_attr (hl k l l' g g' x y).toSameSettings k dec dec', trivial, .inl ?_⟩
      rw [layer_key, layer_key, (hl k l l' g g' x y).mode])
    (by
      rintro _ _ ⟨k, l, l', g, g', rfl, rfl⟩
      show BothRel _ (pic k) (pic' k)
      rw [hpics k l l' g g']
      cases pic k with
      | none => trivial
      | some p => exact rfl)
    (fun _ _ _ _ _ => trivial)
    (by
      rintro _ _ ⟨k, l, l', g, g', rfl, rfl⟩
      exact hmasks k l l' g g')
    stack stack' doc doc' e3 e3' hd
  obtain ⟨k1, k2⟩ := paint_rel equal_ops stack stack' hs false id (fun _ hx => hx) _ _ rfl r r' e4 e4'
  rw [e5, e5']
  unfold tileShown
  rw [k1, k2]

/-! ### C135 -/

theorem looks_itself (layers : List Layer) (x y : Int) : LayersAlike layers layers fun l l' => l.LooksAs x y l' x y :=
  ⟨rfl, fun k l l' g g' => by
    rw [g] at g'
    injection g' with g'
    subst g'
    exact ⟨⟨rfl, rfl, rfl, rfl, Iff.rfl, rfl, Iff.rfl, rfl⟩, rfl, rfl⟩⟩

/-- **C135** (in part) How opaque the picture of a file is does not depend on the size of the tiles. Take a well-formed 8-bit RGB file without pass-through folders; or one without clipping layers whose pass-through folders
have no masks in effect. At every pixel, any two first pictures of it are equally opaque, with whatever tile sizes.

Missing: other files with pass-through folders (`C135_tile_size_shows`). -/
theorem C135_transparency_partial {d : Doc} {layers : List Layer} (hf : d.RgbFile layers)
    (hpass : (∀ l ∈ layers, l.blendKey ≠ ascii "pass") ∨ ∀ l ∈ layers, l.clipping = 0 ∧ (l.blendKey = ascii "pass" → ¬l.mask.On))
    {ts ts' : Nat} {visited visited' : List TPt} {picture picture' : TPt → Tile} (h : FirstPicture d layers ts visited picture) (h' : FirstPicture d layers ts' visited' picture')
    {x y : Int} (hx : 0 ≤ x) (hy : 0 ≤ y) (hpt : tilePt ts x y ∈ visited) (hpt' : tilePt ts' x y ∈ visited') :
    (picture (tilePt ts x y) (tileIx ts x y)).a = (picture' (tilePt ts' x y) (tileIx ts' x y)).a :=
  C136_transparency_partial hf hf hx hy hx hy (looks_itself _ _ _) hpass h h' hpt hpt'

/-- **C135** (in part) Where there are hard edges only, the size of the tiles makes no difference: at a pixel where every layer is opaque or fully transparent, every mask in effect is black or white, and all opacities
are 0 or 255, in a file without pass-through folders or without clipping layers.

Missing: clipping layers together with pass-through folders, and translucent pixels (`C135_tile_size_shows`). -/
theorem C135_hard_edges_partial {d : Doc} {layers : List Layer} (hf : d.RgbFile layers) (hpass : (∀ l ∈ layers, l.blendKey ≠ ascii "pass") ∨ ∀ l ∈ layers, l.clipping = 0)
    {ts ts' : Nat} {visited visited' : List TPt} {picture picture' : TPt → Tile} (h : FirstPicture d layers ts visited picture) (h' : FirstPicture d layers ts' visited' picture')
    {x y : Int} (hx : 0 ≤ x) (hy : 0 ≤ y) (hpt : tilePt ts x y ∈ visited) (hpt' : tilePt ts' x y ∈ visited')
    (hard : ∀ l ∈ layers, (l.opacity = 0 ∨ l.opacity = 255) ∧ (∀ q, l.colour x y = some q → q.a = 255) ∧ (l.mask.On → l.veil x y = 0 ∨ l.veil x y = 255)) :
    picture (tilePt ts x y) (tileIx ts x y) = picture' (tilePt ts' x y) (tileIx ts' x y) :=
  C136_hard_edges_partial hf hf hx hy hx hy (looks_itself _ _ _) hpass h h' hpt hpt' hard

/-- **C135** (in part) The size of the tiles makes no difference to the pictures of files without pass-through folders, whatever the blend modes, opacities and clipping layers, at pixels at which masks in effect that show what is
outside of them (default colour 255) do hide something of their layers.

Missing: white pixels of such masks (`C135_white_mask_shows`), and pass-through folders (`C135_tile_size_shows`). -/
theorem C135_translucent_partial {d : Doc} {layers : List Layer} (hf : d.RgbFile layers) {x y : Int} (hmask : ∀ l ∈ layers, l.blendKey ≠ ascii "pass" ∧ (l.mask.On → l.mask.color = 255 → l.veil x y ≠ 0))
    {ts ts' : Nat} {visited visited' : List TPt} {picture picture' : TPt → Tile} (h : FirstPicture d layers ts visited picture) (h' : FirstPicture d layers ts' visited' picture')
    (hx : 0 ≤ x) (hy : 0 ≤ y) (hpt : tilePt ts x y ∈ visited) (hpt' : tilePt ts' x y ∈ visited') :
    picture (tilePt ts x y) (tileIx ts x y) = picture' (tilePt ts' x y) (tileIx ts' x y) :=
  C136_translucent_partial hf hf hx hy hx hy (looks_itself _ _ _) hmask h h' hpt hpt'

/-! ### A file whose picture depends on where the tiles are -/

/-- From the bottom: a layer of two pixels with alpha `a`; a pass-through folder with a white mask, in which there is a layer of one pixel, the right one. The left one is at `(o, 0)`. -/
def exGapUnder (a : UInt8) (o : Int) : Layer := { exFolder 0 with rect := ⟨0, o, 1, o + 2⟩, channels := [(-1, .raw [a, a] []), (0, .raw [200, 200] []), (1, .raw [100, 100] []), (2, .raw [50, 50] [])] }
def exGapInner (o : Int) : Layer := { exFolder 0 with rect := ⟨0, o + 1, 1, o + 2⟩, channels := [(0, .raw [0] []), (1, .raw [0] []), (2, .raw [0] [])] }
def exGapFolder (o : Int) : Layer := { exFolder 1 with blend := ascii "pass", mask := .short ⟨0, o, 1, o + 2⟩ 0 0 0 0, channels := [(-2, .raw [255, 255] [])] }
def exGapDoc (a : UInt8) (o : Int) : Doc where
  header := { version := 1, channels := 3, height := 1, width := 4, depth := 8, mode := 3, colorData := [] }
  resources := []
  layerMask := some ⟨some { forest := [.layer (exGapUnder a o), .folder (exFolder 3) [.layer (exGapInner o)] (exGapFolder o)] }, .none []⟩
  merged := .raw (List.replicate 12 0) []
def exGapLayers (a : UInt8) (o : Int) : List Layer := [exGapUnder a o, exFolder 3, exGapInner o, exGapFolder o]

theorem exGap_file {a : UInt8} (ha : a = 128 ∨ a = 255) {o : Int} (ho : o = 0 ∨ o = 1 ∨ o = 2) : (exGapDoc a o).RgbFile (exGapLayers a o) ∧ exZipEnv.Reads (exGapDoc a o) ∧ PresentsFront (exGapDoc a o) { data := (exGapDoc a o).bytes } := by
  have front : ∀ d : Doc, d.bytes.length < 2000 → PresentsFront d { data := d.bytes } := fun d h => Presents.front ⟨⟨[], by simp⟩, rfl, (by decide : ReadsAtLeast 3 []), by simp only; omega⟩
  rcases ha with rfl | rfl <;> rcases ho with rfl | rfl | rfl
  all_goals
    refine ⟨⟨by decide +kernel, rfl, rfl, ⟨_, rfl, rfl⟩, ?_, ?_, ?_⟩, by decide +kernel, front _ (by decide +kernel)⟩
    · intro l hl
      simp only [exGapLayers, List.mem_cons, List.not_mem_nil, or_false] at hl
      rcases hl with rfl | rfl | rfl | rfl
      · exact fun _ _ _ => by decide
      · exact fun h => absurd h (by decide)
      · exact fun _ _ _ => by decide
      · exact fun h => absurd h (by decide)
    · intro l hl
      simp only [exGapLayers, List.mem_cons, List.not_mem_nil, or_false] at hl
      unfold Layer.ModeKnown
      rcases hl with rfl | rfl | rfl | rfl
      · rw [if_neg (by decide)]
        exact .inl ⟨.sep .normal, by decide⟩
      · rw [if_neg (by decide)]
        exact .inl ⟨.sep .normal, by decide⟩
      · rw [if_neg (by decide)]
        exact .inl ⟨.sep .normal, by decide⟩
      · rw [if_pos (by decide)]
        exact .inr ⟨rfl, by decide⟩
    · intro l hl
      simp only [exGapLayers, List.mem_cons, List.not_mem_nil, or_false] at hl
      rcases hl with rfl | rfl | rfl | rfl
      · exact fun h => absurd h (by decide)
      · exact fun h => absurd h (by decide)
      · exact fun h => absurd h (by decide)
      · first | exact fun _ _ => ⟨0, 0, 255, by decide, by decide, by decide, by decide⟩ | exact fun _ _ => ⟨2, 0, 255, by decide, by decide, by decide, by decide⟩

def exGapTree (o : Int) : List (LTree LayerRec) := [.node (layerFull 3 8 0 (exGapUnder 128 o)) [], .node (layerFull 3 8 3 (exGapFolder o)) [.node (layerFull 3 8 2 (exGapInner o)) []]]

def exGapStack (dec : List UInt8 → Option (List UInt8)) (o : Int) (p : Option Px) : Stk Px UInt8 :=
  .layer (attrOf dec (layerFull 3 8 0 (exGapUnder 128 o))) (some ⟨200, 100, 50, 128⟩) none .nil .nil
    (.layer (attrOf dec (layerFull 3 8 3 (exGapFolder o))) none (some 255) (.layer (attrOf dec (layerFull 3 8 2 (exGapInner o))) p none .nil .nil .nil) .nil .nil)

theorem exGap_pixel {o : Int} (ho : o = 0 ∨ o = 1) {ts : Nat} {picture : TPt → Tile} (h : FirstPicture (exGapDoc 128 o) (exGapLayers 128 o) ts [(0, 0)] picture) (ht : tilePt ts o 0 = (0, 0)) {p : Option Px}
    (hp : (exGapInner o).PixelIs ts o 0 p) : ∃ dec r, paint pxOps (exGapStack dec o p) false id ⟨0, 0, 0, 0⟩ = .ok r ∧ picture (0, 0) (tileIx ts o 0) = tileShown pxOps ⟨0, 0, 0, 0⟩ r := by
  obtain ⟨doc, dec, pic, mask, stack, r, e1, e2, e3, e4, e5⟩ := first_pixel (exGap_file (.inl rfl) (by omega)).1 h (x := o) (y := 0) (by omega) (by omega) (by rw [ht]; simp)
  rw [ht] at e5
  have hd : buildTree LayerRec.sdType (rgbLayers (exGapLayers 128 o)) = .ok (exGapTree o) := by rfl
  rw [hd] at e1
  injection e1 with e1
  subst e1
  have uniq : ∀ {l : Layer} {p q : Option Px}, l.PixelIs ts o 0 p → l.PixelIs ts o 0 q → p = q := by
    intro l p q h1 h2
    cases p with
    | none => cases q with
      | none => rfl
      | some q =>
        obtain ⟨⟨x1, y1, g1, g2⟩, -⟩ := h2
        exact absurd (h1 x1 y1 g1) g2
    | some p => cases q with
      | none =>
        obtain ⟨⟨x1, y1, g1, g2⟩, -⟩ := h1
        exact absurd (h2 x1 y1 g1) g2
      | some q => rw [h1.2, h2.2]
  have c0 : (exGapUnder 128 o).colour o 0 = some ⟨200, 100, 50, 128⟩ := by rcases ho with rfl | rfl <;> decide
  have v0 : (exGapFolder o).veil o 0 = 255 := by rcases ho with rfl | rfl <;> decide
  have p0 : pic 0 = some ⟨200, 100, 50, 128⟩ := uniq (e2 0 (exGapUnder 128 o) rfl).1 ⟨⟨o, 0, ⟨rfl, rfl⟩, by rw [c0]; simp⟩, by rw [c0]; rfl⟩
  have p2 : pic 2 = p := uniq (e2 2 (exGapInner o) rfl).1 hp
  have p3 : pic 3 = none := uniq (e2 3 (exGapFolder o) rfl).1 fun x y _ => by unfold Layer.colour; exact if_neg (by show ¬(1 : Nat) = 0; decide)
  have m0 : mask 0 = none := MaskIs_unique (l := exGapUnder 128 o) (fun _ _ => rfl) (fun x y _ => by unfold Layer.veil Layer.sample; simp [exGapUnder, Layer.lastChannel]) (e2 0 (exGapUnder 128 o) rfl).2
  have m2 : mask 2 = none := MaskIs_unique (l := exGapInner o) (fun _ _ => rfl) (fun x y _ => by unfold Layer.veil Layer.sample; simp [exGapInner, Layer.lastChannel]) (e2 2 (exGapInner o) rfl).2
  have m3 : mask 3 = some 255 := MaskIs_unique (l := exGapFolder o) (v := some 255) (fun _ _ => rfl) ⟨⟨o, 0, ⟨rfl, rfl⟩, by rw [v0]; decide⟩, v0.symm⟩ (e2 3 (exGapFolder o) rfl).2
  have hs : IsStack dec pic mask (exGapTree o) (exGapStack dec o p) := by
    refine ⟨_, _, [], _, rfl, attrOf_shows _ _, p0.symm, m0.symm, rfl, rfl, ⟨_, _, [], [], rfl, attrOf_shows _ _, p3.symm, m3.symm, ⟨_, _, [], [], rfl, attrOf_shows _ _, p2.symm, m2.symm, rfl, rfl, rfl, ?_, ?_, ?_⟩, rfl, rfl, ?_, ?_, ?_⟩,
      ?_, ?_, ?_⟩
    all_goals first | (intro k hk; cases hk; done) | (intro _; rfl) | (intro _ k hk; cases hk; done) | skip
    intro _ k hk
    cases hk
    rfl
  rw [stack_unique _ _ _ e3 hs] at e4
  exact ⟨dec, r, e4, e5⟩

theorem exGap_alpha {dec : List UInt8 → Option (List UInt8)} {o : Int} {p : Option Px} {r : Bool × Px} (e : paint pxOps (exGapStack dec o p) false id ⟨0, 0, 0, 0⟩ = .ok r) {q : Px}
    (h : paint pxOps (exGapStack (fun _ => none) o p) false id ⟨0, 0, 0, 0⟩ = .ok (true, q)) : (tileShown pxOps ⟨0, 0, 0, 0⟩ r).a = q.a := by
  have ho := RelOps.pixel (R := fun p q => p.a = q.a) 0 (Mk := fun _ => True) (alpha_ops 0)
  have at_ : ∀ k l, (attrOf dec (layerFull 3 8 k l)).Rel (fun _ => True) (fun _ _ => True) (attrOf (fun _ => none) (layerFull 3 8 k l)) := fun k l => ⟨⟨rfl, Iff.rfl⟩, trivial, .inl trivial⟩
  have hs : StkRel pxOps (fun p q => p.a = q.a) (fun _ => True) (fun _ => True) (fun _ _ => True) (exGapStack dec o p) (exGapStack (fun _ => none) o p) :=
    ⟨at_ _ _, rfl, rfl, fun _ _ => trivial, trivial, trivial, at_ _ _, trivial, rfl, fun _ _ => trivial, ⟨at_ _ _, by cases p with | none => trivial | some p => exact rfl, rfl, fun _ _ => trivial, trivial, trivial, trivial⟩, trivial, trivial⟩
  obtain ⟨k1, k2⟩ := paint_rel ho _ _ hs false id (fun _ hx => hx) _ _ rfl r _ e h
  unfold tileShown
  rw [if_pos k1, px_copy_alpha, px_copy_alpha]
  exact k2

/-- **C135 does not hold** in general: at the left pixel of this file the picture has alpha 128 with tiles of one pixel, as the layer at the bottom has, and 192 with tiles of two, where the folder is drawn. -/
theorem C135_tile_size_shows : ∃ (d : Doc) (layers : List Layer), d.RgbFile layers ∧ (∃ picture, FirstPicture d layers 1 [(0, 0)] picture) ∧ (∃ picture, FirstPicture d layers 2 [(0, 0)] picture) ∧
    (∀ picture, FirstPicture d layers 1 [(0, 0)] picture → (picture (0, 0) 0).a = 128) ∧ (∀ picture, FirstPicture d layers 2 [(0, 0)] picture → (picture (0, 0) 0).a = 192) := by
  obtain ⟨h1, h2, h3⟩ := exGap_file (a := 128) (.inl rfl) (o := 0) (.inl rfl)
  refine ⟨exGapDoc 128 0, exGapLayers 128 0, h1, first_picture h2 h1 h3 (by omega) _ (by decide), first_picture h2 h1 h3 (by omega) _ (by decide), fun picture h => ?_, fun picture h => ?_⟩
  · obtain ⟨dec, r, e, e'⟩ := exGap_pixel (.inl rfl) h rfl (p := none) fun x y hs => by
      obtain ⟨g1, g2⟩ := hs
      simp only [Nat.cast_one, Int.ediv_one] at g1 g2
      subst g1 g2
      decide
    rw [show tileIx 1 0 0 = 0 from rfl] at e'
    rw [e', exGap_alpha e (q := ⟨200, 100, 50, 128⟩) (by decide +kernel)]
  · obtain ⟨dec, r, e, e'⟩ := exGap_pixel (.inl rfl) h rfl (p := some ⟨0, 0, 0, 0⟩) ⟨⟨1, 0, ⟨rfl, rfl⟩, by decide⟩, by decide⟩
    rw [show tileIx 2 0 0 = 0 from rfl] at e'
    rw [e', exGap_alpha e (q := ⟨200, 100, 50, 192⟩) (by decide +kernel)]

/-! ### Moved layers -/

/-- A layer whose rectangles are moved. -/
theorem moved_layer {l l' : Layer} {dx dy : Int} (hc : l'.channels = l.channels) (hb : ∀ id, l.lastChannel id ≠ none → l'.boxOf id = ⟨(l.boxOf id).top + dy, (l.boxOf id).left + dx, (l.boxOf id).bottom + dy, (l.boxOf id).right + dx⟩)
    (hs : l.SameSettings l') : l.MovedBy dx dy l' := by
  have key : ∀ id x y, l'.sample id (x + dx) (y + dy) = l.sample id x y := by
    intro id x y
    have hl : l'.lastChannel id = l.lastChannel id := by unfold Layer.lastChannel; rw [hc]
    unfold Layer.sample
    rw [hl]
    rcases hn : l.lastChannel id with _ | q
    · simp
    rw [hb id (by rw [hn]; simp)]
    have e1 : (⟨(l.boxOf id).top + dy, (l.boxOf id).left + dx, (l.boxOf id).bottom + dy, (l.boxOf id).right + dx⟩ : Spec.Box).Has (x + dx) (y + dy) ↔ (l.boxOf id).Has x y := by
      unfold Spec.Box.Has
      simp only
      omega
    have e2 : (y + dy - ((l.boxOf id).top + dy)) * ((l.boxOf id).right + dx - ((l.boxOf id).left + dx)) + (x + dx - ((l.boxOf id).left + dx)) =
        (y - (l.boxOf id).top) * ((l.boxOf id).right - (l.boxOf id).left) + (x - (l.boxOf id).left) := by
      rw [show y + dy - ((l.boxOf id).top + dy) = y - (l.boxOf id).top by omega, show (l.boxOf id).right + dx - ((l.boxOf id).left + dx) = (l.boxOf id).right - (l.boxOf id).left by omega,
        show x + dx - ((l.boxOf id).left + dx) = x - (l.boxOf id).left by omega]
    by_cases h : (l.boxOf id).Has x y
    · rw [if_pos h, if_pos (e1.2 h)]
      simp only [e2]
    · rw [if_neg h, if_neg (fun h' => h (e1.1 h'))]
  intro x y
  refine ⟨hs, ?_, ?_⟩
  · unfold Layer.colour
    rw [hs.kind, key, key, key, key]
    have : l'.lastChannel (-1) = l.lastChannel (-1) := by unfold Layer.lastChannel; rw [hc]
    rw [this]
  · unfold Layer.veil
    rw [key, hs.maskColor]

theorem exGap_moved (a : UInt8) (dx : Int) : LayersAlike (exGapLayers a 0) (exGapLayers a dx) fun l l' => l.MovedBy dx 0 l' := by
  refine ⟨rfl, fun k l l' g g' => ?_⟩
  rcases k with _ | _ | _ | _ | k
  · injection g with g
    injection g' with g'
    subst g g'
    refine moved_layer rfl (fun id hid => ?_) ⟨rfl, rfl, rfl, rfl, Iff.rfl, rfl, Iff.rfl, rfl⟩
    have h2 : id ≠ -2 := by rintro rfl; exact hid rfl
    have h3 : id ≠ -3 := by rintro rfl; exact hid rfl
    unfold Layer.boxOf
    rw [if_neg h2, if_neg h3, if_neg h2, if_neg h3]
    simp only [exGapUnder, Spec.Box.mk.injEq]
    omega
  · injection g with g
    injection g' with g'
    subst g g'
    exact moved_layer rfl (fun id hid => absurd rfl hid) ⟨rfl, rfl, rfl, rfl, Iff.rfl, rfl, Iff.rfl, rfl⟩
  · injection g with g
    injection g' with g'
    subst g g'
    refine moved_layer rfl (fun id hid => ?_) ⟨rfl, rfl, rfl, rfl, Iff.rfl, rfl, Iff.rfl, rfl⟩
    have h2 : id ≠ -2 := by rintro rfl; exact hid rfl
    have h3 : id ≠ -3 := by rintro rfl; exact hid rfl
    unfold Layer.boxOf
    rw [if_neg h2, if_neg h3, if_neg h2, if_neg h3]
    simp only [exGapInner, Spec.Box.mk.injEq]
    omega
  · injection g with g
    injection g' with g'
    subst g g'
    refine moved_layer rfl (fun id hid => ?_) ⟨rfl, rfl, rfl, rfl, Iff.rfl, rfl, by simp [exGapFolder, Spec.MaskSpec.On, Spec.MaskSpec.box, Spec.MaskSpec.flags], rfl⟩
    have h2 : id = -2 := by
      by_contra h
      refine hid ?_
      simp [Layer.lastChannel, exGapFolder, Ne.symm h]
    unfold Layer.boxOf
    rw [if_pos h2, if_pos h2]
    simp only [exGapFolder, Spec.MaskSpec.box, Spec.Box.mk.injEq]
    omega
  · simp [exGapLayers] at g

/-- **C136 does not hold** in general: moving all layers of this file by one pixel changes the alpha of its left pixel from 192 to 128, with tiles of two pixels. -/
theorem C136_moving_shows : ∃ (d d' : Doc) (layers layers' : List Layer), d.RgbFile layers ∧ d'.RgbFile layers' ∧ (LayersAlike layers layers' fun l l' => l.MovedBy 1 0 l') ∧
    (∃ picture, FirstPicture d layers 2 [(0, 0)] picture) ∧ (∃ picture, FirstPicture d' layers' 2 [(0, 0)] picture) ∧
    (∀ picture, FirstPicture d layers 2 [(0, 0)] picture → (picture (0, 0) 0).a = 192) ∧ (∀ picture, FirstPicture d' layers' 2 [(0, 0)] picture → (picture (0, 0) 1).a = 128) := by
  obtain ⟨h1, h2, h3⟩ := exGap_file (a := 128) (.inl rfl) (o := 0) (.inl rfl)
  obtain ⟨g1, g2, g3⟩ := exGap_file (a := 128) (.inl rfl) (o := 1) (.inr (.inl rfl))
  refine ⟨exGapDoc 128 0, exGapDoc 128 1, exGapLayers 128 0, exGapLayers 128 1, h1, g1, exGap_moved 128 1, first_picture h2 h1 h3 (by omega) _ (by decide), first_picture g2 g1 g3 (by omega) _ (by decide), fun picture h => ?_, fun picture h => ?_⟩
  · obtain ⟨dec, r, e, e'⟩ := exGap_pixel (.inl rfl) h rfl (p := some ⟨0, 0, 0, 0⟩) ⟨⟨1, 0, ⟨rfl, rfl⟩, by decide⟩, by decide⟩
    rw [show tileIx 2 0 0 = 0 from rfl] at e'
    rw [e', exGap_alpha e (q := ⟨200, 100, 50, 192⟩) (by decide +kernel)]
  · obtain ⟨dec, r, e, e'⟩ := exGap_pixel (.inr rfl) h rfl (p := none) fun x y hs => by
      refine colour_outside fun hb => ?_
      obtain ⟨g1, g2⟩ := hs
      obtain ⟨b1, b2, b3, b4⟩ := hb
      simp only [exGapInner] at b1 b2 b3 b4
      omega
    rw [show tileIx 2 1 0 = 1 from rfl] at e'
    rw [e', exGap_alpha e (q := ⟨200, 100, 50, 128⟩) (by decide +kernel)]

/-! ### A mask that is white at the pixel -/

/-- A layer of two nearly transparent pixels, from `(o, 0)` on, with a mask that shows what is outside of it, shows the left pixel and hides the right one. -/
def exWhite (o : Int) : Layer := { exFolder 0 with rect := ⟨0, o, 1, o + 2⟩, mask := .short ⟨0, o, 1, o + 2⟩ 255 0 0 0, channels := [(-1, .raw [1, 1] []), (0, .raw [200, 200] []), (1, .raw [100, 100] []), (2, .raw [50, 50] []), (-2, .raw [255, 0] [])] }
def exWhiteDoc (o : Int) : Doc := { exGapDoc 128 0 with layerMask := some ⟨some { forest := [.layer (exWhite o)] }, .none []⟩ }

theorem exWhite_file {o : Int} (ho : o = 0 ∨ o = 1) : (exWhiteDoc o).RgbFile [exWhite o] ∧ exZipEnv.Reads (exWhiteDoc o) ∧ PresentsFront (exWhiteDoc o) { data := (exWhiteDoc o).bytes } := by
  have front : ∀ d : Doc, d.bytes.length < 2000 → PresentsFront d { data := d.bytes } := fun d h => Presents.front ⟨⟨[], by simp⟩, rfl, (by decide : ReadsAtLeast 3 []), by simp only; omega⟩
  rcases ho with rfl | rfl
  all_goals
    refine ⟨⟨by decide +kernel, rfl, rfl, ⟨_, rfl, rfl⟩, fun l hl => ?_, fun l hl => ?_, fun l hl => ?_⟩, by decide +kernel, front _ (by decide +kernel)⟩
    all_goals obtain rfl := List.mem_singleton.1 hl
    · exact fun _ _ _ => by decide
    · unfold Layer.ModeKnown
      rw [if_neg (by decide)]
      exact .inl ⟨.sep .normal, by decide⟩
  · exact fun _ _ => ⟨1, 0, 0, by decide, by decide, by decide, by decide⟩
  · exact fun _ _ => ⟨2, 0, 0, by decide, by decide, by decide, by decide⟩

def exWhiteStack (dec : List UInt8 → Option (List UInt8)) (o : Int) (m : Option UInt8) : Stk Px UInt8 := .layer (attrOf dec (layerFull 3 8 0 (exWhite o))) (some ⟨200, 100, 50, 1⟩) m .nil .nil .nil

theorem exWhite_pixel {o : Int} (ho : o = 0 ∨ o = 1) {ts : Nat} {picture : TPt → Tile} (h : FirstPicture (exWhiteDoc o) [exWhite o] ts [(0, 0)] picture) (ht : tilePt ts o 0 = (0, 0)) {m : Option UInt8}
    (hm : (exWhite o).MaskIs ts o 0 m) {q : Px} (hq : paint pxOps (exWhiteStack (fun _ => none) o m) false id ⟨0, 0, 0, 0⟩ = .ok (true, q)) : picture (0, 0) (tileIx ts o 0) = pxOps.copy (pxOps.copy q) := by
  obtain ⟨doc, dec, pic, mask, stack, r, e1, e2, e3, e4, e5⟩ := first_pixel (exWhite_file ho).1 h (x := o) (y := 0) (by omega) (by omega) (by rw [ht]; simp)
  rw [ht] at e5
  have hd : buildTree LayerRec.sdType (rgbLayers [exWhite o]) = .ok [.node (layerFull 3 8 0 (exWhite o)) []] := by rfl
  rw [hd] at e1
  injection e1 with e1
  subst e1
  have c0 : (exWhite o).colour o 0 = some ⟨200, 100, 50, 1⟩ := by rcases ho with rfl | rfl <;> decide
  have p0 : pic 0 = some ⟨200, 100, 50, 1⟩ := by
    have g := (e2 0 (exWhite o) rfl).1
    revert g
    cases pic ((0 : Nat) : Int) with
    | none =>
      intro g
      have := g o 0 ⟨rfl, rfl⟩
      rw [c0] at this
      cases this
    | some p =>
      intro g
      rw [g.2, c0]
      rfl
  have m0 : mask 0 = m := MaskIs_unique (l := exWhite o) (fun _ _ => rfl) hm (e2 0 (exWhite o) rfl).2
  have hs : IsStack dec pic mask [.node (layerFull 3 8 0 (exWhite o)) []] (exWhiteStack dec o m) := by
    refine ⟨_, _, [], [], rfl, attrOf_shows _ _, p0.symm, m0.symm, rfl, rfl, rfl, ?_, ?_, ?_⟩
    all_goals first | (intro k hk; cases hk; done) | (intro _; rfl) | (intro _ k hk; cases hk; done)
  rw [stack_unique _ _ _ e3 hs] at e4
  have rel : StkRel pxOps Eq (fun _ => True) (fun _ => True) Eq (exWhiteStack dec o m) (exWhiteStack (fun _ => none) o m) :=
    ⟨⟨⟨rfl, Iff.rfl⟩, trivial, .inl rfl⟩, rfl, rfl, fun _ _ => trivial, trivial, trivial, trivial⟩
  obtain ⟨k1, k2⟩ := paint_rel equal_ops _ _ rel false id (fun _ hx => hx) _ _ rfl r _ e4 hq
  rw [e5]
  unfold tileShown
  rw [if_pos k1, k2]

theorem exWhite_hidden {o : Int} (ho : o = 0 ∨ o = 1) {ts : Nat} (h : ∀ x, x / (ts : Int) = o / ts → x ≠ o + 1) : (exWhite o).MaskIs ts o 0 none := by
  rintro x y ⟨g1, g2⟩
  have hx := h x g1
  unfold Layer.veil
  by_cases hb : Spec.Box.Has ⟨0, o, 1, o + 2⟩ x y
  · obtain ⟨b1, b2, b3, b4⟩ := hb
    simp only at b1 b2 b3 b4
    obtain rfl : x = o := by omega
    obtain rfl : y = 0 := by omega
    rcases ho with rfl | rfl <;> decide
  · have : (exWhite o).sample (-2) x y = none := if_neg hb
    rw [this]

/-- **C135 does not hold** of masks that show what is outside of them and are white at a pixel that is nearly transparent: with tiles of two pixels the mask is applied there, as it hides the other pixel of the tile, and rounding
takes away a level of green; with tiles of one pixel it is left out. -/
theorem C135_white_mask_shows : ∃ (d : Doc) (layers : List Layer), d.RgbFile layers ∧ (∀ l ∈ layers, l.kind = 0 ∧ l.clipping = 0) ∧ (∃ picture, FirstPicture d layers 1 [(0, 0)] picture) ∧ (∃ picture, FirstPicture d layers 2 [(0, 0)] picture) ∧
    (∀ picture, FirstPicture d layers 1 [(0, 0)] picture → picture (0, 0) 0 = ⟨200, 97, 47, 1⟩) ∧ (∀ picture, FirstPicture d layers 2 [(0, 0)] picture → picture (0, 0) 0 = ⟨200, 96, 46, 1⟩) := by
  obtain ⟨h1, h2, h3⟩ := exWhite_file (o := 0) (.inl rfl)
  refine ⟨exWhiteDoc 0, [exWhite 0], h1, by decide, first_picture h2 h1 h3 (by omega) _ (by decide), first_picture h2 h1 h3 (by omega) _ (by decide), fun picture h => ?_, fun picture h => ?_⟩
  · have := exWhite_pixel (.inl rfl) h rfl (exWhite_hidden (.inl rfl) fun x h => by omega) (q := ⟨200, 99, 49, 1⟩) (by decide +kernel)
    exact this.trans (by decide +kernel)
  · have := exWhite_pixel (.inl rfl) h rfl (m := some 0) ⟨⟨1, 0, ⟨rfl, rfl⟩, by decide⟩, by decide⟩ (q := ⟨200, 98, 48, 1⟩) (by decide +kernel)
    exact this.trans (by decide +kernel)

theorem exWhite_moved : LayersAlike [exWhite 0] [exWhite 1] fun l l' => l.MovedBy 1 0 l' := by
  refine ⟨rfl, fun k l l' g g' => ?_⟩
  rcases k with _ | k
  · injection g with g
    injection g' with g'
    subst g g'
    refine moved_layer rfl (fun id hid => ?_) ⟨rfl, rfl, rfl, rfl, Iff.rfl, rfl, by decide, rfl⟩
    have h3 : id ≠ -3 := by rintro rfl; exact hid rfl
    unfold Layer.boxOf
    rw [if_neg h3, if_neg h3]
    split <;> rfl
  · simp at g

/-- **C136 does not hold** of such masks either: moving the layer and its mask by one pixel, with tiles of two, changes a pixel. -/
theorem C136_white_mask_shows : ∃ (d d' : Doc) (layers layers' : List Layer), d.RgbFile layers ∧ d'.RgbFile layers' ∧ (∀ l ∈ layers, l.kind = 0 ∧ l.clipping = 0) ∧ (LayersAlike layers layers' fun l l' => l.MovedBy 1 0 l') ∧
    (∃ picture, FirstPicture d layers 2 [(0, 0)] picture) ∧ (∃ picture, FirstPicture d' layers' 2 [(0, 0)] picture) ∧
    (∀ picture, FirstPicture d layers 2 [(0, 0)] picture → picture (0, 0) 0 = ⟨200, 96, 46, 1⟩) ∧ (∀ picture, FirstPicture d' layers' 2 [(0, 0)] picture → picture (0, 0) 1 = ⟨200, 97, 47, 1⟩) := by
  obtain ⟨h1, h2, h3⟩ := exWhite_file (o := 0) (.inl rfl)
  obtain ⟨g1, g2, g3⟩ := exWhite_file (o := 1) (.inr rfl)
  refine ⟨exWhiteDoc 0, exWhiteDoc 1, [exWhite 0], [exWhite 1], h1, g1, by decide, exWhite_moved, first_picture h2 h1 h3 (by omega) _ (by decide), first_picture g2 g1 g3 (by omega) _ (by decide), fun picture h => ?_, fun picture h => ?_⟩
  · have := exWhite_pixel (.inl rfl) h rfl (m := some 0) ⟨⟨1, 0, ⟨rfl, rfl⟩, by decide⟩, by decide⟩ (q := ⟨200, 98, 48, 1⟩) (by decide +kernel)
    exact this.trans (by decide +kernel)
  · have := exWhite_pixel (.inr rfl) h rfl (exWhite_hidden (.inr rfl) fun x h => by omega) (q := ⟨200, 99, 49, 1⟩) (by decide +kernel)
    exact this.trans (by decide +kernel)

/-! ### Non-vacuity -/

/-- The file with an opaque layer at the bottom meets the hypotheses of the theorem on hard edges at the left pixel, and has first pictures with tiles of one pixel and of 64. -/
example : (exGapDoc 255 0).RgbFile (exGapLayers 255 0) ∧ (∀ l ∈ exGapLayers 255 0, l.clipping = 0) ∧ (∃ p, FirstPicture (exGapDoc 255 0) (exGapLayers 255 0) 1 [(0, 0)] p) ∧ (∃ p, FirstPicture (exGapDoc 255 0) (exGapLayers 255 0) 64 [(0, 0)] p) ∧
    tilePt 1 0 0 ∈ [((0 : Int), (0 : Int))] ∧ tilePt 64 0 0 ∈ [((0 : Int), (0 : Int))] ∧
    ∀ l ∈ exGapLayers 255 0, (l.opacity = 0 ∨ l.opacity = 255) ∧ (∀ q, l.colour 0 0 = some q → q.a = 255) ∧ (l.mask.On → l.veil 0 0 = 0 ∨ l.veil 0 0 = 255) := by
  obtain ⟨h1, h2, h3⟩ := exGap_file (a := 255) (.inr rfl) (o := 0) (.inl rfl)
  refine ⟨h1, by decide, first_picture h2 h1 h3 (by omega) _ (by decide), first_picture h2 h1 h3 (by omega) _ (by decide), by decide, by decide, fun l hl => ?_⟩
  simp only [exGapLayers, List.mem_cons, List.not_mem_nil, or_false] at hl
  rcases hl with rfl | rfl | rfl | rfl
  · refine ⟨by decide, fun q hq => ?_, by decide⟩
    rw [show (exGapUnder 255 0).colour 0 0 = some ⟨200, 100, 50, 255⟩ by decide] at hq
    cases hq
    rfl
  · refine ⟨by decide, fun q hq => ?_, by decide⟩
    rw [show (exFolder 3).colour 0 0 = none by decide] at hq
    cases hq
  · refine ⟨by decide, fun q hq => ?_, by decide⟩
    rw [show (exGapInner 0).colour 0 0 = none by decide] at hq
    cases hq
  · refine ⟨by decide, fun q hq => ?_, by decide⟩
    rw [show (exGapFolder 0).colour 0 0 = none by decide] at hq
    cases hq

/-- A file without folders, with a half transparent layer and a clipping layer of one pixel, and a mask that shows what is outside of it and hides a little of the left pixel. -/
def exBareLayers : List Layer := [{ exWhite 0 with channels := (exWhite 0).channels ++ [(-2, .raw [200, 0] [])] }, { exGapInner 0 with clipping := 1 }]
def exBareDoc : Doc := { exGapDoc 128 0 with layerMask := some ⟨some { forest := exBareLayers.map .layer }, .none []⟩ }

/-- It meets the hypotheses of the other two theorems. -/
example : exBareDoc.RgbFile exBareLayers ∧ (∀ l ∈ exBareLayers, l.blendKey ≠ ascii "pass" ∧ (l.mask.On → l.mask.color = 255 → l.veil 0 0 ≠ 0)) ∧ (∃ l ∈ exBareLayers, l.mask.On ∧ l.mask.color = 255) ∧ (∃ p, FirstPicture exBareDoc exBareLayers 1 [(0, 0)] p) ∧ (∃ p, FirstPicture exBareDoc exBareLayers 64 [(0, 0)] p) := by
  have front : ∀ d : Doc, d.bytes.length < 2000 → PresentsFront d { data := d.bytes } := fun d h => Presents.front ⟨⟨[], by simp⟩, rfl, (by decide : ReadsAtLeast 3 []), by simp only; omega⟩
  have h1 : exBareDoc.RgbFile exBareLayers := by
    refine ⟨by decide +kernel, rfl, rfl, ⟨_, rfl, rfl⟩, fun l hl => ?_, fun l hl => ?_, fun l hl => ?_⟩
    all_goals
      simp only [exBareLayers, List.mem_cons, List.not_mem_nil, or_false] at hl
    · rcases hl with rfl | rfl <;> exact fun _ _ _ => by decide
    · unfold Layer.ModeKnown
      rcases hl with rfl | rfl
      · rw [if_neg (by decide)]
        exact .inl ⟨.sep .normal, by decide⟩
      · rw [if_neg (by decide)]
        exact .inl ⟨.sep .normal, by decide⟩
    · rcases hl with rfl | rfl
      · exact fun _ _ => ⟨1, 0, 0, by decide, by decide, by decide, by decide⟩
      · exact fun h => absurd h (by decide)
  exact ⟨h1, by decide, by decide, first_picture (env := exZipEnv) (by decide +kernel) h1 (front _ (by decide +kernel)) (by omega) _ (by decide), first_picture (env := exZipEnv) (by decide +kernel) h1 (front _ (by decide +kernel)) (by omega) _ (by decide)⟩

/-- The file moved by two pixels meets the hypotheses of the theorem on moved layers, with tiles of two. -/
example : (exGapDoc 128 0).RgbFile (exGapLayers 128 0) ∧ (exGapDoc 128 2).RgbFile (exGapLayers 128 2) ∧ (((2 : Nat) : Int) ∣ 2 ∧ ((2 : Nat) : Int) ∣ 0) ∧ (LayersAlike (exGapLayers 128 0) (exGapLayers 128 2) fun l l' => l.MovedBy 2 0 l') ∧
    (∃ p, FirstPicture (exGapDoc 128 0) (exGapLayers 128 0) 2 [(0, 0)] p) ∧ (∃ p, FirstPicture (exGapDoc 128 2) (exGapLayers 128 2) 2 [(2, 0)] p) ∧ tilePt 2 0 0 ∈ [((0 : Int), (0 : Int))] ∧ tilePt 2 (0 + 2) (0 + 0) ∈ [((2 : Int), (0 : Int))] := by
  obtain ⟨h1, h2, h3⟩ := exGap_file (a := 128) (.inl rfl) (o := 0) (.inl rfl)
  obtain ⟨g1, g2, g3⟩ := exGap_file (a := 128) (.inl rfl) (o := 2) (.inr (.inr rfl))
  exact ⟨h1, g1, by decide, exGap_moved 128 2, first_picture h2 h1 h3 (by omega) _ (by decide), first_picture g2 g1 g3 (by omega) _ (by decide), by decide, by decide⟩

/-- The file with the opaque layer, moved by one pixel, looks at `(1, 0)` as it does at `(0, 0)` when not moved: the hypotheses of the theorems on two places that are not about one file. -/
example : (exGapDoc 255 0).RgbFile (exGapLayers 255 0) ∧ (exGapDoc 255 1).RgbFile (exGapLayers 255 1) ∧ (LayersAlike (exGapLayers 255 0) (exGapLayers 255 1) fun l l' => l.LooksAs 0 0 l' 1 0) ∧
    (∃ p, FirstPicture (exGapDoc 255 0) (exGapLayers 255 0) 2 [(0, 0)] p) ∧ (∃ p, FirstPicture (exGapDoc 255 1) (exGapLayers 255 1) 64 [(0, 0)] p) ∧ tilePt 2 0 0 ∈ [((0 : Int), (0 : Int))] ∧ tilePt 64 1 0 ∈ [((0 : Int), (0 : Int))] := by
  obtain ⟨h1, h2, h3⟩ := exGap_file (a := 255) (.inr rfl) (o := 0) (.inl rfl)
  obtain ⟨g1, g2, g3⟩ := exGap_file (a := 255) (.inr rfl) (o := 1) (.inr (.inl rfl))
  obtain ⟨m1, m2⟩ := exGap_moved 255 1
  exact ⟨h1, g1, ⟨m1, fun k l l' g g' => m2 k l l' g g' 0 0⟩, first_picture h2 h1 h3 (by omega) _ (by decide), first_picture g2 g1 g3 (by omega) _ (by decide), by decide, by decide⟩

end Psd
