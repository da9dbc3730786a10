import Verif.Spec.FilePair
import Verif.Props.FilePixels
import Verif.Props.Negative
import Verif.Props.FileColours

/-!
# C127, C128, C129 and C131, for files

What is said of two documents with the same layers in other colours, from the bytes of the files on.
-/

namespace Psd
open Spec (Layer LayerSection Doc)

/-! ### The trees of the two files -/

theorem DocRel.append {Q : LayerRec → LayerRec → Prop} : ∀ {a a' b b' : List (LTree LayerRec)}, DocRel Q a a' → DocRel Q b b' → DocRel Q (a ++ b) (a' ++ b')
  | _, _, _, _, .nil, h => h
  | _, _, _, _, .cons l l' sub sub' rest rest' h1 h2 h3, h => .cons l l' sub sub' _ _ h1 h2 (DocRel.append h3 h)

theorem buildTree_rel {Q : LayerRec → LayerRec → Prop} : ∀ {ls ls' : List LayerRec}, List.Forall₂ (fun l l' => Q l l' ∧ l.sdType = l'.sdType) ls ls' →
    ∀ {st st' : List (List (LTree LayerRec))}, List.Forall₂ (DocRel Q) st st' → ∀ {n n' : List (LTree LayerRec)}, DocRel Q n n' →
    ∀ {t t'}, buildTreeLoop LayerRec.sdType ls st n = .ok t → buildTreeLoop LayerRec.sdType ls' st' n' = .ok t' → DocRel Q t t' := by
  intro ls ls' h
  induction h with
  | nil =>
    intro st st' _ n n' hn t t' e e'
    injection e with e
    injection e' with e'
    subst e e'
    exact hn
  | @cons l l' ls ls' hl _ ih =>
    intro st st' hst n n' hn t t' e e'
    rw [buildTreeLoop_cons] at e e'
    rw [← hl.2] at e'
    split at e
    · rename_i h1
      rw [if_pos h1] at e'
      cases hst with
      | nil => cases e
      | cons g1 g2 => exact ih g2 (g1.append (.cons _ _ _ _ _ _ hl.1 hn .nil)) e e'
    · rename_i h1
      rw [if_neg h1] at e'
      split at e
      · rename_i h2
        rw [if_pos h2] at e'
        exact ih (.cons hn hst) .nil e e'
      · rename_i h2
        rw [if_neg h2] at e'
        exact ih hst (hn.append (.cons _ _ _ _ _ _ hl.1 .nil .nil)) e e'

theorem docRel_of_layers {Q : LayerRec → LayerRec → Prop} {ls ls' : List Layer} (hlen : ls.length = ls'.length)
    (h : ∀ (k : Nat) l l', ls[k]? = some l → ls'[k]? = some l' → Q (layerFull 3 8 k l) (layerFull 3 8 k l') ∧ l.kind = l'.kind)
    {t t' : List (LTree LayerRec)} (e : buildTree LayerRec.sdType (rgbLayers ls) = .ok t) (e' : buildTree LayerRec.sdType (rgbLayers ls') = .ok t') : DocRel Q t t' := by
  refine buildTree_rel (Q := Q) ?_ .nil .nil e e'
  rw [List.forall₂_iff_get]
  refine ⟨by rw [rgbLayers_length, rgbLayers_length, hlen], fun i hi hi' => ?_⟩
  have h1 : i < ls.length := by rwa [rgbLayers_length] at hi
  have h2 : i < ls'.length := by rwa [rgbLayers_length] at hi'
  have g1 := rgbLayers_get (List.getElem?_eq_getElem h1)
  have g2 := rgbLayers_get (List.getElem?_eq_getElem h2)
  rw [List.getElem?_eq_getElem hi] at g1
  rw [List.getElem?_eq_getElem hi'] at g2
  injection g1 with g1
  injection g2 with g2
  rw [List.get_eq_getElem, List.get_eq_getElem, g1, g2]
  exact h i _ _ (List.getElem?_eq_getElem h1) (List.getElem?_eq_getElem h2)

/-! ### Relations on pixels -/

theorem RelOps.pixel {R : Px → Px → Prop} {Op : Nat → Prop} {Mk : UInt8 → Prop} {Md : List UInt8 → List UInt8 → Prop} (i : Nat)
    (h : RelOps tileOps (fun t t' => R (t i) (t' i)) Op (fun m => Mk (m i)) Md) : RelOps pxOps R Op Mk Md where
  blank := h.blank
  copy {p q} r := h.copy (p := fun _ => p) (q := fun _ => q) r
  draw {k m m' b b' x x' y y'} ho hm hb hx e e' := by
    simp only [pxOps] at e e'
    cases hm1 : blendMode m with
    | none => rw [hm1] at e; cases e
    | some M1 => cases hm2 : blendMode m' with
      | none => rw [hm2] at e'; cases e'
      | some M2 =>
        rw [hm1] at e
        rw [hm2] at e'
        injection e with e
        injection e' with e'
        subst e e'
        exact h.draw (b := fun _ => b) (b' := fun _ => b') (x := fun _ => x) (x' := fun _ => x') ho hm hb hx (by simp only [tileOps, hm1]; rfl) (by simp only [tileOps, hm2]; rfl)
  no_pass {k b x y} e := by simp only [pxOps, show blendMode passThrough = none by decide, reduceCtorEq] at e
  clip {p q} r := (h.clip (p := fun _ => p) (q := fun _ => q) r).imp_right fun g r r' => g (fun _ => r) (fun _ => r')
  destIn {b b' x x'} hb hx := h.destIn (b := fun _ => b) (b' := fun _ => b') (x := fun _ => x) (x' := fun _ => x') hb hx
  destOver {b b' x x'} hb hx := h.destOver (b := fun _ => b) (b' := fun _ => b') (x := fun _ => x) (x' := fun _ => x') hb hx
  maskIn {b b' m} hm hb := h.maskIn (b := fun _ => b) (b' := fun _ => b') (m := fun _ => m) hm hb
  maskOut {b b' m} hm hb := h.maskOut (b := fun _ => b) (b' := fun _ => b') (m := fun _ => m) hm hb
  clear {b b'} hb := h.clear (b := fun _ => b) (b' := fun _ => b') hb
  full := h.full
  scale := h.scale

theorem alpha_ops (i : Nat) : RelOps tileOps (fun t t' => (t i).a = (t' i).a) (fun _ => True) (fun _ => True) (fun _ _ => True) := by
  have s := tile_alpha i
  refine ⟨rfl, fun {p q} h => by rw [s.copy p, s.copy q, h], ?_, fun {k b x y} e => ?_, fun _ => .inl ?_, fun {b b' x x'} h1 h2 => ?_, fun {b b' x x'} h1 h2 => ?_, fun {b b' m} _ h => ?_, fun {b b' m} _ h => ?_,
    fun {b b'} h => ?_, trivial, fun _ _ => trivial⟩
  · intro k m m' b b' x x' y y' _ _ h1 h2 e e'
    have g := s.draw _ _ _ _ _ e
    have g' := s.draw _ _ _ _ _ e'
    simp only [alphaOps] at g g'
    cases hm1 : blendMode m with
    | none => rw [hm1] at g; cases g
    | some M1 => cases hm2 : blendMode m' with
      | none => rw [hm2] at g'; cases g'
      | some M2 =>
        rw [hm1] at g
        rw [hm2] at g'
        injection g with g
        injection g' with g'
        rw [← g, ← g', h1, h2]
  · simp only [tileOps, show blendMode passThrough = none by decide, reduceCtorEq] at e
  · rfl
  · rw [s.destIn, s.destIn, h1, h2]
  · rw [s.destOver, s.destOver, h1, h2]
  · rw [s.maskIn, s.maskIn, h]
  · rw [s.maskOut, s.maskOut, h]
  · rw [s.clear, s.clear, h]

/-! ### Two files -/

/-- What there is at a pixel of a first picture. -/
theorem first_pixel {d : Doc} {layers : List Layer} (hf : d.RgbFile layers) {ts : Nat} {visited : List TPt} {picture : TPt → Tile} (h : FirstPicture d layers ts visited picture)
    {x y : Int} (hx : 0 ≤ x) (hy : 0 ≤ y) (hpt : tilePt ts x y ∈ visited) :
    ∃ (doc : List (LTree LayerRec)) (dec : List UInt8 → Option (List UInt8)) (pic : Int → Option Px) (mask : Int → Option UInt8) (stack : Stk Px UInt8) (r : Bool × Px),
      buildTree LayerRec.sdType (rgbLayers layers) = .ok doc ∧
      (∀ (k : Nat) l, layers[k]? = some l → l.PixelIs ts x y (pic k) ∧ l.MaskIs ts x y (mask k)) ∧
      IsStack dec pic mask doc stack ∧ paint pxOps stack false id ⟨0, 0, 0, 0⟩ = .ok r ∧
      picture (tilePt ts x y) (tileIx ts x y) = tileShown pxOps ⟨0, 0, 0, 0⟩ r := by
  obtain ⟨sec, hsec, rfl⟩ := hf.sections
  obtain ⟨env, s, s', psd, n, procs, workers, m, fuel, t, grow, dec, tree, diff, aborted, dest, st, h1, h2, h3, h4, h5, h6, h7, h8, h9, h10, h11, h12, h13⟩ := h
  obtain ⟨psd2, n2, s2, e1, e2, key⟩ := C104_pixels_of_file_partial h1 hf.valid hf.mode hf.depth hsec hf.rgb hf.modes hf.masks h2
  rw [h3] at e1
  cases e1
  obtain ⟨tree2, e3, key⟩ := key procs ts workers h4 h5 h6 t h7 h8 grow dec m h9
  rw [h10] at e3
  cases e3
  obtain ⟨st2, picture2, e4, key⟩ := key fuel h11 diff aborted visited h12 dest
  rw [h13] at e4
  cases e4
  obtain ⟨pic, mask, stack, r, k1, k2, k3, k4⟩ := key x y hx hy hpt
  exact ⟨psd.layer, dec, pic, mask, stack, r, e2, k1, k2, k3, k4⟩

theorem MaskIs_unique {l l' : Layer} (h : ∀ x y, l'.veil x y = l.veil x y) {ts : Nat} {x y : Int} {v v' : Option UInt8} (e : l.MaskIs ts x y v) (e' : l'.MaskIs ts x y v') : v' = v := by
  cases v with
  | none => cases v' with
    | none => rfl
    | some v' =>
      obtain ⟨⟨x1, y1, h1, h2⟩, -⟩ := e'
      exact absurd ((h x1 y1).trans (e x1 y1 h1)) h2
  | some v => cases v' with
    | none =>
      obtain ⟨⟨x1, y1, h1, h2⟩, -⟩ := e
      exact absurd ((h x1 y1).symm.trans (e' x1 y1 h1)) h2
    | some v' => rw [e.2, e'.2, h]

theorem PixelIs_area {R : Px → Px → Prop} {l l' : Layer} {ts : Nat} {x y : Int} (h : l'.InTile ts x y ↔ l.InTile ts x y) {p p' : Option Px}
    (hp : l.InTile ts x y → R ((l.colour x y).getD ⟨0, 0, 0, 0⟩) ((l'.colour x y).getD ⟨0, 0, 0, 0⟩)) (e : l.PixelIs ts x y p) (e' : l'.PixelIs ts x y p') : BothRel R p p' := by
  cases p with
  | none => cases p' with
    | none => trivial
    | some p' =>
      obtain ⟨x1, y1, h1, h2⟩ := h.1 e'.1
      exact absurd (e x1 y1 h1) h2
  | some p => cases p' with
    | none =>
      obtain ⟨x1, y1, h1, h2⟩ := h.2 e.1
      exact absurd (e' x1 y1 h1) h2
    | some p' =>
      obtain ⟨e0, rfl⟩ := e
      obtain ⟨-, rfl⟩ := e'
      exact hp e0

theorem Spec.Layer.Recoloured.repainted {l l' : Layer} (h : l.Recoloured l') : l.Repainted l' :=
  ⟨h.kind, h.opacity, h.visible, h.clipping, h.clbl, h.mask, h.veil⟩

theorem PixelIs_both {R : Px → Px → Prop} (h0 : R ⟨0, 0, 0, 0⟩ ⟨0, 0, 0, 0⟩) {l l' : Layer} (h : ∀ x y, (l'.colour x y).map Px.a = (l.colour x y).map Px.a) {ts : Nat} {x y : Int} {p p' : Option Px}
    (hp : ∀ q q', l.colour x y = some q → l'.colour x y = some q' → R q q') (e : l.PixelIs ts x y p) (e' : l'.PixelIs ts x y p') : BothRel R p p' := by
  have hn : ∀ x y, l'.colour x y = none ↔ l.colour x y = none := fun x y => by
    have := h x y
    cases h1 : l.colour x y <;> cases h2 : l'.colour x y <;> simp_all
  refine PixelIs_area (exists_congr fun x1 => exists_congr fun y1 => and_congr_right fun _ => not_congr (hn x1 y1)) (fun _ => ?_) e e'
  cases h1 : l.colour x y with
  | none =>
    rw [(hn x y).2 h1]
    exact h0
  | some q => cases h2 : l'.colour x y with
    | none => exact absurd ((hn x y).1 h2) (by rw [h1]; simp)
    | some q' => exact hp q q' h1 h2

theorem layer_key (dec : List UInt8 → Option (List UInt8)) (k : Nat) (l : Layer) : (attrOf dec (layerFull 3 8 k l)).blendMode = l.blendKey := by
  show (if (l.kind == 1 || l.kind == 2) then l.folderBlend else if l.blend = ascii "pass" then ascii "norm" else l.blend) = l.blendKey
  unfold Layer.blendKey
  by_cases hk : l.kind = 1 ∨ l.kind = 2
  · rw [if_pos hk, if_pos (by simpa using hk)]
  · rw [if_neg hk, if_neg (by simpa using hk)]

theorem repainted_attr {l l' : Layer} (h : l.Repainted l') (hpass : l.blendKey = ascii "pass" ↔ l'.blendKey = ascii "pass") (k : Nat) (dec dec' : List UInt8 → Option (List UInt8)) :
    (attrOf dec (layerFull 3 8 k l)).Re (attrOf dec' (layerFull 3 8 k l')) := by
  have fold : ∀ l : Layer, (layerFull 3 8 k l).folder = (l.kind == 1 || l.kind == 2) := fun _ => rfl
  refine ⟨?_, by rw [layer_key, layer_key]; exact hpass⟩
  have hv : (layerFull 3 8 k l').visible = (layerFull 3 8 k l).visible := by
    have g : ∀ l : Layer, (layerFull 3 8 k l).visible = true ↔ l.flags.toNat / 2 % 2 = 0 := fun l => flag_bit l.flags
    rw [Bool.eq_iff_iff, g, g, h.visible]
  have hc : (layerFull 3 8 k l').clipping = (layerFull 3 8 k l).clipping := by
    show decide (l'.clipping ≠ 0) = decide (l.clipping ≠ 0)
    rw [decide_eq_decide, not_iff_not]
    exact h.clipping
  have hm : (layerFull 3 8 k l').mask = (layerFull 3 8 k l).mask := by
    show maskMeaning l'.mask = maskMeaning l.mask
    rw [h.mask]
  have hf : (layerFull 3 8 k l').folder = (layerFull 3 8 k l).folder := by rw [fold, fold, h.kind]
  have ho : (layerFull 3 8 k l').opacity = (layerFull 3 8 k l).opacity := h.opacity
  have hb : (layerFull 3 8 k l').blendClippedElements = (layerFull 3 8 k l).blendClippedElements := h.clbl
  unfold attrOf
  rw [hv, hc, hm, ho, hb]
  simp only [CAttr.mk.injEq, and_true, true_and]
  exact hf

/-- What painting keeps, decoding, loading and rendering keep. -/
theorem file_pair_area {R : Px → Px → Prop} {Op : Nat → Prop} {Mk : UInt8 → Prop} {Md : List UInt8 → List UInt8 → Prop} (ho : RelOps pxOps R Op Mk Md)
    {d d' : Doc} {layers layers' : List Layer} (hf : d.RgbFile layers) (hf' : d'.RgbFile layers') (hlen : layers.length = layers'.length)
    (hl : ∀ (k : Nat) l l', layers[k]? = some l → layers'[k]? = some l' → l.Repainted l' ∧ (l.blendKey = ascii "pass" ↔ l'.blendKey = ascii "pass") ∧ Op l.opacity.toNat ∧ (Md l.blendKey l'.blendKey ∨ l.blendKey = ascii "pass"))
    {ts : Nat} {visited visited' : List TPt} {picture picture' : TPt → Tile} (h : FirstPicture d layers ts visited picture) (h' : FirstPicture d' layers' ts visited' picture')
    {x y : Int} (hx : 0 ≤ x) (hy : 0 ≤ y) (hpt : tilePt ts x y ∈ visited) (hpt' : tilePt ts x y ∈ visited')
    (hp : ∀ (k : Nat) l l', layers[k]? = some l → layers'[k]? = some l' → (l'.InTile ts x y ↔ l.InTile ts x y) ∧
      R (pxOps.copy ((l.colour x y).getD ⟨0, 0, 0, 0⟩)) (pxOps.copy ((l'.colour x y).getD ⟨0, 0, 0, 0⟩)))
    (hm : ∀ l ∈ layers, Mk (l.veil x y)) : R (picture (tilePt ts x y) (tileIx ts x y)) (picture' (tilePt ts x y) (tileIx ts x y)) := by
  obtain ⟨doc, dec, pic, mask, stack, r, e1, e2, e3, e4, e5⟩ := first_pixel hf h hx hy hpt
  obtain ⟨doc', dec', pic', mask', stack', r', e1', e2', e3', e4', e5'⟩ := first_pixel hf' h' hx hy hpt'
  have hd := docRel_of_layers (Q := fun r r' => ∃ (k : Nat) (l l' : Layer), layers[k]? = some l ∧ layers'[k]? = some l' ∧ r = layerFull 3 8 k l ∧ r' = layerFull 3 8 k l') hlen
    (fun k l l' g g' => ⟨⟨k, l, l', g, g', rfl, rfl⟩, (hl k l l' g g').1.kind.symm⟩) e1 e1'
  have hs := stack_rel (o := pxOps) (R := R) (Op := Op) (Mk := Mk) (Md := Md) (dec := dec) (dec' := dec') (pic := pic) (pic' := pic') (mask := mask) (mask' := mask')
    (by
      rintro _ _ ⟨k, l, l', g, g', rfl, rfl⟩
      have := repainted_attr (hl k l l' g g').1 (hl k l l' g g').2.1 k dec dec
      exact congrArg CAttr.clipping this.1)
    (by
      rintro _ _ ⟨k, l, l', g, g', rfl, rfl⟩
      obtain ⟨g1, g2, g3, g4⟩ := hl k l l' g g'
      refine ⟨repainted_attr g1 g2 k dec dec', g3, ?_⟩
      rw [layer_key, layer_key]
      exact g4)
    (by
      rintro _ _ ⟨k, l, l', g, g', rfl, rfl⟩
      exact PixelIs_area (R := fun x y => R (pxOps.copy x) (pxOps.copy y)) (hp k l l' g g').1 (fun _ => (hp k l l' g g').2) (e2 k l g).1 (e2' k l' g').1)
    (by
      rintro _ _ ⟨k, l, l', g, g', rfl, rfl⟩ v hv
      have := (e2 k l g).2
      rw [show mask k = some v from hv] at this
      rw [this.2]
      exact hm l (List.mem_of_getElem? g))
    (by
      rintro _ _ ⟨k, l, l', g, g', rfl, rfl⟩
      exact MaskIs_unique (hl k l l' g g').1.veil (e2 k l g).2 (e2' k l' g').2)
    stack stack' doc doc' e3 e3' hd
  obtain ⟨k1, k2⟩ := paint_rel ho stack stack' hs false id (fun _ hx => hx) _ _ ho.blank r r' e4 e4'
  rw [e5, e5']
  unfold tileShown
  rw [← k1]
  split
  · exact ho.copy (ho.copy k2)
  · exact ho.clear ho.blank

theorem file_pair {R : Px → Px → Prop} {Op : Nat → Prop} {Mk : UInt8 → Prop} {Md : List UInt8 → List UInt8 → Prop} (ho : RelOps pxOps R Op Mk Md)
    {d d' : Doc} {layers layers' : List Layer} (hf : d.RgbFile layers) (hf' : d'.RgbFile layers') (hlen : layers.length = layers'.length)
    (hl : ∀ (k : Nat) l l', layers[k]? = some l → layers'[k]? = some l' → l.Recoloured l' ∧ (l.blendKey = ascii "pass" ↔ l'.blendKey = ascii "pass") ∧ Op l.opacity.toNat ∧ (Md l.blendKey l'.blendKey ∨ l.blendKey = ascii "pass"))
    {ts : Nat} {visited visited' : List TPt} {picture picture' : TPt → Tile} (h : FirstPicture d layers ts visited picture) (h' : FirstPicture d' layers' ts visited' picture')
    {x y : Int} (hx : 0 ≤ x) (hy : 0 ≤ y) (hpt : tilePt ts x y ∈ visited) (hpt' : tilePt ts x y ∈ visited')
    (hp : ∀ (k : Nat) l l', layers[k]? = some l → layers'[k]? = some l' → ∀ q q', l.colour x y = some q → l'.colour x y = some q' → R (pxOps.copy q) (pxOps.copy q'))
    (hm : ∀ l ∈ layers, Mk (l.veil x y)) : R (picture (tilePt ts x y) (tileIx ts x y)) (picture' (tilePt ts x y) (tileIx ts x y)) := by
  refine file_pair_area ho hf hf' hlen (fun k l l' g g' => ⟨(hl k l l' g g').1.repainted, (hl k l l' g g').2⟩) h h' hx hy hpt hpt' (fun k l l' g g' => ?_) hm
  have hn : ∀ x y, l'.colour x y = none ↔ l.colour x y = none := fun x y => by
    have := (hl k l l' g g').1.alpha x y
    cases h1 : l.colour x y <;> cases h2 : l'.colour x y <;> simp_all
  refine ⟨exists_congr fun x1 => exists_congr fun y1 => and_congr_right fun _ => not_congr (hn x1 y1), ?_⟩
  cases h1 : l.colour x y with
  | none =>
    rw [(hn x y).2 h1]
    exact ho.copy ho.blank
  | some q => cases h2 : l'.colour x y with
    | none => exact absurd ((hn x y).1 h2) (by rw [h1]; simp)
    | some q' => exact hp k l l' g g' q q' h1 h2

/-- Every such file has first pictures: whatever the reader, the processors and goroutines, the tile size, the tiles and the picture to draw on, some execution ends with one. -/
theorem first_picture {env : Env} {d : Doc} (hp : env.Reads d) {layers : List Layer} (hf : d.RgbFile layers) {s : St} (hs : PresentsFront d s) {ts : Nat} (hts : 1 ≤ ts) (visited : List TPt) (hnd : visited.Nodup) :
    ∃ picture, FirstPicture d layers ts visited picture := by
  obtain ⟨sec, hsec, rfl⟩ := hf.sections
  obtain ⟨psd, n, s', e1, e2, key⟩ := C104_pixels_of_file_partial hp hf.valid hf.mode hf.depth hsec hf.rgb hf.modes hf.masks hs
  obtain ⟨h1, h2⟩ := load_new (procs := 1) (ts := ts) (workers := 1) hf.valid hf.depth hsec hf.rgb (by omega) hts (by omega)
  have hdone : ∃ t, ImportRun 1 ts (Import.start 1 (rgbLayers sec.layers)) t ∧ t.Done := by
    by_contra hno
    have step : ∀ t : {t // ImportRun 1 ts (Import.start 1 (rgbLayers sec.layers)) t}, ∃ u : {t // ImportRun 1 ts (Import.start 1 (rgbLayers sec.layers)) t}, ImportStep 1 ts t.1 u.1 := by
      rintro ⟨t, r⟩
      by_contra hst
      exact hno ⟨t, r, (h1 t r).2.1 fun ⟨u, hu⟩ => hst ⟨⟨u, .tail r hu⟩, hu⟩⟩
    choose f hstep using step
    exact h2 ⟨fun i => (f^[i] ⟨_, .refl _⟩).1, rfl, fun i => by
      dsimp only
      rw [Function.iterate_succ_apply']
      exact hstep _⟩
  obtain ⟨t, r, hd⟩ := hdone
  obtain ⟨tree, e3, key⟩ := key 1 ts 1 (by omega) hts (by omega) t r hd id (fun _ => none) sec.layers.length (by omega)
  obtain ⟨st, picture, e4, -⟩ := key (2 * sec.layers.length) (by omega) false false visited hnd fun _ _ => ⟨0, 0, 0, 0⟩
  exact ⟨picture, env, s, s', psd, n, 1, 1, _, _, t, id, _, tree, false, false, _, st, hp, hs, e1, by omega, hts, by omega, r, hd, by omega, e3, by omega, hnd, e4⟩

/-! ### The theorems -/

/-- **C127** (for files) How opaque the picture of a file is depends on how opaque its layers are and not on their colours and blend modes. Take two well-formed 8-bit RGB files with the same layers in other colours and in
whatever known blend modes, except that the same folders are pass-through. Every first picture of the one is at every pixel as opaque as every first picture of the other, with the same tile size. -/
theorem C127_colours_of_files_do_not_matter {d d' : Doc} {layers layers' : List Layer} (hf : d.RgbFile layers) (hf' : d'.RgbFile layers') (hlen : layers.length = layers'.length)
    (hl : ∀ (k : Nat) l l', layers[k]? = some l → layers'[k]? = some l' → l.Recoloured l' ∧ (l.blendKey = ascii "pass" ↔ l'.blendKey = ascii "pass"))
    {ts : Nat} {visited visited' : List TPt} {picture picture' : TPt → Tile} (h : FirstPicture d layers ts visited picture) (h' : FirstPicture d' layers' ts visited' picture')
    {x y : Int} (hx : 0 ≤ x) (hy : 0 ≤ y) (hpt : tilePt ts x y ∈ visited) (hpt' : tilePt ts x y ∈ visited') :
    (picture (tilePt ts x y) (tileIx ts x y)).a = (picture' (tilePt ts x y) (tileIx ts x y)).a := by
  have ho := RelOps.pixel (R := fun p q => p.a = q.a) 0 (Mk := fun _ => True) (alpha_ops 0)
  refine file_pair (R := fun p q => p.a = q.a) ho hf hf' hlen (fun k l l' g g' => ⟨(hl k l l' g g').1, (hl k l l' g g').2, trivial, .inl trivial⟩) h h' hx hy hpt hpt' (fun k l l' g g' q q' e e' => ho.copy ?_) (fun _ _ => trivial)
  have := (hl k l l' g g').1.alpha x y
  rw [e, e'] at this
  simpa using this.symm

/-- The same for a relation on a channel. -/
theorem chan_pair {rel : Nat → Nat → Prop} (c c' : Primary) (h0 : rel 0 0) (hpd : ∀ op sa da {s s' d d'}, rel s s' → rel d d' → rel (pdC op sa da s d) (pdC op sa da s' d'))
    {d d' : Doc} {layers layers' : List Layer} (hf : d.RgbFile layers) (hf' : d'.RgbFile layers') (hlen : layers.length = layers'.length)
    (hl : ∀ (k : Nat) l l', layers[k]? = some l → layers'[k]? = some l' → l.Recoloured l' ∧ l'.blendKey = l.blendKey ∧ ((∃ m, blendMode l.blendKey = some m ∧ KeepsRel rel m) ∨ l.blendKey = ascii "pass"))
    {ts : Nat} {visited visited' : List TPt} {picture picture' : TPt → Tile} (h : FirstPicture d layers ts visited picture) (h' : FirstPicture d' layers' ts visited' picture')
    {x y : Int} (hx : 0 ≤ x) (hy : 0 ≤ y) (hpt : tilePt ts x y ∈ visited) (hpt' : tilePt ts x y ∈ visited')
    (hp : ∀ (k : Nat) l l', layers[k]? = some l → layers'[k]? = some l' → ∀ q q', l.colour x y = some q → l'.colour x y = some q' → rel (q.chan c).toNat (q'.chan c').toNat) :
    rel ((picture (tilePt ts x y) (tileIx ts x y)).chan c).toNat ((picture' (tilePt ts x y) (tileIx ts x y)).chan c').toNat ∧
      (picture (tilePt ts x y) (tileIx ts x y)).a = (picture' (tilePt ts x y) (tileIx ts x y)).a := by
  have ho := RelOps.pixel (R := fun p q => rel (p.chan c).toNat (q.chan c').toNat ∧ p.a = q.a) 0 (Mk := fun _ => True) (chan_ops c c' 0 h0 hpd)
  refine file_pair (R := fun p q => rel (p.chan c).toNat (q.chan c').toNat ∧ p.a = q.a) ho hf hf' hlen (fun k l l' g g' => ?_) h h' hx hy hpt hpt' (fun k l l' g g' q q' e e' => ho.copy ⟨hp k l l' g g' q q' e e', ?_⟩) (fun _ _ => trivial)
  · obtain ⟨g1, g2, g3⟩ := hl k l l' g g'
    exact ⟨g1, by rw [g2], trivial, g3.imp_left fun g => ⟨g2.symm, g⟩⟩
  · have := (hl k l l' g g').1.alpha x y
    rw [e, e'] at this
    simpa using this.symm

/-- **C128** (for files, in part) Brightening the layers of a file never darkens its picture. Take two files as in C127 with the same blend modes, which are among those that grow, other than soft light; the folders may be
pass-through. At every pixel where no channel of any layer is brighter in the one than in the other, no channel of the picture is.

Missing: soft light (`C128_soft_light_is_off`). -/
theorem C128_brighter_files_partial {d d' : Doc} {layers layers' : List Layer} (hf : d.RgbFile layers) (hf' : d'.RgbFile layers') (hlen : layers.length = layers'.length)
    (hl : ∀ (k : Nat) l l', layers[k]? = some l → layers'[k]? = some l' → l.Recoloured l' ∧ l'.blendKey = l.blendKey ∧ ((∃ m, blendMode l.blendKey = some m ∧ m.Growing ∧ m ≠ .sep .softLight) ∨ l.blendKey = ascii "pass"))
    {ts : Nat} {visited visited' : List TPt} {picture picture' : TPt → Tile} (h : FirstPicture d layers ts visited picture) (h' : FirstPicture d' layers' ts visited' picture')
    {x y : Int} (hx : 0 ≤ x) (hy : 0 ≤ y) (hpt : tilePt ts x y ∈ visited) (hpt' : tilePt ts x y ∈ visited')
    (hp : ∀ (k : Nat) l l', layers[k]? = some l → layers'[k]? = some l' → ∀ q q', l.colour x y = some q → l'.colour x y = some q' → q.Darker q') :
    (picture (tilePt ts x y) (tileIx ts x y)).Darker (picture' (tilePt ts x y) (tileIx ts x y)) := by
  have main := fun c : Primary => chan_pair (rel := (· ≤ ·)) c c (Nat.le_refl 0) (fun op sa da => pdC_mono op sa da) hf hf' hlen (fun k l l' g g' => by
      obtain ⟨g1, g2, g3⟩ := hl k l l' g g'
      refine ⟨g1, g2, g3.imp_left fun ⟨m, e, hg, hs⟩ => ?_⟩
      cases m with
      | sep m => exact ⟨_, e, keeps_le hg.1 hg.2 fun h => hs (by rw [h])⟩
      | _ => exact absurd hg id) h h' hx hy hpt hpt' (fun k l l' g g' q q' e e' => by
      obtain ⟨h1, h2, h3, -⟩ := hp k l l' g g' q q' e e'
      cases c
      · exact UInt8.le_iff_toNat_le.1 h1
      · exact UInt8.le_iff_toNat_le.1 h2
      · exact UInt8.le_iff_toNat_le.1 h3)
  exact ⟨UInt8.le_iff_toNat_le.2 (main .red).1, UInt8.le_iff_toNat_le.2 (main .green).1, UInt8.le_iff_toNat_le.2 (main .blue).1, (main .red).2⟩

/-- **C129** (for files) The channels do not mix. Take two files as in C127 with the same blend modes, which are separable; the folders may be pass-through. At every pixel where the layers of the one have in the channel `c` what
those of the other have in `c'`, so it is with the pictures. -/
theorem C129_channels_of_files_do_not_mix (c c' : Primary) {d d' : Doc} {layers layers' : List Layer} (hf : d.RgbFile layers) (hf' : d'.RgbFile layers') (hlen : layers.length = layers'.length)
    (hl : ∀ (k : Nat) l l', layers[k]? = some l → layers'[k]? = some l' → l.Recoloured l' ∧ l'.blendKey = l.blendKey ∧ ((∃ m, blendMode l.blendKey = some m ∧ m.Separable) ∨ l.blendKey = ascii "pass"))
    {ts : Nat} {visited visited' : List TPt} {picture picture' : TPt → Tile} (h : FirstPicture d layers ts visited picture) (h' : FirstPicture d' layers' ts visited' picture')
    {x y : Int} (hx : 0 ≤ x) (hy : 0 ≤ y) (hpt : tilePt ts x y ∈ visited) (hpt' : tilePt ts x y ∈ visited')
    (hp : ∀ (k : Nat) l l', layers[k]? = some l → layers'[k]? = some l' → ∀ q q', l.colour x y = some q → l'.colour x y = some q' → q.chan c = q'.chan c') :
    (picture (tilePt ts x y) (tileIx ts x y)).chan c = (picture' (tilePt ts x y) (tileIx ts x y)).chan c' := by
  refine UInt8.toNat_inj.1 (chan_pair (rel := (· = ·)) c c' rfl (fun op sa da _ _ _ _ hs hd => by rw [hs, hd]) hf hf' hlen (fun k l l' g g' => ?_) h h' hx hy hpt hpt'
    (fun k l l' g g' q q' e e' => congrArg _ (hp k l l' g g' q q' e e'))).1
  obtain ⟨g1, g2, g3⟩ := hl k l l' g g'
  refine ⟨g1, g2, g3.imp_left fun ⟨m, e, hg⟩ => ?_⟩
  cases m with
  | sep m => exact ⟨_, e, keeps_eq m⟩
  | _ => exact absurd hg id

/-- **C131** (for files) The negative of a file gives the negative of its picture. Take two files as in C127 in dual blend modes, all at full opacity; pass-through folders stay so. At every pixel where the layers of the one are
opaque, if there at all, and the negative of those of the other, and all masks are black or white, the pictures are opaque and the negative of each other, or both transparent. -/
theorem C131_negative_file {d d' : Doc} {layers layers' : List Layer} (hf : d.RgbFile layers) (hf' : d'.RgbFile layers') (hlen : layers.length = layers'.length)
    (hl : ∀ (k : Nat) l l', layers[k]? = some l → layers'[k]? = some l' →
      l.Recoloured l' ∧ l.opacity = 255 ∧ (DualModes l.blendKey l'.blendKey ∨ l.blendKey = ascii "pass" ∧ l'.blendKey = ascii "pass"))
    {ts : Nat} {visited visited' : List TPt} {picture picture' : TPt → Tile} (h : FirstPicture d layers ts visited picture) (h' : FirstPicture d' layers' ts visited' picture')
    {x y : Int} (hx : 0 ≤ x) (hy : 0 ≤ y) (hpt : tilePt ts x y ∈ visited) (hpt' : tilePt ts x y ∈ visited')
    (hp : ∀ (k : Nat) l l', layers[k]? = some l → layers'[k]? = some l' → ∀ q q', l.colour x y = some q → l'.colour x y = some q' → q.a = 255 ∧ q' = q.negative)
    (hm : ∀ l ∈ layers, l.veil x y = 0 ∨ l.veil x y = 255) :
    (picture (tilePt ts x y) (tileIx ts x y)).NegativeOf (picture' (tilePt ts x y) (tileIx ts x y)) := by
  have ho := RelOps.pixel (R := fun p q => p.NegativeOf q) 0 (Mk := fun m => m = 0 ∨ m = 255) (negative_ops 0)
  refine file_pair (R := fun p q => p.NegativeOf q) ho hf hf' hlen (fun k l l' g g' => ?_) h h' hx hy hpt hpt' (fun k l l' g g' q q' e e' => ho.copy (.inr (hp k l l' g g' q q' e e'))) hm
  obtain ⟨g1, g2, g3⟩ := hl k l l' g g'
  refine ⟨g1, ?_, by rw [g2]; rfl, g3.imp_right And.left⟩
  rcases g3 with g3 | g3
  · exact ⟨fun e => absurd e g3.not_pass.1, fun e => absurd e g3.not_pass.2⟩
  · exact ⟨fun _ => g3.2, fun _ => g3.1⟩

/-! ### Non-vacuity -/

/-- Two layers: the lower one in the blend mode `m`, with a mask of 0 and 255, the upper one, with a transparent and two opaque pixels, in normal mode. -/
def exTintUnder (m : List UInt8) (r g b : List UInt8) : Layer := { exUnder (.raw r []) (.raw g []) (.raw b []) (.raw [0, 255] []) with blend := m, opacity := 255 }
def exTintOver (r g b : List UInt8) : Layer := { exOver (.raw [255, 0, 255] []) (.raw r []) (.raw g []) (.raw b []) with opacity := 255 }
def exTint (u o : Layer) : Doc where
  header := { version := 1, channels := 3, height := 1, width := 2, depth := 8, mode := 3, colorData := [] }
  resources := []
  layerMask := some ⟨some { forest := [.layer u, .layer o] }, .none []⟩
  merged := .raw (List.replicate 6 0) []

/-- The layers of a file; the same brighter, with the red of the first as its blue; and their negative. -/
def exTintA : List Layer := [exTintUnder (ascii "mul ") [1, 100] [2, 90] [0, 80], exTintOver [10, 20, 30] [11, 21, 31] [9, 19, 29]]
def exTintB : List Layer := [exTintUnder (ascii "mul ") [5, 120] [9, 200] [1, 100], exTintOver [10, 90, 40] [50, 51, 52] [10, 20, 30]]
def exTintN : List Layer := [exTintUnder (ascii "scrn") [254, 155] [253, 165] [255, 175], exTintOver [245, 235, 225] [244, 234, 224] [246, 236, 226]]

def exTintDoc : List Layer → Doc
  | [u, o] => exTint u o
  | _ => exTint (exFolder 0) (exFolder 0)

theorem colour_outside {l : Layer} {x y : Int} (h : ¬l.rect.Has x y) : l.colour x y = none := by
  have : l.sample 0 x y = none := by
    unfold Layer.sample
    exact if_neg h
  unfold Layer.colour
  rw [this]
  split <;> rfl

theorem exTint_recoloured {ls ls' : List Layer} (h : ls = exTintA ∧ (ls' = exTintB ∨ ls' = exTintN)) (k : Nat) (l l' : Layer) (e : ls[k]? = some l) (e' : ls'[k]? = some l') : l.Recoloured l' := by
  have under : ∀ x y, (⟨0, 0, 1, 2⟩ : Spec.Box).Has x y → y = 0 ∧ (x = 0 ∨ x = 1) := by
    rintro x y ⟨h1, h2, h3, h4⟩
    simp only at h1 h2 h3 h4
    omega
  have over : ∀ x y, (⟨0, -1, 1, 2⟩ : Spec.Box).Has x y → y = 0 ∧ (x = -1 ∨ x = 0 ∨ x = 1) := by
    rintro x y ⟨h1, h2, h3, h4⟩
    simp only at h1 h2 h3 h4
    omega
  obtain ⟨rfl, rfl | rfl⟩ := h <;> rcases k with _ | _ | k <;> first | (simp [exTintA] at e; done) | skip
  all_goals
    injection e with e
    injection e' with e'
    subst e e'
    refine ⟨rfl, rfl, rfl, Iff.rfl, rfl, rfl, fun x y => rfl, fun x y => ?_⟩
  · by_cases hb : (⟨0, 0, 1, 2⟩ : Spec.Box).Has x y
    · obtain ⟨rfl, rfl | rfl⟩ := under x y hb <;> decide
    · rw [colour_outside hb, colour_outside hb]
  · by_cases hb : (⟨0, -1, 1, 2⟩ : Spec.Box).Has x y
    · obtain ⟨rfl, rfl | rfl | rfl⟩ := over x y hb <;> decide
    · rw [colour_outside hb, colour_outside hb]
  · by_cases hb : (⟨0, 0, 1, 2⟩ : Spec.Box).Has x y
    · obtain ⟨rfl, rfl | rfl⟩ := under x y hb <;> decide
    · rw [colour_outside hb, colour_outside hb]
  · by_cases hb : (⟨0, -1, 1, 2⟩ : Spec.Box).Has x y
    · obtain ⟨rfl, rfl | rfl | rfl⟩ := over x y hb <;> decide
    · rw [colour_outside hb, colour_outside hb]

theorem exTint_file {ls : List Layer} (h : ls = exTintA ∨ ls = exTintB ∨ ls = exTintN) : (exTintDoc ls).RgbFile ls ∧ exZipEnv.Reads (exTintDoc ls) ∧ PresentsFront (exTintDoc ls) { data := (exTintDoc ls).bytes } := by
  have front : ∀ d : Doc, d.bytes.length < 2000 → PresentsFront d { data := d.bytes } := fun d h => Presents.front ⟨⟨[], by simp⟩, rfl, (by decide : ReadsAtLeast 3 []), by simp only; omega⟩
  rcases h with rfl | rfl | rfl
  all_goals
    refine ⟨⟨by decide +kernel, rfl, rfl, ⟨_, rfl, rfl⟩, ?_, ?_, ?_⟩, by decide +kernel, front _ (by decide +kernel)⟩
    · intro l hl
      simp only [exTintA, exTintB, exTintN, List.mem_cons, List.not_mem_nil, or_false] at hl
      rcases hl with rfl | rfl <;> exact fun _ _ _ => by decide
    · intro l hl
      simp only [exTintA, exTintB, exTintN, List.mem_cons, List.not_mem_nil, or_false] at hl
      rcases hl with rfl | rfl
      · unfold Layer.ModeKnown
        rw [if_neg (by decide)]
        first | exact .inl ⟨.sep .multiply, by decide⟩ | exact .inl ⟨.sep .screen, by decide⟩
      · unfold Layer.ModeKnown
        rw [if_neg (by decide)]
        exact .inl ⟨.sep .normal, by decide⟩
    · intro l hl
      simp only [exTintA, exTintB, exTintN, List.mem_cons, List.not_mem_nil, or_false] at hl
      rcases hl with rfl | rfl
      · exact fun _ _ => ⟨1, 0, 255, by decide, by decide, by decide, by decide⟩
      · exact fun h => absurd h (by decide)

/-- They have first pictures, and A and B meet the hypotheses of the theorems on C127, C128 and C129 (for red and blue) at the second pixel, where A has the pixels (100, 90, 80) and (30, 31, 29). -/
example : (∃ p, FirstPicture (exTintDoc exTintA) exTintA 64 [(0, 0)] p) ∧ (∃ p, FirstPicture (exTintDoc exTintB) exTintB 64 [(0, 0)] p) ∧ tilePt 64 1 0 ∈ [((0 : Int), (0 : Int))] ∧
    exTintA.length = exTintB.length ∧
    ∀ (k : Nat) l l', exTintA[k]? = some l → exTintB[k]? = some l' → l.Recoloured l' ∧ l'.blendKey = l.blendKey ∧ (∃ m, blendMode l.blendKey = some m ∧ m.Growing ∧ m ≠ .sep .softLight ∧ m.Separable) ∧
      ∀ q q', l.colour 1 0 = some q → l'.colour 1 0 = some q' → q.Darker q' ∧ q.chan .red = q'.chan .blue := by
  obtain ⟨h1, h2, h3⟩ := exTint_file (ls := exTintA) (.inl rfl)
  obtain ⟨g1, g2, g3⟩ := exTint_file (ls := exTintB) (.inr (.inl rfl))
  refine ⟨first_picture h2 h1 h3 (by omega) _ (by decide), first_picture g2 g1 g3 (by omega) _ (by decide), by decide, rfl, fun k l l' e e' => ⟨exTint_recoloured ⟨rfl, .inl rfl⟩ k l l' e e', ?_⟩⟩
  rcases k with _ | _ | k
  · injection e with e
    injection e' with e'
    subst e e'
    refine ⟨rfl, ⟨.sep .multiply, by decide, ⟨rfl, rfl⟩, by decide, trivial⟩, fun q q' e e' => ?_⟩
    rw [show Layer.colour _ 1 0 = some ⟨100, 90, 80, 255⟩ by decide] at e
    rw [show Layer.colour _ 1 0 = some ⟨120, 200, 100, 255⟩ by decide] at e'
    cases e
    cases e'
    exact ⟨⟨by decide, by decide, by decide, rfl⟩, rfl⟩
  · injection e with e
    injection e' with e'
    subst e e'
    refine ⟨rfl, ⟨.sep .normal, by decide, ⟨rfl, rfl⟩, by decide, trivial⟩, fun q q' e e' => ?_⟩
    rw [show Layer.colour _ 1 0 = some ⟨30, 31, 29, 255⟩ by decide] at e
    rw [show Layer.colour _ 1 0 = some ⟨40, 52, 30, 255⟩ by decide] at e'
    cases e
    cases e'
    exact ⟨⟨by decide, by decide, by decide, rfl⟩, rfl⟩
  · simp [exTintA] at e

/-- A and N meet those of the theorem on C131. -/
example : (∃ p, FirstPicture (exTintDoc exTintA) exTintA 64 [(0, 0)] p) ∧ (∃ p, FirstPicture (exTintDoc exTintN) exTintN 64 [(0, 0)] p) ∧
    exTintA.length = exTintN.length ∧ (∀ l ∈ exTintA, l.veil 1 0 = 0 ∨ l.veil 1 0 = 255) ∧
    ∀ (k : Nat) l l', exTintA[k]? = some l → exTintN[k]? = some l' → l.Recoloured l' ∧ l.opacity = 255 ∧ DualModes l.blendKey l'.blendKey ∧
      ∀ q q', l.colour 1 0 = some q → l'.colour 1 0 = some q' → q.a = 255 ∧ q' = q.negative := by
  obtain ⟨h1, h2, h3⟩ := exTint_file (ls := exTintA) (.inl rfl)
  obtain ⟨g1, g2, g3⟩ := exTint_file (ls := exTintN) (.inr (.inr rfl))
  refine ⟨first_picture h2 h1 h3 (by omega) _ (by decide), first_picture g2 g1 g3 (by omega) _ (by decide), rfl, by decide, fun k l l' e e' => ⟨exTint_recoloured ⟨rfl, .inr rfl⟩ k l l' e e', ?_⟩⟩
  rcases k with _ | _ | k
  · injection e with e
    injection e' with e'
    subst e e'
    refine ⟨rfl, ⟨.multiply, .screen, by decide, by decide, .inl rfl⟩, fun q q' e e' => ?_⟩
    rw [show Layer.colour _ 1 0 = some ⟨100, 90, 80, 255⟩ by decide] at e
    rw [show Layer.colour _ 1 0 = some ⟨155, 165, 175, 255⟩ by decide] at e'
    cases e
    cases e'
    decide
  · injection e with e
    injection e' with e'
    subst e e'
    refine ⟨rfl, ⟨.normal, .normal, by decide, by decide, .inr (.inl ⟨rfl, rfl⟩)⟩, fun q q' e e' => ?_⟩
    rw [show Layer.colour _ 1 0 = some ⟨30, 31, 29, 255⟩ by decide] at e
    rw [show Layer.colour _ 1 0 = some ⟨225, 224, 226, 255⟩ by decide] at e'
    cases e
    cases e'
    decide
  · simp [exTintA] at e

end Psd
