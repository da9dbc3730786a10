import Verif.Lemmas.Rearrange
import Verif.Props.Dissolve
import Verif.Props.Shade

/-!
# C121: the order of layers matters only where they overlap; C119 for layers of a document
-/

namespace Psd

/-- None of the layers, clipping ones aside, has anything at pixel `i` of tile `pt`. -/
def ClearAt (layers : List (LTree LayerRec)) (canvas : Int → Option (List (TPt × Tile))) (pt : TPt) (i : Nat) : Prop :=
  ∀ π l kids, docAt layers π = some (.node l kids) → l.clipping = false → ∀ p, (canvas l.seqID).bind (·.lookup pt) = some p → (p i).a = 0

theorem head_append {ys zs : List (LTree LayerRec)} (hy : ∀ k ∈ ys.head?, k.isClipping = false) (hz : ∀ k ∈ zs.head?, k.isClipping = false) :
    ∀ k ∈ (ys ++ zs).head?, k.isClipping = false := by
  cases ys with
  | nil => exact hz
  | cons y ys => exact hy

section
variable {dec : List UInt8 → Option (List UInt8)} {pic : Int → Option Tile} {mask : Int → Option (Nat → UInt8)} {i : Nat} {xs ys zs ws : List (LTree LayerRec)}

/-- Layers that have nothing at a pixel. -/
theorem clear_looks (hy : ∀ k ∈ ys.head?, k.isClipping = false) (hz : ∀ k ∈ zs.head?, k.isClipping = false) (hnp : NoPassThrough ys)
    (hc : DocAll (fun l _ => l.clipping = false → ∀ x, pic l.seqID = some x → (x i).a = 0) ys) : LooksAlike dec pic mask i (xs ++ (ys ++ zs)) (xs ++ zs) := by
  intro t t' r r' h1 h1' h2 h2'
  obtain ⟨tx, t1, g1, g2, g3⟩ := stack_append (ops := tileOps) t _ _ h1 (head_append hy hz)
  obtain ⟨ty, tz, g4, g5, g6⟩ := stack_append (ops := tileOps) t1 _ _ g2 hz
  obtain ⟨tx', tz', g1', g5', g3'⟩ := stack_append (ops := tileOps) t' _ _ h1' hz
  obtain rfl := stack_unique _ _ _ g1 g1'
  obtain rfl := stack_unique _ _ _ g5 g5'
  rw [g3] at h2
  rw [g3'] at h2'
  obtain ⟨rx, e1, h2⟩ := Res.bind_eq_ok.1 h2
  obtain ⟨r1, e2, h2⟩ := Res.bind_eq_ok.1 h2
  obtain ⟨rx', e1', h2'⟩ := Res.bind_eq_ok.1 h2'
  obtain ⟨rz', e2', h2'⟩ := Res.bind_eq_ok.1 h2'
  rw [e1] at e1'
  injection e1' with e1'
  subst e1'
  injection h2 with h2
  injection h2' with h2'
  subst h2 h2'
  rw [g6] at e2
  obtain ⟨ry, e3, e2⟩ := Res.bind_eq_ok.1 e2
  obtain ⟨rz, e4, e2⟩ := Res.bind_eq_ok.1 e2
  injection e2 with e2
  subst e2
  have := paint_clear ty (stack_clear ty ys g4 hnp hc) _ _ _ e3
  exact (paint_same (strict := true) _ _ (.refl _ _ _) (.inl rfl) _ _ _ _ rz rz' (.inl this) e4 e2').1

/-- Layers of which one have nothing at a pixel are exchanged. -/
theorem order_looks (hy : ∀ k ∈ ys.head?, k.isClipping = false) (hz : ∀ k ∈ zs.head?, k.isClipping = false) (hw : ∀ k ∈ ws.head?, k.isClipping = false) (hnp : NoPassThrough ys)
    (hc : DocAll (fun l _ => l.clipping = false → ∀ x, pic l.seqID = some x → (x i).a = 0) ys) : LooksAlike dec pic mask i (xs ++ (ys ++ (zs ++ ws))) (xs ++ (zs ++ (ys ++ ws))) := by
  intro t t' r r' h1 h1' h2 h2'
  obtain ⟨tx, t1, g1, g2, g3⟩ := stack_append (ops := tileOps) t _ _ h1 (head_append hy (head_append hz hw))
  obtain ⟨ty, t2, g4, g5, g6⟩ := stack_append (ops := tileOps) t1 _ _ g2 (head_append hz hw)
  obtain ⟨tz, tw, g7, g8, g9⟩ := stack_append (ops := tileOps) t2 _ _ g5 hw
  obtain ⟨tx', t1', k1, k2, k3⟩ := stack_append (ops := tileOps) t' _ _ h1' (head_append hz (head_append hy hw))
  obtain ⟨tz', t2', k4, k5, k6⟩ := stack_append (ops := tileOps) t1' _ _ k2 (head_append hy hw)
  obtain ⟨ty', tw', k7, k8, k9⟩ := stack_append (ops := tileOps) t2' _ _ k5 hw
  obtain rfl := stack_unique _ _ _ g1 k1
  obtain rfl := stack_unique _ _ _ g4 k7
  obtain rfl := stack_unique _ _ _ g7 k4
  obtain rfl := stack_unique _ _ _ g8 k8
  rw [g3] at h2
  rw [k3] at h2'
  obtain ⟨rx, e1, h2⟩ := Res.bind_eq_ok.1 h2
  obtain ⟨r1, e2, h2⟩ := Res.bind_eq_ok.1 h2
  obtain ⟨rx', e1', h2'⟩ := Res.bind_eq_ok.1 h2'
  obtain ⟨r1', e2', h2'⟩ := Res.bind_eq_ok.1 h2'
  rw [e1] at e1'
  injection e1' with e1'
  subst e1'
  injection h2 with h2
  injection h2' with h2'
  subst h2 h2'
  rw [g6] at e2
  rw [k6] at e2'
  obtain ⟨ry, e3, e2⟩ := Res.bind_eq_ok.1 e2
  obtain ⟨r2, e4, e2⟩ := Res.bind_eq_ok.1 e2
  obtain ⟨rz', e3', e2'⟩ := Res.bind_eq_ok.1 e2'
  obtain ⟨r2', e4', e2'⟩ := Res.bind_eq_ok.1 e2'
  injection e2 with e2
  injection e2' with e2'
  subst e2 e2'
  rw [g9] at e4
  rw [k9] at e4'
  obtain ⟨rz, e5, e4⟩ := Res.bind_eq_ok.1 e4
  obtain ⟨rw1, e6, e4⟩ := Res.bind_eq_ok.1 e4
  obtain ⟨ry', e5', e4'⟩ := Res.bind_eq_ok.1 e4'
  obtain ⟨rw2, e6', e4'⟩ := Res.bind_eq_ok.1 e4'
  injection e4 with e4
  injection e4' with e4'
  subst e4 e4'
  have c1 := paint_clear ty (stack_clear ty ys g4 hnp hc) _ _ _ e3
  have c2 := paint_clear ty (stack_clear ty ys g4 hnp hc) _ _ _ e5'
  have s1 := (paint_same (strict := true) _ _ (.refl _ _ _) (.inl rfl) _ _ _ _ rz rz' (.inl c1) e5 e3').1
  exact (paint_same (strict := true) _ _ (.refl _ _ _) (.inl rfl) _ _ _ _ rw1 rw2 (by rw [c2]; exact s1) e6 e6').1

end

/-- **C121** Layers that have nothing at a pixel could as well be missing: with what is clipped to them they make no difference to this pixel of the picture.

Missing: pass-through folders among them, if there is something translucent below (`C121_order_of_folders`). -/
theorem C121_clear_layers_partial (grow : Nat → Nat) (dec : List UInt8 → Option (List UInt8)) (n : Nat) (xs ys zs : List (LTree LayerRec))
    (hf : depthAll (xs ++ (ys ++ zs)) ≤ n) (hu : UniqueDoc (xs ++ (ys ++ zs))) (hk : KnownModes (xs ++ (ys ++ zs)))
    (hy : ∀ k ∈ ys.head?, k.isClipping = false) (hz : ∀ k ∈ zs.head?, k.isClipping = false) (hnp : NoPassThrough ys)
    (canvas : Int → Option (List (TPt × Tile))) (mask : Int → List (TPt × (Nat → UInt8))) (pt : TPt) (i : Nat) (hc : ClearAt ys canvas pt i)
    (fuel : Nat) (hfu : 2 * n ≤ fuel) (diff aborted : Bool) (visited : List TPt) (hnd : visited.Nodup) (dest : TPt → Tile) :
    ∃ st st' d d', render tileOps ⟨newTree grow dec n (xs ++ (ys ++ zs)), rootPtr, canvas, mask⟩ fuel diff aborted visited .empty dest = .ok (st, d) ∧
      render tileOps ⟨newTree grow dec n (xs ++ zs), rootPtr, canvas, mask⟩ fuel diff aborted visited .empty dest = .ok (st', d') ∧ d pt i = d' pt i := by
  obtain ⟨st, d, e, h⟩ := C82_render_paints_the_layers grow dec n _ hf hu hk canvas mask fuel hfu diff aborted visited hnd dest
  have hf' : depthAll (xs ++ zs) ≤ n := by
    rw [depthAll_append, depthAll_append] at hf
    rw [depthAll_append]
    omega
  obtain ⟨st', d', e', h'⟩ := C82_render_paints_the_layers grow dec n _ hf' (hu.rearrange unskip_get (unskip_inj _ _)) (DocAll.rearrange unskip_get hk) canvas mask fuel hfu diff
    aborted visited hnd dest
  refine ⟨st, st', d, d', e, e', ?_⟩
  obtain ⟨t, r, h1, h2, h3⟩ := h pt
  obtain ⟨t', r', h1', h2', h3'⟩ := h' pt
  rw [h3, h3']
  split
  swap
  · rfl
  exact tileShown_same (clear_looks hy hz hnp (fun π l kids e hcl x hx => hc π l kids e hcl x hx) t t' r r' h1 h1' h2 h2') h2 h2' _ _

/-- **C121** Neighbouring layers can be exchanged, each with what is clipped to it, without changing any pixel at which at most one of them has something. `ys` and `zs` may be several layers and
folders each.

Missing: pass-through folders (`C121_order_of_folders`). -/
theorem C121_order_partial (grow : Nat → Nat) (dec : List UInt8 → Option (List UInt8)) (n : Nat) (xs ys zs ws : List (LTree LayerRec))
    (hf : depthAll (xs ++ (ys ++ (zs ++ ws))) ≤ n) (hu : UniqueDoc (xs ++ (ys ++ (zs ++ ws)))) (hk : KnownModes (xs ++ (ys ++ (zs ++ ws))))
    (hy : ∀ k ∈ ys.head?, k.isClipping = false) (hz : ∀ k ∈ zs.head?, k.isClipping = false) (hw : ∀ k ∈ ws.head?, k.isClipping = false)
    (canvas : Int → Option (List (TPt × Tile))) (mask : Int → List (TPt × (Nat → UInt8))) (pt : TPt) (i : Nat)
    (hc : NoPassThrough ys ∧ ClearAt ys canvas pt i ∨ NoPassThrough zs ∧ ClearAt zs canvas pt i)
    (fuel : Nat) (hfu : 2 * n ≤ fuel) (diff aborted : Bool) (visited : List TPt) (hnd : visited.Nodup) (dest : TPt → Tile) :
    ∃ st st' d d', render tileOps ⟨newTree grow dec n (xs ++ (ys ++ (zs ++ ws))), rootPtr, canvas, mask⟩ fuel diff aborted visited .empty dest = .ok (st, d) ∧
      render tileOps ⟨newTree grow dec n (xs ++ (zs ++ (ys ++ ws))), rootPtr, canvas, mask⟩ fuel diff aborted visited .empty dest = .ok (st', d') ∧ d pt i = d' pt i := by
  have hf' : depthAll (xs ++ (zs ++ (ys ++ ws))) ≤ n := by
    rw [depthAll_append, depthAll_append, depthAll_append] at hf ⊢
    omega
  have hu' : UniqueDoc (xs ++ (zs ++ (ys ++ ws))) := hu.rearrange unswap_get (unswap_inj _ _ _)
  have hk' : KnownModes (xs ++ (zs ++ (ys ++ ws))) := DocAll.rearrange unswap_get hk
  rcases hc with ⟨hn, hc⟩ | ⟨hn, hc⟩
  · obtain ⟨st, st0, d, d0, e1, e2, e3⟩ := C121_clear_layers_partial grow dec n xs ys (zs ++ ws) hf hu hk hy (head_append hz hw) hn canvas mask pt i hc fuel hfu diff aborted visited hnd dest
    obtain ⟨st', st1, d', d1, e4, e5, e6⟩ := C121_clear_layers_partial grow dec n (xs ++ zs) ys ws (by rw [List.append_assoc]; exact hf') (by rw [List.append_assoc]; exact hu')
      (by rw [List.append_assoc]; exact hk') hy hw hn canvas mask pt i hc fuel hfu diff aborted visited hnd dest
    rw [List.append_assoc] at e4 e5
    rw [e2] at e5
    injection e5 with e5
    injection e5 with _ e5
    subst e5
    exact ⟨st, st', d, d', e1, e4, e3.trans e6.symm⟩
  · obtain ⟨st, st0, d, d0, e1, e2, e3⟩ := C121_clear_layers_partial grow dec n xs zs (ys ++ ws) hf' hu' hk' hz (head_append hy hw) hn canvas mask pt i hc fuel hfu diff aborted visited hnd dest
    obtain ⟨st', st1, d', d1, e4, e5, e6⟩ := C121_clear_layers_partial grow dec n (xs ++ ys) zs ws (by rw [List.append_assoc]; exact hf) (by rw [List.append_assoc]; exact hu)
      (by rw [List.append_assoc]; exact hk) hz hw hn canvas mask pt i hc fuel hfu diff aborted visited hnd dest
    rw [List.append_assoc] at e4 e5
    rw [e2] at e5
    injection e5 with e5
    injection e5 with _ e5
    subst e5
    exact ⟨st', st, d', d, e4, e1, e6.trans e3.symm⟩

/-- C121 is false of pass-through folders: one whose contents are not to be seen changes the pixel of the layer below it, but not of one above it. -/
theorem C121_order_of_folders :
    peekPx (render tileOps ⟨newTree (fun n => n) some 2 [.node dimBase [], .node transitFolder [.node transitKid []]], rootPtr, faintCanvas, fun _ => []⟩ 4 false false [(0, 0)]
      .empty blank) 5 = .ok ⟨95, 0, 0, 1⟩ ∧
    peekPx (render tileOps ⟨newTree (fun n => n) some 2 [.node transitFolder [.node transitKid []], .node dimBase []], rootPtr, faintCanvas, fun _ => []⟩ 4 false false [(0, 0)]
      .empty blank) 5 = .ok ⟨97, 0, 0, 1⟩ ∧ ClearAt [.node transitFolder [.node transitKid []]] faintCanvas (0, 0) 5 := by
  refine ⟨by decide +kernel, by decide +kernel, DocAll.of_list (Q := fun l _ => l.clipping = false → ∀ p, (faintCanvas l.seqID).bind (·.lookup (0, 0)) = some p → (p 5).a = 0) ?_⟩
  intro x hx
  simp only [docList, List.map, List.nil_append, List.cons_append] at hx
  fin_cases hx
  · rintro - p ⟨⟩
  · rintro - p ⟨⟩
    rfl

/-! ### C119 for layers -/

/-- The blend mode of a layer or folder. -/
def LayerRec.modeKey (l : LayerRec) : List UInt8 := if l.folder then l.sdBlendMode else l.blendMode

theorem ShowsLayer.modeKey {dec : List UInt8 → Option (List UInt8)} {l : LayerRec} {a : CAttr} (h : ShowsLayer dec l a) (hp : l.modeKey ≠ ascii "pass") : a.blendMode = l.modeKey := by
  unfold LayerRec.modeKey at hp ⊢
  cases hf : l.folder with
  | true => exact h.folderMode hf
  | false =>
    rw [hf] at hp
    exact h.layerMode hf hp

/-- What is below, and what is on top of it: over an opaque background, the top layer or folder is drawn on each pixel in its blend mode, or not at all. -/
theorem top_layer (grow : Nat → Nat) (dec : List UInt8 → Option (List UInt8)) (n : Nat) (bg l : LayerRec) (below sub clips : List (LTree LayerRec))
    (hf : depthAll ((.node bg [] :: below) ++ (.node l sub :: clips)) ≤ n) (hu : UniqueDoc ((.node bg [] :: below) ++ (.node l sub :: clips)))
    (hk : KnownModes ((.node bg [] :: below) ++ (.node l sub :: clips))) (hbg : bg.Solid) (hcb : bg.clipping = false) (hl : l.clipping = false) (hcs : ∀ k ∈ clips, k.isClipping = true)
    {md : Mode} (hmd : blendMode l.modeKey = some md) (canvas : Int → Option (List (TPt × Tile))) (mask : Int → List (TPt × (Nat → UInt8)))
    (hb : FoldersBare ((.node bg [] :: below) ++ (.node l sub :: clips)) canvas) (pt : TPt) (i : Nat) (p : Tile) (hp : (canvas bg.seqID).bind (·.lookup pt) = some p)
    (hpi : (p i).a = 255) (fuel : Nat) (hfu : 2 * n ≤ fuel) (diff aborted : Bool) (visited : List TPt) (hpt : pt ∈ visited) (hnd : visited.Nodup) (dest : TPt → Tile) :
    ∃ st st' d d', render tileOps ⟨newTree grow dec n (.node bg [] :: below), rootPtr, canvas, mask⟩ fuel diff aborted visited .empty dest = .ok (st, d) ∧
      render tileOps ⟨newTree grow dec n ((.node bg [] :: below) ++ (.node l sub :: clips)), rootPtr, canvas, mask⟩ fuel diff aborted visited .empty dest = .ok (st', d') ∧
      (d pt i).a = 255 ∧ (d' pt i = d pt i ∨ ∃ s : Px, drawNN md l.opacity.toUInt32 s (d pt i) = .ok (d' pt i)) := by
  have hps : l.modeKey ≠ ascii "pass" := fun e => by
    rw [e, show blendMode (ascii "pass") = none by decide] at hmd
    cases hmd
  obtain ⟨st', d', e', h'⟩ := C82_render_paints_the_layers grow dec n _ hf hu hk canvas mask fuel hfu diff aborted visited hnd dest
  have hf0 : depthAll (.node bg [] :: below) ≤ n := by
    rw [depthAll_append] at hf
    omega
  have hget : ∀ (j : Nat) (x : LTree LayerRec), (.node bg [] :: below : List (LTree LayerRec))[j]? = some x → ((.node bg [] :: below) ++ (.node l sub :: clips))[j]? = some x := by
    intro j x h
    rw [List.getElem?_append_left (List.getElem?_eq_some_iff.1 h).1]
    exact h
  obtain ⟨st, d, e, h⟩ := C82_render_paints_the_layers grow dec n _ hf0 (hu.rearrange (g := id) hget (fun _ _ h => h)) (DocAll.rearrange (g := id) hget hk) canvas mask fuel hfu diff
    aborted visited hnd dest
  refine ⟨st, st', d, d', e, e', ?_⟩
  obtain ⟨t, r, h1, h2, h3⟩ := h pt
  obtain ⟨t', r', h1', h2', h3'⟩ := h' pt
  obtain ⟨tb, ty, g1, g2, g3⟩ := stack_append (ops := tileOps) t' _ _ h1' (by intro k hk; cases hk; exact hl)
  obtain rfl := stack_unique _ _ _ h1 g1
  rw [g3, h2] at h2'
  obtain ⟨ry, e2, h2'⟩ := Res.bind_eq_ok.1 (show paint tileOps ty false id r.2 >>= _ = _ from h2')
  injection h2' with h2'
  subst h2'
  have hb0 : t.bare := stack_bare _ _ h1 fun π l kids e h => by
    show (canvas _).bind _ = none
    rw [DocAll.rearrange (Q := fun l kids => l.folder = true ∨ kids ≠ [] → canvas l.seqID = none) (g := id) hget hb π l kids e h]
    rfl
  -- the background
  have hop : r.1 = true ∧ (r.2 i).a = 255 := by
    cases t with
    | nil => cases (show _ :: _ = [] from h1)
    | layer a p0 m kids clips0 rest =>
      obtain ⟨l0, sub0, above0, over, e3, ha, hp0, -, hk', hc, -⟩ := h1
      injection e3 with e3 e4
      injection e3 with e5 e6
      subst e5 e6
      replace hp0 := hp0.trans hp
      subst hp0
      obtain rfl := hk'.nil
      obtain ⟨s1, s2, s3, s4⟩ := ha.solid hbg
      rw [paint_layer] at h2
      obtain ⟨r1, e5, e6⟩ := Res.bind_eq_ok.1 h2
      obtain ⟨r2, e7, e8⟩ := Res.bind_eq_ok.1 e6
      injection e8 with e8
      subst e8
      obtain ⟨f1, img, f2, f3, -⟩ := paintLayer_cover s1 (.inl (ha.clipping.trans hcb)) s2 s3 s4 hpi hb0.2.2.1 e5
      exact ⟨by rw [f1]; rfl, paint_opaque rest hb0.2.2.2 _ _ _ r2 ((congrArg Px.a f3).trans f2) e7⟩
  have shown : ∀ (old : Tile) {q : Bool × Tile}, q.1 = true → (q.2 i).a = 255 → tileShown tileOps old q i = q.2 i := by
    intro old q h1 h2
    unfold tileShown
    rw [if_pos h1]
    show tileOps.copy (tileOps.copy q.2) i = _
    rw [copy_opaque (by rw [copy_alpha]; exact h2), copy_opaque h2]
  have hd : d pt i = r.2 i := by
    rw [h3, if_pos hpt]
    exact shown _ hop.1 hop.2
  rw [hd]
  refine ⟨hop.2, ?_⟩
  -- the layer on top
  have top : ry.2 i = r.2 i ∨ ∃ s : Px, drawNN md l.opacity.toUInt32 s (r.2 i) = .ok (ry.2 i) := by
    cases ty with
    | nil => cases (show _ :: _ = [] from g2)
    | layer a p0 m kids clips0 rest =>
      obtain ⟨l0, sub0, above0, over, e3, ha, -, -, -, -, hr, n1, n2, n3⟩ := g2
      injection e3 with e3 e4
      injection e3 with e5 e6
      subst e5 e6
      obtain ⟨rfl, rfl⟩ := run_unique clips [] above0 over (by simpa using e4) hcs n1 (by simp) (n3 hl)
      obtain rfl := hr.nil
      rw [paint_layer] at e2
      obtain ⟨r1, e5, e6⟩ := Res.bind_eq_ok.1 e2
      injection e6 with e6
      subst e6
      rcases paintLayer_px (i := i) (by rw [ha.modeKey hps]; exact hps) e5 with f | ⟨md', img, f1, -, f2⟩
      · left
        exact congrFun f i
      · right
        rw [ha.modeKey hps, hmd] at f1
        injection f1 with f1
        subst f1
        rw [show id a.opacity = l.opacity.toNat from ha.opacity, UInt8.ofNat_toNat] at f2
        exact ⟨_, f2⟩
  have hd' : d' pt i = ry.2 i := by
    rw [h3', if_pos hpt]
    refine shown _ (by simp [hop.1]) ?_
    rcases top with f | ⟨s, f⟩
    · exact (congrArg Px.a f).trans hop.2
    · exact C42_opaque_backdrop md l.opacity s (r.2 i) (ry.2 i) f hop.2
  rw [hd']
  exact top

/-- **C119** A layer or folder in a darkening mode, put on top of a document with an opaque background, with whatever mask, contents and layers clipped to it, brightens no pixel of the picture. -/
theorem C119_darkening_layer (grow : Nat → Nat) (dec : List UInt8 → Option (List UInt8)) (n : Nat) (bg l : LayerRec) (below sub clips : List (LTree LayerRec))
    (hf : depthAll ((.node bg [] :: below) ++ (.node l sub :: clips)) ≤ n) (hu : UniqueDoc ((.node bg [] :: below) ++ (.node l sub :: clips)))
    (hk : KnownModes ((.node bg [] :: below) ++ (.node l sub :: clips))) (hbg : bg.Solid) (hcb : bg.clipping = false) (hl : l.clipping = false) (hcs : ∀ k ∈ clips, k.isClipping = true)
    {m : Sep} (hmd : blendMode l.modeKey = some (.sep m)) (hm : m.darkening = true) (canvas : Int → Option (List (TPt × Tile)))
    (mask : Int → List (TPt × (Nat → UInt8))) (hb : FoldersBare ((.node bg [] :: below) ++ (.node l sub :: clips)) canvas) (pt : TPt) (i : Nat) (p : Tile)
    (hp : (canvas bg.seqID).bind (·.lookup pt) = some p) (hpi : (p i).a = 255) (fuel : Nat) (hfu : 2 * n ≤ fuel) (diff aborted : Bool) (visited : List TPt) (hpt : pt ∈ visited)
    (hnd : visited.Nodup) (dest : TPt → Tile) :
    ∃ st st' d d', render tileOps ⟨newTree grow dec n (.node bg [] :: below), rootPtr, canvas, mask⟩ fuel diff aborted visited .empty dest = .ok (st, d) ∧
      render tileOps ⟨newTree grow dec n ((.node bg [] :: below) ++ (.node l sub :: clips)), rootPtr, canvas, mask⟩ fuel diff aborted visited .empty dest = .ok (st', d') ∧
      (d' pt i).Darker (d pt i) := by
  obtain ⟨st, st', d, d', e1, e2, h1, h2⟩ := top_layer grow dec n bg l below sub clips hf hu hk hbg hcb hl hcs hmd canvas mask hb pt i p hp hpi fuel hfu diff aborted visited hpt hnd dest
  refine ⟨st, st', d, d', e1, e2, ?_⟩
  rcases h2 with h2 | ⟨s, h2⟩
  · rw [h2]
    exact ⟨UInt8.le_refl _, UInt8.le_refl _, UInt8.le_refl _, rfl⟩
  · exact C119_darkening m hm _ _ _ _ h1 h2

/-- **C119** A layer or folder in a lightening mode darkens no pixel of the picture. -/
theorem C119_lightening_layer (grow : Nat → Nat) (dec : List UInt8 → Option (List UInt8)) (n : Nat) (bg l : LayerRec) (below sub clips : List (LTree LayerRec))
    (hf : depthAll ((.node bg [] :: below) ++ (.node l sub :: clips)) ≤ n) (hu : UniqueDoc ((.node bg [] :: below) ++ (.node l sub :: clips)))
    (hk : KnownModes ((.node bg [] :: below) ++ (.node l sub :: clips))) (hbg : bg.Solid) (hcb : bg.clipping = false) (hl : l.clipping = false) (hcs : ∀ k ∈ clips, k.isClipping = true)
    {m : Sep} (hmd : blendMode l.modeKey = some (.sep m)) (hm : m.lightening = true) (canvas : Int → Option (List (TPt × Tile)))
    (mask : Int → List (TPt × (Nat → UInt8))) (hb : FoldersBare ((.node bg [] :: below) ++ (.node l sub :: clips)) canvas) (pt : TPt) (i : Nat) (p : Tile)
    (hp : (canvas bg.seqID).bind (·.lookup pt) = some p) (hpi : (p i).a = 255) (fuel : Nat) (hfu : 2 * n ≤ fuel) (diff aborted : Bool) (visited : List TPt) (hpt : pt ∈ visited)
    (hnd : visited.Nodup) (dest : TPt → Tile) :
    ∃ st st' d d', render tileOps ⟨newTree grow dec n (.node bg [] :: below), rootPtr, canvas, mask⟩ fuel diff aborted visited .empty dest = .ok (st, d) ∧
      render tileOps ⟨newTree grow dec n ((.node bg [] :: below) ++ (.node l sub :: clips)), rootPtr, canvas, mask⟩ fuel diff aborted visited .empty dest = .ok (st', d') ∧
      (d pt i).Darker (d' pt i) := by
  obtain ⟨st, st', d, d', e1, e2, h1, h2⟩ := top_layer grow dec n bg l below sub clips hf hu hk hbg hcb hl hcs hmd canvas mask hb pt i p hp hpi fuel hfu diff aborted visited hpt hnd dest
  refine ⟨st, st', d, d', e1, e2, ?_⟩
  rcases h2 with h2 | ⟨s, h2⟩
  · rw [h2]
    exact ⟨UInt8.le_refl _, UInt8.le_refl _, UInt8.le_refl _, rfl⟩
  · exact C119_lightening m hm _ _ _ _ h1 h2

/-! ### Non-vacuity -/

/-- A layer in a folder of its own, to be multiplied. -/
def apartFolder : LayerRec := { seqID := 2, sdType := 1, sdBlendMode := ascii "mul ", opacity := 200, blendClippedElements := true }

/-- A layer elsewhere. -/
def apartLayer : LayerRec := { seqID := 3, blendMode := ascii "scrn", opacity := 90, blendClippedElements := true }

/-- A layer clipped to it. -/
def apartClip : LayerRec := { seqID := 4, blendMode := ascii "mul ", opacity := 120, clipping := true }

/-- The background is in two tiles, the folder in one of them, and the layer with the one clipped to it in the other. -/
def apartCanvas (id : Int) : Option (List (TPt × Tile)) :=
  if id = 0 then some [((0, 0), plainTile ⟨100, 150, 200, 255⟩), ((64, 0), plainTile ⟨10, 250, 20, 255⟩)] else if id = 1 then some [((0, 0), plainTile ⟨10, 20, 130, 180⟩)]
  else if id = 2 then none else some [((64, 0), plainTile ⟨70, 80, 90, 100⟩)]

/-- The hypotheses of `C121_order_partial` are met in both tiles. -/
example : let ys : List (LTree LayerRec) := [.node apartFolder [.node transitKid []]]
    let zs : List (LTree LayerRec) := [.node apartLayer [], .node apartClip []]
    depthAll ([.node dimBase []] ++ (ys ++ (zs ++ []))) ≤ 2 ∧ UniqueDoc ([.node dimBase []] ++ (ys ++ (zs ++ []))) ∧ KnownModes ([.node dimBase []] ++ (ys ++ (zs ++ []))) ∧
    (∀ k ∈ ys.head?, k.isClipping = false) ∧ (∀ k ∈ zs.head?, k.isClipping = false) ∧ NoPassThrough ys ∧ NoPassThrough zs ∧ ClearAt ys apartCanvas (64, 0) 5 ∧
    ClearAt zs apartCanvas (0, 0) 5 := by
  refine ⟨by decide, UniqueDoc.of_list ?_, DocAll.of_list (Q := fun l _ =>
    (l.folder = false → blendMode l.blendMode ≠ none ∨ l.blendMode = ascii "pass") ∧
    (l.folder = true → blendMode l.sdBlendMode ≠ none ∨ l.sdBlendMode = ascii "pass" ∧ l.blendClippedElements = true)) ?_, by decide, by decide,
    DocAll.of_list (Q := fun l _ => l.folder = true → l.sdBlendMode ≠ ascii "pass") ?_, DocAll.of_list (Q := fun l _ => l.folder = true → l.sdBlendMode ≠ ascii "pass") ?_,
    DocAll.of_list (Q := fun l _ => l.clipping = false → ∀ p, (apartCanvas l.seqID).bind (·.lookup (64, 0)) = some p → (p 5).a = 0) ?_,
    DocAll.of_list (Q := fun l _ => l.clipping = false → ∀ p, (apartCanvas l.seqID).bind (·.lookup (0, 0)) = some p → (p 5).a = 0) ?_⟩
  · simp only [docList, LTree.number, List.map, List.nil_append, List.cons_append, List.append_nil]
    decide
  all_goals
    intro x hx
    simp only [docList, List.map, List.nil_append, List.cons_append, List.append_nil] at hx
  · fin_cases hx <;> decide
  · fin_cases hx <;> decide
  · fin_cases hx <;> decide
  all_goals
    fin_cases hx
    all_goals rintro - p ⟨⟩

/-- The hypotheses of `C119_darkening_layer` are met by this folder. -/
example : let doc : List (LTree LayerRec) := [.node dimBase []] ++ [.node apartFolder [.node transitKid []], .node apartClip []]
    depthAll doc ≤ 2 ∧ UniqueDoc doc ∧ KnownModes doc ∧ dimBase.Solid ∧ dimBase.clipping = false ∧ apartFolder.clipping = false ∧ LTree.isClipping (.node apartClip []) = true ∧
    blendMode apartFolder.modeKey = some (.sep .multiply) ∧ Sep.multiply.darkening = true ∧ FoldersBare doc apartCanvas ∧
    ∃ p, (apartCanvas dimBase.seqID).bind (·.lookup (0, 0)) = some p ∧ (p 5).a = 255 := by
  refine ⟨by decide, UniqueDoc.of_list ?_, DocAll.of_list (Q := fun l _ =>
    (l.folder = false → blendMode l.blendMode ≠ none ∨ l.blendMode = ascii "pass") ∧
    (l.folder = true → blendMode l.sdBlendMode ≠ none ∨ l.sdBlendMode = ascii "pass" ∧ l.blendClippedElements = true)) ?_, ⟨rfl, rfl, rfl, rfl, by decide⟩, rfl, rfl, rfl,
    by decide, rfl, DocAll.of_list (Q := fun l kids => l.folder = true ∨ kids ≠ [] → apartCanvas l.seqID = none) ?_, ⟨_, rfl, rfl⟩⟩
  · simp only [docList, LTree.number, List.map, List.nil_append, List.cons_append, List.append_nil]
    decide
  all_goals
    intro x hx
    simp only [docList, List.map, List.nil_append, List.cons_append, List.append_nil] at hx
  · fin_cases hx <;> decide
  · fin_cases hx
    case _ => exact fun h => by rcases h with h | h; exacts [absurd h (by decide), absurd rfl h]
    case _ => exact fun _ => rfl
    all_goals
      intro h
      rcases h with h | h
      · exact absurd h (by decide)
      · exact absurd rfl h

/-- The pixel with the folder and without it: it is darkened. -/
example :
    peekPx (render tileOps ⟨newTree (fun n => n) some 2 [.node dimBase [], .node apartFolder [.node transitKid []], .node apartClip []], rootPtr, apartCanvas, fun _ => []⟩ 4 false false
      [(0, 0)] .empty blank) 5 = .ok ⟨46, 73, 145, 255⟩ ∧
    peekPx (render tileOps ⟨newTree (fun n => n) some 2 [.node dimBase []], rootPtr, apartCanvas, fun _ => []⟩ 4 false false [(0, 0)] .empty blank) 5 = .ok ⟨100, 150, 200, 255⟩ := by
  decide +kernel

end Psd
