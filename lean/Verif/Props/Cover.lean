import Verif.Lemmas.Cover
import Verif.Spec.Covered
import Verif.Props.Seen

/-!
# C86, C87: opaque layers are seen, and cover what is below
-/

namespace Psd

theorem docAt_append {α : Type} (xs ys : List (LTree α)) (j : Nat) (π : List Nat) : docAt (xs ++ ys) ((xs.length + j) :: π) = docAt ys (j :: π) := by
  simp only [docAt, List.getElem?_append_right (Nat.le_add_right _ _), Nat.add_sub_cancel_left]

theorem UniqueDoc.suffix {xs ys : List (LTree LayerRec)} (h : UniqueDoc (xs ++ ys)) : UniqueDoc ys := by
  intro π π' l l' kids kids' e e' hl
  cases π with
  | nil => cases e
  | cons j π =>
    cases π' with
    | nil => cases e'
    | cons j' π' =>
      have := h _ _ l l' kids kids' ((docAt_append xs ys j π).trans e) ((docAt_append xs ys j' π').trans e') hl
      injection this with h1 h2
      rw [show j = j' by omega, h2]

theorem ShowsLayer.solid {dec : List UInt8 → Option (List UInt8)} {l : LayerRec} {a : CAttr} (h : ShowsLayer dec l a) (hs : l.Solid) :
    a.visible = true ∧ a.opacity = 255 ∧ a.blendMode = ascii "norm" ∧ a.maskEnabled = false := by
  refine ⟨h.visible.trans hs.visible, by rw [h.opacity, hs.opacity]; rfl, ?_, ?_⟩
  · rw [h.layerMode hs.layer (by rw [hs.mode]; decide), hs.mode]
  · cases hm : a.maskEnabled with
    | false => rfl
    | true => exact absurd (h.mask.1 hm) hs.unmasked

section
variable (grow : Nat → Nat) (dec : List UInt8 → Option (List UInt8)) (n : Nat)

/-- C87: where a layer without children in normal mode at full opacity, without a mask, is opaque, the picture does not depend on the layers below. -/
theorem C87_opaque_covers (below above : List (LTree LayerRec)) (l : LayerRec)
    (hf : depthAll (below ++ .node l [] :: above) ≤ n) (hu : UniqueDoc (below ++ .node l [] :: above)) (hk : KnownModes (below ++ .node l [] :: above)) (hl : l.Solid)
    (hcl : l.clipping = false) (canvas : Int → Option (List (TPt × Tile))) (mask : Int → List (TPt × (Nat → UInt8))) (hb : FoldersBare (below ++ .node l [] :: above) canvas)
    (pt : TPt) (i : Nat) (p : Tile) (hp : (canvas l.seqID).bind (·.lookup pt) = some p) (hpi : (p i).a = 255) (fuel : Nat) (hfu : 2 * n ≤ fuel) (diff aborted : Bool)
    (visited : List TPt) (hnd : visited.Nodup) (dest : TPt → Tile) :
    ∃ st st' d d', render tileOps ⟨newTree grow dec n (below ++ .node l [] :: above), rootPtr, canvas, mask⟩ fuel diff aborted visited .empty dest = .ok (st, d) ∧
      render tileOps ⟨newTree grow dec n (.node l [] :: above), rootPtr, canvas, mask⟩ fuel diff aborted visited .empty dest = .ok (st', d') ∧ d pt i = d' pt i := by
  obtain ⟨st, d, e, h⟩ := C82_render_paints_the_layers grow dec n _ hf hu hk canvas mask fuel hfu diff aborted visited hnd dest
  rw [depthAll_append] at hf
  obtain ⟨st', d', e', h'⟩ := C82_render_paints_the_layers grow dec n (.node l [] :: above) (by omega) hu.suffix (DocAll.append hk).2 canvas mask fuel hfu diff aborted visited hnd dest
  refine ⟨st, st', d, d', e, e', ?_⟩
  obtain ⟨t, r, h1, h2, h3⟩ := h pt
  obtain ⟨t', r', h1', h2', h3'⟩ := h' pt
  rw [h3, h3']
  split
  · obtain ⟨tb, ty, g1, g2, g3⟩ := stack_append (ops := tileOps) t _ _ h1 (by intro k hk; cases hk; exact hcl)
    obtain rfl := stack_unique _ _ _ h1' g2
    rw [g3] at h2
    obtain ⟨rb, e1, h2⟩ := Res.bind_eq_ok.1 h2
    obtain ⟨ry, e2, h2⟩ := Res.bind_eq_ok.1 h2
    injection h2 with h2
    subst h2
    cases t' with
    | nil => cases (show _ :: _ = [] from h1')
    | layer a p0 m kids clips rest =>
      obtain ⟨l0, sub, above0, over, e3, ha, hp0, hm, hk', hc, -⟩ := h1'
      injection e3 with e3 e4
      injection e3 with e5 e6
      subst e5 e6
      replace hp0 := hp0.trans hp
      subst hp0
      obtain rfl := hk'.nil
      obtain ⟨s1, s2, s3, s4⟩ := ha.solid hl
      obtain ⟨-, -, b3⟩ := DocAll.cons (Q := fun l kids => l.folder = true ∨ kids ≠ [] → canvas l.seqID = none) (DocAll.append hb).2
      rw [e4] at b3
      have hbc := stack_bare _ _ hc fun π l kids e h => by
        show (canvas _).bind _ = none
        rw [(DocAll.append b3).1 π l kids e h]
        rfl
      obtain ⟨f1, f2, f3⟩ := paint_cover s1 (ha.clipping.trans hcl) s2 s3 s4 hpi hbc e2 h2'
      unfold tileShown
      rw [f2, f1, Bool.or_true, if_pos rfl, if_pos rfl]
      exact copy_same (.inl (copy_same f3))
  · rfl

theorem shown_top {below : List (LTree LayerRec)} {l : LayerRec} {above : List (LTree LayerRec)} (hab : ∀ k ∈ above, k.isClipping = true)
    (hf : depthAll (below ++ .node l [] :: above) ≤ n) (hu : UniqueDoc (below ++ .node l [] :: above)) (hk : KnownModes (below ++ .node l [] :: above)) (hl : l.Solid)
    (hcl : l.clipping = false) (canvas : Int → Option (List (TPt × Tile))) (mask : Int → List (TPt × (Nat → UInt8))) (hb : FoldersBare above canvas)
    (pt : TPt) (i : Nat) (p : Tile) (hp : (canvas l.seqID).bind (·.lookup pt) = some p) (hpi : (p i).a = 255) (fuel : Nat) (hfu : 2 * n ≤ fuel) (diff aborted : Bool)
    (visited : List TPt) (hnd : visited.Nodup) (hpt : pt ∈ visited) (dest : TPt → Tile) :
    ∃ st d a img clips, render tileOps ⟨newTree grow dec n (below ++ .node l [] :: above), rootPtr, canvas, mask⟩ fuel diff aborted visited .empty dest = .ok (st, d) ∧ d pt i = img i ∧
      (img i).a = 255 ∧ ShowsLayer dec l a ∧ IsStack dec (fun id => (canvas id).bind (·.lookup pt)) (fun id => (mask id).lookup pt) above clips ∧ clips.bare ∧
      clipPic tileOps a clips.isNil (paint tileOps clips true id) (some (tileOps.copy p)) = .ok (some img) := by
  obtain ⟨st, d, e, h⟩ := C82_render_paints_the_layers grow dec n _ hf hu hk canvas mask fuel hfu diff aborted visited hnd dest
  obtain ⟨t, r, h1, h2, h3⟩ := h pt
  rw [if_pos hpt] at h3
  obtain ⟨tb, ty, g1, g2, g3⟩ := stack_append (ops := tileOps) t _ _ h1 (by intro k hk; cases hk; exact hcl)
  rw [g3] at h2
  obtain ⟨rb, e1, h2⟩ := Res.bind_eq_ok.1 h2
  obtain ⟨ry, e2, h2⟩ := Res.bind_eq_ok.1 h2
  injection h2 with h2
  subst h2
  cases ty with
  | nil => cases (show _ :: _ = [] from g2)
  | layer a p0 m kids clips rest =>
    obtain ⟨l0, sub, above0, over, e3, ha, hp0, hm, hk', hc, hr, n1, n2, n3⟩ := g2
    injection e3 with e3 e4
    injection e3 with e5 e6
    subst e5 e6
    replace hp0 := hp0.trans hp
    subst hp0
    obtain rfl := hk'.nil
    obtain ⟨rfl, rfl⟩ := run_unique above [] above0 over (by simpa using e4) hab n1 (by simp) (n3 hcl)
    obtain rfl := hr.nil
    obtain ⟨s1, s2, s3, s4⟩ := ha.solid hl
    have hbc := stack_bare _ _ hc fun π l kids e h => by
      show (canvas _).bind _ = none
      rw [hb π l kids e h]
      rfl
    rw [paint_layer] at e2
    obtain ⟨r1, e5, e6⟩ := Res.bind_eq_ok.1 e2
    injection e6 with e6
    subst e6
    obtain ⟨f1, img, f2, f3, f4⟩ := paintLayer_cover s1 (.inl (ha.clipping.trans hcl)) s2 s3 s4 hpi hbc e5
    refine ⟨st, d, a, img, clips, e, ?_, f2, ha, hc, hbc, f4⟩
    rw [h3]
    unfold tileShown
    rw [f1, Bool.true_or, Bool.or_true, if_pos rfl]
    have f5 : (r1.2 i).a = 255 := by rw [f3]; exact f2
    show tileOps.copy (tileOps.copy r1.2) i = img i
    rw [copy_opaque (by rw [copy_alpha]; exact f5), copy_opaque f5, f3]

/-- C87: if it is the topmost layer, its opaque pixels are those of the picture. -/
theorem C87_top_layer_shows (below : List (LTree LayerRec)) (l : LayerRec)
    (hf : depthAll (below ++ [.node l []]) ≤ n) (hu : UniqueDoc (below ++ [.node l []])) (hk : KnownModes (below ++ [.node l []])) (hl : l.Solid)
    (hcl : l.clipping = false) (canvas : Int → Option (List (TPt × Tile))) (mask : Int → List (TPt × (Nat → UInt8)))
    (pt : TPt) (i : Nat) (p : Tile) (hp : (canvas l.seqID).bind (·.lookup pt) = some p) (hpi : (p i).a = 255) (fuel : Nat) (hfu : 2 * n ≤ fuel) (diff aborted : Bool)
    (visited : List TPt) (hnd : visited.Nodup) (hpt : pt ∈ visited) (dest : TPt → Tile) :
    ∃ st d, render tileOps ⟨newTree grow dec n (below ++ [.node l []]), rootPtr, canvas, mask⟩ fuel diff aborted visited .empty dest = .ok (st, d) ∧ d pt i = p i := by
  obtain ⟨st, d, a, img, clips, e, h1, h2, h3, h4, h5, h6⟩ := shown_top grow dec n (above := []) (by simp) hf hu hk hl hcl canvas mask (fun π l kids e => by cases π <;> cases e) pt i p hp hpi fuel hfu diff aborted
    visited hnd hpt dest
  refine ⟨st, d, e, ?_⟩
  rw [h4.nil] at h6
  injection h6 with h6
  injection h6 with h6
  rw [h1, ← h6, copy_opaque hpi]

/-- C86: a layer clipped to the topmost one is seen, if "Blend Clipped Layers as Group" is on: where both are opaque, its pixels are those of the picture. -/
theorem C86_clip_shows_partial (below : List (LTree LayerRec)) (l c : LayerRec)
    (hf : depthAll (below ++ [.node l [], .node c []]) ≤ n) (hu : UniqueDoc (below ++ [.node l [], .node c []])) (hk : KnownModes (below ++ [.node l [], .node c []]))
    (hl : l.Solid) (hc : c.Solid) (hcl : l.clipping = false) (hcc : c.clipping = true) (hbce : l.blendClippedElements = true)
    (canvas : Int → Option (List (TPt × Tile))) (mask : Int → List (TPt × (Nat → UInt8)))
    (pt : TPt) (i : Nat) (p q : Tile) (hp : (canvas l.seqID).bind (·.lookup pt) = some p) (hpi : (p i).a = 255) (hq : (canvas c.seqID).bind (·.lookup pt) = some q)
    (hqi : (q i).a = 255) (fuel : Nat) (hfu : 2 * n ≤ fuel) (diff aborted : Bool)
    (visited : List TPt) (hnd : visited.Nodup) (hpt : pt ∈ visited) (dest : TPt → Tile) :
    ∃ st d, render tileOps ⟨newTree grow dec n (below ++ [.node l [], .node c []]), rootPtr, canvas, mask⟩ fuel diff aborted visited .empty dest = .ok (st, d) ∧ d pt i = q i := by
  obtain ⟨st, d, a, img, clips, e, h1, h2, h3, h4, h5, h6⟩ := shown_top grow dec n (above := [.node c []]) (by simpa [LTree.isClipping] using hcc) hf hu hk hl hcl canvas mask
    (fun π l kids e h => by
      match π with
      | [] => cases e
      | [0] =>
        injection e with e
        injection e with e1 e2
        subst e1 e2
        rcases h with h | h
        · rw [hc.layer] at h
          cases h
        · exact absurd rfl h
      | 0 :: j :: π => cases π <;> cases e
      | (j + 1) :: π => cases π <;> cases e) pt i p hp hpi fuel hfu
    diff aborted visited hnd hpt dest
  refine ⟨st, d, e, ?_⟩
  rw [h1]
  cases clips with
  | nil => cases (show _ :: _ = [] from h4)
  | layer a' q0 m kids clips' rest =>
    obtain ⟨l0, sub, above0, over, e3, ha, hq0, hm, hk', hc', hr, n1, n2, n3⟩ := h4
    injection e3 with e3 e4
    injection e3 with e5 e6
    subst e5 e6
    obtain ⟨rfl, rfl⟩ := List.append_eq_nil_iff.1 e4.symm
    replace hq0 := hq0.trans hq
    subst hq0
    obtain rfl := hk'.nil
    obtain rfl := hc'.nil
    obtain rfl := hr.nil
    obtain ⟨s1, s2, s3, s4⟩ := ha.solid hc
    simp only [clipPic, Stk.isNil, h3.blendClipped, hbce, Bool.not_true, Bool.or_self, Bool.false_eq_true, if_false] at h6
    obtain ⟨r, h6, h7⟩ := Res.bind_eq_ok.1 h6
    injection h7 with h7
    injection h7 with h7
    rw [paint_layer] at h6
    obtain ⟨r1, e5, e6⟩ := Res.bind_eq_ok.1 h6
    injection e6 with e6
    subst e6
    obtain ⟨f1, img', f2, f3, f4⟩ := paintLayer_cover (i := i) s1 (.inr rfl) s2 s3 s4 hqi (clips := .nil) trivial e5
    injection f4 with f4
    injection f4 with f4
    subst f4
    rw [copy_opaque hqi] at f3
    rw [← h7]
    show tileOps.destIn r1.2 (tileOps.copy p) i = q i
    rw [destIn_opaque (by rw [f3]; exact hqi) (by rw [copy_alpha]; exact hpi), f3]

end

/-- A layer that covers others, and one that is clipped to it. -/
def solidLayer : LayerRec := { seqID := 8, blendMode := ascii "norm", opacity := 255, blendClippedElements := true }
def solidClip : LayerRec := { seqID := 9, blendMode := ascii "norm", opacity := 255, clipping := true }

/-- Their pixels. -/
def solidCanvas (id : Int) : Option (List (TPt × Tile)) :=
  if id = 8 then some [((0, 0), fun i => if i = 3 then ⟨1, 2, 3, 255⟩ else ⟨9, 9, 9, 100⟩)]
  else if id = 9 then some [((0, 0), plainTile ⟨50, 60, 70, 255⟩)] else partsCanvas id

/-- The hypotheses of `C87_opaque_covers`, `C87_top_layer_shows` and `C86_clip_shows_partial`. -/
example : solidLayer.Solid ∧ solidClip.Solid ∧ depthAll (partsDoc ++ [.node solidLayer [], .node solidClip []]) ≤ 2 ∧
    UniqueDoc (partsDoc ++ [.node solidLayer [], .node solidClip []]) ∧ KnownModes (partsDoc ++ [.node solidLayer [], .node solidClip []]) ∧
    FoldersBare (partsDoc ++ [.node solidLayer [], .node solidClip []]) solidCanvas ∧
    (∃ p, (solidCanvas 8).bind (·.lookup (0, 0)) = some p ∧ (p 3).a = 255) ∧ ∃ p, (solidCanvas 9).bind (·.lookup (0, 0)) = some p ∧ (p 3).a = 255 := by
  refine ⟨⟨rfl, rfl, rfl, rfl, by decide⟩, ⟨rfl, rfl, rfl, rfl, by decide⟩, by decide, UniqueDoc.of_list ?_, DocAll.of_list (Q := fun l _ =>
    (l.folder = false → blendMode l.blendMode ≠ none ∨ l.blendMode = ascii "pass") ∧
    (l.folder = true → blendMode l.sdBlendMode ≠ none ∨ l.sdBlendMode = ascii "pass" ∧ l.blendClippedElements = true)) ?_,
    DocAll.of_list (Q := fun l kids => l.folder = true ∨ kids ≠ [] → solidCanvas l.seqID = none) ?_, ⟨_, rfl, rfl⟩, ⟨_, rfl, rfl⟩⟩
  · simp only [docList, partsDoc, LTree.number, List.map, List.nil_append, List.cons_append]
    decide
  · intro x hx
    simp only [docList, partsDoc, List.map, List.nil_append, List.cons_append] at hx
    fin_cases hx <;> decide
  · intro x hx
    simp only [docList, partsDoc, List.map, List.nil_append, List.cons_append] at hx
    fin_cases hx
    · exact fun _ => rfl
    all_goals
      intro h
      rcases h with h | h
      · exact absurd h (by decide)
      · exact absurd rfl h

/-- And a layer clipped to one with "Blend Clipped Layers as Group" off is not seen, though it is opaque. -/
example :
    peekPx (render tileOps ⟨newTree (fun n => n) some 1 [.node solidLayer [], .node solidClip []], rootPtr, solidCanvas, fun _ => []⟩ 2 false false [(0, 0)] .empty blank) 3 =
      .ok ⟨50, 60, 70, 255⟩ ∧
    peekPx (render tileOps ⟨newTree (fun n => n) some 1 [.node { solidLayer with blendClippedElements := false } [], .node solidClip []], rootPtr, solidCanvas, fun _ => []⟩ 2 false
      false [(0, 0)] .empty blank) 3 = .ok ⟨1, 2, 3, 255⟩ := by
  decide +kernel

end Psd
