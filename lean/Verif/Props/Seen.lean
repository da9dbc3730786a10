import Verif.Lemmas.ClipAlpha
import Verif.Lemmas.Unseen
import Verif.Lemmas.DocList
import Verif.Props.Picture
import Mathlib.Tactic.FinCases

/-!
# C84 to C86: layers that are not seen
-/

namespace Psd

theorem render_unseen (grow : Nat → Nat) (dec : List UInt8 → Option (List UInt8)) (n : Nat) (layers layers' : List (LTree LayerRec)) (hf : depthAll layers ≤ n)
    (hu : UniqueDoc layers) (hk : KnownModes layers) (hw : Unseen layers layers') (canvas : Int → Option (List (TPt × Tile))) (mask : Int → List (TPt × (Nat → UInt8)))
    (hb : FoldersBare layers canvas) (fuel : Nat) (hfu : 2 * n ≤ fuel) (diff aborted : Bool) (visited : List TPt) (hnd : visited.Nodup) (dest : TPt → Tile) :
    ∃ st st' d, render tileOps ⟨newTree grow dec n layers, rootPtr, canvas, mask⟩ fuel diff aborted visited .empty dest = .ok (st, d) ∧
      render tileOps ⟨newTree grow dec n layers', rootPtr, canvas, mask⟩ fuel diff aborted visited .empty dest = .ok (st', d) := by
  obtain ⟨T, hT⟩ := stacks_exist dec canvas mask layers
  obtain ⟨T', hT'⟩ := stacks_exist dec canvas mask layers'
  obtain ⟨R, hR⟩ := paints_exist dec layers hk canvas mask T hT
  have key := fun pt => paint_unseen (ops := tileOps) (T pt) (T' pt) layers layers' (hT pt) (hT' pt) hw (fun π l kids e h => by
    show (canvas _).bind _ = none
    rw [hb π l kids e (.inr h)]
    rfl)
  obtain ⟨st, e⟩ := render_stacks (ops := tileOps) grow dec n layers hf canvas mask fuel hfu diff aborted visited hnd dest T R hT (fun pt => (hT pt).ids_nodup hu) hR
  obtain ⟨st', e'⟩ := render_stacks (ops := tileOps) grow dec n layers' (Nat.le_trans hw.depth hf) canvas mask fuel hfu diff aborted visited hnd dest T' R hT'
    (fun pt => ((hT pt).ids_nodup hu).sublist (key pt).1) (fun pt => by rw [← (key pt).2.2 false id _ rfl]; exact hR pt)
  exact ⟨st, st', _, e, e'⟩

/-- C84: a document and the document without some of its hidden layers give the same picture, if the hidden layers are not clipping layers. -/
theorem C84_hidden_leaves_no_trace_partial (grow : Nat → Nat) (dec : List UInt8 → Option (List UInt8)) (n : Nat) (layers layers' : List (LTree LayerRec))
    (hf : depthAll layers ≤ n) (hu : UniqueDoc layers) (hk : KnownModes layers) (hw : WithoutHidden layers layers') (canvas : Int → Option (List (TPt × Tile)))
    (mask : Int → List (TPt × (Nat → UInt8))) (hb : FoldersBare layers canvas) (fuel : Nat) (hfu : 2 * n ≤ fuel) (diff aborted : Bool) (visited : List TPt)
    (hnd : visited.Nodup) (dest : TPt → Tile) :
    ∃ st st' d, render tileOps ⟨newTree grow dec n layers, rootPtr, canvas, mask⟩ fuel diff aborted visited .empty dest = .ok (st, d) ∧
      render tileOps ⟨newTree grow dec n layers', rootPtr, canvas, mask⟩ fuel diff aborted visited .empty dest = .ok (st', d) :=
  render_unseen grow dec n layers layers' hf hu hk hw.unseen canvas mask hb fuel hfu diff aborted visited hnd dest

/-- C86 is false if a layer's "Blend Clipped Layers as Group" is off: the layers clipped to it are not seen at all, the picture is the same without them. -/
theorem C86_unblended_clips_vanish (grow : Nat → Nat) (dec : List UInt8 → Option (List UInt8)) (n : Nat) (layers layers' : List (LTree LayerRec))
    (hf : depthAll layers ≤ n) (hu : UniqueDoc layers) (hk : KnownModes layers) (hw : WithoutUnblended layers layers') (canvas : Int → Option (List (TPt × Tile)))
    (mask : Int → List (TPt × (Nat → UInt8))) (hb : FoldersBare layers canvas) (fuel : Nat) (hfu : 2 * n ≤ fuel) (diff aborted : Bool) (visited : List TPt)
    (hnd : visited.Nodup) (dest : TPt → Tile) :
    ∃ st st' d, render tileOps ⟨newTree grow dec n layers, rootPtr, canvas, mask⟩ fuel diff aborted visited .empty dest = .ok (st, d) ∧
      render tileOps ⟨newTree grow dec n layers', rootPtr, canvas, mask⟩ fuel diff aborted visited .empty dest = .ok (st', d) :=
  render_unseen grow dec n layers layers' hf hu hk (hw.unseen fun π l kids e h1 h2 h3 => by
    rcases (hk π l kids e).2 h1 with h | h
    · rw [h3] at h
      exact h (by decide)
    · rw [h2] at h
      cases h.2) canvas mask hb fuel hfu diff aborted visited hnd dest

theorem tileShown_alpha {i : Nat} {r r' : Bool × Tile} (h1 : r.1 = r'.1) (h2 : (r.2 i).a = (r'.2 i).a) (old old' : Tile) :
    (tileShown tileOps old r i).a = (tileShown tileOps old' r' i).a := by
  unfold tileShown
  rw [h1]
  split
  · rw [copy_alpha, copy_alpha, copy_alpha, copy_alpha, h2]
  · rw [clear_px, clear_px]

theorem knownModes_withoutClipping {xs ys : List (LTree LayerRec)} (h : WithoutClipping xs ys) {Q : LayerRec → Prop} (hk : DocAll (fun l _ => Q l) xs) : DocAll (fun l _ => Q l) ys := by
  induction h with
  | nil => exact hk
  | keep l sub sub' rest rest' _ _ _ ih1 ih2 =>
    obtain ⟨k1, k2, k3⟩ := hk.cons
    intro π l' kids e
    match π with
    | [] => cases e
    | [0] => injection e with e; injection e with e1 e2; subst e1; exact k1
    | 0 :: i :: π => exact ih1 k2 (i :: π) l' kids e
    | (i + 1) :: π => exact ih2 k3 (i :: π) l' kids e
  | drop l sub rest rest' _ _ ih => exact ih hk.cons.2.2

/-- C85: clipping layers never change the transparency of the picture: a document and the document without its clipping layers give pictures with the same transparency. -/
theorem C85_clipping_keeps_transparency (grow : Nat → Nat) (dec : List UInt8 → Option (List UInt8)) (n : Nat) (layers layers' : List (LTree LayerRec))
    (hf : depthAll layers ≤ n) (hu : UniqueDoc layers) (hk : KnownModes layers) (hw : WithoutClipping layers layers') (canvas : Int → Option (List (TPt × Tile)))
    (mask : Int → List (TPt × (Nat → UInt8))) (hb : FoldersBare layers canvas) (fuel : Nat) (hfu : 2 * n ≤ fuel) (diff aborted : Bool) (visited : List TPt)
    (hnd : visited.Nodup) (dest : TPt → Tile) :
    ∃ st st' d d', render tileOps ⟨newTree grow dec n layers, rootPtr, canvas, mask⟩ fuel diff aborted visited .empty dest = .ok (st, d) ∧
      render tileOps ⟨newTree grow dec n layers', rootPtr, canvas, mask⟩ fuel diff aborted visited .empty dest = .ok (st', d') ∧ ∀ pt i, (d pt i).a = (d' pt i).a := by
  obtain ⟨T, hT⟩ := stacks_exist dec canvas mask layers
  obtain ⟨T', hT'⟩ := stacks_exist dec canvas mask layers'
  obtain ⟨R, hR⟩ := paints_exist dec layers hk canvas mask T hT
  obtain ⟨R', hR'⟩ := paints_exist dec layers' (knownModes_withoutClipping hw hk) canvas mask T' hT'
  obtain ⟨st, e⟩ := render_stacks (ops := tileOps) grow dec n layers hf canvas mask fuel hfu diff aborted visited hnd dest T R hT (fun pt => (hT pt).ids_nodup hu) hR
  obtain ⟨st', e'⟩ := render_stacks (ops := tileOps) grow dec n layers' (Nat.le_trans hw.depth hf) canvas mask fuel hfu diff aborted visited hnd dest T' R' hT'
    (fun pt => ((hT pt).ids_nodup hu).sublist (ids_withoutClipping _ _ _ _ (hT pt) (hT' pt) hw)) hR'
  refine ⟨st, st', _, _, e, e', fun pt i => ?_⟩
  split
  · obtain ⟨h1, h2⟩ := paint_withoutClipping (i := i) (T pt) (T' pt) layers layers' (hT pt) (hT' pt) hw (stack_bare _ _ (hT pt) fun π l kids e h => by
      show (canvas _).bind _ = none
      rw [hb π l kids e h]
      rfl) id _ _ _ _ rfl (hR pt) (hR' pt)
    exact tileShown_alpha h1 h2 _ _
  · rfl

/-! ### Examples -/

/-- The hidden layer of `dimDoc`. -/
def dimClip : LayerRec := { seqID := 1, blendMode := ascii "norm", opacity := 255, clipping := true, flags := 2 }

/-- A layer whose pixels are hardly to be seen. -/
def dimBase : LayerRec := { seqID := 0, blendMode := ascii "norm", opacity := 255, blendClippedElements := true }

/-- A layer whose pixels are hardly to be seen, and an invisible layer clipped to it. -/
def dimDoc : List (LTree LayerRec) := [.node dimBase [], .node dimClip []]

/-- The pixels of both. -/
def dimCanvas (id : Int) : Option (List (TPt × Tile)) :=
  if id = 0 then some [((0, 0), plainTile ⟨100, 0, 0, 1⟩)] else if id = 1 then some [((0, 0), plainTile ⟨200, 200, 0, 255⟩)] else none

/-- C84 is false for clipping layers: one that is invisible still changes pixels. -/
theorem C84_hidden_clip_changes_pixels :
    peekPx (render tileOps ⟨newTree (fun n => n) some 1 dimDoc, rootPtr, dimCanvas, fun _ => []⟩ 2 false false [(0, 0)] .empty blank) 5 = .ok ⟨95, 0, 0, 1⟩ ∧
    peekPx (render tileOps ⟨newTree (fun n => n) some 1 [.node dimBase []], rootPtr, dimCanvas, fun _ => []⟩ 2 false false [(0, 0)] .empty blank) 5 = .ok ⟨97, 0, 0, 1⟩ := by
  decide +kernel

/-- A pass-through folder with two layers in it, one of them invisible; an invisible layer with a layer clipped to it; and a layer with two layers clipped to it. -/
def partsDoc : List (LTree LayerRec) :=
  [.node { seqID := 0, sdType := 1, sdBlendMode := ascii "pass", opacity := 100, blendClippedElements := true }
      [.node { seqID := 1, blendMode := ascii "mul ", opacity := 255 } [], .node { seqID := 2, blendMode := ascii "norm", opacity := 255, flags := 2 } []],
    .node { seqID := 3, blendMode := ascii "norm", opacity := 7, flags := 2 } [], .node { seqID := 4, blendMode := ascii "scrn", opacity := 255, clipping := true } [],
    .node { seqID := 5, blendMode := ascii "norm", opacity := 200 } [], .node { seqID := 6, blendMode := ascii "norm", opacity := 255, clipping := true } [],
    .node { seqID := 7, blendMode := ascii "norm", opacity := 255, clipping := true } []]

/-- It without what is hidden. -/
def shownDoc : List (LTree LayerRec) :=
  [.node { seqID := 0, sdType := 1, sdBlendMode := ascii "pass", opacity := 100, blendClippedElements := true }
      [.node { seqID := 1, blendMode := ascii "mul ", opacity := 255 } []],
    .node { seqID := 5, blendMode := ascii "norm", opacity := 200 } [], .node { seqID := 6, blendMode := ascii "norm", opacity := 255, clipping := true } [],
    .node { seqID := 7, blendMode := ascii "norm", opacity := 255, clipping := true } []]

/-- Its pixels. -/
def partsCanvas (id : Int) : Option (List (TPt × Tile)) := if id = 0 then none else some [((0, 0), plainTile ⟨100, 0, UInt8.ofNat id.toNat, 77⟩)]

theorem partsDoc_unique : UniqueDoc partsDoc := UniqueDoc.of_list (by
  simp only [docList, partsDoc, LTree.number, List.map, List.nil_append, List.cons_append]
  decide)

theorem partsDoc_known : KnownModes partsDoc := DocAll.of_list (Q := fun l _ => (l.folder = false → blendMode l.blendMode ≠ none ∨ l.blendMode = ascii "pass") ∧
    (l.folder = true → blendMode l.sdBlendMode ≠ none ∨ l.sdBlendMode = ascii "pass" ∧ l.blendClippedElements = true)) (by
  intro x hx
  simp only [docList, partsDoc, List.map, List.nil_append, List.cons_append] at hx
  fin_cases hx <;> decide)

theorem partsDoc_bare : FoldersBare partsDoc partsCanvas := DocAll.of_list (Q := fun l kids => l.folder = true ∨ kids ≠ [] → partsCanvas l.seqID = none) (by
  intro x hx
  simp only [docList, partsDoc, List.map, List.nil_append, List.cons_append] at hx
  fin_cases hx
  · exact fun _ => rfl
  all_goals
    intro h
    rcases h with h | h
    · exact absurd h (by decide)
    · exact absurd rfl h)

/-- The hypotheses of `C82_render_paints_the_layers` and `C84_hidden_leaves_no_trace_partial`. -/
example : depthAll partsDoc ≤ 2 ∧ UniqueDoc partsDoc ∧ KnownModes partsDoc ∧ WithoutHidden partsDoc shownDoc ∧ FoldersBare partsDoc partsCanvas := by
  refine ⟨by decide, partsDoc_unique, partsDoc_known, ?_, partsDoc_bare⟩
  refine .keep _ _ _ _ _ (.keep _ _ _ _ _ .nil (.drop _ _ [] [] [] rfl (.inl (by decide)) (by simp) (by simp) .nil)) ?_
  refine .drop _ _ [_] _ _ rfl (.inl (by decide)) (by simp [LTree.isClipping]) (by simp [LTree.isClipping]) ?_
  exact .keep _ _ _ _ _ .nil (.keep _ _ _ _ _ .nil (.keep _ _ _ _ _ .nil .nil))

/-- Those of `C86_unblended_clips_vanish`: one of the two layers clipped to layer 5 is left out, and then both. -/
example : WithoutUnblended partsDoc (partsDoc.take 4) := by
  refine .keep _ _ _ _ _ (.keep _ _ _ _ _ .nil (.keep _ _ _ _ _ .nil .nil)) ?_
  refine .keep _ _ _ _ _ .nil (.keep _ _ _ _ _ .nil ?_)
  exact .drop _ _ _ [_, _] [] [] rfl rfl (by simp [LTree.isClipping]) (by simp) .nil .nil

/-- Those of `C85_clipping_keeps_transparency`. -/
example : ∃ l, WithoutClipping partsDoc l ∧ l.length = 3 := by
  refine ⟨_, .keep _ _ _ _ _ rfl (.keep _ _ _ _ _ rfl .nil (.keep _ _ _ _ _ rfl .nil .nil)) (.keep _ _ _ _ _ rfl .nil (.drop _ _ _ _ rfl (.keep _ _ _ _ _ rfl .nil
    (.drop _ _ _ _ rfl (.drop _ _ _ _ rfl .nil))))), rfl⟩

/-- Those of `C83_only_what_is_seen`: colours of fully transparent pixels and missing tiles. -/
example : NoPassThrough dimDoc ∧ ∃ c : Int → Option (List (TPt × Tile)), c 0 ≠ dimCanvas 0 ∧
    ∀ id, SeenSame false 3 ((c id).bind (·.lookup (64, 0))) ((dimCanvas id).bind (·.lookup (64, 0))) := by
  refine ⟨DocAll.of_list (Q := fun l _ => l.folder = true → l.sdBlendMode ≠ ascii "pass") ?_, fun id => if id = 0 then some [((64, 0), plainTile ⟨1, 2, 3, 0⟩)] else dimCanvas id, ?_, ?_⟩
  · intro x hx
    simp only [docList, dimDoc, List.map, List.nil_append] at hx
    fin_cases hx <;> decide
  · intro h
    have := congrArg (fun x => x.bind (·.lookup (64, 0)) |>.isSome) h
    exact absurd this (by decide)
  · intro id
    by_cases h : id = 0
    · subst h
      exact ⟨rfl, rfl⟩
    · simp only [if_neg h]
      unfold dimCanvas
      rw [if_neg h]
      split <;> trivial

end Psd
