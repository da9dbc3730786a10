import Verif.Lemmas.Covered
import Verif.Props.Composed

/-!
# C87 in folders
-/

namespace Psd

/-- **C87** Also in folders, opaque layers cover what is below. Where a layer without children in normal mode at full opacity, without a mask, is opaque, the picture depends neither on the
layers below it in its folder nor, if the folder is a pass-through one or in normal mode, visible at full opacity and unmasked, on what is below the folder, and so on. `xs` are the layers of
the document or of a folder that may be anywhere in it but in pass-through folders only if they are at full opacity. -/
theorem C87_covers_in_folders (grow : Nat → Nat) (dec : List UInt8 → Option (List UInt8)) (n : Nat) (xs ys doc doc' : List (LTree LayerRec)) (hf : depthAll doc ≤ n) (hf' : depthAll doc' ≤ n)
    (hu : UniqueDoc doc) (hu' : UniqueDoc doc') (hk : KnownModes doc) (hk' : KnownModes doc') (canvas : Int → Option (List (TPt × Tile))) (mask : Int → List (TPt × (Nat → UInt8)))
    (pt : TPt) (i : Nat) (hin : InFolder canvas xs ys doc doc') (hg : BelowGone (fun l => ∃ p, (canvas l.seqID).bind (·.lookup pt) = some p ∧ (p i).a = 255) xs ys) (hb : FoldersBare doc canvas)
    (fuel : Nat) (hfu : 2 * n ≤ fuel) (diff aborted : Bool) (visited : List TPt) (hnd : visited.Nodup) (dest : TPt → Tile) :
    ∃ st st' d d', render tileOps ⟨newTree grow dec n doc, rootPtr, canvas, mask⟩ fuel diff aborted visited .empty dest = .ok (st, d) ∧
      render tileOps ⟨newTree grow dec n doc', rootPtr, canvas, mask⟩ fuel diff aborted visited .empty dest = .ok (st', d') ∧ d pt i = d' pt i := by
  obtain ⟨σ, p1, -⟩ := hin.place
  refine C124_contents_painted grow dec n _ _ doc doc' hf hf' hu hu' hk hk' canvas mask hin pt i (gone_looks hg (fun l h => h) (fun π l kids e h => ?_)) fuel hfu diff aborted visited hnd dest
  show (canvas _).bind _ = none
  rw [hb _ l kids (p1 _ _ e) h]
  rfl

/-- **C87** The topmost layer is seen where it is opaque, also if it is in folders that are topmost. -/
theorem C87_top_in_folders (grow : Nat → Nat) (dec : List UInt8 → Option (List UInt8)) (n : Nat) (doc : List (LTree LayerRec)) (hf : depthAll doc ≤ n)
    (hu : UniqueDoc doc) (hk : KnownModes doc) (l : LayerRec) (ht : Topmost l doc) (canvas : Int → Option (List (TPt × Tile))) (mask : Int → List (TPt × (Nat → UInt8)))
    (pt : TPt) (i : Nat) (p : Tile) (hp : (canvas l.seqID).bind (·.lookup pt) = some p) (hpi : (p i).a = 255) (fuel : Nat) (hfu : 2 * n ≤ fuel) (diff aborted : Bool)
    (visited : List TPt) (hnd : visited.Nodup) (hpt : pt ∈ visited) (dest : TPt → Tile) :
    ∃ st d, render tileOps ⟨newTree grow dec n doc, rootPtr, canvas, mask⟩ fuel diff aborted visited .empty dest = .ok (st, d) ∧ d pt i = p i := by
  obtain ⟨st, d, e, h⟩ := C82_render_paints_the_layers grow dec n _ hf hu hk canvas mask fuel hfu diff aborted visited hnd dest
  refine ⟨st, d, e, ?_⟩
  obtain ⟨t, r, h1, h2, h3⟩ := h pt
  rw [if_pos hpt] at h3
  obtain ⟨k1, k2⟩ := paint_top ht hp hpi t h1 id _ r rfl h2
  rw [h3]
  unfold tileShown
  rw [if_pos k1]
  show tileOps.copy (tileOps.copy r.2) i = p i
  have : (r.2 i).a = 255 := by rw [k2]; exact hpi
  rw [copy_opaque (by rw [copy_alpha]; exact this), copy_opaque this, k2]

/-- A folder in normal mode and a pass-through one. -/
def wrapOuter : LayerRec := { seqID := 20, sdType := 1, sdBlendMode := ascii "norm", opacity := 255, blendClippedElements := true }
def wrapInner : LayerRec := { seqID := 21, sdType := 1, sdBlendMode := ascii "pass", opacity := 255, blendClippedElements := true }

/-- Layers with a folder that has a pass-through one in it, with an opaque layer that another one may be clipped to. -/
def wrapDoc (below mid low top : List (LTree LayerRec)) : List (LTree LayerRec) :=
  below ++ [.node wrapOuter (mid ++ [.node wrapInner (low ++ .node solidLayer [] :: top)])]

/-- Their pixels. -/
def wrapCanvas (id : Int) : Option (List (TPt × Tile)) :=
  if id = 8 ∨ id = 9 then solidCanvas id else if id = 0 ∨ id = 1 ∨ id = 5 ∨ id = 6 then some [((0, 0), plainTile ⟨200, 100, 50, 130⟩)] else none

/-- The opaque layer covers what is below it in its folder, below this folder, and below the outer one. -/
example : let O := fun l : LayerRec => ∃ p, (wrapCanvas l.seqID).bind (·.lookup (0, 0)) = some p ∧ (p 3).a = 255
    let full := wrapDoc [.node (fillKid 5) []] [.node dimBase []] [.node transitKid []] [.node solidClip []]
    BelowGone O full (wrapDoc [] [.node dimBase []] [.node transitKid []] [.node solidClip []]) ∧
    BelowGone O full (wrapDoc [.node (fillKid 5) []] [] [.node transitKid []] [.node solidClip []]) ∧
    BelowGone O full (wrapDoc [.node (fillKid 5) []] [.node dimBase []] [] [.node solidClip []]) := by
  have hs : Covering (fun l : LayerRec => ∃ p, (wrapCanvas l.seqID).bind (·.lookup (0, 0)) = some p ∧ (p 3).a = 255) (.node solidLayer []) :=
    .layer _ ⟨rfl, rfl, rfl, rfl, by decide⟩ rfl ⟨_, rfl, rfl⟩
  have hi : ∀ low, Covering (fun l : LayerRec => ∃ p, (wrapCanvas l.seqID).bind (·.lookup (0, 0)) = some p ∧ (p 3).a = 255) (.node wrapInner (low ++ .node solidLayer [] :: [.node solidClip []])) :=
    fun low => .folder _ low _ _ ⟨rfl, rfl, rfl, .inr rfl, by decide⟩ rfl hs
  exact ⟨.here _ _ _ (.folder _ _ _ [] ⟨rfl, rfl, rfl, .inl rfl, by decide⟩ rfl (hi _)), .inside _ _ _ _ [] rfl rfl (fun _ => rfl) (.here _ _ [] (hi _)),
    .inside _ _ _ _ [] rfl rfl (fun _ => rfl) (.inside _ _ _ _ [] rfl rfl (fun _ => rfl) (.here _ _ _ hs))⟩

/-- The other hypotheses of `C87_covers_in_folders` are met, in a folder as well, and without the clipped layer those of `C87_top_in_folders`. -/
example : let full := wrapDoc [.node (fillKid 5) []] [.node dimBase []] [.node transitKid []] [.node solidClip []]
    let part := wrapDoc [.node (fillKid 5) []] [.node dimBase []] [] [.node solidClip []]
    let top := wrapDoc [.node (fillKid 5) []] [.node dimBase []] [.node transitKid []] []
    depthAll (nestDoc full) ≤ 4 ∧ UniqueDoc (nestDoc full) ∧ KnownModes (nestDoc full) ∧ InFolder wrapCanvas full part (nestDoc full) (nestDoc part) ∧ FoldersBare (nestDoc full) wrapCanvas ∧
      depthAll (nestDoc part) ≤ 4 ∧ UniqueDoc (nestDoc part) ∧ KnownModes (nestDoc part) ∧ Topmost solidLayer top := by
  refine ⟨by decide, UniqueDoc.of_list ?_, DocAll.of_list (Q := fun l _ =>
    (l.folder = false → blendMode l.blendMode ≠ none ∨ l.blendMode = ascii "pass") ∧
    (l.folder = true → blendMode l.sdBlendMode ≠ none ∨ l.sdBlendMode = ascii "pass" ∧ l.blendClippedElements = true)) ?_,
    .inside _ [] nestFolder _ _ (fun _ => by decide) rfl .whole, DocAll.of_list (Q := fun l kids => l.folder = true ∨ kids ≠ [] → wrapCanvas l.seqID = none) ?_, by decide,
    UniqueDoc.of_list ?_, DocAll.of_list (Q := fun l _ =>
    (l.folder = false → blendMode l.blendMode ≠ none ∨ l.blendMode = ascii "pass") ∧
    (l.folder = true → blendMode l.sdBlendMode ≠ none ∨ l.sdBlendMode = ascii "pass" ∧ l.blendClippedElements = true)) ?_,
    .folder _ _ _ ⟨rfl, rfl, rfl, .inl rfl, by decide⟩ rfl (.folder _ _ _ ⟨rfl, rfl, rfl, .inr rfl, by decide⟩ rfl (.layer _ ⟨rfl, rfl, rfl, rfl, by decide⟩ rfl))⟩
  any_goals
    simp only [docList, nestDoc, wrapDoc, LTree.number, List.map, List.nil_append, List.cons_append, List.append_nil]
    decide
  all_goals
    intro x hx
    simp only [docList, nestDoc, wrapDoc, List.map, List.nil_append, List.cons_append, List.append_nil] at hx
  · fin_cases hx <;> decide
  · fin_cases hx
    case «1» => exact fun _ => rfl
    case «3» => exact fun _ => rfl
    case «5» => exact fun _ => rfl
    all_goals
      intro h
      rcases h with h | h
      · exact absurd h (by decide)
      · exact absurd rfl h
  · fin_cases hx <;> decide

/-- They are really covered: both documents show the same colour, at an opaque pixel of the layer, but another one elsewhere. -/
example : let full := wrapDoc [.node (fillKid 5) []] [.node dimBase []] [.node transitKid []] []
    let part := wrapDoc [] [] [] []
    ∃ p q, p ≠ q ∧ (∀ doc ∈ [full, part], peekPx (render tileOps ⟨newTree (fun n => n) some 4 doc, rootPtr, wrapCanvas, fun _ => []⟩ 8 false false [(0, 0)] .empty blank) 3 = .ok ⟨1, 2, 3, 255⟩) ∧
      peekPx (render tileOps ⟨newTree (fun n => n) some 4 full, rootPtr, wrapCanvas, fun _ => []⟩ 8 false false [(0, 0)] .empty blank) 4 = .ok p ∧
      peekPx (render tileOps ⟨newTree (fun n => n) some 4 part, rootPtr, wrapCanvas, fun _ => []⟩ 8 false false [(0, 0)] .empty blank) 4 = .ok q := by
  refine ⟨⟨111, 50, 25, 234⟩, ⟨9, 9, 9, 100⟩, ?_⟩
  decide +kernel

end Psd
