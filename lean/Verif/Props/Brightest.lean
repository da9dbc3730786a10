import Verif.Lemmas.Brightest
import Verif.Props.Composed
import Verif.Props.Channels

/-!
# Theorem C133

The picture is not brighter than its brightest layer.
-/

namespace Psd

theorem stack_dim {c : Primary} {N i : Nat} {dec : List UInt8 → Option (List UInt8)} {pic : Int → Option Tile} {mask : Int → Option (Nat → UInt8)} :
    ∀ (t : Stk Tile (Nat → UInt8)) (layers : List (LTree LayerRec)), IsStack dec pic mask layers t →
    DocAll (fun l kids => (∀ x, pic l.seqID = some x → (x i).Dim c N) ∧ (l.mask.enabled = true → ∀ v, mask l.seqID = some v → v i = 0 ∨ v i = 255 ∨ kids = [] ∧ ∀ x, pic l.seqID = some x → (x i).a = 0 ∨ (x i).a = 255) ∧
      ((∃ m, blendMode (attrOf dec l).blendMode = some m ∧ m.Dimming) ∨ (attrOf dec l).blendMode = passThrough)) layers → t.dim c N i := by
  intro t
  induction t with
  | nil => intros; trivial
  | layer a p m kids clips rest ihk ihc ihr =>
    intro layers ht hq
    obtain ⟨l, sub, above, over, rfl, ha, rfl, rfl, hk, hc, hr, -⟩ := ht
    obtain ⟨q1, q2, q3⟩ := DocAll.cons hq
    refine ⟨q1.1, fun he v hv => ?_, fun md hmd => ?_, ihk _ hk q2, ihc _ hc (DocAll.append q3).1, ihr _ hr (DocAll.append q3).2⟩
    · rcases q1.2.1 (ha.mask.1 he).1 v hv with h | h | ⟨h, h'⟩
      · exact .inl h
      · exact .inr (.inl h)
      · subst h
        obtain rfl := IsStack.nil hk
        exact .inr (.inr ⟨rfl, h'⟩)
    · rw [ha.eq] at hmd
      rcases q1.2.2 with ⟨md', h1, h2⟩ | h
      · rw [h1] at hmd
        injection hmd with hmd
        rw [← hmd]
        exact h2
      · rw [h, show blendMode passThrough = none by decide] at hmd
        cases hmd

/-- **C133 (partial)** The picture is not brighter than its brightest layer: if no layer has more than `N` in a channel at a pixel, unless it is fully transparent there, and if the blend modes of the document never
give more than the brighter of layer and backdrop, then the picture has at most `N` in this channel there, with whatever folders, pass-through folders, clipping, masks and opacities.

Missing: grey values of masks on pixels that are partly transparent, or on folders (`C133_soft_mask_brightens`). -/
theorem C133_not_brighter_partial (c : Primary) (N : Nat) (grow : Nat → Nat) (dec : List UInt8 → Option (List UInt8)) (n : Nat) (doc : List (LTree LayerRec)) (hf : depthAll doc ≤ n)
    (hu : UniqueDoc doc) (hk : KnownModes doc) (hq : ModesIn Mode.Dimming doc) (canvas : Int → Option (List (TPt × Tile))) (mask : Int → List (TPt × (Nat → UInt8))) (hb : FoldersBare doc canvas)
    (pt : TPt) (i : Nat) (hm : MasksHard doc canvas mask pt i) (hc : ∀ id t, (canvas id).bind (·.lookup pt) = some t → (t i).a ≠ 0 → ((t i).chan c).toNat ≤ N)
    (fuel : Nat) (hfu : 2 * n ≤ fuel) (diff aborted : Bool) (visited : List TPt) (hnd : visited.Nodup) (hpt : pt ∈ visited) (dest : TPt → Tile) :
    ∃ st d, render tileOps ⟨newTree grow dec n doc, rootPtr, canvas, mask⟩ fuel diff aborted visited .empty dest = .ok (st, d) ∧ ((d pt i).chan c).toNat ≤ N := by
  obtain ⟨st, d, e, h⟩ := C82_render_paints_the_layers grow dec n _ hf hu hk canvas mask fuel hfu diff aborted visited hnd dest
  refine ⟨st, d, e, ?_⟩
  obtain ⟨t, r, h1, h2, h3⟩ := h pt
  rw [if_pos hpt] at h3
  have hba : t.bare := stack_bare _ _ h1 fun π l kids e h => by
    show (canvas _).bind _ = none
    rw [hb π l kids e h]
    rfl
  have hd : t.dim c N i := stack_dim t doc h1 fun π l kids e => ⟨fun x hx => by
    by_cases hz : (x i).a = 0
    · exact .inl hz
    · exact .inr (hc _ x hx hz), fun he v hv => hm π l kids e he v hv, attr_modes (Q := Mode.Dimming) rfl dec l (hq π l kids e)⟩
  have key := paint_dim t hba hd false id _ r (.inl rfl) h2
  rw [h3]
  unfold tileShown
  split
  · exact copy_dim (.inr (copy_dim key))
  · rw [clear_px]
    cases c <;> exact Nat.zero_le _

/-! ### Non-vacuity -/

/-- A folder with a mask, as the file says. -/
def gauzeFolder : LayerRec := { seqID := 2, sdType := 1, sdBlendMode := ascii "pass", opacity := 128, blendClippedElements := true, mask := { rect := ⟨0, 0, 9, 9⟩ } }

/-- A layer with a mask, with another layer clipped to it in a folder above a third. -/
def gauzeDoc : List (LTree LayerRec) :=
  [.node { seqID := 0, blendMode := ascii "norm", opacity := 200 } [],
    .node gauzeFolder [.node { seqID := 1, blendMode := ascii "lite", opacity := 255, blendClippedElements := true, mask := { rect := ⟨0, 0, 9, 9⟩ } } [],
      .node { seqID := 3, blendMode := ascii "diff", opacity := 77, clipping := true } []]]

/-- Their pixels: two layers are translucent, the one with a mask is opaque. -/
def gauzeCanvas (id : Int) : Option (List (TPt × Tile)) :=
  if id = 0 then some [((0, 0), plainTile ⟨100, 30, 1, 90⟩)] else if id = 1 then some [((0, 0), plainTile ⟨90, 20, 99, 255⟩)]
  else if id = 3 then some [((0, 0), plainTile ⟨80, 100, 1, 77⟩)] else none

/-- The mask of the layer is grey, that of the folder is white. -/
def gauzeMask (id : Int) : List (TPt × (Nat → UInt8)) := if id = 1 then [((0, 0), fun _ => 100)] else if id = 2 then [((0, 0), fun _ => 255)] else []

/-- The hypotheses of `C133_not_brighter_partial` are met in all channels, with 100 as the bound. -/
example : depthAll gauzeDoc ≤ 2 ∧ UniqueDoc gauzeDoc ∧ KnownModes gauzeDoc ∧ ModesIn Mode.Dimming gauzeDoc ∧ FoldersBare gauzeDoc gauzeCanvas ∧ MasksHard gauzeDoc gauzeCanvas gauzeMask (0, 0) 5 ∧
    ∀ c id t, (gauzeCanvas id).bind (·.lookup (0, 0)) = some t → (t 5).a ≠ 0 → ((t 5).chan c).toNat ≤ 100 := by
  refine ⟨by decide, UniqueDoc.of_list ?_, DocAll.of_list (Q := fun l _ =>
    (l.folder = false → blendMode l.blendMode ≠ none ∨ l.blendMode = ascii "pass") ∧
    (l.folder = true → blendMode l.sdBlendMode ≠ none ∨ l.sdBlendMode = ascii "pass" ∧ l.blendClippedElements = true)) ?_,
    DocAll.of_list (Q := fun l _ => (l.folder = false → (∃ m, blendMode l.blendMode = some m ∧ m.Dimming) ∨ l.blendMode = ascii "pass") ∧
      (l.folder = true → (∃ m, blendMode l.sdBlendMode = some m ∧ m.Dimming) ∨ l.sdBlendMode = ascii "pass")) ?_,
    DocAll.of_list (Q := fun l kids => l.folder = true ∨ kids ≠ [] → gauzeCanvas l.seqID = none) ?_,
    DocAll.of_list (Q := fun l kids => l.mask.enabled = true → ∀ v, (gauzeMask l.seqID).lookup (0, 0) = some v → v 5 = 0 ∨ v 5 = 255 ∨
      kids = [] ∧ ∀ x, (gauzeCanvas l.seqID).bind (·.lookup (0, 0)) = some x → (x 5).a = 0 ∨ (x 5).a = 255) ?_, ?_⟩
  · simp only [docList, gauzeDoc, LTree.number, List.map, List.nil_append, List.cons_append, List.append_nil]
    decide
  · intro x hx
    simp only [docList, gauzeDoc, List.map, List.nil_append, List.cons_append, List.append_nil] at hx
    fin_cases hx <;> decide
  · intro x hx
    simp only [docList, gauzeDoc, List.map, List.nil_append, List.cons_append, List.append_nil] at hx
    fin_cases hx
    · exact ⟨fun _ => .inl ⟨.sep .normal, by decide, rfl⟩, fun h => absurd h (by decide)⟩
    · exact ⟨fun h => absurd h (by decide), fun _ => .inr rfl⟩
    · exact ⟨fun _ => .inl ⟨.sep .lighten, by decide, rfl⟩, fun h => absurd h (by decide)⟩
    · exact ⟨fun _ => .inl ⟨.sep .difference, by decide, rfl⟩, fun h => absurd h (by decide)⟩
  · intro x hx
    simp only [docList, gauzeDoc, List.map, List.nil_append, List.cons_append, List.append_nil] at hx
    fin_cases hx
    case «1» => exact fun _ => rfl
    all_goals
      intro h
      rcases h with h | h
      · exact absurd h (by decide)
      · exact absurd rfl h
  · intro x hx
    simp only [docList, gauzeDoc, List.map, List.nil_append, List.cons_append, List.append_nil] at hx
    fin_cases hx
    · rintro - v ⟨⟩
    · rintro - v ⟨⟩
      exact .inr (.inl rfl)
    · rintro - v ⟨⟩
      refine .inr (.inr ⟨rfl, ?_⟩)
      rintro x ⟨⟩
      exact .inr rfl
    · rintro - v ⟨⟩
  · intro c id t e _
    unfold gauzeCanvas at e
    split at e
    · cases e
      cases c <;> decide
    split at e
    · cases e
      cases c <;> decide
    split at e
    · cases e
      cases c <;> decide
    · cases e

/-- A layer with a mask. -/
def gauzeLayer : LayerRec := { seqID := 0, blendMode := ascii "norm", opacity := 255, mask := { rect := ⟨0, 0, 9, 9⟩ } }

/-- **C133, negated** A grey mask on a partly transparent layer makes it brighter: a single layer whose grey is 160 is shown with a grey of 161. -/
theorem C133_soft_mask_brightens :
    peekPx (render tileOps ⟨newTree (fun n => n) some 1 [.node gauzeLayer []], rootPtr, fun id => if id = 0 then some [((0, 0), plainTile ⟨160, 160, 160, 21⟩)] else none,
      fun _ => [((0, 0), fun _ => 18)]⟩ 2 false false [(0, 0)] .empty blank) 5 = .ok ⟨161, 161, 161, 1⟩ := by
  decide +kernel

end Psd
