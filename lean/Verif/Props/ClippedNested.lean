import Verif.Props.Clipped
import Verif.Props.Composed

/-!
# C86 in folders: clipped layers are seen like any other, wherever they are
-/

namespace Psd

/-- C86 at any depth: the same holds of the contents of a folder, which may be in other folders. Where the clipping layer and the one it is clipped to are opaque, the folder shows what it
does if the clipping layer is an ordinary one, with neither the layer it is clipped to nor anything else below it in that folder. -/
theorem C86_clip_covers_in_folder_partial (grow : Nat → Nat) (dec : List UInt8 → Option (List UInt8)) (n : Nat) (below mids tops over doc doc' : List (LTree LayerRec)) (l c : LayerRec)
    (canvas : Int → Option (List (TPt × Tile))) (mask : Int → List (TPt × (Nat → UInt8)))
    (hin : InFolder canvas (below ++ .node l [] :: (mids ++ .node c [] :: (tops ++ over))) (.node { c with clipping := false, blendClippedElements := true } [] :: (tops ++ over)) doc doc')
    (hf : depthAll doc ≤ n) (hf' : depthAll doc' ≤ n) (hu : UniqueDoc doc) (hu' : UniqueDoc doc') (hk : KnownModes doc) (hk' : KnownModes doc')
    (hl : l.Solid) (hc : c.Solid) (hcl : l.clipping = false) (hcm : ∀ k ∈ mids, k.isClipping = true) (hcc : c.clipping = true) (hct : ∀ k ∈ tops, k.isClipping = true)
    (hco : ∀ k ∈ over.head?, k.isClipping = false) (hbce : l.blendClippedElements = true)
    (hb : FoldersBare (below ++ .node l [] :: (mids ++ .node c [] :: (tops ++ over))) canvas)
    (pt : TPt) (i : Nat) (p q : Tile) (hp : (canvas l.seqID).bind (·.lookup pt) = some p) (hpi : (p i).a = 255) (hq : (canvas c.seqID).bind (·.lookup pt) = some q)
    (hqi : (q i).a = 255) (fuel : Nat) (hfu : 2 * n ≤ fuel) (diff aborted : Bool) (visited : List TPt) (hnd : visited.Nodup) (dest : TPt → Tile) :
    ∃ st st' d d', render tileOps ⟨newTree grow dec n doc, rootPtr, canvas, mask⟩ fuel diff aborted visited .empty dest = .ok (st, d) ∧
      render tileOps ⟨newTree grow dec n doc', rootPtr, canvas, mask⟩ fuel diff aborted visited .empty dest = .ok (st', d') ∧ d pt i = d' pt i := by
  refine C124_contents_painted grow dec n _ _ doc doc' hf hf' hu hu' hk hk' canvas mask hin pt i ?_ fuel hfu diff aborted visited hnd dest
  intro t t' r r' h1 h1' h2 h2'
  exact (clip_looks (c' := { c with clipping := false, blendClippedElements := true }) hl hc ⟨hc.layer, hc.visible, hc.opacity, hc.mode, hc.unmasked⟩ rfl rfl rfl hcl hcm hcc hct hco hbce
    (fun π l kids e h => by
      show (canvas _).bind _ = none
      rw [hb π l kids e h]
      rfl) hp hpi hq hqi h1 h1' h2 h2').1

/-- A folder for the document of `C86_clip_covers_partial`, and a layer below it. -/
def clippedFolder : LayerRec := { seqID := 20, sdType := 1, sdBlendMode := ascii "mul ", opacity := 200, blendClippedElements := true }
def clippedUnder : LayerRec := { seqID := 21, blendMode := ascii "norm", opacity := 255 }

def clippedIn (kids : List (LTree LayerRec)) : List (LTree LayerRec) := [.node clippedUnder []] ++ .node clippedFolder kids :: []

/-- The contents without what the clipping layer covers. -/
def clippedRest : List (LTree LayerRec) := .node { solidClip with clipping := false, blendClippedElements := true } [] :: ([.node topClip []] ++ [.node overLayer []])

def clippedInCanvas (id : Int) : Option (List (TPt × Tile)) :=
  if id = 20 then none else if id = 21 then some [((0, 0), plainTile ⟨200, 100, 50, 240⟩)] else clippedCanvas id

/-- The hypotheses are met. -/
example : depthAll (clippedIn clippedDoc) ≤ 3 ∧ depthAll (clippedIn clippedRest) ≤ 3 ∧ UniqueDoc (clippedIn clippedDoc) ∧ UniqueDoc (clippedIn clippedRest) ∧
    KnownModes (clippedIn clippedDoc) ∧ KnownModes (clippedIn clippedRest) ∧ InFolder clippedInCanvas clippedDoc clippedRest (clippedIn clippedDoc) (clippedIn clippedRest) ∧
    FoldersBare clippedDoc clippedInCanvas ∧ (∃ p, (clippedInCanvas 8).bind (·.lookup (0, 0)) = some p ∧ (p 3).a = 255) ∧
    ∃ p, (clippedInCanvas 9).bind (·.lookup (0, 0)) = some p ∧ (p 3).a = 255 := by
  refine ⟨by decide, by decide, UniqueDoc.of_list ?_, UniqueDoc.of_list ?_, DocAll.of_list (Q := fun l _ =>
    (l.folder = false → blendMode l.blendMode ≠ none ∨ l.blendMode = ascii "pass") ∧
    (l.folder = true → blendMode l.sdBlendMode ≠ none ∨ l.sdBlendMode = ascii "pass" ∧ l.blendClippedElements = true)) ?_, DocAll.of_list (Q := fun l _ =>
    (l.folder = false → blendMode l.blendMode ≠ none ∨ l.blendMode = ascii "pass") ∧
    (l.folder = true → blendMode l.sdBlendMode ≠ none ∨ l.sdBlendMode = ascii "pass" ∧ l.blendClippedElements = true)) ?_,
    .inside _ [] clippedFolder _ _ (fun _ => by decide) rfl .whole,
    DocAll.of_list (Q := fun l kids => l.folder = true ∨ kids ≠ [] → clippedInCanvas l.seqID = none) ?_, ⟨_, rfl, rfl⟩, ⟨_, rfl, rfl⟩⟩
  · simp only [docList, clippedIn, clippedDoc, partsDoc, LTree.number, List.map, List.nil_append, List.cons_append, List.append_nil]
    decide
  · simp only [docList, clippedIn, clippedRest, LTree.number, List.map, List.nil_append, List.cons_append, List.append_nil]
    decide
  all_goals
    intro x hx
    simp only [docList, clippedIn, clippedDoc, clippedRest, partsDoc, List.map, List.nil_append, List.cons_append, List.append_nil] at hx
  · fin_cases hx <;> decide
  · fin_cases hx <;> decide
  · fin_cases hx
    · exact fun _ => rfl
    all_goals
      intro h
      rcases h with h | h
      · exact absurd h (by decide)
      · exact absurd rfl h

/-- The pictures of both documents. -/
example : ∀ kids ∈ [clippedDoc, clippedRest],
    peekPx (render tileOps ⟨newTree (fun n => n) some 3 (clippedIn kids), rootPtr, clippedInCanvas, fun _ => []⟩ 6 false false [(0, 0)] .empty blank) 3 = .ok ⟨79, 36, 23, 250⟩ := by
  decide +kernel

end Psd
