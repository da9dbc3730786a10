import Verif.Lemmas.AnyFolder
import Verif.Props.Covered

/-!
# C121 in pass-through folders
-/

namespace Psd

/-- **C121** Also in pass-through folders layers can be exchanged without changing any pixel at which at most one of them has something. The folders around them may be of any kind and opacity; those that are
not in pass-through folders may be clipped to something or have something clipped to them (`InFolder`), the others may have something clipped to them.

Missing: pass-through folders among the layers that have nothing (`C121_order_of_folders`). -/
theorem C121_order_in_folders_partial (grow : Nat → Nat) (dec : List UInt8 → Option (List UInt8)) (n : Nat) (xs ys zs ws sub sub' doc doc' : List (LTree LayerRec))
    (hf : depthAll doc ≤ n) (hf' : depthAll doc' ≤ n) (hu : UniqueDoc doc) (hu' : UniqueDoc doc') (hk : KnownModes doc) (hk' : KnownModes doc') (hne : ys ≠ [])
    (hy : ∀ k ∈ ys.head?, k.isClipping = false) (hz : ∀ k ∈ zs.head?, k.isClipping = false) (hw : ∀ k ∈ ws.head?, k.isClipping = false)
    (canvas : Int → Option (List (TPt × Tile))) (mask : Int → List (TPt × (Nat → UInt8)))
    (hany : InAnyFolder (xs ++ (ys ++ (zs ++ ws))) (xs ++ (zs ++ (ys ++ ws))) sub sub') (hin : InFolder canvas sub sub' doc doc') (pt : TPt) (i : Nat)
    (hc : NoPassThrough ys ∧ ClearAt ys canvas pt i ∨ NoPassThrough zs ∧ ClearAt zs canvas pt i)
    (fuel : Nat) (hfu : 2 * n ≤ fuel) (diff aborted : Bool) (visited : List TPt) (hnd : visited.Nodup) (dest : TPt → Tile) :
    ∃ st st' d d', render tileOps ⟨newTree grow dec n doc, rootPtr, canvas, mask⟩ fuel diff aborted visited .empty dest = .ok (st, d) ∧
      render tileOps ⟨newTree grow dec n doc', rootPtr, canvas, mask⟩ fuel diff aborted visited .empty dest = .ok (st', d') ∧ d pt i = d' pt i := by
  refine C124_contents_painted grow dec n _ _ doc doc' hf hf' hu hu' hk hk' canvas mask hin pt i (hany.alike ⟨by simp [hne], by simp [hne]⟩ ?_).2.looks fuel hfu diff aborted visited hnd dest
  rcases hc with ⟨hn, hc⟩ | ⟨hn, hc⟩
  · exact order_alike hy hz hw hn (fun π l kids e hcl x hx => hc π l kids e hcl x hx)
  · intro t t' ht ht' scale b b' r r' hb e e'
    have := order_alike (dec := dec) (mask := fun id => (mask id).lookup pt) (xs := xs) (ws := ws) hz hy hw hn (fun π l kids e hcl x hx => hc π l kids e hcl x hx) t' t ht' ht scale b' b r' r hb.symm e' e
    exact ⟨this.1.symm, this.2.symm⟩

/-! ### Non-vacuity -/

/-- A pass-through folder that is half transparent. -/
def transitHalf : LayerRec := { seqID := 21, sdType := 1, sdBlendMode := ascii "pass", opacity := 128, blendClippedElements := true }

/-- The documents of C121 in such a folder, which is in another one, above a layer. -/
def throughDoc (sub : List (LTree LayerRec)) : List (LTree LayerRec) := nestDoc ([.node (fillKid 8) []] ++ .node transitHalf sub :: [])

/-- The pixels of these documents, but none of the folders. -/
def throughCanvas (id : Int) : Option (List (TPt × Tile)) := if id = 21 then none else nestCanvas apartCanvas id

/-- The hypotheses of `C121_order_in_folders_partial` are met in both tiles. -/
example : let ys : List (LTree LayerRec) := [.node apartFolder [.node transitKid []]]
    let zs : List (LTree LayerRec) := [.node apartLayer [], .node apartClip []]
    let a := [.node dimBase []] ++ (ys ++ (zs ++ []))
    let b := [.node dimBase []] ++ (zs ++ (ys ++ []))
    depthAll (throughDoc a) ≤ 4 ∧ depthAll (throughDoc b) ≤ 4 ∧ UniqueDoc (throughDoc a) ∧ UniqueDoc (throughDoc b) ∧ KnownModes (throughDoc a) ∧ KnownModes (throughDoc b) ∧
    (∃ sub sub', InAnyFolder a b sub sub' ∧ InFolder throughCanvas sub sub' (throughDoc a) (throughDoc b)) ∧
    NoPassThrough ys ∧ NoPassThrough zs ∧ ClearAt ys throughCanvas (64, 0) 5 ∧ ClearAt zs throughCanvas (0, 0) 5 := by
  refine ⟨by decide, by decide, UniqueDoc.of_list ?_, UniqueDoc.of_list ?_, DocAll.of_list (Q := fun l _ =>
    (l.folder = false → blendMode l.blendMode ≠ none ∨ l.blendMode = ascii "pass") ∧
    (l.folder = true → blendMode l.sdBlendMode ≠ none ∨ l.sdBlendMode = ascii "pass" ∧ l.blendClippedElements = true)) ?_, DocAll.of_list (Q := fun l _ =>
    (l.folder = false → blendMode l.blendMode ≠ none ∨ l.blendMode = ascii "pass") ∧
    (l.folder = true → blendMode l.sdBlendMode ≠ none ∨ l.sdBlendMode = ascii "pass" ∧ l.blendClippedElements = true)) ?_,
    ⟨_, _, .inside _ [] transitHalf _ _ rfl .whole, .inside _ [] nestFolder _ _ (fun _ => by decide) rfl .whole⟩,
    DocAll.of_list (Q := fun l _ => l.folder = true → l.sdBlendMode ≠ ascii "pass") ?_, DocAll.of_list (Q := fun l _ => l.folder = true → l.sdBlendMode ≠ ascii "pass") ?_,
    DocAll.of_list (Q := fun l _ => l.clipping = false → ∀ p, (throughCanvas l.seqID).bind (·.lookup (64, 0)) = some p → (p 5).a = 0) ?_,
    DocAll.of_list (Q := fun l _ => l.clipping = false → ∀ p, (throughCanvas l.seqID).bind (·.lookup (0, 0)) = some p → (p 5).a = 0) ?_⟩
  any_goals
    simp only [docList, throughDoc, nestDoc, LTree.number, List.map, List.nil_append, List.cons_append, List.append_nil]
    decide
  all_goals
    intro x hx
    simp only [docList, throughDoc, nestDoc, List.map, List.nil_append, List.cons_append, List.append_nil] at hx
  · fin_cases hx <;> decide
  · fin_cases hx <;> decide
  · fin_cases hx <;> decide
  · fin_cases hx <;> decide
  all_goals
    fin_cases hx
    all_goals rintro - p ⟨⟩

end Psd
