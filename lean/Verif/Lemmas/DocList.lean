import Verif.Lemmas.Stacked
import Verif.Props.Clone

/-!
# The layers of a document, listed

For the examples: what all layers of a concrete document are like can be read off a list.
-/

namespace Psd

/-- The layers with their paths; the first one is the `i`th of its folder. -/
def docList : Nat → List (LTree LayerRec) → List (List Nat × LTree LayerRec)
  | _, [] => []
  | i, .node l kids :: r => ([i], .node l kids) :: ((docList 0 kids).map (fun x => (i :: x.1, x.2)) ++ docList (i + 1) r)

theorem docList_mem : ∀ (i : Nat) (layers : List (LTree LayerRec)) (j : Nat) (π : List Nat) (t : LTree LayerRec), docAt layers (j :: π) = some t →
    ((i + j) :: π, t) ∈ docList i layers
  | _, [], _, _, _, h => by cases h
  | i, .node l kids :: r, 0, [], t, h => by
    injection h with h
    subst h
    rw [docList]
    exact List.mem_cons_self
  | i, .node l kids :: r, 0, k :: π, t, h => by
    have := docList_mem 0 kids k π t h
    rw [Nat.zero_add] at this
    rw [docList]
    exact List.mem_cons_of_mem _ (List.mem_append_left _ (List.mem_map.2 ⟨_, this, rfl⟩))
  | i, .node l kids :: r, j + 1, π, t, h => by
    have := docList_mem (i + 1) r j π t h
    rw [docList]
    refine List.mem_cons_of_mem _ (List.mem_append_right _ ?_)
    rw [show i + (j + 1) = i + 1 + j by omega]
    exact this

theorem DocAll.of_list {Q : LayerRec → List (LTree LayerRec) → Prop} {layers : List (LTree LayerRec)}
    (h : ∀ x ∈ docList 0 layers, match x.2 with | .node l kids => Q l kids) : DocAll Q layers := by
  intro π l kids e
  cases π with
  | nil => cases e
  | cons j π => exact h _ (docList_mem 0 layers j π _ e)

/-- The number of a layer. -/
def LTree.number : LTree LayerRec → Nat
  | .node l _ => l.seqID

theorem map_nodup_inj {α β : Type} (f : α → β) : ∀ (l : List α), (l.map f).Nodup → ∀ x ∈ l, ∀ y ∈ l, f x = f y → x = y
  | [], _, _, hx, _, _, _ => by cases hx
  | a :: l, h, x, hx, y, hy, e => by
    rw [List.map_cons, List.nodup_cons] at h
    rcases List.mem_cons.1 hx with rfl | hx'
    · rcases List.mem_cons.1 hy with rfl | hy
      · rfl
      · exact absurd (List.mem_map.2 ⟨y, hy, e.symm⟩) h.1
    · rcases List.mem_cons.1 hy with rfl | hy
      · exact absurd (List.mem_map.2 ⟨x, hx', e⟩) h.1
      · exact map_nodup_inj f l h.2 x hx' y hy e

theorem UniqueDoc.of_list {layers : List (LTree LayerRec)} (h : ((docList 0 layers).map fun x => x.2.number).Nodup) : UniqueDoc layers := by
  intro π π' l l' kids kids' e e' hl
  cases π with
  | nil => cases e
  | cons j π =>
    cases π' with
    | nil => cases e'
    | cons j' π' =>
      have := map_nodup_inj _ _ h _ (docList_mem 0 layers j π _ e) _ (docList_mem 0 layers j' π' _ e') hl
      have := congrArg Prod.fst this
      simpa using this

end Psd
