import Verif.Lemmas.Basic
import Verif.Model.Layer
import Verif.Spec.Forest

/-
Properties of the layer tree: C21, C22.
-/

namespace Psd
open Spec (Node recordsAll WellTypedAll countTypes)

mutual
/-- The layer tree a caller expects for a node: the divider record disappears. -/
def treeOf {α : Type} : Node α → LTree α
  | .layer l => .node l []
  | .folder _ kids l => .node l (treesOf kids)

def treesOf {α : Type} : List (Node α) → List (LTree α)
  | [] => []
  | n :: ns => treeOf n :: treesOf ns
end

mutual
/-- All layers of a tree, each after the layers below it (depth first). -/
def LTree.post {α : Type} : LTree α → List α
  | .node l kids => postAll kids ++ [l]

def postAll {α : Type} : List (LTree α) → List α
  | [] => []
  | t :: ts => t.post ++ postAll ts
end

theorem postAll_append {α : Type} (a b : List (LTree α)) : postAll (a ++ b) = postAll a ++ postAll b := by
  induction a with
  | nil => simp [postAll]
  | cons t ts ih => simp [postAll, ih]

theorem buildTreeLoop_cons {α : Type} (typ : α → Nat) (l : α) (ls : List α) (stack : List (List (LTree α)))
    (n : List (LTree α)) : buildTreeLoop typ (l :: ls) stack n =
    if typ l = 1 ∨ typ l = 2 then
      match stack with
      | [] => .err (.bad "layer tree structure is broken")
      | top :: stack => buildTreeLoop typ ls stack (top ++ [.node l n])
    else if typ l = 3 then buildTreeLoop typ ls (n :: stack) []
    else buildTreeLoop typ ls stack (n ++ [.node l []]) := by
  cases stack <;> simp only [buildTreeLoop]

mutual
theorem build_node {α : Type} (typ : α → Nat) : ∀ (n : Node α), n.WellTyped typ →
    ∀ rest st acc, buildTreeLoop typ (n.records ++ rest) st acc =
      buildTreeLoop typ rest st (acc ++ [treeOf n])
  | .layer l, h, rest, st, acc => by
    simp only [Node.WellTyped] at h
    simp only [Node.records, List.cons_append, List.nil_append, treeOf]
    rw [buildTreeLoop_cons, if_neg (by omega), if_neg (by omega)]
  | .folder d kids l, h, rest, st, acc => by
    simp only [Node.WellTyped] at h
    simp only [Node.records, List.cons_append, treeOf, List.append_assoc]
    rw [buildTreeLoop_cons, if_neg (by omega), if_pos h.1, build_all typ kids h.2.2]
    simp only [List.nil_append]
    rw [buildTreeLoop_cons, if_pos h.2.1]

theorem build_all {α : Type} (typ : α → Nat) : ∀ (ns : List (Node α)), WellTypedAll typ ns →
    ∀ rest st acc, buildTreeLoop typ (recordsAll ns ++ rest) st acc =
      buildTreeLoop typ rest st (acc ++ treesOf ns)
  | [], _, rest, st, acc => by simp [recordsAll, treesOf]
  | n :: ns, h, rest, st, acc => by
    simp only [WellTypedAll] at h
    simp only [recordsAll, List.append_assoc, treesOf]
    rw [build_node typ n h.1, build_all typ ns h.2]
    simp
end

/-- **C21 Layer tree mirrors folder structure.** For every forest of layers and folders, of any
depth and width, the records in file order are turned back into exactly that forest, in order. -/
theorem C21_tree_mirrors_folders {α : Type} (typ : α → Nat) (forest : List (Node α))
    (h : WellTypedAll typ forest) :
    buildTree typ (recordsAll forest) = .ok (treesOf forest) := by
  have := build_all typ forest h [] [] []
  simpa [buildTree, buildTreeLoop] using this

/-- A layer, then a folder that holds a layer and an empty folder.  Records are (name, type). -/
example : WellTypedAll (α := Nat × Nat) Prod.snd
      [.layer (1, 0), .folder (2, 3) [.layer (3, 0), .folder (4, 3) [] (5, 2)] (6, 1)] ∧
    recordsAll (α := Nat × Nat)
      [.layer (1, 0), .folder (2, 3) [.layer (3, 0), .folder (4, 3) [] (5, 2)] (6, 1)] =
      [(1, 0), (2, 3), (3, 0), (4, 3), (5, 2), (6, 1)] := by
  simp [WellTypedAll, Node.WellTyped, recordsAll, Node.records]

/-! ### Arbitrary record lists -/

theorem postAll_snoc {α : Type} (a : List (LTree α)) (l : α) (kids : List (LTree α)) :
    postAll (a ++ [.node l kids]) = postAll a ++ (postAll kids ++ [l]) := by
  rw [postAll_append]; simp [postAll, LTree.post]

/-- All layers collected so far: those of the enclosing groups, outermost first, then the current. -/
def collected {α : Type} (stack : List (List (LTree α))) (n : List (LTree α)) : List α :=
  (stack.reverse.map postAll).flatten ++ postAll n

theorem buildTreeLoop_collected {α : Type} (typ : α → Nat) : ∀ (ls : List α) st n t,
    buildTreeLoop typ ls st n = .ok t →
    ∃ st', st'.length + countTypes typ [1, 2] ls = st.length + countTypes typ [3] ls ∧
      collected st' t = collected st n ++ ls.filter fun a => decide (typ a ≠ 3) := by
  intro ls
  induction ls with
  | nil => intro st n t h; cases h; exact ⟨st, by simp [countTypes], by simp⟩
  | cons l ls ih =>
    intro st n t h
    rw [buildTreeLoop_cons] at h
    split at h
    · rename_i h12
      cases st with
      | nil => cases h
      | cons top st =>
        obtain ⟨st', h1, h2⟩ := ih _ _ _ h
        refine ⟨st', ?_, ?_⟩
        · have e1 : countTypes typ [1, 2] (l :: ls) = countTypes typ [1, 2] ls + 1 := by
            simp only [countTypes]; rw [List.filter_cons_of_pos (by simpa using h12)]; rfl
          have e2 : countTypes typ [3] (l :: ls) = countTypes typ [3] ls := by
            simp only [countTypes]; rw [List.filter_cons_of_neg (by simp; omega)]
          rw [e1, e2, List.length_cons]; omega
        · rw [h2, List.filter_cons_of_pos (by simp; omega)]
          simp [collected, postAll_snoc]
    · rename_i h12
      split at h
      · rename_i h3
        obtain ⟨st', h1, h2⟩ := ih _ _ _ h
        refine ⟨st', ?_, ?_⟩
        · have e1 : countTypes typ [1, 2] (l :: ls) = countTypes typ [1, 2] ls := by
            simp only [countTypes]; rw [List.filter_cons_of_neg (by simpa using h12)]
          have e2 : countTypes typ [3] (l :: ls) = countTypes typ [3] ls + 1 := by
            simp only [countTypes]; rw [List.filter_cons_of_pos (by simpa using h3)]; rfl
          rw [List.length_cons] at h1
          rw [e1, e2]; omega
        · rw [h2, List.filter_cons_of_neg (by simpa using h3)]
          simp [collected, postAll]
      · rename_i h3
        obtain ⟨st', h1, h2⟩ := ih _ _ _ h
        refine ⟨st', ?_, ?_⟩
        · have e1 : countTypes typ [1, 2] (l :: ls) = countTypes typ [1, 2] ls := by
            simp only [countTypes]; rw [List.filter_cons_of_neg (by simpa using h12)]
          have e2 : countTypes typ [3] (l :: ls) = countTypes typ [3] ls := by
            simp only [countTypes]; rw [List.filter_cons_of_neg (by simpa using h3)]
          rw [e1, e2]; omega
        · rw [h2, List.filter_cons_of_pos (by simpa using h3)]
          simp [collected, postAll_snoc, postAll]

/-- When the loop fails: some folder record has no divider left. -/
theorem buildTreeLoop_err {α : Type} (typ : α → Nat) : ∀ (ls : List α) (st : List (List (LTree α))) n,
    (∃ k, countTypes typ [3] (ls.take k) + st.length < countTypes typ [1, 2] (ls.take k)) ↔
      ∃ e, buildTreeLoop typ ls st n = .err e := by
  intro ls
  induction ls with
  | nil => intro st n; simp [countTypes, buildTreeLoop]
  | cons l ls ih =>
    intro st n
    have step : (∃ k, countTypes typ [3] ((l :: ls).take k) + st.length <
          countTypes typ [1, 2] ((l :: ls).take k)) ↔
        ∃ k, countTypes typ [3] (l :: ls.take k) + st.length < countTypes typ [1, 2] (l :: ls.take k) := by
      constructor
      · rintro ⟨k, hk⟩
        cases k with
        | zero => simp [countTypes] at hk
        | succ k => exact ⟨k, by simpa using hk⟩
      · rintro ⟨k, hk⟩; exact ⟨k + 1, by simpa using hk⟩
    rw [step, buildTreeLoop_cons]
    have c3 : ∀ r, countTypes typ [3] (l :: r) = countTypes typ [3] r + (if typ l = 3 then 1 else 0) := by
      intro r; simp only [countTypes]
      split
      · rw [List.filter_cons_of_pos (by simpa)]; rfl
      · rw [List.filter_cons_of_neg (by simpa)]; rfl
    have c12 : ∀ r, countTypes typ [1, 2] (l :: r) =
        countTypes typ [1, 2] r + (if typ l = 1 ∨ typ l = 2 then 1 else 0) := by
      intro r; simp only [countTypes]
      split
      · rw [List.filter_cons_of_pos (by simpa)]; rfl
      · rw [List.filter_cons_of_neg (by simp; omega)]; rfl
    by_cases h12 : typ l = 1 ∨ typ l = 2
    · rw [if_pos h12]
      cases st with
      | nil =>
        simp only
        refine ⟨fun _ => ⟨_, rfl⟩, fun _ => ⟨0, ?_⟩⟩
        rw [c3, c12, if_pos h12, if_neg (by omega)]; simp [countTypes]
      | cons top st =>
        simp only
        rw [← ih]
        apply exists_congr; intro k
        rw [c3, c12, if_pos h12, if_neg (by omega), List.length_cons]; omega
    · rw [if_neg h12]
      by_cases h3 : typ l = 3
      · rw [if_pos h3, ← ih]
        apply exists_congr; intro k
        rw [c3, c12, if_neg h12, if_pos h3, List.length_cons]; omega
      · rw [if_neg h3, ← ih]
        apply exists_congr; intro k
        rw [c3, c12, if_neg h12, if_neg h3]; omega

/-- **C22 Unmatched folder ends are rejected; unmatched dividers must not lose layers** (part).
For every list of records: it is rejected exactly if at some point more folder records than
dividers have occurred; and if it is accepted with as many folder records as dividers, no layer is
lost: read depth-first, the tree lists all records except the dividers, in file order.  Missing:
lists with unmatched dividers, where `C22_unmatched_divider_loses_layers` shows that layers are
lost. -/
theorem C22_unmatched_partial {α : Type} (typ : α → Nat) (ls : List α) :
    ((∃ k, countTypes typ [3] (ls.take k) < countTypes typ [1, 2] (ls.take k)) ↔
      ∃ e, buildTree typ ls = .err e) ∧
    (∀ t, buildTree typ ls = .ok t → countTypes typ [3] ls = countTypes typ [1, 2] ls →
      postAll t = ls.filter fun a => decide (typ a ≠ 3)) := by
  constructor
  · have := buildTreeLoop_err typ ls ([] : List (List (LTree α))) []
    simpa [buildTree] using this
  · intro t h hb
    obtain ⟨st', h1, h2⟩ := buildTreeLoop_collected typ ls [] [] t h
    have : st' = [] := List.eq_nil_of_length_eq_zero (by simp at h1; omega)
    subst this
    simpa [collected, postAll] using h2

/-- Both cases occur. -/
example : (∃ e, buildTree (α := Nat × Nat) Prod.snd [(1, 0), (2, 1)] = .err e) ∧
    (∃ t, buildTree (α := Nat × Nat) Prod.snd [(1, 0), (2, 3), (3, 0), (4, 1)] = .ok t ∧
      postAll t = [(1, 0), (3, 0), (4, 1)]) :=
  ⟨⟨_, rfl⟩, ⟨_, rfl, rfl⟩⟩

/-- The claim that accepted documents lose no layers is false: with a divider that is never closed,
the layer before it disappears. -/
theorem C22_unmatched_divider_loses_layers :
    ∃ t, buildTree (α := Nat × Nat) Prod.snd [(1, 0), (2, 3), (3, 0)] = .ok t ∧
      postAll t = [(3, 0)] := ⟨_, rfl, rfl⟩

/-- For use by C23: the tree always lists a sublist of the records, in file order. -/
theorem buildTree_sublist {α : Type} (typ : α → Nat) {ls : List α} {t : List (LTree α)}
    (h : buildTree typ ls = .ok t) : (postAll t).Sublist ls := by
  obtain ⟨st', _, h2⟩ := buildTreeLoop_collected typ ls [] [] t h
  have e : collected ([] : List (List (LTree α))) [] = [] := by simp [collected, postAll]
  rw [e, List.nil_append] at h2
  refine List.Sublist.trans ?_ (List.filter_sublist (p := fun a => decide (typ a ≠ 3)) (l := ls))
  rw [← h2]
  exact List.sublist_append_right _ _

end Psd
