/-
Independent specification of layer folders: a forest of layers and folders, and the flat list of
records in which PSD files store it (bottom to top; a folder is a divider record, its contents, and
then the record of the folder itself).
-/

namespace Psd.Spec

/-- A layer, or a folder with its divider record, its contents and its own record. -/
inductive Node (α : Type) where
  | layer (l : α)
  | folder (divider : α) (kids : List (Node α)) (l : α)

mutual
/-- The records of a node in file order. -/
def Node.records {α : Type} : Node α → List α
  | .layer l => [l]
  | .folder d kids l => d :: (recordsAll kids ++ [l])

/-- The records of a forest in file order. -/
def recordsAll {α : Type} : List (Node α) → List α
  | [] => []
  | n :: ns => n.records ++ recordsAll ns
end

mutual
/-- The section divider types are right: 3 for the divider, 1 or 2 for the folder, anything else
for layers. -/
def Node.WellTyped {α : Type} (typ : α → Nat) : Node α → Prop
  | .layer l => typ l ≠ 1 ∧ typ l ≠ 2 ∧ typ l ≠ 3
  | .folder d kids l => typ d = 3 ∧ (typ l = 1 ∨ typ l = 2) ∧ WellTypedAll typ kids

def WellTypedAll {α : Type} (typ : α → Nat) : List (Node α) → Prop
  | [] => True
  | n :: ns => n.WellTyped typ ∧ WellTypedAll typ ns
end

mutual
instance Node.decWellTyped {α : Type} (typ : α → Nat) : (n : Node α) → Decidable (n.WellTyped typ)
  | .layer l => inferInstanceAs (Decidable (typ l ≠ 1 ∧ typ l ≠ 2 ∧ typ l ≠ 3))
  | .folder d kids l =>
    have := decWellTypedAll typ kids
    inferInstanceAs (Decidable (typ d = 3 ∧ (typ l = 1 ∨ typ l = 2) ∧ WellTypedAll typ kids))

instance decWellTypedAll {α : Type} (typ : α → Nat) : (ns : List (Node α)) → Decidable (WellTypedAll typ ns)
  | [] => isTrue trivial
  | n :: ns =>
    have := Node.decWellTyped typ n
    have := decWellTypedAll typ ns
    inferInstanceAs (Decidable (n.WellTyped typ ∧ WellTypedAll typ ns))
end

mutual
/-- Number the records in file order, starting with `i`. -/
def Node.number {α : Type} (i : Nat) : Node α → Node (Nat × α)
  | .layer l => .layer (i, l)
  | .folder d kids l => .folder (i, d) (numberAll (i + 1) kids) (i + 1 + (recordsAll kids).length, l)

def numberAll {α : Type} (i : Nat) : List (Node α) → List (Node (Nat × α))
  | [] => []
  | n :: ns => n.number i :: numberAll (i + n.records.length) ns
end

mutual
/-- Apply a function to every record. -/
def Node.map {α β : Type} (f : α → β) : Node α → Node β
  | .layer l => .layer (f l)
  | .folder d kids l => .folder (f d) (mapAll f kids) (f l)

def mapAll {α β : Type} (f : α → β) : List (Node α) → List (Node β)
  | [] => []
  | n :: ns => n.map f :: mapAll f ns
end

/-- Number of records of the given kinds among the first `k`. -/
def countTypes {α : Type} (typ : α → Nat) (ts : List Nat) (l : List α) : Nat :=
  (l.filter fun a => decide (typ a ∈ ts)).length

end Psd.Spec
