import Verif.Model.Exporter

/-!
# Exported files
-/

namespace Psd

/-- The layer at a path: the number of the layer at the top, then that of the layer in it, and so on. -/
def layerAt {α : Type} : List (LTree α) → List Nat → Option α
  | _, [] => none
  | ks, i :: p =>
    match ks[i]? with
    | none => none
    | some (.node l kids) => if p = [] then some l else layerAt kids p

/-- The name of the file for the layer at a path: the numbers, with three digits at least, joined by `_`, then `.png`. -/
def fileName (p : List Nat) : List Char := (p.map pad3).intersperse ['_'] |>.flatten |>.append ['.', 'p', 'n', 'g']

mutual

/-- The paths of a layer, which has the path `p`, and of those in it, in the order of exporting: layers come after those in them. -/
def LTree.paths {α : Type} (p : List Nat) : LTree α → List (List Nat × α)
  | .node l kids => pathsFrom p 0 kids ++ [(p, l)]

/-- The same for a list of layers that have the path `p` and their numbers from `i` on. -/
def pathsFrom {α : Type} (p : List Nat) : (i : Nat) → List (LTree α) → List (List Nat × α)
  | _, [] => []
  | i, k :: ks => k.paths (p ++ [i]) ++ pathsFrom p (i + 1) ks

end

/-- The layer can be exported: its file can be created, and its picture can be encoded. -/
def Host.CanWrite (h : Host) (p : List Nat) (l : LayerRec) : Prop :=
  h.create (fileName p) = true ∧ ∃ k, l.picker = some k ∧ (h.png k).2 = .ok ()

end Psd
