import Verif.Model.Scene
import Verif.Spec.Picture
import Verif.Props.Load
import Verif.Lemmas.DocList

/-!
# Tiles of bytes and tiles of pixels
-/

namespace Psd

/-- The tile of side `ts` that `(x, y)` is in. -/
def tilePt (ts : Nat) (x y : Int) : TPt := (x / ts * ts, y / ts * ts)

/-- The place of `(x, y)` in its tile. -/
def tileIx (ts : Nat) (x y : Int) : Nat := (y % ts).toNat * ts + (x % ts).toNat

theorem lookup_tiles {α β : Type} (f : α → β) (p : TPt) : ∀ (m : List (TPt × α)), (m.map fun e => (e.1, f e.2)).lookup p = (m.lookup p).map f
  | [] => rfl
  | (q, v) :: m => by
    simp only [List.map_cons, List.lookup_cons]
    split
    · rfl
    · exact lookup_tiles f p m

theorem getD_of_take {l : List UInt8} {k n : Nat} {px : List UInt8} (h : (l.drop k).take n = px) {j : Nat} (hj : j < n) : l.getD (k + j) 0 = px.getD j 0 := by
  subst h
  simp only [List.getD_eq_getElem?_getD, List.getElem?_take, List.getElem?_drop, if_pos hj]

theorem nrgba_pixel {ts : Nat} {m : TileMap} {x y : Int} {px : Px} (h : tilePixel ts 4 m x y = [px.r, px.g, px.b, px.a]) (ha : px.a ≠ 0) :
    ∃ q : Tile, (m.map fun e => (e.1, nrgbaTile e.2)).lookup (tilePt ts x y) = some q ∧ q (tileIx ts x y) = px := by
  rw [lookup_tiles]
  unfold tilePixel at h
  unfold tilePt
  cases hl : m.lookup (x / ts * ts, y / ts * ts) with
  | none =>
    simp only [hl, List.replicate_succ, List.replicate_zero, List.cons.injEq] at h
    exact absurd h.2.2.2.1.symm ha
  | some pix =>
    simp only [hl] at h
    refine ⟨nrgbaTile pix, rfl, ?_⟩
    unfold nrgbaTile tileIx
    rw [getD_of_take h (show 1 < 4 by decide), getD_of_take h (show 2 < 4 by decide), getD_of_take h (show 3 < 4 by decide),
      ← Nat.add_zero (((y % ts).toNat * ts + (x % ts).toNat) * 4), getD_of_take h (show 0 < 4 by decide)]
    rfl

theorem alpha_pixel {ts : Nat} {m : TileMap} {x y : Int} {v : UInt8} (h : tilePixel ts 1 m x y = [v]) :
    (m.map fun e => (e.1, alphaTile e.2)).lookup (tilePt ts x y) = none ∧ v = 0 ∨
      ∃ q, (m.map fun e => (e.1, alphaTile e.2)).lookup (tilePt ts x y) = some q ∧ q (tileIx ts x y) = v := by
  rw [lookup_tiles]
  unfold tilePixel at h
  unfold tilePt
  cases hl : m.lookup (x / ts * ts, y / ts * ts) with
  | none =>
    simp only [hl, List.replicate_succ, List.replicate_zero, List.cons.injEq, and_true] at h
    exact .inl ⟨rfl, h.symm⟩
  | some pix =>
    simp only [hl] at h
    refine .inr ⟨alphaTile pix, rfl, ?_⟩
    unfold alphaTile tileIx
    have := getD_of_take h (show 0 < 1 by decide)
    rw [Nat.add_zero, Nat.mul_one] at this
    rw [this]
    rfl

/-! ### Trees of copied layers -/

/-- The record of a layer. -/
def LTree.rec' : LTree LayerRec → LayerRec
  | .node l _ => l

theorem docList_perm : ∀ (i : Nat) (layers : List (LTree LayerRec)), ((docList i layers).map fun x => x.2.rec').Perm (postAll layers)
  | _, [] => by simp [docList, postAll]
  | i, .node l kids :: r => by
    have h1 := docList_perm 0 kids
    have h2 := docList_perm (i + 1) r
    simp only [docList, postAll, LTree.post, List.map_cons, List.map_append, List.map_map]
    rw [List.append_assoc, List.singleton_append]
    refine List.Perm.trans ?_ List.perm_middle.symm
    exact List.Perm.cons _ (h1.append h2)

theorem UniqueDoc.of_post {layers : List (LTree LayerRec)} (h : ((postAll layers).map LayerRec.seqID).Nodup) : UniqueDoc layers := by
  refine UniqueDoc.of_list ?_
  have := ((docList_perm 0 layers).map LayerRec.seqID).nodup_iff.2 h
  rw [List.map_map] at this
  convert this using 2
  funext ⟨π, l, kids⟩
  rfl

theorem DocAll.of_post {Q : LayerRec → Prop} {layers : List (LTree LayerRec)} (h : ∀ l ∈ postAll layers, Q l) : DocAll (fun l _ => Q l) layers := by
  refine DocAll.of_list fun x hx => ?_
  obtain ⟨π, l, kids⟩ := x
  exact h l ((docList_perm 0 layers).mem_iff.1 (List.mem_map.2 ⟨_, hx, rfl⟩))

theorem depthAll_le : ∀ (layers : List (LTree LayerRec)), depthAll layers ≤ (postAll layers).length
  | [] => by simp [depthAll]
  | .node l kids :: r => by
    have h1 := depthAll_le kids
    have h2 := depthAll_le r
    simp only [depthAll, LTree.depth, postAll, LTree.post, List.length_append, List.length_singleton]
    omega

theorem buildTreeLoop_last {α : Type} (typ : α → Nat) (l : α) (h : typ l ≠ 1 ∧ typ l ≠ 2 ∧ typ l ≠ 3) : ∀ (ls : List α) st n t, buildTreeLoop typ (ls ++ [l]) st n = .ok t →
    ∃ below, t = below ++ [.node l []] := by
  intro ls
  induction ls with
  | nil =>
    intro st n t e
    rw [List.nil_append, buildTreeLoop_cons, if_neg (by tauto), if_neg h.2.2] at e
    injection e with e
    exact ⟨n, e.symm⟩
  | cons a ls ih =>
    intro st n t e
    rw [List.cons_append, buildTreeLoop_cons] at e
    split at e
    · cases st with
      | nil => cases e
      | cons top st => exact ih _ _ _ e
    · split at e <;> exact ih _ _ _ e

/-! ### Trees that differ in rectangles only -/

mutual

/-- The same tree, with layers that have the same attributes. -/
def LTree.Twin (dec : List UInt8 → Option (List UInt8)) : LTree LayerRec → LTree LayerRec → Prop
  | .node l kids, .node l' kids' => attrOf dec l = attrOf dec l' ∧ Twins dec kids kids'

def Twins (dec : List UInt8 → Option (List UInt8)) : List (LTree LayerRec) → List (LTree LayerRec) → Prop
  | [], [] => True
  | t :: ts, t' :: ts' => t.Twin dec t' ∧ Twins dec ts ts'
  | _, _ => False

end

mutual

theorem buildLayer_twin (grow : Nat → Nat) {dec : List UInt8 → Option (List UInt8)} : ∀ (t t' : LTree LayerRec), t.Twin dec t' → ∀ (p : Ptr) (h : CHeap),
    buildLayer grow dec t p h = buildLayer grow dec t' p h
  | .node l kids, .node l' kids', ht, p, h => by
    unfold LTree.Twin at ht
    rw [buildLayer, buildLayer, ht.1]
    exact buildKids_twin grow kids kids' ht.2 _ _ _

theorem buildKids_twin (grow : Nat → Nat) {dec : List UInt8 → Option (List UInt8)} : ∀ (ts ts' : List (LTree LayerRec)), Twins dec ts ts' → ∀ (par : Option Ptr) (p : Ptr) (h : CHeap),
    buildKids grow dec ts par p h = buildKids grow dec ts' par p h
  | [], [], _, _, _, _ => rfl
  | [], _ :: _, ht, _, _, _ => absurd ht id
  | _ :: _, [], ht, _, _, _ => absurd ht id
  | t :: ts, t' :: ts', ht, par, p, h => by
    unfold Twins at ht
    rw [buildKids, buildKids]
    simp only
    rw [buildLayer_twin grow t t' ht.1]
    exact buildKids_twin grow ts ts' ht.2 _ _ _

end

theorem newTree_twin (grow : Nat → Nat) {dec : List UInt8 → Option (List UInt8)} (n : Nat) {ts ts' : List (LTree LayerRec)} (h : Twins dec ts ts') :
    newTree grow dec n ts = newTree grow dec n ts' := by
  unfold newTree
  simp only [buildKids_twin grow ts ts' h]

theorem Twins.append {dec : List UInt8 → Option (List UInt8)} : ∀ {a a' b b' : List (LTree LayerRec)}, Twins dec a a' → Twins dec b b' → Twins dec (a ++ b) (a' ++ b')
  | [], [], _, _, _, h => h
  | [], _ :: _, _, _, h, _ => absurd h id
  | _ :: _, [], _, _, h, _ => absurd h id
  | t :: ts, t' :: ts', b, b', h, h' => by
    unfold Twins at h
    rw [List.cons_append, List.cons_append]
    unfold Twins
    exact ⟨h.1, Twins.append h.2 h'⟩

theorem buildTree_twin {dec : List UInt8 → Option (List UInt8)} : ∀ {ls ls' : List LayerRec}, List.Forall₂ (fun l l' => attrOf dec l = attrOf dec l' ∧ l.sdType = l'.sdType) ls ls' →
    ∀ {st st' : List (List (LTree LayerRec))}, List.Forall₂ (Twins dec) st st' → ∀ {n n' : List (LTree LayerRec)}, Twins dec n n' →
    (∃ t t', buildTreeLoop LayerRec.sdType ls st n = .ok t ∧ buildTreeLoop LayerRec.sdType ls' st' n' = .ok t' ∧ Twins dec t t') ∨
      buildTreeLoop LayerRec.sdType ls st n = .err (.bad "layer tree structure is broken") ∧ buildTreeLoop LayerRec.sdType ls' st' n' = .err (.bad "layer tree structure is broken") := by
  intro ls ls' h
  induction h with
  | nil => intro st st' _ n n' hn; exact .inl ⟨n, n', rfl, rfl, hn⟩
  | @cons l l' ls ls' hl _ ih =>
    intro st st' hst n n' hn
    rw [buildTreeLoop_cons, buildTreeLoop_cons, ← hl.2]
    have one : ∀ {k k' : List (LTree LayerRec)}, Twins dec k k' → Twins dec [.node l k] [.node l' k'] := by
      intro k k' hk
      unfold Twins
      refine ⟨?_, by unfold Twins; trivial⟩
      unfold LTree.Twin
      exact ⟨hl.1, hk⟩
    split
    · cases hst with
      | nil => exact .inr ⟨rfl, rfl⟩
      | cons h1 h2 => exact ih h2 (h1.append (one hn))
    · split
      · exact ih (.cons hn hst) (by unfold Twins; trivial)
      · exact ih hst (hn.append (one (by unfold Twins; trivial)))

end Psd
