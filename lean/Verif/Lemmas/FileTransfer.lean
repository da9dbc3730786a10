import Verif.Props.TileSize

/-
The picture of a file, as one of a document whose layers have other numbers; for C84, C87, C118 and C121 for files.
-/

namespace Psd
open Spec (Layer LayerSection Doc Node recordsAll mapAll numberAll WellTypedAll)

/-! ### Documents of numbered layers -/

/-- The document of these numbered layers. -/
def keyedDoc (G : List (Node (Nat × Layer))) : List (LTree LayerRec) := treesOf (mapAll (fun p => layerFull 3 8 p.1 p.2) G)

mutual
theorem node_records_map {α β : Type} (f : α → β) : ∀ n : Node α, (n.map f).records = n.records.map f
  | .layer l => by simp [Node.map, Node.records]
  | .folder d kids l => by simp [Node.map, Node.records, recordsAll_mapped f kids]

theorem recordsAll_mapped {α β : Type} (f : α → β) : ∀ ns : List (Node α), recordsAll (mapAll f ns) = (recordsAll ns).map f
  | [] => by simp [mapAll, recordsAll]
  | n :: ns => by simp [mapAll, recordsAll, node_records_map f n, recordsAll_mapped f ns]
end

mutual
theorem node_typed_map {α β : Type} {typ : α → Nat} {typ' : β → Nat} {f : α → β} (hf : ∀ p, typ' (f p) = typ p) : ∀ n : Node α, n.WellTyped typ → (n.map f).WellTyped typ'
  | .layer l, h => by
    simp only [Node.map, Node.WellTyped, hf] at h ⊢
    exact h
  | .folder d kids l, h => by
    simp only [Node.map, Node.WellTyped, hf] at h ⊢
    exact ⟨h.1, h.2.1, typed_mapped hf kids h.2.2⟩

theorem typed_mapped {α β : Type} {typ : α → Nat} {typ' : β → Nat} {f : α → β} (hf : ∀ p, typ' (f p) = typ p) : ∀ ns : List (Node α), WellTypedAll typ ns → WellTypedAll typ' (mapAll f ns)
  | [], _ => by simp [mapAll, WellTypedAll]
  | n :: ns, h => by
    simp only [WellTypedAll] at h
    simp only [mapAll, WellTypedAll]
    exact ⟨node_typed_map hf n h.1, typed_mapped hf ns h.2⟩
end

theorem recordsAll_app {α : Type} : ∀ a b : List (Node α), recordsAll (a ++ b) = recordsAll a ++ recordsAll b
  | [], b => rfl
  | n :: a, b => by simp [recordsAll, recordsAll_app a b]

theorem mapAll_app {α β : Type} (f : α → β) : ∀ a b : List (Node α), mapAll f (a ++ b) = mapAll f a ++ mapAll f b
  | [], b => rfl
  | n :: a, b => by simp [mapAll, mapAll_app f a b]

theorem typed_app {α : Type} (typ : α → Nat) : ∀ a b : List (Node α), WellTypedAll typ (a ++ b) ↔ WellTypedAll typ a ∧ WellTypedAll typ b
  | [], b => by simp [WellTypedAll]
  | n :: a, b => by simp [WellTypedAll, typed_app typ a b, and_assoc]

theorem numberAll_app {α : Type} : ∀ (a b : List (Node α)) (i : Nat), numberAll i (a ++ b) = numberAll i a ++ numberAll (i + (recordsAll a).length) b
  | [], b, i => by simp [numberAll, recordsAll]
  | n :: a, b, i => by simp [numberAll, recordsAll, numberAll_app a b, Nat.add_assoc]

theorem keyedDoc_append (a b : List (Node (Nat × Layer))) : keyedDoc (a ++ b) = keyedDoc a ++ keyedDoc b := by
  unfold keyedDoc
  rw [mapAll_app, treesOf_append]

mutual
theorem node_number_snd {α : Type} : ∀ (n : Node α) (i : Nat), (n.number i).map Prod.snd = n
  | .layer l, i => by simp [Node.number, Node.map]
  | .folder d kids l, i => by simp [Node.number, Node.map, numberAll_snd kids]

theorem numberAll_snd {α : Type} : ∀ (ns : List (Node α)) (i : Nat), mapAll Prod.snd (numberAll i ns) = ns
  | [], i => by simp [numberAll, mapAll]
  | n :: ns, i => by simp [numberAll, mapAll, node_number_snd n, numberAll_snd ns]
end

mutual
theorem node_number_typed {α : Type} {typ : α → Nat} : ∀ (n : Node α) (i : Nat), n.WellTyped typ → (n.number i).WellTyped (fun p => typ p.2)
  | .layer l, i, h => by
    simp only [Node.number, Node.WellTyped] at h ⊢
    exact h
  | .folder d kids l, i, h => by
    simp only [Node.number, Node.WellTyped] at h ⊢
    exact ⟨h.1, h.2.1, numberAll_typed_snd kids (i + 1) h.2.2⟩

theorem numberAll_typed_snd {α : Type} {typ : α → Nat} : ∀ (ns : List (Node α)) (i : Nat), WellTypedAll typ ns → WellTypedAll (fun p => typ p.2) (numberAll i ns)
  | [], i, _ => by simp [numberAll, WellTypedAll]
  | n :: ns, i, h => by
    simp only [WellTypedAll] at h
    simp only [numberAll, WellTypedAll]
    exact ⟨node_number_typed n i h.1, numberAll_typed_snd ns _ h.2⟩
end

mutual
theorem node_number_keys {α : Type} : ∀ (n : Node α) (i : Nat), (n.number i).records.map Prod.fst = List.range' i n.records.length
  | .layer l, i => by simp [Node.number, Node.records]
  | .folder d kids l, i => by
    simp only [Node.number, Node.records, List.map_cons, List.map_append, numberAll_keys kids, List.length_cons, List.length_append, List.map_nil, List.length_nil]
    rw [List.range'_succ, List.range'_concat]
    simp

theorem numberAll_keys {α : Type} : ∀ (ns : List (Node α)) (i : Nat), (recordsAll (numberAll i ns)).map Prod.fst = List.range' i (recordsAll ns).length
  | [], i => by simp [numberAll, recordsAll]
  | n :: ns, i => by
    simp only [numberAll, recordsAll, List.map_append, List.length_append, node_number_keys n, numberAll_keys ns]
    rw [List.range'_append_1]
end

theorem numberAll_layers {α : Type} (ns : List (Node α)) (i : Nat) : (recordsAll (numberAll i ns)).map Prod.snd = recordsAll ns := by
  rw [← recordsAll_mapped, numberAll_snd]

mutual
/-- Where the layers of the document come from. Only folders have layers in them. -/
theorem keyedNode_all : ∀ n : Node (Nat × Layer), n.WellTyped (fun p => p.2.kind) →
    DocAll (fun r kids => ∃ p ∈ n.records, r = layerFull 3 8 p.1 p.2 ∧ (kids ≠ [] → p.2.kind = 1 ∨ p.2.kind = 2)) [treeOf (n.map fun p => layerFull 3 8 p.1 p.2)]
  | .layer p, _ => by
    intro π r kids e
    match π with
    | [] => cases e
    | [0] =>
      cases e
      exact ⟨p, by simp [Node.records], rfl, fun h => absurd rfl h⟩
    | 0 :: i :: π => cases (show (none : Option (LTree LayerRec)) = _ from e)
    | (i + 1) :: π => simp [docAt] at e
  | .folder d kids l, h => by
    simp only [Node.WellTyped] at h
    have ih := keyedAll_all kids h.2.2
    intro π r ks e
    match π with
    | [] => cases e
    | [0] =>
      cases e
      exact ⟨l, by simp [Node.records], rfl, fun _ => h.2.1⟩
    | 0 :: i :: π =>
      obtain ⟨p, g1, g2⟩ := ih (i :: π) r ks e
      exact ⟨p, by simp [Node.records, g1], g2⟩
    | (i + 1) :: π => simp [docAt] at e

theorem keyedAll_all : ∀ G : List (Node (Nat × Layer)), WellTypedAll (fun p => p.2.kind) G →
    DocAll (fun r kids => ∃ p ∈ recordsAll G, r = layerFull 3 8 p.1 p.2 ∧ (kids ≠ [] → p.2.kind = 1 ∨ p.2.kind = 2)) (keyedDoc G)
  | [], _ => by
    intro π r kids e
    match π with
    | [] => cases e
    | i :: π => simp [keyedDoc, mapAll, treesOf, docAt] at e
  | n :: G, h => by
    simp only [WellTypedAll] at h
    have ih1 := keyedNode_all n h.1
    have ih2 := keyedAll_all G h.2
    intro π r ks e
    match π with
    | [] => cases e
    | 0 :: π =>
      obtain ⟨p, g1, g2⟩ := ih1 (0 :: π) r ks (by rw [← e]; cases π <;> rfl)
      exact ⟨p, by simp [recordsAll, g1], g2⟩
    | (i + 1) :: π =>
      obtain ⟨p, g1, g2⟩ := ih2 (i :: π) r ks e
      exact ⟨p, by simp [recordsAll, g1], g2⟩
end

section
variable {G : List (Node (Nat × Layer))} (hw : WellTypedAll (fun p => p.2.kind) G)
include hw

theorem keyed_build : buildTree LayerRec.sdType ((recordsAll G).map fun p => layerFull 3 8 p.1 p.2) = .ok (keyedDoc G) := by
  rw [← recordsAll_mapped]
  exact C21_tree_mirrors_folders _ _ (typed_mapped (fun _ => rfl) G hw)

theorem keyed_unique (hk : ((recordsAll G).map Prod.fst).Nodup) : UniqueDoc (keyedDoc G) := by
  have hs := (buildTree_sublist _ (keyed_build hw)).map LayerRec.seqID
  refine UniqueDoc.of_post (List.Nodup.sublist hs ?_)
  rw [List.map_map]
  exact hk

theorem keyed_known (hm : ∀ p ∈ recordsAll G, p.2.ModeKnown) : KnownModes (keyedDoc G) := fun π l kids e => by
  obtain ⟨p, g1, rfl, -⟩ := keyedAll_all G hw π l kids e
  exact known_of_spec (hm p g1) p.1

end

/-! ### What layers show -/

open Classical in
theorem PixelIs_exists (l : Layer) (ts : Nat) (x y : Int) : ∃ v, l.PixelIs ts x y v := by
  by_cases h : ∃ x' y', Spec.SharedTile ts x y x' y' ∧ l.colour x' y' ≠ none
  · exact ⟨some _, h, rfl⟩
  · refine ⟨none, fun x' y' h1 => ?_⟩
    by_contra h2
    exact h ⟨x', y', h1, h2⟩

open Classical in
theorem MaskIs_exists (l : Layer) (ts : Nat) (x y : Int) : ∃ v, l.MaskIs ts x y v := by
  by_cases h : ∃ x' y', Spec.SharedTile ts x y x' y' ∧ l.veil x' y' ≠ 0
  · exact ⟨some _, h, rfl⟩
  · refine ⟨none, fun x' y' h1 => ?_⟩
    by_contra h2
    exact h ⟨x', y', h1, h2⟩

theorem PixelIs_unique {l : Layer} {ts : Nat} {x y : Int} {p p' : Option Px} (e : l.PixelIs ts x y p) (e' : l.PixelIs ts x y p') : p' = p := by
  have := PixelIs_both (R := Eq) rfl (l := l) (l' := l) (fun _ _ => rfl) (fun q q' h h' => by rw [h] at h'; injection h') e e'
  cases p with
  | none => cases p' with
    | none => rfl
    | some _ => exact absurd this id
  | some p => cases p' with
    | none => exact absurd this id
    | some p' => rw [show p = p' from this]

/-- The pictures and masks of numbered layers, as functions of the number. -/
theorem looks_exist (K : List (Nat × Layer)) (hk : (K.map Prod.fst).Nodup) (ts : Nat) (x y : Int) :
    ∃ (pic : Int → Option Px) (mask : Int → Option UInt8), ∀ p ∈ K, p.2.PixelIs ts x y (pic p.1) ∧ p.2.MaskIs ts x y (mask p.1) := by
  induction K with
  | nil => exact ⟨fun _ => none, fun _ => none, by simp⟩
  | cons p K ih =>
    rw [List.map_cons, List.nodup_cons] at hk
    obtain ⟨pic, mask, h⟩ := ih hk.2
    obtain ⟨v, hv⟩ := PixelIs_exists p.2 ts x y
    obtain ⟨w, hw⟩ := MaskIs_exists p.2 ts x y
    refine ⟨fun k => if k = p.1 then v else pic k, fun k => if k = p.1 then w else mask k, fun q hq => ?_⟩
    rcases List.mem_cons.1 hq with rfl | hq
    · simpa using ⟨hv, hw⟩
    · have : ((q.1 : Int)) ≠ p.1 := fun e => hk.1 (by
        have : q.1 = p.1 := by omega
        rw [← this]
        exact List.mem_map_of_mem hq)
      simp only [if_neg this]
      exact h q hq

/-! ### The picture of the file -/

/-- What has the colour `p` all over the tile `pt`, if there is one. -/
def flatCanvas (pt : TPt) (pic : Int → Option Px) (id : Int) : Option (List (TPt × Tile)) := (pic id).map fun p => [(pt, fun _ => p)]

/-- A mask that has one value all over the tile `pt`, if there is one. -/
def flatMask (pt : TPt) (mask : Int → Option UInt8) (id : Int) : List (TPt × (Nat → UInt8)) := ((mask id).map fun v => [(pt, fun _ => v)]).getD []

theorem flatCanvas_get (pt : TPt) (pic : Int → Option Px) (id : Int) : (flatCanvas pt pic id).bind (·.lookup pt) = (pic id).map fun p _ => p := by
  unfold flatCanvas
  cases pic id with
  | none => rfl
  | some p => simp

theorem flatMask_get (pt : TPt) (mask : Int → Option UInt8) (id : Int) : (flatMask pt mask id).lookup pt = (mask id).map fun v _ => v := by
  unfold flatMask
  cases mask id with
  | none => rfl
  | some p => simp

/-- The pixel of a first picture of a file is that of the document with other numbers and flat pictures. -/
theorem file_render {d : Doc} {G : List (Node (Nat × Layer))} (hw : WellTypedAll (fun p => p.2.kind) G) (hkeys : ((recordsAll G).map Prod.fst).Nodup)
    (hf : d.RgbFile ((recordsAll G).map Prod.snd)) {ts : Nat} {visited : List TPt} {picture : TPt → Tile} (h : FirstPicture d ((recordsAll G).map Prod.snd) ts visited picture)
    {x y : Int} (hx : 0 ≤ x) (hy : 0 ≤ y) (hpt : tilePt ts x y ∈ visited) {pic : Int → Option Px} {mask : Int → Option UInt8}
    (hl : ∀ p ∈ recordsAll G, p.2.PixelIs ts x y (pic p.1) ∧ p.2.MaskIs ts x y (mask p.1))
    (grow : Nat → Nat) (dec : List UInt8 → Option (List UInt8)) {n fuel : Nat} (hn : depthAll (keyedDoc G) ≤ n) (hfu : 2 * n ≤ fuel) (diff aborted : Bool) (pt : TPt) (i : Nat)
    {st : RState Tile} {D : TPt → Tile}
    (e : render tileOps ⟨newTree grow dec n (keyedDoc G), rootPtr, flatCanvas pt pic, flatMask pt mask⟩ fuel diff aborted [pt] .empty (fun _ => tileOps.blank) = .ok (st, D)) :
    picture (tilePt ts x y) (tileIx ts x y) = D pt i := by
  have hm : ∀ p ∈ recordsAll G, p.2.ModeKnown := fun p hp => hf.modes p.2 (List.mem_map_of_mem hp)
  obtain ⟨st', D', e0, key⟩ := C82_render_paints_the_layers grow dec n (keyedDoc G) hn (keyed_unique hw hkeys) (keyed_known hw hm) (flatCanvas pt pic) (flatMask pt mask) fuel hfu diff aborted [pt]
    (by simp) (fun _ => tileOps.blank)
  rw [e] at e0
  cases e0
  obtain ⟨T, R, k1, k2, k3⟩ := key pt
  rw [if_pos (by simp)] at k3
  simp only [flatCanvas_get, flatMask_get] at k1
  have hom := tile_px i
  have k4 := IsStack.through (fun t => t i) (fun m => m i) T _ k1
  have k5 := paint_hom hom T false id _ R k2
  simp only [Option.map_map, Function.comp_def, Option.map_id'] at k4
  have k6 : D pt i = tileShown pxOps ⟨0, 0, 0, 0⟩ (R.1, R.2 i) := by
    rw [k3]
    unfold tileShown
    dsimp only
    split
    · rw [hom.copy, hom.copy]
    · rw [clear_px]
      rfl
  obtain ⟨doc, dec', pic', mask', stack, r, e1, e2, e3, e4, e5⟩ := first_pixel hf h hx hy hpt
  rw [e5, k6]
  have hd : DocRel (fun r r' => ∃ (k : Nat) (p : Nat × Layer), (recordsAll G)[k]? = some p ∧ r = layerFull 3 8 p.1 p.2 ∧ r' = layerFull 3 8 k p.2) (keyedDoc G) doc := by
    refine buildTree_rel ?_ .nil .nil (keyed_build hw) e1
    rw [List.forall₂_iff_get]
    refine ⟨by rw [rgbLayers_length, List.length_map, List.length_map], fun j hj hj' => ?_⟩
    have h1 : j < (recordsAll G).length := by rwa [List.length_map] at hj
    have g2 := rgbLayers_get (ls := (recordsAll G).map Prod.snd) (i := j) (l := (recordsAll G)[j].2) (by rw [List.getElem?_map, List.getElem?_eq_getElem h1]; rfl)
    rw [List.getElem?_eq_getElem hj'] at g2
    injection g2 with g2
    rw [List.get_eq_getElem, List.get_eq_getElem, List.getElem_map, g2]
    exact ⟨⟨j, _, List.getElem?_eq_getElem h1, rfl, rfl⟩, rfl⟩
  have look : ∀ (k : Nat) (p : Nat × Layer), (recordsAll G)[k]? = some p → pic' k = pic p.1 ∧ mask' k = mask p.1 := by
    intro k p hp
    obtain ⟨a1, a2⟩ := hl p (List.mem_of_getElem? hp)
    obtain ⟨b1, b2⟩ := e2 k p.2 (by rw [List.getElem?_map, hp]; rfl)
    exact ⟨PixelIs_unique a1 b1, MaskIs_unique (fun _ _ => rfl) a2 b2⟩
  have hs := stack_rel (Q := fun r r' => ∃ (k : Nat) (p : Nat × Layer), (recordsAll G)[k]? = some p ∧ r = layerFull 3 8 p.1 p.2 ∧ r' = layerFull 3 8 k p.2) (o := pxOps) (R := Eq) (Op := fun _ => True) (Mk := fun _ => True) (Md := Eq) (dec := dec) (dec' := dec')
    (pic := pic) (pic' := pic') (mask := mask) (mask' := mask')
    (by rintro _ _ ⟨k, p, g, rfl, rfl⟩; rfl)
    (by
      rintro _ _ ⟨k, p, g, rfl, rfl⟩
      exact ⟨⟨rfl, by rw [layer_key, layer_key]⟩, trivial, .inl (by rw [layer_key, layer_key])⟩)
    (by
      rintro _ _ ⟨k, p, g, rfl, rfl⟩
      show BothRel _ (pic p.1) (pic' k)
      rw [(look k p g).1]
      cases pic p.1 with
      | none => trivial
      | some q => exact rfl)
    (fun _ _ _ _ _ => trivial)
    (by
      rintro _ _ ⟨k, p, g, rfl, rfl⟩
      exact (look k p g).2) _ _ _ _ k4 e3 hd
  obtain ⟨a1, a2⟩ := paint_rel equal_ops _ _ hs false id (fun _ h => h) _ _ rfl _ _ k5 e4
  unfold tileShown
  rw [a1, a2]

end Psd
