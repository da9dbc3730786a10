import Verif.Spec.OtherLayers
import Verif.Lemmas.FileTransfer
import Verif.Props.Cover
import Verif.Props.Clipped
import Verif.Props.Alpha
import Verif.Props.Dissolve
import Verif.Props.Overlap
import Verif.Props.Seen

/-!
# C84, C85, C86, C87, C118 and C121, for files

What is said of a document and the same document with some layers more or less or in another order, from the bytes of the two files on.
-/

namespace Psd
open Spec (Layer LayerSection Doc Node recordsAll mapAll numberAll WellTypedAll)

/-! ### The two documents -/

theorem keyedDoc_layer (p : Nat × Layer) (G : List (Node (Nat × Layer))) : keyedDoc (.layer p :: G) = .node (layerFull 3 8 p.1 p.2) [] :: keyedDoc G := by
  simp [keyedDoc, mapAll, Node.map, treesOf, treeOf]

theorem keyedDoc_folder (d p : Nat × Layer) (S G : List (Node (Nat × Layer))) : keyedDoc (.folder d S p :: G) = .node (layerFull 3 8 p.1 p.2) (keyedDoc S) :: keyedDoc G := by
  simp [keyedDoc, mapAll, Node.map, treesOf, treeOf]

theorem colour_folder {l : Layer} (h : l.kind = 1 ∨ l.kind = 2) (x y : Int) : l.colour x y = none := by
  unfold Layer.colour
  rw [if_neg (by omega)]

theorem PixelIs_none {l : Layer} (hc : ∀ x y, l.colour x y = none) {ts : Nat} {x y : Int} {p : Option Px} (h : l.PixelIs ts x y p) : p = none := by
  cases p with
  | none => rfl
  | some p =>
    obtain ⟨⟨x1, y1, -, h2⟩, -⟩ := h
    exact absurd (hc x1 y1) h2

theorem PixelIs_some {l : Layer} {ts : Nat} {x y : Int} {p : Option Px} (h : l.PixelIs ts x y p) {q : Px} (hq : l.colour x y = some q) : p = some q := by
  cases p with
  | none =>
    have := h x y ⟨rfl, rfl⟩
    rw [hq] at this
    cases this
  | some p =>
    obtain ⟨-, rfl⟩ := h
    rw [hq]
    rfl

theorem keyed_bare {G : List (Node (Nat × Layer))} (hw : WellTypedAll (fun p => p.2.kind) G) {ts : Nat} {x y : Int} {pic : Int → Option Px} {mask : Int → Option UInt8}
    (hl : ∀ p ∈ recordsAll G, p.2.PixelIs ts x y (pic p.1) ∧ p.2.MaskIs ts x y (mask p.1)) (pt : TPt) : FoldersBare (keyedDoc G) (flatCanvas pt pic) := fun π l kids e h => by
  obtain ⟨p, g1, rfl, g3⟩ := keyedAll_all G hw π l kids e
  have hk : p.2.kind = 1 ∨ p.2.kind = 2 := by
    rcases h with h | h
    · have h : (p.2.kind == 1 || p.2.kind == 2) = true := h
      simpa using h
    · exact g3 h
  show (pic p.1).map _ = none
  rw [PixelIs_none (colour_folder hk) (hl p g1).1]
  rfl

theorem keyed_head {F : List (Node Layer)} (h : ∀ k ∈ F.head?, k.own.clipping = 0) (i : Nat) : ∀ k ∈ (keyedDoc (numberAll i F)).head?, k.isClipping = false := by
  intro k hk
  match F with
  | [] => cases hk
  | .layer l :: F =>
    cases hk
    have : l.clipping = 0 := h _ rfl
    show decide (l.clipping ≠ 0) = false
    simpa using this
  | .folder d S l :: F =>
    cases hk
    have : l.clipping = 0 := h _ rfl
    show decide (l.clipping ≠ 0) = false
    simpa using this

/-- The numbers of the layers are all different. -/
theorem number_nodup {α : Type} (F : List (Node α)) (i : Nat) : ((recordsAll (numberAll i F)).map Prod.fst).Nodup := by
  rw [numberAll_keys]
  exact List.nodup_range'

/-! ### C87 -/

/-- **C87**, for files. Two well-formed 8-bit RGB files have the same layers and folders from an ordinary layer upwards. The layer is in normal mode, at full opacity, visible, without a mask and no
clipping layer. Where it is opaque, every first picture of the one file is that of the other, whatever is below the layer in each, whatever reader presents the files, and whatever
the schedules. -/
theorem C87_covers_in_files {d d' : Doc} {B B' A : List (Node Layer)} {l : Layer} (hw : WellTypedAll Layer.kind (B ++ .layer l :: A)) (hw' : WellTypedAll Layer.kind (B' ++ .layer l :: A))
    (hf : d.RgbFile (recordsAll (B ++ .layer l :: A))) (hf' : d'.RgbFile (recordsAll (B' ++ .layer l :: A))) (hl : l.Plain)
    {ts : Nat} {visited visited' : List TPt} {picture picture' : TPt → Tile} (h : FirstPicture d (recordsAll (B ++ .layer l :: A)) ts visited picture)
    (h' : FirstPicture d' (recordsAll (B' ++ .layer l :: A)) ts visited' picture') {x y : Int} (hx : 0 ≤ x) (hy : 0 ≤ y) (hpt : tilePt ts x y ∈ visited) (hpt' : tilePt ts x y ∈ visited')
    {q : Px} (hq : l.colour x y = some q) (ha : q.a = 255) : picture (tilePt ts x y) (tileIx ts x y) = picture' (tilePt ts x y) (tileIx ts x y) := by
  obtain ⟨GB, hGB⟩ : ∃ G, G = numberAll 0 B := ⟨_, rfl⟩
  obtain ⟨b, hb⟩ : ∃ b, b = 0 + (recordsAll B).length := ⟨_, rfl⟩
  obtain ⟨GB', hGB'⟩ : ∃ G, G = numberAll b B' := ⟨_, rfl⟩
  obtain ⟨c, hc⟩ : ∃ c, c = b + (recordsAll B').length := ⟨_, rfl⟩
  obtain ⟨GA, hGA⟩ : ∃ G, G = numberAll (c + 1) A := ⟨_, rfl⟩
  have hX : numberAll c (.layer l :: A) = .layer (c, l) :: GA := by rw [hGA]; rfl
  have hall : ((recordsAll (GB ++ (GB' ++ .layer (c, l) :: GA))).map Prod.fst).Nodup := by
    have := number_nodup (B ++ (B' ++ .layer l :: A)) 0
    rwa [numberAll_app, numberAll_app, ← hb, ← hc, ← hGB, ← hGB', hX] at this
  have hlay : (recordsAll (GB ++ .layer (c, l) :: GA)).map Prod.snd = recordsAll (B ++ .layer l :: A) := by
    rw [recordsAll_app, recordsAll_app, List.map_append, hGB, numberAll_layers, ← hX, numberAll_layers]
  have hlay' : (recordsAll (GB' ++ .layer (c, l) :: GA)).map Prod.snd = recordsAll (B' ++ .layer l :: A) := by
    rw [recordsAll_app, recordsAll_app, List.map_append, hGB', numberAll_layers, ← hX, numberAll_layers]
  have ht : WellTypedAll (fun p : Nat × Layer => p.2.kind) (GB ++ .layer (c, l) :: GA) := by
    rw [typed_app] at hw ⊢
    rw [hGB, ← hX]
    exact ⟨numberAll_typed_snd _ _ hw.1, numberAll_typed_snd _ _ hw.2⟩
  have ht' : WellTypedAll (fun p : Nat × Layer => p.2.kind) (GB' ++ .layer (c, l) :: GA) := by
    rw [typed_app] at hw' ⊢
    rw [hGB', ← hX]
    exact ⟨numberAll_typed_snd _ _ hw'.1, numberAll_typed_snd _ _ hw'.2⟩
  have hkeys : ((recordsAll (GB ++ .layer (c, l) :: GA)).map Prod.fst).Nodup := by
    refine List.Nodup.sublist (List.Sublist.map _ ?_) hall
    simp only [recordsAll_app]
    exact (List.Sublist.refl _).append (List.sublist_append_right _ _)
  have hkeys' : ((recordsAll (GB' ++ .layer (c, l) :: GA)).map Prod.fst).Nodup := by
    refine List.Nodup.sublist (List.Sublist.map _ ?_) hall
    simp only [recordsAll_app]
    exact List.sublist_append_right _ _
  obtain ⟨pic, mask, hlook⟩ := looks_exist _ hall ts x y
  rw [← hlay] at hf h
  rw [← hlay'] at hf' h'
  have hlook1 : ∀ p ∈ recordsAll (GB ++ .layer (c, l) :: GA), p.2.PixelIs ts x y (pic p.1) ∧ p.2.MaskIs ts x y (mask p.1) := fun p hp => hlook p (by
    simp only [recordsAll_app, List.mem_append] at hp ⊢
    tauto)
  have hlook2 : ∀ p ∈ recordsAll (GB' ++ .layer (c, l) :: GA), p.2.PixelIs ts x y (pic p.1) ∧ p.2.MaskIs ts x y (mask p.1) := fun p hp => hlook p (by
    simp only [recordsAll_app, List.mem_append] at hp ⊢
    tauto)
  have hpic : pic c = some q := PixelIs_some (hlook (c, l) (by simp [recordsAll_app, recordsAll, Node.records])).1 hq
  obtain ⟨n, hn, hn'⟩ : ∃ n, depthAll (keyedDoc (GB ++ .layer (c, l) :: GA)) ≤ n ∧ depthAll (keyedDoc (GB' ++ .layer (c, l) :: GA)) ≤ n := ⟨_, Nat.le_max_left _ _, Nat.le_max_right _ _⟩
  have main : ∀ {G0 : List (Node (Nat × Layer))} (_ : WellTypedAll (fun p : Nat × Layer => p.2.kind) (G0 ++ .layer (c, l) :: GA)) (_ : ((recordsAll (G0 ++ .layer (c, l) :: GA)).map Prod.fst).Nodup)
      (_ : ∀ p ∈ recordsAll (G0 ++ .layer (c, l) :: GA), p.2.PixelIs ts x y (pic p.1) ∧ p.2.MaskIs ts x y (mask p.1)) (_ : ∀ p ∈ recordsAll (G0 ++ .layer (c, l) :: GA), p.2.ModeKnown)
      (_ : depthAll (keyedDoc (G0 ++ .layer (c, l) :: GA)) ≤ n), _ := fun {G0} ht hk hlk hm hn =>
    C87_opaque_covers (grow := id) (dec := fun _ => none) (n := n) (keyedDoc G0) (keyedDoc GA) (layerFull 3 8 c l) (by rw [← keyedDoc_layer (c, l), ← keyedDoc_append]; exact hn)
      (by rw [← keyedDoc_layer (c, l), ← keyedDoc_append]; exact keyed_unique ht hk) (by rw [← keyedDoc_layer (c, l), ← keyedDoc_append]; exact keyed_known ht hm) (solid_of_plain hl c)
      (by show decide (l.clipping ≠ 0) = false; rw [hl.clipping]; rfl) (flatCanvas (0, 0) pic) (flatMask (0, 0) mask) (by rw [← keyedDoc_layer (c, l), ← keyedDoc_append]; exact keyed_bare ht hlk _)
      (0, 0) 0 (fun _ => q) (by rw [flatCanvas_get]; show (pic c).map _ = _; rw [hpic]; rfl) ha (2 * n) (Nat.le_refl _) false false [(0, 0)] (by simp) (fun _ => tileOps.blank)
  obtain ⟨st, st0, D, D0, e1, e2, e3⟩ := main ht hkeys hlook1 (fun p hp => hf.modes _ (List.mem_map_of_mem hp)) hn
  obtain ⟨st', st0', D', D0', e1', e2', e3'⟩ := main ht' hkeys' hlook2 (fun p hp => hf'.modes _ (List.mem_map_of_mem hp)) hn'
  rw [e2] at e2'
  cases e2'
  rw [← keyedDoc_layer (c, l), ← keyedDoc_append] at e1 e1'
  rw [file_render ht hkeys hf h hx hy hpt hlook1 id _ hn (Nat.le_refl _) false false (0, 0) 0 e1, file_render ht' hkeys' hf' h' hx hy hpt' hlook2 id _ hn' (Nat.le_refl _) false false (0, 0) 0 e1',
    e3, e3']

/-! ### Two files, of which one has the layers of the other -/

/-- The two layers have the same pixels and the same mask. -/
def Spec.Layer.SamePixels (l l' : Layer) : Prop := (∀ x y, l'.colour x y = l.colour x y) ∧ ∀ x y, l'.veil x y = l.veil x y

theorem Spec.Layer.SamePixels.refl (l : Layer) : l.SamePixels l := ⟨fun _ _ => rfl, fun _ _ => rfl⟩

theorem Spec.Layer.SamePixels.pixel {l l' : Layer} (h : l.SamePixels l') {ts : Nat} {x y : Int} {v : Option Px} (e : l.PixelIs ts x y v) : l'.PixelIs ts x y v := by
  unfold Layer.PixelIs at e ⊢
  simp only [h.1]
  exact e

theorem Spec.Layer.SamePixels.mask {l l' : Layer} (h : l.SamePixels l') {ts : Nat} {x y : Int} {v : Option UInt8} (e : l.MaskIs ts x y v) : l'.MaskIs ts x y v := by
  unfold Layer.MaskIs at e ⊢
  simp only [h.2]
  exact e

theorem edited_pair {R : Px → Px → Prop} {d d' : Doc} {G G' : List (Node (Nat × Layer))} (ht : WellTypedAll (fun p => p.2.kind) G) (ht' : WellTypedAll (fun p => p.2.kind) G')
    (hk : ((recordsAll G).map Prod.fst).Nodup) (hk' : ((recordsAll G').map Prod.fst).Nodup) (hsub : ∀ p ∈ recordsAll G', ∃ l, (p.1, l) ∈ recordsAll G ∧ l.SamePixels p.2)
    (hf : d.RgbFile ((recordsAll G).map Prod.snd)) (hf' : d'.RgbFile ((recordsAll G').map Prod.snd))
    {ts : Nat} {visited visited' : List TPt} {picture picture' : TPt → Tile} (h : FirstPicture d ((recordsAll G).map Prod.snd) ts visited picture)
    (h' : FirstPicture d' ((recordsAll G').map Prod.snd) ts visited' picture') {x y : Int} (hx : 0 ≤ x) (hy : 0 ≤ y) (hpt : tilePt ts x y ∈ visited) (hpt' : tilePt ts x y ∈ visited')
    (main : ∀ (pic : Int → Option Px) (mask : Int → Option UInt8) (n : Nat), (∀ p ∈ recordsAll G, p.2.PixelIs ts x y (pic p.1) ∧ p.2.MaskIs ts x y (mask p.1)) →
      depthAll (keyedDoc G) ≤ n → UniqueDoc (keyedDoc G) → KnownModes (keyedDoc G) → FoldersBare (keyedDoc G) (flatCanvas (0, 0) pic) → ∃ st st' D D',
        render tileOps ⟨newTree id (fun _ => none) n (keyedDoc G), rootPtr, flatCanvas (0, 0) pic, flatMask (0, 0) mask⟩ (2 * n) false false [(0, 0)] .empty (fun _ => tileOps.blank) = .ok (st, D) ∧
        render tileOps ⟨newTree id (fun _ => none) n (keyedDoc G'), rootPtr, flatCanvas (0, 0) pic, flatMask (0, 0) mask⟩ (2 * n) false false [(0, 0)] .empty (fun _ => tileOps.blank) = .ok (st', D') ∧
        R (D (0, 0) 0) (D' (0, 0) 0)) : R (picture (tilePt ts x y) (tileIx ts x y)) (picture' (tilePt ts x y) (tileIx ts x y)) := by
  obtain ⟨pic, mask, hlook⟩ := looks_exist _ hk ts x y
  have hlook' : ∀ p ∈ recordsAll G', p.2.PixelIs ts x y (pic p.1) ∧ p.2.MaskIs ts x y (mask p.1) := fun p hp => by
    obtain ⟨l, g1, g2⟩ := hsub p hp
    obtain ⟨a1, a2⟩ := hlook _ g1
    exact ⟨g2.pixel a1, g2.mask a2⟩
  obtain ⟨n, hn, hn'⟩ : ∃ n, depthAll (keyedDoc G) ≤ n ∧ depthAll (keyedDoc G') ≤ n := ⟨_, Nat.le_max_left _ _, Nat.le_max_right _ _⟩
  obtain ⟨st, st', D, D', e, e', r⟩ := main pic mask n hlook hn (keyed_unique ht hk) (keyed_known ht fun p hp => hf.modes _ (List.mem_map_of_mem hp)) (keyed_bare ht hlook _)
  rw [file_render ht hk hf h hx hy hpt hlook id _ hn (Nat.le_refl _) false false (0, 0) 0 e, file_render ht' hk' hf' h' hx hy hpt' hlook' id _ hn' (Nat.le_refl _) false false (0, 0) 0 e']
  exact r

/-! ### C121 -/

theorem keyed_clear {G : List (Node (Nat × Layer))} (hw : WellTypedAll (fun p => p.2.kind) G) {ts : Nat} {x y : Int} {pic : Int → Option Px} {mask : Int → Option UInt8}
    (hl : ∀ p ∈ recordsAll G, p.2.PixelIs ts x y (pic p.1) ∧ p.2.MaskIs ts x y (mask p.1)) (hc : ∀ p ∈ recordsAll G, p.2.clipping = 0 → p.2.colour x y = none) (pt : TPt) (i : Nat) :
    ClearAt (keyedDoc G) (flatCanvas pt pic) pt i := fun π l kids e hcl q hq => by
  obtain ⟨p, g1, rfl, -⟩ := keyedAll_all G hw π l kids e
  have hcl : decide (p.2.clipping ≠ 0) = false := hcl
  rw [flatCanvas_get] at hq
  have hq : (pic p.1).map _ = some q := hq
  have g2 := (hl p g1).1
  cases hp : pic p.1 with
  | none => rw [hp] at hq; cases hq
  | some v =>
    rw [hp] at hq g2
    cases hq
    obtain ⟨-, rfl⟩ := g2
    rw [hc p g1 (by simpa using hcl)]
    rfl

theorem keyed_noPass {G : List (Node (Nat × Layer))} (hw : WellTypedAll (fun p => p.2.kind) G) (h : ∀ p ∈ recordsAll G, p.2.blendKey ≠ ascii "pass") : NoPassThrough (keyedDoc G) := fun π l kids e hfo => by
  obtain ⟨p, g1, rfl, -⟩ := keyedAll_all G hw π l kids e
  have hfo : (p.2.kind == 1 || p.2.kind == 2) = true := hfo
  have := h p g1
  unfold Layer.blendKey at this
  rw [if_pos (by simpa using hfo)] at this
  exact this

theorem numbered_mem {F : List (Node Layer)} {i : Nat} {p : Nat × Layer} (h : p ∈ recordsAll (numberAll i F)) : p.2 ∈ recordsAll F := by
  rw [← numberAll_layers F i]
  exact List.mem_map_of_mem h

/-- **C121** (in part), for files. Two well-formed 8-bit RGB files differ in the order of the layers `Y` and `Z`: they are next to each other and change places, with all that is in their folders. At a
pixel where one of the two has nothing, every first picture of the one file is that of the other. The one that has nothing there has no pass-through folder, and its clipping layers
may have something there.

Missing: pass-through folders (`C121_order_of_folders`). -/
theorem C121_order_in_files_partial {d d' : Doc} {X Y Z W : List (Node Layer)} (hw : WellTypedAll Layer.kind (X ++ (Y ++ (Z ++ W))))
    (hf : d.RgbFile (recordsAll (X ++ (Y ++ (Z ++ W))))) (hf' : d'.RgbFile (recordsAll (X ++ (Z ++ (Y ++ W)))))
    (hY : ∀ k ∈ Y.head?, k.own.clipping = 0) (hZ : ∀ k ∈ Z.head?, k.own.clipping = 0) (hW : ∀ k ∈ W.head?, k.own.clipping = 0)
    {ts : Nat} {visited visited' : List TPt} {picture picture' : TPt → Tile} (h : FirstPicture d (recordsAll (X ++ (Y ++ (Z ++ W)))) ts visited picture)
    (h' : FirstPicture d' (recordsAll (X ++ (Z ++ (Y ++ W)))) ts visited' picture') {x y : Int} (hx : 0 ≤ x) (hy : 0 ≤ y) (hpt : tilePt ts x y ∈ visited) (hpt' : tilePt ts x y ∈ visited')
    (hc : (∀ l ∈ recordsAll Y, l.blendKey ≠ ascii "pass" ∧ (l.clipping = 0 → l.colour x y = none)) ∨ ∀ l ∈ recordsAll Z, l.blendKey ≠ ascii "pass" ∧ (l.clipping = 0 → l.colour x y = none)) :
    picture (tilePt ts x y) (tileIx ts x y) = picture' (tilePt ts x y) (tileIx ts x y) := by
  obtain ⟨b, hb⟩ : ∃ b, b = 0 + (recordsAll X).length := ⟨_, rfl⟩
  obtain ⟨c, hc'⟩ : ∃ c, c = b + (recordsAll Y).length := ⟨_, rfl⟩
  obtain ⟨e, he⟩ : ∃ e, e = c + (recordsAll Z).length := ⟨_, rfl⟩
  have hall := number_nodup (X ++ (Y ++ (Z ++ W))) 0
  rw [numberAll_app, numberAll_app, numberAll_app, ← hb, ← hc', ← he] at hall
  simp only [typed_app] at hw
  have tX := numberAll_typed_snd X 0 hw.1
  have tY := numberAll_typed_snd Y b hw.2.1
  have tZ := numberAll_typed_snd Z c hw.2.2.1
  have tW := numberAll_typed_snd W e hw.2.2.2
  have hl : (recordsAll (numberAll 0 X ++ (numberAll b Y ++ (numberAll c Z ++ numberAll e W)))).map Prod.snd = recordsAll (X ++ (Y ++ (Z ++ W))) := by
    simp only [recordsAll_app, List.map_append, numberAll_layers]
  have hl' : (recordsAll (numberAll 0 X ++ (numberAll c Z ++ (numberAll b Y ++ numberAll e W)))).map Prod.snd = recordsAll (X ++ (Z ++ (Y ++ W))) := by
    simp only [recordsAll_app, List.map_append, numberAll_layers]
  have hperm : (recordsAll (numberAll 0 X ++ (numberAll c Z ++ (numberAll b Y ++ numberAll e W)))).Perm (recordsAll (numberAll 0 X ++ (numberAll b Y ++ (numberAll c Z ++ numberAll e W)))) := by
    simp only [recordsAll_app]
    refine List.Perm.append_left _ ?_
    rw [← List.append_assoc, ← List.append_assoc]
    exact List.Perm.append_right _ List.perm_append_comm
  rw [← hl] at hf h
  rw [← hl'] at hf' h'
  refine edited_pair (R := Eq) (by simp only [typed_app]; exact ⟨tX, tY, tZ, tW⟩) (by simp only [typed_app]; exact ⟨tX, tZ, tY, tW⟩) hall ((hperm.map _).nodup_iff.2 hall) (fun p hp => ⟨_, hperm.mem_iff.1 hp, .refl _⟩)
    hf hf' h h' hx hy hpt hpt' fun pic mask n hlook hn hu hkm _ => ?_
  simp only [keyedDoc_append] at hn hu hkm ⊢
  have clear : ∀ {F : List (Node Layer)} {i : Nat}, WellTypedAll Layer.kind F → (∀ p ∈ recordsAll (numberAll i F), p.2.PixelIs ts x y (pic p.1) ∧ p.2.MaskIs ts x y (mask p.1)) →
      (∀ l ∈ recordsAll F, l.blendKey ≠ ascii "pass" ∧ (l.clipping = 0 → l.colour x y = none)) →
      NoPassThrough (keyedDoc (numberAll i F)) ∧ ClearAt (keyedDoc (numberAll i F)) (flatCanvas (0, 0) pic) (0, 0) 0 := fun {F} {i} hw hl hc =>
    ⟨keyed_noPass (numberAll_typed_snd F i hw) fun p hp => (hc _ (numbered_mem hp)).1, keyed_clear (numberAll_typed_snd F i hw) hl (fun p hp => (hc _ (numbered_mem hp)).2) _ _⟩
  refine C121_order_partial id _ n _ _ _ _ hn hu hkm (keyed_head hY b) (keyed_head hZ c) (keyed_head hW e) _ _ (0, 0) 0 ?_ (2 * n) (Nat.le_refl _) false false [(0, 0)] (by simp) _
  simp only [recordsAll_app, List.mem_append] at hlook
  rcases hc with hc | hc
  · exact .inl (clear hw.2.1 (fun p hp => hlook p (by tauto)) hc)
  · exact .inr (clear hw.2.2.1 (fun p hp => hlook p (by tauto)) hc)

/-- **C121** (in part), for files: where layers have nothing, the picture is that of the file without them. -/
theorem C121_clear_layers_in_files_partial {d d' : Doc} {X Y Z : List (Node Layer)} (hw : WellTypedAll Layer.kind (X ++ (Y ++ Z)))
    (hf : d.RgbFile (recordsAll (X ++ (Y ++ Z)))) (hf' : d'.RgbFile (recordsAll (X ++ Z))) (hY : ∀ k ∈ Y.head?, k.own.clipping = 0) (hZ : ∀ k ∈ Z.head?, k.own.clipping = 0)
    {ts : Nat} {visited visited' : List TPt} {picture picture' : TPt → Tile} (h : FirstPicture d (recordsAll (X ++ (Y ++ Z))) ts visited picture)
    (h' : FirstPicture d' (recordsAll (X ++ Z)) ts visited' picture') {x y : Int} (hx : 0 ≤ x) (hy : 0 ≤ y) (hpt : tilePt ts x y ∈ visited) (hpt' : tilePt ts x y ∈ visited')
    (hc : ∀ l ∈ recordsAll Y, l.blendKey ≠ ascii "pass" ∧ (l.clipping = 0 → l.colour x y = none)) :
    picture (tilePt ts x y) (tileIx ts x y) = picture' (tilePt ts x y) (tileIx ts x y) := by
  obtain ⟨b, hb⟩ : ∃ b, b = 0 + (recordsAll X).length := ⟨_, rfl⟩
  obtain ⟨c, hc'⟩ : ∃ c, c = b + (recordsAll Y).length := ⟨_, rfl⟩
  have hall := number_nodup (X ++ (Y ++ Z)) 0
  rw [numberAll_app, numberAll_app, ← hb, ← hc'] at hall
  simp only [typed_app] at hw
  have tX := numberAll_typed_snd X 0 hw.1
  have tY := numberAll_typed_snd Y b hw.2.1
  have tZ := numberAll_typed_snd Z c hw.2.2
  have hl : (recordsAll (numberAll 0 X ++ (numberAll b Y ++ numberAll c Z))).map Prod.snd = recordsAll (X ++ (Y ++ Z)) := by
    simp only [recordsAll_app, List.map_append, numberAll_layers]
  have hl' : (recordsAll (numberAll 0 X ++ numberAll c Z)).map Prod.snd = recordsAll (X ++ Z) := by
    simp only [recordsAll_app, List.map_append, numberAll_layers]
  have hsub : (recordsAll (numberAll 0 X ++ numberAll c Z)).Sublist (recordsAll (numberAll 0 X ++ (numberAll b Y ++ numberAll c Z))) := by
    simp only [recordsAll_app]
    exact (List.Sublist.refl _).append (List.sublist_append_right _ _)
  rw [← hl] at hf h
  rw [← hl'] at hf' h'
  refine edited_pair (R := Eq) (by simp only [typed_app]; exact ⟨tX, tY, tZ⟩) (by simp only [typed_app]; exact ⟨tX, tZ⟩) hall (List.Nodup.sublist (hsub.map _) hall) (fun p hp => ⟨_, hsub.subset hp, .refl _⟩)
    hf hf' h h' hx hy hpt hpt' fun pic mask n hlook hn hu hkm _ => ?_
  simp only [keyedDoc_append] at hn hu hkm ⊢
  simp only [recordsAll_app, List.mem_append] at hlook
  exact C121_clear_layers_partial id _ n _ _ _ hn hu hkm (keyed_head hY b) (keyed_head hZ c) (keyed_noPass tY fun p hp => (hc _ (numbered_mem hp)).1) _ _ (0, 0) 0
    (keyed_clear tY (fun p hp => hlook p (by tauto)) (fun p hp => (hc _ (numbered_mem hp)).2) _ _) (2 * n) (Nat.le_refl _) false false [(0, 0)] (by simp) _

/-! ### C118 -/

theorem transit_layer {f : Layer} (hk : f.kind = 1 ∨ f.kind = 2) (h : f.Transit) (i : Nat) : (layerFull 3 8 i f).Transit := by
  refine ⟨by show (f.kind == 1 || f.kind == 2) = true; simpa using hk, h.mode, (flag_bit f.flags).2 h.visible, h.opacity, ?_, by show decide (f.clipping ≠ 0) = false; rw [h.clipping]; rfl⟩
  rintro ⟨h1, h2, h3⟩
  refine h.unmasked ⟨?_, ?_, (maskMeaning_enabled _).1 h1⟩
  · have h2 : (maskMeaning f.mask).rect.minX < (maskMeaning f.mask).rect.maxX := h2
    rw [maskMeaning_rect] at h2
    exact h2
  · have h3 : (maskMeaning f.mask).rect.minY < (maskMeaning f.mask).rect.maxY := h3
    rw [maskMeaning_rect] at h3
    exact h3

theorem dissolved_pair {R : Px → Px → Prop} {d d' : Doc} {B S A : List (Node Layer)} {g f : Layer} (hw : WellTypedAll Layer.kind (B ++ .folder g S f :: A))
    (hf : d.RgbFile (recordsAll (B ++ .folder g S f :: A))) (hf' : d'.RgbFile (recordsAll (B ++ (S ++ A))))
    {ts : Nat} {visited visited' : List TPt} {picture picture' : TPt → Tile} (h : FirstPicture d (recordsAll (B ++ .folder g S f :: A)) ts visited picture)
    (h' : FirstPicture d' (recordsAll (B ++ (S ++ A))) ts visited' picture') {x y : Int} (hx : 0 ≤ x) (hy : 0 ≤ y) (hpt : tilePt ts x y ∈ visited) (hpt' : tilePt ts x y ∈ visited')
    (main : ∀ (b c e : Nat) (pic : Int → Option Px) (mask : Int → Option UInt8) (n : Nat), (f.kind = 1 ∨ f.kind = 2) →
      (∀ p ∈ recordsAll (numberAll 0 B), p.2.PixelIs ts x y (pic p.1)) → pic c = none →
      depthAll (keyedDoc (numberAll 0 B) ++ .node (layerFull 3 8 c f) (keyedDoc (numberAll b S)) :: keyedDoc (numberAll e A)) ≤ n →
      UniqueDoc (keyedDoc (numberAll 0 B) ++ .node (layerFull 3 8 c f) (keyedDoc (numberAll b S)) :: keyedDoc (numberAll e A)) →
      KnownModes (keyedDoc (numberAll 0 B) ++ .node (layerFull 3 8 c f) (keyedDoc (numberAll b S)) :: keyedDoc (numberAll e A)) →
      FoldersBare (keyedDoc (numberAll 0 B) ++ .node (layerFull 3 8 c f) (keyedDoc (numberAll b S)) :: keyedDoc (numberAll e A)) (flatCanvas (0, 0) pic) → ∃ st st' D D',
        render tileOps ⟨newTree id (fun _ => none) n (keyedDoc (numberAll 0 B) ++ .node (layerFull 3 8 c f) (keyedDoc (numberAll b S)) :: keyedDoc (numberAll e A)), rootPtr, flatCanvas (0, 0) pic,
          flatMask (0, 0) mask⟩ (2 * n) false false [(0, 0)] .empty (fun _ => tileOps.blank) = .ok (st, D) ∧
        render tileOps ⟨newTree id (fun _ => none) n (keyedDoc (numberAll 0 B) ++ (keyedDoc (numberAll b S) ++ keyedDoc (numberAll e A))), rootPtr, flatCanvas (0, 0) pic, flatMask (0, 0) mask⟩ (2 * n)
          false false [(0, 0)] .empty (fun _ => tileOps.blank) = .ok (st', D') ∧ R (D (0, 0) 0) (D' (0, 0) 0)) :
    R (picture (tilePt ts x y) (tileIx ts x y)) (picture' (tilePt ts x y) (tileIx ts x y)) := by
  obtain ⟨b, hb⟩ : ∃ b, b = 0 + (recordsAll B).length := ⟨_, rfl⟩
  obtain ⟨c, hc⟩ : ∃ c, c = b + 1 + (recordsAll S).length := ⟨_, rfl⟩
  obtain ⟨e, he⟩ : ∃ e, e = b + (Node.folder g S f).records.length := ⟨_, rfl⟩
  have hX : numberAll b (.folder g S f :: A) = .folder (b, g) (numberAll (b + 1) S) (c, f) :: numberAll e A := by rw [hc, he]; rfl
  have hall := number_nodup (B ++ .folder g S f :: A) 0
  rw [numberAll_app, ← hb, hX] at hall
  rw [typed_app] at hw
  have tB := numberAll_typed_snd B 0 hw.1
  have tX := numberAll_typed_snd (.folder g S f :: A) b hw.2
  rw [hX] at tX
  have tX' := tX
  simp only [WellTypedAll, Node.WellTyped] at tX'
  have hl : (recordsAll (numberAll 0 B ++ .folder (b, g) (numberAll (b + 1) S) (c, f) :: numberAll e A)).map Prod.snd = recordsAll (B ++ .folder g S f :: A) := by
    rw [← hX]
    simp only [recordsAll_app, List.map_append, numberAll_layers]
  have hl' : (recordsAll (numberAll 0 B ++ (numberAll (b + 1) S ++ numberAll e A))).map Prod.snd = recordsAll (B ++ (S ++ A)) := by
    simp only [recordsAll_app, List.map_append, numberAll_layers]
  have hsub : (recordsAll (numberAll 0 B ++ (numberAll (b + 1) S ++ numberAll e A))).Sublist (recordsAll (numberAll 0 B ++ .folder (b, g) (numberAll (b + 1) S) (c, f) :: numberAll e A)) := by
    simp only [recordsAll_app, recordsAll, Node.records]
    refine (List.Sublist.refl _).append ?_
    rw [List.cons_append, List.append_assoc]
    exact List.Sublist.cons _ ((List.Sublist.refl _).append (List.sublist_append_right _ _))
  rw [← hl] at hf h
  rw [← hl'] at hf' h'
  refine edited_pair (R := R) (by rw [typed_app]; exact ⟨tB, tX⟩) (by simp only [typed_app]; exact ⟨tB, tX'.1.2.2, tX'.2⟩) hall (List.Nodup.sublist (hsub.map _) hall) (fun p hp => ⟨_, hsub.subset hp, .refl _⟩)
    hf hf' h h' hx hy hpt hpt' fun pic mask n hlook hn hu hkm hbare => ?_
  simp only [keyedDoc_append, keyedDoc_folder] at hn hu hkm hbare ⊢
  refine main (b + 1) c e pic mask n tX'.1.2.1 (fun p hp => (hlook p ?_).1) ?_ hn hu hkm hbare
  · rw [recordsAll_app]
    exact List.mem_append_left _ hp
  · refine PixelIs_none (colour_folder tX'.1.2.1) (hlook (c, f) ?_).1
    simp [recordsAll_app, recordsAll, Node.records]

/-- **C118** (in part), for files. A well-formed 8-bit RGB file has a pass-through folder that is visible, at full opacity, without a mask and no clipping layer. The other file has the layers of the
folder in its place. At a pixel where the bottom layer is opaque, an ordinary one in normal mode, every first picture of the one file is that of the other.

Missing: translucent pixels (`C118_changes_translucent_pixels`). -/
theorem C118_dissolve_in_files_partial {d d' : Doc} {B S A : List (Node Layer)} {l g f : Layer} (hw : WellTypedAll Layer.kind (.layer l :: B ++ .folder g S f :: A))
    (hf : d.RgbFile (recordsAll (.layer l :: B ++ .folder g S f :: A))) (hf' : d'.RgbFile (recordsAll (.layer l :: B ++ (S ++ A)))) (hl : l.Plain) (ht : f.Transit)
    (hS : ∀ k ∈ S.head?, k.own.clipping = 0) (hA : ∀ k ∈ A.head?, k.own.clipping = 0)
    {ts : Nat} {visited visited' : List TPt} {picture picture' : TPt → Tile} (h : FirstPicture d (recordsAll (.layer l :: B ++ .folder g S f :: A)) ts visited picture)
    (h' : FirstPicture d' (recordsAll (.layer l :: B ++ (S ++ A))) ts visited' picture') {x y : Int} (hx : 0 ≤ x) (hy : 0 ≤ y) (hpt : tilePt ts x y ∈ visited) (hpt' : tilePt ts x y ∈ visited')
    {q : Px} (hq : l.colour x y = some q) (ha : q.a = 255) : picture (tilePt ts x y) (tileIx ts x y) = picture' (tilePt ts x y) (tileIx ts x y) := by
  refine dissolved_pair (R := Eq) hw hf hf' h h' hx hy hpt hpt' fun b c e pic mask n hk hlook _ hn hu hkm hbare => ?_
  have hX : numberAll 0 (.layer l :: B) = .layer (0, l) :: numberAll 1 B := by simp [numberAll, Node.number, Node.records]
  rw [hX, keyedDoc_layer] at hn hu hkm hbare ⊢
  have hpic : pic ((0 : Nat) : Int) = some q := PixelIs_some (hlook (0, l) (by rw [hX]; simp [recordsAll, Node.records])) hq
  exact C118_dissolve_partial id _ n _ _ _ _ _ hn hu hkm (solid_of_plain hl 0) (by show decide (l.clipping ≠ 0) = false; rw [hl.clipping]; rfl) (transit_layer hk ht c) (keyed_head hS b) (keyed_head hA e)
    _ _ hbare (0, 0) 0 (fun _ => q) (by rw [flatCanvas_get]; show (pic ((0 : Nat) : Int)).map _ = _; rw [hpic]; rfl) ha (2 * n) (Nat.le_refl _) false false [(0, 0)] (by simp) _

/-- **C118** (in part), for files: with and without the folder, every pixel is as opaque. -/
theorem C118_dissolve_keeps_opacity_in_files {d d' : Doc} {B S A : List (Node Layer)} {g f : Layer} (hw : WellTypedAll Layer.kind (B ++ .folder g S f :: A))
    (hf : d.RgbFile (recordsAll (B ++ .folder g S f :: A))) (hf' : d'.RgbFile (recordsAll (B ++ (S ++ A)))) (ht : f.Transit)
    (hS : ∀ k ∈ S.head?, k.own.clipping = 0) (hA : ∀ k ∈ A.head?, k.own.clipping = 0)
    {ts : Nat} {visited visited' : List TPt} {picture picture' : TPt → Tile} (h : FirstPicture d (recordsAll (B ++ .folder g S f :: A)) ts visited picture)
    (h' : FirstPicture d' (recordsAll (B ++ (S ++ A))) ts visited' picture') {x y : Int} (hx : 0 ≤ x) (hy : 0 ≤ y) (hpt : tilePt ts x y ∈ visited) (hpt' : tilePt ts x y ∈ visited') :
    (picture (tilePt ts x y) (tileIx ts x y)).a = (picture' (tilePt ts x y) (tileIx ts x y)).a := by
  refine dissolved_pair (R := fun p q => p.a = q.a) hw hf hf' h h' hx hy hpt hpt' fun b c e pic mask n hk _ hnone hn hu hkm _ => ?_
  obtain ⟨st, st', D, D', e1, e2, e3⟩ := C118_dissolve_keeps_opacity id _ n _ _ _ _ hn hu hkm (transit_layer hk ht c) (keyed_head hS b) (keyed_head hA e) (flatCanvas (0, 0) pic) (flatMask (0, 0) mask)
    (by show (pic c).map _ = none; rw [hnone]; rfl) (2 * n) (Nat.le_refl _) false false [(0, 0)] (by simp) (fun _ => tileOps.blank)
  exact ⟨st, st', D, D', e1, e2, e3 _ _⟩

/-! ### C84 -/

theorem keyed_node (n : Node Layer) (i : Nat) (G : List (Node (Nat × Layer))) : ∃ k sub, keyedDoc (n.number i :: G) = .node (layerFull 3 8 k n.own) sub :: keyedDoc G := by
  cases n with
  | layer l => exact ⟨i, [], keyedDoc_layer _ _⟩
  | folder d S l => exact ⟨_, _, keyedDoc_folder _ _ _ _⟩

theorem keyed_clips : ∀ {F : List (Node Layer)} (_ : ∀ k ∈ F, k.own.clipping ≠ 0) (i : Nat), ∀ k ∈ keyedDoc (numberAll i F), k.isClipping = true
  | [], _, _ => fun k hk => by cases hk
  | n :: F, h, i => fun k hk => by
    simp only [numberAll] at hk
    obtain ⟨j, sub, e⟩ := keyed_node n i (numberAll (i + n.records.length) F)
    rw [e] at hk
    rcases List.mem_cons.1 hk with rfl | hk
    · have := h n List.mem_cons_self
      show decide (n.own.clipping ≠ 0) = true
      simpa using this
    · exact keyed_clips (fun k hk => h k (List.mem_cons_of_mem _ hk)) _ k hk

theorem hidden_keyed {F F' : List (Node Layer)} (h : Spec.WithoutHiddenLayers F F') : ∀ i, WellTypedAll Layer.kind F → ∃ G', mapAll Prod.snd G' = F' ∧
    WithoutHidden (keyedDoc (numberAll i F)) (keyedDoc G') ∧ (recordsAll G').Sublist (recordsAll (numberAll i F)) ∧ WellTypedAll (fun p => p.2.kind) G' := by
  induction h with
  | nil => exact fun i _ => ⟨[], rfl, .nil, List.Sublist.refl _, trivial⟩
  | layer l rest rest' _ ih =>
    intro i hw
    simp only [WellTypedAll] at hw
    obtain ⟨G', g1, g2, g3, g4⟩ := ih (i + 1) hw.2
    have e : numberAll i (.layer l :: rest) = .layer (i, l) :: numberAll (i + 1) rest := by simp [numberAll, Node.number, Node.records]
    refine ⟨.layer (i, l) :: G', by simp [mapAll, Node.map, g1], ?_, ?_, ?_⟩
    · rw [e, keyedDoc_layer, keyedDoc_layer]
      exact .keep _ _ _ _ _ .nil g2
    · rw [e]
      simp only [recordsAll]
      exact (List.Sublist.refl _).append g3
    · simp only [WellTypedAll, Node.WellTyped] at hw ⊢
      exact ⟨hw.1, g4⟩
  | folder d l sub sub' rest rest' _ _ ih1 ih2 =>
    intro i hw
    simp only [WellTypedAll, Node.WellTyped] at hw
    obtain ⟨G1, a1, a2, a3, a4⟩ := ih1 (i + 1) hw.1.2.2
    obtain ⟨G2, b1, b2, b3, b4⟩ := ih2 (i + (Node.folder d sub l).records.length) hw.2
    have e : numberAll i (.folder d sub l :: rest) = .folder (i, d) (numberAll (i + 1) sub) (i + 1 + (recordsAll sub).length, l) :: numberAll (i + (Node.folder d sub l).records.length) rest := by
      simp only [numberAll, Node.number]
    refine ⟨.folder (i, d) G1 (i + 1 + (recordsAll sub).length, l) :: G2, by simp [mapAll, Node.map, a1, b1], ?_, ?_, ?_⟩
    · rw [e, keyedDoc_folder, keyedDoc_folder]
      exact .keep _ _ _ _ _ a2 b2
    · rw [e]
      simp only [recordsAll, Node.records]
      exact (List.Sublist.cons_cons _ (a3.append (List.Sublist.refl _))).append b3
    · simp only [WellTypedAll, Node.WellTyped]
      exact ⟨⟨hw.1.1, hw.1.2.1, a4⟩, b4⟩
  | drop n above over over' h1 h2 h3 h4 _ ih =>
    intro i hw
    simp only [WellTypedAll, typed_app] at hw
    obtain ⟨G', g1, g2, g3, g4⟩ := ih (i + n.records.length + (recordsAll above).length) hw.2.2
    have e : numberAll i (n :: (above ++ over)) = n.number i :: (numberAll (i + n.records.length) above ++ numberAll (i + n.records.length + (recordsAll above).length) over) := by
      simp only [numberAll, numberAll_app]
    obtain ⟨k, sub, e2⟩ := keyed_node n i (numberAll (i + n.records.length) above ++ numberAll (i + n.records.length + (recordsAll above).length) over)
    refine ⟨G', g1, ?_, ?_, g4⟩
    · rw [e, e2, keyedDoc_append]
      refine .drop _ _ _ _ _ ?_ ?_ (keyed_clips h3 _) (keyed_head h4 _) g2
      · show decide (n.own.clipping ≠ 0) = false
        rw [h1]; rfl
      · rcases h2 with h2 | h2
        · left
          have g : (layerFull 3 8 k n.own).visible = true ↔ n.own.flags.toNat / 2 % 2 = 0 := flag_bit n.own.flags
          rw [Bool.eq_false_iff]
          intro hv
          rw [g] at hv
          omega
        · exact .inr h2
    · rw [e]
      simp only [recordsAll, recordsAll_app]
      exact (g3.trans (List.sublist_append_right _ _)).trans (List.sublist_append_right _ _)

/-- **C84** (in part), for files. A well-formed 8-bit RGB file has hidden layers or folders, and another is the same without some of them, and without the layers clipped to them: at every pixel, every first
picture of the one file is that of the other.

Missing: hidden clipping layers (`C84_hidden_clip_changes_pixels`). -/
theorem C84_hidden_in_files_partial {d d' : Doc} {F F' : List (Node Layer)} (hh : Spec.WithoutHiddenLayers F F') (hw : WellTypedAll Layer.kind F) (hf : d.RgbFile (recordsAll F)) (hf' : d'.RgbFile (recordsAll F'))
    {ts : Nat} {visited visited' : List TPt} {picture picture' : TPt → Tile} (h : FirstPicture d (recordsAll F) ts visited picture) (h' : FirstPicture d' (recordsAll F') ts visited' picture')
    {x y : Int} (hx : 0 ≤ x) (hy : 0 ≤ y) (hpt : tilePt ts x y ∈ visited) (hpt' : tilePt ts x y ∈ visited') :
    picture (tilePt ts x y) (tileIx ts x y) = picture' (tilePt ts x y) (tileIx ts x y) := by
  obtain ⟨G', g1, g2, g3, g4⟩ := hidden_keyed hh 0 hw
  have hl' : (recordsAll G').map Prod.snd = recordsAll F' := by rw [← g1, recordsAll_mapped]
  rw [← numberAll_layers F 0] at hf h
  rw [← hl'] at hf' h'
  refine edited_pair (R := Eq) (numberAll_typed_snd F 0 hw) g4 (number_nodup F 0) (List.Nodup.sublist (g3.map _) (number_nodup F 0)) (fun p hp => ⟨_, g3.subset hp, .refl _⟩)
    hf hf' h h' hx hy hpt hpt' fun pic mask n hlook hn hu hkm hbare => ?_
  obtain ⟨st, st', D, e1, e2⟩ := C84_hidden_leaves_no_trace_partial id (fun _ => none) n _ _ hn hu hkm g2 (flatCanvas (0, 0) pic) (flatMask (0, 0) mask) hbare (2 * n) (Nat.le_refl _) false false [(0, 0)] (by simp)
    (fun _ => tileOps.blank)
  exact ⟨st, st', D, D, e1, e2, rfl⟩

/-! ### C85 -/

mutual
theorem clips_node : ∀ (n : Node Layer) (i : Nat), n.WellTyped Layer.kind → ∃ m : Node (Nat × Layer), m.map Prod.snd = n.withoutClips ∧ m.WellTyped (fun p => p.2.kind) ∧ m.records.Sublist (n.number i).records ∧
    ∀ G G', WithoutClipping (keyedDoc G) (keyedDoc G') → (n.own.clipping = 0 → WithoutClipping (keyedDoc (n.number i :: G)) (keyedDoc (m :: G'))) ∧
      (n.own.clipping ≠ 0 → WithoutClipping (keyedDoc (n.number i :: G)) (keyedDoc G'))
  | .layer l, i, h => by
    refine ⟨.layer (i, l), by simp [Node.map, Node.withoutClips], by simpa only [Node.WellTyped] using h, List.Sublist.refl _, fun G G' hg => ⟨fun hc => ?_, fun hc => ?_⟩⟩
    · simp only [Node.number, keyedDoc_layer]
      exact .keep _ _ _ _ _ (by have hc : l.clipping = 0 := hc; show decide (l.clipping ≠ 0) = false; rw [hc]; rfl) .nil hg
    · simp only [Node.number, keyedDoc_layer]
      exact .drop _ _ _ _ (by have hc : l.clipping ≠ 0 := hc; show decide (l.clipping ≠ 0) = true; simpa using hc) hg
  | .folder d kids l, i, h => by
    simp only [Node.WellTyped] at h
    obtain ⟨K, k1, k2, k3, k4⟩ := clips_all kids (i + 1) h.2.2
    refine ⟨.folder (i, d) K (i + 1 + (recordsAll kids).length, l), by simp [Node.map, Node.withoutClips, k1], by simp only [Node.WellTyped]; exact ⟨h.1, h.2.1, k2⟩, ?_, fun G G' hg => ⟨fun hc => ?_, fun hc => ?_⟩⟩
    · simp only [Node.records, Node.number]
      exact List.Sublist.cons_cons _ (k3.append (List.Sublist.refl _))
    · simp only [Node.number, keyedDoc_folder]
      exact .keep _ _ _ _ _ (by have hc : l.clipping = 0 := hc; show decide (l.clipping ≠ 0) = false; rw [hc]; rfl) k4 hg
    · simp only [Node.number, keyedDoc_folder]
      exact .drop _ _ _ _ (by have hc : l.clipping ≠ 0 := hc; show decide (l.clipping ≠ 0) = true; simpa using hc) hg

theorem clips_all : ∀ (F : List (Node Layer)) (i : Nat), WellTypedAll Layer.kind F → ∃ G', mapAll Prod.snd G' = Spec.withoutClips F ∧ WellTypedAll (fun p => p.2.kind) G' ∧
    (recordsAll G').Sublist (recordsAll (numberAll i F)) ∧ WithoutClipping (keyedDoc (numberAll i F)) (keyedDoc G')
  | [], i, _ => ⟨[], rfl, trivial, List.Sublist.refl _, .nil⟩
  | n :: F, i, h => by
    simp only [WellTypedAll] at h
    obtain ⟨m, m1, m2, m3, m4⟩ := clips_node n i h.1
    obtain ⟨G', g1, g2, g3, g4⟩ := clips_all F (i + n.records.length) h.2
    simp only [numberAll, Spec.withoutClips, recordsAll]
    by_cases hc : n.own.clipping = 0
    · refine ⟨m :: G', ?_, ?_, ?_, (m4 _ _ g4).1 hc⟩
      · rw [if_pos hc]
        simp [mapAll, m1, g1]
      · simp only [WellTypedAll]
        exact ⟨m2, g2⟩
      · simp only [recordsAll]
        exact m3.append g3
    · refine ⟨G', ?_, g2, g3.trans (List.sublist_append_right _ _), (m4 _ _ g4).2 hc⟩
      rw [if_neg hc, g1]
end

/-- **C85**, for files. The pictures of a well-formed 8-bit RGB file and of the file without its clipping layers are as opaque as each other at every pixel. -/
theorem C85_clipping_in_files {d d' : Doc} {F : List (Node Layer)} (hw : WellTypedAll Layer.kind F) (hf : d.RgbFile (recordsAll F)) (hf' : d'.RgbFile (recordsAll (Spec.withoutClips F)))
    {ts : Nat} {visited visited' : List TPt} {picture picture' : TPt → Tile} (h : FirstPicture d (recordsAll F) ts visited picture)
    (h' : FirstPicture d' (recordsAll (Spec.withoutClips F)) ts visited' picture') {x y : Int} (hx : 0 ≤ x) (hy : 0 ≤ y) (hpt : tilePt ts x y ∈ visited) (hpt' : tilePt ts x y ∈ visited') :
    (picture (tilePt ts x y) (tileIx ts x y)).a = (picture' (tilePt ts x y) (tileIx ts x y)).a := by
  obtain ⟨G', g1, g4, g3, g2⟩ := clips_all F 0 hw
  have hl' : (recordsAll G').map Prod.snd = recordsAll (Spec.withoutClips F) := by rw [← g1, recordsAll_mapped]
  rw [← numberAll_layers F 0] at hf h
  rw [← hl'] at hf' h'
  refine edited_pair (R := fun p q => p.a = q.a) (numberAll_typed_snd F 0 hw) g4 (number_nodup F 0) (List.Nodup.sublist (g3.map _) (number_nodup F 0)) (fun p hp => ⟨_, g3.subset hp, .refl _⟩)
    hf hf' h h' hx hy hpt hpt' fun pic mask n hlook hn hu hkm hbare => ?_
  obtain ⟨st, st', D, D', e1, e2, e3⟩ := C85_clipping_keeps_transparency id (fun _ => none) n _ _ hn hu hkm g2 (flatCanvas (0, 0) pic) (flatMask (0, 0) mask) hbare (2 * n) (Nat.le_refl _) false false [(0, 0)]
    (by simp) (fun _ => tileOps.blank)
  exact ⟨st, st', D, D', e1, e2, e3 _ _⟩

/-! ### C86 -/

theorem unblended_keyed {F F' : List (Node Layer)} (h : Spec.WithoutUnblendedLayers F F') : ∀ i, WellTypedAll Layer.kind F → ∃ G', mapAll Prod.snd G' = F' ∧
    WithoutUnblended (keyedDoc (numberAll i F)) (keyedDoc G') ∧ (recordsAll G').Sublist (recordsAll (numberAll i F)) ∧ WellTypedAll (fun p => p.2.kind) G' := by
  have clip : ∀ (k : Nat) (l : Layer), l.clipping = 0 → (layerFull 3 8 k l).clipping = false := fun k l h => by
    show decide (l.clipping ≠ 0) = false
    rw [h]; rfl
  induction h with
  | nil => exact fun i _ => ⟨[], rfl, .nil, List.Sublist.refl _, trivial⟩
  | layer l rest rest' _ ih =>
    intro i hw
    simp only [WellTypedAll] at hw
    obtain ⟨G', g1, g2, g3, g4⟩ := ih (i + 1) hw.2
    have e : numberAll i (.layer l :: rest) = .layer (i, l) :: numberAll (i + 1) rest := by simp [numberAll, Node.number, Node.records]
    refine ⟨.layer (i, l) :: G', by simp [mapAll, Node.map, g1], ?_, ?_, ?_⟩
    · rw [e, keyedDoc_layer, keyedDoc_layer]
      exact .keep _ _ _ _ _ .nil g2
    · rw [e]
      simp only [recordsAll]
      exact (List.Sublist.refl _).append g3
    · simp only [WellTypedAll, Node.WellTyped] at hw ⊢
      exact ⟨hw.1, g4⟩
  | folder d l sub sub' rest rest' _ _ ih1 ih2 =>
    intro i hw
    simp only [WellTypedAll, Node.WellTyped] at hw
    obtain ⟨G1, a1, a2, a3, a4⟩ := ih1 (i + 1) hw.1.2.2
    obtain ⟨G2, b1, b2, b3, b4⟩ := ih2 (i + (Node.folder d sub l).records.length) hw.2
    have e : numberAll i (.folder d sub l :: rest) = .folder (i, d) (numberAll (i + 1) sub) (i + 1 + (recordsAll sub).length, l) :: numberAll (i + (Node.folder d sub l).records.length) rest := by
      simp only [numberAll, Node.number]
    refine ⟨.folder (i, d) G1 (i + 1 + (recordsAll sub).length, l) :: G2, by simp [mapAll, Node.map, a1, b1], ?_, ?_, ?_⟩
    · rw [e, keyedDoc_folder, keyedDoc_folder]
      exact .keep _ _ _ _ _ a2 b2
    · rw [e]
      simp only [recordsAll, Node.records]
      exact (List.Sublist.cons_cons _ (a3.append (List.Sublist.refl _))).append b3
    · simp only [WellTypedAll, Node.WellTyped]
      exact ⟨⟨hw.1.1, hw.1.2.1, a4⟩, b4⟩
  | drop l above over over' h1 h2 h3 h4 _ ih =>
    intro i hw
    simp only [WellTypedAll, typed_app] at hw
    obtain ⟨G', g1, g2, g3, g4⟩ := ih (i + 1 + (recordsAll above).length) hw.2.2
    have e : numberAll i (.layer l :: (above ++ over)) = .layer (i, l) :: (numberAll (i + 1) above ++ numberAll (i + 1 + (recordsAll above).length) over) := by
      simp [numberAll, numberAll_app, Node.number, Node.records]
    refine ⟨.layer (i, l) :: G', by simp [mapAll, Node.map, g1], ?_, ?_, ?_⟩
    · rw [e, keyedDoc_layer, keyedDoc_layer, keyedDoc_append]
      exact .drop _ _ _ _ _ _ (clip _ _ h1) h2 (keyed_clips h3 _) (keyed_head h4 _) .nil g2
    · rw [e]
      simp only [recordsAll, recordsAll_app]
      exact (List.Sublist.refl _).append (g3.trans (List.sublist_append_right _ _))
    · simp only [WellTypedAll, Node.WellTyped] at hw ⊢
      exact ⟨hw.1, g4⟩
  | drop_folder d l sub sub' above over over' h1 h2 h3 h4 _ _ ih1 ih2 =>
    intro i hw
    simp only [WellTypedAll, typed_app, Node.WellTyped] at hw
    obtain ⟨G1, a1, a2, a3, a4⟩ := ih1 (i + 1) hw.1.2.2
    obtain ⟨G', g1, g2, g3, g4⟩ := ih2 (i + (Node.folder d sub l).records.length + (recordsAll above).length) hw.2.2
    have e : numberAll i (.folder d sub l :: (above ++ over)) = .folder (i, d) (numberAll (i + 1) sub) (i + 1 + (recordsAll sub).length, l) ::
        (numberAll (i + (Node.folder d sub l).records.length) above ++ numberAll (i + (Node.folder d sub l).records.length + (recordsAll above).length) over) := by
      simp only [numberAll, Node.number, numberAll_app]
    refine ⟨.folder (i, d) G1 (i + 1 + (recordsAll sub).length, l) :: G', by simp [mapAll, Node.map, a1, g1], ?_, ?_, ?_⟩
    · rw [e, keyedDoc_folder, keyedDoc_folder, keyedDoc_append]
      exact .drop _ _ _ _ _ _ (clip _ _ h1) h2 (keyed_clips h3 _) (keyed_head h4 _) a2 g2
    · rw [e]
      simp only [recordsAll, recordsAll_app, Node.records]
      exact (List.Sublist.cons_cons _ (a3.append (List.Sublist.refl _))).append (g3.trans (List.sublist_append_right _ _))
    · simp only [WellTypedAll, Node.WellTyped]
      exact ⟨⟨hw.1.1, hw.1.2.1, a4⟩, g4⟩

/-- C86 is false of files in which a layer's "Blend Clipped Layers as Group" is off: the layers clipped to it are not seen at all, at every pixel every first picture is that of the file without them. -/
theorem C86_unblended_clips_in_files {d d' : Doc} {F F' : List (Node Layer)} (hh : Spec.WithoutUnblendedLayers F F') (hw : WellTypedAll Layer.kind F) (hf : d.RgbFile (recordsAll F)) (hf' : d'.RgbFile (recordsAll F'))
    {ts : Nat} {visited visited' : List TPt} {picture picture' : TPt → Tile} (h : FirstPicture d (recordsAll F) ts visited picture) (h' : FirstPicture d' (recordsAll F') ts visited' picture')
    {x y : Int} (hx : 0 ≤ x) (hy : 0 ≤ y) (hpt : tilePt ts x y ∈ visited) (hpt' : tilePt ts x y ∈ visited') :
    picture (tilePt ts x y) (tileIx ts x y) = picture' (tilePt ts x y) (tileIx ts x y) := by
  obtain ⟨G', g1, g2, g3, g4⟩ := unblended_keyed hh 0 hw
  have hl' : (recordsAll G').map Prod.snd = recordsAll F' := by rw [← g1, recordsAll_mapped]
  rw [← numberAll_layers F 0] at hf h
  rw [← hl'] at hf' h'
  refine edited_pair (R := Eq) (numberAll_typed_snd F 0 hw) g4 (number_nodup F 0) (List.Nodup.sublist (g3.map _) (number_nodup F 0)) (fun p hp => ⟨_, g3.subset hp, .refl _⟩)
    hf hf' h h' hx hy hpt hpt' fun pic mask n hlook hn hu hkm hbare => ?_
  obtain ⟨st, st', D, e1, e2⟩ := C86_unblended_clips_vanish id (fun _ => none) n _ _ hn hu hkm g2 (flatCanvas (0, 0) pic) (flatMask (0, 0) mask) hbare (2 * n) (Nat.le_refl _) false false [(0, 0)] (by simp)
    (fun _ => tileOps.blank)
  exact ⟨st, st', D, D, e1, e2, rfl⟩

/-- **C86** (in part), for files. In a well-formed 8-bit RGB file the layer `c` is clipped to the layer `l`, whose "Blend Clipped Layers as Group" is on, with other clipping layers below (`M`) and above
(`T`) it. Both are ordinary layers in normal mode, visible, at full opacity and without masks. Where both are opaque, every first picture is that of the file in which `c` is the lowest
layer and not a clipping one, with the same layers above it, which are clipped to it now: its own "Blend Clipped Layers as Group" is on too.

Missing: layers with "Blend Clipped Layers as Group" off (`C86_unblended_clips_in_files`). -/
theorem C86_clip_covers_in_files_partial {d d' : Doc} {B M T O : List (Node Layer)} {l c : Layer} (hw : WellTypedAll Layer.kind (B ++ .layer l :: (M ++ .layer c :: (T ++ O))))
    (hf : d.RgbFile (recordsAll (B ++ .layer l :: (M ++ .layer c :: (T ++ O))))) (hf' : d'.RgbFile (recordsAll (.layer { c with clipping := 0 } :: (T ++ O))))
    (hl : l.Plain) (hbce : l.clbl.getD true = true) (hcb : c.clbl.getD true = true) (hcc : c.clipping ≠ 0) (hc : ({ c with clipping := 0 } : Layer).Plain) (hM : ∀ k ∈ M, k.own.clipping ≠ 0) (hT : ∀ k ∈ T, k.own.clipping ≠ 0)
    (hO : ∀ k ∈ O.head?, k.own.clipping = 0)
    {ts : Nat} {visited visited' : List TPt} {picture picture' : TPt → Tile} (h : FirstPicture d (recordsAll (B ++ .layer l :: (M ++ .layer c :: (T ++ O)))) ts visited picture)
    (h' : FirstPicture d' (recordsAll (.layer { c with clipping := 0 } :: (T ++ O))) ts visited' picture') {x y : Int} (hx : 0 ≤ x) (hy : 0 ≤ y)
    (hpt : tilePt ts x y ∈ visited) (hpt' : tilePt ts x y ∈ visited') {p q : Px} (hp : l.colour x y = some p) (hpa : p.a = 255) (hq : c.colour x y = some q) (hqa : q.a = 255) :
    picture (tilePt ts x y) (tileIx ts x y) = picture' (tilePt ts x y) (tileIx ts x y) := by
  obtain ⟨b, hb⟩ : ∃ b, b = 0 + (recordsAll B).length := ⟨_, rfl⟩
  obtain ⟨e, he⟩ : ∃ e, e = b + 1 + (recordsAll M).length := ⟨_, rfl⟩
  obtain ⟨g, hg⟩ : ∃ g, g = e + 1 + (recordsAll T).length := ⟨_, rfl⟩
  have hX : numberAll 0 (B ++ .layer l :: (M ++ .layer c :: (T ++ O))) = numberAll 0 B ++ .layer (b, l) :: (numberAll (b + 1) M ++ .layer (e, c) :: (numberAll (e + 1) T ++ numberAll g O)) := by
    rw [hb, he, hg]
    simp [numberAll_app, numberAll, Node.number, Node.records, hb, he, Nat.add_assoc]
  have hall := number_nodup (B ++ .layer l :: (M ++ .layer c :: (T ++ O))) 0
  have hty := numberAll_typed_snd _ 0 hw
  have hlay := numberAll_layers (B ++ .layer l :: (M ++ .layer c :: (T ++ O))) 0
  rw [hX] at hall hty hlay
  obtain ⟨c', hc'⟩ : ∃ c' : Layer, ({ c with clipping := 0 } : Layer) = c' := ⟨_, rfl⟩
  rw [hc'] at hf' h'
  have hlay' : (recordsAll (.layer (e, c') :: (numberAll (e + 1) T ++ numberAll g O))).map Prod.snd = recordsAll (.layer c' :: (T ++ O)) := by
    simp [recordsAll, recordsAll_app, Node.records, numberAll_layers]
  have hsub : (recordsAll (.layer (e, c) :: (numberAll (e + 1) T ++ numberAll g O))).Sublist (recordsAll (numberAll 0 B ++ .layer (b, l) :: (numberAll (b + 1) M ++ .layer (e, c) :: (numberAll (e + 1) T ++ numberAll g O)))) := by
    simp only [recordsAll_app, recordsAll, Node.records]
    exact (((List.Sublist.refl _).trans (List.sublist_append_right _ _)).trans (List.sublist_append_right _ _)).trans (List.sublist_append_right _ _)
  have hkeys : ((recordsAll (.layer (e, c') :: (numberAll (e + 1) T ++ numberAll g O))).map Prod.fst) = (recordsAll (.layer (e, c) :: (numberAll (e + 1) T ++ numberAll g O))).map Prod.fst := by
    simp [recordsAll, Node.records]
  have hsame : c.SamePixels c' := by
    subst hc'
    exact ⟨fun _ _ => rfl, fun _ _ => rfl⟩
  have hty' : WellTypedAll (fun p : Nat × Layer => p.2.kind) (.layer (e, c') :: (numberAll (e + 1) T ++ numberAll g O)) := by
    simp only [WellTypedAll, typed_app, Node.WellTyped] at hty ⊢
    refine ⟨?_, hty.2.2.2.2⟩
    subst hc'
    exact hty.2.2.2.1
  rw [← hlay] at hf h
  rw [← hlay'] at hf' h'
  refine edited_pair (R := Eq) hty hty' hall (by rw [hkeys]; exact List.Nodup.sublist (hsub.map _) hall) (fun r hr => ?_)
    hf hf' h h' hx hy hpt hpt' fun pic mask n hlook hn hu hkm hbare => ?_
  · simp only [recordsAll, Node.records, List.singleton_append, List.mem_cons] at hr
    rcases hr with rfl | hr
    · exact ⟨c, hsub.subset (by simp [recordsAll, Node.records]), hsame⟩
    · exact ⟨r.2, hsub.subset (by simp [recordsAll, Node.records, hr]), .refl _⟩
  · have pb : pic b = some p := PixelIs_some (hlook (b, l) (by simp [recordsAll_app, recordsAll, Node.records])).1 hp
    have pc : pic e = some q := PixelIs_some (hlook (e, c) (by simp [recordsAll_app, recordsAll, Node.records])).1 hq
    simp only [keyedDoc_append, keyedDoc_layer] at hn hu hkm hbare ⊢
    have hs : (layerFull 3 8 e c).Solid := by
      have := solid_of_plain hc e
      exact ⟨this.layer, this.visible, this.opacity, this.mode, this.unmasked⟩
    obtain ⟨st, st', D, D', e1, e2, e3⟩ := C86_clip_covers_partial id (fun _ => none) n _ _ _ _ _ _ hn hu hkm (solid_of_plain hl b) hs (by show decide (l.clipping ≠ 0) = false; rw [hl.clipping]; rfl) (keyed_clips hM _)
      (by show decide (c.clipping ≠ 0) = true; simpa using hcc) (keyed_clips hT _) (keyed_head hO _) hbce (flatCanvas (0, 0) pic) (flatMask (0, 0) mask) hbare (0, 0) 0 (fun _ => p) (fun _ => q)
      (by rw [flatCanvas_get]; show (pic b).map _ = _; rw [pb]; rfl) hpa (by rw [flatCanvas_get]; show (pic e).map _ = _; rw [pc]; rfl) hqa (2 * n) (Nat.le_refl _) false false [(0, 0)] (by simp)
      (fun _ => tileOps.blank)
    refine ⟨st, st', D, D', e1, ?_, e3⟩
    rw [← e2]
    subst hc'
    have : layerFull 3 8 e { c with clipping := 0 } = { layerFull 3 8 e c with clipping := false, blendClippedElements := true } := by
      show ({ layerFull 3 8 e c with clipping := false, blendClippedElements := c.clbl.getD true } : LayerRec) = _
      rw [hcb]
    rw [this]

/-! ### Non-vacuity -/

/-- An opaque layer of two pixels, a half transparent one, an opaque one of the right pixel only, a pass-through folder, and some of them hidden or clipping. -/
def exOpaque : Layer := exGapUnder 255 0
def exHalf : Layer := exGapUnder 128 0
def exRight : Layer := exGapInner 0
def exTransit : Layer := { exFolder 1 with blend := ascii "pass" }
def exOff : Layer := { exGapUnder 128 0 with flags := 2 }
def exClip : Layer := { exGapInner 0 with clipping := 1 }
def exLoose : Layer := { exGapUnder 255 0 with clbl := some false, blocks := (exGapUnder 255 0).blocks ++ [⟨[56, 66, 73, 77], [99, 108, 98, 108], [0, 0, 0, 0], []⟩] }
def exFullClip : Layer := { exGapUnder 255 0 with clipping := 1, channels := [(0, .raw [1, 2] []), (1, .raw [3, 4] []), (2, .raw [5, 6] [])] }
def exFullBase : Layer := { exFullClip with clipping := 0 }
def exParts : List Layer := [exOpaque, exHalf, exRight, exTransit, exOff, exClip, exFolder 3, exLoose, exFullClip, exFullBase]

/-- A file with these layers. -/
def exPartDoc (F : List (Node Layer)) : Doc := { exGapDoc 128 0 with layerMask := some ⟨some { forest := F }, .none []⟩ }

theorem exPart_file {F : List (Node Layer)} (hv : (exPartDoc F).Valid) (hl : ∀ l ∈ recordsAll F, l ∈ exParts) : (exPartDoc F).RgbFile (recordsAll F) := by
  refine ⟨hv, rfl, rfl, ⟨_, rfl, rfl⟩, fun l h => ?_, fun l h => ?_, fun l h => ?_⟩
  all_goals
    have h := hl l h
    simp only [exParts, List.mem_cons, List.not_mem_nil, or_false] at h
  · rcases h with rfl | rfl | rfl | rfl | rfl | rfl | rfl | rfl | rfl | rfl <;> first | exact (fun _ _ _ => by decide) | exact fun h => absurd h (by decide)
  · unfold Layer.ModeKnown
    rcases h with rfl | rfl | rfl | rfl | rfl | rfl | rfl | rfl | rfl | rfl <;> first | (rw [if_neg (by decide)]; exact .inl ⟨.sep .normal, by decide⟩) | (rw [if_pos (by decide)]; exact .inr ⟨rfl, by decide⟩)
  · rcases h with rfl | rfl | rfl | rfl | rfl | rfl | rfl | rfl | rfl | rfl <;> exact fun h => absurd h (by decide)

/-- The file is well formed, can be read, and has pictures. -/
theorem exPart_picture {F : List (Node Layer)} (hv : (exPartDoc F).Valid) (hl : ∀ l ∈ recordsAll F, l ∈ exParts) (hr : exZipEnv.Reads (exPartDoc F)) (hn : (exPartDoc F).bytes.length < 2000) :
    (exPartDoc F).RgbFile (recordsAll F) ∧ ∃ p, FirstPicture (exPartDoc F) (recordsAll F) 64 [(0, 0)] p := by
  have front : PresentsFront (exPartDoc F) { data := (exPartDoc F).bytes } := Presents.front ⟨⟨[], by simp⟩, rfl, (by decide : ReadsAtLeast 3 []), by simp only; omega⟩
  exact ⟨exPart_file hv hl, first_picture hr (exPart_file hv hl) front (by omega) _ (by decide)⟩

/-- Two files with different layers below an opaque one, for `C87_covers_in_files`. -/
example : WellTypedAll Layer.kind ([.layer exHalf] ++ .layer exOpaque :: [.layer exRight]) ∧ WellTypedAll Layer.kind ([] ++ .layer exOpaque :: [.layer exRight]) ∧ exOpaque.Plain ∧
    (∃ q, exOpaque.colour 1 0 = some q ∧ q.a = 255) ∧ tilePt 64 1 0 ∈ [((0 : Int), (0 : Int))] ∧
    (∃ d, d.RgbFile (recordsAll ([.layer exHalf] ++ .layer exOpaque :: [.layer exRight])) ∧ ∃ p, FirstPicture d (recordsAll ([.layer exHalf] ++ .layer exOpaque :: [.layer exRight])) 64 [(0, 0)] p) ∧
    (∃ d, d.RgbFile (recordsAll ([] ++ .layer exOpaque :: [.layer exRight])) ∧ ∃ p, FirstPicture d (recordsAll ([] ++ .layer exOpaque :: [.layer exRight])) 64 [(0, 0)] p) :=
  ⟨by decide, by decide, ⟨by decide, by decide, by decide, by decide, by decide, by decide⟩, ⟨_, rfl, rfl⟩, by decide,
    ⟨_, exPart_picture (by decide +kernel) (by decide) (by decide +kernel) (by decide +kernel)⟩, ⟨_, exPart_picture (by decide +kernel) (by decide) (by decide +kernel) (by decide +kernel)⟩⟩

/-- Two files with two layers in either order, of which one has nothing at the left pixel; and the file without it: for the theorems of C121. -/
example : WellTypedAll Layer.kind ([.layer exOpaque] ++ ([.layer exRight] ++ ([.layer exHalf] ++ []))) ∧ (∀ l ∈ recordsAll [.layer exRight], l.blendKey ≠ ascii "pass" ∧ (l.clipping = 0 → l.colour 0 0 = none)) ∧
    exRight.colour 1 0 ≠ none ∧ tilePt 64 0 0 ∈ [((0 : Int), (0 : Int))] ∧
    (∃ d, d.RgbFile (recordsAll ([.layer exOpaque] ++ ([.layer exRight] ++ ([.layer exHalf] ++ [])))) ∧ ∃ p, FirstPicture d (recordsAll ([.layer exOpaque] ++ ([.layer exRight] ++ ([.layer exHalf] ++ [])))) 64 [(0, 0)] p) ∧
    (∃ d, d.RgbFile (recordsAll ([.layer exOpaque] ++ ([.layer exHalf] ++ ([.layer exRight] ++ [])))) ∧ ∃ p, FirstPicture d (recordsAll ([.layer exOpaque] ++ ([.layer exHalf] ++ ([.layer exRight] ++ [])))) 64 [(0, 0)] p) ∧
    (∃ d, d.RgbFile (recordsAll ([.layer exOpaque] ++ [.layer exHalf])) ∧ ∃ p, FirstPicture d (recordsAll ([.layer exOpaque] ++ [.layer exHalf])) 64 [(0, 0)] p) :=
  ⟨by decide, by decide, by decide, by decide, ⟨_, exPart_picture (by decide +kernel) (by decide) (by decide +kernel) (by decide +kernel)⟩,
    ⟨_, exPart_picture (by decide +kernel) (by decide) (by decide +kernel) (by decide +kernel)⟩, ⟨_, exPart_picture (by decide +kernel) (by decide) (by decide +kernel) (by decide +kernel)⟩⟩

/-- A file with a pass-through folder on an opaque layer, and the file with the layer of the folder in its place: for the theorems of C118. -/
example : WellTypedAll Layer.kind (.layer exOpaque :: [] ++ .folder (exFolder 3) [.layer exRight] exTransit :: [.layer exHalf]) ∧ exOpaque.Plain ∧ exTransit.Transit ∧
    (∃ q, exOpaque.colour 1 0 = some q ∧ q.a = 255) ∧
    (∃ d, d.RgbFile (recordsAll (.layer exOpaque :: [] ++ .folder (exFolder 3) [.layer exRight] exTransit :: [.layer exHalf])) ∧
      ∃ p, FirstPicture d (recordsAll (.layer exOpaque :: [] ++ .folder (exFolder 3) [.layer exRight] exTransit :: [.layer exHalf])) 64 [(0, 0)] p) ∧
    (∃ d, d.RgbFile (recordsAll (.layer exOpaque :: [] ++ ([.layer exRight] ++ [.layer exHalf]))) ∧ ∃ p, FirstPicture d (recordsAll (.layer exOpaque :: [] ++ ([.layer exRight] ++ [.layer exHalf]))) 64 [(0, 0)] p) :=
  ⟨by decide, ⟨by decide, by decide, by decide, by decide, by decide, by decide⟩, ⟨by decide, by decide, by decide, by decide, by decide⟩, ⟨_, rfl, rfl⟩,
    ⟨_, exPart_picture (by decide +kernel) (by decide) (by decide +kernel) (by decide +kernel)⟩, ⟨_, exPart_picture (by decide +kernel) (by decide) (by decide +kernel) (by decide +kernel)⟩⟩

/-- A file with a hidden layer to which one is clipped, and one in a folder; and the file without: for `C84_hidden_in_files_partial`. -/
example : Spec.WithoutHiddenLayers [.layer exOpaque, .layer exOff, .layer exClip, .folder (exFolder 3) [.layer exRight, .layer exOff] exTransit]
      [.layer exOpaque, .folder (exFolder 3) [.layer exRight] exTransit] ∧
    WellTypedAll Layer.kind [.layer exOpaque, .layer exOff, .layer exClip, .folder (exFolder 3) [.layer exRight, .layer exOff] exTransit] ∧
    (∃ d, d.RgbFile (recordsAll [.layer exOpaque, .layer exOff, .layer exClip, .folder (exFolder 3) [.layer exRight, .layer exOff] exTransit]) ∧
      ∃ p, FirstPicture d (recordsAll [.layer exOpaque, .layer exOff, .layer exClip, .folder (exFolder 3) [.layer exRight, .layer exOff] exTransit]) 64 [(0, 0)] p) ∧
    (∃ d, d.RgbFile (recordsAll [.layer exOpaque, .folder (exFolder 3) [.layer exRight] exTransit]) ∧ ∃ p, FirstPicture d (recordsAll [.layer exOpaque, .folder (exFolder 3) [.layer exRight] exTransit]) 64 [(0, 0)] p) :=
  ⟨.layer _ _ _ (.drop _ [.layer exClip] _ _ (by decide) (.inl (by decide)) (by decide) (by decide) (.folder _ _ _ _ _ _ (.layer _ _ _ (.drop _ [] [] _ (by decide) (.inl (by decide)) (by decide) (by decide) .nil)) .nil)),
    by decide, ⟨_, exPart_picture (by decide +kernel) (by decide) (by decide +kernel) (by decide +kernel)⟩, ⟨_, exPart_picture (by decide +kernel) (by decide) (by decide +kernel) (by decide +kernel)⟩⟩

/-- A file with clipping layers, one of them in a folder, and the file without them: for `C85_clipping_in_files`. -/
example : WellTypedAll Layer.kind [.layer exHalf, .layer exClip, .folder (exFolder 3) [.layer exRight, .layer exClip] exTransit] ∧
    Spec.withoutClips [.layer exHalf, .layer exClip, .folder (exFolder 3) [.layer exRight, .layer exClip] exTransit] = [.layer exHalf, .folder (exFolder 3) [.layer exRight] exTransit] ∧
    (∃ d, d.RgbFile (recordsAll [.layer exHalf, .layer exClip, .folder (exFolder 3) [.layer exRight, .layer exClip] exTransit]) ∧ ∃ p, FirstPicture d (recordsAll [.layer exHalf, .layer exClip, .folder (exFolder 3) [.layer exRight, .layer exClip] exTransit]) 64 [(0, 0)] p) ∧
    (∃ d, d.RgbFile (recordsAll (Spec.withoutClips [.layer exHalf, .layer exClip, .folder (exFolder 3) [.layer exRight, .layer exClip] exTransit])) ∧ ∃ p, FirstPicture d (recordsAll (Spec.withoutClips [.layer exHalf, .layer exClip, .folder (exFolder 3) [.layer exRight, .layer exClip] exTransit])) 64 [(0, 0)] p) :=
  ⟨by decide, rfl, ⟨_, exPart_picture (by decide +kernel) (by decide) (by decide +kernel) (by decide +kernel)⟩,
    ⟨_, exPart_picture (by decide +kernel) (by decide) (by decide +kernel) (by decide +kernel)⟩⟩

/-- A file with a layer clipped to one whose "Blend Clipped Layers as Group" is off, and the file without it: for `C86_unblended_clips_in_files`. -/
example : Spec.WithoutUnblendedLayers [.layer exLoose, .layer exFullClip, .layer exHalf] [.layer exLoose, .layer exHalf] ∧ WellTypedAll Layer.kind [.layer exLoose, .layer exFullClip, .layer exHalf] ∧
    (∃ d, d.RgbFile (recordsAll [.layer exLoose, .layer exFullClip, .layer exHalf]) ∧ ∃ p, FirstPicture d (recordsAll [.layer exLoose, .layer exFullClip, .layer exHalf]) 64 [(0, 0)] p) ∧
    (∃ d, d.RgbFile (recordsAll [.layer exLoose, .layer exHalf]) ∧ ∃ p, FirstPicture d (recordsAll [.layer exLoose, .layer exHalf]) 64 [(0, 0)] p) :=
  ⟨.drop _ [.layer exFullClip] _ _ (by decide) (by decide) (by decide) (by decide) (.layer _ _ _ .nil), by decide,
    ⟨_, exPart_picture (by decide +kernel) (by decide) (by decide +kernel) (by decide +kernel)⟩, ⟨_, exPart_picture (by decide +kernel) (by decide) (by decide +kernel) (by decide +kernel)⟩⟩

/-- A file with three layers clipped to an opaque one, of which the middle one is opaque, and the file with it as the lowest layer: for `C86_clip_covers_in_files_partial`. -/
example : WellTypedAll Layer.kind ([.layer exHalf] ++ .layer exOpaque :: ([.layer exClip] ++ .layer exFullClip :: ([.layer exClip] ++ [.layer exHalf]))) ∧ exOpaque.Plain ∧ exOpaque.clbl.getD true = true ∧ exFullClip.clbl.getD true = true ∧ exFullClip.clipping ≠ 0 ∧
    ({ exFullClip with clipping := 0 } : Layer).Plain ∧ (∃ q, exOpaque.colour 1 0 = some q ∧ q.a = 255) ∧ (∃ q, exFullClip.colour 1 0 = some q ∧ q.a = 255) ∧
    (∃ d, d.RgbFile (recordsAll ([.layer exHalf] ++ .layer exOpaque :: ([.layer exClip] ++ .layer exFullClip :: ([.layer exClip] ++ [.layer exHalf])))) ∧ ∃ p, FirstPicture d (recordsAll ([.layer exHalf] ++ .layer exOpaque :: ([.layer exClip] ++ .layer exFullClip :: ([.layer exClip] ++ [.layer exHalf])))) 64 [(0, 0)] p) ∧
    (∃ d, d.RgbFile (recordsAll (.layer { exFullClip with clipping := 0 } :: ([.layer exClip] ++ [.layer exHalf]))) ∧ ∃ p, FirstPicture d (recordsAll (.layer { exFullClip with clipping := 0 } :: ([.layer exClip] ++ [.layer exHalf]))) 64 [(0, 0)] p) :=
  ⟨by decide, ⟨by decide, by decide, by decide, by decide, by decide, by decide⟩, by decide, by decide, by decide, ⟨by decide, by decide, by decide, by decide, by decide, by decide⟩, ⟨_, rfl, rfl⟩, ⟨_, rfl, rfl⟩,
    ⟨_, exPart_picture (by decide +kernel) (by decide) (by decide +kernel) (by decide +kernel)⟩, ⟨_, exPart_picture (by decide +kernel) (by decide) (by decide +kernel) (by decide +kernel)⟩⟩

end Psd
