import Verif.Lemmas.Composed
import Verif.Props.Overlap

/-!
# C124: a folder shows what its contents look like; C118 and C121 in folders
-/

namespace Psd

/-! ### Documents and their parts -/

theorem InFolder.place {P : Type} {canvas : Int → Option P} {xs ys doc doc' : List (LTree LayerRec)} (h : InFolder canvas xs ys doc doc') :
    ∃ σ, (∀ π x, docAt xs π = some x → docAt doc (σ ++ π) = some x) ∧ ∀ π x, docAt ys π = some x → docAt doc' (σ ++ π) = some x := by
  induction h with
  | whole => exact ⟨[], fun _ _ e => e, fun _ _ e => e⟩
  | inside below above f sub sub' _ _ _ ih =>
    obtain ⟨σ, h1, h2⟩ := ih
    have key : ∀ (zs sub : List (LTree LayerRec)), (∀ π x, docAt zs π = some x → docAt sub (σ ++ π) = some x) → ∀ π x, docAt zs π = some x →
        docAt (below ++ .node f sub :: above) (below.length :: σ ++ π) = some x := by
      intro zs sub h π x e
      have g := h π x e
      rw [List.cons_append, show below.length = below.length + 0 from rfl, docAt_append]
      cases hσ : σ ++ π with
      | nil => rw [hσ] at g; cases g
      | cons j ρ => rw [hσ] at g; exact g
    exact ⟨below.length :: σ, key _ _ h1, key _ _ h2⟩

theorem UniqueDoc.part {xs doc : List (LTree LayerRec)} {σ : List Nat} (hu : UniqueDoc doc) (h : ∀ π x, docAt xs π = some x → docAt doc (σ ++ π) = some x) : UniqueDoc xs :=
  fun _ _ _ _ _ _ e e' hl => List.append_cancel_left (hu _ _ _ _ _ _ (h _ _ e) (h _ _ e') hl)

theorem KnownModes.part {xs doc : List (LTree LayerRec)} {σ : List Nat} (hk : KnownModes doc) (h : ∀ π x, docAt xs π = some x → docAt doc (σ ++ π) = some x) : KnownModes xs :=
  fun _ _ _ e => hk _ _ _ (h _ _ e)

/-! ### C124 -/

/-- What two documents show at a pixel at which they look the same. -/
theorem looks_shown (grow : Nat → Nat) (dec : List UInt8 → Option (List UInt8)) (n : Nat) (doc doc' : List (LTree LayerRec)) (hf : depthAll doc ≤ n) (hf' : depthAll doc' ≤ n)
    (hu : UniqueDoc doc) (hu' : UniqueDoc doc') (hk : KnownModes doc) (hk' : KnownModes doc') (canvas : Int → Option (List (TPt × Tile))) (mask : Int → List (TPt × (Nat → UInt8)))
    (pt : TPt) (i : Nat) (hl : LooksAlike dec (fun id => (canvas id).bind (·.lookup pt)) (fun id => (mask id).lookup pt) i doc doc')
    (fuel : Nat) (hfu : 2 * n ≤ fuel) (diff aborted : Bool) (visited : List TPt) (hnd : visited.Nodup) (dest : TPt → Tile) :
    ∃ st st' d d', render tileOps ⟨newTree grow dec n doc, rootPtr, canvas, mask⟩ fuel diff aborted visited .empty dest = .ok (st, d) ∧
      render tileOps ⟨newTree grow dec n doc', rootPtr, canvas, mask⟩ fuel diff aborted visited .empty dest = .ok (st', d') ∧ d pt i = d' pt i := by
  obtain ⟨st, d, e, h⟩ := C82_render_paints_the_layers grow dec n _ hf hu hk canvas mask fuel hfu diff aborted visited hnd dest
  obtain ⟨st', d', e', h'⟩ := C82_render_paints_the_layers grow dec n _ hf' hu' hk' canvas mask fuel hfu diff aborted visited hnd dest
  refine ⟨st, st', d, d', e, e', ?_⟩
  obtain ⟨t, r, h1, h2, h3⟩ := h pt
  obtain ⟨t', r', h1', h2', h3'⟩ := h' pt
  rw [h3, h3']
  split
  · exact tileShown_same (hl t t' r r' h1 h1' h2 h2') h2 h2' _ _
  · rfl

/-- **C124** A folder shows what its contents look like: if the layers `xs` and `ys`, painted on nothing, look the same at a pixel, then documents that have the ones or the others in a folder,
or in a folder in a folder and so on, are shown with the same colour there. The pixel may be translucent. -/
theorem C124_contents_painted (grow : Nat → Nat) (dec : List UInt8 → Option (List UInt8)) (n : Nat) (xs ys doc doc' : List (LTree LayerRec)) (hf : depthAll doc ≤ n) (hf' : depthAll doc' ≤ n)
    (hu : UniqueDoc doc) (hu' : UniqueDoc doc') (hk : KnownModes doc) (hk' : KnownModes doc') (canvas : Int → Option (List (TPt × Tile))) (mask : Int → List (TPt × (Nat → UInt8)))
    (hin : InFolder canvas xs ys doc doc') (pt : TPt) (i : Nat) (hl : LooksAlike dec (fun id => (canvas id).bind (·.lookup pt)) (fun id => (mask id).lookup pt) i xs ys)
    (fuel : Nat) (hfu : 2 * n ≤ fuel) (diff aborted : Bool) (visited : List TPt) (hnd : visited.Nodup) (dest : TPt → Tile) :
    ∃ st st' d d', render tileOps ⟨newTree grow dec n doc, rootPtr, canvas, mask⟩ fuel diff aborted visited .empty dest = .ok (st, d) ∧
      render tileOps ⟨newTree grow dec n doc', rootPtr, canvas, mask⟩ fuel diff aborted visited .empty dest = .ok (st', d') ∧ d pt i = d' pt i :=
  looks_shown grow dec n doc doc' hf hf' hu hu' hk hk' canvas mask pt i (hin.looks hl) fuel hfu diff aborted visited hnd dest

theorem shown_alpha {i : Nat} : ∀ {r : Bool × Tile} {t : Stk Tile (Nat → UInt8)} {old : Tile}, paint tileOps t false id tileOps.blank = .ok r → (tileShown tileOps old r i).a = (r.2 i).a := by
  rintro ⟨d, x⟩ t old e
  unfold tileShown
  cases d with
  | false =>
    rw [paint_idle _ _ _ _ _ e, if_neg (by simp), clear_px]
    rfl
  | true => rw [if_pos rfl, copy_alpha, copy_alpha]

/-- Copying twice loses nothing of a pixel that is opaque or fully transparent. -/
theorem shown_inv {r r' : Bool × Tile} {t t' : Stk Tile (Nat → UInt8)} {i : Nat} (e : paint tileOps t false id tileOps.blank = .ok r) (e' : paint tileOps t' false id tileOps.blank = .ok r')
    {old old' : Tile} (h : tileShown tileOps old r i = tileShown tileOps old' r' i) (ha : (tileShown tileOps old r i).a = 0 ∨ (tileShown tileOps old r i).a = 255) : (r.2 i).Same (r'.2 i) := by
  have exact_ : ∀ {r : Bool × Tile} {t : Stk Tile (Nat → UInt8)} {old : Tile}, paint tileOps t false id tileOps.blank = .ok r → (tileShown tileOps old r i).a = 255 →
      tileShown tileOps old r i = r.2 i := by
    rintro ⟨d, x⟩ t old e h
    have h' := (shown_alpha e).symm.trans h
    unfold tileShown at h ⊢
    cases d with
    | false =>
      rw [if_neg (by simp), clear_px] at h
      exact absurd h (by decide)
    | true => rw [if_pos rfl, copy_opaque (by rw [copy_alpha]; exact h'), copy_opaque h']
  rcases ha with ha | ha
  · exact .inr ⟨(shown_alpha e).symm.trans ha, (shown_alpha e').symm.trans (h ▸ ha)⟩
  · exact .inl ((exact_ e ha).symm.trans (h.trans (exact_ e' (h ▸ ha))))

/-- **C124** If the layers `xs` and `ys`, rendered as documents of their own, show the same colour at a pixel, opaque or fully transparent, then documents that have the ones or the others in a
folder, or in a folder in a folder and so on, are shown with the same colour there.

Missing: translucent pixels, which the pictures compared have lost some colour of (`C124_translucent_contents`), and pass-through folders, whose contents are not painted on nothing. -/
theorem C124_contents_partial (grow : Nat → Nat) (dec : List UInt8 → Option (List UInt8)) (n : Nat) (xs ys doc doc' : List (LTree LayerRec)) (hf : depthAll doc ≤ n) (hf' : depthAll doc' ≤ n)
    (hx : depthAll xs ≤ n) (hy : depthAll ys ≤ n)
    (hu : UniqueDoc doc) (hu' : UniqueDoc doc') (hk : KnownModes doc) (hk' : KnownModes doc') (canvas : Int → Option (List (TPt × Tile))) (mask : Int → List (TPt × (Nat → UInt8)))
    (hin : InFolder canvas xs ys doc doc') (pt : TPt) (i : Nat) (fuel : Nat) (hfu : 2 * n ≤ fuel) (dest : TPt → Tile) (st st' : RState Tile) (dx dy : TPt → Tile)
    (ex : render tileOps ⟨newTree grow dec n xs, rootPtr, canvas, mask⟩ fuel false false [pt] .empty dest = .ok (st, dx))
    (ey : render tileOps ⟨newTree grow dec n ys, rootPtr, canvas, mask⟩ fuel false false [pt] .empty dest = .ok (st', dy))
    (hxy : dx pt i = dy pt i) (ha : (dx pt i).a = 0 ∨ (dx pt i).a = 255) (diff aborted : Bool) (visited : List TPt) (hnd : visited.Nodup) :
    ∃ st st' d d', render tileOps ⟨newTree grow dec n doc, rootPtr, canvas, mask⟩ fuel diff aborted visited .empty dest = .ok (st, d) ∧
      render tileOps ⟨newTree grow dec n doc', rootPtr, canvas, mask⟩ fuel diff aborted visited .empty dest = .ok (st', d') ∧ d pt i = d' pt i := by
  obtain ⟨σ, p1, p2⟩ := hin.place
  obtain ⟨_, _, e, h⟩ := C82_render_paints_the_layers grow dec n xs hx (hu.part p1) (hk.part p1) canvas mask fuel hfu false false [pt] (by simp) dest
  obtain ⟨_, _, e', h'⟩ := C82_render_paints_the_layers grow dec n ys hy (hu'.part p2) (hk'.part p2) canvas mask fuel hfu false false [pt] (by simp) dest
  rw [ex] at e
  rw [ey] at e'
  simp only [Res.ok.injEq, Prod.mk.injEq] at e e'
  obtain ⟨-, rfl⟩ := e
  obtain ⟨-, rfl⟩ := e'
  obtain ⟨t, r, h1, h2, h3⟩ := h pt
  obtain ⟨t', r', h1', h2', h3'⟩ := h' pt
  rw [if_pos List.mem_cons_self] at h3 h3'
  rw [h3, h3'] at hxy
  rw [h3] at ha
  refine C124_contents_painted grow dec n xs ys doc doc' hf hf' hu hu' hk hk' canvas mask hin pt i ?_ fuel hfu diff aborted visited hnd dest
  intro u u' q q' k1 k1' k2 k2'
  obtain rfl := stack_unique _ _ _ h1 k1
  obtain rfl := stack_unique _ _ _ h1' k1'
  rw [h2] at k2
  rw [h2'] at k2'
  injection k2 with k2
  injection k2' with k2'
  subst k2 k2'
  exact shown_inv h2 h2' hxy ha

/-! ### C118 and C121 in folders -/

/-- **C118** Also a pass-through folder in a folder can be dissolved, at every pixel where the lowest layer in the outer folder is opaque. The outer folder and those it is in must not be
pass-through.

Missing: pixels at which what is below the folder is not opaque (`C118_changes_translucent_pixels`). -/
theorem C118_nested_partial (grow : Nat → Nat) (dec : List UInt8 → Option (List UInt8)) (n : Nat) (l f : LayerRec) (below sub above doc doc' : List (LTree LayerRec))
    (hf : depthAll doc ≤ n) (hf' : depthAll doc' ≤ n) (hu : UniqueDoc doc) (hu' : UniqueDoc doc') (hk : KnownModes doc) (hk' : KnownModes doc')
    (hl : l.Solid) (hcl : l.clipping = false) (ht : f.Transit)
    (hsub : ∀ k ∈ sub.head?, k.isClipping = false) (habove : ∀ k ∈ above.head?, k.isClipping = false)
    (canvas : Int → Option (List (TPt × Tile))) (mask : Int → List (TPt × (Nat → UInt8)))
    (hin : InFolder canvas (.node l [] :: below ++ .node f sub :: above) (.node l [] :: below ++ (sub ++ above)) doc doc') (hb : FoldersBare doc canvas)
    (pt : TPt) (i : Nat) (p : Tile) (hp : (canvas l.seqID).bind (·.lookup pt) = some p) (hpi : (p i).a = 255) (fuel : Nat) (hfu : 2 * n ≤ fuel) (diff aborted : Bool)
    (visited : List TPt) (hnd : visited.Nodup) (dest : TPt → Tile) :
    ∃ st st' d d', render tileOps ⟨newTree grow dec n doc, rootPtr, canvas, mask⟩ fuel diff aborted visited .empty dest = .ok (st, d) ∧
      render tileOps ⟨newTree grow dec n doc', rootPtr, canvas, mask⟩ fuel diff aborted visited .empty dest = .ok (st', d') ∧ d pt i = d' pt i := by
  obtain ⟨σ, p1, -⟩ := hin.place
  refine C124_contents_painted grow dec n _ _ doc doc' hf hf' hu hu' hk hk' canvas mask hin pt i (dissolve_looks hl hcl ht hsub habove (fun π l kids e h => ?_) hp hpi) fuel hfu diff aborted
    visited hnd dest
  show (canvas _).bind _ = none
  rw [hb _ l kids (p1 _ _ e) h]
  rfl

/-- **C121** Also in folders layers can be exchanged without changing any pixel at which at most one of them has something.

Missing: pass-through folders among the layers that have nothing (`C121_order_of_folders`). Those around both are in `C121_order_in_folders_partial`. -/
theorem C121_nested_partial (grow : Nat → Nat) (dec : List UInt8 → Option (List UInt8)) (n : Nat) (xs ys zs ws doc doc' : List (LTree LayerRec))
    (hf : depthAll doc ≤ n) (hf' : depthAll doc' ≤ n) (hu : UniqueDoc doc) (hu' : UniqueDoc doc') (hk : KnownModes doc) (hk' : KnownModes doc')
    (hy : ∀ k ∈ ys.head?, k.isClipping = false) (hz : ∀ k ∈ zs.head?, k.isClipping = false) (hw : ∀ k ∈ ws.head?, k.isClipping = false)
    (canvas : Int → Option (List (TPt × Tile))) (mask : Int → List (TPt × (Nat → UInt8)))
    (hin : InFolder canvas (xs ++ (ys ++ (zs ++ ws))) (xs ++ (zs ++ (ys ++ ws))) doc doc') (pt : TPt) (i : Nat)
    (hc : NoPassThrough ys ∧ ClearAt ys canvas pt i ∨ NoPassThrough zs ∧ ClearAt zs canvas pt i)
    (fuel : Nat) (hfu : 2 * n ≤ fuel) (diff aborted : Bool) (visited : List TPt) (hnd : visited.Nodup) (dest : TPt → Tile) :
    ∃ st st' d d', render tileOps ⟨newTree grow dec n doc, rootPtr, canvas, mask⟩ fuel diff aborted visited .empty dest = .ok (st, d) ∧
      render tileOps ⟨newTree grow dec n doc', rootPtr, canvas, mask⟩ fuel diff aborted visited .empty dest = .ok (st', d') ∧ d pt i = d' pt i := by
  refine C124_contents_painted grow dec n _ _ doc doc' hf hf' hu hu' hk hk' canvas mask hin pt i ?_ fuel hfu diff aborted visited hnd dest
  rcases hc with ⟨hn, hc⟩ | ⟨hn, hc⟩
  · exact order_looks hy hz hw hn (fun π l kids e hcl x hx => hc π l kids e hcl x hx)
  · intro t t' r r' h1 h1' h2 h2'
    exact (order_looks (xs := xs) (ws := ws) hz hy hw hn (fun π l kids e hcl x hx => hc π l kids e hcl x hx) t' t r' r h1' h1 h2' h2).symm

/-- **C121** Also in folders layers that have nothing at a pixel could as well be missing.

Missing: pass-through folders among them (`C121_order_of_folders`) or around them. -/
theorem C121_nested_clear_partial (grow : Nat → Nat) (dec : List UInt8 → Option (List UInt8)) (n : Nat) (xs ys zs doc doc' : List (LTree LayerRec))
    (hf : depthAll doc ≤ n) (hf' : depthAll doc' ≤ n) (hu : UniqueDoc doc) (hu' : UniqueDoc doc') (hk : KnownModes doc) (hk' : KnownModes doc')
    (hy : ∀ k ∈ ys.head?, k.isClipping = false) (hz : ∀ k ∈ zs.head?, k.isClipping = false) (hnp : NoPassThrough ys)
    (canvas : Int → Option (List (TPt × Tile))) (mask : Int → List (TPt × (Nat → UInt8))) (hin : InFolder canvas (xs ++ (ys ++ zs)) (xs ++ zs) doc doc') (pt : TPt) (i : Nat)
    (hc : ClearAt ys canvas pt i) (fuel : Nat) (hfu : 2 * n ≤ fuel) (diff aborted : Bool) (visited : List TPt) (hnd : visited.Nodup) (dest : TPt → Tile) :
    ∃ st st' d d', render tileOps ⟨newTree grow dec n doc, rootPtr, canvas, mask⟩ fuel diff aborted visited .empty dest = .ok (st, d) ∧
      render tileOps ⟨newTree grow dec n doc', rootPtr, canvas, mask⟩ fuel diff aborted visited .empty dest = .ok (st', d') ∧ d pt i = d' pt i :=
  C124_contents_painted grow dec n _ _ doc doc' hf hf' hu hu' hk hk' canvas mask hin pt i (clear_looks hy hz hnp (fun π l kids e hcl x hx => hc π l kids e hcl x hx)) fuel hfu diff aborted
    visited hnd dest

/-! ### Non-vacuity -/

/-- A layer; three of them are used below. -/
def fillKid (id : Nat) : LayerRec := { seqID := id, blendMode := ascii "norm", opacity := 255 }

/-- A folder that is to be blended by its hue. -/
def fillFolder : LayerRec := { seqID := 2, sdType := 1, sdBlendMode := ascii "hue ", opacity := 255, blendClippedElements := true }

/-- Pixels of a background and of two other layers. -/
def fillCanvas (p q : Px) (id : Int) : Option (List (TPt × Tile)) :=
  if id = 0 then some [((0, 0), plainTile ⟨100, 220, 90, 255⟩)] else if id = 1 then some [((0, 0), plainTile p)] else if id = 3 then some [((0, 0), plainTile q)] else none

/-- C124 is false of translucent pixels: two layers that are shown with the same colour, black, by themselves give different colours in a folder. -/
theorem C124_translucent_contents :
    (∀ id ∈ [1, 3], peekPx (render tileOps ⟨newTree (fun n => n) some 2 [.node (fillKid id) []], rootPtr, fillCanvas ⟨1, 0, 0, 60⟩ ⟨2, 0, 0, 60⟩, fun _ => []⟩ 4 false false [(0, 0)] .empty blank) 5 =
      .ok ⟨0, 0, 0, 60⟩) ∧
    peekPx (render tileOps ⟨newTree (fun n => n) some 2 [.node (fillKid 0) [], .node fillFolder [.node (fillKid 1) []]], rootPtr, fillCanvas ⟨1, 0, 0, 60⟩ ⟨2, 0, 0, 60⟩, fun _ => []⟩ 4 false false
      [(0, 0)] .empty blank) 5 = .ok ⟨116, 208, 108, 255⟩ ∧
    peekPx (render tileOps ⟨newTree (fun n => n) some 2 [.node (fillKid 0) [], .node fillFolder [.node (fillKid 3) []]], rootPtr, fillCanvas ⟨1, 0, 0, 60⟩ ⟨2, 0, 0, 60⟩, fun _ => []⟩ 4 false false
      [(0, 0)] .empty blank) 5 = .ok ⟨136, 199, 100, 255⟩ := by
  decide +kernel

/-- A folder for the documents of C118 and C121. -/
def nestFolder : LayerRec := { seqID := 7, sdType := 1, sdBlendMode := ascii "mul ", opacity := 200, blendClippedElements := true }

/-- The document of C118 in it, above a layer. -/
def nestDoc (doc : List (LTree LayerRec)) : List (LTree LayerRec) := [.node (fillKid 6) []] ++ .node nestFolder doc :: []

/-- The pixels of the documents of C118 and C121, but none of the folder. -/
def nestCanvas (canvas : Int → Option (List (TPt × Tile))) (id : Int) : Option (List (TPt × Tile)) := if id = 7 then none else canvas id

/-- The document of C118 with its pass-through folder dissolved. -/
def dissolvedDoc : List (LTree LayerRec) := .node dimBase [] :: [] ++ ([.node transitKid []] ++ [.node { seqID := 3, blendMode := ascii "scrn", opacity := 90 } []])

/-- The hypotheses of `C118_nested_partial` are met. -/
example : depthAll (nestDoc transitDoc) ≤ 3 ∧ depthAll (nestDoc dissolvedDoc) ≤ 3 ∧ UniqueDoc (nestDoc transitDoc) ∧ UniqueDoc (nestDoc dissolvedDoc) ∧ KnownModes (nestDoc transitDoc) ∧
    KnownModes (nestDoc dissolvedDoc) ∧ InFolder (nestCanvas transitCanvas) transitDoc dissolvedDoc (nestDoc transitDoc) (nestDoc dissolvedDoc) ∧
    FoldersBare (nestDoc transitDoc) (nestCanvas transitCanvas) ∧ ∃ p, (nestCanvas transitCanvas dimBase.seqID).bind (·.lookup (0, 0)) = some p ∧ (p 5).a = 255 := by
  refine ⟨by decide, by decide, UniqueDoc.of_list ?_, UniqueDoc.of_list ?_, DocAll.of_list (Q := fun l _ =>
    (l.folder = false → blendMode l.blendMode ≠ none ∨ l.blendMode = ascii "pass") ∧
    (l.folder = true → blendMode l.sdBlendMode ≠ none ∨ l.sdBlendMode = ascii "pass" ∧ l.blendClippedElements = true)) ?_, DocAll.of_list (Q := fun l _ =>
    (l.folder = false → blendMode l.blendMode ≠ none ∨ l.blendMode = ascii "pass") ∧
    (l.folder = true → blendMode l.sdBlendMode ≠ none ∨ l.sdBlendMode = ascii "pass" ∧ l.blendClippedElements = true)) ?_,
    .inside _ [] nestFolder _ _ (fun _ => by decide) rfl .whole, DocAll.of_list (Q := fun l kids => l.folder = true ∨ kids ≠ [] → nestCanvas transitCanvas l.seqID = none) ?_, ⟨_, rfl, rfl⟩⟩
  · simp only [docList, nestDoc, transitDoc, LTree.number, List.map, List.nil_append, List.cons_append, List.append_nil]
    decide
  · simp only [docList, nestDoc, dissolvedDoc, LTree.number, List.map, List.nil_append, List.cons_append, List.append_nil]
    decide
  all_goals
    intro x hx
    simp only [docList, nestDoc, transitDoc, dissolvedDoc, List.map, List.nil_append, List.cons_append, List.append_nil] at hx
  · fin_cases hx <;> decide
  · fin_cases hx <;> decide
  · fin_cases hx
    case «1» => exact fun _ => rfl
    case «3» => exact fun _ => rfl
    all_goals
      intro h
      rcases h with h | h
      · exact absurd h (by decide)
      · exact absurd rfl h

/-- Those of `C124_contents_partial` as well: rendered as documents of their own, both show the same opaque colour, and the folder shows the same. -/
example : let f := nestCanvas (fun id => if id = 6 then some [((0, 0), plainTile ⟨200, 100, 50, 240⟩)] else transitCanvas id)
    (∀ doc ∈ [transitDoc, dissolvedDoc], peekPx (render tileOps ⟨newTree (fun n => n) some 3 doc, rootPtr, f, fun _ => []⟩ 6 false false [(0, 0)] .empty blank) 5 = .ok ⟨33, 54, 145, 255⟩) ∧
    ∀ doc ∈ [transitDoc, dissolvedDoc], peekPx (render tileOps ⟨newTree (fun n => n) some 3 (nestDoc doc), rootPtr, f, fun _ => []⟩ 6 false false [(0, 0)] .empty blank) 5 =
      .ok ⟨61, 38, 37, 250⟩ := by
  decide +kernel

/-- The hypotheses of `C121_nested_partial` and `C121_nested_clear_partial` are met in both tiles. -/
example : let ys : List (LTree LayerRec) := [.node apartFolder [.node transitKid []]]
    let zs : List (LTree LayerRec) := [.node apartLayer [], .node apartClip []]
    depthAll (nestDoc ([.node dimBase []] ++ (ys ++ (zs ++ [])))) ≤ 3 ∧ UniqueDoc (nestDoc ([.node dimBase []] ++ (ys ++ (zs ++ [])))) ∧
    KnownModes (nestDoc ([.node dimBase []] ++ (ys ++ (zs ++ [])))) ∧
    InFolder (nestCanvas apartCanvas) ([.node dimBase []] ++ (ys ++ (zs ++ []))) ([.node dimBase []] ++ (zs ++ (ys ++ []))) (nestDoc ([.node dimBase []] ++ (ys ++ (zs ++ []))))
      (nestDoc ([.node dimBase []] ++ (zs ++ (ys ++ [])))) ∧
    NoPassThrough ys ∧ NoPassThrough zs ∧ ClearAt ys (nestCanvas apartCanvas) (64, 0) 5 ∧ ClearAt zs (nestCanvas apartCanvas) (0, 0) 5 := by
  refine ⟨by decide, UniqueDoc.of_list ?_, DocAll.of_list (Q := fun l _ =>
    (l.folder = false → blendMode l.blendMode ≠ none ∨ l.blendMode = ascii "pass") ∧
    (l.folder = true → blendMode l.sdBlendMode ≠ none ∨ l.sdBlendMode = ascii "pass" ∧ l.blendClippedElements = true)) ?_,
    .inside _ [] nestFolder _ _ (fun _ => by decide) rfl .whole,
    DocAll.of_list (Q := fun l _ => l.folder = true → l.sdBlendMode ≠ ascii "pass") ?_, DocAll.of_list (Q := fun l _ => l.folder = true → l.sdBlendMode ≠ ascii "pass") ?_,
    DocAll.of_list (Q := fun l _ => l.clipping = false → ∀ p, (nestCanvas apartCanvas l.seqID).bind (·.lookup (64, 0)) = some p → (p 5).a = 0) ?_,
    DocAll.of_list (Q := fun l _ => l.clipping = false → ∀ p, (nestCanvas apartCanvas l.seqID).bind (·.lookup (0, 0)) = some p → (p 5).a = 0) ?_⟩
  · simp only [docList, nestDoc, LTree.number, List.map, List.nil_append, List.cons_append, List.append_nil]
    decide
  all_goals
    intro x hx
    simp only [docList, nestDoc, List.map, List.nil_append, List.cons_append, List.append_nil] at hx
  · fin_cases hx <;> decide
  · fin_cases hx <;> decide
  · fin_cases hx <;> decide
  all_goals
    fin_cases hx
    all_goals rintro - p ⟨⟩

end Psd
