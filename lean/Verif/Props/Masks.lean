import Verif.Lemmas.Masked
import Verif.Props.Seen
import Verif.Lemmas.Scene

/-!
# C88: masks
-/

namespace Psd

/-- Two documents that look the same at one pixel, apart from what masks hide there. -/
inductive Alike (i : Nat) (pic pic' : Int → Option Tile) (mask mask' : Int → Option (Nat → UInt8)) : List (LTree LayerRec) → List (LTree LayerRec) → Prop
  | nil : Alike i pic pic' mask mask' [] []
  | hidden (l : LayerRec) (sub above over over' : List (LTree LayerRec)) : l.masked → maskValue l.mask.defaultColor (mask l.seqID) i = 0 →
      maskValue l.mask.defaultColor (mask' l.seqID) i = 0 → (∀ k ∈ above, k.isClipping = true) → (l.clipping = true → above = []) →
      Alike i pic pic' mask mask' over over' → Alike i pic pic' mask mask' (.node l sub :: (above ++ over)) (.node l sub :: (above ++ over'))
  | seen (l : LayerRec) (sub sub' rest rest' : List (LTree LayerRec)) : SeenSame false i (pic l.seqID) (pic' l.seqID) → MaskSame i (mask l.seqID) (mask' l.seqID) →
      Alike i pic pic' mask mask' sub sub' → Alike i pic pic' mask mask' rest rest' → Alike i pic pic' mask mask' (.node l sub :: rest) (.node l sub' :: rest')
  | off (l : LayerRec) (rest rest' : List (LTree LayerRec)) : SeenSame false i (pic l.seqID) (pic' l.seqID) →
      maskValue l.mask.defaultColor (mask l.seqID) i = 255 → (∀ p, pic l.seqID = some p → (p i).a = 0 ∨ (p i).a = 255) → (∀ p, pic' l.seqID = some p → (p i).a = 0 ∨ (p i).a = 255) →
      Alike i pic pic' mask mask' rest rest' →
      Alike i pic pic' mask mask' (.node l [] :: rest) (.node { l with mask := { l.mask with flags := l.mask.flags ||| 2 } } [] :: rest')

section
variable {i : Nat} {pic pic' : Int → Option Tile} {mask mask' : Int → Option (Nat → UInt8)} {dec : List UInt8 → Option (List UInt8)}

theorem Alike.head {xs ys : List (LTree LayerRec)} (h : Alike i pic pic' mask mask' xs ys) (hx : ∀ k ∈ xs.head?, k.isClipping = false) : ∀ k ∈ ys.head?, k.isClipping = false := by
  intro k hk
  cases h with
  | nil => cases hk
  | hidden l => cases hk; exact hx _ rfl
  | seen l sub => cases hk; exact hx (.node l sub) rfl
  | off l => cases hk; exact hx (.node l []) rfl

theorem Alike.split : ∀ {x y z : List (LTree LayerRec)}, (∀ k ∈ x, k.isClipping = true) → Alike i pic pic' mask mask' (x ++ y) z →
    ∃ x' y', z = x' ++ y' ∧ (∀ k ∈ x', k.isClipping = true) ∧ Alike i pic pic' mask mask' x x' ∧ Alike i pic pic' mask mask' y y' := by
  intro x
  induction x with
  | nil => intro y z _ h; exact ⟨[], z, rfl, by simp, .nil, h⟩
  | cons a x ih =>
    intro y z hx h
    have h1 := hx a List.mem_cons_self
    have h2 : ∀ k ∈ x, k.isClipping = true := fun k hk => hx k (List.mem_cons_of_mem _ hk)
    generalize e : a :: x ++ y = w at h
    cases h with
    | nil => cases e
    | hidden l sub above over over' g1 g2 g3 g4 g5 g6 =>
      injection e with e1 e2
      subst e1
      obtain rfl := g5 h1
      rw [List.nil_append] at e2
      subst e2
      obtain ⟨x', y', rfl, k1, k2, k3⟩ := ih h2 g6
      exact ⟨.node l sub :: x', y', rfl, by simpa using ⟨h1, k1⟩, .hidden l sub [] x x' g1 g2 g3 (by simp) (fun _ => rfl) k2, k3⟩
    | seen l sub sub' rest rest' g1 g2 g3 g4 =>
      injection e with e1 e2
      subst e1 e2
      obtain ⟨x', y', rfl, k1, k2, k3⟩ := ih h2 g4
      exact ⟨.node l sub' :: x', y', rfl, by simpa using ⟨h1, k1⟩, .seen l _ _ _ _ g1 g2 g3 k2, k3⟩
    | off l rest rest' g1 g2 g3 g4 g5 =>
      injection e with e1 e2
      subst e1 e2
      obtain ⟨x', y', rfl, k1, k2, k3⟩ := ih h2 g5
      exact ⟨_ :: x', y', rfl, by simpa using ⟨h1, k1⟩, .off l _ _ g1 g2 g3 g4 k2, k3⟩

theorem run_prefix : ∀ (x y x' y' : List (LTree LayerRec)), x ++ y = x' ++ y' → (∀ k ∈ x, k.isClipping = true) → (∀ k ∈ y'.head?, k.isClipping = false) →
    ∃ r, x' = x ++ r ∧ y = r ++ y' := by
  intro x
  induction x with
  | nil => intro y x' y' e _ _; exact ⟨x', rfl, e⟩
  | cons a x ih =>
    intro y x' y' e hx hy
    cases x' with
    | nil =>
      rw [List.nil_append] at e
      subst e
      have h1 := hx a List.mem_cons_self
      rw [hy a rfl] at h1
      cases h1
    | cons a' x' =>
      injection e with e1 e2
      subst e1
      obtain ⟨r, rfl, rfl⟩ := ih y x' y' e2 (fun k hk => hx k (List.mem_cons_of_mem _ hk)) hy
      exact ⟨r, rfl, rfl⟩

theorem ShowsLayer.hides {l : LayerRec} {a : CAttr} (h : ShowsLayer dec l a) {m : Option (Nat → UInt8)} (hl : l.masked) (hm : maskValue l.mask.defaultColor m i = 0) : a.hides m i :=
  ⟨h.mask.2 hl, by rw [h.maskDefault]; exact hm⟩

theorem masked_off (l : LayerRec) : (({ l with mask := { l.mask with flags := l.mask.flags ||| 2 } } : LayerRec).mask.enabled) = false := by
  show ((l.mask.flags ||| 2) &&& 2 == 0) = false
  have key : ((l.mask.flags ||| 2) &&& 2) = 2 := by
    apply Nat.eq_of_testBit_eq
    intro j
    rw [Nat.testBit_and, Nat.testBit_or]
    cases Nat.testBit l.mask.flags j <;> cases Nat.testBit 2 j <;> rfl
  rw [key]
  rfl

theorem stack_alike : ∀ (t t' : Stk Tile (Nat → UInt8)) (xs ys : List (LTree LayerRec)), IsStack dec pic mask xs t → IsStack dec pic' mask' ys t' →
    Alike i pic pic' mask mask' xs ys → StkSeen i t t' := by
  intro t
  induction t with
  | nil =>
    intro t' xs ys h h' ha
    obtain rfl : xs = [] := h
    cases ha
    rw [h'.nil]
    trivial
  | layer a p m kids clips rest ihk ihc ihr =>
    intro t' xs ys h h' hal
    obtain ⟨l, sub, above, over, rfl, ha, rfl, rfl, hk, hc, hr, h1, h2, h3⟩ := h
    cases t' with
    | nil =>
      obtain rfl : ys = [] := h'
      generalize e : LTree.node l sub :: (above ++ over) = w at hal
      cases hal
      cases e
    | layer a' p' m' kids' clips' rest' =>
      obtain ⟨l', sub', above', over', rfl, ha', rfl, rfl, hk', hc', hr', h1', h2', h3'⟩ := h'
      have runs : l'.clipping = l.clipping → Alike i pic pic' mask mask' (above ++ over) (above' ++ over') →
          Alike i pic pic' mask mask' above above' ∧ Alike i pic pic' mask mask' over over' := by
        intro hcl hx
        cases hl : l.clipping with
        | true =>
          rw [h2 hl, h2' (hcl.trans hl)] at hx ⊢
          exact ⟨.nil, hx⟩
        | false =>
          obtain ⟨x', y', e, k1, k2, k3⟩ := Alike.split h1 hx
          obtain ⟨rfl, rfl⟩ := run_unique _ _ _ _ e h1' k1 (h3' (hcl.trans hl)) (k3.head (h3 hl))
          exact ⟨k2, k3⟩
      generalize e : LTree.node l sub :: (above ++ over) = w at hal
      generalize e' : LTree.node l' sub' :: (above' ++ over') = w' at hal
      cases hal with
      | nil => cases e
      | hidden l0 sub0 aboveA overA overA' g1 g2 g3 g4 g5 g6 =>
        injection e with e1 e2
        injection e' with e1' e2'
        injection e1 with e3 e4
        injection e1' with e3' e4'
        subst e3 e4 e3' e4'
        refine ⟨by rw [ha.eq, ha'.eq], ?_, .inl ⟨ha.hides g1 g2, ha'.hides g1 g3⟩⟩
        cases hl : l'.clipping with
        | true =>
          rw [g5 hl, h2 hl] at e2
          rw [g5 hl, h2' hl] at e2'
          simp only [List.nil_append] at e2 e2'
          subst e2 e2'
          exact ihr _ _ _ hr hr' g6
        | false =>
          obtain ⟨r, rfl, rfl⟩ := run_prefix _ _ _ _ e2.symm g4 (h3 hl)
          obtain ⟨x', y', rfl, k1, k2, k3⟩ := Alike.split (fun k hk => h1 k (List.mem_append_right _ hk)) g6
          rw [← List.append_assoc] at e2'
          obtain ⟨rfl, rfl⟩ := run_unique _ _ _ _ e2' h1' (by
            intro k hk
            rcases List.mem_append.1 hk with hk | hk
            · exact g4 k hk
            · exact k1 k hk) (h3' hl) (k3.head (h3 hl))
          exact ihr _ _ _ hr hr' k3
      | seen l0 sub0 sub0' rest0 rest0' g1 g2 g3 g4 =>
        injection e with e1 e2
        injection e' with e1' e2'
        injection e1 with e3 e4
        injection e1' with e3' e4'
        subst e2 e3 e4 e2' e3' e4'
        obtain ⟨k1, k2⟩ := runs rfl g4
        exact ⟨by rw [ha.eq, ha'.eq], ihr _ _ _ hr hr' k2, .inr ⟨ihc _ _ _ hc hc' k1, g1, .inl ⟨by rw [ha.eq, ha'.eq], g2, ihk _ _ _ hk hk' g3⟩⟩⟩
      | off l0 rest0 rest0' g1 g2 g3 g4 g5 =>
        injection e with e1 e2
        injection e' with e1' e2'
        injection e1 with e3 e4
        injection e1' with e3' e4'
        subst e2 e3 e4 e2' e3' e4'
        obtain ⟨k1, k2⟩ := runs rfl g5
        refine ⟨by rw [ha.eq, ha'.eq]; rfl, ihr _ _ _ hr hr' k2, .inr ⟨ihc _ _ _ hc hc' k1, g1, .inr ⟨fun _ => by rw [ha.maskDefault]; exact g2, fun h => ?_, ?_, ?_, g3, g4⟩⟩⟩
        · have h := (ha'.mask.1 h).1
          rw [masked_off] at h
          cases h
        · rw [hk.nil]; rfl
        · rw [hk'.nil]; rfl

theorem AllSeen.alike {xs : List (LTree LayerRec)}
    (h : AllSeen (fun l => l.masked ∧ maskValue l.mask.defaultColor (mask l.seqID) i = 0 ∧ maskValue l.mask.defaultColor (mask' l.seqID) i = 0)
      (fun l => SeenSame false i (pic l.seqID) (pic' l.seqID) ∧ MaskSame i (mask l.seqID) (mask' l.seqID)) xs) : Alike i pic pic' mask mask' xs xs := by
  induction h with
  | nil => exact .nil
  | hidden l sub above over h1 h2 h3 _ ih => exact .hidden l sub above over over h1.1 h1.2.1 h1.2.2 h2 h3 ih
  | seen l sub rest h1 _ _ ih1 ih2 => exact .seen l sub sub rest rest h1.1 h1.2 ih1 ih2

theorem SeenSame.refl (p : Option Tile) : SeenSame false i p p := by
  cases p with
  | none => trivial
  | some p => exact .inl rfl

theorem MasksOff.alike {xs ys : List (LTree LayerRec)}
    (h : MasksOff (fun l => maskValue l.mask.defaultColor (mask l.seqID) i = 255 ∧ ∀ p, pic l.seqID = some p → (p i).a = 0 ∨ (p i).a = 255) xs ys) :
    Alike i pic pic mask mask xs ys := by
  induction h with
  | nil => exact .nil
  | keep l sub sub' rest rest' _ _ ih1 ih2 => exact .seen l _ _ _ _ (SeenSame.refl _) rfl ih1 ih2
  | off l rest rest' h1 _ ih => exact .off l _ _ (SeenSame.refl _) h1.1 h1.2 h1.2 ih

theorem MasksOff.docAt {W : LayerRec → Prop} {xs ys : List (LTree LayerRec)} (h : MasksOff W xs ys) : ∀ (π : List Nat) (l' : LayerRec) (kids' : List (LTree LayerRec)),
    docAt ys π = some (.node l' kids') → ∃ l kids, docAt xs π = some (.node l kids) ∧ (l' = l ∨ l' = { l with mask := { l.mask with flags := l.mask.flags ||| 2 } }) := by
  induction h with
  | nil => intro π l' kids' e; exact ⟨l', kids', e, .inl rfl⟩
  | keep l sub sub' rest rest' _ _ ih1 ih2 =>
    intro π l' kids' e
    match π with
    | [] => cases e
    | [0] => injection e with e; injection e with e1 e2; exact ⟨l, sub, rfl, .inl e1.symm⟩
    | 0 :: j :: π => exact ih1 (j :: π) l' kids' e
    | (j + 1) :: π => exact ih2 (j :: π) l' kids' e
  | off l rest rest' _ _ ih =>
    intro π l' kids' e
    match π with
    | [] => cases e
    | [0] => injection e with e; injection e with e1 e2; exact ⟨l, [], rfl, .inr e1.symm⟩
    | 0 :: j :: π => cases π <;> cases e
    | (j + 1) :: π => exact ih (j :: π) l' kids' e

theorem MasksOff.depth {W : LayerRec → Prop} {xs ys : List (LTree LayerRec)} (h : MasksOff W xs ys) : depthAll ys = depthAll xs := by
  induction h with
  | nil => rfl
  | keep l sub sub' rest rest' _ _ ih1 ih2 => simp only [depthAll, LTree.depth, ih1, ih2]
  | off l rest rest' _ _ ih => simp only [depthAll, LTree.depth, ih]

end

section
variable (grow : Nat → Nat) (dec : List UInt8 → Option (List UInt8)) (n : Nat) (layers : List (LTree LayerRec)) (hf : depthAll layers ≤ n) (hu : UniqueDoc layers)
  (hk : KnownModes layers) (hnp : NoPassThrough layers)
include hf hu hk hnp

/-- C88: what masks hide at a pixel has no influence on the picture there: two renders of a document, with other pixels and masks, give the same pixel if every layer looks the same there,
and has the same mask, or is hidden by its mask in both, or is in such a layer, or clipped to one. No folder may be pass-through. -/
theorem C88_masks_hide_partial (canvas canvas' : Int → Option (List (TPt × Tile))) (mask mask' : Int → List (TPt × (Nat → UInt8))) (pt : TPt) (i : Nat)
    (h : AllSeen (fun l => l.masked ∧ maskValue l.mask.defaultColor ((mask l.seqID).lookup pt) i = 0 ∧ maskValue l.mask.defaultColor ((mask' l.seqID).lookup pt) i = 0)
      (fun l => SeenSame false i ((canvas l.seqID).bind (·.lookup pt)) ((canvas' l.seqID).bind (·.lookup pt)) ∧ MaskSame i ((mask l.seqID).lookup pt) ((mask' l.seqID).lookup pt)) layers)
    (fuel : Nat) (hfu : 2 * n ≤ fuel) (diff aborted diff' aborted' : Bool) (visited visited' : List TPt) (hnd : visited.Nodup) (hnd' : visited'.Nodup) (hpt : pt ∈ visited)
    (hpt' : pt ∈ visited') (dest dest' : TPt → Tile) :
    ∃ st d st' d', render tileOps ⟨newTree grow dec n layers, rootPtr, canvas, mask⟩ fuel diff aborted visited .empty dest = .ok (st, d) ∧
      render tileOps ⟨newTree grow dec n layers, rootPtr, canvas', mask'⟩ fuel diff' aborted' visited' .empty dest' = .ok (st', d') ∧ d pt i = d' pt i := by
  obtain ⟨st, d, e, h1⟩ := C82_render_paints_the_layers grow dec n layers hf hu hk canvas mask fuel hfu diff aborted visited hnd dest
  obtain ⟨st', d', e', h1'⟩ := C82_render_paints_the_layers grow dec n layers hf hu hk canvas' mask' fuel hfu diff' aborted' visited' hnd' dest'
  refine ⟨st, d, st', d', e, e', ?_⟩
  obtain ⟨t, r, h1, h2, h3⟩ := h1 pt
  obtain ⟨t', r', h1', h2', h3'⟩ := h1' pt
  rw [if_pos hpt] at h3
  rw [if_pos hpt'] at h3'
  rw [h3, h3']
  have hs := stack_alike t t' layers layers h1 h1' (AllSeen.alike (pic := fun id => (canvas id).bind (·.lookup pt)) (pic' := fun id => (canvas' id).bind (·.lookup pt))
    (mask := fun id => (mask id).lookup pt) (mask' := fun id => (mask' id).lookup pt) h)
  exact tileShown_same (paint_seen t t' hs (stack_noPass t layers h1 hnp) (stack_noPass t' layers h1' hnp) false id _ _ r r' (.refl _) h2 h2') h2 h2' _ _

/-- C88: a mask that is white at a pixel does not count there: the masks of layers without children can be disabled without changing the picture at a pixel where they are white, if the
layers are opaque or fully transparent there. No folder may be pass-through. -/
theorem C88_white_masks_partial (layers' : List (LTree LayerRec)) (canvas : Int → Option (List (TPt × Tile))) (mask : Int → List (TPt × (Nat → UInt8))) (pt : TPt) (i : Nat)
    (h : MasksOff (fun l => maskValue l.mask.defaultColor ((mask l.seqID).lookup pt) i = 255 ∧ ∀ p, (canvas l.seqID).bind (·.lookup pt) = some p → (p i).a = 0 ∨ (p i).a = 255)
      layers layers')
    (fuel : Nat) (hfu : 2 * n ≤ fuel) (diff aborted diff' aborted' : Bool) (visited visited' : List TPt) (hnd : visited.Nodup) (hnd' : visited'.Nodup) (hpt : pt ∈ visited)
    (hpt' : pt ∈ visited') (dest dest' : TPt → Tile) :
    ∃ st d st' d', render tileOps ⟨newTree grow dec n layers, rootPtr, canvas, mask⟩ fuel diff aborted visited .empty dest = .ok (st, d) ∧
      render tileOps ⟨newTree grow dec n layers', rootPtr, canvas, mask⟩ fuel diff' aborted' visited' .empty dest' = .ok (st', d') ∧ d pt i = d' pt i := by
  have hu' : UniqueDoc layers' := by
    intro π π' l l' kids kids' e e' hl
    obtain ⟨l1, k1, e1, g1⟩ := h.docAt π l kids e
    obtain ⟨l2, k2, e2, g2⟩ := h.docAt π' l' kids' e'
    exact hu π π' l1 l2 k1 k2 e1 e2 (by rcases g1 with rfl | rfl <;> rcases g2 with rfl | rfl <;> exact hl)
  have hk' : KnownModes layers' := by
    intro π l kids e
    obtain ⟨l1, k1, e1, g1⟩ := h.docAt π l kids e
    have := hk π l1 k1 e1
    rcases g1 with rfl | rfl <;> exact this
  have hnp' : NoPassThrough layers' := by
    intro π l kids e
    obtain ⟨l1, k1, e1, g1⟩ := h.docAt π l kids e
    have := hnp π l1 k1 e1
    rcases g1 with rfl | rfl <;> exact this
  obtain ⟨st, d, e, h1⟩ := C82_render_paints_the_layers grow dec n layers hf hu hk canvas mask fuel hfu diff aborted visited hnd dest
  obtain ⟨st', d', e', h1'⟩ := C82_render_paints_the_layers grow dec n layers' (by rw [h.depth]; exact hf) hu' hk' canvas mask fuel hfu diff' aborted' visited' hnd' dest'
  refine ⟨st, d, st', d', e, e', ?_⟩
  obtain ⟨t, r, h1, h2, h3⟩ := h1 pt
  obtain ⟨t', r', h1', h2', h3'⟩ := h1' pt
  rw [if_pos hpt] at h3
  rw [if_pos hpt'] at h3'
  rw [h3, h3']
  have hs := stack_alike t t' layers layers' h1 h1' (MasksOff.alike (pic := fun id => (canvas id).bind (·.lookup pt)) (mask := fun id => (mask id).lookup pt) h)
  exact tileShown_same (paint_seen t t' hs (stack_noPass t layers h1 hnp) (stack_noPass t' layers' h1' hnp') false id _ _ r r' (.refl _) h2 h2') h2 h2' _ _

end

/-! ### Masks of files -/

section
variable {procs ts : Nat} {flat : List LayerRec}

/-- What the renderer finds for a pixel of the mask of the layer `l`. -/
theorem maskValue_loaded (hp : 1 ≤ procs) (hts : 1 ≤ ts) (hn : flat.map LayerRec.seqID = List.range flat.length) {w : Nat} {s : Import}
    (r : ImportRun procs ts (Import.start w flat) s) (hd : s.Done) {k : Nat} {l : LayerRec} (hl : flat[k]? = some l) (hfi : l.Filled) (hne : l.mask.rect.empty = false)
    {c : Channel} (hc : l.channel (-2) = some c) (heap : CHeap) (rect canvas : Rect) (x y : Int) :
    ∃ v, v = (if UInt8.ofNat l.mask.defaultColor = 0 then cutMaskAt ts l.mask.rect c.data 0 x y else 255 - cutMaskAt ts l.mask.rect c.data 255 x y) ∧
      ((((⟨heap, s.images, rect, canvas⟩ : LayerTree).scene.mask l.seqID).lookup (tilePt ts x y) = none ∧ v = 0) ∨
      ∃ m, ((⟨heap, s.images, rect, canvas⟩ : LayerTree).scene.mask l.seqID).lookup (tilePt ts x y) = some m ∧ m (tileIx ts x y) = v) := by
  refine ⟨_, rfl, ?_⟩
  obtain ⟨img, ⟨-, a2⟩, b⟩ := (C75_pictures_stored hn r hd).1 k l hl
  have hr := mask_reads (UInt8.ofNat l.mask.defaultColor) (fills_of_length (hfi.mask c hc))
  obtain ⟨m, e, -⟩ := tiles_hold_use (procs := procs) hp hts hr hne
  rw [loadMask_some hne hc, e] at a2
  have hs : (⟨heap, s.images, rect, canvas⟩ : LayerTree).scene.mask l.seqID = m.map fun e => (e.1, alphaTile e.2) := by
    show (((s.images l.seqID).bind LayerImage.mask).getD []).map _ = _
    rw [seqID_of_range hn hl, b]
    simp only [Option.bind_some, ← Res.ok.inj a2, Option.getD_some]
  rw [hs]
  exact alpha_pixel (tilePixel_mask hp hts hr hne e x y)

/-- C88: after loading, in any execution, the renderer finds for every pixel the mask's value in the file, its default colour outside the mask, if this is 0 or 255. This is so at every
pixel of the canvas (`cutMaskAt_canvas`), and left of and above it except for the part of a mask that is not kept there, which has the default colour. -/
theorem C88_masks_of_file_partial (hp : 1 ≤ procs) (hts : 1 ≤ ts) (hn : flat.map LayerRec.seqID = List.range flat.length) {w : Nat} {s : Import}
    (r : ImportRun procs ts (Import.start w flat) s) (hd : s.Done) {k : Nat} {l : LayerRec} (hl : flat[k]? = some l) (hfi : l.Filled) (hne : l.mask.rect.empty = false)
    {c : Channel} (hc : l.channel (-2) = some c) (hdc : l.mask.defaultColor = 0 ∨ l.mask.defaultColor = 255)
    (grow : Nat → Nat) (dec : List UInt8 → Option (List UInt8)) (n : Nat) (docRect : Rect) {t : LayerTree} (ht : finishNew grow dec n docRect s = .ok t) (x y : Int) :
    maskValue l.mask.defaultColor ((t.scene.mask l.seqID).lookup (tilePt ts x y)) (tileIx ts x y) = cutMaskAt ts l.mask.rect c.data (UInt8.ofNat l.mask.defaultColor) x y := by
  unfold finishNew at ht
  obtain ⟨tree, -, ht⟩ := Res.bind_eq_ok.1 ht
  injection ht with ht
  subst ht
  obtain ⟨v, h1, h2⟩ := maskValue_loaded hp hts hn r hd hl hfi hne hc (newTree grow dec n tree) ((unionRects tree Rect.zero).intersect (transformRect docRect Aff3.identity))
    (transformRect docRect Aff3.identity) x y
  unfold maskValue
  rcases hdc with h0 | h0
  · simp only [h0, show UInt8.ofNat 0 = 0 from rfl, if_true, show ¬(0 = 255) by decide, if_false] at h1 ⊢
    rcases h2 with ⟨h2, h3⟩ | ⟨m, h2, h3⟩
    · rw [h2, ← h1]
      exact h3.symm
    · rw [h2, ← h1]
      exact h3
  · simp only [h0, show UInt8.ofNat 255 = 255 from rfl, show ¬((255 : UInt8) = 0) by decide, if_false, if_true] at h1 ⊢
    rw [← compl_compl (cutMaskAt ts l.mask.rect c.data 255 x y), ← h1]
    rcases h2 with ⟨h2, h3⟩ | ⟨m, h2, h3⟩
    · rw [h2, h3]
      rfl
    · rw [h2]
      simp only [h3]

/-- C88 is false of masks whose default colour is neither 0 nor 255: they are inverted, at every pixel. -/
theorem C88_other_default_inverts (hp : 1 ≤ procs) (hts : 1 ≤ ts) (hn : flat.map LayerRec.seqID = List.range flat.length) {w : Nat} {s : Import}
    (r : ImportRun procs ts (Import.start w flat) s) (hd : s.Done) {k : Nat} {l : LayerRec} (hl : flat[k]? = some l) (hfi : l.Filled) (hne : l.mask.rect.empty = false)
    {c : Channel} (hc : l.channel (-2) = some c) (hdc : 0 < l.mask.defaultColor ∧ l.mask.defaultColor < 255)
    (grow : Nat → Nat) (dec : List UInt8 → Option (List UInt8)) (n : Nat) (docRect : Rect) {t : LayerTree} (ht : finishNew grow dec n docRect s = .ok t) (x y : Int)
    (hxy : l.mask.rect.Keeps ts x y) :
    maskValue l.mask.defaultColor ((t.scene.mask l.seqID).lookup (tilePt ts x y)) (tileIx ts x y) = 255 - channelAt l.mask.rect 1 c.data x y := by
  unfold finishNew at ht
  obtain ⟨tree, -, ht⟩ := Res.bind_eq_ok.1 ht
  injection ht with ht
  subst ht
  obtain ⟨v, h1, h2⟩ := maskValue_loaded hp hts hn r hd hl hfi hne hc (newTree grow dec n tree) ((unionRects tree Rect.zero).intersect (transformRect docRect Aff3.identity))
    (transformRect docRect Aff3.identity) x y
  have hz : ¬UInt8.ofNat l.mask.defaultColor = 0 := by
    intro h
    have := congrArg UInt8.toNat h
    simp at this
    omega
  unfold cutMaskAt at h1
  rw [if_neg hz, if_pos hxy] at h1
  unfold maskValue
  rcases h2 with ⟨h2, h3⟩ | ⟨m, h2, h3⟩
  · rw [h2, ← h1]
    simp only
    rw [if_neg (by omega)]
    exact h3.symm
  · rw [h2, ← h1]
    simp only
    rw [if_neg (by omega)]
    exact h3

end

/-! ### Examples -/

/-- Half of what is below, a layer with a mask, and a folder with a mask and a layer in it. -/
def maskLow : LayerRec := { seqID := 0, blendMode := ascii "norm", opacity := 255 }
def maskMid : LayerRec := { seqID := 1, blendMode := ascii "mul ", opacity := 255, mask := { rect := ⟨0, 0, 9, 9⟩ } }
def maskFold : LayerRec := { seqID := 2, sdType := 1, sdBlendMode := ascii "norm", opacity := 255, mask := { rect := ⟨0, 0, 9, 9⟩, defaultColor := 255 } }
def maskIn : LayerRec := { seqID := 3, blendMode := ascii "norm", opacity := 255 }

def maskDoc : List (LTree LayerRec) := [.node maskLow [], .node maskMid [], .node maskFold [.node maskIn []]]

def maskCanvas (id : Int) : Option (List (TPt × Tile)) :=
  if id = 0 then some [((0, 0), plainTile ⟨100, 0, 0, 128⟩)] else if id = 1 then some [((0, 0), plainTile ⟨50, 60, 70, 255⟩)]
  else if id = 3 then some [((0, 0), plainTile ⟨5, 6, 7, 255⟩)] else none

/-- The first mask is black at pixel 0 and white elsewhere, the second one black everywhere. -/
def maskMasks (id : Int) : List (TPt × (Nat → UInt8)) :=
  if id = 1 then [((0, 0), fun i => if i = 0 then 0 else 255)] else if id = 2 then [((0, 0), fun _ => 255)] else []

/-- The document without the pixels that masks hide. -/
def maskCanvas' (id : Int) : Option (List (TPt × Tile)) := if id = 0 then some [((0, 0), plainTile ⟨100, 0, 0, 128⟩)] else none

/-- The hypotheses of `C88_masks_hide_partial`. -/
example : depthAll maskDoc ≤ 2 ∧ UniqueDoc maskDoc ∧ KnownModes maskDoc ∧ NoPassThrough maskDoc ∧
    AllSeen (fun l => l.masked ∧ maskValue l.mask.defaultColor ((maskMasks l.seqID).lookup (0, 0)) 0 = 0 ∧ maskValue l.mask.defaultColor ((maskMasks l.seqID).lookup (0, 0)) 0 = 0)
      (fun l => SeenSame false 0 ((maskCanvas l.seqID).bind (·.lookup (0, 0))) ((maskCanvas' l.seqID).bind (·.lookup (0, 0))) ∧
        MaskSame 0 ((maskMasks l.seqID).lookup (0, 0)) ((maskMasks l.seqID).lookup (0, 0))) maskDoc := by
  refine ⟨by decide, UniqueDoc.of_list ?_, DocAll.of_list (Q := fun l _ =>
    (l.folder = false → blendMode l.blendMode ≠ none ∨ l.blendMode = ascii "pass") ∧
    (l.folder = true → blendMode l.sdBlendMode ≠ none ∨ l.sdBlendMode = ascii "pass" ∧ l.blendClippedElements = true)) ?_,
    DocAll.of_list (Q := fun l _ => l.folder = true → l.sdBlendMode ≠ ascii "pass") ?_, ?_⟩
  · simp only [docList, maskDoc, LTree.number, List.map, List.nil_append, List.cons_append]
    decide
  · intro x hx
    simp only [docList, maskDoc, List.map, List.nil_append, List.cons_append] at hx
    fin_cases hx <;> decide
  · intro x hx
    simp only [docList, maskDoc, List.map, List.nil_append, List.cons_append] at hx
    fin_cases hx <;> decide
  · refine .seen _ _ _ ⟨.inl rfl, rfl⟩ .nil (.hidden maskMid [] [] _ ⟨⟨rfl, by decide, by decide⟩, rfl, rfl⟩ (by simp) (fun _ => rfl)
      (.hidden maskFold _ [] [] ⟨⟨rfl, by decide, by decide⟩, rfl, rfl⟩ (by simp) (fun _ => rfl) .nil))

/-- Those of `C88_white_masks_partial`, at another pixel. -/
example : MasksOff (fun l => maskValue l.mask.defaultColor ((maskMasks l.seqID).lookup (0, 0)) 1 = 255 ∧
      ∀ p, (maskCanvas l.seqID).bind (·.lookup (0, 0)) = some p → (p 1).a = 0 ∨ (p 1).a = 255)
    maskDoc [.node maskLow [], .node { maskMid with mask := { maskMid.mask with flags := 2 } } [], .node maskFold [.node maskIn []]] := by
  refine .keep _ _ _ _ _ .nil (.off maskMid _ _ ⟨rfl, fun p h => ?_⟩ (.keep _ _ _ _ _ (.keep _ _ _ _ _ .nil .nil) .nil))
  have h : some (plainTile ⟨50, 60, 70, 255⟩) = some p := h
  injection h with h
  subst h
  exact .inr rfl

/-- C88 is false of pixels that are neither opaque nor fully transparent: a white mask changes their colours. -/
theorem C88_white_mask_changes_colours :
    peekPx (render tileOps ⟨newTree (fun n => n) some 1 [.node { maskMid with blendMode := ascii "norm" } []], rootPtr,
      fun id => if id = 1 then some [((0, 0), plainTile ⟨100, 0, 0, 1⟩)] else none, maskMasks⟩ 2 false false [(0, 0)] .empty blank) 1 = .ok ⟨96, 0, 0, 1⟩ ∧
    peekPx (render tileOps ⟨newTree (fun n => n) some 1 [.node { maskMid with blendMode := ascii "norm", mask := {} } []], rootPtr,
      fun id => if id = 1 then some [((0, 0), plainTile ⟨100, 0, 0, 1⟩)] else none, maskMasks⟩ 2 false false [(0, 0)] .empty blank) 1 = .ok ⟨97, 0, 0, 1⟩ := by
  decide +kernel

/-- C88 is false of pass-through folders: a mask that is white everywhere makes what is below the folder more opaque, though the folder shows nothing there. -/
theorem C88_white_mask_on_pass_through :
    peekPx (render tileOps ⟨newTree (fun n => n) some 2 [.node maskLow [], .node { maskFold with sdBlendMode := ascii "pass" } [.node maskIn []]], rootPtr,
      fun id => if id = 0 then some [((0, 0), plainTile ⟨100, 0, 0, 128⟩)] else if id = 3 then some [((0, 0), plainTile ⟨0, 0, 0, 0⟩)] else none, fun _ => []⟩
      4 false false [(0, 0)] .empty blank) 1 = .ok ⟨100, 0, 0, 192⟩ ∧
    peekPx (render tileOps ⟨newTree (fun n => n) some 2 [.node maskLow [], .node { maskFold with sdBlendMode := ascii "pass", mask := {} } [.node maskIn []]], rootPtr,
      fun id => if id = 0 then some [((0, 0), plainTile ⟨100, 0, 0, 128⟩)] else if id = 3 then some [((0, 0), plainTile ⟨0, 0, 0, 0⟩)] else none, fun _ => []⟩
      4 false false [(0, 0)] .empty blank) 1 = .ok ⟨100, 0, 0, 128⟩ := by
  decide +kernel

/-- A layer with a mask of default colour 128, for `C88_other_default_inverts`. -/
example : (0 < (128 : Nat) ∧ (128 : Nat) < 255) ∧ loadMask 3 2 { exPlate with mask := { exPlate.mask with defaultColor := 128 } } = .ok (some [((0, 0), [250, 255, 255, 55])]) := by
  decide +kernel

end Psd
