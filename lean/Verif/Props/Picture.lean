import Verif.Lemmas.Fresh
import Verif.Lemmas.Stacked
import Verif.Lemmas.Sight
import Verif.Props.Modes

/-!
# Theorem C82: what a render shows
-/

namespace Psd

section
variable {P M : Type} {ops : PicOps P M}

theorem view_of_doc (grow : Nat → Nat) (dec : List UInt8 → Option (List UInt8)) (n : Nat) (layers : List (LTree LayerRec)) (hf : depthAll layers ≤ n)
    (canvas : Int → Option (List (TPt × P))) (mask : Int → List (TPt × M)) (pt : TPt) (t : Stk P M)
    (ht : IsStack dec (fun id => (canvas id).bind (·.lookup pt)) (fun id => (mask id).lookup pt) layers t) :
    View ⟨newTree grow dec n layers, rootPtr, canvas, mask⟩ pt t ((newTree grow dec n layers).at_ rootPtr).children.arr 0
      ((newTree grow dec n layers).at_ rootPtr).children.len := by
  obtain ⟨A, F, h1, h2, h3, h4, h5, h6, -⟩ := newTree_spec grow dec n layers hf
  exact view_of_stack (fun id => rfl) (fun id => rfl) t layers none _ 0 _ _ F ht h4 h6 h5 (by rw [h3, Nat.zero_add]) (Nat.le_of_eq h3) (.inl h3)

theorem IsStack.ids_nodup {dec : List UInt8 → Option (List UInt8)} {pic : Int → Option P} {mask : Int → Option M} {t : Stk P M} {layers : List (LTree LayerRec)}
    (ht : IsStack dec pic mask layers t) (hu : UniqueDoc layers) : t.ids.Nodup := by
  obtain ⟨s, hs⟩ : ∃ s : Scene P M, (⟨newTree (fun n => n) dec (depthAll layers) layers, rootPtr, fun id => (pic id).map fun p => [((0, 0), p)],
    fun id => ((mask id).map fun p => [((0, 0), p)]).getD []⟩ : Scene P M) = s := ⟨_, rfl⟩
  have ok := C56_new_tree_is_ok (fun n => n) dec _ layers (Nat.le_refl _) hu (fun id => (pic id).map fun p => [(((0, 0) : TPt), p)])
    (fun id => ((mask id).map fun p => [(((0, 0) : TPt), p)]).getD [])
  have hv := view_of_doc (fun n => n) dec _ layers (Nat.le_refl _) (fun id => (pic id).map fun p => [((0, 0), p)])
    (fun id => ((mask id).map fun p => [((0, 0), p)]).getD []) (0, 0) t (by
      convert ht using 1
      · funext id
        cases pic id <;> rfl
      · funext id
        cases mask id <;> rfl)
  exact hv.nodup t _ _ _ rootPtr rfl (Nat.le_refl _) ok.unique

theorem IsStack.ids_nat {dec : List UInt8 → Option (List UInt8)} {pic : Int → Option P} {mask : Int → Option M} : ∀ (t : Stk P M) (layers : List (LTree LayerRec)),
    IsStack dec pic mask layers t → ∀ id ∈ t.ids, 0 ≤ id := by
  intro t
  induction t with
  | nil => intro _ _ id h; cases h
  | layer a p m kids clips rest ihk ihc ihr =>
    intro layers h id hid
    obtain ⟨l, sub, above, over, rfl, ha, -, -, hk, hc, hr, -⟩ := h
    simp only [Stk.ids, List.mem_cons, List.mem_append] at hid
    rcases hid with rfl | h | h | h
    · rw [ha.number]; omega
    · exact ihk _ hk id h
    · exact ihc _ hc id h
    · exact ihr _ hr id h

theorem rootView_of_stack (grow : Nat → Nat) (dec : List UInt8 → Option (List UInt8)) (n : Nat) (layers : List (LTree LayerRec)) (hf : depthAll layers ≤ n)
    (canvas : Int → Option (List (TPt × P))) (mask : Int → List (TPt × M)) (pt : TPt) (t : Stk P M)
    (ht : IsStack dec (fun id => (canvas id).bind (·.lookup pt)) (fun id => (mask id).lookup pt) layers t) (hn : t.ids.Nodup) :
    RootView ⟨newTree grow dec n layers, rootPtr, canvas, mask⟩ pt t ∧ t.depth ≤ 2 * n := by
  refine ⟨⟨view_of_doc grow dec n layers hf canvas mask pt t ht, hn, fun h => ?_⟩, ?_⟩
  · have := IsStack.ids_nat t layers ht _ h
    exact absurd this (by decide)
  · have := (IsStack.depth_le t layers ht).1
    omega

theorem renderTiles_fresh {s : Scene P M} {fuel : Nat} (diff : Bool) (T : TPt → Stk P M) (R : TPt → Bool × P) (hv : ∀ pt, RootView s pt (T pt))
    (hd : ∀ pt, (T pt).depth ≤ fuel) : ∀ (pts : List TPt), pts.Nodup → (∀ pt ∈ pts, paint ops (T pt) false id ops.blank = .ok (R pt)) → ∀ (st : RState P) (dest : TPt → P),
    (∀ pt ∈ pts, ∀ id, st.cached id pt = none) →
    ∃ st', renderTiles ops s fuel diff pts st dest = .ok (st', fun q => if q ∈ pts then tileShown ops (dest q) (R q) else dest q) := by
  intro pts
  induction pts with
  | nil => intro _ _ st dest _; exact ⟨st, by simp [renderTiles]⟩
  | cons pt pts ih =>
    intro hnd hp st dest hst
    obtain ⟨hn1, hn2⟩ := List.nodup_cons.1 hnd
    obtain ⟨st1, e1, o1⟩ := renderTile_fresh (hv pt) (hd pt) (st := st) (fun id _ => hst pt List.mem_cons_self id) (hp pt List.mem_cons_self) diff dest
    obtain ⟨st2, e2⟩ := ih hn2 (fun q hq => hp q (List.mem_cons_of_mem _ hq)) st1 (fun q => if q = pt then tileShown ops (dest q) (R pt) else dest q) (fun q hq id => by
      rw [(o1 id q (fun _ e => absurd (e ▸ hq) hn1)).1]
      exact hst q (List.mem_cons_of_mem _ hq) id)
    refine ⟨st2, ?_⟩
    rw [renderTiles, e1]
    simp only [Res.ok_bind, e2, Res.ok.injEq, Prod.mk.injEq, true_and]
    funext q
    by_cases hq : q = pt
    · subst hq
      simp [hn1]
    · simp [hq, List.mem_cons]

/-- The first render of a document, in terms of its stacks. -/
theorem render_stacks (grow : Nat → Nat) (dec : List UInt8 → Option (List UInt8)) (n : Nat) (layers : List (LTree LayerRec)) (hf : depthAll layers ≤ n)
    (canvas : Int → Option (List (TPt × P))) (mask : Int → List (TPt × M)) (fuel : Nat) (hfu : 2 * n ≤ fuel) (diff aborted : Bool) (visited : List TPt) (hnd : visited.Nodup)
    (dest : TPt → P) (T : TPt → Stk P M) (R : TPt → Bool × P) (hT : ∀ pt, IsStack dec (fun id => (canvas id).bind (·.lookup pt)) (fun id => (mask id).lookup pt) layers (T pt))
    (hn : ∀ pt, (T pt).ids.Nodup) (hR : ∀ pt, paint ops (T pt) false id ops.blank = .ok (R pt)) :
    ∃ st, render ops ⟨newTree grow dec n layers, rootPtr, canvas, mask⟩ fuel diff aborted visited .empty dest =
      .ok (st, fun pt => if pt ∈ visited then tileShown ops (dest pt) (R pt) else dest pt) := by
  have hv := fun pt => rootView_of_stack grow dec n layers hf canvas mask pt (T pt) (hT pt) (hn pt)
  obtain ⟨st, e⟩ := renderTiles_fresh (ops := ops) diff T R (fun pt => (hv pt).1) (fun pt => Nat.le_trans (hv pt).2 hfu) visited hnd (fun pt _ => hR pt) .empty dest
    (fun _ _ _ => rfl)
  refine ⟨if aborted then revert st else st, ?_⟩
  show (renderTiles ops _ fuel diff visited RState.empty dest >>= _) = _
  rw [e]
  rfl

theorem stacks_exist (dec : List UInt8 → Option (List UInt8)) (canvas : Int → Option (List (TPt × P))) (mask : Int → List (TPt × M)) (layers : List (LTree LayerRec)) :
    ∃ T : TPt → Stk P M, ∀ pt, IsStack dec (fun id => (canvas id).bind (·.lookup pt)) (fun id => (mask id).lookup pt) layers (T pt) := by
  have hex : ∀ pt, ∃ t, IsStack (P := P) (M := M) dec (fun id => (canvas id).bind (·.lookup pt)) (fun id => (mask id).lookup pt) layers t :=
    fun pt => stack_exists _ layers (Nat.le_refl _)
  exact ⟨fun pt => (hex pt).choose, fun pt => (hex pt).choose_spec⟩

end

theorem paints_exist (dec : List UInt8 → Option (List UInt8)) (layers : List (LTree LayerRec)) (hk : KnownModes layers) (canvas : Int → Option (List (TPt × Tile)))
    (mask : Int → List (TPt × (Nat → UInt8))) (T : TPt → Stk Tile (Nat → UInt8))
    (hT : ∀ pt, IsStack dec (fun id => (canvas id).bind (·.lookup pt)) (fun id => (mask id).lookup pt) layers (T pt)) :
    ∃ R : TPt → Bool × Tile, ∀ pt, paint tileOps (T pt) false id tileOps.blank = .ok (R pt) := by
  have hs := C69_known_document (fun n => n) dec _ layers (Nat.le_refl _) hk canvas mask
  have hp : ∀ pt, ∃ r, paint tileOps (T pt) false id tileOps.blank = .ok r := fun pt =>
    paint_ok tile_draws (T pt) (Stk.supported_of hs (T pt) _ 0 _ rootPtr ⟨[], rfl⟩ rfl (Nat.le_refl _)
      (view_of_doc (fun n => n) dec _ layers (Nat.le_refl _) canvas mask pt (T pt) (hT pt))) false id _ (fun o h => h)
  exact ⟨fun pt => (hp pt).choose, fun pt => (hp pt).choose_spec⟩

/-- C82: the first render of a document whose blend modes are known shows, in every tile it gets to, what painting the document's layers on a blank tile gives, and it leaves the
other tiles alone. -/
theorem C82_render_paints_the_layers (grow : Nat → Nat) (dec : List UInt8 → Option (List UInt8)) (n : Nat) (layers : List (LTree LayerRec)) (hf : depthAll layers ≤ n)
    (hu : UniqueDoc layers) (hk : KnownModes layers) (canvas : Int → Option (List (TPt × Tile))) (mask : Int → List (TPt × (Nat → UInt8))) (fuel : Nat) (hfu : 2 * n ≤ fuel)
    (diff aborted : Bool) (visited : List TPt) (hnd : visited.Nodup) (dest : TPt → Tile) :
    ∃ st dest', render tileOps ⟨newTree grow dec n layers, rootPtr, canvas, mask⟩ fuel diff aborted visited .empty dest = .ok (st, dest') ∧
      ∀ pt, ∃ t r, IsStack dec (fun id => (canvas id).bind (·.lookup pt)) (fun id => (mask id).lookup pt) layers t ∧ paint tileOps t false id tileOps.blank = .ok r ∧
        dest' pt = if pt ∈ visited then tileShown tileOps (dest pt) r else dest pt := by
  obtain ⟨T, hT⟩ := stacks_exist dec canvas mask layers
  obtain ⟨R, hR⟩ := paints_exist dec layers hk canvas mask T hT
  obtain ⟨st, e⟩ := render_stacks (ops := tileOps) grow dec n layers hf canvas mask fuel hfu diff aborted visited hnd dest T R hT (fun pt => (hT pt).ids_nodup hu) hR
  exact ⟨st, _, e, fun pt => ⟨T pt, R pt, hT pt, hR pt, rfl⟩⟩

/-- The stack C82 is about exists and is the only one. -/
theorem C82_one_stack {P M : Type} (dec : List UInt8 → Option (List UInt8)) (pic : Int → Option P) (mask : Int → Option M) (layers : List (LTree LayerRec)) :
    ∃ t, IsStack dec pic mask layers t ∧ ∀ t', IsStack dec pic mask layers t' → t' = t := by
  obtain ⟨t, ht⟩ := stack_exists (dec := dec) (pic := pic) (mask := mask) _ layers (Nat.le_refl _)
  exact ⟨t, ht, fun t' ht' => stack_unique t' t layers ht' ht⟩

/-! ### C83: only what is seen matters -/

theorem stack_same {dec : List UInt8 → Option (List UInt8)} {strict : Bool} {i : Nat} {pic pic' : Int → Option Tile} {mask mask' : Int → Option (Nat → UInt8)}
    (hp : ∀ id, SeenSame strict i (pic id) (pic' id)) (hm : ∀ id, MaskSame i (mask id) (mask' id)) : ∀ (t t' : Stk Tile (Nat → UInt8)) (layers : List (LTree LayerRec)),
    IsStack dec pic mask layers t → IsStack dec pic' mask' layers t' → StkSame strict i t t' := by
  intro t
  induction t with
  | nil =>
    intro t' layers h h'
    obtain rfl : layers = [] := h
    cases t' with
    | nil => trivial
    | layer =>
      obtain ⟨l, sub, above, over, e, -⟩ := h'
      cases e
  | layer a p m kids clips rest ihk ihc ihr =>
    intro t' layers h h'
    obtain ⟨l, sub, above, over, rfl, ha, rfl, rfl, hk, hc, hr, h1, h2, h3⟩ := h
    cases t' with
    | nil => cases (show _ :: _ = [] from h')
    | layer a' p' m' kids' clips' rest' =>
      obtain ⟨l', sub', above', over', e, ha', rfl, rfl, hk', hc', hr', h1', h2', h3'⟩ := h'
      injection e with e1 e2
      injection e1 with e3 e4
      subst e3 e4
      have : above = above' ∧ over = over' := by
        cases hl : l.clipping with
        | true =>
          rw [h2 hl, h2' hl] at e2 ⊢
          exact ⟨rfl, e2⟩
        | false => exact run_unique _ _ _ _ e2 h1 h1' (h3 hl) (h3' hl)
      obtain ⟨rfl, rfl⟩ := this
      exact ⟨ha.eq.trans ha'.eq.symm, hp _, hm _, ihk _ _ hk hk', ihc _ _ hc hc', ihr _ _ hr hr'⟩

theorem stack_noPass {P M : Type} {dec : List UInt8 → Option (List UInt8)} {pic : Int → Option P} {mask : Int → Option M} : ∀ (t : Stk P M) (layers : List (LTree LayerRec)),
    IsStack dec pic mask layers t → NoPassThrough layers → t.noPass := by
  intro t
  induction t with
  | nil => intros; trivial
  | layer a p m kids clips rest ihk ihc ihr =>
    intro layers h hn
    obtain ⟨l, sub, above, over, rfl, ha, -, -, hk, hc, hr, -⟩ := h
    obtain ⟨n1, n2, n3⟩ := DocAll.cons (Q := fun l _ => l.folder = true → l.sdBlendMode ≠ ascii "pass") hn
    obtain ⟨n4, n5⟩ := DocAll.append n3
    refine ⟨?_, ihk _ hk n2, ihc _ hc n4, ihr _ hr n5⟩
    cases hfo : l.folder with
    | true => rw [ha.folderMode hfo]; exact n1 hfo
    | false =>
      by_cases hpa : l.blendMode = ascii "pass"
      · rw [ha.noPass hfo hpa]; decide
      · rw [ha.layerMode hfo hpa]; exact hpa

theorem tileShown_same {i : Nat} {r r' : Bool × Tile} {t t' : Stk Tile (Nat → UInt8)} (h : (r.2 i).Same (r'.2 i)) (e : paint tileOps t false id tileOps.blank = .ok r)
    (e' : paint tileOps t' false id tileOps.blank = .ok r') (old old' : Tile) : tileShown tileOps old r i = tileShown tileOps old' r' i := by
  have idle : ∀ (r : Bool × Tile) (t : Stk Tile (Nat → UInt8)), paint tileOps t false id tileOps.blank = .ok r → r.1 = false → (r.2 i).a = 0 := by
    intro r t e h
    obtain ⟨d, x⟩ := r
    subst h
    rw [paint_idle _ _ _ _ _ e]
    rfl
  have zero : ∀ x : Tile, (x i).a = 0 → tileOps.copy (tileOps.copy x) i = ⟨0, 0, 0, 0⟩ := fun x hx => copy_zero (by rw [copy_alpha]; exact hx)
  unfold tileShown
  cases h1 : r.1 with
  | true =>
    cases h2 : r'.1 with
    | true => exact copy_same (.inl (copy_same h))
    | false =>
      simp only [if_true, Bool.false_eq_true, if_false]
      rw [clear_px, zero _ (h.symm.of_alpha (idle _ _ e' h2))]
  | false =>
    cases h2 : r'.1 with
    | true =>
      simp only [if_true, Bool.false_eq_true, if_false]
      rw [clear_px, zero _ (h.of_alpha (idle _ _ e h1))]
    | false =>
      simp only [Bool.false_eq_true, if_false]
      rw [clear_px, clear_px]

/-- C83: two renders of a document, the layers' pixels in one being other than in the other, give the same pixel wherever the layers look the same and the masks agree at this pixel.
The tiles there are may differ only if no folder is pass-through. -/
theorem C83_only_what_is_seen (grow : Nat → Nat) (dec : List UInt8 → Option (List UInt8)) (n : Nat) (layers : List (LTree LayerRec)) (hf : depthAll layers ≤ n)
    (hu : UniqueDoc layers) (hk : KnownModes layers) (canvas canvas' : Int → Option (List (TPt × Tile))) (mask mask' : Int → List (TPt × (Nat → UInt8))) (strict : Bool)
    (hnp : strict = true ∨ NoPassThrough layers) (pt : TPt) (i : Nat)
    (hpic : ∀ id, SeenSame strict i ((canvas id).bind (·.lookup pt)) ((canvas' id).bind (·.lookup pt))) (hmask : ∀ id, MaskSame i ((mask id).lookup pt) ((mask' id).lookup pt))
    (fuel : Nat) (hfu : 2 * n ≤ fuel) (diff aborted diff' aborted' : Bool) (visited visited' : List TPt) (hnd : visited.Nodup) (hnd' : visited'.Nodup) (hpt : pt ∈ visited)
    (hpt' : pt ∈ visited') (dest dest' : TPt → Tile) :
    ∃ st d st' d', render tileOps ⟨newTree grow dec n layers, rootPtr, canvas, mask⟩ fuel diff aborted visited .empty dest = .ok (st, d) ∧
      render tileOps ⟨newTree grow dec n layers, rootPtr, canvas', mask'⟩ fuel diff' aborted' visited' .empty dest' = .ok (st', d') ∧ d pt i = d' pt i := by
  obtain ⟨st, d, e, h⟩ := C82_render_paints_the_layers grow dec n layers hf hu hk canvas mask fuel hfu diff aborted visited hnd dest
  obtain ⟨st', d', e', h'⟩ := C82_render_paints_the_layers grow dec n layers hf hu hk canvas' mask' fuel hfu diff' aborted' visited' hnd' dest'
  refine ⟨st, d, st', d', e, e', ?_⟩
  obtain ⟨t, r, h1, h2, h3⟩ := h pt
  obtain ⟨t', r', h1', h2', h3'⟩ := h' pt
  rw [if_pos hpt] at h3
  rw [if_pos hpt'] at h3'
  rw [h3, h3']
  exact tileShown_same (paint_same t t' (stack_same hpic hmask t t' layers h1 h1') (hnp.imp id (stack_noPass t layers h1)) false id _ _ r r' (.refl _) h2 h2').1 h2 h2' _ _

end Psd
