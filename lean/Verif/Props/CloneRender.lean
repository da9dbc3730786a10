import Verif.Spec.Alike
import Verif.Props.Picture

/-!
# Theorem C98: a clone is rendered like its original, and independently of it
-/

namespace Psd

section
variable {P M : Type} {s s' : Scene P M} {pt : TPt}

theorem AlikeTrees.child {h h' : CHeap} {p p' : Ptr} (a : AlikeTrees h p h' p') {i : Nat} (hi : i < (h.at_ p).children.len) (hi' : i < (h'.at_ p').children.len) :
    AlikeTrees h ((h.at_ p).children.arr, i) h' ((h'.at_ p').children.arr, i) := by
  intro π
  have := a (i :: π)
  rwa [slotAt_child hi, slotAt_child hi'] at this

theorem AlikeTrees.symm {h h' : CHeap} {p p' : Ptr} (a : AlikeTrees h p h' p') : AlikeTrees h' p' h p := fun π => (a π).symm

theorem AlikeTrees.lt {h h' : CHeap} {p p' : Ptr} (a : AlikeTrees h p h' p') {i : Nat} (hi : i < (h.at_ p).children.len) : i < (h'.at_ p').children.len := by
  have := a [i]
  rw [slotAt_child hi] at this
  by_cases hi' : i < (h'.at_ p').children.len
  · exact hi'
  · rw [show slotAt h' p' [i] = none by rw [slotAt, if_neg hi']] at this
    simp [slotAt] at this

theorem AlikeTrees.len {h h' : CHeap} {p p' : Ptr} (a : AlikeTrees h p h' p') : (h'.at_ p').children.len = (h.at_ p).children.len := by
  by_cases h1 : (h'.at_ p').children.len < (h.at_ p).children.len
  · exact absurd (a.lt h1) (Nat.lt_irrefl _)
  · by_cases h2 : (h.at_ p).children.len < (h'.at_ p').children.len
    · exact absurd (a.symm.lt h2) (Nat.lt_irrefl _)
    · omega

theorem AlikeTrees.attr {h h' : CHeap} {p p' : Ptr} (a : AlikeTrees h p h' p') : (h'.at_ p').attr = (h.at_ p).attr := by
  have := a []
  simp only [slotAt, Option.map_some, Option.some.injEq] at this
  exact this.symm

theorem alike_slot {h h' : CHeap} {p p' : Ptr} (a : AlikeTrees h p h' p') {π : List Nat} {q' : Ptr} (hq : slotAt h' p' π = some q') :
    ∃ q, slotAt h p π = some q ∧ (h'.at_ q').attr = (h.at_ q).attr := by
  have := a π
  rw [hq] at this
  cases hs : slotAt h p π with
  | none => rw [hs] at this; cases this
  | some q =>
    rw [hs] at this
    simp only [Option.map_some, Option.some.injEq] at this
    exact ⟨q, rfl, this.symm⟩

theorem map_some_inj {arr : Nat} : ∀ {l l' : List Nat}, l.map (fun k => some ((arr, k) : Ptr)) = l'.map (fun k => some (arr, k)) → l = l' := by
  intro l l' h
  refine List.map_injective_iff.2 (fun a b h => ?_) h
  simpa using h

/-- What is seen of layers that look the same is the same. -/
theorem view_alike (hp : s'.canvas = s.canvas) (hm : s'.mask = s.mask) : ∀ (t : Stk P M) (q q' : Ptr) (i n : Nat), AlikeTrees s.h q s'.h q' →
    (∀ π r, slotAt s.h q π = some r → ClippingOk s.h (s.h.at_ r).children.arr (s.h.at_ r).children.len) →
    (∀ π r, slotAt s'.h q' π = some r → ClippingOk s'.h (s'.h.at_ r).children.arr (s'.h.at_ r).children.len) →
    n ≤ (s.h.at_ q).children.len → View s pt t (s.h.at_ q).children.arr i n → View s' pt t (s'.h.at_ q').children.arr i n := by
  intro t
  induction t with
  | nil => intro q q' i n _ _ _ _ hv; exact hv
  | layer a pic mask kids clips rest ihk ihc ihr =>
    intro q q' i n al ok ok' hn hv
    obtain ⟨j, h1, h2, hat, hpic, hmask, hvk, hvc, hac, hj, hclip, hvr⟩ := hv
    have hi : i < (s.h.at_ q).children.len := by omega
    have hi' : i < (s'.h.at_ q').children.len := al.lt hi
    have ak := al.child hi hi'
    refine ⟨j, h1, h2, by rw [ak.attr, hat], ?_, by rw [hm]; exact hmask, ?_, ihc q q' _ _ al ok ok' (by omega) hvc, hac, hj, ?_, ihr q q' _ _ al ok ok' hn hvr⟩
    · rw [← hpic]
      simp only [Scene.pic, hp]
    · rw [ak.len]
      refine ihk _ _ 0 _ ak (fun π r h => ok (i :: π) r ?_) (fun π r h => ok' (i :: π) r ?_) (Nat.le_refl _) hvk
      · rw [slotAt_child hi]; exact h
      · rw [slotAt_child hi']; exact h
    · have c := (ok [] q rfl i hi).2.2
      have c' := (ok' [] q' rfl i hi').2.2
      rw [hclip] at c
      have e := map_some_inj c
      rw [c', e]
      congr 1
      rw [al.len]
      apply List.filter_congr
      intro k hk
      have hk := List.mem_range.1 hk
      have hcl : ∀ k, k < (s.h.at_ q).children.len → (s'.h.at_ ((s'.h.at_ q').children.arr, k)).attr.clipping = (s.h.at_ ((s.h.at_ q).children.arr, k)).attr.clipping :=
        fun k hk => by rw [(al.child hk (al.lt hk)).attr]
      refine decide_eq_decide.2 ?_
      unfold IsBase
      constructor
      · rintro ⟨a1, a2, a3⟩
        exact ⟨a1, (hcl i hi).symm.trans a2, fun k' k1 k2 => (hcl k' (by omega)).symm.trans (a3 k' k1 k2)⟩
      · rintro ⟨a1, a2, a3⟩
        exact ⟨a1, (hcl i hi).trans a2, fun k' k1 k2 => (hcl k' (by omega)).trans (a3 k' k1 k2)⟩

theorem rootView_alike {d : Nat} (ok : TreeOk s d) (ok' : TreeOk s' d) (al : AlikeTrees s.h s.root s'.h s'.root) (hp : s'.canvas = s.canvas) (hm : s'.mask = s.mask)
    {t : Stk P M} (hv : RootView s pt t) : RootView s' pt t := by
  refine ⟨?_, hv.2⟩
  rw [al.len]
  exact view_alike hp hm t _ _ _ _ al ok.clipping ok'.clipping (Nat.le_refl _) hv.1

end

/-- C98: two trees that look the same, with the same pixels and masks, are rendered the same, by renderers that have not rendered before. -/
theorem C98_alike_renders_alike {s s' : Scene Tile (Nat → UInt8)} {d : Nat} (ok : TreeOk s d) (ok' : TreeOk s' d) (al : AlikeTrees s.h s.root s'.h s'.root)
    (hp : s'.canvas = s.canvas) (hm : s'.mask = s.mask) (hs : Supported (fun _ => True) (fun m => blendMode m ≠ none) s)
    (fuel : Nat) (hfu : 2 * d ≤ fuel) (diff aborted : Bool) (visited : List TPt) (hnd : visited.Nodup) (dest : TPt → Tile) :
    ∃ st st' dest', render tileOps s fuel diff aborted visited .empty dest = .ok (st, dest') ∧ render tileOps s' fuel diff aborted visited .empty dest = .ok (st', dest') := by
  have hv : ∀ pt, ∃ t, RootView s pt t ∧ t.depth ≤ 2 * d := fun pt => rootView_exists ok pt
  have hpnt : ∀ pt, ∃ r, paint tileOps (hv pt).choose false id tileOps.blank = .ok r := fun pt =>
    paint_ok tile_draws _ (Stk.supported_of hs _ _ 0 _ s.root ⟨[], rfl⟩ rfl (Nat.le_refl _) (hv pt).choose_spec.1.1) false id _ (fun o h => h)
  obtain ⟨st, e⟩ := renderTiles_fresh (ops := tileOps) (s := s) diff (fun pt => (hv pt).choose) (fun pt => (hpnt pt).choose) (fun pt => (hv pt).choose_spec.1)
    (fun pt => Nat.le_trans (hv pt).choose_spec.2 hfu) visited hnd (fun pt _ => (hpnt pt).choose_spec) .empty dest (fun _ _ _ => rfl)
  obtain ⟨st', e'⟩ := renderTiles_fresh (ops := tileOps) (s := s') diff (fun pt => (hv pt).choose) (fun pt => (hpnt pt).choose)
    (fun pt => rootView_alike ok ok' al hp hm (hv pt).choose_spec.1)
    (fun pt => Nat.le_trans (hv pt).choose_spec.2 hfu) visited hnd (fun pt _ => (hpnt pt).choose_spec) .empty dest (fun _ _ _ => rfl)
  refine ⟨if aborted then revert st else st, if aborted then revert st' else st',
    fun q => if q ∈ visited then tileShown tileOps (dest q) (hpnt q).choose else dest q, ?_, ?_⟩
  · show (renderTiles tileOps _ fuel diff visited RState.empty dest >>= _) = _
    rw [e]
    rfl
  · show (renderTiles tileOps _ fuel diff visited RState.empty dest >>= _) = _
    rw [e']
    rfl

/-! ### Clones -/

section
variable {P M : Type}

theorem slotAt_frame {h h2 : CHeap} {p : Ptr} (hc : ∀ π q, slotAt h p π = some q → h2.at_ q = h.at_ q) : ∀ π, slotAt h2 p π = slotAt h p π := by
  intro π
  induction π generalizing p with
  | nil => rfl
  | cons i π ih =>
    have e := hc [] p rfl
    rw [slotAt, slotAt, e]
    split
    · rename_i hi
      exact ih (fun ρ q hq => hc (i :: ρ) q (by rw [slotAt_child hi]; exact hq))
    · rfl

theorem alike_frame {h h2 : CHeap} {p : Ptr} (hc : ∀ π q, slotAt h p π = some q → h2.at_ q = h.at_ q) : AlikeTrees h p h2 p := by
  intro π
  rw [slotAt_frame hc]
  cases hs : slotAt h p π with
  | none => rfl
  | some q => simp only [Option.map_some, hc π q hs]

/-- A tree of which no layer changes remains well-formed. -/
theorem TreeOk.frame {s : Scene P M} {d : Nat} (ok : TreeOk s d) {h2 : CHeap} (hc : ∀ π q, slotAt s.h s.root π = some q → h2.at_ q = s.h.at_ q) :
    TreeOk { s with h := h2 } d := by
  have hs := slotAt_frame hc
  refine ⟨fun π q hq => ok.finite π q (by rw [← hs]; exact hq), fun π π' q q' hq hq' e => ?_, ?_, fun π q hq => ?_⟩
  · rw [hs] at hq hq'
    rw [hc π q hq, hc π' q' hq'] at e
    exact ok.unique π π' q q' hq hq' e
  · rw [hc [] s.root rfl]
    exact ok.rootID
  · simp only at hq ⊢
    rw [hs] at hq
    rw [hc π q hq]
    have o := ok.clipping π q hq
    have cell : ∀ k, k < (s.h.at_ q).children.len → h2.at_ ((s.h.at_ q).children.arr, k) = s.h.at_ ((s.h.at_ q).children.arr, k) := fun k hk =>
      hc (π ++ [k]) _ (by rw [slotAt_append π _ q [k] hq, slotAt_child hk, slotAt])
    have hcl : ∀ k, k < (s.h.at_ q).children.len → (h2.at_ ((s.h.at_ q).children.arr, k)).attr.clipping = (s.h.at_ ((s.h.at_ q).children.arr, k)).attr.clipping :=
      fun k hk => by rw [cell k hk]
    have hb : ∀ b j, j < (s.h.at_ q).children.len → (IsBase (fun k => (h2.at_ ((s.h.at_ q).children.arr, k)).attr.clipping) b j ↔
        IsBase (fun k => (s.h.at_ ((s.h.at_ q).children.arr, k)).attr.clipping) b j) := by
      intro b j hj
      unfold IsBase
      constructor
      · rintro ⟨a1, a2, a3⟩
        exact ⟨a1, (hcl b (by omega)).symm.trans a2, fun k k1 k2 => (hcl k (by omega)).symm.trans (a3 k k1 k2)⟩
      · rintro ⟨a1, a2, a3⟩
        exact ⟨a1, (hcl b (by omega)).trans a2, fun k k1 k2 => (hcl k (by omega)).trans (a3 k k1 k2)⟩
    intro j hj
    obtain ⟨o1, o2, o3⟩ := o j hj
    rw [cell j hj]
    refine ⟨fun b h => o1 b ((hb b j hj).1 h), fun h => o2 fun b h' => h b ((hb b j hj).2 h'), ?_⟩
    rw [o3]
    congr 1
    apply List.filter_congr
    intro k hk
    exact decide_eq_decide.2 (hb j k (List.mem_range.1 hk)).symm

/-- The clone of a well-formed tree. -/
theorem clone_facts {s : Scene P M} {d : Nat} (ok : TreeOk s d) (own : Owned s.h s.root) {cf : Nat} (hcf : d < cf) {h' : CHeap} {dest : Ptr}
    (e : cloneTree cf s.root s.h = (h', dest)) :
    (∀ q, q.1 < s.h.next → h'.at_ q = s.h.at_ q) ∧ AlikeTrees s.h s.root h' dest ∧ (∀ π q, slotAt h' dest π = some q → s.h.next ≤ q.1) ∧
      TreeOk ⟨h', dest, s.canvas, s.mask⟩ d := by
  obtain ⟨h1, dest1, e1, old, -, hc⟩ := C55_clone cf s.root s.h (fun π q hq => ⟨by have := ok.finite π q hq; omega, own.exist π q hq⟩) ok.unique own.links
  rw [e] at e1
  injection e1 with e1 e2
  subst e1 e2
  have back : ∀ π q, slotAt h' dest π = some q → ∃ r, slotAt s.h s.root π = some r := by
    intro π q hd
    have := hc π
    cases hs : slotAt s.h s.root π with
    | none => rw [hs] at this; simp only [hd, reduceCtorEq] at this
    | some r => exact ⟨r, rfl⟩
  have at_ : ∀ π r q, slotAt s.h s.root π = some r → slotAt h' dest π = some q → CopiedAt s.h h' s.root dest r q := fun π r q hs hd => by
    have := hc π
    rw [hs] at this
    obtain ⟨d', e, r⟩ := this
    rw [hd] at e
    injection e with e
    subst e
    exact r
  refine ⟨old, fun π => ?_, fun π q hq => ?_, ?_, ?_, ?_, ?_⟩
  · have := hc π
    cases hs : slotAt s.h s.root π with
    | none =>
      rw [hs] at this
      simp only at this
      rw [this]
      rfl
    | some r =>
      rw [hs] at this
      obtain ⟨q, q1, -, q2, -⟩ := this
      rw [q1, Option.map_some, Option.map_some, q2]
  · obtain ⟨r, hr⟩ := back π q hq
    exact (at_ π r q hr hq).1
  · intro π q hq
    obtain ⟨r, hr⟩ := back π q hq
    exact ok.finite π r hr
  · intro π π' q q' hq hq' hid
    obtain ⟨r, hr⟩ := back π q hq
    obtain ⟨r', hr'⟩ := back π' q' hq'
    simp only [(at_ π r q hr hq).2.1, (at_ π' r' q' hr' hq').2.1] at hid
    exact ok.unique π π' r r' hr hr' hid
  · have := (at_ [] s.root dest rfl rfl).2.1
    simp only [this]
    exact ok.rootID
  · intro π q hq
    obtain ⟨r, hr⟩ := back π q hq
    exact clone_clipping at_ hr hq (at_ π r q hr hq).2.2.1 (ok.clipping π r hr)

/-- Layers that are not changed are the same as before. -/
theorem EditOk.same {h h2 : CHeap} {root : Ptr} {ps : List Ptr} (e : EditOk h h2 root ps) {q : Ptr} (hq : q ∉ ps) : h2.at_ q = h.at_ q := by
  obtain ⟨l1, l2, l3, l4⟩ := e.links q
  have l5 := e.others q hq
  cases hx : h2.at_ q
  cases hy : h.at_ q
  simp_all

end

/-- C98: the clone of a tree is rendered like the tree itself. -/
theorem C98_clone_renders_alike {s : Scene Tile (Nat → UInt8)} {d : Nat} (ok : TreeOk s d) (own : Owned s.h s.root) {cf : Nat} (hcf : d < cf) {h' : CHeap} {root' : Ptr}
    (e : cloneTree cf s.root s.h = (h', root')) (hs : Supported (fun _ => True) (fun m => blendMode m ≠ none) s)
    (fuel : Nat) (hfu : 2 * d ≤ fuel) (diff aborted : Bool) (visited : List TPt) (hnd : visited.Nodup) (dest : TPt → Tile) :
    ∃ st st' dest', render tileOps s fuel diff aborted visited .empty dest = .ok (st, dest') ∧
      render tileOps ⟨h', root', s.canvas, s.mask⟩ fuel diff aborted visited .empty dest = .ok (st', dest') := by
  obtain ⟨-, al, -, ok'⟩ := clone_facts ok own hcf e
  exact C98_alike_renders_alike ok ok' al rfl rfl hs fuel hfu diff aborted visited hnd dest

/-- C98: whatever is changed in the clone, the original is rendered as before. -/
theorem C98_original_stays {s : Scene Tile (Nat → UInt8)} {d : Nat} (ok : TreeOk s d) (own : Owned s.h s.root) {cf : Nat} (hcf : d < cf) {h' : CHeap} {root' : Ptr}
    (e : cloneTree cf s.root s.h = (h', root')) (hs : Supported (fun _ => True) (fun m => blendMode m ≠ none) s) {h2 : CHeap} {ps : List Ptr} (hed : EditOk h' h2 root' ps)
    (fuel : Nat) (hfu : 2 * d ≤ fuel) (diff aborted : Bool) (visited : List TPt) (hnd : visited.Nodup) (dest : TPt → Tile) :
    ∃ st st' dest', render tileOps s fuel diff aborted visited .empty dest = .ok (st, dest') ∧
      render tileOps { s with h := h2 } fuel diff aborted visited .empty dest = .ok (st', dest') := by
  obtain ⟨old, al, new, ok'⟩ := clone_facts ok own hcf e
  have hc : ∀ π q, slotAt s.h s.root π = some q → h2.at_ q = s.h.at_ q := fun π q hq => by
    have h1 := own.exist π q hq
    rw [hed.same (fun hm => ?_), old q h1]
    obtain ⟨ρ, hρ⟩ := hed.layers q hm
    have := new ρ q hρ
    omega
  exact C98_alike_renders_alike ok (ok.frame hc) (alike_frame hc) rfl rfl hs fuel hfu diff aborted visited hnd dest

/-- C98: whatever is changed in the original, the clone is rendered as the original was when it was cloned. -/
theorem C98_clone_stays {s : Scene Tile (Nat → UInt8)} {d : Nat} (ok : TreeOk s d) (own : Owned s.h s.root) {cf : Nat} (hcf : d < cf) {h' : CHeap} {root' : Ptr}
    (e : cloneTree cf s.root s.h = (h', root')) (hs : Supported (fun _ => True) (fun m => blendMode m ≠ none) s) {h2 : CHeap} {ps : List Ptr} (hed : EditOk h' h2 s.root ps)
    (fuel : Nat) (hfu : 2 * d ≤ fuel) (diff aborted : Bool) (visited : List TPt) (hnd : visited.Nodup) (dest : TPt → Tile) :
    ∃ st st' dest', render tileOps s fuel diff aborted visited .empty dest = .ok (st, dest') ∧
      render tileOps ⟨h2, root', s.canvas, s.mask⟩ fuel diff aborted visited .empty dest = .ok (st', dest') := by
  obtain ⟨old, al, new, ok'⟩ := clone_facts ok own hcf e
  have hso : ∀ π, slotAt h' s.root π = slotAt s.h s.root π := slotAt_frame (fun π q hq => old q (own.exist π q hq))
  have hc : ∀ π q, slotAt h' root' π = some q → h2.at_ q = h'.at_ q := fun π q hq => by
    have h1 := new π q hq
    refine hed.same (fun hm => ?_)
    obtain ⟨ρ, hρ⟩ := hed.layers q hm
    rw [hso] at hρ
    have := own.exist ρ q hρ
    omega
  have al2 : AlikeTrees s.h s.root h2 root' := fun π => (al π).trans (alike_frame hc π)
  exact C98_alike_renders_alike ok (ok'.frame hc) al2 rfl rfl hs fuel hfu diff aborted visited hnd dest

/-- The trees `New` makes meet the conditions. -/
theorem C98_new_is_owned (grow : Nat → Nat) (dec : List UInt8 → Option (List UInt8)) (n : Nat) (layers : List (LTree LayerRec)) (hf : depthAll layers ≤ n) (hu : UniqueDoc layers)
    (hk : KnownModes layers) (canvas : Int → Option (List (TPt × Tile))) (mask : Int → List (TPt × (Nat → UInt8))) :
    TreeOk (⟨newTree grow dec n layers, rootPtr, canvas, mask⟩ : Scene Tile (Nat → UInt8)) n ∧ Owned (newTree grow dec n layers) rootPtr ∧
      Supported (fun _ => True) (fun m => blendMode m ≠ none) (⟨newTree grow dec n layers, rootPtr, canvas, mask⟩ : Scene Tile (Nat → UInt8)) := by
  obtain ⟨h1, h2, h3⟩ := newTree_clonable grow dec n layers hf hu
  exact ⟨C56_new_tree_is_ok grow dec n layers hf hu canvas mask, ⟨fun π q hq => (h1 π q hq).2, h3⟩, C69_known_document grow dec n layers hf hk canvas mask⟩

/-- A layer with another clipped to it. -/
def cloneDoc : List (LTree LayerRec) :=
  [.node { seqID := 0, blendMode := ascii "norm", opacity := 255, blendClippedElements := true } [],
    .node { seqID := 1, blendMode := ascii "mul ", opacity := 128, clipping := true } []]

theorem cloneDoc_paths {π : List Nat} {l : LayerRec} {kids : List (LTree LayerRec)} (h : docAt cloneDoc π = some (.node l kids)) :
    π = [0] ∧ l = { seqID := 0, blendMode := ascii "norm", opacity := 255, blendClippedElements := true } ∨
      π = [1] ∧ l = { seqID := 1, blendMode := ascii "mul ", opacity := 128, clipping := true } := by
  match π with
  | [] => cases h
  | [0] => simp [docAt, cloneDoc, LTree.sub] at h; exact .inl ⟨rfl, h.1.symm⟩
  | [1] => simp [docAt, cloneDoc, LTree.sub] at h; exact .inr ⟨rfl, h.1.symm⟩
  | (i + 2) :: π => simp [docAt, cloneDoc] at h
  | 1 :: i :: π => simp [docAt, cloneDoc, LTree.sub] at h
  | 0 :: i :: π => simp [docAt, cloneDoc, LTree.sub] at h

/-- The tree of `cloneDoc` with some pixels. -/
def cloneScene : Scene Tile (Nat → UInt8) where
  h := newTree (fun n => n) some 1 cloneDoc
  root := rootPtr
  canvas := fun id => if id = 0 then some [((0, 0), plainTile ⟨200, 100, 0, 255⟩)] else if id = 1 then some [((0, 0), plainTile ⟨10, 20, 30, 255⟩)] else none
  mask := fun _ => []

/-- The hypotheses are met: the upper layer of the clone is hidden. -/
example : TreeOk cloneScene 1 ∧ Owned cloneScene.h cloneScene.root ∧ Supported (fun _ => True) (fun m => blendMode m ≠ none) cloneScene ∧
    EditOk (cloneTree 2 cloneScene.root cloneScene.h).1 (withAttr (cloneTree 2 cloneScene.root cloneScene.h).1 (5, 1) fun a => { a with visible := false })
      (cloneTree 2 cloneScene.root cloneScene.h).2 [(5, 1)] := by
  obtain ⟨h1, h2, h3⟩ := C98_new_is_owned (fun n => n) some 1 cloneDoc (by decide) (fun π π' l l' kids kids' h h' e => by
    rcases cloneDoc_paths h with ⟨rfl, rfl⟩ | ⟨rfl, rfl⟩ <;> rcases cloneDoc_paths h' with ⟨rfl, rfl⟩ | ⟨rfl, rfl⟩ <;> first | rfl | cases e) (fun π l kids h => by
    rcases cloneDoc_paths h with ⟨rfl, rfl⟩ | ⟨rfl, rfl⟩ <;> decide) cloneScene.canvas cloneScene.mask
  exact ⟨h1, h2, h3, EditOk.one ⟨[1], by decide +kernel⟩ (fun a => ⟨rfl, rfl, rfl⟩)⟩

/-- The pictures of the original, of the clone, and of both after the change. -/
example :
    let c := cloneTree 2 cloneScene.root cloneScene.h
    let h2 := withAttr c.1 (5, 1) fun a => { a with visible := false }
    let px (s : Scene Tile (Nat → UInt8)) := (render tileOps s 2 false false [(0, 0)] .empty blank).map fun r => r.2 (0, 0) 5
    px cloneScene = .ok ⟨103, 53, 0, 255⟩ ∧ px { cloneScene with h := c.1, root := c.2 } = .ok ⟨103, 53, 0, 255⟩ ∧
      px { cloneScene with h := h2, root := c.2 } = .ok ⟨200, 100, 0, 255⟩ ∧ px { cloneScene with h := h2 } = .ok ⟨103, 53, 0, 255⟩ := by
  decide +kernel

end Psd
