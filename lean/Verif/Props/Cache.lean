import Verif.Lemmas.Crisp
import Verif.Spec.WithAttr
import Verif.Lemmas.Sync
import Verif.Props.Renderer
import Verif.Props.Clone

/-!
# Theorems C56, C57 and C71: rendering from the caches
-/

namespace Psd

theorem HardEdged.change {s : Scene Tile (Nat → UInt8)} (h : HardEdged s) (h' : CHeap) : HardEdged { s with h := h' } := ⟨h.pics, h.masks⟩

theorem TreeOk.map {P M Q N : Type} {s : Scene P M} {depth : Nat} (h : TreeOk s depth) (f : P → Q) (g : M → N) : TreeOk (s.map f g) depth :=
  ⟨h.finite, h.unique, h.rootID, h.clipping⟩

theorem Linked.map {P M Q N : Type} {s : Scene P M} {depth : Nat} (h : Linked s depth) (f : P → Q) (g : M → N) : Linked (s.map f g) depth := by
  refine ⟨h.toTreeOk.map f g, h.parents, fun π q hq hl => ?_⟩
  have := h.folders π q hq hl
  simp only [Scene.map]
  rw [this]
  rfl

/-- The renderer of a tree with hard edges, whose entries are right. -/
def CrispGood (depth : Nat) (y : RSys Tile (Nat → UInt8)) : Prop :=
  Good crispOps Subtype.val Subtype.val depth (y.scene.map crispTile crispMask) (y.norm tileC maskC)

theorem CrispGood.new {s : Scene Tile (Nat → UInt8)} {depth : Nat} (ok : TreeOk s depth) (dest : TPt → Tile) (diff : Bool) :
    CrispGood depth ⟨s, .empty, dest, diff, none⟩ :=
  ⟨crisp_map s, .empty, SameState.empty, StateOk.empty (ok.map _ _)⟩

theorem CrispGood.step {y y' : RSys Tile (Nat → UInt8)} {depth fuel : Nat} (hf : 2 * depth ≤ fuel) (he : HardEdged y.scene) (hs : FullyShown y.scene)
    (h : CrispGood depth y) {ev : REvent Tile} (hev : NoChange y ev) (e : y.step tileOps fuel ev = .ok y') : CrispGood depth y' ∧ y'.scene = y.scene := by
  obtain ⟨e', es⟩ := step_plain he.plain hev e
  refine ⟨?_, es⟩
  unfold CrispGood
  rw [es]
  exact Good.step (s := y.scene.map crispTile crispMask) crisp_sim crisp_exact crisp_draws (Op := fun o => o = 0 ∨ o = 255) (Md := fun m => blendMode m ≠ none) hs hf h hev e'

theorem CrispGood.render {y : RSys Tile (Nat → UInt8)} {depth fuel : Nat} (hf : 2 * depth ≤ fuel) (ok : TreeOk y.scene depth) (he : HardEdged y.scene)
    (hs : FullyShown y.scene) (h : CrispGood depth y) (visited : List TPt) (dest : TPt → Tile) :
    ∃ st st' dest', render tileOps y.scene fuel false false visited y.st dest = .ok (st, dest') ∧
      render tileOps y.scene fuel false false visited .empty dest = .ok (st', dest') := by
  have := render_same crisp_sim crisp_exact crisp_draws (Op := fun o => o = 0 ∨ o = 255) (Md := fun m => blendMode m ≠ none)
    (s := y.scene.map crispTile crispMask) hs hf (ok.map _ _) h visited dest
  simp only [RSys.norm, render_plain he.plain] at this
  exact this

/-- C56, for pictures with hard edges: whatever was rendered, cancelled and marked dirty before, in whatever order, `Render` gives the
picture a new renderer would give. Missing: pixels and layers that are partly transparent (`C56_lossy_cache`). -/
theorem C56_cached_is_fresh_partial (s : Scene Tile (Nat → UInt8)) (depth fuel : Nat) (hf : 2 * depth ≤ fuel) (ok : TreeOk s depth) (he : HardEdged s)
    (hs : FullyShown s) (y : RSys Tile (Nat → UInt8)) (u : Rendered tileOps fuel s y) (visited : List TPt) (dest : TPt → Tile) :
    ∃ st st' dest', render tileOps s fuel false false visited y.st dest = .ok (st, dest') ∧
      render tileOps s fuel false false visited .empty dest = .ok (st', dest') := by
  have : CrispGood depth y ∧ y.scene = s := by
    induction u with
    | new dest diff => exact ⟨CrispGood.new ok dest diff, rfl⟩
    | step y y' ev _ hev e ih =>
      obtain ⟨h1, h2⟩ := ih
      obtain ⟨h3, h4⟩ := CrispGood.step hf (h2 ▸ he) (h2 ▸ hs) h1 hev e
      exact ⟨h3, h4.trans h2⟩
  obtain ⟨h, rfl⟩ := this
  exact h.render hf ok he hs visited dest

theorem lived_good {s : Scene Tile (Nat → UInt8)} {depth fuel : Nat} (hf : 2 * depth < fuel) (lk : Linked s depth) (he : HardEdged s) {y : RSys Tile (Nat → UInt8)}
    (u : Lived tileOps fuel FullyShown s y) : CrispGood depth y ∧ Linked y.scene depth ∧ HardEdged y.scene ∧ FullyShown y.scene := by
  induction u with
  | new dest diff hs => exact ⟨CrispGood.new lk.toTreeOk dest diff, lk, he, hs⟩
  | step y y' ev _ hev e ih =>
    obtain ⟨h1, h2, h3, h4⟩ := ih
    obtain ⟨k1, k2⟩ := CrispGood.step (by omega) h3 h4 h1 hev e
    rw [k2]
    exact ⟨k1, h2, h3, h4⟩
  | edit y y' h' ps _ hp ed hs e ih =>
    obtain ⟨h1, h2, h3, h4⟩ := ih
    obtain ⟨e', es⟩ := edit_plain (c := tileC) (d := maskC) hp e
    obtain ⟨k1, k2⟩ := Good.edit (fuel := fuel) hf h1 (h2.map _ _) hp ed e'
    rw [es]
    refine ⟨?_, h2.edited ed, h3.change h', hs⟩
    unfold CrispGood
    rw [es]
    exact k1

/-- C57, for pictures with hard edges: in a tree whose layers know the folders they are in, whatever layers are changed between
renders, if all changed ones are marked dirty then `Render` gives the picture a new renderer of the changed tree would give: no entry that depends on
a changed layer is left. Missing: trees as `New` makes them (`C57_new_tree_is_never_redrawn`); folders that stop being pass-through with
pass-through folders in them (`C57_pass_through_left`); layers that become or stop being clipping layers (then the links are wrong,
too); pixels that are partly transparent (`C56_lossy_cache`). -/
theorem C57_marked_is_fresh_partial (s : Scene Tile (Nat → UInt8)) (depth fuel : Nat) (hf : 2 * depth < fuel) (lk : Linked s depth) (he : HardEdged s)
    (y : RSys Tile (Nat → UInt8)) (u : Lived tileOps fuel FullyShown s y) (visited : List TPt) (dest : TPt → Tile) :
    ∃ st st' dest', render tileOps y.scene fuel false false visited y.st dest = .ok (st, dest') ∧
      render tileOps y.scene fuel false false visited .empty dest = .ok (st', dest') := by
  obtain ⟨h1, h2, h3, h4⟩ := lived_good hf lk he u
  exact h1.render (by omega) h2.toTreeOk h3 h4 visited dest

theorem clear_clear (t : Tile) : tileOps.clear (tileOps.clear t) = tileOps.clear t := by
  funext i
  have : ∀ d e : Px, pxOr e (drawPD .clear .nrgba (.uniform ⟨0, 0, 0, 0⟩) d) = ⟨0, 0, 0, 0⟩ := fun d e => by
    have : storePx .nrgba ⟨0, 0, 0, 0⟩ = .ok ⟨0, 0, 0, 0⟩ := by decide
    show pxOr e (storePx .nrgba ⟨0, 0, 0, 0⟩) = _
    rw [this]
    rfl
  simp only [tileOps, this]

/-- C71: if every render is onto the picture of the last one, then `RenderDiff` gives the same picture as `Render`, and leaves the same caches:
the tiles it skips are right as they are. It holds for every tree and every sequence of renders, cancelled or not, dirty marks and changes of
the tree. -/
theorem C71_diff_is_enough (fuel : Nat) (y : RSys Tile (Nat → UInt8)) (k : Kept tileOps fuel y) (aborted : Bool) (visited : List TPt) :
    render tileOps y.scene fuel true aborted visited y.st y.dest = render tileOps y.scene fuel false aborted visited y.st y.dest := by
  have h : Sync tileOps y.st y.dest := by
    induction k with
    | new s dest diff => exact fun pt => trivial
    | step y y' ev _ hev e ih => exact ih.step clear_clear hev e
  unfold render
  have h' : Sync tileOps { y.st with changes := [] } y.dest := h
  rw [renderTiles_diff clear_clear visited _ _ h']

/-! ### Trees `New` and `Clone` make -/

/-- `C56_cached_is_fresh_partial` is about all trees `New` makes. -/
theorem C56_new_tree_is_ok {P M : Type} (grow : Nat → Nat) (dec : List UInt8 → Option (List UInt8)) (fuel : Nat) (layers : List (LTree LayerRec)) (hf : depthAll layers ≤ fuel)
    (hu : UniqueDoc layers) (canvas : Int → Option (List (TPt × P))) (mask : Int → List (TPt × M)) :
    TreeOk ⟨newTree grow dec fuel layers, rootPtr, canvas, mask⟩ fuel := by
  obtain ⟨h1, h2, _⟩ := newTree_clonable grow dec fuel layers hf hu
  refine ⟨fun π q hq => ?_, h2, ?_, fun π q hq => C53_clipping_groups grow dec fuel layers hf π q hq⟩
  · have := (h1 π q hq).1
    omega
  · simp only [(C53_tree_is_the_document grow dec fuel layers hf).1]
    rfl

/-- What `C55_clone` tells of one layer and its copy. -/
def CopiedAt (h h' : CHeap) (src dest s d : Ptr) : Prop :=
  h.next ≤ d.1 ∧
  (h'.at_ d).attr = (h.at_ s).attr ∧ (h'.at_ d).children.len = (h.at_ s).children.len ∧
  (∀ i, i < (h'.at_ d).children.len → (h'.at_ ((h'.at_ d).children.arr, i)).parent = some d) ∧
  (h'.at_ d).clip.length = (h.at_ s).clip.length ∧
  (∀ (i : Nat) (ρ : List Nat), (∃ r, (h.at_ s).clip[i]? = some (some r) ∧ slotAt h src ρ = some r) → (h'.at_ d).clip[i]? = some (slotAt h' dest ρ)) ∧
  (∀ ρ, (∃ b, (h.at_ s).clippedBy = some b ∧ slotAt h src ρ = some b) → (h'.at_ d).clippedBy = slotAt h' dest ρ) ∧
  ((h.at_ s).clippedBy = none → (h'.at_ d).clippedBy = none)

/-- A copy of a tree keeps its clipping links. -/
theorem clone_clipping {h h' : CHeap} {src dest : Ptr} (hc : ∀ π s d, slotAt h src π = some s → slotAt h' dest π = some d → CopiedAt h h' src dest s d)
    {π : List Nat} {s d : Ptr} (hs : slotAt h src π = some s) (hd : slotAt h' dest π = some d) (hlen : (h'.at_ d).children.len = (h.at_ s).children.len)
    (ok : ClippingOk h (h.at_ s).children.arr (h.at_ s).children.len) : ClippingOk h' (h'.at_ d).children.arr (h'.at_ d).children.len := by
  have ss : ∀ k, k < (h.at_ s).children.len → slotAt h src (π ++ [k]) = some ((h.at_ s).children.arr, k) := by
    intro k hk
    rw [slotAt_append π _ s [k] hs, slotAt_child hk, slotAt]
  have sd : ∀ k, k < (h.at_ s).children.len → slotAt h' dest (π ++ [k]) = some ((h'.at_ d).children.arr, k) := by
    intro k hk
    rw [slotAt_append π _ d [k] hd, slotAt_child (by omega), slotAt]
  have at_ : ∀ k, k < (h.at_ s).children.len → _ := fun k hk => hc (π ++ [k]) _ _ (ss k hk) (sd k hk)
  have hcl : ∀ k, k < (h.at_ s).children.len → (h'.at_ ((h'.at_ d).children.arr, k)).attr.clipping = (h.at_ ((h.at_ s).children.arr, k)).attr.clipping :=
    fun k hk => by rw [(at_ k hk).2.1]
  have hb : ∀ b j, j < (h.at_ s).children.len → (IsBase (fun k => (h'.at_ ((h'.at_ d).children.arr, k)).attr.clipping) b j ↔
      IsBase (fun k => (h.at_ ((h.at_ s).children.arr, k)).attr.clipping) b j) := by
    intro b j hj
    unfold IsBase
    constructor
    · rintro ⟨a1, a2, a3⟩
      exact ⟨a1, (hcl b (by omega)).symm.trans a2, fun k k1 k2 => (hcl k (by omega)).symm.trans (a3 k k1 k2)⟩
    · rintro ⟨a1, a2, a3⟩
      exact ⟨a1, (hcl b (by omega)).trans a2, fun k k1 k2 => (hcl k (by omega)).trans (a3 k k1 k2)⟩
  intro j hj
  rw [hlen] at hj
  obtain ⟨o1, o2, o3⟩ := ok j hj
  obtain ⟨_, a1, a2, a3, a4, a5, a6, a7⟩ := at_ j hj
  refine ⟨fun b hbj => ?_, fun hn => a7 (o2 fun b hbj => hn b ((hb b j hj).2 hbj)), ?_⟩
  · have hbj' := (hb b j hj).1 hbj
    have hbl : b < (h.at_ s).children.len := by have := hbj.1; omega
    rw [a6 (π ++ [b]) ⟨_, o1 b hbj', ss b hbl⟩, sd b hbl]
  · have e : ((List.range (h'.at_ d).children.len).filter fun k => decide (IsBase (fun k => (h'.at_ ((h'.at_ d).children.arr, k)).attr.clipping) j k)) =
        (List.range (h.at_ s).children.len).filter fun k => decide (IsBase (fun k => (h.at_ ((h.at_ s).children.arr, k)).attr.clipping) j k) := by
      rw [hlen]
      apply List.filter_congr
      intro k hk
      exact decide_eq_decide.2 (hb j k (List.mem_range.1 hk))
    rw [e]
    apply List.ext_getElem?
    intro i
    rw [List.getElem?_map]
    cases hi : ((List.range (h.at_ s).children.len).filter fun k => decide (IsBase (fun k => (h.at_ ((h.at_ s).children.arr, k)).attr.clipping) j k))[i]? with
    | none =>
      rw [Option.map_none, List.getElem?_eq_none_iff, a4, o3, List.length_map]
      rw [List.getElem?_eq_none_iff] at hi
      exact hi
    | some k =>
      have hk : k < (h.at_ s).children.len := by
        have := List.mem_of_getElem? hi
        exact List.mem_range.1 (List.mem_filter.1 this).1
      rw [Option.map_some, a5 i (π ++ [k]) ⟨_, by rw [o3, List.getElem?_map, hi, Option.map_some], ss k hk⟩, sd k hk]

/-- `C57_marked_is_fresh_partial` is about the copies of all trees `New` makes. -/
theorem C57_clone_is_linked {P M : Type} (grow : Nat → Nat) (dec : List UInt8 → Option (List UInt8)) (fuel : Nat) (layers : List (LTree LayerRec))
    (hf : depthAll layers ≤ fuel) (hu : UniqueDoc layers) (canvas : Int → Option (List (TPt × P))) (mask : Int → List (TPt × M))
    (hroot : canvas (-1) = none) (hfold : ∀ π l kids, docAt layers π = some (.node l kids) → kids ≠ [] → canvas l.seqID = none) :
    Linked ⟨(cloneTree (fuel + 1) rootPtr (newTree grow dec fuel layers)).1, (cloneTree (fuel + 1) rootPtr (newTree grow dec fuel layers)).2, canvas, mask⟩ fuel := by
  obtain ⟨h1, h2, h3⟩ := newTree_clonable grow dec fuel layers hf hu
  obtain ⟨g1, g2, g3⟩ := C53_tree_is_the_document grow dec fuel layers hf
  obtain ⟨h', dest, e, _, _, hc⟩ := C55_clone (fuel + 1) rootPtr (newTree grow dec fuel layers) h1 h2 h3
  have hcg := C53_clipping_groups grow dec fuel layers hf
  rw [e]
  simp only
  generalize newTree grow dec fuel layers = h at *
  have back : ∀ π d, slotAt h' dest π = some d → ∃ s, slotAt h rootPtr π = some s := by
    intro π d hd
    have := hc π
    cases hs : slotAt h rootPtr π with
    | none => rw [hs] at this; simp only [hd, reduceCtorEq] at this
    | some s => exact ⟨s, rfl⟩
  have at_ : ∀ π s d, slotAt h rootPtr π = some s → slotAt h' dest π = some d → CopiedAt h h' rootPtr dest s d := fun π s d hs hd => by
    have := hc π
    rw [hs] at this
    obtain ⟨d', e, r⟩ := this
    rw [hd] at e
    injection e with e
    subst e
    exact r
  refine ⟨⟨?_, ?_, ?_, ?_⟩, ?_, ?_⟩
  · intro π d hd
    obtain ⟨s, hs⟩ := back π d hd
    have := (h1 π s hs).1
    omega
  · intro π π' d d' hd hd' hid
    obtain ⟨s, hs⟩ := back π d hd
    obtain ⟨s', hs'⟩ := back π' d' hd'
    simp only [(at_ π s d hs hd).2.1, (at_ π' s' d' hs' hd').2.1] at hid
    exact h2 π π' s s' hs hs' hid
  · have := (at_ [] rootPtr dest rfl rfl).2.1
    simp only [this, g1]
    rfl
  · intro π d hd
    obtain ⟨s, hs⟩ := back π d hd
    exact clone_clipping at_ hs hd (at_ π s d hs hd).2.2.1 (hcg π s hs)
  · intro π d hd
    obtain ⟨s, hs⟩ := back π d hd
    exact (at_ π s d hs hd).2.2.2.1
  · intro π d hd hl
    obtain ⟨s, hs⟩ := back π d hd
    obtain ⟨_, e1, e2, _⟩ := at_ π s d hs hd
    simp only at hl ⊢
    rw [e2] at hl
    rw [e1]
    cases π with
    | nil =>
      simp only [slotAt, Option.some.injEq] at hs
      rw [← hs, g1]
      exact hroot
    | cons i π =>
      have := g3 i π
      cases hdoc : docAt layers (i :: π) with
      | none => rw [hdoc] at this; simp only [hs, reduceCtorEq] at this
      | some t =>
        cases t with
        | node l kids =>
          rw [hdoc] at this
          obtain ⟨q, q1, q2, q3⟩ := this
          rw [hs] at q1
          injection q1 with q1
          subst q1
          rw [q2.number]
          refine hfold _ l kids hdoc ?_
          rintro rfl
          simp only [List.length_nil] at q3
          omega

/-! ### Trees as `New` makes them are never redrawn -/

theorem dirtyUp_top {P : Type} {h : CHeap} {area : List TPt} {deep : Nat} {p : Ptr} (hid : (h.at_ p).attr.seqID ≠ seqIDRoot) (hp : (h.at_ p).parent = none)
    (hcl : (h.at_ p).attr.clipping = true → ∀ b, (h.at_ p).clippedBy = some b → (h.at_ b).attr.seqID ≠ seqIDRoot ∧ (h.at_ b).attr.clipping = false ∧ (h.at_ b).parent = none)
    (f : Nat) (st : RState P) : (∀ pt, (dirtyUp h area deep f p st).cached seqIDRoot pt = st.cached seqIDRoot pt) ∧ (dirtyUp h area deep f p st).image = st.image := by
  have hclear : ∀ id, id ≠ seqIDRoot → ∀ st : RState P, ∀ pt, (clearArea id area st).cached seqIDRoot pt = st.cached seqIDRoot pt := by
    intro id hid st pt
    simp only [clearArea]
    rw [if_neg (fun h => hid h.1.symm)]
  cases f with
  | zero => exact ⟨fun _ => rfl, rfl⟩
  | succ f =>
    rw [dirtyUp]
    simp only [hp]
    split
    · rename_i hc
      cases hb : (h.at_ p).clippedBy with
      | none => exact ⟨hclear _ hid st, rfl⟩
      | some b =>
        obtain ⟨b1, b2, b3⟩ := hcl hc b hb
        cases f with
        | zero => exact ⟨hclear _ hid st, rfl⟩
        | succ f =>
          simp only
          rw [dirtyUp]
          simp only [b2, b3, Bool.false_eq_true, if_false]
          refine ⟨fun pt => ?_, rfl⟩
          rw [hclear _ b1, hclear _ hid]
    · exact ⟨hclear _ hid st, rfl⟩

/-- C57 is false of every tree `New` makes: once a tile is rendered, changing a top-level layer in whatever way and marking it dirty has no
effect on the picture: `Render` gives the old one. (`Parent` of these layers is nil, `C54_top_level_has_no_parent`, so the mark
never gets to the root's cache.) -/
theorem C57_new_tree_is_never_redrawn {P M : Type} (ops : PicOps P M) (grow : Nat → Nat) (dec : List UInt8 → Option (List UInt8)) (n : Nat)
    (layers : List (LTree LayerRec)) (hf : depthAll layers ≤ n) (s s' : Scene P M) (hs : s.h = newTree grow dec n layers)
    (hlinks : ∀ q, (s'.h.at_ q).parent = (s.h.at_ q).parent ∧ (s'.h.at_ q).clippedBy = (s.h.at_ q).clippedBy ∧
      (s'.h.at_ q).attr.seqID = (s.h.at_ q).attr.seqID ∧ (s'.h.at_ q).attr.clipping = (s.h.at_ q).attr.clipping)
    (i : Nat) (p : Ptr) (hp : slotAt s.h rootPtr [i] = some p) (fuel : Nat) (pt : TPt) (st st1 : RState P) (dest d1 : TPt → P)
    (e : render ops s fuel false false [pt] st dest = .ok (st1, d1)) :
    ∃ st2, render ops s' fuel false false [pt] (setDirty s' fuel p st1) dest = .ok (st2, d1) := by
  obtain ⟨g1, g2, g3⟩ := C53_tree_is_the_document grow dec n layers hf
  have hcg := C53_clipping_groups grow dec n layers hf [] rootPtr rfl
  have top : ∀ k, k < ((newTree grow dec n layers).at_ rootPtr).children.len →
      ((newTree grow dec n layers).at_ (((newTree grow dec n layers).at_ rootPtr).children.arr, k)).parent = none ∧
      ((newTree grow dec n layers).at_ (((newTree grow dec n layers).at_ rootPtr).children.arr, k)).attr.seqID ≠ seqIDRoot := by
    intro k hk
    have hslot : slotAt (newTree grow dec n layers) rootPtr [k] = some (((newTree grow dec n layers).at_ rootPtr).children.arr, k) := by
      rw [slotAt_child hk, slotAt]
    obtain ⟨q, q1, q2⟩ := C54_top_level_has_no_parent grow dec n layers hf k (by omega)
    rw [hslot] at q1
    injection q1 with q1
    subst q1
    refine ⟨q2, ?_⟩
    have := g3 k []
    cases hd : docAt layers [k] with
    | none => rw [hd] at this; simp only [hslot, reduceCtorEq] at this
    | some t =>
      cases t with
      | node l kids =>
        rw [hd] at this
        obtain ⟨q', r1, r2, _⟩ := this
        rw [hslot] at r1
        injection r1 with r1
        subst r1
        rw [r2.number]
        unfold seqIDRoot
        omega
  rw [hs] at hlinks hp
  rw [slotAt] at hp
  split at hp
  · rename_i hi
    simp only [slotAt, Option.some.injEq] at hp
    subst hp
    have keep := dirtyUp_top (P := P) (area := areaMap s' fuel (((newTree grow dec n layers).at_ rootPtr).children.arr, i)) (deep := fuel)
      (h := s'.h) (p := (((newTree grow dec n layers).at_ rootPtr).children.arr, i)) (by rw [(hlinks _).2.2.1]; exact (top i hi).2)
      (by rw [(hlinks _).1]; exact (top i hi).1) (by
        intro _ b hb
        rw [(hlinks _).2.1] at hb
        have ok := hcg i hi
        by_cases hex : ∃ b, IsBase (fun k => ((newTree grow dec n layers).at_ (((newTree grow dec n layers).at_ rootPtr).children.arr, k)).attr.clipping) b i
        · obtain ⟨b', hb'⟩ := hex
          rw [ok.1 b' hb'] at hb
          injection hb with hb
          subst hb
          rw [(hlinks _).2.2.1, (hlinks _).2.2.2, (hlinks _).1]
          have := top b' (by have := hb'.1; omega)
          exact ⟨this.2, hb'.2.1, this.1⟩
        · rw [ok.2.1 (fun b hb => hex ⟨b, hb⟩)] at hb
          cases hb) fuel st1
    -- the first render
    unfold render at e
    obtain ⟨⟨st3, d3⟩, e1, e2⟩ := Res.bind_eq_ok.1 e
    simp only [Bool.false_eq_true, if_false, Res.ok.injEq, Prod.mk.injEq] at e2
    obtain ⟨rfl, rfl⟩ := e2
    simp only [renderTiles] at e1
    obtain ⟨⟨st4, d4⟩, ea, eb⟩ := Res.bind_eq_ok.1 e1
    simp only [Res.ok.injEq, Prod.mk.injEq] at eb
    obtain ⟨rfl, rfl⟩ := eb
    unfold renderTile at ea
    obtain ⟨⟨st5, md, cs⟩, e3, e4⟩ := Res.bind_eq_ok.1 ea
    simp only [Bool.not_false, Bool.or_true, if_true] at e4
    have hcs : st5.cached seqIDRoot pt = some cs := by
      cases hc : ({ st with changes := [] } : RState P).cached seqIDRoot pt with
      | none => exact (updateTile_new hc e3).2.1
      | some cs' =>
        rw [updateTile_old hc] at e3
        simp only [Res.ok.injEq, Prod.mk.injEq] at e3
        rw [← e3.1, ← e3.2.2]
        exact hc
    have hst : st5 = st4 := by
      cases cs with
      | cached =>
        simp only at e4
        split at e4
        · cases e4
        · simp only [Res.ok.injEq, Prod.mk.injEq] at e4
          exact e4.1
      | cachedEmpty =>
        simp only [Res.ok.injEq, Prod.mk.injEq] at e4
        exact e4.1
    subst hst
    -- the second
    refine ⟨{ setDirty s' fuel (((newTree grow dec n layers).at_ rootPtr).children.arr, i) st5 with changes := [] }, ?_⟩
    unfold render
    simp only [renderTiles, renderTile]
    rw [updateTile_old (cs := cs) (by rw [← hcs]; exact keep.1 pt)]
    simp only [Res.ok_bind, Bool.not_false, Bool.or_true, if_true]
    have him : (setDirty s' fuel (((newTree grow dec n layers).at_ rootPtr).children.arr, i) st5).image = st5.image := keep.2
    cases cs with
    | cached =>
      simp only at e4 ⊢
      rw [him]
      cases hi : st5.image seqIDRoot pt with
      | none => rw [hi] at e4; cases e4
      | some ci =>
        rw [hi] at e4
        simp only [Res.ok.injEq, Prod.mk.injEq, true_and] at e4
        simp only [Res.ok_bind, Bool.false_eq_true, if_false, e4]
    | cachedEmpty =>
      simp only [Res.ok.injEq, Prod.mk.injEq, true_and] at e4
      simp only [Res.ok_bind, Bool.false_eq_true, if_false, e4]
  · cases hp

/-! ### Concrete trees -/

theorem Rendered.run {P M : Type} {ops : PicOps P M} {fuel : Nat} {s : Scene P M} : ∀ (evs : List (REvent P)) (y y' : RSys P M), Rendered ops fuel s y →
    (∀ ev ∈ evs, ∀ h, ev ≠ .change h) → RSys.run ops fuel evs y = .ok y' → Rendered ops fuel s y' := by
  intro evs
  induction evs with
  | nil => intro y y' u _ e; simp only [RSys.run, Res.ok.injEq] at e; rw [← e]; exact u
  | cons ev evs ih =>
    intro y y' u h e
    simp only [RSys.run] at e
    obtain ⟨y1, e1, e2⟩ := Res.bind_eq_ok.1 e
    exact ih y1 y' (.step y y1 ev u (h ev List.mem_cons_self) e1) (fun ev hev => h ev (List.mem_cons_of_mem _ hev)) e2

theorem Lived.run {P M : Type} {ops : PicOps P M} {fuel : Nat} {Ok : Scene P M → Prop} {s : Scene P M} : ∀ (evs : List (REvent P)) (y y' : RSys P M),
    Lived ops fuel Ok s y → (∀ ev ∈ evs, ∀ h, ev ≠ .change h) → RSys.run ops fuel evs y = .ok y' → Lived ops fuel Ok s y' := by
  intro evs
  induction evs with
  | nil => intro y y' u _ e; simp only [RSys.run, Res.ok.injEq] at e; rw [← e]; exact u
  | cons ev evs ih =>
    intro y y' u h e
    simp only [RSys.run] at e
    obtain ⟨y1, e1, e2⟩ := Res.bind_eq_ok.1 e
    exact ih y1 y' (.step y y1 ev u (h ev List.mem_cons_self) e1) (fun ev hev => h ev (List.mem_cons_of_mem _ hev)) e2

/-- A list of the layers of a tree is complete if it has the root and is closed. -/
theorem slots_listed {h : CHeap} {root : Ptr} (l : List (List Nat × Ptr)) (h0 : ([], root) ∈ l)
    (hs : ∀ x ∈ l, ∀ i, i < (h.at_ x.2).children.len → (x.1 ++ [i], ((h.at_ x.2).children.arr, i)) ∈ l) :
    ∀ π q, slotAt h root π = some q → (π, q) ∈ l := by
  have : ∀ (π : List Nat) (ρ : List Nat) (p q : Ptr), (ρ, p) ∈ l → slotAt h p π = some q → (ρ ++ π, q) ∈ l := by
    intro π
    induction π with
    | nil => intro ρ p q hp e; simp only [slotAt, Option.some.injEq] at e; rw [← e, List.append_nil]; exact hp
    | cons i π ih =>
      intro ρ p q hp e
      rw [slotAt] at e
      split at e
      · rename_i hi
        have := ih _ _ q (hs _ hp i hi) e
        rwa [List.append_assoc] at this
      · cases e
  exact fun π q e => this π [] root q h0 e

theorem noClipping {h : CHeap} {arr n : Nat} (hc : ∀ j, j < n → (h.at_ (arr, j)).attr.clipping = false ∧ (h.at_ (arr, j)).clip = [] ∧ (h.at_ (arr, j)).clippedBy = none) :
    ClippingOk h arr n := by
  intro j hj
  have nb : ∀ b k, k < n → ¬ IsBase (fun k => (h.at_ (arr, k)).attr.clipping) b k := by
    rintro b k hk ⟨h1, _, h3⟩
    have := h3 k (Nat.le_refl _) h1
    simp only [(hc k hk).1, Bool.false_eq_true] at this
  refine ⟨fun b hb => absurd hb (nb b j hj), fun _ => (hc j hj).2.2, ?_⟩
  rw [(hc j hj).2.1, List.filter_eq_nil_iff.2 ?_]
  · rfl
  · intro k hk
    rw [decide_eq_true_eq]
    exact nb j k (List.mem_range.1 hk)

/-- Whether a small tree without clipping layers is `Linked` can be seen from the list of its layers. -/
theorem Linked.of_list {P M : Type} {s : Scene P M} {depth : Nat} (l : List (List Nat × Ptr)) (h0 : ([], s.root) ∈ l)
    (hs : ∀ x ∈ l, ∀ i, i < (s.h.at_ x.2).children.len → (x.1 ++ [i], ((s.h.at_ x.2).children.arr, i)) ∈ l)
    (hl : ∀ x ∈ l, x.1.length ≤ depth) (hu : ∀ x ∈ l, ∀ y ∈ l, (s.h.at_ x.2).attr.seqID = (s.h.at_ y.2).attr.seqID → x.1 = y.1)
    (hr : (s.h.at_ s.root).attr.seqID = seqIDRoot)
    (hk : ∀ x ∈ l, ∀ i, i < (s.h.at_ x.2).children.len → (s.h.at_ ((s.h.at_ x.2).children.arr, i)).attr.clipping = false ∧
      (s.h.at_ ((s.h.at_ x.2).children.arr, i)).clip = [] ∧ (s.h.at_ ((s.h.at_ x.2).children.arr, i)).clippedBy = none ∧
      (s.h.at_ ((s.h.at_ x.2).children.arr, i)).parent = some x.2)
    (hf : ∀ x ∈ l, 0 < (s.h.at_ x.2).children.len → s.canvas (s.h.at_ x.2).attr.seqID = none) : Linked s depth := by
  have key := slots_listed l h0 hs
  refine ⟨⟨fun π q h => hl _ (key π q h), fun π π' q q' h h' e => hu _ (key π q h) _ (key π' q' h') e, hr, fun π q h => noClipping fun j hj => ?_⟩,
    fun π q h i hi => (hk _ (key π q h) i hi).2.2.2, fun π q h => hf _ (key π q h)⟩
  have := hk _ (key π q h) j hj
  exact ⟨this.1, this.2.1, this.2.2.1⟩

theorem FullyShown.of_list {P M : Type} {s : Scene P M} (l : List (List Nat × Ptr)) (h0 : ([], s.root) ∈ l)
    (hs : ∀ x ∈ l, ∀ i, i < (s.h.at_ x.2).children.len → (x.1 ++ [i], ((s.h.at_ x.2).children.arr, i)) ∈ l)
    (hk : ∀ x ∈ l, x.1 ≠ [] → (s.h.at_ x.2).attr.opacity = 255 ∧ (blendMode (s.h.at_ x.2).attr.blendMode ≠ none ∨
      (s.h.at_ x.2).attr.blendMode = passThrough ∧ (s.h.at_ x.2).clip = [])) : FullyShown s := by
  intro π q hπ h
  obtain ⟨h1, h2⟩ := hk _ (slots_listed l h0 hs π q h) hπ
  refine ⟨.inr h1, ?_⟩
  rcases h2 with h2 | h2
  · exact .inl h2
  · exact .inr ⟨h2.1, .inl h2.2⟩

/-- The layers of `exRHeap`. -/
def exRList : List (List Nat × Ptr) := [([], (1, 0)), ([0], (2, 0)), ([1], (2, 1)), ([0, 0], (3, 0))]

/-- A picture is blank. -/
def blank : TPt → Tile := fun _ => plainTile ⟨0, 0, 0, 0⟩

/-- A pixel of the picture rendered to. -/
def peekPx (r : Res (RState Tile × (TPt → Tile))) (i : Nat) : Res Px := r.map fun r => r.2 (0, 0) i

/-- A folder with one layer in it, whose pixels are hardly to be seen, and a layer above. -/
def lossyScene : Scene Tile (Nat → UInt8) where
  h := exRHeap
  root := (1, 0)
  canvas := fun id =>
    if id = 1 then some [((0, 0), plainTile ⟨100, 0, 0, 1⟩)]
    else if id = 2 then some [((0, 0), plainTile ⟨0, 0, 0, 0⟩)]
    else none
  mask := fun _ => []

/-- The tile is rendered and then the upper layer is marked dirty, though it was not changed. -/
def onceEvents : List (REvent Tile) := [.start blank false, .tile (0, 0), .finish false, .dirty (2, 1)]

/-- C56 is false for pixels that are partly transparent: copying such a pixel to the cache and back loses some of its colour (`C46_copy_is_lossy`),
so that a picture drawn with the folder's cache differs from one drawn without. -/
theorem C56_lossy_cache : ∃ y, Rendered tileOps 4 lossyScene y ∧ TreeOk lossyScene 2 ∧ FullyShown lossyScene ∧
    peekPx (render tileOps lossyScene 4 false false [(0, 0)] y.st blank) 5 = .ok ⟨96, 0, 0, 1⟩ ∧
    peekPx (render tileOps lossyScene 4 false false [(0, 0)] .empty blank) 5 = .ok ⟨97, 0, 0, 1⟩ := by
  have h : ((RSys.run tileOps 4 onceEvents ⟨lossyScene, .empty, blank, false, none⟩) >>= fun y =>
      peekPx (render tileOps lossyScene 4 false false [(0, 0)] y.st blank) 5) = .ok ⟨96, 0, 0, 1⟩ := by decide +kernel
  obtain ⟨y, e1, e2⟩ := Res.bind_eq_ok.1 h
  refine ⟨y, Rendered.run onceEvents _ y (.new _ _) (by simp [onceEvents]) e1, ?_, ?_, e2, by decide +kernel⟩
  · exact (Linked.of_list exRList (by decide) (by decide) (by decide) (by decide) (by decide) (by decide) (by decide)).toTreeOk
  · exact FullyShown.of_list exRList (by decide) (by decide) (by decide)

/-- The same tree with hard edges and a mask for the upper layer. -/
def hardScene : Scene Tile (Nat → UInt8) where
  h := withAttr exRHeap (2, 1) fun a => { a with maskEnabled := true }
  root := (1, 0)
  canvas := fun id =>
    if id = 1 then some [((0, 0), fun i => if i = 3 then ⟨0, 0, 0, 0⟩ else ⟨100, 0, 0, 255⟩)]
    else if id = 2 then some [((0, 0), plainTile ⟨0, 200, 200, 255⟩)]
    else none
  mask := fun id => if id = 2 then [((0, 0), fun i => if i = 5 then 0 else 255)] else []

theorem hardScene_linked : Linked hardScene 2 :=
  Linked.of_list exRList (by decide) (by decide) (by decide) (by decide) (by decide) (by decide) (by decide)

theorem hardScene_hard : HardEdged hardScene := by
  refine ⟨fun id c hc x hx i => ?_, fun id x hx i => ?_⟩
  · simp only [hardScene] at hc
    split at hc
    · simp only [Option.some.injEq] at hc
      subst hc
      simp only [List.mem_cons, List.not_mem_nil, or_false] at hx
      subst hx
      simp only
      split
      · exact .inl rfl
      · exact .inr rfl
    · split at hc
      · simp only [Option.some.injEq] at hc
        subst hc
        simp only [List.mem_cons, List.not_mem_nil, or_false] at hx
        subst hx
        exact .inr rfl
      · cases hc
  · simp only [hardScene] at hx
    split at hx
    · simp only [List.mem_cons, List.not_mem_nil, or_false] at hx
      subst hx
      simp only
      split
      · exact .inl rfl
      · exact .inr rfl
    · cases hx

/-- The hypotheses of `C56_cached_is_fresh_partial` hold for a tree with a folder, a mask and a hole, after a render and a mark: the folder's
cache is then used. -/
example : ∃ y, Rendered tileOps 4 hardScene y ∧ TreeOk hardScene 2 ∧ HardEdged hardScene ∧ FullyShown hardScene ∧
    (y.st.cached 0 (0, 0), y.st.cached (-1) (0, 0)) = (some .cached, none) ∧
    peekPx (render tileOps hardScene 4 false false [(0, 0)] y.st blank) 7 = .ok ⟨0, 0, 0, 255⟩ ∧
    peekPx (render tileOps hardScene 4 false false [(0, 0)] y.st blank) 5 = .ok ⟨100, 0, 0, 255⟩ := by
  have h : ((RSys.run tileOps 4 onceEvents ⟨hardScene, .empty, blank, false, none⟩) >>= fun y => (render tileOps hardScene 4 false false [(0, 0)] y.st blank) >>= fun r =>
      .ok ((y.st.cached 0 (0, 0), y.st.cached (-1) (0, 0)), r.2 (0, 0) 7, r.2 (0, 0) 5)) = .ok ((some .cached, none), ⟨0, 0, 0, 255⟩, ⟨100, 0, 0, 255⟩) := by decide +kernel
  obtain ⟨y, e1, e2⟩ := Res.bind_eq_ok.1 h
  obtain ⟨r, e3, e4⟩ := Res.bind_eq_ok.1 e2
  simp only [Res.ok.injEq, Prod.mk.injEq] at e4
  refine ⟨y, Rendered.run onceEvents _ y (.new _ _) (by simp [onceEvents]) e1, hardScene_linked.toTreeOk, hardScene_hard,
    FullyShown.of_list exRList (by decide) (by decide) (by decide), ?_, ?_, ?_⟩
  · rw [e4.1.1, e4.1.2]
  · rw [e3]; simp only [peekPx, Res.map, e4.2.1]
  · rw [e3]; simp only [peekPx, Res.map, e4.2.2]

/-- Between two renders the layer in the folder is hidden, and marked dirty. -/
def hardChanged : CHeap := withAttr hardScene.h (3, 0) fun a => { a with visible := false }

/-- A change of one layer that changes neither its number nor whether it is a clipping or a pass-through layer. -/
theorem EditOk.one {h : CHeap} {root p : Ptr} {f : CAttr → CAttr} (hp : ∃ π, slotAt h root π = some p)
    (hf : ∀ a, (f a).seqID = a.seqID ∧ (f a).clipping = a.clipping ∧ (f a).blendMode = a.blendMode) : EditOk h (withAttr h p f) root [p] := by
  refine ⟨fun q => ?_, fun q => ?_, fun q hq => ?_, fun q hq => ?_, fun q hq h1 h2 => ?_⟩
  · simp only [withAttr]; split <;> exact ⟨rfl, rfl, rfl, rfl⟩
  · simp only [withAttr]; split
    · exact ⟨(hf _).1, (hf _).2.1⟩
    · exact ⟨rfl, rfl⟩
  · simp only [withAttr]; rw [if_neg (by simpa using hq)]
  · rw [List.mem_singleton] at hq; rw [hq]; exact hp
  · refine absurd ?_ h2
    simp only [withAttr]; split
    · rw [(hf _).2.2]; exact h1
    · exact h1

/-- The hypotheses of `C57_marked_is_fresh_partial` hold for such a history. The picture changes. -/
example : ∃ y, Lived tileOps 5 FullyShown hardScene y ∧ Linked hardScene 2 ∧ HardEdged hardScene ∧
    peekPx (render tileOps hardScene 5 false false [(0, 0)] .empty blank) 5 = .ok ⟨100, 0, 0, 255⟩ ∧
    peekPx (render tileOps y.scene 5 false false [(0, 0)] y.st blank) 5 = .ok ⟨0, 0, 0, 0⟩ := by
  have h : ((RSys.run tileOps 5 onceEvents ⟨hardScene, .empty, blank, false, none⟩) >>= fun y =>
      (RSys.run tileOps 5 (.change hardChanged :: [(3, 0)].map .dirty) y) >>= fun z => peekPx (render tileOps z.scene 5 false false [(0, 0)] z.st blank) 5) =
        .ok ⟨0, 0, 0, 0⟩ := by decide +kernel
  obtain ⟨y, e1, e2⟩ := Res.bind_eq_ok.1 h
  obtain ⟨z, e3, e4⟩ := Res.bind_eq_ok.1 e2
  have hs : FullyShown hardScene := FullyShown.of_list exRList (by decide) (by decide) (by decide)
  have u : Rendered tileOps 5 hardScene y := Rendered.run onceEvents _ y (.new _ _) (by simp [onceEvents]) e1
  have : y.scene = hardScene ∧ y.pending = none := by
    simp only [onceEvents, RSys.run] at e1
    obtain ⟨y1, a1, e1⟩ := Res.bind_eq_ok.1 e1
    obtain ⟨y2, a2, e1⟩ := Res.bind_eq_ok.1 e1
    obtain ⟨y3, a3, e1⟩ := Res.bind_eq_ok.1 e1
    obtain ⟨y4, a4, e1⟩ := Res.bind_eq_ok.1 e1
    simp only [Res.ok.injEq] at e1
    subst e1
    simp only [RSys.step, Res.ok.injEq] at a1
    subst a1
    simp only [RSys.step] at a2
    obtain ⟨r, _, a2⟩ := Res.bind_eq_ok.1 a2
    simp only [Res.ok.injEq] at a2
    subst a2
    simp only [RSys.step, Res.ok.injEq] at a3
    subst a3
    simp only [RSys.step, Res.ok.injEq] at a4
    subst a4
    exact ⟨rfl, rfl⟩
  refine ⟨z, .edit y z hardChanged [(3, 0)] (Lived.run onceEvents _ y (.new _ _ hs) (by simp [onceEvents]) e1) this.2 ?_ ?_ e3, hardScene_linked, hardScene_hard,
    by decide +kernel, e4⟩
  · rw [this.1]
    exact EditOk.one ⟨[0, 0], by decide⟩ (fun a => ⟨rfl, rfl, rfl⟩)
  · rw [this.1]
    exact FullyShown.of_list exRList (by decide) (by decide) (by decide)

/-- A layer, and above it a pass-through folder with a pass-through folder in it with one layer. -/
def passHeap : CHeap where
  next := 5
  at_ := fun p =>
    if p = (1, 0) then { attr := rootAttr, children := ⟨2, 2, 2⟩ }
    else if p = (2, 0) then { attr := { seqID := 0, visible := true, blendMode := ascii "norm", opacity := 255 }, parent := some (1, 0) }
    else if p = (2, 1) then
      { attr := { seqID := 1, folder := true, visible := true, blendMode := passThrough, opacity := 255 }, parent := some (1, 0), children := ⟨3, 1, 1⟩ }
    else if p = (3, 0) then
      { attr := { seqID := 2, folder := true, visible := true, blendMode := passThrough, opacity := 255 }, parent := some (2, 1), children := ⟨4, 1, 1⟩ }
    else if p = (4, 0) then { attr := { seqID := 3, visible := true, blendMode := ascii "norm", opacity := 255 }, parent := some (3, 0) }
    else {}

/-- The layer below is grey, the one in the folders has one pixel. -/
def passScene : Scene Tile (Nat → UInt8) where
  h := passHeap
  root := (1, 0)
  canvas := fun id =>
    if id = 0 then some [((0, 0), plainTile ⟨100, 100, 100, 255⟩)]
    else if id = 3 then some [((0, 0), fun i => if i = 1 then ⟨200, 200, 200, 255⟩ else ⟨0, 0, 0, 0⟩)]
    else none
  mask := fun _ => []

/-- The outer folder is no longer pass-through. -/
def passChanged : CHeap := withAttr passHeap (2, 1) fun a => { a with blendMode := ascii "mul " }

def passList : List (List Nat × Ptr) := [([], (1, 0)), ([0], (2, 0)), ([1], (2, 1)), ([1, 0], (3, 0)), ([1, 0, 0], (4, 0))]

/-- C57 is false if a pass-through folder is given another blend mode and has a pass-through folder in it: the cache of that folder has the
picture that was below, and is not deleted, so that in the next render this picture is drawn twice. -/
theorem C57_pass_through_left : ∃ y, RSys.run tileOps 7 [.start blank false, .tile (0, 0), .finish false, .change passChanged, .dirty (2, 1)]
      ⟨passScene, .empty, blank, false, none⟩ = .ok y ∧
    Linked passScene 3 ∧ HardEdged passScene ∧ FullyShown passScene ∧ FullyShown { passScene with h := passChanged } ∧
    peekPx (render tileOps y.scene 7 false false [(0, 0)] y.st blank) 5 = .ok ⟨39, 39, 39, 255⟩ ∧
    peekPx (render tileOps y.scene 7 false false [(0, 0)] .empty blank) 5 = .ok ⟨100, 100, 100, 255⟩ := by
  have h : ((RSys.run tileOps 7 [.start blank false, .tile (0, 0), .finish false, .change passChanged, .dirty (2, 1)]
      ⟨passScene, .empty, blank, false, none⟩) >>= fun y => (render tileOps y.scene 7 false false [(0, 0)] y.st blank) >>= fun r =>
      (render tileOps y.scene 7 false false [(0, 0)] .empty blank) >>= fun r' => .ok (r.2 (0, 0) 5, r'.2 (0, 0) 5)) =
        .ok (⟨39, 39, 39, 255⟩, ⟨100, 100, 100, 255⟩) := by decide +kernel
  obtain ⟨y, e1, e2⟩ := Res.bind_eq_ok.1 h
  obtain ⟨r, e3, e4⟩ := Res.bind_eq_ok.1 e2
  obtain ⟨r', e5, e6⟩ := Res.bind_eq_ok.1 e4
  simp only [Res.ok.injEq, Prod.mk.injEq] at e6
  refine ⟨y, e1, ?_, ⟨fun id c hc x hx i => ?_, fun id x hx i => by cases hx⟩, ?_, ?_, ?_, ?_⟩
  · exact Linked.of_list passList (by decide) (by decide) (by decide) (by decide) (by decide) (by decide) (by decide)
  · simp only [passScene] at hc
    split at hc
    · simp only [Option.some.injEq] at hc
      subst hc
      simp only [List.mem_cons, List.not_mem_nil, or_false] at hx
      subst hx
      exact .inr rfl
    · split at hc
      · simp only [Option.some.injEq] at hc
        subst hc
        simp only [List.mem_cons, List.not_mem_nil, or_false] at hx
        subst hx
        simp only
        split
        · exact .inr rfl
        · exact .inl rfl
      · cases hc
  · exact FullyShown.of_list passList (by decide) (by decide) (by decide)
  · exact FullyShown.of_list passList (by decide) (by decide) (by decide)
  · rw [e3]; simp only [peekPx, Res.map, e6.1]
  · rw [e5]; simp only [peekPx, Res.map, e6.2]

/-- `C71_diff_is_enough` for a history with a render, a change and a mark: rendering again changes the picture. -/
example : ∃ y, Kept tileOps 7 y ∧ y.st.cached (-1) (0, 0) = none ∧ (y.dest (0, 0) 1, y.dest (0, 0) 5) = (⟨200, 200, 200, 255⟩, ⟨100, 100, 100, 255⟩) ∧
    peekPx (render tileOps y.scene 7 true false [(0, 0)] y.st y.dest) 1 = .ok ⟨78, 78, 78, 255⟩ := by
  have h : ((RSys.run tileOps 7 [.start blank false, .tile (0, 0), .finish false, .change passChanged, .dirty (2, 1)]
      ⟨passScene, .empty, blank, false, none⟩) >>= fun y => (render tileOps y.scene 7 true false [(0, 0)] y.st y.dest) >>= fun r =>
      .ok (y.st.cached (-1) (0, 0), (y.dest (0, 0) 1, y.dest (0, 0) 5), r.2 (0, 0) 1)) =
        .ok (none, (⟨200, 200, 200, 255⟩, ⟨100, 100, 100, 255⟩), ⟨78, 78, 78, 255⟩) := by decide +kernel
  obtain ⟨y, e1, e2⟩ := Res.bind_eq_ok.1 h
  obtain ⟨r, e3, e4⟩ := Res.bind_eq_ok.1 e2
  simp only [Res.ok.injEq, Prod.mk.injEq] at e4
  refine ⟨y, ?_, e4.1, ?_, ?_⟩
  · simp only [RSys.run] at e1
    obtain ⟨y1, a1, e1⟩ := Res.bind_eq_ok.1 e1
    obtain ⟨y2, a2, e1⟩ := Res.bind_eq_ok.1 e1
    obtain ⟨y3, a3, e1⟩ := Res.bind_eq_ok.1 e1
    obtain ⟨y4, a4, e1⟩ := Res.bind_eq_ok.1 e1
    obtain ⟨y5, a5, e1⟩ := Res.bind_eq_ok.1 e1
    simp only [Res.ok.injEq] at e1
    subst e1
    exact .step _ _ _ (.step _ _ _ (.step _ _ _ (.step _ _ _ (.step _ _ _ (.new passScene blank false) (fun _ _ h => by cases h; rfl) a1)
      (fun _ _ h => by cases h) a2) (fun _ _ h => by cases h) a3) (fun _ _ h => by cases h) a4) (fun _ _ h => by cases h) a5
  · rw [e4.2.1.1, e4.2.1.2]
  · rw [e3]; simp only [peekPx, Res.map, e4.2.2]

/-- A document with two layers. -/
def flatDoc : List (LTree LayerRec) := [.node { seqID := 0, blendMode := ascii "norm", opacity := 255 } [], .node { seqID := 1, blendMode := ascii "norm", opacity := 255 } []]

def flatScene : Scene Tile (Nat → UInt8) where
  h := newTree (fun n => n) some 1 flatDoc
  root := rootPtr
  canvas := fun id => if id = 1 then some [((0, 0), plainTile ⟨200, 0, 0, 255⟩)] else none
  mask := fun _ => []

/-- In the tree `New` makes of it, the upper layer is hidden and marked dirty after a render: it is still to be seen. A new renderer does not
show it. -/
example : (render tileOps flatScene 4 false false [(0, 0)] .empty blank >>= fun r =>
      (slotAt flatScene.h rootPtr [1]).elim .fuel fun p =>
        let s' := { flatScene with h := withAttr flatScene.h p fun a => { a with visible := false } }
        render tileOps s' 4 false false [(0, 0)] (setDirty s' 4 p r.1) blank >>= fun r' =>
          render tileOps s' 4 false false [(0, 0)] .empty blank >>= fun r'' => .ok (r'.2 (0, 0) 5, r''.2 (0, 0) 5)) =
      .ok (⟨200, 0, 0, 255⟩, ⟨0, 0, 0, 0⟩) := by
  decide +kernel

end Psd
