import Verif.Lemmas.RenderOk
import Verif.Props.Cache

/-!
# Theorem C69: blend modes the renderer does not know
-/

namespace Psd

theorem tile_draws : Draws tileOps (fun _ => True) (fun m => blendMode m ≠ none) := by
  refine ⟨trivial, fun _ _ _ _ => trivial, fun o m b x _ _ hm => ?_⟩
  simp only [tileOps]
  cases h : blendMode m with
  | none => exact absurd h hm
  | some _ => exact ⟨_, rfl⟩

theorem step_never_panics {P M : Type} {ops : PicOps P M} {Op : Nat → Prop} {Md : List UInt8 → Prop} (dr : Draws ops Op Md) {depth fuel : Nat} (hf : 2 * depth ≤ fuel)
    {y : RSys P M} (ok : TreeOk y.scene depth) (hs : Supported Op Md y.scene) (h : ImagesOk y.st) (ev : REvent P) (hev : NoChange y ev) :
    (∃ y', y.step ops fuel ev = .ok y' ∧ y'.scene = y.scene ∧ ImagesOk y'.st) ∨ ∃ e, y.step ops fuel ev = .err e := by
  have deletes : ∀ {g : RState P → RState P}, Deletes g → ∀ {st : RState P}, ImagesOk st → ImagesOk (g st) := by
    intro g hg st h
    refine h.less (fun id pt e => ?_) (hg st).2
    rcases (hg st).1 id pt with e' | e'
    · rw [e'] at e; cases e
    · rw [← e']; exact e
  obtain ⟨s, st, dest, diff, pending⟩ := y
  cases ev with
  | change h' => exact absurd rfl (hev h')
  | start dest' diff' =>
    cases pending with
    | none => exact .inl ⟨_, rfl, rfl, h⟩
    | some ps => exact .inr ⟨_, rfl⟩
  | tile pt =>
    cases pending with
    | none => exact .inr ⟨_, rfl⟩
    | some ps =>
      obtain ⟨st', dest', e, h'⟩ := renderTile_ok dr hs hf ok diff pt st dest h
      simp only at e
      simp only [RSys.step, e, Res.ok_bind]
      exact .inl ⟨_, rfl, rfl, h'⟩
  | dirty p =>
    cases pending with
    | none => exact .inl ⟨_, rfl, rfl, deletes (setDirties_deletes s fuel [p]) h⟩
    | some ps => exact .inl ⟨_, rfl, rfl, h⟩
  | finish ab =>
    cases pending with
    | none => exact .inr ⟨_, rfl⟩
    | some ps =>
      refine .inl ⟨_, rfl, rfl, deletes (setDirties_deletes s fuel ps) ?_⟩
      cases ab
      · exact h
      · exact deletes revert_deletes h

/-- C69, for a tree all of whose blend modes there are operators for: whatever sequence of renders, cancelled or not, and dirty marks is
possible, none of it panics. The opacities and pixels are any. Missing: other blend modes (`C69_unknown_mode_panics`), and pass-through folders
with layers clipped to them that are not blended as a group (`C69_unblended_clip_panics`). -/
theorem C69_known_modes_never_panic_partial (s : Scene Tile (Nat → UInt8)) (depth fuel : Nat) (hf : 2 * depth ≤ fuel) (ok : TreeOk s depth)
    (hs : Supported (fun _ => True) (fun m => blendMode m ≠ none) s) (dest : TPt → Tile) (diff : Bool) (evs : List (REvent Tile))
    (hev : ∀ ev ∈ evs, ∀ h, ev ≠ .change h) :
    (∃ y, RSys.run tileOps fuel evs ⟨s, .empty, dest, diff, none⟩ = .ok y) ∨
      ∃ e, RSys.run tileOps fuel evs ⟨s, .empty, dest, diff, none⟩ = .err e := by
  have : ∀ (evs : List (REvent Tile)) (y : RSys Tile (Nat → UInt8)), (∀ ev ∈ evs, ∀ h, ev ≠ .change h) → y.scene = s → ImagesOk y.st →
      (∃ y', RSys.run tileOps fuel evs y = .ok y') ∨ ∃ e, RSys.run tileOps fuel evs y = .err e := by
    intro evs
    induction evs with
    | nil => intro y _ _ _; exact .inl ⟨_, rfl⟩
    | cons ev evs ih =>
      intro y hev hy h
      subst hy
      rw [RSys.run]
      rcases step_never_panics tile_draws hf ok hs h ev (hev ev List.mem_cons_self) with ⟨y', e, e1, e2⟩ | ⟨er, e⟩
      · rw [e]
        exact ih y' (fun ev hm => hev ev (List.mem_cons_of_mem _ hm)) e1 e2
      · rw [e]
        exact .inr ⟨_, rfl⟩
  exact this evs _ hev rfl (fun id pt e => by cases e)

/-- The blend modes of a document, as far as they are used, are known. -/
def KnownModes (layers : List (LTree LayerRec)) : Prop :=
  ∀ π l kids, docAt layers π = some (.node l kids) →
    (l.folder = false → blendMode l.blendMode ≠ none ∨ l.blendMode = ascii "pass") ∧
    (l.folder = true → blendMode l.sdBlendMode ≠ none ∨ l.sdBlendMode = ascii "pass" ∧ l.blendClippedElements = true)

/-- The condition of `C69_known_modes_never_panic_partial` in terms of the document. -/
theorem C69_known_document (grow : Nat → Nat) (dec : List UInt8 → Option (List UInt8)) (n : Nat) (layers : List (LTree LayerRec)) (hf : depthAll layers ≤ n)
    (hk : KnownModes layers) {P M : Type} (canvas : Int → Option (List (TPt × P))) (mask : Int → List (TPt × M)) :
    Supported (fun _ => True) (fun m => blendMode m ≠ none) ⟨newTree grow dec n layers, rootPtr, canvas, mask⟩ := by
  obtain ⟨_, _, g3⟩ := C53_tree_is_the_document grow dec n layers hf
  intro π q hπ hq
  refine ⟨trivial, ?_⟩
  match π with
  | i :: π =>
    have := g3 i π
    cases hd : docAt layers (i :: π) with
    | none =>
      rw [hd] at this
      simp only at this hq
      rw [this] at hq
      cases hq
    | some t =>
      cases t with
      | node l kids =>
        rw [hd] at this
        obtain ⟨q', r1, r2, _⟩ := this
        simp only at hq
        rw [hq] at r1
        injection r1 with r1
        subst r1
        obtain ⟨k1, k2⟩ := hk _ _ _ hd
        simp only
        cases hfo : l.folder with
        | true =>
          rw [r2.folderMode hfo, r2.blendClipped]
          exact (k2 hfo).imp id (fun h => ⟨h.1, .inr h.2⟩)
        | false =>
          left
          by_cases hp : l.blendMode = ascii "pass"
          · rw [r2.noPass hfo hp]
            decide
          · rw [r2.layerMode hfo hp]
            exact (k1 hfo).resolve_right hp

/-- C69 is false: if the bottom layer of a document is to be seen and has a blend mode there is no operator for, then rendering a tile it has
pixels at panics. Nothing is clipped to the layer. -/
theorem C69_unknown_mode_panics (grow : Nat → Nat) (dec : List UInt8 → Option (List UInt8)) (n : Nat) (l : LayerRec) (above : List (LTree LayerRec))
    (hf : depthAll (.node l [] :: above) ≤ n) (hfol : l.folder = false) (hv : l.visible = true) (ho : l.opacity ≠ 0) (hc : l.clipping = false)
    (hn : ∀ l' kids, above[0]? = some (.node l' kids) → l'.clipping = false) (hm : blendMode l.blendMode = none) (hp : l.blendMode ≠ ascii "pass")
    (s : Scene Tile (Nat → UInt8)) (h1 : s.h = newTree grow dec n (.node l [] :: above)) (h2 : s.root = rootPtr) (pt : TPt) (x : Tile)
    (hx : s.pic l.seqID pt = some x) (fuel : Nat) (diff aborted : Bool) (pts : List TPt) (dest : TPt → Tile) :
    render tileOps s (fuel + 1) diff aborted (pt :: pts) .empty dest = .panic .nilDeref := by
  obtain ⟨g1, g2, g3⟩ := C53_tree_is_the_document grow dec n _ hf
  have hcg := C53_clipping_groups grow dec n _ hf [] rootPtr rfl
  rw [← h1] at g1 g2 g3 hcg
  simp only [List.length_cons] at g2
  have slot : ∀ k, k < (s.h.at_ rootPtr).children.len → slotAt s.h rootPtr [k] = some ((s.h.at_ rootPtr).children.arr, k) := by
    intro k hk
    rw [slotAt_child hk, slotAt]
  have hb := g3 0 []
  simp only [docAt, List.getElem?_cons_zero, LTree.sub, slot 0 (by omega)] at hb
  obtain ⟨q, e, sh, hch⟩ := hb
  injection e with e
  subst e
  simp only [List.length_nil] at hch
  have hclip : (s.h.at_ ((s.h.at_ rootPtr).children.arr, 0)).clip = [] := by
    rw [(hcg 0 (by omega)).2.2, List.filter_eq_nil_iff.2]
    · rfl
    · intro k hk
      rw [decide_eq_true_eq]
      rintro ⟨b1, _, b3⟩
      have hk := List.mem_range.1 hk
      have c1 := b3 1 (by omega) (by omega)
      simp only at c1
      have hb := g3 1 []
      simp only [docAt, List.getElem?_cons_succ, slot 1 (by omega)] at hb
      have hlt : 0 < above.length := by omega
      cases ha : above[0]? with
      | none => rw [List.getElem?_eq_none_iff] at ha; omega
      | some t =>
        cases t with
        | node l' kids =>
          simp only [ha, LTree.sub] at hb
          obtain ⟨q', e', sh', _⟩ := hb
          injection e' with e'
          subst e'
          rw [sh'.clipping, hn l' kids ha] at c1
          cases c1
  have hmode := sh.layerMode hfol hp
  have hop : (s.h.at_ ((s.h.at_ rootPtr).children.arr, 0)).attr.opacity ≠ 0 := by
    rw [sh.opacity]
    intro h
    exact ho (UInt8.toNat_inj.1 h)
  have hmn : l.blendMode ≠ passThrough := hp
  have draw : ∀ st b, drawLayer tileOps s pt (fuel + 1) st b ((s.h.at_ rootPtr).children.arr, 0)
      (s.h.at_ ((s.h.at_ rootPtr).children.arr, 0)).attr.opacity l.blendMode false = .panic .nilDeref := by
    intro st b
    rw [drawLayer]
    simp only
    rw [if_neg (by rw [sh.visible, hv]; simp [hop]), if_neg (by rw [sh.clipping, hc]; simp), if_pos hch, sh.number, hx]
    simp only [drawBuf, hclip, List.length_nil, if_true, if_neg hmn, tileOps, hm]
    rfl
  unfold render renderTiles renderTile updateTile
  simp only [RState.empty, h2]
  obtain ⟨m, hlen⟩ : ∃ m, (s.h.at_ rootPtr).children.len = m + 1 := ⟨_, g2⟩
  rw [hlen, drawKids]
  simp only [id, hmode]
  rw [draw]
  rfl

/-- A folder that is pass-through and whose clipped layer is not blended with it as a group, and the layers of it. -/
def unblendedDoc : List (LTree LayerRec) :=
  [.node { seqID := 0, sdType := 1, sdBlendMode := ascii "pass", blendMode := ascii "norm", opacity := 255, blendClippedElements := false }
      [.node { seqID := 1, blendMode := ascii "norm", opacity := 255 } []],
    .node { seqID := 2, blendMode := ascii "norm", opacity := 255, clipping := true } []]

def unblendedScene : Scene Tile (Nat → UInt8) where
  h := newTree (fun n => n) some 2 unblendedDoc
  root := rootPtr
  canvas := fun id => if id = 1 then some [((0, 0), plainTile ⟨200, 0, 0, 255⟩)] else none
  mask := fun _ => []

/-- C69 is false too for a pass-through folder with a layer clipped to it if "Blend Clipped Layers as Group" is off. -/
theorem C69_unblended_clip_panics : (render tileOps unblendedScene 4 false false [(0, 0)] .empty blank).map (fun _ => ()) = .panic .nilDeref := by
  decide +kernel

/-- A document with a folder that is pass-through and another layer. -/
def knownDoc : List (LTree LayerRec) :=
  [.node { seqID := 0, sdType := 1, sdBlendMode := ascii "pass", opacity := 100, blendClippedElements := true } [.node { seqID := 1, blendMode := ascii "mul ", opacity := 255 } []],
    .node { seqID := 2, blendMode := ascii "pass", opacity := 7, clipping := true } []]

/-- The hypotheses of `C69_known_document` hold for it. -/
example : KnownModes knownDoc := by
  intro π l kids h
  match π with
  | [] => cases h
  | [0] => simp [docAt, knownDoc, LTree.sub] at h; rw [← h.1]; decide
  | [1] => simp [docAt, knownDoc, LTree.sub] at h; rw [← h.1]; decide
  | [0, 0] => simp [docAt, knownDoc, LTree.sub] at h; rw [← h.1]; decide
  | (i + 2) :: π => simp [docAt, knownDoc] at h
  | 1 :: i :: π => simp [docAt, knownDoc, LTree.sub] at h
  | 0 :: (i + 1) :: π => simp [docAt, knownDoc, LTree.sub] at h
  | 0 :: 0 :: i :: π => simp [docAt, knownDoc, LTree.sub] at h

/-- Those of `C69_unknown_mode_panics` for dissolve, a blend mode of the file format. -/
example : blendName (ascii "diss") = ascii "dissolve" ∧
    render tileOps ⟨newTree (fun n => n) some 1 [.node { seqID := 0, blendMode := ascii "diss", opacity := 9 } []], rootPtr,
      fun id => if id = 0 then some [((0, 0), plainTile ⟨1, 2, 3, 4⟩)] else none, fun _ => []⟩ 3 true false [(0, 0), (64, 0)] .empty blank = .panic .nilDeref :=
  ⟨by decide, C69_unknown_mode_panics (fun n => n) some 1 { seqID := 0, blendMode := ascii "diss", opacity := 9 } [] (by decide) (by decide) (by decide) (by decide) rfl (fun _ _ h => by cases h) (by decide) (by decide) _ rfl rfl
    (0, 0) (plainTile ⟨1, 2, 3, 4⟩) rfl 2 true false [(64, 0)] blank⟩

/-- Those of `C69_known_modes_never_panic_partial` for a tree with partly transparent pixels. -/
example : TreeOk exScene 2 ∧ Supported (fun _ => True) (fun m => blendMode m ≠ none) exScene := by
  refine ⟨(Linked.of_list exRList (by decide) (by decide) (by decide) (by decide) (by decide) (by decide) (by decide)).toTreeOk, ?_⟩
  have := FullyShown.of_list (s := exScene) exRList (by decide) (by decide) (by decide)
  exact fun π q hπ h => ⟨trivial, (this π q hπ h).2⟩

end Psd
