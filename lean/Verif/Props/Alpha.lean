import Verif.Lemmas.OtherModes
import Verif.Spec.Alpha
import Verif.Props.Composed
import Verif.Props.Solid

/-!
# Theorems C126 and C127

How opaque a picture is does not suffer from caching, and does not depend on the colours and blend modes of its layers.
-/

namespace Psd

theorem rendered_alpha {s : Scene Tile (Nat → UInt8)} {depth fuel : Nat} (hf : 2 * depth ≤ fuel) (ok : TreeOk s depth) (hm : ModesKnown s) (pt : TPt) (i : Nat)
    {y : RSys Tile (Nat → UInt8)} (u : Rendered tileOps fuel s y) : ImageOk alphaOps (fun t => (t i).a) (fun m => m i) y.scene depth y.st pt ∧ y.scene = s := by
  induction u with
  | new dest diff => exact ⟨ImageOk.empty ok pt, rfl⟩
  | step y y' ev _ hev e ih =>
    obtain ⟨h1, h2⟩ := ih
    obtain ⟨h3, h4⟩ := ImageOk.step (tile_alpha i) alpha_exact alpha_draws hf (h2 ▸ hm) h1 hev e
    exact ⟨h3, h4.trans h2⟩

theorem render_alpha {s : Scene Tile (Nat → UInt8)} {depth fuel : Nat} (hf : 2 * depth ≤ fuel) (ok : TreeOk s depth) (hm : ModesKnown s) {st : RState Tile} (hi : ImagesOk st)
    (h : ∀ pt i, ImageOk alphaOps (fun t => (t i).a) (fun m => m i) s depth st pt) (visited : List TPt) (dest : TPt → Tile) :
    ∃ st1 st2 d1 d2, render tileOps s fuel false false visited st dest = .ok (st1, d1) ∧ render tileOps s fuel false false visited .empty dest = .ok (st2, d2) ∧
      ∀ pt i, (d1 pt i).a = (d2 pt i).a := by
  obtain ⟨st1, st2, d1, d2, e1, e2, -⟩ := render_image (tile_alpha 0) alpha_exact alpha_draws tile_draws hm hf ok hi visited dest
  refine ⟨st1, st2, d1, d2, e1, e2, fun pt i => ?_⟩
  obtain ⟨_, _, c1, c2, f1, f2, k⟩ := render_image (tile_alpha i) alpha_exact alpha_draws tile_draws hm hf ok hi visited dest
  rw [e1] at f1
  rw [e2] at f2
  simp only [Res.ok.injEq, Prod.mk.injEq] at f1 f2
  rw [f1.2, f2.2]
  exact k pt (h pt i)

/-- **C126** Whatever was rendered, cancelled and marked dirty before, in whatever order, every pixel `Render` gives is exactly as opaque as that a new renderer would give. -/
theorem C126_cached_is_as_opaque (s : Scene Tile (Nat → UInt8)) (depth fuel : Nat) (hf : 2 * depth ≤ fuel) (ok : TreeOk s depth) (hm : ModesKnown s)
    (y : RSys Tile (Nat → UInt8)) (u : Rendered tileOps fuel s y) (visited : List TPt) (dest : TPt → Tile) :
    ∃ st st' cached fresh, render tileOps s fuel false false visited y.st dest = .ok (st, cached) ∧ render tileOps s fuel false false visited .empty dest = .ok (st', fresh) ∧
      ∀ pt i, (cached pt i).a = (fresh pt i).a := by
  obtain ⟨hi, hs⟩ := rendered_images hf ok hm u
  exact render_alpha hf ok hm hi (fun pt i => hs ▸ (rendered_alpha hf ok hm pt i u).1) visited dest

theorem lived_alpha {s : Scene Tile (Nat → UInt8)} {depth fuel : Nat} (hf : 2 * depth < fuel) (lk : Linked s depth) (pt : TPt) (i : Nat) {y : RSys Tile (Nat → UInt8)}
    (u : Lived tileOps fuel ModesKnown s y) : ImageOk alphaOps (fun t => (t i).a) (fun m => m i) y.scene depth y.st pt ∧ Linked y.scene depth ∧ ModesKnown y.scene := by
  induction u with
  | new dest diff hs => exact ⟨ImageOk.empty lk.toTreeOk pt, lk, hs⟩
  | step y y' ev _ hev e ih =>
    obtain ⟨h1, h2, h3⟩ := ih
    obtain ⟨k1, k2⟩ := ImageOk.step (tile_alpha i) alpha_exact alpha_draws (by omega) h3 h1 hev e
    rw [k2] at k1 ⊢
    exact ⟨k1, h2, h3⟩
  | edit y y' h' ps _ hp ed hs e ih =>
    obtain ⟨h1, h2, h3⟩ := ih
    obtain ⟨scene, st, dest, diff, pending⟩ := y
    simp only at h1 h2 hp ed hs
    simp only [RSys.run, RSys.step, Res.ok_bind] at e
    have := run_dirties fuel ps _ _ hp e
    subst this
    exact ⟨h1.edited hf ed h2, h2.edited ed, hs⟩

/-- **C126** And so it is in a tree whose layers know the folders they are in, whatever layers are changed between renders, if all changed ones are marked dirty. -/
theorem C126_edited_is_as_opaque (s : Scene Tile (Nat → UInt8)) (depth fuel : Nat) (hf : 2 * depth < fuel) (lk : Linked s depth)
    (y : RSys Tile (Nat → UInt8)) (u : Lived tileOps fuel ModesKnown s y) (visited : List TPt) (dest : TPt → Tile) :
    ∃ st st' cached fresh, render tileOps y.scene fuel false false visited y.st dest = .ok (st, cached) ∧ render tileOps y.scene fuel false false visited .empty dest = .ok (st', fresh) ∧
      ∀ pt i, (cached pt i).a = (fresh pt i).a := by
  obtain ⟨h1, h2, h3⟩ := lived_images hf lk u
  exact render_alpha (by omega) h2.toTreeOk h3 h1 (fun pt i => (lived_alpha hf lk pt i u).1) visited dest

/-- **C126** The clone of a tree, edited and marked, shows every pixel exactly as opaque as painting the edited document does. -/
theorem C126_edited_document (grow : Nat → Nat) (dec : List UInt8 → Option (List UInt8)) (n : Nat) (layers : List (LTree LayerRec)) (hf : depthAll layers ≤ n) (hu : UniqueDoc layers)
    (canvas : Int → Option (List (TPt × Tile))) (mask : Int → List (TPt × (Nat → UInt8))) (hroot : canvas (-1) = none)
    (hfold : ∀ π l kids, docAt layers π = some (.node l kids) → kids ≠ [] → canvas l.seqID = none)
    {h : CHeap} {root : Ptr} (hc : cloneTree (n + 1) rootPtr (newTree grow dec n layers) = (h, root))
    (fuel : Nat) (hfu : 2 * n < fuel) (y : RSys Tile (Nat → UInt8)) (u : Lived tileOps fuel ModesKnown ⟨h, root, canvas, mask⟩ y)
    (layers' : List (LTree LayerRec)) (hs : TreeShows dec y.scene.h y.scene.root layers') (hf' : depthAll layers' ≤ n) (hu' : UniqueDoc layers') (hk' : KnownModes layers')
    (visited : List TPt) (hnd : visited.Nodup) (dest : TPt → Tile) :
    ∃ st dest', render tileOps y.scene fuel false false visited y.st dest = .ok (st, dest') ∧
      ∀ pt, ∃ t r, IsStack dec (fun id => (canvas id).bind (·.lookup pt)) (fun id => (mask id).lookup pt) layers' t ∧ paint tileOps t false id tileOps.blank = .ok r ∧
        ∀ i, (dest' pt i).a = if pt ∈ visited then (r.2 i).a else (dest pt i).a := by
  have lk : Linked (⟨h, root, canvas, mask⟩ : Scene Tile (Nat → UInt8)) n := by
    have := C57_clone_is_linked grow dec n layers hf hu canvas mask hroot hfold
    rw [hc] at this
    exact this
  have hcm : y.scene.canvas = canvas ∧ y.scene.mask = mask := lived_pictures u
  obtain ⟨-, lk', -⟩ := lived_images hfu lk u
  obtain ⟨st, st', dest', fresh, e1, e2, h2⟩ := C126_edited_is_as_opaque _ n fuel hfu lk y u visited dest
  obtain ⟨st2, dest2, e3, h3⟩ := shows_renders lk'.toTreeOk dec hs hf' hu' hk' fuel (by omega) false false visited hnd dest
  rw [e2] at e3
  injection e3 with e3
  injection e3 with e3 e4
  subst e4
  rw [hcm.1, hcm.2] at h3
  refine ⟨st, dest', e1, fun pt => ?_⟩
  obtain ⟨t, r, k1, k2, k3⟩ := h3 pt
  refine ⟨t, r, k1, k2, fun i => ?_⟩
  rw [h2 pt i, k3]
  split
  · exact shown_alpha k2
  · rfl

/-! ### C127 -/

theorem PicSim.hom {P M Q N : Type} {o : PicOps P M} {o' : PicOps Q N} {f : P → Q} {g : M → N} (s : PicSim o o' f g) : OpsHom o o' f g :=
  ⟨s.blank, s.copy, s.draw, s.destIn, s.destOver, s.maskIn, s.maskOut, s.clear, s.removeAlpha⟩

/-- **C127** How opaque the picture is depends on how opaque the layers are and not on their colours and blend modes: if two documents have the same layers in the same folders, in whatever
blend modes the renderer knows, with the same masks, and if at a pixel every layer is as opaque in the one as in the other, then so is the picture. -/
theorem C127_colours_do_not_matter (grow : Nat → Nat) (dec : List UInt8 → Option (List UInt8)) (n : Nat) (doc doc' : List (LTree LayerRec)) (hf : depthAll doc ≤ n) (hf' : depthAll doc' ≤ n)
    (hu : UniqueDoc doc) (hu' : UniqueDoc doc') (hk : KnownModes doc) (hk' : KnownModes doc') (hd : OtherModes doc doc')
    (canvas canvas' : Int → Option (List (TPt × Tile))) (mask : Int → List (TPt × (Nat → UInt8))) (pt : TPt) (i : Nat) (hc : SameAlphas canvas canvas' pt i)
    (fuel : Nat) (hfu : 2 * n ≤ fuel) (diff aborted : Bool) (visited : List TPt) (hnd : visited.Nodup) (dest : TPt → Tile) :
    ∃ st st' d d', render tileOps ⟨newTree grow dec n doc, rootPtr, canvas, mask⟩ fuel diff aborted visited .empty dest = .ok (st, d) ∧
      render tileOps ⟨newTree grow dec n doc', rootPtr, canvas', mask⟩ fuel diff aborted visited .empty dest = .ok (st', d') ∧ (d pt i).a = (d' pt i).a := by
  obtain ⟨st, d, e, h⟩ := C82_render_paints_the_layers grow dec n doc hf hu hk canvas mask fuel hfu diff aborted visited hnd dest
  obtain ⟨st', d', e', h'⟩ := C82_render_paints_the_layers grow dec n doc' hf' hu' hk' canvas' mask fuel hfu diff aborted visited hnd dest
  refine ⟨st, st', d, d', e, e', ?_⟩
  obtain ⟨t, r, h1, h2, h3⟩ := h pt
  obtain ⟨t', r', h1', h2', h3'⟩ := h' pt
  rw [h3, h3']
  split
  · rw [shown_alpha h2, shown_alpha h2']
    have q := paint_hom (tile_alpha i).hom _ _ _ _ _ h2
    have q' := paint_hom (tile_alpha i).hom _ _ _ _ _ h2'
    have := paint_re _ _ (stack_re hc (fun m => m i) _ _ _ _ h1 h1' hd) _ _ _ _ _ q q'
    exact (Prod.mk.inj this).2
  · rfl

/-! ### C118 -/

/-- A pass-through folder, if copies are exact. -/
theorem paintLayer_transit_exact {P M : Type} {ops : PicOps P M} (ex : ExactOps ops) {dec : List UInt8 → Option (List UInt8)} {pic : Int → Option P} {mask : Int → Option M}
    {sub : List (LTree LayerRec)} {a : CAttr} {m : Option M} {kids : Stk P M} (hv : a.visible = true) (hc : a.clipping = false) (hm : a.blendMode = passThrough)
    (hk : a.maskEnabled = false) (hs : IsStack dec pic mask sub kids) {b : P} {r r' : Bool × P}
    (e : paintLayer ops a none m kids .nil false 255 b = .ok r) (e' : paint ops kids false id b = .ok r') : r = r' := by
  unfold paintLayer drawn at e
  rw [if_pos (by simp [hv, hc])] at e
  obtain ⟨w, e1, e2⟩ := Res.bind_eq_ok.1 e
  unfold layerPic at e1
  obtain ⟨w0, e0, e1⟩ := Res.bind_eq_ok.1 e1
  have hw : w0 = w := by
    cases w0 with
    | none => injection e1
    | some x =>
      simp only [clipPic] at e1
      rw [if_pos (by simp [Stk.isNil])] at e1
      injection e1
  subst hw
  unfold ownPic at e0
  cases kids with
  | nil =>
    rw [if_pos (by simp [Stk.isNil])] at e0
    injection e0 with e0
    subst e0
    injection e2 with e2
    injection e' with e'
    subst e2 e'
    rfl
  | layer a1 p1 m1 k1 c1 r1 =>
    rw [if_neg (by simp [Stk.isNil])] at e0
    obtain ⟨rk, ek, e0⟩ := Res.bind_eq_ok.1 e0
    injection e0 with e0
    rw [paint_scale kidScale_full false _ _ hs, show kidStart ops a b = b by unfold kidStart; rw [if_pos hm, ex.copy_id], e'] at ek
    injection ek with ek
    subst ek
    obtain ⟨d, x⟩ := r'
    unfold folderPic at e0
    cases d with
    | false =>
      simp only [Bool.false_eq_true, if_false] at e0
      subst e0
      injection e2 with e2
      subst e2
      rw [paint_idle _ _ _ _ _ e']
    | true =>
      simp only [if_true] at e0
      subst e0
      obtain ⟨y, e3, e4⟩ := Res.bind_eq_ok.1 e2
      injection e4 with e4
      subst e4
      unfold place at e3
      rw [if_pos ⟨hm, rfl⟩] at e3
      injection e3 with e3
      subst e3
      rw [ex.copy_id, show applyMask ops a m a.blendMode b x = x by unfold applyMask; rw [if_neg (by rw [hk]; simp)]]

/-- The folder is dissolved, if copies are exact. -/
theorem dissolve_exact {P M : Type} {ops : PicOps P M} (ex : ExactOps ops) {dec : List UInt8 → Option (List UInt8)} {pic : Int → Option P} {mask : Int → Option M} {f : LayerRec}
    {below sub above : List (LTree LayerRec)} (ht : f.Transit) (hsub : ∀ k ∈ sub.head?, k.isClipping = false) (habove : ∀ k ∈ above.head?, k.isClipping = false)
    (hp : pic f.seqID = none) {t t' : Stk P M} {b : P} {r r' : Bool × P} (h1 : IsStack dec pic mask (below ++ .node f sub :: above) t) (h1' : IsStack dec pic mask (below ++ (sub ++ above)) t')
    (h2 : paint ops t false id b = .ok r) (h2' : paint ops t' false id b = .ok r') : r = r' := by
  obtain ⟨tb, ty, g1, g2, g3⟩ := stack_append (ops := ops) t _ _ h1 (by intro k hk; cases hk; exact ht.base)
  obtain ⟨tb', tz, g1', g2', g3'⟩ := stack_append (ops := ops) t' _ _ h1' (by
    cases sub with
    | nil => exact habove
    | cons x xs => exact hsub)
  obtain rfl := stack_unique _ _ _ g1 g1'
  obtain ⟨ts, ta, g4, g5, g6⟩ := stack_append (ops := ops) tz _ _ g2' habove
  rw [g3] at h2
  rw [g3'] at h2'
  obtain ⟨rb, e1, h2⟩ := Res.bind_eq_ok.1 h2
  obtain ⟨ry, e2, h2⟩ := Res.bind_eq_ok.1 h2
  obtain ⟨rb', e1', h2'⟩ := Res.bind_eq_ok.1 h2'
  obtain ⟨rz, e2', h2'⟩ := Res.bind_eq_ok.1 h2'
  rw [e1] at e1'
  injection e1' with e1'
  subst e1'
  injection h2 with h2
  injection h2' with h2'
  subst h2 h2'
  cases ty with
  | nil => cases (show _ :: _ = [] from g2)
  | layer a p0 m kids clips rest =>
    obtain ⟨l0, sub0, above0, over, e3, ha, hp0, -, hk', hc, hr, n1, n2, n3⟩ := g2
    injection e3 with e3 e4
    injection e3 with e5 e6
    subst e5 e6
    obtain ⟨rfl, rfl⟩ := run_unique [] above above0 over (by simpa using e4) (by simp) n1 habove (n3 ht.base)
    obtain rfl := hc.nil
    replace hp0 := hp0.trans hp
    subst hp0
    obtain rfl := stack_unique _ _ _ hk' g4
    obtain rfl := stack_unique _ _ _ hr g5
    obtain ⟨s1, s2, s3, s4, s5⟩ := ha.transit ht
    rw [paint_layer] at e2
    rw [g6] at e2'
    obtain ⟨q, e5, e6⟩ := Res.bind_eq_ok.1 e2
    obtain ⟨q', e5', e6'⟩ := Res.bind_eq_ok.1 e2'
    rw [show id a.opacity = 255 from s2] at e5
    obtain rfl := paintLayer_transit_exact ex s1 s5 s3 s4 hk' e5 e5'
    rw [e6] at e6'
    injection e6' with e6'
    rw [e6']

/-- **C118** Dissolving a pass-through folder (visible at full opacity, without a mask in effect and with nothing clipped to it) changes at no pixel how opaque the picture is, whatever is
below. -/
theorem C118_dissolve_keeps_opacity (grow : Nat → Nat) (dec : List UInt8 → Option (List UInt8)) (n : Nat) (f : LayerRec) (below sub above : List (LTree LayerRec))
    (hf : depthAll (below ++ .node f sub :: above) ≤ n) (hu : UniqueDoc (below ++ .node f sub :: above)) (hk : KnownModes (below ++ .node f sub :: above)) (ht : f.Transit)
    (hsub : ∀ k ∈ sub.head?, k.isClipping = false) (habove : ∀ k ∈ above.head?, k.isClipping = false)
    (canvas : Int → Option (List (TPt × Tile))) (mask : Int → List (TPt × (Nat → UInt8))) (hb : canvas f.seqID = none) (fuel : Nat) (hfu : 2 * n ≤ fuel) (diff aborted : Bool)
    (visited : List TPt) (hnd : visited.Nodup) (dest : TPt → Tile) :
    ∃ st st' d d', render tileOps ⟨newTree grow dec n (below ++ .node f sub :: above), rootPtr, canvas, mask⟩ fuel diff aborted visited .empty dest = .ok (st, d) ∧
      render tileOps ⟨newTree grow dec n (below ++ (sub ++ above)), rootPtr, canvas, mask⟩ fuel diff aborted visited .empty dest = .ok (st', d') ∧
      ∀ pt i, (d pt i).a = (d' pt i).a := by
  obtain ⟨st, d, e, h⟩ := C82_render_paints_the_layers grow dec n _ hf hu hk canvas mask fuel hfu diff aborted visited hnd dest
  have hf' : depthAll (below ++ (sub ++ above)) ≤ n := by
    rw [depthAll_append, show depthAll (LTree.node f sub :: above) = max (depthAll sub + 1) (depthAll above) by simp [depthAll, LTree.depth]] at hf
    rw [depthAll_append, depthAll_append]
    omega
  obtain ⟨st', d', e', h'⟩ := C82_render_paints_the_layers grow dec n _ hf' hu.dissolve (DocAll.dissolve hk) canvas mask fuel hfu diff aborted visited hnd dest
  refine ⟨st, st', d, d', e, e', fun pt i => ?_⟩
  obtain ⟨t, r, h1, h2, h3⟩ := h pt
  obtain ⟨t', r', h1', h2', h3'⟩ := h' pt
  rw [h3, h3']
  split
  swap
  · rfl
  rw [shown_alpha h2, shown_alpha h2']
  have q := paint_hom (tile_alpha i).hom _ _ _ _ _ h2
  have q' := paint_hom (tile_alpha i).hom _ _ _ _ _ h2'
  have := dissolve_exact alpha_exact ht hsub habove (by simp only [hb]; rfl) (IsStack.through (fun t => (t i).a) (fun m => m i) _ _ h1) (IsStack.through (fun t => (t i).a) (fun m => m i) _ _ h1') q q'
  exact (Prod.mk.inj this).2

/-! ### Non-vacuity -/

/-- Caching the pixels of `lossyScene` loses colour (`C56_lossy_cache`) but not opacity: it meets the hypotheses of `C126_cached_is_as_opaque`, after a render. -/
example : ∃ y, RSys.run tileOps 4 onceEvents ⟨lossyScene, .empty, blank, false, none⟩ = .ok y ∧ Rendered tileOps 4 lossyScene y ∧ TreeOk lossyScene 2 ∧ ModesKnown lossyScene ∧
    peekPx (render tileOps lossyScene 4 false false [(0, 0)] y.st blank) 5 = .ok ⟨96, 0, 0, 1⟩ ∧ peekPx (render tileOps lossyScene 4 false false [(0, 0)] .empty blank) 5 = .ok ⟨97, 0, 0, 1⟩ := by
  have h : ((RSys.run tileOps 4 onceEvents ⟨lossyScene, .empty, blank, false, none⟩) >>= fun y =>
      peekPx (render tileOps lossyScene 4 false false [(0, 0)] y.st blank) 5) = .ok ⟨96, 0, 0, 1⟩ := by decide +kernel
  obtain ⟨y, e1, e2⟩ := Res.bind_eq_ok.1 h
  refine ⟨y, e1, Rendered.run onceEvents _ y (.new _ _) (by simp [onceEvents]) e1, ?_, ?_, e2, by decide +kernel⟩
  · exact (Linked.of_list exRList (by decide) (by decide) (by decide) (by decide) (by decide) (by decide) (by decide)).toTreeOk
  · exact ModesKnown.of_list exRList (by decide) (by decide) (by decide)

/-- The layers of `softDoc` in other modes. -/
def softDocRe : List (LTree LayerRec) :=
  [.node { seqID := 0, blendMode := ascii "diff", opacity := 200, blendClippedElements := true } [],
    .node { seqID := 1, blendMode := ascii "hue ", opacity := 77, blendClippedElements := true } [],
    .node { seqID := 2, blendMode := ascii "scrn", opacity := 255, clipping := true } []]

/-- And in other colours. -/
def softCanvasRe (id : Int) : Option (List (TPt × Tile)) :=
  if id = 0 then some [((0, 0), plainTile ⟨0, 0, 0, 128⟩)] else if id = 1 then some [((0, 0), plainTile ⟨255, 255, 255, 201⟩)]
  else if id = 2 then some [((0, 0), plainTile ⟨1, 2, 3, 99⟩)] else none

/-- They meet the hypotheses of `C127_colours_do_not_matter`. -/
example : depthAll softDoc ≤ 1 ∧ depthAll softDocRe ≤ 1 ∧ UniqueDoc softDoc ∧ UniqueDoc softDocRe ∧ KnownModes softDoc ∧ KnownModes softDocRe ∧ OtherModes softDoc softDocRe ∧
    SameAlphas softCanvas softCanvasRe (0, 0) 5 := by
  refine ⟨by decide, by decide, softDoc_unique, UniqueDoc.of_list ?_, softDoc_known, DocAll.of_list (Q := fun l _ =>
    (l.folder = false → blendMode l.blendMode ≠ none ∨ l.blendMode = ascii "pass") ∧
    (l.folder = true → blendMode l.sdBlendMode ≠ none ∨ l.sdBlendMode = ascii "pass" ∧ l.blendClippedElements = true)) ?_, ?_, ?_⟩
  · simp only [docList, softDocRe, LTree.number, List.map, List.nil_append]
    decide
  · intro x hx
    simp only [docList, softDocRe, List.map, List.nil_append] at hx
    fin_cases hx <;> decide
  · refine .cons _ _ _ _ _ _ ⟨rfl, by decide⟩ .nil (.cons _ _ _ _ _ _ ⟨rfl, by decide⟩ .nil (.cons _ _ _ _ _ _ ⟨rfl, by decide⟩ .nil .nil))
  · intro id
    unfold softCanvas softCanvasRe
    split
    · rfl
    split
    · rfl
    split
    · rfl
    · rfl

/-- `C118_dissolve_keeps_opacity` applies to the document of `C118_changes_translucent_pixels`, whose colours change. -/
example : depthAll [.node dimBase [], .node transitFolder [.node transitKid []]] ≤ 2 ∧ transitFolder.Transit ∧ transitKid.clipping = false ∧ faintCanvas transitFolder.seqID = none :=
  ⟨by decide, C118_changes_translucent_pixels.1, rfl, rfl⟩

end Psd
