import Verif.Props.Cover
import Verif.Spec.Composed

/-!
# C118: pass-through folders only hold layers together
-/

namespace Psd

/-- The folder is pass-through, visible at full opacity and has no mask in effect. -/
structure LayerRec.Transit (f : LayerRec) : Prop where
  folder : f.folder = true
  mode : f.sdBlendMode = ascii "pass"
  visible : f.visible = true
  opacity : f.opacity = 255
  unmasked : ¬f.masked
  base : f.clipping = false

/-! ### The document without the folder -/

/-- Where a layer of the document without the folder is in the document with it. -/
def refold (b s : Nat) : List Nat → List Nat
  | [] => []
  | j :: ρ => if j < b then j :: ρ else if j < b + s then b :: (j - b) :: ρ else (j - s + 1) :: ρ

theorem refold_inj {b s : Nat} {π π' : List Nat} (h : refold b s π = refold b s π') : π = π' := by
  cases π with
  | nil =>
    cases π' with
    | nil => rfl
    | cons j' ρ' =>
      simp only [refold] at h
      split at h
      · cases h
      · split at h <;> cases h
  | cons j ρ =>
    cases π' with
    | nil =>
      simp only [refold] at h
      split at h
      · cases h
      · split at h <;> cases h
    | cons j' ρ' =>
      simp only [refold] at h
      split at h <;> split at h <;> (try split at h) <;> (try split at h) <;> simp only [List.cons.injEq] at h ⊢ <;>
        first
          | exact h
          | (exfalso; omega)
          | exact ⟨by omega, h.2⟩
          | exact ⟨by omega, h.2.2⟩

theorem docAt_dissolve {below sub above : List (LTree LayerRec)} {f : LayerRec} {π : List Nat} {x : LTree LayerRec}
    (h : docAt (below ++ (sub ++ above)) π = some x) : docAt (below ++ .node f sub :: above) (refold below.length sub.length π) = some x := by
  cases π with
  | nil => cases h
  | cons j ρ =>
    simp only [refold]
    split
    · rename_i hj
      simp only [docAt, List.getElem?_append_left hj] at h ⊢
      exact h
    · rename_i hj
      obtain ⟨k, rfl⟩ : ∃ k, j = below.length + k := ⟨j - below.length, by omega⟩
      rw [docAt_append] at h
      split
      · rename_i hk
        rw [show below.length = below.length + 0 from rfl, docAt_append, Nat.add_sub_cancel_left]
        simp only [docAt, List.getElem?_append_left (show k < sub.length by omega)] at h
        exact h
      · rename_i hk
        obtain ⟨m, rfl⟩ : ∃ m, k = sub.length + m := ⟨k - sub.length, by omega⟩
        rw [docAt_append] at h
        rw [show below.length + (sub.length + m) - sub.length + 1 = below.length + (m + 1) by omega, docAt_append]
        exact h

theorem UniqueDoc.dissolve {below sub above : List (LTree LayerRec)} {f : LayerRec} (h : UniqueDoc (below ++ .node f sub :: above)) :
    UniqueDoc (below ++ (sub ++ above)) :=
  fun _ _ _ _ _ _ e e' hl => refold_inj (h _ _ _ _ _ _ (docAt_dissolve e) (docAt_dissolve e') hl)

theorem DocAll.dissolve {Q : LayerRec → List (LTree LayerRec) → Prop} {below sub above : List (LTree LayerRec)} {f : LayerRec}
    (h : DocAll Q (below ++ .node f sub :: above)) : DocAll Q (below ++ (sub ++ above)) :=
  fun _ _ _ e => h _ _ _ (docAt_dissolve e)

/-! ### Painting -/

/-- Only the opacities that occur matter. -/
theorem paint_scale {P M : Type} {ops : PicOps P M} {s s' : Nat → Nat} (h : ∀ x ≤ 255, s x = s' x) {dec : List UInt8 → Option (List UInt8)} {pic : Int → Option P}
    {mask : Int → Option M} (forced : Bool) : ∀ (t : Stk P M) (layers : List (LTree LayerRec)), IsStack dec pic mask layers t → ∀ b,
    paint ops t forced s b = paint ops t forced s' b := by
  intro t
  induction t with
  | nil => intros; rfl
  | layer a p m kids clips rest _ _ ihr =>
    intro layers ht b
    obtain ⟨l, sub, above, over, rfl, ha, -, -, -, -, hr, -⟩ := ht
    rw [paint_layer, paint_layer, h a.opacity (by rw [ha.opacity]; have := l.opacity.toNat_lt; omega)]
    congr 1
    funext r
    rw [ihr _ hr]

/-- What is in a folder at full opacity keeps its opacity. -/
theorem kidScale_full {a : CAttr} : ∀ x ≤ 255, kidScale a 255 x = id x := by
  intro x hx
  unfold kidScale
  rw [ite_self]
  show x * (255 * 32897) / 2 ^ 23 = x
  omega

/-- A pass-through folder on a pixel that is opaque. -/
theorem paintLayer_transit {dec : List UInt8 → Option (List UInt8)} {pic : Int → Option Tile} {mask : Int → Option (Nat → UInt8)} {sub : List (LTree LayerRec)} {a : CAttr}
    {m : Option (Nat → UInt8)} {kids : Stk Tile (Nat → UInt8)} {i : Nat} (hv : a.visible = true) (hc : a.clipping = false) (hm : a.blendMode = passThrough)
    (hk : a.maskEnabled = false) (hs : IsStack dec pic mask sub kids) (hb : kids.bare) {b : Tile} (hbi : (b i).a = 255) {r r' : Bool × Tile}
    (e : paintLayer tileOps a none m kids .nil false 255 b = .ok r) (e' : paint tileOps kids false id b = .ok r') :
    r.1 = r'.1 ∧ (r.2 i).Same (r'.2 i) := by
  unfold paintLayer drawn at e
  rw [if_pos (by simp [hv, hc])] at e
  obtain ⟨w, e1, e2⟩ := Res.bind_eq_ok.1 e
  unfold layerPic at e1
  obtain ⟨w0, e0, e1⟩ := Res.bind_eq_ok.1 e1
  have hw : w0 = w := by
    cases w0 with
    | none => injection e1
    | some x =>
      simp only [clipPic] at e1
      rw [if_pos (by simp [Stk.isNil])] at e1
      injection e1
  subst hw
  unfold ownPic at e0
  cases kids with
  | nil =>
    rw [if_pos (by simp [Stk.isNil])] at e0
    injection e0 with e0
    subst e0
    injection e2 with e2
    injection e' with e'
    subst e2 e'
    exact ⟨rfl, .inl rfl⟩
  | layer a1 p1 m1 k1 c1 r1 =>
    rw [if_neg (by simp [Stk.isNil])] at e0
    obtain ⟨rk, ek, e0⟩ := Res.bind_eq_ok.1 e0
    injection e0 with e0
    rw [paint_scale kidScale_full false _ _ hs, show kidStart tileOps a b = tileOps.copy b by unfold kidStart; rw [if_pos hm]] at ek
    have hcopy : (tileOps.copy b i).Same (b i) := .inl (copy_opaque hbi)
    obtain ⟨g1, g2⟩ := paint_same (strict := true) _ _ (.refl _ _ _) (.inl rfl) _ _ _ _ rk r' hcopy ek e'
    have hop : (rk.2 i).a = 255 := paint_opaque _ hb _ _ _ _ (by rw [copy_alpha]; exact hbi) ek
    unfold folderPic at e0
    cases h1 : rk.1 with
    | false =>
      rw [h1] at e0
      simp only [Bool.false_eq_true, if_false] at e0
      subst e0
      injection e2 with e2
      subst e2
      obtain ⟨d', x'⟩ := r'
      have hd : d' = false := (g2 rfl).symm.trans h1
      subst hd
      refine ⟨rfl, .inl ?_⟩
      rw [paint_idle _ _ _ _ _ e']
    | true =>
      rw [h1] at e0
      simp only [if_true] at e0
      subst e0
      obtain ⟨y, e3, e4⟩ := Res.bind_eq_ok.1 e2
      injection e4 with e4
      subst e4
      refine ⟨h1.symm.trans (g2 rfl), ?_⟩
      unfold place at e3
      rw [if_pos ⟨hm, rfl⟩] at e3
      injection e3 with e3
      subst e3
      have : applyMask tileOps a m a.blendMode b rk.2 = rk.2 := by
        unfold applyMask
        rw [if_neg (by rw [hk]; simp)]
      rw [this]
      show (tileOps.copy rk.2 i).Same _
      rw [copy_opaque hop]
      exact g1

theorem ShowsLayer.transit {dec : List UInt8 → Option (List UInt8)} {f : LayerRec} {a : CAttr} (h : ShowsLayer dec f a) (hs : f.Transit) :
    a.visible = true ∧ a.opacity = 255 ∧ a.blendMode = passThrough ∧ a.maskEnabled = false ∧ a.clipping = false := by
  refine ⟨h.visible.trans hs.visible, by rw [h.opacity, hs.opacity]; rfl, by rw [h.folderMode hs.folder, hs.mode]; rfl, ?_, h.clipping.trans hs.base⟩
  cases hm : a.maskEnabled with
  | false => rfl
  | true => exact absurd (h.mask.1 hm) hs.unmasked

/-- The folder is dissolved, over an opaque background. -/
theorem dissolve_looks {dec : List UInt8 → Option (List UInt8)} {pic : Int → Option Tile} {mask : Int → Option (Nat → UInt8)} {i : Nat} {l f : LayerRec} {below sub above : List (LTree LayerRec)}
    (hl : l.Solid) (hcl : l.clipping = false) (ht : f.Transit) (hsub : ∀ k ∈ sub.head?, k.isClipping = false) (habove : ∀ k ∈ above.head?, k.isClipping = false)
    (hb : DocAll (fun l kids => l.folder = true ∨ kids ≠ [] → pic l.seqID = none) (.node l [] :: below ++ .node f sub :: above)) {p : Tile} (hp : pic l.seqID = some p) (hpi : (p i).a = 255) :
    LooksAlike dec pic mask i (.node l [] :: below ++ .node f sub :: above) (.node l [] :: below ++ (sub ++ above)) := by
  intro t t' r r' h1 h1' h2 h2'
  have bare : ∀ {ls : List (LTree LayerRec)} {u : Stk Tile (Nat → UInt8)}, DocAll (fun l kids => l.folder = true ∨ kids ≠ [] → pic l.seqID = none) ls →
      IsStack dec pic mask ls u → u.bare := fun hq hs => stack_bare _ _ hs fun π l kids e h => hq π l kids e h
  have hb1 := DocAll.append (Q := fun l kids => l.folder = true ∨ kids ≠ [] → pic l.seqID = none) hb
  obtain ⟨c1, c2, -⟩ := DocAll.cons hb1.2
  -- the two stacks
  obtain ⟨tb, ty, g1, g2, g3⟩ := stack_append (ops := tileOps) t _ _ h1 (by intro k hk; cases hk; exact ht.base)
  obtain ⟨tb', tz, g1', g2', g3'⟩ := stack_append (ops := tileOps) t' _ _ h1' (by
    cases sub with
    | nil => exact habove
    | cons x xs => exact hsub)
  obtain rfl := stack_unique _ _ _ g1 g1'
  obtain ⟨ts, ta, g4, g5, g6⟩ := stack_append (ops := tileOps) tz _ _ g2' habove
  rw [g3] at h2
  rw [g3'] at h2'
  obtain ⟨rb, e1, h2⟩ := Res.bind_eq_ok.1 h2
  obtain ⟨ry, e2, h2⟩ := Res.bind_eq_ok.1 h2
  obtain ⟨rb', e1', h2'⟩ := Res.bind_eq_ok.1 h2'
  obtain ⟨rz, e2', h2'⟩ := Res.bind_eq_ok.1 h2'
  rw [e1] at e1'
  injection e1' with e1'
  subst e1'
  injection h2 with h2
  injection h2' with h2'
  subst h2 h2'
  -- the background
  have hop : (rb.2 i).a = 255 := by
    cases tb with
    | nil => cases (show _ :: _ = [] from g1)
    | layer a p0 m kids clips rest =>
      have hbb := bare hb1.1 g1
      obtain ⟨l0, sub0, above0, over, e3, ha, hp0, -, hk', hc, -⟩ := g1
      injection e3 with e3 e4
      injection e3 with e5 e6
      subst e5 e6
      replace hp0 := hp0.trans hp
      subst hp0
      obtain rfl := hk'.nil
      obtain ⟨s1, s2, s3, s4⟩ := ha.solid hl
      rw [paint_layer] at e1
      obtain ⟨r1, e5, e6⟩ := Res.bind_eq_ok.1 e1
      obtain ⟨r2, e7, e8⟩ := Res.bind_eq_ok.1 e6
      injection e8 with e8
      subst e8
      obtain ⟨-, img, f2, f3, -⟩ := paintLayer_cover s1 (.inl (ha.clipping.trans hcl)) s2 s3 s4 hpi hbb.2.2.1 e5
      exact paint_opaque rest hbb.2.2.2 _ _ _ r2 ((congrArg Px.a f3).trans f2) e7
  -- the folder
  cases ty with
  | nil => cases (show _ :: _ = [] from g2)
  | layer a p0 m kids clips rest =>
    obtain ⟨l0, sub0, above0, over, e3, ha, hp0, -, hk', hc, hr, n1, n2, n3⟩ := g2
    injection e3 with e3 e4
    injection e3 with e5 e6
    subst e5 e6
    obtain ⟨rfl, rfl⟩ := run_unique [] above above0 over (by simpa using e4) (by simp) n1 habove (n3 ht.base)
    obtain rfl := hc.nil
    replace hp0 := hp0.trans (c1 (.inl ht.folder))
    subst hp0
    obtain rfl := stack_unique _ _ _ hk' g4
    obtain rfl := stack_unique _ _ _ hr g5
    obtain ⟨s1, s2, s3, s4, s5⟩ := ha.transit ht
    rw [paint_layer] at e2
    rw [g6] at e2'
    obtain ⟨q, e5, e6⟩ := Res.bind_eq_ok.1 e2
    obtain ⟨q', e5', e6'⟩ := Res.bind_eq_ok.1 e2'
    obtain ⟨w, e7, e8⟩ := Res.bind_eq_ok.1 e6
    obtain ⟨w', e7', e8'⟩ := Res.bind_eq_ok.1 e6'
    injection e8 with e8
    injection e8' with e8'
    subst e8 e8'
    rw [show id a.opacity = 255 from s2] at e5
    obtain ⟨-, k2⟩ := paintLayer_transit s1 s5 s3 s4 hk' (bare c2 hk') hop e5 e5'
    exact (paint_same (strict := true) _ _ (.refl _ _ _) (.inl rfl) _ _ _ _ w w' k2 e7 e7').1

/-- **C118** A pass-through folder, visible at full opacity, without a mask in effect and with nothing clipped to it, can be dissolved: the document that has the folder's contents in its place (they must not
become clipped to what is below) is shown with the same colour at every pixel where the lowest layer of the document is an opaque background.

Missing: pixels at which what is below the folder is not opaque (`C118_changes_translucent_pixels`). -/
theorem C118_dissolve_partial (grow : Nat → Nat) (dec : List UInt8 → Option (List UInt8)) (n : Nat) (l f : LayerRec) (below sub above : List (LTree LayerRec))
    (hf : depthAll (.node l [] :: below ++ .node f sub :: above) ≤ n) (hu : UniqueDoc (.node l [] :: below ++ .node f sub :: above))
    (hk : KnownModes (.node l [] :: below ++ .node f sub :: above)) (hl : l.Solid) (hcl : l.clipping = false) (ht : f.Transit)
    (hsub : ∀ k ∈ sub.head?, k.isClipping = false) (habove : ∀ k ∈ above.head?, k.isClipping = false)
    (canvas : Int → Option (List (TPt × Tile))) (mask : Int → List (TPt × (Nat → UInt8))) (hb : FoldersBare (.node l [] :: below ++ .node f sub :: above) canvas)
    (pt : TPt) (i : Nat) (p : Tile) (hp : (canvas l.seqID).bind (·.lookup pt) = some p) (hpi : (p i).a = 255) (fuel : Nat) (hfu : 2 * n ≤ fuel) (diff aborted : Bool)
    (visited : List TPt) (hnd : visited.Nodup) (dest : TPt → Tile) :
    ∃ st st' d d', render tileOps ⟨newTree grow dec n (.node l [] :: below ++ .node f sub :: above), rootPtr, canvas, mask⟩ fuel diff aborted visited .empty dest = .ok (st, d) ∧
      render tileOps ⟨newTree grow dec n (.node l [] :: below ++ (sub ++ above)), rootPtr, canvas, mask⟩ fuel diff aborted visited .empty dest = .ok (st', d') ∧
      d pt i = d' pt i := by
  obtain ⟨st, d, e, h⟩ := C82_render_paints_the_layers grow dec n _ hf hu hk canvas mask fuel hfu diff aborted visited hnd dest
  have hf' : depthAll (.node l [] :: below ++ (sub ++ above)) ≤ n := by
    rw [depthAll_append, show depthAll (LTree.node f sub :: above) = max (depthAll sub + 1) (depthAll above) by simp [depthAll, LTree.depth]] at hf
    rw [depthAll_append, depthAll_append]
    omega
  obtain ⟨st', d', e', h'⟩ := C82_render_paints_the_layers grow dec n _ hf' hu.dissolve (DocAll.dissolve hk) canvas mask fuel hfu diff aborted visited hnd dest
  refine ⟨st, st', d, d', e, e', ?_⟩
  obtain ⟨t, r, h1, h2, h3⟩ := h pt
  obtain ⟨t', r', h1', h2', h3'⟩ := h' pt
  rw [h3, h3']
  split
  swap
  · rfl
  refine tileShown_same (dissolve_looks hl hcl ht hsub habove (fun π l kids e h => ?_) hp hpi t t' r r' h1 h1' h2 h2') h2 h2' _ _
  show (canvas _).bind _ = none
  rw [hb π l kids e h]
  rfl

/-! ### Translucent pixels -/

/-- A pass-through folder. -/
def transitFolder : LayerRec := { seqID := 2, sdType := 1, sdBlendMode := ascii "pass", opacity := 255, blendClippedElements := true }

/-- A layer in it. -/
def transitKid : LayerRec := { seqID := 1, blendMode := ascii "mul ", opacity := 255 }

/-- The pixels of both layers: those of the lower one are hardly to be seen, those of the layer in the folder not at all. -/
def faintCanvas (id : Int) : Option (List (TPt × Tile)) :=
  if id = 0 then some [((0, 0), plainTile ⟨100, 0, 0, 1⟩)] else if id = 1 then some [((0, 0), plainTile ⟨0, 0, 0, 0⟩)] else none

/-- C118 is false where what is below the folder is translucent: the folder copies its backdrop, and every copy of a translucent pixel loses a little of its colour. -/
theorem C118_changes_translucent_pixels : transitFolder.Transit ∧
    peekPx (render tileOps ⟨newTree (fun n => n) some 2 [.node dimBase [], .node transitFolder [.node transitKid []]], rootPtr, faintCanvas, fun _ => []⟩ 4 false false [(0, 0)]
      .empty blank) 5 = .ok ⟨95, 0, 0, 1⟩ ∧
    peekPx (render tileOps ⟨newTree (fun n => n) some 2 [.node dimBase [], .node transitKid []], rootPtr, faintCanvas, fun _ => []⟩ 4 false false [(0, 0)] .empty blank) 5 =
      .ok ⟨97, 0, 0, 1⟩ := by
  refine ⟨⟨rfl, rfl, rfl, rfl, ?_, rfl⟩, ?_⟩
  · exact fun h => absurd h.2.1 (by decide)
  · decide +kernel

/-! ### Non-vacuity -/

/-- The document of the examples below: an opaque background, a pass-through folder and a layer. -/
def transitDoc : List (LTree LayerRec) :=
  .node dimBase [] :: [] ++ .node transitFolder [.node transitKid []] :: [.node { seqID := 3, blendMode := ascii "scrn", opacity := 90 } []]

/-- Its pixels. -/
def transitCanvas (id : Int) : Option (List (TPt × Tile)) :=
  if id = 0 then some [((0, 0), plainTile ⟨100, 150, 200, 255⟩)] else if id = 2 then none else some [((0, 0), plainTile ⟨10, 20, 130, 180⟩)]

/-- It meets the hypotheses of `C118_dissolve_partial`. -/
example : depthAll transitDoc ≤ 2 ∧ UniqueDoc transitDoc ∧ KnownModes transitDoc ∧ dimBase.Solid ∧ dimBase.clipping = false ∧ transitFolder.Transit ∧ transitKid.clipping = false ∧
    FoldersBare transitDoc transitCanvas ∧ ∃ p, (transitCanvas 0).bind (·.lookup (0, 0)) = some p ∧ (p 5).a = 255 := by
  refine ⟨by decide, UniqueDoc.of_list ?_, DocAll.of_list (Q := fun l _ =>
    (l.folder = false → blendMode l.blendMode ≠ none ∨ l.blendMode = ascii "pass") ∧
    (l.folder = true → blendMode l.sdBlendMode ≠ none ∨ l.sdBlendMode = ascii "pass" ∧ l.blendClippedElements = true)) ?_, ⟨rfl, rfl, rfl, rfl, by decide⟩, rfl,
    ⟨rfl, rfl, rfl, rfl, fun h => absurd h.2.1 (by decide), rfl⟩, rfl, DocAll.of_list (Q := fun l kids => l.folder = true ∨ kids ≠ [] → transitCanvas l.seqID = none) ?_, ⟨_, rfl, rfl⟩⟩
  · simp only [docList, transitDoc, LTree.number, List.map, List.nil_append, List.cons_append]
    decide
  · intro x hx
    simp only [docList, transitDoc, List.map, List.nil_append, List.cons_append] at hx
    fin_cases hx <;> decide
  · intro x hx
    simp only [docList, transitDoc, List.map, List.nil_append, List.cons_append] at hx
    fin_cases hx
    case _ => exact fun h => by rcases h with h | h; exacts [absurd h (by decide), absurd rfl h]
    case _ => exact fun _ => rfl
    all_goals
      intro h
      rcases h with h | h
      · exact absurd h (by decide)
      · exact absurd rfl h

/-- What the document is shown with, at one of its pixels, with the folder and without it. -/
example :
    peekPx (render tileOps ⟨newTree (fun n => n) some 2 transitDoc, rootPtr, transitCanvas, fun _ => []⟩ 4 false false [(0, 0)] .empty blank) 5 =
      peekPx (render tileOps ⟨newTree (fun n => n) some 2 [.node dimBase [], .node transitKid [], .node { seqID := 3, blendMode := ascii "scrn", opacity := 90 } []], rootPtr, transitCanvas,
        fun _ => []⟩ 4 false false [(0, 0)] .empty blank) 5 := by
  decide +kernel

end Psd
