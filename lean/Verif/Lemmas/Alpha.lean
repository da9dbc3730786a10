import Verif.Lemmas.Solid
import Verif.Lemmas.ClipAlpha

/-!
# The transparency of pixels is computed apart from their colours
-/

namespace Psd

/-! ### The operations on the alpha of pixels -/

/-- The alpha of what a Porter-Duff operator gives. -/
def pdA (op : PD) (s d : UInt8) : UInt8 := hi8 (pdAlpha op (s.toUInt32 * 0x0101 * 0xffff / 0xffff) (d.toUInt32 * 0x0101))

/-- The alpha of what blending gives, whatever the mode. -/
def overA (opacity : Nat) (s d : UInt8) : UInt8 := (pxOr ⟨0, 0, 0, d⟩ (drawNN (.sep .normal) (UInt32.ofNat (opacity % 256)) ⟨0, 0, 0, s⟩ ⟨0, 0, 0, d⟩)).a

/-- What `pxOps` does to the alpha of pixels. -/
def alphaOps : PicOps UInt8 UInt8 where
  blank := 0
  copy a := a
  draw opacity bm dst src :=
    match blendMode bm with
    | none => .panic .nilDeref
    | some _ => .ok (overA opacity src dst)
  destIn dst src := pdA .destIn src dst
  destOver dst src := pdA .destOver src dst
  maskIn dst m := pdA .destIn m dst
  maskOut dst m := pdA .destOut m dst
  clear _ := 0
  removeAlpha _ := 255

theorem drawNN_alpha {m m' : Mode} {o : UInt8} {s d s' d' p p' : Px} (h : drawNN m o.toUInt32 s d = .ok p) (h' : drawNN m' o.toUInt32 s' d' = .ok p') (hs : s.a = s'.a) (hd : d.a = d'.a) : p.a = p'.a := by
  have c := draw_composite h
  have c' := draw_composite h'
  unfold Composite at c c'
  rw [hs, hd] at c
  simp only at c c'
  split at c
  · rename_i h0
    rw [if_pos h0] at c'
    rw [c, c', hd]
  · rename_i h0
    rw [if_neg h0] at c'
    exact UInt8.toNat_inj.1 (c.1.trans c'.1.symm)

theorem tile_alpha (i : Nat) : PicSim tileOps alphaOps (fun t => (t i).a) (fun m => m i) where
  blank := rfl
  copy p := copy_alpha p i
  draw o m b x y e := by
    obtain ⟨md, hm, e'⟩ := draw_px e i
    obtain ⟨p, hp, -⟩ := C38_no_wrap (.sep .normal) (UInt8.ofNat o) ⟨0, 0, 0, (x i).a⟩ ⟨0, 0, 0, (b i).a⟩
    have : overA o (x i).a (b i).a = p.a := by
      unfold overA
      rw [opacity_u8, hp]
      rfl
    simp only [alphaOps, hm, this]
    rw [drawNN_alpha e' hp rfl rfl]
  destIn b x := by rw [show (tileOps.destIn b x i).a = _ from pd_alpha .destIn (.px .nrgba (x i)) (b i) (b i), read_alpha, readPx_alpha]; rfl
  destOver b x := by rw [show (tileOps.destOver b x i).a = _ from pd_alpha .destOver (.px .nrgba (x i)) (b i) (b i), read_alpha, readPx_alpha]; rfl
  maskIn b x := by rw [show (tileOps.maskIn b x i).a = _ from pd_alpha .destIn (.alpha (x i)) (b i) (b i), readPx_alpha]; rfl
  maskOut b x := by rw [show (tileOps.maskOut b x i).a = _ from pd_alpha .destOut (.alpha (x i)) (b i) (b i), readPx_alpha]; rfl
  clear b := by rw [show (tileOps.clear b i).a = _ from pd_alpha .clear (.uniform ⟨0, 0, 0, 0⟩) (b i) (b i)]; exact (show hi8 0 = 0 by decide)
  removeAlpha b := rfl

theorem alpha_exact : ExactOps alphaOps where
  copy_id _ := rfl
  no_pass o b x y e := by simp only [alphaOps, show blendMode passThrough = none by decide, reduceCtorEq] at e

theorem alpha_draws : Draws alphaOps (fun _ => True) (fun m => blendMode m ≠ none) := by
  refine ⟨trivial, fun _ _ _ _ => trivial, fun o m b x _ _ hm => ?_⟩
  simp only [alphaOps]
  cases h : blendMode m with
  | none => exact absurd h hm
  | some _ => exact ⟨_, rfl⟩

/-! ### Renderers of exact operations -/

section
variable {P M Q N : Type} {opsQ : PicOps Q N} {ops : PicOps P M} {f : Q → P} {g : N → M}

/-- What is done to tiles is done to their images. -/
theorem renderTile_image (sim : PicSim opsQ ops f g) {z : Scene Q N} {fuel : Nat} {diff : Bool} {pt' : TPt} {q q' : RState Q} {dest dest' : TPt → Q} {p : RState P} (hs : SameState f q p)
    (e : renderTile opsQ z fuel diff pt' q dest = .ok (q', dest')) :
    ∃ p', renderTile ops (z.map f g) fuel diff pt' p (fun r => f (dest r)) = .ok (p', fun r => f (dest' r)) ∧ SameState f q' p' := by
  unfold renderTile at e
  obtain ⟨⟨q1, md, cs⟩, e1, e2⟩ := Res.bind_eq_ok.1 e
  obtain ⟨p1, f1, hs1⟩ := updateTile_sim sim z fuel pt' hs e1
  unfold renderTile
  simp only [f1, Res.ok_bind]
  simp only at e2
  split at e2
  · rename_i hmd
    rw [if_pos hmd]
    split at e2
    · simp only [hs1.2.2]
      split at e2
      · cases e2
      · rename_i ci hci
        injection e2 with e2
        injection e2 with e2 e3
        subst e2
        refine ⟨p1, ?_, hs1⟩
        simp only [hci, Option.map_some, ← e3]
        congr 2
        funext r
        split
        · exact (sim.copy _).symm
        · rfl
    · injection e2 with e2
      injection e2 with e2 e3
      subst e2
      refine ⟨p1, ?_, hs1⟩
      simp only [← e3]
      congr 2
      funext r
      split
      · exact (sim.clear _).symm
      · rfl
  · rename_i hmd
    rw [if_neg hmd]
    injection e2 with e2
    injection e2 with e2 e3
    subst e2 e3
    exact ⟨p1, rfl, hs1⟩

variable {Op : Nat → Prop} {Md : List UInt8 → Prop} {s : Scene P M} {pt : TPt}

theorem AtOk.exact (ex : ExactOps ops) (dr : Draws ops Op Md) (hm : Supported Op Md s) {depth fuel : Nat} (hf : 2 * depth ≤ fuel) {st st' : RState P} (h : AtOk ops s depth st pt) {pt' : TPt}
    {md : Bool} {cs : CacheState} (e : updateTile ops s fuel pt' st = .ok (st', md, cs)) : AtOk ops s depth st' pt := by
  by_cases hne : pt = pt'
  · subst hne
    obtain ⟨t, v, d, ok⟩ := h
    obtain ⟨r, hp⟩ := paint_ok dr t (Stk.supported_of hm t _ 0 _ s.root ⟨[], rfl⟩ rfl (Nat.le_refl _) v.1) false id ops.blank (fun o h => h)
    obtain ⟨st1, md1, e1, ok', _⟩ := updateTile_settled ex.no_pass v (by omega : t.depth ≤ fuel) ok (ex.settled _ _ _) hp
    rw [e] at e1
    injection e1 with e1
    injection e1 with e1
    subst e1
    exact ⟨t, v, d, ok'⟩
  · exact h.other hne e

/-- What two renderers show at a tile at which their entries are right. -/
theorem renderTile_exact (ex : ExactOps ops) (dr : Draws ops Op Md) (hm : Supported Op Md s) {depth fuel : Nat} (hf : 2 * depth ≤ fuel) {p q p' q' : RState P} (hp : AtOk ops s depth p pt)
    (hq : AtOk ops s depth q pt) {pt' : TPt} {d1 d2 d1' d2' : TPt → P} (e1 : renderTile ops s fuel false pt' p d1 = .ok (p', d1'))
    (e2 : renderTile ops s fuel false pt' q d2 = .ok (q', d2')) (hd : d1 pt = d2 pt) : d1' pt = d2' pt := by
  by_cases hne : pt = pt'
  · subst hne
    obtain ⟨t, v, d, ok⟩ := hp
    obtain ⟨t2, v2, _, ok2⟩ := hq
    have : t = t2 := View.det _ _ _ _ _ v.1 v2.1
    subst this
    obtain ⟨r, hp⟩ := paint_ok dr t (Stk.supported_of hm t _ 0 _ s.root ⟨[], rfl⟩ rfl (Nat.le_refl _) v.1) false id ops.blank (fun o h => h)
    obtain ⟨_, f1, _⟩ := renderTile_settled ex.no_pass v (by omega : t.depth ≤ fuel) ok (ex.settled _ _ _) hp false d1
    obtain ⟨_, f2, _⟩ := renderTile_settled ex.no_pass v (by omega : t.depth ≤ fuel) ok2 (ex.settled _ _ _) hp false d2
    rw [e1] at f1
    rw [e2] at f2
    injection f1 with f1
    injection f1 with _ f1
    injection f2 with f2
    injection f2 with _ f2
    rw [f1, f2]
    simp only [true_or, and_true, if_true, hd]
  · rw [renderTile_elsewhere e1 hne, renderTile_elsewhere e2 hne, hd]

/-! ### Histories -/

/-- The images of the entries at the tile `pt` are right. -/
def ImageOk (ops : PicOps P M) (f : Q → P) (g : N → M) (z : Scene Q N) (depth : Nat) (st : RState Q) (pt : TPt) : Prop :=
  ∃ p, SameState f st p ∧ AtOk ops (z.map f g) depth p pt

theorem TreeOk.image {z : Scene Q N} {depth : Nat} (h : TreeOk z depth) : TreeOk (z.map f g) depth := ⟨h.finite, h.unique, h.rootID, h.clipping⟩

theorem Linked.image {z : Scene Q N} {depth : Nat} (h : Linked z depth) : Linked (z.map f g) depth := by
  refine ⟨h.toTreeOk.image, h.parents, fun π q hq hl => ?_⟩
  have := h.folders π q hq hl
  simp only [Scene.map]
  rw [this]
  rfl

theorem ImageOk.empty {z : Scene Q N} {depth : Nat} (ok : TreeOk z depth) (pt : TPt) : ImageOk ops f g z depth .empty pt := ⟨.empty, SameState.empty, AtOk.empty ok.image pt⟩

theorem ImageOk.step (sim : PicSim opsQ ops f g) (ex : ExactOps ops) (dr : Draws ops Op Md) {depth fuel : Nat} (hf : 2 * depth ≤ fuel) {y y' : RSys Q N} {pt : TPt} (hm : Supported Op Md y.scene)
    (h : ImageOk ops f g y.scene depth y.st pt) {ev : REvent Q} (hev : NoChange y ev) (e : y.step opsQ fuel ev = .ok y') : ImageOk ops f g y'.scene depth y'.st pt ∧ y'.scene = y.scene := by
  obtain ⟨s, st, dest, diff, pending⟩ := y
  simp only at hm h
  obtain ⟨p, hs, ok⟩ := h
  cases ev with
  | change h => exact absurd rfl (hev h)
  | start d b =>
    cases pending with
    | some ps => simp only [RSys.step, reduceCtorEq] at e
    | none =>
      simp only [RSys.step, Res.ok.injEq] at e
      subst e
      exact ⟨⟨{ p with changes := [] }, ⟨hs.1, rfl, hs.2.2⟩, ok⟩, rfl⟩
  | tile pt' =>
    cases pending with
    | none => simp only [RSys.step, reduceCtorEq] at e
    | some ps =>
      simp only [RSys.step] at e
      obtain ⟨⟨st1, d1⟩, e1, e2⟩ := Res.bind_eq_ok.1 e
      injection e2 with e2
      subst e2
      obtain ⟨md, cs, e3⟩ := renderTile_update _ _ _ _ _ _ _ _ e1
      obtain ⟨p', f, hs'⟩ := updateTile_sim sim s fuel pt' hs e3
      exact ⟨⟨p', hs', ok.exact ex dr hm hf f⟩, rfl⟩
  | dirty r =>
    cases pending with
    | none =>
      simp only [RSys.step, Res.ok.injEq] at e
      subst e
      exact ⟨⟨_, setDirties_same s fuel [r] _ _ hs, ok.deletes (setDirties_deletes (s.map f g) fuel [r])⟩, rfl⟩
    | some ps =>
      simp only [RSys.step, Res.ok.injEq] at e
      subst e
      exact ⟨⟨p, hs, ok⟩, rfl⟩
  | finish ab =>
    cases pending with
    | none => simp only [RSys.step, reduceCtorEq] at e
    | some ps =>
      simp only [RSys.step, Res.ok.injEq] at e
      subst e
      cases ab
      · exact ⟨⟨_, setDirties_same s fuel ps _ _ hs, ok.deletes (setDirties_deletes (s.map f g) fuel ps)⟩, rfl⟩
      · exact ⟨⟨_, setDirties_same s fuel ps _ _ (revert_same hs), (ok.deletes (g := revert) revert_deletes).deletes (setDirties_deletes (s.map f g) fuel ps)⟩, rfl⟩

theorem ImageOk.edited {z : Scene Q N} {depth fuel : Nat} {h' : CHeap} {ps : List Ptr} (hf : 2 * depth < fuel) (ed : EditOk z.h h' z.root ps) (lk : Linked z depth) {st : RState Q} {pt : TPt}
    (h : ImageOk ops f g z depth st pt) : ImageOk ops f g { z with h := h' } depth (setDirties { z with h := h' } fuel ps st) pt := by
  obtain ⟨p, hs, ok⟩ := h
  exact ⟨_, setDirties_same (g := g) { z with h := h' } fuel ps _ _ hs, AtOk.edited (s := z.map f g) hf ed lk.image ok⟩

/-- Both renders succeed, and what they show has the same image at the tiles at which the entries of both are right. -/
theorem renderTiles_image (sim : PicSim opsQ ops f g) (ex : ExactOps ops) (dr : Draws ops Op Md) (drQ : Draws opsQ Op Md) {z : Scene Q N} (hm : Supported Op Md z) {depth fuel : Nat}
    (hf : 2 * depth ≤ fuel) (ok : TreeOk z depth) : ∀ (visited : List TPt) {p q : RState Q}, ImagesOk p → ImagesOk q → ∀ d1 d2, ∃ p' q' d1' d2',
    renderTiles opsQ z fuel false visited p d1 = .ok (p', d1') ∧ renderTiles opsQ z fuel false visited q d2 = .ok (q', d2') ∧
      ∀ pt, ImageOk ops f g z depth p pt → ImageOk ops f g z depth q pt → f (d1 pt) = f (d2 pt) → f (d1' pt) = f (d2' pt) := by
  intro visited
  induction visited with
  | nil => intro p q _ _ d1 d2; exact ⟨p, q, d1, d2, rfl, rfl, fun _ _ _ h => h⟩
  | cons pt' pts ih =>
    intro p q hp hq d1 d2
    obtain ⟨p1, d3, e1, hp1⟩ := renderTile_ok drQ hm hf ok false pt' p d1 hp
    obtain ⟨q1, d4, e2, hq1⟩ := renderTile_ok drQ hm hf ok false pt' q d2 hq
    obtain ⟨p2, q2, d5, d6, f1, f2, k⟩ := ih hp1 hq1 d3 d4
    refine ⟨p2, q2, d5, d6, ?_, ?_, fun pt h1 h2 hd => ?_⟩
    · simp only [renderTiles, e1, Res.ok_bind]
      exact f1
    · simp only [renderTiles, e2, Res.ok_bind]
      exact f2
    · obtain ⟨x, hx, okx⟩ := h1
      obtain ⟨w, hw, okw⟩ := h2
      obtain ⟨x', ex', hx'⟩ := renderTile_image sim hx e1
      obtain ⟨w', ew, hw'⟩ := renderTile_image sim hw e2
      obtain ⟨_, _, ux⟩ := renderTile_update _ _ _ _ _ _ _ _ ex'
      obtain ⟨_, _, uw⟩ := renderTile_update _ _ _ _ _ _ _ _ ew
      exact k pt ⟨x', hx', okx.exact ex dr hm hf ux⟩ ⟨w', hw', okw.exact ex dr hm hf uw⟩ (renderTile_exact ex dr hm hf okx okw ex' ew hd)

theorem render_image (sim : PicSim opsQ ops f g) (ex : ExactOps ops) (dr : Draws ops Op Md) (drQ : Draws opsQ Op Md) {z : Scene Q N} (hm : Supported Op Md z) {depth fuel : Nat}
    (hf : 2 * depth ≤ fuel) (ok : TreeOk z depth) {st : RState Q} (hi : ImagesOk st) (visited : List TPt) (dest : TPt → Q) :
    ∃ st1 st2 d1 d2, render opsQ z fuel false false visited st dest = .ok (st1, d1) ∧ render opsQ z fuel false false visited .empty dest = .ok (st2, d2) ∧
      ∀ pt, ImageOk ops f g z depth st pt → f (d1 pt) = f (d2 pt) := by
  obtain ⟨p, q, d1, d2, e1, e2, k⟩ := renderTiles_image sim ex dr drQ hm hf ok visited (p := { st with changes := [] }) (q := .empty) hi (fun id pt e => by cases e) dest dest
  refine ⟨p, q, d1, d2, ?_, ?_, fun pt h => k pt ?_ (ImageOk.empty ok pt) rfl⟩
  · unfold render
    rw [e1]
    rfl
  · unfold render
    simp only [RState.empty] at e2 ⊢
    rw [e2]
    rfl
  · obtain ⟨x, hx, okx⟩ := h
    exact ⟨{ x with changes := [] }, ⟨hx.1, rfl, hx.2.2⟩, okx⟩

end

end Psd
