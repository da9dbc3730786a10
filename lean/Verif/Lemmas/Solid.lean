import Verif.Spec.Solid
import Verif.Props.Modes
import Verif.Lemmas.PixelPaint

/-!
# Trees whose folders are solid keep exact pictures in their caches
-/

namespace Psd

def HardScale (f : Nat → Nat) : Prop := ∀ o, o = 0 ∨ o = 255 → f o = 0 ∨ f o = 255

theorem Px.Crisp.copy {p : Px} (h : Px.Crisp p) : pxOps.copy p = p := copy_px h _

theorem crispPic_copy {p : Px} (h : p.a = 0 ∨ p.a = 255) : Px.Crisp (pxOps.copy p) := pd_crisp .copy (.px .nrgba p) ⟨0, 0, 0, 0⟩ p (read_hard h) (.inl rfl)

theorem crispPic_draw {o : Nat} {m : List UInt8} {b x y : Px} (ho : o = 0 ∨ o = 255) (h0 : o ≠ 0) (hb : Px.Crisp b) (hx : Px.Crisp x) (e : pxOps.draw o m b x = .ok y) : Px.Crisp y := by
  have : o = 255 := ho.resolve_left h0
  subst this
  simp only [pxOps] at e
  split at e
  · cases e
  · injection e with e
    subst e
    exact drawNN_crisp _ hx hb _

theorem crispPic_mask {a : CAttr} {m : Option UInt8} {mode : List UInt8} {b buf : Px} (hm : ∀ x, m = some x → x = 0 ∨ x = 255) (hb : mode = passThrough → Px.Crisp b)
    (h : Px.Crisp buf) : Px.Crisp (applyMask pxOps a m mode b buf) := by
  unfold applyMask
  split
  · have fin : ∀ x, Px.Crisp x → Px.Crisp (if mode = passThrough then pxOps.destOver x b else x) := by
      intro x hx
      split
      · rename_i hp
        exact pd_crisp .destOver _ _ _ (read_hard (hb hp).alpha) hx.alpha
      · exact hx
    refine fin _ ?_
    cases m with
    | some m =>
      have hm := hm m rfl
      dsimp only
      split
      · exact pd_crisp .destIn _ _ _ (readAlpha_hard hm) h.alpha
      · exact pd_crisp .destOut _ _ _ (readAlpha_hard hm) h.alpha
    | none =>
      dsimp only
      split
      · exact pd_crisp .clear (.uniform ⟨0, 0, 0, 0⟩) buf buf (.inl rfl) h.alpha
      · exact h
  · exact h

/-- Layers, all that is in them and all that is clipped to them are hard-edged and fully shown. -/
def Stk.hard : Stk Px UInt8 → Prop
  | .nil => True
  | .layer a pic mask kids clips rest => (∀ p, pic = some p → p.a = 0 ∨ p.a = 255) ∧ (∀ m, mask = some m → m = 0 ∨ m = 255) ∧
      (a.opacity = 0 ∨ a.opacity = 255) ∧ kids.hard ∧ clips.hard ∧ rest.hard

theorem HardScale.kid {a : CAttr} {o : Nat} (h : a.blendMode = passThrough → o = 0 ∨ o = 255) : HardScale (kidScale a o) := by
  intro x hx
  unfold kidScale
  split
  · rename_i hp
    rcases hx with rfl | rfl <;> rcases h hp with rfl | rfl <;> decide
  · rcases hx with rfl | rfl <;> decide

theorem crispPic_blank : Px.Crisp pxOps.blank := .inr rfl

/-- The picture of a hard-edged layer is hard-edged. -/
theorem layerPic_hard {a : CAttr} {pic : Option Px} {mask : Option UInt8} {kids clips : Stk Px UInt8}
    (hk : ∀ scale b r, HardScale scale → Px.Crisp b → paint pxOps kids false scale b = .ok r → Px.Crisp r.2)
    (hc : clips.isNil = true ∨ ∀ b r, Px.Crisp b → paint pxOps clips true id b = .ok r → Px.Crisp r.2)
    (hp : kids.isNil = true → ∀ p, pic = some p → p.a = 0 ∨ p.a = 255) (hm : ∀ m, mask = some m → m = 0 ∨ m = 255)
    {o : Nat} {b : Px} (ho : a.blendMode = passThrough → o = 0 ∨ o = 255) (hb : a.blendMode = passThrough → Px.Crisp b) {img : Px}
    (e : layerPic pxOps a pic mask kids clips o b = .ok (some img)) : Px.Crisp img := by
  unfold layerPic at e
  obtain ⟨own, e1, e2⟩ := Res.bind_eq_ok.1 e
  cases own with
  | none => simp only [clipPic, Res.ok.injEq, reduceCtorEq] at e2
  | some buf =>
    have hbuf : Px.Crisp buf := by
      unfold ownPic at e1
      split at e1
      · rename_i hn
        injection e1 with e1
        cases pic with
        | none => cases e1
        | some p =>
          injection e1 with e1
          rw [← e1]
          exact crispPic_mask hm hb (crispPic_copy (hp hn p rfl))
      · obtain ⟨r, er, e1⟩ := Res.bind_eq_ok.1 e1
        injection e1 with e1
        unfold folderPic at e1
        split at e1
        · injection e1 with e1
          rw [← e1]
          refine crispPic_mask hm hb (hk _ _ r (HardScale.kid ho) ?_ er)
          unfold kidStart
          split
          · rename_i h
            rw [(hb h).copy]
            exact hb h
          · exact crispPic_blank
        · cases e1
    simp only [clipPic] at e2
    split at e2
    · injection e2 with e2
      injection e2 with e2
      exact e2 ▸ hbuf
    · rename_i hnc
      obtain ⟨r, er, e2⟩ := Res.bind_eq_ok.1 e2
      injection e2 with e2
      injection e2 with e2
      rw [← e2]
      have hr : Px.Crisp r.2 := by
        rcases hc with hc | hc
        · rw [hc] at hnc
          simp at hnc
        · exact hc _ r (.inl rfl) er
      exact pd_crisp .destIn _ _ _ (read_hard hbuf.alpha) hr.alpha

theorem paintLayer_hard {a : CAttr} {pic : Option Px} {mask : Option UInt8} {kids clips : Stk Px UInt8}
    (hk : ∀ scale b r, HardScale scale → Px.Crisp b → paint pxOps kids false scale b = .ok r → Px.Crisp r.2)
    (hc : ∀ b r, Px.Crisp b → paint pxOps clips true id b = .ok r → Px.Crisp r.2)
    (hp : ∀ p, pic = some p → p.a = 0 ∨ p.a = 255) (hm : ∀ m, mask = some m → m = 0 ∨ m = 255)
    {forced : Bool} {o : Nat} {b : Px} (ho : o = 0 ∨ o = 255) (hb : Px.Crisp b) {r : Bool × Px}
    (e : paintLayer pxOps a pic mask kids clips forced o b = .ok r) : Px.Crisp r.2 := by
  unfold paintLayer at e
  split at e
  · rename_i hd
    have h0 : o ≠ 0 := by
      intro h
      simp [drawn, h] at hd
    obtain ⟨fin, e1, e2⟩ := Res.bind_eq_ok.1 e
    cases fin with
    | none => injection e2 with e2; rw [← e2]; exact hb
    | some img =>
      have hi := layerPic_hard hk (.inr hc) (fun _ => hp) hm (fun _ => ho) (fun _ => hb) e1
      simp only [placeOpt] at e2
      obtain ⟨y, e2, e3⟩ := Res.bind_eq_ok.1 e2
      injection e3 with e3
      rw [← e3]
      unfold place at e2
      split at e2
      · injection e2 with e2
        show Px.Crisp y
        rw [← e2, hi.copy]
        exact hi
      · exact crispPic_draw ho h0 hb hi e2
  · injection e with e
    rw [← e]
    exact hb

theorem paint_hard : ∀ t : Stk Px UInt8, t.hard → ∀ forced scale b r, HardScale scale → Px.Crisp b → paint pxOps t forced scale b = .ok r → Px.Crisp r.2 := by
  intro t
  induction t with
  | nil => intro _ forced scale b r _ hb e; injection e with e; rw [← e]; exact hb
  | layer a pic mask kids clips rest ihk ihc ihr =>
    intro ⟨h1, h2, h3, h4, h5, h6⟩ forced scale b r hs hb e
    rw [paint_layer] at e
    obtain ⟨r1, e1, e⟩ := Res.bind_eq_ok.1 e
    obtain ⟨r2, e2, e⟩ := Res.bind_eq_ok.1 e
    injection e with e
    rw [← e]
    refine ihr h6 forced scale r1.2 r2 hs ?_ e2
    exact paintLayer_hard (fun s b r => ihk h4 false s b r) (fun b r => ihc h5 true id b r (fun _ h => h)) h1 h2 (hs _ h3) hb e1

/-- Every folder is hard-edged inside. `pre`: so is all that is below these layers. -/
def Stk.calm : Prop → Stk Px UInt8 → Prop
  | _, .nil => True
  | pre, .layer a pic mask kids clips rest =>
    (kids.isNil = false → kids.hard ∧ clips.hard ∧ (∀ m, mask = some m → m = 0 ∨ m = 255) ∧ (a.blendMode = passThrough → pre ∧ (a.opacity = 0 ∨ a.opacity = 255))) ∧
    clips.calm True ∧
    rest.calm (pre ∧ (∀ p, pic = some p → p.a = 0 ∨ p.a = 255) ∧ (∀ m, mask = some m → m = 0 ∨ m = 255) ∧ (a.opacity = 0 ∨ a.opacity = 255) ∧ kids.hard ∧ clips.hard)

def CrispCtx (c : Ctx Px) : Prop := ∀ x, c = some x → HardScale x.1 ∧ Px.Crisp x.2

theorem clipCtx_crisp (a : CAttr) (pic : Option Px) (mask : Option UInt8) (kids : Stk Px UInt8) (c : Option (Nat × Px)) : CrispCtx (clipCtx pxOps a pic mask kids c) := by
  intro x e
  unfold clipCtx at e
  cases c with
  | none => cases e
  | some c =>
    simp only [Option.bind_some] at e
    cases h : (ownPic pxOps a pic mask kids.isNil (paint pxOps kids false) c.1 c.2).toOption with
    | none => rw [h] at e; cases e
    | some r =>
      rw [h] at e
      cases r with
      | none => cases e
      | some buf =>
        simp only [Option.bind_some, Option.map_some, Option.some.injEq] at e
        rw [← e]
        exact ⟨fun _ h => h, .inl rfl⟩

theorem ownCtx_crisp {a : CAttr} {forced : Bool} {c : Ctx Px} (hc : a.blendMode = passThrough → CrispCtx c ∧ (a.opacity = 0 ∨ a.opacity = 255)) {o : Nat × Px}
    (e : ownCtx pxOps a forced c = some o) : (o.1 = 0 ∨ o.1 = 255) ∧ Px.Crisp o.2 := by
  unfold ownCtx at e
  split at e
  · cases e
  · split at e
    · rename_i hp
      obtain ⟨h1, h2⟩ := hc hp
      cases c with
      | none => cases e
      | some x =>
        simp only [Option.bind_some] at e
        split at e
        · injection e with e
          rw [← e]
          exact ⟨(h1 x rfl).1 _ h2, (h1 x rfl).2⟩
        · cases e
    · injection e with e
      rw [← e]
      exact ⟨.inr rfl, crispPic_blank⟩

theorem kidCtx_crisp {a : CAttr} {forced : Bool} {c : Ctx Px} (hc : a.blendMode = passThrough → CrispCtx c ∧ (a.opacity = 0 ∨ a.opacity = 255)) :
    CrispCtx ((ownCtx pxOps a forced c).map fun c => (kidScale a c.1, kidStart pxOps a c.2)) := by
  intro x e
  cases h : ownCtx pxOps a forced c with
  | none => rw [h] at e; cases e
  | some o =>
    rw [h] at e
    injection e with e
    rw [← e]
    obtain ⟨h1, h2⟩ := ownCtx_crisp hc h
    refine ⟨HardScale.kid fun _ => h1, ?_⟩
    show Px.Crisp (kidStart pxOps a o.2)
    unfold kidStart
    split
    · rw [h2.copy]; exact h2
    · exact crispPic_blank

theorem nextCtx_crisp {a : CAttr} {pic : Option Px} {mask : Option UInt8} {kids clips : Stk Px UInt8} {forced : Bool} {c : Ctx Px} (hc : CrispCtx c)
    (h1 : ∀ p, pic = some p → p.a = 0 ∨ p.a = 255) (h2 : ∀ m, mask = some m → m = 0 ∨ m = 255) (h3 : a.opacity = 0 ∨ a.opacity = 255) (h4 : kids.hard)
    (h5 : clips.hard) : CrispCtx (nextCtx pxOps a pic mask kids clips forced c) := by
  intro x e
  unfold nextCtx at e
  cases c with
  | none => cases e
  | some c =>
    simp only [Option.bind_some] at e
    cases h : paintLayer pxOps a pic mask kids clips forced (c.1 a.opacity) c.2 with
    | ok r =>
      rw [h] at e
      simp only [Res.toOption, Option.map_some, Option.some.injEq] at e
      rw [← e]
      exact ⟨(hc c rfl).1, paintLayer_hard (fun s b r => paint_hard kids h4 false s b r) (fun b r => paint_hard clips h5 true id b r (fun _ h => h)) h1 h2 ((hc c rfl).1 _ h3) (hc c rfl).2 h⟩
    | err _ => rw [h] at e; cases e
    | panic _ => rw [h] at e; cases e
    | fuel => rw [h] at e; cases e

theorem hard_settled : ∀ t : Stk Px UInt8, t.hard → ∀ forced c, CrispCtx c → Settled pxOps t forced c := by
  intro t
  induction t with
  | nil => intros; trivial
  | layer a pic mask kids clips rest ihk ihc ihr =>
    intro ⟨h1, h2, h3, h4, h5, h6⟩ forced c hc
    refine ⟨fun _ o ho img hi => ?_, ihk h4 _ _ (kidCtx_crisp fun _ => ⟨hc, h3⟩), ihc h5 _ _ (clipCtx_crisp _ _ _ _ _), ihr h6 _ _ (nextCtx_crisp hc h1 h2 h3 h4 h5)⟩
    obtain ⟨k1, k2⟩ := ownCtx_crisp (fun _ => ⟨hc, h3⟩) ho
    exact (layerPic_hard (fun s b r => paint_hard kids h4 false s b r) (.inr fun b r => paint_hard clips h5 true id b r (fun _ h => h)) (fun _ => h1) h2 (fun _ => k1) (fun _ => k2) hi).copy

theorem calm_settled : ∀ (t : Stk Px UInt8) (pre : Prop), t.calm pre → ∀ forced c, (pre → CrispCtx c) → Settled pxOps t forced c := by
  intro t
  induction t with
  | nil => intros; trivial
  | layer a pic mask kids clips rest _ ihc ihr =>
    intro pre ⟨h1, h2, h3⟩ forced c hc
    refine ⟨fun hn o ho img hi => ?_, ?_, ihc True h2 _ _ (fun _ => clipCtx_crisp _ _ _ _ _), ihr _ h3 _ _ (fun h => nextCtx_crisp (hc h.1) h.2.1 h.2.2.1 h.2.2.2.1 h.2.2.2.2.1 h.2.2.2.2.2)⟩
    · obtain ⟨k1, k2, k3, k4⟩ := h1 hn
      obtain ⟨j1, j2⟩ := ownCtx_crisp (fun hp => ⟨hc (k4 hp).1, (k4 hp).2⟩) ho
      exact (layerPic_hard (fun s b r => paint_hard kids k1 false s b r) (.inr fun b r => paint_hard clips k2 true id b r (fun _ h => h)) (fun h => absurd h (by rw [hn]; decide)) k3 (fun _ => j1)
        (fun _ => j2) hi).copy
    · cases hn : kids.isNil with
      | true =>
        cases kids with
        | nil => trivial
        | layer => cases hn
      | false =>
        obtain ⟨k1, k2, k3, k4⟩ := h1 hn
        exact hard_settled kids k1 _ _ (kidCtx_crisp fun hp => ⟨hc (k4 hp).1, (k4 hp).2⟩)

/-! ### Scenes -/

variable {s : Scene Px UInt8} {pt : TPt}

/-- `HardAt`, at the pixel a tree of single pixels has at a tile. -/
structure PxHard (s : Scene Px UInt8) (pt : TPt) (q : Ptr) : Prop where
  pic : ∀ p, s.pic (s.h.at_ q).attr.seqID pt = some p → p.a = 0 ∨ p.a = 255
  mask : ∀ m, (s.mask (s.h.at_ q).attr.seqID).lookup pt = some m → m = 0 ∨ m = 255
  opacity : (s.h.at_ q).attr.opacity = 0 ∨ (s.h.at_ q).attr.opacity = 255

/-- `SolidAt`, at the pixel a tree of single pixels has at a tile. -/
structure PxSolid (s : Scene Px UInt8) (pt : TPt) : Prop where
  inside : ∀ k π q, π ≠ [] → slotAt s.h s.root (k :: π) = some q → PxHard s pt q
  masks : ∀ k q, slotAt s.h s.root [k] = some q → 0 < (s.h.at_ q).children.len → ∀ m, (s.mask (s.h.at_ q).attr.seqID).lookup pt = some m → m = 0 ∨ m = 255
  clips : ∀ k q, slotAt s.h s.root [k] = some q → 0 < (s.h.at_ q).children.len → ∀ r, some r ∈ (s.h.at_ q).clip → PxHard s pt r
  pass : ∀ k q, slotAt s.h s.root [k] = some q → 0 < (s.h.at_ q).children.len → (s.h.at_ q).attr.blendMode = passThrough →
    ∀ j r, j ≤ k → slotAt s.h s.root [j] = some r → PxHard s pt r

theorem hard_of : ∀ (t : Stk Px UInt8) (arr i n : Nat) (q : Ptr), (s.h.at_ q).children.arr = arr → n ≤ (s.h.at_ q).children.len → View s pt t arr i n →
    (∀ k ρ r, i ≤ k → k < n → slotAt s.h q (k :: ρ) = some r → PxHard s pt r) → t.hard := by
  intro t
  induction t with
  | nil => intros; trivial
  | layer a pic mask kids clips rest ihk ihc ihr =>
    intro arr i n q hq hn hv H
    obtain ⟨j, h1, h2, hat, hpic, hmask, hvk, hvc, hac, hj, hclip, hvr⟩ := hv
    have hs : ∀ ρ, slotAt s.h q (i :: ρ) = slotAt s.h (arr, i) ρ := fun ρ => by rw [slotAt_child (by omega), hq]
    have hh := H i [] (arr, i) (Nat.le_refl _) (by omega) (by rw [hs]; rfl)
    subst hat
    refine ⟨fun p hp => hh.pic p (hpic.trans hp), fun m hm => ?_, hh.opacity, ihk _ 0 _ (arr, i) rfl (Nat.le_refl _) hvk ?_,
      ihc arr (i + 1) j q hq (by omega) hvc (fun k ρ r k1 k2 => H k ρ r (by omega) (by omega)), ihr arr j n q hq hn hvr (fun k ρ r k1 k2 => H k ρ r (by omega) k2)⟩
    · exact hh.mask _ (hmask.trans hm)
    · intro k ρ r _ _ hr
      exact H i (k :: ρ) r (Nat.le_refl _) (by omega) (by rw [hs]; exact hr)

theorem calm_of (sf : PxSolid s pt) : ∀ (t : Stk Px UInt8) (i n : Nat) (pre : Prop), n ≤ (s.h.at_ s.root).children.len → View s pt t (s.h.at_ s.root).children.arr i n →
    ((∀ j, j < i → PxHard s pt ((s.h.at_ s.root).children.arr, j)) → pre) → t.calm pre := by
  intro t
  induction t with
  | nil => intros; trivial
  | layer a pic mask kids clips rest _ ihc ihr =>
    intro i n pre hn hv hpre
    obtain ⟨j, h1, h2, hat, hpic, hmask, hvk, hvc, hac, hj, hclip, hvr⟩ := hv
    subst hat
    generalize harr : (s.h.at_ s.root).children.arr = arr at *
    have slot : ∀ k ρ, k < (s.h.at_ s.root).children.len → slotAt s.h s.root (k :: ρ) = slotAt s.h (arr, k) ρ := fun k ρ hk => by rw [slotAt_child hk, harr]
    have top : ∀ k, k < (s.h.at_ s.root).children.len → slotAt s.h s.root [k] = some (arr, k) := fun k hk => by rw [slot k [] hk]; rfl
    have hk : kids.hard := by
      refine hard_of kids _ 0 _ (arr, i) rfl (Nat.le_refl _) hvk (fun k ρ r _ _ hr => sf.inside i (k :: ρ) r (by simp) ?_)
      rw [slot i _ (by omega)]
      exact hr
    have hcl : (∀ k, i < k → k < j → PxHard s pt (arr, k)) → clips.hard := by
      intro H
      refine hard_of clips arr (i + 1) j s.root harr (by omega) hvc (fun k ρ r k1 k2 hr => ?_)
      cases ρ with
      | nil =>
        rw [top k (by omega)] at hr
        injection hr with hr
        rw [← hr]
        exact H k (by omega) k2
      | cons => exact sf.inside k _ r (by simp) hr
    refine ⟨fun hnk => ?_, ihc (i + 1) j True (by omega) hvc (fun _ => trivial), ihr j n _ hn hvr (fun H => ?_)⟩
    · have hlen : 0 < (s.h.at_ (arr, i)).children.len := by
        apply Nat.pos_of_ne_zero
        intro h0
        have := (Stk.isNil_range hvk).2 (by rw [h0])
        rw [this] at hnk
        cases hnk
      refine ⟨hk, hcl (fun k k1 k2 => sf.clips i _ (top i (by omega)) hlen (arr, k) ?_), fun m hm => ?_, fun hp => ?_⟩
      · rw [hclip, List.mem_map]
        exact ⟨k, List.mem_range'_1.2 ⟨k1, by omega⟩, rfl⟩
      · exact sf.masks i _ (top i (by omega)) hlen _ (hmask.trans hm)
      · have H := sf.pass i _ (top i (by omega)) hlen hp
        exact ⟨hpre fun j hj => H j _ (by omega) (top j (by omega)), (H i _ (Nat.le_refl _) (top i (by omega))).opacity⟩
    · have hh := H i (by omega)
      exact ⟨hpre fun k hk => H k (by omega), fun p hp => hh.pic p (hpic.trans hp), fun m hm => hh.mask _ (hmask.trans hm), hh.opacity, hk, hcl fun k _ k2 => H k k2⟩

theorem PxSolid.settled (sf : PxSolid s pt) {t : Stk Px UInt8} (hv : RootView s pt t) : Settled pxOps t false (some (id, pxOps.blank)) := by
  refine calm_settled t True (calm_of sf t 0 _ True (Nat.le_refl _) hv.1 (fun _ => trivial)) _ _ (fun _ x e => ?_)
  injection e with e
  rw [← e]
  exact ⟨fun _ h => h, crispPic_blank⟩

theorem px_no_pass : ∀ o b x y, pxOps.draw o passThrough b x ≠ .ok y := by
  intro o b x y e
  simp only [pxOps, show blendMode passThrough = none by decide, reduceCtorEq] at e

theorem px_draws : Draws pxOps (fun _ => True) (fun m => blendMode m ≠ none) := by
  refine ⟨trivial, fun _ _ _ _ => trivial, fun o m b x _ _ hm => ?_⟩
  simp only [pxOps]
  cases h : blendMode m with
  | none => exact absurd h hm
  | some _ => exact ⟨_, rfl⟩

/-! ### One tile of a tree of pixels -/

theorem renderTile_elsewhere {P M : Type} {ops : PicOps P M} {s : Scene P M} {fuel : Nat} {diff : Bool} {pt pt' : TPt} {st st' : RState P} {dest dest' : TPt → P}
    (e : renderTile ops s fuel diff pt' st dest = .ok (st', dest')) (hne : pt ≠ pt') : dest' pt = dest pt := by
  unfold renderTile at e
  obtain ⟨⟨st1, md, cs⟩, e1, e2⟩ := Res.bind_eq_ok.1 e
  simp only at e2
  split at e2
  · split at e2
    · split at e2
      · cases e2
      · injection e2 with e2
        injection e2 with _ e2
        rw [← e2]
        exact if_neg hne
    · injection e2 with e2
      injection e2 with _ e2
      rw [← e2]
      exact if_neg hne
  · injection e2 with e2
    injection e2 with _ e2
    rw [e2]

theorem AtOk.other {P M : Type} {ops : PicOps P M} {s : Scene P M} {depth fuel : Nat} {pt pt' : TPt} {st st' : RState P} (h : AtOk ops s depth st pt) (hne : pt ≠ pt') {md : Bool} {cs : CacheState}
    (e : updateTile ops s fuel pt' st = .ok (st', md, cs)) : AtOk ops s depth st' pt := by
  obtain ⟨t, v, d, ok⟩ := h
  have ho := updateTile_rel (sameElsewhere_rel pt') s fuel st st' md cs e
  refine ⟨t, v, d, ?_, ?_⟩
  · have := ho seqIDRoot pt hne
    rw [this.1, this.2]
    exact ok.1
  · exact ok.2.congr _ _ _ (fun id _ => ho id pt hne)

theorem AtOk.update (ps : PxSolid s pt) (hm : ModesKnown s) {depth fuel : Nat} (hf : 2 * depth ≤ fuel) {st st' : RState Px} (h : AtOk pxOps s depth st pt) {pt' : TPt} {md : Bool} {cs : CacheState}
    (e : updateTile pxOps s fuel pt' st = .ok (st', md, cs)) : AtOk pxOps s depth st' pt := by
  by_cases hne : pt = pt'
  · subst hne
    obtain ⟨t, v, d, ok⟩ := h
    obtain ⟨r, hp⟩ := paint_ok px_draws t (Stk.supported_of hm t _ 0 _ s.root ⟨[], rfl⟩ rfl (Nat.le_refl _) v.1) false id pxOps.blank (fun o h => h)
    obtain ⟨st1, md1, e1, ok', _⟩ := updateTile_settled px_no_pass v (by omega : t.depth ≤ fuel) ok (ps.settled v) hp
    rw [e] at e1
    injection e1 with e1
    injection e1 with e1
    subst e1
    exact ⟨t, v, d, ok'⟩
  · exact h.other hne e

/-- What two renderers show at a tile at which their entries are right. -/
theorem renderTile_agree (ps : PxSolid s pt) (hm : ModesKnown s) {depth fuel : Nat} (hf : 2 * depth ≤ fuel) {p q p' q' : RState Px} (hp : AtOk pxOps s depth p pt)
    (hq : AtOk pxOps s depth q pt) {pt' : TPt} {d1 d2 d1' d2' : TPt → Px} (e1 : renderTile pxOps s fuel false pt' p d1 = .ok (p', d1'))
    (e2 : renderTile pxOps s fuel false pt' q d2 = .ok (q', d2')) (hd : d1 pt = d2 pt) : d1' pt = d2' pt := by
  by_cases hne : pt = pt'
  · subst hne
    obtain ⟨t, v, d, ok⟩ := hp
    obtain ⟨t2, v2, _, ok2⟩ := hq
    have : t = t2 := View.det _ _ _ _ _ v.1 v2.1
    subst this
    obtain ⟨r, hp⟩ := paint_ok px_draws t (Stk.supported_of hm t _ 0 _ s.root ⟨[], rfl⟩ rfl (Nat.le_refl _) v.1) false id pxOps.blank (fun o h => h)
    obtain ⟨_, f1, _⟩ := renderTile_settled px_no_pass v (by omega : t.depth ≤ fuel) ok (ps.settled v) hp false d1
    obtain ⟨_, f2, _⟩ := renderTile_settled px_no_pass v (by omega : t.depth ≤ fuel) ok2 (ps.settled v) hp false d2
    rw [e1] at f1
    rw [e2] at f2
    injection f1 with f1
    injection f1 with _ f1
    injection f2 with f2
    injection f2 with _ f2
    rw [f1, f2]
    simp only [true_or, and_true, if_true, hd]
  · rw [renderTile_elsewhere e1 hne, renderTile_elsewhere e2 hne, hd]

/-! ### Trees of tiles -/

variable {z : Scene Tile (Nat → UInt8)}

/-- One pixel of every tile. -/
def Scene.px (z : Scene Tile (Nat → UInt8)) (i : Nat) : Scene Px UInt8 := z.map (fun t => t i) (fun m => m i)

theorem tile_sim (i : Nat) : PicSim tileOps pxOps (fun t => t i) (fun m => m i) :=
  let h := tile_px i
  ⟨h.blank, h.copy, h.draw, h.destIn, h.destOver, h.maskIn, h.maskOut, h.clear, h.removeAlpha⟩

theorem HardAt.px {i : Nat} {q : Ptr} (h : HardAt z pt i q) : PxHard (z.px i) pt q := by
  refine ⟨fun p e => ?_, fun m e => ?_, h.opacity⟩
  · rw [Scene.px, pic_map] at e
    obtain ⟨t, e1, e2⟩ := Option.map_eq_some_iff.1 e
    rw [← e2]
    exact h.pic t e1
  · have e := (lookup_map (fun m : Nat → UInt8 => m i) pt (z.mask (z.h.at_ q).attr.seqID)).symm.trans e
    obtain ⟨t, e1, e2⟩ := Option.map_eq_some_iff.1 e
    rw [← e2]
    exact h.mask t e1

theorem SolidAt.px {i : Nat} (h : SolidAt z pt i) : PxSolid (z.px i) pt := by
  refine ⟨fun k π q hπ hq => (h.inside k π q hπ hq).px, fun k q hq hl m e => ?_, fun k q hq hl r hr => (h.clips k q hq hl r hr).px, fun k q hq hl hp j r hj hr => (h.pass k q hq hl hp j r hj hr).px⟩
  have e := (lookup_map (fun m : Nat → UInt8 => m i) pt (z.mask (z.h.at_ q).attr.seqID)).symm.trans e
  obtain ⟨t, e1, e2⟩ := Option.map_eq_some_iff.1 e
  rw [← e2]
  exact h.masks k q hq hl t e1

theorem ModesKnown.px (h : ModesKnown z) (i : Nat) : ModesKnown (z.px i) := fun π q => h π q

theorem TreeOk.px {depth : Nat} (h : TreeOk z depth) (i : Nat) : TreeOk (z.px i) depth := ⟨h.finite, h.unique, h.rootID, h.clipping⟩

theorem Linked.px {depth : Nat} (h : Linked z depth) (i : Nat) : Linked (z.px i) depth := by
  refine ⟨h.toTreeOk.px i, h.parents, fun π q hq hl => ?_⟩
  have := h.folders π q hq hl
  simp only [Scene.px, Scene.map]
  rw [this]
  rfl

/-- What is done to tiles is done to each of their pixels. -/
theorem renderTile_px (i : Nat) {fuel : Nat} {diff : Bool} {pt' : TPt} {q q' : RState Tile} {dest dest' : TPt → Tile} {p : RState Px} (hs : SameState (fun t => t i) q p)
    (e : renderTile tileOps z fuel diff pt' q dest = .ok (q', dest')) :
    ∃ p', renderTile pxOps (z.px i) fuel diff pt' p (fun r => dest r i) = .ok (p', fun r => dest' r i) ∧ SameState (fun t => t i) q' p' := by
  unfold renderTile at e
  obtain ⟨⟨q1, md, cs⟩, e1, e2⟩ := Res.bind_eq_ok.1 e
  obtain ⟨p1, f1, hs1⟩ := updateTile_sim (tile_sim i) z fuel pt' hs e1
  unfold renderTile
  simp only [Scene.px, f1, Res.ok_bind]
  simp only at e2
  split at e2
  · rename_i hmd
    rw [if_pos hmd]
    split at e2
    · simp only [hs1.2.2]
      split at e2
      · cases e2
      · rename_i ci hci
        injection e2 with e2
        injection e2 with e2 e3
        subst e2
        refine ⟨p1, ?_, hs1⟩
        simp only [hci, Option.map_some, ← e3]
        congr 2
        funext r
        split
        · rfl
        · rfl
    · injection e2 with e2
      injection e2 with e2 e3
      subst e2
      refine ⟨p1, ?_, hs1⟩
      simp only [← e3]
      congr 2
      funext r
      split
      · rfl
      · rfl
  · rename_i hmd
    rw [if_neg hmd]
    injection e2 with e2
    injection e2 with e2 e3
    subst e2 e3
    exact ⟨p1, rfl, hs1⟩

/-! ### Histories -/

/-- The entries at the tile `pt` are right at its pixel `i`. -/
def PixelOk (z : Scene Tile (Nat → UInt8)) (depth : Nat) (st : RState Tile) (pt : TPt) (i : Nat) : Prop :=
  ∃ p, SameState (fun t => t i) st p ∧ AtOk pxOps (z.px i) depth p pt

theorem PixelOk.empty {depth : Nat} (ok : TreeOk z depth) (pt : TPt) (i : Nat) : PixelOk z depth .empty pt i :=
  ⟨.empty, SameState.empty, AtOk.empty (ok.px i) pt⟩

theorem PixelOk.step {depth fuel : Nat} (hf : 2 * depth ≤ fuel) {y y' : RSys Tile (Nat → UInt8)} {pt : TPt} {i : Nat} (sf : SolidAt y.scene pt i) (hm : ModesKnown y.scene)
    (h : PixelOk y.scene depth y.st pt i) {ev : REvent Tile} (hev : NoChange y ev) (e : y.step tileOps fuel ev = .ok y') : PixelOk y'.scene depth y'.st pt i ∧ y'.scene = y.scene := by
  obtain ⟨s, st, dest, diff, pending⟩ := y
  simp only at sf hm h
  obtain ⟨p, hs, ok⟩ := h
  cases ev with
  | change h => exact absurd rfl (hev h)
  | start d b =>
    cases pending with
    | some ps => simp only [RSys.step, reduceCtorEq] at e
    | none =>
      simp only [RSys.step, Res.ok.injEq] at e
      subst e
      exact ⟨⟨{ p with changes := [] }, ⟨hs.1, rfl, hs.2.2⟩, ok⟩, rfl⟩
  | tile pt' =>
    cases pending with
    | none => simp only [RSys.step, reduceCtorEq] at e
    | some ps =>
      simp only [RSys.step] at e
      obtain ⟨⟨st1, d1⟩, e1, e2⟩ := Res.bind_eq_ok.1 e
      injection e2 with e2
      subst e2
      obtain ⟨md, cs, e3⟩ := renderTile_update _ _ _ _ _ _ _ _ e1
      obtain ⟨p', f, hs'⟩ := updateTile_sim (tile_sim i) s fuel pt' hs e3
      exact ⟨⟨p', hs', ok.update sf.px (hm.px i) hf f⟩, rfl⟩
  | dirty r =>
    cases pending with
    | none =>
      simp only [RSys.step, Res.ok.injEq] at e
      subst e
      exact ⟨⟨_, setDirties_same s fuel [r] _ _ hs, ok.deletes (setDirties_deletes (s.px i) fuel [r])⟩, rfl⟩
    | some ps =>
      simp only [RSys.step, Res.ok.injEq] at e
      subst e
      exact ⟨⟨p, hs, ok⟩, rfl⟩
  | finish ab =>
    cases pending with
    | none => simp only [RSys.step, reduceCtorEq] at e
    | some ps =>
      simp only [RSys.step, Res.ok.injEq] at e
      subst e
      cases ab
      · exact ⟨⟨_, setDirties_same s fuel ps _ _ hs, ok.deletes (setDirties_deletes (s.px i) fuel ps)⟩, rfl⟩
      · exact ⟨⟨_, setDirties_same s fuel ps _ _ (revert_same hs), (ok.deletes (g := revert) revert_deletes).deletes (setDirties_deletes (s.px i) fuel ps)⟩, rfl⟩

theorem PixelOk.edited {depth fuel : Nat} {h' : CHeap} {ps : List Ptr} (hf : 2 * depth < fuel) (ed : EditOk z.h h' z.root ps) (lk : Linked z depth) {st : RState Tile} {i : Nat}
    (h : PixelOk z depth st pt i) : PixelOk { z with h := h' } depth (setDirties { z with h := h' } fuel ps st) pt i := by
  obtain ⟨p, hs, ok⟩ := h
  exact ⟨_, setDirties_same (g := fun m : Nat → UInt8 => m i) { z with h := h' } fuel ps _ _ hs, AtOk.edited (s := z.px i) hf ed (lk.px i) ok⟩

/-- Both renders succeed, and show the same at the pixels at which the entries of both are right. -/
theorem renderTiles_agree (hm : ModesKnown z) {depth fuel : Nat} (hf : 2 * depth ≤ fuel) (ok : TreeOk z depth) : ∀ (visited : List TPt) {p q : RState Tile}, ImagesOk p → ImagesOk q → ∀ d1 d2, ∃ p' q' d1' d2',
    renderTiles tileOps z fuel false visited p d1 = .ok (p', d1') ∧ renderTiles tileOps z fuel false visited q d2 = .ok (q', d2') ∧
      ∀ pt i, SolidAt z pt i → PixelOk z depth p pt i → PixelOk z depth q pt i → d1 pt i = d2 pt i → d1' pt i = d2' pt i := by
  intro visited
  induction visited with
  | nil => intro p q _ _ d1 d2; exact ⟨p, q, d1, d2, rfl, rfl, fun _ _ _ _ _ h => h⟩
  | cons pt' pts ih =>
    intro p q hp hq d1 d2
    obtain ⟨p1, d3, e1, hp1⟩ := renderTile_ok tile_draws hm hf ok false pt' p d1 hp
    obtain ⟨q1, d4, e2, hq1⟩ := renderTile_ok tile_draws hm hf ok false pt' q d2 hq
    obtain ⟨p2, q2, d5, d6, f1, f2, g⟩ := ih hp1 hq1 d3 d4
    refine ⟨p2, q2, d5, d6, ?_, ?_, fun pt i sf h1 h2 hd => ?_⟩
    · simp only [renderTiles, e1, Res.ok_bind]
      exact f1
    · simp only [renderTiles, e2, Res.ok_bind]
      exact f2
    · obtain ⟨x, hx, okx⟩ := h1
      obtain ⟨w, hw, okw⟩ := h2
      obtain ⟨x', ex, hx'⟩ := renderTile_px i hx e1
      obtain ⟨w', ew, hw'⟩ := renderTile_px i hw e2
      obtain ⟨_, _, ux⟩ := renderTile_update _ _ _ _ _ _ _ _ ex
      obtain ⟨_, _, uw⟩ := renderTile_update _ _ _ _ _ _ _ _ ew
      exact g pt i sf ⟨x', hx', okx.update sf.px (hm.px i) hf ux⟩ ⟨w', hw', okw.update sf.px (hm.px i) hf uw⟩ (renderTile_agree sf.px (hm.px i) hf okx okw ex ew hd)

theorem render_agree (hm : ModesKnown z) {depth fuel : Nat} (hf : 2 * depth ≤ fuel) (ok : TreeOk z depth) {st : RState Tile} (hi : ImagesOk st) (visited : List TPt) (dest : TPt → Tile) :
    ∃ st1 st2 d1 d2, render tileOps z fuel false false visited st dest = .ok (st1, d1) ∧ render tileOps z fuel false false visited .empty dest = .ok (st2, d2) ∧
      ∀ pt i, SolidAt z pt i → PixelOk z depth st pt i → d1 pt i = d2 pt i := by
  obtain ⟨p, q, d1, d2, e1, e2, g⟩ := renderTiles_agree hm hf ok visited (p := { st with changes := [] }) (q := .empty) hi (fun id pt e => by cases e) dest dest
  refine ⟨p, q, d1, d2, ?_, ?_, fun pt i sf h => g pt i sf ?_ (PixelOk.empty ok pt i) rfl⟩
  · unfold render
    rw [e1]
    rfl
  · unfold render
    simp only [RState.empty] at e2 ⊢
    rw [e2]
    rfl
  · obtain ⟨x, hx, okx⟩ := h
    exact ⟨{ x with changes := [] }, ⟨hx.1, rfl, hx.2.2⟩, okx⟩

end Psd
