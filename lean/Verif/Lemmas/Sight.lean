import Verif.Spec.Picture
import Verif.Lemmas.Crisp

/-!
# What is seen of a picture
-/

namespace Psd

namespace Px.Same

theorem refl (p : Px) : p.Same p := .inl rfl

theorem alpha {p q : Px} (h : p.Same q) : p.a = q.a := by
  rcases h with h | ⟨h, h'⟩
  · rw [h]
  · rw [h, h']

theorem symm {p q : Px} (h : p.Same q) : q.Same p := h.imp Eq.symm And.symm

theorem of_alpha {p q : Px} (hp : p.a = 0) (h : p.Same q) : q.a = 0 := h.alpha ▸ hp

theorem read {p q : Px} (h : p.Same q) : (PDSrc.px .nrgba p).read = (PDSrc.px .nrgba q).read := by
  rcases h with h | ⟨h, h'⟩
  · rw [h]
  · have z : ∀ p : Px, p.a = 0 → toPremul (widenSrc 0xffff p) = ⟨0, 0, 0, 0⟩ := by
      intro p h
      have : (widenSrc 0xffff p).a = 0 := by simp only [widenSrc, h]; decide
      unfold toPremul
      rw [if_pos this, this]
    simp only [PDSrc.read]
    rw [z p h, z q h']

theorem readPx {p q : Px} (h : p.Same q) : Psd.readPx .nrgba p = Psd.readPx .nrgba q := by
  rcases h with h | ⟨h, h'⟩
  · rw [h]
  · have z : ∀ p : Px, p.a = 0 → toPremul (widen p) = ⟨0, 0, 0, 0⟩ := by
      intro p h
      have : (widen p).a = 0 := by simp only [widen, h]; decide
      unfold toPremul
      rw [if_pos this, this]
    simp only [Psd.readPx]
    rw [z p h, z q h']

end Px.Same

theorem storePx_some (v : RGBA32) : ∃ p, storePx .nrgba v = .ok p := by
  unfold storePx
  simp only
  split
  · exact ⟨_, rfl⟩
  · split
    · exact ⟨_, rfl⟩
    · rename_i h
      have : 0 < v.a.toNat := Nat.pos_of_ne_zero fun e => h (UInt32.toNat_inj.1 e)
      rw [(divU32_ok _ _ this).1, (divU32_ok _ _ this).1, (divU32_ok _ _ this).1]
      exact ⟨_, rfl⟩

theorem pd_same (op : PD) {s s' : PDSrc} {d d' : Px} (hs : s.read = s'.read) (hd : d.Same d') (e e' : Px) :
    pxOr e (drawPD op .nrgba s d) = pxOr e' (drawPD op .nrgba s' d') := by
  unfold drawPD
  rw [hs, hd.readPx]
  obtain ⟨p, hp⟩ := storePx_some (pdOp op s'.read (readPx .nrgba d'))
  rw [hp]
  rfl

theorem copy_same {p q : Tile} {i : Nat} (h : (p i).Same (q i)) : tileOps.copy p i = tileOps.copy q i :=
  pd_same .copy h.read (.refl _) _ _

theorem copy_alpha (p : Tile) (i : Nat) : (tileOps.copy p i).a = (p i).a := by
  obtain ⟨q, eq, ha, -⟩ := (C46_copy_partial (p i) ⟨0, 0, 0, 0⟩).1
  show (pxOr _ _).a = _
  rw [eq]
  exact ha

theorem copy_zero {p : Tile} {i : Nat} (h : (p i).a = 0) : tileOps.copy p i = ⟨0, 0, 0, 0⟩ := by
  obtain ⟨q, eq, ha, h0, -⟩ := (C46_copy_partial (p i) ⟨0, 0, 0, 0⟩).1
  show pxOr _ _ = _
  rw [eq]
  exact h0 h

theorem blank_px (i : Nat) : tileOps.blank i = ⟨0, 0, 0, 0⟩ := rfl

theorem pd_zero {op : PD} {s : PDSrc} {d : Px} (h : pdAlpha op s.read.a (readPx .nrgba d).a = 0) (e : Px) : pxOr e (drawPD op .nrgba s d) = ⟨0, 0, 0, 0⟩ := by
  have : (pdOp op s.read (readPx .nrgba d)).a = 0 := h
  unfold drawPD storePx
  simp only [this]
  rfl

theorem clear_px (p : Tile) (i : Nat) : tileOps.clear p i = ⟨0, 0, 0, 0⟩ :=
  pd_zero (op := .clear) (s := .uniform ⟨0, 0, 0, 0⟩) (d := p i) rfl (p i)

theorem read_zero {p : Px} (h : p.a = 0) : (PDSrc.px .nrgba p).read.a = 0 := by
  simp only [PDSrc.read, toPremul_a, widenSrc, h]
  decide

theorem readPx_zero {p : Px} (h : p.a = 0) : (readPx .nrgba p).a = 0 := by
  simp only [readPx, toPremul_a, widen, h]
  decide

theorem destIn_same {p q p' q' : Tile} {i : Nat} (hp : (p i).Same (p' i)) (hq : (q i).Same (q' i)) : tileOps.destIn p q i = tileOps.destIn p' q' i :=
  pd_same .destIn hq.read hp _ _

theorem destIn_zero {p q : Tile} {i : Nat} (h : (q i).a = 0) : tileOps.destIn p q i = ⟨0, 0, 0, 0⟩ := by
  refine pd_zero ?_ _
  rw [read_zero h]
  simp [pdAlpha]

theorem destOver_same {p q p' q' : Tile} {i : Nat} (hp : (p i).Same (p' i)) (hq : (q i).Same (q' i)) : tileOps.destOver p q i = tileOps.destOver p' q' i :=
  pd_same .destOver hq.read hp _ _

theorem maskIn_same {p p' : Tile} {m m' : Nat → UInt8} {i : Nat} (hp : (p i).Same (p' i)) (hm : m i = m' i) : tileOps.maskIn p m i = tileOps.maskIn p' m' i :=
  pd_same .destIn (by rw [hm]) hp _ _

theorem maskOut_same {p p' : Tile} {m m' : Nat → UInt8} {i : Nat} (hp : (p i).Same (p' i)) (hm : m i = m' i) : tileOps.maskOut p m i = tileOps.maskOut p' m' i :=
  pd_same .destOut (by rw [hm]) hp _ _

theorem maskIn_zero {p : Tile} {m : Nat → UInt8} {i : Nat} (h : (p i).a = 0) : tileOps.maskIn p m i = ⟨0, 0, 0, 0⟩ := by
  refine pd_zero ?_ _
  rw [readPx_zero h]
  simp [pdAlpha]

theorem maskOut_zero {p : Tile} {m : Nat → UInt8} {i : Nat} (h : (p i).a = 0) : tileOps.maskOut p m i = ⟨0, 0, 0, 0⟩ := by
  refine pd_zero ?_ _
  rw [readPx_zero h]
  simp [pdAlpha]

/-! ### Drawing -/

theorem opacity_u8 (o : Nat) : UInt32.ofNat (o % 256) = (UInt8.ofNat o).toUInt32 := by
  apply UInt32.toNat_inj.1
  rw [UInt8.toNat_toUInt32, UInt8.toNat_ofNat', UInt32.toNat_ofNat']
  have : o % 256 < 256 := Nat.mod_lt _ (by decide)
  exact Nat.mod_eq_of_lt (by omega)

theorem draw_px {o : Nat} {m : List UInt8} {b x y : Tile} (h : tileOps.draw o m b x = .ok y) (i : Nat) :
    ∃ md, blendMode m = some md ∧ drawNN md (UInt8.ofNat o).toUInt32 (x i) (b i) = .ok (y i) := by
  simp only [tileOps] at h
  cases hm : blendMode m with
  | none => rw [hm] at h; cases h
  | some md =>
    rw [hm] at h
    simp only [Res.ok.injEq] at h
    refine ⟨md, rfl, ?_⟩
    obtain ⟨p, hp, -⟩ := C38_no_wrap md (UInt8.ofNat o) (x i) (b i)
    rw [hp, ← h, opacity_u8]
    simp only [hp, pxOr]

theorem draw_zero {o : Nat} {m : List UInt8} {b x y : Tile} (h : tileOps.draw o m b x = .ok y) {i : Nat} (hx : (x i).a = 0) : y i = b i := by
  obtain ⟨md, -, e⟩ := draw_px h i
  rw [C41_transparent_nrgba md _ _ _ (.inl hx)] at e
  injection e with e
  exact e.symm

theorem draw_same {o : Nat} {m : List UInt8} {b x y b' x' y' : Tile} {i : Nat} (h : tileOps.draw o m b x = .ok y) (h' : tileOps.draw o m b' x' = .ok y')
    (hb : (b i).Same (b' i)) (hx : (x i).Same (x' i)) : (y i).Same (y' i) := by
  rcases hx with hx | ⟨hx, hx'⟩
  · obtain ⟨md, e1, e⟩ := draw_px h i
    obtain ⟨md', e1', e'⟩ := draw_px h' i
    rw [e1] at e1'
    injection e1' with e1'
    subst e1'
    rw [hx] at e
    rcases hb with hb | ⟨hb, hb'⟩
    · rw [hb, e'] at e
      injection e with e
      exact .inl e.symm
    · rcases C43_onto_transparent md (UInt8.ofNat o) (x' i) (b i) hb with ⟨z, e2⟩ | e2 <;>
        rcases C43_onto_transparent md (UInt8.ofNat o) (x' i) (b' i) hb' with ⟨z', e2'⟩ | e2' <;> rw [e2] at e <;> rw [e2'] at e' <;> injection e with e <;> injection e' with e'
      · exact .inr ⟨by rw [← e, hb], by rw [← e', hb']⟩
      · refine .inr ⟨by rw [← e, hb], ?_⟩
        rw [← e', z]
        rfl
      · refine .inr ⟨?_, by rw [← e', hb']⟩
        rw [← e, z']
        rfl
      · exact .inl (e.symm.trans e')
  · rw [draw_zero h hx, draw_zero h' hx']
    exact hb

/-! ### Stacks -/

/-- The same layers, looking the same at pixel `i`. -/
def StkSame (strict : Bool) (i : Nat) : Stk Tile (Nat → UInt8) → Stk Tile (Nat → UInt8) → Prop
  | .nil, .nil => True
  | .layer a p m k c r, .layer a' p' m' k' c' r' =>
    a = a' ∧ SeenSame strict i p p' ∧ MaskSame i m m' ∧ StkSame strict i k k' ∧ StkSame strict i c c' ∧ StkSame strict i r r'
  | _, _ => False

def Stk.noPass {P M : Type} : Stk P M → Prop
  | .nil => True
  | .layer a _ _ k c r => a.blendMode ≠ passThrough ∧ k.noPass ∧ c.noPass ∧ r.noPass

theorem StkSame.refl (strict : Bool) (i : Nat) : ∀ t, StkSame strict i t t
  | .nil => trivial
  | .layer _ p _ k c r => ⟨rfl, by cases p with | none => trivial | some p => exact .refl _, rfl, StkSame.refl strict i k, StkSame.refl strict i c, StkSame.refl strict i r⟩

theorem StkSame.isNil {strict : Bool} {i : Nat} {t t' : Stk Tile (Nat → UInt8)} (h : StkSame strict i t t') : t.isNil = t'.isNil := by
  cases t <;> cases t' <;> first | rfl | exact absurd h id

theorem applyMask_same {a : CAttr} {m m' : Option (Nat → UInt8)} {mode : List UInt8} {b b' buf buf' : Tile} {i : Nat} (hm : MaskSame i m m') (hb : (b i).Same (b' i))
    (hbuf : (buf i).Same (buf' i)) : (applyMask tileOps a m mode b buf i).Same (applyMask tileOps a m' mode b' buf' i) := by
  have over : ∀ {x x' : Tile}, (x i).Same (x' i) → ((if mode = passThrough then tileOps.destOver x b else x) i).Same ((if mode = passThrough then tileOps.destOver x' b' else x') i) := by
    intro x x' h
    split
    · exact .inl (destOver_same h hb)
    · exact h
  unfold applyMask
  split
  · cases m with
    | none =>
      cases m' with
      | none =>
        refine over ?_
        simp only
        split
        · exact .inl ((clear_px _ _).trans (clear_px _ _).symm)
        · exact hbuf
      | some m' => cases hm
    | some m =>
      cases m' with
      | none => cases hm
      | some m' =>
        have hm : m i = m' i := Option.some.inj hm
        refine over ?_
        simp only
        split
        · exact .inl (maskIn_same hbuf hm)
        · exact .inl (maskOut_same hbuf hm)
  · exact hbuf

theorem applyMask_zero {a : CAttr} {m : Option (Nat → UInt8)} {mode : List UInt8} (hp : mode ≠ passThrough) {b buf : Tile} {i : Nat}
    (hbuf : (buf i).a = 0) : (applyMask tileOps a m mode b buf i).a = 0 := by
  unfold applyMask
  split
  · simp only [if_neg hp]
    cases m with
    | none =>
      simp only
      split
      · rw [clear_px]
      · exact hbuf
    | some m =>
      simp only
      split
      · rw [maskIn_zero hbuf]
      · rw [maskOut_zero hbuf]
  · exact hbuf

theorem paint_idle {P M : Type} {ops : PicOps P M} : ∀ (t : Stk P M) (forced : Bool) (scale : Nat → Nat) (b x : P), paint ops t forced scale b = .ok (false, x) → x = b := by
  intro t
  induction t with
  | nil =>
    intro forced scale b x h
    injection h with h
    injection h with _ h
    exact h.symm
  | layer a p m kids clips rest ihk ihc ihr =>
    intro forced scale b x h
    rw [paint_layer] at h
    obtain ⟨⟨d1, b1⟩, e1, e2⟩ := Res.bind_eq_ok.1 h
    obtain ⟨⟨d2, b2⟩, e3, e4⟩ := Res.bind_eq_ok.1 e2
    simp only [Res.ok.injEq, Prod.mk.injEq, Bool.or_eq_false_iff] at e4
    obtain ⟨⟨rfl, rfl⟩, rfl⟩ := e4
    rw [ihr _ _ _ _ e3]
    unfold paintLayer at e1
    split at e1
    · obtain ⟨o, e5, e6⟩ := Res.bind_eq_ok.1 e1
      cases o with
      | none =>
        injection e6 with e6
        injection e6 with _ e6
        exact e6.symm
      | some img =>
        obtain ⟨y, _, e7⟩ := Res.bind_eq_ok.1 e6
        injection e7 with e7
        injection e7 with e7 _
        cases e7
    · injection e1 with e1
      injection e1 with _ e1
      exact e1.symm

theorem SeenSame.symm {strict : Bool} {i : Nat} {p q : Option Tile} (h : SeenSame strict i p q) : SeenSame strict i q p := by
  cases p <;> cases q
  · trivial
  · exact h
  · exact h
  · exact Px.Same.symm h

theorem clipPic_zero {a : CAttr} {nc : Bool} {C : Tile → Res (Bool × Tile)} {buf : Tile} {i : Nat} (h : (buf i).a = 0) {y : Option Tile}
    (e : clipPic tileOps a nc C (some buf) = .ok y) : ∃ z, y = some z ∧ (z i).a = 0 := by
  simp only [clipPic] at e
  split at e
  · injection e with e
    exact ⟨buf, e.symm, h⟩
  · obtain ⟨r, _, e⟩ := Res.bind_eq_ok.1 e
    injection e with e
    refine ⟨_, e.symm, ?_⟩
    rw [destIn_zero h]

theorem placeOpt_zero {a : CAttr} {nc : Bool} {o : Nat} {b img : Tile} {i : Nat} (hp : a.blendMode ≠ passThrough) (h : (img i).a = 0) {r : Bool × Tile}
    (e : placeOpt tileOps a nc o b (some img) = .ok r) : r.2 i = b i := by
  obtain ⟨y, e1, e2⟩ := Res.bind_eq_ok.1 e
  injection e2 with e2
  rw [← e2]
  unfold place at e1
  rw [if_neg (fun h => hp h.1)] at e1
  exact draw_zero e1 h

theorem paint_same {strict : Bool} {i : Nat} : ∀ (t t' : Stk Tile (Nat → UInt8)), StkSame strict i t t' → (strict = true ∨ t.noPass) →
    ∀ (forced : Bool) (scale : Nat → Nat) (b b' : Tile) (r r' : Bool × Tile), (b i).Same (b' i) → paint tileOps t forced scale b = .ok r →
    paint tileOps t' forced scale b' = .ok r' → (r.2 i).Same (r'.2 i) ∧ (strict = true → r.1 = r'.1) := by
  intro t
  induction t with
  | nil =>
    intro t' ht _ forced scale b b' r r' hb e e'
    cases t' with
    | nil =>
      injection e with e
      injection e' with e'
      rw [← e, ← e']
      exact ⟨hb, fun _ => rfl⟩
    | layer => exact absurd ht id
  | layer a p m kids clips rest ihk ihc ihr =>
    intro t' ht hs forced scale b b' r r' hb e e'
    cases t' with
    | nil => exact absurd ht id
    | layer a' p' m' kids' clips' rest' =>
      obtain ⟨rfl, hp, hm, hk, hc, hr⟩ := ht
      rw [paint_layer] at e e'
      obtain ⟨r1, e1, e2⟩ := Res.bind_eq_ok.1 e
      obtain ⟨r2, e3, e4⟩ := Res.bind_eq_ok.1 e2
      obtain ⟨r1', e1', e2'⟩ := Res.bind_eq_ok.1 e'
      obtain ⟨r2', e3', e4'⟩ := Res.bind_eq_ok.1 e2'
      injection e4 with e4
      injection e4' with e4'
      subst e4 e4'
      have first : (r1.2 i).Same (r1'.2 i) ∧ (strict = true → r1.1 = r1'.1) := by
        unfold paintLayer at e1 e1'
        by_cases hd : drawn a forced (scale a.opacity) = true
        · rw [if_pos hd] at e1 e1'
          obtain ⟨o, e5, e6⟩ := Res.bind_eq_ok.1 e1
          obtain ⟨o', e5', e6'⟩ := Res.bind_eq_ok.1 e1'
          obtain ⟨w, e7, e8⟩ := Res.bind_eq_ok.1 e5
          obtain ⟨w', e7', e8'⟩ := Res.bind_eq_ok.1 e5'
          have np : strict = false → a.blendMode ≠ passThrough := by
            intro h
            rcases hs with hs | hs
            · rw [h] at hs; cases hs
            · exact hs.1
          have hw : SeenSame strict i w w' := by
            unfold ownPic at e7 e7'
            rw [← hk.isNil] at e7'
            by_cases hl : kids.isNil = true
            · rw [if_pos hl] at e7 e7'
              injection e7 with e7
              injection e7' with e7'
              subst e7 e7'
              cases p with
              | none =>
                cases p' with
                | none => trivial
                | some p' => exact ⟨hp.1, applyMask_zero (np hp.1) (by rw [copy_alpha]; exact hp.2)⟩
              | some p =>
                cases p' with
                | none => exact ⟨hp.1, applyMask_zero (np hp.1) (by rw [copy_alpha]; exact hp.2)⟩
                | some p' => exact applyMask_same hm hb (.inl (copy_same hp))
            · rw [if_neg hl] at e7 e7'
              obtain ⟨k, ek, e7⟩ := Res.bind_eq_ok.1 e7
              obtain ⟨k', ek', e7'⟩ := Res.bind_eq_ok.1 e7'
              injection e7 with e7
              injection e7' with e7'
              subst e7 e7'
              have hst : (kidStart tileOps a b i).Same (kidStart tileOps a b' i) := by
                unfold kidStart
                split
                · exact .inl (copy_same hb)
                · exact .refl _
              obtain ⟨g1, g2⟩ := ihk kids' hk (hs.imp id (fun h => h.2.1)) _ _ _ _ k k' hst ek ek'
              have blank : ∀ {b : Tile} {k : Bool × Tile} {kids : Stk Tile (Nat → UInt8)}, strict = false → k.1 = false →
                  paint tileOps kids false (kidScale a (scale a.opacity)) (kidStart tileOps a b) = .ok k → (k.2 i).a = 0 := by
                intro b k kids hst hk e
                obtain ⟨d, x⟩ := k
                subst hk
                rw [paint_idle _ _ _ _ _ e, kidStart, if_neg (np hst)]
                rfl
              unfold folderPic
              cases k1 : k.1 with
              | true =>
                cases k1' : k'.1 with
                | true => exact applyMask_same hm hb g1
                | false =>
                  have hst : strict = false := by
                    cases hh : strict with
                    | false => rfl
                    | true => have := g2 hh; rw [k1, k1'] at this; cases this
                  exact ⟨hst, applyMask_zero (np hst) (g1.symm.of_alpha (blank hst k1' ek'))⟩
              | false =>
                cases k1' : k'.1 with
                | false => trivial
                | true =>
                  have hst : strict = false := by
                    cases hh : strict with
                    | false => rfl
                    | true => have := g2 hh; rw [k1, k1'] at this; cases this
                  exact ⟨hst, applyMask_zero (np hst) (g1.of_alpha (blank hst k1 ek))⟩
          have ho : SeenSame strict i o o' := by
            cases w with
            | none =>
              injection e8 with e8
              subst e8
              cases w' with
              | none =>
                injection e8' with e8'
                subst e8'
                trivial
              | some w' =>
                obtain ⟨z, rfl, hz⟩ := clipPic_zero hw.2 e8'
                exact ⟨hw.1, hz⟩
            | some w =>
              cases w' with
              | none =>
                injection e8' with e8'
                subst e8'
                obtain ⟨z, rfl, hz⟩ := clipPic_zero hw.2 e8
                exact ⟨hw.1, hz⟩
              | some w' =>
                have hw : (w i).Same (w' i) := hw
                unfold clipPic at e8 e8'
                rw [← hc.isNil] at e8'
                by_cases hn : (clips.isNil || !a.blendClippedElements) = true
                · simp only [if_pos hn] at e8 e8'
                  injection e8 with e8
                  injection e8' with e8'
                  subst e8 e8'
                  exact hw
                · simp only [if_neg hn] at e8 e8'
                  obtain ⟨c, ec, e8⟩ := Res.bind_eq_ok.1 e8
                  obtain ⟨c', ec', e8'⟩ := Res.bind_eq_ok.1 e8'
                  injection e8 with e8
                  injection e8' with e8'
                  subst e8 e8'
                  have hw0 := hw
                  rcases hw with hw | ⟨hw, hw'⟩
                  · refine .inl (destIn_same ?_ hw0)
                    refine (ihc clips' hc (hs.imp id (fun h => h.2.2.1)) _ _ _ _ c c' ?_ ec ec').1
                    left
                    simp only [tileOps]
                    exact congrArg (fun x : Px => { x with a := 255 }) (copy_same (.inl hw))
                  · exact .inl ((destIn_zero hw).trans (destIn_zero hw').symm)
          cases o with
          | none =>
            cases o' with
            | none =>
              injection e6 with e6
              injection e6' with e6'
              subst e6 e6'
              exact ⟨hb, fun _ => rfl⟩
            | some o' =>
              injection e6 with e6
              subst e6
              refine ⟨?_, fun h => by rw [ho.1] at h; cases h⟩
              rw [placeOpt_zero (np ho.1) ho.2 e6']
              exact hb
          | some o =>
            cases o' with
            | none =>
              injection e6' with e6'
              subst e6'
              refine ⟨?_, fun h => by rw [ho.1] at h; cases h⟩
              rw [placeOpt_zero (np ho.1) ho.2 e6]
              exact hb
            | some o' =>
              have ho : (o i).Same (o' i) := ho
              obtain ⟨y, e9, e10⟩ := Res.bind_eq_ok.1 e6
              obtain ⟨y', e9', e10'⟩ := Res.bind_eq_ok.1 e6'
              injection e10 with e10
              injection e10' with e10'
              subst e10 e10'
              refine ⟨?_, fun _ => rfl⟩
              unfold place at e9 e9'
              rw [← hc.isNil] at e9'
              split at e9
              · rename_i hpl
                rw [if_pos hpl] at e9'
                injection e9 with e9
                injection e9' with e9'
                subst e9 e9'
                exact .inl (copy_same ho)
              · rename_i hpl
                rw [if_neg hpl] at e9'
                exact draw_same e9 e9' hb ho
        · rw [if_neg hd] at e1 e1'
          injection e1 with e1
          injection e1' with e1'
          subst e1 e1'
          exact ⟨hb, fun _ => rfl⟩
      obtain ⟨g1, g2⟩ := ihr rest' hr (hs.imp id (fun h => h.2.2.2)) _ _ _ _ r2 r2' first.1 e3 e3'
      exact ⟨g1, fun h => by rw [first.2 h, g2 h]⟩

end Psd
