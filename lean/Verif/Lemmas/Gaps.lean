import Verif.Lemmas.Relation
import Verif.Lemmas.Sight

/-!
# Painting layers of which invisible parts may be missing
-/

namespace Psd

/-- What is needed of operations to be able to leave out what is invisible: `R` is between pictures that look the same, `Z` says that nothing is to be seen, `Mz` that a mask, whose default colour is the number, has it. `P1` and `P2`: pass-through
folders, and pass-through folders with masks, may be left out. -/
structure GapOps {P M : Type} (o : PicOps P M) (R : P → P → Prop) (Op : Nat → Prop) (Mk : M → Prop) (Md : List UInt8 → List UInt8 → Prop) (Z : P → Prop) (Mz : Nat → M → Prop) (P1 P2 : Prop) : Prop extends RelOps o R Op Mk Md where
  symm : ∀ {p q}, R p q → R q p
  trans : ∀ {p q r}, R p q → R q r → R p r
  zof : ∀ {p q}, R p q → Z q → Z p
  zblank : Z o.blank
  zdraw : ∀ {k m b b' x y}, Op k → R b b' → Z x → o.draw k m b x = .ok y → R y b'
  zdestIn : ∀ {b x}, Z x → Z (o.destIn b x)
  zmaskIn : ∀ {b m}, Mk m → Z b → Z (o.maskIn b m)
  zmaskOut : ∀ {b m}, Mk m → Z b → Z (o.maskOut b m)
  zclear : ∀ {b}, Z b → Z (o.clear b)
  gapIn : ∀ {c b b' m}, c ≠ 255 → Mz c m → R b b' → R (o.maskIn b m) (o.clear b')
  gapOut : ∀ {b b' m}, Mz 255 m → R b b' → R (o.maskOut b m) b'
  pass : P1 → ∀ {b b'}, R b b' → R (o.copy b) b'
  passMask : P2 → ∀ {k b b'}, R k b → R b b' → R (o.destOver k b) b' ∧ R (o.destOver (o.clear k) b) b' ∧ ∀ m, Mk m → R (o.destOver (o.maskIn k m) b) b' ∧ R (o.destOver (o.maskOut k m) b) b'

/-- Both are there and related, or one of them is missing and the other as in `Z`. -/
def GapRel {P : Type} (R : P → P → Prop) (Z Z' : P → Prop) : Option P → Option P → Prop
  | none, none => True
  | some p, some q => R p q
  | some p, none => Z p
  | none, some q => Z' q

def StkGap {P M : Type} (o : PicOps P M) (R : P → P → Prop) (Op : Nat → Prop) (Mk : M → Prop) (Md : List UInt8 → List UInt8 → Prop) (Z : P → Prop) (Mz : Nat → M → Prop) (P1 P2 : Prop) : Stk P M → Stk P M → Prop
  | .nil, .nil => True
  | .layer a p m k c r, .layer a' p' m' k' c' r' =>
    a.Rel Op Md a' ∧ GapRel (fun x y => R (o.copy x) (o.copy y)) (fun x => Z (o.copy x)) (fun x => Z (o.copy x)) p p' ∧
    (a.maskEnabled = true → GapRel (· = ·) (Mz a.maskDefaultColor) (Mz a.maskDefaultColor) m m' ∧ (∀ x, m = some x → Mk x) ∧ ∀ x, m' = some x → Mk x) ∧
    (a.blendMode = passThrough → P1 ∧ (a.maskEnabled = true → P2) ∧ c.isNil = true ∧ p = none ∧ p' = none) ∧
    StkGap o R Op Mk Md Z Mz P1 P2 k k' ∧ StkGap o R Op Mk Md Z Mz P1 P2 c c' ∧ StkGap o R Op Mk Md Z Mz P1 P2 r r'
  | _, _ => False

section
variable {P M : Type} {o : PicOps P M} {R : P → P → Prop} {Op : Nat → Prop} {Mk : M → Prop} {Md : List UInt8 → List UInt8 → Prop} {Z : P → Prop} {Mz : Nat → M → Prop} {P1 P2 : Prop}

theorem StkGap.isNil {t t' : Stk P M} (h : StkGap o R Op Mk Md Z Mz P1 P2 t t') : t.isNil = t'.isNil := by
  cases t <;> cases t' <;> first | rfl | exact absurd h id

variable (ho : GapOps o R Op Mk Md Z Mz P1 P2)
include ho

theorem applyMask_gap {a a' : CAttr} (ha : a.Re a') {m m' : Option M} (hm : a.maskEnabled = true → GapRel (· = ·) (Mz a.maskDefaultColor) (Mz a.maskDefaultColor) m m' ∧ (∀ x, m = some x → Mk x) ∧ ∀ x, m' = some x → Mk x)
    {b b' buf buf' : P} (hb : R b b') (h : R buf buf') : R (applyMask o a m a.blendMode b buf) (applyMask o a' m' a'.blendMode b' buf') := by
  rw [← applyMask_re ha]
  unfold applyMask
  split
  · rename_i he
    obtain ⟨hg, hk, hk'⟩ := hm he
    have fin : ∀ {x x' : P}, R x x' → R (if a.blendMode = passThrough then o.destOver x b else x) (if a.blendMode = passThrough then o.destOver x' b' else x') := by
      intro x x' hx
      split
      · exact ho.destOver hx hb
      · exact hx
    refine fin ?_
    cases m with
    | none => cases m' with
      | none =>
        dsimp only
        split
        · exact ho.clear h
        · exact h
      | some m' =>
        have hz : Mz a.maskDefaultColor m' := hg
        dsimp only
        split
        · rename_i hd
          exact ho.symm (ho.gapIn hd hz (ho.symm h))
        · rename_i hd
          rw [not_not.1 hd] at hz
          exact ho.symm (ho.gapOut hz (ho.symm h))
    | some m => cases m' with
      | none =>
        have hz : Mz a.maskDefaultColor m := hg
        dsimp only
        split
        · rename_i hd
          exact ho.gapIn hd hz h
        · rename_i hd
          rw [not_not.1 hd] at hz
          exact ho.gapOut hz h
      | some m' =>
        obtain rfl : m = m' := hg
        dsimp only
        split
        · exact ho.maskIn (hk m rfl) h
        · exact ho.maskOut (hk m rfl) h
  · exact h

theorem applyMask_none {a : CAttr} (ha : a.blendMode ≠ passThrough) {m : Option M} (hm : a.maskEnabled = true → ∀ x, m = some x → Mk x) {b buf : P} (h : Z buf) : Z (applyMask o a m a.blendMode b buf) := by
  unfold applyMask
  split
  · rename_i he
    simp only [if_neg ha]
    cases m with
    | none =>
      dsimp only
      split
      · exact ho.zclear h
      · exact h
    | some m =>
      dsimp only
      split
      · exact ho.zmaskIn (hm he m rfl) h
      · exact ho.zmaskOut (hm he m rfl) h
  · exact h

theorem applyMask_pass {a : CAttr} (ha : a.blendMode = passThrough) (hp : a.maskEnabled = true → P2) {m : Option M} (hm : a.maskEnabled = true → ∀ x, m = some x → Mk x) {b b' buf : P} (hb : R b b') (h : R buf b) :
    R (applyMask o a m a.blendMode b buf) b' := by
  unfold applyMask
  split
  · rename_i he
    obtain ⟨k1, k2, k3⟩ := ho.passMask (hp he) h hb
    simp only [if_pos ha]
    cases m with
    | none =>
      dsimp only
      split
      · exact k2
      · exact k1
    | some m =>
      dsimp only
      split
      · exact (k3 m (hm he m rfl)).1
      · exact (k3 m (hm he m rfl)).2
  · exact ho.trans h hb

theorem paint_gap : ∀ (t t' : Stk P M), StkGap o R Op Mk Md Z Mz P1 P2 t t' → ∀ (forced : Bool) (scale : Nat → Nat) (_ : ∀ x, Op x → Op (scale x)) (b b' : P) (_ : R b b') (r r' : Bool × P),
    paint o t forced scale b = .ok r → paint o t' forced scale b' = .ok r' → R r.2 r'.2 := by
  intro t
  induction t with
  | nil =>
    intro t' h forced scale _ b b' hb r r' e e'
    cases t' with
    | layer => exact absurd h id
    | nil =>
      injection e with e
      injection e' with e'
      subst e e'
      exact hb
  | layer a p m kids clips rest ihk ihc ihr =>
    intro t' h forced scale hs b b' hb r r' e e'
    cases t' with
    | nil => exact absurd h id
    | layer a' p' m' kids' clips' rest' =>
      obtain ⟨⟨ha, hop, hmd⟩, hp, hm, hpass, hk, hc, hr⟩ := h
      have h1 : a'.visible = a.visible := by rw [ha.1]
      have h2 : a'.clipping = a.clipping := by rw [ha.1]
      have h3 : a'.opacity = a.opacity := by rw [ha.1]
      have h4 : a'.blendClippedElements = a.blendClippedElements := by rw [ha.1]
      have h5 : a'.maskEnabled = a.maskEnabled := by rw [ha.1]
      have hk0 : ∀ x, kidScale a' x = kidScale a x := by intro x; funext y; simp only [kidScale, ha.pass]
      rw [paint_layer] at e e'
      obtain ⟨r1, e1, e2⟩ := Res.bind_eq_ok.1 e
      obtain ⟨r2, e3, e4⟩ := Res.bind_eq_ok.1 e2
      obtain ⟨r1', e1', e2'⟩ := Res.bind_eq_ok.1 e'
      obtain ⟨r2', e3', e4'⟩ := Res.bind_eq_ok.1 e2'
      injection e4 with e4
      injection e4' with e4'
      subst e4 e4'
      -- what a picture may look like of which the other is missing
      let Y (b : P) : P → Prop := fun x => if a.blendMode = passThrough then R x b else Z x
      have first : R r1.2 r1'.2 := by
        unfold paintLayer at e1 e1'
        rw [show drawn a' forced (scale a'.opacity) = drawn a forced (scale a.opacity) by simp only [drawn, h1, h2, h3], h3, ← hc.isNil] at e1'
        split at e1
        · rename_i hd
          rw [if_pos hd] at e1'
          obtain ⟨v, e5, e6⟩ := Res.bind_eq_ok.1 e1
          obtain ⟨v', e5', e6'⟩ := Res.bind_eq_ok.1 e1'
          unfold layerPic at e5 e5'
          obtain ⟨w, e7, e8⟩ := Res.bind_eq_ok.1 e5
          obtain ⟨w', e7', e8'⟩ := Res.bind_eq_ok.1 e5'
          have hw : GapRel R (Y b') (Y b) w w' := by
            unfold ownPic at e7 e7'
            rw [← hk.isNil] at e7'
            split at e7
            · rename_i hl
              rw [if_pos hl] at e7'
              injection e7 with e7
              injection e7' with e7'
              subst e7 e7'
              cases p with
              | none => cases p' with
                | none => trivial
                | some p' =>
                  have hn : a.blendMode ≠ passThrough := fun hc => by cases (hpass hc).2.2.2.2
                  show Y b _
                  simp only [Y, if_neg hn]
                  exact applyMask_none ho (fun hc => hn (ha.2.2 hc)) (fun he => (hm (h5 ▸ he)).2.2) hp
              | some p => cases p' with
                | none =>
                  have hn : a.blendMode ≠ passThrough := fun hc => by cases (hpass hc).2.2.2.1
                  show Y b' _
                  simp only [Y, if_neg hn]
                  exact applyMask_none ho hn (fun he => (hm he).2.1) hp
                | some p' => exact applyMask_gap ho ha hm hb hp
            · rename_i hl
              rw [if_neg hl] at e7'
              obtain ⟨k, ek, e7⟩ := Res.bind_eq_ok.1 e7
              obtain ⟨k', ek', e7'⟩ := Res.bind_eq_ok.1 e7'
              injection e7 with e7
              injection e7' with e7'
              subst e7 e7'
              rw [hk0] at ek'
              have hstart : R (kidStart o a b) (kidStart o a' b') := by
                unfold kidStart
                simp only [← ha.pass]
                split
                · exact ho.copy hb
                · exact ho.blank
              have g := ihk kids' hk false (kidScale a (scale a.opacity)) (fun x hx => by
                unfold kidScale
                split
                · exact ho.scale (hs _ hop) hx
                · exact ho.scale ho.full hx) _ _ hstart k k' ek ek'
              obtain ⟨kd, kp⟩ := k
              obtain ⟨kd', kp'⟩ := k'
              unfold folderPic
              cases kd with
              | true => cases kd' with
                | true => exact applyMask_gap ho ha hm hb g
                | false =>
                  have := paint_idle _ _ _ _ _ ek'
                  subst this
                  show Y b' _
                  by_cases hc : a.blendMode = passThrough
                  · simp only [Y, if_pos hc]
                    obtain ⟨g1, g2, -⟩ := hpass hc
                    have : R kp b := by
                      unfold kidStart at g
                      rw [if_pos (ha.2.1 hc)] at g
                      exact ho.trans g (ho.pass g1 (ho.symm hb))
                    exact applyMask_pass ho hc g2 (fun he => (hm he).2.1) hb this
                  · simp only [Y, if_neg hc]
                    unfold kidStart at g
                    rw [if_neg (fun h => hc (ha.2.2 h))] at g
                    exact applyMask_none ho hc (fun he => (hm he).2.1) (ho.zof g ho.zblank)
              | false =>
                have := paint_idle _ _ _ _ _ ek
                subst this
                cases kd' with
                | false => trivial
                | true =>
                  show Y b _
                  by_cases hc : a.blendMode = passThrough
                  · simp only [Y, if_pos hc]
                    obtain ⟨g1, g2, -⟩ := hpass hc
                    have : R kp' b' := by
                      unfold kidStart at g
                      rw [if_pos hc] at g
                      exact ho.trans (ho.symm g) (ho.pass g1 hb)
                    exact applyMask_pass ho (ha.2.1 hc) (fun he => g2 (h5 ▸ he)) (fun he => (hm (h5 ▸ he)).2.2) (ho.symm hb) this
                  · simp only [Y, if_neg hc]
                    unfold kidStart at g
                    rw [if_neg hc] at g
                    exact applyMask_none ho (fun h => hc (ha.2.2 h)) (fun he => (hm (h5 ▸ he)).2.2) (ho.zof (ho.symm g) ho.zblank)
          have clipZ : ∀ {a : CAttr} {x : P} {y : Option P} {C : P → Res (Bool × P)} {c : P}, (∀ h : a.blendMode = passThrough, clips.isNil = true) →
              (if a.blendMode = passThrough then R x c else Z x) → clipPic o a clips.isNil C (some x) = .ok y → ∃ z, y = some z ∧ if a.blendMode = passThrough then R z c else Z z := by
            intro a x y C c hcl hx e
            simp only [clipPic] at e
            split at e
            · injection e with e
              exact ⟨x, e.symm, hx⟩
            · rename_i hn
              have hnp : a.blendMode ≠ passThrough := fun h => hn (by rw [hcl h]; rfl)
              obtain ⟨k, ek, e⟩ := Res.bind_eq_ok.1 e
              injection e with e
              refine ⟨_, e.symm, ?_⟩
              rw [if_neg hnp] at hx ⊢
              exact ho.zdestIn hx
          have hv : GapRel R (Y b') (Y b) v v' := by
            cases w with
            | none => cases w' with
              | none =>
                injection e8 with e8
                injection e8' with e8'
                subst e8 e8'
                trivial
              | some w' =>
                injection e8 with e8
                subst e8
                rw [← hc.isNil] at e8'
                have hw' : if a'.blendMode = passThrough then R w' b else Z w' := by
                  simp only [← ha.pass]
                  exact hw
                obtain ⟨z, rfl, hz⟩ := clipZ (fun h => (hpass (ha.2.2 h)).2.2.1) hw' e8'
                simp only [← ha.pass] at hz
                exact hz
            | some w => cases w' with
              | none =>
                injection e8' with e8'
                subst e8'
                obtain ⟨z, rfl, hz⟩ := clipZ (fun h => (hpass h).2.2.1) (show if a.blendMode = passThrough then R w b' else Z w from hw) e8
                exact hz
              | some w' =>
                simp only [clipPic, h4, ← hc.isNil] at e8 e8'
                split at e8
                · rename_i hn
                  rw [if_pos hn] at e8'
                  injection e8 with e8
                  injection e8' with e8'
                  subst e8 e8'
                  exact hw
                · rename_i hn
                  rw [if_neg hn] at e8'
                  obtain ⟨k, ek, e8⟩ := Res.bind_eq_ok.1 e8
                  obtain ⟨k', ek', e8'⟩ := Res.bind_eq_ok.1 e8'
                  injection e8 with e8
                  injection e8' with e8'
                  subst e8 e8'
                  rcases ho.clip hw with hcl | hcl
                  · exact ho.destIn (ihc clips' hc true id (fun _ hx => hx) _ _ hcl k k' ek ek') hw
                  · exact hcl _ _
          have placeZ : ∀ {a : CAttr} {x b c : P} {y : Bool × P}, (∀ h : a.blendMode = passThrough, clips.isNil = true ∧ P1) → R b c →
              (if a.blendMode = passThrough then R x c else Z x) → placeOpt o a clips.isNil (scale a.opacity) b (some x) = .ok y → Op (scale a.opacity) → R y.2 c := by
            intro a x b c y hcl hbc hx e hop
            simp only [placeOpt] at e
            obtain ⟨z, f1, f2⟩ := Res.bind_eq_ok.1 e
            injection f2 with f2
            subst f2
            unfold place at f1
            split at f1
            · rename_i hn
              injection f1 with f1
              subst f1
              rw [if_pos hn.1] at hx
              exact ho.pass (hcl hn.1).2 hx
            · rename_i hn
              have hnp : a.blendMode ≠ passThrough := fun h => hn ⟨h, by rw [(hcl h).1]; rfl⟩
              rw [if_neg hnp] at hx
              exact ho.zdraw hop hbc hx f1
          cases v with
          | none => cases v' with
            | none =>
              injection e6 with e6
              injection e6' with e6'
              subst e6 e6'
              exact hb
            | some v' =>
              injection e6 with e6
              subst e6
              rw [← h3] at e6'
              have hv' : if a'.blendMode = passThrough then R v' b else Z v' := by
                simp only [← ha.pass]
                exact hv
              exact ho.symm (placeZ (fun h => ⟨(hpass (ha.2.2 h)).2.2.1, (hpass (ha.2.2 h)).1⟩) (ho.symm hb) hv' e6' (by rw [h3]; exact hs _ hop))
          | some v => cases v' with
            | none =>
              injection e6' with e6'
              subst e6'
              exact placeZ (fun h => ⟨(hpass h).2.2.1, (hpass h).1⟩) hb (show if a.blendMode = passThrough then R v b' else Z v from hv) e6 (hs _ hop)
            | some v' =>
              simp only [placeOpt] at e6 e6'
              obtain ⟨y, f1, f2⟩ := Res.bind_eq_ok.1 e6
              obtain ⟨y', f1', f2'⟩ := Res.bind_eq_ok.1 e6'
              injection f2 with f2
              injection f2' with f2'
              subst f2 f2'
              unfold place at f1 f1'
              rw [h4] at f1'
              split at f1
              · rename_i hn
                rw [if_pos ⟨ha.2.1 hn.1, hn.2⟩] at f1'
                injection f1 with f1
                injection f1' with f1'
                subst f1 f1'
                exact ho.copy hv
              · rename_i hn
                rw [if_neg fun c => hn ⟨ha.2.2 c.1, c.2⟩] at f1'
                rcases hmd with hmd | hmd
                · exact ho.draw (hs _ hop) hmd hb hv f1 f1'
                · rw [hmd] at f1
                  exact absurd f1 ho.no_pass
        · rename_i hd
          rw [if_neg hd] at e1'
          injection e1 with e1
          injection e1' with e1'
          subst e1 e1'
          exact hb
      exact ihr rest' hr forced scale hs _ _ first r2 r2' e3 e3'

end

/-! ### Stacks -/

section
variable {Q : LayerRec → LayerRec → Prop} (hQ : ∀ l l', Q l l' → l'.clipping = l.clipping)
include hQ

theorem stack_gap {dec dec' : List UInt8 → Option (List UInt8)} {P M : Type} {o : PicOps P M} {R : P → P → Prop} {Op : Nat → Prop} {Mk : M → Prop} {Md : List UInt8 → List UInt8 → Prop} {Z : P → Prop} {Mz : Nat → M → Prop} {P1 P2 : Prop}
    {pic pic' : Int → Option P} {mask mask' : Int → Option M} (hid : ∀ l l', Q l l' → l'.seqID = l.seqID) (hA : ∀ l l', Q l l' → (attrOf dec l).Rel Op Md (attrOf dec' l'))
    (hp : ∀ l l', Q l l' → GapRel (fun x y => R (o.copy x) (o.copy y)) (fun x => Z (o.copy x)) (fun x => Z (o.copy x)) (pic l.seqID) (pic' l.seqID))
    (hm : ∀ l l', Q l l' → (attrOf dec l).maskEnabled = true → GapRel (· = ·) (Mz (attrOf dec l).maskDefaultColor) (Mz (attrOf dec l).maskDefaultColor) (mask l.seqID) (mask' l.seqID) ∧ (∀ x, mask l.seqID = some x → Mk x) ∧ ∀ x, mask' l.seqID = some x → Mk x)
    (hpass : ∀ l l', Q l l' → (attrOf dec l).blendMode = passThrough → P1 ∧ ((attrOf dec l).maskEnabled = true → P2) ∧ pic l.seqID = none ∧ pic' l.seqID = none)
    (hclip : (∀ l l', Q l l' → l.clipping = false) ∨ ∀ l l', Q l l' → (attrOf dec l).blendMode ≠ passThrough) :
    ∀ (t t' : Stk P M) (xs ys : List (LTree LayerRec)), IsStack dec pic mask xs t → IsStack dec' pic' mask' ys t' → DocRel Q xs ys → StkGap o R Op Mk Md Z Mz P1 P2 t t' := by
  intro t
  induction t with
  | nil =>
    intro t' xs ys h h' hd
    obtain rfl : xs = [] := h
    cases hd
    cases t' with
    | nil => trivial
    | layer =>
      obtain ⟨l, sub, above, over, e, -⟩ := h'
      cases e
  | layer a p m kids clips rest ihk ihc ihr =>
    intro t' xs ys h h' hd
    obtain ⟨l, sub, above, over, rfl, ha, rfl, rfl, hk, hc, hr, h1, h2, h3⟩ := h
    cases hd with
    | cons _ l' _ sub' _ rest0 hl hs hre =>
    obtain ⟨above0, over0, rfl, g1, g2⟩ := hre.split
    cases t' with
    | nil => cases (show _ :: _ = [] from h')
    | layer a' p' m' kids' clips' rest' =>
      obtain ⟨l2, sub2, above', over', e, ha', rfl, rfl, hk', hc', hr', h1', h2', h3'⟩ := h'
      injection e with e1 e2
      injection e1 with e3 e4
      subst e3 e4
      have : above0 = above' ∧ over0 = over' := by
        cases hcl : l.clipping with
        | true =>
          have ea := h2 hcl
          subst ea
          cases g1
          rw [h2' (by rw [hQ _ _ hl, hcl])] at e2 ⊢
          exact ⟨rfl, e2⟩
        | false => exact run_unique _ _ _ _ e2 (g1.clipping hQ h1) h1' (g2.head hQ (h3 hcl)) (h3' (by rw [hQ _ _ hl, hcl]))
      obtain ⟨rfl, rfl⟩ := this
      refine ⟨?_, ?_, ?_, ?_, ihk _ _ _ hk hk' hs, ihc _ _ _ hc hc' g1, ihr _ _ _ hr hr' g2⟩
      · rw [ha.eq, ha'.eq]
        exact hA _ _ hl
      · rw [hid _ _ hl]
        exact hp _ _ hl
      · rw [hid _ _ hl, ha.eq]
        exact hm _ _ hl
      · rw [hid _ _ hl, ha.eq]
        intro hc0
        obtain ⟨k1, k2, k3, k4⟩ := hpass _ _ hl hc0
        refine ⟨k1, k2, ?_, k3, k4⟩
        cases clips with
        | nil => rfl
        | layer =>
          obtain ⟨lc, subc, abovec, overc, rfl, -⟩ := hc
          cases g1 with
          | cons _ lc' _ _ _ _ hlc =>
          have := h1 _ List.mem_cons_self
          rcases hclip with hclip | hclip
          · rw [LTree.isClipping, hclip _ _ hlc] at this
            cases this
          · exact absurd hc0 (hclip _ _ hl)

end

end Psd
