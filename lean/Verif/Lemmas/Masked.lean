import Verif.Lemmas.Cover

/-!
# Masks
-/

namespace Psd

/-- The attributes without the mask's. -/
def CAttr.sansMask (a : CAttr) : CAttr := { a with maskEnabled := false, maskDefaultColor := 0 }

/-- The mask hides pixel `i`. -/
def CAttr.hides (a : CAttr) (m : Option (Nat → UInt8)) (i : Nat) : Prop := a.maskEnabled = true ∧ maskValue a.maskDefaultColor m i = 0

/-- The mask leaves pixel `i` alone. -/
def CAttr.lets (a : CAttr) (m : Option (Nat → UInt8)) (i : Nat) : Prop := a.maskEnabled = true → maskValue a.maskDefaultColor m i = 255

theorem mask_alpha_value (op : PD) (v d : UInt8) (e q : Px) (hd : q.a = d) : (pxOr e (drawPD op .nrgba (.alpha v) q)).a =
    hi8 (pdAlpha op (v.toUInt32 * 0x0101 * 0xffff / 0xffff) (d.toUInt32 * 0x0101)) := by
  rw [pd_alpha, readPx_alpha, hd]
  rfl

theorem applyMask_hides {a : CAttr} {m : Option (Nat → UInt8)} {mode : List UInt8} (hp : mode ≠ passThrough) {b buf : Tile} {i : Nat} (h : a.hides m i) :
    (applyMask tileOps a m mode b buf i).a = 0 := by
  unfold applyMask
  rw [if_pos h.1]
  simp only [if_neg hp]
  have h2 := h.2
  cases m with
  | none =>
    simp only [maskValue] at h2
    split at h2
    · cases h2
    · rename_i hd
      simp only [ne_eq, hd, not_false_eq_true, if_true]
      rw [clear_px]
  | some m =>
    simp only [maskValue] at h2
    split at h2
    · rename_i hd
      simp only [ne_eq, hd, not_true_eq_false, if_false]
      have hm : m i = 255 := by
        have : (m i).toNat = 255 := by
          have := congrArg UInt8.toNat h2
          have h3 := (m i).toNat_lt
          rw [UInt8.toNat_sub] at this
          simp at this
          omega
        exact UInt8.toNat_inj.1 this
      have : pdAlpha .destOut (PDSrc.alpha (m i)).read.a (readPx .nrgba (buf i)).a = 0 := by
        rw [hm]
        show (0xffff - (255 : UInt8).toUInt32 * 0x0101 * 0xffff / 0xffff) * (readPx .nrgba (buf i)).a / 0xffff = 0
        rw [show (0xffff - (255 : UInt8).toUInt32 * 0x0101 * 0xffff / 0xffff : UInt32) = 0 by decide, UInt32.zero_mul]
        rfl
      exact congrArg Px.a (pd_zero (op := .destOut) this _)
    · rename_i hd
      simp only [ne_eq, hd, not_false_eq_true, if_true]
      have : pdAlpha .destIn (PDSrc.alpha (m i)).read.a (readPx .nrgba (buf i)).a = 0 := by
        rw [h2]
        show (readPx .nrgba (buf i)).a * ((0 : UInt8).toUInt32 * 0x0101 * 0xffff / 0xffff) / 0xffff = 0
        rw [show ((0 : UInt8).toUInt32 * 0x0101 * 0xffff / 0xffff : UInt32) = 0 by decide, UInt32.mul_zero]
        rfl
      exact congrArg Px.a (pd_zero (op := .destIn) this _)

theorem applyMask_lets {a : CAttr} {m : Option (Nat → UInt8)} {mode : List UInt8} (hp : mode ≠ passThrough) {b buf : Tile} {i : Nat} (h : a.lets m i)
    (hb : (buf i).a = 0 ∨ (buf i).a = 255) : (applyMask tileOps a m mode b buf i).Same (buf i) := by
  rcases hb with hb | hb
  · exact .inr ⟨applyMask_zero hp hb, hb⟩
  left
  unfold applyMask
  split
  · rename_i he
    have h := h he
    simp only [if_neg hp]
    cases m with
    | none =>
      simp only [maskValue] at h
      split at h
      · rename_i hd
        simp only [ne_eq, hd, not_true_eq_false, if_false]
      · cases h
    | some m =>
      simp only [maskValue] at h
      split at h
      · rename_i hd
        simp only [ne_eq, hd, not_true_eq_false, if_false]
        have hm : m i = 0 := by
          have : (m i).toNat = 0 := by
            have := congrArg UInt8.toNat h
            have h3 := (m i).toNat_lt
            rw [UInt8.toNat_sub] at this
            simp at this
            omega
          exact UInt8.toNat_inj.1 this
        exact pd_full (.inr ⟨rfl, by rw [hm]; decide⟩) hb _
      · rename_i hd
        simp only [ne_eq, hd, not_false_eq_true, if_true]
        exact pd_full (.inl ⟨rfl, by rw [h]; decide⟩) hb _
  · rfl

/-- The same layers, looking the same at pixel `i`, apart from what masks hide there and from masks that do nothing. -/
def StkSeen (i : Nat) : Stk Tile (Nat → UInt8) → Stk Tile (Nat → UInt8) → Prop
  | .nil, .nil => True
  | .layer a p m k c r, .layer a' p' m' k' c' r' =>
    a.sansMask = a'.sansMask ∧ StkSeen i r r' ∧
      (a.hides m i ∧ a'.hides m' i ∨ StkSeen i c c' ∧ SeenSame false i p p' ∧
        (a = a' ∧ MaskSame i m m' ∧ StkSeen i k k' ∨
          a.lets m i ∧ a'.lets m' i ∧ k.isNil = true ∧ k'.isNil = true ∧ (∀ q, p = some q → (q i).a = 0 ∨ (q i).a = 255) ∧ ∀ q, p' = some q → (q i).a = 0 ∨ (q i).a = 255))
  | _, _ => False

theorem StkSeen.isNil {i : Nat} {t t' : Stk Tile (Nat → UInt8)} (h : StkSeen i t t') : t.isNil = t'.isNil := by
  cases t <;> cases t' <;> first | rfl | exact absurd h id

theorem clipPic_sight {a : CAttr} {nc : Bool} {C : Tile → Res (Bool × Tile)} {w o : Option Tile} {i : Nat} (h : ∀ x, w = some x → (x i).a = 0)
    (e : clipPic tileOps a nc C w = .ok o) : ∀ x, o = some x → (x i).a = 0 := by
  cases w with
  | none =>
    injection e with e
    subst e
    intro x h
    cases h
  | some w =>
    obtain ⟨z, rfl, hz⟩ := clipPic_zero (h w rfl) e
    intro x hx
    injection hx with hx
    rw [← hx]
    exact hz

theorem SeenSame.zeros {o o' : Option Tile} {i : Nat} (h : ∀ x, o = some x → (x i).a = 0) (h' : ∀ x, o' = some x → (x i).a = 0) : SeenSame false i o o' := by
  cases o with
  | none =>
    cases o' with
    | none => trivial
    | some x' => exact ⟨rfl, h' x' rfl⟩
  | some x =>
    cases o' with
    | none => exact ⟨rfl, h x rfl⟩
    | some x' => exact .inr ⟨h x rfl, h' x' rfl⟩

theorem Px.Same.trans' {p q r : Px} (h : p.Same q) (h' : q.Same r) : p.Same r := by
  rcases h with rfl | h
  · exact h'
  · rcases h' with rfl | h'
    · exact .inr h
    · exact .inr ⟨h.1, h'.2⟩

theorem paint_seen {i : Nat} : ∀ (t t' : Stk Tile (Nat → UInt8)), StkSeen i t t' → t.noPass → t'.noPass →
    ∀ (forced : Bool) (scale : Nat → Nat) (b b' : Tile) (r r' : Bool × Tile), (b i).Same (b' i) → paint tileOps t forced scale b = .ok r →
    paint tileOps t' forced scale b' = .ok r' → (r.2 i).Same (r'.2 i) := by
  intro t
  induction t with
  | nil =>
    intro t' ht _ _ forced scale b b' r r' hb e e'
    cases t' with
    | nil =>
      injection e with e
      injection e' with e'
      rw [← e, ← e']
      exact hb
    | layer => exact absurd ht id
  | layer a p m kids clips rest ihk ihc ihr =>
    intro t' ht hs hs' forced scale b b' r r' hb e e'
    cases t' with
    | nil => exact absurd ht id
    | layer a' p' m' kids' clips' rest' =>
      obtain ⟨ha, hr, hh⟩ := ht
      obtain ⟨np, npk, npc, npr⟩ := hs
      obtain ⟨np', npk', npc', npr'⟩ := hs'
      rw [paint_layer] at e e'
      obtain ⟨r1, e1, e2⟩ := Res.bind_eq_ok.1 e
      obtain ⟨r2, e3, e4⟩ := Res.bind_eq_ok.1 e2
      obtain ⟨r1', e1', e2'⟩ := Res.bind_eq_ok.1 e'
      obtain ⟨r2', e3', e4'⟩ := Res.bind_eq_ok.1 e2'
      injection e4 with e4
      injection e4' with e4'
      subst e4 e4'
      have a1 : a'.visible = a.visible := (congrArg CAttr.visible ha).symm
      have a2 : a'.opacity = a.opacity := (congrArg CAttr.opacity ha).symm
      have a3 : a'.clipping = a.clipping := (congrArg CAttr.clipping ha).symm
      have a4 : a'.blendMode = a.blendMode := (congrArg CAttr.blendMode ha).symm
      have a5 : a'.blendClippedElements = a.blendClippedElements := (congrArg CAttr.blendClippedElements ha).symm
      have ad : drawn a' forced (scale a'.opacity) = drawn a forced (scale a.opacity) := by unfold drawn; rw [a1, a2, a3]
      have as : kidScale a' (scale a'.opacity) = kidScale a (scale a.opacity) := by unfold kidScale; rw [a2, a4]
      have first : (r1.2 i).Same (r1'.2 i) := by
        unfold paintLayer at e1 e1'
        rw [ad] at e1'
        by_cases hd : drawn a forced (scale a.opacity) = true
        · rw [if_pos hd] at e1 e1'
          obtain ⟨o, e5, e6⟩ := Res.bind_eq_ok.1 e1
          obtain ⟨o', e5', e6'⟩ := Res.bind_eq_ok.1 e1'
          obtain ⟨w, e7, e8⟩ := Res.bind_eq_ok.1 e5
          obtain ⟨w', e7', e8'⟩ := Res.bind_eq_ok.1 e5'
          have hid : ∀ {a : CAttr} {p : Option Tile} {m : Option (Nat → UInt8)} {leaf : Bool} {K : (Nat → Nat) → Tile → Res (Bool × Tile)} {o : Nat} {b : Tile} {w : Option Tile},
              a.blendMode ≠ passThrough → a.hides m i → ownPic tileOps a p m leaf K o b = .ok w → ∀ x, w = some x → (x i).a = 0 := by
            intro a p m leaf K o b w np hh e x hx
            subst hx
            unfold ownPic at e
            split at e
            · injection e with e
              cases p with
              | none => cases e
              | some p =>
                injection e with e
                rw [← e]
                exact applyMask_hides np hh
            · obtain ⟨k, -, e⟩ := Res.bind_eq_ok.1 e
              injection e with e
              unfold folderPic at e
              split at e
              · injection e with e
                rw [← e]
                exact applyMask_hides np hh
              · cases e
          have ho : SeenSame false i o o' := by
            rcases hh with ⟨h1, h2⟩ | ⟨hc, hp, hh⟩
            · exact SeenSame.zeros (clipPic_sight (hid np h1 e7) e8) (clipPic_sight (hid np' h2 e7') e8')
            · have hw : SeenSame false i w w' := by
                unfold ownPic at e7 e7'
                rcases hh with ⟨rfl, hm, hk⟩ | ⟨h1, h2, h3, h4, h5, h6⟩
                · rw [← hk.isNil] at e7'
                  by_cases hl : kids.isNil = true
                  · rw [if_pos hl] at e7 e7'
                    injection e7 with e7
                    injection e7' with e7'
                    subst e7 e7'
                    cases p with
                    | none =>
                      cases p' with
                      | none => trivial
                      | some p' => exact ⟨rfl, applyMask_zero np (by rw [copy_alpha]; exact hp.2)⟩
                    | some p =>
                      cases p' with
                      | none => exact ⟨rfl, applyMask_zero np (by rw [copy_alpha]; exact hp.2)⟩
                      | some p' => exact applyMask_same hm hb (.inl (copy_same hp))
                  · rw [if_neg hl] at e7 e7'
                    obtain ⟨k, ek, e7⟩ := Res.bind_eq_ok.1 e7
                    obtain ⟨k', ek', e7'⟩ := Res.bind_eq_ok.1 e7'
                    injection e7 with e7
                    injection e7' with e7'
                    subst e7 e7'
                    rw [kidStart, if_neg np] at ek ek'
                    have g1 := ihk kids' hk npk npk' _ _ _ _ k k' (.refl _) ek ek'
                    have blank : ∀ {k : Bool × Tile} {kids : Stk Tile (Nat → UInt8)} {f : Nat → Nat}, k.1 = false →
                        paint tileOps kids false f tileOps.blank = .ok k → (k.2 i).a = 0 := by
                      intro k kids f hk e
                      obtain ⟨d, x⟩ := k
                      subst hk
                      rw [paint_idle _ _ _ _ _ e]
                      rfl
                    unfold folderPic
                    cases k1 : k.1 with
                    | true =>
                      cases k1' : k'.1 with
                      | true => exact applyMask_same hm hb g1
                      | false => exact ⟨rfl, applyMask_zero np (g1.symm.of_alpha (blank k1' ek'))⟩
                    | false =>
                      cases k1' : k'.1 with
                      | false => trivial
                      | true => exact ⟨rfl, applyMask_zero np (g1.of_alpha (blank k1 ek))⟩
                · rw [if_pos h3] at e7
                  rw [if_pos h4] at e7'
                  injection e7 with e7
                  injection e7' with e7'
                  subst e7 e7'
                  cases p with
                  | none =>
                    cases p' with
                    | none => trivial
                    | some p' => exact ⟨rfl, applyMask_zero np' (by rw [copy_alpha]; exact hp.2)⟩
                  | some p =>
                    cases p' with
                    | none => exact ⟨rfl, applyMask_zero np (by rw [copy_alpha]; exact hp.2)⟩
                    | some p' =>
                      have s1 := applyMask_lets (b := b) np h1 (buf := tileOps.copy p) (by rw [copy_alpha]; exact h5 p rfl)
                      have s2 := applyMask_lets (b := b') np' h2 (buf := tileOps.copy p') (by rw [copy_alpha]; exact h6 p' rfl)
                      exact (s1.trans' (.inl (copy_same hp))).trans' s2.symm
              cases w with
              | none =>
                injection e8 with e8
                subst e8
                cases w' with
                | none =>
                  injection e8' with e8'
                  subst e8'
                  trivial
                | some w' =>
                  obtain ⟨z, rfl, hz⟩ := clipPic_zero hw.2 e8'
                  exact ⟨hw.1, hz⟩
              | some w =>
                cases w' with
                | none =>
                  injection e8' with e8'
                  subst e8'
                  obtain ⟨z, rfl, hz⟩ := clipPic_zero hw.2 e8
                  exact ⟨hw.1, hz⟩
                | some w' =>
                  have hw : (w i).Same (w' i) := hw
                  unfold clipPic at e8 e8'
                  rw [← hc.isNil, a5] at e8'
                  by_cases hn : (clips.isNil || !a.blendClippedElements) = true
                  · simp only [if_pos hn] at e8 e8'
                    injection e8 with e8
                    injection e8' with e8'
                    subst e8 e8'
                    exact hw
                  · simp only [if_neg hn] at e8 e8'
                    obtain ⟨c, ec, e8⟩ := Res.bind_eq_ok.1 e8
                    obtain ⟨c', ec', e8'⟩ := Res.bind_eq_ok.1 e8'
                    injection e8 with e8
                    injection e8' with e8'
                    subst e8 e8'
                    have hw0 := hw
                    rcases hw with hw | ⟨hw, hw'⟩
                    · refine .inl (destIn_same ?_ hw0)
                      refine ihc clips' hc npc npc' _ _ _ _ c c' ?_ ec ec'
                      left
                      simp only [tileOps]
                      exact congrArg (fun x : Px => { x with a := 255 }) (copy_same (.inl hw))
                    · exact .inl ((destIn_zero hw).trans (destIn_zero hw').symm)
          cases o with
          | none =>
            cases o' with
            | none =>
              injection e6 with e6
              injection e6' with e6'
              subst e6 e6'
              exact hb
            | some o' =>
              injection e6 with e6
              subst e6
              rw [placeOpt_zero np' ho.2 e6']
              exact hb
          | some o =>
            cases o' with
            | none =>
              injection e6' with e6'
              subst e6'
              rw [placeOpt_zero np ho.2 e6]
              exact hb
            | some o' =>
              have ho : (o i).Same (o' i) := ho
              obtain ⟨y, e9, e10⟩ := Res.bind_eq_ok.1 e6
              obtain ⟨y', e9', e10'⟩ := Res.bind_eq_ok.1 e6'
              injection e10 with e10
              injection e10' with e10'
              subst e10 e10'
              unfold place at e9 e9'
              rw [if_neg (fun h => np h.1)] at e9
              rw [if_neg (fun h => np' h.1), a2, a4] at e9'
              exact draw_same e9 e9' hb ho
        · rw [if_neg hd] at e1 e1'
          injection e1 with e1
          injection e1' with e1'
          subst e1 e1'
          exact hb
      exact ihr rest' hr npr npr' _ _ _ _ r2 r2' first e3 e3'

end Psd
