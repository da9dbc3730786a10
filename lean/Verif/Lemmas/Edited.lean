import Verif.Lemmas.Coherent

/-!
# Changing layers and forgetting what depends on them
-/

namespace Psd

section
variable {P M : Type} {ops : PicOps P M}

/-- None of these siblings is pass-through. -/
def NoPass : Stk P M → Prop
  | .nil => True
  | .layer a _ _ _ clips rest => a.blendMode ≠ passThrough ∧ NoPass clips ∧ NoPass rest

/-- The same layers, where attributes of those with numbers in `X` may be others. -/
def Edited (X : List Int) : Stk P M → Stk P M → Prop
  | .nil, .nil => True
  | .layer a pic mask kids clips rest, .layer a' pic' mask' kids' clips' rest' =>
    pic' = pic ∧ mask' = mask ∧ a'.seqID = a.seqID ∧ a'.clipping = a.clipping ∧ (a.seqID ∉ X → a' = a) ∧
      (a.clipping = true → clips'.isNil = true) ∧ (a.blendMode = passThrough → a'.blendMode ≠ passThrough → NoPass kids') ∧
      Edited X kids kids' ∧ Edited X clips clips' ∧ Edited X rest rest'
  | _, _ => False

/-- Some layer that is changed has pixels at the tile, if it is drawn; it is among these, or in or clipped to one of them. -/
def Stk.aff (X : List Int) : Stk P M → (forced : Bool) → Bool
  | .nil, _ => false
  | .layer a pic _ kids clips rest, forced =>
    ((forced || !a.clipping) && ((decide (a.seqID ∈ X) && ownArea pic kids) || kids.aff X false || clips.aff X true)) || rest.aff X forced

/-- It is this layer, or in or clipped to it. -/
def affOne (X : List Int) (a : CAttr) (pic : Option P) (kids clips : Stk P M) : Bool :=
  (decide (a.seqID ∈ X) && ownArea pic kids) || kids.aff X false || clips.aff X true

/-- The pass-through layers among these siblings, and those directly in these, have no entry. -/
def PassCleared (C : Int → Option CacheState) : Stk P M → Prop
  | .nil => True
  | .layer a _ _ kids clips rest => (a.blendMode = passThrough → C a.seqID = none ∧ PassCleared C kids) ∧ PassCleared C clips ∧ PassCleared C rest

/-- The layers in which something changed have no entry, nor have the pass-through siblings of such layers. -/
def Cleared (X : List Int) (C : Int → Option CacheState) : Stk P M → Prop
  | .nil => True
  | .layer a pic _ kids clips rest =>
    (affOne X a pic kids clips = true → C a.seqID = none) ∧ (kids.aff X false = true → PassCleared C kids) ∧
      Cleared X C kids ∧ Cleared X C clips ∧ Cleared X C rest

theorem NoPass.cleared {C : Int → Option CacheState} : ∀ t : Stk P M, NoPass t → PassCleared C t := by
  intro t
  induction t with
  | nil => intro _; trivial
  | layer a pic mask kids clips rest _ ihc ihr => intro h; exact ⟨fun hp => absurd hp h.1, ihc h.2.1, ihr h.2.2⟩

theorem Edited.isNil {X : List Int} {t t' : Stk P M} (h : Edited X t t') : t'.isNil = t.isNil := by
  cases t <;> cases t' <;> first | rfl | cases h

/-! ### Nothing to see -/

theorem kidScale_zero (a : CAttr) (o : Nat) : kidScale a o 0 = 0 := by
  simp only [kidScale, Nat.zero_mul, Nat.zero_div]

theorem ownPic_none_of {a : CAttr} {pic : Option P} {mask : Option M} {kids : Stk P M} {o : Nat} {b : P} (h : ownArea pic kids = false)
    (hk : kids.area = false → ∀ scale b, scale 0 = 0 → paint ops kids false scale b = .ok (false, b)) :
    ownPic ops a pic mask kids.isNil (paint ops kids false) o b = .ok none := by
  unfold ownArea at h
  unfold ownPic
  split at h
  · rename_i hn
    rw [if_pos hn]
    cases pic with
    | none => rfl
    | some p => cases h
  · rename_i hn
    rw [if_neg hn, hk h _ _ (kidScale_zero _ _)]
    rfl

theorem paintLayer_none_of {a : CAttr} {pic : Option P} {mask : Option M} {kids clips : Stk P M} {forced : Bool} {o : Nat} {b : P}
    (h : drawn a forced o = true → ownPic ops a pic mask kids.isNil (paint ops kids false) o b = .ok none) :
    paintLayer ops a pic mask kids clips forced o b = .ok (false, b) := by
  unfold paintLayer
  split
  · rename_i hs
    unfold layerPic
    rw [h hs]
    rfl
  · rfl

theorem paint_quiet : ∀ t : Stk P M, t.area = false → ∀ scale b, scale 0 = 0 → paint ops t false scale b = .ok (false, b) := by
  intro t
  induction t with
  | nil => intros; rfl
  | layer a pic mask kids clips rest ihk _ ihr =>
    intro h scale b h0
    simp only [Stk.area, Bool.or_eq_false_iff] at h
    rw [paint_layer, paintLayer_none_of]
    · simp only [Res.ok_bind]
      rw [ihr h.2 scale b h0]
      rfl
    · intro hs
      refine ownPic_none_of ?_ ihk
      have h1 := h.1
      unfold ownArea
      simp only [drawn] at hs
      cases hv : a.visible
      · rw [hv] at hs; simp at hs
      cases hc : a.clipping
      · by_cases ho : a.opacity = 0
        · rw [ho, h0] at hs
          simp at hs
        · have ho : (a.opacity != 0) = true := by simpa using ho
          simpa only [hv, hc, ho, Bool.true_and, Bool.not_false] using h1
      · rw [hc] at hs; simp at hs

theorem ownPic_none {a : CAttr} {pic : Option P} {mask : Option M} {kids : Stk P M} (h : ownArea pic kids = false) (o : Nat) (b : P) :
    ownPic ops a pic mask kids.isNil (paint ops kids false) o b = .ok none := ownPic_none_of h (paint_quiet kids)

theorem layerPic_none {a : CAttr} {pic : Option P} {mask : Option M} {kids clips : Stk P M} (h : ownArea pic kids = false) (o : Nat) (b : P) :
    layerPic ops a pic mask kids clips o b = .ok none := by
  unfold layerPic
  rw [ownPic_none h]
  rfl

theorem nextCtx_none {a : CAttr} {pic : Option P} {mask : Option M} {kids clips : Stk P M} (h : ownArea pic kids = false) (forced : Bool) (c : Ctx P) :
    nextCtx ops a pic mask kids clips forced c = c := by
  cases c with
  | none => rfl
  | some c =>
    simp only [nextCtx, Option.bind_some]
    rw [paintLayer_none_of (fun _ => ownPic_none h _ _)]
    rfl

theorem clipCtx_none {a : CAttr} {pic : Option P} {mask : Option M} {kids : Stk P M} (h : ownArea pic kids = false) (c : Option (Nat × P)) :
    clipCtx ops a pic mask kids c = none := by
  cases c with
  | none => rfl
  | some c => simp only [clipCtx, Option.bind_some, ownPic_none h, Res.toOption, Option.map_none]

/-! ### Layers in which nothing changed -/

theorem unaffected {X : List Int} : ∀ (t t' : Stk P M), Edited X t t' → ∀ forced, t'.aff X forced = false →
    paint ops t' forced = paint ops t forced ∧ (forced = false → t'.area = t.area) := by
  intro t
  induction t with
  | nil =>
    intro t' he forced _
    cases t' with
    | nil => exact ⟨rfl, fun _ => rfl⟩
    | layer => cases he
  | layer a pic mask kids clips rest ihk ihc ihr =>
    intro t' he forced ha
    cases t' with
    | nil => cases he
    | layer a' pic' mask' kids' clips' rest' =>
      obtain ⟨rfl, rfl, hid, hcl, hX, _, _, hek, hec, her⟩ := he
      simp only [Stk.aff, Bool.or_eq_false_iff, Bool.and_eq_false_imp] at ha
      obtain ⟨ha1, ha2⟩ := ha
      obtain ⟨ir1, ir2⟩ := ihr _ her forced ha2
      by_cases hs : (forced || !a'.clipping) = true
      · obtain ⟨⟨hx, hk⟩, hc⟩ := ha1 hs
        obtain ⟨ik1, ik2⟩ := ihk _ hek false hk
        obtain ⟨ic1, _⟩ := ihc _ hec true hc
        have har : ownArea pic' kids' = ownArea pic' kids := by simp only [ownArea, hek.isNil, ik2 rfl]
        by_cases hown : ownArea pic' kids' = true
        · have hn : a.seqID ∉ X := by
            rw [hid] at hx
            intro h
            have h := hx (by simpa using h)
            rw [hown] at h
            cases h
          have := hX hn
          subst this
          refine ⟨?_, fun h => ?_⟩
          · funext scale b
            simp only [paint_layer, paintLayer, layerPic, hek.isNil, hec.isNil, ik1, ic1, ir1]
          · simp only [Stk.area, hek.isNil, ik2 rfl, ir2 h]
        · have hown : ownArea pic' kids' = false := by simpa using hown
          refine ⟨?_, fun h => ?_⟩
          · funext scale b
            rw [paint_layer, paint_layer, paintLayer_none_of (fun _ => ownPic_none hown _ _), paintLayer_none_of (fun _ => ownPic_none (har ▸ hown) _ _), ir1]
          · have h1 := hown
            rw [har] at h1
            unfold ownArea at hown h1
            simp only [Stk.area, hown, h1, ir2 h, Bool.and_false]
      · have hs : (forced || !a'.clipping) = false := by simpa using hs
        simp only [Bool.or_eq_false_iff, Bool.not_eq_false'] at hs
        obtain ⟨hf, hc⟩ := hs
        have hc' := hcl ▸ hc
        subst hf
        refine ⟨?_, fun h => ?_⟩
        · funext scale b
          have e : ∀ {a : CAttr} (_ : a.clipping = true) (k c : Stk P M), paintLayer ops a pic' mask' k c false (scale a.opacity) b = .ok (false, b) := by
            intro a h k c
            unfold paintLayer
            rw [if_neg (by simp [drawn, h])]
          rw [paint_layer, paint_layer, e hc, e hc', ir1]
        · simp only [Stk.area, hc, hc', Bool.not_true, Bool.and_false, Bool.false_and, Bool.false_or]
          exact ir2 h

/-! ### Entries that are still right -/

/-- Some entries are gone. -/
def Less (C' C : Int → Option CacheState) : Prop := ∀ id, C' id = none ∨ C' id = C id

theorem EntryAt.of_none {C : Int → Option CacheState} {I : Int → Option P} {a : CAttr} {pic : Option P} {mask : Option M} {kids clips : Stk P M}
    (h : C a.seqID = none) (c : Option (Nat × P)) : EntryAt ops C I a pic mask kids clips c := by
  cases c with
  | none => exact .inl h
  | some c => simp only [EntryAt, EntryOk, h]

theorem EntryAt.less {C C' : Int → Option CacheState} {I : Int → Option P} {a : CAttr} {pic : Option P} {mask : Option M} {kids clips : Stk P M}
    {c : Option (Nat × P)} (hl : Less C' C) (h : EntryAt ops C I a pic mask kids clips c) : EntryAt ops C' I a pic mask kids clips c := by
  rcases hl a.seqID with e | e
  · exact .of_none e c
  · cases c with
    | none => simpa only [EntryAt, EntryQuiet, e] using h
    | some c => simpa only [EntryAt, EntryOk, e] using h

/-- The entry of a layer without pixels at the tile. -/
theorem EntryAt.of_blank {C C' : Int → Option CacheState} {I : Int → Option P} {a a' : CAttr} {pic : Option P} {mask : Option M} {kids clips kids' clips' : Stk P M}
    {c : Option (Nat × P)} (hl : Less C' C) (hid : a'.seqID = a.seqID) (h : EntryAt ops C I a pic mask kids clips c) (ho : ownArea pic kids = false)
    (ho' : ownArea pic kids' = false) (c' : Option (Nat × P)) : EntryAt ops C' I a' pic mask kids' clips' c' := by
  have hc : C a.seqID = none ∨ C a.seqID = some .cachedEmpty := by
    cases c with
    | none => exact h.imp id (fun h => h.1)
    | some c =>
      simp only [EntryAt, EntryOk, layerPic_none ho] at h
      split at h
      · exact .inl ‹_›
      · exact .inr ‹_›
      · obtain ⟨img, e, _⟩ := h
        cases e
  rcases hl a'.seqID with e | e
  · exact .of_none e c'
  · rw [hid] at e
    rcases hc with hc | hc
    · exact .of_none (by rw [hid, e, hc]) c'
    · cases c' with
      | none => exact .inr ⟨by rw [hid, e, hc], ho'⟩
      | some c' =>
        simp only [EntryAt, EntryOk]
        rw [hid, e, hc]
        exact layerPic_none ho' _ _

theorem Coh.edited {X : List Int} {C C' : Int → Option CacheState} {I : Int → Option P} (hl : Less C' C) : ∀ (t t' : Stk P M), Edited X t t' →
    ∀ (forced : Bool) (c c' : Ctx P), Coh ops C I t forced c → Cleared X C' t' → (t'.aff X forced = true → PassCleared C' t') →
    (c' = c ∨ PassCleared C' t' ∨ forced = false ∧ t'.area = false) → (∀ d, c = some d → d.1 0 = 0) → (∀ d, c' = some d → d.1 0 = 0) →
    Coh ops C' I t' forced c' := by
  intro t
  induction t with
  | nil =>
    intro t' he
    cases t' with
    | nil => intros; trivial
    | layer => cases he
  | layer a pic mask kids clips rest ihk ihc ihr =>
    intro t' he forced c c' hc hcl hH hJ h0 h0'
    cases t' with
    | nil => cases he
    | layer a' pic' mask' kids' clips' rest' =>
      obtain ⟨rfl, rfl, hid, hclip, hX, hstr, hnp, hek, hec, her⟩ := he
      obtain ⟨hc1, hc2, hc3, hc4⟩ := hc
      obtain ⟨hl1, hl2, hl3, hl4, hl5⟩ := hcl
      have z1 : ∀ (a : CAttr) (oc : Option (Nat × P)) d, (oc.map fun c => (kidScale a c.1, kidStart ops a c.2)) = some d → d.1 0 = 0 := by
        intro a oc d e
        cases oc with
        | none => cases e
        | some oc => injection e with e; rw [← e]; exact kidScale_zero _ _
      have z2 : ∀ (a : CAttr) k (oc : Option (Nat × P)) d, clipCtx ops a pic' mask' k oc = some d → d.1 0 = 0 := by
        intro a k oc d e
        cases oc with
        | none => cases e
        | some oc =>
          simp only [clipCtx, Option.bind_some] at e
          cases hr : (ownPic ops a pic' mask' k.isNil (paint ops k false) oc.1 oc.2).toOption with
          | none => rw [hr] at e; cases e
          | some r =>
            rw [hr] at e
            cases r with
            | none => cases e
            | some buf => injection e with e; rw [← e]; rfl
      have z3 : ∀ (a : CAttr) k cl (c : Ctx P), (∀ d, c = some d → d.1 0 = 0) → ∀ d, nextCtx ops a pic' mask' k cl forced c = some d → d.1 0 = 0 := by
        intro a k cl c h0 d e
        cases c with
        | none => cases e
        | some c =>
          simp only [nextCtx, Option.bind_some] at e
          cases hr : (paintLayer ops a pic' mask' k cl forced (c.1 a.opacity) c.2).toOption with
          | none => rw [hr] at e; cases e
          | some r => rw [hr] at e; injection e with e; rw [← e]; exact h0 c rfl
      have hJr : PassCleared C' (Stk.layer a' pic' mask' kids' clips' rest') → PassCleared C' rest' := fun h => h.2.2
      have hHr : rest'.aff X forced = true → PassCleared C' rest' := fun h => hJr (hH (by simp only [Stk.aff, h, Bool.or_true]))
      have hAr : (Stk.layer a' pic' mask' kids' clips' rest').area = false → rest'.area = false := fun h => by
        simp only [Stk.area, Bool.or_eq_false_iff] at h
        exact h.2
      by_cases hs : (a'.clipping && !forced) = true
      · -- a clipping layer without base: it is never drawn
        have hs0 : (a.clipping && !forced) = true := by rw [← hclip]; exact hs
        have e : ownCtx ops a forced c = none := by simp only [ownCtx, hs0, if_true]
        have e' : ownCtx ops a' forced c' = none := by simp only [ownCtx, hs, if_true]
        simp only [Bool.and_eq_true, Bool.not_eq_true'] at hs
        have hnil : clips'.isNil = true := hstr (hclip ▸ hs.1)
        have hcl' : clips' = .nil := by cases clips' with | nil => rfl | layer => cases hnil
        have nx : ∀ {a : CAttr} (_ : a.clipping = true) (k cl : Stk P M) (c : Ctx P), nextCtx ops a pic' mask' k cl forced c = c := by
          intro a h k cl c
          cases c with
          | none => rfl
          | some c =>
            simp only [nextCtx, Option.bind_some]
            unfold paintLayer
            rw [if_neg (by simp [drawn, h, hs.2])]
            rfl
        refine ⟨fun hn => ?_, ?_, ?_, ?_⟩
        · by_cases hao : affOne X a' pic' kids' clips' = true
          · exact .of_none (hl1 hao) _
          · have hk : kids'.aff X false = false := by
              simp only [affOne, Bool.or_eq_true, not_or] at hao
              simpa using hao.1.2
            have he := hc1 (by rw [← hek.isNil]; exact hn)
            rw [e] at he
            rw [e']
            have har : ownArea pic' kids' = ownArea pic' kids := by
              simp only [ownArea, hek.isNil, (unaffected (ops := ops) kids kids' hek false hk).2 rfl]
            rcases hl a'.seqID with h | h
            · exact .of_none h _
            · simp only [EntryAt, EntryQuiet] at he ⊢
              rw [h, hid, har]
              exact he
        · rw [e'] 
          rw [e] at hc2
          exact ihk _ hek false none none hc2 hl3 hl2 (.inl rfl) (by intro d h; cases h) (by intro d h; cases h)
        · rw [hcl']; trivial
        · rw [nx (hclip ▸ hs.1)] at hc4
          rw [nx hs.1]
          exact ihr _ her forced c c' hc4 hl5 hHr (hJ.imp id (Or.imp hJr (And.imp id hAr))) h0 h0'
      · have hs : (a'.clipping && !forced) = false := by simpa using hs
        have hs0 : (a.clipping && !forced) = false := by rw [← hclip]; exact hs
        have hs1 : (forced || !a'.clipping) = true := by
          cases h1 : a'.clipping <;> cases h2 : forced <;> simp_all
        by_cases hao : affOne X a' pic' kids' clips' = true
        · -- something changed in it
          have hpc := hH (by simp only [Stk.aff, hs1, Bool.true_and]; simp only [affOne] at hao; rw [hao]; rfl)
          refine ⟨fun _ => .of_none (hl1 hao) _, ?_, ?_, ?_⟩
          · refine ihk _ hek false _ _ hc2 hl3 hl2 ?_ (z1 _ _) (z1 _ _)
            by_cases hp' : a'.blendMode = passThrough
            · exact .inr (.inl (hpc.1 hp').2)
            · by_cases hp : a.blendMode = passThrough
              · exact .inr (.inl ((hnp hp hp').cleared))
              · refine .inl ?_
                simp only [ownCtx, hs, hs0, hp, hp', if_false, Bool.false_eq_true, Option.map_some]
                have : kidScale a' 255 = kidScale a 255 := by funext x; simp only [kidScale, hp, hp', if_false]
                simp only [this, kidStart, hp, hp', if_false]
          · exact ihc _ hec true _ _ hc3 hl4 (fun _ => hpc.2.1) (.inr (.inl hpc.2.1)) (z2 _ _ _) (z2 _ _ _)
          · exact ihr _ her forced _ _ hc4 hl5 hHr (.inr (.inl hpc.2.2)) (z3 _ _ _ _ h0) (z3 _ _ _ _ h0')
        · -- nothing changed in it
          have hao : affOne X a' pic' kids' clips' = false := by simpa using hao
          simp only [affOne, Bool.or_eq_false_iff] at hao
          obtain ⟨⟨hx, hka⟩, hca⟩ := hao
          obtain ⟨ik1, ik2⟩ := unaffected (ops := ops) kids kids' hek false hka
          obtain ⟨ic1, _⟩ := unaffected (ops := ops) clips clips' hec true hca
          have har : ownArea pic' kids' = ownArea pic' kids := by simp only [ownArea, hek.isNil, ik2 rfl]
          by_cases hown : ownArea pic' kids' = true
          · have hn : a.seqID ∉ X := by
              rw [hid, hown, Bool.and_true] at hx
              simpa using hx
            have := hX hn
            subst this
            have hE : ownCtx ops a' forced c' = ownCtx ops a' forced c ∨ a'.blendMode = passThrough ∧ PassCleared C' (Stk.layer a' pic' mask' kids' clips' rest') := by
              by_cases hp : a'.blendMode = passThrough
              · rcases hJ with rfl | hJ | ⟨hf, hJ⟩
                · exact .inl rfl
                · exact .inr ⟨hp, hJ⟩
                · refine .inl ?_
                  subst hf
                  simp only [Stk.area, Bool.or_eq_false_iff] at hJ
                  have hJ := hJ.1
                  have hno : ∀ sc : Nat → Nat, sc 0 = 0 → drawn a' false (sc a'.opacity) = false := by
                    intro sc hsc
                    unfold ownArea at hown
                    rw [hown] at hJ
                    simp only [drawn, Bool.or_false]
                    cases hv : a'.visible
                    · rfl
                    · by_cases ho : a'.opacity = 0
                      · rw [ho, hsc]; rfl
                      · have ho : (a'.opacity != 0) = true := by simpa using ho
                        rw [hv, ho] at hJ
                        simp only [Bool.true_and, Bool.and_true] at hJ
                        rw [hJ, Bool.and_false]
                  simp only [ownCtx, hs, hp, if_true, Bool.false_eq_true, if_false]
                  have nn : ∀ (c : Ctx P), (∀ d, c = some d → d.1 0 = 0) →
                      (c.bind fun c => if drawn a' false (c.1 a'.opacity) then some (c.1 a'.opacity, c.2) else none) = none := by
                    intro c h0
                    cases c with
                    | none => rfl
                    | some c =>
                      simp only [Option.bind_some]
                      rw [hno c.1 (h0 c rfl)]
                      rfl
                  rw [nn c' h0', nn c h0]
              · refine .inl ?_
                simp only [ownCtx, hs, hp, if_false, Bool.false_eq_true]
            have hlp : layerPic ops a' pic' mask' kids' clips' = layerPic ops a' pic' mask' kids clips := by
              funext o b
              simp only [layerPic, hek.isNil, hec.isNil, ik1, ic1]
            have hnx : nextCtx ops a' pic' mask' kids' clips' forced = nextCtx ops a' pic' mask' kids clips forced := by
              funext c
              simp only [nextCtx, paintLayer, hlp, hec.isNil]
            have hcx : clipCtx ops a' pic' mask' kids' = clipCtx ops a' pic' mask' kids := by
              funext c
              simp only [clipCtx, hek.isNil, ik1]
            refine ⟨fun hn => ?_, ?_, ?_, ?_⟩
            · rcases hE with hE | ⟨hp, hpc⟩
              · have he := hc1 (by rw [← hek.isNil]; exact hn)
                rw [hE]
                have he := he.less hl
                generalize ownCtx ops a' forced c = oc at he
                cases oc with
                | none =>
                  simp only [EntryAt, EntryQuiet, har] at he ⊢
                  exact he
                | some oc =>
                  simp only [EntryAt, hlp] at he ⊢
                  exact he
              · exact .of_none (hpc.1 hp).1 _
            · refine ihk _ hek false _ _ hc2 hl3 hl2 ?_ (z1 _ _) (z1 _ _)
              rcases hE with hE | ⟨hp, hpc⟩
              · exact .inl (by rw [hE])
              · exact .inr (.inl (hpc.1 hp).2)
            · refine ihc _ hec true _ _ hc3 hl4 (fun h => by rw [hca] at h; cases h) ?_ (z2 _ _ _) (z2 _ _ _)
              rcases hE with hE | ⟨hp, hpc⟩
              · exact .inl (by rw [hE, hcx])
              · exact .inr (.inl hpc.2.1)
            · refine ihr _ her forced _ _ hc4 hl5 hHr ?_ (z3 _ _ _ _ h0) (z3 _ _ _ _ h0')
              rcases hJ with rfl | hJ | ⟨hf, hJ⟩
              · exact .inl (by rw [hnx])
              · exact .inr (.inl hJ.2.2)
              · exact .inr (.inr ⟨hf, hAr hJ⟩)
          · have hown : ownArea pic' kids' = false := by simpa using hown
            have hown0 : ownArea pic' kids = false := har ▸ hown
            refine ⟨fun hn => ?_, ?_, ?_, ?_⟩
            · exact .of_blank hl hid (hc1 (by rw [← hek.isNil]; exact hn)) hown0 hown _
            · refine ihk _ hek false _ _ hc2 hl3 hl2 (.inr (.inr ⟨rfl, ?_⟩)) (z1 _ _) (z1 _ _)
              unfold ownArea at hown
              split at hown
              · cases kids' with
                | nil => rfl
                | layer => rename_i h; cases h
              · exact hown
            · rw [clipCtx_none hown0] at hc3
              rw [clipCtx_none hown]
              exact ihc _ hec true none none hc3 hl4 (fun h => by rw [hca] at h; cases h) (.inl rfl) (by intro d h; cases h) (by intro d h; cases h)
            · rw [nextCtx_none hown0] at hc4
              rw [nextCtx_none hown]
              exact ihr _ her forced c c' hc4 hl5 hHr (hJ.imp id (Or.imp hJr (And.imp id hAr))) h0 h0'

end
end Psd
