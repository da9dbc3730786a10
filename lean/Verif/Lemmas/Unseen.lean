import Verif.Lemmas.Stacked
import Verif.Lemmas.Sight

/-!
# Layers that leave no trace
-/

namespace Psd

/-- The second document is the first without layers that cannot be seen. -/
inductive Unseen : List (LTree LayerRec) → List (LTree LayerRec) → Prop
  | nil : Unseen [] []
  | keep (l : LayerRec) (sub sub' rest rest' : List (LTree LayerRec)) : Unseen sub sub' → Unseen rest rest' → Unseen (.node l sub :: rest) (.node l sub' :: rest')
  | drop (l : LayerRec) (sub above over over' : List (LTree LayerRec)) : l.clipping = false → l.visible = false ∨ l.opacity = 0 →
      (∀ k ∈ above, k.isClipping = true) → (∀ k ∈ over.head?, k.isClipping = false) → Unseen over over' → Unseen (.node l sub :: (above ++ over)) over'
  | unblended (l : LayerRec) (sub sub' above over over' : List (LTree LayerRec)) : l.clipping = false → l.blendClippedElements = false →
      (l.folder = true → l.sdBlendMode ≠ ascii "pass") →
      (∀ k ∈ above, k.isClipping = true) → (∀ k ∈ over.head?, k.isClipping = false) → Unseen sub sub' → Unseen over over' →
      Unseen (.node l sub :: (above ++ over)) (.node l sub' :: over')

theorem WithoutHidden.unseen {xs ys : List (LTree LayerRec)} (h : WithoutHidden xs ys) : Unseen xs ys := by
  induction h with
  | nil => exact .nil
  | keep l sub sub' rest rest' _ _ ih1 ih2 => exact .keep l sub sub' rest rest' ih1 ih2
  | drop l sub above over over' h1 h2 h3 h4 _ ih => exact .drop l sub above over over' h1 h2 h3 h4 ih

theorem WithoutUnblended.unseen {xs ys : List (LTree LayerRec)} (h : WithoutUnblended xs ys)
    (hk : DocAll (fun l _ => l.folder = true → l.blendClippedElements = false → l.sdBlendMode ≠ ascii "pass") xs) : Unseen xs ys := by
  induction h with
  | nil => exact .nil
  | keep l sub sub' rest rest' _ _ ih1 ih2 =>
    obtain ⟨k1, k2, k3⟩ := hk.cons
    exact .keep l sub sub' rest rest' (ih1 k2) (ih2 k3)
  | drop l sub sub' above over over' h1 h2 h3 h4 _ _ ih1 ih2 =>
    obtain ⟨k1, k2, k3⟩ := hk.cons
    obtain ⟨k4, k5⟩ := DocAll.append k3
    exact .unblended l sub sub' above over over' h1 h2 (fun h => k1 h h2) h3 h4 (ih1 k2) (ih2 k5)

theorem Unseen.head {xs ys : List (LTree LayerRec)} (h : Unseen xs ys) : (∀ k ∈ xs.head?, k.isClipping = false) → ∀ k ∈ ys.head?, k.isClipping = false := by
  induction h with
  | nil => exact fun h => h
  | keep l sub sub' rest rest' _ _ _ _ =>
    intro h k hk
    cases hk
    exact h (.node l sub) rfl
  | drop l sub above over over' h1 h2 h3 h4 h5 ih => exact fun _ => ih h4
  | unblended l sub sub' above over over' h1 =>
    intro _ k hk
    cases hk
    exact h1

theorem Unseen.depth {xs ys : List (LTree LayerRec)} (h : Unseen xs ys) : depthAll ys ≤ depthAll xs := by
  induction h with
  | nil => exact Nat.le_refl _
  | keep l sub sub' rest rest' _ _ ih1 ih2 =>
    rw [depthAll, depthAll, LTree.depth, LTree.depth]
    omega
  | drop l sub above over over' h1 h2 h3 h4 h5 ih =>
    rw [depthAll, depthAll_append]
    omega
  | unblended l sub sub' above over over' h1 h2 h3 h4 h5 _ _ ih1 ih2 =>
    rw [depthAll, depthAll, depthAll_append, LTree.depth, LTree.depth]
    omega

/-- Clipping layers stay. -/
theorem Unseen.split : ∀ {above over ys : List (LTree LayerRec)}, (∀ k ∈ above, k.isClipping = true) → Unseen (above ++ over) ys →
    ∃ above' over', ys = above' ++ over' ∧ Unseen above above' ∧ Unseen over over' ∧ (∀ k ∈ above', k.isClipping = true) ∧ (above = [] ↔ above' = []) := by
  intro above
  induction above with
  | nil => intro over ys _ h; exact ⟨[], ys, rfl, .nil, h, by simp, Iff.rfl⟩
  | cons x xs ih =>
    intro over ys hc h
    rw [List.cons_append] at h
    generalize hz : xs ++ over = z at h
    cases h with
    | keep l sub sub' rest rest' h1 h2 =>
      subst hz
      obtain ⟨a', o', rfl, e2, e3, e4, -⟩ := ih (fun k hk => hc k (List.mem_cons_of_mem _ hk)) h2
      refine ⟨.node l sub' :: a', o', rfl, .keep l sub sub' xs a' h1 e2, e3, ?_, by simp⟩
      intro k hk
      rcases List.mem_cons.1 hk with rfl | hk
      · exact hc (.node l sub) List.mem_cons_self
      · exact e4 k hk
    | drop l sub above over over' h1 =>
      have := hc _ List.mem_cons_self
      exact absurd this (by rw [LTree.isClipping, h1]; decide)
    | unblended l sub sub' above over over' h1 =>
      have := hc _ List.mem_cons_self
      exact absurd this (by rw [LTree.isClipping, h1]; decide)

section
variable {P M : Type} {ops : PicOps P M} {dec : List UInt8 → Option (List UInt8)} {pic : Int → Option P} {mask : Int → Option M}

theorem paintLayer_hidden {a : CAttr} {p : Option P} {m : Option M} {kids clips : Stk P M} {forced : Bool} {o : Nat} {b : P} (h : a.visible = false ∨ o = 0) :
    paintLayer ops a p m kids clips forced o b = .ok (false, b) := by
  unfold paintLayer drawn
  rw [if_neg]
  rcases h with h | h <;> simp [h]

/-- The same layer with other contents and other clipped layers, painted. -/
theorem paintLayer_congr {a : CAttr} {p : Option P} {m : Option M} {kids kids' clips clips' : Stk P M} {forced : Bool} {o : Nat} {b : P}
    (hk : ∀ scale b, scale 0 = 0 → paint ops kids false scale b = paint ops kids' false scale b) (hkn : kids'.isNil = true → kids.isNil = true ∨ p = none)
    (hkn' : kids.isNil = true → kids'.isNil = true)
    (hc : ∀ b, paint ops clips true id b = paint ops clips' true id b) (hcn : clips.isNil = clips'.isNil) :
    paintLayer ops a p m kids clips forced o b = paintLayer ops a p m kids' clips' forced o b := by
  have own : ownPic ops a p m kids.isNil (paint ops kids false) o b = ownPic ops a p m kids'.isNil (paint ops kids' false) o b := by
    unfold ownPic
    cases h' : kids'.isNil with
    | true =>
      rcases hkn h' with h | h
      · rw [h, if_pos rfl, if_pos rfl]
      · cases hh : kids.isNil with
        | true => rfl
        | false =>
          have : kids' = .nil := by cases kids' with | nil => rfl | layer => cases h'
          subst this
          simp only [Bool.false_eq_true, if_false, if_true, hk _ _ (kidScale_zero a o)]
          rw [h]
          rfl
    | false =>
      have hh : kids.isNil = false := by
        cases hh : kids.isNil with
        | false => rfl
        | true => rw [hkn' hh] at h'; cases h'
      rw [hh]
      simp only [Bool.false_eq_true, if_false, hk _ _ (kidScale_zero a o)]
  unfold paintLayer layerPic
  rw [own, hcn]
  have : (paint ops clips true id) = paint ops clips' true id := funext hc
  rw [this]

/-- Layers clipped to a layer that is not blended with them leave no trace. -/
theorem paintLayer_unblended {a : CAttr} {p : Option P} {m : Option M} {kids clips clips' : Stk P M} {forced : Bool} {o : Nat} {b : P} (h : a.blendClippedElements = false)
    (hp : a.blendMode ≠ passThrough) : paintLayer ops a p m kids clips forced o b = paintLayer ops a p m kids clips' forced o b := by
  unfold paintLayer layerPic
  have e1 : clipPic ops a clips.isNil (paint ops clips true id) = clipPic ops a clips'.isNil (paint ops clips' true id) := by
    funext w
    cases w with
    | none => rfl
    | some w => simp only [clipPic, h, Bool.not_false, Bool.or_true, if_true]
  have e2 : placeOpt ops a clips.isNil o b = placeOpt ops a clips'.isNil o b := by
    funext w
    cases w with
    | none => rfl
    | some w => simp only [placeOpt, place, if_neg (fun h : _ ∧ _ => hp h.1)]
  rw [e1, e2]

/-- A document without layers that cannot be seen is painted like the document. -/
theorem paint_unseen : ∀ (t t' : Stk P M) (xs ys : List (LTree LayerRec)), IsStack dec pic mask xs t → IsStack dec pic mask ys t' → Unseen xs ys →
    (∀ π l kids, docAt xs π = some (.node l kids) → kids ≠ [] → pic l.seqID = none) →
    t'.ids.Sublist t.ids ∧ (t.isNil = true → t'.isNil = true) ∧
      ∀ forced scale b, scale 0 = 0 → paint ops t forced scale b = paint ops t' forced scale b := by
  intro t
  induction t with
  | nil =>
    intro t' xs ys h h' hw hb
    obtain rfl : xs = [] := h
    cases hw
    cases t' with
    | nil => exact ⟨List.Sublist.refl _, fun _ => rfl, fun _ _ _ _ => rfl⟩
    | layer =>
      obtain ⟨l, sub, above, over, e, -⟩ := h'
      cases e
  | layer a p m kids clips rest ihk ihc ihr =>
    intro t' xs ys h h' hw hb
    obtain ⟨l, sub, above, over, rfl, ha, hp, hm, hk, hc, hr, h1, h2, h3⟩ := h
    have hb' := DocAll.cons (Q := fun l kids => kids ≠ [] → pic l.seqID = none) hb
    obtain ⟨b1, b2, b3⟩ := hb'
    obtain ⟨b4, b5⟩ := DocAll.append b3
    generalize hz : above ++ over = z at hw
    cases hw with
    | keep l sub sub' rest0 rest' w1 w2 =>
      subst hz
      obtain ⟨above1, over1, rfl, w3, w4, w5, w6⟩ := w2.split h1
      cases t' with
      | nil => cases (show _ :: _ = [] from h')
      | layer a' p' m' kids' clips' rest1 =>
        obtain ⟨l', sub1, above', over', e, ha', hp', hm', hk', hc', hr', h1', h2', h3'⟩ := h'
        injection e with e1 e2
        injection e1 with e3 e4
        subst e3 e4
        have : above1 = above' ∧ over1 = over' := by
          cases hl : l.clipping with
          | true =>
            rw [h2' hl] at e2 ⊢
            rw [w6.1 (h2 hl)] at e2 ⊢
            exact ⟨rfl, e2⟩
          | false => exact run_unique _ _ _ _ e2 w5 h1' (w4.head (h3 hl)) (h3' hl)
        obtain ⟨rfl, rfl⟩ := this
        obtain ⟨k1, k2, k3⟩ := ihk kids' _ _ hk hk' w1 b2
        obtain ⟨c1, c2, c3⟩ := ihc clips' _ _ hc hc' w3 b4
        obtain ⟨r1, r2, r3⟩ := ihr rest1 _ _ hr hr' w4 b5
        have ea : a = a' := ha.eq.trans ha'.eq.symm
        subst ea
        subst hp hp' hm hm'
        refine ⟨?_, (by intro h; cases h), fun forced scale b hs => ?_⟩
        · simp only [Stk.ids]
          exact (k1.append (c1.append r1)).cons_cons _
        · rw [paint_layer, paint_layer, paintLayer_congr (kids' := kids') (clips' := clips') (fun scale b hs => k3 false scale b hs) ?_ k2 (fun b => c3 true id b rfl) ?_]
          · congr 1
            funext r
            rw [r3 forced scale r.2 hs]
          · intro hn
            cases kids with
            | nil => exact .inl rfl
            | layer => 
              right
              refine b1 ?_
              rintro rfl
              obtain ⟨_, _, _, _, e, _⟩ := hk
              cases e
          · cases clips with
            | nil =>
              obtain rfl : above = [] := hc
              rw [w6.1 rfl] at hc'
              cases clips' with
              | nil => rfl
              | layer => obtain ⟨_, _, _, _, e, _⟩ := hc'; cases e
            | layer =>
              cases clips' with
              | layer => rfl
              | nil =>
                obtain rfl : above1 = [] := hc'
                rw [w6.2 rfl] at hc
                obtain ⟨_, _, _, _, e, _⟩ := hc; cases e
    | drop l sub above0 over0 over1 w1 w2 w3 w4 w5 =>
      obtain ⟨rfl, rfl⟩ := run_unique _ _ _ _ hz h1 w3 (h3 w1) w4
      obtain ⟨r1, r2, r3⟩ := ihr t' _ _ hr h' w5 b5
      refine ⟨?_, (by intro h; cases h), fun forced scale b hs => ?_⟩
      · simp only [Stk.ids]
        refine .cons _ ?_
        exact (r1.trans (List.sublist_append_right _ _)).trans (List.sublist_append_right _ _)
      · rw [paint_layer, paintLayer_hidden (by
          rcases w2 with h | h
          · exact .inl (ha.visible.trans h)
          · right
            rw [ha.opacity, h]
            exact hs)]
        simp only [Res.ok_bind, Bool.false_or]
        rw [r3 forced scale b hs]
        cases paint ops t' forced scale b <;> rfl

    | unblended l sub sub' above0 over0 over1 w1 w2 wp w3 w4 ws w5 =>
      obtain ⟨rfl, rfl⟩ := run_unique _ _ _ _ hz h1 w3 (h3 w1) w4
      cases t' with
      | nil => cases (show _ :: _ = [] from h')
      | layer a' p' m' kids' clips' rest1 =>
        obtain ⟨l', sub1, above', over', e, ha', hp', hm', hk', hc', hr', h1', h2', h3'⟩ := h'
        injection e with e1 e2
        injection e1 with e3 e4
        subst e3 e4
        obtain ⟨rfl, rfl⟩ := run_unique [] _ _ _ e2 (by simp) h1' (w5.head w4) (h3' w1)
        obtain ⟨k1, k2, k3⟩ := ihk kids' _ _ hk hk' ws b2
        obtain ⟨r1, r2, r3⟩ := ihr rest1 _ _ hr hr' w5 b5
        have ea : a = a' := ha.eq.trans ha'.eq.symm
        subst ea
        subst hp hp' hm hm'
        cases clips' with
        | layer => obtain ⟨_, _, _, _, e, _⟩ := hc'; cases e
        | nil =>
        refine ⟨?_, (by intro h; cases h), fun forced scale b hs => ?_⟩
        · simp only [Stk.ids, List.nil_append]
          exact (k1.append (r1.trans (List.sublist_append_right _ _))).cons_cons _
        · have np : a.blendMode ≠ passThrough := by
            cases hfo : l.folder with
            | true => rw [ha.folderMode hfo]; exact wp hfo
            | false =>
              by_cases hpa : l.blendMode = ascii "pass"
              · rw [ha.noPass hfo hpa]; decide
              · rw [ha.layerMode hfo hpa]; exact hpa
          rw [paint_layer, paint_layer, paintLayer_unblended (clips' := .nil) (ha.blendClipped.trans w2) np,
            paintLayer_congr (kids' := kids') (clips' := .nil) (fun scale b hs => k3 false scale b hs) ?_ k2 (fun b => rfl) rfl]
          · congr 1
            funext r
            rw [r3 forced scale r.2 hs]
          · intro hn
            cases kids with
            | nil => exact .inl rfl
            | layer => 
              right
              refine b1 ?_
              rintro rfl
              obtain ⟨_, _, _, _, e, _⟩ := hk
              cases e

end
end Psd
