import Verif.Lemmas.Cover
import Verif.Lemmas.Masked
import Verif.Props.Cover

/-!
Documents with layers left out or moved, and layers that are transparent at a pixel.
-/

namespace Psd

/-! ### The same layers in other places -/

theorem docAt_rearrange {layers layers' : List (LTree LayerRec)} {g : Nat → Nat} (h : ∀ j x, layers'[j]? = some x → layers[g j]? = some x) {j : Nat} {π : List Nat} {x : LTree LayerRec}
    (e : docAt layers' (j :: π) = some x) : docAt layers (g j :: π) = some x := by
  simp only [docAt] at e ⊢
  cases hj : layers'[j]? with
  | none => rw [hj] at e; cases e
  | some k =>
    rw [hj] at e
    rw [h j k hj]
    exact e

theorem DocAll.rearrange {Q : LayerRec → List (LTree LayerRec) → Prop} {layers layers' : List (LTree LayerRec)} {g : Nat → Nat} (h : ∀ j x, layers'[j]? = some x → layers[g j]? = some x)
    (hq : DocAll Q layers) : DocAll Q layers' := by
  intro π l kids e
  cases π with
  | nil => cases e
  | cons j π => exact hq _ l kids (docAt_rearrange h e)

theorem UniqueDoc.rearrange {layers layers' : List (LTree LayerRec)} {g : Nat → Nat} (h : ∀ j x, layers'[j]? = some x → layers[g j]? = some x)
    (hg : ∀ j k, g j = g k → j = k) (hu : UniqueDoc layers) : UniqueDoc layers' := by
  intro π π' l l' kids kids' e e' hl
  cases π with
  | nil => cases e
  | cons j π =>
    cases π' with
    | nil => cases e'
    | cons j' π' =>
      have := hu _ _ l l' kids kids' (docAt_rearrange h e) (docAt_rearrange h e') hl
      injection this with h1 h2
      rw [hg _ _ h1, h2]

/-- Where layers are found before those in the middle were left out. -/
def unskip (x y j : Nat) : Nat := if j < x then j else j + y

theorem unskip_get {xs ys zs : List (LTree LayerRec)} (j : Nat) (t : LTree LayerRec) (h : (xs ++ zs)[j]? = some t) : (xs ++ (ys ++ zs))[unskip xs.length ys.length j]? = some t := by
  unfold unskip
  split
  · rename_i hj
    rw [List.getElem?_append_left hj] at h ⊢
    exact h
  · rename_i hj
    rw [List.getElem?_append_right (by omega)] at h
    rw [List.getElem?_append_right (by omega), List.getElem?_append_right (by omega), show j + ys.length - xs.length - ys.length = j - xs.length by omega]
    exact h

theorem unskip_inj (x y j k : Nat) (h : unskip x y j = unskip x y k) : j = k := by
  unfold unskip at h
  split at h <;> split at h <;> omega

/-- Where layers are found before two runs of them were exchanged. -/
def unswap (x y z j : Nat) : Nat := if j < x then j else if j < x + z then j + y else if j < x + z + y then j - z else j

theorem unswap_get {xs ys zs ws : List (LTree LayerRec)} (j : Nat) (t : LTree LayerRec) (h : (xs ++ (zs ++ (ys ++ ws)))[j]? = some t) :
    (xs ++ (ys ++ (zs ++ ws)))[unswap xs.length ys.length zs.length j]? = some t := by
  unfold unswap
  split
  · rename_i hj
    rw [List.getElem?_append_left hj] at h ⊢
    exact h
  · rename_i hj
    rw [List.getElem?_append_right (by omega)] at h
    split
    · rename_i h2
      rw [List.getElem?_append_left (by omega)] at h
      rw [List.getElem?_append_right (by omega), List.getElem?_append_right (by omega), List.getElem?_append_left (by omega),
        show j + ys.length - xs.length - ys.length = j - xs.length by omega]
      exact h
    · rename_i h2
      rw [List.getElem?_append_right (by omega)] at h
      split
      · rename_i h3
        rw [List.getElem?_append_left (by omega)] at h
        rw [List.getElem?_append_right (by omega), List.getElem?_append_left (by omega), show j - zs.length - xs.length = j - xs.length - zs.length by omega]
        exact h
      · rename_i h3
        rw [List.getElem?_append_right (by omega)] at h
        rw [List.getElem?_append_right (by omega), List.getElem?_append_right (by omega), List.getElem?_append_right (by omega),
          show j - xs.length - ys.length - zs.length = j - xs.length - zs.length - ys.length by omega]
        exact h

theorem unswap_inj (x y z j k : Nat) (h : unswap x y z j = unswap x y z k) : j = k := by
  unfold unswap at h
  by_cases h1 : j < x <;> by_cases h2 : j < x + z <;> by_cases h3 : j < x + z + y <;> by_cases h4 : k < x <;> by_cases h5 : k < x + z <;> by_cases h6 : k < x + z + y <;>
    simp only [h1, h2, h3, h4, h5, h6, if_true, if_false] at h <;> omega

/-! ### Painting at a pixel -/

/-- What a layer that is not pass-through does to a pixel: nothing, or its picture is drawn there. -/
theorem paintLayer_px {a : CAttr} {p : Option Tile} {m : Option (Nat → UInt8)} {kids clips : Stk Tile (Nat → UInt8)} {forced : Bool} {o i : Nat} (hm : a.blendMode ≠ passThrough)
    {b : Tile} {r : Bool × Tile} (e : paintLayer tileOps a p m kids clips forced o b = .ok r) :
    r.2 = b ∨ ∃ md img, blendMode a.blendMode = some md ∧ layerPic tileOps a p m kids clips o b = .ok (some img) ∧
      drawNN md (UInt8.ofNat o).toUInt32 (img i) (b i) = .ok (r.2 i) := by
  unfold paintLayer at e
  split at e
  · obtain ⟨w, e1, e2⟩ := Res.bind_eq_ok.1 e
    cases w with
    | none =>
      injection e2 with e2
      subst e2
      exact .inl rfl
    | some img =>
      obtain ⟨y, e3, e4⟩ := Res.bind_eq_ok.1 e2
      injection e4 with e4
      subst e4
      unfold place at e3
      rw [if_neg (fun h => hm h.1)] at e3
      obtain ⟨md, e5, e6⟩ := draw_px e3 i
      exact .inr ⟨md, img, e5, e1, e6⟩
  · injection e with e
    subst e
    exact .inl rfl

/-- None of the layers, other than clipping ones, has anything at pixel `i`, and none is pass-through. -/
def Stk.clear (i : Nat) : Stk Tile (Nat → UInt8) → Prop
  | .nil => True
  | .layer a p _ kids _ rest => (a.clipping = false → a.blendMode ≠ passThrough ∧ (∀ x, p = some x → (x i).a = 0) ∧ kids.clear i) ∧ rest.clear i

/-- Such layers leave the pixel alone. -/
theorem paint_clear {i : Nat} : ∀ (t : Stk Tile (Nat → UInt8)), t.clear i → ∀ (scale : Nat → Nat) (b : Tile) (r : Bool × Tile), paint tileOps t false scale b = .ok r → r.2 i = b i := by
  intro t
  induction t with
  | nil =>
    intro _ scale b r e
    injection e with e
    subst e
    rfl
  | layer a p m kids clips rest ihk _ ihr =>
    intro h scale b r e
    rw [paint_layer] at e
    obtain ⟨r1, e1, e2⟩ := Res.bind_eq_ok.1 e
    obtain ⟨r2, e3, e4⟩ := Res.bind_eq_ok.1 e2
    injection e4 with e4
    subst e4
    refine (ihr h.2 _ _ _ e3).trans ?_
    cases hc : a.clipping with
    | true =>
      unfold paintLayer drawn at e1
      rw [if_neg (by simp [hc])] at e1
      injection e1 with e1
      subst e1
      rfl
    | false =>
      obtain ⟨h1, h2, h3⟩ := h.1 hc
      rcases paintLayer_px (i := i) h1 e1 with e5 | ⟨md, img, -, e5, e6⟩
      · rw [e5]
      · have hz : (img i).a = 0 := by
          unfold layerPic at e5
          obtain ⟨w, e7, e8⟩ := Res.bind_eq_ok.1 e5
          refine clipPic_sight (i := i) ?_ e8 img rfl
          intro x hx
          subst hx
          unfold ownPic at e7
          split at e7
          · injection e7 with e7
            cases p with
            | none => cases e7
            | some x' =>
              injection e7 with e7
              subst e7
              exact applyMask_zero h1 (by rw [copy_alpha]; exact h2 x' rfl)
          · obtain ⟨rk, e9, e10⟩ := Res.bind_eq_ok.1 e7
            injection e10 with e10
            unfold folderPic at e10
            split at e10
            · injection e10 with e10
              subst e10
              refine applyMask_zero h1 ?_
              rw [ihk h3 _ _ _ e9]
              unfold kidStart
              rw [if_neg h1]
              rfl
            · cases e10
        have := C41_transparent_nrgba md (UInt8.ofNat (scale a.opacity)) (img i) (b i) (.inl hz)
        rw [this] at e6
        injection e6 with e6
        exact e6.symm

theorem stack_clear {dec : List UInt8 → Option (List UInt8)} {pic : Int → Option Tile} {mask : Int → Option (Nat → UInt8)} {i : Nat} : ∀ (t : Stk Tile (Nat → UInt8)) (layers : List (LTree LayerRec)),
    IsStack dec pic mask layers t → NoPassThrough layers → DocAll (fun l _ => l.clipping = false → ∀ x, pic l.seqID = some x → (x i).a = 0) layers → t.clear i := by
  intro t
  induction t with
  | nil => intros; trivial
  | layer a p m kids clips rest ihk _ ihr =>
    intro layers ht hn hq
    have hnp := (stack_noPass _ layers ht hn).1
    obtain ⟨l, sub, above, over, rfl, ha, rfl, -, hk, -, hr, -⟩ := ht
    obtain ⟨q1, q2, q3⟩ := DocAll.cons hq
    obtain ⟨-, n2, n3⟩ := DocAll.cons (Q := fun l _ => l.folder = true → l.sdBlendMode ≠ ascii "pass") hn
    exact ⟨fun hc => ⟨hnp, q1 (ha.clipping.symm.trans hc), ihk _ hk n2 q2⟩, ihr _ hr (DocAll.append n3).2 (DocAll.append q3).2⟩

end Psd
