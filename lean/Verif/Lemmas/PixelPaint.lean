import Verif.Spec.Picture
import Verif.Spec.PixelPaint
import Verif.Lemmas.Basic

/-!
# Painting tiles is painting their pixels
-/

namespace Psd

section
variable {P M Q N : Type}

/-- The same layers, seen through `f` and `g`. -/
def Stk.through (f : P → Q) (g : M → N) : Stk P M → Stk Q N
  | .nil => .nil
  | .layer a p m kids clips rest => .layer a (p.map f) (m.map g) (kids.through f g) (clips.through f g) (rest.through f g)

theorem Stk.through_isNil (f : P → Q) (g : M → N) (t : Stk P M) : (t.through f g).isNil = t.isNil := by cases t <;> rfl

/-- `f` and `g` take the operations `o` to the operations `o'`. -/
structure OpsHom (o : PicOps P M) (o' : PicOps Q N) (f : P → Q) (g : M → N) : Prop where
  blank : f o.blank = o'.blank
  copy : ∀ p, f (o.copy p) = o'.copy (f p)
  draw : ∀ k m b p r, o.draw k m b p = .ok r → o'.draw k m (f b) (f p) = .ok (f r)
  destIn : ∀ b p, f (o.destIn b p) = o'.destIn (f b) (f p)
  destOver : ∀ b p, f (o.destOver b p) = o'.destOver (f b) (f p)
  maskIn : ∀ b m, f (o.maskIn b m) = o'.maskIn (f b) (g m)
  maskOut : ∀ b m, f (o.maskOut b m) = o'.maskOut (f b) (g m)
  clear : ∀ b, f (o.clear b) = o'.clear (f b)
  removeAlpha : ∀ b, f (o.removeAlpha b) = o'.removeAlpha (f b)

variable {o : PicOps P M} {o' : PicOps Q N} {f : P → Q} {g : M → N}

theorem applyMask_hom (h : OpsHom o o' f g) (a : CAttr) (m : Option M) (mode : List UInt8) (b buf : P) :
    f (applyMask o a m mode b buf) = applyMask o' a (m.map g) mode (f b) (f buf) := by
  unfold applyMask
  cases m with
  | none =>
    simp only [Option.map_none]
    split
    · split <;> split <;> simp only [h.destOver, h.clear]
    · rfl
  | some m =>
    simp only [Option.map_some]
    split
    · split <;> split <;> simp only [h.destOver, h.maskIn, h.maskOut]
    · rfl

theorem leafPic_hom (h : OpsHom o o' f g) (a : CAttr) (m : Option M) (b : P) (p : Option P) :
    (leafPic o a m b p).map f = leafPic o' a (m.map g) (f b) (p.map f) := by
  cases p with
  | none => rfl
  | some p => simp only [leafPic, Option.map_some, applyMask_hom h, h.copy]

theorem paint_hom (h : OpsHom o o' f g) : ∀ (t : Stk P M) (forced : Bool) (scale : Nat → Nat) (b : P) (r : Bool × P),
    paint o t forced scale b = .ok r → paint o' (t.through f g) forced scale (f b) = .ok (r.1, f r.2) := by
  intro t
  induction t with
  | nil =>
    intro forced scale b r e
    cases e
    rfl
  | layer a pic mask kids clips rest ihk ihc ihr =>
    intro forced scale b r e
    rw [paint_layer] at e
    obtain ⟨r1, e1, e⟩ := Res.bind_eq_ok.1 e
    obtain ⟨r2, e2, e⟩ := Res.bind_eq_ok.1 e
    cases e
    have k1 : paintLayer o' a (pic.map f) (mask.map g) (kids.through f g) (clips.through f g) forced (scale a.opacity) (f b) = .ok (r1.1, f r1.2) := by
      unfold paintLayer at e1 ⊢
      split
      case isFalse hd =>
        rw [if_neg hd] at e1
        cases e1
        rfl
      case isTrue hd =>
        rw [if_pos hd] at e1
        obtain ⟨q, e3, e4⟩ := Res.bind_eq_ok.1 e1
        unfold layerPic at e3
        obtain ⟨q0, e5, e6⟩ := Res.bind_eq_ok.1 e3
        have k2 : ownPic o' a (pic.map f) (mask.map g) (kids.through f g).isNil (paint o' (kids.through f g) false) (scale a.opacity) (f b) = .ok (q0.map f) := by
          unfold ownPic at e5 ⊢
          rw [Stk.through_isNil]
          split
          case isTrue hk =>
            rw [if_pos hk] at e5
            cases e5
            rw [leafPic_hom h]
          case isFalse hk =>
            rw [if_neg hk] at e5
            obtain ⟨r3, e7, e8⟩ := Res.bind_eq_ok.1 e5
            cases e8
            have := ihk _ _ _ _ e7
            have hst : f (kidStart o a b) = kidStart o' a (f b) := by
              unfold kidStart
              split
              · exact h.copy b
              · exact h.blank
            rw [← hst, this]
            simp only [Res.ok_bind, folderPic]
            split
            · simp only [Option.map_some, applyMask_hom h]
            · rfl
        have k3 : clipPic o' a (clips.through f g).isNil (paint o' (clips.through f g) true id) (q0.map f) = .ok (q.map f) := by
          rw [Stk.through_isNil]
          cases q0 with
          | none => cases e6; rfl
          | some buf =>
            simp only [clipPic, Option.map_some] at e6 ⊢
            split
            case isTrue hk =>
              rw [if_pos hk] at e6
              cases e6
              rfl
            case isFalse hk =>
              rw [if_neg hk] at e6
              obtain ⟨r3, e7, e8⟩ := Res.bind_eq_ok.1 e6
              cases e8
              have := ihc _ _ _ _ e7
              rw [← h.copy, ← h.removeAlpha, this]
              simp only [Res.ok_bind, Option.map_some, h.destIn]
        unfold layerPic
        rw [k2, Res.ok_bind, k3, Res.ok_bind, Stk.through_isNil]
        cases q with
        | none => cases e4; rfl
        | some img =>
          simp only [placeOpt, Option.map_some] at e4 ⊢
          obtain ⟨b', e7, e8⟩ := Res.bind_eq_ok.1 e4
          cases e8
          have : place o' a clips.isNil (scale a.opacity) (f b) (f img) = .ok (f b') := by
            unfold place at e7 ⊢
            split
            case isTrue hk =>
              rw [if_pos hk] at e7
              cases e7
              rw [h.copy]
            case isFalse hk =>
              rw [if_neg hk] at e7
              exact h.draw _ _ _ _ _ e7
          rw [this]
          rfl
    show paint o' (.layer a (pic.map f) (mask.map g) (kids.through f g) (clips.through f g) (rest.through f g)) forced scale (f b) = _
    rw [paint_layer, k1, Res.ok_bind, ihr _ _ _ _ e2]
    rfl

theorem IsStack.through {dec : List UInt8 → Option (List UInt8)} {pic : Int → Option P} {mask : Int → Option M} (f : P → Q) (g : M → N) :
    ∀ (t : Stk P M) (layers : List (LTree LayerRec)), IsStack dec pic mask layers t →
    IsStack dec (fun id => (pic id).map f) (fun id => (mask id).map g) layers (t.through f g) := by
  intro t
  induction t with
  | nil => intro layers h; exact h
  | layer a p m kids clips rest ihk ihc ihr =>
    rintro layers ⟨l, sub, above, over, h1, h2, rfl, rfl, h5, h6, h7, h8⟩
    exact ⟨l, sub, above, over, h1, h2, rfl, rfl, ihk _ h5, ihc _ h6, ihr _ h7, h8⟩

end

/-- The pixel `i` of what is done to tiles is what is done to their pixels `i`. -/
theorem tile_px (i : Nat) : OpsHom tileOps pxOps (fun t => t i) (fun m => m i) := by
  refine ⟨rfl, fun _ => rfl, fun k m b p r h => ?_, fun _ _ => rfl, fun _ _ => rfl, fun _ _ => rfl, fun _ _ => rfl, fun _ => rfl, fun _ => rfl⟩
  simp only [tileOps] at h
  simp only [pxOps]
  split at h
  · cases h
  · rename_i hm
    cases h
    rw [hm]

end Psd
