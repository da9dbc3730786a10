import Verif.Spec.Alpha
import Verif.Lemmas.Alpha

/-!
# The transparency of a picture depends on nothing but transparencies
-/

namespace Psd

/-- The same attributes except for the blend mode and what is not seen: the name, and whether the folder is open. -/
def CAttr.Re (a a' : CAttr) : Prop := a' = { a with seqID := a'.seqID, name := a'.name, folderOpen := a'.folderOpen, blendMode := a'.blendMode } ∧ (a.blendMode = passThrough ↔ a'.blendMode = passThrough)

def StkRe {P M : Type} : Stk P M → Stk P M → Prop
  | .nil, .nil => True
  | .layer a p m k c r, .layer a' p' m' k' c' r' => a.Re a' ∧ p = p' ∧ m = m' ∧ StkRe k k' ∧ StkRe c c' ∧ StkRe r r'
  | _, _ => False

theorem StkRe.isNil {P M : Type} {t t' : Stk P M} (h : StkRe t t') : t.isNil = t'.isNil := by
  cases t <;> cases t' <;> first | rfl | exact absurd h (by simp [StkRe])

section
variable {a a' : CAttr} (ha : a.Re a')
include ha

theorem CAttr.Re.pass : (a.blendMode = passThrough) = (a'.blendMode = passThrough) := propext ha.2

theorem applyMask_re {P M : Type} (ops : PicOps P M) (m : Option M) (b buf : P) : applyMask ops a m a.blendMode b buf = applyMask ops a' m a'.blendMode b buf := by
  have h1 : a'.maskEnabled = a.maskEnabled := by rw [ha.1]
  have h2 : a'.maskDefaultColor = a.maskDefaultColor := by rw [ha.1]
  unfold applyMask
  simp only [h1, h2, ha.pass]

theorem ownPic_re {P M : Type} (ops : PicOps P M) {p : Option P} {m : Option M} {leaf : Bool} {K K' : (Nat → Nat) → P → Res (Bool × P)}
    (hK : ∀ sc b r r', K sc b = .ok r → K' sc b = .ok r' → r = r') {o : Nat} {b : P} {w w' : Option P} (e : ownPic ops a p m leaf K o b = .ok w) (e' : ownPic ops a' p m leaf K' o b = .ok w') : w = w' := by
  unfold ownPic at e e'
  cases leaf with
  | true =>
    simp only [if_true, Res.ok.injEq] at e e'
    rw [← e, ← e']
    cases p with
    | none => rfl
    | some p => simp only [leafPic, applyMask_re ha]
  | false =>
    simp only [Bool.false_eq_true, if_false] at e e'
    obtain ⟨r, k, e⟩ := Res.bind_eq_ok.1 e
    obtain ⟨r', k', e'⟩ := Res.bind_eq_ok.1 e'
    have h1 : kidScale a o = kidScale a' o := by funext x; simp only [kidScale, ha.pass]
    have h2 : kidStart ops a b = kidStart ops a' b := by simp only [kidStart, ha.pass]
    rw [h1, h2] at k
    have := hK _ _ _ _ k k'
    subst this
    simp only [Res.ok.injEq] at e e'
    rw [← e, ← e']
    simp only [folderPic, applyMask_re ha]

theorem clipPic_re {P M : Type} (ops : PicOps P M) {nc : Bool} {C C' : P → Res (Bool × P)} (hC : ∀ b r r', C b = .ok r → C' b = .ok r' → r = r') {w v v' : Option P}
    (e : clipPic ops a nc C w = .ok v) (e' : clipPic ops a' nc C' w = .ok v') : v = v' := by
  have h1 : a'.blendClippedElements = a.blendClippedElements := by rw [ha.1]
  cases w with
  | none =>
    simp only [clipPic, Res.ok.injEq] at e e'
    rw [← e, ← e']
  | some buf =>
    simp only [clipPic] at e e'
    rw [h1] at e'
    split at e
    · rename_i h
      rw [if_pos h] at e'
      rw [e] at e'
      injection e'
    · rename_i h
      rw [if_neg h] at e'
      obtain ⟨r, k, e⟩ := Res.bind_eq_ok.1 e
      obtain ⟨r', k', e'⟩ := Res.bind_eq_ok.1 e'
      have := hC _ _ _ k k'
      subst this
      rw [e] at e'
      injection e'

theorem alpha_draw_re {o : Nat} {m m' : List UInt8} {b x y y' : UInt8} (e : alphaOps.draw o m b x = .ok y) (e' : alphaOps.draw o m' b x = .ok y') : y = y' := by
  simp only [alphaOps] at e e'
  split at e
  · cases e
  · split at e'
    · cases e'
    · rw [e] at e'
      injection e'

theorem placeOpt_re {nc : Bool} {o : Nat} {b : UInt8} {w : Option UInt8} {r r' : Bool × UInt8} (e : placeOpt alphaOps a nc o b w = .ok r) (e' : placeOpt alphaOps a' nc o b w = .ok r') : r = r' := by
  have h1 : a'.blendClippedElements = a.blendClippedElements := by rw [ha.1]
  cases w with
  | none =>
    simp only [placeOpt, Res.ok.injEq] at e e'
    rw [← e, ← e']
  | some img =>
    simp only [placeOpt] at e e'
    obtain ⟨x, k, e⟩ := Res.bind_eq_ok.1 e
    obtain ⟨x', k', e'⟩ := Res.bind_eq_ok.1 e'
    have : x = x' := by
      unfold place at k k'
      rw [h1] at k'
      split at k
      · rename_i h
        rw [if_pos ⟨ha.2.1 h.1, h.2⟩, k] at k'
        injection k'
      · rename_i h
        rw [if_neg fun c => h ⟨ha.2.2 c.1, c.2⟩] at k'
        exact alpha_draw_re ha k k'
    subst this
    rw [e] at e'
    injection e'

end

theorem paint_re : ∀ (t t' : Stk UInt8 UInt8), StkRe t t' → ∀ (forced : Bool) (scale : Nat → Nat) (b : UInt8) (r r' : Bool × UInt8), paint alphaOps t forced scale b = .ok r →
    paint alphaOps t' forced scale b = .ok r' → r = r' := by
  intro t
  induction t with
  | nil =>
    intro t' h forced scale b r r' e e'
    cases t' with
    | layer => exact absurd h (by simp [StkRe])
    | nil =>
      rw [e] at e'
      injection e'
  | layer a p m kids clips rest ihk ihc ihr =>
    intro t' h forced scale b r r' e e'
    cases t' with
    | nil => exact absurd h (by simp [StkRe])
    | layer a' p' m' kids' clips' rest' =>
      obtain ⟨ha, rfl, rfl, hk, hc, hr⟩ := h
      rw [paint] at e e'
      have d1 : drawn a' forced (scale a'.opacity) = drawn a forced (scale a.opacity) := by
        have h1 : a'.visible = a.visible := by rw [ha.1]
        have h2 : a'.clipping = a.clipping := by rw [ha.1]
        have h3 : a'.opacity = a.opacity := by rw [ha.1]
        simp only [drawn, h1, h2, h3]
      have h3 : a'.opacity = a.opacity := by rw [ha.1]
      rw [d1, h3, ← hk.isNil, ← hc.isNil] at e'
      obtain ⟨x, k, e⟩ := Res.bind_eq_ok.1 e
      obtain ⟨x', k', e'⟩ := Res.bind_eq_ok.1 e'
      have : x = x' := by
        split at k
        · rename_i hd
          rw [if_pos hd] at k'
          obtain ⟨v, k1, k2⟩ := Res.bind_eq_ok.1 k
          obtain ⟨w, k3, k4⟩ := Res.bind_eq_ok.1 k1
          obtain ⟨v', k1', k2'⟩ := Res.bind_eq_ok.1 k'
          obtain ⟨w', k3', k4'⟩ := Res.bind_eq_ok.1 k1'
          have := ownPic_re ha alphaOps (fun sc b r r' => ihk _ hk _ sc b r r') k3 k3'
          subst this
          have := clipPic_re ha alphaOps (fun b r r' => ihc _ hc _ id b r r') k4 k4'
          subst this
          exact placeOpt_re ha k2 k2'
        · rename_i hd
          rw [if_neg hd] at k'
          rw [k] at k'
          injection k'
      subst this
      obtain ⟨y, k1, k2⟩ := Res.bind_eq_ok.1 e
      obtain ⟨y', k1', k2'⟩ := Res.bind_eq_ok.1 e'
      have := ihr _ hr _ _ _ _ _ k1 k1'
      subst this
      rw [k2] at k2'
      injection k2'

/-! ### Documents -/

theorem LayerRec.SameButMode.attr {l l' : LayerRec} (h : l.SameButMode l') (dec : List UInt8 → Option (List UInt8)) : (attrOf dec l).Re (attrOf dec l') := by
  obtain ⟨h1, h2⟩ := h
  have hf : l'.folder = l.folder := by rw [h1]; rfl
  refine ⟨by rw [h1]; rfl, ?_⟩
  simp only [attrOf, hf]
  cases hfo : l.folder with
  | true => exact h2 hfo
  | false =>
    simp only [Bool.false_eq_true, if_false, passThrough]
    constructor
    · intro h
      split at h
      · exact absurd h (by decide)
      · rename_i hn; exact absurd h hn
    · intro h
      split at h
      · exact absurd h (by decide)
      · rename_i hn; exact absurd h hn

theorem LayerRec.SameButMode.clipping {l l' : LayerRec} (h : l.SameButMode l') : l'.clipping = l.clipping := by rw [h.1]

theorem OtherModes.head {xs ys : List (LTree LayerRec)} (h : OtherModes xs ys) {v : Bool} (hx : ∀ k ∈ xs.head?, k.isClipping = v) : ∀ k ∈ ys.head?, k.isClipping = v := by
  cases h with
  | nil => exact fun k hk => by cases hk
  | cons l l' sub sub' rest rest' hl =>
    intro k hk
    simp only [List.head?_cons, Option.mem_def, Option.some.injEq] at hk
    subst hk
    have := hx _ rfl
    simp only [LTree.isClipping] at this ⊢
    rw [hl.clipping, this]

theorem OtherModes.split : ∀ {x y z : List (LTree LayerRec)}, OtherModes (x ++ y) z → ∃ x' y', z = x' ++ y' ∧ OtherModes x x' ∧ OtherModes y y'
  | [], y, z, h => ⟨[], z, rfl, .nil, h⟩
  | .node l sub :: x, y, _, .cons _ l' _ sub' _ rest' hl hs hr => by
    obtain ⟨x', y', rfl, h1, h2⟩ := OtherModes.split hr
    exact ⟨.node l' sub' :: x', y', rfl, .cons _ _ _ _ _ _ hl hs h1, h2⟩

theorem OtherModes.clipping {x y : List (LTree LayerRec)} (h : OtherModes x y) (hx : ∀ k ∈ x, k.isClipping = true) : ∀ k ∈ y, k.isClipping = true := by
  induction h with
  | nil => exact hx
  | cons l l' sub sub' rest rest' hl _ _ _ ih =>
    intro k hk
    rcases List.mem_cons.1 hk with rfl | hk
    · have := hx _ List.mem_cons_self
      simp only [LTree.isClipping] at this ⊢
      rw [hl.clipping, this]
    · exact ih (fun k hk => hx k (List.mem_cons_of_mem _ hk)) k hk

theorem stack_re {dec : List UInt8 → Option (List UInt8)} {P M Q : Type} {f : P → Q} {pic pic' : Int → Option P} {mask : Int → Option M} (hp : ∀ id, (pic id).map f = (pic' id).map f) {N : Type} (g : M → N) :
    ∀ (t t' : Stk P M) (xs ys : List (LTree LayerRec)), IsStack dec pic mask xs t → IsStack dec pic' mask ys t' → OtherModes xs ys → StkRe (t.through f g) (t'.through f g) := by
  intro t
  induction t with
  | nil =>
    intro t' xs ys h h' ho
    obtain rfl : xs = [] := h
    cases ho
    cases t' with
    | nil => trivial
    | layer =>
      obtain ⟨l, sub, above, over, e, -⟩ := h'
      cases e
  | layer a p m kids clips rest ihk ihc ihr =>
    intro t' xs ys h h' ho
    obtain ⟨l, sub, above, over, rfl, ha, rfl, rfl, hk, hc, hr, h1, h2, h3⟩ := h
    cases ho with
    | cons _ l' _ sub' _ rest0 hl hs hre =>
    obtain ⟨above0, over0, rfl, g1, g2⟩ := hre.split
    cases t' with
    | nil => cases (show _ :: _ = [] from h')
    | layer a' p' m' kids' clips' rest' =>
      obtain ⟨l2, sub2, above', over', e, ha', rfl, rfl, hk', hc', hr', h1', h2', h3'⟩ := h'
      injection e with e1 e2
      injection e1 with e3 e4
      subst e3 e4
      have : above0 = above' ∧ over0 = over' := by
        cases hcl : l.clipping with
        | true =>
          have ea := h2 hcl
          subst ea
          cases g1
          rw [h2' (by rw [hl.clipping, hcl])] at e2 ⊢
          exact ⟨rfl, e2⟩
        | false => exact run_unique _ _ _ _ e2 (g1.clipping h1) h1' (g2.head (h3 hcl)) (h3' (by rw [hl.clipping, hcl]))
      obtain ⟨rfl, rfl⟩ := this
      have hn : l'.seqID = l.seqID := by rw [hl.1]
      refine ⟨?_, ?_, ?_, ihk _ _ _ hk hk' hs, ihc _ _ _ hc hc' g1, ihr _ _ _ hr hr' g2⟩
      · rw [ha.eq, ha'.eq]
        exact hl.attr dec
      · rw [hn]
        exact hp _
      · rw [hn]

end Psd
