import Verif.Spec.Composed
import Verif.Props.Dissolve

/-!
# A folder shows what its contents look like
-/

namespace Psd

section
variable {i : Nat}

theorem ownPic_same {a : CAttr} {p : Option Tile} {m : Option (Nat → UInt8)} {kids : Stk Tile (Nat → UInt8)} {o : Nat} {b b' : Tile} (hb : (b i).Same (b' i)) {w w' : Option Tile}
    (e : ownPic tileOps a p m kids.isNil (paint tileOps kids false) o b = .ok w) (e' : ownPic tileOps a p m kids.isNil (paint tileOps kids false) o b' = .ok w') : SeenSame true i w w' := by
  unfold ownPic at e e'
  by_cases hl : kids.isNil = true
  · rw [if_pos hl] at e e'
    injection e with e
    injection e' with e'
    subst e e'
    cases p with
    | none => trivial
    | some p => exact applyMask_same rfl hb (.inl rfl)
  · rw [if_neg hl] at e e'
    obtain ⟨k, ek, e⟩ := Res.bind_eq_ok.1 e
    obtain ⟨k', ek', e'⟩ := Res.bind_eq_ok.1 e'
    injection e with e
    injection e' with e'
    subst e e'
    have hst : (kidStart tileOps a b i).Same (kidStart tileOps a b' i) := by
      unfold kidStart
      split
      · exact .inl (copy_same hb)
      · exact .refl _
    obtain ⟨g1, g2⟩ := paint_same (strict := true) _ _ (.refl _ _ _) (.inl rfl) _ _ _ _ k k' hst ek ek'
    unfold folderPic
    rw [← g2 rfl]
    cases k.1 with
    | true => exact applyMask_same rfl hb g1
    | false => trivial

/-- What a folder contains looks the same, painted on nothing. -/
def KidsAlike (i : Nat) (kids kids' : Stk Tile (Nat → UInt8)) : Prop :=
  ∀ (a : CAttr) (o : Nat) (r r' : Bool × Tile), a.blendMode ≠ passThrough → paint tileOps kids false (kidScale a o) tileOps.blank = .ok r →
    paint tileOps kids' false (kidScale a o) tileOps.blank = .ok r' → (r.2 i).Same (r'.2 i)

theorem ownPic_alike {a : CAttr} {m : Option (Nat → UInt8)} {kids kids' : Stk Tile (Nat → UInt8)} (hk : KidsAlike i kids kids') (hp : a.blendMode ≠ passThrough) {o : Nat} {b b' : Tile}
    (hb : (b i).Same (b' i)) {w w' : Option Tile} (e : ownPic tileOps a none m kids.isNil (paint tileOps kids false) o b = .ok w)
    (e' : ownPic tileOps a none m kids'.isNil (paint tileOps kids' false) o b' = .ok w') : SeenSame false i w w' := by
  have start : ∀ b, kidStart tileOps a b = tileOps.blank := fun b => by unfold kidStart; rw [if_neg hp]
  -- what a folder looks like, in terms of what painting its contents gives
  have key : ∀ {kids : Stk Tile (Nat → UInt8)} {b : Tile} {w : Option Tile}, ownPic tileOps a none m kids.isNil (paint tileOps kids false) o b = .ok w →
      ∃ k, paint tileOps kids false (kidScale a o) tileOps.blank = .ok k ∧ w = folderPic tileOps a m b k ∧ (k.1 = false → (k.2 i).a = 0) := by
    intro kids b w e
    unfold ownPic at e
    have idle : ∀ k, paint tileOps kids false (kidScale a o) tileOps.blank = .ok k → k.1 = false → (k.2 i).a = 0 := by
      rintro ⟨d, x⟩ ek hd
      simp only at hd
      subst hd
      rw [paint_idle _ _ _ _ _ ek]
      rfl
    by_cases hl : kids.isNil = true
    · rw [if_pos hl] at e
      injection e with e
      subst e
      cases kids with
      | nil => exact ⟨(false, tileOps.blank), rfl, rfl, fun _ => rfl⟩
      | layer => cases hl
    · rw [if_neg hl, start b] at e
      obtain ⟨k, ek, e⟩ := Res.bind_eq_ok.1 e
      injection e with e
      exact ⟨k, ek, e.symm, idle k ek⟩
  obtain ⟨k, ek, rfl, z⟩ := key e
  obtain ⟨k', ek', rfl, z'⟩ := key e'
  have g := hk a o k k' hp ek ek'
  unfold folderPic
  cases k1 : k.1 with
  | true =>
    cases k1' : k'.1 with
    | true => exact applyMask_same rfl hb g
    | false => exact ⟨rfl, applyMask_zero hp (g.symm.of_alpha (z' k1'))⟩
  | false =>
    cases k1' : k'.1 with
    | false => trivial
    | true => exact ⟨rfl, applyMask_zero hp (g.of_alpha (z k1))⟩

theorem clipPic_same {strict : Bool} {a : CAttr} {nc : Bool} {C C' : Tile → Res (Bool × Tile)} {w w' : Option Tile} (hw : SeenSame strict i w w')
    (hC : ∀ b b' c c', (b i).Same (b' i) → C b = .ok c → C' b' = .ok c' → (c.2 i).Same (c'.2 i)) {o o' : Option Tile} (e : clipPic tileOps a nc C w = .ok o)
    (e' : clipPic tileOps a nc C' w' = .ok o') : SeenSame strict i o o' := by
  cases w with
  | none =>
    injection e with e
    subst e
    cases w' with
    | none =>
      injection e' with e'
      subst e'
      trivial
    | some w' =>
      obtain ⟨z, rfl, hz⟩ := clipPic_zero hw.2 e'
      exact ⟨hw.1, hz⟩
  | some w =>
    cases w' with
    | none =>
      injection e' with e'
      subst e'
      obtain ⟨z, rfl, hz⟩ := clipPic_zero hw.2 e
      exact ⟨hw.1, hz⟩
    | some w' =>
      have hw : (w i).Same (w' i) := hw
      unfold clipPic at e e'
      by_cases hn : (nc || !a.blendClippedElements) = true
      · simp only [if_pos hn] at e e'
        injection e with e
        injection e' with e'
        subst e e'
        exact hw
      · simp only [if_neg hn] at e e'
        obtain ⟨c, ec, e⟩ := Res.bind_eq_ok.1 e
        obtain ⟨c', ec', e'⟩ := Res.bind_eq_ok.1 e'
        injection e with e
        injection e' with e'
        subst e e'
        have hw0 := hw
        rcases hw with hw | ⟨hw, hw'⟩
        · refine .inl (destIn_same (hC _ _ c c' ?_ ec ec') hw0)
          left
          simp only [tileOps]
          exact congrArg (fun x : Px => { x with a := 255 }) (copy_same (.inl hw))
        · exact .inl ((destIn_zero hw).trans (destIn_zero hw').symm)

theorem placeOpt_same {strict : Bool} {a : CAttr} {nc : Bool} {o : Nat} {b b' : Tile} (hb : (b i).Same (b' i)) {w w' : Option Tile} (hw : SeenSame strict i w w')
    (np : strict = false → a.blendMode ≠ passThrough) {r r' : Bool × Tile} (e : placeOpt tileOps a nc o b w = .ok r) (e' : placeOpt tileOps a nc o b' w' = .ok r') :
    (r.2 i).Same (r'.2 i) := by
  cases w with
  | none =>
    injection e with e
    subst e
    cases w' with
    | none =>
      injection e' with e'
      subst e'
      exact hb
    | some w' =>
      rw [placeOpt_zero (np hw.1) hw.2 e']
      exact hb
  | some w =>
    cases w' with
    | none =>
      injection e' with e'
      subst e'
      rw [placeOpt_zero (np hw.1) hw.2 e]
      exact hb
    | some w' =>
      have hw : (w i).Same (w' i) := hw
      obtain ⟨y, e9, e10⟩ := Res.bind_eq_ok.1 e
      obtain ⟨y', e9', e10'⟩ := Res.bind_eq_ok.1 e'
      injection e10 with e10
      injection e10' with e10'
      subst e10 e10'
      unfold place at e9 e9'
      split at e9
      · rename_i hpl
        rw [if_pos hpl] at e9'
        injection e9 with e9
        injection e9' with e9'
        subst e9 e9'
        exact .inl (copy_same hw)
      · rename_i hpl
        rw [if_neg hpl] at e9'
        exact draw_same e9 e9' hb hw

/-- The same layers, except for what some folders contain. -/
def StkKids (i : Nat) : Stk Tile (Nat → UInt8) → Stk Tile (Nat → UInt8) → Prop
  | .nil, .nil => True
  | .layer a p m kids clips rest, .layer a' p' m' kids' clips' rest' =>
    a = a' ∧ p = p' ∧ m = m' ∧ (kids = kids' ∨ a.blendMode ≠ passThrough ∧ p = none ∧ KidsAlike i kids kids') ∧ StkKids i clips clips' ∧ StkKids i rest rest'
  | _, _ => False

theorem StkKids.isNil {t t' : Stk Tile (Nat → UInt8)} (h : StkKids i t t') : t.isNil = t'.isNil := by
  cases t <;> cases t' <;> first | rfl | exact absurd h id

theorem paint_kids : ∀ (t t' : Stk Tile (Nat → UInt8)), StkKids i t t' → ∀ (forced : Bool) (scale : Nat → Nat) (b b' : Tile) (r r' : Bool × Tile), (b i).Same (b' i) →
    paint tileOps t forced scale b = .ok r → paint tileOps t' forced scale b' = .ok r' → (r.2 i).Same (r'.2 i) := by
  intro t
  induction t with
  | nil =>
    intro t' ht forced scale b b' r r' hb e e'
    cases t' with
    | nil =>
      injection e with e
      injection e' with e'
      rw [← e, ← e']
      exact hb
    | layer => exact absurd ht id
  | layer a p m kids clips rest ihk ihc ihr =>
    intro t' ht forced scale b b' r r' hb e e'
    cases t' with
    | nil => exact absurd ht id
    | layer a' p' m' kids' clips' rest' =>
      obtain ⟨rfl, rfl, rfl, hk, hc, hr⟩ := ht
      rw [paint_layer] at e e'
      obtain ⟨r1, e1, e2⟩ := Res.bind_eq_ok.1 e
      obtain ⟨r2, e3, e4⟩ := Res.bind_eq_ok.1 e2
      obtain ⟨r1', e1', e2'⟩ := Res.bind_eq_ok.1 e'
      obtain ⟨r2', e3', e4'⟩ := Res.bind_eq_ok.1 e2'
      injection e4 with e4
      injection e4' with e4'
      subst e4 e4'
      refine ihr rest' hr _ _ _ _ r2 r2' ?_ e3 e3'
      unfold paintLayer at e1 e1'
      by_cases hd : drawn a forced (scale a.opacity) = true
      swap
      · rw [if_neg hd] at e1 e1'
        injection e1 with e1
        injection e1' with e1'
        subst e1 e1'
        exact hb
      rw [if_pos hd] at e1 e1'
      obtain ⟨o, e5, e6⟩ := Res.bind_eq_ok.1 e1
      obtain ⟨o', e5', e6'⟩ := Res.bind_eq_ok.1 e1'
      obtain ⟨w, e7, e8⟩ := Res.bind_eq_ok.1 e5
      obtain ⟨w', e7', e8'⟩ := Res.bind_eq_ok.1 e5'
      rw [← hc.isNil] at e6' e8'
      have hC : ∀ (b b' : Tile) (c c' : Bool × Tile), (b i).Same (b' i) → paint tileOps clips true id b = .ok c → paint tileOps clips' true id b' = .ok c' → (c.2 i).Same (c'.2 i) :=
        fun b b' c c' h e e' => ihc clips' hc _ _ b b' c c' h e e'
      rcases hk with rfl | ⟨hp, rfl, hk⟩
      · exact placeOpt_same hb (clipPic_same (ownPic_same hb e7 e7') hC e8 e8') (fun h => by cases h) e6 e6'
      · exact placeOpt_same hb (clipPic_same (ownPic_alike hk hp hb e7 e7') hC e8 e8') (fun _ => hp) e6 e6'

end

/-! ### Documents -/

section
variable {i : Nat} {dec : List UInt8 → Option (List UInt8)} {pic : Int → Option Tile} {mask : Int → Option (Nat → UInt8)}

theorem looksAlike_kids {xs ys : List (LTree LayerRec)} (h : LooksAlike dec pic mask i xs ys) {t t' : Stk Tile (Nat → UInt8)} (ht : IsStack dec pic mask xs t) (ht' : IsStack dec pic mask ys t') :
    KidsAlike i t t' := by
  intro a o r r' hp e e'
  have hs : ∀ x ≤ 255, kidScale a o x = id x := by
    intro x hx
    unfold kidScale
    rw [if_neg hp]
    show x * (255 * 32897) / 2 ^ 23 = x
    omega
  rw [paint_scale hs false _ _ ht] at e
  rw [paint_scale hs false _ _ ht'] at e'
  exact h t t' r r' ht ht' e e'

/-- The same layers, except for what some folders contain. -/
inductive Refilled (dec : List UInt8 → Option (List UInt8)) (pic : Int → Option Tile) (mask : Int → Option (Nat → UInt8)) (i : Nat) : List (LTree LayerRec) → List (LTree LayerRec) → Prop
  | nil : Refilled dec pic mask i [] []
  | same (x : LTree LayerRec) (rest rest' : List (LTree LayerRec)) : Refilled dec pic mask i rest rest' → Refilled dec pic mask i (x :: rest) (x :: rest')
  | folder (f : LayerRec) (sub sub' rest rest' : List (LTree LayerRec)) : (f.folder = true → f.sdBlendMode ≠ ascii "pass") → pic f.seqID = none → LooksAlike dec pic mask i sub sub' →
      Refilled dec pic mask i rest rest' → Refilled dec pic mask i (.node f sub :: rest) (.node f sub' :: rest')

theorem Refilled.refl : ∀ xs, Refilled dec pic mask i xs xs
  | [] => .nil
  | x :: xs => .same x xs xs (Refilled.refl xs)

theorem Refilled.append {xs ys : List (LTree LayerRec)} (h : Refilled dec pic mask i xs ys) : ∀ below, Refilled dec pic mask i (below ++ xs) (below ++ ys)
  | [] => h
  | x :: below => .same x _ _ (Refilled.append h below)

theorem Refilled.head {xs ys : List (LTree LayerRec)} (h : Refilled dec pic mask i xs ys) (hx : ∀ k ∈ xs.head?, k.isClipping = false) : ∀ k ∈ ys.head?, k.isClipping = false := by
  intro k hk
  cases h with
  | nil => cases hk
  | same x => cases hk; exact hx _ rfl
  | folder f sub => cases hk; exact hx (.node f sub) rfl

theorem Refilled.split : ∀ {x y z : List (LTree LayerRec)}, (∀ k ∈ x, k.isClipping = true) → Refilled dec pic mask i (x ++ y) z →
    ∃ x' y', z = x' ++ y' ∧ (∀ k ∈ x', k.isClipping = true) ∧ Refilled dec pic mask i x x' ∧ Refilled dec pic mask i y y' := by
  intro x
  induction x with
  | nil => intro y z _ h; exact ⟨[], z, rfl, by simp, .nil, h⟩
  | cons a x ih =>
    intro y z hx h
    have h1 := hx a List.mem_cons_self
    have h2 : ∀ k ∈ x, k.isClipping = true := fun k hk => hx k (List.mem_cons_of_mem _ hk)
    generalize e : a :: x ++ y = w at h
    cases h with
    | nil => cases e
    | same l rest rest' g =>
      injection e with e1 e2
      subst e1 e2
      obtain ⟨x', y', rfl, k1, k2, k3⟩ := ih h2 g
      exact ⟨a :: x', y', rfl, by simpa using ⟨h1, k1⟩, .same a x x' k2, k3⟩
    | folder f sub sub' rest rest' g1 g2 g3 g4 =>
      injection e with e1 e2
      subst e1 e2
      obtain ⟨x', y', rfl, k1, k2, k3⟩ := ih h2 g4
      exact ⟨.node f sub' :: x', y', rfl, by simpa using ⟨h1, k1⟩, .folder f _ _ _ _ g1 g2 g3 k2, k3⟩

theorem stack_refilled : ∀ (t t' : Stk Tile (Nat → UInt8)) (xs ys : List (LTree LayerRec)), IsStack dec pic mask xs t → IsStack dec pic mask ys t' → Refilled dec pic mask i xs ys →
    StkKids i t t' := by
  intro t
  induction t with
  | nil =>
    intro t' xs ys h h' ha
    obtain rfl : xs = [] := h
    cases ha
    rw [h'.nil]
    trivial
  | layer a p m kids clips rest ihk ihc ihr =>
    intro t' xs ys h h' hal
    obtain ⟨l, sub, above, over, rfl, ha, rfl, rfl, hk, hc, hr, h1, h2, h3⟩ := h
    cases t' with
    | nil =>
      obtain rfl : ys = [] := h'
      generalize e : LTree.node l sub :: (above ++ over) = w at hal
      cases hal
      cases e
    | layer a' p' m' kids' clips' rest' =>
      obtain ⟨l', sub', above', over', rfl, ha', rfl, rfl, hk', hc', hr', h1', h2', h3'⟩ := h'
      have runs : l' = l → Refilled dec pic mask i (above ++ over) (above' ++ over') → Refilled dec pic mask i above above' ∧ Refilled dec pic mask i over over' := by
        rintro rfl hx
        cases hl : l'.clipping with
        | true =>
          rw [h2 hl, h2' hl] at hx ⊢
          exact ⟨.nil, hx⟩
        | false =>
          obtain ⟨x', y', e, k1, k2, k3⟩ := Refilled.split h1 hx
          obtain ⟨rfl, rfl⟩ := run_unique _ _ _ _ e h1' k1 (h3' hl) (k3.head (h3 hl))
          exact ⟨k2, k3⟩
      generalize e : LTree.node l sub :: (above ++ over) = w at hal
      generalize e' : LTree.node l' sub' :: (above' ++ over') = w' at hal
      cases hal with
      | nil => cases e
      | same x rest0 rest0' g =>
        injection e with e1 e2
        injection e' with e1' e2'
        subst e1 e2 e2'
        injection e1' with e3 e4
        subst e3 e4
        obtain ⟨k1, k2⟩ := runs rfl g
        exact ⟨by rw [ha.eq, ha'.eq], rfl, rfl, .inl (stack_unique _ _ _ hk hk'), ihc _ _ _ hc hc' k1, ihr _ _ _ hr hr' k2⟩
      | folder f sub0 sub0' rest0 rest0' g1 g2 g3 g4 =>
        injection e with e1 e2
        injection e' with e1' e2'
        injection e1 with e3 e4
        injection e1' with e3' e4'
        subst e2 e3 e4 e2' e3' e4'
        obtain ⟨k1, k2⟩ := runs rfl g4
        refine ⟨by rw [ha.eq, ha'.eq], rfl, rfl, .inr ⟨?_, g2, looksAlike_kids g3 hk hk'⟩, ihc _ _ _ hc hc' k1, ihr _ _ _ hr hr' k2⟩
        cases hl : l'.folder with
        | true => rw [ha.folderMode hl]; exact g1 hl
        | false =>
          by_cases hm : l'.blendMode = ascii "pass"
          · rw [ha.noPass hl hm]; decide
          · rw [ha.layerMode hl hm]; exact hm

theorem Refilled.looks {xs ys : List (LTree LayerRec)} (h : Refilled dec pic mask i xs ys) : LooksAlike dec pic mask i xs ys := fun t t' r r' ht ht' e e' =>
  paint_kids t t' (stack_refilled t t' xs ys ht ht' h) _ _ _ _ r r' (.refl _) e e'

theorem InFolder.looks {canvas : Int → Option (List (TPt × Tile))} {pt : TPt} {mask : Int → Option (Nat → UInt8)} {xs ys doc doc' : List (LTree LayerRec)}
    (h : InFolder canvas xs ys doc doc') (hx : LooksAlike dec (fun id => (canvas id).bind (·.lookup pt)) mask i xs ys) :
    LooksAlike dec (fun id => (canvas id).bind (·.lookup pt)) mask i doc doc' := by
  induction h with
  | whole => exact hx
  | inside below above f sub sub' h1 h2 _ ih => exact (Refilled.append (.folder f sub sub' above above h1 (by rw [h2]; rfl) ih (.refl _)) below).looks

end

end Psd
