import Verif.Lemmas.Covered
import Verif.Lemmas.Rearrange
import Verif.Props.Composed
import Verif.Spec.AnyFolder

/-!
# Layers exchanged in folders of any kind
-/

namespace Psd

section
variable {P M : Type} {ops : PicOps P M}

theorem layerPic_flag {a : CAttr} {p : Option P} {m : Option M} {kids clips : Stk P M} {o : Nat} {b b' : P} {w w' : Option P}
    (hk : ∀ (scale : Nat → Nat) (b b' : P) (r r' : Bool × P), paint ops kids false scale b = .ok r → paint ops kids false scale b' = .ok r' → r.1 = r'.1)
    (e : layerPic ops a p m kids clips o b = .ok w) (e' : layerPic ops a p m kids clips o b' = .ok w') : w.isSome = w'.isSome := by
  have clip : ∀ {v w : Option P}, clipPic ops a clips.isNil (paint ops clips true id) v = .ok w → w.isSome = v.isSome := by
    intro v w e
    cases v with
    | none =>
      injection e with e
      rw [← e]
    | some v =>
      simp only [clipPic] at e
      split at e
      · injection e with e
        rw [← e]
      · obtain ⟨c, -, e⟩ := Res.bind_eq_ok.1 e
        injection e with e
        rw [← e]
        rfl
  obtain ⟨v, e1, e2⟩ := Res.bind_eq_ok.1 e
  obtain ⟨v', e1', e2'⟩ := Res.bind_eq_ok.1 e'
  rw [clip e2, clip e2']
  unfold ownPic at e1 e1'
  split at e1
  · injection e1 with e1
    rename_i hl
    rw [if_pos hl] at e1'
    injection e1' with e1'
    rw [← e1, ← e1']
    cases p <;> rfl
  · rename_i hl
    rw [if_neg hl] at e1'
    obtain ⟨k, ek, e1⟩ := Res.bind_eq_ok.1 e1
    obtain ⟨k', ek', e1'⟩ := Res.bind_eq_ok.1 e1'
    injection e1 with e1
    injection e1' with e1'
    rw [← e1, ← e1']
    unfold folderPic
    rw [hk _ _ _ k k' ek ek']
    cases k'.1 <;> rfl

theorem paintLayer_flag {a : CAttr} {p : Option P} {m : Option M} {kids clips : Stk P M} {forced : Bool} {o : Nat} {b b' : P} {r r' : Bool × P}
    (hk : ∀ (scale : Nat → Nat) (b b' : P) (r r' : Bool × P), paint ops kids false scale b = .ok r → paint ops kids false scale b' = .ok r' → r.1 = r'.1)
    (e : paintLayer ops a p m kids clips forced o b = .ok r) (e' : paintLayer ops a p m kids clips forced o b' = .ok r') : r.1 = r'.1 := by
  have put : ∀ {b : P} {w : Option P} {r : Bool × P}, placeOpt ops a clips.isNil o b w = .ok r → r.1 = w.isSome := by
    intro b w r e
    cases w with
    | none =>
      injection e with e
      rw [← e]
      rfl
    | some w =>
      obtain ⟨y, -, e⟩ := Res.bind_eq_ok.1 e
      injection e with e
      rw [← e]
      rfl
  unfold paintLayer at e e'
  split at e
  · rename_i hd
    rw [if_pos hd] at e'
    obtain ⟨w, e1, e2⟩ := Res.bind_eq_ok.1 e
    obtain ⟨w', e1', e2'⟩ := Res.bind_eq_ok.1 e'
    rw [put e2, put e2', layerPic_flag hk e1 e1']
  · rename_i hd
    rw [if_neg hd] at e'
    injection e with e
    injection e' with e'
    rw [← e, ← e']

/-- Whether anything is painted does not depend on what is below. -/
theorem paint_flag : ∀ (t : Stk P M) (forced : Bool) (scale : Nat → Nat) (b b' : P) (r r' : Bool × P), paint ops t forced scale b = .ok r → paint ops t forced scale b' = .ok r' → r.1 = r'.1 := by
  intro t
  induction t with
  | nil =>
    intro forced scale b b' r r' e e'
    injection e with e
    injection e' with e'
    rw [← e, ← e']
  | layer a p m kids clips rest ihk ihc ihr =>
    intro forced scale b b' r r' e e'
    rw [paint_layer] at e e'
    obtain ⟨r1, e1, e2⟩ := Res.bind_eq_ok.1 e
    obtain ⟨r1', e1', e2'⟩ := Res.bind_eq_ok.1 e'
    obtain ⟨r2, e3, e4⟩ := Res.bind_eq_ok.1 e2
    obtain ⟨r2', e3', e4'⟩ := Res.bind_eq_ok.1 e2'
    injection e4 with e4
    injection e4' with e4'
    subst e4 e4'
    show (r1.1 || r2.1) = (r1'.1 || r2'.1)
    rw [paintLayer_flag (fun scale b b' r r' => ihk false scale b b' r r') e1 e1', ihr _ _ _ _ r2 r2' e3 e3']

end

section
variable {dec : List UInt8 → Option (List UInt8)} {pic : Int → Option Tile} {mask : Int → Option (Nat → UInt8)} {i : Nat}

/-- The layers give the same pixel on backdrops that look the same, whatever the opacity of what they are in, and both sets of layers show something or neither does. -/
def AlikeOn (dec : List UInt8 → Option (List UInt8)) (pic : Int → Option Tile) (mask : Int → Option (Nat → UInt8)) (i : Nat) (xs ys : List (LTree LayerRec)) : Prop :=
  ∀ t t', IsStack dec pic mask xs t → IsStack dec pic mask ys t' → ∀ (scale : Nat → Nat) (b b' : Tile) (r r' : Bool × Tile), (b i).Same (b' i) → paint tileOps t false scale b = .ok r →
    paint tileOps t' false scale b' = .ok r' → (r.2 i).Same (r'.2 i) ∧ r.1 = r'.1

theorem AlikeOn.looks {xs ys : List (LTree LayerRec)} (h : AlikeOn dec pic mask i xs ys) : LooksAlike dec pic mask i xs ys :=
  fun t t' r r' ht ht' e e' => (h t t' ht ht' id _ _ r r' (.refl _) e e').1

/-- In folders of any kind. -/
theorem InAnyFolder.alike {xs ys doc doc' : List (LTree LayerRec)} (h : InAnyFolder xs ys doc doc') (hn : xs ≠ [] ∧ ys ≠ []) (hx : AlikeOn dec pic mask i xs ys) :
    (doc ≠ [] ∧ doc' ≠ []) ∧ AlikeOn dec pic mask i doc doc' := by
  induction h with
  | whole => exact ⟨hn, hx⟩
  | inside below above f sub sub' hcl _ ih =>
    refine ⟨by simp, ?_⟩
    obtain ⟨hsub, ih⟩ := ih
    intro t t' ht ht' scale b b' r r' hbb e e'
    obtain ⟨tb, ty, g1, g2, g3⟩ := stack_append (ops := tileOps) t _ _ ht (by intro k hk; cases hk; exact hcl)
    obtain ⟨tb', ty', g1', g2', g3'⟩ := stack_append (ops := tileOps) t' _ _ ht' (by intro k hk; cases hk; exact hcl)
    obtain rfl := stack_unique _ _ _ g1 g1'
    rw [g3] at e
    rw [g3'] at e'
    obtain ⟨rb, e1, e⟩ := Res.bind_eq_ok.1 e
    obtain ⟨ry, e2, e⟩ := Res.bind_eq_ok.1 e
    obtain ⟨rb', e1', e'⟩ := Res.bind_eq_ok.1 e'
    obtain ⟨ry', e2', e'⟩ := Res.bind_eq_ok.1 e'
    injection e with e
    injection e' with e'
    subst e e'
    obtain ⟨j1, j2⟩ := paint_same (strict := true) tb tb (.refl _ _ _) (.inl rfl) _ _ _ _ rb rb' hbb e1 e1'
    suffices key : (ry.2 i).Same (ry'.2 i) ∧ ry.1 = ry'.1 from ⟨key.1, by rw [j2 rfl, key.2]⟩
    clear g3 g3' e1 e1' ht ht' g1 g1' j2 hbb
    cases ty with
    | nil => cases (show _ :: _ = [] from g2)
    | layer a p m kids clips rest =>
    cases ty' with
    | nil => cases (show _ :: _ = [] from g2')
    | layer a' p' m' kids' clips' rest' =>
      obtain ⟨l0, sub0, above0, over, e3, ha, rfl, rfl, hk, hc, hr, n1, n2, n3⟩ := g2
      obtain ⟨l0', sub0', above0', over', e3', ha', rfl, rfl, hk', hc', hr', n1', n2', n3'⟩ := g2'
      injection e3 with e3 e4
      injection e3 with e5 e6
      subst e5 e6
      injection e3' with e3' e4'
      injection e3' with e5 e6
      subst e5 e6
      obtain ⟨rfl, rfl⟩ := run_unique above0 over above0' over' (e4.symm.trans e4') n1 n1' (n3 hcl) (n3' hcl)
      obtain rfl := stack_unique _ _ _ hc hc'
      obtain rfl := stack_unique _ _ _ hr hr'
      obtain rfl : a = a' := ha.eq.trans ha'.eq.symm
      have hn : kids.isNil = false := by
        cases kids with
        | nil => exact absurd hk hsub.1
        | layer => rfl
      have hn' : kids'.isNil = false := by
        cases kids' with
        | nil => exact absurd hk' hsub.2
        | layer => rfl
      rw [paint_layer] at e2 e2'
      obtain ⟨r1, e1, e2⟩ := Res.bind_eq_ok.1 e2
      obtain ⟨r1', e1', e2'⟩ := Res.bind_eq_ok.1 e2'
      obtain ⟨r2, e3, e4⟩ := Res.bind_eq_ok.1 e2
      obtain ⟨r2', e3', e4'⟩ := Res.bind_eq_ok.1 e2'
      injection e4 with e4
      injection e4' with e4'
      subst e4 e4'
      have key := paintLayer_kids hn hn' j1 (fun b b' r r' h e e' => ih kids kids' hk hk' _ b b' r r' h e e') e1 e1'
      obtain ⟨k1, k2⟩ := paint_same (strict := true) rest rest (.refl _ _ _) (.inl rfl) _ _ _ _ r2 r2' key.1 e3 e3'
      exact ⟨k1, by rw [key.2, k2 rfl]⟩

/-- Layers of which one have nothing at a pixel are exchanged, on any backdrop. -/
theorem order_alike {xs ys zs ws : List (LTree LayerRec)} (hy : ∀ k ∈ ys.head?, k.isClipping = false) (hz : ∀ k ∈ zs.head?, k.isClipping = false) (hw : ∀ k ∈ ws.head?, k.isClipping = false)
    (hnp : NoPassThrough ys) (hc : DocAll (fun l _ => l.clipping = false → ∀ x, pic l.seqID = some x → (x i).a = 0) ys) :
    AlikeOn dec pic mask i (xs ++ (ys ++ (zs ++ ws))) (xs ++ (zs ++ (ys ++ ws))) := by
  intro t t' h1 h1' scale b b' r r' hb h2 h2'
  obtain ⟨tx, t1, g1, g2, g3⟩ := stack_append (ops := tileOps) t _ _ h1 (head_append hy (head_append hz hw))
  obtain ⟨ty, t2, g4, g5, g6⟩ := stack_append (ops := tileOps) t1 _ _ g2 (head_append hz hw)
  obtain ⟨tz, tw, g7, g8, g9⟩ := stack_append (ops := tileOps) t2 _ _ g5 hw
  obtain ⟨tx', t1', k1, k2, k3⟩ := stack_append (ops := tileOps) t' _ _ h1' (head_append hz (head_append hy hw))
  obtain ⟨tz', t2', k4, k5, k6⟩ := stack_append (ops := tileOps) t1' _ _ k2 (head_append hy hw)
  obtain ⟨ty', tw', k7, k8, k9⟩ := stack_append (ops := tileOps) t2' _ _ k5 hw
  obtain rfl := stack_unique _ _ _ g1 k1
  obtain rfl := stack_unique _ _ _ g4 k7
  obtain rfl := stack_unique _ _ _ g7 k4
  obtain rfl := stack_unique _ _ _ g8 k8
  rw [g3] at h2
  rw [k3] at h2'
  obtain ⟨rx, e1, h2⟩ := Res.bind_eq_ok.1 h2
  obtain ⟨r1, e2, h2⟩ := Res.bind_eq_ok.1 h2
  obtain ⟨rx', e1', h2'⟩ := Res.bind_eq_ok.1 h2'
  obtain ⟨r1', e2', h2'⟩ := Res.bind_eq_ok.1 h2'
  injection h2 with h2
  injection h2' with h2'
  subst h2 h2'
  rw [g6] at e2
  rw [k6] at e2'
  obtain ⟨ry, e3, e2⟩ := Res.bind_eq_ok.1 e2
  obtain ⟨r2, e4, e2⟩ := Res.bind_eq_ok.1 e2
  obtain ⟨rz', e3', e2'⟩ := Res.bind_eq_ok.1 e2'
  obtain ⟨r2', e4', e2'⟩ := Res.bind_eq_ok.1 e2'
  injection e2 with e2
  injection e2' with e2'
  subst e2 e2'
  rw [g9] at e4
  rw [k9] at e4'
  obtain ⟨rz, e5, e4⟩ := Res.bind_eq_ok.1 e4
  obtain ⟨rw1, e6, e4⟩ := Res.bind_eq_ok.1 e4
  obtain ⟨ry', e5', e4'⟩ := Res.bind_eq_ok.1 e4'
  obtain ⟨rw2, e6', e4'⟩ := Res.bind_eq_ok.1 e4'
  injection e4 with e4
  injection e4' with e4'
  subst e4 e4'
  have s0 := (paint_same (strict := true) _ _ (.refl _ _ _) (.inl rfl) _ _ _ _ rx rx' hb e1 e1').1
  have c1 := paint_clear ty (stack_clear ty ys g4 hnp hc) _ _ _ e3
  have c2 := paint_clear ty (stack_clear ty ys g4 hnp hc) _ _ _ e5'
  have s1 := (paint_same (strict := true) _ _ (.refl _ _ _) (.inl rfl) _ _ _ _ rz rz' (by rw [c1]; exact s0) e5 e3').1
  refine ⟨(paint_same (strict := true) _ _ (.refl _ _ _) (.inl rfl) _ _ _ _ rw1 rw2 (by rw [c2]; exact s1) e6 e6').1, ?_⟩
  show (rx.1 || (ry.1 || (rz.1 || rw1.1))) = (rx'.1 || (rz'.1 || (ry'.1 || rw2.1)))
  rw [paint_flag _ _ _ _ _ rx rx' e1 e1', paint_flag _ _ _ _ _ ry ry' e3 e5', paint_flag _ _ _ _ _ rz rz' e5 e3', paint_flag _ _ _ _ _ rw1 rw2 e6 e6']
  cases rx'.1 <;> cases ry'.1 <;> cases rz'.1 <;> rfl

end

end Psd
