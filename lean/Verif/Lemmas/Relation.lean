import Verif.Lemmas.OtherModes

/-!
# Relations between pictures that painting keeps
-/

namespace Psd

/-- Both are there and related, or both are missing. -/
def BothRel {P : Type} (R : P → P → Prop) : Option P → Option P → Prop
  | none, none => True
  | some p, some q => R p q
  | _, _ => False

/-- All operations keep the relation `R`, for opacities as in `Op`, masks as in `Mk` and pairs of blend modes as in `Md`. -/
structure RelOps {P M : Type} (o : PicOps P M) (R : P → P → Prop) (Op : Nat → Prop) (Mk : M → Prop) (Md : List UInt8 → List UInt8 → Prop) : Prop where
  blank : R o.blank o.blank
  copy : ∀ {p q}, R p q → R (o.copy p) (o.copy q)
  draw : ∀ {k m m' b b' x x' y y'}, Op k → Md m m' → R b b' → R x x' → o.draw k m b x = .ok y → o.draw k m' b' x' = .ok y' → R y y'
  no_pass : ∀ {k b x y}, o.draw k passThrough b x ≠ .ok y
  clip : ∀ {p q}, R p q → R (o.removeAlpha (o.copy p)) (o.removeAlpha (o.copy q)) ∨ ∀ r r', R (o.destIn r p) (o.destIn r' q)
  destIn : ∀ {b b' x x'}, R b b' → R x x' → R (o.destIn b x) (o.destIn b' x')
  destOver : ∀ {b b' x x'}, R b b' → R x x' → R (o.destOver b x) (o.destOver b' x')
  maskIn : ∀ {b b' m}, Mk m → R b b' → R (o.maskIn b m) (o.maskIn b' m)
  maskOut : ∀ {b b' m}, Mk m → R b b' → R (o.maskOut b m) (o.maskOut b' m)
  clear : ∀ {b b'}, R b b' → R (o.clear b) (o.clear b')
  full : Op 255
  scale : ∀ {k x}, Op k → Op x → Op (x * (k * 32897) / 2 ^ 23)

/-- The attributes of two layers to be drawn alike. -/
def CAttr.Rel (Op : Nat → Prop) (Md : List UInt8 → List UInt8 → Prop) (a a' : CAttr) : Prop :=
  a.Re a' ∧ Op a.opacity ∧ (Md a.blendMode a'.blendMode ∨ a.blendMode = passThrough)

def StkRel {P M : Type} (o : PicOps P M) (R : P → P → Prop) (Op : Nat → Prop) (Mk : M → Prop) (Md : List UInt8 → List UInt8 → Prop) : Stk P M → Stk P M → Prop
  | .nil, .nil => True
  | .layer a p m k c r, .layer a' p' m' k' c' r' =>
    a.Rel Op Md a' ∧ BothRel (fun x y => R (o.copy x) (o.copy y)) p p' ∧ m = m' ∧ (∀ x, m = some x → Mk x) ∧ StkRel o R Op Mk Md k k' ∧ StkRel o R Op Mk Md c c' ∧ StkRel o R Op Mk Md r r'
  | _, _ => False

section
variable {P M : Type} {o : PicOps P M} {R : P → P → Prop} {Op : Nat → Prop} {Mk : M → Prop} {Md : List UInt8 → List UInt8 → Prop}

theorem StkRel.isNil {t t' : Stk P M} (h : StkRel o R Op Mk Md t t') : t.isNil = t'.isNil := by
  cases t <;> cases t' <;> first | rfl | exact absurd h id

variable (ho : RelOps o R Op Mk Md)
include ho

theorem applyMask_rel {a a' : CAttr} (ha : a.Re a') {m : Option M} (hm : ∀ x, m = some x → Mk x) {b b' buf buf' : P} (hb : R b b') (h : R buf buf') :
    R (applyMask o a m a.blendMode b buf) (applyMask o a' m a'.blendMode b' buf') := by
  rw [← applyMask_re ha]
  unfold applyMask
  split
  · cases m with
    | none =>
      dsimp only
      split <;> split
      · exact ho.destOver (ho.clear h) hb
      · exact ho.destOver h hb
      · exact ho.clear h
      · exact h
    | some m =>
      dsimp only
      split <;> split
      · exact ho.destOver (ho.maskIn (hm m rfl) h) hb
      · exact ho.destOver (ho.maskOut (hm m rfl) h) hb
      · exact ho.maskIn (hm m rfl) h
      · exact ho.maskOut (hm m rfl) h
  · exact h

theorem paint_rel : ∀ (t t' : Stk P M), StkRel o R Op Mk Md t t' → ∀ (forced : Bool) (scale : Nat → Nat) (_ : ∀ x, Op x → Op (scale x)) (b b' : P) (_ : R b b') (r r' : Bool × P),
    paint o t forced scale b = .ok r → paint o t' forced scale b' = .ok r' → r.1 = r'.1 ∧ R r.2 r'.2 := by
  intro t
  induction t with
  | nil =>
    intro t' h forced scale _ b b' hb r r' e e'
    cases t' with
    | layer => exact absurd h id
    | nil =>
      injection e with e
      injection e' with e'
      subst e e'
      exact ⟨rfl, hb⟩
  | layer a p m kids clips rest ihk ihc ihr =>
    intro t' h forced scale hs b b' hb r r' e e'
    cases t' with
    | nil => exact absurd h id
    | layer a' p' m' kids' clips' rest' =>
      obtain ⟨⟨ha, hop, hmd⟩, hp, rfl, hm, hk, hc, hr⟩ := h
      have h1 : a'.visible = a.visible := by rw [ha.1]
      have h2 : a'.clipping = a.clipping := by rw [ha.1]
      have h3 : a'.opacity = a.opacity := by rw [ha.1]
      have h4 : a'.blendClippedElements = a.blendClippedElements := by rw [ha.1]
      have hk0 : ∀ x, kidScale a' x = kidScale a x := by intro x; funext y; simp only [kidScale, ha.pass]
      rw [paint_layer] at e e'
      obtain ⟨r1, e1, e2⟩ := Res.bind_eq_ok.1 e
      obtain ⟨r2, e3, e4⟩ := Res.bind_eq_ok.1 e2
      obtain ⟨r1', e1', e2'⟩ := Res.bind_eq_ok.1 e'
      obtain ⟨r2', e3', e4'⟩ := Res.bind_eq_ok.1 e2'
      injection e4 with e4
      injection e4' with e4'
      subst e4 e4'
      have first : r1.1 = r1'.1 ∧ R r1.2 r1'.2 := by
        unfold paintLayer at e1 e1'
        rw [show drawn a' forced (scale a'.opacity) = drawn a forced (scale a.opacity) by simp only [drawn, h1, h2, h3], h3, ← hc.isNil] at e1'
        split at e1
        · rename_i hd
          rw [if_pos hd] at e1'
          obtain ⟨v, e5, e6⟩ := Res.bind_eq_ok.1 e1
          obtain ⟨v', e5', e6'⟩ := Res.bind_eq_ok.1 e1'
          unfold layerPic at e5 e5'
          obtain ⟨w, e7, e8⟩ := Res.bind_eq_ok.1 e5
          obtain ⟨w', e7', e8'⟩ := Res.bind_eq_ok.1 e5'
          have hw : BothRel R w w' := by
            unfold ownPic at e7 e7'
            rw [← hk.isNil] at e7'
            split at e7
            · rename_i hl
              rw [if_pos hl] at e7'
              injection e7 with e7
              injection e7' with e7'
              subst e7 e7'
              cases p with
              | none => cases p' with
                | none => trivial
                | some => exact absurd hp id
              | some p => cases p' with
                | none => exact absurd hp id
                | some p' => exact applyMask_rel ho ha hm hb hp
            · rename_i hl
              rw [if_neg hl] at e7'
              obtain ⟨k, ek, e7⟩ := Res.bind_eq_ok.1 e7
              obtain ⟨k', ek', e7'⟩ := Res.bind_eq_ok.1 e7'
              injection e7 with e7
              injection e7' with e7'
              subst e7 e7'
              rw [hk0] at ek'
              obtain ⟨g1, g2⟩ := ihk kids' hk false (kidScale a (scale a.opacity)) (fun x hx => by
                unfold kidScale
                split
                · exact ho.scale (hs _ hop) hx
                · exact ho.scale ho.full hx) _ _ (by
                show R (kidStart o a b) (kidStart o a' b')
                unfold kidStart
                simp only [← ha.pass]
                split
                · exact ho.copy hb
                · exact ho.blank) k k' ek ek'
              unfold folderPic
              rw [← g1]
              split
              · exact applyMask_rel ho ha hm hb g2
              · trivial
          have hv : BothRel R v v' := by
            cases w with
            | none => cases w' with
              | some => exact absurd hw id
              | none =>
                injection e8 with e8
                injection e8' with e8'
                subst e8 e8'
                trivial
            | some w => cases w' with
              | none => exact absurd hw id
              | some w' =>
                simp only [clipPic, h4, ← hc.isNil] at e8 e8'
                split at e8
                · rename_i hn
                  rw [if_pos hn] at e8'
                  injection e8 with e8
                  injection e8' with e8'
                  subst e8 e8'
                  exact hw
                · rename_i hn
                  rw [if_neg hn] at e8'
                  obtain ⟨k, ek, e8⟩ := Res.bind_eq_ok.1 e8
                  obtain ⟨k', ek', e8'⟩ := Res.bind_eq_ok.1 e8'
                  injection e8 with e8
                  injection e8' with e8'
                  subst e8 e8'
                  rcases ho.clip hw with hcl | hcl
                  · exact ho.destIn (ihc clips' hc true id (fun _ hx => hx) _ _ hcl k k' ek ek').2 hw
                  · exact hcl _ _
          cases v with
          | none => cases v' with
            | some => exact absurd hv id
            | none =>
              injection e6 with e6
              injection e6' with e6'
              subst e6 e6'
              exact ⟨rfl, hb⟩
          | some v => cases v' with
            | none => exact absurd hv id
            | some v' =>
              simp only [placeOpt] at e6 e6'
              obtain ⟨y, f1, f2⟩ := Res.bind_eq_ok.1 e6
              obtain ⟨y', f1', f2'⟩ := Res.bind_eq_ok.1 e6'
              injection f2 with f2
              injection f2' with f2'
              subst f2 f2'
              refine ⟨rfl, ?_⟩
              unfold place at f1 f1'
              rw [h4] at f1'
              split at f1
              · rename_i hn
                rw [if_pos ⟨ha.2.1 hn.1, hn.2⟩] at f1'
                injection f1 with f1
                injection f1' with f1'
                subst f1 f1'
                exact ho.copy hv
              · rename_i hn
                rw [if_neg fun c => hn ⟨ha.2.2 c.1, c.2⟩] at f1'
                rcases hmd with hmd | hmd
                · exact ho.draw (hs _ hop) hmd hb hv f1 f1'
                · rw [hmd] at f1
                  exact absurd f1 ho.no_pass
        · rename_i hd
          rw [if_neg hd] at e1'
          injection e1 with e1
          injection e1' with e1'
          subst e1 e1'
          exact ⟨rfl, hb⟩
      obtain ⟨g1, g2⟩ := ihr rest' hr forced scale hs _ _ first.2 r2 r2' e3 e3'
      exact ⟨by rw [first.1, g1], g2⟩

end

/-! ### Documents -/

/-- The same layers in the same folders, each as in `Q`. -/
inductive DocRel (Q : LayerRec → LayerRec → Prop) : List (LTree LayerRec) → List (LTree LayerRec) → Prop
  | nil : DocRel Q [] []
  | cons (l l' : LayerRec) (sub sub' rest rest' : List (LTree LayerRec)) : Q l l' → DocRel Q sub sub' → DocRel Q rest rest' → DocRel Q (.node l sub :: rest) (.node l' sub' :: rest')

section
variable {Q : LayerRec → LayerRec → Prop} (hQ : ∀ l l', Q l l' → l'.clipping = l.clipping)
include hQ

theorem DocRel.head {xs ys : List (LTree LayerRec)} (h : DocRel Q xs ys) {v : Bool} (hx : ∀ k ∈ xs.head?, k.isClipping = v) : ∀ k ∈ ys.head?, k.isClipping = v := by
  cases h with
  | nil => exact fun k hk => by cases hk
  | cons l l' sub sub' rest rest' hl =>
    intro k hk
    simp only [List.head?_cons, Option.mem_def, Option.some.injEq] at hk
    subst hk
    have := hx _ rfl
    simp only [LTree.isClipping] at this ⊢
    rw [hQ _ _ hl, this]

theorem DocRel.clipping {x y : List (LTree LayerRec)} (h : DocRel Q x y) (hx : ∀ k ∈ x, k.isClipping = true) : ∀ k ∈ y, k.isClipping = true := by
  induction h with
  | nil => exact hx
  | cons l l' sub sub' rest rest' hl _ _ _ ih =>
    intro k hk
    rcases List.mem_cons.1 hk with rfl | hk
    · have := hx _ List.mem_cons_self
      simp only [LTree.isClipping] at this ⊢
      rw [hQ _ _ hl, this]
    · exact ih (fun k hk => hx k (List.mem_cons_of_mem _ hk)) k hk

omit hQ in
theorem DocRel.split : ∀ {x y z : List (LTree LayerRec)}, DocRel Q (x ++ y) z → ∃ x' y', z = x' ++ y' ∧ DocRel Q x x' ∧ DocRel Q y y'
  | [], y, z, h => ⟨[], z, rfl, .nil, h⟩
  | .node l sub :: x, y, _, .cons _ l' _ sub' _ rest' hl hs hr => by
    obtain ⟨x', y', rfl, h1, h2⟩ := DocRel.split hr
    exact ⟨.node l' sub' :: x', y', rfl, .cons _ _ _ _ _ _ hl hs h1, h2⟩

theorem stack_rel {dec dec' : List UInt8 → Option (List UInt8)} {P M : Type} {o : PicOps P M} {R : P → P → Prop} {Op : Nat → Prop} {Mk : M → Prop} {Md : List UInt8 → List UInt8 → Prop}
    {pic pic' : Int → Option P} {mask mask' : Int → Option M} (hA : ∀ l l', Q l l' → (attrOf dec l).Rel Op Md (attrOf dec' l'))
    (hp : ∀ l l', Q l l' → BothRel (fun x y => R (o.copy x) (o.copy y)) (pic l.seqID) (pic' l'.seqID)) (hm : ∀ l l', Q l l' → ∀ x, mask l.seqID = some x → Mk x)
    (hmm : ∀ l l', Q l l' → mask' l'.seqID = mask l.seqID) :
    ∀ (t t' : Stk P M) (xs ys : List (LTree LayerRec)), IsStack dec pic mask xs t → IsStack dec' pic' mask' ys t' → DocRel Q xs ys → StkRel o R Op Mk Md t t' := by
  intro t
  induction t with
  | nil =>
    intro t' xs ys h h' hd
    obtain rfl : xs = [] := h
    cases hd
    cases t' with
    | nil => trivial
    | layer =>
      obtain ⟨l, sub, above, over, e, -⟩ := h'
      cases e
  | layer a p m kids clips rest ihk ihc ihr =>
    intro t' xs ys h h' hd
    obtain ⟨l, sub, above, over, rfl, ha, rfl, rfl, hk, hc, hr, h1, h2, h3⟩ := h
    cases hd with
    | cons _ l' _ sub' _ rest0 hl hs hre =>
    obtain ⟨above0, over0, rfl, g1, g2⟩ := hre.split
    cases t' with
    | nil => cases (show _ :: _ = [] from h')
    | layer a' p' m' kids' clips' rest' =>
      obtain ⟨l2, sub2, above', over', e, ha', rfl, rfl, hk', hc', hr', h1', h2', h3'⟩ := h'
      injection e with e1 e2
      injection e1 with e3 e4
      subst e3 e4
      have : above0 = above' ∧ over0 = over' := by
        cases hcl : l.clipping with
        | true =>
          have ea := h2 hcl
          subst ea
          cases g1
          rw [h2' (by rw [hQ _ _ hl, hcl])] at e2 ⊢
          exact ⟨rfl, e2⟩
        | false => exact run_unique _ _ _ _ e2 (g1.clipping hQ h1) h1' (g2.head hQ (h3 hcl)) (h3' (by rw [hQ _ _ hl, hcl]))
      obtain ⟨rfl, rfl⟩ := this
      refine ⟨?_, ?_, ?_, hm _ _ hl, ihk _ _ _ hk hk' hs, ihc _ _ _ hc hc' g1, ihr _ _ _ hr hr' g2⟩
      · rw [ha.eq, ha'.eq]
        exact hA _ _ hl
      · exact hp _ _ hl
      · exact (hmm _ _ hl).symm

end

end Psd
