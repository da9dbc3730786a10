import Verif.Lemmas.Stacked
import Verif.Lemmas.Sight

/-!
# The transparency of painted layers
-/

namespace Psd

theorem pd_alpha (op : PD) (s : PDSrc) (d e : Px) : (pxOr e (drawPD op .nrgba s d)).a = hi8 (pdAlpha op s.read.a (readPx .nrgba d).a) := by
  have : (pdOp op s.read (readPx .nrgba d)).a = pdAlpha op s.read.a (readPx .nrgba d).a := rfl
  unfold drawPD
  rw [← this]
  generalize pdOp op s.read (readPx .nrgba d) = v
  unfold storePx
  simp only
  split
  · rfl
  · split
    · rfl
    · rename_i h
      have : 0 < v.a.toNat := Nat.pos_of_ne_zero fun e => h (UInt32.toNat_inj.1 e)
      rw [(divU32_ok _ _ this).1, (divU32_ok _ _ this).1, (divU32_ok _ _ this).1]
      rfl

theorem read_alpha (p : Px) : (PDSrc.px .nrgba p).read.a = p.a.toUInt32 * 0x0101 * 0xffff / 0xffff := by
  simp only [PDSrc.read, toPremul_a, widenSrc]

theorem readPx_alpha (p : Px) : (readPx .nrgba p).a = p.a.toUInt32 * 0x0101 := by
  simp only [readPx, toPremul_a, widen]

theorem destIn_alpha {p q : Tile} {i : Nat} (h : (p i).a = 255) : (tileOps.destIn p q i).a = (q i).a := by
  have := pd_alpha .destIn (.px .nrgba (q i)) (p i) (p i)
  rw [read_alpha, readPx_alpha, h] at this
  refine Eq.trans this ?_
  generalize (q i).a = x
  have : ∀ x : Fin 256, hi8 (pdAlpha .destIn ((UInt8.ofNat x.val).toUInt32 * 0x0101 * 0xffff / 0xffff) ((255 : UInt8).toUInt32 * 0x0101)) = UInt8.ofNat x.val := by decide +kernel
  have := this ⟨x.toNat, x.toNat_lt⟩
  simpa using this

theorem destOver_alpha {p q : Tile} {i : Nat} (h : (q i).a = 255) : (tileOps.destOver p q i).a = 255 := by
  have := pd_alpha .destOver (.px .nrgba (q i)) (p i) (p i)
  rw [read_alpha, readPx_alpha, h] at this
  refine Eq.trans this ?_
  generalize (p i).a = x
  have : ∀ x : Fin 256, hi8 (pdAlpha .destOver ((255 : UInt8).toUInt32 * 0x0101 * 0xffff / 0xffff) ((UInt8.ofNat x.val).toUInt32 * 0x0101)) = 255 := by decide +kernel
  have := this ⟨x.toNat, x.toNat_lt⟩
  simpa using this

theorem draw_alpha {o : Nat} {m : List UInt8} {b x y b' x' y' : Tile} {i : Nat} (h : tileOps.draw o m b x = .ok y) (h' : tileOps.draw o m b' x' = .ok y')
    (hb : (b i).a = (b' i).a) (hx : (x i).a = (x' i).a) : (y i).a = (y' i).a := by
  obtain ⟨md, -, e⟩ := draw_px h i
  obtain ⟨md', -, e'⟩ := draw_px h' i
  have c := draw_composite e
  have c' := draw_composite e'
  unfold Composite at c c'
  rw [hb, hx] at c
  simp only at c c'
  split at c
  · rename_i h0
    rw [if_pos h0] at c'
    rw [c, c', hb]
  · rename_i h0
    rw [if_neg h0] at c'
    exact UInt8.toNat_inj.1 (c.1.trans c'.1.symm)

theorem draw_opaque {o : Nat} {m : List UInt8} {b x y : Tile} {i : Nat} (h : tileOps.draw o m b x = .ok y) (hb : (b i).a = 255) : (y i).a = 255 := by
  obtain ⟨md, -, e⟩ := draw_px h i
  exact C42_opaque_backdrop md _ _ _ _ e hb

theorem applyMask_alpha {a : CAttr} {m : Option (Nat → UInt8)} {mode : List UInt8} {b b' buf buf' : Tile} {i : Nat} (hb : (b i).a = (b' i).a)
    (hbuf : (buf i).a = (buf' i).a) : (applyMask tileOps a m mode b buf i).a = (applyMask tileOps a m mode b' buf' i).a := by
  have over : ∀ {x x' : Tile}, (x i).a = (x' i).a → ((if mode = passThrough then tileOps.destOver x b else x) i).a = ((if mode = passThrough then tileOps.destOver x' b' else x') i).a := by
    intro x x' h
    split
    · have e := pd_alpha .destOver (.px .nrgba (b i)) (x i) (x i)
      have e' := pd_alpha .destOver (.px .nrgba (b' i)) (x' i) (x' i)
      rw [read_alpha, readPx_alpha] at e e'
      rw [hb, h] at e
      exact e.trans e'.symm
    · exact h
  unfold applyMask
  split
  · cases m with
    | none =>
      refine over ?_
      simp only
      split
      · rw [clear_px, clear_px]
      · exact hbuf
    | some m =>
      refine over ?_
      simp only
      split
      · have e := pd_alpha .destIn (.alpha (m i)) (buf i) (buf i)
        have e' := pd_alpha .destIn (.alpha (m i)) (buf' i) (buf' i)
        rw [readPx_alpha] at e e'
        rw [hbuf] at e
        exact e.trans e'.symm
      · have e := pd_alpha .destOut (.alpha (m i)) (buf i) (buf i)
        have e' := pd_alpha .destOut (.alpha (m i)) (buf' i) (buf' i)
        rw [readPx_alpha] at e e'
        rw [hbuf] at e
        exact e.trans e'.symm
  · exact hbuf

theorem applyMask_opaque {a : CAttr} {m : Option (Nat → UInt8)} {b buf : Tile} {i : Nat} (hb : (b i).a = 255) (hbuf : (buf i).a = 255) :
    (applyMask tileOps a m passThrough b buf i).a = 255 := by
  unfold applyMask
  split
  · simp only [if_true]
    exact destOver_alpha hb
  · exact hbuf

/-- Layers that contain others, and pass-through ones, have no pixels. -/
def Stk.bare {P M : Type} : Stk P M → Prop
  | .nil => True
  | .layer a p _ k c r => (k.isNil = false ∨ a.blendMode = passThrough → p = none) ∧ k.bare ∧ c.bare ∧ r.bare

theorem stack_bare {P M : Type} {dec : List UInt8 → Option (List UInt8)} {pic : Int → Option P} {mask : Int → Option M} : ∀ (t : Stk P M) (layers : List (LTree LayerRec)),
    IsStack dec pic mask layers t → FoldersBare layers pic → t.bare := by
  intro t
  induction t with
  | nil => intros; trivial
  | layer a p m kids clips rest ihk ihc ihr =>
    intro layers h hn
    obtain ⟨l, sub, above, over, rfl, ha, hp, -, hk, hc, hr, -⟩ := h
    obtain ⟨n1, n2, n3⟩ := DocAll.cons (Q := fun l kids => l.folder = true ∨ kids ≠ [] → pic l.seqID = none) hn
    obtain ⟨n4, n5⟩ := DocAll.append n3
    refine ⟨?_, ihk _ hk n2, ihc _ hc n4, ihr _ hr n5⟩
    intro h
    rw [hp]
    rcases h with h | h
    · refine n1 (.inr ?_)
      rintro rfl
      cases kids with
      | nil => cases h
      | layer =>
        obtain ⟨_, _, _, _, e, _⟩ := hk
        cases e
    · refine n1 (.inl ?_)
      cases hfo : l.folder with
      | true => rfl
      | false =>
        by_cases hpa : l.blendMode = ascii "pass"
        · rw [ha.noPass hfo hpa] at h
          exact absurd h (by decide)
        · rw [ha.layerMode hfo hpa] at h
          exact absurd h hpa

/-- On an opaque pixel it stays opaque. -/
theorem paint_opaque {i : Nat} : ∀ (t : Stk Tile (Nat → UInt8)), t.bare → ∀ (forced : Bool) (scale : Nat → Nat) (b : Tile) (r : Bool × Tile), (b i).a = 255 →
    paint tileOps t forced scale b = .ok r → (r.2 i).a = 255 := by
  intro t
  induction t with
  | nil =>
    intro _ forced scale b r hb e
    injection e with e
    rw [← e]
    exact hb
  | layer a p m kids clips rest ihk ihc ihr =>
    intro hba forced scale b r hb e
    obtain ⟨h1, h2, h3, h4⟩ := hba
    rw [paint_layer] at e
    obtain ⟨r1, e1, e2⟩ := Res.bind_eq_ok.1 e
    obtain ⟨r2, e3, e4⟩ := Res.bind_eq_ok.1 e2
    injection e4 with e4
    subst e4
    refine ihr h4 _ _ _ r2 ?_ e3
    unfold paintLayer at e1
    split at e1
    · obtain ⟨o, e5, e6⟩ := Res.bind_eq_ok.1 e1
      obtain ⟨w, e7, e8⟩ := Res.bind_eq_ok.1 e5
      cases o with
      | none =>
        injection e6 with e6
        subst e6
        exact hb
      | some img =>
        obtain ⟨y, e9, e10⟩ := Res.bind_eq_ok.1 e6
        injection e10 with e10
        subst e10
        unfold place at e9
        split at e9
        · rename_i hpl
          injection e9 with e9
          subst e9
          rw [copy_alpha]
          have hw : ∃ buf, w = some buf := by
            cases w with
            | none => cases e8
            | some buf => exact ⟨buf, rfl⟩
          obtain ⟨buf, rfl⟩ := hw
          have hbuf : (buf i).a = 255 := by
            unfold ownPic at e7
            split at e7
            · rw [h1 (.inr hpl.1)] at e7
              cases e7
            · obtain ⟨k, ek, e7⟩ := Res.bind_eq_ok.1 e7
              injection e7 with e7
              unfold folderPic at e7
              split at e7
              · injection e7 with e7
                rw [← e7, hpl.1]
                refine applyMask_opaque hb (ihk h2 _ _ _ k ?_ ek)
                rw [kidStart, if_pos hpl.1, copy_alpha]
                exact hb
              · cases e7
          simp only [clipPic] at e8
          split at e8
          · injection e8 with e8
            injection e8 with e8
            rw [← e8]
            exact hbuf
          · obtain ⟨c, ec, e8⟩ := Res.bind_eq_ok.1 e8
            injection e8 with e8
            injection e8 with e8
            rw [← e8, destIn_alpha]
            · exact hbuf
            · exact ihc h3 _ _ _ c rfl ec
        · exact draw_opaque e9 hb
    · injection e1 with e1
      subst e1
      exact hb

theorem WithoutClipping.none {xs ys : List (LTree LayerRec)} (h : WithoutClipping xs ys) : ∀ k ∈ ys, k.isClipping = false := by
  induction h with
  | nil => simp
  | keep l sub sub' rest rest' h1 _ _ _ ih =>
    intro k hk
    rcases List.mem_cons.1 hk with rfl | hk
    · exact h1
    · exact ih k hk
  | drop l sub rest rest' _ _ ih => exact ih

theorem WithoutClipping.depth {xs ys : List (LTree LayerRec)} (h : WithoutClipping xs ys) : depthAll ys ≤ depthAll xs := by
  induction h with
  | nil => exact Nat.le_refl _
  | keep l sub sub' rest rest' _ _ _ ih1 ih2 =>
    rw [depthAll, depthAll, LTree.depth, LTree.depth]
    omega
  | drop l sub rest rest' _ _ ih =>
    rw [depthAll]
    omega

theorem WithoutClipping.run : ∀ {above over ys : List (LTree LayerRec)}, (∀ k ∈ above, k.isClipping = true) → WithoutClipping (above ++ over) ys → WithoutClipping over ys := by
  intro above
  induction above with
  | nil => exact fun _ h => h
  | cons x xs ih =>
    intro over ys hc h
    rw [List.cons_append] at h
    cases h with
    | keep l sub sub' rest rest' h1 =>
      have := hc _ List.mem_cons_self
      exact absurd this (by rw [LTree.isClipping, h1]; decide)
    | drop l sub rest rest' _ h => exact ih (fun k hk => hc k (List.mem_cons_of_mem _ hk)) h

section
variable {dec : List UInt8 → Option (List UInt8)} {pic : Int → Option Tile} {mask : Int → Option (Nat → UInt8)}

theorem IsStack.nil_iff {P M : Type} {pic : Int → Option P} {mask : Int → Option M} {t : Stk P M} {layers : List (LTree LayerRec)} (h : IsStack dec pic mask layers t) :
    t.isNil = true ↔ layers = [] := by
  cases t with
  | nil => exact ⟨fun _ => h, fun _ => rfl⟩
  | layer =>
    obtain ⟨_, _, _, _, e, _⟩ := h
    rw [e]
    simp [Stk.isNil]

theorem IsStack.nil {P M : Type} {pic : Int → Option P} {mask : Int → Option M} {t : Stk P M} (h : IsStack dec pic mask [] t) : t = .nil := by
  cases t with
  | nil => rfl
  | layer =>
    obtain ⟨_, _, _, _, e, _⟩ := h
    cases e

/-- Without its clipping layers a document has the same numbers, or fewer. -/
theorem ids_withoutClipping {P M : Type} {pic : Int → Option P} {mask : Int → Option M} : ∀ (t t' : Stk P M) (xs ys : List (LTree LayerRec)), IsStack dec pic mask xs t →
    IsStack dec pic mask ys t' → WithoutClipping xs ys → t'.ids.Sublist t.ids := by
  intro t
  induction t with
  | nil =>
    intro t' xs ys h h' hw
    obtain rfl : xs = [] := h
    cases hw
    rw [h'.nil]
  | layer a p m kids clips rest ihk ihc ihr =>
    intro t' xs ys h h' hw
    obtain ⟨l, sub, above, over, rfl, ha, hp, hm, hk, hc, hr, h1, h2, h3⟩ := h
    cases hw with
    | keep l sub sub' rest0 rest' w0 w1 w2 =>
      have w3 := w2.run h1
      cases t' with
      | nil => cases (show _ :: _ = [] from h')
      | layer a' p' m' kids' clips' rest1 =>
        obtain ⟨l', sub1, above', over', e, ha', hp', hm', hk', hc', hr', h1', h2', h3'⟩ := h'
        injection e with e1 e2
        injection e1 with e3 e4
        subst e3 e4
        obtain ⟨rfl, rfl⟩ := run_unique [] _ _ _ e2 (by simp) h1' (fun k hk => w3.none k (List.mem_of_mem_head? hk)) (h3' w0)
        rw [hc'.nil]
        simp only [Stk.ids, ha.number, ha'.number, List.nil_append]
        exact ((ihk _ _ _ hk hk' w1).append ((ihr _ _ _ hr hr' w3).trans (List.sublist_append_right _ _))).cons_cons _
    | drop l sub rest0 rest' w0 w1 =>
      rw [h2 w0, List.nil_append] at w1
      have := ihr _ _ _ hr h' w1
      simp only [Stk.ids]
      exact ((this.trans (List.sublist_append_right _ _)).trans (List.sublist_append_right _ _)).cons _

/-- Without its clipping layers a document is painted with the same transparency. -/
theorem paint_withoutClipping {i : Nat} : ∀ (t t' : Stk Tile (Nat → UInt8)) (xs ys : List (LTree LayerRec)), IsStack dec pic mask xs t → IsStack dec pic mask ys t' →
    WithoutClipping xs ys → t.bare → ∀ (scale : Nat → Nat) (b b' : Tile) (r r' : Bool × Tile), (b i).a = (b' i).a → paint tileOps t false scale b = .ok r →
    paint tileOps t' false scale b' = .ok r' → r.1 = r'.1 ∧ (r.2 i).a = (r'.2 i).a := by
  intro t
  induction t with
  | nil =>
    intro t' xs ys h h' hw _ scale b b' r r' hb e e'
    obtain rfl : xs = [] := h
    cases hw
    rw [h'.nil] at e'
    injection e with e
    injection e' with e'
    rw [← e, ← e']
    exact ⟨rfl, hb⟩
  | layer a p m kids clips rest ihk ihc ihr =>
    intro t' xs ys h h' hw hba scale b b' r r' hb e e'
    obtain ⟨l, sub, above, over, rfl, ha, hp, hm, hk, hc, hr, h1, h2, h3⟩ := h
    obtain ⟨ba1, ba2, ba3, ba4⟩ := hba
    rw [paint_layer] at e
    obtain ⟨r1, e1, e2⟩ := Res.bind_eq_ok.1 e
    obtain ⟨r2, e3, e4⟩ := Res.bind_eq_ok.1 e2
    injection e4 with e4
    subst e4
    cases hw with
    | drop l sub rest0 rest' w0 w1 =>
      rw [h2 w0, List.nil_append] at w1
      unfold paintLayer drawn at e1
      rw [if_neg (by rw [ha.clipping, w0]; simp)] at e1
      injection e1 with e1
      subst e1
      simp only [Bool.false_or]
      exact ihr t' _ _ hr h' w1 ba4 _ _ _ _ _ hb e3 e'
    | keep l sub sub' rest0 rest' w0 w1 w2 =>
      have w3 := w2.run h1
      cases t' with
      | nil => cases (show _ :: _ = [] from h')
      | layer a' p' m' kids' clips' rest1 =>
        obtain ⟨l', sub1, above', over', e0, ha', hp', hm', hk', hc', hr', h1', h2', h3'⟩ := h'
        injection e0 with e01 e02
        injection e01 with e03 e04
        subst e03 e04
        obtain ⟨rfl, rfl⟩ := run_unique [] _ _ _ e02 (by simp) h1' (fun k hk => w3.none k (List.mem_of_mem_head? hk)) (h3' w0)
        obtain rfl := hc'.nil
        have ea : a = a' := ha.eq.trans ha'.eq.symm
        subst ea
        have ep : p' = p := hp'.trans hp.symm
        have em : m' = m := hm'.trans hm.symm
        subst ep em
        rw [paint_layer] at e'
        obtain ⟨r1', e1', e2'⟩ := Res.bind_eq_ok.1 e'
        obtain ⟨r2', e3', e4'⟩ := Res.bind_eq_ok.1 e2'
        injection e4' with e4'
        subst e4'
        have first : r1.1 = r1'.1 ∧ (r1.2 i).a = (r1'.2 i).a := by
          unfold paintLayer at e1 e1'
          by_cases hd : drawn a false (scale a.opacity) = true
          · rw [if_pos hd] at e1 e1'
            obtain ⟨o, e5, e6⟩ := Res.bind_eq_ok.1 e1
            obtain ⟨o', e5', e6'⟩ := Res.bind_eq_ok.1 e1'
            obtain ⟨w, e7, e8⟩ := Res.bind_eq_ok.1 e5
            obtain ⟨w', e7', e8'⟩ := Res.bind_eq_ok.1 e5'
            have hw : (w = none ∧ w' = none) ∨ ∃ x x', w = some x ∧ w' = some x' ∧ (x i).a = (x' i).a := by
              unfold ownPic at e7 e7'
              cases hl : kids.isNil with
              | true =>
                obtain rfl := hk.nil_iff.1 hl
                cases w1
                rw [hk'.nil_iff.2 rfl, if_pos rfl] at e7'
                rw [hl, if_pos rfl] at e7
                injection e7 with e7
                injection e7' with e7'
                subst e7 e7'
                cases p' with
                | none => exact .inl ⟨rfl, rfl⟩
                | some p => exact .inr ⟨_, _, rfl, rfl, applyMask_alpha hb rfl⟩
              | false =>
                rw [hl, if_neg (by simp)] at e7
                obtain ⟨k, ek, e7⟩ := Res.bind_eq_ok.1 e7
                injection e7 with e7
                subst e7
                have start : (kidStart tileOps a b i).a = (kidStart tileOps a b' i).a := by
                  unfold kidStart
                  split
                  · rw [copy_alpha, copy_alpha]; exact hb
                  · rfl
                cases hl' : kids'.isNil with
                | true =>
                  obtain rfl : kids' = .nil := by cases kids' with | nil => rfl | layer => cases hl'
                  have := ihk _ _ _ hk hk' w1 ba2 _ _ _ k _ start ek rfl
                  rw [hl', if_pos rfl, ba1 (.inl hl)] at e7'
                  injection e7' with e7'
                  left
                  unfold folderPic
                  rw [if_neg (by rw [this.1]; simp)]
                  exact ⟨rfl, e7'.symm⟩
                | false =>
                  rw [hl', if_neg (by simp)] at e7'
                  obtain ⟨k', ek', e7'⟩ := Res.bind_eq_ok.1 e7'
                  injection e7' with e7'
                  subst e7'
                  have := ihk _ _ _ hk hk' w1 ba2 _ _ _ k k' start ek ek'
                  unfold folderPic
                  rw [this.1]
                  split
                  · exact .inr ⟨_, _, rfl, rfl, applyMask_alpha hb this.2⟩
                  · exact .inl ⟨rfl, rfl⟩
            rcases hw with ⟨rfl, rfl⟩ | ⟨x, x', rfl, rfl, hx⟩
            · injection e8 with e8
              injection e8' with e8'
              subst e8 e8'
              injection e6 with e6
              injection e6' with e6'
              subst e6 e6'
              exact ⟨rfl, hb⟩
            · have ho' : o' = some x' := by
                simp only [clipPic, Stk.isNil, Bool.true_or, if_true] at e8'
                injection e8' with e8'
                exact e8'.symm
              have ho : ∃ z, o = some z ∧ (z i).a = (x i).a := by
                simp only [clipPic] at e8
                split at e8
                · injection e8 with e8
                  exact ⟨x, e8.symm, rfl⟩
                · obtain ⟨c, ec, e8⟩ := Res.bind_eq_ok.1 e8
                  injection e8 with e8
                  refine ⟨_, e8.symm, ?_⟩
                  rw [destIn_alpha]
                  exact paint_opaque clips ba3 _ _ _ c rfl ec
              obtain ⟨z, rfl, hz⟩ := ho
              subst ho'
              obtain ⟨y, e9, e10⟩ := Res.bind_eq_ok.1 e6
              obtain ⟨y', e9', e10'⟩ := Res.bind_eq_ok.1 e6'
              injection e10 with e10
              injection e10' with e10'
              subst e10 e10'
              refine ⟨rfl, ?_⟩
              unfold place at e9 e9'
              by_cases hpt : a.blendMode = passThrough
              · rw [if_pos ⟨hpt, rfl⟩] at e9'
                injection e9' with e9'
                subst e9'
                split at e9
                · injection e9 with e9
                  subst e9
                  rw [copy_alpha, copy_alpha, hz, hx]
                · obtain ⟨md, e, -⟩ := draw_px e9 i
                  rw [hpt] at e
                  rw [show blendMode passThrough = none by decide] at e
                  cases e
              · rw [if_neg (fun h => hpt h.1)] at e9 e9'
                exact draw_alpha e9 e9' hb (hz.trans hx)
          · rw [if_neg hd] at e1 e1'
            injection e1 with e1
            injection e1' with e1'
            subst e1 e1'
            exact ⟨rfl, hb⟩
        have := ihr _ _ _ hr hr' w3 ba4 _ _ _ r2 r2' first.2 e3 e3'
        exact ⟨by rw [first.1, this.1], this.2⟩

end
end Psd
