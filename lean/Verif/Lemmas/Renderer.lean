import Verif.Model.Renderer
import Verif.Lemmas.Basic

/-!
# What drawing a tile does to the caches
-/

namespace Psd

section
variable {P M : Type} {ops : PicOps P M}

/-- A relation between the caches before and after that holds whenever entries are added at tile `pt` for layers that had none. -/
structure CacheRel (ops : PicOps P M) (pt : TPt) (R : RState P → RState P → Prop) : Prop where
  refl : ∀ st, R st st
  trans : ∀ st st1 st2, R st st1 → R st1 st2 → R st st2
  update : ∀ st st1 dr id buf, R st st1 → st.cached id pt = none → R st (updateCache ops dr (some id) pt buf st1)

/-- What is assumed of the recursive call. -/
def InnerRel (R : RState P → RState P → Prop) (inner : RState P → P → Ptr → Nat → List UInt8 → Bool → Res (Drawn P)) : Prop :=
  ∀ st b p o m f st' b' dr, inner st b p o m f = .ok (st', b', dr) → R st st'

theorem drawKids_rel {pt : TPt} {R : RState P → RState P → Prop} (hR : CacheRel ops pt R)
    {inner : RState P → P → Ptr → Nat → List UInt8 → Bool → Res (Drawn P)} (hi : InnerRel R inner) (h : CHeap) (arr : Nat) (scale : Nat → Nat) :
    ∀ n i st b drew st' b' drew', drawKids inner h arr scale n i st b drew = .ok (st', b', drew') → R st st' := by
  intro n
  induction n with
  | zero =>
    intro i st b drew st' b' drew' e
    simp only [drawKids, Res.ok.injEq, Prod.mk.injEq] at e
    rw [← e.1]
    exact hR.refl _
  | succ n ih =>
    intro i st b drew st' b' drew' e
    simp only [drawKids] at e
    obtain ⟨⟨st1, b1, dr1⟩, e1, e2⟩ := Res.bind_eq_ok.1 e
    exact hR.trans _ _ _ (hi _ _ _ _ _ _ _ _ _ e1) (ih _ _ _ _ _ _ _ e2)

theorem drawClips_rel {pt : TPt} {R : RState P → RState P → Prop} (hR : CacheRel ops pt R)
    {inner : RState P → P → Ptr → Nat → List UInt8 → Bool → Res (Drawn P)} (hi : InnerRel R inner) (h : CHeap) (force : Bool) :
    ∀ cs st b st' b', drawClips inner h force cs st b = .ok (st', b') → R st st' := by
  intro cs
  induction cs with
  | nil =>
    intro st b st' b' e
    simp only [drawClips, Res.ok.injEq, Prod.mk.injEq] at e
    rw [← e.1]
    exact hR.refl _
  | cons c cs ih =>
    intro st b st' b' e
    cases c with
    | none => simp only [drawClips] at e; cases e
    | some p =>
      simp only [drawClips] at e
      obtain ⟨⟨st1, b1, dr1⟩, e1, e2⟩ := Res.bind_eq_ok.1 e
      exact hR.trans _ _ _ (hi _ _ _ _ _ _ _ _ _ e1) (ih _ _ _ _ e2)

theorem drawBuf_rel {pt : TPt} {R : RState P → RState P → Prop} (hR : CacheRel ops pt R)
    {inner : RState P → P → Ptr → Nat → List UInt8 → Bool → Res (Drawn P)} (hi : InnerRel R inner) (s : Scene P M) (p : Ptr) (c : Option Int)
    (opacity : Nat) (mode : List UInt8) (st0 st : RState P) (b buf : P) (h0 : R st0 st) (hc : ∀ id, c = some id → st0.cached id pt = none)
    (st' : RState P) (b' : P) (dr : DrawResult) (e : drawBuf ops inner s pt p c opacity mode st b buf = .ok (st', b', dr)) : R st0 st' := by
  have up : ∀ st1 buf, R st0 st1 → R st0 (updateCache ops .drew c pt buf st1) := by
    intro st1 buf h1
    cases c with
    | none => exact h1
    | some id => exact hR.update _ _ _ _ _ h1 (hc id rfl)
  simp only [drawBuf] at e
  split at e
  · obtain ⟨b1, _, e2⟩ := Res.bind_eq_ok.1 e
    simp only [Res.ok.injEq, Prod.mk.injEq] at e2
    rw [← e2.1]
    exact up _ _ h0
  · split at e
    · obtain ⟨⟨st1, b1⟩, e1, e2⟩ := Res.bind_eq_ok.1 e
      obtain ⟨b2, _, e3⟩ := Res.bind_eq_ok.1 e2
      simp only [Res.ok.injEq, Prod.mk.injEq] at e3
      rw [← e3.1]
      exact up _ _ (hR.trans _ _ _ h0 (drawClips_rel hR hi _ _ _ _ _ _ _ e1))
    · obtain ⟨b1, _, e1⟩ := Res.bind_eq_ok.1 e
      obtain ⟨⟨st1, b2⟩, e2, e3⟩ := Res.bind_eq_ok.1 e1
      simp only [Res.ok.injEq, Prod.mk.injEq] at e3
      rw [← e3.1]
      exact up _ _ (hR.trans _ _ _ h0 (drawClips_rel hR hi _ _ _ _ _ _ _ e2))

theorem drawLayer_rel {pt : TPt} {R : RState P → RState P → Prop} (hR : CacheRel ops pt R) (s : Scene P M) :
    ∀ f, InnerRel R (drawLayer ops s pt f) := by
  intro f
  induction f with
  | zero => intro st b p o m g st' b' dr e; cases e
  | succ f ih =>
    intro st b p o m g st' b' dr e
    simp only [drawLayer] at e
    split at e
    · simp only [Res.ok.injEq, Prod.mk.injEq] at e
      rw [← e.1]
      exact hR.refl _
    split at e
    · simp only [Res.ok.injEq, Prod.mk.injEq] at e
      rw [← e.1]
      exact hR.refl _
    split at e
    · split at e
      · simp only [Res.ok.injEq, Prod.mk.injEq] at e
        rw [← e.1]
        exact hR.refl _
      · exact drawBuf_rel hR ih s p none o m st st b _ (hR.refl _) (by intro id h; cases h) _ _ _ e
    · split at e
      · rename_i cs hcs
        have : st' = st := by
          cases cs with
          | cachedEmpty =>
            simp only [drawCached, Res.ok.injEq, Prod.mk.injEq] at e
            exact e.1.symm
          | cached =>
            simp only [drawCached] at e
            split at e
            · cases e
            · obtain ⟨b1, _, e2⟩ := Res.bind_eq_ok.1 e
              simp only [Res.ok.injEq, Prod.mk.injEq] at e2
              exact e2.1.symm
        rw [this]
        exact hR.refl _
      · rename_i hcs
        obtain ⟨⟨st1, b1, drew⟩, e1, e2⟩ := Res.bind_eq_ok.1 e
        have h1 := drawKids_rel hR ih _ _ _ _ _ _ _ _ _ _ _ e1
        simp only at e2
        split at e2
        · exact drawBuf_rel hR ih s p _ o m st st1 b _ h1 (by intro id h; injection h with h; rw [← h]; exact hcs) _ _ _ e2
        · simp only [Res.ok.injEq, Prod.mk.injEq] at e2
          rw [← e2.1]
          exact hR.update _ _ _ _ _ h1 hcs

theorem updateTile_rel {pt : TPt} {R : RState P → RState P → Prop} (hR : CacheRel ops pt R) (s : Scene P M) (fuel : Nat) (st : RState P)
    (st' : RState P) (md : Bool) (cs : CacheState) (e : updateTile ops s fuel pt st = .ok (st', md, cs)) : R st st' := by
  unfold updateTile at e
  split at e
  · simp only [Res.ok.injEq, Prod.mk.injEq] at e
    rw [← e.1]
    exact hR.refl _
  · rename_i hc
    obtain ⟨⟨st1, b1, drew⟩, e1, e2⟩ := Res.bind_eq_ok.1 e
    have h1 := drawKids_rel hR (drawLayer_rel hR s fuel) _ _ _ _ _ _ _ _ _ _ _ e1
    simp only at e2
    split at e2
    · simp only [Res.ok.injEq, Prod.mk.injEq] at e2
      rw [← e2.1]
      exact hR.update _ _ _ _ _ h1 hc
    · simp only [Res.ok.injEq, Prod.mk.injEq] at e2
      rw [← e2.1]
      exact hR.update _ _ _ _ _ h1 hc

/-- `renderTile` changes the caches as `updateTile` does. -/
theorem renderTile_update (s : Scene P M) (fuel : Nat) (diff : Bool) (pt : TPt) (st : RState P) (dest : TPt → P) (st' : RState P) (dest' : TPt → P)
    (e : renderTile ops s fuel diff pt st dest = .ok (st', dest')) : ∃ md cs, updateTile ops s fuel pt st = .ok (st', md, cs) := by
  unfold renderTile at e
  obtain ⟨⟨st1, md, cs⟩, e1, e2⟩ := Res.bind_eq_ok.1 e
  refine ⟨md, cs, ?_⟩
  have : st1 = st' := by
    simp only at e2
    split at e2
    · split at e2
      · split at e2
        · cases e2
        · simp only [Res.ok.injEq, Prod.mk.injEq] at e2
          exact e2.1
      · simp only [Res.ok.injEq, Prod.mk.injEq] at e2
        exact e2.1
    · simp only [Res.ok.injEq, Prod.mk.injEq] at e2
      exact e2.1
  rw [← this]
  exact e1

/-! ### Entries are only added -/

/-- Entries that were there are as before; what is new is on the list of changes, and what is new on the list was not there. -/
structure Grows (st st' : RState P) : Prop where
  keep : ∀ id pt, st.cached id pt ≠ none → st'.cached id pt = st.cached id pt ∧ st'.image id pt = st.image id pt
  listed : ∀ id pt, st'.cached id pt ≠ st.cached id pt → (id, pt) ∈ st'.changes
  mono : ∀ c ∈ st.changes, c ∈ st'.changes
  fresh : ∀ id pt, (id, pt) ∈ st'.changes → (id, pt) ∈ st.changes ∨ st.cached id pt = none

theorem Grows.refl (st : RState P) : Grows st st :=
  ⟨fun _ _ _ => ⟨rfl, rfl⟩, fun _ _ h => absurd rfl h, fun _ h => h, fun _ _ h => Or.inl h⟩

theorem Grows.trans {st st1 st2 : RState P} (h : Grows st st1) (h' : Grows st1 st2) : Grows st st2 := by
  refine ⟨fun id q hc => ?_, fun id q hc => ?_, fun c hc => h'.mono c (h.mono c hc), fun id q hc => ?_⟩
  · have a := h.keep id q hc
    have b := h'.keep id q (by rw [a.1]; exact hc)
    exact ⟨b.1.trans a.1, b.2.trans a.2⟩
  · by_cases e : st2.cached id q = st1.cached id q
    · exact h'.mono _ (h.listed id q (by rw [← e]; exact hc))
    · exact h'.listed id q e
  · rcases h'.fresh id q hc with g | g
    · exact h.fresh id q g
    · right
      by_cases e : st.cached id q = none
      · exact e
      · rw [(h.keep id q e).1] at g
        exact absurd g e

theorem grows_rel (pt : TPt) : CacheRel ops pt (Grows (P := P)) where
  refl := Grows.refl
  trans _ _ _ := Grows.trans
  update st st1 dr id buf h hn := by
    have key : ∀ (cs : Option CacheState) (im : Option P),
        Grows st ⟨setAt st1.cached id pt cs, setAt st1.image id pt im, st1.changes ++ [(id, pt)]⟩ := by
      intro cs im
      refine ⟨fun i q hc => ?_, fun i q hc => ?_, fun c hc => List.mem_append_left _ (h.mono c hc), fun i q hc => ?_⟩
      · simp only [setAt]
        rw [if_neg (by rintro ⟨rfl, rfl⟩; exact hc hn), if_neg (by rintro ⟨rfl, rfl⟩; exact hc hn)]
        exact h.keep i q hc
      · simp only [setAt] at hc
        by_cases e : i = id ∧ q = pt
        · rw [e.1, e.2]
          exact List.mem_append_right _ (List.mem_singleton.2 rfl)
        · rw [if_neg e] at hc
          exact List.mem_append_left _ (h.listed i q hc)
      · rcases List.mem_append.1 hc with hc | hc
        · exact h.fresh i q hc
        · simp only [List.mem_singleton, Prod.mk.injEq] at hc
          rw [hc.1, hc.2]
          exact Or.inr hn
    unfold updateCache
    cases dr <;> first | exact key _ _ | exact h

/-- Only entries of the tile `pt` change. -/
def SameElsewhere (pt : TPt) (st st' : RState P) : Prop :=
  ∀ id q, q ≠ pt → st'.cached id q = st.cached id q ∧ st'.image id q = st.image id q

theorem sameElsewhere_rel (pt : TPt) : CacheRel ops pt (SameElsewhere (P := P) pt) where
  refl st := fun _ _ _ => ⟨rfl, rfl⟩
  trans st st1 st2 h h' := fun id q hq => ⟨(h' id q hq).1.trans (h id q hq).1, (h' id q hq).2.trans (h id q hq).2⟩
  update st st1 dr id buf h hn := by
    have key : ∀ (cs : Option CacheState) (im : Option P) (ch : List (Int × TPt)),
        SameElsewhere pt st ⟨setAt st1.cached id pt cs, setAt st1.image id pt im, ch⟩ := by
      intro cs im ch i q hq
      simp only [setAt]
      rw [if_neg (by rintro ⟨_, e⟩; exact hq e), if_neg (by rintro ⟨_, e⟩; exact hq e)]
      exact h i q hq
    unfold updateCache
    cases dr <;> first | exact key _ _ _ | exact h

end

end Psd
