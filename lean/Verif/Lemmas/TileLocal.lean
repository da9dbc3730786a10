import Verif.Model.Renderer
import Verif.Lemmas.Renderer

/-!
# Drawing a tile depends only on the tile's entries
-/

namespace Psd

section
variable {P M : Type} {ops : PicOps P M} {pt : TPt} {R : RState P → RState P → Prop}

/-- A relation between two runs' caches that drawing the tile `pt` cannot break. -/
structure SameTile (ops : PicOps P M) (pt : TPt) (R : RState P → RState P → Prop) : Prop where
  cached : ∀ q p id, R q p → p.cached id pt = q.cached id pt
  image : ∀ q p id, R q p → q.cached id pt = some .cached → p.image id pt = q.image id pt
  update : ∀ dr c buf q p, R q p → R (updateCache ops dr c pt buf q) (updateCache ops dr c pt buf p)

def InnerSame (R : RState P → RState P → Prop) (inner : RState P → P → Ptr → Nat → List UInt8 → Bool → Res (Drawn P)) : Prop :=
  ∀ q p b ptr o m fc q' b' dr, R q p → inner q b ptr o m fc = .ok (q', b', dr) → ∃ p', inner p b ptr o m fc = .ok (p', b', dr) ∧ R q' p'

theorem drawKids_local {inner : RState P → P → Ptr → Nat → List UInt8 → Bool → Res (Drawn P)} (hi : InnerSame R inner) (h : CHeap) (arr : Nat) (scale : Nat → Nat) :
    ∀ n i q p b drew q' b' drew', R q p → drawKids inner h arr scale n i q b drew = .ok (q', b', drew') →
      ∃ p', drawKids inner h arr scale n i p b drew = .ok (p', b', drew') ∧ R q' p' := by
  intro n
  induction n with
  | zero =>
    intro i q p b drew q' b' drew' hs e
    simp only [drawKids, Res.ok.injEq, Prod.mk.injEq] at e
    obtain ⟨rfl, rfl, rfl⟩ := e
    exact ⟨p, rfl, hs⟩
  | succ n ih =>
    intro i q p b drew q' b' drew' hs e
    simp only [drawKids] at e
    obtain ⟨⟨q1, b1, dr1⟩, e1, e2⟩ := Res.bind_eq_ok.1 e
    obtain ⟨p1, e3, hs1⟩ := hi _ _ _ _ _ _ _ _ _ _ hs e1
    obtain ⟨p2, e4, hs2⟩ := ih _ _ _ _ _ _ _ _ hs1 e2
    refine ⟨p2, ?_, hs2⟩
    simp only [drawKids, e3, Res.ok_bind]
    exact e4

theorem drawClips_local {inner : RState P → P → Ptr → Nat → List UInt8 → Bool → Res (Drawn P)} (hi : InnerSame R inner) (h : CHeap) (force : Bool) :
    ∀ cs q p b q' b', R q p → drawClips inner h force cs q b = .ok (q', b') → ∃ p', drawClips inner h force cs p b = .ok (p', b') ∧ R q' p' := by
  intro cs
  induction cs with
  | nil =>
    intro q p b q' b' hs e
    simp only [drawClips, Res.ok.injEq, Prod.mk.injEq] at e
    obtain ⟨rfl, rfl⟩ := e
    exact ⟨p, rfl, hs⟩
  | cons c cs ih =>
    intro q p b q' b' hs e
    cases c with
    | none => simp only [drawClips] at e; cases e
    | some ptr =>
      simp only [drawClips] at e
      obtain ⟨⟨q1, b1, dr1⟩, e1, e2⟩ := Res.bind_eq_ok.1 e
      obtain ⟨p1, e3, hs1⟩ := hi _ _ _ _ _ _ _ _ _ _ hs e1
      obtain ⟨p2, e4, hs2⟩ := ih _ _ _ _ _ hs1 e2
      refine ⟨p2, ?_, hs2⟩
      simp only [drawClips, e3, Res.ok_bind]
      exact e4

theorem drawBuf_local (hR : SameTile ops pt R) {inner : RState P → P → Ptr → Nat → List UInt8 → Bool → Res (Drawn P)} (hi : InnerSame R inner) (s : Scene P M) (ptr : Ptr)
    (c : Option Int) (o : Nat) (mode : List UInt8) (q p : RState P) (b buf : P) (q' : RState P) (b' : P) (dr : DrawResult) (hs : R q p)
    (e : drawBuf ops inner s pt ptr c o mode q b buf = .ok (q', b', dr)) : ∃ p', drawBuf ops inner s pt ptr c o mode p b buf = .ok (p', b', dr) ∧ R q' p' := by
  simp only [drawBuf] at e ⊢
  generalize applyMask ops (s.h.at_ ptr).attr ((s.mask (s.h.at_ ptr).attr.seqID).lookup pt) mode b buf = buf at e ⊢
  split at e
  · rename_i h0
    rw [if_pos h0]
    obtain ⟨b1, e1, e2⟩ := Res.bind_eq_ok.1 e
    simp only [Res.ok.injEq, Prod.mk.injEq] at e2
    obtain ⟨rfl, rfl, rfl⟩ := e2
    rw [e1]
    exact ⟨_, rfl, hR.update _ _ _ _ _ hs⟩
  · rename_i h0
    rw [if_neg h0]
    split at e
    · rename_i hb
      rw [if_pos hb]
      obtain ⟨⟨q1, b1⟩, e1, e2⟩ := Res.bind_eq_ok.1 e
      obtain ⟨b2, e3, e4⟩ := Res.bind_eq_ok.1 e2
      simp only [Res.ok.injEq, Prod.mk.injEq] at e4
      obtain ⟨rfl, rfl, rfl⟩ := e4
      obtain ⟨p1, e5, hs1⟩ := drawClips_local hi _ _ _ _ _ _ _ _ hs e1
      simp only [e5, Res.ok_bind]
      rw [e3]
      exact ⟨_, rfl, hR.update _ _ _ _ _ hs1⟩
    · rename_i hb
      rw [if_neg hb]
      obtain ⟨b1, e1, e2⟩ := Res.bind_eq_ok.1 e
      obtain ⟨⟨q1, b2⟩, e3, e4⟩ := Res.bind_eq_ok.1 e2
      simp only [Res.ok.injEq, Prod.mk.injEq] at e4
      obtain ⟨rfl, rfl, rfl⟩ := e4
      rw [e1]
      simp only [Res.ok_bind]
      obtain ⟨p1, e5, hs1⟩ := drawClips_local hi _ _ _ _ _ _ _ _ hs e3
      rw [e5]
      exact ⟨_, rfl, hR.update _ _ _ _ _ hs1⟩

theorem drawLayer_local (hR : SameTile ops pt R) (s : Scene P M) : ∀ n, InnerSame R (drawLayer ops s pt n) := by
  intro n
  induction n with
  | zero => intro q p b ptr o m fc q' b' dr hs e; cases e
  | succ n ih =>
    intro q p b ptr o m fc q' b' dr hs e
    simp only [drawLayer] at e ⊢
    split at e
    · rename_i h1
      rw [if_pos h1]
      simp only [Res.ok.injEq, Prod.mk.injEq] at e
      obtain ⟨rfl, rfl, rfl⟩ := e
      exact ⟨p, rfl, hs⟩
    rename_i h1
    rw [if_neg h1]
    split at e
    · rename_i h2
      rw [if_pos h2]
      simp only [Res.ok.injEq, Prod.mk.injEq] at e
      obtain ⟨rfl, rfl, rfl⟩ := e
      exact ⟨p, rfl, hs⟩
    rename_i h2
    rw [if_neg h2]
    split at e
    · rename_i h3
      rw [if_pos h3]
      split at e
      · rename_i hp
        simp only [Res.ok.injEq, Prod.mk.injEq] at e
        obtain ⟨rfl, rfl, rfl⟩ := e
        exact ⟨p, rfl, hs⟩
      · rename_i pic hp
        exact drawBuf_local hR ih s ptr none o m q p b _ q' b' dr hs e
    · rename_i h3
      rw [if_neg h3, hR.cached q p _ hs]
      split at e
      · rename_i cs hcs
        cases cs with
        | cachedEmpty =>
          simp only [drawCached, Res.ok.injEq, Prod.mk.injEq] at e
          obtain ⟨rfl, rfl, rfl⟩ := e
          exact ⟨p, rfl, hs⟩
        | cached =>
          simp only [drawCached] at e ⊢
          rw [hR.image q p _ hs hcs]
          split at e
          · cases e
          · rename_i ci hci
            obtain ⟨b1, e1, e2⟩ := Res.bind_eq_ok.1 e
            simp only [Res.ok.injEq, Prod.mk.injEq] at e2
            obtain ⟨rfl, rfl, rfl⟩ := e2
            rw [e1]
            exact ⟨p, rfl, hs⟩
      · rename_i hcs
        obtain ⟨⟨q1, b1, drew⟩, e1, e2⟩ := Res.bind_eq_ok.1 e
        obtain ⟨p1, e3, hs1⟩ := drawKids_local ih _ _ _ _ _ _ _ _ _ _ _ _ hs e1
        rw [e3]
        simp only [Res.ok_bind]
        simp only at e2
        split at e2
        · rename_i hd
          rw [if_pos hd]
          exact drawBuf_local hR ih s ptr _ o m q1 p1 b _ q' b' dr hs1 e2
        · rename_i hd
          rw [if_neg hd]
          simp only [Res.ok.injEq, Prod.mk.injEq] at e2
          obtain ⟨rfl, rfl, rfl⟩ := e2
          exact ⟨_, rfl, hR.update _ _ _ _ _ hs1⟩

theorem updateTile_local (hR : SameTile ops pt R) (s : Scene P M) (fuel : Nat) {q q' p : RState P} {md : Bool} {cs : CacheState} (hs : R q p)
    (e : updateTile ops s fuel pt q = .ok (q', md, cs)) : ∃ p', updateTile ops s fuel pt p = .ok (p', md, cs) ∧ R q' p' := by
  unfold updateTile at e ⊢
  rw [hR.cached q p _ hs]
  split at e
  · rename_i cs' hcs
    simp only [Res.ok.injEq, Prod.mk.injEq] at e
    obtain ⟨rfl, rfl, rfl⟩ := e
    exact ⟨p, rfl, hs⟩
  · rename_i hcs
    obtain ⟨⟨q1, b1, drew⟩, e1, e2⟩ := Res.bind_eq_ok.1 e
    obtain ⟨p1, e3, hs1⟩ := drawKids_local (drawLayer_local hR s fuel) _ _ _ _ _ _ _ _ _ _ _ _ hs e1
    simp only [e3, Res.ok_bind]
    simp only at e2
    split at e2
    · rename_i hd
      rw [if_pos hd]
      simp only [Res.ok.injEq, Prod.mk.injEq] at e2
      obtain ⟨rfl, rfl, rfl⟩ := e2
      exact ⟨_, rfl, hR.update _ _ _ _ _ hs1⟩
    · rename_i hd
      rw [if_neg hd]
      simp only [Res.ok.injEq, Prod.mk.injEq] at e2
      obtain ⟨rfl, rfl, rfl⟩ := e2
      exact ⟨_, rfl, hR.update _ _ _ _ _ hs1⟩

/-- The caches agree on the tiles in `T`, and since a moment when the lists of changes were `c` and `c'` the same changes were noted. -/
def AgreeOn (T : TPt → Prop) (c c' : List (Int × TPt)) (q p : RState P) : Prop :=
  (∀ pt, T pt → ∀ id, p.cached id pt = q.cached id pt ∧ p.image id pt = q.image id pt) ∧ ∃ d, q.changes = c ++ d ∧ p.changes = c' ++ d

theorem agreeOn_local {T : TPt → Prop} {c c' : List (Int × TPt)} (hT : T pt) : SameTile ops pt (AgreeOn (P := P) T c c') where
  cached q p id h := (h.1 pt hT id).1
  image q p id h _ := (h.1 pt hT id).2
  update dr o buf q p h := by
    obtain ⟨h1, d, h2, h3⟩ := h
    cases o with
    | none => exact ⟨h1, d, h2, h3⟩
    | some id =>
      have key : ∀ cs im, AgreeOn T c c' ⟨setAt q.cached id pt cs, setAt q.image id pt im, q.changes ++ [(id, pt)]⟩
          ⟨setAt p.cached id pt cs, setAt p.image id pt im, p.changes ++ [(id, pt)]⟩ := by
        intro cs im
        refine ⟨fun x hx i => ?_, d ++ [(id, pt)], by simp [h2], by simp [h3]⟩
        simp only [setAt]
        exact ⟨by rw [(h1 x hx i).1], by rw [(h1 x hx i).2]⟩
      cases dr <;> first | exact key _ _ | exact ⟨h1, d, h2, h3⟩

theorem renderTile_local {T : TPt → Prop} {c c' : List (Int × TPt)} (hT : T pt) (s : Scene P M) (fuel : Nat) (diff : Bool) {q q' p : RState P} {dest dest2 dest' : TPt → P}
    (hs : AgreeOn T c c' q p) (hd : ∀ x, T x → dest2 x = dest x) (e : renderTile ops s fuel diff pt q dest = .ok (q', dest')) :
    ∃ p' dest2', renderTile ops s fuel diff pt p dest2 = .ok (p', dest2') ∧ AgreeOn T c c' q' p' ∧ ∀ x, T x → dest2' x = dest' x := by
  unfold renderTile at e ⊢
  obtain ⟨⟨q1, md, cs⟩, e1, e2⟩ := Res.bind_eq_ok.1 e
  obtain ⟨p1, e3, hs1⟩ := updateTile_local (agreeOn_local (ops := ops) hT) s fuel hs e1
  simp only [e3, Res.ok_bind]
  simp only at e2
  split at e2
  · rename_i hm
    rw [if_pos hm]
    split at e2
    · rw [(hs1.1 pt hT seqIDRoot).2]
      split at e2
      · cases e2
      · rename_i ci hci
        simp only [Res.ok.injEq, Prod.mk.injEq] at e2
        obtain ⟨rfl, rfl⟩ := e2
        refine ⟨_, _, rfl, hs1, fun x hx => ?_⟩
        simp only [hd x hx]
    · simp only [Res.ok.injEq, Prod.mk.injEq] at e2
      obtain ⟨rfl, rfl⟩ := e2
      refine ⟨_, _, rfl, hs1, fun x hx => ?_⟩
      simp only [hd x hx]
  · rename_i hm
    rw [if_neg hm]
    simp only [Res.ok.injEq, Prod.mk.injEq] at e2
    obtain ⟨rfl, rfl⟩ := e2
    exact ⟨_, _, rfl, hs1, hd⟩

theorem renderTiles_local {T : TPt → Prop} {c c' : List (Int × TPt)} (s : Scene P M) (fuel : Nat) (diff : Bool) : ∀ (pts : List TPt) (_ : ∀ x ∈ pts, T x) {q q' p : RState P}
    {dest dest2 dest' : TPt → P}, AgreeOn T c c' q p → (∀ x, T x → dest2 x = dest x) → renderTiles ops s fuel diff pts q dest = .ok (q', dest') →
    ∃ p' dest2', renderTiles ops s fuel diff pts p dest2 = .ok (p', dest2') ∧ AgreeOn T c c' q' p' ∧ ∀ x, T x → dest2' x = dest' x := by
  intro pts
  induction pts with
  | nil =>
    intro _ q q' p dest dest2 dest' hs hd e
    simp only [renderTiles, Res.ok.injEq, Prod.mk.injEq] at e
    obtain ⟨rfl, rfl⟩ := e
    exact ⟨_, _, rfl, hs, hd⟩
  | cons x pts ih =>
    intro hT q q' p dest dest2 dest' hs hd e
    rw [renderTiles] at e
    obtain ⟨⟨q1, d1⟩, e1, e2⟩ := Res.bind_eq_ok.1 e
    obtain ⟨p1, d2, e3, hs1, hd1⟩ := renderTile_local (hT x (by simp)) s fuel diff hs hd e1
    obtain ⟨p2, d3, e4, hs2, hd2⟩ := ih (fun x hx => hT x (by simp [hx])) hs1 hd1 e2
    refine ⟨p2, d3, ?_, hs2, hd2⟩
    rw [renderTiles, e3]
    exact e4

theorem renderTiles_append (s : Scene P M) (fuel : Nat) (diff : Bool) : ∀ (a b : List TPt) (st : RState P) (dest : TPt → P),
    renderTiles ops s fuel diff (a ++ b) st dest = (renderTiles ops s fuel diff a st dest >>= fun r => renderTiles ops s fuel diff b r.1 r.2) := by
  intro a
  induction a with
  | nil => intro b st dest; rfl
  | cons x a ih =>
    intro b st dest
    simp only [List.cons_append, renderTiles]
    cases renderTile ops s fuel diff x st dest with
    | ok r => simp only [Res.ok_bind]; exact ih b r.1 r.2
    | _ => rfl

/-- Other tiles stay as they are. -/
theorem renderTiles_elsewhere (s : Scene P M) (fuel : Nat) (diff : Bool) : ∀ (pts : List TPt) (st st' : RState P) (dest dest' : TPt → P),
    renderTiles ops s fuel diff pts st dest = .ok (st', dest') → ∀ x, x ∉ pts → dest' x = dest x ∧ ∀ id, st'.cached id x = st.cached id x ∧ st'.image id x = st.image id x := by
  intro pts
  induction pts with
  | nil =>
    intro st st' dest dest' e x _
    simp only [renderTiles, Res.ok.injEq, Prod.mk.injEq] at e
    obtain ⟨rfl, rfl⟩ := e
    exact ⟨rfl, fun _ => ⟨rfl, rfl⟩⟩
  | cons y pts ih =>
    intro st st' dest dest' e x hx
    rw [renderTiles] at e
    obtain ⟨⟨st1, d1⟩, e1, e2⟩ := Res.bind_eq_ok.1 e
    obtain ⟨a1, a2⟩ := ih _ _ _ _ e2 x (fun h => hx (by simp [h]))
    have hne : x ≠ y := fun h => hx (by simp [h])
    obtain ⟨md, cs, e3⟩ := renderTile_update s fuel diff y st dest st1 d1 e1
    have b2 := updateTile_rel (sameElsewhere_rel y) s fuel st st1 md cs e3
    have b1 : d1 x = dest x := by
      unfold renderTile at e1
      rw [e3] at e1
      simp only [Res.ok_bind] at e1
      split at e1
      · split at e1
        · split at e1
          · cases e1
          · simp only [Res.ok.injEq, Prod.mk.injEq] at e1
            rw [← e1.2]
            simp only [if_neg hne]
        · simp only [Res.ok.injEq, Prod.mk.injEq] at e1
          rw [← e1.2]
          simp only [if_neg hne]
      · simp only [Res.ok.injEq, Prod.mk.injEq] at e1
        rw [e1.2]
    exact ⟨a1.trans b1, fun id => ⟨(a2 id).1.trans (b2 id x hne).1, (a2 id).2.trans (b2 id x hne).2⟩⟩

end

end Psd
