import Verif.Lemmas.Renderer
import Verif.Lemmas.Dirty

/-!
# The picture rendered to has what the root's cache has
-/

namespace Psd

section
variable {P M : Type} {ops : PicOps P M}

/-- Where the root's cache has an entry, the picture rendered to is what it says. -/
def Sync (ops : PicOps P M) (st : RState P) (dest : TPt → P) : Prop :=
  ∀ pt, match st.cached seqIDRoot pt with
    | none => True
    | some .cachedEmpty => ops.clear (dest pt) = dest pt
    | some .cached => ∃ img, st.image seqIDRoot pt = some img ∧ dest pt = ops.copy img

theorem Sync.deletes {st : RState P} {dest : TPt → P} (h : Sync ops st dest) {g : RState P → RState P} (hg : Deletes g) : Sync ops (g st) dest := by
  intro pt
  rcases (hg st).1 seqIDRoot pt with e | e
  · rw [e]; trivial
  · rw [e, (hg st).2]
    exact h pt

theorem updateTile_new {s : Scene P M} {fuel : Nat} {pt : TPt} {st st' : RState P} {md : Bool} {cs : CacheState} (hc : st.cached seqIDRoot pt = none)
    (e : updateTile ops s fuel pt st = .ok (st', md, cs)) : md = true ∧ st'.cached seqIDRoot pt = some cs ∧ (cs = .cached → ∃ img, st'.image seqIDRoot pt = some img) := by
  unfold updateTile at e
  rw [hc] at e
  simp only at e
  obtain ⟨⟨st1, b1, drew⟩, e1, e2⟩ := Res.bind_eq_ok.1 e
  simp only at e2
  split at e2
  · simp only [Res.ok.injEq, Prod.mk.injEq] at e2
    obtain ⟨rfl, rfl, rfl⟩ := e2
    refine ⟨rfl, ?_, fun _ => ⟨ops.copy b1, ?_⟩⟩ <;> simp [updateCache, setAt]
  · simp only [Res.ok.injEq, Prod.mk.injEq] at e2
    obtain ⟨rfl, rfl, rfl⟩ := e2
    refine ⟨rfl, ?_, fun h => by cases h⟩
    simp [updateCache, setAt]

theorem updateTile_old {s : Scene P M} {fuel : Nat} {pt : TPt} {st : RState P} {cs : CacheState} (hc : st.cached seqIDRoot pt = some cs) :
    updateTile ops s fuel pt st = .ok (st, false, cs) := by
  unfold updateTile
  rw [hc]

theorem renderTile_diff {s : Scene P M} {fuel : Nat} (pt : TPt) {st : RState P} {dest : TPt → P} (h : Sync ops st dest) :
    renderTile ops s fuel true pt st dest = renderTile ops s fuel false pt st dest := by
  unfold renderTile
  cases hc : st.cached seqIDRoot pt with
  | none =>
    cases e : updateTile ops s fuel pt st with
    | ok r =>
      obtain ⟨st1, md, cs⟩ := r
      have := (updateTile_new hc e).1
      subst this
      rfl
    | _ => rfl
  | some cs =>
    rw [updateTile_old hc]
    have := h pt
    rw [hc] at this
    simp only [Res.ok_bind, Bool.false_or, Bool.not_true, Bool.not_false, if_true, Bool.false_eq_true, if_false]
    cases cs with
    | cached =>
      obtain ⟨img, e1, e2⟩ := this
      simp only [e1]
      congr 2
      funext q
      split
      · rename_i hq; rw [hq, e2]
      · rfl
    | cachedEmpty =>
      simp only at this
      congr 2
      funext q
      split
      · rename_i hq; rw [hq, this]
      · rfl

theorem renderTile_sync (hcl : ∀ x, ops.clear (ops.clear x) = ops.clear x) {s : Scene P M} {fuel : Nat} {diff : Bool} {pt : TPt} {st st' : RState P}
    {dest dest' : TPt → P} (h : Sync ops st dest) (e : renderTile ops s fuel diff pt st dest = .ok (st', dest')) : Sync ops st' dest' := by
  have e0 : renderTile ops s fuel false pt st dest = .ok (st', dest') := by
    cases diff with
    | false => exact e
    | true => rw [← renderTile_diff pt h]; exact e
  unfold renderTile at e0
  obtain ⟨⟨st1, md, cs⟩, e1, e2⟩ := Res.bind_eq_ok.1 e0
  simp only [Bool.not_false, Bool.or_true, if_true] at e2
  have hel := updateTile_rel (sameElsewhere_rel (ops := ops) pt) s fuel st st1 md cs e1
  have hcs : st1.cached seqIDRoot pt = some cs := by
    cases hc : st.cached seqIDRoot pt with
    | none => exact (updateTile_new hc e1).2.1
    | some cs' =>
      rw [updateTile_old hc] at e1
      simp only [Res.ok.injEq, Prod.mk.injEq] at e1
      rw [← e1.1, ← e1.2.2]
      exact hc
  have others : ∀ q, q ≠ pt → ∀ d : P, d = dest q → match st1.cached seqIDRoot q with
      | none => True
      | some .cachedEmpty => ops.clear d = d
      | some .cached => ∃ img, st1.image seqIDRoot q = some img ∧ d = ops.copy img := by
    intro q hq d hd
    rw [(hel seqIDRoot q hq).1, (hel seqIDRoot q hq).2, hd]
    exact h q
  cases cs with
  | cached =>
    simp only at e2
    cases hi : st1.image seqIDRoot pt with
    | none => rw [hi] at e2; cases e2
    | some img =>
      rw [hi] at e2
      simp only [Res.ok.injEq, Prod.mk.injEq] at e2
      obtain ⟨rfl, rfl⟩ := e2
      intro q
      by_cases hq : q = pt
      · subst hq
        rw [hcs]
        exact ⟨img, hi, if_pos rfl⟩
      · exact others q hq _ (if_neg hq)
  | cachedEmpty =>
    simp only [Res.ok.injEq, Prod.mk.injEq] at e2
    obtain ⟨rfl, rfl⟩ := e2
    intro q
    by_cases hq : q = pt
    · subst hq
      rw [hcs]
      simp only [if_true]
      exact hcl _
    · exact others q hq _ (if_neg hq)

theorem renderTiles_diff (hcl : ∀ x, ops.clear (ops.clear x) = ops.clear x) {s : Scene P M} {fuel : Nat} : ∀ (pts : List TPt) (st : RState P) (dest : TPt → P),
    Sync ops st dest → renderTiles ops s fuel true pts st dest = renderTiles ops s fuel false pts st dest := by
  intro pts
  induction pts with
  | nil => intros; rfl
  | cons pt pts ih =>
    intro st dest h
    simp only [renderTiles]
    rw [renderTile_diff pt h]
    cases e : renderTile ops s fuel false pt st dest with
    | ok r => exact ih _ _ (renderTile_sync hcl h e)
    | _ => rfl

theorem Sync.step (hcl : ∀ x, ops.clear (ops.clear x) = ops.clear x) {fuel : Nat} {y y' : RSys P M} (h : Sync ops y.st y.dest) {ev : REvent P}
    (hev : ∀ dest diff, ev = .start dest diff → dest = y.dest) (e : y.step ops fuel ev = .ok y') : Sync ops y'.st y'.dest := by
  obtain ⟨scene, st, dest, diff, pending⟩ := y
  simp only at h hev
  cases ev with
  | change h' =>
    simp only [RSys.step, Res.ok.injEq] at e
    subst e
    exact h
  | start d b =>
    cases pending with
    | some ps => simp only [RSys.step, reduceCtorEq] at e
    | none =>
      simp only [RSys.step, Res.ok.injEq] at e
      subst e
      rw [hev d b rfl]
      exact h
  | tile pt =>
    cases pending with
    | none => simp only [RSys.step, reduceCtorEq] at e
    | some ps =>
      simp only [RSys.step] at e
      obtain ⟨r, e1, e2⟩ := Res.bind_eq_ok.1 e
      simp only [Res.ok.injEq] at e2
      subst e2
      exact renderTile_sync hcl h e1
  | dirty p =>
    cases pending with
    | none =>
      simp only [RSys.step, Res.ok.injEq] at e
      subst e
      exact h.deletes (setDirties_deletes scene fuel [p])
    | some ps =>
      simp only [RSys.step, Res.ok.injEq] at e
      subst e
      exact h
  | finish ab =>
    cases pending with
    | none => simp only [RSys.step, reduceCtorEq] at e
    | some ps =>
      simp only [RSys.step, Res.ok.injEq] at e
      subst e
      refine Sync.deletes (g := setDirties scene fuel ps) ?_ (setDirties_deletes scene fuel ps)
      cases ab with
      | false => exact h
      | true => 
        refine Sync.deletes (g := revert) h ?_
        intro st
        refine ⟨fun id q => ?_, rfl⟩
        simp only [revert]
        split
        · exact .inl rfl
        · exact .inr rfl

end
end Psd
