import Verif.Lemmas.Again
import Verif.Props.Solid

/-!
# Theorem C123: rendering again shows the same
-/

namespace Psd

/-- **C123** Whatever was rendered and cancelled before, in whatever order, and whatever layers were marked dirty that have no pixels in a tile: `Render` shows in this tile what a new renderer
would show. The layers may have any pixels, masks, opacities and blend modes, and the tree may be any. -/
theorem C123_same_tile {P M : Type} (ops : PicOps P M) (fuel : Nat) (s : Scene P M) (pt : TPt) (y : RSys P M) (u : QuietAt ops fuel s pt y) (visited : List TPt) (dest : TPt → P)
    (st st' : RState P) (again fresh : TPt → P) (e1 : render ops s fuel false false visited y.st dest = .ok (st, again))
    (e2 : render ops s fuel false false visited .empty dest = .ok (st', fresh)) : again pt = fresh pt := by
  unfold render at e1 e2
  obtain ⟨⟨p, d1⟩, f1, e1⟩ := Res.bind_eq_ok.1 e1
  obtain ⟨⟨q, d2⟩, f2, e2⟩ := Res.bind_eq_ok.1 e2
  simp only [Bool.false_eq_true, if_false, Res.ok.injEq, Prod.mk.injEq] at e1 e2
  rw [← e1.2, ← e2.2]
  exact renderTiles_again visited (calm_start (quiet_calm u).either).either (.inl fun id => rfl) f1 f2 rfl

theorem QuietAt.rendered {P M : Type} {ops : PicOps P M} {fuel : Nat} {s : Scene P M} {pt : TPt} {y : RSys P M} (u : QuietAt ops fuel s pt y) : Rendered ops fuel s y := by
  induction u with
  | new dest diff => exact .new dest diff
  | step y y' ev _ hev _ e ih => exact .step y y' ev ih hev e

/-- **C123** If the blend modes are known neither render panics. -/
theorem C123_known_modes (s : Scene Tile (Nat → UInt8)) (depth fuel : Nat) (hf : 2 * depth ≤ fuel) (ok : TreeOk s depth) (hm : ModesKnown s)
    (y : RSys Tile (Nat → UInt8)) (u : Rendered tileOps fuel s y) (visited : List TPt) (dest : TPt → Tile) :
    ∃ st st' again fresh, render tileOps s fuel false false visited y.st dest = .ok (st, again) ∧ render tileOps s fuel false false visited .empty dest = .ok (st', fresh) ∧
      ∀ pt, QuietAt tileOps fuel s pt y → again pt = fresh pt := by
  obtain ⟨hi, rfl⟩ := rendered_images hf ok hm u
  obtain ⟨st, st', c, f, e1, e2, -⟩ := render_agree hm hf ok hi visited dest
  exact ⟨st, st', c, f, e1, e2, fun pt q => C123_same_tile tileOps fuel y.scene pt y q visited dest st st' c f e1 e2⟩

theorem QuietAt.run {P M : Type} {ops : PicOps P M} {fuel : Nat} {s : Scene P M} {pt : TPt} : ∀ (evs : List (REvent P)) (y y' : RSys P M), QuietAt ops fuel s pt y →
    (∀ ev ∈ evs, (∀ h, ev ≠ .change h) ∧ ∀ p, ev = .dirty p → NothingAt s pt p) → RSys.run ops fuel evs y = .ok y' → QuietAt ops fuel s pt y' := by
  intro evs
  induction evs with
  | nil => intro y y' u _ e; simp only [RSys.run, Res.ok.injEq] at e; rw [← e]; exact u
  | cons ev evs ih =>
    intro y y' u h e
    simp only [RSys.run] at e
    obtain ⟨y1, e1, e2⟩ := Res.bind_eq_ok.1 e
    exact ih y1 y' (.step y y1 ev u (h ev List.mem_cons_self).1 (h ev List.mem_cons_self).2 e1) (fun ev hm => h ev (List.mem_cons_of_mem _ hm)) e2

/-- **C123** If nothing was marked dirty at all, the whole picture is the one a new renderer would give. -/
theorem C123_no_marks {P M : Type} (ops : PicOps P M) (fuel : Nat) (s : Scene P M) (dest0 : TPt → P) (diff0 : Bool) (evs : List (REvent P))
    (hev : ∀ ev ∈ evs, (∀ h, ev ≠ .change h) ∧ ∀ p, ev ≠ .dirty p) (y : RSys P M) (e : RSys.run ops fuel evs ⟨s, .empty, dest0, diff0, none⟩ = .ok y) (visited : List TPt) (dest : TPt → P)
    (st st' : RState P) (again fresh : TPt → P) (e1 : render ops s fuel false false visited y.st dest = .ok (st, again))
    (e2 : render ops s fuel false false visited .empty dest = .ok (st', fresh)) : again = fresh := by
  funext pt
  exact C123_same_tile ops fuel s pt y (QuietAt.run evs _ y (.new dest0 diff0) (fun ev hm => ⟨(hev ev hm).1, fun p hp => absurd hp ((hev ev hm).2 p)⟩) e) visited dest st st' again fresh e1 e2

/-- The folder's layer has pixels, hardly to be seen, in two tiles, the layer above in the second only. -/
def farScene : Scene Tile (Nat → UInt8) where
  h := exRHeap
  root := (1, 0)
  canvas := fun id =>
    if id = 1 then some [((0, 0), plainTile ⟨100, 0, 0, 1⟩), ((1, 0), plainTile ⟨100, 0, 0, 1⟩)]
    else if id = 2 then some [((1, 0), plainTile ⟨0, 0, 0, 0⟩)]
    else none
  mask := fun _ => []

/-- A render that is cancelled, a render, and one during which the upper layer is marked dirty. -/
def farEvents : List (REvent Tile) :=
  [.start blank false, .tile (0, 0), .finish true, .start blank false, .tile (1, 0), .tile (0, 0), .finish false, .start blank true, .tile (0, 0), .dirty (2, 1), .finish false]

/-- The folder's entry is in use again, and in the second tile, where the layer that was marked has pixels, the colours do change (`C56_lossy_cache`); in the first they do not. -/
example : ∃ y, QuietAt tileOps 4 farScene (0, 0) y ∧ TreeOk farScene 2 ∧ ModesKnown farScene ∧ y.st.cached 0 (0, 0) = some .cached ∧
    (render tileOps farScene 4 false false [(0, 0), (1, 0)] y.st blank).map (fun r => (r.2 (0, 0) 5, r.2 (1, 0) 5)) = .ok (⟨97, 0, 0, 1⟩, ⟨96, 0, 0, 1⟩) ∧
    (render tileOps farScene 4 false false [(0, 0), (1, 0)] .empty blank).map (fun r => (r.2 (0, 0) 5, r.2 (1, 0) 5)) = .ok (⟨97, 0, 0, 1⟩, ⟨97, 0, 0, 1⟩) := by
  have h : (RSys.run tileOps 4 farEvents ⟨farScene, .empty, blank, false, none⟩ >>= fun y =>
      (render tileOps farScene 4 false false [(0, 0), (1, 0)] y.st blank).map (fun r => (y.st.cached 0 (0, 0), r.2 (0, 0) 5, r.2 (1, 0) 5))) =
        .ok (some .cached, ⟨97, 0, 0, 1⟩, ⟨96, 0, 0, 1⟩) := by decide +kernel
  obtain ⟨y, e1, e2⟩ := Res.bind_eq_ok.1 h
  have hn : NothingAt farScene (0, 0) (2, 1) := by
    intro π q hq
    cases π with
    | nil =>
      injection hq with hq
      subst hq
      decide +kernel
    | cons i π =>
      rw [slotAt, if_neg (show ¬ i < (farScene.h.at_ (2, 1)).children.len from Nat.not_lt_zero i)] at hq
      cases hq
  cases e3 : render tileOps farScene 4 false false [(0, 0), (1, 0)] y.st blank with
  | ok r =>
    rw [e3] at e2
    simp only [Res.map, Res.ok.injEq, Prod.mk.injEq] at e2
    refine ⟨y, QuietAt.run farEvents _ y (.new _ _) ?_ e1, (Linked.of_list exRList (by decide) (by decide) (by decide) (by decide) (by decide) (by decide) (by decide)).toTreeOk,
      ModesKnown.of_list exRList (by decide +kernel) (by decide +kernel) (by decide +kernel), e2.1, ?_, by decide +kernel⟩
    · intro ev hm
      refine ⟨fun h e => ?_, fun p e => ?_⟩
      · subst e
        simp [farEvents] at hm
      · subst e
        simp only [farEvents, List.mem_cons, REvent.dirty.injEq, reduceCtorEq, List.not_mem_nil, or_false, false_or] at hm
        subst hm
        exact hn
    · rw [e3]
      simp only [Res.map, e2.2.1, e2.2.2]
  | _ => rw [e3] at e2; cases e2

end Psd
