import Verif.Spec.Again
import Verif.Lemmas.TileLocal
import Verif.Lemmas.Sync
import Verif.Lemmas.Solid

/-!
# A tile drawn once stays as it is
-/

namespace Psd

section
variable {P M : Type} {ops : PicOps P M} {s : Scene P M} {fuel : Nat} {pt : TPt}

/-- The same entries for the tile, and the same images where an entry says there is one. -/
def AlikeAt (pt : TPt) (q p : RState P) : Prop :=
  ∀ id, p.cached id pt = q.cached id pt ∧ (q.cached id pt = some .cached → p.image id pt = q.image id pt)

theorem AlikeAt.refl (q : RState P) : AlikeAt pt q q := fun _ => ⟨rfl, fun _ => rfl⟩

theorem AlikeAt.trans {q p r : RState P} (h : AlikeAt pt q p) (h' : AlikeAt pt p r) : AlikeAt pt q r := fun id =>
  ⟨(h' id).1.trans (h id).1, fun e => ((h' id).2 ((h id).1.trans e)).trans ((h id).2 e)⟩

theorem alike_local : SameTile ops pt (AlikeAt (P := P) pt) where
  cached q p id h := (h id).1
  image q p id h := (h id).2
  update dr o buf q p h := by
    cases o with
    | none => exact h
    | some id =>
      have key : ∀ cs im, AlikeAt pt ⟨setAt q.cached id pt cs, setAt q.image id pt im, q.changes ++ [(id, pt)]⟩
          ⟨setAt p.cached id pt cs, setAt p.image id pt im, p.changes ++ [(id, pt)]⟩ := by
        intro cs im i
        simp only [setAt]
        by_cases hi : i = id
        · simp [hi]
        · simp only [hi, false_and, if_false]
          exact h i
      cases dr <;> first | exact key _ _ | exact h

/-- No entries for the tile. -/
def Blank (pt : TPt) (st : RState P) : Prop := ∀ id, st.cached id pt = none

theorem Blank.alike {st : RState P} (h : Blank pt st) : AlikeAt pt .empty st := fun id => ⟨h id, fun e => by cases e⟩

/-- The entries a new renderer has for the tile once it has drawn it. -/
def Drawn1 (ops : PicOps P M) (s : Scene P M) (fuel : Nat) (pt : TPt) (st : RState P) : Prop :=
  ∃ st1 md cs, updateTile ops s fuel pt .empty = .ok (st1, md, cs) ∧ AlikeAt pt st1 st

theorem Drawn1.root {st : RState P} (h : Drawn1 ops s fuel pt st) : ∃ st1 md cs, updateTile ops s fuel pt .empty = .ok (st1, md, cs) ∧ AlikeAt pt st1 st ∧ st.cached seqIDRoot pt = some cs := by
  obtain ⟨st1, md, cs, e, a⟩ := h
  exact ⟨st1, md, cs, e, a, (a _).1.trans (updateTile_new (by rfl) e).2.1⟩

/-- What drawing the tile comes to, if it has no entries or those of a new renderer. -/
theorem again_tile {st st' : RState P} (h : Blank pt st ∨ Drawn1 ops s fuel pt st) {md : Bool} {cs : CacheState} (e : updateTile ops s fuel pt st = .ok (st', md, cs)) :
    ∃ st1 md1, updateTile ops s fuel pt .empty = .ok (st1, md1, cs) ∧ AlikeAt pt st1 st' ∧ st'.cached seqIDRoot pt = some cs := by
  rcases h with h | h
  · obtain ⟨st1, e1, a⟩ := updateTile_local (q := st) (p := .empty) (alike_local (ops := ops) (pt := pt)) s fuel (fun id => ⟨(h id).symm, fun e => by rw [h id] at e; cases e⟩) e
    refine ⟨st1, md, e1, fun id => ⟨((a id).1).symm, fun e => ((a id).2 ((a id).1.symm.trans e)).symm⟩, (updateTile_new (h _) e).2.1⟩
  · obtain ⟨st1, md1, cs1, e1, a, hc⟩ := h.root
    rw [updateTile_old hc] at e
    simp only [Res.ok.injEq, Prod.mk.injEq] at e
    obtain ⟨rfl, rfl, rfl⟩ := e
    exact ⟨st1, md1, e1, a, hc⟩

/-- During a render: the tile has no entries, or those of a new renderer, and of these either none or all are of this render. -/
def CalmTile (ops : PicOps P M) (s : Scene P M) (fuel : Nat) (pt : TPt) (st : RState P) : Prop :=
  Blank pt st ∨ Drawn1 ops s fuel pt st ∧ ((∀ id, (id, pt) ∉ st.changes) ∨ ∀ id, st.cached id pt ≠ none → (id, pt) ∈ st.changes)

theorem CalmTile.either {st : RState P} (h : CalmTile ops s fuel pt st) : Blank pt st ∨ Drawn1 ops s fuel pt st := h.imp id And.left

/-- Entries of the tile noted as changed are the same. -/
def NotedElsewhere (pt' : TPt) (st st' : RState P) : Prop := ∀ id q, q ≠ pt' → ((id, q) ∈ st'.changes ↔ (id, q) ∈ st.changes)

theorem notedElsewhere_rel (pt' : TPt) : CacheRel ops pt' (NotedElsewhere (P := P) pt') where
  refl _ := fun _ _ _ => Iff.rfl
  trans _ _ _ h h' := fun id q hq => (h' id q hq).trans (h id q hq)
  update st st1 dr id buf h _ := by
    have key : ∀ (cs : Int → TPt → Option CacheState) (im : Int → TPt → Option P), NotedElsewhere pt' st ⟨cs, im, st1.changes ++ [(id, pt')]⟩ := by
      intro cs im i q hq
      simp only [List.mem_append, List.mem_singleton, Prod.mk.injEq]
      rw [h i q hq]
      exact ⟨fun e => e.elim (fun e => e) (fun e => absurd e.2 hq), .inl⟩
    unfold updateCache
    cases dr <;> first | exact key _ _ | exact h

theorem CalmTile.tile {st st' : RState P} (h : CalmTile ops s fuel pt st) {pt' : TPt} {md : Bool} {cs : CacheState} (e : updateTile ops s fuel pt' st = .ok (st', md, cs)) :
    CalmTile ops s fuel pt st' := by
  by_cases hne : pt = pt'
  · subst hne
    obtain ⟨st1, md1, e1, a, hc⟩ := again_tile h.either e
    rcases h with hb | ⟨hd, hch⟩
    · refine .inr ⟨⟨st1, md1, cs, e1, a⟩, .inr fun id hn => ?_⟩
      exact (updateTile_rel (grows_rel pt) s fuel st st' md cs e).listed id pt (by rw [hb id]; exact hn)
    · obtain ⟨_, _, _, _, _, hc'⟩ := hd.root
      rw [updateTile_old hc'] at e
      simp only [Res.ok.injEq, Prod.mk.injEq] at e
      obtain ⟨rfl, -, -⟩ := e
      exact .inr ⟨hd, hch⟩
  · have ho := updateTile_rel (sameElsewhere_rel pt') s fuel st st' md cs e
    have hn := updateTile_rel (notedElsewhere_rel pt') s fuel st st' md cs e
    rcases h with hb | ⟨⟨st1, md1, cs1, e1, a⟩, hch⟩
    · exact .inl fun id => (ho id pt hne).1.trans (hb id)
    · refine .inr ⟨⟨st1, md1, cs1, e1, fun id => ⟨(ho id pt hne).1.trans (a id).1, fun e => (ho id pt hne).2.trans ((a id).2 e)⟩⟩, ?_⟩
      rcases hch with hch | hch
      · exact .inl fun id hm => hch id ((hn id pt hne).1 hm)
      · exact .inr fun id hm => (hn id pt hne).2 (hch id (by rw [← (ho id pt hne).1]; exact hm))

/-- The render is cancelled. -/
theorem CalmTile.revert {st : RState P} (h : CalmTile ops s fuel pt st) : Blank pt (revert st) ∨ Drawn1 ops s fuel pt (revert st) := by
  rcases h with hb | ⟨⟨st1, md1, cs1, e1, a⟩, hch | hch⟩
  · refine .inl fun id => ?_
    simp only [Psd.revert]
    split
    · rfl
    · exact hb id
  · refine .inr ⟨st1, md1, cs1, e1, fun id => ?_⟩
    simp only [Psd.revert, if_neg (hch id)]
    exact a id
  · refine .inl fun id => ?_
    simp only [Psd.revert]
    split
    · rfl
    · rename_i hm
      exact Classical.byContradiction fun hn => hm (hch id hn)

/-- A new render begins. -/
theorem calm_start {st : RState P} (h : Blank pt st ∨ Drawn1 ops s fuel pt st) : CalmTile ops s fuel pt { st with changes := [] } :=
  h.imp (fun h => h) fun h => ⟨h, .inl fun _ hm => by cases hm⟩

/-! ### Marks elsewhere -/

/-- What is done to the entries of other tiles only. -/
def LeavesTile (pt : TPt) (g : RState P → RState P) : Prop := ∀ st id, (g st).cached id pt = st.cached id pt ∧ (g st).image id pt = st.image id pt

theorem LeavesTile.comp {g g' : RState P → RState P} (h : LeavesTile pt g) (h' : LeavesTile pt g') : LeavesTile pt (fun st => g' (g st)) := fun st id =>
  ⟨((h' _ id).1).trans (h st id).1, ((h' _ id).2).trans (h st id).2⟩

theorem clearArea_leaves {area : List TPt} (ha : pt ∉ area) (id : Int) : LeavesTile (P := P) pt (clearArea id area) := fun st i => by
  simp only [clearArea]
  exact ⟨if_neg fun e => ha e.2, trivial⟩

theorem dirtyPassLoop_leaves {inner : Ptr → RState P → RState P} (hi : ∀ p, LeavesTile pt (inner p)) (h : CHeap) (arr : Nat) : ∀ n i, LeavesTile pt (dirtyPassLoop inner h arr n i) := by
  intro n
  induction n with
  | zero => intro i st id; exact ⟨rfl, rfl⟩
  | succ n ih =>
    intro i st id
    simp only [dirtyPassLoop]
    split
    · exact ((hi _).comp (ih (i + 1))) st id
    · exact ih (i + 1) st id

theorem dirtyPass_leaves {area : List TPt} (ha : pt ∉ area) (h : CHeap) : ∀ f p, LeavesTile (P := P) pt (dirtyPass h area f p) := by
  intro f
  induction f with
  | zero => intro p st id; exact ⟨rfl, rfl⟩
  | succ f ih =>
    intro p st id
    exact ((clearArea_leaves ha _).comp (dirtyPassLoop_leaves ih h _ _ _)) st id

theorem dirtyUp_leaves {area : List TPt} (ha : pt ∉ area) (h : CHeap) (deep : Nat) : ∀ f p, LeavesTile (P := P) pt (dirtyUp h area deep f p) := by
  intro f
  induction f with
  | zero => intro p st id; exact ⟨rfl, rfl⟩
  | succ f ih =>
    intro p st id
    simp only [dirtyUp]
    split
    · split
      · exact ((clearArea_leaves ha _).comp (ih _)) st id
      · exact clearArea_leaves ha _ st id
    · split
      · exact (((clearArea_leaves ha _).comp (dirtyPassLoop_leaves (dirtyPass_leaves ha h deep) h _ _ _)).comp (ih _)) st id
      · exact clearArea_leaves ha _ st id

theorem lookup_none_keys {α β : Type} [BEq α] [LawfulBEq α] {k : α} : ∀ {l : List (α × β)}, l.lookup k = none → k ∉ l.map Prod.fst := by
  intro l
  induction l with
  | nil => intro _ h; cases h
  | cons x l ih =>
    obtain ⟨a, b⟩ := x
    intro e h
    rw [List.lookup_cons] at e
    by_cases hk : k = a
    · subst hk
      simp at e
    · have : (k == a) = false := by simpa using hk
      rw [this] at e
      rcases List.mem_cons.1 h with h | h
      · exact hk h
      · exact ih e h

theorem NothingAt.child {p : Ptr} (h : NothingAt s pt p) {i : Nat} (hi : i < (s.h.at_ p).children.len) : NothingAt s pt ((s.h.at_ p).children.arr, i) := fun π q e =>
  h (i :: π) q (by rw [slotAt, if_pos hi]; exact e)

theorem areaLoop_nothing {inner : Ptr → List TPt} {arr : Nat} (hi : ∀ p, NothingAt s pt p → pt ∉ inner p) : ∀ n i, (∀ k, i ≤ k → k < i + n → NothingAt s pt (arr, k)) →
    pt ∉ areaLoop inner s arr n i := by
  intro n
  induction n with
  | zero => intro i _ h; cases h
  | succ n ih =>
    intro i hn h
    have h0 := hn i (Nat.le_refl _) (by omega)
    simp only [areaLoop, List.mem_append] at h
    rcases h with h | h
    · split at h
      · cases h
      · split at h
        · rename_i c hc
          have := h0 [] _ rfl
          rw [Scene.pic, hc] at this
          exact lookup_none_keys this h
        · split at h
          · exact hi _ h0 h
          · cases h
    · exact ih (i + 1) (fun k h1 h2 => hn k (by omega) (by omega)) h

theorem areaKids_nothing : ∀ f p, NothingAt s pt p → pt ∉ areaKids s f p := by
  intro f
  induction f with
  | zero => intro p _ h; cases h
  | succ f ih =>
    intro p hp h
    exact areaLoop_nothing (fun q => ih q) _ _ (fun k _ hk => hp.child (by omega)) h

theorem areaMap_nothing (f : Nat) {p : Ptr} (h : NothingAt s pt p) : pt ∉ areaMap s f p := by
  unfold areaMap
  simp only
  split
  · rename_i c hc
    have := h [] p rfl
    rw [Scene.pic, hc] at this
    exact lookup_none_keys this
  · split
    · exact areaKids_nothing f p h
    · intro h; cases h

theorem setDirty_leaves (f : Nat) {p : Ptr} (h : NothingAt s pt p) : LeavesTile (P := P) pt (setDirty s f p) := dirtyUp_leaves (areaMap_nothing f h) _ _ _ _

theorem marks_leave (f : Nat) : ∀ (ps : List Ptr), (∀ p ∈ ps, NothingAt s pt p) → LeavesTile (P := P) pt (fun st => ps.foldl (fun st p => setDirty s f p st) st) := by
  intro ps
  induction ps with
  | nil => intro _ st id; exact ⟨rfl, rfl⟩
  | cons p ps ih => intro h st id; exact ((setDirty_leaves f (h p List.mem_cons_self)).comp (ih fun q hq => h q (List.mem_cons_of_mem _ hq))) st id

theorem LeavesTile.either {g : RState P → RState P} (hg : LeavesTile pt g) {st : RState P} (h : Blank pt st ∨ Drawn1 ops s fuel pt st) : Blank pt (g st) ∨ Drawn1 ops s fuel pt (g st) := by
  rcases h with h | ⟨st1, md, cs, e, a⟩
  · exact .inl fun id => (hg st id).1.trans (h id)
  · exact .inr ⟨st1, md, cs, e, fun id => ⟨(hg st id).1.trans (a id).1, fun e => (hg st id).2.trans ((a id).2 e)⟩⟩

/-! ### Histories -/

/-- A renderer whose tile is calm. -/
def CalmSys (ops : PicOps P M) (s : Scene P M) (fuel : Nat) (pt : TPt) (y : RSys P M) : Prop :=
  y.scene = s ∧ match y.pending with
  | none => Blank pt y.st ∨ Drawn1 ops s fuel pt y.st
  | some ps => CalmTile ops s fuel pt y.st ∧ ∀ p ∈ ps, NothingAt s pt p

theorem CalmSys.either {y : RSys P M} (h : CalmSys ops s fuel pt y) : Blank pt y.st ∨ Drawn1 ops s fuel pt y.st := by
  obtain ⟨_, h⟩ := h
  split at h
  · exact h
  · exact h.1.either

theorem quiet_calm {y : RSys P M} (u : QuietAt ops fuel s pt y) : CalmSys ops s fuel pt y := by
  induction u with
  | new dest diff => exact ⟨rfl, .inl fun id => rfl⟩
  | step y y' ev _ hev hd e ih =>
    obtain ⟨scene, st, dest, diff, pending⟩ := y
    obtain ⟨h1, h2⟩ := ih
    simp only at h1
    subst h1
    cases pending with
    | none =>
      cases ev with
      | start d df =>
        simp only [RSys.step, Res.ok.injEq] at e
        subst e
        exact ⟨rfl, calm_start h2, fun p hp => by cases hp⟩
      | tile q => simp only [RSys.step] at e; cases e
      | dirty p =>
        simp only [RSys.step, Res.ok.injEq] at e
        subst e
        exact ⟨rfl, (setDirty_leaves fuel (hd p rfl)).either h2⟩
      | change h => exact absurd rfl (hev h)
      | finish ab => simp only [RSys.step] at e; cases e
    | some ps =>
      obtain ⟨h2, h3⟩ := h2
      cases ev with
      | start d df => simp only [RSys.step] at e; cases e
      | tile q =>
        simp only [RSys.step] at e
        obtain ⟨⟨st1, d1⟩, e1, e2⟩ := Res.bind_eq_ok.1 e
        simp only [Res.ok.injEq] at e2
        subst e2
        obtain ⟨md, cs, e3⟩ := renderTile_update _ _ _ _ _ _ _ _ e1
        exact ⟨rfl, h2.tile e3, h3⟩
      | dirty p =>
        simp only [RSys.step, Res.ok.injEq] at e
        subst e
        refine ⟨rfl, h2, fun q hq => ?_⟩
        rcases List.mem_append.1 hq with hq | hq
        · exact h3 q hq
        · rw [List.mem_singleton.1 hq]; exact hd p rfl
      | change h => exact absurd rfl (hev h)
      | finish ab =>
        simp only [RSys.step, Res.ok.injEq] at e
        subst e
        refine ⟨rfl, (marks_leave fuel ps h3).either ?_⟩
        cases ab with
        | false => exact h2.either
        | true => exact h2.revert

/-! ### Two renders -/

theorem renderTile_again {p q p' q' : RState P} (hp : Blank pt p ∨ Drawn1 ops s fuel pt p) (hq : Blank pt q ∨ Drawn1 ops s fuel pt q) {pt' : TPt} {d1 d2 d1' d2' : TPt → P}
    (e1 : renderTile ops s fuel false pt' p d1 = .ok (p', d1')) (e2 : renderTile ops s fuel false pt' q d2 = .ok (q', d2')) (hd : d1 pt = d2 pt) :
    d1' pt = d2' pt ∧ (Blank pt p' ∨ Drawn1 ops s fuel pt p') ∧ (Blank pt q' ∨ Drawn1 ops s fuel pt q') := by
  have next : ∀ {p p' : RState P} {d d' : TPt → P}, (Blank pt p ∨ Drawn1 ops s fuel pt p) → renderTile ops s fuel false pt' p d = .ok (p', d') → (Blank pt p' ∨ Drawn1 ops s fuel pt p') := by
    intro p p' d d' h e
    obtain ⟨md, cs, e⟩ := renderTile_update _ _ _ _ _ _ _ _ e
    by_cases hne : pt = pt'
    · subst hne
      obtain ⟨st1, md1, f, a, _⟩ := again_tile h e
      exact .inr ⟨st1, md1, cs, f, a⟩
    · have ho := updateTile_rel (sameElsewhere_rel pt') s fuel p p' md cs e
      rcases h with hb | ⟨st1, md1, cs1, f, a⟩
      · exact .inl fun id => (ho id pt hne).1.trans (hb id)
      · exact .inr ⟨st1, md1, cs1, f, fun id => ⟨(ho id pt hne).1.trans (a id).1, fun e => (ho id pt hne).2.trans ((a id).2 e)⟩⟩
  refine ⟨?_, next hp e1, next hq e2⟩
  by_cases hne : pt = pt'
  · subst hne
    unfold renderTile at e1 e2
    obtain ⟨⟨p1, m1, c1⟩, f1, e1⟩ := Res.bind_eq_ok.1 e1
    obtain ⟨⟨q1, m2, c2⟩, f2, e2⟩ := Res.bind_eq_ok.1 e2
    obtain ⟨x, _, g1, a1, r1⟩ := again_tile hp f1
    obtain ⟨x', _, g2, a2, r2⟩ := again_tile hq f2
    rw [g1] at g2
    simp only [Res.ok.injEq, Prod.mk.injEq] at g2
    obtain ⟨rfl, _, rfl⟩ := g2
    simp only [Bool.not_false, Bool.or_true, if_true] at e1 e2
    cases c1 with
    | cachedEmpty =>
      simp only [Res.ok.injEq, Prod.mk.injEq] at e1 e2
      rw [← e1.2, ← e2.2]
      simp only [if_true, hd]
    | cached =>
      have hx := (a1 seqIDRoot).1.symm.trans r1
      have i1 := (a1 seqIDRoot).2 hx
      have i2 := (a2 seqIDRoot).2 hx
      simp only [i1] at e1
      simp only [i2] at e2
      cases hi : x.image seqIDRoot pt with
      | none => rw [hi] at e1; cases e1
      | some im =>
        rw [hi] at e1 e2
        simp only [Res.ok.injEq, Prod.mk.injEq] at e1 e2
        rw [← e1.2, ← e2.2]
        simp only [if_true]
  · have k1 : d1' pt = d1 pt := renderTile_elsewhere e1 hne
    have k2 : d2' pt = d2 pt := renderTile_elsewhere e2 hne
    rw [k1, k2, hd]

theorem renderTiles_again : ∀ (pts : List TPt) {p q p' q' : RState P} (_ : Blank pt p ∨ Drawn1 ops s fuel pt p) (_ : Blank pt q ∨ Drawn1 ops s fuel pt q) {d1 d2 d1' d2' : TPt → P}
    (_ : renderTiles ops s fuel false pts p d1 = .ok (p', d1')) (_ : renderTiles ops s fuel false pts q d2 = .ok (q', d2')) (_ : d1 pt = d2 pt), d1' pt = d2' pt := by
  intro pts
  induction pts with
  | nil =>
    intro p q p' q' _ _ d1 d2 d1' d2' e1 e2 hd
    simp only [renderTiles, Res.ok.injEq, Prod.mk.injEq] at e1 e2
    rw [← e1.2, ← e2.2, hd]
  | cons x pts ih =>
    intro p q p' q' hp hq d1 d2 d1' d2' e1 e2 hd
    simp only [renderTiles] at e1 e2
    obtain ⟨⟨p1, x1⟩, f1, e1⟩ := Res.bind_eq_ok.1 e1
    obtain ⟨⟨q1, x2⟩, f2, e2⟩ := Res.bind_eq_ok.1 e2
    obtain ⟨h1, h2, h3⟩ := renderTile_again hp hq f1 f2 hd
    exact ih h2 h3 e1 e2 h1

end

end Psd
