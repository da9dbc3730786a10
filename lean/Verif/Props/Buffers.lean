import Verif.Lemmas.Goroutines
import Verif.Lemmas.Tiles
import Verif.Spec.Pool
import Verif.Props.Modes

/-!
# Theorems C60 and C72: the renderer's buffers and goroutines
-/

namespace Psd

section
variable {P M : Type} {ops : PicOps P M}

/-! ### The start of a render -/

/-- The tiles of goroutine `i`. -/
def tilesOf (rowss : List (List (List TPt))) (i : Nat) (pt : TPt) : Prop := ∃ rows, rowss[i]? = some rows ∧ pt ∈ rows.flatten

theorem tilesOf_disjoint {rowss : List (List (List TPt))} (h : (rowss.map List.flatten).flatten.Nodup) : ∀ i j pt, tilesOf rowss i pt → tilesOf rowss j pt → i = j := by
  rw [List.nodup_flatten] at h
  have h2 := h.2
  rw [List.pairwise_map, List.pairwise_iff_getElem] at h2
  rintro i j pt ⟨r1, a1, a2⟩ ⟨r2, b1, b2⟩
  obtain ⟨hi, e1⟩ := List.getElem?_eq_some_iff.1 a1
  obtain ⟨hj, e2⟩ := List.getElem?_eq_some_iff.1 b1
  rcases Nat.lt_trichotomy i j with hl | he | hl
  · have := h2 i j hi hj hl
    rw [e1, e2] at this
    exact absurd b2 (this a2)
  · exact he
  · have := h2 j i hj hi hl
    rw [e1, e2] at this
    exact absurd a2 (this b2)

/-- The pool at the start of a render. -/
structure PoolOk (ops : PicOps P M) (g : RGlob P) : Prop where
  nodup : g.pool.Nodup
  blank : ∀ b ∈ g.pool, b < g.next ∧ g.mem b = ops.blank

theorem together_start (s : Scene P M) (fuel : Nat) (diff : Bool) (rowss : List (List (List TPt))) (g : RGlob P) (hg : PoolOk ops g) (hc : g.st.changes = []) (ha : g.aborted = false)
    (A : Prop) (Q : Nat → Prop) (Post : Nat → RState P → (TPt → P) → Prop)
    (hpost : ∀ i rows, rowss[i]? = some rows → ∀ j, (j < rows.length → A) → ∀ st' dest', renderTiles ops s fuel diff (rows.take j).flatten g.st g.dest = .ok (st', dest') → Post i st' dest')
    (hq : ∀ i rows, rowss[i]? = some rows → (∀ r, renderTiles ops s fuel diff rows.flatten g.st g.dest ≠ .ok r) → Q i) :
    ∃ ns, Together ops Q A Post (tilesOf rowss) g.st g.dest (total ns rowss.length) 0 (fun _ _ => none) (fun _ => g.st) (fun _ => g.dest) ns g
      (rowss.map (renderInnerB ops s fuel diff)) := by
  have each : ∀ i, ∃ n, ∀ rows, rowss[i]? = some rows → ∀ held, Ends ops (Q i) A (Post i) (tilesOf rowss i) (renderInnerB ops s fuel diff rows) held g.st g.dest n := by
    intro i
    cases e : rowss[i]? with
    | none => exact ⟨0, fun rows h => by cases h⟩
    | some rows =>
      obtain ⟨n, hn⟩ := renderInner_ends (ops := ops) (T := tilesOf rowss i) (A := A) s fuel diff rows
        (fun row hr x hx => ⟨rows, e, List.mem_flatten.2 ⟨row, hr, hx⟩⟩) g.st g.dest (Q i) (Post i) (hpost i rows e) (hq i rows e)
      refine ⟨n, fun rows' h held => ?_⟩
      injection h with h
      subst h
      exact hn held
  obtain ⟨ns, hns⟩ := Classical.skolem.1 each
  refine ⟨ns, ?_⟩
  constructor
  · intro i p hp
    rw [List.getElem?_map] at hp
    cases e : rowss[i]? with
    | none => rw [e] at hp; cases hp
    | some rows =>
      rw [e] at hp
      simp only [Option.map_some, Option.some.injEq] at hp
      rw [← hp]
      exact hns i rows e _
  · intro i b x h; cases h
  · intro i j b h; exact absurd rfl h
  · exact hg.nodup
  · exact hg.blank
  · intro i pt _ id; exact ⟨rfl, rfl⟩
  · intro i pt _; rfl
  · intro pt _; exact ⟨rfl, fun _ => ⟨rfl, rfl⟩⟩
  · intro e; rw [hc]; simp
  · intro _ _; rfl
  · intro h; rw [ha] at h; cases h
  · rw [List.length_map, ha]; simp

theorem renderRows_flat (procs ts : Nat) (hp : 1 ≤ procs) (ht : 1 ≤ ts) (rect : Rect) :
    ((renderRows procs ts rect).map List.flatten).flatten = workerTiles ts (tileStart ts rect.minX) rect.maxX (tileStart ts rect.minY, rect.maxY) := by
  rw [← tileWork_flat procs hp ht rect]
  unfold renderRows tileWork workerTiles
  rw [List.map_map]
  congr 1

theorem renderRows_nodup (procs ts : Nat) (hp : 1 ≤ procs) (ht : 1 ≤ ts) (rect : Rect) : ((renderRows procs ts rect).map List.flatten).flatten.Nodup := by
  rw [renderRows_flat procs ts hp ht rect]
  exact workerTiles_nodup ht _ _ _

/-! ## C60 -/

/-- What holds in every state of a history. -/
def PoolInv (ops : PicOps P M) (c : RGlob P × List (RProg P)) : Prop :=
  ∃ Q A Post T st0 dest0 N k held sts dests ns, (∀ i j pt, T i pt → T j pt → i = j) ∧ A ∧ Together ops Q A Post T st0 dest0 N k held sts dests ns c.1 c.2

theorem poolHistory_inv {c : RGlob P × List (RProg P)} (h : PoolHistory ops c) : PoolInv ops c := by
  induction h with
  | fresh mem st dest =>
    refine ⟨fun _ => True, True, fun _ _ _ => True, fun _ _ => False, st, dest, 0, 0, fun _ _ => none, fun _ => st, fun _ => dest, fun _ => 0, fun _ _ _ h => h.elim, trivial, ?_⟩
    constructor
    · intro i p h; simp at h
    · intro i b x h; cases h
    · intro i j b h; exact absurd rfl h
    · exact List.nodup_nil
    · intro b h; cases h
    · intro i pt h; exact h.elim
    · intro i pt h; exact h.elim
    · intro pt _; exact ⟨rfl, fun _ => ⟨rfl, rfl⟩⟩
    · intro e; exact ⟨fun h => ⟨0, h⟩, fun ⟨_, h⟩ => h⟩
    · intro _ _; rfl
    · intro _; trivial
    · simp [total]
  | @render g ps h hd s fuel diff procs ts hp ht rect st dest ih =>
    obtain ⟨Q, A, Post, T, st0, dest0, N, k, held, sts, dests, ns, hdis, ha, inv⟩ := ih
    obtain ⟨ns', h'⟩ := together_start (ops := ops) s fuel diff (renderRows procs ts rect) { g with st := { st with changes := [] }, dest := dest, aborted := false }
      ⟨inv.nodup, inv.pool⟩ rfl rfl True (fun _ => True) (fun _ _ _ => True) (fun _ _ _ _ _ _ _ _ => trivial) (fun _ _ _ _ => trivial)
    exact ⟨_, _, _, _, _, _, _, _, _, _, _, _, tilesOf_disjoint (renderRows_nodup procs ts hp ht rect), trivial, h'⟩
  | step h s ih =>
    obtain ⟨Q, A, Post, T, st0, dest0, N, k, held, sts, dests, ns, hdis, ha, inv⟩ := ih
    obtain ⟨held', sts', dests', ns', h'⟩ := inv.step hdis s (fun _ => ha)
    exact ⟨_, _, _, _, _, _, _, _, _, _, _, _, hdis, ha, h'⟩

/-- **C60 Pooled buffers are always blank.** At every moment of every history of renders, for any scenes, however the goroutines interleave and
wherever they are cancelled, each buffer that could be handed out of the pool is blank, and is in it once. (A buffer the pool makes anew is blank:
`RStep.new`.) -/
theorem C60_pool_is_blank {c : RGlob P × List (RProg P)} (h : PoolHistory ops c) : c.1.pool.Nodup ∧ ∀ b ∈ c.1.pool, c.1.mem b = ops.blank := by
  obtain ⟨Q, A, Post, T, st0, dest0, N, k, held, sts, dests, ns, _, _, inv⟩ := poolHistory_inv h
  exact ⟨inv.nodup, fun b hb => (inv.pool b hb).2⟩

/-- C60, part two: a buffer is used by one goroutine at a time, and never while it is in the pool, so what is handed out stays blank until the one
it was handed to draws on it. -/
theorem C60_one_owner {c : RGlob P × List (RProg P)} (h : PoolHistory ops c) (i b : Nat) (p : RProg P) (hp : c.2[i]? = some p) (ht : p.Touches b) :
    b ∉ c.1.pool ∧ ∀ j q, c.2[j]? = some q → q.Touches b → j = i := by
  obtain ⟨Q, A, Post, T, st0, dest0, N, k, held, sts, dests, ns, _, _, inv⟩ := poolHistory_inv h
  have holds : ∀ j q, c.2[j]? = some q → q.Touches b → held j b ≠ none := by
    intro j q hq ht
    have e := inv.ends j q hq
    cases q with
    | load d k => obtain ⟨x, e1, _⟩ := e; rw [← show d = b from ht, e1]; simp
    | store d x k => rw [← show d = b from ht]; exact e.1
    | put d k => rw [← show d = b from ht, e.1]; simp
    | _ => exact ht.elim
  refine ⟨?_, fun j q hq hqt => inv.alone j i b (holds j q hq hqt) (holds i p hp ht)⟩
  cases e : held i b with
  | none => exact absurd e (holds i p hp ht)
  | some x => exact (inv.own i b x e).2.1

/-! ## C72 -/

theorem renderTiles_join (s : Scene P M) (fuel : Nat) (diff : Bool) (st0 : RState P) (dest0 : TPt → P) (hc : st0.changes = []) :
    ∀ (rs : List (List TPt × RState P × (TPt → P))), (∀ r ∈ rs, renderTiles ops s fuel diff r.1 st0 dest0 = .ok r.2) → rs.Pairwise (fun r r' => ∀ x ∈ r.1, x ∉ r'.1) →
    ∀ (st : RState P) (dest : TPt → P), (∀ r ∈ rs, ∀ x ∈ r.1, dest x = dest0 x ∧ ∀ id, st.cached id x = st0.cached id x ∧ st.image id x = st0.image id x) →
    ∃ st' dest', renderTiles ops s fuel diff (rs.map (·.1)).flatten st dest = .ok (st', dest') ∧
      (∀ r ∈ rs, ∀ x ∈ r.1, dest' x = r.2.2 x ∧ ∀ id, st'.cached id x = r.2.1.cached id x ∧ st'.image id x = r.2.1.image id x) ∧
      ∀ e, e ∈ st'.changes ↔ e ∈ st.changes ∨ ∃ r ∈ rs, e ∈ r.2.1.changes := by
  intro rs
  induction rs with
  | nil => intro _ _ st dest _; exact ⟨st, dest, rfl, by simp, by simp⟩
  | cons r rs ih =>
    intro hok hpw st dest hag
    obtain ⟨v, q', d'⟩ := r
    have h0 := hok (v, q', d') (by simp)
    obtain ⟨p', dp, e1, ⟨ag, d, c1, c2⟩, hd⟩ := renderTiles_local (T := fun x => x ∈ v) (c := []) (c' := st.changes) s fuel diff v (fun _ h => h) (q := st0) (p := st) (dest := dest0) (dest2 := dest)
      ⟨fun x hx id => (hag (v, q', d') (by simp) x hx).2 id, [], by simp [hc], by simp⟩ (fun x hx => (hag (v, q', d') (by simp) x hx).1) h0
    have other := renderTiles_elsewhere s fuel diff v st p' dest dp e1
    rw [List.pairwise_cons] at hpw
    have apart : ∀ r ∈ rs, ∀ x ∈ r.1, x ∉ v := fun r hr x hx hv => hpw.1 r hr x hv hx
    obtain ⟨st2, dest2, e2, g1, g2⟩ := ih (fun r hr => hok r (by simp [hr])) hpw.2 p' dp (by
      intro r hr x hx
      obtain ⟨a1, a2⟩ := other x (apart r hr x hx)
      obtain ⟨b1, b2⟩ := hag r (by simp [hr]) x hx
      exact ⟨a1.trans b1, fun id => ⟨(a2 id).1.trans (b2 id).1, (a2 id).2.trans (b2 id).2⟩⟩)
    refine ⟨st2, dest2, ?_, ?_, ?_⟩
    · simp only [List.map_cons, List.flatten_cons, renderTiles_append, e1, Res.ok_bind]
      exact e2
    · intro r hr x hx
      rcases List.mem_cons.1 hr with rfl | hr
      · have hno : x ∉ (rs.map (·.1)).flatten := by
          intro hm
          obtain ⟨l, hl, hxl⟩ := List.mem_flatten.1 hm
          obtain ⟨r, hr, rfl⟩ := List.mem_map.1 hl
          exact apart r hr x hxl hx
        obtain ⟨a1, a2⟩ := renderTiles_elsewhere s fuel diff _ p' st2 dp dest2 e2 x hno
        exact ⟨a1.trans (hd x hx), fun id => ⟨(a2 id).1.trans (ag x hx id).1, (a2 id).2.trans (ag x hx id).2⟩⟩
      · exact g1 r hr x hx
    · intro e
      rw [g2, c2]
      simp only [List.nil_append] at c1
      simp only [List.mem_append, List.mem_cons, exists_eq_or_imp, c1]
      exact or_assoc

/-- What each goroutine does is possible if drawing all tiles one after another is. -/
theorem renderTiles_part (s : Scene P M) (fuel : Nat) (diff : Bool) {a v b : List TPt} {st0 : RState P} {dest0 : TPt → P} {r : RState P × (TPt → P)} (hd : ∀ x ∈ v, x ∉ a)
    (e : renderTiles ops s fuel diff (a ++ (v ++ b)) st0 dest0 = .ok r) : ∃ r', renderTiles ops s fuel diff v st0 dest0 = .ok r' := by
  rw [renderTiles_append] at e
  obtain ⟨⟨st1, d1⟩, e1, e2⟩ := Res.bind_eq_ok.1 e
  rw [renderTiles_append] at e2
  obtain ⟨⟨st2, d2⟩, e3, e4⟩ := Res.bind_eq_ok.1 e2
  have other := renderTiles_elsewhere s fuel diff a st0 st1 dest0 d1 e1
  obtain ⟨p', dp, e5, _⟩ := renderTiles_local (T := fun x => x ∈ v) (c := st1.changes) (c' := st0.changes) s fuel diff v (fun _ h => h) (q := st1) (p := st0) (dest := d1) (dest2 := dest0)
    ⟨fun x hx id => ⟨((other x (hd x hx)).2 id).1.symm, ((other x (hd x hx)).2 id).2.symm⟩, [], by simp, by simp⟩ (fun x hx => ((other x (hd x hx)).1).symm) e3
  exact ⟨_, e5⟩

theorem map_mapIdx' {α β γ : Type} (f : Nat → α → β) (h : β → γ) (l : List α) : (l.mapIdx f).map h = l.mapIdx fun i x => h (f i x) := by
  apply List.ext_getElem?
  intro i
  simp only [List.getElem?_map, List.getElem?_mapIdx, Option.map_map]
  rfl

theorem firstRows_sublist : ∀ (rowss : List (List (List TPt))) (js : Nat → Nat),
    (rowss.mapIdx fun i rows => (rows.take (js i)).flatten).flatten.Sublist (rowss.map List.flatten).flatten
  | [], _ => by simp
  | rows :: rowss, js => by
    rw [List.mapIdx_cons, List.map_cons, List.flatten_cons, List.flatten_cons]
    exact ((List.take_sublist _ _).flatten).append (firstRows_sublist rowss fun i => js (i + 1))

theorem firstRows_all : ∀ (rowss : List (List (List TPt))) (js : Nat → Nat), (∀ i rows, rowss[i]? = some rows → rows.length ≤ js i) →
    (rowss.mapIdx fun i rows => (rows.take (js i)).flatten).flatten = (rowss.map List.flatten).flatten
  | [], _, _ => by simp
  | rows :: rowss, js, h => by
    rw [List.mapIdx_cons, List.map_cons, List.flatten_cons, List.flatten_cons, List.take_of_length_le (h 0 rows rfl),
      firstRows_all rowss (fun i => js (i + 1)) fun i rows hr => h (i + 1) rows hr]

/-- All tiles of the picture, row by row. -/
def allTiles (ts : Nat) (rect : Rect) : List TPt := workerTiles ts (tileStart ts rect.minX) rect.maxX (tileStart ts rect.minY, rect.maxY)

/-- **C72 Rendering does not depend on the schedule or the number of processors.** However the goroutines of a render interleave: when all of
them have returned, the picture and the caches are those of drawing tiles one after another, once each. If the render was not cancelled, these are
all tiles of the picture, row by row; otherwise some of them in this order. -/
theorem C72_schedules_agree (s : Scene P M) (fuel : Nat) (diff : Bool) (procs ts : Nat) (hp : 1 ≤ procs) (ht : 1 ≤ ts) (rect : Rect) (g : RGlob P) (hg : PoolOk ops g)
    (hc : g.st.changes = []) (ha : g.aborted = false) (n : Nat) (g' : RGlob P) (ps' : List (RProg P)) (run : RSteps ops n (g, renderProgs ops s fuel diff procs ts rect) (g', ps'))
    (done : ∀ p ∈ ps', p = .done) :
    ∃ visited st' dest', renderTiles ops s fuel diff visited g.st g.dest = .ok (st', dest') ∧ visited.Sublist (allTiles ts rect) ∧ (g'.aborted = false → visited = allTiles ts rect) ∧
      g'.dest = dest' ∧ g'.st.cached = st'.cached ∧ g'.st.image = st'.image ∧ ∀ e, e ∈ g'.st.changes ↔ e ∈ st'.changes := by
  have hnd := renderRows_nodup procs ts hp ht rect
  have hfl := renderRows_flat procs ts hp ht rect
  unfold renderProgs at run
  unfold allTiles
  rw [← hfl]
  generalize renderRows procs ts rect = rowss at hnd run
  have hdis := tilesOf_disjoint hnd
  have hlen : ∀ {n c c'}, RSteps ops n c c' → c'.2.length = c.2.length := by
    intro n c c' h
    induction h with
    | refl => rfl
    | tail _ s ih =>
      rw [← ih]
      cases s <;> simp
  have hl : ps'.length = rowss.length := by have := hlen run; simpa using this
  obtain ⟨ns, start⟩ := together_start (ops := ops) s fuel diff rowss g hg hc ha (g'.aborted = true) (fun _ => True)
    (fun i st' dest' => ∀ rows, rowss[i]? = some rows → ∃ j, (j < rows.length → g'.aborted = true) ∧ renderTiles ops s fuel diff (rows.take j).flatten g.st g.dest = .ok (st', dest'))
    (fun i rows hr j hj st' dest' e rows' hr' => by
      rw [hr] at hr'
      injection hr' with hr'
      subst hr'
      exact ⟨j, hj, e⟩) (fun _ _ _ _ => trivial)
  obtain ⟨held, sts, dests, ns', inv⟩ := Together.steps (ops := ops) hdis run (fun h => h) start
  -- how far each goroutine got
  have far : ∀ i, ∃ j, ∀ rows, rowss[i]? = some rows → (j < rows.length → g'.aborted = true) ∧ renderTiles ops s fuel diff (rows.take j).flatten g.st g.dest = .ok (sts i, dests i) := by
    intro i
    cases e : rowss[i]? with
    | none => exact ⟨0, fun rows h => by cases h⟩
    | some rows =>
      have hi : i < ps'.length := by rw [hl]; exact (List.getElem?_eq_some_iff.1 e).1
      have hq : ps'[i]? = some .done := by
        rw [List.getElem?_eq_getElem hi, done _ (List.getElem_mem hi)]
      have := inv.ends i _ hq
      obtain ⟨j, h1, h2⟩ := this rows e
      refine ⟨j, fun rows' h => ?_⟩
      injection h with h
      subst h
      exact ⟨h1, h2⟩
  obtain ⟨js, hjs⟩ := Classical.skolem.1 far
  have hget : ∀ i (r : List TPt × RState P × (TPt → P)), (rowss.mapIdx fun i rows => ((rows.take (js i)).flatten, sts i, dests i))[i]? = some r →
      ∃ rows, rowss[i]? = some rows ∧ r = ((rows.take (js i)).flatten, sts i, dests i) := by
    intro i r h
    rw [List.getElem?_mapIdx] at h
    cases e : rowss[i]? with
    | none => rw [e] at h; cases h
    | some rows =>
      rw [e] at h
      simp only [Option.map_some, Option.some.injEq] at h
      exact ⟨rows, rfl, h.symm⟩
  have sub : ∀ (rows : List (List TPt)) (j : Nat) x, x ∈ (rows.take j).flatten → x ∈ rows.flatten := by
    intro rows j x hx
    obtain ⟨l, hl, hx⟩ := List.mem_flatten.1 hx
    exact List.mem_flatten.2 ⟨l, List.mem_of_mem_take hl, hx⟩
  obtain ⟨st', dest', e1, g1, g2⟩ := renderTiles_join (ops := ops) s fuel diff g.st g.dest hc (rowss.mapIdx fun i rows => ((rows.take (js i)).flatten, sts i, dests i))
    (by
      intro r hr
      obtain ⟨i, hi⟩ := List.mem_iff_getElem?.1 hr
      obtain ⟨rows, e, rfl⟩ := hget i r hi
      exact (hjs i rows e).2)
    (by
      rw [List.pairwise_iff_getElem]
      intro i j hi hj hij x hx hx'
      obtain ⟨r1, a1, a2⟩ := hget i _ (List.getElem?_eq_getElem hi)
      obtain ⟨r2, b1, b2⟩ := hget j _ (List.getElem?_eq_getElem hj)
      rw [a2] at hx
      rw [b2] at hx'
      have := hdis i j x ⟨r1, a1, sub _ _ _ hx⟩ ⟨r2, b1, sub _ _ _ hx'⟩
      omega)
    g.st g.dest (fun _ _ _ _ => ⟨rfl, fun _ => ⟨rfl, rfl⟩⟩)
  have other := renderTiles_elsewhere s fuel diff _ g.st st' g.dest dest' e1
  -- every tile
  have every : ∀ x, g'.dest x = dest' x ∧ ∀ id, g'.st.cached id x = st'.cached id x ∧ g'.st.image id x = st'.image id x := by
    intro x
    by_cases hin : ∃ i, tilesOf rowss i x
    · obtain ⟨i, rows, hr, hx⟩ := hin
      have hT : tilesOf rowss i x := ⟨rows, hr, hx⟩
      by_cases hv : x ∈ (rows.take (js i)).flatten
      · have hm : ((rows.take (js i)).flatten, sts i, dests i) ∈ rowss.mapIdx fun i rows => ((rows.take (js i)).flatten, sts i, dests i) := by
          apply List.mem_iff_getElem?.2
          refine ⟨i, ?_⟩
          rw [List.getElem?_mapIdx, hr]
          rfl
        obtain ⟨a1, a2⟩ := g1 _ hm x hv
        exact ⟨(inv.dest i x hT).trans a1.symm, fun id => ⟨(inv.entry i x hT id).1.trans (a2 id).1.symm, (inv.entry i x hT id).2.trans (a2 id).2.symm⟩⟩
      · have hno : x ∉ ((rowss.mapIdx fun i rows => ((rows.take (js i)).flatten, sts i, dests i)).map (·.1)).flatten := by
          intro hm
          obtain ⟨l, hl, hxl⟩ := List.mem_flatten.1 hm
          obtain ⟨r, hr', rfl⟩ := List.mem_map.1 hl
          obtain ⟨i', hi'⟩ := List.mem_iff_getElem?.1 hr'
          obtain ⟨rows', e', rfl⟩ := hget i' r hi'
          have := hdis i i' x hT ⟨rows', e', sub _ _ _ hxl⟩
          subst this
          rw [hr] at e'
          injection e' with e'
          subst e'
          exact hv hxl
        obtain ⟨a1, a2⟩ := other x hno
        obtain ⟨b1, b2⟩ := renderTiles_elsewhere s fuel diff _ g.st (sts i) g.dest (dests i) (hjs i rows hr).2 x hv
        exact ⟨(inv.dest i x hT).trans (b1.trans a1.symm), fun id => ⟨(inv.entry i x hT id).1.trans ((b2 id).1.trans (a2 id).1.symm),
          (inv.entry i x hT id).2.trans ((b2 id).2.trans (a2 id).2.symm)⟩⟩
    · have hno : x ∉ ((rowss.mapIdx fun i rows => ((rows.take (js i)).flatten, sts i, dests i)).map (·.1)).flatten := by
        intro hm
        obtain ⟨l, hl, hxl⟩ := List.mem_flatten.1 hm
        obtain ⟨r, hr', rfl⟩ := List.mem_map.1 hl
        obtain ⟨i', hi'⟩ := List.mem_iff_getElem?.1 hr'
        obtain ⟨rows', e', rfl⟩ := hget i' r hi'
        exact hin ⟨i', rows', e', sub _ _ _ hxl⟩
      obtain ⟨a1, a2⟩ := other x hno
      obtain ⟨b1, b2⟩ := inv.rest x (fun i hi => hin ⟨i, hi⟩)
      exact ⟨b1.trans a1.symm, fun id => ⟨(b2 id).1.trans (a2 id).1.symm, (b2 id).2.trans (a2 id).2.symm⟩⟩
  refine ⟨_, st', dest', e1, ?_, ?_, funext fun x => (every x).1, funext fun id => funext fun x => ((every x).2 id).1, funext fun id => funext fun x => ((every x).2 id).2, fun e => ?_⟩
  · rw [map_mapIdx']
    exact firstRows_sublist rowss js
  · intro hab
    rw [map_mapIdx']
    apply firstRows_all rowss js
    intro i rows hr
    by_cases h : js i < rows.length
    · have := (hjs i rows hr).1 h
      rw [hab] at this
      cases this
    · omega
  · rw [g2, inv.changes, hc]
    simp only [List.not_mem_nil, false_or]
    constructor
    · rintro ⟨i, hi⟩
      cases e : rowss[i]? with
      | some rows =>
        refine ⟨((rows.take (js i)).flatten, sts i, dests i), List.mem_iff_getElem?.2 ⟨i, ?_⟩, hi⟩
        rw [List.getElem?_mapIdx, e]
        rfl
      | none => exact absurd hi (by rw [inv.idle i (by rw [hl]; exact List.getElem?_eq_none_iff.1 e), hc]; simp)
    · rintro ⟨r, hr, he⟩
      obtain ⟨i, hi⟩ := List.mem_iff_getElem?.1 hr
      obtain ⟨rows, e', rfl⟩ := hget i r hi
      exact ⟨i, he⟩

/-- **C58**, for every schedule: whenever all goroutines of a render have returned, wherever it was cancelled, undoing the changes it noted leaves
exactly the tiles cached that were cached before, with the pictures they had. -/
theorem C58_abort_restores_any_schedule (s : Scene P M) (fuel : Nat) (diff : Bool) (procs ts : Nat) (hp : 1 ≤ procs) (ht : 1 ≤ ts) (rect : Rect) (g : RGlob P) (hg : PoolOk ops g)
    (hc : g.st.changes = []) (ha : g.aborted = false) (n : Nat) (g' : RGlob P) (ps' : List (RProg P)) (run : RSteps ops n (g, renderProgs ops s fuel diff procs ts rect) (g', ps'))
    (done : ∀ p ∈ ps', p = .done) :
    ∀ id pt, (revert g'.st).cached id pt = g.st.cached id pt ∧ (g.st.cached id pt ≠ none → (revert g'.st).image id pt = g.st.image id pt) := by
  obtain ⟨visited, st', dest', e, -, -, -, h1, h2, h3⟩ := C72_schedules_agree s fuel diff procs ts hp ht rect g hg hc ha n g' ps' run done
  have e' : render ops s fuel diff true visited g.st g.dest = .ok (revert st', dest') := by
    unfold render
    have : { g.st with changes := [] } = g.st := by rw [← hc]
    rw [this, e]
    rfl
  have := C58_abort_restores s fuel diff visited g.st g.dest (revert st') dest' e'
  have r1 : (revert g'.st).cached = (revert st').cached := by
    funext id pt
    simp only [revert, h1, h3]
  have r2 : (revert g'.st).image = (revert st').image := h2
  rw [r1, r2]
  exact this

/-- C72, termination: an execution of a render has a bounded number of actions, whatever the tree is and whether or not it is cancelled. -/
theorem C72_renders_end (s : Scene P M) (fuel : Nat) (diff : Bool) (procs ts : Nat) (hp : 1 ≤ procs) (ht : 1 ≤ ts) (rect : Rect) (g : RGlob P) (hg : PoolOk ops g)
    (hc : g.st.changes = []) (ha : g.aborted = false) : ∃ N, ∀ n c, RSteps ops n (g, renderProgs ops s fuel diff procs ts rect) c → n ≤ N := by
  obtain ⟨ns, start⟩ := together_start (ops := ops) s fuel diff (renderRows procs ts rect) g hg hc ha True (fun _ => True) (fun _ _ _ => True)
    (fun _ _ _ _ _ _ _ _ => trivial) (fun _ _ _ _ => trivial)
  refine ⟨total ns (renderRows procs ts rect).length + 1, fun n c run => ?_⟩
  obtain ⟨held, sts, dests, ns', inv⟩ := Together.steps (ops := ops) (tilesOf_disjoint (renderRows_nodup procs ts hp ht rect)) run (fun _ => trivial) start
  have := inv.count
  split at this <;> omega

/-- C72, no goroutine is stuck: if the tiles can be drawn one after another without a panic, then at any point of any execution no goroutine has
panicked, and as long as one has not returned, some goroutine can act. -/
theorem C72_never_stuck (s : Scene P M) (fuel : Nat) (diff : Bool) (procs ts : Nat) (hp : 1 ≤ procs) (ht : 1 ≤ ts) (rect : Rect) (g : RGlob P) (hg : PoolOk ops g)
    (hc : g.st.changes = []) (ha : g.aborted = false) (r : RState P × (TPt → P)) (hok : renderTiles ops s fuel diff (allTiles ts rect) g.st g.dest = .ok r)
    (n : Nat) (c : RGlob P × List (RProg P)) (run : RSteps ops n (g, renderProgs ops s fuel diff procs ts rect) c) :
    (∀ p ∈ c.2, p ≠ .panic) ∧ ((∃ p ∈ c.2, p ≠ .done) → ∃ c', RStep ops c c' ∧ c'.1.aborted = c.1.aborted) := by
  have hnd := renderRows_nodup procs ts hp ht rect
  have hfl := renderRows_flat procs ts hp ht rect
  unfold renderProgs at run
  unfold allTiles at hok
  rw [← hfl] at hok
  generalize renderRows procs ts rect = rowss at hnd run hok
  have hdis := tilesOf_disjoint hnd
  have parts : ∀ (i : Nat) (rows : List (List TPt)), rowss[i]? = some rows → ∃ r', renderTiles ops s fuel diff rows.flatten g.st g.dest = .ok r' := by
    intro i rows hr
    obtain ⟨hi, rfl⟩ := List.getElem?_eq_some_iff.1 hr
    have split : (rowss.map List.flatten).flatten = ((rowss.take i).map List.flatten).flatten ++ (rowss[i].flatten ++ ((rowss.drop (i + 1)).map List.flatten).flatten) := by
      have : rowss = rowss.take i ++ rowss[i] :: rowss.drop (i + 1) := by rw [List.getElem_cons_drop, List.take_append_drop]
      have := congrArg (fun l => (l.map List.flatten).flatten) this
      simp only [List.map_append, List.map_cons, List.flatten_append, List.flatten_cons] at this
      exact this
    rw [split] at hok
    refine renderTiles_part s fuel diff ?_ hok
    intro x hx hx'
    obtain ⟨l, hl, hxl⟩ := List.mem_flatten.1 hx'
    obtain ⟨rows', hr', rfl⟩ := List.mem_map.1 hl
    obtain ⟨j, hj⟩ := List.mem_iff_getElem?.1 hr'
    rw [List.getElem?_take] at hj
    split at hj
    · have := hdis i j x ⟨_, hr, hx⟩ ⟨rows', hj, hxl⟩
      omega
    · cases hj
  obtain ⟨ns, start⟩ := together_start (ops := ops) s fuel diff rowss g hg hc ha True (fun _ => False) (fun _ _ _ => True)
    (fun _ _ _ _ _ _ _ _ => trivial) (fun i rows hr h => by
      obtain ⟨r', e⟩ := parts i rows hr
      exact h r' e)
  obtain ⟨held, sts, dests, ns', inv⟩ := Together.steps (ops := ops) hdis run (fun _ => trivial) start
  have nop : ∀ p ∈ c.2, p ≠ .panic := by
    intro p hp e
    subst e
    obtain ⟨i, hi⟩ := List.mem_iff_getElem?.1 hp
    exact inv.ends i _ hi
  refine ⟨nop, ?_⟩
  rintro ⟨p, hp, hd⟩
  obtain ⟨i, hi⟩ := List.mem_iff_getElem?.1 hp
  obtain ⟨g', ps⟩ := c
  cases p with
  | done => exact absurd rfl hd
  | panic => exact absurd rfl (nop _ hp)
  | get k => exact ⟨_, RStep.new g' ps i k hi, rfl⟩
  | put b k => exact ⟨_, RStep.put g' ps i b k hi, rfl⟩
  | load b k => exact ⟨_, RStep.load g' ps i b k hi, rfl⟩
  | store b x k => exact ⟨_, RStep.store g' ps i b x k hi, rfl⟩
  | look id pt k => exact ⟨_, RStep.look g' ps i id pt k hi, rfl⟩
  | mark id pt cs f k => exact ⟨_, RStep.mark g' ps i id pt cs f k hi, rfl⟩
  | paint id pt x k => exact ⟨_, RStep.paint g' ps i id pt x k hi, rfl⟩
  | note id pt k => exact ⟨_, RStep.note g' ps i id pt k hi, rfl⟩
  | out pt f k => exact ⟨_, RStep.out g' ps i pt f k hi, rfl⟩
  | ask k => exact ⟨_, RStep.ask g' ps i k hi, rfl⟩

/-- C72, together: every execution that goes on until no goroutine can act ends, with all goroutines returned; in particular there is one, from any
point on. -/
theorem C72_can_be_completed (s : Scene P M) (fuel : Nat) (diff : Bool) (procs ts : Nat) (hp : 1 ≤ procs) (ht : 1 ≤ ts) (rect : Rect) (g : RGlob P) (hg : PoolOk ops g)
    (hc : g.st.changes = []) (ha : g.aborted = false) (r : RState P × (TPt → P)) (hok : renderTiles ops s fuel diff (allTiles ts rect) g.st g.dest = .ok r)
    (n : Nat) (c : RGlob P × List (RProg P)) (run : RSteps ops n (g, renderProgs ops s fuel diff procs ts rect) c) :
    ∃ m c', RSteps ops m (g, renderProgs ops s fuel diff procs ts rect) c' ∧ n ≤ m ∧ c'.1.aborted = c.1.aborted ∧ ∀ p ∈ c'.2, p = .done := by
  obtain ⟨N, hN⟩ := C72_renders_end (ops := ops) s fuel diff procs ts hp ht rect g hg hc ha
  have key : ∀ k n c, RSteps ops n (g, renderProgs ops s fuel diff procs ts rect) c → N - n ≤ k →
      ∃ m c', RSteps ops m (g, renderProgs ops s fuel diff procs ts rect) c' ∧ n ≤ m ∧ c'.1.aborted = c.1.aborted ∧ ∀ p ∈ c'.2, p = .done := by
    intro k
    induction k with
    | zero =>
      intro n c run hk
      refine ⟨n, c, run, Nat.le_refl _, rfl, ?_⟩
      by_contra hx
      obtain ⟨p, hx⟩ := not_forall.1 hx
      obtain ⟨hp', hx⟩ := Classical.not_imp.1 hx
      obtain ⟨c', st, _⟩ := (C72_never_stuck s fuel diff procs ts hp ht rect g hg hc ha r hok n c run).2 ⟨p, hp', hx⟩
      have := hN _ _ (run.tail st)
      omega
    | succ k ih =>
      intro n c run hk
      by_cases hx : ∀ p ∈ c.2, p = .done
      · exact ⟨n, c, run, Nat.le_refl _, rfl, hx⟩
      obtain ⟨p, hx⟩ := not_forall.1 hx
      obtain ⟨hp', hx⟩ := Classical.not_imp.1 hx
      obtain ⟨c', st, he⟩ := (C72_never_stuck s fuel diff procs ts hp ht rect g hg hc ha r hok n c run).2 ⟨p, hp', hx⟩
      obtain ⟨m, c'', r', hm, ha', hd⟩ := ih (n + 1) c' (run.tail st) (by omega)
      exact ⟨m, c'', r', by omega, ha'.trans he, hd⟩
  exact key _ n c run (Nat.le_refl _)

/-! ### Executions by a given schedule -/

/-- One action of a goroutine; it gets the buffer put back last, if there is one. -/
def act (ops : PicOps P M) (g : RGlob P) : RProg P → Option (RGlob P × RProg P)
  | .done => none
  | .panic => none
  | .get k => match g.pool with
    | [] => some ({ g with mem := setMem g.mem g.next ops.blank, next := g.next + 1 }, k g.next)
    | b :: _ => some ({ g with pool := g.pool.erase b }, k b)
  | .put b k => some ({ g with pool := b :: g.pool }, k)
  | .load b k => some (g, k (g.mem b))
  | .store b x k => some ({ g with mem := setMem g.mem b x }, k)
  | .look id pt k => some (g, k (g.st.cached id pt) (g.st.image id pt))
  | .mark id pt cs f k =>
    some ({ g with st := { g.st with cached := setAt g.st.cached id pt (some cs), image := setAt g.st.image id pt (f (g.st.image id pt)) } }, k)
  | .paint id pt x k => some ({ g with st := { g.st with image := setAt g.st.image id pt (some x) } }, k)
  | .note id pt k => some ({ g with st := { g.st with changes := g.st.changes ++ [(id, pt)] } }, k)
  | .out pt f k => some ({ g with dest := fun q => if q = pt then f (g.dest q) else g.dest q }, k)
  | .ask k => some (g, k g.aborted)

theorem act_step {g g' : RGlob P} {p p' : RProg P} {ps : List (RProg P)} {i : Nat} (hi : ps[i]? = some p) (h : act ops g p = some (g', p')) : RStep ops (g, ps) (g', ps.set i p') := by
  cases p with
  | done => cases h
  | panic => cases h
  | get k =>
    simp only [act] at h
    split at h
    · cases h; exact RStep.new g ps i _ hi
    · rename_i b bs e
      cases h
      exact RStep.old g ps i b k hi (by rw [e]; simp)
  | put b k => cases h; exact RStep.put g ps i b _ hi
  | load b k => cases h; exact RStep.load g ps i b _ hi
  | store b x k => cases h; exact RStep.store g ps i b x _ hi
  | look id pt k => cases h; exact RStep.look g ps i id pt _ hi
  | mark id pt cs f k => cases h; exact RStep.mark g ps i id pt cs f _ hi
  | paint id pt x k => cases h; exact RStep.paint g ps i id pt x _ hi
  | note id pt k => cases h; exact RStep.note g ps i id pt _ hi
  | out pt f k => cases h; exact RStep.out g ps i pt f _ hi
  | ask k => cases h; exact RStep.ask g ps i _ hi

/-- The goroutines act in the given order; one that cannot is passed over. -/
def exec (ops : PicOps P M) : List Nat → RGlob P × List (RProg P) → RGlob P × List (RProg P)
  | [], c => c
  | i :: is, (g, ps) => match ps[i]? with
    | none => exec ops is (g, ps)
    | some p => match act ops g p with
      | none => exec ops is (g, ps)
      | some (g', p') => exec ops is (g', ps.set i p')

theorem exec_history : ∀ (is : List Nat) (c : RGlob P × List (RProg P)), PoolHistory ops c → PoolHistory ops (exec ops is c)
  | [], _, h => h
  | i :: is, (g, ps), h => by
    rw [exec]
    split
    · exact exec_history is _ h
    · rename_i p hp
      split
      · exact exec_history is _ h
      · rename_i g' p' hp'
        exact exec_history is _ (.step h (act_step hp hp'))

end

/-- A renderer with an empty pool. -/
def newGlob : RGlob Tile := ⟨fun _ _ => ⟨9, 9, 9, 9⟩, [], 0, .empty, blank, false⟩

/-- Two goroutines with two tiles each, of a document with two layers; they act in the given order. -/
def exHistory (is : List Nat) : RGlob Tile × List (RProg Tile) := exec tileOps is (newGlob, renderProgs tileOps flatScene 4 false 2 64 ⟨0, 0, 64, 256⟩)

/-- The hypothesis of `C60_pool_is_blank`, and of `C60_one_owner`, for any order. -/
theorem exHistory_history (is : List Nat) : PoolHistory tileOps (exHistory is) :=
  exec_history _ _ (.render (.fresh _ .empty blank) (fun _ h => by cases h) flatScene 4 false 2 64 (by decide) (by decide) ⟨0, 0, 64, 256⟩ .empty blank)

/-- A buffer that has been drawn on is put back, and then handed to the other goroutine. -/
example : (exHistory (List.replicate 12 0)).1.mem 0 3 = ⟨200, 0, 0, 255⟩ ∧ (exHistory (List.replicate 14 0)).1.pool = [0] ∧ (exHistory (List.replicate 14 0)).1.mem 0 3 = ⟨0, 0, 0, 0⟩ ∧
    (exHistory (List.replicate 14 0 ++ [1, 1, 1])).1.pool = [] := by
  decide +kernel

/-- Both goroutines are about to use a buffer. -/
example : ((exHistory (List.replicate 7 0 ++ [1, 1, 1, 1, 1])).2.map fun p => match p with | .load b _ => b + 1 | .store b _ _ => b + 1 | _ => 0) = [1, 3] := by
  decide +kernel

/-- The hypotheses of the theorems of C72: the start of a render, drawing the tiles one after another, and an execution in which all goroutines
return. -/
example : PoolOk tileOps newGlob ∧ newGlob.st.changes = [] ∧ newGlob.aborted = false ∧
    (∃ r, renderTiles tileOps flatScene 4 false (allTiles 64 ⟨0, 0, 64, 256⟩) newGlob.st newGlob.dest = .ok r) ∧
    ∃ n c, RSteps tileOps n (newGlob, renderProgs tileOps flatScene 4 false 2 64 ⟨0, 0, 64, 256⟩) c ∧ 0 ≤ n ∧ c.1.aborted = false ∧ ∀ p ∈ c.2, p = .done := by
  have h1 : PoolOk tileOps newGlob := ⟨List.nodup_nil, fun _ h => by cases h⟩
  have h2 : ∃ r, renderTiles tileOps flatScene 4 false (allTiles 64 ⟨0, 0, 64, 256⟩) newGlob.st newGlob.dest = .ok r := by
    have e : (renderTiles tileOps flatScene 4 false (allTiles 64 ⟨0, 0, 64, 256⟩) newGlob.st newGlob.dest).map (fun r => r.2 (0, 0) 3) = .ok ⟨200, 0, 0, 255⟩ := by decide +kernel
    cases e' : renderTiles tileOps flatScene 4 false (allTiles 64 ⟨0, 0, 64, 256⟩) newGlob.st newGlob.dest with
    | ok r => exact ⟨r, rfl⟩
    | _ => rw [e'] at e; cases e
  obtain ⟨r, h3⟩ := h2
  exact ⟨h1, rfl, rfl, ⟨r, h3⟩, C72_can_be_completed flatScene 4 false 2 64 (by decide) (by decide) ⟨0, 0, 64, 256⟩ newGlob h1 rfl rfl r h3 0 _ (.refl _)⟩

end Psd
