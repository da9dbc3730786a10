import Verif.Lemmas.Buffers
import Verif.Lemmas.TileLocal

/-!
# The goroutines of a render together
-/

namespace Psd

section
variable {P M : Type} {ops : PicOps P M}

/-- What a goroutine does, if it is alone. `N` is the last number of rows. -/
theorem renderInner_ends {T : TPt → Prop} {A : Prop} (s : Scene P M) (f : Nat) (diff : Bool) : ∀ (rows : List (List TPt)) (_ : ∀ row ∈ rows, ∀ x ∈ row, T x) (st : RState P) (dest : TPt → P)
    (Q : Prop) (Post : RState P → (TPt → P) → Prop),
    (∀ j, (j < rows.length → A) → ∀ st' dest', renderTiles ops s f diff (rows.take j).flatten st dest = .ok (st', dest') → Post st' dest') →
    ((∀ r, renderTiles ops s f diff rows.flatten st dest ≠ .ok r) → Q) →
    ∃ n, ∀ held, Ends ops Q A Post T (renderInnerB ops s f diff rows) held st dest n := by
  intro rows
  induction rows with
  | nil =>
    intro _ st dest Q Post hp _
    exact ⟨0, fun held => hp 0 (by simp) st dest rfl⟩
  | cons row rows ih =>
    intro hT st dest Q Post hp hq
    obtain ⟨c, h⟩ := renderRow_refines (Q := Q) (A := A) (Post := Post) (ops := ops) s f diff row (hT row (by simp)) st dest
    have stop : A → Post st dest := fun a => hp 0 (fun _ => a) st dest rfl
    cases e : renderTiles ops s f diff row st dest with
    | ok r =>
      obtain ⟨st1, dest1⟩ := r
      obtain ⟨n, hn⟩ := ih (fun r hr => hT r (by simp [hr])) st1 dest1 Q Post (fun j hj st' dest' e' => hp (j + 1) (fun hl => hj (by simp at hl; omega)) st' dest' (by
        simp only [List.take_succ_cons, List.flatten_cons, renderTiles_append, e, Res.ok_bind]
        exact e')) (fun hne => hq fun r => by
        simp only [List.flatten_cons, renderTiles_append, e, Res.ok_bind]
        exact hne r)
      refine ⟨n + c + 1, fun held => ⟨n + c, by omega, ?_, fun a => stop a⟩⟩
      refine h held _ n ?_
      rw [e]
      exact hn
    | _ =>
      refine ⟨0 + c + 1, fun held => ⟨0 + c, by omega, ?_, fun a => stop a⟩⟩
      refine h held _ 0 ?_
      rw [e]
      refine hq fun r => ?_
      simp only [List.flatten_cons, renderTiles_append, e]
      intro h
      cases h

/-! ### The invariant -/

def upd {α : Type} (f : Nat → α) (i : Nat) (v : α) : Nat → α := fun j => if j = i then v else f j

theorem upd_self {α : Type} (f : Nat → α) (i : Nat) (v : α) : upd f i v i = v := by simp [upd]

theorem upd_ne {α : Type} (f : Nat → α) {i j : Nat} (v : α) (h : j ≠ i) : upd f i v j = f j := by simp [upd, h]

def total (ns : Nat → Nat) : Nat → Nat
  | 0 => 0
  | m + 1 => total ns m + ns m

theorem total_upd_ge (ns : Nat → Nat) (i v : Nat) : ∀ m, m ≤ i → total (upd ns i v) m = total ns m
  | 0, _ => rfl
  | m + 1, h => by rw [total, total, total_upd_ge ns i v m (by omega), upd_ne _ _ (by omega)]

theorem total_upd (ns : Nat → Nat) (i v : Nat) (hv : v < ns i) : ∀ m, i < m → total (upd ns i v) m + 1 ≤ total ns m
  | 0, h => by omega
  | m + 1, h => by
    rw [total, total]
    by_cases e : i = m
    · subst e
      rw [total_upd_ge ns i v i (by omega), upd_self]
      omega
    · have := total_upd ns i v hv m (by omega)
      rw [upd_ne _ _ (by omega)]
      omega

/-- All goroutines together are as each would be by itself: `held`, `sts` and `dests` are what each of them sees. `k` actions have been done. -/
structure Together (ops : PicOps P M) (Q : Nat → Prop) (A : Prop) (Post : Nat → RState P → (TPt → P) → Prop) (T : Nat → TPt → Prop) (st0 : RState P) (dest0 : TPt → P) (N k : Nat)
    (held : Nat → Held P) (sts : Nat → RState P) (dests : Nat → TPt → P) (ns : Nat → Nat) (g : RGlob P) (ps : List (RProg P)) : Prop where
  ends : ∀ i p, ps[i]? = some p → Ends ops (Q i) A (Post i) (T i) p (held i) (sts i) (dests i) (ns i)
  own : ∀ i b x, held i b = some x → b < g.next ∧ b ∉ g.pool ∧ g.mem b = x
  alone : ∀ i j b, held i b ≠ none → held j b ≠ none → i = j
  nodup : g.pool.Nodup
  pool : ∀ b ∈ g.pool, b < g.next ∧ g.mem b = ops.blank
  entry : ∀ i pt, T i pt → ∀ id, g.st.cached id pt = (sts i).cached id pt ∧ g.st.image id pt = (sts i).image id pt
  dest : ∀ i pt, T i pt → g.dest pt = dests i pt
  rest : ∀ pt, (∀ i, ¬ T i pt) → g.dest pt = dest0 pt ∧ ∀ id, g.st.cached id pt = st0.cached id pt ∧ g.st.image id pt = st0.image id pt
  changes : ∀ e, e ∈ g.st.changes ↔ ∃ i, e ∈ (sts i).changes
  idle : ∀ i, ps.length ≤ i → sts i = st0
  abort : g.aborted = true → A
  count : k + total ns ps.length ≤ N + (if g.aborted then 1 else 0)

variable {Q : Nat → Prop} {A : Prop} {Post : Nat → RState P → (TPt → P) → Prop} {T : Nat → TPt → Prop} {st0 : RState P} {dest0 : TPt → P} {N k : Nat}
  {held : Nat → Held P} {sts : Nat → RState P} {dests : Nat → TPt → P} {ns : Nat → Nat} {g : RGlob P} {ps : List (RProg P)}

theorem set_get {α : Type} {l : List α} {i j : Nat} {v w : α} (h : (l.set i v)[j]? = some w) : (j = i ∧ w = v) ∨ (j ≠ i ∧ l[j]? = some w) := by
  by_cases e : j = i
  · subst e
    left
    rw [List.getElem?_set_self'] at h
    cases h' : l[j]? with
    | none => rw [h'] at h; cases h
    | some z => rw [h'] at h; simp at h; exact ⟨rfl, h.symm⟩
  · right
    rw [List.getElem?_set_ne (fun h => e h.symm)] at h
    exact ⟨e, h⟩

/-- A step that does not touch the caches or the picture. -/
theorem Together.memory (h : Together ops Q A Post T st0 dest0 N k held sts dests ns g ps) {i : Nat} {p p' : RProg P} (hp : ps[i]? = some p) {held' : Held P} {n' : Nat} (hn : n' < ns i)
    (he : Ends ops (Q i) A (Post i) (T i) p' held' (sts i) (dests i) n') (mem : Nat → P) (pool : List Nat) (next : Nat)
    (h1 : ∀ b x, held' b = some x → b < next ∧ b ∉ pool ∧ mem b = x)
    (h2 : ∀ j b, j ≠ i → held j b ≠ none → b < next ∧ b ∉ pool ∧ mem b = g.mem b)
    (h3 : ∀ j b, j ≠ i → held j b ≠ none → held' b = none) (h4 : pool.Nodup) (h5 : ∀ b ∈ pool, b < next ∧ mem b = ops.blank) :
    Together ops Q A Post T st0 dest0 N (k + 1) (upd held i held') sts dests (upd ns i n') { g with mem := mem, pool := pool, next := next } (ps.set i p') := by
  have hi : i < ps.length := by
    cases Nat.lt_or_ge i ps.length with
    | inl h => exact h
    | inr h => rw [List.getElem?_eq_none h] at hp; cases hp
  constructor
  · intro j q hq
    rcases set_get hq with ⟨rfl, rfl⟩ | ⟨e, hq⟩
    · rw [upd_self, upd_self]; exact he
    · rw [upd_ne _ _ e, upd_ne _ _ e]; exact h.ends j q hq
  · intro j b x hb
    by_cases e : j = i
    · subst e; rw [upd_self] at hb; exact h1 b x hb
    · rw [upd_ne _ _ e] at hb
      obtain ⟨a1, a2, a3⟩ := h2 j b e (by rw [hb]; simp)
      exact ⟨a1, a2, a3.trans (h.own j b x hb).2.2⟩
  · intro j l b hj hl
    by_cases ej : j = i
    · by_cases el : l = i
      · rw [ej, el]
      · rw [ej, upd_self] at hj
        rw [upd_ne _ _ el] at hl
        exact absurd (h3 l b el hl) hj
    · by_cases el : l = i
      · rw [el, upd_self] at hl
        rw [upd_ne _ _ ej] at hj
        exact absurd (h3 j b ej hj) hl
      · rw [upd_ne _ _ ej] at hj
        rw [upd_ne _ _ el] at hl
        exact h.alone j l b hj hl
  · exact h4
  · exact h5
  · exact h.entry
  · exact h.dest
  · exact h.rest
  · exact h.changes
  · rw [List.length_set]; exact h.idle
  · exact h.abort
  · have := total_upd ns i n' hn ps.length hi
    have := h.count
    rw [List.length_set]
    simp only
    omega

/-- A step that does not touch the arrays. -/
theorem Together.state (hdis : ∀ i j pt, T i pt → T j pt → i = j) (h : Together ops Q A Post T st0 dest0 N k held sts dests ns g ps) {i : Nat} {p p' : RProg P} (hp : ps[i]? = some p)
    {n' : Nat} (hn : n' < ns i) {st' : RState P} {dest' : TPt → P} (he : Ends ops (Q i) A (Post i) (T i) p' (held i) st' dest' n') (st : RState P) (dest : TPt → P)
    (h1 : ∀ pt, T i pt → dest pt = dest' pt ∧ ∀ id, st.cached id pt = st'.cached id pt ∧ st.image id pt = st'.image id pt)
    (h2 : ∀ pt, ¬ T i pt → dest pt = g.dest pt ∧ ∀ id, st.cached id pt = g.st.cached id pt ∧ st.image id pt = g.st.image id pt)
    (h3 : ∀ e, e ∈ st.changes ↔ e ∈ g.st.changes ∨ e ∈ st'.changes) (h4 : ∀ e, e ∈ (sts i).changes → e ∈ st'.changes) :
    Together ops Q A Post T st0 dest0 N (k + 1) held (upd sts i st') (upd dests i dest') (upd ns i n') { g with st := st, dest := dest } (ps.set i p') := by
  have hi : i < ps.length := by
    cases Nat.lt_or_ge i ps.length with
    | inl h => exact h
    | inr h => rw [List.getElem?_eq_none h] at hp; cases hp
  constructor
  · intro j q hq
    rcases set_get hq with ⟨rfl, rfl⟩ | ⟨e, hq⟩
    · rw [upd_self, upd_self, upd_self]; exact he
    · rw [upd_ne _ _ e, upd_ne _ _ e, upd_ne _ _ e]; exact h.ends j q hq
  · exact h.own
  · exact h.alone
  · exact h.nodup
  · exact h.pool
  · intro j pt hT id
    by_cases e : j = i
    · subst e
      rw [upd_self]
      exact (h1 pt hT).2 id
    · rw [upd_ne _ _ e]
      have a := (h2 pt (fun hi => e (hdis _ _ _ hT hi))).2 id
      have b := h.entry j pt hT id
      exact ⟨a.1.trans b.1, a.2.trans b.2⟩
  · intro j pt hT
    by_cases e : j = i
    · subst e
      rw [upd_self]
      exact (h1 pt hT).1
    · rw [upd_ne _ _ e]
      exact ((h2 pt (fun hi => e (hdis _ _ _ hT hi))).1).trans (h.dest j pt hT)
  · intro pt hT
    have a := h2 pt (hT i)
    have b := h.rest pt hT
    exact ⟨a.1.trans b.1, fun id => ⟨((a.2 id).1).trans (b.2 id).1, ((a.2 id).2).trans (b.2 id).2⟩⟩
  · intro e
    rw [h3, h.changes]
    constructor
    · rintro (⟨j, hj⟩ | hj)
      · by_cases ej : j = i
        · subst ej
          exact ⟨j, by rw [upd_self]; exact h4 e hj⟩
        · exact ⟨j, by rw [upd_ne _ _ ej]; exact hj⟩
      · exact ⟨i, by rw [upd_self]; exact hj⟩
    · rintro ⟨j, hj⟩
      by_cases ej : j = i
      · subst ej
        rw [upd_self] at hj
        exact Or.inr hj
      · rw [upd_ne _ _ ej] at hj
        exact Or.inl ⟨j, hj⟩
  · intro j hj
    rw [List.length_set] at hj
    rw [upd_ne _ _ (by omega)]
    exact h.idle j hj
  · exact h.abort
  · have := total_upd ns i n' hn ps.length hi
    have := h.count
    rw [List.length_set]
    simp only
    omega

theorem Together.step (hdis : ∀ i j pt, T i pt → T j pt → i = j) (h : Together ops Q A Post T st0 dest0 N k held sts dests ns g ps) {c : RGlob P × List (RProg P)}
    (hs : RStep ops (g, ps) c) (ha : c.1.aborted = true → A) :
    ∃ held' sts' dests' ns', Together ops Q A Post T st0 dest0 N (k + 1) held' sts' dests' ns' c.1 c.2 := by
  cases hs with
  | old _ _ i b kk hp hb =>
    obtain ⟨n', hn, he⟩ := h.ends i _ hp
    have hfree : ∀ j, held j b = none := by
      intro j
      cases e : held j b with
      | none => rfl
      | some x => exact absurd hb (h.own j b x e).2.1
    refine ⟨_, _, _, _, h.memory hp hn (he b (hfree i)) g.mem (g.pool.erase b) g.next ?_ ?_ ?_ (h.nodup.erase _) ?_⟩
    · intro c x hc
      by_cases e : c = b
      · subst e
        rw [Held.set_self] at hc
        cases hc
        exact ⟨(h.pool c hb).1, fun hm => (h.nodup.mem_erase_iff.1 hm).1 rfl, (h.pool c hb).2⟩
      · rw [Held.set_ne _ _ e] at hc
        obtain ⟨a1, a2, a3⟩ := h.own i c x hc
        exact ⟨a1, fun hm => a2 (List.mem_of_mem_erase hm), a3⟩
    · intro j c _ hc
      cases e : held j c with
      | none => exact absurd e hc
      | some x =>
        obtain ⟨a1, a2, _⟩ := h.own j c x e
        exact ⟨a1, fun hm => a2 (List.mem_of_mem_erase hm), rfl⟩
    · intro j c hj hc
      have e : c ≠ b := fun e => by rw [e, hfree j] at hc; exact hc rfl
      rw [Held.set_ne _ _ e]
      cases e' : held i c with
      | none => rfl
      | some x => exact absurd (h.alone j i c hc (by rw [e']; simp)) hj
    · exact fun c hc => h.pool c (List.mem_of_mem_erase hc)
  | new _ _ i kk hp =>
    obtain ⟨n', hn, he⟩ := h.ends i _ hp
    have hfree : ∀ j, held j g.next = none := by
      intro j
      cases e : held j g.next with
      | none => rfl
      | some x => exact absurd (h.own j _ x e).1 (Nat.lt_irrefl _)
    refine ⟨_, _, _, _, h.memory hp hn (he g.next (hfree i)) (setMem g.mem g.next ops.blank) g.pool (g.next + 1) ?_ ?_ ?_ h.nodup ?_⟩
    · intro c x hc
      by_cases e : c = g.next
      · subst e
        rw [Held.set_self] at hc
        cases hc
        exact ⟨Nat.lt_succ_self _, fun hm => absurd (h.pool _ hm).1 (Nat.lt_irrefl _), by simp [setMem]⟩
      · rw [Held.set_ne _ _ e] at hc
        obtain ⟨a1, a2, a3⟩ := h.own i c x hc
        exact ⟨Nat.lt_succ_of_lt a1, a2, by simp only [setMem, if_neg e]; exact a3⟩
    · intro j c _ hc
      cases e : held j c with
      | none => exact absurd e hc
      | some x =>
        obtain ⟨a1, a2, _⟩ := h.own j c x e
        exact ⟨Nat.lt_succ_of_lt a1, a2, by simp only [setMem]; rw [if_neg (by omega)]⟩
    · intro j c hj hc
      have e : c ≠ g.next := fun e => by rw [e, hfree j] at hc; exact hc rfl
      rw [Held.set_ne _ _ e]
      cases e' : held i c with
      | none => rfl
      | some x => exact absurd (h.alone j i c hc (by rw [e']; simp)) hj
    · intro c hc
      have := (h.pool c hc).1
      exact ⟨Nat.lt_succ_of_lt this, by simp only [setMem]; rw [if_neg (by omega)]; exact (h.pool c hc).2⟩
  | put _ _ i b kk hp =>
    obtain ⟨hb, n', hn, he⟩ := h.ends i _ hp
    obtain ⟨o1, o2, o3⟩ := h.own i b _ hb
    refine ⟨_, _, _, _, h.memory hp hn he g.mem (b :: g.pool) g.next ?_ ?_ ?_ (List.nodup_cons.2 ⟨o2, h.nodup⟩) ?_⟩
    · intro c x hc
      by_cases e : c = b
      · rw [e, Held.set_self] at hc; cases hc
      · rw [Held.set_ne _ _ e] at hc
        obtain ⟨a1, a2, a3⟩ := h.own i c x hc
        exact ⟨a1, by simp [e, a2], a3⟩
    · intro j c hj hc
      have e : c ≠ b := fun e => hj (h.alone j i c hc (by rw [e, hb]; simp))
      cases e' : held j c with
      | none => exact absurd e' hc
      | some x =>
        obtain ⟨a1, a2, _⟩ := h.own j c x e'
        exact ⟨a1, by simp [e, a2], rfl⟩
    · intro j c hj hc
      have e : c ≠ b := fun e => hj (h.alone j i c hc (by rw [e, hb]; simp))
      rw [Held.set_ne _ _ e]
      cases e' : held i c with
      | none => rfl
      | some x => exact absurd (h.alone j i c hc (by rw [e']; simp)) hj
    · intro c hc
      rcases List.mem_cons.1 hc with rfl | hc
      · exact ⟨o1, o3⟩
      · exact h.pool c hc
  | load _ _ i b kk hp =>
    obtain ⟨x, hb, n', hn, he⟩ := h.ends i _ hp
    rw [← (h.own i b x hb).2.2] at he
    refine ⟨_, _, _, _, h.memory hp hn he g.mem g.pool g.next (h.own i) ?_ ?_ h.nodup h.pool⟩
    · intro j c _ hc
      cases e' : held j c with
      | none => exact absurd e' hc
      | some x =>
        obtain ⟨a1, a2, _⟩ := h.own j c x e'
        exact ⟨a1, a2, rfl⟩
    · intro j c hj hc
      cases e' : held i c with
      | none => rfl
      | some x => exact absurd (h.alone j i c hc (by rw [e']; simp)) hj
  | store _ _ i b x kk hp =>
    obtain ⟨hb, n', hn, he⟩ := h.ends i _ hp
    obtain ⟨y, hy⟩ : ∃ y, held i b = some y := by
      cases e : held i b with
      | none => exact absurd e hb
      | some y => exact ⟨y, rfl⟩
    obtain ⟨o1, o2, o3⟩ := h.own i b y hy
    refine ⟨_, _, _, _, h.memory hp hn he (setMem g.mem b x) g.pool g.next ?_ ?_ ?_ h.nodup ?_⟩
    · intro c z hc
      by_cases e : c = b
      · subst e
        rw [Held.set_self] at hc
        cases hc
        exact ⟨o1, o2, by simp [setMem]⟩
      · rw [Held.set_ne _ _ e] at hc
        obtain ⟨a1, a2, a3⟩ := h.own i c z hc
        exact ⟨a1, a2, by simp only [setMem, if_neg e]; exact a3⟩
    · intro j c hj hc
      have e : c ≠ b := fun e => hj (h.alone j i c hc (by rw [e, hy]; simp))
      cases e' : held j c with
      | none => exact absurd e' hc
      | some z =>
        obtain ⟨a1, a2, _⟩ := h.own j c z e'
        exact ⟨a1, a2, by simp only [setMem, if_neg e]⟩
    · intro j c hj hc
      have e : c ≠ b := fun e => hj (h.alone j i c hc (by rw [e, hy]; simp))
      rw [Held.set_ne _ _ e]
      cases e' : held i c with
      | none => rfl
      | some x => exact absurd (h.alone j i c hc (by rw [e']; simp)) hj
    · intro c hc
      have e : c ≠ b := fun e => by rw [e] at hc; exact o2 hc
      exact ⟨(h.pool c hc).1, by simp only [setMem, if_neg e]; exact (h.pool c hc).2⟩
  | ask _ _ i kk hp =>
    obtain ⟨n', hn, he1, he2⟩ := h.ends i _ hp
    have he : Ends ops (Q i) A (Post i) (T i) (kk g.aborted) (held i) (sts i) (dests i) n' := by
      cases e : g.aborted with
      | false => exact he1
      | true => exact he2 (h.abort e)
    refine ⟨_, _, _, _, h.memory hp hn he g.mem g.pool g.next (h.own i) ?_ ?_ h.nodup h.pool⟩
    · intro j c _ hc
      cases e' : held j c with
      | none => exact absurd e' hc
      | some x =>
        obtain ⟨a1, a2, _⟩ := h.own j c x e'
        exact ⟨a1, a2, rfl⟩
    · intro j c hj hc
      cases e' : held i c with
      | none => rfl
      | some x => exact absurd (h.alone j i c hc (by rw [e']; simp)) hj
  | look _ _ i id pt kk hp =>
    obtain ⟨hT, n', hn, he⟩ := h.ends i _ hp
    rw [← (h.entry i pt hT id).1, ← (h.entry i pt hT id).2] at he
    exact ⟨_, _, _, _, h.state hdis hp hn he g.st g.dest (fun q hq => ⟨h.dest i q hq, fun id => h.entry i q hq id⟩) (fun q _ => ⟨rfl, fun _ => ⟨rfl, rfl⟩⟩)
      (fun e => ⟨Or.inl, fun o => o.elim (fun x => x) fun x => (h.changes e).2 ⟨i, x⟩⟩) (fun _ x => x)⟩
  | mark _ _ i id pt cs f kk hp =>
    obtain ⟨hT, n', hn, he⟩ := h.ends i _ hp
    refine ⟨_, _, _, _, h.state hdis hp hn he _ g.dest (fun q hq => ⟨h.dest i q hq, fun id' => ?_⟩) (fun q hq => ⟨rfl, fun id' => ?_⟩)
      (fun e => ⟨Or.inl, fun o => o.elim (fun x => x) fun x => (h.changes e).2 ⟨i, x⟩⟩) (fun _ x => x)⟩
    · simp only [setAt]
      have a := h.entry i q hq id'
      have b := h.entry i pt hT id
      exact ⟨by rw [a.1], by rw [a.2, b.2]⟩
    · simp only [setAt]
      have e : ¬(id' = id ∧ q = pt) := fun e => by rw [e.2] at hq; exact hq hT
      exact ⟨by rw [if_neg e], by rw [if_neg e]⟩
  | paint _ _ i id pt x kk hp =>
    obtain ⟨hT, n', hn, he⟩ := h.ends i _ hp
    refine ⟨_, _, _, _, h.state hdis hp hn he _ g.dest (fun q hq => ⟨h.dest i q hq, fun id' => ?_⟩) (fun q hq => ⟨rfl, fun id' => ?_⟩)
      (fun e => ⟨Or.inl, fun o => o.elim (fun x => x) fun x => (h.changes e).2 ⟨i, x⟩⟩) (fun _ x => x)⟩
    · simp only [setAt]
      have a := h.entry i q hq id'
      exact ⟨a.1, by rw [a.2]⟩
    · simp only [setAt]
      have e : ¬(id' = id ∧ q = pt) := fun e => by rw [e.2] at hq; exact hq hT
      exact ⟨trivial, by rw [if_neg e]⟩
  | note _ _ i id pt kk hp =>
    obtain ⟨hT, n', hn, he⟩ := h.ends i _ hp
    refine ⟨_, _, _, _, h.state hdis hp hn he _ g.dest (fun q hq => ⟨h.dest i q hq, fun id' => h.entry i q hq id'⟩) (fun q hq => ⟨rfl, fun id' => ⟨rfl, rfl⟩⟩) (fun e => ?_)
      (fun _ x => List.mem_append_left _ x)⟩
    simp only [List.mem_append]
    constructor
    · rintro (x | x)
      · exact Or.inl x
      · exact Or.inr (Or.inr x)
    · rintro (x | x | x)
      · exact Or.inl x
      · exact Or.inl ((h.changes e).2 ⟨i, x⟩)
      · exact Or.inr x
  | out _ _ i pt f kk hp =>
    obtain ⟨hT, n', hn, he⟩ := h.ends i _ hp
    refine ⟨_, _, _, _, h.state hdis hp hn he g.st _ (fun q hq => ⟨?_, fun id => h.entry i q hq id⟩) (fun q hq => ⟨?_, fun _ => ⟨rfl, rfl⟩⟩)
      (fun e => ⟨Or.inl, fun o => o.elim (fun x => x) fun x => (h.changes e).2 ⟨i, x⟩⟩) (fun _ x => x)⟩
    · simp only [h.dest i q hq]
    · have e : ¬q = pt := fun e => by rw [e] at hq; exact hq hT
      rw [if_neg e]
  | cancel _ _ hab =>
    refine ⟨held, sts, dests, ns, ⟨h.ends, h.own, h.alone, h.nodup, h.pool, h.entry, h.dest, h.rest, h.changes, h.idle, ha, ?_⟩⟩
    have := h.count
    simp only [hab] at this
    simp only [if_true]
    simp at this
    omega

theorem RStep.aborted_mono {c c' : RGlob P × List (RProg P)} (hs : RStep ops c c') (h : c.1.aborted = true) : c'.1.aborted = true := by
  cases hs <;> first | exact h | rfl

theorem Together.steps (hdis : ∀ i j pt, T i pt → T j pt → i = j) {m : Nat} {c c' : RGlob P × List (RProg P)} (hs : RSteps ops m c c') :
    (c'.1.aborted = true → A) → Together ops Q A Post T st0 dest0 N 0 held sts dests ns c.1 c.2 →
    ∃ held' sts' dests' ns', Together ops Q A Post T st0 dest0 N m held' sts' dests' ns' c'.1 c'.2 := by
  induction hs with
  | refl c => intro _ h; exact ⟨_, _, _, _, h⟩
  | tail _ s ih =>
    intro ha h
    obtain ⟨held1, sts1, dests1, ns1, h1⟩ := ih (fun e => ha (s.aborted_mono e)) h
    exact h1.step hdis s ha

end

end Psd
