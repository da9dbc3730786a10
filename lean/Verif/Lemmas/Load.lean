import Verif.Spec.Load
import Verif.Lemmas.Basic

/-!
# Invariants of loading
-/

namespace Psd

/-- The layer a goroutine is working on. -/
def Importer.index : Importer → Option Nat
  | .idle => none
  | .got i => some i
  | .drawn i _ => some i
  | .masked i _ => some i

theorem loadMask_setRect (procs ts : Nat) (t : Option TileMap) (l : LayerRec) : loadMask procs ts (setRect ts t l) = loadMask procs ts l := by
  cases t <;> rfl

theorem setRect_seqID (ts : Nat) (t : Option TileMap) (l : LayerRec) : (setRect ts t l).seqID = l.seqID := by cases t <;> rfl

theorem setMaskRect_seqID (ts : Nat) (t : Option TileMap) (l : LayerRec) : (setMaskRect ts t l).seqID = l.seqID := by cases t <;> rfl

theorem retiled_seqID (ts : Nat) (img : LayerImage) (l : LayerRec) : (retiled ts img l).seqID = l.seqID := by
  unfold retiled
  rw [setMaskRect_seqID, setRect_seqID]

/-- What a copy of the layer `l` may be: neither, one or both rectangles are those of the tiles. -/
def Between (procs ts : Nat) (l l' : LayerRec) : Prop :=
  l' = l ∨ ∃ c, loadCanvas procs ts l = .ok c ∧ (l' = setRect ts c l ∨ ∃ m, loadMask procs ts l = .ok m ∧ l' = retiled ts ⟨c, m⟩ l)

/-- The state of the loading of the layer `l`, number `i`, by a goroutine; `cur` is the layer in the array. -/
def Holds (procs ts : Nat) (l cur : LayerRec) : Importer → Prop
  | .idle => False
  | .got _ => cur = l
  | .drawn _ c => loadCanvas procs ts l = .ok c ∧ cur = setRect ts c l
  | .masked _ img => LoadsTo procs ts l img ∧ cur = retiled ts img l

structure ImportInv (procs ts : Nat) (flat : List LayerRec) (s : Import) : Prop where
  len : s.layers.length = flat.length
  sent_le : s.sent ≤ flat.length
  unsent : ∀ i : Nat, s.sent ≤ i → s.layers[i]? = flat[i]?
  held : ∀ (w i : Nat) p, s.workers[w]? = some p → p.index = some i → i < s.sent ∧ ∃ l cur, flat[i]? = some l ∧ s.layers[i]? = some cur ∧
    Holds procs ts l cur p
  one : ∀ (w w' i : Nat) p p', s.workers[w]? = some p → s.workers[w']? = some p' → p.index = some i → p'.index = some i → w = w'
  free : ∀ i : Nat, i < s.sent → (∀ (w : Nat) p, s.workers[w]? = some p → p.index ≠ some i) →
    ∃ l img, flat[i]? = some l ∧ LoadsTo procs ts l img ∧ s.layers[i]? = some (retiled ts img l) ∧ s.images l.seqID = some img
  images : ∀ k img, s.images k = some img → ∃ (i : Nat) (l : LayerRec), flat[i]? = some l ∧ l.seqID = k ∧ LoadsTo procs ts l img
  copies : s.copied.length ≤ flat.length ∧ ∀ (j : Nat) l', s.copied[j]? = some l' → ∃ l, flat[j]? = some l ∧ Between procs ts l l'

/-- Distinct layers have distinct numbers. -/
def Numbered (flat : List LayerRec) : Prop :=
  ∀ (i j : Nat) l l', flat[i]? = some l → flat[j]? = some l' → l.seqID = l'.seqID → i = j

theorem importInv_start (procs ts n : Nat) (flat : List LayerRec) : ImportInv procs ts flat (Import.start n flat) where
  len := rfl
  sent_le := Nat.zero_le _
  unsent _ _ := rfl
  held w i p h hi := by
    rw [Import.start, List.getElem?_replicate] at h
    split at h
    · cases h; cases hi
    · cases h
  one w w' i p p' h _ hi := by
    rw [Import.start, List.getElem?_replicate] at h
    split at h
    · cases h; cases hi
    · cases h
  free i h := by cases h
  images k img h := by cases h
  copies := ⟨Nat.zero_le _, fun j l' h => by simp [Import.start] at h⟩

theorem set_cases {α : Type} {l : List α} {w w' : Nat} {p q : α} (h : (l.set w p)[w']? = some q) : (w' = w ∧ q = p) ∨ (w' ≠ w ∧ l[w']? = some q) := by
  rw [List.getElem?_set] at h
  split at h
  · rename_i e
    split at h
    · exact .inl ⟨e.symm, (Option.some.inj h).symm⟩
    · cases h
  · rename_i e
    exact .inr ⟨fun e' => e e'.symm, h⟩

theorem Holds.between {procs ts : Nat} {l cur : LayerRec} {p : Importer} (h : Holds procs ts l cur p) : Between procs ts l cur := by
  cases p with
  | idle => cases h
  | got i => exact .inl h
  | drawn i c => exact .inr ⟨c, h.1, .inl h.2⟩
  | masked i img => exact .inr ⟨img.canvas, h.1.1, .inr ⟨img.mask, h.1.2, h.2⟩⟩

variable {procs ts : Nat} {flat : List LayerRec}

/-- A goroutine goes on with the layer it has. -/
theorem ImportInv.go_on {s : Import} (h : ImportInv procs ts flat s) {w i : Nat} {p p' : Importer} {l cur new : LayerRec}
    (hw : s.workers[w]? = some p) (hi : p.index = some i) (hi' : p'.index = some i) (hl : flat[i]? = some l) (hc : s.layers[i]? = some cur)
    (hh : Holds procs ts l new p') :
    ImportInv procs ts flat { s with layers := s.layers.set i new, workers := s.workers.set w p' } where
  len := by rw [List.length_set]; exact h.len
  sent_le := h.sent_le
  unsent j hj := by
    have := (h.held w i p hw hi).1
    rw [List.getElem?_set_ne (by simp only at hj; omega)]
    exact h.unsent j hj
  held w' j q hq hj := by
    rcases set_cases hq with ⟨rfl, rfl⟩ | ⟨hne, hq⟩
    · rw [hi'] at hj
      cases hj
      refine ⟨(h.held _ i p hw hi).1, l, new, hl, ?_, hh⟩
      exact List.getElem?_set_self (by rw [List.getElem?_eq_some_iff] at hc; exact hc.1)
    · have hji : j ≠ i := fun e => hne (h.one w' w j q p hq hw hj (by rw [hi, e]))
      obtain ⟨a, l', cur', b, c, d⟩ := h.held w' j q hq hj
      exact ⟨a, l', cur', b, by rw [List.getElem?_set_ne (Ne.symm hji)]; exact c, d⟩
  one w₁ w₂ j q q' h1 h2 e1 e2 := by
    rcases set_cases h1 with ⟨rfl, rfl⟩ | ⟨n1, g1⟩ <;> rcases set_cases h2 with ⟨rfl, rfl⟩ | ⟨n2, g2⟩
    · rfl
    · exact h.one _ _ j p q' hw g2 (by rw [hi, ← hi', e1]) e2
    · exact h.one _ _ j q p g1 hw e1 (by rw [hi, ← hi', e2])
    · exact h.one _ _ j q q' g1 g2 e1 e2
  free j hj hfree := by
    have hji : j ≠ i := by
      rintro rfl
      refine hfree w p' ?_ hi'
      exact List.getElem?_set_self (by rw [List.getElem?_eq_some_iff] at hw; exact hw.1)
    obtain ⟨l', img, a, b, c, d⟩ := h.free j hj fun w' q hq e => by
      by_cases hww : w' = w
      · subst hww
        rw [hw] at hq
        cases hq
        rw [hi] at e
        exact hji (Option.some.inj e).symm
      · exact hfree w' q (by rw [List.getElem?_set_ne (Ne.symm hww)]; exact hq) e
    exact ⟨l', img, a, b, by rw [List.getElem?_set_ne (Ne.symm hji)]; exact c, d⟩
  images := h.images
  copies := h.copies

theorem ImportInv.step {s t : Import} (hn : Numbered flat) (h : ImportInv procs ts flat s) (st : ImportStep procs ts s t) :
    ImportInv procs ts flat t := by
  cases st with
  | hand w hlt hw =>
    have hlt' : s.sent < flat.length := by rw [← h.len]; exact hlt
    refine ⟨h.len, hlt', ?_, ?_, ?_, ?_, h.images, h.copies⟩
    · intro i hi
      exact h.unsent i (by simp only at hi; omega)
    · intro w' j q hq hj
      rcases set_cases hq with ⟨rfl, rfl⟩ | ⟨hne, hq⟩
      · cases hj
        refine ⟨Nat.lt_succ_self _, flat[s.sent], flat[s.sent], List.getElem?_eq_getElem hlt', ?_, rfl⟩
        rw [h.unsent _ (Nat.le_refl _)]
        exact List.getElem?_eq_getElem hlt'
      · obtain ⟨a, r⟩ := h.held w' j q hq hj
        exact ⟨Nat.lt_succ_of_lt a, r⟩
    · intro w₁ w₂ j q q' h1 h2 e1 e2
      rcases set_cases h1 with ⟨rfl, rfl⟩ | ⟨n1, g1⟩ <;> rcases set_cases h2 with ⟨rfl, rfl⟩ | ⟨n2, g2⟩
      · rfl
      · cases e1
        exact absurd (h.held _ _ _ g2 e2).1 (Nat.lt_irrefl _)
      · cases e2
        exact absurd (h.held _ _ _ g1 e1).1 (Nat.lt_irrefl _)
      · exact h.one _ _ j q q' g1 g2 e1 e2
    · intro j hj hfree
      simp only at hj
      have hj' : j < s.sent := by
        rcases Nat.lt_succ_iff_lt_or_eq.1 hj with hj | rfl
        · exact hj
        · exact absurd rfl (hfree w (.got s.sent) (List.getElem?_set_self (by rw [List.getElem?_eq_some_iff] at hw; exact hw.1)))
      refine h.free j hj' fun w' q hq e => ?_
      by_cases hww : w' = w
      · subst hww
        rw [hw] at hq
        cases hq
        cases e
      · exact hfree w' q (by rw [List.getElem?_set_ne (Ne.symm hww)]; exact hq) e
  | draw w i l t hw hl hc =>
    obtain ⟨-, l', cur, a, b, e⟩ := h.held w i _ hw rfl
    rw [hl] at b
    cases b
    have e : l = l' := e
    subst e
    exact h.go_on hw rfl rfl a hl ⟨hc, rfl⟩
  | mask w i l c t hw hl hm =>
    obtain ⟨-, l', cur, a, b, e1, e2⟩ := h.held w i _ hw rfl
    rw [hl] at b
    cases b
    subst e2
    rw [loadMask_setRect] at hm
    exact h.go_on hw rfl rfl a hl ⟨⟨e1, hm⟩, rfl⟩
  | store w i l img hw hl =>
    obtain ⟨his, l', cur, a, b, e1, e2⟩ := h.held w i _ hw rfl
    rw [hl] at b
    cases b
    subst e2
    refine ⟨h.len, h.sent_le, h.unsent, ?_, ?_, ?_, ?_, h.copies⟩
    · intro w' j q hq hj
      rcases set_cases hq with ⟨rfl, rfl⟩ | ⟨hne, hq⟩
      · cases hj
      · exact h.held w' j q hq hj
    · intro w₁ w₂ j q q' h1 h2 f1 f2
      rcases set_cases h1 with ⟨rfl, rfl⟩ | ⟨n1, h1⟩
      · cases f1
      · rcases set_cases h2 with ⟨rfl, rfl⟩ | ⟨n2, h2⟩
        · cases f2
        · exact h.one _ _ j q q' h1 h2 f1 f2
    · intro j hj hfree
      simp only [retiled_seqID]
      by_cases hji : j = i
      · subst hji
        exact ⟨l', img, a, e1, hl, by rw [if_pos rfl]⟩
      · obtain ⟨l₂, img₂, a₂, b₂, c₂, d₂⟩ := h.free j hj fun w' q hq e => by
          by_cases hww : w' = w
          · subst hww
            rw [hw] at hq
            cases hq
            exact hji (Option.some.inj e).symm
          · exact hfree w' q (by rw [List.getElem?_set_ne (Ne.symm hww)]; exact hq) e
        refine ⟨l₂, img₂, a₂, b₂, c₂, ?_⟩
        rw [if_neg fun e => hji (hn j i l₂ l' a₂ a e)]
        exact d₂
    · intro k img' hk
      simp only [retiled_seqID] at hk
      split at hk
      · rename_i e
        cases hk
        exact ⟨i, l', a, e.symm, e1⟩
      · exact h.images k img' hk
  | copy l hs hl =>
    refine ⟨h.len, h.sent_le, h.unsent, h.held, h.one, h.free, h.images, ?_⟩
    have hlt : s.copied.length < flat.length := by
      rw [← h.len]
      exact (List.getElem?_eq_some_iff.1 hl).1
    refine ⟨by simp only [List.length_append, List.length_singleton]; exact hlt, ?_⟩
    intro j l' hj
    simp only at hj
    rcases Nat.lt_trichotomy j s.copied.length with hjl | rfl | hjl
    · rw [List.getElem?_append_left hjl] at hj
      exact h.copies.2 j l' hj
    · rw [List.getElem?_append_right (Nat.le_refl _), Nat.sub_self] at hj
      cases hj
      by_cases hheld : ∃ (w : Nat) (p : Importer), s.workers[w]? = some p ∧ p.index = some s.copied.length
      · obtain ⟨w, p, hw, hp⟩ := hheld
        obtain ⟨-, l', cur, a, b, e⟩ := h.held w _ p hw hp
        rw [hl] at b
        cases b
        exact ⟨l', a, e.between⟩
      · obtain ⟨l₂, img, a, b, c, -⟩ := h.free s.copied.length (by rw [hs, h.len]; exact hlt) fun w p hw hp => hheld ⟨w, p, hw, hp⟩
        rw [hl] at c
        cases c
        exact ⟨l₂, a, .inr ⟨img.canvas, b.1, .inr ⟨img.mask, b.2, rfl⟩⟩⟩
    · rw [List.getElem?_eq_none (by simp; omega)] at hj
      cases hj

theorem ImportInv.run {s t : Import} (hn : Numbered flat) (h : ImportInv procs ts flat s) (r : ImportRun procs ts s t) :
    ImportInv procs ts flat t := by
  induction r with
  | refl => exact h
  | tail _ st ih => exact ih.step hn st

/-- At the end every layer's picture is in the map, and nothing else. -/
theorem ImportInv.done {s : Import} (h : ImportInv procs ts flat s) (hd : s.Done) :
    (∀ (i : Nat) l, flat[i]? = some l → ∃ img, LoadsTo procs ts l img ∧ s.images l.seqID = some img) ∧
    (∀ k, (∀ (i : Nat) (l : LayerRec), flat[i]? = some l → l.seqID ≠ k) → s.images k = none) ∧
    s.copied.length = flat.length := by
  refine ⟨?_, ?_, hd.2.1.trans h.len⟩
  · intro i l hl
    obtain ⟨l', img, a, b, -, d⟩ := h.free i (by rw [hd.1, h.len]; exact (List.getElem?_eq_some_iff.1 hl).1) fun w p hw hp => by
      rw [hd.2.2 p (List.mem_of_getElem? hw)] at hp
      cases hp
    rw [hl] at a
    cases a
    exact ⟨img, b, d⟩
  · intro k hk
    cases e : s.images k with
    | none => rfl
    | some img =>
      obtain ⟨i, l, a, b, -⟩ := h.images k img e
      exact absurd b (hk i l a)

/-! ### Executions -/

theorem ImportRun.trans {s t u : Import} (h : ImportRun procs ts s t) (h' : ImportRun procs ts t u) : ImportRun procs ts s u := by
  induction h' with
  | refl => exact h
  | tail _ st ih => exact ih.tail st

/-- The goroutine `w` takes the layer `i` to its end. -/
theorem run_finish {s : Import} {w i : Nat} {l : LayerRec} {img : LayerImage} (hw : s.workers[w]? = some (.got i)) (hl : s.layers[i]? = some l)
    (hi : LoadsTo procs ts l img) :
    ImportRun procs ts s { s with layers := s.layers.set i (retiled ts img l), workers := s.workers.set w .idle,
                                  images := fun k => if k = l.seqID then some img else s.images k } := by
  have hw' := (List.getElem?_eq_some_iff.1 hw).1
  have hl' := (List.getElem?_eq_some_iff.1 hl).1
  have h1 := ImportStep.draw (procs := procs) (ts := ts) s w i l img.canvas hw hl hi.1
  have h2 := ImportStep.mask (procs := procs) (ts := ts) (w := w) (i := i) (l := setRect ts img.canvas l) (c := img.canvas) (t := img.mask)
    (s := { s with layers := s.layers.set i (setRect ts img.canvas l), workers := s.workers.set w (.drawn i img.canvas) })
    (List.getElem?_set_self hw') (List.getElem?_set_self hl') (by rw [loadMask_setRect]; exact hi.2)
  have h3 := ImportStep.store (procs := procs) (ts := ts) (w := w) (i := i) (l := retiled ts img l) (img := img)
    (s := { s with layers := s.layers.set i (retiled ts img l), workers := s.workers.set w (.masked i img) })
    (List.getElem?_set_self hw') (List.getElem?_set_self hl')
  simp only [List.set_set] at h2 h3
  have h2 := (ImportRun.refl (procs := procs) (ts := ts) s).tail h1 |>.tail h2
  have h3 := h2.tail h3
  simp only [retiled_seqID] at h3
  exact h3

/-- All layers are copied at once. -/
theorem run_copies : ∀ (d : Nat) (s : Import), s.sent = s.layers.length → s.copied = s.layers.take s.copied.length →
    d + s.copied.length = s.layers.length → ImportRun procs ts s { s with copied := s.layers }
  | 0, s, _, hc, hd => by
    have : s.copied = s.layers := by rw [hc, List.take_of_length_le (by omega)]
    have e : { s with copied := s.layers } = s := by cases s; simp only at this; rw [this]
    rw [e]
    exact .refl s
  | d + 1, s, hs, hc, hd => by
    have hlt : s.copied.length < s.layers.length := by omega
    have h1 := ImportStep.copy (procs := procs) (ts := ts) s s.layers[s.copied.length] hs (List.getElem?_eq_getElem hlt)
    have h2 := run_copies d { s with copied := s.copied ++ [s.layers[s.copied.length]] } hs (by
      simp only [List.length_append, List.length_singleton]
      rw [List.take_add_one, List.getElem?_eq_getElem hlt, ← hc]
      rfl) (by simp only [List.length_append, List.length_singleton]; omega)
    exact ((ImportRun.refl s).tail h1).trans h2

theorem replicate_set_set {α : Type} (n w : Nat) (a b : α) : ((List.replicate n a).set w b).set w a = List.replicate n a := by
  rw [List.set_set]
  apply List.ext_getElem?
  intro i
  rw [List.getElem?_set]
  split
  · rename_i e
    subst e
    split
    · rename_i hlt
      rw [List.getElem?_replicate, if_pos (by simpa using hlt)]
    · rw [List.getElem?_eq_none (by omega)]
  · rfl

/-- The first `k` layers are loaded one after the other. -/
theorem run_first {n : Nat} (hn : 1 ≤ n) (f : LayerRec → LayerImage) (hf : ∀ l ∈ flat, LoadsTo procs ts l (f l)) : ∀ k, k ≤ flat.length →
    ∃ s, ImportRun procs ts (Import.start n flat) s ∧ s.layers = (flat.take k).map (fun l => retiled ts (f l) l) ++ flat.drop k ∧
      s.workers = List.replicate n .idle ∧ s.sent = k ∧ s.copied = []
  | 0, _ => ⟨_, .refl _, by simp [Import.start], rfl, rfl, rfl⟩
  | k + 1, hk => by
    obtain ⟨s, r, e1, e2, e3, e4⟩ := run_first hn f hf k (by omega)
    have hl : s.layers[k]? = some flat[k] := by
      rw [e1, List.getElem?_append_right (by rw [List.length_map, List.length_take]; omega), List.getElem?_drop]
      rw [List.length_map, List.length_take, Nat.min_eq_left (by omega), Nat.sub_self, Nat.add_zero]
      exact List.getElem?_eq_getElem _
    have hlen : s.layers.length = flat.length := by rw [e1]; simp; omega
    have h1 := ImportStep.hand (procs := procs) (ts := ts) s 0 (by rw [hlen, e3]; omega) (by rw [e2, List.getElem?_replicate, if_pos (by omega)])
    have h2 := run_finish (procs := procs) (ts := ts) (img := f flat[k])
      (s := { s with sent := s.sent + 1, workers := s.workers.set 0 (.got s.sent) }) (w := 0) (i := k) (l := flat[k])
      (by simp only; rw [List.getElem?_set_self (by rw [e2, List.length_replicate]; omega), e3]) hl (hf _ (List.getElem_mem _))
    refine ⟨_, (r.tail h1).trans h2, ?_, ?_, by simp [e3], e4⟩
    · simp only
      rw [e1]
      apply List.ext_getElem?
      intro i
      rw [List.getElem?_set]
      split
      · rename_i e
        subst e
        have hlt : k < flat.length := hk
        rw [if_pos (by simp; omega), List.getElem?_append_left (by simp; omega), List.getElem?_map, List.getElem?_take, if_pos (by omega),
          List.getElem?_eq_getElem hlt]
        rfl
      · rename_i e
        rcases Nat.lt_or_gt_of_ne (Ne.symm e) with h | h
        · rw [List.getElem?_append_left (by simp; omega), List.getElem?_append_left (by simp; omega)]
          simp [h, Nat.lt_succ_of_lt h]
        · rw [List.getElem?_append_right (by simp; omega), List.getElem?_append_right (by simp; omega)]
          simp
          congr 1
          omega
    · simp only
      rw [e2, replicate_set_set]

/-- Every goroutine is through before the layers are copied. -/
theorem run_fresh {n : Nat} (hn : 1 ≤ n) (f : LayerRec → LayerImage) (hf : ∀ l ∈ flat, LoadsTo procs ts l (f l)) :
    ∃ s, ImportRun procs ts (Import.start n flat) s ∧ s.Done ∧ s.copied = flat.map fun l => retiled ts (f l) l := by
  obtain ⟨s, r, e1, e2, e3, e4⟩ := run_first hn f hf flat.length (Nat.le_refl _)
  have hlen : s.layers.length = flat.length := by rw [e1]; simp
  refine ⟨_, r.trans (run_copies s.layers.length s (by omega) (by rw [e4]; rfl) (by rw [e4]; rfl)), ⟨by simp only; omega, rfl, ?_⟩, ?_⟩
  · intro w hw
    rw [e2] at hw
    exact (List.mem_replicate.1 hw).2
  · simp only
    rw [e1]
    simp

/-- The last layer is copied before its goroutine has got anywhere. -/
theorem run_stale {n : Nat} (hn : 1 ≤ n) (f : LayerRec → LayerImage) (init : List LayerRec) (last : LayerRec)
    (hf : ∀ l ∈ init ++ [last], LoadsTo procs ts l (f l)) :
    ∃ s, ImportRun procs ts (Import.start n (init ++ [last])) s ∧ s.Done ∧ s.copied = (init.map fun l => retiled ts (f l) l) ++ [last] := by
  obtain ⟨s, r, e1, e2, e3, e4⟩ := run_first hn f hf init.length (by simp)
  have e1 : s.layers = (init.map fun l => retiled ts (f l) l) ++ [last] := by rw [e1]; simp
  have hlen : s.layers.length = init.length + 1 := by rw [e1]; simp
  have h1 := ImportStep.hand (procs := procs) (ts := ts) s 0 (by omega) (by rw [e2, List.getElem?_replicate, if_pos (by omega)])
  have h2 := run_copies (procs := procs) (ts := ts) s.layers.length { s with sent := s.sent + 1, workers := s.workers.set 0 (.got s.sent) }
    (by simp only; omega) (by simp only; rw [e4]; rfl) (by simp only; rw [e4]; rfl)
  have h3 := run_finish (procs := procs) (ts := ts) (img := f last)
    (s := { s with sent := s.sent + 1, workers := s.workers.set 0 (.got s.sent), copied := s.layers }) (w := 0) (i := init.length) (l := last)
    (by simp only; rw [List.getElem?_set_self (by rw [e2, List.length_replicate]; omega), e3]) (by simp only; rw [e1]; simp) (hf _ (by simp))
  refine ⟨_, ((r.tail h1).trans h2).trans h3, ⟨by simp only [List.length_set]; omega, by simp only [List.length_set], ?_⟩, ?_⟩
  · intro w hw
    simp only at hw
    rw [e2, replicate_set_set] at hw
    exact (List.mem_replicate.1 hw).2
  · exact e1

/-! ### Progress -/

/-- How many actions the goroutine still has to make. -/
def Importer.left : Importer → Nat
  | .idle => 0
  | .got _ => 3
  | .drawn _ _ => 2
  | .masked _ _ => 1

/-- How many actions are left. -/
def Import.left (s : Import) : Nat :=
  4 * (s.layers.length - s.sent) + (s.workers.map Importer.left).sum + (s.layers.length - s.copied.length)

theorem left_sum_set {α : Type} (f : α → Nat) : ∀ {l : List α} {w : Nat} {a : α} (b : α), l[w]? = some a →
    ((l.set w b).map f).sum + f a = (l.map f).sum + f b
  | [], w, a, b, h => by simp at h
  | x :: l, 0, a, b, h => by
    cases h
    simp only [List.set_cons_zero, List.map_cons, List.sum_cons]
    omega
  | x :: l, w + 1, a, b, h => by
    have := left_sum_set f b (l := l) (w := w) h
    simp only [List.set_cons_succ, List.map_cons, List.sum_cons]
    omega

theorem ImportStep.left {s t : Import} (h : ImportStep procs ts s t) : t.left + 1 = s.left := by
  unfold Import.left
  cases h with
  | hand w hlt hw =>
    have := left_sum_set Importer.left (.got s.sent) hw
    simp only [Importer.left] at this ⊢
    omega
  | draw w i l t hw hl hc =>
    have := left_sum_set Importer.left (.drawn i t) hw
    simp only [Importer.left, List.length_set] at this ⊢
    omega
  | mask w i l c t hw hl hc =>
    have := left_sum_set Importer.left (.masked i ⟨c, t⟩) hw
    simp only [Importer.left, List.length_set] at this ⊢
    omega
  | store w i l img hw hl =>
    have := left_sum_set Importer.left .idle hw
    simp only [Importer.left] at this ⊢
    omega
  | copy l hs hl =>
    have := (List.getElem?_eq_some_iff.1 hl).1
    simp only [List.length_append, List.length_singleton]
    omega

theorem ImportStep.workers {s t : Import} (h : ImportStep procs ts s t) : t.workers.length = s.workers.length := by
  cases h <;> simp

theorem ImportRun.workers {s t : Import} (h : ImportRun procs ts s t) : t.workers.length = s.workers.length := by
  induction h with
  | refl => rfl
  | tail _ st ih => rw [st.workers, ih]

theorem ImportInv.no_crash {s : Import} (h : ImportInv procs ts flat s) (hf : ∀ l ∈ flat, ∃ img, LoadsTo procs ts l img) :
    ¬s.Crashes procs ts := by
  rintro ⟨w, i, l, e, hl, ⟨hw, hc⟩ | ⟨c, hw, hc⟩⟩
  · obtain ⟨-, l', cur, a, b, e'⟩ := h.held w i _ hw rfl
    obtain ⟨img, hi⟩ := hf l' (List.mem_of_getElem? a)
    rw [hl] at b
    cases b
    have e' : l = l' := e'
    subst e'
    rw [hi.1] at hc
    cases hc
  · obtain ⟨-, l', cur, a, b, -, e'⟩ := h.held w i _ hw rfl
    obtain ⟨img, hi⟩ := hf l' (List.mem_of_getElem? a)
    rw [hl] at b
    cases b
    subst e'
    rw [loadMask_setRect, hi.2] at hc
    cases hc

end Psd
