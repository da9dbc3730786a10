import Verif.Spec.Draw
import Mathlib.Data.List.Basic

/-!
# Goroutines that keep out of each other's way

`Fin W R p m o n`: run alone on memory `m`, goroutine `p` returns after `n` accesses with memory `o`, writes cells in `W`
only and reads cells in `W` or `R` only. If the cells each goroutine writes are neither read nor written by another,
every interleaving ends like that.
-/

namespace Psd

section
variable {A V : Type} [DecidableEq A]

def Fin (W R : A → Prop) : Prog A V → Mem A V → Mem A V → Nat → Prop
  | .done, m, o, n => o = m ∧ n = 0
  | .panic, _, _, _ => False
  | .read a k, m, o, n => (W a ∨ R a) ∧ ∃ n', n = n' + 1 ∧ Fin W R (k (m a)) m o n'
  | .write a v k, m, o, n => W a ∧ ∃ n', n = n' + 1 ∧ Fin W R k (m.set a v) o n'

theorem Mem.set_self (m : Mem A V) (a : A) (v : V) : m.set a v a = v := by simp [Mem.set]

theorem Mem.set_ne (m : Mem A V) {a b : A} (v : V) (h : b ≠ a) : m.set a v b = m b := by simp [Mem.set, h]

/-- Only the cells in `W` and `R` matter. -/
theorem Fin.congr {W R : A → Prop} : ∀ (p : Prog A V) {m m' o : Mem A V} {n : Nat}, Fin W R p m o n →
    (∀ a, W a ∨ R a → m' a = m a) → ∃ o', Fin W R p m' o' n ∧ ∀ a, W a → o' a = o a := by
  intro p
  induction p with
  | done =>
    intro m m' o n h hm
    obtain ⟨rfl, rfl⟩ := h
    exact ⟨m', ⟨rfl, rfl⟩, fun a ha => hm a (Or.inl ha)⟩
  | panic => intro m m' o n h; exact absurd h (by simp [Fin])
  | read a k ih =>
    intro m m' o n h hm
    obtain ⟨ha, n', rfl, hk⟩ := h
    obtain ⟨o', h1, h2⟩ := ih (m a) hk hm
    exact ⟨o', ⟨ha, n', rfl, by rw [hm a ha]; exact h1⟩, h2⟩
  | write a v k ih =>
    intro m m' o n h hm
    obtain ⟨ha, n', rfl, hk⟩ := h
    obtain ⟨o', h1, h2⟩ := ih (m' := m'.set a v) hk (by
      intro b hb
      by_cases e : b = a
      · subst e; rw [Mem.set_self, Mem.set_self]
      · rw [Mem.set_ne _ _ e, Mem.set_ne _ _ e]; exact hm b hb)
    exact ⟨o', ⟨ha, n', rfl, h1⟩, h2⟩

/-- The state every interleaving stays in: each goroutine would still end as planned. -/
def Inv (t : A → V) (m0 : Mem A V) (W R : Nat → A → Prop) (c : Mem A V × List (Prog A V)) (left : List Nat) : Prop :=
  left.length = c.2.length ∧
  (∀ i p n, c.2[i]? = some p → left[i]? = some n → ∃ o, Fin (W i) (R i) p c.1 o n ∧ ∀ a, W i a → o a = t a) ∧
  ∀ a, (∀ i, i < c.2.length → ¬ W i a) → c.1 a = m0 a

theorem sum_set_pred : ∀ (l : List Nat) (i n : Nat), l[i]? = some (n + 1) → (l.set i n).sum + 1 = l.sum
  | [], i, n, h => by simp at h
  | x :: l, 0, n, h => by
    simp at h
    subst h
    simp
    omega
  | x :: l, i + 1, n, h => by
    simp at h
    simp only [List.set_cons_succ, List.sum_cons]
    have := sum_set_pred l i n h
    omega

theorem Inv.step {t : A → V} {m0 : Mem A V} {W R : Nat → A → Prop} {c c' : Mem A V × List (Prog A V)} {left : List Nat}
    (hsep : ∀ i j, i < c.2.length → j < c.2.length → i ≠ j → ∀ a, W i a → ¬ (W j a ∨ R j a))
    (h : Inv t m0 W R c left) (s : Step c c') :
    ∃ left', Inv t m0 W R c' left' ∧ left'.sum + 1 = left.sum ∧ c'.2.length = c.2.length := by
  obtain ⟨hl, hp, hm⟩ := h
  cases s with
  | read m ps i a k hi =>
    have hil : i < ps.length := (List.getElem?_eq_some_iff.1 hi).1
    have hl' : i < left.length := by rw [hl]; exact hil
    obtain ⟨o, hf, ho⟩ := hp i _ left[i] hi (List.getElem?_eq_getElem hl')
    obtain ⟨ha, n', hn, hk⟩ := hf
    refine ⟨left.set i n', ⟨by simp [hl], ?_, ?_⟩, sum_set_pred _ _ _ (by rw [List.getElem?_eq_getElem hl', hn]), by simp⟩
    · intro j p n hj hn'
      by_cases e : j = i
      · subst e
        simp only at hj hn'
        rw [List.getElem?_set_self hil] at hj
        rw [List.getElem?_set_self hl'] at hn'
        cases hj; cases hn'
        exact ⟨o, hk, ho⟩
      · simp only at hj hn'
        rw [List.getElem?_set_ne (Ne.symm e)] at hj hn'
        exact hp j p n hj hn'
    · intro b hb
      exact hm b fun j hj => hb j (by simpa using hj)
  | write m ps i a v k hi =>
    have hil : i < ps.length := (List.getElem?_eq_some_iff.1 hi).1
    have hl' : i < left.length := by rw [hl]; exact hil
    obtain ⟨o, hf, ho⟩ := hp i _ left[i] hi (List.getElem?_eq_getElem hl')
    obtain ⟨ha, n', hn, hk⟩ := hf
    refine ⟨left.set i n', ⟨by simp [hl], ?_, ?_⟩, sum_set_pred _ _ _ (by rw [List.getElem?_eq_getElem hl', hn]), by simp⟩
    · intro j p n hj hn'
      by_cases e : j = i
      · subst e
        simp only at hj hn'
        rw [List.getElem?_set_self hil] at hj
        rw [List.getElem?_set_self hl'] at hn'
        cases hj; cases hn'
        exact ⟨o, hk, ho⟩
      · simp only at hj hn'
        rw [List.getElem?_set_ne (Ne.symm e)] at hj hn'
        have hjl : j < ps.length := (List.getElem?_eq_some_iff.1 hj).1
        obtain ⟨o1, h1, h2⟩ := hp j p n hj hn'
        obtain ⟨o2, h3, h4⟩ := Fin.congr p (m' := m.set a v) h1 (fun b hb => by
          apply Mem.set_ne
          intro eb
          subst eb
          exact hsep i j hil hjl (Ne.symm e) b ha hb)
        exact ⟨o2, h3, fun b hb => (h4 b hb).trans (h2 b hb)⟩
    · intro b hb
      simp only
      rw [Mem.set_ne]
      · exact hm b fun j hj => hb j (by simpa using hj)
      · intro e
        subst e
        exact hb i (by simpa using hil) ha

theorem Inv.steps {t : A → V} {m0 : Mem A V} {W R : Nat → A → Prop} {c c' : Mem A V × List (Prog A V)} {left : List Nat} {n : Nat}
    (hsep : ∀ i j, i < c.2.length → j < c.2.length → i ≠ j → ∀ a, W i a → ¬ (W j a ∨ R j a))
    (h : Inv t m0 W R c left) (s : Steps n c c') :
    ∃ left', Inv t m0 W R c' left' ∧ left'.sum + n = left.sum ∧ c'.2.length = c.2.length := by
  induction s with
  | refl => exact ⟨left, h, by omega, rfl⟩
  | tail hs st ih =>
    obtain ⟨l1, i1, s1, e1⟩ := ih hsep h
    obtain ⟨l2, i2, s2, e2⟩ := i1.step (by rw [e1]; exact hsep) st
    exact ⟨l2, i2, by omega, e2.trans e1⟩

/-- Goroutines that keep out of each other's way end as if each had run alone. -/
theorem allRuns_of_fin (m : Mem A V) (ps : List (Prog A V)) (t : A → V) (W R : Nat → A → Prop)
    (hsep : ∀ i j, i < ps.length → j < ps.length → i ≠ j → ∀ a, W i a → ¬ (W j a ∨ R j a))
    (hfin : ∀ i p, ps[i]? = some p → ∃ o n, Fin (W i) (R i) p m o n ∧ ∀ a, W i a → o a = t a)
    (post : Mem A V → Prop)
    (hpost : ∀ m' : Mem A V, (∀ i, i < ps.length → ∀ a, W i a → m' a = t a) →
      (∀ a, (∀ i, i < ps.length → ¬ W i a) → m' a = m a) → post m') :
    AllRuns m ps post := by
  classical
  choose! o n hf ho using hfin
  let left : List Nat := (List.range ps.length).map fun i => n i (ps[i]?.getD .done)
  have hinv : Inv t m W R (m, ps) left := by
    refine ⟨by simp [left], ?_, fun a _ => rfl⟩
    intro i p k hi hk
    have hil : i < ps.length := (List.getElem?_eq_some_iff.1 hi).1
    have ek : k = n i p := by
      simp only at hi
      simp [left, hil] at hk
      rw [← hk]
      congr 1
      have := (List.getElem?_eq_some_iff.1 hi).2
      simpa using this
    subst ek
    exact ⟨o i p hi, hf i p hi, ho i p hi⟩
  refine ⟨left.sum, ?_⟩
  intro k c hs
  obtain ⟨l', ⟨hl, hp, hm⟩, hsum, hlen⟩ := hinv.steps hsep hs
  have get : ∀ p ∈ c.2, ∃ (i k : Nat), c.2[i]? = some p ∧ l'[i]? = some k := by
    intro p hp
    obtain ⟨i, hi, rfl⟩ := List.mem_iff_getElem.1 hp
    exact ⟨i, l'[i]'(by rw [hl]; exact hi), List.getElem?_eq_getElem hi, List.getElem?_eq_getElem _⟩
  refine ⟨by omega, ?_, ?_, ?_⟩
  · intro hmem
    obtain ⟨i, k', h1, h2⟩ := get _ hmem
    obtain ⟨o', h3, _⟩ := hp i _ k' h1 h2
    exact h3
  · by_cases hall : ∀ p ∈ c.2, p = .done
    · exact Or.inl hall
    · right
      push Not at hall
      obtain ⟨p, hpm, hpd⟩ := hall
      obtain ⟨i, k', h1, h2⟩ := get _ hpm
      obtain ⟨o', h3, _⟩ := hp i _ k' h1 h2
      obtain ⟨cm, cp⟩ := c
      cases p with
      | done => exact absurd rfl hpd
      | panic => exact absurd h3 (by simp [Fin])
      | read a k => exact ⟨_, Step.read cm cp i a k h1⟩
      | write a v k => exact ⟨_, Step.write cm cp i a v k h1⟩
  · intro hall
    apply hpost
    · intro i hi a ha
      have hi' : i < c.2.length := by rw [hlen]; exact hi
      have hd := hall c.2[i] (List.getElem_mem _)
      obtain ⟨o', h3, h4⟩ := hp i c.2[i] (l'[i]'(by rw [hl]; exact hi')) (List.getElem?_eq_getElem hi')
        (List.getElem?_eq_getElem _)
      rw [hd] at h3
      obtain ⟨rfl, _⟩ := h3
      exact h4 a ha
    · intro a ha
      exact hm a fun i hi => ha i (by rw [hlen] at hi; exact hi)

/-! ## Sequences of pixel operations -/

end

open Classical in
/-- The operation `op`, on any memory that agrees with `m0` on the cells it reads or writes, sets the cells of `W` to what
`t` says and goes on. -/
def Acts {A V : Type} [DecidableEq A] (m0 : Mem A V) (op : Prog A V → Prog A V) (W R : A → Prop) (t : A → V) : Prop :=
  ∀ (W' R' : A → Prop), (∀ a, W a → W' a) → (∀ a, R a → W' a ∨ R' a) →
    ∀ (k : Prog A V) (m o : Mem A V) (n : Nat), (∀ a, W a ∨ R a → m a = m0 a) →
      Fin W' R' k (fun a => if W a then t a else m a) o n → ∃ n', Fin W' R' (op k) m o n'

section
variable {A V : Type} [DecidableEq A]

theorem fin_readAll {W R : A → Prop} : ∀ (as : List A) (k : List V → Prog A V) (m o : Mem A V) (n : Nat),
    (∀ a ∈ as, W a ∨ R a) → Fin W R (k (as.map m)) m o n → ∃ n', Fin W R (readAll as k) m o n'
  | [], k, m, o, n, _, h => ⟨n, h⟩
  | a :: as, k, m, o, n, ha, h => by
    obtain ⟨n', h'⟩ := fin_readAll as (fun vs => k (m a :: vs)) m o n (fun b hb => ha b (by simp [hb])) h
    exact ⟨n' + 1, ha a (by simp), n', rfl, h'⟩

open Classical in
theorem fin_writeAll {W R : A → Prop} (t : A → V) : ∀ (as : List A) (k : Prog A V) (m o : Mem A V) (n : Nat),
    (∀ a ∈ as, W a) → Fin W R k (fun a => if a ∈ as then t a else m a) o n →
      ∃ n', Fin W R (writeAll as (as.map t) k) m o n'
  | [], k, m, o, n, _, h => ⟨n, by simpa [writeAll] using h⟩
  | a :: as, k, m, o, n, ha, h => by
    obtain ⟨n', h'⟩ := fin_writeAll t as k (m.set a (t a)) o n (fun b hb => ha b (by simp [hb])) (by
      have e : (fun b => if b ∈ as then t b else m.set a (t a) b) = fun b => if b ∈ a :: as then t b else m b := by
        funext b
        by_cases e1 : b ∈ as
        · simp [e1]
        · by_cases e2 : b = a
          · subst e2; simp [e1, Mem.set_self]
          · simp [e1, e2, Mem.set_ne]
      rw [e]
      exact h)
    exact ⟨n' + 1, ha a (by simp), n', rfl, h'⟩

open Classical in
/-- A goroutine that performs one operation after another, none of which touches what an earlier one wrote. -/
theorem fin_foldr {P : Type} {W' R' : A → Prop} (m0 : Mem A V) (t : A → V) (op : P → Prog A V → Prog A V) (W R : P → A → Prop) :
    ∀ (l : List P) (m : Mem A V), (∀ p ∈ l, Acts m0 (op p) (W p) (R p) t) →
      (∀ p ∈ l, (∀ a, W p a → W' a) ∧ ∀ a, R p a → W' a ∨ R' a) →
      (∀ p ∈ l, ∀ a, W p a ∨ R p a → m a = m0 a) →
      l.Pairwise (fun p q => ∀ a, W p a → ¬ (W q a ∨ R q a)) →
      ∃ n, Fin W' R' (l.foldr op .done) m (fun a => if ∃ p ∈ l, W p a then t a else m a) n
  | [], m, _, _, _, _ => ⟨0, by simp [Fin]⟩
  | p :: l, m, ha, hw, hm, hp => by
    rw [List.pairwise_cons] at hp
    obtain ⟨n, hn⟩ := fin_foldr m0 t op W R l (fun a => if W p a then t a else m a) (fun q hq => ha q (by simp [hq]))
      (fun q hq => hw q (by simp [hq]))
      (fun q hq a hqa => by
        have : ¬ W p a := fun hpa => hp.1 q hq a hpa hqa
        simp only [if_neg this]
        exact hm q (by simp [hq]) a hqa) hp.2
    have e : (fun a => if ∃ q ∈ l, W q a then t a else if W p a then t a else m a) =
        fun a => if ∃ q ∈ p :: l, W q a then t a else m a := by
      funext a
      by_cases e1 : ∃ q ∈ l, W q a
      · rw [if_pos e1, if_pos]; obtain ⟨q, hq, h⟩ := e1; exact ⟨q, by simp [hq], h⟩
      · rw [if_neg e1]
        by_cases e2 : W p a
        · rw [if_pos e2, if_pos ⟨p, by simp, e2⟩]
        · rw [if_neg e2, if_neg]
          rintro ⟨q, hq, h⟩
          rcases List.mem_cons.1 hq with rfl | hq
          · exact e2 h
          · exact e1 ⟨q, hq, h⟩
    rw [e] at hn
    exact ha p (by simp) W' R' (hw p (by simp)).1 (hw p (by simp)).2 _ m _ n (hm p (by simp)) hn

/-- The operations of several goroutines, none of which touches what another goroutine's operation or an earlier one of
its own writes. -/
theorem allRuns_ops {P : Type} (m0 : Mem A V) (t : A → V) (op : P → Prog A V → Prog A V) (W R : P → A → Prop)
    (ths : List (List P)) (hacts : ∀ l ∈ ths, ∀ p ∈ l, Acts m0 (op p) (W p) (R p) t)
    (hin : ∀ l ∈ ths, l.Pairwise (fun p q => ∀ a, W p a → ¬ (W q a ∨ R q a)))
    (hacross : ths.Pairwise (fun l l' => ∀ p ∈ l, ∀ q ∈ l',
      (∀ a, W p a → ¬ (W q a ∨ R q a)) ∧ ∀ a, W q a → ¬ (W p a ∨ R p a)))
    (post : Mem A V → Prop)
    (hpost : ∀ m' : Mem A V, (∀ l ∈ ths, ∀ p ∈ l, ∀ a, W p a → m' a = t a) →
      (∀ a, (∀ l ∈ ths, ∀ p ∈ l, ¬ W p a) → m' a = m0 a) → post m') :
    AllRuns m0 (ths.map fun l => l.foldr op .done) post := by
  classical
  apply allRuns_of_fin m0 _ t (fun i a => ∃ l, ths[i]? = some l ∧ ∃ p ∈ l, W p a)
    (fun i a => ∃ l, ths[i]? = some l ∧ ∃ p ∈ l, R p a)
  · intro i j hi hj hij a hw hwr
    simp only [List.length_map] at hi hj
    obtain ⟨l, hl, p, hp, hpa⟩ := hw
    have hl2 : ths[i] = l := by rw [List.getElem?_eq_getElem hi] at hl; exact Option.some.inj hl
    have key : ∃ q ∈ ths[j], W q a ∨ R q a := by
      rcases hwr with ⟨l', h1, q, h2, h3⟩ | ⟨l', h1, q, h2, h3⟩
      · rw [List.getElem?_eq_getElem hj] at h1; cases h1; exact ⟨q, h2, Or.inl h3⟩
      · rw [List.getElem?_eq_getElem hj] at h1; cases h1; exact ⟨q, h2, Or.inr h3⟩
    obtain ⟨q, hq, hqa⟩ := key
    rw [List.pairwise_iff_getElem] at hacross
    subst hl2
    rcases Nat.lt_or_gt_of_ne hij with h | h
    · exact (hacross i j hi hj h p hp q hq).1 a hpa hqa
    · exact (hacross j i hj hi h q hq p hp).2 a hpa hqa
  · intro i p hp
    rw [List.getElem?_map] at hp
    cases hl : ths[i]? with
    | none => rw [hl] at hp; simp at hp
    | some l =>
      rw [hl] at hp
      simp at hp
      subst hp
      have hmem : l ∈ ths := List.mem_of_getElem? hl
      obtain ⟨n, hn⟩ := fin_foldr (W' := fun a => ∃ l', some l = some l' ∧ ∃ p ∈ l', W p a)
        (R' := fun a => ∃ l', some l = some l' ∧ ∃ p ∈ l', R p a) m0 t op W R l m0 (hacts l hmem)
        (fun p hp => ⟨fun a h => ⟨l, rfl, p, hp, h⟩, fun a h => Or.inr ⟨l, rfl, p, hp, h⟩⟩) (fun _ _ _ _ => rfl) (hin l hmem)
      refine ⟨_, n, hn, ?_⟩
      rintro a ⟨l', hl', p, hp, h⟩
      cases hl'
      rw [if_pos ⟨p, hp, h⟩]
  · intro m' h1 h2
    apply hpost
    · intro l hl p hp a ha
      obtain ⟨i, hi, rfl⟩ := List.mem_iff_getElem.1 hl
      exact h1 i (by simpa using hi) a ⟨_, List.getElem?_eq_getElem hi, p, hp, ha⟩
    · intro a ha
      apply h2
      rintro i hi ⟨l, hl, p, hp, h⟩
      exact ha l (List.mem_of_getElem? hl) p hp h

end

/-- A value for every cell, if the cells are all different. -/
theorem exists_target {A V P : Type} [DecidableEq A] (C : P → Prop) (cells : P → List A) (bs : P → List V) (t0 : A → V)
    (hn : ∀ p, C p → (cells p).Nodup) (hl : ∀ p, C p → (bs p).length = (cells p).length)
    (hd : ∀ p q, C p → C q → p ≠ q → ∀ a ∈ cells p, a ∉ cells q) :
    ∃ t : A → V, ∀ p, C p → (cells p).map t = bs p := by
  classical
  refine ⟨fun a => if h : ∃ p, C p ∧ a ∈ cells p then (bs h.choose)[(cells h.choose).idxOf a]?.getD (t0 a) else t0 a, ?_⟩
  intro p hp
  apply List.ext_getElem
  · rw [List.length_map, hl p hp]
  · intro i h1 h2
    rw [List.length_map] at h1
    rw [List.getElem_map]
    have hex : ∃ q, C q ∧ (cells p)[i] ∈ cells q := ⟨p, hp, List.getElem_mem _⟩
    rw [dif_pos hex]
    have e : hex.choose = p := by
      by_contra hne
      exact hd _ _ hex.choose_spec.1 hp hne _ hex.choose_spec.2 (List.getElem_mem _)
    rw [e, List.Nodup.idxOf_getElem (hn p hp), List.getElem?_eq_getElem h2]
    rfl

end Psd
