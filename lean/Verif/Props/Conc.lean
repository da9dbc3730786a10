import Verif.Model.Conc

/-!
# Theorems C61 and C62: waiting for workers, cancelling a load
-/

namespace Psd

/-! ## Sums over a list of goroutines -/

theorem sum_set {α : Type} (f : α → Nat) : ∀ (l : List α) (i : Nat) (a b : α), l[i]? = some a →
    ((l.set i b).map f).sum + f a = (l.map f).sum + f b
  | [], i, a, b, h => by simp at h
  | x :: l, 0, a, b, h => by
    simp only [List.getElem?_cons_zero, Option.some.injEq] at h
    subst h
    simp only [List.set_cons_zero, List.map_cons, List.sum_cons]
    omega
  | x :: l, i + 1, a, b, h => by
    have := sum_set f l i a b (by simpa using h)
    simp only [List.set_cons_succ, List.map_cons, List.sum_cons]
    omega

theorem mem_set_cases {α : Type} {l : List α} {i : Nat} {b w : α} (h : w ∈ l.set i b) : w = b ∨ w ∈ l := by
  rcases List.mem_or_eq_of_mem_set h with h | h
  · exact Or.inr h
  · exact Or.inl h

theorem exists_getElem? {α : Type} {l : List α} {a : α} (h : a ∈ l) : ∃ i : Nat, l[i]? = some a := by
  obtain ⟨i, hi, e⟩ := List.getElem_of_mem h
  exact ⟨i, by rw [List.getElem?_eq_getElem hi, e]⟩

/-- A measure that every step lowers bounds the length of every run. -/
theorem run_bound {S : Type} {step : S → S → Prop} (μ : S → Nat) (I : S → Prop) (hI : ∀ s t, I s → step s t → I t)
    (hμ : ∀ s t, I s → step s t → μ t < μ s) {s₀ : S} (h0 : I s₀) {n : Nat} {s : S} (h : Run step n s₀ s) : I s ∧ n + μ s ≤ μ s₀ := by
  induction h with
  | refl => exact ⟨h0, by omega⟩
  | tail _ hs ih =>
    obtain ⟨i1, i2⟩ := ih h0
    have := hμ _ _ i1 hs
    exact ⟨hI _ _ i1 hs, by omega⟩

/-! ## C61 -/

structure WaitState.Inv (s : WaitState) : Prop where
  done : s.closer ≠ .waiting → ∀ w ∈ s.workers, w = .done
  fin : s.closer = .finished ↔ ∃ e, s.main = .returned e
  abort : s.abort = true ↔ s.main = .draining ∨ s.main = .returned true
  noticed : s.main = .aborting ∨ s.main = .draining ∨ s.main = .returned true → s.cancelled = true

def Worker.measure : Worker → Nat
  | .running k => k + 2
  | .done => 0

def WaitState.measure (s : WaitState) : Nat :=
  (s.workers.map Worker.measure).sum + (match s.closer with | .waiting => 2 | .sending => 1 | .finished => 0) +
    (match s.main with | .selecting => 3 | .aborting => 2 | .draining => 1 | .returned _ => 0) + (if s.cancelled then 0 else 1)

theorem WaitState.Inv.step {s t : WaitState} (h : s.Inv) (hs : WaitStep s t) : t.Inv := by
  have up : ∀ i w w', s.workers[i]? = some w → w ≠ .done → s.closer ≠ .waiting → ∀ v ∈ s.workers.set i w', v = .done := by
    intro i w w' hi hw hc
    exact absurd (h.done hc w (List.mem_of_getElem? hi)) hw
  cases hs with
  | work i k hi => exact ⟨fun hc => up i _ _ hi (by simp) hc, h.fin, h.abort, h.noticed⟩
  | quit i k hi ha => exact ⟨fun hc => up i _ _ hi (by simp) hc, h.fin, h.abort, h.noticed⟩
  | done i hi => exact ⟨fun hc => up i _ _ hi (by simp) hc, h.fin, h.abort, h.noticed⟩
  | waited hc hd =>
    have hf := h.fin
    rw [hc] at hf
    exact ⟨fun _ => hd, by simpa using hf, h.abort, h.noticed⟩
  | complete hc hm =>
    have ha := h.abort
    rw [hm] at ha
    exact ⟨fun _ => h.done (by simp [hc]), by simp, by simpa using ha, by simp⟩
  | notice hm hc =>
    have hf := h.fin
    have ha := h.abort
    rw [hm] at hf ha
    exact ⟨h.done, by simpa using hf, by simpa using ha, fun _ => hc⟩
  | setAbort hm =>
    have hf := h.fin
    rw [hm] at hf
    exact ⟨h.done, by simpa using hf, by simp, fun _ => h.noticed (Or.inl hm)⟩
  | drained hc hm =>
    have ha := h.abort
    rw [hm] at ha
    exact ⟨fun _ => h.done (by simp [hc]), by simp, by simpa using ha, fun _ => h.noticed (Or.inr (Or.inl hm))⟩
  | cancel hc => exact ⟨h.done, h.fin, h.abort, fun _ => rfl⟩

theorem WaitState.measure_lt {s t : WaitState} (hs : WaitStep s t) : t.measure < s.measure := by
  cases hs with
  | work i k hi =>
    have := sum_set Worker.measure s.workers i _ (.running k) hi
    simp only [WaitState.measure]
    simp only [Worker.measure] at this ⊢
    omega
  | quit i k hi ha =>
    have := sum_set Worker.measure s.workers i _ (.running 0) hi
    simp only [WaitState.measure]
    simp only [Worker.measure] at this ⊢
    omega
  | done i hi =>
    have := sum_set Worker.measure s.workers i _ .done hi
    simp only [WaitState.measure]
    simp only [Worker.measure] at this ⊢
    omega
  | waited hc hd => simp only [WaitState.measure, hc]; omega
  | complete hc hm => simp only [WaitState.measure, hc, hm]; omega
  | notice hm hc => simp only [WaitState.measure, hm]; omega
  | setAbort hm => simp only [WaitState.measure, hm]; omega
  | drained hc hm => simp only [WaitState.measure, hc, hm]; omega
  | cancel hc => simp only [WaitState.measure, hc]; simp

/-- **C61** For any workers, however they interleave and whenever the context is cancelled:
* every execution is finite;
* when `Wait` has returned, every worker has called `Done` and the helper goroutine is gone; it reports an abort exactly
  if the workers were told to abort, and only if the context was cancelled;
* until it has returned, some goroutine can act (whether or not anybody cancels): there is no deadlock. -/
theorem C61_wait (work : List Nat) (cancelled : Bool) :
    (∃ N, ∀ n s, Run WaitStep n (WaitState.start work cancelled) s → n ≤ N) ∧
    ∀ n s, Run WaitStep n (WaitState.start work cancelled) s →
      (∀ e, s.main = .returned e → (∀ w ∈ s.workers, w = .done) ∧ s.closer = .finished ∧ (e = true ↔ s.abort = true) ∧
        (e = true → s.cancelled = true)) ∧
      ((∀ e, s.main ≠ .returned e) → ∃ s', WaitStep s s' ∧ s'.cancelled = s.cancelled) := by
  have h0 : (WaitState.start work cancelled).Inv := ⟨by simp [WaitState.start], by simp [WaitState.start], by simp [WaitState.start],
    by simp [WaitState.start]⟩
  have hb := fun n s (h : Run WaitStep n (WaitState.start work cancelled) s) =>
    run_bound WaitState.measure WaitState.Inv (fun _ _ => WaitState.Inv.step) (fun _ _ _ => WaitState.measure_lt) h0 h
  refine ⟨⟨_, fun n s h => Nat.le_trans (Nat.le_add_right _ _) (hb n s h).2⟩, ?_⟩
  intro n s h
  have inv := (hb n s h).1
  constructor
  · intro e he
    have hf := inv.fin.2 ⟨e, he⟩
    refine ⟨inv.done (by simp [hf]), hf, ?_, ?_⟩
    · rw [inv.abort, he]
      simp
    · intro et
      exact inv.noticed (by rw [he, et]; simp)
  · intro hn
    by_cases hw : ∃ w ∈ s.workers, w ≠ .done
    · obtain ⟨w, hm, hw⟩ := hw
      obtain ⟨i, hi⟩ := exists_getElem? hm
      cases w with
      | done => exact absurd rfl hw
      | running k =>
        cases k with
        | zero => exact ⟨_, .done s i hi, rfl⟩
        | succ k => exact ⟨_, .work s i k hi, rfl⟩
    · have hd : ∀ w ∈ s.workers, w = .done := fun w hm => by
        by_cases h : w = .done
        · exact h
        · exact absurd ⟨w, hm, h⟩ hw
      cases hc : s.closer with
      | waiting => exact ⟨_, .waited s hc hd, rfl⟩
      | finished =>
        obtain ⟨e, he⟩ := inv.fin.1 hc
        exact absurd he (hn e)
      | sending =>
        cases hm : s.main with
        | selecting => exact ⟨_, .complete s hc hm, rfl⟩
        | aborting => exact ⟨_, .setAbort s hm, rfl⟩
        | draining => exact ⟨_, .drained s hc hm, rfl⟩
        | returned e => exact absurd hm (hn e)

/-- Two workers; the context is cancelled while one is at work, and `Wait` reports it. -/
example : ∃ n s, Run WaitStep n (WaitState.start [1, 0] false) s ∧ s.main = .returned true :=
  ⟨_, _, .tail (.tail (.tail (.tail (.tail (.tail (.tail (.tail (.refl _) (.done _ 1 rfl)) (.cancel _ rfl)) (.notice _ rfl rfl)) (.setAbort _ rfl))
    (.quit _ 0 0 rfl rfl)) (.done _ 0 rfl)) (.waited _ rfl (by simp [WaitState.start]))) (.drained _ rfl rfl), rfl⟩

/-! ## C62 -/

def Loader.measure : Loader → Nat
  | .idle => 1
  | .working k => k + 3
  | .exited => 0

def LoadState.measure (K : Nat) (s : LoadState) : Nat :=
  (s.workers.map Loader.measure).sum + (match s.main with
    | .decoding m => m * (K + 4) + 2 | .sending m => m * (K + 4) + K + 5 | .waiting => 1 | .returned _ => 0) + (if s.cancelled then 0 else 1)

theorem LoadState.measure_lt {K : Nat} {s t : LoadState} (hs : LoadStep K s t) : t.measure K < s.measure K := by
  cases hs with
  | decode m hm => simp only [LoadState.measure, hm, Nat.add_mul]; omega
  | hand m i k hm hi hk =>
    have := sum_set Loader.measure s.workers i _ (.working k) hi
    simp only [LoadState.measure, hm]
    simp only [Loader.measure] at this ⊢
    omega
  | fail m hm => simp only [LoadState.measure, hm]; omega
  | close hm => simp only [LoadState.measure, hm]; omega
  | work i k hi =>
    have := sum_set Loader.measure s.workers i _ (.working k) hi
    simp only [LoadState.measure]
    simp only [Loader.measure] at this ⊢
    omega
  | store i hi =>
    have := sum_set Loader.measure s.workers i _ .idle hi
    simp only [LoadState.measure]
    simp only [Loader.measure] at this ⊢
    omega
  | quit i k hi hc =>
    have := sum_set Loader.measure s.workers i _ .exited hi
    simp only [LoadState.measure]
    simp only [Loader.measure] at this ⊢
    omega
  | closed i hi hm =>
    have := sum_set Loader.measure s.workers i _ .exited hi
    simp only [LoadState.measure]
    simp only [Loader.measure] at this ⊢
    omega
  | waited hm hd => simp only [LoadState.measure, hm]; omega
  | aborted hm hc hd => simp only [LoadState.measure, hm]; omega
  | cancel hc => simp only [LoadState.measure, hc]; simp

/-- Layers still to be handed over. -/
def Decoder.left : Decoder → Nat
  | .decoding m => m
  | .sending m => m + 1
  | _ => 0

/-- A worker that has taken a layer and not come back. -/
def Loader.taken : Loader → Nat
  | .idle => 0
  | _ => 1

/-- Before the channel is closed, every worker not idle holds a layer of its own, and a worker has left only after a
cancellation. -/
structure LoadState.Inv (n layers : Nat) (s : LoadState) : Prop where
  length : s.workers.length = n
  taken : (∀ m, s.main ≠ .decoding m ∧ s.main ≠ .sending m) ∨ (s.workers.map Loader.taken).sum + s.main.left ≤ layers
  exited : (∀ m, s.main ≠ .decoding m ∧ s.main ≠ .sending m) ∨ s.cancelled = true ∨ ∀ w ∈ s.workers, w ≠ .exited

theorem LoadState.Inv.step {n layers K : Nat} {s t : LoadState} (h : s.Inv n layers) (hs : LoadStep K s t) : t.Inv n layers := by
  cases hs with
  | decode m hm =>
    refine ⟨h.length, ?_, ?_⟩
    · rcases h.taken with h1 | h1
      · exact absurd hm (h1 _).1
      · rw [hm] at h1
        exact Or.inr (by simpa [Decoder.left] using h1)
    · rcases h.exited with h1 | h1
      · exact absurd hm (h1 _).1
      · exact Or.inr h1
  | hand m i k hm hi hk =>
    refine ⟨by simp [h.length], ?_, ?_⟩
    · rcases h.taken with h1 | h1
      · exact absurd hm (h1 _).2
      · rw [hm] at h1
        have := sum_set Loader.taken s.workers i _ (.working k) hi
        simp only [Loader.taken, Decoder.left] at this h1
        exact Or.inr (by simp only [Decoder.left]; omega)
    · rcases h.exited with h1 | h1 | h1
      · exact absurd hm (h1 _).2
      · exact Or.inr (Or.inl h1)
      · refine Or.inr (Or.inr fun w hw => ?_)
        rcases mem_set_cases hw with rfl | hw
        · simp
        · exact h1 w hw
  | fail m hm => exact ⟨h.length, Or.inl (by simp), Or.inl (by simp)⟩
  | close hm => exact ⟨h.length, Or.inl (by simp), Or.inl (by simp)⟩
  | work i k hi =>
    refine ⟨by simp [h.length], h.taken.imp id fun h1 => ?_, h.exited.imp id fun h1 => h1.imp id fun h1 w hw => ?_⟩
    · have := sum_set Loader.taken s.workers i _ (.working k) hi
      simp only [Loader.taken] at this h1 ⊢
      omega
    · rcases mem_set_cases hw with rfl | hw
      · simp
      · exact h1 w hw
  | store i hi =>
    refine ⟨by simp [h.length], h.taken.imp id fun h1 => ?_, h.exited.imp id fun h1 => h1.imp id fun h1 w hw => ?_⟩
    · have := sum_set Loader.taken s.workers i _ .idle hi
      simp only [Loader.taken] at this h1 ⊢
      omega
    · rcases mem_set_cases hw with rfl | hw
      · simp
      · exact h1 w hw
  | quit i k hi hc =>
    refine ⟨by simp [h.length], h.taken.imp id fun h1 => ?_, Or.inr (Or.inl hc)⟩
    have := sum_set Loader.taken s.workers i _ .exited hi
    simp only [Loader.taken] at this h1 ⊢
    omega
  | closed i hi hm =>
    have hn : ∀ m, s.main ≠ .decoding m ∧ s.main ≠ .sending m := by
      intro m
      rcases hm with hm | ⟨ok, hm⟩ <;> simp [hm]
    exact ⟨by simp [h.length], Or.inl hn, Or.inl hn⟩
  | waited hm hd => exact ⟨h.length, Or.inl (by simp), Or.inl (by simp)⟩
  | aborted hm hc hd => exact ⟨h.length, Or.inl (by simp), Or.inl (by simp)⟩
  | cancel hc => exact ⟨h.length, h.taken, h.exited.imp id fun _ => Or.inl rfl⟩

theorem sum_taken_eq : ∀ (l : List Loader), (∀ w ∈ l, w = .exited) → (l.map Loader.taken).sum = l.length
  | [], _ => rfl
  | w :: l, h => by
    have h1 := h w (by simp)
    subst h1
    have := sum_taken_eq l fun w hw => h w (by simp [hw])
    simp only [List.map_cons, List.sum_cons, List.length_cons, this, Loader.taken]
    omega

/-- **C62** (in part) For `n ≥ 1` goroutines, every interleaving and every moment of cancellation, loading a file
* always comes to an end: no execution is infinite;
* comes to an end by returning, unless the context was cancelled, every worker has left and the decoder is offering a
  layer to nobody. That takes more layers than there are goroutines.

So a load that is not cancelled returns, and a cancelled one does if the file has at most `n` layers. Missing: a
cancelled load of a file with more layers, where the claim is false (`C62_cancelling_can_hang`). -/
theorem C62_cancel_partial (n layers K : Nat) (hn : 1 ≤ n) (cancelled : Bool) :
    (∃ N, ∀ k s, Run (LoadStep K) k (LoadState.start n layers cancelled) s → k ≤ N) ∧
    ∀ k s, Run (LoadStep K) k (LoadState.start n layers cancelled) s → (∀ ok, s.main ≠ .returned ok) →
      (∃ s', LoadStep K s s' ∧ s'.cancelled = s.cancelled) ∨ (s.cancelled = true ∧ n < layers) := by
  have h0 : (LoadState.start n layers cancelled).Inv n layers := by
    refine ⟨by simp [LoadState.start], Or.inr ?_, Or.inr (Or.inr ?_)⟩
    · simp [LoadState.start, Loader.taken, Decoder.left]
    · intro w hw
      simp only [LoadState.start, List.mem_replicate] at hw
      simp [hw.2]
  have hb := fun k s (h : Run (LoadStep K) k (LoadState.start n layers cancelled) s) =>
    run_bound (LoadState.measure K) (LoadState.Inv n layers) (fun _ _ => LoadState.Inv.step) (fun _ _ _ => LoadState.measure_lt) h0 h
  refine ⟨⟨_, fun k s h => Nat.le_trans (Nat.le_add_right _ _) (hb k s h).2⟩, ?_⟩
  intro k s h hret
  have inv := (hb k s h).1
  by_cases hw : ∃ w ∈ s.workers, ∃ j, w = .working j
  · obtain ⟨w, hm, j, rfl⟩ := hw
    obtain ⟨i, hi⟩ := exists_getElem? hm
    cases j with
    | zero => exact Or.inl ⟨_, .store s i hi, rfl⟩
    | succ j => exact Or.inl ⟨_, .work s i j hi, rfl⟩
  · by_cases hid : ∃ w ∈ s.workers, w = .idle
    · obtain ⟨w, hm, rfl⟩ := hid
      obtain ⟨i, hi⟩ := exists_getElem? hm
      left
      cases hmain : s.main with
      | decoding m =>
        cases m with
        | zero => exact ⟨_, .close s hmain, rfl⟩
        | succ m => exact ⟨_, .decode s m hmain, rfl⟩
      | sending m => exact ⟨_, .hand s m i 0 hmain hi (Nat.zero_le _), rfl⟩
      | waiting => exact ⟨_, .closed s i hi (Or.inl hmain), rfl⟩
      | returned ok => exact absurd hmain (hret ok)
    · have hd : ∀ w ∈ s.workers, w = .exited := by
        intro w hm
        cases w with
        | idle => exact absurd ⟨_, hm, rfl⟩ hid
        | working j => exact absurd ⟨_, hm, j, rfl⟩ hw
        | exited => rfl
      cases hmain : s.main with
      | decoding m =>
        cases m with
        | zero => exact Or.inl ⟨_, .close s hmain, rfl⟩
        | succ m => exact Or.inl ⟨_, .decode s m hmain, rfl⟩
      | waiting => exact Or.inl ⟨_, .waited s hmain hd, rfl⟩
      | returned ok => exact absurd hmain (hret ok)
      | sending m =>
        right
        constructor
        · rcases inv.exited with h1 | h1 | h1
          · exact absurd hmain (h1 m).2
          · exact h1
          · have hlen := inv.length
            cases hl : s.workers with
            | nil => rw [hl] at hlen; simp at hlen; omega
            | cons w l => exact absurd (hd w (by simp [hl])) (h1 w (by simp [hl]))
        · rcases inv.taken with h1 | h1
          · exact absurd hmain (h1 m).2
          · rw [sum_taken_eq _ hd, inv.length, hmain] at h1
            simp only [Decoder.left] at h1
            omega

theorem Run.trans {S : Type} {step : S → S → Prop} {n m : Nat} {a b c : S} (h : Run step n a b) (h' : Run step m b c) : Run step (n + m) a c := by
  induction h' with
  | refl => exact h
  | tail _ hs ih => exact .tail (ih h) hs

/-- Each of the first `i` workers has taken a layer and given up. -/
def LoadState.left (n layers i : Nat) : LoadState := ⟨List.replicate i .exited ++ List.replicate (n - i) .idle, true, .decoding (layers - i)⟩

theorem load_leave {K n layers : Nat} : ∀ i, i ≤ n → i < layers → ∃ k, Run (LoadStep K) k (LoadState.start n layers true) (LoadState.left n layers i)
  | 0, _, _ => ⟨0, by
      have : LoadState.left n layers 0 = LoadState.start n layers true := by simp [LoadState.left, LoadState.start]
      rw [this]; exact .refl _⟩
  | i + 1, hi, hl => by
    obtain ⟨k, hk⟩ := load_leave (K := K) (n := n) (layers := layers) i (by omega) (by omega)
    obtain ⟨m, hm⟩ : ∃ m, layers - i = m + 1 := ⟨layers - i - 1, by omega⟩
    obtain ⟨q, hq⟩ : ∃ q, n - i = q + 1 := ⟨n - i - 1, by omega⟩
    have e1 : layers - (i + 1) = m := by omega
    have e2 : n - (i + 1) = q := by omega
    have hidx : ∀ (x : Loader), (List.replicate i Loader.exited ++ x :: List.replicate q Loader.idle)[i]? = some x := by
      intro x
      rw [List.getElem?_append_right (by simp)]
      simp
    have hset : ∀ (x y : Loader), (List.replicate i Loader.exited ++ x :: List.replicate q Loader.idle).set i y =
        List.replicate i Loader.exited ++ y :: List.replicate q Loader.idle := by
      intro x y
      rw [List.set_append_right _ _ (by simp)]
      simp
    have s0 : LoadState.left n layers i = ⟨List.replicate i .exited ++ .idle :: List.replicate q .idle, true, .decoding (m + 1)⟩ := by
      simp only [LoadState.left, hm, hq, List.replicate_succ]
    have s3 : LoadState.left n layers (i + 1) = ⟨List.replicate i .exited ++ .exited :: List.replicate q .idle, true, .decoding m⟩ := by
      simp only [LoadState.left, e1, e2, List.replicate_succ']
      simp
    rw [s0] at hk
    rw [s3]
    have h1 := LoadStep.decode (K := K) ⟨List.replicate i .exited ++ .idle :: List.replicate q .idle, true, .decoding (m + 1)⟩ m rfl
    have h2 := LoadStep.hand (K := K) ⟨List.replicate i .exited ++ .idle :: List.replicate q .idle, true, .sending m⟩ m i 0 rfl (hidx _) (Nat.zero_le _)
    have h3 := LoadStep.quit (K := K) ⟨List.replicate i .exited ++ .working 0 :: List.replicate q .idle, true, .decoding m⟩ i 0 (hidx _) rfl
    simp only [hset] at h2 h3
    exact ⟨_, .tail (.tail (.tail hk h1) h2) h3⟩

/-- **C62** is false: with any number of goroutines and a file of more layers than that, a cancelled load can come to a
state in which it has not returned and nothing can ever happen again. -/
theorem C62_cancelling_can_hang (n layers K : Nat) (h : n < layers) : ∃ k s, Run (LoadStep K) k (LoadState.start n layers true) s ∧
    (∀ ok, s.main ≠ .returned ok) ∧ ∀ s', ¬ LoadStep K s s' := by
  obtain ⟨k, hk⟩ := load_leave (K := K) n (Nat.le_refl _) h
  obtain ⟨m, hm⟩ : ∃ m, layers - n = m + 1 := ⟨layers - n - 1, by omega⟩
  have e : LoadState.left n layers n = ⟨List.replicate n .exited, true, .decoding (m + 1)⟩ := by
    simp [LoadState.left, hm]
  rw [e] at hk
  have h1 := LoadStep.decode (K := K) ⟨List.replicate n .exited, true, .decoding (m + 1)⟩ m rfl
  refine ⟨_, _, .tail hk h1, by simp, ?_⟩
  have hex : ∀ (i : Nat) (w : Loader), (List.replicate n Loader.exited)[i]? = some w → w = .exited := by
    intro i w hw
    exact List.eq_of_mem_replicate (List.mem_of_getElem? hw)
  intro s' hs
  cases hs with
  | decode m hm => simp at hm
  | hand m i k hm hi hk => exact absurd (hex i _ hi) (by simp)
  | fail m hm => simp at hm
  | close hm => simp at hm
  | work i k hi => exact absurd (hex i _ hi) (by simp)
  | store i hi => exact absurd (hex i _ hi) (by simp)
  | quit i k hi hc => exact absurd (hex i _ hi) (by simp)
  | closed i hi hm => exact absurd (hex i _ hi) (by simp)
  | waited hm hd => simp at hm
  | aborted hm hc hd => simp at hm
  | cancel hc => simp at hc

/-- One goroutine and two layers are enough. -/
example : ∃ k s, Run (LoadStep 5) k (LoadState.start 1 2 true) s ∧ (∀ ok, s.main ≠ .returned ok) ∧ ∀ s', ¬ LoadStep 5 s s' :=
  C62_cancelling_can_hang 1 2 5 (by decide)

end Psd
