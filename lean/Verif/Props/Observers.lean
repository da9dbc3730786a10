import Verif.Lemmas.Observer
import Verif.Props.Order
import Verif.Props.Decode
import Verif.Props.Front

/-
C108, C109: what the options `SkipMergedImage` and `LayerImageLoaded` have no influence on, for every input.
-/

namespace Psd
open Spec (Doc)

/-- The document without its merged picture. -/
def PSD.withoutPicture (p : PSD) : PSD := { p with data := [], channel := GoMap.empty, picker := none }

/-- Steps that go forward and make no calls. -/
def Onward {α : Type} (p _q : P α) : Prop := ∀ s a s', p s = .ok (a, s') → s.pos ≤ s'.pos ∧ s'.log = s.log

theorem onward_of {α : Type} {p : P α} (h : ∀ s a s', p s = .ok (a, s') → s.pos ≤ s'.pos ∧ s'.log = s.log) : Onward p p := h

theorem onward_clo : CloR @Onward where
  pure _ := by intro s b s' h; cases h; exact ⟨Nat.le_refl _, rfl⟩
  bind := by
    intro α β p q f g h1 h2 s b s' h
    obtain ⟨a, s₁, e1, e2⟩ := P.bind_eq_ok.1 h
    have a1 := h1 _ _ _ e1
    have a2 := h2 a _ _ _ e2
    exact ⟨Nat.le_trans a1.1 a2.1, a2.2.trans a1.2⟩
  fail _ := by intro s b s' h; cases h
  readFull k := by
    intro s b s' h
    obtain ⟨_, _, _, sched, rfl, hs⟩ := readFull_eq_ok h
    exact ⟨Nat.le_add_right .., rfl⟩

theorem onward_lift : LiftOk @Onward := by
  intro α x s b s' h
  obtain ⟨_, rfl⟩ := P.lift_eq_ok.1 h
  exact ⟨Nat.le_refl _, rfl⟩

theorem onward_zlib (env : Env) (w : Nat) (k : Int) : Onward (decodeZLIB env w k) (decodeZLIB env w k) := by
  intro s b s' h
  obtain ⟨n, _, _, rfl, _⟩ := decodeZLIB_eq_ok h
  exact ⟨Nat.le_add_right .., rfl⟩

theorem onward_cmDecode (env : Env) (method : Int) (dest : List UInt8) (hint : Int) (rect : Rect) (depth ch : Nat) (large : Bool) :
    Onward (cmDecode env method dest hint rect depth ch large) (cmDecode env method dest hint rect depth ch large) := by
  by_cases h2 : method = 2
  · subst h2
    rw [cmDecode_two]
    exact onward_zlib _ _ _
  by_cases h3 : method = 3
  · subst h3
    rw [cmDecode_three]
    exact onward_clo.bind (onward_zlib _ _ _) fun _ => onward_clo.bind (onward_lift _) fun _ => onward_clo.pure _
  exact onward_clo.cmDecodeNoZip onward_lift env h2 h3 _ _ _ _ _ _

/-- Reading the merged picture adds the picture and changes nothing else. -/
theorem readMerged_adds {env : Env} {cfg : Config} {psd psd' : PSD} {l : Int} {s s' : St} (h : readMerged env cfg psd s = .ok ((psd', l), s')) :
    psd'.withoutPicture = psd.withoutPicture ∧ s.pos + 2 ≤ s'.pos ∧ s'.log = s.log := by
  unfold readMerged at h
  obtain ⟨gk, s₁, e1, h⟩ := P.bind_eq_ok.1 h
  obtain ⟨⟨k, pal⟩, s₂, e2, h⟩ := P.bind_eq_ok.1 h
  obtain ⟨_, s₃, e3, h⟩ := P.bind_eq_ok.1 h
  obtain ⟨b, s₄, e4, h⟩ := P.bind_eq_ok.1 h
  obtain ⟨⟨data, l'⟩, s₅, e5, h6⟩ := P.bind_eq_ok.1 h
  obtain ⟨_, rfl⟩ := P.lift_eq_ok.1 e1
  obtain ⟨_, rfl⟩ := P.lift_eq_ok.1 e2
  obtain ⟨_, rfl⟩ := P.lift_eq_ok.1 e3
  obtain ⟨_, _, _, sched, rfl, hs⟩ := readFull_eq_ok e4
  have := onward_cmDecode _ _ _ _ _ _ _ _ _ _ _ e5
  cases h6
  exact ⟨rfl, this.1, this.2⟩

/-- Before the merged picture is read there is none. -/
theorem layerAndMask_bare {env : Env} {cfg : Config} {o : Options} {n : Nat} {psd : PSD} {l : Int} {s s' : St}
    (h : readLayerAndMaskInfo env cfg o n s = .ok ((psd, l), s')) : psd.withoutPicture = psd := by
  unfold readLayerAndMaskInfo at h
  obtain ⟨b, s₁, -, h⟩ := P.bind_eq_ok.1 h
  simp only [P.ite_app] at h
  split at h
  · cases h; rfl
  obtain ⟨⟨_, _⟩, _, -, h⟩ := P.bind_eq_ok.1 h
  obtain ⟨_, _, -, h⟩ := P.bind_eq_ok.1 h
  obtain ⟨⟨_, _, _⟩, _, -, h⟩ := P.bind_eq_ok.1 h
  simp only [P.ite_app] at h
  split at h
  · cases h
  obtain ⟨_, _, -, h⟩ := P.bind_eq_ok.1 h
  obtain ⟨_, _, -, h⟩ := P.bind_eq_ok.1 h
  simp only [P.ite_app] at h
  split at h
  · cases h
  cases h; rfl

theorem pre_bare {env : Env} {o : Options} {m n : Nat} {r : Config × PSD × Int} {s s' : St}
    (h : preF env o m n s = .ok (r, s')) : r.2.1.withoutPicture = r.2.1 := by
  unfold preF at h
  obtain ⟨⟨cfg, read⟩, s₁, -, h⟩ := P.bind_eq_ok.1 h
  simp only [P.ite_app] at h
  split at h
  · cases h
  obtain ⟨⟨psd, l⟩, s₂, e, h⟩ := P.bind_eq_ok.1 h
  cases h
  exact layerAndMask_bare e

/-- **C108 SkipMergedImage changes the merged picture only.** For every input, options and reader: if `Decode` succeeds, it succeeds
with `SkipMergedImage` too, returns the same without the merged picture, makes the same calls, and has left at least the two bytes
of the picture's compression method unread. -/
theorem C108_skip_merged_image {env : Env} {o : Options} {s : St} {psd : PSD} {n : Int} {s' : St}
    (h : decode env { o with skipMergedImage := false } s = .ok ((psd, n), s')) :
    ∃ n₀ s₀, decode env { o with skipMergedImage := true } s = .ok ((psd.withoutPicture, n₀), s₀) ∧ n₀ + 2 ≤ n ∧ s₀.log = s'.log := by
  have h0 := h
  rw [decode_eq env _ s (Nat.lt_succ_self _) (Nat.lt_succ_self _), decodeF_split] at h
  obtain ⟨r, s₁, e1, e2⟩ := P.bind_eq_ok.1 h
  have hdec : decode env { o with skipMergedImage := true } s = .ok ((r.2.1, r.2.2), s₁) := by
    rw [decode_eq env _ s (Nat.lt_succ_self _) (Nat.lt_succ_self _), decodeF_split]
    rw [preF_skip] at e1 ⊢
    rw [P.bind_ok e1]
    rfl
  unfold postF at e2
  simp only [Bool.false_eq_true, if_false] at e2
  obtain ⟨⟨psd', l⟩, s₂, e3, e4⟩ := P.bind_eq_ok.1 e2
  cases e4
  have h3 := readMerged_adds e3
  have hp0 := (C06_read_count env { o with skipMergedImage := true } s).2 _ _ _ hdec
  have hp1 := (C06_read_count env { o with skipMergedImage := false } s).2 _ _ _ h0
  refine ⟨r.2.2, s₁, ?_, by omega, h3.2.2.symm⟩
  rw [hdec, h3.1, pre_bare e1]

/-- **C108** The other way round: if `Decode` fails with `SkipMergedImage`, it fails alike without. So a file whose metadata or layers are broken is
reported as such by both. -/
theorem C108_same_failures {env : Env} {o : Options} {s : St} :
    (∀ e, decode env { o with skipMergedImage := true } s = .err e → decode env { o with skipMergedImage := false } s = .err e) ∧
    (∀ q, decode env { o with skipMergedImage := true } s = .panic q → decode env { o with skipMergedImage := false } s = .panic q) := by
  rw [decode_eq env { o with skipMergedImage := true } s (Nat.lt_succ_self _) (Nat.lt_succ_self _), decodeF_split,
    decode_eq env { o with skipMergedImage := false } s (Nat.lt_succ_self _) (Nat.lt_succ_self _), decodeF_split, P.bind_apply, P.bind_apply]
  rw [preF_skip env o true, preF_skip env o false]
  cases preF env o (s.data.length + 1) (s.data.length + 1) s with
  | ok r =>
    refine ⟨fun e h => ?_, fun q h => ?_⟩
    · exact absurd h (by intro h; cases h)
    · exact absurd h (by intro h; cases h)
  | err e => exact ⟨fun _ h => (by cases h; rfl), fun q h => (by cases h)⟩
  | panic q => exact ⟨fun e h => (by cases h), fun _ h => (by cases h; rfl)⟩
  | fuel => exact ⟨fun e h => (by cases h), fun q h => (by cases h)⟩

/-- **C109 Setting LayerImageLoaded changes nothing but the calls.** For every input, options and reader: whatever `Decode` returns with the callback, be it
a document, an error or a panic, it returns without, having read the same; and without the callback no call is made. -/
theorem C109_observed {env : Env} {o : Options} {s : St} :
    decode env { o with layerImageLoaded := false } s =
      (decode env { o with layerImageLoaded := true } s).map fun r => (r.1, { r.2 with log := s.log }) := by
  have h := log_decode env (o := { o with layerImageLoaded := true }) (o' := { o with layerImageLoaded := false }) rfl rfl rfl s s rfl
  cases h1 : decode env { o with layerImageLoaded := true } s with
  | ok r =>
    rw [h1] at h
    cases h2 : decode env { o with layerImageLoaded := false } s with
    | ok r' =>
      rw [h2] at h
      obtain ⟨⟨psd, n⟩, s'⟩ := r
      obtain ⟨⟨psd', n'⟩, t'⟩ := r'
      obtain ⟨e, e'⟩ := h
      obtain ⟨gs, -, -, hl, -⟩ := C30_callbacks_partial h2
      simp only [Bool.false_eq_true, false_and, if_false, List.append_nil] at hl
      unfold SameButLog at e'
      rw [hl] at e'
      rw [← e, e']
      rfl
    | err e => rw [h2] at h; exact h.elim
    | panic e => rw [h2] at h; exact h.elim
    | fuel => rw [h2] at h; exact h.elim
  | err e =>
    rw [h1] at h
    cases h2 : decode env { o with layerImageLoaded := false } s with
    | err e' => rw [h2] at h; rw [show e = e' from h]; rfl
    | ok e => rw [h2] at h; exact h.elim
    | panic e => rw [h2] at h; exact h.elim
    | fuel => rw [h2] at h; exact h.elim
  | panic e =>
    rw [h1] at h
    cases h2 : decode env { o with layerImageLoaded := false } s with
    | panic e' => rw [h2] at h; rw [show e = e' from h]; rfl
    | ok e => rw [h2] at h; exact h.elim
    | err e => rw [h2] at h; exact h.elim
    | fuel => rw [h2] at h; exact h.elim
  | fuel =>
    rw [h1] at h
    cases h2 : decode env { o with layerImageLoaded := false } s with
    | fuel => rfl
    | ok e => rw [h2] at h; exact h.elim
    | err e => rw [h2] at h; exact h.elim
    | panic e => rw [h2] at h; exact h.elim

/-- **C109** The calls do not depend on what the callback has been called with before: a program that decodes several files with one callback sees for each of
them what it sees when it decodes this file alone. -/
theorem C109_calls_of_one_file {env : Env} {o : Options} {s : St} {psd : PSD} {n : Int} {s' : St} (h : decode env o s = .ok ((psd, n), s')) :
    ∃ es, s'.log = s.log ++ es ∧ ∀ l, decode env o { s with log := l } = .ok ((psd, n), { s' with log := l ++ es }) := by
  obtain ⟨gs, -, -, hl, -⟩ := C30_callbacks_partial h
  refine ⟨_, hl, fun l => ?_⟩
  obtain ⟨t', e, es, e1, e2⟩ := (shift_decode s.log l env o).of_ok (s := s) (t := { s with log := l }) ⟨[], (List.append_nil _).symm, by rw [List.append_nil]⟩ h
  rw [e, e2]
  rw [hl] at e1
  rw [List.append_cancel_left e1]

/-! ### Examples -/

/-- The example document can be decoded, so that C108 and C109 say something about it; with the callback, its layers are announced. -/
example : ∃ psd n s', decode exEnv { layerImageLoaded := true } (exReader exDoc) = .ok ((psd, n), s') ∧ psd.withoutPicture ≠ psd ∧ s'.log ≠ [] := by
  obtain ⟨s', h, -, hl⟩ := decode_doc (env := exEnv) (exDoc_reads (Nat.le_refl 1)) exDoc_valid (o := { layerImageLoaded := true }) rfl exReader_presents
  refine ⟨_, _, s', h, fun e => ?_, ?_⟩
  · exact absurd (congrArg PSD.data e) (by decide +kernel)
  · rw [hl]
    decide +kernel

/-- A file whose merged picture is cut off is rejected, unless the picture is skipped. -/
example : (decode exEnv { skipMergedImage := false } { data := exDoc.front ++ [0] }).isErr = true ∧
    (decode exEnv { skipMergedImage := true } { data := exDoc.front ++ [0] }).isOk = true := by
  decide +kernel

end Psd
