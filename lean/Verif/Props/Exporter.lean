import Verif.Spec.Exporter
import Verif.Props.Document

/-!
# C97: what psdexporter writes
-/

namespace Psd
open Spec (Layer Doc modeColors)

/-! ### Names -/

theorem pad3_digits {i : Nat} {c : Char} (h : c ∈ pad3 i) : c.isDigit = true := by
  unfold pad3 at h
  rcases List.mem_append.1 h with h | h
  · rw [List.eq_of_mem_replicate h]; decide
  · exact Nat.isDigit_of_mem_toDigits (by omega) (by omega) h

theorem pad3_inj {i j : Nat} (h : pad3 i = pad3 j) : i = j := by
  have hv : ∀ n, Nat.ofDigitChars 10 (pad3 n) 0 = n := by
    intro n
    unfold pad3
    rw [Nat.ofDigitChars_append, Nat.ofDigitChars_replicate_zero, Nat.mul_zero, Nat.ofDigitChars_ten_toDigits]
  rw [← hv i, ← hv j, h]

theorem pad3_ne_nil (i : Nat) : pad3 i ≠ [] := by
  unfold pad3
  simp [Nat.toDigits_ne_nil]

/-- Two texts of digits, each followed by something that does not begin with a digit. -/
theorem digits_split {a b c d : List Char} (ha : ∀ x ∈ a, x.isDigit = true) (hb : ∀ x ∈ b, x.isDigit = true)
    (hc : ∀ x, c.head? = some x → x.isDigit = false) (hd : ∀ x, d.head? = some x → x.isDigit = false)
    (h : a ++ c = b ++ d) : a = b ∧ c = d := by
  induction a generalizing b with
  | nil =>
    cases b with
    | nil => exact ⟨rfl, h⟩
    | cons y b =>
      have h1 := hc y (by rw [List.nil_append] at h; rw [h]; rfl)
      rw [hb y (by simp)] at h1; cases h1
  | cons x a ih =>
    cases b with
    | nil =>
      have h1 := hd x (by rw [List.nil_append] at h; rw [← h]; rfl)
      rw [ha x (by simp)] at h1; cases h1
    | cons y b =>
      obtain ⟨rfl, h2⟩ := List.cons.inj h
      obtain ⟨rfl, rfl⟩ := ih (fun z hz => ha z (by simp [hz])) (fun z hz => hb z (by simp [hz])) h2
      exact ⟨rfl, rfl⟩

/-- The part of a name before `.png`. -/
def stem (p : List Nat) : List Char := ((p.map pad3).intersperse ['_']).flatten

theorem fileName_stem (p : List Nat) : fileName p = stem p ++ ['.', 'p', 'n', 'g'] := rfl

theorem stem_cons (i j : Nat) (p : List Nat) : stem (i :: j :: p) = pad3 i ++ '_' :: stem (j :: p) := by
  simp [stem]

theorem stem_single (i : Nat) : stem [i] = pad3 i := by simp [stem]

theorem stem_snoc {p : List Nat} (hp : p ≠ []) (i : Nat) : stem (p ++ [i]) = stem p ++ ['_'] ++ pad3 i := by
  induction p with
  | nil => exact absurd rfl hp
  | cons j p ih =>
    cases p with
    | nil => simp [stem]
    | cons k p =>
      have := ih (by simp)
      simp only [List.cons_append] at this ⊢
      rw [stem_cons, this, stem_cons]
      simp

theorem stem_inj {p q : List Nat} (hp : p ≠ []) (hq : q ≠ []) (h : stem p = stem q) : p = q := by
  induction p generalizing q with
  | nil => exact absurd rfl hp
  | cons i p ih =>
    cases q with
    | nil => exact absurd rfl hq
    | cons j q =>
      have key : ∀ (i : Nat) (p : List Nat), ∃ t, stem (i :: p) = pad3 i ++ t ∧ (∀ x, t.head? = some x → x.isDigit = false) ∧
          (p = [] ∧ t = [] ∨ p ≠ [] ∧ t = '_' :: stem p) := by
        intro i p
        cases p with
        | nil => exact ⟨[], by simp [stem_single], by simp, Or.inl ⟨rfl, rfl⟩⟩
        | cons k p =>
          refine ⟨_, stem_cons i k p, ?_, Or.inr ⟨by simp, rfl⟩⟩
          intro x hx
          simp at hx
          rw [← hx]; decide
      obtain ⟨t, h1, h2, h3⟩ := key i p
      obtain ⟨u, k1, k2, k3⟩ := key j q
      rw [h1, k1] at h
      obtain ⟨he, ht⟩ := digits_split (fun x => pad3_digits) (fun x => pad3_digits) h2 k2 h
      rw [pad3_inj he]
      rcases h3 with ⟨rfl, rfl⟩ | ⟨hn, rfl⟩
      · rcases k3 with ⟨rfl, -⟩ | ⟨-, rfl⟩
        · rfl
        · cases ht
      · rcases k3 with ⟨-, rfl⟩ | ⟨hm, rfl⟩
        · cases ht
        · rw [ih hn hm (List.cons.inj ht).2]

/-- **C97** Layers at different places have different file names. -/
theorem C97_names_differ {p q : List Nat} (hp : p ≠ []) (hq : q ≠ []) (h : fileName p = fileName q) : p = q := by
  rw [fileName_stem, fileName_stem] at h
  exact stem_inj hp hq (List.append_cancel_right h)

/-! ### The order of exporting -/

/-- Exporting the layers of a list one after the other. -/
def exportAll (h : Host) : List (List Nat × LayerRec) → Files → Files × Res Unit
  | [], fs => (fs, .ok ())
  | (p, l) :: ps, fs =>
    if l.hasImage = false then exportAll h ps fs
    else match writePng h (fileName p) l.picker fs with
      | (fs, .ok ()) => exportAll h ps fs
      | (fs, r) => (fs, r)

theorem exportAll_append (h : Host) (a b : List (List Nat × LayerRec)) (fs : Files) :
    exportAll h (a ++ b) fs = match exportAll h a fs with
      | (fs, .ok ()) => exportAll h b fs
      | (fs, r) => (fs, r) := by
  induction a generalizing fs with
  | nil => rfl
  | cons x a ih =>
    obtain ⟨p, l⟩ := x
    simp only [List.cons_append, exportAll]
    split
    · exact ih fs
    · cases hw : writePng h (fileName p) l.picker fs with
      | mk f r => cases r with
        | ok u => exact ih f
        | err e => rfl
        | panic e => rfl
        | fuel => rfl

mutual

theorem exportLayer_eq (h : Host) {p : List Nat} (hp : p ≠ []) : ∀ (t : LTree LayerRec) (fs : Files),
    exportLayer h (stem p) t fs = exportAll h (t.paths p) fs
  | .node l kids, fs => by
    rw [exportLayer, exportLayers_eq h p (stem p ++ ['_']) (fun i => (stem_snoc hp i).symm) kids 0 fs, LTree.paths, exportAll_append]
    cases hw : exportAll h (pathsFrom p 0 kids) fs with
    | mk f r => cases r with
      | err e => rfl
      | panic e => rfl
      | fuel => rfl
      | ok u =>
        simp only [exportAll]
        split
        · rfl
        · rw [fileName_stem]
          split <;> simp_all

theorem exportLayers_eq (h : Host) (p : List Nat) (pre : List Char) (hpre : ∀ i, pre ++ pad3 i = stem (p ++ [i])) :
    ∀ (ks : List (LTree LayerRec)) (i : Nat) (fs : Files), exportLayers h pre i ks fs = exportAll h (pathsFrom p i ks) fs
  | [], i, fs => by rw [exportLayers, pathsFrom]; rfl
  | k :: ks, i, fs => by
    rw [exportLayers, hpre, exportLayer_eq h (by simp) k fs, pathsFrom, exportAll_append]
    cases hw : exportAll h (k.paths (p ++ [i])) fs with
    | mk f r => cases r with
      | ok u => exact exportLayers_eq h p pre hpre ks (i + 1) f
      | err e => rfl
      | panic e => rfl
      | fuel => rfl

end

/-! ### Paths and places -/

/-- The layer at a path below a layer. -/
def nodeAt {α : Type} : LTree α → List Nat → Option α
  | .node l kids, r => if r = [] then some l else layerAt kids r

theorem layerAt_cons {α : Type} (ks : List (LTree α)) (i : Nat) (r : List Nat) :
    layerAt ks (i :: r) = (ks[i]?).bind fun t => nodeAt t r := by
  rw [layerAt]
  cases ks[i]? with
  | none => rfl
  | some t => obtain ⟨l, kids⟩ := t; rfl

mutual

theorem mem_paths {α : Type} {q : List Nat} {l : α} : ∀ (t : LTree α) (p : List Nat),
    (q, l) ∈ t.paths p ↔ ∃ r, q = p ++ r ∧ nodeAt t r = some l
  | .node m kids, p => by
    rw [LTree.paths, List.mem_append, mem_pathsFrom kids p 0]
    constructor
    · rintro (⟨j, r, rfl, h⟩ | h)
      · exact ⟨_, by rw [Nat.zero_add], by rw [nodeAt, if_neg (by simp)]; exact h⟩
      · simp only [List.mem_singleton, Prod.mk.injEq] at h
        exact ⟨[], by simp [h.1], by rw [nodeAt, if_pos rfl, h.2]⟩
    · rintro ⟨r, rfl, h⟩
      rw [nodeAt] at h
      cases r with
      | nil => rw [if_pos rfl] at h; cases h; exact Or.inr (by simp)
      | cons j r => rw [if_neg (by simp)] at h; exact Or.inl ⟨j, r, by rw [Nat.zero_add], h⟩

theorem mem_pathsFrom {α : Type} {q : List Nat} {l : α} : ∀ (ks : List (LTree α)) (p : List Nat) (i : Nat),
    (q, l) ∈ pathsFrom p i ks ↔ ∃ j r, q = p ++ (i + j) :: r ∧ layerAt ks (j :: r) = some l
  | [], p, i => by
    rw [pathsFrom]
    constructor
    · intro h; cases h
    · rintro ⟨j, r, -, h⟩; rw [layerAt_cons] at h; simp at h
  | k :: ks, p, i => by
    rw [pathsFrom, List.mem_append, mem_paths k, mem_pathsFrom ks p (i + 1)]
    constructor
    · rintro (⟨r, rfl, h⟩ | ⟨j, r, rfl, h⟩)
      · exact ⟨0, r, by simp, by rw [layerAt_cons]; exact h⟩
      · refine ⟨j + 1, r, by rw [show i + 1 + j = i + (j + 1) by omega], ?_⟩
        rw [layerAt_cons] at h ⊢; exact h
    · rintro ⟨j, r, rfl, h⟩
      rw [layerAt_cons] at h
      cases j with
      | zero => exact Or.inl ⟨r, by simp, h⟩
      | succ j =>
        refine Or.inr ⟨j, r, by rw [show i + 1 + j = i + (j + 1) by omega], ?_⟩
        rw [layerAt_cons]; exact h

end

mutual

theorem paths_nodup {α : Type} : ∀ (t : LTree α) (p : List Nat), ((t.paths p).map (·.1)).Nodup
  | .node m kids, p => by
    rw [LTree.paths, List.map_append, List.nodup_append]
    refine ⟨pathsFrom_nodup kids p 0, by simp, ?_⟩
    intro a ha b hb hab
    obtain ⟨⟨q, l⟩, hq, rfl⟩ := List.mem_map.1 ha
    simp only [List.map_cons, List.map_nil, List.mem_singleton] at hb
    obtain ⟨j, r, h1, -⟩ := (mem_pathsFrom kids p 0).1 hq
    have h1 : q = p ++ (0 + j) :: r := h1
    have hab : q = b := hab
    rw [hab, hb] at h1
    have := congrArg List.length h1
    simp at this

theorem pathsFrom_nodup {α : Type} : ∀ (ks : List (LTree α)) (p : List Nat) (i : Nat), ((pathsFrom p i ks).map (·.1)).Nodup
  | [], p, i => by rw [pathsFrom]; simp
  | k :: ks, p, i => by
    rw [pathsFrom, List.map_append, List.nodup_append]
    refine ⟨paths_nodup k _, pathsFrom_nodup ks p (i + 1), ?_⟩
    intro a ha b hb hab
    obtain ⟨⟨q, l⟩, hq, rfl⟩ := List.mem_map.1 ha
    obtain ⟨⟨q2, l2⟩, hq2, rfl⟩ := List.mem_map.1 hb
    obtain ⟨r, h1, -⟩ := (mem_paths k _).1 hq
    obtain ⟨j, r2, h2, -⟩ := (mem_pathsFrom ks p (i + 1)).1 hq2
    have hab : q = q2 := hab
    rw [hab, h2, List.append_assoc] at h1
    have := List.append_cancel_left h1
    simp at this
    omega

end

theorem mem_all {α : Type} {ks : List (LTree α)} {q : List Nat} {l : α} :
    (q, l) ∈ pathsFrom [] 0 ks ↔ layerAt ks q = some l := by
  rw [mem_pathsFrom]
  constructor
  · rintro ⟨j, r, rfl, h⟩
    rw [List.nil_append, Nat.zero_add]; exact h
  · intro h
    cases q with
    | nil => rw [layerAt] at h; cases h
    | cons j r => exact ⟨j, r, by rw [List.nil_append, Nat.zero_add], h⟩

/-! ### What is written -/

theorem writePng_ok {h : Host} {p : List Nat} {l : LayerRec} {k : Picker} (hc : h.create (fileName p) = true) (hk : l.picker = some k) (fs : Files) :
    writePng h (fileName p) l.picker fs = (fun n => if n = fileName p then some (h.png k).1 else fs n, (h.png k).2) := by
  unfold writePng
  rw [if_neg (by simp [hc]), hk]

theorem writePng_other (h : Host) (name : List Char) (p : Option Picker) (fs : Files) {n : List Char} (hn : n ≠ name) :
    (writePng h name p fs).1 n = fs n := by
  unfold writePng
  split
  · rfl
  · cases p <;> simp [hn]

theorem writePng_fail {h : Host} {p : List Nat} {l : LayerRec} (hc : ¬ h.CanWrite p l) (fs : Files) :
    (writePng h (fileName p) l.picker fs).2 ≠ .ok () := by
  unfold writePng
  split
  · intro e; cases e
  · rename_i hx
    cases hk : l.picker with
    | none => intro e; cases e
    | some k =>
      intro e
      exact hc ⟨by simpa using hx, k, hk, e⟩

theorem exportAll_other (h : Host) (ps : List (List Nat × LayerRec)) (fs : Files) {n : List Char}
    (hn : ∀ q l, (q, l) ∈ ps → l.hasImage = true → n ≠ fileName q) : (exportAll h ps fs).1 n = fs n := by
  induction ps generalizing fs with
  | nil => rfl
  | cons x ps ih =>
    obtain ⟨p, l⟩ := x
    have ih := fun fs => ih fs fun q m hq => hn q m (by simp [hq])
    rw [exportAll]
    split
    · exact ih fs
    · rename_i hi
      have ho := writePng_other h (fileName p) l.picker fs (hn p l (by simp) (by simpa using hi))
      cases hw : writePng h (fileName p) l.picker fs with
      | mk f r =>
        rw [hw] at ho
        cases r with
        | ok u => rw [← ho]; exact ih f
        | err e => exact ho
        | panic e => exact ho
        | fuel => exact ho

theorem exportAll_ok {h : Host} {ps : List (List Nat × LayerRec)} (hnd : (ps.map (·.1)).Nodup) (hne : ∀ q l, (q, l) ∈ ps → q ≠ [])
    (hc : ∀ q l, (q, l) ∈ ps → l.hasImage = true → h.CanWrite q l) (fs : Files) :
    (exportAll h ps fs).2 = .ok () ∧ ∀ q l, (q, l) ∈ ps → l.hasImage = true →
      ∃ k, l.picker = some k ∧ (exportAll h ps fs).1 (fileName q) = some (h.png k).1 := by
  induction ps generalizing fs with
  | nil => exact ⟨rfl, fun q l hq => by cases hq⟩
  | cons x ps ih =>
    obtain ⟨p, l⟩ := x
    rw [List.map_cons, List.nodup_cons] at hnd
    have ih := fun fs => ih hnd.2 (fun q m hq => hne q m (by simp [hq])) (fun q m hq => hc q m (by simp [hq])) fs
    rw [exportAll]
    split
    · rename_i hi
      refine ⟨(ih fs).1, ?_⟩
      intro q m hq hm
      rcases List.mem_cons.1 hq with e | hq
      · cases e; rw [hi] at hm; cases hm
      · exact (ih fs).2 q m hq hm
    · rename_i hi
      obtain ⟨h1, k, h2, h3⟩ := hc p l (by simp) (by simpa using hi)
      rw [writePng_ok h1 h2, h3]
      dsimp only
      refine ⟨(ih _).1, ?_⟩
      intro q m hq hm
      rcases List.mem_cons.1 hq with e | hq
      · cases e
        refine ⟨k, h2, ?_⟩
        rw [exportAll_other h ps _ (n := fileName p), if_pos rfl]
        intro q2 l2 hq2 _ e
        rw [C97_names_differ (hne p l (by simp)) (hne q2 l2 (by simp [hq2])) e] at hnd
        exact hnd.1 (List.mem_map.2 ⟨_, hq2, rfl⟩)
      · exact (ih _).2 q m hq hm

theorem exportAll_stop {h : Host} {a b : List (List Nat × LayerRec)} {p : List Nat} {l : LayerRec} (hi : l.hasImage = true)
    (hc : ¬ h.CanWrite p l) (hnd : ((a ++ (p, l) :: b).map (·.1)).Nodup) (hne : ∀ q m, (q, m) ∈ a ++ (p, l) :: b → q ≠ []) (fs : Files) :
    (exportAll h (a ++ (p, l) :: b) fs).2 ≠ .ok () ∧
      ∀ q m, (q, m) ∈ b → (exportAll h (a ++ (p, l) :: b) fs).1 (fileName q) = fs (fileName q) := by
  have hf : ∀ f, (exportAll h ((p, l) :: b) f) = writePng h (fileName p) l.picker f := by
    intro f
    have := writePng_fail hc f
    rw [exportAll, if_neg (by simp [hi])]
    cases hw : writePng h (fileName p) l.picker f with
    | mk g r =>
      rw [hw] at this
      cases r with
      | ok u => exact absurd rfl this
      | err e => rfl
      | panic e => rfl
      | fuel => rfl
  have hdist : ∀ q m, (q, m) ∈ b → (∀ q2 m2, (q2, m2) ∈ a → fileName q ≠ fileName q2) ∧ fileName q ≠ fileName p := by
    intro q m hq
    have hq0 := hne q m (by simp [hq])
    rw [List.map_append, List.map_cons, List.nodup_append, List.nodup_cons] at hnd
    refine ⟨fun q2 m2 hq2 e => ?_, fun e => ?_⟩
    · have := C97_names_differ hq0 (hne q2 m2 (by simp [hq2])) e
      exact hnd.2.2 q2 (List.mem_map.2 ⟨_, hq2, rfl⟩) q (by simp; exact Or.inr ⟨_, hq⟩) this.symm
    · have := C97_names_differ hq0 (hne p l (by simp)) e
      exact hnd.2.1.1 (List.mem_map.2 ⟨_, hq, this⟩)
  have ha : ∀ q m, (q, m) ∈ b → (exportAll h a fs).1 (fileName q) = fs (fileName q) := fun q m hq =>
    exportAll_other h a fs fun q2 m2 hq2 _ => (hdist q m hq).1 q2 m2 hq2
  rw [exportAll_append]
  cases hw : exportAll h a fs with
  | mk g r =>
    rw [hw] at ha
    cases r with
    | err e => exact ⟨by simp, ha⟩
    | panic e => exact ⟨by simp, ha⟩
    | fuel => exact ⟨by simp, ha⟩
    | ok u =>
      dsimp only
      rw [hf]
      refine ⟨writePng_fail hc g, fun q m hq => ?_⟩
      rw [writePng_other h _ _ g (hdist q m hq).2]
      exact ha q m hq

/-! ### The program -/

theorem exporter_eq {h : Host} {env : Env} {s s' : St} {psd : PSD} {n : Int}
    (hd : decode env { skipMergedImage := true } s = .ok ((psd, n), s')) (fs : Files) :
    exporter h env s fs = exportAll h (pathsFrom [] 0 psd.layer) fs := by
  unfold exporter
  rw [hd]
  exact exportLayers_eq h [] [] (fun i => by simp [stem]) psd.layer 0 fs

theorem path_ne {α : Type} {ks : List (LTree α)} {q : List Nat} {l : α} (h : (q, l) ∈ pathsFrom [] 0 ks) : q ≠ [] := by
  rintro rfl
  have := mem_all.1 h
  rw [layerAt] at this; cases this

/-- **C97 Every layer with a picture is exported.** If the file can be decoded, all output files can be created and all pictures encoded, `psdexporter`
succeeds; for every layer that is not a folder, wherever it is in the tree, there is a file of its own, named after its place, which contains exactly
the encoded picture of this layer; no other file is touched.

The full property, without the condition on the pictures, is false: see `C97_empty_layer_stops`. -/
theorem C97_export_partial {h : Host} {env : Env} {s s' : St} {psd : PSD} {n : Int}
    (hd : decode env { skipMergedImage := true } s = .ok ((psd, n), s'))
    (hc : ∀ p l, layerAt psd.layer p = some l → l.hasImage = true → h.CanWrite p l) (fs : Files) :
    ∃ fs', exporter h env s fs = (fs', .ok ()) ∧
      (∀ p l, layerAt psd.layer p = some l → l.hasImage = true →
        ∃ k, l.picker = some k ∧ fs' (fileName p) = some (h.png k).1) ∧
      ∀ name, (∀ p l, layerAt psd.layer p = some l → l.hasImage = true → name ≠ fileName p) → fs' name = fs name := by
  rw [exporter_eq hd]
  have h1 := exportAll_ok (h := h) (pathsFrom_nodup psd.layer [] 0) (fun q l => path_ne) (fun q l hq => hc q l (mem_all.1 hq)) fs
  refine ⟨_, Prod.ext rfl h1.1, fun p l hp => h1.2 p l (mem_all.2 hp), fun name hn => ?_⟩
  exact exportAll_other h _ fs fun q l hq => hn q l (mem_all.1 hq)

/-- **C97** If the file cannot be decoded, nothing is written. -/
theorem C97_no_document {h : Host} {env : Env} {s : St} (hd : ∀ r, decode env { skipMergedImage := true } s ≠ .ok r) (fs : Files) :
    (exporter h env s fs).1 = fs ∧ (exporter h env s fs).2 ≠ .ok () := by
  unfold exporter
  cases h1 : decode env { skipMergedImage := true } s with
  | ok r => exact absurd h1 (hd r)
  | err e => exact ⟨rfl, by simp⟩
  | panic e => exact ⟨rfl, by simp⟩
  | fuel => exact ⟨rfl, by simp⟩

/-- **C97** One layer that cannot be exported ends the program: it fails, and the layers that come after this one are not exported. -/
theorem C97_first_failure_ends {h : Host} {env : Env} {s s' : St} {psd : PSD} {n : Int}
    (hd : decode env { skipMergedImage := true } s = .ok ((psd, n), s')) {a b : List (List Nat × LayerRec)} {p : List Nat} {l : LayerRec}
    (hab : pathsFrom [] 0 psd.layer = a ++ (p, l) :: b) (hi : l.hasImage = true) (hc : ¬ h.CanWrite p l) (fs : Files) :
    (exporter h env s fs).2 ≠ .ok () ∧ ∀ q m, (q, m) ∈ b → (exporter h env s fs).1 (fileName q) = fs (fileName q) := by
  rw [exporter_eq hd, hab]
  exact exportAll_stop hi hc (hab ▸ pathsFrom_nodup psd.layer [] 0) (fun q m hq => path_ne (hab ▸ hq)) fs

mutual

theorem paths_post {α : Type} : ∀ (t : LTree α) (p : List Nat), (t.paths p).map (·.2) = t.post
  | .node l kids, p => by rw [LTree.paths, LTree.post, List.map_append, pathsFrom_post kids p 0]; rfl

theorem pathsFrom_post {α : Type} : ∀ (ks : List (LTree α)) (p : List Nat) (i : Nat), (pathsFrom p i ks).map (·.2) = postAll ks
  | [], p, i => by rw [pathsFrom, postAll]; rfl
  | k :: ks, p, i => by rw [pathsFrom, postAll, List.map_append, paths_post k, pathsFrom_post ks p (i + 1)]

end

theorem decode_layers {env : Env} {d : Doc} (hp : env.Reads d) (hv : d.Valid) {s : St} (hs : Presents d s) :
    ∃ psd n s', decode env { skipMergedImage := true } s = .ok ((psd, n), s') ∧
      (pathsFrom [] 0 psd.layer).map (·.2) = (shown d).map fun p => layerFull (modeColors d.header.mode) d.header.depth p.1 p.2 := by
  obtain ⟨s', h, -⟩ := decode_doc hp hv (o := { skipMergedImage := true }) rfl hs
  refine ⟨_, _, s', h, ?_⟩
  rw [pathsFrom_post]
  exact post_treeMeaning false _ _ (doc_typed hv)

/-- **C97, negative: an empty layer ends the export.** `png.Encode` refuses pictures without pixels.  So `psdexporter` fails on every document that has a
layer without pixels, as every newly created layer of an image editor is. -/
theorem C97_empty_layer_stops {h : Host} (hpng : ∀ k, k.rect.empty = true → (h.png k).2 ≠ .ok ())
    {env : Env} {d : Doc} (hp : env.Reads d) (hv : d.Valid) {s : St} (hs : Presents d s)
    {i : Nat} {l : Layer} (hl : (i, l) ∈ shown d) (hk : l.kind = 0) (he : (rectOf l.rect).empty = true) (fs : Files) :
    (exporter h env s fs).2 ≠ .ok () := by
  obtain ⟨psd, n, s', h1, h2⟩ := decode_layers hp hv hs
  have hm : layerFull (modeColors d.header.mode) d.header.depth i l ∈ (pathsFrom [] 0 psd.layer).map (·.2) := by
    rw [h2]; exact List.mem_map.2 ⟨_, hl, rfl⟩
  obtain ⟨⟨p, m⟩, hm, rfl⟩ := List.mem_map.1 hm
  obtain ⟨a, b, hab⟩ := List.append_of_mem hm
  refine (C97_first_failure_ends h1 hab ?_ ?_ fs).1
  · exact beq_iff_eq.2 hk
  · rintro ⟨-, k, h3, h4⟩
    exact hpng k (by cases h3; exact he) h4

/-- **C97 From the file to the pictures.** For every well-formed document whose pictures can be encoded, `psdexporter` writes one file for each layer record
that is not a folder, each with the picture of that record. -/
theorem C97_document_partial {h : Host} (hcr : ∀ name, h.create name = true) {env : Env} {d : Doc} (hp : env.Reads d) (hv : d.Valid) {s : St}
    (hs : Presents d s)
    (hpng : ∀ i l, (i, l) ∈ shown d → l.kind = 0 → (h.png (pictureMeaning (modeColors d.header.mode) d.header.depth l)).2 = .ok ()) (fs : Files) :
    ∃ fs', ∃ names : List (List Char), exporter h env s fs = (fs', .ok ()) ∧ names.Nodup ∧ names.length = (shown d).length ∧
      (∀ (j i : Nat) (l : Layer), (shown d)[j]? = some (i, l) → l.kind = 0 → ∃ name, names[j]? = some name ∧
        fs' name = some (h.png (pictureMeaning (modeColors d.header.mode) d.header.depth l)).1) ∧
      ∀ name, (∀ (j i : Nat) (l : Layer), (shown d)[j]? = some (i, l) → l.kind = 0 → names[j]? ≠ some name) → fs' name = fs name := by
  obtain ⟨psd, n, s', h1, h2⟩ := decode_layers hp hv hs
  have hmem : ∀ {p m}, (p, m) ∈ pathsFrom [] 0 psd.layer → ∃ i l, (i, l) ∈ shown d ∧ m = layerFull (modeColors d.header.mode) d.header.depth i l := by
    intro p m hm
    have : m ∈ (pathsFrom [] 0 psd.layer).map (·.2) := List.mem_map.2 ⟨_, hm, rfl⟩
    rw [h2] at this
    obtain ⟨⟨i, l⟩, hl, rfl⟩ := List.mem_map.1 this
    exact ⟨i, l, hl, rfl⟩
  obtain ⟨fs', e1, e2, e3⟩ := C97_export_partial (h := h) h1 (by
    intro p m hm hi
    obtain ⟨i, l, hl, rfl⟩ := hmem (mem_all.2 hm)
    exact ⟨hcr _, _, rfl, hpng i l hl (beq_iff_eq.1 hi)⟩) fs
  refine ⟨fs', (pathsFrom [] 0 psd.layer).map fun x => fileName x.1, e1, ?_, ?_, ?_, ?_⟩
  · have hnd := pathsFrom_nodup psd.layer [] 0
    rw [List.nodup_iff_pairwise_ne, List.pairwise_map] at hnd ⊢
    refine List.Pairwise.imp_of_mem ?_ hnd
    rintro ⟨p, m⟩ ⟨q, m2⟩ hpm hqm hne e
    exact hne (C97_names_differ (path_ne hpm) (path_ne hqm) e)
  · have := congrArg List.length h2
    simpa using this
  · intro j i l hj hk
    have h3 : ((pathsFrom [] 0 psd.layer).map (·.2))[j]? = some (layerFull (modeColors d.header.mode) d.header.depth i l) := by
      rw [h2, List.getElem?_map, hj]; rfl
    rw [List.getElem?_map] at h3
    cases hx : (pathsFrom [] 0 psd.layer)[j]? with
    | none => rw [hx] at h3; cases h3
    | some x =>
      obtain ⟨p, m⟩ := x
      rw [hx] at h3
      cases h3
      refine ⟨fileName p, by rw [List.getElem?_map, hx]; rfl, ?_⟩
      obtain ⟨k, k1, k2⟩ := e2 p _ (mem_all.1 (List.mem_of_getElem? hx)) (beq_iff_eq.2 hk)
      rw [k2]; cases k1; rfl
  · intro name hn
    refine e3 name fun p m hm hi e => ?_
    obtain ⟨j, hj⟩ := List.mem_iff_getElem?.1 (mem_all.2 hm)
    have h3 : ((pathsFrom [] 0 psd.layer).map (·.2))[j]? = some m := by rw [List.getElem?_map, hj]; rfl
    rw [h2, List.getElem?_map] at h3
    cases hx : (shown d)[j]? with
    | none => rw [hx] at h3; cases h3
    | some x =>
      obtain ⟨i, l⟩ := x
      rw [hx] at h3
      cases h3
      exact hn j i l hx (beq_iff_eq.1 hi) (by rw [List.getElem?_map, hj, e]; rfl)

/-- A host that encodes everything but empty pictures. -/
def exHost : Host where
  create _ := true
  png k := (k.src.flatten, if k.rect.empty then .err (.bad "invalid image size") else .ok ())

/-- The example document meets the hypotheses. -/
example : exDoc.Valid ∧ Presents exDoc (exReader exDoc) ∧
    ((shown exDoc).filter fun p => decide (p.2.kind = 0)).length = 3 ∧
    (∀ k, k.rect.empty = true → (exHost.png k).2 ≠ .ok ()) ∧
    ((exporter exHost ⟨1, fun _ _ => none, fun _ _ _ => 0⟩ (exReader exDoc) fun _ => none).2 = .ok ()) := by
  refine ⟨exDoc_valid, exReader_presents, by decide +kernel, fun k hk => by simp [exHost, hk], by decide +kernel⟩

/-- Names: the second layer in the first folder, and the last one of 1001 layers. -/
example : fileName [0, 1] = "000_001.png".toList ∧ fileName [1000] = "1000.png".toList ∧
    layerAt (treeMeaning false 3 8 exDoc.sections) [0, 1] ≠ none := by
  refine ⟨by decide +kernel, by decide +kernel, ?_⟩
  intro h
  have := congrArg Option.isSome h
  revert this
  decide +kernel

/-- The example document with an empty layer between the others. -/
def exDocEmpty : Doc := { exDoc with
  layerMask := some ⟨some { exSection with forest := [.layer exLayer, .layer { exLayer with rect := ⟨0, 0, 0, 0⟩, channels := [] }, .layer exLayer] },
    .none []⟩ }

/-- It is well formed, has a layer without pixels, and the export of it fails with one file written out of two. -/
example : exDocEmpty.Valid ∧ (∃ p ∈ shown exDocEmpty, p.2.kind = 0 ∧ (rectOf p.2.rect).empty = true) ∧
    (let r := exporter exHost ⟨1, fun _ _ => none, fun _ _ _ => 0⟩ (exReader exDocEmpty) fun _ => none
     r.2 = .err (.bad "invalid image size") ∧ r.1 (fileName [0]) ≠ none ∧ r.1 (fileName [2]) = none) := by
  decide +kernel

end Psd
