import Verif.Model.NameDetect
import Verif.Spec.NameDetect
import Verif.Props.CTree
import Verif.Lemmas.Basic

/-!
# C96: names in legacy encodings
-/

namespace Psd

section
variable {Enc : Type} {grow : Nat → Nat} {N : Namer Enc} {doc : List (LTree LayerRec)}

mutual

theorem gatherOne_eq : ∀ (t : LTree LayerRec), gatherOne t = t.all.map (·.mbcsName)
  | .node l kids => by
    rw [gatherOne, LTree.all, List.map_cons, ← gatherNames_eq kids]
    cases kids with
    | nil => rfl
    | cons k ks => rw [if_pos (by simp)]

theorem gatherNames_eq : ∀ (layers : List (LTree LayerRec)), gatherNames layers = (allLayers layers).map (·.mbcsName)
  | [] => rfl
  | k :: ks => by rw [gatherNames, allLayers, List.map_append, gatherOne_eq k, gatherNames_eq ks]

end

/-- Where building the tree has got to: nothing was asked, or everything at once. -/
def NameState.At (N : Namer Enc) (doc : List (LTree LayerRec)) (e : Enc) (asked : Bool) (st : NameState Enc) : Prop :=
  N.detect (legacyNames doc) = some e ∧ (if asked then st = ⟨some e, [legacyNames doc]⟩ else st = ⟨none, []⟩)

theorem layerName_at {e : Enc} {asked : Bool} {st : NameState Enc} (hdoc : doc ≠ []) (h : st.At N doc e asked) (l : LayerRec) :
    ∃ st', layerName N doc l st = .ok ((attrOf (N.decode e) l).name, st') ∧ st'.At N doc e (asked || decide l.LegacyName) := by
  unfold layerName attrOf
  by_cases hl : l.unicodeName = [] ∧ l.mbcsName ≠ []
  · have hd : decide l.LegacyName = true := decide_eq_true hl
    simp only [if_pos hl, hd, Bool.or_true]
    have : getEncoding N doc st = (some e, ⟨some e, [legacyNames doc]⟩) := by
      unfold getEncoding
      have hn : (gatherNames doc).flatten = legacyNames doc := by
        rw [gatherNames_eq, legacyNames, List.flatMap_def]
      have hlen : (gatherNames doc).length > 0 := by
        cases doc with
        | nil => exact absurd rfl hdoc
        | cons k ks =>
          obtain ⟨l, kids⟩ := k
          rw [gatherNames, gatherOne, List.length_append, List.length_cons]
          omega
      obtain ⟨h1, h2⟩ := h
      cases asked with
      | true =>
        rw [if_pos rfl] at h2
        rw [h2]
      | false =>
        rw [if_neg (by decide)] at h2
        rw [h2]
        simp only
        rw [if_pos hlen, hn, h1]
        rfl
    rw [this]
    simp only
    refine ⟨_, ?_, h.1, by rw [if_pos rfl]⟩
    cases N.decode e l.mbcsName <;> rfl
  · have hd : decide l.LegacyName = false := decide_eq_false hl
    simp only [if_neg hl, hd, Bool.or_false]
    exact ⟨st, rfl, h⟩

mutual

theorem buildLayerNamed_at {e : Enc} (hdoc : doc ≠ []) : ∀ (t : LTree LayerRec) (p : Ptr) (h : CHeap) {asked : Bool} {st : NameState Enc}, st.At N doc e asked →
    ∃ st', buildLayerNamed grow N doc t p h st = .ok (buildLayer grow (N.decode e) t p h, st') ∧
      st'.At N doc e (asked || t.all.any fun l => decide l.LegacyName)
  | .node l kids, p, h, asked, st, hst => by
    obtain ⟨st1, e1, h1⟩ := layerName_at hdoc hst l
    obtain ⟨st2, e2, h2⟩ := buildKidsNamed_at hdoc kids (some p) p (h.set p { h.at_ p with attr := attrOf (N.decode e) l }) h1
    refine ⟨st2, ?_, ?_⟩
    · rw [buildLayerNamed, e1, Res.ok_bind]
      simp only
      rw [show ({ attrOf some l with name := (attrOf (N.decode e) l).name } : CAttr) = attrOf (N.decode e) l from rfl, e2, buildLayer]
    · rw [LTree.all, List.any_cons, ← Bool.or_assoc]
      exact h2

theorem buildKidsNamed_at {e : Enc} (hdoc : doc ≠ []) : ∀ (ts : List (LTree LayerRec)) (parent : Option Ptr) (p : Ptr) (h : CHeap) {asked : Bool} {st : NameState Enc},
    st.At N doc e asked → ∃ st', buildKidsNamed grow N doc ts parent p h st = .ok (buildKids grow (N.decode e) ts parent p h, st') ∧
      st'.At N doc e (asked || (allLayers ts).any fun l => decide l.LegacyName)
  | [], parent, p, h, asked, st, hst => ⟨st, by rw [buildKidsNamed, buildKids], by simpa [allLayers] using hst⟩
  | k :: ks, parent, p, h, asked, st, hst => by
    obtain ⟨hs, ehs⟩ : ∃ hs, h.append grow (h.at_ p).children { parent := parent } = hs := ⟨_, rfl⟩
    obtain ⟨h', s⟩ := hs
    obtain ⟨st1, e1, h1⟩ := buildLayerNamed_at hdoc k (s.arr, s.len - 1) (h'.set p { h'.at_ p with children := s }) hst
    obtain ⟨st2, e2, h2⟩ := buildKidsNamed_at hdoc ks parent p (buildLayer grow (N.decode e) k (s.arr, s.len - 1) (h'.set p { h'.at_ p with children := s })) h1
    refine ⟨st2, ?_, ?_⟩
    · rw [buildKidsNamed, buildKids, ehs]
      simp only
      rw [e1, Res.ok_bind]
      exact e2
    · rw [allLayers, List.any_append, ← Bool.or_assoc]
      exact h2

end

/-- **C96** With a detector that always gives an encoding: a new tree is the one (of which `C53` tells what it shows) whose legacy names are decoded with
the encoding that the detector gives for all legacy names of the file, joined in the order of the layers, at whatever layer of whatever folder the first such
name is found. The detector is asked once if there is a layer with a legacy name only, and not at all otherwise. -/
theorem C96_one_encoding (fuel : Nat) (layers : List (LTree LayerRec)) (hd : ∀ b, ∃ e, N.detect b = some e) :
    ∃ e, N.detect (legacyNames layers) = some e ∧ newTreeNamed grow N fuel layers =
      .ok (newTree grow (N.decode e) fuel layers, if ∃ l ∈ allLayers layers, l.LegacyName then [legacyNames layers] else []) := by
  obtain ⟨e, he⟩ := hd (legacyNames layers)
  refine ⟨e, he, ?_⟩
  by_cases hne : layers = []
  · subst hne
    rw [if_neg (by rintro ⟨l, hl, -⟩; cases hl)]
    rfl
  obtain ⟨st, e1, h1⟩ := buildKidsNamed_at (grow := grow) (N := N) (e := e) hne layers none rootPtr
    { next := 2, at_ := fun q => if q = rootPtr then { attr := rootAttr } else {} } (asked := false) (st := {}) ⟨he, rfl⟩
  unfold newTreeNamed newTree
  simp only
  rw [e1, Res.ok_bind]
  have h2 := h1.2
  rw [Bool.false_or] at h2
  congr 2
  by_cases hl : ∃ l ∈ allLayers layers, l.LegacyName
  · have : ((allLayers layers).any fun l => decide l.LegacyName) = true := by
      simpa using hl
    rw [this, if_pos rfl] at h2
    rw [if_pos hl, h2]
  · have : ((allLayers layers).any fun l => decide l.LegacyName) = false := by
      simpa using hl
    rw [this, if_neg (by decide)] at h2
    rw [if_neg hl, h2]

/-- **C96** A layer of a new tree has the Unicode name of the file if there is one, and otherwise its legacy name in the encoding found, as it is in the file if
it cannot be decoded. -/
theorem C96_names (fuel : Nat) (layers : List (LTree LayerRec)) (hf : depthAll layers ≤ fuel) (hd : ∀ b, ∃ e, N.detect b = some e) {i : Nat} {π : List Nat} {l : LayerRec}
    {kids : List (LTree LayerRec)} (hl : docAt layers (i :: π) = some (.node l kids)) :
    ∃ h calls q e, newTreeNamed grow N fuel layers = .ok (h, calls) ∧ slotAt h rootPtr (i :: π) = some q ∧ N.detect (legacyNames layers) = some e ∧
      (l.unicodeName ≠ [] → (h.at_ q).attr.name = l.unicodeName) ∧
      (l.unicodeName = [] → (h.at_ q).attr.name = if l.mbcsName = [] then [] else (N.decode e l.mbcsName).getD l.mbcsName) := by
  obtain ⟨e, he, ht⟩ := C96_one_encoding (grow := grow) (N := N) fuel layers hd
  have := (C53_tree_is_the_document grow (N.decode e) fuel layers hf).2.2 i π
  rw [hl] at this
  obtain ⟨q, hq, hs, -⟩ := this
  refine ⟨_, _, q, e, ht, hq, he, hs.unicodeName, fun hu => ?_⟩
  split
  · rename_i hm
    exact hs.noName hu hm
  · rename_i hm
    cases hde : N.decode e l.mbcsName with
    | none => exact hs.rawName hu hm hde
    | some n => exact hs.otherName hu hm n hde

mutual

theorem buildLayerNamed_nil (hdoc : doc ≠ []) (hn : N.detect (legacyNames doc) = none) : ∀ (t : LTree LayerRec) (p : Ptr) (h : CHeap),
    if t.all.any (fun l => decide l.LegacyName) then buildLayerNamed grow N doc t p h {} = .panic .nilDeref
    else ∃ h', buildLayerNamed grow N doc t p h {} = .ok (h', {})
  | .node l kids, p, h => by
    rw [LTree.all, List.any_cons, buildLayerNamed]
    unfold layerName
    by_cases hl : l.unicodeName = [] ∧ l.mbcsName ≠ []
    · have hd : decide l.LegacyName = true := decide_eq_true hl
      rw [hd, Bool.true_or, if_pos rfl, if_pos hl]
      have : (getEncoding N doc {}).1 = none := by
        unfold getEncoding
        have hnm : (gatherNames doc).flatten = legacyNames doc := by
          rw [gatherNames_eq, legacyNames, List.flatMap_def]
        have hlen : (gatherNames doc).length > 0 := by
          cases doc with
          | nil => exact absurd rfl hdoc
          | cons k ks =>
            obtain ⟨l, kids⟩ := k
            rw [gatherNames, gatherOne, List.length_append, List.length_cons]
            omega
        simp only
        rw [if_pos hlen, hnm, hn]
      obtain ⟨g, eg⟩ : ∃ g, getEncoding N doc {} = g := ⟨_, rfl⟩
      rw [eg] at this ⊢
      obtain ⟨g1, g2⟩ := g
      simp only at this
      subst this
      rfl
    · have hd : decide l.LegacyName = false := decide_eq_false hl
      rw [hd, Bool.false_or, if_neg hl, Res.ok_bind]
      exact buildKidsNamed_nil hdoc hn kids (some p) p _

theorem buildKidsNamed_nil (hdoc : doc ≠ []) (hn : N.detect (legacyNames doc) = none) : ∀ (ts : List (LTree LayerRec)) (parent : Option Ptr) (p : Ptr) (h : CHeap),
    if (allLayers ts).any (fun l => decide l.LegacyName) then buildKidsNamed grow N doc ts parent p h {} = .panic .nilDeref
    else ∃ h', buildKidsNamed grow N doc ts parent p h {} = .ok (h', {})
  | [], parent, p, h => ⟨h, by rw [buildKidsNamed]⟩
  | k :: ks, parent, p, h => by
    rw [allLayers, List.any_append, buildKidsNamed]
    obtain ⟨hs, ehs⟩ : ∃ hs, h.append grow (h.at_ p).children { parent := parent } = hs := ⟨_, rfl⟩
    obtain ⟨h', s⟩ := hs
    rw [ehs]
    simp only
    have h1 := buildLayerNamed_nil hdoc hn k (s.arr, s.len - 1) (h'.set p { h'.at_ p with children := s })
    cases ha : k.all.any fun l => decide l.LegacyName with
    | true =>
      rw [ha, if_pos rfl] at h1
      rw [Bool.true_or, if_pos rfl, h1]
      rfl
    | false =>
      rw [ha, if_neg (by decide)] at h1
      obtain ⟨h2, h1⟩ := h1
      rw [Bool.false_or, h1, Res.ok_bind]
      exact buildKidsNamed_nil hdoc hn ks parent p h2

end

/-- **C96** A detector that gives no encoding (nil) makes `New` panic, if there is a layer with a legacy name only. -/
theorem C96_nil_encoding_panics (fuel : Nat) (layers : List (LTree LayerRec)) (hn : N.detect (legacyNames layers) = none) (hl : ∃ l ∈ allLayers layers, l.LegacyName) :
    newTreeNamed grow N fuel layers = .panic .nilDeref := by
  have hne : layers ≠ [] := by
    rintro rfl
    obtain ⟨l, hl, -⟩ := hl
    cases hl
  have := buildKidsNamed_nil (grow := grow) (N := N) hne hn layers none rootPtr { next := 2, at_ := fun q => if q = rootPtr then { attr := rootAttr } else {} }
  have ha : ((allLayers layers).any fun l => decide l.LegacyName) = true := by
    simpa using hl
  rw [ha, if_pos rfl] at this
  unfold newTreeNamed
  simp only
  rw [this]
  rfl

end

/-! ### Examples -/

/-- A detector that tells what it saw, and an encoding that writes that in front of names other than "?". -/
def exNamer : Namer (List UInt8) where
  detect b := some b
  decode e n := if n = ascii "?" then none else some (e ++ ascii ":" ++ n)
  nop := []

/-- A folder with a Unicode name, in it layers with legacy names, and a layer above. -/
def exNames : List (LTree LayerRec) :=
  [.node { seqID := 0, unicodeName := ascii "U", mbcsName := ascii "a" } [.node { seqID := 1, mbcsName := ascii "b" } [], .node { seqID := 2, mbcsName := ascii "?" } []],
    .node { seqID := 3, mbcsName := [] } []]

example : (∀ b, ∃ e, exNamer.detect b = some e) ∧ (∃ l ∈ allLayers exNames, l.LegacyName) ∧ depthAll exNames ≤ 2 ∧ legacyNames exNames = ascii "ab?" :=
  ⟨fun b => ⟨b, rfl⟩, by decide +kernel, by decide, by decide +kernel⟩

/-- The names in the tree, and what the detector was asked. -/
example : (newTreeNamed (fun _ => 0) exNamer 2 exNames).map (fun r =>
      ([[0], [0, 0], [0, 1], [1]].map fun π => (slotAt r.1 rootPtr π).map fun q => (r.1.at_ q).attr.name, r.2)) =
    .ok ([some (ascii "U"), some (ascii "ab?:b"), some (ascii "?"), some []], [ascii "ab?"]) := by
  decide +kernel

end Psd
