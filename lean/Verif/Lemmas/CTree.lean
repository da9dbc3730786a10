import Verif.Model.CTree
import Verif.Spec.CTree

/-!
# Building a layer tree on the heap
-/

namespace Psd

/-- Everything of a layer but its clipping links. -/
def CLayer.core (l : CLayer) : CAttr × Option Ptr × LSlice := (l.attr, l.parent, l.children)

theorem CLayer.core_eq {a b : CLayer} (h : a.core = b.core) : a.attr = b.attr ∧ a.parent = b.parent ∧ a.children = b.children := by
  unfold CLayer.core at h
  simp only [Prod.mk.injEq] at h
  exact h

/-! A tree that has been built: `p` is the slot a layer is in now, `pp` the slot its children know as their parent, `F` the arrays that
hold its descendants. `A` are the slots this depends on. -/
mutual

def Built (dec : List UInt8 → Option (List UInt8)) (h : CHeap) (A : Ptr → Prop) : LTree LayerRec → Ptr → Ptr → List Nat → Prop
  | .node l kids, p, pp, F => A p ∧ A pp ∧ (h.at_ p).attr = attrOf dec l ∧ (h.at_ pp).core = (h.at_ p).core ∧
    (h.at_ p).children.len = kids.length ∧
    ∃ Fs, F = (if kids = [] then [] else (h.at_ p).children.arr :: Fs) ∧ BuiltKids dec h A kids (some pp) (h.at_ p).children.arr 0 Fs

def BuiltKids (dec : List UInt8 → Option (List UInt8)) (h : CHeap) (A : Ptr → Prop) : List (LTree LayerRec) → Option Ptr → Nat → Nat → List Nat → Prop
  | [], _, _, _, F => F = []
  | k :: ks, par, arr, i, F => (h.at_ (arr, i)).parent = par ∧
    ∃ F1 F2, F = F1 ++ F2 ∧ (∃ pp, Built dec h A k (arr, i) pp F1) ∧ BuiltKids dec h A ks par arr (i + 1) F2

end

mutual

theorem Built.move {dec : List UInt8 → Option (List UInt8)} {h h' : CHeap} {A A' : Ptr → Prop} (hA : ∀ q, A q → A' q)
    (hc : ∀ q, A q → (h'.at_ q).core = (h.at_ q).core) : ∀ (t : LTree LayerRec) (p p' pp : Ptr) (F : List Nat), A' p' → (h'.at_ p').core = (h.at_ p).core →
    Built dec h A t p pp F → Built dec h' A' t p' pp F
  | .node l kids, p, p', pp, F, hp', ep, hb => by
    unfold Built at hb ⊢
    obtain ⟨b1, b2, b3, b4, b5, Fs, b6, b7⟩ := hb
    obtain ⟨e1, e2, e3⟩ := CLayer.core_eq ep
    refine ⟨hp', hA _ b2, by rw [e1, b3], by rw [hc _ b2, b4, ep], by rw [e3, b5], Fs, by rw [b6, e3], ?_⟩
    rw [e3]
    exact BuiltKids.mono hA hc kids _ _ _ _ b7

theorem BuiltKids.mono {dec : List UInt8 → Option (List UInt8)} {h h' : CHeap} {A A' : Ptr → Prop} (hA : ∀ q, A q → A' q)
    (hc : ∀ q, A q → (h'.at_ q).core = (h.at_ q).core) : ∀ (ks : List (LTree LayerRec)) (par : Option Ptr) (arr i : Nat) (F : List Nat),
    BuiltKids dec h A ks par arr i F → BuiltKids dec h' A' ks par arr i F
  | [], _, _, _, _, hb => by
    unfold BuiltKids at hb ⊢
    exact hb
  | k :: ks, par, arr, i, F, hb => by
    unfold BuiltKids at hb ⊢
    obtain ⟨b1, F1, F2, b2, ⟨pp, b3⟩, b4⟩ := hb
    have ha : A (arr, i) := by
      cases k
      unfold Built at b3
      exact b3.1
    have hcc := hc _ ha
    refine ⟨by rw [(CLayer.core_eq hcc).2.1, b1], F1, F2, b2, ⟨pp, Built.move hA hc k _ _ pp F1 (hA _ ha) hcc b3⟩, BuiltKids.mono hA hc ks par arr (i + 1) F2 b4⟩

end

theorem CHeap.set_at (h : CHeap) (p : Ptr) (l : CLayer) (q : Ptr) : (h.set p l).at_ q = if q = p then l else h.at_ q := rfl
theorem CHeap.set_next (h : CHeap) (p : Ptr) (l : CLayer) : (h.set p l).next = h.next := rfl

theorem CHeap.append_spec (grow : Nat → Nat) (h : CHeap) (s : LSlice) (v : CLayer) (hs : s.arr < h.next) (hl : s.len ≤ s.cap) (h0 : s.arr = 0 → s.cap = 0)
    (hn : 1 ≤ h.next) :
    ∃ h1 s1, h.append grow s v = (h1, s1) ∧ h.next ≤ h1.next ∧ s1.len = s.len + 1 ∧ s1.len ≤ s1.cap ∧ s1.arr < h1.next ∧ 1 ≤ s1.arr ∧
      (s1.arr = s.arr ∨ s1.arr = h.next) ∧ h1.at_ (s1.arr, s.len) = v ∧ (∀ j, j < s.len → h1.at_ (s1.arr, j) = h.at_ (s.arr, j)) ∧
      ∀ q, q.1 < h.next → (q.1 = s.arr → q.2 < s.len) → h1.at_ q = h.at_ q := by
  unfold CHeap.append
  by_cases hc : s.len < s.cap
  · rw [if_pos hc]
    refine ⟨_, _, rfl, Nat.le_refl _, rfl, hc, hs, ?_, Or.inl rfl, ?_, ?_, ?_⟩
    · refine Nat.pos_of_ne_zero fun e => ?_
      have := h0 e
      omega
    · simp [CHeap.set_at]
    · intro j hj
      simp only [CHeap.set_at]
      rw [if_neg (by intro e; injection e; omega)]
    · intro q hq hq'
      rw [CHeap.set_at, if_neg]
      rintro rfl
      have := hq' rfl
      simp at this
  · rw [if_neg hc]
    refine ⟨_, _, rfl, by simp, rfl, by simp, by simp, hn, Or.inr rfl, ?_, ?_, ?_⟩
    · simp
    · intro j hj
      simp [hj]
    · intro q hq _
      simp only
      rw [if_neg (by omega)]

/-- The slots that building children depends on. -/
def KidsArea (h h' : CHeap) (s s' : LSlice) (q : Ptr) : Prop :=
  (h.next ≤ q.1 ∧ q.1 < h'.next ∧ (q.1 = s'.arr → q.2 < s'.len)) ∨ (1 ≤ q.1 ∧ q.1 = s.arr ∧ s.len ≤ q.2 ∧ q.2 < s'.len)

structure KidsSpec (dec : List UInt8 → Option (List UInt8)) (kids : List (LTree LayerRec)) (parent : Option Ptr) (p : Ptr) (h h' : CHeap)
    (s s' : LSlice) (F : List Nat) : Prop where
  next : h.next ≤ h'.next
  frame : ∀ q, q.1 < h.next → 1 ≤ q.1 → q ≠ p → (q.1 = s.arr → q.2 < s.len) → h'.at_ q = h.at_ q
  self : h'.at_ p = { h.at_ p with children := s' }
  len : s'.len = s.len + kids.length
  cap : s'.len ≤ s'.cap
  arrP : s'.arr ≠ p.1
  arrN : s'.arr < h'.next
  arrO : s'.arr = s.arr ∨ h.next ≤ s'.arr
  nil : s'.arr = 0 → s'.cap = 0
  old : ∀ j, j < s.len → h'.at_ (s'.arr, j) = h.at_ (s.arr, j)
  built : BuiltKids dec h' (KidsArea h h' s s') kids parent s'.arr s.len F
  rangeF : ∀ f ∈ F, h.next ≤ f ∧ f < h'.next ∧ f ≠ s'.arr
  nodup : F.Nodup

structure LayerSpec (dec : List UInt8 → Option (List UInt8)) (t : LTree LayerRec) (p : Ptr) (h h' : CHeap) (F : List Nat) : Prop where
  next : h.next ≤ h'.next
  frame : ∀ q, q.1 < h.next → 1 ≤ q.1 → q ≠ p → h'.at_ q = h.at_ q
  parent : (h'.at_ p).parent = (h.at_ p).parent
  built : Built dec h' (fun q => q = p ∨ (h.next ≤ q.1 ∧ q.1 < h'.next)) t p p F
  rangeF : ∀ f ∈ F, h.next ≤ f ∧ f < h'.next
  nodup : F.Nodup

mutual

theorem buildLayer_spec (grow : Nat → Nat) (dec : List UInt8 → Option (List UInt8)) : ∀ (t : LTree LayerRec) (p : Ptr) (h : CHeap),
    p.1 < h.next → 1 ≤ p.1 → (h.at_ p).children = {} → ∃ F, LayerSpec dec t p h (buildLayer grow dec t p h) F
  | .node l kids, p, h, hp, hp1, hch => by
    obtain ⟨h0, eh0⟩ : ∃ h0, h.set p { h.at_ p with attr := attrOf dec l } = h0 := ⟨_, rfl⟩
    have e0 : h0.at_ p = { h.at_ p with attr := attrOf dec l } := by rw [← eh0, CHeap.set_at, if_pos rfl]
    have e1 : ∀ q, q ≠ p → h0.at_ q = h.at_ q := fun q hq => by rw [← eh0, CHeap.set_at, if_neg hq]
    have en : h0.next = h.next := by rw [← eh0]; rfl
    have hs : (h0.at_ p).children = {} := by rw [e0]; exact hch
    obtain ⟨s', F, sp⟩ := buildKids_spec grow dec kids (some p) p h0 {} hs (by rw [en]; exact hp) hp1 (by rw [en]; exact Nat.lt_of_le_of_lt (Nat.zero_le _) hp)
      (by show 0 ≠ p.1; omega) (Nat.le_refl _) (fun _ => rfl)
    have eb : buildLayer grow dec (.node l kids) p h = buildKids grow dec kids (some p) p h0 := by
      rw [← eh0]
      unfold buildLayer
      rfl
    rw [eb]
    have hself := sp.self
    have hchildren : ((buildKids grow dec kids (some p) p h0).at_ p).children = s' := by rw [hself]
    have hlen : s'.len = kids.length := by rw [sp.len]; exact Nat.zero_add _
    have harr : kids ≠ [] → h.next ≤ s'.arr := by
      intro hk
      rcases sp.arrO with ho | ho
      · have h1 := sp.nil ho
        have h2 := sp.cap
        have : 0 < kids.length := List.length_pos_iff.2 hk
        omega
      · rw [en] at ho; exact ho
    refine ⟨if kids = [] then [] else s'.arr :: F, ?_, ?_, ?_, ?_, ?_, ?_⟩
    · have := sp.next
      omega
    · intro q hq hq1 hqp
      rw [sp.frame q (by omega) hq1 hqp (fun e => by
        have : q.1 = 0 := e
        omega), e1 q hqp]
    · rw [hself, e0]
    · unfold Built
      refine ⟨Or.inl rfl, Or.inl rfl, by rw [hself, e0], rfl, by rw [hchildren, hlen], F, by rw [hchildren], ?_⟩
      rw [hchildren]
      refine BuiltKids.mono ?_ (fun _ _ => rfl) kids _ _ _ _ sp.built
      rintro q (⟨q1, q2, _⟩ | ⟨q1, q2, _⟩)
      · right
        omega
      · have : q.1 = 0 := q2
        omega
    · intro f hf
      split at hf
      · cases hf
      · rename_i hk
        rcases List.mem_cons.1 hf with rfl | hf
        · exact ⟨harr hk, sp.arrN⟩
        · have := sp.rangeF f hf
          omega
    · split
      · exact List.nodup_nil
      · rw [List.nodup_cons]
        exact ⟨fun hm => (sp.rangeF _ hm).2.2 rfl, sp.nodup⟩

theorem buildKids_spec (grow : Nat → Nat) (dec : List UInt8 → Option (List UInt8)) : ∀ (kids : List (LTree LayerRec)) (parent : Option Ptr) (p : Ptr) (h : CHeap)
    (s : LSlice), (h.at_ p).children = s → p.1 < h.next → 1 ≤ p.1 → s.arr < h.next → s.arr ≠ p.1 → s.len ≤ s.cap → (s.arr = 0 → s.cap = 0) →
    ∃ s' F, KidsSpec dec kids parent p h (buildKids grow dec kids parent p h) s s' F
  | [], parent, p, h, s, hs, hp, hp1, ha, hne, hl, h0 => by
    refine ⟨s, [], ?_, ?_, ?_, ?_, hl, hne, ?_, Or.inl rfl, h0, ?_, ?_, ?_, List.nodup_nil⟩
    · exact Nat.le_of_eq (by unfold buildKids; rfl)
    · intro q _ _ _ _; unfold buildKids; rfl
    · unfold buildKids
      rw [← hs]
    · rfl
    · unfold buildKids; exact ha
    · intro j _; unfold buildKids; rfl
    · unfold BuiltKids; rfl
    · intro f hf; cases hf
  | k :: ks, parent, p, h, s, hs, hp, hp1, ha, hne, hl, h0 => by
    obtain ⟨h1, s1, a1, a2, a3, a4, a5, a6, a7, a8, a9, a10⟩ := CHeap.append_spec grow h s { parent := parent } ha hl h0 (by omega)
    obtain ⟨h2, eh2⟩ : ∃ h2, h1.set p { h1.at_ p with children := s1 } = h2 := ⟨_, rfl⟩
    have hs1p : s1.arr ≠ p.1 := by rcases a7 with e | e <;> omega
    have h2p : h2.at_ p = { h1.at_ p with children := s1 } := by rw [← eh2, CHeap.set_at, if_pos rfl]
    have h2q : ∀ q, q ≠ p → h2.at_ q = h1.at_ q := fun q hq => by rw [← eh2, CHeap.set_at, if_neg hq]
    have h2n : h2.next = h1.next := by rw [← eh2]; rfl
    have h1p : h1.at_ p = h.at_ p := a10 p hp (fun e => absurd e.symm hne)
    have hq0 : ((s1.arr, s.len) : Ptr) ≠ p := fun e => hs1p (by rw [← e])
    obtain ⟨Fk, sk⟩ := buildLayer_spec grow dec k (s1.arr, s.len) h2 (by rw [h2n]; exact a5) a6 (by rw [h2q _ hq0, a8])
    obtain ⟨h3, eh3⟩ : ∃ h3, buildLayer grow dec k (s1.arr, s.len) h2 = h3 := ⟨_, rfl⟩
    rw [eh3] at sk
    have h3p : h3.at_ p = { h.at_ p with children := s1 } := by
      rw [sk.frame p (by omega) hp1 (fun e => hq0 e.symm), h2p, h1p]
    have n3 := sk.next
    obtain ⟨s', Fs, sp⟩ := buildKids_spec grow dec ks parent p h3 s1 (by rw [h3p]) (by omega) hp1 (by omega) hs1p a4 (fun e => by omega)
    have eb : buildKids grow dec (k :: ks) parent p h = buildKids grow dec ks parent p h3 := by
      have e : s1.len - 1 = s.len := by omega
      rw [buildKids, hs, a1]
      dsimp only
      rw [eh2, e, eh3]
    rw [eb]
    have n4 := sp.next
    have hlen := sp.len
    have hs'3 : s'.arr = s1.arr ∨ h3.next ≤ s'.arr := sp.arrO
    have hAk : ∀ q : Ptr, (q = (s1.arr, s.len) ∨ (h2.next ≤ q.1 ∧ q.1 < h3.next)) → (q.1 < h3.next ∧ 1 ≤ q.1 ∧ q ≠ p ∧ (q.1 = s1.arr → q.2 < s1.len)) := by
      rintro q (rfl | ⟨b1, b2⟩)
      · exact ⟨by show s1.arr < h3.next; omega, a6, hq0, fun _ => by show s.len < s1.len; omega⟩
      · refine ⟨b2, by omega, ?_, ?_⟩
        · rintro rfl
          omega
        · intro e
          omega
    refine ⟨s', Fk ++ Fs, ?_, ?_, ?_, ?_, sp.cap, sp.arrP, sp.arrN, ?_, sp.nil, ?_, ?_, ?_, ?_⟩
    · omega
    · intro q hq hz hqp hqs
      have hq1 : q.1 = s1.arr → q.2 < s.len := by
        intro e
        rcases a7 with e' | e'
        · exact hqs (by omega)
        · omega
      have hq1' : (q : Ptr) ≠ (s1.arr, s.len) := by
        rintro rfl
        have := hq1 rfl
        simp at this
      rw [sp.frame q (by omega) hz hqp (fun e => by have := hq1 e; omega)]
      rw [sk.frame q (by omega) hz hq1', h2q q hqp, a10 q hq hqs]
    · rw [sp.self, h3p]
    · rw [hlen, a3, List.length_cons]
      omega
    · rcases hs'3 with e | e
      · rcases a7 with e' | e'
        · left; omega
        · right; omega
      · right; omega
    · intro j hj
      rw [sp.old j (by omega)]
      have hj1 : ((s1.arr, j) : Ptr) ≠ (s1.arr, s.len) := by
        intro e
        injection e
        omega
      have hj2 : ((s1.arr, j) : Ptr) ≠ p := fun e => hs1p (by rw [← e])
      rw [sk.frame _ (by show s1.arr < h2.next; omega) a6 hj1, h2q _ hj2, a9 j hj]
    · unfold BuiltKids
      have hi : (buildKids grow dec ks parent p h3).at_ (s'.arr, s.len) = h3.at_ (s1.arr, s.len) := sp.old s.len (by omega)
      refine ⟨?_, Fk, Fs, rfl, ⟨(s1.arr, s.len), ?_⟩, ?_⟩
      · rw [hi, sk.parent, h2q _ hq0, a8]
      · refine Built.move ?_ ?_ k (s1.arr, s.len) (s'.arr, s.len) _ Fk ?_ (by rw [hi]) sk.built
        · rintro q (rfl | ⟨b1, b2⟩)
          · rcases a7 with e' | e'
            · right
              refine ⟨a6, e', Nat.le_refl _, ?_⟩
              show s.len < s'.len
              omega
            · left
              refine ⟨by show h.next ≤ s1.arr; omega, by show s1.arr < _; omega, fun _ => by show s.len < s'.len; omega⟩
          · left
            refine ⟨by omega, by omega, fun e => ?_⟩
            rcases hs'3 with e' | e' <;> omega
        · intro q hq
          obtain ⟨c1, c0, c2, c3⟩ := hAk q hq
          rw [sp.frame q c1 c0 c2 c3]
        · rcases hs'3 with e | e
          · rcases a7 with e' | e'
            · right
              exact ⟨by show 1 ≤ s'.arr; omega, by show s'.arr = s.arr; omega, Nat.le_refl _, by show s.len < s'.len; omega⟩
            · left
              exact ⟨by show h.next ≤ s'.arr; omega, sp.arrN, fun _ => by show s.len < s'.len; omega⟩
          · left
            exact ⟨by show h.next ≤ s'.arr; omega, sp.arrN, fun _ => by show s.len < s'.len; omega⟩
      · have := sp.built
        rw [a3] at this
        refine BuiltKids.mono ?_ (fun _ _ => rfl) ks _ _ _ _ this
        rintro q (⟨c1, c2, c3⟩ | ⟨c0, c1, c2, c3⟩)
        · exact Or.inl ⟨by omega, c2, c3⟩
        · rcases a7 with e' | e'
          · right
            exact ⟨c0, by omega, by omega, c3⟩
          · left
            refine ⟨by omega, by omega, fun _ => c3⟩
    · intro f hf
      rcases List.mem_append.1 hf with hf | hf
      · have := sk.rangeF f hf
        refine ⟨by omega, by omega, ?_⟩
        rcases hs'3 with e' | e' <;> omega
      · have := sp.rangeF f hf
        omega
    · rw [List.nodup_append]
      refine ⟨sk.nodup, sp.nodup, ?_⟩
      intro x hx y hy e
      have h1 := sk.rangeF x hx
      have h2 := sp.rangeF y hy
      omega

end

end Psd
