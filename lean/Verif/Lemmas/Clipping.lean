import Verif.Lemmas.CTree

/-!
# Registering clipping groups
-/

namespace Psd


theorem reverseLoop_eq {α : Type} : ∀ (n : Nat) (as bs ms : List α), as.length = bs.length → n = ms.length / 2 →
    reverseLoop n as.length (as ++ ms ++ bs) = as ++ ms.reverse ++ bs
  | 0, as, bs, ms, h, hn => by
    match ms, hn with
    | [], _ => rfl
    | [a], _ => simp [reverseLoop]
    | a :: b :: t, hn => exact absurd hn (by simp only [List.length_cons]; omega)
  | n + 1, as, bs, ms, h, hn => by
    have hm : 2 ≤ ms.length := by omega
    obtain ⟨a, ms1, rfl⟩ : ∃ a t, ms = a :: t := by
      cases ms with
      | nil => simp at hm
      | cons a t => exact ⟨a, t, rfl⟩
    obtain ⟨mid, b, rfl⟩ : ∃ t b, ms1 = t ++ [b] := by
      rcases List.eq_nil_or_concat ms1 with e | ⟨t, b, e⟩
      · subst e; simp at hm
      · exact ⟨t, b, by simpa using e⟩
    unfold reverseLoop
    have hlen : (as ++ a :: (mid ++ [b]) ++ bs).length - as.length - 1 = as.length + 1 + mid.length := by simp; omega
    have e1 : (as ++ a :: (mid ++ [b]) ++ bs)[as.length]? = some a := by simp
    have e2 : (as ++ a :: (mid ++ [b]) ++ bs)[as.length + 1 + mid.length]? = some b := by
      have : as ++ a :: (mid ++ [b]) ++ bs = (as ++ [a] ++ mid) ++ b :: bs := by simp
      rw [this, List.getElem?_append_right (by simp; omega)]
      have : as.length + 1 + mid.length - (as ++ [a] ++ mid).length = 0 := by simp; omega
      rw [this]
      rfl
    simp only [hlen, e1, e2]
    have e3 : ((as ++ a :: (mid ++ [b]) ++ bs).set as.length b).set (as.length + 1 + mid.length) a = (as ++ [b]) ++ mid ++ (a :: bs) := by
      have : as ++ a :: (mid ++ [b]) ++ bs = as ++ (a :: (mid ++ b :: bs)) := by simp
      rw [this, List.set_append_right _ _ (Nat.le_refl _)]
      simp only [Nat.sub_self, List.set_cons_zero]
      have : as ++ b :: (mid ++ b :: bs) = (as ++ [b] ++ mid) ++ b :: bs := by simp
      rw [this, List.set_append_right _ _ (by simp; omega)]
      have : as.length + 1 + mid.length - (as ++ [b] ++ mid).length = 0 := by simp; omega
      rw [this]
      simp
    rw [e3]
    have := reverseLoop_eq n (as ++ [b]) (a :: bs) mid (by simp [h]) (by simp at hn; omega)
    rw [show as.length + 1 = (as ++ [b]).length by simp, this]
    simp

theorem goReverse_eq {α : Type} (ls : List α) : goReverse ls = ls.reverse := by
  have := reverseLoop_eq (ls.length / 2) [] [] ls rfl rfl
  simpa [goReverse] using this

theorem setClippedBy_spec (base : Ptr) : ∀ (cs : List Ptr) (h : CHeap), (setClippedBy base cs h).next = h.next ∧
    ∀ q, (setClippedBy base cs h).at_ q = if q ∈ cs then { h.at_ q with clippedBy := some base } else h.at_ q
  | [], h => ⟨rfl, fun q => by simp [setClippedBy]⟩
  | c :: cs, h => by
    obtain ⟨a, b⟩ := setClippedBy_spec base cs (h.set c { h.at_ c with clippedBy := some base })
    refine ⟨a, fun q => ?_⟩
    rw [setClippedBy, b q, CHeap.set_at]
    by_cases e : q = c
    · subst e
      simp
    · simp [e]

theorem BuiltKids.append_iff {dec : List UInt8 → Option (List UInt8)} {h : CHeap} {A : Ptr → Prop} : ∀ (xs ys : List (LTree LayerRec)) (par : Option Ptr) (arr i : Nat)
    (F : List Nat), BuiltKids dec h A (xs ++ ys) par arr i F ↔
      ∃ F1 F2, F = F1 ++ F2 ∧ BuiltKids dec h A xs par arr i F1 ∧ BuiltKids dec h A ys par arr (i + xs.length) F2
  | [], ys, par, arr, i, F => by
    constructor
    · intro hb
      exact ⟨[], F, rfl, by unfold BuiltKids; rfl, hb⟩
    · rintro ⟨F1, F2, rfl, h1, h2⟩
      unfold BuiltKids at h1
      subst h1
      exact h2
  | x :: xs, ys, par, arr, i, F => by
    have e : i + (x :: xs).length = i + 1 + xs.length := by rw [List.length_cons]; omega
    rw [e, List.cons_append]
    constructor
    · intro hb
      unfold BuiltKids at hb
      obtain ⟨b1, Fx, Fr, rfl, b2, b3⟩ := hb
      obtain ⟨F1, F2, rfl, c1, c2⟩ := (BuiltKids.append_iff xs ys par arr (i + 1) Fr).1 b3
      refine ⟨Fx ++ F1, F2, by simp, ?_, c2⟩
      unfold BuiltKids
      exact ⟨b1, Fx, F1, rfl, b2, c1⟩
    · rintro ⟨F1, F2, rfl, h1, h2⟩
      unfold BuiltKids at h1
      obtain ⟨b1, Fx, Fr, rfl, b2, b3⟩ := h1
      unfold BuiltKids
      exact ⟨b1, Fx, Fr ++ F2, by simp, b2, (BuiltKids.append_iff xs ys par arr (i + 1) _).2 ⟨Fr, F2, rfl, b3, h2⟩⟩

/-! Clipping links right everywhere below a layer. -/
mutual

def AllOk (h : CHeap) : LTree LayerRec → Ptr → Prop
  | .node _ kids, p => ClippingOk h (h.at_ p).children.arr kids.length ∧ AllOkKids h kids (h.at_ p).children.arr 0

def AllOkKids (h : CHeap) : List (LTree LayerRec) → Nat → Nat → Prop
  | [], _, _ => True
  | k :: ks, arr, i => AllOk h k (arr, i) ∧ AllOkKids h ks arr (i + 1)

end

theorem AllOkKids.append_iff {h : CHeap} : ∀ (xs ys : List (LTree LayerRec)) (arr i : Nat),
    AllOkKids h (xs ++ ys) arr i ↔ AllOkKids h xs arr i ∧ AllOkKids h ys arr (i + xs.length)
  | [], ys, arr, i => by
    simp [AllOkKids]
  | x :: xs, ys, arr, i => by
    have e : i + (x :: xs).length = i + 1 + xs.length := by rw [List.length_cons]; omega
    rw [e, List.cons_append]
    rw [AllOkKids, AllOkKids.append_iff xs ys arr (i + 1), AllOkKids, and_assoc]

theorem ClippingOk.congr {h h' : CHeap} {arr n : Nat} (e : ∀ j, h'.at_ (arr, j) = h.at_ (arr, j)) (ok : ClippingOk h arr n) : ClippingOk h' arr n := by
  unfold ClippingOk at ok ⊢
  simpa only [e] using ok

mutual

theorem AllOk.frame {dec : List UInt8 → Option (List UInt8)} {h h' : CHeap} {A : Ptr → Prop} : ∀ (t : LTree LayerRec) (p pp : Ptr) (F : List Nat),
    Built dec h A t p pp F → AllOk h t p → (h'.at_ p).children = (h.at_ p).children → (∀ q, q.1 ∈ F → h'.at_ q = h.at_ q) → AllOk h' t p
  | .node l kids, p, pp, F, hb, ok, ec, ef => by
    unfold Built at hb
    obtain ⟨_, _, _, _, _, Fs, b6, b7⟩ := hb
    unfold AllOk at ok ⊢
    rw [ec]
    cases kids with
    | nil =>
      refine ⟨?_, by unfold AllOkKids; trivial⟩
      intro j hj
      exact absurd hj (Nat.not_lt_zero _)
    | cons k ks =>
      rw [if_neg (by simp)] at b6
      have ea : ∀ j, h'.at_ ((h.at_ p).children.arr, j) = h.at_ ((h.at_ p).children.arr, j) := fun j => ef _ (by rw [b6]; simp)
      refine ⟨ok.1.congr ea, ?_⟩
      exact AllOkKids.frame (k :: ks) _ _ _ Fs b7 ok.2 (fun j => by rw [ea j]) (fun q hq => ef q (by rw [b6]; exact List.mem_cons_of_mem _ hq))

theorem AllOkKids.frame {dec : List UInt8 → Option (List UInt8)} {h h' : CHeap} {A : Ptr → Prop} : ∀ (ks : List (LTree LayerRec)) (par : Option Ptr) (arr i : Nat)
    (F : List Nat), BuiltKids dec h A ks par arr i F → AllOkKids h ks arr i → (∀ j, (h'.at_ (arr, j)).children = (h.at_ (arr, j)).children) →
    (∀ q, q.1 ∈ F → h'.at_ q = h.at_ q) → AllOkKids h' ks arr i
  | [], _, _, _, _, _, _, _, _ => by unfold AllOkKids; trivial
  | k :: ks, par, arr, i, F, hb, ok, ec, ef => by
    unfold BuiltKids at hb
    obtain ⟨_, F1, F2, rfl, ⟨pp, b3⟩, b4⟩ := hb
    unfold AllOkKids at ok ⊢
    exact ⟨AllOk.frame k _ pp F1 b3 ok.1 (ec i) (fun q hq => ef q (List.mem_append.2 (Or.inl hq))),
      AllOkKids.frame ks par arr (i + 1) F2 b4 ok.2 ec (fun q hq => ef q (List.mem_append.2 (Or.inr hq)))⟩

end

/-- The links of one layer among its siblings. -/
def Done (h : CHeap) (arr n : Nat) (c : Nat → Bool) (j : Nat) : Prop :=
  (∀ b, IsBase c b j → (h.at_ (arr, j)).clippedBy = some (arr, b)) ∧
  ((∀ b, ¬IsBase c b j) → (h.at_ (arr, j)).clippedBy = none) ∧
  (h.at_ (arr, j)).clip = ((List.range n).filter fun k => decide (IsBase c j k)).map fun k => some (arr, k)

theorem IsBase.unique {c : Nat → Bool} {a b j : Nat} (ha : IsBase c a j) (hb : IsBase c b j) : a = b := by
  obtain ⟨a1, a2, a3⟩ := ha
  obtain ⟨b1, b2, b3⟩ := hb
  rcases Nat.lt_trichotomy a b with h | h | h
  · have := a3 b (by omega) h
    rw [b2] at this
    cases this
  · exact h
  · have := b3 a (by omega) h
    rw [a2] at this
    cases this

theorem filter_base (c : Nat → Bool) (n a m : Nat) (h1 : a + 1 + m ≤ n) (ha : c a = false) (hc : ∀ t, t < m → c (a + 1 + t) = true)
    (hs : a + 1 + m < n → c (a + 1 + m) = false) :
    ((List.range n).filter fun k => decide (IsBase c a k)) = (List.range m).map fun t => a + 1 + t := by
  have e : List.range n = (List.range (a + 1)) ++ ((List.range m).map fun t => a + 1 + t) ++ ((List.range (n - (a + 1 + m))).map fun t => a + 1 + m + t) := by
    obtain ⟨d, rfl⟩ := Nat.exists_eq_add_of_le h1
    rw [Nat.add_sub_cancel_left, List.range_add, List.range_add]
  rw [e, List.filter_append, List.filter_append]
  have f1 : (List.range (a + 1)).filter (fun k => decide (IsBase c a k)) = [] := by
    rw [List.filter_eq_nil_iff]
    intro k hk
    have := List.mem_range.1 hk
    rw [decide_eq_true_iff]
    rintro ⟨h, _⟩
    omega
  have f2 : ((List.range m).map fun t => a + 1 + t).filter (fun k => decide (IsBase c a k)) = (List.range m).map fun t => a + 1 + t := by
    rw [List.filter_eq_self]
    intro k hk
    obtain ⟨t, ht, rfl⟩ := List.mem_map.1 hk
    have ht := List.mem_range.1 ht
    rw [decide_eq_true_iff]
    refine ⟨by omega, ha, fun k h1 h2 => ?_⟩
    have := hc (k - (a + 1)) (by omega)
    rwa [show a + 1 + (k - (a + 1)) = k by omega] at this
  have f3 : ((List.range (n - (a + 1 + m))).map fun t => a + 1 + m + t).filter (fun k => decide (IsBase c a k)) = [] := by
    rw [List.filter_eq_nil_iff]
    intro k hk
    obtain ⟨t, ht, rfl⟩ := List.mem_map.1 hk
    have ht := List.mem_range.1 ht
    rw [decide_eq_true_iff]
    rintro ⟨_, _, h⟩
    have := h (a + 1 + m) (by omega) (by omega)
    rw [hs (by omega)] at this
    cases this
  rw [f1, f2, f3, List.append_nil, List.nil_append]

theorem filter_base_nil (c : Nat → Bool) (n a : Nat) (ha : c a = true) : ((List.range n).filter fun k => decide (IsBase c a k)) = [] := by
  rw [List.filter_eq_nil_iff]
  intro k _
  rw [decide_eq_true_iff]
  rintro ⟨_, h, _⟩
  rw [ha] at h
  cases h

/-- What registering the clipping groups of a list of siblings does. -/
structure RegSpec (h h' : CHeap) (ks : List (LTree LayerRec)) (arr : Nat) (F : List Nat) : Prop where
  next : h'.next = h.next
  core : ∀ q, (h'.at_ q).core = (h.at_ q).core
  frame : ∀ q, q.1 ≠ arr → q.1 ∉ F → h'.at_ q = h.at_ q
  ok : ClippingOk h' arr ks.length
  kids : AllOkKids h' ks arr 0

/-- `registerClips` with this fuel does what it should. -/
def RegOk (dec : List UInt8 → Option (List UInt8)) (A : Ptr → Prop) (f : Nat) : Prop :=
  ∀ (ks : List (LTree LayerRec)) (par : Option Ptr) (s : LSlice) (F : List Nat) (h : CHeap), s.len = ks.length → depthAll ks ≤ f →
    BuiltKids dec h A ks par s.arr 0 F → s.arr ∉ F → F.Nodup → (∀ q, q.1 = s.arr ∨ q.1 ∈ F → (h.at_ q).clip = [] ∧ (h.at_ q).clippedBy = none) →
    RegSpec h (registerClips f s h) ks s.arr F

/-- The state of the loop of `registerClippingGroup` before it looks at the layer below index `i`: `pre` are the layers to come, `post` those done,
and the last `m` of those, above `i`, are clipping layers waiting for a base. -/
structure RegInv (dec : List UInt8 → Option (List UInt8)) (A : Ptr → Prop) (h0 h : CHeap) (pre post : List (LTree LayerRec)) (par : Option Ptr) (arr : Nat)
    (F1 F2 : List Nat) (c : Nat → Bool) (m : Nat) (clip : List Ptr) : Prop where
  next : h.next = h0.next
  core : ∀ q, (h.at_ q).core = (h0.at_ q).core
  frame : ∀ q, q.1 ≠ arr → q.1 ∉ F1 ++ F2 → h.at_ q = h0.at_ q
  bpre : BuiltKids dec h A pre par arr 0 F1
  bpost : BuiltKids dec h A post par arr pre.length F2
  arrF : arr ∉ F1 ++ F2
  nodup : (F1 ++ F2).Nodup
  clean : ∀ q, (q.1 = arr ∧ q.2 < pre.length + m) ∨ q.1 ∈ F1 → (h.at_ q).clip = [] ∧ (h.at_ q).clippedBy = none
  okpost : AllOkKids h post arr pre.length
  clipEq : clip = ((List.range m).map fun t => (arr, pre.length + t)).reverse
  room : pre.length + m ≤ pre.length + post.length
  cl : ∀ j, (h.at_ (arr, j)).attr.clipping = c j
  run : ∀ t, t < m → c (pre.length + t) = true
  stop : pre.length + m < pre.length + post.length → c (pre.length + m) = false
  done : ∀ j, pre.length + m ≤ j → j < pre.length + post.length → Done h arr (pre.length + post.length) c j

theorem depthAll_append {α : Type} : ∀ (xs ys : List (LTree α)), depthAll (xs ++ ys) = max (depthAll xs) (depthAll ys)
  | [], ys => by simp [depthAll]
  | x :: xs, ys => by
    rw [List.cons_append, depthAll, depthAll, depthAll_append xs ys]
    omega

theorem registerLoop_spec (dec : List UInt8 → Option (List UInt8)) (A : Ptr → Prop) (f : Nat) (IH : RegOk dec A f) (par : Option Ptr) (arr : Nat) (h0 : CHeap)
    (c : Nat → Bool) : ∀ (i : Nat) (pre post : List (LTree LayerRec)) (h : CHeap) (F1 F2 : List Nat) (m : Nat) (clip : List Ptr), pre.length = i →
    depthAll pre ≤ f + 1 → RegInv dec A h0 h pre post par arr F1 F2 c m clip →
    RegSpec h0 (registerLoop (registerClips f) arr i clip h) (pre ++ post) arr (F1 ++ F2)
  | 0, pre, post, h, F1, F2, m, clip, hi, hd, inv => by
    obtain rfl := List.length_eq_zero_iff.1 hi
    have ho := inv.done
    have hr := inv.run
    have hs := inv.stop
    have hcl := inv.clean
    have hroom := inv.room
    simp only [List.length_nil, Nat.zero_add] at ho hr hs hcl hroom
    rw [registerLoop]
    refine ⟨inv.next, inv.core, inv.frame, ?_, inv.okpost⟩
    have ec : (fun k => (h.at_ (arr, k)).attr.clipping) = c := funext inv.cl
    intro j hj
    rw [ec, List.nil_append]
    rw [List.nil_append] at hj
    by_cases hjm : m ≤ j
    · exact ho j hjm hj
    · obtain ⟨e1, e2⟩ := hcl (arr, j) (Or.inl ⟨rfl, by show j < m; omega⟩)
      refine ⟨?_, fun _ => e2, ?_⟩
      · rintro b ⟨b1, b2, b3⟩
        have := hr b (by omega)
        rw [b2] at this
        cases this
      · rw [e1, filter_base_nil c _ j (hr j (by omega))]
        rfl
  | i + 1, pre, post, h, F1, F2, m, clip, hi, hd, inv => by
    obtain ⟨pre, k, rfl⟩ : ∃ t b, pre = t ++ [b] := by
      rcases List.eq_nil_or_concat pre with e | ⟨t, b, e⟩
      · subst e; simp at hi
      · exact ⟨t, b, by simpa using e⟩
    rw [List.length_append, List.length_singleton] at hi
    have hi : pre.length = i := by omega
    rw [depthAll_append] at hd
    have hdk : k.depth ≤ f + 1 := by
      simp only [depthAll] at hd
      omega
    have hdp : depthAll pre ≤ f + 1 := by omega
    obtain ⟨Fp, Fk, rfl, bp, bk⟩ := (BuiltKids.append_iff pre [k] par arr 0 F1).1 inv.bpre
    rw [Nat.zero_add] at bk
    have hbk := bk
    unfold BuiltKids at bk
    obtain ⟨kp, Fk1, Fk2, eFk, ⟨pp, bk1⟩, bk2⟩ := bk
    unfold BuiltKids at bk2
    subst bk2
    rw [List.append_nil] at eFk
    subst eFk
    have hnd := inv.nodup
    have harr := inv.arrF
    rw [List.append_assoc, List.nodup_append] at hnd
    obtain ⟨nd1, nd23, nd12⟩ := hnd
    rw [List.nodup_append] at nd23
    obtain ⟨nd2, nd3, nd23⟩ := nd23
    have ha1 : arr ∉ Fp := fun hm => harr (by simp [hm])
    have ha2 : arr ∉ Fk := fun hm => harr (by simp [hm])
    have ha3 : arr ∉ F2 := fun hm => harr (by simp [hm])
    -- the groups inside this layer
    obtain ⟨h1, eh1⟩ : ∃ h1, (if (h.at_ (arr, i)).children.len > 0 then registerClips f (h.at_ (arr, i)).children h else h) = h1 := ⟨_, rfl⟩
    have hk : h1.next = h.next ∧ (∀ q, (h1.at_ q).core = (h.at_ q).core) ∧ (∀ q, q.1 ∉ Fk → h1.at_ q = h.at_ q) ∧ AllOk h1 k (arr, i) := by
      cases k with
      | node l kids =>
        rw [hi] at bk1
        unfold Built at bk1
        obtain ⟨_, _, _, _, b5, Fs, b6, b7⟩ := bk1
        cases kids with
        | nil =>
          rw [b5, if_neg (by simp)] at eh1
          subst eh1
          refine ⟨rfl, fun _ => rfl, fun _ _ => rfl, ?_⟩
          unfold AllOk
          refine ⟨?_, by unfold AllOkKids; trivial⟩
          intro j hj
          exact absurd hj (Nat.not_lt_zero _)
        | cons k ks =>
          rw [b5, if_pos (by simp)] at eh1
          rw [if_neg (by simp)] at b6
          subst b6
          rw [List.nodup_cons] at nd2
          have := IH (k :: ks) _ (h.at_ (arr, i)).children Fs h b5 (by unfold LTree.depth at hdk; omega) b7 nd2.1 nd2.2 (fun q hq => inv.clean q (Or.inr (by
            rcases hq with hq | hq <;> simp [hq])))
          rw [eh1] at this
          refine ⟨this.next, this.core, fun q hq => this.frame q (fun e => hq (by simp [e])) (fun e => hq (by simp [e])), ?_⟩
          unfold AllOk
          rw [(CLayer.core_eq (this.core (arr, i))).2.2]
          exact ⟨this.ok, this.kids⟩
    obtain ⟨k1, k2, k3, k4⟩ := hk
    have karr : ∀ j, h1.at_ (arr, j) = h.at_ (arr, j) := fun j => k3 _ ha2
    have kcore : ∀ q, A q → (h1.at_ q).core = (h.at_ q).core := fun q _ => k2 q
    have kF2 : ∀ q : Ptr, q.1 ∈ F2 → h1.at_ q = h.at_ q := fun q hq => k3 q (fun hm => nd23 _ hm _ hq rfl)
    -- the state before this layer joins the others
    have okpost1 : AllOkKids h1 post arr (pre.length + 1) := by
      have h2 := inv.okpost
      have h3 := inv.bpost
      rw [List.length_append, List.length_singleton] at h2 h3
      exact AllOkKids.frame post par arr _ F2 h3 h2 (fun j => by rw [karr j]) kF2
    have bpost1 : BuiltKids dec h1 A (k :: post) par arr pre.length (Fk ++ F2) := by
      have h3 := inv.bpost
      rw [List.length_append, List.length_singleton] at h3
      refine (BuiltKids.append_iff [k] post par arr pre.length (Fk ++ F2)).2 ⟨Fk, F2, rfl, ?_, ?_⟩
      · exact BuiltKids.mono (fun _ h => h) kcore _ _ _ _ _ hbk
      · exact BuiltKids.mono (fun _ h => h) kcore _ _ _ _ _ h3
    have bpre1 : BuiltKids dec h1 A pre par arr 0 Fp := BuiltKids.mono (fun _ h => h) kcore _ _ _ _ _ bp
    have hcl1 : ∀ j, (h1.at_ (arr, j)).attr.clipping = c j := fun j => by rw [karr j]; exact inv.cl j
    have hrun := inv.run
    have hstop := inv.stop
    have hdone := inv.done
    have hclean := inv.clean
    have hroom := inv.room
    have hclip := inv.clipEq
    rw [List.length_append, List.length_singleton] at hrun hstop hdone hclean hroom hclip
    have eqs : pre.length + 1 + post.length = pre.length + (k :: post).length := by rw [List.length_cons]; omega
    rw [eqs] at hstop hdone hroom
    have eF : (Fp ++ Fk) ++ F2 = Fp ++ (Fk ++ F2) := List.append_assoc _ _ _
    have ek : pre ++ [k] ++ post = pre ++ (k :: post) := by simp
    rw [eF, ek]
    have eqloop : registerLoop (registerClips f) arr (i + 1) clip h = if c i then registerLoop (registerClips f) arr i (clip ++ [(arr, i)]) h1 else if clip.length > 0 then
        registerLoop (registerClips f) arr i [] ((setClippedBy (arr, i) clip h1).set (arr, i) { (setClippedBy (arr, i) clip h1).at_ (arr, i) with clip := (goReverse clip).map some })
        else registerLoop (registerClips f) arr i clip h1 := by
      rw [registerLoop]
      dsimp only
      rw [eh1, hcl1 i]
    rw [eqloop]
    have hframe1 : ∀ q, q.1 ≠ arr → q.1 ∉ Fp ++ (Fk ++ F2) → h1.at_ q = h0.at_ q := fun q h2 h3 => by
      rw [k3 q (fun hm => h3 (by simp [hm])), inv.frame q h2 (by rw [eF]; exact h3)]
    have hclean1 : ∀ q, (q.1 = arr ∧ q.2 < pre.length + 1 + m) ∨ q.1 ∈ Fp → (h1.at_ q).clip = [] ∧ (h1.at_ q).clippedBy = none := by
      intro q hq
      have hnk : q.1 ∉ Fk := by
        rcases hq with hq | hq
        · rw [hq.1]; exact ha2
        · exact fun hm => nd12 _ hq q.1 (by simp [hm]) rfl
      rw [k3 q hnk]
      exact hclean q (hq.imp id (fun h => by simp [h]))
    have hdone1 : ∀ j, pre.length + 1 + m ≤ j → j < pre.length + (k :: post).length → Done h1 arr (pre.length + (k :: post).length) c j := by
      intro j j1 j2
      have := hdone j j1 j2
      unfold Done at this ⊢
      rw [karr j]
      exact this
    have hnd' : (Fp ++ (Fk ++ F2)).Nodup := by rw [← eF]; exact inv.nodup
    have harr' : arr ∉ Fp ++ (Fk ++ F2) := by rw [← eF]; exact inv.arrF
    by_cases hci : c i = true
    · rw [if_pos hci]
      refine registerLoop_spec dec A f IH par arr h0 c i pre (k :: post) h1 Fp (Fk ++ F2) (m + 1) _ hi hdp ?_
      refine ⟨by rw [k1, inv.next], fun q => by rw [k2 q, inv.core q], hframe1, bpre1, bpost1, harr', hnd', ?_, ?_, ?_, ?_, hcl1, ?_, ?_, ?_⟩
      · intro q hq
        exact hclean1 q (hq.imp (fun h => ⟨h.1, by omega⟩) id)
      · unfold AllOkKids
        rw [hi] at okpost1 ⊢
        exact ⟨k4, okpost1⟩
      · rw [hclip, ← List.reverse_cons]
        congr 1
        rw [List.range_succ_eq_map, List.map_cons, List.map_map, hi]
        congr 1
        · congr 1
          funext t
          simp only [Function.comp, Nat.succ_eq_add_one]
          congr 1
          omega
      · omega
      · intro t ht
        rcases t with _ | t
        · rw [Nat.add_zero, hi]; exact hci
        · have := hrun t (by omega)
          rwa [show pre.length + (t + 1) = pre.length + 1 + t by omega]
      · intro hlt
        have := hstop (by omega)
        rwa [show pre.length + (m + 1) = pre.length + 1 + m by omega]
      · intro j j1 j2
        exact hdone1 j (by omega) j2
    · have hci : c i = false := by simpa using hci
      rw [if_neg (by simp [hci])]
      by_cases hm : m = 0
      · subst hm
        have hc0 : clip = [] := by rw [hclip]; rfl
        rw [if_neg (by rw [hc0]; simp)]
        refine registerLoop_spec dec A f IH par arr h0 c i pre (k :: post) h1 Fp (Fk ++ F2) 0 _ hi hdp ?_
        refine ⟨by rw [k1, inv.next], fun q => by rw [k2 q, inv.core q], hframe1, bpre1, bpost1, harr', hnd', ?_, ?_, by rw [hc0]; rfl, by omega, hcl1,
          fun t ht => absurd ht (Nat.not_lt_zero _), fun _ => by rw [Nat.add_zero, hi]; exact hci, ?_⟩
        · intro q hq
          exact hclean1 q (hq.imp (fun h => ⟨h.1, by omega⟩) id)
        · unfold AllOkKids
          rw [hi] at okpost1 ⊢
          exact ⟨k4, okpost1⟩
        · intro j j1 j2
          by_cases hj : j = i
          · subst hj
            obtain ⟨e1, e2⟩ := hclean1 (arr, j) (Or.inl ⟨rfl, by show j < _; omega⟩)
            refine ⟨?_, fun _ => e2, ?_⟩
            · rintro b ⟨b1, _, b3⟩
              have := b3 j (Nat.le_refl _) b1
              rw [hci] at this
              cases this
            · have := filter_base c (pre.length + (k :: post).length) j 0 (by omega) hci (fun t ht => absurd ht (Nat.not_lt_zero _)) (fun hlt => by
                have := hstop (by omega)
                rwa [show j + 1 + 0 = pre.length + 1 + 0 by omega])
              rw [e1, this]
              rfl
          · exact hdone1 j (by omega) j2
      · have hc1 : clip.length > 0 := by rw [hclip]; simp; omega
        rw [if_pos hc1]
        obtain ⟨s1, s2⟩ := setClippedBy_spec (arr, i) clip h1
        obtain ⟨h2, eh2⟩ : ∃ h2, (setClippedBy (arr, i) clip h1).set (arr, i) { (setClippedBy (arr, i) clip h1).at_ (arr, i) with clip := (goReverse clip).map some } = h2 := ⟨_, rfl⟩
        rw [eh2]
        have memclip : ∀ q : Ptr, q ∈ clip ↔ q.1 = arr ∧ pre.length + 1 ≤ q.2 ∧ q.2 < pre.length + 1 + m := by
          intro q
          rw [hclip, List.mem_reverse, List.mem_map]
          constructor
          · rintro ⟨t, ht, rfl⟩
            have := List.mem_range.1 ht
            exact ⟨rfl, by show _ ≤ pre.length + 1 + t; omega, by show pre.length + 1 + t < _; omega⟩
          · rintro ⟨q1, q2, q3⟩
            refine ⟨q.2 - (pre.length + 1), List.mem_range.2 (by omega), ?_⟩
            rw [← q1, show pre.length + 1 + (q.2 - (pre.length + 1)) = q.2 by omega]
        have hni : ((arr, i) : Ptr) ∉ clip := fun hm => by
          have := (memclip _).1 hm
          simp only at this
          omega
        have at2 : ∀ q, h2.at_ q = if q = (arr, i) then { h1.at_ (arr, i) with clip := (goReverse clip).map some } else if q ∈ clip then { h1.at_ q with clippedBy := some (arr, i) } else h1.at_ q := by
          intro q
          rw [← eh2, CHeap.set_at, s2 (arr, i), if_neg hni, s2 q]
        have core2 : ∀ q, (h2.at_ q).core = (h1.at_ q).core := by
          intro q
          rw [at2 q]
          split
          · rename_i e; rw [e]; rfl
          · split <;> rfl
        have other2 : ∀ q : Ptr, q.1 ≠ arr → h2.at_ q = h1.at_ q := by
          intro q hq
          rw [at2 q, if_neg (fun e => hq (by rw [e])), if_neg (fun hm => hq ((memclip q).1 hm).1)]
        have cc2 : ∀ q, A q → (h2.at_ q).core = (h1.at_ q).core := fun q _ => core2 q
        refine registerLoop_spec dec A f IH par arr h0 c i pre (k :: post) h2 Fp (Fk ++ F2) 0 _ hi hdp ?_
        refine ⟨by rw [← eh2, CHeap.set_next, s1, k1, inv.next], fun q => by rw [core2 q, k2 q, inv.core q], fun q q1 q2 => by rw [other2 q q1]; exact hframe1 q q1 q2,
          BuiltKids.mono (fun _ h => h) cc2 _ _ _ _ _ bpre1, BuiltKids.mono (fun _ h => h) cc2 _ _ _ _ _ bpost1, harr', hnd', ?_, ?_, rfl, by omega, ?_,
          fun t ht => absurd ht (Nat.not_lt_zero _), fun _ => by rw [Nat.add_zero, hi]; exact hci, ?_⟩
        · intro q hq
          rcases hq with ⟨q1, q2⟩ | hq
          · have e1 : q ≠ (arr, i) := fun e => by rw [e] at q2; simp only at q2; omega
            rw [at2 q, if_neg e1, if_neg (fun hm => by have := (memclip q).1 hm; omega)]
            exact hclean1 q (Or.inl ⟨q1, by omega⟩)
          · rw [other2 q (fun e => ha1 (by rw [← e]; exact hq))]
            exact hclean1 q (Or.inr hq)
        · refine AllOkKids.frame (k :: post) par arr pre.length (Fk ++ F2) bpost1 ?_ (fun j => (CLayer.core_eq (core2 _)).2.2) (fun q hq => other2 q (fun e => harr' (by
            rw [← e]; exact List.mem_append.2 (Or.inr hq))))
          unfold AllOkKids
          rw [hi] at okpost1 ⊢
          exact ⟨k4, okpost1⟩
        · intro j
          rw [(CLayer.core_eq (core2 _)).1]
          exact hcl1 j
        · intro j j1 j2
          have hbasei : ∀ j, i < j → j < pre.length + 1 + m → IsBase c i j := by
            intro j h1 h2
            refine ⟨h1, hci, fun k k1 k2 => ?_⟩
            have := hrun (k - (pre.length + 1)) (by omega)
            rwa [show pre.length + 1 + (k - (pre.length + 1)) = k by omega] at this
          by_cases hj : j = i
          · subst hj
            obtain ⟨e1, e2⟩ := hclean1 (arr, j) (Or.inl ⟨rfl, by show j < _; omega⟩)
            unfold Done
            rw [at2 (arr, j), if_pos rfl]
            refine ⟨?_, fun _ => e2, ?_⟩
            · rintro b ⟨b1, _, b3⟩
              have := b3 j (Nat.le_refl _) b1
              rw [hci] at this
              cases this
            · have := filter_base c (pre.length + (k :: post).length) j m (by omega) hci (fun t ht => by
                have := hrun t ht
                rwa [hi] at this) (fun hlt => by
                have := hstop (by omega)
                rwa [show j + 1 + m = pre.length + 1 + m by omega])
              rw [this]
              show List.map some (goReverse clip) = _
              rw [goReverse_eq, hclip, List.reverse_reverse, List.map_map, List.map_map, hi]
              rfl
          · by_cases hjm : j < pre.length + 1 + m
            · have hb := hbasei j (by omega) hjm
              obtain ⟨e1, e2⟩ := hclean1 (arr, j) (Or.inl ⟨rfl, hjm⟩)
              have e : ((arr, j) : Ptr) ≠ (arr, i) := fun e => hj (by injection e)
              unfold Done
              rw [at2 (arr, j), if_neg e, if_pos ((memclip _).2 ⟨rfl, by show _ ≤ j; omega, hjm⟩)]
              refine ⟨?_, fun h => absurd hb (h i), ?_⟩
              · intro b hb'
                rw [hb'.unique hb]
              · rw [filter_base_nil c _ j (hb.2.2 j (Nat.le_refl _) hb.1)]
                exact e1
            · have := hdone1 j (by omega) j2
              have e : ((arr, j) : Ptr) ≠ (arr, i) := fun e => hj (by injection e)
              unfold Done at this ⊢
              rw [at2 (arr, j), if_neg e, if_neg (fun hm => by have := ((memclip _).1 hm).2.2; exact hjm this)]
              exact this

theorem registerClips_spec (dec : List UInt8 → Option (List UInt8)) (A : Ptr → Prop) : ∀ f, RegOk dec A f
  | 0 => by
    intro ks par s F h hl hd hb ha hn hc
    cases ks with
    | nil =>
      rw [registerClips]
      exact ⟨rfl, fun _ => rfl, fun _ _ _ => rfl, fun j hj => absurd hj (Nat.not_lt_zero _), by unfold AllOkKids; trivial⟩
    | cons k ks =>
      cases k
      simp only [depthAll, LTree.depth] at hd
      omega
  | f + 1 => by
    intro ks par s F h hl hd hb ha hn hc
    rw [registerClips, hl]
    have := registerLoop_spec dec A f (registerClips_spec dec A f) par s.arr h (fun j => (h.at_ (s.arr, j)).attr.clipping) ks.length ks [] h F [] 0 [] rfl hd
      ⟨rfl, fun _ => rfl, fun _ _ _ => rfl, hb, by unfold BuiltKids; rfl, by simpa using ha, by simpa using hn, ?_, by unfold AllOkKids; trivial, rfl, by simp,
        fun _ => rfl, fun t ht => absurd ht (Nat.not_lt_zero _), by simp, ?_⟩
    · simpa using this
    · intro q hq
      exact hc q (hq.imp (fun h => h.1) id)
    · intro j j1 j2
      simp only [List.length_nil, Nat.add_zero] at j1 j2
      omega

end Psd
