import Verif.Spec.Rendered
import Verif.Lemmas.Edited
import Verif.Lemmas.Clipping
import Verif.Lemmas.Clone

/-!
# The layers of a well-formed tree at one tile
-/

namespace Psd

section
variable {P M : Type} {s : Scene P M} {pt : TPt}

/-- The end of the group of clipping layers from `i` on. -/
theorem group_end (c : Nat → Bool) (n : Nat) : ∀ m i, i + m = n → ∃ j, i ≤ j ∧ j ≤ n ∧ (∀ k, i ≤ k → k < j → c k = true) ∧ (j < n → c j = false) := by
  intro m
  induction m with
  | zero => intro i h; exact ⟨i, Nat.le_refl _, by omega, fun k h1 h2 => by omega, fun h' => by omega⟩
  | succ m ih =>
    intro i h
    cases hc : c i with
    | false => exact ⟨i, Nat.le_refl _, by omega, fun k h1 h2 => by omega, fun _ => hc⟩
    | true =>
      obtain ⟨j, h1, h2, h3, h4⟩ := ih (i + 1) (by omega)
      refine ⟨j, by omega, h2, fun k hk1 hk2 => ?_, h4⟩
      by_cases hk : k = i
      · rw [hk]; exact hc
      · exact h3 k (by omega) hk2

theorem clip_list {h : CHeap} {arr n : Nat} (ok : ClippingOk h arr n) {i j : Nat} (hi : i < j) (hj : j ≤ n)
    (hc : (h.at_ (arr, i)).attr.clipping = false → (∀ k, i < k → k < j → (h.at_ (arr, k)).attr.clipping = true) ∧ (j < n → (h.at_ (arr, j)).attr.clipping = false))
    (ht : (h.at_ (arr, i)).attr.clipping = true → j = i + 1) :
    (h.at_ (arr, i)).clip = (List.range' (i + 1) (j - (i + 1))).map (fun k => some (arr, k)) := by
  rw [(ok i (by omega)).2.2]
  cases hcl : (h.at_ (arr, i)).attr.clipping with
  | true =>
    rw [filter_base_nil _ _ _ hcl, ht hcl, Nat.sub_self]
    rfl
  | false =>
    obtain ⟨h1, h2⟩ := hc hcl
    rw [filter_base (fun k => (h.at_ (arr, k)).attr.clipping) n i (j - (i + 1)) (by omega) hcl (fun t ht => h1 _ (by omega) (by omega))]
    · rw [List.range'_eq_map_range]
    · rw [show i + 1 + (j - (i + 1)) = j by omega]
      exact h2

theorem view_exists : ∀ (d : Nat) (q : Ptr), (∀ π r, slotAt s.h q π = some r → π.length ≤ d) →
    (∀ π r, slotAt s.h q π = some r → ClippingOk s.h (s.h.at_ r).children.arr (s.h.at_ r).children.len) →
    ∃ t, View s pt t (s.h.at_ q).children.arr 0 (s.h.at_ q).children.len ∧ t.depth ≤ 2 * d := by
  intro d
  induction d with
  | zero =>
    intro q hd hok
    refine ⟨.nil, ?_, Nat.le_refl _⟩
    by_cases h0 : 0 < (s.h.at_ q).children.len
    · have := hd [0] _ (by rw [slotAt, if_pos h0]; rfl)
      simp at this
    · simp only [View]; omega
  | succ d ih =>
    intro q hd hok
    -- the layers in each child
    have hkid : ∀ i, i < (s.h.at_ q).children.len → ∃ t, View s pt t (s.h.at_ ((s.h.at_ q).children.arr, i)).children.arr 0
        (s.h.at_ ((s.h.at_ q).children.arr, i)).children.len ∧ t.depth ≤ 2 * d := by
      intro i hi
      refine ih _ (fun π r h => ?_) (fun π r h => ?_)
      · have := hd (i :: π) r (by rw [slotAt_child hi]; exact h)
        simp only [List.length_cons] at this
        omega
      · exact hok (i :: π) r (by rw [slotAt_child hi]; exact h)
    have ok := hok [] q rfl
    generalize (s.h.at_ q).children.arr = arr at hkid ok
    generalize (s.h.at_ q).children.len = n at hkid ok
    -- clipping layers only
    have hA : ∀ m i j, i + m = j → j ≤ n → (∀ k, i ≤ k → k < j → (s.h.at_ (arr, k)).attr.clipping = true) →
        ∃ t, View s pt t arr i j ∧ t.allClipping ∧ t.depth ≤ 2 * d + 1 := by
      intro m
      induction m with
      | zero => intro i j h _ _; exact ⟨.nil, h, trivial, Nat.zero_le _⟩
      | succ m ihm =>
        intro i j h hj hc
        obtain ⟨rest, v1, v2, v3⟩ := ihm (i + 1) j (by omega) hj (fun k h1 h2 => hc k (by omega) h2)
        obtain ⟨kids, k1, k2⟩ := hkid i (by omega)
        refine ⟨.layer (s.h.at_ (arr, i)).attr _ _ kids .nil rest, ⟨i + 1, by omega, by omega, rfl, rfl, rfl, k1, rfl, trivial, fun _ => rfl, ?_, v1⟩,
          ⟨hc i (Nat.le_refl _) (by omega), v2⟩, ?_⟩
        · exact clip_list ok (by omega) (by omega) (fun h => by rw [hc i (Nat.le_refl _) (by omega)] at h; cases h) (fun _ => rfl)
        · simp only [Stk.depth]
          omega
    -- everything from `i` on
    have hB : ∀ m i, i ≤ n → n - i ≤ m → ∃ t, View s pt t arr i n ∧ t.depth ≤ 2 * (d + 1) := by
      intro m
      induction m with
      | zero => intro i h1 h2; exact ⟨.nil, by simp only [View]; omega, Nat.zero_le _⟩
      | succ m ihm =>
        intro i h1 h2
        by_cases h : i = n
        · exact ⟨.nil, h, Nat.zero_le _⟩
        obtain ⟨kids, k1, k2⟩ := hkid i (by omega)
        cases hcl : (s.h.at_ (arr, i)).attr.clipping with
        | true =>
          obtain ⟨rest, v1, v2⟩ := ihm (i + 1) (by omega) (by omega)
          refine ⟨.layer (s.h.at_ (arr, i)).attr _ _ kids .nil rest, ⟨i + 1, by omega, by omega, rfl, rfl, rfl, k1, rfl, trivial, fun _ => rfl, ?_, v1⟩, ?_⟩
          · exact clip_list ok (by omega) (by omega) (fun h => by rw [hcl] at h; cases h) (fun _ => rfl)
          · simp only [Stk.depth]
            omega
        | false =>
          obtain ⟨j, j1, j2, j3, j4⟩ := group_end (fun k => (s.h.at_ (arr, k)).attr.clipping) n (n - (i + 1)) (i + 1) (by omega)
          obtain ⟨rest, v1, v2⟩ := ihm j j2 (by omega)
          obtain ⟨clips, c1, c2, c3⟩ := hA (j - (i + 1)) (i + 1) j (by omega) j2 j3
          refine ⟨.layer (s.h.at_ (arr, i)).attr _ _ kids clips rest, ⟨j, by omega, j2, rfl, rfl, rfl, k1, c1, c2, (fun h => ?_), ?_, v1⟩, ?_⟩
          · rw [hcl] at h
            cases h
          · exact clip_list ok (by omega) j2 (fun _ => ⟨fun k h1 h2 => j3 k h1 h2, j4⟩) (fun h => by rw [hcl] at h; cases h)
          · simp only [Stk.depth]
            omega
    exact hB n 0 (Nat.zero_le _) (by omega)

/-- The numbers are those of layers of the tree. -/
theorem View.ids_slots : ∀ (t : Stk P M) (arr i n : Nat) (q : Ptr), (s.h.at_ q).children.arr = arr → n ≤ (s.h.at_ q).children.len → View s pt t arr i n →
    ∀ id ∈ t.ids, ∃ k ρ r, i ≤ k ∧ k < n ∧ slotAt s.h q (k :: ρ) = some r ∧ (s.h.at_ r).attr.seqID = id := by
  intro t
  induction t with
  | nil => intro arr i n q _ _ _ id h; cases h
  | layer a pic mask kids clips rest ihk ihc ihr =>
    intro arr i n q hq hn hv id hid
    obtain ⟨j, h1, h2, ha, _, _, hvk, hvc, _, _, _, hvr⟩ := hv
    have hi : i < (s.h.at_ q).children.len := by omega
    simp only [Stk.ids, List.mem_cons, List.mem_append] at hid
    rcases hid with h | h | h | h
    · refine ⟨i, [], (arr, i), Nat.le_refl _, by omega, ?_, by rw [ha, h]⟩
      rw [slotAt_child hi, hq]
      rfl
    · obtain ⟨k, ρ, r, e1, e2, e3, e4⟩ := ihk _ 0 _ (arr, i) rfl (Nat.le_refl _) hvk id h
      refine ⟨i, k :: ρ, r, Nat.le_refl _, by omega, ?_, e4⟩
      rw [slotAt_child hi, hq]
      exact e3
    · obtain ⟨k, ρ, r, e1, e2, e3, e4⟩ := ihc arr (i + 1) j q hq (by omega) hvc id h
      exact ⟨k, ρ, r, by omega, by omega, e3, e4⟩
    · obtain ⟨k, ρ, r, e1, e2, e3, e4⟩ := ihr arr j n q hq hn hvr id h
      exact ⟨k, ρ, r, by omega, by omega, e3, e4⟩

theorem View.nodup : ∀ (t : Stk P M) (arr i n : Nat) (q : Ptr), (s.h.at_ q).children.arr = arr → n ≤ (s.h.at_ q).children.len → UniqueIDs s.h q →
    View s pt t arr i n → t.ids.Nodup := by
  intro t
  induction t with
  | nil => intros; exact List.nodup_nil
  | layer a pic mask kids clips rest ihk ihc ihr =>
    intro arr i n q hq hn u hv
    have hvl := hv
    obtain ⟨j, h1, h2, ha, hpic, hmask, hvk, hvc, hac, hj, hclip, hvr⟩ := hv
    have hi : i < (s.h.at_ q).children.len := by omega
    have hself : slotAt s.h q [i] = some (arr, i) := by
      rw [slotAt_child hi, hq]
      rfl
    have kidSlot : ∀ id ∈ kids.ids, ∃ ρ r, ρ ≠ [] ∧ slotAt s.h q (i :: ρ) = some r ∧ (s.h.at_ r).attr.seqID = id := by
      intro id h
      obtain ⟨k, ρ, r, e1, e2, e3, e4⟩ := ids_slots kids _ 0 _ (arr, i) rfl (Nat.le_refl _) hvk id h
      refine ⟨k :: ρ, r, by simp, ?_, e4⟩
      rw [slotAt_child hi, hq]
      exact e3
    have laterSlot : ∀ id ∈ clips.ids ++ rest.ids, ∃ k ρ r, i < k ∧ slotAt s.h q (k :: ρ) = some r ∧ (s.h.at_ r).attr.seqID = id := by
      intro id h
      rcases List.mem_append.1 h with h | h
      · obtain ⟨k, ρ, r, e1, e2, e3, e4⟩ := ids_slots clips arr (i + 1) j q hq (by omega) hvc id h
        exact ⟨k, ρ, r, by omega, e3, e4⟩
      · obtain ⟨k, ρ, r, e1, e2, e3, e4⟩ := ids_slots rest arr j n q hq hn hvr id h
        exact ⟨k, ρ, r, by omega, e3, e4⟩
    simp only [Stk.ids, List.nodup_cons, List.nodup_append, List.mem_append, not_or]
    refine ⟨⟨?_, ?_, ?_⟩, ?_, ⟨?_, ?_, ?_⟩, ?_⟩
    · intro h
      obtain ⟨ρ, r, e1, e2, e3⟩ := kidSlot _ h
      have := u _ _ _ _ hself e2 (by rw [ha, e3])
      simp only [List.cons.injEq, true_and] at this
      exact e1 this.symm
    · intro h
      obtain ⟨k, ρ, r, e1, e2, e3⟩ := laterSlot _ (List.mem_append_left _ h)
      have := u _ _ _ _ hself e2 (by rw [ha, e3])
      simp only [List.cons.injEq] at this
      omega
    · intro h
      obtain ⟨k, ρ, r, e1, e2, e3⟩ := laterSlot _ (List.mem_append_right _ h)
      have := u _ _ _ _ hself e2 (by rw [ha, e3])
      simp only [List.cons.injEq] at this
      omega
    · refine ihk _ 0 _ (arr, i) rfl (Nat.le_refl _) ?_ hvk
      have := u.child hi
      rw [hq] at this
      exact this
    · exact ihc arr (i + 1) j q hq (by omega) u hvc
    · exact ihr arr j n q hq hn u hvr
    · intro x hx y hy e
      obtain ⟨k, ρ, r, e1, e2, e3, e4⟩ := ids_slots clips arr (i + 1) j q hq (by omega) hvc x hx
      obtain ⟨k', ρ', r', e1', e2', e3', e4'⟩ := ids_slots rest arr j n q hq hn hvr y hy
      have := u _ _ _ _ e3 e3' (by rw [e4, e4', e])
      simp only [List.cons.injEq] at this
      omega
    · intro x hx y hy e
      obtain ⟨ρ, r, e1, e2, e3⟩ := kidSlot x hx
      obtain ⟨k', ρ', r', e1', e2', e3'⟩ := laterSlot y (List.mem_append.2 hy)
      have := u _ _ _ _ e2 e2' (by rw [e3, e3', e])
      simp only [List.cons.injEq] at this
      omega

theorem rootView_exists {depth : Nat} (ok : TreeOk s depth) (pt : TPt) : ∃ t, RootView s pt t ∧ t.depth ≤ 2 * depth := by
  obtain ⟨t, hv, hd⟩ := view_exists (pt := pt) depth s.root ok.finite ok.clipping
  refine ⟨t, ⟨hv, hv.nodup t _ _ _ s.root rfl (Nat.le_refl _) ok.unique, ?_⟩, hd⟩
  intro h
  obtain ⟨k, ρ, r, e1, e2, e3, e4⟩ := hv.ids_slots t _ _ _ s.root rfl (Nat.le_refl _) _ h
  have := ok.unique _ [] _ _ e3 rfl (by rw [e4, ok.rootID])
  cases this

end
end Psd
