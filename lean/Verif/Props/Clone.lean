import Verif.Lemmas.Clone
import Verif.Props.CTree

/-!
# C55: cloning a tree
-/

namespace Psd

theorem slotAt_old {h0 h : CHeap} (hc : ∀ q, q.1 < h0.next → h.at_ q = h0.at_ q) : ∀ (f : Nat) (p : Ptr) (π : List Nat), Fits h0 f p →
    slotAt h p π = slotAt h0 p π
  | 0, _, _, hf => by cases hf
  | f + 1, p, [], hf => rfl
  | f + 1, p, i :: π, hf => by
    rw [slotAt, slotAt, hc p hf.1]
    split
    · rename_i hi
      exact slotAt_old hc f _ π (hf.2 i hi)
    · rfl

/-- C55: `Clone` of a tree of any heap, provided its layers exist and are nested less deep than `fuel`, have different numbers, and are linked
only among themselves. The original is as before. The copy has a layer at exactly the paths at which the original has one; each is in new
memory, has the attributes of the original and as many children, and is the parent of its children; its clipping links lead to the layers
of the copy at the paths the links of the original lead to. -/
theorem C55_clone (fuel : Nat) (src : Ptr) (h : CHeap) (hfin : ∀ π q, slotAt h src π = some q → π.length < fuel ∧ q.1 < h.next)
    (huniq : UniqueIDs h src) (hlinks : LinksInside h src) :
    ∃ h' dest, cloneTree fuel src h = (h', dest) ∧
      (∀ q, q.1 < h.next → h'.at_ q = h.at_ q) ∧
      (h'.at_ dest).parent = (h.at_ src).parent ∧
      ∀ π, match slotAt h src π with
        | none => slotAt h' dest π = none
        | some s => ∃ d, slotAt h' dest π = some d ∧ h.next ≤ d.1 ∧
            (h'.at_ d).attr = (h.at_ s).attr ∧ (h'.at_ d).children.len = (h.at_ s).children.len ∧
            (∀ i, i < (h'.at_ d).children.len → (h'.at_ ((h'.at_ d).children.arr, i)).parent = some d) ∧
            (h'.at_ d).clip.length = (h.at_ s).clip.length ∧
            (∀ (i : Nat) (ρ : List Nat), (∃ r, (h.at_ s).clip[i]? = some (some r) ∧ slotAt h src ρ = some r) → (h'.at_ d).clip[i]? = some (slotAt h' dest ρ)) ∧
            (∀ ρ, (∃ b, (h.at_ s).clippedBy = some b ∧ slotAt h src ρ = some b) → (h'.at_ d).clippedBy = slotAt h' dest ρ) ∧
            ((h.at_ s).clippedBy = none → (h'.at_ d).clippedBy = none) := by
  have hfit : Fits h fuel src := Fits.of_paths fuel src hfin
  obtain ⟨hx, ehx⟩ : ∃ hx : CHeap, ({ h with next := h.next + 1 } : CHeap) = hx := ⟨_, rfl⟩
  have hxn : hx.next = h.next + 1 := by rw [← ehx]
  have hxq : ∀ q, hx.at_ q = h.at_ q := fun q => by rw [← ehx]
  obtain ⟨hC, cl, e1, sp⟩ := cloneLayer_spec h fuel src (h.next, 0) hx (fun _ => none) hfit huniq (Nat.le_refl _) (by show h.next < hx.next; omega) (fun q _ => hxq q)
  have hpath := fun π => Copy.path fuel src (h.next, 0) π sp.copy sp.mapped
  have oldC : ∀ q, q.1 < h.next → hC.at_ q = h.at_ q := fun q hq => by
    rw [sp.frame q (by omega) (fun e => by rw [e] at hq; simp at hq), hxq]
  -- what is known of pairs
  have ofPair : ∀ s d, Pair h hC src (h.next, 0) s d → s.1 < h.next ∧ h.next ≤ d.1 ∧ (hC.at_ d).attr = (h.at_ s).attr ∧ (hC.at_ d).clippedBy = (h.at_ s).clippedBy ∧
      (hC.at_ d).children.len = (h.at_ s).children.len ∧ cl (h.at_ s).attr.seqID = some d := by
    rintro s d ⟨π, p1, p2⟩
    have := hpath π
    rw [p1] at this
    obtain ⟨d', f', d1, d2, d3, d4, d5⟩ := this
    rw [p2] at d1
    injection d1 with d1
    subst d1
    cases f' with
    | zero => cases d2
    | succ f' =>
      unfold Copy at d2
      refine ⟨(hfin π s p1).2, ?_, d2.1, d2.2.2.1, d2.2.2.2.1, d4⟩
      cases π with
      | nil =>
        simp only [slotAt, Option.some.injEq] at p2
        rw [← p2]
        exact Nat.le_refl _
      | cons i π =>
        have := (d5 (by simp)).1
        omega
  have pairs : ∀ π s, slotAt h src π = some s → ∃ d, slotAt hC (h.next, 0) π = some d ∧ Pair h hC src (h.next, 0) s d := by
    intro π s hs
    have := hpath π
    rw [hs] at this
    obtain ⟨d', f', d1, _⟩ := this
    exact ⟨d', d1, π, hs, d1⟩
  have facts : CopyFacts h hC src (h.next, 0) := by
    refine ⟨fun s d hp => (ofPair s d hp).2.1, fun s d hp => (ofPair s d hp).1, fun s d hp => (ofPair s d hp).2.2.2.2.1, ?_, ?_, ?_⟩
    · intro s s' d hp hp'
      have a := (ofPair s d hp).2.2.1
      have b := (ofPair s' d hp').2.2.1
      rw [a] at b
      obtain ⟨π, p1, _⟩ := hp
      obtain ⟨π', p1', _⟩ := hp'
      have := huniq π π' s s' p1 p1' (by rw [b])
      rw [this, p1'] at p1
      injection p1 with p1
      exact p1.symm
    · rintro s d ⟨π, p1, _⟩ p hp
      obtain ⟨ρ, r, e, hr⟩ := (hlinks π s p1).1 _ hp
      injection e with e
      rw [e]
      exact (hfin ρ r hr).2
    · rintro s d ⟨π, p1, _⟩ p hp
      obtain ⟨ρ, hr⟩ := (hlinks π s p1).2 p hp
      exact (hfin ρ p hr).2
  have invC : ClipsInv h hC src (h.next, 0) hC := by
    refine ⟨fun _ => rfl, oldC, fun s d hp hb => ?_⟩
    rw [(ofPair s d hp).2.2.2.1, hb]
  have fin := cloneClips_spec h hC cl src (h.next, 0) facts fuel src (h.next, 0) hC hfit ⟨[], rfl, rfl⟩ invC
  obtain ⟨h', eh'⟩ : ∃ h', cloneClips fuel cl src (h.next, 0) hC = h' := ⟨_, rfl⟩
  rw [eh'] at fin
  refine ⟨h', (h.next, 0), ?_, fin.inv.old, ?_, ?_⟩
  · unfold cloneTree
    dsimp only
    rw [ehx, e1, eh']
  · rw [(CLayer.core_eq (fin.inv.core _)).2.1, sp.parent]
  · have hslot : ∀ π, slotAt h' (h.next, 0) π = slotAt hC (h.next, 0) π := fun π => slotAt_congr (fun q => (CLayer.core_eq (fin.inv.core q)).2.2) π _
    have hfind : ∀ ρ r, slotAt h src ρ = some r → cl.find h (some r) = slotAt h' (h.next, 0) ρ := by
      intro ρ r hr
      obtain ⟨d, d1, d2⟩ := pairs ρ r hr
      rw [hslot, d1, CloneMap.find, (ofPair r d d2).2.2.2.2.2]
    intro π
    have := hpath π
    cases hs : slotAt h src π with
    | none =>
      simp only [hs] at this ⊢
      rw [hslot, this]
    | some s =>
      simp only [hs] at this ⊢
      obtain ⟨d, f', d1, d2, d3, d4, d5⟩ := this
      have hp : Pair h hC src (h.next, 0) s d := ⟨π, hs, d1⟩
      obtain ⟨q1, q2, q3, q4, q5, q6⟩ := ofPair s d hp
      obtain ⟨c1, c2, c3⟩ := CLayer.core_eq (fin.inv.core d)
      have lk := fin.done π s d hs d1
      refine ⟨d, by rw [hslot, d1], q2, by rw [c1, q3], by rw [c3, q5], ?_, by rw [lk.1, List.length_map], ?_, ?_, ?_⟩
      · rw [c3, q5]
        intro i hi
        rw [(CLayer.core_eq (fin.inv.core _)).2.1]
        exact d3 i hi
      · rintro i ρ ⟨r, hr, hρ⟩
        rw [lk.1, List.getElem?_map, hr, Option.map_some, hfind ρ r hρ]
      · rintro ρ ⟨b, hb, hρ⟩
        rw [lk.2, hb, hfind ρ b hρ]
      · intro hb
        rw [lk.2, hb]
        rfl

/-! ### Trees made by `New` can be cloned -/

mutual

theorem LTree.sub_depth {α : Type} : ∀ (t : LTree α) (π : List Nat) (t' : LTree α), t.sub π = some t' → π.length < t.depth
  | .node l kids, [], t', _ => by rw [LTree.depth]; simp
  | .node l kids, i :: π, t', ht => by
    rw [LTree.sub] at ht
    cases hk : kids[i]? with
    | none => rw [hk] at ht; cases ht
    | some k =>
      rw [hk] at ht
      rw [LTree.depth, List.length_cons]
      have := sub_depthAll kids i k π t' hk ht
      omega

theorem sub_depthAll {α : Type} : ∀ (ks : List (LTree α)) (i : Nat) (k : LTree α) (π : List Nat) (t' : LTree α), ks[i]? = some k → k.sub π = some t' → π.length < depthAll ks
  | [], _, _, _, _, hk, _ => by simp at hk
  | x :: xs, 0, k, π, t', hk, ht => by
    simp only [List.getElem?_cons_zero, Option.some.injEq] at hk
    have := LTree.sub_depth x π t' (by rw [hk]; exact ht)
    rw [depthAll]
    omega
  | x :: xs, i + 1, k, π, t', hk, ht => by
    rw [List.getElem?_cons_succ] at hk
    have := sub_depthAll xs i k π t' hk ht
    rw [depthAll]
    omega

end

theorem slotAt_last {h : CHeap} : ∀ (π : List Nat) (j : Nat) (p q : Ptr), slotAt h p (π ++ [j]) = some q →
    ∃ q', slotAt h p π = some q' ∧ j < (h.at_ q').children.len ∧ q = ((h.at_ q').children.arr, j)
  | [], j, p, q, hq => by
    rw [List.nil_append, slotAt] at hq
    split at hq
    · rename_i hj
      simp only [slotAt, Option.some.injEq] at hq
      exact ⟨p, rfl, hj, hq.symm⟩
    · cases hq
  | i :: π, j, p, q, hq => by
    rw [List.cons_append, slotAt] at hq
    split at hq
    · rename_i hi
      obtain ⟨q', h1, h2⟩ := slotAt_last π j _ q hq
      exact ⟨q', by rw [slotAt, if_pos hi, h1], h2⟩
    · cases hq

/-- The layers of a document have different numbers. -/
def UniqueDoc (layers : List (LTree LayerRec)) : Prop :=
  ∀ π π' l l' kids kids', docAt layers π = some (.node l kids) → docAt layers π' = some (.node l' kids') → l.seqID = l'.seqID → π = π'

/-- A new tree meets the conditions of `C55_clone`. -/
theorem newTree_clonable (grow : Nat → Nat) (dec : List UInt8 → Option (List UInt8)) (fuel : Nat) (layers : List (LTree LayerRec)) (hf : depthAll layers ≤ fuel)
    (hu : UniqueDoc layers) :
    (∀ π q, slotAt (newTree grow dec fuel layers) rootPtr π = some q → π.length < fuel + 1 ∧ q.1 < (newTree grow dec fuel layers).next) ∧
    UniqueIDs (newTree grow dec fuel layers) rootPtr ∧ LinksInside (newTree grow dec fuel layers) rootPtr := by
  obtain ⟨A, F, h1, _, h3, h4, h5, h6, h7, h8, h9, h10⟩ := newTree_spec grow dec fuel layers hf
  obtain ⟨A', hA', hp⟩ := newTree_path grow dec fuel layers hf
  have hslot : ∀ i π q, slotAt (newTree grow dec fuel layers) rootPtr (i :: π) = some q → ∃ l kids, docAt layers (i :: π) = some (.node l kids) ∧
      ((newTree grow dec fuel layers).at_ q).attr = attrOf dec l ∧ q.1 < (newTree grow dec fuel layers).next := by
    intro i π q hq
    have := hp i π
    cases hs : docAt layers (i :: π) with
    | none =>
      simp only [hs] at this
      rw [hq] at this
      cases this
    | some t =>
      simp only [hs] at this
      obtain ⟨q', pp', F', d1, d2, d3, _⟩ := this
      rw [hq] at d1
      injection d1 with d1
      subst d1
      cases t with
      | node l kids =>
        unfold Built at d2
        exact ⟨l, kids, rfl, d2.2.2.1, hA' _ d2.1⟩
  refine ⟨?_, ?_, ?_⟩
  · intro π q hq
    cases π with
    | nil =>
      simp only [slotAt, Option.some.injEq] at hq
      rw [← hq]
      exact ⟨Nat.succ_pos _, h9⟩
    | cons i π =>
      obtain ⟨l, kids, d1, d2, d3⟩ := hslot i π q hq
      refine ⟨?_, d3⟩
      rw [docAt] at d1
      cases hk : layers[i]? with
      | none => rw [hk] at d1; cases d1
      | some k =>
        rw [hk] at d1
        have := sub_depthAll layers i k π _ hk d1
        rw [List.length_cons]
        omega
  · intro π π' q q' hq hq' hid
    cases π with
    | nil =>
      cases π' with
      | nil => rfl
      | cons i' π' =>
        obtain ⟨l, kids, d1, d2, d3⟩ := hslot i' π' q' hq'
        simp only [slotAt, Option.some.injEq] at hq
        rw [← hq, h1, d2] at hid
        simp only [rootAttr, attrOf] at hid
        omega
    | cons i π =>
      obtain ⟨l, kids, d1, d2, d3⟩ := hslot i π q hq
      cases π' with
      | nil =>
        simp only [slotAt, Option.some.injEq] at hq'
        rw [← hq', h1, d2] at hid
        simp only [rootAttr, attrOf] at hid
        omega
      | cons i' π' =>
        obtain ⟨l', kids', d1', d2', d3'⟩ := hslot i' π' q' hq'
        rw [d2, d2'] at hid
        simp only [attrOf] at hid
        exact hu _ _ l l' kids kids' d1 d1' (by omega)
  · intro π q hq
    rcases List.eq_nil_or_concat π with e | ⟨π, j, e⟩
    · subst e
      simp only [slotAt, Option.some.injEq] at hq
      rw [← hq, h7, h8]
      exact ⟨fun c hc => (by cases hc), fun b hb => (by cases hb)⟩
    · rw [List.concat_eq_append] at e
      subst e
      obtain ⟨q', e1, e2, e3⟩ := slotAt_last π j _ q hq
      subst e3
      have ok := C53_clipping_groups grow dec fuel layers hf π q' e1 j e2
      have sib : ∀ k, k < ((newTree grow dec fuel layers).at_ q').children.len →
          slotAt (newTree grow dec fuel layers) rootPtr (π ++ [k]) = some (((newTree grow dec fuel layers).at_ q').children.arr, k) := by
        intro k hk
        rw [slotAt_append π _ q' [k] e1, slotAt_child hk, slotAt]
      refine ⟨fun c hc => ?_, fun b hb => ?_⟩
      · rw [ok.2.2] at hc
        obtain ⟨k, hk, rfl⟩ := List.mem_map.1 hc
        have hk := List.mem_range.1 (List.mem_filter.1 hk).1
        exact ⟨π ++ [k], _, rfl, sib k hk⟩
      · by_cases hex : ∃ b, IsBase (fun k => ((newTree grow dec fuel layers).at_ (((newTree grow dec fuel layers).at_ q').children.arr, k)).attr.clipping) b j
        · obtain ⟨b', hb'⟩ := hex
          rw [ok.1 b' hb'] at hb
          injection hb with hb
          rw [← hb]
          have := hb'.1
          exact ⟨π ++ [b'], sib b' (by omega)⟩
        · rw [ok.2.1 (fun b hb => hex ⟨b, hb⟩)] at hb
          cases hb

/-- Sequence IDs in `exCDoc` are unique. -/
theorem exCDoc_unique : UniqueDoc exCDoc := by
  intro π π' l l' kids kids' h h' e
  have key : ∀ π t, docAt exCDoc π = some t → (π = [0] ∧ t = exCLayer 0 false [exCLayer 1 false []]) ∨ (π = [0, 0] ∧ t = exCLayer 1 false []) ∨
      (π = [1] ∧ t = exCLayer 2 true []) := by
    intro π t ht
    match π with
    | [] => cases ht
    | [0] => injection ht with ht; exact Or.inl ⟨rfl, ht.symm⟩
    | [1] => injection ht with ht; exact Or.inr (Or.inr ⟨rfl, ht.symm⟩)
    | [0, 0] => injection ht with ht; exact Or.inr (Or.inl ⟨rfl, ht.symm⟩)
    | 0 :: 0 :: i :: π => cases ht
    | 0 :: (i + 1) :: π => cases ht
    | 1 :: i :: π => cases ht
    | (i + 2) :: π => cases ht
  rcases key π _ h with ⟨rfl, h1⟩ | ⟨rfl, h1⟩ | ⟨rfl, h1⟩ <;> rcases key π' _ h' with ⟨rfl, h2⟩ | ⟨rfl, h2⟩ | ⟨rfl, h2⟩ <;>
    first
    | rfl
    | (injection h1 with h1 _; injection h2 with h2 _; rw [h1, h2] at e; cases e)

/-- The hypotheses are met by `exCDoc`. -/
example : UniqueIDs (newTree (fun _ => 0) some 2 exCDoc) rootPtr := (newTree_clonable _ _ _ _ (by decide) exCDoc_unique).2.1

/-- After cloning `exCDoc` the layer in the folder has the live folder as its parent and the clipping layer the copied base. -/
example :
    let h := newTree (fun _ => 0) some 2 exCDoc
    let c := cloneTree 3 rootPtr h
    slotAt c.1 c.2 [0] = some (6, 0) ∧ slotAt c.1 c.2 [0, 0] = some (7, 0) ∧ (c.1.at_ (7, 0)).parent = some (6, 0) ∧
      (c.1.at_ (6, 1)).clippedBy = some (6, 0) ∧ (c.1.at_ (6, 0)).clip = [some (6, 1)] := by
  decide +kernel

end Psd
