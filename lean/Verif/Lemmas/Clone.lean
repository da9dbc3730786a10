import Verif.Lemmas.CTree

/-!
# Cloning a layer tree
-/

namespace Psd

/-- The layers below `p` are nested less than `f` deep and all in arrays that exist. -/
def Fits (h0 : CHeap) : Nat → Ptr → Prop
  | 0, _ => False
  | f + 1, p => p.1 < h0.next ∧ ∀ i, i < (h0.at_ p).children.len → Fits h0 f ((h0.at_ p).children.arr, i)

/-- Some layer below `p` has this number. -/
def HasID (h0 : CHeap) (p : Ptr) (id : Int) : Prop := ∃ π q, slotAt h0 p π = some q ∧ (h0.at_ q).attr.seqID = id

theorem slotAt_child {h : CHeap} {p : Ptr} {i : Nat} (hi : i < (h.at_ p).children.len) (π : List Nat) :
    slotAt h p (i :: π) = slotAt h ((h.at_ p).children.arr, i) π := by rw [slotAt, if_pos hi]

theorem UniqueIDs.child {h : CHeap} {p : Ptr} (u : UniqueIDs h p) {i : Nat} (hi : i < (h.at_ p).children.len) :
    UniqueIDs h ((h.at_ p).children.arr, i) := by
  intro π π' q q' h1 h2 h3
  have := u (i :: π) (i :: π') q q' (by rw [slotAt_child hi, h1]) (by rw [slotAt_child hi, h2]) h3
  injection this

theorem UniqueIDs.root {h : CHeap} {p : Ptr} (u : UniqueIDs h p) {i : Nat} (hi : i < (h.at_ p).children.len) :
    ¬HasID h ((h.at_ p).children.arr, i) (h.at_ p).attr.seqID := by
  rintro ⟨π, q, h1, h2⟩
  have := u (i :: π) [] q p (by rw [slotAt_child hi, h1]) rfl h2
  cases this

theorem UniqueIDs.apart {h : CHeap} {p : Ptr} (u : UniqueIDs h p) {i j : Nat} (hi : i < (h.at_ p).children.len) (hj : j < (h.at_ p).children.len)
    (hij : i ≠ j) (id : Int) (h1 : HasID h ((h.at_ p).children.arr, i) id) : ¬HasID h ((h.at_ p).children.arr, j) id := by
  rintro ⟨π', q', h3, h4⟩
  obtain ⟨π, q, h1, h2⟩ := h1
  have := u (i :: π) (j :: π') q q' (by rw [slotAt_child hi, h1]) (by rw [slotAt_child hj, h3]) (by rw [h2, h4])
  injection this with h5 _
  exact hij h5

/-- `d` holds a copy of the tree at `s`, whose links still lead to the original, with its descendants in arrays from `lo` to `hi`. -/
def Copy (h0 h : CHeap) (lo hi : Nat) : Nat → Ptr → Ptr → Prop
  | 0, _, _ => False
  | f + 1, s, d => (h.at_ d).attr = (h0.at_ s).attr ∧ (h.at_ d).clip = (h0.at_ s).clip ∧ (h.at_ d).clippedBy = (h0.at_ s).clippedBy ∧
    (h.at_ d).children.len = (h0.at_ s).children.len ∧ (lo ≤ (h.at_ d).children.arr ∧ (h.at_ d).children.arr < hi) ∧
    ∀ i, i < (h0.at_ s).children.len → (h.at_ ((h.at_ d).children.arr, i)).parent = some d ∧
      Copy h0 h lo hi f ((h0.at_ s).children.arr, i) ((h.at_ d).children.arr, i)

theorem Copy.frame {h0 h h' : CHeap} {lo hi lo' hi' : Nat} (hlo : lo' ≤ lo) (hhi : hi ≤ hi') : ∀ (f : Nat) (s d : Ptr), Copy h0 h lo hi f s d →
    (∀ q, lo ≤ q.1 → q.1 < hi → h'.at_ q = h.at_ q) → { h'.at_ d with parent := none } = { h.at_ d with parent := none } → Copy h0 h' lo' hi' f s d
  | 0, _, _, hc, _, _ => by cases hc
  | f + 1, s, d, hc, hf, hd => by
    unfold Copy at hc ⊢
    obtain ⟨c1, c2, c3, c4, c5, c6⟩ := hc
    simp only [CLayer.mk.injEq, true_and] at hd
    obtain ⟨d1, d2, d3, d4⟩ := hd
    rw [d1, d2, d3, d4]
    refine ⟨c1, c2, c3, c4, ⟨by omega, by omega⟩, fun i hi => ?_⟩
    have e : h'.at_ ((h.at_ d).children.arr, i) = h.at_ ((h.at_ d).children.arr, i) := hf _ c5.1 c5.2
    refine ⟨by rw [e]; exact (c6 i hi).1, Copy.frame hlo hhi f _ _ (c6 i hi).2 hf (by rw [e])⟩

/-- The map takes the number of every layer below `s` to its copy. -/
def Mapped (h0 h : CHeap) (cl : CloneMap) : Nat → Ptr → Ptr → Prop
  | 0, _, _ => False
  | f + 1, s, d => cl (h0.at_ s).attr.seqID = some d ∧
    ∀ i, i < (h0.at_ s).children.len → Mapped h0 h cl f ((h0.at_ s).children.arr, i) ((h.at_ d).children.arr, i)

theorem Mapped.frame {h0 h h' : CHeap} {cl cl' : CloneMap} {lo hi : Nat} : ∀ (f : Nat) (s d : Ptr), Copy h0 h lo hi f s d → Mapped h0 h cl f s d →
    (∀ q, lo ≤ q.1 → q.1 < hi → h'.at_ q = h.at_ q) → (h'.at_ d).children = (h.at_ d).children → (∀ id, HasID h0 s id → cl' id = cl id) →
    Mapped h0 h' cl' f s d
  | 0, _, _, hc, _, _, _, _ => by cases hc
  | f + 1, s, d, hc, hm, hf, hd, hcl => by
    unfold Copy at hc
    unfold Mapped at hm ⊢
    obtain ⟨c1, c2, c3, c4, c5, c6⟩ := hc
    refine ⟨by rw [hcl _ ⟨[], s, rfl, rfl⟩]; exact hm.1, fun i hi => ?_⟩
    rw [hd]
    have e : h'.at_ ((h.at_ d).children.arr, i) = h.at_ ((h.at_ d).children.arr, i) := hf _ c5.1 c5.2
    refine Mapped.frame f _ _ (c6 i hi).2 (hm.2 i hi) hf (by rw [e]) ?_
    rintro id ⟨π, q, h1, h2⟩
    exact hcl id ⟨i :: π, q, by rw [slotAt_child hi, h1], h2⟩

structure CloneSpec (h0 : CHeap) (f : Nat) (s d : Ptr) (h h1 : CHeap) (cl cl1 : CloneMap) : Prop where
  next : h.next ≤ h1.next
  frame : ∀ q, q.1 < h.next → q ≠ d → h1.at_ q = h.at_ q
  parent : (h1.at_ d).parent = (h0.at_ s).parent
  copy : Copy h0 h1 h.next h1.next f s d
  mapped : Mapped h0 h1 cl1 f s d
  other : ∀ id, ¬HasID h0 s id → cl1 id = cl id

/-- `cloneLayer` with this fuel does what it should. -/
def CloneOk (h0 : CHeap) (f : Nat) : Prop :=
  ∀ (s d : Ptr) (h : CHeap) (cl : CloneMap), Fits h0 f s → UniqueIDs h0 s → h0.next ≤ d.1 → d.1 < h.next → (∀ q, q.1 < h0.next → h.at_ q = h0.at_ q) →
    ∃ h1 cl1, cloneLayer f s d (h, cl) = (h1, cl1) ∧ CloneSpec h0 f s d h h1 cl cl1

/-- The loop over the children, before the child `i`. -/
structure CloneInv (h0 : CHeap) (f : Nat) (s d : Ptr) (arr : Nat) (base : CHeap) (h : CHeap) (cl0 cl : CloneMap) (i : Nat) : Prop where
  arrLt : arr < h.next
  arrNe : arr ≠ d.1
  arrLo : base.next ≤ arr
  next : base.next ≤ h.next
  frame : ∀ q, q.1 < base.next → q ≠ d → h.at_ q = base.at_ q
  self : h.at_ d = { h0.at_ s with children := ⟨arr, (h0.at_ s).children.len, (h0.at_ s).children.len⟩ }
  selfID : cl (h0.at_ s).attr.seqID = some d
  kids : ∀ j, j < i → (h.at_ (arr, j)).parent = some d ∧ Copy h0 h (arr + 1) h.next f ((h0.at_ s).children.arr, j) (arr, j) ∧
    Mapped h0 h cl f ((h0.at_ s).children.arr, j) (arr, j)
  other : ∀ id, ¬HasID h0 s id → cl id = cl0 id

theorem cloneKids_spec (h0 : CHeap) (f : Nat) (IH : CloneOk h0 f) (s d : Ptr) (arr : Nat) (base : CHeap) (cl0 : CloneMap) (hs : s.1 < h0.next)
    (hk : ∀ i, i < (h0.at_ s).children.len → Fits h0 f ((h0.at_ s).children.arr, i)) (hu : UniqueIDs h0 s) (hd : h0.next ≤ d.1) (hdb : d.1 < base.next)
    (hbase : ∀ q, q.1 < h0.next → base.at_ q = h0.at_ q) :
    ∀ (n i : Nat) (h : CHeap) (cl : CloneMap), i + n = (h0.at_ s).children.len → CloneInv h0 f s d arr base h cl0 cl i →
      ∃ h1 cl1, cloneKids (cloneLayer f) s d n i (h, cl) = (h1, cl1) ∧ CloneInv h0 f s d arr base h1 cl0 cl1 (h0.at_ s).children.len
  | 0, i, h, cl, hn, inv => by
    rw [Nat.add_zero] at hn
    subst hn
    exact ⟨h, cl, rfl, inv⟩
  | n + 1, i, h, cl, hn, inv => by
    have hi : i < (h0.at_ s).children.len := by omega
    have hlo : h0.next ≤ base.next := by omega
    have hagree : ∀ q, q.1 < h0.next → h.at_ q = h0.at_ q := by
      intro q hq
      rw [inv.frame q (by omega) (fun e => by rw [e] at hq; omega), hbase q hq]
    have es : h.at_ s = h0.at_ s := hagree s hs
    have ed : (h.at_ d).children.arr = arr := by rw [inv.self]
    obtain ⟨h1, cl1, e1, sp⟩ := IH ((h0.at_ s).children.arr, i) (arr, i) h cl (hk i hi) (hu.child hi) (by show h0.next ≤ arr; have := inv.arrLo; omega) inv.arrLt hagree
    have ned : d ≠ (arr, i) := fun e => inv.arrNe (by rw [e])
    have hdn : d.1 < h.next := by have := inv.next; omega
    have ed1 : h1.at_ d = h.at_ d := sp.frame d hdn ned
    have hnx := sp.next
    have hal := inv.arrLt
    obtain ⟨h2, eh2⟩ : ∃ h2, h1.set (arr, i) { h1.at_ (arr, i) with parent := some d } = h2 := ⟨_, rfl⟩
    have at2 : ∀ q, q ≠ (arr, i) → h2.at_ q = h1.at_ q := fun q hq => by rw [← eh2, CHeap.set_at, if_neg hq]
    have at2i : h2.at_ (arr, i) = { h1.at_ (arr, i) with parent := some d } := by rw [← eh2, CHeap.set_at, if_pos rfl]
    have n2 : h2.next = h1.next := by rw [← eh2]; rfl
    have step : cloneKids (cloneLayer f) s d (n + 1) i (h, cl) = cloneKids (cloneLayer f) s d n (i + 1) (h2, cl1) := by
      rw [cloneKids]
      rw [es, ed, e1]
      dsimp only
      rw [ed1, ed, eh2]
    rw [step]
    have big : ∀ q : Ptr, arr + 1 ≤ q.1 → q ≠ (arr, i) := fun q hq e => by rw [e] at hq; simp only at hq; omega
    refine cloneKids_spec h0 f IH s d arr base cl0 hs hk hu hd hdb hbase n (i + 1) h2 cl1 (by omega) ⟨by omega, inv.arrNe, inv.arrLo, ?_, ?_, ?_, ?_, ?_, ?_⟩
    · have := inv.next; omega
    · intro q hq hqd
      have h3 : q ≠ (arr, i) := fun e => by
        have := inv.arrLo
        rw [e] at hq
        simp only at hq
        omega
      rw [at2 q h3, sp.frame q (by have := inv.next; omega) h3, inv.frame q hq hqd]
    · rw [at2 d ned, ed1, inv.self]
    · rw [sp.other _ (hu.root hi), inv.selfID]
    · intro j hj
      by_cases hji : j = i
      · subst hji
        refine ⟨by rw [at2i], ?_, ?_⟩
        · exact Copy.frame (by omega) (by omega) f _ _ sp.copy (fun q q1 q2 => at2 q (big q (by omega))) (by rw [at2i])
        · exact Mapped.frame f _ _ sp.copy sp.mapped (fun q q1 q2 => at2 q (big q (by omega))) (by rw [at2i]) (fun _ _ => rfl)
      · have hj' : j < i := by omega
        obtain ⟨k1, k2, k3⟩ := inv.kids j hj'
        have hne : ((arr, j) : Ptr) ≠ (arr, i) := fun e => hji (by injection e)
        have ea : h2.at_ (arr, j) = h.at_ (arr, j) := by rw [at2 _ hne, sp.frame _ hal hne]
        have hfr : ∀ q : Ptr, arr + 1 ≤ q.1 → q.1 < h.next → h2.at_ q = h.at_ q := fun q q1 q2 => by rw [at2 q (big q q1), sp.frame q q2 (big q q1)]
        refine ⟨by rw [ea]; exact k1, ?_, ?_⟩
        · exact Copy.frame (Nat.le_refl _) (by omega) f _ _ k2 hfr (by rw [ea])
        · exact Mapped.frame f _ _ k2 k3 hfr (by rw [ea]) (fun id hid => sp.other id (hu.apart (by omega) hi hji id hid))
    · intro id hid
      rw [sp.other id (fun h => hid ?_), inv.other id hid]
      obtain ⟨π, q, h1, h2⟩ := h
      exact ⟨i :: π, q, by rw [slotAt_child hi, h1], h2⟩

theorem cloneLayer_spec (h0 : CHeap) : ∀ f, CloneOk h0 f
  | 0 => by
    intro s d h cl hf
    cases hf
  | f + 1 => by
    intro s d h cl hf hu hd hdn hag
    obtain ⟨hs, hk⟩ := hf
    have es : h.at_ s = h0.at_ s := hag s hs
    have nsd : s ≠ d := fun e => by rw [e] at hs; omega
    obtain ⟨ha, eha⟩ : ∃ ha, h.set d (h0.at_ s) = ha := ⟨_, rfl⟩
    obtain ⟨hb, ehb⟩ : ∃ hb : CHeap, ({ next := h.next + 1, at_ := fun q => if q.1 = h.next then {} else ha.at_ q } : CHeap) = hb := ⟨_, rfl⟩
    have had : ha.at_ d = h0.at_ s := by rw [← eha, CHeap.set_at, if_pos rfl]
    have haq : ∀ q, q ≠ d → ha.at_ q = h.at_ q := fun q hq => by rw [← eha, CHeap.set_at, if_neg hq]
    have has : ha.at_ s = h0.at_ s := by rw [haq s nsd, es]
    have han : ha.next = h.next := by rw [← eha]; rfl
    have hbn : hb.next = h.next + 1 := by rw [← ehb]
    have hbq : ∀ q, q.1 < h.next → hb.at_ q = ha.at_ q := fun q hq => by rw [← ehb]; simp only; rw [if_neg (by omega)]
    obtain ⟨hc, ehc⟩ : ∃ hc, hb.set d { h0.at_ s with children := ⟨h.next, (h0.at_ s).children.len, (h0.at_ s).children.len⟩ } = hc := ⟨_, rfl⟩
    have hcd : hc.at_ d = { h0.at_ s with children := ⟨h.next, (h0.at_ s).children.len, (h0.at_ s).children.len⟩ } := by rw [← ehc, CHeap.set_at, if_pos rfl]
    have hcq : ∀ q, q ≠ d → hc.at_ q = hb.at_ q := fun q hq => by rw [← ehc, CHeap.set_at, if_neg hq]
    have hcn : hc.next = h.next + 1 := by rw [← ehc, CHeap.set_next, hbn]
    obtain ⟨cla, ecla⟩ : ∃ cla : CloneMap, (fun id => if id = (h0.at_ s).attr.seqID then some d else cl id) = cla := ⟨_, rfl⟩
    have eq : cloneLayer (f + 1) s d (h, cl) = cloneKids (cloneLayer f) s d (h0.at_ s).children.len 0 (hc, cla) := by
      rw [cloneLayer]
      dsimp only [CHeap.make]
      rw [es, eha, has, had, han, ehb, if_neg (by omega : d.1 ≠ h.next), ehc, ecla]
    have hfr : ∀ q, q.1 < h.next → q ≠ d → hc.at_ q = h.at_ q := fun q hq hqd => by rw [hcq q hqd, hbq q hq, haq q hqd]
    obtain ⟨h1, cl1, e1, inv⟩ := cloneKids_spec h0 f (cloneLayer_spec h0 f) s d h.next h cl hs hk hu hd hdn hag (h0.at_ s).children.len 0 hc cla (Nat.zero_add _)
      ⟨by omega, by omega, Nat.le_refl _, by omega, hfr, hcd, by rw [← ecla]; simp, fun j hj => absurd hj (Nat.not_lt_zero _), by
        intro id hid
        rw [← ecla]
        simp only
        rw [if_neg]
        rintro rfl
        exact hid ⟨[], s, rfl, rfl⟩⟩
    refine ⟨h1, cl1, by rw [eq, e1], inv.next, inv.frame, by rw [inv.self], ?_, ?_, inv.other⟩
    · unfold Copy
      rw [inv.self]
      refine ⟨rfl, rfl, rfl, rfl, ⟨Nat.le_refl _, inv.arrLt⟩, fun i hi => ?_⟩
      obtain ⟨k1, k2, k3⟩ := inv.kids i hi
      exact ⟨k1, Copy.frame (by omega) (Nat.le_refl _) f _ _ k2 (fun _ _ _ => rfl) rfl⟩
    · unfold Mapped
      rw [inv.self]
      exact ⟨inv.selfID, fun i hi => (inv.kids i hi).2.2⟩

/-! ### The links -/

theorem Fits.of_paths {h : CHeap} : ∀ (f : Nat) (p : Ptr), (∀ π q, slotAt h p π = some q → π.length < f ∧ q.1 < h.next) → Fits h f p
  | 0, p, hp => absurd (hp [] p rfl).1 (Nat.not_lt_zero _)
  | f + 1, p, hp => by
    refine ⟨(hp [] p rfl).2, fun i hi => Fits.of_paths f _ fun π q hq => ?_⟩
    have := hp (i :: π) q (by rw [slotAt_child hi, hq])
    rw [List.length_cons] at this
    exact ⟨by omega, this.2⟩

theorem Fits.path {h : CHeap} : ∀ (f : Nat) (p : Ptr) (π : List Nat) (q : Ptr), Fits h f p → slotAt h p π = some q → q.1 < h.next
  | 0, _, _, _, hf, _ => by cases hf
  | f + 1, p, [], q, hf, hq => by
    simp only [slotAt, Option.some.injEq] at hq
    rw [← hq]
    exact hf.1
  | f + 1, p, i :: π, q, hf, hq => by
    rw [slotAt] at hq
    split at hq
    · rename_i hi
      exact Fits.path f _ π q (hf.2 i hi) hq
    · cases hq

theorem slotAt_congr {h h' : CHeap} (hc : ∀ q, (h'.at_ q).children = (h.at_ q).children) : ∀ (π : List Nat) (p : Ptr), slotAt h' p π = slotAt h p π
  | [], p => rfl
  | i :: π, p => by
    rw [slotAt, slotAt, hc p]
    split
    · exact slotAt_congr hc π _
    · rfl

theorem slotAt_append {h : CHeap} : ∀ (π : List Nat) (p q : Ptr) (ρ : List Nat), slotAt h p π = some q → slotAt h p (π ++ ρ) = slotAt h q ρ
  | [], p, q, ρ, hq => by
    simp only [slotAt, Option.some.injEq] at hq
    rw [List.nil_append, hq]
  | i :: π, p, q, ρ, hq => by
    rw [slotAt] at hq
    rw [List.cons_append, slotAt]
    split at hq
    · rename_i hi
      rw [if_pos hi]
      exact slotAt_append π _ q ρ hq
    · cases hq

/-- Copies by path. -/
theorem Copy.path {h0 h : CHeap} {lo hi : Nat} {cl : CloneMap} : ∀ (f : Nat) (s d : Ptr) (π : List Nat), Copy h0 h lo hi f s d → Mapped h0 h cl f s d →
    match slotAt h0 s π with
    | some s' => ∃ d' f', slotAt h d π = some d' ∧ Copy h0 h lo hi f' s' d' ∧ (∀ i, i < (h0.at_ s').children.len → (h.at_ ((h.at_ d').children.arr, i)).parent = some d') ∧
        cl (h0.at_ s').attr.seqID = some d' ∧ (π ≠ [] → lo ≤ d'.1 ∧ d'.1 < hi)
    | none => slotAt h d π = none
  | 0, _, _, _, hc, _ => by cases hc
  | f + 1, s, d, [], hc, hm => by
    refine ⟨d, f + 1, rfl, hc, ?_, hm.1, fun h => absurd rfl h⟩
    unfold Copy at hc
    exact fun i hi => (hc.2.2.2.2.2 i hi).1
  | f + 1, s, d, i :: π, hc, hm => by
    unfold Copy at hc
    unfold Mapped at hm
    obtain ⟨c1, c2, c3, c4, c5, c6⟩ := hc
    rw [slotAt, slotAt, c4]
    by_cases hi : i < (h0.at_ s).children.len
    · rw [if_pos hi, if_pos hi]
      have := Copy.path f _ _ π (c6 i hi).2 (hm.2 i hi)
      cases hs : slotAt h0 ((h0.at_ s).children.arr, i) π with
      | none => simpa only [hs] using this
      | some s' =>
        simp only [hs] at this ⊢
        obtain ⟨d', f', d1, d2, d3, d4, d5⟩ := this
        refine ⟨d', f', d1, d2, d3, d4, fun _ => ?_⟩
        cases π with
        | nil =>
          simp only [slotAt, Option.some.injEq] at d1
          rw [← d1]
          exact c5
        | cons => exact d5 (by simp)
    · rw [if_neg hi, if_neg hi]

/-- The links a copy should have: those of the original, looked up in the map. -/
def LinksOf (h0 : CHeap) (cl : CloneMap) (s : Ptr) (l : CLayer) : Prop :=
  l.clip = (h0.at_ s).clip.map (cl.find h0) ∧ l.clippedBy = cl.find h0 (h0.at_ s).clippedBy

/-- `d` is the copy of `s`. -/
def Pair (h0 hC : CHeap) (s0 d0 s d : Ptr) : Prop := ∃ π, slotAt h0 s0 π = some s ∧ slotAt hC d0 π = some d

structure ClipsInv (h0 hC : CHeap) (s0 d0 : Ptr) (h : CHeap) : Prop where
  core : ∀ q, (h.at_ q).core = (hC.at_ q).core
  old : ∀ q, q.1 < h0.next → h.at_ q = h0.at_ q
  free : ∀ s d, Pair h0 hC s0 d0 s d → (h0.at_ s).clippedBy = none → (h.at_ d).clippedBy = none

/-- What is known of the copies before their links are set. -/
structure CopyFacts (h0 hC : CHeap) (s0 d0 : Ptr) : Prop where
  new : ∀ s d, Pair h0 hC s0 d0 s d → h0.next ≤ d.1
  src : ∀ s d, Pair h0 hC s0 d0 s d → s.1 < h0.next
  len : ∀ s d, Pair h0 hC s0 d0 s d → (hC.at_ d).children.len = (h0.at_ s).children.len
  one : ∀ s s' d, Pair h0 hC s0 d0 s d → Pair h0 hC s0 d0 s' d → s = s'
  clipIn : ∀ s d, Pair h0 hC s0 d0 s d → ∀ p, some p ∈ (h0.at_ s).clip → p.1 < h0.next
  baseIn : ∀ s d, Pair h0 hC s0 d0 s d → ∀ p, (h0.at_ s).clippedBy = some p → p.1 < h0.next

theorem CloneMap.find_congr (cl : CloneMap) {h h' : CHeap} {p : Option Ptr} (e : ∀ q, p = some q → h'.at_ q = h.at_ q) : cl.find h' p = cl.find h p := by
  cases p with
  | none => rfl
  | some q => rw [CloneMap.find, CloneMap.find, e q rfl]

structure ClipsSpec (h0 hC : CHeap) (cl : CloneMap) (s0 d0 : Ptr) (s d : Ptr) (h h' : CHeap) : Prop where
  next : h'.next = h.next
  inv : ClipsInv h0 hC s0 d0 h'
  done : ∀ π s' d', slotAt h0 s π = some s' → slotAt hC d π = some d' → LinksOf h0 cl s' (h'.at_ d')
  keep : ∀ s' d', Pair h0 hC s0 d0 s' d' → LinksOf h0 cl s' (h.at_ d') → LinksOf h0 cl s' (h'.at_ d')

theorem Pair.child {h0 hC : CHeap} {s0 d0 s d : Ptr} (p : Pair h0 hC s0 d0 s d) {i : Nat} (hs : i < (h0.at_ s).children.len) (hd : i < (hC.at_ d).children.len) :
    Pair h0 hC s0 d0 ((h0.at_ s).children.arr, i) ((hC.at_ d).children.arr, i) := by
  obtain ⟨π, h1, h2⟩ := p
  refine ⟨π ++ [i], ?_, ?_⟩
  · rw [slotAt_append π s0 s [i] h1, slotAt_child hs, slotAt]
  · rw [slotAt_append π d0 d [i] h2, slotAt_child hd, slotAt]

theorem cloneClipKids_spec (h0 hC : CHeap) (cl : CloneMap) (s0 d0 : Ptr) (f : Nat) (facts : CopyFacts h0 hC s0 d0)
    (IH : ∀ s d h, Fits h0 f s → Pair h0 hC s0 d0 s d → ClipsInv h0 hC s0 d0 h → ClipsSpec h0 hC cl s0 d0 s d h (cloneClips f cl s d h))
    (s d : Ptr) (hp : Pair h0 hC s0 d0 s d) (hk : ∀ i, i < (h0.at_ s).children.len → Fits h0 f ((h0.at_ s).children.arr, i)) :
    ∀ (n i : Nat) (h : CHeap), i + n = (h0.at_ s).children.len → ClipsInv h0 hC s0 d0 h →
      (cloneClipKids (cloneClips f cl) s d n i h).next = h.next ∧ ClipsInv h0 hC s0 d0 (cloneClipKids (cloneClips f cl) s d n i h) ∧
      (∀ j, i ≤ j → j < (h0.at_ s).children.len → ∀ π s' d', slotAt h0 ((h0.at_ s).children.arr, j) π = some s' → slotAt hC ((hC.at_ d).children.arr, j) π = some d' →
        LinksOf h0 cl s' ((cloneClipKids (cloneClips f cl) s d n i h).at_ d')) ∧
      ∀ s' d', Pair h0 hC s0 d0 s' d' → LinksOf h0 cl s' (h.at_ d') → LinksOf h0 cl s' ((cloneClipKids (cloneClips f cl) s d n i h).at_ d')
  | 0, i, h, hn, inv => by
    rw [cloneClipKids]
    exact ⟨rfl, inv, fun j h1 h2 => absurd h1 (by omega), fun _ _ _ h => h⟩
  | n + 1, i, h, hn, inv => by
    have hi : i < (h0.at_ s).children.len := by omega
    have hid : i < (hC.at_ d).children.len := by rw [facts.len s d hp]; exact hi
    have es : h.at_ s = h0.at_ s := inv.old s (facts.src s d hp)
    have ed : (h.at_ d).children = (hC.at_ d).children := (CLayer.core_eq (inv.core d)).2.2
    have pc := hp.child hi hid
    obtain ⟨h1, eh1⟩ : ∃ h1, cloneClips f cl ((h0.at_ s).children.arr, i) ((hC.at_ d).children.arr, i) h = h1 := ⟨_, rfl⟩
    have sp := IH _ _ h (hk i hi) pc inv
    rw [eh1] at sp
    have step : cloneClipKids (cloneClips f cl) s d (n + 1) i h = cloneClipKids (cloneClips f cl) s d n (i + 1) h1 := by
      rw [cloneClipKids, es, ed, eh1]
    rw [step]
    obtain ⟨r1, r2, r3, r4⟩ := cloneClipKids_spec h0 hC cl s0 d0 f facts IH s d hp hk n (i + 1) h1 (by omega) sp.inv
    refine ⟨by rw [r1, sp.next], r2, ?_, fun s' d' hp' hl => r4 s' d' hp' (sp.keep s' d' hp' hl)⟩
    intro j j1 j2 π s' d' hs' hd'
    by_cases hj : j = i
    · subst hj
      refine r4 s' d' ?_ (sp.done π s' d' hs' hd')
      obtain ⟨ρ, p1, p2⟩ := pc
      exact ⟨ρ ++ π, by rw [slotAt_append ρ _ _ π p1, hs'], by rw [slotAt_append ρ _ _ π p2, hd']⟩
    · exact r3 j (by omega) j2 π s' d' hs' hd'

theorem cloneClips_spec (h0 hC : CHeap) (cl : CloneMap) (s0 d0 : Ptr) (facts : CopyFacts h0 hC s0 d0) : ∀ (f : Nat) (s d : Ptr) (h : CHeap), Fits h0 f s →
    Pair h0 hC s0 d0 s d → ClipsInv h0 hC s0 d0 h → ClipsSpec h0 hC cl s0 d0 s d h (cloneClips f cl s d h)
  | 0, _, _, _, hf, _, _ => by cases hf
  | f + 1, s, d, h, hf, hp, inv => by
    obtain ⟨hs, hk⟩ := hf
    have hd := facts.new s d hp
    have nsd : s ≠ d := fun e => by rw [e] at hs; omega
    have es : h.at_ s = h0.at_ s := inv.old s hs
    obtain ⟨h1, eh1⟩ : ∃ h1, h.set d { h.at_ d with clip := (h0.at_ s).clip.map (cl.find h0) } = h1 := ⟨_, rfl⟩
    have at1d : h1.at_ d = { h.at_ d with clip := (h0.at_ s).clip.map (cl.find h0) } := by rw [← eh1, CHeap.set_at, if_pos rfl]
    have at1 : ∀ q, q ≠ d → h1.at_ q = h.at_ q := fun q hq => by rw [← eh1, CHeap.set_at, if_neg hq]
    have es1 : h1.at_ s = h0.at_ s := by rw [at1 s nsd, es]
    have emap : (h0.at_ s).clip.map (cl.find h) = (h0.at_ s).clip.map (cl.find h0) := by
      apply List.map_congr_left
      intro p hp'
      refine cl.find_congr fun q hq => inv.old q (facts.clipIn s d hp q ?_)
      rw [← hq]
      exact hp'
    obtain ⟨h2, eh2⟩ : ∃ h2, cloneBase cl d (h0.at_ s).clippedBy h1 = h2 := ⟨_, rfl⟩
    have links : h2.next = h.next ∧ (∀ q, q ≠ d → h2.at_ q = h.at_ q) ∧ (h2.at_ d).core = (h.at_ d).core ∧ LinksOf h0 cl s (h2.at_ d) := by
      have hn1 : h1.next = h.next := by rw [← eh1]; rfl
      cases hb : (h0.at_ s).clippedBy with
      | none =>
        have eh2 : h1 = h2 := by rw [← eh2, hb]; rfl
        subst eh2
        refine ⟨hn1, at1, by rw [at1d]; rfl, ?_⟩
        rw [LinksOf, at1d, hb]
        exact ⟨rfl, inv.free s d hp hb⟩
      | some b =>
        rw [hb] at eh2
        simp only [cloneBase] at eh2
        have e2d : h2.at_ d = { h1.at_ d with clippedBy := cl.find h1 (some b) } := by rw [← eh2, CHeap.set_at, if_pos rfl]
        refine ⟨by rw [← eh2, CHeap.set_next, hn1], fun q hq => by rw [← eh2, CHeap.set_at, if_neg hq, at1 q hq], by rw [e2d, at1d]; rfl, ?_⟩
        rw [LinksOf, e2d, at1d, hb]
        refine ⟨rfl, ?_⟩
        have hbn := facts.baseIn s d hp b hb
        show cl.find h1 (some b) = cl.find h0 (some b)
        exact cl.find_congr fun q hq => by
          have hq : b = q := by injection hq
          rw [← hq, at1 b (fun e => by rw [e] at hbn; omega), inv.old b hbn]
    obtain ⟨l1, l2, l3, l4⟩ := links
    have ed2 : (h2.at_ d).children.len = (h0.at_ s).children.len := by
      rw [(CLayer.core_eq l3).2.2, (CLayer.core_eq (inv.core d)).2.2, facts.len s d hp]
    have step : cloneClips (f + 1) cl s d h = cloneClipKids (cloneClips f cl) s d (h0.at_ s).children.len 0 h2 := by
      rw [cloneClips]
      dsimp only
      rw [es, emap, eh1, es1, eh2, ed2]
    rw [step]
    have keep2 : ∀ s' d', Pair h0 hC s0 d0 s' d' → LinksOf h0 cl s' (h.at_ d') → LinksOf h0 cl s' (h2.at_ d') := by
      intro s' d' hp' hl
      by_cases e : d' = d
      · subst e
        rw [facts.one s' s d' hp' hp]
        exact l4
      · rw [l2 d' e]
        exact hl
    have inv2 : ClipsInv h0 hC s0 d0 h2 := by
      refine ⟨fun q => ?_, fun q hq => ?_, fun s' d' hp' hb' => ?_⟩
      · by_cases e : q = d
        · rw [e, l3, inv.core d]
        · rw [l2 q e, inv.core q]
      · rw [l2 q (fun e => by rw [e] at hq; omega), inv.old q hq]
      · by_cases e : d' = d
        · subst e
          have := facts.one s' s d' hp' hp
          subst this
          rw [l4.2, hb']
          rfl
        · rw [l2 d' e]
          exact inv.free s' d' hp' hb'
    obtain ⟨r1, r2, r3, r4⟩ := cloneClipKids_spec h0 hC cl s0 d0 f facts (cloneClips_spec h0 hC cl s0 d0 facts f) s d hp hk (h0.at_ s).children.len 0 h2 (Nat.zero_add _) inv2
    refine ⟨by rw [r1, l1], r2, ?_, fun s' d' hp' hl => r4 s' d' hp' (keep2 s' d' hp' hl)⟩
    intro π s' d' hs' hd'
    cases π with
    | nil =>
      simp only [slotAt, Option.some.injEq] at hs' hd'
      subst hs' hd'
      exact r4 _ _ hp l4
    | cons i π =>
      rw [slotAt] at hs' hd'
      split at hs'
      · rename_i hi
        split at hd'
        · exact r3 i (Nat.zero_le _) hi π s' d' hs' hd'
        · cases hd'
      · cases hs'

end Psd
