import Verif.Lemmas.View

/-!
# What marking layers dirty forgets
-/

namespace Psd

section
variable {P M : Type}

/-- The entry at the tile is gone afterwards. -/
def Clears (pt : TPt) (g : RState P → RState P) (id : Int) : Prop := ∀ st, (g st).cached id pt = none

/-- Entries go, and nothing else changes. -/
def Deletes (g : RState P → RState P) : Prop :=
  ∀ st, (∀ id q, (g st).cached id q = none ∨ (g st).cached id q = st.cached id q) ∧ (g st).image = st.image

theorem Deletes.id : Deletes (fun st : RState P => st) := fun _ => ⟨fun _ _ => .inr rfl, rfl⟩

theorem Deletes.comp {g g' : RState P → RState P} (h : Deletes g) (h' : Deletes g') : Deletes (fun st => g' (g st)) := by
  intro st
  refine ⟨fun id q => ?_, (h' _).2.trans (h st).2⟩
  rcases (h' (g st)).1 id q with e | e
  · exact .inl e
  · rw [e]
    exact (h st).1 id q

theorem Clears.before {pt : TPt} {g g' : RState P → RState P} {id : Int} (h : Clears pt g id) (h' : Deletes g') : Clears pt (fun st => g' (g st)) id := by
  intro st
  rcases (h' (g st)).1 id pt with e | e
  · exact e
  · rw [e]
    exact h st

theorem Clears.after {pt : TPt} {g' : RState P → RState P} {id : Int} (h : Clears pt g' id) (g : RState P → RState P) : Clears pt (fun st => g' (g st)) id :=
  fun st => h (g st)

theorem clearArea_deletes (id : Int) (area : List TPt) : Deletes (P := P) (clearArea id area) := by
  intro st
  refine ⟨fun i q => ?_, rfl⟩
  simp only [clearArea]
  split
  · exact .inl rfl
  · exact .inr rfl

theorem clearArea_clears {pt : TPt} {area : List TPt} (h : pt ∈ area) (id : Int) : Clears (P := P) pt (clearArea id area) id := by
  intro st
  simp only [clearArea, h, and_self, if_true]

theorem dirtyPassLoop_deletes {inner : Ptr → RState P → RState P} (hi : ∀ p, Deletes (inner p)) (h : CHeap) (arr : Nat) :
    ∀ n i, Deletes (dirtyPassLoop inner h arr n i) := by
  intro n
  induction n with
  | zero => intro i; exact Deletes.id
  | succ n ih =>
    intro i
    have : Deletes (fun st : RState P => if (h.at_ (arr, i)).attr.blendMode = passThrough then inner (arr, i) st else st) := by
      split
      · exact hi _
      · exact Deletes.id
    exact this.comp (ih (i + 1))

theorem dirtyPassLoop_clears {pt : TPt} {inner : Ptr → RState P → RState P} (hi : ∀ p, Deletes (inner p)) {h : CHeap} {arr k : Nat} {id : Int}
    (hp : (h.at_ (arr, k)).attr.blendMode = passThrough) (hc : Clears pt (inner (arr, k)) id) :
    ∀ n i, i ≤ k → k < i + n → Clears pt (dirtyPassLoop inner h arr n i) id := by
  intro n
  induction n with
  | zero => intro i h1 h2; omega
  | succ n ih =>
    intro i h1 h2
    by_cases hk : k = i
    · subst hk
      intro st
      simp only [dirtyPassLoop, hp, if_true]
      exact hc.before (dirtyPassLoop_deletes hi h arr n (k + 1)) st
    · intro st
      simp only [dirtyPassLoop]
      exact ih (i + 1) (by omega) (by omega) _

theorem dirtyPass_deletes (h : CHeap) (area : List TPt) : ∀ f p, Deletes (P := P) (dirtyPass h area f p) := by
  intro f
  induction f with
  | zero => intro p; exact Deletes.id
  | succ f ih => intro p; exact (clearArea_deletes _ _).comp (dirtyPassLoop_deletes ih _ _ _ _)

theorem dirtyPass_self {h : CHeap} {area : List TPt} {pt : TPt} (ha : pt ∈ area) (f : Nat) (p : Ptr) :
    Clears (P := P) pt (dirtyPass h area (f + 1) p) (h.at_ p).attr.seqID :=
  (clearArea_clears ha _).before (dirtyPassLoop_deletes (dirtyPass_deletes h area f) _ _ _ _)

theorem dirtyPass_kid {h : CHeap} {area : List TPt} {pt : TPt} {f : Nat} {p : Ptr} {k : Nat} {id : Int} (hk : k < (h.at_ p).children.len)
    (hp : (h.at_ ((h.at_ p).children.arr, k)).attr.blendMode = passThrough) (hc : Clears (P := P) pt (dirtyPass h area f ((h.at_ p).children.arr, k)) id) :
    Clears (P := P) pt (dirtyPass h area (f + 1) p) id :=
  (dirtyPassLoop_clears (dirtyPass_deletes h area f) hp hc _ 0 (Nat.zero_le _) (by omega)).after _

/-- The layer that `setDirtyByLayer` goes on with. -/
def Up (h : CHeap) (p q : Ptr) : Prop :=
  ((h.at_ p).attr.clipping = true ∧ (h.at_ p).clippedBy = some q) ∨ ((h.at_ p).attr.clipping = false ∧ (h.at_ p).parent = some q)

/-- The one after `n` steps. -/
def UpN (h : CHeap) : Nat → Ptr → Ptr → Prop
  | 0, p, r => p = r
  | n + 1, p, r => ∃ q, Up h p q ∧ UpN h n q r

theorem UpN.snoc {h : CHeap} : ∀ (n : Nat) (p q r : Ptr), UpN h n p q → Up h q r → UpN h (n + 1) p r := by
  intro n
  induction n with
  | zero => intro p q r e u; cases e; exact ⟨r, u, rfl⟩
  | succ n ih => intro p q r ⟨q', u', e⟩ u; exact ⟨q', u', ih _ _ _ e u⟩

theorem dirtyUp_deletes (h : CHeap) (area : List TPt) (deep : Nat) : ∀ f p, Deletes (P := P) (dirtyUp h area deep f p) := by
  intro f
  induction f with
  | zero => intro p; exact Deletes.id
  | succ f ih =>
    intro p
    intro st
    have hc : Deletes (P := P) (clearArea (h.at_ p).attr.seqID area) := clearArea_deletes _ _
    simp only [dirtyUp]
    split
    · split
      · exact (hc.comp (ih _)) st
      · exact hc st
    · split
      · exact (hc.comp ((dirtyPassLoop_deletes (dirtyPass_deletes h area deep) _ _ _ _).comp (ih _))) st
      · exact hc st

theorem dirtyUp_self {h : CHeap} {area : List TPt} {pt : TPt} (ha : pt ∈ area) (deep f : Nat) (p : Ptr) :
    Clears (P := P) pt (dirtyUp h area deep (f + 1) p) (h.at_ p).attr.seqID := by
  intro st
  have hc : Clears (P := P) pt (clearArea (h.at_ p).attr.seqID area) (h.at_ p).attr.seqID := clearArea_clears ha _
  simp only [dirtyUp]
  split
  · split
    · exact hc.before (dirtyUp_deletes h area deep f _) st
    · exact hc st
  · split
    · exact hc.before ((dirtyPassLoop_deletes (dirtyPass_deletes h area deep) _ _ _ _).comp (dirtyUp_deletes h area deep f _)) st
    · exact hc st

theorem dirtyUp_step {h : CHeap} {area : List TPt} {pt : TPt} {deep f : Nat} {p q : Ptr} {id : Int} (u : Up h p q)
    (hc : Clears (P := P) pt (dirtyUp h area deep f q) id) : Clears (P := P) pt (dirtyUp h area deep (f + 1) p) id := by
  intro st
  simp only [dirtyUp]
  rcases u with ⟨u1, u2⟩ | ⟨u1, u2⟩
  · rw [u1, u2]
    exact hc _
  · rw [u1, u2]
    exact hc _

theorem dirtyUp_siblings {h : CHeap} {area : List TPt} {pt : TPt} {deep f k : Nat} {p q : Ptr} {id : Int} (hcl : (h.at_ p).attr.clipping = false)
    (hpar : (h.at_ p).parent = some q) (hk : k < (h.at_ q).children.len) (hp : (h.at_ ((h.at_ q).children.arr, k)).attr.blendMode = passThrough)
    (hc : Clears (P := P) pt (dirtyPass h area deep ((h.at_ q).children.arr, k)) id) : Clears (P := P) pt (dirtyUp h area deep (f + 1) p) id := by
  intro st
  simp only [dirtyUp]
  rw [hcl, hpar]
  have h1 := dirtyPassLoop_clears (dirtyPass_deletes h area deep) hp hc _ 0 (Nat.zero_le _) (show k < 0 + (h.at_ q).children.len by omega)
  exact (h1.before (dirtyUp_deletes h area deep f q)) _

theorem dirtyUp_upN {h : CHeap} {area : List TPt} {pt : TPt} {deep : Nat} {id : Int} {r : Ptr} {g : Nat} (hc : Clears (P := P) pt (dirtyUp h area deep (g + 1) r) id) :
    ∀ (n : Nat) (p : Ptr), UpN h n p r → Clears (P := P) pt (dirtyUp h area deep (g + 1 + n) p) id := by
  intro n
  induction n with
  | zero => intro p e; cases e; exact hc
  | succ n ih =>
    intro p ⟨q, u, e⟩
    exact dirtyUp_step u (ih q e)

variable {s : Scene P M} {pt : TPt}

/-! ### Tiles of a layer -/

theorem lookup_isSome_mem {α β : Type} [BEq α] [LawfulBEq α] {a : α} : ∀ {l : List (α × β)}, (l.lookup a).isSome = true → a ∈ l.map Prod.fst := by
  intro l
  induction l with
  | nil => intro h; cases h
  | cons x xs ih =>
    intro h
    obtain ⟨k, v⟩ := x
    simp only [List.lookup] at h
    simp only [List.map_cons, List.mem_cons]
    split at h
    · rename_i hk
      exact .inl (eq_of_beq hk)
    · exact .inr (ih h)

theorem areaLoop_next {inner : Ptr → List TPt} {arr : Nat} {pt : TPt} : ∀ m n i, pt ∈ areaLoop inner s arr n (i + m) → pt ∈ areaLoop inner s arr (m + n) i := by
  intro m
  induction m with
  | zero => intro n i h; rw [Nat.zero_add]; exact h
  | succ m ih =>
    intro n i h
    rw [Nat.succ_add]
    simp only [areaLoop]
    refine List.mem_append_right _ (ih n (i + 1) ?_)
    rw [show i + 1 + m = i + (m + 1) by omega]
    exact h

/-- A layer of the tree. -/
def Below (s : Scene P M) (q : Ptr) : Prop := ∃ π, slotAt s.h s.root π = some q

theorem Below.child {q : Ptr} (h : Below s q) {i : Nat} (hi : i < (s.h.at_ q).children.len) : Below s ((s.h.at_ q).children.arr, i) := by
  obtain ⟨π, e⟩ := h
  refine ⟨π ++ [i], ?_⟩
  rw [slotAt_append π s.root q [i] e, slotAt_child hi]
  rfl

theorem pic_of_none {id : Int} (h : s.canvas id = none) : s.pic id pt = none := by
  simp only [Scene.pic, h, Option.bind_none]

theorem area_mem {depth : Nat} (lk : Linked s depth) : ∀ (t : Stk P M) (arr i n : Nat) (q : Ptr), Below s q → (s.h.at_ q).children.arr = arr →
    n ≤ (s.h.at_ q).children.len → View s pt t arr i n → ∀ f, t.depth ≤ f → t.area = true → pt ∈ areaLoop (areaKids s f) s arr (n - i) i := by
  intro t
  induction t with
  | nil => intro arr i n q _ _ _ _ f _ h; cases h
  | layer a pic mask kids clips rest ihk _ ihr =>
    intro arr i n q hb hq hn hv f hf ha
    obtain ⟨j, h1, h2, hat, hpic, hmask, hvk, hvc, hac, hj, hclip, hvr⟩ := hv
    simp only [Stk.depth] at hf
    simp only [Stk.area, Bool.or_eq_true] at ha
    have hi : i < (s.h.at_ q).children.len := by omega
    rcases ha with ha | ha
    · obtain ⟨⟨⟨a1, a2⟩, a3⟩, a4⟩ : ((a.visible = true ∧ (a.opacity != 0) = true) ∧ (!a.clipping) = true) ∧ (if kids.isNil then pic.isSome else kids.area) = true := by
        simpa only [Bool.and_eq_true] using ha
      obtain ⟨m, hm⟩ : ∃ m, n - i = m + 1 := ⟨n - i - 1, by omega⟩
      rw [hm]
      simp only [areaLoop, hat]
      refine List.mem_append_left _ ?_
      rw [if_neg (by simp only [a1, bne_iff_ne, ne_eq] at a2 ⊢; intro h; simp_all)]
      have hb' := hb.child hi
      rw [hq] at hb'
      by_cases hk : kids.isNil = true
      · rw [if_pos hk] at a4
        cases hcv : s.canvas a.seqID with
        | none => rw [pic_of_none hcv] at hpic; rw [← hpic] at a4; cases a4
        | some c =>
          simp only [Scene.pic, hcv, Option.bind_some] at hpic
          rw [← hpic] at a4
          exact lookup_isSome_mem a4
      · rw [if_neg hk] at a4
        have hlen : 0 < (s.h.at_ (arr, i)).children.len := by
          have := Stk.isNil_range hvk
          rw [Nat.sub_zero] at this
          have h0 : ¬ (s.h.at_ (arr, i)).children.len = 0 := fun h => hk (this.2 h)
          omega
        obtain ⟨π, hπ⟩ := hb'
        have hcv := lk.folders π _ hπ hlen
        rw [hat] at hcv
        rw [hcv]
        simp only
        rw [if_pos hlen]
        obtain ⟨g, rfl⟩ : ∃ g, f = g + 1 := ⟨f - 1, by omega⟩
        simp only [areaKids]
        have := ihk _ 0 _ (arr, i) ⟨π, hπ⟩ rfl (Nat.le_refl _) hvk g (by omega) a4
        rw [Nat.sub_zero] at this
        exact this
    · have := ihr arr j n q hb hq hn hvr f (by omega) ha
      have h' := areaLoop_next (inner := areaKids s f) (s := s) (arr := arr) (pt := pt) (j - i) (n - j) i (by rw [show i + (j - i) = j by omega]; exact this)
      rw [show j - i + (n - j) = n - i by omega] at h'
      exact h'

theorem areaMap_mem {depth : Nat} (lk : Linked s depth) {arr i : Nat} {a : CAttr} {pic : Option P} {kids : Stk P M} (hb : Below s (arr, i))
    (hat : (s.h.at_ (arr, i)).attr = a) (hpic : s.pic a.seqID pt = pic)
    (hvk : View s pt kids (s.h.at_ (arr, i)).children.arr 0 (s.h.at_ (arr, i)).children.len) {f : Nat} (hf : kids.depth < f) (ho : ownArea pic kids = true) :
    pt ∈ areaMap s f (arr, i) := by
  unfold ownArea at ho
  simp only [areaMap, hat]
  by_cases hk : kids.isNil = true
  · rw [if_pos hk] at ho
    cases hcv : s.canvas a.seqID with
    | none => rw [pic_of_none hcv] at hpic; rw [← hpic] at ho; cases ho
    | some c =>
      simp only [Scene.pic, hcv, Option.bind_some] at hpic
      rw [← hpic] at ho
      exact lookup_isSome_mem ho
  · rw [if_neg hk] at ho
    have hlen : 0 < (s.h.at_ (arr, i)).children.len := by
      have := Stk.isNil_range hvk
      rw [Nat.sub_zero] at this
      have h0 : ¬ (s.h.at_ (arr, i)).children.len = 0 := fun h => hk (this.2 h)
      omega
    obtain ⟨π, hπ⟩ := hb
    have hcv := lk.folders π _ hπ hlen
    rw [hat] at hcv
    rw [hcv]
    simp only
    rw [if_pos hlen]
    obtain ⟨g, rfl⟩ : ∃ g, f = g + 1 := ⟨f - 1, by omega⟩
    simp only [areaKids]
    have := area_mem lk kids _ 0 _ (arr, i) ⟨π, hπ⟩ rfl (Nat.le_refl _) hvk g (by omega) ho
    rw [Nat.sub_zero] at this
    exact this

/-! ### Every layer in which something changed is reached -/

theorem Below.same {depth : Nat} (ok : TreeOk s depth) {p q : Ptr} (hp : Below s p) (hq : Below s q) (e : (s.h.at_ p).attr.seqID = (s.h.at_ q).attr.seqID) : p = q := by
  obtain ⟨π, hπ⟩ := hp
  obtain ⟨ρ, hρ⟩ := hq
  have := ok.unique _ _ _ _ hπ hρ e
  subst this
  rw [hπ] at hρ
  injection hρ

/-- A layer listed as clipped to another goes on with that. -/
theorem clip_up {arr n i j k : Nat} (ok : ClippingOk s.h arr n)
    (hclip : (s.h.at_ (arr, i)).clip = (List.range' (i + 1) (j - (i + 1))).map (fun k => some (arr, k))) (hi : i < n) (hk1 : i + 1 ≤ k) (hk2 : k < j) :
    Up s.h (arr, k) (arr, i) := by
  have hm : some (arr, k) ∈ (s.h.at_ (arr, i)).clip := by
    rw [hclip, List.mem_map]
    exact ⟨k, by rw [List.mem_range'_1]; omega, rfl⟩
  rw [(ok i hi).2.2, List.mem_map] at hm
  obtain ⟨k', hk', e⟩ := hm
  simp only [Option.some.injEq, Prod.mk.injEq, true_and] at e
  subst e
  simp only [List.mem_filter, List.mem_range, decide_eq_true_eq] at hk'
  refine .inl ⟨hk'.2.2.2 k' (Nat.le_refl _) hk'.2.1, (ok k' hk'.1).1 i hk'.2⟩

theorem aff_reached {depth : Nat} (lk : Linked s depth) {X : List Int} {ps : List Ptr} (hps : ∀ p ∈ ps, Below s p)
    (hX : ∀ id ∈ X, ∃ p ∈ ps, (s.h.at_ p).attr.seqID = id) {f : Nat} :
    ∀ (t : Stk P M) (arr i n : Nat) (q : Ptr), Below s q → (s.h.at_ q).children.arr = arr →
    n ≤ (s.h.at_ q).children.len → View s pt t arr i n → t.depth ≤ f → ∀ forced, t.aff X forced = true →
    ∃ p ∈ ps, ∃ k m, i ≤ k ∧ k < n ∧ m < t.depth ∧ pt ∈ areaMap s f p ∧ UpN s.h m p (arr, k) ∧ (forced = true ∨ (s.h.at_ (arr, k)).attr.clipping = false) := by
  intro t
  induction t with
  | nil => intro arr i n q _ _ _ _ _ forced h; cases h
  | layer a pic mask kids clips rest ihk ihc ihr =>
    intro arr i n q hb hq hn hv hf forced ha
    obtain ⟨j, h1, h2, hat, hpic, hmask, hvk, hvc, hac, hj, hclip, hvr⟩ := hv
    simp only [Stk.depth] at hf
    have hi : i < (s.h.at_ q).children.len := by omega
    have hb' := hb.child hi
    rw [hq] at hb'
    simp only [Stk.aff, Bool.or_eq_true, Bool.and_eq_true] at ha
    rcases ha with ⟨hs, ha⟩ | ha
    · have hfc : forced = true ∨ (s.h.at_ (arr, i)).attr.clipping = false := by
        rcases hs with h | h
        · exact .inl h
        · rw [hat]; exact .inr (by simpa using h)
      rcases ha with (⟨hx, ho⟩ | hk) | hc
      · obtain ⟨p, hp, e⟩ := hX a.seqID (by simpa using hx)
        have : p = (arr, i) := (hps p hp).same lk.toTreeOk hb' (by rw [e, hat])
        subst this
        refine ⟨_, hp, i, 0, Nat.le_refl _, by omega, by simp only [Stk.depth]; omega, ?_, rfl, hfc⟩
        exact areaMap_mem lk hb' hat hpic hvk (by omega) ho
      · obtain ⟨p, hp, k, m, k1, k2, k3, k4, k5, k6⟩ := ihk _ 0 _ (arr, i) hb' rfl (Nat.le_refl _) hvk (by omega) false hk
        refine ⟨p, hp, i, m + 1, Nat.le_refl _, by omega, by simp only [Stk.depth]; omega, k4, ?_, hfc⟩
        refine k5.snoc _ _ _ _ (.inr ⟨?_, ?_⟩)
        · rcases k6 with k6 | k6
          · cases k6
          · exact k6
        · obtain ⟨π, hπ⟩ := hb'
          exact lk.parents π _ hπ k k2
      · obtain ⟨p, hp, k, m, k1, k2, k3, k4, k5, k6⟩ := ihc arr (i + 1) j q hb hq (by omega) hvc (by omega) true hc
        refine ⟨p, hp, i, m + 1, Nat.le_refl _, by omega, by simp only [Stk.depth]; omega, k4, ?_, hfc⟩
        obtain ⟨π, hπ⟩ := hb
        have ok := lk.clipping π q hπ
        rw [hq] at ok
        exact k5.snoc _ _ _ _ (clip_up ok hclip (by omega) k1 k2)
    · obtain ⟨p, hp, k, m, k1, k2, k3, k4, k5, k6⟩ := ihr arr j n q hb hq hn hvr (by omega) forced ha
      exact ⟨p, hp, k, m, by omega, k2, by simp only [Stk.depth]; omega, k4, k5, k6⟩

/-! ### The marks clear what they should -/

/-- Marks made one after another. -/
def setDirties (s : Scene P M) (f : Nat) (ps : List Ptr) (st : RState P) : RState P := ps.foldl (fun st p => setDirty s f p st) st

theorem setDirties_deletes (s : Scene P M) (f : Nat) : ∀ ps, Deletes (setDirties s f ps) := by
  intro ps
  induction ps with
  | nil => exact Deletes.id
  | cons p ps ih => exact (dirtyUp_deletes s.h (areaMap s f p) f f p).comp ih

theorem setDirties_clears {f : Nat} {p : Ptr} {id : Int} (h : Clears pt (dirtyUp (P := P) s.h (areaMap s f p) f f p) id) :
    ∀ ps, p ∈ ps → Clears pt (setDirties s f ps) id := by
  intro ps
  induction ps with
  | nil => intro hp; cases hp
  | cons p' ps ih =>
    intro hp
    rcases List.mem_cons.1 hp with rfl | hp
    · exact h.before (setDirties_deletes s f ps)
    · exact (ih hp).after (dirtyUp s.h (areaMap s f p') f f p')

theorem passCleared_of {C : Int → Option CacheState} {area : List TPt} (hpt : pt ∈ area) : ∀ (t : Stk P M) (arr i n : Nat), View s pt t arr i n → ∀ deep, t.depth ≤ deep →
    (∀ k, i ≤ k → k < n → (s.h.at_ (arr, k)).attr.blendMode = passThrough → ∀ id, Clears (P := P) pt (dirtyPass s.h area deep (arr, k)) id → C id = none) →
    PassCleared C t := by
  intro t
  induction t with
  | nil => intros; trivial
  | layer a pic mask kids clips rest ihk ihc ihr =>
    intro arr i n hv deep hd hC
    obtain ⟨j, h1, h2, hat, hpic, hmask, hvk, hvc, hac, hj, hclip, hvr⟩ := hv
    simp only [Stk.depth] at hd
    refine ⟨fun hp => ?_, ?_, ?_⟩
    · obtain ⟨g, rfl⟩ : ∃ g, deep = g + 1 := ⟨deep - 1, by omega⟩
      refine ⟨?_, ?_⟩
      · have := hC i (Nat.le_refl _) (by omega) (by rw [hat]; exact hp) _ (dirtyPass_self hpt g (arr, i))
        rw [hat] at this
        exact this
      · refine ihk _ 0 _ hvk g (by omega) (fun k _ hk hpk id hc => ?_)
        exact hC i (Nat.le_refl _) (by omega) (by rw [hat]; exact hp) id (dirtyPass_kid hk hpk hc)
    · exact ihc arr (i + 1) j hvc deep (by omega) (fun k k1 k2 hp id hc => hC k (by omega) (by omega) hp id hc)
    · exact ihr arr j n hvr deep (by omega) (fun k k1 k2 hp id hc => hC k (by omega) k2 hp id hc)

/-- The siblings of a layer that is reached. -/
theorem siblings_cleared {f m k : Nat} {p q : Ptr} {ps : List Ptr} {t : Stk P M} (hp : p ∈ ps) (ha : pt ∈ areaMap s f p)
    (hu : UpN s.h m p ((s.h.at_ q).children.arr, k)) (hm : m < f)
    (hcl : (s.h.at_ ((s.h.at_ q).children.arr, k)).attr.clipping = false) (hpar : (s.h.at_ ((s.h.at_ q).children.arr, k)).parent = some q)
    (hv : View s pt t (s.h.at_ q).children.arr 0 (s.h.at_ q).children.len) (hd : t.depth ≤ f) (st : RState P) :
    PassCleared (fun i => (setDirties s f ps st).cached i pt) t := by
  refine passCleared_of ha t _ 0 _ hv f hd (fun k' _ hk' hpass id hc => ?_)
  refine setDirties_clears (p := p) ?_ ps hp st
  have h1 := dirtyUp_siblings (deep := f) (f := f - m - 1) hcl hpar hk' hpass hc
  have h2 := dirtyUp_upN h1 m p hu
  rw [show f - m - 1 + 1 + m = f by omega] at h2
  exact h2

theorem reached_cleared {f m : Nat} {p r : Ptr} {ps : List Ptr} (hp : p ∈ ps) (ha : pt ∈ areaMap s f p) (hu : UpN s.h m p r) (hm : m < f) (st : RState P) :
    (setDirties s f ps st).cached (s.h.at_ r).attr.seqID pt = none := by
  refine setDirties_clears (p := p) ?_ ps hp st
  have h2 := dirtyUp_upN (P := P) (dirtyUp_self ha f (f - m - 1) r) m p hu
  rw [show f - m - 1 + 1 + m = f by omega] at h2
  exact h2

theorem cleared_of {depth : Nat} (lk : Linked s depth) {X : List Int} {ps : List Ptr} (hps : ∀ p ∈ ps, Below s p)
    (hX : ∀ id ∈ X, ∃ p ∈ ps, (s.h.at_ p).attr.seqID = id) {f : Nat} (st : RState P) :
    ∀ (t : Stk P M) (arr i n : Nat) (q : Ptr), Below s q → (s.h.at_ q).children.arr = arr →
    n ≤ (s.h.at_ q).children.len → View s pt t arr i n → t.depth ≤ f → Cleared X (fun i => (setDirties s f ps st).cached i pt) t := by
  intro t
  induction t with
  | nil => intros; trivial
  | layer a pic mask kids clips rest ihk ihc ihr =>
    intro arr i n q hb hq hn hv hf
    have hvl := hv
    obtain ⟨j, h1, h2, hat, hpic, hmask, hvk, hvc, hac, hj, hclip, hvr⟩ := hv
    simp only [Stk.depth] at hf
    have hi : i < (s.h.at_ q).children.len := by omega
    have hb' := hb.child hi
    rw [hq] at hb'
    refine ⟨fun ha => ?_, fun ha => ?_, ihk _ 0 _ (arr, i) hb' rfl (Nat.le_refl _) hvk (by omega), ihc arr (i + 1) j q hb hq (by omega) hvc (by omega),
      ihr arr j n q hb hq hn hvr (by omega)⟩
    · -- the layer alone, as if it were the only one
      have : ∃ p ∈ ps, ∃ m, m < max kids.depth clips.depth + 1 ∧ pt ∈ areaMap s f p ∧ UpN s.h m p (arr, i) := by
        simp only [affOne, Bool.or_eq_true, Bool.and_eq_true] at ha
        rcases ha with (⟨hx, ho⟩ | hk) | hc
        · obtain ⟨p, hp, e⟩ := hX a.seqID (by simpa using hx)
          have : p = (arr, i) := (hps p hp).same lk.toTreeOk hb' (by rw [e, hat])
          subst this
          exact ⟨_, hp, 0, by omega, areaMap_mem lk hb' hat hpic hvk (by omega) ho, rfl⟩
        · obtain ⟨p, hp, k, m, k1, k2, k3, k4, k5, k6⟩ := aff_reached lk hps hX (f := f) kids _ 0 _ (arr, i) hb' rfl (Nat.le_refl _) hvk (by omega) false hk
          refine ⟨p, hp, m + 1, by omega, k4, k5.snoc _ _ _ _ (.inr ⟨?_, ?_⟩)⟩
          · rcases k6 with k6 | k6
            · cases k6
            · exact k6
          · obtain ⟨π, hπ⟩ := hb'
            exact lk.parents π _ hπ k k2
        · obtain ⟨p, hp, k, m, k1, k2, k3, k4, k5, k6⟩ := aff_reached lk hps hX (f := f) clips arr (i + 1) j q hb hq (by omega) hvc (by omega) true hc
          refine ⟨p, hp, m + 1, by omega, k4, ?_⟩
          obtain ⟨π, hπ⟩ := hb
          have ok := lk.clipping π q hπ
          rw [hq] at ok
          exact k5.snoc _ _ _ _ (clip_up ok hclip (by omega) k1 k2)
      obtain ⟨p, hp, m, hm, k4, k5⟩ := this
      have := reached_cleared hp k4 k5 (by omega) st
      rw [hat] at this
      exact this
    · obtain ⟨p, hp, k, m, k1, k2, k3, k4, k5, k6⟩ := aff_reached lk hps hX (f := f) kids _ 0 _ (arr, i) hb' rfl (Nat.le_refl _) hvk (by omega) false ha
      refine siblings_cleared hp k4 k5 (by omega) ?_ ?_ hvk (by omega) st
      · rcases k6 with k6 | k6
        · cases k6
        · exact k6
      · obtain ⟨π, hπ⟩ := hb'
        exact lk.parents π _ hπ k k2

/-- What the marks do to the caches of a tile. -/
theorem setDirties_cleared {depth : Nat} (lk : Linked s depth) {X : List Int} {ps : List Ptr} (hps : ∀ p ∈ ps, Below s p)
    (hX : ∀ id ∈ X, ∃ p ∈ ps, (s.h.at_ p).attr.seqID = id) {f : Nat} (st : RState P) {t : Stk P M} (hv : RootView s pt t) (hd : t.depth < f) :
    Cleared X (fun i => (setDirties s f ps st).cached i pt) t ∧
      (t.aff X false = true → PassCleared (fun i => (setDirties s f ps st).cached i pt) t ∧ (setDirties s f ps st).cached seqIDRoot pt = none) := by
  have hb : Below s s.root := ⟨[], rfl⟩
  refine ⟨cleared_of lk hps hX st t _ 0 _ s.root hb rfl (Nat.le_refl _) hv.1 (by omega), fun ha => ?_⟩
  obtain ⟨p, hp, k, m, k1, k2, k3, k4, k5, k6⟩ := aff_reached lk hps hX t _ 0 _ s.root hb rfl (Nat.le_refl _) hv.1 (f := f) (by omega) false ha
  have k6 : (s.h.at_ ((s.h.at_ s.root).children.arr, k)).attr.clipping = false := by
    rcases k6 with k6 | k6
    · cases k6
    · exact k6
  have hpar := lk.parents [] s.root rfl k k2
  refine ⟨siblings_cleared hp k4 k5 (by omega) k6 hpar hv.1 (by omega) st, ?_⟩
  have := reached_cleared hp k4 (k5.snoc _ _ _ _ (.inr ⟨k6, hpar⟩)) (by omega) st
  rw [lk.rootID] at this
  exact this

/-- Right entries stay right when layers are changed and marked. -/
theorem TileOk.edited {ops : PicOps P M} {depth : Nat} (lk : Linked s depth) {X : List Int} {ps : List Ptr} (hps : ∀ p ∈ ps, Below s p)
    (hX : ∀ id ∈ X, ∃ p ∈ ps, (s.h.at_ p).attr.seqID = id) {f : Nat} {st : RState P} {t t' : Stk P M} (hv : RootView s pt t') (hd : t'.depth < f)
    (he : Edited X t t') (hok : TileOk ops t pt st) : TileOk ops t' pt (setDirties s f ps st) := by
  obtain ⟨hc, ha⟩ := setDirties_cleared lk hps hX st hv hd
  have hdel := setDirties_deletes s f ps st
  refine ⟨?_, ?_⟩
  · rcases hdel.1 seqIDRoot pt with e | e
    · rw [e]; trivial
    · by_cases h : t'.aff X false = true
      · rw [(ha h).2]; trivial
      · have h : t'.aff X false = false := by simpa using h
        rw [e, hdel.2]
        have := hok.1
        simp only [RootOk, (unaffected (ops := ops) t t' he false h).1] at this ⊢
        exact this
  · have := hok.2
    rw [hdel.2]
    refine Coh.edited (C := fun i => st.cached i pt) (fun id => hdel.1 id pt) t t' he false _ _ this hc (fun h => (ha h).1) (.inl rfl) ?_ ?_ <;>
      · intro d h; injection h with h; rw [← h]; rfl

end
end Psd
