import Verif.Lemmas.Dirty
import Verif.Lemmas.PicSim

/-!
# The caches of a renderer that is used are right
-/

namespace Psd

section
variable {P M : Type}

/-- Drawing works for opacities in `Op` and blend modes in `Md`. -/
structure Draws (ops : PicOps P M) (Op : Nat → Prop) (Md : List UInt8 → Prop) : Prop where
  full : Op 255
  scale : ∀ o o', Op o → Op o' → Op (o * (o' * 32897) / 2 ^ 23)
  draw : ∀ o m b x, Op o → o ≠ 0 → Md m → ∃ y, ops.draw o m b x = .ok y

def Stk.supported (Op : Nat → Prop) (Md : List UInt8 → Prop) : Stk P M → Prop
  | .nil => True
  | .layer a _ _ kids clips rest => Op a.opacity ∧ (Md a.blendMode ∨ a.blendMode = passThrough ∧ (clips.isNil || a.blendClippedElements) = true) ∧
      kids.supported Op Md ∧ clips.supported Op Md ∧ rest.supported Op Md

variable {ops : PicOps P M} {Op : Nat → Prop} {Md : List UInt8 → Prop} {s : Scene P M} {pt : TPt}

theorem paint_ok (dr : Draws ops Op Md) : ∀ t : Stk P M, t.supported Op Md → ∀ forced scale b, (∀ o, Op o → Op (scale o)) →
    ∃ r, paint ops t forced scale b = .ok r := by
  intro t
  induction t with
  | nil => intros; exact ⟨_, rfl⟩
  | layer a pic mask kids clips rest ihk ihc ihr =>
    intro hs forced scale b hsc
    obtain ⟨s1, s2, s3, s4, s5⟩ := hs
    rw [paint_layer]
    have : ∃ r, paintLayer ops a pic mask kids clips forced (scale a.opacity) b = .ok r := by
      unfold paintLayer
      split
      · rename_i hsh
        have ho : scale a.opacity ≠ 0 := by
          intro h
          simp [drawn, h] at hsh
        have hop : Op (scale a.opacity) := hsc _ s1
        have hk : ∀ o, Op o → Op (kidScale a (scale a.opacity) o) := by
          intro o h
          unfold kidScale
          split
          · exact dr.scale _ _ h hop
          · exact dr.scale _ _ h dr.full
        have : ∃ r, layerPic ops a pic mask kids clips (scale a.opacity) b = .ok r := by
          unfold layerPic
          have : ∃ r, ownPic ops a pic mask kids.isNil (paint ops kids false) (scale a.opacity) b = .ok r := by
            unfold ownPic
            split
            · exact ⟨_, rfl⟩
            · obtain ⟨r, e⟩ := ihk s3 false (kidScale a (scale a.opacity)) (kidStart ops a b) hk
              rw [e]
              exact ⟨_, rfl⟩
          obtain ⟨r, e⟩ := this
          rw [e]
          cases r with
          | none => exact ⟨_, rfl⟩
          | some buf =>
            simp only [Res.ok_bind, clipPic]
            split
            · exact ⟨_, rfl⟩
            · obtain ⟨r, e⟩ := ihc s4 true id (ops.removeAlpha (ops.copy buf)) (fun o h => h)
              rw [e]
              exact ⟨_, rfl⟩
        obtain ⟨r, e⟩ := this
        rw [e]
        cases r with
        | none => exact ⟨_, rfl⟩
        | some img =>
          simp only [Res.ok_bind, placeOpt, place]
          by_cases hp : a.blendMode = passThrough ∧ (clips.isNil || a.blendClippedElements) = true
          · rw [if_pos hp]
            exact ⟨_, rfl⟩
          · rw [if_neg hp]
            rcases s2 with h | h
            · obtain ⟨y, e⟩ := dr.draw (scale a.opacity) a.blendMode b img hop ho h
              rw [e]
              exact ⟨_, rfl⟩
            · exact absurd h hp
      · exact ⟨_, rfl⟩
    obtain ⟨r, e⟩ := this
    rw [e]
    obtain ⟨r', e'⟩ := ihr s5 forced scale r.2 hsc
    simp only [Res.ok_bind]
    rw [e']
    exact ⟨_, rfl⟩

theorem Stk.supported_of (hsup : Supported Op Md s) : ∀ (t : Stk P M) (arr i n : Nat) (q : Ptr), Below s q → (s.h.at_ q).children.arr = arr →
    n ≤ (s.h.at_ q).children.len → View s pt t arr i n → t.supported Op Md := by
  intro t
  induction t with
  | nil => intros; trivial
  | layer a pic mask kids clips rest ihk ihc ihr =>
    intro arr i n q hb hq hn hv
    obtain ⟨j, h1, h2, hat, hpic, hmask, hvk, hvc, hac, hj, hclip, hvr⟩ := hv
    have hi : i < (s.h.at_ q).children.len := by omega
    obtain ⟨π, hπ⟩ := hb
    have hslot : slotAt s.h s.root (π ++ [i]) = some (arr, i) := by
      rw [slotAt_append π s.root q [i] hπ, slotAt_child hi, hq]
      rfl
    have h := hsup (π ++ [i]) _ (by simp) hslot
    rw [hat] at h
    refine ⟨h.1, ?_, ihk _ 0 _ (arr, i) ⟨_, hslot⟩ rfl (Nat.le_refl _) hvk, ihc arr (i + 1) j q ⟨π, hπ⟩ hq (by omega) hvc, ihr arr j n q ⟨π, hπ⟩ hq hn hvr⟩
    refine h.2.imp id (fun h => ⟨h.1, ?_⟩)
    rw [Bool.or_eq_true]
    refine h.2.imp (fun h => ?_) id
    rw [Stk.isNil_range hvc]
    have : ((s.h.at_ (arr, i)).clip).length = 0 := by rw [h]; rfl
    rw [hclip, List.length_map, List.length_range'] at this
    exact this

/-! ### Changed trees -/

theorem noPass_of_view : ∀ (t : Stk P M) (arr i n : Nat), View s pt t arr i n → (∀ k, i ≤ k → k < n → (s.h.at_ (arr, k)).attr.blendMode ≠ passThrough) → NoPass t := by
  intro t
  induction t with
  | nil => intros; trivial
  | layer a pic mask kids clips rest _ ihc ihr =>
    intro arr i n hv h
    obtain ⟨j, h1, h2, hat, hpic, hmask, hvk, hvc, hac, hj, hclip, hvr⟩ := hv
    refine ⟨?_, ihc arr (i + 1) j hvc (fun k k1 k2 => h k (by omega) (by omega)), ihr arr j n hvr (fun k k1 k2 => h k (by omega) k2)⟩
    rw [← hat]
    exact h i (Nat.le_refl _) (by omega)

theorem edited_view {h' : CHeap} {ps : List Ptr} (ed : EditOk s.h h' s.root ps) : ∀ (t : Stk P M) (arr i n : Nat), View s pt t arr i n →
    ∃ t', View { s with h := h' } pt t' arr i n ∧ Edited (ps.map fun p => (h'.at_ p).attr.seqID) t t' ∧ t'.depth = t.depth ∧ (t.allClipping → t'.allClipping) := by
  intro t
  induction t with
  | nil => intro arr i n hv; exact ⟨.nil, hv, trivial, rfl, id⟩
  | layer a pic mask kids clips rest ihk ihc ihr =>
    intro arr i n hv
    obtain ⟨j, h1, h2, hat, hpic, hmask, hvk, hvc, hac, hj, hclip, hvr⟩ := hv
    have hl := ed.links (arr, i)
    have hf := ed.fixed (arr, i)
    rw [hat] at hf
    obtain ⟨kids', vk, ek, dk, _⟩ := ihk _ 0 _ hvk
    obtain ⟨clips', vc, ec, dc, ac⟩ := ihc arr (i + 1) j hvc
    obtain ⟨rest', vr, er, d3, ar⟩ := ihr arr j n hvr
    refine ⟨.layer (h'.at_ (arr, i)).attr pic mask kids' clips' rest', ⟨j, h1, h2, rfl, ?_, ?_, ?_, vc, ac hac, ?_, ?_, vr⟩, ?_, ?_, ?_⟩
    · rw [hf.1]; exact hpic
    · rw [hf.1]; exact hmask
    · simp only [hl.1]; exact vk
    · rw [hf.2]; exact hj
    · simp only [hl.2.2.1]; exact hclip
    · refine ⟨rfl, rfl, hf.1, hf.2, fun hx => ?_, fun hc => ?_, fun hp hp' => ?_, ek, ec, er⟩
      · rw [← hat]
        refine ed.others _ (fun hm => hx ?_)
        rw [← hf.1]
        exact List.mem_map.2 ⟨(arr, i), hm, rfl⟩
      · rw [ec.isNil, Stk.isNil_range hvc, hj hc, Nat.sub_self]
      · have hm : (arr, i) ∈ ps := by
          apply Classical.byContradiction
          intro hm
          rw [ed.others _ hm, hat] at hp'
          exact hp' hp
        refine noPass_of_view kids' _ 0 _ vk (fun k _ hk => ?_)
        exact ed.pass _ hm (by rw [hat]; exact hp) hp' k hk
    · simp only [Stk.depth, dk, dc, d3]
    · intro h
      exact ⟨hf.2.trans h.1, ar h.2⟩

theorem TreeOk.edited {depth : Nat} {h' : CHeap} {ps : List Ptr} (ed : EditOk s.h h' s.root ps) (ok : TreeOk s depth) : TreeOk { s with h := h' } depth := by
  have hc : ∀ q, (h'.at_ q).children = (s.h.at_ q).children := fun q => (ed.links q).1
  have hs : ∀ π p, slotAt h' p π = slotAt s.h p π := fun π p => slotAt_congr hc π p
  refine ⟨?_, ?_, ?_, ?_⟩
  · intro π q h
    simp only [hs] at h
    exact ok.finite π q h
  · intro π π' q q' h1 h2 e
    simp only [hs] at h1 h2
    rw [(ed.fixed q).1, (ed.fixed q').1] at e
    exact ok.unique π π' q q' h1 h2 e
  · simp only [(ed.fixed s.root).1]
    exact ok.rootID
  · intro π q h j hj
    simp only [hs] at h
    simp only [hc] at hj ⊢
    have := ok.clipping π q h j hj
    simp only [(ed.links _).2.2.1, (ed.links _).2.2.2, (ed.fixed _).2]
    exact this

theorem Linked.edited {depth : Nat} {h' : CHeap} {ps : List Ptr} (ed : EditOk s.h h' s.root ps) (lk : Linked s depth) : Linked { s with h := h' } depth := by
  have hc : ∀ q, (h'.at_ q).children = (s.h.at_ q).children := fun q => (ed.links q).1
  have hs : ∀ π p, slotAt h' p π = slotAt s.h p π := fun π p => slotAt_congr hc π p
  refine ⟨lk.toTreeOk.edited ed, ?_, ?_⟩
  · intro π q h i hi
    simp only [hs] at h
    simp only [hc] at hi ⊢
    simp only [(ed.links _).2.1]
    exact lk.parents π q h i hi
  · intro π q h hl
    simp only [hs] at h
    simp only [hc] at hl
    simp only [(ed.fixed _).1]
    exact lk.folders π q h hl

/-! ### Entries that are gone -/

theorem Coh.less {C C' : Int → Option CacheState} {I : Int → Option P} (hl : Less C' C) : ∀ (t : Stk P M) (forced : Bool) (c : Ctx P),
    Coh ops C I t forced c → Coh ops C' I t forced c := by
  intro t
  induction t with
  | nil => intros; trivial
  | layer a pic mask kids clips rest ihk ihc ihr =>
    intro forced c h
    exact ⟨fun hn => (h.1 hn).less hl, ihk _ _ h.2.1, ihc _ _ h.2.2.1, ihr _ _ h.2.2.2⟩

theorem TileOk.deletes {g : RState P → RState P} (hg : Deletes g) {t : Stk P M} {st : RState P} (h : TileOk ops t pt st) : TileOk ops t pt (g st) := by
  refine ⟨?_, ?_⟩
  · rcases (hg st).1 seqIDRoot pt with e | e
    · rw [e]; trivial
    · rw [e, (hg st).2]
      exact h.1
  · rw [(hg st).2]
    exact h.2.less (fun id => (hg st).1 id pt)

theorem revert_deletes : Deletes (P := P) revert := by
  intro st
  refine ⟨fun id q => ?_, rfl⟩
  simp only [revert]
  split
  · exact .inl rfl
  · exact .inr rfl

theorem TileOk.empty (t : Stk P M) (pt : TPt) : TileOk ops t pt .empty := by
  refine ⟨trivial, ?_⟩
  generalize (some (id, ops.blank) : Ctx P) = c
  generalize false = forced
  induction t generalizing forced c with
  | nil => trivial
  | layer a pic mask kids clips rest ihk ihc ihr => exact ⟨fun _ => .of_none rfl _, ihk _ _, ihc _ _, ihr _ _⟩

/-- All entries at the tile are right. -/
def AtOk (ops : PicOps P M) (s : Scene P M) (depth : Nat) (st : RState P) (pt : TPt) : Prop :=
  ∃ t, RootView s pt t ∧ t.depth ≤ 2 * depth ∧ TileOk ops t pt st

/-- All entries at all tiles are right. -/
def StateOk (ops : PicOps P M) (s : Scene P M) (depth : Nat) (st : RState P) : Prop :=
  ∀ pt, AtOk ops s depth st pt

theorem AtOk.deletes {depth : Nat} {st : RState P} {g : RState P → RState P} (hg : Deletes g) (h : AtOk ops s depth st pt) : AtOk ops s depth (g st) pt := by
  obtain ⟨t, v, d, ok⟩ := h
  exact ⟨t, v, d, ok.deletes hg⟩

theorem StateOk.deletes {depth : Nat} {st : RState P} {g : RState P → RState P} (hg : Deletes g) (h : StateOk ops s depth st) : StateOk ops s depth (g st) :=
  fun pt => (h pt).deletes hg

theorem AtOk.empty {depth : Nat} (ok : TreeOk s depth) (pt : TPt) : AtOk ops s depth .empty pt := by
  obtain ⟨t, v, d⟩ := rootView_exists ok pt
  exact ⟨t, v, d, TileOk.empty t pt⟩

theorem StateOk.empty {depth : Nat} (ok : TreeOk s depth) : StateOk ops s depth .empty := AtOk.empty ok

theorem AtOk.edited {depth fuel : Nat} {h' : CHeap} {ps : List Ptr} (hf : 2 * depth < fuel) (ed : EditOk s.h h' s.root ps) (lk : Linked s depth)
    {st : RState P} (h : AtOk ops s depth st pt) : AtOk ops { s with h := h' } depth (setDirties { s with h := h' } fuel ps st) pt := by
  obtain ⟨t, v, d, ok⟩ := h
  obtain ⟨t', v', e, d', _⟩ := edited_view (pt := pt) ed t _ 0 _ v.1
  have hc : ∀ q, (h'.at_ q).children = (s.h.at_ q).children := fun q => (ed.links q).1
  have lk' := lk.edited ed
  have hv' : View { s with h := h' } pt t' (h'.at_ s.root).children.arr 0 (h'.at_ s.root).children.len := by rw [hc]; exact v'
  have rv : RootView { s with h := h' } pt t' := by
    refine ⟨hv', hv'.nodup t' _ _ _ s.root rfl (Nat.le_refl _) lk'.unique, ?_⟩
    intro hm
    obtain ⟨k, ρ, r, e1, e2, e3, e4⟩ := hv'.ids_slots t' _ _ _ s.root rfl (Nat.le_refl _) _ hm
    have := lk'.unique _ [] _ _ e3 rfl (by rw [e4, lk'.rootID])
    cases this
  refine ⟨t', rv, by omega, ?_⟩
  refine TileOk.edited lk' (X := ps.map fun p => (h'.at_ p).attr.seqID) (fun p hp => ?_) (fun id hid => ?_) rv (by omega) e ok
  · obtain ⟨π, hπ⟩ := ed.layers p hp
    exact ⟨π, by simp only; rw [slotAt_congr hc]; exact hπ⟩
  · obtain ⟨p, hp, e⟩ := List.mem_map.1 hid
    exact ⟨p, hp, e⟩

theorem StateOk.edited {depth fuel : Nat} {h' : CHeap} {ps : List Ptr} (hf : 2 * depth < fuel) (ed : EditOk s.h h' s.root ps) (lk : Linked s depth)
    {st : RState P} (h : StateOk ops s depth st) : StateOk ops { s with h := h' } depth (setDirties { s with h := h' } fuel ps st) :=
  fun pt => (h pt).edited hf ed lk

/-! ### Renders -/

variable {Q N : Type} {opsQ : PicOps Q N} {f : Q → P} {g : N → M}

theorem renderTile_sim (sim : PicSim opsQ ops f g) (ex : ExactOps opsQ) (dr : Draws opsQ Op Md) {s : Scene Q N} (hsup : Supported Op Md s) {depth fuel : Nat}
    (hf : 2 * depth ≤ fuel) {q : RState Q} {p : RState P} (hs : SameState f q p) (hok : StateOk opsQ s depth q) (pt : TPt) :
    ∃ r : Bool × P, (∃ t, RootView s pt t ∧ ∃ r', paint opsQ t false id opsQ.blank = .ok r' ∧ r = (r'.1, f r'.2)) ∧ ∀ diff dest, ∃ p' q',
      renderTile ops (s.map f g) fuel diff pt p dest =
        .ok (p', fun z => if z = pt ∧ (diff = false ∨ p.cached seqIDRoot pt = none) then painted ops (dest z) r else dest z) ∧
      SameState f q' p' ∧ StateOk opsQ s depth q' := by
  obtain ⟨t, v, d, ok⟩ := hok pt
  obtain ⟨⟨dd, b⟩, hp⟩ := paint_ok dr t (Stk.supported_of hsup t _ 0 _ s.root ⟨[], rfl⟩ rfl (Nat.le_refl _) v.1) false id opsQ.blank (fun o h => h)
  refine ⟨(dd, f b), ⟨t, v, _, hp, rfl⟩, fun diff dest => ?_⟩
  obtain ⟨q', md, e, ok', hi, ho, hmd⟩ := updateTile_paint ex v (by omega : t.depth ≤ fuel) ok hp
  obtain ⟨p', e', hs'⟩ := updateTile_sim sim s fuel pt hs e
  refine ⟨p', q', ?_, hs', ?_⟩
  · unfold renderTile
    rw [e']
    simp only [Res.ok_bind, hmd, ← hs.1]
    have hb : ((p.cached seqIDRoot pt).isNone || !diff) = true ↔ (diff = false ∨ p.cached seqIDRoot pt = none) := by
      cases diff <;> simp
    by_cases h : diff = false ∨ p.cached seqIDRoot pt = none
    · rw [if_pos (hb.2 h)]
      simp only [h, and_true]
      cases dd with
      | true =>
        have : p'.image seqIDRoot pt = some (f b) := by rw [hs'.2.2]; simp only [hi rfl, Option.map]
        simp only [if_true, this, painted]
        rw [← sim.copy, ex.copy_id]
      | false => simp only [Bool.false_eq_true, if_false, painted]
    · rw [if_neg (fun h' => h (hb.1 h'))]
      simp only [h, and_false, if_false]
  · intro pt'
    by_cases hpt : pt' = pt
    · subst hpt
      exact ⟨t, v, d, ok'⟩
    · obtain ⟨t', v', d', ok''⟩ := hok pt'
      refine ⟨t', v', d', ?_, ?_⟩
      · have := ho seqIDRoot pt' (fun _ => hpt)
        rw [this.1, this.2]
        exact ok''.1
      · exact ok''.2.congr _ _ _ (fun id _ => ho id pt' (fun _ => hpt))

theorem View.det : ∀ (t t' : Stk P M) (arr i n : Nat), View s pt t arr i n → View s pt t' arr i n → t = t' := by
  intro t
  induction t with
  | nil =>
    intro t' arr i n hv hv'
    cases t' with
    | nil => rfl
    | layer => obtain ⟨j, h1, h2, _⟩ := hv'; cases hv; omega
  | layer a pic mask kids clips rest ihk ihc ihr =>
    intro t' arr i n hv hv'
    cases t' with
    | nil => obtain ⟨j, h1, h2, _⟩ := hv; cases hv'; omega
    | layer a' pic' mask' kids' clips' rest' =>
      obtain ⟨j, h1, h2, rfl, rfl, rfl, hvk, hvc, hac, hj, hclip, hvr⟩ := hv
      obtain ⟨j', h1', h2', rfl, rfl, rfl, hvk', hvc', hac', hj', hclip', hvr'⟩ := hv'
      have : j - (i + 1) = j' - (i + 1) := by
        have : ((s.h.at_ (arr, i)).clip).length = j - (i + 1) := by rw [hclip, List.length_map, List.length_range']
        rw [← this, hclip', List.length_map, List.length_range']
      have : j = j' := by omega
      subst this
      rw [ihk _ _ _ _ hvk hvk', ihc _ _ _ _ hvc hvc', ihr _ _ _ _ hvr hvr']

/-- Two renderers of the same tree whose caches are right render the same. -/
theorem renderTiles_same (sim : PicSim opsQ ops f g) (ex : ExactOps opsQ) (dr : Draws opsQ Op Md) {s : Scene Q N} (hsup : Supported Op Md s) {depth fuel : Nat}
    (hf : 2 * depth ≤ fuel) : ∀ (visited : List TPt) {q1 q2 : RState Q} {p1 p2 : RState P}, SameState f q1 p1 → SameState f q2 p2 → StateOk opsQ s depth q1 →
    StateOk opsQ s depth q2 → ∀ dest, ∃ p1' p2' q1' q2' dest', renderTiles ops (s.map f g) fuel false visited p1 dest = .ok (p1', dest') ∧
      renderTiles ops (s.map f g) fuel false visited p2 dest = .ok (p2', dest') ∧ SameState f q1' p1' ∧ SameState f q2' p2' ∧ StateOk opsQ s depth q1' ∧
      StateOk opsQ s depth q2' := by
  intro visited
  induction visited with
  | nil => intro q1 q2 p1 p2 h1 h2 o1 o2 dest; exact ⟨p1, p2, q1, q2, dest, rfl, rfl, h1, h2, o1, o2⟩
  | cons pt pts ih =>
    intro q1 q2 p1 p2 h1 h2 o1 o2 dest
    obtain ⟨r1, ⟨t1, v1, r1', e1, rfl⟩, k1⟩ := renderTile_sim sim ex dr hsup hf h1 o1 pt
    obtain ⟨r2, ⟨t2, v2, r2', e2, rfl⟩, k2⟩ := renderTile_sim sim ex dr hsup hf h2 o2 pt
    have : t1 = t2 := View.det _ _ _ _ _ v1.1 v2.1
    subst this
    rw [e1] at e2
    simp only [Res.ok.injEq] at e2
    subst e2
    obtain ⟨p1', q1', g1, hs1, ok1⟩ := k1 false dest
    obtain ⟨p2', q2', g2, hs2, ok2⟩ := k2 false dest
    simp only [true_or, and_true] at g1 g2
    obtain ⟨a1, a2, b1, b2, dest', f1, f2, z⟩ := ih hs1 hs2 ok1 ok2 _
    refine ⟨a1, a2, b1, b2, dest', ?_, ?_, z⟩
    · simp only [renderTiles, g1, Res.ok_bind]
      exact f1
    · simp only [renderTiles, g2, Res.ok_bind]
      exact f2

/-! ### Dirty marks on pictures of a smaller kind -/

theorem areaLoop_map (s : Scene Q N) (inner inner' : Ptr → List TPt) (h : inner = inner') (arr : Nat) : ∀ n i, areaLoop inner (s.map f g) arr n i = areaLoop inner' s arr n i := by
  subst h
  intro n
  induction n with
  | zero => intro i; rfl
  | succ n ih =>
    intro i
    simp only [areaLoop, ih]
    congr 1
    simp only [Scene.map]
    cases s.canvas (s.h.at_ (arr, i)).attr.seqID with
    | none => rfl
    | some c => simp only [Option.map_some, List.map_map]; rfl

theorem areaKids_map (s : Scene Q N) : ∀ n, areaKids (s.map f g) n = areaKids s n := by
  intro n
  induction n with
  | zero => rfl
  | succ n ih =>
    funext p
    exact areaLoop_map s _ _ ih _ _ _

theorem areaMap_map (s : Scene Q N) (n : Nat) (p : Ptr) : areaMap (s.map f g) n p = areaMap s n p := by
  unfold areaMap
  rw [areaKids_map]
  simp only [Scene.map]
  cases s.canvas (s.h.at_ p).attr.seqID with
  | none => rfl
  | some c => simp only [Option.map_some, List.map_map]; rfl

theorem clearArea_same (id : Int) (area : List TPt) {q : RState Q} {p : RState P} (h : SameState f q p) :
    SameState f (clearArea id area q) (clearArea id area p) := by
  refine ⟨?_, h.2.1, h.2.2⟩
  simp only [clearArea, h.1]

theorem dirtyPassLoop_same {iq : Ptr → RState Q → RState Q} {ip : Ptr → RState P → RState P}
    (hi : ∀ r q p, SameState f q p → SameState f (iq r q) (ip r p)) (h : CHeap) (arr : Nat) : ∀ n i q p, SameState f q p →
    SameState f (dirtyPassLoop iq h arr n i q) (dirtyPassLoop ip h arr n i p) := by
  intro n
  induction n with
  | zero => intro i q p h; exact h
  | succ n ih =>
    intro i q p hs
    simp only [dirtyPassLoop]
    apply ih
    split
    · exact hi _ _ _ hs
    · exact hs

theorem dirtyPass_same (h : CHeap) (area : List TPt) : ∀ n r q p, SameState f q p → SameState f (dirtyPass h area n r q) (dirtyPass h area n r p) := by
  intro n
  induction n with
  | zero => intro r q p h; exact h
  | succ n ih =>
    intro r q p hs
    exact dirtyPassLoop_same ih h _ _ _ _ _ (clearArea_same _ _ hs)

theorem dirtyUp_same (h : CHeap) (area : List TPt) (deep : Nat) : ∀ n r q p, SameState f q p → SameState f (dirtyUp h area deep n r q) (dirtyUp h area deep n r p) := by
  intro n
  induction n with
  | zero => intro r q p h; exact h
  | succ n ih =>
    intro r q p hs
    simp only [dirtyUp]
    have hc := clearArea_same (h.at_ r).attr.seqID area hs
    split
    · split
      · exact ih _ _ _ hc
      · exact hc
    · split
      · exact ih _ _ _ (dirtyPassLoop_same (dirtyPass_same h area deep) h _ _ _ _ _ hc)
      · exact hc

theorem setDirties_same (s : Scene Q N) (n : Nat) : ∀ ps q p, SameState f q p → SameState f (setDirties s n ps q) (setDirties (s.map f g) n ps p) := by
  intro ps
  induction ps with
  | nil => intro q p h; exact h
  | cons r ps ih =>
    intro q p hs
    refine ih _ _ ?_
    simp only [setDirty, areaMap_map]
    exact dirtyUp_same _ _ _ _ _ _ _ hs

theorem revert_same {q : RState Q} {p : RState P} (h : SameState f q p) : SameState f (revert q) (revert p) := by
  refine ⟨?_, h.2.1, h.2.2⟩
  simp only [revert, h.1, h.2.1]

/-! ### Histories -/

/-- The renderer's tree has pictures of the smaller kind, and all its entries are right. -/
def Good (opsQ : PicOps Q N) (f : Q → P) (g : N → M) (depth : Nat) (s : Scene Q N) (y : RSys P M) : Prop :=
  y.scene = s.map f g ∧ ∃ q, SameState f q y.st ∧ StateOk opsQ s depth q

theorem SameState.empty : SameState f RState.empty RState.empty := ⟨rfl, rfl, rfl⟩

theorem StateOk.changes {depth : Nat} {st : RState P} (h : StateOk ops s depth st) (cs : List (Int × TPt)) : StateOk ops s depth { st with changes := cs } := h

theorem Good.step (sim : PicSim opsQ ops f g) (ex : ExactOps opsQ) (dr : Draws opsQ Op Md) {s : Scene Q N} (hsup : Supported Op Md s) {depth fuel : Nat}
    (hf : 2 * depth ≤ fuel) {y y' : RSys P M} (h : Good opsQ f g depth s y) {ev : REvent P} (hev : ∀ h, ev ≠ .change h) (e : y.step ops fuel ev = .ok y') :
    Good opsQ f g depth s y' := by
  obtain ⟨scene, st, dest, diff, pending⟩ := y
  obtain ⟨rfl, q, hs, ok⟩ := h
  simp only at hs
  cases ev with
  | change h => exact absurd rfl (hev h)
  | start d b =>
    cases pending with
    | some ps => simp only [RSys.step, reduceCtorEq] at e
    | none =>
      simp only [RSys.step, Res.ok.injEq] at e
      subst e
      exact ⟨rfl, { q with changes := [] }, ⟨hs.1, rfl, hs.2.2⟩, ok⟩
  | tile pt =>
    cases pending with
    | none => simp only [RSys.step, reduceCtorEq] at e
    | some ps =>
      simp only [RSys.step] at e
      obtain ⟨r, _, k⟩ := renderTile_sim sim ex dr hsup hf hs ok pt
      obtain ⟨p', q', e', hs', ok'⟩ := k diff dest
      rw [e'] at e
      simp only [Res.ok_bind, Res.ok.injEq] at e
      subst e
      exact ⟨rfl, q', hs', ok'⟩
  | dirty p =>
    cases pending with
    | none =>
      simp only [RSys.step, Res.ok.injEq] at e
      subst e
      exact ⟨rfl, setDirties s fuel [p] q, setDirties_same s fuel [p] q st hs, ok.deletes (setDirties_deletes s fuel [p])⟩
    | some ps =>
      simp only [RSys.step, Res.ok.injEq] at e
      subst e
      exact ⟨rfl, q, hs, ok⟩
  | finish ab =>
    cases pending with
    | none => simp only [RSys.step, reduceCtorEq] at e
    | some ps =>
      simp only [RSys.step, Res.ok.injEq] at e
      subst e
      refine ⟨rfl, setDirties s fuel ps (if ab then revert q else q), setDirties_same s fuel ps _ _ ?_, (StateOk.deletes (setDirties_deletes s fuel ps) ?_)⟩
      · cases ab
        · exact hs
        · exact revert_same hs
      · cases ab
        · exact ok
        · exact StateOk.deletes (g := revert) revert_deletes ok

theorem run_dirties (fuel : Nat) : ∀ (ps : List Ptr) (y y' : RSys P M), y.pending = none → RSys.run ops fuel (ps.map .dirty) y = .ok y' →
    y' = { y with st := setDirties y.scene fuel ps y.st } := by
  intro ps
  induction ps with
  | nil => intro y y' h e; simp only [List.map_nil, RSys.run, Res.ok.injEq] at e; exact e.symm
  | cons p ps ih =>
    intro y y' h e
    obtain ⟨scene, st, dest, diff, pending⟩ := y
    simp only at h
    subst h
    simp only [List.map_cons, RSys.run, RSys.step, Res.ok_bind] at e
    exact ih _ _ rfl e

theorem Good.edit {s : Scene Q N} {depth fuel : Nat} (hf : 2 * depth < fuel) {y y' : RSys P M} (h : Good opsQ f g depth s y) (lk : Linked s depth)
    {h' : CHeap} {ps : List Ptr} (hp : y.pending = none) (ed : EditOk y.scene.h h' y.scene.root ps)
    (e : RSys.run ops fuel (.change h' :: ps.map .dirty) y = .ok y') : Good opsQ f g depth { s with h := h' } y' ∧ Linked { s with h := h' } depth := by
  obtain ⟨scene, st, dest, diff, pending⟩ := y
  obtain ⟨rfl, q, hs, ok⟩ := h
  simp only at hs hp
  simp only [RSys.run, RSys.step, Res.ok_bind] at e
  have := run_dirties fuel ps _ _ hp e
  subst this
  have ed' : EditOk s.h h' s.root ps := ed
  exact ⟨⟨rfl, _, setDirties_same { s with h := h' } fuel ps q st hs, ok.edited hf ed' lk⟩, lk.edited ed'⟩

theorem render_same (sim : PicSim opsQ ops f g) (ex : ExactOps opsQ) (dr : Draws opsQ Op Md) {s : Scene Q N} (hsup : Supported Op Md s) {depth fuel : Nat}
    (hf : 2 * depth ≤ fuel) (ok : TreeOk s depth) {y : RSys P M} (h : Good opsQ f g depth s y) (visited : List TPt) (dest : TPt → P) :
    ∃ st st' dest', render ops y.scene fuel false false visited y.st dest = .ok (st, dest') ∧
      render ops y.scene fuel false false visited .empty dest = .ok (st', dest') := by
  obtain ⟨e, q, hs, h⟩ := h
  have hs' : SameState f { q with changes := [] } { y.st with changes := [] } := ⟨hs.1, rfl, hs.2.2⟩
  obtain ⟨p1, p2, q1, q2, dest', e1, e2, _⟩ := renderTiles_same sim ex dr hsup hf visited hs' SameState.empty (h.changes []) (StateOk.empty ok) dest
  refine ⟨p1, p2, dest', ?_, ?_⟩
  · unfold render
    rw [e, e1]
    rfl
  · unfold render
    rw [e]
    simp only [RState.empty] at e2 ⊢
    rw [e2]
    rfl

end
end Psd
