import Verif.Spec.Picture
import Verif.Spec.Rendered
import Verif.Lemmas.View
import Verif.Props.CTree

/-!
# The tree of a document seen as a stack
-/

namespace Psd

theorem ShowsLayer.eq {dec : List UInt8 → Option (List UInt8)} {l : LayerRec} {a : CAttr} (h : ShowsLayer dec l a) : a = attrOf dec l := by
  have h' := attrOf_shows dec l
  have name : a.name = (attrOf dec l).name := by
    by_cases h1 : l.unicodeName = []
    · by_cases h2 : l.mbcsName = []
      · rw [h.noName h1 h2, h'.noName h1 h2]
      · cases h3 : dec l.mbcsName with
        | none => rw [h.rawName h1 h2 h3, h'.rawName h1 h2 h3]
        | some n => rw [h.otherName h1 h2 n h3, h'.otherName h1 h2 n h3]
    · rw [h.unicodeName h1, h'.unicodeName h1]
  have mode : a.blendMode = (attrOf dec l).blendMode := by
    by_cases h1 : l.folder = true
    · rw [h.folderMode h1, h'.folderMode h1]
    · have h1 : l.folder = false := by simpa using h1
      by_cases h2 : l.blendMode = ascii "pass"
      · rw [h.noPass h1 h2, h'.noPass h1 h2]
      · rw [h.layerMode h1 h2, h'.layerMode h1 h2]
  have mk : a.maskEnabled = (attrOf dec l).maskEnabled := by
    rw [Bool.eq_iff_iff, h.mask, h'.mask]
  obtain ⟨a1, a2, a3, a4, a5, a6, a7, a8, a9, a10, a11⟩ := a
  have e : ∀ b : CAttr, CAttr.mk a1 a2 a3 a4 a5 a6 a7 a8 a9 a10 a11 = b ↔ a1 = b.seqID ∧ a2 = b.name ∧ a3 = b.folder ∧ a4 = b.folderOpen ∧ a5 = b.visible ∧
      a6 = b.blendMode ∧ a7 = b.opacity ∧ a8 = b.clipping ∧ a9 = b.blendClippedElements ∧ a10 = b.maskEnabled ∧ a11 = b.maskDefaultColor := by
    intro b
    cases b
    simp
  rw [e]
  exact ⟨h.number.trans h'.number.symm, name, h.folder.trans h'.folder.symm, h.folderOpen.trans h'.folderOpen.symm, h.visible.trans h'.visible.symm, mode,
    h.opacity.trans h'.opacity.symm, h.clipping.trans h'.clipping.symm, h.blendClipped.trans h'.blendClipped.symm, mk, h.maskDefault.trans h'.maskDefault.symm⟩

/-- The clipping layers at the beginning of a list. -/
theorem run_unique : ∀ (x y x' y' : List (LTree LayerRec)), x ++ y = x' ++ y' → (∀ k ∈ x, k.isClipping = true) → (∀ k ∈ x', k.isClipping = true) →
    (∀ k ∈ y.head?, k.isClipping = false) → (∀ k ∈ y'.head?, k.isClipping = false) → x = x' ∧ y = y' := by
  intro x
  induction x with
  | nil =>
    intro y x' y' e h1 h1' h2 h2'
    cases x' with
    | nil => exact ⟨rfl, e⟩
    | cons k x' =>
      have e : y = k :: (x' ++ y') := e
      have := h2 k (by rw [e]; rfl)
      rw [h1' k List.mem_cons_self] at this
      cases this
  | cons k x ih =>
    intro y x' y' e h1 h1' h2 h2'
    cases x' with
    | nil =>
      have e : k :: (x ++ y) = y' := e
      have := h2' k (by rw [← e]; rfl)
      rw [h1 k List.mem_cons_self] at this
      cases this
    | cons k' x' =>
      injection e with e5 e6
      subst e5
      obtain ⟨rfl, rfl⟩ := ih y x' y' e6 (fun k hk => h1 k (List.mem_cons_of_mem _ hk)) (fun k hk => h1' k (List.mem_cons_of_mem _ hk)) h2 h2'
      exact ⟨rfl, rfl⟩

/-- All layers of a document. -/
def DocAll (Q : LayerRec → List (LTree LayerRec) → Prop) (layers : List (LTree LayerRec)) : Prop :=
  ∀ π l kids, docAt layers π = some (.node l kids) → Q l kids

theorem DocAll.cons {Q : LayerRec → List (LTree LayerRec) → Prop} {l : LayerRec} {sub rest : List (LTree LayerRec)} (h : DocAll Q (.node l sub :: rest)) :
    Q l sub ∧ DocAll Q sub ∧ DocAll Q rest := by
  refine ⟨h [0] l sub rfl, fun π l' kids e => ?_, fun π l' kids e => ?_⟩
  · cases π with
    | nil => cases e
    | cons i π => exact h (0 :: i :: π) l' kids e
  · cases π with
    | nil => cases e
    | cons i π => exact h ((i + 1) :: π) l' kids e

theorem DocAll.append {Q : LayerRec → List (LTree LayerRec) → Prop} : ∀ {xs ys : List (LTree LayerRec)}, DocAll Q (xs ++ ys) → DocAll Q xs ∧ DocAll Q ys
  | [], ys, h => ⟨fun π l kids e => (by cases π <;> (cases e)), h⟩
  | .node l sub :: xs, ys, h => by
    obtain ⟨h1, h2, h3⟩ := DocAll.cons (rest := xs ++ ys) h
    obtain ⟨h4, h5⟩ := DocAll.append h3
    refine ⟨fun π l' kids e => ?_, h5⟩
    match π with
    | [] => cases e
    | [0] => cases e; exact h1
    | 0 :: i :: π => exact h2 (i :: π) l' kids e
    | (i + 1) :: π => exact h4 (i :: π) l' kids e

section
variable {P M : Type} {dec : List UInt8 → Option (List UInt8)} {pic : Int → Option P} {mask : Int → Option M}

theorem IsStack.depth_le : ∀ (t : Stk P M) (layers : List (LTree LayerRec)), IsStack dec pic mask layers t →
    t.depth ≤ 2 * depthAll layers ∧ ((∀ k ∈ layers, k.isClipping = true) → t.depth ≤ 2 * depthAll layers - 1) := by
  intro t
  induction t with
  | nil => intro layers h; exact ⟨Nat.zero_le _, fun _ => Nat.zero_le _⟩
  | layer a p m kids clips rest ihk ihc ihr =>
    intro layers h
    obtain ⟨l, sub, above, over, rfl, ha, hp, hm, hk, hc, hr, h1, h2, h3⟩ := h
    obtain ⟨k1, -⟩ := ihk _ hk
    obtain ⟨-, c2⟩ := ihc _ hc
    have c2 := c2 h1
    obtain ⟨r1, r2⟩ := ihr _ hr
    rw [depthAll, depthAll_append, LTree.depth]
    simp only [Stk.depth]
    refine ⟨by omega, fun hall => ?_⟩
    have hcl : l.clipping = true := hall _ List.mem_cons_self
    have := h2 hcl
    subst this
    have r2 := r2 (fun k hk => hall k (List.mem_cons_of_mem _ (List.mem_append_right _ hk)))
    have e0 : depthAll ([] : List (LTree LayerRec)) = 0 := rfl
    rw [e0] at c2 ⊢
    omega

theorem BuiltKids.append {h : CHeap} {A : Ptr → Prop} : ∀ (xs ys : List (LTree LayerRec)) (par : Option Ptr) (arr i : Nat) (F : List Nat),
    BuiltKids dec h A (xs ++ ys) par arr i F → (∃ F', BuiltKids dec h A xs par arr i F') ∧ ∃ F', BuiltKids dec h A ys par arr (i + xs.length) F'
  | [], ys, par, arr, i, F, hb => ⟨⟨[], by unfold BuiltKids; rfl⟩, F, hb⟩
  | x :: xs, ys, par, arr, i, F, hb => by
    rw [List.cons_append] at hb
    unfold BuiltKids at hb
    obtain ⟨b1, F1, F2, rfl, b3, b4⟩ := hb
    obtain ⟨⟨F', c1⟩, F'', c2⟩ := BuiltKids.append xs ys par arr (i + 1) F2 b4
    refine ⟨⟨F1 ++ F', ?_⟩, F'', ?_⟩
    · unfold BuiltKids
      exact ⟨b1, F1, F', rfl, b3, c1⟩
    · rw [List.length_cons, show i + (xs.length + 1) = i + 1 + xs.length by omega]
      exact c2

theorem BuiltKids.clipping {h : CHeap} {A : Ptr → Prop} : ∀ (xs : List (LTree LayerRec)) (par : Option Ptr) (arr i : Nat) (F : List Nat),
    BuiltKids dec h A xs par arr i F → ∀ (j : Nat) (k : LTree LayerRec), xs[j]? = some k → (h.at_ (arr, i + j)).attr.clipping = k.isClipping
  | [], _, _, _, _, _, j, k, hj => by simp at hj
  | x :: xs, par, arr, i, F, hb, j, k, hj => by
    unfold BuiltKids at hb
    obtain ⟨b1, F1, F2, rfl, ⟨pp, b3⟩, b4⟩ := hb
    cases j with
    | zero =>
      simp only [List.getElem?_cons_zero, Option.some.injEq] at hj
      subst hj
      cases x with
      | node l kids =>
        unfold Built at b3
        rw [Nat.add_zero, b3.2.2.1]
        rfl
    | succ j =>
      rw [List.getElem?_cons_succ] at hj
      have := BuiltKids.clipping xs par arr (i + 1) F2 b4 j k hj
      rwa [show i + 1 + j = i + (j + 1) by omega] at this

variable {s : Scene P M} {pt : TPt}

theorem view_of_stack (hpic : ∀ id, s.pic id pt = pic id) (hmask : ∀ id, (s.mask id).lookup pt = mask id) {A : Ptr → Prop} :
    ∀ (t : Stk P M) (layers : List (LTree LayerRec)) (par : Option Ptr) (arr i n N : Nat) (F : List Nat), IsStack dec pic mask layers t →
    BuiltKids dec s.h A layers par arr i F → AllOkKids s.h layers arr i → ClippingOk s.h arr N → n = i + layers.length → n ≤ N →
    (n = N ∨ (s.h.at_ (arr, n)).attr.clipping = false ∨ ∀ k ∈ layers, k.isClipping = true) → View s pt t arr i n := by
  intro t
  induction t with
  | nil =>
    intro layers par arr i n N F h hb hok hcl hn hN hend
    obtain rfl : layers = [] := h
    exact hn.symm
  | layer a p m kids clips rest ihk ihc ihr =>
    intro layers par arr i n N F h hb hok hcl hn hN hend
    obtain ⟨l, sub, above, over, rfl, ha, hp, hm, hk, hc, hr, h1, h2, h3⟩ := h
    have ha := ha.eq
    rw [List.length_cons, List.length_append] at hn
    have hb0 := hb
    unfold BuiltKids at hb
    obtain ⟨b1, F1, F2, rfl, ⟨pp, b3⟩, b4⟩ := hb
    unfold Built at b3
    obtain ⟨-, -, b5, -, b6, Fs, -, b7⟩ := b3
    obtain ⟨⟨F3, b8⟩, F4, b9⟩ := BuiltKids.append above over par arr (i + 1) F2 b4
    unfold AllOkKids at hok
    obtain ⟨ok1, ok2⟩ := hok
    unfold AllOk at ok1
    obtain ⟨ok3, ok4⟩ := (AllOkKids.append_iff above over arr (i + 1)).1 ok2
    have hid : a.seqID = l.seqID := by rw [ha]; rfl
    have hcli : (s.h.at_ (arr, i)).attr.clipping = l.clipping := by rw [b5]; rfl
    have eab : ∀ k, i < k → k < i + 1 + above.length → (s.h.at_ (arr, k)).attr.clipping = true := by
      intro k k1 k2
      have hlt : k - (i + 1) < above.length := by omega
      have := BuiltKids.clipping above par arr (i + 1) F3 b8 (k - (i + 1)) _ (List.getElem?_eq_getElem hlt)
      rw [show i + 1 + (k - (i + 1)) = k by omega] at this
      rw [this]
      exact h1 _ (List.getElem_mem hlt)
    have eov : l.clipping = false → over ≠ [] → (s.h.at_ (arr, i + 1 + above.length)).attr.clipping = false := by
      intro hl ho
      cases over with
      | nil => exact absurd rfl ho
      | cons x xs =>
        have := BuiltKids.clipping (x :: xs) par arr (i + 1 + above.length) F4 b9 0 x rfl
        rw [Nat.add_zero] at this
        rw [this]
        exact h3 hl x rfl
    refine ⟨i + 1 + above.length, by omega, by omega, b5.trans ha.symm, ?_, ?_, ?_, ?_, ?_, ?_, ?_, ?_⟩
    · rw [hid, hpic, hp]
    · rw [hid, hmask, hm]
    · refine ihk sub (some pp) _ 0 _ _ Fs hk b7 ok1.2 ok1.1 (by rw [b6]; omega) (Nat.le_of_eq b6) (.inl b6)
    · exact ihc above par arr (i + 1) _ N F3 hc b8 ok3 hcl rfl (by omega) (.inr (.inr h1))
    · clear ihk ihc ihr hk hr hb0 b4 b7 b8 b9 ok1 ok2 ok3 ok4 hn hN hend eab eov h2 h3 hcli
      revert above
      induction clips with
      | nil => intros; trivial
      | layer a' p' m' k' c' r' _ _ ihr' =>
        intro above hc h1
        obtain ⟨l', sub', above', over', rfl, ha', -, -, -, -, hr', -, h2', -⟩ := hc
        have hl' : l'.clipping = true := h1 _ List.mem_cons_self
        refine ⟨ha'.clipping.trans hl', ihr' over' hr' ?_⟩
        intro k hk
        exact h1 k (List.mem_cons_of_mem _ (List.mem_append_right _ hk))
    · intro hcla
      have : l.clipping = true := by rw [← hcla, ha]; rfl
      rw [h2 this]
      rfl
    · refine clip_list hcl (by omega) (by omega) (fun h => ⟨fun k k1 k2 => eab k k1 k2, fun hj => ?_⟩) (fun h => ?_)
      · rw [hcli] at h
        by_cases ho : over = []
        · subst ho
          simp only [List.length_nil, Nat.add_zero] at hn
          rcases hend with e | e | e
          · omega
          · rw [show i + 1 + above.length = n by omega]
            exact e
          · have := e _ List.mem_cons_self
            rw [show l.clipping = (LTree.node l sub).isClipping from rfl, this] at h
            cases h
        · exact eov h ho
      · rw [hcli] at h
        rw [h2 h]
        rfl
    · refine ihr over par arr _ n N F4 hr b9 ok4 hcl (by omega) hN ?_
      rcases hend with e | e | e
      · exact .inl e
      · exact .inr (.inl e)
      · exact .inr (.inr (fun k hk => e k (List.mem_cons_of_mem _ (List.mem_append_right _ hk))))

theorem stack_unique : ∀ (t t' : Stk P M) (layers : List (LTree LayerRec)), IsStack dec pic mask layers t → IsStack dec pic mask layers t' → t = t' := by
  intro t
  induction t with
  | nil =>
    intro t' layers h h'
    obtain rfl : layers = [] := h
    cases t' with
    | nil => rfl
    | layer =>
      obtain ⟨l, sub, above, over, e, -⟩ := h'
      cases e
  | layer a p m kids clips rest ihk ihc ihr =>
    intro t' layers h h'
    obtain ⟨l, sub, above, over, rfl, ha, hp, hm, hk, hc, hr, h1, h2, h3⟩ := h
    cases t' with
    | nil => cases (show _ :: _ = [] from h')
    | layer a' p' m' kids' clips' rest' =>
      obtain ⟨l', sub', above', over', e, ha', hp', hm', hk', hc', hr', h1', h2', h3'⟩ := h'
      injection e with e1 e2
      injection e1 with e3 e4
      subst e3 e4
      have : above = above' ∧ over = over' := by
        cases hl : l.clipping with
        | true =>
          rw [h2 hl, h2' hl] at e2 ⊢
          exact ⟨rfl, e2⟩
        | false => exact run_unique _ _ _ _ e2 h1 h1' (h3 hl) (h3' hl)
      obtain ⟨rfl, rfl⟩ := this
      rw [ha.eq, ha'.eq, hp, hp', hm, hm', ihk _ _ hk hk', ihc _ _ hc hc', ihr _ _ hr hr']

theorem stack_exists : ∀ (n : Nat) (layers : List (LTree LayerRec)), sizeOf layers ≤ n → ∃ t, IsStack dec pic mask layers t := by
  intro n
  induction n with
  | zero =>
    intro layers h
    cases layers with
    | nil => exact ⟨.nil, rfl⟩
    | cons x xs => simp at h
  | succ n ih =>
    intro layers h
    cases layers with
    | nil => exact ⟨.nil, rfl⟩
    | cons x xs =>
      cases x with
      | node l sub =>
        simp at h
        obtain ⟨kids, hk⟩ := ih sub (by omega)
        have dw : ∀ xs : List (LTree LayerRec), sizeOf (xs.dropWhile LTree.isClipping) ≤ sizeOf xs ∧ sizeOf (xs.takeWhile LTree.isClipping) ≤ sizeOf xs := by
          intro xs
          induction xs with
          | nil => exact ⟨Nat.le_refl _, Nat.le_refl _⟩
          | cons y ys ih =>
            rw [List.dropWhile_cons, List.takeWhile_cons]
            split
            · simp only [List.cons.sizeOf_spec]
              omega
            · simp
              omega
        obtain ⟨d1, d2⟩ := dw xs
        cases hc : l.clipping with
        | true =>
          obtain ⟨rest, hr⟩ := ih xs (by omega)
          exact ⟨.layer (attrOf dec l) (pic l.seqID) (mask l.seqID) kids .nil rest, l, sub, [], xs, rfl, attrOf_shows dec l, rfl, rfl, hk, rfl, hr, by simp, fun _ => rfl,
            fun h => by rw [hc] at h; cases h⟩
        | false =>
          obtain ⟨clips, hcl⟩ := ih (xs.takeWhile LTree.isClipping) (by omega)
          obtain ⟨rest, hr⟩ := ih (xs.dropWhile LTree.isClipping) (by omega)
          refine ⟨.layer (attrOf dec l) (pic l.seqID) (mask l.seqID) kids clips rest, l, sub, _, _, ?_, attrOf_shows dec l, rfl, rfl, hk, hcl, hr, ?_, ?_, ?_⟩
          · rw [List.takeWhile_append_dropWhile]
          · intro k hk'
            exact (List.all_eq_true.1 (List.all_takeWhile) k hk')
          · intro h
            rw [hc] at h
            cases h
          · intro _ k hk'
            have := List.head?_dropWhile_not LTree.isClipping xs
            rw [Option.mem_def.1 hk'] at this
            simpa using this

end
end Psd
