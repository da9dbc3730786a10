import Verif.Lemmas.History

/-!
# Drawing does not fail
-/

namespace Psd

section
variable {P M : Type} {ops : PicOps P M} {Op : Nat → Prop} {Md : List UInt8 → Prop} {s : Scene P M}

/-- An entry that says that there is a picture has one. -/
def ImagesOk (st : RState P) : Prop := ∀ id pt, st.cached id pt = some .cached → ∃ x, st.image id pt = some x

theorem ImagesOk.updateCache {st : RState P} (h : ImagesOk st) (dr : DrawResult) (c : Option Int) (pt : TPt) (buf : P) :
    ImagesOk (updateCache ops dr c pt buf st) := by
  unfold Psd.updateCache
  cases c with
  | none => exact h
  | some id =>
    have drew : ImagesOk (P := P) ⟨setAt st.cached id pt (some .cached), setAt st.image id pt (some (ops.copy buf)), st.changes ++ [(id, pt)]⟩ := by
      intro i q e
      simp only [setAt] at e ⊢
      split
      · exact ⟨_, rfl⟩
      · rename_i hn; rw [if_neg hn] at e; exact h i q e
    have empty : ImagesOk (P := P) ⟨setAt st.cached id pt (some .cachedEmpty), setAt st.image id pt none, st.changes ++ [(id, pt)]⟩ := by
      intro i q e
      simp only [setAt] at e ⊢
      split at e
      · cases e
      · rename_i hn; rw [if_neg hn]; exact h i q e
    cases dr <;> first | exact h | exact drew | exact empty

/-- What `drawLayer` may be called with. -/
structure CallOk (Op : Nat → Prop) (s : Scene P M) (depth fuel : Nat) (p : Ptr) (opacity : Nat) (mode : List UInt8) : Prop where
  place : ∃ π, π ≠ [] ∧ slotAt s.h s.root π = some p ∧ 2 * (depth - π.length) + (if (s.h.at_ p).attr.clipping then 1 else 2) ≤ fuel
  op : Op opacity
  md : mode = (s.h.at_ p).attr.blendMode

/-- What is asked of the recursive calls. -/
def InnerOk (ops : PicOps P M) (Op : Nat → Prop) (s : Scene P M) (pt : TPt) (depth fuel : Nat) : Prop :=
  ∀ st b p opacity mode force, ImagesOk st → CallOk Op s depth fuel p opacity mode →
    ∃ st' b' dr, drawLayer ops s pt fuel st b p opacity mode force = .ok (st', b', dr) ∧ ImagesOk st'

theorem drawKids_ok {pt : TPt} {depth fuel : Nat} (hi : InnerOk ops Op s pt depth fuel) {arr : Nat} {scale : Nat → Nat} : ∀ (n i : Nat) (st : RState P) (b : P) (drew : Bool),
    ImagesOk st → (∀ k, i ≤ k → k < i + n → CallOk Op s depth fuel (arr, k) (scale (s.h.at_ (arr, k)).attr.opacity) (s.h.at_ (arr, k)).attr.blendMode) →
    ∃ st' b' d', drawKids (drawLayer ops s pt fuel) s.h arr scale n i st b drew = .ok (st', b', d') ∧ ImagesOk st' := by
  intro n
  induction n with
  | zero => intro i st b drew h _; exact ⟨_, _, _, rfl, h⟩
  | succ n ih =>
    intro i st b drew h hk
    obtain ⟨st1, b1, dr, e, h1⟩ := hi st b (arr, i) _ _ false h (hk i (Nat.le_refl _) (by omega))
    rw [drawKids]
    simp only [e, Res.ok_bind]
    exact ih (i + 1) st1 b1 _ h1 (fun k k1 k2 => hk k (by omega) (by omega))

theorem drawClips_ok {pt : TPt} {depth fuel : Nat} (hi : InnerOk ops Op s pt depth fuel) (force : Bool) : ∀ (cs : List (Option Ptr)) (st : RState P) (b : P),
    ImagesOk st → (∀ c ∈ cs, ∃ p, c = some p ∧ CallOk Op s depth fuel p (s.h.at_ p).attr.opacity (s.h.at_ p).attr.blendMode) →
    ∃ st' b', drawClips (drawLayer ops s pt fuel) s.h force cs st b = .ok (st', b') ∧ ImagesOk st' := by
  intro cs
  induction cs with
  | nil => intro st b h _; exact ⟨_, _, rfl, h⟩
  | cons c cs ih =>
    intro st b h hk
    obtain ⟨p, rfl, hc⟩ := hk c List.mem_cons_self
    obtain ⟨st1, b1, dr, e, h1⟩ := hi st b p _ _ force h hc
    rw [drawClips]
    simp only [e, Res.ok_bind]
    exact ih st1 b1 h1 (fun c hc => hk c (List.mem_cons_of_mem _ hc))

/-- What is clipped to a layer of the tree: siblings that are clipping layers, and nothing if it is one itself. -/
theorem TreeOk.clips {depth : Nat} (ok : TreeOk s depth) {π : List Nat} {p : Ptr} (hπ : π ≠ []) (hp : slotAt s.h s.root π = some p) :
    ((s.h.at_ p).attr.clipping = true → (s.h.at_ p).clip = []) ∧
    ∀ c ∈ (s.h.at_ p).clip, ∃ q π', c = some q ∧ π' ≠ [] ∧ slotAt s.h s.root π' = some q ∧ π'.length = π.length ∧ (s.h.at_ q).attr.clipping = true := by
  have hsplit : ∃ ρ i, π = ρ ++ [i] := ⟨π.dropLast, π.getLast hπ, (List.dropLast_concat_getLast hπ).symm⟩
  obtain ⟨ρ, i, rfl⟩ := hsplit
  have : ∃ q, slotAt s.h s.root ρ = some q ∧ i < (s.h.at_ q).children.len ∧ p = ((s.h.at_ q).children.arr, i) := by
    cases hq : slotAt s.h s.root ρ with
    | none =>
      have none_append : ∀ (ρ : List Nat) (r : Ptr), slotAt s.h r ρ = none → slotAt s.h r (ρ ++ [i]) = none := by
        intro ρ
        induction ρ with
        | nil => intro r h; cases h
        | cons j ρ ih =>
          intro r h
          rw [slotAt] at h
          rw [List.cons_append, slotAt]
          split at h
          · rename_i hj; rw [if_pos hj]; exact ih _ h
          · rename_i hj; rw [if_neg hj]
      rw [none_append ρ _ hq] at hp
      cases hp
    | some q =>
      rw [slotAt_append ρ _ q [i] hq, slotAt] at hp
      split at hp
      · rename_i hi
        simp only [slotAt, Option.some.injEq] at hp
        exact ⟨q, rfl, hi, hp.symm⟩
      · cases hp
  obtain ⟨q, hq, hi, rfl⟩ := this
  have hcl := (ok.clipping ρ q hq i hi).2.2
  constructor
  · intro hc
    rw [hcl, List.filter_eq_nil_iff.2]
    · rfl
    · intro k _
      rw [decide_eq_true_eq]
      rintro ⟨_, h, _⟩
      simp only at h
      rw [hc] at h
      cases h
  · intro c hc
    rw [hcl] at hc
    obtain ⟨k, hk, rfl⟩ := List.mem_map.1 hc
    obtain ⟨hk1, hk2⟩ := List.mem_filter.1 hk
    rw [decide_eq_true_eq] at hk2
    have hk1 := List.mem_range.1 hk1
    refine ⟨_, ρ ++ [k], rfl, by simp, ?_, by simp, hk2.2.2 k (Nat.le_refl _) hk2.1⟩
    rw [slotAt_append ρ _ q [k] hq, slotAt_child hk1, slotAt]

theorem drawBuf_ok (dr : Draws ops Op Md) (hsup : Supported Op Md s) {depth fuel : Nat} (ok : TreeOk s depth) {pt : TPt} (hi : InnerOk ops Op s pt depth fuel) {st : RState P} {b buf : P} {p : Ptr} {c : Option Int}
    {opacity : Nat} {mode : List UInt8} (h : ImagesOk st) (hc : CallOk Op s depth (fuel + 1) p opacity mode) (ho : opacity ≠ 0) :
    ∃ st' b' r, drawBuf ops (drawLayer ops s pt fuel) s pt p c opacity mode st b buf = .ok (st', b', r) ∧ ImagesOk st' := by
  obtain ⟨⟨π, hπ, hp, hf⟩, hop, rfl⟩ := hc
  obtain ⟨c1, c2⟩ := ok.clips hπ hp
  obtain ⟨s1, s2⟩ := hsup π p hπ hp
  have draws : Md (s.h.at_ p).attr.blendMode → ∀ b x, ∃ y, ops.draw opacity (s.h.at_ p).attr.blendMode b x = .ok y := fun hm b x => dr.draw _ _ _ _ hop ho hm
  have placed : ∀ b x, (Md (s.h.at_ p).attr.blendMode ∨ (s.h.at_ p).attr.blendMode = passThrough) →
      ∃ y, (if (s.h.at_ p).attr.blendMode = passThrough then Res.ok (ops.copy x) else ops.draw opacity (s.h.at_ p).attr.blendMode b x) = .ok y := by
    intro b x hm
    split
    · exact ⟨_, rfl⟩
    · rename_i hn; exact draws (hm.resolve_right hn) b x
  have clips : (s.h.at_ p).clip ≠ [] → ∀ c ∈ (s.h.at_ p).clip, ∃ q, c = some q ∧ CallOk Op s depth fuel q (s.h.at_ q).attr.opacity (s.h.at_ q).attr.blendMode := by
    intro hne c hc
    obtain ⟨q, π', rfl, hπ', hq, hl, hcl⟩ := c2 c hc
    refine ⟨q, rfl, ⟨⟨π', hπ', hq, ?_⟩, (hsup π' q hπ' hq).1, rfl⟩⟩
    have : (s.h.at_ p).attr.clipping = false := by
      cases hx : (s.h.at_ p).attr.clipping with
      | false => rfl
      | true => exact absurd (c1 hx) hne
    simp only [this, hcl, hl, if_true, Bool.false_eq_true, if_false] at hf ⊢
    omega
  unfold drawBuf
  simp only
  generalize applyMask ops (s.h.at_ p).attr ((s.mask (s.h.at_ p).attr.seqID).lookup pt) (s.h.at_ p).attr.blendMode b buf = buf'
  by_cases hcl : (s.h.at_ p).clip.length = 0
  · rw [if_pos hcl]
    obtain ⟨y, e⟩ := placed b buf' (s2.imp id (fun h => h.1))
    rw [e]
    exact ⟨_, _, _, rfl, h.updateCache _ _ _ _⟩
  · rw [if_neg hcl]
    have hne : (s.h.at_ p).clip ≠ [] := fun h => hcl (by rw [h]; rfl)
    by_cases hb : (s.h.at_ p).attr.blendClippedElements = true
    · rw [if_pos hb]
      obtain ⟨st1, b1, e1, h1⟩ := drawClips_ok hi true _ st (ops.removeAlpha (ops.copy buf')) h (clips hne)
      obtain ⟨y, e⟩ := placed b (ops.destIn b1 buf') (s2.imp id (fun h => h.1))
      rw [e1]
      simp only [Res.ok_bind]
      rw [e]
      exact ⟨_, _, _, rfl, h1.updateCache _ _ _ _⟩
    · rw [if_neg hb]
      have hm : Md (s.h.at_ p).attr.blendMode := by
        rcases s2 with h | ⟨_, h | h⟩
        · exact h
        · exact absurd h hne
        · exact absurd h hb
      obtain ⟨y, e⟩ := draws hm b buf'
      rw [e]
      simp only [Res.ok_bind]
      obtain ⟨st1, b1, e1, h1⟩ := drawClips_ok hi false _ st y h (clips hne)
      rw [e1]
      exact ⟨_, _, _, rfl, h1.updateCache _ _ _ _⟩

theorem drawLayer_ok (dr : Draws ops Op Md) (hsup : Supported Op Md s) {depth : Nat} (ok : TreeOk s depth) (pt : TPt) : ∀ fuel, InnerOk ops Op s pt depth fuel := by
  intro fuel
  induction fuel with
  | zero =>
    intro st b p opacity mode force _ hc
    obtain ⟨⟨π, _, _, hf⟩, _, _⟩ := hc
    split at hf <;> omega
  | succ f ih =>
    intro st b p opacity mode force h hc
    have hc' := hc
    obtain ⟨⟨π, hπ, hp, hf⟩, hop, hmd⟩ := hc
    rw [drawLayer]
    simp only
    by_cases hv : (s.h.at_ p).attr.visible = false ∨ opacity = 0
    · rw [if_pos hv]; exact ⟨_, _, _, rfl, h⟩
    · rw [if_neg hv]
      have ho : opacity ≠ 0 := fun h => hv (.inr h)
      by_cases hcl : (s.h.at_ p).attr.clipping = true ∧ force = false
      · rw [if_pos hcl]; exact ⟨_, _, _, rfl, h⟩
      · rw [if_neg hcl]
        by_cases hk : (s.h.at_ p).children.len = 0
        · rw [if_pos hk]
          cases s.pic (s.h.at_ p).attr.seqID pt with
          | none => exact ⟨_, _, _, rfl, h⟩
          | some pic => exact drawBuf_ok dr hsup ok ih h hc' ho
        · rw [if_neg hk]
          cases hca : st.cached (s.h.at_ p).attr.seqID pt with
          | some cs =>
            simp only
            cases cs with
            | cachedEmpty => exact ⟨_, _, _, rfl, h⟩
            | cached =>
              obtain ⟨x, hx⟩ := h _ _ hca
              simp only [drawCached, hx]
              by_cases hm : mode = passThrough
              · rw [if_pos hm]; exact ⟨_, _, _, rfl, h⟩
              · rw [if_neg hm]
                have hs := (hsup π p hπ hp).2
                rw [← hmd] at hs
                obtain ⟨y, e⟩ := dr.draw opacity mode b x hop ho (hs.resolve_right (fun h => hm h.1))
                rw [e]
                exact ⟨_, _, _, rfl, h⟩
          | none =>
            simp only
            have kids : ∀ a o', Op o' → a = o' * 32897 → ∀ k, 0 ≤ k → k < 0 + (s.h.at_ p).children.len →
                CallOk Op s depth f ((s.h.at_ p).children.arr, k) ((fun o => o * a / 2 ^ 23) (s.h.at_ ((s.h.at_ p).children.arr, k)).attr.opacity)
                  (s.h.at_ ((s.h.at_ p).children.arr, k)).attr.blendMode := by
              intro a o' hop' ha k _ hk
              rw [Nat.zero_add] at hk
              have hslot : slotAt s.h s.root (π ++ [k]) = some ((s.h.at_ p).children.arr, k) := by
                rw [slotAt_append π _ p [k] hp, slotAt_child hk, slotAt]
              have hlen := ok.finite _ _ hslot
              rw [List.length_append, List.length_singleton] at hlen
              refine ⟨⟨π ++ [k], by simp, hslot, ?_⟩, ?_, rfl⟩
              · rw [List.length_append, List.length_singleton]
                split at hf <;> split <;> omega
              · rw [ha]
                exact dr.scale _ _ (hsup _ _ (by simp) hslot).1 hop'
            have kids' : ∀ k, 0 ≤ k → k < 0 + (s.h.at_ p).children.len →
                CallOk Op s depth f ((s.h.at_ p).children.arr, k)
                  ((fun o => o * (if mode = passThrough then opacity * 32897 else 255 * 32897) / 2 ^ 23) (s.h.at_ ((s.h.at_ p).children.arr, k)).attr.opacity)
                  (s.h.at_ ((s.h.at_ p).children.arr, k)).attr.blendMode := by
              by_cases hm : mode = passThrough
              · rw [if_pos hm]; exact kids _ _ hop rfl
              · rw [if_neg hm]; exact kids _ _ dr.full rfl
            obtain ⟨st1, b1, d1, e1, h1⟩ := drawKids_ok (arr := (s.h.at_ p).children.arr)
              (scale := fun o => o * (if mode = passThrough then opacity * 32897 else 255 * 32897) / 2 ^ 23) ih (s.h.at_ p).children.len 0 st (if mode = passThrough then ops.copy b else ops.blank) false h kids'
            rw [e1]
            simp only [Res.ok_bind]
            cases d1 with
            | true => simp only [if_true]; exact drawBuf_ok dr hsup ok ih h1 hc' ho
            | false => simp only [Bool.false_eq_true, if_false]; exact ⟨_, _, _, rfl, h1.updateCache _ _ _ _⟩

theorem renderTile_ok (dr : Draws ops Op Md) (hsup : Supported Op Md s) {depth fuel : Nat} (hf : 2 * depth ≤ fuel) (ok : TreeOk s depth) (diff : Bool) (pt : TPt) (st : RState P)
    (dest : TPt → P) (h : ImagesOk st) : ∃ st' dest', renderTile ops s fuel diff pt st dest = .ok (st', dest') ∧ ImagesOk st' := by
  have : ∃ st' m cs, updateTile ops s fuel pt st = .ok (st', m, cs) ∧ ImagesOk st' ∧ (cs = .cached → st'.cached seqIDRoot pt = some .cached) := by
    unfold updateTile
    cases hca : st.cached seqIDRoot pt with
    | some cs => exact ⟨_, _, _, rfl, h, fun e => by rw [hca, e]⟩
    | none =>
      simp only
      obtain ⟨st1, b1, d1, e1, h1⟩ := drawKids_ok (scale := id) (arr := (s.h.at_ s.root).children.arr) (drawLayer_ok dr hsup ok pt fuel) (s.h.at_ s.root).children.len 0 st ops.blank false h (by
        intro k _ hk
        rw [Nat.zero_add] at hk
        have hslot : slotAt s.h s.root [k] = some ((s.h.at_ s.root).children.arr, k) := by rw [slotAt_child hk, slotAt]
        have hlen := ok.finite _ _ hslot
        simp only [List.length_singleton] at hlen
        refine ⟨⟨[k], by simp, hslot, ?_⟩, (hsup _ _ (by simp) hslot).1, rfl⟩
        simp only [List.length_singleton]
        split <;> omega)
      rw [e1]
      simp only [Res.ok_bind]
      cases d1 with
      | true => exact ⟨_, _, _, rfl, h1.updateCache _ _ _ _, fun _ => by simp [Psd.updateCache, setAt]⟩
      | false => exact ⟨_, _, _, rfl, h1.updateCache _ _ _ _, fun e => by cases e⟩
  obtain ⟨st1, m, cs, e, h1, h2⟩ := this
  unfold renderTile
  rw [e]
  simp only [Res.ok_bind]
  split
  · cases cs with
    | cached =>
      obtain ⟨x, hx⟩ := h1 _ _ (h2 rfl)
      simp only [hx]
      exact ⟨_, _, rfl, h1⟩
    | cachedEmpty => exact ⟨_, _, rfl, h1⟩
  · exact ⟨_, _, rfl, h1⟩

theorem ImagesOk.less {st st' : RState P} (h : ImagesOk st) (h1 : ∀ id pt, st'.cached id pt = some .cached → st.cached id pt = some .cached) (h2 : st'.image = st.image) : ImagesOk st' := by
  intro id pt e
  rw [h2]
  exact h id pt (h1 id pt e)

end

end Psd
