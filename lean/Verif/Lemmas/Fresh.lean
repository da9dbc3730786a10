import Verif.Lemmas.Coherent
import Verif.Spec.Picture

/-!
# Drawing without caches is painting, whatever the drawing operations
-/

namespace Psd

section
variable {P M : Type} {ops : PicOps P M} {s : Scene P M} {pt : TPt}

/-- There are no entries for these layers. -/
def NoEntry (st : RState P) (pt : TPt) (ids : List Int) : Prop := ∀ id ∈ ids, st.cached id pt = none

theorem Only.noEntry {ids ids' : List Int} {st st' : RState P} (h : Only pt ids st st') (hd : ∀ id ∈ ids', id ∉ ids) (hn : NoEntry st pt ids') :
    NoEntry st' pt ids' := fun id hi => (h id pt (fun h' => absurd h' (hd id hi))).1.trans (hn id hi)

def FreshKids (ops : PicOps P M) (s : Scene P M) (pt : TPt) (t : Stk P M) : Prop :=
  ∀ (f arr i n : Nat) (st : RState P) (b : P) (scale : Nat → Nat) (drew d : Bool) (b' : P), View s pt t arr i n → t.depth ≤ f → t.ids.Nodup →
    NoEntry st pt t.ids → paint ops t false scale b = .ok (d, b') →
    ∃ st', drawKids (drawLayer ops s pt f) s.h arr scale (n - i) i st b drew = .ok (st', b', drew || d) ∧ Only pt t.ids st st'

def FreshClips (ops : PicOps P M) (s : Scene P M) (pt : TPt) (t : Stk P M) : Prop :=
  ∀ (f arr i n : Nat) (st : RState P) (b : P) (d : Bool) (b' : P), View s pt t arr i n → t.allClipping → t.depth ≤ f → t.ids.Nodup →
    NoEntry st pt t.ids → paint ops t true id b = .ok (d, b') →
    ∃ st', drawClips (drawLayer ops s pt f) s.h true ((List.range' i (n - i)).map (fun k => some (arr, k))) st b = .ok (st', b') ∧ Only pt t.ids st st'

theorem drawBuf_fresh {a : CAttr} {clips : Stk P M} (hcl : FreshClips ops s pt clips) {f arr i j : Nat} (ha : (s.h.at_ (arr, i)).attr = a)
    (hv : View s pt clips arr (i + 1) j) (hac : clips.allClipping) (hd : clips.depth ≤ f) (hn : clips.ids.Nodup)
    (hclip : (s.h.at_ (arr, i)).clip = (List.range' (i + 1) (j - (i + 1))).map (fun k => some (arr, k)))
    (c : Option Int) (o : Nat) (st : RState P) (b buf pre img b' : P)
    (hpre : applyMask ops a ((s.mask a.seqID).lookup pt) a.blendMode b buf = pre)
    (hc : NoEntry st pt clips.ids)
    (himg : clipPic ops a clips.isNil (paint ops clips true id) (some pre) = .ok (some img)) (hp : place ops a clips.isNil o b img = .ok b') :
    ∃ st', drawBuf ops (drawLayer ops s pt f) s pt (arr, i) c o a.blendMode st b buf = .ok (updateCache ops .drew c pt img st', b', .drew) ∧
      Only pt clips.ids st st' := by
  have hl : (s.h.at_ (arr, i)).clip.length = j - (i + 1) := by rw [hclip, List.length_map, List.length_range']
  have hnil := Stk.isNil_range hv
  simp only [drawBuf, ha, hpre]
  by_cases h0 : clips.isNil = true
  · rw [if_pos (by rw [hl]; exact hnil.1 h0)]
    simp only [clipPic, h0, Bool.true_or, if_true, Res.ok.injEq, Option.some.injEq] at himg
    subst himg
    simp only [place, h0, Bool.true_or, and_true] at hp
    rw [hp]
    exact ⟨st, rfl, Only.refl _ _ _⟩
  · have h0' : clips.isNil = false := by simpa using h0
    rw [if_neg (by rw [hl]; exact fun h => h0 (hnil.2 h))]
    by_cases hb : a.blendClippedElements = true
    · rw [if_pos hb]
      simp only [clipPic, h0', hb, Bool.not_true, Bool.or_self, Bool.false_eq_true, if_false] at himg
      obtain ⟨⟨d, cb⟩, e1, e2⟩ := Res.bind_eq_ok.1 himg
      simp only [Res.ok.injEq, Option.some.injEq] at e2
      obtain ⟨st', e3, ho⟩ := hcl f arr (i + 1) j st _ d cb hv hac hd hn hc e1
      rw [hclip, e3]
      simp only [Res.ok_bind, e2]
      simp only [place, h0', hb, Bool.or_true, and_true] at hp
      rw [hp]
      exact ⟨st', rfl, ho⟩
    · have hb' : a.blendClippedElements = false := by simpa using hb
      rw [if_neg hb]
      simp only [clipPic, hb', Bool.not_false, Bool.or_true, if_true, Res.ok.injEq, Option.some.injEq] at himg
      subst himg
      simp only [place, h0', hb', Bool.or_self, Bool.false_eq_true, and_false, if_false] at hp
      rw [hp, hclip]
      simp only [Res.ok_bind]
      rw [drawClips_skip clips f arr (i + 1) j st b' hv hac hd]
      exact ⟨st, rfl, Only.refl _ _ _⟩

theorem drawLayer_fresh {a : CAttr} {pic : Option P} {mask : Option M} {kids clips : Stk P M} (hkids : FreshKids ops s pt kids)
    (hcl : FreshClips ops s pt clips) {f arr i j : Nat} (ha : (s.h.at_ (arr, i)).attr = a) (hpic : s.pic a.seqID pt = pic)
    (hmask : (s.mask a.seqID).lookup pt = mask)
    (hvk : View s pt kids (s.h.at_ (arr, i)).children.arr 0 (s.h.at_ (arr, i)).children.len)
    (hv : View s pt clips arr (i + 1) j) (hac : clips.allClipping) (hd : max kids.depth clips.depth ≤ f)
    (hn : (a.seqID :: (kids.ids ++ clips.ids)).Nodup)
    (hclip : (s.h.at_ (arr, i)).clip = (List.range' (i + 1) (j - (i + 1))).map (fun k => some (arr, k)))
    (forced : Bool) (scale : Nat → Nat) (st : RState P) (b b' : P) (d : Bool)
    (he : NoEntry st pt (a.seqID :: (kids.ids ++ clips.ids)))
    (hp : paintLayer ops a pic mask kids clips forced (scale a.opacity) b = .ok (d, b')) :
    ∃ st' dr, drawLayer ops s pt (f + 1) st b (arr, i) (scale a.opacity) a.blendMode forced = .ok (st', b', dr) ∧ dr.isDrawn = d ∧
      Only pt (a.seqID :: (kids.ids ++ clips.ids)) st st' := by
  unfold paintLayer at hp
  have hnd := List.nodup_cons.1 hn
  have hnd2 := List.nodup_append.1 hnd.2
  have he1 : st.cached a.seqID pt = none := he _ List.mem_cons_self
  have he2 : NoEntry st pt kids.ids := fun i hi => he i (List.mem_cons_of_mem _ (List.mem_append_left _ hi))
  have he3 : NoEntry st pt clips.ids := fun i hi => he i (List.mem_cons_of_mem _ (List.mem_append_right _ hi))
  by_cases hs : drawn a forced (scale a.opacity) = true
  rotate_left
  · rw [if_neg hs] at hp
    simp only [Res.ok.injEq, Prod.mk.injEq] at hp
    obtain ⟨rfl, rfl⟩ := hp
    simp only [drawLayer, ha]
    split
    · exact ⟨st, _, rfl, rfl, Only.refl _ _ _⟩
    · split
      · exact ⟨st, _, rfl, rfl, Only.refl _ _ _⟩
      · rename_i h1 h2
        exfalso
        apply hs
        simp only [drawn]
        cases hvz : a.visible <;> cases hcz : a.clipping <;> cases hfz : forced <;> simp_all
  rw [if_pos hs] at hp
  obtain ⟨fin, efin, eplace⟩ := Res.bind_eq_ok.1 hp
  unfold layerPic at efin
  obtain ⟨own, eown, eclip⟩ := Res.bind_eq_ok.1 efin
  have h1 : ¬ (a.visible = false ∨ scale a.opacity = 0) := by
    intro h
    simp only [drawn] at hs
    rcases h with h | h <;> rw [h] at hs <;> simp at hs
  have h2 : ¬ (a.clipping = true ∧ forced = false) := by
    intro h
    simp only [drawn, h.1, h.2] at hs
    simp at hs
  have hlen : kids.isNil = true ↔ (s.h.at_ (arr, i)).children.len = 0 := by
    have := Stk.isNil_range hvk
    rw [Nat.sub_zero] at this
    exact this
  simp only [drawLayer, ha]
  rw [if_neg h1, if_neg h2]
  by_cases hleaf : kids.isNil = true
  · rw [if_pos (hlen.1 hleaf), hpic]
    simp only [ownPic, hleaf, if_true, Res.ok.injEq] at eown
    cases pic with
    | none =>
      simp only [leafPic] at eown
      subst eown
      simp only [clipPic, Res.ok.injEq] at eclip
      subst eclip
      simp only [placeOpt, Res.ok.injEq, Prod.mk.injEq] at eplace
      obtain ⟨rfl, rfl⟩ := eplace
      exact ⟨st, _, rfl, rfl, Only.refl _ _ _⟩
    | some p =>
      simp only [leafPic] at eown
      subst eown
      cases fin with
      | none => simp only [clipPic] at eclip; split at eclip <;> first | cases eclip | (obtain ⟨_, _, h⟩ := Res.bind_eq_ok.1 eclip; cases h)
      | some img =>
        simp only [placeOpt] at eplace
        obtain ⟨b1, ep, e⟩ := Res.bind_eq_ok.1 eplace
        simp only [Res.ok.injEq, Prod.mk.injEq] at e
        obtain ⟨rfl, rfl⟩ := e
        obtain ⟨st', ed, ho⟩ := drawBuf_fresh hcl ha hv hac (Nat.le_trans (Nat.le_max_right _ _) hd) hnd2.2.1 hclip none (scale a.opacity) st b (ops.copy p) _ img b1
          (by rw [hmask]) he3 eclip ep
        simp only
        rw [ed]
        refine ⟨_, _, rfl, rfl, ?_⟩
        exact ho.trans (Only.refl pt [] _) (fun i hi => List.mem_cons_of_mem _ (List.mem_append_right _ hi)) (fun i hi => by cases hi)
  · have hleaf' : kids.isNil = false := by simpa using hleaf
    rw [if_neg (fun h => hleaf (hlen.2 h)), he1]
    simp only [ownPic, hleaf', Bool.false_eq_true, if_false] at eown
    obtain ⟨⟨drew, buf⟩, ek, ef⟩ := Res.bind_eq_ok.1 eown
    obtain ⟨st1, ed, ho1⟩ := hkids f _ 0 _ st _ _ false drew buf hvk (by omega) hnd2.1 he2 ek
    simp only [Nat.sub_zero, Bool.false_or] at ed
    have hd1 : (if a.blendMode = passThrough then ops.copy b else ops.blank) = kidStart ops a b := rfl
    have hd2 : (fun o => o * (if a.blendMode = passThrough then scale a.opacity * 32897 else 255 * 32897) / 2 ^ 23) = kidScale a (scale a.opacity) := rfl
    simp only [hd1, hd2, ed, Res.ok_bind]
    have hc1 := ho1.noEntry (fun id h h' => hnd2.2.2 _ h' _ h rfl) he3
    simp only [Res.ok.injEq] at ef
    cases drew with
    | false =>
      simp only [folderPic, Bool.false_eq_true, if_false] at ef
      subst ef
      simp only [clipPic, Res.ok.injEq] at eclip
      subst eclip
      simp only [placeOpt, Res.ok.injEq, Prod.mk.injEq] at eplace
      obtain ⟨rfl, rfl⟩ := eplace
      have hu := updateCache_only (ops := ops) .invisible (some a.seqID) pt buf st1 [a.seqID] (by intro id h; injection h with h; rw [h]; exact List.mem_singleton.2 rfl)
      refine ⟨_, _, rfl, rfl, ho1.trans hu ?_ ?_⟩
      · exact fun i hi => List.mem_cons_of_mem _ (List.mem_append_left _ hi)
      · exact fun i hi => by rw [List.mem_singleton.1 hi]; exact List.mem_cons_self
    | true =>
      simp only [folderPic, if_true] at ef
      subst ef
      cases fin with
      | none => simp only [clipPic] at eclip; split at eclip <;> first | cases eclip | (obtain ⟨_, _, h⟩ := Res.bind_eq_ok.1 eclip; cases h)
      | some img =>
        simp only [placeOpt] at eplace
        obtain ⟨b1, ep, e⟩ := Res.bind_eq_ok.1 eplace
        simp only [Res.ok.injEq, Prod.mk.injEq] at e
        obtain ⟨rfl, rfl⟩ := e
        obtain ⟨st2, ed2, ho2⟩ := drawBuf_fresh hcl ha hv hac (Nat.le_trans (Nat.le_max_right _ _) hd) hnd2.2.1 hclip (some a.seqID) (scale a.opacity) st1 b buf _ img b1
          (by rw [hmask]) hc1 eclip ep
        simp only [if_true]
        rw [ed2]
        have hu := updateCache_only (ops := ops) .drew (some a.seqID) pt img st2 [a.seqID] (by intro id h; injection h with h; rw [h]; exact List.mem_singleton.2 rfl)
        refine ⟨_, _, rfl, rfl, ?_⟩
        refine (ho1.trans (ids := kids.ids ++ clips.ids) ho2 ?_ ?_).trans hu ?_ ?_
        · exact fun i hi => List.mem_append_left _ hi
        · exact fun i hi => List.mem_append_right _ hi
        · exact fun i hi => List.mem_cons_of_mem _ hi
        · exact fun i hi => by rw [List.mem_singleton.1 hi]; exact List.mem_cons_self

theorem draw_fresh : ∀ t : Stk P M, FreshKids ops s pt t ∧ FreshClips ops s pt t := by
  intro t
  induction t with
  | nil =>
    refine ⟨?_, ?_⟩
    · intro f arr i n st b scale drew d b' hv hd hn hc hp
      cases hv
      simp only [paint, Res.ok.injEq, Prod.mk.injEq] at hp
      obtain ⟨rfl, rfl⟩ := hp
      refine ⟨st, ?_, Only.refl _ _ _⟩
      rw [Nat.sub_self, Bool.or_false]
      rfl
    · intro f arr i n st b d b' hv hac hd hn hc hp
      cases hv
      simp only [paint, Res.ok.injEq, Prod.mk.injEq] at hp
      obtain ⟨rfl, rfl⟩ := hp
      refine ⟨st, ?_, Only.refl _ _ _⟩
      rw [Nat.sub_self]
      rfl
  | layer a pic mask kids clips rest ihk ihc ihr =>
    have ids : ∀ {l : List Int}, (a.seqID :: (kids.ids ++ (clips.ids ++ l))).Nodup → (a.seqID :: (kids.ids ++ clips.ids)).Nodup ∧ l.Nodup ∧
        (∀ i ∈ l, i ∉ a.seqID :: (kids.ids ++ clips.ids)) := by
      intro l h
      rw [← List.append_assoc, ← List.cons_append] at h
      obtain ⟨h1, h2, h3⟩ := List.nodup_append.1 h
      exact ⟨h1, h2, fun i hi hi' => h3 i hi' i hi rfl⟩
    have sub1 : ∀ i ∈ a.seqID :: (kids.ids ++ clips.ids), i ∈ (Stk.layer a pic mask kids clips rest).ids := by
      intro i hi
      simp only [Stk.ids, List.mem_cons, List.mem_append] at hi ⊢
      rcases hi with h | h | h
      · exact .inl h
      · exact .inr (.inl h)
      · exact .inr (.inr (.inl h))
    have sub2 : ∀ i ∈ rest.ids, i ∈ (Stk.layer a pic mask kids clips rest).ids := by
      intro i hi
      simp only [Stk.ids, List.mem_cons, List.mem_append]
      exact .inr (.inr (.inr hi))
    refine ⟨?_, ?_⟩
    · intro f arr i n st b scale drew d b' hv hd hn hc hp
      obtain ⟨j, h1, h2, ha, hpic, hmask, hvk, hvc, hac, hj, hclip, hvr⟩ := hv
      obtain ⟨hn1, hn2, hn3⟩ := ids hn
      simp only [Stk.depth] at hd
      rw [paint_layer] at hp
      obtain ⟨⟨d1, b1⟩, ep1, ep2⟩ := Res.bind_eq_ok.1 hp
      obtain ⟨⟨d2, b2⟩, ep3, ep4⟩ := Res.bind_eq_ok.1 ep2
      simp only [Res.ok.injEq, Prod.mk.injEq] at ep4
      obtain ⟨rfl, rfl⟩ := ep4
      obtain ⟨f, rfl⟩ : ∃ g, f = g + 1 := ⟨f - 1, by omega⟩
      obtain ⟨st1, dr, e1, hdr, o1⟩ := drawLayer_fresh ihk.1 ihc.2 ha hpic hmask hvk hvc hac (by omega : _ ≤ f) hn1 hclip false scale st b b1 d1
        (fun i hi => hc i (sub1 i hi)) ep1
      obtain ⟨st2, e2, o2⟩ := ihr.1 (f + 1) arr j n st1 b1 scale (drew || d1) d2 b2 hvr (by omega) hn2 (o1.noEntry hn3 (fun i hi => hc i (sub2 i hi))) ep3
      refine ⟨st2, ?_, o1.trans o2 sub1 sub2⟩
      rw [show n - i = ((j - (i + 1)) + (n - j)) + 1 by omega]
      simp only [drawKids, ha, e1, Res.ok_bind, hdr]
      rw [drawKids_add, drawKids_skip clips (f + 1) arr (i + 1) j scale st1 b1 _ hvc hac (by omega)]
      simp only [Res.ok_bind]
      rw [show i + 1 + (j - (i + 1)) = j by omega, e2, Bool.or_assoc]
    · intro f arr i n st b d b' hv hall hd hn hc hp
      obtain ⟨j, h1, h2, ha, hpic, hmask, hvk, hvc, hac, hj, hclip, hvr⟩ := hv
      have hj := hj hall.1
      obtain ⟨hn1, hn2, hn3⟩ := ids hn
      simp only [Stk.depth] at hd
      rw [paint_layer] at hp
      obtain ⟨⟨d1, b1⟩, ep1, ep2⟩ := Res.bind_eq_ok.1 hp
      obtain ⟨⟨d2, b2⟩, ep3, ep4⟩ := Res.bind_eq_ok.1 ep2
      simp only [Res.ok.injEq, Prod.mk.injEq] at ep4
      obtain ⟨rfl, rfl⟩ := ep4
      obtain ⟨f, rfl⟩ : ∃ g, f = g + 1 := ⟨f - 1, by omega⟩
      obtain ⟨st1, dr, e1, hdr, o1⟩ := drawLayer_fresh ihk.1 ihc.2 ha hpic hmask hvk hvc hac (by omega : _ ≤ f) hn1 hclip true id st b b1 d1
        (fun i hi => hc i (sub1 i hi)) ep1
      obtain ⟨st2, e2, o2⟩ := ihr.2 (f + 1) arr j n st1 b1 d2 b2 hvr hall.2 (by omega) hn2 (o1.noEntry hn3 (fun i hi => hc i (sub2 i hi))) ep3
      refine ⟨st2, ?_, o1.trans o2 sub1 sub2⟩
      rw [show n - i = (n - j) + 1 by omega, List.range'_succ]
      simp only [List.map_cons, drawClips, ha]
      rw [show a.opacity = id a.opacity from rfl, e1]
      simp only [Res.ok_bind]
      rw [← hj]
      exact e2

/-! ### The whole picture -/

theorem renderTile_fresh {t : Stk P M} {f : Nat} (hv : RootView s pt t) (hf : t.depth ≤ f) {st : RState P} (hn : NoEntry st pt (seqIDRoot :: t.ids))
    {r : Bool × P} (hp : paint ops t false id ops.blank = .ok r) (diff : Bool) (dest : TPt → P) :
    ∃ st', renderTile ops s f diff pt st dest = .ok (st', fun q => if q = pt then tileShown ops (dest q) r else dest q) ∧
      Only pt (seqIDRoot :: t.ids) st st' := by
  obtain ⟨d, b⟩ := r
  obtain ⟨st1, e1, o1⟩ := (draw_fresh t).1 f _ 0 _ st ops.blank id false d b hv.1 hf hv.2.1 (fun i hi => hn i (List.mem_cons_of_mem _ hi)) hp
  simp only [Nat.sub_zero, Bool.false_or] at e1
  have hu : ∀ dr, Only pt [seqIDRoot] st1 (updateCache ops dr (some seqIDRoot) pt b st1) := fun dr =>
    updateCache_only (ops := ops) dr (some seqIDRoot) pt b st1 [seqIDRoot] (by intro id h; injection h with h; rw [h]; exact List.mem_singleton.2 rfl)
  have sub1 : ∀ i ∈ t.ids, i ∈ seqIDRoot :: t.ids := fun i hi => List.mem_cons_of_mem _ hi
  have sub2 : ∀ i ∈ [seqIDRoot], i ∈ seqIDRoot :: t.ids := fun i hi => by rw [List.mem_singleton.1 hi]; exact List.mem_cons_self
  unfold renderTile updateTile
  rw [hn _ List.mem_cons_self]
  simp only [e1, Res.ok_bind]
  cases d with
  | true =>
    refine ⟨_, ?_, o1.trans (hu .drew) sub1 sub2⟩
    simp only [if_true, Res.ok_bind, Bool.true_or, updateCache, setAt, and_self, tileShown]
  | false =>
    refine ⟨_, ?_, o1.trans (hu .invisible) sub1 sub2⟩
    simp only [Bool.false_eq_true, if_false, Res.ok_bind, Bool.true_or, if_true, tileShown]

end
end Psd
