import Verif.Model.Buffers
import Verif.Lemmas.Basic

/-!
# What a goroutine of a render does by itself
-/

namespace Psd

section
variable {P M : Type} {ops : PicOps P M}

/-- The arrays a goroutine has, with what is in them. -/
abbrev Held (P : Type) := Nat → Option P

def Held.set (h : Held P) (b : Nat) (x : Option P) : Held P := fun c => if c = b then x else h c

theorem Held.set_self (h : Held P) (b : Nat) (x : Option P) : h.set b x b = x := by simp [Held.set]

theorem Held.set_ne (h : Held P) {b c : Nat} (x : Option P) (e : c ≠ b) : h.set b x c = h c := by simp [Held.set, e]

/-- A goroutine that has the arrays `held` and is alone with the caches and the picture: within `n` actions it returns with `Post`. It uses only
arrays it has, gives back blank ones, and touches only tiles in `T`. `Q`: it may panic. `A`: it may see that the render is cancelled. -/
def Ends (ops : PicOps P M) (Q A : Prop) (Post : RState P → (TPt → P) → Prop) (T : TPt → Prop) : RProg P → Held P → RState P → (TPt → P) → Nat → Prop
  | .done, _, st, dest, _ => Post st dest
  | .panic, _, _, _, _ => Q
  | .get k, held, st, dest, n => ∃ n', n' < n ∧ ∀ b, held b = none → Ends ops Q A Post T (k b) (held.set b (some ops.blank)) st dest n'
  | .put b k, held, st, dest, n => held b = some ops.blank ∧ ∃ n', n' < n ∧ Ends ops Q A Post T k (held.set b none) st dest n'
  | .load b k, held, st, dest, n => ∃ x, held b = some x ∧ ∃ n', n' < n ∧ Ends ops Q A Post T (k x) held st dest n'
  | .store b x k, held, st, dest, n => held b ≠ none ∧ ∃ n', n' < n ∧ Ends ops Q A Post T k (held.set b (some x)) st dest n'
  | .look id pt k, held, st, dest, n => T pt ∧ ∃ n', n' < n ∧ Ends ops Q A Post T (k (st.cached id pt) (st.image id pt)) held st dest n'
  | .mark id pt cs f k, held, st, dest, n => T pt ∧ ∃ n', n' < n ∧
      Ends ops Q A Post T k held { st with cached := setAt st.cached id pt (some cs), image := setAt st.image id pt (f (st.image id pt)) } dest n'
  | .paint id pt x k, held, st, dest, n => T pt ∧ ∃ n', n' < n ∧ Ends ops Q A Post T k held { st with image := setAt st.image id pt (some x) } dest n'
  | .note id pt k, held, st, dest, n => T pt ∧ ∃ n', n' < n ∧ Ends ops Q A Post T k held { st with changes := st.changes ++ [(id, pt)] } dest n'
  | .out pt f k, held, st, dest, n => T pt ∧ ∃ n', n' < n ∧ Ends ops Q A Post T k held st (fun q => if q = pt then f (dest q) else dest q) n'
  | .ask k, held, st, dest, n => ∃ n', n' < n ∧ Ends ops Q A Post T (k false) held st dest n' ∧ (A → Ends ops Q A Post T (k true) held st dest n')

theorem Ends.mono {Q A : Prop} {Post : RState P → (TPt → P) → Prop} {T : TPt → Prop} {p : RProg P} {held : Held P} {st : RState P} {dest : TPt → P} {n m : Nat}
    (h : Ends ops Q A Post T p held st dest n) (hn : n ≤ m) : Ends ops Q A Post T p held st dest m := by
  cases p with
  | done => exact h
  | panic => exact h
  | get k => obtain ⟨n', h1, h2⟩ := h; exact ⟨n', by omega, h2⟩
  | put b k => obtain ⟨h0, n', h1, h2⟩ := h; exact ⟨h0, n', by omega, h2⟩
  | load b k => obtain ⟨x, h0, n', h1, h2⟩ := h; exact ⟨x, h0, n', by omega, h2⟩
  | store b x k => obtain ⟨h0, n', h1, h2⟩ := h; exact ⟨h0, n', by omega, h2⟩
  | look id pt k => obtain ⟨h0, n', h1, h2⟩ := h; exact ⟨h0, n', by omega, h2⟩
  | mark id pt cs f k => obtain ⟨h0, n', h1, h2⟩ := h; exact ⟨h0, n', by omega, h2⟩
  | paint id pt x k => obtain ⟨h0, n', h1, h2⟩ := h; exact ⟨h0, n', by omega, h2⟩
  | note id pt k => obtain ⟨h0, n', h1, h2⟩ := h; exact ⟨h0, n', by omega, h2⟩
  | out pt f k => obtain ⟨h0, n', h1, h2⟩ := h; exact ⟨h0, n', by omega, h2⟩
  | ask k => obtain ⟨n', h1, h2⟩ := h; exact ⟨n', by omega, h2⟩

/-- After a function that draws onto the buffer `b`: `b` holds `x`, the other arrays the goroutine had are as before. It may have more. -/
structure Keeps (held : Held P) (b : Nat) (x : P) (held' : Held P) : Prop where
  here : held' b = some x
  others : ∀ c, c ≠ b → held c ≠ none → held' c = held c

theorem Keeps.trans {held held1 held2 : Held P} {b : Nat} {x y : P} (h : Keeps held b x held1) (h' : Keeps held1 b y held2) : Keeps held b y held2 :=
  ⟨h'.here, fun c hc hn => by rw [h'.others c hc (by rw [h.others c hc hn]; exact hn), h.others c hc hn]⟩

theorem Keeps.refl {held : Held P} {b : Nat} {x : P} (h : held b = some x) : Keeps held b x held := ⟨h, fun _ _ _ => rfl⟩

theorem Keeps.set (held : Held P) (b : Nat) (x : P) : Keeps held b x (held.set b (some x)) := ⟨held.set_self _ _, fun _ hc _ => held.set_ne _ hc⟩

variable (ops) in
/-- What follows a function whose result is `r` is all right. -/
def Follows {D : Type} (Q A : Prop) (Post : RState P → (TPt → P) → Prop) (T : TPt → Prop) (r : Res (RState P × P × D)) (held : Held P) (b : Nat) (k : D → RProg P) (dest : TPt → P) (n : Nat) : Prop :=
  match r with
  | .ok (st, x, d) => ∀ held', Keeps held b x held' → Ends ops Q A Post T (k d) held' st dest n
  | _ => Q

variable {Q A : Prop} {Post : RState P → (TPt → P) → Prop} {T : TPt → Prop} {dest : TPt → P}

theorem Follows.ok {D : Type} {st : RState P} {x : P} {d : D} {held : Held P} {b : Nat} {k : D → RProg P} {n : Nat}
    (h : Follows ops Q A Post T (.ok (st, x, d)) held b k dest n) : ∀ held', Keeps held b x held' → Ends ops Q A Post T (k d) held' st dest n := h

theorem put_ends {k : RProg P} {held : Held P} {st : RState P} {b : Nat} {n : Nat} (hb : held b ≠ none) (h : Ends ops Q A Post T k (held.set b none) st dest n) :
    Ends ops Q A Post T (putB ops b k) held st dest (n + 2) := by
  refine ⟨hb, n + 1, by omega, ?_, n, by omega, ?_⟩
  · exact Held.set_self _ _ _
  · have : (Held.set held b (some ops.blank)).set b none = held.set b none := by
      funext c
      simp only [Held.set]
      split <;> rfl
    rw [this]
    exact h

theorem updateCache_ends {dr : DrawResult} {c : Option Int} {pt : TPt} {buf : Nat} {x : P} {k : RProg P} {held : Held P} {st : RState P} {n : Nat} (hT : T pt)
    (hx : held buf = some x) (h : Ends ops Q A Post T k held (updateCache ops dr c pt x st) dest n) :
    Ends ops Q A Post T (updateCacheB ops dr c pt buf k) held st dest (n + 4) := by
  unfold updateCacheB
  unfold updateCache at h
  cases c with
  | none => exact h.mono (by omega)
  | some id =>
    have empty : Ends ops Q A Post T k held ⟨setAt st.cached id pt (some .cachedEmpty), setAt st.image id pt none, st.changes ++ [(id, pt)]⟩ dest n →
        Ends ops Q A Post T (.mark id pt .cachedEmpty (fun _ => none) (.note id pt k)) held st dest (n + 4) :=
      fun h => ⟨hT, n + 1, by omega, hT, n, by omega, h⟩
    cases dr with
    | drew =>
      refine ⟨hT, n + 3, by omega, x, hx, n + 2, by omega, hT, n + 1, by omega, hT, n, by omega, ?_⟩
      simp only at h ⊢
      have : setAt (setAt st.image id pt (some ((st.image id pt).getD ops.blank))) id pt (some (ops.copy x)) = setAt st.image id pt (some (ops.copy x)) := by
        funext i q
        simp only [setAt]
        split <;> rfl
      rw [this]
      exact h
    | drewFromCache => exact h.mono (by omega)
    | drewFromCacheInvisible => exact h.mono (by omega)
    | defered => exact empty h
    | skipped => exact empty h
    | invisible => exact empty h

theorem drawOn_ends {opacity : Nat} {mode : List UInt8} {b : Nat} {x y : P} {k : RProg P} {held : Held P} {st : RState P} {n : Nat} (hy : held b = some y)
    (h : match ops.draw opacity mode y x with | .ok z => Ends ops Q A Post T k (held.set b (some z)) st dest n | _ => Q) :
    Ends ops Q A Post T (drawOnB ops opacity mode b x k) held st dest (n + 2) := by
  refine ⟨y, hy, n + 1, by omega, ?_⟩
  cases e : ops.draw opacity mode y x with
  | ok z =>
    simp only [e] at h ⊢
    exact ⟨by rw [hy]; simp, n, by omega, h⟩
  | _ =>
    simp only [e] at h ⊢
    exact h

theorem place_ends {opacity : Nat} {mode : List UInt8} {b : Nat} {x y : P} {k : RProg P} {held : Held P} {st : RState P} {n : Nat} (hy : held b = some y)
    (h : match (if mode = passThrough then Res.ok (ops.copy x) else ops.draw opacity mode y x) with
      | .ok z => Ends ops Q A Post T k (held.set b (some z)) st dest n | _ => Q) :
    Ends ops Q A Post T (placeB ops opacity mode b x k) held st dest (n + 2) := by
  unfold placeB
  split
  · rename_i hm
    rw [if_pos hm] at h
    exact ⟨by rw [hy]; simp, n, by omega, h⟩
  · rename_i hm
    rw [if_neg hm] at h
    exact drawOn_ends hy h

/-! ### Loops -/

variable (ops) in
/-- The goroutine's `inner` does what the function `inner'` says. -/
def Refines (pt : TPt) (inner : RState P → P → Ptr → Nat → List UInt8 → Bool → Res (Drawn P))
    (innerB : Nat → Ptr → Nat → List UInt8 → Bool → (DrawResult → RProg P) → RProg P) : Prop :=
  ∀ (Q A : Prop) (Post : RState P → (TPt → P) → Prop) (T : TPt → Prop) (dest : TPt → P), T pt → ∀ st x p o m force, ∃ c, ∀ held b k n, held b = some x →
    Follows ops Q A Post T (inner st x p o m force) held b k dest n → Ends ops Q A Post T (innerB b p o m force k) held st dest (n + c)

variable {pt : TPt} {inner : RState P → P → Ptr → Nat → List UInt8 → Bool → Res (Drawn P)}
  {innerB : Nat → Ptr → Nat → List UInt8 → Bool → (DrawResult → RProg P) → RProg P}

theorem drawKids_refines (hi : Refines ops pt inner innerB) (hT : T pt) {h : CHeap} {arr : Nat} {scale : Nat → Nat} : ∀ (m i : Nat) (st : RState P) (x : P) (drew : Bool),
    ∃ c, ∀ held b k n, held b = some x → Follows ops Q A Post T (drawKids inner h arr scale m i st x drew) held b k dest n →
      Ends ops Q A Post T (drawKidsB innerB h arr scale b m i drew k) held st dest (n + c) := by
  intro m
  induction m with
  | zero =>
    intro i st x drew
    exact ⟨0, fun held b k n hb hk => hk.ok held (.refl hb)⟩
  | succ m ih =>
    intro i st x drew
    obtain ⟨c1, h1⟩ := hi Q A Post T dest hT st x (arr, i) (scale (h.at_ (arr, i)).attr.opacity) (h.at_ (arr, i)).attr.blendMode false
    cases e : inner st x (arr, i) (scale (h.at_ (arr, i)).attr.opacity) (h.at_ (arr, i)).attr.blendMode false with
    | ok r =>
      obtain ⟨st1, x1, dr⟩ := r
      obtain ⟨c2, h2⟩ := ih (i + 1) st1 x1 (drew || dr.isDrawn)
      refine ⟨c2 + c1, fun held b k n hb hk => ?_⟩
      simp only [drawKids, e, Res.ok_bind] at hk
      rw [drawKidsB, ← Nat.add_assoc]
      refine h1 held b _ _ hb ?_
      rw [e]
      intro held' hk'
      refine h2 held' b k n hk'.here ?_
      unfold Follows at hk ⊢
      split
      · rename_i er
        rw [er] at hk
        exact fun held'' hk'' => hk held'' (hk'.trans hk'')
      · rename_i er
        split at hk
        · rename_i er'; exact absurd er' (er _ _ _)
        · exact hk
    | _ =>
      refine ⟨c1, fun held b k n hb hk => ?_⟩
      rw [drawKidsB]
      refine h1 held b _ _ hb ?_
      simp only [drawKids, e] at hk
      rw [e]
      exact hk

theorem drawClips_refines (hi : Refines ops pt inner innerB) (hT : T pt) {h : CHeap} (force : Bool) : ∀ (cs : List (Option Ptr)) (st : RState P) (x : P),
    ∃ c, ∀ held b k n, held b = some x →
      (match drawClips inner h force cs st x with | .ok (st', x') => ∀ held', Keeps held b x' held' → Ends ops Q A Post T k held' st' dest n | _ => Q) →
      Ends ops Q A Post T (drawClipsB innerB h force b cs k) held st dest (n + c) := by
  intro cs
  induction cs with
  | nil =>
    intro st x
    exact ⟨0, fun held b k n hb hk => hk held (.refl hb)⟩
  | cons o cs ih =>
    intro st x
    cases o with
    | none => exact ⟨0, fun held b k n hb hk => hk⟩
    | some p =>
      obtain ⟨c1, h1⟩ := hi Q A Post T dest hT st x p (h.at_ p).attr.opacity (h.at_ p).attr.blendMode force
      cases e : inner st x p (h.at_ p).attr.opacity (h.at_ p).attr.blendMode force with
      | ok r =>
        obtain ⟨st1, x1, dr⟩ := r
        obtain ⟨c2, h2⟩ := ih st1 x1
        refine ⟨c2 + c1, fun held b k n hb hk => ?_⟩
        simp only [drawClips, e, Res.ok_bind] at hk
        rw [drawClipsB, ← Nat.add_assoc]
        refine h1 held b _ _ hb ?_
        rw [e]
        intro held' hk'
        refine h2 held' b k n hk'.here ?_
        split
        · rename_i er
          rw [er] at hk
          exact fun held'' hk'' => hk held'' (hk'.trans hk'')
        · rename_i er
          split at hk
          · rename_i er'; exact absurd er' (er _ _)
          · exact hk
      | _ =>
        refine ⟨c1, fun held b k n hb hk => ?_⟩
        rw [drawClipsB]
        refine h1 held b _ _ hb ?_
        simp only [drawClips, e] at hk
        rw [e]
        exact hk

/-! ### A layer -/

/-- After `drawBufB` with the buffers `b` and `buf`: `b` holds `x`, `buf'` is an array of the goroutine, and the others it had are as before. -/
structure Keeps2 (held : Held P) (b buf : Nat) (x : P) (buf' : Nat) (held' : Held P) : Prop where
  here : held' b = some x
  has : held' buf' ≠ none
  ne : buf' ≠ b
  others : ∀ c, c ≠ b → c ≠ buf → held c ≠ none → c ≠ buf' ∧ held' c = held c

theorem drawBuf_refines (hi : Refines ops pt inner innerB) (hT : T pt) (s : Scene P M) (p : Ptr) (c : Option Int) (opacity : Nat) (mode : List UInt8) (st : RState P) (y x : P) :
    ∃ m, ∀ held b buf k n, b ≠ buf → held b = some y → held buf = some x →
      (match drawBuf ops inner s pt p c opacity mode st y x with
        | .ok (st', y', dr) => ∀ held' buf', Keeps2 held b buf y' buf' held' → Ends ops Q A Post T (k buf' dr) held' st' dest n
        | _ => Q) →
      Ends ops Q A Post T (drawBufB ops innerB s pt p c opacity mode b buf k) held st dest (n + m) := by
  -- the mask
  suffices hmask : ∃ m, ∀ (held : Held P) (b buf : Nat) (k : Nat → DrawResult → RProg P) (n : Nat), b ≠ buf → held b = some y → held buf = some (applyMask ops (s.h.at_ p).attr ((s.mask (s.h.at_ p).attr.seqID).lookup pt) mode y x) →
      (match drawBuf ops inner s pt p c opacity mode st y x with
        | .ok (st', y', dr) => ∀ held' buf', Keeps2 held b buf y' buf' held' → Ends ops Q A Post T (k buf' dr) held' st' dest n
        | _ => Q) →
      Ends ops Q A Post T (if (s.h.at_ p).clip.length = 0 then
          .load buf fun x => placeB ops opacity mode b x <| updateCacheB ops .drew c pt buf (k buf .drew)
        else
          .get fun clipBuf =>
            if (s.h.at_ p).attr.blendClippedElements then
              .load buf fun x => .store clipBuf (ops.removeAlpha (ops.copy x)) <|
                drawClipsB innerB s.h true clipBuf (s.h.at_ p).clip <|
                  .load buf fun x => .load clipBuf fun z => .store clipBuf (ops.destIn z x) <|
                    .load clipBuf fun z => placeB ops opacity mode b z <|
                      updateCacheB ops .drew c pt clipBuf (putB ops buf (k clipBuf .drew))
            else
              .load buf fun x => drawOnB ops opacity mode b x <|
                drawClipsB innerB s.h false b (s.h.at_ p).clip <|
                  updateCacheB ops .drew c pt buf (putB ops clipBuf (k buf .drew))) held st dest (n + m) by
    obtain ⟨m, hm⟩ := hmask
    refine ⟨m + 3, fun held b buf k n hne hb hx hk => ?_⟩
    unfold drawBufB applyMaskB
    simp only
    by_cases hen : (s.h.at_ p).attr.maskEnabled = true
    · rw [if_pos hen]
      refine ⟨x, hx, n + m + 2, by omega, y, hb, n + m + 1, by omega, by rw [hx]; simp, n + m, by omega, ?_⟩
      refine hm _ b buf k n hne ?_ (Held.set_self _ _ _) ?_
      · rw [Held.set_ne _ _ hne]; exact hb
      · split
        · rename_i e
          rw [e] at hk
          intro held' buf' hk'
          refine hk held' buf' ⟨hk'.here, hk'.has, hk'.ne, fun d d1 d2 d3 => ?_⟩
          have := hk'.others d d1 d2 (by rw [Held.set_ne _ _ d2]; exact d3)
          rw [Held.set_ne _ _ d2] at this
          exact this
        · rename_i er
          split at hk
          · rename_i er'; exact absurd er' (er _ _ _)
          · exact hk
    · rw [if_neg hen]
      refine Ends.mono (n := n + m) (hm held b buf k n hne hb ?_ hk) (by omega)
      rw [hx]
      simp only [applyMask, if_neg hen]
  generalize hx' : applyMask ops (s.h.at_ p).attr ((s.mask (s.h.at_ p).attr.seqID).lookup pt) mode y x = x'
  unfold drawBuf
  simp only [hx']
  by_cases hcl : (s.h.at_ p).clip.length = 0
  · refine ⟨7, fun held b buf k n hne hb hx hk => ?_⟩
    rw [if_pos hcl]
    rw [if_pos hcl] at hk
    refine ⟨x', hx, n + 6, by omega, place_ends hb ?_⟩
    cases e : (if mode = passThrough then Res.ok (ops.copy x') else ops.draw opacity mode y x') with
    | ok z =>
      rw [e] at hk
      refine updateCache_ends hT (x := x') ?_ (hk _ _ ?_)
      · rw [Held.set_ne _ _ (fun h => hne h.symm)]; exact hx
      · exact ⟨Held.set_self _ _ _, by rw [Held.set_ne _ _ (fun h => hne h.symm), hx]; simp, fun h => hne h.symm, fun d d1 d2 d3 => ⟨d2, Held.set_ne _ _ d1⟩⟩
    | _ => rw [e] at hk; exact hk
  · by_cases hbl : (s.h.at_ p).attr.blendClippedElements = true
    · obtain ⟨m, hm⟩ := drawClips_refines (Q := Q) (A := A) (Post := Post) (dest := dest) (h := s.h) hi hT true (s.h.at_ p).clip st (ops.removeAlpha (ops.copy x'))
      refine ⟨m + 15, fun held b buf k n hne hb hx hk => ?_⟩
      rw [if_neg hcl]
      rw [if_neg hcl, if_pos hbl] at hk
      refine ⟨n + m + 14, by omega, fun clipBuf hclip => ?_⟩
      have n1 : clipBuf ≠ b := fun h => by rw [h, hb] at hclip; cases hclip
      have n2 : clipBuf ≠ buf := fun h => by rw [h, hx] at hclip; cases hclip
      simp only
      rw [if_pos hbl]
      refine ⟨x', by rw [Held.set_ne _ _ (fun h => n2 h.symm)]; exact hx, n + m + 13, by omega, by rw [Held.set_self]; simp, n + 12 + m, by omega, ?_⟩
      refine hm _ clipBuf _ _ (Held.set_self _ _ _) ?_
      split
      · rename_i st1 z e1
        rw [e1] at hk
        simp only [Res.ok_bind] at hk
        intro held1 k1
        have hb1 : held1 b = some y := by
          have : ((held.set clipBuf (some ops.blank)).set clipBuf (some (ops.removeAlpha (ops.copy x')))) b = some y := by
            rw [Held.set_ne _ _ (fun h => n1 h.symm), Held.set_ne _ _ (fun h => n1 h.symm)]; exact hb
          rw [k1.others b (fun h => n1 h.symm) (by rw [this]; simp), this]
        have hx1 : held1 buf = some x' := by
          have : ((held.set clipBuf (some ops.blank)).set clipBuf (some (ops.removeAlpha (ops.copy x')))) buf = some x' := by
            rw [Held.set_ne _ _ (fun h => n2 h.symm), Held.set_ne _ _ (fun h => n2 h.symm)]; exact hx
          rw [k1.others buf (fun h => n2 h.symm) (by rw [this]; simp), this]
        refine ⟨x', hx1, n + 11, by omega, z, k1.here, n + 10, by omega, by rw [k1.here]; simp, n + 9, by omega, ops.destIn z x', Held.set_self _ _ _, n + 8, by omega, ?_⟩
        refine place_ends (y := y) ?_ ?_
        · rw [Held.set_ne _ _ (fun h => n1 h.symm)]; exact hb1
        · cases e : (if mode = passThrough then Res.ok (ops.copy (ops.destIn z x')) else ops.draw opacity mode y (ops.destIn z x')) with
          | ok w =>
            rw [e] at hk
            simp only [Res.ok_bind] at hk
            refine updateCache_ends (x := ops.destIn z x') hT ?_ (put_ends ?_ (hk _ _ ?_))
            · rw [Held.set_ne _ _ n1, Held.set_self]
            · rw [Held.set_ne _ _ (fun h => hne h.symm), Held.set_ne _ _ (fun h => n2 h.symm), hx1]; simp
            · refine ⟨?_, ?_, n1, fun d d1 d2 d3 => ?_⟩
              · rw [Held.set_ne _ _ hne, Held.set_self]
              · rw [Held.set_ne _ _ n2, Held.set_ne _ _ n1, Held.set_self]; simp
              · have hd : d ≠ clipBuf := fun h => by rw [h] at d3; exact d3 hclip
                refine ⟨hd, ?_⟩
                rw [Held.set_ne _ _ d2, Held.set_ne _ _ d1, Held.set_ne _ _ hd]
                have : ((held.set clipBuf (some ops.blank)).set clipBuf (some (ops.removeAlpha (ops.copy x')))) d = held d := by
                  rw [Held.set_ne _ _ hd, Held.set_ne _ _ hd]
                rw [k1.others d hd (by rw [this]; exact d3), this]
          | _ => rw [e] at hk; exact hk
      · rename_i er
        cases e1 : drawClips inner s.h true (s.h.at_ p).clip st (ops.removeAlpha (ops.copy x')) with
        | ok r => exact absurd e1 (er _ _)
        | _ => rw [e1] at hk; exact hk
    · cases ed : ops.draw opacity mode y x' with
      | ok w =>
        obtain ⟨m, hm⟩ := drawClips_refines (Q := Q) (A := A) (Post := Post) (dest := dest) (h := s.h) hi hT false (s.h.at_ p).clip st w
        refine ⟨m + 10, fun held b buf k n hne hb hx hk => ?_⟩
        rw [if_neg hcl]
        rw [if_neg hcl, if_neg hbl] at hk
        simp only [Res.ok_bind] at hk
        refine ⟨n + m + 9, by omega, fun clipBuf hclip => ?_⟩
        have n1 : clipBuf ≠ b := fun h => by rw [h, hb] at hclip; cases hclip
        have n2 : clipBuf ≠ buf := fun h => by rw [h, hx] at hclip; cases hclip
        simp only
        rw [if_neg hbl]
        refine ⟨x', by rw [Held.set_ne _ _ (fun h => n2 h.symm)]; exact hx, n + m + 8, by omega, ?_⟩
        refine drawOn_ends (y := y) ?_ ?_
        · rw [Held.set_ne _ _ (fun h => n1 h.symm)]; exact hb
        · rw [ed]
          refine Ends.mono (n := n + 6 + m) (hm _ b _ _ (Held.set_self _ _ _) ?_) (by omega)
          split
          · rename_i st1 z e1
            rw [e1] at hk
            simp only [Res.ok_bind] at hk
            intro held1 k1
            have same : ∀ d, d ≠ b → d ≠ clipBuf → held d ≠ none → held1 d = held d := by
              intro d d1 d2 d3
              have : ((held.set clipBuf (some ops.blank)).set b (some w)) d = held d := by rw [Held.set_ne _ _ d1, Held.set_ne _ _ d2]
              rw [k1.others d d1 (by rw [this]; exact d3), this]
            have hx1 : held1 buf = some x' := by
              rw [same buf (fun h => hne h.symm) (fun h => n2 h.symm) (by rw [hx]; simp), hx]
            have hc1 : held1 clipBuf = some ops.blank := by
              have : ((held.set clipBuf (some ops.blank)).set b (some w)) clipBuf = some ops.blank := by rw [Held.set_ne _ _ n1, Held.set_self]
              rw [k1.others clipBuf n1 (by rw [this]; simp), this]
            refine updateCache_ends (x := x') hT hx1 (put_ends (by rw [hc1]; simp) (hk _ _ ?_))
            refine ⟨?_, ?_, fun h => hne h.symm, fun d d1 d2 d3 => ?_⟩
            · rw [Held.set_ne _ _ (fun h => n1 h.symm)]; exact k1.here
            · rw [Held.set_ne _ _ (fun h => n2 h.symm), hx1]; simp
            · have hd : d ≠ clipBuf := fun h => by rw [h] at d3; exact d3 hclip
              refine ⟨d2, ?_⟩
              rw [Held.set_ne _ _ hd]
              exact same d d1 hd d3
          · rename_i er
            cases e1 : drawClips inner s.h false (s.h.at_ p).clip st w with
            | ok r => exact absurd e1 (er _ _)
            | _ => rw [e1] at hk; exact hk
      | _ =>
        refine ⟨4, fun held b buf k n hne hb hx hk => ?_⟩
        rw [if_neg hcl]
        rw [if_neg hcl, if_neg hbl] at hk
        refine ⟨n + 3, by omega, fun clipBuf hclip => ?_⟩
        have n1 : clipBuf ≠ b := fun h => by rw [h, hb] at hclip; cases hclip
        have n2 : clipBuf ≠ buf := fun h => by rw [h, hx] at hclip; cases hclip
        simp only
        rw [if_neg hbl]
        refine ⟨x', by rw [Held.set_ne _ _ (fun h => n2 h.symm)]; exact hx, n + 2, by omega, ?_⟩
        refine drawOn_ends (y := y) ?_ ?_
        · rw [Held.set_ne _ _ (fun h => n1 h.symm)]; exact hb
        · rw [ed]; exact hk

theorem drawLayer_refines (s : Scene P M) (pt : TPt) : ∀ f, Refines ops pt (drawLayer ops s pt f) (drawLayerB ops s pt f) := by
  intro f
  induction f with
  | zero =>
    intro Q A Post T dest hT st x p o m force
    exact ⟨0, fun held b k n hb hk => hk⟩
  | succ f ih =>
    intro Q A Post T dest hT st x p o m force
    rw [drawLayer]
    simp only
    by_cases hv : (s.h.at_ p).attr.visible = false ∨ o = 0
    · refine ⟨0, fun held b k n hb hk => ?_⟩
      rw [if_pos hv] at hk
      rw [drawLayerB]
      simp only
      rw [if_pos hv]
      exact hk.ok held (.refl hb)
    by_cases hc : (s.h.at_ p).attr.clipping = true ∧ force = false
    · refine ⟨0, fun held b k n hb hk => ?_⟩
      rw [if_neg hv, if_pos hc] at hk
      rw [drawLayerB]
      simp only
      rw [if_neg hv, if_pos hc]
      exact hk.ok held (.refl hb)
    by_cases hl : (s.h.at_ p).children.len = 0
    · rw [if_neg hv, if_neg hc, if_pos hl]
      cases hp : s.pic (s.h.at_ p).attr.seqID pt with
      | none =>
        refine ⟨0, fun held b k n hb hk => ?_⟩
        rw [drawLayerB]
        simp only
        rw [if_neg hv, if_neg hc, if_pos hl, hp]
        exact hk.ok held (.refl hb)
      | some pic =>
        obtain ⟨c, h⟩ := drawBuf_refines (Q := Q) (A := A) (Post := Post) (dest := dest) ih hT s p none o m st x (ops.copy pic)
        refine ⟨c + 2, fun held b k n hb hk => ?_⟩
        rw [drawLayerB]
        simp only
        rw [if_neg hv, if_neg hc, if_pos hl, hp]
        refine ⟨n + c + 1, by omega, fun buf hbuf => ⟨by rw [Held.set_self]; simp, n + c, by omega, ?_⟩⟩
        have hne : b ≠ buf := fun e => by rw [← e, hb] at hbuf; cases hbuf
        refine h _ b buf _ n hne ?_ (Held.set_self _ _ _) ?_
        · rw [Held.set_ne _ _ hne, Held.set_ne _ _ hne]; exact hb
        · simp only at hk
          unfold Follows at hk
          split
          · rename_i er
            rw [er] at hk
            intro held' buf' k2
            refine hk held' ⟨k2.here, fun d d1 d2 => ?_⟩
            have hd : d ≠ buf := fun e => by rw [e] at d2; exact d2 hbuf
            have : ((held.set buf (some ops.blank)).set buf (some (ops.copy pic))) d = held d := by rw [Held.set_ne _ _ hd, Held.set_ne _ _ hd]
            rw [(k2.others d d1 hd (by rw [this]; exact d2)).2, this]
          · rename_i er
            split at hk
            · rename_i er'; exact absurd er' (er _ _ _)
            · exact hk
    · rw [if_neg hv, if_neg hc, if_neg hl]
      cases hcs : st.cached (s.h.at_ p).attr.seqID pt with
      | some cs =>
        cases cs with
        | cached =>
          refine ⟨3, fun held b k n hb hk => ?_⟩
          rw [drawLayerB]
          simp only
          rw [if_neg hv, if_neg hc, if_neg hl]
          refine ⟨hT, n + 2, by omega, ?_⟩
          simp only [hcs, drawCached] at hk ⊢
          cases him : st.image (s.h.at_ p).attr.seqID pt with
          | none => rw [him] at hk; exact hk
          | some ci =>
            simp only [him] at hk ⊢
            refine place_ends hb ?_
            cases e : (if m = passThrough then Res.ok (ops.copy ci) else ops.draw o m x ci) with
            | ok z =>
              rw [e] at hk
              exact hk.ok _ (.set held b z)
            | _ => rw [e] at hk; exact hk
        | cachedEmpty =>
          refine ⟨1, fun held b k n hb hk => ?_⟩
          rw [drawLayerB]
          simp only
          rw [if_neg hv, if_neg hc, if_neg hl]
          refine ⟨hT, n, by omega, ?_⟩
          simp only [hcs, drawCached] at hk ⊢
          exact hk.ok held (.refl hb)
      | none =>
        simp only
        generalize hbuf0 : (if m = passThrough then ops.copy x else ops.blank) = buf0
        obtain ⟨c1, h1⟩ := drawKids_refines (Q := Q) (A := A) (Post := Post) (dest := dest) (h := s.h) (arr := (s.h.at_ p).children.arr)
          (scale := fun o' => o' * (if m = passThrough then o * 32897 else 255 * 32897) / 2 ^ 23) ih hT (s.h.at_ p).children.len 0 st buf0 false
        -- before the children
        have start : ∀ (held : Held P) (b : Nat) (kids : Nat → RProg P) (n : Nat), held b = some x →
            (∀ buf, buf ≠ b → held buf = none → Ends ops Q A Post T (kids buf) (held.set buf (some buf0)) st dest n) →
            Ends ops Q A Post T (.look (s.h.at_ p).attr.seqID pt fun cs im => match cs with
              | some .cached => match im with
                | none => .panic
                | some ci => placeB ops o m b ci (.done)
              | some .cachedEmpty => .done
              | none => .get fun buf => if m = passThrough then .load b fun y => .store buf (ops.copy y) (kids buf) else kids buf) held st dest (n + 4) := by
          intro held b kids n hb hk
          refine ⟨hT, n + 3, by omega, ?_⟩
          simp only [hcs]
          refine ⟨n + 2, by omega, fun buf hbuf => ?_⟩
          have hne : b ≠ buf := fun e => by rw [← e, hb] at hbuf; cases hbuf
          by_cases hm : m = passThrough
          · simp only [if_pos hm] at hbuf0 ⊢
            refine ⟨x, by rw [Held.set_ne _ _ hne]; exact hb, n + 1, by omega, by rw [Held.set_self]; simp, n, by omega, ?_⟩
            have : ((held.set buf (some ops.blank)).set buf (some (ops.copy x))) = held.set buf (some buf0) := by
              funext d
              rw [hbuf0]
              simp only [Held.set]
              split <;> rfl
            rw [this]
            exact hk buf (fun e => hne e.symm) hbuf
          · simp only [if_neg hm] at hbuf0 ⊢
            rw [hbuf0]
            exact (hk buf (fun e => hne e.symm) hbuf).mono (by omega)
        cases e : drawKids (drawLayer ops s pt f) s.h (s.h.at_ p).children.arr (fun o' => o' * (if m = passThrough then o * 32897 else 255 * 32897) / 2 ^ 23)
            (s.h.at_ p).children.len 0 st buf0 false with
        | ok r =>
          obtain ⟨st1, x1, drew⟩ := r
          simp only [Res.ok_bind]
          cases drew with
          | true =>
            simp only [if_true]
            obtain ⟨c2, h2⟩ := drawBuf_refines (Q := Q) (A := A) (Post := Post) (dest := dest) ih hT s p (some (s.h.at_ p).attr.seqID) o m st1 x x1
            refine ⟨2 + c2 + c1 + 4, fun held b k n hb hk => ?_⟩
            rw [drawLayerB]
            simp only
            rw [if_neg hv, if_neg hc, if_neg hl]
            have := start held b (fun buf => drawKidsB (drawLayerB ops s pt f) s.h (s.h.at_ p).children.arr
              (fun o' => o' * (if m = passThrough then o * 32897 else 255 * 32897) / 2 ^ 23) buf (s.h.at_ p).children.len 0 false fun drew =>
              if drew then drawBufB ops (drawLayerB ops s pt f) s pt p (some (s.h.at_ p).attr.seqID) o m b buf fun buf dr => putB ops buf (k dr)
              else updateCacheB ops .invisible (some (s.h.at_ p).attr.seqID) pt buf (putB ops buf (k .invisible))) (n + 2 + c2 + c1) hb ?_
            · refine ⟨hT, ?_⟩
              obtain ⟨-, n', hn', this⟩ := this
              refine ⟨n', by omega, ?_⟩
              simp only [hcs] at this ⊢
              exact this
            · intro buf hne hbuf
              refine h1 _ buf _ _ (Held.set_self _ _ _) ?_
              rw [e]
              intro held1 k1
              have hb1 : held1 b = some x := by
                have : (held.set buf (some buf0)) b = some x := by rw [Held.set_ne _ _ (fun e => hne e.symm)]; exact hb
                rw [k1.others b (fun e => hne e.symm) (by rw [this]; simp), this]
              simp only [if_true]
              refine h2 held1 b buf _ _ (fun e => hne e.symm) hb1 k1.here ?_
              unfold Follows at hk
              split
              · rename_i er
                rw [er] at hk
                intro held2 buf' k2
                refine put_ends k2.has (hk _ ⟨?_, fun d d1 d2 => ?_⟩)
                · rw [Held.set_ne _ _ (fun e => k2.ne e.symm)]; exact k2.here
                · have hd : d ≠ buf := fun e => by rw [e] at d2; exact d2 hbuf
                  have hs : (held.set buf (some buf0)) d = held d := Held.set_ne _ _ hd
                  have hd1 : held1 d = held d := by rw [k1.others d hd (by rw [hs]; exact d2), hs]
                  obtain ⟨a1, a2⟩ := k2.others d d1 hd (by rw [hd1]; exact d2)
                  rw [Held.set_ne _ _ a1, a2, hd1]
              · rename_i er
                split at hk
                · rename_i er'; exact absurd er' (er _ _ _)
                · exact hk
          | false =>
            refine ⟨6 + c1 + 4, fun held b k n hb hk => ?_⟩
            rw [drawLayerB]
            simp only
            rw [if_neg hv, if_neg hc, if_neg hl]
            have := start held b (fun buf => drawKidsB (drawLayerB ops s pt f) s.h (s.h.at_ p).children.arr
              (fun o' => o' * (if m = passThrough then o * 32897 else 255 * 32897) / 2 ^ 23) buf (s.h.at_ p).children.len 0 false fun drew =>
              if drew then drawBufB ops (drawLayerB ops s pt f) s pt p (some (s.h.at_ p).attr.seqID) o m b buf fun buf dr => putB ops buf (k dr)
              else updateCacheB ops .invisible (some (s.h.at_ p).attr.seqID) pt buf (putB ops buf (k .invisible))) (n + 2 + 4 + c1) hb ?_
            · refine ⟨hT, ?_⟩
              obtain ⟨-, n', hn', this⟩ := this
              refine ⟨n', by omega, ?_⟩
              simp only [hcs] at this ⊢
              exact this
            · intro buf hne hbuf
              refine h1 _ buf _ _ (Held.set_self _ _ _) ?_
              rw [e]
              intro held1 k1
              have hb1 : held1 b = some x := by
                have : (held.set buf (some buf0)) b = some x := by rw [Held.set_ne _ _ (fun e => hne e.symm)]; exact hb
                rw [k1.others b (fun e => hne e.symm) (by rw [this]; simp), this]
              simp only [if_neg Bool.false_ne_true]
              refine updateCache_ends hT k1.here (put_ends (by rw [k1.here]; simp) (hk _ ⟨?_, fun d d1 d2 => ?_⟩))
              · rw [Held.set_ne _ _ (fun e => hne e.symm)]; exact hb1
              · have hd : d ≠ buf := fun e => by rw [e] at d2; exact d2 hbuf
                have hs : (held.set buf (some buf0)) d = held d := Held.set_ne _ _ hd
                rw [Held.set_ne _ _ hd, k1.others d hd (by rw [hs]; exact d2), hs]
        | _ =>
          refine ⟨c1 + 4, fun held b k n hb hk => ?_⟩
          rw [drawLayerB]
          simp only
          rw [if_neg hv, if_neg hc, if_neg hl]
          have := start held b (fun buf => drawKidsB (drawLayerB ops s pt f) s.h (s.h.at_ p).children.arr
              (fun o' => o' * (if m = passThrough then o * 32897 else 255 * 32897) / 2 ^ 23) buf (s.h.at_ p).children.len 0 false fun drew =>
              if drew then drawBufB ops (drawLayerB ops s pt f) s pt p (some (s.h.at_ p).attr.seqID) o m b buf fun buf dr => putB ops buf (k dr)
              else updateCacheB ops .invisible (some (s.h.at_ p).attr.seqID) pt buf (putB ops buf (k .invisible))) (n + c1) hb ?_
          · refine ⟨hT, ?_⟩
            obtain ⟨-, n', hn', this⟩ := this
            refine ⟨n', by omega, ?_⟩
            simp only [hcs] at this ⊢
            exact this
          · intro buf hne hbuf
            refine h1 _ buf _ _ (Held.set_self _ _ _) ?_
            rw [e]
            exact hk

/-! ### A tile, a row, a goroutine -/

theorem updateTile_refines (s : Scene P M) (f : Nat) (hT : T pt) (st : RState P) : ∃ c, ∀ held k n,
    (match updateTile ops s f pt st with | .ok (st', mo, cs) => ∀ held', Ends ops Q A Post T (k mo cs) held' st' dest n | _ => Q) →
    Ends ops Q A Post T (updateTileB ops s f pt k) held st dest (n + c) := by
  unfold updateTile
  cases hcs : st.cached seqIDRoot pt with
  | some cs =>
    refine ⟨1, fun held k n hk => ⟨hT, n, by omega, ?_⟩⟩
    simp only [hcs] at hk ⊢
    exact hk held
  | none =>
    obtain ⟨c, h⟩ := drawKids_refines (Q := Q) (A := A) (Post := Post) (dest := dest) (h := s.h) (arr := (s.h.at_ s.root).children.arr) (scale := id)
      (drawLayer_refines (ops := ops) s pt f) hT (s.h.at_ s.root).children.len 0 st ops.blank false
    refine ⟨6 + c + 2, fun held k n hk => ⟨hT, n + 6 + c + 1, by omega, ?_⟩⟩
    simp only [hcs] at hk ⊢
    refine ⟨n + 2 + 4 + c, by omega, fun buf hbuf => ?_⟩
    refine h _ buf _ _ (Held.set_self _ _ _) ?_
    cases e : drawKids (drawLayer ops s pt f) s.h (s.h.at_ s.root).children.arr id (s.h.at_ s.root).children.len 0 st ops.blank false with
    | ok r =>
      obtain ⟨st1, x1, drew⟩ := r
      rw [e] at hk
      simp only [Res.ok_bind] at hk
      intro held1 k1
      cases drew with
      | true => exact updateCache_ends hT k1.here (put_ends (by rw [k1.here]; simp) (hk _))
      | false => exact updateCache_ends hT k1.here (put_ends (by rw [k1.here]; simp) (hk _))
    | _ => rw [e] at hk; exact hk

theorem renderTile_refines (s : Scene P M) (f : Nat) (diffOnly : Bool) (hT : T pt) (st : RState P) : ∃ c, ∀ held k n,
    (match renderTile ops s f diffOnly pt st dest with | .ok (st', dest') => ∀ held', Ends ops Q A Post T k held' st' dest' n | _ => Q) →
    Ends ops Q A Post T (renderTileB ops s f diffOnly pt k) held st dest (n + c) := by
  obtain ⟨c, h⟩ := updateTile_refines (Q := Q) (A := A) (Post := Post) (dest := dest) (ops := ops) s f hT st
  refine ⟨2 + c, fun held k n hk => ?_⟩
  unfold renderTileB
  rw [← Nat.add_assoc]
  refine h _ _ _ ?_
  unfold renderTile at hk
  cases e : updateTile ops s f pt st with
  | ok r =>
    obtain ⟨st1, mo, cs⟩ := r
    rw [e] at hk
    simp only [Res.ok_bind] at hk
    intro held1
    by_cases hm : (mo || !diffOnly) = true
    · simp only [hm, if_true] at hk ⊢
      cases cs with
      | cached =>
        refine ⟨hT, n + 1, by omega, ?_⟩
        cases him : st1.image seqIDRoot pt with
        | none => simp only [him] at hk; exact hk
        | some ci =>
          simp only [him] at hk
          exact ⟨hT, n, by omega, hk _⟩
      | cachedEmpty => exact ⟨hT, n + 1, by omega, (hk _).mono (by omega)⟩
    · simp only [hm] at hk ⊢
      exact (hk held1).mono (by omega)
  | _ => rw [e] at hk; exact hk

theorem renderRow_refines (s : Scene P M) (f : Nat) (diffOnly : Bool) : ∀ (pts : List TPt) (_ : ∀ q ∈ pts, T q) (st : RState P) (dest : TPt → P), ∃ c, ∀ held k n,
    (match renderTiles ops s f diffOnly pts st dest with | .ok (st', dest') => ∀ held', Ends ops Q A Post T k held' st' dest' n | _ => Q) →
    Ends ops Q A Post T (renderRowB ops s f diffOnly pts k) held st dest (n + c) := by
  intro pts
  induction pts with
  | nil => intro _ st dest; exact ⟨0, fun held k n hk => hk held⟩
  | cons q pts ih =>
    intro hT st dest
    obtain ⟨c1, h1⟩ := renderTile_refines (Q := Q) (A := A) (Post := Post) (dest := dest) (ops := ops) s f diffOnly (hT q (by simp)) st
    cases e : renderTile ops s f diffOnly q st dest with
    | ok r =>
      obtain ⟨st1, dest1⟩ := r
      obtain ⟨c2, h2⟩ := ih (fun q hq => hT q (by simp [hq])) st1 dest1
      refine ⟨c2 + c1, fun held k n hk => ?_⟩
      rw [renderRowB, ← Nat.add_assoc]
      refine h1 _ _ _ ?_
      rw [e]
      intro held'
      refine h2 _ _ _ ?_
      rw [renderTiles, e] at hk
      exact hk
    | _ =>
      refine ⟨c1, fun held k n hk => ?_⟩
      rw [renderRowB]
      refine h1 _ _ _ ?_
      rw [renderTiles, e] at hk
      rw [e]
      exact hk

end

end Psd
