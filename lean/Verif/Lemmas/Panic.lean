import Verif.Lemmas.NoPanic
import Verif.Lemmas.Fuel
import Verif.Lemmas.LayerRun
import Verif.Spec.Drawable

/-
Where `Decode` cannot panic: files whose unicode name and section divider blocks
have room for what they announce.
-/

namespace Psd

/-- `p` does not panic on a reader over `D`, keeps the data, and establishes `Q`. -/
def Safe (D : List UInt8) {α : Type} (p : P α) (Q : α → Prop) : Prop := ∀ s, s.data = D →
  (∀ e, p s ≠ .panic e) ∧ ∀ a s', p s = .ok (a, s') → s'.data = D ∧ Q a

namespace Safe
variable {D : List UInt8} {α β : Type}

theorem pure {a : α} {Q : α → Prop} (h : Q a) : Safe D (Pure.pure a : P α) Q := by
  intro s hd
  refine ⟨by intro e; simp, fun b s' e => ?_⟩
  cases e
  exact ⟨hd, h⟩

theorem fail {e : Err} {Q : α → Prop} : Safe D (P.fail e : P α) Q := by
  intro s hd
  exact ⟨by intro e; simp, fun b s' e => by cases e⟩

theorem outOfFuel {Q : α → Prop} : Safe D (P.outOfFuel : P α) Q := by
  intro s hd
  refine ⟨?_, fun b s' e => by cases e⟩
  intro e h
  cases h

theorem bind {p : P α} {f : α → P β} {Q : α → Prop} {R : β → Prop} (h1 : Safe D p Q)
    (h2 : ∀ a, Q a → Safe D (f a) R) : Safe D (p >>= f) R := by
  intro s hd
  obtain ⟨h3, h4⟩ := h1 s hd
  rw [P.bind_apply]
  cases hp : p s with
  | ok r =>
    obtain ⟨a, s₁⟩ := r
    obtain ⟨h5, h6⟩ := h4 _ _ hp
    exact h2 a h6 s₁ h5
  | err e => exact ⟨by intro e; simp, fun b s' e => by cases e⟩
  | panic e => exact absurd hp (h3 e)
  | fuel => exact ⟨by intro e; simp, fun b s' e => by cases e⟩

theorem ite {c : Prop} [Decidable c] {p q : P α} {Q : α → Prop} (h1 : c → Safe D p Q) (h2 : ¬c → Safe D q Q) :
    Safe D (if c then p else q) Q := by
  split
  · exact h1 ‹_›
  · exact h2 ‹_›

theorem mono {p : P α} {Q R : α → Prop} (h : Safe D p Q) (hi : ∀ a, Q a → R a) : Safe D p R :=
  fun s hd => ⟨(h s hd).1, fun a s' e => ⟨((h s hd).2 a s' e).1, hi _ ((h s hd).2 a s' e).2⟩⟩

theorem of {p : P α} (h1 : NoPanic p) (h2 : ∀ s a s', p s = .ok (a, s') → s'.data = s.data) :
    Safe D p fun _ => True :=
  fun s hd => ⟨fun e => h1 s e, fun a s' e => ⟨(h2 s a s' e).trans hd, trivial⟩⟩

theorem lift {x : Res α} {Q : α → Prop} (h : ∀ q, x ≠ .panic q) (h2 : ∀ a, x = .ok a → Q a) : Safe D (P.lift x) Q := by
  intro s hd
  refine ⟨fun e => NoPanic.lift h s e, fun a s' e => ?_⟩
  obtain ⟨h1, rfl⟩ := P.lift_eq_ok.1 e
  exact ⟨hd, h2 _ h1⟩

theorem readFull (k : Nat) : Safe D (readFull k) fun b => b.length = k := by
  intro s hd
  refine ⟨fun e => NoPanic.readFull k s e, fun a s' e => ?_⟩
  obtain ⟨h1, h2, h3, sched, rfl, -⟩ := readFull_eq_ok e
  exact ⟨hd, h3⟩

end Safe

open Spec (field num infoSigs unicodeRoom SoundBlocks NestedAt announced contents lenWidth)

section
variable {D : List UInt8}

theorem safe_of_clo {α : Type} {p : P α} (h1 : NoPanic p) (h2 : Frame p p) : Safe D p fun _ => True :=
  Safe.of h1 fun s a s' e => (h2 s a s' e).1

theorem safe_discard (n : Int) : Safe D (discard n) fun _ => True := safe_of_clo (NoPanic.discard n) (frame_discard n)

theorem safe_readAny (k : Nat) : Safe D (readFull k) fun _ => True := (Safe.readFull k).mono fun _ _ => trivial

theorem safe_maskTail (m : Mask) (a b c : Int) : Safe D (readMaskTail m a b c) fun _ => True := by
  unfold readMaskTail
  refine Safe.ite (fun _ => Safe.ite (fun _ => (safe_readAny _).bind fun _ _ => Safe.pure trivial) fun _ => Safe.pure trivial)
    fun _ => Safe.ite (fun _ => Safe.pure trivial) fun _ => ?_
  refine (safe_readAny _).bind fun _ _ => Safe.ite (fun _ => Safe.pure trivial) fun _ => ?_
  refine (safe_readAny _).bind fun _ _ => Safe.ite (fun _ => ?_) fun _ => (safe_readAny _).bind fun _ _ => Safe.pure trivial
  exact Safe.ite (fun _ => (safe_discard _).bind fun _ _ => Safe.pure trivial) fun _ => Safe.pure trivial

theorem safe_maskP8 (p : Nat) (m : Mask) (a b c : Int) : Safe D (readMaskP8 p m a b c) fun _ => True := by
  unfold readMaskP8
  refine Safe.ite (fun _ => Safe.ite (fun _ => ?_) fun _ => (safe_readAny _).bind fun _ _ => safe_maskTail _ _ _ _)
    fun _ => safe_maskTail _ _ _ _
  exact Safe.ite (fun _ => (safe_discard _).bind fun _ _ => Safe.pure trivial) fun _ => Safe.pure trivial

theorem safe_maskP4 (p : Nat) (m : Mask) (a b c : Int) : Safe D (readMaskP4 p m a b c) fun _ => True := by
  unfold readMaskP4
  exact Safe.ite (fun _ => Safe.ite (fun _ => Safe.pure trivial) fun _ =>
    (safe_readAny _).bind fun _ _ => safe_maskP8 _ _ _ _ _) fun _ => safe_maskP8 _ _ _ _ _

theorem safe_maskP2 (p : Nat) (m : Mask) (a b c : Int) : Safe D (readMaskP2 p m a b c) fun _ => True := by
  unfold readMaskP2
  refine Safe.ite (fun _ => Safe.ite (fun _ => ?_) fun _ => (safe_readAny _).bind fun _ _ => safe_maskP4 _ _ _ _ _)
    fun _ => safe_maskP4 _ _ _ _ _
  exact Safe.ite (fun _ => (safe_discard _).bind fun _ _ => Safe.pure trivial) fun _ => Safe.pure trivial

theorem safe_maskP1 (p : Nat) (m : Mask) (a b c : Int) : Safe D (readMaskP1 p m a b c) fun _ => True := by
  unfold readMaskP1
  exact Safe.ite (fun _ => Safe.ite (fun _ => Safe.pure trivial) fun _ =>
    (safe_readAny _).bind fun _ _ => safe_maskP2 _ _ _ _ _) fun _ => safe_maskP2 _ _ _ _ _

theorem safe_mask (m : Mask) : Safe D (readMaskData m) fun _ => True := by
  unfold readMaskData
  refine (safe_readAny _).bind fun _ _ => Safe.ite (fun _ => Safe.pure trivial) fun _ => Safe.ite (fun _ => ?_) fun _ => ?_
  · exact Safe.ite (fun _ => (safe_discard _).bind fun _ _ => Safe.pure trivial) fun _ => Safe.pure trivial
  · refine (safe_readAny _).bind fun _ _ => Safe.ite (fun _ => Safe.pure trivial) fun _ => ?_
    refine (safe_readAny _).bind fun _ _ => Safe.ite (fun _ => Safe.pure trivial) fun _ => ?_
    refine (safe_readAny _).bind fun _ _ => Safe.ite (fun _ => ?_) fun _ => safe_maskTail _ _ _ _
    exact Safe.ite (fun _ => Safe.pure trivial) fun _ => (safe_readAny _).bind fun _ _ => safe_maskP1 _ _ _ _ _

/-- Additional information in which the blocks looked at have room. -/
def GoodInfos (m : Infos) : Prop :=
  (∀ b, m keyLuni = some b → unicodeRoom b) ∧ (∀ b, m keyLsct = some b → 4 ≤ b.length) ∧
  (∀ b, m keyLsdk = some b → 4 ≤ b.length)

theorem goodInfos_empty : GoodInfos GoMap.empty :=
  ⟨fun b h => (by cases h), fun b h => (by cases h), fun b h => (by cases h)⟩

theorem GoodInfos.del {m : Infos} (h : GoodInfos m) (k : Key) : GoodInfos (m.del k) := by
  have : ∀ k' b, m.del k k' = some b → m k' = some b := by
    intro k' b hb
    unfold GoMap.del at hb
    split at hb
    · cases hb
    · exact hb
  exact ⟨fun b hb => h.1 b (this _ _ hb), fun b hb => h.2.1 b (this _ _ hb), fun b hb => h.2.2 b (this _ _ hb)⟩

theorem GoodInfos.set {m : Infos} (h : GoodInfos m) {k : Key} {d : List UInt8} (h1 : k = keyLuni → unicodeRoom d)
    (h2 : k = keyLsct ∨ k = keyLsdk → 4 ≤ d.length) : GoodInfos (m.set k d) := by
  have : ∀ k' b, m.set k d k' = some b → (k = k' ∧ b = d) ∨ m k' = some b := by
    intro k' b hb
    unfold GoMap.set at hb
    split at hb
    · rename_i he
      cases hb
      exact .inl ⟨he.symm, rfl⟩
    · exact .inr hb
  refine ⟨fun b hb => ?_, fun b hb => ?_, fun b hb => ?_⟩
  · rcases this _ _ hb with ⟨e, rfl⟩ | e
    · exact h1 e
    · exact h.1 b e
  · rcases this _ _ hb with ⟨e, rfl⟩ | e
    · exact h2 (.inl e)
    · exact h.2.1 b e
  · rcases this _ _ hb with ⟨e, rfl⟩ | e
    · exact h2 (.inr e)
    · exact h.2.2 b e

theorem readUnits_np (b : List UInt8) : ∀ n i, 4 + 2 * (i + n) ≤ b.length → ∀ e, readUnits b n i ≠ .panic e := by
  intro n
  induction n with
  | zero => intro i h e; simp [readUnits]
  | succ n ih =>
    intro i h e
    rw [readUnits]
    have : readUint16 b (4 + 2 * i) = .ok (beNat ((b.drop (4 + 2 * i)).take 2)) := by
      unfold readUint16; rw [if_pos (by omega)]
    rw [this]
    have hr := ih (i + 1) (by omega)
    simp only [Res.ok_bind]
    cases hh : readUnits b n (i + 1) with
    | panic e => exact absurd hh (hr e)
    | _ => simp

theorem unicode_np {b : List UInt8} (h : 4 ≤ b.length ∧ 4 + 2 * num (b.take 4) ≤ b.length) (e : Panic) :
    readUnicodeString b ≠ .panic e := by
  unfold readUnicodeString readUint32
  rw [if_pos (by omega)]
  simp only [Res.ok_bind, List.drop_zero]
  have hr := readUnits_np b (beNat (b.take 4)) 0 (by rw [num_eq] at h; omega)
  cases hh : readUnits b (beNat (b.take 4)) 0 with
  | panic e => exact absurd hh (hr e)
  | _ => simp

theorem divider_np {b : List UInt8} (h : 4 ≤ b.length) (e : Panic) : sectionDivider b ≠ .panic e := by
  unfold sectionDivider readUint32
  rw [if_pos (by omega)]
  simp only [Res.ok_bind]
  split
  · simp
  · split
    · simp
    · split
      · simp
      · rw [if_pos (by omega)]; simp

theorem finish_np {l : LayerRec} (h : GoodInfos l.infos) (e : Panic) : finishRecord l ≠ .panic e := by
  unfold finishRecord
  have hs : ∀ m, GoodInfos m → ∀ e, readSectionDividerSetting m ≠ .panic e := by
    intro m hm e
    unfold readSectionDividerSetting
    split
    · exact divider_np (hm.2.1 _ ‹_›) e
    · split
      · exact divider_np (hm.2.2 _ ‹_›) e
      · simp
  have key : ∀ l' : LayerRec, GoodInfos l'.infos → (∀ e, (do
      let layer := (match l'.infos keyClbl with
        | some (d :: _) =>
          { l' with blendClippedElements := d ≠ 0, infos := l'.infos.del keyClbl }
        | _ => { l' with blendClippedElements := true })
      let (typ, bm, sub) ← readSectionDividerSetting layer.infos
      Res.ok { layer with
        sdType := typ
        sdBlendMode := if bm = [] then layer.blendMode else bm
        sdSubType := sub
        infos := layer.infos.del keyLsct } : Res LayerRec) ≠ .panic e) := by
    intro l' hl e
    have hg : GoodInfos (match l'.infos keyClbl with
        | some (d :: _) => { l' with blendClippedElements := decide (d ≠ 0), infos := l'.infos.del keyClbl }
        | _ => { l' with blendClippedElements := true } : LayerRec).infos := by
      split
      · exact hl.del _
      · exact hl
    have := hs _ hg
    simp only
    cases hh : readSectionDividerSetting (match l'.infos keyClbl with
        | some (d :: _) => { l' with blendClippedElements := decide (d ≠ 0), infos := l'.infos.del keyClbl }
        | _ => { l' with blendClippedElements := true } : LayerRec).infos with
    | panic e => exact absurd hh (this e)
    | _ => simp
  cases hu : l.infos keyLuni with
  | none => exact key { l with name := l.mbcsName } h e
  | some d =>
    cases d with
    | nil => exact key { l with name := l.mbcsName } h e
    | cons x xs =>
      have := h.1 _ hu
      rcases this with hn | hn
      · cases hn
      · simp only
        cases hh : readUnicodeString (x :: xs) with
        | panic e => exact absurd hh (unicode_np hn e)
        | ok u => exact key { l with unicodeName := u, name := u, infos := l.infos.del keyLuni } (h.del _) e
        | err e => simp
        | fuel => simp

theorem field_data {k : Nat} {s s' : St} {b : List UInt8} (h : readFull k s = .ok (b, s')) :
    b = field s.data s.pos k ∧ s'.pos = s.pos + k ∧ s'.data = s.data ∧ b.length = k := by
  obtain ⟨h1, h2, h3, sched, rfl, -⟩ := readFull_eq_ok h
  exact ⟨h2, rfl, rfl, h3⟩

theorem scanSig_ok (L : Int) : ∀ fuel b0 read s, s.data = D → (b0 = 0x38 → 1 ≤ s.pos ∧ field D (s.pos - 1) 1 = [0x38]) →
    (∀ e, scanSig L fuel b0 read s ≠ .panic e) ∧ ∀ a s', scanSig L fuel b0 read s = .ok (a, s') →
      s'.data = D ∧ (a.1 = 0x38 → 1 ≤ s'.pos ∧ field D (s'.pos - 1) 1 = [0x38]) := by
  intro fuel
  induction fuel with
  | zero =>
    intro b0 read s hd hb
    rw [scanSig.eq_def]
    simp only
    rw [P.ite_app]
    split
    · exact ⟨(by intro e h; cases h), fun a s' e => by cases e⟩
    · refine ⟨(by intro e h; cases h), fun a s' e => ?_⟩
      cases e
      exact ⟨hd, hb⟩
  | succ n ih =>
    intro b0 read s hd hb
    rw [scanSig.eq_def]
    simp only
    rw [P.ite_app]
    split
    · rw [P.bind_apply]
      cases h : readFull 1 s with
      | ok r =>
        obtain ⟨b, s₁⟩ := r
        obtain ⟨h1, h2, h3, h4⟩ := field_data h
        refine ih _ _ s₁ (h3.trans hd) fun hx => ?_
        rw [h2, Nat.add_sub_cancel]
        refine ⟨by omega, ?_⟩
        rw [hd] at h1
        rw [← h1]
        match b, h4 with
        | [c], _ => simpa using hx
      | err e => exact ⟨(by intro e h; cases h), fun a s' e => by cases e⟩
      | panic e => exact absurd h (NoPanic.readFull 1 s e)
      | fuel => exact ⟨(by intro e h; cases h), fun a s' e => by cases e⟩
    · refine ⟨(by intro e h; cases h), fun a s' e => ?_⟩
      cases e
      exact ⟨hd, hb⟩

theorem field_append (d : List UInt8) (p m n : Nat) : field d p (m + n) = field d p m ++ field d (p + m) n := by
  unfold field
  rw [List.take_add, List.drop_drop]

theorem lenSize_width (key : Key) (psb : Bool) : lenSize key psb = lenWidth psb key := rfl

/-- Like `Safe`, from the positions at which nested layer sections are read. -/
def SafeNested (D : List UInt8) {α : Type} (p : P α) : Prop := ∀ s, s.data = D → NestedAt D s.pos →
  (∀ e, p s ≠ .panic e) ∧ ∀ a s', p s = .ok (a, s') → s'.data = D

theorem addl_ok {psb : Bool} (hD : SoundBlocks psb D) {li : P (Option (List LayerRec) × Int)} (hli : SafeNested D li)
    (L : Int) (bound : Nat) : ∀ fuel infos layers read, GoodInfos infos →
      Safe D (addlLoop li psb L bound fuel infos layers read) fun r => GoodInfos r.1 := by
  intro fuel
  induction fuel with
  | zero =>
    intro infos layers read hg
    rw [addlLoop.eq_def]; simp only
    exact Safe.ite (fun _ => Safe.outOfFuel) fun _ => Safe.pure hg
  | succ n ih =>
    intro infos layers read hg
    rw [addlLoop.eq_def]; simp only
    refine Safe.ite (fun _ => ?_) fun _ => Safe.pure hg
    intro s hd
    rw [P.bind_apply]
    obtain ⟨s1, s2⟩ := scanSig_ok (D := D) L bound 0 read s hd (fun h => absurd h (by decide))
    cases hs : scanSig L bound 0 read s with
    | err e => exact ⟨(by intro e h; cases h), fun a s' e => by cases e⟩
    | panic e => exact absurd hs (s1 e)
    | fuel => exact ⟨(by intro e h; cases h), fun a s' e => by cases e⟩
    | ok r =>
      obtain ⟨⟨b0, read⟩, t⟩ := r
      obtain ⟨hd1, hb⟩ := s2 _ _ hs
      simp only at hb ⊢
      rw [P.ite_app]
      split
      · refine ⟨(by intro e h; cases h), fun a s' e => ?_⟩
        cases e
        exact ⟨hd1, hg⟩
      · rename_i hb0
        have hb0' : b0 = 0x38 := Classical.not_not.1 hb0
        obtain ⟨hp, hf⟩ := hb hb0'
        rw [P.bind_apply]
        cases h7 : readFull 7 t with
        | err e => exact ⟨(by intro e h; cases h), fun a s' e => by cases e⟩
        | panic e => exact absurd h7 (NoPanic.readFull 7 t e)
        | fuel => exact ⟨(by intro e h; cases h), fun a s' e => by cases e⟩
        | ok r =>
          obtain ⟨b, t₁⟩ := r
          obtain ⟨h1, h2, h3, h4⟩ := field_data h7
          rw [hd1] at h1 h3
          -- the eight bytes of signature and name
          have h8 : b0 :: b = field D (t.pos - 1) 8 := by
            have := field_append D (t.pos - 1) 1 7
            rw [hf, show t.pos - 1 + 1 = t.pos from by omega, ← h1] at this
            rw [this, hb0']; rfl
          have hsig : (b0 :: b).take 4 = field D (t.pos - 1) 4 := by
            rw [h8]; unfold field; rw [List.take_take]; rfl
          have hkey : (b0 :: b).drop 4 = field D (t.pos - 1 + 4) 4 := by
            rw [h8]; unfold field; rw [List.drop_take, List.drop_drop]
          simp only
          rw [P.ite_app]
          split
          · exact ⟨(by intro e h; cases h), fun a s' e => by cases e⟩
          · rename_i hsg
            have hmem : field D (t.pos - 1) 4 ∈ infoSigs := by
              rw [← hsig]
              by_cases hx : (b0 :: b).take 4 = sectionSignature
              · rw [hx]; decide
              · rw [Classical.not_not.1 fun hy => hsg ⟨hx, hy⟩]; decide
            rw [P.ite_app]
            split
            · rename_i hnk
              have hpos : t₁.pos = t.pos - 1 + 8 := by omega
              have hne : NestedAt D t₁.pos := by
                refine ⟨by omega, ?_, ?_⟩
                · rw [hpos, Nat.add_sub_cancel]; exact hmem
                · rw [hpos, show t.pos - 1 + 8 - 4 = t.pos - 1 + 4 from by omega, ← hkey]
                  rcases hnk with h | h | h <;> rw [h] <;> decide
              obtain ⟨n1, n2⟩ := hli t₁ h3 hne
              rw [P.bind_apply]
              cases hli' : li t₁ with
              | err e => exact ⟨(by intro e h; cases h), fun a s' e => by cases e⟩
              | panic e => exact absurd hli' (n1 e)
              | fuel => exact ⟨(by intro e h; cases h), fun a s' e => by cases e⟩
              | ok r =>
                obtain ⟨⟨layrs, l⟩, t₂⟩ := r
                exact ih _ _ _ hg t₂ (n2 _ _ hli')
            · rw [P.bind_apply, lenSize_width, hkey]
              generalize hw : lenWidth psb (field D (t.pos - 1 + 4) 4) = w
              have hbody := hD (t.pos - 1) hmem
              have han : announced psb D (t.pos - 1) = num (field D (t.pos - 1 + 8) w) := by
                unfold announced; rw [hw]
              have hco : contents psb D (t.pos - 1) = field D (t.pos - 1 + 8 + w) (announced psb D (t.pos - 1)) := by
                unfold contents; rw [hw]
              obtain ⟨hlt, hbody⟩ := hbody
              generalize announced psb D (t.pos - 1) = an at han hco hlt hbody
              cases h9 : readFull w t₁ with
              | err e => exact ⟨(by intro e h; cases h), fun a s' e => by cases e⟩
              | panic e => exact absurd h9 (NoPanic.readFull w t₁ e)
              | fuel => exact ⟨(by intro e h; cases h), fun a s' e => by cases e⟩
              | ok r =>
                obtain ⟨c, t₂⟩ := r
                obtain ⟨k1, k2, k3, k4⟩ := field_data h9
                rw [h3] at k1 k3
                have hpos : t₁.pos = t.pos - 1 + 8 := by omega
                have hln : int64 (beAt c 0 w) = (an : Nat) := by
                  have e : beAt c 0 w = an := by
                    unfold beAt; rw [List.drop_zero, List.take_of_length_le (by omega), han, num_eq, ← hpos, ← k1]
                  rw [e]
                  exact int64_nat (by omega)
                simp only
                rw [hln, P.ite_app]
                split
                · rename_i hgt
                  have hmk : goMake (an : Int) = .ok an := by
                    unfold goMake maxAlloc
                    rw [if_pos (by omega)]; simp
                  rw [hmk, P.bind_ok (P.lift_ok _ _), P.bind_apply]
                  cases h10 : readFull an t₂ with
                  | err e => exact ⟨(by intro e h; cases h), fun a s' e => by cases e⟩
                  | panic e => exact absurd h10 (NoPanic.readFull _ t₂ e)
                  | fuel => exact ⟨(by intro e h; cases h), fun a s' e => by cases e⟩
                  | ok r =>
                    obtain ⟨d, t₃⟩ := r
                    obtain ⟨j1, j2, j3, j4⟩ := field_data h10
                    rw [k3] at j1 j3
                    have hp2 : t₂.pos = t.pos - 1 + 8 + w := by omega
                    rw [hp2, ← hco] at j1
                    rw [← j1] at hbody
                    obtain ⟨r1, r2⟩ := hbody j4
                    refine ih _ _ _ (hg.set (fun hk => r1 hk) fun hk => ?_) t₃ j3
                    rw [j4]
                    exact r2 (by rcases hk with hk | hk <;> rw [hk] <;> decide)
                · rename_i hgt
                  have h0 : an = 0 := by omega
                  have hc0 : contents psb D (t.pos - 1) = [] := by rw [hco, h0]; rfl
                  rw [h0, hc0] at hbody
                  obtain ⟨r1, r2⟩ := hbody rfl
                  refine ih _ _ _ (hg.set (fun _ => .inl rfl) fun hk => ?_) t₂ k3
                  exact r2 (by rcases hk with hk | hk <;> rw [hk] <;> decide)

/-- Reading a layer record. -/
theorem safe_extra {addl : Int → P (Infos × List LayerRec × Int)} (ha : ∀ n, Safe D (addl n) fun r => GoodInfos r.1)
    (layer : LayerRec) (hl : GoodInfos layer.infos) :
    Safe D (readLayerExtraData addl layer) fun r => GoodInfos r.1.infos := by
  unfold readLayerExtraData
  refine (safe_readAny _).bind fun b _ => Safe.ite (fun _ => Safe.pure hl) fun _ => ?_
  refine (safe_mask _).bind fun ⟨mask, l⟩ _ => (safe_readAny _).bind fun b _ => ?_
  refine Safe.bind (Q := fun _ => True) (Safe.ite (fun _ => safe_discard _) fun _ => Safe.pure trivial) fun l _ => ?_
  refine (safe_of_clo NoPanic.pascal frame_clo.pascal).bind fun ⟨name, l⟩ _ => ?_
  refine (safe_of_clo (NoPanic.align4 _) (frame_align4 _)).bind fun l _ => ?_
  refine Safe.bind (Q := fun r => GoodInfos r.1) (Safe.ite (fun _ => ha _) fun _ => Safe.pure goodInfos_empty)
    fun ⟨infos, layers, l⟩ hi => ?_
  exact Safe.ite (fun _ => Safe.fail) fun _ => Safe.ite (fun _ => Safe.fail) fun _ => Safe.pure hi

theorem safe_channelList (k : Nat) : ∀ n, Safe D (readChannelList k n) fun _ => True := by
  intro n
  induction n with
  | zero => rw [readChannelList]; exact Safe.pure trivial
  | succ n ih => rw [readChannelList]; exact (safe_readAny _).bind fun _ _ => ih.bind fun _ _ => Safe.pure trivial

theorem safe_record {addl : Int → P (Infos × List LayerRec × Int)} (ha : ∀ n, Safe D (addl n) fun r => GoodInfos r.1)
    (psb : Bool) (i : Nat) : Safe D (readLayerRecord addl psb i) fun _ => True := by
  unfold readLayerRecord
  refine (safe_readAny _).bind fun b _ => (safe_readAny _).bind fun b _ => (safe_channelList _ _).bind fun chs _ => ?_
  refine (safe_readAny _).bind fun b _ => Safe.ite (fun _ => Safe.fail) fun _ => ?_
  refine (safe_extra ha _ goodInfos_empty).bind fun ⟨layer, l⟩ hg => ?_
  exact Safe.bind (Q := fun _ => True) (Safe.lift (finish_np hg) fun _ _ => trivial) fun _ _ => Safe.pure trivial

theorem safe_records {addl : Int → P (Infos × List LayerRec × Int)} (ha : ∀ n, Safe D (addl n) fun r => GoodInfos r.1)
    (psb : Bool) : ∀ n i, Safe D (readLayerRecords addl psb n i) fun _ => True := by
  intro n
  induction n with
  | zero => intro i; rw [readLayerRecords]; exact Safe.pure trivial
  | succ n ih =>
    intro i
    rw [readLayerRecords]
    exact (safe_record ha psb i).bind fun ⟨_, _, _⟩ _ => (ih _).bind fun ⟨_, _⟩ _ => Safe.pure trivial

theorem buildTree_ok {α : Type} (typ : α → Nat) : ∀ ls st n e, buildTreeLoop typ ls st n ≠ .panic e := by
  intro ls
  induction ls with
  | nil => intro st n e; simp [buildTreeLoop]
  | cons l ls ih =>
    intro st n e
    rw [buildTreeLoop.eq_def]
    simp only
    split
    · split
      · simp
      · exact ih _ _ _
    · split
      · exact ih _ _ _
      · exact ih _ _ _

end

end Psd
