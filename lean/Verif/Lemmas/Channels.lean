import Verif.Lemmas.Relation
import Verif.Lemmas.Alpha
import Verif.Spec.Channels
import Verif.Props.PorterDuff
import Verif.Props.BlendLaws

/-!
# What the operations do to one channel
-/

namespace Psd

/-- What a Porter-Duff operator does to a channel: from the alphas and the values of the channel in the source and the destination. -/
def pdC (op : PD) (sa da s d : Nat) : Nat :=
  op.mix (sa * 257) (da * 257) (scale16 (s * 257) (sa * 257)) (scale16 (d * 257) (da * 257)) * 65535 / op.mix (sa * 257) (da * 257) (sa * 257) (da * 257) / 256

theorem scale16_mono {x y : Nat} (a : Nat) (h : x ≤ y) : scale16 x a ≤ scale16 y a := Nat.div_le_div_right (Nat.mul_le_mul_right _ h)

theorem pdC_mono (op : PD) (sa da : Nat) {s s' d d' : Nat} (hs : s ≤ s') (hd : d ≤ d') : pdC op sa da s d ≤ pdC op sa da s' d' :=
  Nat.div_le_div_right (Nat.div_le_div_right (Nat.mul_le_mul_right _ (mix_mono op _ _ (scale16_mono _ (Nat.mul_le_mul_right _ hs)) (scale16_mono _ (Nat.mul_le_mul_right _ hd)))))

theorem pd_chan (op : PD) (s d e : Px) (c : Primary) : ((pxOr e (drawPD op .nrgba (.px .nrgba s) d)).chan c).toNat = pdC op s.a.toNat d.a.toNat (s.chan c).toNat (d.chan c).toNat := by
  obtain ⟨S, D, V, p, m1, m2, ⟨v1, v2, v3, v4⟩, -, e1, ⟨-, s1, s2, s3⟩⟩ := C47_drawing op .nrgba (.px .nrgba s) d (fun h => by cases h) (fun h => by cases h)
  rw [e1]
  obtain ⟨a1, r1, g1, b1⟩ := m1
  obtain ⟨a2, r2, g2, b2⟩ := m2
  simp only at r1 g1 b1 r2 g2 b2 s1 s2 s3
  unfold pdC
  cases c <;> simp only [pxOr, Px.chan]
  · rw [s1, v1, v2, a1, a2, r1, r2]
  · rw [s2, v1, v3, a1, a2, g1, g2]
  · rw [s3, v1, v4, a1, a2, b1, b2]

theorem pd_chan_mask (op : PD) (v : UInt8) (d e : Px) (c : Primary) : ((pxOr e (drawPD op .nrgba (.alpha v) d)).chan c).toNat = pdC op v.toNat d.a.toNat 0 (d.chan c).toNat := by
  obtain ⟨S, D, V, p, m1, m2, ⟨v1, v2, v3, v4⟩, -, e1, ⟨-, s1, s2, s3⟩⟩ := C47_drawing op .nrgba (.alpha v) d trivial (fun h => by cases h)
  rw [e1]
  obtain rfl := m1
  obtain ⟨a2, r2, g2, b2⟩ := m2
  have hv : (UInt32.ofNat (v.toNat * 257)).toNat = v.toNat * 257 := by
    have := v.toNat_lt
    rw [UInt32.toNat_ofNat']
    omega
  simp only [hv] at v1 v2 v3 v4
  simp only at r2 g2 b2 s1 s2 s3
  unfold pdC
  have z : ∀ a, scale16 (0 * 257) a = (0 : UInt32).toNat := fun a => by simp [scale16]
  cases c <;> simp only [pxOr, Px.chan]
  · rw [s1, v1, v2, a2, r2, z]
  · rw [s2, v1, v3, a2, g2, z]
  · rw [s3, v1, v4, a2, b2, z]

/-- What a separable mode does to a channel. -/
def drawC (m : Sep) (op sa da s d : Nat) : Nat :=
  let t := sa * op / 255
  let a1 := t * da / 255
  let a2 := t * (255 - da) / 255
  let a3 := (255 - t) * da / 255
  let a := a1 + a2 + a3
  if t = 0 ∨ a = 0 then d else min 255 ((chanN m s d * a1 + s * a2 + d * a3) / a)

theorem draw_chan {m : Sep} {op : UInt8} {s d p : Px} (h : drawNN (.sep m) op.toUInt32 s d = .ok p) (c : Primary) :
    (p.chan c).toNat = drawC m op.toNat s.a.toNat d.a.toNat (s.chan c).toNat (d.chan c).toNat := by
  have k := draw_composite h
  unfold Composite at k
  unfold drawC
  dsimp only at k ⊢
  split at k
  · rename_i h0
    rw [if_pos h0, k]
  · rename_i h0
    rw [if_neg h0]
    obtain ⟨-, k1, k2, k3⟩ := k
    cases c <;> simp only [Px.chan]
    · exact k1
    · exact k2
    · exact k3

theorem drawC_mono (m : Sep) (hm : m.increasing = true) (hm' : m.increasingInSource = true) (hsoft : m ≠ .softLight) (op sa da : Nat) {s s' d d' : Nat}
    (hs : s ≤ s') (hd : d ≤ d') (b1 : s' ≤ 255) (b2 : d' ≤ 255) : drawC m op sa da s d ≤ drawC m op sa da s' d' := by
  unfold drawC
  dsimp only
  split
  · exact hd
  · have e0 : chanN m s d ≤ chanN m s' d' := Nat.le_trans (chanN_mono m hm hsoft (by omega) b2 hd) (chanN_mono_src m hm' b1 b2 hs)
    refine min_le_min_left _ (Nat.div_le_div_right ?_)
    exact Nat.add_le_add (Nat.add_le_add (Nat.mul_le_mul_right _ e0) (Nat.mul_le_mul_right _ hs)) (Nat.mul_le_mul_right _ hd)

/-! ### The relation -/

/-- `rel` is between the values of the pixels `i` in the channels `c` and `c'`, and they are as opaque. -/
def ChanRel (rel : Nat → Nat → Prop) (c c' : Primary) (i : Nat) (t t' : Tile) : Prop :=
  rel ((t i).chan c).toNat ((t' i).chan c').toNat ∧ (t i).a = (t' i).a

/-- A mode keeps `rel`. -/
def KeepsRel (rel : Nat → Nat → Prop) (m : Mode) : Prop :=
  ∃ s, m = .sep s ∧ ∀ (op sa da : Nat) {x x' y y' : Nat}, x ≤ 255 → x' ≤ 255 → y ≤ 255 → y' ≤ 255 → rel x x' → rel y y' → rel (drawC s op sa da x y) (drawC s op sa da x' y')

theorem chan_ops {rel : Nat → Nat → Prop} (c c' : Primary) (i : Nat) (h0 : rel 0 0) (hpd : ∀ op sa da {s s' d d'}, rel s s' → rel d d' → rel (pdC op sa da s d) (pdC op sa da s' d')) :
    RelOps tileOps (ChanRel rel c c' i) (fun _ => True) (fun _ => True) (fun m m' => m = m' ∧ ∃ k, blendMode m = some k ∧ KeepsRel rel k) := by
  have px : ∀ (op : PD) (s s' d d' e e' : Px), rel (s.chan c).toNat (s'.chan c').toNat → s.a = s'.a → rel (d.chan c).toNat (d'.chan c').toNat → d.a = d'.a →
      rel ((pxOr e (drawPD op .nrgba (.px .nrgba s) d)).chan c).toNat ((pxOr e' (drawPD op .nrgba (.px .nrgba s') d')).chan c').toNat ∧
      (pxOr e (drawPD op .nrgba (.px .nrgba s) d)).a = (pxOr e' (drawPD op .nrgba (.px .nrgba s') d')).a := by
    intro op s s' d d' e e' hs has hd had
    rw [pd_chan, pd_chan, pd_alpha, pd_alpha, read_alpha, read_alpha, readPx_alpha, readPx_alpha, has, had]
    exact ⟨hpd _ _ _ hs hd, rfl⟩
  have mk : ∀ (op : PD) (v : UInt8) (d d' e e' : Px), rel (d.chan c).toNat (d'.chan c').toNat → d.a = d'.a →
      rel ((pxOr e (drawPD op .nrgba (.alpha v) d)).chan c).toNat ((pxOr e' (drawPD op .nrgba (.alpha v) d')).chan c').toNat ∧
      (pxOr e (drawPD op .nrgba (.alpha v) d)).a = (pxOr e' (drawPD op .nrgba (.alpha v) d')).a := by
    intro op v d d' e e' hd had
    rw [pd_chan_mask, pd_chan_mask, pd_alpha, pd_alpha, readPx_alpha, readPx_alpha, had]
    exact ⟨hpd _ _ _ h0 hd, rfl⟩
  have zero : ∀ c : Primary, ((⟨0, 0, 0, 0⟩ : Px).chan c).toNat = 0 := fun c => by cases c <;> rfl
  have cp : ∀ {p q : Tile}, ChanRel rel c c' i p q → ChanRel rel c c' i (tileOps.copy p) (tileOps.copy q) := fun {p q} h => px .copy _ _ _ _ _ _ h.1 h.2 (by rw [zero, zero]; exact h0) rfl
  refine ⟨?_, cp, ?_, ?_, ?_, ?_, ?_, ?_, ?_, ?_, trivial, fun _ _ => trivial⟩
  · refine ⟨?_, rfl⟩
    rw [show tileOps.blank i = ⟨0, 0, 0, 0⟩ from rfl, zero, zero]
    exact h0
  · rintro k m m' b b' x x' y y' - ⟨rfl, md, hm, s, rfl, hs⟩ hb hx e e'
    obtain ⟨md1, h1, e1⟩ := draw_px e i
    obtain ⟨md2, h2, e2⟩ := draw_px e' i
    rw [hm] at h1 h2
    injection h1 with h1
    injection h2 with h2
    subst h1 h2
    refine ⟨?_, drawNN_alpha e1 e2 hx.2 hb.2⟩
    rw [draw_chan e1, draw_chan e2, hx.2, hb.2]
    exact hs _ _ _ (le255 _) (le255 _) (le255 _) (le255 _) hx.1 hb.1
  · intro k b x y e
    simp only [tileOps, show blendMode passThrough = none by decide, reduceCtorEq] at e
  · intro p q h
    left
    refine ⟨?_, rfl⟩
    have := (cp h).1
    cases c <;> cases c' <;> exact this
  · intro b b' x x' hb hx
    exact px .destIn _ _ _ _ _ _ hx.1 hx.2 hb.1 hb.2
  · intro b b' x x' hb hx
    exact px .destOver _ _ _ _ _ _ hx.1 hx.2 hb.1 hb.2
  · intro b b' m _ hb
    exact mk .destIn _ _ _ _ _ hb.1 hb.2
  · intro b b' m _ hb
    exact mk .destOut _ _ _ _ _ hb.1 hb.2
  · intro b b' _
    unfold ChanRel
    rw [clear_px, clear_px, zero, zero]
    exact ⟨h0, rfl⟩

/-- Of a document whose blend modes keep `rel`. -/
theorem docRel_self {Q : LayerRec → Prop} : ∀ {xs : List (LTree LayerRec)}, DocAll (fun l _ => Q l) xs → DocRel (fun l l' => l' = l ∧ Q l) xs xs
  | [], _ => .nil
  | .node l sub :: rest, h => .cons _ _ _ _ _ _ ⟨rfl, h.cons.1⟩ (docRel_self h.cons.2.1) (docRel_self h.cons.2.2)

end Psd
