import Verif.Lemmas.Basic
import Verif.Model.Util

namespace Psd

namespace P
variable {α β : Type}

@[simp] theorem pure_apply (a : α) (s : St) : (Pure.pure a : P α) s = .ok (a, s) := rfl

theorem bind_apply (p : P α) (f : α → P β) (s : St) : (p >>= f) s =
    match p s with
    | .ok (a, s') => f a s'
    | .err e => .err e
    | .panic q => .panic q
    | .fuel => .fuel := rfl

theorem bind_ok {p : P α} {f : α → P β} {s s' : St} {a : α} (h : p s = .ok (a, s')) :
    (p >>= f) s = f a s' := by rw [bind_apply, h]

theorem bind_err {p : P α} {f : α → P β} {s : St} {e : Err} (h : p s = .err e) :
    (p >>= f) s = .err e := by rw [bind_apply, h]

theorem bind_panic {p : P α} {f : α → P β} {s : St} {e : Panic} (h : p s = .panic e) :
    (p >>= f) s = .panic e := by rw [bind_apply, h]

theorem bind_fuel {p : P α} {f : α → P β} {s : St} (h : p s = .fuel) :
    (p >>= f) s = .fuel := by rw [bind_apply, h]

theorem bind_eq_ok {p : P α} {f : α → P β} {s s' : St} {b : β} :
    (p >>= f) s = .ok (b, s') ↔ ∃ a s₁, p s = .ok (a, s₁) ∧ f a s₁ = .ok (b, s') := by
  rw [bind_apply]
  constructor
  · intro h
    split at h
    · exact ⟨_, _, by assumption, h⟩
    · cases h
    · cases h
    · cases h
  · rintro ⟨a, s₁, h1, h2⟩
    rw [h1]; exact h2

theorem ite_app {c : Prop} [Decidable c] (p q : P α) (s : St) :
    (if c then p else q) s = if c then p s else q s := by split <;> rfl

@[simp] theorem fail_apply (e : Err) (s : St) : (P.fail e : P α) s = .err e := rfl
@[simp] theorem lift_ok (a : α) (s : St) : P.lift (.ok a) s = .ok (a, s) := rfl
@[simp] theorem lift_err (e : Err) (s : St) : (P.lift (.err e) : P α) s = .err e := rfl
@[simp] theorem lift_panic (e : Panic) (s : St) : (P.lift (.panic e) : P α) s = .panic e := rfl

theorem lift_eq_ok {x : Res α} {s s' : St} {a : α} :
    P.lift x s = .ok (a, s') ↔ x = .ok a ∧ s = s' := by
  cases x <;> simp [P.lift]

@[simp] theorem pure_bind' (a : α) (f : α → P β) : (Pure.pure a >>= f) = f a := rfl

theorem bind_assoc' {γ : Type} (p : P α) (f : α → P β) (g : β → P γ) :
    (p >>= f) >>= g = p >>= fun a => f a >>= g := by
  funext s
  simp only [bind_apply]
  cases p s <;> rfl

end P

theorem St.avail_length (s : St) : s.avail.length = s.data.length - s.pos := by
  simp [St.avail]

/-- `io.ReadFull` succeeds exactly if enough bytes are left; the schedule only loses entries. -/
theorem readLoop_ok (tail : Err) (eager : Bool) : ∀ (sched : List Nat) (need got avail : Nat),
    need ≤ avail → ∃ sched', readLoop tail eager sched need got avail = .ok sched' ∧
      ∀ c ∈ sched', c ∈ sched := by
  intro sched
  induction sched with
  | nil =>
    intro need got avail h
    cases need with
    | zero => exact ⟨[], by simp [readLoop], by simp⟩
    | succ n => exact ⟨[], by simp [readLoop, h], by simp⟩
  | cons c cs ih =>
    intro need got avail h
    cases need with
    | zero => exact ⟨c :: cs, by simp [readLoop], by simp⟩
    | succ n =>
      rw [readLoop, if_neg (by omega)]
      simp only
      rw [if_neg (by omega)]
      obtain ⟨s', e, hs⟩ := ih (n + 1 - min (n + 1) (min c avail)) (got + min (n + 1) (min c avail))
        (avail - min (n + 1) (min c avail)) (by omega)
      exact ⟨s', e, fun x hx => by simp [hs x hx]⟩

theorem readLoop_err (tail : Err) (eager : Bool) : ∀ (sched : List Nat) (need got avail : Nat),
    avail < need → readLoop tail eager sched need got avail = .err (shortErr (got + avail) tail) := by
  intro sched
  induction sched with
  | nil =>
    intro need got avail h
    cases need with
    | zero => omega
    | succ n => rw [readLoop, if_neg (by omega)]
  | cons c cs ih =>
    intro need got avail h
    cases need with
    | zero => omega
    | succ n =>
      rw [readLoop]
      by_cases h0 : avail = 0
      · simp [h0]
      · rw [if_neg h0]
        simp only
        split
        · rename_i h1
          rw [h1.2.1]
        · rw [ih _ _ _ (by omega)]
          congr 2; omega

theorem readFull_ok {k : Nat} {s : St} (h : k ≤ s.avail.length) :
    ∃ sched', readFull k s = .ok (s.avail.take k, { s with pos := s.pos + k, sched := sched' }) ∧
      ∀ c ∈ sched', c ∈ s.sched := by
  obtain ⟨sched', e, hs⟩ := readLoop_ok s.tail s.eager s.sched k 0 s.avail.length h
  exact ⟨sched', by simp [readFull, e], hs⟩

theorem readFull_err {k : Nat} {s : St} (h : s.avail.length < k) :
    readFull k s = .err (shortErr s.avail.length s.tail) := by
  have := readLoop_err s.tail s.eager s.sched k 0 s.avail.length h
  simp [readFull, this]

/-- Reading with `readFull` when the schedule is empty. -/
theorem readFull_nil {k : Nat} {s : St} (hs : s.sched = []) (h : k ≤ s.avail.length) :
    readFull k s = .ok (s.avail.take k, { s with pos := s.pos + k }) := by
  obtain ⟨sched', e, hs'⟩ := readFull_ok h
  have : sched' = [] := by
    rw [hs] at hs'
    exact List.eq_nil_iff_forall_not_mem.2 fun a ha => by simpa using hs' a ha
  rw [e, this, ← hs]

theorem readFull_eq_ok {k : Nat} {s s' : St} {b : List UInt8} (h : readFull k s = .ok (b, s')) :
    k ≤ s.avail.length ∧ b = s.avail.take k ∧ b.length = k ∧
      ∃ sched', s' = { s with pos := s.pos + k, sched := sched' } ∧ ∀ c ∈ sched', c ∈ s.sched := by
  by_cases hk : k ≤ s.avail.length
  · obtain ⟨sched', e, hs⟩ := readFull_ok hk
    rw [e] at h
    cases h
    exact ⟨hk, rfl, by simp [List.length_take]; omega, sched', rfl, hs⟩
  · rw [readFull_err (by omega)] at h; cases h

/-- Bytes taken from the front: value of a big-endian field. -/
theorem beNat_append (a b : List UInt8) : beNat (a ++ b) = beNat a * 256 ^ b.length + beNat b := by
  induction a with
  | nil => simp [beNat]
  | cons x xs ih =>
    simp only [List.cons_append, beNat, ih, List.length_append, Nat.pow_add]
    rw [Nat.add_mul, Nat.mul_assoc, Nat.add_assoc]

theorem beBytes_length (n v : Nat) : (beBytes n v).length = n := by
  induction n with
  | zero => rfl
  | succ n ih => simp [beBytes, ih]

theorem beNat_beBytes (n v : Nat) : beNat (beBytes n v) = v % 256 ^ n := by
  induction n with
  | zero => simp [beBytes, beNat, Nat.mod_one]
  | succ n ih =>
    simp only [beBytes, beNat, beBytes_length, ih]
    have h1 : (UInt8.ofNat (v / 256 ^ n % 256)).toNat = v / 256 ^ n % 256 := by
      simp [UInt8.toNat_ofNat']
    rw [h1, Nat.pow_succ, Nat.mod_mul, Nat.mul_comm, Nat.add_comm]

theorem wrap64_small {x : Int} (h1 : -2 ^ 63 ≤ x) (h2 : x < 2 ^ 63) : wrap64 x = x := by
  unfold wrap64
  exact Int.bmod_eq_of_le (by omega) (by omega)

/-! ### Running a parser on the bytes it expects -/

/-- `p` reads exactly `bytes` and returns `a`, whatever follows, on a reader that fills every
request. -/
def Runs {α : Type} (p : P α) (bytes : List UInt8) (a : α) : Prop :=
  ∀ (s : St) (rest : List UInt8), s.sched = [] → s.eager = false → s.avail = bytes ++ rest →
    s.pos + bytes.length < 2 ^ 63 →
    p s = .ok (a, { s with pos := s.pos + bytes.length })

theorem avail_advance {s : St} {b rest : List UInt8} (h : s.avail = b ++ rest) :
    ({ s with pos := s.pos + b.length } : St).avail = rest := by
  simp only [St.avail] at h ⊢
  rw [← List.drop_drop, h]; simp

namespace Runs
variable {α β : Type}

theorem pure (a : α) : Runs (Pure.pure a) [] a := by
  intro s rest _ _ _ _; simp

theorem bind {p : P α} {f : α → P β} {b₁ b₂ : List UInt8} {a : α} {c : β}
    (h₁ : Runs p b₁ a) (h₂ : Runs (f a) b₂ c) : Runs (p >>= f) (b₁ ++ b₂) c := by
  intro s rest hs he hav hpos
  simp only [List.length_append] at hpos
  rw [List.append_assoc] at hav
  rw [P.bind_ok (h₁ s (b₂ ++ rest) hs he hav (by omega))]
  rw [h₂ { s with pos := s.pos + b₁.length } rest hs he (avail_advance hav) (by simp; omega)]
  simp [Nat.add_assoc]

theorem bind' {p : P α} {f : α → P β} {b₁ b₂ b : List UInt8} {a : α} {c : β}
    (h₁ : Runs p b₁ a) (h₂ : Runs (f a) b₂ c) (hb : b = b₁ ++ b₂) : Runs (p >>= f) b c := by
  subst hb; exact bind h₁ h₂

theorem congr {p : P α} {b b' : List UInt8} {a a' : α} (h : Runs p b a) (hb : b' = b)
    (ha : a' = a) : Runs p b' a' := by subst hb ha; exact h

theorem lift {x : Res α} {a : α} (h : x = .ok a) : Runs (P.lift x) [] a := by
  subst h; intro s rest _ _ _ _; simp

theorem readFull {k : Nat} {b : List UInt8} (h : b.length = k) : Runs (readFull k) b b := by
  intro s rest hs he hav hpos
  rw [readFull_nil hs (by rw [hav]; simp; omega), hav]
  subst h; simp

theorem bareRead {k : Nat} {b : List UInt8} (h : b.length = k) (hk : 0 < k) :
    Runs (bareRead k) b (k : Int) := by
  intro s rest hs he hav hpos
  have hne : s.avail ≠ [] := by
    rw [hav]; intro h0; have : (b ++ rest).length = 0 := by rw [h0]; rfl
    simp at this; rw [← h, this.1] at hk; simp at hk
  have hlen : k ≤ s.avail.length := by rw [hav]; simp; omega
  simp only [Psd.bareRead, readOnce, readAmount, if_neg hne, hs, Nat.min_eq_left hlen, he, Bool.false_and,
    List.tail_nil]
  rw [h, ← hs]; simp; omega

theorem align2 {l : Int} {b : List UInt8} (h : b.length = (l % 2).toNat) :
    Runs (adjustAlign2 l) b (b.length : Int) := by
  unfold adjustAlign2
  by_cases h2 : l % 2 = 0
  · have : b = [] := by apply List.eq_nil_of_length_eq_zero; omega
    subst this
    simp only [h2, ne_eq, not_true, if_false]; exact pure _
  · rw [if_pos h2]
    have h1 : b.length = 1 := by omega
    rw [h1]; exact bareRead h1 (by omega)

theorem align4 {l : Int} {b : List UInt8} (h : b.length = ((-l) % 4).toNat) :
    Runs (adjustAlign4 l) b (b.length : Int) := by
  unfold adjustAlign4
  simp only
  by_cases h2 : l % 4 > 0
  · rw [if_pos h2]
    have h1 : b.length = (4 - l % 4).toNat := by omega
    rw [h1]; exact bareRead h1 (by omega)
  · rw [if_neg h2]
    have : b = [] := by apply List.eq_nil_of_length_eq_zero; omega
    subst this; exact pure _

theorem discard {n : Int} {b : List UInt8} (h : (b.length : Int) = n) :
    Runs (discard n) b n := by
  intro s rest hs he hav hpos
  have h1 : n.toNat = b.length := by omega
  have h2 : n.toNat ≤ s.avail.length := by rw [hav]; simp; omega
  simp only [Psd.discard]
  cases s.kind
  · simp only
    rw [if_neg (by omega), if_pos h2, h1]
  · simp only
    rw [if_neg (by omega), if_pos h2, h1]
  · simp only
    rw [if_neg (by omega)]
    have : ((s.pos : Int) + n).toNat = s.pos + b.length := by omega
    rw [this]

end Runs

end Psd
