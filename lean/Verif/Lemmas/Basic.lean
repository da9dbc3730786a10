import Verif.Model.Basic

namespace Psd
namespace Res
variable {α β : Type}

@[simp] theorem pure_eq (a : α) : (pure a : Res α) = .ok a := rfl
@[simp] theorem ok_bind (a : α) (f : α → Res β) : (Res.ok a >>= f) = f a := rfl
@[simp] theorem err_bind (e : Err) (f : α → Res β) : (Res.err e >>= f) = .err e := rfl
@[simp] theorem panic_bind (e : Panic) (f : α → Res β) : (Res.panic e >>= f) = .panic e := rfl
@[simp] theorem fuel_bind (f : α → Res β) : ((Res.fuel : Res α) >>= f) = .fuel := rfl

theorem bind_eq_ok {x : Res α} {f : α → Res β} {b : β} :
    (x >>= f) = .ok b ↔ ∃ a, x = .ok a ∧ f a = .ok b := by
  cases x <;> simp

end Res

theorem GoMap.set_same {κ ν : Type} [DecidableEq κ] (m : GoMap κ ν) (k : κ) (v : ν) :
    m.set k v k = some v := by simp [GoMap.set]

theorem GoMap.set_other {κ ν : Type} [DecidableEq κ] (m : GoMap κ ν) {k k' : κ} (v : ν)
    (h : k' ≠ k) : m.set k v k' = m k' := by simp [GoMap.set, h]

theorem goSlice_ok {α : Type} {s : List α} {lo hi : Nat} (h : lo ≤ hi) (h' : hi ≤ s.length) :
    goSlice s lo hi = .ok ((s.take hi).drop lo) := by simp [goSlice, h, h']

theorem goSlice_to_end {α : Type} {s : List α} {lo : Nat} (h : lo ≤ s.length) :
    goSlice s lo s.length = .ok (s.drop lo) := by simp [goSlice, h]

theorem goIndex_ok {α : Type} {s : List α} {i : Nat} (h : i < s.length) :
    goIndex s i = .ok s[i] := by simp [goIndex, h]

theorem beNat_lt (bs : List UInt8) : beNat bs < 256 ^ bs.length := by
  induction bs with
  | nil => simp [beNat]
  | cons b bs ih =>
    have hb : b.toNat ≤ 255 := by have := b.toNat_lt; omega
    have : b.toNat * 256 ^ bs.length ≤ 255 * 256 ^ bs.length := Nat.mul_le_mul_right _ hb
    simp only [beNat, List.length_cons, Nat.pow_succ]; omega

end Psd
