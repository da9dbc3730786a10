import Verif.Model.Decode

/-
Vocabulary of the property statements.
-/

namespace Psd

/-- What the caller of a decoding function sees: the returned values, the error, or a panic. -/
def outcome {α : Type} (r : Res (α × St)) : Res α := r.map Prod.fst

/-- Every `Read` of the schedule delivers at least `m` bytes (or all that was asked for). -/
def ReadsAtLeast (m : Nat) (sched : List Nat) : Prop := ∀ c ∈ sched, m ≤ c

instance (m : Nat) (sched : List Nat) : Decidable (ReadsAtLeast m sched) :=
  inferInstanceAs (Decidable (∀ c ∈ sched, m ≤ c))

end Psd
