/-
Independent specification of ZIP prediction: every row stores its first sample and then the
differences of neighbouring samples, modulo the sample range.
-/

namespace Psd.Spec

/-- Differences of a row of samples, where `prev` is the sample to the left. -/
def diffs (modulus : Nat) : (prev : Nat) → List Nat → List Nat
  | _, [] => []
  | prev, x :: xs => (x + modulus - prev) % modulus :: diffs modulus x xs

/-- Big-endian bytes of a sample of `sz` bytes. -/
def sampleBytes (sz v : Nat) : List UInt8 :=
  (List.range sz).map fun i => UInt8.ofNat (v / 256 ^ (sz - 1 - i) % 256)

/-- A plane as stored raw: the samples of all rows, big-endian. -/
def planeBytes (sz : Nat) (rows : List (List Nat)) : List UInt8 :=
  rows.flatMap fun r => r.flatMap (sampleBytes sz)

/-- A plane after prediction: each row differenced on its own. -/
def predicted (sz : Nat) (rows : List (List Nat)) : List UInt8 :=
  rows.flatMap fun r => (diffs (256 ^ sz) 0 r).flatMap (sampleBytes sz)

/-- The bytes of a row of 32-bit samples plane by plane: first the most significant bytes of all
samples, then the next ones, and so on. -/
def bytePlanes (r : List Nat) : List Nat :=
  (List.range 4).flatMap fun k => r.map fun v => v / 256 ^ (3 - k) % 256

/-- A plane of 32-bit samples after the prediction that is used for floating point numbers: the
byte planes of each row, differenced byte by byte. -/
def floatPredicted (rows : List (List Nat)) : List UInt8 :=
  rows.flatMap fun r => (diffs 256 0 (bytePlanes r)).map UInt8.ofNat

end Psd.Spec
