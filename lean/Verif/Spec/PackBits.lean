/-
Independent specification of PackBits (Apple TN1023): a row is a sequence of packets.
-/

namespace Psd.Spec

/-- A PackBits packet. -/
inductive Packet where
  | lit (bytes : List UInt8)      -- 1 to 128 literal bytes
  | run (n : Nat) (b : UInt8)     -- 2 to 128 copies of b
  | nop                           -- the byte 0x80, ignored by readers
  deriving DecidableEq, Repr

/-- The packet can be written down. -/
def Packet.Valid : Packet → Prop
  | .lit bs => 1 ≤ bs.length ∧ bs.length ≤ 128
  | .run n _ => 2 ≤ n ∧ n ≤ 128
  | .nop => True

instance (p : Packet) : Decidable p.Valid := by
  cases p <;> unfold Packet.Valid <;> infer_instance

/-- The bytes that represent the packet. -/
def Packet.bytes : Packet → List UInt8
  | .lit bs => UInt8.ofNat (bs.length - 1) :: bs
  | .run n b => [UInt8.ofNat (257 - n), b]
  | .nop => [0x80]

/-- The bytes the packet stands for. -/
def Packet.meaning : Packet → List UInt8
  | .lit bs => bs
  | .run n b => List.replicate n b
  | .nop => []

/-- The compressed form of a row given by its packets. -/
def rowBytes (ps : List Packet) : List UInt8 := ps.flatMap Packet.bytes

/-- The row itself. -/
def rowMeaning (ps : List Packet) : List UInt8 := ps.flatMap Packet.meaning

/-- Reading a compressed row the way TN1023 describes it; `none` if it ends inside a packet. -/
def unpack : List UInt8 → Option (List UInt8)
  | [] => some []
  | b :: bs =>
    if b.toNat ≤ 127 then
      if bs.length < b.toNat + 1 then none
      else (unpack (bs.drop (b.toNat + 1))).map (bs.take (b.toNat + 1) ++ ·)
    else if b.toNat = 128 then unpack bs
    else
      match bs with
      | [] => none
      | c :: cs => (unpack cs).map (List.replicate (257 - b.toNat) c ++ ·)
termination_by l => l.length
decreasing_by all_goals (simp only [List.length_cons, List.length_drop]; omega)

/-- The packet headers of a compressed row. -/
def headers : List UInt8 → List UInt8
  | [] => []
  | b :: bs =>
    if b.toNat ≤ 127 then b :: headers (bs.drop (b.toNat + 1))
    else if b.toNat = 128 then b :: headers bs
    else b :: headers (bs.drop 1)
termination_by l => l.length
decreasing_by all_goals (simp only [List.length_cons, List.length_drop]; omega)

/-- Cut a byte string into pieces of the given lengths. -/
def cut : List Nat → List UInt8 → List (List UInt8)
  | [], _ => []
  | n :: ns, bs => bs.take n :: cut ns (bs.drop n)

/-- The big-endian table of row lengths, `sz` bytes each. -/
def lengthTable (sz : Nat) (lens : List Nat) : List UInt8 :=
  lens.flatMap fun n => (List.range sz).map fun i => UInt8.ofNat (n / 256 ^ (sz - 1 - i) % 256)

end Psd.Spec
