/-!
# What a network card finds in the memory it shares with its driver (C95)

The card reads memory by itself, by its own description of the records; nothing here refers to the driver.
Bytes are numbers below 256, in the order of their addresses; the least significant byte is first.
-/

namespace NRK.Nic

/-- The number that a list of bytes is for the card. -/
def num : List Nat → Nat
  | [] => 0
  | b :: bs => b + 256 * num bs

/-- The field of `w` bits that begins at bit `o` of the record, as the card reads it. -/
def field (bs : List Nat) (o w : Nat) : Nat := num bs / 2 ^ o % 2 ^ w

/-- A record of bytes. -/
def IsBytes (bs : List Nat) : Prop := ∀ b ∈ bs, b < 256

/-- Two fields have no bit in common. -/
def Apart (o w o' w' : Nat) : Prop := o + w ≤ o' ∨ o' + w' ≤ o

/-- The card's description of a record of one ring: the widths of its fields, in the order of the bits, one list
for every word of 32 bits. -/
abbrev Layout := List (List Nat)

/-- A packet to send (the words after the address): length, owner, reserved, kind, reserved, place of the
checksum; length of the headers, what to offload, last of the packet, tell when sent, reserved, insert a tag,
tag. -/
def cardTx : Layout := [[14, 1, 1, 1, 1, 14], [10, 2, 1, 1, 1, 1, 16]]

/-- A packet that was sent: its last descriptor; reserved; reserved; reserved, kind, owner. -/
def cardTxDone : Layout := [[12, 20], [32], [32], [24, 7, 1]]

/-- A buffer to receive into (the words after the address): length, kind, kind, reserved, owner; reserved. -/
def cardRx : Layout := [[14, 1, 1, 15, 1], [32]]

/-- A packet that was received: descriptor, reserved, last, first, queue, kind of the hash, no checksum,
reserved; hash; length, error, tag found, tag; checksum, checksum right, UDP, TCP, IP checksum right, IPv6, IPv4,
fragment, frame checksum right, kind, owner. -/
def cardRxDone : Layout := [[12, 2, 1, 1, 10, 4, 1, 1], [32], [14, 1, 1, 16], [16, 1, 1, 1, 1, 1, 1, 1, 1, 7, 1]]

/-- Where the fields of the given widths are when they follow each other from bit `o` on. -/
def places : Nat → List Nat → List (Nat × Nat)
  | _, [] => []
  | o, w :: ws => (o, w) :: places (o + w) ws

/-- The places of all the fields of a record. -/
def Layout.places (l : Layout) : List (Nat × Nat) := NRK.Nic.places 0 l.flatten

/-- Memory, by physical address. -/
abbrev Mem := Nat → Nat

/-- The number of `k` bytes at an address. -/
def at' (m : Mem) (a : Nat) : Nat → Nat
  | 0 => 0
  | k + 1 => m a + 256 * at' m (a + 1) k

/-- One queue as the card finds it: the address and the number of the descriptors of its rings. -/
structure Queue where
  ring : Nat
  len : Nat
  ring2 : Nat
  len2 : Nat
  comp : Nat
  compLen : Nat
  deriving DecidableEq, Repr

/-- The card reads the record of a queue that sends. -/
def txQueue (m : Mem) (a : Nat) : Queue := ⟨at' m (a + 16) 8, at' m (a + 56) 4, 0, 0, at' m (a + 32) 8, at' m (a + 64) 4⟩

/-- The card reads the record of a queue that receives. -/
def rxQueue (m : Mem) (a : Nat) : Queue :=
  ⟨at' m (a + 16) 8, at' m (a + 56) 4, at' m (a + 24) 8, at' m (a + 60) 4, at' m (a + 32) 8, at' m (a + 64) 4⟩

/-- The queues that the card finds when it is enabled: the shared record at `d` gives their numbers and where the
records of the queues are; those that send are first. -/
def txQueues (m : Mem) (d : Nat) : List Queue :=
  (List.range (at' m (d + 62) 1)).map fun i => txQueue m (at' m (d + 40) 8 + 256 * i)

/-- And those that receive. -/
def rxQueues (m : Mem) (d : Nat) : List Queue :=
  (List.range (at' m (d + 63) 1)).map fun i => rxQueue m (at' m (d + 40) 8 + 256 * (at' m (d + 62) 1 + i))

/-- What the card sees at its registers: a write to register `off` of one of its two register areas, with the
memory at that time, and a read with the answer of the card. -/
inductive Ev where
  | wr (bar off val : Nat) (m : Mem)
  | rd (bar off val : Nat)

/-- The last value written to a register, if any was. -/
def lastWr (bar off : Nat) : List Ev → Option Nat
  | [] => none
  | .wr b o v _ :: es => (lastWr bar off es).or (if b = bar ∧ o = off then some v else none)
  | .rd _ _ _ :: es => lastWr bar off es

/-- The registers: command, the address of the shared record, the address of the card, versions. -/
def CMD : Nat := 32
def DSL : Nat := 16
def DSH : Nat := 24
def MACL : Nat := 40
def MACH : Nat := 48
def VRRS : Nat := 0
def UVRS : Nat := 8

/-- The command to start working. -/
@[irreducible] def ENABLE : Nat := 3405643776

/-- The six bytes of an address from the two registers of the card. -/
def macOf (low high : Nat) : List Nat :=
  [low % 256, low / 256 % 256, low / 65536 % 256, low / 16777216 % 256, high % 256, high / 256 % 256]

end NRK.Nic
