import Verif.Nic.Props
/-!
# C95: concrete cases
-/

namespace NRK.Nic

/-- A record with all bits set; its length is set to 1500 and its owner to 0. -/
theorem c95_descriptor :
    ((Desc.tx.write 0 1500 (List.replicate 8 255)).bind (Desc.tx.write 1 0)).map (fun bs => (bs, Desc.tx.read 0 bs, Desc.tx.read 2 bs))
      = some ([220, 133, 255, 255, 255, 255, 255, 255], some 1500, some 1) := by decide +kernel

/-- A length of 16384 does not fit the field: the card reads 0. -/
theorem c95_too_long :
    ((Desc.tx.write 0 16384 (List.replicate 8 0)).bind (Desc.tx.read 0)) = some 0 := by decide +kernel

/-- A completion as the card writes it. -/
theorem c95_completion : (Desc.txComp.new [511, 0, 0, 0, 0, 1, 1]) =
    some [255, 1, 0, 0, 0, 0, 0, 0, 0, 0, 0, 0, 0, 0, 0, 129] := by decide +kernel

/-- Pieces of memory one after the other. -/
def exAlloc : Alloc where
  addr
    | .ds => 4096
    | .qs => 8192
    | .txc i => 1048576 + i * 16384
    | .txd i => 1048576 + i * 16384 + 8192
    | .rxc i => 2097152 + i * 16384
    | .rxd i => 2097152 + i * 16384 + 8192
  fails _ := false
  vmx := 64
  vmxSize := 1024
  queue _ := 128
  queueSize := 512

/-- They are separate, for all the numbers of queues there can be. -/
theorem c95_separate (trx nrx : Nat) : exAlloc.Separate (bounded 1 8 trx) (bounded 1 16 nrx) := by
  have b1 := bounded_le 1 8 trx (by omega)
  have b2 := bounded_le 1 16 nrx (by omega)
  generalize bounded 1 8 trx = a at *
  generalize bounded 1 16 nrx = b at *
  intro r s hr hs hne
  cases r <;> cases s <;> simp only [Rid.Valid] at hr hs <;>
    simp only [exAlloc, Rid.size, areaSize, ne_eq, Rid.txc.injEq, Rid.txd.injEq, Rid.rxc.injEq, Rid.rxd.injEq,
      not_true_eq_false] at hne ⊢ <;> omega

/-- A card that answers as QEMU does: interrupts as the driver likes, both versions, address 56:b4:44:e9:62:dc, link
up. -/
def exCard : Card := fun log _ off =>
  if off = CMD then
    match lastWr 1 CMD log with
    | some 4027383811 => 3913593942
    | some 4027383812 => 56418
    | some 4027383810 => 1
    | _ => 0
  else 1

/-- A queue as a list of numbers. -/
def nums (q : Queue) : List Nat := [q.ring, q.len, q.ring2, q.len2, q.comp, q.compLen]

/-- What is to be seen of a state. -/
def view (r : Res) : Option (List (List Nat) × List (List Nat) × List (List Nat)) :=
  match r with
  | .ok s => some ([[s.link.toNat, enables s.log, s.log.length], s.mac], (txQueues s.mem 4096).map nums, (rxQueues s.mem 4096).map nums)
  | _ => none

theorem consts : GET_LINK = 4027383810 ∧ GET_MACL = 4027383811 ∧ GET_MACH = 4027383812 ∧ GET_INTRCFG = 4027383816 ∧
    ENABLE = 3405643776 := by
  unfold GET_LINK GET_MACL GET_MACH GET_INTRCFG ENABLE
  decide

/-- One queue of each kind, as the kernel has it: the card finds both. -/
theorem c95_kernel : view (bringUp true exAlloc exCard 1 1 (fun _ => 255)) = some ([[1, 1, 22], [86, 180, 68, 233, 98, 220]],
    [[1048576, 512, 0, 0, 1056768, 512]], [[2097152, 512, 0, 0, 2105344, 512]]) := by decide +kernel

/-- Two queues that receive, one that sends: the card is told of two that send, and takes the first that receives for
the second of them; of those that receive it is told of one, the second. -/
theorem c95_wrong_numbers : view (bringUp true exAlloc exCard 2 1 (fun _ => 255)) = some ([[1, 1, 24], [86, 180, 68, 233, 98, 220]],
    [[1048576, 512, 0, 0, 1056768, 512], [2097152, 512, 0, 0, 2105344, 512]],
    [[2113536, 512, 0, 0, 2121728, 512]]) := by decide +kernel

/-- A card with another address: the debug build panics, the other accepts it. -/
theorem c95_other_address :
    (match bringUp true exAlloc (fun _ _ off => if off = CMD then 0 else 1) 1 1 (fun _ => 0) with | .panic _ => true | _ => false) = true ∧
    (view (bringUp false exAlloc (fun _ _ off => if off = CMD then 0 else 1) 1 1 (fun _ => 0))).isSome = true := by
  constructor <;> decide +kernel

/-- A card that offers only the second version is refused. -/
theorem c95_second_version :
    (match bringUp true exAlloc (fun _ _ off => if off = CMD then 0 else 2) 1 1 (fun _ => 0) with
      | .err .notSupported s => enables s.log == 0 | _ => false) = true := by decide +kernel

/-- A card that reports that it cannot start (here, with 1): `init` ends as if it had. -/
theorem c95_not_started :
    (view (bringUp true exAlloc (fun log _ off => if off = CMD then
        match lastWr 1 CMD log with | some 3405643776 => 1 | _ => exCard log 1 off else 1) 1 1 (fun _ => 0))).map
      (fun v => v.1.head?) = some (some [1, 1, 20]) := by decide +kernel

/-- Machine 9 has the address of the router. -/
theorem c95_router : (machineAddr true 9).map (·.2) = some router := by decide

end NRK.Nic
