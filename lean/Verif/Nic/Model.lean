import Verif.Nic.Spec
import Verif.Common
/-!
# Bringing up the network card

`lib/vmxnet3/src/vmx.rs`: `VMXNet3::new`, `attach_pre`, `init` and what they call; `lib/vmxnet3/src/reg.rs`:
`DriverShared` (lines 1091-1178), `vmxnet3_txq_shared` and `vmxnet3_rxq_shared` (lines 1189-1233);
`lib/vmxnet3/src/var.rs`: the rings and `new` of the two queues.

The card is any function: what it answers at a register may depend on all the accesses before.
Simplifications: physical addresses only (`paddr()` is the address less `KERNEL_BASE`); the registers are accessed in
the order of the program, although the code uses plain, not volatile, accesses (`pci.rs` lines 55-69).
-/

namespace NRK.Nic

/-- The pieces of memory that are allocated: the shared record, the records of the queues, and for every queue the
ring of commands and the ring of completions. -/
inductive Rid where
  | ds
  | qs
  | txc (i : Nat)
  | txd (i : Nat)
  | rxc (i : Nat)
  | rxd (i : Nat)
  deriving DecidableEq, Repr

/-- What the allocator gives: where each piece is, or that there is none; and the addresses and sizes of the
driver's own objects (`driver_data`), which the card does not use. -/
structure Alloc where
  addr : Rid → Nat
  fails : Rid → Bool
  vmx : Nat
  vmxSize : Nat
  queue : Rid → Nat
  queueSize : Nat

/-- The answers of the card: after which accesses, at which register. -/
abbrev Card := List Ev → Nat → Nat → Nat

/-- The driver (`VMXNet3`, `vmx.rs` lines 159-183) and the accesses so far.  `txq`, `rxq` are the lengths of the two
vectors of queues; `mac` is `lladdr`. -/
structure Drv where
  ntx : Nat
  nrx : Nat
  mem : Mem
  log : List Ev
  txq : Nat
  rxq : Nat
  link : Bool
  mac : List Nat

/-- `VMXNet3Error` (`vmx.rs` lines 151-157). -/
inductive VErr where
  | notSupported
  | interruptMode
  | outOfMemory
  deriving DecidableEq, Repr

/-- How a call ends. -/
inductive Res where
  | ok (s : Drv)
  | err (e : VErr) (s : Drv)
  | panic (s : Drv)

/-- The `?` operator. -/
def Res.andThen (r : Res) (f : Drv → Res) : Res :=
  match r with
  | .ok s => f s
  | r => r

/-- A store of `k` bytes. -/
def put (m : Mem) (a k v : Nat) : Mem := fun x => if a ≤ x ∧ x < a + k then v / 256 ^ (x - a) % 256 else m x

/-- `BoundedUSize::new` (`lib.rs` lines 54-56). -/
def bounded (low high n : Nat) : Nat := max (min n high) low

/-- `write_bar0`, `write_bar1` (`pci.rs` lines 61-69, 118-132). -/
def wr (s : Drv) (bar off v : Nat) : Drv := { s with log := s.log ++ [.wr bar off v s.mem] }

/-- The answer of `read_bar1` (`pci.rs` lines 55-59): 32 bits. -/
def ans (c : Card) (s : Drv) (bar off : Nat) : Nat := c s.log bar off % 4294967296

/-- The state after `read_bar1`. -/
def rd (c : Card) (s : Drv) (bar off : Nat) : Drv := { s with log := s.log ++ [.rd bar off (ans c s bar off)] }

/-- The commands (`reg.rs` lines 103-114). -/
@[irreducible] def GET_LINK : Nat := 4027383810
@[irreducible] def GET_MACL : Nat := 4027383811
@[irreducible] def GET_MACH : Nat := 4027383812
@[irreducible] def GET_INTRCFG : Nat := 4027383816

/-- `read_cmd` (`vmx.rs` lines 316-320): the state after the command is written; `ans` of it is the answer. -/
def cmd (s : Drv) (k : Nat) : Drv := wr s 1 CMD k

/-- `TRXQueueShared::new` (`vmx.rs` lines 54-81) and the size of its area. -/
def areaSize (ntx nrx : Nat) : Nat := 256 * nrx + 256 * ntx

/-- `ds.modlevel[i] = UPT1_IMOD_ADAPTIVE` for `i` below `nintr` (`reg.rs` lines 1164-1166). -/
def modlevels (m : Mem) (d : Nat) : Nat → Mem
  | 0 => m
  | i + 1 => put (modlevels m d i) (d + 83 + i) 1 8

/-- `DriverShared::new` (`reg.rs` lines 1129-1170): 720 bytes; the fields that are not 0. -/
def dsNew (m : Mem) (d nintr evintr qs qsLen : Nat) : Mem :=
  let m := put m d 720 0
  let m := put m d 4 3133079265
  let m := put m (d + 8) 4 65536
  let m := put m (d + 12) 4 18
  let m := put m (d + 16) 4 1
  let m := put m (d + 20) 4 1
  let m := put m (d + 40) 8 qs
  let m := put m (d + 52) 4 qsLen
  let m := put m (d + 80) 1 1
  let m := put m (d + 81) 1 nintr
  let m := put m (d + 82) 1 evintr
  let m := put m (d + 108) 4 1
  let m := put m (d + 120) 4 5
  modlevels m d nintr

/-- `set_driver_data` (`reg.rs` lines 1172-1176). -/
def setDriverData (m : Mem) (d pa size : Nat) : Mem := put (put m (d + 32) 8 pa) (d + 48) 4 size

/-- `VMXNet3::new` (`vmx.rs` lines 188-220).  `m` is the memory before. -/
def new (al : Alloc) (nrx trx : Nat) (m : Mem) : Res :=
  let ntx := bounded 1 8 trx
  let nrx := bounded 1 16 nrx
  let s : Drv := ⟨ntx, nrx, m, [], 0, 0, false, [0, 0, 0, 0, 0, 0]⟩
  if al.fails .qs then .err .outOfMemory s
  else
    let m := put m (al.addr .qs) (areaSize ntx nrx) 0
    if al.fails .ds then .err .outOfMemory { s with mem := m }
    else
      let m := dsNew m (al.addr .ds) (nrx + ntx + 1) nrx (al.addr .qs) (areaSize ntx nrx)
      .ok { s with mem := setDriverData m (al.addr .ds) al.vmx al.vmxSize }

/-- `TxQueue::new` (`var.rs` lines 314-342) with 512 descriptors, all zero (lines 127-140, 212-226), and one round of
`tx_queues_alloc` (`vmx.rs` lines 224-237).  `txqs_ref_mut` (lines 122-132) panics when there is no such record. -/
def txRound (al : Alloc) (i : Nat) (s : Drv) : Res :=
  if al.fails (.txc i) || al.fails (.txd i) then .err .outOfMemory s
  else if s.ntx ≤ i then .panic s
  else
    let m := put s.mem (al.addr (.txc i)) 8192 0
    let m := put m (al.addr (.txd i)) 8192 0
    let a := al.addr .qs + 256 * i
    let m := put m (a + 16) 8 (al.addr (.txc i))
    let m := put m (a + 56) 4 512
    let m := put m (a + 32) 8 (al.addr (.txd i))
    let m := put m (a + 64) 4 512
    let m := put m (a + 40) 8 (al.queue (.txc i))
    let m := put m (a + 68) 4 al.queueSize
    if s.txq < 8 then .ok { s with mem := m, txq := s.txq + 1 } else .panic s

/-- `RxQueue::new` (`var.rs` lines 561-591): a first ring of 512 descriptors, an empty second one, whose address
is 0 (lines 188-193), a ring of completions; and one round of `rx_queues_alloc` (`vmx.rs` lines 243-258).
`rxqs_ref_mut` is `vmx.rs` lines 96-108. -/
def rxRound (al : Alloc) (i : Nat) (s : Drv) : Res :=
  if al.fails (.rxc i) || al.fails (.rxd i) then .err .outOfMemory s
  else if s.nrx ≤ i then .panic s
  else
    let m := put s.mem (al.addr (.rxc i)) 8192 0
    let m := put m (al.addr (.rxd i)) 8192 0
    let a := al.addr .qs + 256 * s.ntx + 256 * i
    let m := put m (a + 16) 8 (al.addr (.rxc i))
    let m := put m (a + 56) 4 512
    let m := put m (a + 24) 8 0
    let m := put m (a + 60) 4 0
    let m := put m (a + 32) 8 (al.addr (.rxd i))
    let m := put m (a + 64) 4 512
    let m := put m (a + 40) 8 (al.queue (.rxc i))
    let m := put m (a + 68) 4 al.queueSize
    if s.rxq < 16 then .ok { s with mem := m, rxq := s.rxq + 1 } else .panic s

/-- The loop of `tx_queues_alloc` (`vmx.rs` lines 223-240) after `n` rounds. -/
def txRounds (al : Alloc) : Nat → Drv → Res
  | 0, s => .ok s
  | n + 1, s => (txRounds al n s).andThen (txRound al n)

/-- The loop of `rx_queues_alloc` (`vmx.rs` lines 242-261) after `n` rounds. -/
def rxRounds (al : Alloc) : Nat → Drv → Res
  | 0, s => .ok s
  | n + 1, s => (rxRounds al n s).andThen (rxRound al n)

/-- `check_version` (`vmx.rs` lines 291-305). -/
def checkVersion (c : Card) (s : Drv) : Res :=
  if ans c s 1 VRRS % 2 = 0 then .err .notSupported (rd c s 1 VRRS)
  else
    let s := wr (rd c s 1 VRRS) 1 VRRS 1
    if ans c s 1 UVRS % 2 = 0 then .err .notSupported (rd c s 1 UVRS)
    else .ok (wr (rd c s 1 UVRS) 1 UVRS 1)

/-- `attach_pre` (`vmx.rs` lines 263-274). -/
def attachPre (al : Alloc) (c : Card) (s : Drv) : Res :=
  ((txRounds al s.ntx s).andThen fun s => rxRounds al s.nrx s).andThen fun s =>
    let s := cmd s GET_INTRCFG
    let v := ans c s 1 CMD
    let s := rd c s 1 CMD
    if v ≠ 0 ∧ v ≠ 3 then .err .interruptMode s else checkVersion c s

/-- `retrieve_lladdr` (`vmx.rs` lines 345-364): the address of the card, and what the debug build insists on. -/
def retrieveMac (dbg : Bool) (c : Card) (s : Drv) : Res :=
  let s := cmd s GET_MACL
  let low := ans c s 1 CMD
  let s := rd c s 1 CMD
  let s := cmd s GET_MACH
  let high := ans c s 1 CMD
  let s := rd c s 1 CMD
  let mac := [low % 256, (low >>> 8) % 256, (low >>> 16) % 256, (low >>> 24) % 256, high % 256, (high >>> 8) % 256]
  let s := { s with mac := mac }
  if dbg && (mac.take 5 != [86, 180, 68, 233, 98]) then .panic s else .ok s

/-- The byte at place `i` of `lladdr`. -/
def Drv.macAt (s : Drv) (i : Nat) : Nat := (s.mac[i]?).getD 0

/-- `set_lladdr` (`vmx.rs` lines 366-379). -/
def setMac (dbg : Bool) (c : Card) (s : Drv) : Res :=
  (retrieveMac dbg c s).andThen fun s =>
    let ml := s.macAt 0 ||| (s.macAt 1 <<< 8) ||| (s.macAt 2 <<< 16) ||| (s.macAt 3 <<< 24)
    let s := wr s 1 MACL ml
    let mh := s.macAt 4 ||| (s.macAt 5 <<< 8)
    .ok (wr s 1 MACH mh)

/-- `reinit_shared_data` (`vmx.rs` lines 334-343).  The numbers of the two kinds of queues are exchanged. -/
def reinitShared (al : Alloc) (s : Drv) : Drv :=
  let d := al.addr .ds
  let m := put s.mem (d + 56) 4 (bounded 1 9000 1500)
  let m := put m (d + 62) 1 s.nrx
  let m := put m (d + 63) 1 s.ntx
  let m := put m (d + 24) 8 0
  let s := { s with mem := m }
  let s := wr s 1 DSL (d % 4294967296)
  wr s 1 DSH (d / 4294967296 % 4294967296)

/-- The writes to `bar0` in `enable_device` (`vmx.rs` lines 397-405) after `n` rounds. -/
def headRounds : Nat → Drv → Drv
  | 0, s => s
  | n + 1, s =>
    let s := headRounds n s
    wr (wr s 0 (2048 + n * 8) 0) 0 (2560 + n * 8) 0

/-- `enable_device` (`vmx.rs` lines 391-408).  `init` only prints what it returns. -/
def enableDevice (c : Card) (s : Drv) : Drv :=
  let s := cmd s ENABLE
  let v := ans c s 1 CMD
  let s := rd c s 1 CMD
  if v ≠ 0 then s else headRounds s.rxq s

/-- `link_is_up` (`vmx.rs` lines 418-424), which asks twice, and `link_status` (lines 426-438). -/
def linkStatus (c : Card) (s : Drv) : Drv :=
  let s := cmd s GET_LINK
  let s := rd c s 1 CMD
  let s := cmd s GET_LINK
  let link := decide (0 < ans c s 1 CMD % 2)
  let s := rd c s 1 CMD
  if link && !s.link then { s with link := true }
  else if !link && s.link then { s with link := false }
  else s

/-- `init` (`vmx.rs` lines 440-451). -/
def init (dbg : Bool) (al : Alloc) (c : Card) (s : Drv) : Res :=
  (setMac dbg c s).andThen fun s => .ok (linkStatus c (enableDevice c (reinitShared al s)))

/-- As `init_network` does it (`kernel/src/transport/ethernet.rs` lines 54-56), with any numbers of queues. -/
def bringUp (dbg : Bool) (al : Alloc) (c : Card) (nrx trx : Nat) (m : Mem) : Res :=
  ((new al nrx trx m).andThen (attachPre al c)).andThen (init dbg al c)

/-- The addresses that `init_network` gives to the machine with number `mid` (`ethernet.rs` lines 61-73): the
last byte of the Ethernet address and that of the IP address.  `mid` is converted to a byte; the sums are checked
in the debug build. -/
def machineAddr (dbg : Bool) (mid : Nat) : Option (Nat × Nat) :=
  if 256 ≤ mid then none
  else if dbg && (256 ≤ 208 + mid || 256 ≤ 11 + mid) then none
  else some ((208 + mid) % 256, (11 + mid) % 256)

/-- The last byte of the address of the router (`ethernet.rs` line 77): 172.31.0.20. -/
def router : Nat := 20

end NRK.Nic
