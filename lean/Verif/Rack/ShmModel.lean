import Verif.Common
import Verif.Rpc.Model
import Verif.Sync.MpmcModel
import Verif.Rack.ShmSpec

/-!
# Model of the shared-memory transport on raw memory

`kernel/src/transport/shmem.rs`, `lib/rpc/src/transport/shmem/allocator.rs`, `queue_mpmc.rs` and
`mod.rs`.  Every machine of the rack sees the shared-memory device of every machine, at addresses
of its own; the queues are found by address arithmetic, and every load and store goes through the
accessing machine's addresses to the bytes of a device.

Simplifications: a whole `enqueue` or `dequeue` is one step (what happens when they interleave is
C17 to C19, over the slots themselves); memory is sequentially consistent; arithmetic on
addresses does not overflow (device memory ends below 2^52); `isize` and `usize` arithmetic on
positions wraps, as in a release build; a receive buffer is not part of the shared memory.
-/

namespace NRK.Rack.Shm

open NRK.Rpc (ENTRY totalLen drain)

/-! ## Memory -/

/-- `region` of a `ShmemDevice` (`shmem.rs` lines 92, 206-211): physical address and size. -/
structure Region where
  base : Nat
  size : Nat
deriving DecidableEq, Repr

/-- The rack: `n` machines (`NUM_MACHINES`); `view m i` is where machine `m` finds the shared
memory of machine `i` (`SHMEM.devices[i].region` on machine `m`, lines 51-78: devices in the order
of their PCI addresses). -/
structure Devs where
  n : Nat
  view : Nat → Nat → Region

/-- `KERNEL_BASE` (`lib/kpi/src/lib.rs` line 31): devices are mapped at this offset
(`shmem.rs` lines 169-177). -/
@[irreducible] def KBASE : Nat := 0x400000000000

/-- Number of values of a `usize`. -/
@[irreducible] def W : Nat := 0x10000000000000000

/-- The bytes of the devices: machine, offset. -/
abbrev Store := Nat → Nat → UInt8

/-- The `n` bytes at `o`. -/
def rd (f : Nat → UInt8) (o n : Nat) : List UInt8 := (List.range n).map fun i => f (o + i)

/-- `bs` written at `o`. -/
def wr (f : Nat → UInt8) (o : Nat) (bs : List UInt8) : Nat → UInt8 :=
  fun a => if o ≤ a ∧ a < o + bs.length then bs.getD (a - o) 0 else f a

/-- `n` as `k` bytes, little endian. -/
def enc : Nat → Nat → List UInt8
  | 0, _ => []
  | k + 1, n => UInt8.ofNat (n % 256) :: enc k (n / 256)

/-- Little-endian bytes as a number. -/
def dec : List UInt8 → Nat
  | [] => 0
  | b :: bs => b.toNat + 256 * dec bs

/-- Offset of the kernel virtual address `a` of machine `m` in device `i`. -/
def Devs.hit (D : Devs) (m a i : Nat) : Option (Nat × Nat) :=
  if (D.view m i).base + KBASE ≤ a ∧ a < (D.view m i).base + KBASE + (D.view m i).size then
    some (i, a - ((D.view m i).base + KBASE))
  else none

/-- Device and offset of the kernel virtual address `a` on machine `m`. -/
def Devs.translate (D : Devs) (m a : Nat) : Option (Nat × Nat) :=
  (List.range D.n).findSome? (D.hit m a)

/-- Load `k` bytes at address `a` of machine `m`; `none` is a fault. -/
def Devs.ld (D : Devs) (s : Store) (m a k : Nat) : Option (List UInt8) :=
  match D.translate m a with
  | some (i, o) => if o + k ≤ (D.view m i).size then some (rd (s i) o k) else none
  | none => none

/-- Store `bs` at address `a` of machine `m`; `none` is a fault. -/
def Devs.st (D : Devs) (s : Store) (m a : Nat) (bs : List UInt8) : Option Store :=
  match D.translate m a with
  | some (i, o) =>
    if o + bs.length ≤ (D.view m i).size then some (upd s i (wr (s i) o bs)) else none
  | none => none

/-- Result of an operation: `stuck` is a fault or a loop that repeats the same state. -/
inductive Res (α : Type) where
  | ok (a : α)
  | panic
  | stuck

/-- Sequencing. -/
def Res.bind {α β : Type} : Res α → (α → Res β) → Res β
  | .ok a, f => f a
  | .panic, _ => .panic
  | .stuck, _ => .stuck

instance : Monad Res where
  pure := .ok
  bind := Res.bind

/-- A memory access inside an operation. -/
def acc {α : Type} : Option α → Res α
  | some a => .ok a
  | none => .stuck

/-! ## The queue -/

/-- `State` of a queue (`queue_mpmc.rs` lines 36-42): the addresses of the two positions and of
the slots. -/
structure Queue where
  mask : Nat
  num : Nat
  enq : Nat
  deq : Nat
  buf : Nat
deriving DecidableEq, Repr

/-- `size_of::<Node>()` (lines 26-31, `repr(C)`): 8 bytes `sequence`, 2 bytes `data_len`,
`QUEUE_ENTRY_SIZE` bytes `value`, and 6 bytes to the next multiple of 8. -/
def NODE : Nat := 8208

/-- `capacity` (lines 125-142): number of slots and bytes of memory. -/
def capacity (c : Nat) : Nat × Nat :=
  let num := Sync.Mpmc.capacityOf c
  (num, 2 * 8 + num * NODE)

/-- The pointers `State::init` makes (lines 85-97). -/
def Queue.at (num mem : Nat) : Queue where
  mask := num - 1
  num := num
  enq := mem
  deq := mem + 8
  buf := mem + 8 * 2

/-- Address of slot `i`. -/
def Queue.node (q : Queue) (i : Nat) : Nat := q.buf + i * NODE

/-- The loop of `State::init` (lines 107-116) over the slots `i ..< i + k`. -/
def initNodes (D : Devs) (m : Nat) (q : Queue) (i : Nat) : Nat → Store → Res Store
  | 0, s => .ok s
  | k + 1, s => do
    let s ← acc (D.st s m (q.node i) (enc 8 i ++ enc 2 0 ++ List.replicate ENTRY 0))
    initNodes D m q (i + 1) k s

/-- `State::init` (lines 84-123). -/
def Queue.init (D : Devs) (m : Nat) (init : Bool) (num mem : Nat) (s : Store) :
    Res (Queue × Store) :=
  let q := Queue.at num mem
  if init then do
    let s ← initNodes D m q 0 num s
    let s ← acc (D.st s m q.deq (enc 8 0))
    let s ← acc (D.st s m q.enq (enc 8 0))
    pure (q, s)
  else pure (q, s)

/-- Difference of positions as the code sees it (lines 168, 210). -/
def diff (a b : Nat) : Nat := (a + W - b % W) % W

/-- The difference is negative as an `isize` (lines 191, 254). -/
def isNeg (d : Nat) : Prop := W / 2 ≤ d

instance (d : Nat) : Decidable (isNeg d) := inferInstanceAs (Decidable (W / 2 ≤ d))

/-- The copy loop of `push` (lines 178-183). -/
def copyIn (D : Devs) (m node : Nat) (offset : Nat) : List (List UInt8) → Store → Res Store
  | [], s => .ok s
  | d :: ds, s =>
    if offset + d.length ≤ ENTRY then do
      let s ← acc (D.st s m (node + 10 + offset) d)
      copyIn D m node (offset + d.length) ds s
    else .panic

/-- `push` (lines 153-196) by machine `m`, undisturbed: the compare-exchange succeeds.  A positive
difference would load the position again and find the same, for ever. -/
def push (D : Devs) (m : Nat) (q : Queue) (vs : List (List UInt8)) (s : Store) :
    Res (Bool × Store) :=
  let len := totalLen vs
  if len > ENTRY then .panic
  else if len = 0 then .ok (true, s)
  else do
    let pos := dec (← acc (D.ld s m q.enq 8))
    let i := pos &&& q.mask
    if i < q.num then do
      let seq := dec (← acc (D.ld s m (q.node i) 8))
      let d := diff seq pos
      if d = 0 then do
        let s ← acc (D.st s m q.enq (enc 8 (pos + 1)))
        let s ← acc (D.st s m (q.node i + 8) (enc 2 len))
        let s ← copyIn D m (q.node i) 0 vs s
        let s ← acc (D.st s m (q.node i) (enc 8 (pos + 1)))
        pure (true, s)
      else if isNeg d then pure (false, s)
      else .stuck
    else .panic

/-- `pop` (lines 198-258) by machine `m`, undisturbed; `none` is `NoData`.  The copy loop is
`Rpc.drain`. -/
def pop (D : Devs) (m : Nat) (q : Queue) (bufs : List (List UInt8)) (s : Store) :
    Res (Option (Nat × List (List UInt8)) × Store) :=
  if totalLen bufs = 0 then .ok (some (0, bufs), s)
  else do
    let pos := dec (← acc (D.ld s m q.deq 8))
    let i := pos &&& q.mask
    if i < q.num then do
      let seq := dec (← acc (D.ld s m (q.node i) 8))
      let d := diff seq (pos + 1)
      if d = 0 then do
        let s ← acc (D.st s m q.deq (enc 8 (pos + 1)))
        let len := dec (← acc (D.ld s m (q.node i + 8) 2))
        let value ← acc (D.ld s m (q.node i + 10) ENTRY)
        match drain len value bufs with
        | .ok ((n, _), bufs') => do
          let s ← acc (D.st s m (q.node i) (enc 8 (pos + q.mask + 1)))
          pure (some (n, bufs'), s)
        | _ => .panic
      else if isNeg d then pure (none, s)
      else .stuck
    else .panic

/-! ## The transport -/

/-- `ShmemAllocator` (`allocator.rs` lines 8-12). -/
structure Bump where
  base : Nat
  size : Nat
  next : Nat

/-- `allocate` (lines 40-51) with `try_alloc` (lines 23-36), undisturbed; `none` is
`handle_alloc_error`. -/
def Bump.alloc (b : Bump) (sz : Nat) : Option (Nat × Bump) :=
  if b.next + sz > b.base + b.size then none else some (b.next, { b with next := b.next + sz })

/-- `SHMEM_TRANSPORT_SIZE` (`shmem.rs` line 330). -/
@[irreducible] def TRANSPORT : Nat := 2 * 1024 * 1024

/-- `SHMEM_QUEUE_SIZE` (line 323). -/
def QUEUE : Nat := 32

/-- `Queue::with_capacity_in` (`queue_mpmc.rs` lines 65-82). -/
def Queue.withCapacityIn (D : Devs) (m : Nat) (init : Bool) (cap : Nat) (b : Bump) (s : Store) :
    Res (Queue × Bump × Store) :=
  let c := capacity cap
  match b.alloc c.2 with
  | none => .panic
  | some (mem, b) => do
    let (q, s) ← Queue.init D m init c.1 mem s
    pure (q, b, s)

/-- `ShmemTransport` (`transport.rs` lines 10-13). -/
structure Transport where
  rx : Queue
  tx : Queue
deriving DecidableEq, Repr

/-- `Mode` of the command line, without `Native`, which is an error here (`shmem.rs` lines 376-379). -/
inductive Mode where
  | controller
  | client
deriving DecidableEq

/-- `create_shmem_transport` (`shmem.rs` lines 333-381) on machine `m` for the region of machine
`mid`. -/
def createTransport (D : Devs) (m : Nat) (mode : Mode) (mid : Nat) (s : Store) :
    Res (Transport × Store) :=
  if mid < D.n then
    let r := D.view m mid
    if r.size ≥ TRANSPORT then
      let b : Bump := { base := r.base + KBASE, size := TRANSPORT, next := r.base + KBASE }
      match mode with
      | .controller => do
        let (s2c, b, s) ← Queue.withCapacityIn D m true QUEUE b s
        let (c2s, _, s) ← Queue.withCapacityIn D m true QUEUE b s
        pure ({ rx := c2s, tx := s2c }, s)
      | .client => do
        let (s2c, b, s) ← Queue.withCapacityIn D m false QUEUE b s
        let (c2s, _, s) ← Queue.withCapacityIn D m false QUEUE b s
        pure ({ rx := s2c, tx := c2s }, s)
    else .panic
  else .panic

/-- `get_affinity_shmem_by_mid` (`shmem.rs` lines 407-430) on machine `m`, with the shared-memory transport:
the memory of machine `mid` that is given to allocators. -/
def Devs.affinityShmem (D : Devs) (m mid : Nat) : Region :=
  let r := D.view m mid
  if mid ≠ 0 then { base := r.base + TRANSPORT, size := r.size - TRANSPORT } else r

/-! ## The rack in operation -/

/-- Devices and the transports that were set up: by the controller (machine 0) for each client,
by each client. -/
structure Sys where
  store : Store
  ctl : Nat → Option Transport
  cli : Nat → Option Transport

open Spec (Ev Obs)

/-- `enqueue` (`queue_mpmc.rs` lines 299-301) as called by `try_send` (`mod.rs` lines 36-38) through a transport;
`send` (lines 30-33) repeats this until it returns true. -/
def sendOn (D : Devs) (m : Nat) (t : Option Transport) (vs : List (List UInt8)) (s : Store) :
    Res (Obs × Store) :=
  match t with
  | none => .ok (.absent, s)
  | some t => do
    let (ok, s) ← push D m t.tx vs s
    pure (if ok then .sent else .full, s)

/-- `dequeue` (`queue_mpmc.rs` lines 304-306) as called by `try_recv` (`mod.rs` lines 70-72) through a transport;
`recv` (lines 60-67) repeats this until there is data. -/
def recvOn (D : Devs) (m : Nat) (t : Option Transport) (bufs : List (List UInt8)) (s : Store) :
    Res (Obs × Store) :=
  match t with
  | none => .ok (.absent, s)
  | some t => do
    let (r, s) ← pop D m t.rx bufs s
    pure (match r with
      | some (n, bufs') => .received n bufs'
      | none => .noData, s)

/-- One event of the rack.  The controller sets up a transport per client
(`rackscale/controller.rs` lines 54-57); a client sets up its own (`client_state.rs` lines 57-61,
`init_shmem_rpc`, `shmem.rs` lines 385-397).  `write` and `read` stand for any use of memory an
allocator handed out: by address, inside the region `get_affinity_shmem_by_mid` gives. -/
def Sys.step (D : Devs) (y : Sys) : Ev → Res (Obs × Sys)
  | .serve mid => do
    let (t, s) ← createTransport D 0 .controller mid y.store
    pure (.done, { y with store := s, ctl := upd y.ctl mid (some t) })
  | .connect mid => do
    let (t, s) ← createTransport D mid .client mid y.store
    pure (.done, { y with store := s, cli := upd y.cli mid (some t) })
  | .ctlSend mid vs => do
    let (o, s) ← sendOn D 0 (y.ctl mid) vs y.store
    pure (o, { y with store := s })
  | .ctlRecv mid bufs => do
    let (o, s) ← recvOn D 0 (y.ctl mid) bufs y.store
    pure (o, { y with store := s })
  | .cliSend mid vs => do
    let (o, s) ← sendOn D mid (y.cli mid) vs y.store
    pure (o, { y with store := s })
  | .cliRecv mid bufs => do
    let (o, s) ← recvOn D mid (y.cli mid) bufs y.store
    pure (o, { y with store := s })
  | .write m mid off bytes => do
    let s ← acc (D.st y.store m ((D.affinityShmem m mid).base + KBASE + off) bytes)
    pure (.done, { y with store := s })
  | .read m mid off len => do
    let b ← acc (D.ld y.store m ((D.affinityShmem m mid).base + KBASE + off) len)
    pure (.bytes b, y)

/-- What is seen in a history; it ends at a panic or when a machine is stuck. -/
def Sys.run (D : Devs) (y : Sys) : List Ev → List Obs
  | [] => []
  | e :: es =>
    match y.step D e with
    | .ok (o, y') => o :: Sys.run D y' es
    | .panic => [.panic]
    | .stuck => [.stuck]

/-- Nothing is set up yet; the devices contain `s`. -/
def Sys.start (s : Store) : Sys := { store := s, ctl := fun _ => none, cli := fun _ => none }

end NRK.Rack.Shm
