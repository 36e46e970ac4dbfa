import Verif.UHeap.UHeapSpec
import Verif.Rump.HostSpec

/-!
# Model of what the user library gives a rump kernel: memory, random numbers, time and parameters

`lib/vibrio/src/rumprt/mod.rs` and `lib/vibrio/src/rumprt/threads.rs`.  The heap below is that of C77.

Simplifications:
* The crate `rawtime` is not in /repo.  It is modelled as a counter of nanoseconds (`Instant::now`), the value the counter
  had when the boot time was taken, and the Unix time at that moment.
* Seconds given to `rumpuser_clock_sleep` are not negative.
* Pointers are valid and do not overlap.
-/

namespace NRK.Rump

open NRK.UHeap (UHeap Env)
open NRK.Heap (HCfg)

/-! ## Memory -/

/-- `rumpuser_malloc` (`mod.rs` lines 159-179): the value returned, and what is stored in `memp` (`none`: a null pointer). -/
def malloc (k : HCfg) (n : Nat) (h : UHeap) (c len alignment : Nat) (e : Env) : Outcome (Nat × Option Nat) × UHeap :=
  if len < alignment then (.panic, h)
  else
    let alignment := if alignment = 0 then 16 else alignment
    match h.alloc k n c len alignment e with
    | (.ok p, h) => (.ok (0, p), h)
    | (.err x, h) => (.err x, h)
    | (.panic, h) => (.panic, h)

/-- `rumpuser_free` (`mod.rs` lines 181-190).  The alignment given to the heap, 16, plays no part in `dealloc`. -/
def free (k : HCfg) (h : UHeap) (c ptr len : Nat) (e : Env) : Outcome Unit × UHeap := h.dealloc k c ptr len e

/-! ## Random numbers -/

/-- What `rumpuser_getrandom` leaves: the value returned, `*retp`, and the buffer. -/
structure Random where
  code : Nat
  ret : Nat
  buf : List UInt8
  deriving DecidableEq, Repr

/-- The loop of `rumpuser_getrandom` (`mod.rs` lines 210-223) from byte `i` of the buffer on: `done` is the part before,
`rest` the part from there on.  `draw j` is the result of the `j`-th `rdrand` (`none`: it reports that it has nothing). -/
def randomLoop (draw : Nat → Option (BitVec 16)) : List UInt8 → Nat → List UInt8 → Random
  | [], i, done => ⟨0, i, done⟩
  | b :: rest, i, done =>
    match draw i with
    | some r => randomLoop draw rest (i + 1) (done ++ [UInt8.ofNat r.toNat])
    | none => ⟨1, i - 1, done ++ b :: rest⟩

/-- `rumpuser_getrandom` (`mod.rs` lines 192-224). -/
def getrandom (draw : Nat → Option (BitVec 16)) (buf : List UInt8) : Random := randomLoop draw buf 0 []

/-! ## Time -/

/-- `rawtime`: `Instant::now` in nanoseconds, its value at boot, and the Unix time then. -/
structure Clock where
  now : Nat
  boot : Nat
  wall : Nat

/-- `1_000_000_000`. -/
@[irreducible] def NS : Nat := 1000000000

/-- `duration_since_boot`. -/
def Clock.since (c : Clock) : Nat := c.now - c.boot

/-- `as i64` of a `u64`. -/
def asI64 (n : Nat) : Int := (BitVec.ofNat 64 n).toInt

/-- `rumpuser_clock_gettime` (`mod.rs` lines 255-277): the value returned, seconds and nanoseconds. -/
def gettime (c : Clock) (which : Nat) : Nat × Option (Int × Nat) :=
  match which with
  | 1 => (0, some (asI64 (c.since / NS), c.since % NS))
  | 0 => (0, some (asI64 (c.wall + c.since / NS), c.since % NS))
  | _ => (1, none)

/-- `rumpuser_clock_sleep` (`threads.rs` lines 117-160): for how many nanoseconds the thread sleeps, and the value
returned.  A difference of two instants below zero is a panic. -/
def clockSleep (c : Clock) (which sec nanos : Nat) : Outcome (Nat × Nat) :=
  match which with
  | 1 => if NS * sec + nanos < c.now then .panic else .ok (NS * sec + nanos - c.now, 0)
  | 0 => .ok (NS * sec + nanos, 0)
  | _ => .ok (0, 22)

/-! ## Parameters -/

/-- `str::parse::<usize>`. -/
def parseUsize (s : List UInt8) : Option Nat :=
  let ds := match s with
    | 43 :: t => t
    | _ => s
  if ds = [] then none
  else ds.foldlM (fun a b =>
    if 48 ≤ b.toNat ∧ b.toNat ≤ 57 then
      if a * 10 + (b.toNat - 48) < 2 ^ 64 then some (a * 10 + (b.toNat - 48)) else none
    else none) 0

/-- `format!("{}", n)`, for numbers with up to as many digits as the first argument says. -/
def format : Nat → Nat → List UInt8
  | 0, _ => []
  | f + 1, n => if n < 10 then [UInt8.ofNat (48 + n)] else format f (n / 10) ++ [UInt8.ofNat (48 + n % 10)]

/-- The `match` of `rumpuser_getparam` (`mod.rs` lines 290-304), without the `\0` at the end. -/
def paramText (cmdline : List UInt8) (name : String) : Option (List UInt8) :=
  if name = "_RUMPUSER_NCPU" then some (format 20 ((parseUsize cmdline).getD 1))
  else if name = "RUMP_VERBOSE" then some [49]
  else if name = "RUMP_THREADS" then some [49]
  else if name = "_RUMPUSER_HOSTNAME" then some [98, 116, 101, 115, 116]
  else if name = "RUMP_MEMLIMIT" then some [53, 52, 57, 55, 53, 53, 56, 49, 51, 56, 56, 56]
  else none

/-- `rumpuser_getparam` (`mod.rs` lines 279-310): the value returned, and the buffer. -/
def getparam (cmdline : List UInt8) (name : String) (buf : List UInt8) : Outcome (Nat × List UInt8) :=
  match paramText cmdline name with
  | none => .ok (2, buf)
  | some t =>
    let t := t ++ [0]
    if buf.length < t.length then .panic else .ok (0, t ++ buf.drop t.length)

end NRK.Rump
