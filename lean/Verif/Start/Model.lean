import Verif.Start.Spec

/-!
# Model of what programs are told at their start

* `get_process_info` (`kernel/src/arch/x86_64/syscall.rs` lines 151-176), `Process::process_info`
  (`lib/kpi/src/syscalls/process.rs` lines 99-121).
* `get_hardware_threads` (`syscall.rs` lines 62-102), `System::threads` (`lib/kpi/src/syscalls/system.rs` lines
  19-49), on a rack `rpc_get_hardware_threads` and `handle_get_hardware_threads`
  (`rackscale/systemops/get_hardware_threads.rs`).
* `main` of `lib/vibrio/src/rumprt/crt/mod.rs` (lines 249-296): cores and arguments.

The crates `serde_cbor` and `abomonation` are not in the repository. They are modelled from their
formats: CBOR (RFC 8949) with a map of field names, numbers in their shortest form; and the memory of a
vector (24 bytes) followed by the memory of its elements. The copy to user memory is C41 and C42.
-/

namespace NRK.Start

/-! ## CBOR -/

/-- `n` as `k` bytes, most significant first. -/
def be : Nat → Nat → List UInt8
  | 0, _ => []
  | k + 1, n => be k (n / 256) ++ [UInt8.ofNat (n % 256)]

/-- The number that bytes stand for, most significant first. -/
def ofBe (l : List UInt8) : Nat := l.foldl (fun a b => a * 256 + b.toNat) 0

/-- The head of an item: major type and number, shortest form. -/
def encHead (major n : Nat) : List UInt8 :=
  if n < 24 then [UInt8.ofNat (major * 32 + n)]
  else if n < 2 ^ 8 then UInt8.ofNat (major * 32 + 24) :: be 1 n
  else if n < 2 ^ 16 then UInt8.ofNat (major * 32 + 25) :: be 2 n
  else if n < 2 ^ 32 then UInt8.ofNat (major * 32 + 26) :: be 4 n
  else UInt8.ofNat (major * 32 + 27) :: be 8 n

/-- The next `k` bytes as a number. -/
def takeBe (major k : Nat) (l : List UInt8) : Option (Nat × Nat × List UInt8) :=
  if l.length < k then none else some (major, ofBe (l.take k), l.drop k)

/-- Reads the head of an item: major type, number, what follows. -/
def decHead : List UInt8 → Option (Nat × Nat × List UInt8)
  | [] => none
  | b :: l =>
    let major := b.toNat / 32
    let low := b.toNat % 32
    if low < 24 then some (major, low, l)
    else if low = 24 then takeBe major 1 l
    else if low = 25 then takeBe major 2 l
    else if low = 26 then takeBe major 4 l
    else if low = 27 then takeBe major 8 l
    else none

def encNum (n : Nat) : List UInt8 := encHead 0 n
def encText (s : List UInt8) : List UInt8 := encHead 3 s.length ++ s
def encBool (b : Bool) : List UInt8 := [if b then 0xf5 else 0xf4]

def decNum (l : List UInt8) : Option (Nat × List UInt8) :=
  match decHead l with
  | some (0, n, r) => some (n, r)
  | _ => none

def decText (l : List UInt8) : Option (List UInt8 × List UInt8) :=
  match decHead l with
  | some (3, n, r) => if r.length < n then none else some (r.take n, r.drop n)
  | _ => none

def decBool : List UInt8 → Option (Bool × List UInt8)
  | b :: r => if b = 0xf5 then some (true, r) else if b = 0xf4 then some (false, r) else none
  | [] => none

/-- The names of the fields of `ProcessInfo` (`lib/kpi/src/process.rs` lines 63-80). -/
inductive Field where
  | pid | hasTls | tlsData | tlsDataLen | tlsLenTotal | alignment | cmdline | appCmdline
  deriving DecidableEq

def Field.name : Field → List UInt8
  | .pid => [112, 105, 100]
  | .hasTls => [104, 97, 115, 95, 116, 108, 115]
  | .tlsData => [116, 108, 115, 95, 100, 97, 116, 97]
  | .tlsDataLen => [116, 108, 115, 95, 100, 97, 116, 97, 95, 108, 101, 110]
  | .tlsLenTotal => [116, 108, 115, 95, 108, 101, 110, 95, 116, 111, 116, 97, 108]
  | .alignment => [97, 108, 105, 103, 110, 109, 101, 110, 116]
  | .cmdline => [99, 109, 100, 108, 105, 110, 101]
  | .appCmdline => [97, 112, 112, 95, 99, 109, 100, 108, 105, 110, 101]

def Field.all : List Field :=
  [.pid, .hasTls, .tlsData, .tlsDataLen, .tlsLenTotal, .alignment, .cmdline, .appCmdline]

/-- The value of a field (derived `Serialize`). -/
def Field.enc (i : Info) : Field → List UInt8
  | .pid => encNum i.pid
  | .hasTls => encBool i.hasTls
  | .tlsData => encNum i.tlsData
  | .tlsDataLen => encNum i.tlsDataLen
  | .tlsLenTotal => encNum i.tlsLenTotal
  | .alignment => encNum i.alignment
  | .cmdline => encText i.cmdline
  | .appCmdline => encText i.appCmdline

/-- Reads the value of a field into `i` (derived `Deserialize`). -/
def Field.dec (i : Info) (l : List UInt8) : Field → Option (Info × List UInt8)
  | .pid => (decNum l).map fun p => ({ i with pid := p.1 }, p.2)
  | .hasTls => (decBool l).map fun p => ({ i with hasTls := p.1 }, p.2)
  | .tlsData => (decNum l).map fun p => ({ i with tlsData := p.1 }, p.2)
  | .tlsDataLen => (decNum l).map fun p => ({ i with tlsDataLen := p.1 }, p.2)
  | .tlsLenTotal => (decNum l).map fun p => ({ i with tlsLenTotal := p.1 }, p.2)
  | .alignment => (decNum l).map fun p => ({ i with alignment := p.1 }, p.2)
  | .cmdline => (decText l).map fun p => ({ i with cmdline := p.1 }, p.2)
  | .appCmdline => (decText l).map fun p => ({ i with appCmdline := p.1 }, p.2)

/-- `serde_cbor::to_vec` of a `ProcessInfo` (`syscall.rs` line 165). -/
def toVec (i : Info) : List UInt8 :=
  encHead 5 Field.all.length ++ Field.all.flatMap fun f => encText f.name ++ f.enc i

/-- Reads `n` fields; `seen` are the ones already read: a field twice is an error. Unknown fields, which
the encoder does not write, are an error here. -/
def decFields : Nat → List Field → Info → List UInt8 → Option (List Field × Info × List UInt8)
  | 0, seen, i, l => some (seen, i, l)
  | n + 1, seen, i, l =>
    match decText l with
    | none => none
    | some (k, r) =>
      match Field.all.find? (fun f => f.name = k) with
      | none => none
      | some f =>
        if f ∈ seen then none
        else
          match f.dec i r with
          | none => none
          | some (i, r) => decFields n (seen ++ [f]) i r

def Info.default : Info := ⟨0, false, 0, 0, 0, 0, [], []⟩

/-- `serde_cbor::from_slice` (`lib/kpi/src/syscalls/process.rs` line 116): a map with all fields, and nothing after it. -/
def fromSlice (l : List UInt8) : Option Info :=
  match decHead l with
  | some (5, n, r) =>
    match decFields n [] Info.default r with
    | some (seen, i, rest) =>
      if Field.all.all (· ∈ seen) ∧ rest = [] then some i else none
    | none => none
  | _ => none

/-! ## The system call -/

/-- What is in a buffer of `size` bytes, first zero, after the kernel has written `w` to it if it fits (`syscall.rs`
lines 92-99 and 166-173), cut or filled with zeros to the length the kernel returned (`buf.resize(len, 0)`). -/
def received (size : Nat) (w : List UInt8) : List UInt8 :=
  let buf := if w.length ≤ size then w ++ List.replicate (size - w.length) 0 else List.replicate size 0
  buf.take w.length ++ List.replicate (w.length - buf.length) 0

/-- `Process::process_info` (`lib/kpi/src/syscalls/process.rs` lines 99-121); `debug`: the program is built with debug
assertions (line 113). -/
def processInfo (debug : Bool) (i : Info) : Got Info :=
  let w := toVec i
  if debug = true ∧ ¬ w.length ≤ 256 then .panic
  else
    match fromSlice (received 256 w) with
    | some i => .ok i
    | none => .panic

/-! ## Hardware threads -/

/-- A 64-bit number in memory. -/
def le64 (n : Nat) : List UInt8 := (be 8 n).reverse

def ofLe (l : List UInt8) : Nat := ofBe l.reverse

/-- A `CpuThread` in memory: five words. -/
def Thread.mem (t : Thread) : List UInt8 :=
  le64 t.id ++ le64 t.node ++ le64 t.package ++ le64 t.core ++ le64 t.thread

def Thread.ofMem (l : List UInt8) : Thread :=
  ⟨ofLe (l.take 8), ofLe ((l.drop 8).take 8), ofLe ((l.drop 16).take 8), ofLe ((l.drop 24).take 8),
    ofLe ((l.drop 32).take 8)⟩

/-- `abomonation::encode` of a vector that is at `ptr` with room for `cap` elements (`syscall.rs` line 89). -/
def encThreads (ptr cap : Nat) (ts : List Thread) : List UInt8 :=
  le64 ptr ++ le64 cap ++ le64 ts.length ++ ts.flatMap Thread.mem

def ofMems : Nat → List UInt8 → List Thread
  | 0, _ => []
  | n + 1, l => Thread.ofMem (l.take 40) :: ofMems n (l.drop 40)

/-- `abomonation::decode::<Vec<CpuThread>>`: the vector and what is behind it. -/
def decThreads (l : List UInt8) : Option (List Thread × List UInt8) :=
  if l.length < 24 then none
  else
    let n := ofLe ((l.drop 16).take 8)
    let r := l.drop 24
    if r.length < 40 * n then none else some (ofMems n r, r.drop (40 * n))

/-- The size of the buffer in `System::threads` (`lib/kpi/src/syscalls/system.rs` line 20). -/
def bufSize : Nat := 5 * 4096

/-- `System::threads` (`lib/kpi/src/syscalls/system.rs` lines 19-49) with what the kernel wrote and returned. -/
def threadsResult (debug : Bool) (w : List UInt8) : Got (List Thread) :=
  if debug = true ∧ ¬ w.length ≤ bufSize then .panic
  else
    match decThreads (received bufSize w) with
    | some (ts, rest) => if rest.length > 0 then .error else .ok ts
    | none => .error

/-- A hardware thread of the machine (crate `atopology`); `node` is unknown on machines without NUMA tables. -/
structure HwThread where
  id : Nat
  node : Option Nat
  package : Nat
  core : Nat
  thread : Nat

/-- What the program is told of it (`syscall.rs` lines 74-82), `new_gtid` (`lib/kpi/src/system.rs` lines 21-23). -/
def HwThread.told (mid : Nat) (h : HwThread) : Thread :=
  ⟨mid <<< 32 ||| h.id, h.node.getD 0, h.package, h.core, h.thread⟩

/-- `System::threads` on one machine. -/
def threads (debug : Bool) (ptr cap mid : Nat) (hw : List HwThread) : Got (List Thread) :=
  threadsResult debug (encThreads ptr cap (hw.map (HwThread.told mid)))

/-- `KernelRpcRes_SIZE` (`rackscale/kernelrpc.rs` line 94): `KResult<(u64, u64)>` in memory. -/
def resSize : Nat := 24
/-- The server's buffer (`lib/rpc/src/server.rs` line 21). -/
def serverBuf : Nat := 8192

/-- `handle_get_hardware_threads` (`rackscale/systemops/get_hardware_threads.rs` lines 70-97): the data behind the result. The slice
`payload[start..end]` ends the controller if the buffer is too small (line 80). -/
def handleThreads (ptr cap : Nat) (all : List Thread) : Outcome (List UInt8) :=
  if resSize + (all.length * 40 + 24) ≤ serverBuf then .ok (encThreads ptr cap all) else .panic

/-- `rpc_get_hardware_threads` (lines 22-67) with the data of the reply (the transport is C89), and `System::threads` on a client. -/
def rackThreads (debug : Bool) (ptr cap : Nat) (all : List Thread) : Outcome (Got (List Thread)) :=
  match handleThreads ptr cap all with
  | .ok d =>
    -- lines 42-60: the data fits both buffers
    if d.length ≤ bufSize ∧ d.length ≤ bufSize then .ok (threadsResult debug d) else .ok .error
  | .err e => .err e
  | .panic => .panic

/-! ## `main` -/

/-- The digits of a number, `none` on another character or if it gets too big. -/
def digits : Nat → List UInt8 → Option Nat
  | n, [] => some n
  | n, b :: t =>
    if 48 ≤ b ∧ b ≤ 57 then
      if n * 10 + (b.toNat - 48) < 2 ^ 64 then digits (n * 10 + (b.toNat - 48)) t else none
    else none

/-- `pinfo.cmdline.parse::<usize>()` (`crt/mod.rs` line 254; standard library). -/
def parse (s : List UInt8) : Option Nat :=
  match s with
  | [] => none
  | b :: t => if b = 43 then (if t = [] then none else digits 0 t) else digits 0 s

/-- The loop that requests cores (`crt/mod.rs` lines 257-281): `req` is the kernel's answer. Returns the cores the
program has (`CPUIDX_TO_GTID`), their number is `maximum`. -/
def requestLoop (req : Nat → Option Nat) (current want : Nat) : List Nat → List Nat → List Nat
  | [], cores => cores
  | t :: ts, cores =>
    if t ≠ current then
      match req t with
      | some g =>
        let cores := cores ++ [g]
        if cores.length = want then cores else requestLoop req current want ts cores
      | none => cores
    else requestLoop req current want ts cores

/-- `main`, lines 249-283: the cores the program runs on, or the assertion in line 283. -/
def startCores (req : Nat → Option Nat) (current : Nat) (hw : List Nat) (cmdline : List UInt8) :
    Got (List Nat) :=
  let want := (parse cmdline).getD hw.length
  let cores := if want > 1 then requestLoop req current want hw [current] else [current]
  if cores.length = want then .ok cores else .panic

/-- `str::rsplit(' ')`: the pieces, from the end (standard library). The piece at the end of `s` first. -/
def rsplit (s : List UInt8) : List (List UInt8) :=
  let (piece, done) := s.foldl (fun (p : List UInt8 × List (List UInt8)) b =>
    if b = 32 then ([], p.1 :: p.2) else (p.1 ++ [b], p.2)) ([], [])
  piece :: done

/-- `some.bin`. -/
def binName : List UInt8 := [115, 111, 109, 101, 46, 98, 105, 110]

/-- The arguments of the C program (`crt/mod.rs` lines 285-301): a pointer for each, and nothing behind them; `CString::new` ends the
program if there is a zero byte. -/
def startArgs (app : List UInt8) : Got (List (List UInt8)) :=
  if 0 ∈ app then .panic else .ok (binName :: rsplit app)

end NRK.Start
