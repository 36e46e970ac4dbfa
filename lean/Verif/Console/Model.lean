import Verif.Console.Spec

/-!
# Model of the console, `kernel/src/arch/x86_64/serial.rs` and its callers

* A core's `PRINT_BUFFER` (`serial.rs` line 21), `buffered_print` (lines 49-87),
  `buffered_print_and_return` (lines 96-144).
* The system call `log` (`arch/x86_64/syscall.rs` lines 121-133), `exit` (lines 295-306), on a
  client of a rack `rpc_log` and `handle_log` (`rackscale/processops/print.rs`).
* At user level `Writer::drop` (`lib/vibrio/src/writer.rs` lines 45-51) and `rumpuser_putchar`
  (`lib/vibrio/src/rumprt/mod.rs` lines 226-236).

Simplifications, besides those in the comments of the definitions:

* A string is a list of bytes. `split_at` behind a line feed is at a boundary of characters in every
  valid string, so it does not panic. What `from_utf8` accepts is a parameter.
* The serial line is the list of bytes written to it; each carries the core that wrote it, which is
  not seen on the line.  `sprint!` writes byte by byte, without taking a lock of its own.
* What the kernel prints for itself (`sprint!` and the log macros in the kernel) is left out.
-/

namespace NRK.Console

open Spec (nl Ev)

/-- `PRINT_BUFFER` of a core (`serial.rs` lines 20-21): `String::capacity()`, its bytes, and whether it is
borrowed (an exception in the middle of a `buffered_print` sees it borrowed). -/
structure Buf where
  cap : Nat
  text : List UInt8
  borrowed : Bool
  deriving DecidableEq

/-- `PRINT_BUFFER` before and after `init` (`serial.rs` lines 21 and 24-28, 39-43: an assertion). -/
def Buf.early : Buf := ⟨0, [], false⟩
def Buf.init (b : Buf) : Option Buf := if b.text.length = 0 then some ⟨128, [], b.borrowed⟩ else none

/-- `buffer.find("\n")` (`serial.rs` line 52). -/
def find : List UInt8 → Option Nat
  | [] => none
  | b :: t => if b = nl then some 0 else (find t).map (· + 1)

/-- `buffered_print` (`serial.rs` lines 49-87): the buffer afterwards and what goes to the serial line, all of it
while `SERIAL_LINE_MUTEX` is held (but in the last case, lines 83-85). -/
def bufferedPrint (b : Buf) (s : List UInt8) : Buf × List UInt8 :=
  if b.borrowed then (b, s)
  else
    match find s with
    | some idx =>
      let low := s.take (idx + 1)
      let high := s.drop (idx + 1)
      let out := b.text ++ low
      let b := { b with text := [] }
      if high.length ≤ b.cap - b.text.length then ({ b with text := b.text ++ high }, out)
      else (b, out ++ high)
    | none =>
      if s.length > b.cap - b.text.length then ({ b with text := [] }, b.text ++ s)
      else ({ b with text := b.text ++ s }, [])

/-- `buffered_print_and_return` (`serial.rs` lines 96-144): the same, and `ret`. -/
def bufferedPrintAndReturn (b : Buf) (s : List UInt8) : Buf × List UInt8 × Option (List UInt8) :=
  let ret : List UInt8 := []
  let (b, out, ret) :=
    if b.borrowed then (b, s, ret)
    else
      match find s with
      | some idx =>
        let low := s.take (idx + 1)
        let high := s.drop (idx + 1)
        let ret := b.text ++ low
        let out := b.text ++ low
        let b := { b with text := [] }
        if high.length ≤ b.cap - b.text.length then ({ b with text := b.text ++ high }, out, ret)
        else (b, out ++ high, high)
      | none =>
        if s.length > b.cap - b.text.length then ({ b with text := [] }, b.text ++ s, b.text ++ s)
        else ({ b with text := b.text ++ s }, [], ret)
  (b, out, if ret.length > 0 then some ret else none)

/-- Where a core is in `buffered_print`: outside, before `SERIAL_LINE_MUTEX.lock()` (`serial.rs` lines 55
and 70), or with the lock. -/
inductive Pc where
  | idle | want | hold
  deriving DecidableEq

/-- A core: its buffer and what it still has to write to the serial line. The new contents of the buffer
are stored at the call, since no other core sees them. -/
structure Core where
  buf : Buf
  out : List UInt8
  pc : Pc

/-- The machine: its cores, `SERIAL_LINE_MUTEX`, the serial line, and whether it is switched off. -/
structure Sys where
  cores : Nat → Core
  lock : Option Nat
  wire : List (Nat × UInt8)
  off : Bool

/-- All cores have called `serial::init` (`arch/x86_64/mod.rs` lines 194 and 362). -/
def Sys.start (cap : Nat) : Sys := ⟨fun _ => ⟨⟨cap, [], false⟩, [], .idle⟩, none, [], false⟩

/-- One step of a core. -/
inductive Act where
  /-- the system call `log` with this text -/
  | print (i : Nat) (t : List UInt8)
  /-- `SERIAL_LINE_MUTEX.lock()` succeeds -/
  | lock (i : Nat)
  /-- one byte goes to the serial line -/
  | putb (i : Nat)
  /-- the lock is released, `buffered_print` returns -/
  | unlock (i : Nat)
  /-- the system call `exit` -/
  | exit (i : Nat)

/-- `log` (`arch/x86_64/syscall.rs` lines 121-133) up to the lock in `buffered_print`: a text that is not UTF-8 is dropped,
and the call succeeds all the same. -/
def Core.print (utf8 : List UInt8 → Bool) (c : Core) (t : List UInt8) : Core :=
  if utf8 t then
    let r := bufferedPrint c.buf t
    if r.2 = [] then { c with buf := r.1 } else ⟨r.1, r.2, .want⟩
  else c

/-- One step of the machine; `none`: the step is not possible now. -/
def Sys.step (utf8 : List UInt8 → Bool) (s : Sys) : Act → Option Sys
  | .print i t =>
    if s.off = false ∧ (s.cores i).pc = .idle then
      some { s with cores := upd s.cores i ((s.cores i).print utf8 t) }
    else none
  | .lock i =>
    if s.off = false ∧ (s.cores i).pc = .want ∧ s.lock = none then
      some { s with cores := upd s.cores i { s.cores i with pc := .hold }, lock := some i }
    else none
  | .putb i =>
    if s.off = false ∧ (s.cores i).pc = .hold then
      match (s.cores i).out with
      | [] => none
      | b :: out =>
        some { s with cores := upd s.cores i { s.cores i with out := out }, wire := s.wire ++ [(i, b)] }
    else none
  | .unlock i =>
    if s.off = false ∧ (s.cores i).pc = .hold ∧ (s.cores i).out = [] then
      some { s with cores := upd s.cores i { s.cores i with pc := .idle }, lock := none }
    else none
  -- `exit` (`arch/x86_64/syscall.rs` lines 295-306), `shutdown` (`arch/x86_64/debug.rs` lines 99-116)
  | .exit i =>
    if s.off = false ∧ (s.cores i).pc = .idle then some { s with off := true } else none

/-- Many steps. -/
def Sys.run (utf8 : List UInt8 → Bool) (s : Sys) : List Act → Option Sys
  | [] => some s
  | a :: as => (s.step utf8 a).bind (fun s => s.run utf8 as)

/-- What of a step is seen from outside. -/
def Act.ev (utf8 : List UInt8 → Bool) : Act → Ev
  | .print i t => if utf8 t then .print i t else .other
  | _ => .other

/-! ## A client of a rack -/

/-- A core of a client machine and, at the controller, the texts logged for it
(`RemoteLog(mid) text`, `print.rs` line 68). -/
structure Remote where
  buf : Buf
  wire : List UInt8
  logged : List (List UInt8)
  deriving DecidableEq

/-- `rpc_log` (`rackscale/processops/print.rs` lines 26-59), and `handle_log` (lines 62-81) at the controller. The message
arrives as it was sent (C89); texts that do not fit a message are left out. -/
def Remote.log (r : Remote) (t : List UInt8) : Remote :=
  match bufferedPrintAndReturn r.buf t with
  | (b, out, some m) => ⟨b, r.wire ++ out, r.logged ++ [m]⟩
  | (b, out, none) => ⟨b, r.wire ++ out, r.logged⟩

/-! ## User level -/

/-- `sys_println!` (`lib/vibrio/src/writer.rs` lines 12-19, 45-51): one call for every piece of the formatted text, then `\r\n`. -/
def println (pieces : List (List UInt8)) : List (List UInt8) := pieces ++ [[13, 10]]

/-- `char::encode_utf8` of `ch as u8 as char`: a character below 256. -/
def encode (b : UInt8) : List UInt8 :=
  if b < 128 then [b] else [(0xC0 : UInt8) ||| (b >>> 6), (0x80 : UInt8) ||| (b &&& 0x3F)]

/-- `rumpuser_putchar` (`lib/vibrio/src/rumprt/mod.rs` lines 226-236), for an argument that is a byte: the texts given
to the system call. -/
def putchar (b : UInt8) : List (List UInt8) :=
  (if b = nl then [encode 13] else []) ++ [encode b]

end NRK.Console
