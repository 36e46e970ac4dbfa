import Verif.Gdb.BreakModel

/-!
# C84: what a debugger expects of breakpoints

The points in force, as GDB's remote protocol defines them: inserting a point puts it in force, inserting it again
changes nothing, removing it ends it; there is room for four.
-/

namespace NRK.Gdb

/-- A point that the debugger can set. -/
inductive Point where
  | brk (req : BreakRequest) (addr : Nat)
  | watch (addr len : Nat) (kind : WatchKind)
deriving DecidableEq, Repr

/-- The point a request is about, and whether it inserts it. -/
def Cmd.point : Cmd → Bool × Point
  | .addBreak req addr => (true, .brk req addr)
  | .removeBreak req addr => (false, .brk req addr)
  | .addWatch addr len kind => (true, .watch addr len kind)
  | .removeWatch addr len kind => (false, .watch addr len kind)

/-- A request on the points in force: the answer, and the points after it. -/
def want (out : List Point) (c : Cmd) : Bool × List Point :=
  match c.point with
  | (true, p) => if p ∈ out then (true, out) else if out.length < 4 then (true, p :: out) else (false, out)
  | (false, p) => if p ∈ out then (true, out.erase p) else (false, out)

def wantAll (out : List Point) : List Cmd → List Bool × List Point
  | [] => ([], out)
  | c :: cs => ((want out c).1 :: (wantAll (want out c).2 cs).1, (wantAll (want out c).2 cs).2)

def wantSession (out : List Point) : List (List Cmd) → List (List Bool) × List Point
  | [] => ([], out)
  | cs :: l => ((wantAll out cs).1 :: (wantSession (wantAll out cs).2 l).1, (wantSession (wantAll out cs).2 l).2)

/-- What the processor must be told to stop at a point: an instruction at the address; or an access to `len` bytes.
The processor has no condition for reads alone. -/
def Point.armed : Point → Nat × Cond × Nat
  | .brk _ addr => (addr, .instructions, 1)
  | .watch addr len .write => (addr, .dataWrites, len)
  | .watch addr len _ => (addr, .dataReadsWrites, len)

/-- The registers that are on. -/
def Dbg.armed (d : Dbg) : List (Nat × Cond × Nat) :=
  (List.finRange 4).filterMap fun i => if (d.hw i).on then some ((d.hw i).addr, (d.hw i).cond, (d.hw i).size) else none

/-- What the debugger should be told when a point was hit. -/
def Point.stop : Point → Stop
  | .brk .hardware _ => .hwBreak
  | .brk .software _ => .swBreak
  | .watch addr _ kind => .watch kind addr

/-- Two watchpoints at one address. -/
def Point.sameSpot : Point → Point → Prop
  | .watch a _ _, .watch b _ _ => a = b
  | _, _ => False

/-- A length that the processor can watch. -/
def Point.sized : Point → Prop
  | .watch _ len _ => len = 1 ∨ len = 2 ∨ len = 4 ∨ len = 8
  | _ => True

/-- A request as GDB makes it in the ordinary case: lengths of 1, 2, 4 or 8 bytes, no point inserted twice, no
watchpoint removed while a different one is at the same address. -/
def PlainCmd (out : List Point) (c : Cmd) : Prop :=
  match c.point with
  | (true, p) => p.sized ∧ p ∉ out
  | (false, p) => ∀ q ∈ out, q.sameSpot p → q = p

def Plain (out : List Point) : List Cmd → Prop
  | [] => True
  | c :: cs => PlainCmd out c ∧ Plain (want out c).2 cs

def PlainSession (out : List Point) : List (List Cmd) → Prop
  | [] => True
  | cs :: l => Plain out cs ∧ PlainSession (wantAll out cs).2 l

/-- The bytes at which a register stops the processor: it leaves out the low bits of the address (Intel SDM, volume 3,
section 17.2.5). -/
def Dr.covers (r : Dr) (a : Nat) : Prop := r.addr / r.size * r.size ≤ a ∧ a < r.addr / r.size * r.size + r.size

end NRK.Gdb
