import Verif.Common

/-!
# Model of the user-level reader-writer lock, `lib/lineup/src/rwlock.rs`

`n` threads, any interleaving, one step per access to shared state.  The two mutexes inside the
lock are used without timed waits, so by `c49_exclusive_partial` and the theorems next to it they
are locks; here entering and leaving them is one step each.  `accOwner` is the owner recorded in
`access`, which `try_enter` asserts not to be the caller.

Simplifications: sequentially consistent accesses (as in the code); a thread enters only while it
does not hold the lock, leaves only while it holds it, downgrades only while it holds it for
writing and upgrades only while it holds it for reading.
-/

namespace NRK.Lineup.Rw

/-- `RwLockStatus` (`rwlock.rs` lines 70-78). -/
inductive Status where
  | free | writeable | readable
deriving DecidableEq, Repr

/-- Where a thread is. -/
inductive Pc where
  | idle
  /-- `enter(Write)`, about to enter `wait` (line 118) -/
  | wWait
  /-- about to enter `access` (line 123) -/
  | wAcc
  /-- about to set the type (lines 124-125, 150-151) -/
  | wSet
  /-- about to leave `wait` (lines 137, 152) -/
  | wOut
  /-- `enter(Read)`, about to enter `wait` (line 118) -/
  | rWait
  /-- about to increment `readers` (line 129) -/
  | rAdd
  /-- the first reader, about to enter `access` (line 130) -/
  | rAcc
  /-- about to set the type (lines 131-132) -/
  | rSet
  /-- about to leave `wait` (lines 137, 173, 190) -/
  | rOut
  /-- `try_enter(Write)`, about to try `wait` (line 146) -/
  | twWait
  /-- about to try `access` (line 149) -/
  | twAcc
  /-- `try_enter(Read)`, about to try `wait` (line 146) -/
  | trWait
  /-- about to load `readers` (line 163) -/
  | trLoad
  /-- has seen `v` readers: about to try `access` (line 167) or to compare-exchange
  (lines 181-187) -/
  | trTry (v : Nat)
  /-- about to set `readers` to 1 (line 169) -/
  | trStore
  /-- about to set the type (lines 170-171) -/
  | trSet
  /-- about to leave `wait` and return `false` (lines 156, 176) -/
  | tfOut
  /-- holds the lock for writing -/
  | write
  /-- holds the lock for reading -/
  | read
  /-- `exit` called by a writer, about to load the type (line 213) -/
  | xLoadW
  /-- `exit` called by a reader, about to load the type (line 213) -/
  | xLoadR
  /-- about to decrement `readers` (line 214) -/
  | xSub
  /-- about to set the type to free (lines 217-218) -/
  | xFree
  /-- about to leave `access` (line 219) -/
  | xAcc
  /-- `downgrade`, about to set the type (lines 230-231) -/
  | dSet
  /-- about to increment `readers` (line 232) -/
  | dAdd
  /-- about to leave `access` (line 235) -/
  | dAcc
  /-- `try_upgrade`, about to compare-exchange (lines 241-244) -/
  | uCas
  /-- about to set the type (lines 247-248) -/
  | uSet
  /-- a failed assertion, or `exit` on a free mutex -/
  | panic
deriving DecidableEq, Repr

/-- `RwLockInner` (lines 80-86) and the threads.  `wait` is the thread inside that mutex. -/
structure St where
  wait : Option Nat
  access : Bool
  accOwner : Option Nat
  readers : Nat
  type : Status
  pc : Nat → Pc

/-- `RwLockInner::new` (lines 89-98). -/
def St.init : St where
  wait := none
  access := false
  accOwner := none
  readers := 0
  type := .free
  pc := fun _ => .idle

/-- The thread moves to `p`. -/
def St.to (s : St) (t : Nat) (p : Pc) : St := { s with pc := upd s.pc t p }

/-- `access.enter()` or a successful `access.try_enter()`. -/
def St.lockAccess (s : St) (t : Nat) : St := { s with access := true, accOwner := some t }

/-- `access.exit()`. -/
def St.unlockAccess (s : St) : St := { s with access := false, accOwner := none }

/-- The steps of thread `t`. -/
inductive Step (n : Nat) : St → St → Prop
  | enterW (s : St) (t : Nat) (ht : t < n) (h : s.pc t = .idle) : Step n s (s.to t .wWait)
  | wWait (s : St) (t : Nat) (ht : t < n) (h : s.pc t = .wWait) (hw : s.wait = none) :
      Step n s ({ s with wait := some t }.to t .wAcc)
  | wAcc (s : St) (t : Nat) (ht : t < n) (h : s.pc t = .wAcc) (ha : s.access = false) :
      Step n s ((s.lockAccess t).to t .wSet)
  | wSet (s : St) (t : Nat) (ht : t < n) (h : s.pc t = .wSet) :
      Step n s ({ s with type := .writeable }.to t .wOut)
  | wOut (s : St) (t : Nat) (ht : t < n) (h : s.pc t = .wOut) :
      Step n s ({ s with wait := none }.to t .write)
  | enterR (s : St) (t : Nat) (ht : t < n) (h : s.pc t = .idle) : Step n s (s.to t .rWait)
  | rWait (s : St) (t : Nat) (ht : t < n) (h : s.pc t = .rWait) (hw : s.wait = none) :
      Step n s ({ s with wait := some t }.to t .rAdd)
  | rAddFirst (s : St) (t : Nat) (ht : t < n) (h : s.pc t = .rAdd) (h0 : s.readers = 0) :
      Step n s ({ s with readers := s.readers + 1 }.to t .rAcc)
  | rAddMore (s : St) (t : Nat) (ht : t < n) (h : s.pc t = .rAdd) (h0 : s.readers ≠ 0) :
      Step n s ({ s with readers := s.readers + 1 }.to t .rOut)
  | rAcc (s : St) (t : Nat) (ht : t < n) (h : s.pc t = .rAcc) (ha : s.access = false) :
      Step n s ((s.lockAccess t).to t .rSet)
  | rSet (s : St) (t : Nat) (ht : t < n) (h : s.pc t = .rSet) :
      Step n s ({ s with type := .readable }.to t .rOut)
  | rOut (s : St) (t : Nat) (ht : t < n) (h : s.pc t = .rOut) :
      Step n s ({ s with wait := none }.to t .read)
  /-- `try_enter(Write)` -/
  | tryW (s : St) (t : Nat) (ht : t < n) (h : s.pc t = .idle) : Step n s (s.to t .twWait)
  | twWait (s : St) (t : Nat) (ht : t < n) (h : s.pc t = .twWait) (hw : s.wait = none) :
      Step n s ({ s with wait := some t }.to t .twAcc)
  /-- lines 203-206 -/
  | twBusy (s : St) (t : Nat) (ht : t < n) (h : s.pc t = .twWait) (hw : s.wait ≠ none) :
      Step n s (s.to t .idle)
  /-- line 149, with the assertion of `mutex.rs` lines 112-115 -/
  | twOwn (s : St) (t : Nat) (ht : t < n) (h : s.pc t = .twAcc) (ho : s.accOwner = some t) :
      Step n s (s.to t .panic)
  | twAcc (s : St) (t : Nat) (ht : t < n) (h : s.pc t = .twAcc) (ho : s.accOwner ≠ some t)
      (ha : s.access = false) : Step n s ((s.lockAccess t).to t .wSet)
  | twHeld (s : St) (t : Nat) (ht : t < n) (h : s.pc t = .twAcc) (ho : s.accOwner ≠ some t)
      (ha : s.access = true) : Step n s (s.to t .tfOut)
  /-- `try_enter(Read)` -/
  | tryR (s : St) (t : Nat) (ht : t < n) (h : s.pc t = .idle) : Step n s (s.to t .trWait)
  | trWait (s : St) (t : Nat) (ht : t < n) (h : s.pc t = .trWait) (hw : s.wait = none) :
      Step n s ({ s with wait := some t }.to t .trLoad)
  | trBusy (s : St) (t : Nat) (ht : t < n) (h : s.pc t = .trWait) (hw : s.wait ≠ none) :
      Step n s (s.to t .idle)
  | trLoad (s : St) (t : Nat) (ht : t < n) (h : s.pc t = .trLoad) :
      Step n s (s.to t (.trTry s.readers))
  | trOwn (s : St) (t : Nat) (ht : t < n) (h : s.pc t = .trTry 0) (ho : s.accOwner = some t) :
      Step n s (s.to t .panic)
  | trAcc (s : St) (t : Nat) (ht : t < n) (h : s.pc t = .trTry 0) (ho : s.accOwner ≠ some t)
      (ha : s.access = false) : Step n s ((s.lockAccess t).to t .trStore)
  | trHeld (s : St) (t : Nat) (ht : t < n) (h : s.pc t = .trTry 0) (ho : s.accOwner ≠ some t)
      (ha : s.access = true) : Step n s (s.to t .tfOut)
  | trStore (s : St) (t : Nat) (ht : t < n) (h : s.pc t = .trStore) :
      Step n s ({ s with readers := 1 }.to t .trSet)
  | trSet (s : St) (t : Nat) (ht : t < n) (h : s.pc t = .trSet) :
      Step n s ({ s with type := .readable }.to t .rOut)
  | trCas (s : St) (t v : Nat) (ht : t < n) (h : s.pc t = .trTry (v + 1))
      (hr : s.readers = v + 1) : Step n s ({ s with readers := v + 2 }.to t .rOut)
  | trFail (s : St) (t v : Nat) (ht : t < n) (h : s.pc t = .trTry (v + 1))
      (hr : s.readers ≠ v + 1) : Step n s (s.to t (.trTry s.readers))
  | tfOut (s : St) (t : Nat) (ht : t < n) (h : s.pc t = .tfOut) :
      Step n s ({ s with wait := none }.to t .idle)
  /-- `exit` (lines 209-227) -/
  | exitW (s : St) (t : Nat) (ht : t < n) (h : s.pc t = .write) : Step n s (s.to t .xLoadW)
  | exitR (s : St) (t : Nat) (ht : t < n) (h : s.pc t = .read) : Step n s (s.to t .xLoadR)
  | xLoadWrite (s : St) (t : Nat) (ht : t < n) (h : s.pc t = .xLoadW ∨ s.pc t = .xLoadR)
      (hy : s.type = .writeable) : Step n s (s.to t .xFree)
  | xLoadOther (s : St) (t : Nat) (ht : t < n) (h : s.pc t = .xLoadW ∨ s.pc t = .xLoadR)
      (hy : s.type ≠ .writeable) : Step n s (s.to t .xSub)
  | xSubLast (s : St) (t : Nat) (ht : t < n) (h : s.pc t = .xSub) (hr : s.readers = 1) :
      Step n s ({ s with readers := s.readers - 1 }.to t .xFree)
  | xSubMore (s : St) (t : Nat) (ht : t < n) (h : s.pc t = .xSub) (hr : s.readers ≠ 1) :
      Step n s ({ s with readers := s.readers - 1 }.to t .idle)
  | xFree (s : St) (t : Nat) (ht : t < n) (h : s.pc t = .xFree) :
      Step n s ({ s with type := .free }.to t .xAcc)
  | xAcc (s : St) (t : Nat) (ht : t < n) (h : s.pc t = .xAcc) (ha : s.access = true) :
      Step n s (s.unlockAccess.to t .idle)
  | xAccFree (s : St) (t : Nat) (ht : t < n) (h : s.pc t = .xAcc) (ha : s.access = false) :
      Step n s (s.to t .panic)
  /-- `downgrade` (lines 229-237) -/
  | downgrade (s : St) (t : Nat) (ht : t < n) (h : s.pc t = .write) : Step n s (s.to t .dSet)
  | dSet (s : St) (t : Nat) (ht : t < n) (h : s.pc t = .dSet) :
      Step n s ({ s with type := .readable }.to t .dAdd)
  | dAddFirst (s : St) (t : Nat) (ht : t < n) (h : s.pc t = .dAdd) (hr : s.readers = 0) :
      Step n s ({ s with readers := s.readers + 1 }.to t .read)
  | dAddMore (s : St) (t : Nat) (ht : t < n) (h : s.pc t = .dAdd) (hr : s.readers ≠ 0) :
      Step n s ({ s with readers := s.readers + 1 }.to t .dAcc)
  | dAcc (s : St) (t : Nat) (ht : t < n) (h : s.pc t = .dAcc) (ha : s.access = true) :
      Step n s (s.unlockAccess.to t .read)
  | dAccFree (s : St) (t : Nat) (ht : t < n) (h : s.pc t = .dAcc) (ha : s.access = false) :
      Step n s (s.to t .panic)
  /-- `try_upgrade` (lines 239-256) -/
  | upgrade (s : St) (t : Nat) (ht : t < n) (h : s.pc t = .read) : Step n s (s.to t .uCas)
  | uCas (s : St) (t : Nat) (ht : t < n) (h : s.pc t = .uCas) (hr : s.readers = 1) :
      Step n s ({ s with readers := 0 }.to t .uSet)
  | uFail (s : St) (t : Nat) (ht : t < n) (h : s.pc t = .uCas) (hr : s.readers ≠ 1) :
      Step n s (s.to t .read)
  | uSet (s : St) (t : Nat) (ht : t < n) (h : s.pc t = .uSet) :
      Step n s ({ s with type := .writeable }.to t .write)

/-- The states that `n` threads reach. -/
inductive Reach (n : Nat) : St → Prop
  | init : Reach n St.init
  | step {s s' : St} (r : Reach n s) (st : Step n s s') : Reach n s'

/-- `RwLockInner::held(Read)` (lines 100-112). -/
def St.heldRead (s : St) : Bool := s.type == .readable

/-- `RwLockInner::held(Write)` (lines 100-112). -/
def St.heldWrite (s : St) : Bool := s.type == .writeable

end NRK.Lineup.Rw
