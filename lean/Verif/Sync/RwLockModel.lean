import Verif.Common

/-!
# Model of the file system's reader-writer lock, `kernel/src/fs/rwlock.rs`

A transition system with one step per atomic access, sequentially consistent, any number of
threads.  A "thread" is one acquisition context; several may run on the same core (share a slot).
Simplification: the accesses are sequentially consistent, the code uses `Acquire`/`Relaxed`.
-/

namespace NRK.Sync.FsRw

/-- Where a thread is. -/
inductive Pc where
  | idle
  /-- `read`: spinning on the write lock (lines 157-165) -/
  | rdWait
  /-- `read`: the volatile read saw no writer; about to `fetch_add` (line 171) -/
  | rdTry
  /-- `read`: own counter incremented; about to load the write lock (line 172) -/
  | rdIncd
  /-- `read`: saw a writer; about to `fetch_sub` (line 176) -/
  | rdBack
  /-- holds a `ReadGuard` -/
  | reading
  /-- `write`: spinning on the compare-exchange (lines 115-125) -/
  | wrWait
  /-- `write`: has the write lock, the reader slots below `k` were seen 0 in this pass
  (lines 129-136) -/
  | wrScan (k : Nat)
  /-- holds a `WriteGuard` -/
  | writing
  /-- `write_unlock` panicked because the weak compare-exchange failed (lines 182-188) -/
  | crashedW
  /-- `read_unlock` panicked because its counter was 0 (lines 193-195) -/
  | crashedR
deriving DecidableEq, Repr

/-- `RwLock` (lines 38-50) and the threads. -/
structure St where
  wlock : Bool
  rlock : Nat → Nat
  pc : Nat → Pc

/-- `RwLock::new` (lines 96-102); all threads outside. -/
def St.init : St := { wlock := false, rlock := fun _ => 0, pc := fun _ => .idle }

/-- `n`: the number of reader slots a writer waits for, `min CORES_PER_NUMA_NODE MAX_CORES`
(lines 112, 131-133).  `slot t`: the index a thread uses, `mtid_from_gtid(CORE_ID)` (line 146). -/
inductive Step (n : Nat) (slot : Nat → Nat) : St → St → Prop
  /-- call `read` -/
  | readCall (s : St) (t : Nat) (h : s.pc t = .idle) :
      Step n slot s { s with pc := upd s.pc t .rdWait }
  /-- lines 160-164: the write lock is free -/
  | readSpin (s : St) (t : Nat) (h : s.pc t = .rdWait) (hw : s.wlock = false) :
      Step n slot s { s with pc := upd s.pc t .rdTry }
  /-- line 171 -/
  | readInc (s : St) (t : Nat) (h : s.pc t = .rdTry) :
      Step n slot s { s with
        rlock := upd s.rlock (slot t) (s.rlock (slot t) + 1), pc := upd s.pc t .rdIncd }
  /-- lines 172-174, 179 -/
  | readOk (s : St) (t : Nat) (h : s.pc t = .rdIncd) (hw : s.wlock = false) :
      Step n slot s { s with pc := upd s.pc t .reading }
  /-- line 172, a writer is there -/
  | readFail (s : St) (t : Nat) (h : s.pc t = .rdIncd) (hw : s.wlock = true) :
      Step n slot s { s with pc := upd s.pc t .rdBack }
  /-- line 176 -/
  | readDec (s : St) (t : Nat) (h : s.pc t = .rdBack) :
      Step n slot s { s with
        rlock := upd s.rlock (slot t) (s.rlock (slot t) - 1), pc := upd s.pc t .rdWait }
  /-- `read_unlock` (lines 192-196) -/
  | readUnlock (s : St) (t : Nat) (h : s.pc t = .reading) :
      Step n slot s { s with
        rlock := upd s.rlock (slot t) (s.rlock (slot t) - 1)
        pc := upd s.pc t (if s.rlock (slot t) = 0 then .crashedR else .idle) }
  /-- call `write` -/
  | writeCall (s : St) (t : Nat) (h : s.pc t = .idle) :
      Step n slot s { s with pc := upd s.pc t .wrWait }
  /-- lines 116-123, success (failure, also spurious, stays in the loop) -/
  | writeCas (s : St) (t : Nat) (h : s.pc t = .wrWait) (hw : s.wlock = false) :
      Step n slot s { s with wlock := true, pc := upd s.pc t (.wrScan 0) }
  /-- lines 129-134: slot `k` is free -/
  | scanOk (s : St) (t k : Nat) (h : s.pc t = .wrScan k) (hk : k < n) (hz : s.rlock k = 0) :
      Step n slot s { s with pc := upd s.pc t (.wrScan (k + 1)) }
  /-- lines 129-136: slot `k` is taken, start over -/
  | scanRetry (s : St) (t k : Nat) (h : s.pc t = .wrScan k) (hk : k < n) (hz : s.rlock k ≠ 0) :
      Step n slot s { s with pc := upd s.pc t (.wrScan 0) }
  /-- line 138 -/
  | scanDone (s : St) (t k : Nat) (h : s.pc t = .wrScan k) (hk : ¬ k < n) :
      Step n slot s { s with pc := upd s.pc t .writing }
  /-- `write_unlock` (lines 181-186), success -/
  | writeUnlock (s : St) (t : Nat) (h : s.pc t = .writing) (hw : s.wlock = true) :
      Step n slot s { s with wlock := false, pc := upd s.pc t .idle }
  /-- `write_unlock`, failure (line 187).  A weak compare-exchange may fail spuriously, so this
  is possible whatever the value of the lock. -/
  | writeUnlockFail (s : St) (t : Nat) (h : s.pc t = .writing) :
      Step n slot s { s with pc := upd s.pc t .crashedW }

/-- Only threads below `N` take steps; `N` is arbitrary. -/
def Bounded (N : Nat) (s : St) : Prop := ∀ t, N ≤ t → s.pc t = .idle

/-- Reachable states of a system with `N` threads. -/
inductive Reach (N n : Nat) (slot : Nat → Nat) : St → Prop
  | init : Reach N n slot St.init
  | step {s s' : St} : Reach N n slot s → Step n slot s s' → Bounded N s' → Reach N n slot s'

end NRK.Sync.FsRw
