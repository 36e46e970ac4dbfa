import Verif.Rack.RemoteFsProps
import Verif.Rack.ResourceModel
import Verif.Rack.ThreadsProps

/-!
# Histories of calls for cores on a rack, and what they amount to (C64)
-/

namespace NRK.Rack.Remote

open Rpc (ENTRY)
open NRK.Proc (CoreInfo)

/-- What a program can ask for. -/
inductive CoreCall where
  | request (pid : Nat) (new : Bool) (entry : Nat)
  | release (pid gtid : Nat)

/-- A call on a client, with what the environment did and what the call returned. -/
structure CoreStep where
  client : Nat
  link : Link
  oracle : Oracle
  call : CoreCall
  res : Outcome (UInt64 × UInt64)

/-- Numbers are 64-bit values, the memory of the connection has the right size. -/
def CoreStep.Ok (s : CoreStep) : Prop :=
  s.link.slot1.length = ENTRY ∧ s.link.slot2.length = ENTRY ∧
  match s.call with
  | .request pid _ entry => pid < 2 ^ 64 ∧ entry < 2 ^ 64
  | .release pid gtid => pid < 2 ^ 64 ∧ gtid < 2 ^ 64

/-- The call at its client. -/
def CoreStep.exec (s : CoreStep) (r : Cluster Resources) : Outcome (UInt64 × UInt64) × Ctrl Resources :=
  match s.call with
  | .request pid new entry => requestCore ⟨r.srv s.client, r.world⟩ s.oracle s.link pid new entry
  | .release pid gtid => releaseCore ⟨r.srv s.client, r.world⟩ s.oracle s.link pid gtid

/-- The rack after the history `hs` (latest call last) of calls that did not crash it.  `reg` are the
hardware threads the machines registered with, each machine once, before the first call.  In between anything
may happen that leaves the two tables of cores alone. -/
inductive CoreHist (reg : Nat → List CpuThread) : List CoreStep → Cluster Resources → Prop where
  | boot {h0 : List Ev} {r : Cluster Resources} : Run h0 r.world.ext.ctl → Once h0 →
      (∀ mid, claimed mid h0 = []) → (∀ mid, reg mid = (registered mid h0).headD []) →
      (∀ g, r.world.ext.node.sched g = none) → (∀ k, (r.srv k).data.length = ENTRY) → CoreHist reg [] r
  | call {hs : List CoreStep} {r : Cluster Resources} {s : CoreStep} {c : Ctrl Resources} : CoreHist reg hs r →
      s.Ok → s.exec r = (s.res, c) → s.res ≠ .panic →
      CoreHist reg (hs ++ [s]) ⟨upd r.srv s.client c.srv, c.world⟩
  | other {hs : List CoreStep} {r r' : Cluster Resources} : CoreHist reg hs r →
      r'.world.ext.ctl = r.world.ext.ctl → r'.world.ext.node.sched = r.world.ext.node.sched →
      (∀ k, (r'.srv k).data.length = ENTRY) → CoreHist reg hs r'

/-- The call used up a thread of the machine. -/
def CoreStep.takes (mid : Nat) (s : CoreStep) : Bool :=
  decide (s.oracle.mid = mid) && match s.res with
  | .ok _ => true
  | .err .outOfMemory => true
  | _ => false

/-- How many threads of a machine were used up. -/
def taken (mid : Nat) (hs : List CoreStep) : Nat := hs.countP (CoreStep.takes mid)

/-- The core number of thread `i` of a machine. -/
def coreNumber (mid i : Nat) : Nat := mid * 2 ^ 32 + i

/-- The cores given to processes, in order. -/
def granted (hs : List CoreStep) : List Nat :=
  hs.filterMap fun s =>
    match s.res with
    | .ok (g, _) => some g.toNat
    | _ => none

/-- What a call does to the assignment of cores, as the code has it. -/
def afterCall (own : Nat → Option CoreInfo) (s : CoreStep) : Nat → Option CoreInfo :=
  match s.call, s.res with
  | .request pid _ entry, .ok (g, _) => upd own g.toNat (some ⟨pid, entry⟩)
  | .release pid gtid, .ok (g, _) => upd (upd own gtid none) g.toNat (some ⟨pid, gtid⟩)
  | .release _ gtid, .err .outOfMemory => upd own gtid none
  | _, _ => own

/-- Which process runs on which core, and where it starts, after a history. -/
def owner (hs : List CoreStep) : Nat → Option CoreInfo := hs.foldl afterCall fun _ => none

end NRK.Rack.Remote
