import Verif.Proc.CoreSetModel

/-!
# Model of the controller's table of hardware threads,
`kernel/src/arch/x86_64/rackscale/controller_state.rs`
-/

namespace NRK.Rack

open NRK.Proc

/-- `ThreadMap` (`controller_state.rs` lines 53-65). -/
structure ThreadMap where
  num : Nat
  map : CoreBitMap
deriving DecidableEq, Repr

def ThreadMap.new : ThreadMap := ⟨0, CoreBitMap.empty⟩

/-- `ThreadMap::mark_thread_free` (`controller_state.rs` lines 77-80); the debug assertion is a panic. -/
def ThreadMap.markFree (t : ThreadMap) (mtid : Nat) : Outcome ThreadMap :=
  if mtid < t.num then (t.map.setBit mtid true).map fun m => { t with map := m } else .panic

/-- The loop of `init` over a list of thread numbers. -/
def markAll : ThreadMap → List Nat → Outcome ThreadMap
  | t, [] => .ok t
  | t, i :: is => (t.markFree i).bind fun t' => markAll t' is

/-- `ThreadMap::init` (`controller_state.rs` lines 67-75). -/
def ThreadMap.init (t : ThreadMap) (n : Nat) : Outcome ThreadMap :=
  if n ≤ 256 then markAll { t with num := n } (List.range n) else .panic

/-- `ThreadMap::claim_first_free_thread` (`controller_state.rs` lines 82-91). -/
def ThreadMap.claimFirst (t : ThreadMap) : Outcome (ThreadMap × Option Nat) :=
  match t.map.next.1 with
  | some mtid =>
    if mtid < t.num then (t.map.setBit mtid false).map fun m => ({ t with map := m }, some mtid)
    else .ok (t, none)
  | none => .ok (t, none)

/-- `CpuThread` (`lib/kpi/src/system.rs`): global id and node; the other fields are not used here. -/
structure CpuThread where
  id : Nat
  node : Nat
deriving DecidableEq, Repr

/-- `MAX_MACHINES` and `MAX_CORES` (`arch/x86_64/mod.rs`). -/
def maxMachines : Nat := 16
def maxCores : Nat := 192

/-- `ControllerState` (`controller_state.rs` lines 94-102); the arrays are indexed by machine id less
one. -/
structure Controller where
  hw : List CpuThread
  maps : Nat → ThreadMap
  aff : Nat → List Nat

/-- `CONTROLLER_STATE` (`controller_state.rs` lines 142-156). -/
def Controller.new : Controller := ⟨[], fun _ => ThreadMap.new, fun _ => []⟩

/-- `ControllerState::init_client_state` (`controller_state.rs` lines 105-118); indexing out of bounds,
the subtraction for machine 0 and pushing to a full array are panics. -/
def Controller.initClient (s : Controller) (mid : Nat) (ts : List CpuThread) : Outcome Controller :=
  if mid = 0 ∨ maxMachines < mid then .panic
  else if maxCores < (s.aff (mid - 1)).length + ts.length ∨
      maxMachines * maxCores < s.hw.length + ts.length then .panic
  else
    ((s.maps (mid - 1)).init ts.length).map fun t =>
      { hw := s.hw ++ ts, aff := upd s.aff (mid - 1) (s.aff (mid - 1) ++ ts.map (·.node)),
        maps := upd s.maps (mid - 1) t }

/-- `ControllerState::claim_hardware_thread` (`controller_state.rs` lines 127-140). -/
def Controller.claim (s : Controller) (mid : Nat) : Outcome (Controller × Option (BitVec 64 × Nat)) :=
  if mid = 0 ∨ maxMachines < mid then .panic
  else
    (s.maps (mid - 1)).claimFirst.bind fun
      | (t, some mtid) =>
        match (s.aff (mid - 1))[mtid]? with
        | some a => .ok ({ s with maps := upd s.maps (mid - 1) t },
            some (newGtid (BitVec.ofNat 64 mtid) (BitVec.ofNat 64 mid), a))
        | none => .panic
      | (t, none) => .ok ({ s with maps := upd s.maps (mid - 1) t }, none)

/-- The effect of `handle_release_core` (`rackscale/processops/release_core.rs` lines 68-103) on the table:
none, it only tells the resource manager. -/
def Controller.release (s : Controller) (_gtid : BitVec 64) : Controller := s

end NRK.Rack
