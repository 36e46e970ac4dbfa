import Verif.Common

/-!
# Model of resource requests to the resource manager (DCM),
`kernel/src/arch/x86_64/rackscale/dcm/resource_alloc.rs` and `dcm/mod.rs`

Any number of requests run at the same time in the controller; assignments arrive in any order and at any
time after the manager has chosen the ids of a request.
-/

namespace NRK.Rack.Dcm

/-- An `Arc<AtomicU64>`: made by the requester for an id (`resource_alloc.rs` lines 92-95), or by the
handler for an id that is not in the table (`dcm/mod.rs` lines 67-73). -/
inductive Cell where
  | own (id : Nat)
  | early (id : Nat)
deriving DecidableEq, Repr

/-- A call of `dcm_resource_alloc`: the first id, the numbers of cores and memory slices asked for,
whether the ids were put into the table, and the machines received so far. -/
structure Req where
  base : Nat
  cores : Nat
  mem : Nat
  inserted : Bool
  forCores : List Nat
  forMem : List Nat
deriving DecidableEq, Repr

def Req.total (r : Req) : Nat := r.cores + r.mem

/-- `received_allocations`. -/
def Req.received (r : Req) : Nat := r.forCores.length + r.forMem.length

/-- Record the machine for the resource of number `i` of the request (`resource_alloc.rs` lines 111-116
and 139-143). -/
def Req.push (r : Req) (i v : Nat) : Req :=
  if i < r.cores then { r with forCores := r.forCores ++ [v] } else { r with forMem := r.forMem ++ [v] }

/-- `IN_FLIGHT_DCM_ASSIGNMENTS`, the values of the cells and the requests.  `sent` remembers what the
manager has sent for each id. -/
structure St where
  table : Nat → Option Cell
  cell : Cell → Nat
  reqs : Nat → Option Req
  sent : Nat → Option Nat

def St.init : St := ⟨fun _ => none, fun _ => 0, fun _ => none, fun _ => none⟩

/-- `handle_dcm_node_assignment` (`dcm/mod.rs` lines 55-82); the lock is held throughout. -/
def St.assign (s : St) (id mid : Nat) : St :=
  match s.table id with
  | some c => { s with cell := upd s.cell c mid, sent := upd s.sent id (some mid) }
  | none => { s with table := upd s.table id (some (.early id)), cell := upd s.cell (.early id) mid,
                     sent := upd s.sent id (some mid) }

/-- The loop that puts the ids into the table (`resource_alloc.rs` lines 103-121), for the numbers in a
list; an id that is already there is recorded as received, and then the entry of the *second* id of the
request is removed (line 118). -/
def insertLoop (cell : Cell → Nat) : List Nat → (Nat → Option Cell) × Req → (Nat → Option Cell) × Req
  | [], x => x
  | i :: is, (table, r) =>
    match table (r.base + i) with
    | some c => insertLoop cell is
        (upd (upd table (r.base + i) (some (.own (r.base + i)))) (r.base + 1) none, r.push i (cell c))
    | none => insertLoop cell is (upd table (r.base + i) (some (.own (r.base + i))), r)

inductive Step : St → St → Prop where
  /-- the manager answers a new request with ids that no other request has (lines 76-86) -/
  | call (s : St) (n base cores mem : Nat) (hn : s.reqs n = none) (hpos : 0 < cores + mem)
      (hfresh : ∀ m r, s.reqs m = some r → r.base + r.total ≤ base ∨ base + (cores + mem) ≤ r.base) :
      Step s { s with reqs := upd s.reqs n (some ⟨base, cores, mem, false, [], []⟩) }
  /-- an assignment arrives, one for each id; machine 0 is the controller and never assigned -/
  | assign (s : St) (n id mid : Nat) (r : Req) (hr : s.reqs n = some r)
      (hid : r.base ≤ id ∧ id < r.base + r.total) (hs : s.sent id = none) (hm : mid ≠ 0) :
      Step s (s.assign id mid)
  /-- the requester takes the lock and puts its ids into the table -/
  | insert (s : St) (n : Nat) (r : Req) (hr : s.reqs n = some r) (hi : r.inserted = false) :
      Step s { s with table := (insertLoop s.cell (List.range r.total) (s.table, r)).1,
                      reqs := upd s.reqs n
                        (some { (insertLoop s.cell (List.range r.total) (s.table, r)).2 with inserted := true }) }
  /-- one round of the wait loop that finds its cell filled (lines 124-146) -/
  | receive (s : St) (n : Nat) (r : Req) (hr : s.reqs n = some r) (hi : r.inserted = true)
      (hk : r.received < r.total) (hv : s.cell (.own (r.base + r.received)) ≠ 0) :
      Step s { s with table := upd s.table (r.base + r.received) none,
                      reqs := upd s.reqs n
                        (some (r.push r.received (s.cell (.own (r.base + r.received))))) }

/-- Reachable with assignments arriving at any time. -/
inductive Reach : St → Prop where
  | init : Reach St.init
  | step {s s' : St} : Reach s → Step s s' → Reach s'

/-- The request has returned. -/
def Done (s : St) (n : Nat) (r : Req) : Prop :=
  s.reqs n = some r ∧ r.inserted = true ∧ r.received = r.total

end NRK.Rack.Dcm
