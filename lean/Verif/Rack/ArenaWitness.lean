import Verif.Rack.ArenaProps

/-!
# C93: a rack of two machines with shared-memory transport, two nodes, two cores
-/

namespace NRK.Rack.Arena

open Spec (Piece Range Place Fits)
open Shm (Region KBASE TRANSPORT)

/-- Devices of 4 MiB at 0x10000000 and 0x20000000. -/
def rack2 : Cfg where
  devs := [⟨0x10000000, 0x400000⟩, ⟨0x20000000, 0x400000⟩]
  machines := 2
  shmTransport := true
  nodes := 2
  arenas := 28
  maxAlloc := 131072
  cls := fun n => if n ≤ 64 then 64 else if n ≤ 4096 then 4096 else if n ≤ 131072 then 131072 else n

/-- A page of either node, one of machine 0's shared memory, one of machine 1's behind its messages, one right
behind machine 0's device, and a large page and another page of machine 0's shared memory. -/
def pool2 : List (Nat × Piece) :=
  [(0, ⟨0x1000, 4096⟩), (1, ⟨0x80000, 4096⟩), (12, ⟨0x10000000, 4096⟩), (13, ⟨0x20200000, 4096⟩),
    (0, ⟨0x10400000, 4096⟩), (12, ⟨0x10200000, 0x200000⟩), (12, ⟨0x10001000, 0x1000⟩)]

theorem KBASE_eq : KBASE = 0x400000000000 := by unfold KBASE; rfl

theorem TRANSPORT_eq : TRANSPORT = 0x200000 := by unfold TRANSPORT; rfl

theorem SBRK_eq : SBRK = 0x400000000000 + 0x20000000000 := by unfold SBRK; rw [KBASE_eq]

theorem rack2_range (m : Nat) (r : Range) (h : rangeOf rack2 m = some r) :
    r = ⟨0x10000000, 0, 0x400000⟩ ∨ r = ⟨0x20000000, 0x200000, 0x400000⟩ := by
  unfold rangeOf at h
  split at h
  · rename_i hm
    have hm' : m = 0 ∨ m = 1 := by have : m < 2 := hm; omega
    rcases hm' with rfl | rfl
    · left; simp [rack2] at h; exact h.symm
    · right; simp [rack2, TRANSPORT_eq] at h; exact h.symm
  · cases h

theorem start2 : Start rack2 (fun _ => 0) pool2 := by
  have r0 : rangeOf rack2 0 = some ⟨0x10000000, 0, 0x400000⟩ := by simp [rangeOf, rack2]
  have r1 : rangeOf rack2 1 = some ⟨0x20000000, 0x200000, 0x400000⟩ := by simp [rangeOf, rack2, TRANSPORT_eq]
  refine ⟨⟨by decide, ?_, ?_, ?_, ?_, ?_, ?_⟩, fun _ => ⟨by decide, by unfold Valid; decide⟩, ?_, ?_⟩
  · intro r hr
    rw [TRANSPORT_eq]
    simp only [rack2, List.mem_cons, List.not_mem_nil, or_false] at hr
    rcases hr with rfl | rfl <;> decide
  · intro r hr
    rw [SBRK_eq, KBASE_eq]
    simp only [rack2, List.mem_cons, List.not_mem_nil, or_false] at hr
    rcases hr with rfl | rfl <;> decide
  · intro i j ri rj hij hi hj
    have hi' : i < 2 := by obtain ⟨h, _⟩ := List.getElem?_eq_some_iff.1 hi; exact h
    have hj' : j < 2 := by obtain ⟨h, _⟩ := List.getElem?_eq_some_iff.1 hj; exact h
    have : (i = 0 ∧ j = 1) ∨ (i = 1 ∧ j = 0) := by omega
    rcases this with ⟨rfl, rfl⟩ | ⟨rfl, rfl⟩ <;> simp [rack2] at hi hj <;> subst hi <;> subst hj <;> decide
  · show 131072 ≤ Mem.LARGE; decide +kernel
  · intro x
    show x ≤ if x ≤ 64 then 64 else if x ≤ 4096 then 4096 else if x ≤ 131072 then 131072 else x
    repeat' split
    all_goals omega
  · intro x y hx hy
    have hx' : x ≤ 131072 := hx
    have hy' : y ≤ if x ≤ 64 then 64 else if x ≤ 4096 then 4096 else if x ≤ 131072 then 131072 else x := hy
    show y ≤ 131072 ∧ (if y ≤ 64 then 64 else if y ≤ 4096 then 4096 else if y ≤ 131072 then 131072 else y) ≤
      (if x ≤ 64 then 64 else if x ≤ 4096 then 4096 else if x ≤ 131072 then 131072 else x)
    revert hy'
    repeat' split
    all_goals (intro hy'; omega)
  · intro a p hp
    have l0 : ∀ q : Piece, (q.base + q.len ≤ 0x10000000 ∨ (0x10400000 ≤ q.base ∧ q.base + q.len ≤ 0x20000000)) →
        ∀ n x, q.Has x → Fits (rangeOf rack2) (.node n) x := by
      intro q hq n x hx m r hr h'
      unfold Piece.Has at hx
      unfold Range.Has at h'
      rcases rack2_range m r hr with rfl | rfl <;> simp only at h' <;> omega
    simp only [pool2, List.mem_cons, Prod.mk.injEq, List.not_mem_nil, or_false] at hp
    rcases hp with ⟨rfl, rfl⟩ | ⟨rfl, rfl⟩ | ⟨rfl, rfl⟩ | ⟨rfl, rfl⟩ | ⟨rfl, rfl⟩ | ⟨rfl, rfl⟩ | ⟨rfl, rfl⟩
    · exact ⟨by decide, l0 _ (by decide) 0⟩
    · exact ⟨by decide, l0 _ (by decide) 1⟩
    · refine ⟨by decide, fun x hx => ⟨_, r0, ?_⟩⟩
      unfold Piece.Has at hx; unfold Range.Usable; simp only at hx ⊢; omega
    · refine ⟨by decide, fun x hx => ⟨_, r1, ?_⟩⟩
      unfold Piece.Has at hx; unfold Range.Usable; simp only at hx ⊢; omega
    · exact ⟨by decide, l0 _ (by decide) 0⟩
    · refine ⟨by decide, fun x hx => ⟨_, r0, ?_⟩⟩
      unfold Piece.Has at hx; unfold Range.Usable; simp only at hx ⊢; omega
    · refine ⟨by decide, fun x hx => ⟨_, r0, ?_⟩⟩
      unfold Piece.Has at hx; unfold Range.Usable; simp only at hx ⊢; omega
  · simp only [pool2, List.map_cons, List.map_nil, List.pairwise_cons, List.mem_cons, List.not_mem_nil, or_false,
      forall_eq_or_imp, forall_eq, false_implies, implies_true, and_true, List.Pairwise.nil]
    unfold Piece.Has
    simp only
    refine ⟨⟨?_, ?_, ?_, ?_, ?_, ?_⟩, ⟨?_, ?_, ?_, ?_, ?_⟩, ⟨?_, ?_, ?_, ?_⟩, ⟨?_, ?_, ?_⟩, ⟨?_, ?_⟩, ?_⟩ <;>
      (intro x; omega)

/-- What is seen of the end of a run. -/
def view (r : Outcome St) : Option (List Obj × List FreePiece × List Piece × Nat) :=
  match r with
  | .ok s => some (s.live, s.free, s.lost, s.cur 0)
  | _ => none

/-- Core 0 makes an object in machine 1's shared memory through an allocator, a local one, changes the size of
the local one in place, and releases both; core 1 then has the local memory in its arena. -/
def ordinary : List Act :=
  [.init, .refill 0 0, .split 0 64, .alloc 0 40 [0] none, .realloc 0 0 60 [] none, .setAffinity 0 13, .refill 0 2,
    .setAffinity 0 0, .shAlloc 0 13 4096 [0] none, .dealloc 1 1, .shDealloc 0 13 0]

theorem c93_ordinary : Ordered false ordinary ∧
    view (run rack2 (St.init (fun _ => 0) pool2) ordinary) =
      some ([], [⟨0, 13, ⟨0x20200000, 4096⟩⟩, ⟨1, 0, ⟨0x1000, 64⟩⟩, ⟨0, 0, ⟨0x1040, 4032⟩⟩], [], 0) :=
  ⟨by simp [Ordered, ordinary, Act.usesShared, Act.isInit], by decide +kernel⟩

/-- The object of machine 1 in that history, before it is released. -/
theorem c93_ordinary_objects :
    (view (run rack2 (St.init (fun _ => 0) pool2) (ordinary.take 9))).map (·.1) =
      some [⟨0x400020200000, 4096, [⟨0x20200000, 4096⟩], 13⟩, ⟨0x400000001000, 60, [⟨0x1000, 64⟩], 0⟩] := by
  decide +kernel

/-- If the memory cannot be had, the allocator returns an error and the affinity is put back. -/
theorem c93_failed :
    view (run rack2 (St.init (fun _ => 1) pool2) [.init, .shAlloc 0 13 4096 [0] (some 0)]) =
      some ([], [], [], 1) := by
  decide +kernel

/-- **C93, finding.**  Without such an allocator the failed refill leaves the core with the affinity of the
local node: the next object, meant to be shared, is not. -/
theorem c93_failed_refill :
    view (run rack2 (St.init (fun _ => 0) pool2)
        [.init, .refill 0 0, .setAffinity 0 13, .alloc 0 4096 [7] (some 0), .alloc 0 4096 [0] none]) =
      some ([⟨0x400000001000, 4096, [⟨0x1000, 4096⟩], 0⟩], [], [], 0) := by
  decide +kernel

/-- **C93, finding.**  Memory of node 0 that is released while the core has the affinity of node 1 is handed out
as memory of node 1. -/
theorem c93_numa_mixed :
    view (run rack2 (St.init (fun _ => 0) pool2)
        [.init, .refill 0 0, .alloc 0 4096 [0] none, .setAffinity 0 1, .dealloc 0 0, .alloc 0 4096 [0] none]) =
      some ([⟨0x400000001000, 4096, [⟨0x1000, 4096⟩], 1⟩], [], [], 1) := by
  decide +kernel

/-- **C93, finding.**  Local memory that starts where shared memory ends is lost when it is released. -/
theorem c93_end_lost :
    view (run rack2 (St.init (fun _ => 0) pool2)
        [.init, .refill 0 4, .alloc 0 4096 [0] none, .dealloc 0 0]) =
      some ([], [], [⟨0x10400000, 4096⟩], 0) := by
  decide +kernel

/-- **C93, finding.**  And changing its size panics when it has to move. -/
theorem c93_end_realloc :
    run rack2 (St.init (fun _ => 0) pool2)
        [.init, .refill 0 4, .alloc 0 4096 [0] none, .realloc 0 0 8192 [] none] = .panic := by
  have h : (match run rack2 (St.init (fun _ => 0) pool2)
        [.init, .refill 0 4, .alloc 0 4096 [0] none, .realloc 0 0 8192 [] none] with
      | .panic => true | _ => false) = true := by decide +kernel
  revert h
  cases run rack2 (St.init (fun _ => 0) pool2)
        [.init, .refill 0 4, .alloc 0 4096 [0] none, .realloc 0 0 8192 [] none] <;> simp

/-- **C93, finding.**  An object of more than a large page that was allocated with an affinity of shared memory
cannot change its size with that same affinity: the kernel panics. -/
theorem c93_big_realloc :
    (view (run rack2 (St.init (fun _ => 0) pool2)
        [.init, .setAffinity 0 12, .refill 0 5, .refill 0 2, .alloc 0 0x200400 [0, 0] none])).map (·.1) =
      some [⟨0x420000000000, 0x200400, [⟨0x10000000, 4096⟩, ⟨0x10200000, 0x200000⟩], 12⟩] ∧
    (match run rack2 (St.init (fun _ => 0) pool2)
        [.init, .setAffinity 0 12, .refill 0 5, .refill 0 2, .alloc 0 0x200400 [0, 0] none,
          .realloc 0 0 0x300000 [] none] with
      | .panic => true | _ => false) = true := by
  decide +kernel

/-- **C93, finding.**  Before the devices of shared memory are looked up nothing is checked: local memory that
is released with an affinity of shared memory is handed out as shared memory. -/
theorem c93_before_init :
    view (run rack2 (St.init (fun _ => 0) pool2)
        [.refill 0 0, .alloc 0 4096 [0] none, .setAffinity 0 13, .dealloc 0 0, .init, .alloc 0 4096 [0] none]) =
      some ([⟨0x400000001000, 4096, [⟨0x1000, 4096⟩], 13⟩], [], [], 13) := by
  decide +kernel

/-- **C93, finding.**  Shared memory of one machine released with the affinity of another, or with a local one,
is lost. -/
theorem c93_cross_lost :
    view (run rack2 (St.init (fun _ => 0) pool2)
        [.init, .setAffinity 0 12, .refill 0 2, .alloc 0 4096 [0] none, .setAffinity 0 13, .dealloc 0 0]) =
      some ([], [], [⟨0x10000000, 4096⟩], 13) := by
  decide +kernel

end NRK.Rack.Arena
