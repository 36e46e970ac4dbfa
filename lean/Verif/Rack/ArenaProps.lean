import Verif.Rack.ArenaInv

/-!
# C93: the arenas of local and of shared memory
-/

namespace NRK.Rack.Arena

open Spec (Piece Range Place Fits)
open Shm (Region KBASE TRANSPORT)

/-- The step sets an affinity of shared memory. -/
def Act.usesShared : Act → Bool
  | .setAffinity _ a => decide (12 ≤ a)
  | .shAlloc .. => true
  | .shDealloc .. => true
  | _ => false

/-- The step looks up the devices of shared memory. -/
def Act.isInit : Act → Bool
  | .init => true
  | _ => false

/-- Affinities of shared memory are used only after the devices were looked up. -/
def Ordered : Bool → List Act → Prop
  | _, [] => True
  | b, a :: as => (a.usesShared = true → b = true) ∧ Ordered (b || a.isInit) as

/-- How the machine starts: every core has a local node, and the memory to be had is of the right kind and in
pieces that do not overlap. -/
structure Start (c : Cfg) (cur : Nat → Nat) (pool : List (Nat × Piece)) : Prop where
  machine : c.Ok
  cores : ∀ core, cur core < 12 ∧ Valid c (cur core)
  kind : ∀ a p, (a, p) ∈ pool → 0 < p.len ∧ ∀ x, p.Has x → Fits (rangeOf c) (placeOf a) x
  apart : (pool.map (·.2)).Pairwise fun p q => ∀ x, ¬ (p.Has x ∧ q.Has x)

/-- The machine after any history. -/
def Reach (c : Cfg) (cur : Nat → Nat) (pool : List (Nat × Piece)) (s : St) : Prop :=
  ∃ as, Ordered false as ∧ run c (St.init cur pool) as = .ok s

theorem step_inv {c : Cfg} (ok : c.Ok) {s s' : St} (inv : Inv c s) {a : Act} (ho : a.usesShared = true → s.inited = true)
    (h : step c s a = .ok s') : Inv c s' ∧ Moves s.all s'.all ∧ s'.inited = (s.inited || a.isInit) := by
  cases a with
  | init =>
    simp only [step] at h
    cases h
    exact ⟨⟨inv.free, inv.pool, inv.live, inv.sbrk, by simp, inv.cur⟩, Moves.refl _, by simp [Act.isInit]⟩
  | setAffinity core a =>
    simp only [step] at h
    cases h1 : setAffinity c s core a with
    | ok s1 =>
      rw [h1] at h; cases h
      have he : s.inited = false → a < 12 := by
        intro hi
        apply Decidable.of_not_not
        intro hn
        have := ho (by simp [Act.usesShared]; omega)
        rw [hi] at this; cases this
      obtain ⟨i, m, e, _⟩ := setAffinity_inv inv he h1
      exact ⟨i, by rw [m]; exact Moves.refl _, by simp [Act.isInit, e]⟩
    | err e => rw [h1] at h; cases h; exact ⟨inv, Moves.refl _, by simp [Act.isInit]⟩
    | panic => rw [h1] at h; cases h
  | refill core i =>
    simp only [step] at h
    cases h
    have := refill_inv inv core i
    exact ⟨this.1, this.2.1, by simp [Act.isInit, this.2.2]⟩
  | split i n =>
    simp only [step] at h
    cases h
    have := split_inv inv i n
    exact ⟨this.1, this.2.1, by simp [Act.isInit, this.2.2]⟩
  | alloc core size pick fail =>
    simp only [step] at h
    cases h
    have := alloc_inv inv (alloc_cases c s core size pick fail)
    exact ⟨this.1, this.2.1, by simp [Act.isInit, this.2.2.1]⟩
  | dealloc core j =>
    simp only [step] at h
    cases hj : s.live[j]? with
    | none => rw [hj] at h; cases h; exact ⟨inv, Moves.refl _, by simp [Act.isInit]⟩
    | some o =>
      rw [hj] at h
      have := dealloc_inv ok inv (List.mem_of_getElem? hj) h
      exact ⟨this.1, this.2.1, by simp [Act.isInit, this.2.2.1]⟩
  | realloc core j new pick fail =>
    simp only [step] at h
    cases hj : s.live[j]? with
    | none => rw [hj] at h; cases h; exact ⟨inv, Moves.refl _, by simp [Act.isInit]⟩
    | some o =>
      rw [hj] at h
      simp only at h
      cases hr : realloc c s core o new pick fail with
      | err e => rw [hr] at h; cases h
      | panic => rw [hr] at h; cases h
      | ok r =>
        rw [hr] at h; cases h
        have := realloc_inv ok inv (List.mem_of_getElem? hj) hr
        exact ⟨this.1, this.2.1, by simp [Act.isInit, this.2.2]⟩
  | shAlloc core a size pick fail =>
    simp only [step] at h
    have hi := ho rfl
    cases hr : shmemAllocate c s core a size pick fail with
    | err e => rw [hr] at h; cases h
    | panic => rw [hr] at h; cases h
    | ok r =>
      rw [hr] at h; cases h
      have := shmemAllocate_spec inv hi hr
      exact ⟨this.1, this.2.1, by simp [Act.isInit, this.2.2.1]⟩
  | shDealloc core a j =>
    simp only [step] at h
    have hi := ho rfl
    cases hj : s.live[j]? with
    | none => rw [hj] at h; cases h; exact ⟨inv, Moves.refl _, by simp [Act.isInit]⟩
    | some o =>
      rw [hj] at h
      have := shmemDeallocate_spec ok inv (List.mem_of_getElem? hj) hi h
      exact ⟨this.1, this.2.1, by simp [Act.isInit, this.2.2.1]⟩

theorem run_inv {c : Cfg} (ok : c.Ok) : ∀ {as : List Act} {s s' : St}, Inv c s → Ordered s.inited as →
    run c s as = .ok s' → Inv c s' ∧ Moves s.all s'.all := by
  intro as
  induction as with
  | nil => intro s s' inv _ h; simp only [run] at h; cases h; exact ⟨inv, Moves.refl _⟩
  | cons a as ih =>
    intro s s' inv ho h
    simp only [run] at h
    cases h1 : step c s a with
    | err e => rw [h1] at h; cases h
    | panic => rw [h1] at h; cases h
    | ok s1 =>
      rw [h1] at h
      obtain ⟨i, m, e⟩ := step_inv ok inv ho.1 h1
      have := ih i (by rw [e]; exact ho.2) h
      exact ⟨this.1, m.trans this.2⟩

theorem Start.inv {c : Cfg} {cur : Nat → Nat} {pool : List (Nat × Piece)} (h : Start c cur pool) :
    Inv c (St.init cur pool) :=
  ⟨by simp [St.init], fun e he => h.kind e.1 e.2 he, by simp [St.init], Nat.le_refl _,
    fun _ => ⟨fun core => (h.cores core).1, by simp [St.init]⟩, fun core => (h.cores core).2⟩

theorem Reach.inv {c : Cfg} {cur : Nat → Nat} {pool : List (Nat × Piece)} {s : St} (h : Start c cur pool)
    (hr : Reach c cur pool s) : Inv c s ∧ Moves (St.init cur pool).all s.all := by
  obtain ⟨as, ho, hrun⟩ := hr
  exact run_inv h.machine h.inv ho hrun

/-- **C93, part.**  After every history of allocations, releases, changes of size, changes of affinity and
refills on any cores, every byte of every object is of the kind its allocation asked for: shared memory of that
machine and not where its messages are, or memory that no other machine sees.  Missing: that local memory is of
the node that was asked for (`c93_numa_mixed`), and histories that use shared memory before its devices are
known (`c93_before_init`). -/
theorem c93_kind_partial {c : Cfg} {cur : Nat → Nat} {pool : List (Nat × Piece)} {s : St} (h : Start c cur pool)
    (hr : Reach c cur pool s) {o : Obj} (ho : o ∈ s.live) {p : Piece} (hp : p ∈ o.phys) {x : Nat} (hx : p.Has x) :
    Fits (rangeOf c) (placeOf o.under) x :=
  (((hr.inv h).1.live o ho).1 p hp).2 x hx

/-- **C93.**  An object of up to a large page is at its address: the bytes from the pointer on, as far as was
asked for, are the memory behind it, seen through the kernel's window. -/
theorem c93_window {c : Cfg} {cur : Nat → Nat} {pool : List (Nat × Piece)} {s : St} (h : Start c cur pool)
    (hr : Reach c cur pool s) {o : Obj} (ho : o ∈ s.live) (hs : o.size ≤ Mem.LARGE) {i : Nat} (hi : i < o.size) :
    ∃ x, o.ptr + i = KBASE + x ∧ Covers o.phys x := by
  rcases ((hr.inv h).1.live o ho).2 with ⟨_, p, e1, e2, e3⟩ | ⟨hb, _⟩
  · refine ⟨p.base + i, by omega, p, by rw [e1]; simp, Nat.le_add_right .., ?_⟩
    have : o.size ≤ need c o.size := by
      unfold need
      split
      · exact h.machine.slab _
      · exact Nat.le_refl _
    omega
  · omega

theorem pairwise_parts {s : St} (h : s.all.Pairwise Apart) :
    s.live.Pairwise (fun o o' => ∀ p ∈ o.phys, ∀ q ∈ o'.phys, Apart p q) ∧
      (∀ o ∈ s.live, ∀ p ∈ o.phys, (∀ f ∈ s.free, Apart p f.piece) ∧ ∀ e ∈ s.pool, Apart p e.2) := by
  unfold St.all at h
  obtain ⟨_, h2, h3⟩ := List.pairwise_append.1 h
  obtain ⟨_, h5, h6⟩ := List.pairwise_append.1 h2
  obtain ⟨h7, _, _⟩ := List.pairwise_append.1 h5
  refine ⟨(List.pairwise_flatMap.1 h7).2, fun o ho p hp => ⟨fun f hf => ?_, fun e he => ?_⟩⟩
  · refine (h6 f.piece (List.mem_map.2 ⟨f, hf, rfl⟩) p ?_).symm
    exact List.mem_append_left _ (List.mem_flatMap.2 ⟨o, ho, hp⟩)
  · refine (h3 e.2 (List.mem_map.2 ⟨e, he, rfl⟩) p ?_).symm
    exact List.mem_append_right _ (List.mem_append_left _ (List.mem_flatMap.2 ⟨o, ho, hp⟩))

/-- **C93.**  No byte is in two objects, and no byte of an object is free or still to be had: memory is not
given out twice, whichever cores and arenas it went through. -/
theorem c93_exclusive {c : Cfg} {cur : Nat → Nat} {pool : List (Nat × Piece)} {s : St} (h : Start c cur pool)
    (hr : Reach c cur pool s) :
    s.live.Pairwise (fun o o' => ∀ x, ¬ (Covers o.phys x ∧ Covers o'.phys x)) ∧
      ∀ o ∈ s.live, ∀ x, Covers o.phys x →
        (∀ f ∈ s.free, ¬ f.piece.Has x) ∧ ∀ e ∈ s.pool, ¬ e.2.Has x := by
  have hm := (hr.inv h).2
  have hp : s.all.Pairwise Apart := hm.1 (by
    unfold St.all St.init
    simp only [List.map_nil, List.flatMap_nil, List.append_nil]
    exact h.apart)
  obtain ⟨h1, h2⟩ := pairwise_parts hp
  refine ⟨h1.imp ?_, ?_⟩
  · rintro o o' hoo x ⟨⟨p, hp, hx⟩, q, hq, hx'⟩
    exact hoo p hp q hq x ⟨hx, hx'⟩
  · rintro o ho x ⟨p, hp, hx⟩
    obtain ⟨a, b⟩ := h2 o ho p hp
    exact ⟨fun f hf hx' => a f hf x ⟨hx, hx'⟩, fun e he hx' => b e he x ⟨hx, hx'⟩⟩

/-- **C93.**  No byte comes from nowhere or disappears: the memory there was is to be had, free, in an object,
or known to be lost. -/
theorem c93_accounted {c : Cfg} {cur : Nat → Nat} {pool : List (Nat × Piece)} {s : St} (h : Start c cur pool)
    (hr : Reach c cur pool s) (x : Nat) :
    Covers (pool.map (·.2)) x ↔
      Covers (s.pool.map (·.2)) x ∨ Covers (s.free.map (·.piece)) x ∨ (∃ o ∈ s.live, Covers o.phys x) ∨
        Covers s.lost x := by
  have hm := (hr.inv h).2.2 x
  have e : (St.init cur pool).all = pool.map (·.2) := by simp [St.all, St.init]
  rw [e] at hm
  refine hm.trans ⟨?_, ?_⟩
  · rintro ⟨p, hp, hx⟩
    unfold St.all at hp
    rcases List.mem_append.1 hp with hp | hp
    · exact Or.inl ⟨p, hp, hx⟩
    · rcases List.mem_append.1 hp with hp | hp
      · exact Or.inr (Or.inl ⟨p, hp, hx⟩)
      · rcases List.mem_append.1 hp with hp | hp
        · obtain ⟨o, ho, hp⟩ := List.mem_flatMap.1 hp
          exact Or.inr (Or.inr (Or.inl ⟨o, ho, p, hp, hx⟩))
        · exact Or.inr (Or.inr (Or.inr ⟨p, hp, hx⟩))
  · unfold St.all
    rintro (⟨p, hp, hx⟩ | ⟨p, hp, hx⟩ | ⟨o, ho, p, hp, hx⟩ | ⟨p, hp, hx⟩)
    · exact ⟨p, List.mem_append_left _ hp, hx⟩
    · exact ⟨p, List.mem_append_right _ (List.mem_append_left _ hp), hx⟩
    · exact ⟨p, List.mem_append_right _ (List.mem_append_right _ (List.mem_append_left _
        (List.mem_flatMap.2 ⟨o, ho, hp⟩))), hx⟩
    · exact ⟨p, List.mem_append_right _ (List.mem_append_right _ (List.mem_append_right _ hp)), hx⟩

/-- **C93.**  An allocator for the shared memory of machine `m` does not panic, gives memory of exactly that
kind or none, and leaves the core's affinity as it was, even if the memory could not be had. -/
theorem c93_shared_alloc {c : Cfg} {cur : Nat → Nat} {pool : List (Nat × Piece)} {s : St} (h : Start c cur pool)
    (hr : Reach c cur pool s) (hi : s.inited = true) {m : Nat} (hm : m < c.machines) (ha : 12 + m < c.arenas)
    (core size : Nat) (pick : List Nat) (fail : Option Nat) :
    ∃ r, shmemAllocate c s core (12 + m) size pick fail = .ok r ∧ r.2.cur core = s.cur core ∧
      (r.1 = none → r.2.live = s.live) ∧
      ∀ o, r.1 = some o → o.size = size ∧ r.2.live = o :: s.live ∧
        ∀ x, Covers o.phys x → Fits (rangeOf c) (.shared m) x := by
  obtain ⟨inv, _⟩ := hr.inv h
  have hv : Valid c (12 + m) := by
    unfold Valid Mem.validNode
    have : Mem.isShmemAffinity (12 + m) = true := (shm_iff _).2 (Nat.le_add_right ..)
    simp only [if_true, this, Bool.not_true, Bool.false_and, Bool.false_or, Bool.true_and, Bool.and_eq_true]
    exact ⟨decide_eq_true ha, decide_eq_true (by show 12 + m - 12 < c.machines; omega)⟩
  have ht : ∃ r, shmemAllocate c s core (12 + m) size pick fail = .ok r := by
    unfold shmemAllocate
    have hg : (Mem.isShmemAffinity (12 + m) && decide (12 + m - Mem.MAX_NUMA_NODES < c.machines)) = true := by
      rw [(shm_iff _).2 (Nat.le_add_right ..), Bool.true_and]
      exact decide_eq_true (by show 12 + m - 12 < c.machines; omega)
    rw [if_pos hg]
    obtain ⟨s1, h1⟩ := setAffinity_total (s := s) (core := core) (inv.cur core) hv
    rw [h1]
    simp only
    obtain ⟨i1, _⟩ := setAffinity_inv inv (by simp [hi]) h1
    have hal := alloc_inv i1 (alloc_cases c s1 core size pick fail)
    generalize alloc c s1 core size pick fail = q at hal
    obtain ⟨q1, s2⟩ := q
    obtain ⟨s3, h3⟩ := setAffinity_total (s := s2) (core := core) (hal.1.cur core) (inv.cur core)
    simp only [h3]
    exact ⟨_, rfl⟩
  obtain ⟨r, hrr⟩ := ht
  obtain ⟨i, _, _, hc, hsome, hnone⟩ := shmemAllocate_spec inv hi hrr
  refine ⟨r, hrr, hc, hnone, fun o ho => ?_⟩
  obtain ⟨u1, u2, u3⟩ := hsome o ho
  refine ⟨u2, u3, ?_⟩
  rintro x ⟨p, hp, hx⟩
  have := ((i.live o (by rw [u3]; simp)).1 p hp).2 x hx
  rw [u1, placeOf_shared (Nat.le_add_right ..)] at this
  rw [show 12 + m - 12 = m by omega] at this
  exact this

/-- The object's address is the first one after some shared memory. -/
def AtEnd (c : Cfg) (ptr : Nat) : Prop := ∃ m r, rangeOf c m = some r ∧ ptr = KBASE + (r.base + r.len)

/-- The core's affinity is the one the object was allocated with, as far as is looked at. -/
def SameKind (c : Cfg) (a : Nat) (o : Obj) : Prop :=
  (12 ≤ a ∧ o.under = a) ∨ (a < 12 ∧ o.under < 12 ∧ ¬ AtEnd c o.ptr)

theorem messages_le {c : Cfg} (ok : c.Ok) {m : Nat} {R : Range} (h : rangeOf c m = some R) : R.messages ≤ R.len := by
  obtain ⟨hm, hd⟩ := rangeOf_dev h
  have := ok.room _ (List.mem_of_getElem? hd)
  unfold rangeOf at h
  rw [if_pos hm, hd] at h
  simp only [Option.map_some, Option.some.injEq] at h
  have e : R.messages = if c.shmTransport = true ∧ m ≠ 0 then TRANSPORT else 0 := by rw [← h]
  rw [e]
  split
  · exact this
  · exact Nat.zero_le _

/-- What the check says of a reachable object. -/
theorem check_small {c : Cfg} (ok : c.Ok) {s : St} (inv : Inv c s) (hi : s.inited = true) {core : Nat} {o : Obj}
    (ho : o ∈ s.live) (hs : o.size ≤ Mem.LARGE) :
    ∃ b, check c s core o.ptr = .ok b ∧ (b = true ↔ SameKind c (s.cur core) o) := by
  obtain ⟨hh, hl⟩ := inv.live o ho
  obtain ⟨b, hb, hiff⟩ := check_spec (core := core) ok hi hl.ptr (inv.cur core)
  refine ⟨b, hb, hiff.trans ?_⟩
  obtain ⟨p, e1, e2, e3⟩ : ∃ p, o.phys = [p] ∧ o.ptr = KBASE + p.base ∧ need c o.size ≤ p.len := by
    rcases hl with ⟨_, h⟩ | ⟨h', _⟩
    · exact h
    · omega
  have hp : Home c o.under p := hh p (by rw [e1]; simp)
  have hf := hp.first
  constructor
  · rintro (⟨ha, R, r1, r2, r3⟩ | ⟨ha, hn⟩)
    · left
      refine ⟨ha, ?_⟩
      have hx : R.Has p.base := ⟨by omega, by omega⟩
      by_cases hu : 12 ≤ o.under
      · rw [placeOf_shared hu] at hf
        obtain ⟨Q, q1, q2⟩ := hf
        have := ranges_apart ok q1 r1 ⟨by have := q2.1; omega, q2.2⟩ hx
        omega
      · rw [placeOf_local (by omega)] at hf
        exact absurd hx (hf _ _ r1)
    · right
      refine ⟨ha, ?_, ?_⟩
      · apply Decidable.of_not_not
        intro hu
        rw [placeOf_shared (by omega)] at hf
        obtain ⟨Q, q1, q2⟩ := hf
        exact hn ⟨_, Q, q1, by have := q2.1; omega, by have := q2.2; omega⟩
      · rintro ⟨m, R, r1, r2⟩
        have := messages_le ok r1
        exact hn ⟨m, R, r1, by omega, by omega⟩
  · rintro (⟨ha, hu⟩ | ⟨ha, hu, hn⟩)
    · left
      rw [hu, placeOf_shared ha] at hf
      obtain ⟨Q, q1, q2⟩ := hf
      exact ⟨ha, Q, q1, by have := q2.1; omega, by have := q2.2; omega⟩
    · right
      refine ⟨ha, ?_⟩
      rintro ⟨m, R, r1, r2, r3⟩
      rw [placeOf_local hu] at hf
      have hno := hf m R r1
      unfold Range.Has at hno
      exact hn ⟨m, R, r1, by omega⟩

theorem check_big {c : Cfg} (ok : c.Ok) {s : St} (inv : Inv c s) (hi : s.inited = true) {core : Nat} {o : Obj}
    (ho : o ∈ s.live) (hs : Mem.LARGE < o.size) :
    ∃ b, check c s core o.ptr = .ok b ∧ (b = true ↔ s.cur core < 12) := by
  obtain ⟨hh, hl⟩ := inv.live o ho
  obtain ⟨b, hb, hiff⟩ := check_spec (core := core) ok hi hl.ptr (inv.cur core)
  have hp : SBRK ≤ o.ptr := by
    rcases hl with ⟨h, _⟩ | ⟨_, h⟩
    · omega
    · exact h
  refine ⟨b, hb, hiff.trans ⟨?_, ?_⟩⟩
  · rintro (⟨_, R, r1, _, r3⟩ | ⟨h, _⟩)
    · have := range_bounds ok r1; omega
    · exact h
  · intro h
    refine Or.inr ⟨h, ?_⟩
    rintro ⟨m, R, r1, _, r3⟩
    have := range_bounds ok r1; omega

/-- **C93.**  Releasing an object never panics, whatever the affinity of the core is now.  Its memory goes to the
arena the core uses now if the object is no larger than a large page and was allocated with that very affinity
of shared memory, or with any local one while the core has a local one and the address is not the end of shared
memory; in every other case it is lost, and nothing else changes. -/
theorem c93_freed {c : Cfg} {cur : Nat → Nat} {pool : List (Nat × Piece)} {s : St} (h : Start c cur pool)
    (hr : Reach c cur pool s) (hi : s.inited = true) {o : Obj} (ho : o ∈ s.live) (core : Nat) :
    ∃ s', dealloc c s core o = .ok s' ∧ s'.live = s.live.erase o ∧ s'.cur = s.cur ∧ s'.pool = s.pool ∧
      ((o.size ≤ Mem.LARGE ∧ SameKind c (s.cur core) o) →
        s'.free = o.phys.map (fun p => ⟨core, s.cur core, p⟩) ++ s.free ∧ s'.lost = s.lost) ∧
      (¬ (o.size ≤ Mem.LARGE ∧ SameKind c (s.cur core) o) → s'.free = s.free ∧ s'.lost = o.phys ++ s.lost) := by
  obtain ⟨inv, _⟩ := hr.inv h
  by_cases hs : o.size ≤ Mem.LARGE
  · obtain ⟨b, hb, hiff⟩ := check_small h.machine inv hi (core := core) ho hs
    unfold dealloc
    rw [hb]
    cases b with
    | true =>
      simp only [if_pos hs]
      refine ⟨_, rfl, rfl, rfl, rfl, fun _ => ⟨rfl, rfl⟩, fun hn => ?_⟩
      exact absurd ⟨hs, hiff.1 rfl⟩ hn
    | false =>
      refine ⟨_, rfl, rfl, rfl, rfl, fun hc => ?_, fun _ => ⟨rfl, rfl⟩⟩
      exact absurd (hiff.2 hc.2) (by simp)
  · obtain ⟨b, hb, hiff⟩ := check_big h.machine inv hi (core := core) ho (by omega)
    unfold dealloc
    rw [hb]
    cases b with
    | true =>
      simp only [if_neg hs]
      refine ⟨_, rfl, rfl, rfl, rfl, fun hc => absurd hc.1 hs, fun _ => ⟨rfl, rfl⟩⟩
    | false =>
      refine ⟨_, rfl, rfl, rfl, rfl, fun hc => absurd hc.1 hs, fun _ => ⟨rfl, rfl⟩⟩

/-- **C93.**  Memory that was allocated and is released through an allocator of shared memory comes back, to the
arena of that machine's shared memory, and the core's affinity is as before. -/
theorem c93_shared_freed {c : Cfg} {cur : Nat → Nat} {pool : List (Nat × Piece)} {s : St} (h : Start c cur pool)
    (hr : Reach c cur pool s) (hi : s.inited = true) {m : Nat} (hm : m < c.machines) (ha : 12 + m < c.arenas)
    {o : Obj} (ho : o ∈ s.live) (hu : o.under = 12 + m) (hs : o.size ≤ Mem.LARGE) (core : Nat) :
    ∃ s', shmemDeallocate c s core (12 + m) o = .ok s' ∧ s'.live = s.live.erase o ∧ s'.cur core = s.cur core ∧
      s'.free = o.phys.map (fun p => ⟨core, 12 + m, p⟩) ++ s.free ∧ s'.lost = s.lost := by
  obtain ⟨inv, _⟩ := hr.inv h
  have hv : Valid c (12 + m) := by
    unfold Valid Mem.validNode
    have : Mem.isShmemAffinity (12 + m) = true := (shm_iff _).2 (Nat.le_add_right ..)
    simp only [if_true, this, Bool.not_true, Bool.false_and, Bool.false_or, Bool.true_and, Bool.and_eq_true]
    exact ⟨decide_eq_true ha, decide_eq_true (by show 12 + m - 12 < c.machines; omega)⟩
  have hg : (Mem.isShmemAffinity (12 + m) && decide (12 + m - Mem.MAX_NUMA_NODES < c.machines)) = true := by
    rw [(shm_iff _).2 (Nat.le_add_right ..), Bool.true_and]
    exact decide_eq_true (by show 12 + m - 12 < c.machines; omega)
  unfold shmemDeallocate
  rw [if_pos hg]
  obtain ⟨s1, h1⟩ := setAffinity_total (s := s) (core := core) (inv.cur core) hv
  rw [h1]
  simp only
  obtain ⟨i1, _, e1, l1⟩ := setAffinity_inv inv (by simp [hi]) h1
  have hc1 := setAffinity_cur h1
  have hf1 : s1.free = s.free ∧ s1.lost = s.lost := by
    rcases setAffinity_cases h1 with ⟨_, rfl⟩ | ⟨_, rfl⟩ <;> exact ⟨rfl, rfl⟩
  have ho1 : o ∈ s1.live := by rw [l1]; exact ho
  obtain ⟨b, hb, hiff⟩ := check_small h.machine i1 (by rw [e1]; exact hi) (core := core) ho1 hs
  have hbt : b = true := hiff.2 (by rw [hc1]; exact Or.inl ⟨Nat.le_add_right .., hu⟩)
  subst hbt
  have hd : dealloc c s1 core o = .ok { s1 with
      live := s1.live.erase o, free := o.phys.map (fun p => ⟨core, s1.cur core, p⟩) ++ s1.free } := by
    unfold dealloc; rw [hb]; simp only [if_pos hs]
  rw [hd]
  simp only
  obtain ⟨s3, h3⟩ := setAffinity_total (s := { s1 with
      live := s1.live.erase o, free := o.phys.map (fun p => ⟨core, s1.cur core, p⟩) ++ s1.free }) (core := core) (i1.cur core) (inv.cur core)
  refine ⟨s3, h3, ?_⟩
  have hc3 := setAffinity_cur h3
  rcases setAffinity_cases h3 with ⟨_, rfl⟩ | ⟨_, rfl⟩
  · exact ⟨by simp only [l1], hc3, by simp only [hc1, hf1.1], hf1.2⟩
  · exact ⟨by simp only [l1], hc3, by simp only [hc1, hf1.1], hf1.2⟩

/-- **C93.**  Changing the size of an object panics exactly if it has to move and the core's affinity is not the
one it was allocated with (in the sense of `c93_freed`), or it is larger than a large page and the core's
affinity is one of shared memory. -/
theorem c93_realloc {c : Cfg} {cur : Nat → Nat} {pool : List (Nat × Piece)} {s : St} (h : Start c cur pool)
    (hr : Reach c cur pool s) (hi : s.inited = true) {o : Obj} (ho : o ∈ s.live) (core new : Nat) (pick : List Nat)
    (fail : Option Nat) :
    realloc c s core o new pick fail = .panic ↔
      keeps c o.size new = false ∧
        ((o.size ≤ Mem.LARGE ∧ ¬ SameKind c (s.cur core) o) ∨ (Mem.LARGE < o.size ∧ 12 ≤ s.cur core)) := by
  obtain ⟨inv, _⟩ := hr.inv h
  have hc : ∃ b, check c s core o.ptr = .ok b ∧
      (b = false ↔ ((o.size ≤ Mem.LARGE ∧ ¬ SameKind c (s.cur core) o) ∨ (Mem.LARGE < o.size ∧ 12 ≤ s.cur core))) := by
    by_cases hs : o.size ≤ Mem.LARGE
    · obtain ⟨b, hb, hiff⟩ := check_small h.machine inv hi (core := core) ho hs
      refine ⟨b, hb, ?_⟩
      cases b with
      | true =>
        have := hiff.1 rfl
        constructor
        · intro h; cases h
        · rintro (⟨_, h⟩ | ⟨h, _⟩)
          · exact absurd this h
          · omega
      | false =>
        refine ⟨fun _ => Or.inl ⟨hs, fun hk => ?_⟩, fun _ => rfl⟩
        exact absurd (hiff.2 hk) (by simp)
    · obtain ⟨b, hb, hiff⟩ := check_big h.machine inv hi (core := core) ho (by omega)
      refine ⟨b, hb, ?_⟩
      cases b with
      | true =>
        have := hiff.1 rfl
        constructor
        · intro h; cases h
        · rintro (⟨h, _⟩ | ⟨_, h⟩) <;> omega
      | false =>
        refine ⟨fun _ => Or.inr ⟨by omega, ?_⟩, fun _ => rfl⟩
        apply Decidable.of_not_not
        intro hk
        exact absurd (hiff.2 (by omega)) (by simp)
  obtain ⟨b, hb, hiff⟩ := hc
  unfold realloc
  cases hk : keeps c o.size new with
  | true => simp
  | false =>
    simp only [Bool.false_eq_true, if_false, true_and]
    rw [← hiff, hb]
    cases b with
    | false => simp
    | true =>
      simp only [Bool.true_eq_false, iff_false]
      have hal := alloc_inv inv (alloc_cases c s core new pick fail)
      generalize alloc c s core new pick fail = q at hal
      obtain ⟨q1, s1⟩ := q
      obtain ⟨i1, _, e1, f1, _⟩ := hal
      cases q1 with
      | none => simp
      | some o' =>
        have hcur := (f1 o' rfl).2.2.2
        have hb' : check c s1 core o.ptr = .ok true := by
          unfold check at hb ⊢
          simp only at e1 hcur
          rw [e1, hcur]
          exact hb
        have hd : ∃ s2, dealloc c s1 core o = .ok s2 := by
          unfold dealloc
          rw [hb']
          by_cases hs : o.size ≤ Mem.LARGE
          · simp only [if_pos hs]; exact ⟨_, rfl⟩
          · simp only [if_neg hs]; exact ⟨_, rfl⟩
        obtain ⟨s2, hd⟩ := hd
        simp only [hd]
        simp

end NRK.Rack.Arena
