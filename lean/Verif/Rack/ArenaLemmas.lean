import Verif.Rack.ArenaModel

/-!
# Lemmas for C93
-/

namespace NRK.Rack.Arena

open Spec (Piece Range Place Fits)
open Shm (Region KBASE TRANSPORT)

/-- The shared memory of a machine of the rack as this machine sees it. -/
def rangeOf (c : Cfg) (mid : Nat) : Option Range :=
  if mid < c.machines then
    (c.devs[mid]?).map fun r => ⟨r.base, if c.shmTransport = true ∧ mid ≠ 0 then TRANSPORT else 0, r.size⟩
  else none

/-- What an affinity asks for. -/
def placeOf (a : Nat) : Place :=
  if a < Mem.MAX_NUMA_NODES then .node a else .shared (a - Mem.MAX_NUMA_NODES)

/-- What is assumed of the machine: there is a device for every machine, large enough for the messages, the
devices do not overlap and lie below the kernel's addresses and below the start of the big objects; slab sizes
are sizes of slabs, in order. -/
structure Cfg.Ok (c : Cfg) : Prop where
  devices : c.machines ≤ c.devs.length
  room : ∀ r ∈ c.devs, TRANSPORT ≤ r.size
  below : ∀ r ∈ c.devs, r.base + r.size < KBASE ∧ KBASE + (r.base + r.size) < SBRK
  apart : ∀ (i j : Nat) (ri rj : Region), i ≠ j → c.devs[i]? = some ri → c.devs[j]? = some rj →
    ri.base + ri.size ≤ rj.base ∨ rj.base + rj.size ≤ ri.base
  large : c.maxAlloc ≤ Mem.LARGE
  slab : ∀ x, x ≤ c.cls x
  slabs : ∀ x y, x ≤ c.maxAlloc → y ≤ c.cls x → y ≤ c.maxAlloc ∧ c.cls y ≤ c.cls x

/-- The affinity can be set. -/
def Valid (c : Cfg) (a : Nat) : Prop := Mem.validNode ⟨c.nodes, c.machines, true⟩ c.arenas a = true

/-- The piece is not empty and of the kind that is asked for. -/
def Home (c : Cfg) (a : Nat) (p : Piece) : Prop :=
  0 < p.len ∧ ∀ x, p.Has x → Fits (rangeOf c) (placeOf a) x

/-- No byte is in both. -/
def Apart (p q : Piece) : Prop := ∀ x, ¬ (p.Has x ∧ q.Has x)

theorem Apart.symm {p q : Piece} (h : Apart p q) : Apart q p := fun x hx => h x ⟨hx.2, hx.1⟩

/-- All pieces of memory there are. -/
def St.all (s : St) : List Piece :=
  s.pool.map (·.2) ++ (s.free.map (·.piece) ++ (s.live.flatMap (·.phys) ++ s.lost))

/-- How the memory of an object is laid out. -/
def Laid (c : Cfg) (o : Obj) : Prop :=
  (o.size ≤ Mem.LARGE ∧ ∃ p, o.phys = [p] ∧ o.ptr = KBASE + p.base ∧ need c o.size ≤ p.len) ∨
    (Mem.LARGE < o.size ∧ SBRK ≤ o.ptr)

/-- Holds of every reachable state. -/
structure Inv (c : Cfg) (s : St) : Prop where
  free : ∀ f ∈ s.free, Home c f.aff f.piece
  pool : ∀ e ∈ s.pool, Home c e.1 e.2
  live : ∀ o ∈ s.live, (∀ p ∈ o.phys, Home c o.under p) ∧ Laid c o
  sbrk : SBRK ≤ s.sbrk
  early : s.inited = false → (∀ core, s.cur core < 12) ∧ ∀ o ∈ s.live, o.under < 12
  cur : ∀ core, Valid c (s.cur core)

theorem shm_iff (a : Nat) : Mem.isShmemAffinity a = true ↔ 12 ≤ a :=
  decide_eq_true_iff

theorem shm_false {a : Nat} : Mem.isShmemAffinity a = false ↔ a < 12 :=
  decide_eq_false_iff_not.trans Nat.not_le

theorem Valid.shared {c : Cfg} {a : Nat} (h : Valid c a) (ha : 12 ≤ a) : a - 12 < c.machines := by
  unfold Valid Mem.validNode at h
  have := (shm_iff a).2 ha
  simp only [this, if_true, Bool.not_true, Bool.false_and, Bool.true_and, Bool.false_or, Bool.and_eq_true] at h
  exact of_decide_eq_true h.2

theorem Valid.lt {c : Cfg} {a : Nat} (h : Valid c a) : a < c.arenas := by
  unfold Valid Mem.validNode at h
  simp at h
  exact h.1

theorem affinity_ok {c : Cfg} (ok : c.Ok) {mid : Nat} (h : mid < c.machines) :
    ∃ r R, affinityShmem c mid = .ok r ∧ rangeOf c mid = some R ∧ c.devs[mid]? = some ⟨R.base, R.len⟩ ∧
      r.base = R.base + R.messages ∧ r.base + r.size = R.base + R.len := by
  have hl : mid < c.devs.length := Nat.lt_of_lt_of_le h ok.devices
  have he : c.devs[mid]? = some c.devs[mid] := List.getElem?_eq_getElem hl
  have hr := ok.room c.devs[mid] (List.getElem_mem hl)
  unfold affinityShmem rangeOf
  simp only [he, if_pos h]
  by_cases hc : c.shmTransport = true ∧ mid ≠ 0
  · refine ⟨⟨c.devs[mid].base + TRANSPORT, c.devs[mid].size - TRANSPORT⟩, ⟨c.devs[mid].base, TRANSPORT, c.devs[mid].size⟩, ?_, ?_, rfl, rfl, ?_⟩
    · simp [hc.1, hc.2]; omega
    · simp [hc.1, hc.2]
    · show c.devs[mid].base + TRANSPORT + (c.devs[mid].size - TRANSPORT) = _
      simp only; omega
  · refine ⟨c.devs[mid], ⟨c.devs[mid].base, 0, c.devs[mid].size⟩, ?_, ?_, rfl, rfl, rfl⟩
    · have : (c.shmTransport && decide (mid ≠ 0)) = false := by
        simp only [Bool.and_eq_false_iff, decide_eq_false_iff_not]
        rcases Decidable.not_and_iff_or_not.1 hc with h | h
        · left; simpa using h
        · right; exact h
      simp only [this]; rfl
    · simp only [if_neg hc, Option.map_some]

theorem scan_spec {c : Cfg} (ok : c.Ok) (addr off : Nat) :
    ∀ ms : List Nat, (∀ m ∈ ms, m < c.machines) →
      ∃ b, scan c addr off ms = .ok b ∧
        (b = true ↔ ∃ m ∈ ms, ∃ R, rangeOf c m = some R ∧ R.base + R.messages + off ≤ addr ∧
          addr ≤ R.base + R.len + off) := by
  intro ms
  induction ms with
  | nil => intro _; exact ⟨false, rfl, by simp⟩
  | cons m ms ih =>
    intro hm
    obtain ⟨r, R, h1, h2, _, h3, h4⟩ := affinity_ok ok (hm m (by simp))
    obtain ⟨b, hb, hiff⟩ := ih fun x hx => hm x (by simp [hx])
    unfold scan
    simp only [h1]
    by_cases hc : addr ≥ r.base + off ∧ addr ≤ r.base + off + r.size
    · refine ⟨true, by rw [if_pos hc], ?_⟩
      simp only [true_iff]
      exact ⟨m, by simp, R, h2, by omega, by omega⟩
    · refine ⟨b, by rw [if_neg hc]; exact hb, ?_⟩
      rw [hiff]
      constructor
      · rintro ⟨x, hx, y⟩; exact ⟨x, by simp [hx], y⟩
      · rintro ⟨x, hx, Q, q1, q2, q3⟩
        rcases List.mem_cons.1 hx with rfl | hx
        · rw [h2] at q1; cases q1; exact absurd ⟨by omega, by omega⟩ hc
        · exact ⟨x, hx, Q, q1, q2, q3⟩

theorem isShmemAddr_spec {c : Cfg} (ok : c.Ok) (addr : Nat) (k : Bool) :
    ∃ b, isShmemAddr c addr k = .ok b ∧
      (b = true ↔ ∃ m R, rangeOf c m = some R ∧
        R.base + R.messages + (if k then KBASE else 0) ≤ addr ∧ addr ≤ R.base + R.len + (if k then KBASE else 0)) := by
  obtain ⟨b, hb, hiff⟩ := scan_spec ok addr (if k then KBASE else 0) (List.range c.machines)
    (fun m hm => List.mem_range.1 hm)
  refine ⟨b, hb, hiff.trans ⟨?_, ?_⟩⟩
  · rintro ⟨m, _, R, h⟩; exact ⟨m, R, h⟩
  · rintro ⟨m, R, h, h'⟩
    refine ⟨m, ?_, R, h, h'⟩
    unfold rangeOf at h
    split at h
    · exact List.mem_range.2 ‹_›
    · cases h

theorem rangeOf_dev {c : Cfg} {m : Nat} {R : Range} (h : rangeOf c m = some R) :
    m < c.machines ∧ c.devs[m]? = some ⟨R.base, R.len⟩ := by
  unfold rangeOf at h
  split at h
  · rename_i hm
    refine ⟨hm, ?_⟩
    cases hd : c.devs[m]? with
    | none => rw [hd] at h; cases h
    | some r => rw [hd] at h; simp only [Option.map_some, Option.some.injEq] at h; cases h; rfl
  · cases h

theorem isShmemAddrWith_spec {c : Cfg} (ok : c.Ok) {a : Nat} (ha : 12 ≤ a) (hm : a - 12 < c.machines) (addr : Nat) :
    ∃ R, rangeOf c (a - 12) = some R ∧
      isShmemAddrWith c addr a true = .ok (decide (R.base + R.messages + KBASE ≤ addr) && decide (addr < R.base + R.len + KBASE)) := by
  obtain ⟨r, R, h1, h2, _, h3, h4⟩ := affinity_ok ok hm
  refine ⟨R, h2, ?_⟩
  have e : Mem.shmemAffinityToMid a = .ok (a - 12) := if_pos ha
  unfold isShmemAddrWith
  simp only [e, h1, if_true]
  have d1 : decide (addr ≥ r.base + KBASE) = decide (R.base + R.messages + KBASE ≤ addr) :=
    decide_eq_decide.2 (by omega)
  have d2 : decide (addr < r.base + KBASE + r.size) = decide (addr < R.base + R.len + KBASE) :=
    decide_eq_decide.2 (by omega)
  rw [d1, d2]

theorem placeOf_local {a : Nat} (h : a < 12) : placeOf a = .node a := by
  simp [placeOf, Mem.MAX_NUMA_NODES, h]

theorem placeOf_shared {a : Nat} (h : 12 ≤ a) : placeOf a = .shared (a - 12) := by
  unfold placeOf Mem.MAX_NUMA_NODES; rw [if_neg (by omega)]

theorem Home.toLocal {c : Cfg} {a b : Nat} {p : Piece} (h : Home c a p) (ha : a < 12) (hb : b < 12) : Home c b p := by
  refine ⟨h.1, fun x hx => ?_⟩
  have := h.2 x hx
  rw [placeOf_local ha] at this; rw [placeOf_local hb]; exact this

/-- The first byte says which memory it is. -/
theorem Home.first {c : Cfg} {a : Nat} {p : Piece} (h : Home c a p) : Fits (rangeOf c) (placeOf a) p.base :=
  h.2 _ ⟨Nat.le_refl _, by have := h.1; omega⟩

theorem range_bounds {c : Cfg} (ok : c.Ok) {m : Nat} {R : Range} (h : rangeOf c m = some R) :
    R.base + R.len < KBASE ∧ KBASE + (R.base + R.len) < SBRK :=
  ok.below _ (List.mem_of_getElem? (rangeOf_dev h).2)

theorem ranges_apart {c : Cfg} (ok : c.Ok) {m n : Nat} {R Q : Range} (h : rangeOf c m = some R)
    (h' : rangeOf c n = some Q) {x : Nat} (hx : R.Has x) (hx' : Q.Has x) : m = n := by
  apply Decidable.of_not_not
  intro hne
  have := ok.apart m n _ _ hne (rangeOf_dev h).2 (rangeOf_dev h').2
  unfold Range.Has at hx hx'
  simp only at this
  omega

/-- Kernel pointers are not physical addresses of shared memory. -/
theorem check_phys {c : Cfg} (ok : c.Ok) {ptr : Nat} (h : KBASE ≤ ptr) : isShmemAddr c ptr false = .ok false := by
  obtain ⟨b, hb, hiff⟩ := isShmemAddr_spec ok ptr false
  cases b with
  | false => exact hb
  | true =>
    obtain ⟨m, R, h1, h2, h3⟩ := hiff.1 rfl
    have := range_bounds ok h1
    simp at h3; omega

theorem sbrk_ge : KBASE ≤ SBRK := by unfold SBRK; omega

theorem Laid.ptr {c : Cfg} {o : Obj} (h : Laid c o) : KBASE ≤ o.ptr := by
  rcases h with ⟨_, p, _, h, _⟩ | ⟨_, h⟩
  · omega
  · exact Nat.le_trans sbrk_ge h

/-- Whether the address is seen as shared memory: it is, or it is the end of it. -/
def Seen (c : Cfg) (ptr : Nat) : Prop :=
  ∃ m R, rangeOf c m = some R ∧ R.base + R.messages + KBASE ≤ ptr ∧ ptr ≤ R.base + R.len + KBASE

/-- The check, once the devices are known. -/
theorem check_spec {c : Cfg} (ok : c.Ok) {s : St} {core ptr : Nat} (hi : s.inited = true) (hp : KBASE ≤ ptr)
    (hv : Valid c (s.cur core)) :
    ∃ b, check c s core ptr = .ok b ∧
      (b = true ↔ (12 ≤ s.cur core ∧ ∃ R, rangeOf c (s.cur core - 12) = some R ∧ R.base + R.messages + KBASE ≤ ptr ∧
          ptr < R.base + R.len + KBASE) ∨ (s.cur core < 12 ∧ ¬ Seen c ptr)) := by
  unfold check
  simp only [hi, if_true, check_phys ok hp]
  by_cases ha : 12 ≤ s.cur core
  · obtain ⟨R, h1, h2⟩ := isShmemAddrWith_spec ok ha (hv.shared ha) ptr
    rw [if_pos ((shm_iff _).2 ha), h2]
    refine ⟨_, rfl, ?_⟩
    simp only [Bool.and_eq_true, decide_eq_true_eq]
    constructor
    · intro h; exact Or.inl ⟨ha, R, h1, h⟩
    · rintro (⟨_, Q, q1, q2⟩ | ⟨h, _⟩)
      · rw [h1] at q1; cases q1; exact q2
      · omega
  · have ha' : s.cur core < 12 := by omega
    rw [if_neg (by rw [shm_iff]; exact ha)]
    obtain ⟨b, hb, hiff⟩ := isShmemAddr_spec ok ptr true
    rw [hb]
    refine ⟨!b, rfl, ?_⟩
    simp only [if_true] at hiff
    constructor
    · intro h
      refine Or.inr ⟨ha', fun hs => ?_⟩
      have : b = true := hiff.2 hs
      subst this; cases h
    · rintro (⟨h, _⟩ | ⟨_, h⟩)
      · omega
      · cases b with
        | false => rfl
        | true => exact absurd (hiff.1 rfl) h

/-- If the check lets an object of up to a large page pass, its memory is what the arena is for. -/
theorem check_home {c : Cfg} (ok : c.Ok) {s : St} (inv : Inv c s) {core : Nat} {o : Obj}
    (ho : (∀ p ∈ o.phys, Home c o.under p) ∧ Laid c o) (early : s.inited = false → o.under < 12)
    (hs : o.size ≤ Mem.LARGE) (h : check c s core o.ptr = .ok true) : ∀ p ∈ o.phys, Home c (s.cur core) p := by
  obtain ⟨hh, hl⟩ := ho
  have hptr := hl.ptr
  obtain ⟨p, e1, e2, e3⟩ : ∃ p, o.phys = [p] ∧ o.ptr = KBASE + p.base ∧ need c o.size ≤ p.len := by
    rcases hl with ⟨_, h⟩ | ⟨h', _⟩
    · exact h
    · omega
  intro q hq
  rw [e1] at hq
  have hq' : q = p := by simpa using hq
  subst hq'
  have hp : Home c o.under q := hh q (by rw [e1]; simp)
  cases hi : s.inited with
  | false => exact hp.toLocal (early hi) ((inv.early hi).1 core)
  | true =>
    obtain ⟨b, hb, hiff⟩ := check_spec (core := core) ok hi hptr (inv.cur core)
    rw [h] at hb; cases hb
    have hf := hp.first
    rcases hiff.1 rfl with ⟨ha, R, r1, r2, r3⟩ | ⟨ha, hn⟩
    · have hx : R.Has q.base := ⟨by omega, by omega⟩
      by_cases hu : 12 ≤ o.under
      · rw [placeOf_shared hu] at hf
        obtain ⟨Q, q1, q2⟩ := hf
        have : o.under - 12 = s.cur core - 12 := ranges_apart ok q1 r1 ⟨by have := q2.1; omega, q2.2⟩ hx
        have : o.under = s.cur core := by omega
        rw [← this]; exact hp
      · rw [placeOf_local (by omega)] at hf
        exact absurd hx (hf _ _ r1)
    · by_cases hu : 12 ≤ o.under
      · rw [placeOf_shared hu] at hf
        obtain ⟨Q, q1, q2⟩ := hf
        refine absurd ?_ hn
        exact ⟨_, Q, q1, by have := q2.1; omega, by have := q2.2; omega⟩
      · exact hp.toLocal (by omega) ha

end NRK.Rack.Arena
