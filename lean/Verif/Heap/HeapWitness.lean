import Verif.Heap.HeapProps

/-! # C63: the constants in use meet the conditions, and a history -/

namespace NRK.Heap

open NRK.Mem NRK.Mem.Spec

/-- The size classes of slabmalloc. -/
def classes : List Nat :=
  [8, 16, 32, 64, 128, 256, 512, 1024, 2048, 4096, 8192, 16384, 32768, 65536, 131072]

def classOf (s : Nat) : Nat := (classes.find? fun c => decide (s ≤ c)).getD 0

/-- The constants in use; physical memory is mapped at `KERNEL_BASE` (`lib/kpi/src/lib.rs` line 31). -/
def real : HCfg := ⟨0x400000000000, 1024, 131072, 80, classOf⟩

theorem classOf_mem {s m : Nat} (hm : m ∈ classes) (h : s ≤ m) : s ≤ classOf s ∧ classOf s ∈ classes := by
  unfold classOf
  cases e : classes.find? fun c => decide (s ≤ c) with
  | none =>
    have := List.find?_eq_none.1 e m hm
    simp only [decide_eq_true_eq] at this
    exact absurd h this
  | some c => exact ⟨by simpa using List.find?_some e, List.mem_of_find?_eq_some e⟩

/-- The first class that fits is not above any other one that does. -/
theorem classOf_small : ∀ s ≤ 1024, classOf s ≤ 1024 := by decide +kernel

theorem real_ok : real.Ok := by
  have hB : BASE = 4096 := BASE_eq
  have hL : LARGE = 2097152 := LARGE_eq
  have hc : ∀ c ∈ classes, 0 < c ∧ c ≤ 131072 := by decide
  have hm : ∀ s ≤ 131072, s ≤ classOf s ∧ 0 < classOf s ∧ classOf s ≤ 131072 := by
    intro s hs
    obtain ⟨a, b⟩ := classOf_mem (m := 131072) (by decide) hs
    exact ⟨a, hc _ b⟩
  refine ⟨?_, hm, ?_, ?_, ?_, ?_, ?_⟩
  · rw [hL]; decide
  · rw [hB]; decide
  · rw [hL]; decide
  · rw [hB]; decide
  · intro s (hs : s ≤ 1024)
    show classOf s + 80 ≤ BASE
    have := classOf_small s hs
    omega
  · intro s (hs : s ≤ 131072)
    show classOf s + 80 ≤ LARGE
    have := (hm s hs).2.2
    omega

theorem pair_eta {α β : Type} {x : α × β} {a : α} (h : x.1 = a) : x = (a, x.2) := by
  obtain ⟨y, z⟩ := x
  cases h
  rfl

def env0 : Env := ⟨0, fun _ => 7⟩

/-- A core with two base pages and a large page; its node has one of each. -/
def wn : MCache := ⟨10, 10, 0, [0x5000], [0x800000]⟩
def wt : MCache := ⟨10, 1, 0, [0x1000, 0x3000], [0x200000]⟩
def w0 : Heap := ⟨wn, wt, ⟨[], [], []⟩, 0x410000000000, [], fun _ => 0⟩

/-- 100 bytes. -/
def w1 : Heap := (w0.alloc real 100 8 env0).2
/-- A large page. -/
def w2 : Heap := (w1.alloc real 200000 4096 env0).2
/-- The owner of the first object writes to it. -/
def w3 : Heap := { w2 with mem := fun a => if a = 0x400000001003 then 42 else w2.mem a }
/-- The first object grows. -/
def w4 : Heap := (w3.realloc real 0x400000001000 100 8 1000 env0).2
/-- Another large page; now both are in use. -/
def w5 : Heap := (w4.alloc real 150000 8 env0).2
/-- The first large page is freed. -/
def w6 : Heap := (w5.dealloc real 0x400000200000 200000 4096 env0).2

def ob1 : Obj := ⟨0x400000001000, 100, 8⟩
def ob2 : Obj := ⟨0x400000200000, 200000, 4096⟩
def ob3 : Obj := ⟨0x400000003000, 1000, 8⟩
def ob4 : Obj := ⟨0x400000800000, 150000, 8⟩

unseal BASE LARGE in
theorem run0 : Run real (wn.held ++ wt.held) w0 [] := by
  refine Run.start ⟨by decide, by decide, by decide, by decide⟩ ⟨by decide, by decide, by decide, by decide⟩ rfl ?_ ?_ ?_
  · have hB : BASE = 4096 := BASE_eq
    have hL : LARGE = 2097152 := LARGE_eq
    simp only [wn, wt, MCache.held, AllDisjoint, hB, hL, List.map_cons, List.map_nil, List.cons_append,
      List.nil_append, List.pairwise_cons, List.mem_cons, List.not_mem_nil, forall_eq_or_imp]
    refine ⟨⟨?_, ?_, ?_, ?_, ?_⟩, ⟨?_, ?_, ?_, ?_⟩, ⟨?_, ?_, ?_⟩, ⟨?_, ?_⟩, ?_, List.Pairwise.nil⟩
    all_goals first
      | (intro a h; exact absurd h id)
      | (intro x hx; obtain ⟨⟨h1, h2⟩, ⟨h3, h4⟩⟩ := hx; simp only at h1 h2 h3 h4; omega)
  · decide
  · decide

unseal BASE LARGE in
theorem run1 : Run real (wn.held ++ wt.held) w1 [ob1] :=
  Run.alloc run0 (size := 100) (align := 8) (e := env0) (by decide) (by decide) (by decide) (pair_eta rfl)

unseal BASE LARGE in
theorem run2 : Run real (wn.held ++ wt.held) w2 [ob2, ob1] :=
  Run.alloc run1 (size := 200000) (align := 4096) (e := env0) (by decide) (by decide) (by decide) (pair_eta rfl)

unseal BASE LARGE in
theorem run3 : Run real (wn.held ++ wt.held) w3 [ob2, ob1] := by
  refine Run.write run2 (o := ob1) (by decide) (fun a ha => ?_)
  show (if a = 0x400000001003 then 42 else w2.mem a) = w2.mem a
  rw [if_neg]
  rintro rfl
  exact ha ⟨by decide, by decide⟩

unseal BASE LARGE in
theorem run4 : Run real (wn.held ++ wt.held) w4 [ob3, ob2] := by
  have := Run.realloc run3 (o := ob1) (new := 1000) (e := env0) (q := 0x400000003000) (h' := w4) (by decide) (by decide)
    (by unfold inPlace; decide) (pair_eta (by decide +kernel))
  exact this

unseal BASE LARGE in
theorem run5 : Run real (wn.held ++ wt.held) w5 [ob4, ob3, ob2] :=
  Run.alloc run4 (size := 150000) (align := 8) (e := env0) (p := 0x400000800000) (by decide) (by decide) (by decide)
    (pair_eta (by decide +kernel))

unseal BASE LARGE in
theorem run6 : Run real (wn.held ++ wt.held) w6 [ob4, ob3] := by
  have := Run.dealloc run5 (o := ob2) (e := env0) (h' := w6) (by decide) (pair_eta (by decide +kernel))
  exact this

/-- The contents moved along with the object (`c63_realloc` is not vacuous). -/
example : w4.mem 0x400000003003 = 42 := by decide +kernel

/-- Nothing left: `c63_page_null_iff` holds with both sides true ... -/
example : (w5.alloc real 140000 8 env0).1 = .ok none := by decide +kernel
/-- ... and with both sides false. -/
example : (w6.alloc real 140000 8 env0).1 = .ok (some 0x400000200000) := by decide +kernel

/-- The core's cache of large pages is full, the node's is not, and freeing a large page panics. -/
theorem c63_full_cache_free_panics :
    ∃ init h objs, Run real init h objs ∧ ob4 ∈ objs ∧ h.nc.lp.length < h.nc.capL ∧
      (h.dealloc real ob4.ptr ob4.size ob4.align env0).1 = .panic :=
  ⟨_, w6, _, run6, by decide, by decide +kernel, by decide +kernel⟩

/-- An object of 1000 bytes that shrinks to 100 and is freed. -/
theorem c63_shrink_witness :
    ∃ init h objs, Run real init h objs ∧ ob3 ∈ objs ∧
      h.realloc real ob3.ptr ob3.size ob3.align 100 env0 = (.ok (some ob3.ptr), h) ∧
      (h.dealloc real ob3.ptr 100 ob3.align env0).1 = .panic :=
  ⟨_, w6, _, run6, by decide,
    c63_shrink_then_free real_ok run6 (o := ob3) (new := 100) (by decide)
      ⟨by decide, by rw [BASE_eq]; decide, by decide⟩ (by decide) env0⟩

/-- Two large pages with an alignment of two large pages: the address is not a multiple of it. -/
def vt : MCache := ⟨40, 10, 0, (List.range 30).map (fun i => 0x1000 * (i + 1)), [0x200000, 0x400000, 0x600000, 0x800000]⟩
def v0 : Heap := ⟨⟨10, 10, 0, [], []⟩, vt, ⟨[], [], []⟩, 0x410000200000, [], fun _ => 0⟩

unseal BASE LARGE in
theorem runv : Run real (([] : List Block) ++ vt.held) v0 [] := by
  refine Run.start (nc := ⟨10, 10, 0, [], []⟩) ⟨by decide, by decide, by decide, by decide⟩
    ⟨by decide, by decide, by decide, by decide⟩ rfl ?_ (by decide) (by decide)
  have key : ∀ l : List Block, (l.Pairwise fun a b => a.start + a.len ≤ b.start ∨ b.start + b.len ≤ a.start) →
      AllDisjoint l := fun l h => h.imp fun hd x hx => by
    obtain ⟨⟨h1, h2⟩, ⟨h3, h4⟩⟩ := hx
    rcases hd with hd | hd <;> omega
  apply key
  decide +kernel

unseal BASE LARGE in
theorem c63_alignment_witness :
    ∃ init h, Run real init h [] ∧ ∃ p, (h.alloc real 0x300000 0x400000 env0).1 = .ok (some p) ∧ p % 0x400000 ≠ 0 :=
  ⟨_, v0, runv, 0x410000200000, by decide +kernel, by decide⟩

/-- 64 bytes with an alignment of 8 KiB: null, although there are free pages. -/
theorem c63_overaligned_null :
    ∃ init h, Run real init h [] ∧ h.tc.bp ≠ [] ∧ (h.alloc real 64 0x2000 env0).1 = .ok none ∧
      (h.alloc real 64 0x2000 env0).2.tc.bp = [] :=
  ⟨_, w0, run0, by decide, by decide +kernel, by decide +kernel⟩

end NRK.Heap
