import Verif.Acpi.Lemmas

/-!
# C104: the ACPI interpreter gets the memory, the tables and the ports it asks for
-/

namespace NRK.Acpi

open Spec

/-- Histories: every operation is one the callers may do, in any order and any number. -/
inductive Reach (pick : List (Nat × Nat) → Nat → Option Nat) (m : Nat → UInt8) : View → St → Prop
  | init : Reach pick m View.init ⟨m, []⟩
  | step {w : View} {s : St} {op : Op} {r : Nat} {s' : St} : Reach pick m w s → w.may op →
      step pick s op = some (r, s') → Reach pick m (w.after op r) s'

theorem Reach.inv {pick : List (Nat × Nat) → Nat → Option Nat} (hp : Allocator pick) {m : Nat → UInt8} {w : View}
    {s : St} (h : Reach pick m w s) : Inv w s := by
  induction h with
  | init => exact Inv.init m
  | step _ hm he ih =>
    obtain ⟨r', s'', he', hi⟩ := ih.step hp hm
    rw [he] at he'
    simp only [Option.some.injEq, Prod.mk.injEq] at he'
    obtain ⟨rfl, rfl⟩ := he'
    exact hi

/-- **C104, memory.**  For every allocator that keeps its promises and every history: the next operation is never
undefined behaviour (each block is given back with the size it was allocated with, exactly once); objects of the
interpreter share no byte with each other and with memory of other kernel code; they are aligned to 8 bytes and not
null; what was written into them is still there; and if all has been freed, the allocator has everything back.
Missing: sizes of 2^64 - 16 and more (`c104_memory_violated`). -/
theorem c104_memory_partial {pick : List (Nat × Nat) → Nat → Option Nat} (hp : Allocator pick) {m : Nat → UInt8}
    {w : View} {s : St} (h : Reach pick m w s) :
    (∀ op, w.may op → (step pick s op).isSome) ∧
    w.objs.Pairwise (fun x y => x.1 ≠ y.1 ∧ Apart x y) ∧
    (∀ x ∈ w.objs, ∀ y ∈ w.kobjs, Apart x y) ∧
    (∀ x ∈ w.objs, x.1 ≠ 0 ∧ x.1 % 8 = 0 ∧ x.1 + x.2 ≤ 2 ^ 64) ∧
    (∀ a v, w.wrote a = some v → s.mem a = v) ∧
    (w.objs = [] → w.kobjs = [] → s.live = []) := by
  have hi := h.inv hp
  refine ⟨?_, ?_, ?_, ?_, ?_, ?_⟩
  · intro op hm
    obtain ⟨r, s', he, _⟩ := hi.step hp hm
    simp [he]
  · have hall : ∀ x ∈ w.objs, 16 < x.1 := fun x hx => (hi.hdr x hx).1
    refine List.Pairwise.imp_of_mem ?_ hi.oo
    intro x y hx hy hxy
    have := hall x hx
    have := hall y hy
    simp only [Apart] at hxy ⊢
    omega
  · intro x hx y hy
    have := (hi.hdr x hx).1
    have := hi.excl x hx y hy
    simp only [Apart] at *
    omega
  · intro x hx
    obtain ⟨a1, a2, a3, _⟩ := hi.hdr x hx
    exact ⟨by omega, a2, a3⟩
  · intro a v hav
    exact (hi.bytes a v hav).2
  · intro ho hk
    refine List.eq_nil_iff_forall_not_mem.2 (fun b hb => ?_)
    rcases (hi.live b).1 hb with ⟨x, hx, _⟩ | hb
    · rw [ho] at hx
      exact absurd hx (by simp)
    · rw [hk] at hb
      exact absurd hb (by simp)

/-- **C104, who gets memory.**  A request succeeds exactly if the allocator has a block with 16 bytes more, and a
request that fails returns null and changes nothing. -/
theorem c104_null {pick : List (Nat × Nat) → Nat → Option Nat} (hp : Allocator pick) (s : St) {n : Nat}
    (hn : n + 16 < 2 ^ 64) :
    ((osAllocate pick s n).1 ≠ 0 ↔ (pick s.live (n + 16)).isSome) ∧
    ((osAllocate pick s n).1 = 0 → (osAllocate pick s n).2 = s) := by
  have hm : (n + HEADER_SIZE) % 2 ^ 64 = n + 16 := Nat.mod_eq_of_lt hn
  simp only [osAllocate, hm, rawAlloc]
  cases hk : pick s.live (n + 16) with
  | none => simp
  | some p =>
    have := (hp _ _ _ hk).1
    have h0 : p ≠ 0 := by omega
    simp [h0, HEADER_SIZE]

/-- Where the kernel's window maps something, it maps the address without the offset. -/
def Window (t : Nat → Option Nat) (got : List (Nat × Nat × Nat)) : Prop :=
  ∀ x ∈ got, x.2.2 = x.1 + KERNEL_BASE ∧
    ∀ i, i < x.2.1 → t ((x.2.2 + i) / 4096) = some ((x.1 + i) / 4096)

theorem osMapMemory_window {map : (Nat → Option Nat) → Nat → Nat → Nat → Option (Nat → Option Nat)}
    (hm : Mapper map) {t t' : Nat → Option Nat} {loc len p : Nat} {got : List (Nat × Nat × Nat)} (hw : Window t got)
    (h : osMapMemory map t loc len = some (p, t')) : Window t' ((loc, len, p) :: got) := by
  simp only [osMapMemory] at h
  split at h
  · exact absurd h (by simp)
  · rename_i t2 ht
    simp only [Option.some.injEq, Prod.mk.injEq] at h
    obtain ⟨rfl, rfl⟩ := h
    obtain ⟨hin, hout⟩ := hm _ _ _ _ _ ht
    have key : ∀ a, (KERNEL_BASE + loc / 4096 * 4096) / 4096 ≤ (a + KERNEL_BASE) / 4096 →
        (a + KERNEL_BASE) / 4096 < (KERNEL_BASE + loc / 4096 * 4096) / 4096 +
          roundUp (loc - loc / 4096 * 4096 + len) 4096 / 4096 →
        t2 ((a + KERNEL_BASE) / 4096) = some (a / 4096) := by
      intro a h1 h2
      have := hin ((a + KERNEL_BASE) / 4096 - (KERNEL_BASE + loc / 4096 * 4096) / 4096) (by omega)
      rw [Nat.add_sub_cancel' h1] at this
      rw [this]
      simp only [KERNEL_BASE] at *
      congr 1
      omega
    intro x hx
    rcases List.mem_cons.1 hx with rfl | hx
    · refine ⟨rfl, fun i hi => ?_⟩
      have he : loc + KERNEL_BASE + i = (loc + i) + KERNEL_BASE := by omega
      simp only at hi ⊢
      rw [he]
      apply key
      · simp only [KERNEL_BASE]
        omega
      · simp only [KERNEL_BASE, roundUp]
        omega
    · obtain ⟨e1, e2⟩ := hw x hx
      refine ⟨e1, fun i hi => ?_⟩
      by_cases hr : (KERNEL_BASE + loc / 4096 * 4096) / 4096 ≤ (x.2.2 + i) / 4096 ∧
          (x.2.2 + i) / 4096 < (KERNEL_BASE + loc / 4096 * 4096) / 4096 +
            roundUp (loc - loc / 4096 * 4096 + len) 4096 / 4096
      · have he : x.2.2 + i = (x.1 + i) + KERNEL_BASE := by omega
        rw [he] at hr ⊢
        exact key _ hr.1 hr.2
      · rw [hout _ (by omega)]
        exact e2 i hi

/-- **C104, tables.**  After any sequence of map and unmap calls, every byte of every piece of physical memory that was
mapped is where the map call said: address `p + i` is the physical byte `location + i`. -/
theorem c104_map {map : (Nat → Option Nat) → Nat → Nat → Nat → Option (Nat → Option Nat)} (hm : Mapper map)
    {t : Nat → Option Nat} {l : List MapOp} {got : List (Nat × Nat × Nat)} {t' : Nat → Option Nat}
    (h : runMaps map [] t l = some (got, t')) :
    got.map (fun x => (x.1, x.2.1)) = (l.filterMap (fun | .map loc len => some (loc, len) | .unmap _ _ => none)).reverse ∧
    ∀ x ∈ got, ∀ i, i < x.2.1 → translate t' (x.2.2 + i) = some (x.1 + i) := by
  have gen : ∀ (l : List MapOp) (g : List (Nat × Nat × Nat)) (t : Nat → Option Nat) got t', Window t g →
      runMaps map g t l = some (got, t') → Window t' got ∧
      got.map (fun x => (x.1, x.2.1)) =
        (l.filterMap (fun | .map loc len => some (loc, len) | .unmap _ _ => none)).reverse ++
          g.map (fun x => (x.1, x.2.1)) := by
    intro l
    induction l with
    | nil =>
      intro g t got t' hw h
      simp only [runMaps, Option.some.injEq, Prod.mk.injEq] at h
      obtain ⟨rfl, rfl⟩ := h
      exact ⟨hw, by simp⟩
    | cons o l ih =>
      intro g t got t' hw h
      cases o with
      | map loc len =>
        simp only [runMaps] at h
        split at h
        · exact absurd h (by simp)
        · rename_i p t2 h2
          obtain ⟨i1, i2⟩ := ih _ _ _ _ (osMapMemory_window hm hw h2) h
          exact ⟨i1, by rw [i2]; simp⟩
      | unmap p len =>
        simp only [runMaps, osUnmapMemory] at h
        obtain ⟨i1, i2⟩ := ih _ _ _ _ hw h
        exact ⟨i1, by rw [i2]; simp⟩
  obtain ⟨h1, h2⟩ := gen l [] t got t' (by intro x hx; exact absurd hx (by simp)) h
  refine ⟨by simpa using h2, fun x hx i hi => ?_⟩
  obtain ⟨e1, e2⟩ := h1 x hx
  have := e2 i hi
  rw [translate, this, e1]
  simp only [Option.map_some, Option.some.injEq, KERNEL_BASE]
  omega

theorem osMapMemory_only {map : (Nat → Option Nat) → Nat → Nat → Nat → Option (Nat → Option Nat)}
    (hm : Mapper map) {t t' : Nat → Option Nat} {loc len p : Nat} (h : osMapMemory map t loc len = some (p, t')) (q : Nat)
    (hq : q < p / 4096 ∨ (p + len + 4095) / 4096 ≤ q) : t' q = t q := by
  simp only [osMapMemory] at h
  split at h
  · exact absurd h (by simp)
  · rename_i t2 ht
    simp only [Option.some.injEq, Prod.mk.injEq] at h
    obtain ⟨rfl, rfl⟩ := h
    refine (hm _ _ _ _ _ ht).2 q ?_
    simp only [KERNEL_BASE, roundUp] at *
    omega

/-- **C104, nothing else is mapped.**  Map and unmap calls change no page that lies outside of all the pieces of memory
asked for. -/
theorem c104_map_only {map : (Nat → Option Nat) → Nat → Nat → Nat → Option (Nat → Option Nat)} (hm : Mapper map)
    {t : Nat → Option Nat} {l : List MapOp} {got : List (Nat × Nat × Nat)} {t' : Nat → Option Nat}
    (h : runMaps map [] t l = some (got, t')) (q : Nat)
    (hq : ∀ x ∈ got, q < x.2.2 / 4096 ∨ (x.2.2 + x.2.1 + 4095) / 4096 ≤ q) : t' q = t q := by
  have gen : ∀ (l : List MapOp) (g : List (Nat × Nat × Nat)) (t : Nat → Option Nat) got t',
      runMaps map g t l = some (got, t') → (∀ x ∈ got, q < x.2.2 / 4096 ∨ (x.2.2 + x.2.1 + 4095) / 4096 ≤ q) →
      t' q = t q ∧ ∀ x ∈ g, x ∈ got := by
    intro l
    induction l with
    | nil =>
      intro g t got t' h _
      simp only [runMaps, Option.some.injEq, Prod.mk.injEq] at h
      obtain ⟨rfl, rfl⟩ := h
      exact ⟨rfl, fun x hx => hx⟩
    | cons o l ih =>
      intro g t got t' h hq
      cases o with
      | map loc len =>
        simp only [runMaps] at h
        split at h
        · exact absurd h (by simp)
        · rename_i p t2 h2
          obtain ⟨i1, i2⟩ := ih _ _ _ _ h hq
          refine ⟨?_, fun x hx => i2 x (List.mem_cons_of_mem _ hx)⟩
          rw [i1]
          exact osMapMemory_only hm h2 q (hq _ (i2 _ (List.mem_cons_self ..)))
      | unmap p len =>
        simp only [runMaps, osUnmapMemory] at h
        exact ih _ _ _ _ h hq
  exact (gen l [] t got t' h hq).1

theorem findTables_gen (l : List (Guid × Nat)) : ∀ a : Args,
    l.foldl (fun a e => if e.1 = .acpi2 then { a with acpi2 := e.2 }
      else if e.1 = .acpi1 then { a with acpi1 := e.2 } else a) a =
    ⟨(find .acpi1 l).getD a.acpi1, (find .acpi2 l).getD a.acpi2⟩ := by
  induction l with
  | nil => intro a; rfl
  | cons e l ih =>
    intro a
    obtain ⟨g, p⟩ := e
    rw [List.foldl_cons, ih]
    cases g <;> simp [find, List.getLast?_cons]

/-- **C104, the root.**  If the firmware lists the tables of ACPI 2 or later, the interpreter gets the address listed.
Missing: firmware with ACPI 1 only (`c104_root_violated`). -/
theorem c104_root_partial (l : List (Guid × Nat)) (h : (find .acpi2 l).isSome) :
    osGetRootPointer (some (findTables l)) = root l := by
  obtain ⟨p, hp⟩ := Option.isSome_iff_exists.1 h
  simp [osGetRootPointer, findTables, findTables_gen, hp, root]

/-- **C104, no tables.**  Without any table the interpreter gets null. -/
theorem c104_root_none (l : List (Guid × Nat)) (h1 : find .acpi1 l = none) (h2 : find .acpi2 l = none) :
    osGetRootPointer (some (findTables l)) = 0 ∧ root l = 0 := by
  simp [osGetRootPointer, findTables, findTables_gen, h1, h2, root]

/-- **C104, the root, negation.**  With firmware that lists only the tables of ACPI 1, the interpreter always gets
null, although it is to get the address listed. -/
theorem c104_root_violated (l : List (Guid × Nat)) (p : Nat) (h1 : find .acpi1 l = some p) (h2 : find .acpi2 l = none) :
    osGetRootPointer (some (findTables l)) = 0 ∧ root l = p := by
  simp [osGetRootPointer, findTables, findTables_gen, h1, h2, root]

/-- **C104, ports.**  For any devices and any sequence of accesses to ports that exist: the devices see exactly the
accesses with 8, 16 or 32 bits, in order and with the low bits of the value; their answers are returned; the others
fail.  Missing: addresses of 65536 and more (`c104_ports_violated`). -/
theorem c104_ports_partial {D : Type} (h : Devs D) : ∀ (l : List Port) (d : D), (∀ x ∈ l, x.exists_) →
    (runPorts h d l).2 = (direct h.inp h.out d (seen l)).2 ∧
    (runPorts h d l).1.filterMap id = (direct h.inp h.out d (seen l)).1 ∧
    (runPorts h d l).1.map Option.isSome = l.map Port.valid
  | [], _, _ => ⟨rfl, rfl, rfl⟩
  | .read a w :: l, d, hx => by
    have ha : a % 2 ^ 16 = a := Nat.mod_eq_of_lt (hx _ (List.mem_cons_self ..))
    have hl := fun d => c104_ports_partial h l d (fun x hm => hx x (List.mem_cons_of_mem _ hm))
    simp only [runPorts, osReadPort, ha]
    split
    · simp [seen, direct, Port.valid, hl]
    · simp [seen, direct, Port.valid, hl]
    · simp [seen, direct, Port.valid, hl]
    · rename_i h1 h2 h3
      have e1 : w ≠ 8 := fun e => h1 e
      have e2 : w ≠ 16 := fun e => h2 e
      have e3 : w ≠ 32 := fun e => h3 e
      simp [seen, Port.valid, e1, e2, e3, hl]
  | .write a w v :: l, d, hx => by
    have ha : a % 2 ^ 16 = a := Nat.mod_eq_of_lt (hx _ (List.mem_cons_self ..))
    have hl := fun d => c104_ports_partial h l d (fun x hm => hx x (List.mem_cons_of_mem _ hm))
    simp only [runPorts, osWritePort, ha]
    split
    · simp [seen, direct, Port.valid, hl]
    · simp [seen, direct, Port.valid, hl]
    · simp [seen, direct, Port.valid, hl]
    · rename_i h1 h2 h3
      have e1 : w ≠ 8 := fun e => h1 e
      have e2 : w ≠ 16 := fun e => h2 e
      have e3 : w ≠ 32 := fun e => h3 e
      simp [seen, Port.valid, e1, e2, e3, hl]

end NRK.Acpi
