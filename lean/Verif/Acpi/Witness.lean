import Verif.Acpi.Props

/-!
# C104: concrete cases
-/

namespace NRK.Acpi

open Spec

/-- An allocator that goes up, in steps of 8 bytes, from 4096. -/
def bump (live : List (Nat × Nat)) (n : Nat) : Option Nat :=
  let p := (live.foldl (fun a b => max a (b.1 + b.2)) 4096 + 7) / 8 * 8
  if p + n ≤ 2 ^ 64 then some p else none

theorem foldl_max_le (l : List (Nat × Nat)) : ∀ a, a ≤ l.foldl (fun a b => max a (b.1 + b.2)) a ∧
    ∀ b ∈ l, b.1 + b.2 ≤ l.foldl (fun a b => max a (b.1 + b.2)) a := by
  induction l with
  | nil => intro a; simp
  | cons x l ih =>
    intro a
    obtain ⟨h1, h2⟩ := ih (max a (x.1 + x.2))
    refine ⟨by rw [List.foldl_cons]; omega, fun b hb => ?_⟩
    rw [List.foldl_cons]
    rcases List.mem_cons.1 hb with rfl | hb
    · omega
    · exact h2 b hb

theorem bump_ok : Allocator bump := by
  intro live n p h
  obtain ⟨h1, h2⟩ := foldl_max_le live 4096
  simp only [bump] at h
  split at h
  · rename_i hle
    simp only [Option.some.injEq] at h
    refine ⟨by omega, by omega, by omega, fun b hb => Or.inr ?_⟩
    have := h2 b hb
    simp only
    omega
  · exact absurd h (by simp)

/-- `View.may` as a test. -/
def mayB (w : View) : Op → Bool
  | .alloc n => decide (n + 16 < 2 ^ 64)
  | .free p => p == 0 || w.objs.any (·.1 == p)
  | .write a _ => w.objs.any (fun x => decide (x.1 ≤ a ∧ a < x.1 + x.2))
  | .kalloc n => decide (0 < n)
  | .kfree p n => w.kobjs.contains (p, n)
  | .kwrite a _ => w.kobjs.any (fun x => decide (x.1 ≤ a ∧ a < x.1 + x.2))

theorem mayB_may {w : View} {op : Op} (h : mayB w op = true) : w.may op := by
  cases op with
  | alloc n => simpa [mayB, View.may] using h
  | free p =>
    simp only [mayB, Bool.or_eq_true, beq_iff_eq, List.any_eq_true] at h
    rcases h with h | ⟨x, hx, rfl⟩
    · exact Or.inl h
    · exact Or.inr ⟨x.2, hx⟩
  | write a v =>
    simp only [mayB, List.any_eq_true, decide_eq_true_eq] at h
    exact h
  | kalloc n => simpa [mayB, View.may] using h
  | kfree p n => simpa [mayB, View.may] using h
  | kwrite a v =>
    simp only [mayB, List.any_eq_true, decide_eq_true_eq] at h
    exact h

/-- Run a history with the allocator above, as long as each operation is allowed. -/
def play : List Op → View → St → Option (View × St)
  | [], w, s => some (w, s)
  | op :: l, w, s =>
    if mayB w op then
      match step bump s op with
      | none => none
      | some (r, s') => play l (w.after op r) s'
    else none

theorem play_reach {m : Nat → UInt8} : ∀ {l : List Op} {w w' : View} {s s' : St}, Reach bump m w s →
    play l w s = some (w', s') → Reach bump m w' s'
  | [], _, _, _, _, h, e => by
    simp only [play, Option.some.injEq, Prod.mk.injEq] at e
    obtain ⟨rfl, rfl⟩ := e
    exact h
  | op :: l, w, w', s, s', h, e => by
    simp only [play] at e
    split at e
    · rename_i hm
      split at e
      · exact absurd e (by simp)
      · rename_i r s2 h2
        exact play_reach (h.step (mayB_may hm) h2) e
    · exact absurd e (by simp)

/-- What of a result is looked at. -/
structure Seen where
  objs : List (Nat × Nat)
  kobjs : List (Nat × Nat)
  wrote : Option UInt8
  byte : UInt8
  live : List (Nat × Nat)
  deriving DecidableEq

/-- Look at a result. -/
def look (r : View × St) : Seen :=
  ⟨r.1.objs, r.1.kobjs, r.1.wrote 4121, r.2.mem 4121, r.2.live⟩

/-- The interpreter has an object of 10 bytes and one of no bytes, and other kernel code a block; a third object has
been freed. -/
theorem c104_memory_case : ∃ w s, Reach bump (fun _ => 0) w s ∧ look (w, s) =
    ⟨[(4176, 0), (4112, 10)], [(4128, 32)], some 7, 7, [(4160, 16), (4128, 32), (4096, 26)]⟩ := by
  have h : (play [.alloc 10, .kalloc 32, .alloc 0, .alloc 5, .write 4121 7, .kwrite 4128 255, .free 0, .free 4192]
      View.init ⟨fun _ => 0, []⟩).map look =
    some ⟨[(4176, 0), (4112, 10)], [(4128, 32)], some 7, 7, [(4160, 16), (4128, 32), (4096, 26)]⟩ := by
    decide +kernel
  rw [Option.map_eq_some_iff] at h
  obtain ⟨⟨w, s⟩, h1, h2⟩ := h
  exact ⟨w, s, play_reach .init h1, h2⟩

/-- **C104, memory, negation.**  A request for 2^64 - 1 bytes succeeds with a block of 15 bytes, and an object of other
kernel code lies inside of what the interpreter was given. -/
theorem c104_memory_violated :
    (osAllocate bump ⟨fun _ => 0, []⟩ (2 ^ 64 - 1)).1 = 4112 ∧
    (osAllocate bump ⟨fun _ => 0, []⟩ (2 ^ 64 - 1)).2.live = [(4096, 15)] ∧
    (rawAlloc bump (osAllocate bump ⟨fun _ => 0, []⟩ (2 ^ 64 - 1)).2 100).1 = 4112 := by
  decide +kernel

/-- A map function that keeps its promises. -/
def plainMap (t : Nat → Option Nat) (v p n : Nat) : Option (Nat → Option Nat) :=
  some (fun q => if v ≤ q ∧ q < v + n then some (p + (q - v)) else t q)

theorem plainMap_ok : Mapper plainMap := by
  intro t v p n t' h
  simp only [plainMap, Option.some.injEq] at h
  subst h
  refine ⟨fun i hi => ?_, fun q hq => ?_⟩
  · have : v ≤ v + i ∧ v + i < v + n := by omega
    simp [this]
  · have : ¬ (v ≤ q ∧ q < v + n) := by omega
    simp [this]

/-- Two tables, of which the first crosses a page; the unmap call in between changes nothing. -/
theorem c104_map_case : ∃ got t', runMaps plainMap [] (fun _ => none) [.map 0x7ffe1ff0 0x20, .unmap 0 4, .map 0x7ffe2100 36] =
    some (got, t') ∧ got.map (·.2.2) = [0x40007ffe2100, 0x40007ffe1ff0] ∧
    translate t' 0x40007ffe200f = some 0x7ffe200f ∧ translate t' 0x40007ffe3000 = none := by
  refine ⟨_, _, rfl, ?_⟩
  decide +kernel

/-- Firmware of today lists both; an old one only the first. -/
theorem c104_root_case :
    osGetRootPointer (some (findTables [(.other, 1), (.acpi1, 0xe0000), (.acpi2, 0xe0014)])) = 0xe0014 ∧
    osGetRootPointer (some (findTables [(.other, 1), (.acpi1, 0xe0000)])) = 0 ∧
    root [(.other, 1), (.acpi1, 0xe0000)] = 0xe0000 ∧ osGetRootPointer none = 0 := by
  decide +kernel

/-- Devices that keep a log. -/
def logDevs : Devs (List Port) := ⟨fun d a w => (d.length, d ++ [.read a w]), fun d a w v => d ++ [.write a w v]⟩

/-- A sequence of accesses, one of them with 64 bits. -/
theorem c104_ports_case :
    runPorts logDevs [] [.write 0x70 8 0x10a, .read 0x71 8, .read 0x71 64, .read 0xb004 32] =
    ([some 0, some 1, none, some 2], [.write 0x70 8 0x0a, .read 0x71 8, .read 0xb004 32]) := by
  decide +kernel

/-- **C104, ports, negation.**  An address that is no port reaches the port with its low 16 bits. -/
theorem c104_ports_violated :
    (runPorts logDevs [] [.write 0x10064 8 0xfe]).2 = [.write 0x64 8 0xfe] ∧
    (direct logDevs.inp logDevs.out [] (seen [.write 0x10064 8 0xfe])).2 = [.write 0x10064 8 0xfe] := by
  decide +kernel

end NRK.Acpi
