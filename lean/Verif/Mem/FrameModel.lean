import Verif.Common
import Verif.Mem.Spec

/-!
# Model of physical memory frames, `kernel/src/memory/frame.rs`
-/

namespace NRK.Mem

/-- `BASE_PAGE_SIZE` (`kernel/src/arch/x86_64/memory.rs` re-exports the x86 constant). -/
@[irreducible] def BASE : Nat := 4096

/-- `LARGE_PAGE_SIZE`. -/
@[irreducible] def LARGE : Nat := 2097152

theorem BASE_eq : BASE = 4096 := by unfold BASE; rfl

theorem LARGE_eq : LARGE = 2097152 := by unfold LARGE; rfl

/-- `omega` with the page sizes replaced by their values. -/
macro "momega" : tactic => `(tactic| (
  (try simp only [BASE_eq, LARGE_eq] at *)
  omega))

/-- `Frame` (`memory/frame.rs` lines 23-28); `aff` is the NUMA node. -/
structure Frame where
  base : Nat
  size : Nat
  aff : Nat
deriving DecidableEq, Repr

/-- `round_up!` (`kernel/src/prelude.rs` lines 14-19). -/
def roundUp (n s : Nat) : Nat := ((n + s - 1) / s) * s

/-- `Frame::from_range` (`memory/frame.rs` lines 32-42). -/
def Frame.fromRange (lo hi node : Nat) : Outcome Frame :=
  if lo % BASE = 0 ∧ hi % BASE = 0 ∧ lo < hi then .ok ⟨lo, hi - lo, node⟩ else .panic

/-- `Frame::new` (`memory/frame.rs` lines 45-54): the assertions are panics. -/
def Frame.new (base size node : Nat) : Outcome Frame :=
  if base % BASE = 0 ∧ size % BASE = 0 then .ok ⟨base, size, node⟩ else .panic

/-- `Frame::empty` (`memory/frame.rs` lines 57-63). -/
def Frame.empty : Frame := ⟨0, 0, 0⟩

/-- `Frame::split_at` (`memory/frame.rs` lines 105-116). -/
def Frame.splitAt (f : Frame) (size : Nat) : Outcome (Frame × Frame) :=
  if size % BASE ≠ 0 then .panic
  else if size ≥ f.size then .ok (f, Frame.empty)
  else
    match Frame.new f.base size f.aff, Frame.new (f.base + size) (f.size - size) f.aff with
    | .ok low, .ok high => .ok (low, high)
    | _, _ => .panic

/-- `Frame::split_at_nearest_large_page_boundary` (`memory/frame.rs` lines 86-95). -/
def Frame.splitAtLargeBoundary (f : Frame) : Outcome (Frame × Frame) :=
  if f.base % LARGE = 0 then .ok (Frame.empty, f)
  else f.splitAt (roundUp f.base LARGE - f.base)

/-- `Frame::base_pages` (`memory/frame.rs` lines 156-158), also `IntoBasePageIter::len`
(lines 189-193). -/
def Frame.basePages (f : Frame) : Nat := f.size / BASE

/-- `Frame::end` (`memory/frame.rs` lines 170-172). -/
def Frame.end (f : Frame) : Nat := f.base + f.size

/-- `IntoBasePageIter::next` (`memory/frame.rs` lines 201-216): the item and the rest. -/
def Frame.next (f : Frame) : Outcome (Option Frame × Frame) :=
  if f.size > BASE then
    match f.splitAt BASE with
    | .ok (low, high) => .ok (some low, high)
    | .err e => .err e
    | .panic => .panic
  else if f.size = BASE then .ok (some f, Frame.empty)
  else .ok (none, f)

/-- Everything the iterator yields, in order.  `fuel` bounds the number of `next` calls; running
out is reported as a panic and the theorems show that it does not happen. -/
def Frame.collect : Nat → Frame → Outcome (List Frame)
  | 0, _ => .panic
  | fuel + 1, f =>
    match f.next with
    | .ok (some p, rest) => (Frame.collect fuel rest).map (p :: ·)
    | .ok (none, _) => .ok []
    | .err e => .err e
    | .panic => .panic

/-- `frame.into_iter()` run to its end (`memory/frame.rs` lines 218-226). -/
def Frame.pages (f : Frame) : Outcome (List Frame) := Frame.collect (f.basePages + 1) f

/-- The addresses of a frame. -/
def Frame.block (f : Frame) : Spec.Block := ⟨f.base, f.size⟩

/-- Page aligned, a whole number of pages (what `new` and `from_range` guarantee). -/
def Frame.Ok (f : Frame) : Prop := f.base % BASE = 0 ∧ f.size % BASE = 0

end NRK.Mem
