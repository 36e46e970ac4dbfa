import Verif.VSpace.DropModel

/-! # What C88 talks about -/

namespace NRK.VSpace

/-- The operation is about addresses below `KERNEL_BASE` (`0x4000_0000_0000`) only. -/
def PtOp.user : PtOp → Prop
  | .map v _ s _ => v < 0x400000000000 ∧ v + s ≤ 0x400000000000
  | .unmap v => v < 0x400000000000
  | .adjust v _ => v < 0x400000000000

/-- The operation maps less than the smallest size for which a page larger than 4 KiB is used: 2 MiB,
or 1 GiB if the kernel is built without 2 MiB pages. -/
def PtOp.small (env : Env) : PtOp → Prop
  | .map _ _ s _ => s < if env.pages4k then 0x40000000 else 0x200000
  | _ => True

/-- The pages the allocator has handed out for tables, when it gives page `pg k` in its `k`-th
answer. -/
def Life.handed (pg : Nat → Nat) (L : Life) : List Nat := (List.range L.n).map pg

/-- The allocator does not hand out a page twice while it is in use. -/
def Distinct (pg : Nat → Nat) : Prop := ∀ a b, pg a = pg b → a = b

/-- Map and unmap a 4 KiB page, then a 2 MiB page, at the same address. -/
def cycle (v p : Nat) (r : MapAction) : List PtOp :=
  [.map v p 0x1000 r, .unmap v, .map v p 0x200000 r, .unmap v]

end NRK.VSpace
