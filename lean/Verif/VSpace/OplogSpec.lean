import Verif.VSpace.OplogModel
import Verif.VSpace.VSpaceLemmas

/-!
# Specification for C81: what the page tables and the list of mappings have to agree on
-/

namespace NRK.VSpace

open NRK.Mem (Frame)

/-- The actions of the property: frames of one base page or one large page, addresses in user space, rights
that a page-table entry can hold (`user`, `kernel`, with or without `write` and `execute`), and `unmap` at
page addresses.  Nothing is said about the alignment of a frame, of a base or of an address to adjust. -/
def Action.Fits : Action → Prop
  | .map base f a => PageSize f.size ∧ base + f.size ≤ userTop ∧ a.present = true ∧ a.notCached = false
  | .adjust x r => x < userTop ∧ r.present = true ∧ r.notCached = false
  | .resolve x => x < userTop
  | .unmap x => x < userTop ∧ x % 4096 = 0

/-- A request that asks for a larger page exactly where a smaller one is mapped, to the same physical address
with the same rights. -/
def Action.Grows (l : List Ent) : Action → Prop
  | .map base f a => ∃ e ∈ l, e.va = base ∧ e.pa = f.base ∧ e.rights = a ∧ e.len < f.size
  | _ => False

/-- No action of the sequence is such a request. -/
def NoGrowth : List Ent → List Action → Prop
  | _, [] => True
  | l, o :: os => ¬ o.Grows l ∧ NoGrowth (logStep l o).1 os

/-- A result without the address that a conflict reports (`test.rs` lines 108-110). -/
def Res.blur : Res → Res
  | .map (.err (.alreadyMapped _)) => .map (.err (.alreadyMapped 0))
  | r => r

/-- The states after a sequence of actions. -/
def hwAfter (env : Env) : VSpace → List Action → VSpace
  | s, [] => s
  | s, o :: os => hwAfter env (hwStep env s o).1 os

def logAfter : List Ent → List Action → List Ent
  | l, [] => l
  | l, o :: os => logAfter (logStep l o).1 os

end NRK.VSpace
