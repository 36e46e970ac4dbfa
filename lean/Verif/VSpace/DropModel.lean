import Verif.VSpace.PageTableModel

/-!
# Model of the table pages of an address space: `kernel/src/arch/x86_64/vspace/page_table.rs`

The page table once more, now with the page of memory each table lives in, so that one can say which
pages are taken from the allocator while an address space is used and which are given back when it
is dropped.  The decisions (`canHuge`, `canLarge`, the clash tests, the loops) are those of
`PageTableModel.lean`; `c88_same_map` says that forgetting the pages gives that model.
-/

namespace NRK.VSpace

/-- An entry of a page directory; a table comes with the address of its page. -/
inductive APDE where
  | none
  | page (l : Leaf)
  | table (a : Nat) (t : PT)

abbrev APD := Nat → APDE

/-- An entry of a page-directory-pointer table. -/
inductive APDPTE where
  | none
  | page (l : Leaf)
  | table (a : Nat) (d : APD)

abbrev APDPT := Nat → APDPTE

/-- The root table. -/
abbrev APML4 := Nat → Option (Nat × APDPT)

def APD.empty : APD := fun _ => .none
def APDPT.empty : APDPT := fun _ => .none

/-- Forget where the tables are. -/
def APDE.erase : APDE → PDE
  | .none => .none
  | .page l => .page l
  | .table _ t => .table t
def APD.erase (d : APD) : PD := fun i => (d i).erase
def APDPTE.erase : APDPTE → PDPTE
  | .none => .none
  | .page l => .page l
  | .table _ d => .table d.erase
def APDPT.erase (d : APDPT) : PDPT := fun i => (d i).erase
def APML4.erase (t : APML4) : PML4 := fun i => (t i).map fun q => q.2.erase

/-- A page table in use (`struct PageTable`, `page_table.rs` lines 33-37).  `n` counts the pages
taken with `alloc_frame`; `lost` lists pages of tables that were taken out of the tree.  Both are
there to state properties, no decision looks at them. -/
structure Life where
  root : APML4
  n : Nat
  lost : List Nat

/-- The table of an address at each level. -/
def Life.get3 (L : Life) (v : Nat) : APDPT :=
  match L.root (i4 v) with
  | some (_, d) => d
  | Option.none => APDPT.empty
def Life.get2 (L : Life) (v : Nat) : APD :=
  match L.get3 v (i3 v) with
  | .table _ d => d
  | _ => APD.empty
def Life.get1 (L : Life) (v : Nat) : PT :=
  match L.get2 v (i2 v) with
  | .table _ d => d
  | _ => PT.empty

/-- Change the entries of the table of an address, at each level; the table stays where it is. -/
def Life.set3 (L : Life) (v : Nat) (d : APDPT) : Life :=
  match L.root (i4 v) with
  | some (a, _) => { L with root := upd L.root (i4 v) (some (a, d)) }
  | Option.none => L
def Life.set2 (L : Life) (v : Nat) (d : APD) : Life :=
  match L.get3 v (i3 v) with
  | .table a _ => L.set3 v (upd (L.get3 v) (i3 v) (.table a d))
  | _ => L
def Life.set1 (L : Life) (v : Nat) (d : PT) : Life :=
  match L.get2 v (i2 v) with
  | .table a _ => L.set2 v (upd (L.get2 v) (i2 v) (.table a d))
  | _ => L

/-- `get_or_alloc_pdpt` (`page_table.rs` lines 230-242), `new_pdpt` (lines 850-854) and
`alloc_frame` (lines 822-838): the `n`-th page the allocator gives is `pg n`. -/
def Life.need3 (pg : Nat → Nat) (L : Life) (v : Nat) : Life :=
  match L.root (i4 v) with
  | some _ => L
  | Option.none =>
    { L with root := upd L.root (i4 v) (some (pg L.n, APDPT.empty)), n := L.n + 1 }

/-- The directory of an address, a new one if there is none (`page_table.rs` lines 654-680 and
`new_pd`, lines 846-849). -/
def Life.need2 (pg : Nat → Nat) (L : Life) (v : Nat) : Option Life :=
  match L.get3 v (i3 v) with
  | .page _ => Option.none
  | .none => some { L.set3 v (upd (L.get3 v) (i3 v) (.table (pg L.n) APD.empty)) with n := L.n + 1 }
  | .table _ _ => some L

/-- The lowest table of an address, a new one if there is none (`page_table.rs` lines 703-728 and
`new_pt`, lines 840-844). -/
def Life.need1 (pg : Nat → Nat) (L : Life) (v : Nat) : Option Life :=
  match L.get2 v (i2 v) with
  | .page _ => Option.none
  | .none => some { L.set2 v (upd (L.get2 v) (i2 v) (.table (pg L.n) PT.empty)) with n := L.n + 1 }
  | .table _ _ => some L

/-- The end of `can_map_as_huge_page` (`page_table.rs` lines 286-291): the entry is overwritten; the
page of the directory is not given back (line 288 is a comment). -/
def Life.clear3 (L : Life) (v : Nat) : Life :=
  let L' := L.set3 v (upd (L.get3 v) (i3 v) .none)
  match L.get3 v (i3 v) with
  | .table a _ => { L' with lost := a :: L.lost }
  | _ => L'

/-- The end of `can_map_as_large_page` (`page_table.rs` lines 353-358), likewise. -/
def Life.clear2 (L : Life) (v : Nat) : Life :=
  let L' := L.set2 v (upd (L.get2 v) (i2 v) .none)
  match L.get2 v (i2 v) with
  | .table a _ => { L' with lost := a :: L.lost }
  | _ => L'

/-- One round of `map_generic` (`page_table.rs` lines 617-732): fill one table, return how many bytes
were mapped. -/
def amapStep (env : Env) (pg : Nat → Nat) (r : MapAction) (L0 : Life) (v p s : Nat) :
    Outcome (Life × Nat) :=
  if p % 4096 = 0 ∧ v % 4096 = 0 ∧ s % 4096 = 0 then
    let L := L0.need3 pg v
    match canHuge env (L.get3 v).erase v p s with
    | .ok true =>
      let L1 := L.clear3 v
      (fill (fun e => clash3 r e.erase) (fun a => .page ⟨a, leafFlags .pdpt r⟩) 1073741824
        (512 - i3 v) (L1.get3 v) (i3 v) p s).map fun q => (L1.set3 v q.1, q.2)
    | .ok false =>
      match L.need2 pg v with
      | Option.none => .panic
      | some L2 =>
        match canLarge env (L2.get2 v).erase v p s with
        | .ok true =>
          let L3 := L2.clear2 v
          (fill (fun e => clash2 r e.erase) (fun a => .page ⟨a, leafFlags .pd r⟩) 2097152
            (512 - i2 v) (L3.get2 v) (i2 v) p s).map fun q => (L3.set2 v q.1, q.2)
        | .ok false =>
          match L2.need1 pg v with
          | Option.none => .panic
          | some L3 =>
            (fill (clash1 r) (fun a => some ⟨a, leafFlags .pt r⟩) 4096 (512 - i1 v)
              (L3.get1 v) (i1 v) p s).map fun q => (L3.set1 v q.1, q.2)
        | .err e => .err e
        | .panic => .panic
    | .err e => .err e
    | .panic => .panic
  else .panic

/-- `map_generic` (`page_table.rs` lines 617-732), like `mapGeneric`, with the pages of tables. -/
def amapGeneric (env : Env) (pg : Nat → Nat) (r : MapAction) :
    Nat → Life → Nat → Nat → Nat → Outcome Life
  | 0, _, _, _, _ => .panic
  | n + 1, L, v, p, s =>
    match amapStep env pg r L v p s with
    | .ok (L', m) =>
      if m = s then .ok L' else amapGeneric env pg r n L' (v + m) (p + m) (s - m)
    | .err e => .err e
    | .panic => .panic

/-- `modify_generic` (`page_table.rs` lines 744-820), like `modifyGeneric` without its answer. -/
def amodify (L : Life) (x : Nat) (act : Option MapAction) : Outcome Life :=
  match L.root (i4 x) with
  | Option.none => .err .notMapped
  | some (_, d3) =>
    match d3 (i3 x) with
    | .none => .err .notMapped
    | .page l =>
      .ok (L.set3 x (upd d3 (i3 x) (match newLeaf act .pdpt l with
        | some l' => .page l'
        | Option.none => .none)))
    | .table _ d2 =>
      match d2 (i2 x) with
      | .none => .err .notMapped
      | .page l =>
        .ok (L.set2 x (upd d2 (i2 x) (match newLeaf act .pd l with
          | some l' => .page l'
          | Option.none => .none)))
      | .table _ d1 =>
        match d1 (i1 x) with
        | Option.none => .err .notMapped
        | some l => .ok (L.set1 x (upd d1 (i1 x) (newLeaf act .pt l)))

/-- What is done to a page table: `map_frame`, `unmap`, `adjust` (`page_table.rs` lines 88-118 and
161-167). -/
inductive PtOp where
  | map (v p s : Nat) (r : MapAction)
  | unmap (v : Nat)
  | adjust (v : Nat) (r : MapAction)
deriving DecidableEq, Repr

def Life.op (env : Env) (pg : Nat → Nat) (L : Life) : PtOp → Outcome Life
  | .map v p s r => amapGeneric env pg r (s / 4096 + 1) L v p s
  | .unmap v => if v % 4096 ≠ 0 then .err .invalidBase else amodify L v Option.none
  | .adjust v r => if v % 4096 ≠ 0 then .err .invalidBase else amodify L v (some r)

/-- A history: an operation that returns an error changes nothing, a panic ends it. -/
def Life.run (env : Env) (pg : Nat → Nat) (L : Life) : List PtOp → Outcome Life
  | [] => .ok L
  | o :: os =>
    match L.op env pg o with
    | .ok L' => L'.run env pg os
    | .err _ => L.run env pg os
    | .panic => .panic

/-- `PageTable::new` (`page_table.rs` lines 173-182), then the slots of the kernel are copied from
the kernel's own table (`arch/x86_64/process.rs` lines 1376-1386).  Slot 511 is copied too here, it
is empty. -/
def Life.new (kernel : APML4) : Life :=
  ⟨fun i => if i < 128 then Option.none else kernel i, 0, []⟩

/-- `drop` (`page_table.rs` lines 39-86): the pages given back, in that order.  128 is
`pml4_index(KERNEL_BASE)`. -/
def freed1 (d : APD) : List Nat :=
  (List.range 512).flatMap fun k =>
    match d k with
    | .table a _ => [a]
    | _ => []
def freed2 (d : APDPT) : List Nat :=
  (List.range 512).flatMap fun j =>
    match d j with
    | .table a d2 => freed1 d2 ++ [a]
    | _ => []
def Life.freed (L : Life) : List Nat :=
  (List.range 512).flatMap fun i =>
    if i < 128 then
      match L.root i with
      | some (a, d) => freed2 d ++ [a]
      | Option.none => []
    else []

end NRK.VSpace
