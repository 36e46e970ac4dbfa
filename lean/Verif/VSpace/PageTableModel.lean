import Verif.VSpace.RightsModel

/-!
# Model of the x86-64 page table, `kernel/src/arch/x86_64/vspace/page_table.rs`

Tables are trees of functions from indices; the 4 KiB pages that hold lower tables come from an
allocator (C20-C24) and are not shared, so that they are not given addresses.  Running out of memory
for a table is a panic in the code (`alloc_frame` unwraps) and is not modelled.
-/

namespace NRK.VSpace

/-- A leaf entry: the physical address of the page and the flags. -/
structure Leaf where
  pa : Nat
  fl : Flags
deriving DecidableEq, Repr

/-- Table index of a virtual address (`pt_index`, `pd_index`, `pdpt_index`, `pml4_index` of the crate
`x86`): bits 12-20, 21-29, 30-38 and 39-47. -/
def i1 (v : Nat) : Nat := v / 4096 % 512
def i2 (v : Nat) : Nat := v / 2097152 % 512
def i3 (v : Nat) : Nat := v / 1073741824 % 512
def i4 (v : Nat) : Nat := v / 549755813888 % 512

/-- A page table (`PT`): 512 entries. -/
abbrev PT := Nat → Option Leaf

/-- An entry of a page directory: not present, a 2 MiB page (`PS` set) or a page table. -/
inductive PDE where
  | none
  | page (l : Leaf)
  | table (t : PT)

abbrev PD := Nat → PDE

/-- An entry of a page-directory-pointer table. -/
inductive PDPTE where
  | none
  | page (l : Leaf)
  | table (d : PD)

abbrev PDPT := Nat → PDPTE

/-- The root table (`PML4`). -/
abbrev PML4 := Nat → Option PDPT

def PT.empty : PT := fun _ => Option.none
def PD.empty : PD := fun _ => .none
def PDPT.empty : PDPT := fun _ => .none
/-- `PageTable::new` (`page_table.rs` lines 173-182). -/
def PML4.empty : PML4 := fun _ => Option.none

/-- What depends on the build and on memory contents.  `pages4k` is the feature of the same name.
`blank a` says whether the 4 KiB of memory at physical address `a` look like a table without
present entries; the code looks there when it takes a page for a table. -/
structure Env where
  pages4k : Bool
  blank : Nat → Bool

/-- The page size of a level. -/
def Level.size : Level → Nat
  | .pdpt => 1073741824
  | .pd => 2097152
  | .pt => 4096

/-- The leaf that translates an address, with its level. -/
def leaf1 (t : PT) (x : Nat) : Option (Level × Leaf) := (t (i1 x)).map (fun l => (.pt, l))
def leaf2 (d : PD) (x : Nat) : Option (Level × Leaf) :=
  match d (i2 x) with
  | .none => Option.none
  | .page l => some (.pd, l)
  | .table t => leaf1 t x
def leaf3 (d : PDPT) (x : Nat) : Option (Level × Leaf) :=
  match d (i3 x) with
  | .none => Option.none
  | .page l => some (.pdpt, l)
  | .table t => leaf2 t x
def leafAt (t : PML4) (x : Nat) : Option (Level × Leaf) :=
  match t (i4 x) with
  | Option.none => Option.none
  | some d => leaf3 d x

/-- `PageTable::resolve` (`page_table.rs` lines 120-159), also `ReadOnlyPageTable::resolve` (lines
942-980): walk down to a leaf, add the offset in the page. -/
def resolve (t : PML4) (x : Nat) : Outcome (Nat × MapAction) :=
  match leafAt t x with
  | some (lv, l) => .ok (l.pa + x % lv.size, ofFlags lv l.fl)
  | Option.none => .err .notMapped

/-- The loops of `insert_huge_mappings`, `insert_large_mappings` and `insert_base_mappings`
(`page_table.rs` lines 384-423, 465-500, 547-578) with `insert_mapping = true`, the only value that
is passed.  `clash e pa` says that entry `e` is present and is not the mapping wanted (a panic), `mk`
makes the new entry, `n` is the number of entries from `idx` to the end of the table.  Returns the
table and how many bytes were mapped.  The third loop runs while any byte is left; sizes are
multiples of 4 KiB there. -/
def fill {E : Type} (clash : E → Nat → Bool) (mk : Nat → E) (step : Nat) :
    Nat → (Nat → E) → Nat → Nat → Nat → Outcome ((Nat → E) × Nat)
  | 0, t, _, _, _ => .ok (t, 0)
  | n + 1, t, idx, pa, s =>
    if s ≥ step then
      if clash (t idx) pa then .panic
      else
        match fill clash mk step n (upd t idx (mk pa)) (idx + 1) (pa + step) (s - step) with
        | .ok (t', m) => .ok (t', m + step)
        | o => o
    else .ok (t, 0)

/-- A present entry with another address or other rights (`page_table.rs` lines 386-394, 467-475,
549-557).  An entry for a lower table counts as different: its address is that of a table page, which
is never mapped. -/
def clash1 (r : MapAction) (e : Option Leaf) (pa : Nat) : Bool :=
  match e with
  | Option.none => false
  | some l => decide (l.pa ≠ pa) || decide (ofFlags .pt l.fl ≠ r)
def clash2 (r : MapAction) (e : PDE) (pa : Nat) : Bool :=
  match e with
  | .none => false
  | .page l => decide (l.pa ≠ pa) || decide (ofFlags .pd l.fl ≠ r)
  | .table _ => true
def clash3 (r : MapAction) (e : PDPTE) (pa : Nat) : Bool :=
  match e with
  | .none => false
  | .page l => decide (l.pa ≠ pa) || decide (ofFlags .pdpt l.fl ≠ r)
  | .table _ => true

/-- No entry of a table is present (`page_table.rs` lines 281-284 and 347-351). -/
def PT.allEmpty (t : PT) : Bool := (List.range 512).all fun i => (t i).isNone
def PD.allEmpty (t : PD) : Bool :=
  (List.range 512).all fun i => match t i with | .none => true | _ => false

/-- `can_map_as_huge_page` (`page_table.rs` lines 245-295).  An existing 1 GiB page is taken for a
directory: the test reads the memory that is mapped (`blank`), or fails an assertion if that is at
address 0. -/
def canHuge (env : Env) (d : PDPT) (v p s : Nat) : Outcome Bool :=
  if v = i4 v * 549755813888 + i3 v * 1073741824 ∧ p % 1073741824 = 0 ∧ s ≥ 1073741824 then
    match d (i3 v) with
    | .none => .ok true
    | .table t => .ok t.allEmpty
    | .page l => if l.pa = 0 then .panic else .ok (env.blank l.pa)
  else .ok false

/-- `can_map_as_large_page` (`page_table.rs` lines 298-362). -/
def canLarge (env : Env) (d : PD) (v p s : Nat) : Outcome Bool :=
  if env.pages4k then .ok false
  else if v = i4 v * 549755813888 + i3 v * 1073741824 + i2 v * 2097152 ∧ p % 2097152 = 0 ∧
      s ≥ 2097152 then
    match d (i2 v) with
    | .none => .ok true
    | .table t => .ok t.allEmpty
    | .page l => if l.pa = 0 then .panic else .ok (env.blank l.pa)
  else .ok false

/-- The next table down, a new one if there is none (`page_table.rs` lines 654-680, 703-728); an
entry for a page is a panic there. -/
def openPD : PDPTE → Option PD
  | .page _ => Option.none
  | .none => some PD.empty
  | .table d => some d
def openPT : PDE → Option PT
  | .page _ => Option.none
  | .none => some PT.empty
  | .table d => some d

/-- `map_generic` (`page_table.rs` lines 617-732) with the functions it calls mutually recursively
(`insert_*_mappings`, lines 365-603), `insert_mapping = true`.  The first argument bounds the depth
of the recursion; running out of it is reported as a panic, and `mapFrame` starts with enough. -/
def mapGeneric (env : Env) (r : MapAction) : Nat → PML4 → Nat → Nat → Nat → Outcome PML4
  | 0, _, _, _, _ => .panic
  | n + 1, t, v, p, s =>
    if p % 4096 = 0 ∧ v % 4096 = 0 ∧ s % 4096 = 0 then
      let d3 := (t (i4 v)).getD PDPT.empty
      match canHuge env d3 v p s with
      | .ok true =>
        match fill (clash3 r) (fun a => .page ⟨a, leafFlags .pdpt r⟩) 1073741824 (512 - i3 v)
            (upd d3 (i3 v) .none) (i3 v) p s with
        | .ok (d3', m) =>
          let t' := upd t (i4 v) (some d3')
          if m = s then .ok t' else mapGeneric env r n t' (v + m) (p + m) (s - m)
        | .err e => .err e
        | .panic => .panic
      | .ok false =>
        match openPD (d3 (i3 v)) with
        | Option.none => .panic
        | some d2 =>
          match canLarge env d2 v p s with
          | .ok true =>
            match fill (clash2 r) (fun a => .page ⟨a, leafFlags .pd r⟩) 2097152 (512 - i2 v)
                (upd d2 (i2 v) .none) (i2 v) p s with
            | .ok (d2', m) =>
              let t' := upd t (i4 v) (some (upd d3 (i3 v) (.table d2')))
              if m = s then .ok t' else mapGeneric env r n t' (v + m) (p + m) (s - m)
            | .err e => .err e
            | .panic => .panic
          | .ok false =>
            match openPT (d2 (i2 v)) with
            | Option.none => .panic
            | some d1 =>
              match fill (clash1 r) (fun a => some ⟨a, leafFlags .pt r⟩) 4096 (512 - i1 v)
                  d1 (i1 v) p s with
              | .ok (d1', m) =>
                let t' := upd t (i4 v) (some (upd d3 (i3 v) (.table (upd d2 (i2 v) (.table d1')))))
                if m = s then .ok t' else mapGeneric env r n t' (v + m) (p + m) (s - m)
              | .err e => .err e
              | .panic => .panic
          | .err e => .err e
          | .panic => .panic
      | .err e => .err e
      | .panic => .panic
    else .panic

/-- `PageTable::map_frame` (`page_table.rs` lines 88-104), also `map_identity_with_offset` (lines
192-214) for `v = p + offset`.  The debug assertions of lines 90-100 are what `VSpace::map_frame`
checks. -/
def ptMap (env : Env) (t : PML4) (v p s : Nat) (r : MapAction) : Outcome PML4 :=
  mapGeneric env r (s / 4096 + 1) t v p s

/-- `TlbFlushHandle` (`memory/vspace.rs` lines 17-31) without the core set, which is C39's. -/
structure FlushHandle where
  vaddr : Nat
  paddr : Nat
  size : Nat
  flags : MapAction
deriving DecidableEq, Repr

/-- The new entry for a leaf: none to unmap (`Modify::Unmap`), other rights (`UpdateRights`). -/
def newLeaf (act : Option MapAction) (lv : Level) (l : Leaf) : Option Leaf :=
  act.map fun r => ⟨l.pa, leafFlags lv r⟩

/-- `modify_generic` (`page_table.rs` lines 744-820); `act` is `Modify::Unmap` if none. -/
def modifyGeneric (t : PML4) (x : Nat) (act : Option MapAction) : Outcome (PML4 × FlushHandle) :=
  match t (i4 x) with
  | Option.none => .err .notMapped
  | some d3 =>
    match d3 (i3 x) with
    | .none => .err .notMapped
    | .page l =>
      let e := match newLeaf act .pdpt l with
        | some l' => PDPTE.page l'
        | Option.none => PDPTE.none
      .ok (upd t (i4 x) (some (upd d3 (i3 x) e)),
        ⟨x - x % 1073741824, l.pa, 1073741824, ofFlags .pdpt l.fl⟩)
    | .table d2 =>
      match d2 (i2 x) with
      | .none => .err .notMapped
      | .page l =>
        let e := match newLeaf act .pd l with
          | some l' => PDE.page l'
          | Option.none => PDE.none
        .ok (upd t (i4 x) (some (upd d3 (i3 x) (.table (upd d2 (i2 x) e)))),
          ⟨x - x % 2097152, l.pa, 2097152, ofFlags .pd l.fl⟩)
      | .table d1 =>
        match d1 (i1 x) with
        | Option.none => .err .notMapped
        | some l =>
          .ok (upd t (i4 x) (some (upd d3 (i3 x)
              (.table (upd d2 (i2 x) (.table (upd d1 (i1 x) (newLeaf act .pt l))))))),
            ⟨x - x % 4096, l.pa, 4096, ofFlags .pt l.fl⟩)

/-- `PageTable::unmap` (`page_table.rs` lines 161-167). -/
def ptUnmap (t : PML4) (x : Nat) : Outcome (PML4 × FlushHandle) :=
  if x % 4096 ≠ 0 then .err .invalidBase else modifyGeneric t x Option.none

/-- `PageTable::adjust` (`page_table.rs` lines 111-118). -/
def ptAdjust (t : PML4) (x : Nat) (r : MapAction) : Outcome (PML4 × Nat × Nat) :=
  if x % 4096 ≠ 0 then .err .invalidBase
  else (modifyGeneric t x (some r)).map fun q => (q.1, q.2.vaddr, q.2.size)

end NRK.VSpace
