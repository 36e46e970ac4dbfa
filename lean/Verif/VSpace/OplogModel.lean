import Verif.VSpace.VSpaceModel

/-!
# Model of the project's reference address space, `kernel/src/memory/vspace_model.rs`

The project tests its page tables against this list of mappings (`arch/x86_64/vspace/test.rs`).
-/

namespace NRK.VSpace

open NRK.Mem (Frame)

/-- An element of `oplog` (`vspace_model.rs` line 14). -/
structure Ent where
  va : Nat
  pa : Nat
  len : Nat
  rights : MapAction
deriving DecidableEq, Repr

/-- `cur_range.contains` (lines 139, 152 and 171). -/
def Ent.has (e : Ent) (x : Nat) : Bool := decide (e.va ≤ x) && decide (x < e.va + e.len)

/-- `overlaps` of an element and a new range (lines 19-21). -/
def Ent.meets (e : Ent) (base size : Nat) : Bool :=
  decide (e.va < base + size) && decide (base < e.va + e.len)

/-- The elements that may be extended (lines 74-77 and 101-104). -/
def Ent.extends (e : Ent) (base : Nat) (f : Frame) (a : MapAction) : Bool :=
  decide (e.va = base) && decide (e.va + e.len ≤ base + f.size) && decide (e.pa = f.base) &&
    decide (e.rights = a)

/-- The conflicts (lines 69-92).  Of the intersection of two ranges that overlap only the start is used, which
is the greater of the two starts: the loop of lines 32-37 finds the least common element. -/
def conflicts (l : List Ent) (base : Nat) (f : Frame) (a : MapAction) : List Nat :=
  (l.filter fun e => e.meets base f.size && !e.extends base f a).map fun e => max e.va base

/-- The least element (lines 116-119: the list is sorted and its first element is taken). -/
def least : List Nat → Nat
  | [] => 0
  | [x] => x
  | x :: xs => min x (least xs)

/-- The loop of lines 95-112: the first element that may be extended is. -/
def promote (base : Nat) (f : Frame) (a : MapAction) : List Ent → Option (List Ent)
  | [] => none
  | e :: l =>
    if e.meets base f.size && e.extends base f a then some ({ e with len := f.size } :: l)
    else (promote base f a l).map (e :: ·)

/-- `ModelAddressSpace::map_frame` (`vspace_model.rs` lines 54-125). -/
def logMap (l : List Ent) (base : Nat) (f : Frame) (a : MapAction) : List Ent × Outcome Unit :=
  if f.size = 0 then (l, .err .invalidFrame)
  else if f.base % f.size ≠ 0 then (l, .err .invalidFrame)
  else if base % f.size ≠ 0 then (l, .err .invalidBase)
  else
    let c := conflicts l base f a
    if c = [] then
      match promote base f a l with
      | some l' => (l', .ok ())
      | none => (l ++ [⟨base, f.base, f.size, a⟩], .ok ())
    else (l, .err (.alreadyMapped (least c)))

/-- The loop of `adjust` (lines 138-143) over the reversed list. -/
def changeFirst (x : Nat) (r : MapAction) : List Ent → Option (List Ent × Nat × Nat)
  | [] => none
  | e :: l =>
    if e.has x then some ({ e with rights := r } :: l, e.va, e.len)
    else (changeFirst x r l).map fun q => (e :: q.1, q.2)

/-- `ModelAddressSpace::adjust` (`vspace_model.rs` lines 133-146). -/
def logAdjust (l : List Ent) (x : Nat) (r : MapAction) : List Ent × Outcome (Nat × Nat) :=
  if x % 4096 ≠ 0 then (l, .err .invalidBase)
  else
    match changeFirst x r l.reverse with
    | some (l', q) => (l'.reverse, .ok q)
    | none => (l, .err .notMapped)

/-- `ModelAddressSpace::resolve` (`vspace_model.rs` lines 148-161). -/
def logResolve (l : List Ent) (x : Nat) : Outcome (Nat × MapAction) :=
  match l.reverse.find? (fun e => e.has x) with
  | some e => .ok (e.pa + (x - e.va), e.rights)
  | none => .err .notMapped

/-- `ModelAddressSpace::unmap` (`vspace_model.rs` lines 163-184). -/
def logUnmap (l : List Ent) (x : Nat) : List Ent × Outcome FlushHandle :=
  if x % 4096 ≠ 0 then (l, .err .invalidBase)
  else
    match l.filter (fun e => e.has x) with
    | [] => (l, .err .notMapped)
    | [e] => (l.filter (fun e => !e.has x), .ok ⟨e.va, e.pa, e.len, e.rights⟩)
    | _ => (l.filter (fun e => !e.has x), .panic)

/-! ## The operations of the test -/

/-- `TestAction` (`arch/x86_64/vspace/test.rs` lines 19-25). -/
inductive Action where
  | map (base : Nat) (f : Frame) (a : MapAction)
  | adjust (x : Nat) (r : MapAction)
  | resolve (x : Nat)
  | unmap (x : Nat)

/-- A result of an action. -/
inductive Res where
  | map (o : Outcome Unit)
  | adjust (o : Outcome (Nat × Nat))
  | resolve (o : Outcome (Nat × MapAction))
  | unmap (o : Outcome FlushHandle)
deriving DecidableEq

/-- An action on the page tables (`test.rs` lines 101-129). -/
def hwStep (env : Env) (s : VSpace) : Action → VSpace × Res
  | .map base f a => ((mapFrame env false s base f a).1, .map (mapFrame env false s base f a).2)
  | .adjust x r => ((adjust s x r).1, .adjust (adjust s x r).2)
  | .resolve x => (s, .resolve (s.resolve x))
  | .unmap x => ((unmap s x).1, .unmap (unmap s x).2)

/-- The same action on the list. -/
def logStep (l : List Ent) : Action → List Ent × Res
  | .map base f a => ((logMap l base f a).1, .map (logMap l base f a).2)
  | .adjust x r => ((logAdjust l x r).1, .adjust (logAdjust l x r).2)
  | .resolve x => (l, .resolve (logResolve l x))
  | .unmap x => ((logUnmap l x).1, .unmap (logUnmap l x).2)

/-- The results of a sequence of actions. -/
def hwRun (env : Env) : VSpace → List Action → List Res
  | _, [] => []
  | s, o :: os => (hwStep env s o).2 :: hwRun env (hwStep env s o).1 os

def logRun : List Ent → List Action → List Res
  | _, [] => []
  | l, o :: os => (logStep l o).2 :: logRun (logStep l o).1 os

end NRK.VSpace
