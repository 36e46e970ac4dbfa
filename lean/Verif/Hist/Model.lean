import Verif.Common
import Verif.Hist.Spec
/-!
# Model of the histogram of latencies, `usr/init/src/histogram.rs`

Simplifications:
* The radix is 10 (line 33; nothing sets another one).
* The calculations with `f64` in `get_index` and `index_value` are exact here.  With the default configuration they are
  exact in the code as well: in `get_index` all numbers are integers below `2^46` and the divisor is a power of two; the
  results of `index_value` were compared with those here for all 27024 indices by a script.
* In `percentile` the product of the number of samples and the percentile is a parameter (`Query`).
* The array is a function with a length.  `none` or `panic`: an index is out of bounds, or a sum overflows.
* 32-bit overflow of an index is not modelled.
* `mean`, `stdvar`, `stddev` sum up rounded numbers; they are not modelled.
-/

namespace NRK.Hist

/-- `Config` (lines 19-25) without the radix. -/
structure Config where
  precision : Nat
  maxMemory : Nat
  maxValue : Nat
  deriving DecidableEq, Repr

/-- `Config::default` (lines 27-36). -/
def Config.default : Config := ⟨3, 0, 60000000000⟩

/-- `Histogram` (lines 98-147): configuration, properties, data, counters.  `missed_unknown` is never changed. -/
structure Hist where
  cfg : Config
  inner : Nat
  linMax : Nat
  linPow : Nat
  len : Nat
  data : Nat → Nat
  total : Nat
  large : Nat

/-- `32 - x.leading_zeros()`, `64 - x.leading_zeros()`. -/
def bits (n : Nat) : Nat := if n = 0 then 0 else Nat.log2 n + 1

@[irreducible] def U64MAX : Nat := 2 ^ 64 - 1

/-- `saturating_add` of `u64`. -/
def sat (a b : Nat) : Nat := min (a + b) U64MAX

/-- `Histogram::configured` (lines 302-334).  `none`: the multiplications of `u32` overflow. -/
def configured (c : Config) : Option (Option Hist) :=
  let inner := 10 ^ c.precision
  let linPow := bits inner
  let linMax := 2 ^ linPow
  let maxPow := bits c.maxValue
  let outer := if maxPow > linPow then maxPow - linPow else 0
  let len := inner * outer + linMax
  if 4294967296 ≤ len * 8 then none
  else if c.maxMemory > 0 ∧ c.maxMemory < len * 8 then some none
  else some (some ⟨c, inner, linMax, linPow, len, fun _ => 0, 0, 0⟩)

/-- `clear` (lines 348-354, 120-125). -/
def Hist.clear (h : Hist) : Hist := { h with data := fun _ => 0, total := 0, large := 0 }

/-- `get_index` (lines 487-510). -/
def Hist.getIndex (h : Hist) (v : Nat) : Nat :=
  if v ≤ h.linMax + 2 ^ h.cfg.precision then v
  else
    let outer := Nat.log2 v
    let lPower := Nat.log2 h.linMax
    let remain := v - 2 ^ outer
    let inner := h.inner * remain / 2 ^ outer
    h.linMax + h.inner * (outer - lPower) + inner + 1

/-- `index_value` (lines 513-537). -/
def Hist.indexValue (h : Hist) (i : Nat) : Nat :=
  if i ≤ h.linMax then i
  else
    let logIndex := i - h.linMax
    let outer := logIndex / h.inner
    let inner := logIndex - outer * h.inner
    let base := 2 ^ (outer + h.linPow)
    if base * h.inner + inner * base > h.cfg.maxValue * h.inner then h.cfg.maxValue
    else base + (inner * base + h.inner - 1) / h.inner

/-- The errors (they are strings). -/
inductive Err where
  | tooLarge
  | largeUnderflow
  | underflow
  | overflow
  | noData
  | unknown
  deriving DecidableEq, Repr

/-- What a call answers. -/
inductive Ans where
  | ok
  | err (e : Err)
  deriving DecidableEq, Repr

/-- `increment_by` (lines 387-405); `increment` (367-369) has the count 1. -/
def Hist.incrementBy (h : Hist) (v n : Nat) : Option (Hist × Ans) :=
  let h := { h with total := sat h.total n }
  if v > h.cfg.maxValue then some ({ h with large := sat h.large n }, .err .tooLarge)
  else if h.getIndex v < h.len then
    some ({ h with data := upd h.data (h.getIndex v) (sat (h.data (h.getIndex v)) n) }, .ok)
  else none

/-- `decrement_by` (lines 440-469); `decrement` (420-422) has the count 1. -/
def Hist.decrementBy (h : Hist) (v n : Nat) : Option (Hist × Ans) :=
  if v > h.cfg.maxValue then
    if n ≤ h.large then some ({ h with large := h.large - n, total := h.total - n }, .err .tooLarge)
    else some (h, .err .largeUnderflow)
  else if h.getIndex v < h.len then
    if n ≤ h.data (h.getIndex v) then
      some ({ h with data := upd h.data (h.getIndex v) (h.data (h.getIndex v) - n), total := h.total - n }, .ok)
    else some (h, .err .underflow)
  else none

/-- `get` (lines 479-484). -/
def Hist.get (h : Hist) (v : Nat) : Option Nat := if h.getIndex v < h.len then some (h.data (h.getIndex v)) else none

/-- `buckets_total` (lines 790-792). -/
def Hist.bucketsTotal (h : Hist) : Nat := h.getIndex h.cfg.maxValue + 1

/-- A percentile: whether it is from 0 to 100, whether it is below 50, and `(total as f64 * (percentile / 100.0)).ceil()`
for every total. -/
structure Query where
  valid : Bool
  low : Bool
  need : Nat → Nat

/-- What `percentile` ends with. -/
inductive PRes where
  | ok (v : Nat)
  | err (e : Err)
  | panic
  deriving DecidableEq, Repr

/-- The loop of `percentile` (lines 592-607) with step 1; the first argument is the number of buckets left. -/
def Hist.scanUp (h : Hist) (need : Nat) : Nat → Nat → Nat → PRes
  | 0, _, _ => .err .unknown
  | f + 1, i, got =>
    if i < h.len then
      if U64MAX < got + h.data i then .panic
      else if got + h.data i ≥ need then .ok (h.indexValue i)
      else h.scanUp need f (i + 1) (got + h.data i)
    else .panic

/-- The loop of `percentile` (lines 592-607) with step -1; the first argument is the index plus 1. -/
def Hist.scanDown (h : Hist) (need : Nat) : Nat → Nat → PRes
  | 0, _ => .err .unknown
  | i + 1, got =>
    if i < h.len then
      if U64MAX < got + h.data i then .panic
      else if got + h.data i ≥ need then .ok (h.indexValue i)
      else h.scanDown need i (got + h.data i)
    else .panic

/-- `percentile` (lines 554-610). -/
def Hist.percentile (h : Hist) (q : Query) : PRes :=
  if h.total < 1 then .err .noData
  else if q.valid then
    let need := q.need h.total
    let need := if need > h.total then h.total else need
    let need := h.total - need
    let index := if q.low then 0 else h.bucketsTotal - 1
    let need := if q.low then h.total - need else need
    let got := if q.low then 0 else h.large
    let need := if need = 0 then 1 else need
    if got ≥ need then
      if index = 0 then .err .underflow else .err .overflow
    else if q.low then h.scanUp need h.bucketsTotal 0 got
    else h.scanDown need (index + 1) got
  else .err .unknown

/-- The percentile `100 * a / b`, without rounding. -/
def Query.exact (a b : Nat) : Query := ⟨decide (a ≤ b), decide (2 * a < b), rankOf a b⟩

/-- `minimum` (lines 623-625). -/
def Hist.minimum (h : Hist) : PRes := h.percentile (Query.exact 0 1)

/-- `maximum` (lines 638-640). -/
def Hist.maximum (h : Hist) : PRes := h.percentile (Query.exact 1 1)

/-- The loop of `merge` (lines 760-764) over the buckets of the iterator (lines 227-255): `n` is the number of buckets
done.  The iterator gives the value of every bucket up to that of the greatest value, cut to the greatest value; the
bucket after one that was cut is not given. -/
def mergeLoop (o : Hist) : Nat → Nat → Hist → Option Hist
  | 0, _, h => some h
  | f + 1, i, h =>
    let value := o.indexValue i
    let cut := value > o.cfg.maxValue
    let value := if cut then o.cfg.maxValue else value
    if i < o.len then
      match h.incrementBy value (o.data i) with
      | none => none
      | some r => if cut then some r.1 else mergeLoop o f (i + 1) r.1
    else none

/-- `merge` (lines 760-764). -/
def Hist.merge (h o : Hist) : Option Hist := mergeLoop o (o.getIndex o.cfg.maxValue + 1) 0 h

/-- One operation of a program; its answer is dropped. -/
def Op.run (h : Hist) : Op → Option Hist
  | .inc v n => (h.incrementBy v n).map (·.1)
  | .dec v n => (h.decrementBy v n).map (·.1)
  | .clear => some h.clear

/-- Operations, one after the other. -/
def runs : List Op → Hist → Option Hist
  | [], h => some h
  | o :: os, h => (o.run h).bind (runs os)

end NRK.Hist
