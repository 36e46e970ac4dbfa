import Verif.Rump.HostModel
import Verif.UHeap.UHeapProps

/-!
# C97: memory, random numbers, time and parameters for a rump kernel
-/

namespace NRK.Rump

open NRK.UHeap (UHeap Env UObj Run Fair CfgOk Mapped Same owned)
open NRK.Heap (HCfg)
open Spec

/-! ## Memory -/

/-- The alignment a rump kernel gets. -/
def alignOf (alignment : Nat) : Nat := if alignment = 0 then 16 else alignment

/-- **C97.** Memory that `rumpuser_malloc` gives out: the object is aligned (to 16 bytes if no alignment was asked for), all of
it is mapped, it shares no byte with another object of the program, and no byte of another object has changed. -/
theorem c97_malloc {k : HCfg} {n : Nat} (hk : CfgOk k) (hn : 0 < n) {h h' : UHeap} {objs : List UObj} (r : Run k n h objs)
    {c len alignment code p : Nat} {e : Env} (fr : Fair h c len (alignOf alignment) e)
    (hm : malloc k n h c len alignment e = (.ok (code, some p), h')) :
    code = 0 ∧ p ≠ 0 ∧ p % alignOf alignment = 0 ∧ (∀ a, p ≤ a → a < p + len → Mapped h' a) ∧
    (∀ o ∈ objs, ∀ a, p ≤ a → a < p + len → ¬ (o.ptr ≤ a ∧ a < o.ptr + o.size)) ∧
    Same h.mem h'.mem (owned h objs) ∧
    Run k n h' (⟨c, p, len, alignOf alignment⟩ :: objs) := by
  unfold malloc at hm
  split at hm
  · cases hm
  · have ha : h.alloc k n c len (alignOf alignment) e = (.ok (some p), h') ∧ code = 0 := by
      unfold alignOf
      simp only at hm
      split at hm
      · rename_i heq; cases hm; exact ⟨heq, rfl⟩
      · cases hm
      · cases hm
    obtain ⟨ha, rfl⟩ := ha
    have r' := Run.alloc r fr ha
    obtain ⟨h1, h2⟩ := NRK.UHeap.c77_aligned hk hn r' (o := ⟨c, p, len, alignOf alignment⟩) List.mem_cons_self
    refine ⟨rfl, by exact Nat.pos_iff_ne_zero.1 h2, h1, fun a h3 h4 => ?_, fun o ho a h3 h4 h5 => ?_,
      NRK.UHeap.c77_alloc_keeps hk hn r fr ha, r'⟩
    · exact NRK.UHeap.c77_mapped hk hn r' (b := ⟨p, len⟩) (List.mem_append_right _ List.mem_cons_self) ⟨h3, h4⟩
    · have hd := NRK.UHeap.c77_disjoint hk hn r'
      have hd := (List.pairwise_append.1 hd).2.1
      rw [List.map_cons, List.pairwise_cons] at hd
      exact hd.1 _ (List.mem_map_of_mem ho) a ⟨⟨h3, h4⟩, h5⟩

/-- **C97.** `rumpuser_free` works for every object, whatever its alignment, and changes no byte of another. -/
theorem c97_free {k : HCfg} {n : Nat} (hk : CfgOk k) (hn : 0 < n) {h : UHeap} {objs : List UObj} (r : Run k n h objs)
    {o : UObj} {e : Env} (ho : o ∈ objs) :
    ∃ h', free k h o.core o.ptr o.size e = (.ok (), h') ∧ Same h.mem h'.mem (owned h (objs.erase o)) ∧
      Run k n h' (objs.erase o) := by
  obtain ⟨h1, h2⟩ := NRK.UHeap.c77_free hk hn r (e := e) ho
  have h3 : h.dealloc k o.core o.ptr o.size e = (.ok (), (h.dealloc k o.core o.ptr o.size e).2) := by rw [← h1]
  exact ⟨_, h3, h2, .dealloc r ho h3⟩

/-- Finding. When there is no memory, `rumpuser_malloc` still reports success, and the pointer is null. -/
theorem c97_no_memory {k : HCfg} {n : Nat} {h h' : UHeap} {c len alignment : Nat} {e : Env}
    (hl : alignment ≤ len) (ha : h.alloc k n c len (alignOf alignment) e = (.ok none, h')) :
    malloc k n h c len alignment e = (.ok (0, none), h') := by
  unfold malloc
  rw [if_neg (Nat.not_lt.2 hl)]
  unfold alignOf at ha
  simp only [ha]

/-- Finding. An object smaller than its alignment: the program ends with a panic. -/
theorem c97_small (k : HCfg) (n : Nat) (h : UHeap) (c len alignment : Nat) (e : Env) (hl : len < alignment) :
    malloc k n h c len alignment e = (.panic, h) := by
  unfold malloc
  rw [if_pos hl]

/-! ## Random numbers -/

/-- The low byte of a number from `rdrand`. -/
def low (r : BitVec 16) : UInt8 := UInt8.ofNat (r.toNat % 256)

theorem randomLoop_spec (draw : Nat → Option (BitVec 16)) : ∀ rest i done, done.length = i →
    (∃ bs : List UInt8, bs.length = rest.length ∧
        (∀ j b, bs[j]? = some b → ∃ r, draw (i + j) = some r ∧ b = low r) ∧
        randomLoop draw rest i done = ⟨0, i + rest.length, done ++ bs⟩) ∨
    (∃ m, m < rest.length ∧ draw (i + m) = none ∧ ∃ bs : List UInt8, bs.length = m ∧
        (∀ j b, bs[j]? = some b → ∃ r, draw (i + j) = some r ∧ b = low r) ∧
        randomLoop draw rest i done = ⟨1, i + m - 1, done ++ bs ++ rest.drop m⟩) := by
  intro rest
  induction rest with
  | nil => intro i done _; exact .inl ⟨[], rfl, fun j b h => by simp at h, by simp [randomLoop]⟩
  | cons b rest ih =>
    intro i done hd
    cases hr : draw i with
    | none =>
      refine .inr ⟨0, Nat.zero_lt_succ _, hr, [], rfl, fun j b h => by simp at h, ?_⟩
      simp [randomLoop, hr]
    | some r =>
      have hl : UInt8.ofNat r.toNat = low r := by
        unfold low
        apply UInt8.toNat_inj.1
        simp
      have hcons : ∀ bs : List UInt8, (∀ j b, bs[j]? = some b → ∃ r, draw (i + 1 + j) = some r ∧ b = low r) →
          ∀ j b, (low r :: bs)[j]? = some b → ∃ r, draw (i + j) = some r ∧ b = low r := by
        intro bs h j b hj
        cases j with
        | zero => cases hj; exact ⟨r, hr, rfl⟩
        | succ j => have := h j b hj; rwa [show i + 1 + j = i + (j + 1) by omega] at this
      rcases ih (i + 1) (done ++ [low r]) (by simp [hd]) with ⟨bs, h1, h2, h3⟩ | ⟨m, h0, hn, bs, h1, h2, h3⟩
      · refine .inl ⟨low r :: bs, by simp [h1], hcons bs h2, ?_⟩
        simp only [randomLoop, hr, hl, h3]
        simp only [List.length_cons, List.append_assoc, List.singleton_append]
        congr 1
        omega
      · refine .inr ⟨m + 1, by simp; omega, by rw [← hn]; congr 1; omega, low r :: bs, by simp [h1], hcons bs h2, ?_⟩
        simp only [randomLoop, hr, hl, h3]
        simp only [List.append_assoc, List.singleton_append, List.drop_succ_cons, List.cons_append]
        congr 1
        omega

/-- **C97.** `rumpuser_getrandom`: if it succeeds, every byte of the buffer is the low byte of a number of its own from the
processor, and the whole buffer is reported.  If not, the processor had no number when byte `m` was to be filled; the bytes
before are such bytes, the others are as before, and no more bytes are reported than were written. -/
theorem c97_random_partial (draw : Nat → Option (BitVec 16)) (buf : List UInt8) :
    let r := getrandom draw buf
    r.buf.length = buf.length ∧
    ((r.code = 0 ∧ r.ret = buf.length ∧ ∀ i b, r.buf[i]? = some b → ∃ x, draw i = some x ∧ b = low x) ∨
     (r.code = 1 ∧ ∃ m, m < buf.length ∧ draw m = none ∧ r.ret = m - 1 ∧ r.ret ≤ m ∧
        (∀ i b, i < m → r.buf[i]? = some b → ∃ x, draw i = some x ∧ b = low x) ∧
        ∀ i, m ≤ i → r.buf[i]? = buf[i]?)) := by
  intro r
  rcases randomLoop_spec draw buf 0 [] rfl with ⟨bs, h1, h2, h3⟩ | ⟨m, h0, hn, bs, h1, h2, h3⟩
  · have hr : r = ⟨0, 0 + buf.length, [] ++ bs⟩ := h3
    rw [hr]
    refine ⟨by simpa using h1, .inl ⟨rfl, by simp, fun i b hb => ?_⟩⟩
    have := h2 i b (by simpa using hb)
    rwa [Nat.zero_add] at this
  · have hr : r = ⟨1, 0 + m - 1, [] ++ bs ++ buf.drop m⟩ := h3
    rw [hr]
    rw [Nat.zero_add] at hn
    refine ⟨by simp [h1]; omega, .inr ⟨rfl, m, h0, hn, by simp, by simp, fun i b hi hb => ?_, fun i hi => ?_⟩⟩
    · have hb' : bs[i]? = some b := by
        rw [← hb]
        show bs[i]? = ([] ++ bs ++ buf.drop m)[i]?
        rw [List.nil_append, List.getElem?_append_left (by omega)]
      have := h2 i b hb'
      rwa [Nat.zero_add] at this
    · show ([] ++ bs ++ buf.drop m)[i]? = _
      rw [List.nil_append, List.getElem?_append_right (by omega), List.getElem?_drop, h1]
      congr 1
      omega

/-- Finding. When the processor runs out of numbers the report is one byte short: one byte was written, none is reported. -/
theorem c97_random_short :
    getrandom (fun i => if i = 0 then some 0x1234 else none) [0, 0] = ⟨1, 0, [0x34, 0]⟩ := by decide

/-! ## Time -/

theorem NS_eq : NS = 1000000000 := by unfold NS; rfl

/-- Seconds and nanoseconds as one number. -/
def nanos (t : Int × Nat) : Int := t.1 * 1000000000 + t.2

theorem asI64_small {n : Nat} (h : n < 2 ^ 63) : asI64 n = n := by
  unfold asI64
  rw [BitVec.toInt_eq_toNat_of_lt] <;> simp only [BitVec.toNat_ofNat] <;> omega

theorem nanos_of {w n : Nat} (h : w + n / NS < 2 ^ 63) :
    nanos (asI64 (w + n / NS), n % NS) = w * 1000000000 + n ∧ n % NS < 1000000000 := by
  unfold nanos
  simp only
  rw [asI64_small h, NS_eq]
  omega

/-- **C97.** The monotonic clock shows the time since boot, the wall clock the Unix time at boot and the time since then, both
to the nanosecond; other clocks are an error. -/
theorem c97_clock (c : Clock) (hw : c.wall + c.since < 2 ^ 63) :
    (∃ t, gettime c 1 = (0, some t) ∧ nanos t = c.since ∧ t.2 < 1000000000) ∧
    (∃ t, gettime c 0 = (0, some t) ∧ nanos t = c.wall * 1000000000 + c.since ∧ t.2 < 1000000000) ∧
    ∀ w, 1 < w → gettime c w = (1, none) := by
  have hd : c.since / NS ≤ c.since := Nat.div_le_self _ _
  obtain ⟨a1, a2⟩ := nanos_of (w := 0) (n := c.since) (by omega)
  obtain ⟨b1, b2⟩ := nanos_of (w := c.wall) (n := c.since) (by omega)
  rw [Nat.zero_add] at a1
  refine ⟨⟨_, rfl, by rw [a1]; omega, a2⟩, ⟨_, rfl, b1, b2⟩, fun w hw => ?_⟩
  match w, hw with
  | w + 2, _ => rfl

/-- **C97.** Both clocks never go back. -/
theorem c97_monotonic (c : Clock) (d w : Nat) (hw : c.wall + (c.since + d) < 2 ^ 63) (t t' : Int × Nat)
    (h : gettime c w = (0, some t)) (h' : gettime { c with now := c.now + d } w = (0, some t')) :
    nanos t ≤ nanos t' := by
  have e : Clock.since { c with now := c.now + d } ≤ c.since + d := by unfold Clock.since; show c.now + d - c.boot ≤ _; omega
  have e' : c.since ≤ Clock.since { c with now := c.now + d } := by unfold Clock.since; show _ ≤ c.now + d - c.boot; omega
  have hw' : Clock.wall { c with now := c.now + d } = c.wall := rfl
  obtain ⟨⟨a, a1, a2, -⟩, ⟨b, b1, b2, -⟩, b3⟩ := c97_clock c (by omega)
  obtain ⟨⟨a', a1', a2', -⟩, ⟨b', b1', b2', -⟩, -⟩ := c97_clock { c with now := c.now + d } (by rw [hw']; omega)
  rw [hw'] at b2'
  match w with
  | 0 =>
    rw [h] at b1; rw [h'] at b1'
    cases b1; cases b1'
    rw [b2, b2']
    omega
  | 1 =>
    rw [h] at a1; rw [h'] at a1'
    cases a1; cases a1'
    rw [a2, a2']
    omega
  | w + 2 => rw [b3 _ (by omega)] at h; cases h

/-- **C97.** A sleep by the wall clock lasts as long as asked for; a sleep by an unknown clock is an error and does not last. -/
theorem c97_sleep (c : Clock) (sec ns : Nat) :
    clockSleep c 0 sec ns = .ok (1000000000 * sec + ns, 0) ∧ ∀ w, 1 < w → clockSleep c w sec ns = .ok (0, 22) := by
  rw [← NS_eq]
  refine ⟨rfl, fun w hw => ?_⟩
  match w, hw with
  | w + 2, _ => rfl

theorem sleep_until {c : Clock} {sec ns N : Nat} (hb : c.boot = 0) (hN : NS * sec + ns = N) (hn : c.now ≤ N)
    (hs : N < 2 ^ 63) : ∃ d t, clockSleep c 1 sec ns = .ok (d, 0) ∧
      gettime { c with now := c.now + d } 1 = (0, some t) ∧ nanos t = N := by
  have e : Clock.since { c with now := c.now + (N - c.now) } = N := by
    clear hN
    unfold Clock.since; simp only; omega
  have hd : N / NS ≤ N := Nat.div_le_self _ _
  have hs' : 0 + N / NS < 2 ^ 63 := by rw [Nat.zero_add]; exact Nat.lt_of_le_of_lt hd hs
  obtain ⟨a1, -⟩ := nanos_of (w := 0) (n := N) hs'
  rw [Nat.zero_add] at a1
  refine ⟨N - c.now, _, ?_, rfl, ?_⟩
  · show (if NS * sec + ns < c.now then _ else _) = _
    rw [hN, if_neg (Nat.not_lt.2 hn)]
  · rw [e, a1]
    simp

/-- **C97.** A sleep until a time of the monotonic clock: if the counter was 0 at boot, and the time has not passed, the clock
shows exactly that time when the sleep ends.  Partial: other values of the counter at boot (`c97_sleep_early`), and times
that have passed (`c97_sleep_past`). -/
theorem c97_sleep_until_partial (c : Clock) (sec ns : Nat) (hb : c.boot = 0) (hn : c.now ≤ 1000000000 * sec + ns)
    (hs : 1000000000 * sec + ns < 2 ^ 63) :
    ∃ d t, clockSleep c 1 sec ns = .ok (d, 0) ∧ gettime { c with now := c.now + d } 1 = (0, some t) ∧
      nanos t = 1000000000 * sec + ns := by
  have hN : NS * sec + ns = 1000000000 * sec + ns := by rw [NS_eq]
  obtain ⟨d, t, h1, h2, h3⟩ := sleep_until hb hN hn hs
  refine ⟨d, t, h1, h2, ?_⟩
  generalize nanos t = z at h3 ⊢
  omega

/-- Finding. If the counter was not 0 at boot, the sleep ends too early, by exactly that time. -/
theorem c97_sleep_early (c : Clock) (sec ns d code : Nat) (hb : c.boot ≤ c.now)
    (h : clockSleep c 1 sec ns = .ok (d, code)) :
    Clock.since { c with now := c.now + d } + c.boot = 1000000000 * sec + ns := by
  rw [← NS_eq]
  change (if NS * sec + ns < c.now then Outcome.panic else .ok (NS * sec + ns - c.now, 0)) = _ at h
  split at h
  · cases h
  · cases h
    unfold Clock.since
    simp only
    omega

/-- Finding. If the counter is past the time, the program ends with a panic; rump kernels expect to go on at once.  With a
counter that was not 0 at boot that happens for times that the clock has not even reached. -/
theorem c97_sleep_past (c : Clock) (sec ns : Nat) (h : 1000000000 * sec + ns < c.now) :
    clockSleep c 1 sec ns = .panic := by
  rw [← NS_eq] at h
  show (if NS * sec + ns < c.now then _ else _) = _
  rw [if_pos h]

/-! ## Parameters -/

theorem value_append (t : List UInt8) (b : UInt8) : value (t ++ [b]) = 10 * value t + (b.toNat - 48) := by
  simp [value, List.foldl_append]

theorem digit_toNat {n : Nat} (h : n < 10) : (UInt8.ofNat (48 + n)).toNat = 48 + n := by
  rw [UInt8.toNat_ofNat']; omega

theorem format_spec : ∀ f n, n < 10 ^ f → 0 < f → Decimal (format f n) n
  | 0, _, _, h => absurd h (by omega)
  | f + 1, n, hn, _ => by
    unfold format
    split
    · rename_i h
      refine ⟨fun b hb => ?_, by simp, ?_, fun u hu => ?_⟩
      · cases List.mem_singleton.1 hb
        unfold Digit
        rw [digit_toNat h]
        omega
      · simp only [value, List.foldl_cons, List.foldl_nil]
        rw [digit_toNat h]
        omega
      · exact (List.cons.inj hu).2.symm
    · rename_i h
      have hm : n % 10 < 10 := Nat.mod_lt _ (by decide)
      have hf : 0 < f := by
        rcases Nat.eq_zero_or_pos f with rfl | h0
        · simp at hn; omega
        · exact h0
      have hp : n / 10 < 10 ^ f := by
        rw [Nat.pow_succ] at hn
        exact Nat.div_lt_of_lt_mul (by omega)
      have ih := format_spec f (n / 10) hp hf
      refine ⟨fun b hb => ?_, by simp, ?_, fun u hu => ?_⟩
      · rcases List.mem_append.1 hb with hb | hb
        · exact ih.digits b hb
        · cases List.mem_singleton.1 hb
          unfold Digit
          rw [digit_toNat hm]
          omega
      · rw [value_append, ih.val, digit_toNat hm]
        omega
      · -- no zero in front: the number in front is not 0
        exfalso
        cases ht : format f (n / 10) with
        | nil => exact ih.some_ ht
        | cons x t =>
          rw [ht] at hu
          have hx : x = 48 := (List.cons.inj hu).1
          subst hx
          have := ih.short t ht
          subst this
          have := ih.val
          rw [ht] at this
          simp [value] at this
          omega

/-- The step of `parseUsize`. -/
def pstep (a : Nat) (b : UInt8) : Option Nat :=
  if 48 ≤ b.toNat ∧ b.toNat ≤ 57 then
    if a * 10 + (b.toNat - 48) < 2 ^ 64 then some (a * 10 + (b.toNat - 48)) else none
  else none

theorem foldl_mono (ds : List UInt8) : ∀ a, a ≤ ds.foldl (fun a (b : UInt8) => 10 * a + (b.toNat - 48)) a := by
  induction ds with
  | nil => intro a; exact Nat.le_refl _
  | cons b ds ih => intro a; exact Nat.le_trans (by omega) (ih (10 * a + (b.toNat - 48)))

theorem pfold (ds : List UInt8) : ∀ a n, ds.foldlM pstep a = some n ↔
    (∀ b ∈ ds, Digit b) ∧ ds.foldl (fun a (b : UInt8) => 10 * a + (b.toNat - 48)) a = n ∧ (n < 2 ^ 64 ∨ ds = []) := by
  induction ds with
  | nil => intro a n; simp
  | cons b ds ih =>
    intro a n
    rw [List.foldlM_cons]
    by_cases hd : Digit b
    · by_cases hv : a * 10 + (b.toNat - 48) < 2 ^ 64
      · have e : pstep a b = some (a * 10 + (b.toNat - 48)) := by
          unfold pstep; unfold Digit at hd; rw [if_pos hd, if_pos hv]
        rw [e]
        show ds.foldlM pstep _ = some n ↔ _
        rw [ih, Nat.mul_comm a 10]
        simp only [List.mem_cons, forall_eq_or_imp, hd, true_and, List.foldl_cons, reduceCtorEq, or_false]
        constructor
        · rintro ⟨h1, h2, h3⟩
          refine ⟨h1, h2, ?_⟩
          rcases h3 with h3 | rfl
          · exact h3
          · rw [← h2]; show 10 * a + _ < _; omega
        · rintro ⟨h1, h2, h3⟩; exact ⟨h1, h2, .inl h3⟩
      · have e : pstep a b = none := by unfold pstep; unfold Digit at hd; rw [if_pos hd, if_neg hv]
        rw [e]
        show none = some n ↔ _
        refine ⟨(fun h => by cases h), fun ⟨_, h2, h3⟩ => ?_⟩
        have := foldl_mono ds (10 * a + (b.toNat - 48))
        rw [List.foldl_cons] at h2
        rcases h3 with h3 | h3
        · omega
        · cases h3
    · have e : pstep a b = none := by unfold pstep; unfold Digit at hd; rw [if_neg hd]
      rw [e]
      show none = some n ↔ _
      exact ⟨(fun h => by cases h), fun ⟨h1, _⟩ => absurd (h1 b List.mem_cons_self) hd⟩

theorem parse_iff (s : List UInt8) (n : Nat) : parseUsize s = some n ↔ Number s n := by
  have key : ∀ ds : List UInt8, (if ds = [] then none else ds.foldlM pstep 0) = some n ↔
      ds ≠ [] ∧ (∀ b ∈ ds, Digit b) ∧ value ds = n ∧ n < 2 ^ 64 := by
    intro ds
    by_cases h : ds = []
    · rw [if_pos h]; simp [h]
    · rw [if_neg h, pfold]; simp [h, value]
  have hplus : ¬ Digit 43 := by unfold Digit; decide
  unfold parseUsize
  show (if _ then _ else List.foldlM pstep 0 _) = _ ↔ _
  split
  · rename_i t
    rw [key]
    constructor
    · intro h; exact ⟨t, .inr rfl, h⟩
    · rintro ⟨ds, h1 | h1, h2⟩
      · subst h1; exact absurd (h2.2.1 43 List.mem_cons_self) hplus
      · cases h1; exact h2
  · rename_i hne
    rw [key]
    constructor
    · intro h; exact ⟨s, .inl rfl, h⟩
    · rintro ⟨ds, h1 | h1, h2⟩
      · subst h1; exact h2
      · exact absurd h1 (hne ds)

theorem cpus_spec (cmdline : List UInt8) : Cpus cmdline ((parseUsize cmdline).getD 1) ∧ (parseUsize cmdline).getD 1 < 2 ^ 64 := by
  cases h : parseUsize cmdline with
  | some n =>
    have := (parse_iff _ _).1 h
    exact ⟨.inl this, this.choose_spec.2.2.2.2⟩
  | none =>
    refine ⟨.inr ⟨fun m hm => ?_, rfl⟩, by show 1 < _; decide⟩
    rw [(parse_iff _ _).2 hm] at h
    cases h

/-- **C97.** `rumpuser_getparam`: a parameter is either unknown to the host, which is reported (2, `ENOENT`) and leaves the buffer
as it is; or it has a value, and if that fits, it is in the buffer, ended by a 0, and the rest of the buffer is as before.
Missing: a buffer that is too small (`c97_param_panic`). -/
theorem c97_param_partial (cmdline : List UInt8) (name : String) :
    (∃ t, Param cmdline name t ∧ ∀ buf : List UInt8, t.length < buf.length →
        getparam cmdline name buf = .ok (0, t ++ 0 :: buf.drop (t.length + 1))) ∨
    ((∀ t, ¬ Param cmdline name t) ∧ ∀ buf, getparam cmdline name buf = .ok (2, buf)) := by
  have step : ∀ t, paramText cmdline name = some t → ∀ buf : List UInt8, t.length < buf.length →
      getparam cmdline name buf = .ok (0, t ++ 0 :: buf.drop (t.length + 1)) := by
    intro t ht buf hb
    simp only [getparam, ht]
    rw [if_neg (by simp; omega)]
    simp
  by_cases h1 : name = "_RUMPUSER_NCPU"
  · subst h1
    obtain ⟨a, b⟩ := cpus_spec cmdline
    exact .inl ⟨_, .cpus a (format_spec 20 _ (Nat.lt_trans b (by decide)) (by decide)), step _ rfl⟩
  by_cases h2 : name = "RUMP_VERBOSE"
  · subst h2; exact .inl ⟨_, .verbose, step _ rfl⟩
  by_cases h3 : name = "RUMP_THREADS"
  · subst h3; exact .inl ⟨_, .threads, step _ rfl⟩
  by_cases h4 : name = "_RUMPUSER_HOSTNAME"
  · subst h4; exact .inl ⟨_, .hostname, step _ rfl⟩
  by_cases h5 : name = "RUMP_MEMLIMIT"
  · subst h5
    refine .inl ⟨_, .memory ?_, step _ rfl⟩
    refine ⟨fun b hb => ?_, by decide, by decide, fun u hu => by cases hu⟩
    unfold Digit
    revert b
    decide
  · right
    constructor
    · intro t ht; cases ht <;> contradiction
    · intro buf
      have : paramText cmdline name = none := by
        unfold paramText
        rw [if_neg h1, if_neg h2, if_neg h3, if_neg h4, if_neg h5]
      simp only [getparam, this]

/-- Finding. A buffer without room for the value and the 0 ends the program. -/
theorem c97_param_panic (cmdline : List UInt8) (name : String) (t buf : List UInt8)
    (h : paramText cmdline name = some t) (hb : buf.length ≤ t.length) : getparam cmdline name buf = .panic := by
  simp only [getparam, h]
  rw [if_pos (by simp; omega)]

end NRK.Rump
