import Verif.Start.Lemmas

/-!
# C91: a program is told the truth about itself, its machine and its arguments

`processInfo`, `threads`, `rackThreads`, `startCores` and `startArgs` are what a program gets, through the
kernel, the formats of the messages and the buffers of both sides.
-/

namespace NRK.Start

/-! ## What a program is told about itself -/

/-- The size of the message: 80 bytes for the names, and the values. -/
def infoSize (i : Info) : Nat :=
  80 + headLen i.pid + headLen i.tlsData + headLen i.tlsDataLen + headLen i.tlsLenTotal + headLen i.alignment
    + (headLen i.cmdline.length + i.cmdline.length) + (headLen i.appCmdline.length + i.appCmdline.length)

/-- A program gets exactly what the kernel knows if the message has at most 256 bytes, and ends otherwise. -/
theorem c91_info (debug : Bool) (i : Info) (hi : i.Ok) :
    processInfo debug i = if infoSize i ≤ 256 then .ok i else .panic := by
  have hl : (toVec i).length = infoSize i := toVec_length i
  unfold processInfo
  simp only [hl]
  by_cases h : infoSize i ≤ 256
  · have hr : received 256 (toVec i) = toVec i := received_fits (by rw [hl]; exact h)
    simp only [h, not_true, and_false, if_false, if_true, hr, fromSlice_toVec i hi]
  · have hr : received 256 (toVec i) = List.replicate (toVec i).length 0 := received_long (by rw [hl]; exact h)
    simp only [h, hr, fromSlice_zeros, if_false]
    split <;> rfl

/-- With command lines of together at most 127 bytes every program gets what the kernel knows. Missing: longer command lines, see
`c91_long_cmdline`. -/
theorem c91_info_partial (debug : Bool) (i : Info) (hi : i.Ok)
    (h : i.cmdline.length + i.appCmdline.length ≤ 127) : processInfo debug i = .ok i := by
  rw [c91_info debug i hi, if_pos]
  unfold infoSize
  have h1 := headLen_le i.pid; have h2 := headLen_le i.tlsData; have h3 := headLen_le i.tlsDataLen
  have h4 := headLen_le i.tlsLenTotal; have h5 := headLen_le i.alignment
  have h6 := headLen_small (n := i.cmdline.length) (by omega)
  have h7 := headLen_small (n := i.appCmdline.length) (by omega)
  omega

/-- With command lines of together 169 bytes or more every program ends as soon as it asks (for its
thread-local storage all programs ask before `main`). -/
theorem c91_long_cmdline (debug : Bool) (i : Info) (hi : i.Ok)
    (h : 169 ≤ i.cmdline.length + i.appCmdline.length) : processInfo debug i = .panic := by
  rw [c91_info debug i hi, if_neg]
  unfold infoSize
  have h1 := headLen_pos i.pid; have h2 := headLen_pos i.tlsData; have h3 := headLen_pos i.tlsDataLen
  have h4 := headLen_pos i.tlsLenTotal; have h5 := headLen_pos i.alignment
  have h6 := headLen_pos i.cmdline.length; have h7 := headLen_pos i.appCmdline.length
  rcases Nat.lt_or_ge i.cmdline.length 24 with hc | hc
  · have := headLen_two (n := i.appCmdline.length) (by omega); omega
  · have := headLen_two (n := i.cmdline.length) (by omega); omega

/-! ## The hardware threads -/

/-- On one machine a program learns all its hardware threads, as they are and in their order, if there are at most
511. Missing: bigger machines, see `c91_many_threads`. -/
theorem c91_threads_partial (debug : Bool) (ptr cap mid : Nat) (hw : List HwThread)
    (hok : ∀ h ∈ hw, (h.told mid).Ok) (hn : hw.length ≤ 511) :
    threads debug ptr cap mid hw = .ok (hw.map (HwThread.told mid)) := by
  have hl : (encThreads ptr cap (hw.map (HwThread.told mid))).length ≤ bufSize := by
    rw [encThreads_length, List.length_map]; unfold bufSize; omega
  unfold threads threadsResult
  rw [if_neg (by simp [hl]), received_fits hl,
    decThreads_enc ptr cap _ (by intro t ht; obtain ⟨h, hm, rfl⟩ := List.mem_map.mp ht; exact hok h hm)
      (by rw [List.length_map]; omega)]
  simp

/-- What is told of a thread: its global number has the machine in the upper and its number there in the lower half. -/
theorem c91_told (mid : Nat) (h : HwThread) (hid : h.id < 2 ^ 32) :
    (h.told mid).id / 2 ^ 32 = mid ∧ (h.told mid).id % 2 ^ 32 = h.id
    ∧ (h.told mid).package = h.package ∧ (h.told mid).core = h.core ∧ (h.told mid).thread = h.thread
    ∧ ∀ n, h.node = some n → (h.told mid).node = n := by
  have e : (h.told mid).id = 2 ^ 32 * mid + h.id := by
    unfold HwThread.told
    simp only []
    rw [Nat.shiftLeft_eq, Nat.mul_comm]
    exact (Nat.two_pow_add_eq_or_of_lt hid mid).symm
  rw [e]
  refine ⟨by omega, by omega, rfl, rfl, rfl, ?_⟩
  intro n hn; simp [HwThread.told, hn]

/-- With more than 511 hardware threads a program gets an error, or ends if it is built with debug
assertions. -/
theorem c91_many_threads (debug : Bool) (ptr cap mid : Nat) (hw : List HwThread) (hn : 511 < hw.length) :
    threads debug ptr cap mid hw = if debug then .panic else .error := by
  have hl : ¬ (encThreads ptr cap (hw.map (HwThread.told mid))).length ≤ bufSize := by
    rw [encThreads_length, List.length_map]; unfold bufSize; omega
  unfold threads threadsResult
  cases debug with
  | true => simp [hl]
  | false =>
    rw [if_neg (by simp), received_long hl, decThreads_zeros _ (by rw [encThreads_length]; omega)]
    have h2 : (List.replicate ((encThreads ptr cap (hw.map (HwThread.told mid))).length - 24) (0 : UInt8)).length > 0 := by
      rw [List.length_replicate, encThreads_length, List.length_map]; omega
    simp only [h2, if_true]
    rfl

/-- On a client of a rack a program learns all hardware threads of the rack if there are at most 203. Missing: bigger
racks, see `c91_rack_many`. -/
theorem c91_rack_partial (debug : Bool) (ptr cap : Nat) (all : List Thread) (hok : ∀ t ∈ all, t.Ok)
    (hn : all.length ≤ 203) : rackThreads debug ptr cap all = .ok (.ok all) := by
  have hl : (encThreads ptr cap all).length ≤ bufSize := by
    rw [encThreads_length]; unfold bufSize; omega
  unfold rackThreads handleThreads
  rw [if_pos (by unfold resSize serverBuf; omega)]
  simp only [hl, and_self, if_true]
  unfold threadsResult
  rw [if_neg (by simp [hl]), received_fits hl, decThreads_enc ptr cap _ hok (by omega)]
  simp

/-- With more hardware threads the controller of the rack panics when a program asks. -/
theorem c91_rack_many (debug : Bool) (ptr cap : Nat) (all : List Thread) (hn : 203 < all.length) :
    rackThreads debug ptr cap all = .panic := by
  unfold rackThreads handleThreads
  rw [if_neg (by unfold resSize serverBuf; omega)]

/-! ## The cores of a C program -/

/-- `initargs=n` in decimal is understood, for every `n` below 2^64. -/
theorem c91_number (n : Nat) (s : List UInt8) (h : IsDecimal n s) (hn : n < 2 ^ 64) : parse s = some n := by
  obtain ⟨hne, hd, hv⟩ := h
  have hd' := digits_ok s 0 hd (by rw [hv]; exact hn)
  rw [hv] at hd'
  cases s with
  | nil => exact absurd rfl hne
  | cons b t =>
    have hb : b ≠ 43 := by
      rintro rfl
      exact absurd (hd 43 (List.mem_cons_self ..)).1 (by decide)
    simp only [parse, hb, if_false]
    exact hd'

/-- ... and so is `initargs=+n`, but not the sign alone. -/
theorem c91_plus (n : Nat) (s : List UInt8) (h : IsDecimal n s) (hn : n < 2 ^ 64) :
    parse ('+'.toNat.toUInt8 :: s) = some n ∧ parse ['+'.toNat.toUInt8] = none := by
  obtain ⟨hne, hd, hv⟩ := h
  have hd' := digits_ok s 0 hd (by rw [hv]; exact hn)
  rw [hv] at hd'
  refine ⟨?_, rfl⟩
  show (if (43 : UInt8) = 43 then (if s = [] then none else digits 0 s) else digits 0 (43 :: s)) = some n
  rw [if_pos rfl, if_neg hne]
  exact hd'

/-- A C program that is started with `initargs=n` runs on the core it was started on and the first `n - 1` others, in the order
of the hardware threads, if there are that many and the kernel grants them; for all other `n` (0, or more than
there are threads) it ends. -/
theorem c91_cores (req : Nat → Option Nat) (g : Nat → Nat) (current : Nat) (hw : List Nat) (cmdline : List UInt8)
    (n : Nat) (hn : n < 2 ^ 64) (hc : IsDecimal n cmdline) (hmem : current ∈ hw) (hnd : hw.Nodup)
    (hreq : ∀ t ∈ hw, t ≠ current → req t = some (g t)) :
    startCores req current hw cmdline =
      if 1 ≤ n ∧ n ≤ hw.length then .ok (current :: ((hw.filter (· ≠ current)).take (n - 1)).map g) else .panic := by
  have hp := c91_number n cmdline hc hn
  have hlen : (hw.filter (· ≠ current)).length = hw.length - 1 := by
    have h1 := List.Nodup.erase_eq_filter hnd current
    have h2 : hw.filter (· ≠ current) = hw.erase current := by
      rw [h1]; exact List.filter_congr (fun x _ => by by_cases hx : x = current <;> simp [hx])
    rw [h2, List.length_erase_of_mem hmem]
  have hpos : 0 < hw.length := List.length_pos_of_mem hmem
  unfold startCores
  simp only [hp, Option.getD_some]
  by_cases h1 : n > 1
  · rw [if_pos h1, requestLoop_ok req g current n hw [current] hreq (by simpa using h1)]
    simp only [List.length_append, List.length_map, List.length_take, hlen, List.length_cons, List.length_nil]
    by_cases h2 : n ≤ hw.length
    · rw [if_pos (by omega), if_pos (by omega)]; rfl
    · rw [if_neg (by omega), if_neg (by omega)]
  · rw [if_neg h1]
    by_cases h2 : n = 1
    · subst h2; simp [show 1 ≤ hw.length from hpos]
    · have : n = 0 := by omega
      subst this; simp

/-- Without a number it runs on all hardware threads. -/
theorem c91_all_cores (req : Nat → Option Nat) (g : Nat → Nat) (current : Nat) (hw : List Nat) (cmdline : List UInt8)
    (hc : parse cmdline = none) (hmem : current ∈ hw) (hnd : hw.Nodup)
    (hreq : ∀ t ∈ hw, t ≠ current → req t = some (g t)) :
    startCores req current hw cmdline = .ok (current :: (hw.filter (· ≠ current)).map g) := by
  have hlen : (hw.filter (· ≠ current)).length = hw.length - 1 := by
    have h1 := List.Nodup.erase_eq_filter hnd current
    have h2 : hw.filter (· ≠ current) = hw.erase current := by
      rw [h1]; exact List.filter_congr (fun x _ => by by_cases hx : x = current <;> simp [hx])
    rw [h2, List.length_erase_of_mem hmem]
  have hpos : 0 < hw.length := List.length_pos_of_mem hmem
  unfold startCores
  simp only [hc, Option.getD_none]
  by_cases h1 : hw.length > 1
  · rw [if_pos h1, requestLoop_ok req g current hw.length hw [current] hreq (by simpa using h1)]
    rw [if_pos]
    · rw [List.take_of_length_le (by rw [hlen]; simp)]; rfl
    · simp only [List.length_append, List.length_map, List.length_take, hlen, List.length_cons, List.length_nil]
      omega
  · rw [if_neg h1]
    have h2 : hw.length = 1 := by omega
    have h3 : hw.filter (· ≠ current) = [] := List.length_eq_zero_iff.mp (by omega)
    rw [if_pos (by simp [h2]), h3]; rfl

/-- If the kernel refuses a core that is needed, the program ends. -/
theorem c91_refused (req : Nat → Option Nat) (current : Nat) (cmdline : List UInt8) (n : Nat)
    (hn : n < 2 ^ 64) (hc : IsDecimal n cmdline) (before after : List Nat) (t : Nat) (ht : t ≠ current)
    (hr : req t = none) (hb : (before.filter (· ≠ current)).length + 1 < n) :
    startCores req current (before ++ t :: after) cmdline = .panic := by
  have hp := c91_number n cmdline hc hn
  have key : ∀ (before cores : List Nat), cores.length + (before.filter (· ≠ current)).length < n →
      (requestLoop req current n (before ++ t :: after) cores).length < n := by
    intro before
    induction before with
    | nil =>
      intro cores hlt
      simp only [List.nil_append, requestLoop]
      rw [if_pos ht, hr]
      simpa using hlt
    | cons u us ih =>
      intro cores hlt
      simp only [List.cons_append, requestLoop]
      by_cases hu : u = current
      · subst hu
        rw [if_neg (by simp)]
        exact ih cores (by simpa using hlt)
      · have hf : (u :: us).filter (· ≠ current) = u :: us.filter (· ≠ current) := by simp [hu]
        rw [hf, List.length_cons] at hlt
        rw [if_pos hu]
        cases req u with
        | none => simp only []; omega
        | some g =>
          simp only []
          rw [if_neg (by simp only [List.length_append, List.length_cons, List.length_nil]; omega)]
          exact ih (cores ++ [g]) (by simp only [List.length_append, List.length_cons, List.length_nil]; omega)
  unfold startCores
  simp only [hp, Option.getD_some]
  have hgt : n > 1 := by omega
  have hlt := key before [current] (by simp only [List.length_cons, List.length_nil]; omega)
  rw [if_pos hgt, if_neg (Nat.ne_of_lt hlt)]

/-! ## The arguments of a C program -/

/-- The arguments are the words of the command line in reverse. -/
theorem c91_args (app : List UInt8) (h : 0 ∉ app) : startArgs app = .ok (binName :: (words app).reverse) := by
  unfold startArgs
  rw [if_neg h, rsplit_words]

/-- The name of the program is `some.bin`, whatever the command line is. -/
theorem c91_name (app : List UInt8) (h : 0 ∉ app) :
    ∃ l, startArgs app = .ok ("some.bin".toList.map (fun c => c.toNat.toUInt8) :: l) :=
  ⟨_, c91_args app h⟩

/-- A command line of one word is passed on correctly. Missing: more words, which are reversed: `c91_args_reversed`. -/
theorem c91_args_partial (app : List UInt8) (h0 : 0 ∉ app) (h : 32 ∉ app) :
    startArgs app = .ok [binName, app] := by
  rw [c91_args app h0]
  have : ∀ s : List UInt8, 32 ∉ s → words s = [s] := by
    intro s
    induction s with
    | nil => intro _; rfl
    | cons b t ih =>
      intro hb
      have hb1 : b ≠ 32 := fun e => hb (e ▸ List.mem_cons_self ..)
      simp [words, hb1, ih (fun m => hb (List.mem_cons_of_mem _ m))]
  rw [this app h]; rfl

/-- The arguments are right exactly if the words read the same in both directions. -/
theorem c91_args_iff (app : List UInt8) (h0 : 0 ∉ app) :
    startArgs app = .ok (binName :: words app) ↔ (words app).reverse = words app := by
  rw [c91_args app h0]
  constructor
  · intro h; injection h with h; injection h
  · intro h; rw [h]

end NRK.Start
