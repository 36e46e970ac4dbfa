import Verif.Pci.Lemmas
import Verif.Pci.MemLemmas

/-!
# C94: a program's drivers reach the devices they mean
-/

namespace NRK.Pci

open Spec (Reg Bus Call Event IrqCall Dev Atomic translate wanted)

/-- Whatever the devices are and do, and whatever any number of threads of a program read and write on any schedule:
every access takes effect at one moment between its start and its return, on the register it names, and a read
returns what the device gave at that moment.  Partial: nobody outside the program uses the two ports, and the
arguments exist on a PCI bus (`c94_foreign`, `c94_alias`, `c94_negative` for what happens otherwise). -/
theorem c94_config_partial {D : Type} (b : Bus D) (d0 : D) (latch : Nat) (core : Nat → Nat) (as : List Act)
    (valid : ∀ t c, Act.call t c ∈ as → c.Valid) (own : ∀ a, Act.foreign a ∉ as) :
    Atomic b d0 (run b core (St.init d0 latch) as).dev (run b core (St.init d0 latch) as).hist := by
  have I : Inv b d0 (run b core (St.init d0 latch) as) := by
    refine run_inv as _ ?_ (Inv.init b d0 latch)
    intro a ha
    cases a with
    | call t c => exact valid t c ha
    | step t => trivial
    | foreign x => exact own x ha
  exact ⟨I.replay, fun t => by rw [I.phase t]; rfl⟩

/-- On a core with a number up to 96 a call with arguments that exist is made (and not ignored); above, it returns
and nothing happens. -/
theorem c94_made {D : Type} (b : Bus D) (core : Nat → Nat) (s : St D) (t : Nat) (c : Call) (v : c.Valid)
    (idle : s.pc t = .idle) :
    (core t ≤ 96 → ∃ s', act b core s (.call t c) = some s' ∧ s'.hist = s.hist ++ [.start t c]) ∧
      (96 < core t → act b core s (.call t c) = some s) := by
  have ha : ∃ a, callAddress c = some a := by
    cases c with
    | read bb dd ff r | write bb dd ff r x =>
      obtain ⟨_, _, _, h0, hr⟩ := v
      exact ⟨_, if_pos hr⟩
  obtain ⟨a, ha⟩ := ha
  constructor
  · intro h
    refine ⟨{ s with pc := upd s.pc t (.waiting c a), hist := s.hist ++ [.start t c] }, ?_, rfl⟩
    unfold act enter
    simp only [idle, if_true, ha]
    rw [if_neg (by unfold MAX_CORES; omega)]
  · intro h
    unfold act enter
    simp only [idle, if_true]
    rw [if_pos (by unfold MAX_CORES; omega)]

/-- The accesses never block each other for good: as long as some thread is in a call, one of them can go on. -/
theorem c94_goes_on {D : Type} (b : Bus D) (d0 : D) (latch : Nat) (core : Nat → Nat) (as : List Act)
    (valid : ∀ t c, Act.call t c ∈ as → c.Valid) (own : ∀ a, Act.foreign a ∉ as) (t : Nat)
    (inside : (run b core (St.init d0 latch) as).pc t ≠ .idle)
    (alive : (run b core (St.init d0 latch) as).pc t ≠ .dead) :
    ∃ u s', act b core (run b core (St.init d0 latch) as) (.step u) = some s' := by
  have I : Inv b d0 (run b core (St.init d0 latch) as) := by
    refine run_inv as _ ?_ (Inv.init b d0 latch)
    intro a ha
    cases a with
    | call t c => exact valid t c ha
    | step t => trivial
    | foreign x => exact own x ha
  generalize run b core (St.init d0 latch) as = s at *
  have key : ∀ u, (s.pc u).holds = true → ∃ s', act b core s (.step u) = some s' := by
    intro u hu
    show ∃ s', advance b s u = some s'
    unfold advance
    cases h : s.pc u with
    | idle => rw [h] at hu; cases hu
    | dead => rw [h] at hu; cases hu
    | waiting c a => rw [h] at hu; cases hu
    | locked c a => exact ⟨_, rfl⟩
    | addressed c => cases c <;> exact ⟨_, rfl⟩
    | done r => exact ⟨_, rfl⟩
  cases hl : s.lock with
  | some u => exact ⟨u, key u ((I.lock u).2 hl)⟩
  | none =>
    by_cases hh : (s.pc t).holds = true
    · exact ⟨t, key t hh⟩
    · refine ⟨t, ?_⟩
      show ∃ s', advance b s t = some s'
      unfold advance
      cases h : s.pc t with
      | idle => exact absurd h inside
      | dead => exact absurd h alive
      | waiting c a => simp only [hl, if_true]; exact ⟨_, rfl⟩
      | locked c a => rw [h] at hh; exact absurd rfl hh
      | addressed c => rw [h] at hh; exact absurd rfl hh
      | done r => rw [h] at hh; exact absurd rfl hh

/-- What the kernel reads for ACPI is the field at that offset of the register, and nothing else is touched.  Partial:
only for offsets that are multiples of four (`c94_acpi_byte`). -/
theorem c94_acpi_partial {D : Type} (b : Bus D) (d : D) (bus dev fun_ reg width : Nat) (hb : bus < 256)
    (hd : dev < 32) (hf : fun_ < 8) (hr : reg ≤ 0xfc) (hw : width = 8 ∨ width = 16 ∨ width = 32)
    (al : reg % 4 = 0) :
    acpiRead b d bus dev fun_ reg width =
      some (some (Spec.field (b.rd d ⟨bus, dev, fun_, reg / 4⟩).1 reg width),
        (b.rd d ⟨bus, dev, fun_, reg / 4⟩).2) := by
  unfold acpiRead
  rw [if_pos (by omega), busAddress_eq hb hd hf hr]
  simp only [if_pos hw, inl, decode_valid hb hd hf hr, Spec.field, al, Nat.pow_zero, Nat.div_one]

/-- The address a driver gets for its memory is the physical address the byte has at that moment, and for memory that
is not mapped there is none (the program panics).  Partial: as long as the page was never unmapped
(`c94_stale`). -/
theorem c94_translate_partial (m0 : Mem) (aligned : ∀ x f, m0.pt x = some f → f % 4096 = 0)
    (empty : m0.cache = none) (as : List MemAct) (va : Nat) (kept : MemAct.unmap (va / 4096) ∉ as) :
    (virtToMach (memRun m0 as) va).map (·.1) = translate (memRun m0 as).pt va := by
  refine virtToMach_eq (memRun_inv as m0 ⟨aligned, fun ht f h => by rw [empty] at h; cases h⟩ ?_)
  intro a ha e
  exact kept (e ▸ ha)

/-- Memory allocated for a device was not mapped before, is mapped to physical memory without gaps from the address
that is returned, and starts at a page; nothing else in the program changes its place.  More than 2 MiB panics. -/
theorem c94_dma (m : Mem) (core size alignment : Nat) (frame : Option Nat) :
    (∀ v p m', dmalloc m core size alignment frame = (.ok v p, m') →
      (∀ x < size, translate m.pt (v + x) = none ∧ translate m'.pt (v + x) = some (p + x)) ∧
      v % 4096 = 0 ∧ p % 4096 = 0 ∧ ∀ page, m.pt page ≠ none → m'.pt page = m.pt page) ∧
    ((∀ v p m', dmalloc m core size alignment frame ≠ (.ok v p, m')) →
      (dmalloc m core size alignment frame).2.pt = m.pt) ∧
    (2 * 1024 * 1024 < size ↔ (dmalloc m core size alignment frame).1 = .panic) := by
  refine ⟨?_, ?_, ?_⟩
  · intro v p m' e
    rcases dmalloc_cases m core size alignment frame with ⟨v', p', m'', e', hs, hv, hp, hf, hpt, _⟩ | ⟨r, m'', e', hn, _⟩
    · rw [e'] at e
      cases e
      have h1 := mod_page hv
      have h2 := mod_page hp
      have h3 := span_pages size
      have h4 := le_span hs
      have hin : ∀ x < size, v / 4096 ≤ (v + x) / 4096 ∧ (v + x) / 4096 < v / 4096 + span size / 4096 := by
        intro x hx; omega
      refine ⟨?_, h1, h2, ?_⟩
      · intro x hx
        obtain ⟨a1, a2⟩ := hin x hx
        unfold translate
        rw [allFree_spec hf a1 a2, hpt, mapped, if_pos ⟨a1, a2⟩]
        refine ⟨rfl, ?_⟩
        simp only [Option.map_some, Option.some.injEq]
        omega
      · intro page hne
        rw [hpt, mapped]
        split
        · rename_i hx
          exact absurd (allFree_spec hf hx.1 hx.2) hne
        · rfl
    · rw [e'] at e; cases e; exact absurd rfl (hn v p)
  · intro h
    rcases dmalloc_cases m core size alignment frame with ⟨v', p', m'', e', _⟩ | ⟨r, m'', e', _, hp, _⟩
    · exact absurd e' (h v' p' m'')
    · rw [e']; exact hp
  · unfold dmalloc
    by_cases hs : size ≤ 2 * 1024 * 1024
    · rw [if_pos hs]
      constructor
      · intro h; omega
      · intro h
        split at h <;> cases h
    · rw [if_neg hs]
      exact ⟨fun _ => rfl, fun _ => by omega⟩

/-- The alignment asked for is kept if it divides what is really allocated.  Partial: larger alignments are ignored
(`c94_alignment_ignored`). -/
theorem c94_dma_align_partial (m m' : Mem) (core size alignment : Nat) (frame : Option Nat) (v p : Nat)
    (e : dmalloc m core size alignment frame = (.ok v p, m'))
    (al : alignment ∣ 4096 ∨ (4096 < size ∧ alignment ∣ 2 * 1024 * 1024)) : alignment ∣ v ∧ alignment ∣ p := by
  have hal : alignment ∣ span size := by
    unfold span
    rcases al with h | h
    · split
      · exact Nat.dvd_trans h ⟨512, rfl⟩
      · exact h
    · rw [if_pos h.1]; exact h.2
  rcases dmalloc_cases m core size alignment frame with ⟨v', p', m'', e', hs, hv, hp, _⟩ | ⟨r, m'', e', hn, _⟩
  · rw [e'] at e
    cases e
    exact ⟨Nat.dvd_trans hal (Nat.dvd_of_mod_eq_zero hv), Nat.dvd_trans hal (Nat.dvd_of_mod_eq_zero hp)⟩
  · rw [e'] at e; cases e; exact absurd rfl (hn v p)

/-- The translation of memory that was allocated for a device stays what the allocation returned, whatever happens in
between (as long as the page is not unmapped). -/
theorem c94_dma_stays_partial (m0 m' : Mem) (aligned : ∀ x f, m0.pt x = some f → f % 4096 = 0)
    (empty : m0.cache = none) (as bs : List MemAct) (core size alignment : Nat) (frame : Option Nat) (v p x : Nat)
    (e : dmalloc (memRun m0 as) core size alignment frame = (.ok v p, m')) (hx : x < size)
    (kept : MemAct.unmap ((v + x) / 4096) ∉ as ++ bs) :
    (virtToMach (memRun m' bs) (v + x)).map (·.1) = some (p + x) := by
  have hm : memRun m0 (as ++ .dmalloc core size alignment frame :: bs) = memRun m' bs := by
    unfold memRun
    rw [List.foldl_append, List.foldl_cons]
    show bs.foldl memStep (dmalloc (memRun m0 as) core size alignment frame).2 = _
    rw [e]
  have h1 := c94_translate_partial m0 aligned empty (as ++ .dmalloc core size alignment frame :: bs) (v + x) (by
    intro h
    rcases List.mem_append.1 h with h | h
    · exact kept (List.mem_append_left _ h)
    · rcases List.mem_cons.1 h with h | h
      · cases h
      · exact kept (List.mem_append_right _ h))
  rw [hm] at h1
  rw [h1]
  have h2 := (((c94_dma (memRun m0 as) core size alignment frame).1 v p m' e).1 x hx).2
  unfold translate at h2 ⊢
  cases h3 : m'.pt ((v + x) / 4096) with
  | none => rw [h3] at h2; cases h2
  | some f =>
    rw [memRun_pt bs m' h3 (fun a ha e => kept (List.mem_append_right _ (e ▸ ha)))]
    rw [h3] at h2; exact h2

/-- An interrupt runs the handler that was named for its number, with its argument.  Partial: with one number
(`c94_two_devices`). -/
theorem c94_irq_partial (cs : List IrqCall) (k vector : Nat) (maps : ∀ w k', IrqCall.map w k' ∈ cs → k' = k)
    (names : ∀ k' h a, IrqCall.establish k' h a ∈ cs → k' = k) :
    (irqRun (irqCalls cs) vector).join = wanted vector cs ∧
      (irqRun (irqCalls cs) vector = none ↔ ∀ k', IrqCall.map vector k' ∉ cs) := by
  have h1 := irq_slot cs ⟨none, []⟩ names
  have h2 := irq_threads vector cs ⟨none, []⟩
  simp only [Option.or_none] at h1
  simp only [List.not_mem_nil, false_or] at h2
  have h3 : (Spec.cookieOf vector cs).isSome ↔ ∃ k', IrqCall.map vector k' ∈ cs := by
    clear h1 h2 maps names
    induction cs with
    | nil => simp [Spec.cookieOf]
    | cons c cs ih =>
      cases c with
      | map w k' =>
        simp only [Spec.cookieOf, List.mem_cons]
        by_cases e : w = vector
        · subst e
          refine ⟨fun _ => ⟨k', .inl rfl⟩, fun _ => ?_⟩
          cases Spec.cookieOf w cs <;> simp
        · rw [if_neg e, Option.or_none, ih]
          constructor
          · rintro ⟨k, h⟩; exact ⟨k, .inr h⟩
          · rintro ⟨k, h | h⟩
            · cases h; exact absurd rfl e
            · exact ⟨k, h⟩
      | establish k' h a =>
        simp only [Spec.cookieOf, List.mem_cons, reduceCtorEq, false_or]
        exact ih
  unfold irqRun irqCalls
  constructor
  · unfold wanted
    cases e : Spec.cookieOf vector cs with
    | none =>
      rw [if_neg (by rw [h2, e]; simp)]; rfl
    | some c =>
      rw [if_pos (h2.2 (by rw [e]; rfl)), h1]
      have := cookie_of vector cs maps c e
      subst this; rfl
  · by_cases hm : vector ∈ (cs.foldl irqCall ⟨none, []⟩).threads
    · rw [if_pos hm]
      have := h3.1 (h2.1 hm)
      simp only [reduceCtorEq, false_iff]
      intro hn
      obtain ⟨k', hk⟩ := this
      exact hn k' hk
    · rw [if_neg hm]
      simp only [true_iff]
      intro k' hk
      exact hm (h2.2 (h3.2 ⟨k', hk⟩))

/-- The kernel's drivers take devices: on any schedule a device is given to at most one call, it is one that was asked
for, a call for one device returns at most one, and a call returns without a device (or a call for all devices
returns) only when every such device has been given to some call. -/
theorem c94_claim (devs : List Dev) (as : List ClaimAct) :
    let s := claimRun (Claims.init devs) as
    (s.returned.flatMap (·.2)).Nodup ∧
    (∀ c g, (c, g) ∈ s.returned → (∀ i ∈ g, devs[i]? = some c.want) ∧ (c.all = false → g.length ≤ 1) ∧
      (c.all = true ∨ g = [] → ∀ i, devs[i]? = some c.want →
        i ∈ s.returned.flatMap (·.2) ∨ ∃ t c', s.pc t = some c' ∧ i ∈ c'.got)) := by
  obtain ⟨I, hd⟩ := claimRun_inv as (Claims.init devs) (CInv.init devs)
  have hd : (claimRun (Claims.init devs) as).devs = devs := hd
  refine ⟨I.outNodup, fun c g h => ⟨?_, I.length c g h, ?_⟩⟩
  · intro i hi; rw [← hd]; exact I.right c g h i hi
  · intro ha i hi
    exact I.gone i (I.full c g h ha i (by rw [hd]; exact hi))

end NRK.Pci
