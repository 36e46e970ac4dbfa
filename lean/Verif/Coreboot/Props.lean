import Verif.Coreboot.Progress

/-!
# C92: every core of the machine is started, once, and finds what is its own

The theorems hold for each machine (`Machine`: the topology names a core once, the large pages of the
NUMA nodes are all different, addresses fit 64 bits), each length of the start-up code, each content
of low memory, and each interleaving of the first core with those it starts.
-/

namespace NRK.Coreboot

open Spec (Thread Replica Ipi Entry Args)

/-- A core has entered the kernel with the state `r`. -/
def InKernel (x : Core) (r : Entry) : Prop := (∃ rest, x = .kernel r rest) ∨ x = .up r

/-- A core is on its way: started, but not yet up. -/
def OnItsWay (x : Core) : Prop := (∃ p k r, x = .tramp p k r) ∨ ∃ r rest, x = .kernel r rest

theorem Inv.inKernel {c : Cfg} {s0 s : St} {old : List Prep} {cur : Option Prep} (h : Inv c s0 old cur s)
    {a : Nat} {r : Entry} (hk : InKernel (s.core a) r) : ∃ b ∈ s.boots, b.thread.apic = a ∧ r = entryOf c b := by
  by_cases ha : a ∈ s.boots.map (·.thread.apic)
  · obtain ⟨b, hb, rfl⟩ := List.mem_map.1 ha
    refine ⟨b, hb, rfl, ?_⟩
    rw [h.boots] at hb
    rcases List.mem_append.1 hb with hb | hb
    · have := h.up b hb
      rcases hk with ⟨rest, e⟩ | e <;> rw [e] at this
      · cases this
      · exact (Core.up.inj this)
    · have hc : cur = some b := by simpa using hb
      have hph := h.phase b hc
      cases hpc : s.pc with
      | wait =>
        rw [hpc] at hph
        have hok := hph.2.1
        rcases hk with ⟨rest, e⟩ | e <;> rw [e] at hok
        · exact hok.1
        · exact hok
      | next => rw [hpc] at hph; exact hph.elim
      | done => rw [hpc] at hph; exact hph.elim
      | poke k => rw [hpc] at hph; rcases hk with ⟨rest, e⟩ | e <;> rw [e] at hph <;> cases hph.2.2.1
      | init => rw [hpc] at hph; rcases hk with ⟨rest, e⟩ | e <;> rw [e] at hph <;> cases hph.2.1
      | startup => rw [hpc] at hph; rcases hk with ⟨rest, e⟩ | e <;> rw [e] at hph <;> cases hph.2.1
  · have := h.off a ha
    rcases hk with ⟨rest, e⟩ | e <;> rw [e] at this <;> cases this

theorem toBoot_apic {c : Cfg} (hn : (c.threads.map (·.apic)).Nodup) {t u : Thread} (ht : t ∈ c.threads)
    (hu : u ∈ c.threads) (e : t.apic = u.apic) : t = u := by
  have h1 := find_apic c.threads t ht hn
  have h2 := find_apic c.threads u hu hn
  rw [e, h2] at h1
  exact (Option.some.inj h1).symm

/-- **C92, what a core finds.**  Whenever a core has entered the kernel, it runs `start_app_core` in the
kernel's address space; its first argument points to what was meant for this very core: its number,
its node, the replicas of its node, a page of its node's memory; its stack is a large page of its
node's memory; its second argument is what the first core waits for.  Partial: the page table
root has to lie below 4 GiB, see `c92_root_cut`. -/
theorem c92_own_partial {c : Cfg} {m : Bytes} {pages pmem : Nat → List Nat} {paff : Nat} {s : St} {t : Thread} {r : Entry}
    (hm : Machine c pages) (hroot : c.pml4 < 2 ^ 32) (h : Reach c (St.init c m pages pmem paff) s)
    (ht : t ∈ c.threads) (hk : InKernel (s.core t.apic) r) :
    r.entry = c.startAppCore ∧ r.cr3 = c.pml4 ∧ r.rsi = c.flagAddr ∧
    (∃ p ∈ pages t.home, r.rsp = p + 2097152) ∧
    ∃ a, s.objs r.rdi = some a ∧ a.thread = t.id ∧ a.node = t.home ∧ a.mem ∈ pages t.home ∧
      a.replica = .kernel t.home ∧ a.fsReplica = (if c.fs then some (.fs t.home) else none) ∧
      (if c.pmemNodes = max 1 c.numNodes then ∃ q ∈ pmem t.home, a.pmem = some q else a.pmem = none) := by
  obtain ⟨old, cur, hi⟩ := h.inv hm
  obtain ⟨b, hb, hba, rfl⟩ := hi.inKernel hk
  have hbt : b.thread = t := toBoot_apic hm.apics (List.mem_filter.1 (hi.threads b hb)).1 ht hba
  subst hbt
  refine ⟨rfl, Nat.mod_eq_of_lt (by simpa using hroot), rfl, ⟨b.stack, hi.pool.stack b hb, ?_⟩, argsOf c b,
    hi.pool.obj b hb, rfl, rfl, hi.pool.mem b hb, rfl, rfl, ?_⟩
  · simp only [entryOf, STACK_SIZE_eq]
  · have := hi.pool.pm b hb
    by_cases e : c.pmemNodes = c.numaNodes
    · have e' : c.pmemNodes = max 1 c.numNodes := e
      rw [if_pos e] at this; rw [if_pos e']
      obtain ⟨q, h1, h2⟩ := this
      exact ⟨q, h2, h1⟩
    · have e' : ¬ c.pmemNodes = max 1 c.numNodes := e
      rw [if_neg e] at this; rw [if_neg e']
      exact this

/-- **C92, the root of the page table is cut to 32 bits**: `start_ap.S` loads only its lower half, so that every
core gets a wrong address space when the root is at 4 GiB or above. -/
theorem c92_root_cut {c : Cfg} {m : Bytes} {pages pmem : Nat → List Nat} {paff : Nat} {s : St} {a : Nat} {r : Entry}
    (hm : Machine c pages) (hroot : 2 ^ 32 ≤ c.pml4) (h : Reach c (St.init c m pages pmem paff) s)
    (hk : InKernel (s.core a) r) : r.cr3 < 2 ^ 32 ∧ r.cr3 ≠ c.pml4 := by
  obtain ⟨old, cur, hi⟩ := h.inv hm
  obtain ⟨b, hb, hba, rfl⟩ := hi.inKernel hk
  have : c.pml4 % 256 ^ 4 < 2 ^ 32 := Nat.mod_lt _ (by decide)
  simp only [entryOf]
  omega

theorem flatMap_used_ne {l : List Prep} (hn : (used l).Nodup) {x y : Prep} (hx : x ∈ l) (hy : y ∈ l) (hne : x ≠ y) :
    [x.stack, x.mem, y.stack, y.mem].Nodup := by
  have hpair : ∀ z ∈ l, z.stack ≠ z.mem := by
    intro z hz
    have : ([z.stack, z.mem] : List Nat).Nodup :=
      List.Nodup.sublist (by
        obtain ⟨l1, l2, rfl⟩ := List.append_of_mem hz
        simp only [used, List.flatMap_append, List.flatMap_cons]
        exact (List.sublist_append_left _ _).trans (List.sublist_append_right _ _)) hn
    simpa using this
  have hd : ∀ p, (p = x.stack ∨ p = x.mem) → (p = y.stack ∨ p = y.mem) → False := by
    obtain ⟨l1, l2, rfl⟩ := List.append_of_mem hx
    simp only [used, List.flatMap_append, List.flatMap_cons, List.nodup_append] at hn
    intro p h1 h2
    have h1' : p ∈ [x.stack, x.mem] := by simpa using h1
    have hin : ∀ l' : List Prep, y ∈ l' → p ∈ l'.flatMap (fun b => [b.stack, b.mem]) :=
      fun l' hl => List.mem_flatMap.2 ⟨y, hl, by simpa using h2⟩
    rcases List.mem_append.1 hy with hy | hy
    · exact hn.2.2 p (hin l1 hy) p (List.mem_append_left _ h1') rfl
    · rcases List.mem_cons.1 hy with hy | hy
      · exact hne hy.symm
      · exact hn.2.1.2.2 p h1' p (hin l2 hy) rfl
  have hx' := hpair x hx
  have hy' := hpair y hy
  simp only [List.nodup_cons, List.mem_cons, List.not_mem_nil, or_false, not_or, List.nodup_nil, not_false_eq_true,
    and_true]
  refine ⟨⟨hx', fun e => hd x.stack (Or.inl rfl) (Or.inl e), fun e => hd x.stack (Or.inl rfl) (Or.inr e)⟩,
    ⟨fun e => hd x.mem (Or.inr rfl) (Or.inl e), fun e => hd x.mem (Or.inr rfl) (Or.inr e)⟩, hy'⟩

/-- **C92, nothing is shared.**  Two cores that have entered the kernel have different arguments,
and their stacks and pages are four different large pages. -/
theorem c92_separate {c : Cfg} {m : Bytes} {pages pmem : Nat → List Nat} {paff : Nat} {s : St} {x y : Nat} {r r' : Entry}
    (hm : Machine c pages) (h : Reach c (St.init c m pages pmem paff) s) (hxy : x ≠ y)
    (hx : InKernel (s.core x) r) (hy : InKernel (s.core y) r') :
    r.rdi ≠ r'.rdi ∧ ∃ p q a a', r.rsp = p + 2097152 ∧ r'.rsp = q + 2097152 ∧ s.objs r.rdi = some a ∧
      s.objs r'.rdi = some a' ∧ [p, a.mem, q, a'.mem].Nodup := by
  obtain ⟨old, cur, hi⟩ := h.inv hm
  obtain ⟨b, hb, rfl, rfl⟩ := hi.inKernel hx
  obtain ⟨b', hb', rfl, rfl⟩ := hi.inKernel hy
  have hne : b ≠ b' := by rintro rfl; exact hxy rfl
  constructor
  · intro e
    have h1 := hi.pool.obj b hb
    have hargp := hi.pool.argps
    obtain ⟨l1, l2, hl⟩ := List.append_of_mem hb
    rw [hl, List.map_append, List.map_cons, List.nodup_append] at hargp
    rw [hl] at hb'
    have e : b.argp = b'.argp := e
    rcases List.mem_append.1 hb' with h2 | h2
    · exact hargp.2.2 b'.argp (List.mem_map_of_mem h2) b.argp (by simp) e.symm
    · rcases List.mem_cons.1 h2 with h2 | h2
      · exact hne h2.symm
      · exact (List.nodup_cons.1 hargp.2.1).1 (by rw [e]; exact List.mem_map_of_mem h2)
  · refine ⟨b.stack, b'.stack, argsOf c b, argsOf c b', ?_, ?_, hi.pool.obj b hb, hi.pool.obj b' hb',
      flatMap_used_ne hi.pool.nodup hb hb' hne⟩
    · simp only [entryOf, STACK_SIZE_eq]
    · simp only [entryOf, STACK_SIZE_eq]

/-- **C92, one at a time**: never are two cores between their start and the end of their
initialization, so that what the first core leaves for one of them in low memory is not read by another. -/
theorem c92_one_at_a_time {c : Cfg} {m : Bytes} {pages pmem : Nat → List Nat} {paff : Nat} {s : St} {x y : Nat}
    (hm : Machine c pages) (h : Reach c (St.init c m pages pmem paff) s)
    (hx : OnItsWay (s.core x)) (hy : OnItsWay (s.core y)) : x = y := by
  obtain ⟨old, cur, hi⟩ := h.inv hm
  have key : ∀ a, OnItsWay (s.core a) → ∃ b, cur = some b ∧ b.thread.apic = a := by
    intro a ha
    by_cases hmem : a ∈ s.boots.map (·.thread.apic)
    · obtain ⟨b, hb, rfl⟩ := List.mem_map.1 hmem
      rw [hi.boots] at hb
      rcases List.mem_append.1 hb with hb | hb
      · rw [hi.up b hb] at ha
        rcases ha with ⟨_, _, _, e⟩ | ⟨_, _, e⟩ <;> cases e
      · exact ⟨b, by simpa using hb, rfl⟩
    · rw [hi.off a hmem] at ha
      rcases ha with ⟨_, _, _, e⟩ | ⟨_, _, e⟩ <;> cases e
  obtain ⟨b, h1, rfl⟩ := key x hx
  obtain ⟨b', h2, rfl⟩ := key y hy
  rw [h1] at h2
  cases h2; rfl

/-- **C92, all cores are up** when the first core goes on. -/
theorem c92_started {c : Cfg} {m : Bytes} {pages pmem : Nat → List Nat} {paff : Nat} {s : St} {t : Thread}
    (hm : Machine c pages) (h : Reach c (St.init c m pages pmem paff) s) (hd : s.pc = .done)
    (ht : t ∈ c.threads) (hb : t ≠ c.bsp) : ∃ r, s.core t.apic = .up r := by
  obtain ⟨old, cur, hi⟩ := h.inv hm
  have hc : cur = none := hi.idle.2 (Or.inr hd)
  subst hc
  have hsp := hi.split
  rw [hi.fin hd, List.append_nil] at hsp
  have : t ∈ c.toBoot := List.mem_filter.2 ⟨ht, by simpa using hb⟩
  rw [hsp] at this
  obtain ⟨b, hbo, rfl⟩ := List.mem_map.1 this
  exact ⟨_, hi.up b hbo⟩

/-- **C92, once**: when the first core goes on, it has sent each other core of the machine the
two interrupts that start it at the page with the start-up code, in this order, and nothing else. -/
theorem c92_once {c : Cfg} {m : Bytes} {pages pmem : Nat → List Nat} {paff : Nat} {s : St}
    (hm : Machine c pages) (h : Reach c (St.init c m pages pmem paff) s) (hd : s.pc = .done) :
    s.sent = (c.threads.filter (· != c.bsp)).flatMap (Spec.wake 6) := by
  obtain ⟨old, cur, hi⟩ := h.inv hm
  have hc : cur = none := hi.idle.2 (Or.inr hd)
  subst hc
  have hsp := hi.split
  rw [hi.fin hd, List.append_nil] at hsp
  have hs := hi.sent
  simp only [Option.toList_none, List.flatMap_nil, List.append_nil] at hs
  change s.sent = c.toBoot.flatMap (Spec.wake 6)
  rw [hs, hsp, List.flatMap_map]; rfl

/-- **C92, no core is reset that runs**: at every moment what was sent is a beginning of that list. -/
theorem c92_once_prefix {c : Cfg} {m : Bytes} {pages pmem : Nat → List Nat} {paff : Nat} {s : St}
    (hm : Machine c pages) (h : Reach c (St.init c m pages pmem paff) s) :
    ∃ more, s.sent ++ more = (c.threads.filter (· != c.bsp)).flatMap (Spec.wake 6) := by
  obtain ⟨old, cur, hi⟩ := h.inv hm
  change ∃ more, s.sent ++ more = c.toBoot.flatMap (Spec.wake 6)
  have hp : REAL_MODE_PAGE = 6 := by decide
  have hs := hi.sent
  rw [hp] at hs
  rw [hi.split, List.flatMap_append, List.flatMap_map]
  cases hcur : cur with
  | none =>
    rw [hcur] at hs
    exact ⟨s.todo.flatMap (Spec.wake 6), by rw [hs]; simp⟩
  | some b =>
    subst hcur
    obtain ⟨l, ht⟩ := hi.todo_cons
    rw [ht, List.flatMap_cons]
    simp only [Option.toList_some, List.flatMap_cons, List.flatMap_nil, List.append_nil] at hs
    rw [hs]
    cases hpc : s.pc with
    | next => exact ⟨Spec.wake 6 b.thread ++ l.flatMap (Spec.wake 6), by simp [sentTail]⟩
    | done => exact ⟨Spec.wake 6 b.thread ++ l.flatMap (Spec.wake 6), by simp [sentTail]⟩
    | poke k => exact ⟨Spec.wake 6 b.thread ++ l.flatMap (Spec.wake 6), by simp [sentTail]⟩
    | init => exact ⟨Spec.wake 6 b.thread ++ l.flatMap (Spec.wake 6), by simp [sentTail]⟩
    | startup => exact ⟨(b.thread.apic, .startup 6) :: l.flatMap (Spec.wake 6), by simp [sentTail, Spec.wake]⟩
    | wait => exact ⟨l.flatMap (Spec.wake 6), by simp [sentTail, hp]⟩

/-- **C92, registrations.**  When the first core goes on, every other core has registered with exactly the
replicas of its node, once; no two registrations with a replica got the same number, none
got one above the limit, and none that of the first core (1, at the replicas of node 0). -/
theorem c92_registered {c : Cfg} {m : Bytes} {pages pmem : Nat → List Nat} {paff : Nat} {s : St}
    (hm : Machine c pages) (h : Reach c (St.init c m pages pmem paff) s) (hd : s.pc = .done) :
    s.toks.map (fun x => (x.1, x.2.1)) = (c.threads.filter (· != c.bsp)).flatMap
        (fun t => (Spec.replicasOf c.maxProc c.procs c.fs t.home).map (fun r => (t.apic, r))) ∧
    (s.toks.map (·.2)).Nodup ∧
    ∀ x ∈ s.toks, 1 ≤ x.2.2 ∧ x.2.2 ≤ c.maxThreads ∧ (x.2.1 ∈ Spec.replicasOf c.maxProc c.procs c.fs 0 → x.2.2 ≠ 1) := by
  obtain ⟨old, cur, hi⟩ := h.inv hm
  have hc : cur = none := hi.idle.2 (Or.inr hd)
  subst hc
  have hsp := hi.split
  rw [hi.fin hd, List.append_nil] at hsp
  have hbo : s.boots = old := by simpa using hi.boots
  refine ⟨?_, hi.tok.nodup, ?_⟩
  · rw [hi.tok.who, hbo]
    change _ = c.toBoot.flatMap _
    rw [hsp, List.flatMap_map]
    simp only [List.flatMap_def]
    congr 1
    apply List.map_congr_left
    intro b hb
    rw [hi.up b hb]; rfl
  · intro x hx
    have hr := hi.tok.range x hx
    have h0 : (St.init c m pages pmem paff).next x.2.1 =
      if x.2.1 ∈ Spec.replicasOf c.maxProc c.procs c.fs 0 then 2 else 1 := rfl
    rw [h0] at hr
    refine ⟨?_, hr.2.2, ?_⟩
    · split at hr <;> omega
    · intro hin; rw [if_pos hin] at hr; omega

/-- **C92, the first core is as before**: between cores and at the end its memory comes from node 0, and of the
low memory only the bytes of the start-up code have changed; they lie below 1 MiB, where no memory is
handed out (C57), when the code is not longer than 900 KiB. -/
theorem c92_bsp {c : Cfg} {m : Bytes} {pages pmem : Nat → List Nat} {paff : Nat} {s : St}
    (hm : Machine c pages) (h : Reach c (St.init c m pages pmem paff) s) :
    ((s.pc = .next ∨ s.pc = .done) → s.aff = 0) ∧
    ∀ x, s.mem x ≠ m x → 0x6000 ≤ x ∧ x < 0x6000 + codeSize c.codeLen ∧ (c.codeLen ≤ 921600 → x < 1048576) := by
  obtain ⟨old, cur, hi⟩ := h.inv hm
  refine ⟨fun hp => hi.aff (hi.idle.2 hp), ?_⟩
  intro x hx
  have hin : REAL_MODE_BASE ≤ x ∧ x < REAL_MODE_BASE + codeSize c.codeLen := Decidable.of_not_not fun hn => hx (hi.low x hn)
  rw [base_eq] at hin
  refine ⟨hin.1, hin.2, ?_⟩
  intro hl
  have : codeSize c.codeLen ≤ c.codeLen + 1000 := by
    have up : ∀ y a, 0 < a → align y a ≤ y + (a - 1) := fun y a _ => Nat.div_mul_le_self _ _
    have h0 := up c.codeLen 16 (by omega)
    have h1 := up (gdtPtrOff c.codeLen + 10) 8 (by omega)
    have h2 := up (arg4Off c.codeLen + 8) 64 (by omega)
    have h3 := up (stackOff c.codeLen + 8) 64 (by omega)
    have h4 := up (entryOff c.codeLen + 8) 64 (by omega)
    have h5 := up (lockOff c.codeLen + 8) 64 (by omega)
    have e1 : gdtPtrOff c.codeLen = align c.codeLen 16 + 7 * 8 := rfl
    have e2 : arg4Off c.codeLen = align (gdtPtrOff c.codeLen + 10) 8 + 3 * 8 := rfl
    have e3 : stackOff c.codeLen = align (arg4Off c.codeLen + 8) 64 := rfl
    have e4 : entryOff c.codeLen = align (stackOff c.codeLen + 8) 64 := rfl
    have e5 : lockOff c.codeLen = align (entryOff c.codeLen + 8) 64 := rfl
    have e6 : codeSize c.codeLen = align (lockOff c.codeLen + 8) 64 + 8 := rfl
    omega
  omega

/-! ## Booting ends -/

/-- **C92, booting ends**: no run without a halt is longer than a bound that is linear in the number of
cores. -/
theorem c92_bounded {c : Cfg} {m : Bytes} {pages pmem : Nat → List Nat} {paff : Nat} {s : St} {acts : List Act}
    (hm : Machine c pages) (h : run c (St.init c m pages pmem paff) acts = some s) (hh : s.halt = none) :
    acts.length ≤ (c.threads.filter (· != c.bsp)).length * (numRegs c + 15) + 1 := by
  have := run_rank hm acts _ s [] none Inv.init h hh
  have e : rank c (St.init c m pages pmem paff) = (c.threads.filter (· != c.bsp)).length * (numRegs c + 15) + 1 := rfl
  omega

/-- Nothing in a run that the code does not count on: no core takes longer than a second, the clock of the first
core reads at most 10 ms after INIT. -/
def Calm : Act → Prop
  | .bsp _ e => e ≤ 10
  | .timeout => False
  | .core _ => True

/-- **C92, no halt**: with enough of everything (`Enough`), a calm run neither panics nor hangs.  Partial: "calm"
asks for an upper bound on a delay that has to be long, see `c92_delay`. -/
theorem c92_no_halt_partial {c : Cfg} {m : Bytes} {pages pmem : Nat → List Nat} {paff : Nat} (hm : Machine c pages)
    (hen : Enough c pages pmem) : ∀ (acts : List Act) (s s' : St), Reach c (St.init c m pages pmem paff) s → s.halt = none →
      (∀ x ∈ acts, Calm x) → run c s acts = some s' → s'.halt = none
  | [], s, s', _, hh, _, h => by cases h; exact hh
  | x :: xs, s, s', hr, hh, hc, h => by
    simp only [run] at h
    cases e : step c s x with
    | none => rw [e] at h; cases h
    | some s1 =>
      rw [e] at h
      obtain ⟨old, cur, hi⟩ := hr.inv hm
      have h1 : s1.halt = none := by
        have hcx := hc x (List.mem_cons_self ..)
        unfold step at e
        cases x with
        | bsp p el =>
          simp only at e
          split at e
          · cases e
          · exact no_panic_bsp hen hi hh hcx e
        | timeout => exact hcx.elim
        | core a =>
          simp only at e
          split at e
          · cases e
          · exact no_panic_core hm hen hi hh e
      exact c92_no_halt_partial hm hen xs s1 s' (Reach.step hr e) h1 (fun y hy => hc y (List.mem_cons_of_mem _ hy)) h

/-- **C92, no deadlock**: unless it has ended, some core can take a (calm) step. -/
theorem c92_live {c : Cfg} {m : Bytes} {pages pmem : Nat → List Nat} {paff : Nat} {s : St} (hm : Machine c pages)
    (h : Reach c (St.init c m pages pmem paff) s) (hh : s.halt = none) (hd : s.pc ≠ .done)
    (hroom : ∃ p, p < 256 ^ 8 ∧ s.objs p = none) : ∃ x s', Calm x ∧ step c s x = some s' := by
  obtain ⟨old, cur, hi⟩ := h.inv hm
  obtain ⟨p, hp, hp0⟩ := hroom
  have hb : ∀ s', bspStep c s p 0 = some s' → ∃ x s', Calm x ∧ step c s x = some s' := by
    intro s' h
    exact ⟨.bsp p 0, s', Nat.zero_le _, by simp [step, hh, h]⟩
  cases hpc : s.pc with
  | done => exact absurd hpc hd
  | next =>
    cases ht : s.todo with
    | nil => exact hb _ (by simp only [bspStep, hpc, ht]; rfl)
    | cons t l =>
      have : ∃ s', prepare c s t p = some s' := by
        unfold prepare
        have h0 : ¬ ((s.objs p).isSome ∨ 256 ^ 8 ≤ p) := by rw [hp0]; simp; omega
        rw [if_neg h0]
        split
        · exact ⟨_, rfl⟩
        · simp only
          split
          · exact ⟨_, rfl⟩
          · split
            · split
              · exact ⟨_, rfl⟩
              · exact ⟨_, rfl⟩
            · exact ⟨_, rfl⟩
      obtain ⟨s', hs'⟩ := this
      exact hb s' (by simp only [bspStep, hpc, ht, hs'])
  | poke k =>
    obtain ⟨b, rfl⟩ := hi.cur_some (by rw [hpc]; simp) (by rw [hpc]; simp)
    have hph := hi.phase b rfl
    rw [hpc] at hph
    have hlast : s.boots.getLast? = some b := by rw [hi.boots]; simp
    obtain ⟨a, v, hpk⟩ := poke_some c b hph.1
    exact hb _ (by simp only [bspStep, hpc, hlast, hpk]; rfl)
  | init =>
    obtain ⟨b, rfl⟩ := hi.cur_some (by rw [hpc]; simp) (by rw [hpc]; simp)
    obtain ⟨l, ht⟩ := hi.todo_cons
    exact hb _ (by simp only [bspStep, hpc, ht]; rfl)
  | startup =>
    obtain ⟨b, rfl⟩ := hi.cur_some (by rw [hpc]; simp) (by rw [hpc]; simp)
    obtain ⟨l, ht⟩ := hi.todo_cons
    exact hb _ (by simp only [bspStep, hpc, ht, Nat.not_lt_zero, gt_iff_lt, if_false]; rfl)
  | wait =>
    obtain ⟨b, rfl⟩ := hi.cur_some (by rw [hpc]; simp) (by rw [hpc]; simp)
    have hph := hi.phase b rfl
    rw [hpc] at hph
    by_cases hf : s.flag = true
    · exact hb _ (by simp only [bspStep, hpc, hf, if_true]; rfl)
    · have hc : ∃ s', coreStep c s b.thread.apic = some s' := by
        have hok := hph.2.1
        cases hcore : s.core b.thread.apic with
        | off => rw [hcore] at hok; exact hok.elim
        | waitSipi => rw [hcore] at hok; exact hok.elim
        | up r => rw [hcore] at hph; exact absurd hph.2.2 (by simpa [Core.isUp] using hf)
        | tramp page k r =>
          unfold coreStep
          rw [hcore]
          simp only
          split
          · exact ⟨_, rfl⟩
          · exact ⟨_, rfl⟩
          · exact ⟨_, rfl⟩
          · exact ⟨_, rfl⟩
          · split
            · split <;> exact ⟨_, rfl⟩
            · exact ⟨_, rfl⟩
        | kernel r rest =>
          cases rest with
          | nil => unfold coreStep; rw [hcore]; simp only; split <;> exact ⟨_, rfl⟩
          | cons x rest => unfold coreStep; rw [hcore]; simp only; split <;> exact ⟨_, rfl⟩
      obtain ⟨s', hs'⟩ := hc
      exact ⟨.core b.thread.apic, s', trivial, by simp [step, hh, hs']⟩

/-! ## Where it goes wrong -/

/-- **C92, the delay is the wrong way round.**  The hardware manual asks for 10 ms between INIT and STARTUP.
`wakeup_core` sends STARTUP at once if less (or exactly that) has passed, and loops forever if more has. -/
theorem c92_delay {c : Cfg} {s s' : St} {p e : Nat} (hpc : s.pc = .startup) (hs : step c s (.bsp p e) = some s') :
    (s'.halt = some .hang ↔ 10 < e) ∧ (s'.sent ≠ s.sent ↔ e ≤ 10) := by
  have hh := step_halt hs
  have hs : bspStep c s p e = some s' := by
    unfold step at hs
    simpa [hh] using hs
  unfold bspStep at hs
  simp only [hpc] at hs
  split at hs
  · cases hs
  · by_cases he : e > 10
    · rw [if_pos he] at hs; cases hs
      refine ⟨⟨fun _ => he, fun _ => rfl⟩, ⟨fun hn => absurd rfl hn, fun hn => by omega⟩⟩
    · rw [if_neg he] at hs; cases hs
      refine ⟨⟨fun hn => ?_, fun hn => by omega⟩, ⟨fun _ => by omega, fun _ hn => ?_⟩⟩
      · simp only [recvStartup, hh] at hn; cases hn
      · simp [recvStartup] at hn

/-- **C92, gaps in the numbering of nodes**: if a core is on a node whose number is not below the number of nodes,
booting never ends well. -/
theorem c92_node_gap {c : Cfg} {m : Bytes} {pages pmem : Nat → List Nat} {paff : Nat} {s : St} {t : Thread}
    (hm : Machine c pages) (h : Reach c (St.init c m pages pmem paff) s) (ht : t ∈ c.threads) (hb : t ≠ c.bsp)
    (hgap : max 1 c.numNodes ≤ t.home) : s.pc ≠ .done := by
  intro hd
  obtain ⟨old, cur, hi⟩ := h.inv hm
  have hc : cur = none := hi.idle.2 (Or.inr hd)
  subst hc
  have hsp := hi.split
  rw [hi.fin hd, List.append_nil] at hsp
  have : t ∈ c.toBoot := List.mem_filter.2 ⟨ht, by simpa using hb⟩
  rw [hsp] at this
  obtain ⟨b, hbo, rfl⟩ := List.mem_map.1 this
  have := hi.pool.home b (by rw [hi.boots]; simp [hbo])
  have e : c.numaNodes = max 1 c.numNodes := rfl
  omega

end NRK.Coreboot
