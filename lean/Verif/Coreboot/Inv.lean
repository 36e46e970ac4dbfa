import Verif.Coreboot.Lemmas

/-! # The invariant of core booting (C92) -/

namespace NRK.Coreboot

open Spec (Thread Replica Ipi Entry Args)

/-- The pages a boot has taken. -/
def used (l : List Prep) : List Nat := l.flatMap (fun b => [b.stack, b.mem])

/-- What the memory and the arguments of the prepared cores look like. -/
structure Pool (c : Cfg) (pages0 pmem0 : Nat → List Nat) (pages pmem : Nat → List Nat)
    (objs : Nat → Option Args) (boots : List Prep) : Prop where
  pgs : ∀ n, pages n = (pages0 n).drop (2 * boots.countP (·.thread.home == n))
  pms : ∀ n, pmem n = if c.pmemNodes = c.numaNodes then (pmem0 n).drop (boots.countP (·.thread.home == n)) else pmem0 n
  stack : ∀ b ∈ boots, b.stack ∈ pages0 b.thread.home
  mem : ∀ b ∈ boots, b.mem ∈ pages0 b.thread.home
  pm : ∀ b ∈ boots, if c.pmemNodes = c.numaNodes then ∃ q, b.pmem = some q ∧ q ∈ pmem0 b.thread.home else b.pmem = none
  home : ∀ b ∈ boots, b.thread.home < c.numaNodes
  obj : ∀ b ∈ boots, objs b.argp = some (argsOf c b)
  argp : ∀ b ∈ boots, b.argp < 256 ^ 8
  fresh : ∀ p, objs p = none → p ∉ boots.map (·.argp)
  argps : (boots.map (·.argp)).Nodup
  nodup : (used boots).Nodup
  left : ∀ p ∈ used boots, ∀ n, p ∉ pages n

/-- What the core that is being started has got so far. -/
def CoreOk (c : Cfg) (b : Prep) : Core → Prop
  | .off => False
  | .waitSipi => False
  | .tramp page k r => page = REAL_MODE_PAGE ∧ k ≤ 4 ∧ (0 < k → r.cr3 = (entryOf c b).cr3) ∧
      (1 < k → r.rsp = (entryOf c b).rsp) ∧ (2 < k → r.rdi = (entryOf c b).rdi) ∧ (3 < k → r.rsi = (entryOf c b).rsi)
  | .kernel r rest => r = entryOf c b ∧ ∃ pre, regs c b = pre ++ rest
  | .up r => r = entryOf c b

def Core.isUp : Core → Bool
  | .up _ => true
  | _ => false

/-- The core that is being started, by the place of the BSP. -/
def Phase (c : Cfg) (b : Prep) (pc : BPc) (m : Bytes) (flag : Bool) (core : Core) : Prop :=
  match pc with
  | .next => False
  | .done => False
  | .poke k => k < 5 ∧ Words c b m k ∧ core = .off ∧ flag = false
  | .init => Words c b m 5 ∧ core = .off ∧ flag = false
  | .startup => Words c b m 5 ∧ core = .waitSipi ∧ flag = false
  | .wait => Words c b m 5 ∧ CoreOk c b core ∧ flag = core.isUp

/-- The interrupts sent to the core that is being started. -/
def sentTail (t : Thread) : BPc → List (Nat × Ipi)
  | .startup => [(t.apic, .init)]
  | .wait => Spec.wake REAL_MODE_PAGE t
  | _ => []

/-- The replicas a core has registered with. -/
def got (c : Cfg) (b : Prep) : Core → List Replica
  | .kernel _ rest => (regs c b).take ((regs c b).length - rest.length)
  | .up _ => regs c b
  | _ => []

/-- The registrations. -/
structure Tok (c : Cfg) (next0 : Replica → Nat) (next : Replica → Nat) (toks : List (Nat × Replica × Nat))
    (boots : List Prep) (core : Nat → Core) : Prop where
  who : toks.map (fun x => (x.1, x.2.1)) =
    boots.flatMap (fun b => (got c b (core b.thread.apic)).map (fun r => (b.thread.apic, r)))
  nxt : ∀ r, next r = next0 r + toks.countP (·.2.1 == r)
  range : ∀ x ∈ toks, next0 x.2.1 ≤ x.2.2 ∧ x.2.2 < next x.2.1 ∧ x.2.2 ≤ c.maxThreads
  nodup : (toks.map (·.2)).Nodup

structure Inv (c : Cfg) (s0 : St) (old : List Prep) (cur : Option Prep) (s : St) : Prop where
  boots : s.boots = old ++ cur.toList
  split : c.toBoot = old.map (·.thread) ++ s.todo
  head : ∀ b, cur = some b → s.todo.head? = some b.thread
  idle : cur = none ↔ (s.pc = .next ∨ s.pc = .done)
  fin : s.pc = .done → s.todo = []
  pool : Pool c s0.pages s0.pmem s.pages s.pmem s.objs s.boots
  up : ∀ b ∈ old, s.core b.thread.apic = .up (entryOf c b)
  off : ∀ a, a ∉ s.boots.map (·.thread.apic) → s.core a = .off
  phase : ∀ b, cur = some b → Phase c b s.pc s.mem s.flag (s.core b.thread.apic)
  sent : s.sent = old.flatMap (fun b => Spec.wake REAL_MODE_PAGE b.thread) ++
    cur.toList.flatMap (fun b => sentTail b.thread s.pc)
  tok : Tok c s0.next s.next s.toks s.boots s.core
  aff : cur = none → s.aff = 0
  low : ∀ x, ¬ (REAL_MODE_BASE ≤ x ∧ x < REAL_MODE_BASE + codeSize c.codeLen) → s.mem x = s0.mem x

theorem Inv.init {c : Cfg} {m : Bytes} {pages pmem : Nat → List Nat} {paff : Nat} :
    Inv c (St.init c m pages pmem paff) [] none (St.init c m pages pmem paff) := by
  constructor
  case boots => rfl
  case split => rfl
  case head => intro b h; cases h
  case idle => exact ⟨fun _ => Or.inl rfl, fun _ => rfl⟩
  case fin => intro h; cases h
  case pool =>
    constructor <;> try simp [St.init, used]
  case up => intro b h; cases h
  case off => intro a _; rfl
  case phase => intro b h; cases h
  case sent => rfl
  case tok => constructor <;> simp [St.init]
  case aff => intro _; rfl
  case low => intro x _; rfl

/-- Changing `halt` changes nothing the invariant speaks of. -/
theorem Inv.halt {c : Cfg} {s0 s : St} {old : List Prep} {cur : Option Prep} (h : Inv c s0 old cur s) (x : Option Halt) :
    Inv c s0 old cur { s with halt := x } :=
  ⟨h.boots, h.split, h.head, h.idle, h.fin, h.pool, h.up, h.off, h.phase, h.sent, h.tok, h.aff, h.low⟩

theorem Inv.apics {c : Cfg} {s0 s : St} {old : List Prep} {b : Prep} (h : Inv c s0 old (some b) s)
    (hn : (c.threads.map (·.apic)).Nodup) : b.thread ∈ c.threads ∧ ∀ x ∈ old, x.thread.apic ≠ b.thread.apic := by
  have hh := h.head b rfl
  have hsub : (c.toBoot.map (·.apic)).Nodup :=
    List.Nodup.sublist (List.Sublist.map _ List.filter_sublist) hn
  cases e : s.todo with
  | nil => rw [e] at hh; cases hh
  | cons t l =>
    rw [e] at hh
    simp only [List.head?_cons, Option.some.injEq] at hh
    subst hh
    have hs := h.split
    rw [e] at hs
    constructor
    · have : b.thread ∈ c.toBoot := by rw [hs]; simp
      exact (List.mem_filter.1 this).1
    · intro x hx
      rw [hs, List.map_append, List.nodup_append] at hsub
      exact hsub.2.2 x.thread.apic (by simpa using ⟨x, hx, rfl⟩) b.thread.apic (by simp)

theorem Inv.threads {c : Cfg} {s0 s : St} {old : List Prep} {cur : Option Prep} (h : Inv c s0 old cur s) :
    ∀ x ∈ s.boots, x.thread ∈ c.toBoot := by
  intro x hx
  rw [h.boots] at hx
  rw [h.split]
  rcases List.mem_append.1 hx with hx | hx
  · exact List.mem_append_left _ (List.mem_map_of_mem hx)
  · have : cur = some x := by simpa using hx
    exact List.mem_append_right _ (List.mem_of_head? (h.head x this))

/-! ## Tokens -/

theorem Tok.frame {c : Cfg} {n0 n : Replica → Nat} {toks : List (Nat × Replica × Nat)} {boots : List Prep}
    {core core' : Nat → Core} (h : Tok c n0 n toks boots core)
    (hg : ∀ b ∈ boots, got c b (core' b.thread.apic) = got c b (core b.thread.apic)) :
    Tok c n0 n toks boots core' := by
  refine { h with who := ?_ }
  rw [h.who]
  simp only [List.flatMap_def]
  congr 1
  apply List.map_congr_left
  intro b hb
  rw [hg b hb]

end NRK.Coreboot
