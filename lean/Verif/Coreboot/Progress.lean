import Verif.Coreboot.CoreStep

/-! # Lemmas for C92: booting makes progress, and does not stop where there is enough of everything -/

namespace NRK.Coreboot

open Spec (Thread Replica Ipi Entry Args)

/-- How many replicas a core registers with. -/
def numRegs (c : Cfg) : Nat := 1 + (if c.procs then c.maxProc else 0) + (if c.fs then 1 else 0)

theorem regs_length (c : Cfg) (b : Prep) : (regs c b).length = numRegs c := by
  unfold regs Spec.replicasOf numRegs
  cases c.procs <;> cases c.fs <;> simp <;> omega

def coreRank (c : Cfg) : Core → Nat
  | .tramp _ k _ => (5 - k) + numRegs c + 1
  | .kernel _ rest => rest.length + 1
  | _ => 0

/-- An upper bound for the steps left. -/
def rank (c : Cfg) (s : St) : Nat :=
  match s.pc with
  | .done => 0
  | .next => s.todo.length * (numRegs c + 15) + 1
  | .poke k => (s.todo.length - 1) * (numRegs c + 15) + (5 - k) + numRegs c + 10
  | .init => (s.todo.length - 1) * (numRegs c + 15) + numRegs c + 10
  | .startup => (s.todo.length - 1) * (numRegs c + 15) + numRegs c + 9
  | .wait => (s.todo.length - 1) * (numRegs c + 15) + 2 +
      (match s.todo with | t :: _ => coreRank c (s.core t.apic) | [] => 0)

theorem Inv.todo_cons {c : Cfg} {s0 s : St} {old : List Prep} {b : Prep} (h : Inv c s0 old (some b) s) :
    ∃ l, s.todo = b.thread :: l := by
  have hh := h.head b rfl
  cases e : s.todo with
  | nil => rw [e] at hh; cases hh
  | cons t l => rw [e] at hh; simp at hh; exact ⟨l, by rw [hh]⟩

theorem Inv.cur_some {c : Cfg} {s0 s : St} {old : List Prep} {cur : Option Prep} (h : Inv c s0 old cur s)
    (h1 : s.pc ≠ .next) (h2 : s.pc ≠ .done) : ∃ b, cur = some b := by
  cases cur with
  | none => rcases h.idle.1 rfl with e | e
            · exact absurd e h1
            · exact absurd e h2
  | some b => exact ⟨b, rfl⟩

theorem rank_bsp {c : Cfg} {s0 s s' : St} {old : List Prep} {cur : Option Prep} {p e : Nat}
    (h : Inv c s0 old cur s) (hs : bspStep c s p e = some s') (hh : s'.halt = none) : rank c s' < rank c s := by
  cases hpc : s.pc with
  | done => simp [bspStep, hpc] at hs
  | next =>
    cases ht : s.todo with
    | nil =>
      simp only [bspStep, hpc, ht] at hs
      cases hs
      simp [rank, hpc]
    | cons t l =>
      simp only [bspStep, hpc, ht] at hs
      obtain ⟨_, _, hs⟩ := prepare_cases hs
      rcases hs with ⟨hs, _⟩ | ⟨st, mem, rest, q, prest, _, _, _, hs⟩
      · subst hs; cases hh
      · subst hs
        simp only [rank, hpc, ht, List.length_cons, Nat.add_sub_cancel, Nat.succ_mul]
        omega
  | poke k =>
    obtain ⟨b, rfl⟩ := h.cur_some (by rw [hpc]; simp) (by rw [hpc]; simp)
    have hph := h.phase b rfl
    rw [hpc] at hph
    have hk : k < 5 := hph.1
    have hlast : s.boots.getLast? = some b := by rw [h.boots]; simp
    obtain ⟨a, v, hpk⟩ := poke_some c b hk
    simp only [bspStep, hpc, hlast, hpk, Option.some.injEq] at hs
    subst hs
    by_cases hk' : k + 1 < 5
    · simp only [rank, hpc, if_pos hk']; omega
    · simp only [rank, hpc, if_neg hk']; omega
  | init =>
    obtain ⟨b, rfl⟩ := h.cur_some (by rw [hpc]; simp) (by rw [hpc]; simp)
    obtain ⟨l, ht⟩ := h.todo_cons
    simp only [bspStep, hpc, ht, recvInit] at hs
    cases hs
    simp only [rank, hpc, ht]; omega
  | startup =>
    obtain ⟨b, rfl⟩ := h.cur_some (by rw [hpc]; simp) (by rw [hpc]; simp)
    have hph := h.phase b rfl
    rw [hpc] at hph
    obtain ⟨l, ht⟩ := h.todo_cons
    simp only [bspStep, hpc, ht, recvStartup, hph.2.1] at hs
    by_cases he : e > 10
    · rw [if_pos he] at hs; cases hs; cases hh
    · rw [if_neg he] at hs
      cases hs
      simp only [rank, hpc, ht, if_true, upd_same, coreRank]; omega
  | wait =>
    obtain ⟨b, rfl⟩ := h.cur_some (by rw [hpc]; simp) (by rw [hpc]; simp)
    obtain ⟨l, ht⟩ := h.todo_cons
    simp only [bspStep, hpc, ht] at hs
    by_cases hf : s.flag = true
    · rw [if_pos hf] at hs
      cases hs
      simp only [rank, hpc, ht, List.tail_cons, List.length_cons, Nat.add_sub_cancel]; omega
    · rw [if_neg hf] at hs; cases hs

theorem rank_core {c : Cfg} {s0 s s' : St} {old : List Prep} {cur : Option Prep} {a : Nat} (hm : Machine c s0.pages)
    (h : Inv c s0 old cur s) (hs : coreStep c s a = some s') (hh : s'.halt = none) : rank c s' < rank c s := by
  obtain ⟨b, rfl, rfl, hpc, hnup⟩ := h.who hs
  obtain ⟨l, ht⟩ := h.todo_cons
  have hph := h.phase b rfl
  rw [hpc] at hph
  have key : s'.pc = .wait ∧ s'.todo = s.todo ∧ coreRank c (s'.core b.thread.apic) < coreRank c (s.core b.thread.apic) := by
    have hok := hph.2.1
    cases hcore : s.core b.thread.apic with
    | off => rw [hcore] at hok; exact hok.elim
    | waitSipi => rw [hcore] at hok; exact hok.elim
    | up r => rw [hcore] at hnup; cases hnup
    | tramp page k r =>
      rw [hcore] at hok
      have hk' : k = 0 ∨ k = 1 ∨ k = 2 ∨ k = 3 ∨ k = 4 := by have := hok.2.1; omega
      rcases hk' with hk' | hk' | hk' | hk' | hk'
      · subst hk'; rw [tramp0 hcore] at hs; cases hs
        exact ⟨hpc, rfl, by simp only [upd_same, coreRank]; omega⟩
      · subst hk'; rw [tramp1 hcore] at hs; cases hs
        exact ⟨hpc, rfl, by simp only [upd_same, coreRank]; omega⟩
      · subst hk'; rw [tramp2 hcore] at hs; cases hs
        exact ⟨hpc, rfl, by simp only [upd_same, coreRank]; omega⟩
      · subst hk'; rw [tramp3 hcore] at hs; cases hs
        exact ⟨hpc, rfl, by simp only [upd_same, coreRank]; omega⟩
      · subst hk'
        have hbm : b ∈ s.boots := by rw [h.boots]; simp
        have hob : s.objs r.rdi = some (argsOf c b) := by
          rw [hok.2.2.2.2.1 (by omega)]; exact h.pool.obj b hbm
        have he : rd s.mem (entryOff c.codeLen + page * 4096) 8 = c.startAppCore := by
          rw [hok.1, base_page]
          exact (hph.1 0 _ _ (by omega) rfl 8 (by omega)).trans (Nat.mod_eq_of_lt hm.start)
        rw [tramp4 hcore he hob, toRegister_eq (c := c) (b := b) (h.apics hm.apics).1 hm.apics] at hs
        cases hs
        refine ⟨hpc, rfl, ?_⟩
        simp only [upd_same, coreRank, regs_length]; omega
    | kernel r rest =>
      cases rest with
      | nil =>
        simp only [coreStep, hcore] at hs
        by_cases he : r.rsi = c.flagAddr
        · rw [if_pos he] at hs; cases hs
          exact ⟨hpc, rfl, by simp only [upd_same, coreRank]; omega⟩
        · rw [if_neg he] at hs; cases hs; cases hh
      | cons x rest =>
        simp only [coreStep, hcore] at hs
        by_cases hmax : s.next x > c.maxThreads
        · rw [if_pos hmax] at hs; cases hs; cases hh
        · rw [if_neg hmax] at hs; cases hs
          exact ⟨hpc, rfl, by simp only [upd_same, coreRank, List.length_cons]; omega⟩
  simp only [rank, hpc, key.1, key.2.1, ht]
  omega

theorem rank_step {c : Cfg} {s0 s s' : St} {old : List Prep} {cur : Option Prep} {x : Act} (hm : Machine c s0.pages)
    (h : Inv c s0 old cur s) (hs : step c s x = some s') (hh : s'.halt = none) : rank c s' < rank c s := by
  unfold step at hs
  cases x with
  | bsp p e =>
    simp only at hs
    split at hs
    · cases hs
    · exact rank_bsp h hs hh
  | core a =>
    simp only at hs
    split at hs
    · cases hs
    · exact rank_core hm h hs hh
  | timeout =>
    simp only at hs
    split at hs
    · cases hs
    · unfold timeout at hs
      split at hs
      · split at hs
        · cases hs
        · cases hs; cases hh
      · cases hs

theorem step_halt {c : Cfg} {s s' : St} {x : Act} (hs : step c s x = some s') : s.halt = none := by
  cases e : s.halt with
  | none => rfl
  | some y => unfold step at hs; cases x <;> simp [e] at hs

theorem run_rank {c : Cfg} {s0 : St} (hm : Machine c s0.pages) : ∀ (acts : List Act) (s s' : St) (old : List Prep)
    (cur : Option Prep), Inv c s0 old cur s → run c s acts = some s' → s'.halt = none → acts.length + rank c s' ≤ rank c s
  | [], s, s', _, _, _, h, _ => by cases h; simp
  | x :: xs, s, s', old, cur, hi, h, hh => by
    simp only [run] at h
    cases e : step c s x with
    | none => rw [e] at h; cases h
    | some s1 =>
      rw [e] at h
      simp only [Option.bind_some] at h
      obtain ⟨old', cur', hi'⟩ := hi.step hm e
      have ih := run_rank hm xs s1 s' old' cur' hi' h hh
      have h1 : s1.halt = none := by
        cases xs with
        | nil => cases h; exact hh
        | cons y ys =>
          simp only [run] at h
          cases e' : step c s1 y with
          | none => rw [e'] at h; cases h
          | some s2 => exact step_halt e'
      have := rank_step hm hi e h1
      simp only [List.length_cons]; omega

theorem reach_run {c : Cfg} {s0 : St} : ∀ (acts : List Act) (s s' : St), Reach c s0 s → run c s acts = some s' → Reach c s0 s'
  | [], s, s', hr, h => by cases h; exact hr
  | x :: xs, s, s', hr, h => by
    simp only [run] at h
    cases e : step c s x with
    | none => rw [e] at h; cases h
    | some s1 =>
      rw [e] at h
      exact reach_run xs s1 s' (Reach.step hr e) h

/-! ## No panic -/

theorem replicasOf_nodup (m : Nat) (p f : Bool) (n : Nat) : (Spec.replicasOf m p f n).Nodup := by
  unfold Spec.replicasOf
  have hr : ((List.range m).map (Replica.proc n)).Nodup :=
    List.Pairwise.map _ (fun a b hab e => hab (by cases e; rfl)) List.nodup_range
  cases p <;> cases f <;> simp [List.nodup_append, hr]

theorem replicasOf_node {m : Nat} {p f : Bool} {n k : Nat} {x : Replica} (h1 : x ∈ Spec.replicasOf m p f n)
    (h2 : x ∈ Spec.replicasOf m p f k) : n = k := by
  have key : ∀ j, x ∈ Spec.replicasOf m p f j → x = .kernel j ∨ (∃ i, x = .proc j i) ∨ x = .fs j := by
    intro j hj
    unfold Spec.replicasOf at hj
    rcases List.mem_append.1 hj with hj | hj
    · rcases List.mem_append.1 hj with hj | hj
      · exact Or.inl (List.mem_singleton.1 hj)
      · cases p with
        | false => simp at hj
        | true =>
          simp only [if_true] at hj
          obtain ⟨i, _, e⟩ := List.mem_map.1 hj
          exact Or.inr (Or.inl ⟨i, e.symm⟩)
    · cases f with
      | false => simp at hj
      | true => exact Or.inr (Or.inr (by simpa using hj))
  rcases key n h1 with e1 | ⟨i, e1⟩ | e1 <;> rcases key k h2 with e2 | ⟨j, e2⟩ | e2 <;> rw [e1] at e2 <;>
    simp_all

theorem count_le (l : List Prep) (g : Prep → List Replica) (x : Replica) (n : Nat)
    (h : ∀ y ∈ l, (g y).count x ≤ if y.thread.home = n then 1 else 0) :
    (l.flatMap (fun y => (g y).map (fun r => (y.thread.apic, r)))).countP (·.2 == x) ≤ l.countP (·.thread.home == n) := by
  induction l with
  | nil => simp
  | cons y l ih =>
    have ih := ih (fun z hz => h z (List.mem_cons_of_mem _ hz))
    have hy := h y (List.mem_cons_self ..)
    rw [List.flatMap_cons, List.countP_append, List.countP_map, List.countP_cons]
    have e : (g y).countP ((fun z : Nat × Replica => z.2 == x) ∘ (fun r => (y.thread.apic, r))) = (g y).count x := rfl
    rw [e]
    by_cases hn : y.thread.home = n
    · simp only [hn, if_true, beq_self_eq_true] at hy ⊢; omega
    · have hb : (y.thread.home == n) = false := by simpa using hn
      rw [if_neg hn] at hy
      simp only [hb]
      simp; omega

/-- Enough of everything: nodes are numbered from 0 without gaps, each has two large pages (and a
persistent one, where that is used) for each core to start, and not more cores than a replica
takes. -/
structure Enough (c : Cfg) (pages0 pmem0 : Nat → List Nat) : Prop where
  node : ∀ t ∈ c.toBoot, t.home < c.numaNodes
  page : ∀ n, 2 * c.toBoot.countP (·.home == n) ≤ (pages0 n).length
  pm : c.pmemNodes = c.numaNodes → ∀ n, c.toBoot.countP (·.home == n) ≤ (pmem0 n).length
  cores : ∀ n, c.toBoot.countP (·.home == n) + (if n = 0 then 1 else 0) ≤ c.maxThreads

theorem no_panic_bsp {c : Cfg} {m : Bytes} {pages pmem : Nat → List Nat} {paff : Nat} {s s' : St} {old : List Prep}
    {cur : Option Prep} {p e : Nat} (hen : Enough c pages pmem)
    (h : Inv c (St.init c m pages pmem paff) old cur s) (hh : s.halt = none) (he : e ≤ 10)
    (hs : bspStep c s p e = some s') : s'.halt = none := by
  cases hpc : s.pc with
  | done => simp [bspStep, hpc] at hs
  | next =>
    have hc : cur = none := h.idle.2 (Or.inl hpc)
    subst hc
    have hb : s.boots = old := by simpa using h.boots
    cases ht : s.todo with
    | nil =>
      simp only [bspStep, hpc, ht] at hs
      cases hs; exact hh
    | cons t l =>
      simp only [bspStep, hpc, ht] at hs
      obtain ⟨_, _, hs⟩ := prepare_cases hs
      rcases hs with ⟨_, hp⟩ | ⟨st, mem, rest, q, prest, _, _, _, hs⟩
      · exfalso
        have htm : t ∈ c.toBoot := by rw [h.split, ht]; simp
        have hcnt : s.boots.countP (·.thread.home == t.home) + 1 ≤ c.toBoot.countP (·.home == t.home) := by
          rw [h.split, ht, hb, List.countP_append, List.countP_map, List.countP_cons]
          simp only [beq_self_eq_true, if_true]
          have : old.countP ((fun x : Thread => x.home == t.home) ∘ (fun x : Prep => x.thread)) =
            old.countP (·.thread.home == t.home) := rfl
          omega
        rcases hp with hp | hp | ⟨hpm, hp⟩
        · have := hen.node t htm; omega
        · rw [h.pool.pgs, List.length_drop] at hp
          have := hen.page t.home
          have e0 : (St.init c m pages pmem paff).pages = pages := rfl
          rw [e0] at hp
          omega
        · have hn := h.pool.pms t.home
          rw [if_pos hpm, hp] at hn
          have hl := congrArg List.length hn
          rw [List.length_nil, List.length_drop] at hl
          have := hen.pm hpm t.home
          have e0 : (St.init c m pages pmem paff).pmem = pmem := rfl
          rw [e0] at hl
          omega
      · subst hs; exact hh
  | poke k =>
    unfold bspStep at hs
    simp only [hpc] at hs
    split at hs
    · cases hs
    · split at hs
      · cases hs
      · cases hs; exact hh
  | init =>
    unfold bspStep at hs
    simp only [hpc] at hs
    split at hs
    · cases hs
    · cases hs; exact hh
  | startup =>
    unfold bspStep at hs
    simp only [hpc] at hs
    split at hs
    · cases hs
    · rw [if_neg (by omega)] at hs; cases hs; exact hh
  | wait =>
    unfold bspStep at hs
    simp only [hpc] at hs
    split at hs
    · cases hs; exact hh
    · cases hs

theorem no_panic_core {c : Cfg} {m : Bytes} {pages pmem : Nat → List Nat} {paff : Nat} {s s' : St} {old : List Prep}
    {cur : Option Prep} {a : Nat} (hm : Machine c pages) (hen : Enough c pages pmem)
    (h : Inv c (St.init c m pages pmem paff) old cur s) (hh : s.halt = none)
    (hs : coreStep c s a = some s') : s'.halt = none := by
  obtain ⟨b, rfl, rfl, hpc, hnup⟩ := h.who hs
  have hph := h.phase b rfl
  rw [hpc] at hph
  have hok := hph.2.1
  cases hcore : s.core b.thread.apic with
  | off => rw [hcore] at hok; exact hok.elim
  | waitSipi => rw [hcore] at hok; exact hok.elim
  | up r => rw [hcore] at hnup; cases hnup
  | tramp page k r =>
    rw [hcore] at hok
    have hk' : k = 0 ∨ k = 1 ∨ k = 2 ∨ k = 3 ∨ k = 4 := by have := hok.2.1; omega
    rcases hk' with hk' | hk' | hk' | hk' | hk'
    · subst hk'; rw [tramp0 hcore] at hs; cases hs; exact hh
    · subst hk'; rw [tramp1 hcore] at hs; cases hs; exact hh
    · subst hk'; rw [tramp2 hcore] at hs; cases hs; exact hh
    · subst hk'; rw [tramp3 hcore] at hs; cases hs; exact hh
    · subst hk'
      have hbm : b ∈ s.boots := by rw [h.boots]; simp
      have hob : s.objs r.rdi = some (argsOf c b) := by
        rw [hok.2.2.2.2.1 (by omega)]; exact h.pool.obj b hbm
      have he : rd s.mem (entryOff c.codeLen + page * 4096) 8 = c.startAppCore := by
        rw [hok.1, base_page]
        exact (hph.1 0 _ _ (by omega) rfl 8 (by omega)).trans (Nat.mod_eq_of_lt hm.start)
      rw [tramp4 hcore he hob] at hs
      cases hs; exact hh
  | kernel r rest =>
    rw [hcore] at hok
    obtain ⟨rfl, pre, hpre⟩ := hok
    cases rest with
    | nil =>
      simp only [coreStep, hcore, entryOf, if_true, Option.some.injEq] at hs
      subst hs; exact hh
    | cons x rest =>
      simp only [coreStep, hcore] at hs
      have hle : s.next x ≤ c.maxThreads := by
        have hx : x ∈ Spec.replicasOf c.maxProc c.procs c.fs b.thread.home := by
          have : x ∈ regs c b := by rw [hpre]; simp
          exact this
        have hcount : ∀ y : Prep, (regs c y).count x ≤ if y.thread.home = b.thread.home then 1 else 0 := by
          intro y
          by_cases e : y.thread.home = b.thread.home
          · rw [if_pos e]
            exact List.nodup_iff_count.1 (replicasOf_nodup ..) x
          · rw [if_neg e]
            refine Nat.le_of_eq (List.count_eq_zero.2 ?_)
            intro hmem
            exact e (replicasOf_node hmem hx)
        have hold : s.toks.countP (·.2.1 == x) ≤ old.countP (·.thread.home == b.thread.home) := by
          have e1 : s.toks.countP (·.2.1 == x) = (s.toks.map (fun y => (y.1, y.2.1))).countP (·.2 == x) := by
            rw [List.countP_map]; rfl
          rw [e1, h.tok.who, h.boots, List.flatMap_append, List.countP_append]
          have e2 : (List.flatMap (fun y => (got c y (s.core y.thread.apic)).map (fun r => (y.thread.apic, r)))
              (some b).toList).countP (·.2 == x) = 0 := by
            simp only [Option.toList_some, List.flatMap_cons, List.flatMap_nil, List.append_nil, hcore, got]
            have : (regs c b).take ((regs c b).length - (x :: rest).length) = pre := by
              rw [hpre]; simp
            rw [this, List.countP_map]
            have hnd : (regs c b).Nodup := replicasOf_nodup ..
            rw [hpre, List.nodup_append] at hnd
            have hnot : x ∉ pre := fun hmem => hnd.2.2 x hmem x (by simp) rfl
            exact List.count_eq_zero.2 hnot
          rw [e2, Nat.add_zero]
          apply count_le
          intro y hy
          rw [h.up y hy]
          exact hcount y
        have hnx := h.tok.nxt x
        have hn0 : (St.init c m pages pmem paff).next x ≤ 1 + (if b.thread.home = 0 then 1 else 0) := by
          change (if x ∈ Spec.replicasOf c.maxProc c.procs c.fs 0 then 2 else 1) ≤ _
          by_cases e : b.thread.home = 0
          · rw [if_pos e]; split <;> omega
          · have : x ∉ Spec.replicasOf c.maxProc c.procs c.fs 0 := fun hmem => e (replicasOf_node hx hmem)
            rw [if_neg this, if_neg e]; omega
        obtain ⟨l, ht⟩ := h.todo_cons
        have hcnt : old.countP (·.thread.home == b.thread.home) + 1 ≤ c.toBoot.countP (·.home == b.thread.home) := by
          rw [h.split, ht, List.countP_append, List.countP_map, List.countP_cons]
          simp only [beq_self_eq_true, if_true]
          have : old.countP ((fun x : Thread => x.home == b.thread.home) ∘ (fun x : Prep => x.thread)) =
            old.countP (·.thread.home == b.thread.home) := rfl
          omega
        have hco := hen.cores b.thread.home
        omega
      rw [if_neg (by omega)] at hs
      cases hs; exact hh

end NRK.Coreboot
