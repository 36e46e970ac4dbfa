import Verif.Coreboot.Step

/-! # The steps of a starting core keep the invariant of core booting (C92) -/

namespace NRK.Coreboot

open Spec (Thread Replica Ipi Entry Args)

/-- Only the core that is being started takes steps. -/
theorem Inv.who {c : Cfg} {s0 s s' : St} {old : List Prep} {cur : Option Prep} {a : Nat}
    (h : Inv c s0 old cur s) (hs : coreStep c s a = some s') :
    ∃ b, cur = some b ∧ a = b.thread.apic ∧ s.pc = .wait ∧ (s.core a).isUp = false := by
  have hne : s.core a ≠ .off ∧ (∀ r, s.core a ≠ .up r) ∧ s.core a ≠ .waitSipi := by
    refine ⟨?_, ?_, ?_⟩
    · intro e; simp [coreStep, e] at hs
    · intro r e; simp [coreStep, e] at hs
    · intro e; simp [coreStep, e] at hs
  have hup : (s.core a).isUp = false := by
    cases e : s.core a with
    | up r => exact absurd e (hne.2.1 r)
    | off => rfl
    | waitSipi => rfl
    | tramp _ _ _ => rfl
    | kernel _ _ => rfl
  by_cases ha : a ∈ s.boots.map (·.thread.apic)
  · obtain ⟨b, hb, rfl⟩ := List.mem_map.1 ha
    rw [h.boots] at hb
    rcases List.mem_append.1 hb with hb | hb
    · exact absurd (h.up b hb) (hne.2.1 _)
    · have hc : cur = some b := by simpa using hb
      refine ⟨b, hc, rfl, ?_, hup⟩
      have hph := h.phase b hc
      cases hpc : s.pc with
      | wait => rfl
      | next => rw [hpc] at hph; exact hph.elim
      | done => rw [hpc] at hph; exact hph.elim
      | poke k => rw [hpc] at hph; exact absurd hph.2.2.1 hne.1
      | init => rw [hpc] at hph; exact absurd hph.2.1 hne.1
      | startup => rw [hpc] at hph; exact absurd hph.2.1 hne.2.2
  · exact absurd (h.off a ha) hne.1

/-- The core that is being started moves on, nothing else changes. -/
theorem Inv.core {c : Cfg} {s0 s : St} {old : List Prep} {b : Prep} (hm : Machine c s0.pages)
    (h : Inv c s0 old (some b) s) (hpc : s.pc = .wait) (x : Core) (hx : CoreOk c b x) (flag : Bool)
    (hf : flag = x.isUp) (next : Replica → Nat) (toks : List (Nat × Replica × Nat))
    (ht : Tok c s0.next next toks s.boots (upd s.core b.thread.apic x)) :
    Inv c s0 old (some b) { s with core := upd s.core b.thread.apic x, flag := flag, next := next, toks := toks } := by
  have hap := h.apics hm.apics
  have hph := h.phase b rfl
  rw [hpc] at hph
  have hbm : b ∈ s.boots := by rw [h.boots]; simp
  refine ⟨h.boots, h.split, h.head, h.idle, h.fin, h.pool, ?_, ?_, ?_, h.sent, ht, h.aff, h.low⟩
  · intro y hy; exact (upd_other _ _ (hap.2 y hy)).trans (h.up y hy)
  · intro a ha
    have : a ≠ b.thread.apic := by rintro rfl; exact ha (List.mem_map_of_mem hbm)
    exact (upd_other _ _ this).trans (h.off a ha)
  · intro b' e; cases e
    simp only [hpc, upd_same]
    exact ⟨hph.1, hx, hf⟩

theorem Inv.tok_same {c : Cfg} {s0 s : St} {old : List Prep} {b : Prep} (hm : Machine c s0.pages)
    (h : Inv c s0 old (some b) s) (x : Core) (hx : got c b x = got c b (s.core b.thread.apic)) :
    Tok c s0.next s.next s.toks s.boots (upd s.core b.thread.apic x) := by
  have hap := h.apics hm.apics
  apply h.tok.frame
  intro y hy
  rw [h.boots] at hy
  rcases List.mem_append.1 hy with hy | hy
  · rw [upd_other _ _ (hap.2 y hy)]
  · have : y = b := by simpa using hy
    subst this
    rw [upd_same]; exact hx

theorem Tok.add {c : Cfg} {n0 n : Replica → Nat} {toks : List (Nat × Replica × Nat)} {boots : List Prep}
    {core core' : Nat → Core} (h : Tok c n0 n toks boots core) (a : Nat) (x : Replica) (hle : n x ≤ c.maxThreads)
    (hw : boots.flatMap (fun b => (got c b (core' b.thread.apic)).map (fun r => (b.thread.apic, r))) =
      boots.flatMap (fun b => (got c b (core b.thread.apic)).map (fun r => (b.thread.apic, r))) ++ [(a, x)]) :
    Tok c n0 (upd n x (n x + 1)) (toks ++ [(a, x, n x)]) boots core' := by
  constructor
  case who => rw [List.map_append, h.who, hw]; rfl
  case nxt =>
    intro r
    rw [countP_append_one]
    by_cases e : r = x
    · subst e
      rw [upd_same, h.nxt r]
      simp; omega
    · rw [upd_other _ _ e, h.nxt r]
      have : (x == r) = false := by simpa using fun e' : x = r => e e'.symm
      simp [this]
  case range =>
    intro y hy
    rcases List.mem_append.1 hy with hy | hy
    · have := h.range y hy
      refine ⟨this.1, ?_, this.2.2⟩
      by_cases e : y.2.1 = x
      · rw [e, upd_same]; rw [e] at this; omega
      · rw [upd_other _ _ e]; exact this.2.1
    · rw [List.mem_singleton.1 hy]
      simp only [upd_same]
      have := h.nxt x
      omega
  case nodup =>
    rw [List.map_append, List.nodup_append]
    refine ⟨h.nodup, by simp, ?_⟩
    intro y hy z hz e
    simp only [List.map_cons, List.map_nil, List.mem_singleton] at hz
    subst e; subst hz
    obtain ⟨w, hw1, hw2⟩ := List.mem_map.1 hy
    have := (h.range w hw1).2.1
    rw [hw2] at this
    simp at this

theorem take_snoc {α : Type} {l pre rest : List α} {x : α} (h : l = pre ++ x :: rest) :
    l.take (l.length - rest.length) = l.take (l.length - (x :: rest).length) ++ [x] := by
  subst h
  have e1 : (pre ++ x :: rest).length - rest.length = pre.length + 1 := by simp; omega
  have e2 : (pre ++ x :: rest).length - (x :: rest).length = pre.length := by simp
  rw [e1, e2]
  simp [List.take_append, List.take_of_length_le]

theorem tramp0 {c : Cfg} {s : St} {a page : Nat} {r : Entry} (h : s.core a = .tramp page 0 r) :
    coreStep c s a = some { s with core := upd s.core a (.tramp page 1
      { r with cr3 := rd s.mem (pml4Off c.codeLen + REAL_MODE_BASE) 4 }) } := by
  simp only [coreStep, h]

theorem tramp1 {c : Cfg} {s : St} {a page : Nat} {r : Entry} (h : s.core a = .tramp page 1 r) :
    coreStep c s a = some { s with core := upd s.core a (.tramp page 2
      { r with rsp := rd s.mem (stackOff c.codeLen + page * 4096) 8 }) } := by
  simp only [coreStep, h]

theorem tramp2 {c : Cfg} {s : St} {a page : Nat} {r : Entry} (h : s.core a = .tramp page 2 r) :
    coreStep c s a = some { s with core := upd s.core a (.tramp page 3
      { r with rdi := rd s.mem (arg1Off c.codeLen + REAL_MODE_BASE) 8 }) } := by
  simp only [coreStep, h]

theorem tramp3 {c : Cfg} {s : St} {a page : Nat} {r : Entry} (h : s.core a = .tramp page 3 r) :
    coreStep c s a = some { s with core := upd s.core a (.tramp page 4
      { r with rsi := rd s.mem (lockOff c.codeLen + REAL_MODE_BASE) 8 }) } := by
  simp only [coreStep, h]

theorem tramp4 {c : Cfg} {s : St} {a page : Nat} {r : Entry} {args : Args} (h : s.core a = .tramp page 4 r)
    (he : rd s.mem (entryOff c.codeLen + page * 4096) 8 = c.startAppCore) (ho : s.objs r.rdi = some args) :
    coreStep c s a = some { s with core := upd s.core a (.kernel { r with entry := c.startAppCore }
      (toRegister c a args)) } := by
  simp only [coreStep, h, he, if_true, ho]

theorem Inv.core_step {c : Cfg} {s0 s s' : St} {old : List Prep} {cur : Option Prep} {a : Nat}
    (hm : Machine c s0.pages) (h : Inv c s0 old cur s) (hs : coreStep c s a = some s') :
    ∃ old' cur', Inv c s0 old' cur' s' := by
  obtain ⟨b, rfl, rfl, hpc, hnup⟩ := h.who hs
  have hph := h.phase b rfl
  rw [hpc] at hph
  obtain ⟨hw, hok, hfl⟩ := hph
  rw [hnup] at hfl
  have hbm : b ∈ s.boots := by rw [h.boots]; simp
  have hap := h.apics hm.apics
  refine ⟨old, some b, ?_⟩
  cases hcore : s.core b.thread.apic with
  | off => rw [hcore] at hok; exact hok.elim
  | waitSipi => rw [hcore] at hok; exact hok.elim
  | up r => rw [hcore] at hnup; cases hnup
  | tramp page k r =>
    rw [hcore] at hok
    obtain ⟨hpg, hk, h0, h1, h2, h3⟩ := hok
    have hwd : ∀ j a v, j < 5 → pokeAt c b j = some (a, v) → v < 256 ^ 8 → rd s.mem a 8 = v := by
      intro j a v hj hp hv
      rw [hw j a v hj hp 8 (Nat.le_refl 8)]; exact Nat.mod_eq_of_lt hv
    have hstk := hm.page _ _ (h.pool.stack b hbm)
    have harg := h.pool.argp b hbm
    have same : ∀ k' r', got c b (.tramp page k' r') = got c b (s.core b.thread.apic) := by
      intro k' r'; rw [hcore]; rfl
    have hbase : ∀ x : Nat, x + page * 4096 = x + REAL_MODE_BASE := by
      intro x; rw [hpg, base_page]
    have hk' : k = 0 ∨ k = 1 ∨ k = 2 ∨ k = 3 ∨ k = 4 := by omega
    rcases hk' with hk' | hk' | hk' | hk' | hk'
    · subst hk'
      rw [tramp0 hcore] at hs
      cases hs
      refine h.core hm hpc _ ?_ _ hfl _ _ (h.tok_same hm _ (same _ _))
      refine ⟨hpg, by omega, fun _ => ?_, by omega, by omega, by omega⟩
      exact hw 2 _ _ (by omega) rfl 4 (by omega)
    · subst hk'
      rw [tramp1 hcore] at hs
      cases hs
      refine h.core hm hpc _ ?_ _ hfl _ _ (h.tok_same hm _ (same _ _))
      refine ⟨hpg, by omega, fun _ => h0 (by omega), fun _ => ?_, by omega, by omega⟩
      simp only [hbase]
      exact hwd 3 _ _ (by omega) rfl hstk
    · subst hk'
      rw [tramp2 hcore] at hs
      cases hs
      refine h.core hm hpc _ ?_ _ hfl _ _ (h.tok_same hm _ (same _ _))
      refine ⟨hpg, by omega, fun _ => h0 (by omega), fun _ => h1 (by omega), fun _ => ?_, by omega⟩
      exact hwd 1 _ _ (by omega) rfl harg
    · subst hk'
      rw [tramp3 hcore] at hs
      cases hs
      refine h.core hm hpc _ ?_ _ hfl _ _ (h.tok_same hm _ (same _ _))
      refine ⟨hpg, by omega, fun _ => h0 (by omega), fun _ => h1 (by omega), fun _ => h2 (by omega),
        fun _ => ?_⟩
      exact hwd 4 _ _ (by omega) rfl hm.flag
    · subst hk'
      have he : rd s.mem (entryOff c.codeLen + page * 4096) 8 = c.startAppCore := by
        rw [hbase]; exact hwd 0 _ _ (by omega) rfl hm.start
      have hr : { r with entry := c.startAppCore } = entryOf c b := by
        have a0 := h0 (by omega); have a1 := h1 (by omega); have a2 := h2 (by omega); have a3 := h3 (by omega)
        cases r
        simp only at a0 a1 a2 a3
        subst a0; subst a1; subst a2; subst a3; rfl
      have hob : s.objs r.rdi = some (argsOf c b) := by
        rw [h2 (by omega)]; exact h.pool.obj b hbm
      rw [tramp4 hcore he hob, hr, toRegister_eq (c := c) (b := b) hap.1 hm.apics] at hs
      cases hs
      refine h.core hm hpc (.kernel (entryOf c b) (regs c b)) ⟨rfl, [], rfl⟩ _ hfl _ _ (h.tok_same hm _ ?_)
      rw [hcore]
      simp [got]
  | kernel r rest =>
    rw [hcore] at hok
    obtain ⟨rfl, pre, hpre⟩ := hok
    cases rest with
    | nil =>
      simp only [coreStep, hcore, entryOf, if_true, Option.some.injEq] at hs
      subst hs
      refine h.core hm hpc (.up (entryOf c b)) rfl _ rfl _ _ (h.tok_same hm _ ?_)
      rw [hcore]
      simp [got]
    | cons x rest =>
      simp only [coreStep, hcore] at hs
      by_cases hmax : s.next x > c.maxThreads
      · rw [if_pos hmax] at hs; cases hs; exact h.halt _
      · rw [if_neg hmax] at hs
        cases hs
        refine h.core hm hpc (.kernel (entryOf c b) rest) ⟨rfl, pre ++ [x], by simp [hpre]⟩ _ hfl _ _ ?_
        apply h.tok.add _ _ (by omega)
        have hold : ∀ y ∈ old, upd s.core b.thread.apic (.kernel (entryOf c b) rest) y.thread.apic = s.core y.thread.apic :=
          fun y hy => upd_other _ _ (hap.2 y hy)
        have hflat : old.flatMap (fun y => (got c y (upd s.core b.thread.apic (.kernel (entryOf c b) rest) y.thread.apic)).map
            (fun r => (y.thread.apic, r))) = old.flatMap (fun y => (got c y (s.core y.thread.apic)).map (fun r => (y.thread.apic, r))) := by
          simp only [List.flatMap_def]
          congr 1
          apply List.map_congr_left
          intro y hy
          rw [hold y hy]
        rw [h.boots, List.flatMap_append, List.flatMap_append, hflat, List.append_assoc]
        congr 1
        simp only [Option.toList_some, List.flatMap_cons, List.flatMap_nil, List.append_nil, upd_same, hcore, got]
        rw [take_snoc hpre, List.map_append]; rfl

theorem Inv.step {c : Cfg} {s0 s s' : St} {old : List Prep} {cur : Option Prep} {x : Act}
    (hm : Machine c s0.pages) (h : Inv c s0 old cur s) (hs : step c s x = some s') :
    ∃ old' cur', Inv c s0 old' cur' s' := by
  unfold Coreboot.step at hs
  cases x with
  | bsp p e =>
    simp only at hs
    split at hs
    · cases hs
    · exact h.bsp hm hs
  | timeout =>
    simp only at hs
    split at hs
    · cases hs
    · unfold Coreboot.timeout at hs
      split at hs
      · split at hs
        · cases hs
        · cases hs; exact ⟨old, cur, h.halt _⟩
      · cases hs
  | core a =>
    simp only at hs
    split at hs
    · cases hs
    · exact h.core_step hm hs

theorem Reach.inv {c : Cfg} {m : Bytes} {pages pmem : Nat → List Nat} {paff : Nat} {s : St}
    (hm : Machine c pages) (h : Reach c (St.init c m pages pmem paff) s) :
    ∃ old cur, Inv c (St.init c m pages pmem paff) old cur s := by
  induction h with
  | init => exact ⟨[], none, Inv.init⟩
  | step _ hs ih =>
    obtain ⟨old, cur, hi⟩ := ih
    exact hi.step hm hs

end NRK.Coreboot
