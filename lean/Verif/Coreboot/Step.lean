import Verif.Coreboot.Inv

/-! # The steps keep the invariant of core booting (C92) -/

namespace NRK.Coreboot

open Spec (Thread Replica Ipi Entry Args)

theorem countP_append_one {α : Type} (p : α → Bool) (l : List α) (x : α) :
    (l ++ [x]).countP p = l.countP p + (if p x then 1 else 0) := by
  rw [List.countP_append, List.countP_cons, List.countP_nil]; omega

theorem drop_eq_cons₂ {α : Type} {l : List α} {k : Nat} {x y : α} {r : List α} (h : l.drop k = x :: y :: r) :
    l.drop (k + 2) = r ∧ x ∈ l ∧ y ∈ l := by
  refine ⟨?_, ?_, ?_⟩
  · rw [← List.drop_drop, h]; rfl
  · exact List.mem_of_mem_drop (by rw [h]; simp : x ∈ l.drop k)
  · exact List.mem_of_mem_drop (by rw [h]; simp : y ∈ l.drop k)

theorem Pool.add {c : Cfg} {pages0 pmem0 pages pmem : Nat → List Nat} {objs : Nat → Option Args} {boots : List Prep}
    (hm : Machine c pages0) (h : Pool c pages0 pmem0 pages pmem objs boots) {t : Thread} {p st mem : Nat}
    {rest prest : List Nat} {q : Option Nat} (hp : objs p = none) (hlt : p < 256 ^ 8)
    (hh : t.home < c.numaNodes) (hpg : pages t.home = st :: mem :: rest)
    (hpm : if c.pmemNodes = c.numaNodes then ∃ x, q = some x ∧ pmem t.home = x :: prest
          else q = none ∧ prest = pmem t.home) :
    Pool c pages0 pmem0 (upd pages t.home rest) (upd pmem t.home prest)
      (upd objs p (some (argsOf c ⟨t, st, mem, q, p⟩))) (boots ++ [⟨t, st, mem, q, p⟩]) := by
  have hk := h.pgs t.home
  rw [hpg] at hk
  have hd := drop_eq_cons₂ hk.symm
  have hnd : (pages t.home).Nodup := by
    rw [h.pgs]; exact List.Nodup.sublist (List.drop_sublist _ _) (hm.pages _)
  rw [hpg] at hnd
  have hsub : ∀ n x, x ∈ pages n → x ∈ pages0 n := by
    intro n x hx; rw [h.pgs] at hx; exact List.mem_of_mem_drop hx
  have hst : st ∈ pages t.home := by rw [hpg]; simp
  have hmem : mem ∈ pages t.home := by rw [hpg]; simp
  have hnew : ∀ n x, x ∈ upd pages t.home rest n → x ∈ pages n ∧ x ≠ st ∧ x ≠ mem := by
    intro n x hx
    by_cases e : n = t.home
    · subst e
      rw [upd_same] at hx
      have h1 := List.nodup_cons.1 hnd
      have h2 := List.nodup_cons.1 h1.2
      refine ⟨by rw [hpg]; simp [hx], ?_, ?_⟩
      · rintro rfl; exact h1.1 (List.mem_cons_of_mem _ hx)
      · rintro rfl; exact h2.1 hx
    · rw [upd_other _ _ e] at hx
      refine ⟨hx, ?_, ?_⟩
      · rintro rfl; exact e (hm.nodes _ _ _ (hsub _ _ hx) hd.2.1)
      · rintro rfl; exact e (hm.nodes _ _ _ (hsub _ _ hx) hd.2.2)
  have hu : used (boots ++ [⟨t, st, mem, q, p⟩]) = used boots ++ [st, mem] := by
    simp [used]
  constructor
  case pgs =>
    intro n
    rw [countP_append_one]
    by_cases e : n = t.home
    · subst e
      rw [upd_same]
      simp only [beq_self_eq_true, if_true]
      rw [Nat.mul_add]
      exact hd.1.symm
    · rw [upd_other _ _ e]
      have : (t.home == n) = false := by simpa using fun e' : t.home = n => e e'.symm
      simp only [this]
      exact h.pgs n
  case pms =>
    intro n
    have hn := h.pms n
    by_cases hc : c.pmemNodes = c.numaNodes
    · simp only [hc, if_true] at hpm hn ⊢
      obtain ⟨x, _, hx⟩ := hpm
      rw [countP_append_one]
      by_cases e : n = t.home
      · subst e
        rw [upd_same]
        simp only [beq_self_eq_true, if_true]
        rw [← List.drop_drop, ← hn, hx]; rfl
      · rw [upd_other _ _ e]
        have : (t.home == n) = false := by simpa using fun e' : t.home = n => e e'.symm
        simp only [this]
        exact hn
    · simp only [hc, if_false] at hpm hn ⊢
      by_cases e : n = t.home
      · subst e; rw [upd_same, hpm.2]; exact hn
      · rw [upd_other _ _ e]; exact hn
  case stack =>
    intro b hb
    rcases List.mem_append.1 hb with hb | hb
    · exact h.stack b hb
    · rw [List.mem_singleton.1 hb]; exact hd.2.1
  case mem =>
    intro b hb
    rcases List.mem_append.1 hb with hb | hb
    · exact h.mem b hb
    · rw [List.mem_singleton.1 hb]; exact hd.2.2
  case pm =>
    intro b hb
    rcases List.mem_append.1 hb with hb | hb
    · exact h.pm b hb
    · rw [List.mem_singleton.1 hb]
      by_cases hc : c.pmemNodes = c.numaNodes
      · simp only [hc, if_true] at hpm ⊢
        obtain ⟨x, hq, hx⟩ := hpm
        refine ⟨x, hq, ?_⟩
        have hn := h.pms t.home
        simp only [hc, if_true] at hn
        exact List.mem_of_mem_drop (by rw [← hn, hx]; simp)
      · simp only [hc, if_false] at hpm ⊢
        exact hpm.1
  case home =>
    intro b hb
    rcases List.mem_append.1 hb with hb | hb
    · exact h.home b hb
    · rw [List.mem_singleton.1 hb]; exact hh
  case obj =>
    intro b hb
    rcases List.mem_append.1 hb with hb | hb
    · have : b.argp ≠ p := by
        intro e
        have := h.obj b hb
        rw [e, hp] at this; cases this
      rw [upd_other _ _ this]; exact h.obj b hb
    · rw [List.mem_singleton.1 hb, upd_same]
  case argp =>
    intro b hb
    rcases List.mem_append.1 hb with hb | hb
    · exact h.argp b hb
    · rw [List.mem_singleton.1 hb]; exact hlt
  case fresh =>
    intro x hx hmem
    by_cases e : x = p
    · subst e; rw [upd_same] at hx; cases hx
    · rw [upd_other _ _ e] at hx
      rw [List.map_append, List.mem_append] at hmem
      rcases hmem with hmem | hmem
      · exact h.fresh x hx hmem
      · simp at hmem; exact e hmem
  case argps =>
    rw [List.map_append, List.nodup_append]
    refine ⟨h.argps, by simp, ?_⟩
    intro x hx y hy e
    simp at hy
    subst hy; subst e
    exact h.fresh _ hp hx
  case nodup =>
    rw [hu, List.nodup_append]
    refine ⟨h.nodup, ?_, ?_⟩
    · have h1 := (List.nodup_cons.1 hnd).1
      simp only [List.mem_cons, not_or] at h1
      simpa using h1.1
    · intro x hx y hy e
      subst e
      rcases List.mem_cons.1 hy with e | hy
      · exact h.left x hx t.home (e ▸ hst)
      · exact h.left x hx t.home (List.mem_singleton.1 hy ▸ hmem)
  case left =>
    intro x hx n hn
    have hn' := hnew n x hn
    rw [hu] at hx
    rcases List.mem_append.1 hx with hx | hx
    · exact h.left x hx n hn'.1
    · rcases List.mem_cons.1 hx with e | hx
      · exact hn'.2.1 e
      · exact hn'.2.2 (List.mem_singleton.1 hx)

/-! ## The BSP -/

theorem Inv.next_step {c : Cfg} {s0 s s' : St} {old : List Prep} {cur : Option Prep} {p e : Nat}
    (hm : Machine c s0.pages) (h : Inv c s0 old cur s) (hpc : s.pc = .next) (hs : bspStep c s p e = some s') :
    ∃ old' cur', Inv c s0 old' cur' s' := by
  have hc : cur = none := h.idle.2 (Or.inl hpc)
  subst hc
  have hb : s.boots = old := by simpa using h.boots
  unfold bspStep at hs
  simp only [hpc] at hs
  cases ht : s.todo with
  | nil =>
    have hs : some { s with pc := .done } = some s' := by rw [← hs]; simp only [ht]
    cases hs
    refine ⟨old, none, ?_⟩
    exact ⟨h.boots, h.split, h.head, ⟨fun _ => Or.inr rfl, fun _ => rfl⟩, fun _ => ht, h.pool, h.up, h.off,
      (fun b e => by cases e), h.sent, h.tok, h.aff, h.low⟩
  | cons t l =>
    simp only [ht] at hs
    obtain ⟨hp, hlt, hs⟩ := prepare_cases hs
    rcases hs with ⟨hs, _⟩ | ⟨st, mem, rest, q, prest, hh, hpg, hpm, hs⟩
    · subst hs; exact ⟨old, none, h.halt _⟩
    · subst hs
      have hnot : t.apic ∉ s.boots.map (·.thread.apic) := by
        have hsub : (c.toBoot.map (·.apic)).Nodup :=
          List.Nodup.sublist (List.Sublist.map _ List.filter_sublist) hm.apics
        rw [h.split, ht, List.map_append, List.nodup_append] at hsub
        intro hmem
        rw [hb] at hmem
        obtain ⟨x, hx, hx'⟩ := List.mem_map.1 hmem
        exact hsub.2.2 t.apic (by simpa using ⟨x, hx, hx'⟩) t.apic (by simp) rfl
      have hoff := h.off t.apic hnot
      refine ⟨old, some ⟨t, st, mem, q, p⟩, ?_⟩
      constructor
      case boots => simp [hb]
      case split => exact h.split
      case head => intro b hb'; cases hb'; simp [ht]
      case idle => simp
      case fin => intro h'; cases h'
      case pool => exact h.pool.add hm hp hlt hh hpg hpm
      case up => exact h.up
      case off =>
        intro a ha
        apply h.off
        intro ha'
        apply ha
        simp only [List.map_append]
        exact List.mem_append_left _ ha'
      case phase =>
        intro b hb'
        cases hb'
        exact ⟨by omega, fun j _ _ hj => absurd hj (Nat.not_lt_zero j), hoff, rfl⟩
      case sent =>
        have := h.sent
        simp only [Option.toList_none, List.flatMap_nil, List.append_nil] at this
        simp [this, sentTail]
      case tok =>
        refine ⟨?_, h.tok.nxt, h.tok.range, h.tok.nodup⟩
        rw [List.flatMap_append, h.tok.who]
        simp [hoff, got]
      case aff => intro h'; cases h'
      case low =>
        intro x hx
        simp only [copyCode, if_neg hx]
        exact h.low x hx

theorem Inv.poke_step {c : Cfg} {s0 s s' : St} {old : List Prep} {cur : Option Prep} {p e k : Nat}
    (h : Inv c s0 old cur s) (hpc : s.pc = .poke k) (hs : bspStep c s p e = some s') :
    ∃ old' cur', Inv c s0 old' cur' s' := by
  cases hcur : cur with
  | none => subst hcur; have := h.idle.1 rfl; rw [hpc] at this; rcases this with e | e <;> cases e
  | some b =>
    subst hcur
    have hph := h.phase b rfl
    rw [hpc] at hph
    obtain ⟨hk, hw, hoff, hfl⟩ := hph
    unfold bspStep at hs
    have hlast : s.boots.getLast? = some b := by rw [h.boots]; simp
    obtain ⟨a, v, hpk⟩ := poke_some c b hk
    simp only [hpc, hlast, hpk, Option.some.injEq] at hs
    subst hs
    have hw' := hw.poke hpk
    have hr := poke_range c b hpk
    refine ⟨old, some b, ?_⟩
    have hne : (if k + 1 < 5 then BPc.poke (k + 1) else BPc.init) ≠ .next ∧
        (if k + 1 < 5 then BPc.poke (k + 1) else BPc.init) ≠ .done := by
      by_cases hk' : k + 1 < 5
      · rw [if_pos hk']; exact ⟨by simp, by simp⟩
      · rw [if_neg hk']; exact ⟨by simp, by simp⟩
    constructor
    case boots => exact h.boots
    case split => exact h.split
    case head => exact h.head
    case idle =>
      constructor
      · intro e; cases e
      · intro e; rcases e with e | e
        · exact absurd e hne.1
        · exact absurd e hne.2
    case fin => intro e; exact absurd e hne.2
    case pool => exact h.pool
    case up => exact h.up
    case off => exact h.off
    case phase =>
      intro b' e
      cases e
      by_cases hk' : k + 1 < 5
      · simp only [if_pos hk']; exact ⟨hk', hw', hoff, hfl⟩
      · have : k = 4 := by omega
        subst this
        exact ⟨hw', hoff, hfl⟩
    case sent =>
      have := h.sent
      rw [hpc] at this
      rw [this]
      by_cases hk' : k + 1 < 5
      · simp [if_pos hk', sentTail]
      · simp [if_neg hk', sentTail]
    case tok => exact h.tok
    case aff => intro e; cases e
    case low =>
      intro x hx
      have : ¬ (a ≤ x ∧ x < a + 8) := by omega
      simp only [w64, if_neg this]
      exact h.low x hx

theorem Inv.wake_step {c : Cfg} {s0 s s' : St} {old : List Prep} {cur : Option Prep} {p e : Nat}
    (hm : Machine c s0.pages) (h : Inv c s0 old cur s) (hpc : s.pc = .init ∨ s.pc = .startup ∨ s.pc = .wait)
    (hs : bspStep c s p e = some s') : ∃ old' cur', Inv c s0 old' cur' s' := by
  cases hcur : cur with
  | none =>
    subst hcur; have := h.idle.1 rfl
    rcases hpc with e' | e' | e' <;> rw [e'] at this <;> rcases this with e | e <;> cases e
  | some b =>
    subst hcur
    have hap := h.apics hm.apics
    have hph := h.phase b rfl
    have hh := h.head b rfl
    obtain ⟨l, ht⟩ : ∃ l, s.todo = b.thread :: l := by
      cases e : s.todo with
      | nil => rw [e] at hh; cases hh
      | cons t l => rw [e] at hh; simp at hh; exact ⟨l, by rw [hh]⟩
    have hbo : ∀ x ∈ s.boots, x = b ∨ x ∈ old := by
      intro x hx; rw [h.boots] at hx; simp at hx; exact hx.symm
    have hbm : b ∈ s.boots := by rw [h.boots]; simp
    have hup : ∀ (x : Core), ∀ y ∈ old, upd s.core b.thread.apic x y.thread.apic = .up (entryOf c y) := by
      intro x y hy; rw [upd_other _ _ (hap.2 y hy)]; exact h.up y hy
    have hofs : ∀ (x : Core) a, a ∉ s.boots.map (·.thread.apic) → upd s.core b.thread.apic x a = .off := by
      intro x a ha
      have : a ≠ b.thread.apic := by rintro rfl; exact ha (List.mem_map_of_mem hbm)
      rw [upd_other _ _ this]; exact h.off a ha
    have hgot : ∀ (x : Core), got c b x = got c b (s.core b.thread.apic) →
        Tok c s0.next s.next s.toks s.boots (upd s.core b.thread.apic x) := by
      intro x hx
      apply h.tok.frame
      intro y hy
      rcases hbo y hy with rfl | hy
      · rw [upd_same]; exact hx
      · rw [upd_other _ _ (hap.2 y hy)]
    rcases hpc with hpc | hpc | hpc
    · rw [hpc] at hph
      obtain ⟨hw, hoff, hfl⟩ := hph
      have hs : some { recvInit s b.thread.apic with pc := .startup } = some s' := by
        rw [← hs]; simp only [bspStep, hpc, ht, recvInit]
      cases hs
      refine ⟨old, some b, ?_⟩
      refine ⟨h.boots, h.split, h.head, by simp, by simp, h.pool, hup _, hofs _, ?_, ?_, ?_, by simp, h.low⟩
      · intro b' e; cases e
        exact ⟨hw, by simp only [recvInit, upd_same], hfl⟩
      · have := h.sent
        rw [hpc] at this
        simp only [recvInit, this]; simp [sentTail]
      · apply hgot; rw [hoff]; rfl
    · rw [hpc] at hph
      obtain ⟨hw, hwait, hfl⟩ := hph
      have hs : (if e > 10 then some { s with halt := some .hang }
          else some { recvStartup s b.thread.apic REAL_MODE_PAGE with pc := .wait }) = some s' := by
        rw [← hs]; simp only [bspStep, hpc, ht, recvStartup]
      by_cases he : e > 10
      · rw [if_pos he] at hs; cases hs; exact ⟨old, some b, h.halt _⟩
      · rw [if_neg he] at hs
        simp only [recvStartup, hwait, if_true, Option.some.injEq] at hs
        subst hs
        refine ⟨old, some b, ?_⟩
        refine ⟨h.boots, h.split, h.head, by simp, by simp, h.pool, hup _, hofs _, ?_, ?_, ?_, by simp, h.low⟩
        · intro b' e; cases e
          simp only [upd_same]
          exact ⟨hw, ⟨rfl, by omega, by omega, by omega, by omega, by omega⟩, hfl⟩
        · have := h.sent
          rw [hpc] at this
          rw [this]; simp [sentTail, Spec.wake]
        · apply hgot; rw [hwait]; rfl
    · rw [hpc] at hph
      obtain ⟨hw, hok, hfl⟩ := hph
      simp only [bspStep, hpc] at hs
      cases hf : s.flag with
      | false => rw [hf] at hs; simp at hs
      | true =>
        rw [hf] at hs hfl
        simp only [if_true, Option.some.injEq] at hs
        subst hs
        have hcore : s.core b.thread.apic = .up (entryOf c b) := by
          cases e : s.core b.thread.apic with
          | up r => rw [e] at hok; rw [show r = entryOf c b from hok]
          | off => rw [e] at hok; exact hok.elim
          | waitSipi => rw [e] at hok; exact hok.elim
          | tramp _ _ _ => rw [e] at hfl; cases hfl
          | kernel _ _ => rw [e] at hfl; cases hfl
        refine ⟨old ++ [b], none, ?_⟩
        refine ⟨by simp [h.boots], ?_, by simp, by simp, by simp, h.pool, ?_, h.off, by simp, ?_, h.tok, by simp, h.low⟩
        · simp [h.split, ht]
        · intro x hx
          rcases List.mem_append.1 hx with hx | hx
          · exact h.up x hx
          · rw [List.mem_singleton.1 hx]; exact hcore
        · have := h.sent
          rw [hpc] at this
          rw [this]; simp [sentTail]

theorem Inv.bsp {c : Cfg} {s0 s s' : St} {old : List Prep} {cur : Option Prep} {p e : Nat}
    (hm : Machine c s0.pages) (h : Inv c s0 old cur s) (hs : bspStep c s p e = some s') :
    ∃ old' cur', Inv c s0 old' cur' s' := by
  cases hpc : s.pc with
  | next => exact h.next_step hm hpc hs
  | poke k => exact h.poke_step hpc hs
  | init => exact h.wake_step hm (Or.inl hpc) hs
  | startup => exact h.wake_step hm (Or.inr (Or.inl hpc)) hs
  | wait => exact h.wake_step hm (Or.inr (Or.inr hpc)) hs
  | done => simp [bspStep, hpc] at hs

end NRK.Coreboot
