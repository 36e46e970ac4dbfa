import Verif.Coreboot.Model

/-! # Lemmas for C92: words in memory, the layout of `start_ap.S`, the invariant of core booting -/

namespace NRK.Coreboot

open Spec (Thread Replica Ipi Entry Args)

/-! ## Memory -/

theorem rd_congr {m m' : Bytes} : ∀ (k a : Nat), (∀ x, a ≤ x → x < a + k → m x = m' x) → rd m a k = rd m' a k
  | 0, _, _ => rfl
  | k + 1, a, h => by
    have ih := rd_congr k (a + 1) (fun x h1 h2 => h x (by omega) (by omega))
    simp only [rd, ih, h a (Nat.le_refl a) (by omega)]

theorem rd_w64_aux (m : Bytes) (a v : Nat) : ∀ (k j : Nat), j + k ≤ 8 →
    rd (w64 m a v) (a + j) k = v / 256 ^ j % 256 ^ k
  | 0, j, _ => by simp [rd, Nat.mod_one]
  | k + 1, j, h => by
    have ih := rd_w64_aux m a v k (j + 1) (by omega)
    have e : a + j + 1 = a + (j + 1) := by omega
    have hb : w64 m a v (a + j) = v / 256 ^ j % 256 := by
      have h1 : a ≤ a + j ∧ a + j < a + 8 := by omega
      have h2 : a + j - a = j := by omega
      simp only [w64, h1, and_self, if_true, h2]
    simp only [rd, hb, e, ih]
    rw [Nat.pow_succ, ← Nat.div_div_eq_div_mul, Nat.pow_succ, Nat.mul_comm (256 ^ k) 256, Nat.mod_mul]

theorem rd_w64_same (m : Bytes) (a v k : Nat) (h : k ≤ 8) : rd (w64 m a v) a k = v % 256 ^ k := by
  have := rd_w64_aux m a v k 0 (by omega)
  simpa using this

theorem rd_w64_other (m : Bytes) (a a' v k : Nat) (hk : k ≤ 8) (h : a + 8 ≤ a' ∨ a' + 8 ≤ a) :
    rd (w64 m a' v) a k = rd m a k :=
  rd_congr k a (fun x h1 h2 => by
    have : ¬ (a' ≤ x ∧ x < a' + 8) := by omega
    simp only [w64, this, if_false])

/-! ## Layout -/

theorem le_align (x a : Nat) (h : 0 < a) : x ≤ align x a := by
  have h1 := Nat.div_add_mod (x + (a - 1)) a
  have h2 := Nat.mod_lt (x + (a - 1)) h
  have h3 := Nat.mul_comm a ((x + (a - 1)) / a)
  unfold align; omega

theorem layout (n : Nat) : n ≤ gdtOff n ∧ gdtOff n + 66 ≤ arg1Off n ∧ arg1Off n + 32 ≤ stackOff n ∧
    stackOff n + 8 ≤ entryOff n ∧ entryOff n + 8 ≤ lockOff n ∧ lockOff n + 8 ≤ pml4Off n ∧
    pml4Off n + 8 = codeSize n := by
  have h0 := le_align n 16 (by omega)
  have h1 := le_align (gdtPtrOff n + 10) 8 (by omega)
  have h2 := le_align (arg4Off n + 8) 64 (by omega)
  have h3 := le_align (stackOff n + 8) 64 (by omega)
  have h4 := le_align (entryOff n + 8) 64 (by omega)
  have h5 := le_align (lockOff n + 8) 64 (by omega)
  refine ⟨h0, ?_, ?_, h3, h4, h5, rfl⟩
  · simp only [gdtPtrOff] at h1; simp only [arg1Off, gdtPtrOff]; omega
  · simp only [arg4Off] at h2; simp only [stackOff, arg4Off]; omega

theorem base_page : REAL_MODE_PAGE * 4096 = REAL_MODE_BASE := by decide
theorem base_eq : REAL_MODE_BASE = 0x6000 := by decide

theorem poke_disj (c : Cfg) (b : Prep) {j k a v a' v' : Nat} (h : j ≠ k)
    (h1 : pokeAt c b j = some (a, v)) (h2 : pokeAt c b k = some (a', v')) : a + 8 ≤ a' ∨ a' + 8 ≤ a := by
  have hl := layout c.codeLen
  match j, k with
  | 0, 0 | 1, 1 | 2, 2 | 3, 3 | 4, 4 => exact absurd rfl h
  | 0, 1 | 0, 2 | 0, 3 | 0, 4 | 1, 0 | 1, 2 | 1, 3 | 1, 4 | 2, 0 | 2, 1 | 2, 3 | 2, 4 | 3, 0 | 3, 1 | 3, 2 | 3, 4
  | 4, 0 | 4, 1 | 4, 2 | 4, 3 =>
    simp only [pokeAt, bootstrapPointer, Option.some.injEq, Prod.mk.injEq] at h1 h2
    omega
  | n + 5, _ => simp [pokeAt] at h1
  | 0, n + 5 | 1, n + 5 | 2, n + 5 | 3, n + 5 | 4, n + 5 => simp [pokeAt] at h2

theorem poke_range (c : Cfg) (b : Prep) {k a v : Nat} (h : pokeAt c b k = some (a, v)) :
    REAL_MODE_BASE ≤ a ∧ a + 8 ≤ REAL_MODE_BASE + codeSize c.codeLen := by
  have hl := layout c.codeLen
  match k with
  | 0 | 1 | 2 | 3 | 4 =>
    simp only [pokeAt, bootstrapPointer, Option.some.injEq, Prod.mk.injEq] at h
    omega
  | n + 5 => simp [pokeAt] at h

theorem poke_some (c : Cfg) (b : Prep) {k : Nat} (h : k < 5) : ∃ a v, pokeAt c b k = some (a, v) := by
  match k with
  | 0 | 1 | 2 | 3 | 4 => exact ⟨_, _, rfl⟩
  | n + 5 => omega

/-- The first `k` words hold what is meant for `b`. -/
def Words (c : Cfg) (b : Prep) (m : Bytes) (k : Nat) : Prop :=
  ∀ j a v, j < k → pokeAt c b j = some (a, v) → ∀ w, w ≤ 8 → rd m a w = v % 256 ^ w

theorem Words.poke {c : Cfg} {b : Prep} {m : Bytes} {k a v : Nat} (h : Words c b m k)
    (hp : pokeAt c b k = some (a, v)) : Words c b (w64 m a v) (k + 1) := by
  intro j a' v' hj hp' w hw
  by_cases e : j = k
  · subst e
    rw [hp] at hp'
    simp only [Option.some.injEq, Prod.mk.injEq] at hp'
    rw [← hp'.1, ← hp'.2]
    exact rd_w64_same m a v w hw
  · rw [rd_w64_other m a' a v w hw (poke_disj c b e hp' hp)]
    exact h j a' v' (by omega) hp' w hw

/-! ## What is expected of a core -/

/-- The replicas of the core of `b`. -/
def regs (c : Cfg) (b : Prep) : List Replica := Spec.replicasOf c.maxProc c.procs c.fs b.thread.home

def entryOf (c : Cfg) (b : Prep) : Entry :=
  ⟨c.startAppCore, c.pml4 % 256 ^ 4, b.stack + STACK_SIZE, b.argp, c.flagAddr⟩

def argsOf (c : Cfg) (b : Prep) : Args :=
  ⟨b.thread.id, b.thread.home, b.mem, b.pmem, .kernel b.thread.home,
    if c.fs then some (.fs b.thread.home) else none⟩

/-- Sizes that fit a machine word. -/
structure Sizes (c : Cfg) (pages0 : Nat → List Nat) : Prop where
  start : c.startAppCore < 256 ^ 8
  flag : c.flagAddr < 256 ^ 8
  page : ∀ n p, p ∈ pages0 n → p + STACK_SIZE < 256 ^ 8

/-- The topology names each core once, and the pages of the nodes are all different. -/
structure Machine (c : Cfg) (pages0 : Nat → List Nat) : Prop extends Sizes c pages0 where
  apics : (c.threads.map (·.apic)).Nodup
  pages : ∀ n, (pages0 n).Nodup
  nodes : ∀ n m p, p ∈ pages0 n → p ∈ pages0 m → n = m

theorem find_apic (l : List Thread) (t : Thread) (h : t ∈ l) (hn : (l.map (·.apic)).Nodup) :
    l.find? (·.apic == t.apic) = some t := by
  induction l with
  | nil => simp at h
  | cons u l ih =>
    rw [List.map_cons, List.nodup_cons] at hn
    rcases List.mem_cons.1 h with rfl | h
    · simp
    · have : u.apic ≠ t.apic := fun e => hn.1 (e ▸ List.mem_map_of_mem h)
      simp only [List.find?_cons]
      have e : (u.apic == t.apic) = false := by simpa using this
      simp only [e]
      exact ih h hn.2

theorem nodeId_eq {c : Cfg} {t : Thread} (h : t ∈ c.threads) (hn : (c.threads.map (·.apic)).Nodup) :
    c.nodeId t.apic = t.home := by
  unfold Cfg.nodeId Thread.home
  rw [find_apic c.threads t h hn]; rfl

theorem replicas_get {c : Cfg} {n : Nat} (h : n < c.numaNodes) : c.replicas[n]? = some (.kernel n) := by
  unfold Cfg.replicas
  cases n with
  | zero => rfl
  | succ n =>
    rw [List.getElem?_cons_succ, List.getElem?_map, List.getElem?_range' (by omega)]
    simp; omega

theorem fsReplicas_get {c : Cfg} {n : Nat} (h : n < c.numaNodes) (hf : c.fs = true) :
    c.fsReplicas[n]? = some (.fs n) := by
  unfold Cfg.fsReplicas
  simp only [hf, if_true]
  cases n with
  | zero => rfl
  | succ n =>
    rw [List.getElem?_cons_succ, List.getElem?_map, List.getElem?_range' (by omega)]
    simp; omega

theorem toRegister_eq {c : Cfg} {b : Prep} (h : b.thread ∈ c.threads) (hn : (c.threads.map (·.apic)).Nodup) :
    toRegister c b.thread.apic (argsOf c b) = regs c b := by
  unfold toRegister regs Spec.replicasOf argsOf
  rw [nodeId_eq h hn]
  cases c.fs <;> rfl

/-! ## What `prepare` does -/

/-- Either a panic, or a new core is prepared with the next two pages of its node. -/
theorem prepare_cases {c : Cfg} {s s' : St} {t : Thread} {p : Nat} (h : prepare c s t p = some s') :
    s.objs p = none ∧ p < 256 ^ 8 ∧
    (s' = s.panic ∧ (c.numaNodes ≤ t.home ∨ (s.pages t.home).length < 2 ∨
        (c.pmemNodes = c.numaNodes ∧ s.pmem t.home = [])) ∨
      ∃ st mem rest q prest, t.home < c.numaNodes ∧ s.pages t.home = st :: mem :: rest ∧
        (if c.pmemNodes = c.numaNodes then ∃ x, q = some x ∧ s.pmem t.home = x :: prest
          else q = none ∧ prest = s.pmem t.home) ∧
        s' = { s with
            aff := t.home
            paff := if c.pmemNodes = c.numaNodes then t.home else s.paff
            pages := upd s.pages t.home rest
            pmem := upd s.pmem t.home prest
            objs := upd s.objs p (some (argsOf c ⟨t, st, mem, q, p⟩))
            flag := false
            mem := copyCode c.image c.codeLen s.mem
            pc := .poke 0
            boots := s.boots ++ [⟨t, st, mem, q, p⟩] }) := by
  unfold prepare at h
  change (if (s.objs p).isSome ∨ 256 ^ 8 ≤ p then none
    else if t.home ≥ c.numaNodes then some s.panic else _) = some s' at h
  by_cases h0 : (s.objs p).isSome ∨ 256 ^ 8 ≤ p
  · rw [if_pos h0] at h; cases h
  rw [if_neg h0] at h
  have hp : s.objs p = none := by
    cases e : s.objs p with
    | none => rfl
    | some x => exact absurd (Or.inl (by rw [e]; rfl)) h0
  refine ⟨hp, by omega, ?_⟩
  by_cases h1 : t.home ≥ c.numaNodes
  · rw [if_pos h1] at h
    exact Or.inl ⟨(Option.some.inj h).symm, Or.inl h1⟩
  rw [if_neg h1] at h
  have hlt : t.home < c.numaNodes := by omega
  change (match (s.pages t.home).tail with | [] => _ | mem :: rest => _) = some s' at h
  match e : s.pages t.home with
  | [] =>
    simp only [e, List.tail_nil] at h
    exact Or.inl ⟨(Option.some.inj h).symm, Or.inr (Or.inl (by simp))⟩
  | [x] =>
    simp only [e, List.tail_cons] at h
    exact Or.inl ⟨(Option.some.inj h).symm, Or.inr (Or.inl (by simp))⟩
  | st :: mem :: rest =>
    have hr := replicas_get hlt
    have hfs : (if c.fsReplicas.length > 0 then c.fsReplicas[t.home]?.map some else some none) =
        some (if c.fs then some (Replica.fs t.home) else none) := by
      by_cases hf : c.fs = true
      · have hg := fsReplicas_get hlt hf
        have : c.fsReplicas.length > 0 := by
          unfold Cfg.fsReplicas; simp [hf]
        rw [if_pos this, hg, hf]; rfl
      · have : ¬ c.fsReplicas.length > 0 := by
          unfold Cfg.fsReplicas; simp [hf]
        rw [if_neg this]; simp [hf]
    simp only [Thread.home] at e hr hfs h
    simp only [e, List.tail_cons, hr, hfs, List.headD_cons] at h
    by_cases hpm : c.pmemNodes = c.numaNodes
    · simp only [hpm, if_true] at h
      match e2 : s.pmem (t.node.getD 0) with
      | [] =>
        simp only [e2] at h
        exact Or.inl ⟨(Option.some.inj h).symm, Or.inr (Or.inr ⟨hpm, rfl⟩)⟩
      | x :: prest =>
        simp only [e2] at h
        refine Or.inr ⟨st, mem, rest, some x, prest, hlt, by rfl, ?_, ?_⟩
        · rw [if_pos hpm]; exact ⟨x, rfl, rfl⟩
        · simp only [hpm, if_true]; exact (Option.some.inj h).symm
    · simp only [hpm, if_false] at h
      refine Or.inr ⟨st, mem, rest, none, s.pmem (t.node.getD 0), hlt, by rfl, ?_, ?_⟩
      · rw [if_neg hpm]; exact ⟨rfl, rfl⟩
      · simp only [hpm, if_false]; exact (Option.some.inj h).symm

end NRK.Coreboot
