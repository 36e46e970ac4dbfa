import Verif.Cpu.StackModel
import Verif.Heap.HeapWitness
import Verif.Cpu.AsmLemmas

/-! # C72: the stacks of a core -/

namespace NRK.Cpu

open NRK.Mem NRK.Mem.Spec NRK.Heap

/-- The object of the heap that a stack is. -/
def Stack.obj (s : Stack) : Obj := ⟨s.limit, s.size, stackAlign⟩

theorem stackSize_mul : stackSize / stackAlign * stackAlign = stackSize := rfl

theorem stack_new {k : HCfg} {h h' : Heap} {s : Stack} {e : Env} (hn : Stack.new k h stackSize e = (.ok s, h')) :
    s.size = stackSize ∧ h.alloc k stackSize stackAlign e = (.ok (some s.limit), h') := by
  unfold Stack.new at hn
  rw [stackSize_mul] at hn
  split at hn
  · rename_i p h1 he
    cases hn
    exact ⟨rfl, he⟩
  · cases hn

theorem stack_run {k : HCfg} {init : List Block} {h h' : Heap} {objs : List Obj} (r : Run k init h objs) {s : Stack}
    {e : Env} (hn : Stack.new k h stackSize e = (.ok s, h')) : Run k init h' (s.obj :: objs) := by
  obtain ⟨h1, h2⟩ := stack_new hn
  have := r.alloc (by decide) (by decide) (by rw [LARGE_eq]; decide) h2
  unfold Stack.obj
  rw [h1]
  exact this

/-- Between the limits, the alignment a page is freed with makes no difference. -/
theorem drop_eq {k : HCfg} (h : Heap) (p : Nat) (hm : k.maxAlloc < stackSize) (e : Env) :
    h.dealloc k p stackSize 1 e = h.dealloc k p stackSize stackAlign e := by
  have hB : ¬ stackSize ≤ BASE := by rw [BASE_eq]; decide
  have hL : stackSize ≤ LARGE := by rw [LARGE_eq]; decide
  have h1 : 1 ≤ LARGE := by rw [LARGE_eq]; decide
  have h2 : stackAlign ≤ LARGE := by rw [LARGE_eq]; decide
  unfold Heap.dealloc
  rw [if_neg (by omega), if_neg hB, if_pos hL, if_pos h1, if_neg (by omega), if_neg hB, if_pos hL, if_pos h2]

/-- What `install` does. -/
theorem install_steps {k : HCfg} {c c' : Kcb} {h h' : Heap} {es : Envs}
    (hi : c.install k h es = (.ok c', h')) :
    ∃ s1 s2 s3 s4 h1 h2 h3 h4, Stack.new k h stackSize es.e1 = (.ok s1, h1) ∧
      Stack.new k h1 stackSize es.e2 = (.ok s2, h2) ∧ Stack.new k h2 stackSize es.e3 = (.ok s3, h3) ∧
      s3.drop k h3 es.e4 = (.ok (), h4) ∧ Stack.new k h4 stackSize es.e5 = (.ok s4, h') ∧
      c' = { c with rsp0 := s1.base, ist0 := s2.base, ist1 := s3.base, syscallTop := s4.base,
                    interrupt := some s1, fault := some s2, syscall := some s4 } := by
  unfold Kcb.install at hi
  split at hi
  · rename_i s1 h1 e1
    split at hi
    · rename_i s2 h2 e2
      split at hi
      · rename_i s3 h3 e3
        split at hi
        · rename_i c1 h4 e4
          split at hi
          · rename_i s4 h5 e5
            cases hi
            unfold Kcb.setInterruptStacks at e4
            simp only at e4
            split at e4
            · rename_i h4' e6
              cases e4
              exact ⟨s1, s2, s3, s4, h1, h2, h3, h4, e1, e2, e3, e6, e5, rfl⟩
            · cases e4
          · cases hi
        · cases hi
      · cases hi
    · cases hi
  · cases hi

/-- What is left of the debug stack is the next thing that is allocated. -/
theorem reused {k : HCfg} (hk : k.Ok) {init : List Block} {h h' h'' : Heap} {objs : List Obj}
    (r : Run k init h objs) {s t : Stack} (hs : s.size = stackSize) (ho : s.obj ∈ objs) (hm : k.maxAlloc < stackSize)
    {e e' : Env} (hd : s.drop k h e = (.ok (), h')) (hn : Stack.new k h' stackSize e' = (.ok t, h'')) :
    t = s := by
  have hL : stackSize ≤ LARGE := by rw [LARGE_eq]; decide
  have inv := r.inv hk
  have hob : s.obj = ⟨s.limit, stackSize, stackAlign⟩ := by unfold Stack.obj; rw [hs]
  unfold Stack.drop at hd
  rw [hs, drop_eq h _ hm] at hd
  rw [hob] at ho
  have inv' := (Run.dealloc r ho hd).inv hk
  have hx := dealloc_exact hk inv ho e
  simp only at hx
  rw [hx, if_neg (by omega), if_neg (by omega)] at hd
  obtain ⟨n1, n2⟩ := stack_new hn
  have hkb : k.kb ≤ s.limit := (inv.mid _ ho hm hL).1
  split at hd
  · cases hd
    have hal := inv'.twf.alL (s.limit - k.kb) List.mem_cons_self
    have ha : (Heap.mk h.nc { h.tc with lp := (s.limit - k.kb) :: h.tc.lp } h.zone h.sbrk h.mapped h.mem).tryAlloc k
        stackSize stackAlign e' = (.ok (k.kb + (s.limit - k.kb)), h) := by
      unfold Heap.tryAlloc
      rw [page_of hm hL]
      simp only [MCache.allocLarge, Mem.new_large hal]
    unfold Heap.alloc at n2
    rw [allocLoop_ok ha] at n2
    simp only [Prod.mk.injEq, Outcome.ok.injEq, Option.some.injEq] at n2
    have e1 : t.limit = s.limit := by omega
    cases t; cases s
    simp only at e1 hs n1
    subst e1
    rw [hs, n1]
  · cases hd

/-- **C72** for the stacks of interrupts, of fatal faults and of system calls: the processor starts at their end,
they are aligned, and they are live objects of the heap (so they share no byte with each other nor with anything
that is allocated then or later, by C63).  Missing: the stack of debug exceptions; see `c72_debug_shared`. -/
theorem c72_stacks_partial {k : HCfg} (hk : k.Ok) (hm : k.maxAlloc < stackSize) {init : List Block} {h h' : Heap}
    {objs : List Obj} (r : Run k init h objs) {es : Envs} {c : Kcb} (hi : Kcb.new.install k h es = (.ok c, h')) :
    ∃ s1 s2 s4 : Stack, c.rsp0 = s1.limit + 128 * 4096 ∧ c.ist0 = s2.limit + 128 * 4096 ∧
      c.syscallTop = s4.limit + 128 * 4096 ∧ c.interrupt = some s1 ∧ c.fault = some s2 ∧ c.syscall = some s4 ∧
      Run k init h'
        (⟨s4.limit, 128 * 4096, 16⟩ :: ⟨s2.limit, 128 * 4096, 16⟩ :: ⟨s1.limit, 128 * 4096, 16⟩ :: objs) := by
  obtain ⟨s1, s2, s3, s4, h1, h2, h3, h4, e1, e2, e3, e4, e5, rfl⟩ := install_steps hi
  obtain ⟨z1, _⟩ := stack_new e1
  obtain ⟨z2, _⟩ := stack_new e2
  obtain ⟨z3, _⟩ := stack_new e3
  obtain ⟨z4, _⟩ := stack_new e5
  have r3 := stack_run (stack_run (stack_run r e1) e2) e3
  have ho : s3.obj = ⟨s3.limit, stackSize, stackAlign⟩ := by unfold Stack.obj; rw [z3]
  unfold Stack.drop at e4
  rw [z3, drop_eq _ _ hm] at e4
  rw [ho] at r3
  have r4 := Run.dealloc r3 (o := ⟨s3.limit, stackSize, stackAlign⟩) List.mem_cons_self e4
  rw [List.erase_cons_head] at r4
  have r5 := stack_run r4 e5
  unfold Stack.obj at r5
  rw [z1, z2, z4] at r5
  refine ⟨s1, s2, s4, ?_, ?_, ?_, rfl, rfl, rfl, r5⟩
  · show s1.limit + s1.size = _; rw [z1]; rfl
  · show s2.limit + s2.size = _; rw [z2]; rfl
  · show s4.limit + s4.size = _; rw [z4]; rfl

/-- As a consequence, the three stacks do not overlap, and overlap nothing that was allocated before. -/
theorem c72_apart_partial {k : HCfg} (hk : k.Ok) (hm : k.maxAlloc < stackSize) {init : List Block} {h h' : Heap}
    {objs : List Obj} (r : Run k init h objs) {es : Envs} {c : Kcb} (hi : Kcb.new.install k h es = (.ok c, h')) :
    ([c.syscallTop, c.ist0, c.rsp0].Pairwise fun a b => a + 128 * 4096 ≤ b ∨ b + 128 * 4096 ≤ a) ∧
    ∀ top ∈ [c.syscallTop, c.ist0, c.rsp0], top % 16 = 0 ∧ 128 * 4096 ≤ top ∧
      ∀ o ∈ objs, ∀ a, o.ptr ≤ a → a < o.ptr + o.size → ¬ (top - 128 * 4096 ≤ a ∧ a < top) := by
  obtain ⟨s1, s2, s4, t1, t2, t4, _, _, _, r'⟩ := c72_stacks_partial hk hm r hi
  obtain ⟨hp, ha⟩ := c63_objects hk r'
  obtain ⟨p1, hp⟩ := List.pairwise_cons.1 hp
  obtain ⟨p2, hp⟩ := List.pairwise_cons.1 hp
  obtain ⟨p3, hp⟩ := List.pairwise_cons.1 hp
  have key : ∀ x y, Disjoint (Obj.block ⟨x, 128 * 4096, 16⟩) (Obj.block ⟨y, 128 * 4096, 16⟩) →
      x + 128 * 4096 + 128 * 4096 ≤ y + 128 * 4096 ∨ y + 128 * 4096 + 128 * 4096 ≤ x + 128 * 4096 := by
    intro x y hd
    refine Classical.byContradiction fun hc => ?_
    by_cases hxy : x ≤ y
    · exact hd y ⟨⟨hxy, show y < x + 128 * 4096 by omega⟩, ⟨Nat.le_refl _, show y < y + 128 * 4096 by omega⟩⟩
    · exact hd x ⟨⟨Nat.le_refl _, show x < x + 128 * 4096 by omega⟩,
        ⟨show y ≤ x by omega, show x < y + 128 * 4096 by omega⟩⟩
  have key2 : ∀ x, (⟨x, 128 * 4096, 16⟩ : Obj) ∈ ((⟨s4.limit, 128 * 4096, 16⟩ : Obj) ::
      ⟨s2.limit, 128 * 4096, 16⟩ :: ⟨s1.limit, 128 * 4096, 16⟩ :: objs) →
      (∀ o ∈ objs, Disjoint (Obj.block ⟨x, 128 * 4096, 16⟩) o.block) → (x + 128 * 4096) % 16 = 0 ∧
      128 * 4096 ≤ x + 128 * 4096 ∧ ∀ o ∈ objs, ∀ a, o.ptr ≤ a → a < o.ptr + o.size →
        ¬ (x + 128 * 4096 - 128 * 4096 ≤ a ∧ a < x + 128 * 4096) := by
    intro x hx hd
    have h16 : x % 16 = 0 := ha _ hx
    refine ⟨by omega, by omega, fun o ho a h1 h2 hc => hd o ho a ⟨⟨?_, hc.2⟩, ⟨h1, h2⟩⟩⟩
    show x ≤ a
    omega
  rw [t1, t2, t4]
  refine ⟨?_, ?_⟩
  · refine .cons ?_ (.cons ?_ (.cons (fun _ h => by cases h) .nil))
    · intro b hb
      rcases List.mem_cons.1 hb with rfl | hb
      · exact key _ _ (p1 _ List.mem_cons_self)
      · rw [List.mem_singleton.1 hb]
        exact key _ _ (p1 _ (List.mem_cons_of_mem _ List.mem_cons_self))
    · intro b hb
      rw [List.mem_singleton.1 hb]
      exact key _ _ (p2 _ List.mem_cons_self)
  · intro top ht
    rcases List.mem_cons.1 ht with rfl | ht
    · exact key2 _ List.mem_cons_self
        fun o ho => p1 o (List.mem_cons_of_mem _ (List.mem_cons_of_mem _ ho))
    · rcases List.mem_cons.1 ht with rfl | ht
      · exact key2 _ (List.mem_cons_of_mem _ List.mem_cons_self) fun o ho => p2 o (List.mem_cons_of_mem _ ho)
      · rw [List.mem_singleton.1 ht]
        exact key2 _ (List.mem_cons_of_mem _ (List.mem_cons_of_mem _ List.mem_cons_self)) p3

/-- The stack of debug exceptions has been freed, and is the stack of system calls, whatever the heap looked
like: a breakpoint in a system call overwrites the frames of the system call. -/
theorem c72_debug_shared {k : HCfg} (hk : k.Ok) (hm : k.maxAlloc < stackSize) {init : List Block} {h h' : Heap}
    {objs : List Obj} (r : Run k init h objs) {es : Envs} {c : Kcb} (hi : Kcb.new.install k h es = (.ok c, h')) :
    c.ist1 = c.syscallTop ∧ c.debug = none ∧
    ∀ m : M, 40 ≤ c.ist1 →
      (trap c.ist1 none m).mem (c.syscallTop - 8) = m.ss ∧
      (trap c.ist1 none m).mem (c.syscallTop - 40) = m.rip := by
  obtain ⟨s1, s2, s3, s4, h1, h2, h3, h4, e1, e2, e3, e4, e5, rfl⟩ := install_steps hi
  obtain ⟨z3, _⟩ := stack_new e3
  have r3 := stack_run (stack_run (stack_run r e1) e2) e3
  have he := reused hk r3 z3 List.mem_cons_self hm e4 e5
  subst he
  refine ⟨rfl, rfl, fun m h40 => ?_⟩
  simp only at h40
  simp only [trap, M.push, upd_same, Nat.sub_sub, Nat.reduceAdd]
  refine ⟨?_, trivial⟩
  simp (disch := omega) only [upd_ne, upd_same]

/-! ## A concrete case -/

/-- A core with three large pages. -/
def heap3 : Heap :=
  ⟨⟨10, 10, 0, [], []⟩, ⟨10, 10, 0, [], [0x200000, 0x400000, 0x600000]⟩, ⟨[], [], []⟩, 0x410000000000, [], fun _ => 0⟩

def envs0 : Envs := ⟨env0, env0, env0, env0, env0⟩

unseal BASE LARGE in
theorem run_heap3 : Run real (([] : List Block) ++ heap3.tc.held) heap3 [] := by
  refine Run.start (nc := ⟨10, 10, 0, [], []⟩) ⟨by decide, by decide, by decide, by decide⟩
    ⟨by decide, by decide, by decide, by decide⟩ rfl ?_ (by decide) (by decide)
  have key : ∀ l : List Block, (l.Pairwise fun a b => a.start + a.len ≤ b.start ∨ b.start + b.len ≤ a.start) →
      AllDisjoint l := fun l h => h.imp fun hd x hx => by
    obtain ⟨⟨h1, h2⟩, ⟨h3, h4⟩⟩ := hx
    rcases hd with hd | hd <;> omega
  apply key
  decide +kernel

unseal BASE LARGE in
theorem c72_sample : ∃ c h', Kcb.new.install real heap3 envs0 = (.ok c, h') ∧ c.rsp0 = 0x400000280000 ∧
    c.ist0 = 0x400000480000 ∧ c.ist1 = 0x400000680000 ∧ c.syscallTop = 0x400000680000 :=
  ⟨_, _, pair_eta (a := Outcome.ok (Kcb.mk 0x400000280000 0x400000480000 0x400000680000 0x400000680000
    (some ⟨0x400000200000, stackSize⟩) (some ⟨0x400000400000, stackSize⟩) none (some ⟨0x400000600000, stackSize⟩)))
    (by decide +kernel), rfl, rfl, rfl, rfl⟩

theorem real_max : real.maxAlloc < stackSize := by decide

end NRK.Cpu
