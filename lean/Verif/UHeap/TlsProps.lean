import Verif.UHeap.TlsLemmas

/-! # C79: thread-local variables -/

namespace NRK.UHeap

open NRK.Mem NRK.Mem.Spec NRK.Heap

variable {k : HCfg} {n : Nat} {t : Tls} {tmpl : List UInt8}

/-- **C79.** What a running thread reads from its variables is what it last assigned to them, or else their initial
value, whatever other threads and the rest of the program do. -/
theorem c79_read_partial (hk : CfgOk k) (hn : 0 < n) (ok : TlsOk t tmpl) (hr : t.total % t.align = 0) {s : TSt}
    (r : TRun k n t tmpl s) {c tid o : Nat} (hc : s.run c = some tid) (ho : o < t.total) :
    s.h.mem (t.addr (s.fs c) o) = s.vars tid o := by
  have i := trun_inv hk hn ok hr r
  obtain ⟨x, hx, rfl, e⟩ := i.fs c tid hc
  rw [e, addr_eq ok hr]
  exact (i.area x hx).vals o ho

/-- **C79.** A running thread finds its control block: the first word of it is its address. -/
theorem c79_self_partial (hk : CfgOk k) (hn : 0 < n) (ok : TlsOk t tmpl) (hr : t.total % t.align = 0) {s : TSt}
    (r : TRun k n t tmpl s) {c tid : Nat} (hc : s.run c = some tid) : get64 s.h.mem (s.fs c) = s.fs c ∧ s.fs c ≠ 0 := by
  have i := trun_inv hk hn ok hr r
  obtain ⟨x, hx, rfl, e⟩ := i.fs c tid hc
  obtain ⟨all, r', p⟩ := i.heap
  have h0 : 0 < x.base := (c77_aligned hk hn r' (thr_mem p hx)).2
  rw [e]
  refine ⟨(i.area x hx).self, ?_⟩
  unfold TThr.tcb
  omega

/-- **C79.** Variables are aligned as the compiler expects, and in mapped memory. -/
theorem c79_aligned_partial (hk : CfgOk k) (hn : 0 < n) (ok : TlsOk t tmpl) (hr : t.total % t.align = 0) {s : TSt}
    (r : TRun k n t tmpl s) {c tid o : Nat} (hc : s.run c = some tid) (ho : o < t.total) :
    t.addr (s.fs c) o % t.align = o % t.align ∧ Mapped s.h (t.addr (s.fs c) o) := by
  have i := trun_inv hk hn ok hr r
  obtain ⟨x, hx, rfl, e⟩ := i.fs c tid hc
  obtain ⟨all, r', p⟩ := i.heap
  have h0 : x.base % t.align = 0 := (c77_aligned hk hn r' (thr_mem p hx)).1
  rw [e, addr_eq ok hr]
  refine ⟨by rw [Nat.add_mod, h0, Nat.zero_add, Nat.mod_mod], ?_⟩
  refine c77_mapped hk hn r' (owned_obj (thr_mem p hx)) ⟨?_, ?_⟩
  · show x.base ≤ x.base + o; omega
  · show x.base + o < x.base + (t.total + tmpl.length); omega

/-- **C79.** Variables and control blocks of different threads, the objects of the program and memory from `mmap`
share no byte. -/
theorem c79_apart_partial (hk : CfgOk k) (hn : 0 < n) (ok : TlsOk t tmpl) (hr : t.total % t.align = 0) {s : TSt}
    (r : TRun k n t tmpl s) :
    AllDisjoint (s.h.mm ++ (s.thr.map (fun x => ⟨x.base, t.total + tmpl.length⟩) ++ s.objs.map UObj.block)) := by
  have h := (trun_inv hk hn ok hr r).apart hk hn
  rw [List.map_append, List.map_map] at h
  exact h

/-- **C79.** A thread is created whenever there is memory for its area ... -/
theorem c79_served {h : UHeap} {c p : Nat} {e : Env} {h' : UHeap}
    (ha : h.alloc k n c (t.total + tmpl.length) t.align e = (.ok (some p), h')) :
    (h.newTls k n c t tmpl e).1 = .ok (p + t.total) := by
  unfold UHeap.newTls
  rw [ha]
  show Outcome.ok (p + (t.total + tmpl.length - tmpl.length)) = _
  rw [Nat.add_sub_cancel]

/-- ... and without memory the program ends. -/
theorem c79_null_crashes {h : UHeap} {c : Nat} {e : Env} {h' : UHeap}
    (ha : h.alloc k n c (t.total + tmpl.length) t.align e = (.ok none, h')) :
    (h.newTls k n c t tmpl e).1 = .panic := by
  unfold UHeap.newTls
  rw [ha]

/-- If the size of the segment is no multiple of its alignment, all variables are looked for too low, the first ones
in front of the area. -/
theorem c79_shift {base o : Nat} (ha : 0 < t.align) (hr : t.total % t.align ≠ 0) (hb : base % t.align = 0)
    (h0 : 0 < base) : t.addr (base + t.total) o < base + o ∧ t.addr (base + t.total) 0 < base := by
  have h1 : t.align ≤ base := Nat.le_of_dvd h0 (Nat.dvd_of_mod_eq_zero hb)
  have h2 := roundUp_ge t.total t.align ha
  have h3 : roundUp t.total t.align ≠ t.total := by
    intro e
    have := roundUp_mod t.total t.align
    rw [e] at this
    exact hr this
  have h4 : roundUp t.total t.align < t.total + t.align := by
    unfold roundUp
    have := Nat.div_mul_le_self (t.total + t.align - 1) t.align
    omega
  unfold Tls.addr
  omega

/-! ## The kernel -/

/-- **C79.** In the kernel: the variables of a core start with their initial values, are aligned, and setting them up
changes nothing outside of the area. -/
theorem c79_kernel_partial (ok : t.data.length ≤ t.total) (ha : 0 < t.align) (hr : t.total % t.align = 0) {mem m : Nat → UInt8}
    {base tcb : Nat} (hb : base % t.align = 0) (h8 : base % 8 = 0) (hw : base + t.total < WORD)
    (e : kernelTls mem (some base) t = .ok (tcb, m)) :
    tcb % 8 = 0 ∧ get64 m tcb = tcb ∧
      (∀ o < t.total, m (t.addr tcb o) = t.initial o ∧ t.addr tcb o % t.align = o % t.align) ∧
      ∀ a, ¬ Block.Has ⟨base, t.total + 16⟩ a → m a = mem a := by
  unfold kernelTls at e
  split at e
  · cases e
  · rename_i hx
    have he : extendSize t.total 16 = t.total + 16 := by
      by_cases h : extendSize t.total 16 = t.total + 16
      · exact h
      · exact absurd (Or.inl (by omega)) hx
    have h8t : t.total % 8 = 0 := by
      have : roundUp t.total 8 = t.total := by unfold extendSize at he; omega
      rw [← this]; exact roundUp_mod _ _
    rw [he] at e
    have hsz : t.total + 16 - (List.replicate 16 (0 : UInt8)).length = t.total := by
      rw [List.length_replicate]; omega
    obtain ⟨v1, v2, v3⟩ := lay_spec (mem := mem) (base := base) (size := t.total + 16) (data := t.data)
      (tmpl := List.replicate 16 0) (by rw [hsz]; exact ok) (by rw [List.length_replicate]; omega)
      (by rw [List.length_replicate]; omega) (by rw [hsz]; exact hw)
    rw [hsz] at v1 v2
    have e1 : (layTls (zero mem base (t.total + 16)) base (t.total + 16) (List.replicate 16 0) t.data).1 = base + t.total := by
      show base + (t.total + 16 - (List.replicate 16 (0 : UInt8)).length) = _
      rw [hsz]
    injection e with e
    rw [e] at e1 v1 v2 v3
    have e1 : tcb = base + t.total := e1
    subst e1
    refine ⟨by omega, v2, fun o ho => ?_, v3⟩
    have : t.addr (base + t.total) o = base + o := by
      unfold Tls.addr
      rw [roundUp_mul ha hr, Nat.add_sub_cancel]
    rw [this]
    exact ⟨v1 o ho, by rw [Nat.add_mod, hb, Nat.zero_add, Nat.mod_mod]⟩

/-- **C79.** The variables of a core that has some are not replaced. -/
theorem c79_kernel_once {mem : Nat → UInt8} {fs : Nat} {base : Option Nat} {r : Option (Nat × (Nat → UInt8))}
    (e : kernelTlsInit mem fs base t = .ok r) : r ≠ none ↔ fs = 0 := by
  unfold kernelTlsInit at e
  split at e
  · split at e
    · cases e; simp_all
    · cases e; simp_all
  · cases e

/-- The kernel does not start if the size is no multiple of 8 (as a control block behind it would not be aligned). -/
theorem c79_kernel_panics {mem : Nat → UInt8} {base : Option Nat} (h : t.total % 8 ≠ 0) : kernelTls mem base t = .panic := by
  unfold kernelTls
  rw [if_pos]
  refine Or.inl (fun e => h ?_)
  unfold extendSize at e
  have : roundUp t.total 8 = t.total := by omega
  rw [← this]
  exact roundUp_mod _ _

end NRK.UHeap
