import Verif.UHeap.CMemSpec
import Verif.UHeap.UHeapProps

/-! # Histories of C programs are histories of the heap -/

namespace NRK.UHeap

open NRK.Mem NRK.Mem.Spec NRK.Heap

variable {k : HCfg} {n : Nat}

/-! ## Numbers in memory -/

theorem getLE_eq {mem : Nat → UInt8} (m : Nat) : ∀ {p v : Nat}, (∀ i < m, mem (p + i) = UInt8.ofNat (v / 256 ^ i)) →
    getLE mem p m = v % 256 ^ m := by
  induction m with
  | zero => intro p v _; simp [getLE, Nat.mod_one]
  | succ m ih =>
    intro p v h
    have h0 := h 0 (by omega)
    have h1 := ih (p := p + 1) (v := v / 256) (fun i hi => by
      have := h (i + 1) (by omega)
      rw [show p + 1 + i = p + (i + 1) by omega, this, Nat.pow_succ, Nat.mul_comm (256 ^ i), Nat.div_div_eq_div_mul])
    unfold getLE
    simp only [Nat.add_zero, Nat.pow_zero, Nat.div_one] at h0
    rw [h0, h1]
    have e : (UInt8.ofNat v).toNat = v % 256 := by simp
    rw [e, Nat.pow_succ, Nat.mul_comm (256 ^ m), Nat.mod_mul]

theorem pow_word : 256 ^ 8 = WORD := by unfold WORD; decide

theorem get_put {mem : Nat → UInt8} {p v : Nat} (hv : v < WORD) : get64 (put64 mem p v) p = v := by
  unfold get64
  rw [getLE_eq 8 (v := v) (fun i hi => by
    unfold put64
    rw [if_pos ⟨by omega, by omega⟩, Nat.add_sub_cancel_left]), pow_word]
  exact Nat.mod_eq_of_lt hv

theorem getLE_congr {mem mem' : Nat → UInt8} (m : Nat) : ∀ {p : Nat}, (∀ i < m, mem' (p + i) = mem (p + i)) →
    getLE mem' p m = getLE mem p m := by
  induction m with
  | zero => intro p _; rfl
  | succ m ih =>
    intro p h
    unfold getLE
    have h0 := h 0 (by omega)
    rw [Nat.add_zero] at h0
    rw [h0, ih (p := p + 1) (fun i hi => by
      have := h (i + 1) (by omega)
      rw [show p + 1 + i = p + (i + 1) by omega]
      exact this)]

/-! ## Objects -/

/-- The object of the heap that an object of a C program is in. -/
def CObj.under (o : CObj) : UObj := ⟨o.core, o.base, o.size + HDR, 8⟩

theorem HDR_eq : HDR = 16 := rfl

theorem under_inj {a b : CObj} (h : a.under = b.under) : a = b := by
  cases a; cases b
  simp only [CObj.under, UObj.mk.injEq, Nat.add_right_cancel_iff, and_true] at h
  obtain ⟨rfl, rfl, rfl⟩ := h
  rfl

theorem map_erase (l : List CObj) (o : CObj) : (l.erase o).map CObj.under = (l.map CObj.under).erase o.under := by
  induction l with
  | nil => rfl
  | cons x l ih =>
    by_cases hx : x = o
    · subst hx
      rw [List.erase_cons_head, List.map_cons, List.erase_cons_head]
    · rw [List.erase_cons_tail (by simpa using hx), List.map_cons, List.map_cons,
        List.erase_cons_tail (by simpa using fun h => hx (under_inj h)), ih]

theorem cblock_inside (o : CObj) : Inside o.block o.under.block :=
  inside_of_le (by show o.base ≤ o.base + HDR; omega)
    (by show o.base + HDR + o.size ≤ o.base + (o.size + HDR); omega)

/-- What holds between a C program and the heap. -/
structure CInv (k : HCfg) (n : Nat) (h : UHeap) (objs : List CObj) : Prop where
  run : Run k n h (objs.map CObj.under)
  hdr : ∀ o ∈ objs, get64 h.mem o.base = o.size + HDR
  fit : ∀ o ∈ objs, o.size + HDR < WORD

/-- The header of an object is within bytes that are kept. -/
theorem hdr_same {m m' : Nat → UInt8} {h : UHeap} {objs : List CObj}
    (s : Same m m' (owned h (objs.map CObj.under))) {o : CObj} (ho : o ∈ objs) :
    get64 m' o.base = get64 m o.base := by
  refine getLE_congr 8 (fun i hi => s o.under.block (owned_obj (List.mem_map_of_mem ho)) _ ⟨?_, ?_⟩)
  · show o.base ≤ o.base + i; omega
  · show o.base + i < o.base + (o.size + HDR); rw [HDR_eq]; omega

theorem put_other {m : Nat → UInt8} {p v : Nat} {b : Block} (hd : Disjoint ⟨p, 16⟩ b) :
    ∀ a, b.Has a → put64 m p v a = m a := by
  intro a ha
  unfold put64
  rw [if_neg]
  intro ⟨h1, h2⟩
  exact hd a ⟨⟨h1, by show a < p + 16; omega⟩, ha⟩

theorem put_same {m : Nat → UInt8} {p v : Nat} {bs : List Block} (hd : ∀ b ∈ bs, Disjoint ⟨p, 16⟩ b) :
    Same m (put64 m p v) bs := fun b hb a ha => put_other (hd b hb) a ha

/-- An object is in front of all the others. -/
theorem front_apart (hk : CfgOk k) (hn : 0 < n) {h : UHeap} {u : UObj} {objs : List UObj} (r : Run k n h (u :: objs)) :
    ∀ b ∈ owned h objs, Disjoint u.block b :=
  (List.pairwise_cons.1 (allDisjoint_perm ((run_inv hk hn r).apart hk) owned_perm)).1

/-- A new object gets its header, and possibly other contents. -/
theorem CInv.fresh (hk : CfgOk k) (hn : 0 < n) {h h' : UHeap} {objs : List CObj} (inv : CInv k n h objs)
    {c p size : Nat} {e : Env} (fr : Fair h c (size + HDR) 8 e) (hw : size + HDR < WORD)
    (r : Run k n h' ((CObj.under ⟨c, p, size⟩) :: objs.map CObj.under))
    (s : Same h.mem h'.mem (owned h (objs.map CObj.under))) (hm : h'.mm = h.mm)
    (f : Nat → UInt8) (hf : ∀ a, ¬ Block.Has ⟨p, size + HDR⟩ a → f a = h'.mem a) :
    CInv k n { h' with mem := put64 f p (size + HDR) } (⟨c, p, size⟩ :: objs) ∧
      Same h.mem (put64 f p (size + HDR)) (owned h (objs.map CObj.under)) := by
  have ap := front_apart hk hn r
  rw [owned_mm hm] at ap
  have hin : ∀ a, ¬ Block.Has ⟨p, size + HDR⟩ a → put64 f p (size + HDR) a = h'.mem a := by
    intro a ha
    unfold put64
    rw [if_neg, hf a ha]
    rintro ⟨h1, h2⟩
    exact ha ⟨h1, by show a < p + (size + HDR); rw [HDR_eq]; omega⟩
  have s2 : Same h.mem (put64 f p (size + HDR)) (owned h (objs.map CObj.under)) := by
    intro b hb a ha
    rw [hin a (fun hx => ap b hb a ⟨hx, ha⟩)]
    exact s b hb a ha
  refine ⟨⟨?_, ?_, ?_⟩, s2⟩
  · exact Run.write r (b := UObj.block (CObj.under ⟨c, p, size⟩)) (owned_obj List.mem_cons_self) hin
  · intro o ho
    rcases List.mem_cons.1 ho with rfl | ho
    · exact get_put hw
    · show get64 (put64 f p (size + HDR)) o.base = _
      rw [hdr_same s2 ho]
      exact inv.hdr o ho
  · intro o ho
    rcases List.mem_cons.1 ho with rfl | ho
    · exact hw
    · exact inv.fit o ho

theorem CInv.same {h h' : UHeap} {objs : List CObj} (inv : CInv k n h objs) (r : Run k n h' (objs.map CObj.under))
    (s : Same h.mem h'.mem (owned h (objs.map CObj.under))) : CInv k n h' objs :=
  ⟨r, fun o ho => by rw [hdr_same s ho]; exact inv.hdr o ho, inv.fit⟩

theorem CInv.malloc (hk : CfgOk k) (hn : 0 < n) {h h' : UHeap} {objs : List CObj} (inv : CInv k n h objs)
    {c size : Nat} {e : Env} (fr : Fair h c (size + HDR) 8 e) {q : Option Nat}
    (hm : h.malloc k n c size e = (.ok q, h')) :
    Same h.mem h'.mem (owned h (objs.map CObj.under)) ∧ h'.mm = h.mm ∧
    ((q = none ∧ CInv k n h' objs) ∨ ∃ p, q = some (p + HDR) ∧ CInv k n h' (⟨c, p, size⟩ :: objs)) := by
  unfold UHeap.malloc at hm
  split at hm
  · cases hm
  · rename_i hw
    have hp := (run_inv hk hn inv.run).pos
    split at hm
    · rename_i p g hg
      cases hm
      have s := c77_alloc_keeps hk hn inv.run fr hg
      obtain ⟨i, s2⟩ := inv.fresh hk hn fr (by omega) (.alloc inv.run fr hg) s (alloc_mm hp hg) g.mem (fun _ _ => rfl)
      exact ⟨s2, (alloc_mm hp hg :), .inr ⟨p, rfl, i⟩⟩
    · rename_i hx
      have s := c77_alloc_keeps hk hn inv.run fr hm
      refine ⟨s, alloc_mm hp hm, .inl ?_⟩
      cases q with
      | some p => exact absurd hm (hx p h')
      | none => exact ⟨rfl, inv.same (.allocNull inv.run fr hm) s⟩

theorem CInv.memalign (hk : CfgOk k) (hn : 0 < n) {h h' : UHeap} {objs : List CObj} (inv : CInv k n h objs)
    {c align size : Nat} {e : Env} (fr : Fair h c (size + HDR) (max align 8) e) {q : Option Nat}
    (h8 : q.isSome = true → max align 8 % 8 = 0)
    (hm : h.memalign k n c align size e = (.ok q, h')) :
    Same h.mem h'.mem (owned h (objs.map CObj.under)) ∧ h'.mm = h.mm ∧
    ((q = none ∧ CInv k n h' objs) ∨
      ∃ p, q = some (p + HDR) ∧ CInv k n h' (⟨c, p, size⟩ :: objs) ∧ p % max align 8 = 0) := by
  unfold UHeap.memalign at hm
  split at hm
  · cases hm
  · rename_i hw
    have hp := (run_inv hk hn inv.run).pos
    split at hm
    · rename_i p g hg
      cases hm
      have s := c77_alloc_keeps hk hn inv.run fr hg
      have r1 : Run k n g (⟨c, p, size + HDR, max align 8⟩ :: objs.map CObj.under) := .alloc inv.run fr hg
      have al := (c77_aligned hk hn r1 List.mem_cons_self).1
      have r2 := Run.relax r1 List.mem_cons_self (a := 8) (mod_trans (h8 rfl) al)
      rw [List.erase_cons_head] at r2
      have fr8 : Fair h c (size + HDR) 8 e := ⟨fr.pos, ⟨by decide, by rw [LARGE_eq]⟩, fr.room⟩
      obtain ⟨i, s2⟩ := inv.fresh hk hn fr8 (by omega) r2 s (alloc_mm hp hg) g.mem (fun _ _ => rfl)
      exact ⟨s2, (alloc_mm hp hg :), .inr ⟨p, rfl, i, al⟩⟩
    · rename_i hx
      have s := c77_alloc_keeps hk hn inv.run fr hm
      refine ⟨s, alloc_mm hp hm, .inl ?_⟩
      cases q with
      | some p => exact absurd hm (hx p h')
      | none => exact ⟨rfl, inv.same (.allocNull inv.run fr hm) s⟩

theorem CInv.calloc (hk : CfgOk k) (hn : 0 < n) {h h' : UHeap} {objs : List CObj} (inv : CInv k n h objs)
    {c nmem size : Nat} {e : Env} (fr : Fair h c (nmem * size + HDR) 8 e) {q : Option Nat}
    (hm : h.calloc k n c nmem size e = (.ok q, h')) :
    Same h.mem h'.mem (owned h (objs.map CObj.under)) ∧ h'.mm = h.mm ∧
    ((q = none ∧ CInv k n h' objs) ∨
      ∃ p, q = some (p + HDR) ∧ CInv k n h' (⟨c, p, nmem * size⟩ :: objs) ∧
        ∀ i < nmem * size, h'.mem (p + HDR + i) = 0) := by
  unfold UHeap.calloc at hm
  split at hm
  · cases hm
  · rename_i hw
    have hp := (run_inv hk hn inv.run).pos
    split at hm
    · rename_i p g hg
      cases hm
      have s := c77_alloc_keeps hk hn inv.run fr hg
      obtain ⟨i, s2⟩ := inv.fresh hk hn fr (by omega) (.alloc inv.run fr hg) s (alloc_mm hp hg)
        (zero g.mem p (nmem * size + HDR)) (fun a ha => by
          unfold zero
          rw [if_neg]
          exact ha)
      refine ⟨s2, (alloc_mm hp hg :), .inr ⟨p, rfl, i, fun j hj => ?_⟩⟩
      show put64 (zero g.mem p (nmem * size + HDR)) p (nmem * size + HDR) (p + HDR + j) = 0
      unfold put64 zero
      rw [if_neg (by rw [HDR_eq]; omega), if_pos (by rw [HDR_eq]; omega)]
    · rename_i hx
      have s := c77_alloc_keeps hk hn inv.run fr hm
      refine ⟨s, alloc_mm hp hm, .inl ?_⟩
      cases q with
      | some p => exact absurd hm (hx p h')
      | none => exact ⟨rfl, inv.same (.allocNull inv.run fr hm) s⟩

theorem under_mem {objs : List CObj} {o : CObj} (ho : o ∈ objs) : o.under ∈ objs.map CObj.under :=
  List.mem_map_of_mem ho

theorem cfree_eq {h : UHeap} {objs : List CObj} (inv : CInv k n h objs) {o : CObj} (ho : o ∈ objs) (e : Env) :
    h.cfree k o.core o.ptr e = h.dealloc k o.under.core o.under.ptr o.under.size e := by
  unfold UHeap.cfree CObj.ptr
  rw [if_neg (by rw [HDR_eq]; omega), Nat.add_sub_cancel, inv.hdr o ho]
  rfl

theorem CInv.free (hk : CfgOk k) (hn : 0 < n) {h h' : UHeap} {objs : List CObj} (inv : CInv k n h objs) {o : CObj}
    (ho : o ∈ objs) {e : Env} {x : Outcome Unit} (hf : h.cfree k o.core o.ptr e = (x, h')) :
    x = .ok () ∧ Same h.mem h'.mem (owned h ((objs.erase o).map CObj.under)) ∧ h'.mm = h.mm ∧
      CInv k n h' (objs.erase o) := by
  rw [cfree_eq inv ho] at hf
  have := c77_free hk hn inv.run (under_mem ho) (e := e)
  rw [hf] at this
  obtain ⟨rfl, s⟩ := this
  rw [← map_erase] at s
  refine ⟨rfl, s, dealloc_mm hf, ?_, ?_, ?_⟩
  · rw [map_erase]
    exact .dealloc inv.run (under_mem ho) hf
  · intro x hx
    rw [hdr_same s hx]
    exact inv.hdr x (List.mem_of_mem_erase hx)
  · exact fun x hx => inv.fit x (List.mem_of_mem_erase hx)

theorem realloc_mm {h h' : UHeap} (hp : ∀ c, 0 < (h.pagers c).sbrk) {c ptr size align new : Nat} {e : Env}
    {o : Outcome (Option Nat)} (hr : h.realloc k n c ptr size align new e = (o, h')) : h'.mm = h.mm := by
  unfold UHeap.realloc at hr
  split at hr
  · cases hr; rfl
  · split at hr
    · rename_i q g hg
      have m1 := alloc_mm hp hg
      split at hr
      · rename_i hd; cases hr; exact (dealloc_mm hd).trans m1
      · rename_i hd; cases hr; exact (dealloc_mm hd).trans m1
    · exact alloc_mm hp hr

theorem CInv.realloc (hk : CfgOk k) (hn : 0 < n) {h h' : UHeap} {objs : List CObj} (inv : CInv k n h objs) {o : CObj}
    (ho : o ∈ objs) {new : Nat} {e : Env} (fr : Fair h o.core (new + HDR) 8 e)
    (hc : keeps k (o.size + HDR) (new + HDR) → k.cls (new + HDR) = k.cls (o.size + HDR)) {q : Nat}
    (hr : h.crealloc k n o.core o.ptr new e = (.ok q, h')) :
    Same h.mem h'.mem (owned h ((objs.erase o).map CObj.under)) ∧ h'.mm = h.mm ∧
      ∃ p, q = p + HDR ∧ CInv k n h' (⟨o.core, p, new⟩ :: objs.erase o) ∧
        ∀ i < min o.size new, h'.mem (q + i) = h.mem (o.ptr + i) := by
  have hp := (run_inv hk hn inv.run).pos
  unfold UHeap.crealloc at hr
  split at hr
  · cases hr
  · rename_i hw
    have h0 : ¬ o.ptr = 0 := by unfold CObj.ptr; rw [HDR_eq]; omega
    rw [if_neg h0, if_neg h0, show o.ptr - HDR = o.base by unfold CObj.ptr; omega, inv.hdr o ho] at hr
    split at hr
    · rename_i p g hg
      cases hr
      obtain ⟨h1, s⟩ := c77_realloc_keeps hk hn inv.run (o := o.under) (under_mem ho) fr hc hg
      have r : Run k n g (CObj.under ⟨o.core, p, new⟩ :: (objs.erase o).map CObj.under) := by
        rw [map_erase]
        exact .realloc inv.run (o := o.under) (under_mem ho) fr hc hg
      rw [← map_erase] at s
      have inv' : CInv k n { h with mem := h.mem } objs := inv
      -- the rest of the objects as they are in `g`
      have ap := front_apart hk hn r
      have mm := realloc_mm hp hg
      rw [owned_mm (h := h) mm] at ap
      have s2 : Same h.mem (put64 g.mem p (new + HDR)) (owned h ((objs.erase o).map CObj.under)) := by
        intro b hb a ha
        have : put64 g.mem p (new + HDR) a = g.mem a := by
          unfold put64
          rw [if_neg]
          rintro ⟨h2, h3⟩
          exact ap b hb a ⟨⟨h2, by show a < p + (new + HDR); rw [HDR_eq]; omega⟩, ha⟩
        rw [this]
        exact s b hb a ha
      refine ⟨s2, mm, p, rfl, ⟨?_, ?_, ?_⟩, ?_⟩
      · refine Run.write r (b := UObj.block (CObj.under ⟨o.core, p, new⟩)) (owned_obj List.mem_cons_self) ?_
        intro a ha
        show put64 g.mem p (new + HDR) a = g.mem a
        unfold put64
        rw [if_neg]
        rintro ⟨h2, h3⟩
        exact ha ⟨h2, by show a < p + (new + HDR); rw [HDR_eq]; omega⟩
      · intro x hx
        rcases List.mem_cons.1 hx with rfl | hx
        · exact get_put (by omega)
        · show get64 (put64 g.mem p (new + HDR)) x.base = _
          rw [hdr_same s2 hx]
          exact inv.hdr x (List.mem_of_mem_erase hx)
      · intro x hx
        rcases List.mem_cons.1 hx with rfl | hx
        · show new + HDR < WORD; omega
        · exact inv.fit x (List.mem_of_mem_erase hx)
      · intro i hi
        show put64 g.mem p (new + HDR) (p + HDR + i) = _
        unfold put64
        rw [if_neg (by rw [HDR_eq]; omega)]
        have := h1 (HDR + i) (by show HDR + i < min (o.size + HDR) (new + HDR); rw [HDR_eq]; omega)
        rw [show p + HDR + i = p + (HDR + i) by omega, this]
        show h.mem (o.base + (HDR + i)) = h.mem (o.base + HDR + i)
        rw [Nat.add_assoc]
    · cases hr

theorem CInv.write (hk : CfgOk k) (hn : 0 < n) {h : UHeap} {objs : List CObj} (inv : CInv k n h objs) {b : Block}
    (hb : b ∈ cowned h objs) {m : Nat → UInt8} (hm : ∀ a, ¬ b.Has a → m a = h.mem a) :
    CInv k n { h with mem := m } objs := by
  have hd := (run_inv hk hn inv.run).apart hk
  rcases List.mem_append.1 hb with hb | hb
  · refine ⟨Run.write inv.run (b := b) (List.mem_append_left _ hb) hm, ?_, inv.fit⟩
    intro o ho
    rw [← inv.hdr o ho]
    refine getLE_congr 8 (fun i hi => hm _ (fun hx => ?_))
    exact (List.pairwise_append.1 hd).2.2 b hb o.under.block (List.mem_map_of_mem (under_mem ho)) _
      ⟨hx, by show o.base ≤ o.base + i; omega, by show o.base + i < o.base + (o.size + HDR); rw [HDR_eq]; omega⟩
  · obtain ⟨o, ho, rfl⟩ := List.mem_map.1 hb
    refine ⟨Run.write inv.run (b := o.under.block) (owned_obj (under_mem ho))
      (fun a ha => hm a (fun hx => ha (cblock_inside o a hx))), ?_, inv.fit⟩
    intro x hx
    rw [← inv.hdr x hx]
    refine getLE_congr 8 (fun i hi => hm _ (fun hy => ?_))
    have hx8 : x.under.block.Has (x.base + i) :=
      ⟨by show x.base ≤ x.base + i; omega, by show x.base + i < x.base + (x.size + HDR); rw [HDR_eq]; omega⟩
    by_cases exo : x = o
    · subst exo
      have : x.base + HDR ≤ x.base + i := hy.1
      rw [HDR_eq] at this
      omega
    · -- two different objects
      have hp := (List.perm_cons_erase ho)
      have h2 := (List.pairwise_append.1 hd).2.1
      rw [List.map_map] at h2
      have h3 : List.Pairwise Disjoint ((o :: objs.erase o).map (UObj.block ∘ CObj.under)) :=
        allDisjoint_perm h2 (hp.map _)
      rw [List.map_cons] at h3
      have hxe : x ∈ objs.erase o := by
        rcases List.mem_cons.1 (hp.mem_iff.1 hx) with h | h
        · exact absurd h exo
        · exact h
      exact (List.pairwise_cons.1 h3).1 _ (List.mem_map_of_mem hxe) _ ⟨cblock_inside o _ hy, hx8⟩

theorem crun_inv (hk : CfgOk k) (hn : 0 < n) {h : UHeap} {objs : List CObj} (r : CRun k n h objs) : CInv k n h objs := by
  induction r with
  | start hp => exact ⟨.start hp, fun _ h => absurd h (by simp), fun _ h => absurd h (by simp)⟩
  | malloc _ fr hm ih =>
    rcases (ih.malloc hk hn fr hm).2.2 with ⟨e, _⟩ | ⟨p, e, i⟩
    · cases e
    · simp only [Option.some.injEq, Nat.add_right_cancel_iff] at e
      rw [e]; exact i
  | mallocNull _ fr hm ih =>
    rcases (ih.malloc hk hn fr hm).2.2 with ⟨_, i⟩ | ⟨p, e, i⟩
    · exact i
    · cases e
  | calloc _ fr hm ih =>
    rcases (ih.calloc hk hn fr hm).2.2 with ⟨e, _⟩ | ⟨p, e, i, _⟩
    · cases e
    · simp only [Option.some.injEq, Nat.add_right_cancel_iff] at e
      rw [e]; exact i
  | callocNull _ fr hm ih =>
    rcases (ih.calloc hk hn fr hm).2.2 with ⟨_, i⟩ | ⟨p, e, i, _⟩
    · exact i
    · cases e
  | memalign _ fr h8 hm ih =>
    rcases (ih.memalign hk hn fr (fun _ => h8) hm).2.2 with ⟨e, _⟩ | ⟨p, e, i, _⟩
    · cases e
    · simp only [Option.some.injEq, Nat.add_right_cancel_iff] at e
      rw [e]; exact i
  | memalignNull _ fr hm ih =>
    rcases (ih.memalign hk hn fr (fun h => absurd h (by simp)) hm).2.2 with ⟨_, i⟩ | ⟨p, e, i, _⟩
    · exact i
    · cases e
  | free _ ho hf ih => exact (ih.free hk hn ho hf).2.2.2
  | realloc _ ho fr hc hr ih =>
    obtain ⟨_, _, p, e, i, _⟩ := ih.realloc hk hn ho fr hc hr
    rw [Nat.add_right_cancel_iff] at e
    rw [e]; exact i
  | mmap _ e ih =>
    refine ih.same (.mmap ih.run e) ?_
    rw [((run_inv hk hn ih.run).mmap e).2.2]
    exact Same.refl _ _
  | write _ hb hm ih => exact ih.write hk hn hb hm

end NRK.UHeap
