import Verif.UHeap.TlsSpec
import Verif.UHeap.CMemLemmas

/-! # The memory of every thread has its variables -/

namespace NRK.UHeap

open NRK.Mem NRK.Mem.Spec NRK.Heap

variable {k : HCfg} {n : Nat} {t : Tls} {tmpl : List UInt8}

/-- What the linker and the control block have to be. -/
structure TlsOk (t : Tls) (tmpl : List UInt8) : Prop where
  data : t.data.length ≤ t.total
  align : 0 < t.align
  tcb : 8 ≤ tmpl.length

theorem putBytes_in {mem : Nat → UInt8} {p a : Nat} {bs : List UInt8} (h : p ≤ a) (h' : a < p + bs.length) :
    putBytes mem p bs a = bs.getD (a - p) 0 := if_pos ⟨h, h'⟩

theorem putBytes_out {mem : Nat → UInt8} {p a : Nat} {bs : List UInt8} (h : ¬ (p ≤ a ∧ a < p + bs.length)) :
    putBytes mem p bs a = mem a := if_neg h

theorem put64_out {mem : Nat → UInt8} {p a v : Nat} (h : ¬ (p ≤ a ∧ a < p + 8)) : put64 mem p v a = mem a := if_neg h

theorem upd_other {f : Nat → UInt8} {a b : Nat} {v : UInt8} (h : b ≠ a) : upd f a v b = f b := if_neg h

theorem pairwise_forall {α : Type} {R : α → α → Prop} (hs : ∀ a b, R a b → R b a) {l : List α} (h : l.Pairwise R) :
    ∀ {a b : α}, a ∈ l → b ∈ l → a ≠ b → R a b := by
  induction h with
  | nil => intro a b ha; cases ha
  | cons h1 _ ih =>
    intro a b ha hb hne
    rcases List.mem_cons.1 ha with ea | ha' <;> rcases List.mem_cons.1 hb with eb | hb'
    · exact absurd (ea.trans eb.symm) hne
    · rw [ea]; exact h1 _ hb'
    · rw [eb]; exact hs _ _ (h1 _ ha')
    · exact ih ha' hb' hne

/-- The area at `base` is initialised. -/
theorem lay_spec {mem : Nat → UInt8} {base size : Nat} {data : List UInt8} (hd : data.length ≤ size - tmpl.length)
    (ht : 8 ≤ tmpl.length) (hs : tmpl.length ≤ size) (hw : base + (size - tmpl.length) < WORD) :
    (∀ o < size - tmpl.length, (layTls (zero mem base size) base size tmpl data).2 (base + o) = data.getD o 0) ∧
      get64 (layTls (zero mem base size) base size tmpl data).2 (base + (size - tmpl.length)) = base + (size - tmpl.length) ∧
      ∀ a, ¬ Block.Has ⟨base, size⟩ a → (layTls (zero mem base size) base size tmpl data).2 a = mem a := by
  have hv : ∀ a, (layTls (zero mem base size) base size tmpl data).2 a =
      putBytes (put64 (putBytes (zero mem base size) (base + (size - tmpl.length)) tmpl) (base + (size - tmpl.length))
        (base + (size - tmpl.length))) base data a := fun _ => rfl
  generalize (layTls (zero mem base size) base size tmpl data).2 = m at hv
  generalize hq : size - tmpl.length = q at *
  refine ⟨fun o ho => ?_, ?_, fun a ha => ?_⟩
  · rw [hv]
    by_cases h1 : o < data.length
    · rw [putBytes_in (by omega) (by omega), Nat.add_sub_cancel_left]
    · rw [putBytes_out (by omega), put64_out (by omega), putBytes_out (by omega),
        List.getD_eq_getElem?_getD, List.getElem?_eq_none (by omega)]
      exact if_pos ⟨by omega, by omega⟩
  · have hc : get64 m (base + q) = get64 (put64 (putBytes (zero mem base size) (base + q) tmpl) (base + q) (base + q)) (base + q) := by
      unfold get64
      refine getLE_congr 8 (fun i hi => ?_)
      rw [hv, putBytes_out (by omega)]
    rw [hc, get_put hw]
  · have ha' : ¬ (base ≤ a ∧ a < base + size) := ha
    rw [hv, putBytes_out (by omega), put64_out (by omega), putBytes_out (by omega)]
    exact if_neg ha'

/-- The memory of a thread has its variables, and the control block points to itself. -/
structure Area (t : Tls) (mem : Nat → UInt8) (vars : Nat → Nat → UInt8) (x : TThr) : Prop where
  self : get64 mem (x.tcb t) = x.tcb t
  vals : ∀ o < t.total, mem (x.base + o) = vars x.tid o

theorem Area.same {mem mem' : Nat → UInt8} {vars : Nat → Nat → UInt8} {x : TThr} (ht : 8 ≤ tmpl.length)
    (a : Area t mem vars x) (h : ∀ i, Block.Has (x.obj t tmpl.length).block i → mem' i = mem i) : Area t mem' vars x := by
  refine ⟨?_, fun o ho => ?_⟩
  · refine Eq.trans ?_ a.self
    unfold get64
    refine getLE_congr 8 (fun i hi => h _ ⟨?_, ?_⟩)
    · show x.base ≤ x.base + t.total + i; omega
    · show x.base + t.total + i < x.base + (t.total + tmpl.length); omega
  · rw [h _ ⟨?_, ?_⟩]
    · exact a.vals o ho
    · show x.base ≤ x.base + o; omega
    · show x.base + o < x.base + (t.total + tmpl.length); omega

/-- The invariant of a process. -/
structure TInv (k : HCfg) (n : Nat) (t : Tls) (tmpl : List UInt8) (s : TSt) : Prop where
  heap : ∃ all, Run k n s.h all ∧ all.Perm (s.thr.map (TThr.obj t tmpl.length) ++ s.objs)
  area : ∀ x ∈ s.thr, Area t s.h.mem s.vars x
  tids : s.thr.Pairwise (fun x y => x.tid ≠ y.tid)
  fs : ∀ c tid, s.run c = some tid → ∃ x ∈ s.thr, x.tid = tid ∧ s.fs c = x.tcb t

theorem tid_inj {l : List TThr} (h : l.Pairwise (fun x y => x.tid ≠ y.tid)) {x y : TThr} (hx : x ∈ l) (hy : y ∈ l)
    (e : x.tid = y.tid) : x = y := by
  refine Classical.byContradiction (fun hne => ?_)
  exact (pairwise_forall (fun _ _ h => Ne.symm h) h hx hy hne) e

theorem TInv.apart (hk : CfgOk k) (hn : 0 < n) {s : TSt} (i : TInv k n t tmpl s) :
    AllDisjoint (s.h.mm ++ (s.thr.map (TThr.obj t tmpl.length) ++ s.objs).map UObj.block) := by
  obtain ⟨all, r, p⟩ := i.heap
  exact ((run_inv hk hn r).perm p).apart hk

theorem TInv.apart_thr (hk : CfgOk k) (hn : 0 < n) {s : TSt} (i : TInv k n t tmpl s) {x y : TThr} (hx : x ∈ s.thr)
    (hy : y ∈ s.thr) (hne : x ≠ y) :
    Disjoint (x.obj t tmpl.length).block (y.obj t tmpl.length).block := by
  have h := (List.pairwise_append.1 (i.apart hk hn)).2.1
  rw [List.map_append, List.map_map] at h
  have h1 := (List.pairwise_append.1 h).1
  rw [List.pairwise_map] at h1
  exact pairwise_forall (R := fun x y => Disjoint ((UObj.block ∘ TThr.obj t tmpl.length) x) ((UObj.block ∘ TThr.obj t tmpl.length) y))
    (fun _ _ h => h.symm) h1 hx hy hne

/-- The heap changes, and what belongs to the threads stays. -/
theorem TInv.heapStep {s : TSt} (ht : 8 ≤ tmpl.length) (i : TInv k n t tmpl s) {h' : UHeap} {objs' all : List UObj}
    (r : Run k n h' all) (p : all.Perm (s.thr.map (TThr.obj t tmpl.length) ++ objs'))
    (hs : ∀ x ∈ s.thr, ∀ a, Block.Has (x.obj t tmpl.length).block a → h'.mem a = s.h.mem a) :
    TInv k n t tmpl (s.heap h' objs') where
  heap := ⟨all, r, p⟩
  area := fun x hx => (i.area x hx).same ht (hs x hx)
  tids := i.tids
  fs := i.fs

theorem thr_mem {s : TSt} {all : List UObj} (p : all.Perm (s.thr.map (TThr.obj t tmpl.length) ++ s.objs)) {x : TThr}
    (hx : x ∈ s.thr) : x.obj t tmpl.length ∈ all :=
  p.mem_iff.2 (List.mem_append_left _ (List.mem_map_of_mem hx))

/-- An object leaves the list. -/
theorem perm_erase {A B all : List UObj} (p : all.Perm (A ++ B)) {o : UObj} (ho : o ∈ B) :
    (all.erase o).Perm (A ++ B.erase o) := by
  have h1 : (A ++ B).Perm (o :: (A ++ B.erase o)) :=
    ((List.perm_cons_erase ho).append_left A).trans List.perm_middle
  have h2 := (p.trans h1).erase o
  rwa [List.erase_cons_head] at h2

theorem same_thr {s : TSt} {h' : UHeap} {all : List UObj} (p : all.Perm (s.thr.map (TThr.obj t tmpl.length) ++ s.objs))
    {hh : UHeap} (sm : Same s.h.mem h'.mem (owned hh all)) : ∀ x ∈ s.thr, ∀ a, Block.Has (x.obj t tmpl.length).block a →
      h'.mem a = s.h.mem a :=
  fun _ hx a ha => sm _ (owned_obj (thr_mem p hx)) a ha

theorem same_erase {s : TSt} {h' : UHeap} {all : List UObj} {o : UObj}
    (p : all.Perm (s.thr.map (TThr.obj t tmpl.length) ++ s.objs)) (ho : o ∈ s.objs)
    {hh : UHeap} (sm : Same s.h.mem h'.mem (owned hh (all.erase o))) : ∀ x ∈ s.thr, ∀ a,
      Block.Has (x.obj t tmpl.length).block a → h'.mem a = s.h.mem a :=
  fun _ hx a ha => sm _ (owned_obj ((perm_erase p ho).mem_iff.2 (List.mem_append_left _ (List.mem_map_of_mem hx)))) a ha

/-- A store to a byte of the area of a thread. -/
theorem TInv.storeRun {s : TSt} (i : TInv k n t tmpl s) {x : TThr} (hx : x ∈ s.thr) {j : Nat} {v : UInt8}
    (hj : j < t.total + tmpl.length) :
    ∃ all, Run k n (s.store (x.base + j) v).h all ∧ all.Perm (s.thr.map (TThr.obj t tmpl.length) ++ s.objs) := by
  obtain ⟨all, r, p⟩ := i.heap
  refine ⟨all, Run.write r (b := (x.obj t tmpl.length).block) (owned_obj (thr_mem p hx)) (fun a ha => ?_), p⟩
  show upd s.h.mem (x.base + j) v a = s.h.mem a
  unfold upd
  rw [if_neg]
  rintro rfl
  exact ha ⟨by show x.base ≤ x.base + j; omega, by show x.base + j < x.base + (t.total + tmpl.length); omega⟩

/-- It changes no other thread. -/
theorem TInv.storeOther (hk : CfgOk k) (hn : 0 < n) (ht : 8 ≤ tmpl.length) {s : TSt} (i : TInv k n t tmpl s) {x y : TThr}
    (hx : x ∈ s.thr) (hy : y ∈ s.thr) (hne : y ≠ x) {j : Nat} {v : UInt8} (hj : j < t.total + tmpl.length) :
    Area t (upd s.h.mem (x.base + j) v) s.vars y := by
  refine (i.area y hy).same ht (fun a ha => ?_)
  unfold upd
  rw [if_neg]
  rintro rfl
  exact (i.apart_thr hk hn hy hx hne) _ ⟨ha,
    ⟨by show x.base ≤ x.base + j; omega, by show x.base + j < x.base + (t.total + tmpl.length); omega⟩⟩

theorem addr_eq (ok : TlsOk t tmpl) (hr : t.total % t.align = 0) (x : TThr) (o : Nat) :
    t.addr (x.tcb t) o = x.base + o := by
  unfold Tls.addr TThr.tcb
  rw [roundUp_mul ok.align hr, Nat.add_sub_cancel]

/-- **The invariant holds**, if the size of the segment is a multiple of its alignment. -/
theorem trun_inv (hk : CfgOk k) (hn : 0 < n) (ok : TlsOk t tmpl) (hr : t.total % t.align = 0) {s : TSt}
    (r : TRun k n t tmpl s) : TInv k n t tmpl s := by
  have ht := ok.tcb
  induction r with
  | start hp =>
    exact ⟨⟨[], Run.start hp, List.Perm.nil⟩, fun _ h => absurd h List.not_mem_nil, List.Pairwise.nil, fun _ _ h => by cases h⟩
  | @spawn s c e tid base h' _ fr hs hw hf ih =>
    obtain ⟨all, r, p⟩ := ih.heap
    unfold UHeap.newTls at hs
    split at hs
    · rename_i q g hg
      injection hs with h1 h2
      injection h1 with h1
      have hsz : t.total + tmpl.length - tmpl.length = t.total := by omega
      have hb : q = base := by
        have : q + (t.total + tmpl.length - tmpl.length) = base + t.total := h1
        omega
      subst hb
      obtain ⟨v1, v2, v3⟩ := lay_spec (mem := g.mem) (base := q) (size := t.total + tmpl.length) (data := t.data) (tmpl := tmpl)
        (by rw [hsz]; exact ok.data) ht (by omega) (by rw [hsz]; exact hw)
      rw [hsz] at v1 v2
      generalize (layTls (zero g.mem q (t.total + tmpl.length)) q (t.total + tmpl.length) tmpl t.data).2 = m at *
      subst h2
      have r1 := Run.alloc r fr hg
      have sm := c77_alloc_keeps hk hn r fr hg
      have r2 := Run.write r1 (m := m) (b := (⟨c, q, t.total + tmpl.length, t.align⟩ : UObj).block)
        (owned_obj List.mem_cons_self) v3
      have dj := (List.pairwise_append.1 (c77_disjoint hk hn r2)).2.1
      rw [List.map_cons, List.pairwise_cons] at dj
      refine ⟨⟨_, r2, ?_⟩, ?_, ?_, ?_⟩
      · exact p.cons _
      · intro x hx
        rcases List.mem_cons.1 hx with rfl | hx
        · exact ⟨v2, fun o ho => by
            show m (q + o) = upd s.vars tid t.initial tid o
            rw [upd_same]; exact v1 o ho⟩
        · have h0 := (ih.area x hx).same ht (mem' := m) (fun a ha => by
            rw [v3 a (fun hb => dj.1 _ (List.mem_map_of_mem (thr_mem p hx)) a ⟨hb, ha⟩)]
            exact sm _ (owned_obj (thr_mem p hx)) a ha)
          refine ⟨h0.self, fun o ho => ?_⟩
          refine (h0.vals o ho).trans ?_
          show s.vars x.tid o = upd s.vars tid t.initial x.tid o
          unfold upd
          rw [if_neg (hf x hx)]
      · exact List.Pairwise.cons (fun x hx => (hf x hx).symm) ih.tids
      · intro c' tid' hc
        obtain ⟨x, hx, h1⟩ := ih.fs c' tid' hc
        exact ⟨x, List.mem_cons_of_mem _ hx, h1⟩
    · cases hs
  | @dispatch s c x _ hx hc hu ih =>
    refine ⟨ih.heap, ih.area, ih.tids, fun c' tid hc' => ?_⟩
    by_cases h : c' = c
    · subst h
      have : upd s.run c' (some x.tid) c' = some tid := hc'
      rw [upd_same] at this
      cases this
      exact ⟨x, hx, rfl, by show upd s.fs c' _ c' = _; rw [upd_same]⟩
    · have h1 : upd s.run c (some x.tid) c' = some tid := hc'
      unfold upd at h1
      rw [if_neg h] at h1
      obtain ⟨y, hy, e1, e2⟩ := ih.fs c' tid h1
      exact ⟨y, hy, e1, by show upd s.fs c _ c' = _; unfold upd; rw [if_neg h]; exact e2⟩
  | @stop s c _ ih =>
    refine ⟨ih.heap, ih.area, ih.tids, fun c' tid hc' => ?_⟩
    have h1 : upd s.run c none c' = some tid := hc'
    by_cases h : c' = c
    · subst h; rw [upd_same] at h1; cases h1
    · unfold upd at h1
      rw [if_neg h] at h1
      obtain ⟨y, hy, e1, e2⟩ := ih.fs c' tid h1
      exact ⟨y, hy, e1, by show upd s.fs c _ c' = _; unfold upd; rw [if_neg h]; exact e2⟩
  | @assign s c tid o v _ hc ho ih =>
    obtain ⟨x, hx, rfl, e2⟩ := ih.fs c tid hc
    have ha : t.addr (s.fs c) o = x.base + o := by rw [e2]; exact addr_eq ok hr x o
    refine ⟨?_, ?_, ih.tids, ih.fs⟩
    · rw [ha]
      exact ih.storeRun hx (by omega)
    · intro y hy
      rw [ha]
      by_cases hne : y = x
      · subst hne
        refine ⟨?_, fun o' ho' => ?_⟩
        · refine Eq.trans ?_ (ih.area y hx).self
          unfold get64
          refine getLE_congr 8 (fun i hi => ?_)
          show upd s.h.mem (y.base + o) v _ = _
          unfold upd TThr.tcb
          rw [if_neg (by omega)]
        · show upd s.h.mem (y.base + o) v (y.base + o') = upd s.vars y.tid (upd (s.vars y.tid) o v) y.tid o'
          rw [upd_same]
          by_cases h : o' = o
          · subst h; rw [upd_same, upd_same]
          · unfold upd
            rw [if_neg (by omega), if_neg h]
            exact (ih.area y hx).vals o' ho'
      · have h0 := ih.storeOther hk hn ht hx hy hne (j := o) (v := v) (by omega)
        refine ⟨h0.self, fun o' ho' => (h0.vals o' ho').trans ?_⟩
        show s.vars y.tid o' = upd s.vars x.tid _ y.tid o'
        unfold upd
        rw [if_neg (fun e => hne (tid_inj ih.tids hy hx e))]
  | @field s x i v _ hx h8 hi ih =>
    have he : x.tcb t + i = x.base + (t.total + i) := by unfold TThr.tcb; omega
    refine ⟨?_, ?_, ih.tids, ih.fs⟩
    · rw [he]
      exact ih.storeRun hx (by omega)
    · intro y hy
      rw [he]
      by_cases hne : y = x
      · subst hne
        refine ⟨?_, fun o' ho' => ?_⟩
        · refine Eq.trans ?_ (ih.area y hx).self
          unfold get64
          refine getLE_congr 8 (fun j hj => ?_)
          show upd s.h.mem (y.base + (t.total + i)) v _ = _
          unfold upd TThr.tcb
          rw [if_neg (by omega)]
        · show upd s.h.mem (y.base + (t.total + i)) v (y.base + o') = s.vars y.tid o'
          unfold upd
          rw [if_neg (by omega)]
          exact (ih.area y hx).vals o' ho'
      · exact ih.storeOther hk hn ht hx hy hne (by omega)
  | alloc _ fr ha ih =>
    obtain ⟨all, r, p⟩ := ih.heap
    exact ih.heapStep ht (Run.alloc r fr ha) ((p.cons _).trans List.perm_middle.symm) (same_thr p (c77_alloc_keeps hk hn r fr ha))
  | allocNull _ fr ha ih =>
    obtain ⟨all, r, p⟩ := ih.heap
    exact ih.heapStep ht (Run.allocNull r fr ha) p (same_thr p (c77_alloc_keeps hk hn r fr ha))
  | @dealloc s h' o e _ ho ha ih =>
    obtain ⟨all, r, p⟩ := ih.heap
    have hm : o ∈ all := p.mem_iff.2 (List.mem_append_right _ ho)
    have sm := (c77_free hk hn r hm (e := e)).2
    rw [ha] at sm
    exact ih.heapStep ht (Run.dealloc r hm ha) (perm_erase p ho) (same_erase p ho sm)
  | realloc _ ho fr hc ha ih =>
    obtain ⟨all, r, p⟩ := ih.heap
    have hm := p.mem_iff.2 (List.mem_append_right _ ho)
    exact ih.heapStep ht (Run.realloc r hm fr hc ha) (((perm_erase p ho).cons _).trans List.perm_middle.symm)
      (same_erase p ho (c77_realloc_keeps hk hn r hm fr hc ha).2)
  | reallocNull _ ho fr ha ih =>
    obtain ⟨all, r, p⟩ := ih.heap
    have hm := p.mem_iff.2 (List.mem_append_right _ ho)
    obtain ⟨r', sm⟩ := c77_realloc_null hk hn r hm fr ha
    exact ih.heapStep ht r' p (same_thr p sm)
  | mmap _ e ih =>
    obtain ⟨all, r, p⟩ := ih.heap
    have h2 := ((run_inv hk hn r).mmap e).2.2
    exact ih.heapStep ht (Run.mmap r e) p (fun _ _ a _ => by rw [h2])
  | @write s m b _ hb hm ih =>
    obtain ⟨all, r, p⟩ := ih.heap
    have hb' : b ∈ owned s.h all := by
      rcases List.mem_append.1 hb with h | h
      · exact List.mem_append_left _ h
      · obtain ⟨o, ho, rfl⟩ := List.mem_map.1 h
        exact owned_obj (p.mem_iff.2 (List.mem_append_right _ ho))
    refine ih.heapStep ht (Run.write r hb' hm) p (fun x hx a ha => hm a (fun hba => ?_))
    have dj := ih.apart hk hn
    rcases List.mem_append.1 hb with h | h
    · exact (List.pairwise_append.1 dj).2.2 b h _
        (List.mem_map_of_mem (List.mem_append_left _ (List.mem_map_of_mem hx))) a ⟨hba, ha⟩
    · have h1 := (List.pairwise_append.1 dj).2.1
      rw [List.map_append] at h1
      exact (List.pairwise_append.1 h1).2.2 _ (List.mem_map_of_mem (List.mem_map_of_mem hx)) b h a ⟨ha, hba⟩

end NRK.UHeap
