import Verif.Rack.ArenaLemmas

/-!
# The invariant of C93 holds after every step
-/

namespace NRK.Rack.Arena

open Spec (Piece Range Place Fits)
open Shm (Region KBASE TRANSPORT)

/-- A byte is somewhere in the list. -/
def Covers (l : List Piece) (x : Nat) : Prop := ∃ p ∈ l, p.Has x

/-- What a step does with the pieces: they stay apart and cover the same bytes. -/
def Moves (l l' : List Piece) : Prop :=
  (l.Pairwise Apart → l'.Pairwise Apart) ∧ ∀ x, Covers l x ↔ Covers l' x

theorem Moves.refl (l : List Piece) : Moves l l := ⟨id, fun _ => Iff.rfl⟩

theorem Moves.trans {a b d : List Piece} (h : Moves a b) (h' : Moves b d) : Moves a d :=
  ⟨fun x => h'.1 (h.1 x), fun x => (h.2 x).trans (h'.2 x)⟩

theorem Moves.ofPerm {l l' : List Piece} (h : l.Perm l') : Moves l l' := by
  refine ⟨fun hp => (h.pairwise_iff Apart.symm).1 hp, fun x => ⟨?_, ?_⟩⟩
  · rintro ⟨p, hp, hx⟩; exact ⟨p, h.mem_iff.1 hp, hx⟩
  · rintro ⟨p, hp, hx⟩; exact ⟨p, h.mem_iff.2 hp, hx⟩

theorem perm_erase {α} : ∀ {l : List α} {i : Nat} {x : α}, l[i]? = some x → l.Perm (x :: l.eraseIdx i) := by
  intro l
  induction l with
  | nil => intro i x h; simp at h
  | cons y l ih =>
    intro i x h
    cases i with
    | zero => simp at h; subst h; exact List.Perm.refl _
    | succ i => exact ((ih (by simpa using h)).cons y).trans (List.Perm.swap ..)

theorem take_spec {core aff : Nat} : ∀ {is : List Nat} {fs fs' : List FreePiece} {ps : List Piece},
    take core aff is fs = some (ps, fs') →
      (fs.map (·.piece)).Perm (ps ++ fs'.map (·.piece)) ∧ (∀ f ∈ fs', f ∈ fs) ∧
        ∀ p ∈ ps, ∃ f ∈ fs, f.aff = aff ∧ f.piece = p := by
  intro is
  induction is with
  | nil =>
    intro fs fs' ps h
    unfold take at h
    cases h
    exact ⟨List.Perm.refl _, fun _ h => h, by simp⟩
  | cons i is ih =>
    intro fs fs' ps h
    unfold take at h
    cases hf : fs[i]? with
    | none => rw [hf] at h; cases h
    | some f =>
      rw [hf] at h
      simp only at h
      by_cases hc : f.core = core ∧ f.aff = aff
      · rw [if_pos hc] at h
        cases ht : take core aff is (fs.eraseIdx i) with
        | none => rw [ht] at h; cases h
        | some r =>
          obtain ⟨qs, gs⟩ := r
          rw [ht] at h
          simp only [Option.some.injEq, Prod.mk.injEq] at h
          obtain ⟨rfl, rfl⟩ := h
          obtain ⟨h1, h2, h3⟩ := ih ht
          refine ⟨?_, fun g hg => List.mem_of_mem_eraseIdx (h2 g hg), ?_⟩
          · exact ((perm_erase hf).map (·.piece)).trans (List.Perm.cons _ h1)
          · intro p hp
            rcases List.mem_cons.1 hp with rfl | hp
            · exact ⟨f, List.mem_of_getElem? hf, hc.2, rfl⟩
            · obtain ⟨g, hg, r⟩ := h3 p hp
              exact ⟨g, List.mem_of_mem_eraseIdx hg, r⟩
      · rw [if_neg hc] at h; cases h

/-- The state with another affinity of a core. -/
theorem Inv.setCur {c : Cfg} {s : St} (inv : Inv c s) {core a : Nat} (hv : Valid c a)
    (h : s.inited = false → a < 12) : Inv c { s with cur := upd s.cur core a } := by
  refine ⟨inv.free, inv.pool, inv.live, inv.sbrk, fun hi => ⟨fun k => ?_, (inv.early hi).2⟩, fun k => ?_⟩
  · by_cases hk : k = core
    · subst hk; show upd s.cur k a k < 12; rw [upd_same]; exact h hi
    · show upd s.cur core a k < 12; rw [upd_other _ _ hk]; exact (inv.early hi).1 k
  · by_cases hk : k = core
    · subst hk; show Valid c (upd s.cur k a k); rw [upd_same]; exact hv
    · show Valid c (upd s.cur core a k); rw [upd_other _ _ hk]; exact inv.cur k

theorem setAffinity_cases {c : Cfg} {s s' : St} {core a : Nat} (h : setAffinity c s core a = .ok s') :
    (a = s.cur core ∧ s' = s) ∨ (Valid c a ∧ s' = { s with cur := upd s.cur core a }) := by
  unfold setAffinity at h
  split at h
  · cases h; exact Or.inl ⟨‹_›, rfl⟩
  · split at h
    · split at h
      · cases h; exact Or.inr ⟨‹_›, rfl⟩
      · cases h
    · cases h

theorem setAffinity_cur {c : Cfg} {s s' : St} {core a : Nat} (h : setAffinity c s core a = .ok s') :
    s'.cur core = a := by
  rcases setAffinity_cases h with ⟨h, rfl⟩ | ⟨_, rfl⟩
  · exact h.symm
  · exact upd_same ..

theorem setAffinity_inv {c : Cfg} {s s' : St} (inv : Inv c s) {core a : Nat} (he : s.inited = false → a < 12)
    (h : setAffinity c s core a = .ok s') :
    Inv c s' ∧ s'.all = s.all ∧ s'.inited = s.inited ∧ s'.live = s.live := by
  rcases setAffinity_cases h with ⟨_, rfl⟩ | ⟨hv, rfl⟩
  · exact ⟨inv, rfl, rfl, rfl⟩
  · exact ⟨inv.setCur hv he, rfl, rfl, rfl⟩

theorem setAffinity_total {c : Cfg} {s : St} {core a : Nat} (h : Valid c (s.cur core)) (ha : Valid c a) :
    ∃ s', setAffinity c s core a = .ok s' := by
  unfold setAffinity
  by_cases e : a = s.cur core
  · exact ⟨s, if_pos e⟩
  · rw [if_neg e]
    unfold Valid at ha
    rw [if_pos ha, if_pos h.lt]
    exact ⟨_, rfl⟩

/-- What `alloc` does. -/
inductive Alloced (c : Cfg) (s : St) (core size : Nat) : Option Obj × St → Prop where
  | null : Alloced c s core size (none, s)
  | left (n : Nat) (h : n < 12) (hv : Valid c n) :
      Alloced c s core size (none, { s with cur := upd s.cur core n })
  | one (pick : List Nat) (p : Piece) (fs : List FreePiece) (ht : take core (s.cur core) pick s.free = some ([p], fs))
      (h0 : 0 < size) (hl : size ≤ Mem.LARGE) (hn : need c size ≤ p.len) :
      Alloced c s core size (some ⟨KBASE + p.base, size, [p], s.cur core⟩,
        { s with free := fs, live := ⟨KBASE + p.base, size, [p], s.cur core⟩ :: s.live })
  | big (pick : List Nat) (ps : List Piece) (fs : List FreePiece)
      (ht : take core (s.cur core) pick s.free = some (ps, fs)) (hl : Mem.LARGE < size)
      (hn : size ≤ (ps.map Piece.len).sum) :
      Alloced c s core size (some ⟨s.sbrk, size, ps, s.cur core⟩,
        { s with free := fs, live := ⟨s.sbrk, size, ps, s.cur core⟩ :: s.live, sbrk := s.sbrk + (ps.map Piece.len).sum })

theorem alloc_cases (c : Cfg) (s : St) (core size : Nat) (pick : List Nat) (fail : Option Nat) :
    Alloced c s core size (alloc c s core size pick fail) := by
  have h0 : ∀ s0 : St, (s0 = match fail with
      | some n =>
        if Mem.isShmemAffinity (s.cur core) && !Mem.isShmemAffinity n &&
            Mem.validNode ⟨c.nodes, c.machines, true⟩ c.arenas n
        then { s with cur := upd s.cur core n } else s
      | none => s) → Alloced c s core size (none, s0) := by
    rintro s0 rfl
    cases fail with
    | none => exact .null
    | some n =>
      simp only
      split
      · rename_i h
        simp only [Bool.and_eq_true, Bool.not_eq_true'] at h
        exact .left n (shm_false.1 h.1.2) h.2
      · exact .null
  unfold alloc
  simp only
  split
  · rename_i p fs ht
    split
    · rename_i h
      exact .one pick p fs ht h.1 h.2.1 h.2.2
    · exact h0 _ rfl
  · rename_i ps fs _ ht
    split
    · rename_i h
      exact .big pick ps fs ht h.1 h.2
    · exact h0 _ rfl
  · exact h0 _ rfl

theorem take_home {c : Cfg} {s : St} (inv : Inv c s) {core aff : Nat} {pick : List Nat} {ps : List Piece}
    {fs : List FreePiece} (ht : take core aff pick s.free = some (ps, fs)) : ∀ p ∈ ps, Home c aff p := by
  intro p hp
  obtain ⟨f, hf, rfl, rfl⟩ := (take_spec ht).2.2 p hp
  exact inv.free f hf

theorem perm_alloc {pool free fs : List Piece} {ps lv lo : List Piece} (h : free.Perm (ps ++ fs)) :
    (pool ++ (free ++ (lv ++ lo))).Perm (pool ++ (fs ++ (ps ++ lv ++ lo))) := by
  refine List.Perm.append_left pool ?_
  have h1 := h.append_right (lv ++ lo)
  refine h1.trans ?_
  have h2 : (ps ++ fs).Perm (fs ++ ps) := List.perm_append_comm
  have h3 := h2.append_right (lv ++ lo)
  refine h3.trans ?_
  simp only [List.append_assoc]
  exact List.Perm.refl _

/-- Allocation keeps the invariant. -/
theorem alloc_inv {c : Cfg} {s : St} (inv : Inv c s) {core size : Nat} {r : Option Obj × St}
    (h : Alloced c s core size r) :
    Inv c r.2 ∧ Moves s.all r.2.all ∧ r.2.inited = s.inited ∧
      (∀ o, r.1 = some o → o.under = s.cur core ∧ o.size = size ∧ r.2.live = o :: s.live ∧ r.2.cur = s.cur) ∧
      (r.1 = none → r.2.live = s.live) := by
  cases h with
  | null => exact ⟨inv, Moves.refl _, rfl, by simp, fun _ => rfl⟩
  | left n h hv => exact ⟨inv.setCur hv fun _ => h, Moves.refl _, rfl, by simp, fun _ => rfl⟩
  | one pick p fs ht h0 hl hn =>
    have hs := take_spec ht
    have hh := take_home inv ht
    refine ⟨⟨fun f hf => inv.free f (hs.2.1 f hf), inv.pool, ?_, inv.sbrk, fun hi => ⟨(inv.early hi).1, ?_⟩, inv.cur⟩,
      Moves.ofPerm ?_, rfl, ?_, by simp⟩
    · intro o ho
      rcases List.mem_cons.1 ho with rfl | ho
      · exact ⟨hh, Or.inl ⟨hl, p, rfl, rfl, hn⟩⟩
      · exact inv.live o ho
    · intro o ho
      rcases List.mem_cons.1 ho with rfl | ho
      · exact (inv.early hi).1 core
      · exact (inv.early hi).2 o ho
    · exact perm_alloc hs.1
    · intro o ho; cases ho; exact ⟨rfl, rfl, rfl, rfl⟩
  | big pick ps fs ht hl hn =>
    have hs := take_spec ht
    have hh := take_home inv ht
    refine ⟨⟨fun f hf => inv.free f (hs.2.1 f hf), inv.pool, ?_, ?_, fun hi => ⟨(inv.early hi).1, ?_⟩, inv.cur⟩,
      Moves.ofPerm ?_, rfl, ?_, by simp⟩
    · intro o ho
      rcases List.mem_cons.1 ho with rfl | ho
      · exact ⟨hh, Or.inr ⟨hl, inv.sbrk⟩⟩
      · exact inv.live o ho
    · exact Nat.le_trans inv.sbrk (Nat.le_add_right ..)
    · intro o ho
      rcases List.mem_cons.1 ho with rfl | ho
      · exact (inv.early hi).1 core
      · exact (inv.early hi).2 o ho
    · exact perm_alloc hs.1
    · intro o ho; cases ho; exact ⟨rfl, rfl, rfl, rfl⟩

theorem perm_live {s : St} {o : Obj} (h : o ∈ s.live) :
    (s.live.flatMap (·.phys)).Perm (o.phys ++ (s.live.erase o).flatMap (·.phys)) := by
  have := (List.perm_cons_erase h).flatMap_right (·.phys)
  simpa using this

/-- What `dealloc` does. -/
theorem dealloc_inv {c : Cfg} (ok : c.Ok) {s s' : St} (inv : Inv c s) {core : Nat} {o : Obj} (ho : o ∈ s.live)
    (h : dealloc c s core o = .ok s') :
    Inv c s' ∧ Moves s.all s'.all ∧ s'.inited = s.inited ∧ s'.live = s.live.erase o ∧ s'.cur = s.cur := by
  have hp := perm_live ho
  have hlive : ∀ o' ∈ s.live.erase o, o' ∈ s.live := fun _ h => List.mem_of_mem_erase h
  have lose : dealloc c s core o = .ok { s with live := s.live.erase o, lost := o.phys ++ s.lost } →
      Inv c s' ∧ Moves s.all s'.all ∧ s'.inited = s.inited ∧ s'.live = s.live.erase o ∧ s'.cur = s.cur := by
    intro e
    rw [e] at h; cases h
    refine ⟨⟨inv.free, inv.pool, fun o' h' => inv.live o' (hlive o' h'), inv.sbrk,
      fun hi => ⟨(inv.early hi).1, fun o' h' => (inv.early hi).2 o' (hlive o' h')⟩, inv.cur⟩, Moves.ofPerm ?_, rfl, rfl, rfl⟩
    unfold St.all
    refine List.Perm.append_left _ (List.Perm.append_left _ ?_)
    refine (hp.append_right s.lost).trans ?_
    refine (List.perm_append_comm.append_right s.lost).trans ?_
    simp only [List.append_assoc]
    exact List.Perm.refl _
  cases hc : check c s core o.ptr with
  | err e => unfold dealloc at h; rw [hc] at h; cases h
  | panic => unfold dealloc at h; rw [hc] at h; cases h
  | ok b =>
    cases b with
    | false => exact lose (by unfold dealloc; rw [hc])
    | true =>
      by_cases hl : o.size ≤ Mem.LARGE
      · have hh := check_home ok inv (inv.live o ho) (fun hi => (inv.early hi).2 o ho) hl hc
        unfold dealloc at h
        rw [hc] at h
        simp only [if_pos hl] at h
        cases h
        refine ⟨⟨?_, inv.pool, fun o' h' => inv.live o' (hlive o' h'), inv.sbrk,
          fun hi => ⟨(inv.early hi).1, fun o' h' => (inv.early hi).2 o' (hlive o' h')⟩, inv.cur⟩, Moves.ofPerm ?_, rfl, rfl, rfl⟩
        · intro f hf
          rcases List.mem_append.1 hf with hf | hf
          · obtain ⟨p, hp, rfl⟩ := List.mem_map.1 hf
            exact hh p hp
          · exact inv.free f hf
        · unfold St.all
          refine List.Perm.append_left _ ?_
          simp only [List.map_append, List.map_map]
          have hid : (FreePiece.piece ∘ fun p => (⟨core, s.cur core, p⟩ : FreePiece)) = id := rfl
          rw [hid, List.map_id]
          refine ((hp.append_right s.lost).append_left _).trans ?_
          rw [List.append_assoc o.phys, ← List.append_assoc]
          exact (List.perm_append_comm.append_right _)
      · exact lose (by unfold dealloc; rw [hc]; simp only [if_neg hl])

/-- The object in its new size. -/
theorem keeps_inv {c : Cfg} (ok : c.Ok) {s : St} (inv : Inv c s) {o : Obj} {new : Nat} (ho : o ∈ s.live)
    (h : keeps c o.size new = true) :
    Inv c { s with live := { o with size := new } :: s.live.erase o } ∧
      Moves s.all ({ s with live := { o with size := new } :: s.live.erase o } : St).all := by
  have hp := perm_live ho
  have hlive : ∀ o' ∈ s.live.erase o, o' ∈ s.live := fun _ h => List.mem_of_mem_erase h
  unfold keeps at h
  simp only [Bool.and_eq_true, decide_eq_true_eq] at h
  obtain ⟨⟨h1, _⟩, h3⟩ := h
  have hs := ok.slabs _ _ h1 h3
  have hl := inv.live o ho
  refine ⟨⟨inv.free, inv.pool, ?_, inv.sbrk, fun hi => ⟨(inv.early hi).1, ?_⟩, inv.cur⟩, Moves.ofPerm ?_⟩
  · intro o' h'
    rcases List.mem_cons.1 h' with rfl | h'
    · refine ⟨hl.1, ?_⟩
      rcases hl.2 with ⟨_, p, e1, e2, e3⟩ | ⟨hb, _⟩
      · refine Or.inl ⟨Nat.le_trans hs.1 ok.large, p, e1, e2, ?_⟩
        unfold need at e3 ⊢
        rw [if_pos h1] at e3
        rw [if_pos hs.1]
        exact Nat.le_trans hs.2 e3
      · have := ok.large; omega
    · exact inv.live o' (hlive o' h')
  · intro o' h'
    rcases List.mem_cons.1 h' with rfl | h'
    · exact (inv.early hi).2 o ho
    · exact (inv.early hi).2 o' (hlive o' h')
  · unfold St.all
    exact ((hp.append_right s.lost).append_left _).append_left _

theorem realloc_inv {c : Cfg} (ok : c.Ok) {s : St} (inv : Inv c s) {core new : Nat} {o : Obj} {pick : List Nat}
    {fail : Option Nat} (ho : o ∈ s.live) {r : Option Obj × St} (h : realloc c s core o new pick fail = .ok r) :
    Inv c r.2 ∧ Moves s.all r.2.all ∧ r.2.inited = s.inited := by
  unfold realloc at h
  by_cases hk : keeps c o.size new = true
  · simp only [hk, if_true] at h
    cases h
    have := keeps_inv ok inv ho hk
    exact ⟨this.1, this.2, rfl⟩
  · simp only [hk] at h
    cases hc : check c s core o.ptr with
    | err e => rw [hc] at h; simp at h
    | panic => rw [hc] at h; simp at h
    | ok b =>
      rw [hc] at h
      cases b with
      | false => simp at h
      | true =>
        simp only [Bool.false_eq_true, if_false] at h
        have ha := alloc_inv inv (alloc_cases c s core new pick fail)
        generalize halloc : alloc c s core new pick fail = q at h ha
        obtain ⟨q1, s1⟩ := q
        obtain ⟨i1, m1, e1, f1, g1⟩ := ha
        cases q1 with
        | none => cases h; exact ⟨i1, m1, e1⟩
        | some o' =>
          simp only at h
          have ho' : o ∈ s1.live := by rw [(f1 o' rfl).2.2.1]; exact List.mem_cons_of_mem _ ho
          cases hd : dealloc c s1 core o with
          | err e => rw [hd] at h; cases h
          | panic => rw [hd] at h; cases h
          | ok s2 =>
            rw [hd] at h; cases h
            obtain ⟨i2, m2, e2, _⟩ := dealloc_inv ok i1 ho' hd
            exact ⟨i2, m1.trans m2, e2.trans e1⟩

/-- `ShmemAlloc::allocate` puts the affinity back and gives memory of its affinity. -/
theorem shmemAllocate_spec {c : Cfg} {s : St} (inv : Inv c s) {core a size : Nat} {pick : List Nat}
    {fail : Option Nat} (he : s.inited = true) {r : Option Obj × St}
    (h : shmemAllocate c s core a size pick fail = .ok r) :
    Inv c r.2 ∧ Moves s.all r.2.all ∧ r.2.inited = s.inited ∧ r.2.cur core = s.cur core ∧
      (∀ o, r.1 = some o → o.under = a ∧ o.size = size ∧ r.2.live = o :: s.live) ∧
      (r.1 = none → r.2.live = s.live) := by
  unfold shmemAllocate at h
  split at h
  · cases h1 : setAffinity c s core a with
    | err e => rw [h1] at h; cases h
    | panic => rw [h1] at h; cases h
    | ok s1 =>
      rw [h1] at h
      simp only at h
      obtain ⟨i1, m1, e1, l1⟩ := setAffinity_inv inv (by simp [he]) h1
      have ha := alloc_inv i1 (alloc_cases c s1 core size pick fail)
      generalize halloc : alloc c s1 core size pick fail = q at h ha
      obtain ⟨q1, s2⟩ := q
      obtain ⟨i2, m2, e2, f2, g2⟩ := ha
      simp only at h i2 m2 e2 f2 g2
      cases h3 : setAffinity c s2 core (s.cur core) with
      | err e => rw [h3] at h; cases h
      | panic => rw [h3] at h; cases h
      | ok s3 =>
        rw [h3] at h; cases h
        obtain ⟨i3, m3, e3, l3⟩ := setAffinity_inv i2 (by simp [e2, e1, he]) h3
        refine ⟨i3, ?_, by simp only [e3, e2, e1], setAffinity_cur h3, ?_, ?_⟩
        · simp only [m3]; rw [← m1]; exact m2
        · intro o ho
          obtain ⟨u1, u2, u3, _⟩ := f2 o ho
          exact ⟨u1.trans (setAffinity_cur h1), u2, by rw [l3, u3, l1]⟩
        · intro hn; rw [l3, g2 hn, l1]
  · cases h

theorem shmemDeallocate_spec {c : Cfg} (ok : c.Ok) {s s' : St} (inv : Inv c s) {core a : Nat} {o : Obj}
    (ho : o ∈ s.live) (he : s.inited = true) (h : shmemDeallocate c s core a o = .ok s') :
    Inv c s' ∧ Moves s.all s'.all ∧ s'.inited = s.inited ∧ s'.cur core = s.cur core ∧
      s'.live = s.live.erase o := by
  unfold shmemDeallocate at h
  split at h
  · cases h1 : setAffinity c s core a with
    | err e => rw [h1] at h; cases h
    | panic => rw [h1] at h; cases h
    | ok s1 =>
      rw [h1] at h
      simp only at h
      obtain ⟨i1, m1, e1, l1⟩ := setAffinity_inv inv (by simp [he]) h1
      cases h2 : dealloc c s1 core o with
      | err e => rw [h2] at h; cases h
      | panic => rw [h2] at h; cases h
      | ok s2 =>
        rw [h2] at h
        simp only at h
        obtain ⟨i2, m2, e2, l2, _⟩ := dealloc_inv ok i1 (by rw [l1]; exact ho) h2
        obtain ⟨i3, m3, e3, l3⟩ := setAffinity_inv i2 (by simp [e2, e1, he]) h
        refine ⟨i3, ?_, by simp only [e3, e2, e1], setAffinity_cur h, by rw [l3, l2, l1]⟩
        rw [m3, ← m1]; exact m2
  · cases h

theorem refill_inv {c : Cfg} {s : St} (inv : Inv c s) (core i : Nat) :
    Inv c (refill s core i) ∧ Moves s.all (refill s core i).all ∧ (refill s core i).inited = s.inited := by
  unfold refill
  cases h : s.pool[i]? with
  | none => exact ⟨inv, Moves.refl _, rfl⟩
  | some e =>
    obtain ⟨a, p⟩ := e
    simp only
    split
    · have hm : (a, p) ∈ s.pool := List.mem_of_getElem? h
      refine ⟨⟨?_, fun e he => inv.pool e (List.mem_of_mem_eraseIdx he), inv.live, inv.sbrk, inv.early, inv.cur⟩,
        Moves.ofPerm ?_, rfl⟩
      · intro f hf
        rcases List.mem_cons.1 hf with rfl | hf
        · exact inv.pool _ hm
        · exact inv.free f hf
      · unfold St.all
        have := ((perm_erase h).map (·.2)).append_right (s.free.map (·.piece) ++ (s.live.flatMap (·.phys) ++ s.lost))
        refine this.trans ?_
        simp only [List.map_cons, List.cons_append]
        exact List.perm_middle.symm
    · exact ⟨inv, Moves.refl _, rfl⟩

theorem split_moves {l : List Piece} {p : Piece} {n : Nat} (h : 0 < n ∧ n < p.len) :
    Moves (p :: l) (⟨p.base, n⟩ :: ⟨p.base + n, p.len - n⟩ :: l) := by
  have s1 : ∀ x, (⟨p.base, n⟩ : Piece).Has x → p.Has x := by
    intro x hx; unfold Piece.Has at *; simp only at hx; omega
  have s2 : ∀ x, (⟨p.base + n, p.len - n⟩ : Piece).Has x → p.Has x := by
    intro x hx; unfold Piece.Has at *; simp only at hx; omega
  constructor
  · intro hp
    rw [List.pairwise_cons] at hp
    rw [List.pairwise_cons, List.pairwise_cons]
    refine ⟨?_, fun q hq x hx => hp.1 q hq x ⟨s2 x hx.1, hx.2⟩, hp.2⟩
    intro q hq
    rcases List.mem_cons.1 hq with rfl | hq
    · intro x hx; unfold Piece.Has at hx; simp only at hx; omega
    · exact fun x hx => hp.1 q hq x ⟨s1 x hx.1, hx.2⟩
  · intro x
    constructor
    · rintro ⟨q, hq, hx⟩
      rcases List.mem_cons.1 hq with rfl | hq
      · by_cases hlt : x < q.base + n
        · exact ⟨_, List.mem_cons_self .., hx.1, hlt⟩
        · refine ⟨_, List.mem_cons_of_mem _ (List.mem_cons_self ..), ?_⟩
          unfold Piece.Has at *; simp only; omega
      · exact ⟨q, by simp [hq], hx⟩
    · rintro ⟨q, hq, hx⟩
      rcases List.mem_cons.1 hq with rfl | hq
      · exact ⟨p, List.mem_cons_self .., s1 x hx⟩
      · rcases List.mem_cons.1 hq with rfl | hq
        · exact ⟨p, List.mem_cons_self .., s2 x hx⟩
        · exact ⟨q, by simp [hq], hx⟩

theorem split_inv {c : Cfg} {s : St} (inv : Inv c s) (i n : Nat) :
    Inv c (split s i n) ∧ Moves s.all (split s i n).all ∧ (split s i n).inited = s.inited := by
  unfold split
  cases h : s.free[i]? with
  | none => exact ⟨inv, Moves.refl _, rfl⟩
  | some e =>
    obtain ⟨core, a, p⟩ := e
    simp only
    split
    · rename_i hn
      have hm : (⟨core, a, p⟩ : FreePiece) ∈ s.free := List.mem_of_getElem? h
      have hh : Home c a p := inv.free _ hm
      refine ⟨⟨?_, inv.pool, inv.live, inv.sbrk, inv.early, inv.cur⟩, ?_, rfl⟩
      · intro f hf
        rcases List.mem_cons.1 hf with rfl | hf
        · refine ⟨hn.1, fun x hx => hh.2 x ?_⟩
          unfold Piece.Has at *; simp only at hx; omega
        · rcases List.mem_cons.1 hf with rfl | hf
          · refine ⟨by simp only; omega, fun x hx => hh.2 x ?_⟩
            unfold Piece.Has at *; simp only at hx; omega
          · exact inv.free f (List.mem_of_mem_eraseIdx hf)
      · unfold St.all
        have p1 := (((perm_erase h).map (·.piece)).append_right (s.live.flatMap (·.phys) ++ s.lost)).append_left
          (s.pool.map (·.2))
        refine (Moves.ofPerm p1).trans ?_
        refine (Moves.ofPerm List.perm_append_comm).trans ?_
        simp only [List.map_cons, List.cons_append]
        refine (split_moves hn).trans ?_
        rw [← List.cons_append, ← List.cons_append]
        exact Moves.ofPerm List.perm_append_comm
    · exact ⟨inv, Moves.refl _, rfl⟩

end NRK.Rack.Arena
