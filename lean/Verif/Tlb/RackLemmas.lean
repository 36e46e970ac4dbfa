import Verif.Tlb.RackModel
import Verif.Tlb.TlbLemmas

/-! # Invariant of the shootdown protocol between machines -/

namespace NRK.Tlb.Rack

def Flushes (u : Cpu) (p : Nat) : Prop := ∃ fl, u.work = some (.flushing fl) ∧ fl.Has p

def RUnacked (robjs : List RObj) (c id : Nat) : Prop :=
  ∃ o, robjs[id]? = some o ∧ c ∈ o.cores ∧ o.acked = false

def Loc.r : Loc → Rng
  | .enq r _ _ => r
  | .self r _ _ => r
  | .wait r _ => r

def Loc.pend : Loc → List Nat
  | .enq _ _ l => l
  | .self _ _ l => l
  | .wait _ l => l

/-- The run `l` of `shootdown` on core `i` has still to see to it that core `c` forgets page `p`. -/
def LocOwes (objs : List Obj) (i : Nat) (l : Loc) (c p : Nat) : Prop :=
  (∃ id ∈ l.pend, Unacked objs c id) ∨
  match l with
  | .enq _ todo _ => c ∈ todo ∨ c = i
  | .self _ fl _ => c = i ∧ fl.Has p
  | .wait _ _ => False

/-- Core `i` of machine `m` has still to see to it, in its own system call for the unmap at place `k`. -/
def CpuOwes (objs : List Obj) (robjs : List RObj) (m i : Nat) (u : Cpu) (k c p : Nat) : Prop :=
  match u.base with
  | .user => False
  | .rem _ k' hs todo pend =>
      k' = k ∧ (c ∈ hs m ∨ (∃ n ∈ todo, c ∈ hs n) ∨ ∃ id ∈ pend, RUnacked robjs c id)
  | .wait _ k' pend =>
      k' = k ∧ ((∃ id ∈ pend, RUnacked robjs c id) ∨
        (u.serve = none ∧ ∃ l, u.loc = some l ∧ LocOwes objs i l c p))

def Owed (g : Cfg) (s : St) (k c p : Nat) : Prop :=
  (∃ i, CpuOwes s.objs s.robjs (g.mach i) i (s.cpu i) k c p) ∨ Flushes (s.cpu c) p

/-- The place in the log, the range and the requests of a core's own system call. -/
def BaseOk (log : List POp) (robjs : List RObj) (u : Cpu) : Prop :=
  match u.base with
  | .user => True
  | .rem r k _ _ pend => log[k]? = some (.unmap r) ∧ u.loc = none ∧
      ∀ id ∈ pend, ∃ o, robjs[id]? = some o ∧ o.range = r ∧ o.pos = k
  | .wait r k pend => log[k]? = some (.unmap r) ∧ (∀ l, u.serve = none → u.loc = some l → l.r = r) ∧
      ∀ id ∈ pend, ∃ o, robjs[id]? = some o ∧ o.range = r ∧ o.pos = k

def LocOk (objs : List Obj) (u : Cpu) : Prop :=
  ∀ l, u.loc = some l → ∀ id ∈ l.pend, ∃ o, objs[id]? = some o ∧ o.range = l.r

/-- What holds while a core serves the request of another machine. -/
def ServeOk (s : St) (i : Nat) (u : Cpu) : Prop :=
  ∀ id, u.serve = some id → ∃ o, s.robjs[id]? = some o ∧ (∀ l, u.loc = some l → l.r = o.range) ∧
    ∀ c ∈ o.cores, ∀ p e, o.range.Has p → s.tlb c p = some e → e.len ≤ o.pos →
      (∃ l, u.loc = some l ∧ LocOwes s.objs i l c p) ∨ Flushes (s.cpu c) p

/-- A work item in the hands of a core is meant for it. -/
def WorkOk (objs : List Obj) (i : Nat) (u : Cpu) : Prop :=
  ∀ id, u.work = some (.popped id) ∨ u.work = some (.requeue id) →
    ∃ o, objs[id]? = some o ∧ o.target = i

structure Inv (g : Cfg) (s : St) : Prop where
  inact : ∀ c p, s.act c = false → s.tlb c p = none
  actm : ∀ c, s.act c = true → 1 ≤ g.mach c ∧ g.mach c < g.machines
  main : ∀ k r c p e, s.log[k]? = some (.unmap r) → r.Has p → s.tlb c p = some e → e.len ≤ k →
    Owed g s k c p
  robj : ∀ (id : Nat) (o : RObj), s.robjs[id]? = some o → s.log[o.pos]? = some (.unmap o.range)
  base : ∀ i, BaseOk s.log s.robjs (s.cpu i)
  loc : ∀ i, LocOk s.objs (s.cpu i)
  serve : ∀ i, ServeOk s i (s.cpu i)
  work : ∀ i, WorkOk s.objs i (s.cpu i)
  que : ∀ c id, id ∈ s.queue c → ∃ o, s.objs[id]? = some o ∧ o.target = c

theorem lt_of_get {α : Type} {l : List α} {k : Nat} {a : α} (h : l[k]? = some a) : k < l.length :=
  (List.getElem?_eq_some_iff.1 h).1

/-- A debt of a run of `shootdown` outlives changes of the shootdowns. -/
theorem LocOwes.keep {objs objs' : List Obj} {i c p : Nat} {l : Loc} {Q : Prop} (h : LocOwes objs i l c p)
    (hl : ∀ id ∈ l.pend, Unacked objs c id → Unacked objs' c id ∨ Q) : LocOwes objs' i l c p ∨ Q := by
  rcases h with ⟨id, h1, h2⟩ | h
  · rcases hl id h1 h2 with h3 | h3
    · exact .inl (.inl ⟨id, h1, h3⟩)
    · exact .inr h3
  · exact .inl (.inr h)

/-- Steps that leave the log and the set of active cores alone and change what one core does. -/
theorem Inv.next {g : Cfg} {s s' : St} (h : Inv g s) (i : Nat) (u' : Cpu)
    (hlog : s'.log = s.log) (hact : s'.act = s.act) (hcpu : s'.cpu = upd s.cpu i u')
    (htlb : ∀ c p e, s'.tlb c p = some e → s.tlb c p = some e)
    (hfl : ∀ p e, s'.tlb i p = some e → Flushes (s.cpu i) p → Flushes u' p)
    (hO : ∀ c id o p, s.objs[id]? = some o → o.range.Has p → Unacked s.objs c id →
      Unacked s'.objs c id ∨ Flushes (s'.cpu c) p)
    (hR : ∀ (c id : Nat) (o : RObj) p e, s.robjs[id]? = some o → o.range.Has p →
      s'.tlb c p = some e → e.len ≤ o.pos → RUnacked s.robjs c id →
      RUnacked s'.robjs c id ∨ Flushes (s'.cpu c) p)
    (hgO : ∀ (id : Nat) (o : Obj), s.objs[id]? = some o →
      ∃ o', s'.objs[id]? = some o' ∧ o'.range = o.range ∧ o'.target = o.target)
    (hgR : ∀ (id : Nat) (o : RObj), s.robjs[id]? = some o →
      ∃ o', s'.robjs[id]? = some o' ∧ o'.range = o.range ∧ o'.pos = o.pos ∧ o'.cores = o.cores)
    (hown : ∀ k r c p e, s.log[k]? = some (.unmap r) → r.Has p → s'.tlb c p = some e → e.len ≤ k →
      CpuOwes s.objs s.robjs (g.mach i) i (s.cpu i) k c p →
      CpuOwes s'.objs s'.robjs (g.mach i) i u' k c p ∨ Flushes (s'.cpu c) p)
    (hrobj : ∀ (id : Nat) (o : RObj), s'.robjs[id]? = some o → s.log[o.pos]? = some (.unmap o.range))
    (hb : BaseOk s.log s'.robjs u') (hl : LocOk s'.objs u') (hs : ServeOk s' i u')
    (hw : WorkOk s'.objs i u')
    (hq : ∀ c id, id ∈ s'.queue c → ∃ o, s'.objs[id]? = some o ∧ o.target = c) : Inv g s' := by
  have flk : ∀ c p e, s'.tlb c p = some e → Flushes (s.cpu c) p → Flushes (s'.cpu c) p := by
    intro c p e he hf
    rw [hcpu, upd_apply]
    split
    · next e' => subst e'; exact hfl p e he hf
    · exact hf
  refine ⟨?_, ?_, ?_, ?_, ?_, ?_, ?_, ?_, hq⟩
  · intro c p ha
    rw [hact] at ha
    cases hx : s'.tlb c p with
    | none => rfl
    | some e =>
      have := htlb c p e hx
      rw [h.inact c p ha] at this
      cases this
  · rw [hact]; exact h.actm
  · intro k r c p e hk hr he hle
    rw [hlog] at hk
    rcases h.main k r c p e hk hr (htlb c p e he) hle with ⟨j, hj⟩ | hf
    · by_cases ej : j = i
      · subst ej
        rcases hown k r c p e hk hr he hle hj with h1 | h1
        · refine .inl ⟨j, ?_⟩
          rw [hcpu, upd_same]
          exact h1
        · exact .inr h1
      · have hB := h.base j
        have hL := h.loc j
        have key : CpuOwes s'.objs s'.robjs (g.mach j) j (s.cpu j) k c p ∨ Flushes (s'.cpu c) p := by
          revert hj hB
          unfold CpuOwes BaseOk
          cases hbj : (s.cpu j).base with
          | user => exact fun h _ => h.elim
          | rem r' k' hs todo pend =>
            dsimp only
            rintro ⟨h1, h2⟩ ⟨b1, _, b2⟩
            subst h1
            rcases h2 with h2 | h2 | ⟨id, h2, h3⟩
            · exact .inl ⟨rfl, .inl h2⟩
            · exact .inl ⟨rfl, .inr (.inl h2)⟩
            · obtain ⟨o, o1, o2, o3⟩ := b2 id h2
              have : r' = r := by rw [b1] at hk; cases hk; rfl
              subst this
              rcases hR c id o p e o1 (by rw [o2]; exact hr) he (by omega) h3 with h4 | h4
              · exact .inl ⟨rfl, .inr (.inr ⟨id, h2, h4⟩)⟩
              · exact .inr h4
          | wait r' k' pend =>
            dsimp only
            rintro ⟨h1, h2⟩ ⟨b1, b3, b2⟩
            subst h1
            have : r' = r := by rw [b1] at hk; cases hk; rfl
            subst this
            rcases h2 with ⟨id, h2, h3⟩ | ⟨h2, l, h3, h4⟩
            · obtain ⟨o, o1, o2, o3⟩ := b2 id h2
              rcases hR c id o p e o1 (by rw [o2]; exact hr) he (by omega) h3 with h4 | h4
              · exact .inl ⟨rfl, .inl ⟨id, h2, h4⟩⟩
              · exact .inr h4
            · rcases h4.keep (Q := Flushes (s'.cpu c) p) (fun id hid hun => by
                obtain ⟨o, o1, o2⟩ := hL l h3 id hid
                exact hO c id o p o1 (by rw [o2, b3 l h2 h3]; exact hr) hun) with h5 | h5
              · exact .inl ⟨rfl, .inr ⟨h2, l, h3, h5⟩⟩
              · exact .inr h5
        rcases key with h1 | h1
        · refine .inl ⟨j, ?_⟩
          rw [hcpu, upd_other _ _ ej]
          exact h1
        · exact .inr h1
    · exact .inr (flk c p e he hf)
  · rw [hlog]; exact hrobj
  · intro j
    rw [hlog, hcpu, upd_apply]
    split
    · exact hb
    · have hB := h.base j
      revert hB
      unfold BaseOk
      cases hbj : (s.cpu j).base with
      | user => exact id
      | rem r' k' hs todo pend =>
        rintro ⟨b1, b3, b2⟩
        refine ⟨b1, b3, fun id hid => ?_⟩
        obtain ⟨o, o1, o2, o3⟩ := b2 id hid
        obtain ⟨o', p1, p2, p3, _⟩ := hgR id o o1
        exact ⟨o', p1, p2.trans o2, p3.trans o3⟩
      | wait r' k' pend =>
        rintro ⟨b1, b3, b2⟩
        refine ⟨b1, b3, fun id hid => ?_⟩
        obtain ⟨o, o1, o2, o3⟩ := b2 id hid
        obtain ⟨o', p1, p2, p3, _⟩ := hgR id o o1
        exact ⟨o', p1, p2.trans o2, p3.trans o3⟩
  · intro j
    rw [hcpu, upd_apply]
    split
    · exact hl
    · intro l hl' id hid
      obtain ⟨o, o1, o2⟩ := h.loc j l hl' id hid
      obtain ⟨o', p1, p2, _⟩ := hgO id o o1
      exact ⟨o', p1, p2.trans o2⟩
  · intro j
    by_cases ej : j = i
    · subst ej
      rw [hcpu, upd_same]
      exact hs
    · have hS := h.serve j
      rw [hcpu, upd_other _ _ ej]
      intro id hid
      obtain ⟨o, o1, o2, o3⟩ := hS id hid
      obtain ⟨o', p1, p2, p3, p4⟩ := hgR id o o1
      refine ⟨o', p1, fun l hl' => (o2 l hl').trans p2.symm, ?_⟩
      intro c hc p e hp he hle
      rw [p4] at hc
      rw [p2] at hp
      rw [p3] at hle
      rcases o3 c hc p e hp (htlb c p e he) hle with ⟨l, h1, h2⟩ | h1
      · rcases h2.keep (Q := Flushes (s'.cpu c) p) (fun id' hid' hun => by
          obtain ⟨q, q1, q2⟩ := h.loc j l h1 id' hid'
          exact hO c id' q p q1 (by rw [q2, o2 l h1]; exact hp) hun) with h3 | h3
        · exact .inl ⟨l, h1, h3⟩
        · exact .inr h3
      · exact .inr (flk c p e he h1)
  · intro j
    rw [hcpu, upd_apply]
    split
    · next e => subst e; exact hw
    · intro id hid
      obtain ⟨o, o1, o2⟩ := h.work j id hid
      obtain ⟨o', p1, _, p2⟩ := hgO id o o1
      exact ⟨o', p1, p2.trans o2⟩

end NRK.Tlb.Rack
