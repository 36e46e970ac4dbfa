import Verif.Machine.MachineModel
import Verif.Mem.AllocProps
import Verif.Mem.ConserveProps

/-!
# What the memory system calls do to the page caches
-/

namespace NRK.Machine

open NRK.Mem NRK.Mem.Spec NRK.VSpace NRK.Proc

/-- A page, aligned. -/
def PageOk (f : Frame) : Prop := PageSize f.size ∧ f.base % f.size = 0

theorem pageOk_base {a n : Nat} (h : a % BASE = 0) : PageOk ⟨a, BASE, n⟩ := ⟨Or.inl BASE_eq, h⟩

theorem pageOk_large {a n : Nat} (h : a % LARGE = 0) : PageOk ⟨a, LARGE, n⟩ := ⟨Or.inr LARGE_eq, h⟩

/-- Taking a page. -/
theorem takeOne_spec {c c' : MCache} (hc : c.Wf) {large : Bool} {o : Outcome Frame}
    (h : takeOne c large = (o, c')) :
    c'.Wf ∧ c'.node = c.node ∧
    ((∃ f, o = .ok f ∧ PageOk f ∧ (c'.held ++ [f.block]).Perm c.held) ∨
      (o = .err .cacheExhausted ∧ c' = c)) := by
  cases large with
  | true =>
    have e : c.allocLarge = (o, c') := h
    cases hb : c.lp with
    | nil =>
      simp only [MCache.allocLarge, hb] at e
      cases e
      exact ⟨hc, rfl, Or.inr ⟨rfl, rfl⟩⟩
    | cons a as =>
      have ha : a % LARGE = 0 := hc.alL a (by simp [hb])
      simp only [MCache.allocLarge, hb, new_large ha] at e
      cases e
      refine ⟨⟨hc.capB, ?_, hc.alB, ?_⟩, rfl, Or.inl ⟨_, rfl, pageOk_large ha, ?_⟩⟩
      · have := hc.capL; rw [hb] at this; simp at this ⊢; omega
      · intro x hx; exact hc.alL x (by rw [hb]; exact List.mem_cons_of_mem _ hx)
      · refine List.Perm.trans ?_ (held_cons_large c a as hb).symm
        exact List.perm_append_comm
  | false =>
    have e : c.allocBase = (o, c') := h
    cases hb : c.bp with
    | nil =>
      simp only [MCache.allocBase, hb] at e
      cases e
      exact ⟨hc, rfl, Or.inr ⟨rfl, rfl⟩⟩
    | cons a as =>
      have ha : a % BASE = 0 := hc.alB a (by simp [hb])
      simp only [MCache.allocBase, hb, new_base ha] at e
      cases e
      refine ⟨⟨?_, hc.capL, ?_, hc.alL⟩, rfl, Or.inl ⟨_, rfl, pageOk_base ha, ?_⟩⟩
      · have := hc.capB; rw [hb] at this; simp at this ⊢; omega
      · intro x hx; exact hc.alB x (by rw [hb]; exact List.mem_cons_of_mem _ hx)
      · refine List.Perm.trans ?_ (held_cons_base c a as hb).symm
        exact List.perm_append_comm

theorem growBase_node (rack : Bool) (fs : List Frame) : ∀ c : MCache, (c.growBase rack fs).2.node = c.node := by
  induction fs with
  | nil => intro c; rfl
  | cons f fs ih =>
    intro c
    simp only [MCache.growBase, MCache.pushBase]
    by_cases h : f.size = BASE ∧ f.base % BASE = 0 ∧ affinityFits rack f.aff c.node = true
    · rw [if_pos h]
      by_cases h' : c.bp.length < c.capB
      · simp only [if_pos h']
        rw [ih]
      · simp only [if_neg h']
    · rw [if_neg h]

theorem growLarge_node (fs : List Frame) : ∀ c : MCache, (c.growLarge fs).2.node = c.node := by
  induction fs with
  | nil => intro c; rfl
  | cons f fs ih =>
    intro c
    simp only [MCache.growLarge, MCache.pushLarge]
    by_cases h : f.size = LARGE ∧ f.base % LARGE = 0 ∧ f.aff = c.node
    · rw [if_pos h]
      by_cases h' : c.lp.length < c.capL
      · simp only [if_pos h']
        rw [ih]
      · simp only [if_neg h']
    · rw [if_neg h]

theorem allocLarge_node (c : MCache) : c.allocLarge.2.node = c.node := by
  unfold MCache.allocLarge
  split <;> rfl

theorem allocBase_node (c : MCache) : c.allocBase.2.node = c.node := by
  unfold MCache.allocBase
  split <;> rfl

theorem moveLarge_node (n : Nat) : ∀ nc tc : MCache,
    (moveLarge nc tc n).2.1.node = nc.node ∧ (moveLarge nc tc n).2.2.node = tc.node := by
  induction n with
  | zero => intro nc tc; exact ⟨rfl, rfl⟩
  | succ n ih =>
    intro nc tc
    have h1 := allocLarge_node nc
    unfold moveLarge
    split
    · rename_i f nc' e
      rw [e] at h1
      have h2 := growLarge_node [f] tc
      split
      · rename_i tc' e'
        rw [e'] at h2
        rw [(ih nc' tc').1, (ih nc' tc').2]
        exact ⟨h1, h2⟩
      · rename_i tc' e'
        rw [e'] at h2
        exact ⟨h1, h2⟩
    · rename_i e
      rw [e] at h1
      exact ⟨h1, rfl⟩
    · rename_i e
      rw [e] at h1
      exact ⟨h1, rfl⟩

theorem moveBase_node (rack : Bool) (n : Nat) : ∀ nc tc : MCache,
    (moveBase rack nc tc n).2.1.node = nc.node ∧ (moveBase rack nc tc n).2.2.node = tc.node := by
  induction n with
  | zero => intro nc tc; exact ⟨rfl, rfl⟩
  | succ n ih =>
    intro nc tc
    have h1 := allocBase_node nc
    unfold moveBase
    split
    · rename_i f nc' e
      rw [e] at h1
      have h2 := growBase_node rack [f] tc
      split
      · rename_i tc' e'
        rw [e'] at h2
        rw [(ih nc' tc').1, (ih nc' tc').2]
        exact ⟨h1, h2⟩
      · rename_i tc' e'
        rw [e'] at h2
        exact ⟨h1, h2⟩
    · rename_i e
      rw [e] at h1
      exact ⟨h1, rfl⟩
    · rename_i e
      rw [e] at h1
      exact ⟨h1, rfl⟩

theorem refill_node (rack : Bool) (nc tc : MCache) (nB nL : Nat) :
    (refillTcache rack nc tc nB nL).2.1.node = nc.node ∧
      (refillTcache rack nc tc nB nL).2.2.node = tc.node := by
  have h := moveBase_node rack (min tc.spareBase nB) nc tc
  unfold refillTcache
  split
  · rename_i nc' tc' e
    rw [e] at h
    have h' := moveLarge_node (min tc.spareLarge nL) nc' tc'
    rw [h'.1, h'.2]
    exact h
  · exact h

/-- A refill moves pages between the two caches. -/
theorem refill_spec {nc tc nc' tc' : MCache} {nB nL : Nat} {o : Outcome Unit} (h1 : nc.Wf) (h2 : tc.Wf)
    (hn : nc.node = tc.node) (h : refillTcache false nc tc nB nL = (o, nc', tc')) :
    nc'.Wf ∧ tc'.Wf ∧ nc'.node = nc.node ∧ tc'.node = tc.node ∧
      (nc'.held ++ tc'.held).Perm (nc.held ++ tc.held) := by
  have a := c21_refill false nc tc h1 h2 hn nB nL
  have b := refill_node false nc tc nB nL
  simp only [h] at a b
  exact ⟨a.2.2.1, a.2.2.2.1, b.1, b.2, a.2.1⟩

theorem refillTake_spec {nc tc nc' tc' : MCache} {large : Bool} {o : Outcome Frame} (h1 : nc.Wf)
    (h2 : tc.Wf) (hn : nc.node = tc.node) (h : refillTake nc tc large = (o, nc', tc')) :
    nc'.Wf ∧ tc'.Wf ∧ nc'.node = nc.node ∧ tc'.node = tc.node ∧
    ((∃ f, o = .ok f ∧ PageOk f ∧ (nc'.held ++ tc'.held ++ [f.block]).Perm (nc.held ++ tc.held)) ∨
      ((∀ f, o ≠ .ok f) ∧ (nc'.held ++ tc'.held).Perm (nc.held ++ tc.held))) := by
  unfold refillTake at h
  split at h
  · rename_i nc1 tc1 e
    obtain ⟨a1, a2, a3, a4, a5⟩ := refill_spec h1 h2 hn e
    cases ht : takeOne tc1 large with
    | mk o1 tc2 =>
    rw [ht] at h
    cases h
    obtain ⟨b1, b2, b3⟩ := takeOne_spec a2 ht
    refine ⟨a1, b1, a3, b2.trans a4, ?_⟩
    rcases b3 with ⟨f, e1, e2, e3⟩ | ⟨e1, e2⟩
    · left
      refine ⟨f, e1, e2, ?_⟩
      rw [List.append_assoc]
      exact (e3.append_left _).trans a5
    · right
      refine ⟨(fun f he => by rw [e1] at he; cases he), ?_⟩
      rw [e2]; exact a5
  · rename_i e
    cases h
    obtain ⟨a1, a2, a3, a4, a5⟩ := refill_spec h1 h2 hn e
    exact ⟨a1, a2, a3, a4, Or.inr ⟨(fun f he => by cases he), a5⟩⟩
  · rename_i e
    cases h
    obtain ⟨a1, a2, a3, a4, a5⟩ := refill_spec h1 h2 hn e
    exact ⟨a1, a2, a3, a4, Or.inr ⟨(fun f he => by cases he), a5⟩⟩

theorem pages_of_blocks {fs : List Frame} {as : List Nat} {n : Nat} (hn : PageSize n)
    (ha : ∀ a ∈ as, a % n = 0) (h : fs.map (·.block) = as.map (fun a => (⟨a, n⟩ : Block))) :
    ∀ f ∈ fs, PageOk f := by
  intro f hf
  have : f.block ∈ as.map (fun a => (⟨a, n⟩ : Block)) := by
    rw [← h]; exact List.mem_map_of_mem hf
  obtain ⟨a, h1, h2⟩ := List.mem_map.1 this
  have e1 : a = f.base := congrArg Block.start h2
  have e2 : n = f.size := congrArg Block.len h2
  subst e1; subst e2
  exact ⟨hn, ha _ h1⟩

theorem drop_take_perm {α : Type} (l : List α) (n : Nat) : (l.drop n ++ l.take n).Perm l :=
  List.perm_append_comm.trans (by rw [List.take_append_drop])

theorem takePages_spec {nc tc nc' tc' : MCache} {size : Nat} {o : Outcome (List Frame)} (h1 : nc.Wf)
    (h2 : tc.Wf) (hn : nc.node = tc.node) (h : takePages nc tc size = (o, nc', tc')) (ho : o ≠ .panic) :
    nc'.Wf ∧ tc'.Wf ∧ nc'.node = nc.node ∧ tc'.node = tc.node ∧ (∀ f ∈ pagesOf o, PageOk f) ∧
    (nc'.held ++ tc'.held ++ (pagesOf o).map Frame.block).Perm (nc.held ++ tc.held) := by
  unfold takePages at h
  split at h
  · rename_i nc1 tc1 e
    obtain ⟨a1, a2, a3, a4, a5⟩ := refill_spec h1 h2 hn e
    generalize (sizeToPages size).2 = lp at h
    generalize (sizeToPages size).1 = bp at h
    obtain ⟨t1, t2⟩ := takeLarge_spec lp tc1 a2
    by_cases hl : lp ≤ tc1.lp.length
    · obtain ⟨ls, e1, e2, _⟩ := t1 hl
      rw [e1] at h
      simp only at h
      have w : MCache.Wf { tc1 with lp := tc1.lp.drop lp } :=
        ⟨a2.capB, by have := a2.capL; simp only [List.length_drop]; omega, a2.alB,
          fun a ha => a2.alL a (List.mem_of_mem_drop ha)⟩
      obtain ⟨u1, u2⟩ := takeBase_spec bp _ w
      by_cases hb : bp ≤ tc1.bp.length
      · obtain ⟨bs, f1, f2, _⟩ := u1 hb
        rw [f1] at h
        simp only at h
        cases h
        refine ⟨a1, ?_, a3, a4, ?_, ?_⟩
        · exact ⟨by have := a2.capB; simp only [List.length_drop]; omega, w.capL,
            fun a ha => a2.alB a (List.mem_of_mem_drop ha), w.alL⟩
        · intro f hf
          rcases List.mem_append.1 hf with hf | hf
          · exact pages_of_blocks (Or.inr LARGE_eq) (fun a ha => a2.alL a (List.mem_of_mem_take ha)) e2 f hf
          · exact pages_of_blocks (Or.inl BASE_eq) (fun a ha => a2.alB a (List.mem_of_mem_take ha)) f2 f hf
        · refine List.Perm.trans ?_ a5
          rw [List.append_assoc]
          refine List.Perm.append_left _ ?_
          show (MCache.held _ ++ (ls ++ bs).map Frame.block).Perm tc1.held
          have e2' : ls.map Frame.block = (tc1.lp.take lp).map (fun a => (⟨a, LARGE⟩ : Block)) := e2
          have f2' : bs.map Frame.block = (tc1.bp.take bp).map (fun a => (⟨a, BASE⟩ : Block)) := f2
          rw [List.map_append, e2', f2']
          unfold MCache.held
          simp only
          generalize hB : (fun a => (⟨a, BASE⟩ : Block)) = fB
          generalize hL : (fun a => (⟨a, LARGE⟩ : Block)) = fL
          have p1 := (drop_take_perm tc1.bp bp).map fB
          have p2 := (drop_take_perm tc1.lp lp).map fL
          rw [List.map_append] at p1 p2
          refine List.Perm.trans ?_ (p1.append p2)
          rw [List.append_assoc, List.append_assoc]
          refine List.Perm.append_left _ ?_
          rw [← List.append_assoc]
          refine List.perm_append_comm.trans ?_
          exact List.Perm.refl _
      · have := u2 (by simp only; omega)
        revert h
        cases hq : takeBase { tc1 with lp := tc1.lp.drop lp } bp with
        | mk o' tc3 =>
        rw [hq] at this
        simp only at this
        subst this
        intro h
        simp only at h
        cases h
        exact absurd rfl ho
    · have := t2 (by omega)
      revert h
      cases hq : takeLarge tc1 lp with
      | mk o' tc3 =>
      rw [hq] at this
      simp only at this
      subst this
      intro h
      simp only at h
      cases h
      exact absurd rfl ho
  · rename_i e
    cases h
    obtain ⟨a1, a2, a3, a4, a5⟩ := refill_spec h1 h2 hn e
    refine ⟨a1, a2, a3, a4, (fun f hf => by cases hf), ?_⟩
    simpa [pagesOf] using a5
  · cases h
    exact absurd rfl ho

theorem giveBack_spec {c c' : MCache} {f : Frame} {o : Outcome Unit} (hc : c.Wf)
    (h : giveBack c f = (o, c')) (ho : o ≠ .panic) :
    c'.Wf ∧ c'.node = c.node ∧
      ((o = .ok () ∧ c'.held.Perm (f.block :: c.held)) ∨ (o = .err .cacheFull ∧ c' = c)) := by
  unfold giveBack at h
  by_cases h1 : f.size = BASE
  · rw [if_pos h1] at h
    unfold MCache.releaseBase MCache.pushBase at h
    by_cases h2 : f.size = BASE ∧ f.base % BASE = 0 ∧ f.aff = c.node
    · rw [if_pos h2] at h
      by_cases h3 : c.bp.length < c.capB
      · simp only [if_pos h3] at h
        cases h
        refine ⟨⟨by simp only [List.length_cons]; omega, hc.capL, ?_, hc.alL⟩, rfl, Or.inl ⟨rfl, ?_⟩⟩
        · intro x hx
          rcases List.mem_cons.1 hx with rfl | hx
          · exact h2.2.1
          · exact hc.alB x hx
        · have e : f.block = ⟨f.base, BASE⟩ := by rw [← h1]; rfl
          rw [e]
          exact held_cons_base { c with bp := f.base :: c.bp } f.base c.bp rfl
      · simp only [if_neg h3] at h
        cases h
        exact ⟨hc, rfl, Or.inr ⟨rfl, rfl⟩⟩
    · rw [if_neg h2] at h
      cases h
      exact absurd rfl ho
  · rw [if_neg h1] at h
    by_cases h1 : f.size = LARGE
    · rw [if_pos h1] at h
      unfold MCache.releaseLarge MCache.pushLarge at h
      by_cases h2 : f.size = LARGE ∧ f.base % LARGE = 0 ∧ f.aff = c.node
      · rw [if_pos h2] at h
        by_cases h3 : c.lp.length < c.capL
        · simp only [if_pos h3] at h
          cases h
          refine ⟨⟨hc.capB, by simp only [List.length_cons]; omega, hc.alB, ?_⟩, rfl, Or.inl ⟨rfl, ?_⟩⟩
          · intro x hx
            rcases List.mem_cons.1 hx with rfl | hx
            · exact h2.2.1
            · exact hc.alL x hx
          · have e : f.block = ⟨f.base, LARGE⟩ := by rw [← h1]; rfl
            rw [e]
            exact held_cons_large { c with lp := f.base :: c.lp } f.base c.lp rfl
        · simp only [if_neg h3] at h
          cases h
          exact ⟨hc, rfl, Or.inr ⟨rfl, rfl⟩⟩
      · rw [if_neg h2] at h
        cases h
        exact absurd rfl ho
    · rw [if_neg h1] at h
      cases h
      exact absurd rfl ho

end NRK.Machine
