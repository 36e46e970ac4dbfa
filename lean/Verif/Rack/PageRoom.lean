import Verif.Rack.PageInv

/-!
# A released page always fits (helper lemmas for C65)
-/

namespace NRK.Rack.Remote

open Rpc (ENTRY ENTRY_eq)
open NRK.Mem (Frame MCache LARGE BASE LARGE_eq BASE_eq c22_populate)
open NRK.Mem.Spec (Block Disjoint Inside AllDisjoint)
open NRK.Proc (Frames)
open NRK.Machine (LowestFree AllUsed add_exact)

/-- The free pages of a machine and those given out and not taken back fit its table. -/
def Room (w : World Resources) (mid : Nat) : Prop :=
  ∃ out : List Nat, (w.ext.mgr (mid - 1)).lp.length + out.length ≤ (w.ext.mgr (mid - 1)).capL ∧
    ∀ pid fid f, Holds w pid fid f → f.aff = 12 + mid → f.base ∈ out

theorem Room.pop {w : World Resources} {mid a : Nat} {as : List Nat} (e : (w.ext.mgr (mid - 1)).lp = a :: as)
    (m0 : 1 ≤ mid) (h : ∀ n, 1 ≤ n → n ≤ 16 → Room w n) (m16 : mid ≤ 16) :
    (∀ n, 1 ≤ n → n ≤ 16 → Room (withPages w (mid - 1) as) n) ∧
    ∃ out : List Nat, as.length + out.length ≤ (w.ext.mgr (mid - 1)).capL ∧ a ∈ out ∧
      ∀ pid fid f, Holds w pid fid f → f.aff = 12 + mid → f.base ∈ out := by
  obtain ⟨out, h1, h2⟩ := h mid m0 m16
  have key : ∃ out : List Nat, as.length + out.length ≤ (w.ext.mgr (mid - 1)).capL ∧ a ∈ out ∧
      ∀ pid fid f, Holds w pid fid f → f.aff = 12 + mid → f.base ∈ out := by
    refine ⟨a :: out, ?_, List.mem_cons_self, fun p i f hh ha => List.mem_cons_of_mem _ (h2 p i f hh ha)⟩
    rw [e] at h1
    simp only [List.length_cons] at h1 ⊢
    omega
  refine ⟨fun n n0 n16 => ?_, key⟩
  by_cases hc : n = mid
  · subst hc
    obtain ⟨out, k1, _, k3⟩ := key
    refine ⟨out, ?_, k3⟩
    rw [mgr_withPages, if_pos rfl]
    exact k1
  · obtain ⟨out', g1, g2⟩ := h n n0 n16
    refine ⟨out', ?_, g2⟩
    rw [mgr_withPages, if_neg (by omega)]
    exact g1

theorem Room.takes {region : Nat → Option Frame} : ∀ (ms : List Nat) (w : World Resources), PageInv region w →
    (∀ n, 1 ≤ n → n ≤ 16 → Room w n) → ∀ n, 1 ≤ n → n ≤ 16 → Room (takePages ms w).2 n := by
  intro ms
  induction ms with
  | nil => intro w _ h; exact h
  | cons mid ms ih =>
    intro w hi h
    by_cases hbad : (mid = 0 ∨ 16 < mid) ∨ (w.ext.mgr (mid - 1)).lp = []
    · rw [takePages_bad mid ms w hbad]; exact h
    · have m0 : 1 ≤ mid := by omega
      have m16 : mid ≤ 16 := by omega
      obtain ⟨a, as, hlp⟩ := List.exists_cons_of_ne_nil (fun e => hbad (.inr e))
      have hfr := hi.free mid a m0 m16 (by unfold FreePage; rw [hlp]; exact List.mem_cons_self)
      rw [takePages_cons mid ms w m0 m16 (hi.node mid m0 m16) hlp hfr.1]
      have := ih (withPages w (mid - 1) as) (hi.pop m0 m16 hlp).1 (Room.pop hlp m0 h m16).1
      generalize takePages ms (withPages w (mid - 1) as) = q at this
      obtain ⟨q1, q2⟩ := q
      cases q1 <;> exact this

theorem PageHist.room {region : Nat → Option Frame} {r : Cluster Resources} (h : PageHist region r) :
    ∀ n, 1 ≤ n → n ≤ 16 → Room r.world n := by
  have hinv := h.inv
  induction h with
  | @boot r hb hd hf hs =>
    intro n n0 n16
    refine ⟨[], ?_, ?_⟩
    · have := hb n n0 n16
      revert this
      generalize r.world.ext.mgr (n - 1) = m
      cases region n with
      | none => intro h; cases h; exact Nat.zero_le _
      | some f =>
        intro ⟨hok, _, h⟩
        have hp : ∃ k, (MCache.new 0 65536 (12 + n)).populate f k = .ok m := by
          unfold registeredPages MCache.populate4kFirst at h
          split at h
          · exact ⟨_, h⟩
          · split at h
            · cases h
            · exact ⟨_, h⟩
        obtain ⟨k, hp⟩ := hp
        have hwf : (MCache.new 0 65536 (12 + n)).Wf := Mem.new_cache_wf _ _ _
        exact (Mem.c22_populate_wf _ _ hwf f hok k hp).1.capL
    · intro p i f ⟨m, hm⟩
      rw [hf p] at hm
      unfold Frames.new at hm
      rw [List.getElem?_replicate] at hm
      split at hm <;> cases hm
  | @alloc r k o l pid size aff res c hh l1 l2 hp hz ha he ih =>
    have hinv0 := hh.inv
    obtain ⟨pinv, hs⟩ := hinv0
    replace ih := ih hh.inv
    obtain ⟨srv, s1, c1, c2, c3⟩ := c65_allocate ⟨r.srv k, r.world⟩ o l ⟨l1, l2, hs k⟩ pid size aff hp (by omega) ha
    by_cases hbad : o.mid = 0 ∨ 16 < o.mid
    · rw [c1 hbad] at he; cases he; exact ih
    have m0 : 1 ≤ o.mid := by omega
    have m16 : o.mid ≤ 16 := by omega
    cases hlp : (r.world.ext.mgr (o.mid - 1)).lp with
    | nil => rw [c2 m0 m16 hlp] at he; cases he; exact ih
    | cons a as =>
      have hfr := pinv.free o.mid a m0 m16 (by unfold FreePage; rw [hlp]; exact List.mem_cons_self)
      obtain ⟨d1, d2, d3⟩ := c3 m0 m16 a as hlp (pinv.node o.mid m0 m16) hfr.1 hfr.2.1
      obtain ⟨p1, out, p2, p3, p4⟩ := Room.pop hlp m0 ih m16
      by_cases hsz : size % 4096 = 0
      · rcases add_exact (r.world.ext.frames pid) ⟨a, size, 12 + o.mid⟩ with ⟨fid, hl, _⟩ | ⟨hall, _⟩
        · rw [d3 hsz fid hl] at he
          cases he
          obtain ⟨q, hq⟩ := hl.1
          have hlen := (List.getElem?_eq_some_iff.1 hq).1
          intro n n0 n16
          have hcase : ∀ p i f, Holds (withTable (withPages r.world (o.mid - 1) as) pid
              ((r.world.ext.frames pid).set fid (some ⟨a, size, 12 + o.mid⟩, 0))) p i f →
              f = ⟨a, size, 12 + o.mid⟩ ∨ Holds r.world p i f := by
            intro p i f hf
            rw [show Holds (withTable (withPages r.world (o.mid - 1) as) pid
              ((r.world.ext.frames pid).set fid (some ⟨a, size, 12 + o.mid⟩, 0))) p i f ↔ _ from
              holds_withTable (withPages r.world (o.mid - 1) as) pid fid _ p i f hlen] at hf
            by_cases hcc : p = pid ∧ i = fid
            · rw [if_pos hcc] at hf; injection hf with hf; exact .inl hf.symm
            · rw [if_neg hcc] at hf; exact .inr hf
          by_cases hc : n = o.mid
          · refine ⟨out, ?_, ?_⟩
            · show ((withPages r.world (o.mid - 1) as).ext.mgr (n - 1)).lp.length + _ ≤ ((withPages r.world (o.mid - 1) as).ext.mgr (n - 1)).capL
              rw [hc, mgr_withPages, if_pos rfl]
              exact p2
            · intro p i f hf hfa
              rcases hcase p i f hf with rfl | hf
              · exact p3
              · exact p4 p i f hf (by rw [hfa, hc])
          · obtain ⟨out', g1, g2⟩ := p1 n n0 n16
            refine ⟨out', g1, ?_⟩
            intro p i f hf hfa
            rcases hcase p i f hf with rfl | hf
            · simp only at hfa; omega
            · exact g2 p i f hf hfa
        · rw [d2 hsz hall] at he
          cases he
          exact p1
      · rw [d1 hsz] at he
        cases he
        exact p1
  | @free r k o l pid fid res c hh l1 l2 hp he ih =>
    obtain ⟨pinv, hs⟩ := hh.inv
    replace ih := ih hh.inv
    obtain ⟨c1, c2, c3⟩ := c65_release ⟨r.srv k, r.world⟩ o l ⟨l1, l2, hs k⟩ pid fid hp
    rcases hf : (r.world.ext.frames pid : Frames)[fid]? with _ | ⟨_ | f, n⟩
    · rw [c2 (.inl hf)] at he; cases he; exact ih
    · have := pinv.zero pid fid n hf
      subst this
      rw [c2 (.inr hf)] at he; cases he; exact ih
    · cases n with
      | succ n => rw [c1 f n hf] at he; cases he; exact ih
      | zero =>
        obtain ⟨g1, g2, g3, mid, g, m0, m16, g4, g5, g6⟩ := pinv.held pid fid f ⟨0, hf⟩
        obtain ⟨srv, s1, d1, d2⟩ := c3 f mid hf g3 (by omega) g4 m0 m16 g2 (pinv.node mid m0 m16)
        have hlen := (List.getElem?_eq_some_iff.1 hf).1
        have hcase : ∀ p i x, Holds (withTable r.world pid ((r.world.ext.frames pid).set fid (none, 0))) p i x →
            Holds r.world p i x ∧ x.base ≠ f.base := by
          intro p i x hx
          rw [holds_withTable r.world pid fid _ p i x hlen] at hx
          by_cases hcc : p = pid ∧ i = fid
          · rw [if_pos hcc] at hx; cases hx
          · rw [if_neg hcc] at hx
            exact ⟨hx, fun e => hcc (pinv.uniq p i x pid fid f hx ⟨0, hf⟩ e)⟩
        obtain ⟨out, o1, o2⟩ := ih mid m0 m16
        have hmem := o2 pid fid f ⟨0, hf⟩ g4
        have hpos := List.length_pos_of_mem hmem
        have hroom : (r.world.ext.mgr (mid - 1)).lp.length < (r.world.ext.mgr (mid - 1)).capL := by omega
        rw [d1 hroom] at he
        cases he
        intro n n0 n16
        by_cases hc : n = mid
        · refine ⟨out.erase f.base, ?_, ?_⟩
          · show ((withPages (withTable r.world pid _) (mid - 1) (f.base :: (r.world.ext.mgr (mid - 1)).lp)).ext.mgr (n - 1)).lp.length + _ ≤
              ((withPages (withTable r.world pid _) (mid - 1) (f.base :: (r.world.ext.mgr (mid - 1)).lp)).ext.mgr (n - 1)).capL
            rw [hc, mgr_withPages, if_pos rfl, List.length_erase_of_mem hmem]
            show (r.world.ext.mgr (mid - 1)).lp.length + 1 + (out.length - 1) ≤ (r.world.ext.mgr (mid - 1)).capL
            omega
          · intro p i x hx hxa
            obtain ⟨e1, e2⟩ := hcase p i x hx
            exact (List.mem_erase_of_ne e2).2 (o2 p i x e1 (by rw [hxa, hc]))
        · obtain ⟨out', q1, q2⟩ := ih n n0 n16
          refine ⟨out', ?_, fun p i x hx hxa => q2 p i x (hcase p i x hx).1 hxa⟩
          show ((withPages (withTable r.world pid _) (mid - 1) (f.base :: (r.world.ext.mgr (mid - 1)).lp)).ext.mgr (n - 1)).lp.length + _ ≤
              ((withPages (withTable r.world pid _) (mid - 1) (f.base :: (r.world.ext.mgr (mid - 1)).lp)).ext.mgr (n - 1)).capL
          rw [mgr_withPages, if_neg (by omega)]
          exact q1
  | @take r k o l me n pid res c hh l1 l2 hm hp hn he ih =>
    obtain ⟨pinv, hs⟩ := hh.inv
    replace ih := ih hh.inv
    obtain ⟨_, hw, _⟩ := take_kept (c0 := ⟨r.srv k, r.world⟩) pinv ⟨l1, l2, hs k⟩ hm hp hn he
    show ∀ n, 1 ≤ n → n ≤ 16 → Room c.world n
    rcases hw with hw | hw
    · rw [hw]; exact ih
    · rw [hw]
      cases pid with
      | some p => exact Room.takes _ _ pinv ih
      | none =>
        unfold grants affinityAlloc
        simp only
        by_cases h0 : me = 0
        · rw [if_pos h0]; exact ih
        · rw [if_neg h0]
          by_cases ha : o.accepts = false
          · rw [if_pos ha]; exact ih
          · rw [if_neg ha]; exact Room.takes _ _ pinv ih
  | @other r r' hh hm hho hz _ hs ih =>
    replace ih := ih hh.inv
    intro n n0 n16
    obtain ⟨out, h1, h2⟩ := ih n n0 n16
    refine ⟨out, ?_, fun p i f hf => h2 p i f ((hho p i f).1 hf)⟩
    rw [hm]
    exact h1

end NRK.Rack.Remote
