import Verif.Rack.PageLemmas

/-!
# C65: physical pages of a rack
-/

namespace NRK.Rack.Remote

open Rpc (ENTRY ENTRY_eq)
open NRK.Mem (Frame MCache LARGE BASE LARGE_eq BASE_eq large_aligned)
open NRK.Mem.Spec (Block Disjoint)
open NRK.Proc (Frames)
open NRK.Machine (LowestFree AllUsed add_exact not_both lowest_unique)

/-! ## One call -/

theorem c65_allocate (c : Ctrl Resources) (o : Oracle) (l : Link) (hc : Conn l c) (pid size aff : Nat)
    (hp : pid < 2 ^ 64) (hs : size < 2 ^ 64) (ha : aff < 2 ^ 64) :
    ∃ srv : Rpc.Server, srv.data.length = ENTRY ∧
    (o.mid = 0 ∨ 16 < o.mid → allocatePhysical c o l pid size aff = (.panic, ⟨srv, c.world⟩)) ∧
    (1 ≤ o.mid → o.mid ≤ 16 → (c.world.ext.mgr (o.mid - 1)).lp = [] →
      allocatePhysical c o l pid size aff = (.panic, ⟨srv, c.world⟩)) ∧
    (1 ≤ o.mid → o.mid ≤ 16 → ∀ a as, (c.world.ext.mgr (o.mid - 1)).lp = a :: as →
      (c.world.ext.mgr (o.mid - 1)).node = 12 + o.mid → a % LARGE = 0 → a < 2 ^ 64 →
      (size % 4096 ≠ 0 → allocatePhysical c o l pid size aff =
        (.panic, ⟨srv, withPages c.world (o.mid - 1) as⟩)) ∧
      (size % 4096 = 0 → AllUsed (c.world.ext.frames pid) → allocatePhysical c o l pid size aff =
        (.err .tooManyRegisteredFrames, ⟨srv, withPages c.world (o.mid - 1) as⟩)) ∧
      (size % 4096 = 0 → ∀ fid, LowestFree (c.world.ext.frames pid) fid →
        allocatePhysical c o l pid size aff = (.ok (UInt64.ofNat fid, UInt64.ofNat a),
          ⟨srv, withTable (withPages c.world (o.mid - 1) as) pid
            ((c.world.ext.frames pid).set fid (some ⟨a, size, 12 + o.mid⟩, 0))⟩))) := by
  obtain ⟨srv, e1, e2⟩ := alloc_rpc c o l hc pid size aff hp hs ha
  refine ⟨srv, e1, fun h => ?_, fun h0 h16 h => ?_, fun h0 h16 a as h hn hal hlt => ?_⟩
  · unfold allocatePhysical
    rw [e2, grantPage_bad o c.world h]
  · unfold allocatePhysical
    rw [e2, grantPage_none o c.world h0 h16 h]
  · have e3 := grantPage_some o c.world h0 h16 h hal
    rw [e3] at e2
    have n1 : (UInt64.ofNat a).toNat = a := UInt64.toNat_ofNat_of_lt' (by simp only [UInt64.size]; omega)
    have n2 : (UInt64.ofNat (12 + o.mid)).toNat = 12 + o.mid :=
      UInt64.toNat_ofNat_of_lt' (by simp only [UInt64.size]; omega)
    have hba : a % BASE = 0 := large_aligned hal
    refine ⟨fun hz => ?_, fun hz hall => ?_, fun hz fid hfid => ?_⟩
    · have hf : Frame.new a size (12 + o.mid) = .panic := by
        unfold Frame.new
        rw [if_neg (by rw [BASE_eq]; omega)]
      unfold allocatePhysical
      rw [e2]
      simp only [hn, n1, n2, hf]
    all_goals
      have hf : Frame.new a size (12 + o.mid) = .ok ⟨a, size, 12 + o.mid⟩ := by
        unfold Frame.new
        rw [if_pos ⟨hba, by rw [BASE_eq]; exact hz⟩]
      have hfr : (withPages c.world (o.mid - 1) as).ext.frames pid = c.world.ext.frames pid := rfl
      unfold allocatePhysical
      rw [e2]
      simp only [hn, n1, n2, hf, hfr]
      rcases add_exact (c.world.ext.frames pid) ⟨a, size, 12 + o.mid⟩ with ⟨fid', hl, he⟩ | ⟨hall', he⟩
    · exact absurd hall (fun h => not_both hl h)
    · simp only [he]
    · simp only [he]
      rw [lowest_unique hfid hl]
      rfl
    · exact absurd hall' (fun h => not_both hfid h)

theorem c65_release (c : Ctrl Resources) (o : Oracle) (l : Link) (hc : Conn l c) (pid fid : Nat)
    (hp : pid < 2 ^ 64) :
    (∀ f n, (c.world.ext.frames pid)[fid]? = some (some f, n + 1) →
      releasePhysical c o l pid fid = (.err .frameStillMapped, c)) ∧
    ((c.world.ext.frames pid)[fid]? = none ∨ (c.world.ext.frames pid)[fid]? = some (none, 0) →
      releasePhysical c o l pid fid = (.err .invalidFrameId, c)) ∧
    (∀ f mid, (c.world.ext.frames pid)[fid]? = some (some f, 0) → f.base < 2 ^ 64 → f.size < 2 ^ 64 →
      f.aff = 12 + mid → 1 ≤ mid → mid ≤ 16 → f.base % LARGE = 0 →
      (c.world.ext.mgr (mid - 1)).node = 12 + mid →
      ∃ srv : Rpc.Server, srv.data.length = ENTRY ∧
      ((c.world.ext.mgr (mid - 1)).lp.length < (c.world.ext.mgr (mid - 1)).capL →
        releasePhysical c o l pid fid = (if o.accepts then .ok (0, 0) else .err .dcmError,
          ⟨srv, withPages (withTable c.world pid ((c.world.ext.frames pid).set fid (none, 0))) (mid - 1)
            (f.base :: (c.world.ext.mgr (mid - 1)).lp)⟩)) ∧
      (¬ (c.world.ext.mgr (mid - 1)).lp.length < (c.world.ext.mgr (mid - 1)).capL →
        releasePhysical c o l pid fid = (.err .cacheFull,
          ⟨srv, withTable c.world pid ((c.world.ext.frames pid).set fid (none, 0))⟩))) := by
  refine ⟨fun f n h => ?_, fun h => ?_, fun f mid h hb hs ha h0 h16 hal hn => ?_⟩
  · unfold releasePhysical Frames.dealloc
    simp only [h]
    rw [if_neg (by omega)]
  · unfold releasePhysical Frames.dealloc
    rcases h with h | h <;> simp [h]
  · have hd : (c.world.ext.frames pid).dealloc fid = ((c.world.ext.frames pid).set fid (none, 0), .ok f) := by
      unfold Frames.dealloc
      simp only [h, if_true]
    obtain ⟨srv, e1, e2⟩ := free_rpc (c.withFrames pid ((c.world.ext.frames pid).set fid (none, 0))) o l
      ⟨hc.slot1, hc.slot2, hc.srv⟩ pid f.base f.size f.aff hp hb hs (by omega)
    obtain ⟨t1, t2⟩ := takePage_eq o (withTable c.world pid ((c.world.ext.frames pid).set fid (none, 0))) f.base mid
      h0 h16 hn hal
    have hw : (c.withFrames pid ((c.world.ext.frames pid).set fid (none, 0))).world =
      withTable c.world pid ((c.world.ext.frames pid).set fid (none, 0)) := rfl
    rw [hw] at e2
    refine ⟨srv, e1, fun hr => ?_, fun hr => ?_⟩
    · unfold releasePhysical
      rw [hd]
      simp only [e2]
      rw [ha, t1 hr]
      rfl
    · unfold releasePhysical
      rw [hd]
      simp only [e2]
      rw [ha, t2 hr]

end NRK.Rack.Remote
