import Verif.Rack.CoreLemmas
import Verif.Machine.FrameCallProps
import Verif.Rack.PageSpec

/-!
# Helper lemmas for physical pages of a rack
-/

namespace NRK.Rack.Remote

open Rpc (ENTRY ENTRY_eq received)
open NRK.Mem (Frame MCache LARGE BASE LARGE_eq BASE_eq new_large large_aligned)
open NRK.Proc (Frames)
open NRK.Machine (LowestFree AllUsed add_exact)

theorem lt4 {a b c d : Nat} (h1 : a < 2 ^ 64) (h2 : b < 2 ^ 64) (h3 : c < 2 ^ 64) (h4 : d < 2 ^ 64) :
    ∀ w ∈ [a, b, c, d], w < 2 ^ 64 := by
  intro w hw
  rcases List.mem_cons.mp hw with rfl | hw
  · exact h1
  · exact lt3 h2 h3 h4 w hw

theorem run_alloc (o : Oracle) (w : World Resources) (h : Rpc.Header) (d : List UInt8) :
    w.run o.params .allocatePhysical h d = handleAllocatePhysical o h d w := rfl

theorem run_free (o : Oracle) (w : World Resources) (h : Rpc.Header) (d : List UInt8) :
    w.run o.params .releasePhysical h d = handleReleasePhysical o h d w := rfl

theorem wire_page (o : Oracle) (w : World Resources) : Wire (grantPage o w).1 := by
  intro e h
  unfold grantPage at h
  split at h
  · cases h
  · split at h <;> cases h

/-- The message of an allocation, as the client sees it. -/
theorem alloc_rpc (c : Ctrl Resources) (o : Oracle) (l : Link) (hc : Conn l c) (pid size aff : Nat)
    (hp : pid < 2 ^ 64) (hs : size < 2 ^ 64) (ha : aff < 2 ^ 64) :
    ∃ srv, srv.data.length = ENTRY ∧ c.rpc o.params l .allocatePhysical [encWords [pid, size, aff]] =
        ((grantPage o c.world).1, ⟨srv, (grantPage o c.world).2⟩) := by
  refine rpc_eq c o.params l .allocatePhysical _ .allocatePhysical hc.slot1 hc.slot2 hc.srv (by decide) (by simp)
    (by rw [ENTRY_eq]; simp [encWords_length]) _ _ (wire_page _ _) ?_
  intro h _ _
  simp only [List.flatten_cons, List.flatten_nil, List.append_nil]
  rw [run_alloc]
  unfold handleAllocatePhysical received
  have hd := decWords_enc [pid, size, aff] (lt3 hp hs ha) (c.srv.data.drop (encWords [pid, size, aff]).length)
  rw [show [pid, size, aff].length = 3 from rfl] at hd
  rw [hd]

theorem wire_take (o : Oracle) (base aff : Nat) (w : World Resources) : Wire (takePage o base aff w).1 := by
  intro e h
  unfold takePage at h
  split at h
  · split at h
    · cases h
    · split at h
      · simp only at h
        split at h
        · split at h
          · cases h
          · cases h; decide
        · rename_i he
          cases h
          unfold MCache.releaseLarge at he
          split at he
          · split at he <;> cases he
            decide
          · cases he
        · cases h
      · cases h
  · cases h

/-- The message of a release, as the client sees it. -/
theorem free_rpc (c : Ctrl Resources) (o : Oracle) (l : Link) (hc : Conn l c) (pid base size aff : Nat)
    (hp : pid < 2 ^ 64) (hb : base < 2 ^ 64) (hs : size < 2 ^ 64) (ha : aff < 2 ^ 64) :
    ∃ srv, srv.data.length = ENTRY ∧ c.rpc o.params l .releasePhysical [encWords [pid, base, size, aff]] =
        ((takePage o base aff c.world).1, ⟨srv, (takePage o base aff c.world).2⟩) := by
  refine rpc_eq c o.params l .releasePhysical _ .releasePhysical hc.slot1 hc.slot2 hc.srv (by decide) (by simp)
    (by rw [ENTRY_eq]; simp [encWords_length]) _ _ (wire_take _ _ _ _) ?_
  intro h _ _
  simp only [List.flatten_cons, List.flatten_nil, List.append_nil]
  rw [run_free]
  unfold handleReleasePhysical received
  have hd := decWords_enc [pid, base, size, aff] (lt4 hp hb hs ha)
    (c.srv.data.drop (encWords [pid, base, size, aff]).length)
  rw [show [pid, base, size, aff].length = 4 from rfl] at hd
  rw [hd]

theorem grantPage_bad (o : Oracle) (w : World Resources) (h : o.mid = 0 ∨ 16 < o.mid) :
    grantPage o w = (.panic, w) := by
  unfold grantPage
  rw [if_pos (by exact h)]

theorem grantPage_none (o : Oracle) (w : World Resources) (h0 : 1 ≤ o.mid) (h16 : o.mid ≤ 16)
    (h : (w.ext.mgr (o.mid - 1)).lp = []) : grantPage o w = (.panic, w) := by
  unfold grantPage
  rw [if_neg (by show ¬ (o.mid = 0 ∨ 16 < o.mid); omega)]
  simp only [MCache.allocLarge, h]
  rw [upd_self]

theorem grantPage_some (o : Oracle) (w : World Resources) (h0 : 1 ≤ o.mid) (h16 : o.mid ≤ 16) {a : Nat}
    {as : List Nat} (h : (w.ext.mgr (o.mid - 1)).lp = a :: as) (hal : a % LARGE = 0) :
    grantPage o w = (.ok (UInt64.ofNat (w.ext.mgr (o.mid - 1)).node, UInt64.ofNat a),
      withPages w (o.mid - 1) as) := by
  unfold grantPage
  rw [if_neg (by show ¬ (o.mid = 0 ∨ 16 < o.mid); omega)]
  simp only [MCache.allocLarge, h, new_large hal]
  rfl

theorem takePage_eq (o : Oracle) (w : World Resources) (base mid : Nat) (h0 : 1 ≤ mid) (h16 : mid ≤ 16)
    (hn : (w.ext.mgr (mid - 1)).node = 12 + mid) (hal : base % LARGE = 0) :
    ((w.ext.mgr (mid - 1)).lp.length < (w.ext.mgr (mid - 1)).capL →
      takePage o base (12 + mid) w = (if o.accepts then .ok (0, 0) else .err .dcmError,
        withPages w (mid - 1) (base :: (w.ext.mgr (mid - 1)).lp))) ∧
    (¬ (w.ext.mgr (mid - 1)).lp.length < (w.ext.mgr (mid - 1)).capL →
      takePage o base (12 + mid) w = (.err .cacheFull, w)) := by
  have e1 : Mem.shmemAffinityToMid (12 + mid) = .ok mid := by
    unfold Mem.shmemAffinityToMid
    rw [if_pos (by show 12 ≤ 12 + mid; omega)]
    congr 1
    show 12 + mid - 12 = mid
    omega
  have e2 : ¬ (mid = 0 ∨ maxMachines < mid) := by show ¬ (mid = 0 ∨ 16 < mid); omega
  refine ⟨fun h => ?_, fun h => ?_⟩
  · simp only [takePage, e1, e2, if_false, new_large hal, MCache.releaseLarge, hal, hn, and_self, if_true,
      MCache.pushLarge, h]
    simp only [withPages, hn]
  · simp only [takePage, e1, e2, if_false, new_large hal, MCache.releaseLarge, hal, hn, and_self, if_true,
      MCache.pushLarge, h]
    rw [upd_self]

end NRK.Rack.Remote
