import Verif.Rack.ResourceModel
import Verif.Rack.RemoteFsProps
import Verif.Rack.ThreadsProps

/-!
# Helper lemmas for cores of a rack
-/

namespace NRK.Rack.Remote

open Rpc (ENTRY ENTRY_eq received)
open NRK.Proc (newGtid CoreInfo)

/-! ## One call -/

theorem wire_grant (o : Oracle) (pid entry : Nat) (new : Bool) (w : World Resources) :
    Wire (grantCore o pid entry new w).1 := by
  intro e h
  unfold grantCore at h
  split at h
  · simp only at h
    split at h
    · split at h
      · split at h <;> cases h
      · cases h
    · rename_i e' he
      cases h
      unfold Proc.Node.step at he
      simp only [Bool.true_eq_false, false_and, if_false] at he
      split at he
      · cases he; decide
      · split at he <;> cases he
        decide
    · cases h
  · cases h
  · cases h

/-- The memory of the connection has the right size. -/
structure Conn (l : Link) (c : Ctrl Resources) : Prop where
  slot1 : l.slot1.length = ENTRY
  slot2 : l.slot2.length = ENTRY
  srv : c.srv.data.length = ENTRY

theorem run_request (o : Oracle) (w : World Resources) (h : Rpc.Header) (d : List UInt8) :
    w.run o.params .requestCore h d = handleRequestCore o h d w := rfl

/-- A request for a core, as the client sees it. -/
theorem request_eq (c : Ctrl Resources) (o : Oracle) (l : Link) (hc : Conn l c) (pid entry : Nat) (new : Bool)
    (hp : pid < 2 ^ 64) (he : entry < 2 ^ 64) :
    ∃ srv, srv.data.length = ENTRY ∧
      ((grantCore o pid entry new c.world).1 ≠ .panic →
        srv.data.take 24 = encRes (grantCore o pid entry new c.world).1) ∧
      requestCore c o l pid new entry =
        ((grantCore o pid entry new c.world).1, ⟨srv, (grantCore o pid entry new c.world).2⟩) := by
  have hnew : (if new then 1 else 0 : Nat) < 2 ^ 64 := by cases new <;> decide
  refine rpc_eq_full c o.params l .requestCore _ .requestCore hc.slot1 hc.slot2 hc.srv (by decide) (by simp)
    (by rw [ENTRY_eq]; simp [encWords_length]) _ _ (wire_grant _ _ _ _ _) ?_
  intro h _ _
  simp only [List.flatten_cons, List.flatten_nil, List.append_nil]
  rw [run_request]
  unfold handleRequestCore received
  have hd := decWords_enc [pid, entry, if new then 1 else 0] (lt3 hp he hnew)
    (c.srv.data.drop (encWords [pid, entry, if new then 1 else 0]).length)
  rw [show [pid, entry, if new then 1 else 0].length = 3 from rfl] at hd
  rw [hd]
  have : decide ((if new then 1 else 0 : Nat) % 256 ≠ 0) = new := by cases new <;> rfl
  simp only [this]

/-- What the controller takes for the flag of a request for a core if the message is a release: the
seventeenth byte that the previous message and reply left in its buffer. -/
def leftover (c : Ctrl Resources) : Bool := decide (c.srv.data[16]?.getD 0 ≠ 0)

theorem leVal_mod (a : UInt8) (b : List UInt8) : leVal (a :: b) % 256 = a.toNat := by
  have : leVal (a :: b) = a.toNat + 256 * leVal b := rfl
  have := a.toNat_lt
  omega

/-- A release of a core, as the client sees it: the controller's handler is the one for requests. -/
theorem release_eq (c : Ctrl Resources) (o : Oracle) (l : Link) (hc : Conn l c) (pid gtid : Nat)
    (hp : pid < 2 ^ 64) (hg : gtid < 2 ^ 64) {n : Proc.Node} {r : Proc.NodeResult}
    (hr : c.world.ext.node.step true false (.releaseCore pid gtid) = (n, .ok r)) :
    ∃ srv, srv.data.length = ENTRY ∧
      releaseCore c o l pid gtid =
        ((grantCore o pid gtid (leftover c) (c.withNode n).world).1,
          ⟨srv, (grantCore o pid gtid (leftover c) (c.withNode n).world).2⟩) := by
  have hsrv : (c.withNode n).srv = c.srv := rfl
  have := rpc_eq (c.withNode n) o.params l .releaseCore [encWords [pid, gtid]] .requestCore hc.slot1 hc.slot2
    hc.srv (by decide) (by simp) (by rw [ENTRY_eq]; simp [encWords_length])
    (grantCore o pid gtid (leftover c) (c.withNode n).world).1
    (grantCore o pid gtid (leftover c) (c.withNode n).world).2 (wire_grant _ _ _ _ _) (by
      intro h _ _
      simp only [List.flatten_cons, List.flatten_nil, List.append_nil, hsrv]
      rw [run_request]
      unfold handleRequestCore received
      have hlen : (c.srv.data.drop 16).length = ENTRY - 16 := by rw [List.length_drop, hc.srv]
      rw [ENTRY_eq] at hlen
      rw [show (encWords [pid, gtid]).length = 16 from encWords_length _]
      have hd : decWords 3 (encWords [pid, gtid] ++ c.srv.data.drop 16) =
          some ([pid, gtid, leVal ((c.srv.data.drop 16).take 8)], (c.srv.data.drop 16).drop 8) := by
        have e1 := leVal_le8 pid hp
        have e2 := leVal_le8 gtid hg
        generalize c.srv.data.drop 16 = rest at hlen
        show decWords 3 (le8 pid ++ (le8 gtid ++ rest)) = _
        have t1 : (le8 pid ++ (le8 gtid ++ rest)).take 8 = le8 pid := rfl
        have t2 : (le8 pid ++ (le8 gtid ++ rest)).drop 8 = le8 gtid ++ rest := rfl
        have t3 : (le8 gtid ++ rest).take 8 = le8 gtid := rfl
        have t4 : (le8 gtid ++ rest).drop 8 = rest := rfl
        simp only [decWords, t1, t2, t3, t4, e1, e2, List.length_append, le8_length, hlen]
        rfl
      rw [hd]
      have hf : decide (leVal ((c.srv.data.drop 16).take 8) % 256 ≠ 0) = leftover c := by
        unfold leftover
        have h0 : c.srv.data[16]? = (c.srv.data.drop 16)[0]? := by rw [List.getElem?_drop]
        rw [h0]
        generalize c.srv.data.drop 16 = rest at hlen
        cases rest with
        | nil => cases hlen
        | cons a as =>
          rw [List.take_succ_cons, leVal_mod]
          simp only [List.getElem?_cons_zero, Option.getD_some, ne_eq, decide_eq_decide]
          rw [← UInt8.toNat_inj]
          rfl
      simp only [hf])
  obtain ⟨srv, h1, h2⟩ := this
  refine ⟨srv, h1, ?_⟩
  unfold releaseCore
  rw [hr]
  exact h2

/-! ## The controller's table -/

/-- The controller's table after `t mid` threads of each machine were claimed, where machine `mid` has the
threads `reg mid`. -/
def Table (reg : Nat → List CpuThread) (t : Nat → Nat) (s : Controller) : Prop :=
  ∃ h, Run h s ∧ Once h ∧ ∀ mid, mid ≠ 0 → mid ≤ 16 →
    (registered mid h).headD [] = reg mid ∧ (claimed mid h).length = t mid

theorem gtid_val (mid i : Nat) (hm : mid ≤ 16) (hi : i ≤ 256) :
    (newGtid (BitVec.ofNat 64 i) (BitVec.ofNat 64 mid)).toNat = mid * 2 ^ 32 + i := by
  have e1 : (BitVec.ofNat 64 i).toNat = i := by
    rw [BitVec.toNat_ofNat]; exact Nat.mod_eq_of_lt (by omega)
  have e2 : (BitVec.ofNat 64 mid).toNat = mid := by
    rw [BitVec.toNat_ofNat]; exact Nat.mod_eq_of_lt (by omega)
  rw [Proc.c34_value _ _ (by omega) (by omega), e1, e2]

theorem Table.le {reg : Nat → List CpuThread} {t : Nat → Nat} {s : Controller} (h : Table reg t s) {mid : Nat}
    (h0 : mid ≠ 0) (h16 : mid ≤ 16) : t mid ≤ (reg mid).length ∧ (reg mid).length ≤ 256 := by
  obtain ⟨hs, hr, ho, hall⟩ := h
  obtain ⟨e1, e2⟩ := hall mid h0 h16
  rcases hr.good ho mid h0 h16 with ⟨g1, g2, _⟩ | ⟨ts, k, g1, g2, g3, _, _, g6, _⟩
  · rw [g1] at e1; rw [g2] at e2
    rw [← e1, ← e2]
    exact ⟨Nat.le_refl _, Nat.zero_le _⟩
  · rw [g1] at e1; rw [g3] at e2
    rw [← e1, ← e2]
    simp only [List.length_map, List.length_range, List.headD_cons]
    exact ⟨g2, g6⟩

theorem Table.claim {reg : Nat → List CpuThread} {t : Nat → Nat} {s : Controller} (h : Table reg t s) {mid : Nat}
    (h0 : mid ≠ 0) (h16 : mid ≤ 16) :
    (t mid < (reg mid).length → ∃ s' g a, s.claim mid = .ok (s', some (g, a)) ∧ g.toNat = mid * 2 ^ 32 + t mid ∧
      Table reg (upd t mid (t mid + 1)) s') ∧
    (¬ t mid < (reg mid).length → ∃ s', s.claim mid = .ok (s', none)) := by
  have hle := h.le h0 h16
  obtain ⟨hs, hr, ho, hall⟩ := h
  obtain ⟨e1, e2⟩ := hall mid h0 h16
  rcases c47_claim hr ho h0 h16 with ⟨g1, s', hs'⟩ | ⟨ts, g1, s', hs'⟩
  · rw [g1] at e1
    rw [← e1]
    exact ⟨fun hlt => absurd hlt (Nat.not_lt_zero _), fun _ => ⟨s', hs'⟩⟩
  · rw [g1] at e1
    rw [e2] at hs'
    have e1 : ts = reg mid := e1
    subst e1
    refine ⟨fun hlt => ?_, fun hn => ?_⟩
    · rw [if_pos hlt] at hs'
      refine ⟨s', _, _, hs', gtid_val mid _ h16 (by omega), hs ++ [.claim mid _], .claim hr hs', ?_, ?_⟩
      · intro m
        have := ho m
        rw [registered_append]
        simpa [registered] using this
      · intro m hm0 hm16
        obtain ⟨f1, f2⟩ := hall m hm0 hm16
        refine ⟨?_, ?_⟩
        · rw [registered_append]
          simpa [registered] using f1
        · rw [claimed_append, List.length_append, f2]
          by_cases e : m = mid
          · subst e; simp [claimed, upd_same]
          · have e' : mid ≠ m := fun x => e x.symm
            simp [claimed, upd_other _ _ e, e']
    · rw [if_neg hn] at hs'
      exact ⟨s', hs'⟩

theorem claim_bad (s : Controller) {mid : Nat} (h : mid = 0 ∨ 16 < mid) : s.claim mid = .panic := by
  unfold Controller.claim
  rw [if_pos (by exact h)]

end NRK.Rack.Remote
