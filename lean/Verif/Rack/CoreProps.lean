import Verif.Rack.CoreLemmas
import Verif.Rack.CoreSpec

/-!
# C64: cores of a rack
-/

namespace NRK.Rack.Remote

open Rpc (ENTRY ENTRY_eq)
open NRK.Proc (CoreInfo)

/-- The world with a core recorded and another table of threads. -/
def recorded (w : World Resources) (ctl : Controller) (g pid entry : Nat) : World Resources :=
  { w with ext := { w.ext with
      ctl := ctl
      node := { w.ext.node with sched := upd w.ext.node.sched g (some ⟨pid, entry⟩) } } }

/-- Every recorded core is a claimed thread. -/
def Known (t : Nat → Nat) (sched : Nat → Option CoreInfo) : Prop :=
  ∀ g, sched g ≠ none → ∃ mid i, mid ≠ 0 ∧ mid ≤ 16 ∧ i < t mid ∧ g = coreNumber mid i

theorem coreNumber_inj {m n i j : Nat} (hi : i < 2 ^ 32) (hj : j < 2 ^ 32)
    (h : coreNumber m i = coreNumber n j) : m = n ∧ i = j := by
  unfold coreNumber at h
  omega

theorem Known.fresh {reg : Nat → List CpuThread} {t : Nat → Nat} {s : Controller} {sched : Nat → Option CoreInfo}
    (ht : Table reg t s) (hk : Known t sched) {mid : Nat} (h0 : mid ≠ 0) (h16 : mid ≤ 16) :
    sched (coreNumber mid (t mid)) = none := by
  by_contra hne
  obtain ⟨m, i, a, b, c, e⟩ := hk _ hne
  have l1 := ht.le h0 h16
  have l2 := ht.le a b
  obtain ⟨rfl, rfl⟩ := coreNumber_inj (by omega) (by omega) e
  omega

/-- What the controller does with a request for a core. -/
theorem grant_spec {reg : Nat → List CpuThread} {t : Nat → Nat} (o : Oracle) (pid entry : Nat) (new : Bool)
    (w : World Resources) (ht : Table reg t w.ext.ctl) (hk : Known t w.ext.node.sched) :
    (o.mid = 0 ∨ 16 < o.mid → (grantCore o pid entry new w).1 = .panic) ∧
    (o.mid ≠ 0 → o.mid ≤ 16 → ¬ t o.mid < (reg o.mid).length → (grantCore o pid entry new w).1 = .panic) ∧
    (o.mid ≠ 0 → o.mid ≤ 16 → t o.mid < (reg o.mid).length →
      ∃ ctl, Table reg (upd t o.mid (t o.mid + 1)) ctl ∧
        (o.oom = true → grantCore o pid entry new w =
          (.err .outOfMemory, { w with ext := { w.ext with ctl := ctl } })) ∧
        (o.oom = false → new = false → grantCore o pid entry new w =
          (.ok (UInt64.ofNat (coreNumber o.mid (t o.mid)), 0),
            recorded w ctl (coreNumber o.mid (t o.mid)) pid entry)) ∧
        (o.oom = false → new = true → ∀ v n, w.node.call o.nlogs (.addProcess pid) o.env = (.ok v, n) →
          grantCore o pid entry new w = (.ok (UInt64.ofNat (coreNumber o.mid (t o.mid)), 0),
            { recorded w ctl (coreNumber o.mid (t o.mid)) pid entry with node := n })) ∧
        (o.oom = false → new = true → (∀ v, (w.node.call o.nlogs (.addProcess pid) o.env).1 ≠ .ok v) →
          (grantCore o pid entry new w).1 = .panic)) := by
  refine ⟨fun h => ?_, fun h0 h16 hn => ?_, fun h0 h16 hlt => ?_⟩
  · unfold grantCore
    rw [claim_bad _ h]
  · obtain ⟨s', hs'⟩ := (ht.claim h0 h16).2 hn
    unfold grantCore
    rw [hs']
  · obtain ⟨ctl, g, a, hs', hg, ht'⟩ := (ht.claim h0 h16).1 hlt
    have hg : g.toNat = coreNumber o.mid (t o.mid) := hg
    have hfree := Known.fresh ht hk h0 h16
    refine ⟨ctl, ht', fun ho => ?_, fun ho hnew => ?_, fun ho hnew v n hv => ?_, fun ho hnew hv => ?_⟩
    all_goals
      unfold grantCore
      rw [hs']
      simp only [hg, Proc.Node.step, Bool.true_eq_false, false_and, if_false, hfree, ho, if_true,
        Bool.false_eq_true]
    · rw [hnew]
      simp only [Bool.false_eq_true, if_false]
      rfl
    · rw [hnew]
      simp only [if_true, hv]
      rfl
    · rw [hnew]
      simp only [if_true]

/-- What is true after any history. -/
structure CoreInv (reg : Nat → List CpuThread) (hs : List CoreStep) (r : Cluster Resources) : Prop where
  srv : ∀ k, (r.srv k).data.length = ENTRY
  table : Table reg (fun mid => taken mid hs) r.world.ext.ctl
  sched : r.world.ext.node.sched = owner hs
  known : Known (fun mid => taken mid hs) (owner hs)
  given : ∀ g ∈ granted hs, ∃ mid i, mid ≠ 0 ∧ mid ≤ 16 ∧ i < taken mid hs ∧ g = coreNumber mid i
  nodup : (granted hs).Nodup

theorem taken_append (mid : Nat) (hs : List CoreStep) (s : CoreStep) :
    taken mid (hs ++ [s]) = taken mid hs + if s.takes mid then 1 else 0 := by
  unfold taken
  rw [List.countP_append, List.countP_singleton]

theorem owner_append (hs : List CoreStep) (s : CoreStep) : owner (hs ++ [s]) = afterCall (owner hs) s := by
  unfold owner
  rw [List.foldl_append]
  rfl

theorem granted_ok (hs : List CoreStep) (s : CoreStep) (g b : UInt64) (h : s.res = .ok (g, b)) :
    granted (hs ++ [s]) = granted hs ++ [g.toNat] := by
  unfold granted
  rw [List.filterMap_append]
  simp [h]

theorem granted_err (hs : List CoreStep) (s : CoreStep) (e : KError) (h : s.res = .err e) :
    granted (hs ++ [s]) = granted hs := by
  unfold granted
  rw [List.filterMap_append]
  simp [h]

/-- The table of threads after a call that used up one, or none. -/
theorem taken_takes (hs : List CoreStep) (s : CoreStep)
    (h : (∃ v, s.res = .ok v) ∨ s.res = .err .outOfMemory) :
    (fun mid => taken mid (hs ++ [s])) =
      upd (fun mid => taken mid hs) s.oracle.mid (taken s.oracle.mid hs + 1) := by
  funext mid
  rw [taken_append]
  by_cases e : mid = s.oracle.mid
  · subst e
    rw [upd_same]
    have : s.takes s.oracle.mid = true := by
      unfold CoreStep.takes
      rcases h with ⟨v, h⟩ | h <;> simp [h]
    rw [if_pos this]
  · rw [upd_other _ _ e]
    have : s.takes mid = false := by
      unfold CoreStep.takes
      have : s.oracle.mid ≠ mid := fun x => e x.symm
      simp [this]
    rw [if_neg (by rw [this]; decide)]
    rfl

theorem taken_none (hs : List CoreStep) (s : CoreStep) {e : KError} (h : s.res = .err e) (hne : e ≠ .outOfMemory) :
    (fun mid => taken mid (hs ++ [s])) = fun mid => taken mid hs := by
  funext mid
  rw [taken_append]
  have : s.takes mid = false := by
    unfold CoreStep.takes
    rw [h]
    cases e <;> first | exact absurd rfl hne | simp
  rw [if_neg (by rw [this]; decide)]
  rfl

theorem le_upd (t : Nat → Nat) (m mid : Nat) : t mid ≤ upd t m (t m + 1) mid := by
  by_cases e : mid = m
  · subst e; rw [upd_same]; omega
  · rw [upd_other _ _ e]; exact Nat.le_refl _

theorem core_toNat {mid i : Nat} (hm : mid ≤ 16) (hi : i ≤ 256) :
    (UInt64.ofNat (coreNumber mid i)).toNat = coreNumber mid i := by
  apply UInt64.toNat_ofNat_of_lt'
  unfold coreNumber
  simp only [UInt64.size]
  omega

/-- A request that did not crash the controller gave out the next thread of the machine, or ran out of
memory. -/
theorem grant_cases {reg : Nat → List CpuThread} {t : Nat → Nat} (o : Oracle) (pid entry : Nat) (new : Bool)
    (w : World Resources) (ht : Table reg t w.ext.ctl) (hk : Known t w.ext.node.sched)
    (hp : (grantCore o pid entry new w).1 ≠ .panic) :
    (o.mid ≠ 0 ∧ o.mid ≤ 16 ∧ t o.mid < (reg o.mid).length ∧
      Table reg (upd t o.mid (t o.mid + 1)) (grantCore o pid entry new w).2.ext.ctl) ∧
    (((grantCore o pid entry new w).1 = .ok (UInt64.ofNat (coreNumber o.mid (t o.mid)), 0) ∧
      (grantCore o pid entry new w).2.ext.node.sched =
        upd w.ext.node.sched (coreNumber o.mid (t o.mid)) (some ⟨pid, entry⟩)) ∨
     ((grantCore o pid entry new w).1 = .err .outOfMemory ∧
      (grantCore o pid entry new w).2.ext.node.sched = w.ext.node.sched)) := by
  obtain ⟨g1, g2, g3⟩ := grant_spec o pid entry new w ht hk
  by_cases hb : o.mid = 0 ∨ 16 < o.mid
  · exact absurd (g1 hb) hp
  have h0 : o.mid ≠ 0 := by omega
  have h16 : o.mid ≤ 16 := by omega
  by_cases hlt : t o.mid < (reg o.mid).length
  · obtain ⟨ctl, ht', a, b, c, d⟩ := g3 h0 h16 hlt
    cases ho : o.oom with
    | true =>
      rw [a ho]
      exact ⟨⟨h0, h16, hlt, ht'⟩, .inr ⟨rfl, rfl⟩⟩
    | false =>
      cases hn : new with
      | false =>
        rw [← hn, b ho hn]
        exact ⟨⟨h0, h16, hlt, ht'⟩, .inl ⟨rfl, rfl⟩⟩
      | true =>
        rw [← hn]
        by_cases hv : ∃ v, (w.node.call o.nlogs (.addProcess pid) o.env).1 = .ok v
        · obtain ⟨v, hv⟩ := hv
          rw [c ho hn v (w.node.call o.nlogs (.addProcess pid) o.env).2 (Prod.ext hv rfl)]
          exact ⟨⟨h0, h16, hlt, ht'⟩, .inl ⟨rfl, rfl⟩⟩
        · exact absurd (d ho hn (fun v e => hv ⟨v, e⟩)) hp
  · exact absurd (g2 h0 h16 hlt) hp

theorem CoreInv.grant {reg : Nat → List CpuThread} {hs : List CoreStep} {r : Cluster Resources}
    (hi : CoreInv reg hs r) {s : CoreStep} {w : World Resources} {pid entry : Nat} {new : Bool} {srv : Rpc.Server}
    (hctl : w.ext.ctl = r.world.ext.ctl)
    (hsub : ∀ g, w.ext.node.sched g ≠ none → owner hs g ≠ none)
    (hlen : srv.data.length = ENTRY) (hres : (grantCore s.oracle pid entry new w).1 = s.res)
    (hnp : s.res ≠ .panic)
    (hown : ∀ g b, s.res = .ok (g, b) →
      afterCall (owner hs) s = upd w.ext.node.sched g.toNat (some ⟨pid, entry⟩))
    (herr : s.res = .err .outOfMemory → afterCall (owner hs) s = w.ext.node.sched) :
    CoreInv reg (hs ++ [s]) ⟨upd r.srv s.client srv, (grantCore s.oracle pid entry new w).2⟩ := by
  have hk : Known (fun mid => taken mid hs) w.ext.node.sched := fun g hg => hi.known g (hsub g hg)
  have ht : Table reg (fun mid => taken mid hs) w.ext.ctl := by rw [hctl]; exact hi.table
  obtain ⟨⟨h0, h16, hlt, ht'⟩, hc⟩ := grant_cases s.oracle pid entry new w ht hk (by rw [hres]; exact hnp)
  have hsrv : ∀ k, ((upd r.srv s.client srv) k).data.length = ENTRY := by
    intro k
    rw [upd_apply]
    split
    · exact hlen
    · exact hi.srv k
  have l := ht.le h0 h16
  have hmono : ∀ mid i, i < taken mid hs →
      i < upd (fun mid => taken mid hs) s.oracle.mid (taken s.oracle.mid hs + 1) mid := by
    intro mid i h
    exact Nat.lt_of_lt_of_le h (le_upd (fun mid => taken mid hs) s.oracle.mid mid)
  rcases hc with ⟨e1, e2⟩ | ⟨e1, e2⟩
  · rw [hres] at e1
    have hn : (UInt64.ofNat (coreNumber s.oracle.mid (taken s.oracle.mid hs))).toNat =
        coreNumber s.oracle.mid (taken s.oracle.mid hs) := core_toNat h16 (by omega)
    have hown := hown _ _ e1
    rw [hn] at hown
    have hnew : ∃ mid i, mid ≠ 0 ∧ mid ≤ 16 ∧
        i < upd (fun mid => taken mid hs) s.oracle.mid (taken s.oracle.mid hs + 1) mid ∧
        coreNumber s.oracle.mid (taken s.oracle.mid hs) = coreNumber mid i :=
      ⟨s.oracle.mid, taken s.oracle.mid hs, h0, h16, by rw [upd_same]; omega, rfl⟩
    refine ⟨hsrv, ?_, ?_, ?_, ?_, ?_⟩
    · rw [taken_takes hs s (.inl ⟨_, e1⟩)]; exact ht'
    · rw [owner_append, hown]; exact e2
    · rw [taken_takes hs s (.inl ⟨_, e1⟩), owner_append, hown]
      intro g hg
      by_cases e : g = coreNumber s.oracle.mid (taken s.oracle.mid hs)
      · rw [e]; exact hnew
      · rw [upd_other _ _ e] at hg
        obtain ⟨m, i, a, b, c, d⟩ := hk g hg
        exact ⟨m, i, a, b, hmono m i c, d⟩
    · rw [granted_ok hs s _ _ e1, hn]
      intro g hg
      have key : ∃ mid i, mid ≠ 0 ∧ mid ≤ 16 ∧
          i < upd (fun mid => taken mid hs) s.oracle.mid (taken s.oracle.mid hs + 1) mid ∧
          g = coreNumber mid i := by
        rcases List.mem_append.1 hg with hg | hg
        · obtain ⟨m, i, a, b, c, d⟩ := hi.given g hg
          exact ⟨m, i, a, b, hmono m i c, d⟩
        · rw [List.mem_singleton] at hg
          subst hg
          exact hnew
      rw [← taken_takes hs s (.inl ⟨_, e1⟩)] at key
      exact key
    · rw [granted_ok hs s _ _ e1, hn, List.nodup_append]
      refine ⟨hi.nodup, by simp, ?_⟩
      intro a ha b hb
      rw [List.mem_singleton] at hb
      subst hb
      rintro rfl
      obtain ⟨m, i, a, b, c, d⟩ := hi.given _ ha
      have l2 := ht.le a b
      obtain ⟨rfl, rfl⟩ := coreNumber_inj (by omega) (by omega) d
      omega
  · rw [hres] at e1
    refine ⟨hsrv, ?_, ?_, ?_, ?_, ?_⟩
    · rw [taken_takes hs s (.inr e1)]; exact ht'
    · rw [owner_append, herr e1]; exact e2
    · rw [taken_takes hs s (.inr e1), owner_append, herr e1]
      intro g hg
      obtain ⟨m, i, a, b, c, d⟩ := hk g hg
      exact ⟨m, i, a, b, hmono m i c, d⟩
    · rw [granted_err hs s _ e1]
      intro g hg
      obtain ⟨m, i, a, b, c, d⟩ := hi.given g hg
      have := hmono m i c
      rw [← taken_takes hs s (.inr e1)] at this
      exact ⟨m, i, a, b, this, d⟩
    · rw [granted_err hs s _ e1]; exact hi.nodup

/-- A client's release of a core it does not hold changes nothing. -/
theorem release_refused (c : Ctrl Resources) (o : Oracle) (l : Link) (pid gtid : Nat) :
    (c.world.ext.node.sched gtid = none → releaseCore c o l pid gtid = (.err .coreNotAllocated, c)) ∧
    (∀ i, c.world.ext.node.sched gtid = some i → i.pid ≠ pid →
      releaseCore c o l pid gtid = (.err .coreAllocatedToDifferentProcess, c)) := by
  refine ⟨fun h => ?_, fun i h hne => ?_⟩
  all_goals simp only [releaseCore, Proc.Node.step, Bool.true_eq_false, false_and, if_false, h]
  simp only [hne, if_false]

/-- The table of cores without one of them. -/
def without (n : Proc.Node) (gtid : Nat) : Proc.Node := { n with sched := upd n.sched gtid none }

theorem release_step_ok (n : Proc.Node) (pid gtid entry : Nat) (h : n.sched gtid = some ⟨pid, entry⟩) :
    n.step true false (.releaseCore pid gtid) = (without n gtid, .ok .coreReleased) := by
  simp only [Proc.Node.step, Bool.true_eq_false, false_and, if_false, h, if_true]
  rfl

theorem CoreHist.inv {reg : Nat → List CpuThread} {hs : List CoreStep} {r : Cluster Resources}
    (h : CoreHist reg hs r) : CoreInv reg hs r := by
  induction h with
  | boot h1 h2 h3 h4 h5 h6 =>
    refine ⟨h6, ⟨_, h1, h2, fun mid _ _ => ⟨(h4 mid).symm, ?_⟩⟩, ?_, ?_, ?_, ?_⟩
    · rw [h3]; rfl
    · funext g; exact h5 g
    · intro g hg; exact absurd rfl hg
    · intro g hg; cases hg
    · exact List.nodup_nil
  | other _ h1 h2 h3 ih =>
    exact ⟨h3, by rw [h1]; exact ih.table, by rw [h2]; exact ih.sched, ih.known, ih.given, ih.nodup⟩
  | call _ hok hex hnp ih =>
    rename_i hs r s c _
    obtain ⟨ok1, ok2, ok3⟩ := hok
    have hconn : Conn s.link (⟨r.srv s.client, r.world⟩ : Ctrl Resources) := ⟨ok1, ok2, ih.srv _⟩
    cases hcall : s.call with
    | request pid new entry =>
      simp only [hcall] at ok3
      simp only [CoreStep.exec, hcall] at hex
      obtain ⟨srv, e1, -, e3⟩ := request_eq _ s.oracle s.link hconn pid entry new ok3.1 ok3.2
      rw [e3] at hex
      injection hex with hex1 hex2
      subst hex2
      refine ih.grant (w := r.world) rfl (fun g hg => by rw [ih.sched] at hg; exact hg) e1 hex1 hnp ?_ ?_
      · intro g b hg
        simp only [afterCall, hcall, hg]
        rw [ih.sched]
      · intro hg
        simp only [afterCall, hcall, hg]
        rw [ih.sched]
    | release pid gtid =>
      simp only [hcall] at ok3
      simp only [CoreStep.exec, hcall] at hex
      have refused : ∀ e, s.res = .err e → e ≠ .outOfMemory → c = ⟨r.srv s.client, r.world⟩ →
          CoreInv reg (hs ++ [s]) ⟨upd r.srv s.client c.srv, c.world⟩ := by
        intro e he hne hc
        subst hc
        have hu : upd r.srv s.client (r.srv s.client) = r.srv := upd_self _ _
        have hown : afterCall (owner hs) s = owner hs := by
          simp only [afterCall, hcall, he]
          cases e <;> first | exact absurd rfl hne | rfl
        simp only [hu]
        have htk := taken_none hs s he hne
        refine ⟨ih.srv, ?_, ?_, ?_, ?_, ?_⟩
        · rw [htk]; exact ih.table
        · rw [owner_append, hown]; exact ih.sched
        · rw [htk, owner_append, hown]; exact ih.known
        · rw [granted_err hs s _ he]
          intro g hg
          obtain ⟨m, i, a, b, c, d⟩ := ih.given g hg
          exact ⟨m, i, a, b, by rw [congrFun htk m]; exact c, d⟩
        · rw [granted_err hs s _ he]; exact ih.nodup
      cases hsch : r.world.ext.node.sched gtid with
      | none =>
        rw [(release_refused _ s.oracle s.link pid gtid).1 hsch] at hex
        injection hex with hex1 hex2
        exact refused _ hex1.symm (by decide) hex2.symm
      | some i =>
        by_cases hp : i.pid = pid
        · have hst := release_step_ok r.world.ext.node pid gtid i.entry (by rw [hsch, ← hp])
          obtain ⟨srv, e1, e2⟩ := release_eq (⟨r.srv s.client, r.world⟩ : Ctrl Resources) s.oracle s.link hconn
            pid gtid ok3.1 ok3.2 hst
          rw [e2] at hex
          injection hex with hex1 hex2
          subst hex2
          refine ih.grant (w := (Ctrl.withNode ⟨r.srv s.client, r.world⟩ (without r.world.ext.node gtid)).world)
            rfl ?_ e1 hex1 hnp ?_ ?_
          · intro g hg
            have hg : upd r.world.ext.node.sched gtid none g ≠ none := hg
            rw [ih.sched] at hg
            by_cases e : g = gtid
            · subst e; rw [upd_same] at hg; exact absurd rfl hg
            · rw [upd_other _ _ e] at hg; exact hg
          · intro g b hg
            simp only [afterCall, hcall, hg, ← ih.sched]
            rfl
          · intro hg
            simp only [afterCall, hcall, hg, ← ih.sched]
            rfl
        · rw [(release_refused _ s.oracle s.link pid gtid).2 i hsch hp] at hex
          injection hex with hex1 hex2
          exact refused _ hex1.symm (by decide) hex2.symm

/-! ## Property theorems -/

/-- **C64** No core is given out twice, and every core given out is a hardware thread of a machine of the
rack, one that registered. -/
theorem c64_distinct {reg : Nat → List CpuThread} {hs : List CoreStep} {r : Cluster Resources}
    (h : CoreHist reg hs r) :
    (granted hs).Nodup ∧ ∀ g ∈ granted hs, ∃ mid i, 1 ≤ mid ∧ mid ≤ 16 ∧ i < (reg mid).length ∧
      g = coreNumber mid i := by
  have hi := h.inv
  refine ⟨hi.nodup, fun g hg => ?_⟩
  obtain ⟨m, i, a, b, c, d⟩ := hi.given g hg
  have := (hi.table.le a b).1
  exact ⟨m, i, by omega, b, Nat.lt_of_lt_of_le c this, d⟩

/-- **C64** Which process runs on a core, and where it starts, is determined by the calls and what they
returned. -/
theorem c64_owner {reg : Nat → List CpuThread} {hs : List CoreStep} {r : Cluster Resources}
    (h : CoreHist reg hs r) (g : Nat) :
    (∀ i, r.world.ext.node.current g = .ok (.coreInfo i) ↔ owner hs g = some i) ∧
    (r.world.ext.node.current g = .err .noExecutorForCore ↔ owner hs g = none) := by
  unfold Proc.Node.current
  rw [h.inv.sched]
  cases owner hs g <;> simp

/-- What the rack looks like after a core was recorded for a process. -/
structure Gave (r : Cluster Resources) (w : World Resources) (g pid entry : Nat) : Prop where
  core : w.ext.node.sched = upd r.world.ext.node.sched g (some ⟨pid, entry⟩)
  procs : w.ext.node.procs = r.world.ext.node.procs
  mgr : w.ext.mgr = r.world.ext.mgr
  frames : w.ext.frames = r.world.ext.frames
  shm : w.shm = r.world.shm

/-- **C64** A request for a core, for the machine the resource manager chooses: the process gets the next
thread of that machine, which no process has, and starts there at the address it gave; a process that is new
is also added to the file system.  Nothing else changes.  If a table cannot grow the call fails and no core
is assigned; if the machine has no thread left the controller crashes. -/
theorem c64_request {reg : Nat → List CpuThread} {hs : List CoreStep} {r : Cluster Resources}
    (h : CoreHist reg hs r) (k : Nat) (o : Oracle) (l : Link) (h1 : l.slot1.length = ENTRY)
    (h2 : l.slot2.length = ENTRY) (pid entry : Nat) (hp : pid < 2 ^ 64) (he : entry < 2 ^ 64) (new : Bool) :
    let res := requestCore ⟨r.srv k, r.world⟩ o l pid new entry
    let g := coreNumber o.mid (taken o.mid hs)
    (¬ (1 ≤ o.mid ∧ o.mid ≤ 16 ∧ taken o.mid hs < (reg o.mid).length) → res.1 = .panic) ∧
    (1 ≤ o.mid → o.mid ≤ 16 → taken o.mid hs < (reg o.mid).length →
      r.world.ext.node.sched g = none ∧
      (o.oom = true → res.1 = .err .outOfMemory ∧ res.2.world.ext.node = r.world.ext.node ∧
        res.2.world.node = r.world.node) ∧
      (o.oom = false → new = false → res.1 = .ok (UInt64.ofNat g, 0) ∧ Gave r res.2.world g pid entry ∧
        res.2.world.node = r.world.node) ∧
      (o.oom = false → new = true → ∀ v n, r.world.node.call o.nlogs (.addProcess pid) o.env = (.ok v, n) →
        res.1 = .ok (UInt64.ofNat g, 0) ∧ Gave r res.2.world g pid entry ∧ res.2.world.node = n) ∧
      (o.oom = false → new = true → (∀ v, (r.world.node.call o.nlogs (.addProcess pid) o.env).1 ≠ .ok v) →
        res.1 = .panic)) := by
  have hi := h.inv
  have hk : Known (fun mid => taken mid hs) r.world.ext.node.sched := by rw [hi.sched]; exact hi.known
  obtain ⟨srv, -, -, e3⟩ := request_eq (⟨r.srv k, r.world⟩ : Ctrl Resources) o l ⟨h1, h2, hi.srv k⟩ pid entry new hp he
  obtain ⟨g1, g2, g3⟩ := grant_spec o pid entry new r.world hi.table hk
  simp only [e3]
  refine ⟨fun hn => ?_, fun a b c => ?_⟩
  · by_cases hb : o.mid = 0 ∨ 16 < o.mid
    · exact g1 hb
    · exact g2 (by omega) (by omega) (fun hlt => hn ⟨by omega, by omega, hlt⟩)
  · obtain ⟨ctl, ht', x1, x2, x3, x4⟩ := g3 (by omega) b c
    refine ⟨Known.fresh hi.table hk (by omega) b, fun ho => ?_, fun ho hn => ?_, fun ho hn v n hv => ?_, x4⟩
    · rw [x1 ho]; exact ⟨rfl, rfl, rfl⟩
    · rw [x2 ho hn]; exact ⟨rfl, ⟨rfl, rfl, rfl, rfl, rfl⟩, rfl⟩
    · rw [x3 ho hn v n hv]; exact ⟨rfl, ⟨rfl, rfl, rfl, rfl, rfl⟩, rfl⟩

/-- **C64**, what is true of releasing a core: only the process that has the core can, and afterwards it does
not have that core any more, unless the controller crashed.  Missing from the full property: see
`c64_release_gives_another_core` and `c64_release_crashes`. -/
theorem c64_release_partial {reg : Nat → List CpuThread} {hs : List CoreStep} {r : Cluster Resources}
    (h : CoreHist reg hs r) (k : Nat) (o : Oracle) (l : Link) (h1 : l.slot1.length = ENTRY)
    (h2 : l.slot2.length = ENTRY) (pid gtid : Nat) (hp : pid < 2 ^ 64) (hg : gtid < 2 ^ 64) :
    let res := releaseCore ⟨r.srv k, r.world⟩ o l pid gtid
    (owner hs gtid = none → res = (.err .coreNotAllocated, ⟨r.srv k, r.world⟩)) ∧
    (∀ i, owner hs gtid = some i → i.pid ≠ pid →
      res = (.err .coreAllocatedToDifferentProcess, ⟨r.srv k, r.world⟩)) ∧
    (∀ e, owner hs gtid = some ⟨pid, e⟩ → res.1 ≠ .panic → res.2.world.ext.node.sched gtid = none) := by
  have hi := h.inv
  refine ⟨fun hn => ?_, fun i hs' hne => ?_, fun e hs' hnp => ?_⟩
  · exact (release_refused _ o l pid gtid).1 (by show r.world.ext.node.sched gtid = none; rw [hi.sched]; exact hn)
  · exact (release_refused _ o l pid gtid).2 i
      (by show r.world.ext.node.sched gtid = some i; rw [hi.sched]; exact hs') hne
  · rw [← hi.sched] at hs'
    have hst := release_step_ok r.world.ext.node pid gtid e hs'
    obtain ⟨srv, e1, e2⟩ := release_eq (⟨r.srv k, r.world⟩ : Ctrl Resources) o l ⟨h1, h2, hi.srv k⟩
      pid gtid hp hg hst
    simp only [e2] at hnp ⊢
    have hk : Known (fun mid => taken mid hs)
        (Ctrl.withNode ⟨r.srv k, r.world⟩ (without r.world.ext.node gtid)).world.ext.node.sched := by
      intro g hg
      have hg : upd r.world.ext.node.sched gtid none g ≠ none := hg
      by_cases e : g = gtid
      · subst e; rw [upd_same] at hg; exact absurd rfl hg
      · rw [upd_other _ _ e, hi.sched] at hg; exact hi.known g hg
    obtain ⟨⟨h0, h16, hlt, _⟩, hc⟩ := grant_cases o pid gtid _
      (Ctrl.withNode ⟨r.srv k, r.world⟩ (without r.world.ext.node gtid)).world hi.table hk hnp
    have hne : gtid ≠ coreNumber o.mid (taken o.mid hs) := by
      intro e'
      rw [e', hi.sched] at hs'
      have := Known.fresh hi.table hi.known h0 h16
      rw [this] at hs'
      cases hs'
    rcases hc with ⟨_, hc⟩ | ⟨_, hc⟩
    · rw [hc, upd_other _ _ hne]
      exact upd_same _ _ _
    · rw [hc]
      exact upd_same _ _ _

/-- The effect of a release, exactly: the message is taken for a request for a core that is to start at the
number of the released core. -/
theorem c64_release_is_request {reg : Nat → List CpuThread} {hs : List CoreStep} {r : Cluster Resources}
    (h : CoreHist reg hs r) (k : Nat) (o : Oracle) (l : Link) (h1 : l.slot1.length = ENTRY)
    (h2 : l.slot2.length = ENTRY) (pid gtid e : Nat) (hp : pid < 2 ^ 64) (hg : gtid < 2 ^ 64)
    (hown : owner hs gtid = some ⟨pid, e⟩) :
    let res := releaseCore ⟨r.srv k, r.world⟩ o l pid gtid
    let g := coreNumber o.mid (taken o.mid hs)
    (¬ (1 ≤ o.mid ∧ o.mid ≤ 16 ∧ taken o.mid hs < (reg o.mid).length) → res.1 = .panic) ∧
    (1 ≤ o.mid → o.mid ≤ 16 → taken o.mid hs < (reg o.mid).length →
      (o.oom = true → res.1 = .err .outOfMemory) ∧
      (o.oom = false → leftover ⟨r.srv k, r.world⟩ = false → res.1 = .ok (UInt64.ofNat g, 0) ∧
        res.2.world.ext.node.sched = upd (upd r.world.ext.node.sched gtid none) g (some ⟨pid, gtid⟩)) ∧
      (o.oom = false → leftover ⟨r.srv k, r.world⟩ = true →
        (∀ v, (r.world.node.call o.nlogs (.addProcess pid) o.env).1 ≠ .ok v) → res.1 = .panic)) := by
  have hi := h.inv
  rw [← hi.sched] at hown
  have hst := release_step_ok r.world.ext.node pid gtid e hown
  obtain ⟨srv, -, e2⟩ := release_eq (⟨r.srv k, r.world⟩ : Ctrl Resources) o l ⟨h1, h2, hi.srv k⟩
    pid gtid hp hg hst
  have hk : Known (fun mid => taken mid hs)
      (Ctrl.withNode ⟨r.srv k, r.world⟩ (without r.world.ext.node gtid)).world.ext.node.sched := by
    intro g hg
    have hg : upd r.world.ext.node.sched gtid none g ≠ none := hg
    by_cases e : g = gtid
    · subst e; rw [upd_same] at hg; exact absurd rfl hg
    · rw [upd_other _ _ e, hi.sched] at hg; exact hi.known g hg
  obtain ⟨g1, g2, g3⟩ := grant_spec o pid gtid (leftover ⟨r.srv k, r.world⟩)
    (Ctrl.withNode ⟨r.srv k, r.world⟩ (without r.world.ext.node gtid)).world hi.table hk
  simp only [e2]
  refine ⟨fun hn => ?_, fun a b c => ?_⟩
  · by_cases hb : o.mid = 0 ∨ 16 < o.mid
    · exact g1 hb
    · exact g2 (by omega) (by omega) (fun hlt => hn ⟨by omega, by omega, hlt⟩)
  · obtain ⟨ctl, ht', x1, x2, x3, x4⟩ := g3 (by omega) b c
    refine ⟨fun ho => ?_, fun ho hn => ?_, x4⟩
    · rw [x1 ho]
    · rw [x2 ho hn]
      exact ⟨rfl, rfl⟩

end NRK.Rack.Remote
