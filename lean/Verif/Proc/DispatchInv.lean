import Verif.Proc.DispatchLemmas

/-!
# Invariants of the scheduler
-/

namespace NRK.Proc

open NRK.VSpace NRK.Mem NRK.Mem.Spec NRK.Proc.Spec

/-- The core is about to run the process of `ci`. -/
def Heading (w : Where) (ci : CoreInfo) : Prop := w = .found ci ∨ (∃ k, w = .alloc ci k) ∨ w = .retry ci

/-- The cores run what they were granted. -/
structure DInv (g : DCfg) (h : DHist) (s : Sys) : Prop where
  user : ∀ c, (s.cores c).at_ = .user ↔ (s.cores c).cur.isSome = true
  real : ∀ c x, (s.cores c).cur = some x → c < g.ncores
  ran : ∀ c pid e, (s.cores c).cur = some (pid, e) → ∃ entry, Granted h c pid entry ∧
    (s.cores c).launch = some (e.launch (g.elf pid) entry c) ∧ (s.cores c).cr3 = g.root pid (g.nodeOf c) ∧
    e.affinity = g.nodeOf c
  goes : ∀ c ci, Heading (s.cores c).at_ ci → Granted h c ci.pid ci.entry
  table : ∀ c ci, s.node.sched c = some ci → Granted h c ci.pid ci.entry
  hist : ∀ pid, ∃ ph, HRun g.proc true ph (s.procs pid) ∧
    ∀ c e, (s.cores c).cur = some (pid, e) → e ∈ given ph
  apart : ∀ c d pid e e', c ≠ d → (s.cores c).cur = some (pid, e) → (s.cores d).cur = some (pid, e') →
    e.eid ≠ e'.eid ∧ Disjoint e.region e'.region

theorem Spec.Granted.mono {h : DHist} {c pid entry : Nat} (x : Sys × Act × Outcome Unit)
    (q : Granted h c pid entry) : Granted (x :: h) c pid entry := by
  obtain ⟨y, hy, h1⟩ := q
  exact ⟨y, List.mem_cons_of_mem _ hy, h1⟩

theorem goto_core (s : Sys) (c d : Nat) (w : Where) :
    (s.goto c w).cores d = if d = c then { s.cores c with at_ := w } else s.cores d := rfl

theorem goto_cur (s : Sys) (c d : Nat) (w : Where) : ((s.goto c w).cores d).cur = (s.cores d).cur := by
  rw [goto_core]; split
  · rename_i e; rw [e]
  · rfl

theorem goto_launch (s : Sys) (c d : Nat) (w : Where) :
    ((s.goto c w).cores d).launch = (s.cores d).launch := by
  rw [goto_core]; split
  · rename_i e; rw [e]
  · rfl

theorem goto_cr3 (s : Sys) (c d : Nat) (w : Where) : ((s.goto c w).cores d).cr3 = (s.cores d).cr3 := by
  rw [goto_core]; split
  · rename_i e; rw [e]
  · rfl

theorem goto_user {s : Sys} {c : Nat} {w : Where} (hu : (s.cores c).at_ ≠ .user) (hw : w ≠ .user) (d : Nat) :
    ((s.goto c w).cores d).at_ = .user ↔ (s.cores d).at_ = .user := by
  rw [goto_core]; split
  · rename_i e; rw [e]; exact ⟨fun q => absurd q hw, fun q => absurd q hu⟩
  · exact Iff.rfl

theorem disjoint_symm {a b : Block} (h : Disjoint a b) : Disjoint b a := fun x ⟨h1, h2⟩ => h x ⟨h2, h1⟩

/-- A core that goes on in the kernel, perhaps after an operation on a process. -/
theorem DInv.goto {g : DCfg} {h : DHist} {s : Sys} (x : Sys × Act × Outcome Unit) (i : DInv g h s)
    (procs : Nat → Proc)
    (hp : ∀ pid, ∃ ph, HRun g.proc true ph (procs pid) ∧
      ∀ c e, (s.cores c).cur = some (pid, e) → e ∈ given ph)
    (c : Nat) (w : Where) (hu : (s.cores c).at_ ≠ .user) (hw : w ≠ .user)
    (hg : ∀ ci, Heading w ci → Granted h c ci.pid ci.entry) :
    DInv g (x :: h) ({ s with procs := procs }.goto c w) where
  user d := by
    rw [goto_cur, goto_user (s := { s with procs := procs }) hu hw]
    exact i.user d
  real d y hd := by rw [goto_cur] at hd; exact i.real d y hd
  ran d pid e hd := by
    rw [goto_cur] at hd
    obtain ⟨entry, h1, h2, h3, h4⟩ := i.ran d pid e hd
    exact ⟨entry, h1.mono x, by rw [goto_launch]; exact h2, by rw [goto_cr3]; exact h3, h4⟩
  goes d ci hd := by
    rw [goto_core] at hd
    split at hd
    · rename_i e; rw [e]; exact (hg ci hd).mono x
    · exact (i.goes d ci hd).mono x
  table d ci hd := (i.table d ci hd).mono x
  hist pid := by
    obtain ⟨ph, h1, h2⟩ := hp pid
    exact ⟨ph, h1, fun d e hd => h2 d e (by rw [goto_cur] at hd; exact hd)⟩
  apart a b pid e e' hab ha hb := by
    rw [goto_cur] at ha hb
    exact i.apart a b pid e e' hab ha hb

theorem hist_upd {g : DCfg} {s : Sys} {pid : Nat} {p : Proc} {op : ProcOp} {o : Outcome ProcResult}
    (i : ∀ pid, ∃ ph, HRun g.proc true ph (s.procs pid) ∧
      ∀ c e, (s.cores c).cur = some (pid, e) → e ∈ given ph)
    (hs : (s.procs pid).step g.proc op = (p, o)) (ho : o ≠ .panic) (good : NoOom op) :
    ∀ pid', ∃ ph, HRun g.proc true ph (upd s.procs pid p pid') ∧
      ∀ c e, (s.cores c).cur = some (pid', e) → e ∈ given ph := by
  intro pid'
  rw [upd_apply]
  split
  · rename_i e
    subst e
    obtain ⟨ph, h1, h2⟩ := i pid'
    refine ⟨ph ++ [(op, o)], HRun.step op h1 hs ho fun _ => good, ?_⟩
    intro c e hc
    rw [given_append]
    exact List.mem_append_left _ (h2 c e hc)
  · exact i pid'

theorem DInv.step {g : DCfg} {h : DHist} {s s' : Sys} {a : Act} {o : Outcome Unit} (i : DInv g h s)
    (m : Move g s a o s') : DInv g ((s, a, o) :: h) s' := by
  cases m with
  | node n hn =>
    exact { user := i.user, real := i.real, apart := i.apart, hist := i.hist
            ran := fun c pid e hc => by
              obtain ⟨entry, h1, h2⟩ := i.ran c pid e hc
              exact ⟨entry, h1.mono _, h2⟩
            goes := fun c ci hc => (i.goes c ci hc).mono _
            table := fun c ci hc => by
              rcases hn c ci hc with q | q
              · exact (i.table c ci q).mono _
              · exact ⟨_, List.mem_cons_self, q⟩ }
  | goto c w hu hw hi hna =>
    refine DInv.goto _ i s.procs i.hist c w hu.1 hw ?_
    intro ci hh
    rcases hi with e | e | e | ⟨ci', e, q⟩ | ⟨ci', e, q⟩ | ⟨ci', k, e, q, _⟩ <;> subst e <;>
      rcases hh with e | ⟨k', e⟩ | e <;> cases e
    · exact i.table c ci q
    · exact i.goes c ci (Or.inl q)
    · exact i.goes c ci (Or.inr (Or.inl ⟨k, q⟩))
  | made c ci k base p hc ha hp =>
    refine DInv.goto _ i _ (hist_upd i.hist hp (by simp) ⟨rfl, fun _ => rfl⟩) c _ (by rw [ha]; simp)
      (by simp) ?_
    intro ci' hh
    rcases hh with e | ⟨k', e⟩ | e <;> cases e
    exact i.goes c ci (Or.inr (Or.inl ⟨k, ha⟩))
  | other pid op p r hop hr hp =>
    have hh : NoOom op := by cases op <;> first | trivial | cases hop
    exact { user := i.user, real := i.real, apart := i.apart
            hist := hist_upd i.hist hp hr hh
            ran := fun c pid e hc => by
              obtain ⟨entry, h1, h2⟩ := i.ran c pid e hc
              exact ⟨entry, h1.mono _, h2⟩
            goes := fun c ci hc => (i.goes c ci hc).mono _
            table := fun c ci hc => (i.table c ci hc).mono _ }
  | took c ci e p oom hc ha hn he hp =>
    have hcore : ∀ d, ({ s with procs := upd s.procs ci.pid p }.setCore c
        ⟨.user, some (ci.pid, e), g.root ci.pid (g.nodeOf c),
          some (e.launch (g.elf ci.pid) ci.entry c)⟩).cores d =
        if d = c then ⟨.user, some (ci.pid, e), g.root ci.pid (g.nodeOf c),
          some (e.launch (g.elf ci.pid) ci.entry c)⟩ else s.cores d := fun d => rfl
    have hgr : Granted h c ci.pid ci.entry := i.goes c ci (by
      rcases ha with q | q
      · exact Or.inl q
      · exact Or.inr (Or.inr q))
    -- the new executor differs from those in use
    have hnew : ∀ d e', (s.cores d).cur = some (ci.pid, e') → e'.eid ≠ e.eid ∧ Disjoint e'.region e.region := by
      intro d e' hd
      obtain ⟨ph, h1, h2⟩ := i.hist ci.pid
      have hrun : HRun g.proc true (ph ++ [(_, _)]) p := HRun.step _ h1 hp (by simp) fun _ => trivial
      have hgv : given (ph ++ [((.assign (BitVec.ofNat 64 c) (g.nodeOf c) oom, .ok (.executor e)) : Event)]) =
          given ph ++ [e] := by rw [given_append]; rfl
      have u := c40_unique_ids hrun
      have v := c40_disjoint_partial hrun
      rw [hgv] at u v
      exact ⟨(List.pairwise_append.1 u).2.2 e' (h2 d e' hd) e (List.mem_singleton.2 rfl),
        (List.pairwise_append.1 v).2.2 e' (h2 d e' hd) e (List.mem_singleton.2 rfl)⟩
    refine { user := ?_, real := ?_, ran := ?_, goes := ?_, table := ?_, hist := ?_, apart := ?_ }
    · intro d
      rw [hcore]
      split
      · exact ⟨fun _ => rfl, fun _ => rfl⟩
      · exact i.user d
    · intro d x hd
      rw [hcore] at hd
      split at hd
      · rename_i ed; rw [ed]; exact hc
      · exact i.real d x hd
    · intro d pid e' hd
      rw [hcore] at hd ⊢
      split at hd
      · rename_i ed
        cases hd
        rw [if_pos ed]
        subst ed
        exact ⟨ci.entry, hgr.mono _, rfl, rfl, he⟩
      · rename_i ed
        rw [if_neg ed]
        obtain ⟨entry, h1, h2⟩ := i.ran d pid e' hd
        exact ⟨entry, h1.mono _, h2⟩
    · intro d ci' hd
      rw [hcore] at hd
      split at hd
      · rcases hd with q | ⟨k, q⟩ | q <;> cases q
      · exact (i.goes d ci' hd).mono _
    · intro d ci' hd
      exact (i.table d ci' hd).mono _
    · intro pid
      show ∃ ph, HRun g.proc true ph (upd s.procs ci.pid p pid) ∧ _
      rw [upd_apply]
      split
      · rename_i ep
        obtain ⟨ph, h1, h2⟩ := i.hist ci.pid
        refine ⟨ph ++ [(_, _)], HRun.step _ h1 hp (by simp) fun _ => trivial, ?_⟩
        intro d e' hd
        rw [given_append]
        rw [hcore] at hd
        split at hd
        · cases hd
          exact List.mem_append_right _ (List.mem_singleton.2 rfl)
        · rw [ep] at hd
          exact List.mem_append_left _ (h2 d e' hd)
      · rename_i ep
        obtain ⟨ph, h1, h2⟩ := i.hist pid
        refine ⟨ph, h1, ?_⟩
        intro d e' hd
        rw [hcore] at hd
        split at hd
        · cases hd; exact absurd rfl ep
        · exact h2 d e' hd
    · intro a b pid e1 e2 hab h1 h2
      rw [hcore] at h1 h2
      split at h1
      · rename_i ea
        cases h1
        split at h2
        · rename_i eb; exact absurd (ea.trans eb.symm) hab
        · obtain ⟨q1, q2⟩ := hnew b e2 h2
          exact ⟨fun q => q1 q.symm, disjoint_symm q2⟩
      · split at h2
        · cases h2
          exact hnew a e1 h1
        · exact i.apart a b pid e1 e2 hab h1 h2

theorem DInv.boot (g : DCfg) (pt : Nat → PML4) (off cr3 : Nat → Nat) : DInv g [] (Sys.boot pt off cr3) where
  user c := ⟨fun h => (by cases h), fun h => (by cases h)⟩
  real c x h := by cases h
  ran c pid e h := by cases h
  goes c ci h := by rcases h with h | ⟨k, h⟩ | h <;> cases h
  table c ci h := by cases h
  hist pid := ⟨[], HRun.new _ _, fun c e h => by cases h⟩
  apart c d pid e e' _ h := by cases h

theorem DRun.inv {g : DCfg} {h : DHist} {s : Sys} (r : DRun g h s) : DInv g h s := by
  induction r with
  | boot pt off cr3 => exact DInv.boot g pt off cr3
  | act a r hs ho ih => exact ih.step (act_move hs ho)

/-! ## Counting executors -/

/-- Does the core run the process? -/
def runs (s : Sys) (pid c : Nat) : Bool :=
  match (s.cores c).cur with
  | some (p, _) => p == pid
  | none => false

/-- How many cores of the node run the process. -/
def taken (g : DCfg) (s : Sys) (pid n : Nat) : Nat :=
  ((List.range g.ncores).filter fun c => g.nodeOf c == n && runs s pid c).length

/-- The executors of the process for the node: kept or in use. -/
def total (g : DCfg) (s : Sys) (pid n : Nat) : Nat :=
  (((s.procs pid).cache n).getD []).length + taken g s pid n

theorem filter_length_upd (l : List Nat) (p q : Nat → Bool) (c : Nat) (hl : l.Nodup) (hc : c ∈ l)
    (hp : p c = false) (hq : q c = true) (h : ∀ d, d ≠ c → q d = p d) :
    (l.filter q).length = (l.filter p).length + 1 := by
  induction l with
  | nil => cases hc
  | cons a l ih =>
    obtain ⟨h1, h2⟩ := List.nodup_cons.1 hl
    rcases List.mem_cons.1 hc with e | e
    · subst e
      have : l.filter q = l.filter p := List.filter_congr fun d hd => h d fun e => h1 (e ▸ hd)
      rw [List.filter_cons, List.filter_cons, if_pos hq, if_neg (by rw [hp]; simp), this]
      rfl
    · have ne : a ≠ c := fun q => h1 (q ▸ e)
      rw [List.filter_cons, List.filter_cons, h a ne]
      split
      · rw [List.length_cons, List.length_cons, ih h2 e]
      · exact ih h2 e

/-- Cores without the process among the cores of the node. -/
theorem taken_lt (g : DCfg) (s : Sys) (pid n c : Nat) (hc : c < g.ncores) (hn : g.nodeOf c = n)
    (h : runs s pid c = false) : taken g s pid n + 1 ≤ g.threads n := by
  have e := filter_length_upd (List.range g.ncores)
    (fun d => g.nodeOf d == n && runs s pid d) (fun d => g.nodeOf d == n && (runs s pid d || d == c)) c
    List.nodup_range (List.mem_range.2 hc) (by simp [h]) (by simp [hn])
    (fun d hd => by have : (d == c) = false := by simpa using hd
                    simp [this])
  unfold taken DCfg.threads
  rw [← e]
  rw [← List.countP_eq_length_filter, ← List.countP_eq_length_filter]
  refine List.countP_mono_left fun x _ hx => ?_
  simp at hx ⊢
  exact hx.1

theorem taken_lt2 (g : DCfg) (s : Sys) (pid n c d : Nat) (hcd : c ≠ d) (hc : c < g.ncores)
    (hd : d < g.ncores) (hn : g.nodeOf c = n) (hm : g.nodeOf d = n)
    (h : runs s pid c = false) (h' : runs s pid d = false) : taken g s pid n + 2 ≤ g.threads n := by
  have e := filter_length_upd (List.range g.ncores)
    (fun d => g.nodeOf d == n && runs s pid d) (fun d => g.nodeOf d == n && (runs s pid d || d == c)) c
    List.nodup_range (List.mem_range.2 hc) (by simp [h]) (by simp [hn])
    (fun d hd => by have : (d == c) = false := by simpa using hd
                    simp [this])
  have e2 := filter_length_upd (List.range g.ncores)
    (fun x => g.nodeOf x == n && (runs s pid x || x == c))
    (fun x => g.nodeOf x == n && (runs s pid x || x == c || x == d)) d
    List.nodup_range (List.mem_range.2 hd)
    (by have : (d == c) = false := by simpa using fun q => hcd q.symm
        simp [h', this]) (by simp [hm])
    (fun x hx => by have : (x == d) = false := by simpa using hx
                    simp [this])
  unfold taken DCfg.threads
  have : ((List.range g.ncores).filter fun x => g.nodeOf x == n && (runs s pid x || x == c || x == d)).length ≤
      ((List.range g.ncores).filter fun c => g.nodeOf c == n).length := by
    rw [← List.countP_eq_length_filter, ← List.countP_eq_length_filter]
    refine List.countP_mono_left fun x _ hx => ?_
    simp at hx ⊢
    exact hx.1
  omega

/-- There are enough executors, or a core is making more. -/
structure CInv (g : DCfg) (s : Sys) : Prop where
  ten : ∀ pid n, ((s.procs pid).cache n).isSome → 10 ≤ total g s pid n
  enough : ∀ pid n, ((s.procs pid).cache n).isSome → g.threads n ≤ total g s pid n ∨
    ∃ d ci k, d < g.ncores ∧ g.nodeOf d = n ∧ (s.cores d).at_ = .alloc ci k ∧ ci.pid = pid
  making : ∀ c ci k, (s.cores c).at_ = .alloc ci k → k ≤ total g s ci.pid (g.nodeOf c) ∧
    (0 < k → ((s.procs ci.pid).cache (g.nodeOf c)).isSome)
  again : ∀ c ci, (s.cores c).at_ = .retry ci → g.threads (g.nodeOf c) ≤ total g s ci.pid (g.nodeOf c) ∧
    ((s.procs ci.pid).cache (g.nodeOf c)).isSome

theorem taken_congr (g : DCfg) {s s' : Sys} (h : ∀ c, (s'.cores c).cur = (s.cores c).cur) (pid n : Nat) :
    taken g s' pid n = taken g s pid n := by
  have : runs s' pid = runs s pid := by funext c; unfold runs; rw [h]
  unfold taken
  rw [this]

theorem threads_pos (g : DCfg) (c : Nat) (hc : c < g.ncores) : 0 < g.threads (g.nodeOf c) := by
  unfold DCfg.threads
  exact List.length_pos_of_mem (List.mem_filter.2 ⟨List.mem_range.2 hc, by simp⟩)

/-- The same executors as before. -/
theorem CInv.congr {g : DCfg} {s s' : Sys} (i : CInv g s) (hc : ∀ pid, (s'.procs pid).cache = (s.procs pid).cache)
    (hs : s'.cores = s.cores) : CInv g s' := by
  have ht : ∀ pid n, total g s' pid n = total g s pid n := by
    intro pid n
    unfold total
    rw [hc, taken_congr g (s := s) (s' := s') (fun c => by rw [hs])]
  exact { ten := fun pid n h => by rw [ht]; exact i.ten pid n (by rw [← hc]; exact h)
          enough := fun pid n h => by rw [ht, hs]; exact i.enough pid n (by rw [← hc]; exact h)
          making := fun c ci k h => by rw [ht, hc]; exact i.making c ci k (by rw [← hs]; exact h)
          again := fun c ci h => by rw [ht, hc]; exact i.again c ci (by rw [← hs]; exact h) }

theorem CInv.step {g : DCfg} {s s' : Sys} {a : Act} {o : Outcome Unit}
    (i : CInv g s) (m : Move g s a o s') : CInv g s' := by
  cases m with
  | node n hn => exact i.congr (fun _ => rfl) rfl
  | other pid op p r hop hr hp =>
    refine i.congr ?_ rfl
    intro pid'
    show (upd s.procs pid p pid').cache = _
    rw [upd_apply]
    split
    · rename_i e
      rw [e]
      refine (step_other g.proc _ _ op r hp ?_ ?_).1
      · intro m mid mo oo e; subst e; cases hop
      · intro t r oom e; subst e; cases hop
    · rfl
  | goto c w hu hw hi hna =>
    have ht : ∀ pid n, total g (s.goto c w) pid n = total g s pid n := by
      intro pid n
      unfold total
      rw [taken_congr g (fun d => goto_cur s c d w)]
      rfl
    refine { ten := ?_, enough := ?_, making := ?_, again := ?_ }
    · intro pid n hn; rw [ht]; exact i.ten pid n hn
    · intro pid n hn
      rw [ht]
      rcases i.enough pid n hn with q | ⟨d, ci, k, q1, q2, q3, q4⟩
      · exact Or.inl q
      · by_cases e : d = c
        · subst e
          have h1 := hna ci k q3
          have h2 := (i.making d ci k q3).1
          rw [q2, q4] at h2
          rw [q2] at h1
          exact Or.inl (by omega)
        · exact Or.inr ⟨d, ci, k, q1, q2, by rw [goto_core, if_neg e]; exact q3, q4⟩
    · intro d ci k hd
      rw [ht]
      rw [goto_core] at hd
      split at hd
      · dsimp only at hd
        subst hd
        rcases hi with e | e | e | ⟨ci', e, q⟩ | ⟨ci', e, q⟩ | ⟨ci', k', e, q, _⟩ <;> cases e
        exact ⟨Nat.zero_le _, fun q => by omega⟩
      · exact i.making d ci k hd
    · intro d ci hd
      rw [ht]
      rw [goto_core] at hd
      split at hd
      · rename_i ed
        subst ed
        dsimp only at hd
        subst hd
        rcases hi with e | e | e | ⟨ci', e, q⟩ | ⟨ci', e, q⟩ | ⟨ci', k', e, q, q2, q3⟩ <;> cases e
        obtain ⟨r1, r2⟩ := i.making d ci k' q
        have := threads_pos g d q3
        exact ⟨by omega, r2 (by omega)⟩
      · exact i.again d ci hd
  | made c ci k base p hc ha hp =>
    obtain ⟨_, _, k1, k2, k3⟩ := make_ok hp
    have hcache : ∀ pid n, ¬ (pid = ci.pid ∧ n = g.nodeOf c) →
        (({ s with procs := upd s.procs ci.pid p }.goto c (.alloc ci (k + 10))).procs pid).cache n =
          (s.procs pid).cache n := by
      intro pid n hne
      show (upd s.procs ci.pid p pid).cache n = _
      rw [upd_apply]
      split
      · rename_i e
        subst e
        exact k1 n fun e => hne ⟨rfl, e⟩
      · rfl
    have hcache2 : (({ s with procs := upd s.procs ci.pid p }.goto c (.alloc ci (k + 10))).procs ci.pid).cache =
        p.cache := by
      show (upd s.procs ci.pid p ci.pid).cache = _
      rw [upd_same]
    have htk : ∀ pid n, taken g ({ s with procs := upd s.procs ci.pid p }.goto c (.alloc ci (k + 10))) pid n =
        taken g s pid n := fun pid n => taken_congr g (fun d => goto_cur _ c d _) pid n
    have ht : ∀ pid n, ¬ (pid = ci.pid ∧ n = g.nodeOf c) →
        total g ({ s with procs := upd s.procs ci.pid p }.goto c (.alloc ci (k + 10))) pid n =
          total g s pid n := by
      intro pid n hne
      unfold total
      rw [htk, hcache pid n hne]
    have ht2 : total g ({ s with procs := upd s.procs ci.pid p }.goto c (.alloc ci (k + 10))) ci.pid (g.nodeOf c) =
        total g s ci.pid (g.nodeOf c) + 10 := by
      unfold total
      rw [htk, hcache2, k3]
      omega
    have hme : (({ s with procs := upd s.procs ci.pid p }.goto c (.alloc ci (k + 10))).cores c).at_ =
        .alloc ci (k + 10) := by rw [goto_core, if_pos rfl]
    have hmk : ∀ d, d ≠ c → (({ s with procs := upd s.procs ci.pid p }.goto c (.alloc ci (k + 10))).cores d).at_ =
        (s.cores d).at_ := by intro d hd; rw [goto_core, if_neg hd]
    generalize ({ s with procs := upd s.procs ci.pid p }.goto c (.alloc ci (k + 10))) = s' at *
    have hge : ∀ pid n, total g s pid n ≤ total g s' pid n := by
      intro pid n
      by_cases e : pid = ci.pid ∧ n = g.nodeOf c
      · obtain ⟨rfl, rfl⟩ := e; omega
      · rw [ht pid n e]; exact Nat.le_refl _
    have hsome : ∀ pid n, ((s.procs pid).cache n).isSome → ((s'.procs pid).cache n).isSome := by
      intro pid n hq
      by_cases e : pid = ci.pid ∧ n = g.nodeOf c
      · obtain ⟨rfl, rfl⟩ := e; rw [hcache2]; exact k2
      · rw [hcache pid n e]; exact hq
    refine { ten := ?_, enough := ?_, making := ?_, again := ?_ }
    · intro pid n hn
      by_cases e : pid = ci.pid ∧ n = g.nodeOf c
      · obtain ⟨rfl, rfl⟩ := e; omega
      · rw [ht pid n e]; rw [hcache pid n e] at hn; exact i.ten pid n hn
    · intro pid n hn
      by_cases e : pid = ci.pid ∧ n = g.nodeOf c
      · obtain ⟨rfl, rfl⟩ := e
        exact Or.inr ⟨c, ci, k + 10, hc, rfl, hme, rfl⟩
      · rw [ht pid n e]
        rw [hcache pid n e] at hn
        rcases i.enough pid n hn with q | ⟨d, ci', k', q1, q2, q3, q4⟩
        · exact Or.inl q
        · by_cases ed : d = c
          · subst ed
            rw [ha] at q3
            cases q3
            exact absurd ⟨q4.symm, q2.symm⟩ e
          · exact Or.inr ⟨d, ci', k', q1, q2, by rw [hmk d ed]; exact q3, q4⟩
    · intro d ci' k' hd
      by_cases ed : d = c
      · subst ed
        rw [hme] at hd
        cases hd
        have := (i.making d ci k ha).1
        exact ⟨by omega, fun _ => by rw [hcache2]; exact k2⟩
      · rw [hmk d ed] at hd
        obtain ⟨q1, q2⟩ := i.making d ci' k' hd
        exact ⟨Nat.le_trans q1 (hge _ _), fun q => hsome _ _ (q2 q)⟩
    · intro d ci' hd
      by_cases ed : d = c
      · subst ed
        rw [hme] at hd
        cases hd
      · rw [hmk d ed] at hd
        obtain ⟨q1, q2⟩ := i.again d ci' hd
        exact ⟨Nat.le_trans q1 (hge _ _), hsome _ _ q2⟩
  | took c ci e p oom hc ha hn he hp =>
    obtain ⟨rest, _, k1, k2⟩ := assign_ok hp
    have hcore : ∀ d, d ≠ c → (({ s with procs := upd s.procs ci.pid p }.setCore c
        ⟨.user, some (ci.pid, e), g.root ci.pid (g.nodeOf c),
          some (e.launch (g.elf ci.pid) ci.entry c)⟩).cores d) = s.cores d := fun d hd => upd_other _ _ hd
    have hcore2 : (({ s with procs := upd s.procs ci.pid p }.setCore c
        ⟨.user, some (ci.pid, e), g.root ci.pid (g.nodeOf c),
          some (e.launch (g.elf ci.pid) ci.entry c)⟩).cores c) =
        ⟨.user, some (ci.pid, e), g.root ci.pid (g.nodeOf c),
          some (e.launch (g.elf ci.pid) ci.entry c)⟩ := upd_same _ _ _
    have hprocs : ({ s with procs := upd s.procs ci.pid p }.setCore c
        ⟨.user, some (ci.pid, e), g.root ci.pid (g.nodeOf c),
          some (e.launch (g.elf ci.pid) ci.entry c)⟩).procs = upd s.procs ci.pid p := rfl
    generalize { s with procs := upd s.procs ci.pid p }.setCore c
        ⟨.user, some (ci.pid, e), g.root ci.pid (g.nodeOf c),
          some (e.launch (g.elf ci.pid) ci.entry c)⟩ = s' at *
    have hcache : ∀ pid n, ¬ (pid = ci.pid ∧ n = g.nodeOf c) →
        (s'.procs pid).cache n = (s.procs pid).cache n := by
      intro pid n hne
      rw [hprocs, upd_apply]
      split
      · rename_i ep
        subst ep
        rw [k2]
        exact upd_other _ _ fun q => hne ⟨rfl, q⟩
      · rfl
    have hcache2 : (s'.procs ci.pid).cache (g.nodeOf c) = some rest := by
      rw [hprocs, upd_same, k2, upd_same]
    have hruns : ∀ pid d, d ≠ c → runs s' pid d = runs s pid d := by
      intro pid d hd
      unfold runs
      rw [hcore d hd]
    have hr1 : ∀ pid, runs s pid c = false := by intro pid; unfold runs; rw [hn]
    have hr2 : ∀ pid, runs s' pid c = (ci.pid == pid) := by intro pid; unfold runs; rw [hcore2]
    have htk : ∀ pid n, ¬ (pid = ci.pid ∧ n = g.nodeOf c) → taken g s' pid n = taken g s pid n := by
      intro pid n hne
      unfold taken
      congr 1
      refine List.filter_congr fun d _ => ?_
      by_cases ed : d = c
      · subst ed
        rw [hr1, hr2]
        by_cases e1 : g.nodeOf d = n
        · have : ci.pid ≠ pid := fun q => hne ⟨q.symm, e1.symm⟩
          simp [this]
        · have : (g.nodeOf d == n) = false := by simpa using e1
          simp [this]
      · rw [hruns pid d ed]
    have htk2 : taken g s' ci.pid (g.nodeOf c) = taken g s ci.pid (g.nodeOf c) + 1 := by
      unfold taken
      exact filter_length_upd _ _ _ c List.nodup_range (List.mem_range.2 hc) (by simp [hr1])
        (by simp [hr2]) fun d hd => by rw [hruns _ d hd]
    have ht : ∀ pid n, total g s' pid n = total g s pid n := by
      intro pid n
      by_cases ep : pid = ci.pid ∧ n = g.nodeOf c
      · obtain ⟨rfl, rfl⟩ := ep
        unfold total
        rw [hcache2, k1, htk2]
        simp
        omega
      · unfold total
        rw [hcache pid n ep, htk pid n ep]
    have hsome : ∀ pid n, ((s'.procs pid).cache n).isSome = ((s.procs pid).cache n).isSome := by
      intro pid n
      by_cases ep : pid = ci.pid ∧ n = g.nodeOf c
      · obtain ⟨rfl, rfl⟩ := ep
        rw [hcache2, k1]
        rfl
      · rw [hcache pid n ep]
    refine { ten := ?_, enough := ?_, making := ?_, again := ?_ }
    · intro pid n hq
      rw [ht]
      rw [hsome] at hq
      exact i.ten pid n hq
    · intro pid n hq
      rw [ht]
      rw [hsome] at hq
      rcases i.enough pid n hq with q | ⟨d, ci', k', q1, q2, q3, q4⟩
      · exact Or.inl q
      · by_cases ed : d = c
        · subst ed
          rcases ha with ha | ha <;> rw [ha] at q3 <;> cases q3
        · exact Or.inr ⟨d, ci', k', q1, q2, by rw [hcore d ed]; exact q3, q4⟩
    · intro d ci' k' hd
      rw [ht, hsome]
      by_cases ed : d = c
      · subst ed
        rw [hcore2] at hd
        cases hd
      · rw [hcore d ed] at hd
        exact i.making d ci' k' hd
    · intro d ci' hd
      rw [ht, hsome]
      by_cases ed : d = c
      · subst ed
        rw [hcore2] at hd
        cases hd
      · rw [hcore d ed] at hd
        exact i.again d ci' hd

theorem DRun.count {g : DCfg} {h : DHist} {s : Sys} (r : DRun g h s) : CInv g s := by
  induction r with
  | boot pt off cr3 =>
    exact { ten := fun pid n h => by cases h
            enough := fun pid n h => by cases h
            making := fun c ci k h => by cases h
            again := fun c ci h => by cases h }
  | act a r hs ho ih => exact ih.step (act_move hs ho)

end NRK.Proc
