import Verif.Proc.DispatchInv

/-!
# What cores run (C100)
-/

namespace NRK.Proc

open NRK.VSpace NRK.Mem NRK.Mem.Spec NRK.Proc.Spec

/-! ## Running the right thing -/

/-- **C100** A core in user mode was given to the process it runs: by a request that succeeded, from a core
that already ran this process, or by the kernel when it started the process.  It runs in the address space
of this process, with the page table of its own node, on an executor whose memory is on its node; and it
began where the request said, on the stack of that executor. -/
theorem c100_runs {g : DCfg} {h : DHist} {s : Sys} (r : DRun g h s) (c : Nat)
    (hu : (s.cores c).at_ = .user) :
    ∃ pid e entry l, (s.cores c).cur = some (pid, e) ∧ Granted h c pid entry ∧
      (s.cores c).cr3 = g.root pid (g.nodeOf c) ∧ e.affinity = g.nodeOf c ∧
      (s.cores c).launch = some l ∧ StartsAt l (g.elf pid) entry c e := by
  have i := r.inv
  have hc := (i.user c).1 hu
  cases hcur : (s.cores c).cur with
  | none => rw [hcur] at hc; cases hc
  | some x =>
    obtain ⟨pid, e⟩ := x
    obtain ⟨entry, h1, h2, h3, h4⟩ := i.ran c pid e hcur
    refine ⟨pid, e, entry, _, rfl, h1, h3, h4, h2, ?_⟩
    have hs : STACK = 98304 := rfl
    unfold StartsAt Executor.launch Executor.stackTop INVALID_START NEW_CORE
    split
    · rename_i he
      exact ⟨by dsimp only; omega, fun _ => ⟨rfl, rfl⟩, fun q => absurd he q⟩
    · rename_i he
      exact ⟨by dsimp only; omega, fun q => absurd q he, fun _ => ⟨rfl, rfl⟩⟩

/-- **C100** A core that was never given to a process does not run user code, and has no process. -/
theorem c100_idle {g : DCfg} {h : DHist} {s : Sys} (r : DRun g h s) (c : Nat)
    (hg : ∀ pid entry, ¬ Granted h c pid entry) :
    (s.cores c).at_ ≠ .user ∧ (s.cores c).cur = none ∧ s.node.sched c = none := by
  have i := r.inv
  have hcur : (s.cores c).cur = none := by
    cases hq : (s.cores c).cur with
    | none => rfl
    | some x =>
      obtain ⟨entry, h1, _⟩ := i.ran c x.1 x.2 hq
      exact absurd h1 (hg _ _)
  refine ⟨fun q => ?_, hcur, ?_⟩
  · have := (i.user c).1 q
    rw [hcur] at this
    cases this
  · cases hq : s.node.sched c with
    | none => rfl
    | some ci => exact absurd (i.table c ci hq) (hg _ _)

/-- **C100** Two cores that run the same process have different executors, whose stacks and control areas
do not overlap. -/
theorem c100_apart {g : DCfg} {h : DHist} {s : Sys} (r : DRun g h s) (c d pid : Nat) (e e' : Executor)
    (hcd : c ≠ d) (hc : (s.cores c).cur = some (pid, e)) (hd : (s.cores d).cur = some (pid, e')) :
    e.eid ≠ e'.eid ∧ Disjoint e.region e'.region := r.inv.apart c d pid e e' hcd hc hd

/-- **C100** A core that runs a process stays as it is whatever happens: interrupts, system calls of any
core and the kernel's other cores neither take it away nor move it to another address space.  That includes
the release of the core, and another process that is given the core. -/
theorem c100_stays {g : DCfg} {h : DHist} {s s' : Sys} {o : Outcome Unit} (r : DRun g h s) (a : Act)
    (hs : s.act g a = (s', o)) (ho : o ≠ .panic) (c : Nat) (hu : (s.cores c).at_ = .user) :
    s'.cores c = s.cores c := by
  have i := r.inv
  cases act_move hs ho with
  | node n hn => rfl
  | goto d w hd hw hi hna =>
    rw [goto_core]
    split
    · rename_i e; rw [e] at hu; exact absurd hu hd.1
    · rfl
  | made d ci k base p hd ha hp =>
    rw [goto_core]
    split
    · rename_i e; rw [e, ha] at hu; cases hu
    · rfl
  | took d ci e p oom hd ha hn he hp =>
    show upd s.cores d _ c = _
    rw [upd_apply]
    split
    · rename_i e; rw [e] at hu
      rcases ha with ha | ha <;> rw [ha] at hu <;> cases hu
    · rfl
  | other pid op p r hop hr hp => rfl

/-- What happens later. -/
inductive DLater (g : DCfg) : Sys → Sys → Prop where
  | refl (s : Sys) : DLater g s s
  | act {s s' s'' : Sys} {o : Outcome Unit} (a : Act) (l : DLater g s s') (hs : s'.act g a = (s'', o))
      (ho : o ≠ .panic) : DLater g s s''

theorem DLater.run {g : DCfg} {s s' : Sys} (l : DLater g s s') {h : DHist} (r : DRun g h s) :
    ∃ h', DRun g h' s' := by
  induction l with
  | refl => exact ⟨h, r⟩
  | act a l hs ho ih =>
    obtain ⟨h', r'⟩ := ih
    exact ⟨_, r'.act a hs ho⟩

/-- **C100** For ever. -/
theorem c100_for_ever {g : DCfg} {h : DHist} {s s' : Sys} (r : DRun g h s) (l : DLater g s s') (c : Nat)
    (hu : (s.cores c).at_ = .user) : s'.cores c = s.cores c := by
  induction l with
  | refl => rfl
  | act a l hs ho ih =>
    obtain ⟨h', r'⟩ := l.run r
    rw [c100_stays r' a hs ho c (by rw [ih]; exact hu), ih]

/-! ## Getting to run -/

/-- **C100** What the scheduler of an idle core does: it takes what the table has for the core; if that is
nothing, the first core of the node looks again, any other sleeps until the next interrupt, which makes it
look again. -/
theorem c100_polls (g : DCfg) (s : Sys) (c : Nat) (hc : c < g.ncores) (mem : Option Nat) (oom : Bool) :
    ((s.cores c).at_ = .sched → ∀ ci, s.node.sched c = some ci →
      s.act g (.step c mem oom) = (s.goto c (.found ci), .ok ())) ∧
    ((s.cores c).at_ = .sched → s.node.sched c = none →
      s.act g (.step c mem oom) = (if g.main c then s else s.goto c .idle, .ok ())) ∧
    ((s.cores c).at_ = .idle → (s.cores c).cur = none → s.act g (.tick c) = (s.goto c .sched, .ok ())) := by
  refine ⟨fun ha ci hci => ?_, fun ha hn => ?_, fun ha hcur => ?_⟩
  · unfold Sys.act
    dsimp only
    rw [if_pos hc]
    unfold Sys.coreStep
    rw [ha]
    dsimp only
    unfold Node.current
    rw [hci]
  · unfold Sys.act
    dsimp only
    rw [if_pos hc]
    unfold Sys.coreStep
    rw [ha]
    dsimp only
    unfold Node.current
    rw [hn]
    dsimp only
    split <;> rfl
  · unfold Sys.act Sys.tick
    dsimp only
    rw [ha]
    dsimp only
    rw [hcur]
    rfl

theorem cur_none {g : DCfg} {h : DHist} {s : Sys} (r : DRun g h s) {c : Nat} (hu : (s.cores c).at_ ≠ .user) :
    (s.cores c).cur = none := by
  cases hq : (s.cores c).cur with
  | none => rfl
  | some x => exact absurd ((r.inv.user c).2 (by rw [hq]; rfl)) hu

/-- Getting an executor when there is one. -/
theorem assign_runs {g : DCfg} {h : DHist} {s : Sys} (r : DRun g h s) {c : Nat} {ci : CoreInfo}
    {first : Bool} (hn : g.nodeOf c < 12) (hu : (s.cores c).at_ ≠ .user)
    {e : Executor} {rest : List Executor}
    (hcache : (s.procs ci.pid).cache (g.nodeOf c) = some (e :: rest)) :
    ∃ s', s.assign g c ci false first = (s', .ok ()) ∧
      s'.cores = upd s.cores c ⟨.user, some (ci.pid, e), g.root ci.pid (g.nodeOf c),
        some (e.launch (g.elf ci.pid) ci.entry c)⟩ := by
  obtain ⟨p, hp⟩ := assign_of_cache g (s.procs ci.pid) (BitVec.ofNat 64 c) (g.nodeOf c) e rest hn hcache
  obtain ⟨ph, h1, _⟩ := r.inv.hist ci.pid
  have haff := c40_affinity (c := g.proc) rfl h1 _ _ _ _ hp
  unfold Sys.assign
  rw [hp]
  dsimp only
  unfold Sys.run
  rw [if_neg (by show ¬ (s.cores c).cur.isSome = true; rw [cur_none r hu]; simp),
    if_neg (by rw [haff]; simp)]
  exact ⟨_, rfl, rfl⟩

/-- **C100** A core that was told what to run, and for whose node the process has an executor, enters user
mode in its next step: in that process and its address space, where the request said. -/
theorem c100_starts {g : DCfg} {h : DHist} {s : Sys} (r : DRun g h s) (c : Nat) (hc : c < g.ncores)
    (hn : g.nodeOf c < 12) (ci : CoreInfo) (ha : (s.cores c).at_ = .found ci) (mem : Option Nat)
    (e : Executor) (rest : List Executor)
    (hcache : (s.procs ci.pid).cache (g.nodeOf c) = some (e :: rest)) :
    ∃ s' l, s.act g (.step c mem false) = (s', .ok ()) ∧ (s'.cores c).at_ = .user ∧
      (s'.cores c).cur = some (ci.pid, e) ∧ (s'.cores c).cr3 = g.root ci.pid (g.nodeOf c) ∧
      (s'.cores c).launch = some l ∧ StartsAt l (g.elf ci.pid) ci.entry c e := by
  obtain ⟨s', h1, h2⟩ := assign_runs (first := true) r hn (by rw [ha]; simp) hcache
  have hact : s.act g (.step c mem false) = (s', .ok ()) := by
    unfold Sys.act
    dsimp only
    rw [if_pos hc]
    unfold Sys.coreStep
    rw [ha]
    exact h1
  have hcore : s'.cores c = ⟨.user, some (ci.pid, e), g.root ci.pid (g.nodeOf c),
      some (e.launch (g.elf ci.pid) ci.entry c)⟩ := by rw [h2, upd_same]
  have r' := r.act _ hact (by simp)
  obtain ⟨pid, e', entry, l, q1, _, _, _, q5, _⟩ := c100_runs r' c (by rw [hcore])
  refine ⟨s', e.launch (g.elf ci.pid) ci.entry c, hact, by rw [hcore], by rw [hcore], by rw [hcore],
    by rw [hcore], ?_⟩
  have hs : STACK = 98304 := rfl
  unfold StartsAt Executor.launch Executor.stackTop INVALID_START NEW_CORE
  split
  · rename_i he
    exact ⟨by dsimp only; omega, fun _ => ⟨rfl, rfl⟩, fun q => absurd he q⟩
  · rename_i he
    exact ⟨by dsimp only; omega, fun q => absurd q he, fun _ => ⟨rfl, rfl⟩⟩

/-- **C100** A request for a core that no process has, by a process, succeeds (if there is memory for the
entry); what any core runs does not change at that time, and the scheduler of that core will find the
process and the entry point. -/
theorem c100_request (g : DCfg) (s : Sys) (d pid entry : Nat) (e : Executor) (t : BitVec 64)
    (hu : (s.cores d).at_ = .user) (hcur : (s.cores d).cur = some (pid, e)) (ht : t.toNat < g.ncores)
    (hm : g.ncores ≤ 192) (hfree : s.node.sched t.toNat = none) :
    ∃ s', s.act g (.request d t entry false) = (s', .ok ()) ∧ s'.cores = s.cores ∧ s'.procs = s.procs ∧
      s'.node.sched t.toNat = some ⟨pid, entry⟩ ∧
      ∀ c, c ≠ t.toNat → s'.node.sched c = s.node.sched c := by
  have hmt : (mtidFromGtid t).toNat < g.ncores := by
    unfold mtidFromGtid
    have h1 : t.toNat < 2 ^ 32 := by omega
    rw [BitVec.toNat_ushiftRight, BitVec.toNat_shiftLeft, Nat.shiftLeft_eq, Nat.shiftRight_eq_div_pow]
    omega
  have hstep : s.node.step false false (.allocCore pid (some t.toNat) entry) =
      ({ s.node with sched := upd s.node.sched t.toNat (some ⟨pid, entry⟩) }, .ok (.coreAllocated t.toNat)) := by
    unfold Node.step
    dsimp only
    have hM : MAX_CORES = 192 := rfl
    rw [if_neg (by rintro ⟨_, q⟩; omega), hfree]
    rfl
  refine ⟨{ s with node := { s.node with sched := upd s.node.sched t.toNat (some ⟨pid, entry⟩) } }, ?_, rfl,
    rfl, upd_same _ _ _, fun c hc => upd_other _ _ hc⟩
  unfold Sys.act Sys.sysCore
  dsimp only
  rw [hu]
  dsimp only
  rw [if_pos hmt, hcur]
  dsimp only
  rw [hstep]
  rfl

/-! ## The kernel does not stop -/

/-- There is an executor for a core that asks, unless a core of the node is still making them. -/
theorem cache_nonempty {g : DCfg} {s : Sys} {c pid : Nat}
    (hsome : ((s.procs pid).cache (g.nodeOf c)).isSome)
    (hbig : taken g s pid (g.nodeOf c) + 1 ≤ total g s pid (g.nodeOf c)) :
    ∃ e rest, (s.procs pid).cache (g.nodeOf c) = some (e :: rest) := by
  unfold total at hbig
  cases hq : (s.procs pid).cache (g.nodeOf c) with
  | none => rw [hq] at hsome; cases hsome
  | some l =>
    rw [hq] at hbig
    cases l with
    | nil =>
      have : (Option.getD (some ([] : List Executor)) []).length = 0 := rfl
      omega
    | cons e rest => exact ⟨e, rest, rfl⟩

theorem runs_none {g : DCfg} {h : DHist} {s : Sys} (r : DRun g h s) {c : Nat} (pid : Nat)
    (hu : (s.cores c).at_ ≠ .user) : runs s pid c = false := by
  unfold runs
  rw [cur_none r hu]

/-- **C100** Partial: on nodes with at most 11 cores, the scheduler gets an executor for any core that was
given to a process, however the cores' steps interleave, so its `expect`, and the assertions on the way to
user mode, do not stop the kernel; that leaves the making of executors, which needs memory, see
`c100_making`.  On larger nodes it can stop the kernel, see `c100_exhausted`. -/
theorem c100_schedules_partial {g : DCfg} {h : DHist} {s : Sys} (r : DRun g h s) (c : Nat) (hc : c < g.ncores)
    (hn : g.nodeOf c < 12) (hsmall : (nodeCores g (g.nodeOf c)).length ≤ 11)
    (hw : ∀ ci k, (s.cores c).at_ ≠ .alloc ci k) (mem : Option Nat) :
    (s.act g (.step c mem false)).2 = .ok () := by
  have hth : g.threads (g.nodeOf c) ≤ 11 := by
    unfold nodeCores at hsmall
    unfold DCfg.threads
    have : (fun d => g.nodeOf d == g.nodeOf c) = fun d => decide (g.nodeOf d = g.nodeOf c) := by
      funext d; rfl
    rw [this]
    exact hsmall
  have ci := r.count
  unfold Sys.act
  dsimp only
  rw [if_pos hc]
  unfold Sys.coreStep
  cases ha : (s.cores c).at_ with
  | sched =>
    dsimp only
    unfold Node.current
    cases s.node.sched c with
    | some ci => rfl
    | none =>
      dsimp only
      split <;> rfl
  | found i =>
    dsimp only
    have hu : (s.cores c).at_ ≠ .user := by rw [ha]; simp
    cases hcache : (s.procs i.pid).cache (g.nodeOf c) with
    | none =>
      unfold Sys.assign
      rw [assign_of_none g _ _ _ _ hn hcache]
      rfl
    | some l =>
      have hsome : ((s.procs i.pid).cache (g.nodeOf c)).isSome := by rw [hcache]; rfl
      have hbig : taken g s i.pid (g.nodeOf c) + 1 ≤ total g s i.pid (g.nodeOf c) := by
        have h1 := taken_lt g s i.pid (g.nodeOf c) c hc rfl (runs_none r _ hu)
        rcases ci.enough i.pid (g.nodeOf c) hsome with q | ⟨d, i', k, q1, q2, q3, q4⟩
        · omega
        · have hd : (s.cores d).at_ ≠ .user := by rw [q3]; simp
          have hcd : c ≠ d := by intro q; rw [← q, ha] at q3; cases q3
          have h2 := taken_lt2 g s i.pid (g.nodeOf c) c d hcd hc q1 rfl q2 (runs_none r _ hu)
            (runs_none r _ hd)
          have h3 := ci.ten i.pid (g.nodeOf c) hsome
          omega
      obtain ⟨e, rest, q⟩ := cache_nonempty hsome hbig
      obtain ⟨s', h1, _⟩ := assign_runs (first := true) r hn hu q
      rw [h1]
  | alloc i k => exact absurd ha (hw i k)
  | retry i =>
    dsimp only
    have hu : (s.cores c).at_ ≠ .user := by rw [ha]; simp
    obtain ⟨h1, hsome⟩ := ci.again c i ha
    have h2 := taken_lt g s i.pid (g.nodeOf c) c hc rfl (runs_none r _ hu)
    obtain ⟨e, rest, q⟩ := cache_nonempty hsome (by omega)
    obtain ⟨s', h1, _⟩ := assign_runs (first := false) r hn hu q
    rw [h1]
  | idle => rfl
  | user => rfl
  | gc => rfl

/-- **C100** Making executors: a round adds 10 for the core's node, out of one page; the core goes on until
it made as many as the node has cores, and then gets one, on nodes of any size. -/
theorem c100_making {g : DCfg} {h : DHist} {s : Sys} (r : DRun g h s) (c : Nat) (hc : c < g.ncores)
    (ci : CoreInfo) (k : Nat) (ha : (s.cores c).at_ = .alloc ci k) (mem : Option Nat) (oom : Bool) :
    ((nodeCores g (g.nodeOf c)).length ≤ k →
      s.act g (.step c mem oom) = (s.goto c (.retry ci), .ok ()) ∧ g.nodeOf c < 12 ∧
      ∃ s2, (s.goto c (.retry ci)).act g (.step c mem false) = (s2, .ok ()) ∧ (s2.cores c).at_ = .user) ∧
    (k < (nodeCores g (g.nodeOf c)).length → ∀ s', s.act g (.step c mem oom) = (s', .ok ()) →
      (s'.cores c).at_ = .alloc ci (k + 10) ∧ mem ≠ none ∧
      (((s'.procs ci.pid).cache (g.nodeOf c)).getD []).length =
        (((s.procs ci.pid).cache (g.nodeOf c)).getD []).length + 10) := by
  have hth : (nodeCores g (g.nodeOf c)).length = g.threads (g.nodeOf c) := by
    unfold nodeCores DCfg.threads
    congr 1
  have hact : s.act g (.step c mem oom) = s.makeMore g c ci k mem := by
    unfold Sys.act
    dsimp only
    rw [if_pos hc]
    unfold Sys.coreStep
    rw [ha]
  rw [hth, hact]
  refine ⟨fun hk => ?_, fun hk s' hs' => ?_⟩
  · have h0 : s.makeMore g c ci k mem = (s.goto c (.retry ci), .ok ()) := by
      unfold Sys.makeMore
      rw [if_neg (by omega)]
    have r' := r.act (.step c mem oom) (by rw [hact, h0]) (by simp)
    have hat : ((s.goto c (.retry ci)).cores c).at_ = .retry ci := by rw [goto_core, if_pos rfl]
    have hu : ((s.goto c (.retry ci)).cores c).at_ ≠ .user := by rw [hat]; simp
    obtain ⟨h1, hsome⟩ := r'.count.again c ci hat
    have h2 := taken_lt g (s.goto c (.retry ci)) ci.pid (g.nodeOf c) c hc rfl (runs_none r' _ hu)
    obtain ⟨e, rest, q⟩ := cache_nonempty hsome (by omega)
    have hn : g.nodeOf c < 12 := by
      obtain ⟨ph, p1, _⟩ := r'.inv.hist ci.pid
      obtain ⟨mid, p2⟩ := p1.index (g.nodeOf c) _ e q List.mem_cons_self
      have p3 := execIndex_plain g _ _ _ p2
      omega
    obtain ⟨s2, h3, h4⟩ := assign_runs (first := false) r' hn hu q
    refine ⟨h0, hn, s2, ?_, by rw [h4, upd_same]⟩
    unfold Sys.act
    dsimp only
    rw [if_pos hc]
    unfold Sys.coreStep
    rw [hat]
    exact h3
  · unfold Sys.makeMore at hs'
    rw [if_pos hk] at hs'
    cases mem with
    | none => cases hs'
    | some base =>
      dsimp only at hs'
      cases hp : (s.procs ci.pid).step g.proc
          (.dispatchers ⟨base, EXEC_PAGE, g.nodeOf c⟩ 0 false (fun _ => false)) with
      | mk p r =>
        rw [hp] at hs'
        cases r with
        | panic => cases hs'
        | err er => cases hs'
        | ok x =>
          cases x with
          | executorsCreated n =>
            cases hs'
            obtain ⟨rfl, _, _, _, k3⟩ := make_ok hp
            refine ⟨by rw [goto_core, if_pos rfl], by simp, ?_⟩
            show (((upd s.procs ci.pid p ci.pid).cache (g.nodeOf c)).getD []).length = _
            rw [upd_same]
            exact k3
          | _ => cases hs'

/-! ## Where the code falls short -/

/-- **C100** Releasing a core has no effect on it: it goes on running the process that released it (also
when the table says that no process has it), and if another process then gets it, that one never runs
there. -/
theorem c100_release {g : DCfg} {h : DHist} {s s' : Sys} (r : DRun g h s) (c pid : Nat) (e : Executor)
    (hu : (s.cores c).at_ = .user) (hc : (s.cores c).cur = some (pid, e)) (l : DLater g s s') :
    (s'.cores c).at_ = .user ∧ (s'.cores c).cur = some (pid, e) ∧
      ∀ q e', (s'.cores c).cur = some (q, e') → q = pid := by
  have := c100_for_ever r l c hu
  rw [this]
  refine ⟨hu, hc, ?_⟩
  intro q e' h1
  rw [hc] at h1
  cases h1
  rfl

/-- **C100** An idle core that is asked for progress of the file system never runs a process again,
whatever the table says. -/
theorem c100_lost {g : DCfg} {s s' : Sys} (l : DLater g s s') (c : Nat)
    (hu : (s.cores c).at_ = .gc) : (s'.cores c).at_ = .gc := by
  induction l with
  | refl => exact hu
  | act a l hs ho ih =>
    cases act_move hs ho with
    | node n hn => exact ih
    | goto d w hd hw hi hna =>
      rw [goto_core]
      split
      · rename_i e; rw [e] at ih; exact absurd ih hd.2
      · exact ih
    | made d ci k base p hd ha hp =>
      rw [goto_core]
      split
      · rename_i e; rw [e, ha] at ih; cases ih
      · exact ih
    | took d ci e p oom hd ha hn he hp =>
      unfold Sys.setCore
      dsimp only
      rw [upd_apply]
      split
      · rename_i e; rw [e] at ih
        rcases ha with ha | ha <;> rw [ha] at ih <;> cases ih
      · exact ih
    | other pid op p r hop hr hp => exact ih

end NRK.Proc
