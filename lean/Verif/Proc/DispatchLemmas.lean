import Verif.Proc.DispatchSpec
import Verif.Proc.ExecProps

/-!
# Lemmas about the scheduler

What each action changes.
-/

namespace NRK.Proc

open NRK.VSpace NRK.Mem NRK.Mem.Spec NRK.Proc.Spec

theorem execIndex_plain (g : DCfg) (n mid i : Nat) (h : execIndex g.proc n mid = some i) :
    n < 12 ∧ i = n := by
  unfold execIndex DCfg.proc at h
  simp only [Bool.false_eq_true, if_false] at h
  split at h
  · rename_i hn
    cases h
    exact ⟨hn, rfl⟩
  · cases h

/-- Getting an executor. -/
theorem assign_ok {g : DCfg} {s p : Proc} {t : BitVec 64} {n : Nat} {oom : Bool} {e : Executor}
    (h : s.step g.proc (.assign t n oom) = (p, .ok (.executor e))) :
    ∃ rest, n < 12 ∧ s.cache n = some (e :: rest) ∧ p.cache = upd s.cache n (some rest) := by
  unfold Proc.step at h
  dsimp only at h
  unfold Proc.getExecutor at h
  cases hi : execIndex g.proc n (midFromGtid t).toNat with
  | none => rw [hi] at h; cases h
  | some i =>
    obtain ⟨hn, rfl⟩ := execIndex_plain g _ _ _ hi
    rw [hi] at h
    dsimp only at h
    cases hc : s.cache i with
    | none => rw [hc] at h; cases h
    | some l =>
      cases l with
      | nil => rw [hc] at h; cases h
      | cons e' rest =>
        rw [hc] at h
        dsimp only at h
        cases oom
        · cases h
          exact ⟨rest, hn, rfl, rfl⟩
        · cases h

theorem assign_none {g : DCfg} {s p : Proc} {t : BitVec 64} {n : Nat} {oom : Bool}
    (h : s.step g.proc (.assign t n oom) = (p, .err .noExecutorAllocated)) :
    p = s ∧ s.cache n = none ∧ n < 12 := by
  unfold Proc.step at h
  dsimp only at h
  unfold Proc.getExecutor at h
  cases hi : execIndex g.proc n (midFromGtid t).toNat with
  | none => rw [hi] at h; cases h
  | some i =>
    obtain ⟨hn, rfl⟩ := execIndex_plain g _ _ _ hi
    rw [hi] at h
    dsimp only at h
    cases hc : s.cache i with
    | none => rw [hc] at h; cases h; exact ⟨rfl, rfl, hn⟩
    | some l =>
      cases l with
      | nil => rw [hc] at h; cases h
      | cons e' rest =>
        rw [hc] at h
        dsimp only at h
        cases oom <;> cases h

theorem assign_of_cache (g : DCfg) (s : Proc) (t : BitVec 64) (n : Nat) (e : Executor) (rest : List Executor)
    (hn : n < 12) (hc : s.cache n = some (e :: rest)) :
    ∃ p, s.step g.proc (.assign t n false) = (p, .ok (.executor e)) := by
  unfold Proc.step
  dsimp only
  unfold Proc.getExecutor
  have hi : execIndex g.proc n (midFromGtid t).toNat = some n := by
    unfold execIndex DCfg.proc
    simp only [Bool.false_eq_true, if_false]
    exact if_pos hn
  rw [hi]
  dsimp only
  rw [hc]
  dsimp only
  exact ⟨_, rfl⟩

theorem assign_of_none (g : DCfg) (s : Proc) (t : BitVec 64) (n : Nat) (oom : Bool)
    (hn : n < 12) (hc : s.cache n = none) :
    s.step g.proc (.assign t n oom) = (s, .err .noExecutorAllocated) := by
  unfold Proc.step
  dsimp only
  unfold Proc.getExecutor
  have hi : execIndex g.proc n (midFromGtid t).toNat = some n := by
    unfold execIndex DCfg.proc
    simp only [Bool.false_eq_true, if_false]
    exact if_pos hn
  rw [hi]
  dsimp only
  rw [hc]

theorem assign_of_nil (g : DCfg) (s : Proc) (t : BitVec 64) (n : Nat) (oom : Bool)
    (hn : n < 12) (hc : s.cache n = some []) :
    s.step g.proc (.assign t n oom) = (s, .err .executorCacheExhausted) := by
  unfold Proc.step
  dsimp only
  unfold Proc.getExecutor
  have hi : execIndex g.proc n (midFromGtid t).toNat = some n := by
    unfold execIndex DCfg.proc
    simp only [Bool.false_eq_true, if_false]
    exact if_pos hn
  rw [hi]
  dsimp only
  rw [hc]

theorem makeExecs_rest (c : Cfg) (aff mid : Nat) (ooms : Nat → Bool) (i : Nat)
    (hi : execIndex c aff mid = some i) : ∀ n s pa va,
    (∀ j, j ≠ i → (makeExecs c aff mid n ooms s pa va).1.cache j = s.cache j) ∧
    ((s.cache i).isSome ∨ (makeExecs c aff mid n ooms s pa va).2 = .ok () ∧ 0 < n →
      ((makeExecs c aff mid n ooms s pa va).1.cache i).isSome) := by
  intro n
  induction n with
  | zero =>
    intro s pa va
    refine ⟨fun j _ => rfl, ?_⟩
    rintro (h | ⟨_, h⟩)
    · exact h
    · omega
  | succ n ih =>
    intro s pa va
    unfold makeExecs
    split
    · refine ⟨fun j _ => rfl, ?_⟩
      rintro (h | ⟨h, _⟩)
      · exact h
      · cases h
    · rw [hi]
      dsimp only
      obtain ⟨h1, h2⟩ := ih { s with cache := pushExec s.cache i (Executor.new s.curEid pa va aff), curEid := s.curEid + 1 } (pa + EXEC_SPACE) (va + EXEC_SPACE)
      refine ⟨?_, fun _ => h2 (Or.inl ?_)⟩
      · intro j hj
        rw [h1 j hj]
        exact upd_other _ _ hj
      · show (upd s.cache i _ i).isSome = true
        rw [upd_same]
        rfl

/-- Making executors. -/
theorem make_ok {g : DCfg} {s p : Proc} {base n k : Nat}
    (h : s.step g.proc (.dispatchers ⟨base, EXEC_PAGE, n⟩ 0 false (fun _ => false)) =
      (p, .ok (.executorsCreated k))) :
    k = 10 ∧ n < 12 ∧ (∀ j, j ≠ n → p.cache j = s.cache j) ∧ (p.cache n).isSome ∧
    ((p.cache n).getD []).length = ((s.cache n).getD []).length + 10 := by
  unfold Proc.step at h
  dsimp only at h
  cases hq : s.allocateExecutors g.proc false (fun _ => false) ⟨base, EXEC_PAGE, n⟩ 0 with
  | mk s2 o2 =>
    rw [hq] at h
    have ten : EXEC_PAGE / EXEC_SPACE = 10 := rfl
    cases o2 with
    | err e => cases h
    | panic => cases h
    | ok k' =>
      cases h
      obtain ⟨vs', e1, _, e3⟩ := allocateExecutors_from _ _ _ s _ _ 0 _ hq (by simp)
      rcases e3 with ⟨q1, q2, _⟩ | ⟨e, _, q2, _⟩
      · dsimp only at e1 q1 q2
        cases q2
        rw [ten] at e1 q1
        have hidx : execIndex g.proc n 0 ≠ none := by
          intro hn
          unfold makeExecs at q1
          rw [hn] at q1
          cases q1
        cases hi : execIndex g.proc n 0 with
        | none => exact absurd hi hidx
        | some i =>
          obtain ⟨hn, rfl⟩ := execIndex_plain g _ _ _ hi
          obtain ⟨r1, r2⟩ := makeExecs_rest g.proc i 0 (fun _ => false) i hi 10 { s with vs := vs' } base
            s.execOff
          have r3 := makeExecs_count g.proc i 0 (fun _ => false) 10 { s with vs := vs' } base
            s.execOff i hi q1
          rw [e1]
          exact ⟨ten, hn, r1, r2 (Or.inr ⟨q1, by omega⟩), r3⟩
      · cases q2

/-! ## The table of cores -/

theorem allocPid_spec (oom : Bool) (s : Node) : ∀ n i s' o, allocPidFrom oom s i n = (s', o) →
    s'.sched = s.sched ∧ ∀ pid, o = .ok (.pidAllocated pid) → s.procs pid = false := by
  intro n
  induction n with
  | zero => intro i s' o h; cases h; exact ⟨rfl, fun _ h => by cases h⟩
  | succ n ih =>
    intro i s' o h
    unfold allocPidFrom at h
    split at h
    · rename_i hp
      split at h
      · cases h; exact ⟨rfl, fun _ h => by cases h⟩
      · cases h
        refine ⟨rfl, ?_⟩
        intro pid h
        cases h
        exact hp
    · exact ih _ _ _ h

theorem allocCore_spec {oom : Bool} {s s' : Node} {pid t entry : Nat} {o : Outcome NodeResult}
    (h : s.step false oom (.allocCore pid (some t) entry) = (s', o)) :
    (s' = s ∧ ∀ r, o ≠ .ok r) ∨
    ((∃ r, o = .ok r) ∧ s.sched t = none ∧ s'.sched = upd s.sched t (some ⟨pid, entry⟩) ∧ t < 192) := by
  unfold Node.step at h
  dsimp only at h
  split at h
  · cases h; exact Or.inl ⟨rfl, fun _ => by simp⟩
  · rename_i hlt
    cases hs : s.sched t with
    | some x => rw [hs] at h; cases h; exact Or.inl ⟨rfl, fun _ => by simp⟩
    | none =>
      rw [hs] at h
      dsimp only at h
      split at h
      · cases h; exact Or.inl ⟨rfl, fun _ => by simp⟩
      · cases h
        refine Or.inr ⟨⟨_, rfl⟩, rfl, rfl, ?_⟩
        have : MAX_CORES = 192 := rfl
        have := Classical.byContradiction fun hn => hlt ⟨rfl, fun q => hn q⟩
        omega

theorem releaseCore_spec {oom : Bool} {s s' : Node} {pid t : Nat} {o : Outcome NodeResult}
    (h : s.step false oom (.releaseCore pid t) = (s', o)) :
    s' = s ∨ s'.sched = upd s.sched t none := by
  unfold Node.step at h
  dsimp only at h
  split at h
  · cases h; exact Or.inl rfl
  · split at h
    · split at h
      · cases h; exact Or.inr rfl
      · cases h; exact Or.inl rfl
    · cases h; exact Or.inl rfl

/-! ## The actions -/

/-- What an action does, if it does not stop the kernel. -/
inductive Move (g : DCfg) (s : Sys) (a : Act) (o : Outcome Unit) : Sys → Prop where
  /-- The table of cores may change: entries disappear, or the action grants one. -/
  | node (n : Node) (hn : ∀ c ci, n.sched c = some ci → s.node.sched c = some ci ∨
      Grants (s, a, o) c ci.pid ci.entry) : Move g s a o { s with node := n }
  /-- A core goes on in the kernel. -/
  | goto (c : Nat) (w : Where) (hu : (s.cores c).at_ ≠ .user ∧ (s.cores c).at_ ≠ .gc) (hw : w ≠ .user)
      (hi : w = .sched ∨ w = .idle ∨ w = .gc ∨
        (∃ ci, w = .found ci ∧ s.node.sched c = some ci) ∨
        (∃ ci, w = .alloc ci 0 ∧ (s.cores c).at_ = .found ci) ∨
        (∃ ci k, w = .retry ci ∧ (s.cores c).at_ = .alloc ci k ∧ g.threads (g.nodeOf c) ≤ k ∧ c < g.ncores)) :
      (hna : ∀ ci k, (s.cores c).at_ = .alloc ci k → g.threads (g.nodeOf c) ≤ k) →
      Move g s a o (s.goto c w)
  /-- A core made executors. -/
  | made (c : Nat) (ci : CoreInfo) (k base : Nat) (p : Proc) (hc : c < g.ncores)
      (ha : (s.cores c).at_ = .alloc ci k)
      (hp : (s.procs ci.pid).step g.proc (.dispatchers ⟨base, EXEC_PAGE, g.nodeOf c⟩ 0 false (fun _ => false)) =
        (p, .ok (.executorsCreated 10))) :
      Move g s a o ({ s with procs := upd s.procs ci.pid p }.goto c (.alloc ci (k + 10)))
  /-- A core got an executor and entered user mode. -/
  | took (c : Nat) (ci : CoreInfo) (e : Executor) (p : Proc) (oom : Bool) (hc : c < g.ncores)
      (ha : (s.cores c).at_ = .found ci ∨ (s.cores c).at_ = .retry ci) (hn : (s.cores c).cur = none)
      (he : e.affinity = g.nodeOf c)
      (hp : (s.procs ci.pid).step g.proc (.assign (BitVec.ofNat 64 c) (g.nodeOf c) oom) =
        (p, .ok (.executor e))) :
      Move g s a o ({ s with procs := upd s.procs ci.pid p }.setCore c
        ⟨.user, some (ci.pid, e), g.root ci.pid (g.nodeOf c), some (e.launch (g.elf ci.pid) ci.entry c)⟩)
  /-- Another operation on a process. -/
  | other (pid : Nat) (op : ProcOp) (p : Proc) (r : Outcome ProcResult) (ho : op.IsOther = true)
      (hr : r ≠ .panic) (hp : (s.procs pid).step g.proc op = (p, r)) :
      Move g s a o { s with procs := upd s.procs pid p }

theorem Move.same (g : DCfg) (s : Sys) (a : Act) (o : Outcome Unit) : Move g s a o s :=
  Move.node (s := s) s.node fun _ _ h => Or.inl h

theorem map_panic {α β : Type} {f : α → β} {o : Outcome α} (h : o.map f ≠ .panic) : o ≠ .panic := by
  intro e; rw [e] at h; exact h rfl

theorem run_move {g : DCfg} {s s' : Sys} {a : Act} {o : Outcome Unit} {c : Nat} {ci : CoreInfo}
    {e : Executor} {p : Proc} {oom : Bool} (hc : c < g.ncores)
    (ha : (s.cores c).at_ = .found ci ∨ (s.cores c).at_ = .retry ci)
    (hp : (s.procs ci.pid).step g.proc (.assign (BitVec.ofNat 64 c) (g.nodeOf c) oom) =
        (p, .ok (.executor e)))
    (h : Sys.run g { s with procs := upd s.procs ci.pid p } c ci e = (s', o)) (ho : o ≠ .panic) :
    Move g s a o s' := by
  unfold Sys.run at h
  split at h
  · cases h; exact absurd rfl ho
  · rename_i h1
    split at h
    · cases h; exact absurd rfl ho
    · rename_i h2
      cases h
      refine Move.took c ci e p oom hc ha ?_ (Classical.byContradiction fun q => h2 fun r => q r.symm) hp
      cases hq : (s.cores c).cur with
      | none => rfl
      | some x => exact absurd (by show (s.cores c).cur.isSome = true; rw [hq]; rfl) h1

theorem assign_move {g : DCfg} {s s' : Sys} {a : Act} {o : Outcome Unit} {c : Nat} {ci : CoreInfo}
    {oom first : Bool} (hc : c < g.ncores)
    (ha : (s.cores c).at_ = (if first then .found ci else .retry ci))
    (h : s.assign g c ci oom first = (s', o)) (ho : o ≠ .panic) : Move g s a o s' := by
  unfold Sys.assign at h
  cases hp : (s.procs ci.pid).step g.proc (.assign (BitVec.ofNat 64 c) (g.nodeOf c) oom) with
  | mk p r =>
    rw [hp] at h
    cases r with
    | panic => cases h; exact absurd rfl ho
    | ok x =>
      cases x with
      | executor e =>
        have hat : (s.cores c).at_ = .found ci ∨ (s.cores c).at_ = .retry ci := by
          cases first
          · exact Or.inr ha
          · exact Or.inl ha
        exact run_move hc hat hp h ho
      | _ => cases h; exact absurd rfl ho
    | err er =>
      cases er with
      | noExecutorAllocated =>
        dsimp only at h
        cases first with
        | false => cases h; exact absurd rfl ho
        | true =>
          cases h
          rw [if_pos rfl] at ha
          obtain ⟨rfl, _, _⟩ := assign_none hp
          rw [upd_self]
          refine Move.goto (s := s) c _ (by rw [ha]; simp) (by simp) ?_ ?_
          · exact Or.inr (Or.inr (Or.inr (Or.inr (Or.inl ⟨ci, rfl, ha⟩))))
          · intro ci' k hk; rw [ha] at hk; cases hk
      | _ => cases h; exact absurd rfl ho

theorem makeMore_move {g : DCfg} {s s' : Sys} {a : Act} {o : Outcome Unit} {c k : Nat} {ci : CoreInfo}
    {mem : Option Nat} (hc : c < g.ncores) (ha : (s.cores c).at_ = .alloc ci k)
    (h : s.makeMore g c ci k mem = (s', o)) (ho : o ≠ .panic) : Move g s a o s' := by
  unfold Sys.makeMore at h
  split at h
  · cases mem with
    | none => cases h; exact absurd rfl ho
    | some base =>
      dsimp only at h
      cases hp : (s.procs ci.pid).step g.proc
          (.dispatchers ⟨base, EXEC_PAGE, g.nodeOf c⟩ 0 false (fun _ => false)) with
      | mk p r =>
        rw [hp] at h
        cases r with
        | panic => cases h; exact absurd rfl ho
        | err er => cases h; exact absurd rfl ho
        | ok x =>
          cases x with
          | executorsCreated n =>
            cases h
            obtain ⟨rfl, _⟩ := make_ok hp
            exact Move.made c ci k base p hc ha hp
          | _ => cases h; exact absurd rfl ho
  · rename_i hk
    cases h
    refine Move.goto c _ (by rw [ha]; simp) (by simp) ?_ ?_
    · exact Or.inr (Or.inr (Or.inr (Or.inr (Or.inr ⟨ci, k, rfl, ha, by omega, hc⟩))))
    · intro ci' k' hk'; rw [ha] at hk'; cases hk'; omega

/-- Every action is one of the moves. -/
theorem act_move {g : DCfg} {s s' : Sys} {a : Act} {o : Outcome Unit}
    (h : s.act g a = (s', o)) (ho : o ≠ .panic) : Move g s a o s' := by
  cases a with
  | step c mem oom =>
    unfold Sys.act at h
    dsimp only at h
    split at h
    · rename_i hc
      unfold Sys.coreStep at h
      cases hat : (s.cores c).at_ with
      | sched =>
        rw [hat] at h
        dsimp only at h
        unfold Node.current at h
        cases hs : s.node.sched c with
        | some ci =>
          rw [hs] at h
          cases h
          refine Move.goto c _ (by rw [hat]; simp) (by simp) ?_ ?_
          · exact Or.inr (Or.inr (Or.inr (Or.inl ⟨ci, rfl, hs⟩)))
          · intro ci' k' hk'; rw [hat] at hk'; cases hk'
        | none =>
          rw [hs] at h
          dsimp only at h
          split at h
          · cases h; exact Move.same ..
          · cases h
            refine Move.goto c _ (by rw [hat]; simp) (by simp) (Or.inr (Or.inl rfl)) ?_
            intro ci' k' hk'; rw [hat] at hk'; cases hk'
      | found ci => rw [hat] at h; exact assign_move (first := true) hc hat h ho
      | alloc ci k => rw [hat] at h; exact makeMore_move hc hat h ho
      | retry ci => rw [hat] at h; exact assign_move (first := false) hc hat h ho
      | idle => rw [hat] at h; cases h; exact Move.same ..
      | user => rw [hat] at h; cases h; exact Move.same ..
      | gc => rw [hat] at h; cases h; exact Move.same ..
    · cases h; exact Move.same ..
  | tick c =>
    unfold Sys.act Sys.tick at h
    dsimp only at h
    cases hat : (s.cores c).at_ with
    | idle =>
      rw [hat] at h
      dsimp only at h
      split at h
      · cases h; exact Move.same ..
      · cases h
        refine Move.goto c _ (by rw [hat]; simp) (by simp) (Or.inl rfl) ?_
        intro ci' k' hk'; rw [hat] at hk'; cases hk'
    | _ => rw [hat] at h; cases h; exact Move.same ..
  | gcInit c =>
    unfold Sys.act Sys.gcInit at h
    dsimp only at h
    cases hat : (s.cores c).at_ with
    | idle =>
      rw [hat] at h
      dsimp only at h
      split at h
      · cases h; exact Move.same ..
      · cases h
        refine Move.goto c _ (by rw [hat]; simp) (by simp) (Or.inr (Or.inr (Or.inl rfl))) ?_
        intro ci' k' hk'; rw [hat] at hk'; cases hk'
    | _ => rw [hat] at h; cases h; exact Move.same ..
  | request c t entry oom =>
    unfold Sys.act Sys.sysCore at h
    dsimp only at h
    cases hat : (s.cores c).at_ with
    | user =>
      rw [hat] at h
      dsimp only at h
      split at h
      · cases hcur : (s.cores c).cur with
        | none => rw [hcur] at h; cases h; exact Move.same ..
        | some x =>
          obtain ⟨pid, e⟩ := x
          rw [hcur] at h
          dsimp only at h
          cases hn : s.node.step false oom (.allocCore pid (some t.toNat) entry) with
          | mk n r =>
            rw [hn] at h
            cases h
            refine Move.node n ?_
            intro c' ci hci
            rcases allocCore_spec hn with ⟨rfl, _⟩ | ⟨⟨r', rfl⟩, _, hsch, _⟩
            · exact Or.inl hci
            · rw [hsch, upd_apply] at hci
              split at hci
              · rename_i ec
                cases hci
                exact Or.inr ⟨rfl, Or.inl ⟨c, t, oom, e, rfl, ec.symm, hat, hcur⟩⟩
              · exact Or.inl hci
      · cases h; exact Move.same ..
    | _ => rw [hat] at h; cases h; exact Move.same ..
  | release c t =>
    unfold Sys.act Sys.sysCore at h
    dsimp only at h
    cases hat : (s.cores c).at_ with
    | user =>
      rw [hat] at h
      dsimp only at h
      split at h
      · cases hcur : (s.cores c).cur with
        | none => rw [hcur] at h; cases h; exact Move.same ..
        | some x =>
          obtain ⟨pid, e⟩ := x
          rw [hcur] at h
          dsimp only at h
          cases hn : s.node.step false false (.releaseCore pid t.toNat) with
          | mk n r =>
            rw [hn] at h
            cases h
            refine Move.node n ?_
            intro c' ci hci
            rcases releaseCore_spec hn with rfl | hsch
            · exact Or.inl hci
            · rw [hsch, upd_apply] at hci
              split at hci
              · cases hci
              · exact Or.inl hci
      · cases h; exact Move.same ..
    | _ => rw [hat] at h; cases h; exact Move.same ..
  | spawn c oom oom' =>
    unfold Sys.act at h
    dsimp only at h
    split at h
    · unfold Sys.spawn at h
      cases hat : (s.cores c).at_ with
      | sched =>
        rw [hat] at h
        dsimp only at h
        cases hp : s.node.step false oom .allocatePid with
        | mk n r =>
          rw [hp] at h
          obtain ⟨k1, k2⟩ := allocPid_spec oom s.node _ _ _ _ hp
          have same : ∀ o', Move g s (.spawn c oom oom') o' { s with node := n } := fun o' =>
            Move.node n fun c' ci hci => Or.inl (by rw [← k1]; exact hci)
          cases r with
          | panic => cases h; exact same _
          | err er => cases h; exact same _
          | ok x =>
            cases x with
            | pidAllocated pid =>
              dsimp only at h
              cases hn : n.step false oom' (.allocCore pid (some c) INVALID_START) with
              | mk n2 r2 =>
                rw [hn] at h
                cases h
                refine Move.node n2 ?_
                intro c' ci hci
                rcases allocCore_spec hn with ⟨rfl, _⟩ | ⟨⟨r', rfl⟩, _, hsch, _⟩
                · exact Or.inl (by rw [← k1]; exact hci)
                · rw [hsch, upd_apply] at hci
                  split at hci
                  · rename_i ec
                    cases hci
                    exact Or.inr ⟨rfl, Or.inr ⟨oom, oom', by rw [ec], rfl, k2 pid rfl⟩⟩
                  · exact Or.inl (by rw [← k1]; exact hci)
            | _ => cases h; exact same _
      | _ => rw [hat] at h; cases h; exact Move.same ..
    · cases h; exact Move.same ..
  | other pid op =>
    unfold Sys.act at h
    dsimp only at h
    split at h
    · rename_i hop
      cases hp : (s.procs pid).step g.proc op with
      | mk p r =>
        rw [hp] at h
        cases h
        exact Move.other pid op p r hop (map_panic ho) hp
    · cases h; exact Move.same ..

end NRK.Proc
