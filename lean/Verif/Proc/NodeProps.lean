import Verif.Proc.NodeModel

/-!
# Properties of process ids and core assignment (C35, C36, C37)
-/

namespace NRK.Proc

/-! ## Specification: what a history says, without looking at any state -/

/-- A history: operations with their results, latest first. -/
abbrev Hist := List (NodeOp × Outcome NodeResult)

/-- The pid is in use: of its allocations and frees that succeeded, the latest is an allocation. -/
def Live : Hist → Nat → Prop
  | [], _ => False
  | (.allocatePid, .ok (.pidAllocated p)) :: h, q => q = p ∨ Live h q
  | (.freePid p, .ok .pidReturned) :: h, q => q ≠ p ∧ Live h q
  | _ :: h, q => Live h q

/-- What a core was last assigned to, none if it has been released since (or never assigned). -/
def Owner : Hist → Nat → Option CoreInfo
  | [], _ => none
  | (.allocCore p _ e, .ok (.coreAllocated g)) :: h, c => if c = g then some ⟨p, e⟩ else Owner h c
  | (.releaseCore _ g, .ok .coreReleased) :: h, c => if c = g then none else Owner h c
  | _ :: h, c => Owner h c

/-! ## Helper lemmas -/

theorem allocPidFrom_spec (oom : Bool) (s : Node) : ∀ n i,
    (∃ p, i ≤ p ∧ p < i + n ∧ s.procs p = false ∧ (∀ q, i ≤ q → q < p → s.procs q = true) ∧
      allocPidFrom oom s i n = if oom then (s, .err .outOfMemory)
        else ({ s with procs := upd s.procs p true }, .ok (.pidAllocated p))) ∨
    ((∀ q, i ≤ q → q < i + n → s.procs q = true) ∧ allocPidFrom oom s i n = (s, .err .outOfPids)) := by
  intro n
  induction n with
  | zero => intro i; exact Or.inr ⟨fun q h1 h2 => by omega, rfl⟩
  | succ n ih =>
    intro i
    unfold allocPidFrom
    by_cases h : s.procs i = false
    · rw [if_pos h]
      exact Or.inl ⟨i, by omega, by omega, h, fun q h1 h2 => by omega, rfl⟩
    · rw [if_neg h]
      have ht : s.procs i = true := by simpa using h
      rcases ih (i + 1) with ⟨p, h1, h2, h3, h4, h5⟩ | ⟨h1, h2⟩
      · refine Or.inl ⟨p, by omega, by omega, h3, ?_, h5⟩
        intro q hq1 hq2
        by_cases e : q = i
        · rw [e]; exact ht
        · exact h4 q (by omega) hq2
      · refine Or.inr ⟨?_, h2⟩
        intro q hq1 hq2
        by_cases e : q = i
        · rw [e]; exact ht
        · exact h1 q (by omega) (by omega)

/-- The state is what the history says. -/
theorem run_hist {rack : Bool} {h : Hist} {s : Node} (r : Node.Run rack h s) :
    (∀ p, s.procs p = true ↔ Live h p) ∧ (∀ g, s.sched g = Owner h g) ∧
      ∀ p, s.procs p = true → p < MAX_PROCESSES := by
  induction r with
  | new => exact ⟨fun p => by simp [Node.new, Live], fun g => rfl, fun p hp => by simp [Node.new] at hp⟩
  | @step h s s' o oom op r hs ho ih =>
    obtain ⟨i1, i2, i3⟩ := ih
    cases op with
    | allocatePid =>
      rcases allocPidFrom_spec oom s MAX_PROCESSES 0 with ⟨p, h1, h2, h3, h4, h5⟩ | ⟨h1, h2⟩
      · unfold Node.step at hs
        rw [h5] at hs
        cases oom
        · rw [if_neg (by decide)] at hs
          cases hs
          refine ⟨fun q => ?_, i2, fun q hq => ?_⟩
          · simp only [Live, upd_apply]
            split
            · rename_i e; simp [e]
            · rename_i e; simp [e, i1]
          · simp only [upd_apply] at hq
            split at hq
            · omega
            · exact i3 q hq
        · rw [if_pos rfl] at hs
          cases hs
          exact ⟨i1, i2, i3⟩
      · unfold Node.step at hs
        rw [h2] at hs
        cases hs
        exact ⟨i1, i2, i3⟩
    | freePid pid =>
      unfold Node.step at hs
      dsimp only at hs
      split at hs
      · cases hs
        refine ⟨fun q => ?_, i2, fun q hq => ?_⟩
        · simp only [Live, upd_apply]
          split
          · rename_i e; simp [e]
          · rename_i e; simp [e, i1]
        · simp only [upd_apply] at hq
          split at hq
          · cases hq
          · exact i3 q hq
      · cases hs
        exact ⟨i1, i2, i3⟩
    | allocCore pid g entry =>
      cases g with
      | none => unfold Node.step at hs; cases hs; exact absurd rfl ho
      | some g =>
        unfold Node.step at hs
        dsimp only at hs
        split at hs
        · cases hs; exact absurd rfl ho
        · split at hs
          · cases hs; exact ⟨i1, i2, i3⟩
          · split at hs
            · cases hs; exact ⟨i1, i2, i3⟩
            · cases hs
              refine ⟨i1, fun c => ?_, i3⟩
              simp only [Owner, upd_apply, i2]
    | releaseCore pid g =>
      unfold Node.step at hs
      dsimp only at hs
      split at hs
      · cases hs; exact absurd rfl ho
      · split at hs
        · split at hs
          · cases hs
            refine ⟨i1, fun c => ?_, i3⟩
            simp only [Owner, upd_apply, i2]
          · cases hs; exact ⟨i1, i2, i3⟩
        · cases hs; exact ⟨i1, i2, i3⟩

/-! ## C35: process ids -/

/-- **C35** Creating a process, after any history: if some pid below the limit is not in use, it gives
the smallest one (or reports that there is no memory); otherwise it fails. -/
theorem c35_allocate {rack : Bool} {h : Hist} {s : Node} (r : Node.Run rack h s) (oom : Bool) :
    (∃ p, p < 12 ∧ ¬ Live h p ∧ (∀ q, q < p → Live h q) ∧
      (s.step rack oom .allocatePid).2 = if oom then .err .outOfMemory else .ok (.pidAllocated p)) ∨
    ((∀ q, q < 12 → Live h q) ∧ (s.step rack oom .allocatePid).2 = .err .outOfPids) := by
  obtain ⟨i1, _, _⟩ := run_hist r
  rcases allocPidFrom_spec oom s MAX_PROCESSES 0 with ⟨p, h1, h2, h3, h4, h5⟩ | ⟨h1, h2⟩
  · left
    refine ⟨p, by simpa [MAX_PROCESSES] using h2, ?_, fun q hq => (i1 q).1 (h4 q (by omega) hq), ?_⟩
    · rw [← i1 p, h3]; decide
    · show (allocPidFrom oom s 0 MAX_PROCESSES).2 = _
      rw [h5]; cases oom <;> rfl
  · right
    refine ⟨fun q hq => (i1 q).1 (h1 q (by omega) (by simpa [MAX_PROCESSES] using hq)), ?_⟩
    show (allocPidFrom oom s 0 MAX_PROCESSES).2 = _
    rw [h2]

/-- **C35** Freeing a pid succeeds exactly if it is in use. -/
theorem c35_free {rack : Bool} {h : Hist} {s : Node} (r : Node.Run rack h s) (oom : Bool) (p : Nat) :
    (Live h p → (s.step rack oom (.freePid p)).2 = .ok .pidReturned) ∧
    (¬ Live h p → (s.step rack oom (.freePid p)).2 = .err .noProcessFoundForPid) := by
  obtain ⟨i1, _, _⟩ := run_hist r
  unfold Node.step
  constructor
  · intro hl
    dsimp only
    rw [if_pos ((i1 p).2 hl)]
  · intro hl
    dsimp only
    rw [if_neg (fun e => hl ((i1 p).1 e))]

/-- **C35** A pid that is handed out is not in use, whatever has happened before; in particular it is
handed out a second time only after it was freed. -/
theorem c35_unique {rack : Bool} {s : Node} (a b : Hist) (p : Nat)
    (r : Node.Run rack (a ++ (.allocatePid, .ok (.pidAllocated p)) :: b) s) : ¬ Live b p := by
  induction a generalizing s with
  | nil =>
    cases r with
    | step oom op r hs ho =>
      intro hl
      rcases c35_allocate r oom with ⟨q, h1, h2, h3, h4⟩ | ⟨h1, h2⟩
      · rw [hs] at h4
        cases oom
        · cases h4; exact h2 hl
        · cases h4
      · rw [hs] at h2; cases h2
  | cons x a ih =>
    cases r with
    | step oom op r hs ho => exact ih r

/-! ## C36: core assignment -/

/-- **C36** Asking for a core, after any history: granted exactly if the core is not assigned (unless
there is no memory for the table entry). -/
theorem c36_allocate {rack : Bool} {h : Hist} {s : Node} (r : Node.Run rack h s) (oom : Bool)
    (pid g entry : Nat) (hg : rack = true ∨ g < 192) :
    (Owner h g = none → (s.step rack oom (.allocCore pid (some g) entry)).2 =
      if oom then .err .outOfMemory else .ok (.coreAllocated g)) ∧
    (Owner h g ≠ none → (s.step rack oom (.allocCore pid (some g) entry)).2 =
      .err .coreAlreadyAllocated) := by
  obtain ⟨_, i2, _⟩ := run_hist r
  unfold Node.step
  dsimp only
  rw [if_neg (by rcases hg with e | e <;> simp [e, MAX_CORES]), i2]
  cases hO : Owner h g with
  | none => exact ⟨fun _ => by cases oom <;> rfl, fun e => absurd rfl e⟩
  | some c => exact ⟨fun e => (by cases e), fun _ => rfl⟩

/-- **C36** Giving a core back, after any history: granted exactly if the core is assigned to the
process that asks. -/
theorem c36_release {rack : Bool} {h : Hist} {s : Node} (r : Node.Run rack h s) (oom : Bool)
    (pid g : Nat) (hg : rack = true ∨ g < 192) :
    (s.step rack oom (.releaseCore pid g)).2 =
      match Owner h g with
      | none => .err .coreNotAllocated
      | some c => if c.pid = pid then .ok .coreReleased else .err .coreAllocatedToDifferentProcess := by
  obtain ⟨_, i2, _⟩ := run_hist r
  unfold Node.step
  dsimp only
  rw [if_neg (by rcases hg with e | e <;> simp [e, MAX_CORES]), i2]
  cases Owner h g with
  | none => rfl
  | some c => dsimp only; split <;> rfl

/-- **C36** The query for a core tells what it was last assigned to. -/
theorem c36_query {rack : Bool} {h : Hist} {s : Node} (r : Node.Run rack h s) (g : Nat) :
    s.current g = match Owner h g with
      | some c => .ok (.coreInfo c)
      | none => .err .noExecutorForCore := by
  obtain ⟨_, i2, _⟩ := run_hist r
  unfold Node.current
  rw [i2]
  cases Owner h g <;> rfl

/-- **C36** A request that fails changes nothing, in any state. -/
theorem c36_failure_changes_nothing (rack oom : Bool) (s s' : Node) (op : NodeOp) (e : KError)
    (h : s.step rack oom op = (s', .err e)) : s' = s := by
  cases op with
  | allocatePid =>
    rcases allocPidFrom_spec oom s MAX_PROCESSES 0 with ⟨p, _, _, _, _, h5⟩ | ⟨_, h2⟩
    · unfold Node.step at h; rw [h5] at h
      cases oom
      · cases h
      · cases h; rfl
    · unfold Node.step at h; rw [h2] at h; cases h; rfl
  | freePid pid => unfold Node.step at h; dsimp only at h; split at h <;> cases h; rfl
  | allocCore pid g entry =>
    cases g with
    | none => cases h
    | some g =>
      unfold Node.step at h
      dsimp only at h
      split at h
      · cases h
      · split at h
        · cases h; rfl
        · split at h <;> cases h; rfl
  | releaseCore pid g =>
    unfold Node.step at h
    dsimp only at h
    split at h
    · cases h
    · split at h
      · split at h <;> cases h; rfl
      · cases h; rfl

/-- Between a grant of core `g` to `p1` and now there was no release by `p1` and no other grant, so the
core is still `p1`'s. -/
theorem owner_kept {rack : Bool} (g p1 e1 : Nat) (c : Hist) : ∀ (b : Hist) (s : Node),
    Node.Run rack (b ++ (.allocCore p1 (some g) e1, .ok (.coreAllocated g)) :: c) s →
    (.releaseCore p1 g, .ok .coreReleased) ∉ b →
    Owner (b ++ (.allocCore p1 (some g) e1, .ok (.coreAllocated g)) :: c) g = some ⟨p1, e1⟩ := by
  intro b
  induction b with
  | nil => intro s _ _; simp [Owner]
  | cons x b ih =>
    intro s r hn
    cases r with
    | @step _ s0 _ o oom op r hs ho =>
      change Node.Run rack (b ++ _ :: c) s0 at r
      have hb := ih _ r (fun hm => hn (List.mem_cons_of_mem _ hm))
      have hr := run_hist r
      have hx : Owner ((op, o) :: (b ++ (.allocCore p1 (some g) e1, .ok (.coreAllocated g)) :: c)) g =
          Owner (b ++ (.allocCore p1 (some g) e1, .ok (.coreAllocated g)) :: c) g := by
        have e2 := (run_hist (Node.Run.step oom op r hs ho)).2.1 g
        rw [← e2, ← hr.2.1 g]
        have hsg : s0.sched g = some ⟨p1, e1⟩ := by rw [hr.2.1 g]; exact hb
        cases op with
        | allocatePid =>
          rcases allocPidFrom_spec oom s0 MAX_PROCESSES 0 with ⟨p, _, _, _, _, h5⟩ | ⟨_, h2⟩
          · unfold Node.step at hs; rw [h5] at hs
            cases oom <;> cases hs <;> rfl
          · unfold Node.step at hs; rw [h2] at hs; cases hs; rfl
        | freePid pid => unfold Node.step at hs; dsimp only at hs; split at hs <;> cases hs <;> rfl
        | allocCore pid g' entry =>
          cases g' with
          | none => cases hs; exact absurd rfl ho
          | some g' =>
            unfold Node.step at hs
            dsimp only at hs
            split at hs
            · cases hs; rfl
            · split at hs
              · cases hs; rfl
              · rename_i hnone
                split at hs
                · cases hs; rfl
                · cases hs
                  refine upd_other _ _ (fun e => ?_)
                  rw [e, hnone] at hsg
                  cases hsg
        | releaseCore pid g' =>
          unfold Node.step at hs
          dsimp only at hs
          split at hs
          · cases hs; rfl
          · split at hs
            · rename_i ci hci
              split at hs
              · rename_i hp
                cases hs
                refine upd_other _ _ (fun e => ?_)
                subst e
                rw [hci] at hsg
                cases hsg
                cases hp
                exact hn (by simp)
              · cases hs; rfl
            · cases hs; rfl
      rw [List.cons_append, hx, hb]

/-- **C36** One process at a time: if core `g` was granted to `p1` and later to `p2`, then in between
`p1` gave it back. -/
theorem c36_exclusive {rack : Bool} {s : Node} (a b c : Hist) (g p1 e1 p2 e2 : Nat)
    (hr : Node.Run rack (a ++ (.allocCore p2 (some g) e2, .ok (.coreAllocated g)) ::
      (b ++ (.allocCore p1 (some g) e1, .ok (.coreAllocated g)) :: c)) s) :
    (.releaseCore p1 g, .ok .coreReleased) ∈ b := by
  induction a generalizing s with
  | nil =>
    cases hr with
    | @step _ s0 _ o oom op r hs ho =>
      by_cases hm : (.releaseCore p1 g, .ok .coreReleased) ∈ b
      · exact hm
      · have ho := owner_kept g p1 e1 c b s0 r hm
        have hsg := (run_hist r).2.1 g
        rw [ho] at hsg
        unfold Node.step at hs
        dsimp only at hs
        split at hs
        · cases hs
        · rw [hsg] at hs
          cases hs
  | cons x a ih =>
    cases hr with
    | step oom op r hs ho => exact ih r

/-! ## C37: terminated processes -/

/-- **C37** Witness that the property is false: freeing a pid keeps its cores, and the next process gets
the same pid and with it the core. -/
theorem c37_cores_survive :
    ∃ (h : Hist) (s : Node), Node.Run false h s ∧
      h = [(.allocatePid, .ok (.pidAllocated 0)), (.freePid 0, .ok .pidReturned),
        (.allocCore 0 (some 3) 4096, .ok (.coreAllocated 3)), (.allocatePid, .ok (.pidAllocated 0))] ∧
      s.current 3 = .ok (.coreInfo ⟨0, 4096⟩) := by
  refine ⟨_, _, .step false .allocatePid (.step false (.freePid 0) (.step false
    (.allocCore 0 (some 3) 4096) (.step false .allocatePid .new rfl ?_) rfl ?_) rfl ?_)
    rfl ?_, rfl, rfl⟩ <;> (intro e; cases e)

/-- **C37** Witness: a core can be assigned to a pid that no process has. -/
theorem c37_no_such_process :
    ∃ s : Node, Node.Run false [(.allocCore 7 (some 3) 4096, .ok (.coreAllocated 3))] s ∧
      ¬ Live [(.allocCore 7 (some 3) 4096, .ok (.coreAllocated 3))] 7 := by
  refine ⟨_, .step false _ .new rfl (fun e => by cases e), by simp [Live]⟩

/-- A history in which cores go to live processes only and a process has given back its cores when its
pid is freed. -/
def Orderly : Hist → Prop
  | [] => True
  | (op, o) :: h => Orderly h ∧
    match op, o with
    | .allocCore p _ _, .ok _ => Live h p
    | .freePid p, .ok _ => ∀ g c, Owner h g = some c → c.pid ≠ p
    | _, _ => True

theorem orderly_live (g : Nat) (c : CoreInfo) : ∀ h : Hist, Orderly h → Owner h g = some c →
    Live h c.pid := by
  intro h
  induction h with
  | nil => intro _ hc; cases hc
  | cons x h ih =>
    obtain ⟨op, o⟩ := x
    rintro ⟨ho, hx⟩ hc
    have ih := ih ho
    cases op with
    | allocatePid =>
      cases o with
      | ok a =>
        cases a with
        | pidAllocated p => exact Or.inr (ih hc)
        | _ => exact ih hc
      | _ => exact ih hc
    | freePid p =>
      cases o with
      | ok a =>
        have : Owner h g = some c := hc
        cases a with
        | pidReturned => exact ⟨hx g c this, ih this⟩
        | _ => exact ih hc
      | _ => exact ih hc
    | allocCore p gt e =>
      cases o with
      | ok a =>
        cases a with
        | coreAllocated g' =>
          simp only [Owner] at hc
          split at hc
          · cases hc; exact hx
          · exact ih hc
        | _ => exact ih hc
      | _ => exact ih hc
    | releaseCore p g' =>
      cases o with
      | ok a =>
        cases a with
        | coreReleased =>
          simp only [Owner] at hc
          split at hc
          · cases hc
          · exact ih hc
        | _ => exact ih hc
      | _ => exact ih hc

/-- **C37** Partial: what the kernel does not enforce has to be assumed, namely that cores go to live
processes and that a process gives its cores back before its pid is freed.  Then every process a query
reports for a core is live. -/
theorem c37_cores_live_partial {rack : Bool} {h : Hist} {s : Node} (r : Node.Run rack h s)
    (ho : Orderly h) (g : Nat) (c : CoreInfo) (hc : s.current g = .ok (.coreInfo c)) :
    Live h c.pid := by
  rw [c36_query r g] at hc
  cases hO : Owner h g with
  | none => rw [hO] at hc; cases hc
  | some c' => rw [hO] at hc; cases hc; exact orderly_live g c h ho hO

example : ∃ (h : Hist) (s : Node), Node.Run false h s ∧ h.length = 6 ∧ Live h 0 ∧ ¬ Live h 1 ∧
    Owner h 3 = some ⟨0, 8192⟩ ∧ Owner h 4 = none ∧ Orderly h := by
  refine ⟨_, _, .step false (.allocCore 0 (some 3) 8192) (.step false (.freePid 1)
    (.step false (.releaseCore 1 3) (.step false (.allocCore 1 (some 3) 4096)
      (.step false .allocatePid (.step false .allocatePid .new rfl ?_) rfl ?_) rfl ?_) rfl ?_) rfl ?_)
    rfl ?_, rfl, ?_, ?_, rfl, rfl, ?_⟩
  all_goals first
    | (intro e; cases e; done)
    | (simp [Live]; done)
    | skip
  simp [Orderly, Live, Owner]

end NRK.Proc
