import Verif.Fs.FsProps
import Verif.Nr.Multilog

/-!
# C14 and C15: several logs, and reads that are executed on one replica only
-/

namespace NRK.Fs

/-! ## The footprint of a write -/

/-- What a write does with the descriptor entry and the inode it refers to
(`fs/cnrfs.rs` lines 550-575, restated without the tables around them). -/
def writeCore (e : FdEntry) (m : Option MemNode) (data : List UInt8) (offset : Option Nat)
    (env : Env) : Outcome NodeResult × FdEntry × Option MemNode :=
  if !e.flags.write then (.err .permissionError, e, m) else
  let off : Outcome Nat := match offset with
    | some o => .ok o
    | none =>
      if e.flags.append then
        match m with
        | some .directory => .ok 0
        | some (.file f) => .ok f.getSize
        | none => .panic
      else .ok e.offset
  match off with
  | .panic => (.panic, e, m)
  | .err er => (.err er, e, m)
  | .ok curr =>
    match m with
    | none => (.err .invalidFile, e, m)
    | some mn =>
      match mn.write data curr env.oom with
      | (.ok len, mn') =>
        (.ok (.fileAccessed len), if offset.isNone then { e with offset := curr + len } else e,
          some mn')
      | (.err er, mn') => (.err er, e, some mn')
      | (.panic, mn') => (.panic, e, some mn')

theorem fileWrite_footprint (n : Node) (pid : Nat) (fd : Fd) (data : List UInt8)
    (offset : Option Nat) (env : Env) (t : FdTable) (e : FdEntry) (hp : n.procs pid = some t)
    (he : t fd = some e) :
    n.fileWrite pid fd data offset env =
      let c := writeCore e (n.fs.mnodes e.mnode) data offset env
      (c.1, { procs := upd n.procs pid (some (upd t fd (some c.2.1))),
              fs := { n.fs with mnodes := upd n.fs.mnodes e.mnode c.2.2 } }) := by
  have h1 : upd t fd (some e) = t := by rw [← he]; simp
  have h2 : upd n.procs pid (some t) = n.procs := by rw [← hp]; simp
  simp only [Node.fileWrite, hp, he, writeCore]
  by_cases hw : e.flags.write
  · simp only [hw, Bool.not_true, Bool.false_eq_true, if_false]
    have hoff : n.writeOffset e offset = (match offset with
        | some o => .ok o
        | none =>
          if e.flags.append then
            match n.fs.mnodes e.mnode with
            | some .directory => .ok 0
            | some (.file f) => .ok f.getSize
            | none => .panic
          else .ok e.offset) := by
      unfold Node.writeOffset MlnrFS.fileInfo
      cases offset with
      | some o => rfl
      | none =>
        simp only
        split
        · split <;> simp_all [Outcome.map]
        · rfl
    rw [hoff]
    generalize (match offset with
        | some o => Outcome.ok o
        | none =>
          if e.flags.append then
            match n.fs.mnodes e.mnode with
            | some .directory => Outcome.ok 0
            | some (.file f) => Outcome.ok f.getSize
            | none => Outcome.panic
          else Outcome.ok e.offset) = off
    cases off with
    | panic => simp [h1, h2]
    | err er => simp [h1, h2]
    | ok curr =>
      simp only [MlnrFS.write]
      cases hm : n.fs.mnodes e.mnode with
      | none =>
        simp only [h1, h2]
        rw [← hm]; simp
      | some mn =>
        simp only
        rcases hmw : mn.write data curr env.oom with ⟨r, mn'⟩
        cases r with
        | ok len => simp
        | err er => simp [h1, h2]
        | panic => simp [h1, h2]
  · simp [hw, h1, h2]

theorem writeCore_mnode (e : FdEntry) (m : Option MemNode) (data : List UInt8)
    (offset : Option Nat) (env : Env) : (writeCore e m data offset env).2.1.mnode = e.mnode := by
  unfold writeCore
  dsimp only
  repeat' split
  all_goals rfl

/-! ## Replicated operations -/

/-- An entry of the logs: the operation and what the environment decides while it runs (the
same on every replica; see `Verif/Mem/DetAlloc.lean` for how the kernel arranges that). -/
structure LogOp where
  op : Modify
  env : Env

/-- `op` is in log `l`. -/
def onLog (nlogs : Nat) (o : LogOp) (l : Nat) : Bool :=
  match o.op.logs nlogs with
  | .ok ls => ls.contains l
  | _ => false

/-- The inode number a write carries (it selects the log) is the inode its descriptor refers to
when the write is executed.  `fs/cnrfs.rs` lines 222-246 look the number up in a separate, earlier
operation. -/
def TagFresh (n : Node) (o : LogOp) : Prop :=
  match o.op with
  | .fileWrite pid fd m _ _ => ∀ e, n.fd? pid fd = some e → e.mnode = m
  | _ => True

/-- The operation was accepted by the log mapper (it did not crash on it). -/
def Mapped (nlogs : Nat) (o : LogOp) : Prop := ∃ ls, o.op.logs nlogs = .ok ls

/-- The file system as an object over `nlogs` logs. -/
def fsObj (nlogs : Nat) : Nr.MultiObj Node { o : LogOp // Mapped nlogs o } (Outcome NodeResult) where
  step n o := let r := n.dispatchMut o.1.op o.1.env; (r.2, r.1)
  on o l := onLog nlogs o.1 l
  Good n o := TagFresh n o.1

theorem logOf_ok {m nlogs l : Nat} (h : logOf m nlogs = .ok l) : l = (m - 2) % nlogs ∧ 0 < nlogs := by
  unfold logOf at h
  split at h
  · cases h
  · rename_i hh
    cases h
    exact ⟨rfl, by omega⟩

theorem indep_cases (nlogs : Nat) (hn : 0 < nlogs) (a b : { o : LogOp // Mapped nlogs o })
    (h : (fsObj nlogs).Indep a b) :
    ∃ pid fd m data off pid' fd' m' data' off',
      a.1.op = .fileWrite pid fd m data off ∧ b.1.op = .fileWrite pid' fd' m' data' off' ∧ m ≠ m' := by
  obtain ⟨⟨aop, aenv⟩, als, hal⟩ := a
  obtain ⟨⟨bop, benv⟩, bls, hbl⟩ := b
  simp only [Nr.MultiObj.Indep, fsObj, onLog] at h
  simp only at hal hbl
  simp only [hal, hbl] at h
  have haw : ∀ ls, Outcome.ok (List.range nlogs) = Outcome.ok ls → ls = List.range nlogs := by
    intro ls hq; cases hq; rfl
  have key : ∀ op ls, Modify.logs nlogs op = .ok ls →
      (∃ pid fd m data off, op = .fileWrite pid fd m data off ∧ ls = [(m - 2) % nlogs]) ∨
      ls = List.range nlogs := by
    intro op ls hop
    cases op with
    | fileWrite pid fd m data off =>
      left
      refine ⟨pid, fd, m, data, off, rfl, ?_⟩
      simp only [Modify.logs] at hop
      cases hq : logOf m nlogs with
      | ok l =>
        rw [hq] at hop
        simp only [Outcome.map] at hop
        cases hop
        rw [(logOf_ok hq).1]
      | err e => rw [hq] at hop; cases hop
      | panic => rw [hq] at hop; cases hop
    | _ => right; simp only [Modify.logs] at hop; exact haw _ hop
  have hlt : ∀ x, x % nlogs ∈ List.range nlogs := fun x => List.mem_range.2 (Nat.mod_lt _ hn)
  rcases key _ _ hal with ⟨pid, fd, m, data, off, rfl, rfl⟩ | rfl
  · rcases key _ _ hbl with ⟨pid', fd', m', data', off', rfl, rfl⟩ | rfl
    · refine ⟨pid, fd, m, data, off, pid', fd', m', data', off', rfl, rfl, ?_⟩
      rintro rfl
      exact h ((m - 2) % nlogs) (by simp)
    · exact absurd ⟨by simp, by simp [Nat.mod_lt _ hn]⟩ (h ((m - 2) % nlogs))
  · rcases key _ _ hbl with ⟨pid', fd', m', data', off', rfl, rfl⟩ | rfl
    · exact absurd ⟨by simp [Nat.mod_lt _ hn], by simp⟩ (h ((m' - 2) % nlogs))
    · exact absurd ⟨by simp [hn], by simp [hn]⟩ (h 0)

/-- Writes leave all descriptors bound to the same inodes. -/
theorem fileWrite_binding (n : Node) (pid : Nat) (fd : Fd) (data : List UInt8) (off : Option Nat)
    (env : Env) (pid' : Nat) (fd' : Fd) :
    ((n.fileWrite pid fd data off env).2.fd? pid' fd').map FdEntry.mnode
      = (n.fd? pid' fd').map FdEntry.mnode := by
  cases hp : n.procs pid with
  | none => simp [Node.fileWrite, hp]
  | some t =>
    cases he : t fd with
    | none => simp [Node.fileWrite, hp, he]
    | some e =>
      rw [fileWrite_footprint n pid fd data off env t e hp he]
      simp only [Node.fd?, upd_apply]
      by_cases h1 : pid' = pid
      · subst h1
        simp only [if_true, hp]
        by_cases h2 : fd' = fd
        · subst h2; simp [he, writeCore_mnode]
        · simp [upd_apply, h2]
      · simp [h1]

theorem fresh_iff (n n' : Node) (o : LogOp)
    (h : ∀ pid fd, (n'.fd? pid fd).map FdEntry.mnode = (n.fd? pid fd).map FdEntry.mnode) :
    TagFresh n' o ↔ TagFresh n o := by
  unfold TagFresh
  split
  · rename_i pid fd m _ _ _
    have hh := h pid fd
    constructor
    · intro h1 e he
      rw [he] at hh
      cases hq : n'.fd? pid fd with
      | none => rw [hq] at hh; cases hh
      | some e' =>
        rw [hq] at hh
        simp only [Option.map_some, Option.some.injEq] at hh
        rw [← hh]; exact h1 e' hq
    · intro h1 e he
      rw [he] at hh
      cases hq : n.fd? pid fd with
      | none => rw [hq] at hh; cases hh
      | some e' =>
        rw [hq] at hh
        simp only [Option.map_some, Option.some.injEq] at hh
        rw [hh]; exact h1 e' hq
  · exact Iff.rfl

/-- Two writes through descriptors of different inodes commute. -/
theorem fileWrite_comm (n : Node) (pid pid' : Nat) (fd fd' : Fd) (data data' : List UInt8)
    (off off' : Option Nat) (env env' : Env)
    (hne : ∀ e e', n.fd? pid fd = some e → n.fd? pid' fd' = some e' → e.mnode ≠ e'.mnode) :
    let a := n.fileWrite pid fd data off env
    let b := n.fileWrite pid' fd' data' off' env'
    (a.2.fileWrite pid' fd' data' off' env').2 = (b.2.fileWrite pid fd data off env).2 ∧
    (a.2.fileWrite pid' fd' data' off' env').1 = b.1 ∧
    a.1 = (b.2.fileWrite pid fd data off env).1 := by
  dsimp only
  have nochange : ∀ (m : Node) pid fd data off env, m.fd? pid fd = none →
      (m.fileWrite pid fd data off env).2 = m ∧
      (∀ m' : Node, m'.fd? pid fd = none → ((m'.procs pid).isSome = (m.procs pid).isSome) →
        (m'.fileWrite pid fd data off env).1 = (m.fileWrite pid fd data off env).1) := by
    intro m pid fd data off env h
    unfold Node.fd? at h
    cases hp : m.procs pid with
    | none =>
      refine ⟨by simp [Node.fileWrite, hp], ?_⟩
      intro m' _ h2
      cases hp' : m'.procs pid with
      | none => simp [Node.fileWrite, hp, hp']
      | some t => rw [hp'] at h2; cases h2
    | some t =>
      rw [hp] at h
      simp only at h
      refine ⟨by simp [Node.fileWrite, hp, h], ?_⟩
      intro m' h1 h2
      cases hp' : m'.procs pid with
      | none => rw [hp'] at h2; cases h2
      | some t' =>
        unfold Node.fd? at h1
        rw [hp'] at h1
        simp only at h1
        simp [Node.fileWrite, hp, hp', h, h1]
  have bind := fun (m : Node) pid fd data off env pid' fd' =>
    fileWrite_binding m pid fd data off env pid' fd'
  have some_procs : ∀ (m : Node) pid fd data off env pid',
      (((m.fileWrite pid fd data off env).2.procs pid').isSome) = (m.procs pid').isSome := by
    intro m pid fd data off env pid'
    cases hp : m.procs pid with
    | none => simp [Node.fileWrite, hp]
    | some t =>
      cases he : t fd with
      | none => simp [Node.fileWrite, hp, he]
      | some e =>
        rw [fileWrite_footprint m pid fd data off env t e hp he]
        simp only [upd_apply]
        split
        · rename_i q; subst q; simp [hp]
        · rfl
  have stays_none : ∀ (m : Node) pid fd data off env pid' fd', m.fd? pid' fd' = none →
      (m.fileWrite pid fd data off env).2.fd? pid' fd' = none := by
    intro m pid fd data off env pid' fd' h
    have := bind m pid fd data off env pid' fd'
    rw [h] at this
    simpa using this
  cases hA : n.fd? pid fd with
  | none =>
    have h1 := (nochange n pid fd data off env hA).1
    have hA' := stays_none n pid' fd' data' off' env' pid fd hA
    have h2 := (nochange _ pid fd data off env hA').1
    rw [h1, h2]
    exact ⟨rfl, rfl, ((nochange n pid fd data off env hA).2 _ hA' (some_procs ..)).symm⟩
  | some e =>
    cases hB : n.fd? pid' fd' with
    | none =>
      have h1 := (nochange n pid' fd' data' off' env' hB).1
      have hB' := stays_none n pid fd data off env pid' fd' hB
      have h2 := (nochange _ pid' fd' data' off' env' hB').1
      rw [h1, h2]
      exact ⟨rfl, (nochange n pid' fd' data' off' env' hB).2 _ hB' (some_procs ..), rfl⟩
    | some e' =>
      replace hne := hne e e' hA hB
      unfold Node.fd? at hA hB
      cases hp : n.procs pid with
      | none => rw [hp] at hA; cases hA
      | some t =>
        cases hp' : n.procs pid' with
        | none => rw [hp'] at hB; cases hB
        | some t' =>
          rw [hp] at hA
          rw [hp'] at hB
          simp only at hA hB
          rw [fileWrite_footprint n pid fd data off env t e hp hA,
            fileWrite_footprint n pid' fd' data' off' env' t' e' hp' hB]
          dsimp only
          generalize hc : writeCore e (n.fs.mnodes e.mnode) data off env = c
          generalize hc' : writeCore e' (n.fs.mnodes e'.mnode) data' off' env' = c'
          by_cases hpp : pid' = pid
          · subst hpp
            rw [hp] at hp'
            cases hp'
            have hfd : fd' ≠ fd := by
              rintro rfl
              rw [hA] at hB; cases hB
              exact hne rfl
            rw [fileWrite_footprint _ pid' fd' data' off' env' (upd t fd (some c.2.1)) e'
                (by simp) (by rw [upd_other _ _ hfd]; exact hB),
              fileWrite_footprint _ pid' fd data off env (upd t fd' (some c'.2.1)) e
                (by simp) (by rw [upd_other _ _ (Ne.symm hfd)]; exact hA)]
            dsimp only
            rw [upd_other _ _ (Ne.symm hne), upd_other _ _ hne, hc, hc']
            refine ⟨?_, rfl, rfl⟩
            simp only [upd_upd]
            rw [upd_comm t _ _ hfd, upd_comm n.fs.mnodes _ _ hne]
          · rw [fileWrite_footprint _ pid' fd' data' off' env' t' e'
                (by dsimp only; rw [upd_other _ _ hpp]; exact hp') hB,
              fileWrite_footprint _ pid fd data off env t e
                (by dsimp only; rw [upd_other _ _ (Ne.symm hpp)]; exact hp) hA]
            dsimp only
            rw [upd_other _ _ (Ne.symm hne), upd_other _ _ hne, hc, hc']
            refine ⟨?_, rfl, rfl⟩
            rw [upd_comm n.procs _ _ hpp, upd_comm n.fs.mnodes _ _ hne]

theorem fsObj_commutes (nlogs : Nat) (hn : 0 < nlogs) : (fsObj nlogs).Commutes := by
  intro s a b hind ha hb
  obtain ⟨pid, fd, m, data, off, pid', fd', m', data', off', ea, eb, hm⟩ :=
    indep_cases nlogs hn a b hind
  obtain ⟨⟨aop, aenv⟩, hma⟩ := a
  obtain ⟨⟨bop, benv⟩, hmb⟩ := b
  simp only at ea eb
  subst ea eb
  have hb0 : TagFresh s ⟨.fileWrite pid' fd' m' data' off', benv⟩ :=
    (fresh_iff s _ _ (fun p f => fileWrite_binding s pid fd data off aenv p f)).1 hb
  have ha1 : TagFresh (s.fileWrite pid' fd' data' off' benv).2 ⟨.fileWrite pid fd m data off, aenv⟩ :=
    (fresh_iff s _ _ (fun p f => fileWrite_binding s pid' fd' data' off' benv p f)).2 ha
  obtain ⟨c1, c2, c3⟩ := fileWrite_comm s pid pid' fd fd' data data' off off' aenv benv (by
    intro e e' he he' hq
    exact hm ((ha e he).symm.trans (hq.trans (hb0 e' he'))))
  exact ⟨hb0, ha1, c1, c2, c3⟩

/-! ## Property theorems -/

/-- **C14** Replicas that replay the same logs agree, in whatever relative order they take the
logs: if one replay `xs` executes every write while its inode number is fresh, then every
sequence `ys` with the same operations in every log ends in the same file system state, and each
log's operations get the same responses.  The restriction to fresh inode numbers is necessary,
see `c14_stale_writes_diverge`. -/
theorem c14_replays_agree_partial (nlogs : Nat) (hn : 0 < nlogs) (n : Node)
    (xs ys : List { o : LogOp // Mapped nlogs o })
    (hfresh : (fsObj nlogs).GoodRun n xs)
    (hlogs : ∀ l, xs.filter (fun o => onLog nlogs o.1 l) = ys.filter (fun o => onLog nlogs o.1 l)) :
    ((fsObj nlogs).replay n xs).1 = ((fsObj nlogs).replay n ys).1 ∧
    ∀ l, ((fsObj nlogs).replay n xs).2.filter (fun p => onLog nlogs p.1.1 l)
      = ((fsObj nlogs).replay n ys).2.filter (fun p => onLog nlogs p.1.1 l) := by
  have hon : ∀ o, ∃ l, (fsObj nlogs).on o l = true := by
    rintro ⟨⟨op, env⟩, ls, hl⟩
    simp only at hl
    simp only [fsObj, onLog, hl]
    cases op with
    | fileWrite pid fd m data off =>
      simp only [Modify.logs] at hl
      cases hq : logOf m nlogs with
      | ok l => rw [hq] at hl; simp only [Outcome.map] at hl; cases hl; exact ⟨l, by simp⟩
      | err e => rw [hq] at hl; cases hl
      | panic => rw [hq] at hl; cases hl
    | _ => simp only [Modify.logs] at hl; cases hl; exact ⟨0, by simp [hn]⟩
  obtain ⟨_, h2, h3⟩ := Nr.replays_agree (fsObj nlogs) (fsObj_commutes nlogs hn) hon xs ys n hfresh hlogs
  exact ⟨h2, h3⟩

/-- **C14** Two operations without a common log commute (if their inode numbers are fresh): the
same final state and the same two responses in either order. -/
theorem c14_disjoint_ops_commute_partial (nlogs : Nat) (hn : 0 < nlogs) (n : Node)
    (a b : LogOp) (ls ls' : List Nat) (ha : a.op.logs nlogs = .ok ls)
    (hb : b.op.logs nlogs = .ok ls') (hdisj : ∀ l ∈ ls, l ∉ ls')
    (hfa : TagFresh n a) (hfb : TagFresh n b) :
    let a1 := n.dispatchMut a.op a.env
    let b1 := n.dispatchMut b.op b.env
    let a2 := b1.2.dispatchMut a.op a.env
    let b2 := a1.2.dispatchMut b.op b.env
    b2.2 = a2.2 ∧ a1.1 = a2.1 ∧ b1.1 = b2.1 := by
  have hind : (fsObj nlogs).Indep ⟨a, ls, ha⟩ ⟨b, ls', hb⟩ := by
    intro l
    simp only [fsObj, onLog, ha, hb]
    simp only [List.contains_iff_mem]
    rintro ⟨h1, h2⟩
    exact hdisj l h1 h2
  obtain ⟨pid, fd, m, data, off, pid', fd', m', data', off', ea, eb, hm⟩ :=
    indep_cases nlogs hn _ _ hind
  obtain ⟨aop, aenv⟩ := a
  obtain ⟨bop, benv⟩ := b
  simp only at ea eb
  subst ea eb
  obtain ⟨c1, c2, c3⟩ := fileWrite_comm n pid pid' fd fd' data data' off off' aenv benv (by
    intro e e' he he' hq
    exact hm ((hfa e he).symm.trans (hq.trans (hfb e' he'))))
  exact ⟨c1, c3, c2.symm⟩

/-- **C14** Inode numbers stay fresh as long as the process itself does not open or close
descriptors: no operation of another process rebinds its descriptors. -/
theorem c14_other_processes_keep_fresh (n : Node) (o : LogOp) (pid : Nat) (fd : Fd)
    (hpid : match o.op with
      | .processAdd p | .fileOpen p _ _ _ | .fileWrite p _ _ _ _ | .fileClose p _
      | .fileDelete p _ | .fileRename p _ _ | .mkDir p _ _ => p ≠ pid) :
    (n.dispatchMut o.op o.env).2.fd? pid fd = n.fd? pid fd := by
  have procs_ne : ∀ (p : Nat) (t : FdTable), p ≠ pid → upd n.procs p (some t) pid = n.procs pid :=
    fun p t h => upd_other _ _ (Ne.symm h)
  have key : (n.dispatchMut o.op o.env).2.procs pid = n.procs pid := by
    obtain ⟨op, env⟩ := o
    cases op with
    | processAdd p =>
      simp only [Node.dispatchMut, Node.processAdd]
      repeat' split
      all_goals first | rfl | exact procs_ne _ _ hpid
    | fileOpen p name fl mo =>
      simp only [Node.dispatchMut, Node.fileOpen]
      repeat' split
      all_goals first | rfl | exact procs_ne _ _ hpid
    | fileWrite p fd m data off =>
      simp only [Node.dispatchMut, Node.fileWrite]
      repeat' split
      all_goals first | rfl | exact procs_ne _ _ hpid
    | fileClose p fd =>
      simp only [Node.dispatchMut, Node.fileClose]
      repeat' split
      all_goals first | rfl | exact procs_ne _ _ hpid
    | fileDelete p name =>
      simp only [Node.dispatchMut, Node.fileDelete]
      repeat' split
      all_goals rfl
    | fileRename p a b =>
      simp only [Node.dispatchMut, Node.fileRename]
      repeat' split
      all_goals rfl
    | mkDir p name mo =>
      simp only [Node.dispatchMut, Node.mkDir]
      repeat' split
      all_goals rfl
  simp only [Node.fd?, key]

/-- Descriptor 0 is bound to "a" (inode 2), "b" (inode 3) exists as well. -/
def staleRun : List (Call × Env) :=
  [(.addProcess 1, Env.good),
   (.open 1 "a" ⟨true, true, true, false, false⟩ ⟨true, true, false⟩, Env.good),
   (.open 1 "b" ⟨true, true, true, false, false⟩ ⟨true, true, false⟩, Env.good)]

/-- A second thread of the process rebinds descriptor 0 to "b". -/
def rebindRun : List (Call × Env) :=
  [(.close 1 fd0, Env.good),
   (.open 1 "b" ⟨true, true, false, false, false⟩ ⟨true, true, false⟩, Env.good)]

/-- **C14 is false of the code** without the freshness condition: thread 1 looks up the inode of
descriptor 0 (giving 2); thread 2 closes the descriptor and opens "b" under the same number;
thread 3 looks it up again (giving 3).  The writes of threads 1 and 3 are in different logs, both
succeed, both write to "b", and the contents of "b" depend on the order in which a replica takes
the two logs. -/
theorem c14_stale_writes_diverge :
    let n0 := (Node.init.calls 2 staleRun).2
    let n1 := (n0.calls 2 rebindRun).2
    let w1 : Modify := .fileWrite 1 fd0 2 [1] (some 0)
    let w3 : Modify := .fileWrite 1 fd0 3 [3] (some 0)
    (n0.submit 2 (.fdToMnode 1 fd0)).1 = .ok (.mappedFileToMnode 2) ∧
    (n1.submit 2 (.fdToMnode 1 fd0)).1 = .ok (.mappedFileToMnode 3) ∧
    w1.logs 2 = .ok [0] ∧ w3.logs 2 = .ok [1] ∧
    ((n1.dispatchMut w1 Env.good).2.dispatchMut w3 Env.good).2.contents 3 = some [3] ∧
    ((n1.dispatchMut w3 Env.good).2.dispatchMut w1 Env.good).2.contents 3 = some [1] := by
  decide +kernel

/-- Non-vacuity of C14: in a reachable state two fresh writes in different logs. -/
example :
    let n0 := (Node.init.calls 2 staleRun).2
    let fd1 : Fd := ⟨1, by rw [MAX_FILES_eq]; decide⟩
    (Modify.fileWrite 1 fd0 2 [1] none).logs 2 = .ok [0] ∧
    (Modify.fileWrite 1 fd1 3 [3] none).logs 2 = .ok [1] ∧
    (n0.fd? 1 fd0).map FdEntry.mnode = some 2 ∧ (n0.fd? 1 fd1).map FdEntry.mnode = some 3 := by
  decide +kernel

/-- **C14** A read is answered by a replica that is up to date on the read's log only.  That is
enough: a write of another log does not change the answer. -/
theorem c14_read_unaffected_by_other_logs_partial (nlogs : Nat) (n : Node)
    (pid : Nat) (fd : Fd) (m : Nat) (dst : List UInt8) (off : Option Nat) (l : Nat)
    (pid' : Nat) (fd' : Fd) (m' : Nat) (data : List UInt8) (off' : Option Nat) (l' : Nat)
    (env : Env)
    (hr : (Access.fileRead pid fd m dst off).logs nlogs = .ok [l])
    (hw : (Modify.fileWrite pid' fd' m' data off').logs nlogs = .ok [l']) (hl : l ≠ l')
    (hfr : ∀ e, n.fd? pid fd = some e → e.mnode = m)
    (hfw : ∀ e, n.fd? pid' fd' = some e → e.mnode = m') :
    ((n.dispatchMut (.fileWrite pid' fd' m' data off') env).2.dispatch
      (.fileRead pid fd m dst off)).1 = (n.dispatch (.fileRead pid fd m dst off)).1 := by
  have hm : m ≠ m' := by
    rintro rfl
    simp only [Access.logs, Modify.logs] at hr hw
    rw [hr] at hw
    cases hw
    exact hl rfl
  simp only [Node.dispatchMut, Node.dispatch]
  cases hp : n.procs pid' with
  | none => simp [Node.fileWrite, hp]
  | some t =>
    cases he : t fd' with
    | none => simp [Node.fileWrite, hp, he]
    | some e =>
      have hem : e.mnode = m' := hfw e (by simp [Node.fd?, hp, he])
      rw [fileWrite_footprint n pid' fd' data off' env t e hp he]
      dsimp only
      generalize writeCore e (n.fs.mnodes e.mnode) data off' env = c
      unfold Node.fileRead
      dsimp only
      by_cases h1 : pid = pid'
      · subst h1
        simp only [upd_same, hp]
        by_cases h2 : fd = fd'
        · subst h2
          exact absurd ((hfr e (by simp [Node.fd?, hp, he])).symm.trans hem) hm
        · rw [upd_other _ _ h2]
          cases hx : t fd with
          | none => rfl
          | some ex =>
            have hexm : ex.mnode = m := hfr ex (by simp [Node.fd?, hp, hx])
            simp only [MlnrFS.read]
            rw [upd_other _ _ (by rw [hexm, hem]; exact hm)]
            split
            · rfl
            · split <;> simp_all
      · rw [upd_other _ _ h1]
        cases hp2 : n.procs pid with
        | none => rfl
        | some t2 =>
          simp only
          cases hx : t2 fd with
          | none => rfl
          | some ex =>
            have hexm : ex.mnode = m := hfr ex (by simp [Node.fd?, hp2, hx])
            simp only [MlnrFS.read]
            rw [upd_other _ _ (by rw [hexm, hem]; exact hm)]
            split
            · rfl
            · split <;> simp_all

/-- **C15** Read-class operations leave the replicated state unchanged, with the exception of a
read at the descriptor's own offset. -/
theorem c15_reads_change_nothing_partial (n : Node) (op : Access)
    (h : ∀ pid fd m dst, op ≠ .fileRead pid fd m dst none) : (n.dispatch op).2 = n := by
  cases op with
  | fileRead pid fd m dst off =>
    cases off with
    | none => exact absurd rfl (h pid fd m dst)
    | some o =>
      simp only [Node.dispatch, Node.fileRead]
      split
      · rfl
      · rename_i t hp
        split
        · rfl
        · rename_i e he
          split
          · rfl
          · split
            · have h1 : upd t fd (some e) = t := by rw [← he]; simp
              have h2 : upd n.procs pid (some t) = n.procs := by rw [← hp]; simp
              simp [Node.setTable, h1, h2]
            · rfl
            · rfl
  | fileInfo pid name m => simp only [Node.dispatch]; repeat' split
                           all_goals rfl
  | fdToMnode pid fd => simp only [Node.dispatch]; repeat' split
                        all_goals rfl
  | fileNameToMnode pid name => simp only [Node.dispatch]; repeat' split
                                all_goals rfl
  | synchronize l => rfl

/-- **C15** A read at the descriptor's own offset changes only that offset. -/
theorem c15_implicit_read_changes_only_offset (n : Node) (pid : Nat) (fd : Fd) (m : Nat)
    (dst : List UInt8) :
    let n' := (n.dispatch (.fileRead pid fd m dst none)).2
    n'.fs = n.fs ∧
    (∀ pid' fd', (pid', fd') ≠ (pid, fd) → n'.fd? pid' fd' = n.fd? pid' fd') ∧
    (∀ e', n'.fd? pid fd = some e' → ∃ e, n.fd? pid fd = some e ∧ e' = { e with offset := e'.offset }) := by
  dsimp only
  simp only [Node.dispatch, Node.fileRead]
  have triv : n.fs = n.fs ∧ (∀ pid' fd', (pid', fd') ≠ (pid, fd) → n.fd? pid' fd' = n.fd? pid' fd') ∧
      (∀ e', n.fd? pid fd = some e' → ∃ e, n.fd? pid fd = some e ∧ e' = { e with offset := e'.offset }) :=
    ⟨rfl, fun _ _ _ => rfl, fun e' h => ⟨e', h, rfl⟩⟩
  split
  · exact triv
  · rename_i t hp
    split
    · exact triv
    · rename_i e he
      split
      · exact triv
      · split
        · refine ⟨rfl, ?_, ?_⟩
          · intro pid' fd' hne
            simp only [Node.fd?, Node.setTable, upd_apply]
            by_cases h1 : pid' = pid
            · subst h1
              by_cases h2 : fd' = fd
              · subst h2; exact absurd rfl hne
              · simp [hp, upd_apply, h2]
            · simp [h1]
          · intro e' he'
            simp [Node.fd?, Node.setTable] at he'
            refine ⟨e, by simp [Node.fd?, hp, he], ?_⟩
            subst he'
            rfl
        · exact triv
        · exact triv

/-- **C15 is false of the code**: a read at the descriptor's own offset is executed on one
replica only, but moves the descriptor's offset there.  Afterwards a write at the own offset,
executed on both replicas, stores different contents. -/
theorem c15_implicit_reads_make_replicas_diverge :
    let n := (Node.init.calls 2
      [(.addProcess 1, Env.good),
       (.open 1 "a" ⟨true, true, true, false, false⟩ ⟨true, true, false⟩, Env.good),
       (.write 1 fd0 [5, 6] (some 0), Env.good)]).2
    -- replica 0 serves the read, replica 1 does not see it
    let rep0 := (n.dispatch (.fileRead 1 fd0 2 [0] none)).2
    let rep1 := n
    let w : Modify := .fileWrite 1 fd0 2 [9] none
    (n.dispatch (.fileRead 1 fd0 2 [0] none)).1 = .ok (.fileRead 1 [5]) ∧
    (rep0.dispatchMut w Env.good).1 = .ok (.fileAccessed 1) ∧
    (rep1.dispatchMut w Env.good).1 = .ok (.fileAccessed 1) ∧
    (rep0.dispatchMut w Env.good).2.contents 2 = some [5, 9] ∧
    (rep1.dispatchMut w Env.good).2.contents 2 = some [9, 6] := by
  decide +kernel

end NRK.Fs
