import Verif.Fs.FsModel
import Verif.Fs.FileProps

/-!
# Helper lemmas for the file-system model: invariants and evolution
-/

namespace NRK.Fs

/-- Invariant of the name and inode tables. -/
structure MlnrFS.Inv (fs : MlnrFS) : Prop where
  live : ∀ a m, fs.files a = some m → ∃ x, fs.mnodes m = some x
  inj : ∀ a b m, fs.files a = some m → fs.files b = some m → a = b
  named : ∀ m x, fs.mnodes m = some x → ∃ a, fs.files a = some m
  bound : ∀ m x, fs.mnodes m = some x → 1 ≤ m ∧ m < fs.next
  wf : ∀ m x, fs.mnodes m = some x → x.Wf
  root : ∀ x, fs.mnodes 1 = some x → x = .directory
  next2 : 2 ≤ fs.next

/-- Same kind of inode and, for files, same permissions. -/
def MemNode.SameKind : MemNode → MemNode → Prop
  | .directory, .directory => True
  | .file f, .file g => f.modes = g.modes ∧ (f.modes.writable = false → f = g)
  | _, _ => False

theorem MemNode.SameKind.refl (x : MemNode) : x.SameKind x := by
  cases x <;> simp [MemNode.SameKind]

theorem MemNode.SameKind.trans {x y z : MemNode} (h1 : x.SameKind y) (h2 : y.SameKind z) :
    x.SameKind z := by
  cases x <;> cases y <;> cases z <;> simp_all [MemNode.SameKind]

/-- How the tables may change over time: inode numbers only grow, dead ones stay dead, live
ones keep kind and permissions until they die. -/
structure MlnrFS.Evolves (fs fs' : MlnrFS) : Prop where
  next : fs.next ≤ fs'.next
  dead : ∀ m, m < fs.next → fs.mnodes m = none → fs'.mnodes m = none
  kind : ∀ m x y, fs.mnodes m = some x → fs'.mnodes m = some y → x.SameKind y

theorem MlnrFS.Evolves.refl (fs : MlnrFS) : fs.Evolves fs :=
  ⟨Nat.le_refl _, fun _ _ h => h, fun _ x y h h' => by rw [h] at h'; cases h'; exact .refl x⟩

theorem MlnrFS.Evolves.trans {a b c : MlnrFS} (_hb : b.Inv) (ha : a.Inv) (h1 : a.Evolves b)
    (h2 : b.Evolves c) : a.Evolves c := by
  refine ⟨Nat.le_trans h1.next h2.next, ?_, ?_⟩
  · intro m hm h
    exact h2.dead m (Nat.lt_of_lt_of_le hm h1.next) (h1.dead m hm h)
  · intro m x z hx hz
    cases hy : b.mnodes m with
    | none =>
      have hlt := (ha.bound m x hx).2
      rw [h2.dead m (Nat.lt_of_lt_of_le hlt h1.next) hy] at hz; cases hz
    | some y => exact (h1.kind m x y hx hy).trans (h2.kind m y z hy hz)

theorem MlnrFS.init_inv : MlnrFS.init.Inv := by
  refine ⟨?_, ?_, ?_, ?_, ?_, ?_, by decide⟩
  · intro a m h
    simp only [MlnrFS.init, upd_apply] at h ⊢
    split at h
    · cases h; exact ⟨.directory, by simp⟩
    · cases h
  · intro a b m h1 h2
    simp only [MlnrFS.init, upd_apply] at h1 h2
    split at h1 <;> split at h2 <;> simp_all
  · intro m x h
    simp only [MlnrFS.init, upd_apply] at h ⊢
    split at h
    · exact ⟨"/", by simp_all⟩
    · cases h
  · intro m x h
    simp only [MlnrFS.init, upd_apply] at h ⊢
    split at h
    · omega
    · cases h
  · intro m x h
    simp only [MlnrFS.init, upd_apply] at h
    split at h
    · cases h; trivial
    · cases h
  · intro x h
    simp [MlnrFS.init] at h
    exact h.symm

theorem MlnrFS.addNode_inv (fs : MlnrFS) (h : fs.Inv) (name : String) (x : MemNode) (hx : x.Wf)
    (env : Env) : (fs.addNode name x env).2.Inv ∧ fs.Evolves (fs.addNode name x env).2 := by
  unfold MlnrFS.addNode
  have hnb : fs.mnodes fs.next = none := by
    cases hq : fs.mnodes fs.next with
    | none => rfl
    | some y => exact absurd (h.bound _ _ hq).2 (Nat.lt_irrefl _)
  have hnf : ∀ a, fs.files a ≠ some fs.next := by
    intro a ha
    obtain ⟨y, hy⟩ := h.live a _ ha
    rw [hnb] at hy; cases hy
  have h2 := h.next2
  split
  · exact ⟨h, .refl fs⟩
  · rename_i hn
    split
    · refine ⟨⟨h.live, h.inj, h.named, ?_, h.wf, h.root, ?_⟩, ?_⟩
      · intro m x hm; have := h.bound m x hm; simp only; omega
      · simp only; omega
      · exact ⟨by simp, fun _ _ q => q, fun _ x y q q' => by
          simp only at q'; rw [q] at q'; cases q'; exact .refl x⟩
    · refine ⟨⟨?_, ?_, ?_, ?_, ?_, ?_, ?_⟩, ?_, ?_, ?_⟩
      · intro a m ha
        simp only [upd_apply] at ha ⊢
        split at ha
        · cases ha; exact ⟨x, by simp⟩
        · split
          · exact ⟨x, rfl⟩
          · exact h.live a m ha
      · intro a b m ha hb
        simp only [upd_apply] at ha hb
        split at ha <;> split at hb
        · simp_all
        · rename_i q1 q2; cases ha; exact absurd hb (hnf b)
        · rename_i q1 q2; cases hb; exact absurd ha (hnf a)
        · exact h.inj a b m ha hb
      · intro m y hm
        simp only [upd_apply] at hm ⊢
        split at hm
        · rename_i q; exact ⟨name, by simp [q]⟩
        · obtain ⟨a, ha⟩ := h.named m y hm
          refine ⟨a, ?_⟩
          rw [if_neg]
          · exact ha
          · intro q; rw [q, hn] at ha; cases ha
      · intro m y hm
        simp only [upd_apply] at hm ⊢
        split at hm
        · omega
        · have := h.bound m y hm; omega
      · intro m y hm
        simp only [upd_apply] at hm
        split at hm
        · cases hm; exact hx
        · exact h.wf m y hm
      · intro y hm
        simp only [upd_apply] at hm
        split at hm
        · omega
        · exact h.root y hm
      · simp only; omega
      · simp
      · intro m hm hd
        simp only [upd_apply]
        rw [if_neg (by omega)]
        exact hd
      · intro m y z hy hz
        simp only [upd_apply] at hz
        split at hz
        · rename_i q; rw [q, hnb] at hy; cases hy
        · rw [hy] at hz; cases hz; exact .refl y

/-- Replacing a live inode by one of the same kind. -/
theorem MlnrFS.replace_inv (fs : MlnrFS) (h : fs.Inv) (m : Nat) (x y : MemNode)
    (hm : fs.mnodes m = some x) (hy : y.Wf) (hk : x.SameKind y) :
    MlnrFS.Inv { fs with mnodes := upd fs.mnodes m (some y) } ∧
    fs.Evolves { fs with mnodes := upd fs.mnodes m (some y) } := by
  refine ⟨⟨?_, h.inj, ?_, ?_, ?_, ?_, h.next2⟩, by simp, ?_, ?_⟩
  · intro a k ha
    simp only [upd_apply]
    split
    · exact ⟨y, rfl⟩
    · exact h.live a k ha
  · intro k z hz
    simp only [upd_apply] at hz
    split at hz
    · rename_i q; rw [q]; exact h.named m x hm
    · exact h.named k z hz
  · intro k z hz
    simp only [upd_apply] at hz
    split at hz
    · rename_i q; rw [q]; exact h.bound m x hm
    · exact h.bound k z hz
  · intro k z hz
    simp only [upd_apply] at hz
    split at hz
    · cases hz; exact hy
    · exact h.wf k z hz
  · intro z hz
    simp only [upd_apply] at hz
    split at hz
    · rename_i q
      cases hz
      rw [← q] at hm
      have := h.root x hm
      subst this
      cases y with
      | directory => rfl
      | file f => exact hk.elim
    · exact h.root z hz
  · intro k hk' hd
    simp only [upd_apply]
    split
    · rename_i q; rw [q, hm] at hd; cases hd
    · exact hd
  · intro k z w hz hw
    simp only [upd_apply] at hw
    split at hw
    · rename_i q; rw [q, hm] at hz; cases hz; cases hw; exact hk
    · rw [hz] at hw; cases hw; exact .refl z

theorem MemNode.runOp_sameKind (x : MemNode) (hx : x.Wf) (op : Spec.FileOp) (oom : Oom) :
    x.SameKind (x.runOp op oom).2 := by
  cases x with
  | directory => cases op <;> simp [MemNode.runOp, MemNode.write, MemNode.truncate, MemNode.SameKind]
  | file f =>
    have hch : Chunked f.mcache := hx
    cases op with
    | truncate =>
      simp only [MemNode.runOp, MemNode.truncate]
      split
      · simp [MemNode.SameKind]
      · simp_all [MemNode.SameKind, File.truncate]
    | write o d =>
      simp only [MemNode.runOp, MemNode.write]
      split
      · simp [MemNode.SameKind]
      · rcases writeFile_spec f d o oom hch with ⟨g, e, e1, _⟩ | ⟨g, e, _, e1, _⟩ <;>
        · rw [e]; simp_all [MemNode.SameKind]

theorem MlnrFS.write_inv (fs : MlnrFS) (h : fs.Inv) (m : Nat) (d : List UInt8) (o : Nat)
    (env : Env) : (fs.write m d o env).2.Inv ∧ fs.Evolves (fs.write m d o env).2 := by
  unfold MlnrFS.write
  split
  · rename_i x hx
    exact fs.replace_inv h m x _ hx (runOp_wf x (.write o d) env.oom (h.wf m x hx)).1
      (MemNode.runOp_sameKind x (h.wf m x hx) (.write o d) env.oom)
  · exact ⟨h, .refl fs⟩

theorem MlnrFS.truncate_inv (fs : MlnrFS) (h : fs.Inv) (name : String) :
    (fs.truncate name).2.Inv ∧ fs.Evolves (fs.truncate name).2 := by
  unfold MlnrFS.truncate
  split
  · rename_i m hm
    split
    · rename_i x hx
      exact fs.replace_inv h m x _ hx (runOp_wf x .truncate .none (h.wf m x hx)).1
        (MemNode.runOp_sameKind x (h.wf m x hx) .truncate .none)
    · exact ⟨h, .refl fs⟩
  · exact ⟨h, .refl fs⟩

theorem MlnrFS.delete_inv (fs : MlnrFS) (h : fs.Inv) (name : String) (env : Env) :
    (fs.delete name env).2.Inv ∧ fs.Evolves (fs.delete name env).2 := by
  unfold MlnrFS.delete
  split
  · rename_i m hm
    split
    · exact ⟨h, .refl fs⟩
    · refine ⟨⟨?_, ?_, ?_, ?_, ?_, ?_, h.next2⟩, by simp, ?_, ?_⟩
      · intro a k ha
        simp only [upd_apply] at ha ⊢
        split at ha
        · cases ha
        · rename_i q
          rw [if_neg]
          · exact h.live a k ha
          · intro e; rw [e] at ha; exact q (h.inj _ _ _ ha hm)
      · intro a b k ha hb
        simp only [upd_apply] at ha hb
        split at ha <;> split at hb <;> try (first | cases ha | cases hb)
        exact h.inj a b k ha hb
      · intro k z hz
        simp only [upd_apply] at hz ⊢
        split at hz
        · cases hz
        · rename_i q
          obtain ⟨a, ha⟩ := h.named k z hz
          refine ⟨a, ?_⟩
          rw [if_neg]
          · exact ha
          · intro e; rw [e, hm] at ha; cases ha; exact q rfl
      all_goals
        intro k
        simp only [upd_apply]
      · intro z hz
        split at hz
        · cases hz
        · exact h.bound k z hz
      · intro z hz
        split at hz
        · cases hz
        · exact h.wf k z hz
      · intro hz
        split at hz
        · cases hz
        · exact h.root k hz
      · intro _ hd
        split
        · rfl
        · exact hd
      · intro z w hz hw
        split at hw
        · cases hw
        · rw [hz] at hw; cases hw; exact .refl z
  · exact ⟨h, .refl fs⟩

theorem MlnrFS.moveEntry_inv (fs : MlnrFS) (h : fs.Inv) (old new : String)
    (hnew : fs.files new = none ∨ old = new) :
    (fs.moveEntry old new).2.Inv ∧ fs.Evolves (fs.moveEntry old new).2 := by
  unfold MlnrFS.moveEntry
  split
  · rename_i m hm
    have key : MlnrFS.Inv { fs with files := upd (upd fs.files old none) new (some m) } := by
      have hn' : ∀ a, (upd fs.files old none) a = some m → False := by
        intro a ha
        simp only [upd_apply] at ha
        split at ha
        · cases ha
        · rename_i q; exact q (h.inj _ _ _ ha hm)
      have hsub : ∀ a k, (upd fs.files old none) a = some k → fs.files a = some k := by
        intro a k ha
        simp only [upd_apply] at ha
        split at ha
        · cases ha
        · exact ha
      refine ⟨?_, ?_, ?_, h.bound, h.wf, h.root, h.next2⟩
      · intro a k ha
        simp only at ha ⊢
        rw [upd_apply] at ha
        split at ha
        · cases ha; exact h.live old _ hm
        · exact h.live a k (hsub a k ha)
      · intro a b k ha hb
        simp only at ha hb
        rw [upd_apply] at ha hb
        split at ha <;> split at hb
        · simp_all
        · cases ha; exact (hn' b hb).elim
        · cases hb; exact (hn' a ha).elim
        · exact h.inj a b k (hsub a k ha) (hsub b k hb)
      · intro k z hz
        simp only at hz ⊢
        obtain ⟨a, ha⟩ := h.named k z hz
        by_cases q : a = old
        · rw [q, hm] at ha; cases ha
          exact ⟨new, by simp⟩
        · by_cases q2 : a = new
          · rcases hnew with hnew | hnew
            · rw [q2, hnew] at ha; cases ha
            · exact absurd (q2.trans hnew.symm) q
          · exact ⟨a, by rw [upd_other _ _ q2, upd_other _ _ q]; exact ha⟩
    have ev : fs.Evolves { fs with files := upd (upd fs.files old none) new (some m) } :=
      ⟨by simp, fun _ _ q => q, fun _ x y q q' => by
          simp only at q'; rw [q] at q'; cases q'; exact .refl x⟩
    dsimp only
    split <;> exact ⟨key, ev⟩
  · exact ⟨h, .refl fs⟩

theorem MlnrFS.rename_inv (fs : MlnrFS) (h : fs.Inv) (old new : String) (env : Env) :
    (fs.rename old new env).2.Inv ∧ fs.Evolves (fs.rename old new env).2 := by
  unfold MlnrFS.rename
  split
  · exact ⟨h, .refl fs⟩
  · split
    · rename_i hn; exact fs.moveEntry_inv h old new (.inl hn)
    · rename_i hn
      have hd := fs.delete_inv h new env
      split
      · rename_i fs' e
        rw [e] at hd
        have hnew : fs'.files new = none := by
          unfold MlnrFS.delete at e
          split at e
          · split at e
            · cases e
            · cases e; simp
          · cases e
        have hm := fs'.moveEntry_inv hd.1 old new (.inl hnew)
        exact ⟨hm.1, hd.2.trans hd.1 h hm.2⟩
      · rename_i fs' _ e; rw [e] at hd; exact hd

/-! ## Nodes -/

/-- Invariant of a node. -/
structure Node.Inv (n : Node) : Prop where
  fs : n.fs.Inv
  fds : ∀ pid fd e, n.fd? pid fd = some e → 1 ≤ e.mnode ∧ e.mnode < n.fs.next

theorem Node.init_inv : Node.init.Inv :=
  ⟨MlnrFS.init_inv, by intro pid fd e h; simp [Node.fd?, Node.init] at h⟩

theorem FdTable.position_spec (t : FdTable) :
    (∀ i, t.position = some i → t i = none ∧ ∀ j, j < i → t j ≠ none) ∧
    (t.position = none → ∀ i, t i ≠ none) := by
  unfold FdTable.position
  constructor
  · intro i hi
    rw [List.find?_eq_some_iff_getElem] at hi
    obtain ⟨h1, k, hk, h2, h3⟩ := hi
    refine ⟨by simpa using h1, ?_⟩
    intro j hj
    simp only [List.getElem_finRange] at h2
    have hik : i.val = k := by rw [← h2]; rfl
    have := h3 j.val (by rw [← hik]; exact Fin.lt_def.1 hj)
    simp only [List.getElem_finRange] at this
    intro hc
    have hj' : (Fin.cast List.length_finRange ⟨j.val, by simp⟩ : Fd) = j := by ext; rfl
    simp only [Fin.cast_mk] at this
    rw [show (⟨j.val, j.isLt⟩ : Fd) = j from rfl, hc] at this
    simp at this
  · intro hn i hc
    rw [List.find?_eq_none] at hn
    have := hn i (List.mem_finRange i)
    simp [hc] at this

theorem MlnrFS.truncate_facts (fs : MlnrFS) (name : String) :
    (fs.truncate name).1 ≠ .panic ∧ (fs.truncate name).2.next = fs.next ∧
    (fs.truncate name).2.files = fs.files := by
  unfold MlnrFS.truncate
  split
  · split
    · rename_i m _ x _
      refine ⟨?_, rfl, rfl⟩
      cases x with
      | directory => simp [MemNode.truncate]
      | file f => simp only [MemNode.truncate]; split <;> simp
    · simp
  · simp

theorem Node.openTarget_facts (n : Node) (h : n.fs.Inv) (name : String) (flags : Flags)
    (modes : Modes) (env : Env) :
    let r := n.openTarget name flags modes env
    r.1 ≠ .panic ∧ r.2.Inv ∧ n.fs.Evolves r.2 ∧
    (∀ m, r.1 = .ok m → r.2.files name = some m) := by
  simp only [Node.openTarget]
  split
  · rename_i m hm
    split
    · obtain ⟨a, b, c⟩ := n.fs.truncate_facts name
      obtain ⟨d, e⟩ := n.fs.truncate_inv h name
      refine ⟨?_, d, e, ?_⟩
      · cases hq : (n.fs.truncate name).1 <;> simp_all [Outcome.map]
      · intro k hk
        simp only [c]
        cases hq : (n.fs.truncate name).1 with
        | ok u => rw [hq] at hk; simp [Outcome.map] at hk; rw [← hk]; exact hm
        | err _ => rw [hq] at hk; simp [Outcome.map] at hk
        | panic => rw [hq] at hk; simp [Outcome.map] at hk
    · exact ⟨by simp, h, .refl _, by intro k hk; cases hk; exact hm⟩
  · rename_i hm
    obtain ⟨d, e⟩ := n.fs.addNode_inv h name (.file (File.new modes))
      (by simp [MemNode.Wf, File.new, Chunked]) env
    refine ⟨?_, d, e, ?_⟩
    · simp only [MlnrFS.create, MlnrFS.addNode]; split
      · simp
      · split <;> simp
    · intro k hk
      simp only [MlnrFS.create, MlnrFS.addNode] at hk ⊢
      split at hk
      · cases hk
      · split at hk
        · cases hk
        · cases hk; rename_i q1 q2; simp [q2]

/-- `fileOpen` unfolded into its cases. -/
theorem Node.fileOpen_cases (n : Node) (pid : Nat) (name : String) (flags : Flags)
    (modes : Modes) (env : Env) :
    n.fileOpen pid name flags modes env =
      if (n.fs.lookup name).isNone && !flags.create then (.err .permissionError, n) else
      match n.procs pid with
      | none => (.panic, n)
      | some t =>
        match t.position with
        | none => (.err .notSupported, n)
        | some fid =>
          match n.openTarget name flags modes env with
          | (.ok m, fs1) => (.ok (.fileOpened fid),
              { procs := upd n.procs pid (some (upd t fid (some ⟨m, flags, 0⟩))), fs := fs1 })
          | (.err e, fs1) => (.err e,
              { procs := upd n.procs pid (some (upd t fid none)), fs := fs1 })
          | (.panic, fs1) => (.panic,
              { procs := upd n.procs pid (some (upd t fid (some ⟨0, .none, 0⟩))), fs := fs1 }) := by
  unfold Node.fileOpen
  simp only
  split
  · rfl
  · cases hp : n.procs pid with
    | none => rfl
    | some t =>
      simp only [FdTable.allocate]
      cases hpos : t.position with
      | none => rfl
      | some fid =>
        simp only
        generalize n.openTarget name flags modes env = r
        obtain ⟨r1, fs1⟩ := r
        cases r1 with
        | ok m => simp [FdEntry.update]
        | err e => simp [FdTable.deallocate]
        | panic => rfl

theorem Node.fileOpen_inv (n : Node) (h : n.Inv) (pid : Nat) (name : String) (flags : Flags)
    (modes : Modes) (env : Env) :
    (n.fileOpen pid name flags modes env).2.Inv ∧
    n.fs.Evolves (n.fileOpen pid name flags modes env).2.fs := by
  rw [Node.fileOpen_cases]
  split
  · exact ⟨h, .refl _⟩
  · cases hp : n.procs pid with
    | none => exact ⟨h, .refl _⟩
    | some t =>
      simp only
      cases hpos : t.position with
      | none => exact ⟨h, .refl _⟩
      | some fid =>
        simp only
        obtain ⟨a1, a2, a3, a4⟩ := n.openTarget_facts h.fs name flags modes env
        revert a1 a2 a3 a4
        generalize n.openTarget name flags modes env = r
        obtain ⟨r1, fs1⟩ := r
        intro a1 a2 a3 a4
        cases r1 with
        | panic => simp at a1
        | err e =>
          refine ⟨⟨a2, ?_⟩, a3⟩
          intro pid' fd' e' he
          have hold : n.fd? pid' fd' = some e' := by
            simp only [Node.fd?, upd_apply] at he ⊢
            split at he
            · rename_i q
              split at q
              · cases q
                rename_i q2
                rw [q2, hp]
                simp only at he ⊢
                rw [upd_apply] at he
                split at he
                · cases he
                · exact he
              · simp [q, he]
            · cases he
          have := h.fds _ _ _ hold
          exact ⟨this.1, Nat.lt_of_lt_of_le this.2 a3.next⟩
        | ok m =>
          have hm := a4 m rfl
          refine ⟨⟨a2, ?_⟩, a3⟩
          intro pid' fd' e' he
          by_cases hq : pid' = pid ∧ fd' = fid
          · obtain ⟨rfl, rfl⟩ := hq
            simp [Node.fd?] at he
            rw [← he]
            obtain ⟨x, hx⟩ := a2.live name m hm
            exact a2.bound m x hx
          · have hold : n.fd? pid' fd' = some e' := by
              simp only [Node.fd?, upd_apply] at he ⊢
              split at he
              · rename_i q
                split at q
                · cases q
                  rename_i q2
                  rw [q2, hp]
                  simp only at he ⊢
                  rw [upd_apply] at he
                  split at he
                  · rename_i q3; exact absurd ⟨q2, q3⟩ hq
                  · exact he
                · simp [q, he]
              · cases he
            have := h.fds _ _ _ hold
            exact ⟨this.1, Nat.lt_of_lt_of_le this.2 a3.next⟩

theorem Node.setEntry_fd? (n : Node) (pid : Nat) (t : FdTable) (hp : n.procs pid = some t)
    (fd : Fd) (e : Option FdEntry) (fs : MlnrFS) (pid' : Nat) (fd' : Fd) :
    Node.fd? { procs := upd n.procs pid (some (upd t fd e)), fs := fs } pid' fd' =
      if pid' = pid ∧ fd' = fd then e else n.fd? pid' fd' := by
  simp only [Node.fd?, upd_apply]
  by_cases h1 : pid' = pid
  · subst h1
    simp only [if_true, hp, true_and]
    simp only [upd_apply]
  · simp [h1]

theorem Node.fileWrite_inv (n : Node) (h : n.Inv) (pid : Nat) (fd : Fd) (d : List UInt8)
    (off : Option Nat) (env : Env) :
    (n.fileWrite pid fd d off env).2.Inv ∧
    n.fs.Evolves (n.fileWrite pid fd d off env).2.fs := by
  unfold Node.fileWrite
  cases hp : n.procs pid with
  | none => exact ⟨h, .refl _⟩
  | some t =>
    simp only
    cases ht : t fd with
    | none => exact ⟨h, .refl _⟩
    | some e =>
      simp only
      have hold : n.fd? pid fd = some e := by simp [Node.fd?, hp, ht]
      split
      · exact ⟨h, .refl _⟩
      · cases ho : n.writeOffset e off with
        | panic => exact ⟨h, .refl _⟩
        | err er => exact ⟨h, .refl _⟩
        | ok curr =>
          simp only
          have hw := n.fs.write_inv h.fs e.mnode d curr env
          revert hw
          generalize n.fs.write e.mnode d curr env = r
          obtain ⟨r1, fs1⟩ := r
          rintro ⟨w1, w2⟩
          have same : ∀ pid' fd' e', n.fd? pid' fd' = some e' →
              1 ≤ e'.mnode ∧ e'.mnode < fs1.next := by
            intro pid' fd' e' he
            have := h.fds _ _ _ he
            exact ⟨this.1, Nat.lt_of_lt_of_le this.2 w2.next⟩
          cases r1 with
          | err er => exact ⟨⟨w1, same⟩, w2⟩
          | panic => exact ⟨⟨w1, same⟩, w2⟩
          | ok len =>
            refine ⟨⟨w1, ?_⟩, w2⟩
            intro pid' fd' e' he
            rw [Node.setEntry_fd? n pid t hp] at he
            split at he
            · simp only [Option.some.injEq] at he
              rw [← he]
              split <;> exact same pid fd e hold
            · exact same _ _ _ he

theorem Node.fileRead_inv (n : Node) (h : n.Inv) (pid : Nat) (fd : Fd) (d : List UInt8)
    (off : Option Nat) :
    (n.fileRead pid fd d off).2.Inv ∧ (n.fileRead pid fd d off).2.fs = n.fs := by
  unfold Node.fileRead
  cases hp : n.procs pid with
  | none => exact ⟨h, rfl⟩
  | some t =>
    simp only
    cases ht : t fd with
    | none => exact ⟨h, rfl⟩
    | some e =>
      have hold : n.fd? pid fd = some e := by simp [Node.fd?, hp, ht]
      simp only
      split
      · exact ⟨h, rfl⟩
      · split
        · refine ⟨⟨h.fs, ?_⟩, rfl⟩
          intro pid' fd' e' he
          unfold Node.setTable at he
          rw [show ({ n with procs := upd n.procs pid (some (upd t fd
              (some (if off.isNone then { e with offset := off.getD e.offset + _ } else e)))) } : Node)
              = { procs := upd n.procs pid (some (upd t fd
              (some (if off.isNone then { e with offset := off.getD e.offset + _ } else e)))), fs := n.fs }
              from rfl, Node.setEntry_fd? n pid t hp] at he
          split at he
          · simp only [Option.some.injEq] at he
            rw [← he]
            split <;> exact h.fds pid fd e hold
          · exact h.fds _ _ _ he
        · exact ⟨h, rfl⟩
        · exact ⟨h, rfl⟩

theorem Node.dispatchMut_inv (n : Node) (h : n.Inv) (op : Modify) (env : Env) :
    (n.dispatchMut op env).2.Inv ∧ n.fs.Evolves (n.dispatchMut op env).2.fs := by
  have fsonly : ∀ fs', fs'.Inv → n.fs.Evolves fs' →
      Node.Inv { n with fs := fs' } ∧ n.fs.Evolves fs' := by
    intro fs' h1 h2
    refine ⟨⟨h1, ?_⟩, h2⟩
    intro pid fd e he
    have := h.fds pid fd e he
    exact ⟨this.1, Nat.lt_of_lt_of_le this.2 h2.next⟩
  cases op with
  | processAdd pid =>
    simp only [Node.dispatchMut, Node.processAdd]
    split
    · exact ⟨h, .refl _⟩
    · cases hp : n.procs pid with
      | some t => exact ⟨h, .refl _⟩
      | none =>
        refine ⟨⟨h.fs, ?_⟩, .refl _⟩
        intro pid' fd e he
        simp only [Node.fd?, Node.setTable, upd_apply] at he
        split at he
        · rename_i q
          split at q
          · cases q; simp [FdTable.default] at he
          · exact h.fds pid' fd e (by simp [Node.fd?, q, he])
        · cases he
  | fileOpen pid name flags modes => exact n.fileOpen_inv h pid name flags modes env
  | fileWrite pid fd m d off => exact n.fileWrite_inv h pid fd d off env
  | fileClose pid fd =>
    simp only [Node.dispatchMut, Node.fileClose]
    cases hp : n.procs pid with
    | none => exact ⟨h, .refl _⟩
    | some t =>
      simp only [FdTable.deallocate]
      cases ht : t fd with
      | none =>
        refine ⟨⟨h.fs, ?_⟩, .refl _⟩
        intro pid' fd' e he
        apply h.fds pid' fd' e
        simp only [Node.fd?, Node.setTable, upd_apply] at he ⊢
        by_cases q : pid' = pid
        · subst q; simpa [hp] using he
        · simpa [q] using he
      | some e0 =>
        refine ⟨⟨h.fs, ?_⟩, .refl _⟩
        intro pid' fd' e he
        simp only [Node.setTable] at he
        rw [Node.setEntry_fd? n pid t hp] at he
        split at he
        · cases he
        · exact h.fds _ _ _ he
  | fileDelete pid name =>
    simp only [Node.dispatchMut, Node.fileDelete]
    cases hp : n.procs pid with
    | none => exact ⟨h, .refl _⟩
    | some t => exact fsonly _ (n.fs.delete_inv h.fs name env).1 (n.fs.delete_inv h.fs name env).2
  | fileRename pid old new =>
    simp only [Node.dispatchMut, Node.fileRename]
    cases hp : n.procs pid with
    | none => exact ⟨h, .refl _⟩
    | some t =>
      exact fsonly _ (n.fs.rename_inv h.fs old new env).1 (n.fs.rename_inv h.fs old new env).2
  | mkDir pid name modes =>
    simp only [Node.dispatchMut, Node.mkDir]
    cases hp : n.procs pid with
    | none => exact ⟨h, .refl _⟩
    | some t =>
      have := n.fs.addNode_inv h.fs name .directory trivial env
      exact fsonly _ this.1 this.2

theorem Node.dispatch_inv (n : Node) (h : n.Inv) (op : Access) :
    (n.dispatch op).2.Inv ∧ (n.dispatch op).2.fs = n.fs := by
  cases op with
  | fileRead pid fd m d off => exact n.fileRead_inv h pid fd d off
  | fileInfo pid name m =>
    simp only [Node.dispatch]; split
    · exact ⟨h, rfl⟩
    · split <;> exact ⟨h, rfl⟩
  | fdToMnode pid fd =>
    simp only [Node.dispatch]; split
    · exact ⟨h, rfl⟩
    · split <;> exact ⟨h, rfl⟩
  | fileNameToMnode pid name =>
    simp only [Node.dispatch]; split
    · exact ⟨h, rfl⟩
    · split <;> exact ⟨h, rfl⟩
  | synchronize l => exact ⟨h, rfl⟩

theorem Node.submitMut_inv (n : Node) (h : n.Inv) (nlogs : Nat) (op : Modify) (env : Env) :
    (n.submitMut nlogs op env).2.Inv ∧ n.fs.Evolves (n.submitMut nlogs op env).2.fs := by
  unfold Node.submitMut
  split
  · exact n.dispatchMut_inv h op env
  · exact ⟨h, .refl _⟩
  · exact ⟨h, .refl _⟩

theorem Node.submit_inv (n : Node) (h : n.Inv) (nlogs : Nat) (op : Access) :
    (n.submit nlogs op).2.Inv ∧ (n.submit nlogs op).2.fs = n.fs := by
  unfold Node.submit
  split
  · exact n.dispatch_inv h op
  · exact ⟨h, rfl⟩
  · exact ⟨h, rfl⟩

theorem Node.call_inv (n : Node) (h : n.Inv) (nlogs : Nat) (c : Call) (env : Env) :
    (n.call nlogs c env).2.Inv ∧ n.fs.Evolves (n.call nlogs c env).2.fs := by
  have sub : ∀ op, (n.submit nlogs op).2.Inv ∧ (n.submit nlogs op).2.fs = n.fs :=
    fun op => n.submit_inv h nlogs op
  cases c with
  | addProcess pid => exact n.submitMut_inv h nlogs _ env
  | «open» pid name flags modes => exact n.submitMut_inv h nlogs _ env
  | close pid fd => exact n.submitMut_inv h nlogs _ env
  | delete pid name => exact n.submitMut_inv h nlogs _ env
  | rename pid old new => exact n.submitMut_inv h nlogs _ env
  | mkdir pid name modes => exact n.submitMut_inv h nlogs _ env
  | write pid fd d off =>
    simp only [Node.call]
    have hs := sub (.fdToMnode pid fd)
    split
    all_goals
      rename_i e
      rw [e] at hs
    · have := Node.submitMut_inv _ hs.1 nlogs (.fileWrite pid fd (by assumption) d off) env
      rw [← hs.2]
      exact Node.submitMut_inv _ hs.1 nlogs _ env
    · exact ⟨hs.1, by rw [← hs.2]; exact .refl _⟩
    · exact ⟨hs.1, by rw [← hs.2]; exact .refl _⟩
    · exact ⟨hs.1, by rw [← hs.2]; exact .refl _⟩
  | read pid fd d off =>
    simp only [Node.call]
    have hs := sub (.fdToMnode pid fd)
    split
    all_goals
      rename_i e
      rw [e] at hs
    · have h2 := fun m => Node.submit_inv _ hs.1 nlogs (.fileRead pid fd m d off)
      refine ⟨(h2 _).1, ?_⟩
      rw [(h2 _).2, hs.2]
      exact .refl _
    · exact ⟨hs.1, by rw [← hs.2]; exact .refl _⟩
    · exact ⟨hs.1, by rw [← hs.2]; exact .refl _⟩
    · exact ⟨hs.1, by rw [← hs.2]; exact .refl _⟩
  | info pid name =>
    simp only [Node.call]
    have hs := sub (.fileNameToMnode pid name)
    split
    all_goals
      rename_i e
      rw [e] at hs
    · have h2 := fun m => Node.submit_inv _ hs.1 nlogs (.fileInfo pid name m)
      refine ⟨(h2 _).1, ?_⟩
      rw [(h2 _).2, hs.2]
      exact .refl _
    · exact ⟨hs.1, by rw [← hs.2]; exact .refl _⟩
    · exact ⟨hs.1, by rw [← hs.2]; exact .refl _⟩
    · exact ⟨hs.1, by rw [← hs.2]; exact .refl _⟩

theorem Node.calls_inv (n : Node) (h : n.Inv) (nlogs : Nat) (cs : List (Call × Env)) :
    (n.calls nlogs cs).2.Inv ∧ n.fs.Evolves (n.calls nlogs cs).2.fs := by
  induction cs generalizing n with
  | nil => exact ⟨h, .refl _⟩
  | cons c cs ih =>
    obtain ⟨c, env⟩ := c
    have h1 := n.call_inv h nlogs c env
    have h2 := ih _ h1.1
    exact ⟨h2.1, h1.2.trans h1.1.fs h.fs h2.2⟩

end NRK.Fs
