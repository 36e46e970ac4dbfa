import Verif.Fs.FioSpec
import Verif.Fs.RefProps

/-!
# Simulation between the file system calls and the reference of the user program
-/

namespace NRK.Fs

open NRK.Sys (SysError)
open Spec (overwrite zeroExtend readAt)

/-! ## The log -/

theorem foldl_eraseIdx_succ (o : RefOp) : ∀ (is : List Nat) (l : List RefOp),
    (is.map (· + 1)).foldl List.eraseIdx (o :: l) = o :: is.foldl List.eraseIdx l := by
  intro is
  induction is with
  | nil => intro l; rfl
  | cons i is ih =>
    intro l
    rw [List.map_cons, List.foldl_cons, List.foldl_cons, List.eraseIdx_cons_succ, ih]

theorem removeEntries_eq (l : List RefOp) (mn : Nat) (c w : Bool) :
    removeEntries l mn c w = l.filter (fun o => !(o.removed mn c w)) := by
  unfold removeEntries
  generalize RefOp.removed mn c w = p
  induction l with
  | nil => rfl
  | cons o l ih =>
    rw [removedIdx, List.foldl_append, foldl_eraseIdx_succ, ih, List.filter_cons]
    cases p o with
    | true => rfl
    | false => rfl

theorem fileSizeGo_max (mn : Nat) : ∀ (l : List RefOp) (a b : Nat),
    fileSizeGo mn l (max a b) = max a (fileSizeGo mn l b) := by
  intro l
  induction l with
  | nil => intro a b; rfl
  | cons o l ih =>
    intro a b
    cases o with
    | write m o p n =>
      simp only [fileSizeGo]
      split
      · rw [← ih]; congr 1; omega
      · rw [ih]
    | created n md m =>
      simp only [fileSizeGo]
      split
      · rfl
      · rw [ih]

theorem fileSize_write (l : List RefOp) (mn off n k : Nat) (p : UInt8) :
    fileSize (l ++ [.write mn off p n]) k = if k = mn then max (off + n) (fileSize l k) else fileSize l k := by
  unfold fileSize
  rw [List.reverse_append, List.reverse_singleton, List.singleton_append]
  simp only [fileSizeGo]
  split
  · rw [fileSizeGo_max]
  · rfl

theorem fileSize_created (l : List RefOp) (name : String) (md : Modes) (mn k : Nat) :
    fileSize (l ++ [.created name md mn]) k = if k = mn then 0 else fileSize l k := by
  unfold fileSize
  rw [List.reverse_append, List.reverse_singleton, List.singleton_append]
  simp only [fileSizeGo]

theorem fileSize_filter (l : List RefOp) (mn k : Nat) (c w : Bool) (h : k ≠ mn) :
    fileSize (l.filter (fun o => !(o.removed mn c w))) k = fileSize l k := by
  unfold fileSize
  rw [← List.filter_reverse]
  generalize l.reverse = r
  generalize (0 : Nat) = len
  induction r generalizing len with
  | nil => rfl
  | cons o r ih =>
    rw [List.filter_cons]
    split
    · cases o with
      | write m o p n => simp only [fileSizeGo]; exact ih _
      | created n md m => simp only [fileSizeGo]; rw [ih]
    · rename_i hr
      rw [ih]
      cases o with
      | write m o p n =>
        simp [RefOp.removed] at hr
        simp only [fileSizeGo]
        rw [if_neg]
        omega
      | created n md m =>
        simp [RefOp.removed] at hr
        simp only [fileSizeGo]
        rw [if_neg]
        omega

theorem fileSize_none (l : List RefOp) (mn : Nat) (h : ∀ o ∈ l, o.target ≠ some mn) : fileSize l mn = 0 := by
  unfold fileSize
  have h' : ∀ o ∈ l.reverse, o.target ≠ some mn := fun o ho => h o (List.mem_reverse.1 ho)
  revert h'
  generalize l.reverse = r
  intro h'
  induction r with
  | nil => rfl
  | cons o r ih =>
    have ih' := ih (fun o ho => h' o (List.mem_cons_of_mem _ ho))
    cases o with
    | write m o p n =>
      simp only [fileSizeGo]
      rw [if_neg, ih']
      rintro rfl
      exact h' _ List.mem_cons_self rfl
    | created n md m =>
      simp only [fileSizeGo]
      split
      · rfl
      · exact ih'

theorem lastWrite_filter (l : List RefOp) (mn k i : Nat) (c w : Bool) (h : k ≠ mn) :
    lastWrite (l.filter (fun o => !(o.removed mn c w))) k i = lastWrite l k i := by
  unfold lastWrite
  rw [← List.filter_reverse]
  generalize l.reverse = r
  induction r with
  | nil => rfl
  | cons o r ih =>
    rw [List.filter_cons]
    split
    · rw [List.findSome?_cons, List.findSome?_cons, ih]
    · rename_i hr
      rw [ih, List.findSome?_cons]
      cases o with
      | write m o p n =>
        simp [RefOp.removed] at hr
        have : RefOp.patAt k i (.write m o p n) = none := by
          simp only [RefOp.patAt]
          rw [if_neg]
          rintro ⟨rfl, _⟩
          exact h hr.2.symm
        rw [this]
      | created n md m => rfl

theorem mem_filter_removed {l : List RefOp} {o : RefOp} {mn : Nat} {c w : Bool} :
    o ∈ l.filter (fun o => !(o.removed mn c w)) ↔ o ∈ l ∧ o.removed mn c w = false := by
  rw [List.mem_filter]; simp

/-! ## The relation -/

/-- The entries of a descriptor in the system and in the reference. -/
def FdRel : Option FdEntry → Option FdEntry → Prop
  | none, none => True
  | some e, some e' => e.mnode = e'.mnode ∧ e.flags = e'.flags ∧ (e.flags.append = false → e.offset = e'.offset) ∧ 2 ≤ e.mnode
  | _, _ => False

structure FioSim (pid : Nat) (n : Node) (m : ModelFIO) (t : FdTable) : Prop where
  tracks : Tracks n.fs m.log
  size : ∀ mn x, n.fs.mnodes mn = some x → x.bytes.length = fileSize m.log.oplog mn
  root : n.fs.files "/" = some 1
  table : n.procs pid = some t
  fds : ∀ fd, FdRel (t fd) (m.fds fd)

theorem FioSim.fd? {pid : Nat} {n : Node} {m : ModelFIO} {t : FdTable} (h : FioSim pid n m t) (fd : Fd) :
    n.fd? pid fd = t fd := by
  unfold Node.fd?
  rw [h.table]

theorem FdRel.isNone {a b : Option FdEntry} (h : FdRel a b) : a.isNone = b.isNone := by
  cases a <;> cases b <;> first | rfl | cases h

theorem FioSim.position {pid : Nat} {n : Node} {m : ModelFIO} {t : FdTable} (h : FioSim pid n m t) :
    m.fds.position = t.position := by
  unfold FdTable.position
  have : (fun i => (m.fds i).isNone) = fun i => (t i).isNone := by
    funext i; exact (h.fds i).isNone.symm
  rw [this]

theorem FdRel.upd {t t' : FdTable} (h : ∀ fd, FdRel (t fd) (t' fd)) (fd : Fd) {a b : Option FdEntry} (hab : FdRel a b) :
    ∀ i, FdRel (upd t fd a i) (upd t' fd b i) := by
  intro i
  rw [upd_apply, upd_apply]
  split
  · exact hab
  · exact h i

/-! ## Files truncated and deleted -/

theorem Tracks.truncate {fs : MlnrFS} {m : ModelFS} (h : Tracks fs m) {mn : Nat} {x y : MemNode}
    (hx : fs.mnodes mn = some x) (hr : y.canRead = x.canRead) (hw : y.canWrite = x.canWrite) (hy : y.bytes = [])
    (hinv : MlnrFS.Inv { fs with mnodes := upd fs.mnodes mn (some y) }) :
    Tracks { fs with mnodes := upd fs.mnodes mn (some y) }
      { m with oplog := removeEntries m.oplog mn false true } := by
  rw [removeEntries_eq]
  have hmem : ∀ n md k, RefOp.created n md k ∈ m.oplog.filter (fun o => !(o.removed mn false true)) ↔
      RefOp.created n md k ∈ m.oplog := by
    intro n md k
    rw [mem_filter_removed]
    exact ⟨fun h => h.1, fun h => ⟨h, rfl⟩⟩
  have hno : ∀ o ∈ m.oplog.filter (fun o => !(o.removed mn false true)), o.target ≠ some mn := by
    intro o ho
    rw [mem_filter_removed] at ho
    cases o with
    | created => simp [RefOp.target]
    | write k =>
      intro e
      cases e
      have := ho.2
      simp [RefOp.removed] at this
  refine ⟨hinv, h.next, h.dist.filter _, ?_, ?_, ?_, ?_, ?_⟩
  · intro n k
    show fs.files n = some k ↔ ∃ md, _ ∈ _
    rw [h.names n k]
    constructor <;> rintro ⟨md, hm⟩ <;> exact ⟨md, by rw [hmem] at *; exact hm⟩
  · intro n md k hm
    obtain ⟨z, hz, h1, h2⟩ := h.kinds n md k ((hmem n md k).1 hm)
    show ∃ x, (NRK.upd fs.mnodes mn (some y)) k = some x ∧ _
    rw [upd_apply]
    split
    · rename_i e
      subst e
      rw [hx] at hz; cases hz
      exact ⟨y, rfl, by rw [hr, h1], by rw [hw, h2]⟩
    · exact ⟨z, hz, h1, h2⟩
  · intro o ho k hk
    exact h.fresh o (mem_filter_removed.1 ho).1 k hk
  · intro k z hz i hi
    have hz' : (NRK.upd fs.mnodes mn (some y)) k = some z := hz
    rw [upd_apply] at hz'
    split at hz'
    · rename_i e; subst e; exact lastWrite_fresh hno i
    · rename_i e
      show lastWrite (m.oplog.filter _) k i = none
      rw [lastWrite_filter _ _ _ _ _ _ e]; exact h.out k z hz' i hi
  · intro k z hz i b hb
    have hz' : (NRK.upd fs.mnodes mn (some y)) k = some z := hz
    rw [upd_apply] at hz'
    split at hz'
    · cases hz'; rw [hy] at hb; simp at hb
    · rename_i e
      show b = (lastWrite (m.oplog.filter _) k i).getD 0
      rw [lastWrite_filter _ _ _ _ _ _ e]; exact h.same k z hz' i b hb

theorem Tracks.remove {fs : MlnrFS} {m : ModelFS} (h : Tracks fs m) {name : String} {mn : Nat}
    (hf : fs.files name = some mn)
    (hinv : MlnrFS.Inv { fs with mnodes := upd fs.mnodes mn none, files := upd fs.files name none }) :
    Tracks { fs with mnodes := upd fs.mnodes mn none, files := upd fs.files name none }
      { m with oplog := removeEntries m.oplog mn true true } := by
  rw [removeEntries_eq]
  have hmem : ∀ n md k, RefOp.created n md k ∈ m.oplog.filter (fun o => !(o.removed mn true true)) ↔
      RefOp.created n md k ∈ m.oplog ∧ k ≠ mn := by
    intro n md k
    rw [mem_filter_removed]
    simp [RefOp.removed]
    intro _
    constructor <;> exact fun h e => h e.symm
  refine ⟨hinv, h.next, h.dist.filter _, ?_, ?_, ?_, ?_, ?_⟩
  · intro n k
    show (NRK.upd fs.files name none) n = some k ↔ ∃ md, _ ∈ _
    rw [upd_apply]
    constructor
    · intro hk
      split at hk
      · cases hk
      · rename_i hne
        obtain ⟨md, hm⟩ := (h.names n k).1 hk
        refine ⟨md, (hmem n md k).2 ⟨hm, ?_⟩⟩
        rintro rfl
        exact hne (h.inv.inj _ _ _ hk hf)
    · rintro ⟨md, hm⟩
      obtain ⟨hm, hk⟩ := (hmem n md k).1 hm
      have := (h.names n k).2 ⟨md, hm⟩
      rw [if_neg, this]
      rintro rfl
      rw [this] at hf; cases hf; exact hk rfl
  · intro n md k hm
    obtain ⟨hm, hk⟩ := (hmem n md k).1 hm
    obtain ⟨z, hz, h1⟩ := h.kinds n md k hm
    show ∃ x, (NRK.upd fs.mnodes mn none) k = some x ∧ _
    rw [upd_apply, if_neg hk]
    exact ⟨z, hz, h1⟩
  · intro o ho k hk
    exact h.fresh o (mem_filter_removed.1 ho).1 k hk
  · intro k z hz i hi
    have hz' : (NRK.upd fs.mnodes mn none) k = some z := hz
    rw [upd_apply] at hz'
    split at hz'
    · cases hz'
    · rename_i e
      show lastWrite (m.oplog.filter _) k i = none
      rw [lastWrite_filter _ _ _ _ _ _ e]; exact h.out k z hz' i hi
  · intro k z hz i b hb
    have hz' : (NRK.upd fs.mnodes mn none) k = some z := hz
    rw [upd_apply] at hz'
    split at hz'
    · cases hz'
    · rename_i e
      show b = (lastWrite (m.oplog.filter _) k i).getD 0
      rw [lastWrite_filter _ _ _ _ _ _ e]; exact h.same k z hz' i b hb

end NRK.Fs
