import Verif.Fs.RefLemmas

/-!
# Simulation between the file system and the reference log
-/

namespace NRK.Fs

open Spec (overwrite zeroExtend writeAt readAt)

/-- The file system and the log describe the same files. -/
structure Tracks (fs : MlnrFS) (m : ModelFS) : Prop where
  inv : fs.Inv
  next : fs.next = m.counter + 1
  dist : m.oplog.Pairwise Distinct
  names : ∀ name mn, fs.files name = some mn ↔ ∃ md, RefOp.created name md mn ∈ m.oplog
  kinds : ∀ name md mn, RefOp.created name md mn ∈ m.oplog →
    ∃ x, fs.mnodes mn = some x ∧ x.canRead = md.readable ∧ x.canWrite = md.writable
  fresh : ∀ o ∈ m.oplog, ∀ mn, o.target = some mn → mn < fs.next
  out : ∀ mn x, fs.mnodes mn = some x → ∀ i, x.bytes.length ≤ i → lastWrite m.oplog mn i = none
  same : ∀ mn x, fs.mnodes mn = some x → ∀ i b, x.bytes[i]? = some b → b = (lastWrite m.oplog mn i).getD 0

theorem Tracks.path {fs : MlnrFS} {m : ModelFS} (h : Tracks fs m) (name : String) :
    m.pathToMnode name = fs.files name := by
  unfold ModelFS.pathToMnode
  cases hf : fs.files name with
  | some mn =>
    obtain ⟨md, hm⟩ := (h.names name mn).1 hf
    exact pathToMnode_some h.dist hm
  | none =>
    rw [List.findSome?_eq_none_iff]
    intro o ho
    cases hq : o.namedMnode name with
    | none => rfl
    | some mn =>
      obtain ⟨md, rfl⟩ := namedMnode_eq.1 hq
      rw [(h.names name mn).2 ⟨md, List.mem_reverse.1 ho⟩] at hf
      cases hf

theorem Tracks.entry {fs : MlnrFS} {m : ModelFS} (h : Tracks fs m) {mn : Nat} {x : MemNode}
    (hx : fs.mnodes mn = some x) :
    ∃ name md, RefOp.created name md mn ∈ m.oplog ∧ x.canRead = md.readable ∧ x.canWrite = md.writable := by
  obtain ⟨a, ha⟩ := h.inv.named mn x hx
  obtain ⟨md, hm⟩ := (h.names a mn).1 ha
  obtain ⟨y, hy, h1, h2⟩ := h.kinds a md mn hm
  rw [hx] at hy; cases hy
  exact ⟨a, md, hm, h1, h2⟩

theorem Tracks.exists_iff {fs : MlnrFS} {m : ModelFS} (h : Tracks fs m) (mn : Nat) :
    m.mnodeExists mn = (fs.mnodes mn).isSome := by
  unfold ModelFS.mnodeExists
  cases hx : fs.mnodes mn with
  | some x =>
    obtain ⟨name, md, hm, _⟩ := h.entry hx
    rw [Option.isSome_some, List.any_eq_true]
    exact ⟨_, hm, by simp [RefOp.creates]⟩
  | none =>
    rw [Option.isSome_none, List.any_eq_false]
    intro o ho hc
    cases o with
    | write => simp [RefOp.creates] at hc
    | created name md k =>
      simp [RefOp.creates] at hc
      subst hc
      obtain ⟨x, hx', _⟩ := h.kinds name md k ho
      rw [hx] at hx'; cases hx'

/-- All entries of an inode have the same permissions. -/
theorem Tracks.modes {fs : MlnrFS} {m : ModelFS} (h : Tracks fs m) {mn : Nat} {x : MemNode}
    (hx : fs.mnodes mn = some x) {name : String} {md : Modes} (hm : RefOp.created name md mn ∈ m.oplog) :
    md.readable = x.canRead ∧ md.writable = x.canWrite := by
  obtain ⟨y, hy, h1, h2⟩ := h.kinds name md mn hm
  rw [hx] at hy; cases hy
  exact ⟨h1.symm, h2.symm⟩

/-! ## create -/

theorem Tracks.create {fs : MlnrFS} {m : ModelFS} (h : Tracks fs m) (name : String) (modes : Modes) :
    (fs.create name modes .good).1 = (m.create name modes).1 ∧
      Tracks (fs.create name modes .good).2 (m.create name modes).2 := by
  have hinv := (fs.addNode_inv h.inv name (.file (File.new modes)) (by
    show Chunked []; simp [Chunked]) .good).1
  unfold MlnrFS.create ModelFS.create
  rw [h.path]
  unfold MlnrFS.addNode at hinv ⊢
  cases hf : fs.files name with
  | some mn => exact ⟨rfl, h⟩
  | none =>
    rw [hf] at hinv
    have hg : Env.good.createOom = false := rfl
    simp only [hg, Bool.false_eq_true, if_false, Option.isSome_none] at hinv ⊢
    refine ⟨by rw [h.next], hinv, ?_, ?_, ?_, ?_, ?_, ?_, ?_⟩
    · show fs.next + 1 = m.counter + 1 + 1; rw [h.next]
    · show (m.oplog ++ [_]).Pairwise _
      rw [List.pairwise_append]
      refine ⟨h.dist, List.pairwise_singleton _ _, ?_⟩
      intro o ho b hb
      rw [List.mem_singleton] at hb; subst hb
      cases o with
      | write => trivial
      | created n md k =>
        obtain ⟨x, hx, _⟩ := h.kinds n md k ho
        have hlt := (h.inv.bound k x hx).2
        refine ⟨?_, by have := h.next; omega⟩
        rintro rfl
        rw [(h.names n k).2 ⟨md, ho⟩] at hf; cases hf
    · intro n k
      show (upd fs.files name (some fs.next)) n = some k ↔ ∃ md, _ ∈ m.oplog ++ [_]
      rw [upd_apply]
      constructor
      · intro hk
        split at hk
        · rename_i e
          cases hk
          exact ⟨modes, List.mem_append.2 (Or.inr (by rw [e, h.next]; simp))⟩
        · obtain ⟨md, hm⟩ := (h.names n k).1 hk
          exact ⟨md, List.mem_append.2 (Or.inl hm)⟩
      · rintro ⟨md, hm⟩
        rcases List.mem_append.1 hm with hm | hm
        · have := (h.names n k).2 ⟨md, hm⟩
          rw [if_neg, this]
          rintro rfl
          rw [this] at hf; cases hf
        · rw [List.mem_singleton] at hm; cases hm
          rw [if_pos rfl, h.next]
    · intro n md k hm
      show ∃ x, (upd fs.mnodes fs.next _) k = some x ∧ _
      rw [upd_apply]
      rcases List.mem_append.1 hm with hm | hm
      · obtain ⟨x, hx, h1⟩ := h.kinds n md k hm
        have hlt := (h.inv.bound k x hx).2
        rw [if_neg (by omega)]
        exact ⟨x, hx, h1⟩
      · rw [List.mem_singleton] at hm; cases hm
        rw [if_pos h.next.symm]
        exact ⟨_, rfl, rfl, rfl⟩
    · intro o ho k hk
      show k < fs.next + 1
      rcases List.mem_append.1 ho with ho | ho
      · have := h.fresh o ho k hk; omega
      · rw [List.mem_singleton] at ho; subst ho; cases hk
    all_goals
      intro k x hx i
      have hx' : (upd fs.mnodes fs.next (some (.file (File.new modes)))) k = some x := hx
      rw [upd_apply] at hx'
      show _
      rw [lastWrite_append]
      show _
    · intro hi
      show lastWrite m.oplog k i = none
      split at hx'
      · rename_i e
        subst e
        exact lastWrite_fresh (fun o ho e => Nat.lt_irrefl _ (h.fresh o ho _ e)) i
      · exact h.out k x hx' i hi
    · intro b hb
      show b = (lastWrite m.oplog k i).getD 0
      split at hx'
      · cases hx'
        simp [MemNode.bytes, File.new] at hb
      · exact h.same k x hx' i b hb

/-! ## write -/

theorem Tracks.replace {fs : MlnrFS} {m : ModelFS} (h : Tracks fs m) {mn : Nat} {x y : MemNode}
    (hx : fs.mnodes mn = some x) (hr : y.canRead = x.canRead) (hw : y.canWrite = x.canWrite) {l : List RefOp}
    (hinv : MlnrFS.Inv { fs with mnodes := upd fs.mnodes mn (some y) })
    (hl : l = m.oplog ∨ ∃ o p n, l = m.oplog ++ [.write mn o p n])
    (hout : ∀ i, y.bytes.length ≤ i → lastWrite l mn i = none)
    (hsame : ∀ i b, y.bytes[i]? = some b → b = (lastWrite l mn i).getD 0) :
    Tracks { fs with mnodes := upd fs.mnodes mn (some y) } { m with oplog := l } := by
  have hmem : ∀ n md k, RefOp.created n md k ∈ l ↔ RefOp.created n md k ∈ m.oplog := by
    intro n md k
    rcases hl with rfl | ⟨o, p, n', rfl⟩
    · rfl
    · simp
  have hlw : ∀ k i, k ≠ mn → lastWrite l k i = lastWrite m.oplog k i := by
    intro k i hk
    rcases hl with rfl | ⟨o, p, n', rfl⟩
    · rfl
    · rw [lastWrite_append]
      have : RefOp.patAt k i (.write mn o p n') = none := by
        simp only [RefOp.patAt]
        rw [if_neg]
        rintro ⟨e, _⟩
        exact hk e.symm
      rw [this]; rfl
  refine ⟨hinv, h.next, ?_, ?_, ?_, ?_, ?_, ?_⟩
  · rcases hl with rfl | ⟨o, p, n', rfl⟩
    · exact h.dist
    · show (m.oplog ++ [_]).Pairwise _
      rw [List.pairwise_append]
      refine ⟨h.dist, List.pairwise_singleton _ _, ?_⟩
      intro a _ b hb
      rw [List.mem_singleton] at hb; subst hb
      cases a <;> trivial
  · intro n k
    show fs.files n = some k ↔ ∃ md, _ ∈ l
    rw [h.names n k]
    constructor <;> rintro ⟨md, hm⟩ <;> exact ⟨md, by rw [hmem] at *; exact hm⟩
  · intro n md k hm
    have hm' := (hmem n md k).1 hm
    obtain ⟨z, hz, h1, h2⟩ := h.kinds n md k hm'
    show ∃ x, (upd fs.mnodes mn (some y)) k = some x ∧ _
    rw [upd_apply]
    split
    · rename_i e
      subst e
      rw [hx] at hz; cases hz
      exact ⟨y, rfl, by rw [hr, h1], by rw [hw, h2]⟩
    · exact ⟨z, hz, h1, h2⟩
  · intro o ho k hk
    rcases hl with rfl | ⟨o', p, n', rfl⟩
    · exact h.fresh o ho k hk
    · rcases List.mem_append.1 ho with ho | ho
      · exact h.fresh o ho k hk
      · rw [List.mem_singleton] at ho; subst ho
        cases hk
        exact (h.inv.bound mn x hx).2
  · intro k z hz i hi
    have hz' : (upd fs.mnodes mn (some y)) k = some z := hz
    rw [upd_apply] at hz'
    split at hz'
    · rename_i e; subst e; cases hz'; exact hout i hi
    · rename_i e; show lastWrite l k i = none; rw [hlw k i e]; exact h.out k z hz' i hi
  · intro k z hz i b hb
    have hz' : (upd fs.mnodes mn (some y)) k = some z := hz
    rw [upd_apply] at hz'
    split at hz'
    · rename_i e; subst e; cases hz'; exact hsame i b hb
    · rename_i e; show b = (lastWrite l k i).getD 0; rw [hlw k i e]; exact h.same k z hz' i b hb

theorem Tracks.write {fs : MlnrFS} {m : ModelFS} (h : Tracks fs m) (mn off : Nat) (pat : UInt8) (len : Nat) :
    (fs.write mn (List.replicate len pat) off .good).1 = (m.write mn (List.replicate len pat) off).1 ∧
      Tracks (fs.write mn (List.replicate len pat) off .good).2 (m.write mn (List.replicate len pat) off).2 ∧
      ∀ x, (fs.write mn (List.replicate len pat) off .good).1 = .ok len → fs.mnodes mn = some x →
        ∃ y, (fs.write mn (List.replicate len pat) off .good).2.mnodes mn = some y ∧
          y.bytes = writeAt x.bytes off (List.replicate len pat) := by
  have hinv := (fs.write_inv h.inv mn (List.replicate len pat) off .good).1
  unfold MlnrFS.write at hinv ⊢
  unfold ModelFS.write
  rw [h.exists_iff]
  cases hx : fs.mnodes mn with
  | none => exact ⟨rfl, h, fun x _ hx => by cases hx⟩
  | some x =>
    rw [hx] at hinv
    obtain ⟨_, hcw, hcr, _, hno, hyes⟩ := runOp_wf x (.write off (List.replicate len pat)) .none (h.inv.wf mn x hx)
    have hrun : x.runOp (.write off (List.replicate len pat)) .none =
      x.write (List.replicate len pat) off Env.good.oom := rfl
    rw [hrun] at hcw hcr hno hyes
    have hden : m.oplog.any (RefOp.noWrite mn) = !x.canWrite := by
      cases hw : x.canWrite with
      | true =>
        rw [Bool.not_true, List.any_eq_false]
        intro o ho hc
        cases o with
        | write => simp [RefOp.noWrite] at hc
        | created n md k =>
          simp [RefOp.noWrite] at hc
          obtain ⟨rfl, hc⟩ := hc
          rw [(h.modes hx ho).2, hw] at hc; cases hc
      | false =>
        rw [Bool.not_false, List.any_eq_true]
        obtain ⟨n, md, hm, _, h2⟩ := h.entry hx
        exact ⟨_, hm, by simp [RefOp.noWrite, ← h2, hw]⟩
    simp only [Option.isSome_some, if_true, hden]
    cases hw : x.canWrite with
    | false =>
      obtain ⟨e1, e2⟩ := hno hw
      simp only [Bool.not_false, if_true]
      rw [e1, e2]
      refine ⟨rfl, ?_, fun _ h => by cases h⟩
      have : ({ fs with mnodes := upd fs.mnodes mn (some x) } : MlnrFS) = fs := by
        have : upd fs.mnodes mn (some x) = fs.mnodes := by
          funext k
          rw [upd_apply]
          split
          · rename_i e; rw [e, hx]
          · rfl
        rw [this]
      rw [this]; exact h
    | true =>
      rcases hyes hw with ⟨e1, e2⟩ | ⟨_, hne, _⟩
      · have e1' : (x.write (List.replicate len pat) off Env.good.oom).1 = .ok len := by
          rw [e1]; simp [expected]
        have e2' : (x.write (List.replicate len pat) off Env.good.oom).2.bytes =
          writeAt x.bytes off (List.replicate len pat) := e2
        simp only [Bool.not_true, Bool.false_eq_true, if_false]
        rw [e1']
        have hthird : ∀ z, (Outcome.ok len : Outcome Nat) = .ok len → some x = some z →
            ∃ y, (upd fs.mnodes mn (some (x.write (List.replicate len pat) off Env.good.oom).2)) mn = some y ∧
              y.bytes = writeAt z.bytes off (List.replicate len pat) := by
          intro z _ hz
          cases hz
          exact ⟨_, by rw [upd_apply, if_pos rfl], e2'⟩
        cases len with
        | zero =>
          refine ⟨rfl, ?_, hthird⟩
          have := h.replace (l := m.oplog) hx hcr hcw hinv (Or.inl rfl) ?_ ?_
          · exact this
          · intro i hi
            refine h.out mn x hx i ?_
            rw [e2', writeAt_length] at hi; omega
          · intro i b hb
            rw [e2', writeAt_getElem?] at hb
            have hn : ¬ (off ≤ i ∧ i < off + (List.replicate 0 pat).length) := by simp
            rw [if_neg hn] at hb
            split at hb
            · exact h.same mn x hx i b hb
            · split at hb
              · cases hb
                rw [h.out mn x hx i (by omega)]; rfl
              · cases hb
        | succ n =>
          refine ⟨by simp [List.replicate_succ], ?_, hthird⟩
          have hlen : (List.replicate (n + 1) pat).length = n + 1 := List.length_replicate
          show Tracks _ { m with oplog := m.oplog ++ [.write mn off pat (List.replicate (n + 1) pat).length] }
          rw [hlen]
          refine h.replace hx hcr hcw hinv (Or.inr ⟨_, _, _, rfl⟩) ?_ ?_
          · intro i hi
            rw [e2', writeAt_length, hlen] at hi
            rw [lastWrite_append]
            have : RefOp.patAt mn i (.write mn off pat (n + 1)) = none := by
              simp only [RefOp.patAt]
              rw [if_neg (by omega)]
            rw [this]
            exact h.out mn x hx i (by omega)
          · intro i b hb
            rw [e2', writeAt_getElem?, hlen] at hb
            rw [lastWrite_append]
            by_cases hi : off ≤ i ∧ i < off + (n + 1)
            · have : RefOp.patAt mn i (.write mn off pat (n + 1)) = some pat := by
                simp only [RefOp.patAt]
                rw [if_pos ⟨trivial, hi⟩]
              rw [this]
              rw [if_pos hi, List.getElem?_replicate, if_pos (by omega)] at hb
              cases hb; rfl
            · have : RefOp.patAt mn i (.write mn off pat (n + 1)) = none := by
                simp only [RefOp.patAt]
                rw [if_neg (fun h => hi h.2)]
              rw [this]
              rw [if_neg hi] at hb
              show b = (lastWrite m.oplog mn i).getD 0
              split at hb
              · exact h.same mn x hx i b hb
              · split at hb
                · cases hb
                  rw [h.out mn x hx i (by omega)]; rfl
                · cases hb
      · exact absurd rfl hne

/-! ## delete -/

theorem Tracks.delete {fs : MlnrFS} {m : ModelFS} (h : Tracks fs m) (name : String) :
    (fs.delete name .good).1 = (m.delete name).1 ∧ Tracks (fs.delete name .good).2 (m.delete name).2 := by
  have hinv := (fs.delete_inv h.inv name .good).1
  unfold MlnrFS.delete at hinv ⊢
  unfold ModelFS.delete
  cases hf : fs.files name with
  | none =>
    have : lastIdx name m.oplog = none := by
      cases hq : lastIdx name m.oplog with
      | none => rfl
      | some k =>
        obtain ⟨md, mn, hm⟩ := lastIdx_some hq
        rw [(h.names name mn).2 ⟨md, List.mem_of_getElem? hm⟩] at hf
        cases hf
    rw [this]; exact ⟨rfl, h⟩
  | some mn =>
    rw [hf] at hinv
    have hg : Env.good.pinned = false := rfl
    simp only [hg, Bool.false_eq_true, if_false] at hinv ⊢
    cases hq : lastIdx name m.oplog with
    | none =>
      obtain ⟨md, hm⟩ := (h.names name mn).1 hf
      exact absurd hm (lastIdx_none hq md mn)
    | some k =>
      obtain ⟨md, mn', hm⟩ := lastIdx_some hq
      have : mn' = mn := by
        have := (h.names name mn').2 ⟨md, List.mem_of_getElem? hm⟩
        rw [hf] at this; cases this; rfl
      subst this
      have hmem := mem_eraseIdx_distinct h.dist hm
      have hlw : ∀ j i, lastWrite (m.oplog.eraseIdx k) j i = lastWrite m.oplog j i := by
        intro j i
        refine lastWrite_eraseIdx _ _ (fun o ho => ?_)
        rw [hm] at ho; cases ho; rfl
      refine ⟨rfl, hinv, h.next, h.dist.sublist (List.eraseIdx_sublist _ _), ?_, ?_, ?_, ?_, ?_⟩
      · intro n j
        show (upd fs.files name none) n = some j ↔ ∃ md, _ ∈ m.oplog.eraseIdx k
        rw [upd_apply]
        constructor
        · intro hj
          split at hj
          · cases hj
          · rename_i hne
            obtain ⟨md, hmd⟩ := (h.names n j).1 hj
            exact ⟨md, (hmem n md j).2 ⟨hmd, hne⟩⟩
        · rintro ⟨md, hmd⟩
          obtain ⟨hmd, hne⟩ := (hmem n md j).1 hmd
          rw [if_neg hne]
          exact (h.names n j).2 ⟨md, hmd⟩
      · intro n md' j hj
        obtain ⟨hj, hne⟩ := (hmem n md' j).1 hj
        obtain ⟨x, hx, h1⟩ := h.kinds n md' j hj
        show ∃ x, (upd fs.mnodes mn' none) j = some x ∧ _
        rw [upd_apply, if_neg]
        · exact ⟨x, hx, h1⟩
        · rintro rfl
          exact hne (h.inv.inj _ _ _ ((h.names n j).2 ⟨md', hj⟩) hf)
      · intro o ho j hj
        exact h.fresh o ((List.eraseIdx_sublist _ _).subset ho) j hj
      · intro j x hx i hi
        have hx' : (upd fs.mnodes mn' none) j = some x := hx
        rw [upd_apply] at hx'
        split at hx'
        · cases hx'
        · show lastWrite (m.oplog.eraseIdx k) j i = none
          rw [hlw]; exact h.out j x hx' i hi
      · intro j x hx i b hb
        have hx' : (upd fs.mnodes mn' none) j = some x := hx
        rw [upd_apply] at hx'
        split at hx'
        · cases hx'
        · show b = (lastWrite (m.oplog.eraseIdx k) j i).getD 0
          rw [hlw]; exact h.same j x hx' i b hb

/-! ## read -/

/-- What the two reads give. -/
theorem Tracks.read {fs : MlnrFS} {m : ModelFS} (h : Tracks fs m) (mn : Nat) (dst : List UInt8) (off : Nat) :
    (fs.read mn dst off = m.read mn dst off ∧ ∃ e, fs.read mn dst off = .err e) ∨
    ∃ x n b k b', fs.mnodes mn = some x ∧ fs.read mn dst off = .ok (n, b) ∧ m.read mn dst off = .ok (k, b') ∧
      n = min (x.bytes.length - off) dst.length ∧ b.length = dst.length ∧ b'.length = dst.length ∧ k ≤ n ∧
      b.take n = b'.take n ∧ (∀ i, k ≤ i → i < n → b[i]? = some 0 ∧ lastWrite m.oplog mn (off + i) = none) := by
  unfold MlnrFS.read ModelFS.read
  rw [h.exists_iff]
  cases hx : fs.mnodes mn with
  | none => exact Or.inl ⟨rfl, _, rfl⟩
  | some x =>
    simp only [Option.isSome_some, if_true]
    cases hr : x.canRead with
    | false =>
      left
      have h1 : x.read dst off = .err .permissionError := by
        cases x with
        | directory => rfl
        | file f =>
          have : f.modes.readable = false := hr
          unfold MemNode.read
          simp [this]
      have h2 : gather mn off m.oplog.reverse (List.replicate dst.length none) = none := by
        obtain ⟨n, md, hm, h3, _⟩ := h.entry hx
        exact gather_denied mn off _ _ ⟨n, md, List.mem_reverse.2 hm, by rw [← h3, hr]⟩
      rw [h1, h2]
      exact ⟨rfl, _, rfl⟩
    | true =>
      right
      obtain ⟨f, rfl⟩ : ∃ f, x = .file f := file_of_canRead hr
      have hwf : Chunked f.mcache := h.inv.wf mn _ hx
      obtain ⟨buf, hg, hlen, hbuf⟩ := gather_spec mn off m.oplog.reverse (List.replicate dst.length none)
        (fun n md hm => by rw [(h.modes hx (List.mem_reverse.1 hm)).1, hr])
      rw [List.length_replicate] at hlen
      rw [read_spec f hwf hr dst off, hg]
      dsimp only
      have hby : (MemNode.file f).bytes = f.mcache.flatten := rfl
      have hout := h.out mn _ hx
      have hsame := h.same mn _ hx
      rw [hby] at hout hsame
      generalize f.mcache.flatten = bs at hout hsame hby
      have hrl : (readAt bs off dst.length).length = min (bs.length - off) dst.length := by
        simp [readAt]; omega
      have hbi : ∀ i, i < dst.length → buf[i]? = some (lastWrite m.oplog mn (off + i)) := by
        intro i hi
        rw [hbuf i none (by rw [List.getElem?_replicate, if_pos hi])]
        rfl
      obtain ⟨hc1, hc2, hc3⟩ := countRead_spec buf
      generalize countRead false buf.reverse = k at hc1 hc2 hc3 ⊢
      refine ⟨_, _, _, k, _, rfl, rfl, rfl, by rw [hrl, hby], ?_, (List.length_map _).trans hlen, ?_, ?_, ?_⟩
      · rw [List.length_append, List.length_drop, hrl]; omega
      · rw [hrl]
        cases k with
        | zero => omega
        | succ k =>
          obtain ⟨v, hv⟩ := hc3 k rfl
          rw [hbi k (by omega)] at hv
          have : off + k < bs.length := by
            apply Classical.byContradiction
            intro hge
            rw [hout (off + k) (by omega)] at hv
            cases hv
          omega
      · apply List.ext_getElem?
        intro i
        rw [List.getElem?_take, List.getElem?_take]
        by_cases hi : i < (readAt bs off dst.length).length
        · rw [if_pos hi, if_pos hi, List.getElem?_append_left hi, List.getElem?_map]
          rw [hrl] at hi
          rw [hbi i (by omega)]
          have hbs : ∃ b, bs[off + i]? = some b := ⟨bs[off + i]'(by omega), by rw [List.getElem?_eq_getElem]⟩
          obtain ⟨b, hb⟩ := hbs
          have : (readAt bs off dst.length)[i]? = some b := by
            unfold readAt
            rw [List.getElem?_take, if_pos (by omega), List.getElem?_drop, hb]
          rw [this, hsame _ b hb]
          rfl
        · rw [if_neg hi, if_neg hi]
      · intro i hk hi
        have hi' := hi
        rw [hrl] at hi
        have hnone := hc2 i hk (by omega)
        rw [hbi i (by omega)] at hnone
        have hnone' : lastWrite m.oplog mn (off + i) = none := Option.some.inj hnone
        refine ⟨?_, hnone'⟩
        rw [List.getElem?_append_left hi']
        have hbs : ∃ b, bs[off + i]? = some b := ⟨bs[off + i]'(by omega), by rw [List.getElem?_eq_getElem]⟩
        obtain ⟨b, hb⟩ := hbs
        have : (readAt bs off dst.length)[i]? = some b := by
          unfold readAt
          rw [List.getElem?_take, if_pos (by omega), List.getElem?_drop, hb]
        rw [this, hsame _ b hb, hnone']
        rfl

theorem Tracks.init : Tracks MlnrFS.init ModelFS.init := by
  refine ⟨MlnrFS.init_inv, rfl, List.pairwise_singleton _ _, ?_, ?_, ?_, ?_, ?_⟩
  · intro name mn
    simp only [MlnrFS.init, ModelFS.init, upd_apply, List.mem_singleton, RefOp.created.injEq]
    constructor
    · intro h
      split at h
      · rename_i e; cases h; exact ⟨_, e, rfl, rfl⟩
      · cases h
    · rintro ⟨md, rfl, _, rfl⟩; rfl
  · intro name md mn h
    simp only [ModelFS.init, List.mem_singleton, RefOp.created.injEq] at h
    obtain ⟨_, rfl, rfl⟩ := h
    exact ⟨.directory, by simp [MlnrFS.init], rfl, rfl⟩
  · intro o ho mn h
    simp only [ModelFS.init, List.mem_singleton] at ho
    subst ho; cases h
  · intro mn x hx i _
    exact lastWrite_fresh (fun o ho => by
      simp only [ModelFS.init, List.mem_singleton] at ho; subst ho; simp [RefOp.target]) i
  · intro mn x hx i b hb
    simp only [MlnrFS.init, upd_apply] at hx
    split at hx
    · cases hx; simp [MemNode.bytes] at hb
    · cases hx

end NRK.Fs
