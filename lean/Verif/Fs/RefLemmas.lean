import Verif.Fs.RefSpec
import Verif.Fs.FsLemmas

/-!
# The reference log and the file system
-/

namespace NRK.Fs

open Spec (overwrite zeroExtend writeAt readAt)

/-- The pattern an entry of the log puts at a position of an inode. -/
def RefOp.patAt (mn i : Nat) : RefOp → Option UInt8
  | .write m o p n => if m = mn ∧ o ≤ i ∧ i < o + n then some p else none
  | .created .. => none

/-- The last write to a position. -/
def lastWrite (l : List RefOp) (mn i : Nat) : Option UInt8 := l.reverse.findSome? (RefOp.patAt mn i)

theorem lastWrite_append (l : List RefOp) (o : RefOp) (mn i : Nat) :
    lastWrite (l ++ [o]) mn i = (o.patAt mn i).or (lastWrite l mn i) := by
  unfold lastWrite
  rw [List.reverse_append, List.reverse_singleton, List.singleton_append, List.findSome?_cons]
  cases o.patAt mn i <;> rfl

/-- The inode of a write. -/
def RefOp.target : RefOp → Option Nat
  | .write m _ _ _ => some m
  | .created .. => none

theorem lastWrite_fresh {l : List RefOp} {mn : Nat} (h : ∀ o ∈ l, o.target ≠ some mn) (i : Nat) :
    lastWrite l mn i = none := by
  unfold lastWrite
  rw [List.findSome?_eq_none_iff]
  intro o ho
  have := h o (List.mem_reverse.1 ho)
  cases o with
  | created n md m => rfl
  | write m o p n =>
    simp only [RefOp.patAt]
    rw [if_neg]
    rintro ⟨rfl, _⟩
    exact this rfl

theorem lastWrite_eraseIdx {mn i : Nat} : ∀ (l : List RefOp) (k : Nat),
    (∀ o, l[k]? = some o → o.patAt mn i = none) → lastWrite (l.eraseIdx k) mn i = lastWrite l mn i := by
  have key : ∀ l : List RefOp, lastWrite l mn i = l.foldl (fun acc o => (o.patAt mn i).or acc) none := by
    intro l
    unfold lastWrite
    rw [← List.foldr_reverse]
    generalize l.reverse = r
    induction r with
    | nil => rfl
    | cons o r ih =>
      rw [List.findSome?_cons, List.foldr_cons, ← ih]
      cases o.patAt mn i <;> rfl
  intro l k h
  rw [key, key]
  generalize (none : Option UInt8) = acc
  induction l generalizing k acc with
  | nil => rfl
  | cons a l ih =>
    cases k with
    | zero =>
      have := h a rfl
      show List.foldl _ acc l = List.foldl _ ((a.patAt mn i).or acc) l
      rw [this]; rfl
    | succ k =>
      show List.foldl _ ((a.patAt mn i).or acc) (l.eraseIdx k) = List.foldl _ ((a.patAt mn i).or acc) l
      exact ih k (fun o ho => h o ho) _

/-! ## Reading the log -/

theorem fillRange_length (off s e : Nat) (p : UInt8) (buf : List (Option UInt8)) :
    (fillRange off s e p buf).length = buf.length := by simp [fillRange]

theorem fillRange_getElem? (off s e : Nat) (p : UInt8) (buf : List (Option UInt8)) (i : Nat) :
    (fillRange off s e p buf)[i]? = (buf[i]?).map fun v =>
      v.or (if s ≤ off + i ∧ off + i < e then some p else none) := by
  unfold fillRange
  rw [List.getElem?_mapIdx]
  cases buf[i]? with
  | none => rfl
  | some v =>
    cases v with
    | some v => simp
    | none => simp

theorem gather_spec (mn off : Nat) : ∀ (l : List RefOp) (buf : List (Option UInt8)),
    (∀ n md, RefOp.created n md mn ∈ l → md.readable = true) →
    ∃ buf', gather mn off l buf = some buf' ∧ buf'.length = buf.length ∧
      ∀ i (v : Option UInt8), buf[i]? = some v → buf'[i]? = some (v.or (l.findSome? (RefOp.patAt mn (off + i)))) := by
  intro l
  induction l with
  | nil =>
    intro buf _
    refine ⟨buf, rfl, rfl, fun i v hv => ?_⟩
    rw [hv]; cases v <;> rfl
  | cons o l ih =>
    intro buf hr
    have hr' : ∀ n md, RefOp.created n md mn ∈ l → md.readable = true :=
      fun n md h => hr n md (List.mem_cons_of_mem _ h)
    cases o with
    | created n md m =>
      obtain ⟨buf', h1, h2, h3⟩ := ih buf hr'
      refine ⟨buf', ?_, h2, fun i v hv => ?_⟩
      · unfold gather
        rw [if_neg, h1]
        rintro ⟨rfl, hm⟩
        rw [hr n md (by simp)] at hm; cases hm
      · rw [h3 i v hv, List.findSome?_cons]; rfl
    | write m o p n =>
      by_cases hc : m = mn ∧ o < off + buf.length ∧ off < o + n
      · obtain ⟨buf', h1, h2, h3⟩ := ih (fillRange off o (o + n) p buf) hr'
        refine ⟨buf', ?_, by rw [h2, fillRange_length], fun i v hv => ?_⟩
        · unfold gather; rw [if_pos hc, h1]
        · rw [h3 i _ (by rw [fillRange_getElem?, hv]; rfl), List.findSome?_cons]
          congr 1
          simp only [RefOp.patAt]
          by_cases hi : o ≤ off + i ∧ off + i < o + n
          · rw [if_pos hi, if_pos ⟨hc.1, hi⟩]
            cases v <;> rfl
          · rw [if_neg hi, if_neg (fun h => hi h.2)]
            cases v <;> rfl
      · obtain ⟨buf', h1, h2, h3⟩ := ih buf hr'
        refine ⟨buf', ?_, h2, fun i v hv => ?_⟩
        · unfold gather; rw [if_neg hc, h1]
        · rw [h3 i v hv, List.findSome?_cons]
          have hlt : i < buf.length := by
            rw [List.getElem?_eq_some_iff] at hv; exact hv.1
          have : RefOp.patAt mn (off + i) (.write m o p n) = none := by
            simp only [RefOp.patAt]
            rw [if_neg]
            rintro ⟨rfl, h4, h5⟩
            exact hc ⟨rfl, by omega, by omega⟩
          rw [this]

theorem gather_denied (mn off : Nat) : ∀ (l : List RefOp) (buf : List (Option UInt8)),
    (∃ n md, RefOp.created n md mn ∈ l ∧ md.readable = false) → gather mn off l buf = none := by
  intro l
  induction l with
  | nil => rintro buf ⟨n, md, h, _⟩; cases h
  | cons o l ih =>
    rintro buf ⟨n, md, h, hm⟩
    rcases List.mem_cons.1 h with rfl | h'
    · unfold gather; rw [if_pos ⟨rfl, hm⟩]
    · cases o with
      | created n' md' m' =>
        unfold gather
        split
        · rfl
        · exact ih buf ⟨n, md, h', hm⟩
      | write m o p n' =>
        unfold gather
        split
        · exact ih _ ⟨n, md, h', hm⟩
        · exact ih _ ⟨n, md, h', hm⟩

theorem countRead_true (l : List (Option UInt8)) : countRead true l = l.length := by
  induction l with
  | nil => rfl
  | cons v l ih => rw [countRead, ih, List.length_cons]; omega

/-- The count is one more than the last position that was written. -/
theorem countRead_spec : ∀ (b : List (Option UInt8)),
    countRead false b.reverse ≤ b.length ∧
    (∀ i, countRead false b.reverse ≤ i → i < b.length → b[i]? = some none) ∧
    (∀ k, countRead false b.reverse = k + 1 → ∃ v, b[k]? = some (some v)) := by
  have key : ∀ r : List (Option UInt8), countRead false r ≤ r.length ∧
      (∀ i, countRead false r ≤ i → i < r.length → r.reverse[i]? = some none) ∧
      (∀ k, countRead false r = k + 1 → ∃ v, r.reverse[k]? = some (some v)) := by
    intro r
    induction r with
    | nil => exact ⟨Nat.le_refl _, fun i _ h => absurd h (by simp), fun k h => by simp [countRead] at h⟩
    | cons v r ih =>
      cases v with
      | some v =>
        have hc : countRead false (some v :: r) = r.length + 1 := by
          unfold countRead; rw [countRead_true]; simp; omega
        rw [hc]
        refine ⟨by simp, fun i h1 h2 => ?_, fun k hk => ?_⟩
        · rw [List.length_cons] at h2; omega
        · have : k = r.length := by omega
          subst this
          refine ⟨v, ?_⟩
          rw [List.reverse_cons, List.getElem?_append_right (by simp)]
          simp
      | none =>
        have hc : countRead false (none :: r) = countRead false r := by
          rw [countRead]; rfl
        rw [hc]
        refine ⟨by rw [List.length_cons]; omega, fun i h1 h2 => ?_, fun k hk => ?_⟩
        · rw [List.reverse_cons]
          by_cases hi : i < r.length
          · rw [List.getElem?_append_left (by simpa using hi)]
            exact ih.2.1 i h1 hi
          · have : i = r.length := by rw [List.length_cons] at h2; omega
            subst this
            rw [List.getElem?_append_right (by simp)]
            simp
        · obtain ⟨v, hv⟩ := ih.2.2 k hk
          refine ⟨v, ?_⟩
          rw [List.reverse_cons, List.getElem?_append_left, hv]
          have := ih.1
          rw [List.length_reverse]; omega
  intro b
  have := key b.reverse
  rw [List.reverse_reverse, List.length_reverse] at this
  exact this

/-! ## Names -/

/-- The log gives each name and each inode once. -/
def Distinct : RefOp → RefOp → Prop
  | .created n _ m, .created n' _ m' => n ≠ n' ∧ m ≠ m'
  | _, _ => True

theorem namedMnode_eq {name : String} {o : RefOp} {m : Nat} :
    o.namedMnode name = some m ↔ ∃ md, o = .created name md m := by
  cases o with
  | write => simp [RefOp.namedMnode]
  | created n md k =>
    unfold RefOp.namedMnode
    by_cases h : n = name
    · subst h; simp
    · simp [h]

theorem pathToMnode_some {l : List RefOp} (hd : l.Pairwise Distinct) {name : String} {md : Modes} {m : Nat}
    (h : RefOp.created name md m ∈ l) : l.reverse.findSome? (RefOp.namedMnode name) = some m := by
  cases hf : l.reverse.findSome? (RefOp.namedMnode name) with
  | none =>
    rw [List.findSome?_eq_none_iff] at hf
    have := hf _ (List.mem_reverse.2 h)
    rw [namedMnode_eq.2 ⟨md, rfl⟩] at this
    cases this
  | some k =>
    obtain ⟨o, ho, hk⟩ := List.exists_of_findSome?_eq_some hf
    obtain ⟨md', rfl⟩ := namedMnode_eq.1 hk
    have ho' := List.mem_reverse.1 ho
    clear hf hk ho
    congr 1
    induction l with
    | nil => cases h
    | cons a l ih =>
      rw [List.pairwise_cons] at hd
      rcases List.mem_cons.1 h with h1 | h1 <;> rcases List.mem_cons.1 ho' with h2 | h2
      · rw [← h1] at h2; cases h2; rfl
      · have := hd.1 _ h2; rw [← h1] at this; exact absurd rfl this.1
      · have := hd.1 _ h1; rw [← h2] at this; exact absurd rfl this.1
      · exact ih hd.2 h1 h2

theorem lastIdx_some {name : String} : ∀ {l : List RefOp} {k : Nat}, lastIdx name l = some k →
    ∃ md m, l[k]? = some (.created name md m) := by
  intro l
  induction l with
  | nil => intro k h; cases h
  | cons o l ih =>
    intro k h
    rw [lastIdx] at h
    cases hq : lastIdx name l with
    | some i =>
      rw [hq] at h; cases h
      exact ih hq
    | none =>
      rw [hq] at h
      simp only at h
      split at h
      · cases h
        rename_i hs
        rw [Option.isSome_iff_exists] at hs
        obtain ⟨m, hm⟩ := hs
        obtain ⟨md, rfl⟩ := namedMnode_eq.1 hm
        exact ⟨md, m, rfl⟩
      · cases h

theorem lastIdx_none {name : String} : ∀ {l : List RefOp}, lastIdx name l = none →
    ∀ md m, RefOp.created name md m ∉ l := by
  intro l
  induction l with
  | nil => intro _ md m h; cases h
  | cons o l ih =>
    intro h md m hm
    rw [lastIdx] at h
    cases hq : lastIdx name l with
    | some i => rw [hq] at h; cases h
    | none =>
      rw [hq] at h
      simp only at h
      rcases List.mem_cons.1 hm with rfl | hm
      · rw [if_pos] at h
        · cases h
        · rw [namedMnode_eq.2 ⟨md, rfl⟩]; rfl
      · exact ih hq md m hm

theorem mem_eraseIdx_distinct : ∀ {l : List RefOp} (_ : l.Pairwise Distinct) {k : Nat} {n : String} {md : Modes} {m : Nat},
    l[k]? = some (.created n md m) → ∀ n' md' m', (.created n' md' m' : RefOp) ∈ l.eraseIdx k ↔
      (RefOp.created n' md' m' ∈ l ∧ n' ≠ n) := by
  intro l
  induction l with
  | nil => intro _ k n md m h; simp at h
  | cons a l ih =>
    intro hd k n md m h n' md' m'
    rw [List.pairwise_cons] at hd
    cases k with
    | zero =>
      simp only [List.getElem?_cons_zero, Option.some.injEq] at h
      subst h
      rw [List.eraseIdx_zero, List.tail_cons, List.mem_cons]
      constructor
      · intro hm
        exact ⟨Or.inr hm, fun e => (hd.1 _ hm).1 e.symm⟩
      · rintro ⟨hm | hm, hne⟩
        · cases hm; exact absurd rfl hne
        · exact hm
    | succ k =>
      rw [List.getElem?_cons_succ] at h
      rw [List.eraseIdx_cons_succ, List.mem_cons, ih hd.2 h, List.mem_cons]
      constructor
      · rintro (rfl | ⟨hm, hne⟩)
        · exact ⟨Or.inl rfl, (hd.1 _ (List.mem_of_getElem? h)).1⟩
        · exact ⟨Or.inr hm, hne⟩
      · rintro ⟨rfl | hm, hne⟩
        · exact Or.inl rfl
        · exact Or.inr ⟨hm, hne⟩

end NRK.Fs
