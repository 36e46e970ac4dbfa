import Verif.Proc.ProcModel
import Verif.Proc.CoreSetProps
import Verif.VSpace.VSpaceLemmas
import Verif.Mem.FrameProps

/-!
# Helper lemmas for the properties of processes
-/

namespace NRK.Proc

open NRK.VSpace NRK.Mem

/-- Some registered frame has this address. -/
def Frames.At (fs : Frames) (fid : Nat) (f : Frame) (n : Nat) : Prop := fs[fid]? = some (some f, n)

theorem get_ok {fs : Frames} {fid : Nat} {f : Frame} {n : Nat} :
    fs.get fid = .ok (f, n) ↔ fs.At fid f n := by
  unfold Frames.get Frames.At
  split
  · rename_i f' n' h; rw [h]; simp
  · rename_i h
    constructor
    · intro e; cases e
    · intro e; exact absurd e (h f n)

theorem removeMapping_spec (pa : Nat) : ∀ (fs : Frames) (fid : Nat) (f : Frame) (n : Nat),
    fs.At fid f n → f.base = pa → 0 < n →
    (∀ fid' f' n', fs.At fid' f' n' → f'.base = pa → fid' = fid) →
    fs.removeMapping pa = (fs.set fid (some f, n - 1), .ok ()) := by
  intro fs
  induction fs with
  | nil => intro fid f n h; simp [Frames.At] at h
  | cons e rest ih =>
    intro fid f n h hb hn hu
    have hrest : ∀ k, fid = k + 1 →
        Frames.removeMapping rest pa = (rest.set k (some f, n - 1), .ok ()) := by
      intro k hk
      subst hk
      refine ih k f n (by simpa [Frames.At] using h) hb hn ?_
      intro fid' f' n' h' hb'
      have := hu (fid' + 1) f' n' (by simpa [Frames.At] using h') hb'
      omega
    obtain ⟨of, m⟩ := e
    cases of with
    | none =>
      cases fid with
      | zero => simp [Frames.At] at h
      | succ k =>
        unfold Frames.removeMapping
        rw [hrest k rfl]
        rfl
    | some g =>
      cases fid with
      | zero =>
        simp [Frames.At] at h
        obtain ⟨rfl, rfl⟩ := h
        unfold Frames.removeMapping
        rw [if_pos ⟨hb, hn⟩]
        rfl
      | succ k =>
        have hg : g.base ≠ pa := fun e => by
          have := hu 0 g m (by simp [Frames.At]) e
          omega
        unfold Frames.removeMapping
        rw [if_neg (fun h => hg h.1), if_neg hg, hrest k rfl]
        rfl

theorem add_spec (fs : Frames) (f : Frame) :
    (∃ (fid n : Nat), fs[fid]? = some (none, n) ∧ fs.add f = (fs.set fid (some f, 0), .ok fid)) ∨
    ((∀ (fid n : Nat), fs[fid]? ≠ some (none, n)) ∧ fs.add f = (fs, .err .tooManyRegisteredFrames)) := by
  unfold Frames.add
  split
  · rename_i fid h
    left
    rw [List.findIdx?_eq_some_iff_getElem] at h
    obtain ⟨h1, h2, _⟩ := h
    have : fs[fid]? = some fs[fid] := List.getElem?_eq_getElem h1
    refine ⟨fid, fs[fid].2, ?_, rfl⟩
    rw [this]
    congr 1
    exact Prod.ext (by simpa using h2) rfl
  · rename_i h
    right
    refine ⟨?_, rfl⟩
    intro fid n e
    rw [List.findIdx?_eq_none_iff] at h
    have := h _ (List.mem_of_getElem? e)
    simp at this

theorem at_set {fs : Frames} {i : Nat} {e : Option Frame × Nat} {fid : Nat} {f : Frame} {n : Nat}
    (h : Frames.At (fs.set i e) fid f n) : (fid = i ∧ e = (some f, n)) ∨ (fid ≠ i ∧ fs.At fid f n) := by
  unfold Frames.At at h
  rw [List.getElem?_set] at h
  split at h
  · rename_i hi
    split at h
    · cases h; exact Or.inl ⟨hi.symm, rfl⟩
    · cases h
  · rename_i hi; exact Or.inr ⟨fun e => hi e.symm, h⟩

theorem at_set_same {fs : Frames} {i : Nat} {f : Frame} {n : Nat} (hi : i < fs.length) :
    Frames.At (fs.set i (some f, n)) i f n := by
  unfold Frames.At
  rw [List.getElem?_set, if_pos rfl, if_pos hi]

theorem at_set_other {fs : Frames} {i : Nat} {e : Option Frame × Nat} {fid : Nat} {f : Frame} {n : Nat}
    (h : fs.At fid f n) (hne : fid ≠ i) : Frames.At (fs.set i e) fid f n := by
  unfold Frames.At
  rw [List.getElem?_set, if_neg (fun e => hne e.symm)]
  exact h

theorem at_lt {fs : Frames} {fid : Nat} {f : Frame} {n : Nat} (h : fs.At fid f n) : fid < fs.length := by
  unfold Frames.At at h
  exact (List.getElem?_eq_some_iff.1 h).1

theorem at_inj {fs : Frames} {fid : Nat} {f f' : Frame} {n n' : Nat} (h : fs.At fid f n)
    (h' : fs.At fid f' n') : f = f' ∧ n = n' := by
  unfold Frames.At at h h'
  rw [h] at h'
  simpa using h'

/-! ## Counting mappings -/

theorem countP_insertMap (p : Nat × MappingInfo → Bool) (b : Nat) (i : MappingInfo) :
    ∀ l, (insertMap b i l).countP p = l.countP p + if p (b, i) then 1 else 0 := by
  intro l
  induction l with
  | nil => simp [insertMap, List.countP_cons]
  | cons q l ih =>
    unfold insertMap
    split
    · rw [List.countP_cons]
    · rw [List.countP_cons, ih, List.countP_cons]; omega

theorem countP_remove (p : Nat × MappingInfo → Bool) (q : Nat × MappingInfo) :
    ∀ l : List (Nat × MappingInfo), l.Pairwise (fun a b => a.1 ≠ b.1) → q ∈ l →
      l.countP p = (l.filter (fun r => decide (r.1 ≠ q.1))).countP p + if p q then 1 else 0 := by
  intro l
  induction l with
  | nil => intro _ h; cases h
  | cons r l ih =>
    intro hp hm
    obtain ⟨h1, h2⟩ := List.pairwise_cons.1 hp
    rcases List.mem_cons.1 hm with rfl | hm
    · have hf : l.filter (fun r => decide (r.1 ≠ q.1)) = l := by
        apply List.filter_eq_self.2
        intro a ha
        simpa using fun e => h1 a ha e.symm
      rw [List.filter_cons_of_neg (by simp), hf, List.countP_cons]
    · have hne : r.1 ≠ q.1 := h1 q hm
      rw [List.filter_cons_of_pos (by simpa using hne), List.countP_cons, List.countP_cons, ih h2 hm]
      omega

end NRK.Proc
