import Verif.Mem.FrameModel

/-!
# C20: splitting and iterating frames
-/

namespace NRK.Mem

open Spec

theorem splitAt_ok (f : Frame) (hf : f.Ok) (size : Nat) (hs : size % BASE = 0) :
    f.splitAt size = .ok (if size ≥ f.size then (f, Frame.empty)
      else (⟨f.base, size, f.aff⟩, ⟨f.base + size, f.size - size, f.aff⟩)) := by
  obtain ⟨h1, h2⟩ := hf
  unfold Frame.splitAt
  rw [if_neg (by simp [hs])]
  split
  · rfl
  · unfold Frame.new
    rw [if_pos ⟨h1, hs⟩, if_pos (by momega)]

/-- **C20** Splitting at a page multiple gives two blocks that partition the original: each address
of the frame is in exactly one of them and no other address is in either.  The low part has the
asked size (or is everything), both parts are page aligned and keep the affinity. -/
theorem c20_split_at (f : Frame) (hf : f.Ok) (size : Nat) (hs : size % BASE = 0) :
    ∃ low high, f.splitAt size = .ok (low, high) ∧
      (∀ a, f.block.Has a ↔ low.block.Has a ∨ high.block.Has a) ∧
      Disjoint low.block high.block ∧
      low.size = min size f.size ∧ high.size = f.size - size ∧
      low.base = f.base ∧ low.Ok ∧ high.Ok ∧
      low.aff = f.aff ∧ (0 < high.size → high.aff = f.aff) := by
  rw [splitAt_ok f hf size hs]
  obtain ⟨h1, h2⟩ := hf
  split
  · refine ⟨_, _, rfl, ?_, ?_, ?_, ?_, rfl, ⟨h1, h2⟩, ?_, rfl, ?_⟩
    · intro a; simp only [Block.Has, Frame.block, Frame.empty]; omega
    · intro a; simp only [Block.Has, Frame.block, Frame.empty]; omega
    · omega
    · simp only [Frame.empty]; omega
    · simp [Frame.Ok, Frame.empty]
    · simp [Frame.empty]
  · refine ⟨_, _, rfl, ?_, ?_, ?_, rfl, rfl, ⟨h1, hs⟩, ?_, rfl, fun _ => rfl⟩
    · intro a; simp only [Block.Has, Frame.block]; omega
    · intro a; simp only [Block.Has, Frame.block]; omega
    · simp only; omega
    · constructor <;> simp only <;> momega

/-- **C20** A split size that is not a page multiple is refused (the documented panic). -/
theorem c20_split_at_panics (f : Frame) (size : Nat) (hs : size % BASE ≠ 0) :
    f.splitAt size = .panic := by
  unfold Frame.splitAt
  rw [if_pos hs]

theorem roundUp_large (n : Nat) (h : n % LARGE ≠ 0) :
    roundUp n LARGE % LARGE = 0 ∧ n < roundUp n LARGE ∧ roundUp n LARGE < n + LARGE := by
  unfold roundUp
  simp only [LARGE_eq] at *
  omega

/-- **C20** Splitting at the nearest large-page boundary: the parts partition the frame, the high
part starts on a 2 MiB boundary, and the low part contains no 2 MiB boundary (so it is shorter than
a large page). -/
theorem c20_split_at_large_boundary (f : Frame) (hf : f.Ok) :
    ∃ low high, f.splitAtLargeBoundary = .ok (low, high) ∧
      (∀ a, f.block.Has a ↔ low.block.Has a ∨ high.block.Has a) ∧
      Disjoint low.block high.block ∧ low.Ok ∧ high.Ok ∧
      high.base % LARGE = 0 ∧ (∀ a, low.block.Has a → a % LARGE ≠ 0) ∧ low.size < LARGE ∧
      (0 < low.size → low.aff = f.aff) ∧ (0 < high.size → high.aff = f.aff) := by
  unfold Frame.splitAtLargeBoundary
  split
  · rename_i h
    refine ⟨_, _, rfl, ?_, ?_, ?_, hf, h, ?_, ?_, ?_, fun _ => rfl⟩
    · intro a; simp only [Block.Has, Frame.block, Frame.empty]; omega
    · intro a; simp only [Block.Has, Frame.block, Frame.empty]; omega
    · simp [Frame.Ok, Frame.empty]
    · intro a; simp only [Block.Has, Frame.block, Frame.empty]; omega
    · simp only [Frame.empty]; momega
    · simp [Frame.empty]
  · rename_i h
    obtain ⟨r1, r2, r3⟩ := roundUp_large f.base h
    have hs : (roundUp f.base LARGE - f.base) % BASE = 0 := by
      have := hf.1
      momega
    obtain ⟨low, high, e, p1, p2, p3, p4, p5, p6, p7, p8, p9⟩ := c20_split_at f hf _ hs
    refine ⟨low, high, e, p1, p2, p6, p7, ?_, ?_, ?_, fun _ => p8, p9⟩
    · rw [splitAt_ok f hf _ hs] at e
      split at e
      · cases e; simp [Frame.empty]
      · cases e; simp only
        rw [show f.base + (roundUp f.base LARGE - f.base) = roundUp f.base LARGE by omega]
        exact r1
    · intro a ha
      simp only [Block.Has, Frame.block, p5, p3] at ha
      momega
    · rw [p3]; omega

/-- The pages of a frame. -/
def pageList (f : Frame) : List Frame :=
  (List.range f.basePages).map (fun i => ⟨f.base + BASE * i, BASE, f.aff⟩)

theorem collect_eq (n : Nat) : ∀ (f : Frame) (fuel : Nat), f.Ok → f.basePages = n → n < fuel →
    Frame.collect fuel f = .ok (pageList f) := by
  induction n with
  | zero =>
    intro f fuel hf hn hfu
    obtain ⟨h1, h2⟩ := hf
    cases fuel with
    | zero => omega
    | succ fuel =>
      have hz : f.size = 0 := by unfold Frame.basePages at hn; momega
      have : f.next = .ok (none, f) := by
        unfold Frame.next
        rw [if_neg (by momega), if_neg (by momega)]
      simp only [Frame.collect, this, pageList, hn, List.range_zero, List.map_nil]
  | succ n ih =>
    intro f fuel hf hn hfu
    have hf' := hf
    obtain ⟨h1, h2⟩ := hf
    cases fuel with
    | zero => omega
    | succ fuel =>
      by_cases hb : f.size > BASE
      · have hnx : f.next = .ok (some ⟨f.base, BASE, f.aff⟩,
            ⟨f.base + BASE, f.size - BASE, f.aff⟩) := by
          unfold Frame.next
          rw [if_pos hb, splitAt_ok f hf' BASE (by rw [BASE_eq]), if_neg (by omega)]
        have hr : (⟨f.base + BASE, f.size - BASE, f.aff⟩ : Frame).Ok := by
          constructor <;> simp only <;> momega
        have hbp : (⟨f.base + BASE, f.size - BASE, f.aff⟩ : Frame).basePages = n := by
          unfold Frame.basePages at *; momega
        simp only [Frame.collect, hnx]
        rw [ih _ fuel hr hbp (by omega)]
        simp only [Outcome.map, pageList, hbp, hn]
        rw [List.range_succ_eq_map, List.map_cons, List.map_map]
        congr 2
        apply List.map_congr_left
        intro i _
        simp only [Function.comp]
        congr 1
        simp only [BASE_eq]
        omega
      · have hsz : f.size = BASE := by unfold Frame.basePages at hn; momega
        have hnx : f.next = .ok (some f, Frame.empty) := by
          unfold Frame.next
          rw [if_neg hb, if_pos hsz]
        have hn0 : n = 0 := by unfold Frame.basePages at hn; momega
        simp only [Frame.collect, hnx]
        rw [ih Frame.empty fuel (by simp [Frame.Ok, Frame.empty])
          (by simp [Frame.basePages, Frame.empty, hn0]) (by omega)]
        simp only [Outcome.map, pageList, hn, hn0]
        have : Frame.empty.basePages = 0 := by simp [Frame.basePages, Frame.empty]
        rw [this]
        simp [List.range_succ, hsz.symm]

theorem pages_eq (f : Frame) (hf : f.Ok) : f.pages = .ok (pageList f) :=
  collect_eq _ f _ hf rfl (by omega)

/-- **C20** Iterating a frame yields its 4 KiB pages: as many as `len()` says, the i-th one at
offset `4096 * i`, each of page size and with the frame's affinity; every address of the frame is
in exactly one of them and no other address is in any. -/
theorem c20_pages (f : Frame) (hf : f.Ok) :
    ∃ ps : List Frame, f.pages = .ok ps ∧ ps.length = f.basePages ∧
      (∀ (i : Nat) (p : Frame), ps[i]? = some p → p = { base := f.base + BASE * i, size := BASE, aff := f.aff }) ∧
      AllDisjoint (ps.map Frame.block) ∧
      (∀ a, f.block.Has a ↔ ∃ p ∈ ps, p.block.Has a) := by
  refine ⟨_, pages_eq f hf, by simp [pageList], ?_, ?_, ?_⟩
  · intro i p hp
    simp only [pageList, List.getElem?_map, Option.map_eq_some_iff] at hp
    obtain ⟨j, hj, rfl⟩ := hp
    rw [List.getElem?_range (by
      have := List.getElem?_eq_some_iff.1 hj
      obtain ⟨hlt, _⟩ := this
      simpa using hlt)] at hj
    cases hj
    rfl
  · unfold AllDisjoint pageList
    rw [List.map_map, List.pairwise_map]
    apply List.Pairwise.imp _ (List.pairwise_lt_range)
    intro i j hij
    apply disjoint_of_le
    simp only [Function.comp, Frame.block, BASE_eq]
    omega
  · intro a
    simp only [pageList, List.mem_map, List.mem_range]
    obtain ⟨h1, h2⟩ := hf
    constructor
    · intro ha
      refine ⟨_, ⟨(a - f.base) / BASE, ?_, rfl⟩, ?_⟩
      · simp only [Block.Has, Frame.block, Frame.basePages] at *
        momega
      · simp only [Block.Has, Frame.block] at *
        momega
    · rintro ⟨p, ⟨i, hi, rfl⟩, ha⟩
      simp only [Block.Has, Frame.block, Frame.basePages] at *
      momega

/-- Non-vacuity: a frame of 3 pages, 1 page below a 2 MiB boundary. -/
example : (⟨2097152 - 4096, 3 * 4096, 1⟩ : Frame).Ok ∧
    (⟨2097152 - 4096, 3 * 4096, 1⟩ : Frame).splitAtLargeBoundary =
      .ok (⟨2093056, 4096, 1⟩, ⟨2097152, 8192, 1⟩) ∧
    (⟨4096, 8192, 1⟩ : Frame).pages = .ok [⟨4096, 4096, 1⟩, ⟨8192, 4096, 1⟩] := by
  refine ⟨by constructor <;> simp [BASE_eq], ?_, ?_⟩
  · simp [Frame.splitAtLargeBoundary, Frame.splitAt, Frame.new, roundUp, LARGE_eq, BASE_eq]
  · rw [pages_eq _ (by constructor <;> simp [BASE_eq])]
    simp [pageList, Frame.basePages, BASE_eq, List.range_succ]

end NRK.Mem
