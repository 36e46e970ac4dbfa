import Verif.VSpace.PageTableLemmas
import Verif.VSpace.VSpaceModel

/-!
# Invariant of address spaces

Histories of map, unmap and adjust calls with base-page and large-page frames below `userTop`, where
the kernel's part of an address space begins.
-/

namespace NRK.VSpace

open NRK.Mem (Frame)

/-- `KERNEL_BASE` (`arch/x86_64/memory.rs` line 23): user addresses are below. -/
def userTop : Nat := 70368744177664

theorem win_user {x : Nat} (h : x < userTop) : win x = 0 := by
  unfold win; unfold userTop at h; omega

/-- The size of a base page or a large page. -/
def PageSize (n : Nat) : Prop := n = 4096 ∨ n = 2097152

def pageLevel (n : Nat) : Level := if n = 4096 then .pt else .pd

theorem pageLevel_size {n : Nat} (h : PageSize n) : (pageLevel n).size = n := by
  rcases h with h | h <;> subst h <;> rfl

theorem page_arith {n b x : Nat} (hn : PageSize n) (hb : b % n = 0) (h : b ≤ x ∧ x < b + n) :
    x % n = x - b ∧ x - x % n = b ∧ ∀ y, (y / n = x / n ↔ (b ≤ y ∧ y < b + n)) := by
  rcases hn with e | e <;> subst e <;> exact ⟨by omega, by omega, fun y => by omega⟩

/-- An address is in the range of a mapping. -/
def Covers (q : Nat × MappingInfo) (x : Nat) : Prop := q.1 ≤ x ∧ x < q.1 + q.2.frame.size

/-- The invariant: mappings are single pages, aligned, disjoint and in user space, and the page table
has exactly the leaves that they say. -/
structure VInv (s : VSpace) : Prop where
  page : ∀ q ∈ s.maps, PageSize q.2.frame.size ∧ q.1 % q.2.frame.size = 0 ∧
    q.2.frame.base % q.2.frame.size = 0 ∧ q.1 + q.2.frame.size ≤ userTop
  disj : s.maps.Pairwise (fun a b => b.1 + b.2.frame.size ≤ a.1)
  cov : ∀ q ∈ s.maps, ∀ x, Covers q x → leafAt s.pt x =
    some (pageLevel q.2.frame.size, ⟨q.2.frame.base, leafFlags (pageLevel q.2.frame.size) q.2.rights⟩)
  unc : ∀ x, x < userTop → (∀ q ∈ s.maps, ¬ Covers q x) → leafAt s.pt x = Option.none

theorem find_below {l : List (Nat × MappingInfo)} {e : Nat}
    (hd : l.Pairwise (fun a b => b.1 + b.2.frame.size ≤ a.1)) {q0 : Nat × MappingInfo}
    (h : l.find? (fun q => decide (q.1 < e)) = some q0) :
    q0 ∈ l ∧ q0.1 < e ∧ ∀ q ∈ l, q = q0 ∨ e ≤ q.1 ∨ q.1 + q.2.frame.size ≤ q0.1 := by
  obtain ⟨hp, as, bs, rfl, has⟩ := List.find?_eq_some_iff_append.1 h
  refine ⟨by simp, of_decide_eq_true hp, fun q hq => ?_⟩
  rw [List.mem_append, List.mem_cons] at hq
  rcases hq with hq | rfl | hq
  · have := has q hq
    simp at this
    exact Or.inr (Or.inl this)
  · exact Or.inl rfl
  · rw [List.pairwise_append] at hd
    have := (List.pairwise_cons.1 hd.2.1).1 q hq
    exact Or.inr (Or.inr this)

theorem find_below_none {l : List (Nat × MappingInfo)} {e : Nat}
    (h : l.find? (fun q => decide (q.1 < e)) = Option.none) : ∀ q ∈ l, e ≤ q.1 := by
  intro q hq
  have := List.find?_eq_none.1 h q hq
  simp at this
  exact this

theorem mem_insertMap (b : Nat) (i : MappingInfo) (q : Nat × MappingInfo) :
    ∀ l, q ∈ insertMap b i l ↔ q = (b, i) ∨ q ∈ l := by
  intro l
  induction l with
  | nil => simp [insertMap]
  | cons p rest ih =>
    rw [insertMap]
    split
    · simp
    · rw [List.mem_cons, ih, List.mem_cons]
      constructor
      · rintro (h | h | h) <;> simp [h]
      · rintro (h | h | h) <;> simp [h]

theorem pairwise_insertMap (b : Nat) (i : MappingInfo) (hi : 0 < i.frame.size) :
    ∀ l : List (Nat × MappingInfo), l.Pairwise (fun a b => b.1 + b.2.frame.size ≤ a.1) →
      (∀ q ∈ l, 0 < q.2.frame.size ∧ (q.1 + q.2.frame.size ≤ b ∨ b + i.frame.size ≤ q.1)) →
      (insertMap b i l).Pairwise (fun a b => b.1 + b.2.frame.size ≤ a.1) := by
  intro l
  induction l with
  | nil => intro _ _; simp [insertMap]
  | cons p rest ih =>
    intro hd hl
    rw [List.pairwise_cons] at hd
    have hp := hl p (by simp)
    rw [insertMap]
    split
    · rename_i hlt
      rw [List.pairwise_cons]
      refine ⟨fun q hq => ?_, List.pairwise_cons.2 hd⟩
      rcases List.mem_cons.1 hq with rfl | hq
      · show q.1 + q.2.frame.size ≤ b
        omega
      · have h1 := hd.1 q hq
        have h2 := hl q (by simp [hq])
        show q.1 + q.2.frame.size ≤ b
        omega
    · rename_i hge
      rw [List.pairwise_cons]
      refine ⟨fun q hq => ?_, ih hd.2 (fun q hq => hl q (by simp [hq]))⟩
      rcases (mem_insertMap b i q rest).1 hq with rfl | hq
      · show b + i.frame.size ≤ p.1
        omega
      · exact hd.1 q hq

/-- A covered address translates as the mapping says. -/
theorem VInv.resolve_cov {s : VSpace} (h : VInv s) {q : Nat × MappingInfo} (hq : q ∈ s.maps)
    {x : Nat} (hx : Covers q x) :
    s.resolve x = .ok (q.2.frame.base + (x - q.1), q.2.rights.canon) := by
  obtain ⟨hps, hal, _, _⟩ := h.page q hq
  unfold VSpace.resolve resolve
  rw [h.cov q hq x hx]
  show Outcome.ok (q.2.frame.base + x % (pageLevel q.2.frame.size).size, ofFlags _ (leafFlags _ _)) = _
  rw [c32_decode, pageLevel_size hps]
  rw [(page_arith hps hal hx).1]

theorem VInv.resolve_unc {s : VSpace} (h : VInv s) {x : Nat} (hu : x < userTop)
    (hx : ∀ q ∈ s.maps, ¬ Covers q x) : s.resolve x = .err .notMapped := by
  unfold VSpace.resolve resolve
  rw [h.unc x hu hx]

/-- An address that is not translated is in no mapping, and conversely. -/
theorem VInv.resolve_err {s : VSpace} (h : VInv s) {x : Nat} (hx : s.resolve x = .err .notMapped) :
    ∀ q ∈ s.maps, ¬ Covers q x := by
  intro q hq hc
  rw [h.resolve_cov hq hc] at hx
  cases hx

theorem VInv.exists_cov {s : VSpace} (h : VInv s) {x : Nat} (hu : x < userTop)
    (hx : s.resolve x ≠ .err .notMapped) : ∃ q ∈ s.maps, Covers q x := by
  apply Classical.byContradiction
  intro hn
  exact hx (h.resolve_unc hu (fun q hq hc => hn ⟨q, hq, hc⟩))

/-- A mapping covers only user addresses. -/
theorem VInv.cov_user {s : VSpace} (h : VInv s) {q : Nat × MappingInfo} (hq : q ∈ s.maps)
    {x : Nat} (hx : Covers q x) : x < userTop := by
  have := (h.page q hq).2.2.2
  unfold Covers at hx
  omega

/-- At most one mapping covers an address. -/
theorem VInv.cov_unique {s : VSpace} (h : VInv s) {q q' : Nat × MappingInfo} (hq : q ∈ s.maps)
    (hq' : q' ∈ s.maps) {x : Nat} (hx : Covers q x) (hx' : Covers q' x) : q = q' := by
  have hd := h.disj
  generalize s.maps = l at hd hq hq'
  unfold Covers at hx hx'
  induction l with
  | nil => cases hq
  | cons p rest ih =>
    rw [List.pairwise_cons] at hd
    rcases List.mem_cons.1 hq with rfl | h1 <;> rcases List.mem_cons.1 hq' with rfl | h2
    · rfl
    · have := hd.1 _ h2; omega
    · have := hd.1 _ h1; omega
    · exact ih hd.2 h1 h2

/-- Mapping a page where nothing is mapped. -/
theorem ptMap_page (env : Env) (hk : env.pages4k = false) (t : PML4) (v p n : Nat) (a : MapAction)
    (hn : PageSize n) (hv : v % n = 0) (hp : p % n = 0) (hu : v + n ≤ userTop)
    (hfree : ∀ x, v ≤ x → x < v + n → leafAt t x = Option.none) :
    ∃ t', ptMap env t v p n a = .ok t' ∧ ∀ x, win x = 0 → leafAt t' x =
      if v ≤ x ∧ x < v + n then some (pageLevel n, ⟨p, leafFlags (pageLevel n) a⟩)
      else leafAt t x := by
  have hw : win v = 0 := win_user (by rcases hn with h | h <;> subst h <;> omega)
  rcases hn with h | h <;> subst h
  · obtain ⟨t', h1, h2⟩ := map_base env a t v p 1 hv hp (hfree v (by omega) (by omega))
    exact ⟨t', h1, fun x hx => h2 x (by rw [hx, hw])⟩
  · obtain ⟨t', h1, h2⟩ := map_large env a t v p 512 hk hv hw hp hfree
    exact ⟨t', h1, fun x hx => h2 x (by rw [hx, hw])⟩

/-- What `map_frame` does to a state that satisfies the invariant, decided by the mapping with the
greatest base below the end of the range. -/
theorem mapFrame_cases (env : Env) (hk : env.pages4k = false) (oom : Bool) {s : VSpace} (h : VInv s)
    (base : Nat) (f : Frame) (a : MapAction) (hn : PageSize f.size) (hu : base + f.size ≤ userTop) :
    (∃ e, mapFrame env oom s base f a = (s, .err e) ∧
      ((f.base % f.size ≠ 0 ∧ e = .invalidFrame) ∨ (f.base % f.size = 0 ∧ base % f.size ≠ 0 ∧
        e = .invalidBase))) ∨
    (f.base % f.size = 0 ∧ base % f.size = 0 ∧
      (∃ q ∈ s.maps, q.1 < base + f.size ∧ base < q.1 + q.2.frame.size ∧
        (∀ q' ∈ s.maps, q' = q ∨ base + f.size ≤ q'.1 ∨ q'.1 + q'.2.frame.size ≤ q.1) ∧
        ((q.1 = base ∧ q.2.frame.base = f.base ∧ q.2.frame.size ≤ f.size ∧ q.2.rights = a ∧
            mapFrame env oom s base f a = (s, .ok ())) ∨
          (¬ (q.1 = base ∧ q.2.frame.base = f.base ∧ q.2.frame.size ≤ f.size ∧ q.2.rights = a) ∧
            mapFrame env oom s base f a = (s, .err (.alreadyMapped q.1)))))) ∨
    (f.base % f.size = 0 ∧ base % f.size = 0 ∧
      (∀ q ∈ s.maps, q.1 + q.2.frame.size ≤ base ∨ base + f.size ≤ q.1) ∧
      ((oom = true ∧ mapFrame env oom s base f a = (s, .err .outOfMemory)) ∨
       (oom = false ∧ ∃ t', mapFrame env oom s base f a = (⟨insertMap base ⟨f, a⟩ s.maps, t'⟩, .ok ()) ∧
          ∀ x, win x = 0 → leafAt t' x = if base ≤ x ∧ x < base + f.size then
            some (pageLevel f.size, ⟨f.base, leafFlags (pageLevel f.size) a⟩) else leafAt s.pt x))) := by
  have h0 : f.size ≠ 0 := by rcases hn with e | e <;> omega
  by_cases hb : f.base % f.size ≠ 0
  · refine Or.inl ⟨.invalidFrame, ?_, Or.inl ⟨hb, rfl⟩⟩
    unfold mapFrame
    rw [if_neg h0, if_pos hb]
  · by_cases hv : base % f.size ≠ 0
    · refine Or.inl ⟨.invalidBase, ?_, Or.inr ⟨by omega, hv, rfl⟩⟩
      unfold mapFrame
      rw [if_neg h0, if_neg hb, if_pos hv]
    · have hb' : f.base % f.size = 0 := by omega
      have hv' : base % f.size = 0 := by omega
      have insertCase : (∀ q ∈ s.maps, q.1 + q.2.frame.size ≤ base ∨ base + f.size ≤ q.1) →
          ∃ t', ptMap env s.pt base f.base f.size a = .ok t' ∧
            ∀ x, win x = 0 → leafAt t' x = if base ≤ x ∧ x < base + f.size then
            some (pageLevel f.size, ⟨f.base, leafFlags (pageLevel f.size) a⟩) else leafAt s.pt x := by
        intro hall
        refine ptMap_page env hk s.pt base f.base f.size a hn hv' hb' hu (fun x h1 h2 => ?_)
        refine h.unc x (by omega) (fun q hq hc => ?_)
        have := hall q hq
        unfold Covers at hc
        omega
      right
      cases hf : s.maps.find? (fun q => decide (q.1 < base + f.size)) with
      | none =>
        right
        have hall : ∀ q ∈ s.maps, q.1 + q.2.frame.size ≤ base ∨ base + f.size ≤ q.1 :=
          fun q hq => Or.inr (find_below_none hf q hq)
        refine ⟨hb', hv', hall, ?_⟩
        obtain ⟨t', ht, hx⟩ := insertCase hall
        cases oom with
        | true =>
          left
          refine ⟨rfl, ?_⟩
          unfold mapFrame
          rw [if_neg h0, if_neg hb, if_neg hv]
          simp only [hf, if_true]
        | false =>
          right
          refine ⟨rfl, t', ?_, hx⟩
          unfold mapFrame
          rw [if_neg h0, if_neg hb, if_neg hv]
          simp only [hf, ht, Bool.false_eq_true, if_false]
      | some q =>
        obtain ⟨b, i⟩ := q
        obtain ⟨hq, hlt, hrest⟩ := find_below h.disj hf
        by_cases hend : b + i.frame.size ≤ base
        · right
          have hall : ∀ q ∈ s.maps, q.1 + q.2.frame.size ≤ base ∨ base + f.size ≤ q.1 := by
            intro q' hq'
            rcases hrest q' hq' with rfl | h1 | h1
            · exact Or.inl hend
            · exact Or.inr h1
            · left
              have : q'.1 + q'.2.frame.size ≤ b := h1
              omega
          refine ⟨hb', hv', hall, ?_⟩
          obtain ⟨t', ht, hx⟩ := insertCase hall
          cases oom with
          | true =>
            left
            refine ⟨rfl, ?_⟩
            unfold mapFrame
            rw [if_neg h0, if_neg hb, if_neg hv]
            simp only [hf, hend, if_true]
          | false =>
            right
            refine ⟨rfl, t', ?_, hx⟩
            unfold mapFrame
            rw [if_neg h0, if_neg hb, if_neg hv]
            simp only [hf, ht, hend, Bool.false_eq_true, if_false, if_true]
        · left
          refine ⟨hb', hv', (b, i), hq, hlt, by show base < b + i.frame.size; omega, hrest, ?_⟩
          by_cases hsame : b = base ∧ i.frame.base = f.base ∧ i.frame.size ≤ f.size ∧ i.rights = a
          · left
            refine ⟨hsame.1, hsame.2.1, hsame.2.2.1, hsame.2.2.2, ?_⟩
            unfold mapFrame
            rw [if_neg h0, if_neg hb, if_neg hv]
            simp only [hf]
            rw [if_neg hend, if_pos hsame]
          · right
            refine ⟨hsame, ?_⟩
            unfold mapFrame
            rw [if_neg h0, if_neg hb, if_neg hv]
            simp only [hf]
            rw [if_neg hend, if_neg hsame]

/-- The invariant after inserting a mapping. -/
theorem VInv.insert {s : VSpace} (h : VInv s) {base : Nat} {f : Frame} {a : MapAction} {t' : PML4}
    (hn : PageSize f.size) (hu : base + f.size ≤ userTop) (hb : f.base % f.size = 0)
    (hv : base % f.size = 0)
    (hall : ∀ q ∈ s.maps, q.1 + q.2.frame.size ≤ base ∨ base + f.size ≤ q.1)
    (hx : ∀ x, win x = 0 → leafAt t' x = if base ≤ x ∧ x < base + f.size then
      some (pageLevel f.size, ⟨f.base, leafFlags (pageLevel f.size) a⟩) else leafAt s.pt x) :
    VInv ⟨insertMap base ⟨f, a⟩ s.maps, t'⟩ := by
  have hpos : ∀ n, PageSize n → 0 < n := by
    intro n h; rcases h with e | e <;> omega
  constructor
  · intro q hq
    rcases (mem_insertMap _ _ _ _).1 hq with rfl | hq
    · exact ⟨hn, hv, hb, hu⟩
    · exact h.page q hq
  · exact pairwise_insertMap _ _ (hpos _ hn) _ h.disj
      (fun q hq => ⟨hpos _ (h.page q hq).1, hall q hq⟩)
  · intro q hq x hc
    rcases (mem_insertMap _ _ _ _).1 hq with rfl | hq
    · have hc' : base ≤ x ∧ x < base + f.size := hc
      show leafAt t' x = _
      rw [hx x (win_user (by omega)), if_pos hc']
    · have hux := h.cov_user hq hc
      have hcq := h.cov q hq x hc
      have := hall q hq
      unfold Covers at hc
      show leafAt t' x = _
      rw [hx x (win_user hux), if_neg (by omega), hcq]
  · intro x hux hnone
    show leafAt t' x = _
    have hnot : ¬ (base ≤ x ∧ x < base + f.size) :=
      hnone (base, ⟨f, a⟩) ((mem_insertMap _ _ _ _).2 (Or.inl rfl))
    rw [hx x (win_user hux), if_neg hnot]
    exact h.unc x hux (fun q hq => hnone q ((mem_insertMap _ _ _ _).2 (Or.inr hq)))

theorem VInv.mapFrame (env : Env) (hk : env.pages4k = false) (oom : Bool) {s : VSpace} (h : VInv s)
    (base : Nat) (f : Frame) (a : MapAction) (hn : PageSize f.size) (hu : base + f.size ≤ userTop) :
    VInv (mapFrame env oom s base f a).1 := by
  rcases mapFrame_cases env hk oom h base f a hn hu with ⟨e, he, _⟩ | ⟨_, _, q, _, _, _, _, hq⟩ |
    ⟨hb, hv, hall, hq⟩
  · rw [he]; exact h
  · rcases hq with ⟨_, _, _, _, he⟩ | ⟨_, he⟩ <;> rw [he] <;> exact h
  · rcases hq with ⟨_, he⟩ | ⟨_, t', he, hx⟩
    · rw [he]; exact h
    · rw [he]; exact h.insert hn hu hb hv hall hx

/-- What `unmap` and `adjust` see at an aligned address that is covered. -/
theorem VInv.modify {s : VSpace} (h : VInv s) {q : Nat × MappingInfo} (hq : q ∈ s.maps) {x : Nat}
    (hc : Covers q x) (act : Option MapAction) :
    ∃ t', modifyGeneric s.pt x act =
        .ok (t', ⟨q.1, q.2.frame.base, q.2.frame.size, q.2.rights.canon⟩) ∧
      ∀ y, win y = 0 → leafAt t' y = if q.1 ≤ y ∧ y < q.1 + q.2.frame.size then
        (newLeaf act (pageLevel q.2.frame.size) ⟨q.2.frame.base,
          leafFlags (pageLevel q.2.frame.size) q.2.rights⟩).map (fun l' => (pageLevel q.2.frame.size, l'))
        else leafAt s.pt y := by
  obtain ⟨hps, hal, _, _⟩ := h.page q hq
  have hux := h.cov_user hq hc
  obtain ⟨t', h1, h2⟩ := (modify_spec s.pt x act).2 _ _ (h.cov q hq x hc)
  rw [pageLevel_size hps] at h1 h2
  refine ⟨t', ?_, fun y hy => ?_⟩
  · rw [h1, c32_decode]
    rw [(page_arith hps hal hc).2.1]
  · rw [h2 y (by rw [hy, win_user hux])]
    simp only [(page_arith hps hal hc).2.2 y]

/-- `unmap` in a state that satisfies the invariant. -/
theorem unmap_cases {s : VSpace} (h : VInv s) (x : Nat) (hu : x < userTop) :
    (unmap s x = (s, .err .notMapped) ∧ ∀ q ∈ s.maps, ¬ Covers q x) ∨
    (unmap s x = (s, .err .invalidBase) ∧ x % 4096 ≠ 0) ∨
    ∃ q ∈ s.maps, Covers q x ∧ x % 4096 = 0 ∧ ∃ t',
      unmap s x = (⟨s.maps.filter (fun p => decide (p.1 ≠ q.1)), t'⟩,
        .ok ⟨q.1, q.2.frame.base, q.2.frame.size, q.2.rights.canon⟩) ∧
      ∀ y, win y = 0 → leafAt t' y = if q.1 ≤ y ∧ y < q.1 + q.2.frame.size then Option.none
        else leafAt s.pt y := by
  have hgo : (∀ q ∈ s.maps, ¬ Covers q x) → x % 4096 = 0 → ptUnmap s.pt x = .err .notMapped := by
    intro hn hx
    unfold ptUnmap
    rw [if_neg (by omega), (modify_spec s.pt x Option.none).1 (h.unc x hu hn)]
  have hin : x % 4096 ≠ 0 → ptUnmap s.pt x = .err .invalidBase := by
    intro hx; unfold ptUnmap; rw [if_pos hx]
  have e0 : (fun q : Nat × MappingInfo => decide (q.1 ≤ x)) = fun q => decide (q.1 < x + 1) := by
    funext q; rw [decide_eq_decide]; omega
  cases hf : s.maps.find? (fun q => decide (q.1 ≤ x)) with
  | none =>
    have hf' := hf
    rw [e0] at hf'
    have hn : ∀ q ∈ s.maps, ¬ Covers q x := by
      intro q hq hc
      have := find_below_none hf' q hq
      unfold Covers at hc; omega
    by_cases hx : x % 4096 = 0
    · left
      refine ⟨?_, hn⟩
      unfold unmap
      simp only [hf, hgo hn hx]
    · right; left
      refine ⟨?_, hx⟩
      unfold unmap
      simp only [hf, hin hx]
  | some q =>
    have hf' := hf
    rw [e0] at hf'
    obtain ⟨hq, hlt, hrest⟩ := find_below h.disj hf'
    by_cases hc : Covers q x
    · have hc' : q.1 ≤ x ∧ x < q.1 + q.2.frame.size := hc
      by_cases hx : x % 4096 = 0
      · right; right
        refine ⟨q, hq, hc, hx, ?_⟩
        obtain ⟨t', h1, h2⟩ := h.modify hq hc Option.none
        refine ⟨t', ?_, h2⟩
        have hany : s.maps.any (fun p => decide (p.1 = q.1)) = true := by
          rw [List.any_eq_true]; exact ⟨q, hq, by simp⟩
        have hpt : ptUnmap s.pt x =
            .ok (t', ⟨q.1, q.2.frame.base, q.2.frame.size, q.2.rights.canon⟩) := by
          unfold ptUnmap; rw [if_neg (by omega), h1]
        unfold unmap
        simp only [hf, hpt, hany, if_true]
        rw [if_pos hc']
      · right; left
        refine ⟨?_, hx⟩
        unfold unmap
        simp only [hf, hin hx]
        rw [if_pos hc']
    · left
      refine ⟨?_, ?_⟩
      · unfold unmap
        simp only [hf]
        exact if_neg hc
      · intro q' hq' hc'
        rcases hrest q' hq' with rfl | h1 | h1
        · exact hc hc'
        · unfold Covers at hc'; omega
        · unfold Covers at hc'; omega

/-- `adjust` in a state that satisfies the invariant. -/
theorem adjust_cases {s : VSpace} (h : VInv s) (x : Nat) (r : MapAction) (hu : x < userTop) :
    (adjust s x r = (s, .err .notMapped) ∧ ∀ q ∈ s.maps, ¬ Covers q x) ∨
    (adjust s x r = (s, .err .invalidBase) ∧ x % 4096 ≠ 0) ∨
    ∃ q ∈ s.maps, Covers q x ∧ x % 4096 = 0 ∧ ∃ t',
      adjust s x r = (⟨s.maps.map (fun p => if p.1 = q.1 then (p.1, ⟨p.2.frame, r⟩) else p), t'⟩,
        .ok (q.1, q.2.frame.size)) ∧
      ∀ y, win y = 0 → leafAt t' y = if q.1 ≤ y ∧ y < q.1 + q.2.frame.size then
        some (pageLevel q.2.frame.size, ⟨q.2.frame.base, leafFlags (pageLevel q.2.frame.size) r⟩)
        else leafAt s.pt y := by
  by_cases hx : x % 4096 = 0
  · by_cases hn : ∀ q ∈ s.maps, ¬ Covers q x
    · left
      refine ⟨?_, hn⟩
      unfold adjust ptAdjust
      rw [if_neg (by omega), (modify_spec s.pt x (some r)).1 (h.unc x hu hn)]
      rfl
    · right; right
      have : ∃ q, q ∈ s.maps ∧ Covers q x := by
        apply Classical.byContradiction
        intro hne
        exact hn (fun q hq hc => hne ⟨q, hq, hc⟩)
      obtain ⟨q, hq, hc⟩ := this
      obtain ⟨t', h1, h2⟩ := h.modify hq hc (some r)
      refine ⟨q, hq, hc, hx, t', ?_, h2⟩
      have hany : s.maps.any (fun p => decide (p.1 = q.1)) = true := by
        rw [List.any_eq_true]; exact ⟨q, hq, by simp⟩
      have hpt : ptAdjust s.pt x r = .ok (t', q.1, q.2.frame.size) := by
        unfold ptAdjust; rw [if_neg (by omega), h1]; rfl
      unfold adjust
      simp only [hpt, hany, if_true]
  · right; left
    refine ⟨?_, hx⟩
    unfold adjust ptAdjust
    rw [if_pos hx]

/-- Two mappings with the same base are the same. -/
theorem VInv.base_unique {s : VSpace} (h : VInv s) {q q' : Nat × MappingInfo} (hq : q ∈ s.maps)
    (hq' : q' ∈ s.maps) (he : q.1 = q'.1) : q = q' := by
  have hp : ∀ q ∈ s.maps, Covers q q.1 := by
    intro q hq
    have := (h.page q hq).1
    unfold Covers
    rcases this with e | e <;> omega
  refine h.cov_unique hq hq' (hp q hq) ?_
  rw [he]; exact hp q' hq'

theorem VInv.unmap {s : VSpace} (h : VInv s) (x : Nat) (hu : x < userTop) : VInv (unmap s x).1 := by
  rcases unmap_cases h x hu with ⟨he, _⟩ | ⟨he, _⟩ | ⟨q, hq, hc, _, t', he, hx⟩
  · rw [he]; exact h
  · rw [he]; exact h
  · rw [he]
    have hmem : ∀ p, p ∈ s.maps.filter (fun p => decide (p.1 ≠ q.1)) ↔ p ∈ s.maps ∧ p.1 ≠ q.1 := by
      intro p; rw [List.mem_filter]; simp
    constructor
    · intro p hp; exact h.page p ((hmem p).1 hp).1
    · exact h.disj.sublist List.filter_sublist
    · intro p hp y hy
      obtain ⟨hp1, hp2⟩ := (hmem p).1 hp
      show leafAt t' y = _
      rw [hx y (win_user (h.cov_user hp1 hy)), if_neg, h.cov p hp1 y hy]
      intro hcy
      exact hp2 (congrArg Prod.fst (h.cov_unique hp1 hq hy hcy))
    · intro y hy hn
      show leafAt t' y = _
      rw [hx y (win_user hy)]
      split
      · rfl
      · rename_i hcy
        refine h.unc y hy (fun p hp hpc => ?_)
        by_cases hpq : p.1 = q.1
        · exact hcy (by rw [h.base_unique hp hq hpq] at hpc; exact hpc)
        · exact hn p ((hmem p).2 ⟨hp, hpq⟩) hpc

theorem VInv.adjust {s : VSpace} (h : VInv s) (x : Nat) (r : MapAction) (hu : x < userTop) :
    VInv (adjust s x r).1 := by
  rcases adjust_cases h x r hu with ⟨he, _⟩ | ⟨he, _⟩ | ⟨q, hq, hc, _, t', he, hx⟩
  · rw [he]; exact h
  · rw [he]; exact h
  · rw [he]
    have hmem : ∀ p, p ∈ s.maps.map (fun p => if p.1 = q.1 then (p.1, (⟨p.2.frame, r⟩ : MappingInfo)) else p) →
        ∃ p0 ∈ s.maps, p.1 = p0.1 ∧ p.2.frame = p0.2.frame ∧
          p.2.rights = if p0.1 = q.1 then r else p0.2.rights := by
      intro p hp
      obtain ⟨p0, h0, rfl⟩ := List.mem_map.1 hp
      refine ⟨p0, h0, ?_⟩
      split <;> exact ⟨rfl, rfl, rfl⟩
    constructor
    · intro p hp
      obtain ⟨p0, h0, e1, e2, _⟩ := hmem p hp
      rw [e1, e2]; exact h.page p0 h0
    · show (s.maps.map _).Pairwise _
      rw [List.pairwise_map]
      refine h.disj.imp ?_
      intro a b hab
      split <;> split <;> exact hab
    · intro p hp y hy
      obtain ⟨p0, h0, e1, e2, e3⟩ := hmem p hp
      have hy0 : Covers p0 y := by unfold Covers at *; rw [← e1, ← e2]; exact hy
      show leafAt t' y = _
      rw [hx y (win_user (h.cov_user h0 hy0)), e2, e3]
      by_cases hpq : p0.1 = q.1
      · have := h.base_unique h0 hq hpq
        subst this
        rw [if_pos (show p0.1 ≤ y ∧ y < p0.1 + p0.2.frame.size from hy0), if_pos rfl]
      · rw [if_neg, if_neg hpq, h.cov p0 h0 y hy0]
        intro hcy
        exact hpq (congrArg Prod.fst (h.cov_unique h0 hq hy0 hcy))
    · intro y hy hn
      show leafAt t' y = _
      have hn' : ∀ p ∈ s.maps, ¬ Covers p y := by
        intro p hp hpc
        refine hn _ (List.mem_map.2 ⟨p, hp, rfl⟩) ?_
        split <;> exact hpc
      rw [hx y (win_user hy), if_neg (show ¬ (q.1 ≤ y ∧ y < q.1 + q.2.frame.size) from hn' q hq)]
      exact h.unc y hy hn'

/-- Histories of an address space: created with nothing mapped in user space (kernel mappings may be
there), then any sequence of calls with base-page and large-page frames, whatever their outcome. -/
inductive Run (env : Env) : VSpace → Prop
  | new (pt : PML4) (h : ∀ x, x < userTop → leafAt pt x = Option.none) : Run env ⟨[], pt⟩
  | map {s : VSpace} (oom : Bool) (base : Nat) (f : Frame) (a : MapAction) (h : Run env s)
      (hn : PageSize f.size) (hu : base + f.size ≤ userTop) : Run env (mapFrame env oom s base f a).1
  | unmap {s : VSpace} (x : Nat) (h : Run env s) (hu : x < userTop) : Run env (NRK.VSpace.unmap s x).1
  | adjust {s : VSpace} (x : Nat) (r : MapAction) (h : Run env s) (hu : x < userTop) :
      Run env (NRK.VSpace.adjust s x r).1

theorem Run.inv {env : Env} (hk : env.pages4k = false) {s : VSpace} (h : Run env s) : VInv s := by
  induction h with
  | new pt h =>
    exact ⟨fun q hq => absurd hq (by simp), List.Pairwise.nil, fun q hq => absurd hq (by simp),
      fun x hx _ => h x hx⟩
  | map oom base f a _ hn hu ih => exact ih.mapFrame env hk oom base f a hn hu
  | unmap x _ hu ih => exact ih.unmap x hu
  | adjust x r _ hu ih => exact ih.adjust x r hu

end NRK.VSpace
