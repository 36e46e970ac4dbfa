import Verif.VSpace.DropModel
import Verif.VSpace.PageTableLemmas

/-! # Which pages hold tables: lemmas for C88 -/

namespace NRK.VSpace

/-- A place for a table below the root: the indices on the way to it. -/
inductive Path where
  | l3 (i : Nat)
  | l2 (i j : Nat)
  | l1 (i j k : Nat)
deriving DecidableEq, Repr

def Path.slot : Path → Nat
  | .l3 i => i
  | .l2 i _ => i
  | .l1 i _ _ => i

def Path.fits : Path → Prop
  | .l3 i => i < 512
  | .l2 i j => i < 512 ∧ j < 512
  | .l1 i j k => i < 512 ∧ j < 512 ∧ k < 512

def tab1 : APDE → Option Nat
  | .table a _ => some a
  | _ => Option.none
def tab2 : APDPTE → Option Nat
  | .table a _ => some a
  | _ => Option.none
def sub2 : APDPTE → Nat → Option Nat
  | .table _ d, k => tab1 (d k)
  | _, _ => Option.none
def sub3 : Option (Nat × APDPT) → Nat → Option Nat
  | some (_, d), j => tab2 (d j)
  | Option.none, _ => Option.none
def subsub3 : Option (Nat × APDPT) → Nat → Nat → Option Nat
  | some (_, d), j, k => sub2 (d j) k
  | Option.none, _, _ => Option.none

/-- The page of the table at a place. -/
def tableAt (t : APML4) : Path → Option Nat
  | .l3 i => (t i).map (·.1)
  | .l2 i j => sub3 (t i) j
  | .l1 i j k => subsub3 (t i) j k

/-- The pages of the tables of the user half and the lost pages are the pages taken, each once. -/
structure Own (pg : Nat → Nat) (f : Path → Option Nat) (n : Nat) (lost : List Nat) : Prop where
  fits : ∀ p a, p.slot < 128 → f p = some a → p.fits
  taken : ∀ p a, p.slot < 128 → f p = some a → ∃ k, k < n ∧ a = pg k
  inj : ∀ p q a, p.slot < 128 → q.slot < 128 → f p = some a → f q = some a → p = q
  lostTaken : ∀ a, a ∈ lost → ∃ k, k < n ∧ a = pg k
  lostNodup : lost.Nodup
  lostOut : ∀ a p, a ∈ lost → p.slot < 128 → f p ≠ some a
  all : ∀ k, k < n → pg k ∈ lost ∨ ∃ p, p.slot < 128 ∧ f p = some (pg k)

theorem Own.grow {pg : Nat → Nat} (hpg : ∀ a b, pg a = pg b → a = b) {f : Path → Option Nat}
    {n : Nat} {lost : List Nat} (h : Own pg f n lost) (p0 : Path) (hu : p0.slot < 128)
    (hf : p0.fits) (h0 : f p0 = Option.none) {g : Path → Option Nat}
    (hg : ∀ p, p.slot < 128 → g p = if p = p0 then some (pg n) else f p) :
    Own pg g (n + 1) lost := by
  have lt : ∀ {a}, (∃ k, k < n ∧ a = pg k) → a ≠ pg n := by
    rintro a ⟨k, hk, rfl⟩ e
    have := hpg _ _ e
    omega
  refine ⟨?_, ?_, ?_, ?_, h.lostNodup, ?_, ?_⟩
  · intro p a hp he
    rw [hg p hp] at he
    by_cases e : p = p0
    · subst e; exact hf
    · rw [if_neg e] at he; exact h.fits p a hp he
  · intro p a hp he
    rw [hg p hp] at he
    by_cases e : p = p0
    · rw [if_pos e] at he; cases he; exact ⟨n, by omega, rfl⟩
    · rw [if_neg e] at he
      obtain ⟨k, hk, e'⟩ := h.taken p a hp he
      exact ⟨k, by omega, e'⟩
  · intro p q a hp hq he1 he2
    rw [hg p hp] at he1
    rw [hg q hq] at he2
    by_cases e : p = p0
    · rw [if_pos e] at he1; cases he1
      by_cases e' : q = p0
      · rw [e, e']
      · rw [if_neg e'] at he2
        exact absurd rfl (lt (h.taken q _ hq he2))
    · rw [if_neg e] at he1
      by_cases e' : q = p0
      · rw [if_pos e'] at he2; cases he2
        exact absurd rfl (lt (h.taken p _ hp he1))
      · rw [if_neg e'] at he2
        exact h.inj p q a hp hq he1 he2
  · intro a ha
    obtain ⟨k, hk, e⟩ := h.lostTaken a ha
    exact ⟨k, by omega, e⟩
  · intro a p ha hp he
    rw [hg p hp] at he
    by_cases e : p = p0
    · rw [if_pos e] at he; cases he
      exact absurd rfl (lt (h.lostTaken _ ha))
    · rw [if_neg e] at he
      exact h.lostOut a p ha hp he
  · intro k hk
    by_cases e : k = n
    · subst e
      exact .inr ⟨p0, hu, by rw [hg p0 hu, if_pos rfl]⟩
    · rcases h.all k (by omega) with h1 | ⟨p, hp, hfp⟩
      · exact .inl h1
      · refine .inr ⟨p, hp, ?_⟩
        rw [hg p hp, if_neg ?_]
        · exact hfp
        · rintro rfl; rw [h0] at hfp; cases hfp

theorem Own.lose {pg : Nat → Nat} {f : Path → Option Nat} {n : Nat} {lost : List Nat}
    (h : Own pg f n lost) (p0 : Path) (hu : p0.slot < 128) {a : Nat} (h0 : f p0 = some a)
    {g : Path → Option Nat}
    (hg : ∀ p, p.slot < 128 → g p = if p = p0 then Option.none else f p) :
    Own pg g n (a :: lost) := by
  have up : ∀ p b, p.slot < 128 → g p = some b → p ≠ p0 ∧ f p = some b := by
    intro p b hp he
    rw [hg p hp] at he
    by_cases e : p = p0
    · rw [if_pos e] at he; cases he
    · rw [if_neg e] at he; exact ⟨e, he⟩
  refine ⟨fun p b hp he => h.fits p b hp (up p b hp he).2,
    fun p b hp he => h.taken p b hp (up p b hp he).2,
    fun p q b hp hq h1 h2 => h.inj p q b hp hq (up p b hp h1).2 (up q b hq h2).2, ?_, ?_, ?_, ?_⟩
  · intro b hb
    rcases List.mem_cons.1 hb with rfl | hb
    · exact h.taken p0 b hu h0
    · exact h.lostTaken b hb
  · exact List.nodup_cons.2 ⟨fun hm => h.lostOut a p0 hm hu h0, h.lostNodup⟩
  · intro b p hb hp he
    obtain ⟨hne, hf⟩ := up p b hp he
    rcases List.mem_cons.1 hb with rfl | hb
    · exact hne (h.inj p p0 b hp hu hf h0)
    · exact h.lostOut b p hb hp hf
  · intro k hk
    rcases h.all k hk with h1 | ⟨p, hp, hfp⟩
    · exact .inl (List.mem_cons_of_mem _ h1)
    · by_cases e : p = p0
      · subst e
        rw [h0] at hfp
        cases hfp
        exact .inl List.mem_cons_self
      · exact .inr ⟨p, hp, by rw [hg p hp, if_neg e]; exact hfp⟩

theorem Own.congr {pg : Nat → Nat} {f g : Path → Option Nat} {n : Nat} {lost : List Nat}
    (h : Own pg f n lost) (hg : ∀ p, p.slot < 128 → g p = f p) : Own pg g n lost := by
  refine ⟨fun p b hp he => h.fits p b hp (by rw [← hg p hp]; exact he),
    fun p b hp he => h.taken p b hp (by rw [← hg p hp]; exact he),
    fun p q b hp hq h1 h2 => h.inj p q b hp hq (by rw [← hg p hp]; exact h1)
      (by rw [← hg q hq]; exact h2), h.lostTaken, h.lostNodup,
    fun b p hb hp he => h.lostOut b p hb hp (by rw [← hg p hp]; exact he), ?_⟩
  intro k hk
  rcases h.all k hk with h1 | ⟨p, hp, hfp⟩
  · exact .inl h1
  · exact .inr ⟨p, hp, by rw [hg p hp]; exact hfp⟩

/-- The pages of a page table in use. -/
def Life.Ok (pg : Nat → Nat) (L : Life) : Prop := Own pg (tableAt L.root) L.n L.lost

/-! ### Steps -/

theorem i_lt (v : Nat) : i1 v < 512 ∧ i2 v < 512 ∧ i3 v < 512 ∧ i4 v < 512 :=
  ⟨Nat.mod_lt _ (by decide), Nat.mod_lt _ (by decide), Nat.mod_lt _ (by decide),
    Nat.mod_lt _ (by decide)⟩

theorem tableAt_upd {t : APML4} {i a : Nat} {d d' : APDPT} (h : t i = some (a, d)) (p : Path) :
    tableAt (upd t i (some (a, d'))) p =
      match p with
      | .l3 _ => tableAt t p
      | .l2 x j => if x = i then tab2 (d' j) else tableAt t p
      | .l1 x j k => if x = i then sub2 (d' j) k else tableAt t p := by
  cases p with
  | l3 x =>
    by_cases e : x = i
    · subst e; simp [tableAt, upd, h]
    · simp [tableAt, upd, e]
  | l2 x j =>
    by_cases e : x = i
    · subst e; simp [tableAt, upd, sub3]
    · simp [tableAt, upd, e]
  | l1 x j k =>
    by_cases e : x = i
    · subst e; simp [tableAt, upd, subsub3]
    · simp [tableAt, upd, e]

theorem tableAt_at {t : APML4} {i a : Nat} {d : APDPT} (h : t i = some (a, d)) :
    (∀ j, tableAt t (.l2 i j) = tab2 (d j)) ∧ (∀ j k, tableAt t (.l1 i j k) = sub2 (d j) k) := by
  constructor
  · intro j; simp [tableAt, h, sub3]
  · intro j k; simp [tableAt, h, subsub3]

theorem Life.Ok.need3 {pg : Nat → Nat} (hpg : ∀ a b, pg a = pg b → a = b) {L : Life}
    (h : L.Ok pg) (v : Nat) (hv : i4 v < 128) : (L.need3 pg v).Ok pg := by
  unfold Life.need3
  cases e : L.root (i4 v) with
  | some q => exact h
  | none =>
    refine Own.grow hpg h (.l3 (i4 v)) hv (i_lt v).2.2.2 (by simp [tableAt, e]) ?_
    intro p _
    cases p with
    | l3 x =>
      by_cases ex : x = i4 v
      · subst ex; simp [tableAt, upd]
      · simp [tableAt, upd, ex]
    | l2 x j =>
      by_cases ex : x = i4 v
      · subst ex; simp [tableAt, upd, sub3, e, APDPT.empty, tab2]
      · simp [tableAt, upd, ex]
    | l1 x j k =>
      by_cases ex : x = i4 v
      · subst ex; simp [tableAt, upd, subsub3, e, APDPT.empty, sub2]
      · simp [tableAt, upd, ex]

theorem need3_some (pg : Nat → Nat) (L : Life) (v : Nat) :
    ∃ a d, (L.need3 pg v).root (i4 v) = some (a, d) := by
  unfold Life.need3
  cases e : L.root (i4 v) with
  | some q => exact ⟨q.1, q.2, e⟩
  | none => exact ⟨_, _, upd_same _ _ _⟩

theorem get3_eq {L : Life} {v a : Nat} {d : APDPT} (h : L.root (i4 v) = some (a, d)) :
    L.get3 v = d := by
  unfold Life.get3; rw [h]

theorem set3_eq {L : Life} {v a : Nat} {d d' : APDPT} (h : L.root (i4 v) = some (a, d)) :
    L.set3 v d' = { L with root := upd L.root (i4 v) (some (a, d')) } := by
  unfold Life.set3; rw [h]

theorem get2_eq {L : Life} {v a b : Nat} {d : APDPT} {d2 : APD} (h : L.root (i4 v) = some (a, d))
    (h2 : d (i3 v) = .table b d2) : L.get2 v = d2 := by
  unfold Life.get2; rw [get3_eq h, h2]

theorem set2_eq {L : Life} {v a b : Nat} {d : APDPT} {d2 d2' : APD}
    (h : L.root (i4 v) = some (a, d)) (h2 : d (i3 v) = .table b d2) :
    L.set2 v d2' =
      { L with root := upd L.root (i4 v) (some (a, upd d (i3 v) (.table b d2'))) } := by
  unfold Life.set2; rw [get3_eq h, h2]; exact set3_eq h

theorem set1_eq {L : Life} {v a b c : Nat} {d : APDPT} {d2 : APD} {d1 d1' : PT}
    (h : L.root (i4 v) = some (a, d)) (h2 : d (i3 v) = .table b d2)
    (h1 : d2 (i2 v) = .table c d1) :
    L.set1 v d1' = { L with root := upd L.root (i4 v) (some (a, upd d (i3 v)
      (.table b (upd d2 (i2 v) (.table c d1'))))) } := by
  unfold Life.set1; rw [get2_eq h h2, h1]; exact set2_eq h h2

/-- Changing entries of a table without touching the tables below. -/
theorem Life.Ok.set3 {pg : Nat → Nat} {L : Life} (h : L.Ok pg) {v a : Nat} {d d' : APDPT}
    (hr : L.root (i4 v) = some (a, d))
    (hs : ∀ j, tab2 (d' j) = tab2 (d j) ∧ ∀ k, sub2 (d' j) k = sub2 (d j) k) :
    (L.set3 v d').Ok pg := by
  rw [set3_eq hr]
  refine Own.congr h fun p _ => ?_
  show tableAt (upd L.root (i4 v) (some (a, d'))) p = tableAt L.root p
  rw [tableAt_upd hr]
  cases p with
  | l3 x => rfl
  | l2 x j =>
    by_cases e : x = i4 v
    · subst e; simp [(tableAt_at hr).1, (hs j).1]
    · simp [e]
  | l1 x j k =>
    by_cases e : x = i4 v
    · subst e; simp [(tableAt_at hr).2, (hs j).2]
    · simp [e]

theorem Life.Ok.set2 {pg : Nat → Nat} {L : Life} (h : L.Ok pg) {v a b : Nat} {d : APDPT}
    {d2 d2' : APD} (hr : L.root (i4 v) = some (a, d)) (h2 : d (i3 v) = .table b d2)
    (hs : ∀ k, tab1 (d2' k) = tab1 (d2 k)) : (L.set2 v d2').Ok pg := by
  unfold Life.set2
  rw [get3_eq hr, h2]
  refine Life.Ok.set3 h hr fun j => ?_
  by_cases e : j = i3 v
  · subst e
    simp only [upd_same, h2]
    exact ⟨rfl, fun k => hs k⟩
  · simp [upd, e]

theorem Life.Ok.set1 {pg : Nat → Nat} {L : Life} (h : L.Ok pg) {v a b c : Nat} {d : APDPT}
    {d2 : APD} {d1 d1' : PT} (hr : L.root (i4 v) = some (a, d)) (h2 : d (i3 v) = .table b d2)
    (h1 : d2 (i2 v) = .table c d1) : (L.set1 v d1').Ok pg := by
  unfold Life.set1
  rw [get2_eq hr h2, h1]
  refine Life.Ok.set2 h hr h2 fun k => ?_
  by_cases e : k = i2 v
  · subst e; simp only [upd_same, h1]; rfl
  · simp [upd, e]

theorem Life.Ok.need2 {pg : Nat → Nat} (hpg : ∀ a b, pg a = pg b → a = b) {L L2 : Life}
    (h : L.Ok pg) {v a : Nat} {d : APDPT} (hv : i4 v < 128) (hr : L.root (i4 v) = some (a, d))
    (he : L.need2 pg v = some L2) :
    L2.Ok pg ∧ ∃ d' b d2, L2.root (i4 v) = some (a, d') ∧ d' (i3 v) = .table b d2 := by
  unfold Life.need2 at he
  rw [get3_eq hr] at he
  cases e : d (i3 v) with
  | page l => rw [e] at he; cases he
  | table b d2 =>
    rw [e] at he; cases he
    exact ⟨h, d, b, d2, hr, e⟩
  | none =>
    rw [e] at he; cases he
    rw [set3_eq hr]
    refine ⟨?_, _, _, _, upd_same _ _ _, upd_same _ _ _⟩
    refine Own.grow hpg h (.l2 (i4 v) (i3 v)) hv ⟨(i_lt v).2.2.2, (i_lt v).2.2.1⟩
      (by rw [(tableAt_at hr).1, e]; rfl) ?_
    intro p _
    show tableAt (upd L.root (i4 v) _) p = _
    rw [tableAt_upd hr]
    cases p with
    | l3 x => simp
    | l2 x j =>
      by_cases ex : x = i4 v
      · subst ex
        by_cases ej : j = i3 v
        · subst ej; simp [upd, tab2]
        · simp [upd, ej, (tableAt_at hr).1]
      · simp [ex]
    | l1 x j k =>
      by_cases ex : x = i4 v
      · subst ex
        by_cases ej : j = i3 v
        · subst ej; simp [upd, sub2, APD.empty, tab1, (tableAt_at hr).2, e]
        · simp [upd, ej, (tableAt_at hr).2]
      · simp [ex]

theorem Life.Ok.need1 {pg : Nat → Nat} (hpg : ∀ a b, pg a = pg b → a = b) {L L3 : Life}
    (h : L.Ok pg) {v a b : Nat} {d : APDPT} {d2 : APD} (hv : i4 v < 128)
    (hr : L.root (i4 v) = some (a, d)) (h2 : d (i3 v) = .table b d2)
    (he : L.need1 pg v = some L3) :
    L3.Ok pg ∧ ∃ d' d2' c d1, L3.root (i4 v) = some (a, d') ∧ d' (i3 v) = .table b d2' ∧
      d2' (i2 v) = .table c d1 := by
  unfold Life.need1 at he
  rw [get2_eq hr h2] at he
  cases e : d2 (i2 v) with
  | page l => rw [e] at he; cases he
  | table c d1 =>
    rw [e] at he; cases he
    exact ⟨h, d, d2, c, d1, hr, h2, e⟩
  | none =>
    rw [e] at he; cases he
    rw [set2_eq hr h2]
    refine ⟨?_, _, _, _, _, upd_same _ _ _, upd_same _ _ _, upd_same _ _ _⟩
    refine Own.grow hpg h (.l1 (i4 v) (i3 v) (i2 v)) hv
      ⟨(i_lt v).2.2.2, (i_lt v).2.2.1, (i_lt v).2.1⟩
      (by rw [(tableAt_at hr).2, h2]; simp [sub2, e, tab1]) ?_
    intro p _
    show tableAt (upd L.root (i4 v) _) p = _
    rw [tableAt_upd hr]
    cases p with
    | l3 x => simp
    | l2 x j =>
      by_cases ex : x = i4 v
      · subst ex
        by_cases ej : j = i3 v
        · subst ej; simp [upd, tab2, (tableAt_at hr).1, h2]
        · simp [upd, ej, (tableAt_at hr).1]
      · simp [ex]
    | l1 x j k =>
      by_cases ex : x = i4 v
      · subst ex
        by_cases ej : j = i3 v
        · subst ej
          by_cases ek : k = i2 v
          · subst ek; simp [upd, sub2, tab1]
          · simp [upd, sub2, ek, (tableAt_at hr).2, h2]
        · simp [upd, ej, (tableAt_at hr).2]
      · simp [ex]

theorem PD.allEmpty_none {d : PD} (h : d.allEmpty = true) (i : Nat) (hi : i < 512) : d i = .none := by
  unfold PD.allEmpty at h
  have := List.all_eq_true.1 h i (List.mem_range.2 hi)
  cases e : d i with
  | none => rfl
  | page l => rw [e] at this; cases this
  | table t => rw [e] at this; cases this

theorem Life.Ok.clear3 {pg : Nat → Nat} {L : Life} (h : L.Ok pg) {v a : Nat} {d : APDPT}
    (hv : i4 v < 128) (hr : L.root (i4 v) = some (a, d))
    (hE : ∀ b d2, d (i3 v) = .table b d2 → d2.erase.allEmpty = true) :
    (L.clear3 v).Ok pg ∧ ∃ d', (L.clear3 v).root (i4 v) = some (a, d') := by
  unfold Life.clear3
  rw [get3_eq hr]
  cases e : d (i3 v) with
  | none =>
    refine ⟨Life.Ok.set3 h hr fun j => ?_, by rw [set3_eq hr]; exact ⟨_, upd_same _ _ _⟩⟩
    by_cases ej : j = i3 v
    · subst ej; simp [upd, e]
    · simp [upd, ej]
  | page l =>
    refine ⟨Life.Ok.set3 h hr fun j => ?_, by rw [set3_eq hr]; exact ⟨_, upd_same _ _ _⟩⟩
    by_cases ej : j = i3 v
    · subst ej; simp [upd, e, tab2, sub2]
    · simp [upd, ej]
  | table b d2 =>
    show Life.Ok pg { L.set3 v (upd d (i3 v) .none) with lost := b :: L.lost } ∧ _
    rw [set3_eq hr]
    refine ⟨?_, _, upd_same _ _ _⟩
    refine Own.lose h (.l2 (i4 v) (i3 v)) hv (by rw [(tableAt_at hr).1, e]; rfl) ?_
    intro p hp
    show tableAt (upd L.root (i4 v) _) p = _
    rw [tableAt_upd hr]
    cases p with
    | l3 x => simp
    | l2 x j =>
      by_cases ex : x = i4 v
      · subst ex
        by_cases ej : j = i3 v
        · subst ej; simp [upd, tab2]
        · simp [upd, ej, (tableAt_at hr).1]
      · simp [ex]
    | l1 x j k =>
      by_cases ex : x = i4 v
      · subst ex
        by_cases ej : j = i3 v
        · subst ej
          have hn : tableAt L.root (.l1 (i4 v) (i3 v) k) = Option.none := by
            by_cases hk : k < 512
            · rw [(tableAt_at hr).2, e]
              have := PD.allEmpty_none (hE b d2 e) k hk
              unfold APD.erase APDE.erase at this
              show tab1 (d2 k) = Option.none
              cases e' : d2 k with
              | none => rfl
              | page l => rfl
              | table c t => rw [e'] at this; cases this
            · cases e' : tableAt L.root (.l1 (i4 v) (i3 v) k) with
              | none => rfl
              | some c => exact absurd (h.fits (.l1 (i4 v) (i3 v) k) c hv e').2.2 hk
          rw [hn]
          simp [upd, sub2]
        · simp [upd, ej, (tableAt_at hr).2]
      · simp [ex]

theorem Life.Ok.clear2 {pg : Nat → Nat} {L : Life} (h : L.Ok pg) {v a b : Nat} {d : APDPT}
    {d2 : APD} (hv : i4 v < 128) (hr : L.root (i4 v) = some (a, d))
    (h2 : d (i3 v) = .table b d2) :
    (L.clear2 v).Ok pg ∧ ∃ d' d2', (L.clear2 v).root (i4 v) = some (a, d') ∧
      d' (i3 v) = .table b d2' := by
  unfold Life.clear2
  rw [get2_eq hr h2]
  have hroot : ∃ d' d2', (L.set2 v (upd d2 (i2 v) .none)).root (i4 v) = some (a, d') ∧
      d' (i3 v) = .table b d2' := by
    rw [set2_eq hr h2]; exact ⟨_, _, upd_same _ _ _, upd_same _ _ _⟩
  cases e : d2 (i2 v) with
  | none =>
    refine ⟨Life.Ok.set2 h hr h2 fun k => ?_, hroot⟩
    by_cases ek : k = i2 v
    · subst ek; simp [upd, e]
    · simp [upd, ek]
  | page l =>
    refine ⟨Life.Ok.set2 h hr h2 fun k => ?_, hroot⟩
    by_cases ek : k = i2 v
    · subst ek; simp [upd, e, tab1]
    · simp [upd, ek]
  | table c d1 =>
    refine ⟨?_, hroot⟩
    show Life.Ok pg { L.set2 v (upd d2 (i2 v) .none) with lost := c :: L.lost }
    rw [set2_eq hr h2]
    refine Own.lose h (.l1 (i4 v) (i3 v) (i2 v)) hv
      (by rw [(tableAt_at hr).2, h2]; simp [sub2, e, tab1]) ?_
    intro p hp
    show tableAt (upd L.root (i4 v) _) p = _
    rw [tableAt_upd hr]
    cases p with
    | l3 x => simp
    | l2 x j =>
      by_cases ex : x = i4 v
      · subst ex
        by_cases ej : j = i3 v
        · subst ej; simp [upd, tab2, (tableAt_at hr).1, h2]
        · simp [upd, ej, (tableAt_at hr).1]
      · simp [ex]
    | l1 x j k =>
      by_cases ex : x = i4 v
      · subst ex
        by_cases ej : j = i3 v
        · subst ej
          by_cases ek : k = i2 v
          · subst ek; simp [upd, sub2, tab1]
          · simp [upd, sub2, ek, (tableAt_at hr).2, h2]
        · simp [upd, ej, (tableAt_at hr).2]
      · simp [ex]

/-- The loops leave entries for tables alone. -/
theorem fill_keeps {E X : Type} (clash : E → Nat → Bool) (mk : Nat → E) (step : Nat)
    (pr : E → X) (hmk : ∀ e pa b, clash e pa = false → pr (mk b) = pr e) :
    ∀ n t idx pa s t' m, fill clash mk step n t idx pa s = .ok (t', m) → ∀ j, pr (t' j) = pr (t j) := by
  intro n
  induction n with
  | zero => intro t idx pa s t' m h j; cases h; rfl
  | succ n ih =>
    intro t idx pa s t' m h j
    unfold fill at h
    by_cases hs : s ≥ step
    · rw [if_pos hs] at h
      by_cases hc : clash (t idx) pa = true
      · rw [if_pos hc] at h; cases h
      · rw [if_neg hc] at h
        cases hf : fill clash mk step n (upd t idx (mk pa)) (idx + 1) (pa + step) (s - step) with
        | ok q =>
          obtain ⟨t1, m1⟩ := q
          rw [hf] at h
          cases h
          rw [ih _ _ _ _ _ _ hf j]
          by_cases ej : j = idx
          · subst ej
            rw [upd_same]
            exact hmk _ pa _ (by simpa using hc)
          · simp [upd, ej]
        | err e => rw [hf] at h; cases h
        | panic => rw [hf] at h; cases h
    · rw [if_neg hs] at h; cases h; rfl

end NRK.VSpace
