import Verif.VSpace.DropProps

/-! # C88: pages of tables that are never freed -/

namespace NRK.VSpace

/-- The directory of `v` is there and its entry for `v` is not present. -/
def Ready (L : Life) (v : Nat) : Prop :=
  ∃ a d b d2, L.root (i4 v) = some (a, d) ∧ d (i3 v) = .table b d2 ∧ d2 (i2 v) = .none

theorem need3_at {pg : Nat → Nat} {L : Life} {v a : Nat} {d : APDPT}
    (h : L.root (i4 v) = some (a, d)) : L.need3 pg v = L := by
  unfold Life.need3; rw [h]

theorem need2_at {pg : Nat → Nat} {L : Life} {v a b : Nat} {d : APDPT} {d2 : APD}
    (h : L.root (i4 v) = some (a, d)) (h2 : d (i3 v) = .table b d2) : L.need2 pg v = some L := by
  unfold Life.need2; rw [get3_eq h, h2]

theorem run_append (env : Env) (pg : Nat → Nat) (xs ys : List PtOp) (L : Life) :
    L.run env pg (xs ++ ys) = match L.run env pg xs with
      | .ok L' => L'.run env pg ys
      | .err e => .err e
      | .panic => .panic := by
  induction xs generalizing L with
  | nil => rfl
  | cons o os ih =>
    simp only [List.cons_append, Life.run]
    cases L.op env pg o with
    | ok L' => exact ih L'
    | err e => exact ih L
    | panic => rfl

/-- Mapping a base page into a directory with no table there takes a page. -/
theorem map4k (env : Env) (pg : Nat → Nat) (r : MapAction) (L : Life) (v p a b : Nat) (d : APDPT)
    (d2 : APD) (hv : v % 4096 = 0) (hp : p % 4096 = 0) (h : L.root (i4 v) = some (a, d))
    (h2 : d (i3 v) = .table b d2) (h1 : d2 (i2 v) = .none) :
    L.op env pg (.map v p 0x1000 r) = .ok { L with
      n := L.n + 1
      root := upd L.root (i4 v) (some (a, upd d (i3 v) (.table b (upd d2 (i2 v)
        (.table (pg L.n) (upd PT.empty (i1 v) (some ⟨p, leafFlags .pt r⟩))))))) } := by
  have av := addr_eq v
  have hH : canHuge env d.erase v p 4096 = .ok false := by
    unfold canHuge; rw [if_neg (by omega)]
  have hL : canLarge env d2.erase v p 4096 = .ok false := by
    unfold canLarge; split
    · rfl
    · rw [if_neg (by omega)]
  have hn1 : L.need1 pg v = some { L with
      n := L.n + 1
      root := upd L.root (i4 v) (some (a, upd d (i3 v) (.table b (upd d2 (i2 v)
        (.table (pg L.n) PT.empty))))) } := by
    unfold Life.need1
    rw [get2_eq h h2, h1]
    simp only
    rw [set2_eq h h2]
  have hfill := fill_one (clash1 r) (fun a => some ⟨a, leafFlags .pt r⟩) 4096 (512 - i1 v) PT.empty
    (i1 v) p (by omega) (by omega) rfl
  show amapGeneric env pg r (4096 / 4096 + 1) L v p 4096 = _
  unfold amapGeneric amapStep
  rw [if_pos ⟨hp, hv, rfl⟩, need3_at h]
  simp only
  rw [get3_eq h, hH]
  simp only
  rw [need2_at h h2]
  simp only
  rw [get2_eq h h2, hL]
  simp only
  rw [hn1]
  simp only
  generalize hM : ({ L with
      n := L.n + 1
      root := upd L.root (i4 v) (some (a, upd d (i3 v) (.table b (upd d2 (i2 v)
        (.table (pg L.n) PT.empty))))) } : Life) = M
  have hr : M.root (i4 v) = some (a, upd d (i3 v) (.table b (upd d2 (i2 v)
      (.table (pg L.n) PT.empty)))) := by rw [← hM]; exact upd_same _ _ _
  have hg : M.get1 v = PT.empty := by
    unfold Life.get1; rw [get2_eq hr (upd_same _ _ _), upd_same]
  rw [hg, hfill]
  show Outcome.ok _ = _
  rw [set1_eq hr (upd_same _ _ _) (upd_same _ _ _), ← hM]
  simp only [upd_upd]

theorem unmap4k (env : Env) (pg : Nat → Nat) (L : Life) (v a b c : Nat) (d : APDPT) (d2 : APD)
    (d1 : PT) (l : Leaf) (hv : v % 4096 = 0) (h : L.root (i4 v) = some (a, d))
    (h2 : d (i3 v) = .table b d2) (h1 : d2 (i2 v) = .table c d1) (h0 : d1 (i1 v) = some l) :
    L.op env pg (.unmap v) = .ok { L with
      root := upd L.root (i4 v) (some (a, upd d (i3 v) (.table b (upd d2 (i2 v)
        (.table c (upd d1 (i1 v) Option.none)))))) } := by
  simp only [Life.op]
  rw [if_neg (by omega)]
  unfold amodify
  rw [h]
  simp only
  rw [h2]
  simp only
  rw [h1]
  simp only
  rw [h0]
  simp only
  rw [set1_eq h h2 h1]
  rfl

/-- Mapping a large page over an empty table takes the table out of the tree. -/
theorem map2m (env : Env) (hk : env.pages4k = false) (pg : Nat → Nat) (r : MapAction) (L : Life)
    (v p a b : Nat) (d : APDPT) (d2 : APD) (hv : v % 2097152 = 0) (hw : win v = 0)
    (hp : p % 2097152 = 0) (h : L.root (i4 v) = some (a, d)) (h2 : d (i3 v) = .table b d2)
    (c : Nat) (d1 : PT) (h1 : d2 (i2 v) = .table c d1) (h0 : ∀ i, d1 i = Option.none) :
    L.op env pg (.map v p 0x200000 r) = .ok { L with
      lost := c :: L.lost
      root := upd L.root (i4 v) (some (a, upd d (i3 v) (.table b (upd d2 (i2 v)
        (.page ⟨p, leafFlags .pd r⟩))))) } := by
  have av := addr_eq v
  have hH : canHuge env d.erase v p 2097152 = .ok false := by
    unfold canHuge; rw [if_neg (by omega)]
  have hL : canLarge env d2.erase v p 2097152 = .ok true := by
    unfold canLarge
    rw [hk, if_neg (by simp), if_pos ⟨by omega, hp, by omega⟩]
    rw [show d2.erase (i2 v) = .table d1 by simp [APD.erase, h1, APDE.erase]]
    show Outcome.ok d1.allEmpty = _
    rw [PT.allEmpty_of d1 fun i _ => h0 i]
  have hc : L.clear2 v = { L with
      lost := c :: L.lost
      root := upd L.root (i4 v) (some (a, upd d (i3 v) (.table b (upd d2 (i2 v) .none)))) } := by
    unfold Life.clear2
    rw [get2_eq h h2, h1]
    simp only
    rw [set2_eq h h2]
  have hfill := fill_one (fun e => clash2 r (APDE.erase e)) (fun a => .page ⟨a, leafFlags .pd r⟩)
    2097152 (512 - i2 v) (upd d2 (i2 v) .none) (i2 v) p (by omega) (by omega)
    (by rw [upd_same]; rfl)
  show amapGeneric env pg r (2097152 / 4096 + 1) L v p 2097152 = _
  unfold amapGeneric amapStep
  rw [if_pos ⟨by omega, by omega, rfl⟩, need3_at h]
  simp only
  rw [get3_eq h, hH]
  simp only
  rw [need2_at h h2]
  simp only
  rw [get2_eq h h2, hL]
  simp only
  rw [hc]
  generalize hM : ({ L with
      lost := c :: L.lost
      root := upd L.root (i4 v) (some (a, upd d (i3 v) (.table b (upd d2 (i2 v) .none)))) } : Life)
    = M
  have hr : M.root (i4 v) = some (a, upd d (i3 v) (.table b (upd d2 (i2 v) .none))) := by
    rw [← hM]; exact upd_same _ _ _
  rw [get2_eq hr (upd_same _ _ _), hfill]
  show Outcome.ok _ = _
  rw [set2_eq hr (upd_same _ _ _), ← hM]
  simp only [upd_upd]

theorem unmap2m (env : Env) (pg : Nat → Nat) (L : Life) (v a b : Nat) (d : APDPT) (d2 : APD)
    (l : Leaf) (hv : v % 4096 = 0) (h : L.root (i4 v) = some (a, d))
    (h2 : d (i3 v) = .table b d2) (h1 : d2 (i2 v) = .page l) :
    L.op env pg (.unmap v) = .ok { L with
      root := upd L.root (i4 v) (some (a, upd d (i3 v) (.table b (upd d2 (i2 v) .none)))) } := by
  simp only [Life.op]
  rw [if_neg (by omega)]
  unfold amodify
  rw [h]
  simp only
  rw [h2]
  simp only
  rw [h1]
  simp only
  rw [set2_eq h h2]
  rfl

theorem run_cycle (env : Env) (hk : env.pages4k = false) (pg : Nat → Nat) (r : MapAction) (L : Life)
    (v p : Nat) (hv : v % 2097152 = 0) (hw : win v = 0) (hp : p % 2097152 = 0) (h : Ready L v) :
    ∃ L', L.run env pg (cycle v p r) = .ok L' ∧ Ready L' v ∧ L'.n = L.n + 1 ∧
      L'.lost.length = L.lost.length + 1 := by
  obtain ⟨a, d, b, d2, h4, h3, h2⟩ := h
  have av := addr_eq v
  have hv4 : v % 4096 = 0 := by omega
  obtain ⟨L1, e1, r1, n1, l1⟩ : ∃ L1, L.op env pg (.map v p 0x1000 r) = .ok L1 ∧
      L1.root (i4 v) = some (a, upd d (i3 v) (.table b (upd d2 (i2 v)
        (.table (pg L.n) (upd PT.empty (i1 v) (some ⟨p, leafFlags .pt r⟩)))))) ∧
      L1.n = L.n + 1 ∧ L1.lost = L.lost :=
    ⟨_, map4k env pg r L v p a b d d2 hv4 (by omega) h4 h3 h2, upd_same _ _ _, rfl, rfl⟩
  obtain ⟨L2, e2, r2, n2, l2⟩ : ∃ L2, L1.op env pg (.unmap v) = .ok L2 ∧
      L2.root (i4 v) = some (a, upd d (i3 v) (.table b (upd d2 (i2 v)
        (.table (pg L.n) (upd PT.empty (i1 v) Option.none))))) ∧
      L2.n = L1.n ∧ L2.lost = L1.lost := by
    refine ⟨_, unmap4k env pg L1 v a b _ _ _ _ _ hv4 r1 (upd_same _ _ _) (upd_same _ _ _)
      (upd_same _ _ _), ?_, rfl, rfl⟩
    simp only [upd_same, upd_upd]
  obtain ⟨L3, e3, r3, n3, l3⟩ : ∃ L3, L2.op env pg (.map v p 0x200000 r) = .ok L3 ∧
      L3.root (i4 v) = some (a, upd d (i3 v) (.table b (upd d2 (i2 v)
        (.page ⟨p, leafFlags .pd r⟩)))) ∧
      L3.n = L2.n ∧ L3.lost = pg L.n :: L2.lost := by
    refine ⟨_, map2m env hk pg r L2 v p a b _ _ hv hw hp r2 (upd_same _ _ _) _ _ (upd_same _ _ _)
      ?_, ?_, rfl, rfl⟩
    · intro i
      by_cases e : i = i1 v
      · subst e; exact upd_same _ _ _
      · rw [upd_other _ _ e]; rfl
    · simp only [upd_same, upd_upd]
  obtain ⟨L4, e4, r4, n4, l4⟩ : ∃ L4, L3.op env pg (.unmap v) = .ok L4 ∧
      L4.root (i4 v) = some (a, upd d (i3 v) (.table b (upd d2 (i2 v) .none))) ∧
      L4.n = L3.n ∧ L4.lost = L3.lost := by
    refine ⟨_, unmap2m env pg L3 v a b _ _ _ hv4 r3 (upd_same _ _ _) (upd_same _ _ _), ?_, rfl, rfl⟩
    simp only [upd_same, upd_upd]
  refine ⟨L4, ?_, ⟨a, _, b, _, r4, upd_same _ _ _, upd_same _ _ _⟩, by omega, ?_⟩
  · simp only [cycle, Life.run, e1, e2, e3, e4]
  · rw [l4, l3, l2, l1]; rfl

theorem run_cycles (env : Env) (hk : env.pages4k = false) (pg : Nat → Nat) (r : MapAction)
    (v p : Nat) (hv : v % 2097152 = 0) (hw : win v = 0) (hp : p % 2097152 = 0) :
    ∀ k (L : Life), Ready L v →
      ∃ L', L.run env pg (List.replicate k (cycle v p r)).flatten = .ok L' ∧ Ready L' v ∧
        L'.n = L.n + k ∧ L'.lost.length = L.lost.length + k := by
  intro k
  induction k with
  | zero => intro L h; exact ⟨L, rfl, h, rfl, rfl⟩
  | succ k ih =>
    intro L h
    obtain ⟨L1, e1, h1, n1, l1⟩ := run_cycle env hk pg r L v p hv hw hp h
    obtain ⟨L2, e2, h2, n2, l2⟩ := ih L1 h1
    refine ⟨L2, ?_, h2, by omega, by omega⟩
    rw [List.replicate_succ, List.flatten_cons, run_append, e1]
    exact e2

/-- The first large page of an address space. -/
theorem map2m_fresh (env : Env) (hk : env.pages4k = false) (pg : Nat → Nat) (r : MapAction) (L : Life)
    (v p : Nat) (hv : v % 2097152 = 0) (hw : win v = 0)
    (hp : p % 2097152 = 0) (h : L.root (i4 v) = Option.none) :
    L.op env pg (.map v p 0x200000 r) = .ok { L with
      n := L.n + 2
      root := upd L.root (i4 v) (some (pg L.n, upd APDPT.empty (i3 v) (.table (pg (L.n + 1))
        (upd APD.empty (i2 v) (.page ⟨p, leafFlags .pd r⟩))))) } := by
  have av := addr_eq v
  have hH : canHuge env APDPT.empty.erase v p 2097152 = .ok false := by
    unfold canHuge; rw [if_neg (by omega)]
  have hL : canLarge env APD.empty.erase v p 2097152 = .ok true := by
    unfold canLarge
    rw [hk, if_neg (by simp), if_pos ⟨by omega, hp, by omega⟩]
    rfl
  have hn3 : L.need3 pg v = { L with
      n := L.n + 1
      root := upd L.root (i4 v) (some (pg L.n, APDPT.empty)) } := by
    unfold Life.need3; rw [h]
  show amapGeneric env pg r (2097152 / 4096 + 1) L v p 2097152 = _
  unfold amapGeneric amapStep
  rw [if_pos ⟨by omega, by omega, rfl⟩, hn3]
  generalize hM : ({ L with
      n := L.n + 1
      root := upd L.root (i4 v) (some (pg L.n, APDPT.empty)) } : Life) = M
  have hr : M.root (i4 v) = some (pg L.n, APDPT.empty) := by rw [← hM]; exact upd_same _ _ _
  simp only
  rw [get3_eq hr, hH]
  simp only
  have hn2 : M.need2 pg v = some { M with
      n := M.n + 1
      root := upd M.root (i4 v) (some (pg L.n, upd APDPT.empty (i3 v)
        (.table (pg M.n) APD.empty))) } := by
    unfold Life.need2
    rw [get3_eq hr]
    simp only [APDPT.empty]
    rw [set3_eq hr]
  rw [hn2]
  simp only
  generalize hN : ({ M with
      n := M.n + 1
      root := upd M.root (i4 v) (some (pg L.n, upd APDPT.empty (i3 v)
        (.table (pg M.n) APD.empty))) } : Life) = N
  have hr2 : N.root (i4 v) = some (pg L.n, upd APDPT.empty (i3 v) (.table (pg M.n) APD.empty)) := by
    rw [← hN]; exact upd_same _ _ _
  rw [get2_eq hr2 (upd_same _ _ _), hL]
  simp only
  have hc : N.clear2 v = { N with
      root := upd N.root (i4 v) (some (pg L.n, upd (upd APDPT.empty (i3 v)
        (.table (pg M.n) APD.empty)) (i3 v) (.table (pg M.n) (upd APD.empty (i2 v) .none)))) } := by
    unfold Life.clear2
    rw [get2_eq hr2 (upd_same _ _ _), set2_eq hr2 (upd_same _ _ _)]
    rfl
  rw [hc]
  generalize hO : ({ N with
      root := upd N.root (i4 v) (some (pg L.n, upd (upd APDPT.empty (i3 v)
        (.table (pg M.n) APD.empty)) (i3 v) (.table (pg M.n) (upd APD.empty (i2 v) .none)))) } : Life)
    = O
  have hr3 : O.root (i4 v) = some (pg L.n, upd (upd APDPT.empty (i3 v)
        (.table (pg M.n) APD.empty)) (i3 v) (.table (pg M.n) (upd APD.empty (i2 v) .none))) := by
    rw [← hO]; exact upd_same _ _ _
  have hfill := fill_one (fun e => clash2 r (APDE.erase e)) (fun a => .page ⟨a, leafFlags .pd r⟩)
    2097152 (512 - i2 v) (upd APD.empty (i2 v) .none) (i2 v) p (by omega) (by omega)
    (by rw [upd_same]; rfl)
  rw [get2_eq hr3 (upd_same _ _ _), hfill]
  show Outcome.ok _ = _
  rw [set2_eq hr3 (upd_same _ _ _), ← hO, ← hN, ← hM]
  simp only [upd_upd]

/-- C88 fails for larger pages: a process that maps and unmaps a 4 KiB page and a 2 MiB page at the
same address `k` times over, and has nothing mapped at the end, makes the kernel lose `k` pages: `k + 2`
pages were taken for tables, two are freed with the address space. -/
theorem c88_leak (env : Env) (hk : env.pages4k = false) (pg : Nat → Nat) (hpg : Distinct pg)
    (K : APML4) (r : MapAction) (v p : Nat) (hv : v % 0x200000 = 0) (hv2 : v + 0x200000 ≤ 0x400000000000)
    (hp : p % 0x200000 = 0) (k : Nat) :
    ∃ L, (Life.new K).run env pg
        ([.map v p 0x200000 r, .unmap v] ++ (List.replicate k (cycle v p r)).flatten) = .ok L ∧
      (L.handed pg).length = k + 2 ∧ L.freed.length = 2 := by
  have hw : win v = 0 := by unfold win; omega
  have hu4 : i4 v < 128 := i4_user (by omega)
  have h0 : (Life.new K).root (i4 v) = Option.none := by
    show (if i4 v < 128 then Option.none else _) = _
    rw [if_pos hu4]
  obtain ⟨L1, e1, r1, n1, l1⟩ : ∃ L1, (Life.new K).op env pg (.map v p 0x200000 r) = .ok L1 ∧
      L1.root (i4 v) = some (pg 0, upd APDPT.empty (i3 v) (.table (pg 1)
        (upd APD.empty (i2 v) (.page ⟨p, leafFlags .pd r⟩)))) ∧ L1.n = 2 ∧ L1.lost = [] :=
    ⟨_, map2m_fresh env hk pg r (Life.new K) v p hv hw hp h0, upd_same _ _ _, rfl, rfl⟩
  obtain ⟨L2, e2, r2, n2, l2⟩ : ∃ L2, L1.op env pg (.unmap v) = .ok L2 ∧ Ready L2 v ∧ L2.n = L1.n ∧
      L2.lost = L1.lost := by
    refine ⟨_, unmap2m env pg L1 v _ _ _ _ _ (by omega) r1 (upd_same _ _ _) (upd_same _ _ _), ?_,
      rfl, rfl⟩
    exact ⟨_, _, _, _, upd_same _ _ _, upd_same _ _ _, upd_same _ _ _⟩
  obtain ⟨L3, e3, _, n3, l3⟩ := run_cycles env hk pg r v p hv hw hp k L2 r2
  have hrun : (Life.new K).run env pg
      ([.map v p 0x200000 r, .unmap v] ++ (List.replicate k (cycle v p r)).flatten) = .ok L3 := by
    rw [run_append]
    simp only [Life.run, e1, e2]
    exact e3
  refine ⟨L3, hrun, ?_, ?_⟩
  · unfold Life.handed; rw [List.length_map, List.length_range]; omega
  · have hacc := c88_account env pg hpg K _ ?_ L3 hrun
    · have := hacc.length_eq
      unfold Life.handed at this
      rw [List.length_append, List.length_map, List.length_range, l3, l2, l1] at this
      simp at this
      omega
    · intro o ho
      have hmap : ∀ s, s ≤ 0x200000 → (PtOp.map v p s r).user := fun s hs =>
        ⟨by omega, by omega⟩
      have hun : (PtOp.unmap v).user := show v < _ by omega
      rcases List.mem_append.1 ho with ho | ho
      · rcases List.mem_cons.1 ho with rfl | ho
        · exact hmap _ (by omega)
        · rw [List.mem_singleton.1 ho]; exact hun
      · obtain ⟨l, hl, hol⟩ := List.mem_flatten.1 ho
        rw [(List.mem_replicate.1 hl).2] at hol
        simp only [cycle, List.mem_cons, List.not_mem_nil, or_false] at hol
        rcases hol with rfl | rfl | rfl | rfl
        · exact hmap _ (by omega)
        · exact hun
        · exact hmap _ (by omega)
        · exact hun

/-- The address space of the examples: no kernel slots, pages from `0x100000` on. -/
def env88 : Env := ⟨false, fun _ => false⟩
def pg88 (k : Nat) : Nat := 0x100000 + 0x1000 * k

theorem pg88_distinct : Distinct pg88 := by
  intro a b h
  unfold pg88 at h
  omega

/-- What is observed of a run: the pages handed out and those freed. -/
def seen88 (os : List PtOp) : Option (List Nat × List Nat) :=
  match (Life.new fun _ => Option.none).run env88 pg88 os with
  | .ok L => some (L.handed pg88, L.freed)
  | _ => Option.none

/-- A case of `c88_frees_once` and `c88_no_leak_partial`: two pages in two tables, one of them unmapped
again. -/
theorem sample88 :
    (∀ o ∈ [PtOp.map 0x1000 0x5000 0x1000 .user, .map 0x400000 0x6000 0x1000 .user,
      .unmap 0x1000], o.user ∧ o.small env88) ∧
    seen88 [.map 0x1000 0x5000 0x1000 .user, .map 0x400000 0x6000 0x1000 .user,
      .unmap 0x1000] =
      some ([0x100000, 0x101000, 0x102000, 0x103000], [0x102000, 0x103000, 0x101000, 0x100000]) := by
  refine ⟨?_, by decide +kernel⟩
  intro o ho
  simp only [List.mem_cons, List.not_mem_nil, or_false] at ho
  rcases ho with rfl | rfl | rfl <;> simp [PtOp.user, PtOp.small, env88]

/-- Nothing refuses a mapping above `KERNEL_BASE` (C58); the tables made for it are not freed. -/
theorem c88_kernel_half :
    seen88 [.map 0x640000000000 0x5000 0x1000 .user] =
      some ([0x100000, 0x101000, 0x102000], []) := by
  decide +kernel

end NRK.VSpace
