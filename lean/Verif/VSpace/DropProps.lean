import Verif.VSpace.DropSpec
import Verif.VSpace.DropSim

/-!
# C88: dropping an address space gives back the pages of its tables
-/

namespace NRK.VSpace

theorem new_ok (pg : Nat → Nat) (K : APML4) : (Life.new K).Ok pg := by
  have hn : ∀ p : Path, p.slot < 128 → tableAt (Life.new K).root p = Option.none := by
    intro p hp
    cases p with
    | l3 i => simp [tableAt, Life.new, show i < 128 from hp]
    | l2 i j => simp [tableAt, Life.new, show i < 128 from hp, sub3]
    | l1 i j k => simp [tableAt, Life.new, show i < 128 from hp, subsub3]
  refine ⟨?_, ?_, ?_, ?_, List.nodup_nil, ?_, ?_⟩
  · intro p a hp h; rw [hn p hp] at h; cases h
  · intro p a hp h; rw [hn p hp] at h; cases h
  · intro p q a hp _ h; rw [hn p hp] at h; cases h
  · intro a h; cases h
  · intro a p h; cases h
  · intro k h; exact absurd h (Nat.not_lt_zero k)

theorem op_ok {env : Env} {pg : Nat → Nat} (hpg : Distinct pg) {L L' : Life} {o : PtOp}
    (h : L.Ok pg) (hu : o.user) (he : L.op env pg o = .ok L') :
    L'.Ok pg ∧ (∀ i, 128 ≤ i → L'.root i = L.root i) ∧ (o.small env → L'.lost = L.lost) := by
  have ne : ∀ {v : Nat}, v < 0x400000000000 → ∀ i, 128 ≤ i → i ≠ i4 v := by
    intro v hv i hi
    have := i4_user hv
    omega
  cases o with
  | map v p s r =>
    exact ⟨amap_ok hpg _ _ _ _ _ _ h hu.1 hu.2 he, root_map hpg _ _ _ _ _ _ h hu.1 hu.2 he,
      fun hs => lost_map _ _ _ _ _ _ hs he⟩
  | unmap v =>
    simp only [Life.op] at he
    split at he
    · cases he
    · exact ⟨amodify_ok h he, fun i hi => root_modify he i (ne hu i hi), fun _ => lost_modify he⟩
  | adjust v r =>
    simp only [Life.op] at he
    split at he
    · cases he
    · exact ⟨amodify_ok h he, fun i hi => root_modify he i (ne hu i hi), fun _ => lost_modify he⟩

theorem run_ok {env : Env} {pg : Nat → Nat} (hpg : Distinct pg) : ∀ (os : List PtOp) (L L' : Life),
    L.Ok pg → (∀ o ∈ os, o.user) → L.run env pg os = .ok L' →
      L'.Ok pg ∧ (∀ i, 128 ≤ i → L'.root i = L.root i) ∧
        ((∀ o ∈ os, o.small env) → L'.lost = L.lost) := by
  intro os
  induction os with
  | nil => intro L L' h _ he; cases he; exact ⟨h, fun _ _ => rfl, fun _ => rfl⟩
  | cons o os ih =>
    intro L L' h hu he
    unfold Life.run at he
    cases ho : L.op env pg o with
    | panic => rw [ho] at he; cases he
    | err e =>
      rw [ho] at he
      obtain ⟨h1, h2, h3⟩ := ih L L' h (fun x hx => hu x (List.mem_cons_of_mem _ hx)) he
      exact ⟨h1, h2, fun hs => h3 fun x hx => hs x (List.mem_cons_of_mem _ hx)⟩
    | ok L1 =>
      rw [ho] at he
      obtain ⟨g1, g2, g3⟩ := op_ok hpg h (hu o List.mem_cons_self) ho
      obtain ⟨h1, h2, h3⟩ := ih L1 L' g1 (fun x hx => hu x (List.mem_cons_of_mem _ hx)) he
      refine ⟨h1, fun i hi => (h2 i hi).trans (g2 i hi), fun hs => ?_⟩
      rw [h3 fun x hx => hs x (List.mem_cons_of_mem _ hx), g3 (hs o List.mem_cons_self)]

/-! ### The pages freed -/

theorem nodup_range_flatMap {α : Type} (f : Nat → List α) : ∀ n, (∀ i, i < n → (f i).Nodup) →
    (∀ i j a, i < n → j < n → a ∈ f i → a ∈ f j → i = j) → ((List.range n).flatMap f).Nodup := by
  intro n
  induction n with
  | zero => intro _ _; exact List.nodup_nil
  | succ n ih =>
    intro h1 h2
    rw [List.range_succ, List.flatMap_append, List.nodup_append]
    refine ⟨ih (fun i hi => h1 i (by omega)) (fun i j a hi hj => h2 i j a (by omega) (by omega)),
      ?_, ?_⟩
    · simpa using h1 n (by omega)
    · rintro a ha b hb rfl
      obtain ⟨i, hi, hai⟩ := List.mem_flatMap.1 ha
      have hi' := List.mem_range.1 hi
      have hb' : a ∈ f n := by simpa using hb
      have := h2 i n a (by omega) (by omega) hai hb'
      omega

theorem nodup_one {α : Type} (a : α) : [a].Nodup := by simp

theorem mem_freed1 (d : APD) (a : Nat) : a ∈ freed1 d ↔ ∃ k, k < 512 ∧ tab1 (d k) = some a := by
  unfold freed1
  rw [List.mem_flatMap]
  constructor
  · rintro ⟨k, hk, h⟩
    refine ⟨k, List.mem_range.1 hk, ?_⟩
    cases e : d k with
    | none => rw [e] at h; cases h
    | page l => rw [e] at h; cases h
    | table b t => rw [e] at h; rw [List.mem_singleton.1 h]; rfl
  · rintro ⟨k, hk, h⟩
    refine ⟨k, List.mem_range.2 hk, ?_⟩
    cases e : d k with
    | none => rw [e] at h; cases h
    | page l => rw [e] at h; cases h
    | table b t => rw [e] at h; cases h; exact List.mem_singleton.2 rfl

theorem mem_freed2 (d : APDPT) (a : Nat) : a ∈ freed2 d ↔
    (∃ j, j < 512 ∧ tab2 (d j) = some a) ∨
      ∃ j k, j < 512 ∧ k < 512 ∧ sub2 (d j) k = some a := by
  unfold freed2
  rw [List.mem_flatMap]
  constructor
  · rintro ⟨j, hj, h⟩
    have hj' := List.mem_range.1 hj
    cases e : d j with
    | none => rw [e] at h; cases h
    | page l => rw [e] at h; cases h
    | table b d2 =>
      rw [e] at h
      rcases List.mem_append.1 h with h | h
      · obtain ⟨k, hk, hk'⟩ := (mem_freed1 d2 a).1 h
        exact .inr ⟨j, k, hj', hk, by rw [e]; exact hk'⟩
      · exact .inl ⟨j, hj', by rw [e, List.mem_singleton.1 h]; rfl⟩
  · rintro (⟨j, hj, h⟩ | ⟨j, k, hj, hk, h⟩)
    · refine ⟨j, List.mem_range.2 hj, ?_⟩
      cases e : d j with
      | none => rw [e] at h; cases h
      | page l => rw [e] at h; cases h
      | table b d2 => rw [e] at h; cases h; simp
    · refine ⟨j, List.mem_range.2 hj, ?_⟩
      cases e : d j with
      | none => rw [e] at h; cases h
      | page l => rw [e] at h; cases h
      | table b d2 =>
        rw [e] at h
        exact List.mem_append.2 (.inl ((mem_freed1 d2 a).2 ⟨k, hk, h⟩))

theorem mem_freed (L : Life) (a : Nat) : a ∈ L.freed ↔
    ∃ p : Path, p.slot < 128 ∧ p.fits ∧ tableAt L.root p = some a := by
  unfold Life.freed
  rw [List.mem_flatMap]
  constructor
  · rintro ⟨i, hi, h⟩
    have hi' := List.mem_range.1 hi
    by_cases hu : i < 128
    · rw [if_pos hu] at h
      cases e : L.root i with
      | none => rw [e] at h; cases h
      | some q =>
        obtain ⟨b, d⟩ := q
        rw [e] at h
        rcases List.mem_append.1 h with h | h
        · rcases (mem_freed2 d a).1 h with ⟨j, hj, h⟩ | ⟨j, k, hj, hk, h⟩
          · exact ⟨.l2 i j, hu, ⟨hi', hj⟩, by rw [(tableAt_at e).1]; exact h⟩
          · exact ⟨.l1 i j k, hu, ⟨hi', hj, hk⟩, by rw [(tableAt_at e).2]; exact h⟩
        · exact ⟨.l3 i, hu, hi', by simp [tableAt, e, List.mem_singleton.1 h]⟩
    · rw [if_neg hu] at h; cases h
  · rintro ⟨p, hu, hf, h⟩
    cases p with
    | l3 i =>
      refine ⟨i, List.mem_range.2 hf, ?_⟩
      rw [if_pos (show i < 128 from hu)]
      cases e : L.root i with
      | none => simp [tableAt, e] at h
      | some q =>
        simp [tableAt, e] at h
        subst h
        simp
    | l2 i j =>
      refine ⟨i, List.mem_range.2 hf.1, ?_⟩
      rw [if_pos (show i < 128 from hu)]
      cases e : L.root i with
      | none => simp [tableAt, e, sub3] at h
      | some q =>
        rw [(tableAt_at e).1] at h
        exact List.mem_append.2 (.inl ((mem_freed2 _ _).2 (.inl ⟨j, hf.2, h⟩)))
    | l1 i j k =>
      refine ⟨i, List.mem_range.2 hf.1, ?_⟩
      rw [if_pos (show i < 128 from hu)]
      cases e : L.root i with
      | none => simp [tableAt, e, subsub3] at h
      | some q =>
        rw [(tableAt_at e).2] at h
        exact List.mem_append.2 (.inl ((mem_freed2 _ _).2 (.inr ⟨j, k, hf.2.1, hf.2.2, h⟩)))

theorem freed_nodup {pg : Nat → Nat} {L : Life} (h : L.Ok pg) : L.freed.Nodup := by
  have one : ∀ i a, i < 512 → (a ∈ (if i < 128 then
      match L.root i with
      | some (b, d) => freed2 d ++ [b]
      | Option.none => [] else [])) → i < 128 ∧ ∃ p : Path, p.slot = i ∧ tableAt L.root p = some a := by
    intro i a hi ha
    by_cases hu : i < 128
    · refine ⟨hu, ?_⟩
      rw [if_pos hu] at ha
      cases e : L.root i with
      | none => rw [e] at ha; cases ha
      | some q =>
        obtain ⟨b, d⟩ := q
        rw [e] at ha
        rcases List.mem_append.1 ha with ha | ha
        · rcases (mem_freed2 d a).1 ha with ⟨j, hj, h⟩ | ⟨j, k, hj, hk, h⟩
          · exact ⟨.l2 i j, rfl, by rw [(tableAt_at e).1]; exact h⟩
          · exact ⟨.l1 i j k, rfl, by rw [(tableAt_at e).2]; exact h⟩
        · exact ⟨.l3 i, rfl, by simp [tableAt, e, List.mem_singleton.1 ha]⟩
    · rw [if_neg hu] at ha; cases ha
  unfold Life.freed
  refine nodup_range_flatMap _ 512 (fun i hi => ?_) (fun i j a hi hj h1 h2 => ?_)
  · show (if i < 128 then _ else []).Nodup
    by_cases hu : i < 128
    · rw [if_pos hu]
      cases e : L.root i with
      | none => exact List.nodup_nil
      | some q =>
        obtain ⟨b, d⟩ := q
        have p3 : tableAt L.root (.l3 i) = some b := by simp [tableAt, e]
        have p2 := (tableAt_at e).1
        have p1 := (tableAt_at e).2
        show (freed2 d ++ [b]).Nodup
        rw [List.nodup_append]
        refine ⟨?_, nodup_one b, ?_⟩
        · unfold freed2
          refine nodup_range_flatMap _ 512 (fun j hj => ?_) (fun j j' a hj hj' h1 h2 => ?_)
          · cases ej : d j with
            | none => exact List.nodup_nil
            | page l => exact List.nodup_nil
            | table c d2 =>
              show (freed1 d2 ++ [c]).Nodup
              rw [List.nodup_append]
              refine ⟨?_, nodup_one c, ?_⟩
              · unfold freed1
                refine nodup_range_flatMap _ 512 (fun k hk => ?_) (fun k k' a hk hk' h1 h2 => ?_)
                · cases d2 k with
                  | table x y => exact nodup_one _
                  | _ => exact List.nodup_nil
                · have g : ∀ k, a ∈ (match d2 k with | .table a _ => [a] | _ => []) →
                      tableAt L.root (.l1 i j k) = some a := by
                    intro k hm
                    rw [p1, ej]
                    show tab1 (d2 k) = some a
                    cases ek : d2 k with
                    | none => rw [ek] at hm; cases hm
                    | page l => rw [ek] at hm; cases hm
                    | table x y => rw [ek] at hm; rw [List.mem_singleton.1 hm]; rfl
                  have := h.inj (.l1 i j k) (.l1 i j k') a hu hu (g k h1) (g k' h2)
                  injection this
              · intro a ha x hx hax
                subst hax
                rw [List.mem_singleton.1 hx] at ha
                obtain ⟨k, hk, hk'⟩ := (mem_freed1 d2 c).1 ha
                have := h.inj (.l1 i j k) (.l2 i j) c hu hu (by rw [p1, ej]; exact hk')
                  (by rw [p2, ej]; rfl)
                cases this
          · have g : ∀ j, a ∈ (match d j with | .table a d2 => freed1 d2 ++ [a] | _ => []) →
                tableAt L.root (.l2 i j) = some a ∨ ∃ k, tableAt L.root (.l1 i j k) = some a := by
              intro j hm
              cases ej : d j with
              | none => rw [ej] at hm; cases hm
              | page l => rw [ej] at hm; cases hm
              | table x y =>
                rw [ej] at hm
                rcases List.mem_append.1 hm with hm | hm
                · obtain ⟨k, _, hk⟩ := (mem_freed1 y a).1 hm
                  exact .inr ⟨k, by rw [p1, ej]; exact hk⟩
                · exact .inl (by rw [p2, ej, List.mem_singleton.1 hm]; rfl)
            rcases g j h1 with h1 | ⟨k, h1⟩ <;> rcases g j' h2 with h2 | ⟨k', h2⟩
            · have := h.inj (.l2 i j) (.l2 i j') a hu hu h1 h2
              injection this
            · have := h.inj (.l2 i j) (.l1 i j' k') a hu hu h1 h2
              cases this
            · have := h.inj (.l1 i j k) (.l2 i j') a hu hu h1 h2
              cases this
            · have := h.inj (.l1 i j k) (.l1 i j' k') a hu hu h1 h2
              injection this
        · intro a ha x hx hax
          subst hax
          rw [List.mem_singleton.1 hx] at ha
          rcases (mem_freed2 d b).1 ha with ⟨j, hj, h'⟩ | ⟨j, k, hj, hk, h'⟩
          · have := h.inj (.l2 i j) (.l3 i) b hu hu (by rw [p2]; exact h') p3
            cases this
          · have := h.inj (.l1 i j k) (.l3 i) b hu hu (by rw [p1]; exact h') p3
            cases this
    · rw [if_neg hu]; exact List.nodup_nil
  · obtain ⟨hu, p, hp, hp'⟩ := one i a hi h1
    obtain ⟨hv, q, hq, hq'⟩ := one j a hj h2
    have := h.inj p q a (by omega) (by omega) hp' hq'
    rw [← hp, ← hq, this]

theorem mem_handed {pg : Nat → Nat} {L : Life} {a : Nat} :
    a ∈ L.handed pg ↔ ∃ k, k < L.n ∧ a = pg k := by
  unfold Life.handed
  rw [List.mem_map]
  constructor
  · rintro ⟨k, hk, rfl⟩; exact ⟨k, List.mem_range.1 hk, rfl⟩
  · rintro ⟨k, hk, rfl⟩; exact ⟨k, List.mem_range.2 hk, rfl⟩

theorem handed_nodup {pg : Nat → Nat} (hpg : Distinct pg) (L : Life) : (L.handed pg).Nodup := by
  have : L.handed pg = (List.range L.n).flatMap fun k => [pg k] := by
    unfold Life.handed
    rw [List.map_eq_flatMap]
  rw [this]
  refine nodup_range_flatMap _ _ (fun i _ => nodup_one _) (fun i j a _ _ h1 h2 => ?_)
  rw [List.mem_singleton] at h1 h2
  exact hpg i j (h1.symm.trans h2)

theorem account_of_ok {pg : Nat → Nat} (hpg : Distinct pg) {L : Life} (h : L.Ok pg) :
    (L.freed ++ L.lost).Perm (L.handed pg) := by
  rw [List.perm_ext_iff_of_nodup ?_ (handed_nodup hpg L)]
  · intro a
    rw [List.mem_append, mem_freed, mem_handed]
    constructor
    · rintro (⟨p, hp, _, he⟩ | hl)
      · exact h.taken p a hp he
      · exact h.lostTaken a hl
    · rintro ⟨k, hk, rfl⟩
      rcases h.all k hk with hl | ⟨p, hp, he⟩
      · exact .inr hl
      · exact .inl ⟨p, hp, h.fits p _ hp he, he⟩
  · rw [List.nodup_append]
    refine ⟨freed_nodup h, h.lostNodup, ?_⟩
    rintro a ha b hb rfl
    obtain ⟨p, hp, _, he⟩ := (mem_freed L a).1 ha
    exact h.lostOut a p hb hp he

/-! ### C88 -/

/-- C88: dropping an address space frees pages that were taken for its tables, and no other page (no
mapped frame, no table of the kernel), and it frees none twice. -/
theorem c88_frees_once (env : Env) (pg : Nat → Nat) (hpg : Distinct pg) (K : APML4)
    (os : List PtOp) (hu : ∀ o ∈ os, o.user) (L : Life)
    (h : (Life.new K).run env pg os = .ok L) :
    L.freed.Nodup ∧ ∀ a ∈ L.freed, a ∈ L.handed pg := by
  have hok := (run_ok hpg os _ L (new_ok pg K) hu h).1
  exact ⟨freed_nodup hok, fun a ha =>
    (account_of_ok hpg hok).mem_iff.1 (List.mem_append.2 (.inl ha))⟩

/-- C88: what is not freed was taken out of the tree by a mapping with larger pages. -/
theorem c88_account (env : Env) (pg : Nat → Nat) (hpg : Distinct pg) (K : APML4)
    (os : List PtOp) (hu : ∀ o ∈ os, o.user) (L : Life)
    (h : (Life.new K).run env pg os = .ok L) :
    (L.freed ++ L.lost).Perm (L.handed pg) :=
  account_of_ok hpg (run_ok hpg os _ L (new_ok pg K) hu h).1

/-- C88, in part: with mappings that are too small for larger pages, exactly the pages taken for
tables are freed.  Missing: with larger mappings pages are leaked (`c88_leak`), and so are those for
mappings above `KERNEL_BASE` (`c88_kernel_half`). -/
theorem c88_no_leak_partial (env : Env) (pg : Nat → Nat) (hpg : Distinct pg) (K : APML4)
    (os : List PtOp) (hu : ∀ o ∈ os, o.user) (hs : ∀ o ∈ os, o.small env) (L : Life)
    (h : (Life.new K).run env pg os = .ok L) :
    L.freed.Perm (L.handed pg) := by
  obtain ⟨h1, _, h3⟩ := run_ok hpg os _ L (new_ok pg K) hu h
  have := account_of_ok hpg h1
  rw [h3 hs] at this
  simpa [Life.new] using this

/-- C88: the slots of the kernel stay as they were. -/
theorem c88_kernel_slots (env : Env) (pg : Nat → Nat) (hpg : Distinct pg) (K : APML4)
    (os : List PtOp) (hu : ∀ o ∈ os, o.user) (L : Life)
    (h : (Life.new K).run env pg os = .ok L) (i : Nat) (hi : 128 ≤ i) : L.root i = K i := by
  rw [(run_ok hpg os _ L (new_ok pg K) hu h).2.1 i hi]
  show (if i < 128 then Option.none else K i) = K i
  rw [if_neg (by omega)]

/-- C88: keeping track of pages changes nothing: an operation does to the mappings what it does in the
model of the page table that C28 to C31 are about. -/
theorem c88_same_map (env : Env) (pg : Nat → Nat) (L : Life) :
    (∀ v p s r, (L.op env pg (.map v p s r)).map (fun L' => L'.root.erase) =
      ptMap env L.root.erase v p s r) ∧
    (∀ v, (L.op env pg (.unmap v)).map (fun L' => L'.root.erase) =
      (ptUnmap L.root.erase v).map (fun q => q.1)) ∧
    (∀ v r, (L.op env pg (.adjust v r)).map (fun L' => L'.root.erase) =
      (ptAdjust L.root.erase v r).map (fun q => q.1)) := by
  refine ⟨fun v p s r => map_erase env pg r _ L v p s, fun v => ?_, fun v r => ?_⟩
  · simp only [Life.op, ptUnmap]
    split
    · rfl
    · exact modify_erase L v Option.none
  · simp only [Life.op, ptAdjust]
    split
    · rfl
    · rw [map_map]; exact modify_erase L v (some r)

end NRK.VSpace
