import Verif.VSpace.OplogLemmas
import Verif.VSpace.VSpaceProps

/-!
# C81: the page tables behave like a list of mappings

`hwRun` are the results of a sequence of `map`, `adjust`, `resolve` and `unmap` calls on the page tables,
`logRun` those of the same calls on the project's reference model, a plain list of mappings.
-/

namespace NRK.VSpace

open NRK.Mem (Frame)

/-- **C81** (partial) For every sequence of calls, of any length, in which no call asks for a larger page exactly
where a smaller one is mapped to the same frame with the same rights, an address space that starts with nothing
mapped in user space gives, call by call, the results of the list of mappings: the same successes and errors, the
same physical address and rights of `resolve`, the same range of `adjust`, the same range, frame and rights of
`unmap`.  Only the address that an `AlreadyMapped` carries is left out (see `c81_conflict_addresses`).  Missing:
growing requests (`c81_growth_always_differs`), `unmap` of addresses within a page (`c81_unaligned_unmap`), rights
without the present bit (`c81_rights`) and frames of other sizes (`c81_other_sizes`), all of which differ. -/
theorem c81_same_results_partial (env : Env) (hk : env.pages4k = false) (pt : PML4)
    (h : ∀ x, x < userTop → leafAt pt x = Option.none) (os : List Action) (hf : ∀ o ∈ os, o.Fits)
    (hg : NoGrowth [] os) :
    (hwRun env ⟨[], pt⟩ os).map Res.blur = (logRun [] os).map Res.blur :=
  ((Same.new h).run hk os hf hg).1

/-- The elements of the list all have the size `n`. -/
theorem sizes_step {n : Nat} {l : List Ent} (hl : ∀ e ∈ l, e.len = n) (o : Action)
    (ho : ∀ base f a, o = .map base f a → f.size = n) : ∀ e ∈ (logStep l o).1, e.len = n := by
  intro e he
  cases o with
  | map base f a =>
    have hn : f.size = n := ho base f a rfl
    have hp : ∀ (l l' : List Ent), promote base f a l = some l' → (∀ e ∈ l, e.len = n) → ∀ e ∈ l', e.len = n := by
      intro l
      induction l with
      | nil => intro l' h; cases h
      | cons b l ih =>
        intro l' h hl e he
        rw [promote] at h
        split at h
        · cases h
          rcases List.mem_cons.1 he with rfl | he
          · exact hn
          · exact hl e (by simp [he])
        · cases hq : promote base f a l with
          | none => rw [hq] at h; cases h
          | some l2 =>
            rw [hq] at h; cases h
            rcases List.mem_cons.1 he with rfl | he
            · exact hl _ (by simp)
            · exact ih l2 hq (fun e he => hl e (by simp [he])) e he
    have he' : e ∈ (logMap l base f a).1 := he
    unfold logMap at he'
    by_cases c0 : f.size = 0
    · rw [if_pos c0] at he'; exact hl e he'
    rw [if_neg c0] at he'
    by_cases c1 : f.base % f.size ≠ 0
    · rw [if_pos c1] at he'; exact hl e he'
    rw [if_neg c1] at he'
    by_cases c2 : base % f.size ≠ 0
    · rw [if_pos c2] at he'; exact hl e he'
    rw [if_neg c2] at he'
    by_cases c3 : conflicts l base f a = []
    · simp only [c3, if_true] at he'
      cases hq : promote base f a l with
      | none =>
        rw [hq] at he'
        rcases List.mem_append.1 he' with he' | he'
        · exact hl e he'
        · rw [List.mem_singleton] at he'; subst he'; exact hn
      | some l2 => rw [hq] at he'; exact hp l l2 hq hl e he'
    · simp only [c3, if_false] at he'; exact hl e he'
  | adjust x r =>
    have hp : ∀ (l : List Ent) q, changeFirst x r l = some q → (∀ e ∈ l, e.len = n) → ∀ e ∈ q.1, e.len = n := by
      intro l
      induction l with
      | nil => intro q h; cases h
      | cons b l ih =>
        intro q h hl e he
        rw [changeFirst] at h
        split at h
        · cases h
          rcases List.mem_cons.1 he with rfl | he
          · exact hl b (by simp)
          · exact hl e (by simp [he])
        · cases hq : changeFirst x r l with
          | none => rw [hq] at h; cases h
          | some q2 =>
            rw [hq] at h; cases h
            rcases List.mem_cons.1 he with rfl | he
            · exact hl _ (by simp)
            · exact ih q2 hq (fun e he => hl e (by simp [he])) e he
    have he' : e ∈ (logAdjust l x r).1 := he
    unfold logAdjust at he'
    by_cases c0 : x % 4096 ≠ 0
    · rw [if_pos c0] at he'; exact hl e he'
    rw [if_neg c0] at he'
    cases hq : changeFirst x r l.reverse with
    | none => rw [hq] at he'; exact hl e he'
    | some q =>
      rw [hq] at he'
      exact hp _ q hq (fun e he => hl e (List.mem_reverse.1 he)) e (List.mem_reverse.1 he')
  | resolve x => exact hl e he
  | unmap x =>
    have he' : e ∈ (logUnmap l x).1 := he
    unfold logUnmap at he'
    by_cases c0 : x % 4096 ≠ 0
    · rw [if_pos c0] at he'; exact hl e he'
    rw [if_neg c0] at he'
    cases hq : l.filter (fun e => e.has x) with
    | nil => rw [hq] at he'; exact hl e he'
    | cons b t =>
      rw [hq] at he'
      cases t with
      | nil => exact hl e (List.mem_filter.1 he').1
      | cons _ _ => exact hl e (List.mem_filter.1 he').1

theorem noGrowth_of_size {n : Nat} : ∀ (os : List Action) (l : List Ent), (∀ e ∈ l, e.len = n) →
    (∀ base f a, Action.map base f a ∈ os → f.size = n) → NoGrowth l os := by
  intro os
  induction os with
  | nil => intro l _ _; trivial
  | cons o os ih =>
    intro l hl ho
    refine ⟨?_, ih _ (sizes_step hl o (fun base f a h => ho base f a (by simp [h])))
      (fun base f a h => ho base f a (List.mem_cons_of_mem _ h))⟩
    cases o with
    | map base f a =>
      rintro ⟨e, he, _, _, _, hlt⟩
      rw [hl e he, ho base f a (by simp)] at hlt
      exact Nat.lt_irrefl _ hlt
    | adjust x r => exact id
    | resolve x => exact id
    | unmap x => exact id

/-- **C81** With pages of one size, base pages or large pages, the results agree for every sequence of calls. -/
theorem c81_one_size (env : Env) (hk : env.pages4k = false) (pt : PML4)
    (h : ∀ x, x < userTop → leafAt pt x = Option.none) (os : List Action) (hf : ∀ o ∈ os, o.Fits) (n : Nat)
    (hn : ∀ base f a, Action.map base f a ∈ os → f.size = n) :
    (hwRun env ⟨[], pt⟩ os).map Res.blur = (logRun [] os).map Res.blur :=
  c81_same_results_partial env hk pt h os hf (noGrowth_of_size os [] (fun e he => by cases he) hn)

/-- **C81** The address that a conflict reports is one: after such a sequence, if the page tables answer
`AlreadyMapped x` to a request then `x` is the start of an existing mapping that overlaps the range asked for, and
the start of the last such mapping; the list answers `AlreadyMapped y`, where `y` is in the range and in a mapping,
and only a mapping at the start of the range, with the same frame and rights, is before `y`. -/
theorem c81_conflict_addresses (env : Env) (hk : env.pages4k = false) (pt : PML4)
    (h : ∀ x, x < userTop → leafAt pt x = Option.none) (os : List Action) (hf : ∀ o ∈ os, o.Fits)
    (hg : NoGrowth [] os) (base : Nat) (f : Frame) (a : MapAction) (hm : (Action.map base f a).Fits) (x : Nat)
    (hx : (hwStep env (hwAfter env ⟨[], pt⟩ os) (.map base f a)).2 = .map (.err (.alreadyMapped x))) :
    (∃ e ∈ logAfter [] os, e.va = x ∧ x < base + f.size ∧ base < x + e.len ∧
      ∀ e' ∈ logAfter [] os, e'.va < base + f.size → e'.va ≤ x) ∧
    ∃ y, (logStep (logAfter [] os) (.map base f a)).2 = .map (.err (.alreadyMapped y)) ∧
      base ≤ y ∧ y < base + f.size ∧ (∃ e ∈ logAfter [] os, e.va ≤ y ∧ y < e.va + e.len) ∧
      ∀ z, base ≤ z → z < y → ∀ e ∈ logAfter [] os, e.va ≤ z → z < e.va + e.len →
        e.va = base ∧ e.pa = f.base ∧ e.rights = a := by
  obtain ⟨_, hs⟩ := (Same.new h).run hk os hf hg
  generalize hwAfter env ⟨[], pt⟩ os = s at hs hx
  generalize logAfter [] os = l at hs
  obtain ⟨hn, hu, _⟩ := hm
  have h0 : f.size ≠ 0 := by rcases hn with e | e <;> omega
  have hx' : (mapFrame env false s base f a).2 = .err (.alreadyMapped x) := Res.map.inj hx
  rcases mapFrame_cases env hk false hs.inv base f a hn hu with ⟨e, he, hbad⟩ | ⟨hb, hv, q, hq, h1, h2, hrest, hc⟩ |
    ⟨hb, hv, hall, hc⟩
  · rw [he] at hx'
    rcases hbad with ⟨_, rfl⟩ | ⟨_, _, rfl⟩ <;> cases hx'
  · rcases hc with ⟨_, _, _, _, he⟩ | ⟨hne, he⟩
    · rw [he] at hx'; cases hx'
    · rw [he] at hx'
      cases hx'
      have hin : toEnt q ∈ l := (hs.mem _).2 ⟨q, hq, rfl⟩
      have hmeet : (toEnt q).meets base f.size = true := meets_iff.2 ⟨h1, h2⟩
      have hcn : conflicts l base f a ≠ [] := by
        intro hcn
        have := conflicts_nil.1 hcn _ hin hmeet
        obtain ⟨g1, g2, g3, g4⟩ := extends_iff.1 this
        have g1' : q.1 = base := g1
        have g2' : q.1 + q.2.frame.size ≤ base + f.size := g2
        exact hne ⟨g1, g3, by omega, g4⟩
      refine ⟨⟨toEnt q, hin, rfl, h1, h2, ?_⟩, least (conflicts l base f a), ?_, ?_⟩
      · intro e' he' hlt
        have hpos := hs.pos he'
        obtain ⟨p, hp, rfl⟩ := (hs.mem e').1 he'
        have hlt' : p.1 < base + f.size := hlt
        show p.1 ≤ q.1
        rcases hrest p hp with rfl | h3 | h3 <;> omega
      · show Res.map (logMap l base f a).2 = _
        unfold logMap
        rw [if_neg h0, if_neg (by omega), if_neg (by omega)]
        simp only [hcn, if_false]
      · obtain ⟨hl1, hl2⟩ := least_mem hcn
        generalize least (conflicts l base f a) = y at hl1 hl2
        obtain ⟨e, he, rfl⟩ := List.mem_map.1 hl1
        obtain ⟨he, hc⟩ := List.mem_filter.1 he
        rw [Bool.and_eq_true, meets_iff] at hc
        have hpos := hs.pos he
        refine ⟨by omega, by omega, ⟨e, he, by omega, by omega⟩, ?_⟩
        intro z hz1 hz2 e' he' hz3 hz4
        by_cases hx : e'.extends base f a = true
        · obtain ⟨g1, _, g3, g4⟩ := extends_iff.1 hx
          exact ⟨g1, g3, g4⟩
        · exfalso
          have hin' : max e'.va base ∈ conflicts l base f a := by
            refine List.mem_map.2 ⟨e', List.mem_filter.2 ⟨he', ?_⟩, rfl⟩
            rw [Bool.and_eq_true, meets_iff]
            refine ⟨⟨by omega, by omega⟩, ?_⟩
            simpa using hx
          have := hl2 _ hin'
          omega
  · rcases hc with ⟨_, he⟩ | ⟨_, t', he, _⟩ <;> rw [he] at hx' <;> cases hx'

/-- **C81** The restriction on growing requests is exact: after any sequence without one, a growing request that
the list accepts is accepted by the page tables too, but changes nothing there; the next page is mapped in the list
and not in the page tables. -/
theorem c81_growth_always_differs (env : Env) (hk : env.pages4k = false) (pt : PML4)
    (h : ∀ x, x < userTop → leafAt pt x = Option.none) (os : List Action) (hf : ∀ o ∈ os, o.Fits)
    (hg : NoGrowth [] os) (base : Nat) (f : Frame) (a : MapAction) (hm : (Action.map base f a).Fits)
    (hgr : (Action.map base f a).Grows (logAfter [] os))
    (hok : (logStep (logAfter [] os) (.map base f a)).2 = .map (.ok ())) :
    hwStep env (hwAfter env ⟨[], pt⟩ os) (.map base f a) = (hwAfter env ⟨[], pt⟩ os, .map (.ok ())) ∧
    (hwAfter env ⟨[], pt⟩ os).resolve (base + 4096) = .err .notMapped ∧
    logResolve (logStep (logAfter [] os) (.map base f a)).1 (base + 4096) = .ok (f.base + 4096, a) := by
  obtain ⟨_, hs⟩ := (Same.new h).run hk os hf hg
  generalize hwAfter env ⟨[], pt⟩ os = s at hs
  generalize logAfter [] os = l at hs hgr hok
  obtain ⟨hn, hu, _⟩ := hm
  obtain ⟨e, he, g1, g2, g3, g4⟩ := hgr
  have hlen : e.len = 4096 ∧ f.size = 2097152 := by
    have := hs.size he
    unfold PageSize at this hn
    omega
  have h0 : f.size ≠ 0 := by omega
  have hok' : (logMap l base f a).2 = .ok () := Res.map.inj hok
  -- what the list does
  have hlog : f.base % f.size = 0 ∧ base % f.size = 0 ∧ conflicts l base f a = [] := by
    unfold logMap at hok'
    rw [if_neg h0] at hok'
    by_cases c1 : f.base % f.size = 0
    · rw [if_neg (by omega)] at hok'
      by_cases c2 : base % f.size = 0
      · rw [if_neg (by omega)] at hok'
        by_cases c3 : conflicts l base f a = []
        · exact ⟨c1, c2, c3⟩
        · simp only [c3, if_false] at hok'; cases hok'
      · rw [if_pos c2] at hok'; cases hok'
    · rw [if_pos c1] at hok'; cases hok'
  obtain ⟨hb, hv, hcn⟩ := hlog
  have hmeets : e.meets base f.size = true := meets_iff.2 ⟨by omega, by omega⟩
  have honly : ∀ e' ∈ l, e'.meets base f.size = true → e' = e := by
    intro e' he' hm'
    obtain ⟨k1, _, _, _⟩ := extends_iff.1 (conflicts_nil.1 hcn e' he' hm')
    have hpos := hs.pos he'
    exact hs.unique he' he (x := base) (has_iff.2 ⟨by omega, by omega⟩) (has_iff.2 ⟨by omega, by omega⟩)
  have hno : ∀ e' ∈ l, e'.has (base + 4096) ≠ true := by
    intro e' he' hh
    rw [has_iff] at hh
    have := honly e' he' (meets_iff.2 ⟨by omega, by omega⟩)
    subst this
    omega
  have hunr : s.resolve (base + 4096) = .err .notMapped := by
    rw [hs.resolve (by omega)]
    unfold logResolve
    rw [List.find?_eq_none.2 (fun e' he' => hno e' (List.mem_reverse.1 he'))]
  refine ⟨?_, hunr, ?_⟩
  · have hstep : mapFrame env false s base f a = (s, .ok ()) := by
      rcases mapFrame_cases env hk false hs.inv base f a hn hu with ⟨e', he', hbad⟩ |
        ⟨_, _, q, hq, h1, h2, hrest, hc⟩ | ⟨_, _, hall, hc⟩
      · rcases hbad with ⟨hb', _⟩ | ⟨_, hv', _⟩
        · exact absurd hb hb'
        · exact absurd hv hv'
      · rcases hc with ⟨_, _, _, _, he'⟩ | ⟨hne, _⟩
        · exact he'
        · exfalso
          have hqe := honly (toEnt q) ((hs.mem _).2 ⟨q, hq, rfl⟩) (meets_iff.2 ⟨h1, h2⟩)
          apply hne
          have e1 : q.1 = e.va := congrArg Ent.va hqe
          have e2 : q.2.frame.base = e.pa := congrArg Ent.pa hqe
          have e3 : q.2.frame.size = e.len := congrArg Ent.len hqe
          have e4 : q.2.rights = e.rights := congrArg Ent.rights hqe
          exact ⟨by omega, by rw [e2, g2], by omega, by rw [e4, g3]⟩
      · exfalso
        obtain ⟨q, hq, rfl⟩ := (hs.mem e).1 he
        have := hall q hq
        rw [meets_iff] at hmeets
        have m1 : q.1 < base + f.size := hmeets.1
        have m2 : base < q.1 + q.2.frame.size := hmeets.2
        omega
    show ((mapFrame env false s base f a).1, Res.map (mapFrame env false s base f a).2) = _
    rw [hstep]
  · -- the list after the request
    have hpro : ∀ l : List Ent, e ∈ l → (∀ e' ∈ l, e'.meets base f.size = true → e' = e) →
        ∃ l1 l2, promote base f a l = some (l1 ++ { e with len := f.size } :: l2) ∧
          (∀ e' ∈ l1, e' ∈ l) := by
      intro l
      induction l with
      | nil => intro h; cases h
      | cons b l ih =>
        intro hin hon
        have hext : e.extends base f a = true := extends_iff.2 ⟨g1, by omega, g2, g3⟩
        by_cases hc : (b.meets base f.size && b.extends base f a) = true
        · have hbe : b = e := by
            rw [Bool.and_eq_true] at hc
            exact hon b (by simp) hc.1
          subst hbe
          exact ⟨[], l, by rw [promote, if_pos hc]; rfl, fun e' he' => by cases he'⟩
        · have hin' : e ∈ l := by
            rcases List.mem_cons.1 hin with h | h
            · subst h; rw [hmeets, hext] at hc; exact absurd rfl hc
            · exact h
          obtain ⟨l1, l2, hp, hm1⟩ := ih hin' (fun e' he' => hon e' (by simp [he']))
          refine ⟨b :: l1, l2, by rw [promote, if_neg hc, hp]; rfl, ?_⟩
          intro e' he'
          rcases List.mem_cons.1 he' with rfl | he'
          · simp
          · exact List.mem_cons_of_mem _ (hm1 e' he')
    obtain ⟨l1, l2, hp, hm1⟩ := hpro l he honly
    have hcases : ∀ e' ∈ l1 ++ { e with len := f.size } :: l2, e' ∈ l ∨ e' = { e with len := f.size } := by
      have hgen : ∀ (l l' : List Ent), promote base f a l = some l' → ∀ e' ∈ l', e' ∈ l ∨
          ∃ b ∈ l, (b.meets base f.size = true) ∧ e' = { b with len := f.size } := by
        intro l
        induction l with
        | nil => intro l' h; cases h
        | cons b l ih =>
          intro l' h e' he'
          rw [promote] at h
          by_cases hc : (b.meets base f.size && b.extends base f a) = true
          · rw [if_pos hc] at h; cases h
            rcases List.mem_cons.1 he' with rfl | he'
            · exact Or.inr ⟨b, by simp, (Bool.and_eq_true _ _ ▸ hc).1, rfl⟩
            · exact Or.inl (List.mem_cons_of_mem _ he')
          · rw [if_neg hc] at h
            cases hq : promote base f a l with
            | none => rw [hq] at h; cases h
            | some l2 =>
              rw [hq] at h; cases h
              rcases List.mem_cons.1 he' with rfl | he'
              · exact Or.inl (by simp)
              · rcases ih l2 hq e' he' with h | ⟨b', hb', h⟩
                · exact Or.inl (List.mem_cons_of_mem _ h)
                · exact Or.inr ⟨b', List.mem_cons_of_mem _ hb', h⟩
      intro e' he'
      rcases hgen l _ hp e' he' with h | ⟨b, hb', hbm, h⟩
      · exact Or.inl h
      · rw [honly b hb' hbm] at h; exact Or.inr h
    have hafter : (logMap l base f a).1 = l1 ++ { e with len := f.size } :: l2 := by
      unfold logMap
      rw [if_neg h0, if_neg (by omega), if_neg (by omega)]
      simp only [hcn, if_true, hp]
    show logResolve (logMap l base f a).1 (base + 4096) = _
    rw [hafter]
    unfold logResolve
    cases hfind : (l1 ++ { e with len := f.size } :: l2).reverse.find? (fun e => e.has (base + 4096)) with
    | none =>
      exfalso
      rw [List.find?_eq_none] at hfind
      refine hfind { e with len := f.size } (by simp) (has_iff.2 ⟨?_, ?_⟩)
      · show e.va ≤ _; omega
      · show _ < e.va + f.size; omega
    | some e' =>
      have hx := List.find?_some hfind
      have hin := List.mem_reverse.1 (List.mem_of_find?_eq_some hfind)
      rcases hcases e' hin with h' | rfl
      · exact absurd hx (hno e' h')
      · show Outcome.ok (e.pa + (base + 4096 - e.va), e.rights) = _
        rw [g2, g3, g1, Nat.add_sub_cancel_left]

end NRK.VSpace
