import Verif.Rack.ThreadsModel
import Verif.Proc.CoreSetProps

/-!
# Property theorems about hardware threads (C47)

Histories: machines register with their threads, threads are claimed and released.
-/

namespace NRK.Rack

open NRK.Proc

/-- What happened, with what claims returned. -/
inductive Ev where
  | register (mid : Nat) (ts : List CpuThread)
  | claim (mid : Nat) (r : Option (BitVec 64 × Nat))
  | release (gtid : BitVec 64)

/-- The controller executed the history, latest event last, without a panic. -/
inductive Run : List Ev → Controller → Prop where
  | nil : Run [] Controller.new
  | register {h s s' mid ts} : Run h s → s.initClient mid ts = .ok s' → Run (h ++ [.register mid ts]) s'
  | claim {h s s' mid r} : Run h s → s.claim mid = .ok (s', r) → Run (h ++ [.claim mid r]) s'
  | release {h s g} : Run h s → Run (h ++ [.release g]) (s.release g)

/-- The threads claimed from a machine, in order. -/
def claimed (mid : Nat) : List Ev → List (BitVec 64 × Nat)
  | [] => []
  | .claim m (some x) :: h => if m = mid then x :: claimed mid h else claimed mid h
  | _ :: h => claimed mid h

/-- All registrations of a machine. -/
def registered (mid : Nat) : List Ev → List (List CpuThread)
  | [] => []
  | .register m ts :: h => if m = mid then ts :: registered mid h else registered mid h
  | _ :: h => registered mid h

/-- Each machine registers once (`rackscale/registration.rs`). -/
def Once (h : List Ev) : Prop := ∀ mid, (registered mid h).length ≤ 1

/-- The thread of number `i` of a machine with these threads, as claims report it. -/
def threadOf (mid : Nat) (ts : List CpuThread) (i : Nat) : BitVec 64 × Nat :=
  (newGtid (BitVec.ofNat 64 i) (BitVec.ofNat 64 mid), (ts[i]?.map (·.node)).getD 0)

theorem claimed_append (mid : Nat) (h1 h2 : List Ev) : claimed mid (h1 ++ h2) = claimed mid h1 ++ claimed mid h2 := by
  induction h1 with
  | nil => rfl
  | cons e h ih =>
    match e with
    | .claim m (some x) =>
      simp only [List.cons_append, claimed]
      split <;> simp [ih]
    | .claim m none => exact ih
    | .register m ts => exact ih
    | .release g => exact ih

theorem registered_append (mid : Nat) (h1 h2 : List Ev) :
    registered mid (h1 ++ h2) = registered mid h1 ++ registered mid h2 := by
  induction h1 with
  | nil => rfl
  | cons e h ih =>
    match e with
    | .register m ts =>
      simp only [List.cons_append, registered]
      split <;> simp [ih]
    | .claim m r => exact ih
    | .release g => exact ih

theorem markAll_spec (is : List Nat) (t : ThreadMap) (hi : ∀ i ∈ is, i < t.num) (h256 : t.num ≤ 256) :
    ∃ m, markAll t is = .ok ⟨t.num, m⟩ ∧ ∀ c, m.Mem c ↔ t.map.Mem c ∨ c ∈ is := by
  induction is generalizing t with
  | nil => exact ⟨t.map, rfl, by simp⟩
  | cons i is ih =>
    have h1 := hi i List.mem_cons_self
    obtain ⟨m', e1, e2⟩ := c33_set t.map i true (by omega)
    obtain ⟨m, e3, e4⟩ := ih { t with map := m' } (fun j hj => hi j (List.mem_cons_of_mem _ hj)) h256
    refine ⟨m, ?_, ?_⟩
    · simp only [markAll, ThreadMap.markFree, if_pos h1, e1]
      exact e3
    · intro c
      rw [e4, e2]
      by_cases e : c = i
      · subst e; simp
      · simp [e]

theorem init_spec {t t' : ThreadMap} {n : Nat} (h : t.init n = .ok t') :
    n ≤ 256 ∧ t'.num = n ∧ ∀ c, t'.map.Mem c ↔ t.map.Mem c ∨ c < n := by
  unfold ThreadMap.init at h
  split at h
  · next hn =>
    obtain ⟨m, e1, e2⟩ := markAll_spec (List.range n) { t with num := n } (fun i hi => List.mem_range.1 hi) hn
    rw [e1] at h
    cases h
    exact ⟨hn, rfl, fun c => by rw [e2, List.mem_range]⟩
  · cases h

theorem claimFirst_spec (t : ThreadMap) (h256 : t.num ≤ 256) (k : Nat) (hk : k ≤ t.num)
    (hm : ∀ c, t.map.Mem c ↔ k ≤ c ∧ c < t.num) :
    if k < t.num then ∃ m, t.claimFirst = .ok (⟨t.num, m⟩, some k) ∧ ∀ c, m.Mem c ↔ k + 1 ≤ c ∧ c < t.num
    else t.claimFirst = .ok (t, none) := by
  unfold ThreadMap.claimFirst
  rcases next_spec t.map with ⟨h1, h2⟩ | ⟨c, m', h1, hc, hmem, hmin, hrest⟩
  · rw [h2]
    split
    · next hlt => exact absurd ((hm k).2 ⟨Nat.le_refl _, hlt⟩) (h1 k (by omega))
    · rfl
  · rw [h1]
    have hkc := (hm c).1 hmem
    have : c = k := by
      rcases Nat.lt_or_ge k c with hlt | hge
      · exact absurd ((hm k).2 ⟨Nat.le_refl _, by omega⟩) (hmin k hlt)
      · omega
    subst this
    rw [if_pos (by omega)]
    obtain ⟨m, e1, e2⟩ := c33_set t.map c false hc
    refine ⟨m, ?_, ?_⟩
    · dsimp only
      rw [if_pos hkc.2, e1]
      rfl
    · intro d
      rw [e2]
      by_cases e : d = c
      · subst e; simp; omega
      · rw [if_neg e, hm]
        omega

/-- What the table of a machine looks like. -/
def Good (s : Controller) (h : List Ev) (mid : Nat) : Prop :=
  (registered mid h = [] ∧ claimed mid h = [] ∧ s.maps (mid - 1) = ThreadMap.new ∧ s.aff (mid - 1) = []) ∨
  ∃ ts k, registered mid h = [ts] ∧ k ≤ ts.length ∧ claimed mid h = (List.range k).map (threadOf mid ts) ∧
    s.aff (mid - 1) = ts.map (·.node) ∧ (s.maps (mid - 1)).num = ts.length ∧ ts.length ≤ 256 ∧
    ∀ c, (s.maps (mid - 1)).map.Mem c ↔ k ≤ c ∧ c < ts.length

theorem claim_spec {s : Controller} {h : List Ev} {mid : Nat} (hg : Good s h mid) (h0 : mid ≠ 0)
    (h16 : mid ≤ maxMachines) :
    ∃ t, s.claim mid = .ok ({ s with maps := upd s.maps (mid - 1) t },
      match registered mid h with
      | ts :: _ => if (claimed mid h).length < ts.length then some (threadOf mid ts (claimed mid h).length) else none
      | [] => none) ∧
      ∀ r, s.claim mid = .ok ({ s with maps := upd s.maps (mid - 1) t }, r) →
        Good { s with maps := upd s.maps (mid - 1) t } (h ++ [.claim mid r]) mid := by
  unfold Controller.claim
  rw [if_neg (by omega)]
  rcases hg with ⟨g1, g2, g3, g4⟩ | ⟨ts, k, g1, g2, g3, g4, g5, g6, g7⟩
  · have hc := claimFirst_spec ThreadMap.new (by decide) 0 (by decide) (by
      intro c
      constructor
      · intro hx; exact absurd hx (c33_empty c)
      · intro hx; exact absurd hx.2 (Nat.not_lt_zero _))
    rw [if_neg (by decide)] at hc
    rw [g3, hc, g1]
    refine ⟨ThreadMap.new, rfl, ?_⟩
    intro r hr
    injection hr with hr
    injection hr with _ hr
    subst hr
    refine .inl ⟨by rw [registered_append, g1]; rfl, by rw [claimed_append, g2]; rfl, upd_same _ _ _, g4⟩
  · have hc := claimFirst_spec (s.maps (mid - 1)) (by omega) k (by omega) (by intro c; rw [g7, g5])
    have hlen : (claimed mid h).length = k := by rw [g3]; simp
    rw [g1]
    dsimp only
    rw [hlen]
    rw [g5] at hc
    by_cases hk : k < ts.length
    · rw [if_pos hk] at hc
      obtain ⟨m, e1, e2⟩ := hc
      rw [e1, if_pos hk]
      have hget : (s.aff (mid - 1))[k]? = some (ts[k].node) := by rw [g4]; simp [hk]
      have hres : threadOf mid ts k = (newGtid (BitVec.ofNat 64 k) (BitVec.ofNat 64 mid), ts[k].node) := by
        unfold threadOf
        simp [hk]
      refine ⟨⟨ts.length, m⟩, ?_, ?_⟩
      · show (match (s.aff (mid - 1))[k]? with | some a => _ | none => _) = _
        rw [hget, hres]
      · intro r hr
        have hr : (match (s.aff (mid - 1))[k]? with
          | some a => Outcome.ok ({ s with maps := upd s.maps (mid - 1) ⟨ts.length, m⟩ },
              some (newGtid (BitVec.ofNat 64 k) (BitVec.ofNat 64 mid), a))
          | none => .panic) = _ := hr
        rw [hget] at hr
        injection hr with hr
        injection hr with _ hr
        subst hr
        refine .inr ⟨ts, k + 1, by rw [registered_append, g1]; rfl, hk, ?_, g4, ?_, g6, ?_⟩
        · rw [claimed_append, g3, List.range_succ, List.map_append, List.map_singleton, hres]
          simp [claimed]
        · show (upd s.maps (mid - 1) ⟨ts.length, m⟩ (mid - 1)).num = _
          rw [upd_same]
        · intro c
          show (upd s.maps (mid - 1) ⟨ts.length, m⟩ (mid - 1)).map.Mem c ↔ _
          rw [upd_same]
          exact e2 c
    · rw [if_neg hk] at hc
      rw [hc, if_neg hk]
      refine ⟨s.maps (mid - 1), rfl, ?_⟩
      intro r hr
      injection hr with hr
      injection hr with _ hr
      subst hr
      refine .inr ⟨ts, k, by rw [registered_append, g1]; rfl, g2, by rw [claimed_append, g3]; simp [claimed], g4, ?_, g6, ?_⟩
      · show (upd s.maps (mid - 1) _ (mid - 1)).num = _
        rw [upd_same]; exact g5
      · intro c
        show (upd s.maps (mid - 1) _ (mid - 1)).map.Mem c ↔ _
        rw [upd_same]; exact g7 c

theorem Good.other {s s' : Controller} {h : List Ev} {e : Ev} {m mid : Nat} (hg : Good s h m)
    (h1 : registered m [e] = []) (h2 : claimed m [e] = []) (hne : m - 1 ≠ mid - 1)
    (hm : ∃ t, s'.maps = upd s.maps (mid - 1) t) (ha : ∃ l, s'.aff = upd s.aff (mid - 1) l) :
    Good s' (h ++ [e]) m := by
  obtain ⟨t, hm⟩ := hm
  obtain ⟨l, ha⟩ := ha
  unfold Good
  rw [registered_append, claimed_append, h1, h2, hm, ha, upd_other _ _ hne, upd_other _ _ hne,
    List.append_nil, List.append_nil]
  exact hg

theorem upd_self_ex {α β : Type} [DecidableEq α] (f : α → β) (a : α) : ∃ b, f = upd f a b :=
  ⟨f a, by funext x; rw [upd_apply]; split <;> simp_all⟩

theorem Run.good {h : List Ev} {s : Controller} (hr : Run h s) (ho : Once h) (mid : Nat) (h0 : mid ≠ 0)
    (h16 : mid ≤ maxMachines) : Good s h mid := by
  induction hr with
  | nil => exact .inl ⟨rfl, rfl, rfl, rfl⟩
  | @register h s s' m ts _ hs ih =>
    have ho' : Once h := by
      intro d
      have := ho d
      rw [registered_append, List.length_append] at this
      omega
    have hg := ih ho'
    unfold Controller.initClient at hs
    split at hs
    · cases hs
    next hm =>
    split at hs
    · cases hs
    next hcap =>
    cases hi : (s.maps (m - 1)).init ts.length with
    | err e => rw [hi] at hs; cases hs
    | panic => rw [hi] at hs; cases hs
    | ok t =>
      rw [hi] at hs
      cases hs
      by_cases e : m = mid
      · subst e
        have hreg := ho m
        rw [registered_append] at hreg
        simp only [registered, if_true, List.length_append, List.length_cons, List.length_nil] at hreg
        have hnil : registered m h = [] := List.eq_nil_of_length_eq_zero (by omega)
        rcases hg with ⟨g1, g2, g3, g4⟩ | ⟨ts', k, g1, _⟩
        · rw [g3] at hi
          obtain ⟨i1, i2, i3⟩ := init_spec hi
          refine .inr ⟨ts, 0, by rw [registered_append, g1]; simp [registered], Nat.zero_le _,
            by rw [claimed_append, g2]; rfl, ?_, ?_, i1, ?_⟩
          · show upd s.aff (m - 1) _ (m - 1) = _
            rw [upd_same, g4]; rfl
          · show (upd s.maps (m - 1) t (m - 1)).num = _
            rw [upd_same]; exact i2
          · intro c
            show (upd s.maps (m - 1) t (m - 1)).map.Mem c ↔ _
            rw [upd_same, i3]
            constructor
            · rintro (h1 | h1)
              · exact absurd h1 (c33_empty c)
              · exact ⟨Nat.zero_le _, h1⟩
            · exact fun h1 => .inr h1.2
        · rw [hnil] at g1; cases g1
      · refine hg.other (by simp [registered, e]) rfl (mid := m) (by omega) ⟨_, rfl⟩ ⟨_, rfl⟩
  | @claim h s s' m r _ hs ih =>
    have ho' : Once h := by
      intro d
      have := ho d
      rw [registered_append, List.length_append] at this
      omega
    have hg := ih ho'
    have hm : m ≠ 0 ∧ m ≤ maxMachines := by
      unfold Controller.claim at hs
      split at hs
      · cases hs
      · omega
    by_cases e : m = mid
    · subst e
      obtain ⟨t, h1, h2⟩ := claim_spec hg hm.1 hm.2
      have h3 := h1
      rw [hs] at h3
      injection h3 with h3
      injection h3 with h3 h4
      subst h3
      exact h2 r hs
    · have : ∃ t, s' = { s with maps := upd s.maps (m - 1) t } := by
        unfold Controller.claim at hs
        rw [if_neg (by omega)] at hs
        cases hc : (s.maps (m - 1)).claimFirst with
        | err e => rw [hc] at hs; cases hs
        | panic => rw [hc] at hs; cases hs
        | ok x =>
          rw [hc] at hs
          obtain ⟨t, o⟩ := x
          cases o with
          | none => cases hs; exact ⟨t, rfl⟩
          | some mtid =>
            have hs : (match (s.aff (m - 1))[mtid]? with
              | some a => Outcome.ok ({ s with maps := upd s.maps (m - 1) t },
                  some (newGtid (BitVec.ofNat 64 mtid) (BitVec.ofNat 64 m), a))
              | none => .panic) = _ := hs
            split at hs
            · cases hs; exact ⟨t, rfl⟩
            · cases hs
      obtain ⟨t, rfl⟩ := this
      refine hg.other rfl ?_ (mid := m) (by omega) ⟨t, rfl⟩ (upd_self_ex _ _)
      cases r <;> simp [claimed, e]
  | @release h s g _ ih =>
    have ho' : Once h := by
      intro d
      have := ho d
      rw [registered_append, List.length_append] at this
      omega
    have hg := ih ho'
    unfold Good
    rw [registered_append, claimed_append, show registered mid [.release g] = [] from rfl,
      show claimed mid [.release g] = [] from rfl, List.append_nil, List.append_nil]
    exact hg

/-- **C47**.  In any history in which machines register once: the threads claimed from a machine are its
threads in ascending order from number 0, each with its node; they are pairwise distinct. -/
theorem c47_claimed {h : List Ev} {s : Controller} (hr : Run h s) (ho : Once h) {mid : Nat} (h0 : mid ≠ 0)
    (h16 : mid ≤ 16) :
    claimed mid h = [] ∨ ∃ ts k, registered mid h = [ts] ∧ k ≤ ts.length ∧
      claimed mid h = (List.range k).map (threadOf mid ts) ∧ ((claimed mid h).map (·.1)).Nodup := by
  rcases hr.good ho mid h0 h16 with ⟨_, g2, _⟩ | ⟨ts, k, g1, g2, g3, _, _, g6, _⟩
  · exact .inl g2
  · refine .inr ⟨ts, k, g1, g2, g3, ?_⟩
    rw [g3, List.map_map, List.nodup_iff_pairwise_ne, List.pairwise_map]
    refine List.Pairwise.imp_of_mem ?_ List.nodup_range
    intro a b ha hb hne e
    have ha := List.mem_range.1 ha
    have hb := List.mem_range.1 hb
    have hsmall : ∀ x : Nat, x ≤ 256 → (BitVec.ofNat 64 x).toNat < 2 ^ 32 := by
      intro x hx
      rw [BitVec.toNat_ofNat]
      exact Nat.lt_of_le_of_lt (Nat.mod_le _ _) (Nat.lt_of_le_of_lt hx (by decide))
    have e1 := (c34_roundtrip (BitVec.ofNat 64 a) (BitVec.ofNat 64 mid) (hsmall a (by omega)) (hsmall mid (by omega))).1
    have e2 := (c34_roundtrip (BitVec.ofNat 64 b) (BitVec.ofNat 64 mid) (hsmall b (by omega)) (hsmall mid (by omega))).1
    have e : newGtid (BitVec.ofNat 64 a) (BitVec.ofNat 64 mid) = newGtid (BitVec.ofNat 64 b) (BitVec.ofNat 64 mid) := e
    rw [e, e2] at e1
    have := congrArg BitVec.toNat e1
    rw [BitVec.toNat_ofNat, BitVec.toNat_ofNat, Nat.mod_eq_of_lt (by omega), Nat.mod_eq_of_lt (by omega)] at this
    exact hne this.symm

/-- **C47**.  A claim succeeds exactly while not all threads of the machine were claimed, and gives the
next one; a machine that did not register has none.  It does not panic. -/
theorem c47_claim {h : List Ev} {s : Controller} (hr : Run h s) (ho : Once h) {mid : Nat} (h0 : mid ≠ 0)
    (h16 : mid ≤ 16) :
    (registered mid h = [] ∧ ∃ s', s.claim mid = .ok (s', none)) ∨
    ∃ ts, registered mid h = [ts] ∧ ∃ s', s.claim mid = .ok (s',
      if (claimed mid h).length < ts.length then some (threadOf mid ts (claimed mid h).length) else none) := by
  have hg := hr.good ho mid h0 h16
  obtain ⟨t, h1, _⟩ := claim_spec hg h0 h16
  rcases hg with ⟨g1, _⟩ | ⟨ts, k, g1, _⟩
  · rw [g1] at h1
    exact .inl ⟨g1, _, h1⟩
  · rw [g1] at h1
    exact .inr ⟨ts, g1, _, h1⟩

/-- The global ids of threads of different machines differ, so no thread of the whole rack is given out
twice. -/
theorem c47_across_machines {h : List Ev} {s : Controller} (hr : Run h s) (ho : Once h) {m n : Nat}
    (hm : m ≠ 0 ∧ m ≤ 16) (hn : n ≠ 0 ∧ n ≤ 16) (hne : m ≠ n) {x y : BitVec 64 × Nat}
    (hx : x ∈ claimed m h) (hy : y ∈ claimed n h) : x.1 ≠ y.1 := by
  have key : ∀ mid, mid ≠ 0 ∧ mid ≤ 16 → ∀ z ∈ claimed mid h, midFromGtid z.1 = BitVec.ofNat 64 mid := by
    intro mid hmid z hz
    rcases hr.good ho mid hmid.1 hmid.2 with ⟨_, g2, _⟩ | ⟨ts, k, g1, g2, g3, _, _, g6, _⟩
    · rw [g2] at hz; cases hz
    · rw [g3, List.mem_map] at hz
      obtain ⟨i, hi, rfl⟩ := hz
      have hi := List.mem_range.1 hi
      have hsmall : ∀ x : Nat, x ≤ 256 → (BitVec.ofNat 64 x).toNat < 2 ^ 32 := by
        intro x hx
        rw [BitVec.toNat_ofNat]
        exact Nat.lt_of_le_of_lt (Nat.mod_le _ _) (Nat.lt_of_le_of_lt hx (by decide))
      exact (c34_roundtrip (BitVec.ofNat 64 i) (BitVec.ofNat 64 mid) (hsmall i (by omega)) (hsmall mid (by omega))).2
  intro e
  have h1 := key m hm x hx
  have h2 := key n hn y hy
  rw [e, h2] at h1
  have := congrArg BitVec.toNat h1
  rw [BitVec.toNat_ofNat, BitVec.toNat_ofNat, Nat.mod_eq_of_lt (by omega), Nat.mod_eq_of_lt (by omega)] at this
  exact hne this.symm

/-- A released thread is never given out again: once all threads of a machine were claimed, every claim
fails, whatever was released (the request handler then panics). -/
theorem c47_released_threads_are_lost {h : List Ev} {s : Controller} (hr : Run h s) (ho : Once h) {mid : Nat}
    (h0 : mid ≠ 0) (h16 : mid ≤ 16) {ts : List CpuThread} (hreg : registered mid h = [ts])
    (hall : (claimed mid h).length = ts.length) (gs : List (BitVec 64)) :
    ∃ s', (gs.foldl Controller.release s).claim mid = .ok (s', none) := by
  have : gs.foldl Controller.release s = s := by
    induction gs with
    | nil => rfl
    | cons g gs ih => exact ih
  rw [this]
  rcases c47_claim hr ho h0 h16 with ⟨g1, _⟩ | ⟨ts', g1, s', g2⟩
  · rw [g1] at hreg; cases hreg
  · rw [g1] at hreg
    cases hreg
    rw [if_neg (by omega)] at g2
    exact ⟨s', g2⟩

/-- Machine 1 with one thread registers, its thread is claimed, it registers again, a thread is claimed. -/
def twice : Outcome (Option (BitVec 64 × Nat) × Option (BitVec 64 × Nat)) :=
  (Controller.new.initClient 1 [⟨0, 0⟩]).bind fun s1 => (s1.claim 1).bind fun x2 =>
    (x2.1.initClient 1 [⟨0, 0⟩]).bind fun s3 => (s3.claim 1).bind fun x4 => .ok (x2.2, x4.2)

theorem twice_eq : twice = .ok (some (4294967296#64, 0), some (4294967296#64, 0)) := by decide +kernel

theorem bind_ok {α β : Type} {x : Outcome α} {f : α → Outcome β} {b : β} (h : x.bind f = .ok b) :
    ∃ a, x = .ok a ∧ f a = .ok b := by
  cases x with
  | ok a => exact ⟨a, rfl, h⟩
  | err e => cases h
  | panic => cases h

/-- A machine that registers twice has its threads given out twice. -/
theorem c47_second_registration : ∃ h s, Run h s ∧ ¬ ((claimed 1 h).map (·.1)).Nodup := by
  have h := twice_eq
  unfold twice at h
  obtain ⟨s1, e1, h⟩ := bind_ok h
  obtain ⟨⟨s2, r2⟩, e2, h⟩ := bind_ok h
  obtain ⟨s3, e3, h⟩ := bind_ok h
  obtain ⟨⟨s4, r4⟩, e4, h⟩ := bind_ok h
  injection h with h
  injection h with h1 h2
  dsimp only at h1 h2
  subst h1
  subst h2
  exact ⟨_, _, (((Run.nil.register e1).claim e2).register e3).claim e4, by decide +kernel⟩

/-- The hypotheses are met: two machines, three claims, one release. -/
example : ∃ h s, Run h s ∧ Once h ∧ (claimed 2 h).map (·.2) = [7, 8] ∧ (claimed 1 h).length = 1 := by
  have h0 : Run [] Controller.new := .nil
  obtain ⟨s1, e1⟩ : ∃ s1, Controller.new.initClient 2 [⟨0, 7⟩, ⟨1, 8⟩, ⟨2, 8⟩] = .ok s1 := ⟨_, rfl⟩
  have h1 := h0.register e1
  obtain ⟨s2, e2⟩ : ∃ s2, s1.initClient 1 [⟨0, 0⟩] = .ok s2 := by cases e1; exact ⟨_, rfl⟩
  have h2 := h1.register e2
  have ho : Once [.register 2 [⟨0, 7⟩, ⟨1, 8⟩, ⟨2, 8⟩], .register 1 [⟨0, 0⟩]] := by
    intro m
    simp only [registered]
    split
    · next e => subst e; decide
    · split <;> simp
  rcases c47_claim h2 ho (mid := 2) (by decide) (by decide) with ⟨g, _⟩ | ⟨ts, g, s3, e3⟩
  · exact absurd g (by decide)
  cases g
  have h3 := h2.claim e3
  have ho3 : Once ([.register 2 [⟨0, 7⟩, ⟨1, 8⟩, ⟨2, 8⟩], .register 1 [⟨0, 0⟩]] ++
      [.claim 2 (some (threadOf 2 [⟨0, 7⟩, ⟨1, 8⟩, ⟨2, 8⟩] 0))]) := by
    intro m; rw [registered_append]; simpa [registered] using ho m
  rcases c47_claim h3 ho3 (mid := 2) (by decide) (by decide) with ⟨g, _⟩ | ⟨ts, g, s4, e4⟩
  · exact absurd g (by decide)
  cases g
  have h4 := h3.claim e4
  have ho4 : Once ([.register 2 [⟨0, 7⟩, ⟨1, 8⟩, ⟨2, 8⟩], .register 1 [⟨0, 0⟩]] ++
      [.claim 2 (some (threadOf 2 [⟨0, 7⟩, ⟨1, 8⟩, ⟨2, 8⟩] 0))] ++
      [.claim 2 (some (threadOf 2 [⟨0, 7⟩, ⟨1, 8⟩, ⟨2, 8⟩] 1))]) := by
    intro m; rw [registered_append, registered_append]; simpa [registered] using ho m
  rcases c47_claim h4 ho4 (mid := 1) (by decide) (by decide) with ⟨g, _⟩ | ⟨ts, g, s5, e5⟩
  · exact absurd g (by decide)
  cases g
  have h5 := h4.claim e5
  have h6 := Run.release (g := 4294967296#64) h5
  refine ⟨_, _, h6, ?_, by decide, by decide⟩
  intro m
  rw [registered_append, registered_append, registered_append, registered_append]
  simpa [registered] using ho m

/-- **C47** The first registration of one of the 16 machines succeeds exactly if it has at most 192 threads
(as long as the table has room for those of a machine); anything else stops the controller. -/
theorem c47_registers (s : Controller) (mid : Nat) (ts : List CpuThread) (hf : s.aff (mid - 1) = [])
    (hroom : s.hw.length ≤ 15 * 192) :
    (1 ≤ mid → mid ≤ 16 → ts.length ≤ 192 → ∃ s', s.initClient mid ts = .ok s') ∧
    (mid = 0 ∨ 16 < mid ∨ 192 < ts.length → s.initClient mid ts = .panic) := by
  have h1 : maxMachines = 16 := rfl
  have h2 : maxCores = 192 := rfl
  unfold Controller.initClient
  rw [hf]
  refine ⟨fun m1 m2 ht => ?_, fun h => ?_⟩
  · rw [if_neg (by omega), if_neg (by rw [List.length_nil, h1, h2]; omega)]
    unfold ThreadMap.init
    rw [if_pos (by omega)]
    obtain ⟨m, e, _⟩ := markAll_spec (List.range ts.length) { s.maps (mid - 1) with num := ts.length }
      (fun i hi => List.mem_range.1 hi) (by show ts.length ≤ 256; omega)
    rw [e]
    exact ⟨_, rfl⟩
  · by_cases hm : mid = 0 ∨ maxMachines < mid
    · rw [if_pos hm]
    · rw [if_neg hm, if_pos (by rw [List.length_nil, h1, h2]; omega)]

end NRK.Rack
