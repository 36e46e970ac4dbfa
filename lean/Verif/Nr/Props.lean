import Verif.Nr.Model

/-!
# Properties of node replication (C12, C13)
-/

namespace NRK.Nr

variable {S Op R Q A : Type}

/-- Linearisation key of a completed operation: a write at log index `i` takes effect at
`2 i + 1`, a read that saw the first `k` entries at `2 k`. -/
def Event.key : Event Op R Q A → Nat
  | .write _ _ idx _ => 2 * idx + 1
  | .read _ _ k _ => 2 * k

/-- When the operation was invoked (number of operations completed by then). -/
def Event.inv : Event Op R Q A → Nat
  | .write _ inv _ _ => inv
  | .read _ inv _ _ => inv

/-- What holds of a thread in the middle of an operation. -/
def ThrOk (o : Obj S Op R Q A) (node : Nat → Nat) (s : Sys S Op R Q A) (t : Nat) :
    Thr Op R Q → Prop
  | .idle => True
  | .wantWrite _ inv => inv ≤ s.hist.length
  | .inLog op inv idx => inv ≤ s.hist.length ∧ s.log[idx]? = some (op, t) ∧
      (s.reps (node t)).applied ≤ idx ∧
      (∀ j e, j < inv → s.hist[j]? = some e → e.key ≤ 2 * idx + 1)
  | .responded op inv idx resp => inv ≤ s.hist.length ∧ s.log[idx]? = some (op, t) ∧
      idx < (s.reps (node t)).applied ∧
      resp = (o.apply (o.run ((s.log.take idx).map Prod.fst)) op).2 ∧
      (∀ j e, j < inv → s.hist[j]? = some e → e.key ≤ 2 * idx + 1)
  | .wantRead _ inv c => inv ≤ s.hist.length ∧
      (∀ j e, j < inv → s.hist[j]? = some e → e.key ≤ 2 * c)

/-- The log index of a write in progress. -/
def Thr.idx? : Thr Op R Q → Option Nat
  | .inLog _ _ idx => some idx
  | .responded _ _ idx _ => some idx
  | _ => none

/-- What holds of a completed operation. -/
def EvOk (o : Obj S Op R Q A) (s : Sys S Op R Q A) : Event Op R Q A → Prop
  | .write op _ idx resp => (∃ t, s.log[idx]? = some (op, t)) ∧
      resp = (o.apply (o.run ((s.log.take idx).map Prod.fst)) op).2
  | .read q _ k ans => k ≤ s.log.length ∧
      ans = o.query (o.run ((s.log.take k).map Prod.fst)) q

/-- The invariant. -/
structure SysInv (o : Obj S Op R Q A) (node : Nat → Nat) (s : Sys S Op R Q A) : Prop where
  rep : ∀ r, (s.reps r).applied ≤ s.log.length ∧
    (s.reps r).st = o.run ((s.log.take (s.reps r).applied).map Prod.fst)
  lock : ∀ r g, (s.reps r).lock = some g → g ≤ s.log.length
  ctail : s.ctail ≤ s.log.length
  unlocked : ∀ r, (s.reps r).lock = none → (s.reps r).applied ≤ s.ctail
  thr : ∀ t, ThrOk o node s t (s.thr t)
  own : ∀ i op t, s.log[i]? = some (op, t) → (s.reps (node t)).applied ≤ i →
    ∃ inv, s.thr t = .inLog op inv i
  uniq : ∀ t idx, (s.thr t).idx? = some idx → ∀ e, e ∈ s.hist → e.key ≠ 2 * idx + 1
  hkeys : ∀ e, e ∈ s.hist → e.key ≤ 2 * s.ctail
  hdist : ∀ (i j : Nat) (e e' : Event Op R Q A), s.hist[i]? = some e → s.hist[j]? = some e' → e.key = e'.key →
    e.key % 2 = 1 → i = j
  hinv : ∀ (j : Nat) (e : Event Op R Q A), s.hist[j]? = some e → e.inv ≤ j ∧
    (∀ i e', i < e.inv → s.hist[i]? = some e' → e'.key ≤ e.key)
  hist : ∀ e, e ∈ s.hist → EvOk o s e

theorem run_snoc (o : Obj S Op R Q A) (l : List Op) (op : Op) :
    o.run (l ++ [op]) = (o.apply (o.run l) op).1 := by
  simp [Obj.run]

theorem take_succ_of_get {α : Type} (l : List α) (i : Nat) (a : α) (h : l[i]? = some a) :
    l.take (i + 1) = l.take i ++ [a] := by
  rw [List.take_add_one, h]; rfl

theorem getElem?_snoc {α : Type} {l : List α} {a e : α} {j : Nat}
    (h : (l ++ [a])[j]? = some e) : l[j]? = some e ∨ (j = l.length ∧ e = a) := by
  rw [List.getElem?_append] at h
  split at h
  · exact .inl h
  · right
    by_cases hj : j - l.length = 0
    · rw [hj] at h; simp at h; exact ⟨by omega, h.symm⟩
    · rw [List.getElem?_eq_none (by simp; omega)] at h; cases h

theorem getElem?_lt {α : Type} {l : List α} {e : α} {j : Nat} (h : l[j]? = some e) :
    j < l.length := by
  rw [List.getElem?_eq_some_iff] at h; exact h.1

theorem getElem?_append_of_some {α : Type} {l m : List α} {e : α} {j : Nat} (h : l[j]? = some e) :
    (l ++ m)[j]? = some e := by
  rw [List.getElem?_append_left (getElem?_lt h)]; exact h

theorem take_prefix {α : Type} {l m : List α} (h : l <+: m) (k : Nat) (hk : k ≤ l.length) :
    m.take k = l.take k := by
  obtain ⟨t, rfl⟩ := h
  rw [List.take_append_of_le_length hk]

theorem get_prefix {α : Type} {l m : List α} (h : l <+: m) {k : Nat} {a : α}
    (hk : l[k]? = some a) : m[k]? = some a := by
  obtain ⟨t, rfl⟩ := h
  exact getElem?_append_of_some hk

theorem get_prefix_lt {α : Type} {l m : List α} (h : l <+: m) {k : Nat} (hlt : k < l.length) :
    m[k]? = l[k]? := by
  obtain ⟨t, rfl⟩ := h
  exact List.getElem?_append_left hlt

theorem EvOk.mono {o : Obj S Op R Q A} {s s' : Sys S Op R Q A} (hl : s.log <+: s'.log)
    {e : Event Op R Q A} (h : EvOk o s e) : EvOk o s' e := by
  cases e with
  | write op inv idx resp =>
    obtain ⟨⟨t, h1⟩, h2⟩ := h
    refine ⟨⟨t, get_prefix hl h1⟩, ?_⟩
    rw [take_prefix hl idx (Nat.le_of_lt (getElem?_lt h1))]
    exact h2
  | read q inv k ans =>
    obtain ⟨h1, h2⟩ := h
    refine ⟨Nat.le_trans h1 hl.length_le, ?_⟩
    rw [take_prefix hl k h1]
    exact h2

theorem ThrOk.mono {o : Obj S Op R Q A} {node : Nat → Nat} {s s' : Sys S Op R Q A} {t : Nat}
    {th : Thr Op R Q} (h : ThrOk o node s t th) (hl : s.log <+: s'.log)
    (hh : s.hist <+: s'.hist)
    (ha : (s.reps (node t)).applied ≤ (s'.reps (node t)).applied)
    (hi : ∀ op inv idx, th = .inLog op inv idx → (s'.reps (node t)).applied ≤ idx) :
    ThrOk o node s' t th := by
  have hist : ∀ inv x, inv ≤ s.hist.length →
      (∀ j e, j < inv → s.hist[j]? = some e → e.key ≤ x) →
      (∀ j e, j < inv → s'.hist[j]? = some e → e.key ≤ x) := by
    intro inv x h1 h2 j e hj he
    rw [get_prefix_lt hh (by omega)] at he
    exact h2 j e hj he
  have hlen := hh.length_le
  cases th with
  | idle => trivial
  | wantWrite op inv => exact Nat.le_trans h hlen
  | inLog op inv idx =>
    obtain ⟨h1, h2, h3, h4⟩ := h
    exact ⟨Nat.le_trans h1 hlen, get_prefix hl h2, hi op inv idx rfl, hist _ _ h1 h4⟩
  | responded op inv idx resp =>
    obtain ⟨h1, h2, h3, h4, h5⟩ := h
    refine ⟨Nat.le_trans h1 hlen, get_prefix hl h2, Nat.lt_of_lt_of_le h3 ha, ?_, hist _ _ h1 h5⟩
    rw [take_prefix hl idx (Nat.le_of_lt (getElem?_lt h2))]
    exact h4
  | wantRead q inv c =>
    obtain ⟨h1, h2⟩ := h
    exact ⟨Nat.le_trans h1 hlen, hist _ _ h1 h2⟩

theorem inv_init (o : Obj S Op R Q A) (node : Nat → Nat) : SysInv o node (Sys.init o) := by
  constructor <;> simp [Sys.init, Obj.run, ThrOk]

/-- A thread changes its state, nothing else happens. -/
theorem inv_thr {o : Obj S Op R Q A} {node : Nat → Nat} {s : Sys S Op R Q A}
    (h : SysInv o node s) (t : Nat) (th : Thr Op R Q) (hnot : ∀ op inv i, s.thr t ≠ .inLog op inv i)
    (hok : ThrOk o node s t th) (hidx : th.idx? = none) :
    SysInv o node { s with thr := upd s.thr t th } := by
  refine ⟨h.rep, h.lock, h.ctail, h.unlocked, ?_, ?_, ?_, h.hkeys, h.hdist, h.hinv, ?_⟩
  · intro t'
    simp only [upd_apply]
    split
    · rename_i q; subst q
      exact hok.mono (List.prefix_refl _) (List.prefix_refl _) (Nat.le_refl _) (by
        intro op inv idx q; subst q; exact hok.2.2.1)
    · exact (h.thr t').mono (List.prefix_refl _) (List.prefix_refl _) (Nat.le_refl _) (by
        intro op inv idx q
        have := h.thr t'
        rw [q] at this; exact this.2.2.1)
  · intro i op t' h1 h2
    obtain ⟨inv, hq⟩ := h.own i op t' h1 h2
    refine ⟨inv, ?_⟩
    dsimp only
    rw [upd_apply, if_neg]
    · exact hq
    · intro q; subst q; exact hnot _ _ _ hq
  · intro t' idx hq
    dsimp only at hq
    rw [upd_apply] at hq
    split at hq
    · rw [hidx] at hq; cases hq
    · exact h.uniq t' idx hq
  · intro e he; exact (h.hist e he).mono (List.prefix_refl _)

/-- An operation completes: history grows by `e`, the thread becomes idle. -/
theorem inv_complete {o : Obj S Op R Q A} {node : Nat → Nat} {s : Sys S Op R Q A}
    (h : SysInv o node s) (t : Nat) (e : Event Op R Q A)
    (hnot : ∀ op inv i, s.thr t ≠ .inLog op inv i)
    (hkey : e.key ≤ 2 * s.ctail)
    (huniq : ∀ t' idx, t' ≠ t → (s.thr t').idx? = some idx → e.key ≠ 2 * idx + 1)
    (hdist : e.key % 2 = 1 → ∀ e', e' ∈ s.hist → e'.key ≠ e.key)
    (hinv : e.inv ≤ s.hist.length ∧ ∀ i e', i < e.inv → s.hist[i]? = some e' → e'.key ≤ e.key)
    (hev : EvOk o s e) :
    SysInv o node { s with thr := upd s.thr t .idle, hist := s.hist ++ [e] } := by
  refine ⟨h.rep, h.lock, h.ctail, h.unlocked, ?_, ?_, ?_, ?_, ?_, ?_, ?_⟩
  · intro t'
    simp only [upd_apply]
    split
    · trivial
    · exact (h.thr t').mono (List.prefix_refl _) (List.prefix_append _ _) (Nat.le_refl _) (by
        intro op inv idx q
        have := h.thr t'
        rw [q] at this; exact this.2.2.1)
  · intro i op t' h1 h2
    obtain ⟨inv, hq⟩ := h.own i op t' h1 h2
    refine ⟨inv, ?_⟩
    dsimp only
    rw [upd_apply, if_neg]
    · exact hq
    · intro q; subst q; exact hnot _ _ _ hq
  · intro t' idx hq e' he'
    dsimp only at hq
    rw [upd_apply] at hq
    split at hq
    · cases hq
    · rename_i hne
      rcases List.mem_append.1 he' with he' | he'
      · exact h.uniq t' idx hq e' he'
      · simp at he'; subst he'; exact huniq t' idx hne hq
  · intro e' he'
    rcases List.mem_append.1 he' with he' | he'
    · exact h.hkeys e' he'
    · simp at he'; subst he'; exact hkey
  · intro i j e1 e2 h1 h2 heq hodd
    replace h1 := getElem?_snoc h1
    replace h2 := getElem?_snoc h2
    rcases h1 with h1 | ⟨h1, h1'⟩ <;> rcases h2 with h2 | ⟨h2, h2'⟩
    · exact h.hdist i j e1 e2 h1 h2 heq hodd
    · subst h2'
      exact absurd heq (hdist (by rw [← heq]; exact hodd) e1 (List.mem_of_getElem? h1))
    · subst h1'
      exact absurd heq.symm (hdist hodd e2 (List.mem_of_getElem? h2))
    · omega
  · intro j e1 h1
    rcases getElem?_snoc h1 with h1 | ⟨h1, h1'⟩
    · obtain ⟨a, b⟩ := h.hinv j e1 h1
      refine ⟨a, ?_⟩
      intro i e2 hi h2
      have := getElem?_lt h1
      simp only at h2
      rw [get_prefix_lt (List.prefix_append s.hist [e]) (by omega)] at h2
      exact b i e2 hi h2
    · subst h1 h1'
      refine ⟨hinv.1, ?_⟩
      intro i e2 hi h2
      simp only at h2
      rw [get_prefix_lt (List.prefix_append s.hist [e1]) (by omega)] at h2
      exact hinv.2 i e2 hi h2
  · intro e' he'
    rcases List.mem_append.1 he' with he' | he'
    · exact (h.hist e' he').mono (List.prefix_refl _)
    · simp at he'; subst he'; exact hev.mono (List.prefix_refl _)

theorem inv_step {o : Obj S Op R Q A} {node : Nat → Nat} {s s' : Sys S Op R Q A}
    (h : SysInv o node s) (hs : Step o node s s') : SysInv o node s' := by
  cases hs with
  | invokeWrite t op ht =>
    exact inv_thr h t _ (by intro _ _ _ q; rw [ht] at q; cases q) (Nat.le_refl _) rfl
  | invokeRead t q ht =>
    refine inv_thr h t _ (by intro _ _ _ q; rw [ht] at q; cases q) ⟨Nat.le_refl _, ?_⟩ rfl
    intro j e _ he
    exact h.hkeys e (List.mem_of_getElem? he)
  | append t op inv ht =>
    have hpre : s.log <+: s.log ++ [(op, t)] := List.prefix_append _ _
    have hinvle : inv ≤ s.hist.length := by have := h.thr t; rw [ht] at this; exact this
    refine ⟨?_, ?_, ?_, h.unlocked, ?_, ?_, ?_, h.hkeys, h.hdist, h.hinv, ?_⟩
    · intro r
      obtain ⟨a, b⟩ := h.rep r
      refine ⟨by simp only [List.length_append]; omega, ?_⟩
      simp only
      rw [take_prefix hpre _ a]; exact b
    · intro r g hg
      have := h.lock r g hg
      simp only [List.length_append]; omega
    · have := h.ctail
      simp only [List.length_append]; omega
    · intro t'
      simp only [upd_apply]
      split
      · rename_i q; subst q
        refine ⟨hinvle, by simp, (h.rep (node t')).1, ?_⟩
        intro j e _ he
        have := h.hkeys e (List.mem_of_getElem? he)
        have := h.ctail
        omega
      · exact (h.thr t').mono hpre (List.prefix_refl _) (Nat.le_refl _) (by
          intro op inv idx q
          have := h.thr t'
          rw [q] at this; exact this.2.2.1)
    · intro i op' t' h1 h2
      rcases getElem?_snoc h1 with h1 | ⟨h1, h1'⟩
      · obtain ⟨inv', hq⟩ := h.own i op' t' h1 h2
        refine ⟨inv', ?_⟩
        dsimp only
        rw [upd_apply, if_neg]
        · exact hq
        · intro q; subst q; rw [ht] at hq; cases hq
      · cases h1'
        exact ⟨inv, by simp_all⟩
    · intro t' idx hq e he
      simp only [upd_apply] at hq
      split at hq
      · simp only [Thr.idx?, Option.some.injEq] at hq
        subst hq
        have := h.hkeys e he
        have := h.ctail
        omega
      · exact h.uniq t' idx hq e he
    · intro e he; exact (h.hist e he).mono hpre
  | lock r hr =>
    refine ⟨?_, ?_, h.ctail, ?_, ?_, ?_, h.uniq, h.hkeys, h.hdist, h.hinv, ?_⟩
    · intro r'
      simp only [upd_apply]
      split
      · rename_i q; subst q; exact h.rep _
      · exact h.rep r'
    · intro r' g hg
      simp only [upd_apply] at hg
      split at hg
      · simp at hg; simp only; omega
      · exact h.lock r' g hg
    · intro r' hu
      simp only [upd_apply] at hu ⊢
      split at hu
      · cases hu
      · rename_i q; rw [if_neg q]; exact h.unlocked r' hu
    · intro t'
      have ha : (upd s.reps r { s.reps r with lock := some s.log.length } (node t')).applied
          = (s.reps (node t')).applied := by
        simp only [upd_apply]; split
        · rename_i q; rw [q]
        · rfl
      exact (h.thr t').mono (List.prefix_refl _) (List.prefix_refl _) (by rw [ha]; exact Nat.le_refl _) (by
        intro op inv idx q
        have := h.thr t'
        rw [q] at this; rw [ha]; exact this.2.2.1)
    · intro i op t' h1 h2
      apply h.own i op t' h1
      simp only [upd_apply] at h2
      split at h2
      · rename_i q; rw [q]; exact h2
      · exact h2
    · intro e he; exact (h.hist e he).mono (List.prefix_refl _)
  | unlock r g hr hge =>
    refine ⟨?_, ?_, ?_, ?_, ?_, ?_, h.uniq, ?_, h.hdist, h.hinv, ?_⟩
    · intro r'
      simp only [upd_apply]
      split
      · rename_i q; subst q; exact h.rep _
      · exact h.rep r'
    · intro r' g' hg
      simp only [upd_apply] at hg
      split at hg
      · simp at hg
      · exact h.lock r' g' hg
    · have := h.ctail; have := (h.rep r).1; simp only; omega
    · intro r' hu
      simp only [upd_apply] at hu ⊢
      split
      · simp only; omega
      · rename_i q; rw [if_neg q] at hu; have := h.unlocked r' hu; omega
    · intro t'
      have ha : (upd s.reps r { s.reps r with lock := none } (node t')).applied
          = (s.reps (node t')).applied := by
        simp only [upd_apply]; split
        · rename_i q; rw [q]
        · rfl
      exact (h.thr t').mono (List.prefix_refl _) (List.prefix_refl _) (by rw [ha]; exact Nat.le_refl _) (by
        intro op inv idx q
        have := h.thr t'
        rw [q] at this; rw [ha]; exact this.2.2.1)
    · intro i op t' h1 h2
      apply h.own i op t' h1
      simp only [upd_apply] at h2
      split at h2
      · rename_i q; rw [q]; exact h2
      · exact h2
    · intro e he; have := h.hkeys e he; simp only; omega
    · intro e he; exact (h.hist e he).mono (List.prefix_refl _)
  | applyOther r g op t hr hlt he hn =>
    have hrep : ∀ r', (upd s.reps r ⟨(s.reps r).applied + 1, (o.apply (s.reps r).st op).1,
        some g⟩ r').applied ≤ s.log.length ∧
        (upd s.reps r ⟨(s.reps r).applied + 1, (o.apply (s.reps r).st op).1, some g⟩ r').st
          = o.run ((s.log.take (upd s.reps r ⟨(s.reps r).applied + 1,
              (o.apply (s.reps r).st op).1, some g⟩ r').applied).map Prod.fst) := by
      intro r'
      simp only [upd_apply]
      split
      · refine ⟨getElem?_lt he, ?_⟩
        rw [take_succ_of_get _ _ _ he, List.map_append]
        simp only [List.map_cons, List.map_nil]
        rw [run_snoc, ← (h.rep r).2]
      · exact h.rep r'
    refine ⟨hrep, ?_, h.ctail, ?_, ?_, ?_, h.uniq, h.hkeys, h.hdist, h.hinv, ?_⟩
    · intro r' g' hg
      simp only [upd_apply] at hg
      split at hg
      · simp at hg; subst hg; exact h.lock r g hr
      · exact h.lock r' g' hg
    · intro r' hu
      simp only [upd_apply] at hu ⊢
      split at hu
      · cases hu
      · rename_i q; rw [if_neg q]; exact h.unlocked r' hu
    · intro t'
      refine (h.thr t').mono (List.prefix_refl _) (List.prefix_refl _) ?_ ?_
      · simp only [upd_apply]; split
        · rename_i q; rw [q]; simp only; omega
        · exact Nat.le_refl _
      · intro op' inv idx q
        have hth := h.thr t'
        rw [q] at hth
        simp only [upd_apply]
        split
        · rename_i q2
          simp only
          have h3 := hth.2.2.1
          rw [q2] at h3
          by_cases heq : (s.reps r).applied = idx
          · have := hth.2.1
            rw [← heq, he] at this
            cases this
            exact absurd q2 hn
          · omega
        · exact hth.2.2.1
    · intro i op' t' h1 h2
      apply h.own i op' t' h1
      simp only [upd_apply] at h2
      split at h2
      · rename_i q; rw [q]; simp only at h2; omega
      · exact h2
    · intro e he; exact (h.hist e he).mono (List.prefix_refl _)
  | applyOwn r g op op' t inv idx hr hlt he hn ht =>
    obtain ⟨inv', hown⟩ := h.own _ op t he (by rw [hn]; exact Nat.le_refl _)
    rw [ht] at hown
    cases hown
    have hth := h.thr t
    rw [ht] at hth
    have hrep : ∀ r', (upd s.reps r ⟨(s.reps r).applied + 1, (o.apply (s.reps r).st op).1,
        some g⟩ r').applied ≤ s.log.length ∧
        (upd s.reps r ⟨(s.reps r).applied + 1, (o.apply (s.reps r).st op).1, some g⟩ r').st
          = o.run ((s.log.take (upd s.reps r ⟨(s.reps r).applied + 1,
              (o.apply (s.reps r).st op).1, some g⟩ r').applied).map Prod.fst) := by
      intro r'
      simp only [upd_apply]
      split
      · refine ⟨getElem?_lt he, ?_⟩
        rw [take_succ_of_get _ _ _ he, List.map_append]
        simp only [List.map_cons, List.map_nil]
        rw [run_snoc, ← (h.rep r).2]
      · exact h.rep r'
    refine ⟨hrep, ?_, h.ctail, ?_, ?_, ?_, ?_, h.hkeys, h.hdist, h.hinv, ?_⟩
    · intro r' g' hg
      simp only [upd_apply] at hg
      split at hg
      · simp at hg; subst hg; exact h.lock r g hr
      · exact h.lock r' g' hg
    · intro r' hu
      simp only [upd_apply] at hu ⊢
      split at hu
      · cases hu
      · rename_i q; rw [if_neg q]; exact h.unlocked r' hu
    · intro t'
      by_cases htt : t' = t
      · subst htt
        simp only [upd_same]
        refine ⟨hth.1, hth.2.1, ?_, ?_, hth.2.2.2⟩
        · simp [upd_apply, hn]
        · rw [(h.rep r).2]
      · simp only [upd_other _ _ htt]
        refine (h.thr t').mono (List.prefix_refl _) (List.prefix_refl _) ?_ ?_
        · simp only [upd_apply]; split
          · rename_i q; rw [q]; simp only; omega
          · exact Nat.le_refl _
        · intro op' inv idx q
          have hth := h.thr t'
          rw [q] at hth
          simp only [upd_apply]
          split
          · rename_i q2
            simp only
            have h3 := hth.2.2.1
            rw [q2] at h3
            by_cases heq : (s.reps r).applied = idx
            · have := hth.2.1
              rw [← heq, he] at this
              cases this
              exact absurd rfl htt
            · omega
          · exact hth.2.2.1
    · intro i op' t' h1 h2
      have h2' : (s.reps (node t')).applied ≤ i ∧
          (node t' = r → (s.reps r).applied + 1 ≤ i) := by
        simp only [upd_apply] at h2
        split at h2
        · rename_i q; rw [q]; simp only at h2; exact ⟨by omega, fun _ => h2⟩
        · rename_i q; exact ⟨h2, fun q' => absurd q' q⟩
      obtain ⟨inv2, hq⟩ := h.own i op' t' h1 h2'.1
      refine ⟨inv2, ?_⟩
      dsimp only
      rw [upd_apply, if_neg]
      · exact hq
      · intro q; subst q
        rw [ht] at hq
        cases hq
        have := h2'.2 hn
        omega
    · intro t' idx' hq
      dsimp only at hq
      rw [upd_apply] at hq
      split at hq
      · rename_i q; subst q
        simp only [Thr.idx?, Option.some.injEq] at hq
        subst hq
        exact h.uniq t' _ (by rw [ht]; rfl)
      · exact h.uniq t' idx' hq
    · intro e he; exact (h.hist e he).mono (List.prefix_refl _)
  | returnWrite t op inv idx resp ht hu =>
    have hth := h.thr t
    rw [ht] at hth
    have hun := h.unlocked _ hu
    refine inv_complete h t _ (by intro _ _ _ q; rw [ht] at q; cases q) ?_ ?_ ?_ ?_ ?_
    · have := hth.2.2.1
      simp only [Event.key]; omega
    · intro t' idx' hne hidx heq
      simp only [Event.key] at heq
      have : idx = idx' := by omega
      subst this
      have hth' := h.thr t'
      cases hq : s.thr t' with
      | inLog op' inv' i' =>
        rw [hq] at hth' hidx
        simp only [Thr.idx?, Option.some.injEq] at hidx
        subst hidx
        have := hth'.2.1
        rw [hth.2.1] at this
        cases this
        exact hne rfl
      | responded op' inv' i' r' =>
        rw [hq] at hth' hidx
        simp only [Thr.idx?, Option.some.injEq] at hidx
        subst hidx
        have := hth'.2.1
        rw [hth.2.1] at this
        cases this
        exact hne rfl
      | idle => rw [hq] at hidx; cases hidx
      | wantWrite => rw [hq] at hidx; cases hidx
      | wantRead => rw [hq] at hidx; cases hidx
    · intro _ e' he'
      exact h.uniq t idx (by rw [ht]; rfl) e' he'
    · exact ⟨hth.1, hth.2.2.2.2⟩
    · exact ⟨⟨t, hth.2.1⟩, hth.2.2.2.1⟩
  | read t q inv c ht hu hc =>
    have hth := h.thr t
    rw [ht] at hth
    have hun := h.unlocked _ hu
    refine inv_complete h t _ (by intro _ _ _ q; rw [ht] at q; cases q) ?_ ?_ ?_ ?_ ?_
    · simp only [Event.key]; omega
    · intro t' idx' _ _ heq
      simp only [Event.key] at heq; omega
    · intro hodd; simp only [Event.key] at hodd; omega
    · refine ⟨hth.1, ?_⟩
      intro i e' hi he'
      have := hth.2 i e' hi he'
      have hk : (Event.read q inv (s.reps (node t)).applied
        (o.query (s.reps (node t)).st q) : Event Op R Q A).key
          = 2 * (s.reps (node t)).applied := rfl
      omega
    · refine ⟨(h.rep _).1, ?_⟩
      rw [← (h.rep _).2]

theorem reach_inv {o : Obj S Op R Q A} {node : Nat → Nat} {s : Sys S Op R Q A}
    (h : Reach o node s) : SysInv o node s := by
  induction h with
  | init => exact inv_init o node
  | step _ hs ih => exact inv_step ih hs

/-! ## Property theorems -/

/-- **C12** Replicas that applied the same prefix of the log have equal state, namely the state
of the sequential object after these operations; a replica that is behind gets to that state by
applying the rest. -/
theorem c12_replicas_agree (o : Obj S Op R Q A) (node : Nat → Nat) (s : Sys S Op R Q A)
    (h : Reach o node s) :
    (∀ r, (s.reps r).st = o.run ((s.log.take (s.reps r).applied).map Prod.fst)) ∧
    (∀ r r', (s.reps r).applied = (s.reps r').applied → (s.reps r).st = (s.reps r').st) ∧
    (∀ r r', (s.reps r).applied ≤ (s.reps r').applied →
      (((s.log.take (s.reps r').applied).drop (s.reps r).applied).map Prod.fst).foldl
        (fun st op => (o.apply st op).1) (s.reps r).st = (s.reps r').st) := by
  have hi := reach_inv h
  refine ⟨fun r => (hi.rep r).2, ?_, ?_⟩
  · intro r r' heq
    rw [(hi.rep r).2, (hi.rep r').2, heq]
  · intro r r' hle
    rw [(hi.rep r).2, (hi.rep r').2]
    simp only [Obj.run]
    rw [← List.foldl_append, ← List.map_append]
    congr 2
    have : s.log.take (s.reps r).applied
        = (s.log.take (s.reps r').applied).take (s.reps r).applied := by
      rw [List.take_take, Nat.min_eq_left hle]
    rw [this, List.take_append_drop]

/-- **C12** A response is the sequential object's response at the operation's place in the log,
so it does not depend on the replica that computed it. -/
theorem c12_write_responses (o : Obj S Op R Q A) (node : Nat → Nat) (s : Sys S Op R Q A)
    (h : Reach o node s) (op : Op) (inv idx : Nat) (resp : R)
    (he : Event.write op inv idx resp ∈ s.hist) :
    (∃ t, s.log[idx]? = some (op, t)) ∧
    resp = (o.apply (o.run ((s.log.take idx).map Prod.fst)) op).2 :=
  (reach_inv h).hist _ he

/-- **C13** Linearizability.  Order the completed operations by their key (a write at its log
index, a read just after the last entry it saw).  Then (1) every answer is the sequential
object's answer at that point, (2) an operation that completed before another one was invoked
comes first, and (3) no two writes share a position. -/
theorem c13_linearizable (o : Obj S Op R Q A) (node : Nat → Nat) (s : Sys S Op R Q A)
    (h : Reach o node s) :
    (∀ q inv k ans, Event.read q inv k ans ∈ s.hist →
      k ≤ s.log.length ∧ ans = o.query (o.run ((s.log.take k).map Prod.fst)) q) ∧
    (∀ op inv idx resp, Event.write op inv idx resp ∈ s.hist →
      (∃ t, s.log[idx]? = some (op, t)) ∧
      resp = (o.apply (o.run ((s.log.take idx).map Prod.fst)) op).2) ∧
    (∀ (i j : Nat) (e e' : Event Op R Q A), s.hist[i]? = some e → s.hist[j]? = some e' → i < e'.inv → e.key ≤ e'.key) ∧
    (∀ (i j : Nat) (op op' : Op) (inv inv' idx : Nat) (resp resp' : R),
      s.hist[i]? = some (.write op inv idx resp) →
      s.hist[j]? = some (.write op' inv' idx resp') → i = j) := by
  have hi := reach_inv h
  refine ⟨fun q inv k ans he => hi.hist _ he, fun op inv idx resp he => hi.hist _ he, ?_, ?_⟩
  · intro i j e e' h1 h2 hlt
    exact (hi.hinv j e' h2).2 i e hlt h1
  · intro i j op op' inv inv' idx resp resp' h1 h2
    exact hi.hdist i j _ _ h1 h2 rfl (by simp [Event.key])

/-- **C13** In particular: a read sees every write that completed before the read started. -/
theorem c13_read_sees_completed_writes (o : Obj S Op R Q A) (node : Nat → Nat)
    (s : Sys S Op R Q A) (h : Reach o node s) (i j : Nat) (op : Op) (winv idx : Nat) (resp : R)
    (q : Q) (rinv k : Nat) (ans : A) (h1 : s.hist[i]? = some (.write op winv idx resp))
    (h2 : s.hist[j]? = some (.read q rinv k ans)) (hlt : i < rinv) :
    idx < k ∧ ans = o.query (o.run ((s.log.take k).map Prod.fst)) q ∧
    ∃ t, (op, t) ∈ s.log.take k := by
  obtain ⟨a, b, c, _⟩ := c13_linearizable o node s h
  have hk := c i j _ _ h1 h2 hlt
  simp only [Event.key] at hk
  obtain ⟨⟨t, ht⟩, _⟩ := b _ _ _ _ (List.mem_of_getElem? h1)
  have hk' : idx < k := by omega
  refine ⟨hk', (a _ _ _ _ (List.mem_of_getElem? h2)).2, t, ?_⟩
  apply List.mem_of_getElem? (i := idx)
  rw [List.getElem?_take, if_pos hk']
  exact ht

/-! ## Non-vacuity: a counter on two replicas -/

/-- A counter: add a number (response: the new value), query the value. -/
def counter : Obj Nat Nat Nat Unit Nat := ⟨0, fun s n => (s + n, s + n), fun s _ => s⟩

/-- A completed write on replica 0 followed by a read on replica 1 that had to catch up. -/
example : ∃ s : Sys Nat Nat Nat Unit Nat, Reach counter id s ∧
    s.hist = [.write 5 0 0 5, .read () 1 1 5] ∧ (s.reps 1).st = 5 := by
  have r0 : Reach counter id (Sys.init counter) := Reach.init
  have r1 := r0.step (Step.invokeWrite _ 0 5 rfl)
  have r2 := r1.step (Step.append _ 0 5 0 rfl)
  have r3 := r2.step (Step.lock _ 0 rfl)
  have r4 := r3.step (Step.applyOwn _ 0 1 5 5 0 0 0 rfl (by decide) rfl rfl rfl)
  have r5 := r4.step (Step.unlock _ 0 1 rfl (by decide))
  have r6 := r5.step (Step.returnWrite _ 0 5 0 0 5 rfl rfl)
  have r7 := r6.step (Step.invokeRead _ 1 () rfl)
  have r8 := r7.step (Step.lock _ 1 rfl)
  have r9 := r8.step (Step.applyOther _ 1 1 5 0 rfl (by decide) rfl (by decide))
  have r10 := r9.step (Step.unlock _ 1 1 rfl (by decide))
  have r11 := r10.step (Step.read _ 1 () 1 1 rfl rfl (by decide))
  exact ⟨_, r11, rfl, rfl⟩

end NRK.Nr
