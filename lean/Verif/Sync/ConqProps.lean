import Verif.Sync.ConqLemmas
import Verif.Sync.ConqSpec

/-!
# C87: the queue of the benchmark program
-/

namespace NRK.Sync.Conq

variable {T : Type}

/-- Steps keep the invariant and do not fault. -/
theorem step_inv {s : St T} {own : Nat → Tag} {In Turn Out Free : List (Nat × T)} (i : Inv s own In Turn Out Free) (a : Act T) :
    s.act a ≠ .fault ∧ ∀ s', s.act a = .ok s' → ∃ own In Turn Out Free, Inv s' own In Turn Out Free := by
  cases a with
  | start p x a =>
    simp only [St.act]
    split
    · rename_i h
      refine ⟨nofun, fun s' e => ?_⟩
      cases e
      exact ⟨_, _, _, _, _, i.start x h.1 (Option.isNone_iff_eq_none.1 h.2)⟩
    · exact ⟨nofun, nofun⟩
  | pcas p =>
    simp only [St.act]
    cases hp : s.push p with
    | idle => exact ⟨nofun, nofun⟩
    | check a f => exact ⟨nofun, nofun⟩
    | cas a exp =>
      by_cases h : s.inq = exp
      · simp only [h, if_true]
        refine ⟨nofun, fun s' e => ?_⟩
        cases e
        obtain ⟨x, hx, i'⟩ := i.pcasOk (p := p) (a := a) (by rw [hp, h])
        rw [hx]
        exact ⟨_, _, _, _, _, i'⟩
      · simp only [h, if_false]
        refine ⟨nofun, fun s' e => ?_⟩
        cases e
        exact ⟨_, _, _, _, _, i.pcasFail hp _⟩
  | pcheck p g =>
    simp only [St.act]
    cases hp : s.push p with
    | idle => exact ⟨nofun, nofun⟩
    | cas a f => exact ⟨nofun, nofun⟩
    | check a f =>
      by_cases h : seemsClosed s.heap g f = true
      · simp only [h, if_true]
        refine ⟨nofun, fun s' e => ?_⟩
        cases e
        exact ⟨_, _, _, _, _, i.refuse (by rw [hp]; rfl) _⟩
      · simp only [h]
        refine ⟨nofun, fun s' e => ?_⟩
        cases e
        exact ⟨_, _, _, _, _, i.link hp⟩
  | pop =>
    simp only [St.act]
    split
    · rename_i h
      refine ⟨nofun, fun s' e => ?_⟩
      cases e
      cases ho : s.out with
      | none =>
        simp only [Option.isNone_none, if_true]
        have := i.goto (r := .cas none) (by rw [h]; rfl) (by rw [h]; nofun) (by rw [h]; rfl) (by rw [h]; rfl) nofun (fun _ _ => ho) s.results
        rw [ho] at this
        exact ⟨_, _, _, _, _, this⟩
      | some o =>
        simp only [Option.isNone_some, Bool.false_eq_true, if_false]
        have := i.goto (r := .take) (by rw [h]; rfl) (by rw [h]; nofun) (by rw [h]; rfl) (by rw [h]; rfl) nofun nofun s.results
        rw [ho] at this
        exact ⟨_, _, _, _, _, this⟩
    · exact ⟨nofun, nofun⟩
  | rcas =>
    simp only [St.act]
    cases hr : s.recv with
    | cas head =>
      by_cases h : s.inq = head
      · simp only [h, if_true]
        refine ⟨nofun, fun s' e => ?_⟩
        cases e
        have := i.takeAll (by rw [hr, h])
        rw [h] at this
        exact ⟨_, _, _, _, _, this⟩
      · simp only [h, if_false]
        by_cases hn : s.inq.isNone = true
        · simp only [hn, if_true]
          refine ⟨nofun, fun s' e => ?_⟩
          cases e
          exact ⟨_, _, _, _, _, i.goto (r := .take) (by rw [hr]; rfl) (by rw [hr]; nofun) (by rw [hr]; rfl) (by rw [hr]; rfl) nofun nofun s.results⟩
        · simp only [hn]
          refine ⟨nofun, fun s' e => ?_⟩
          cases e
          exact ⟨_, _, _, _, _, i.goto (r := .cas s.inq) (by rw [hr]; rfl) (by rw [hr]; nofun) (by rw [hr]; rfl) (by rw [hr]; rfl) nofun
            (fun _ _ => i.casOut _ hr) s.results⟩
    | _ => exact ⟨nofun, nofun⟩
  | rturn =>
    simp only [St.act]
    cases hr : s.recv with
    | turn head =>
      cases head with
      | none =>
        refine ⟨nofun, fun s' e => ?_⟩
        cases e
        exact ⟨_, _, _, _, _, i.goto (r := .take) (by rw [hr]; rfl) (by rw [hr]; nofun) (by rw [hr]; rfl) (by rw [hr]; rfl) nofun nofun s.results⟩
      | some h =>
        obtain ⟨x, n, Turn', hx, i'⟩ := i.turnOne hr
        simp only [hx]
        refine ⟨nofun, fun s' e => ?_⟩
        cases e
        exact ⟨_, _, _, _, _, i'⟩
    | _ => exact ⟨nofun, nofun⟩
  | rtake =>
    simp only [St.act]
    cases hr : s.recv with
    | take =>
      cases ho : s.out with
      | none =>
        refine ⟨nofun, fun s' e => ?_⟩
        cases e
        have := i.goto (r := .idle) (by rw [hr]; rfl) (by rw [hr]; nofun) (by rw [hr]; rfl) (by rw [hr]; rfl) nofun nofun (s.results ++ [none])
        exact ⟨_, _, _, _, _, by rw [ho] at this; exact this⟩
      | some h =>
        obtain ⟨x, n, Out', hx, i'⟩ := i.hand hr ho
        simp only [hx]
        refine ⟨nofun, fun s' e => ?_⟩
        cases e
        exact ⟨_, _, _, _, _, i'⟩
    | _ => exact ⟨nofun, nofun⟩
  | drop a =>
    simp only [St.act]
    split
    · rename_i h
      refine ⟨nofun, fun s' e => ?_⟩
      cases e
      exact ⟨_, _, _, _, _, i.dropStart h.1 (Option.isNone_iff_eq_none.1 h.2)⟩
    · exact ⟨nofun, nofun⟩
  | rclose =>
    simp only [St.act]
    cases hr : s.recv with
    | close z head =>
      by_cases h : s.inq = head
      · simp only [h, if_true]
        refine ⟨nofun, fun s' e => ?_⟩
        cases e
        have := i.shut (by rw [hr, h])
        rw [h] at this
        exact ⟨_, _, _, _, _, this⟩
      · simp only [h, if_false]
        refine ⟨nofun, fun s' e => ?_⟩
        cases e
        exact ⟨_, _, _, _, _, i.goto (r := .close z s.inq) (by rw [hr]; rfl) (by intro _; rfl) (by rw [hr]; rfl) (by rw [hr]; rfl)
          (fun z' h' e => by cases e; exact i.closeAt _ _ hr) nofun s.results⟩
    | _ => exact ⟨nofun, nofun⟩
  | rfree =>
    simp only [St.act]
    cases hr : s.recv with
    | free head =>
      cases head with
      | none =>
        refine ⟨nofun, fun s' e => ?_⟩
        cases e
        exact ⟨_, _, _, _, _, i.goto (r := .gone) (by rw [hr]; rfl) (by intro _; rfl) (by rw [hr]; rfl) (by rw [hr]; rfl) nofun nofun s.results⟩
      | some h =>
        obtain ⟨x, n, Free', hx, i'⟩ := i.freeOne hr
        simp only [hx]
        refine ⟨nofun, fun s' e => ?_⟩
        cases e
        exact ⟨_, _, _, _, _, i'⟩
    | _ => exact ⟨nofun, nofun⟩

theorem reach_inv {s : St T} (r : Reach s) : ∃ own In Turn Out Free, Inv s own In Turn Out Free := by
  induction r with
  | init => exact ⟨_, _, _, _, _, Inv.init⟩
  | step a _ h ih =>
    obtain ⟨own, In, Turn, Out, Free, i⟩ := ih
    exact (step_inv i a).2 _ h

/-- **C87** Elements come out in the order in which they went in: none twice, none invented, none overtaken. -/
theorem c87_fifo {s : St T} (r : Reach s) : s.popped <+: s.pushed := by
  obtain ⟨own, In, Turn, Out, Free, i⟩ := reach_inv r
  rw [i.fifo]
  simp only [List.append_assoc]
  exact List.prefix_append _ _

/-- **C87** The receiver never follows a pointer to freed memory, frees nothing twice, and never finds a node without element. -/
theorem c87_receiver_safe {s : St T} (r : Reach s) (a : Act T) : s.act a ≠ .fault := by
  obtain ⟨own, In, Turn, Out, Free, i⟩ := reach_inv r
  exact (step_inv i a).1

/-- What `pop` returned is what was recorded. -/
theorem c87_results {s : St T} (r : Reach s) : s.results.filterMap id = s.popped := by
  induction r with
  | init => rfl
  | @step s s' a _ h ih =>
    cases a with
    | rtake =>
      simp only [St.act] at h
      split at h
      · split at h
        · cases h; simpa using ih
        · split at h
          · cases h; simp [ih]
          · cases h
      · cases h
    | _ =>
      simp only [St.act] at h
      repeat' split at h
      all_goals first
        | (cases h; exact ih)
        | cases h

/-- **C87** `pop` says that there is nothing only if the queue was empty at a moment during the call. -/
theorem c87_none {s : St T} {e : Prop} (r : Seen s e) (h : s.recv = .take ∨ s.recv = .turn none) (ho : s.out = none) : e := by
  have hr : ∀ {s : St T} {e : Prop}, Seen s e → Reach s := by
    intro s e r
    induction r with
    | init => exact .init
    | step a _ h ih => exact .step a ih h
  induction r with
  | init => trivial
  | @step s s' e a r ha ih =>
    obtain ⟨own, In, Turn, Out, Free, i⟩ := reach_inv (hr r)
    have keep : s.recv = s'.recv → s.out = s'.out → e := fun h1 h2 => ih (by rw [h1]; exact h) (by rw [h2]; exact ho)
    cases a with
    | pop =>
      exfalso
      simp only [St.act] at ha
      split at ha
      · cases ha
        simp only at ho h
        rw [ho] at h
        simp at h
      · cases ha
    | rcas =>
      simp only [St.act] at ha
      cases hrc : s.recv with
      | cas head =>
        rw [hrc] at ha
        have hO : Out = [] := by
          have := i.cOut
          rw [i.casOut _ hrc] at this
          exact this.nil
        have hT : Turn = [] := by
          have := i.cTurn
          rw [hrc] at this
          exact this.nil
        have hF : Free = [] := by
          have := i.cFree
          rw [hrc] at this
          exact this.nil
        have hd := i.drop0 (by rw [hrc]; rfl)
        have empty : s.inq = none → s.popped = s.pushed := by
          intro hq
          have := i.cIn (by rw [hrc]; rfl)
          rw [hq] at this
          have hI := this.nil
          rw [i.fifo, hO, hT, hF, hI, hd]
          simp [vals]
        right
        by_cases h1 : s.inq = head
        · simp only [h1, if_true] at ha
          cases ha
          simp only [reduceCtorEq, Recv.turn.injEq, false_or] at h
          exact empty (by rw [h1, h])
        · simp only [h1, if_false] at ha
          by_cases h2 : s.inq.isNone = true
          · simp only [h2, if_true] at ha
            cases ha
            exact empty (Option.isNone_iff_eq_none.1 h2)
          · simp only [h2] at ha
            cases ha
            simp at h
      | _ => rw [hrc] at ha; cases ha
    | rturn =>
      simp only [St.act] at ha
      split at ha
      · rename_i hrc
        cases ha
        left
        exact ⟨ih (.inr hrc) ho, trivial⟩
      · split at ha
        · cases ha; cases ho
        · cases ha
      · cases ha
    | rtake =>
      simp only [St.act] at ha
      repeat' split at ha
      all_goals first
        | (cases ha; simp at h)
        | cases ha
    | drop a =>
      simp only [St.act] at ha
      repeat' split at ha
      all_goals first
        | (cases ha; simp at h)
        | cases ha
    | rclose =>
      simp only [St.act] at ha
      repeat' split at ha
      all_goals first
        | (cases ha; simp at h)
        | cases ha
    | rfree =>
      simp only [St.act] at ha
      repeat' split at ha
      all_goals first
        | (cases ha; simp at h)
        | cases ha
    | _ =>
      simp only [St.act] at ha
      repeat' split at ha
      all_goals first
        | (cases ha; exact .inl ⟨keep rfl rfl, trivial⟩)
        | cases ha

/-- Every execution is one that `c87_none` speaks of. -/
theorem c87_seen {s : St T} (r : Reach s) : ∃ e, Seen s e := by
  induction r with
  | init => exact ⟨_, .init⟩
  | step a _ h ih =>
    obtain ⟨e, he⟩ := ih
    exact ⟨_, .step a he h⟩

/-- **C87** A call of `push` carries its element until it returns; when it returns, the element has been put in, or it was given
up. -/
theorem c87_push {s s' : St T} (r : Reach s) {a : Act T} (ha : s.act a = .ok s') {p : Nat} {x : T} (hp : Pushing s p x) :
    Pushing s' p x ∨ (s'.push p = .idle ∧ s'.pushed = s.pushed ++ [x] ∧ s'.refused = s.refused) ∨
    (s'.push p = .idle ∧ s'.pushed = s.pushed ∧ s'.refused = s.refused ++ [x]) := by
  obtain ⟨own, In, Turn, Out, Free, i⟩ := reach_inv r
  obtain ⟨b, hb, hx⟩ := hp
  have hbn : (s.push p).node = some b := by
    obtain ⟨e, h | h⟩ := hb <;> rw [h] <;> rfl
  have hown := (i.priv p b).2 hbn
  have keep : ∀ {c : Nat}, own c ≠ .priv p → b ≠ c := fun hc e => hc (by rw [← e, hown])
  -- another sender's or the receiver's step on the node `c`
  have other : ∀ (c : Nat) (v : Option (Node T)), own c ≠ .priv p → ((upd s.heap c v) b).bind Node.elem = some x := by
    intro c v hc
    simpa [upd, keep hc] using hx
  cases a with
  | start q y c =>
    simp only [St.act] at ha
    split at ha
    · rename_i hq
      cases ha
      left
      have hpq : p ≠ q := fun e => by
        rw [e, hq.1] at hbn
        cases hbn
      refine ⟨b, by simpa [upd, hpq] using hb, other c _ ?_⟩
      rw [(i.hfree c).2 (Option.isNone_iff_eq_none.1 hq.2)]
      nofun
    · cases ha
  | pcas q =>
    simp only [St.act] at ha
    by_cases hpq : p = q
    · subst hpq
      obtain ⟨e, h | h⟩ := hb
      · rw [h] at ha
        by_cases he : s.inq = e
        · simp only [he, if_true] at ha
          cases ha
          right; left
          exact ⟨by simp [upd], by simp [hx], rfl⟩
        · simp only [he, if_false] at ha
          cases ha
          left
          exact ⟨b, ⟨s.inq, .inr (by simp [upd])⟩, hx⟩
      · rw [h] at ha
        cases ha
    · repeat' split at ha
      all_goals first
        | (cases ha; exact .inl ⟨b, by simpa [upd, hpq] using hb, hx⟩)
        | cases ha
  | pcheck q g =>
    simp only [St.act] at ha
    by_cases hpq : p = q
    · subst hpq
      obtain ⟨e, h | h⟩ := hb
      · rw [h] at ha
        cases ha
      · rw [h] at ha
        by_cases he : seemsClosed s.heap g e = true
        · simp only [he, if_true] at ha
          cases ha
          right; right
          exact ⟨by simp [upd], rfl, by simp [hx]⟩
        · simp only [he] at ha
          cases ha
          left
          refine ⟨b, ⟨e, .inl (by simp [upd])⟩, ?_⟩
          cases hh : s.heap b with
          | none => rw [hh] at hx; cases hx
          | some n => rw [hh] at hx; simpa [upd, hh] using hx
    · cases hq : s.push q with
      | check c f =>
        have hc : own c ≠ .priv p := by
          rw [(i.priv q c).2 (by rw [hq]; rfl)]
          intro e
          cases e
          exact hpq rfl
        rw [hq] at ha
        simp only at ha
        repeat' split at ha
        all_goals (cases ha; exact .inl ⟨b, by simpa [upd, hpq] using hb, other c _ hc⟩)
      | _ => rw [hq] at ha; cases ha
  | rturn =>
    simp only [St.act] at ha
    split at ha
    · cases ha; exact .inl ⟨b, hb, hx⟩
    · rename_i c hrc
      split at ha
      · cases ha
        refine .inl ⟨b, hb, other c _ ?_⟩
        obtain ⟨y, T', n, e, _⟩ := Chain.cons (by have := i.cTurn; rw [hrc] at this; exact this)
        rw [(i.mTurn c).1 (by rw [e]; simp [adrs])]
        nofun
      · cases ha
    · cases ha
  | rtake =>
    simp only [St.act] at ha
    split at ha
    · split at ha
      · cases ha; exact .inl ⟨b, hb, hx⟩
      · rename_i c hoc
        split at ha
        · cases ha
          refine .inl ⟨b, hb, other c _ ?_⟩
          obtain ⟨y, T', n, e, _⟩ := Chain.cons (by have := i.cOut; rw [hoc] at this; exact this)
          rw [(i.mOut c).1 (by rw [e]; simp [adrs])]
          nofun
        · cases ha
    · cases ha
  | drop c =>
    simp only [St.act] at ha
    split at ha
    · rename_i hq
      cases ha
      refine .inl ⟨b, hb, other c _ ?_⟩
      rw [(i.hfree c).2 (Option.isNone_iff_eq_none.1 hq.2)]
      nofun
    · cases ha
  | rfree =>
    simp only [St.act] at ha
    split at ha
    · cases ha; exact .inl ⟨b, hb, hx⟩
    · rename_i c hrc
      split at ha
      · cases ha
        refine .inl ⟨b, hb, other c _ ?_⟩
        obtain ⟨y, T', n, e, _⟩ := Chain.cons (by have := i.cFree; rw [hrc] at this; exact this)
        rw [(i.mFree c).1 (by rw [e]; simp [adrs])]
        nofun
      · cases ha
    · cases ha
  | _ =>
    simp only [St.act] at ha
    repeat' split at ha
    all_goals first
      | (cases ha; exact .inl ⟨b, hb, hx⟩)
      | cases ha

/-- A call of `push` begins with its element. -/
theorem c87_push_begins {s s' : St T} {p a : Nat} {x : T} (h : s.act (.start p x a) = .ok s') : Pushing s' p x := by
  simp only [St.act] at h
  split at h
  · cases h
    exact ⟨a, ⟨none, .inl (by simp [upd])⟩, by simp [upd]⟩
  · cases h

/-- **C87** In executions that do not read freed memory, no element is given up while the receiver is there. -/
theorem c87_accepted_partial {s : St T} (r : CleanReach s) (h : s.refused ≠ []) : Ended s := by
  have hr : ∀ {s : St T}, CleanReach s → Reach s := by
    intro s r
    induction r with
    | init => exact .init
    | step a _ _ h ih => exact .step a ih h
  have ended : ∀ {s : St T}, s.recv.ending = true → Ended s := by
    intro s he
    unfold Ended
    cases hq : s.recv with
    | close z h => exact .inl ⟨z, h, rfl⟩
    | free h => exact .inr (.inl ⟨h, rfl⟩)
    | gone => exact .inr (.inr rfl)
    | _ => rw [hq] at he; cases he
  have stays : ∀ {s s' : St T} {a : Act T}, s.act a = .ok s' → Ended s → Ended s' := by
    intro s s' a ha he
    unfold Ended at he
    apply ended
    cases a with
    | start p x a => simp only [St.act] at ha; split at ha <;> cases ha; rcases he with ⟨z, h, he⟩ | ⟨h, he⟩ | he <;> simp [he, Recv.ending]
    | _ =>
      simp only [St.act] at ha
      rcases he with ⟨z, h, he⟩ | ⟨h, he⟩ | he <;> rw [he] at ha <;> (repeat' split at ha) <;>
        first
          | (exfalso; simp_all; done)
          | (cases ha; first | rfl | (simp [Recv.ending, he]; done))
          | cases ha
  induction r with
  | init => exact absurd rfl h
  | @step s s' a r hcl ha ih =>
    by_cases hs : s.refused = []
    · obtain ⟨own, In, Turn, Out, Free, i⟩ := reach_inv (hr r)
      cases a with
      | pcheck p g =>
        have ha' := ha
        simp only [St.act] at ha
        cases hq : s.push p with
        | check a f =>
          rw [hq] at ha
          by_cases he : seemsClosed s.heap g f = true
          · refine stays ha' (ended ?_)
            cases f with
            | none => cases he
            | some b =>
              have hb := hcl a b hq
              simp only [seemsClosed] at he
              cases hh : s.heap b with
              | none => exact absurd hh hb
              | some n =>
                rw [hh] at he
                have hn : n.elem = none := Option.isNone_iff_eq_none.1 he
                have no : ∀ x m, s.heap b ≠ some ⟨some x, m⟩ := fun x m e => by
                  rw [hh] at e
                  cases e
                  cases hn
                cases ho : own b with
                | last => exact i.lastAt b ho
                | free => rw [(i.hfree b).1 ho] at hh; cases hh
                | inq =>
                  cases hc : s.recv.closed with
                  | false =>
                    obtain ⟨x, m, e⟩ := (i.cIn hc).elem ((i.mIn b).2 ho)
                    exact absurd e (no x m)
                  | true =>
                    obtain ⟨z, hz, _⟩ := i.cClosed hc
                    exact i.lastAt z hz
                | turn =>
                  obtain ⟨x, m, e⟩ := i.cTurn.elem ((i.mTurn b).2 ho)
                  exact absurd e (no x m)
                | out =>
                  obtain ⟨x, m, e⟩ := i.cOut.elem ((i.mOut b).2 ho)
                  exact absurd e (no x m)
                | frees =>
                  obtain ⟨x, m, e⟩ := i.cFree.elem ((i.mFree b).2 ho)
                  exact absurd e (no x m)
                | priv q =>
                  have hqn := (i.priv q b).1 ho
                  cases hp : s.push q with
                  | idle => rw [hp] at hqn; cases hqn
                  | cas c f =>
                    rw [hp] at hqn
                    cases hqn
                    obtain ⟨x, e⟩ := i.casOk q _ _ hp
                    exact absurd e (no x _)
                  | check c f =>
                    rw [hp] at hqn
                    cases hqn
                    obtain ⟨x, m, e⟩ := i.chkOk q _ _ hp
                    exact absurd e (no x m)
          · simp only [he] at ha
            cases ha
            exact absurd hs h
        | _ => rw [hq] at ha; cases ha
      | _ =>
        exfalso
        apply h
        rw [← hs]
        simp only [St.act] at ha
        repeat' split at ha
        all_goals first
          | (cases ha; rfl)
          | cases ha
    · exact stays ha (ih hs)

/-- **C87** When nobody is in a call, memory holds exactly one node for each element that is in the queue. -/
theorem c87_no_leak {s : St T} (r : Reach s) (hr : s.recv = .idle) (hp : ∀ p, s.push p = .idle) :
    ∃ l : List Nat, l.Nodup ∧ (∀ a, a ∈ l ↔ s.heap a ≠ none) ∧ s.popped.length + l.length = s.pushed.length := by
  obtain ⟨own, In, Turn, Out, Free, i⟩ := reach_inv r
  have hT : Turn = [] := by
    have := i.cTurn
    rw [hr] at this
    exact this.nil
  have hF : Free = [] := by
    have := i.cFree
    rw [hr] at this
    exact this.nil
  subst hT hF
  refine ⟨adrs Out ++ adrs In, ?_, ?_, ?_⟩
  · rw [List.nodup_append]
    refine ⟨i.nOut, i.nIn, ?_⟩
    intro a ha b hb e
    subst e
    have := (i.mOut a).1 ha
    rw [(i.mIn a).1 hb] at this
    cases this
  · intro a
    rw [List.mem_append, i.mOut, i.mIn, ne_eq, ← i.hfree a]
    cases ho : own a with
    | free => simp
    | inq => simp
    | out => simp
    | turn => have := (i.mTurn a).2 ho; cases this
    | frees => have := (i.mFree a).2 ho; cases this
    | priv p =>
      have := (i.priv p a).1 ho
      rw [hp p] at this
      cases this
    | last =>
      have := i.lastAt a ho
      rw [hr] at this
      cases this
  · rw [i.fifo, i.drop0 (by rw [hr]; rfl)]
    simp only [vals, adrs, List.length_append, List.length_map, List.length_reverse, List.length_nil, List.map_nil, List.reverse_nil]
    omega

/-! ## Witnesses -/

theorem run_reach : ∀ (l : List (Act T)) {s s' : St T}, Reach s → s.run l = .ok s' → Reach s' := by
  intro l
  induction l with
  | nil => intro s s' r h; cases h; exact r
  | cons a l ih =>
    intro s s' r h
    simp only [St.run] at h
    cases ha : s.act a with
    | ok s1 => rw [ha] at h; exact ih (.step a r ha) h
    | no => rw [ha] at h; cases h
    | fault => rw [ha] at h; cases h

/-- A decidable view of a run. -/
def Ran.view (r : Ran Nat) : Option (List Nat × List (Option Nat) × List Nat × List Nat × Recv) :=
  match r with
  | .ok s => some (s.pushed, s.results, s.refused, s.dropped, s.recv)
  | _ => none

/-- Two senders and the receiver at once; everything comes out in order, and then the queue is empty. -/
theorem sample87 : (St.init.run [.start 1 10 0, .start 2 20 1, .pcas 2, .pcas 1, .pcheck 1 false, .pcas 1, .start 2 30 5, .pop, .rcas, .rcas,
    .rturn, .pcas 2, .rturn, .rturn, .rtake, .pop, .rtake, .pop, .rcas, .rcas, .rturn, .rturn, .rtake, .pop, .rcas, .rturn, .rtake]).view =
    some ([20, 10, 30], [some 20, some 10, some 30, none], [], [], .idle) := by decide

/-- **C87** Witness: a sender looks at a node that the receiver has freed meanwhile; if the memory looks like a node without
element, the element is lost although the receiver is there. -/
theorem c87_use_after_free :
    ∃ s : St Nat, Reach s ∧ s.push 2 = .check 1 (some 0) ∧ s.heap 0 = none ∧
    (s.act (.pcheck 2 true)).view = some ([10], [some 10], [20], [], .idle) := by
  cases h : (St.init (T := Nat)).run [.start 1 10 0, .pcas 1, .start 2 20 1, .pcas 2, .pop, .rcas, .rcas, .rturn, .rturn, .rtake] with
  | ok s =>
    refine ⟨s, run_reach _ .init h, ?_⟩
    cases h
    exact ⟨rfl, rfl, rfl⟩
  | no => cases h
  | fault => cases h

/-- **C87** Witness: dropping the receiver forgets the elements it has taken but not handed out; their nodes stay in memory. -/
theorem c87_drop_leaks : ∃ s : St Nat, Reach s ∧ s.recv = .gone ∧ s.dropped = [] ∧ s.popped = [10] ∧ s.pushed = [10, 20] ∧
    s.heap 1 = some ⟨some 20, none⟩ := by
  cases h : (St.init (T := Nat)).run [.start 1 10 0, .pcas 1, .start 1 20 1, .pcas 1, .pcheck 1 false, .pcas 1, .pop, .rcas, .rcas, .rturn, .rturn,
    .rturn, .rtake, .drop 7, .rclose, .rfree] with
  | ok s =>
    refine ⟨s, run_reach _ .init h, ?_⟩
    cases h
    exact ⟨rfl, rfl, rfl, rfl, rfl⟩
  | no => cases h
  | fault => cases h

/-- **C87** Witness: the last node can get the address of a node that a sender has seen; the sender then puts its element in front
of the last node, where nobody will take it or free it. -/
theorem c87_after_close : ∃ s : St Nat, Reach s ∧ s.recv = .gone ∧ s.pushed = [10, 20] ∧ s.popped = [10] ∧ s.inq = some 1 ∧
    s.heap 1 = some ⟨some 20, some 0⟩ := by
  cases h : (St.init (T := Nat)).run [.start 1 10 0, .pcas 1, .start 2 20 1, .pcas 2, .pcheck 2 false, .pop, .rcas, .rcas, .rturn, .rturn, .rtake,
    .drop 0, .rclose, .rfree, .pcas 2] with
  | ok s =>
    refine ⟨s, run_reach _ .init h, ?_⟩
    cases h
    exact ⟨rfl, rfl, rfl, rfl, rfl⟩
  | no => cases h
  | fault => cases h

end NRK.Sync.Conq
