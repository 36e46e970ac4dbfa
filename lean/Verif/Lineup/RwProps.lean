import Verif.Lineup.RwLemmas

/-!
# Property C50: the user-level reader-writer lock
-/

namespace NRK.Lineup.Rw

open NRK.Sync

/-! ## Specification -/

/-- The thread has acquired the lock for writing (by `enter`, `try_enter` or `try_upgrade`) and has
not begun to leave or downgrade it. -/
def Writer (s : St) (t : Nat) : Prop := s.pc t = .write

/-- The thread has acquired the lock for reading (by `enter`, `try_enter` or `downgrade`) and has
not begun to leave or upgrade it. -/
def Reader (s : St) (t : Nat) : Prop := s.pc t = .read

/-- The thread is in the middle of `downgrade`. -/
def Downgrading (s : St) (t : Nat) : Prop := s.pc t = .dSet ∨ s.pc t = .dAdd ∨ s.pc t = .dAcc

/-- The thread's `try_upgrade` has succeeded but not returned. -/
def Upgrading (s : St) (t : Nat) : Prop := s.pc t = .uSet

/-- The next step of the thread is possible. -/
def Moves (n : Nat) (s : St) (t : Nat) : Prop := ∃ s', Step n s s' ∧ s'.pc t ≠ s.pc t

/-! ## Theorems -/

/-- C50: while a thread holds the lock for writing, or downgrades or upgrades it, no other thread
holds it for writing or reading, nor is any other downgrading or upgrading. -/
theorem c50_writer_alone {n : Nat} {s : St} (r : Reach n s) {t u : Nat} (hu : u ≠ t)
    (h : Writer s t ∨ Downgrading s t ∨ Upgrading s t) :
    ¬ Writer s u ∧ ¬ Reader s u ∧ ¬ Downgrading s u ∧ ¬ Upgrading s u := by
  have I := r.inv
  have he : (s.pc t).excl = true := by
    rcases h with h | (h | h | h) | h <;> rw [h] <;> rfl
  have ha := I.alone t u (Ne.symm hu) he
  refine ⟨?_, ?_, ?_, ?_⟩
  · intro h; rw [h] at ha; cases ha.1
  · intro h; rw [h] at ha; cases ha.2
  · rintro (h | h | h) <;> rw [h] at ha <;> cases ha.1
  · intro h; rw [h] at ha; cases ha.1

/-- C50: `held` answers truthfully for the threads that hold the lock. -/
theorem c50_held {n : Nat} {s : St} (r : Reach n s) (t : Nat) :
    (Writer s t → s.heldWrite = true ∧ s.heldRead = false) ∧
    (Reader s t → s.heldRead = true ∧ s.heldWrite = false) := by
  have I := r.inv
  constructor
  · intro h
    have := I.typeW t (by rw [h]; rfl)
    simp [St.heldWrite, St.heldRead, this]
  · intro h
    have := I.typeR t (by rw [h]; rfl)
    simp [St.heldWrite, St.heldRead, this]

/-- C50: a successful `try_upgrade` was by the only reader. -/
theorem c50_upgrade {n : Nat} {s s' : St} (r : Reach n s) (st : Step n s s') {t : Nat}
    (h : s.pc t = .uCas) (h' : s'.pc t ≠ .uCas) :
    (Upgrading s' t ↔ s.readers = 1) ∧ (Upgrading s' t → ∀ u, u ≠ t → ¬ Reader s u) := by
  have I := r.inv
  have ht : t < n := I.counted_lt (by rw [h]; nofun)
  have one : s.readers = 1 → ∀ u, u ≠ t → ¬ Reader s u := by
    intro h1 u e hr
    have := (I.only_counted ht h1 (by rw [h]; rfl) u e).1
    rw [hr] at this; cases this
  have other : ∀ a p, s.pc a ≠ .uCas → upd s.pc a p t = .uCas := by
    intro a p ha
    have e : t ≠ a := by intro e; subst e; exact ha h
    rw [upd_other _ _ e]; exact h
  cases st with
  | uCas a ha hp h1 =>
    by_cases e : a = t
    · subst e
      refine ⟨⟨fun _ => h1, fun _ => upd_same ..⟩, fun _ => one h1⟩
    · exact absurd (show upd s.pc a .uSet t = .uCas by rw [upd_other _ _ (Ne.symm e)]; exact h) h'
  | uFail a ha hp h1 =>
    by_cases e : a = t
    · subst e
      have hn : ¬ Upgrading (s.to a .read) a := by
        intro hx; have hx : upd s.pc a .read a = .uSet := hx; rw [upd_same] at hx; cases hx
      exact ⟨⟨fun hx => absurd hx hn, fun hx => absurd hx h1⟩, fun hx => absurd hx hn⟩
    · exact absurd (show upd s.pc a .read t = .uCas by rw [upd_other _ _ (Ne.symm e)]; exact h) h'
  | xLoadWrite a ha hp | xLoadOther a ha hp =>
    exact absurd (other a _ (by rcases hp with hp | hp <;> rw [hp] <;> nofun)) h'
  | trCas a v ha hp | trFail a v ha hp => exact absurd (other a _ (by rw [hp]; nofun)) h'
  | _ => exact absurd (other _ _ (by simp only [*]; nofun)) h'

/-- C50: nobody is left behind.  Whenever a thread is inside an operation of the lock, some thread
holds the lock or can make a step (unless a `try_enter` has panicked). -/
theorem c50_progress {n : Nat} {s : St} (r : Reach n s) (hp : ∀ u, s.pc u ≠ .panic) {t : Nat}
    (h : s.pc t ≠ .idle) : ∃ u, Writer s u ∨ Reader s u ∨ (s.pc u ≠ .idle ∧ Moves n s u) := by
  have I := r.inv
  have mv : ∀ (u : Nat) (p : Pc) (s' : St), Step n s s' → s'.pc u = p → p ≠ s.pc u →
      s.pc u ≠ .idle → ∃ u, Writer s u ∨ Reader s u ∨ (s.pc u ≠ .idle ∧ Moves n s u) :=
    fun u p s' st e1 e2 e3 => ⟨u, .inr (.inr ⟨e3, s', st, by rw [e1]; exact e2⟩)⟩
  -- a thread that is not waiting for `wait` or `access` can go on
  have key : ∀ u, s.pc u ≠ .idle → s.pc u ≠ .wWait → s.pc u ≠ .rWait →
      (s.pc u ≠ .wAcc ∨ s.access = false) → (s.pc u ≠ .rAcc ∨ s.access = false) →
      ∃ u, Writer s u ∨ Reader s u ∨ (s.pc u ≠ .idle ∧ Moves n s u) := by
    intro u h1 h2 h3 h4 h5
    have hu : u < n := I.counted_lt h1
    cases hpc : s.pc u with
    | idle => exact absurd hpc h1
    | wWait => exact absurd hpc h2
    | rWait => exact absurd hpc h3
    | panic => exact absurd hpc (hp u)
    | write => exact ⟨u, .inl hpc⟩
    | read => exact ⟨u, .inr (.inl hpc)⟩
    | wAcc =>
      rcases h4 with h4 | h4
      · exact absurd hpc h4
      · exact mv u _ _ (.wAcc s u hu hpc h4) (upd_same ..) (by rw [hpc]; nofun) h1
    | rAcc =>
      rcases h5 with h5 | h5
      · exact absurd hpc h5
      · exact mv u _ _ (.rAcc s u hu hpc h5) (upd_same ..) (by rw [hpc]; nofun) h1
    | wSet => exact mv u _ _ (.wSet s u hu hpc) (upd_same ..) (by rw [hpc]; nofun) h1
    | wOut => exact mv u _ _ (.wOut s u hu hpc) (upd_same ..) (by rw [hpc]; nofun) h1
    | rAdd =>
      by_cases h0 : s.readers = 0
      · exact mv u _ _ (.rAddFirst s u hu hpc h0) (upd_same ..) (by rw [hpc]; nofun) h1
      · exact mv u _ _ (.rAddMore s u hu hpc h0) (upd_same ..) (by rw [hpc]; nofun) h1
    | rSet => exact mv u _ _ (.rSet s u hu hpc) (upd_same ..) (by rw [hpc]; nofun) h1
    | rOut => exact mv u _ _ (.rOut s u hu hpc) (upd_same ..) (by rw [hpc]; nofun) h1
    | twWait =>
      by_cases h0 : s.wait = none
      · exact mv u _ _ (.twWait s u hu hpc h0) (upd_same ..) (by rw [hpc]; nofun) h1
      · exact mv u _ _ (.twBusy s u hu hpc h0) (upd_same ..) (by rw [hpc]; nofun) h1
    | trWait =>
      by_cases h0 : s.wait = none
      · exact mv u _ _ (.trWait s u hu hpc h0) (upd_same ..) (by rw [hpc]; nofun) h1
      · exact mv u _ _ (.trBusy s u hu hpc h0) (upd_same ..) (by rw [hpc]; nofun) h1
    | twAcc =>
      by_cases ho : s.accOwner = some u
      · exact mv u _ _ (.twOwn s u hu hpc ho) (upd_same ..) (by rw [hpc]; nofun) h1
      · cases ha : s.access with
        | false => exact mv u _ _ (.twAcc s u hu hpc ho ha) (upd_same ..) (by rw [hpc]; nofun) h1
        | true => exact mv u _ _ (.twHeld s u hu hpc ho ha) (upd_same ..) (by rw [hpc]; nofun) h1
    | trLoad => exact mv u _ _ (.trLoad s u hu hpc) (upd_same ..) (by rw [hpc]; nofun) h1
    | trTry v =>
      cases v with
      | zero =>
        by_cases ho : s.accOwner = some u
        · exact mv u _ _ (.trOwn s u hu hpc ho) (upd_same ..) (by rw [hpc]; nofun) h1
        · cases ha : s.access with
          | false => exact mv u _ _ (.trAcc s u hu hpc ho ha) (upd_same ..) (by rw [hpc]; nofun) h1
          | true => exact mv u _ _ (.trHeld s u hu hpc ho ha) (upd_same ..) (by rw [hpc]; nofun) h1
      | succ v =>
        by_cases h0 : s.readers = v + 1
        · exact mv u _ _ (.trCas s u v hu hpc h0) (upd_same ..) (by rw [hpc]; nofun) h1
        · exact mv u _ _ (.trFail s u v hu hpc h0) (upd_same ..)
            (by rw [hpc]; intro e; exact h0 (Pc.trTry.inj e)) h1
    | trStore => exact mv u _ _ (.trStore s u hu hpc) (upd_same ..) (by rw [hpc]; nofun) h1
    | trSet => exact mv u _ _ (.trSet s u hu hpc) (upd_same ..) (by rw [hpc]; nofun) h1
    | tfOut => exact mv u _ _ (.tfOut s u hu hpc) (upd_same ..) (by rw [hpc]; nofun) h1
    | xLoadW =>
      exact mv u _ _ (.xLoadWrite s u hu (.inl hpc) (I.typeW u (by rw [hpc]; rfl))) (upd_same ..)
        (by rw [hpc]; nofun) h1
    | xLoadR =>
      have := I.typeR u (by rw [hpc]; rfl)
      exact mv u _ _ (.xLoadOther s u hu (.inr hpc) (by rw [this]; nofun)) (upd_same ..)
        (by rw [hpc]; nofun) h1
    | xSub =>
      by_cases h0 : s.readers = 1
      · exact mv u _ _ (.xSubLast s u hu hpc h0) (upd_same ..) (by rw [hpc]; nofun) h1
      · exact mv u _ _ (.xSubMore s u hu hpc h0) (upd_same ..) (by rw [hpc]; nofun) h1
    | xFree => exact mv u _ _ (.xFree s u hu hpc) (upd_same ..) (by rw [hpc]; nofun) h1
    | xAcc =>
      exact mv u _ _ (.xAcc s u hu hpc (I.excl_access (t := u) (by rw [hpc]; rfl))) (upd_same ..)
        (by rw [hpc]; nofun) h1
    | dSet => exact mv u _ _ (.dSet s u hu hpc) (upd_same ..) (by rw [hpc]; nofun) h1
    | dAdd =>
      by_cases h0 : s.readers = 0
      · exact mv u _ _ (.dAddFirst s u hu hpc h0) (upd_same ..) (by rw [hpc]; nofun) h1
      · exact mv u _ _ (.dAddMore s u hu hpc h0) (upd_same ..) (by rw [hpc]; nofun) h1
    | dAcc =>
      exact mv u _ _ (.dAcc s u hu hpc (I.excl_access (t := u) (by rw [hpc]; rfl))) (upd_same ..)
        (by rw [hpc]; nofun) h1
    | uCas =>
      by_cases h0 : s.readers = 1
      · exact mv u _ _ (.uCas s u hu hpc h0) (upd_same ..) (by rw [hpc]; nofun) h1
      · exact mv u _ _ (.uFail s u hu hpc h0) (upd_same ..) (by rw [hpc]; nofun) h1
    | uSet => exact mv u _ _ (.uSet s u hu hpc) (upd_same ..) (by rw [hpc]; nofun) h1
  -- whoever is waited for can go on
  have acc : s.access = true → ∃ u, Writer s u ∨ Reader s u ∨ (s.pc u ≠ .idle ∧ Moves n s u) := by
    intro ha
    rcases I.access.1 ha with ⟨u, hu⟩ | ⟨⟨u, hu⟩, _⟩
    · refine key u ?_ ?_ ?_ ?_ ?_
      · intro e; rw [e] at hu; cases hu
      · intro e; rw [e] at hu; cases hu
      · intro e; rw [e] at hu; cases hu
      · left; intro e; rw [e] at hu; cases hu
      · left; intro e; rw [e] at hu; cases hu
    · refine key u ?_ ?_ ?_ ?_ ?_
      · intro e; rw [e] at hu; cases hu
      · intro e; rw [e] at hu; cases hu
      · intro e; rw [e] at hu; cases hu
      · left; intro e; rw [e] at hu; cases hu
      · left; intro e; rw [e] at hu; cases hu
  cases ha : s.access with
  | true => exact acc ha
  | false =>
    have wt : s.wait ≠ none → ∃ u, Writer s u ∨ Reader s u ∨ (s.pc u ≠ .idle ∧ Moves n s u) := by
      intro hw
      cases hv : s.wait with
      | none => exact absurd hv hw
      | some u =>
        have hu := (I.wait u).1 hv
        refine key u ?_ ?_ ?_ (.inr ha) (.inr ha)
        · intro e; rw [e] at hu; cases hu
        · intro e; rw [e] at hu; cases hu
        · intro e; rw [e] at hu; cases hu
    by_cases h1 : s.pc t = .wWait
    · by_cases hw : s.wait = none
      · exact mv t _ _ (.wWait s t (I.counted_lt h) h1 hw) (upd_same ..) (by rw [h1]; nofun) h
      · exact wt hw
    · by_cases h2 : s.pc t = .rWait
      · by_cases hw : s.wait = none
        · exact mv t _ _ (.rWait s t (I.counted_lt h) h2 hw) (upd_same ..) (by rw [h2]; nofun) h
        · exact wt hw
      · exact key t h h1 h2 (.inr ha) (.inr ha)

/-- C50: only `try_enter` can panic; `exit` and `downgrade` never find the inner mutex free. -/
theorem c50_panic_only_in_try_enter {n : Nat} {s s' : St} (r : Reach n s) (st : Step n s s')
    {t : Nat} (h : s.pc t ≠ .panic) (h' : s'.pc t = .panic) :
    s.pc t = .twAcc ∨ s.pc t = .trTry 0 := by
  have I := r.inv
  have no : ∀ (a : Nat) (p : Pc), p ≠ .panic → upd s.pc a p t ≠ .panic := by
    intro a p hp
    by_cases e : t = a
    · subst e; rw [upd_same]; exact hp
    · rw [upd_other _ _ e]; exact h
  cases st with
  | twOwn a ha hp ho =>
    by_cases e : t = a
    · subst e; exact .inl hp
    · exact absurd (show upd s.pc a .panic t = .panic from h') (by rw [upd_other _ _ e]; exact h)
  | trOwn a ha hp ho =>
    by_cases e : t = a
    · subst e; exact .inr hp
    · exact absurd (show upd s.pc a .panic t = .panic from h') (by rw [upd_other _ _ e]; exact h)
  | xAccFree a ha hp hf =>
    have := I.excl_access (t := a) (by rw [hp]; rfl); rw [hf] at this; cases this
  | dAccFree a ha hp hf =>
    have := I.excl_access (t := a) (by rw [hp]; rfl); rw [hf] at this; cases this
  | _ => exact absurd h' (no _ _ nofun)

/-! ## Witnesses -/

/-- Non-vacuity: two readers; then one leaves, the other upgrades while a third thread waits, and
downgrades again, so that two threads read. -/
example : ∃ s, Reach 3 s ∧ Reader s 1 ∧ Reader s 2 := by
  have r := Reach.init (n := 3)
  have r := r.step (.enterR _ 0 (by decide) rfl)
  have r := r.step (.rWait _ 0 (by decide) rfl rfl)
  have r := r.step (.rAddFirst _ 0 (by decide) rfl rfl)
  have r := r.step (.rAcc _ 0 (by decide) rfl rfl)
  have r := r.step (.rSet _ 0 (by decide) rfl)
  have r := r.step (.rOut _ 0 (by decide) rfl)
  have r := r.step (.enterR _ 1 (by decide) rfl)
  have r := r.step (.rWait _ 1 (by decide) rfl rfl)
  have r := r.step (.rAddMore _ 1 (by decide) rfl nofun)
  have r := r.step (.rOut _ 1 (by decide) rfl)
  have r := r.step (.exitR _ 0 (by decide) rfl)
  have r := r.step (.xLoadOther _ 0 (by decide) (.inr rfl) nofun)
  have r := r.step (.xSubMore _ 0 (by decide) rfl nofun)
  have r := r.step (.upgrade _ 1 (by decide) rfl)
  have r := r.step (.uCas _ 1 (by decide) rfl rfl)
  have r := r.step (.uSet _ 1 (by decide) rfl)
  have r := r.step (.enterR _ 2 (by decide) rfl)
  have r := r.step (.rWait _ 2 (by decide) rfl rfl)
  have r := r.step (.rAddFirst _ 2 (by decide) rfl rfl)
  have r := r.step (.downgrade _ 1 (by decide) rfl)
  have r := r.step (.dSet _ 1 (by decide) rfl)
  have r := r.step (.dAddMore _ 1 (by decide) rfl nofun)
  have r := r.step (.dAcc _ 1 (by decide) rfl rfl)
  have r := r.step (.rAcc _ 2 (by decide) rfl rfl)
  have r := r.step (.rSet _ 2 (by decide) rfl)
  have r := r.step (.rOut _ 2 (by decide) rfl)
  exact ⟨_, r, rfl, rfl⟩

/-- Non-vacuity: a writer while another thread is inside `enter`. -/
example : ∃ s, Reach 2 s ∧ Writer s 0 ∧ s.pc 1 = .wAcc := by
  have r := Reach.init (n := 2)
  have r := r.step (.enterW _ 0 (by decide) rfl)
  have r := r.step (.wWait _ 0 (by decide) rfl rfl)
  have r := r.step (.wAcc _ 0 (by decide) rfl rfl)
  have r := r.step (.wSet _ 0 (by decide) rfl)
  have r := r.step (.wOut _ 0 (by decide) rfl)
  have r := r.step (.enterW _ 1 (by decide) rfl)
  have r := r.step (.wWait _ 1 (by decide) rfl rfl)
  exact ⟨_, r, rfl, rfl⟩

/-- Finding.  `try_enter` panics ("Locking mutex against itself") when the calling thread was the
first reader and has left while another still reads: `access` still records it as the owner. -/
theorem c50_try_enter_panics :
    ∃ s, Reach 2 s ∧ Reader s 1 ∧ s.pc 0 = .panic := by
  have r := Reach.init (n := 2)
  have r := r.step (.enterR _ 0 (by decide) rfl)
  have r := r.step (.rWait _ 0 (by decide) rfl rfl)
  have r := r.step (.rAddFirst _ 0 (by decide) rfl rfl)
  have r := r.step (.rAcc _ 0 (by decide) rfl rfl)
  have r := r.step (.rSet _ 0 (by decide) rfl)
  have r := r.step (.rOut _ 0 (by decide) rfl)
  have r := r.step (.enterR _ 1 (by decide) rfl)
  have r := r.step (.rWait _ 1 (by decide) rfl rfl)
  have r := r.step (.rAddMore _ 1 (by decide) rfl nofun)
  have r := r.step (.rOut _ 1 (by decide) rfl)
  have r := r.step (.exitR _ 0 (by decide) rfl)
  have r := r.step (.xLoadOther _ 0 (by decide) (.inr rfl) nofun)
  have r := r.step (.xSubMore _ 0 (by decide) rfl nofun)
  have r := r.step (.tryW _ 0 (by decide) rfl)
  have r := r.step (.twWait _ 0 (by decide) rfl rfl)
  have r := r.step (.twOwn _ 0 (by decide) rfl rfl)
  exact ⟨_, r, rfl, rfl⟩

end NRK.Lineup.Rw
