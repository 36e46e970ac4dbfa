import Verif.Pci.Model

/-!
# Lemmas about PCI accesses
-/

namespace NRK.Pci

open Spec (Reg Bus Call Event IrqCall Dev Phase replay phase access)

theorem and_fc {n : Nat} (h : n ≤ 0xfc) : n &&& 0xfc = n / 4 * 4 := by
  have : ∀ n : Fin 253, n.val &&& 0xfc = n.val / 4 * 4 := by decide +kernel
  exact this ⟨n, by omega⟩

theorem or_add {x i y : Nat} (h : y < 2 ^ i) : x <<< i ||| y = x * 2 ^ i + y := by
  rw [← Nat.shiftLeft_add_eq_or_of_lt h, Nat.shiftLeft_eq]

theorem shl32_eq {x n k : Nat} (h : x < 2 ^ k) (hk : k + n ≤ 32) : shl32 x n = x <<< n := by
  unfold shl32
  refine Nat.mod_eq_of_lt ?_
  rw [Nat.shiftLeft_eq]
  have h1 : x * 2 ^ n < 2 ^ k * 2 ^ n := Nat.mul_lt_mul_of_pos_right h (Nat.two_pow_pos n)
  rw [← Nat.pow_add] at h1
  exact Nat.lt_of_lt_of_le h1 (Nat.pow_le_pow_right (by omega) hk)

/-- The address of valid arguments, as a sum. -/
theorem busAddress_eq {b d f n : Nat} (hb : b < 256) (hd : d < 32) (hf : f < 8) (hn : n ≤ 0xfc) :
    busAddress b d f (n : Int) = some (2 ^ 31 + (b * 2 ^ 16 + (d * 2 ^ 11 + (f * 2 ^ 8 + n / 4 * 4)))) := by
  have e : asU32 (n : Int) = n := by unfold asU32; omega
  unfold busAddress
  rw [if_pos (by omega), e, and_fc hn, shl32_eq (k := 8) (by omega) (by omega),
    shl32_eq (k := 5) (by omega) (by omega), shl32_eq (k := 3) (by omega) (by omega)]
  rw [Nat.or_assoc, Nat.or_assoc, Nat.or_assoc]
  rw [or_add (x := f) (i := 8) (by omega), or_add (x := d) (i := 11) (by omega),
    or_add (x := b) (i := 16) (by omega), or_add (x := 1) (i := 31) (by omega), Nat.one_mul]

theorem decode_valid {b d f n : Nat} (hb : b < 256) (hd : d < 32) (hf : f < 8) (hn : n ≤ 0xfc) :
    decode (2 ^ 31 + (b * 2 ^ 16 + (d * 2 ^ 11 + (f * 2 ^ 8 + n / 4 * 4)))) = some ⟨b, d, f, n / 4⟩ := by
  unfold decode
  have h31 : (2 ^ 31 + (b * 2 ^ 16 + (d * 2 ^ 11 + (f * 2 ^ 8 + n / 4 * 4)))).testBit 31 = true := by
    rw [Nat.testBit_eq_decide_div_mod_eq]
    exact decide_eq_true (by omega)
  rw [if_pos h31]
  simp only [Nat.shiftRight_eq_div_pow]
  have h1 : (2 ^ 31 + (b * 2 ^ 16 + (d * 2 ^ 11 + (f * 2 ^ 8 + n / 4 * 4)))) / 2 ^ 16 % 2 ^ 8 = b := by omega
  have h2 : (2 ^ 31 + (b * 2 ^ 16 + (d * 2 ^ 11 + (f * 2 ^ 8 + n / 4 * 4)))) / 2 ^ 11 % 2 ^ 5 = d := by omega
  have h3 : (2 ^ 31 + (b * 2 ^ 16 + (d * 2 ^ 11 + (f * 2 ^ 8 + n / 4 * 4)))) / 2 ^ 8 % 2 ^ 3 = f := by omega
  have h4 : (2 ^ 31 + (b * 2 ^ 16 + (d * 2 ^ 11 + (f * 2 ^ 8 + n / 4 * 4)))) / 2 ^ 2 % 2 ^ 6 = n / 4 := by omega
  rw [h1, h2, h3, h4]

theorem decode_call {c : Call} (v : c.Valid) {a : Nat} (e : callAddress c = some a) : decode a = some c.reg := by
  cases c with
  | read b d f r =>
    obtain ⟨hb, hd, hf, h0, hr⟩ := v
    obtain ⟨n, rfl⟩ := Int.eq_ofNat_of_zero_le h0
    have hn : n ≤ 0xfc := by omega
    rw [show callAddress (.read b d f n) = busAddress b d f n from rfl, busAddress_eq hb hd hf hn] at e
    cases e
    rw [decode_valid hb hd hf hn]; rfl
  | write b d f r x =>
    obtain ⟨hb, hd, hf, h0, hr⟩ := v
    obtain ⟨n, rfl⟩ := Int.eq_ofNat_of_zero_le h0
    have hn : n ≤ 0xfc := by omega
    rw [show callAddress (.write b d f n x) = busAddress b d f n from rfl, busAddress_eq hb hd hf hn] at e
    cases e
    rw [decode_valid hb hd hf hn]; rfl

/-! ## Histories -/

theorem replay_append {D : Type} (b : Bus D) : ∀ (es fs : List Event) (d : D),
    replay b d (es ++ fs) = (replay b d es).bind fun d' => replay b d' fs
  | [], _, _ => rfl
  | .start .. :: es, fs, d => by
    show replay b d (es ++ fs) = _
    rw [replay_append b es fs d]; rfl
  | .ret .. :: es, fs, d => by
    show replay b d (es ++ fs) = _
    rw [replay_append b es fs d]; rfl
  | .effect t c r :: es, fs, d => by
    show (if _ then replay b _ (es ++ fs) else none) = Option.bind (if _ then replay b _ es else none) _
    split
    · exact replay_append b es fs _
    · rfl

theorem phase_append : ∀ (es fs : List Event) (p : Phase),
    phase p (es ++ fs) = (phase p es).bind fun q => phase q fs := by
  intro es
  induction es with
  | nil => intro fs p; simp [phase]
  | cons e es ih =>
    intro fs p
    cases p <;> cases e <;> simp only [List.cons_append, phase, Option.bind_none, ih]
    all_goals (split <;> simp)

/-- The phase a place in the code stands for. -/
def Pc.phase : Pc → Phase
  | .idle | .dead => .outside
  | .waiting c _ | .locked c _ | .addressed c => .called c
  | .done r => .effected r

def Pc.holds : Pc → Bool
  | .locked .. | .addressed .. | .done .. => true
  | _ => false

/-- What is true at every moment, without accesses from outside. -/
structure Inv {D : Type} (b : Bus D) (d0 : D) (s : St D) : Prop where
  replay : replay b d0 s.hist = some s.dev
  phase : ∀ t, phase .outside (s.hist.filter (·.thread == t)) = some (s.pc t).phase
  lock : ∀ t, (s.pc t).holds = true ↔ s.lock = some t
  waiting : ∀ t c a, s.pc t = .waiting c a → callAddress c = some a ∧ c.Valid
  locked : ∀ t c a, s.pc t = .locked c a → callAddress c = some a ∧ c.Valid
  addressed : ∀ t c, s.pc t = .addressed c → callAddress c = some s.latch ∧ c.Valid

theorem Inv.init {D : Type} (b : Bus D) (d0 : D) (l : Nat) : Inv b d0 (St.init d0 l) where
  replay := rfl
  phase _ := rfl
  lock t := by simp [St.init, Pc.holds]
  waiting t c a h := by simp [St.init] at h
  locked t c a h := by simp [St.init] at h
  addressed t c h := by simp [St.init] at h

theorem upd_eq {α : Type} {f : Nat → α} {t u : Nat} {x y : α} (h : upd f t x u = y) :
    (u = t ∧ x = y) ∨ (u ≠ t ∧ f u = y) := by
  by_cases e : u = t
  · subst e; rw [upd_same] at h; exact .inl ⟨rfl, h⟩
  · rw [upd_other _ _ e] at h; exact .inr ⟨e, h⟩

/-- A thread's events after one more event of thread `t`. -/
theorem phase_snoc {h : List Event} {pc : Nat → Pc} {t : Nat} {e : Event} {q : Pc}
    (ih : ∀ u, Spec.phase .outside (h.filter (·.thread == u)) = some (pc u).phase) (et : e.thread = t)
    (hq : Spec.phase (pc t).phase [e] = some q.phase) (u : Nat) :
    Spec.phase .outside ((h ++ [e]).filter (·.thread == u)) = some (upd pc t q u).phase := by
  rw [List.filter_append, phase_append, ih u]
  by_cases e1 : u = t
  · subst e1
    rw [upd_same]
    have : [e].filter (·.thread == u) = [e] := by simp [et]
    rw [this]; exact hq
  · rw [upd_other _ _ e1]
    have : [e].filter (·.thread == u) = [] := by
      simp only [List.filter_cons, List.filter_nil, et]
      rw [if_neg (by simpa using fun h => e1 h.symm)]
    rw [this]; rfl

theorem phase_same {h : List Event} {pc : Nat → Pc} {t : Nat} {q : Pc}
    (ih : ∀ u, Spec.phase .outside (h.filter (·.thread == u)) = some (pc u).phase)
    (hq : q.phase = (pc t).phase) (u : Nat) :
    Spec.phase .outside (h.filter (·.thread == u)) = some (upd pc t q u).phase := by
  rw [ih u]
  by_cases e1 : u = t
  · subst e1; rw [upd_same, hq]
  · rw [upd_other _ _ e1]

theorem enter_inv {D : Type} {b : Bus D} {d0 : D} {core : Nat → Nat} {s s' : St D} {t : Nat} {c : Call}
    (I : Inv b d0 s) (v : c.Valid) (e : enter core s t c = some s') : Inv b d0 s' := by
  unfold enter at e
  split at e
  case isFalse => cases e
  rename_i hpc
  split at e
  · cases e; exact I
  split at e
  · rename_i a ha
    cases e
    refine ⟨?_, ?_, ?_, ?_, ?_, ?_⟩
    · show replay b d0 (s.hist ++ _) = some s.dev
      rw [replay_append, I.replay]; rfl
    · exact phase_snoc I.phase rfl (by rw [hpc]; rfl)
    · intro u
      show (upd s.pc t _ u).holds = true ↔ s.lock = some u
      by_cases e1 : u = t
      · subst e1; rw [upd_same, ← I.lock u, hpc]; simp [Pc.holds]
      · rw [upd_other _ _ e1]; exact I.lock u
    · intro u c' a' h
      rcases upd_eq h with ⟨_, h⟩ | ⟨_, h⟩
      · cases h; exact ⟨ha, v⟩
      · exact I.waiting u c' a' h
    · intro u c' a' h
      rcases upd_eq h with ⟨_, h⟩ | ⟨_, h⟩
      · cases h
      · exact I.locked u c' a' h
    · intro u c' h
      rcases upd_eq h with ⟨_, h⟩ | ⟨_, h⟩
      · cases h
      · exact I.addressed u c' h
  · cases e
    refine ⟨I.replay, phase_same I.phase (by rw [hpc]; rfl), ?_, ?_, ?_, ?_⟩
    · intro u
      show (upd s.pc t _ u).holds = true ↔ s.lock = some u
      by_cases e1 : u = t
      · subst e1; rw [upd_same, ← I.lock u, hpc]; simp [Pc.holds]
      · rw [upd_other _ _ e1]; exact I.lock u
    · intro u c' a' h
      rcases upd_eq h with ⟨_, h⟩ | ⟨_, h⟩
      · cases h
      · exact I.waiting u c' a' h
    · intro u c' a' h
      rcases upd_eq h with ⟨_, h⟩ | ⟨_, h⟩
      · cases h
      · exact I.locked u c' a' h
    · intro u c' h
      rcases upd_eq h with ⟨_, h⟩ | ⟨_, h⟩
      · cases h
      · exact I.addressed u c' h

/-- No other thread holds the lock. -/
theorem Inv.only {D : Type} {b : Bus D} {d0 : D} {s : St D} (I : Inv b d0 s) {t u : Nat}
    (ht : (s.pc t).holds = true) (hu : (s.pc u).holds = true) : u = t := by
  have h1 := (I.lock t).1 ht
  have h2 := (I.lock u).1 hu
  rw [h1] at h2; cases h2; rfl

/-- The access to the data port. -/
theorem effect_inv {D : Type} {b : Bus D} {d0 : D} {s : St D} {t : Nat} {c : Call} (I : Inv b d0 s)
    (hpc : s.pc t = .addressed c) {r : Nat} {d : D} (hd : access b s.dev c = (r, d)) :
    Inv b d0 { s with dev := d, pc := upd s.pc t (.done r), hist := s.hist ++ [.effect t c r] } := by
  have hh : (s.pc t).holds = true := by rw [hpc]; rfl
  refine ⟨?_, ?_, ?_, ?_, ?_, ?_⟩
  · show replay b d0 (s.hist ++ _) = some d
    rw [replay_append, I.replay]
    show replay b s.dev [.effect t c r] = some d
    simp only [Spec.replay, hd, if_true]
  · exact phase_snoc I.phase rfl (by rw [hpc]; simp [Pc.phase, Spec.phase])
  · intro u
    show (upd s.pc t _ u).holds = true ↔ s.lock = some u
    by_cases e1 : u = t
    · subst e1; rw [upd_same, ← I.lock u, hh]; simp [Pc.holds]
    · rw [upd_other _ _ e1]; exact I.lock u
  · intro u c' a' h
    rcases upd_eq h with ⟨_, h⟩ | ⟨_, h⟩
    · cases h
    · exact I.waiting u c' a' h
  · intro u c' a' h
    rcases upd_eq h with ⟨_, h⟩ | ⟨_, h⟩
    · cases h
    · exact I.locked u c' a' h
  · intro u c' h
    rcases upd_eq h with ⟨_, h⟩ | ⟨_, h⟩
    · cases h
    · exact I.addressed u c' h

theorem advance_inv {D : Type} {b : Bus D} {d0 : D} {s s' : St D} {t : Nat}
    (I : Inv b d0 s) (e : advance b s t = some s') : Inv b d0 s' := by
  unfold advance at e
  split at e
  · cases e
  · cases e
  · rename_i c a hpc
    split at e
    case isFalse => cases e
    rename_i hl
    cases e
    refine ⟨I.replay, phase_same I.phase (by rw [hpc]; rfl), ?_, ?_, ?_, ?_⟩
    · intro u
      show (upd s.pc t _ u).holds = true ↔ some t = some u
      by_cases e1 : u = t
      · subst e1; rw [upd_same]; simp [Pc.holds]
      · rw [upd_other _ _ e1, I.lock u, hl]
        simp only [reduceCtorEq, Option.some.injEq, false_iff]
        exact fun h => e1 h.symm
    · intro u c' a' h
      rcases upd_eq h with ⟨_, h⟩ | ⟨_, h⟩
      · cases h
      · exact I.waiting u c' a' h
    · intro u c' a' h
      rcases upd_eq h with ⟨_, h⟩ | ⟨_, h⟩
      · cases h; exact I.waiting t c a hpc
      · exact I.locked u c' a' h
    · intro u c' h
      rcases upd_eq h with ⟨_, h⟩ | ⟨_, h⟩
      · cases h
      · exact I.addressed u c' h
  · rename_i c a hpc
    cases e
    have hh : (s.pc t).holds = true := by rw [hpc]; rfl
    refine ⟨I.replay, phase_same I.phase (by rw [hpc]; rfl), ?_, ?_, ?_, ?_⟩
    · intro u
      show (upd s.pc t _ u).holds = true ↔ s.lock = some u
      by_cases e1 : u = t
      · subst e1; rw [upd_same, ← I.lock u, hh]; simp [Pc.holds]
      · rw [upd_other _ _ e1]; exact I.lock u
    · intro u c' a' h
      rcases upd_eq h with ⟨_, h⟩ | ⟨_, h⟩
      · cases h
      · exact I.waiting u c' a' h
    · intro u c' a' h
      rcases upd_eq h with ⟨_, h⟩ | ⟨_, h⟩
      · cases h
      · exact I.locked u c' a' h
    · intro u c' h
      rcases upd_eq h with ⟨_, h⟩ | ⟨hne, h⟩
      · cases h; exact I.locked t c a hpc
      · exact absurd (I.only hh (by rw [h]; rfl)) hne
  · rename_i c hpc
    obtain ⟨ha, hv⟩ := I.addressed t c hpc
    have hdec := decode_call hv ha
    cases c with
    | read bb dd ff rr =>
      cases e
      refine effect_inv I hpc ?_
      simp only [inl, hdec]; rfl
    | write bb dd ff rr v =>
      cases e
      refine effect_inv I hpc ?_
      simp only [outl, hdec]; rfl
  · rename_i r hpc
    cases e
    have hh : (s.pc t).holds = true := by rw [hpc]; rfl
    refine ⟨?_, ?_, ?_, ?_, ?_, ?_⟩
    · show replay b d0 (s.hist ++ _) = some s.dev
      rw [replay_append, I.replay]; rfl
    · exact phase_snoc I.phase rfl (by rw [hpc]; simp [Pc.phase, Spec.phase])
    · intro u
      show (upd s.pc t _ u).holds = true ↔ none = some u
      by_cases e1 : u = t
      · subst e1; rw [upd_same]; simp [Pc.holds]
      · rw [upd_other _ _ e1]
        simp only [reduceCtorEq, iff_false]
        exact fun h => e1 (I.only hh h)
    · intro u c' a' h
      rcases upd_eq h with ⟨_, h⟩ | ⟨_, h⟩
      · cases h
      · exact I.waiting u c' a' h
    · intro u c' a' h
      rcases upd_eq h with ⟨_, h⟩ | ⟨_, h⟩
      · cases h
      · exact I.locked u c' a' h
    · intro u c' h
      rcases upd_eq h with ⟨_, h⟩ | ⟨_, h⟩
      · cases h
      · exact I.addressed u c' h

/-- The actions of the program's own threads with arguments that exist. -/
def Act.Own : Act → Prop
  | .call _ c => c.Valid
  | .step _ => True
  | .foreign _ => False

theorem run_inv {D : Type} {b : Bus D} {d0 : D} {core : Nat → Nat} : ∀ (as : List Act) (s : St D),
    (∀ a ∈ as, a.Own) → Inv b d0 s → Inv b d0 (run b core s as)
  | [], _, _, I => I
  | a :: as, s, h, I => by
    refine run_inv as _ (fun x hx => h x (List.mem_cons_of_mem _ hx)) ?_
    have ho := h a (List.mem_cons_self ..)
    cases e : act b core s a with
    | none => exact I
    | some s' =>
      show Inv b d0 s'
      cases a with
      | call t c => exact enter_inv I ho e
      | step t => exact advance_inv I e
      | foreign x => exact ho.elim

end NRK.Pci
