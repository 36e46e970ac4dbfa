import Verif.Console.Model

/-! # Lemmas for C90 -/

namespace NRK.Console

open Spec

/-! ## Lines -/

theorem lines_append (t x : List UInt8) :
    lines (t ++ x) =
      match (lines x).1 with
      | [] => ((lines t).1, (lines t).2 ++ (lines x).2)
      | l :: ls => ((lines t).1 ++ ((lines t).2 ++ l) :: ls, (lines x).2) := by
  induction t with
  | nil =>
    cases hx : (lines x).1 with
    | nil => simp only [lines, List.nil_append]; rw [← hx]
    | cons l ls => simp only [lines, List.nil_append]; rw [← hx]
  | cons b t ih =>
    by_cases hb : b = nl
    · cases hx : (lines x).1 with
      | nil =>
        simp only [hx] at ih
        simp [lines, hb, ih]
      | cons l ls =>
        simp only [hx] at ih
        simp [lines, hb, ih]
    · cases hx : (lines x).1 with
      | nil =>
        simp only [hx] at ih
        cases ht : (lines t).1 with
        | nil => simp [lines, hb, ih, ht]
        | cons m ms => simp [lines, hb, ih, ht]
      | cons l ls =>
        simp only [hx] at ih
        cases ht : (lines t).1 with
        | nil => simp [lines, hb, ih, ht]
        | cons m ms => simp [lines, hb, ih, ht]

theorem lines_no_nl : ∀ x : List UInt8, nl ∉ x → lines x = ([], x)
  | [], _ => rfl
  | b :: t, h => by
    have hb : b ≠ nl := fun e => h (e ▸ List.mem_cons_self ..)
    have ht := lines_no_nl t (fun m => h (List.mem_cons_of_mem _ m))
    simp [lines, hb, ht]

theorem lines_one (y : List UInt8) (h : nl ∉ y) : lines (y ++ [nl]) = ([y ++ [nl]], []) := by
  rw [lines_append, lines_no_nl y h]
  simp [lines]

theorem lines_flatten (t : List UInt8) : (lines t).1.flatten ++ (lines t).2 = t := by
  induction t with
  | nil => rfl
  | cons b t ih =>
    by_cases hb : b = nl
    · simp [lines, hb, ih]
    · cases ht : (lines t).1 with
      | nil =>
        rw [ht] at ih
        simp only [List.flatten_nil, List.nil_append] at ih
        simp [lines, hb, ht, ih]
      | cons m ms =>
        rw [ht] at ih
        simp only [lines, hb, if_false, ht, List.flatten_cons, List.cons_append]
        simp only [List.flatten_cons] at ih
        rw [ih]

theorem lines_rest (t : List UInt8) : nl ∉ (lines t).2 := by
  induction t with
  | nil => simp [lines]
  | cons b t ih =>
    by_cases hb : b = nl
    · simpa [lines, hb] using ih
    · cases ht : (lines t).1 with
      | nil =>
        simp only [lines, hb, if_false, ht, List.mem_cons, not_or]
        exact ⟨fun e => hb e.symm, ih⟩
      | cons m ms => simpa [lines, hb, ht] using ih

theorem Fits.left {n : Nat} {t x : List UInt8} (h : Fits n (t ++ x)) : Fits n t := by
  intro u m v e hm
  exact h u m (v ++ x) (by rw [e]; simp) hm

theorem lineWise_cases {x : List UInt8} (h : LineWise x) :
    nl ∉ x ∨ ∃ y, x = y ++ [nl] ∧ nl ∉ y := by
  by_cases hn : x = []
  · left; simp [hn]
  · by_cases hl : x.getLast hn = nl
    · right
      refine ⟨x.dropLast, ?_, h⟩
      rw [← hl]; exact (List.dropLast_concat_getLast hn).symm
    · left
      intro hm
      rw [← List.dropLast_concat_getLast hn, List.mem_append] at hm
      rcases hm with hm | hm
      · exact h hm
      · exact hl (List.mem_singleton.mp hm).symm

theorem find_none : ∀ x : List UInt8, nl ∉ x → find x = none
  | [], _ => rfl
  | b :: t, h => by
    have hb : b ≠ nl := fun e => h (e ▸ List.mem_cons_self ..)
    simp [find, hb, find_none t (fun m => h (List.mem_cons_of_mem _ m))]

theorem find_end : ∀ y : List UInt8, nl ∉ y → find (y ++ [nl]) = some y.length
  | [], _ => by simp [find]
  | b :: t, h => by
    have hb : b ≠ nl := fun e => h (e ▸ List.mem_cons_self ..)
    simp [find, hb, find_end t (fun m => h (List.mem_cons_of_mem _ m))]

/-! ## One call -/

/-- Nothing is lost by one call, and the buffer keeps to its capacity. -/
theorem print_complete (cap : Nat) (b x : List UInt8) (hb : b.length ≤ cap) :
    (bufferedPrint ⟨cap, b, false⟩ x).2 ++ (bufferedPrint ⟨cap, b, false⟩ x).1.text = b ++ x
    ∧ (bufferedPrint ⟨cap, b, false⟩ x).1.text.length ≤ cap
    ∧ (bufferedPrint ⟨cap, b, false⟩ x).1.cap = cap
    ∧ (bufferedPrint ⟨cap, b, false⟩ x).1.borrowed = false := by
  unfold bufferedPrint
  simp only [Bool.false_eq_true, if_false]
  cases hf : find x with
  | some idx =>
    simp only [List.length_nil, Nat.sub_zero, List.nil_append]
    split
    · rename_i h
      refine ⟨?_, h, rfl, rfl⟩
      rw [List.append_assoc, List.take_append_drop]
    · refine ⟨?_, Nat.zero_le _, rfl, rfl⟩
      simp only [List.append_nil, List.append_assoc, List.take_append_drop]
  | none =>
    simp only []
    split
    · exact ⟨by simp, Nat.zero_le _, rfl, rfl⟩
    · rename_i h
      refine ⟨by simp, ?_, rfl, rfl⟩
      simp only [List.length_append]; omega

theorem print_line (cap : Nat) (t x : List UInt8) (hx : LineWise x) (hf : Fits cap (t ++ x)) :
    let r := bufferedPrint ⟨cap, (lines t).2, false⟩ x
    (lines t).1 ++ (if r.2 = [] then [] else [r.2]) = (lines (t ++ x)).1 ∧ r.1.text = (lines (t ++ x)).2 := by
  intro r
  rcases lineWise_cases hx with h | ⟨y, rfl, hy⟩
  · have hlen : (lines t).2.length + x.length ≤ cap := by
      have := hf (lines t).1.flatten ((lines t).2 ++ x) []
        (by rw [List.append_nil, ← List.append_assoc, lines_flatten])
        (by rw [List.mem_append]; exact fun m => m.elim (lines_rest t) h)
      simpa using this
    have hr : r = (⟨cap, (lines t).2 ++ x, false⟩, []) := by
      show bufferedPrint _ x = _
      unfold bufferedPrint
      simp only [Bool.false_eq_true, if_false, find_none x h]
      rw [if_neg (by omega)]
    rw [hr, lines_append, lines_no_nl x h]
    simp
  · have hr : r = (⟨cap, [], false⟩, (lines t).2 ++ (y ++ [nl])) := by
      show bufferedPrint _ (y ++ [nl]) = _
      unfold bufferedPrint
      simp only [Bool.false_eq_true, if_false, find_end y hy]
      have h1 : (y ++ [nl]).take (y.length + 1) = y ++ [nl] := List.take_of_length_le (by simp)
      have h2 : (y ++ [nl]).drop (y.length + 1) = [] := List.drop_of_length_le (by simp)
      rw [h1, h2]
      simp
    rw [hr, lines_append, lines_one y hy]
    simp

/-! ## The machine -/

/-- What core `i` has handed to the serial line, call by call: the blocks on the line, and the one it is
about to write. -/
def sent (s : Sys) (bs : List (Nat × List UInt8)) (cur : List UInt8) (i : Nat) : List (List UInt8) :=
  blocksOf i bs ++
    match (s.cores i).pc with
    | .idle => []
    | .want => [(s.cores i).out]
    | .hold => [cur ++ (s.cores i).out]

/-- The bytes of the holder of the lock that are on the line already. -/
def begun (s : Sys) (cur : List UInt8) : List (Nat × UInt8) :=
  match s.lock with
  | none => []
  | some j => cur.map (fun b => (j, b))

structure Inv (cap : Nat) (P : List (List UInt8) → List UInt8 → List UInt8 → Prop) (h : List Ev) (s : Sys)
    (bs : List (Nat × List UInt8)) (cur : List UInt8) : Prop where
  wire : s.wire = inOnePiece bs ++ begun s cur
  lock : ∀ i, s.lock = some i ↔ (s.cores i).pc = .hold
  idle : ∀ i, (s.cores i).pc = .idle → (s.cores i).out = []
  caps : ∀ i, (s.cores i).buf.cap = cap
  free : ∀ i, (s.cores i).buf.borrowed = false
  len : ∀ i, (s.cores i).buf.text.length ≤ cap
  held : ∀ i, P (sent s bs cur i) (s.cores i).buf.text (said h i)

theorem said_append (h g : List Ev) (i : Nat) : said (h ++ g) i = said h i ++ said g i := by
  induction h with
  | nil => rfl
  | cons e h ih => cases e <;> simp [said, ih]

theorem said_other (h : List Ev) (i : Nat) : said (h ++ [.other]) i = said h i := by
  rw [said_append]; simp [said]

theorem said_print_same (h : List Ev) (i : Nat) (t : List UInt8) :
    said (h ++ [.print i t]) i = said h i ++ t := by
  rw [said_append]; simp [said]

theorem said_print_other (h : List Ev) {i j : Nat} (t : List UInt8) (hne : i ≠ j) :
    said (h ++ [.print j t]) i = said h i := by
  rw [said_append]; simp [said, Ne.symm hne]

theorem inOnePiece_append (a b : List (Nat × List UInt8)) :
    inOnePiece (a ++ b) = inOnePiece a ++ inOnePiece b := by simp [inOnePiece]

theorem blocksOf_append (i : Nat) (a b : List (Nat × List UInt8)) :
    blocksOf i (a ++ b) = blocksOf i a ++ blocksOf i b := by simp [blocksOf]

theorem blocksOf_same (i : Nat) (x : List UInt8) : blocksOf i [(i, x)] = [x] := by simp [blocksOf]

theorem blocksOf_other {i j : Nat} (x : List UInt8) (h : i ≠ j) : blocksOf i [(j, x)] = [] := by
  simp [blocksOf, Ne.symm h]

/-- One step keeps the invariant, for each `P` that one call keeps. -/
theorem step_inv {cap : Nat} {P : List (List UInt8) → List UInt8 → List UInt8 → Prop}
    {utf8 : List UInt8 → Bool} {s s' : Sys} {a : Act} {h : List Ev} {bs : List (Nat × List UInt8)}
    {cur : List UInt8} (hi : Inv cap P h s bs cur) (hs : s.step utf8 a = some s')
    (hP : ∀ i x, a = .print i x → ∀ l b t, b.length ≤ cap → P l b t →
      P (l ++ if (bufferedPrint ⟨cap, b, false⟩ x).2 = [] then [] else [(bufferedPrint ⟨cap, b, false⟩ x).2])
        (bufferedPrint ⟨cap, b, false⟩ x).1.text (t ++ x)) :
    ∃ bs' cur', Inv cap P (h ++ [a.ev utf8]) s' bs' cur' := by
  cases a with
  | print i x =>
    simp only [Sys.step] at hs
    split at hs
    · rename_i hc
      obtain ⟨hoff, hpc⟩ := hc
      cases hs
      refine ⟨bs, cur, ?_⟩
      by_cases hu : utf8 x = true
      · -- the core's buffer, as the lemmas have it
        have hbuf : (s.cores i).buf = ⟨cap, (s.cores i).buf.text, false⟩ := by
          have h1 := hi.caps i
          have h2 := hi.free i
          cases hb : (s.cores i).buf with
          | mk c t b => rw [hb] at h1 h2; simp only at h1 h2; rw [h1, h2]
        have hcomp := print_complete cap (s.cores i).buf.text x (hi.len i)
        have hstep := hP i x rfl _ _ _ (hi.len i) (hi.held i)
        have hnl : ¬ s.lock = some i := by rw [hi.lock i, hpc]; nofun
        simp only [Act.ev, hu, if_true]
        have hpr : (s.cores i).print utf8 x =
            if (bufferedPrint ⟨cap, (s.cores i).buf.text, false⟩ x).2 = [] then
              { s.cores i with buf := (bufferedPrint ⟨cap, (s.cores i).buf.text, false⟩ x).1 }
            else ⟨(bufferedPrint ⟨cap, (s.cores i).buf.text, false⟩ x).1,
              (bufferedPrint ⟨cap, (s.cores i).buf.text, false⟩ x).2, .want⟩ := by
          unfold Core.print
          simp only [hu, if_true, ← hbuf]
        rw [hpr]
        generalize hr : bufferedPrint ⟨cap, (s.cores i).buf.text, false⟩ x = r at *
        obtain ⟨rb, ro⟩ := r
        simp only at *
        refine ⟨hi.wire, ?_, ?_, ?_, ?_, ?_, ?_⟩
        · intro j
          by_cases hj : j = i
          · subst hj
            simp only [upd_same]
            split
            · simp only [hpc]; exact ⟨fun e => absurd e hnl, nofun⟩
            · exact ⟨fun e => absurd e hnl, nofun⟩
          · simp only [upd_other _ _ hj]; exact hi.lock j
        · intro j
          by_cases hj : j = i
          · subst hj
            simp only [upd_same]
            split
            · exact fun _ => hi.idle j hpc
            · nofun
          · simp only [upd_other _ _ hj]; exact hi.idle j
        · intro j
          by_cases hj : j = i
          · subst hj; simp only [upd_same]; split <;> exact hcomp.2.2.1
          · simp only [upd_other _ _ hj]; exact hi.caps j
        · intro j
          by_cases hj : j = i
          · subst hj; simp only [upd_same]; split <;> exact hcomp.2.2.2
          · simp only [upd_other _ _ hj]; exact hi.free j
        · intro j
          by_cases hj : j = i
          · subst hj; simp only [upd_same]; split <;> exact hcomp.2.1
          · simp only [upd_other _ _ hj]; exact hi.len j
        · intro j
          by_cases hj : j = i
          · subst hj
            rw [said_print_same]
            simp only [sent, hpc, List.append_nil] at hstep
            simp only [sent, upd_same]
            by_cases ho : ro = []
            · simp only [ho, if_true, hpc, List.append_nil] at hstep ⊢
              exact hstep
            · simp only [ho, if_false] at hstep ⊢
              exact hstep
          · rw [said_print_other _ _ hj]
            have := hi.held j
            simp only [sent, upd_other _ _ hj]
            exact this
      · have hpr : (s.cores i).print utf8 x = s.cores i := by
          unfold Core.print; rw [if_neg hu]
        rw [hpr]
        have hcs : upd s.cores i (s.cores i) = s.cores := by
          funext j; by_cases hj : j = i
          · subst hj; rw [upd_same]
          · rw [upd_other _ _ hj]
        rw [hcs]
        have hev : (Act.print i x).ev utf8 = .other := by simp [Act.ev, hu]
        rw [hev]
        refine { hi with held := ?_ }
        intro j; rw [said_other]; exact hi.held j
    · cases hs
  | lock i =>
    simp only [Sys.step] at hs
    split at hs
    · rename_i hc
      obtain ⟨hoff, hpc, hlk⟩ := hc
      cases hs
      refine ⟨bs, [], ?_, ?_, ?_, ?_, ?_, ?_, ?_⟩
      · have := hi.wire
        simp only [begun, hlk] at this
        simp only [begun, this]
        rfl
      · intro j
        by_cases hj : j = i
        · subst hj; simp only [upd_same]
        · simp only [upd_other _ _ hj]
          rw [← hi.lock j, hlk]
          exact ⟨fun e => absurd (Option.some.inj e).symm hj, nofun⟩
      · intro j
        by_cases hj : j = i
        · subst hj; simp only [upd_same]; nofun
        · simp only [upd_other _ _ hj]; exact hi.idle j
      · intro j
        by_cases hj : j = i
        · subst hj; simp only [upd_same]; exact hi.caps j
        · simp only [upd_other _ _ hj]; exact hi.caps j
      · intro j
        by_cases hj : j = i
        · subst hj; simp only [upd_same]; exact hi.free j
        · simp only [upd_other _ _ hj]; exact hi.free j
      · intro j
        by_cases hj : j = i
        · subst hj; simp only [upd_same]; exact hi.len j
        · simp only [upd_other _ _ hj]; exact hi.len j
      · intro j
        rw [show (Act.lock i).ev utf8 = .other from rfl, said_other]
        have hh := hi.held j
        by_cases hj : j = i
        · subst hj
          simp only [sent, hpc] at hh
          simp only [sent, upd_same, List.nil_append]
          exact hh
        · have hne : (s.cores j).pc ≠ .hold := by
            intro e
            have := (hi.lock j).mpr e
            rw [hlk] at this; cases this
          simp only [sent, upd_other _ _ hj] at hh ⊢
          cases hp : (s.cores j).pc with
          | hold => exact absurd hp hne
          | idle => simp only [hp] at hh ⊢; exact hh
          | want => simp only [hp] at hh ⊢; exact hh
    · cases hs
  | putb i =>
    simp only [Sys.step] at hs
    split at hs
    · rename_i hc
      obtain ⟨hoff, hpc⟩ := hc
      cases ho : (s.cores i).out with
      | nil => rw [ho] at hs; cases hs
      | cons b out =>
        rw [ho] at hs
        cases hs
        have hlk : s.lock = some i := (hi.lock i).mpr hpc
        refine ⟨bs, cur ++ [b], ?_, ?_, ?_, ?_, ?_, ?_, ?_⟩
        · have := hi.wire
          simp only [begun, hlk] at this ⊢
          rw [this]
          simp
        · intro j
          by_cases hj : j = i
          · subst hj; simp only [upd_same]; exact hi.lock j
          · simp only [upd_other _ _ hj]; exact hi.lock j
        · intro j
          by_cases hj : j = i
          · subst hj; simp only [upd_same, hpc]; nofun
          · simp only [upd_other _ _ hj]; exact hi.idle j
        · intro j
          by_cases hj : j = i
          · subst hj; simp only [upd_same]; exact hi.caps j
          · simp only [upd_other _ _ hj]; exact hi.caps j
        · intro j
          by_cases hj : j = i
          · subst hj; simp only [upd_same]; exact hi.free j
          · simp only [upd_other _ _ hj]; exact hi.free j
        · intro j
          by_cases hj : j = i
          · subst hj; simp only [upd_same]; exact hi.len j
          · simp only [upd_other _ _ hj]; exact hi.len j
        · intro j
          rw [show (Act.putb i).ev utf8 = .other from rfl, said_other]
          have hh := hi.held j
          by_cases hj : j = i
          · subst hj
            simp only [sent, hpc, ho] at hh
            simp only [sent, upd_same, hpc, List.append_assoc, List.singleton_append]
            exact hh
          · have hne : (s.cores j).pc ≠ .hold := by
              intro e
              have := (hi.lock j).mpr e
              rw [hlk] at this
              exact hj (Option.some.inj this).symm
            simp only [sent, upd_other _ _ hj] at hh ⊢
            cases hp : (s.cores j).pc with
            | hold => exact absurd hp hne
            | idle => simp only [hp] at hh ⊢; exact hh
            | want => simp only [hp] at hh ⊢; exact hh
    · cases hs
  | unlock i =>
    simp only [Sys.step] at hs
    split at hs
    · rename_i hc
      obtain ⟨hoff, hpc, hout⟩ := hc
      cases hs
      have hlk : s.lock = some i := (hi.lock i).mpr hpc
      refine ⟨bs ++ [(i, cur)], [], ?_, ?_, ?_, ?_, ?_, ?_, ?_⟩
      · have := hi.wire
        simp only [begun, hlk] at this
        simp only [begun, this, inOnePiece_append]
        simp [inOnePiece]
      · intro j
        by_cases hj : j = i
        · subst hj; simp only [upd_same]; exact ⟨nofun, nofun⟩
        · simp only [upd_other _ _ hj]
          refine ⟨nofun, fun e => ?_⟩
          have := (hi.lock j).mpr e
          rw [hlk] at this
          exact absurd (Option.some.inj this).symm hj
      · intro j
        by_cases hj : j = i
        · subst hj; simp only [upd_same]; exact fun _ => hout
        · simp only [upd_other _ _ hj]; exact hi.idle j
      · intro j
        by_cases hj : j = i
        · subst hj; simp only [upd_same]; exact hi.caps j
        · simp only [upd_other _ _ hj]; exact hi.caps j
      · intro j
        by_cases hj : j = i
        · subst hj; simp only [upd_same]; exact hi.free j
        · simp only [upd_other _ _ hj]; exact hi.free j
      · intro j
        by_cases hj : j = i
        · subst hj; simp only [upd_same]; exact hi.len j
        · simp only [upd_other _ _ hj]; exact hi.len j
      · intro j
        rw [show (Act.unlock i).ev utf8 = .other from rfl, said_other]
        have hh := hi.held j
        by_cases hj : j = i
        · subst hj
          simp only [sent, hpc, hout, List.append_nil] at hh
          simp only [sent, upd_same, blocksOf_append, blocksOf_same, List.append_nil]
          exact hh
        · have hne : (s.cores j).pc ≠ .hold := by
            intro e
            have := (hi.lock j).mpr e
            rw [hlk] at this
            exact hj (Option.some.inj this).symm
          simp only [sent, upd_other _ _ hj, blocksOf_append, blocksOf_other _ hj, List.append_nil] at hh ⊢
          cases hp : (s.cores j).pc with
          | hold => exact absurd hp hne
          | idle => simp only [hp] at hh ⊢; exact hh
          | want => simp only [hp] at hh ⊢; exact hh
    · cases hs
  | exit i =>
    simp only [Sys.step] at hs
    split at hs
    · cases hs
      refine ⟨bs, cur, hi.wire, hi.lock, hi.idle, hi.caps, hi.free, hi.len, ?_⟩
      intro j
      rw [show (Act.exit i).ev utf8 = .other from rfl, said_other]
      exact hi.held j
    · cases hs

theorem run_append (utf8 : List UInt8 → Bool) (s : Sys) (as bs : List Act) :
    s.run utf8 (as ++ bs) = (s.run utf8 as).bind (fun s => s.run utf8 bs) := by
  induction as generalizing s with
  | nil => rfl
  | cons a as ih =>
    simp only [List.cons_append, Sys.run]
    cases s.step utf8 a with
    | none => rfl
    | some s' => simp only [Option.bind_some]; exact ih s'

theorem run_inv {cap : Nat} {P : List (List UInt8) → List UInt8 → List UInt8 → Prop}
    {utf8 : List UInt8 → Bool} (as : List Act) (s s' : Sys) (h : List Ev)
    (bs : List (Nat × List UInt8)) (cur : List UInt8) (hi : Inv cap P h s bs cur)
    (hs : s.run utf8 as = some s')
    (hP : ∀ i x, Act.print i x ∈ as → ∀ l b t, b.length ≤ cap → P l b t →
      P (l ++ if (bufferedPrint ⟨cap, b, false⟩ x).2 = [] then [] else [(bufferedPrint ⟨cap, b, false⟩ x).2])
        (bufferedPrint ⟨cap, b, false⟩ x).1.text (t ++ x)) :
    ∃ bs' cur', Inv cap P (h ++ as.map (Act.ev utf8)) s' bs' cur' := by
  induction as generalizing s h bs cur with
  | nil => cases hs; exact ⟨bs, cur, by simpa using hi⟩
  | cons a as ih =>
    simp only [Sys.run] at hs
    cases hst : s.step utf8 a with
    | none => rw [hst] at hs; cases hs
    | some s1 =>
      rw [hst, Option.bind_some] at hs
      obtain ⟨bs1, cur1, hi1⟩ := step_inv hi hst
        (fun i x e => hP i x (by rw [e]; exact List.mem_cons_self ..))
      obtain ⟨bs2, cur2, hi2⟩ := ih s1 _ bs1 cur1 hi1 hs
        (fun i x m => hP i x (List.mem_cons_of_mem _ m))
      exact ⟨bs2, cur2, by simpa using hi2⟩

theorem start_inv (cap : Nat) {P : List (List UInt8) → List UInt8 → List UInt8 → Prop} (h0 : P [] [] []) :
    Inv cap P [] (Sys.start cap) [] [] where
  wire := rfl
  lock := fun _ => ⟨nofun, nofun⟩
  idle := fun _ _ => rfl
  caps := fun _ => rfl
  free := fun _ => rfl
  len := fun _ => Nat.zero_le _
  held := fun _ => h0

end NRK.Console
