import Verif.Console.Lemmas

/-!
# C90: what programs print comes out on the console

`Sys` is a machine with any number of cores that print at the same time, byte by byte. The statements
are about the bytes on the serial line (`wire`) and the texts given to the system call (`Spec.said`).
-/

namespace NRK.Console

open Spec

/-- Nothing is lost, changed, doubled or reordered: at every moment, for each core, the bytes on the line that
came from it are what it printed, up to what is still in its buffer or being written. When its call has
returned, at most as many bytes are missing as the buffer has room for. -/
theorem c90_complete (utf8 : List UInt8 → Bool) (cap : Nat) (as : List Act) (s : Sys)
    (hs : (Sys.start cap).run utf8 as = some s) (i : Nat) :
    ∃ rest, from_ i s.wire ++ rest = said (as.map (Act.ev utf8)) i
      ∧ ((s.cores i).pc = .idle → rest.length ≤ cap) := by
  obtain ⟨bs, cur, hi⟩ := run_inv (P := fun l b t => l.flatten ++ b = t) as _ s [] [] []
    (start_inv cap rfl) hs (by
      intro i x _ l b t hb hl
      have hc := (print_complete cap b x hb).1
      rw [← hl, List.append_assoc, ← hc]
      split
      · rename_i e; rw [e]; simp
      · simp)
  have hone : ∀ bs : List (Nat × List UInt8), from_ i (inOnePiece bs) = (blocksOf i bs).flatten := by
    intro bs
    induction bs with
    | nil => rfl
    | cons p bs ih =>
      obtain ⟨j, x⟩ := p
      have : inOnePiece ((j, x) :: bs) = x.map (fun b => (j, b)) ++ inOnePiece bs := by simp [inOnePiece]
      rw [this]
      by_cases hj : j = i
      · subst hj
        have h1 : from_ j (x.map (fun b => (j, b)) ++ inOnePiece bs) = x ++ from_ j (inOnePiece bs) := by
          simp [from_, List.filter_map, Function.comp_def]
        rw [h1, ih]; simp [blocksOf]
      · have h1 : from_ i (x.map (fun b => (j, b)) ++ inOnePiece bs) = from_ i (inOnePiece bs) := by
          simp [from_, List.filter_map, Function.comp_def, hj]
        rw [h1, ih]; simp [blocksOf, hj]
  have happ : ∀ a b : List (Nat × UInt8), from_ i (a ++ b) = from_ i a ++ from_ i b := by
    intro a b; simp [from_]
  have hh := hi.held i
  rw [List.nil_append] at hh
  rw [← hh, hi.wire, happ, hone]
  simp only [sent]
  cases hp : (s.cores i).pc with
  | idle =>
    have hb : from_ i (begun s cur) = [] := by
      unfold begun
      cases hl : s.lock with
      | none => rfl
      | some j =>
        have hj : j ≠ i := by
          rintro rfl
          have := (hi.lock j).mp hl
          rw [hp] at this; cases this
        simp [from_, List.filter_map, Function.comp_def, hj]
    exact ⟨(s.cores i).buf.text, by rw [hb]; simp, fun _ => hi.len i⟩
  | want =>
    have hb : from_ i (begun s cur) = [] := by
      unfold begun
      cases hl : s.lock with
      | none => rfl
      | some j =>
        have hj : j ≠ i := by
          rintro rfl
          have := (hi.lock j).mp hl
          rw [hp] at this; cases this
        simp [from_, List.filter_map, Function.comp_def, hj]
    exact ⟨(s.cores i).out ++ (s.cores i).buf.text, by rw [hb]; simp, nofun⟩
  | hold =>
    have hb : from_ i (begun s cur) = cur := by
      unfold begun
      rw [(hi.lock i).mpr hp]
      simp [from_, List.filter_map, Function.comp_def]
    exact ⟨(s.cores i).out ++ (s.cores i).buf.text, by rw [hb]; simp, nofun⟩

/-- Lines stay in one piece: if programs print pieces of lines (line feeds only at the end of a text, as
`sys_println!` does) and no line is longer than the buffer, then at every moment the line shows whole lines, each in one piece,
and at most the beginning of one more line; every core whose call has returned has all its
complete lines there, in order. Missing: texts with a line feed inside, and longer lines; both are refuted below. -/
theorem c90_lines_partial (utf8 : List UInt8 → Bool) (cap : Nat) (as : List Act) (s : Sys)
    (hs : (Sys.start cap).run utf8 as = some s)
    (hl : ∀ i t, Act.print i t ∈ as → LineWise t)
    (hf : ∀ i, Fits cap (said (as.map (Act.ev utf8)) i)) :
    ∃ (ls : List (Nat × List UInt8)) (j : Nat) (q : List UInt8),
      s.wire = inOnePiece ls ++ q.map (fun b => (j, b))
      ∧ ((∀ i, (s.cores i).pc = .idle) → q = [])
      ∧ ∀ i, blocksOf i ls <+: (lines (said (as.map (Act.ev utf8)) i)).1
          ∧ ((s.cores i).pc = .idle → blocksOf i ls = (lines (said (as.map (Act.ev utf8)) i)).1) := by
  obtain ⟨bs, cur, hi⟩ := run_inv
    (P := fun l b t => Fits cap t → l = (lines t).1 ∧ b = (lines t).2) as _ s [] [] []
    (start_inv cap (fun _ => ⟨rfl, rfl⟩)) hs (by
      intro i x hx l b t _ hlt hft
      obtain ⟨h1, h2⟩ := hlt (Fits.left hft)
      subst h1; subst h2
      exact print_line cap t x (hl i x hx) hft)
  have hw := hi.wire
  have hpre : ∀ i, blocksOf i bs <+: (lines (said (as.map (Act.ev utf8)) i)).1
      ∧ ((s.cores i).pc = .idle → blocksOf i bs = (lines (said (as.map (Act.ev utf8)) i)).1) := by
    intro i
    have hh := (hi.held i (hf i)).1
    rw [List.nil_append] at hh
    rw [← hh]
    simp only [sent]
    refine ⟨List.prefix_append _ _, fun e => ?_⟩
    rw [e]; simp
  cases hlk : s.lock with
  | none =>
    refine ⟨bs, 0, [], ?_, fun _ => rfl, hpre⟩
    simpa [begun, hlk] using hw
  | some j =>
    refine ⟨bs, j, cur, ?_, ?_, hpre⟩
    · simpa [begun, hlk] using hw
    · intro h
      have := (hi.lock j).mp hlk
      rw [h j] at this; cases this

/-- A call in progress comes to its end: from every state that can be reached with the machine on, some
continuation, without further calls, lets the call of core `i` return. -/
theorem c90_print_returns (utf8 : List UInt8 → Bool) (cap : Nat) (as : List Act) (s : Sys)
    (hs : (Sys.start cap).run utf8 as = some s) (hon : s.off = false) (i : Nat) :
    ∃ more s', s.run utf8 more = some s' ∧ (s'.cores i).pc = .idle
      ∧ ∀ a ∈ more, ∃ j, a = .lock j ∨ a = .putb j ∨ a = .unlock j := by
  obtain ⟨bs, cur, hi⟩ := run_inv (P := fun _ _ _ => True) as _ s [] [] []
    (start_inv cap trivial) hs (fun _ _ _ _ _ _ _ _ => trivial)
  have hlock := hi.lock
  clear hi hs
  -- the holder of the lock writes what it has to write, and releases the lock
  have drain : ∀ (n : Nat) (s : Sys) (j : Nat), (s.cores j).out.length = n → s.off = false →
      (s.cores j).pc = .hold → ∃ more s', s.run utf8 more = some s' ∧ (s'.cores j).pc = .idle ∧ s'.lock = none
        ∧ s'.off = false ∧ (∀ k, k ≠ j → s'.cores k = s.cores k)
        ∧ ∀ a ∈ more, ∃ j, a = .lock j ∨ a = .putb j ∨ a = .unlock j := by
    intro n
    induction n with
    | zero =>
      intro s j ho hoff hpc
      have ho : (s.cores j).out = [] := List.length_eq_zero_iff.mp ho
      refine ⟨[.unlock j], { s with cores := upd s.cores j { s.cores j with pc := .idle }, lock := none },
        ?_, ?_, rfl, hoff, ?_, ?_⟩
      · simp [Sys.run, Sys.step, hoff, hpc, ho]
      · simp only [upd_same]
      · intro k hk; simp only [upd_other _ _ hk]
      · intro a ha; exact ⟨j, .inr (.inr (List.mem_singleton.mp ha))⟩
    | succ n ih =>
      intro s j ho hoff hpc
      cases hout : (s.cores j).out with
      | nil => rw [hout] at ho; cases ho
      | cons b out =>
        obtain ⟨more, s', h1, h2, h3, h4, h5, h6⟩ :=
          ih { s with cores := upd s.cores j { s.cores j with out := out }, wire := s.wire ++ [(j, b)] } j
            (by simp only [upd_same]; rw [hout] at ho; exact Nat.succ.inj ho) hoff
            (by simp only [upd_same]; exact hpc)
        refine ⟨.putb j :: more, s', ?_, h2, h3, h4, ?_, ?_⟩
        · have hst : s.step utf8 (.putb j) =
              some { s with cores := upd s.cores j { s.cores j with out := out }, wire := s.wire ++ [(j, b)] } := by
            simp [Sys.step, hoff, hpc, hout]
          simp only [Sys.run, hst, Option.bind_some]
          exact h1
        · intro k hk; rw [h5 k hk]; simp only [upd_other _ _ hk]
        · intro a ha
          rcases List.mem_cons.mp ha with rfl | ha
          · exact ⟨j, .inr (.inl rfl)⟩
          · exact h6 a ha
  -- a core that waits takes the free lock
  have take : ∀ (s : Sys) (j : Nat), s.off = false → s.lock = none → (s.cores j).pc = .want →
      ∃ more s', s.run utf8 more = some s' ∧ (s'.cores j).pc = .idle
        ∧ ∀ a ∈ more, ∃ j, a = .lock j ∨ a = .putb j ∨ a = .unlock j := by
    intro s j hoff hlk hpc
    obtain ⟨more, s', h1, h2, _, _, _, h6⟩ :=
      drain _ { s with cores := upd s.cores j { s.cores j with pc := .hold }, lock := some j } j rfl hoff
        (by simp only [upd_same])
    refine ⟨.lock j :: more, s', ?_, h2, ?_⟩
    · have hst : s.step utf8 (.lock j) =
          some { s with cores := upd s.cores j { s.cores j with pc := .hold }, lock := some j } := by
        simp [Sys.step, hoff, hpc, hlk]
      simp only [Sys.run, hst, Option.bind_some]
      exact h1
    · intro a ha
      rcases List.mem_cons.mp ha with rfl | ha
      · exact ⟨j, .inl rfl⟩
      · exact h6 a ha
  cases hp : (s.cores i).pc with
  | idle => exact ⟨[], s, rfl, hp, nofun⟩
  | hold =>
    obtain ⟨more, s', h1, h2, _, _, _, h6⟩ := drain _ s i rfl hon hp
    exact ⟨more, s', h1, h2, h6⟩
  | want =>
    cases hlk : s.lock with
    | none => exact take s i hon hlk hp
    | some j =>
      have hj := (hlock j).mp hlk
      have hne : i ≠ j := by rintro rfl; rw [hp] at hj; cases hj
      obtain ⟨m1, s1, h1, _, h3, h4, h5, h6⟩ := drain _ s j rfl hon hj
      obtain ⟨m2, s2, g1, g2, g3⟩ := take s1 i h4 h3 (by rw [h5 i hne]; exact hp)
      refine ⟨m1 ++ m2, s2, ?_, g2, ?_⟩
      · rw [run_append, h1, Option.bind_some, g1]
      · intro a ha
        rcases List.mem_append.mp ha with ha | ha
        · exact h6 a ha
        · exact g3 a ha

/-! ## A client of a rack -/

/-- The controller logs what a core of a client prints, up to what is in the core's buffer, and the client's own
line shows the same: for texts whose part behind the first line feed fits the buffer. Missing: all other texts, see
`c90_remote_loses`. -/
theorem c90_remote_partial (cap : Nat) (ts : List (List UInt8))
    (hf : ∀ t ∈ ts, ∀ k, find t = some k → t.length - (k + 1) ≤ cap) :
    let r := ts.foldl Remote.log ⟨⟨cap, [], false⟩, [], []⟩
    r.logged.flatten ++ r.buf.text = ts.flatten ∧ r.wire ++ r.buf.text = ts.flatten
      ∧ r.buf.text.length ≤ cap := by
  intro r
  have key : ∀ (ts : List (List UInt8)) (r0 : Remote) (t0 : List UInt8),
      (∀ t ∈ ts, ∀ k, find t = some k → t.length - (k + 1) ≤ cap) →
      r0.buf.cap = cap → r0.buf.borrowed = false → r0.buf.text.length ≤ cap →
      r0.logged.flatten ++ r0.buf.text = t0 → r0.wire ++ r0.buf.text = t0 →
      (ts.foldl Remote.log r0).logged.flatten ++ (ts.foldl Remote.log r0).buf.text = t0 ++ ts.flatten
      ∧ (ts.foldl Remote.log r0).wire ++ (ts.foldl Remote.log r0).buf.text = t0 ++ ts.flatten
      ∧ (ts.foldl Remote.log r0).buf.text.length ≤ cap := by
    intro ts
    induction ts with
    | nil => intro r0 t0 _ _ _ h1 h2 h3; simp [h1, h2, h3]
    | cons x ts ih =>
      intro r0 t0 hf hc hb hlen h1 h2
      simp only [List.foldl_cons, List.flatten_cons]
      rw [← List.append_assoc]
      obtain ⟨⟨c, b, bo⟩, w, lg⟩ := r0
      simp only at hc hb hlen h1 h2
      subst hc; subst hb
      have hx := hf x (List.mem_cons_self ..)
      have hstep : ∃ b' out, (Remote.log ⟨⟨c, b, false⟩, w, lg⟩ x) =
          ⟨⟨c, b', false⟩, w ++ out, lg ++ (if out.length > 0 then [out] else [])⟩
          ∧ out ++ b' = b ++ x ∧ b'.length ≤ c := by
        unfold Remote.log bufferedPrintAndReturn
        simp only [Bool.false_eq_true, if_false]
        cases hfx : find x with
        | some k =>
          have hk := hx k hfx
          have hd : (x.drop (k + 1)).length ≤ c := by rw [List.length_drop]; exact hk
          refine ⟨x.drop (k + 1), b ++ x.take (k + 1), ?_, ?_, hd⟩
          · simp only [List.length_nil, Nat.sub_zero, List.nil_append, hd, if_true]
            split
            · rename_i b1 o1 m1 e
              simp only [Prod.mk.injEq] at e
              obtain ⟨rfl, rfl, e⟩ := e
              split at e
              · rename_i hpos
                rw [← Option.some.inj e, if_pos hpos]
              · cases e
            · rename_i b1 o1 e
              simp only [Prod.mk.injEq] at e
              obtain ⟨rfl, rfl, e⟩ := e
              split at e
              · cases e
              · rename_i hpos
                rw [if_neg hpos, List.append_nil]
          · rw [List.append_assoc, List.take_append_drop]
        | none =>
          by_cases hg : x.length > c - b.length
          · refine ⟨[], b ++ x, ?_, by simp, Nat.zero_le _⟩
            simp only [hg, if_true]
            split
            · rename_i b1 o1 m1 e
              simp only [Prod.mk.injEq] at e
              obtain ⟨rfl, rfl, e⟩ := e
              split at e
              · rename_i hpos
                rw [← Option.some.inj e, if_pos hpos]
              · cases e
            · rename_i b1 o1 e
              simp only [Prod.mk.injEq] at e
              obtain ⟨rfl, rfl, e⟩ := e
              split at e
              · cases e
              · rename_i hpos
                rw [if_neg hpos, List.append_nil]
          · refine ⟨b ++ x, [], ?_, by simp, by simp only [List.length_append]; omega⟩
            simp [hg]
      obtain ⟨b', out, he, ho, hl'⟩ := hstep
      rw [he]
      refine ih _ (t0 ++ x) (fun t ht => hf t (List.mem_cons_of_mem _ ht)) rfl rfl hl' ?_ ?_
      · simp only [List.flatten_append]
        have : (if out.length > 0 then [out] else []).flatten = out := by
          split
          · simp
          · rename_i h; simp at h; simp [h]
        rw [this, List.append_assoc, ho, ← List.append_assoc, h1]
      · simp only []
        rw [List.append_assoc, ho, ← List.append_assoc, h2]
  have := key ts ⟨⟨cap, [], false⟩, [], []⟩ [] hf rfl rfl (Nat.zero_le _) rfl rfl
  simpa using this

/-! ## An exception in the middle of a print, and the buffer before `init` -/

/-- Text printed by a handler that interrupted a print, or before the buffer was set up, goes out at once. -/
theorem c90_handler (b : Buf) (s : List UInt8) (h : b.borrowed = true ∨ b = Buf.early) :
    bufferedPrint b s = (b, s) := by
  rcases h with h | rfl
  · simp [bufferedPrint, h]
  · obtain ⟨h1, h2, h3, h4⟩ := print_complete 0 [] s (Nat.le_refl 0)
    have h5 := List.length_eq_zero_iff.mp (Nat.le_zero.mp h2)
    rw [h5, List.append_nil, List.nil_append] at h1
    show bufferedPrint ⟨0, [], false⟩ s = (⟨0, [], false⟩, s)
    generalize bufferedPrint ⟨0, [], false⟩ s = r at *
    obtain ⟨⟨c, t, b⟩, o⟩ := r
    simp only at h1 h3 h4 h5
    rw [h1, h3, h4, h5]

/-- Whatever was printed before, setting up the buffer succeeds, and every core begins with an empty buffer for 128 bytes. -/
theorem c90_init (ts : List (List UInt8)) (i : Nat) :
    (ts.foldl (fun b t => (bufferedPrint b t).1) Buf.early).init = some ((Sys.start 128).cores i).buf := by
  have h : ∀ ts : List (List UInt8), ts.foldl (fun b t => (bufferedPrint b t).1) Buf.early = Buf.early := by
    intro ts
    induction ts with
    | nil => rfl
    | cons t ts ih => rw [List.foldl_cons, c90_handler _ t (.inr rfl)]; exact ih
  rw [h]
  rfl

/-! ## `sys_println!` -/

theorem lines_crlf : ∀ t : List UInt8, nl ∉ t → lines (t ++ [13, 10]) = ([t ++ [13, 10]], [])
  | [], _ => by decide
  | b :: t, h => by
    have hb : b ≠ nl := fun e => h (e ▸ List.mem_cons_self)
    have ih := lines_crlf t (fun e => h (List.mem_cons_of_mem _ e))
    simp only [List.cons_append, lines, hb, if_false, ih]

/-- What a program prints with `sys_println!` (in pieces, without line feeds of its own) is of the kind that
`c90_lines_partial` speaks of, and it is one line: the text, a carriage return and a line feed. -/
theorem c90_println (pieces : List (List UInt8)) (h : ∀ p ∈ pieces, nl ∉ p) :
    (∀ t ∈ println pieces, LineWise t) ∧
    lines (println pieces).flatten = ([pieces.flatten ++ [13, 10]], []) := by
  constructor
  · intro t ht
    rcases List.mem_append.1 ht with ht | ht
    · exact fun e => h t ht (List.dropLast_subset t e)
    · cases List.mem_singleton.1 ht
      unfold LineWise
      decide
  · have e : (println pieces).flatten = pieces.flatten ++ [13, 10] := by simp [println]
    rw [e]
    refine lines_crlf _ fun hm => ?_
    obtain ⟨p, hp, hn⟩ := List.mem_flatten.1 hm
    exact h p hp hn

/-! ## `rumpuser_putchar` -/

/-- An ASCII character comes out as it is, a line feed as carriage return and line feed. Missing: bytes from 128 on, see
`c90_putchar_changes`. -/
theorem c90_putchar_partial (b : UInt8) (h : b < 128) :
    (putchar b).flatten = (if b = nl then [13, nl] else [b]) := by
  unfold putchar encode
  by_cases hb : b = nl
  · subst hb; decide
  · simp [hb, h]

end NRK.Console
