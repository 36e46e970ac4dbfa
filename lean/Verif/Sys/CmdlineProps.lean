import Verif.Sys.CmdlineModel
import Mathlib.Data.List.Induction

/-!
# C56: the kernel command line

Specification: a command line is a list of settings; an option has the last value that was given for it,
or else its default.
-/

namespace NRK.Sys.Cmd

/-- A setting of the command line: an option, any number of `=`, and a value that is a word or (except
for `mode` and `transport`) a quoted string. -/
structure Setting where
  opt : Opt
  seps : Nat
  value : Str
  quoted : Bool

/-- The values that the parser understands in quotes. -/
def Setting.Ok (x : Setting) : Prop := x.quoted = true → x.opt ≠ .mode ∧ x.opt ≠ .transport

/-- How a setting is written. -/
def Setting.tokens (x : Setting) : List Token :=
  .key x.opt :: List.replicate x.seps .sep ++ [if x.quoted then .literal x.value else .ident x.value]

/-- A command line: possibly the name of the kernel, then settings. -/
def render (kernel : Bool) (l : List Setting) : List Token :=
  (if kernel then [.kernelBinary] else []) ++ l.flatMap Setting.tokens

/-- The last value given for an option. -/
def lastValue (l : List Setting) (o : Opt) : Option Str :=
  ((l.filter (fun x => x.opt = o)).getLast?).map (·.value)

/-- What a list of settings says. -/
def Says (l : List Setting) (a : Args) : Prop :=
  a.logFilter = (lastValue l .log).getD "info".toList ∧
  a.initBinary = (lastValue l .initBinary).getD "init".toList ∧
  a.initArgs = (lastValue l .initArgs).getD [] ∧
  a.appArgs = (lastValue l .appArgs).getD [] ∧
  a.test = lastValue l .test ∧
  a.mode = ((lastValue l .mode).map Mode.ofStr).getD .native ∧
  a.transport = ((lastValue l .transport).map Transport.ofStr).getD .shmem ∧
  a.machineId = ((lastValue l .machineId).map fun s => (parseUnsigned (2 ^ 64) s).getD 0).getD 0 ∧
  a.workers = ((lastValue l .workers).map fun s => (parseUnsigned 256 s).getD 1).getD 1

/-- The transport is available in the build (`shmem`, `ethernet`), or not needed. -/
def Available (shmem ethernet : Bool) (a : Args) : Prop :=
  a.mode = .native ∨ (a.transport = .shmem ∧ shmem = true) ∨ (a.transport = .ethernet ∧ ethernet = true)

theorem lastValue_snoc (l : List Setting) (x : Setting) (o : Opt) :
    lastValue (l ++ [x]) o = if x.opt = o then some x.value else lastValue l o := by
  unfold lastValue
  rw [List.filter_append]
  by_cases h : x.opt = o
  · simp [h]
  · simp [h]

theorem steps_append (st : Args × Option Opt) (l l' : List Token) :
    steps st (l ++ l') = (steps st l).bind (fun st => steps st l') := by
  induction l generalizing st with
  | nil => rfl
  | cons t l ih =>
    simp only [List.cons_append, steps]
    cases step st t with
    | ok st => exact ih st
    | err e => rfl
    | panic => rfl

theorem steps_seps (a : Args) (o : Opt) (n : Nat) :
    steps (a, some o) (List.replicate n .sep) = .ok (a, some o) := by
  induction n with
  | zero => rfl
  | succ n ih => simp only [List.replicate_succ, steps, step, ih]

theorem steps_setting (a : Args) (p : Option Opt) (x : Setting) (h : x.Ok) :
    steps (a, p) x.tokens = .ok (a.setIdent x.opt x.value, none) := by
  obtain ⟨o, n, v, q⟩ := x
  simp only [Setting.tokens, List.cons_append, steps, step]
  rw [steps_append, steps_seps]
  cases q with
  | false => rfl
  | true =>
    have := h rfl
    cases o <;> first | rfl | exact absurd rfl this.1 | exact absurd rfl this.2

theorem says_nil : Says [] .default := ⟨rfl, rfl, rfl, rfl, rfl, rfl, rfl, rfl, rfl⟩

theorem says_snoc {l : List Setting} {a : Args} (h : Says l a) (x : Setting) :
    Says (l ++ [x]) (a.setIdent x.opt x.value) := by
  obtain ⟨o, n, v, q⟩ := x
  obtain ⟨h1, h2, h3, h4, h5, h6, h7, h8, h9⟩ := h
  unfold Says
  simp only [lastValue_snoc]
  cases o <;>
    simp only [Args.setIdent, h1, h2, h3, h4, h5, h6, h7, h8, h9, usizeBound, u8Bound, reduceCtorEq,
      if_true, if_false, Option.getD_some, Option.map_some, and_self]

theorem steps_settings (l : List Setting) (h : ∀ x ∈ l, x.Ok) :
    ∃ a, steps (.default, none) (l.flatMap Setting.tokens) = .ok (a, none) ∧ Says l a := by
  induction l using List.reverseRecOn with
  | nil => exact ⟨_, rfl, says_nil⟩
  | append_singleton l x ih =>
    obtain ⟨a, ha, hs⟩ := ih (fun y hy => h y (List.mem_append_left _ hy))
    refine ⟨_, ?_, says_snoc hs x⟩
    rw [List.flatMap_append, steps_append, ha]
    simp only [Outcome.bind, List.flatMap_cons, List.flatMap_nil, List.append_nil]
    exact steps_setting a none x (h x (by simp))

theorem steps_render (kernel : Bool) (l : List Setting) (h : ∀ x ∈ l, x.Ok) :
    ∃ a, steps (.default, none) (render kernel l) = .ok (a, none) ∧ Says l a := by
  obtain ⟨a, ha, hs⟩ := steps_settings l h
  refine ⟨a, ?_, hs⟩
  cases kernel
  · exact ha
  · exact ha

/-- C56: each option has the last value given for it, the others have their defaults; the command line is
accepted exactly if the transport it asks for is part of the build. -/
theorem c56_parse (shmem ethernet kernel : Bool) (l : List Setting) (h : ∀ x ∈ l, x.Ok) :
    ∃ a, Says l a ∧
      (Available shmem ethernet a → fromTokens shmem ethernet (render kernel l) = .ok a) ∧
      (¬ Available shmem ethernet a →
        fromTokens shmem ethernet (render kernel l) = .err .invalidCmdLineOptions) := by
  obtain ⟨a, ha, hs⟩ := steps_render kernel l h
  refine ⟨a, hs, ?_, ?_⟩ <;> intro hv <;> simp only [fromTokens, ha]
  · unfold Available at hv
    rw [if_neg, if_neg]
    · rintro ⟨h1, h2, h3⟩
      rcases hv with hv | hv | hv
      · exact h2 hv
      · rw [hv.1] at h3; cases h3
      · rw [hv.2] at h1; cases h1
    · rintro ⟨h1, h2, h3⟩
      rcases hv with hv | hv | hv
      · exact h2 hv
      · rw [hv.2] at h1; cases h1
      · rw [hv.1] at h3; cases h3
  · unfold Available at hv
    by_cases hm : a.mode = .native
    · exact absurd (.inl hm) hv
    cases ht : a.transport with
    | shmem =>
      rw [if_pos]
      refine ⟨?_, hm, rfl⟩
      cases shmem
      · rfl
      · exact absurd (.inr (.inl ⟨ht, rfl⟩)) hv
    | ethernet =>
      rw [if_neg (by rintro ⟨_, _, h⟩; cases h), if_pos]
      refine ⟨?_, hm, rfl⟩
      cases ethernet
      · rfl
      · exact absurd (.inr (.inr ⟨ht, rfl⟩)) hv

/-- The settings determine the arguments. -/
theorem c56_says_one {l : List Setting} {a a' : Args} (h : Says l a) (h' : Says l a') : a = a' := by
  obtain ⟨h1, h2, h3, h4, h5, h6, h7, h8, h9⟩ := h
  obtain ⟨k1, k2, k3, k4, k5, k6, k7, k8, k9⟩ := h'
  cases a; cases a'
  simp only at *
  subst_vars
  rfl

theorem bad_suffix (shmem ethernet kernel : Bool) (l : List Setting) (h : ∀ x ∈ l, x.Ok) (t : Token)
    (rest : List Token) (e : KError) (he : ∀ a, step (a, none) t = .err e) :
    fromTokens shmem ethernet (render kernel l ++ t :: rest) = .err e := by
  obtain ⟨a, ha, _⟩ := steps_render kernel l h
  simp only [fromTokens, steps_append, ha, Outcome.bind, steps, he]

/-- C56: a word that is not the value of an option is rejected, whatever follows. -/
theorem c56_stray_value (shmem ethernet kernel : Bool) (l : List Setting) (h : ∀ x ∈ l, x.Ok) (s : Str)
    (rest : List Token) :
    fromTokens shmem ethernet (render kernel l ++ .ident s :: rest) = .err .invalidCmdLineOptions :=
  bad_suffix _ _ _ l h _ _ _ (fun _ => rfl)

/-- C56: so is a `=` without an option before it. -/
theorem c56_stray_equals (shmem ethernet kernel : Bool) (l : List Setting) (h : ∀ x ∈ l, x.Ok)
    (rest : List Token) :
    fromTokens shmem ethernet (render kernel l ++ .sep :: rest) = .err .malformedCmdLine :=
  bad_suffix _ _ _ l h _ _ _ (fun _ => rfl)

/-- C56: a command line with text that is not a token is not accepted, wherever it is. -/
theorem c56_bad_token (shmem ethernet : Bool) (l l' : List Token) :
    ∃ e, fromTokens shmem ethernet (l ++ .error :: l') = .err e := by
  have noPanic : ∀ (l : List Token) st, steps st l ≠ .panic := by
    intro l
    induction l with
    | nil => intro st; nofun
    | cons t l ih =>
      intro st
      simp only [steps]
      cases t with
      | kernelBinary => exact ih _
      | key o => exact ih _
      | ident s => simp only [step]; cases st.2 with
        | none => nofun
        | some o => exact ih _
      | sep => simp only [step]; cases st.2 with
        | none => nofun
        | some o => exact ih _
      | literal s =>
        simp only [step]
        cases st.2 with
        | none => exact ih _
        | some o =>
          simp only
          cases st.1.setLiteral o s with
          | none => exact ih _
          | some a => exact ih _
      | error => nofun
  unfold fromTokens
  rw [steps_append]
  cases e : steps (Args.default, none) l with
  | ok st => exact ⟨_, rfl⟩
  | err x => exact ⟨_, rfl⟩
  | panic => exact absurd e (noPanic _ _)

theorem digits_eq (n : Nat) (s : Str) (h : ∀ c ∈ s, c.isDigit = true) :
    digits n s = some (Nat.ofDigitChars 10 s n) := by
  induction s generalizing n with
  | nil => rfl
  | cons c s ih =>
    have hc := h c (by simp)
    simp only [Char.isDigit, Bool.and_eq_true, decide_eq_true_eq] at hc
    rw [digits, if_pos (show '0' ≤ c ∧ c ≤ '9' from hc), ih _ (fun c hc => h c (by simp [hc])), Nat.ofDigitChars_cons, Nat.mul_comm]

/-- C56: a number is read as written in decimal, if it is in the range of its type; otherwise it is not
read (and the option gets its default). -/
theorem c56_number (bound n : Nat) :
    parseUnsigned bound n.repr.toList = (if n < bound then some n else none) ∧
    parseUnsigned bound ('+' :: n.repr.toList) = (if n < bound then some n else none) := by
  have hd : ∀ c ∈ Nat.toDigits 10 n, c.isDigit = true :=
    fun c hc => Nat.isDigit_of_mem_toDigits (by omega) (by omega) hc
  have hne : Nat.toDigits 10 n ≠ [] := Nat.toDigits_ne_nil
  have hv := Nat.ofDigitChars_toDigits (b := 10) (n := n) (by omega) (by omega)
  have h : ∀ t, (t = Nat.toDigits 10 n) → (if t = [] then none
      else match digits 0 t with
        | some n => if n < bound then some n else none
        | none => none) = if n < bound then some n else none := by
    rintro _ rfl
    rw [if_neg hne, digits_eq 0 _ hd, hv]
  rw [Nat.toList_repr]
  refine ⟨?_, h _ rfl⟩
  unfold parseUnsigned
  apply h
  split
  · rename_i t e
    have := hd '+' (by rw [e]; simp)
    cases this
  · rfl

/-- C56: text other than digits is not read as a number. -/
theorem c56_not_a_number (bound : Nat) (c : Char) (s : Str) (hc : c ∈ s) (hp : c ≠ '+')
    (hd : c.isDigit = false) : parseUnsigned bound s = none := by
  have key : ∀ (s : Str) (n : Nat), c ∈ s → digits n s = none := by
    intro s
    induction s with
    | nil => intro n h; cases h
    | cons b s ih =>
      intro n h
      rw [digits]
      split
      · rename_i hb
        rcases List.mem_cons.1 h with rfl | h
        · simp only [Char.isDigit, Bool.and_eq_false_iff, decide_eq_false_iff_not] at hd
          rcases hd with hd | hd
          · exact absurd hb.1 hd
          · exact absurd hb.2 hd
        · exact ih _ h
      · rfl
  have fin : ∀ t, c ∈ t → (if t = [] then none
      else match digits 0 t with
        | some n => if n < bound then some n else none
        | none => none) = (none : Option Nat) := by
    intro t ht
    rw [key t 0 ht]
    split <;> rfl
  unfold parseUnsigned
  apply fin
  split
  · rcases List.mem_cons.1 hc with h | h
    · exact absurd h hp
    · exact h
  · exact hc

/-- C56: the modes and transports. -/
theorem c56_modes :
    Mode.ofStr "native".toList = .native ∧ Mode.ofStr "controller".toList = .controller ∧
    Mode.ofStr "client".toList = .client ∧ Transport.ofStr "shmem".toList = .shmem ∧
    Transport.ofStr "ethernet".toList = .ethernet ∧
    (∀ s, s ≠ "controller".toList → s ≠ "client".toList → Mode.ofStr s = .native) ∧
    (∀ s, s ≠ "ethernet".toList → Transport.ofStr s = .shmem) := by
  refine ⟨by decide, by decide, by decide, by decide, by decide, ?_, ?_⟩
  · intro s h1 h2
    unfold Mode.ofStr
    by_cases h : s = "native".toList
    · rw [if_pos h]
    · rw [if_neg h, if_neg h1, if_neg h2]
  · intro s h
    unfold Transport.ofStr
    rw [if_neg h]

/-! ## Concrete cases -/

/-- `./kernel log=trace mid=3 log='debug' workers=2`. -/
example : fromTokens true true
    (render true [⟨.log, 1, "trace".toList, false⟩, ⟨.machineId, 1, "3".toList, false⟩,
      ⟨.log, 1, "debug".toList, true⟩, ⟨.workers, 1, "2".toList, false⟩]) =
    .ok { Args.default with logFilter := "debug".toList, machineId := 3, workers := 2 } := by
  decide +kernel

example : fromTokens false true (render true [⟨.mode, 1, "client".toList, false⟩]) =
    .err .invalidCmdLineOptions := by decide +kernel

/-! ## Findings -/

/-- Finding.  A quoted mode is skipped without an error, and the next word is taken for the mode:
`mode='client' controller` is accepted, as controller. -/
theorem c56_quoted_mode :
    fromTokens true true [.key .mode, .sep, .literal "client".toList] = .ok .default ∧
    fromTokens true true [.key .mode, .sep, .literal "client".toList, .ident "controller".toList] =
      .ok { Args.default with mode := .controller } := by
  constructor <;> decide +kernel

/-- Finding.  The words that name options cannot be values (the lexer takes them for options): in
`test=log init=foo` no test is set, and no error is reported. -/
theorem c56_keyword_value :
    fromTokens true true [.key .test, .sep, .key .log, .key .initBinary, .sep, .ident "foo".toList] =
      .ok { Args.default with initBinary := "foo".toList } := by
  decide +kernel

/-- Finding.  A quoted string that belongs to no option is skipped, unlike a word. -/
theorem c56_quoted_stray (s : Str) : fromTokens true true [.literal s] = .ok .default := rfl

/-- Finding.  Values that are not understood are replaced by defaults, without an error. -/
theorem c56_bad_values :
    fromTokens true true (render true [⟨.mode, 1, "cleint".toList, false⟩,
      ⟨.workers, 1, "256".toList, false⟩, ⟨.machineId, 1, "x".toList, false⟩]) = .ok .default := by
  decide +kernel

end NRK.Sys.Cmd
