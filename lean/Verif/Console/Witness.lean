import Verif.Console.Props

/-!
# C90: cases that meet the hypotheses, and what the code does not do

Texts are written as bytes: `h i` is 104 105, `x y` is 120 121, the line feed is 10.
-/

namespace NRK.Console

open Spec

/-- All texts are accepted; the texts below are ASCII. -/
def ascii (_ : List UInt8) : Bool := true

/-- Core `i` takes the lock, writes `n` bytes and returns. -/
def flush (i n : Nat) : List Act := [.lock i] ++ List.replicate n (.putb i) ++ [.unlock i]

/-! ## A case that meets the hypotheses -/

/-- Two cores print a line in pieces, at the same time; the second waits for the lock. -/
def twoCores : List Act :=
  [.print 0 [104], .print 1 [120], .print 0 [105], .print 1 [121, 10], .lock 1, .putb 1, .print 0 [13, 10],
    .putb 1, .putb 1, .unlock 1] ++ flush 0 4 ++ [.print 0 [33]]

theorem twoCores_runs : ∃ s, (Sys.start 128).run ascii twoCores = some s
    ∧ s.wire = [(1, 120), (1, 121), (1, 10), (0, 104), (0, 105), (0, 13), (0, 10)]
    ∧ (s.cores 0).buf.text = [33] :=
  ⟨_, rfl, by decide +kernel, by decide +kernel⟩

theorem twoCores_lineWise : ∀ i t, Act.print i t ∈ twoCores → LineWise t := by
  intro i t h
  simp only [twoCores, flush, List.replicate, List.cons_append, List.nil_append, List.append_assoc, List.mem_cons,
    List.not_mem_nil, or_false, reduceCtorEq, false_or, Act.print.injEq] at h
  rcases h with ⟨_, rfl⟩ | ⟨_, rfl⟩ | ⟨_, rfl⟩ | ⟨_, rfl⟩ | ⟨_, rfl⟩ | ⟨_, rfl⟩ <;> unfold LineWise <;> decide

theorem twoCores_fits (i : Nat) : Fits 128 (said (twoCores.map (Act.ev ascii)) i) := by
  intro u m v e _
  have hlen : (said (twoCores.map (Act.ev ascii)) i).length ≤ 128 := by
    simp only [twoCores, flush, List.replicate, List.cons_append, List.nil_append, List.append_assoc, List.map_cons,
      List.map_nil, Act.ev, ascii, if_true, said, List.append_nil, List.length_append]
    have hle : ∀ (j : Nat) (t : List UInt8), (if j = i then t else []).length ≤ t.length := by
      intro j t; split <;> simp
    have h1 := hle 0 [104]; have h2 := hle 1 [120]; have h3 := hle 0 [105]
    have h4 := hle 1 [121, 10]; have h5 := hle 0 [13, 10]; have h6 := hle 0 [33]
    simp only [List.length_cons, List.length_nil] at h1 h2 h3 h4 h5 h6
    omega
  rw [e] at hlen
  simp only [List.length_append] at hlen
  omega

/-! ## What the code does not do -/

/-- `exit` does not write the buffer out: a program prints `hi` and exits, and nothing is seen. -/
theorem c90_exit_loses : ∃ s, (Sys.start 128).run ascii [.print 0 [104, 105], .exit 0] = some s
    ∧ s.off = true ∧ s.wire = [] ∧ said ([.print 0 [104, 105], .exit 0].map (Act.ev ascii)) 0 = [104, 105] :=
  ⟨_, rfl, rfl, rfl, rfl⟩

/-- Of a text with two lines the second stays in the buffer though it is complete, and is lost if the
program exits then. -/
theorem c90_second_line_held : ∃ s, (Sys.start 128).run ascii
      ([.print 0 [120, 10, 121, 10]] ++ flush 0 2 ++ [.exit 0]) = some s
    ∧ s.wire = [(0, 120), (0, 10)] ∧ (lines [120, 10, 121, 10]).1 = [[120, 10], [121, 10]] :=
  ⟨_, rfl, by decide +kernel, by decide +kernel⟩

/-- Lines longer than the buffer get mixed with those of other cores: core 0 prints 129 `a` and a line feed,
core 1 prints `x` and a line feed in between. -/
theorem c90_long_line_mixed :
    ((Sys.start 128).run ascii
      ([.print 0 (List.replicate 129 97)] ++ flush 0 129 ++ [.print 1 [120, 10]] ++ flush 1 2 ++ [.print 0 [10]]
        ++ flush 0 1)).map (fun s => s.wire.map Prod.snd)
    = some (List.replicate 129 97 ++ [120, 10, 10]) := by
  decide +kernel

/-- A text that is not valid UTF-8 is dropped, whole, and the call succeeds. -/
theorem c90_not_utf8_dropped (utf8 : List UInt8 → Bool) (s : Sys) (i : Nat) (t : List UInt8)
    (h : utf8 t = false) (hon : s.off = false) (hi : (s.cores i).pc = .idle) :
    ∃ s', s.step utf8 (.print i t) = some s' ∧ s'.wire = s.wire ∧ s'.cores i = s.cores i := by
  refine ⟨{ s with cores := upd s.cores i ((s.cores i).print utf8 t) }, ?_, rfl, ?_⟩
  · simp [Sys.step, hon, hi]
  · simp [upd_same, Core.print, h]

/-- The controller does not get the first line of a text whose rest does not fit the buffer: the client prints `x`, a line
feed and 129 `a`. -/
theorem c90_remote_loses :
    (Remote.log ⟨⟨128, [], false⟩, [], []⟩ ([120, 10] ++ List.replicate 129 97)).logged = [List.replicate 129 97]
    ∧ (Remote.log ⟨⟨128, [], false⟩, [], []⟩ ([120, 10] ++ List.replicate 129 97)).buf.text = []
    ∧ (Remote.log ⟨⟨128, [], false⟩, [], []⟩ ([120, 10] ++ List.replicate 129 97)).wire
        = [120, 10] ++ List.replicate 129 97 := by
  decide +kernel

/-- The texts of `c90_remote_partial` can be had: the pieces of two lines. -/
theorem remote_sample :
    (∀ t ∈ [[104], [105, 13, 10], [120, 10, 121]], ∀ k, find t = some k → t.length - (k + 1) ≤ 128)
    ∧ ([[104], [105, 13, 10], [120, 10, 121]].foldl Remote.log ⟨⟨128, [], false⟩, [], []⟩)
        = ⟨⟨128, [121], false⟩, [104, 105, 13, 10, 120, 10], [[104, 105, 13, 10], [120, 10]]⟩ := by
  constructor
  · intro t ht k _
    simp only [List.mem_cons, List.not_mem_nil, or_false] at ht
    rcases ht with rfl | rfl | rfl <;> simp only [List.length_cons, List.length_nil] <;> omega
  · decide +kernel

/-- `putchar` of the two bytes of `é` in UTF-8 prints four other bytes. -/
theorem c90_putchar_changes :
    ([195, 169].flatMap putchar).flatten = [195, 131, 194, 169]
    ∧ ∀ b : UInt8, ¬ b < 128 → (putchar b).flatten ≠ [b] := by
  constructor
  · decide
  · intro b hb h
    have hn : b ≠ nl := by rintro rfl; exact hb (by decide)
    have := congrArg List.length h
    simp [putchar, encode, hb, hn] at this

/-- `c90_println` and `c90_init` on an example: "hi" in two pieces. -/
example : (println [[104], [105]]).flatten = [104, 105, 13, 10] ∧ ∀ p ∈ [[104], [105]], Spec.nl ∉ p := by decide

end NRK.Console
