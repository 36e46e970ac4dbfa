import Verif.Boot.ModsProps

/-!
# C103 on concrete boot media
-/

namespace NRK.Boot.Mods.Wit

/-- An allocator that goes upward and never gives a page twice. -/
def bump (as : List (Nat × Nat)) (_ : Nat) : Nat := as.foldr (fun p r => max (p.1 + p.2 * 4096) r) 0x100000

theorem bump_fresh : Spec.Fresh bump := by
  intro as n b k h
  right
  unfold bump
  induction as with
  | nil => cases h
  | cons a as ih =>
    rw [List.foldr_cons]
    rcases List.mem_cons.1 h with rfl | h
    · exact Nat.le_max_left _ _
    · exact Nat.le_trans (ih h) (Nat.le_max_right _ _)

/-- A file system as it is made for the emulator. -/
def esp : List Spec.Item :=
  [("EFI", true, []), ("BootX64.efi", false, [1, 2]), ("kernel", false, [7, 8, 9]), ("cmdline.in", false, [65, 66]),
    ("init", false, [10, 11]), ("a-program-with-a-very-long-file-name", false, [5])]

/-- A second one, with another `init`. -/
def usb : List Spec.Item := [("init", false, [20])]

def st0 : St := ⟨fun _ => 0xFF, []⟩

theorem esp_dir : Spec.Dir esp := by unfold Spec.Dir; decide +kernel

theorem usb_dir : Spec.Dir usb := by unfold Spec.Dir; decide +kernel

/-- The hypotheses of `c103_all_partial` and `c103_starts`, and what the programs are. -/
theorem wit_programs : (∀ l ∈ [esp, usb], Spec.Dir l) ∧ (∀ l ∈ [esp, usb], l.length ≤ 32 ∧ ∀ x ∈ l, x.1.length ≤ 87) ∧
    ([esp, usb].map Spec.programs).flatten =
      [("kernel", [7, 8, 9]), ("cmdline.in", [65, 66]), ("init", [10, 11]), ("init", [20])] := by
  refine ⟨?_, by decide +kernel, by decide +kernel⟩
  intro l hl
  simp only [List.mem_cons, List.not_mem_nil, or_false] at hl
  rcases hl with rfl | rfl
  · exact esp_dir
  · exact usb_dir

/-- The machine starts. -/
theorem wit_starts : ∃ r, boot bump ([esp, usb].map (·.map file)) st0 = .ok r := by
  obtain ⟨h1, h2, h3⟩ := wit_programs
  refine (c103_starts bump_fresh _ h1 h2 st0).2 ?_
  rw [h3]
  exact ⟨⟨[7, 8, 9], by decide⟩, ⟨[65, 66], by decide⟩, by decide⟩

/-- The process `init` would be made of two programs. -/
theorem wit_mixed : ∃ (st' : St) (h : Handed) (a b : Module),
    boot bump ([esp, usb].map (·.map file)) st0 = .ok (st', h) ∧
      processLoad h "init" = some a ∧ makeProcess h "init" = some b ∧
      a.slice st'.mem = [10, 11] ∧ b.slice st'.mem = [20] := by
  obtain ⟨h1, h2, h3⟩ := wit_programs
  obtain ⟨st2, ms, hl, hv⟩ := c103_all_partial bump_fresh _ h1 h2 st0
  rw [h3] at hv
  rcases ms with _ | ⟨k, _ | ⟨c, _ | ⟨a, _ | ⟨b, _ | ⟨e, l⟩⟩⟩⟩⟩
  case cons.cons.cons.cons.nil =>
    simp only [List.map_cons, List.map_nil, List.cons.injEq, Prod.mk.injEq, and_true] at hv
    obtain ⟨⟨hk, _⟩, ⟨hc, _⟩, ⟨ha, ha'⟩, hb', hb''⟩ := hv
    refine ⟨st2, ⟨k, c, [k, c, a, b]⟩, a, b, ?_, ?_, ?_, ha', hb''⟩
    · unfold boot
      rw [hl]
      simp [Outcome.bind, findLast, kernelArgs, hk, hc, ha, hb', maxModules]
    · simp [processLoad, findFirst, hk, hc, ha]
    · simp [makeProcess, findLast, hk, hc, ha, hb']
  all_goals simp at hv

/-- Finding: 32 directories and then the kernel: it is not looked at, though no module was loaded. -/
theorem wit_limit : Spec.programs (((List.replicate 32 (("d", true, []) : Spec.Item) ++ esp).takeWhile
      fun x => x.1.length ≤ 87).take 32) = [] ∧
    (loop bump ((List.replicate 32 (("d", true, []) : Spec.Item) ++ esp).map file) 32 0 st0).map (fun r => r.2.length) = .ok 0 := by
  refine ⟨by decide +kernel, ?_⟩
  rfl

/-- Finding: a file whose name has 88 characters hides all that come after it. -/
theorem wit_long : (Spec.programs (((("kernel", false, [7]) : Spec.Item) :: (String.ofList (List.replicate 88 'x'), false, []) ::
      [("cmdline.in", false, [65])]).takeWhile fun x => x.1.length ≤ 87)).map (·.1) = ["kernel"] := by decide +kernel

/-- The name of an emoji and `a`. -/
theorem wit_surrogate : loadModules bump [⟨[0xD83D, 0xDE00, 0x61], false, [1]⟩] st0 = .panic := by
  refine c103_surrogate _ _ _ _ rfl (by decide) ?_ ?_ ?_
  · decide +kernel
  · decide +kernel
  · decide +kernel

/-- A name with characters of two and three bytes is kept. -/
theorem wit_name : (Module.new (nameString [0x66, 0xFC, 0x20AC]) 0 0).name = "fü€" := by
  rw [show nameString [0x66, 0xFC, 0x20AC] = "fü€" from by decide +kernel]
  exact c103_names _ _ _ (by decide +kernel)

end NRK.Boot.Mods.Wit
