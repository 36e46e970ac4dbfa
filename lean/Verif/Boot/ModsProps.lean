import Verif.Boot.ModsModel
import Verif.Boot.ModsSpec

/-!
# C103: The programs on the boot medium reach the kernel, whole and under their names
-/

namespace NRK.Boot.Mods

/-- The directory entry of an item. -/
def file (x : Spec.Item) : File := ⟨units x.1, x.2.1, x.2.2⟩

/-! ## Names -/

theorem char_surrogate (c : Char) : surrogate c.toNat = false := by
  have h := c.valid
  unfold surrogate
  simp only [UInt32.isValidChar, Nat.isValidChar] at h
  have : c.toNat = c.val.toNat := rfl
  simp only [Bool.and_eq_false_iff, decide_eq_false_iff_not]
  omega

/-- A name of characters is read as it is. -/
theorem nameString_units (s : String) : nameString (units s) = s := by
  unfold nameString units
  rw [List.filter_eq_self.2]
  · rw [List.map_map]
    have : (Char.ofNat ∘ Char.toNat) = id := by
      funext c
      simp
    rw [this, List.map_id, String.ofList_toList]
  · intro u hu
    obtain ⟨c, _, rfl⟩ := List.mem_map.1 hu
    rw [char_surrogate]
    rfl

theorem units_inj {s t : String} (h : units s = units t) : s = t := by
  rw [← nameString_units s, h, nameString_units]

/-- A module has the name it was made with if that is no longer than 32 bytes. -/
theorem c103_names (s : String) (b n : Nat) (h : s.utf8ByteSize ≤ 32) : (Module.new s b n).name = s := by
  have hs : s.toUTF8.size = s.utf8ByteSize := String.size_toByteArray
  unfold Module.new Module.name
  rw [Nat.min_eq_left (by omega)]
  simp only [ByteArray.extract_zero_size]
  unfold String.fromUTF8?
  have hv : s.toUTF8.IsValidUTF8 := s.isValidUTF8
  rw [dif_pos hv]
  rfl

/-! ## Memory -/

theorem pages_le (n : Nat) : n ≤ pages n * 4096 := by unfold pages; omega

/-- The module has its own pages. -/
def Owned (st : St) (m : Module) : Prop := ∃ n, (m.base, n) ∈ st.allocs ∧ m.size ≤ n * 4096

/-- What the modules consist of stays. -/
def Keeps (st st' : St) : Prop := ∀ m, Owned st m → Owned st' m ∧ m.slice st'.mem = m.slice st.mem

theorem Keeps.refl (st : St) : Keeps st st := fun _ h => ⟨h, rfl⟩

theorem Keeps.trans {a b c : St} (h : Keeps a b) (g : Keeps b c) : Keeps a c := fun m hm =>
  ⟨(g m (h m hm).1).1, (g m (h m hm).1).2.trans (h m hm).2⟩

theorem slice_write (mem : Nat → UInt8) (m : Module) (d : List UInt8) (h : m.size = d.length) :
    m.slice (write mem m.base d) = d := by
  unfold Module.slice write
  apply List.ext_getElem
  · simp [h]
  · intro i h1 h2
    simp [h2]

theorem slice_eq (m : Module) (f g : Nat → UInt8) (h : ∀ a, m.base ≤ a → a < m.base + m.size → f a = g a) :
    m.slice f = m.slice g := by
  unfold Module.slice
  apply List.map_congr_left
  intro i hi
  exact h _ (by omega) (by have := List.mem_range.1 hi; omega)

theorem write_other (mem : Nat → UInt8) (b a : Nat) (d : List UInt8) (h : ¬ (b ≤ a ∧ a < b + d.length)) :
    write mem b d a = mem a := by
  unfold write
  rw [if_neg h]

theorem locate_ok {dir : List File} {name : String} {f : File} (h : locate dir name = .ok f) :
    f ∈ dir ∧ f.name = units name ∧ f.dir = false := by
  unfold locate at h
  split at h
  · cases h
  next g hg =>
    split at h
    · cases h
    next hd =>
      cases h
      exact ⟨List.mem_of_find?_eq_some hg, by simpa using List.find?_some hg, by simpa using hd⟩

theorem loadBinary_ok {pick : List (Nat × Nat) → Nat → Nat} {dir : List File} {st st' : St} {name : String} {m : Module}
    (h : loadBinary pick dir st name = .ok (st', m)) :
    ∃ f, locate dir name = .ok f ∧ m = Module.new name (pick st.allocs (pages f.data.length)) f.data.length ∧
      st' = ⟨write (write st.mem (pick st.allocs (pages f.data.length)) (List.replicate (pages f.data.length * 4096) 0))
        (pick st.allocs (pages f.data.length)) f.data, (pick st.allocs (pages f.data.length), pages f.data.length) :: st.allocs⟩ := by
  unfold loadBinary Outcome.bind at h
  split at h
  next f hf =>
    simp only [allocatePages] at h
    cases h
    exact ⟨f, hf, rfl, rfl⟩
  · cases h
  · cases h

theorem loadBinary_keeps {pick : List (Nat × Nat) → Nat → Nat} (hp : Spec.Fresh pick) {dir : List File} {st st' : St}
    {name : String} {m : Module} (h : loadBinary pick dir st name = .ok (st', m)) : Keeps st st' := by
  obtain ⟨f, _, _, rfl⟩ := loadBinary_ok h
  rintro x ⟨n, hn, hs⟩
  refine ⟨⟨n, List.mem_cons_of_mem _ hn, hs⟩, ?_⟩
  apply slice_eq
  intro a h1 h2
  have hf := hp st.allocs (pages f.data.length) x.base n hn
  have hl := pages_le f.data.length
  show write _ _ _ a = _
  rw [write_other _ _ _ _ (by omega), write_other _ _ _ _ (by simp only [List.length_replicate]; omega)]

theorem loadBinary_new {pick : List (Nat × Nat) → Nat → Nat} {dir : List File} {st st' : St} {name : String} {m : Module}
    {f : File} (hf : locate dir name = .ok f) (h : loadBinary pick dir st name = .ok (st', m)) :
    Owned st' m ∧ m.slice st'.mem = f.data ∧ m = Module.new name m.base f.data.length := by
  obtain ⟨g, hg, rfl, rfl⟩ := loadBinary_ok h
  rw [hf] at hg
  cases hg
  exact ⟨⟨_, List.mem_cons_self, pages_le _⟩, slice_write _ _ _ rfl, rfl⟩

/-! ## Directories -/

/-- The name and the content of a module. -/
def view (st : St) (m : Module) : String × List UInt8 := (m.name, m.slice st.mem)

theorem find_item (l : List Spec.Item) (hn : (l.map (·.1)).Nodup) (x : Spec.Item) (hx : x ∈ l) :
    (l.map file).find? (fun f => f.name == units x.1) = some (file x) := by
  induction l with
  | nil => cases hx
  | cons y l ih =>
    rw [List.map_cons, List.nodup_cons] at hn
    rw [List.map_cons, List.find?_cons]
    rcases List.mem_cons.1 hx with rfl | hx'
    · simp [file]
    · have hne : (file y).name ≠ units x.1 := by
        intro h
        have := units_inj h
        exact hn.1 (this ▸ List.mem_map_of_mem hx')
      rw [show ((file y).name == units x.1) = false from by simpa using hne]
      exact ih hn.2 hx'

theorem programs_cons (x : Spec.Item) (l : List Spec.Item) :
    Spec.programs (x :: l) = Spec.programs [x] ++ Spec.programs l := by
  obtain ⟨a, b, c⟩ := x
  simp only [Spec.programs]
  split <;> rfl

theorem view_keeps {st st' : St} (h : Keeps st st') {ms : List Module} (ho : ∀ m ∈ ms, Owned st m) :
    ms.map (view st') = ms.map (view st) := by
  apply List.map_congr_left
  intro m hm
  unfold view
  rw [(h m (ho m hm)).2]

theorem one_ok {pick : List (Nat × Nat) → Nat → Nat} (hp : Spec.Fresh pick) (l : List Spec.Item)
    (hn : (l.map (·.1)).Nodup) (x : Spec.Item) (hx : x ∈ l) (st : St) :
    ∃ st' ms, one pick (l.map file) st (file x) = .ok (st', ms) ∧ Keeps st st' ∧ (∀ m ∈ ms, Owned st' m) ∧
      ms.map (view st') = Spec.programs [x] := by
  obtain ⟨name, isDir, content⟩ := x
  unfold one
  rw [show (file (name, isDir, content)).name = units name from rfl, nameString_units]
  cases isDir with
  | true => exact ⟨st, [], by simp [file], .refl st, by simp, by simp [Spec.programs]⟩
  | false =>
    rw [show (file (name, false, content)).dir = false from rfl]
    simp only [Bool.false_eq_true, if_false]
    by_cases h : name ≠ "BootX64.efi" ∧ name.utf8ByteSize < 32
    · rw [if_pos h]
      have hf : locate (l.map file) name = .ok (file (name, false, content)) := by
        unfold locate
        rw [find_item l hn _ hx]
        rfl
      have hl : ∃ r, loadBinary pick (l.map file) st name = .ok r := by
        unfold loadBinary
        rw [hf]
        exact ⟨_, rfl⟩
      obtain ⟨⟨st', m⟩, hr⟩ := hl
      obtain ⟨h1, h2, h3⟩ := loadBinary_new hf hr
      refine ⟨st', [m], by rw [hr]; rfl, loadBinary_keeps hp hr, by simpa using h1, ?_⟩
      have hname : m.name = name := by rw [h3]; exact c103_names _ _ _ (by omega)
      simp only [List.map_cons, List.map_nil, Spec.programs, true_and, if_pos h, view, hname, h2]
      rfl
    · rw [if_neg h]
      exact ⟨st, [], rfl, .refl st, by simp, by simp only [Spec.programs, true_and, if_neg h]; rfl⟩

theorem takeWhile_all {α : Type} (p : α → Bool) (l : List α) (h : ∀ x ∈ l, p x = true) : l.takeWhile p = l := by
  induction l with
  | nil => rfl
  | cons a l ih =>
    rw [List.takeWhile_cons, h a List.mem_cons_self, if_pos rfl, ih fun x hx => h x (List.mem_cons_of_mem _ hx)]

theorem filter_perm (p : Module → Prop) [DecidablePred p] (l : List Module) :
    ((l.filter fun m => p m) ++ (l.filter fun m => ¬ p m)).Perm l := by
  induction l with
  | nil => exact .refl _
  | cons a l ih =>
    by_cases h : p a
    · simpa [h] using ih
    · simp only [List.filter_cons, h, decide_false, Bool.false_eq_true, if_false, not_false_eq_true, decide_true, if_true]
      exact List.perm_middle.trans (List.Perm.cons a ih)

/-- UEFI's information about the file fits the buffer: the name has at most 87 characters. -/
def short (x : Spec.Item) : Bool := x.1.length ≤ 87

theorem readEntry_item (l : List Spec.Item) (pos : Nat) :
    readEntry (l.map file) pos = match l[pos]? with
      | none => .done
      | some x => if short x then .entry (file x) else .error := by
  unfold readEntry
  rw [List.getElem?_map]
  cases l[pos]? with
  | none => rfl
  | some x =>
    have : (file x).name.length = x.1.length := by simp only [file, units, List.length_map]; exact String.length_toList
    simp only [Option.map_some, this, short, decide_eq_true_eq]
    by_cases h : x.1.length ≤ 87
    · rw [if_pos h, if_pos (by omega)]
    · rw [if_neg h, if_neg (by omega)]

theorem loop_stuck {pick : List (Nat × Nat) → Nat → Nat} (dir : List File) (n pos : Nat) (st : St)
    (h : ∀ f, readEntry dir pos ≠ .entry f) : loop pick dir n pos st = .ok (st, []) := by
  induction n with
  | zero => rfl
  | succ n ih =>
    unfold loop
    split
    · exact ih
    · exact ih
    next f hf => exact absurd hf (h f)

theorem loop_ok {pick : List (Nat × Nat) → Nat → Nat} (hp : Spec.Fresh pick) (l : List Spec.Item)
    (hn : (l.map (·.1)).Nodup) (n pos : Nat) (st : St) :
    ∃ st' ms, loop pick (l.map file) n pos st = .ok (st', ms) ∧ Keeps st st' ∧ (∀ m ∈ ms, Owned st' m) ∧
      ms.map (view st') = Spec.programs (((l.drop pos).takeWhile short).take n) := by
  induction n generalizing pos st with
  | zero => exact ⟨st, [], rfl, .refl st, by simp, by simp [Spec.programs]⟩
  | succ n ih =>
    have hr := readEntry_item l pos
    cases hx : l[pos]? with
    | none =>
      rw [hx] at hr
      refine ⟨st, [], loop_stuck _ _ _ _ (by rw [hr]; simp), .refl st, by simp, ?_⟩
      rw [List.drop_eq_nil_of_le (List.getElem?_eq_none_iff.1 hx)]
      rfl
    | some x =>
      rw [hx] at hr
      obtain ⟨hlt, hget⟩ := List.getElem?_eq_some_iff.1 hx
      have hdrop : l.drop pos = x :: l.drop (pos + 1) := by rw [← hget]; exact List.drop_eq_getElem_cons hlt
      cases hs : short x with
      | false =>
        simp only [hs, Bool.false_eq_true, if_false] at hr
        refine ⟨st, [], loop_stuck _ _ _ _ (by rw [hr]; simp), .refl st, by simp, ?_⟩
        rw [hdrop, List.takeWhile_cons, hs]
        rfl
      | true =>
        simp only [hs, if_true] at hr
        obtain ⟨st1, ms1, h1, k1, o1, v1⟩ := one_ok hp l hn x (List.mem_of_getElem? hx) st
        obtain ⟨st2, ms2, h2, k2, o2, v2⟩ := ih (pos + 1) st1
        refine ⟨st2, ms1 ++ ms2, ?_, k1.trans k2, ?_, ?_⟩
        · unfold loop
          rw [hr]
          simp only [h1, h2, Outcome.bind]
        · intro m hm
          rcases List.mem_append.1 hm with hm | hm
          · exact (k2 m (o1 m hm)).1
          · exact o2 m hm
        · rw [List.map_append, view_keeps k2 o1, v1, v2, hdrop, List.takeWhile_cons, hs]
          simp only [if_true, List.take_succ_cons]
          exact (programs_cons x _).symm

/-- The boot loader loads from a directory, whatever is in it, exactly the programs among the entries it looks at, each under
its name and whole, and does not panic: those before the first with a name of more than 87 characters, at most 32. -/
theorem c103_directory {pick : List (Nat × Nat) → Nat → Nat} (hp : Spec.Fresh pick) (l : List Spec.Item)
    (hl : Spec.Dir l) (st : St) :
    ∃ st' ms, loadModules pick (l.map file) st = .ok (st', ms) ∧
      ms.map (fun m => (m.name, m.slice st'.mem)) = Spec.programs ((l.takeWhile fun x => x.1.length ≤ 87).take 32) := by
  obtain ⟨st', ms, h, _, _, v⟩ := loop_ok hp l hl.1 32 0 st
  exact ⟨st', ms, h, v⟩

theorem loadAll_ok {pick : List (Nat × Nat) → Nat → Nat} (hp : Spec.Fresh pick) (ls : List (List Spec.Item))
    (hl : ∀ l ∈ ls, Spec.Dir l) (st : St) :
    ∃ st' ms, loadAll pick (ls.map (·.map file)) st = .ok (st', ms) ∧ Keeps st st' ∧ (∀ m ∈ ms, Owned st' m) ∧
      ms.map (view st') = (ls.map fun l => Spec.programs ((l.takeWhile short).take 32)).flatten := by
  induction ls generalizing st with
  | nil => exact ⟨st, [], rfl, .refl st, by simp, rfl⟩
  | cons l ls ih =>
    obtain ⟨st1, ms1, h1, k1, o1, v1⟩ := loop_ok hp l (hl l List.mem_cons_self).1 32 0 st
    obtain ⟨st2, ms2, h2, k2, o2, v2⟩ := ih (fun x hx => hl x (List.mem_cons_of_mem _ hx)) st1
    refine ⟨st2, ms1 ++ ms2, ?_, k1.trans k2, ?_, ?_⟩
    · rw [List.map_cons]
      unfold loadAll loadModules maxModules
      simp only [h1, h2, Outcome.bind]
    · intro m hm
      rcases List.mem_append.1 hm with hm | hm
      · exact (k2 m (o1 m hm)).1
      · exact o2 m hm
    · rw [List.map_append, view_keeps k2 o1, v1, v2, List.map_cons, List.flatten_cons, List.drop_zero]

/-- All file systems: if every directory has at most 32 entries with names of at most 87 characters, the modules are all
their programs, and what was loaded first is still whole when the last one was loaded. -/
theorem c103_all_partial {pick : List (Nat × Nat) → Nat → Nat} (hp : Spec.Fresh pick) (ls : List (List Spec.Item))
    (hl : ∀ l ∈ ls, Spec.Dir l) (hs : ∀ l ∈ ls, l.length ≤ 32 ∧ ∀ x ∈ l, x.1.length ≤ 87) (st : St) :
    ∃ st' ms, loadAll pick (ls.map (·.map file)) st = .ok (st', ms) ∧
      ms.map (fun m => (m.name, m.slice st'.mem)) = (ls.map Spec.programs).flatten := by
  obtain ⟨st', ms, h, _, _, v⟩ := loadAll_ok hp ls hl st
  refine ⟨st', ms, h, ?_⟩
  have : ls.map (fun l => Spec.programs ((l.takeWhile short).take 32)) = ls.map Spec.programs := by
    apply List.map_congr_left
    intro l hl'
    obtain ⟨h1, h2⟩ := hs l hl'
    rw [takeWhile_all short l (by intro x hx; simpa [short] using h2 x hx), List.take_of_length_le h1]
  rw [← this]
  exact v

/-- Finding: a file whose name has a character that takes two 16-bit units, so that the name without it is the name of no
file, stops the boot loader. -/
theorem c103_surrogate (pick : List (Nat × Nat) → Nat → Nat) (f : File) (dir : List File) (st : St) (hd : f.dir = false)
    (hs : f.name.length ≤ 87) (hb : nameString f.name ≠ "BootX64.efi") (hl : (nameString f.name).utf8ByteSize < 32)
    (hn : ∀ g ∈ f :: dir, g.name ≠ units (nameString f.name)) : loadModules pick (f :: dir) st = .panic := by
  have hr : readEntry (f :: dir) 0 = .entry f := by
    unfold readEntry
    rw [List.getElem?_cons_zero]
    simp only
    rw [if_pos (by omega)]
  have hf : locate (f :: dir) (nameString f.name) = .panic := by
    unfold locate
    rw [List.find?_eq_none.2 (by intro g hg; simpa using hn g hg)]
  unfold loadModules maxModules loop
  rw [hr]
  simp [one, hd, hb, hl, loadBinary, hf, Outcome.bind]

/-! ## What is handed to the kernel -/

theorem findLast_go (ms : List Module) (name : String) (r : Option Module) :
    ms.foldl (fun r m => if m.name = name then some m else r) r =
      ((ms.filter fun m => m.name = name).getLast?).or r := by
  induction ms generalizing r with
  | nil => simp
  | cons m ms ih =>
    rw [List.foldl_cons, ih, List.filter_cons]
    by_cases h : m.name = name
    · simp only [h, if_true, decide_true]
      rw [List.getLast?_cons]
      cases (List.filter (fun m => decide (m.name = name)) ms).getLast? <;> simp
    · simp [h]

theorem findLast_eq (ms : List Module) (name : String) :
    findLast ms name = (ms.filter fun m => m.name = name).getLast? := by
  unfold findLast
  rw [findLast_go]
  simp

theorem findFirst_eq (ms : List Module) (name : String) :
    findFirst ms name = (ms.filter fun m => m.name = name).head? := by
  induction ms with
  | nil => rfl
  | cons m ms ih =>
    unfold findFirst
    rw [List.filter_cons]
    by_cases h : m.name = name
    · simp [h]
    · simp [h, ih]

/-- The boot loader starts the kernel if there is a kernel, a command line and no more than 32 modules in all, and panics
otherwise. -/
theorem c103_starts {pick : List (Nat × Nat) → Nat → Nat} (hp : Spec.Fresh pick) (ls : List (List Spec.Item))
    (hl : ∀ l ∈ ls, Spec.Dir l) (hs : ∀ l ∈ ls, l.length ≤ 32 ∧ ∀ x ∈ l, x.1.length ≤ 87) (st : St) :
    (∃ r, boot pick (ls.map (·.map file)) st = .ok r) ↔
      (∃ c, ("kernel", c) ∈ (ls.map Spec.programs).flatten) ∧ (∃ c, ("cmdline.in", c) ∈ (ls.map Spec.programs).flatten) ∧
        (ls.map Spec.programs).flatten.length ≤ 32 := by
  obtain ⟨st', ms, h, v⟩ := c103_all_partial hp ls hl hs st
  have hmem : ∀ n, (∃ c, (n, c) ∈ (ls.map Spec.programs).flatten) ↔ ∃ m, findLast ms n = some m := by
    intro n
    rw [← v, findLast_eq]
    constructor
    · rintro ⟨c, hc⟩
      obtain ⟨m, hm, he⟩ := List.mem_map.1 hc
      have hx : m ∈ ms.filter fun m => m.name = n := List.mem_filter.2 ⟨hm, by simpa using congrArg Prod.fst he⟩
      cases hg : (ms.filter fun m => m.name = n).getLast? with
      | none => rw [List.getLast?_eq_none_iff.1 hg] at hx; cases hx
      | some m => exact ⟨m, rfl⟩
    · rintro ⟨m, hm⟩
      obtain ⟨h1, h2⟩ := List.mem_filter.1 (List.mem_of_getLast? hm)
      refine ⟨m.slice st'.mem, List.mem_map.2 ⟨m, h1, ?_⟩⟩
      rw [of_decide_eq_true h2]
  have hlen : (ls.map Spec.programs).flatten.length = ms.length := by rw [← v, List.length_map]
  have hk : ((ms.filter fun m => m.name = "kernel") ++ (ms.filter fun m => m.name ≠ "kernel")).length = ms.length := by
    exact (filter_perm (fun m => m.name = "kernel") ms).length_eq
  rw [hmem, hmem, hlen]
  unfold boot
  rw [h]
  simp only [Outcome.bind]
  cases h1 : findLast ms "kernel" with
  | none => simp
  | some k =>
    cases h2 : findLast ms "cmdline.in" with
    | none => simp
    | some c =>
      simp only [kernelArgs, hk, maxModules]
      by_cases h3 : ms.length ≤ 32
      · simp [h3]
      · simp [h3]

/-- What was handed over: the modules are those that were loaded, in another order, the first is a kernel. -/
theorem c103_handed {pick : List (Nat × Nat) → Nat → Nat} (fss : List (List File)) (st st' : St) (h : Handed)
    (hb : boot pick fss st = .ok (st', h)) :
    ∃ ms, loadAll pick fss st = .ok (st', ms) ∧ h.modules.Perm ms ∧ h.modules.length ≤ 32 ∧
      (∃ k, kernelBinary h = some k ∧ k.name = "kernel") ∧ h.kernel ∈ ms ∧ h.kernel.name = "kernel" ∧
      h.cmdline ∈ ms ∧ h.cmdline.name = "cmdline.in" := by
  unfold boot Outcome.bind at hb
  split at hb
  next r hr =>
    simp only at hb
    split at hb
    next k c hk hc =>
      unfold kernelArgs at hb
      simp only at hb
      split at hb
      next q hq =>
        split at hq
        next hle =>
          cases hq
          cases hb
          rw [findLast_eq] at hk hc
          have hkm := List.mem_filter.1 (List.mem_of_getLast? hk)
          have hcm := List.mem_filter.1 (List.mem_of_getLast? hc)
          refine ⟨r.2, hr, ?_, hle, ?_, hkm.1, of_decide_eq_true hkm.2, hcm.1, of_decide_eq_true hcm.2⟩
          · exact filter_perm (fun m => m.name = "kernel") r.2
          · unfold kernelBinary
            have hkf := List.mem_of_getLast? hk
            cases hf : r.2.filter fun m => m.name = "kernel" with
            | nil => rw [hf] at hkf; cases hkf
            | cons x l =>
              refine ⟨x, rfl, ?_⟩
              have : x ∈ r.2.filter fun m => m.name = "kernel" := by rw [hf]; exact List.mem_cons_self
              exact of_decide_eq_true (List.mem_filter.1 this).2
        · cases hq
      · cases hb
      · cases hb
    · cases hb
  · cases hb
  · cases hb

/-- A program whose name is on the media once is found, and both parts of the kernel that build its process take it. -/
theorem c103_found_partial (h : Handed) (name : String) (m : Module) (hm : m ∈ h.modules) (hn : m.name = name)
    (hu : (h.modules.filter fun x => x.name = name).length = 1) :
    makeProcess h name = some m ∧ processLoad h name = some m := by
  unfold makeProcess processLoad
  rw [findLast_eq, findFirst_eq]
  obtain ⟨x, hx⟩ := List.length_eq_one_iff.1 hu
  have : m ∈ h.modules.filter fun x => x.name = name := List.mem_filter.2 ⟨hm, by simpa using hn⟩
  rw [hx] at this ⊢
  rw [List.mem_singleton.1 this]
  exact ⟨rfl, rfl⟩

/-- No program with the name: no process. -/
theorem c103_not_found (h : Handed) (name : String) :
    (makeProcess h name = none ↔ ∀ m ∈ h.modules, m.name ≠ name) := by
  unfold makeProcess
  rw [findLast_eq, List.getLast?_eq_none_iff, List.filter_eq_nil_iff]
  simp

/-- Finding: two programs with one name, on two file systems: the writable sections are those of the last, code and
everything else those of the first. -/
theorem c103_mixed (h : Handed) (name : String) (a b : Module) (l : List Module)
    (hu : (h.modules.filter fun x => x.name = name) = a :: (l ++ [b])) :
    makeProcess h name = some b ∧ processLoad h name = some a := by
  unfold makeProcess processLoad
  rw [findLast_eq, findFirst_eq, hu]
  exact ⟨by rw [List.getLast?_cons]; simp, rfl⟩

/-- Finding: two kernels: the one that runs is the last, the one the running kernel takes for itself is the first. -/
theorem c103_two_kernels {pick : List (Nat × Nat) → Nat → Nat} (fss : List (List File)) (st st' : St) (h : Handed)
    (hb : boot pick fss st = .ok (st', h)) (a b : Module) (l ms : List Module) (hms : loadAll pick fss st = .ok (st', ms))
    (hu : (ms.filter fun x => x.name = "kernel") = a :: (l ++ [b])) : h.kernel = b ∧ kernelBinary h = some a := by
  unfold boot at hb
  rw [hms] at hb
  simp only [Outcome.bind] at hb
  split at hb
  next k c hk hc =>
    rw [findLast_eq, hu] at hk
    unfold kernelArgs at hb
    simp only at hb
    split at hb
    next q hq =>
      split at hq
      next hle =>
        cases hq
        cases hb
        constructor
        · rw [List.getLast?_cons] at hk
          simpa using hk.symm
        · unfold kernelBinary
          simp only [hu]
          rfl
      · cases hq
    · cases hb
    · cases hb
  · cases hb

end NRK.Boot.Mods
