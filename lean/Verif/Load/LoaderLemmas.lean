import Verif.Load.LoaderSpec

/-!
# Helper lemmas for the program loader
-/

namespace NRK.Load

open NRK.Mem (Frame LARGE LARGE_eq roundUp)
open NRK.VSpace (VSpace Env MapAction mapFrame Run userTop PageSize)
open Spec

theorem Outcome.bind_ok {α β : Type} (a : α) (f : α → Outcome β) : (Outcome.ok a).bind f = f a := rfl

theorem Outcome.map_ok {α β : Type} (a : α) (f : α → β) : (Outcome.ok a).map f = .ok (f a) := rfl

/-- Bytes laid over a partial image. -/
def overlay (G : Nat → Option UInt8) (d : Nat) (bs : List UInt8) : Nat → Option UInt8 :=
  fun va => if d ≤ va then (bs[va - d]?).or (G va) else G va

theorem overlay_nil (G : Nat → Option UInt8) (d : Nat) : overlay G d [] = G := by
  funext va
  unfold overlay
  split <;> simp

theorem overlay_out {G : Nat → Option UInt8} {d : Nat} {bs : List UInt8} {va : Nat}
    (h : ¬ (d ≤ va ∧ va < d + bs.length)) : overlay G d bs va = G va := by
  unfold overlay
  split
  · rename_i hd
    have : bs[va - d]? = none := List.getElem?_eq_none (by omega)
    rw [this]; rfl
  · rfl

theorem overlay_append (G : Nat → Option UInt8) (d : Nat) (bs bs' : List UInt8) :
    overlay (overlay G d bs) (d + bs.length) bs' = overlay G d (bs ++ bs') := by
  funext va
  unfold overlay
  by_cases h1 : d + bs.length ≤ va
  · have h2 : d ≤ va := by omega
    have h3 : bs[va - d]? = none := List.getElem?_eq_none (by omega)
    rw [if_pos h1, if_pos h2, if_pos h2, h3, List.getElem?_append_right (by omega)]
    have : va - d - bs.length = va - (d + bs.length) := by omega
    rw [this]; rfl
  · rw [if_neg h1]
    by_cases h2 : d ≤ va
    · rw [if_pos h2, if_pos h2, List.getElem?_append_left (by omega)]
    · rw [if_neg h2, if_neg h2]

theorem write_out {m : Mem} {a : Nat} {bs : List UInt8} {p : Nat} (h : ¬ (a ≤ p ∧ p < a + bs.length)) :
    m.write a bs p = m p := by
  unfold Mem.write
  split
  · have : bs[p - a]? = none := List.getElem?_eq_none (by omega)
    rw [this]; rfl
  · rfl

/-- Pages and frames: what a placement needs to be. -/
structure GoodPl (pl : List (Nat × Frame)) : Prop where
  page : ∀ q ∈ pl, q.1 % LARGE = 0 ∧ q.2.size = LARGE ∧ q.2.base % LARGE = 0
  inj : ∀ q ∈ pl, ∀ q' ∈ pl, (q.1 = q'.1 ∨ q.2.base = q'.2.base) → q = q'

/-- Memory `m` shows the partial image `G` on the pages, and elsewhere what it was. -/
def Rel (pl : List (Nat × Frame)) (m0 m : Mem) (G : Nat → Option UInt8) : Prop :=
  ∀ q ∈ pl, ∀ i, i < LARGE → m (q.2.base + i) = (G (q.1 + i)).getD (m0 (q.2.base + i))

theorem mul_gap {a b : Nat} (ha : a % LARGE = 0) (hb : b % LARGE = 0) (h : a ≠ b) :
    a + LARGE ≤ b ∨ b + LARGE ≤ a := by
  rw [LARGE_eq] at *
  omega

theorem Rel.write {pl : List (Nat × Frame)} {m0 m : Mem} {G : Nat → Option UInt8} (h : Rel pl m0 m G)
    (hg : GoodPl pl) {q : Nat × Frame} (hq : q ∈ pl) {d : Nat} {bs : List UInt8} (h1 : q.1 ≤ d)
    (h2 : d + bs.length ≤ q.1 + LARGE) :
    Rel pl m0 (m.write (q.2.base + (d - q.1)) bs) (overlay G d bs) := by
  intro q' hq' i hi
  by_cases e : q' = q
  · subst e
    unfold Mem.write overlay
    by_cases hd : d ≤ q'.1 + i
    · rw [if_pos (by omega), if_pos hd]
      have : q'.2.base + i - (q'.2.base + (d - q'.1)) = q'.1 + i - d := by omega
      rw [this]
      cases bs[q'.1 + i - d]? with
      | none => exact h q' hq' i hi
      | some b => rfl
    · rw [if_neg (by omega), if_neg hd]
      exact h q' hq' i hi
  · have hb : q'.2.base ≠ q.2.base := fun x => e (hg.inj q' hq' q hq (.inr x))
    have hp : q'.1 ≠ q.1 := fun x => e (hg.inj q' hq' q hq (.inl x))
    have g1 := mul_gap (hg.page q' hq').2.2 (hg.page q hq).2.2 hb
    have g2 := mul_gap (hg.page q' hq').1 (hg.page q hq).1 hp
    rw [write_out (by omega), overlay_out (by omega)]
    exact h q' hq' i hi

/-- What a step changes. -/
def OnlyIn (fs : List Frame) (m m' : Mem) : Prop := ∀ p, ¬ InFrames fs p → m' p = m p

theorem OnlyIn.refl (fs : List Frame) (m : Mem) : OnlyIn fs m m := fun _ _ => rfl

theorem OnlyIn.trans {fs : List Frame} {m m' m'' : Mem} (h : OnlyIn fs m m') (h' : OnlyIn fs m' m'') :
    OnlyIn fs m m'' := fun p hp => (h' p hp).trans (h p hp)

theorem OnlyIn.mono {fs fs' : List Frame} {m m' : Mem} (h : OnlyIn fs m m') (hs : ∀ f ∈ fs, f ∈ fs') :
    OnlyIn fs' m m' :=
  fun p hp => h p (fun ⟨f, hf, x⟩ => hp ⟨f, hs f hf, x⟩)

theorem onlyIn_write {pl : List (Nat × Frame)} {q : Nat × Frame} (hq : q ∈ pl) (m : Mem) {d : Nat}
    {bs : List UInt8} (h1 : q.1 ≤ d) (h2 : d + bs.length ≤ q.1 + LARGE) :
    OnlyIn (pl.map (·.2)) m (m.write (q.2.base + (d - q.1)) bs) := by
  intro p hp
  apply write_out
  rintro ⟨h3, h4⟩
  exact hp ⟨q.2, List.mem_map_of_mem hq, by omega, by omega⟩

/-- Changes elsewhere do not matter. -/
theorem Rel.frame {pl : List (Nat × Frame)} {m0 m m' : Mem} {G : Nat → Option UInt8} (h : Rel pl m0 m G)
    (hg : GoodPl pl) {fs : List Frame} (ho : OnlyIn fs m m') (hfs : ∀ f ∈ fs, f.base % LARGE = 0)
    (hd : ∀ q ∈ pl, ∀ f ∈ fs, q.2.base ≠ f.base) : Rel pl m0 m' G := by
  intro q hq i hi
  rw [ho]
  · exact h q hq i hi
  · rintro ⟨f, hf, h1, h2⟩
    have := mul_gap (hg.page q hq).2.2 (hfs f hf) (hd q hq f hf)
    omega

/-! ## Pages -/

/-- Consecutive pages. -/
def pagesAt (base : Nat) : List Frame → List (Nat × Frame)
  | [] => []
  | f :: fs => (base, f) :: pagesAt (base + LARGE) fs

theorem pagesAt_frames (fs : List Frame) (base : Nat) : (pagesAt base fs).map (·.2) = fs := by
  induction fs generalizing base with
  | nil => rfl
  | cons f fs ih => rw [pagesAt, List.map_cons, ih]

theorem mem_pagesAt {fs : List Frame} {base : Nat} {q : Nat × Frame} (h : q ∈ pagesAt base fs) :
    q.2 ∈ fs ∧ base ≤ q.1 ∧ q.1 + LARGE ≤ base + fs.length * LARGE ∧
      (base % LARGE = 0 → q.1 % LARGE = 0) := by
  induction fs generalizing base with
  | nil => cases h
  | cons f fs ih =>
    rw [List.length_cons, Nat.add_mul, Nat.one_mul]
    rcases List.mem_cons.1 h with rfl | h
    · exact ⟨by simp, by simp, by simp only; omega, fun x => x⟩
    · obtain ⟨h1, h2, h3, h4⟩ := ih h
      exact ⟨List.mem_cons_of_mem _ h1, by omega, by omega, fun x => h4 (by rw [Nat.add_mod_right]; exact x)⟩

theorem pagesAt_cover {fs : List Frame} {base va : Nat} (h1 : base ≤ va)
    (h2 : va < base + fs.length * LARGE) : ∃ q ∈ pagesAt base fs, q.1 ≤ va ∧ va < q.1 + LARGE := by
  induction fs generalizing base with
  | nil => simp at h2; omega
  | cons f fs ih =>
    rw [List.length_cons, Nat.add_mul, Nat.one_mul] at h2
    by_cases h : va < base + LARGE
    · exact ⟨(base, f), by simp [pagesAt], h1, h⟩
    · obtain ⟨q, hq, x⟩ := ih (base := base + LARGE) (by omega) (by omega)
      exact ⟨q, List.mem_cons_of_mem _ hq, x⟩

theorem pagesAt_inj {fs : List Frame} (hn : (fs.map (·.base)).Nodup) (base : Nat) :
    ∀ q ∈ pagesAt base fs, ∀ q' ∈ pagesAt base fs, (q.1 = q'.1 ∨ q.2.base = q'.2.base) → q = q' := by
  have hL : 0 < LARGE := by rw [LARGE_eq]; omega
  induction fs generalizing base with
  | nil => intro q hq; cases hq
  | cons f fs ih =>
    rw [List.map_cons, List.nodup_cons] at hn
    intro q hq q' hq' e
    rcases List.mem_cons.1 hq with rfl | hq <;> rcases List.mem_cons.1 hq' with rfl | hq'
    · rfl
    · obtain ⟨h1, h2, _⟩ := mem_pagesAt hq'
      rcases e with e | e
      · simp only at e; omega
      · exact absurd (List.mem_map.2 ⟨_, h1, e.symm⟩) hn.1
    · obtain ⟨h1, h2, _⟩ := mem_pagesAt hq
      rcases e with e | e
      · simp only at e; omega
      · exact absurd (List.mem_map.2 ⟨_, h1, e⟩) hn.1
    · exact ih hn.2 _ q hq q' hq' e

theorem goodPl_pagesAt {fs : List Frame} (hn : (fs.map (·.base)).Nodup)
    (hf : ∀ f ∈ fs, f.size = LARGE ∧ f.base % LARGE = 0) {base : Nat} (hb : base % LARGE = 0) :
    GoodPl (pagesAt base fs) :=
  ⟨fun q hq => ⟨(mem_pagesAt hq).2.2.2 hb, hf _ (mem_pagesAt hq).1⟩, pagesAt_inj hn base⟩

theorem takePages_eq (base n : Nat) (fs : List Frame) (h : n ≤ fs.length) :
    takePages base n fs = .ok (pagesAt base (fs.take n), fs.drop n) := by
  induction n generalizing base fs with
  | zero => simp [takePages, pagesAt]
  | succ n ih =>
    cases fs with
    | nil => simp at h
    | cons f fs =>
      simp only [List.length_cons] at h
      rw [takePages, ih _ _ (by omega)]
      rfl

/-! ## The data pages -/

theorem copyEnd_facts {base L dest n ce : Nat} (hb : base ≤ dest) (ho : dest < base + L)
    (h : min (base + L) (dest + n) - dest = ce) :
    ce ≤ n ∧ dest + ce ≤ base + L ∧ (dest + ce = base + L ∨ ce = n) := by
  omega

theorem dataCopy_spec (m0 : Mem) (pl : List (Nat × Frame)) (hg : GoodPl pl) :
    ∀ (fs : List Frame) (base : Nat) (m : Mem) (G : Nat → Option UInt8) (dest : Nat)
      (region : List UInt8), (∀ q ∈ pagesAt base fs, q ∈ pl) → Rel pl m0 m G →
      (base ≤ dest ∨ region = []) → dest + region.length ≤ base + fs.length * LARGE →
      ∃ m', dataCopy m dest region (pagesAt base fs) = .ok m' ∧ Rel pl m0 m' (overlay G dest region) ∧
        OnlyIn (pl.map (·.2)) m m' := by
  intro fs
  induction fs with
  | nil =>
    intro base m G dest region _ hr hb hl
    have : region = [] := by
      rcases hb with hb | hb
      · simp only [List.length_nil, Nat.zero_mul, Nat.add_zero] at hl
        exact List.length_eq_zero_iff.1 (by omega)
      · exact hb
    subst this
    exact ⟨m, rfl, by rw [overlay_nil]; exact hr, OnlyIn.refl _ _⟩
  | cons f fs ih =>
    intro base m G dest region hin hr hb hl
    have hq : (base, f) ∈ pl := hin _ (by simp [pagesAt])
    have hsz : f.size = LARGE := (hg.page _ hq).2.1
    have hin' : ∀ q ∈ pagesAt (base + LARGE) fs, q ∈ pl :=
      fun q h => hin q (List.mem_cons_of_mem _ h)
    rw [List.length_cons, Nat.add_mul, Nat.one_mul] at hl
    rw [pagesAt, dataCopy, hsz]
    split
    · rename_i hov
      simp only
      have hnb : ¬ dest < base := by
        rcases hb with hb | hb
        · omega
        · subst hb; simp only [List.length_nil] at hov; omega
      rw [if_neg hnb]
      have e1 : max base dest - dest = 0 := by omega
      rw [e1, List.drop_zero, Nat.sub_zero]
      generalize hce : min (base + LARGE) (dest + region.length) - dest = ce
      obtain ⟨c1, c2, c3⟩ := copyEnd_facts (Nat.le_of_not_lt hnb) hov.1 hce
      clear hce
      have hcl : (region.take ce).length = ce := by rw [List.length_take]; omega
      have hw := hr.write hg hq (d := dest) (bs := region.take ce) (by omega) (by simp only; omega)
      have ho := onlyIn_write hq m (d := dest) (bs := region.take ce) (by omega) (by simp only; omega)
      obtain ⟨m', h1, h2, h3⟩ := ih (base + LARGE) _ _ (dest + ce) (region.drop ce) hin' hw
        (by
          rcases c3 with c3 | c3
          · exact .inl (by omega)
          · right
            apply List.drop_eq_nil_of_le
            omega)
        (by rw [List.length_drop]; omega)
      refine ⟨m', h1, ?_, ho.trans h3⟩
      have := overlay_append G dest (region.take ce) (region.drop ce)
      rw [hcl, List.take_append_drop] at this
      rw [← this]
      exact h2
    · rename_i hov
      obtain ⟨m', h1, h2, h3⟩ := ih (base + LARGE) m G dest region hin' hr (by
          by_cases hx : region = []
          · exact .inr hx
          · left
            have := List.length_pos_iff.2 hx
            rcases hb with hb | hb
            · omega
            · exact absurd hb hx) (by omega)
      exact ⟨m', h1, h2, h3⟩

theorem le64_length (v : Nat) : (le64 v).length = 8 := rfl

/-- The pages beyond the relocation are passed over. -/
theorem dataReloc_skip (offset : Nat) (r : Reloc) (ho : offset % LARGE = 0) :
    ∀ (pl : List (Nat × Frame)) (m : Mem),
      (∀ q ∈ pl, q.1 % LARGE = 0 ∧ q.2.size = LARGE ∧ (r.off < q.1 ∨ q.1 + LARGE < r.off)) →
      dataReloc offset r pl m = .ok m := by
  intro pl
  induction pl with
  | nil => intro m _; rfl
  | cons q pl ih =>
    intro m h
    obtain ⟨b, f⟩ := q
    obtain ⟨h1, h2, h3⟩ := h (b, f) (by simp)
    simp only at h1 h2 h3
    have e : (offset + b) - (offset + b) % LARGE = offset + b := by
      rw [Nat.add_mod, ho, h1]; simp
    rw [dataReloc]
    simp only [e, h2]
    rw [if_neg (by omega)]
    exact ih m (fun q hq => h q (List.mem_cons_of_mem _ hq))

theorem dataReloc_spec (m0 : Mem) (pl : List (Nat × Frame)) (hg : GoodPl pl) (offset : Nat)
    (ho : offset % LARGE = 0) (r : Reloc) (hr : r.relative = true) (ha : offset + r.addend < 2 ^ 64)
    (h8 : r.off % 8 = 0) (hL : r.off % LARGE ≠ 0) :
    ∀ (fs : List Frame) (base : Nat) (m : Mem) (G : Nat → Option UInt8), base % LARGE = 0 →
      (∀ q ∈ pagesAt base fs, q ∈ pl) → Rel pl m0 m G →
      base ≤ r.off → r.off < base + fs.length * LARGE →
      ∃ m', dataReloc offset r (pagesAt base fs) m = .ok m' ∧
        Rel pl m0 m' (overlay G r.off (le64 (offset + r.addend))) ∧ OnlyIn (pl.map (·.2)) m m' := by
  intro fs
  induction fs with
  | nil => intro base m G _ _ _ h1 h2; simp at h2; omega
  | cons f fs ih =>
    intro base m G hb hin hrel h1 h2
    have hq : (base, f) ∈ pl := hin _ (by simp [pagesAt])
    have hsz : f.size = LARGE := (hg.page _ hq).2.1
    have hin' : ∀ q ∈ pagesAt (base + LARGE) fs, q ∈ pl :=
      fun q h => hin q (List.mem_cons_of_mem _ h)
    have e : (offset + base) - (offset + base) % LARGE = offset + base := by
      rw [Nat.add_mod, ho, hb]; simp
    rw [List.length_cons, Nat.add_mul, Nat.one_mul] at h2
    rw [pagesAt, dataReloc]
    simp only [e, hsz]
    have hne : r.off ≠ base + LARGE := by
      intro x; apply hL; rw [x, Nat.add_mod_right]; exact hb
    by_cases hi : r.off < base + LARGE
    · rw [if_pos (by omega), if_pos hr]
      unfold relocValue
      rw [if_pos ha]
      simp only [Outcome.bind_ok]
      have ea : offset + r.off - (offset + base) = r.off - base := by omega
      rw [ea]
      have hend : r.off + (le64 (offset + r.addend)).length ≤ base + LARGE := by
        rw [le64_length]
        rw [LARGE_eq] at *
        omega
      have hw := hrel.write hg hq (d := r.off) (bs := le64 (offset + r.addend)) h1 hend
      have hoi := onlyIn_write hq m (d := r.off) (bs := le64 (offset + r.addend)) h1 hend
      refine ⟨_, dataReloc_skip offset r ho _ _ (fun q hq' => ?_), hw, hoi⟩
      obtain ⟨_, g2, _, g4⟩ := mem_pagesAt hq'
      have := hg.page q (hin' q hq')
      exact ⟨this.1, this.2.1, by omega⟩
    · rw [if_neg (by omega)]
      exact ih (base + LARGE) m G (by rw [Nat.add_mod_right]; exact hb) hin' hrel (by omega) (by omega)

/-! ## The address space -/

theorem largeFrame {f : Frame} (h : f.size = LARGE) : PageSize f.size := by
  rw [h, LARGE_eq]; exact Or.inr rfl

/-- Mapping consecutive pages. -/
theorem mapHdr_spec (env : Env) (hk : env.pages4k = false) (w : Bool) (a : MapAction) :
    ∀ (n : Nat) (ws ros : List Frame) (base : Nat) (s : VSpace), Run env s → base % LARGE = 0 →
      base + n * LARGE ≤ userTop → n ≤ (if w then ws else ros).length →
      (∀ f ∈ (if w then ws else ros), f.size = LARGE ∧ f.base % LARGE = 0) →
      (∀ x, base ≤ x → x < base + n * LARGE → s.resolve x = .err .notMapped) →
      ∃ s', mapHdr env w a base n ws ros s = .ok (s', if w then ros else ros.drop n) ∧ Run env s' ∧
        (∀ q ∈ pagesAt base ((if w then ws else ros).take n), ∀ i, i < LARGE →
          s'.resolve (q.1 + i) = .ok (q.2.base + i, a.canon)) ∧
        (∀ x, x < 2 ^ 48 → ¬ (base ≤ x ∧ x < base + n * LARGE) → s'.resolve x = s.resolve x) := by
  have hL : 0 < LARGE := by rw [LARGE_eq]; omega
  intro n
  induction n with
  | zero =>
    intro ws ros base s hr _ _ _ _ _
    refine ⟨s, ?_, hr, ?_, fun _ _ _ => rfl⟩
    · cases w <;> simp [mapHdr]
    · intro q hq; simp [pagesAt] at hq
  | succ n ih =>
    intro ws ros base s hr hb hu hn hf hfree
    rw [Nat.add_mul, Nat.one_mul] at hu hfree
    -- one page
    have one : ∀ f, f.size = LARGE → f.base % LARGE = 0 → ∃ s1, mapFrame env false s base f a = (s1, .ok ()) ∧
        Run env s1 ∧ ∀ x, x < 2 ^ 48 → s1.resolve x = if base ≤ x ∧ x < base + LARGE then
          .ok (f.base + (x - base), a.canon) else s.resolve x := by
      intro f h1 h2
      obtain ⟨s1, hs1⟩ := VSpace.c28_map_succeeds env hk s hr base f a (largeFrame h1) (by rw [h1]; omega)
        (by rw [h1]; exact h2) (by rw [h1]; exact hb)
        (fun x x1 x2 => hfree x x1 (by rw [h1] at x2; omega))
      refine ⟨s1, hs1, ?_, ?_⟩
      · have := Run.map (env := env) false base f a hr (largeFrame h1) (by rw [h1]; omega)
        rw [hs1] at this; exact this
      · intro x hx
        have := VSpace.c28_map_reachable_partial env hk false s s1 hr base f a (largeFrame h1)
          (by rw [h1]; omega) hs1 (fun hc => absurd (hfree base (Nat.le_refl _) (by omega)) hc) x hx
        rw [h1] at this; exact this
    have rest : ∀ (f : Frame) (ws' ros' : List Frame) (s1 : VSpace), f.base % LARGE = 0 → Run env s1 →
        (∀ x, x < 2 ^ 48 → s1.resolve x = if base ≤ x ∧ x < base + LARGE then
          .ok (f.base + (x - base), a.canon) else s.resolve x) →
        n ≤ (if w then ws' else ros').length →
        (∀ g ∈ (if w then ws' else ros'), g.size = LARGE ∧ g.base % LARGE = 0) →
        ∃ s', mapHdr env w a (base + LARGE) n ws' ros' s1 =
            .ok (s', if w then ros' else ros'.drop n) ∧ Run env s' ∧
          (∀ q ∈ (base, f) :: pagesAt (base + LARGE) ((if w then ws' else ros').take n), ∀ i, i < LARGE →
            s'.resolve (q.1 + i) = .ok (q.2.base + i, a.canon)) ∧
          (∀ x, x < 2 ^ 48 → ¬ (base ≤ x ∧ x < base + (n * LARGE + LARGE)) →
            s'.resolve x = s.resolve x) := by
      intro f ws' ros' s1 _ hr1 hres hlen hgood
      have hu48 : userTop ≤ 2 ^ 48 := by decide
      obtain ⟨s', h1, h2, h3, h4⟩ := ih ws' ros' (base + LARGE) s1 hr1
        (by rw [Nat.add_mod_right]; exact hb) (by omega) hlen hgood
        (fun x x1 x2 => by
          rw [hres x (by omega), if_neg (by omega)]
          exact hfree x (by omega) (by omega))
      refine ⟨s', h1, h2, ?_, ?_⟩
      · intro q hq i hi
        rcases List.mem_cons.1 hq with rfl | hq
        · simp only
          rw [h4 _ (by omega) (by omega), hres _ (by omega), if_pos (by omega)]
          have : base + i - base = i := by omega
          rw [this]
        · exact h3 q hq i hi
      · intro x hx hno
        rw [h4 x hx (by omega), hres x hx, if_neg (by omega)]
    cases w with
    | true =>
      simp only [if_true] at hn hf rest ⊢
      cases ws with
      | nil => simp at hn
      | cons f ws =>
        obtain ⟨hs, hfb⟩ := hf f (by simp)
        obtain ⟨s1, e1, r1, e2⟩ := one f hs hfb
        obtain ⟨s', g1, g2, g3, g4⟩ := rest f ws ros s1 hfb r1 e2 (by simpa using hn)
          (fun g hg => hf g (List.mem_cons_of_mem _ hg))
        refine ⟨s', ?_, g2, ?_, by rw [Nat.add_mul, Nat.one_mul]; exact g4⟩
        · simp only [mapHdr, if_pos hs, e1, if_true]
          exact g1
        · rw [List.take_succ_cons, pagesAt]; exact g3
    | false =>
      simp only [Bool.false_eq_true, if_false] at hn hf rest ⊢
      cases ros with
      | nil => simp at hn
      | cons f ros =>
        obtain ⟨hs, hfb⟩ := hf f (by simp)
        obtain ⟨s1, e1, r1, e2⟩ := one f hs hfb
        obtain ⟨s', g1, g2, g3, g4⟩ := rest f ws ros s1 hfb r1 e2 (by simpa using hn)
          (fun g hg => hf g (List.mem_cons_of_mem _ hg))
        refine ⟨s', ?_, g2, ?_, by rw [Nat.add_mul, Nat.one_mul]; exact g4⟩
        · simp only [mapHdr, e1, Bool.false_eq_true, if_false]
          exact g1
        · rw [List.take_succ_cons, pagesAt]; exact g3

/-- Copying bytes through the address space. -/
theorem procCopy_spec (s : VSpace) (offset : Nat) (m0 : Mem) (pl : List (Nat × Frame)) (hg : GoodPl pl)
    (hres : ∀ q ∈ pl, ∀ i, i < LARGE → ∃ a, s.resolve (offset + q.1 + i) = .ok (q.2.base + i, a)) :
    ∀ (bs : List UInt8) (d : Nat) (m : Mem) (G : Nat → Option UInt8), Rel pl m0 m G →
      (∀ va, d ≤ va → va < d + bs.length → ∃ q ∈ pl, q.1 ≤ va ∧ va < q.1 + LARGE) →
      ∃ m', procCopy s (offset + d) bs m = .ok m' ∧ Rel pl m0 m' (overlay G d bs) ∧
        OnlyIn (pl.map (·.2)) m m' := by
  intro bs
  induction bs with
  | nil =>
    intro d m G hr _
    exact ⟨m, rfl, by rw [overlay_nil]; exact hr, OnlyIn.refl _ _⟩
  | cons b bs ih =>
    intro d m G hr hc
    rw [List.length_cons] at hc
    obtain ⟨q, hq, h1, h2⟩ := hc d (Nat.le_refl _) (by omega)
    obtain ⟨a, ha⟩ := hres q hq (d - q.1) (by omega)
    have e : offset + q.1 + (d - q.1) = offset + d := by omega
    rw [e] at ha
    rw [procCopy, ha]
    simp only
    have hl : ([b] : List UInt8).length = 1 := rfl
    have hw := hr.write hg hq (d := d) (bs := [b]) h1 (by rw [hl]; omega)
    have ho := onlyIn_write hq m (d := d) (bs := [b]) h1 (by rw [hl]; omega)
    obtain ⟨m', g1, g2, g3⟩ := ih (d + 1) _ _ hw (fun va x1 x2 => hc va (by omega) (by omega))
    refine ⟨m', g1, ?_, ho.trans g3⟩
    have := overlay_append G d [b] bs
    rw [hl] at this
    rw [this] at g2
    exact g2

/-! ## Page ranges of headers -/

/-- The end of the last page of a header. -/
def pageEnd (h : Hdr) : Nat := pageBase h + largePages h * LARGE

theorem pageBase_mod (h : Hdr) : pageBase h % LARGE = 0 := by
  unfold pageBase; rw [LARGE_eq]; omega

theorem pageBase_le (h : Hdr) : pageBase h ≤ h.vaddr := by
  unfold pageBase; rw [LARGE_eq]; omega

theorem pageEnd_eq (h : Hdr) : pageEnd h = (h.vaddr + h.memsz + LARGE - 1) / LARGE * LARGE := by
  unfold pageEnd pageBase largePages roundUp
  have h0 : 0 < LARGE := by rw [LARGE_eq]; omega
  rw [Nat.mul_div_cancel _ h0]
  have e := Nat.div_add_mod h.vaddr LARGE
  generalize h.vaddr % LARGE = r at *
  generalize h.vaddr / LARGE = k at *
  rw [← e]
  have : LARGE * k + r + h.memsz + LARGE - 1 = (h.memsz + r + LARGE - 1) + LARGE * k := by omega
  rw [this, Nat.add_mul_div_left _ _ h0, Nat.add_mul, Nat.mul_comm k LARGE]
  omega

theorem pages_eq (h : Hdr) : pages h = largePages h := by
  unfold pages largePages roundUp
  have h0 : 0 < LARGE := by rw [LARGE_eq]; omega
  rw [Nat.mul_div_cancel _ h0]
  have e := Nat.div_add_mod h.vaddr LARGE
  generalize h.vaddr % LARGE = r at *
  generalize h.vaddr / LARGE = k at *
  rw [← e]
  have : LARGE * k + r + h.memsz + LARGE - 1 = (h.memsz + r + LARGE - 1) + LARGE * k := by omega
  rw [this, Nat.add_mul_div_left _ _ h0, Nat.add_sub_cancel]

theorem le_pageEnd (h : Hdr) : h.vaddr + h.memsz ≤ pageEnd h := by
  rw [pageEnd_eq]
  have h0 : 0 < LARGE := by rw [LARGE_eq]; omega
  have h1 := Nat.div_add_mod (h.vaddr + h.memsz + LARGE - 1) LARGE
  have h2 := Nat.mod_lt (h.vaddr + h.memsz + LARGE - 1) h0
  rw [Nat.mul_comm] at h1
  omega

theorem pageEnd_le {h : Hdr} {k : Nat} (hk : h.vaddr + h.memsz ≤ k * LARGE) : pageEnd h ≤ k * LARGE := by
  rw [pageEnd_eq]
  have h0 : 0 < LARGE := by rw [LARGE_eq]; omega
  refine Nat.mul_le_mul_right _ (Nat.le_of_lt_succ (Nat.div_lt_of_lt_mul ?_))
  rw [Nat.succ_eq_add_one, Nat.mul_add, Nat.mul_one, Nat.mul_comm LARGE k]
  omega

theorem le_pageBase {h : Hdr} {k : Nat} (hk : k * LARGE ≤ h.vaddr) : k * LARGE ≤ pageBase h := by
  have h0 : 0 < LARGE := by rw [LARGE_eq]; omega
  have h1 := Nat.mul_le_mul_right LARGE ((Nat.le_div_iff_mul_le h0).2 hk)
  have h2 := Nat.div_add_mod h.vaddr LARGE
  rw [Nat.mul_comm] at h2
  unfold pageBase
  omega

/-- Headers on separate pages. -/
def Apart (a b : Hdr) : Prop := pageEnd a ≤ pageBase b

theorem Spec.GoodProgram.apart' {offset : Nat} {ros ws : List Hdr} {rs : List Reloc}
    (g : GoodProgram offset ros ws rs) : (ros ++ ws).Pairwise Apart :=
  g.apart.imp fun ⟨_, h1, h2⟩ => Nat.le_trans (pageEnd_le h1) (le_pageBase h2)

theorem Spec.GoodProgram.low' {offset : Nat} {ros ws : List Hdr} {rs : List Reloc}
    (g : GoodProgram offset ros ws rs) : ∀ h ∈ ros ++ ws, offset + pageEnd h ≤ userTop := by
  intro h hh
  obtain ⟨k, h1, h2⟩ := g.low h hh
  have := pageEnd_le h1
  omega

theorem fileByte_none {hs : List Hdr} {va : Nat}
    (h : ∀ x ∈ hs, ¬ (x.vaddr ≤ va ∧ va < x.vaddr + x.data.length)) : fileByte hs va = none := by
  induction hs with
  | nil => rfl
  | cons x hs ih =>
    rw [fileByte, if_neg (h x (by simp))]
    exact ih fun y hy => h y (List.mem_cons_of_mem _ hy)

/-- Where a header's own bytes are, the file has these bytes. -/
theorem fileByte_mem {hs : List Hdr} (hp : hs.Pairwise Apart) (hf : ∀ h ∈ hs, h.data.length ≤ h.memsz)
    {h : Hdr} (hh : h ∈ hs) {va : Nat} (h1 : pageBase h ≤ va) (h2 : va < pageEnd h) :
    fileByte hs va = overlay (fun _ => none) h.vaddr h.data va := by
  induction hs with
  | nil => cases hh
  | cons x hs ih =>
    rw [List.pairwise_cons] at hp
    rcases List.mem_cons.1 hh with rfl | hh
    · rw [fileByte]
      split
      · rename_i hc
        unfold overlay
        rw [if_pos hc.1]; simp
      · rename_i hc
        rw [overlay_out hc]
        apply fileByte_none
        intro y hy hc'
        have := hp.1 y hy
        unfold Apart at this
        have := pageBase_le y
        omega
    · rw [fileByte, if_neg, ih hp.2 (fun y hy => hf y (List.mem_cons_of_mem _ hy)) hh]
      intro hc
      have := hp.1 h hh
      unfold Apart at this
      have := le_pageEnd x
      have := hf x (by simp)
      omega

theorem le64_get (v : Nat) {i : Nat} (hi : i < 8) : (le64 v)[i]? = some (UInt8.ofNat (v / 256 ^ i)) := by
  unfold le64
  simp [hi]

/-- One relocation. -/
def one (offset : Nat) (r : Reloc) (va : Nat) : Option UInt8 :=
  if r.off ≤ va ∧ va < r.off + 8 then some (UInt8.ofNat ((offset + r.addend) / 256 ^ (va - r.off))) else none

theorem overlay_reloc (G : Nat → Option UInt8) (offset : Nat) (r : Reloc) (va : Nat) :
    overlay G r.off (le64 (offset + r.addend)) va = (one offset r va).or (G va) := by
  unfold one
  by_cases h : r.off ≤ va ∧ va < r.off + 8
  · unfold overlay
    rw [if_pos h.1, if_pos h, le64_get _ (by omega)]
  · rw [if_neg h, overlay_out (by rw [le64_length]; exact h)]; rfl

theorem relocByte_cons (offset : Nat) (r : Reloc) (rs : List Reloc) (va : Nat) :
    relocByte offset (r :: rs) va = (relocByte offset rs va).or (one offset r va) := rfl

end NRK.Load
