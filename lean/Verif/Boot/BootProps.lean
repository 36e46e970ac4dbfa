import Verif.Boot.BootLemmas

/-!
# C80: the kernel finds its image, its stack and the memory where it expects them
-/

namespace NRK.Boot

open NRK.VSpace (PML4 Level leafAt win)
open NRK.Load (Mem Reloc le64 relocValue)
open Spec

theorem given_none {ty : Ty} : ty.act = .none ↔ given ty = none := by
  cases ty <;> simp [Ty.act, given]

theorem given_some {ty : Ty} (h : ty.act ≠ .none) : given ty = some (ty.act.canWrite, ty.act.canExec) := by
  cases ty <;> first | rfl | exact absurd rfl h

theorem high_eq (ty : Ty) : ty.high = kernelToo ty := by cases ty <;> rfl

theorem skipped_eq (e : Entry) : e.skipped = leftOut e := rfl

theorem inside_iff {x : Nat} {e : Entry} : Spec.inside x e = true ↔ e.start ≤ x ∧ x < e.start + e.pages * 4096 := by
  unfold Spec.inside; simp

/-- What one entry shows at an address. -/
def lowShown (x : Nat) (e : Entry) : Option View := if Spec.inside x e && !leftOut e then shown x e else none
def highShown (y : Nat) (e : Entry) : Option View :=
  if Spec.inside y e && !leftOut e && kernelToo e.ty then shown y e else none
def entryShown (x : Nat) (e : Entry) : Option View :=
  if x < KOFF then lowShown x e else highShown (x - KOFF) e

theorem mapEntry_spec (t : PML4) (e : Entry) (hs : e.start % 4096 = 0) (hp : 0 < e.pages)
    (hl : e.start + e.pages * 4096 ≤ 70368744177664)
    (hlo : ∀ x, Spec.inside x e = true → leftOut e = false → view t x = none)
    (hhi : ∀ y, Spec.inside y e = true → leftOut e = false → kernelToo e.ty = true → view t (KOFF + y) = none) :
    ∃ t', mapEntry t e = .ok t' ∧ ∀ x, x < 281474976710656 → view t' x = (entryShown x e).or (view t x) := by
  have hk := KOFF_eq
  unfold mapEntry
  rw [skipped_eq]
  cases hsk : leftOut e with
  | true =>
    refine ⟨t, rfl, fun x _ => ?_⟩
    unfold entryShown lowShown highShown
    simp [hsk]
  | false =>
    by_cases hn : e.ty.act = .none
    · refine ⟨t, by simp [hn], fun x _ => ?_⟩
      unfold entryShown lowShown highShown shown
      rw [given_none.1 hn]
      simp
    · have hgs := given_some hn
      rw [if_neg (by simp), if_neg hn]
      have hfin : e.fin = e.start + e.pages * 4096 := rfl
      obtain ⟨t1, a1, a2⟩ := mapIdentity_view (t := t) (off := 0) (base := e.start) (fin := e.fin) hn rfl hs
        (by omega) (by omega) (by omega) (fun x h1 h2 => hlo x (inside_iff.2 ⟨by omega, by omega⟩) hsk)
      rw [a1]
      show ∃ t', (if e.ty.high = true then _ else _) = _ ∧ _
      have hlow : ∀ x, x < 281474976710656 → view t1 x =
          (if x < KOFF then lowShown x e else none).or (view t x) := by
        intro x hx
        rw [a2 x hx]
        unfold lowShown shown
        rw [hgs, hsk]
        by_cases hin : Spec.inside x e = true
        · have := inside_iff.1 hin
          rw [if_pos (by omega), if_pos (by omega), hin]
          rfl
        · have : ¬ (e.start ≤ x ∧ x < e.start + e.pages * 4096) := fun h => hin (inside_iff.2 h)
          have hin' : Spec.inside x e = false := by simpa using hin
          rw [if_neg (by omega), hin']
          simp
      by_cases hh : e.ty.high = true
      · rw [if_pos hh]
        have hh' := hh
        rw [high_eq] at hh'
        obtain ⟨t2, b1, b2⟩ := mapIdentity_view (t := t1) (off := KOFF) (base := e.start) (fin := e.fin) hn
          (by omega) hs (by omega) (by omega) (by omega) (by
            intro x h1 h2
            rw [hlow x (by omega), if_neg (by omega)]
            have := hhi (x - KOFF) (inside_iff.2 ⟨by omega, by omega⟩) hsk hh'
            rw [show KOFF + (x - KOFF) = x by omega] at this
            rw [this]
            rfl)
        refine ⟨t2, b1, fun x hx => ?_⟩
        rw [b2 x hx]
        by_cases hin : KOFF + e.start ≤ x ∧ x < KOFF + e.fin
        · rw [if_pos hin]
          unfold entryShown highShown shown
          rw [if_neg (by omega), hgs, hsk, hh', inside_iff.2 ⟨by omega, by omega⟩]
          rfl
        · rw [if_neg hin, hlow x hx]
          unfold entryShown highShown
          by_cases hx' : x < KOFF
          · rw [if_pos hx', if_pos hx']
          · have : Spec.inside (x - KOFF) e = false := by
              cases hi : Spec.inside (x - KOFF) e with
              | false => rfl
              | true =>
                have := inside_iff.1 hi
                exact absurd ⟨by omega, by omega⟩ hin
            rw [if_neg hx', if_neg hx', this]
            rfl
      · rw [if_neg hh]
        refine ⟨t1, rfl, fun x hx => ?_⟩
        rw [hlow x hx]
        unfold entryShown highShown
        have : kernelToo e.ty = false := by rw [← high_eq]; simpa using hh
        rw [this]
        by_cases hx' : x < KOFF
        · rw [if_pos hx', if_pos hx']
        · rw [if_neg hx', if_neg hx']
          simp

/-- What the memory map shows at an address. -/
def mapShown (mm : List Entry) (x : Nat) : Option View :=
  if x < KOFF then (mm.find? fun e => Spec.inside x e && !leftOut e).bind (shown x)
  else (mm.find? fun e => Spec.inside (x - KOFF) e && !leftOut e && kernelToo e.ty).bind (shown (x - KOFF))

theorem mapPhysical_spec : ∀ (mm : List Entry) (t : PML4),
    (∀ e ∈ mm, e.start % 4096 = 0 ∧ 0 < e.pages ∧ e.start + e.pages * 4096 ≤ 70368744177664) →
    (mm.Pairwise fun a b => Spec.Apart a.start (a.start + a.pages * 4096) b.start (b.start + b.pages * 4096)) →
    (∀ e ∈ mm, ∀ x, Spec.inside x e = true → leftOut e = false → view t x = none) →
    (∀ e ∈ mm, ∀ y, Spec.inside y e = true → leftOut e = false → kernelToo e.ty = true →
      view t (KOFF + y) = none) →
    ∃ t', mapPhysical mm t = .ok t' ∧ ∀ x, x < 281474976710656 →
      view t' x = (mapShown mm x).or (view t x) := by
  intro mm
  induction mm with
  | nil =>
    intro t _ _ _ _
    refine ⟨t, rfl, fun x _ => ?_⟩
    unfold mapShown
    simp
  | cons e mm ih =>
    intro t hg hp hlo hhi
    have hk := KOFF_eq
    rw [List.pairwise_cons] at hp
    obtain ⟨g1, g2, g3⟩ := hg e (by simp)
    obtain ⟨t1, a1, a2⟩ := mapEntry_spec t e g1 g2 g3 (hlo e (by simp)) (hhi e (by simp))
    have hex : ∀ b ∈ mm, ∀ y, Spec.inside y b = true → Spec.inside y e = false := by
      intro b hb y hy
      cases hi : Spec.inside y e with
      | false => rfl
      | true =>
        have h1 := inside_iff.1 hy
        have h2 := inside_iff.1 hi
        have h3 := hp.1 b hb
        unfold Spec.Apart at h3
        omega
    obtain ⟨t2, b1, b2⟩ := ih t1 (fun x hx => hg x (List.mem_cons_of_mem _ hx)) hp.2
      (by
        intro b hb x hx hs
        have := inside_iff.1 hx
        have hb3 := (hg b (List.mem_cons_of_mem _ hb)).2.2
        rw [a2 x (by omega)]
        unfold entryShown lowShown
        rw [if_pos (by omega), hex b hb x hx, hlo b (List.mem_cons_of_mem _ hb) x hx hs]
        rfl)
      (by
        intro b hb y hy hs hk2
        have := inside_iff.1 hy
        have hb3 := (hg b (List.mem_cons_of_mem _ hb)).2.2
        rw [a2 _ (by omega)]
        unfold entryShown highShown
        rw [if_neg (by omega), show KOFF + y - KOFF = y by omega, hex b hb y hy,
          hhi b (List.mem_cons_of_mem _ hb) y hy hs hk2]
        rfl)
    refine ⟨t2, ?_, fun x hx => ?_⟩
    · rw [mapPhysical, a1]; exact b1
    · rw [b2 x hx, a2 x hx]
      unfold mapShown entryShown
      by_cases hx' : x < KOFF
      · rw [if_pos hx', if_pos hx', if_pos hx', List.find?_cons]
        unfold lowShown
        cases hc : (Spec.inside x e && !leftOut e) with
        | true =>
          have hn : mm.find? (fun b => Spec.inside x b && !leftOut b) = none := by
            rw [List.find?_eq_none]
            intro b hb h
            rw [Bool.and_eq_true] at h hc
            rw [hex b hb x h.1] at hc
            cases hc.1
          rw [hn]
          rfl
        | false => rfl
      · rw [if_neg hx', if_neg hx', if_neg hx', List.find?_cons]
        unfold highShown
        cases hc : (Spec.inside (x - KOFF) e && !leftOut e && kernelToo e.ty) with
        | true =>
          have hn : mm.find? (fun b => Spec.inside (x - KOFF) b && !leftOut b && kernelToo b.ty) = none := by
            rw [List.find?_eq_none]
            intro b hb h
            rw [Bool.and_eq_true, Bool.and_eq_true] at h hc
            rw [hex b hb _ h.1.1] at hc
            cases hc.1.1
          rw [hn]
          rfl
        | false => rfl

theorem STACK_eq : STACK = 4194304 := by unfold STACK; rfl

theorem below_lt {x : Nat} (h : x < KOFF + KOFF) : x < 281474976710656 := by
  rw [KOFF_eq] at h; omega

theorem below_le {x : Nat} (h : x ≤ KOFF + KOFF) : x ≤ 281474976710656 := by
  rw [KOFF_eq] at h; omega

/-- What the stack shows, if its guard page ends at `mid`. -/
def stackShown (stack mid fin y : Nat) : Option View :=
  if stack ≤ y ∧ y < mid then some ⟨y, false, false⟩
  else if mid ≤ y ∧ y < fin then some ⟨y, true, false⟩ else none

theorem stack_pure (S M E K x : Nat) (z : Option View) (h1 : S < M) (h2 : M < E) :
    (if K + M ≤ x ∧ x < K + E then some (View.mk (x - K) true false)
      else if K + S ≤ x ∧ x < K + M then some (View.mk (x - K) false false) else z) =
    (if x < K then none else stackShown S M E (x - K)).or z := by
  unfold stackShown
  by_cases hx' : x < K
  · rw [if_neg (by omega), if_neg (by omega), if_pos hx']
    rfl
  · obtain ⟨y, rfl⟩ : ∃ y, x = K + y := ⟨x - K, by omega⟩
    rw [if_neg hx', Nat.add_sub_cancel_left]
    by_cases h3 : S ≤ y ∧ y < M
    · rw [if_neg (by omega), if_pos (by omega), if_pos h3]
      rfl
    · by_cases h4 : M ≤ y ∧ y < E
      · rw [if_pos (by omega), if_neg h3, if_pos h4]
        rfl
      · rw [if_neg (by omega), if_neg (by omega), if_neg h3, if_neg h4]
        rfl

theorem mapStack_spec (t : PML4) (stack M E : Nat) (hsp : stack % 4096 = 0) (hsm1 : M % 4096 = 0)
    (hM : ∀ _ : Unit, stack + 4096 = M) (hE : ∀ _ : Unit, stack + STACK = E)
    (hSM : stack < M) (hSE : M < E) (hsm : E % 4096 = 0) (hsl : E ≤ KOFF)
    (hfree : ∀ y, stack ≤ y → y < E → view t (KOFF + y) = none) :
    ∃ t', mapStack t stack = .ok t' ∧ ∀ x, x < 281474976710656 →
      view t' x = (if x < KOFF then none else stackShown stack M E (x - KOFF)).or (view t x) := by
  have hKm : KOFF % 4096 = 0 := by rw [KOFF_eq]
  have hlow : ∀ x, x ≤ KOFF + E → x ≤ 281474976710656 := fun x hx =>
    below_le (Nat.le_trans hx (Nat.add_le_add_left hsl _))
  have hfree' : ∀ x, KOFF + stack ≤ x → x < KOFF + E → view t x = none := by
    intro x h1 h2
    obtain ⟨y, rfl⟩ : ∃ y, x = KOFF + y :=
      ⟨x - KOFF, (Nat.add_sub_cancel' (Nat.le_trans (Nat.le_add_right _ _) h1)).symm⟩
    exact hfree y (Nat.le_of_add_le_add_left h1) (Nat.lt_of_add_lt_add_left h2)
  obtain ⟨t1, a1, a2⟩ := mapIdentity_view (t := t) (off := KOFF) (base := stack) (fin := M)
    (r := .readUser) (by decide) hKm hsp hsm1 hSM
    (hlow _ (Nat.add_le_add_left (Nat.le_of_lt hSE) _)) (fun x h1 h2 =>
      hfree' x h1 (Nat.lt_trans h2 (Nat.add_lt_add_left hSE _)))
  obtain ⟨t2, b1, b2⟩ := mapIdentity_view (t := t1) (off := KOFF) (base := M) (fin := E)
    (r := .readWriteKernel) (by decide) hKm hsm1 hsm hSE (hlow _ (Nat.le_refl _)) (by
      intro x h1 h2
      rw [a2 x (Nat.lt_of_lt_of_le h2 (hlow _ (Nat.le_refl _))), if_neg (fun h => Nat.not_lt.2 h1 h.2)]
      exact hfree' x (Nat.le_trans (Nat.add_le_add_left (Nat.le_of_lt hSM) _) h1) h2)
  refine ⟨t2, ?_, fun x hx => ?_⟩
  · unfold mapStack
    rw [hM (), hE (), a1]
    exact b1
  · rw [b2 x hx, a2 x hx]
    exact stack_pure stack M E KOFF x (view t x) hSM hSE

theorem view_empty (x : Nat) : view PML4.empty x = none := rfl

theorem topAlign_page {hs : List Seg} {rs : List Reloc} (g : GoodKernel hs rs) :
    topAlign hs % 4096 = 0 ∧ 0 < topAlign hs := by
  obtain ⟨k, _, hk, e⟩ := GoodKernel_align g
  rw [e]
  exact pow_page hk

theorem seg_pages {h : Seg} : h.vaddr + h.memsz ≤ endPage h * 4096 ∧ firstPage h * 4096 ≤ h.vaddr := by
  unfold endPage firstPage; omega

theorem place_good {hs : List Seg} {rs : List Reloc} {raw : Nat} (g : GoodKernel hs rs)
    (hraw : raw % 4096 = 0) : raw ≤ placeOf hs raw ∧ placeOf hs raw % 4096 = 0 ∧
      placeOf hs raw % topAlign hs = 0 ∧ placeOf hs raw + topPage hs * 4096 ≤ rawEnd hs raw := by
  obtain ⟨hA, hA0⟩ := topAlign_page g
  obtain ⟨f1, f2, f3, f4⟩ := place_facts raw (topAlign hs) hraw hA hA0
  refine ⟨f1, f3, f4, ?_⟩
  unfold placeOf rawEnd
  generalize (raw + topAlign hs - 1) / topAlign hs * topAlign hs = B at *
  generalize topAlign hs = A at *
  generalize topPage hs = T at *
  omega

theorem placeOf_eq (hs : List Seg) (raw : Nat) :
    placeOf hs raw = (raw + topAlign hs - 1) / topAlign hs * topAlign hs := rfl

theorem rawEnd_eq (hs : List Seg) (raw : Nat) :
    rawEnd hs raw = raw + (topPage hs + topAlign hs / 4096) * 4096 := rfl

set_option maxRecDepth 20000

attribute [local irreducible] placeOf rawEnd topPage topAlign endPage firstPage

/-- The pages of UEFI's memory that are kept, given back or lost. -/
def Accounted (raw fin place top : Nat) (fr : List (Nat × Nat)) : Prop :=
  (∀ q ∈ fr, raw ≤ q.1 ∧ q.1 + q.2 * 4096 ≤ fin ∧ Spec.Apart q.1 (q.1 + q.2 * 4096) place top) ∧
  ∀ a, raw ≤ a → a < fin → (place ≤ a ∧ a < top) ∨ (∃ q ∈ fr, q.1 ≤ a ∧ a < q.1 + q.2 * 4096) ∨
    (place ≤ a + 4096 ∧ a < top + 4096)

/-- **The kernel is loaded.** -/
theorem loadKernel_spec (feat : Bool) (hs : List Seg) (rs : List Reloc) (raw : Nat) (m : Mem)
    (g : GoodKernel hs rs) (hraw : raw % 4096 = 0) (hlow : rawEnd hs raw ≤ 70368744177664) :
    ∃ k, loadKernel feat hs rs raw m = .ok k ∧ k.pbase = placeOf hs raw ∧
      raw ≤ placeOf hs raw ∧ placeOf hs raw + topPage hs * 4096 ≤ rawEnd hs raw ∧
      placeOf hs raw % 4096 = 0 ∧ placeOf hs raw % topAlign hs = 0 ∧
      (∀ x, x < 281474976710656 → view k.t x = if x < KOFF then none else
        match hs.find? (onSeg (placeOf hs raw) (x - KOFF)) with
        | some h => some ⟨x - KOFF, writable feat h, h.x⟩
        | none => none) ∧
      (∀ h ∈ hs, ∀ va, h.vaddr ≤ va → va < h.vaddr + h.memsz →
        k.mem (placeOf hs raw + va) = image (KOFF + placeOf hs raw) hs rs va) ∧
      (∀ p, ¬ (raw ≤ p ∧ p < rawEnd hs raw) → k.mem p = m p) ∧
      Accounted raw (rawEnd hs raw) (placeOf hs raw) (placeOf hs raw + topPage hs * 4096) k.freed := by
  have hk := KOFF_eq
  obtain ⟨f1, f3, -, hend⟩ := place_good g hraw
  obtain ⟨t, s1, s2⟩ := mapSegs_spec feat (placeOf hs raw) f3 hs PML4.empty
    (fun h hh => ⟨g.readable h hh, (g.filled h hh).1⟩) g.apart
    (fun h hh => by
      have := le_topPage hh
      have := Nat.mul_le_mul_right 4096 this
      omega)
    (fun _ _ _ _ => rfl)
  have hview : ∀ x, x < 281474976710656 → view t x = if x < KOFF then none else
        match hs.find? (onSeg (placeOf hs raw) (x - KOFF)) with
        | some h => some ⟨x - KOFF, writable feat h, h.x⟩
        | none => none := s2
  have hres : ∀ h ∈ hs, ∀ va, h.vaddr ≤ va → va < h.vaddr + h.memsz →
      resolveAddr t (KOFF + placeOf hs raw + va) = some (placeOf hs raw + va) := by
    intro h hh va h1 h2
    obtain ⟨p1, p2⟩ := @seg_pages h
    have p3 := Nat.mul_le_mul_right 4096 (le_topPage hh)
    have hon : onSeg (placeOf hs raw) (placeOf hs raw + va) h = true := onSeg_iff.2 ⟨by omega, by omega⟩
    rw [resolveAddr_view, hview _ (by omega), if_neg (by omega),
      show KOFF + placeOf hs raw + va - KOFF = placeOf hs raw + va by omega]
    cases hf : hs.find? (onSeg (placeOf hs raw) (placeOf hs raw + va)) with
    | some b => rfl
    | none =>
      rw [List.find?_eq_none] at hf
      exact absurd hon (hf h hh)
  obtain ⟨k, k1, k2, ek⟩ := GoodKernel_align g
  obtain ⟨fr, r1, r2, r3⟩ := allocAligned_spec raw (topPage hs) k hraw k2 k1
  rw [← ek] at r1 r2 r3
  rw [← placeOf_eq] at r1 r2 r3
  rw [← rawEnd_eq] at r2 r3
  have hall : allocate feat hs raw PML4.empty m =
      .ok ⟨placeOf hs raw, fr, t, zeroed m raw (topPage hs + topAlign hs / 4096)⟩ := by
    unfold allocate
    rw [minBase_zero g.from_zero, maxEnd_eq, maxAlign_eq]
    rw [if_neg (by simp), if_neg (by omega)]
    simp only
    rw [Nat.sub_zero, Nat.mul_div_cancel _ (by decide : 0 < 4096), r1]
    show (mapSegs feat (placeOf hs raw) hs PML4.empty).map _ = _
    rw [s1]
    rfl
  obtain ⟨m1, l1, l2, l3⟩ := loadSegs_spec t (KOFF + placeOf hs raw) (placeOf hs raw) hs
    (zeroed m raw (topPage hs + topAlign hs / 4096))
    (fun h hh va h1 h2 => hres h hh va h1 (by have := (g.filled h hh).2; omega))
    (by
      have hap : ∀ {l : List Seg}, (∀ h ∈ l, h ∈ hs) →
          (l.Pairwise fun a b => endPage a ≤ firstPage b ∨ endPage b ≤ firstPage a) →
          l.Pairwise fun a b => a.vaddr + a.data.length ≤ b.vaddr ∨ b.vaddr + b.data.length ≤ a.vaddr := by
        intro l
        induction l with
        | nil => intro _ _; exact List.Pairwise.nil
        | cons a l ih =>
          intro hm h
          rw [List.pairwise_cons] at h ⊢
          refine ⟨fun b hb => ?_, ih (fun x hx => hm x (List.mem_cons_of_mem _ hx)) h.2⟩
          have h1 := h.1 b hb
          have h2 := (g.filled a (hm a (by simp))).2
          have h3 := (g.filled b (hm b (List.mem_cons_of_mem _ hb))).2
          obtain ⟨p1, p2⟩ := @seg_pages a
          obtain ⟨p3, p4⟩ := @seg_pages b
          rcases h1 with h1 | h1
          · left
            have := Nat.mul_le_mul_right 4096 h1
            omega
          · right
            have := Nat.mul_le_mul_right 4096 h1
            omega
      exact hap (fun _ h => h) g.apart)
  obtain ⟨m2, q1, q2, q3⟩ := relocs_spec t (KOFF + placeOf hs raw) (placeOf hs raw) rs m1 (by
    intro r hr
    obtain ⟨h, hh, i1, i2⟩ := g.inside r hr
    obtain ⟨j1, j2⟩ := g.relative r hr
    refine ⟨hres h hh _ i1 (by omega), j1, ?_⟩
    have e63 : (2 : Nat) ^ 63 = 9223372036854775808 := rfl
    have e64 : (2 : Nat) ^ 64 = 18446744073709551616 := rfl
    rw [e63] at j2
    rw [e64]
    omega)
  refine ⟨⟨placeOf hs raw, fr, t, m2⟩, ?_, rfl, f1, hend, f3, (place_good g hraw).2.2.1, hview, ?_, ?_, ?_, ?_⟩
  · unfold loadKernel
    rw [hall]
    show ((loadSegs t (KOFF + placeOf hs raw) hs _).bind _) = _
    rw [l1]
    show ((relocs t (KOFF + placeOf hs raw) rs m1).map _) = _
    rw [q1]
    rfl
  · intro h hh va h1 h2
    show m2 (placeOf hs raw + va) = _
    rw [q2, l2]
    unfold image
    obtain ⟨p1, p2⟩ := @seg_pages h
    have p3 := Nat.mul_le_mul_right 4096 (le_topPage hh)
    have hz : zeroed m raw (topPage hs + topAlign hs / 4096) (placeOf hs raw + va) = 0 := by
      unfold zeroed
      rw [if_pos]
      refine ⟨by omega, ?_⟩
      rw [← rawEnd_eq]
      omega
    rw [hz]
    cases Load.Spec.relocByte (KOFF + placeOf hs raw) rs va <;> rfl
  · intro p hp
    show m2 p = m p
    rw [q3 p, l3 p]
    · unfold zeroed
      rw [← rawEnd_eq, if_neg hp]
    · intro h hh hc
      obtain ⟨p1, p2⟩ := @seg_pages h
      have p3 := Nat.mul_le_mul_right 4096 (le_topPage hh)
      have p4 := (g.filled h hh).2
      exact hp ⟨by omega, by omega⟩
    · intro r hr hc
      obtain ⟨h, hh, i1, i2⟩ := g.inside r hr
      obtain ⟨p1, p2⟩ := @seg_pages h
      have p3 := Nat.mul_le_mul_right 4096 (le_topPage hh)
      exact hp ⟨by omega, by omega⟩
  · exact fun q hq => ⟨(r2 q hq).1, (r2 q hq).2.1, (r2 q hq).2.2⟩
  · exact r3

/-- **C80, the kernel's address space and image.**  For every kernel file and every machine in question the
loader does not panic, and when it jumps to the kernel:
* the image lies in the memory that UEFI gave, at a multiple of every segment's alignment, and nothing outside
  that memory was written;
* every address below 2^48 is translated exactly as expected;
* the memory of every segment holds the file's bytes, relocated, and zeros elsewhere;
* of the memory that UEFI gave, what is given back is not part of the image, and all but a page on either
  side is kept or given back.

Partial: a loader built without the feature `all-writable` makes all segments writable (`c80_text_writable`),
kernels whose first segment is not at page 0 are excluded (`c80_high_base`), and so are kernels with segments
that share a page (`c80_shared_page_panics`). -/
theorem c80_boot_partial (feat : Bool) (hs : List Seg) (rs : List Reloc) (raw stack : Nat) (mm : List Entry)
    (m : Mem) (g : GoodKernel hs rs) (gm : GoodMachine hs raw stack mm) :
    ∃ k, boot feat hs rs raw stack mm m = .ok k ∧
      k.pbase = placeOf hs raw ∧ raw ≤ k.pbase ∧ k.pbase + topPage hs * 4096 ≤ rawEnd hs raw ∧
      (∀ h ∈ hs, h.align ≠ 0 → k.pbase % h.align = 0) ∧
      (∀ x, x < 2 ^ 48 → view k.t x = expected feat hs raw stack mm x) ∧
      (∀ h ∈ hs, ∀ va, h.vaddr ≤ va → va < h.vaddr + h.memsz →
        view k.t (2 ^ 46 + k.pbase + va) = some ⟨k.pbase + va, writable feat h, h.x⟩ ∧
        k.mem (k.pbase + va) = image (2 ^ 46 + k.pbase) hs rs va) ∧
      (∀ p, ¬ (raw ≤ p ∧ p < rawEnd hs raw) → k.mem p = m p) ∧
      Accounted raw (rawEnd hs raw) k.pbase (k.pbase + topPage hs * 4096) k.freed := by
  have e46 : (2 : Nat) ^ 46 = 70368744177664 := rfl
  have hKE : KOFF = 2 ^ 46 := KOFF_eq
  have hsl := gm.stack_low
  have hsp := gm.stack_page
  have hsa := gm.stack_apart
  have hrl := gm.raw_low
  rw [← hKE, ← STACK_eq] at hsl
  rw [← STACK_eq] at hsa
  rw [e46] at hrl
  unfold Spec.Apart at hsa
  obtain ⟨k, k1, k2, k3, k4, k5, -, k7, k8, k9, k10⟩ := loadKernel_spec feat hs rs raw m g gm.raw_page hrl
  have hP6 : ∀ h ∈ hs, h.align ≠ 0 → placeOf hs raw % h.align = 0 := fun h hh h0 =>
    Nat.mod_eq_zero_of_dvd (Nat.dvd_trans (align_dvd g hh h0)
      (Nat.dvd_of_mod_eq_zero (place_good g gm.raw_page).2.2.1))
  rw [← KOFF_eq] at hrl
  have hS1 : 4096 < STACK := by rw [STACK_eq]; decide
  have hS2 : STACK % 4096 = 0 := by rw [STACK_eq]
  generalize hP : placeOf hs raw = P at *
  clear e46
  have honP : ∀ y h, h ∈ hs → onSeg P y h = true → P ≤ y ∧ y < P + topPage hs * 4096 := by
    intro y h hh hon
    have := onSeg_iff.1 hon
    have := Nat.mul_le_mul_right 4096 (le_topPage hh)
    omega
  have hnoseg : ∀ y, ¬ (P ≤ y ∧ y < P + topPage hs * 4096) → hs.find? (onSeg P y) = none := by
    intro y hy
    rw [List.find?_eq_none]
    intro h hh hon
    exact hy (honP y h hh hon)
  -- the stack
  obtain ⟨t2, hst, b2⟩ := mapStack_spec k.t stack (stack + 4096) (stack + STACK) hsp (by omega)
    (fun _ => rfl) (fun _ => rfl) (by omega) (by omega) (by omega) hsl (by
    intro y h1 h2
    rw [k7 _ (below_lt (by omega)), if_neg (by omega), show KOFF + y - KOFF = y by omega, hnoseg _ (by omega)])
  -- the regions
  have hent : ∀ e ∈ mm, e.start % 4096 = 0 ∧ 0 < e.pages ∧ e.start + e.pages * 4096 ≤ KOFF := by
    intro e he
    have := gm.entry e he
    rwa [← hKE] at this
  obtain ⟨t3, c1, c2⟩ := mapPhysical_spec mm t2 (by rw [← KOFF_eq]; exact hent) gm.entries_apart
    (by
      intro e he x hx _
      have h1 := inside_iff.1 hx
      have h2 := hent e he
      rw [b2 x (below_lt (by omega)), if_pos (by omega), k7 x (below_lt (by omega)), if_pos (by omega)]
      rfl)
    (by
      intro e he y hy _ hh
      have h1 := inside_iff.1 hy
      have h2 := hent e he
      obtain ⟨n1, n2⟩ := gm.not_image e he hh
      rw [hP] at n1
      rw [← STACK_eq] at n2
      unfold Spec.Apart at n1 n2
      rw [b2 _ (below_lt (by omega)), if_neg (by omega), k7 _ (below_lt (by omega)),
        if_neg (by omega), show KOFF + y - KOFF = y by omega, hnoseg y (by omega)]
      unfold stackShown
      rw [if_neg (by omega), if_neg (by omega)]
      rfl)
  have hfull : ∀ x, x < 281474976710656 → view t3 x = expected feat hs raw stack mm x := by
    intro x hx
    rw [c2 x hx, b2 x hx, k7 x hx]
    clear hx
    unfold expected mapShown
    rw [← hKE, hP, ← STACK_eq]
    by_cases hx' : x < KOFF
    · rw [if_pos hx', if_pos hx', if_pos hx', if_pos hx']
      cases (mm.find? fun e => Spec.inside x e && !leftOut e).bind (shown x) <;> rfl
    · rw [if_neg hx', if_neg hx', if_neg hx', if_neg hx']
      show _ = match hs.find? (onSeg P (x - KOFF)) with
        | some h => some (View.mk (x - KOFF) (writable feat h) h.x)
        | none => _
      have hexc : ∀ z, P ≤ x - KOFF ∧ x - KOFF < P + topPage hs * 4096 ∨
          (stack ≤ x - KOFF ∧ x - KOFF < stack + STACK) →
          ((mm.find? fun e => Spec.inside (x - KOFF) e && !leftOut e && kernelToo e.ty).bind
            (shown (x - KOFF))).or z = z := by
        intro z hin
        have : (mm.find? fun e => Spec.inside (x - KOFF) e && !leftOut e && kernelToo e.ty) = none := by
          rw [List.find?_eq_none]
          intro e he h
          rw [Bool.and_eq_true, Bool.and_eq_true] at h
          have h1 := inside_iff.1 h.1.1
          obtain ⟨n1, n2⟩ := gm.not_image e he h.2
          rw [hP] at n1
          rw [← STACK_eq] at n2
          unfold Spec.Apart at n1 n2
          omega
        rw [this]
        rfl
      cases hf : hs.find? (onSeg P (x - KOFF)) with
      | some h =>
        have hin := honP _ h (List.mem_of_find?_eq_some hf) (List.find?_some hf)
        unfold stackShown
        rw [if_neg (by omega), if_neg (by omega), hexc _ (Or.inl hin)]
        rfl
      | none =>
        simp only [Option.or_none]
        unfold stackShown
        by_cases h1 : stack ≤ x - KOFF ∧ x - KOFF < stack + 4096
        · rw [if_pos h1, if_pos h1, hexc _ (Or.inr ⟨h1.1, by omega⟩)]
        · rw [if_neg h1, if_neg h1]
          by_cases h2 : stack + 4096 ≤ x - KOFF ∧ x - KOFF < stack + STACK
          · rw [if_pos h2, if_pos h2, hexc _ (Or.inr ⟨by omega, h2.2⟩)]
          · rw [if_neg h2, if_neg h2, Option.or_none]
  refine ⟨{ k with t := t3 }, ?_, k2, ?_, ?_, ?_, ?_, ?_, ?_, ?_⟩
  · unfold boot
    rw [k1]
    show ((mapStack k.t stack).bind _) = _
    rw [hst]
    show ((mapPhysical mm t2).map _) = _
    rw [c1]
    rfl
  · show raw ≤ k.pbase
    rw [k2]; exact k3
  · show k.pbase + _ ≤ _
    rw [k2]; exact k4
  · intro h hh h0
    show k.pbase % _ = 0
    rw [k2]
    exact hP6 h hh h0
  · intro x hx
    exact hfull x hx
  · intro h hh va h1 h2
    show view t3 (2 ^ 46 + k.pbase + va) = some ⟨k.pbase + va, _, _⟩ ∧ k.mem (k.pbase + va) = _
    rw [k2, ← hKE]
    refine ⟨?_, k8 h hh va h1 h2⟩
    obtain ⟨p1, p2⟩ := @seg_pages h
    have p3 := Nat.mul_le_mul_right 4096 (le_topPage hh)
    rw [hfull _ (below_lt (by omega))]
    unfold expected
    rw [← hKE, hP, if_neg (by omega), show KOFF + P + va - KOFF = P + va by omega]
    show (match hs.find? (onSeg P (P + va)) with
        | some h => some (View.mk (P + va) (writable feat h) h.x)
        | none => _) = _
    have hon : onSeg P (P + va) h = true := onSeg_iff.2 ⟨by omega, by omega⟩
    cases hf : hs.find? (onSeg P (P + va)) with
    | none =>
      rw [List.find?_eq_none] at hf
      exact absurd hon (hf h hh)
    | some b =>
      have hb := List.mem_of_find?_eq_some hf
      have hb' := onSeg_iff.1 (List.find?_some hf)
      have hon' := onSeg_iff.1 hon
      have : b = h := by
        refine Classical.byContradiction fun hne => ?_
        have hpair : ∀ {l : List Seg},
            (l.Pairwise fun a b => endPage a ≤ firstPage b ∨ endPage b ≤ firstPage a) →
            ∀ a ∈ l, ∀ c ∈ l, a ≠ c → endPage a ≤ firstPage c ∨ endPage c ≤ firstPage a := by
          intro l
          induction l with
          | nil => intro _ a ha; cases ha
          | cons z l ih =>
            intro hp a ha c hc hac
            rw [List.pairwise_cons] at hp
            rcases List.mem_cons.1 ha with ea | ha' <;> rcases List.mem_cons.1 hc with ec | hc'
            · exact absurd (ea.trans ec.symm) hac
            · rw [ea]; exact hp.1 c hc'
            · rw [ec]; exact (hp.1 a ha').symm
            · exact ih hp.2 a ha' c hc' hac
        rcases hpair g.apart b hb h hh hne with hx | hx
        · have := Nat.mul_le_mul_right 4096 hx
          omega
        · have := Nat.mul_le_mul_right 4096 hx
          omega
      rw [this]
  · exact k9
  · show Accounted _ _ k.pbase (k.pbase + _) k.freed
    rw [k2]; exact k10

/-! ## What the loader does not do -/

/-- The loader as it is built (no crate declares the feature `all-writable`): every byte of every segment, the
kernel's code and its read-only data included, is writable. -/
theorem c80_text_writable (hs : List Seg) (rs : List Reloc) (raw stack : Nat) (mm : List Entry) (m : Mem)
    (g : GoodKernel hs rs) (gm : GoodMachine hs raw stack mm) :
    ∃ k, boot false hs rs raw stack mm m = .ok k ∧
      ∀ h ∈ hs, ∀ va, h.vaddr ≤ va → va < h.vaddr + h.memsz →
        view k.t (2 ^ 46 + k.pbase + va) = some ⟨k.pbase + va, true, h.x⟩ := by
  obtain ⟨k, h1, _, _, _, _, _, h2, _, _⟩ := c80_boot_partial false hs rs raw stack mm m g gm
  refine ⟨k, h1, fun h hh va a b => ?_⟩
  rw [(h2 h hh va a b).1]
  unfold writable
  rw [Bool.not_false, Bool.or_true]

/-- With the feature `all-writable` a segment is writable exactly if the file says so. -/
theorem c80_text_readonly (hs : List Seg) (rs : List Reloc) (raw stack : Nat) (mm : List Entry) (m : Mem)
    (g : GoodKernel hs rs) (gm : GoodMachine hs raw stack mm) :
    ∃ k, boot true hs rs raw stack mm m = .ok k ∧
      ∀ h ∈ hs, ∀ va, h.vaddr ≤ va → va < h.vaddr + h.memsz →
        view k.t (2 ^ 46 + k.pbase + va) = some ⟨k.pbase + va, h.w, h.x⟩ := by
  obtain ⟨k, h1, _, _, _, _, _, h2, _, _⟩ := c80_boot_partial true hs rs raw stack mm m g gm
  refine ⟨k, h1, fun h hh va a b => ?_⟩
  rw [(h2 h hh va a b).1]
  unfold writable
  rw [Bool.not_true, Bool.or_false]

/-- A region of usable memory that ends where the local APIC begins is not mapped at all, and so is one that
contains it or begins at address 0. -/
theorem c80_left_out (feat : Bool) (hs : List Seg) (rs : List Reloc) (raw stack : Nat) (mm : List Entry)
    (m : Mem) (g : GoodKernel hs rs) (gm : GoodMachine hs raw stack mm) (e : Entry) (he : e ∈ mm)
    (hl : e.start = 0 ∨ (e.start ≤ 0xfee00000 ∧ 0xfee00000 ≤ e.start + e.pages * 4096)) :
    ∃ k, boot feat hs rs raw stack mm m = .ok k ∧
      ∀ x, e.start ≤ x → x < e.start + e.pages * 4096 → view k.t x = none := by
  obtain ⟨k, h1, _, _, _, _, h2, _, _, _⟩ := c80_boot_partial feat hs rs raw stack mm m g gm
  refine ⟨k, h1, fun x a b => ?_⟩
  have hx : x < 2 ^ 46 := Nat.lt_of_lt_of_le b (gm.entry e he).2.2
  rw [h2 x (Nat.lt_trans hx (by decide))]
  unfold expected
  rw [if_pos hx]
  have hlo : leftOut e = true := by
    unfold leftOut
    simpa using hl
  have : (mm.find? fun e => Spec.inside x e && !leftOut e) = none := by
    rw [List.find?_eq_none]
    intro c hc hin
    rw [Bool.and_eq_true] at hin
    have hi := inside_iff.1 hin.1
    have hce : c = e := by
      refine Classical.byContradiction fun hne => ?_
      have hpair : ∀ {l : List Entry},
          (l.Pairwise fun a b =>
            Spec.Apart a.start (a.start + a.pages * 4096) b.start (b.start + b.pages * 4096)) →
          ∀ a ∈ l, ∀ c ∈ l, a ≠ c →
            Spec.Apart a.start (a.start + a.pages * 4096) c.start (c.start + c.pages * 4096) := by
        intro l
        induction l with
        | nil => intro _ a ha; cases ha
        | cons z l ih =>
          intro hp a ha c hc hac
          rw [List.pairwise_cons] at hp
          rcases List.mem_cons.1 ha with ea | ha' <;> rcases List.mem_cons.1 hc with ec | hc'
          · exact absurd (ea.trans ec.symm) hac
          · rw [ea]; exact hp.1 c hc'
          · rw [ec]; exact (hp.1 a ha').symm
          · exact ih hp.2 a ha' c hc' hac
      have hd := hpair gm.entries_apart c hc e he hne
      unfold Spec.Apart at hd
      omega
    rw [hce, hlo] at hin
    exact Bool.noConfusion hin.2
  rw [this]
  rfl

/-- A kernel whose first header is for memory that may not be read stops the loader. -/
theorem c80_unreadable_panics (feat : Bool) (h : Seg) (hs : List Seg) (rs : List Reloc) (raw stack : Nat)
    (mm : List Entry) (m : Mem) (hr : h.r = false) : boot feat (h :: hs) rs raw stack mm m = .panic := by
  have ha : h.act feat = .none := by
    unfold Seg.act
    rw [hr]
    cases feat <;> cases h.x <;> cases h.w <;> rfl
  have hm : ∀ p t, mapSegs feat p (h :: hs) t = .panic := by
    intro p t
    unfold mapSegs mapRange mapGen
    rw [ha, if_neg (fun hc => hc.2.2.2 rfl)]
    rfl
  have hall : allocate feat (h :: hs) raw PML4.empty m = .panic := by
    unfold allocate
    split
    · rfl
    · split
      · rfl
      · simp only
        cases hq : allocAligned raw ((maxEnd (h :: hs) - minBase (h :: hs)) / 4096) (maxAlign (h :: hs)) with
        | ok a =>
          show (mapSegs feat a.1 (h :: hs) PML4.empty).map _ = _
          rw [hm]
          rfl
        | panic => rfl
        | err e =>
          exfalso
          unfold allocAligned at hq
          simp only at hq
          repeat' split at hq
          all_goals cases hq
  unfold boot loadKernel
  rw [hall]
  rfl

/-- Two segments on a page stop the loader, also if their bytes do not overlap. -/
theorem c80_shared_page_panics (feat : Bool) (a b : Seg) (rs : List Reloc) (raw stack : Nat)
    (mm : List Entry) (m : Mem) (ha : a.r = true) (ha' : 0 < a.memsz) (hb' : 0 < b.memsz)
    (hal : a.align = 4096) (hbl : b.align = 4096) (ha0 : firstPage a = 0)
    (hsh : firstPage b < endPage a) (hraw : raw % 4096 = 0) (hlow : raw + endPage a * 4096 ≤ 2 ^ 46) :
    boot feat [a, b] rs raw stack mm m = .panic := by
  have e46 : (2 : Nat) ^ 46 = 70368744177664 := rfl
  rw [e46] at hlow
  have hA : topAlign [a, b] = 2 ^ 12 := by
    unfold topAlign
    simp [hal, hbl]
  have hm : mapSegs feat raw [a, b] PML4.empty = .panic := by
    obtain ⟨t, s1, s2⟩ := mapSegs_spec feat raw hraw [a] PML4.empty
      (by simp [ha, ha']) (by simp) (by simpa using hlow) (fun _ _ _ _ => rfl)
    have h1 : mapSegs feat raw [a, b] PML4.empty = mapSegs feat raw [b] t := by
      unfold mapSegs at s1 ⊢
      cases hq : mapRange PML4.empty (KOFF + raw + a.base) (raw + a.base) a.size (a.act feat) with
      | ok t1 =>
        rw [hq] at s1
        injection s1 with s1
        rw [s1]
        rfl
      | err e => rw [hq] at s1; cases s1
      | panic => rw [hq] at s1; cases s1
    have hbb := base_eq b
    have hkey : view t (KOFF + raw + b.base) ≠ none := by
      have hon : onSeg raw (raw + b.base) a = true := by
        rw [onSeg_iff, ha0, hbb]
        exact ⟨Nat.add_le_add_left (Nat.mul_le_mul_right _ (Nat.zero_le _)) _,
          Nat.add_lt_add_left (Nat.mul_lt_mul_of_pos_right hsh (by decide)) _⟩
      have hle : raw + b.base < KOFF := by
        rw [KOFF_eq]
        exact Nat.lt_of_lt_of_le (onSeg_iff.1 hon).2 hlow
      rw [Nat.add_assoc, s2 _ (below_lt (Nat.add_lt_add_left hle _)),
        if_neg (Nat.not_lt.2 (Nat.le_add_right _ _)), Nat.add_sub_cancel_left,
        List.find?_cons, hon]
      simp
    have hleaf : leafAt t (KOFF + raw + b.base) ≠ none := by
      intro hc
      apply hkey
      unfold view
      rw [hc]
      rfl
    rw [h1]
    have hsz : 4096 ≤ b.size := by
      obtain ⟨z1, z2⟩ := size_pos hb'
      generalize b.size = z at *
      clear hlow
      omega
    unfold mapSegs mapRange
    rw [mapGen_taken _ _ _ _ _ _ hsz hleaf]
    rfl
  have hp : (raw + 2 ^ 12 - 1) / 2 ^ 12 * 2 ^ 12 = raw := by
    have : (2 : Nat) ^ 12 = 4096 := rfl
    rw [this]
    omega
  have hall : allocate feat [a, b] raw PML4.empty m = .panic := by
    obtain ⟨fr, r1, -, -⟩ := allocAligned_spec raw (topPage [a, b]) 12 hraw (by decide) (by decide)
    unfold allocate
    rw [minBase_zero ⟨a, by simp, ha0⟩, maxEnd_eq, maxAlign_eq, hA]
    rw [if_neg (by simp), if_neg (by omega)]
    simp only
    rw [Nat.sub_zero, Nat.mul_div_cancel _ (by decide : 0 < 4096), r1, hp]
    show (mapSegs feat raw [a, b] PML4.empty).map _ = _
    rw [hm]
    rfl
  unfold boot loadKernel
  rw [hall]
  rfl

/-- A kernel whose one segment begins at page `b`, 2 or more, with one byte in the file: the loader asks UEFI
for the memory of one page, and of another one for the alignment, but puts the byte `b` pages behind, into
memory that it was not given. -/
theorem c80_high_base (b raw : Nat) (c : UInt8) (m : Mem) (hb : 2 ≤ b) (hraw : raw % 4096 = 0)
    (hb' : b * 4096 < 2 ^ 64 - 1) (hlow : raw + (b + 1) * 4096 ≤ 2 ^ 46) :
    ∃ k, loadKernel true [⟨b * 4096, 4096, 4096, true, true, false, [c]⟩] [] raw m = .ok k ∧
      k.pbase = raw ∧ k.mem (raw + b * 4096) = c ∧ raw + (1 + 1) * 4096 ≤ raw + b * 4096 := by
  have e46 : (2 : Nat) ^ 46 = 70368744177664 := rfl
  have e64 : (2 : Nat) ^ 64 - 1 = 18446744073709551615 := rfl
  rw [e46] at hlow
  rw [e64] at hb'
  generalize hseg : (⟨b * 4096, 4096, 4096, true, true, false, [c]⟩ : Seg) = h
  have g1 : h.vaddr = b * 4096 := by rw [← hseg]
  have g2 : h.memsz = 4096 := by rw [← hseg]
  have g3 : h.r = true := by rw [← hseg]
  have g4 : h.data = [c] := by rw [← hseg]
  have g5 : h.align = 4096 := by rw [← hseg]
  have ef : firstPage h = b := by unfold firstPage; rw [g1]; exact Nat.mul_div_cancel _ (by decide)
  have ee : endPage h = b + 1 := by
    unfold endPage; rw [g1, g2]
    clear hlow hb'
    omega
  have hmin : minBase [h] = b * 4096 := by
    show (if 18446744073709551615 > h.base then h.base else 18446744073709551615) = _
    rw [base_eq, ef, if_pos hb']
  have htop : topPage [h] = b + 1 := by
    unfold topPage
    rw [List.foldr_cons, List.foldr_nil, ee]
    exact Nat.max_eq_left (Nat.zero_le _)
  have hA : topAlign [h] = 2 ^ 12 := by
    unfold topAlign
    rw [List.foldr_cons, List.foldr_nil, g5]
    rfl
  have hp : (raw + 2 ^ 12 - 1) / 2 ^ 12 * 2 ^ 12 = raw := by
    have : (2 : Nat) ^ 12 = 4096 := rfl
    rw [this]
    clear hlow hb'
    omega
  obtain ⟨t, s1, s2⟩ := mapSegs_spec true raw hraw [h] PML4.empty
    (by simp [g3, g2]) (by simp) (by simpa [ee] using hlow) (fun _ _ _ _ => rfl)
  obtain ⟨fr, r1, -, -⟩ := allocAligned_spec raw 1 12 hraw (by decide) (by decide)
  rw [hp] at r1
  have hall : allocate true [h] raw PML4.empty m = .ok ⟨raw, fr, t, zeroed m raw (1 + 2 ^ 12 / 4096)⟩ := by
    unfold allocate
    rw [hmin, maxEnd_eq, maxAlign_eq, hA, htop]
    rw [if_neg (by simp), if_neg (Nat.not_lt.2 (Nat.mul_le_mul_right _ (Nat.le_succ _)))]
    simp only
    rw [← Nat.sub_mul, Nat.add_sub_cancel_left, Nat.one_mul, Nat.div_self (by decide), r1]
    show (mapSegs true raw [h] PML4.empty).map _ = _
    rw [s1]
    rfl
  have hle : raw + b * 4096 < KOFF := by
    rw [KOFF_eq]
    refine Nat.lt_of_lt_of_le ?_ hlow
    exact Nat.add_lt_add_left (Nat.mul_lt_mul_of_pos_right (Nat.lt_succ_self _) (by decide)) _
  have hon : onSeg raw (raw + b * 4096) h = true := by
    rw [onSeg_iff, ef, ee]
    exact ⟨Nat.le_refl _, Nat.add_lt_add_left (Nat.mul_lt_mul_of_pos_right (Nat.lt_succ_self _) (by decide)) _⟩
  have hres : resolveAddr t (KOFF + raw + b * 4096) = some (raw + b * 4096) := by
    rw [resolveAddr_view, Nat.add_assoc, s2 _ (below_lt (Nat.add_lt_add_left hle _)),
      if_neg (Nat.not_lt.2 (Nat.le_add_right _ _)), Nat.add_sub_cancel_left, List.find?_cons, hon]
    rfl
  refine ⟨⟨raw, fr, t, (zeroed m raw (1 + 2 ^ 12 / 4096)).write (raw + b * 4096) [c]⟩, ?_, rfl, ?_, ?_⟩
  · unfold loadKernel
    rw [hall]
    show ((loadSegs t (KOFF + raw) [h] _).bind _) = _
    unfold loadSegs
    rw [g1, g4]
    unfold copy
    rw [hres]
    rfl
  · show Mem.write _ _ _ _ = c
    rw [write_in ⟨Nat.le_refl _, Nat.lt_succ_self _⟩, Nat.sub_self]
    rfl
  · exact Nat.add_le_add_left (Nat.mul_le_mul_right _ hb) _

end NRK.Boot
