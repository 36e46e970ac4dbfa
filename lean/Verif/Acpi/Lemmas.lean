import Verif.Acpi.Model

/-!
# Lemmas about the functions of the ACPI interpreter
-/

namespace NRK.Acpi

open Spec (View Op inside Apart Allocator)

theorem store_other : ∀ (k : Nat) (m : Nat → UInt8) (p x a : Nat), a < p ∨ p + k ≤ a → store k m p x a = m a
  | 0, _, _, _, _, _ => rfl
  | k + 1, m, p, x, a, h => by
    rw [store, upd_other _ _ (by omega)]
    exact store_other k m (p + 1) (x / 256) a (by omega)

theorem load_congr : ∀ (k : Nat) (m m' : Nat → UInt8) (p : Nat), (∀ a, p ≤ a → a < p + k → m' a = m a) →
    load k m' p = load k m p
  | 0, _, _, _, _ => rfl
  | k + 1, m, m', p, h => by
    rw [load, load, h p (by omega) (by omega), load_congr k m m' (p + 1) (fun a h1 h2 => h a (by omega) (by omega))]

theorem load_store : ∀ (k : Nat) (m : Nat → UInt8) (p x : Nat), load k (store k m p x) p = x % 256 ^ k
  | 0, _, _, x => by simp [load, Nat.mod_one]
  | k + 1, m, p, x => by
    have h1 : load k (store (k + 1) m p x) (p + 1) = load k (store k m (p + 1) (x / 256)) (p + 1) :=
      load_congr k _ _ (p + 1) (fun a h1 _ => by rw [store, upd_other _ _ (by omega)])
    have h2 : (store (k + 1) m p x p).toNat = x % 256 := by
      rw [store, upd_same]
      simp
    rw [load, h1, h2, load_store k, Nat.pow_succ, Nat.mul_comm (256 ^ k) 256, Nat.mod_mul]

/-- What holds between the callers' view and the memory. -/
structure Inv (w : View) (s : St) : Prop where
  live : ∀ b, b ∈ s.live ↔ (∃ x ∈ w.objs, b = (x.1 - 16, x.2 + 16)) ∨ b ∈ w.kobjs
  excl : ∀ x ∈ w.objs, ∀ y ∈ w.kobjs, Apart (x.1 - 16, x.2 + 16) y
  oo : w.objs.Pairwise (fun x y => Apart (x.1 - 16, x.2 + 16) (y.1 - 16, y.2 + 16))
  kk : w.kobjs.Pairwise Apart
  hdr : ∀ x ∈ w.objs, 16 < x.1 ∧ x.1 % 8 = 0 ∧ x.1 + x.2 ≤ 2 ^ 64 ∧ load 8 s.mem (x.1 - 16) = x.2 + 16
  kpos : ∀ x ∈ w.kobjs, 0 < x.1 ∧ 0 < x.2 ∧ x.1 % 8 = 0
  bytes : ∀ a v, w.wrote a = some v → inside w.objs a ∧ s.mem a = v

theorem Inv.init (m : Nat → UInt8) : Inv View.init ⟨m, []⟩ := by
  constructor <;> simp [View.init]

theorem pairwise_both {α : Type} {R : α → α → Prop} (hs : ∀ a b, R a b → R b a) :
    ∀ {l : List α}, l.Pairwise R → ∀ {x y}, x ∈ l → y ∈ l → x ≠ y → R x y
  | [], _, _, _, hx, _, _ => absurd hx (by simp)
  | a :: l, h, x, y, hx, hy, hne => by
    obtain ⟨h1, h2⟩ := List.pairwise_cons.1 h
    rcases List.mem_cons.1 hx with hx' | hx'
    · rcases List.mem_cons.1 hy with hy' | hy'
      · exact absurd (hx'.trans hy'.symm) hne
      · exact hx' ▸ h1 y hy'
    · rcases List.mem_cons.1 hy with hy' | hy'
      · exact hy' ▸ hs _ _ (h1 x hx')
      · exact pairwise_both hs h2 hx' hy' hne

/-- Any two different objects are apart, header included. -/
theorem Inv.apart {w : View} {s : St} (h : Inv w s) {x y : Nat × Nat} (hx : x ∈ w.objs) (hy : y ∈ w.objs)
    (hne : x ≠ y) : Apart (x.1 - 16, x.2 + 16) (y.1 - 16, y.2 + 16) := by
  exact pairwise_both (fun _ _ hab => Or.symm hab) h.oo hx hy hne

/-- Objects have different addresses. -/
theorem Inv.ptr {w : View} {s : St} (h : Inv w s) {p n m : Nat} (hx : (p, n) ∈ w.objs) (hy : (p, m) ∈ w.objs) :
    n = m := by
  by_cases hnm : n = m
  · exact hnm
  · have := h.apart hx hy (by simp [hnm])
    simp only [Apart] at this
    omega

theorem Inv.kapart {w : View} {s : St} (h : Inv w s) {x y : Nat × Nat} (hx : x ∈ w.kobjs) (hy : y ∈ w.kobjs)
    (hne : x ≠ y) : Apart x y := by
  exact pairwise_both (fun _ _ hab => Or.symm hab) h.kk hx hy hne

theorem Inv.step {pick : List (Nat × Nat) → Nat → Option Nat} (hp : Allocator pick) {w : View} {s : St}
    (h : Inv w s) {op : Op} (hm : w.may op) :
    ∃ r s', NRK.Acpi.step pick s op = some (r, s') ∧ Inv (w.after op r) s' := by
  cases op with
  | alloc n =>
    have hn : (n + HEADER_SIZE) % 2 ^ 64 = n + 16 := Nat.mod_eq_of_lt hm
    cases hk : pick s.live (n + 16) with
    | none =>
      refine ⟨0, s, ?_, by simpa [View.after] using h⟩
      simp only [NRK.Acpi.step, osAllocate, hn, rawAlloc, hk]
      simp
    | some p =>
      obtain ⟨h0, h8, hle, hap⟩ := hp _ _ _ hk
      have hp0 : p ≠ 0 := by omega
      have hr : p + 16 ≠ 0 := by omega
      refine ⟨p + 16, ⟨store 8 s.mem p (n + 16), (p, n + 16) :: s.live⟩, ?_, ?_⟩
      · simp only [NRK.Acpi.step, osAllocate, hn, rawAlloc, hk, ne_eq, hp0, not_false_eq_true, if_true]
        rfl
      simp only [View.after, hr, if_false]
      have hso : ∀ x ∈ w.objs, Apart (p, n + 16) (x.1 - 16, x.2 + 16) :=
        fun x hx => hap _ ((h.live _).2 (Or.inl ⟨x, hx, rfl⟩))
      have hsk : ∀ x ∈ w.kobjs, Apart (p, n + 16) x := fun x hx => hap _ ((h.live _).2 (Or.inr hx))
      constructor
      · intro b
        simp only [List.mem_cons, h.live b]
        constructor
        · rintro (rfl | h1 | h1)
          · exact Or.inl ⟨(p + 16, n), Or.inl rfl, by simp⟩
          · obtain ⟨x, hx, rfl⟩ := h1
            exact Or.inl ⟨x, Or.inr hx, rfl⟩
          · exact Or.inr h1
        · rintro (⟨x, rfl | hx, rfl⟩ | h1)
          · exact Or.inl (by simp)
          · exact Or.inr (Or.inl ⟨x, hx, rfl⟩)
          · exact Or.inr (Or.inr h1)
      · intro x hx y hy
        rcases List.mem_cons.1 hx with rfl | hx
        · simpa using hsk y hy
        · exact h.excl x hx y hy
      · refine List.pairwise_cons.2 ⟨fun y hy => by simpa using hso y hy, h.oo⟩
      · exact h.kk
      · intro x hx
        rcases List.mem_cons.1 hx with rfl | hx
        · refine ⟨by simp; omega, by simp; omega, by simp; omega, ?_⟩
          simp only [Nat.add_sub_cancel]
          rw [load_store]
          exact Nat.mod_eq_of_lt hm
        · obtain ⟨a1, a2, a3, a4⟩ := h.hdr x hx
          refine ⟨a1, a2, a3, ?_⟩
          rw [← a4]
          refine load_congr 8 _ _ _ (fun a b1 b2 => store_other _ _ _ _ _ ?_)
          have := hso x hx
          simp only [Apart] at this
          omega
      · exact h.kpos
      · intro a v hav
        obtain ⟨⟨x, hx, b1, b2⟩, hv⟩ := h.bytes a v hav
        refine ⟨⟨x, List.mem_cons_of_mem _ hx, b1, b2⟩, ?_⟩
        rw [← hv]
        refine store_other _ _ _ _ _ ?_
        have := hso x hx
        have := (h.hdr x hx).1
        simp only [Apart] at *
        omega
  | free p =>
    simp only [View.may] at hm
    by_cases hp0 : p = 0
    · subst hp0
      refine ⟨0, s, by simp [NRK.Acpi.step, osFree], ?_⟩
      have hne : ∀ x ∈ w.objs, x.1 ≠ 0 := fun x hx => by have := (h.hdr x hx).1; omega
      have hf : w.objs.filter (·.1 != 0) = w.objs := by
        rw [List.filter_eq_self]
        intro x hx
        simp [hne x hx]
      have hw : w.after (.free 0) 0 = w := by
        simp only [View.after, hf]
        have : ∀ a, (w.objs.any (fun x => x.1 == 0 && decide (0 ≤ a) && decide (a < 0 + x.2))) = false := by
          intro a
          rw [List.any_eq_false]
          intro x hx
          simp [hne x hx]
        obtain ⟨o, k, wr⟩ := w
        simp only [View.mk.injEq, true_and]
        funext a
        rw [if_neg]
        rw [this a]
        simp
      rw [hw]
      exact h
    · obtain ⟨n, hn⟩ := hm.resolve_left hp0
      obtain ⟨c1, c2, c3, c4⟩ := h.hdr _ hn
      have hlive : (p - 16, n + 16) ∈ s.live := (h.live _).2 (Or.inl ⟨_, hn, rfl⟩)
      simp only at c1 c4
      refine ⟨0, { s with live := s.live.filter (· != (p - 16, n + 16)) }, ?_, ?_⟩
      · simp [NRK.Acpi.step, osFree, rawFree, hp0, HEADER_SIZE, c4, hlive]
      · constructor
        · intro b
          simp only [View.after, List.mem_filter, h.live b, bne_iff_ne, ne_eq]
          constructor
          · rintro ⟨⟨x, hx, rfl⟩ | h1, hne⟩
            · refine Or.inl ⟨x, ⟨hx, ?_⟩, rfl⟩
              intro hxp
              obtain ⟨q, m⟩ := x
              simp only at hxp
              subst hxp
              exact hne (by rw [h.ptr hx hn])
            · exact Or.inr h1
          · rintro (⟨x, ⟨hx, hxp⟩, rfl⟩ | h1)
            · refine ⟨Or.inl ⟨x, hx, rfl⟩, ?_⟩
              have := (h.hdr x hx).1
              intro he
              simp only [Prod.mk.injEq] at he
              omega
            · refine ⟨Or.inr h1, ?_⟩
              rintro rfl
              have := h.excl _ hn _ h1
              simp only [Apart] at this
              omega
        · intro x hx
          exact h.excl x (List.mem_filter.1 hx).1
        · exact h.oo.filter _
        · exact h.kk
        · intro x hx
          exact h.hdr x (List.mem_filter.1 hx).1
        · exact h.kpos
        · intro a v hav
          simp only [View.after] at hav
          split at hav
          · exact absurd hav (by simp)
          · rename_i hno
            obtain ⟨⟨x, hx, b1, b2⟩, hv⟩ := h.bytes a v hav
            refine ⟨⟨x, ?_, b1, b2⟩, hv⟩
            refine List.mem_filter.2 ⟨hx, ?_⟩
            simp only [bne_iff_ne, ne_eq]
            intro hxp
            apply hno
            rw [List.any_eq_true]
            exact ⟨x, hx, by simp [hxp]; omega⟩
  | write a v =>
    refine ⟨0, _, rfl, ?_⟩
    obtain ⟨x, hx, b1, b2⟩ := hm
    constructor
    · exact h.live
    · exact h.excl
    · exact h.oo
    · exact h.kk
    · intro y hy
      obtain ⟨a1, a2, a3, a4⟩ := h.hdr y hy
      refine ⟨a1, a2, a3, ?_⟩
      rw [← a4]
      refine load_congr 8 _ _ _ (fun c d1 d2 => upd_other _ _ ?_)
      have := (h.hdr x hx).1
      by_cases hxy : x = y
      · subst hxy
        omega
      · have := h.apart hx hy hxy
        simp only [Apart] at this
        omega
    · exact h.kpos
    · intro c u hc
      simp only [View.after, upd] at hc ⊢
      split at hc
      · rename_i hca
        subst hca
        simp only [Option.some.injEq] at hc
        exact ⟨⟨x, hx, b1, b2⟩, by simpa using hc⟩
      · rename_i hca
        simpa [hca] using h.bytes c u hc
  | kalloc n =>
    cases hk : pick s.live n with
    | none => exact ⟨0, s, by simp [NRK.Acpi.step, rawAlloc, hk], by simpa [View.after] using h⟩
    | some p =>
      obtain ⟨h0, h8, hle, hap⟩ := hp _ _ _ hk
      have hp0 : p ≠ 0 := by omega
      refine ⟨p, ⟨s.mem, (p, n) :: s.live⟩, by simp [NRK.Acpi.step, rawAlloc, hk], ?_⟩
      simp only [View.after, hp0, if_false]
      have hso : ∀ x ∈ w.objs, Apart (p, n) (x.1 - 16, x.2 + 16) :=
        fun x hx => hap _ ((h.live _).2 (Or.inl ⟨x, hx, rfl⟩))
      have hsk : ∀ x ∈ w.kobjs, Apart (p, n) x := fun x hx => hap _ ((h.live _).2 (Or.inr hx))
      constructor
      · intro b
        simp only [List.mem_cons, h.live b]
        constructor
        · rintro (h1 | h1 | h1)
          · exact Or.inr (Or.inl h1)
          · exact Or.inl h1
          · exact Or.inr (Or.inr h1)
        · rintro (h1 | h1 | h1)
          · exact Or.inr (Or.inl h1)
          · exact Or.inl h1
          · exact Or.inr (Or.inr h1)
      · intro x hx y hy
        rcases List.mem_cons.1 hy with rfl | hy
        · exact Or.symm (hso x hx)
        · exact h.excl x hx y hy
      · exact h.oo
      · exact List.pairwise_cons.2 ⟨hsk, h.kk⟩
      · exact h.hdr
      · intro x hx
        rcases List.mem_cons.1 hx with rfl | hx
        · exact ⟨h0, hm, h8⟩
        · exact h.kpos x hx
      · exact h.bytes
  | kfree p n =>
    have hkn : (p, n) ∈ w.kobjs := hm
    have hlive : (p, n) ∈ s.live := (h.live _).2 (Or.inr hkn)
    refine ⟨0, { s with live := s.live.filter (· != (p, n)) }, ?_, ?_⟩
    · simp [NRK.Acpi.step, rawFree, hlive]
    · constructor
      · intro b
        simp only [View.after, List.mem_filter, h.live b, bne_iff_ne, ne_eq]
        constructor
        · rintro ⟨h1 | h1, hne⟩
          · exact Or.inl h1
          · exact Or.inr ⟨h1, hne⟩
        · rintro (⟨x, hx, rfl⟩ | ⟨h1, hne⟩)
          · refine ⟨Or.inl ⟨x, hx, rfl⟩, ?_⟩
            intro he
            have := h.excl x hx _ hkn
            rw [he] at this
            have := (h.kpos _ hkn).2.1
            simp only [Apart] at *
            omega
          · exact ⟨Or.inr h1, hne⟩
      · intro x hx y hy
        exact h.excl x hx y (List.mem_filter.1 hy).1
      · exact h.oo
      · exact h.kk.filter _
      · exact h.hdr
      · intro x hx
        exact h.kpos x (List.mem_filter.1 hx).1
      · exact h.bytes
  | kwrite a v =>
    refine ⟨0, _, rfl, ?_⟩
    obtain ⟨x, hx, b1, b2⟩ := hm
    constructor
    · exact h.live
    · exact h.excl
    · exact h.oo
    · exact h.kk
    · intro y hy
      obtain ⟨a1, a2, a3, a4⟩ := h.hdr y hy
      refine ⟨a1, a2, a3, ?_⟩
      rw [← a4]
      refine load_congr 8 _ _ _ (fun c d1 d2 => upd_other _ _ ?_)
      have := h.excl y hy x hx
      simp only [Apart] at this
      omega
    · exact h.kpos
    · intro c u hc
      obtain ⟨⟨y, hy, e1, e2⟩, hv⟩ := h.bytes c u hc
      refine ⟨⟨y, hy, e1, e2⟩, ?_⟩
      rw [← hv]
      refine upd_other _ _ ?_
      have := h.excl y hy x hx
      have := (h.hdr y hy).1
      simp only [Apart] at *
      omega

end NRK.Acpi
