import Verif.Boot.BootProps

/-!
# C80: the entries the loader writes

`view` in the specification takes every leaf as a translation.  The processor does so only if the entry is marked
present and if, above the last level, it is marked as a page.  Both hold of everything the loader writes.
-/

namespace NRK.Boot

open NRK.VSpace (PML4 PDPT PD PT PDE PDPTE Level Leaf Flags leafAt leaf1 leaf2 leaf3 fill fill_spec openPD openPT
  i1 i2 i3 i4)
open NRK.Load (Mem Reloc)

/-- The processor takes the entry of a table of this level as a page. -/
def IsPage (lv : Level) (l : Leaf) : Prop := l.fl.p = true ∧ (l.fl.ps = true ↔ lv ≠ .pt)

def Pages1 (t : PT) : Prop := ∀ i l, t i = some l → IsPage .pt l
def Pages2 (d : PD) : Prop := ∀ i, match d i with
  | .none => True
  | .page l => IsPage .pd l
  | .table t => Pages1 t
def Pages3 (d : PDPT) : Prop := ∀ i, match d i with
  | .none => True
  | .page l => IsPage .pdpt l
  | .table t => Pages2 t
def Pages4 (t : PML4) : Prop := ∀ i d, t i = some d → Pages3 d

theorem isPage_leaf (r : Act) (lv : Level) (a : Nat) : IsPage lv ⟨a, r.leaf lv⟩ := by
  have h : ∀ lv, (r.leaf lv).p = true ∧ ((r.leaf lv).ps = true ↔ lv ≠ .pt) := by
    intro lv; cases r <;> cases lv <;> decide
  exact h lv

theorem Pages4.set {t : PML4} (h : Pages4 t) (i : Nat) {d : PDPT} (hd : Pages3 d) : Pages4 (upd t i (some d)) := by
  intro j e he
  by_cases hj : j = i
  · subst hj; rw [upd_same] at he; cases he; exact hd
  · rw [upd_other _ _ hj] at he; exact h j e he

theorem Pages3.set {t : PDPT} (h : Pages3 t) (i : Nat) {d : PD} (hd : Pages2 d) : Pages3 (upd t i (.table d)) := by
  intro j
  by_cases hj : j = i
  · subst hj; rw [upd_same]; exact hd
  · rw [upd_other _ _ hj]; exact h j

theorem Pages2.set {t : PD} (h : Pages2 t) (i : Nat) {d : PT} (hd : Pages1 d) : Pages2 (upd t i (.table d)) := by
  intro j
  by_cases hj : j = i
  · subst hj; rw [upd_same]; exact hd
  · rw [upd_other _ _ hj]; exact h j

theorem Pages4.at {t : PML4} (h : Pages4 t) (i : Nat) : Pages3 ((t i).getD PDPT.empty) := by
  cases e : t i with
  | none => intro j; exact trivial
  | some d => exact h i d e

theorem Pages3.at {t : PDPT} (h : Pages3 t) {i : Nat} {d : PD} (e : openPD (t i) = some d) : Pages2 d := by
  have := h i
  cases ht : t i with
  | none => rw [ht] at e; cases e; intro j; exact trivial
  | page l => rw [ht] at e; cases e
  | table d' => rw [ht] at e this; cases e; exact this

theorem Pages2.at {t : PD} (h : Pages2 t) {i : Nat} {d : PT} (e : openPT (t i) = some d) : Pages1 d := by
  have := h i
  cases ht : t i with
  | none => rw [ht] at e; cases e; intro j l hl; cases hl
  | page l => rw [ht] at e; cases e
  | table d' => rw [ht] at e this; cases e; exact this

theorem mapGen_pages (r : Act) : ∀ n t v p s t', mapGen r n t v p s = .ok t' → Pages4 t → Pages4 t' := by
  intro n
  induction n with
  | zero => intro t v p s t' h; cases h
  | succ n ih =>
    intro t v p s t' h ht
    have cont : ∀ t1 m, Pages4 t1 →
        (if m < s then mapGen r n t1 (v + m) (p + m) (s - m) else .ok t1) = .ok t' → Pages4 t' := by
      intro t1 m h1 h2
      split at h2
      · exact ih _ _ _ _ _ h2 h1
      · cases h2; exact h1
    simp only [mapGen] at h
    split at h
    · split at h
      · split at h
        · rename_i d3' m hf
          refine cont _ m (ht.set _ fun j => ?_) h
          obtain ⟨k, _, _, _, _, hk⟩ := fill_spec _ _ _ _ _ _ _ _ _ _ hf
          rw [hk j]
          by_cases hj : i3 v ≤ j ∧ j < i3 v + k
          · rw [if_pos hj]; exact isPage_leaf r .pdpt _
          · rw [if_neg hj]; exact ht.at _ j
        · cases h
        · cases h
      · split at h
        · cases h
        · rename_i d2 hd2
          have h2 := (ht.at (i4 v)).at hd2
          split at h
          · split at h
            · rename_i d2' m hf
              refine cont _ m (ht.set _ ((ht.at _).set _ fun j => ?_)) h
              obtain ⟨k, _, _, _, _, hk⟩ := fill_spec _ _ _ _ _ _ _ _ _ _ hf
              rw [hk j]
              by_cases hj : i2 v ≤ j ∧ j < i2 v + k
              · rw [if_pos hj]; exact isPage_leaf r .pd _
              · rw [if_neg hj]; exact h2 j
            · cases h
            · cases h
          · split at h
            · cases h
            · rename_i d1 hd1
              have h1 := h2.at hd1
              split at h
              · rename_i d1' m hf
                refine cont _ m (ht.set _ ((ht.at _).set _ (h2.set _ fun j l hl => ?_))) h
                obtain ⟨k, _, _, _, _, hk⟩ := fill_spec _ _ _ _ _ _ _ _ _ _ hf
                rw [hk j] at hl
                by_cases hj : i1 v ≤ j ∧ j < i1 v + k
                · rw [if_pos hj] at hl; cases hl; exact isPage_leaf r .pt _
                · rw [if_neg hj] at hl; exact h1 j l hl
              · cases h
              · cases h
    · cases h

theorem mapIdentity_pages {t t' : PML4} {off b f : Nat} {r : Act} (h : mapIdentity t off b f r = .ok t')
    (ht : Pages4 t) : Pages4 t' := by
  unfold mapIdentity at h
  split at h
  · cases h
  · exact mapGen_pages _ _ _ _ _ _ _ h ht

theorem bind_ok {α β : Type} {o : Outcome α} {f : α → Outcome β} {b : β} (h : o.bind f = .ok b) :
    ∃ a, o = .ok a ∧ f a = .ok b := by
  cases o with
  | ok a => exact ⟨a, rfl, h⟩
  | err e => cases h
  | panic => cases h

theorem map_ok {α β : Type} {o : Outcome α} {f : α → β} {b : β} (h : o.map f = .ok b) :
    ∃ a, o = .ok a ∧ f a = b := by
  cases o with
  | ok a => exact ⟨a, rfl, by cases h; rfl⟩
  | err e => cases h
  | panic => cases h

theorem mapSegs_pages (feat : Bool) (pb : Nat) : ∀ hs t t', mapSegs feat pb hs t = .ok t' → Pages4 t → Pages4 t'
  | [], t, t', h, ht => by cases h; exact ht
  | g :: hs, t, t', h, ht => by
    obtain ⟨t1, h1, h2⟩ := bind_ok h
    exact mapSegs_pages feat pb hs t1 t' h2 (mapGen_pages _ _ _ _ _ _ _ h1 ht)

theorem mapPhysical_pages : ∀ mm t t', mapPhysical mm t = .ok t' → Pages4 t → Pages4 t'
  | [], t, t', h, ht => by cases h; exact ht
  | e :: mm, t, t', h, ht => by
    obtain ⟨t1, h1, h2⟩ := bind_ok h
    refine mapPhysical_pages mm t1 t' h2 ?_
    unfold mapEntry at h1
    split at h1
    · cases h1; exact ht
    · split at h1
      · cases h1; exact ht
      · obtain ⟨t2, h3, h4⟩ := bind_ok h1
        have h5 := mapIdentity_pages h3 ht
        split at h4
        · exact mapIdentity_pages h4 h5
        · cases h4; exact h5

/-- Whatever the kernel, the machine and the memory map: when the loader gives over, every translation in the address
space of the kernel is an entry that is marked present, and it is marked as a large page exactly if it is not in a table of
the last level.  So the processor follows the translations of `c80_boot_partial`. -/
theorem c80_entries_are_pages (feat : Bool) (hs : List Seg) (rs : List Reloc) (raw stack : Nat) (mm : List Entry)
    (m : Mem) (k : Loaded) (h : boot feat hs rs raw stack mm m = .ok k) (x : Nat) (lv : Level) (l : Leaf)
    (hx : leafAt k.t x = some (lv, l)) : l.fl.p = true ∧ (l.fl.ps = true ↔ lv ≠ .pt) := by
  suffices hp : Pages4 k.t by
    unfold leafAt at hx
    split at hx
    · cases hx
    · rename_i d3 h4
      have h3 := hp _ _ h4 (i3 x)
      unfold leaf3 at hx
      split at hx
      · cases hx
      · rename_i e3; rw [e3] at h3; cases hx; exact h3
      · rename_i d2 e3
        rw [e3] at h3
        have h2 := h3 (i2 x)
        unfold leaf2 at hx
        split at hx
        · cases hx
        · rename_i e2; rw [e2] at h2; cases hx; exact h2
        · rename_i d1 e2
          rw [e2] at h2
          unfold leaf1 at hx
          cases e1 : d1 (i1 x) with
          | none => rw [e1] at hx; cases hx
          | some l' => rw [e1] at hx; cases hx; exact h2 _ _ e1
  obtain ⟨k1, h1, h2⟩ := bind_ok h
  obtain ⟨t2, h3, h4⟩ := bind_ok h2
  obtain ⟨t3, h5, h6⟩ := map_ok h4
  have p1 : Pages4 k1.t := by
    obtain ⟨k0, a1, a2⟩ := bind_ok h1
    obtain ⟨m1, _, a3⟩ := bind_ok a2
    obtain ⟨m2, _, a4⟩ := map_ok a3
    have e0 : k1.t = k0.t := by rw [← a4]
    rw [e0]
    unfold allocate at a1
    split at a1
    · cases a1
    · split at a1
      · cases a1
      · obtain ⟨a, _, b2⟩ := bind_ok a1
        obtain ⟨t0, c1, c2⟩ := map_ok b2
        have e1 : k0.t = t0 := by rw [← c2]
        rw [e1]
        refine mapSegs_pages _ _ _ _ _ c1 fun i d hd => ?_
        cases hd
  have p2 : Pages4 t2 := by
    obtain ⟨t1, a1, a2⟩ := bind_ok h3
    exact mapIdentity_pages a2 (mapIdentity_pages a1 p1)
  have e3 : k.t = t3 := by rw [← h6]
  rw [e3]
  exact mapPhysical_pages _ _ _ h5 p2

end NRK.Boot
