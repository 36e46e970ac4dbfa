import Verif.VSpace.OplogSpec

/-!
# The list of mappings of an address space and the reference list
-/

namespace NRK.VSpace

open NRK.Mem (Frame)

theorem canon_of {a : MapAction} (h1 : a.present = true) (h2 : a.notCached = false) : a.canon = a := by
  cases a; simp_all [MapAction.canon]

def Ent.apart (a b : Ent) : Prop := a.va + a.len ≤ b.va ∨ b.va + b.len ≤ a.va

def toEnt (q : Nat × MappingInfo) : Ent := ⟨q.1, q.2.frame.base, q.2.frame.size, q.2.rights⟩

theorem has_iff {e : Ent} {x : Nat} : e.has x = true ↔ e.va ≤ x ∧ x < e.va + e.len := by
  simp [Ent.has]

theorem meets_iff {e : Ent} {b n : Nat} : e.meets b n = true ↔ e.va < b + n ∧ b < e.va + e.len := by
  simp [Ent.meets]

theorem extends_iff {e : Ent} {b : Nat} {f : Frame} {a : MapAction} : e.extends b f a = true ↔
    e.va = b ∧ e.va + e.len ≤ b + f.size ∧ e.pa = f.base ∧ e.rights = a := by
  simp [Ent.extends, and_assoc]

theorem has_toEnt {q : Nat × MappingInfo} {x : Nat} : (toEnt q).has x = true ↔ Covers q x := by
  rw [has_iff]; rfl

/-- The page tables and the list describe the same mappings. -/
structure Same (s : VSpace) (l : List Ent) : Prop where
  inv : VInv s
  canon : ∀ q ∈ s.maps, q.2.rights.canon = q.2.rights
  mem : ∀ e, e ∈ l ↔ ∃ q ∈ s.maps, e = toEnt q
  apart : l.Pairwise Ent.apart

theorem Same.size {s : VSpace} {l : List Ent} (h : Same s l) {e : Ent} (he : e ∈ l) : PageSize e.len := by
  obtain ⟨q, hq, rfl⟩ := (h.mem e).1 he
  exact (h.inv.page q hq).1

theorem Same.pos {s : VSpace} {l : List Ent} (h : Same s l) {e : Ent} (he : e ∈ l) : 0 < e.len := by
  rcases h.size he with h | h <;> omega

theorem Same.unique {s : VSpace} {l : List Ent} (h : Same s l) {e e' : Ent} (he : e ∈ l) (he' : e' ∈ l) {x : Nat}
    (hx : e.has x = true) (hx' : e'.has x = true) : e = e' := by
  obtain ⟨q, hq, rfl⟩ := (h.mem e).1 he
  obtain ⟨q', hq', rfl⟩ := (h.mem e').1 he'
  rw [h.inv.cov_unique hq hq' (has_toEnt.1 hx) (has_toEnt.1 hx')]

/-! ## The operations of the list -/

theorem changeFirst_none {x : Nat} {r : MapAction} :
    ∀ {l : List Ent}, (∀ e ∈ l, e.has x ≠ true) → changeFirst x r l = Option.none := by
  intro l
  induction l with
  | nil => intro _; rfl
  | cons e l ih =>
    intro h
    rw [changeFirst, if_neg (h e (by simp)), ih (fun e he => h e (by simp [he]))]
    rfl

/-- The element with the rights changed if it covers `x`. -/
def setRights (x : Nat) (r : MapAction) (e : Ent) : Ent := if e.has x then { e with rights := r } else e

theorem map_setRights {x : Nat} {r : MapAction} :
    ∀ {l : List Ent}, (∀ e ∈ l, e.has x ≠ true) → l.map (setRights x r) = l := by
  intro l
  induction l with
  | nil => intro _; rfl
  | cons e l ih =>
    intro h
    rw [List.map_cons, ih (fun e he => h e (by simp [he])), setRights, if_neg (h e (by simp))]

theorem apart_not_has {e e' : Ent} {x : Nat} (h : e.apart e') (hx : e.has x = true) : e'.has x ≠ true := by
  rw [has_iff] at hx
  intro h'
  rw [has_iff] at h'
  unfold Ent.apart at h
  omega

theorem changeFirst_some {x : Nat} {r : MapAction} : ∀ {l : List Ent}, l.Pairwise Ent.apart →
    ∀ {e : Ent}, e ∈ l → e.has x = true →
      changeFirst x r l = some (l.map (setRights x r), e.va, e.len) := by
  intro l
  induction l with
  | nil => intro _ e he; cases he
  | cons a l ih =>
    intro hp e he hx
    rw [List.pairwise_cons] at hp
    by_cases ha : a.has x = true
    · have hno : ∀ e ∈ l, e.has x ≠ true := fun e he => apart_not_has (hp.1 e he) ha
      have : e = a := by
        rcases List.mem_cons.1 he with h | h
        · exact h
        · exact absurd hx (hno e h)
      subst this
      rw [changeFirst, if_pos ha, List.map_cons, map_setRights hno, setRights, if_pos ha]
    · have he' : e ∈ l := by
        rcases List.mem_cons.1 he with h | h
        · subst h; exact absurd hx ha
        · exact h
      rw [changeFirst, if_neg ha, ih hp.2 he' hx, List.map_cons, setRights, if_neg ha]
      rfl

theorem filter_has {x : Nat} : ∀ {l : List Ent}, l.Pairwise Ent.apart →
    ∀ {e : Ent}, e ∈ l → e.has x = true → l.filter (fun e => e.has x) = [e] := by
  intro l
  induction l with
  | nil => intro _ e he; cases he
  | cons a l ih =>
    intro hp e he hx
    rw [List.pairwise_cons] at hp
    by_cases ha : a.has x = true
    · have hno : ∀ e ∈ l, e.has x ≠ true := fun e he => apart_not_has (hp.1 e he) ha
      have : e = a := by
        rcases List.mem_cons.1 he with h | h
        · exact h
        · exact absurd hx (hno e h)
      subst this
      rw [List.filter_cons, if_pos ha]
      congr 1
      rw [List.filter_eq_nil_iff]
      exact hno
    · have he' : e ∈ l := by
        rcases List.mem_cons.1 he with h | h
        · subst h; exact absurd hx ha
        · exact h
      rw [List.filter_cons, if_neg ha]
      exact ih hp.2 he' hx

theorem promote_none {base : Nat} {f : Frame} {a : MapAction} : ∀ {l : List Ent},
    (∀ e ∈ l, (e.meets base f.size && e.extends base f a) ≠ true) → promote base f a l = Option.none := by
  intro l
  induction l with
  | nil => intro _; rfl
  | cons e l ih =>
    intro h
    rw [promote, if_neg (h e (by simp)), ih (fun e he => h e (by simp [he]))]
    rfl

theorem promote_same {base : Nat} {f : Frame} {a : MapAction} : ∀ {l : List Ent},
    (∀ e ∈ l, (e.meets base f.size && e.extends base f a) = true → e.len = f.size) →
    (∃ e ∈ l, (e.meets base f.size && e.extends base f a) = true) → promote base f a l = some l := by
  intro l
  induction l with
  | nil => rintro _ ⟨e, he, _⟩; cases he
  | cons b l ih =>
    rintro h ⟨e, he, hx⟩
    by_cases hb : (b.meets base f.size && b.extends base f a) = true
    · rw [promote, if_pos hb, ← h b (by simp) hb]
    · rw [promote, if_neg hb]
      have he' : e ∈ l := by
        rcases List.mem_cons.1 he with h | h
        · subst h; exact absurd hx hb
        · exact h
      rw [ih (fun e he => h e (by simp [he])) ⟨e, he', hx⟩]
      rfl

theorem conflicts_nil {l : List Ent} {base : Nat} {f : Frame} {a : MapAction} :
    conflicts l base f a = [] ↔ ∀ e ∈ l, e.meets base f.size = true → e.extends base f a = true := by
  unfold conflicts
  rw [List.map_eq_nil_iff, List.filter_eq_nil_iff]
  constructor
  · intro h e he hm
    have := h e he
    rw [hm] at this
    simpa using this
  · intro h e he hc
    rw [Bool.and_eq_true] at hc
    rw [h e he hc.1] at hc
    simp at hc

theorem least_mem : ∀ {l : List Nat}, l ≠ [] → least l ∈ l ∧ ∀ x ∈ l, least l ≤ x := by
  intro l
  induction l with
  | nil => intro h; exact absurd rfl h
  | cons a l ih =>
    intro _
    cases l with
    | nil => simp [least]
    | cons b l =>
      obtain ⟨h1, h2⟩ := ih (by simp)
      rw [show least (a :: b :: l) = min a (least (b :: l)) from rfl]
      constructor
      · rcases Nat.le_total a (least (b :: l)) with h | h
        · rw [Nat.min_eq_left h]; simp
        · rw [Nat.min_eq_right h]; exact List.mem_cons_of_mem _ h1
      · intro x hx
        rcases List.mem_cons.1 hx with rfl | hx
        · exact Nat.min_le_left _ _
        · exact Nat.le_trans (Nat.min_le_right _ _) (h2 x hx)

/-! ## One action -/

theorem Same.not_covered {s : VSpace} {l : List Ent} (h : Same s l) {x : Nat}
    (hn : ∀ q ∈ s.maps, ¬ Covers q x) : ∀ e ∈ l, e.has x ≠ true := by
  intro e he hx
  obtain ⟨q, hq, rfl⟩ := (h.mem e).1 he
  exact hn q hq (has_toEnt.1 hx)

theorem Same.resolve {s : VSpace} {l : List Ent} (h : Same s l) {x : Nat} (hu : x < userTop) :
    s.resolve x = logResolve l x := by
  unfold logResolve
  cases hf : l.reverse.find? (fun e => e.has x) with
  | none =>
    rw [List.find?_eq_none] at hf
    exact h.inv.resolve_unc hu (fun q hq hc =>
      hf (toEnt q) (List.mem_reverse.2 ((h.mem _).2 ⟨q, hq, rfl⟩)) (has_toEnt.2 hc))
  | some e =>
    have hx := List.find?_some hf
    obtain ⟨q, hq, rfl⟩ := (h.mem e).1 (List.mem_reverse.1 (List.mem_of_find?_eq_some hf))
    rw [h.inv.resolve_cov hq (has_toEnt.1 hx), h.canon q hq]
    rfl

theorem Same.adjust {s : VSpace} {l : List Ent} (h : Same s l) {x : Nat} {r : MapAction} (hu : x < userTop)
    (hr : r.canon = r) :
    (adjust s x r).2 = (logAdjust l x r).2 ∧ Same (adjust s x r).1 (logAdjust l x r).1 := by
  by_cases hx : x % 4096 = 0
  · rcases adjust_cases h.inv x r hu with ⟨he, hn⟩ | ⟨_, hne⟩ | ⟨q, hq, hc, _, t', he, _⟩
    · have hl : logAdjust l x r = (l, .err .notMapped) := by
        unfold logAdjust
        rw [if_neg (by omega), changeFirst_none]
        intro e he; exact h.not_covered hn e (List.mem_reverse.1 he)
      rw [he, hl]; exact ⟨rfl, h⟩
    · exact absurd hx hne
    · have hin : toEnt q ∈ l := (h.mem _).2 ⟨q, hq, rfl⟩
      have hhas : (toEnt q).has x = true := has_toEnt.2 hc
      have hl : logAdjust l x r = (l.map (setRights x r), .ok (q.1, q.2.frame.size)) := by
        have hp : l.reverse.Pairwise Ent.apart := by
          rw [List.pairwise_reverse]
          exact h.apart.imp (fun hab => hab.symm)
        unfold logAdjust
        rw [if_neg (by omega), changeFirst_some hp (List.mem_reverse.2 hin) hhas]
        show ((l.reverse.map (setRights x r)).reverse, _) = _
        rw [List.map_reverse, List.reverse_reverse]
        rfl
      have hinv := h.inv.adjust x r hu
      rw [he] at hinv
      rw [he, hl]
      have hsame : ∀ p ∈ s.maps, toEnt (if p.1 = q.1 then (p.1, ⟨p.2.frame, r⟩) else p) =
          setRights x r (toEnt p) := by
        intro p hp
        by_cases hpq : p.1 = q.1
        · have := h.inv.base_unique hp hq hpq
          subst this
          rw [if_pos rfl, setRights, if_pos hhas]; rfl
        · rw [if_neg hpq, setRights, if_neg]
          intro hh
          exact hpq (congrArg Prod.fst (h.inv.cov_unique hp hq (has_toEnt.1 hh) hc))
      refine ⟨rfl, hinv, ?_, ?_, ?_⟩
      · intro p hp
        obtain ⟨p0, h0, rfl⟩ := List.mem_map.1 hp
        by_cases hpq : p0.1 = q.1
        · rw [if_pos hpq]; exact hr
        · rw [if_neg hpq]; exact h.canon p0 h0
      · intro e
        constructor
        · intro he
          obtain ⟨e0, h0, rfl⟩ := List.mem_map.1 he
          obtain ⟨p, hp, rfl⟩ := (h.mem e0).1 h0
          exact ⟨_, List.mem_map.2 ⟨p, hp, rfl⟩, (hsame p hp).symm⟩
        · rintro ⟨p', hp', rfl⟩
          obtain ⟨p, hp, rfl⟩ := List.mem_map.1 hp'
          rw [hsame p hp]
          exact List.mem_map.2 ⟨toEnt p, (h.mem _).2 ⟨p, hp, rfl⟩, rfl⟩
      · rw [List.pairwise_map]
        refine h.apart.imp ?_
        intro a b hab
        unfold setRights
        split <;> split <;> exact hab
  · have h1 : NRK.VSpace.adjust s x r = (s, .err .invalidBase) := by
      unfold NRK.VSpace.adjust ptAdjust; rw [if_pos hx]
    have h2 : logAdjust l x r = (l, .err .invalidBase) := by
      unfold logAdjust; rw [if_pos hx]
    rw [h1, h2]; exact ⟨rfl, h⟩

theorem Same.unmap {s : VSpace} {l : List Ent} (h : Same s l) {x : Nat} (hu : x < userTop)
    (hx : x % 4096 = 0) :
    (unmap s x).2 = (logUnmap l x).2 ∧ Same (unmap s x).1 (logUnmap l x).1 := by
  rcases unmap_cases h.inv x hu with ⟨he, hn⟩ | ⟨_, hne⟩ | ⟨q, hq, hc, _, t', he, _⟩
  · have hl : logUnmap l x = (l, .err .notMapped) := by
      unfold logUnmap
      rw [if_neg (by omega), List.filter_eq_nil_iff.2 (h.not_covered hn)]
    rw [he, hl]; exact ⟨rfl, h⟩
  · exact absurd hx hne
  · have hin : toEnt q ∈ l := (h.mem _).2 ⟨q, hq, rfl⟩
    have hhas : (toEnt q).has x = true := has_toEnt.2 hc
    have hl : logUnmap l x = (l.filter (fun e => !e.has x),
        .ok ⟨q.1, q.2.frame.base, q.2.frame.size, q.2.rights⟩) := by
      unfold logUnmap
      rw [if_neg (by omega), filter_has h.apart hin hhas]
      rfl
    have hinv := h.inv.unmap x hu
    rw [he] at hinv
    rw [he, hl, h.canon q hq]
    refine ⟨rfl, hinv, ?_, ?_, h.apart.sublist List.filter_sublist⟩
    · intro p hp; exact h.canon p (List.mem_filter.1 hp).1
    · intro e
      rw [List.mem_filter]
      constructor
      · rintro ⟨he, hnx⟩
        obtain ⟨p, hp, rfl⟩ := (h.mem e).1 he
        refine ⟨p, List.mem_filter.2 ⟨hp, ?_⟩, rfl⟩
        rw [decide_eq_true_eq]
        intro hpq
        rw [h.inv.base_unique hp hq hpq, hhas] at hnx
        exact absurd hnx (by decide)
      · rintro ⟨p, hp, rfl⟩
        obtain ⟨hp, hpq⟩ := List.mem_filter.1 hp
        rw [decide_eq_true_eq] at hpq
        refine ⟨(h.mem _).2 ⟨p, hp, rfl⟩, ?_⟩
        cases hh : (toEnt p).has x with
        | false => rfl
        | true => exact absurd (congrArg Prod.fst (h.inv.cov_unique hp hq (has_toEnt.1 hh) hc)) hpq

/-- What `map_frame` does in both. -/
theorem Same.map {env : Env} (hk : env.pages4k = false) {s : VSpace} {l : List Ent} (h : Same s l) {base : Nat}
    {f : Frame} {a : MapAction} (hn : PageSize f.size) (hu : base + f.size ≤ userTop) (ha : a.canon = a)
    (hg : ¬ (Action.map base f a).Grows l) :
    (Res.map (mapFrame env false s base f a).2).blur = (Res.map (logMap l base f a).2).blur ∧
      Same (mapFrame env false s base f a).1 (logMap l base f a).1 := by
  have h0 : f.size ≠ 0 := by rcases hn with e | e <;> omega
  rcases mapFrame_cases env hk false h.inv base f a hn hu with ⟨e, he, hbad⟩ | ⟨hb, hv, q, hq, h1, h2, hrest, hc⟩ |
    ⟨hb, hv, hall, hc⟩
  · have hl : logMap l base f a = (l, .err e) := by
      unfold logMap
      rw [if_neg h0]
      rcases hbad with ⟨hb, rfl⟩ | ⟨hb, hv, rfl⟩
      · rw [if_pos hb]
      · rw [if_neg (by omega), if_pos hv]
    rw [he, hl]; exact ⟨rfl, h⟩
  · have hin : toEnt q ∈ l := (h.mem _).2 ⟨q, hq, rfl⟩
    have hmeet : (toEnt q).meets base f.size = true := meets_iff.2 ⟨h1, h2⟩
    rcases hc with ⟨e1, e2, e3, e4, he⟩ | ⟨hne, he⟩
    · have hext : (toEnt q).extends base f a = true :=
        extends_iff.2 ⟨e1, by show q.1 + q.2.frame.size ≤ _; omega, e2, e4⟩
      have honly : ∀ e ∈ l, e.meets base f.size = true → e = toEnt q := by
        intro e he hm
        obtain ⟨p, hp, rfl⟩ := (h.mem e).1 he
        rw [meets_iff] at hm
        have hm1 : p.1 < base + f.size := hm.1
        have hm2 : base < p.1 + p.2.frame.size := hm.2
        rcases hrest p hp with rfl | h3 | h3
        · rfl
        · omega
        · omega
      have hsz : q.2.frame.size = f.size := by
        apply Classical.byContradiction
        intro hne
        refine hg ⟨toEnt q, hin, e1, e2, e4, ?_⟩
        show q.2.frame.size < f.size
        omega
      have hl : logMap l base f a = (l, .ok ()) := by
        unfold logMap
        rw [if_neg h0, if_neg (by omega), if_neg (by omega)]
        have hcn : conflicts l base f a = [] := conflicts_nil.2 (fun e he hm => by rw [honly e he hm]; exact hext)
        simp only [hcn, if_true]
        rw [promote_same _ ⟨toEnt q, hin, by rw [hmeet, hext]; rfl⟩]
        intro e he hm
        rw [Bool.and_eq_true] at hm
        rw [honly e he hm.1]; exact hsz
      rw [he, hl]; exact ⟨rfl, h⟩
    · have hcn : conflicts l base f a ≠ [] := by
        intro hcn
        have := conflicts_nil.1 hcn _ hin hmeet
        obtain ⟨g1, g2, g3, g4⟩ := extends_iff.1 this
        have g1' : q.1 = base := g1
        have g2' : q.1 + q.2.frame.size ≤ base + f.size := g2
        exact hne ⟨g1, g3, by omega, g4⟩
      have hl : logMap l base f a = (l, .err (.alreadyMapped (least (conflicts l base f a)))) := by
        unfold logMap
        rw [if_neg h0, if_neg (by omega), if_neg (by omega)]
        simp only [hcn, if_false]
      rw [he, hl]; exact ⟨rfl, h⟩
  · have hno : ∀ e ∈ l, e.meets base f.size ≠ true := by
      intro e he hm
      obtain ⟨p, hp, rfl⟩ := (h.mem e).1 he
      rw [meets_iff] at hm
      have hm1 : p.1 < base + f.size := hm.1
      have hm2 : base < p.1 + p.2.frame.size := hm.2
      have := hall p hp
      omega
    rcases hc with ⟨hoom, _⟩ | ⟨_, t', he, hx⟩
    · cases hoom
    · have hl : logMap l base f a = (l ++ [⟨base, f.base, f.size, a⟩], .ok ()) := by
        unfold logMap
        rw [if_neg h0, if_neg (by omega), if_neg (by omega)]
        have hcn : conflicts l base f a = [] := conflicts_nil.2 (fun e he hm => absurd hm (hno e he))
        simp only [hcn, if_true]
        rw [promote_none]
        intro e he hm
        rw [Bool.and_eq_true] at hm
        exact hno e he hm.1
      rw [he, hl]
      refine ⟨rfl, h.inv.insert hn hu hb hv hall hx, ?_, ?_, ?_⟩
      · intro p hp
        rcases (mem_insertMap _ _ _ _).1 hp with rfl | hp
        · exact ha
        · exact h.canon p hp
      · intro e
        rw [List.mem_append, List.mem_singleton]
        constructor
        · rintro (he | rfl)
          · obtain ⟨p, hp, rfl⟩ := (h.mem e).1 he
            exact ⟨p, (mem_insertMap _ _ _ _).2 (Or.inr hp), rfl⟩
          · exact ⟨_, (mem_insertMap _ _ _ _).2 (Or.inl rfl), rfl⟩
        · rintro ⟨p, hp, rfl⟩
          rcases (mem_insertMap _ _ _ _).1 hp with rfl | hp
          · exact Or.inr rfl
          · exact Or.inl ((h.mem _).2 ⟨p, hp, rfl⟩)
      · rw [List.pairwise_append]
        refine ⟨h.apart, List.pairwise_singleton _ _, ?_⟩
        intro e he b hb'
        rw [List.mem_singleton] at hb'
        subst hb'
        have := hno e he
        rw [Ne, meets_iff] at this
        unfold Ent.apart
        show e.va + e.len ≤ base ∨ base + f.size ≤ e.va
        omega

theorem Same.step {env : Env} (hk : env.pages4k = false) {s : VSpace} {l : List Ent} (h : Same s l) {o : Action}
    (hf : o.Fits) (hg : ¬ o.Grows l) :
    (hwStep env s o).2.blur = (logStep l o).2.blur ∧ Same (hwStep env s o).1 (logStep l o).1 := by
  cases o with
  | map base f a => exact h.map hk hf.1 hf.2.1 (canon_of hf.2.2.1 hf.2.2.2) hg
  | adjust x r =>
    obtain ⟨h1, h2⟩ := h.adjust hf.1 (canon_of hf.2.1 hf.2.2)
    exact ⟨by show Res.blur (.adjust (NRK.VSpace.adjust s x r).2) = _; rw [h1]; rfl, h2⟩
  | resolve x => exact ⟨by show Res.blur (.resolve (s.resolve x)) = _; rw [h.resolve hf]; rfl, h⟩
  | unmap x =>
    obtain ⟨h1, h2⟩ := h.unmap hf.1 hf.2
    exact ⟨by show Res.blur (.unmap (NRK.VSpace.unmap s x).2) = _; rw [h1]; rfl, h2⟩

theorem Same.run {env : Env} (hk : env.pages4k = false) : ∀ (os : List Action) {s : VSpace} {l : List Ent},
    Same s l → (∀ o ∈ os, o.Fits) → NoGrowth l os →
      (hwRun env s os).map Res.blur = (logRun l os).map Res.blur ∧ Same (hwAfter env s os) (logAfter l os) := by
  intro os
  induction os with
  | nil => intro s l h _ _; exact ⟨rfl, h⟩
  | cons o os ih =>
    intro s l h hf hg
    obtain ⟨h1, h2⟩ := h.step hk (hf o (by simp)) hg.1
    obtain ⟨h3, h4⟩ := ih h2 (fun o ho => hf o (by simp [ho])) hg.2
    refine ⟨?_, h4⟩
    rw [hwRun, logRun, List.map_cons, List.map_cons, h1, h3]

theorem Same.new {pt : PML4} (h : ∀ x, x < userTop → leafAt pt x = Option.none) : Same ⟨[], pt⟩ [] :=
  ⟨⟨fun q hq => absurd hq (by simp), List.Pairwise.nil, fun q hq => absurd hq (by simp),
      fun x hx _ => h x hx⟩, fun q hq => absurd hq (by simp), fun e => by simp, List.Pairwise.nil⟩

end NRK.VSpace
