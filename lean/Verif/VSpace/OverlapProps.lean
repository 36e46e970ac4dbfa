import Verif.VSpace.VSpaceProps

/-!
# C31: frames of any size

`VSpaceProps` shows what happens when frames are single pages.  Here they have any size, and the machine may
have been started so that only base pages are used.
-/

namespace NRK.VSpace

open NRK.Mem (Frame)

/-- Histories of an address space: created with nothing mapped in user space, then any sequence of calls
with frames of any size.  A call that panics ends the history. -/
inductive RunAny (env : Env) : VSpace → Prop
  | new (pt : PML4) (h : ∀ x, x < userTop → leafAt pt x = Option.none) : RunAny env ⟨[], pt⟩
  | map {s : VSpace} (oom : Bool) (base : Nat) (f : Frame) (a : MapAction) (h : RunAny env s)
      (hu : base + f.size ≤ userTop) (hp : (mapFrame env oom s base f a).2 ≠ .panic) :
      RunAny env (mapFrame env oom s base f a).1
  | unmap {s : VSpace} (x : Nat) (h : RunAny env s) (hu : x < userTop)
      (hp : (NRK.VSpace.unmap s x).2 ≠ .panic) :
      RunAny env (NRK.VSpace.unmap s x).1
  | adjust {s : VSpace} (x : Nat) (r : MapAction) (h : RunAny env s) (hu : x < userTop)
      (hp : (NRK.VSpace.adjust s x r).2 ≠ .panic) : RunAny env (NRK.VSpace.adjust s x r).1

/-- The same without unmapping. -/
inductive RunMaps (env : Env) : VSpace → Prop
  | new (pt : PML4) (h : ∀ x, x < userTop → leafAt pt x = Option.none) : RunMaps env ⟨[], pt⟩
  | map {s : VSpace} (oom : Bool) (base : Nat) (f : Frame) (a : MapAction) (h : RunMaps env s)
      (hu : base + f.size ≤ userTop) (hp : (mapFrame env oom s base f a).2 ≠ .panic) :
      RunMaps env (mapFrame env oom s base f a).1
  | adjust {s : VSpace} (x : Nat) (r : MapAction) (h : RunMaps env s) (hu : x < userTop)
      (hp : (NRK.VSpace.adjust s x r).2 ≠ .panic) : RunMaps env (NRK.VSpace.adjust s x r).1

theorem RunMaps.any {env : Env} {s : VSpace} (h : RunMaps env s) : RunAny env s := by
  induction h with
  | new pt h => exact .new pt h
  | map oom base f a _ hu hp ih => exact .map oom base f a ih hu hp
  | adjust x r _ hu hp ih => exact .adjust x r ih hu hp

/-- Recorded mappings are not empty, in user space and do not overlap. -/
structure Apart (s : VSpace) : Prop where
  size : ∀ q ∈ s.maps, 0 < q.2.frame.size ∧ q.1 + q.2.frame.size ≤ userTop
  disj : s.maps.Pairwise (fun a b => b.1 + b.2.frame.size ≤ a.1)

/-- What `map_frame` does, for any frame: it refuses a misaligned or empty frame, it refuses or repeats a
mapping that is in the way, or there is none in the way. -/
theorem mapFrame_any (env : Env) (oom : Bool) {s : VSpace} (h : Apart s) (base : Nat) (f : Frame)
    (a : MapAction) :
    ((f.size = 0 ∨ f.base % f.size ≠ 0) ∧ mapFrame env oom s base f a = (s, .err .invalidFrame)) ∨
    (f.size ≠ 0 ∧ f.base % f.size = 0 ∧ base % f.size ≠ 0 ∧
      mapFrame env oom s base f a = (s, .err .invalidBase)) ∨
    (f.size ≠ 0 ∧ f.base % f.size = 0 ∧ base % f.size = 0 ∧
      ∃ q ∈ s.maps, q.1 < base + f.size ∧ base < q.1 + q.2.frame.size ∧
        ((q.1 = base ∧ q.2.frame.base = f.base ∧ q.2.frame.size ≤ f.size ∧ q.2.rights = a ∧
            mapFrame env oom s base f a = (s, .ok ())) ∨
          (¬ (q.1 = base ∧ q.2.frame.base = f.base ∧ q.2.frame.size ≤ f.size ∧ q.2.rights = a) ∧
            mapFrame env oom s base f a = (s, .err (.alreadyMapped q.1))))) ∨
    (f.size ≠ 0 ∧ f.base % f.size = 0 ∧ base % f.size = 0 ∧
      (∀ q ∈ s.maps, q.1 + q.2.frame.size ≤ base ∨ base + f.size ≤ q.1) ∧
      ((oom = true ∧ mapFrame env oom s base f a = (s, .err .outOfMemory)) ∨
       (oom = false ∧ ((∃ t', ptMap env s.pt base f.base f.size a = .ok t' ∧
            mapFrame env oom s base f a = (⟨insertMap base ⟨f, a⟩ s.maps, t'⟩, .ok ())) ∨
          (mapFrame env oom s base f a).2 = .panic)))) := by
  by_cases h0 : f.size = 0
  · left; exact ⟨Or.inl h0, by unfold mapFrame; rw [if_pos h0]⟩
  by_cases h1 : f.base % f.size = 0
  case neg => left; exact ⟨Or.inr h1, by unfold mapFrame; rw [if_neg h0, if_pos h1]⟩
  by_cases h2 : base % f.size = 0
  case neg =>
    right; left
    exact ⟨h0, h1, h2, by unfold mapFrame; rw [if_neg h0, if_neg (by simpa using h1), if_pos h2]⟩
  right; right
  have ins : ∀ r : VSpace × Outcome Unit, r =
      (if oom then (s, .err .outOfMemory) else
        match ptMap env s.pt base f.base f.size a with
        | .ok pt' => (⟨insertMap base ⟨f, a⟩ s.maps, pt'⟩, .ok ())
        | .err e => (⟨insertMap base ⟨f, a⟩ s.maps, s.pt⟩, .err e)
        | .panic => (⟨insertMap base ⟨f, a⟩ s.maps, s.pt⟩, .panic)) →
      ((oom = true ∧ r = (s, .err .outOfMemory)) ∨
       (oom = false ∧ ((∃ t', ptMap env s.pt base f.base f.size a = .ok t' ∧
            r = (⟨insertMap base ⟨f, a⟩ s.maps, t'⟩, .ok ())) ∨ r.2 = .panic))) := by
    intro r hr
    subst hr
    cases oom with
    | true => exact Or.inl ⟨rfl, rfl⟩
    | false =>
      refine Or.inr ⟨rfl, ?_⟩
      cases hm : ptMap env s.pt base f.base f.size a with
      | ok t' => exact Or.inl ⟨t', rfl, rfl⟩
      | err e => exact absurd hm (mapGeneric_ne_err _ _ _ _ _ _ _ _)
      | panic => exact Or.inr rfl
  cases hf : s.maps.find? (fun q => decide (q.1 < base + f.size)) with
  | none =>
    right
    refine ⟨h0, h1, h2, fun q hq => Or.inr (find_below_none hf q hq), ins _ ?_⟩
    unfold mapFrame
    rw [if_neg h0, if_neg (by simpa using h1), if_neg (by simpa using h2)]
    simp only [hf]
    rfl
  | some q =>
    obtain ⟨hq, hlt, hrest⟩ := find_below h.disj hf
    by_cases hb : q.1 + q.2.frame.size ≤ base
    · right
      refine ⟨h0, h1, h2, fun p hp => ?_, ins _ ?_⟩
      · rcases hrest p hp with rfl | h3 | h3
        · exact Or.inl hb
        · exact Or.inr h3
        · left; omega
      · unfold mapFrame
        rw [if_neg h0, if_neg (by simpa using h1), if_neg (by simpa using h2)]
        simp only [hf]
        rw [if_pos hb]
        rfl
    · left
      refine ⟨h0, h1, h2, q, hq, hlt, by omega, ?_⟩
      by_cases he : q.1 = base ∧ q.2.frame.base = f.base ∧ q.2.frame.size ≤ f.size ∧ q.2.rights = a
      · left
        refine ⟨he.1, he.2.1, he.2.2.1, he.2.2.2, ?_⟩
        unfold mapFrame
        rw [if_neg h0, if_neg (by simpa using h1), if_neg (by simpa using h2)]
        simp only [hf]
        rw [if_neg hb, if_pos he]
      · right
        refine ⟨he, ?_⟩
        unfold mapFrame
        rw [if_neg h0, if_neg (by simpa using h1), if_neg (by simpa using h2)]
        simp only [hf]
        rw [if_neg hb, if_neg he]

theorem Apart.insert {s : VSpace} (h : Apart s) {base : Nat} {f : Frame} {a : MapAction} (t' : PML4)
    (h0 : f.size ≠ 0) (hu : base + f.size ≤ userTop)
    (hall : ∀ q ∈ s.maps, q.1 + q.2.frame.size ≤ base ∨ base + f.size ≤ q.1) :
    Apart ⟨insertMap base ⟨f, a⟩ s.maps, t'⟩ := by
  constructor
  · intro q hq
    rcases (mem_insertMap _ _ _ _).1 hq with rfl | hq
    · exact ⟨by show 0 < f.size; omega, hu⟩
    · exact h.size q hq
  · exact pairwise_insertMap _ _ (by show 0 < f.size; omega) _ h.disj
      (fun q hq => ⟨(h.size q hq).1, hall q hq⟩)

theorem Apart.filter {s : VSpace} (h : Apart s) (p : Nat × MappingInfo → Bool) (t' : PML4) :
    Apart ⟨s.maps.filter p, t'⟩ :=
  ⟨fun q hq => h.size q (List.mem_filter.1 hq).1, h.disj.filter p⟩

theorem Apart.rights {s : VSpace} (h : Apart s) (va : Nat) (r : MapAction) (t' : PML4) :
    Apart ⟨s.maps.map (fun q => if q.1 = va then (q.1, ⟨q.2.frame, r⟩) else q), t'⟩ := by
  have e : ∀ q : Nat × MappingInfo,
      (if q.1 = va then (q.1, (⟨q.2.frame, r⟩ : MappingInfo)) else q).1 = q.1 ∧
      (if q.1 = va then (q.1, (⟨q.2.frame, r⟩ : MappingInfo)) else q).2.frame = q.2.frame := by
    intro q; split <;> exact ⟨rfl, rfl⟩
  constructor
  · intro q hq
    obtain ⟨p, hp, rfl⟩ := List.mem_map.1 hq
    rw [(e p).1, (e p).2]
    exact h.size p hp
  · show List.Pairwise _ (s.maps.map _)
    rw [List.pairwise_map]
    refine h.disj.imp ?_
    intro a b hab
    rw [(e a).1, (e b).1, (e b).2]
    exact hab

theorem Apart.mapFrame {s : VSpace} (h : Apart s) (env : Env) (oom : Bool) (base : Nat) (f : Frame)
    (a : MapAction) (hu : base + f.size ≤ userTop) (hp : (mapFrame env oom s base f a).2 ≠ .panic) :
    Apart (NRK.VSpace.mapFrame env oom s base f a).1 := by
  rcases mapFrame_any env oom h base f a with ⟨_, he⟩ | ⟨_, _, _, he⟩ | ⟨_, _, _, q, _, _, _, hq⟩ |
    ⟨h0, _, _, hall, hq⟩
  · rw [he]; exact h
  · rw [he]; exact h
  · rcases hq with ⟨_, _, _, _, he⟩ | ⟨_, he⟩ <;> rw [he] <;> exact h
  · rcases hq with ⟨_, he⟩ | ⟨_, ⟨t', _, he⟩ | he⟩
    · rw [he]; exact h
    · rw [he]; exact h.insert t' h0 hu hall
    · exact absurd he hp

theorem Apart.unmap {s : VSpace} (h : Apart s) (x : Nat) : Apart (NRK.VSpace.unmap s x).1 := by
  unfold NRK.VSpace.unmap
  simp only
  split
  · split
    · split
      · split
        · exact h.filter _ _
        · exact ⟨h.size, h.disj⟩
      · exact h
      · exact h
    · exact h
  · split
    · split
      · exact h.filter _ _
      · exact ⟨h.size, h.disj⟩
    · exact h
    · exact h

theorem Apart.adjust {s : VSpace} (h : Apart s) (x : Nat) (r : MapAction) :
    Apart (NRK.VSpace.adjust s x r).1 := by
  unfold NRK.VSpace.adjust
  split
  · split
    · exact h.rights _ _ _
    · exact ⟨h.size, h.disj⟩
  · exact h
  · exact h

theorem RunAny.apart {env : Env} {s : VSpace} (h : RunAny env s) : Apart s := by
  induction h with
  | new pt h => exact ⟨fun q hq => absurd hq (by simp), List.Pairwise.nil⟩
  | map oom base f a _ hu hp ih => exact ih.mapFrame env oom base f a hu hp
  | unmap x _ _ _ ih => exact ih.unmap x
  | adjust x r _ _ _ ih => exact ih.adjust x r

/-- The leaf of an address translates the whole page. -/
theorem leafAt_same {t : PML4} {x y : Nat} {lv : Level} {l : Leaf} (h : leafAt t x = some (lv, l))
    (hw : win y = win x) (hp : y / lv.size = x / lv.size) : leafAt t y = some (lv, l) := by
  have ax := addr_eq x
  have ay := addr_eq y
  unfold leafAt at h ⊢
  cases e4 : t (i4 x) with
  | none => rw [e4] at h; cases h
  | some d3 =>
    rw [e4] at h
    simp only at h
    unfold leaf3 at h
    cases e3 : d3 (i3 x) with
    | none => rw [e3] at h; cases h
    | page l3 =>
      rw [e3] at h; cases h
      simp only [Level.size] at hp
      have h4 : i4 y = i4 x := by omega
      have h3 : i3 y = i3 x := by omega
      rw [h4, e4]; simp only; unfold leaf3; rw [h3, e3]
    | table d2 =>
      rw [e3] at h
      simp only at h
      unfold leaf2 at h
      cases e2 : d2 (i2 x) with
      | none => rw [e2] at h; cases h
      | page l2 =>
        rw [e2] at h; cases h
        simp only [Level.size] at hp
        have h4 : i4 y = i4 x := by omega
        have h3 : i3 y = i3 x := by omega
        have h2 : i2 y = i2 x := by omega
        rw [h4, e4]; simp only; unfold leaf3; rw [h3, e3]; simp only; unfold leaf2; rw [h2, e2]
      | table d1 =>
        rw [e2] at h
        simp only at h
        unfold leaf1 at h
        cases e1 : d1 (i1 x) with
        | none => rw [e1] at h; cases h
        | some l1 =>
          rw [e1] at h; cases h
          simp only [Level.size] at hp
          have h4 : i4 y = i4 x := by omega
          have h3 : i3 y = i3 x := by omega
          have h2 : i2 y = i2 x := by omega
          have h1 : i1 y = i1 x := by omega
          rw [h4, e4]; simp only; unfold leaf3; rw [h3, e3]; simp only; unfold leaf2; rw [h2, e2]
          simp only; unfold leaf1; rw [h1, e1]; rfl

/-- Changing rights changes what no address translates to, apart from the rights. -/
theorem modify_keeps {t t' : PML4} {x : Nat} {r : MapAction} {fh : FlushHandle}
    (hm : modifyGeneric t x (some r) = .ok (t', fh)) (y : Nat) (hw : win y = win x) :
    (resolve t' y = .err .notMapped ↔ resolve t y = .err .notMapped) ∧
    ∀ p r0, resolve t y = .ok (p, r0) → ∃ r1, resolve t' y = .ok (p, r1) := by
  obtain ⟨hnone, hsome⟩ := modify_spec t x (some r)
  cases hx : leafAt t x with
  | none => rw [hnone hx] at hm; cases hm
  | some w =>
    obtain ⟨lv, l⟩ := w
    obtain ⟨t2, h1, h2⟩ := hsome lv l hx
    rw [h1] at hm; cases hm
    have h3 := h2 y hw
    unfold resolve
    by_cases hyx : y / lv.size = x / lv.size
    · rw [if_pos hyx] at h3
      rw [h3, leafAt_same hx hw hyx]
      simp [newLeaf]
    · rw [if_neg hyx] at h3
      rw [h3]
      exact ⟨Iff.rfl, fun p r0 h => ⟨r0, h⟩⟩

/-- The translations are the recorded mappings. -/
structure Faithful (s : VSpace) : Prop where
  only : ∀ x, x < userTop → s.resolve x ≠ .err .notMapped → ∃ q ∈ s.maps, Covers q x
  all : ∀ q ∈ s.maps, ∀ x, Covers q x → ∃ r, s.resolve x = .ok (q.2.frame.base + (x - q.1), r)

theorem RunMaps.faithful {env : Env} {s : VSpace} (h : RunMaps env s) : Faithful s := by
  induction h with
  | new pt h =>
    refine ⟨fun x hx hl => absurd ?_ hl, fun q hq => absurd hq (by simp)⟩
    show resolve pt x = _
    unfold resolve; rw [h x hx]
  | @map s oom base f a hr hu hp ih =>
    have hap := hr.any.apart
    rcases mapFrame_any env oom hap base f a with ⟨_, he⟩ | ⟨_, _, _, he⟩ |
      ⟨_, _, _, q, _, _, _, hq⟩ | ⟨h0, _, _, hall, hq⟩
    · rw [he]; exact ih
    · rw [he]; exact ih
    · rcases hq with ⟨_, _, _, _, he⟩ | ⟨_, he⟩ <;> rw [he] <;> exact ih
    · rcases hq with ⟨_, he⟩ | ⟨_, ⟨t', hm, he⟩ | he⟩
      · rw [he]; exact ih
      · rw [he]
        have hw : win base = 0 := win_user (by omega)
        have hx : ∀ x, x < userTop → resolve t' x = if base ≤ x ∧ x < base + f.size then
            .ok (f.base + (x - base), a.canon) else resolve s.pt x := fun x hx =>
          c28_page_table_exact env s.pt t' base f.base f.size a hm (by omega)
            (by rw [hw]; unfold userTop at hu; omega) x (by rw [hw, win_user hx])
        constructor
        · intro x hxu hl
          by_cases hin : base ≤ x ∧ x < base + f.size
          · exact ⟨_, (mem_insertMap _ _ _ _).2 (Or.inl rfl), hin⟩
          · have hl' : s.resolve x ≠ .err .notMapped := by
              intro hn
              apply hl
              show resolve t' x = _
              rw [hx x hxu, if_neg hin]; exact hn
            obtain ⟨q, hq, hc⟩ := ih.only x hxu hl'
            exact ⟨q, (mem_insertMap _ _ _ _).2 (Or.inr hq), hc⟩
        · intro q hq x hc
          show ∃ r, resolve t' x = _
          rcases (mem_insertMap _ _ _ _).1 hq with rfl | hq
          · have hc' : base ≤ x ∧ x < base + f.size := hc
            rw [hx x (by omega), if_pos hc']
            exact ⟨_, rfl⟩
          · have h1 := hall q hq
            have h2 := (hap.size q hq).2
            have hc' : q.1 ≤ x ∧ x < q.1 + q.2.frame.size := hc
            rw [hx x (by omega), if_neg (by omega)]
            exact ih.all q hq x hc
      · exact absurd he hp
  | @adjust s x r hr hux hp ih =>
    have hap := hr.any.apart
    unfold NRK.VSpace.adjust ptAdjust
    by_cases hal : x % 4096 ≠ 0
    · rw [if_pos hal]; exact ih
    · rw [if_neg hal]
      cases hm : modifyGeneric s.pt x (some r) with
      | err e => exact ih
      | panic => exact ih
      | ok w =>
        obtain ⟨t', fh⟩ := w
        have key : ∀ y, y < userTop → _ := fun y hy =>
          modify_keeps hm y (by rw [win_user hux, win_user hy])
        simp only [Outcome.map]
        split
        · constructor
          · intro y hy hl
            obtain ⟨q, hq, hc⟩ := ih.only y hy (fun h => hl ((key y hy).1.2 h))
            refine ⟨_, List.mem_map.2 ⟨q, hq, rfl⟩, ?_⟩
            split <;> exact hc
          · intro p hp y hc
            obtain ⟨q, hq, rfl⟩ := List.mem_map.1 hp
            have hc' : Covers q y := by
              split at hc <;> exact hc
            have hu := (hap.size q hq).2
            obtain ⟨r0, h0⟩ := ih.all q hq y hc'
            obtain ⟨r1, h1⟩ := (key y (by unfold Covers at hc'; omega)).2 _ _ h0
            refine ⟨r1, ?_⟩
            show resolve t' y = _
            rw [h1]
            split <;> rfl
        · constructor
          · intro y hy hl
            exact ih.only y hy (fun h => hl ((key y hy).1.2 h))
          · intro q hq y hc
            have hu := (hap.size q hq).2
            obtain ⟨r0, h0⟩ := ih.all q hq y hc
            exact (key y (by unfold Covers at hc; omega)).2 _ _ h0

/-- **C31** Mapping a frame of any size over something mapped, in an address space from which nothing has
been unmapped: the call is refused with an error that names the base of a mapping which covers an address
of the range, unless it repeats an existing mapping (same base and physical address); in both cases nothing
changes.  Partial: with unmapping it holds for frames that are single pages (`c31_overlap_refused`); for
larger ones it is false (`c31_remains`). -/
theorem c31_overlap_refused_any_partial (env : Env) (oom : Bool) (s : VSpace) (hr : RunMaps env s)
    (base : Nat) (f : Frame) (a : MapAction) (hu : base + f.size ≤ userTop) (hb : f.base % f.size = 0)
    (hv : base % f.size = 0) (y : Nat) (hy : base ≤ y ∧ y < base + f.size)
    (hm : s.resolve y ≠ .err .notMapped) :
    (∃ b z p r r', mapFrame env oom s base f a = (s, .err (.alreadyMapped b)) ∧
      base ≤ z ∧ z < base + f.size ∧ b ≤ z ∧ s.resolve b = .ok (p, r) ∧
      s.resolve z = .ok (p + (z - b), r')) ∨
    (mapFrame env oom s base f a = (s, .ok ()) ∧ ∃ r, s.resolve base = .ok (f.base, r)) := by
  have hap := hr.any.apart
  have hf := hr.faithful
  rcases mapFrame_any env oom hap base f a with ⟨hz, he⟩ | ⟨_, _, hz, he⟩ |
      ⟨_, _, _, q, hq, h1, h2, hc⟩ | ⟨h0, _, _, hall, hc⟩
  · rcases hz with hz | hz
    · omega
    · exact absurd hb hz
  · exact absurd hv hz
  · have hsz := (hap.size q hq).1
    rcases hc with ⟨e1, e2, _, _, he⟩ | ⟨_, he⟩
    · right
      refine ⟨he, ?_⟩
      obtain ⟨r, h⟩ := hf.all q hq base (by unfold Covers; omega)
      exact ⟨r, by rw [h, e1, e2]; simp⟩
    · left
      obtain ⟨r, h⟩ := hf.all q hq q.1 (by unfold Covers; omega)
      obtain ⟨r', h'⟩ := hf.all q hq (max q.1 base) (by unfold Covers; omega)
      exact ⟨q.1, max q.1 base, q.2.frame.base, r, r', he, by omega, by omega, by omega,
        by rw [h]; simp, h'⟩
  · obtain ⟨q, hq, hcq⟩ := hf.only y (by omega) hm
    have := hall q hq
    unfold Covers at hcq
    omega

/-- **C31** Also with unmapping, and whatever the frame sizes: no two recorded mappings overlap, and a frame
whose range overlaps a recorded mapping is refused or repeats one, and nothing changes. -/
theorem c31_recorded_apart (env : Env) (s : VSpace) (hr : RunAny env s) :
    (∀ q ∈ s.maps, 0 < q.2.frame.size) ∧
    s.maps.Pairwise (fun a b => ∀ x, ¬ (Covers a x ∧ Covers b x)) ∧
    ∀ (oom : Bool) (base : Nat) (f : Frame) (a : MapAction), f.base % f.size = 0 → base % f.size = 0 →
      (∃ q ∈ s.maps, ∃ x, Covers q x ∧ base ≤ x ∧ x < base + f.size) →
      (∃ q ∈ s.maps, (∃ x, Covers q x ∧ base ≤ x ∧ x < base + f.size) ∧
        (mapFrame env oom s base f a = (s, .err (.alreadyMapped q.1)) ∨
          (mapFrame env oom s base f a = (s, .ok ()) ∧ q.1 = base ∧ q.2.frame.base = f.base ∧
            q.2.rights = a))) := by
  have hap := hr.apart
  refine ⟨fun q hq => (hap.size q hq).1, hap.disj.imp ?_, ?_⟩
  · intro a b hab x hx
    unfold Covers at hx
    omega
  · intro oom base f a hb hv ⟨q0, hq0, x0, hc0, hx0⟩
    rcases mapFrame_any env oom hap base f a with ⟨hz, he⟩ | ⟨_, _, hz, he⟩ |
      ⟨_, _, _, q, hq, h1, h2, hc⟩ | ⟨h0, _, _, hall, hc⟩
    · rcases hz with hz | hz
      · omega
      · exact absurd hb hz
    · exact absurd hv hz
    · have hsz := (hap.size q hq).1
      refine ⟨q, hq, ⟨max q.1 base, by unfold Covers; omega, by omega, by omega⟩, ?_⟩
      rcases hc with ⟨e1, e2, _, e4, he⟩ | ⟨_, he⟩
      · exact Or.inr ⟨he, e1, e2, e4⟩
      · exact Or.inl he
    · have := hall q0 hq0
      unfold Covers at hc0
      omega

/-- A frame of two base pages is mapped and unmapped again. -/
def exGone : VSpace :=
  (unmap (mapFrame ⟨false, fun _ => false⟩ false ⟨[], PML4.empty⟩ 0x2000 ⟨0x4000, 8192, 0⟩
    MapAction.writable).1 0x2000).1

/-- **C31** Witness: after a frame of two pages has been unmapped, its second page still translates but is in
the record of mappings no longer.  Mapping another frame there is not refused: the kernel panics. -/
theorem c31_remains :
    RunAny ⟨false, fun _ => false⟩ exGone ∧ exGone.maps = [] ∧
    exGone.resolve 0x3000 = .ok (0x5000, MapAction.writable) ∧
    (mapFrame ⟨false, fun _ => false⟩ false exGone 0x3000 ⟨0x9000, 4096, 0⟩ MapAction.writable).2 = .panic := by
  refine ⟨?_, by decide +kernel, by decide +kernel, by decide +kernel⟩
  refine RunAny.unmap _ (RunAny.map _ _ _ _ (RunAny.new _ (fun x _ => rfl)) (by decide) ?_) (by decide) ?_
  · decide +kernel
  · decide +kernel

/-- A frame of two large pages at 4 MiB with a base page before it. -/
def exBig : VSpace :=
  (mapFrame ⟨false, fun _ => false⟩ false (mapFrame ⟨false, fun _ => false⟩ false ⟨[], PML4.empty⟩ 0x3ff000
    ⟨0x9000, 4096, 0⟩ MapAction.writable).1 0x400000 ⟨0x800000, 4194304, 0⟩ MapAction.writable).1

/-- The hypotheses can be met: a frame of 8 MiB over both is refused and the larger one named. -/
theorem c31_any_sample :
    RunMaps ⟨false, fun _ => false⟩ exBig ∧ exBig.resolve 0x7ff000 = .ok (0xbff000, MapAction.writable) ∧
    (mapFrame ⟨false, fun _ => false⟩ false exBig 0 ⟨0x800000, 8388608, 0⟩ MapAction.writable).2 =
      .err (.alreadyMapped 0x400000) := by
  refine ⟨?_, by decide +kernel, by decide +kernel⟩
  refine RunMaps.map _ _ _ _ (RunMaps.map _ _ _ _ (RunMaps.new _ (fun x _ => rfl)) (by decide) ?_)
    (by decide) ?_
  · decide +kernel
  · decide +kernel

end NRK.VSpace
