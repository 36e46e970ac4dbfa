import Verif.Machine.OwnLemmas

/-!
# C62: allocating and releasing physical pages
-/

namespace NRK.Machine

open NRK.Mem NRK.Mem.Spec NRK.VSpace NRK.Proc

/-- The free pages of a size in a cache, the next one first. -/
def pages (c : MCache) (large : Bool) : List Nat := if large then c.lp else c.bp

/-- There is no room for another page of that size. -/
def isFull (c : MCache) (large : Bool) : Prop :=
  if large then c.capL ≤ c.lp.length else c.capB ≤ c.bp.length

/-- The page size in bytes. -/
def pageBytes (large : Bool) : Nat := if large then 2097152 else 4096

/-- The cache without its next page of a size. -/
def dropPage (c : MCache) (large : Bool) : MCache :=
  if large then { c with lp := c.lp.tail } else { c with bp := c.bp.tail }

theorem takeOne_exact {c : MCache} (hc : c.Wf) (large : Bool) :
    (pages c large = [] → takeOne c large = (.err .cacheExhausted, c)) ∧
    (∀ a as, pages c large = a :: as →
      takeOne c large = (.ok ⟨a, pageBytes large, c.node⟩, dropPage c large)) := by
  cases large with
  | true =>
    refine ⟨fun h => ?_, fun a as h => ?_⟩
    · have h : c.lp = [] := h
      show c.allocLarge = _
      simp [MCache.allocLarge, h]
    · have h : c.lp = a :: as := h
      have ha : a % LARGE = 0 := hc.alL a (by simp [h])
      show c.allocLarge = _
      have hn := new_large (n := c.node) ha
      rw [LARGE_eq] at hn
      simp only [MCache.allocLarge, h, LARGE_eq, hn, dropPage, if_true, List.tail_cons, pageBytes]
  | false =>
    refine ⟨fun h => ?_, fun a as h => ?_⟩
    · have h : c.bp = [] := h
      show c.allocBase = _
      simp [MCache.allocBase, h]
    · have h : c.bp = a :: as := h
      have ha : a % BASE = 0 := hc.alB a (by simp [h])
      show c.allocBase = _
      have hn := new_base (n := c.node) ha
      rw [BASE_eq] at hn
      simp only [MCache.allocBase, h, BASE_eq, hn, dropPage, Bool.false_eq_true, if_false, List.tail_cons,
        pageBytes]

/-- Where the page comes from: the core's cache if that is full, else the node's. -/
theorem refillTake_exact {nc tc : MCache} (h1 : nc.Wf) (hn : nc.node = tc.node) (large : Bool) :
    (isFull tc large → refillTake nc tc large = ((takeOne tc large).1, nc, (takeOne tc large).2)) ∧
    (¬ isFull tc large → refillTake nc tc large = ((takeOne nc large).1, (takeOne nc large).2, tc)) := by
  cases large with
  | true =>
    refine ⟨fun h => ?_, fun h => ?_⟩
    · have h : tc.capL ≤ tc.lp.length := h
      have hz : tc.spareLarge = 0 := by unfold MCache.spareLarge; omega
      have e : refillTcache false nc tc 0 1 = (.ok (), nc, tc) := by
        simp [refillTcache, hz, moveBase, moveLarge]
      unfold refillTake
      simp only [if_true, e]
    · have h : tc.lp.length < tc.capL := Nat.lt_of_not_le h
      have hz : min tc.spareLarge 1 = 1 := by unfold MCache.spareLarge; omega
      have e : refillTcache false nc tc 0 1 = moveLarge nc tc 1 := by
        simp [refillTcache, moveBase, hz]
      cases hb : nc.lp with
      | nil =>
        have e2 : moveLarge nc tc 1 = (.err .cacheExhausted, nc, tc) := by
          simp [moveLarge, MCache.allocLarge, hb]
        unfold refillTake
        simp only [if_true, e, e2]
        rw [(takeOne_exact h1 true).1 hb]
      | cons a as =>
        have ha : a % LARGE = 0 := h1.alL a (by simp [hb])
        have e2 : moveLarge nc tc 1 = (.ok (), { nc with lp := as }, { tc with lp := a :: tc.lp }) := by
          simp [moveLarge, MCache.allocLarge, hb, new_large ha, MCache.growLarge, ha, hn,
            MCache.pushLarge, h]
        have w : takeOne { tc with lp := a :: tc.lp } true = (.ok ⟨a, LARGE, tc.node⟩, tc) := by
          simp [takeOne, MCache.allocLarge, new_large ha]
        unfold refillTake
        simp only [if_true, e, e2, w]
        rw [(takeOne_exact h1 true).2 a as hb]
        simp [dropPage, hb, pageBytes, LARGE_eq, hn]
  | false =>
    refine ⟨fun h => ?_, fun h => ?_⟩
    · have h : tc.capB ≤ tc.bp.length := h
      have hz : tc.spareBase = 0 := by unfold MCache.spareBase; omega
      have e : refillTcache false nc tc 1 0 = (.ok (), nc, tc) := by
        simp [refillTcache, hz, moveBase, moveLarge]
      unfold refillTake
      simp only [Bool.false_eq_true, if_false, e]
    · have h : tc.bp.length < tc.capB := Nat.lt_of_not_le h
      have hz : min tc.spareBase 1 = 1 := by unfold MCache.spareBase; omega
      have e : refillTcache false nc tc 1 0 = moveBase false nc tc 1 := by
        unfold refillTcache
        rw [hz]
        cases hm : moveBase false nc tc 1 with
        | mk o r =>
          obtain ⟨nc', tc'⟩ := r
          cases o with
          | ok u => simp [moveLarge]
          | err e => rfl
          | panic => rfl
      cases hb : nc.bp with
      | nil =>
        have e2 : moveBase false nc tc 1 = (.err .cacheExhausted, nc, tc) := by
          simp [moveBase, MCache.allocBase, hb]
        unfold refillTake
        simp only [Bool.false_eq_true, if_false, e, e2]
        rw [(takeOne_exact h1 false).1 hb]
      | cons a as =>
        have ha : a % BASE = 0 := h1.alB a (by simp [hb])
        have e2 : moveBase false nc tc 1 = (.ok (), { nc with bp := as }, { tc with bp := a :: tc.bp }) := by
          simp [moveBase, MCache.allocBase, hb, new_base ha, MCache.growBase, ha, hn, affinityFits,
            MCache.pushBase, h]
        have w : takeOne { tc with bp := a :: tc.bp } false = (.ok ⟨a, BASE, tc.node⟩, tc) := by
          simp [takeOne, MCache.allocBase, new_base ha]
        unfold refillTake
        simp only [Bool.false_eq_true, if_false, e, e2, w]
        rw [(takeOne_exact h1 false).2 a as hb]
        simp [dropPage, hb, pageBytes, BASE_eq, hn]

/-- The identifier `fid` is the lowest that is not in use. -/
def LowestFree (fs : Frames) (fid : Nat) : Prop :=
  (∃ n : Nat, fs[fid]? = some (none, n)) ∧ ∀ i < fid, ∃ f n, fs.get i = .ok (f, n)

/-- All identifiers are in use. -/
def AllUsed (fs : Frames) : Prop := ∀ i < fs.length, ∃ f n, fs.get i = .ok (f, n)

theorem used_of_some {fs : Frames} {i : Nat} {e : Option Frame × Nat} (h : fs[i]? = some e)
    (hs : e.1.isNone = false) : ∃ f n, fs.get i = .ok (f, n) := by
  obtain ⟨of, n⟩ := e
  cases of with
  | none => cases hs
  | some f => exact ⟨f, n, get_ok.2 h⟩

theorem add_exact (fs : Frames) (f : Frame) :
    (∃ fid, LowestFree fs fid ∧ fs.add f = (fs.set fid (some f, 0), .ok fid)) ∨
    (AllUsed fs ∧ fs.add f = (fs, .err .tooManyRegisteredFrames)) := by
  unfold Frames.add
  split
  · rename_i fid h
    left
    rw [List.findIdx?_eq_some_iff_getElem] at h
    obtain ⟨h1, h2, h3⟩ := h
    refine ⟨fid, ⟨⟨fs[fid].2, ?_⟩, ?_⟩, rfl⟩
    · rw [List.getElem?_eq_getElem h1]
      congr 1
      exact Prod.ext (by simpa using h2) rfl
    · intro i hi
      have := h3 i hi
      have hi' : i < fs.length := by omega
      refine used_of_some (List.getElem?_eq_getElem hi') ?_
      cases he : fs[i].1 with
      | none => simp [he] at this
      | some f => rfl
  · rename_i h
    right
    refine ⟨?_, rfl⟩
    intro i hi
    rw [List.findIdx?_eq_none_iff] at h
    have := h _ (List.getElem_mem hi)
    exact used_of_some (List.getElem?_eq_getElem hi) (by
      cases he : fs[i].1 with
      | none => simp [he] at this
      | some f => rfl)

theorem lowest_unique {fs : Frames} {a b : Nat} (h : LowestFree fs a) (h' : LowestFree fs b) : a = b := by
  rcases Nat.lt_trichotomy a b with hlt | heq | hlt
  · obtain ⟨f, n, hg⟩ := h'.2 a hlt
    obtain ⟨m, hm⟩ := h.1
    have := get_ok.1 hg
    unfold Frames.At at this
    rw [hm] at this
    cases this
  · exact heq
  · obtain ⟨f, n, hg⟩ := h.2 b hlt
    obtain ⟨m, hm⟩ := h'.1
    have := get_ok.1 hg
    unfold Frames.At at this
    rw [hm] at this
    cases this

theorem not_both {fs : Frames} {a : Nat} (h : LowestFree fs a) (h' : AllUsed fs) : False := by
  obtain ⟨m, hm⟩ := h.1
  obtain ⟨f, n, hg⟩ := h' a (List.getElem?_eq_some_iff.1 hm).1
  have := get_ok.1 hg
  unfold Frames.At at this
  rw [hm] at this
  cases this

/-- **C62** Asking for a page: the size must be that of a base page or a large page.  If the cache the page
is to come from (the core's if it is full, else the node's) has one, the process gets it under the lowest
free identifier, its address is returned, and it is gone from the cache; nothing else changes.  If there is
none, or no identifier is free, it fails with the matching error.  It never crashes. -/
theorem c62_allocate (c : Cfg) {nc tc : MCache} (h1 : nc.Wf) (h2 : tc.Wf) (hn : nc.node = tc.node) (P : Proc)
    (size : Nat) :
    (size ≠ 4096 → size ≠ 2097152 →
      allocatePhysical c nc tc P size = (.err (.invalidSyscallArgument1 size), P, nc, tc)) ∧
    (∀ large, size = pageBytes large →
      (∀ a as, (isFull tc large ∧ pages tc large = a :: as) ∨ (¬ isFull tc large ∧ pages nc large = a :: as) →
        (∀ fid, LowestFree P.frames fid → ∃ nc' tc', allocatePhysical c nc tc P size =
          (.ok (fid, a), { P with frames := P.frames.set fid (some ⟨a, size, tc.node⟩, 0) }, nc', tc') ∧
          ((isFull tc large ∧ nc' = nc ∧ tc' = dropPage tc large) ∨
            (¬ isFull tc large ∧ nc' = dropPage nc large ∧ tc' = tc))) ∧
        (AllUsed P.frames → (allocatePhysical c nc tc P size).1 = .err .tooManyRegisteredFrames)) ∧
      ((isFull tc large ∧ pages tc large = []) ∨ (¬ isFull tc large ∧ pages nc large = []) →
        allocatePhysical c nc tc P size = (.err .cacheExhausted, P, nc, tc))) := by
  refine ⟨fun a b => ?_, fun large hs => ⟨fun a as hsrc => ?_, fun hsrc => ?_⟩⟩
  · unfold allocatePhysical
    rw [BASE_eq, LARGE_eq, if_pos ⟨a, b⟩]
  all_goals
    have hne : ¬ (size ≠ BASE ∧ size ≠ LARGE) := by
      rw [BASE_eq, LARGE_eq]; subst hs; cases large <;> simp [pageBytes]
    have hl : decide (size = LARGE) = large := by
      rw [LARGE_eq]; subst hs; cases large <;> simp [pageBytes]
    obtain ⟨r1, r2⟩ := refillTake_exact h1 hn large
  · have hr : ∃ nc' tc', refillTake nc tc large = (.ok ⟨a, size, tc.node⟩, nc', tc') ∧
        ((isFull tc large ∧ nc' = nc ∧ tc' = dropPage tc large) ∨
            (¬ isFull tc large ∧ nc' = dropPage nc large ∧ tc' = tc)) := by
      rcases hsrc with ⟨hf, hp⟩ | ⟨hf, hp⟩
      · refine ⟨_, _, ?_, Or.inl ⟨hf, rfl, rfl⟩⟩
        rw [r1 hf, (takeOne_exact h2 large).2 a as hp, hs]
      · refine ⟨_, _, ?_, Or.inr ⟨hf, rfl, rfl⟩⟩
        rw [r2 hf, (takeOne_exact h1 large).2 a as hp, hs, hn]
    obtain ⟨nc', tc', hr, hcase⟩ := hr
    refine ⟨fun fid hfid => ⟨nc', tc', ?_, hcase⟩, fun hall => ?_⟩
    · rcases add_exact P.frames ⟨a, size, tc.node⟩ with ⟨fid', hf', he⟩ | ⟨hall, _⟩
      · rw [lowest_unique hfid hf']
        unfold allocatePhysical
        rw [if_neg hne, hl, hr]
        simp only [Proc.step, he, Outcome.map]
      · exact absurd hall (fun h => not_both hfid h)
    · rcases add_exact P.frames ⟨a, size, tc.node⟩ with ⟨fid', hf', he⟩ | ⟨_, he⟩
      · exact absurd hall (fun h => not_both hf' h)
      · unfold allocatePhysical
        rw [if_neg hne, hl, hr]
        simp only [Proc.step, he, Outcome.map]
  · have hr : refillTake nc tc large = (.err .cacheExhausted, nc, tc) := by
      rcases hsrc with ⟨hf, hp⟩ | ⟨hf, hp⟩
      · rw [r1 hf, (takeOne_exact h2 large).1 hp]
      · rw [r2 hf, (takeOne_exact h1 large).1 hp]
    unfold allocatePhysical
    rw [if_neg hne, hl, hr]

/-- A frame that is registered and not mapped. -/
def Releasable (P : Proc) (fid : Nat) (f : Frame) : Prop := P.frames.get fid = .ok (f, 0)

theorem release_step (c : Cfg) (P : Proc) (fid : Nat) (f : Frame) (h : Releasable P fid f) :
    P.step c (.releaseFrame fid) = ({ P with frames := P.frames.set fid (none, 0) }, .ok (.frame f)) := by
  have h := get_ok.1 h
  unfold Frames.At at h
  simp only [Proc.step, Frames.dealloc, h, if_true, Outcome.map]

/-- The cache with one more page on top. -/
def addPage (c : MCache) (f : Frame) : MCache :=
  if f.size = 4096 then { c with bp := f.base :: c.bp } else { c with lp := f.base :: c.lp }

theorem giveBack_exact {c : MCache} {f : Frame} (hf : PageOk f) (ha : f.aff = c.node) :
    (isFull c (decide (f.size ≠ 4096)) → giveBack c f = (.err .cacheFull, c)) ∧
    (¬ isFull c (decide (f.size ≠ 4096)) → giveBack c f = (.ok (), addPage c f)) := by
  obtain ⟨hs, hb⟩ := hf
  unfold giveBack MCache.releaseBase MCache.releaseLarge MCache.pushBase MCache.pushLarge
  rcases hs with e | e
  · rw [e] at hb
    have hd : decide (f.size ≠ 4096) = false := by simp [e]
    rw [hd]
    refine ⟨fun h => ?_, fun h => ?_⟩
    · have h : c.capB ≤ c.bp.length := h
      have h' : ¬ c.bp.length < c.capB := by omega
      simp [BASE_eq, e, hb, ha, h']
    · have h : c.bp.length < c.capB := Nat.lt_of_not_le h
      simp [BASE_eq, e, hb, ha, h, addPage]
  · rw [e] at hb
    have hd : decide (f.size ≠ 4096) = true := by simp [e]
    rw [hd]
    refine ⟨fun h => ?_, fun h => ?_⟩
    · have h : c.capL ≤ c.lp.length := h
      have h' : ¬ c.lp.length < c.capL := by omega
      simp [BASE_eq, LARGE_eq, e, hb, ha, h']
    · have h : c.lp.length < c.capL := Nat.lt_of_not_le h
      simp [BASE_eq, LARGE_eq, e, hb, ha, h, addPage]

/-- **C62** Releasing a page on a core that allocates from the page's node: the identifier becomes free, and
the page is the next one the core's cache hands out or, if that is full, the next one the node's cache
hands out.  Unknown and mapped frames are refused without effect. -/
theorem c62_release_partial (c : Cfg) (node : Nat → MCache) (tc : MCache) (P : Proc) (fid : Nat)
    (hnode : ∀ n, (node n).node = n) :
    (∀ f, Releasable P fid f → PageOk f → f.aff = tc.node →
      (¬ isFull tc (decide (f.size ≠ 4096)) → releasePhysical c node tc P fid =
        (.ok (), { P with frames := P.frames.set fid (none, 0) }, node, addPage tc f)) ∧
      (isFull tc (decide (f.size ≠ 4096)) → ¬ isFull (node f.aff) (decide (f.size ≠ 4096)) →
        releasePhysical c node tc P fid = (.ok (), { P with frames := P.frames.set fid (none, 0) },
          upd node f.aff (addPage (node f.aff) f), tc))) ∧
    (∀ f n, P.frames.get fid = .ok (f, n + 1) →
      releasePhysical c node tc P fid = (.err .frameStillMapped, P, node, tc)) ∧
    ((∀ n : Nat, P.frames[fid]? = some (none, n) → n = 0) → (∀ f n, P.frames.get fid ≠ .ok (f, n)) →
      releasePhysical c node tc P fid = (.err .invalidFrameId, P, node, tc)) := by
  refine ⟨fun f hr hok ha => ⟨fun hf => ?_, fun hf hg => ?_⟩, fun f n hg => ?_, fun h0 hno => ?_⟩
  · unfold releasePhysical
    rw [release_step c P fid f hr]
    simp only [(giveBack_exact hok ha).2 hf]
  · unfold releasePhysical
    rw [release_step c P fid f hr]
    simp only [(giveBack_exact hok ha).1 hf, (giveBack_exact hok (hnode f.aff).symm).2 hg]
  · have hat := get_ok.1 hg
    unfold Frames.At at hat
    simp [releasePhysical, Proc.step, Frames.dealloc, hat, Outcome.map]
  · cases hf : P.frames[fid]? with
    | none => simp [releasePhysical, Proc.step, Frames.dealloc, hf, Outcome.map]
    | some e =>
      obtain ⟨of, n⟩ := e
      cases of with
      | none =>
        have := h0 n hf
        subst this
        simp [releasePhysical, Proc.step, Frames.dealloc, hf, Outcome.map]
      | some f => exact absurd (get_ok.2 hf) (hno f n)

/-- **C62**, what goes wrong: on a core that allocates from another node than the page's, or when both
caches are full, the kernel crashes. -/
theorem c62_release_panics (c : Cfg) (node : Nat → MCache) (tc : MCache) (P : Proc) (fid : Nat) (f : Frame)
    (hnode : ∀ n, (node n).node = n) (hr : Releasable P fid f) (hok : PageOk f)
    (h : f.aff ≠ tc.node ∨ (isFull tc (decide (f.size ≠ 4096)) ∧
      isFull (node f.aff) (decide (f.size ≠ 4096)))) :
    (releasePhysical c node tc P fid).1 = .panic := by
  unfold releasePhysical
  rw [release_step c P fid f hr]
  by_cases ha : f.aff = tc.node
  · rcases h with h | ⟨h1, h2⟩
    · exact absurd ha h
    · simp only [(giveBack_exact hok ha).1 h1, (giveBack_exact hok (hnode f.aff).symm).1 h2]
  · have : giveBack tc f = (.panic, tc) := by
      unfold giveBack MCache.releaseBase MCache.releaseLarge
      have e1 : ¬ (f.size = BASE ∧ f.base % BASE = 0 ∧ f.aff = tc.node) := fun e => ha e.2.2
      have e2 : ¬ (f.size = LARGE ∧ f.base % LARGE = 0 ∧ f.aff = tc.node) := fun e => ha e.2.2
      rw [if_neg e1, if_neg e2]
      split
      · rfl
      · split <;> rfl
    simp only [this]

/-- **C62**, what goes wrong: when no identifier is free the page is taken from the caches all the same and
nobody has it any more. -/
theorem c62_page_lost (c : Cfg) {nc tc : MCache} (h1 : nc.Wf) (h2 : tc.Wf) (hn : nc.node = tc.node) (P : Proc)
    (hall : AllUsed P.frames) (a : Nat) (as : List Nat) (hp : nc.lp = a :: as)
    (hroom : tc.lp.length < tc.capL) :
    allocatePhysical c nc tc P 2097152 = (.err .tooManyRegisteredFrames, P, { nc with lp := as }, tc) := by
  obtain ⟨r1, r2⟩ := refillTake_exact h1 hn true
  have hf : ¬ isFull tc true := by show ¬ tc.capL ≤ tc.lp.length; omega
  have hr := r2 hf
  rw [(takeOne_exact h1 true).2 a as hp] at hr
  unfold allocatePhysical
  rw [BASE_eq, LARGE_eq, if_neg (by decide)]
  simp only [decide_true, hr]
  rcases add_exact P.frames ⟨a, pageBytes true, nc.node⟩ with ⟨fid', hf', he⟩ | ⟨_, he⟩
  · exact absurd hall (fun h => not_both hf' h)
  · simp only [Proc.step, he, Outcome.map, dropPage, if_true, hp, List.tail_cons]

/-- **C62**, what goes wrong: the request fails although the core's own cache has free pages, when the
node's cache is empty and the core's is not full. -/
theorem c62_fails_with_free_pages (c : Cfg) {nc tc : MCache} (h1 : nc.Wf) (h2 : tc.Wf) (hn : nc.node = tc.node)
    (P : Proc) (hp : nc.bp = []) (hroom : tc.bp.length < tc.capB) :
    allocatePhysical c nc tc P 4096 = (.err .cacheExhausted, P, nc, tc) := by
  refine ((c62_allocate c h1 h2 hn P 4096).2 false rfl).2 (Or.inr ⟨?_, hp⟩)
  show ¬ tc.capB ≤ tc.bp.length
  omega

/-- **C62** A page that is allocated and released again is where it was or in the core's cache: allocating
again gives a page, and the process is as before. -/
theorem c62_round_trip (c : Cfg) (node : Nat → MCache) {tc : MCache} (hw : ∀ n, (node n).Wf) (h2 : tc.Wf)
    (hnode : ∀ n, (node n).node = n) (P : Proc) (large : Bool) (a : Nat) (as : List Nat) (fid : Nat)
    (hfid : LowestFree P.frames fid) (h0 : ∀ n : Nat, P.frames[fid]? = some (none, n) → n = 0)
    (hroom : ¬ isFull tc large) (hp : pages (node tc.node) large = a :: as) :
    ∃ P' nc' tc', allocatePhysical c (node tc.node) tc P (pageBytes large) = (.ok (fid, a), P', nc', tc') ∧
      P'.frames.get fid = .ok (⟨a, pageBytes large, tc.node⟩, 0) ∧
      (releasePhysical c (upd node tc.node nc') tc' P' fid).1 = .ok () ∧
      (releasePhysical c (upd node tc.node nc') tc' P' fid).2.1 = P ∧
      (nc'.held ++ (releasePhysical c (upd node tc.node nc') tc' P' fid).2.2.2.held).Perm
        ((node tc.node).held ++ tc.held) := by
  have halloc := (c62_allocate c (hw tc.node) h2 (hnode _) P (pageBytes large)).2 large rfl
  obtain ⟨nc', tc', he, hcase⟩ := (halloc.1 a as (Or.inr ⟨hroom, hp⟩)).1 fid hfid
  have hcase : nc' = dropPage (node tc.node) large ∧ tc' = tc := by
    rcases hcase with ⟨h, _⟩ | ⟨_, h⟩
    · exact absurd h hroom
    · exact h
  obtain ⟨rfl, rfl⟩ := hcase
  obtain ⟨m, hm⟩ := hfid.1
  have hlt : fid < P.frames.length := (List.getElem?_eq_some_iff.1 hm).1
  have hm0 : m = 0 := h0 m hm
  subst hm0
  have hget : Frames.get (P.frames.set fid (some ⟨a, pageBytes large, tc'.node⟩, 0)) fid =
      .ok (⟨a, pageBytes large, tc'.node⟩, 0) := get_ok.2 (at_set_same hlt)
  have hok : PageOk ⟨a, pageBytes large, tc'.node⟩ := by
    cases large with
    | true =>
      have hp : (node tc'.node).lp = a :: as := hp
      have := (hw tc'.node).alL a (by rw [hp]; exact List.mem_cons_self)
      rw [LARGE_eq] at this
      exact ⟨Or.inr rfl, this⟩
    | false =>
      have hp : (node tc'.node).bp = a :: as := hp
      have := (hw tc'.node).alB a (by rw [hp]; exact List.mem_cons_self)
      rw [BASE_eq] at this
      exact ⟨Or.inl rfl, this⟩
  have hl : decide (pageBytes large ≠ 4096) = large := by cases large <;> rfl
  have hrel := (c62_release_partial c (upd node tc'.node (dropPage (node tc'.node) large)) tc'
    { P with frames := P.frames.set fid (some ⟨a, pageBytes large, tc'.node⟩, 0) } fid (fun n => by
      by_cases e : n = tc'.node
      · subst e; rw [upd_same, ← hnode tc'.node]; cases large <;> simp [dropPage, hnode]
      · rw [upd_other _ _ e]; exact hnode n)).1 _ hget hok rfl
  have hrel := hrel.1 (by rw [hl]; exact hroom)
  refine ⟨_, _, _, he, hget, ?_, ?_, ?_⟩
  · rw [hrel]
  · rw [hrel]
    simp only [List.set_set]
    have : P.frames.set fid (none, 0) = P.frames := by
      apply List.ext_getElem?
      intro i
      rw [List.getElem?_set]
      split
      · rename_i e; subst e; exact hm.symm
      · rfl
    rw [this]
  · rw [hrel]
    rw [List.perm_iff_count]
    intro b
    cases large with
    | true =>
      have hp : (node tc'.node).lp = a :: as := hp
      simp only [dropPage, addPage, pageBytes, if_true, MCache.held, List.map_cons, List.count_append,
        List.count_cons, hp, List.tail_cons, show ¬ (2097152 = 4096) from by decide, if_false, LARGE_eq]
      omega
    | false =>
      have hp : (node tc'.node).bp = a :: as := hp
      simp only [dropPage, addPage, pageBytes, if_true, MCache.held, List.map_cons, List.count_append,
        List.count_cons, hp, List.tail_cons, Bool.false_eq_true, if_false, BASE_eq]
      omega

/-- A cache with two pages, and one of a core with room for one. -/
example : ∃ P' nc' tc', allocatePhysical ⟨⟨false, fun _ => false⟩, false, 1, 0⟩
    ⟨4, 4, 0, [0x1000, 0x2000], []⟩ (MCache.new 1 1 0) (Proc.new PML4.empty 0) 4096 =
      (.ok (0, 0x1000), P', nc', tc') := by
  have w1 : MCache.Wf ⟨4, 4, 0, [0x1000, 0x2000], []⟩ := by
    refine ⟨by decide, by decide, ?_, fun a ha => by cases ha⟩
    rw [BASE_eq]; decide
  have w2 : MCache.Wf (MCache.new 1 1 0) :=
    ⟨Nat.zero_le _, Nat.zero_le _, (fun a ha => by cases ha), (fun a ha => by cases ha)⟩
  have := ((c62_allocate ⟨⟨false, fun _ => false⟩, false, 1, 0⟩ w1 w2 rfl (Proc.new PML4.empty 0) 4096).2
    false rfl).1 0x1000 [0x2000] (Or.inr ⟨by show ¬ (1 : Nat) ≤ 0; decide, rfl⟩)
  obtain ⟨nc', tc', h, _⟩ := this.1 0 ⟨⟨0, rfl⟩, fun i hi => absurd hi (by omega)⟩
  exact ⟨_, nc', tc', h⟩

/-- The page of the previous example can be released again (`c62_round_trip` and with it
`c62_release_partial` have an instance). -/
example : ∃ P' nc' tc', allocatePhysical ⟨⟨false, fun _ => false⟩, false, 1, 0⟩
    ⟨4, 4, 0, [0x1000, 0x2000], []⟩ (MCache.new 1 1 0) (Proc.new PML4.empty 0) 4096 =
      (.ok (0, 0x1000), P', nc', tc') ∧ Releasable P' 0 ⟨0x1000, 4096, 0⟩ ∧
    (releasePhysical ⟨⟨false, fun _ => false⟩, false, 1, 0⟩
      (upd (fun n => { (MCache.new 4 4 n) with bp := [0x1000, 0x2000] }) 0 nc') tc' P' 0).1 = .ok () := by
  have w1 : ∀ n, MCache.Wf { (MCache.new 4 4 n) with bp := [0x1000, 0x2000] } := by
    intro n
    refine ⟨by show 2 ≤ 4; decide, Nat.zero_le _, ?_, (fun a ha => by cases ha)⟩
    rw [BASE_eq]
    intro a ha
    have : a = 0x1000 ∨ a = 0x2000 := by simpa using ha
    rcases this with e | e <;> subst e <;> rfl
  have w2 : MCache.Wf (MCache.new 1 1 0) :=
    ⟨Nat.zero_le _, Nat.zero_le _, (fun a ha => by cases ha), (fun a ha => by cases ha)⟩
  obtain ⟨P', nc', tc', h1, h2, h3, _⟩ := c62_round_trip ⟨⟨false, fun _ => false⟩, false, 1, 0⟩
    (fun n => { (MCache.new 4 4 n) with bp := [0x1000, 0x2000] }) w1 w2 (fun _ => rfl)
    (Proc.new PML4.empty 0) false 0x1000 [0x2000] 0 ⟨⟨0, rfl⟩, fun i hi => absurd hi (by omega)⟩
    (fun n h => by cases h; rfl) (by show ¬ (1 : Nat) ≤ 0; decide) rfl
  exact ⟨P', nc', tc', h1, h2, h3⟩

end NRK.Machine
