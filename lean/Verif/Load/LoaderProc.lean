import Verif.Load.LoaderData

/-!
# Helper lemmas for the program loader: the address spaces
-/

namespace NRK.Load

open NRK.Mem (Frame LARGE LARGE_eq roundUp)
open NRK.VSpace (VSpace Env MapAction mapFrame Run userTop PageSize)
open Spec

theorem action_eq {h : Hdr} (hr : h.r = true) : ∃ a, h.action = some a ∧ a.canon = rights h := by
  obtain ⟨v, s, r, w, x, d⟩ := h
  simp only at hr
  subst hr
  cases w <;> cases x <;> exact ⟨_, rfl, rfl⟩

/-- The pages of all headers, with their frames. -/
def hdrPl (wf : List Frame) : List Hdr → List Frame → List (Hdr × Nat × Frame)
  | [], _ => []
  | h :: hs, ros =>
    if h.w then (pagesAt (pageBase h) (wf.take (largePages h))).map (fun q => (h, q)) ++ hdrPl wf hs ros
    else
      (pagesAt (pageBase h) (ros.take (largePages h))).map (fun q => (h, q)) ++
        hdrPl wf hs (ros.drop (largePages h))

theorem totalPages_cons (h : Hdr) (hs : List Hdr) :
    totalPages (h :: hs) = largePages h + totalPages hs := by
  unfold totalPages
  rw [List.map_cons, List.sum_cons, pages_eq]

/-- The pages that read-only headers need. -/
def roPages (hs : List Hdr) : Nat := totalPages (hs.filter fun h => !h.w)

theorem procAllocate_spec (env : Env) (hk : env.pages4k = false) (offset : Nat) (ho : offset % LARGE = 0)
    (wf : List Frame) (hwf : ∀ f ∈ wf, f.size = LARGE ∧ f.base % LARGE = 0) :
    ∀ (hs : List Hdr) (ros : List Frame) (s : VSpace), Run env s →
      hs.Pairwise Apart → (∀ h ∈ hs, h.r = true) → (∀ h ∈ hs, offset + pageEnd h ≤ userTop) →
      (∀ h ∈ hs, h.w = true → largePages h ≤ wf.length) → roPages hs ≤ ros.length →
      (∀ f ∈ ros, f.size = LARGE ∧ f.base % LARGE = 0) →
      (∀ h ∈ hs, ∀ x, offset + pageBase h ≤ x → x < offset + pageEnd h → s.resolve x = .err .notMapped) →
      ∃ s' l, procAllocate env offset wf hs ros s = .ok (s', l) ∧ Run env s' ∧
        (∀ t ∈ hdrPl wf hs ros, ∀ i, i < LARGE →
          s'.resolve (offset + t.2.1 + i) = .ok (t.2.2.base + i, rights t.1)) ∧
        (∀ x, x < 2 ^ 48 → (∀ h ∈ hs, ¬ (offset + pageBase h ≤ x ∧ x < offset + pageEnd h)) →
          s'.resolve x = s.resolve x) := by
  intro hs
  induction hs with
  | nil =>
    intro ros s hr _ _ _ _ _ _ _
    exact ⟨s, ros, rfl, hr, fun t ht => (nomatch ht), fun _ _ _ => rfl⟩
  | cons h hs ih =>
    intro ros s hr hap hread hlow hwl hrl hros hfree
    rw [List.pairwise_cons] at hap
    obtain ⟨a, ha, hac⟩ := action_eq (hread h (by simp))
    have hu48 : userTop ≤ 2 ^ 48 := by decide
    have hmod : (offset + pageBase h) % LARGE = 0 := by
      rw [Nat.add_mod, ho, pageBase_mod]; rfl
    have hE : offset + pageBase h + largePages h * LARGE = offset + pageEnd h := by
      unfold pageEnd; rw [Nat.add_assoc]
    have hlen : largePages h ≤ (if h.w then wf else ros).length := by
      cases hw : h.w with
      | true => rw [if_pos rfl]; exact hwl h (by simp) hw
      | false =>
        rw [if_neg (by decide)]
        unfold roPages at hrl
        rw [List.filter_cons, hw] at hrl
        simp only [Bool.not_false, if_true, totalPages_cons] at hrl
        exact Nat.le_trans (Nat.le_add_right _ _) hrl
    obtain ⟨s1, e1, e2, e3, e4⟩ := mapHdr_spec env hk h.w a (largePages h) wf ros (offset + pageBase h) s hr
      hmod (by rw [hE]; exact hlow h (by simp)) hlen
      (by cases h.w
          · rw [if_neg (by decide)]; exact hros
          · rw [if_pos rfl]; exact hwf)
      (by intro x x1 x2; rw [hE] at x2; exact hfree h (by simp) x x1 x2)
    rw [hE] at e4
    have hpages : ∀ (fs : List Frame) (q : Nat × Frame), q ∈ pagesAt (pageBase h) fs →
        (offset + q.1, q.2) ∈ pagesAt (offset + pageBase h) fs := by
      intro fs
      generalize pageBase h = b
      intro q
      induction fs generalizing b with
      | nil => intro x; cases x
      | cons f fs ih =>
        intro x
        rcases List.mem_cons.1 x with rfl | x
        · simp [pagesAt]
        · rw [pagesAt]
          have := ih (b + LARGE) x
          rw [← Nat.add_assoc] at this
          exact List.mem_cons_of_mem _ this
    have hrange : ∀ (fs : List Frame) (q : Nat × Frame), q ∈ pagesAt (pageBase h) (fs.take (largePages h)) →
        pageBase h ≤ q.1 ∧ q.1 + LARGE ≤ pageEnd h := by
      intro fs q hq
      obtain ⟨_, q1, q2, _⟩ := mem_pagesAt hq
      refine ⟨q1, Nat.le_trans q2 ?_⟩
      unfold pageEnd
      exact Nat.add_le_add_left (Nat.mul_le_mul_right _ (by rw [List.length_take]; exact Nat.min_le_left _ _)) _
    -- the rest
    have rest : ∀ ros', roPages hs ≤ ros'.length → (∀ f ∈ ros', f.size = LARGE ∧ f.base % LARGE = 0) →
        ∃ s' l, procAllocate env offset wf hs ros' s1 = .ok (s', l) ∧ Run env s' ∧
          (∀ t ∈ hdrPl wf hs ros', ∀ i, i < LARGE →
            s'.resolve (offset + t.2.1 + i) = .ok (t.2.2.base + i, rights t.1)) ∧
          (∀ x, x < 2 ^ 48 → (∀ h ∈ hs, ¬ (offset + pageBase h ≤ x ∧ x < offset + pageEnd h)) →
            s'.resolve x = s1.resolve x) := by
      intro ros' l1 l2
      refine ih ros' s1 e2 hap.2 (fun y hy => hread y (List.mem_cons_of_mem _ hy))
        (fun y hy => hlow y (List.mem_cons_of_mem _ hy)) (fun y hy => hwl y (List.mem_cons_of_mem _ hy)) l1 l2
        ?_
      intro y hy x x1 x2
      have h1 := hap.1 y hy
      unfold Apart at h1
      have h2 := hlow y (List.mem_cons_of_mem _ hy)
      rw [e4 x (by omega) (by omega)]
      exact hfree y (List.mem_cons_of_mem _ hy) x x1 x2
    -- what the rest leaves alone
    have keep : ∀ s' : VSpace, (∀ x, x < 2 ^ 48 → (∀ h ∈ hs, ¬ (offset + pageBase h ≤ x ∧ x < offset + pageEnd h)) →
          s'.resolve x = s1.resolve x) → ∀ (fs : List Frame) (_ : fs = if h.w then wf else ros)
          (q : Nat × Frame), q ∈ pagesAt (pageBase h) (fs.take (largePages h)) → ∀ i, i < LARGE →
          s'.resolve (offset + q.1 + i) = .ok (q.2.base + i, rights h) := by
      intro s' hs' fs hfs q hq i hi
      obtain ⟨q1, q2⟩ := hrange fs q hq
      have h2 := hlow h (by simp)
      rw [hs' _ (by omega) (by
        intro y hy hc
        have h1 := hap.1 y hy
        unfold Apart at h1
        omega)]
      rw [← hac]
      exact e3 (offset + q.1, q.2) (hpages _ q (by rw [← hfs]; exact hq)) i hi
    cases hw : h.w with
    | true =>
      rw [hw, if_pos rfl] at e1
      obtain ⟨s', l, g1, g2, g3, g4⟩ := rest ros (by
          unfold roPages at hrl ⊢
          rw [List.filter_cons, hw] at hrl
          exact hrl) hros
      refine ⟨s', l, ?_, g2, ?_, ?_⟩
      · rw [procAllocate, ha]
        simp only
        rw [hw, e1, Outcome.bind_ok]
        exact g1
      · intro t ht
        rw [hdrPl, if_pos hw] at ht
        rcases List.mem_append.1 ht with ht | ht
        · obtain ⟨q, hq, rfl⟩ := List.mem_map.1 ht
          exact keep s' g4 wf (by rw [hw]; rfl) q hq
        · exact g3 t ht
      · intro x hx hno
        rw [g4 x hx (fun y hy => hno y (List.mem_cons_of_mem _ hy)), e4 x hx (hno h (by simp))]
    | false =>
      rw [hw, if_neg (by decide)] at e1
      obtain ⟨s', l, g1, g2, g3, g4⟩ := rest (ros.drop (largePages h)) (by
          unfold roPages at hrl ⊢
          rw [List.filter_cons, hw] at hrl
          simp only [Bool.not_false, if_true, totalPages_cons] at hrl
          rw [List.length_drop]
          exact Nat.le_sub_of_add_le (by rw [Nat.add_comm]; exact hrl))
        (fun f hf => hros f (List.mem_of_mem_drop hf))
      refine ⟨s', l, ?_, g2, ?_, ?_⟩
      · rw [procAllocate, ha]
        simp only
        rw [hw, e1, Outcome.bind_ok]
        exact g1
      · intro t ht
        rw [hdrPl, if_neg (by rw [hw]; decide)] at ht
        rcases List.mem_append.1 ht with ht | ht
        · obtain ⟨q, hq, rfl⟩ := List.mem_map.1 ht
          exact keep s' g4 ros (by rw [hw]; rfl) q hq
        · exact g3 t ht
      · intro x hx hno
        rw [g4 x hx (fun y hy => hno y (List.mem_cons_of_mem _ hy)), e4 x hx (hno h (by simp))]

theorem hdrPl_append (wf : List Frame) (hs hs' : List Hdr) (ros : List Frame) {t : Hdr × Nat × Frame}
    (h : t ∈ hdrPl wf hs ros) : t ∈ hdrPl wf (hs ++ hs') ros := by
  induction hs generalizing ros with
  | nil => cases h
  | cons x hs ih =>
    rw [hdrPl] at h
    rw [List.cons_append, hdrPl]
    split at h
    · rename_i hw
      rw [if_pos hw]
      exact (List.mem_append.1 h).elim (List.mem_append_left _) fun h => List.mem_append_right _ (ih _ h)
    · rename_i hw
      rw [if_neg hw]
      exact (List.mem_append.1 h).elim (List.mem_append_left _) fun h => List.mem_append_right _ (ih _ h)

/-- The writeable pages are there, too. -/
theorem hdrPl_w (wf : List Frame) (hs : List Hdr) (ros : List Frame) {w : Hdr} (hw : w ∈ hs)
    (h : w.w = true) {q : Nat × Frame} (hq : q ∈ pagesAt (pageBase w) (wf.take (largePages w))) :
    (w, q) ∈ hdrPl wf hs ros := by
  induction hs generalizing ros with
  | nil => cases hw
  | cons x hs ih =>
    rw [hdrPl]
    rcases List.mem_cons.1 hw with rfl | hw
    · rw [if_pos h]
      exact List.mem_append_left _ (List.mem_map_of_mem hq)
    · split <;> exact List.mem_append_right _ (ih _ hw)

/-- The pages of read-only headers. -/
def roPl (hs : List Hdr) (ros : List Frame) : List (Nat × Frame) := (hdrPl [] hs ros).map (·.2)

theorem hdrPl_ro (wf : List Frame) (hs : List Hdr) (h : ∀ x ∈ hs, x.w = false) (ros : List Frame) :
    hdrPl wf hs ros = hdrPl [] hs ros := by
  induction hs generalizing ros with
  | nil => rfl
  | cons x hs ih =>
    rw [hdrPl, hdrPl, h x (by simp), if_neg (by decide), if_neg (by decide),
      ih fun y hy => h y (List.mem_cons_of_mem _ hy)]

theorem mem_hdrPl {wf : List Frame} {hs : List Hdr} (hro : ∀ x ∈ hs, x.w = false) {ros : List Frame}
    {t : Hdr × Nat × Frame} (h : t ∈ hdrPl wf hs ros) :
    t.1 ∈ hs ∧ t.2.2 ∈ ros ∧ pageBase t.1 ≤ t.2.1 ∧ t.2.1 + LARGE ≤ pageEnd t.1 ∧ t.2.1 % LARGE = 0 := by
  induction hs generalizing ros with
  | nil => cases h
  | cons x hs ih =>
    rw [hdrPl, hro x (by simp), if_neg (by decide)] at h
    rcases List.mem_append.1 h with h | h
    · obtain ⟨q, hq, rfl⟩ := List.mem_map.1 h
      obtain ⟨h1, h2, h3, h4⟩ := mem_pagesAt hq
      refine ⟨by simp, List.mem_of_mem_take h1, h2, Nat.le_trans h3 ?_, h4 (pageBase_mod x)⟩
      unfold pageEnd
      exact Nat.add_le_add_left (Nat.mul_le_mul_right _ (by rw [List.length_take]; exact Nat.min_le_left _ _)) _
    · obtain ⟨h1, h2, h3, h4, h5⟩ := ih (fun y hy => hro y (List.mem_cons_of_mem _ hy)) h
      exact ⟨List.mem_cons_of_mem _ h1, List.mem_of_mem_drop h2, h3, h4, h5⟩

theorem roPl_inj {hs : List Hdr} (hro : ∀ x ∈ hs, x.w = false) (hap : hs.Pairwise Apart) {ros : List Frame}
    (hn : (ros.map (·.base)).Nodup) :
    ∀ q ∈ roPl hs ros, ∀ q' ∈ roPl hs ros, (q.1 = q'.1 ∨ q.2.base = q'.2.base) → q = q' := by
  have hL : 0 < LARGE := by rw [LARGE_eq]; omega
  induction hs generalizing ros with
  | nil => intro q hq; cases hq
  | cons x hs ih =>
    rw [List.pairwise_cons] at hap
    have hro' := fun y hy => hro y (List.mem_cons_of_mem x hy)
    have hsp : ∀ q, q ∈ roPl (x :: hs) ros → q ∈ pagesAt (pageBase x) (ros.take (largePages x)) ∨
        q ∈ roPl hs (ros.drop (largePages x)) := by
      intro q hq
      unfold roPl at hq
      rw [hdrPl, hro x (by simp), if_neg (by decide), List.map_append, List.map_map] at hq
      rcases List.mem_append.1 hq with hq | hq
      · left
        obtain ⟨q', h1, h2⟩ := List.mem_map.1 hq
        rw [← h2]; exact h1
      · exact .inr hq
    have hnd : ∀ f ∈ ros.take (largePages x), ∀ f' ∈ ros.drop (largePages x), f.base ≠ f'.base := by
      intro f hf f' hf' e
      have : ((ros.take (largePages x) ++ ros.drop (largePages x)).map (·.base)).Nodup := by
        rw [List.take_append_drop]; exact hn
      rw [List.map_append, List.nodup_append] at this
      exact this.2.2 _ (List.mem_map_of_mem hf) _ (List.mem_map_of_mem hf') e
    have cross : ∀ q, q ∈ pagesAt (pageBase x) (ros.take (largePages x)) →
        ∀ q', q' ∈ roPl hs (ros.drop (largePages x)) → ¬ (q.1 = q'.1 ∨ q.2.base = q'.2.base) := by
      intro q hq q' hq' e
      obtain ⟨t, ht, rfl⟩ := List.mem_map.1 hq'
      obtain ⟨t1, t2, t3, _⟩ := mem_hdrPl hro' ht
      obtain ⟨a1, a2, a3, _⟩ := mem_pagesAt hq
      rcases e with e | e
      · have h1 := hap.1 _ t1
        unfold Apart at h1
        have h2 : pageBase x + (ros.take (largePages x)).length * LARGE ≤ pageEnd x := by
          unfold pageEnd
          exact Nat.add_le_add_left (Nat.mul_le_mul_right _ (by rw [List.length_take]; exact Nat.min_le_left _ _)) _
        omega
      · exact hnd _ a1 _ t2 e
    intro q hq q' hq' e
    rcases hsp q hq with h1 | h1 <;> rcases hsp q' hq' with h2 | h2
    · exact pagesAt_inj (by rw [List.map_take]; exact hn.sublist (List.take_sublist _ _)) _ q h1 q' h2 e
    · exact absurd e (cross q h1 q' h2)
    · exact absurd (e.imp Eq.symm Eq.symm) (cross q' h2 q h1)
    · exact ih hro' hap.2 (by rw [List.map_drop]; exact hn.sublist (List.drop_sublist _ _)) q h1 q' h2 e

theorem roPl_good {hs : List Hdr} (hro : ∀ x ∈ hs, x.w = false) (hap : hs.Pairwise Apart) {ros : List Frame}
    (hn : (ros.map (·.base)).Nodup) (hf : ∀ f ∈ ros, f.size = LARGE ∧ f.base % LARGE = 0) :
    GoodPl (roPl hs ros) :=
  ⟨fun q hq => by
    obtain ⟨t, ht, rfl⟩ := List.mem_map.1 hq
    obtain ⟨_, t2, _, _, t5⟩ := mem_hdrPl hro ht
    exact ⟨t5, hf _ t2⟩, roPl_inj hro hap hn⟩

/-- Every address of a read-only header is on one of its pages. -/
theorem hdrPl_cover {hs : List Hdr} (hro : ∀ x ∈ hs, x.w = false) {ros : List Frame}
    (hl : totalPages hs ≤ ros.length) {h : Hdr} (hh : h ∈ hs) {va : Nat} (h1 : pageBase h ≤ va)
    (h2 : va < pageEnd h) : ∃ q, (h, q) ∈ hdrPl [] hs ros ∧ q.1 ≤ va ∧ va < q.1 + LARGE := by
  induction hs generalizing ros with
  | nil => cases hh
  | cons x hs ih =>
    rw [totalPages_cons] at hl
    rw [hdrPl, hro x (by simp), if_neg (by decide)]
    rcases List.mem_cons.1 hh with rfl | hh
    · have e : (ros.take (largePages h)).length = largePages h := by
        rw [List.length_take]; exact Nat.min_eq_left (Nat.le_trans (Nat.le_add_right _ _) hl)
      obtain ⟨q, hq, a⟩ := pagesAt_cover (fs := ros.take (largePages h)) h1 (by rw [e]; exact h2)
      exact ⟨q, List.mem_append_left _ (List.mem_map_of_mem hq), a⟩
    · obtain ⟨q, hq, a⟩ := ih (fun y hy => hro y (List.mem_cons_of_mem _ hy)) (ros := ros.drop (largePages x))
        (by rw [List.length_drop]; exact Nat.le_sub_of_add_le (by rw [Nat.add_comm]; exact hl)) hh
      exact ⟨q, List.mem_append_right _ hq, a⟩

/-! ## Copying -/

theorem procLoad_ws (s : VSpace) (offset : Nat) (ros ws : List Hdr) (hw : ∀ h ∈ ws, h.w = true) (ro : Nat)
    (m : Mem) : procLoad s offset (ros ++ ws) ro m = procLoad s offset ros ro m := by
  induction ros generalizing ro m with
  | nil =>
    rw [List.nil_append]
    induction ws with
    | nil => rfl
    | cons w ws ih =>
      have := ih fun y hy => hw y (List.mem_cons_of_mem _ hy)
      simp only [procLoad, if_pos (hw w (by simp))] at this ⊢
      exact this
  | cons h hs ih =>
    rw [List.cons_append, procLoad, procLoad]
    split
    · exact ih ro m
    · congr 1
      funext m'
      exact ih _ _

theorem procLoad_spec (s : VSpace) (offset : Nat) (m0 : Mem) (pl : List (Nat × Frame)) (hg : GoodPl pl)
    (hres : ∀ q ∈ pl, ∀ i, i < LARGE → ∃ a, s.resolve (offset + q.1 + i) = .ok (q.2.base + i, a)) :
    ∀ (hs : List Hdr) (ro : Nat) (m : Mem) (G : Nat → Option UInt8), Rel pl m0 m G →
      (∀ h ∈ hs, h.w = false) → hs.Pairwise Apart → (∀ h ∈ hs, h.data.length ≤ h.memsz) →
      (∀ h ∈ hs, ∀ va, pageBase h ≤ va → va < pageEnd h → ∃ q ∈ pl, q.1 ≤ va ∧ va < q.1 + LARGE) →
      (∀ h ∈ hs, ro ≤ offset + pageBase h) →
      ∃ ro' m' G', procLoad s offset hs ro m = .ok (ro', m') ∧ Rel pl m0 m' G' ∧
        OnlyIn (pl.map (·.2)) m m' ∧ (∀ va, G' va = (fileByte hs va).or (G va)) ∧
        (ro' = ro ∨ ∃ h ∈ hs, ro' = offset + h.vaddr + h.data.length) ∧ ro ≤ ro' ∧
        (∀ h ∈ hs, offset + h.vaddr + h.data.length ≤ ro') := by
  intro hs
  induction hs with
  | nil =>
    intro ro m G hr _ _ _ _ _
    exact ⟨ro, m, G, rfl, hr, OnlyIn.refl _ _, fun _ => rfl, .inl rfl, Nat.le_refl _,
      fun _ h => (nomatch h)⟩
  | cons h hs ih =>
    intro ro m G hr hro hap hf hc hmin
    rw [List.pairwise_cons] at hap
    have hb := pageBase_le h
    have he := le_pageEnd h
    have hfit := hf h (by simp)
    obtain ⟨m1, c1, c2, c3⟩ := procCopy_spec s offset m0 pl hg hres h.data h.vaddr m G hr
      (fun va v1 v2 => hc h (by simp) va (by omega) (by omega))
    have hcm := fun y hy => hc y (List.mem_cons_of_mem h hy)
    obtain ⟨ro', m', G', e1, e2, e3, e4, e5, e6, e7⟩ := ih (offset + h.vaddr + h.data.length) m1 _ c2
      (fun y hy => hro y (List.mem_cons_of_mem _ hy)) hap.2 (fun y hy => hf y (List.mem_cons_of_mem _ hy)) hcm
      (fun y hy => by
        have := hap.1 y hy
        unfold Apart at this
        omega)
    refine ⟨ro', m', G', ?_, e2, c3.trans e3, ?_, ?_, ?_, ?_⟩
    · rw [procLoad, hro h (by simp), if_neg (by decide), c1, Outcome.bind_ok]
      exact e1
    · intro va
      rw [e4, fileByte]
      by_cases hin : h.vaddr ≤ va ∧ va < h.vaddr + h.data.length
      · rw [if_pos hin, fileByte_none, Option.none_or]
        · unfold overlay; rw [if_pos hin.1]
        · intro y hy hcov
          have := hap.1 y hy
          unfold Apart at this
          have := pageBase_le y
          omega
      · rw [if_neg hin, overlay_out hin]
    · right
      rcases e5 with e5 | ⟨y, hy, e5⟩
      · exact ⟨h, by simp, e5⟩
      · exact ⟨y, List.mem_cons_of_mem _ hy, e5⟩
    · have := hmin h (by simp)
      omega
    · intro y hy
      rcases List.mem_cons.1 hy with rfl | hy
      · exact e6
      · exact e7 y hy

theorem procRelocs_spec (s : VSpace) (offset ro : Nat) (m0 : Mem) (pl : List (Nat × Frame)) (hg : GoodPl pl)
    (hres : ∀ q ∈ pl, ∀ i, i < LARGE → ∃ a, s.resolve (offset + q.1 + i) = .ok (q.2.base + i, a)) :
    ∀ (rs : List Reloc) (m : Mem) (G : Nat → Option UInt8),
      (∀ r ∈ rs, r.relative = true ∧ offset + r.addend < 2 ^ 64 ∧ r.off % 8 = 0) →
      (∀ r ∈ rs, (offset + r.off < ro ∧ ∃ q ∈ pl, q.1 ≤ r.off ∧ r.off < q.1 + LARGE) ∨
        (ro ≤ offset + r.off ∧ ∀ q ∈ pl, q.1 + LARGE ≤ r.off)) →
      Rel pl m0 m G →
      ∃ m' G', procRelocs s offset ro rs m = .ok m' ∧ Rel pl m0 m' G' ∧ OnlyIn (pl.map (·.2)) m m' ∧
        ∀ q ∈ pl, ∀ i, i < LARGE → G' (q.1 + i) = (relocByte offset rs (q.1 + i)).or (G (q.1 + i)) := by
  intro rs
  induction rs with
  | nil => intro m G _ _ h; exact ⟨m, G, rfl, h, OnlyIn.refl _ _, fun _ _ _ _ => rfl⟩
  | cons r rs ih =>
    intro m G h1 h2 hr
    have h1' := fun x hx => h1 x (List.mem_cons_of_mem r hx)
    have h2' := fun x hx => h2 x (List.mem_cons_of_mem r hx)
    obtain ⟨ra, rb, rc⟩ := h1 r (by simp)
    rcases h2 r (by simp) with ⟨hlt, q, hq, q1, q2⟩ | ⟨hge, hno⟩
    · obtain ⟨a, ha⟩ := hres q hq (r.off - q.1) (by omega)
      have e : offset + q.1 + (r.off - q.1) = offset + r.off := by omega
      rw [e] at ha
      have hqm := (hg.page q hq).1
      have hend : r.off + (le64 (offset + r.addend)).length ≤ q.1 + LARGE := by
        rw [le64_length]
        rw [LARGE_eq] at *
        omega
      have hw := hr.write hg hq (d := r.off) (bs := le64 (offset + r.addend)) q1 hend
      have ho := onlyIn_write hq m (d := r.off) (bs := le64 (offset + r.addend)) q1 hend
      obtain ⟨m', G', e1, e2, e3, e4⟩ := ih _ _ h1' h2' hw
      refine ⟨m', G', ?_, e2, ho.trans e3, ?_⟩
      · rw [procRelocs]
        unfold procReloc
        simp only
        rw [if_neg (by omega), ha]
        simp only
        rw [if_pos ra]
        unfold relocValue
        rw [if_pos rb, Outcome.map_ok, Outcome.bind_ok]
        exact e1
      · intro q hq i hi
        rw [e4 q hq i hi, relocByte_cons, overlay_reloc, Option.or_assoc]
    · obtain ⟨m', G', e1, e2, e3, e4⟩ := ih m G h1' h2' hr
      refine ⟨m', G', ?_, e2, e3, ?_⟩
      · rw [procRelocs]
        unfold procReloc
        simp only
        rw [if_pos hge, Outcome.bind_ok]
        exact e1
      · intro q hq i hi
        rw [e4 q hq i hi, relocByte_cons]
        have : one offset r (q.1 + i) = none := by
          have := hno q hq
          unfold one; rw [if_neg (by omega)]
        rw [this]; simp

theorem roPages_eq {ros ws : List Hdr} (h1 : ∀ h ∈ ros, h.w = false) (h2 : ∀ h ∈ ws, h.w = true) :
    roPages (ros ++ ws) = totalPages ros := by
  unfold roPages
  rw [List.filter_append, List.filter_eq_self.2 (fun h hh => by rw [h1 h hh]; rfl),
    List.filter_eq_nil_iff.2 (fun h hh => by rw [h2 h hh]; decide), List.append_nil]

/-- One replica. -/
theorem procMake_spec (env : Env) (hk : env.pages4k = false) {offset : Nat} {ros ws : List Hdr}
    {rs : List Reloc} (g : GoodProgram offset ros ws rs) (wf : List Frame)
    (hwf : ∀ f ∈ wf, f.size = LARGE ∧ f.base % LARGE = 0) (hwl : ∀ h ∈ ws, largePages h ≤ wf.length)
    (s : VSpace) (fs : List Frame) (hrun : Run env s)
    (hfree : ∀ x, x < userTop → s.resolve x = .err .notMapped)
    (hfs : ∀ f ∈ fs, f.size = LARGE ∧ f.base % LARGE = 0) (hn : (fs.map (·.base)).Nodup)
    (hl : totalPages ros ≤ fs.length) (m : Mem) :
    ∃ s' m', procMake env offset (ros ++ ws) rs wf fs s m = .ok (s', m') ∧ OnlyIn fs m m' ∧
      (∀ h ∈ ros, ∀ va, Covers h va → ∃ p, InFrames fs p ∧
        s'.resolve (offset + va) = .ok (p, rights h) ∧ m' p = image offset (ros ++ ws) rs (m p) va) ∧
      (∀ h ∈ ws, ∀ q ∈ pagesAt (pageBase h) (wf.take (largePages h)), ∀ i, i < LARGE →
        s'.resolve (offset + q.1 + i) = .ok (q.2.base + i, rights h)) ∧
      (∀ x, x < userTop → (∀ h ∈ ros ++ ws, ¬ OnPageOf offset h x) →
        s'.resolve x = .err .notMapped) := by
  have hap := List.pairwise_append.1 g.apart'
  have hu48 : userTop ≤ 2 ^ 48 := by decide
  obtain ⟨s', l, a1, a2, a3, a4⟩ := procAllocate_spec env hk offset g.offset_aligned wf hwf (ros ++ ws) fs s
    hrun g.apart' g.readable g.low'
    (fun h hh hw => by
      rcases List.mem_append.1 hh with hh | hh
      · rw [g.ros_ro h hh] at hw; cases hw
      · exact hwl h hh)
    (by rw [roPages_eq g.ros_ro g.ws_w]; exact hl) hfs
    (fun h hh x _ x2 => hfree x (Nat.lt_of_lt_of_le x2 (g.low' h hh)))
  have hgp := roPl_good g.ros_ro hap.1 hn hfs
  have hmem : ∀ t, t ∈ hdrPl [] ros fs → t ∈ hdrPl wf (ros ++ ws) fs := by
    intro t ht
    apply hdrPl_append
    rw [hdrPl_ro wf ros g.ros_ro]
    exact ht
  have hres : ∀ q ∈ roPl ros fs, ∀ i, i < LARGE →
      ∃ a, s'.resolve (offset + q.1 + i) = .ok (q.2.base + i, a) := by
    intro q hq i hi
    obtain ⟨t, ht, rfl⟩ := List.mem_map.1 hq
    exact ⟨_, a3 t (hmem t ht) i hi⟩
  have hcov : ∀ h ∈ ros, ∀ va, pageBase h ≤ va → va < pageEnd h →
      ∃ q, (h, q) ∈ hdrPl [] ros fs ∧ q.1 ≤ va ∧ va < q.1 + LARGE :=
    fun h hh va v1 v2 => hdrPl_cover g.ros_ro hl hh v1 v2
  have hcov' : ∀ h ∈ ros, ∀ va, pageBase h ≤ va → va < pageEnd h →
      ∃ q ∈ roPl ros fs, q.1 ≤ va ∧ va < q.1 + LARGE := by
    intro h hh va v1 v2
    obtain ⟨q, q1, q2⟩ := hcov h hh va v1 v2
    exact ⟨q, List.mem_map.2 ⟨_, q1, rfl⟩, q2⟩
  obtain ⟨ro, m1, G1, l1, l2, l3, l4, l5, l6, l7⟩ := procLoad_spec s' offset m (roPl ros fs) hgp hres ros 0 m
    (fun _ => none) (fun _ _ _ _ => rfl) g.ros_ro hap.1 (fun h hh => g.fits h (by simp [hh])) hcov'
    (fun _ _ => Nat.zero_le _)
  obtain ⟨m2, G2, r1, r2, r3, r4⟩ := procRelocs_spec s' offset ro m (roPl ros fs) hgp hres rs m1 G1 g.relative
    (fun r hr => by
      rcases g.inside r hr with ⟨h, hh, i1, i2⟩ | ⟨h, hh, i1, i2, i3⟩
      · left
        have h1 := l7 h hh
        have h2 := pageBase_le h
        have h3 := le_pageEnd h
        have h4 := g.fits h (by simp [hh])
        exact ⟨by omega, hcov' h hh r.off (by omega) (by omega)⟩
      · right
        have h2 := pageBase_le h
        constructor
        · rcases l5 with e | ⟨y, hy, e⟩
          · omega
          · have h1 := hap.2.2 y hy h hh
            unfold Apart at h1
            have h3 := le_pageEnd y
            have h4 := g.fits y (by simp [hy])
            omega
        · intro q hq
          obtain ⟨t, ht, rfl⟩ := List.mem_map.1 hq
          obtain ⟨t1, _, _, t4, _⟩ := mem_hdrPl g.ros_ro ht
          have h1 := hap.2.2 _ t1 h hh
          unfold Apart at h1
          omega)
    l2
  have hsub : ∀ f ∈ (roPl ros fs).map (·.2), f ∈ fs := by
    intro f hf
    obtain ⟨q, hq, rfl⟩ := List.mem_map.1 hf
    obtain ⟨t, ht, rfl⟩ := List.mem_map.1 hq
    exact (mem_hdrPl g.ros_ro ht).2.1
  refine ⟨s', m2, ?_, (l3.trans r3).mono hsub, ?_, ?_, ?_⟩
  · unfold procMake
    rw [a1, Outcome.bind_ok]
    simp only
    rw [procLoad_ws _ _ _ _ g.ws_w, l1, Outcome.bind_ok]
    simp only
    rw [r1]
    rfl
  · intro h hh va hc
    have h2 := pageBase_le h
    have h3 := le_pageEnd h
    unfold Covers at hc
    have v1 : pageBase h ≤ va := by omega
    have v2 : va < pageEnd h := by omega
    obtain ⟨q, q1, q2, q3⟩ := hcov h hh va v1 v2
    have hq : q ∈ roPl ros fs := List.mem_map.2 ⟨_, q1, rfl⟩
    have e1 : offset + q.1 + (va - q.1) = offset + va := by omega
    have e2 : q.1 + (va - q.1) = va := by omega
    have hr := a3 (h, q) (hmem _ q1) (va - q.1) (by omega)
    simp only at hr
    rw [e1] at hr
    refine ⟨_, ⟨q.2, hsub _ (List.mem_map_of_mem hq), Nat.le_add_right _ _, by omega⟩, hr, ?_⟩
    rw [r2 q hq _ (by omega), r4 q hq _ (by omega), e2, l4, Option.or_none]
    unfold image
    rw [fileByte_mem g.apart' g.fits (h := h) (by simp [hh]) v1 v2,
      fileByte_mem hap.1 (fun y hy => g.fits y (by simp [hy])) hh v1 v2]
  · intro h hh q hq i hi
    exact a3 (h, q) (hdrPl_w wf _ _ (by simp [hh]) (g.ws_w h hh) hq) i hi
  · intro x hx hno
    rw [a4 x (by omega) (fun h hh hc => ?_), hfree x hx]
    apply hno h hh
    unfold OnPageOf
    have e : h.vaddr / LARGE * LARGE = pageBase h := by
      have := Nat.div_add_mod h.vaddr LARGE
      rw [Nat.mul_comm] at this
      unfold pageBase
      omega
    rw [e, ← pageEnd_eq]
    exact hc

theorem inFrames_disj {fs fs' : List Frame} (h : ∀ f ∈ fs ++ fs', f.base % LARGE = 0)
    (hn : ((fs ++ fs').map (·.base)).Nodup) {p : Nat} (h1 : InFrames fs p) : ¬ InFrames fs' p := by
  rintro ⟨f', hf', a', b'⟩
  obtain ⟨f, hf, a, b⟩ := h1
  rw [List.map_append, List.nodup_append] at hn
  have := mul_gap (h f (by simp [hf])) (h f' (by simp [hf']))
    (hn.2.2 _ (List.mem_map_of_mem hf) _ (List.mem_map_of_mem hf'))
  omega

/-- All replicas. -/
theorem procAll_spec (env : Env) (hk : env.pages4k = false) {offset : Nat} {ros ws : List Hdr}
    {rs : List Reloc} (g : GoodProgram offset ros ws rs) (wf : List Frame)
    (hwf : ∀ f ∈ wf, f.size = LARGE ∧ f.base % LARGE = 0) (hwl : ∀ h ∈ ws, largePages h ≤ wf.length) :
    ∀ (reps : List (VSpace × List Frame)) (m : Mem),
      (∀ r ∈ reps, Run env r.1 ∧ ∀ x, x < userTop → r.1.resolve x = .err .notMapped) →
      (∀ f ∈ reps.flatMap (·.2), f.size = LARGE ∧ f.base % LARGE = 0) →
      ((reps.flatMap (·.2)).map (·.base)).Nodup → (∀ r ∈ reps, totalPages ros ≤ r.2.length) →
      ∃ vs m', procAll env offset (ros ++ ws) rs wf reps m = .ok (vs, m') ∧ vs.length = reps.length ∧
        OnlyIn (reps.flatMap (·.2)) m m' ∧
        ∀ s ∈ vs,
          (∀ h ∈ ros, ∀ va, Covers h va → ∃ p, InFrames (reps.flatMap (·.2)) p ∧
            s.resolve (offset + va) = .ok (p, rights h) ∧ m' p = image offset (ros ++ ws) rs (m p) va) ∧
          (∀ h ∈ ws, ∀ q ∈ pagesAt (pageBase h) (wf.take (largePages h)), ∀ i, i < LARGE →
            s.resolve (offset + q.1 + i) = .ok (q.2.base + i, rights h)) ∧
          (∀ x, x < userTop → (∀ h ∈ ros ++ ws, ¬ OnPageOf offset h x) →
            s.resolve x = .err .notMapped) := by
  intro reps
  induction reps with
  | nil =>
    intro m _ _ _ _
    exact ⟨[], m, rfl, rfl, OnlyIn.refl _ _, fun _ h => (nomatch h)⟩
  | cons r reps ih =>
    intro m h1 h2 h3 h4
    obtain ⟨s, fs⟩ := r
    rw [List.flatMap_cons] at h2 h3
    simp only at h2 h3
    have h3' := h3
    rw [List.map_append, List.nodup_append] at h3'
    obtain ⟨s', m1, p1, p2, p3, p4, p5⟩ := procMake_spec env hk g wf hwf hwl s fs
      (h1 (s, fs) (by simp)).1 (h1 (s, fs) (by simp)).2 (fun f hf => h2 f (List.mem_append_left _ hf)) h3'.1
      (h4 (s, fs) (by simp)) m
    obtain ⟨vs, m2, q1, q2, q3, q4⟩ := ih m1 (fun r hr => h1 r (List.mem_cons_of_mem _ hr))
      (fun f hf => h2 f (List.mem_append_right _ hf)) h3'.2.1
      (fun r hr => h4 r (List.mem_cons_of_mem _ hr))
    have hal : ∀ f ∈ fs ++ reps.flatMap (·.2), f.base % LARGE = 0 := fun f hf => (h2 f hf).2
    refine ⟨s' :: vs, m2, ?_, by simp [q2], ?_, ?_⟩
    · rw [procAll, p1, Outcome.bind_ok]
      simp only
      rw [q1]
      rfl
    · rw [List.flatMap_cons]
      exact (p2.mono fun f hf => List.mem_append_left _ hf).trans
        (q3.mono fun f hf => List.mem_append_right _ hf)
    · intro v hv
      rw [List.flatMap_cons]
      rcases List.mem_cons.1 hv with rfl | hv
      · refine ⟨fun h hh va hc => ?_, p4, p5⟩
        obtain ⟨p, x1, x2, x3⟩ := p3 h hh va hc
        have ho := q3 p (inFrames_disj hal h3 x1)
        obtain ⟨f, hf, y⟩ := x1
        exact ⟨p, ⟨f, List.mem_append_left _ hf, y⟩, x2, by rw [ho]; exact x3⟩
      · obtain ⟨y1, y2, y3⟩ := q4 v hv
        refine ⟨fun h hh va hc => ?_, y2, y3⟩
        obtain ⟨p, x1, x2, x3⟩ := y1 h hh va hc
        have hnot : ¬ InFrames fs p := fun hx => inFrames_disj hal h3 hx x1
        rw [p2 p hnot] at x3
        obtain ⟨f, hf, y⟩ := x1
        exact ⟨p, ⟨f, List.mem_append_right _ hf, y⟩, x2, x3⟩

end NRK.Load
