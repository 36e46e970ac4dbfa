import Verif.Load.LoaderLemmas

/-!
# Helper lemmas for the program loader: the data part
-/

namespace NRK.Load

open NRK.Mem (Frame LARGE LARGE_eq roundUp)
open NRK.VSpace (VSpace Env MapAction mapFrame Run userTop PageSize)
open Spec

/-! ## Loading the data -/

theorem dataAllocate_ros (ros ws : List Hdr) (h : ∀ x ∈ ros, x.w = false) (fs : List Frame) :
    dataAllocate (ros ++ ws) fs = dataAllocate ws fs := by
  induction ros with
  | nil => rfl
  | cons x ros ih =>
    rw [List.cons_append, dataAllocate, h x (by simp), if_neg (by decide)]
    exact ih fun y hy => h y (List.mem_cons_of_mem _ hy)

theorem dataLoad_ros (fr : List (Nat × Frame)) (ros ws : List Hdr) (h : ∀ x ∈ ros, x.w = false) (m : Mem) :
    dataLoad fr (ros ++ ws) m = dataLoad fr ws m := by
  induction ros with
  | nil => rfl
  | cons x ros ih =>
    rw [List.cons_append, dataLoad, h x (by simp), if_neg (by decide)]
    exact ih fun y hy => h y (List.mem_cons_of_mem _ hy)

theorem dataRelocs_nil (offset : Nat) (rs : List Reloc) (m : Mem) : dataRelocs offset [] rs m = .ok m := by
  induction rs with
  | nil => rfl
  | cons r rs ih => rw [dataRelocs, dataReloc, Outcome.bind_ok]; exact ih

theorem dataRelocs_spec (m0 : Mem) (offset : Nat) (ho : offset % LARGE = 0) (base : Nat)
    (hb : base % LARGE = 0) (fs : List Frame) (hg : GoodPl (pagesAt base fs)) :
    ∀ (rs : List Reloc) (m : Mem) (G : Nat → Option UInt8),
      (∀ r ∈ rs, r.relative = true ∧ offset + r.addend < 2 ^ 64 ∧ r.off % 8 = 0) →
      (∀ r ∈ rs, r.off + 8 ≤ base ∨
        (base ≤ r.off ∧ r.off < base + fs.length * LARGE ∧ r.off % LARGE ≠ 0)) →
      Rel (pagesAt base fs) m0 m G →
      ∃ m' G', dataRelocs offset (pagesAt base fs) rs m = .ok m' ∧ Rel (pagesAt base fs) m0 m' G' ∧
        OnlyIn fs m m' ∧ ∀ va, base ≤ va → G' va = (relocByte offset rs va).or (G va) := by
  intro rs
  induction rs with
  | nil => intro m G _ _ h; exact ⟨m, G, rfl, h, OnlyIn.refl _ _, fun _ _ => rfl⟩
  | cons r rs ih =>
    intro m G h1 h2 hr
    have h1' := fun x hx => h1 x (List.mem_cons_of_mem _ hx)
    have h2' := fun x hx => h2 x (List.mem_cons_of_mem _ hx)
    obtain ⟨ra, rb, rc⟩ := h1 r (by simp)
    rcases h2 r (by simp) with h | ⟨i1, i2, i3⟩
    · have hs := dataReloc_skip offset r ho (pagesAt base fs) m (fun q hq =>
        ⟨(hg.page q hq).1, (hg.page q hq).2.1, by have := (mem_pagesAt hq).2.1; omega⟩)
      obtain ⟨m', G', e1, e2, e3, e4⟩ := ih m G h1' h2' hr
      refine ⟨m', G', by rw [dataRelocs, hs, Outcome.bind_ok]; exact e1, e2, e3, fun va hva => ?_⟩
      rw [e4 va hva, relocByte_cons]
      have : one offset r va = none := by unfold one; rw [if_neg (by omega)]
      rw [this]; simp
    · obtain ⟨m1, s1, s2, s3⟩ := dataReloc_spec m0 _ hg offset ho r ra rb rc i3 fs base m G hb
        (fun _ h => h) hr i1 i2
      rw [pagesAt_frames] at s3
      obtain ⟨m', G', e1, e2, e3, e4⟩ := ih m1 _ h1' h2' s2
      refine ⟨m', G', by rw [dataRelocs, s1, Outcome.bind_ok]; exact e1, e2, s3.trans e3, fun va hva => ?_⟩
      rw [e4 va hva, relocByte_cons, overlay_reloc, Option.or_assoc]

/-- The pages of the writeable part. -/
def dataPl (ws : List Hdr) (supply : List Frame) : List (Nat × Frame) :=
  match ws with
  | [] => []
  | w :: _ => pagesAt (pageBase w) (supply.take (largePages w))

theorem dataPl_frames {ws : List Hdr} {supply : List Frame} {q : Nat × Frame} (h : q ∈ dataPl ws supply) :
    q.2 ∈ supply := by
  cases ws with
  | nil => cases h
  | cons w ws => exact List.mem_of_mem_take (mem_pagesAt h).1

theorem totalPages_one (w : Hdr) : totalPages [w] = largePages w := by
  unfold totalPages
  rw [List.map_cons, List.map_nil, List.sum_cons, List.sum_nil, Nat.add_zero, pages_eq]

theorem makeData_spec {offset : Nat} {ros ws : List Hdr} {rs : List Reloc} (g : GoodProgram offset ros ws rs)
    {supply : List Frame} (hf : ∀ f ∈ supply, f.size = LARGE ∧ f.base % LARGE = 0)
    (hn : (supply.map (·.base)).Nodup) (he : totalPages ws ≤ supply.length) (m : Mem) :
    ∃ m', makeData offset (ros ++ ws) rs supply m = .ok ((dataPl ws supply).map (·.2), m') ∧
      GoodPl (dataPl ws supply) ∧ OnlyIn supply m m' ∧
      (dataPl ws supply).length = totalPages ws ∧
      ∀ q ∈ dataPl ws supply, ∀ i, i < LARGE →
        m' (q.2.base + i) = image offset (ros ++ ws) rs (m (q.2.base + i)) (q.1 + i) := by
  cases ws with
  | nil =>
    refine ⟨m, ?_, ⟨fun _ h => (nomatch h), fun _ h => (nomatch h)⟩, OnlyIn.refl _ _, rfl,
      fun _ h => nomatch h⟩
    unfold makeData
    rw [dataAllocate_ros _ _ g.ros_ro, dataAllocate, Outcome.bind_ok]
    simp only
    rw [dataLoad_ros _ _ _ g.ros_ro, dataLoad, Outcome.bind_ok, dataRelocs_nil]
    rfl
  | cons w ws =>
    have : ws = [] := by
      have := g.ws_one
      simp only [List.length_cons] at this
      exact List.length_eq_zero_iff.1 (by omega)
    subst this
    have hw : w.w = true := g.ws_w w (by simp)
    have htot := totalPages_one w
    have hle : largePages w ≤ supply.length := by rw [← htot]; exact he
    have hlen : (supply.take (largePages w)).length = largePages w := by
      rw [List.length_take]; omega
    obtain ⟨fs, hfs⟩ : ∃ fs, fs = supply.take (largePages w) := ⟨_, rfl⟩
    have hpl : dataPl [w] supply = pagesAt (pageBase w) fs := by rw [hfs]; rfl
    have htk := takePages_eq (pageBase w) _ _ hle
    have hsub : ∀ f ∈ fs, f ∈ supply := fun f h => List.mem_of_mem_take (hfs ▸ h)
    have hnd : (fs.map (·.base)).Nodup := by
      rw [hfs, List.map_take]; exact hn.sublist (List.take_sublist _ _)
    have hmod := pageBase_mod w
    have hbase := pageBase_le w
    have hend := le_pageEnd w
    unfold pageEnd at hend
    have hfit := g.fits w (by simp)
    have hap : ∀ h ∈ ros, h.vaddr + h.memsz ≤ pageBase w := fun h hh =>
      Nat.le_trans (le_pageEnd h) ((List.pairwise_append.1 g.apart').2.2 h hh w (by simp))
    have hfb : ∀ va, pageBase w ≤ va → va < pageBase w + largePages w * LARGE →
        fileByte (ros ++ [w]) va = overlay (fun _ => none) w.vaddr w.data va :=
      fun va h1 h2 => fileByte_mem g.apart' g.fits (h := w) (by simp) h1 h2
    have hda : dataAllocate [w] supply = .ok (pagesAt (pageBase w) fs, supply.drop (largePages w)) := by
      rw [dataAllocate, if_pos hw, htk, Outcome.bind_ok, dataAllocate, Outcome.map_ok, ← hfs]
      simp only [List.append_nil]
    clear htk
    rw [← hfs] at hlen
    rw [hpl, htot]
    generalize pageBase w = base at *
    generalize largePages w = n at *
    have hgp : GoodPl (pagesAt base fs) := goodPl_pagesAt hnd (fun f h => hf f (hsub f h)) hmod
    have hr0 : Rel (pagesAt base fs) m m (fun _ => none) := fun _ _ _ _ => rfl
    obtain ⟨m1, c1, c2, c3⟩ := dataCopy_spec m _ hgp fs base m _ w.vaddr w.data (fun _ h => h) hr0
      (.inl hbase) (by rw [hlen]; omega)
    obtain ⟨m2, G, r1, r2, r3, r4⟩ := dataRelocs_spec m offset g.offset_aligned base hmod fs hgp rs m1 _
      g.relative
      (fun r hr => by
        rcases g.inside r hr with ⟨h, hh, i1, i2⟩ | ⟨h, hh, i1, i2, i3⟩
        · left
          have := hap h hh
          have hf := g.fits h (by simp [hh])
          omega
        · rw [List.mem_singleton] at hh; subst hh
          right
          rw [hlen]
          exact ⟨by omega, by omega, i3⟩)
      c2
    rw [pagesAt_frames] at c3
    refine ⟨m2, ?_, hgp, (c3.trans r3).mono hsub, ?_, ?_⟩
    · unfold makeData
      rw [dataAllocate_ros _ _ g.ros_ro, hda, Outcome.bind_ok]
      simp only
      rw [dataLoad_ros _ _ _ g.ros_ro, dataLoad, if_pos hw, c1, Outcome.bind_ok, dataLoad, Outcome.bind_ok,
        r1]
      rfl
    · have e := congrArg List.length (pagesAt_frames fs base)
      rw [List.length_map] at e
      rw [e, hlen]
    · intro q hq i hi
      obtain ⟨_, q1, q2, _⟩ := mem_pagesAt hq
      rw [hlen] at q2
      rw [r2 q hq i hi, r4 _ (by omega)]
      unfold image
      rw [hfb _ (by omega) (by omega)]

end NRK.Load
