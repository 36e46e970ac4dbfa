import Verif.Heap.HeapSpec
import Verif.Machine.CacheLemmas
import Verif.Mem.AllocProps

/-! # Lemmas about the kernel heap -/

namespace NRK.Heap

open NRK.Mem NRK.Mem.Spec NRK.Machine

def Slot.block (s : Slot) : Block := ⟨s.addr, s.size⟩

/-- The bytes that are set aside for an object. -/
def res (k : HCfg) (o : Obj) : Block :=
  if o.size ≤ k.maxAlloc then ⟨o.ptr, k.cls o.size⟩
  else if o.size ≤ LARGE then ⟨o.ptr, LARGE⟩
  else ⟨o.ptr, o.size⟩

/-- A block of physical memory as the kernel sees it. -/
def shift (n : Nat) (b : Block) : Block := ⟨n + b.start, b.len⟩

/-- Everything that may not overlap. -/
def all (k : HCfg) (h : Heap) (objs : List Obj) : List Block :=
  (h.nc.held ++ h.tc.held).map (shift k.kb) ++ h.zone.free.map Slot.block ++ h.zone.pages.map (metaOf k) ++
    objs.map (res k)

/-- The slots that objects of up to 128 KiB occupy. -/
def slots (k : HCfg) (objs : List Obj) : List Slot :=
  (objs.filter fun o => decide (o.size ≤ k.maxAlloc)).map fun o => ⟨o.ptr, k.cls o.size⟩

structure Inv (k : HCfg) (init : List Block) (h : Heap) (objs : List Obj) : Prop where
  nwf : h.nc.Wf
  twf : h.tc.Wf
  node : h.nc.node = h.tc.node
  disj : AllDisjoint (all k h objs)
  below : ∀ b ∈ all k h objs, b.start + b.len ≤ h.sbrk
  sbrk : h.sbrk % LARGE = 0
  live : (slots k objs).Perm h.zone.live
  cons : (phys k h objs).Perm init
  mid : ∀ o ∈ objs, k.maxAlloc < o.size → o.size ≤ LARGE → k.kb ≤ o.ptr ∧ o.ptr % LARGE = 0
  al : ∀ o ∈ objs, 0 < o.size ∧ 0 < o.align ∧ LARGE % o.align = 0 ∧ o.ptr % o.align = 0
  back : ∀ o ∈ objs, LARGE < o.size → ∀ i < o.size, Backed h.mapped (o.ptr + i)

theorem Same.refl (m : Nat → UInt8) (objs : List Obj) : Same m m objs := fun _ _ _ _ => rfl

theorem Same.trans {m m' m'' : Nat → UInt8} {objs : List Obj} (h : Same m m' objs) (h' : Same m' m'' objs) :
    Same m m'' objs := fun o ho i hi => (h' o ho i hi).trans (h o ho i hi)

theorem scribble_keep {k : HCfg} {pages : List Frame} {noise mem : Nat → UInt8} {a : Nat}
    (h : ∀ f ∈ pages, ¬ (metaOf k f).Has a) : scribble k pages noise mem a = mem a := by
  unfold scribble
  rw [if_neg]
  intro e
  obtain ⟨f, hf, hb⟩ := List.any_eq_true.1 e
  rw [Bool.and_eq_true, decide_eq_true_eq, decide_eq_true_eq] at hb
  exact h f hf hb

theorem obj_inside {k : HCfg} (hk : k.Ok) (o : Obj) : Inside o.block (res k o) := by
  unfold res
  split
  · rename_i h
    exact inside_of_le (Nat.le_refl _) (by show o.ptr + o.size ≤ o.ptr + k.cls o.size; have := (hk.le _ h).1; omega)
  · split
    · rename_i h
      exact inside_of_le (Nat.le_refl _) (by show o.ptr + o.size ≤ o.ptr + LARGE; omega)
    · exact fun _ h => h

theorem pairwise_split {l₁ l₂ : List Block} (h : AllDisjoint (l₁ ++ l₂)) {a b : Block} (ha : a ∈ l₁) (hb : b ∈ l₂) :
    Disjoint a b := (List.pairwise_append.1 h).2.2 a ha b hb

/-- Metadata never overlaps an object. -/
theorem Inv.scribble {k : HCfg} (hk : k.Ok) {init : List Block} {h : Heap} {objs : List Obj}
    (inv : Inv k init h objs) (noise : Nat → UInt8) :
    Same h.mem (scribble k h.zone.pages noise h.mem) objs := by
  intro o ho i hi
  refine scribble_keep (fun f hf hm => ?_)
  have hd := inv.disj
  unfold all at hd
  refine pairwise_split hd (List.mem_append_right _ (List.mem_map_of_mem hf)) (List.mem_map_of_mem ho)
    (o.ptr + i) ⟨hm, obj_inside hk o _ ⟨?_, ?_⟩⟩
  · exact Nat.le_add_right _ _
  · show o.ptr + i < o.ptr + o.size; omega

/-- What is handed out of disjoint memory does not overlap. -/
theorem allDisjoint_count {l l' : List Block} (h : AllDisjoint l) (p : ∀ b, l'.count b ≤ l.count b) :
    AllDisjoint l' := by
  induction l' generalizing l with
  | nil => exact List.Pairwise.nil
  | cons a as ih =>
    have ha : a ∈ l := by
      have := p a
      rw [List.count_cons_self] at this
      exact List.count_pos_iff.1 (by omega)
    have hp : l.Perm (a :: l.erase a) := List.perm_cons_erase ha
    have h' := allDisjoint_perm h hp
    have hc : ∀ b, as.count b ≤ (l.erase a).count b := by
      intro b
      have h1 := p b
      have h2 := hp.count_eq b
      rw [List.count_cons] at h1 h2
      omega
    refine List.Pairwise.cons (fun b hb => ?_) (ih (List.Pairwise.of_cons h') hc)
    have : b ∈ l.erase a := by
      have := hc b
      have h2 := List.count_pos_iff.2 hb
      exact List.count_pos_iff.1 (by omega)
    exact (List.pairwise_cons.1 h').1 b this

/-- Blocks inside one block of a disjoint list may replace it. -/
theorem allDisjoint_refine {l l' : List Block} {b : Block} {bs : List Block} (h : AllDisjoint (b :: l))
    (hbs : AllDisjoint bs) (hin : ∀ c ∈ bs, Inside c b) (hp : l'.Perm (bs ++ l)) : AllDisjoint l' := by
  refine allDisjoint_perm (l := bs ++ l) ?_ hp.symm
  refine List.pairwise_append.2 ⟨hbs, List.Pairwise.of_cons h, fun c hc d hd => ?_⟩
  exact ((List.pairwise_cons.1 h).1 d hd).mono (hin c hc) (fun _ h => h)

theorem slotsOf_disjoint (k : HCfg) (f : Frame) (c : Nat) : AllDisjoint ((slotsOf k f c).map Slot.block) := by
  unfold AllDisjoint slotsOf
  rw [List.map_map, List.pairwise_map]
  refine List.Pairwise.imp ?_ (List.pairwise_lt_range)
  intro i j hij
  refine disjoint_of_le ?_
  show k.kb + f.base + i * c + c ≤ k.kb + f.base + j * c
  have : (i + 1) * c ≤ j * c := Nat.mul_le_mul_right c hij
  rw [Nat.add_mul, Nat.one_mul] at this
  omega

theorem mem_slotsOf {k : HCfg} {f : Frame} {c : Nat} {s : Slot} (h : s ∈ slotsOf k f c) :
    s.size = c ∧ k.kb + f.base ≤ s.addr ∧ s.addr + s.size ≤ k.kb + f.base + (f.size - k.overhead) := by
  unfold slotsOf at h
  obtain ⟨i, hi, rfl⟩ := List.mem_map.1 h
  rw [List.mem_range] at hi
  have h1 : (i + 1) * c ≤ ((f.size - k.overhead) / c) * c := Nat.mul_le_mul_right c hi
  have h2 := Nat.div_mul_le_self (f.size - k.overhead) c
  rw [Nat.add_mul, Nat.one_mul] at h1
  exact ⟨rfl, by show k.kb + f.base ≤ k.kb + f.base + i * c; omega,
    by show k.kb + f.base + i * c + c ≤ _; omega⟩

theorem shift_perm {n : Nat} {l l' : List Block} (h : l.Perm l') : (l.map (shift n)).Perm (l'.map (shift n)) :=
  h.map _

theorem sizes_of_blocks {fs : List Frame} {as : List Nat} {n : Nat}
    (h : fs.map (·.block) = as.map (fun a => (⟨a, n⟩ : Block))) : (fs.map (·.size)).sum = as.length * n := by
  have e : fs.map (·.size) = (fs.map (·.block)).map (·.len) := by rw [List.map_map]; rfl
  rw [e, h, List.map_map]
  clear e h
  induction as with
  | nil => simp
  | cons a as ih =>
    have : (List.map ((fun x : Block => x.len) ∘ fun a => (⟨a, n⟩ : Block)) (a :: as)) =
        n :: List.map ((fun x : Block => x.len) ∘ fun a => (⟨a, n⟩ : Block)) as := rfl
    rw [this, List.sum_cons, ih, List.length_cons, Nat.add_mul, Nat.one_mul, Nat.add_comm]

theorem maybeRefill_inv {nc tc nc' tc' : MCache} {nB nL : Nat} {o : Outcome Unit} (h1 : nc.Wf) (h2 : tc.Wf)
    (hn : nc.node = tc.node) (h : maybeRefill false nc tc nB nL = (o, nc', tc')) :
    o ≠ .panic ∧ nc'.Wf ∧ tc'.Wf ∧ nc'.node = nc.node ∧ tc'.node = tc.node ∧
      (nc'.held ++ tc'.held).Perm (nc.held ++ tc.held) := by
  unfold maybeRefill at h
  split at h
  · have := (c21_refill false nc tc h1 h2 hn nB nL).1
    rw [h] at this
    exact ⟨this, refill_spec h1 h2 hn h⟩
  · cases h
    exact ⟨(by intro e; cases e), h1, h2, rfl, rfl, List.Perm.refl _⟩

/-- A big allocation moves pages from the caches to the new object. -/
theorem allocBig_spec {nc tc nc' tc' : MCache} {sbrk size sbrk' : Nat} {o : Outcome (Nat × List Frame)}
    (h1 : nc.Wf) (h2 : tc.Wf) (hn : nc.node = tc.node)
    (h : allocBig false nc tc sbrk size = (o, sbrk', nc', tc')) (ho : o ≠ .panic) :
    nc'.Wf ∧ tc'.Wf ∧ nc'.node = nc.node ∧ tc'.node = tc.node ∧
    ((∃ fs, o = .ok (sbrk, fs) ∧ sbrk' = (mapBig sbrk size).2.2 ∧ (fs.map (·.size)).sum = (mapBig sbrk size).2.1 ∧
        (nc'.held ++ tc'.held ++ fs.map Frame.block).Perm (nc.held ++ tc.held)) ∨
      (∃ e, o = .err e ∧ sbrk' = sbrk ∧ (nc'.held ++ tc'.held).Perm (nc.held ++ tc.held))) := by
  unfold allocBig at h
  simp only at h
  split at h
  · rename_i nc1 tc1 e
    obtain ⟨_, a1, a2, a3, a4, a5⟩ := maybeRefill_inv h1 h2 hn e
    have hmb : (mapBig sbrk size).2.1 = (mapBigPages size).2 * LARGE + (mapBigPages size).1 * BASE := rfl
    generalize (mapBig sbrk size).2.1 = tot at *
    generalize (mapBig sbrk size).2.2 = nxt at *
    generalize (mapBigPages size).2 = lp at *
    generalize (mapBigPages size).1 = bp at *
    obtain ⟨b1, b2⟩ := takeLarge_spec lp tc1 a2
    by_cases hl : lp ≤ tc1.lp.length
    · obtain ⟨ls, e1, e2, e3⟩ := b1 hl
      rw [e1] at h
      simp only at h
      have w1 : MCache.Wf { tc1 with lp := tc1.lp.drop lp } :=
        ⟨a2.capB, by show (tc1.lp.drop lp).length ≤ tc1.capL; rw [List.length_drop]; have := a2.capL; omega, a2.alB,
          fun a ha => a2.alL a (List.mem_of_mem_drop ha)⟩
      obtain ⟨c1, c2⟩ := takeBase_spec bp _ w1
      by_cases hb : bp ≤ tc1.bp.length
      · obtain ⟨bs, f1, f2, f3⟩ := c1 hb
        rw [f1] at h
        cases h
        have w2 : MCache.Wf { tc1 with bp := tc1.bp.drop bp, lp := tc1.lp.drop lp } :=
          ⟨by show (tc1.bp.drop bp).length ≤ tc1.capB; rw [List.length_drop]; have := a2.capB; omega, w1.capL,
            fun a ha => a2.alB a (List.mem_of_mem_drop ha), w1.alL⟩
        refine ⟨a1, w2, a3, a4, Or.inl ⟨_, rfl, rfl, ?_, ?_⟩⟩
        · rw [List.map_append, List.sum_append, sizes_of_blocks e2, sizes_of_blocks f2, hmb, List.length_take,
            List.length_take, Nat.min_eq_left hl]
          show lp * LARGE + min bp tc1.bp.length * BASE = _
          rw [Nat.min_eq_left hb]
        · refine List.Perm.trans ?_ a5
          have p1 := drop_take_perm tc1.bp bp
          have p2 := drop_take_perm tc1.lp lp
          have q1 := p1.map (fun a => (⟨a, BASE⟩ : Block))
          have q2 := p2.map (fun a => (⟨a, LARGE⟩ : Block))
          rw [List.map_append, show List.map Frame.block ls = _ from e2, show List.map Frame.block bs = _ from f2]
          rw [List.perm_iff_count]
          intro b
          have r1 := q1.count_eq b
          have r2 := q2.count_eq b
          simp only [MCache.held, List.map_append, List.count_append] at *
          omega
      · have := c2 (by show tc1.bp.length < bp; omega)
        cases ht : takeBase { tc1 with lp := tc1.lp.drop lp } bp with
        | mk o' t =>
          rw [ht] at h this
          cases this
          cases h
          exact absurd rfl ho
    · have := b2 (by omega)
      cases ht : takeLarge tc1 lp with
      | mk o' t =>
        rw [ht] at h this
        cases this
        cases h
        exact absurd rfl ho
  · rename_i er nc1 tc1 e
    obtain ⟨_, a1, a2, a3, a4, a5⟩ := maybeRefill_inv h1 h2 hn e
    cases h
    exact ⟨a1, a2, a3, a4, Or.inr ⟨_, rfl, rfl, a5⟩⟩
  · cases h
    exact absurd rfl ho

theorem place_backed (fs : List Frame) : ∀ at_ a, at_ ≤ a → a < at_ + (fs.map (·.size)).sum → Backed (place at_ fs) a := by
  induction fs with
  | nil =>
    intro at_ a h1 h2
    simp only [List.map_nil, List.sum_nil] at h2
    omega
  | cons f fs ih =>
    intro at_ a h1 h2
    simp only [List.map_cons, List.sum_cons] at h2
    by_cases h : a < at_ + f.size
    · exact ⟨_, List.mem_cons_self, h1, h⟩
    · obtain ⟨m, hm, h3, h4⟩ := ih (at_ + f.size) a (by omega) (by omega)
      exact ⟨m, List.mem_cons_of_mem _ hm, h3, h4⟩

theorem place_blocks (fs : List Frame) : ∀ at_, (place at_ fs).map (fun m => m.2.block) = fs.map Frame.block := by
  induction fs with
  | nil => intro at_; rfl
  | cons f fs ih =>
    intro at_
    show f.block :: _ = f.block :: _
    rw [ih]

/-- Only the caches change, and they keep the same memory. -/
theorem Inv.caches {k : HCfg} {init : List Block} {h : Heap} {objs : List Obj} (inv : Inv k init h objs)
    {nc tc : MCache} (w1 : nc.Wf) (w2 : tc.Wf) (hn : nc.node = tc.node)
    (p : (nc.held ++ tc.held).Perm (h.nc.held ++ h.tc.held)) : Inv k init { h with nc := nc, tc := tc } objs := by
  have hp : (all k { h with nc := nc, tc := tc } objs).Perm (all k h objs) := by
    unfold all
    exact ((shift_perm p).append_right _).append_right _ |>.append_right _
  refine ⟨w1, w2, hn, allDisjoint_perm inv.disj hp.symm, fun b hb => inv.below b (hp.subset hb), inv.sbrk, inv.live, ?_,
    inv.mid, inv.al, inv.back⟩
  refine List.Perm.trans ?_ inv.cons
  unfold phys
  exact ((p.append_right _).append_right _).append_right _

theorem slots_cons_small {k : HCfg} {o : Obj} {objs : List Obj} (h : o.size ≤ k.maxAlloc) :
    slots k (o :: objs) = ⟨o.ptr, k.cls o.size⟩ :: slots k objs := by
  unfold slots
  rw [List.filter_cons_of_pos (by simpa using h)]
  rfl

theorem slots_cons_other {k : HCfg} {o : Obj} {objs : List Obj} (h : ¬ o.size ≤ k.maxAlloc) :
    slots k (o :: objs) = slots k objs := by
  unfold slots
  rw [List.filter_cons_of_neg (by simpa using h)]

theorem mid_cons_mid {k : HCfg} {o : Obj} {objs : List Obj} (h : k.maxAlloc < o.size ∧ o.size ≤ LARGE) :
    midBlocks k (o :: objs) = ⟨o.ptr - k.kb, LARGE⟩ :: midBlocks k objs := by
  unfold midBlocks
  rw [List.filter_cons_of_pos (by simpa using h)]
  rfl

theorem mid_cons_other {k : HCfg} {o : Obj} {objs : List Obj} (h : ¬ (k.maxAlloc < o.size ∧ o.size ≤ LARGE)) :
    midBlocks k (o :: objs) = midBlocks k objs := by
  unfold midBlocks
  rw [List.filter_cons_of_neg (by simpa using h)]

/-- A slot is handed out. -/
theorem Inv.slotOut {k : HCfg} (hk : k.Ok) {init : List Block} {h : Heap} {objs : List Obj} (inv : Inv k init h objs)
    {s : Slot} (hs : s ∈ h.zone.free) {size align : Nat} (h0 : 0 < size) (hz : size ≤ k.maxAlloc)
    (hc : s.size = k.cls size) (ha0 : 0 < align) (haL : LARGE % align = 0) (ha : s.addr % align = 0)
    (mem : Nat → UInt8) :
    Inv k init { h with zone := { h.zone with free := h.zone.free.erase s, live := s :: h.zone.live }, mem := mem }
      (⟨s.addr, size, align⟩ :: objs) := by
  have hsm : ((⟨s.addr, size, align⟩ : Obj)).size ≤ k.maxAlloc := hz
  have hr : res k ⟨s.addr, size, align⟩ = s.block := by
    unfold res
    rw [if_pos hsm]
    show (⟨s.addr, k.cls size⟩ : Block) = ⟨s.addr, s.size⟩
    rw [hc]
  have hp : (all k { h with zone := { h.zone with free := h.zone.free.erase s, live := s :: h.zone.live }, mem := mem }
      (⟨s.addr, size, align⟩ :: objs)).Perm (all k h objs) := by
    have e := (List.perm_cons_erase hs).map Slot.block
    rw [List.perm_iff_count]
    intro b
    have e := e.count_eq b
    simp only [all, List.map_cons, hr, List.count_append, List.count_cons] at *
    omega
  refine ⟨inv.nwf, inv.twf, inv.node, allDisjoint_perm inv.disj hp.symm, fun b hb => inv.below b (hp.subset hb),
    inv.sbrk, ?_, ?_, ?_, ?_, ?_⟩
  · rw [slots_cons_small hsm]
    show (⟨s.addr, k.cls size⟩ :: _ : List Slot).Perm (s :: _)
    rw [← hc]
    exact inv.live.cons _
  · have : phys k { h with zone := { h.zone with free := h.zone.free.erase s, live := s :: h.zone.live }, mem := mem }
        (⟨s.addr, size, align⟩ :: objs) = phys k h objs := by
      unfold phys
      rw [mid_cons_other (by show ¬ (k.maxAlloc < size ∧ _); omega)]
    rw [this]
    exact inv.cons
  · intro o ho h1 h2
    rcases List.mem_cons.1 ho with rfl | ho
    · exact absurd hsm (by omega)
    · exact inv.mid o ho h1 h2
  · intro o ho
    rcases List.mem_cons.1 ho with rfl | ho
    · exact ⟨h0, ha0, haL, ha⟩
    · exact inv.al o ho
  · intro o ho h1
    rcases List.mem_cons.1 ho with rfl | ho
    · have h1 : LARGE < size := h1
      have := hk.large
      omega
    · exact inv.back o ho h1

theorem res_mid {k : HCfg} {o : Obj} (h1 : k.maxAlloc < o.size) (h2 : o.size ≤ LARGE) : res k o = ⟨o.ptr, LARGE⟩ := by
  unfold res
  rw [if_neg (by omega), if_pos h2]

theorem res_big {k : HCfg} (hk : k.Ok) {o : Obj} (h2 : LARGE < o.size) : res k o = ⟨o.ptr, o.size⟩ := by
  have := hk.large
  unfold res
  rw [if_neg (by omega), if_neg (by omega)]

theorem mod_trans {a b n : Nat} (h0 : n % b = 0) (h : a % n = 0) : a % b = 0 :=
  Nat.mod_eq_zero_of_dvd (Nat.dvd_trans (Nat.dvd_of_mod_eq_zero h0) (Nat.dvd_of_mod_eq_zero h))

theorem add_mod_zero {a b n : Nat} (h1 : a % n = 0) (h2 : b % n = 0) : (a + b) % n = 0 := by
  rw [Nat.add_mod, h1, h2]; simp

/-- A large page is handed out. -/
theorem Inv.pageOut {k : HCfg} (hk : k.Ok) {init : List Block} {h : Heap} {objs : List Obj}
    (inv : Inv k init h objs) {f : Frame} {tc : MCache} (ht : h.tc.allocLarge = (.ok f, tc)) {size align : Nat}
    (h1 : k.maxAlloc < size) (h2 : size ≤ LARGE) (ha0 : 0 < align) (haL : LARGE % align = 0) :
    Inv k init { h with tc := tc } (⟨k.kb + f.base, size, align⟩ :: objs) := by
  obtain ⟨w, hn, hc⟩ := takeOne_spec (large := true) inv.twf ht
  obtain ⟨g, hg, hok, hp⟩ : ∃ f_1, (Outcome.ok f : Outcome Frame) = Outcome.ok f_1 ∧ PageOk f_1 ∧
      (tc.held ++ [f_1.block]).Perm h.tc.held := by
    rcases hc with h | ⟨h, _⟩
    · exact h
    · cases h
  cases hg
  have hsz : f.size = LARGE ∧ f.base % LARGE = 0 := by
    unfold MCache.allocLarge at ht
    split at ht
    · cases ht
    · rename_i a as hb
      have ha := inv.twf.alL a (by rw [hb]; exact List.mem_cons_self)
      rw [new_large ha] at ht
      cases ht
      exact ⟨rfl, ha⟩
  have hr : res k ⟨k.kb + f.base, size, align⟩ = shift k.kb f.block := by
    rw [res_mid h1 h2]
    show (⟨k.kb + f.base, LARGE⟩ : Block) = ⟨k.kb + f.base, f.size⟩
    rw [hsz.1]
  have hpa : (all k { h with tc := tc } (⟨k.kb + f.base, size, align⟩ :: objs)).Perm (all k h objs) := by
    have e := shift_perm (n := k.kb) hp
    rw [List.perm_iff_count]
    intro b
    have e := e.count_eq b
    simp only [all, List.map_cons, hr, List.map_append, List.count_append, List.count_cons, List.map_nil,
      List.count_nil] at *
    omega
  refine ⟨inv.nwf, w, inv.node.trans hn.symm, allDisjoint_perm inv.disj hpa.symm,
    fun b hb => inv.below b (hpa.subset hb), inv.sbrk, ?_, ?_, ?_, ?_, ?_⟩
  · rw [slots_cons_other (by show ¬ size ≤ k.maxAlloc; omega)]
    exact inv.live
  · refine List.Perm.trans ?_ inv.cons
    unfold phys
    rw [mid_cons_mid ⟨h1, h2⟩]
    have hb : (⟨k.kb + f.base - k.kb, LARGE⟩ : Block) = f.block := by
      rw [Nat.add_sub_cancel_left, ← hsz.1]; rfl
    show (h.nc.held ++ tc.held ++ _ ++ ((⟨k.kb + f.base - k.kb, LARGE⟩ : Block) :: _) ++ _).Perm _
    rw [hb, List.perm_iff_count]
    intro b
    have e := hp.count_eq b
    simp only [List.count_append, List.count_cons, List.count_nil] at *
    omega
  · intro o ho g1 g2
    rcases List.mem_cons.1 ho with rfl | ho
    · exact ⟨Nat.le_add_right _ _, add_mod_zero hk.kb hsz.2⟩
    · exact inv.mid o ho g1 g2
  · intro o ho
    rcases List.mem_cons.1 ho with rfl | ho
    · exact ⟨by show 0 < size; omega, ha0, haL, mod_trans haL (add_mod_zero hk.kb hsz.2)⟩
    · exact inv.al o ho
  · intro o ho g1
    rcases List.mem_cons.1 ho with rfl | ho
    · have g1 : LARGE < size := g1
      omega
    · exact inv.back o ho g1

/-- A region of the address space is handed out. -/
theorem Inv.bigOut {k : HCfg} (hk : k.Ok) {init : List Block} {h : Heap} {objs : List Obj}
    (inv : Inv k init h objs) {fs : List Frame} {nc tc : MCache} {size align : Nat} (h1 : LARGE < size)
    (w1 : nc.Wf) (w2 : tc.Wf) (hn : nc.node = tc.node)
    (hs : (fs.map (·.size)).sum = (mapBig h.sbrk size).2.1)
    (hp : (nc.held ++ tc.held ++ fs.map Frame.block).Perm (h.nc.held ++ h.tc.held))
    (ha0 : 0 < align) (haL : LARGE % align = 0) :
    Inv k init { h with
      nc := nc, tc := tc, sbrk := (mapBig h.sbrk size).2.2, mapped := place h.sbrk fs ++ h.mapped }
      (⟨h.sbrk, size, align⟩ :: objs) := by
  obtain ⟨m1, m2, m3, m4⟩ := c23_map_big h.sbrk size
  have m1 : (mapBig h.sbrk size).1 = h.sbrk := m1
  rw [m1] at m3
  have hr := res_big hk (o := ⟨h.sbrk, size, align⟩) h1
  have hle : h.sbrk ≤ (mapBig h.sbrk size).2.2 := by omega
  have hcnt : ∀ b, ((nc.held ++ tc.held).map (shift k.kb)).count b ≤
      ((h.nc.held ++ h.tc.held).map (shift k.kb)).count b := by
    intro b
    have e := (shift_perm (n := k.kb) hp).count_eq b
    rw [List.map_append, List.count_append] at e
    omega
  have hold : ∀ b, ((nc.held ++ tc.held).map (shift k.kb) ++ h.zone.free.map Slot.block ++
      h.zone.pages.map (metaOf k) ++ objs.map (res k)).count b ≤ (all k h objs).count b := by
    intro b
    have := hcnt b
    unfold all
    simp only [List.count_append] at *
    omega
  have hmem : ∀ b ∈ ((nc.held ++ tc.held).map (shift k.kb) ++ h.zone.free.map Slot.block ++
      h.zone.pages.map (metaOf k) ++ objs.map (res k)), b ∈ all k h objs := by
    intro b hb
    have h1 := List.count_pos_iff.2 hb
    have := hold b
    exact List.count_pos_iff.1 (by omega)
  have hpa : (all k { h with
      nc := nc, tc := tc, sbrk := (mapBig h.sbrk size).2.2, mapped := place h.sbrk fs ++ h.mapped }
      (⟨h.sbrk, size, align⟩ :: objs)).Perm ((⟨h.sbrk, size⟩ : Block) ::
      ((nc.held ++ tc.held).map (shift k.kb) ++ h.zone.free.map Slot.block ++
      h.zone.pages.map (metaOf k) ++ objs.map (res k))) := by
    rw [List.perm_iff_count]
    intro b
    simp only [all, List.map_cons, hr, List.count_append, List.count_cons]
    omega
  refine ⟨w1, w2, hn, ?_, ?_, m4 inv.sbrk, ?_, ?_, ?_, ?_, ?_⟩
  · refine allDisjoint_perm ?_ hpa.symm
    refine List.Pairwise.cons (fun b hb => ?_) (allDisjoint_count inv.disj hold)
    exact disjoint_of_ge (inv.below b (hmem b hb))
  · intro b hb
    rcases List.mem_cons.1 (hpa.subset hb) with rfl | hb
    · show h.sbrk + size ≤ (mapBig h.sbrk size).2.2
      omega
    · exact Nat.le_trans (inv.below b (hmem b hb)) hle
  · have := hk.large
    rw [slots_cons_other (by show ¬ size ≤ k.maxAlloc; omega)]
    exact inv.live
  · refine List.Perm.trans ?_ inv.cons
    unfold phys
    rw [mid_cons_other (by show ¬ (_ ∧ size ≤ LARGE); omega)]
    show (nc.held ++ tc.held ++ _ ++ _ ++ (place h.sbrk fs ++ h.mapped).map _).Perm _
    rw [List.map_append, place_blocks, List.perm_iff_count]
    intro b
    have e := hp.count_eq b
    simp only [List.count_append] at *
    omega
  · intro o ho g1 g2
    rcases List.mem_cons.1 ho with rfl | ho
    · have g2 : size ≤ LARGE := g2
      omega
    · exact inv.mid o ho g1 g2
  · intro o ho
    rcases List.mem_cons.1 ho with rfl | ho
    · exact ⟨by show 0 < size; omega, ha0, haL, mod_trans haL inv.sbrk⟩
    · exact inv.al o ho
  · intro o ho g1 i hi
    rcases List.mem_cons.1 ho with rfl | ho
    · have hi : i < size := hi
      obtain ⟨m, hm, e1, e2⟩ := place_backed fs h.sbrk (h.sbrk + i) (Nat.le_add_right _ _) (by rw [hs]; omega)
      exact ⟨m, List.mem_append_left _ hm, e1, e2⟩
    · obtain ⟨m, hm, e1, e2⟩ := inv.back o ho g1 i hi
      exact ⟨m, List.mem_append_right _ hm, e1, e2⟩

theorem Zone.allocate_some {k : HCfg} {z z' : Zone} {size align pick a : Nat}
    (h : z.allocate k size align pick = some (a, z')) :
    ∃ s ∈ z.free, s.size = k.cls size ∧ s.addr % align = 0 ∧ a = s.addr ∧
      z' = { z with free := z.free.erase s, live := s :: z.live } := by
  unfold Zone.allocate at h
  split at h
  · rename_i s hs
    cases h
    have := List.mem_of_getElem? hs
    unfold Zone.fits at this
    rw [List.mem_filter, Bool.and_eq_true, decide_eq_true_eq, decide_eq_true_eq] at this
    exact ⟨s, this.1, this.2.1, this.2.2, rfl, rfl⟩
  · cases h

/-- `try_alloc`. -/
theorem Inv.tryAlloc {k : HCfg} (hk : k.Ok) {init : List Block} {h h' : Heap} {objs : List Obj}
    (inv : Inv k init h objs) {size align : Nat} {e : Env} {o : Outcome Nat} (h0 : 0 < size) (ha0 : 0 < align)
    (haL : LARGE % align = 0) (ht : h.tryAlloc k size align e = (o, h')) (ho : o ≠ .panic) :
    Same h.mem h'.mem objs ∧
    ((∃ p, o = .ok p ∧ Inv k init h' (⟨p, size, align⟩ :: objs)) ∨
      (∃ er, o = .err er ∧ (size ≤ LARGE → er = .cacheExhausted) ∧ Inv k init h' objs)) := by
  unfold Heap.tryAlloc at ht
  split at ht
  · rename_i hz
    have hz : size ≤ k.maxAlloc := by
      unfold allocatorFor at hz
      split at hz
      · assumption
      · split at hz <;> cases hz
    split at ht
    · rename_i a z hza
      cases ht
      obtain ⟨s, h1, h2, h3, rfl, rfl⟩ := Zone.allocate_some hza
      exact ⟨inv.scribble hk _, Or.inl ⟨_, rfl, inv.slotOut hk h1 h0 hz h2 ha0 haL h3 _⟩⟩
    · cases ht
      exact ⟨Same.refl _ _, Or.inr ⟨_, rfl, fun _ => rfl, inv⟩⟩
  · rename_i hz
    have hz : k.maxAlloc < size ∧ size ≤ LARGE := by
      unfold allocatorFor at hz
      split at hz
      · cases hz
      · split at hz
        · constructor <;> omega
        · cases hz
    split at ht
    · rename_i f tc hf
      cases ht
      exact ⟨Same.refl _ _, Or.inl ⟨_, rfl, inv.pageOut hk hf hz.1 hz.2 ha0 haL⟩⟩
    · rename_i er tc hf
      cases ht
      obtain ⟨w, hn, hc⟩ := takeOne_spec (large := true) inv.twf hf
      rcases hc with ⟨f, e, _⟩ | ⟨e, rfl⟩
      · cases e
      · cases e
        exact ⟨Same.refl _ _, Or.inr ⟨_, rfl, fun _ => rfl, inv⟩⟩
    · cases ht
      exact absurd rfl ho
  · rename_i hz
    have hz : LARGE < size := by
      unfold allocatorFor at hz
      split at hz
      · cases hz
      · split at hz
        · cases hz
        · omega
    split at ht
    · rename_i a fs sbrk nc tc hb
      cases ht
      obtain ⟨w1, w2, n1, n2, hc⟩ := allocBig_spec inv.nwf inv.twf inv.node hb (by intro e; cases e)
      rcases hc with ⟨fs', e, rfl, hs, hp⟩ | ⟨_, e, _⟩
      · cases e
        exact ⟨Same.refl _ _, Or.inl ⟨_, rfl,
          inv.bigOut hk hz w1 w2 (n1.trans (inv.node.trans n2.symm)) hs hp ha0 haL⟩⟩
      · cases e
    · rename_i er sbrk nc tc hb
      cases ht
      obtain ⟨w1, w2, n1, n2, hc⟩ := allocBig_spec inv.nwf inv.twf inv.node hb (by intro e; cases e)
      rcases hc with ⟨fs', e, _⟩ | ⟨er', e, rfl, hp⟩
      · cases e
      · cases e
        exact ⟨Same.refl _ _, Or.inr ⟨_, rfl, (fun hle => by omega),
          inv.caches w1 w2 (n1.trans (inv.node.trans n2.symm)) hp⟩⟩
    · cases ht
      exact absurd rfl ho

theorem zonePage_spec {k : HCfg} {tc tc' : MCache} {size : Nat} {f : Frame} (hw : tc.Wf)
    (h : zonePage k tc size = (.ok f, tc')) :
    tc'.Wf ∧ tc'.node = tc.node ∧ (tc'.held ++ [f.block]).Perm tc.held ∧ BASE ≤ f.size := by
  have key : ∀ large, takeOne tc large = (.ok f, tc') →
      tc'.Wf ∧ tc'.node = tc.node ∧ (tc'.held ++ [f.block]).Perm tc.held ∧ BASE ≤ f.size := by
    intro large ht
    obtain ⟨w, hn, hc⟩ := takeOne_spec hw ht
    rcases hc with ⟨g, e, hok, hp⟩ | ⟨e, _⟩
    · cases e
      refine ⟨w, hn, hp, ?_⟩
      rw [BASE_eq]
      rcases hok.1 with e | e <;> rw [e] <;> decide
    · cases e
  unfold zonePage at h
  split at h
  · exact key false h
  · exact key true h

/-- A page is given to the slab allocator. -/
theorem Inv.refillZone {k : HCfg} (hk : k.Ok) {init : List Block} {h h' : Heap} {objs : List Obj}
    (inv : Inv k init h objs) {size : Nat} {e : Env} {o : Outcome Unit}
    (ht : h.refillZone k size e = (o, h')) (ho : o ≠ .panic) :
    Same h.mem h'.mem objs ∧ Inv k init h' objs := by
  unfold Heap.refillZone at ht
  split at ht
  · rename_i f tc hf
    cases ht
    obtain ⟨w, hn, hp, hsz⟩ := zonePage_spec inv.twf hf
    have hov := hk.over
    have hcount : ∀ c, (all k h objs).count c = (shift k.kb f.block ::
        ((h.nc.held ++ tc.held).map (shift k.kb) ++ h.zone.free.map Slot.block ++ h.zone.pages.map (metaOf k) ++
          objs.map (res k))).count c := by
      intro c
      have e := (shift_perm (n := k.kb) hp).count_eq c
      simp only [all, List.map_append, List.map_cons, List.map_nil, List.count_append, List.count_cons,
        List.count_nil] at *
      omega
    have hold := allDisjoint_perm inv.disj (List.perm_iff_count.2 hcount)
    have hin : ∀ c ∈ metaOf k f :: (slotsOf k f (k.cls size)).map Slot.block, Inside c (shift k.kb f.block) := by
      intro c hc
      rcases List.mem_cons.1 hc with rfl | hc
      · refine inside_of_le ?_ ?_
        · show k.kb + f.base ≤ k.kb + f.base + (f.size - k.overhead); omega
        · show k.kb + f.base + (f.size - k.overhead) + k.overhead ≤ k.kb + f.base + f.size; omega
      · obtain ⟨s, hs, rfl⟩ := List.mem_map.1 hc
        obtain ⟨_, h1, h2⟩ := mem_slotsOf hs
        refine inside_of_le h1 ?_
        show s.addr + s.size ≤ k.kb + f.base + f.size
        omega
    have hnew : AllDisjoint (metaOf k f :: (slotsOf k f (k.cls size)).map Slot.block) := by
      refine List.Pairwise.cons (fun c hc => ?_) (slotsOf_disjoint k f _)
      obtain ⟨s, hs, rfl⟩ := List.mem_map.1 hc
      obtain ⟨_, h1, h2⟩ := mem_slotsOf hs
      exact disjoint_of_ge h2
    have hpa : (all k { h with
        tc := tc, zone := h.zone.refill k f size, mem := NRK.Heap.scribble k (f :: h.zone.pages) e.noise h.mem } objs).Perm
        ((metaOf k f :: (slotsOf k f (k.cls size)).map Slot.block) ++
        ((h.nc.held ++ tc.held).map (shift k.kb) ++ h.zone.free.map Slot.block ++ h.zone.pages.map (metaOf k) ++
          objs.map (res k))) := by
      rw [List.perm_iff_count]
      intro c
      simp only [all, Zone.refill, List.map_append, List.map_cons, List.count_append, List.count_cons]
      omega
    have hdisj := allDisjoint_refine hold hnew hin hpa
    have hinv : Inv k init { h with
        tc := tc, zone := h.zone.refill k f size, mem := NRK.Heap.scribble k (f :: h.zone.pages) e.noise h.mem } objs := by
      refine ⟨inv.nwf, w, inv.node.trans hn.symm, hdisj, ?_, inv.sbrk, inv.live, ?_, inv.mid, inv.al, inv.back⟩
      · intro b hb
        have hmem : ∀ c ∈ shift k.kb f.block ::
            ((h.nc.held ++ tc.held).map (shift k.kb) ++ h.zone.free.map Slot.block ++ h.zone.pages.map (metaOf k) ++
              objs.map (res k)), c.start + c.len ≤ h.sbrk := by
          intro c hc
          refine inv.below c ?_
          have := List.count_pos_iff.2 hc
          rw [← hcount] at this
          exact List.count_pos_iff.1 this
        have hfb := hmem _ List.mem_cons_self
        have hfb : k.kb + f.base + f.size ≤ h.sbrk := hfb
        show b.start + b.len ≤ h.sbrk
        rcases List.mem_append.1 (hpa.subset hb) with hb | hb
        · rcases List.mem_cons.1 hb with rfl | hb
          · show k.kb + f.base + (f.size - k.overhead) + k.overhead ≤ h.sbrk
            omega
          · obtain ⟨s, hs, rfl⟩ := List.mem_map.1 hb
            obtain ⟨_, h1, h2⟩ := mem_slotsOf hs
            show s.addr + s.size ≤ h.sbrk
            omega
        · exact hmem b (List.mem_cons_of_mem _ hb)
      · refine List.Perm.trans ?_ inv.cons
        unfold phys
        rw [List.perm_iff_count]
        intro b
        have e := hp.count_eq b
        simp only [Zone.refill, List.map_cons, List.count_append, List.count_cons, List.count_nil] at *
        omega
    refine ⟨?_, hinv⟩
    intro ob hob i hi
    refine scribble_keep (fun g hg hm => ?_)
    have hd := hdisj
    unfold all at hd
    refine pairwise_split hd (List.mem_append_right _ (List.mem_map_of_mem (a := g) hg)) (List.mem_map_of_mem hob)
      (ob.ptr + i) ⟨hm, obj_inside hk ob _ ⟨?_, ?_⟩⟩
    · exact Nat.le_add_right _ _
    · show ob.ptr + i < ob.ptr + ob.size; omega
  · rename_i er tc hf
    cases ht
    refine ⟨Same.refl _ _, ?_⟩
    have key : ∀ large, takeOne h.tc large = (.err er, tc) → tc = h.tc := by
      intro large hl
      obtain ⟨_, _, hc⟩ := takeOne_spec inv.twf hl
      rcases hc with ⟨f, e, _⟩ | ⟨_, e⟩
      · cases e
      · exact e
    have : tc = h.tc := by
      unfold zonePage at hf
      split at hf
      · exact key false hf
      · exact key true hf
    subst this
    exact inv
  · cases ht
    exact absurd rfl ho

/-- `try_refill`. -/
theorem Inv.tryRefill {k : HCfg} (hk : k.Ok) {init : List Block} {h h' : Heap} {objs : List Obj}
    (inv : Inv k init h objs) {size : Nat} {er : KError} {e : Env} {o : Outcome Unit}
    (ht : h.tryRefill k size er e = (o, h')) (ho : o ≠ .panic) :
    Same h.mem h'.mem objs ∧ Inv k init h' objs := by
  unfold Heap.tryRefill at ht
  split at ht
  · split at ht
    · split at ht
      · rename_i nc tc hm
        obtain ⟨_, w1, w2, n1, n2, hp⟩ := maybeRefill_inv inv.nwf inv.twf inv.node hm
        exact (inv.caches w1 w2 (n1.trans (inv.node.trans n2.symm)) hp).refillZone hk ht ho
      · rename_i er' nc tc hm
        cases ht
        obtain ⟨_, w1, w2, n1, n2, hp⟩ := maybeRefill_inv inv.nwf inv.twf inv.node hm
        exact ⟨Same.refl _ _, inv.caches w1 w2 (n1.trans (inv.node.trans n2.symm)) hp⟩
      · cases ht
        exact absurd rfl ho
    · cases ht
      exact absurd rfl ho
  · split at ht
    rename_i o' nc tc hm
    cases ht
    obtain ⟨w1, w2, n1, n2, hp⟩ := refill_spec inv.nwf inv.twf inv.node hm
    exact ⟨Same.refl _ _, inv.caches w1 w2 (n1.trans (inv.node.trans n2.symm)) hp⟩

/-- `alloc`. -/
theorem Inv.allocLoop {k : HCfg} (hk : k.Ok) {init : List Block} {size align : Nat} {e : Env} (h0 : 0 < size)
    (ha0 : 0 < align) (haL : LARGE % align = 0) (n : Nat) : ∀ {h h' : Heap} {objs : List Obj}
    {o : Outcome (Option Nat)}, Inv k init h objs → Heap.allocLoop k size align e n h = (o, h') → o ≠ .panic →
    Same h.mem h'.mem objs ∧
    ((∃ p, o = .ok (some p) ∧ Inv k init h' (⟨p, size, align⟩ :: objs)) ∨
      (o = .ok none ∧ Inv k init h' objs)) := by
  induction n with
  | zero =>
    intro h h' objs o inv ht ho
    cases ht
    exact ⟨Same.refl _ _, Or.inr ⟨rfl, inv⟩⟩
  | succ n ih =>
    intro h h' objs o inv ht ho
    unfold Heap.allocLoop at ht
    split at ht
    · rename_i a h1 e1
      cases ht
      obtain ⟨s, hc⟩ := inv.tryAlloc hk h0 ha0 haL e1 (by intro e; cases e)
      rcases hc with ⟨p, e, hi⟩ | ⟨_, e, _⟩
      · cases e
        exact ⟨s, Or.inl ⟨_, rfl, hi⟩⟩
      · cases e
    · rename_i er h1 e1
      obtain ⟨s, hc⟩ := inv.tryAlloc hk h0 ha0 haL e1 (by intro e; cases e)
      rcases hc with ⟨p, e, hi⟩ | ⟨_, e, _, hi⟩
      · cases e
      · split at ht
        · rename_i h2 e2
          obtain ⟨s2, i2⟩ := hi.tryRefill hk e2 (by intro e; cases e)
          obtain ⟨s3, r⟩ := ih i2 ht ho
          exact ⟨s.trans (s2.trans s3), r⟩
        · rename_i er2 h2 e2
          cases ht
          obtain ⟨s2, i2⟩ := hi.tryRefill hk e2 (by intro e; cases e)
          exact ⟨s.trans s2, Or.inr ⟨rfl, i2⟩⟩
        · cases ht
          exact absurd rfl ho
    · cases ht
      exact absurd rfl ho

/-- An object is no longer counted. -/
theorem erase_perm {objs : List Obj} {o : Obj} (h : o ∈ objs) : objs.Perm (o :: objs.erase o) :=
  List.perm_cons_erase h

theorem slots_perm {k : HCfg} {l l' : List Obj} (h : l.Perm l') : (slots k l).Perm (slots k l') :=
  (h.filter _).map _

theorem mid_perm {k : HCfg} {l l' : List Obj} (h : l.Perm l') : (midBlocks k l).Perm (midBlocks k l') :=
  (h.filter _).map _

/-- `dealloc`. -/
theorem Inv.dealloc {k : HCfg} (hk : k.Ok) {init : List Block} {h h' : Heap} {objs : List Obj}
    (inv : Inv k init h objs) {ob : Obj} (hob : ob ∈ objs) {e : Env} {o : Outcome Unit}
    (ht : h.dealloc k ob.ptr ob.size ob.align e = (o, h')) (ho : o ≠ .panic) :
    o = .ok () ∧ Same h.mem h'.mem objs ∧ Inv k init h' (objs.erase ob) := by
  have hpe := erase_perm hob
  have hsub : ∀ q ∈ objs.erase ob, q ∈ objs := fun q hq => List.mem_of_mem_erase hq
  have hlive := (slots_perm (k := k) hpe).symm.trans inv.live
  unfold Heap.dealloc at ht
  by_cases hz : ob.size ≤ k.maxAlloc
  · rw [if_pos hz] at ht
    rw [slots_cons_small hz] at hlive
    have hr : res k ob = (⟨ob.ptr, k.cls ob.size⟩ : Slot).block := by unfold res; rw [if_pos hz]; rfl
    have hmem : (⟨ob.ptr, k.cls ob.size⟩ : Slot) ∈ h.zone.live := hlive.subset List.mem_cons_self
    have e1 : h.zone.deallocate k ob.ptr ob.size = some { h.zone with
        free := ⟨ob.ptr, k.cls ob.size⟩ :: h.zone.free, live := h.zone.live.erase ⟨ob.ptr, k.cls ob.size⟩ } := by
      unfold Zone.deallocate
      rw [if_pos hmem]
    rw [e1] at ht
    cases ht
    refine ⟨rfl, inv.scribble hk _, ?_⟩
    have hpa : (all k { h with
        zone := { h.zone with
          free := ⟨ob.ptr, k.cls ob.size⟩ :: h.zone.free, live := h.zone.live.erase ⟨ob.ptr, k.cls ob.size⟩ },
        mem := NRK.Heap.scribble k h.zone.pages e.noise h.mem } (objs.erase ob)).Perm (all k h objs) := by
      have q := hpe.map (res k)
      rw [List.perm_iff_count]
      intro b
      have q := q.count_eq b
      simp only [all, List.map_cons, hr, List.count_append, List.count_cons] at *
      omega
    refine ⟨inv.nwf, inv.twf, inv.node, allDisjoint_perm inv.disj hpa.symm, fun b hb => inv.below b (hpa.subset hb),
      inv.sbrk, ?_, ?_, fun q hq => inv.mid q (hsub q hq), fun q hq => inv.al q (hsub q hq),
      fun q hq => inv.back q (hsub q hq)⟩
    · have := hlive.erase (⟨ob.ptr, k.cls ob.size⟩ : Slot)
      rw [List.erase_cons_head] at this
      exact this
    · refine List.Perm.trans ?_ inv.cons
      have q := mid_perm (k := k) hpe
      rw [mid_cons_other (by omega)] at q
      unfold phys
      exact ((List.Perm.refl _).append q.symm).append_right _
  · rw [if_neg hz] at ht
    have hb : ¬ ob.size ≤ BASE := by have := hk.base; omega
    rw [if_neg hb] at ht
    rw [slots_cons_other hz] at hlive
    by_cases hl : ob.size ≤ LARGE
    · rw [if_pos hl] at ht
      obtain ⟨m1, m2⟩ := inv.mid ob hob (by omega) hl
      split at ht
      · have hal : (ob.ptr - k.kb) % LARGE = 0 := by
          have h1 := Nat.dvd_of_mod_eq_zero hk.kb
          have h2 := Nat.dvd_of_mod_eq_zero m2
          exact Nat.mod_eq_zero_of_dvd (Nat.dvd_sub h2 h1)
        rw [new_large hal] at ht
        simp only at ht
        split at ht
        · rename_i tc htc
          cases ht
          have hgb : giveBack h.tc ⟨ob.ptr - k.kb, LARGE, h.tc.node⟩ = (.ok (), tc) := by
            unfold giveBack
            rw [if_neg (by show ¬ LARGE = BASE; rw [LARGE_eq, BASE_eq]; decide), if_pos rfl]
            exact htc
          obtain ⟨w, hn, hc⟩ := giveBack_spec inv.twf hgb (by intro e; cases e)
          have hp : tc.held.Perm ((⟨ob.ptr - k.kb, LARGE⟩ : Block) :: h.tc.held) := by
            rcases hc with ⟨_, h⟩ | ⟨e, _⟩
            · exact h
            · cases e
          refine ⟨rfl, Same.refl _ _, ?_⟩
          have hr : res k ob = shift k.kb ⟨ob.ptr - k.kb, LARGE⟩ := by
            rw [res_mid (by omega) hl]
            show (⟨ob.ptr, LARGE⟩ : Block) = ⟨k.kb + (ob.ptr - k.kb), LARGE⟩
            congr 1
            omega
          have hpa : (all k { h with tc := tc } (objs.erase ob)).Perm (all k h objs) := by
            have q := hpe.map (res k)
            have q2 := shift_perm (n := k.kb) hp
            rw [List.perm_iff_count]
            intro b
            have q := q.count_eq b
            have q2 := q2.count_eq b
            simp only [all, List.map_cons, hr, List.map_append, List.count_append, List.count_cons] at *
            omega
          refine ⟨inv.nwf, w, inv.node.trans hn.symm, allDisjoint_perm inv.disj hpa.symm,
            fun b hb => inv.below b (hpa.subset hb), inv.sbrk, hlive, ?_, fun q hq => inv.mid q (hsub q hq),
            fun q hq => inv.al q (hsub q hq), fun q hq => inv.back q (hsub q hq)⟩
          refine List.Perm.trans ?_ inv.cons
          have q := mid_perm (k := k) hpe
          rw [mid_cons_mid ⟨by omega, hl⟩] at q
          unfold phys
          rw [List.perm_iff_count]
          intro b
          have q := q.count_eq b
          have q2 := hp.count_eq b
          simp only [List.count_append, List.count_cons] at *
          omega
        · cases ht
          exact absurd rfl ho
      · cases ht
        exact absurd rfl ho
    · rw [if_neg hl] at ht
      cases ht
      refine ⟨rfl, Same.refl _ _, ?_⟩
      have hcnt : ∀ b, (all k h (objs.erase ob)).count b ≤ (all k h objs).count b := by
        intro b
        have q := (hpe.map (res k)).count_eq b
        simp only [all, List.map_cons, List.count_append, List.count_cons] at *
        omega
      refine ⟨inv.nwf, inv.twf, inv.node, allDisjoint_count inv.disj hcnt, fun b hb => inv.below b ?_, inv.sbrk, hlive, ?_,
        fun q hq => inv.mid q (hsub q hq), fun q hq => inv.al q (hsub q hq), fun q hq => inv.back q (hsub q hq)⟩
      · have h1 := List.count_pos_iff.2 hb
        have := hcnt b
        exact List.count_pos_iff.1 (by omega)
      · refine List.Perm.trans ?_ inv.cons
        have q := mid_perm (k := k) hpe
        rw [mid_cons_other (by omega)] at q
        unfold phys
        exact ((List.Perm.refl _).append q.symm).append_right _

/-- Any memory: contents do not matter to the invariant. -/
theorem Inv.mem {k : HCfg} {init : List Block} {h : Heap} {objs : List Obj} (inv : Inv k init h objs)
    (m : Nat → UInt8) : Inv k init { h with mem := m } objs :=
  ⟨inv.nwf, inv.twf, inv.node, inv.disj, inv.below, inv.sbrk, inv.live, inv.cons, inv.mid, inv.al, inv.back⟩

/-- The bytes of two objects of the list never coincide. -/
theorem Inv.apart {k : HCfg} (hk : k.Ok) {init : List Block} {h : Heap} {objs : List Obj} (inv : Inv k init h objs) :
    objs.Pairwise fun a b => Disjoint a.block b.block := by
  have hd := inv.disj
  unfold all AllDisjoint at hd
  have h2 := (List.pairwise_append.1 hd).2.1
  rw [List.pairwise_map] at h2
  exact h2.imp (fun h => h.mono (obj_inside hk _) (obj_inside hk _))

/-- Objects of the list are not counted twice. -/
theorem Inv.nodup {k : HCfg} (hk : k.Ok) {init : List Block} {h : Heap} {objs : List Obj} (inv : Inv k init h objs) :
    objs.Nodup := by
  have := inv.apart hk
  refine List.Pairwise.imp_of_mem (fun ha hb hd e => ?_) this
  subst e
  have h0 := (inv.al _ ha).1
  exact hd _ ⟨⟨Nat.le_refl _, by show _ < _ + _; exact Nat.lt_add_of_pos_right h0⟩,
    ⟨Nat.le_refl _, by show _ < _ + _; exact Nat.lt_add_of_pos_right h0⟩⟩

/-- A pointer that is kept. -/
theorem Inv.resize {k : HCfg} (hk : k.Ok) {init : List Block} {h : Heap} {objs : List Obj} (inv : Inv k init h objs)
    {o : Obj} (ho : o ∈ objs) {new : Nat} (h0 : 0 < new) (hi : inPlace k o.size new) (hc : k.cls new = k.cls o.size) :
    Inv k init h (⟨o.ptr, new, o.align⟩ :: objs.erase o) := by
  have hpe := erase_perm ho
  have hsub : ∀ q ∈ objs.erase o, q ∈ objs := fun q hq => List.mem_of_mem_erase hq
  obtain ⟨i1, i2, i3⟩ := hi
  have hn : new ≤ k.maxAlloc := Nat.le_trans i3 (hk.le _ i1).2.2
  have hL := hk.large
  have hr : res k ⟨o.ptr, new, o.align⟩ = res k o := by
    unfold res
    rw [if_pos i1, if_pos hn, hc]
  have hpa : (all k h (⟨o.ptr, new, o.align⟩ :: objs.erase o)).Perm (all k h objs) := by
    have q := hpe.map (res k)
    rw [List.perm_iff_count]
    intro b
    have q := q.count_eq b
    simp only [all, List.map_cons, hr, List.count_append, List.count_cons] at *
    omega
  refine ⟨inv.nwf, inv.twf, inv.node, allDisjoint_perm inv.disj hpa.symm, fun b hb => inv.below b (hpa.subset hb),
    inv.sbrk, ?_, ?_, ?_, ?_, ?_⟩
  · have q := (slots_perm (k := k) hpe).symm.trans inv.live
    rw [slots_cons_small i1] at q
    rw [slots_cons_small (by exact hn)]
    show ((⟨o.ptr, k.cls new⟩ : Slot) :: _).Perm _
    rw [hc]
    exact q
  · refine List.Perm.trans ?_ inv.cons
    have q := mid_perm (k := k) hpe
    rw [mid_cons_other (by omega)] at q
    unfold phys
    rw [mid_cons_other (by show ¬ (k.maxAlloc < new ∧ _); omega)]
    exact ((List.Perm.refl _).append q.symm).append_right _
  · intro p hp g1 g2
    rcases List.mem_cons.1 hp with rfl | hp
    · have g1 : k.maxAlloc < new := g1
      omega
    · exact inv.mid p (hsub p hp) g1 g2
  · intro p hp
    rcases List.mem_cons.1 hp with rfl | hp
    · obtain ⟨_, a2, a3, a4⟩ := inv.al o ho
      exact ⟨h0, a2, a3, a4⟩
    · exact inv.al p (hsub p hp)
  · intro p hp g1
    rcases List.mem_cons.1 hp with rfl | hp
    · have g1 : LARGE < new := g1
      omega
    · exact inv.back p (hsub p hp) g1

theorem Inv.alloc {k : HCfg} (hk : k.Ok) {init : List Block} {size align : Nat} {e : Env} (h0 : 0 < size)
    (ha0 : 0 < align) (haL : LARGE % align = 0) {h h' : Heap} {objs : List Obj}
    {o : Outcome (Option Nat)} (inv : Inv k init h objs) (ht : h.alloc k size align e = (o, h')) (ho : o ≠ .panic) :
    Same h.mem h'.mem objs ∧
    ((∃ p, o = .ok (some p) ∧ Inv k init h' (⟨p, size, align⟩ :: objs)) ∨
      (o = .ok none ∧ Inv k init h' objs)) := Inv.allocLoop hk h0 ha0 haL 3 inv ht ho

/-- `realloc`. -/
theorem Inv.realloc {k : HCfg} (hk : k.Ok) {init : List Block} {h h' : Heap} {objs : List Obj}
    (inv : Inv k init h objs) {ob : Obj} (hob : ob ∈ objs) {new : Nat} (h0 : 0 < new)
    {e : Env} {o : Outcome (Option Nat)} (ht : h.realloc k ob.ptr ob.size ob.align new e = (o, h')) (ho : o ≠ .panic) :
    Same h.mem h'.mem (objs.erase ob) ∧
    ((∃ q, o = .ok (some q) ∧ (∀ i < min ob.size new, h'.mem (q + i) = h.mem (ob.ptr + i)) ∧
        ((inPlace k ob.size new → k.cls new = k.cls ob.size) →
          Inv k init h' (⟨q, new, ob.align⟩ :: objs.erase ob))) ∨
      (o = .ok none ∧ Same h.mem h'.mem objs ∧ Inv k init h' objs)) := by
  obtain ⟨a1, a2, a3, a4⟩ := inv.al ob hob
  unfold Heap.realloc at ht
  by_cases hi : inPlace k ob.size new
  · rw [if_pos hi] at ht
    cases ht
    exact ⟨Same.refl _ _, Or.inl ⟨_, rfl, fun _ _ => rfl, fun hc => inv.resize hk hob h0 hi (hc hi)⟩⟩
  · rw [if_neg hi] at ht
    split at ht
    · rename_i q h1 e1
      obtain ⟨s1, hc⟩ := Inv.alloc hk h0 a2 a3 inv e1 (by intro e; cases e)
      obtain ⟨i1⟩ : Inv k init h1 (⟨q, new, ob.align⟩ :: objs) := by
        rcases hc with ⟨_, e, i⟩ | ⟨e, _⟩
        · cases e; exact i
        · cases e
      have i1 : Inv k init h1 (⟨q, new, ob.align⟩ :: objs) := by
        constructor <;> assumption
      have hd := List.pairwise_cons.1 (i1.apart hk)
      -- the copy only writes to the new object
      have hcopy : ∀ p ∈ objs, ∀ i < p.size, copy h1.mem ob.ptr q (min ob.size new) (p.ptr + i) = h.mem (p.ptr + i) := by
        intro p hp i hi
        rw [← s1 p hp i hi]
        unfold copy
        rw [if_neg]
        intro hb
        refine hd.1 p hp (p.ptr + i) ⟨⟨hb.1, ?_⟩, ⟨Nat.le_add_right _ _, ?_⟩⟩
        · show p.ptr + i < q + new; omega
        · show p.ptr + i < p.ptr + p.size; omega
      split at ht
      · rename_i h2 e2
        cases ht
        have i2 := (i1.mem (copy h1.mem ob.ptr q (min ob.size new)))
        obtain ⟨_, s2, i3⟩ := i2.dealloc hk (List.mem_cons_of_mem _ hob) e2 (by intro e; cases e)
        have hne : (⟨q, new, ob.align⟩ : Obj) ≠ ob := by
          intro e
          exact (List.nodup_cons.1 (i1.nodup hk)).1 (e ▸ hob)
        rw [List.erase_cons_tail (by simpa using hne)] at i3
        refine ⟨?_, Or.inl ⟨q, rfl, ?_, fun _ => i3⟩⟩
        · intro p hp i hi
          have hp' := List.mem_of_mem_erase hp
          rw [s2 p (List.mem_cons_of_mem _ hp') i hi]
          exact hcopy p hp' i hi
        · intro i hi
          rw [s2 _ List.mem_cons_self i (by show i < new; omega)]
          show copy h1.mem ob.ptr q (min ob.size new) (q + i) = _
          unfold copy
          rw [if_pos ⟨Nat.le_add_right _ _, by omega⟩, Nat.add_sub_cancel_left]
          exact s1 ob hob i (by omega)
      · cases ht
        exact absurd rfl ho
    · rename_i r hne
      obtain ⟨s1, hc⟩ := Inv.alloc hk h0 a2 a3 inv ht ho
      rcases hc with ⟨p, e, i⟩ | ⟨e, i⟩
      · subst e
        exact absurd ht (hne p h')
      · exact ⟨fun p hp => s1 p (List.mem_of_mem_erase hp), Or.inr ⟨e, s1, i⟩⟩

theorem shift_disjoint {n : Nat} {l : List Block} (h : AllDisjoint l) : AllDisjoint (l.map (shift n)) := by
  unfold AllDisjoint
  rw [List.pairwise_map]
  refine List.Pairwise.imp (fun {a b} hd x hx => ?_) h
  obtain ⟨⟨h1, h2⟩, ⟨h3, h4⟩⟩ := hx
  simp only [shift] at h1 h2 h3 h4
  exact hd (x - n) ⟨⟨by omega, by omega⟩, ⟨by omega, by omega⟩⟩

theorem Run.inv {k : HCfg} (hk : k.Ok) {init : List Block} {h : Heap} {objs : List Obj} (r : Run k init h objs) :
    Inv k init h objs := by
  induction r with
  | @start nc tc sbrk mem h1 h2 h3 h4 h5 h6 =>
    refine ⟨h1, h2, h3, ?_, ?_, h6, ?_, ?_, ?_, ?_, ?_⟩
    · simpa [all] using shift_disjoint (n := k.kb) h4
    · intro b hb
      simp only [all, List.map_nil, List.append_nil] at hb
      obtain ⟨c, hc, rfl⟩ := List.mem_map.1 hb
      have := h5 c hc
      show k.kb + c.start + c.len ≤ sbrk
      omega
    · exact List.Perm.refl _
    · simp [phys, midBlocks]
    all_goals (intro o ho; cases ho)
  | alloc _ h0 h1 h2 h3 ih =>
    rcases (Inv.alloc hk h0 h1 h2 ih h3 (by intro e; cases e)).2 with ⟨_, e, i⟩ | ⟨e, _⟩
    · cases e; exact i
    · cases e
  | allocNull _ h0 h1 h2 h3 ih =>
    rcases (Inv.alloc hk h0 h1 h2 ih h3 (by intro e; cases e)).2 with ⟨_, e, i⟩ | ⟨e, i⟩
    · cases e
    · exact i
  | dealloc _ h0 h1 ih => exact (ih.dealloc hk h0 h1 (by intro e; cases e)).2.2
  | realloc _ h0 h1 h2 h3 ih =>
    rcases (ih.realloc hk h0 h1 h3 (by intro e; cases e)).2 with ⟨_, e, _, i⟩ | ⟨e, _⟩
    · cases e; exact i h2
    · cases e
  | reallocNull _ h0 h1 h3 ih =>
    rcases (ih.realloc hk h0 h1 h3 (by intro e; cases e)).2 with ⟨_, e, _, i⟩ | ⟨e, _, i⟩
    · cases e
    · exact i
  | write _ _ _ ih => exact ih.mem _

end NRK.Heap
