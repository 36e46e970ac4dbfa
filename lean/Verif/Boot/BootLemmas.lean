import Verif.Boot.MapLemmas
import Verif.Boot.BootSpec
import Verif.Load.LoaderLemmas

/-!
# Lemmas about the boot loader
-/

namespace NRK.Boot

open NRK.VSpace (PML4 Level leafAt win)
open NRK.Load (Mem Reloc le64 relocValue write_out le64_length)
open Spec

/-- What an action allows. -/
def Act.canWrite : Act → Bool
  | .readWriteUser | .readWriteKernel | .readWriteExecuteUser | .readWriteExecuteKernel => true
  | _ => false
def Act.canExec : Act → Bool
  | .readExecuteUser | .readExecuteKernel | .readWriteExecuteUser | .readWriteExecuteKernel | .none => true
  | _ => false

theorem leaf_flags (r : Act) (lv : Level) : (r.leaf lv).rw = r.canWrite ∧ (!(r.leaf lv).xd) = r.canExec := by
  cases r <;> cases lv <;> exact ⟨rfl, rfl⟩

theorem view_of_belongs {v p : Nat} {r : Act} {t : PML4} {x : Nat} (h : Belongs v p r x (leafAt t x)) :
    view t x = some ⟨p + (x - v), r.canWrite, r.canExec⟩ := by
  obtain ⟨lv, hle, hq⟩ := h
  unfold view
  rw [hq]
  show some (View.mk (p + (x - x % lv.size - v) + x % lv.size) (r.leaf lv).rw (!(r.leaf lv).xd)) = _
  have hm : x % lv.size ≤ x := Nat.mod_le _ _
  rw [(leaf_flags r lv).1, (leaf_flags r lv).2,
    show p + (x - x % lv.size - v) + x % lv.size = p + (x - v) by omega]

theorem resolveAddr_view (t : PML4) (x : Nat) : resolveAddr t x = (view t x).map View.pa := by
  unfold resolveAddr view
  cases leafAt t x <;> rfl

theorem win_low {x : Nat} (h : x < 281474976710656) : win x = 0 := by unfold win; omega

theorem view_none {t : PML4} {x : Nat} : view t x = none ↔ leafAt t x = Option.none := by
  unfold view
  cases leafAt t x <;> simp

/-- Mapping a free range. -/
theorem mapRange_view {t : PML4} {v p s : Nat} {r : Act} (hr : r ≠ .none) (hv : v % 4096 = 0)
    (hp : p % 4096 = 0) (hs : s % 4096 = 0) (hs0 : 0 < s) (hlow : v + s ≤ 281474976710656)
    (hfree : ∀ x, v ≤ x → x < v + s → view t x = none) :
    ∃ t', mapRange t v p s r = .ok t' ∧ ∀ x, x < 281474976710656 →
      view t' x = if v ≤ x ∧ x < v + s then some ⟨p + (x - v), r.canWrite, r.canExec⟩ else view t x := by
  have hw0 : win v = 0 := win_low (by omega)
  obtain ⟨t', ht⟩ := mapGen_ok r hr (s / 4096 + 1) t v p s hv hp hs hs0 (by omega) (by rw [hw0]; omega)
    (fun x h1 h2 => view_none.1 (hfree x h1 h2))
  refine ⟨t', ht, fun x hx => ?_⟩
  obtain ⟨a, b⟩ := mapGen_spec r _ _ _ _ _ _ ht hs0 (by rw [hw0]; omega) x (by rw [win_low hx, hw0])
  by_cases h : v ≤ x ∧ x < v + s
  · rw [if_pos h]; exact view_of_belongs (a h)
  · rw [if_neg h]
    unfold view
    rw [b h]

theorem mapIdentity_view {t : PML4} {off base fin : Nat} {r : Act} (hr : r ≠ .none) (hv : off % 4096 = 0)
    (hp : base % 4096 = 0) (hs : fin % 4096 = 0) (hs0 : base < fin) (hlow : off + fin ≤ 281474976710656)
    (hfree : ∀ x, off + base ≤ x → x < off + fin → view t x = none) :
    ∃ t', mapIdentity t off base fin r = .ok t' ∧ ∀ x, x < 281474976710656 →
      view t' x = if off + base ≤ x ∧ x < off + fin then some ⟨x - off, r.canWrite, r.canExec⟩
        else view t x := by
  obtain ⟨t', h1, h2⟩ := mapRange_view (t := t) (v := off + base) (p := base) (s := fin - base) hr
    (by omega) hp (by omega) (by omega) (by omega) (fun x a b => hfree x a (by omega))
  refine ⟨t', ?_, fun x hx => ?_⟩
  · unfold mapIdentity
    rw [if_neg (by omega)]
    exact h1
  · rw [h2 x hx]
    by_cases h : off + base ≤ x ∧ x < off + fin
    · rw [if_pos h, if_pos (by omega), show base + (x - (off + base)) = x - off by omega]
    · rw [if_neg h, if_neg (by omega)]

/-! ## Sizes -/

theorem base_eq (h : Seg) : h.base = firstPage h * 4096 := by unfold Seg.base firstPage; omega

theorem baseEnd_eq (h : Seg) : h.base + h.size = endPage h * 4096 := by
  unfold Seg.base Seg.size endPage; omega

theorem size_pos {h : Seg} (hm : 0 < h.memsz) : 0 < h.size ∧ h.size % 4096 = 0 := by
  unfold Seg.size; omega

theorem minBase_le : ∀ (hs : List Seg) (b : Nat) (h : Seg), h ∈ hs →
    hs.foldl (fun b h => if b > h.base then h.base else b) b ≤ h.base ∧
    hs.foldl (fun b h => if b > h.base then h.base else b) b ≤ b := by
  have key : ∀ (hs : List Seg) (b : Nat), hs.foldl (fun b h => if b > h.base then h.base else b) b ≤ b := by
    intro hs
    induction hs with
    | nil => intro b; exact Nat.le_refl _
    | cons h hs ih =>
      intro b
      rw [List.foldl_cons]
      refine Nat.le_trans (ih _) ?_
      split <;> omega
  intro hs
  induction hs with
  | nil => intro b h hh; cases hh
  | cons a hs ih =>
    intro b h hh
    rw [List.foldl_cons]
    refine ⟨?_, ?_⟩
    · rcases List.mem_cons.1 hh with rfl | hh
      · refine Nat.le_trans (key _ _) ?_
        split <;> omega
      · exact (ih _ h hh).1
    · have := key (a :: hs) b
      rwa [List.foldl_cons] at this

theorem minBase_zero {hs : List Seg} (h : ∃ h ∈ hs, firstPage h = 0) : minBase hs = 0 := by
  obtain ⟨h, hh, h0⟩ := h
  have := (minBase_le hs 18446744073709551615 h hh).1
  rw [base_eq, h0] at this
  unfold minBase
  omega

theorem maxEnd_eq (hs : List Seg) : maxEnd hs = topPage hs * 4096 := by
  have key : ∀ (hs : List Seg) (e : Nat),
      hs.foldl (fun e h => if h.base + h.size > e then h.base + h.size else e) e = max e (topPage hs * 4096) := by
    intro hs
    induction hs with
    | nil => intro e; simp [topPage]
    | cons h hs ih =>
      intro e
      rw [List.foldl_cons, ih, baseEnd_eq]
      show _ = max e (max (endPage h) (topPage hs) * 4096)
      generalize topPage hs = a
      split <;> omega
  unfold maxEnd
  rw [key]
  omega

theorem maxAlign_eq (hs : List Seg) : maxAlign hs = topAlign hs := by
  have key : ∀ (hs : List Seg) (e : Nat),
      hs.foldl (fun a h => if a < h.align then h.align else a) e = max e (topAlign hs) := by
    intro hs
    induction hs with
    | nil => intro e; simp [topAlign]
    | cons h hs ih =>
      intro e
      rw [List.foldl_cons, ih]
      show _ = max e (max h.align (topAlign hs))
      generalize topAlign hs = a
      split <;> omega
  unfold maxAlign
  rw [key]
  omega

theorem le_topPage : ∀ {hs : List Seg} {h : Seg}, h ∈ hs → endPage h ≤ topPage hs
  | a :: hs, h, hh => by
    show _ ≤ max (endPage a) (topPage hs)
    rcases List.mem_cons.1 hh with rfl | hh
    · omega
    · have := le_topPage hh
      omega

theorem le_topAlign : ∀ {hs : List Seg} {h : Seg}, h ∈ hs → h.align ≤ topAlign hs
  | a :: hs, h, hh => by
    show _ ≤ max a.align (topAlign hs)
    rcases List.mem_cons.1 hh with rfl | hh
    · omega
    · have := le_topAlign hh
      omega

theorem topAlign_mem : ∀ (hs : List Seg), topAlign hs = 0 ∨ ∃ h ∈ hs, h.align = topAlign hs
  | [] => Or.inl rfl
  | a :: hs => by
    have e : topAlign (a :: hs) = max a.align (topAlign hs) := rfl
    by_cases h : topAlign hs ≤ a.align
    · exact Or.inr ⟨a, by simp, by rw [e]; omega⟩
    · rcases topAlign_mem hs with h0 | ⟨b, hb, hb'⟩
      · omega
      · exact Or.inr ⟨b, List.mem_cons_of_mem _ hb, by rw [e]; omega⟩

theorem GoodKernel_align {hs : List Seg} {rs : List Reloc} (g : GoodKernel hs rs) :
    (∃ k, k < 64 ∧ 12 ≤ k ∧ topAlign hs = 2 ^ k) := by
  obtain ⟨h, hh, h4⟩ := g.page_aligned
  have h1 := le_topAlign hh
  rcases topAlign_mem hs with h0 | ⟨b, hb, hb'⟩
  · omega
  · rcases g.aligned b hb with h0 | ⟨k, hk, e⟩
    · omega
    · refine ⟨k, hk, ?_, by omega⟩
      refine Classical.byContradiction fun hlt => ?_
      have : 2 ^ k ≤ 2 ^ 11 := Nat.pow_le_pow_right (by omega) (by omega)
      have e11 : (2 : Nat) ^ 11 = 2048 := rfl
      omega

theorem align_dvd {hs : List Seg} {rs : List Reloc} (g : GoodKernel hs rs) {h : Seg} (hh : h ∈ hs)
    (h0 : h.align ≠ 0) : h.align ∣ topAlign hs := by
  obtain ⟨k, _, _, e⟩ := GoodKernel_align g
  rcases g.aligned h hh with h1 | ⟨j, _, ej⟩
  · exact absurd h1 h0
  · rw [e, ej]
    have := le_topAlign hh
    rw [e, ej] at this
    exact Nat.pow_dvd_pow 2 ((Nat.pow_le_pow_iff_right (by omega)).1 this)

/-- The alignment of the image. -/
theorem place_facts (raw A : Nat) (hraw : raw % 4096 = 0) (hA : A % 4096 = 0) (hA0 : 0 < A) :
    raw ≤ (raw + A - 1) / A * A ∧ (raw + A - 1) / A * A + 4096 ≤ raw + A ∧
      (raw + A - 1) / A * A % 4096 = 0 ∧ (raw + A - 1) / A * A % A = 0 := by
  have h1 := Nat.div_add_mod (raw + A - 1) A
  have h2 := Nat.mod_lt (raw + A - 1) hA0
  have h3 : (raw + A - 1) / A * A % 4096 = 0 := by rw [Nat.mul_mod, hA]; simp
  have h4 : (raw + A - 1) / A * A % A = 0 := Nat.mul_mod_left _ _
  rw [Nat.mul_comm] at h1
  generalize (raw + A - 1) / A * A = b at *
  generalize (raw + A - 1) % A = c at *
  refine ⟨by omega, by omega, h3, h4⟩

theorem pow_page {k : Nat} (h : 12 ≤ k) : 2 ^ k % 4096 = 0 ∧ 0 < 2 ^ k := by
  obtain ⟨j, rfl⟩ : ∃ j, k = 12 + j := ⟨k - 12, by omega⟩
  rw [Nat.pow_add]
  refine ⟨?_, ?_⟩
  · show 4096 * 2 ^ j % 4096 = 0
    exact Nat.mul_mod_right _ _
  · exact Nat.mul_pos (by decide) (Nat.pow_pos (by decide))

/-- Page `a` is one of a run of pages. -/
def InRun (a : Nat) (q : Nat × Nat) : Prop := q.1 ≤ a ∧ a < q.1 + q.2 * 4096

theorem run_low {raw B a : Nat} (h1 : raw % 4096 = 0) (h2 : B % 4096 = 0) (h3 : raw ≤ B) (h4 : a + 4096 < B) :
    a < raw + ((B - raw) / 4096 - 1) * 4096 := by
  obtain ⟨c, hc⟩ : ∃ c, B = raw + 4096 * c := ⟨(B - raw) / 4096, by omega⟩
  subst hc
  rw [Nat.add_sub_cancel_left, Nat.mul_div_cancel_left _ (by decide)]
  omega

/-- `allocate_pages_aligned`. -/
theorem allocAligned_spec (raw n k : Nat) (hraw : raw % 4096 = 0) (hk : 12 ≤ k) (hk' : k < 64) :
    ∃ fr, allocAligned raw n (2 ^ k) = .ok ((raw + 2 ^ k - 1) / 2 ^ k * 2 ^ k, fr) ∧
      (∀ q ∈ fr, raw ≤ q.1 ∧ q.1 + q.2 * 4096 ≤ raw + (n + 2 ^ k / 4096) * 4096 ∧
        (q.1 + q.2 * 4096 ≤ (raw + 2 ^ k - 1) / 2 ^ k * 2 ^ k ∨
          (raw + 2 ^ k - 1) / 2 ^ k * 2 ^ k + n * 4096 ≤ q.1)) ∧
      (∀ a, raw ≤ a → a < raw + (n + 2 ^ k / 4096) * 4096 →
        ((raw + 2 ^ k - 1) / 2 ^ k * 2 ^ k ≤ a ∧ a < (raw + 2 ^ k - 1) / 2 ^ k * 2 ^ k + n * 4096) ∨
        (∃ q ∈ fr, InRun a q) ∨
        ((raw + 2 ^ k - 1) / 2 ^ k * 2 ^ k ≤ a + 4096 ∧
          a < (raw + 2 ^ k - 1) / 2 ^ k * 2 ^ k + n * 4096 + 4096)) := by
  obtain ⟨hA, hA0⟩ := pow_page hk
  obtain ⟨f1, f2, f3, f4⟩ := place_facts raw (2 ^ k) hraw hA hA0
  have hex : ∃ j, j < 64 ∧ 2 ^ k = 2 ^ j := ⟨k, hk', rfl⟩
  unfold allocAligned
  rw [if_neg (fun h => h hex)]
  have e : raw + (2 ^ k - 1) = raw + 2 ^ k - 1 := by omega
  rw [e]
  generalize hB : (raw + 2 ^ k - 1) / 2 ^ k * 2 ^ k = B at *
  generalize 2 ^ k = A at *
  rw [if_neg (by omega)]
  simp only
  rw [if_neg (by omega)]
  refine ⟨_, rfl, ?_, ?_⟩
  · intro q hq
    rw [List.mem_append] at hq
    rcases hq with hq | hq
    · split at hq
      · rw [List.mem_singleton] at hq
        subst hq
        refine ⟨Nat.le_refl _, ?_, Or.inl ?_⟩
        · show raw + ((B - raw) / 4096 - 1) * 4096 ≤ _
          omega
        · show raw + ((B - raw) / 4096 - 1) * 4096 ≤ _
          omega
      · cases hq
    · split at hq
      · rename_i h1
        rw [List.mem_singleton] at hq
        subst hq
        refine ⟨?_, ?_, Or.inr ?_⟩
        · show raw ≤ B + n * 4096 + 4096
          omega
        · show B + n * 4096 + 4096 + ((raw + (n + A / 4096) * 4096 - (B + n * 4096)) / 4096 - 1) * 4096 ≤ _
          omega
        · show _ ≤ B + n * 4096 + 4096
          omega
      · cases hq
  · intro a h1 h2
    by_cases hlo : a + 4096 < B
    · refine Or.inr (Or.inl ⟨(raw, (B - raw) / 4096 - 1), ?_, ?_⟩)
      · rw [if_pos (by omega)]; simp
      · exact ⟨h1, run_low hraw f3 f1 hlo⟩
    · by_cases hhi : a < B + n * 4096 + 4096
      · exact Or.inr (Or.inr ⟨by omega, hhi⟩)
      · refine Or.inr (Or.inl ⟨(B + n * 4096 + 4096,
          (raw + (n + A / 4096) * 4096 - (B + n * 4096)) / 4096 - 1), ?_, ?_⟩)
        · rw [if_pos (c := 1 < (raw + (n + A / 4096) * 4096 - (B + n * 4096)) / 4096) (by omega)]
          simp
        · refine ⟨?_, ?_⟩
          · show B + n * 4096 + 4096 ≤ a
            omega
          · show a < B + n * 4096 + 4096 + ((raw + (n + A / 4096) * 4096 - (B + n * 4096)) / 4096 - 1) * 4096
            omega

/-! ## The segments -/

theorem act_ne {feat : Bool} {h : Seg} (hr : h.r = true) : h.act feat ≠ .none := by
  cases h with
  | mk v m a r w x d =>
    cases hr
    cases feat <;> cases w <;> cases x <;> exact fun h => Act.noConfusion h

theorem act_view {feat : Bool} {h : Seg} (hr : h.r = true) :
    (h.act feat).canWrite = writable feat h ∧ (h.act feat).canExec = h.x := by
  cases h with
  | mk v m a r w x d =>
    cases hr
    cases feat <;> cases w <;> cases x <;> exact ⟨rfl, rfl⟩

/-- Address `y` is on a page of a segment. -/
def onSeg (pbase y : Nat) (h : Seg) : Bool :=
  decide (pbase + firstPage h * 4096 ≤ y) && decide (y < pbase + endPage h * 4096)

theorem onSeg_iff {pbase y : Nat} {h : Seg} :
    onSeg pbase y h = true ↔ pbase + firstPage h * 4096 ≤ y ∧ y < pbase + endPage h * 4096 := by
  unfold onSeg; simp

theorem KOFF_eq : KOFF = 70368744177664 := by unfold KOFF; rfl

theorem off_between {K P b z f e x : Nat} (e1 : b = f * 4096) (e2 : b + z = e * 4096) (h1 : K + P + b ≤ x)
    (h2 : x < K + P + b + z) : P + f * 4096 ≤ x - K ∧ x - K < P + e * 4096 := by
  rw [← e1, ← e2]
  omega

theorem mapSegs_spec (feat : Bool) (pbase : Nat) (hpb : pbase % 4096 = 0) : ∀ (hs : List Seg) (t : PML4),
    (∀ h ∈ hs, h.r = true ∧ 0 < h.memsz) →
    (hs.Pairwise fun a b => endPage a ≤ firstPage b ∨ endPage b ≤ firstPage a) →
    (∀ h ∈ hs, pbase + endPage h * 4096 ≤ 70368744177664) →
    (∀ h ∈ hs, ∀ y, onSeg pbase y h = true → view t (KOFF + y) = none) →
    ∃ t', mapSegs feat pbase hs t = .ok t' ∧ ∀ x, x < 281474976710656 →
      view t' x = if x < KOFF then view t x else
        match hs.find? (onSeg pbase (x - KOFF)) with
        | some h => some ⟨x - KOFF, writable feat h, h.x⟩
        | none => view t x := by
  intro hs
  induction hs with
  | nil =>
    intro t _ _ _ _
    refine ⟨t, rfl, fun x _ => ?_⟩
    simp
  | cons h hs ih =>
    intro t hg hp hlow hfree
    rw [List.pairwise_cons] at hp
    obtain ⟨hr, hm⟩ := hg h (by simp)
    obtain ⟨hsz, hsz4⟩ := size_pos hm
    have hl := hlow h (by simp)
    have e1 := base_eq h
    have e2 := baseEnd_eq h
    have hk := KOFF_eq
    obtain ⟨t1, ht1, hv1⟩ := mapRange_view (t := t) (v := KOFF + pbase + h.base) (p := pbase + h.base)
      (s := h.size) (r := h.act feat) (act_ne hr) (by omega) (by omega) hsz4 hsz (by omega) (by
        intro x a b
        have g : pbase + firstPage h * 4096 ≤ x - KOFF ∧ x - KOFF < pbase + endPage h * 4096 :=
          off_between e1 e2 a b
        have := hfree h (by simp) (x - KOFF) (onSeg_iff.2 g)
        rwa [show KOFF + (x - KOFF) = x by omega] at this)
    obtain ⟨t2, ht2, hv2⟩ := ih t1 (fun x hx => hg x (List.mem_cons_of_mem _ hx)) hp.2
      (fun x hx => hlow x (List.mem_cons_of_mem _ hx)) (by
        intro b hb y hy
        have hb1 := hp.1 b hb
        have hb2 := hlow b (List.mem_cons_of_mem _ hb)
        have hy' := onSeg_iff.1 hy
        rw [hv1 _ (by omega), if_neg (by omega)]
        exact hfree b (List.mem_cons_of_mem _ hb) y hy)
    refine ⟨t2, ?_, fun x hx => ?_⟩
    · rw [mapSegs, ht1]
      exact ht2
    · rw [hv2 x hx]
      by_cases hxk : x < KOFF
      · rw [if_pos hxk, if_pos hxk, hv1 x hx, if_neg (by omega)]
      · rw [if_neg hxk, if_neg hxk, List.find?_cons]
        cases hon : onSeg pbase (x - KOFF) h with
        | true =>
          have hon' := onSeg_iff.1 hon
          have hnone : hs.find? (onSeg pbase (x - KOFF)) = none := by
            rw [List.find?_eq_none]
            intro b hb hc
            have hb1 := hp.1 b hb
            have hc' := onSeg_iff.1 hc
            omega
          rw [hnone]
          simp only
          rw [hv1 x hx, if_pos (by omega), (act_view hr).1, (act_view hr).2,
            show pbase + h.base + (x - (KOFF + pbase + h.base)) = x - KOFF by omega]
        | false =>
          have hon' : ¬ (pbase + firstPage h * 4096 ≤ x - KOFF ∧ x - KOFF < pbase + endPage h * 4096) := by
            intro hc
            rw [onSeg_iff.2 hc] at hon
            cases hon
          simp only
          cases hs.find? (onSeg pbase (x - KOFF)) with
          | some b => rfl
          | none =>
            simp only
            rw [hv1 x hx, if_neg (by omega)]

/-! ## Bytes -/

theorem write_in {m : Mem} {a : Nat} {bs : List UInt8} {p : Nat} (h : a ≤ p ∧ p < a + bs.length) :
    m.write a bs p = (bs[p - a]?).getD 0 := by
  unfold Mem.write
  rw [if_pos h.1]
  have : p - a < bs.length := by omega
  rw [List.getElem?_eq_getElem this]
  rfl

theorem copy_spec (t : PML4) (off P : Nat) : ∀ (bs : List UInt8) (d : Nat) (m : Mem),
    (∀ va, d ≤ va → va < d + bs.length → resolveAddr t (off + va) = some (P + va)) →
    ∃ m', copy t (off + d) bs m = .ok m' ∧
      (∀ i, i < bs.length → m' (P + d + i) = (bs[i]?).getD 0) ∧
      (∀ p, ¬ (P + d ≤ p ∧ p < P + d + bs.length) → m' p = m p) := by
  intro bs
  induction bs with
  | nil =>
    intro d m _
    exact ⟨m, rfl, by intro i hi; exact absurd hi (by simp), fun _ _ => rfl⟩
  | cons b bs ih =>
    intro d m hres
    rw [List.length_cons] at hres
    obtain ⟨m', h1, h2, h3⟩ := ih (d + 1) (m.write (P + d) [b]) (fun va a b => hres va (by omega) (by omega))
    refine ⟨m', ?_, ?_, ?_⟩
    · rw [copy, hres d (Nat.le_refl _) (by omega)]
      exact h1
    · intro i hi
      rw [List.length_cons] at hi
      cases i with
      | zero =>
        rw [h3 _ (by omega), write_in (by simp)]
        simp
      | succ i =>
        have := h2 i (by omega)
        rw [show P + (d + 1) + i = P + d + (i + 1) by omega] at this
        rw [this]
        simp
    · intro p hp
      rw [List.length_cons] at hp
      rw [h3 p (by omega), write_out]
      intro ⟨a, b⟩
      simp only [List.length_singleton] at b
      omega

theorem fileByte_none {hs : List Seg} {va : Nat}
    (h : ∀ x ∈ hs, ¬ (x.vaddr ≤ va ∧ va < x.vaddr + x.data.length)) : fileByte hs va = none := by
  induction hs with
  | nil => rfl
  | cons x hs ih =>
    rw [fileByte, if_neg (h x (by simp))]
    exact ih fun y hy => h y (List.mem_cons_of_mem _ hy)

theorem loadSegs_spec (t : PML4) (off P : Nat) : ∀ (hs : List Seg) (m : Mem),
    (∀ h ∈ hs, ∀ va, h.vaddr ≤ va → va < h.vaddr + h.data.length → resolveAddr t (off + va) = some (P + va)) →
    (hs.Pairwise fun a b => a.vaddr + a.data.length ≤ b.vaddr ∨ b.vaddr + b.data.length ≤ a.vaddr) →
    ∃ m', loadSegs t off hs m = .ok m' ∧
      (∀ va, m' (P + va) = (fileByte hs va).getD (m (P + va))) ∧
      (∀ p, (∀ h ∈ hs, ¬ (P + h.vaddr ≤ p ∧ p < P + h.vaddr + h.data.length)) → m' p = m p) := by
  intro hs
  induction hs with
  | nil => intro m _ _; exact ⟨m, rfl, fun _ => rfl, fun _ _ => rfl⟩
  | cons h hs ih =>
    intro m hres hp
    rw [List.pairwise_cons] at hp
    obtain ⟨m1, a1, a2, a3⟩ := copy_spec t off P h.data h.vaddr m (hres h (by simp))
    obtain ⟨m2, b1, b2, b3⟩ := ih m1 (fun x hx => hres x (List.mem_cons_of_mem _ hx)) hp.2
    refine ⟨m2, ?_, ?_, ?_⟩
    · rw [loadSegs, a1]; exact b1
    · intro va
      rw [b2 va, fileByte]
      by_cases hin : h.vaddr ≤ va ∧ va < h.vaddr + h.data.length
      · have hn : fileByte hs va = none := fileByte_none (by
          intro x hx hc
          have := hp.1 x hx
          omega)
        rw [hn, if_pos hin]
        have := a2 (va - h.vaddr) (by omega)
        rw [show P + h.vaddr + (va - h.vaddr) = P + va by omega] at this
        have hlt : va - h.vaddr < h.data.length := by omega
        rw [List.getElem?_eq_getElem hlt] at this ⊢
        exact this
      · rw [if_neg hin, a3 _ (by omega)]
    · intro p hno
      rw [b3 p (fun x hx => hno x (List.mem_cons_of_mem _ hx)), a3 p (hno h (by simp))]

theorem relocs_spec (t : PML4) (off P : Nat) : ∀ (rs : List Reloc) (m : Mem),
    (∀ r ∈ rs, resolveAddr t (off + r.off) = some (P + r.off) ∧ r.relative = true ∧
      off + r.addend < 2 ^ 64) →
    ∃ m', relocs t off rs m = .ok m' ∧
      (∀ va, m' (P + va) = (Load.Spec.relocByte off rs va).getD (m (P + va))) ∧
      (∀ p, (∀ r ∈ rs, ¬ (P + r.off ≤ p ∧ p < P + r.off + 8)) → m' p = m p) := by
  intro rs
  induction rs with
  | nil => intro m _; exact ⟨m, rfl, fun _ => rfl, fun _ _ => rfl⟩
  | cons r rs ih =>
    intro m h
    obtain ⟨h1, h2, h3⟩ := h r (by simp)
    obtain ⟨m', a1, a2, a3⟩ := ih (m.write (P + r.off) (le64 (off + r.addend)))
      (fun x hx => h x (List.mem_cons_of_mem _ hx))
    refine ⟨m', ?_, ?_, ?_⟩
    · rw [relocs, relocate, h1]
      simp only
      rw [if_pos h2, relocValue, if_pos h3]
      exact a1
    · intro va
      rw [a2 va, Load.relocByte_cons]
      cases Load.Spec.relocByte off rs va with
      | some b => rfl
      | none =>
        show m.write (P + r.off) (le64 (off + r.addend)) (P + va) = (Load.one off r va).getD _
        unfold Load.one
        by_cases hin : r.off ≤ va ∧ va < r.off + 8
        · rw [if_pos hin, write_in (by rw [le64_length]; omega), show P + va - (P + r.off) = va - r.off by omega,
            Load.le64_get _ (by omega)]
          rfl
        · rw [if_neg hin, write_out (by rw [le64_length]; omega)]
          rfl
    · intro p hp
      rw [a3 p (fun x hx => hp x (List.mem_cons_of_mem _ hx)), write_out (by
        rw [le64_length]; exact hp r (by simp))]

end NRK.Boot
