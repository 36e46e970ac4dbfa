import Verif.Rack.PageProps
import Verif.Rack.MapLemmas
import Verif.Mem.BootProps

/-!
# What stays true of the pages of a rack (helper lemmas for C65)
-/

namespace NRK.Rack.Remote

open Rpc (ENTRY ENTRY_eq)
open NRK.Mem (Frame MCache LARGE BASE LARGE_eq BASE_eq c22_populate)
open NRK.Mem.Spec (Block Disjoint Inside AllDisjoint)
open NRK.Proc (Frames)
open NRK.Machine (LowestFree AllUsed add_exact)

/-- What is true after any history. -/
structure PageInv (region : Nat → Option Frame) (w : World Resources) : Prop where
  node : ∀ mid, 1 ≤ mid → mid ≤ 16 → (w.ext.mgr (mid - 1)).node = 12 + mid
  nodup : ∀ mid, 1 ≤ mid → mid ≤ 16 → (w.ext.mgr (mid - 1)).lp.Nodup
  cross : ∀ m n a, 1 ≤ m → m ≤ 16 → 1 ≤ n → n ≤ 16 → FreePage w m a → FreePage w n a → m = n
  excl : ∀ mid a pid fid f, 1 ≤ mid → mid ≤ 16 → FreePage w mid a → Holds w pid fid f → f.base ≠ a
  uniq : ∀ p i f q j g, Holds w p i f → Holds w q j g → f.base = g.base → p = q ∧ i = j
  free : ∀ mid a, 1 ≤ mid → mid ≤ 16 → FreePage w mid a → a % LARGE = 0 ∧ a < 2 ^ 64 ∧
    ∃ g, region mid = some g ∧ Inside (page a) g.block
  held : ∀ pid fid f, Holds w pid fid f → f.size ≤ 2097152 ∧ f.base % LARGE = 0 ∧ f.base < 2 ^ 64 ∧
    ∃ mid g, 1 ≤ mid ∧ mid ≤ 16 ∧ f.aff = 12 + mid ∧ region mid = some g ∧ Inside (page f.base) g.block
  zero : ∀ (pid fid n : Nat), (w.ext.frames pid : Frames)[fid]? = some (none, n) → n = 0
  len : ∀ pid, (w.ext.frames pid).length = 192

/-- A page nobody has. -/
def Nobody (w : World Resources) (a : Nat) : Prop :=
  (∀ mid, 1 ≤ mid → mid ≤ 16 → ¬ FreePage w mid a) ∧ ∀ pid fid f, Holds w pid fid f → f.base ≠ a

theorem mgr_withPages (w : World Resources) (m : Nat) (lp : List Nat) (n : Nat) :
    (withPages w m lp).ext.mgr n = if n = m then { w.ext.mgr m with lp := lp } else w.ext.mgr n := by
  show upd w.ext.mgr m _ n = _
  rw [upd_apply]

theorem free_withPages (w : World Resources) (m : Nat) (lp : List Nat) (mid a : Nat) :
    FreePage (withPages w m lp) mid a ↔ if mid - 1 = m then a ∈ lp else FreePage w mid a := by
  unfold FreePage
  rw [mgr_withPages]
  by_cases h : mid - 1 = m
  · simp only [h, if_true]
  · simp only [h, if_false]

theorem holds_withTable (w : World Resources) (pid fid : Nat) (e : Option Frame × Nat) (p i : Nat) (f : Frame)
    (hf : fid < (w.ext.frames pid).length) :
    Holds (withTable w pid ((w.ext.frames pid).set fid e)) p i f ↔
      if p = pid ∧ i = fid then e.1 = some f else Holds w p i f := by
  unfold Holds
  show (∃ n : Nat, (upd w.ext.frames pid _ p : Frames)[i]? = some (some f, n)) ↔ _
  rw [upd_apply]
  by_cases h : p = pid
  · subst h
    rw [if_pos rfl]
    by_cases h2 : i = fid
    · subst h2
      rw [if_pos ⟨rfl, rfl⟩, List.getElem?_set_self hf]
      obtain ⟨x, n⟩ := e
      simp
    · rw [if_neg (fun c => h2 c.2), List.getElem?_set_ne (Ne.symm h2)]
  · rw [if_neg h, if_neg (fun c => h c.1)]

theorem PageInv.pop {region : Nat → Option Frame} {w : World Resources} (h : PageInv region w) {mid a : Nat} {as : List Nat}
    (h0 : 1 ≤ mid) (h16 : mid ≤ 16) (e : (w.ext.mgr (mid - 1)).lp = a :: as) :
    PageInv region (withPages w (mid - 1) as) ∧ Nobody (withPages w (mid - 1) as) a := by
  have hm : ∀ n, 1 ≤ n → (n - 1 = mid - 1 ↔ n = mid) := fun n hn => by omega
  have hsub : ∀ n b, 1 ≤ n → FreePage (withPages w (mid - 1) as) n b → FreePage w n b := by
    intro n b hn hb
    rw [free_withPages] at hb
    by_cases hc : n - 1 = mid - 1
    · rw [if_pos hc] at hb
      unfold FreePage
      rw [hc, e]
      exact List.mem_cons_of_mem _ hb
    · rwa [if_neg hc] at hb
  have hnd := h.nodup mid h0 h16
  rw [e, List.nodup_cons] at hnd
  have hfa : FreePage w mid a := by unfold FreePage; rw [e]; exact List.mem_cons_self
  refine ⟨⟨?_, ?_, ?_, ?_, h.uniq, ?_, h.held, h.zero, h.len⟩, ?_, ?_⟩
  · intro n n0 n16
    rw [mgr_withPages]
    by_cases hc : n - 1 = mid - 1
    · rw [if_pos hc, ← hc]; exact h.node n n0 n16
    · rw [if_neg hc]; exact h.node n n0 n16
  · intro n n0 n16
    rw [mgr_withPages]
    by_cases hc : n - 1 = mid - 1
    · rw [if_pos hc]; exact hnd.2
    · rw [if_neg hc]; exact h.nodup n n0 n16
  · intro m n b m0 m16 n0 n16 hb hb'
    exact h.cross m n b m0 m16 n0 n16 (hsub m b m0 hb) (hsub n b n0 hb')
  · intro n b pid fid f n0 n16 hb
    exact h.excl n b pid fid f n0 n16 (hsub n b n0 hb)
  · intro n b n0 n16 hb
    exact h.free n b n0 n16 (hsub n b n0 hb)
  · intro n n0 n16 hb
    have := h.cross n mid a n0 n16 h0 h16 (hsub n a n0 hb) hfa
    subst this
    rw [free_withPages, if_pos rfl] at hb
    exact hnd.1 hb
  · intro pid fid f hh
    exact h.excl mid a pid fid f h0 h16 hfa hh

theorem PageInv.push {region : Nat → Option Frame} {w : World Resources} (h : PageInv region w) {mid a : Nat}
    (h0 : 1 ≤ mid) (h16 : mid ≤ 16) (hn : Nobody w a) (hal : a % LARGE = 0) (hlt : a < 2 ^ 64)
    (hr : ∃ g, region mid = some g ∧ Inside (page a) g.block) :
    PageInv region (withPages w (mid - 1) (a :: (w.ext.mgr (mid - 1)).lp)) := by
  have hsub : ∀ n b, 1 ≤ n → FreePage (withPages w (mid - 1) (a :: (w.ext.mgr (mid - 1)).lp)) n b →
      (b = a ∧ n = mid) ∨ FreePage w n b := by
    intro n b n0 hb
    rw [free_withPages] at hb
    by_cases hc : n - 1 = mid - 1
    · rw [if_pos hc, List.mem_cons] at hb
      rcases hb with hb | hb
      · exact .inl ⟨hb, by omega⟩
      · right
        unfold FreePage
        rwa [hc]
    · rw [if_neg hc] at hb
      exact .inr hb
  refine ⟨?_, ?_, ?_, ?_, h.uniq, ?_, h.held, h.zero, h.len⟩
  · intro n n0 n16
    rw [mgr_withPages]
    by_cases hc : n - 1 = mid - 1
    · rw [if_pos hc, ← hc]; exact h.node n n0 n16
    · rw [if_neg hc]; exact h.node n n0 n16
  · intro n n0 n16
    rw [mgr_withPages]
    by_cases hc : n - 1 = mid - 1
    · rw [if_pos hc]
      exact List.nodup_cons.2 ⟨hn.1 mid h0 h16, h.nodup mid h0 h16⟩
    · rw [if_neg hc]; exact h.nodup n n0 n16
  · intro m n b m0 m16 n0 n16 hb hb'
    rcases hsub m b m0 hb with ⟨e1, e2⟩ | hb
    · rcases hsub n b n0 hb' with ⟨_, e4⟩ | hb'
      · rw [e2, e4]
      · rw [e1] at hb'; exact absurd hb' (hn.1 n n0 n16)
    · rcases hsub n b n0 hb' with ⟨e3, _⟩ | hb'
      · rw [e3] at hb; exact absurd hb (hn.1 m m0 m16)
      · exact h.cross m n b m0 m16 n0 n16 hb hb'
  · intro n b pid fid f n0 n16 hb hh
    rcases hsub n b n0 hb with ⟨e1, _⟩ | hb
    · rw [e1]; exact hn.2 pid fid f hh
    · exact h.excl n b pid fid f n0 n16 hb hh
  · intro n b n0 n16 hb
    rcases hsub n b n0 hb with ⟨e1, e2⟩ | hb
    · rw [e1, e2]; exact ⟨hal, hlt, hr⟩
    · exact h.free n b n0 n16 hb

theorem zero_set {w : World Resources} (h : ∀ (pid fid n : Nat), (w.ext.frames pid : Frames)[fid]? = some (none, n) → n = 0)
    (pid fid : Nat) (x : Option Frame) (p i n : Nat)
    (e : ((withTable w pid ((w.ext.frames pid).set fid (x, 0))).ext.frames p : Frames)[i]? = some (none, n)) : n = 0 := by
  change (upd w.ext.frames pid _ p : Frames)[i]? = _ at e
  rw [upd_apply] at e
  by_cases hp : p = pid
  · subst hp
    rw [if_pos rfl] at e
    by_cases hi : i = fid
    · subst hi
      rw [List.getElem?_set] at e
      simp only [if_true] at e
      by_cases hl : i < (w.ext.frames p).length
      · rw [if_pos hl] at e
        injection e with e
        injection e with _ e
        exact e.symm
      · rw [if_neg hl] at e
        cases e
    · rw [List.getElem?_set_ne (Ne.symm hi)] at e
      exact h p i n e
  · rw [if_neg hp] at e
    exact h p i n e

theorem len_set {w : World Resources} (h : ∀ pid, (w.ext.frames pid).length = 192) (pid fid : Nat)
    (e : Option Frame × Nat) (p : Nat) :
    ((withTable w pid ((w.ext.frames pid).set fid e)).ext.frames p).length = 192 := by
  show (upd w.ext.frames pid _ p).length = 192
  rw [upd_apply]
  split
  · rw [List.length_set]; exact h pid
  · exact h p

theorem PageInv.add {region : Nat → Option Frame} {w : World Resources} (h : PageInv region w) {pid fid size mid a : Nat}
    (hn : Nobody w a) (hal : a % LARGE = 0) (hlt : a < 2 ^ 64) (hs : size ≤ 2097152)
    (h0 : 1 ≤ mid) (h16 : mid ≤ 16) (hr : ∃ g, region mid = some g ∧ Inside (page a) g.block)
    (hf : fid < (w.ext.frames pid).length) :
    PageInv region (withTable w pid ((w.ext.frames pid).set fid (some ⟨a, size, 12 + mid⟩, 0))) := by
  have hsub : ∀ p i f, Holds (withTable w pid ((w.ext.frames pid).set fid (some ⟨a, size, 12 + mid⟩, 0))) p i f →
      (p = pid ∧ i = fid ∧ f = ⟨a, size, 12 + mid⟩) ∨ Holds w p i f := by
    intro p i f hh
    rw [holds_withTable w pid fid _ p i f hf] at hh
    by_cases hc : p = pid ∧ i = fid
    · rw [if_pos hc] at hh
      exact .inl ⟨hc.1, hc.2, by injection hh with hh; exact hh.symm⟩
    · rw [if_neg hc] at hh
      exact .inr hh
  refine ⟨h.node, h.nodup, h.cross, ?_, ?_, h.free, ?_, zero_set h.zero pid fid _, len_set h.len pid fid _⟩
  · intro n b p i f n0 n16 hb hh
    rcases hsub p i f hh with ⟨_, _, rfl⟩ | hh
    · intro he
      exact hn.1 n n0 n16 (by rw [show a = b from he]; exact hb)
    · exact h.excl n b p i f n0 n16 hb hh
  · intro p i f q j g hh hh' he
    rcases hsub p i f hh with ⟨e1, e2, rfl⟩ | hh
    · rcases hsub q j g hh' with ⟨e3, e4, rfl⟩ | hh'
      · exact ⟨e1.trans e3.symm, e2.trans e4.symm⟩
      · exact absurd he.symm (hn.2 q j g hh')
    · rcases hsub q j g hh' with ⟨e3, e4, rfl⟩ | hh'
      · exact absurd he (hn.2 p i f hh)
      · exact h.uniq p i f q j g hh hh' he
  · intro p i f hh
    rcases hsub p i f hh with ⟨_, _, rfl⟩ | hh
    · obtain ⟨g, hg1, hg2⟩ := hr
      exact ⟨hs, hal, hlt, mid, g, h0, h16, rfl, hg1, hg2⟩
    · exact h.held p i f hh

theorem PageInv.drop {region : Nat → Option Frame} {w : World Resources} (h : PageInv region w) {pid fid n : Nat} {f : Frame}
    (hf : (w.ext.frames pid : Frames)[fid]? = some (some f, n)) :
    PageInv region (withTable w pid ((w.ext.frames pid).set fid (none, 0))) ∧
    Nobody (withTable w pid ((w.ext.frames pid).set fid (none, 0))) f.base := by
  have hl : fid < (w.ext.frames pid).length := (List.getElem?_eq_some_iff.1 hf).1
  have hsub : ∀ p i g, Holds (withTable w pid ((w.ext.frames pid).set fid (none, 0))) p i g →
      ¬ (p = pid ∧ i = fid) ∧ Holds w p i g := by
    intro p i g hh
    rw [holds_withTable w pid fid _ p i g hl] at hh
    by_cases hc : p = pid ∧ i = fid
    · rw [if_pos hc] at hh; cases hh
    · rw [if_neg hc] at hh; exact ⟨hc, hh⟩
  refine ⟨⟨h.node, h.nodup, h.cross, ?_, ?_, h.free, ?_, zero_set h.zero pid fid _, len_set h.len pid fid _⟩, ?_, ?_⟩
  · intro n b p i f n0 n16 hb hh
    exact h.excl n b p i f n0 n16 hb (hsub p i f hh).2
  · intro p i f q j g hh hh' he
    exact h.uniq p i f q j g (hsub p i f hh).2 (hsub q j g hh').2 he
  · intro p i f hh
    exact h.held p i f (hsub p i f hh).2
  · intro mid m0 m16 hb
    exact h.excl mid f.base pid fid f m0 m16 hb ⟨n, hf⟩ rfl
  · intro p i g hh he
    obtain ⟨hne, hh⟩ := hsub p i g hh
    exact hne (h.uniq p i g pid fid f hh ⟨n, hf⟩ he)

theorem page_mem (a : Nat) : (page a).Has a := ⟨Nat.le_refl _, by show a < a + 2097152; omega⟩

theorem BootPages.spec {mid : Nat} {m : MCache} : ∀ {reg : Option Frame}, BootPages mid m reg →
    m.node = 12 + mid ∧ m.lp.Nodup ∧
    ∀ a ∈ m.lp, a % LARGE = 0 ∧ a < 2 ^ 64 ∧ ∃ g, reg = some g ∧ Inside (page a) g.block
  | none, h => by
    cases h
    exact ⟨rfl, List.nodup_nil, fun a ha => by cases ha⟩
  | some f, ⟨hok, hle, h⟩ => by
    have hp : ∃ n, (MCache.new 0 65536 (12 + mid)).populate f n = .ok m := by
      unfold registeredPages MCache.populate4kFirst at h
      split at h
      · exact ⟨_, h⟩
      · split at h
        · cases h
        · exact ⟨_, h⟩
    obtain ⟨n, hp⟩ := hp
    obtain ⟨nb, nl, e, hd, hin, _, hal⟩ := c22_populate (MCache.new 0 65536 (12 + mid)) f hok n
    rw [e] at hp
    cases hp
    have hlp : (nl ++ (MCache.new 0 65536 (12 + mid)).lp) = nl := List.append_nil nl
    show _ ∧ (nl ++ (MCache.new 0 65536 (12 + mid)).lp).Nodup ∧ ∀ a ∈ (nl ++ (MCache.new 0 65536 (12 + mid)).lp), _
    rw [hlp]
    refine ⟨rfl, ?_, ?_⟩
    · have h2 := (List.pairwise_append.1 hd).2.1
      rw [List.pairwise_map] at h2
      refine h2.imp ?_
      intro a b hab he
      subst he
      exact hab a ⟨⟨Nat.le_refl _, by show a < a + LARGE; rw [LARGE_eq]; omega⟩,
        ⟨Nat.le_refl _, by show a < a + LARGE; rw [LARGE_eq]; omega⟩⟩
    · intro a ha
      have hi : Inside (page a) f.block := by
        have := hin ⟨a, LARGE⟩ (List.mem_append.2 (.inr (List.mem_map.2 ⟨a, ha, rfl⟩)))
        rw [LARGE_eq] at this
        exact this
      refine ⟨hal a ha, ?_, f, rfl, hi⟩
      have := hi a (page_mem a)
      unfold Block.Has at this
      have h3 : a < f.base + f.size := this.2
      omega

theorem PageInv.boot {region : Nat → Option Frame} {w : World Resources}
    (hb : ∀ mid, 1 ≤ mid → mid ≤ 16 → BootPages mid (w.ext.mgr (mid - 1)) (region mid))
    (hd : ∀ m n f g, region m = some f → region n = some g → m ≠ n → Disjoint f.block g.block)
    (hf : ∀ pid, w.ext.frames pid = Frames.new) : PageInv region w := by
  have hh : ∀ p i f, ¬ Holds w p i f := by
    intro p i f ⟨n, hn⟩
    rw [hf p] at hn
    unfold Frames.new at hn
    rw [List.getElem?_replicate] at hn
    split at hn <;> cases hn
  have hz : ∀ (pid fid n : Nat), (w.ext.frames pid : Frames)[fid]? = some (none, n) → n = 0 := by
    intro p i n hn
    rw [hf p] at hn
    unfold Frames.new at hn
    rw [List.getElem?_replicate] at hn
    split at hn <;> cases hn
    rfl
  refine ⟨fun mid m0 m16 => (hb mid m0 m16).spec.1, fun mid m0 m16 => (hb mid m0 m16).spec.2.1, ?_,
    fun _ _ p i f _ _ _ h => absurd h (hh p i f), fun p i f _ _ _ h => absurd h (hh p i f),
    fun mid a m0 m16 h => (hb mid m0 m16).spec.2.2 a h, fun p i f h => absurd h (hh p i f), hz,
    fun pid => by rw [hf pid]; exact List.length_replicate⟩
  intro m n a m0 m16 n0 n16 h1 h2
  obtain ⟨_, _, f, hf1, hf2⟩ := (hb m m0 m16).spec.2.2 a h1
  obtain ⟨_, _, g, hg1, hg2⟩ := (hb n n0 n16).spec.2.2 a h2
  by_cases hmn : m = n
  · exact hmn
  · exact absurd ⟨hf2 a (page_mem a), hg2 a (page_mem a)⟩ (hd m n f g hf1 hg1 hmn a)

theorem Nobody.pop {w : World Resources} {mid a : Nat} {as : List Nat} (m0 : 1 ≤ mid)
    (e : (w.ext.mgr (mid - 1)).lp = a :: as) {b : Nat} (h : Nobody w b) : Nobody (withPages w (mid - 1) as) b := by
  refine ⟨fun n n0 n16 hb => h.1 n n0 n16 ?_, h.2⟩
  rw [free_withPages] at hb
  by_cases hc : n - 1 = mid - 1
  · rw [if_pos hc] at hb
    unfold FreePage
    rw [hc, e]
    exact List.mem_cons_of_mem _ hb
  · rwa [if_neg hc] at hb

theorem Nobody.push {w : World Resources} {mid a : Nat} {b : Nat} (h : Nobody w b) (hne : a ≠ b) :
    Nobody (withPages w (mid - 1) (a :: (w.ext.mgr (mid - 1)).lp)) b := by
  refine ⟨fun n n0 n16 hb => h.1 n n0 n16 ?_, h.2⟩
  rw [free_withPages] at hb
  by_cases hc : n - 1 = mid - 1
  · rw [if_pos hc, List.mem_cons] at hb
    unfold FreePage
    rw [hc]
    exact hb.resolve_left (fun e => hne e.symm)
  · rwa [if_neg hc] at hb

theorem Nobody.add {w : World Resources} {pid fid : Nat} {f : Frame} {b n : Nat} (h : Nobody w b) (hne : f.base ≠ b)
    (hf : fid < (w.ext.frames pid).length) :
    Nobody (withTable w pid ((w.ext.frames pid).set fid (some f, n))) b := by
  refine ⟨h.1, fun p i g hh => ?_⟩
  rw [holds_withTable w pid fid _ p i g hf] at hh
  by_cases hc : p = pid ∧ i = fid
  · rw [if_pos hc] at hh
    injection hh with hh
    rw [← hh]; exact hne
  · rw [if_neg hc] at hh
    exact h.2 p i g hh

theorem Nobody.drop {w : World Resources} {pid fid : Nat} {b n : Nat} (h : Nobody w b)
    (hf : fid < (w.ext.frames pid).length) :
    Nobody (withTable w pid ((w.ext.frames pid).set fid (none, n))) b := by
  refine ⟨h.1, fun p i g hh => ?_⟩
  rw [holds_withTable w pid fid _ p i g hf] at hh
  by_cases hc : p = pid ∧ i = fid
  · rw [if_pos hc] at hh; cases hh
  · rw [if_neg hc] at hh
    exact h.2 p i g hh

/-- What every step keeps. -/
structure Kept (region : Nat → Option Frame) (w : World Resources) (c : Ctrl Resources) : Prop where
  inv : PageInv region c.world
  srv : c.srv.data.length = ENTRY
  nobody : ∀ a, Nobody w a → Nobody c.world a

theorem alloc_kept {region : Nat → Option Frame} {c0 c : Ctrl Resources} (ih : PageInv region c0.world) {o : Oracle}
    {l : Link} (hc : Conn l c0) {pid size aff : Nat} {res : Outcome (UInt64 × UInt64)} (hp : pid < 2 ^ 64)
    (hz : size ≤ 2097152) (ha : aff < 2 ^ 64) (he : allocatePhysical c0 o l pid size aff = (res, c)) :
    Kept region c0.world c := by
  obtain ⟨srv, s1, c1, c2, c3⟩ := c65_allocate c0 o l hc pid size aff hp (by omega) ha
  by_cases hbad : o.mid = 0 ∨ 16 < o.mid
  · rw [c1 hbad] at he; cases he; exact ⟨ih, s1, fun _ h => h⟩
  have m0 : 1 ≤ o.mid := by omega
  have m16 : o.mid ≤ 16 := by omega
  cases hlp : (c0.world.ext.mgr (o.mid - 1)).lp with
  | nil => rw [c2 m0 m16 hlp] at he; cases he; exact ⟨ih, s1, fun _ h => h⟩
  | cons a as =>
    have hfa : FreePage c0.world o.mid a := by unfold FreePage; rw [hlp]; exact List.mem_cons_self
    have hfr := ih.free o.mid a m0 m16 hfa
    obtain ⟨d1, d2, d3⟩ := c3 m0 m16 a as hlp (ih.node o.mid m0 m16) hfr.1 hfr.2.1
    obtain ⟨p1, p2⟩ := ih.pop m0 m16 hlp
    by_cases hsz : size % 4096 = 0
    · rcases add_exact (c0.world.ext.frames pid) ⟨a, size, 12 + o.mid⟩ with ⟨fid, hl, _⟩ | ⟨hall, _⟩
      · rw [d3 hsz fid hl] at he
        cases he
        obtain ⟨n, hn⟩ := hl.1
        have hlen := (List.getElem?_eq_some_iff.1 hn).1
        refine ⟨p1.add p2 hfr.1 hfr.2.1 hz m0 m16 hfr.2.2 hlen, s1, fun b hb => ?_⟩
        exact Nobody.add (w := withPages c0.world (o.mid - 1) as) (hb.pop m0 hlp)
          (fun e => hb.1 o.mid m0 m16 (by rw [← show a = b from e]; exact hfa)) hlen
      · rw [d2 hsz hall] at he
        cases he
        exact ⟨p1, s1, fun b hb => hb.pop m0 hlp⟩
    · rw [d1 hsz] at he
      cases he
      exact ⟨p1, s1, fun b hb => hb.pop m0 hlp⟩

theorem free_kept {region : Nat → Option Frame} {c0 c : Ctrl Resources} (ih : PageInv region c0.world) {o : Oracle}
    {l : Link} (hc : Conn l c0) {pid fid : Nat} {res : Outcome (UInt64 × UInt64)} (hp : pid < 2 ^ 64)
    (he : releasePhysical c0 o l pid fid = (res, c)) : Kept region c0.world c := by
  obtain ⟨c1, c2, c3⟩ := c65_release c0 o l hc pid fid hp
  rcases hf : (c0.world.ext.frames pid : Frames)[fid]? with _ | ⟨_ | f, n⟩
  · rw [c2 (.inl hf)] at he; cases he; exact ⟨ih, hc.srv, fun _ h => h⟩
  · have := ih.zero pid fid n hf
    subst this
    rw [c2 (.inr hf)] at he; cases he; exact ⟨ih, hc.srv, fun _ h => h⟩
  · cases n with
    | succ n => rw [c1 f n hf] at he; cases he; exact ⟨ih, hc.srv, fun _ h => h⟩
    | zero =>
      obtain ⟨g1, g2, g3, mid, g, m0, m16, g4, g5, g6⟩ := ih.held pid fid f ⟨0, hf⟩
      obtain ⟨srv, s1, d1, d2⟩ := c3 f mid hf g3 (by omega) g4 m0 m16 g2 (ih.node mid m0 m16)
      obtain ⟨p1, p2⟩ := ih.drop hf
      have hlen := (List.getElem?_eq_some_iff.1 hf).1
      by_cases hroom : (c0.world.ext.mgr (mid - 1)).lp.length < (c0.world.ext.mgr (mid - 1)).capL
      · rw [d1 hroom] at he
        cases he
        exact ⟨p1.push m0 m16 p2 g2 g3 ⟨g, g5, g6⟩, s1,
          fun b hb => (Nobody.drop hb hlen).push (hb.2 pid fid f ⟨0, hf⟩)⟩
      · rw [d2 hroom] at he
        cases he
        exact ⟨p1, s1, fun b hb => Nobody.drop hb hlen⟩

theorem takePages_bad (mid : Nat) (ms : List Nat) (w : World Resources)
    (h : (mid = 0 ∨ 16 < mid) ∨ (w.ext.mgr (mid - 1)).lp = []) : takePages (mid :: ms) w = (.panic, w) := by
  unfold takePages
  by_cases hbad : mid = 0 ∨ maxMachines < mid
  · rw [if_pos hbad]
  · rw [if_neg hbad]
    have hlp := h.resolve_left hbad
    simp only [MCache.allocLarge, hlp, upd_self]

theorem takePages_cons (mid : Nat) (ms : List Nat) (w : World Resources) (m0 : 1 ≤ mid) (m16 : mid ≤ 16)
    (hn : (w.ext.mgr (mid - 1)).node = 12 + mid) {a : Nat} {as : List Nat}
    (hlp : (w.ext.mgr (mid - 1)).lp = a :: as) (hal : a % LARGE = 0) :
    takePages (mid :: ms) w =
      match takePages ms (withPages w (mid - 1) as) with
      | (.ok fs, w2) => (.ok (⟨a, 2097152, 12 + mid⟩ :: fs), w2)
      | r => r := by
  conv => lhs; unfold takePages
  rw [if_neg (by show ¬ (mid = 0 ∨ 16 < mid); omega)]
  simp only [MCache.allocLarge, hlp, Mem.new_large hal]
  rw [if_pos (show (w.ext.mgr (mid - 1)).node = Mem.midToShmemAffinity mid from hn), hn, LARGE_eq]
  simp only [withPages, hn]
  generalize takePages ms _ = q
  obtain ⟨q1, q2⟩ := q
  cases q1 <;> rfl

/-- The result of a request and the pages given agree. -/
theorem takePages_given {region : Nat → Option Frame} : ∀ (ms : List Nat) (w : World Resources), PageInv region w →
    PageInv region (takePages ms w).2 ∧ (∀ a, Nobody w a → Nobody (takePages ms w).2 a) ∧
    ((takePages ms w).1 = .panic ∨ ∃ fs, (takePages ms w).1 = .ok fs ∧ Given w ms fs (takePages ms w).2) := by
  intro ms
  induction ms with
  | nil => intro w h; exact ⟨h, fun _ h => h, .inr ⟨[], rfl, .nil⟩⟩
  | cons mid ms ih =>
    intro w h
    by_cases hbad : (mid = 0 ∨ 16 < mid) ∨ (w.ext.mgr (mid - 1)).lp = []
    · rw [takePages_bad mid ms w hbad]; exact ⟨h, fun _ h => h, .inl rfl⟩
    · have m0 : 1 ≤ mid := by omega
      have m16 : mid ≤ 16 := by omega
      obtain ⟨a, as, hlp⟩ := List.exists_cons_of_ne_nil (fun e => hbad (.inr e))
      have hfr := h.free mid a m0 m16 (by unfold FreePage; rw [hlp]; exact List.mem_cons_self)
      rw [takePages_cons mid ms w m0 m16 (h.node mid m0 m16) hlp hfr.1]
      obtain ⟨i1, i2, i3⟩ := ih (withPages w (mid - 1) as) (h.pop m0 m16 hlp).1
      have hnb := fun b (hb : Nobody w b) => i2 b (hb.pop m0 hlp)
      rcases i3 with i3 | ⟨fs, i3, i4⟩
      · generalize takePages ms (withPages w (mid - 1) as) = q at i1 i2 i3 hnb
        obtain ⟨q1, q2⟩ := q
        simp only at i3
        subst i3
        exact ⟨i1, hnb, .inl rfl⟩
      · generalize takePages ms (withPages w (mid - 1) as) = q at i1 i2 i3 i4 hnb
        obtain ⟨q1, q2⟩ := q
        simp only at i3
        subst i3
        exact ⟨i1, hnb, .inr ⟨_, rfl, .cons m0 m16 hlp i4⟩⟩

theorem Given.length {w w' : World Resources} {ms : List Nat} {fs : List Frame} (h : Given w ms fs w') :
    fs.length = ms.length := by
  induction h with
  | nil => rfl
  | cons _ _ _ _ ih => rw [List.length_cons, List.length_cons, ih]

/-- What is known of the pages given. -/
theorem Given.facts {region : Nat → Option Frame} {w w' : World Resources} {ms : List Nat} {fs : List Frame}
    (h : Given w ms fs w') : PageInv region w → (∀ f ∈ fs, Sendable f ∧ Nobody w' f.base ∧
      (∃ mid g, 1 ≤ mid ∧ mid ≤ 16 ∧ f.aff = 12 + mid ∧ FreePage w mid f.base ∧ region mid = some g ∧
        Inside (page f.base) g.block)) ∧ (∀ a, Nobody w a → Nobody w' a) ∧
      (fs.map (·.base)).Nodup := by
  induction h with
  | nil => intro _; exact ⟨fun f hf => (by cases hf), fun _ h => h, List.nodup_nil⟩
  | @cons w w' mid a as ms fs m0 m16 hlp _ ih =>
    intro hi
    obtain ⟨p1, p2⟩ := hi.pop m0 m16 hlp
    obtain ⟨i1, i2, i3⟩ := ih p1
    have hfa : FreePage w mid a := by unfold FreePage; rw [hlp]; exact List.mem_cons_self
    have hfr := hi.free mid a m0 m16 hfa
    refine ⟨fun f hf => ?_, fun b hb => i2 b (hb.pop m0 hlp), ?_⟩
    · rcases List.mem_cons.1 hf with rfl | hf
      · obtain ⟨g, g1, g2⟩ := hfr.2.2
        exact ⟨⟨LARGE_eq.symm, hfr.1, hfr.2.1, by show 12 + mid < 2 ^ 64; omega⟩, i2 a p2, mid, g, m0, m16, rfl, hfa, g1, g2⟩
      · obtain ⟨j1, j2, m, g, j3, j4, j5, j6, j7⟩ := i1 f hf
        refine ⟨j1, j2, m, g, j3, j4, j5, ?_, j7⟩
        rw [free_withPages] at j6
        by_cases hc : m - 1 = mid - 1
        · rw [if_pos hc] at j6
          unfold FreePage
          rw [hc, hlp]
          exact List.mem_cons_of_mem _ j6
        · rwa [if_neg hc] at j6
    · rw [List.map_cons, List.nodup_cons]
      refine ⟨fun hm => ?_, i3⟩
      obtain ⟨f, hf, he⟩ := List.mem_map.1 hm
      obtain ⟨_, _, m, g, j3, j4, _, j6, _⟩ := i1 f hf
      exact p2.1 m j3 j4 (by rw [show a = f.base from he.symm]; exact j6)

/-- The other direction. -/
theorem Given.take {region : Nat → Option Frame} {w w' : World Resources} {ms : List Nat} {fs : List Frame}
    (h : Given w ms fs w') : PageInv region w → takePages ms w = (.ok fs, w') := by
  induction h with
  | nil => intro _; rfl
  | @cons w w' mid a as ms fs m0 m16 hlp _ ih =>
    intro hi
    obtain ⟨p1, p2⟩ := hi.pop m0 m16 hlp
    have hfa : FreePage w mid a := by unfold FreePage; rw [hlp]; exact List.mem_cons_self
    have hfr := hi.free mid a m0 m16 hfa
    rw [takePages_cons mid ms w m0 m16 (hi.node mid m0 m16) hlp hfr.1, ih p1]

/-- A request for pages of any kind. -/
theorem grants_given {region : Nat → Option Frame} (o : Oracle) (me : Nat) (pid : Option Nat) (n : Nat)
    (w : World Resources) (h : PageInv region w) :
    PageInv region (grants o me pid n w).2 ∧ (∀ a, Nobody w a → Nobody (grants o me pid n w).2 a) ∧
    ((grants o me pid n w).1 = .panic ∨ (∃ e, (grants o me pid n w).1 = .err e) ∨
      ∃ ms fs, ms.length = n ∧ (grants o me pid n w).1 = .ok fs ∧ Given w ms fs (grants o me pid n w).2) := by
  have key : ∀ ms : List Nat, ms.length = n → PageInv region (takePages ms w).2 ∧
      (∀ a, Nobody w a → Nobody (takePages ms w).2 a) ∧ ((takePages ms w).1 = .panic ∨
      (∃ e, (takePages ms w).1 = .err e) ∨
      ∃ ms' fs, ms'.length = n ∧ (takePages ms w).1 = .ok fs ∧ Given w ms' fs (takePages ms w).2) := by
    intro ms hms
    obtain ⟨a, b, c⟩ := takePages_given ms w h
    refine ⟨a, b, ?_⟩
    rcases c with c | ⟨fs, c, d⟩
    · exact .inl c
    · exact .inr (.inr ⟨ms, fs, hms, c, d⟩)
  cases pid with
  | some p => exact key _ (by simp)
  | none =>
    unfold grants affinityAlloc
    simp only
    by_cases h0 : me = 0
    · rw [if_pos h0]; exact ⟨h, fun _ h => h, .inl rfl⟩
    · rw [if_neg h0]
      by_cases ha : o.accepts = false
      · rw [if_pos ha]; exact ⟨h, fun _ h => h, .inr (.inl ⟨_, rfl⟩)⟩
      · rw [if_neg ha]; exact key _ (by simp)

theorem take_kept {region : Nat → Option Frame} {c0 c : Ctrl Resources} (ih : PageInv region c0.world) {o : Oracle}
    {l : Link} (hc : Conn l c0) {me n : Nat} {pid : Option Nat} {res : Outcome (List Frame)} (hm : me < 2 ^ 64)
    (hp : ∀ p, pid = some p → p < 2 ^ 64) (hn : n < 2 ^ 64)
    (he : getShmemFrames c0 o l me pid n = (res, c)) :
    Kept region c0.world c ∧ (c.world = c0.world ∨ c.world = (grants o me pid n c0.world).2) ∧
    (∀ fs, res = .ok fs → ∃ ms, ms.length = n ∧ Given c0.world ms fs c.world) := by
  by_cases h0 : 0 < n
  · obtain ⟨g1, g2, g3⟩ := getFrames_eq c0 o l hc me pid n hm hp h0 hn
    obtain ⟨k1, k2, k3⟩ := grants_given o me pid n c0.world ih
    rcases k3 with k3 | ⟨e, k3⟩ | ⟨ms, fs, km, k3, k4⟩
    · obtain ⟨srv, s1, e⟩ := g1 k3
      rw [e] at he; cases he
      exact ⟨⟨k1, s1, k2⟩, .inr rfl, fun fs h => by cases h⟩
    · obtain ⟨srv, s1, e⟩ := g2 _ k3
      rw [e] at he; cases he
      exact ⟨⟨k1, s1, k2⟩, .inr rfl, fun fs h => by cases h⟩
    · obtain ⟨srv, s1, e⟩ := g3 fs k3 (k4.length.trans km) (fun f hf => ((k4.facts ih).1 f hf).1)
      rw [e] at he; cases he
      refine ⟨⟨k1, s1, k2⟩, .inr rfl, fun fs' h => ?_⟩
      by_cases h508 : n ≤ 508
      · rw [if_pos h508] at h; cases h; exact ⟨ms, km, k4⟩
      · rw [if_neg h508] at h; cases h
  · have : getShmemFrames c0 o l me pid n = (.panic, c0) := by
      unfold getShmemFrames; rw [if_pos (by omega)]
    rw [this] at he
    cases he
    exact ⟨⟨ih, hc.srv, fun _ h => h⟩, .inl rfl, fun fs h => by cases h⟩

theorem srv_upd {r : Cluster Resources} {k : Nat} {srv : Rpc.Server} (hs : ∀ k, (r.srv k).data.length = ENTRY)
    (h : srv.data.length = ENTRY) (k' : Nat) : (upd r.srv k srv k').data.length = ENTRY := by
  rw [upd_apply]
  split
  · exact h
  · exact hs k'

theorem PageHist.inv {region : Nat → Option Frame} {r : Cluster Resources} (h : PageHist region r) :
    PageInv region r.world ∧ ∀ k, (r.srv k).data.length = ENTRY := by
  induction h with
  | boot hb hd hf hs => exact ⟨.boot hb hd hf, hs⟩
  | @alloc r k o l pid size aff res c _ l1 l2 hp hz ha he ih =>
    obtain ⟨ih, hs⟩ := ih
    have key := alloc_kept (c0 := ⟨r.srv k, r.world⟩) ih ⟨l1, l2, hs k⟩ hp hz ha he
    exact ⟨key.inv, srv_upd hs key.srv⟩
  | @free r k o l pid fid res c _ l1 l2 hp he ih =>
    obtain ⟨ih, hs⟩ := ih
    have key := free_kept (c0 := ⟨r.srv k, r.world⟩) ih ⟨l1, l2, hs k⟩ hp he
    exact ⟨key.inv, srv_upd hs key.srv⟩
  | @take r k o l me n pid res c _ l1 l2 hm hp hn he ih =>
    obtain ⟨ih, hs⟩ := ih
    have key := (take_kept (c0 := ⟨r.srv k, r.world⟩) ih ⟨l1, l2, hs k⟩ hm hp hn he).1
    exact ⟨key.inv, srv_upd hs key.srv⟩
  | @other r r' _ hm hh hz hl hs ih =>
    obtain ⟨ih, _⟩ := ih
    have hfp : ∀ mid a, FreePage r'.world mid a ↔ FreePage r.world mid a := fun mid a => by
      unfold FreePage; rw [hm]
    refine ⟨⟨?_, ?_, ?_, ?_, ?_, ?_, ?_, hz,
      fun pid => (hl pid).trans (ih.len pid)⟩, hs⟩
    · rw [hm]; exact ih.node
    · rw [hm]; exact ih.nodup
    · intro m n a m0 m16 n0 n16 h1 h2
      exact ih.cross m n a m0 m16 n0 n16 ((hfp m a).1 h1) ((hfp n a).1 h2)
    · intro m a p i f m0 m16 h1 h2
      exact ih.excl m a p i f m0 m16 ((hfp m a).1 h1) ((hh p i f).1 h2)
    · intro p i f q j g h1 h2
      exact ih.uniq p i f q j g ((hh p i f).1 h1) ((hh q j g).1 h2)
    · intro m a m0 m16 h1
      exact ih.free m a m0 m16 ((hfp m a).1 h1)
    · intro p i f h1
      exact ih.held p i f ((hh p i f).1 h1)

end NRK.Rack.Remote
