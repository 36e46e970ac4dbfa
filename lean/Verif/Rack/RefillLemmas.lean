import Verif.Rack.RefillSpec
import Verif.Rack.MapPlan

/-!
# How a kernel refills its shared memory: helper lemmas
-/

namespace NRK.Rack.Remote

open Rpc (ENTRY ENTRY_eq)
open NRK.Mem (Frame MCache LARGE BASE LARGE_eq BASE_eq CoreMem Topo Arena validNode c26_switch)

theorem takeSame {region : Nat → Option Frame} (m : Nat) (m0 : 1 ≤ m) (m16 : m ≤ 16) : ∀ (n : Nat) (w : World Resources),
    PageInv region w →
    (n ≤ (w.ext.mgr (m - 1)).lp.length → ∃ fs w', takePages (List.replicate n m) w = (.ok fs, w') ∧
      Given w (List.replicate n m) fs w') ∧
    ((w.ext.mgr (m - 1)).lp.length < n → (takePages (List.replicate n m) w).1 = .panic) := by
  intro n
  induction n with
  | zero => exact fun w _ => ⟨fun _ => ⟨[], w, rfl, .nil⟩, fun h => absurd h (Nat.not_lt_zero _)⟩
  | succ n ih =>
    intro w hi
    rw [List.replicate_succ]
    cases hlp : (w.ext.mgr (m - 1)).lp with
    | nil =>
      rw [takePages_bad m _ w (.inr hlp)]
      exact ⟨fun h => absurd h (by simp), fun _ => rfl⟩
    | cons a as =>
      obtain ⟨p1, _⟩ := hi.pop m0 m16 hlp
      have hfr := hi.free m a m0 m16 (by unfold FreePage; rw [hlp]; exact List.mem_cons_self)
      obtain ⟨i1, i2⟩ := ih _ p1
      rw [takePages_cons m _ w m0 m16 (hi.node m m0 m16) hlp hfr.1]
      have hl : ((withPages w (m - 1) as).ext.mgr (m - 1)).lp = as := by rw [mgr_withPages, if_pos rfl]
      rw [hl] at i1 i2
      constructor
      · intro hn
        obtain ⟨fs, w', e, g⟩ := i1 (by simpa using hn)
        rw [e]
        exact ⟨_, _, rfl, .cons m0 m16 hlp g⟩
      · intro hn
        have := i2 (by simpa using hn)
        generalize takePages (List.replicate n m) (withPages w (m - 1) as) = q at this
        obtain ⟨q1, q2⟩ := q
        simp only at this
        subst this
        rfl

/-- The machine whose pages the host gets when it asks for pages of machine `mid`. -/
def Host.source (h : Host) (mid : Nat) : Nat := if h.controller then mid else h.me

/-- A request for pages, as the kernel sees it. -/
theorem requestPages_eq {region : Nat → Option Frame} {c : Ctrl Resources} (hi : PageInv region c.world) (h : Host)
    (o : Oracle) (l : Link) (hc : Conn l c) (mid n : Nat) (s1 : 1 ≤ h.source mid) (s16 : h.source mid ≤ 16)
    (hn : n ≤ 508) (h0 : h.controller = false → 0 < n) :
    (o.accepts = false → ∃ srv, srv.data.length = ENTRY ∧
      requestPages h o l mid n c = (.err .dcmNotEnoughMemory, ⟨srv, c.world⟩)) ∧
    (o.accepts = true → n ≤ (c.world.ext.mgr (h.source mid - 1)).lp.length → ∃ srv fs w', srv.data.length = ENTRY ∧
      requestPages h o l mid n c = (.ok fs, ⟨srv, w'⟩) ∧ Given c.world (List.replicate n (h.source mid)) fs w') ∧
    (o.accepts = true → (c.world.ext.mgr (h.source mid - 1)).lp.length < n →
      (requestPages h o l mid n c).1 = .panic) := by
  obtain ⟨t1, t2⟩ := takeSame (h.source mid) s1 s16 n c.world hi
  unfold requestPages
  unfold Host.source at *
  by_cases hcon : h.controller = true
  · simp only [hcon, if_true] at *
    have ha : affinityAlloc o mid n c.world = if o.accepts = false then (.err .dcmNotEnoughMemory, c.world)
        else takePages (List.replicate n mid) c.world := by
      unfold affinityAlloc; rw [if_neg (by omega)]
    refine ⟨fun hr => ⟨c.srv, hc.srv, ?_⟩, fun hr hl => ?_, fun hr hl => ?_⟩
    · rw [ha, if_pos hr]
    · obtain ⟨fs, w', e, g⟩ := t1 hl
      refine ⟨c.srv, fs, w', hc.srv, ?_, g⟩
      rw [ha, if_neg (by simp [hr]), e]
      simp only
      rw [regionFrames_eq fs fun f hf => ⟨((g.facts hi).1 f hf).1.1, ((g.facts hi).1 f hf).1.2.1⟩]
    · rw [ha, if_neg (by simp [hr])]
      have := t2 hl
      generalize takePages (List.replicate n mid) c.world = q at this
      obtain ⟨q1, q2⟩ := q
      simp only at this
      subst this
      rfl
  · simp only [Bool.not_eq_true] at hcon
    simp only [hcon] at *
    rw [if_neg (by simp)] at s1 s16 t1 t2
    have hg : grants o h.me none n c.world = if o.accepts = false then (.err .dcmNotEnoughMemory, c.world)
        else takePages (List.replicate n h.me) c.world := by
      unfold grants affinityAlloc; simp only; rw [if_neg (by omega)]
    obtain ⟨g1, g2, g3⟩ := getFrames_eq c o l hc h.me none n (by omega) (fun _ h => by cases h) (h0 trivial) (by omega)
    simp only [if_neg (show ¬ (false = true) by simp)]
    refine ⟨fun hr => ?_, fun hr hl => ?_, fun hr hl => ?_⟩
    · rw [hg, if_pos hr] at g2
      exact g2 _ rfl
    · obtain ⟨fs, w', e, g⟩ := t1 hl
      rw [hg, if_neg (by simp [hr]), e] at g3
      obtain ⟨srv, q1, q2⟩ := g3 fs rfl (by rw [g.length, List.length_replicate]) fun f hf => ((g.facts hi).1 f hf).1
      rw [if_pos hn] at q2
      exact ⟨srv, fs, w', q1, q2, g⟩
    · rw [hg, if_neg (by simp [hr])] at g1
      obtain ⟨srv, _, e⟩ := g1 (t2 hl)
      rw [e]

theorem moveBase_exact (n : Nat) : ∀ (nc tc : MCache), nc.Wf → 12 ≤ nc.node → 12 ≤ tc.node → n ≤ nc.bp.length →
    tc.bp.length + n ≤ tc.capB →
    Mem.moveBase true nc tc n = (.ok (), { nc with bp := nc.bp.drop n },
      { tc with bp := (nc.bp.take n).reverse ++ tc.bp }) := by
  induction n with
  | zero => intro nc tc _ _ _ _ _; rfl
  | succ n ih =>
    intro nc tc hw h1 h2 hn hl
    cases hb : nc.bp with
    | nil => rw [hb] at hn; simp at hn
    | cons a as =>
      have ha : a % BASE = 0 := hw.alB a (by simp [hb])
      rw [hb] at hn
      have e1 : nc.allocBase = (.ok ⟨a, BASE, nc.node⟩, { nc with bp := as }) := by
        unfold MCache.allocBase Frame.new
        rw [hb]
        simp only [ha, Mem.BASE_eq] at ha ⊢
        simp [ha]
      have e2 := growBase_exact [⟨a, BASE, nc.node⟩] tc h2 (by simp; omega) (by simp [ha, h1])
      unfold Mem.moveBase
      simp only [e1, e2]
      rw [ih { nc with bp := as } { tc with bp := ([(⟨a, BASE, nc.node⟩ : Frame)].map (·.base)).reverse ++ tc.bp } ⟨by have := hw.capB; rw [hb] at this; simp at this ⊢; omega, hw.capL,
        fun x hx => hw.alB x (by simp [hb, hx]), hw.alL⟩ h1 h2 (by simpa using hn) (by simp; omega)]
      simp

theorem growLarge_exact (fs : List Frame) : ∀ (c : MCache), c.lp.length + fs.length ≤ c.capL →
    (∀ f ∈ fs, f.size = LARGE ∧ f.base % LARGE = 0 ∧ f.aff = c.node) →
    c.growLarge fs = (.ok (), { c with lp := (fs.map (·.base)).reverse ++ c.lp }) := by
  induction fs with
  | nil => intro c _ _; rfl
  | cons f fs ih =>
    intro c hl hf
    rw [List.length_cons] at hl
    unfold MCache.growLarge
    rw [if_pos (hf f (by simp))]
    have : c.pushLarge f.base = some { c with lp := f.base :: c.lp } := by
      unfold MCache.pushLarge; rw [if_pos (by omega)]
    simp only [this]
    rw [ih { c with lp := f.base :: c.lp } (by simp only [List.length_cons]; omega) (fun g hg => hf g (by simp [hg]))]
    simp

theorem moveLarge_exact (n : Nat) : ∀ (nc tc : MCache), nc.Wf → nc.node = tc.node → n ≤ nc.lp.length →
    tc.lp.length + n ≤ tc.capL →
    Mem.moveLarge nc tc n = (.ok (), { nc with lp := nc.lp.drop n },
      { tc with lp := (nc.lp.take n).reverse ++ tc.lp }) := by
  induction n with
  | zero => intro nc tc _ _ _ _; rfl
  | succ n ih =>
    intro nc tc hw h1 hn hl
    cases hb : nc.lp with
    | nil => rw [hb] at hn; simp at hn
    | cons a as =>
      have ha : a % LARGE = 0 := hw.alL a (by simp [hb])
      rw [hb] at hn
      have e1 : nc.allocLarge = (.ok ⟨a, LARGE, nc.node⟩, { nc with lp := as }) := by
        unfold MCache.allocLarge Frame.new
        rw [hb]
        simp only [Mem.LARGE_eq, Mem.BASE_eq] at ha ⊢
        rw [if_pos ⟨by omega, by decide⟩]
      have e2 := growLarge_exact [⟨a, LARGE, nc.node⟩] tc (by simp; omega) (by simp [ha, h1])
      unfold Mem.moveLarge
      simp only [e1, e2]
      rw [ih { nc with lp := as } { tc with lp := ([(⟨a, LARGE, nc.node⟩ : Frame)].map (·.base)).reverse ++ tc.lp }
        ⟨hw.capB, by have := hw.capL; rw [hb] at this; simp at this ⊢; omega, hw.alB,
          fun x hx => hw.alL x (by simp [hb, hx])⟩ h1 (by simpa using hn) (by simp; omega)]
      simp

/-- Switching to the local node and back. -/
theorem there_and_back {t : Topo} {core : CoreMem} (hw : core.Wf) (node : Nat) (hne : node ≠ core.cur.aff)
    (hv : validNode t core.arenas.length node = true)
    (hv' : validNode t core.arenas.length core.cur.aff = true) :
    ∃ core1 core2, core.setAffinity t node = (.ok (), core1) ∧ core1.setAffinity t core.cur.aff = (.ok (), core2) ∧
      core1.cur.aff = node ∧ core1.arenaOf core.cur.aff = some core.cur ∧ core2.cur = core.cur ∧ core1.Wf ∧ core2.Wf ∧
      (∀ n, n ≠ node → core1.arenaOf n = core.arenaOf n) ∧
      (∀ n, n ≠ node → core2.arenaOf n = core.arenaOf n) ∧
      (∀ a, core.arenaOf node = some a → core1.cur = a ∧ core2.arenaOf node = some a) ∧
      core2.arenas.length = core.arenas.length ∧ core1.arenas.length = core.arenas.length := by
  obtain ⟨a1, a2, a3, a4, a5, a6⟩ := c26_switch t core hw node (.inl hv)
  obtain ⟨b1, b2, b3, b4, b5, b6⟩ := c26_switch t (core.setAffinity t node).2 a2 core.cur.aff (.inl (by rw [a6]; exact hv'))
  have hcur : (core.setAffinity t node).2.arenaOf core.cur.aff = some core.cur := by
    rw [a5 _ (Ne.symm hne)]
    unfold CoreMem.arenaOf
    rw [if_pos rfl]
  have hcur2 : ((core.setAffinity t node).2.setAffinity t core.cur.aff).2.cur = core.cur := by
    rw [b4, hcur]; rfl
  refine ⟨(core.setAffinity t node).2, ((core.setAffinity t node).2.setAffinity t core.cur.aff).2,
    Prod.ext a1 rfl, Prod.ext b1 rfl, a3, hcur, hcur2, a2, b2, a5, fun n hn => ?_, fun a ha => ?_, by rw [b6, a6], a6⟩
  · by_cases hc : n = core.cur.aff
    · subst hc
      unfold CoreMem.arenaOf
      rw [if_pos (by rw [b3]), if_pos rfl, hcur2]
    · rw [b5 n hc, a5 n hn]
  · have : (core.setAffinity t node).2.cur = a := by rw [a4, ha]; rfl
    refine ⟨this, ?_⟩
    rw [b5 node hne]
    unfold CoreMem.arenaOf
    rw [if_pos a3.symm, this]

end NRK.Rack.Remote
