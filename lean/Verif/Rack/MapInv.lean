import Verif.Rack.MapPlan
import Verif.Rack.PageHistProps
import Verif.Machine.SepLemmas

/-!
# What stays true of the memory mapped on a rack (helper lemmas for C66)
-/

namespace NRK.Rack.Remote

open Rpc (ENTRY ENTRY_eq)
open NRK.Mem (Frame MCache LARGE BASE LARGE_eq BASE_eq)
open NRK.Mem.Spec (Block Disjoint Inside AllDisjoint)
open NRK.Machine (Sep)

/-- A call asks the controller at most once. -/
theorem mapPagesOf_take (c : Ctrl Resources) (o : Oracle) (l : Link) (me : Nat) (cache : MCache) (pid size : Nat)
    (hs : size < 2 ^ 64) (res : Outcome (List Frame × List Frame × List Frame)) (c' : Ctrl Resources)
    (cache' : MCache) (he : mapPagesOf c o l me cache pid size = (res, c', cache')) :
    c' = c ∨ ∃ n r, n < 2 ^ 64 ∧ getShmemFrames c o l me (some pid) n = (r, c') := by
  have hstp : Mem.sizeToPages size = (baseCount size, largeCount size) := VSpace.sizeToPages_eq size
  have hn : (if 0 < baseCount size - min cache.bp.length (baseCount size) then largeCount size + 1
      else largeCount size) < 2 ^ 64 := by
    unfold largeCount
    split <;> omega
  unfold mapPagesOf at he
  simp only [hstp] at he
  generalize (if 0 < baseCount size - min cache.bp.length (baseCount size) then largeCount size + 1
      else largeCount size) = n at hn he
  split at he
  · split at he
    · cases he; exact .inl rfl
    · split at he
      · rename_i hg
        refine .inr ⟨n, (getShmemFrames c o l me (some pid) n).1, hn, ?_⟩
        rw [hg]
        congr 1
        split at he
        · cases he; rfl
        · split at he
          · split at he
            · split at he
              · cases he; rfl
              · split at he <;> (cases he; rfl)
            · cases he; rfl
          · cases he; rfl
      · rename_i hg
        cases he
        exact .inr ⟨_, _, hn, hg⟩
      · rename_i hg
        cases he
        exact .inr ⟨_, _, hn, hg⟩
  · cases he; exact .inl rfl

theorem upd_own {α : Type} (f : Nat → α) (k : Nat) : upd f k (f k) = f := by
  funext i
  rw [upd_apply]
  by_cases h : i = k
  · rw [if_pos h, h]
  · rw [if_neg h]

/-- The rack's part of the history. -/
theorem MemHist.pages {region : Nat → Option Frame} {id : Nat → Nat} {s : RackMem} (h : MemHist region id s) :
    PageHist region s.rack := by
  induction h with
  | boot hb hd hf hs _ => exact .boot hb hd hf hs
  | alloc _ l1 l2 hp hz ha he ih => exact .alloc ih l1 l2 hp hz ha he
  | free _ l1 l2 hp he ih => exact .free ih l1 l2 hp he
  | kernel _ l1 l2 hm hn he ih => exact .take ih l1 l2 hm (fun _ h => by cases h) hn he
  | @map s k o l pid size res c m _ l1 l2 hm hp hs he ih =>
    rcases mapPagesOf_take _ o l _ _ pid size hs res c m he with rfl | ⟨n, r, hn, hg⟩
    · show PageHist region ⟨upd s.rack.srv k (s.rack.srv k), s.rack.world⟩
      rw [upd_own]
      exact ih
    · exact .take ih l1 l2 hm (fun _ h => by cases h; exact hp) hn hg
  | other _ hm hh hz hl hs ih => exact .other ih hm hh hz hl hs

/-- Who has the memory that was handed out: the processes that mapped it, the kernels, or a cache. -/
abbrev Keeper := Option (Option (Nat × Nat))

def blocksOf (s : RackMem) : Keeper → List Block
  | none => s.given.map fun g => g.2.block
  | some none => s.kernels.map (·.block)
  | some (some (k, p)) => (s.cache k p).bp.map fun a => ⟨a, 4096⟩

structure MemInv (id : Nat → Nat) (s : RackMem) : Prop where
  wf : ∀ k p, (s.cache k p).Wf
  cap : ∀ k p, (s.cache k p).capB = 2048
  node : ∀ k p, (s.cache k p).node = 12 + id k
  sep : Sep (blocksOf s)
  nobody : ∀ o, ∀ b ∈ blocksOf s o, ∃ a, a % LARGE = 0 ∧ Nobody s.rack.world a ∧ Inside b (page a)

theorem MemInv.same {id : Nat → Nat} {s : RackMem} {r : Cluster Resources} (h : MemInv id s)
    (hn : ∀ a, Nobody s.rack.world a → Nobody r.world a) : MemInv id { s with rack := r } :=
  ⟨h.wf, h.cap, h.node, h.sep.congr fun o => by rcases o with _ | _ | _ <;> rfl, fun o b hb => by
    obtain ⟨a, h1, h2, h3⟩ := h.nobody o b (by rcases o with _ | _ | _ <;> exact hb)
    exact ⟨a, h1, hn a h2, h3⟩⟩

/-- More memory arrives. -/
theorem Sep_extend {ι : Type} {B : ι → List Block} (h : Sep B) (N : List Block) (hN : AllDisjoint N)
    (hd : ∀ b ∈ N, ∀ o, ∀ b' ∈ B o, Disjoint b b') : Sep (fun o : Option ι => o.elim N B) := by
  constructor
  · intro o
    cases o with
    | none => exact hN
    | some o => exact h.self o
  · intro o o' hne b hb b' hb'
    cases o with
    | none =>
      cases o' with
      | none => exact absurd rfl hne
      | some o' => exact hd b hb o' b' hb'
    | some o =>
      cases o' with
      | none => exact (hd b' hb' o b hb).symm
      | some o' => exact h.other o o' (fun e => hne (by rw [e])) b hb b' hb'

theorem Sep_restrict {ι : Type} {B : Option ι → List Block} (h : Sep B) : Sep (fun o : ι => B (some o)) :=
  ⟨fun o => h.self (some o), fun o o' hne => h.other (some o) (some o') (fun e => hne (Option.some.inj e))⟩

/-- The pages that a request brings, the last one split if base pages are missing. -/
def arriving (n : Nat) (fs : List Frame) : List Block :=
  (fs.take n).map (·.block) ++
    match fs[n]? with
    | some f => (splitPage f).map (·.block)
    | none => []

theorem split_disjoint (f : Frame) : AllDisjoint ((splitPage f).map (·.block)) := by
  unfold AllDisjoint splitPage
  rw [List.map_map, List.pairwise_map]
  apply List.Pairwise.imp _ List.pairwise_lt_range
  intro i j hij x ⟨⟨h1, h2⟩, ⟨h3, h4⟩⟩
  simp only [Function.comp, Frame.block] at h1 h2 h3 h4
  omega

theorem split_inside (f : Frame) : ∀ b ∈ (splitPage f).map (·.block), Inside b (page f.base) := by
  intro b hb
  obtain ⟨g, hg, rfl⟩ := List.mem_map.1 hb
  obtain ⟨i, hi, rfl⟩ := List.mem_map.1 hg
  rw [List.mem_range] at hi
  intro x ⟨h1, h2⟩
  simp only [Frame.block] at h1 h2
  exact ⟨by show f.base ≤ x; omega, by show x < f.base + 2097152; omega⟩

theorem arriving_facts (n : Nat) (fs : List Frame) (hs : ∀ f ∈ fs, f.size = LARGE ∧ f.base % LARGE = 0)
    (hn : (fs.map (·.base)).Nodup) :
    AllDisjoint (arriving n fs) ∧ ∀ b ∈ arriving n fs, ∃ f ∈ fs, Inside b (page f.base) := by
  have hin : ∀ f ∈ fs, Inside f.block (page f.base) := fun f hf =>
    frame_in_page (by rw [(hs f hf).1, LARGE_eq]; exact Nat.le_refl _)
  have hpw : fs.Pairwise fun f g => Disjoint (page f.base) (page g.base) := by
    have hn' : fs.Pairwise fun f g => f.base ≠ g.base := List.pairwise_map.1 hn
    exact hn'.imp_of_mem fun hf hg hne => pages_disjoint (hs _ hf).2 (hs _ hg).2 hne
  have hsplit : fs = fs.take n ++ fs.drop n := (List.take_append_drop _ _).symm
  rw [hsplit, List.pairwise_append] at hpw
  obtain ⟨p1, _, p3⟩ := hpw
  have htake : AllDisjoint ((fs.take n).map (·.block)) := by
    unfold AllDisjoint
    rw [List.pairwise_map]
    exact p1.imp_of_mem fun hf hg hd =>
      hd.mono (hin _ (List.mem_of_mem_take hf)) (hin _ (List.mem_of_mem_take hg))
  unfold arriving
  cases hl : fs[n]? with
  | none =>
    simp only [List.append_nil]
    refine ⟨htake, fun b hb => ?_⟩
    obtain ⟨f, hf, rfl⟩ := List.mem_map.1 hb
    exact ⟨f, List.mem_of_mem_take hf, hin f (List.mem_of_mem_take hf)⟩
  | some g =>
    have hg : g ∈ fs.drop n := by
      apply List.mem_of_getElem? (i := 0)
      rw [List.getElem?_drop]
      exact hl
    simp only
    refine ⟨List.pairwise_append.2 ⟨htake, split_disjoint g, fun b hb b' hb' => ?_⟩, fun b hb => ?_⟩
    · obtain ⟨f, hf, rfl⟩ := List.mem_map.1 hb
      exact (p3 f hf g hg).mono (hin f (List.mem_of_mem_take hf)) (split_inside g b' hb')
    · rcases List.mem_append.1 hb with hb | hb
      · obtain ⟨f, hf, rfl⟩ := List.mem_map.1 hb
        exact ⟨f, List.mem_of_mem_take hf, hin f (List.mem_of_mem_take hf)⟩
      · exact ⟨g, List.mem_of_mem_drop hg, split_inside g b hb⟩

/-- What a mapping leaves is what arrived and what was there. -/
theorem map_moves (cache : MCache) (size : Nat) (fs : List Frame) (G : List Block)
    (hlen : fs.length = askCount cache size) :
    ((mapFramesOf cache size fs).map (·.block) ++ G ++
      (leftPages cache size fs).map (fun a => (⟨a, 4096⟩ : Block))).Perm
    (arriving (largeCount size) fs ++ G ++ cache.bp.map (fun a => (⟨a, 4096⟩ : Block))) := by
  have hold : (oldPages cache size).map (·.block) =
      (cache.bp.take (baseCount size)).map (fun a => (⟨a, 4096⟩ : Block)) := by
    unfold oldPages; rw [List.map_map]; rfl
  have hbp : cache.bp.map (fun a => (⟨a, 4096⟩ : Block)) =
      (cache.bp.take (baseCount size)).map (fun a => (⟨a, 4096⟩ : Block)) ++
      (cache.bp.drop (baseCount size)).map (fun a => (⟨a, 4096⟩ : Block)) := by
    rw [← List.map_append, List.take_append_drop]
  unfold mapFramesOf freshPages leftPages arriving
  rw [hbp]
  cases hl : fs[largeCount size]? with
  | none =>
    simp only [List.append_nil, List.map_append]
    rw [hold, List.perm_iff_count]
    intro b
    simp only [List.count_append]
    omega
  | some f =>
    have hdrop : cache.bp.drop (baseCount size) = [] := by
      apply List.drop_of_length_le
      have h1 := (List.getElem?_eq_some_iff.1 hl).1
      rw [hlen] at h1
      unfold askCount missing at h1
      split at h1 <;> omega
    have hr : ((((splitPage f).drop (missing cache size)).map (·.base)).reverse).map
        (fun a => (⟨a, 4096⟩ : Block)) = (((splitPage f).drop (missing cache size)).map (·.block)).reverse := by
      rw [List.map_reverse, List.map_map]
      congr 1
      apply List.map_congr_left
      intro g hg
      obtain ⟨i, _, rfl⟩ := List.mem_map.1 (List.mem_of_mem_drop hg)
      rfl
    have hsp : (splitPage f).map (·.block) = ((splitPage f).take (missing cache size)).map (·.block) ++
        ((splitPage f).drop (missing cache size)).map (·.block) := by
      rw [← List.map_append, List.take_append_drop]
    simp only [hdrop, List.map_nil, List.append_nil, List.map_append]
    rw [hold, hr, hsp, List.perm_iff_count]
    intro b
    simp only [List.count_append, List.count_reverse]
    omega

/-- The state after a mapping, whoever's server it was. -/
theorem MemInv.mapped {region : Nat → Option Frame} {id : Nat → Nat} {s : RackMem} (h : MemInv id s)
    (hi : PageInv region s.rack.world) {k pid size : Nat} {fs : List Frame} {ms : List Nat} {srv : Nat → Rpc.Server}
    {w' : World Resources} (hms : ms.length = askCount (s.cache k pid) size) (hg : Given s.rack.world ms fs w') :
    MemInv id ⟨⟨srv, w'⟩, withCache s.cache k pid
        { s.cache k pid with bp := leftPages (s.cache k pid) size fs },
      (mapFramesOf (s.cache k pid) size fs).map (fun f => (pid, f)) ++ s.given, s.kernels⟩ := by
  obtain ⟨g1, g2, g3⟩ := hg.facts hi
  have hlen : fs.length = askCount (s.cache k pid) size := by rw [hg.length, hms]
  obtain ⟨a1, a2⟩ := arriving_facts (largeCount size) fs (fun f hf => ⟨(g1 f hf).1.1, (g1 f hf).1.2.1⟩) g3
  have hall : ∀ b ∈ arriving (largeCount size) fs, ∃ a, a % LARGE = 0 ∧ Nobody w' a ∧ Inside b (page a) := fun b hb => by
    obtain ⟨f, hf, h1⟩ := a2 b hb
    exact ⟨f.base, (g1 f hf).1.2.1, (g1 f hf).2.1, h1⟩
  have hold : ∀ o, ∀ b ∈ blocksOf s o, ∃ a, a % LARGE = 0 ∧ Nobody w' a ∧ Inside b (page a) := fun o b hb => by
    obtain ⟨a, h1, h2, h3⟩ := h.nobody o b hb
    exact ⟨a, h1, g2 a h2, h3⟩
  have hleft : (leftPages (s.cache k pid) size fs).length ≤ 2048 ∧
      ∀ a ∈ leftPages (s.cache k pid) size fs, a % BASE = 0 := by
    have hc := (h.wf k pid).capB
    rw [h.cap] at hc
    unfold leftPages
    cases hl : fs[largeCount size]? with
    | none =>
      simp only
      refine ⟨by rw [List.length_drop]; omega, fun a ha => (h.wf k pid).alB a (List.mem_of_mem_drop ha)⟩
    | some f =>
      have hf : f ∈ fs := List.mem_of_getElem? hl
      simp only
      refine ⟨by rw [List.length_reverse, List.length_map, List.length_drop, splitPage_length]; omega, fun a ha => ?_⟩
      rw [List.mem_reverse] at ha
      obtain ⟨g, hg, rfl⟩ := List.mem_map.1 ha
      obtain ⟨i, _, rfl⟩ := List.mem_map.1 (List.mem_of_mem_drop hg)
      have := (g1 f hf).1.2.1
      show (f.base + 4096 * i) % BASE = 0
      rw [LARGE_eq] at this
      rw [BASE_eq]
      omega
  have hcache : ∀ k' p', withCache s.cache k pid { s.cache k pid with bp := leftPages (s.cache k pid) size fs } k' p' =
      if k' = k ∧ p' = pid then { s.cache k pid with bp := leftPages (s.cache k pid) size fs } else s.cache k' p' :=
    fun _ _ => rfl
  have hperm := map_moves (s.cache k pid) size fs (s.given.map fun g => g.2.block) hlen
  have hsep0 : Sep (fun o : Option Keeper => o.elim (arriving (largeCount size) fs) (blocksOf s)) := by
    refine Sep_extend h.sep _ a1 fun b hb o b' hb' => ?_
    obtain ⟨f, hf, h1⟩ := a2 b hb
    obtain ⟨a, h2, h3, h4⟩ := h.nobody o b' hb'
    refine (pages_disjoint (g1 f hf).1.2.1 h2 fun e => ?_).mono h1 h4
    obtain ⟨mid, g, m0, m16, _, hfree, _⟩ := (g1 f hf).2.2
    exact h3.1 mid m0 m16 (e ▸ hfree)
  refine ⟨fun k' p' => ?_, fun k' p' => ?_, fun k' p' => ?_, ?_, ?_⟩
  · simp only [hcache]
    split
    · exact ⟨by show _ ≤ (s.cache k pid).capB; rw [h.cap]; exact hleft.1, (h.wf k pid).capL, hleft.2, (h.wf k pid).alL⟩
    · exact h.wf k' p'
  · simp only [hcache]
    split
    · exact h.cap k pid
    · exact h.cap k' p'
  · simp only [hcache]
    split
    · rename_i e; rw [e.1]; exact h.node k pid
    · exact h.node k' p'
  · have hmv := hsep0.move (B' := fun o : Option Keeper => o.elim [] (blocksOf ⟨⟨srv, w'⟩, withCache s.cache k pid
        { s.cache k pid with bp := leftPages (s.cache k pid) size fs },
        (mapFramesOf (s.cache k pid) size fs).map (fun f => (pid, f)) ++ s.given, s.kernels⟩))
      [none, some none, some (some (some (k, pid)))] (by simp) (by
        intro o ho
        cases o with
        | none => simp at ho
        | some o =>
          rcases o with _ | _ | ⟨k', p'⟩
          · simp at ho
          · rfl
          · have hne : ¬ (k' = k ∧ p' = pid) := by
              rintro ⟨rfl, rfl⟩
              simp at ho
            simp only [Option.elim, blocksOf, hcache, if_neg hne]) [] (by
        simp only [List.flatMap_cons, List.flatMap_nil, Option.elim, blocksOf, List.append_nil, List.nil_append,
          hcache, and_self, if_true, List.map_append, List.map_map, Function.comp_def]
        rw [← List.append_assoc]
        exact hperm)
    exact Sep_restrict hmv
  · intro o b hb
    have hm : b ∈ (mapFramesOf (s.cache k pid) size fs).map (·.block) ++ (s.given.map fun g => g.2.block) ++
        (leftPages (s.cache k pid) size fs).map (fun a => (⟨a, 4096⟩ : Block)) ∨ ∃ o, b ∈ blocksOf s o := by
      rcases o with _ | _ | ⟨k', p'⟩
      · refine .inl (List.mem_append_left _ ?_)
        simpa [blocksOf, Function.comp_def] using hb
      · exact .inr ⟨some none, hb⟩
      · by_cases hc : k' = k ∧ p' = pid
        · refine .inl (List.mem_append_right _ ?_)
          simp only [blocksOf, hcache, if_pos hc] at hb
          exact hb
        · refine .inr ⟨some (some (k', p')), ?_⟩
          simp only [blocksOf, hcache, if_neg hc] at hb
          exact hb
    rcases hm with hm | ⟨o', hm⟩
    · have := hperm.subset hm
      rcases List.mem_append.1 this with h1 | h1
      · rcases List.mem_append.1 h1 with h1 | h1
        · exact hall b h1
        · exact hold none b h1
      · exact hold (some (some (k, pid))) b h1
    · exact hold o' b hm

theorem MemInv.dropped {id : Nat → Nat} {s : RackMem} (h : MemInv id s) {k pid n : Nat} {r : Cluster Resources}
    (hn : ∀ a, Nobody s.rack.world a → Nobody r.world a) :
    MemInv id ⟨r, withCache s.cache k pid { s.cache k pid with bp := (s.cache k pid).bp.drop n }, s.given, s.kernels⟩ := by
  have hcache : ∀ k' p', withCache s.cache k pid { s.cache k pid with bp := (s.cache k pid).bp.drop n } k' p' =
      if k' = k ∧ p' = pid then { s.cache k pid with bp := (s.cache k pid).bp.drop n } else s.cache k' p' :=
    fun _ _ => rfl
  have hsub : ∀ o, (blocksOf ⟨r, withCache s.cache k pid { s.cache k pid with bp := (s.cache k pid).bp.drop n }, s.given, s.kernels⟩ o).Sublist
      (blocksOf s o) := by
    intro o
    rcases o with _ | _ | ⟨k', p'⟩
    · exact List.Sublist.refl _
    · exact List.Sublist.refl _
    · simp only [blocksOf, hcache]
      split
      · rename_i e
        rw [e.1, e.2]
        exact (List.drop_sublist _ _).map _
      · exact List.Sublist.refl _
  refine ⟨fun k' p' => ?_, fun k' p' => ?_, fun k' p' => ?_, ⟨fun o => ?_, fun o o' hne b hb b' hb' => ?_⟩, ?_⟩
  · simp only [hcache]
    split
    · have := (h.wf k pid).capB
      exact ⟨by show ((s.cache k pid).bp.drop n).length ≤ (s.cache k pid).capB; rw [List.length_drop]; omega, (h.wf k pid).capL,
        fun a ha => (h.wf k pid).alB a (List.mem_of_mem_drop ha), (h.wf k pid).alL⟩
    · exact h.wf k' p'
  · simp only [hcache]
    split
    · exact h.cap k pid
    · exact h.cap k' p'
  · simp only [hcache]
    split
    · rename_i e; rw [e.1]; exact h.node k pid
    · exact h.node k' p'
  · exact NRK.Mem.allDisjoint_sublist (h.sep.self o) (hsub o)
  · exact h.sep.other o o' hne b ((hsub o).subset hb) b' ((hsub o').subset hb')
  · intro o b hb
    obtain ⟨a, h1, h2, h3⟩ := h.nobody o b ((hsub o).subset hb)
    exact ⟨a, h1, hn a h2, h3⟩

theorem MemInv.taken {region : Nat → Option Frame} {id : Nat → Nat} {s : RackMem} (h : MemInv id s)
    (hi : PageInv region s.rack.world) {fs : List Frame} {ms : List Nat} {srv : Nat → Rpc.Server}
    {w' : World Resources} (hg : Given s.rack.world ms fs w') :
    MemInv id ⟨⟨srv, w'⟩, s.cache, s.given, fs ++ s.kernels⟩ := by
  obtain ⟨g1, g2, g3⟩ := hg.facts hi
  obtain ⟨a1, a2⟩ := arriving_facts fs.length fs (fun f hf => ⟨(g1 f hf).1.1, (g1 f hf).1.2.1⟩) g3
  have harr : arriving fs.length fs = fs.map (·.block) := by
    unfold arriving
    rw [List.getElem?_eq_none (Nat.le_refl _), List.take_of_length_le (Nat.le_refl _)]
    simp
  rw [harr] at a1 a2
  have hsep0 : Sep (fun o : Option Keeper => o.elim (fs.map (·.block)) (blocksOf s)) := by
    refine Sep_extend h.sep _ a1 fun b hb o b' hb' => ?_
    obtain ⟨f, hf, h1⟩ := a2 b hb
    obtain ⟨a, h2, h3, h4⟩ := h.nobody o b' hb'
    refine (pages_disjoint (g1 f hf).1.2.1 h2 fun e => ?_).mono h1 h4
    obtain ⟨mid, g, m0, m16, _, hfree, _⟩ := (g1 f hf).2.2
    exact h3.1 mid m0 m16 (e ▸ hfree)
  refine ⟨h.wf, h.cap, h.node, ?_, ?_⟩
  · have hmv := hsep0.move (B' := fun o : Option Keeper => o.elim [] (blocksOf ⟨⟨srv, w'⟩, s.cache, s.given, fs ++ s.kernels⟩))
      [none, some (some none)] (by simp) (by
        intro o ho
        rcases o with _ | _ | _ | ⟨k', p'⟩
        · simp at ho
        · rfl
        · simp at ho
        · rfl) [] (by
        simp only [List.flatMap_cons, List.flatMap_nil, Option.elim, blocksOf, List.append_nil, List.nil_append,
          List.map_append]
        exact List.Perm.refl _)
    exact Sep_restrict hmv
  · intro o b hb
    have hm : (∃ o, b ∈ blocksOf s o) ∨ b ∈ fs.map (·.block) := by
      rcases o with _ | _ | ⟨k', p'⟩
      · exact .inl ⟨none, hb⟩
      · simp only [blocksOf, List.map_append] at hb
        rcases List.mem_append.1 hb with hb | hb
        · exact .inr hb
        · exact .inl ⟨some none, hb⟩
      · exact .inl ⟨some (some (k', p')), hb⟩
    rcases hm with ⟨o', hm⟩ | hm
    · obtain ⟨a, h1, h2, h3⟩ := h.nobody o' b hm
      exact ⟨a, h1, g2 a h2, h3⟩
    · obtain ⟨f, hf, h1⟩ := a2 b hm
      exact ⟨f.base, (g1 f hf).1.2.1, (g1 f hf).2.1, h1⟩

theorem MemHist.inv {region : Nat → Option Frame} {id : Nat → Nat} {s : RackMem} (h : MemHist region id s) :
    MemInv id s := by
  induction h with
  | boot _ _ _ _ hc =>
    refine ⟨fun k p => ?_, fun k p => ?_, fun k p => ?_, ⟨fun o => ?_, fun o o' _ b hb => ?_⟩, fun o b hb => ?_⟩
    · rw [show RackMem.cache _ k p = _ from hc k p]; exact NRK.Mem.new_cache_wf _ _ _
    · rw [show RackMem.cache _ k p = _ from hc k p]; rfl
    · rw [show RackMem.cache _ k p = _ from hc k p]; rfl
    · rcases o with _ | _ | _
      · exact List.Pairwise.nil
      · exact List.Pairwise.nil
      · simp only [blocksOf, hc]; exact List.Pairwise.nil
    · rcases o with _ | _ | _
      · cases hb
      · cases hb
      · simp only [blocksOf, hc] at hb; cases hb
    · rcases o with _ | _ | _
      · cases hb
      · cases hb
      · simp only [blocksOf, hc] at hb; cases hb
  | @alloc s k o l pid size aff res c h l1 l2 hp hz ha he ih =>
    obtain ⟨hi, hs⟩ := h.pages.inv
    exact ih.same (alloc_kept (c0 := ⟨s.rack.srv k, s.rack.world⟩) hi ⟨l1, l2, hs k⟩ hp hz ha he).nobody
  | @free s k o l pid fid res c h l1 l2 hp he ih =>
    obtain ⟨hi, hs⟩ := h.pages.inv
    exact ih.same (free_kept (c0 := ⟨s.rack.srv k, s.rack.world⟩) hi ⟨l1, l2, hs k⟩ hp he).nobody
  | @kernel s k o l n res c h l1 l2 hm hn he ih =>
    obtain ⟨hi, hs⟩ := h.pages.inv
    obtain ⟨hk, _, hg⟩ := take_kept (c0 := ⟨s.rack.srv k, s.rack.world⟩) hi ⟨l1, l2, hs k⟩ hm
      (fun _ h => by cases h) hn he
    cases res with
    | ok fs =>
      obtain ⟨ms, _, hg⟩ := hg fs rfl
      exact ih.taken hi hg
    | err e => exact ih.same hk.nobody
    | panic => exact ih.same hk.nobody
  | @map s k o l pid size res c m h l1 l2 hm hp hz he ih =>
    obtain ⟨hi, hs⟩ := h.pages.inv
    obtain ⟨hk, hc⟩ := mapPagesOf_cases (region := region) ⟨s.rack.srv k, s.rack.world⟩ o l ⟨l1, l2, hs k⟩ (id k) (s.cache k pid)
      pid size hi (ih.wf k pid) (ih.cap k pid) (by rw [ih.node]; omega) hm hp hz res c m he
    rcases hc with ⟨fs, _, hg, rfl, rfl⟩ | ⟨rfl, rfl, _⟩
    · exact ih.mapped hi (by simp) hg
    · exact ih.dropped hk.nobody
  | @other s r' h hm hh _ _ _ ih =>
    refine ih.same fun a ha => ⟨fun mid m0 m16 hf => ha.1 mid m0 m16 ?_, fun p i f hf => ha.2 p i f ((hh p i f).1 hf)⟩
    unfold FreePage at hf ⊢
    rw [hm] at hf
    exact hf

end NRK.Rack.Remote
