import Verif.Proc.FramesLemmas

/-!
# Properties of registered frames (C38) and of shootdown sets (C39)
-/

namespace NRK.Proc

open NRK.VSpace NRK.Mem NRK.Mem.Spec

/-! ## Histories -/

/-- The rights of the system call that maps a registered frame (`arch/x86_64/syscall.rs` line 417). -/
def idRights : MapAction := (MapAction.user.or MapAction.writable).or MapAction.alias

/-- What the callers of the operations ensure: memory that is handed to the process as registered frame,
for executors or for plain mappings comes from the allocator, so it is a page and does not overlap what
the process has already; addresses are user addresses; only registered frames are mapped as aliases. -/
def Sane (s : Proc) : ProcOp → Prop
  | .dispatchers m _ _ _ => PageSize m.size ∧ s.execOff + m.size ≤ userTop ∧
      ∀ fid f n, s.frames.get fid = .ok (f, n) → Disjoint f.block m.block
  | .map base g a _ _ => PageSize g.size ∧ base + g.size ≤ userTop ∧ a.aliased = false ∧
      ∀ fid f n, s.frames.get fid = .ok (f, n) → Disjoint f.block g.block
  | .mapDevice g a _ => PageSize g.size ∧ g.base + g.size ≤ userTop ∧ a.aliased = false ∧
      ∀ fid f n, s.frames.get fid = .ok (f, n) → Disjoint f.block g.block
  | .mapFrameId base fid a _ _ => a = idRights ∧
      ∀ f n, s.frames.get fid = .ok (f, n) → base + f.size ≤ userTop
  | .unmap base => base < userTop
  | .assign _ _ _ => True
  | .allocFrame g => PageSize g.size ∧ g.base % g.size = 0 ∧
      (∀ fid f n, s.frames.get fid = .ok (f, n) → Disjoint f.block g.block) ∧
      ∀ x p r, x < userTop → s.vs.resolve x = .ok (p, r) → ¬ g.block.Has p
  | .releaseFrame _ => True

/-- Mapping a registered frame goes well: the address is aligned and not in use, and there is memory for
the bookkeeping. -/
def GoodMap (s : Proc) : ProcOp → Prop
  | .mapFrameId base fid _ refill oom => refill = false ∧ oom = false ∧
      ∀ f n, s.frames.get fid = .ok (f, n) → base % f.size = 0 ∧
        ∀ x, base ≤ x → x < base + f.size → s.vs.resolve x = .err .notMapped
  | _ => True

/-- Processes after any history of such operations, none of which panicked; if `clean`, all maps of
registered frames went well. -/
inductive SRun (c : Cfg) (clean : Bool) : Proc → Prop where
  | new (pt : PML4) (off : Nat) (h : ∀ x, x < userTop → leafAt pt x = Option.none) :
      SRun c clean (Proc.new pt off)
  | step {s s' : Proc} {o} (op : ProcOp) (r : SRun c clean s) (hs : s.step c op = (s', o))
      (ho : o ≠ .panic) (sane : Sane s op) (good : clean = true → GoodMap s op) : SRun c clean s'

/-! ## The invariant -/

/-- A mapping of a registered frame that starts at `b`. -/
def isAlias (b : Nat) (q : Nat × MappingInfo) : Bool :=
  decide (q.2.frame.base = b) && q.2.rights.aliased

structure PInv (clean : Bool) (vs : VSpace) (fs : Frames) : Prop where
  vinv : VInv vs
  reg : ∀ fid f n, fs.At fid f n → PageSize f.size ∧ f.base % f.size = 0
  disj : ∀ fid f n fid' f' n', fs.At fid f n → fs.At fid' f' n' → fid ≠ fid' → Disjoint f.block f'.block
  none0 : ∀ (fid n : Nat), fs[fid]? = some (none, n) → n = 0
  al : ∀ q ∈ vs.maps, q.2.rights.aliased = true → ∃ fid n, fs.At fid q.2.frame n
  nal : ∀ q ∈ vs.maps, q.2.rights.aliased = false → ∀ fid f n, fs.At fid f n →
    Disjoint f.block q.2.frame.block
  cnt : ∀ fid f n, fs.At fid f n → vs.maps.countP (isAlias f.base) ≤ n ∧
    (clean = true → n = vs.maps.countP (isAlias f.base))

theorem pageSize_pos {n : Nat} (h : PageSize n) : 0 < n := by rcases h with e | e <;> omega

/-- Registered frames with the same address are the same. -/
theorem PInv.base_unique {clean : Bool} {vs : VSpace} {fs : Frames} (h : PInv clean vs fs)
    {fid fid' : Nat} {f f' : Frame} {n n' : Nat} (h1 : fs.At fid f n) (h2 : fs.At fid' f' n')
    (hb : f'.base = f.base) : fid' = fid := by
  by_cases e : fid' = fid
  · exact e
  · exfalso
    have := h.disj _ _ _ _ _ _ h2 h1 e f.base
    have p1 := pageSize_pos (h.reg _ _ _ h1).1
    have p2 := pageSize_pos (h.reg _ _ _ h2).1
    exact this ⟨⟨by simp [Frame.block]; omega, by simp [Frame.block]; omega⟩,
      ⟨by simp [Frame.block], by simp [Frame.block]; omega⟩⟩

/-- A plain map keeps the invariant. -/
theorem PInv.map {clean : Bool} {vs : VSpace} {fs : Frames} (h : PInv clean vs fs) (env : Env)
    (hk : env.pages4k = false) (oom : Bool) (base : Nat) (g : Frame) (a : MapAction)
    (hn : PageSize g.size) (hu : base + g.size ≤ userTop) (ha : a.aliased = false)
    (hd : ∀ fid f n, fs.At fid f n → Disjoint f.block g.block) :
    PInv clean (mapFrame env oom vs base g a).1 fs := by
  have hv := h.vinv.mapFrame env hk oom base g a hn hu
  rcases mapFrame_cases env hk oom h.vinv base g a hn hu with ⟨e, he, _⟩ | ⟨_, _, q, hq, _, _, _, hc⟩ |
    ⟨hb, hv', hall, hc⟩
  · rw [he]; exact h
  · rcases hc with ⟨_, _, _, _, he⟩ | ⟨_, he⟩ <;> rw [he] <;> exact h
  · rcases hc with ⟨_, he⟩ | ⟨_, t', he, _⟩
    · rw [he]; exact h
    · rw [he] at hv ⊢
      refine ⟨hv, h.reg, h.disj, h.none0, ?_, ?_, ?_⟩
      · intro q hq hqa
        rcases (mem_insertMap _ _ _ _).1 hq with rfl | hq
        · rw [ha] at hqa; cases hqa
        · exact h.al q hq hqa
      · intro q hq hqa fid f n hf
        rcases (mem_insertMap _ _ _ _).1 hq with rfl | hq
        · exact hd fid f n hf
        · exact h.nal q hq hqa fid f n hf
      · intro fid f n hf
        have := h.cnt fid f n hf
        dsimp only
        rw [countP_insertMap, if_neg (by simp [isAlias, ha])]
        exact this

/-- Mapping a registered frame keeps the invariant. -/
theorem PInv.mapId {clean : Bool} {vs : VSpace} {fs : Frames} (h : PInv clean vs fs) (env : Env)
    (hk : env.pages4k = false) (oom : Bool) (base fid : Nat) (g : Frame) (m : Nat)
    (hg : fs.At fid g m) (hu : base + g.size ≤ userTop)
    (hgood : clean = true → oom = false ∧ base % g.size = 0 ∧
      ∀ x, base ≤ x → x < base + g.size → vs.resolve x = .err .notMapped) :
    PInv clean (mapFrame env oom vs base g idRights).1 (fs.set fid (some g, m + 1)) := by
  have hn := (h.reg _ _ _ hg).1
  have hv := h.vinv.mapFrame env hk oom base g idRights hn hu
  have hlt := at_lt hg
  have key : ∀ vs', VInv vs' → (∀ q, q ∈ vs'.maps → q ∈ vs.maps ∨ q = (base, ⟨g, idRights⟩)) →
      (∀ b, vs'.maps.countP (isAlias b) ≤ vs.maps.countP (isAlias b) + if b = g.base then 1 else 0) →
      (clean = true → ∀ b, vs'.maps.countP (isAlias b) =
        vs.maps.countP (isAlias b) + if b = g.base then 1 else 0) →
      PInv clean vs' (fs.set fid (some g, m + 1)) := by
    intro vs' hv' hmem hle heq
    have hat : ∀ fid' f' n', Frames.At (fs.set fid (some g, m + 1)) fid' f' n' →
        ∃ n, fs.At fid' f' n ∧ n' = if fid' = fid then n + 1 else n := by
      intro fid' f' n' h'
      rcases at_set h' with ⟨e1, e2⟩ | ⟨e1, e2⟩
      · cases e2; subst e1; exact ⟨m, hg, by simp⟩
      · exact ⟨n', e2, by simp [e1]⟩
    refine ⟨hv', ?_, ?_, ?_, ?_, ?_, ?_⟩
    · intro fid' f' n' h'
      obtain ⟨n, h1, _⟩ := hat _ _ _ h'
      exact h.reg _ _ _ h1
    · intro fid1 f1 n1 fid2 f2 n2 h1 h2 hne
      obtain ⟨_, h1, _⟩ := hat _ _ _ h1
      obtain ⟨_, h2, _⟩ := hat _ _ _ h2
      exact h.disj _ _ _ _ _ _ h1 h2 hne
    · intro fid' n' h'
      rw [List.getElem?_set] at h'
      split at h'
      · first | (split at h' <;> cases h') | cases h'
      · exact h.none0 _ _ h'
    · intro q hq hqa
      rcases hmem q hq with hq | rfl
      · obtain ⟨fid', n', h'⟩ := h.al q hq hqa
        by_cases e : fid' = fid
        · subst e
          have : q.2.frame = g := (at_inj h' hg).1
          rw [this]
          exact ⟨fid', m + 1, at_set_same hlt⟩
        · exact ⟨fid', n', at_set_other h' e⟩
      · exact ⟨fid, m + 1, at_set_same hlt⟩
    · intro q hq hqa fid' f' n' h'
      rcases hmem q hq with hq | rfl
      · obtain ⟨_, h', _⟩ := hat _ _ _ h'
        exact h.nal q hq hqa _ _ _ h'
      · cases hqa
    · intro fid' f' n' h'
      obtain ⟨n, h1, h2⟩ := hat _ _ _ h'
      obtain ⟨c1, c2⟩ := h.cnt _ _ _ h1
      have hb : f'.base = g.base → fid' = fid := fun e => h.base_unique hg h1 e
      have hb' : fid' = fid → f'.base = g.base := by
        intro e
        subst e
        rw [(at_inj h1 hg).1]
      have := hle f'.base
      constructor
      · by_cases e : fid' = fid
        · rw [if_pos (hb' e)] at this
          rw [if_pos e] at h2
          omega
        · rw [if_neg (fun e' => e (hb e'))] at this
          rw [if_neg e] at h2
          omega
      · intro hc
        have := heq hc f'.base
        have c2 := c2 hc
        by_cases e : fid' = fid
        · rw [if_pos (hb' e)] at this
          rw [if_pos e] at h2
          omega
        · rw [if_neg (fun e' => e (hb e'))] at this
          rw [if_neg e] at h2
          omega
  have same : ((mapFrame env oom vs base g idRights).1 = vs) → clean = false →
      PInv clean (mapFrame env oom vs base g idRights).1 (fs.set fid (some g, m + 1)) := by
    intro he hc
    rw [he]
    exact key vs h.vinv (fun q hq => Or.inl hq) (fun b => Nat.le_add_right _ _)
      (fun hc' => by rw [hc] at hc'; cases hc')
  rcases mapFrame_cases env hk oom h.vinv base g idRights hn hu with ⟨e, he, hbad⟩ |
    ⟨_, _, q, hq, hq1, hq2, _, hc⟩ | ⟨hb, hv', hall, hc⟩
  · cases hcl : clean with
    | false => rw [← hcl]; exact same (by rw [he]) hcl
    | true =>
      exfalso
      obtain ⟨_, h2, _⟩ := hgood hcl
      have := (h.reg _ _ _ hg).2
      rcases hbad with ⟨h3, _⟩ | ⟨_, h3, _⟩
      · exact h3 this
      · exact h3 h2
  · cases hcl : clean with
    | false =>
      rw [← hcl]
      refine same ?_ hcl
      rcases hc with ⟨_, _, _, _, he⟩ | ⟨_, he⟩ <;> rw [he]
    | true =>
      exfalso
      obtain ⟨_, _, h3⟩ := hgood hcl
      have hp := pageSize_pos (h.vinv.page q hq).1
      have := h.vinv.resolve_err (h3 (max q.1 base) (by omega) (by have := pageSize_pos hn; omega)) q hq
      exact this ⟨by omega, by omega⟩
  · rcases hc with ⟨ho, he⟩ | ⟨_, t', he, _⟩
    · cases hcl : clean with
      | false => rw [← hcl]; exact same (by rw [he]) hcl
      | true => rw [(hgood hcl).1] at ho; cases ho
    · have hcount : ∀ b, (insertMap base ⟨g, idRights⟩ vs.maps).countP (isAlias b) =
          vs.maps.countP (isAlias b) + if b = g.base then 1 else 0 := by
        intro b
        rw [countP_insertMap]
        congr 1
        have hi : isAlias b (base, ⟨g, idRights⟩) = decide (g.base = b) := by
          simp [isAlias, idRights, MapAction.or, MapAction.alias]
        rw [hi]
        by_cases e : b = g.base
        · simp [e]
        · rw [if_neg e, if_neg (by simpa using fun e' => e e'.symm)]
      rw [he] at hv ⊢
      refine key _ hv ?_ (fun b => by rw [hcount]; exact Nat.le_refl _) (fun _ b => hcount b)
      intro q hq
      rcases (mem_insertMap _ _ _ _).1 hq with e | hq
      · exact Or.inr e
      · exact Or.inl hq

theorem VInv.ne_base {s : VSpace} (h : VInv s) : s.maps.Pairwise (fun a b => a.1 ≠ b.1) := by
  have hm : s.maps.Pairwise (fun a b => b.1 + b.2.frame.size ≤ a.1) := h.disj
  refine List.Pairwise.imp_of_mem ?_ hm
  intro a b _ hb hab
  have := pageSize_pos (h.page b hb).1
  omega

/-- Unmapping keeps the invariant, and the reference count is there to be decremented. -/
theorem PInv.unmap {clean : Bool} {vs vs' : VSpace} {fs : Frames} (h : PInv clean vs fs) (x : Nat)
    (hu : x < userTop) (hd : FlushHandle) (he : NRK.VSpace.unmap vs x = (vs', .ok hd)) :
    ∃ fs', (if hd.flags.aliased then fs.removeMapping hd.paddr else (fs, .ok ())) = (fs', .ok ()) ∧
      PInv clean vs' fs' := by
  have hv := h.vinv.unmap x hu
  rcases unmap_cases h.vinv x hu with ⟨h1, _⟩ | ⟨h1, _⟩ | ⟨q, hq, hc, hx, t', h1, hl⟩
  · rw [h1] at he; cases he
  · rw [h1] at he; cases he
  · rw [he] at hv h1
    cases h1
    have hmem : ∀ p, p ∈ vs.maps.filter (fun p => decide (p.1 ≠ q.1)) → p ∈ vs.maps :=
      fun p hp => (List.mem_filter.1 hp).1
    have hcnt := fun b => countP_remove (isAlias b) q vs.maps (VInv.ne_base h.vinv) hq
    have hfl : (MapAction.canon q.2.rights).aliased = q.2.rights.aliased := rfl
    simp only [hfl]
    cases hqa : q.2.rights.aliased with
    | false =>
      refine ⟨fs, rfl, hv, h.reg, h.disj, h.none0, fun p hp => h.al p (hmem p hp),
        fun p hp => h.nal p (hmem p hp), ?_⟩
      intro fid f n hf
      have := h.cnt fid f n hf
      rw [hcnt, if_neg (by simp [isAlias, hqa])] at this
      exact this
    | true =>
      obtain ⟨fid, n, hf⟩ := h.al q hq hqa
      obtain ⟨c1, c2⟩ := h.cnt _ _ _ hf
      have hq1 : isAlias q.2.frame.base q = true := by simp [isAlias, hqa]
      have hn : 0 < n := by
        rw [hcnt, if_pos hq1] at c1
        omega
      rw [if_pos rfl, removeMapping_spec _ fs fid q.2.frame n hf rfl hn
        (fun fid' f' n' hf' hb' => h.base_unique hf hf' hb')]
      refine ⟨_, rfl, hv, ?_, ?_, ?_, ?_, ?_, ?_⟩
      · intro fid' f' n' h'
        rcases at_set h' with ⟨e1, e2⟩ | ⟨e1, e2⟩
        · cases e2; exact h.reg _ _ _ hf
        · exact h.reg _ _ _ e2
      · intro fid1 f1 n1 fid2 f2 n2 h1 h2 hne
        have : ∀ fid' f' n', Frames.At (fs.set fid (some q.2.frame, n - 1)) fid' f' n' →
            ∃ m, fs.At fid' f' m := by
          intro fid' f' n' h'
          rcases at_set h' with ⟨e1, e2⟩ | ⟨e1, e2⟩
          · cases e2; exact ⟨n, e1 ▸ hf⟩
          · exact ⟨_, e2⟩
        obtain ⟨_, h1⟩ := this _ _ _ h1
        obtain ⟨_, h2⟩ := this _ _ _ h2
        exact h.disj _ _ _ _ _ _ h1 h2 hne
      · intro fid' n' h'
        rw [List.getElem?_set] at h'
        split at h'
        · first | (split at h' <;> cases h') | cases h'
        · exact h.none0 _ _ h'
      · intro p hp hpa
        obtain ⟨fid', n', h'⟩ := h.al p (hmem p hp) hpa
        by_cases e : fid' = fid
        · subst e
          have : p.2.frame = q.2.frame := (at_inj h' hf).1
          rw [this]
          exact ⟨fid', n - 1, at_set_same (at_lt hf)⟩
        · exact ⟨fid', n', at_set_other h' e⟩
      · intro p hp hpa fid' f' n' h'
        rcases at_set h' with ⟨e1, e2⟩ | ⟨e1, e2⟩
        · cases e2; exact h.nal p (hmem p hp) hpa _ _ _ hf
        · exact h.nal p (hmem p hp) hpa _ _ _ e2
      · intro fid' f' n' h'
        rcases at_set h' with ⟨e1, e2⟩ | ⟨e1, e2⟩
        · cases e2
          rw [hcnt, if_pos hq1] at c1
          dsimp only
          refine ⟨by omega, fun hc => ?_⟩
          have c2 := c2 hc
          rw [hcnt, if_pos hq1] at c2
          omega
        · have := h.cnt _ _ _ e2
          rw [hcnt, if_neg (by
            simp only [isAlias, hqa, Bool.and_true, decide_eq_true_eq]
            intro e
            exact e1 (h.base_unique hf e2 e.symm))] at this
          exact this

theorem PInv.new (clean : Bool) (pt : PML4) (h : ∀ x, x < userTop → leafAt pt x = Option.none) :
    PInv clean ⟨[], pt⟩ Frames.new := by
  have hno : ∀ fid f n, ¬ Frames.new.At fid f n := by
    intro fid f n h
    unfold Frames.At Frames.new at h
    rw [List.getElem?_replicate] at h
    split at h <;> cases h
  refine ⟨(Run.new (env := ⟨false, fun _ => false⟩) pt h).inv rfl, ?_, ?_, ?_, ?_, ?_, ?_⟩
  · intro fid f n h; exact absurd h (hno _ _ _)
  · intro fid f n _ _ _ h; exact absurd h (hno _ _ _)
  · intro fid n h
    unfold Frames.new at h
    rw [List.getElem?_replicate] at h
    split at h <;> cases h
    rfl
  · intro q hq; cases hq
  · intro q hq; cases hq
  · intro fid f n h; exact absurd h (hno _ _ _)

theorem makeExecs_keeps (c : Cfg) (aff mid : Nat) (ooms : Nat → Bool) : ∀ n s pa va,
    (makeExecs c aff mid n ooms s pa va).1.vs = s.vs ∧
    (makeExecs c aff mid n ooms s pa va).1.frames = s.frames ∧
    (makeExecs c aff mid n ooms s pa va).1.active = s.active ∧
    (makeExecs c aff mid n ooms s pa va).1.execOff = s.execOff := by
  intro n
  induction n with
  | zero => intro s pa va; exact ⟨rfl, rfl, rfl, rfl⟩
  | succ n ih =>
    intro s pa va
    unfold makeExecs
    split
    · exact ⟨rfl, rfl, rfl, rfl⟩
    · split
      · exact ⟨rfl, rfl, rfl, rfl⟩
      · exact ih _ _ _

theorem allocateExecutors_keeps (c : Cfg) (mapOom : Bool) (ooms : Nat → Bool) (s : Proc) (m : Frame)
    (mid : Nat) :
    ((s.allocateExecutors c mapOom ooms m mid).1.vs = s.vs ∨
      (s.allocateExecutors c mapOom ooms m mid).1.vs =
        (mapFrame c.env mapOom s.vs s.execOff m execRights).1) ∧
    (s.allocateExecutors c mapOom ooms m mid).1.frames = s.frames ∧
    (s.allocateExecutors c mapOom ooms m mid).1.active = s.active := by
  unfold Proc.allocateExecutors
  dsimp only
  have hm := makeExecs_keeps c m.aff mid ooms (m.size / EXEC_SPACE)
  by_cases h : c.rack = true ∧ mid ≠ c.machine
  · rw [if_pos h]
    dsimp only
    obtain ⟨h1, h2, h3, _⟩ := hm { s with vs := s.vs } m.base s.execOff
    split <;> rename_i he <;> rw [he] at h1 h2 h3 <;> exact ⟨Or.inl h1, h2, h3⟩
  · rw [if_neg h]
    cases hq : mapFrame c.env mapOom s.vs s.execOff m execRights with
    | mk vs' o =>
      cases o with
      | ok u =>
        dsimp only
        obtain ⟨h1, h2, h3, _⟩ := hm { s with vs := vs' } m.base s.execOff
        split <;> rename_i he <;> rw [he] at h1 h2 h3 <;> exact ⟨Or.inr h1, h2, h3⟩
      | err e => exact ⟨Or.inr rfl, rfl, rfl⟩
      | panic => exact ⟨Or.inr rfl, rfl, rfl⟩

theorem getExecutor_keeps (c : Cfg) (s : Proc) (region mid : Nat) :
    (s.getExecutor c region mid).1.vs = s.vs ∧ (s.getExecutor c region mid).1.frames = s.frames ∧
    (s.getExecutor c region mid).1.active = s.active := by
  unfold Proc.getExecutor
  split
  · exact ⟨rfl, rfl, rfl⟩
  · split <;> exact ⟨rfl, rfl, rfl⟩

theorem SRun.inv {c : Cfg} (hk : c.env.pages4k = false) {clean : Bool} {s : Proc}
    (r : SRun c clean s) : PInv clean s.vs s.frames := by
  induction r with
  | new pt off h => exact PInv.new clean pt h
  | @step s s' o op r hs ho sane good ih =>
    have hget : ∀ {P : Frame → Nat → Prop} {fid}, (∀ f n, s.frames.get fid = .ok (f, n) → P f n) →
        ∀ f n, s.frames.At fid f n → P f n := fun h f n hf => h f n (get_ok.2 hf)
    cases op with
    | dispatchers m mid mapOom ooms =>
      obtain ⟨h1, h2, h3⟩ := sane
      obtain ⟨k1, k2, _⟩ := allocateExecutors_keeps c mapOom ooms s m mid
      have e : s' = (s.allocateExecutors c mapOom ooms m mid).1 := by
        unfold Proc.step at hs; exact (congrArg Prod.fst hs).symm
      rw [e, k2]
      rcases k1 with k1 | k1 <;> rw [k1]
      · exact ih
      · exact ih.map c.env hk mapOom s.execOff m execRights h1 h2 rfl
          (fun fid f n hf => h3 fid f n (get_ok.2 hf))
    | map base g a refill oom =>
      obtain ⟨h1, h2, h3, h4⟩ := sane
      unfold Proc.step at hs
      dsimp only at hs
      split at hs
      · cases hs; exact ih
      · cases hs
        exact ih.map c.env hk oom base g a h1 h2 h3 (fun fid f n hf => h4 fid f n (get_ok.2 hf))
    | mapDevice g a oom =>
      obtain ⟨h1, h2, h3, h4⟩ := sane
      unfold Proc.step at hs
      cases hs
      exact ih.map c.env hk oom g.base g a h1 h2 h3 (fun fid f n hf => h4 fid f n (get_ok.2 hf))
    | mapFrameId base fid a refill oom =>
      obtain ⟨rfl, h2⟩ := sane
      unfold Proc.step at hs
      dsimp only at hs
      split at hs
      · rename_i g m hg
        have hat := get_ok.1 hg
        have hadd : s.frames.addMapping fid = (s.frames.set fid (some g, m + 1), .ok ()) := by
          unfold Frames.addMapping; rw [hat]
        rw [hadd] at hs
        dsimp only at hs
        have hgood : clean = true → refill = false ∧ oom = false ∧ base % g.size = 0 ∧
            ∀ x, base ≤ x → x < base + g.size → s.vs.resolve x = .err .notMapped := by
          intro hc
          obtain ⟨g1, g2, g3⟩ := good hc
          exact ⟨g1, g2, g3 g m hg⟩
        split at hs
        · rename_i hre
          cases hs
          cases hcl : clean with
          | true => rw [(hgood hcl).1] at hre; cases hre
          | false =>
            -- a map that fails for lack of memory leaves the same state behind
            rw [hcl] at ih
            have := ih.mapId c.env hk true base fid g m hat (h2 g m hg) (fun h => by cases h)
            rcases mapFrame_cases c.env hk true ih.vinv base g idRights (ih.reg _ _ _ hat).1
              (h2 g m hg) with ⟨e, he, _⟩ | ⟨_, _, q, hq, _, _, _, hc⟩ | ⟨hb, hv', hall, hc⟩
            · rw [he] at this; exact this
            · rcases hc with ⟨_, _, _, _, he⟩ | ⟨_, he⟩ <;> rw [he] at this <;> exact this
            · rcases hc with ⟨_, he⟩ | ⟨h, _⟩
              · rw [he] at this; exact this
              · cases h
        · cases hs
          exact ih.mapId c.env hk oom base fid g m hat (h2 g m hg)
            (fun hc => (hgood hc).2)
      · cases hs; exact ih
      · cases hs; exact ih
    | unmap base =>
      unfold Proc.step at hs
      dsimp only at hs
      cases hu : NRK.VSpace.unmap s.vs base with
      | mk vs' ou =>
        rw [hu] at hs
        cases ou with
        | ok hd =>
          obtain ⟨fs', h1, h2⟩ := ih.unmap base sane hd hu
          dsimp only at hs
          rw [h1] at hs
          cases hs
          exact h2
        | err e =>
          cases hs
          have := ih.vinv.unmap base sane
          rcases unmap_cases ih.vinv base sane with ⟨h1, _⟩ | ⟨h1, _⟩ | ⟨q, hq, hc, hx, t', h1, hl⟩ <;>
            rw [hu] at h1 <;> cases h1 <;> exact ih
        | panic => cases hs; exact absurd rfl ho
    | assign gtid region oom =>
      obtain ⟨k1, k2, _⟩ := getExecutor_keeps c s region (midFromGtid gtid).toNat
      unfold Proc.step at hs
      dsimp only at hs
      split at hs
      · rename_i he
        rw [he] at k1 k2
        dsimp only at k1 k2
        split at hs <;> cases hs <;> (try dsimp only) <;> rw [k1, k2] <;> exact ih
      · rename_i he
        rw [he] at k1 k2
        cases hs
        rw [k1, k2]; exact ih
      · rename_i he
        rw [he] at k1 k2
        cases hs
        rw [k1, k2]; exact ih
    | allocFrame g =>
      obtain ⟨h1, h2, h3, h4⟩ := sane
      unfold Proc.step at hs
      dsimp only at hs
      rcases add_spec s.frames g with ⟨fid, n, hn, he⟩ | ⟨_, he⟩
      · rw [he] at hs
        cases hs
        dsimp only
        have hnom : ∀ q ∈ s.vs.maps, Disjoint q.2.frame.block g.block := by
          intro q hq p ⟨hp1, hp2⟩
          obtain ⟨a1, a2, a3, a4⟩ := ih.vinv.page q hq
          have hcov : Covers q (q.1 + (p - q.2.frame.base)) := by
            unfold Block.Has Frame.block at hp1
            dsimp only at hp1
            exact ⟨by omega, by omega⟩
          have hres := ih.vinv.resolve_cov hq hcov
          unfold Block.Has Frame.block at hp1
          dsimp only at hp1
          refine h4 _ _ _ (ih.vinv.cov_user hq hcov) hres ?_
          have : q.2.frame.base + (q.1 + (p - q.2.frame.base) - q.1) = p := by omega
          rw [this]; exact hp2
        have hlt : fid < s.frames.length := (List.getElem?_eq_some_iff.1 hn).1
        refine ⟨ih.vinv, ?_, ?_, ?_, ?_, ?_, ?_⟩
        · intro fid' f' n' h'
          rcases at_set h' with ⟨e1, e2⟩ | ⟨e1, e2⟩
          · cases e2; exact ⟨h1, h2⟩
          · exact ih.reg _ _ _ e2
        · intro fid1 f1 n1 fid2 f2 n2 a1 a2 hne
          rcases at_set a1 with ⟨e1, e2⟩ | ⟨e1, e2⟩
          · cases e2
            rcases at_set a2 with ⟨e3, e4⟩ | ⟨e3, e4⟩
            · exact absurd (e1.trans e3.symm) hne
            · exact (h3 _ _ _ (get_ok.2 e4)).symm
          · rcases at_set a2 with ⟨e3, e4⟩ | ⟨e3, e4⟩
            · cases e4
              exact h3 _ _ _ (get_ok.2 e2)
            · exact ih.disj _ _ _ _ _ _ e2 e4 hne
        · intro fid' n' h'
          rw [List.getElem?_set] at h'
          split at h'
          · first | (split at h' <;> cases h') | cases h'
          · exact ih.none0 _ _ h'
        · intro q hq hqa
          obtain ⟨fid', n', h'⟩ := ih.al q hq hqa
          refine ⟨fid', n', at_set_other h' (fun e => ?_)⟩
          unfold Frames.At at h'
          rw [e, hn] at h'
          cases h'
        · intro q hq hqa fid' f' n' h'
          rcases at_set h' with ⟨e1, e2⟩ | ⟨e1, e2⟩
          · cases e2; exact (hnom q hq).symm
          · exact ih.nal q hq hqa _ _ _ e2
        · intro fid' f' n' h'
          rcases at_set h' with ⟨e1, e2⟩ | ⟨e1, e2⟩
          · cases e2
            have : s.vs.maps.countP (isAlias g.base) = 0 := by
              rw [List.countP_eq_zero]
              intro q hq hqa
              simp only [isAlias, Bool.and_eq_true, decide_eq_true_eq] at hqa
              have p1 := pageSize_pos (ih.vinv.page q hq).1
              have p2 := pageSize_pos h1
              refine hnom q hq g.base ⟨?_, ?_⟩ <;> unfold Block.Has Frame.block <;> dsimp only <;> omega
            rw [this]
            exact ⟨Nat.le_refl _, fun _ => rfl⟩
          · exact ih.cnt _ _ _ e2
      · rw [he] at hs
        cases hs; exact ih
    | releaseFrame fid =>
      unfold Proc.step at hs
      dsimp only at hs
      unfold Frames.dealloc at hs
      split at hs
      · cases hs; exact ih
      · rename_i of n hn
        split at hs
        · rename_i h0
          subst h0
          split at hs
          · rename_i g
            cases hs
            dsimp only
            have hat : s.frames.At fid g 0 := hn
            have hold : ∀ fid' f' n', Frames.At (s.frames.set fid (none, 0)) fid' f' n' →
                fid' ≠ fid ∧ s.frames.At fid' f' n' := by
              intro fid' f' n' h'
              rcases at_set h' with ⟨_, e2⟩ | ⟨e1, e2⟩
              · cases e2
              · exact ⟨e1, e2⟩
            refine ⟨ih.vinv, ?_, ?_, ?_, ?_, ?_, ?_⟩
            · intro fid' f' n' h'; exact ih.reg _ _ _ (hold _ _ _ h').2
            · intro fid1 f1 n1 fid2 f2 n2 a1 a2 hne
              exact ih.disj _ _ _ _ _ _ (hold _ _ _ a1).2 (hold _ _ _ a2).2 hne
            · intro fid' n' h'
              rw [List.getElem?_set] at h'
              split at h'
              · first | (split at h' <;> cases h' <;> rfl) | (cases h'; rfl)
              · exact ih.none0 _ _ h'
            · intro q hq hqa
              obtain ⟨fid', n', h'⟩ := ih.al q hq hqa
              refine ⟨fid', n', at_set_other h' (fun e => ?_)⟩
              subst e
              have hc := (ih.cnt _ _ _ h').1
              have e2 := (at_inj h' hat).2
              rw [e2] at hc
              have : 0 < s.vs.maps.countP (isAlias q.2.frame.base) := by
                rw [List.countP_pos_iff]
                exact ⟨q, hq, by simp [isAlias, hqa]⟩
              omega
            · intro q hq hqa fid' f' n' h'
              exact ih.nal q hq hqa _ _ _ (hold _ _ _ h').2
            · intro fid' f' n' h'
              exact ih.cnt _ _ _ (hold _ _ _ h').2
          · cases hs; exact ih
        · cases hs; exact ih

/-! ## C38: registered frames -/

/-- **C38** A registered frame is released only when no address of the process translates to any part
of it; afterwards the identifier is invalid. -/
theorem c38_release_unmapped {c : Cfg} (hk : c.env.pages4k = false) {clean : Bool} {s s' : Proc}
    (r : SRun c clean s) (fid : Nat) (f : Frame)
    (h : s.step c (.releaseFrame fid) = (s', .ok (.frame f))) :
    (∃ n, s.frames.get fid = .ok (f, n)) ∧
    (∀ x p a, x < userTop → s.vs.resolve x = .ok (p, a) → ¬ f.block.Has p) ∧
    s'.frames.get fid = .err .invalidFrameId := by
  have inv := r.inv hk
  unfold Proc.step at h
  dsimp only at h
  unfold Frames.dealloc at h
  split at h
  · cases h
  · rename_i of n hn
    split at h
    · rename_i h0
      subst h0
      split at h
      · cases h
        have hat : s.frames.At fid f 0 := hn
        refine ⟨⟨0, get_ok.2 hat⟩, ?_, ?_⟩
        · intro x p a hx hr hp
          obtain ⟨q, hq, hc⟩ := inv.vinv.exists_cov hx (by rw [hr]; simp)
          have hr' := inv.vinv.resolve_cov hq hc
          rw [hr] at hr'
          cases hr'
          obtain ⟨p1, _, _, _⟩ := inv.vinv.page q hq
          unfold Covers at hc
          have hqp : q.2.frame.block.Has (q.2.frame.base + (x - q.1)) := by
            unfold Block.Has Frame.block; dsimp only; omega
          cases hqa : q.2.rights.aliased with
          | false => exact inv.nal q hq hqa _ _ _ hat _ ⟨hp, hqp⟩
          | true =>
            obtain ⟨fid', n', h'⟩ := inv.al q hq hqa
            by_cases e : fid' = fid
            · subst e
              have e2 := at_inj h' hat
              have hcn := (inv.cnt _ _ _ h').1
              have : 0 < s.vs.maps.countP (isAlias q.2.frame.base) := by
                rw [List.countP_pos_iff]
                exact ⟨q, hq, by simp [isAlias, hqa]⟩
              omega
            · exact inv.disj _ _ _ _ _ _ h' hat e _ ⟨hqp, hp⟩
        · unfold Frames.get
          dsimp only
          rw [List.getElem?_set, if_pos rfl, if_pos (at_lt hat)]
      · cases h
    · cases h

/-- **C38** Partial: if every map of a registered frame so far went well (see `GoodMap`), a registered
frame that is not mapped can be released.  Without that assumption it is false, see the witnesses. -/
theorem c38_release_succeeds_partial {c : Cfg} (hk : c.env.pages4k = false) {s : Proc}
    (r : SRun c true s) (fid : Nat) (f : Frame) (n : Nat) (hf : s.frames.get fid = .ok (f, n))
    (hun : ∀ x p a, x < userTop → s.vs.resolve x = .ok (p, a) → ¬ f.block.Has p) :
    ∃ s', s.step c (.releaseFrame fid) = (s', .ok (.frame f)) := by
  have inv := r.inv hk
  have hat := get_ok.1 hf
  have hn := (inv.cnt _ _ _ hat).2 rfl
  have h0 : s.vs.maps.countP (isAlias f.base) = 0 := by
    rw [List.countP_eq_zero]
    intro q hq hqa
    simp only [isAlias, Bool.and_eq_true, decide_eq_true_eq] at hqa
    have p1 := pageSize_pos (inv.vinv.page q hq).1
    have hc : Covers q q.1 := ⟨Nat.le_refl _, by omega⟩
    have hr := inv.vinv.resolve_cov hq hc
    refine hun _ _ _ (inv.vinv.cov_user hq hc) hr ?_
    have := pageSize_pos (inv.reg _ _ _ hat).1
    unfold Block.Has Frame.block
    dsimp only
    omega
  have hd : s.frames.dealloc fid = (s.frames.set fid (none, n), .ok f) := by
    unfold Frames.dealloc
    rw [show s.frames[fid]? = some (some f, n) from hat]
    dsimp only
    rw [if_pos (by omega)]
  unfold Proc.step
  dsimp only
  rw [hd]
  exact ⟨_, rfl⟩

/-- **C38** Identifiers: registering a frame gives an identifier that was not valid and now stands for
the frame; the other identifiers keep their frames.  It fails only when all are in use. -/
theorem c38_register (c : Cfg) (s s' : Proc) (f : Frame) (o : Outcome ProcResult)
    (h : s.step c (.allocFrame f) = (s', o)) :
    (∃ fid, o = .ok (.frameId fid) ∧ s.frames.get fid = .err .invalidFrameId ∧
      s'.frames.get fid = .ok (f, 0) ∧ ∀ i, i ≠ fid → s'.frames.get i = s.frames.get i) ∨
    (o = .err .tooManyRegisteredFrames ∧ s' = s ∧
      ∀ i, i < s.frames.length → ∃ g n, s.frames.get i = .ok (g, n)) := by
  unfold Proc.step at h
  dsimp only at h
  rcases add_spec s.frames f with ⟨fid, n, hn, he⟩ | ⟨hn, he⟩
  · left
    rw [he] at h
    cases h
    refine ⟨fid, rfl, ?_, ?_, ?_⟩
    · unfold Frames.get; rw [hn]
    · exact get_ok.2 (at_set_same (List.getElem?_eq_some_iff.1 hn).1)
    · intro i hi
      unfold Frames.get
      dsimp only
      rw [List.getElem?_set, if_neg (fun e => hi e.symm)]
  · right
    rw [he] at h
    cases h
    refine ⟨rfl, rfl, ?_⟩
    intro i hi
    have : s.frames[i]? = some s.frames[i] := List.getElem?_eq_getElem hi
    rcases hq : s.frames[i] with ⟨of, m⟩
    cases of with
    | none => rw [hq] at this; exact absurd this (hn i m)
    | some g => exact ⟨g, m, get_ok.2 (by unfold Frames.At; rw [this, hq])⟩

end NRK.Proc
