import Verif.Proc.UserModel
import Verif.VSpace.VSpaceProps

/-!
# Properties of user buffers (C41, C42)
-/

namespace NRK.Proc

open NRK.VSpace NRK.Mem

/-! ## C41 -/

/-- **C41** A buffer given to a system call as address and length is accepted exactly if there is a
current process, its length is below the limit, it starts above the zero page and ends below the
kernel's half of the address space (as numbers, without wrap-around); then it is the buffer asked for. -/
theorem c41_accepted_iff (cur : Option Nat) (base len : BitVec 64) (u : UserSlice) :
    UserSlice.forCurrentProc cur base len = .ok u ↔
      cur = some u.pid ∧ u.base = base.toNat ∧ u.len = len.toNat ∧ u.len ≤ 2 ^ 31 - 1 ∧
      4096 ≤ u.base ∧ u.base + u.len < 2 ^ 46 := by
  have hb := base.isLt
  have hl := len.isLt
  have hK : KERNEL_BASE = 2 ^ 46 := rfl
  have hM : MAX_USER_LEN = 2 ^ 31 - 1 := rfl
  obtain ⟨upid, ub, ul⟩ := u
  unfold UserSlice.forCurrentProc
  cases cur with
  | none => simp
  | some pid =>
    simp only [Option.some.injEq]
    unfold uvaddr
    by_cases h1 : base.toNat < KERNEL_BASE
    · rw [if_pos h1]
      show UserSlice.new pid base.toNat len.toNat = _ ↔ _
      unfold UserSlice.new
      by_cases h2 : len.toNat > MAX_USER_LEN
      · rw [if_pos h2]
        constructor
        · intro h; cases h
        · rintro ⟨_, h3, h4, h5, _⟩; rw [hM] at h2; omega
      · rw [if_neg h2]
        unfold checkedAdd
        by_cases h3 : base.toNat + len.toNat < 2 ^ 64
        · rw [if_pos h3]
          dsimp only
          by_cases h4 : base.toNat ≥ 4096 ∧ base.toNat + len.toNat < KERNEL_BASE
          · rw [if_pos h4]
            rw [hM] at h2
            rw [hK] at h4
            simp only [Outcome.ok.injEq, UserSlice.mk.injEq]
            omega
          · rw [if_neg h4]
            constructor
            · intro h; cases h
            · rintro ⟨_, h5, h6, _, h7, h8⟩; rw [hK] at h4; omega
        · rw [if_neg h3]
          constructor
          · intro h; cases h
          · rintro ⟨_, h5, h6, _, h7, h8⟩; omega
    · rw [if_neg h1]
      constructor
      · intro h; cases h
      · rintro ⟨_, h5, h6, _, h7, h8⟩; rw [hK] at h1; omega

/-- **C41** A part of an accepted buffer lies in the buffer, hence in user space too; a part that does
not fit is not made. -/
theorem c41_subslice (u v : UserSlice) (i j : Nat) (h : u.subslice i j = .ok v) :
    v.pid = u.pid ∧ v.base = u.base + i ∧ v.len = j - i ∧ i ≤ j ∧ v.base + v.len ≤ u.base + u.len := by
  unfold UserSlice.subslice uvaddr at h
  split at h
  · cases h
  · split at h
    · rename_i b hb
      split at hb
      · cases hb
        split at h
        · cases h
        · cases h
          dsimp only
          omega
      · cases hb
    · cases h

/-! ## C42 -/

/-- Spec: the user may read the byte at `x`: it is mapped, and not for the kernel only. -/
def UserReadable (vs : VSpace) (x : Nat) : Prop :=
  ∃ p r, vs.resolve x = .ok (p, r) ∧ r.present = true ∧ r.kernel = false

/-- Spec: the user may write the byte at `x`. -/
def UserWritable (vs : VSpace) (x : Nat) : Prop :=
  ∃ p r, vs.resolve x = .ok (p, r) ∧ r.write = true ∧ r.kernel = false

/-- Address spaces after any history of maps, unmaps and changes of rights, all for the user (the rights
of all mappings of processes are: `MapAction::user()`, `write()`, `execute()` and combinations). -/
inductive URun (env : Env) : VSpace → Prop
  | new (pt : PML4) (h : ∀ x, x < userTop → leafAt pt x = Option.none) : URun env ⟨[], pt⟩
  | map {s : VSpace} (oom : Bool) (base : Nat) (f : Frame) (a : MapAction) (h : URun env s)
      (hn : PageSize f.size) (hu : base + f.size ≤ userTop) (ha : a.kernel = false) :
      URun env (mapFrame env oom s base f a).1
  | unmap {s : VSpace} (x : Nat) (h : URun env s) (hu : x < userTop) : URun env (NRK.VSpace.unmap s x).1
  | adjust {s : VSpace} (x : Nat) (r : MapAction) (h : URun env s) (hu : x < userTop)
      (hr : r.kernel = false) : URun env (NRK.VSpace.adjust s x r).1

theorem URun.run {env : Env} {s : VSpace} (h : URun env s) : Run env s := by
  induction h with
  | new pt h => exact .new pt h
  | map oom base f a _ hn hu _ ih => exact .map oom base f a ih hn hu
  | unmap x _ hu ih => exact .unmap x ih hu
  | adjust x r _ hu _ ih => exact .adjust x r ih hu

theorem URun.user {env : Env} (hk : env.pages4k = false) {s : VSpace} (h : URun env s) :
    ∀ q ∈ s.maps, q.2.rights.kernel = false := by
  induction h with
  | new pt h => intro q hq; cases hq
  | @map s oom base f a h hn hu ha ih =>
    intro q hq
    rcases mapFrame_cases env hk oom (h.run.inv hk) base f a hn hu with ⟨e, he, _⟩ |
      ⟨_, _, q', _, _, _, _, ⟨_, _, _, _, he⟩ | ⟨_, he⟩⟩ | ⟨_, _, _, ⟨_, he⟩ | ⟨_, t', he, _⟩⟩ <;>
      rw [he] at hq
    · exact ih q hq
    · exact ih q hq
    · exact ih q hq
    · exact ih q hq
    · rcases (mem_insertMap _ _ _ _).1 hq with e | e
      · rw [e]; exact ha
      · exact ih q e
  | @unmap s x h hu ih =>
    intro q hq
    rcases unmap_cases (h.run.inv hk) x hu with ⟨he, _⟩ | ⟨he, _⟩ | ⟨q', _, _, _, t', he, _⟩ <;>
      rw [he] at hq
    · exact ih q hq
    · exact ih q hq
    · exact ih q (List.mem_filter.1 hq).1
  | @adjust s x r h hu hr ih =>
    intro q hq
    rcases adjust_cases (h.run.inv hk) x r hu with ⟨he, _⟩ | ⟨he, _⟩ | ⟨q', _, _, _, t', he, _⟩ <;>
      rw [he] at hq
    · exact ih q hq
    · exact ih q hq
    · obtain ⟨p, hp, rfl⟩ := List.mem_map.1 hq
      split
      · exact hr
      · exact ih p hp

/-- All bytes of a small page are translated alike. -/
theorem page_uniform {s : VSpace} (h : VInv s) {a p : Nat} {r : MapAction} (ha : a % 4096 = 0)
    (hu : a < userTop) (y : Nat) (hy : y < 4096) (hr : s.resolve (a + y) = .ok (p, r)) (z : Nat)
    (hz : z < 4096) : ∃ p', s.resolve (a + z) = .ok (p', r) := by
  have hu2 : a + y < userTop := by
    have : userTop = 4096 * 17179869184 := rfl
    omega
  obtain ⟨q, hq, hc⟩ := h.exists_cov hu2 (by rw [hr]; simp)
  obtain ⟨h1, h2, _, _⟩ := h.page q hq
  have hc' : Covers q (a + z) := by
    unfold Covers at hc ⊢
    rcases h1 with e | e <;> rw [e] at h2 hc ⊢ <;> omega
  have := h.resolve_cov hq hc
  rw [hr] at this
  cases this
  exact ⟨_, h.resolve_cov hq hc'⟩

theorem checkPages_ok {s : VSpace} (h : VInv s) (w : Bool) : ∀ n a, a % 4096 = 0 →
    checkPages s w n a = .ok () → ∀ x, a ≤ x → x < a + n * 4096 →
      x < userTop ∧ ∃ p r, s.resolve x = .ok (p, r) ∧ (w = true → r.write = true) ∧
        (w = false → r.present = true) := by
  intro n
  induction n with
  | zero => intro a _ _ x h1 h2; omega
  | succ n ih =>
    intro a ha hc x h1 h2
    unfold checkPages uvaddr at hc
    by_cases hK : a < KERNEL_BASE
    · rw [if_pos hK] at hc
      change ((s.resolve a).bind _) = _ at hc
      have hu : a < userTop := hK
      cases hr : s.resolve a with
      | err e => rw [hr] at hc; cases hc
      | panic => rw [hr] at hc; cases hc
      | ok pr =>
        obtain ⟨p, r⟩ := pr
        rw [hr] at hc
        change (if _ then _ else _) = _ at hc
        by_cases c1 : w = true ∧ r.write = false
        · rw [if_pos c1] at hc; cases hc
        · rw [if_neg c1] at hc
          by_cases c2 : w = false ∧ r.present = false
          · rw [if_pos c2] at hc; cases hc
          · rw [if_neg c2] at hc
            by_cases hx : x < a + 4096
            · have : userTop = 4096 * 17179869184 := rfl
              obtain ⟨p', hp'⟩ := page_uniform h ha hu 0 (by omega) hr (x - a) (by omega)
              rw [show a + (x - a) = x by omega] at hp'
              refine ⟨by omega, p', r, hp', ?_, ?_⟩
              · intro e
                cases hw : r.write with
                | true => rfl
                | false => exact absurd ⟨e, hw⟩ c1
              · intro e
                cases hw : r.present with
                | true => rfl
                | false => exact absurd ⟨e, hw⟩ c2
            · exact ih (a + 4096) (by omega) hc x (by omega) (by omega)
    · rw [if_neg hK] at hc; cases hc

theorem checkPages_complete {s : VSpace} (h : VInv s) : ∀ n a, a % 4096 = 0 →
    (∀ k, k < n → ∃ y, y < 4096 ∧ a + k * 4096 + y < userTop ∧ UserReadable s (a + k * 4096 + y)) →
    checkPages s false n a = .ok () := by
  intro n
  induction n with
  | zero => intro a _ _; rfl
  | succ n ih =>
    intro a ha hx
    obtain ⟨y, hy, hu, p, r, hr, hp, _⟩ := hx 0 (by omega)
    rw [Nat.zero_mul, Nat.add_zero] at hu hr
    obtain ⟨p', hp'⟩ := page_uniform h ha (by omega) y hy hr 0 (by omega)
    rw [Nat.add_zero] at hp'
    unfold checkPages uvaddr
    rw [if_pos (show a < KERNEL_BASE from (by have : a < userTop := by omega
                                              exact this))]
    show ((s.resolve a).bind _) = _
    rw [hp']
    show (if false = true ∧ r.write = false then Outcome.err .userPtMissingWriteAccess
      else if false = false ∧ r.present = false then .err .userPtMissingReadAccess
      else checkPages s false n (a + 4096)) = _
    rw [if_neg (fun e => by cases e.1), if_neg (fun e => by rw [hp] at e; cases e.2)]
    apply ih (a + 4096) (by omega)
    intro k hk
    obtain ⟨y, h1, h2, h3⟩ := hx (k + 1) (by omega)
    rw [show a + (k + 1) * 4096 = a + 4096 + k * 4096 by omega] at h2 h3
    exact ⟨y, h1, h2, h3⟩

theorem stepCount_cover (b l x : Nat) (h1 : b ≤ x) (h2 : x < b + l) :
    b / 4096 * 4096 ≤ x ∧ x < b / 4096 * 4096 + stepCount (b / 4096 * 4096) (b + l) * 4096 := by
  unfold stepCount; omega

theorem accessible_ok {env : Env} (hk : env.pages4k = false) {vs : VSpace} (hr : URun env vs)
    (u : UserSlice) (pid : Nat) (cur : Option Nat) (w : Bool)
    (h : u.isAccessible pid vs cur w = .ok ()) :
    u.pid = pid ∧ (∀ q, cur = some q → q = pid) ∧ ∀ x, u.base ≤ x → x < u.base + u.len →
      x < userTop ∧ ∃ p r, vs.resolve x = .ok (p, r) ∧ (w = true → r.write = true) ∧
        r.present = true ∧ r.kernel = false := by
  unfold UserSlice.isAccessible at h
  split at h
  · cases h
  · rename_i hp
    split at h
    · cases h
    · rename_i hcur
      refine ⟨Classical.byContradiction hp, ?_, ?_⟩
      · intro q hq
        rw [hq] at hcur
        simp at hcur
        exact hcur
      · intro x h1 h2
        obtain ⟨c1, c2⟩ := stepCount_cover _ _ _ h1 h2
        have hi := hr.run.inv hk
        obtain ⟨hu, p, r, hres, hw, _⟩ := checkPages_ok hi w _ _ (by omega) h x c1 c2
        obtain ⟨q, hq, hc⟩ := hi.exists_cov hu (by rw [hres]; simp)
        have h3 := hi.resolve_cov hq hc
        rw [hres] at h3
        cases h3
        exact ⟨hu, _, _, hres, hw, rfl, hr.user hk q hq⟩

theorem loadBytes_spec (cpu : VSpace) (mem : Nat → UInt8) : ∀ n x l,
    loadBytes cpu mem n x = .ok l → l.length = n ∧
      ∀ i, i < n → ∃ p r, cpu.resolve (x + i) = .ok (p, r) ∧ l[i]? = some (mem p) := by
  intro n
  induction n with
  | zero => intro x l h; cases h; exact ⟨rfl, fun i hi => by omega⟩
  | succ n ih =>
    intro x l h
    unfold loadBytes loadByte at h
    cases hr : cpu.resolve x with
    | err e => rw [hr] at h; cases h
    | panic => rw [hr] at h; cases h
    | ok pr =>
      rw [hr] at h
      change (loadBytes cpu mem n (x + 1)).map _ = _ at h
      cases hl : loadBytes cpu mem n (x + 1) with
      | err e => rw [hl] at h; cases h
      | panic => rw [hl] at h; cases h
      | ok l' =>
        rw [hl] at h
        cases h
        obtain ⟨h1, h2⟩ := ih _ _ hl
        refine ⟨by simp [h1], ?_⟩
        intro i hi
        cases i with
        | zero => exact ⟨pr.1, pr.2, hr, rfl⟩
        | succ i =>
          obtain ⟨p, r, h3, h4⟩ := h2 i (by omega)
          exact ⟨p, r, by rw [← h3]; congr 1; omega, h4⟩

theorem loadBytes_ok (cpu : VSpace) (mem : Nat → UInt8) : ∀ n x,
    (∀ i, i < n → ∃ p r, cpu.resolve (x + i) = .ok (p, r)) → ∃ l, loadBytes cpu mem n x = .ok l := by
  intro n
  induction n with
  | zero => intro x _; exact ⟨[], rfl⟩
  | succ n ih =>
    intro x h
    obtain ⟨p, r, hr⟩ := h 0 (by omega)
    obtain ⟨l, hl⟩ := ih (x + 1) (fun i hi => by
      have := h (i + 1) (by omega)
      rwa [show x + 1 + i = x + (i + 1) by omega])
    refine ⟨mem p :: l, ?_⟩
    unfold loadBytes loadByte
    rw [Nat.add_zero] at hr
    rw [hr, hl]
    rfl

/-- **C42** Reading a user buffer succeeds only if the user may read all of it, and gives the bytes that
the user sees there. -/
theorem c42_read {env : Env} (hk : env.pages4k = false) {vs : VSpace} (hr : URun env vs) (pid : Nat)
    (mem : Nat → UInt8) (u : UserSlice) (bytes : List UInt8)
    (h : readSlice pid vs vs (some pid) mem u = .ok bytes) :
    u.pid = pid ∧ bytes.length = u.len ∧ ∀ i, i < u.len → UserReadable vs (u.base + i) ∧
      ∃ p r, vs.resolve (u.base + i) = .ok (p, r) ∧ bytes[i]? = some (mem p) := by
  unfold readSlice at h
  cases ha : u.isAccessible pid vs (some pid) false with
  | err e => rw [ha] at h; cases h
  | panic => rw [ha] at h; cases h
  | ok x =>
    rw [ha] at h
    obtain ⟨h1, _, h2⟩ := accessible_ok hk hr u pid _ false ha
    obtain ⟨h3, h4⟩ := loadBytes_spec vs mem _ _ _ h
    refine ⟨h1, h3, ?_⟩
    intro i hi
    obtain ⟨_, p, r, q1, _, q2, q3⟩ := h2 (u.base + i) (by omega) (by omega)
    exact ⟨⟨p, r, q1, q2, q3⟩, h4 i hi⟩

/-- **C42** Conversely, a buffer of the current process that is not empty and that the user may read can
be read; in no case does a read by the kernel fault. -/
theorem c42_read_succeeds {env : Env} (hk : env.pages4k = false) {vs : VSpace} (hr : URun env vs)
    (pid : Nat) (mem : Nat → UInt8) (u : UserSlice) (hp : u.pid = pid) (hl : 0 < u.len)
    (h : ∀ i, i < u.len → u.base + i < userTop ∧ UserReadable vs (u.base + i)) :
    ∃ bytes, readSlice pid vs vs (some pid) mem u = .ok bytes := by
  have hi := hr.run.inv hk
  have ha : u.isAccessible pid vs (some pid) false = .ok () := by
    unfold UserSlice.isAccessible
    rw [if_neg (by simp [hp]), if_neg (by simp)]
    apply checkPages_complete hi _ _ (by omega)
    intro k hk
    unfold stepCount at hk
    have hdiv : u.base / 4096 * 4096 ≤ u.base ∧ u.base < u.base / 4096 * 4096 + 4096 := by omega
    have hk' : u.base / 4096 * 4096 + k * 4096 < u.base + u.len := by omega
    by_cases h0 : k = 0
    · refine ⟨u.base - u.base / 4096 * 4096, by omega, ?_⟩
      have := h 0 (by omega)
      rw [show u.base / 4096 * 4096 + k * 4096 + (u.base - u.base / 4096 * 4096) = u.base + 0 by
        rw [h0]; omega]
      exact this
    · refine ⟨0, by omega, ?_⟩
      have := h (u.base / 4096 * 4096 + k * 4096 - u.base) (by omega)
      rw [show u.base + (u.base / 4096 * 4096 + k * 4096 - u.base) =
        u.base / 4096 * 4096 + k * 4096 + 0 by omega] at this
      exact this
  unfold readSlice
  rw [ha]
  exact loadBytes_ok vs mem _ _ (fun i hi => by
    obtain ⟨_, p, r, q, _⟩ := h i hi
    exact ⟨p, r, q⟩)

theorem checkPages_no_panic {s : VSpace} (h : VInv s) (w : Bool) : ∀ n a, checkPages s w n a ≠ .panic := by
  intro n
  induction n with
  | zero => intro a hc; cases hc
  | succ n ih =>
    intro a hc
    unfold checkPages uvaddr at hc
    by_cases hK : a < KERNEL_BASE
    · rw [if_pos hK] at hc
      change ((s.resolve a).bind _) = _ at hc
      have hu : a < userTop := hK
      by_cases hn : ∀ q ∈ s.maps, ¬ Covers q a
      · rw [h.resolve_unc hu hn] at hc; cases hc
      · have : ∃ q ∈ s.maps, Covers q a := Classical.byContradiction
          (fun hh => hn (fun q hq hcv => hh ⟨q, hq, hcv⟩))
        obtain ⟨q, hq, hcv⟩ := this
        rw [h.resolve_cov hq hcv] at hc
        change (if _ then _ else _) = _ at hc
        split at hc
        · cases hc
        · split at hc
          · cases hc
          · exact ih _ hc
    · rw [if_neg hK] at hc; cases hc

theorem accessible_no_panic {vs : VSpace} (h : VInv vs) (u : UserSlice) (pid : Nat) (cur : Option Nat)
    (w : Bool) : u.isAccessible pid vs cur w ≠ .panic := by
  unfold UserSlice.isAccessible
  split
  · intro e; cases e
  · split
    · intro e; cases e
    · exact checkPages_no_panic h w _ _

/-- **C42** Reading a user buffer never makes the kernel fault, whatever the buffer. -/
theorem c42_read_no_fault {env : Env} (hk : env.pages4k = false) {vs : VSpace} (hr : URun env vs)
    (pid : Nat) (mem : Nat → UInt8) (u : UserSlice) :
    readSlice pid vs vs (some pid) mem u ≠ .panic := by
  intro h
  unfold readSlice at h
  cases ha : u.isAccessible pid vs (some pid) false with
  | err e => rw [ha] at h; cases h
  | panic => exact accessible_no_panic (hr.run.inv hk) _ _ _ _ ha
  | ok x =>
    rw [ha] at h
    obtain ⟨_, _, h2⟩ := accessible_ok hk hr u pid _ false ha
    obtain ⟨l, hl⟩ := loadBytes_ok vs mem u.len u.base (fun i hi => by
      obtain ⟨_, p, r, q, _⟩ := h2 (u.base + i) (by omega) (by omega)
      exact ⟨p, r, q⟩)
    change loadBytes vs mem u.len u.base = _ at h
    rw [hl] at h
    cases h

theorem storeBytes_spec (wp : Bool) (cpu : VSpace) : ∀ (kbuf : List UInt8) mem x mem',
    storeBytes wp cpu mem x kbuf = .ok mem' →
    (∀ i, i < kbuf.length → ∃ p r, cpu.resolve (x + i) = .ok (p, r) ∧ (wp = true → r.write = true)) ∧
    (∀ p, (∀ i r, i < kbuf.length → cpu.resolve (x + i) ≠ .ok (p, r)) → mem' p = mem p) ∧
    (∀ (i : Nat) (b : UInt8) p r, kbuf[i]? = some b → cpu.resolve (x + i) = .ok (p, r) →
      (∀ j r', i < j → j < kbuf.length → cpu.resolve (x + j) ≠ .ok (p, r')) → mem' p = b) := by
  intro kbuf
  induction kbuf with
  | nil =>
    intro mem x mem' h
    cases h
    exact ⟨fun i hi => absurd hi (by simp), fun p _ => rfl, fun i b p r hb => by simp at hb⟩
  | cons b0 rest ih =>
    intro mem x mem' h
    unfold storeBytes storeByte at h
    cases hr : cpu.resolve x with
    | err e => rw [hr] at h; cases h
    | panic => rw [hr] at h; cases h
    | ok pr =>
      obtain ⟨p0, r0⟩ := pr
      rw [hr] at h
      change ((if wp = true ∧ r0.write = false then Outcome.panic else .ok (upd mem p0 b0)).bind _) = _ at h
      by_cases hw : wp = true ∧ r0.write = false
      · rw [if_pos hw] at h; cases h
      · rw [if_neg hw] at h
        change storeBytes wp cpu (upd mem p0 b0) (x + 1) rest = _ at h
        obtain ⟨h1, h2, h3⟩ := ih _ _ _ h
        have sh : ∀ i, x + 1 + i = x + (i + 1) := fun i => by omega
        refine ⟨?_, ?_, ?_⟩
        · intro i hi
          cases i with
          | zero =>
            refine ⟨p0, r0, hr, ?_⟩
            intro e
            cases hq : r0.write with
            | true => rfl
            | false => exact absurd ⟨e, hq⟩ hw
          | succ i =>
            have := h1 i (by simpa using hi)
            rwa [sh] at this
        · intro p hp
          rw [h2 p (fun i r hi => by rw [sh]; exact hp (i + 1) r (by simpa using hi))]
          apply upd_other
          intro e
          subst e
          exact hp 0 r0 (by simp) hr
        · intro i b p r hb hres hlast
          cases i with
          | zero =>
            rw [Nat.add_zero, hr] at hres
            cases hres
            cases hb
            rw [h2 p0 (fun i r hi => by rw [sh]; exact hlast (i + 1) r (by omega) (by simpa using hi))]
            exact upd_same _ _ _
          | succ i =>
            refine h3 i b p r hb (by rw [sh]; exact hres) ?_
            intro j r' h4 h5
            rw [sh]
            exact hlast (j + 1) r' (by omega) (by simpa using h5)

/-- **C42** Partial: writing a user buffer succeeds only if the user may *read* all of it (and, on cores
that enforce read-only pages in the kernel, write all of it); it then stores exactly the given bytes and
changes no other memory.  Missing: that a write to a read-only buffer is refused, see `c42_write_readonly`. -/
theorem c42_write_partial {env : Env} (hk : env.pages4k = false) {vs : VSpace} (hr : URun env vs)
    (wp : Bool) (pid : Nat) (mem mem' : Nat → UInt8) (u : UserSlice) (kbuf : List UInt8)
    (h : writeSlice wp pid vs vs (some pid) mem u kbuf = .ok mem') :
    u.pid = pid ∧ kbuf.length = u.len ∧
    (∀ i, i < u.len → UserReadable vs (u.base + i) ∧ (wp = true → UserWritable vs (u.base + i))) ∧
    (∀ p, (∀ i r, i < u.len → vs.resolve (u.base + i) ≠ .ok (p, r)) → mem' p = mem p) ∧
    (∀ (i : Nat) (b : UInt8) p r, kbuf[i]? = some b → vs.resolve (u.base + i) = .ok (p, r) →
      (∀ j r', i < j → j < u.len → vs.resolve (u.base + j) ≠ .ok (p, r')) → mem' p = b) := by
  unfold writeSlice at h
  split at h
  · cases h
  · rename_i hlen
    have hlen : u.len = kbuf.length := Classical.byContradiction hlen
    cases ha : u.isAccessible pid vs (some pid) false with
    | err e => rw [ha] at h; cases h
    | panic => rw [ha] at h; cases h
    | ok x =>
      rw [ha] at h
      obtain ⟨h1, _, h2⟩ := accessible_ok hk hr u pid _ false ha
      obtain ⟨h3, h4, h5⟩ := storeBytes_spec wp vs kbuf mem u.base mem' h
      rw [← hlen] at h3 h4 h5
      refine ⟨h1, hlen.symm, ?_, h4, h5⟩
      intro i hi
      obtain ⟨_, p, r, q1, _, q2, q3⟩ := h2 (u.base + i) (by omega) (by omega)
      refine ⟨⟨p, r, q1, q2, q3⟩, ?_⟩
      intro e
      obtain ⟨p', r', q4, q5⟩ := h3 i hi
      rw [q1] at q4
      cases q4
      exact ⟨p, r, q1, q5 e, q3⟩

/-- **C42** A buffer that the user may write in full can be written, and the write does not fault. -/
theorem c42_write_succeeds {env : Env} (hk : env.pages4k = false) {vs : VSpace} (hr : URun env vs)
    (wp : Bool) (pid : Nat) (mem : Nat → UInt8) (u : UserSlice) (kbuf : List UInt8) (hp : u.pid = pid)
    (hl : 0 < u.len) (hlen : kbuf.length = u.len)
    (h : ∀ i, i < u.len → u.base + i < userTop ∧ UserWritable vs (u.base + i)) :
    ∃ mem', writeSlice wp pid vs vs (some pid) mem u kbuf = .ok mem' := by
  have hi := hr.run.inv hk
  have hread : ∀ i, i < u.len → u.base + i < userTop ∧ UserReadable vs (u.base + i) := by
    intro i hi'
    obtain ⟨h1, p, r, h2, _, h4⟩ := h i hi'
    refine ⟨h1, p, r, h2, ?_, h4⟩
    obtain ⟨q, hq, hc⟩ := hi.exists_cov h1 (by rw [h2]; simp)
    have := hi.resolve_cov hq hc
    rw [h2] at this
    cases this
    rfl
  obtain ⟨bytes, hb⟩ := c42_read_succeeds hk hr pid mem u hp hl hread
  have ha : u.isAccessible pid vs (some pid) false = .ok () := by
    unfold readSlice at hb
    cases ha : u.isAccessible pid vs (some pid) false with
    | err e => rw [ha] at hb; cases hb
    | panic => rw [ha] at hb; cases hb
    | ok x => rfl
  have hst : ∀ (k : List UInt8) mem x, (∀ i, i < k.length → UserWritable vs (x + i)) →
      ∃ mem', storeBytes wp vs mem x k = .ok mem' := by
    intro k
    induction k with
    | nil => intro mem x _; exact ⟨mem, rfl⟩
    | cons b rest ih =>
      intro mem x hx
      obtain ⟨p, r, h1, h2, _⟩ := hx 0 (by simp)
      obtain ⟨m', hm⟩ := ih (upd mem p b) (x + 1) (fun i hi => by
        rw [show x + 1 + i = x + (i + 1) by omega]; exact hx (i + 1) (by simpa using hi))
      refine ⟨m', ?_⟩
      unfold storeBytes storeByte
      rw [Nat.add_zero] at h1
      rw [h1]
      show ((if wp = true ∧ r.write = false then Outcome.panic else .ok (upd mem p b)).bind _) = _
      rw [if_neg (fun e => by rw [h2] at e; cases e.2)]
      exact hm
  obtain ⟨m', hm⟩ := hst kbuf mem u.base (fun i hi' => (h i (by omega)).2)
  refine ⟨m', ?_⟩
  unfold writeSlice
  rw [if_neg (by omega), ha]
  exact hm

/-! ### What goes wrong -/

/-- One read-only page of a user, at 0x400000. -/
def exReadOnly : VSpace :=
  (mapFrame ⟨false, fun _ => false⟩ false ⟨[], PML4.empty⟩ 0x400000 ⟨0x8000, 4096, 0⟩ MapAction.user).1

theorem exReadOnly_run : URun ⟨false, fun _ => false⟩ exReadOnly :=
  .map false 0x400000 ⟨0x8000, 4096, 0⟩ MapAction.user (.new _ (fun x _ => rfl)) (Or.inl rfl) (by decide) rfl

/-- **C42** Writing to a buffer of a page that the user may only read: where the processor enforces
read-only pages, the kernel faults (and stops); where it does not, the page is changed. -/
theorem c42_write_readonly :
    (∀ mem, writeSlice true 3 exReadOnly exReadOnly (some 3) mem ⟨3, 0x400010, 1⟩ [7] = .panic) ∧
    (∀ mem, writeSlice false 3 exReadOnly exReadOnly (some 3) mem ⟨3, 0x400010, 1⟩ [7] =
      .ok (upd mem 0x8010 7)) ∧ ¬ UserWritable exReadOnly 0x400010 := by
  have hr : exReadOnly.resolve 0x400010 = .ok (0x8010, MapAction.user) := by decide +kernel
  have ha : (UserSlice.mk 3 0x400010 1).isAccessible 3 exReadOnly (some 3) false = .ok () := by
    decide +kernel
  refine ⟨?_, ?_, ?_⟩
  · intro mem
    unfold writeSlice
    rw [if_neg (by simp), ha]
    show storeBytes true exReadOnly mem 0x400010 [7] = _
    unfold storeBytes storeByte
    rw [hr]
    rfl
  · intro mem
    unfold writeSlice
    rw [if_neg (by simp), ha]
    show storeBytes false exReadOnly mem 0x400010 [7] = _
    unfold storeBytes storeByte
    rw [hr]
    rfl
  · rintro ⟨p, r, h1, h2, _⟩
    rw [hr] at h1
    cases h1
    cases h2

/-- **C42** Writing at an offset into an accepted buffer is writing to the part of the buffer that starts
there; bytes that do not fit are an error, and nothing is written.  The offset of a buffer that has an
address is itself an address, so it never panics on account of the offset. -/
theorem c42_write_at (wp : Bool) (pid : Nat) (vs cpu : VSpace) (cur : Option Nat) (mem : Nat → UInt8)
    (u : UserSlice) (hu : u.base + u.len < 0x400000000000) (kbuf : List UInt8) (off : Nat) :
    (off + kbuf.length ≤ u.len → writeSubslice wp pid vs cpu cur mem u kbuf off =
      writeSlice wp pid vs cpu cur mem ⟨u.pid, u.base + off, kbuf.length⟩ kbuf) ∧
    (u.len < off + kbuf.length →
      writeSubslice wp pid vs cpu cur mem u kbuf off = .err .invalidOffset) := by
  refine ⟨fun h => ?_, fun h => ?_⟩
  · unfold writeSubslice UserSlice.subslice uvaddr KERNEL_BASE
    rw [if_neg (by omega), if_neg (by omega), if_pos (by omega)]
    dsimp only
    rw [if_neg (by omega)]
    show writeSlice wp pid vs cpu cur mem ⟨u.pid, u.base + off, off + kbuf.length - off⟩ kbuf = _
    rw [Nat.add_sub_cancel_left]
  · unfold writeSubslice
    rw [if_pos h]

/-- **C42** If no process is current on the core, the check for the right address space is skipped, and
the bytes come from whatever page table is loaded (here one that has other memory at the address). -/
theorem c42_no_current_process :
    let other : VSpace := (mapFrame ⟨false, fun _ => false⟩ false ⟨[], PML4.empty⟩ 0x400000
      ⟨0x9000, 4096, 0⟩ MapAction.user).1
    ∀ mem, readSlice 3 exReadOnly other none mem ⟨3, 0x400010, 1⟩ = .ok [mem 0x9010] ∧
      readSlice 3 exReadOnly exReadOnly (some 3) mem ⟨3, 0x400010, 1⟩ = .ok [mem 0x8010] := by
  intro other mem
  have hr : exReadOnly.resolve 0x400010 = .ok (0x8010, MapAction.user) := by decide +kernel
  have hr2 : other.resolve 0x400010 = .ok (0x9010, MapAction.user) := by decide +kernel
  have ha : (UserSlice.mk 3 0x400010 1).isAccessible 3 exReadOnly (some 3) false = .ok () := by
    decide +kernel
  have ha2 : (UserSlice.mk 3 0x400010 1).isAccessible 3 exReadOnly none false = .ok () := by
    decide +kernel
  constructor
  · unfold readSlice
    rw [ha2]
    show loadBytes other mem 1 0x400010 = _
    unfold loadBytes loadByte
    rw [hr2]
    rfl
  · unfold readSlice
    rw [ha]
    show loadBytes exReadOnly mem 1 0x400010 = _
    unfold loadBytes loadByte
    rw [hr]
    rfl

/-! ### Cases that meet the hypotheses -/

/-- Two pages that are next to each other for the user and not in memory. -/
def exTwoPages : VSpace :=
  (mapFrame ⟨false, fun _ => false⟩ false exReadOnly 0x401000 ⟨0x4000, 4096, 0⟩ MapAction.writable).1

theorem exTwoPages_run : URun ⟨false, fun _ => false⟩ exTwoPages :=
  .map false 0x401000 ⟨0x4000, 4096, 0⟩ MapAction.writable exReadOnly_run (Or.inl rfl) (by decide) rfl

def exMem : Nat → UInt8 := fun p => if p = 0x8fff then 1 else if p = 0x4000 then 2 else 0

example : readSlice 3 exTwoPages exTwoPages (some 3) exMem ⟨3, 0x400fff, 2⟩ = .ok [1, 2] := by
  decide +kernel

example := c42_read (env := ⟨false, fun _ => false⟩) rfl exTwoPages_run 3 exMem ⟨3, 0x400fff, 2⟩ [1, 2]
  (by decide +kernel)

example := c42_write_succeeds (env := ⟨false, fun _ => false⟩) rfl exTwoPages_run true 3 exMem
  ⟨3, 0x401ffe, 2⟩ [8, 9] rfl (by decide) rfl (fun i hi => by
    have : i = 0 ∨ i = 1 := by
      have : i < 2 := hi
      omega
    rcases this with rfl | rfl
    · exact ⟨by decide, 0x4ffe, MapAction.writable, by decide +kernel, rfl, rfl⟩
    · exact ⟨by decide, 0x4fff, MapAction.writable, by decide +kernel, rfl, rfl⟩)

example : UserSlice.forCurrentProc (some 3) 0x400fff 2 = .ok ⟨3, 0x400fff, 2⟩ ∧
    UserSlice.forCurrentProc (some 3) 0xfff 2 = .err .invalidUserBufferArgs ∧
    UserSlice.forCurrentProc (some 3) 0xffffffffffffffff 2 = .err .notAUserVAddr ∧
    UserSlice.forCurrentProc (some 3) 0x3ffffffffffe 2 = .err .invalidUserBufferArgs := by
  decide +kernel

end NRK.Proc
