import Verif.Gdb.BreakSpec

/-!
# C84: breakpoints and watchpoints of the kernel debugger
-/

namespace NRK.Gdb

/-! ## Four registers as a list -/

theorem finRange4 : List.finRange 4 = [0, 1, 2, 3] := by decide

/-- The points of four places. -/
def pts (g : Fin 4 → Option Point) : List Point := (List.finRange 4).filterMap g

theorem pts_eq (g : Fin 4 → Option Point) : pts g = (g 0).toList ++ (g 1).toList ++ (g 2).toList ++ (g 3).toList := by
  unfold pts
  rw [finRange4]
  cases h0 : g 0 <;> cases h1 : g 1 <;> cases h2 : g 2 <;> cases h3 : g 3 <;> simp [List.filterMap, h0, h1, h2, h3]

theorem fin4_cases {P : Fin 4 → Prop} (h0 : P 0) (h1 : P 1) (h2 : P 2) (h3 : P 3) : ∀ i, P i
  | 0 => h0
  | 1 => h1
  | 2 => h2
  | 3 => h3

theorem pts_put (g : Fin 4 → Option Point) (p : Point) : ∀ i, g i = none → (pts (upd g i (some p))).Perm (p :: pts g) := by
  have key : ∀ a b : List Point, (a ++ p :: b).Perm (p :: (a ++ b)) := fun a b => List.perm_middle
  apply fin4_cases <;> intro h <;> rw [pts_eq, pts_eq] <;> simp [upd, h]
  · have := key ((g 0).toList ++ (g 1).toList) (g 3).toList
    simpa using this
  · have := key ((g 0).toList ++ (g 1).toList ++ (g 2).toList) []
    simpa using this

theorem pts_take (g : Fin 4 → Option Point) (p : Point) (i : Fin 4) (h : g i = some p) :
    (pts g).Perm (p :: pts (upd g i none)) := by
  have := pts_put (upd g i none) p i (by simp)
  have e : upd (upd g i none) i (some p) = g := by
    funext j
    by_cases hj : j = i
    · subst hj; simp [h]
    · simp [upd, hj]
  rwa [e] at this

theorem mem_pts {g : Fin 4 → Option Point} {p : Point} : p ∈ pts g ↔ ∃ i, g i = some p := by
  simp [pts, List.mem_filterMap]

theorem pts_length (g : Fin 4 → Option Point) : (pts g).length < 4 ↔ ∃ i, g i = none := by
  rw [pts_eq]
  constructor
  · intro h
    apply Classical.byContradiction
    intro hn
    have hs : ∀ i, (g i).toList.length = 1 := by
      intro i
      cases hg : g i with
      | none => exact absurd ⟨i, hg⟩ hn
      | some x => rfl
    simp only [List.length_append, hs] at h
    omega
  · intro ⟨i, hi⟩
    have hs : ∀ i, (g i).toList.length ≤ 1 := by
      intro i
      cases g i <;> simp
    have h0 : (g i).toList.length = 0 := by rw [hi]; rfl
    simp only [List.length_append]
    have := hs 0; have := hs 1; have := hs 2; have := hs 3
    revert h0 hi i
    apply fin4_cases <;> intro _ h <;> omega

theorem firstReg_some {p : Fin 4 → Bool} {i : Fin 4} (h : firstReg p = some i) : p i = true := List.find?_some h

theorem firstReg_none {p : Fin 4 → Bool} (h : firstReg p = none) (i : Fin 4) : p i = false := by
  have := List.find?_eq_none.1 h i (List.mem_finRange i)
  simpa using this

/-! ## The invariant -/

/-- The table entry of a point. -/
def Point.state : Point → BreakState
  | .brk req addr => ⟨addr, .breakpoint, req⟩
  | .watch addr _ kind => ⟨addr, .watchpoint kind, .hardware⟩

/-- The debugger holds the points in force, each in one register. -/
structure Holds (d : Dbg) (g : Fin 4 → Option Point) (out : List Point) : Prop where
  perm : (pts g).Perm out
  table : ∀ i, d.table i = (g i).map Point.state
  marks : ∀ i, d.marks i = (g i).isSome
  hw : ∀ i p, g i = some p → ((d.hw i).addr, (d.hw i).cond, (d.hw i).size) = p.armed
  sized : ∀ p ∈ out, p.sized

theorem Holds.full {d : Dbg} {g out} (h : Holds d g out) :
    firstReg (fun i => (d.table i).isNone) = none ↔ ¬ out.length < 4 := by
  rw [← h.perm.length_eq, pts_length]
  constructor
  · intro hf ⟨i, hi⟩
    have := firstReg_none hf i
    simp [h.table, hi] at this
  · intro hn
    cases hf : firstReg (fun i => (d.table i).isNone) with
    | none => rfl
    | some i =>
      have := firstReg_some hf
      simp [h.table] at this
      exact absurd ⟨i, this⟩ hn

theorem Holds.put {d : Dbg} {g out} (h : Holds d g out) (p : Point) (hs : p.sized) {i : Fin 4}
    (hf : firstReg (fun i => (d.table i).isNone) = some i) (a : Nat) (c : Cond) (s : Nat) (he : (a, c, s) = p.armed) :
    Holds ⟨upd d.table i (some p.state), upd d.marks i true, upd d.hw i ((d.hw i).configure a c s)⟩
      (upd g i (some p)) (p :: out) := by
  have hi : g i = none := by
    have := firstReg_some hf
    simpa [h.table] using this
  refine ⟨(pts_put g p i hi).trans (h.perm.cons p), ?_, ?_, ?_, ?_⟩
  · intro j
    by_cases hj : j = i
    · subst hj; simp
    · simp [upd, hj, h.table]
  · intro j
    by_cases hj : j = i
    · subst hj; simp
    · simp [upd, hj, h.marks]
  · intro j q hq
    by_cases hj : j = i
    · subst hj
      simp at hq
      subst hq
      simpa [Dr.configure] using he
    · simp only [upd, hj, if_false] at hq ⊢
      exact h.hw j q hq
  · intro q hq
    rcases List.mem_cons.1 hq with e | e
    · subst e; exact hs
    · exact h.sized q e

theorem Holds.drop {d : Dbg} {g out} (h : Holds d g out) {p : Point} {i : Fin 4} (hi : g i = some p) :
    Holds (d.drop i) (upd g i none) (out.erase p) := by
  have hp : (p :: pts (upd g i none)).Perm out := (pts_take g p i hi).symm.trans h.perm
  refine ⟨?_, ?_, ?_, ?_, fun q hq => h.sized q (List.mem_of_mem_erase hq)⟩
  · have := hp.erase p
    rwa [List.erase_cons_head] at this
  · intro j
    by_cases hj : j = i
    · subst hj; simp [Dbg.drop]
    · simp [Dbg.drop, upd, hj, h.table]
  · intro j
    by_cases hj : j = i
    · subst hj; simp [Dbg.drop]
    · simp [Dbg.drop, upd, hj, h.marks]
  · intro j q hq
    by_cases hj : j = i
    · subst hj; simp at hq
    · simp only [Dbg.drop, upd, hj, if_false] at hq ⊢
      exact h.hw j q hq

theorem isBreak_state (req : BreakRequest) (addr : Nat) (g : Option Point) :
    isBreak req addr (g.map Point.state) = true ↔ g = some (.brk req addr) := by
  cases g with
  | none => simp [isBreak]
  | some p =>
    cases p with
    | brk r a => simp [isBreak, Point.state, and_comm]
    | watch a l k => simp [isBreak, Point.state]

theorem isWatch_state (addr : Nat) (g : Option Point) :
    isWatch addr (g.map Point.state) = true ↔ ∃ l k, g = some (.watch addr l k) := by
  cases g with
  | none => simp [isWatch]
  | some p =>
    cases p with
    | brk r a => simp [isWatch, Point.state]
    | watch a l k => simp [isWatch, Point.state]

theorem Holds.mem {d : Dbg} {g out} (h : Holds d g out) (p : Point) : p ∈ out ↔ ∃ i, g i = some p :=
  h.perm.mem_iff.symm.trans mem_pts

theorem watchSize_of {len : Nat} (h : len = 1 ∨ len = 2 ∨ len = 4 ∨ len = 8) : watchSize len = len := by
  rcases h with h | h | h | h <;> subst h <;> rfl

/-- One request in the ordinary case. -/
theorem Holds.step {d : Dbg} {g out} (h : Holds d g out) (c : Cmd) (hc : PlainCmd out c) :
    (d.step c).1 = (want out c).1 ∧
    ∃ g', Holds (d.step c).2 g' (want out c).2 ∧ ((∀ i, (d.hw i).on = false) → ∀ i, ((d.step c).2.hw i).on = false) := by
  have adding : ∀ (p : Point) (a : Nat) (cnd : Cond) (s : Nat), (a, cnd, s) = p.armed → p.sized → p ∉ out →
      ∀ r : Bool × Dbg, r = (match firstReg (fun i => (d.table i).isNone) with
        | some i => (true, ⟨upd d.table i (some p.state), upd d.marks i true, upd d.hw i ((d.hw i).configure a cnd s)⟩)
        | none => (false, d)) →
      ∀ w : Bool × List Point, w = (if p ∈ out then (true, out) else if out.length < 4 then (true, p :: out) else (false, out)) →
      r.1 = w.1 ∧ ∃ g', Holds r.2 g' w.2 ∧ ((∀ i, (d.hw i).on = false) → ∀ i, (r.2.hw i).on = false) := by
    intro p a cnd s he hs hn r hr w hw
    rw [if_neg hn] at hw
    cases hf : firstReg (fun i => (d.table i).isNone) with
    | none =>
      rw [hf] at hr
      rw [if_neg (h.full.1 hf)] at hw
      subst hr hw
      exact ⟨rfl, g, h, fun ho' => ho'⟩
    | some i =>
      rw [hf] at hr
      have : out.length < 4 := by
        apply Classical.byContradiction
        intro hl
        rw [h.full.2 hl] at hf
        cases hf
      rw [if_pos this] at hw
      subst hr hw
      refine ⟨rfl, _, h.put p hs hf a cnd s he, ?_⟩
      intro ho' j
      by_cases hj : j = i
      · subst hj; simp [Dr.configure, ho']
      · simp [upd, hj, ho']
  have dropOn : ∀ i : Fin 4, (∀ i, (d.hw i).on = false) → ∀ j, ((d.drop i).hw j).on = false := by
    intro i ho' j
    by_cases hj : j = i
    · subst hj; simp [Dbg.drop]
    · simp [Dbg.drop, upd, hj, ho']
  cases c with
  | addBreak req addr => exact adding (.brk req addr) _ _ _ rfl hc.1 hc.2 _ rfl _ rfl
  | addWatch addr len kind =>
    refine adding (.watch addr len kind) addr (watchCond kind) (watchSize len) ?_ hc.1 hc.2 _ rfl _ rfl
    rw [watchSize_of hc.1]
    cases kind <;> rfl
  | removeBreak req addr =>
    show (d.removeBreakpoint req addr).1 = (want out (.removeBreak req addr)).1 ∧ _
    simp only [want, Cmd.point, Dbg.step, Dbg.removeBreakpoint]
    cases hf : firstReg (fun i => isBreak req addr (d.table i)) with
    | none =>
      have : (Point.brk req addr) ∉ out := by
        rw [h.mem]
        intro ⟨i, hi⟩
        have := firstReg_none hf i
        rw [h.table, hi, (isBreak_state _ _ _).2 rfl] at this
        cases this
      rw [if_neg this]
      exact ⟨rfl, g, h, fun ho' => ho'⟩
    | some i =>
      have hi := firstReg_some hf
      rw [h.table, isBreak_state] at hi
      rw [if_pos ((h.mem _).2 ⟨i, hi⟩)]
      exact ⟨rfl, _, h.drop hi, dropOn i⟩
  | removeWatch addr len kind =>
    have hc' : ∀ q ∈ out, q.sameSpot (.watch addr len kind) → q = .watch addr len kind := hc
    simp only [want, Cmd.point, Dbg.step, Dbg.removeWatchpoint]
    cases hf : firstReg (fun i => isWatch addr (d.table i)) with
    | none =>
      have : (Point.watch addr len kind) ∉ out := by
        rw [h.mem]
        intro ⟨i, hi⟩
        have := firstReg_none hf i
        rw [h.table, hi, (isWatch_state _ _).2 ⟨_, _, rfl⟩] at this
        cases this
      rw [if_neg this]
      exact ⟨rfl, g, h, fun ho' => ho'⟩
    | some i =>
      have hi := firstReg_some hf
      rw [h.table, isWatch_state] at hi
      obtain ⟨l, k, hi⟩ := hi
      have hq := hc' _ ((h.mem _).2 ⟨i, hi⟩) rfl
      rw [hq] at hi
      rw [if_pos ((h.mem _).2 ⟨i, hi⟩)]
      exact ⟨rfl, _, h.drop hi, dropOn i⟩

theorem Holds.cmds : ∀ (cs : List Cmd) {d : Dbg} {g out}, Holds d g out → (∀ i, (d.hw i).on = false) → Plain out cs →
    (d.cmds cs).1 = (wantAll out cs).1 ∧
    ∃ g', Holds (d.cmds cs).2 g' (wantAll out cs).2 ∧ ∀ i, ((d.cmds cs).2.hw i).on = false := by
  intro cs
  induction cs with
  | nil => intro d g out h ho _; exact ⟨rfl, g, h, ho⟩
  | cons c cs ih =>
    intro d g out h ho hp
    obtain ⟨e, g1, h1, o1⟩ := h.step c hp.1
    obtain ⟨e2, g2, h2, o2⟩ := ih h1 (o1 ho) hp.2
    exact ⟨by simp only [Dbg.cmds, wantAll, e, e2], g2, h2, o2⟩

theorem Holds.enter {d : Dbg} {g out} (h : Holds d g out) : Holds d.enter g out :=
  ⟨h.perm, h.table, h.marks, h.hw, h.sized⟩

/-- While the kernel runs: exactly the registers in use are on. -/
def Running (d : Dbg) (g : Fin 4 → Option Point) : Prop := ∀ i, (d.hw i).on = (g i).isSome

theorem Holds.leave {d : Dbg} {g out} (h : Holds d g out) (ho : ∀ i, (d.hw i).on = false) :
    Holds d.leave g out ∧ Running d.leave g := by
  refine ⟨⟨h.perm, h.table, h.marks, ?_, h.sized⟩, ?_⟩
  · intro i p hp
    have : (if d.marks i then { d.hw i with on := true } else d.hw i : Dr) = { d.hw i with on := true } := by
      rw [if_pos (by rw [h.marks, hp]; rfl)]
    show ((Dbg.leave d).hw i |>.addr, _, _) = _
    unfold Dbg.leave
    simp only [this]
    exact h.hw i p hp
  · intro i
    simp only [Dbg.leave, h.marks]
    cases hg : g i <;> simp [ho]

theorem Holds.session : ∀ (l : List (List Cmd)) {d : Dbg} {g out}, Holds d g out → Running d g → PlainSession out l →
    (d.session l).1 = (wantSession out l).1 ∧
    ∃ g', Holds (d.session l).2 g' (wantSession out l).2 ∧ Running (d.session l).2 g' := by
  intro l
  induction l with
  | nil => intro d g out h hr _; exact ⟨rfl, g, h, hr⟩
  | cons cs l ih =>
    intro d g out h hr hp
    obtain ⟨e, g1, h1, o1⟩ := Holds.cmds cs h.enter (fun i => rfl) hp.1
    obtain ⟨h2, r2⟩ := h1.leave o1
    obtain ⟨e3, g3, h3, r3⟩ := ih h2 r2 hp.2
    exact ⟨by simp only [Dbg.session, wantSession, e, e3], g3, h3, r3⟩

theorem Holds.init : Holds Dbg.init (fun _ => none) [] ∧ Running Dbg.init (fun _ => none) :=
  ⟨⟨by simp [pts], fun _ => rfl, fun _ => rfl, fun i p (h : none = some p) => (nomatch h), fun _ h => (nomatch h)⟩, fun _ => rfl⟩

theorem Holds.armed {d : Dbg} {g out} (h : Holds d g out) (hr : Running d g) :
    d.armed.Perm (out.map Point.armed) := by
  refine List.Perm.trans ?_ (h.perm.map _)
  unfold Dbg.armed pts
  rw [List.map_filterMap]
  apply List.Perm.of_eq
  congr 1
  funext i
  rw [hr i]
  cases hg : g i with
  | none => simp
  | some p => simp [← h.hw i p hg]

/-- **C84** In a debugging session of any length, with any requests in between as GDB makes them in the ordinary case, the
answers are those that the protocol asks for, and whenever the kernel runs, the processor stops at exactly the points in
force. -/
theorem c84_points_partial (l : List (List Cmd)) (hp : PlainSession [] l) :
    (Dbg.init.session l).1 = (wantSession [] l).1 ∧
    (Dbg.init.session l).2.armed.Perm ((wantSession [] l).2.map Point.armed) := by
  obtain ⟨e, g, h, r⟩ := Holds.session l Holds.init.1 Holds.init.2 hp
  exact ⟨e, h.armed r⟩

/-! ## The reason of a stop -/

/-- What the processor may write to `dr6` if it looks only at registers that are on: something happened. -/
structure Dr6.Of (r : Dr6) (d : Dbg) : Prop where
  on : ∀ i, r.b i = true → (d.hw i).on = true
  some : (∃ i, r.b i = true) ∨ r.bs = true

/-- **C84** If the processor reports only registers that are on, the debugger is told of a point in force that was hit, or
else that the step is done; the kernel does not crash; and `dr6` is clear afterwards. -/
theorem c84_stop_partial (l : List (List Cmd)) (hp : PlainSession [] l) (r : Dr6)
    (hr : r.Of (Dbg.init.session l).2) :
    ((∃ p ∈ (wantSession [] l).2, ∃ i, r.b i = true ∧
        (((Dbg.init.session l).2.hw i).addr, ((Dbg.init.session l).2.hw i).cond, ((Dbg.init.session l).2.hw i).size) = p.armed ∧
        report (Dbg.init.session l).2.table r = .ok p.stop) ∨
      ((∀ i, r.b i = false) ∧ report (Dbg.init.session l).2.table r = .ok .doneStep)) ∧
    (∀ i, (stopReason (Dbg.init.session l).2.table r).2.b i = false) ∧
    (stopReason (Dbg.init.session l).2.table r).2.bs = false ∧
    (stopReason (Dbg.init.session l).2.table r).2.other = false := by
  obtain ⟨_, g, h, hrun⟩ := Holds.session l Holds.init.1 Holds.init.2 hp
  generalize (Dbg.init.session l).2 = d at *
  have clear : ∀ r2 : Dr6, let q : Dr6 := if (firstReg r2.b).isSome || r2.bs || r2.other then ⟨fun _ => false, false, false⟩ else r2
      (∀ i, q.b i = false) ∧ q.bs = false ∧ q.other = false := by
    intro r2
    by_cases hc : ((firstReg r2.b).isSome || r2.bs || r2.other) = true
    · simp [hc]
    · simp only [hc, if_false, Bool.false_eq_true]
      simp only [Bool.not_eq_true, Bool.or_eq_false_iff] at hc
      refine ⟨fun i => firstReg_none ?_ i, hc.1.2, hc.2⟩
      cases hf : firstReg r2.b with
      | none => rfl
      | some _ => rw [hf] at hc; simp at hc
  refine ⟨?_, ?_⟩
  · cases hf : firstReg r.b with
    | some i =>
      left
      have hi := firstReg_some hf
      have hg := hr.on i hi
      rw [hrun i] at hg
      obtain ⟨p, hg⟩ := Option.isSome_iff_exists.1 hg
      refine ⟨p, (h.mem p).2 ⟨i, hg⟩, i, hi, h.hw i p hg, ?_⟩
      have ht : d.table i = some p.state := by rw [h.table, hg]; rfl
      have : p.state.stop = some p.stop := by
        cases p with
        | brk r a => cases r <;> rfl
        | watch => rfl
      simp only [report, stopReason, hf, Option.bind_some, ht, this]
    | none =>
      right
      have hb := firstReg_none hf
      refine ⟨hb, ?_⟩
      have hs : r.bs = true := by
        rcases hr.some with ⟨i, hi⟩ | hs
        · rw [hb i] at hi; cases hi
        · exact hs
      simp [report, stopReason, hf, hs]
  · unfold stopReason
    exact clear _

/-! ## Watched bytes and stepping -/

/-- **C84** A watchpoint of 1, 2, 4 or 8 bytes at a multiple of its length stops at exactly these bytes. -/
theorem c84_watch_exact (addr len a : Nat) (c : Cond) (on : Bool) (h : len = 1 ∨ len = 2 ∨ len = 4 ∨ len = 8)
    (ha : len ∣ addr) : (Dr.mk addr c (watchSize len) on).covers a ↔ addr ≤ a ∧ a < addr + len := by
  rw [watchSize_of h]
  simp only [Dr.covers, Nat.div_mul_cancel ha]

/-- **C84** A watchpoint of more than 8 bytes is accepted while a register is free, and its last byte is not watched. -/
theorem c84_long_watch (d : Dbg) (addr len : Nat) (kind : WatchKind) (hl : 8 < len) (hf : ∃ i, d.table i = none) :
    (d.addWatchpoint addr len kind).1 = true ∧
    ∃ i, (d.addWatchpoint addr len kind).2.marks i = true ∧ d.table i = none ∧
      ((d.addWatchpoint addr len kind).2.hw i).addr = addr ∧
      ¬ ((d.addWatchpoint addr len kind).2.hw i).covers (addr + len - 1) := by
  have hs : watchSize len = 8 := by
    unfold watchSize
    rw [if_neg (by omega), if_neg (by omega), if_neg (by omega)]
  cases hr : firstReg (fun i => (d.table i).isNone) with
  | none =>
    obtain ⟨i, hi⟩ := hf
    have := firstReg_none hr i
    simp [hi] at this
  | some i =>
    have hi := firstReg_some hr
    simp only [Dbg.addWatchpoint, hr]
    refine ⟨trivial, i, by simp, by simpa using hi, by simp [Dr.configure], ?_⟩
    simp only [upd_same, Dr.configure, Dr.covers, hs]
    omega

/-- **C84** Going on clears the trap flag and changes no other flag; a step sets it and changes no other flag. -/
theorem c84_step (flags : BitVec 64) (h : flags &&& ~~~ flagBits = 0) (i : Nat) (hi : i < 64) :
    (resumeFlags false flags).getLsbD i = (flags.getLsbD i && decide (i ≠ 8)) ∧
    (resumeFlags true flags).getLsbD i = (flags.getLsbD i || decide (i = 8)) := by
  have tf : trapFlag.getLsbD i = decide (i = 8) := by
    have : ∀ i : Fin 64, trapFlag.getLsbD i.val = decide (i.val = 8) := by decide
    exact this ⟨i, hi⟩
  have hb : flags.getLsbD i = true → flagBits.getLsbD i = true := by
    intro hf
    have := congrArg (fun v => v.getLsbD i) h
    simp only [BitVec.getLsbD_and, BitVec.getLsbD_not, hi, decide_true, Bool.true_and, hf] at this
    simpa using this
  constructor
  · simp only [resumeFlags, Bool.false_eq_true, if_false, BitVec.getLsbD_and, BitVec.getLsbD_not, hi, decide_true,
      Bool.true_and, tf]
    cases hf : flags.getLsbD i with
    | false => simp
    | true => simp [hb hf]
  · simp only [resumeFlags, if_true, BitVec.getLsbD_or, tf]

/-! ## Witnesses -/

/-- Three stops: a breakpoint, two watchpoints at different addresses, a fifth point refused, removals. -/
def sample84 : List (List Cmd) :=
  [[.addBreak .software 0x1000, .addWatch 0x2000 8 .write],
   [.addWatch 0x3000 4 .read, .addBreak .hardware 0x1000, .addBreak .hardware 0x4000, .removeWatch 0x2000 8 .write],
   [.removeBreak .hardware 0x4000, .removeBreak .software 0x1000, .addWatch 0x2000 1 .readWrite]]

theorem sample84_plain : PlainSession [] sample84 := by
  simp [sample84, PlainSession, Plain, PlainCmd, wantAll, want, Cmd.point, Point.sized, Point.sameSpot]

theorem sample84_results :
    (Dbg.init.session sample84).1 = [[true, true], [true, true, false, true], [false, true, true]] ∧
    (Dbg.init.session sample84).2.armed =
      [(0x2000, .dataReadsWrites, 1), (0x3000, .dataReadsWrites, 4), (0x1000, .instructions, 1)] := by
  decide

/-- **C84** Witness: a point inserted twice and removed once is still in force. -/
theorem c84_not_idempotent :
    let l : List (List Cmd) := [[.addBreak .software 0x1000, .addBreak .software 0x1000, .removeBreak .software 0x1000]]
    (Dbg.init.session l).2.armed = [(0x1000, .instructions, 1)] ∧ (wantSession [] l).2 = [] := by
  decide

/-- **C84** Witness: of two watchpoints at one address the wrong one is removed. -/
theorem c84_wrong_watchpoint :
    let l : List (List Cmd) := [[.addWatch 0x2000 8 .write, .addWatch 0x2000 1 .read, .removeWatch 0x2000 1 .read]]
    (Dbg.init.session l).2.armed = [(0x2000, .dataReadsWrites, 1)] ∧
    (wantSession [] l).2.map Point.armed = [(0x2000, .dataWrites, 8)] := by
  decide

/-- The session of the next theorem. -/
def stale84 : List (List Cmd) := [[.addWatch 0x2000 8 .write, .addWatch 0x2004 4 .write], [.removeWatch 0x2000 8 .write]]

/-- **C84** Witness: the processor may set the bit of a register that is off but whose condition is met (Intel SDM, volume 3,
section 17.2.3).  After a watchpoint was removed, a write that meets its old condition and that of another watchpoint
crashes the kernel instead of being reported. -/
theorem c84_stale_register :
    PlainSession [] stale84 ∧
    (Dbg.init.session stale84).2.armed = [(0x2004, .dataWrites, 4)] ∧
    ((Dbg.init.session stale84).2.hw 0).on = false ∧ ((Dbg.init.session stale84).2.hw 0).covers 0x2004 ∧
    report (Dbg.init.session stale84).2.table ⟨fun i => i = 0 ∨ i = 1, false, false⟩ = .panic ∧
    report (Dbg.init.session stale84).2.table ⟨fun i => i = 1, false, false⟩ = .ok (.watch .write 0x2004) := by
  refine ⟨?_, by decide, by decide, ?_, by decide, by decide⟩
  · simp [stale84, PlainSession, Plain, PlainCmd, wantAll, want, Cmd.point, Point.sized, Point.sameSpot]
  · unfold Dr.covers; decide

/-- **C84** Witness: two points hit by one access; the debugger is told of the first only. -/
theorem c84_one_of_two :
    let d := (Dbg.init.session [[.addWatch 0x2000 8 .write, .addWatch 0x2004 4 .write]]).2
    report d.table ⟨fun i => i = 0 ∨ i = 1, false, false⟩ = .ok (.watch .write 0x2000) ∧
    (stopReason d.table ⟨fun i => i = 0 ∨ i = 1, false, false⟩).2.b 1 = false := by
  decide

end NRK.Gdb
