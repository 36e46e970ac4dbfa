import Verif.Rack.ShmQueue

/-!
# Property theorems C89: channels between machines on raw shared memory
-/

namespace NRK.Rack.Shm

open NRK.Rpc (ENTRY ENTRY_eq totalLen totalLen_eq spread)
open Spec (Ev Obs)

theorem set_eq {α : Type} (f : Nat → α) (i : Nat) (a : α) : Spec.set f i a = upd f i a := rfl

theorem deliver_eq (bufs : List (List UInt8)) : ∀ d, Spec.deliver d bufs = spread d bufs := by
  induction bufs with
  | nil => intro d; rfl
  | cons b bs ih => intro d; simp only [Spec.deliver, spread, ih]

theorem TRANSPORT_eq : TRANSPORT = 2097152 := by unfold TRANSPORT; rfl

/-- The controller's end of the channels of client `mid`. -/
def ctlT (D : Devs) (mid : Nat) : Transport where
  rx := Queue.at 32 (D.va 0 mid + QSZ)
  tx := Queue.at 32 (D.va 0 mid + 0)

/-- The client's end. -/
def cliT (D : Devs) (mid : Nat) : Transport where
  rx := Queue.at 32 (D.va mid mid + 0)
  tx := Queue.at 32 (D.va mid mid + QSZ)

/-- The channels of client `mid` seen by machine `m`. -/
theorem place {D : Devs} (h : D.Ok) {m mid o : Nat} (hm : m < D.n) (h0 : 0 < mid) (h1 : mid < D.n)
    (ho : o ≤ QSZ) : Place D m mid o := by
  refine ⟨h, hm, h1, ?_⟩
  rw [h.same m mid hm h1]
  have := h.room mid h0 h1
  have := TRANSPORT_eq
  unfold QSZ at ho ⊢
  omega

theorem capacity_eq : capacity QUEUE = (32, QSZ) := by rw [QSZ_eq]; decide

theorem alloc_ok (b : Bump) (sz : Nat) (h : b.next + sz ≤ b.base + b.size) :
    b.alloc sz = some (b.next, { b with next := b.next + sz }) := by
  unfold Bump.alloc
  rw [if_neg (by omega)]

theorem with_ok (D : Devs) (m : Nat) (init : Bool) (b : Bump) (s : Store) (q : Queue) (t : Store)
    (h : b.next + QSZ ≤ b.base + b.size) (hi : Queue.init D m init 32 b.next s = .ok (q, t)) :
    Queue.withCapacityIn D m init QUEUE b s = .ok (q, { b with next := b.next + QSZ }, t) := by
  unfold Queue.withCapacityIn
  rw [capacity_eq]
  simp only
  rw [alloc_ok b QSZ h]
  simp only
  rw [hi, bind_ok]
  rfl

theorem create_ctl {D : Devs} (h : D.Ok) {mid : Nat} (h0 : 0 < mid) (h1 : mid < D.n) (s : Store) :
    ∃ f', createTransport D 0 .controller mid s = .ok (ctlT D mid, upd s mid f') ∧
      Chan f' 0 0 0 [] ∧ Chan f' QSZ 0 0 [] ∧ ∀ a, QSZ + QSZ ≤ a → f' a = s mid a := by
  have hT := TRANSPORT_eq
  have hQ := QSZ_eq
  obtain ⟨f1, a1, a2, a3⟩ := init_ok (place h (m := 0) (o := 0) (by omega) h0 h1 (by omega)) s
  obtain ⟨f2, b1, b2, b3⟩ := init_ok (place h (m := 0) (o := QSZ) (by omega) h0 h1 (by omega))
    (upd s mid f1)
  rw [upd_same] at b3
  refine ⟨f2, ?_, a2.congr fun a _ ha => b3 a (by omega), b2, fun a ha => ?_⟩
  · unfold createTransport
    rw [if_pos h1]
    simp only
    rw [if_pos (h.room mid h0 h1)]
    have va : (D.view 0 mid).base + KBASE = D.va 0 mid := rfl
    have g1 : D.va 0 mid + QSZ ≤ D.va 0 mid + TRANSPORT := by omega
    have g2 : D.va 0 mid + QSZ + QSZ ≤ D.va 0 mid + TRANSPORT := by omega
    rw [va]
    rw [Nat.add_zero] at a1
    rw [with_ok D 0 true ⟨D.va 0 mid, TRANSPORT, D.va 0 mid⟩ s _ _
      g1 a1, bind_ok]
    simp only
    rw [with_ok D 0 true ⟨D.va 0 mid, TRANSPORT, D.va 0 mid + QSZ⟩ _ _ _
      g2 b1, bind_ok, pure_ok,
      upd_upd_same]
    unfold ctlT
    rw [Nat.add_zero]
  · rw [b3 a (by omega), a3 a (by omega)]

theorem init_false (D : Devs) (m num mem : Nat) (s : Store) :
    Queue.init D m false num mem s = .ok (Queue.at num mem, s) := rfl

theorem create_cli {D : Devs} (h : D.Ok) {mid : Nat} (h0 : 0 < mid) (h1 : mid < D.n) (s : Store) :
    createTransport D mid .client mid s = .ok (cliT D mid, s) := by
  have hT := TRANSPORT_eq
  have hQ := QSZ_eq
  have hr := h.room mid h0 h1
  rw [← h.same mid mid h1 h1] at hr
  unfold createTransport
  rw [if_pos h1]
  simp only
  rw [if_pos hr]
  have va : (D.view mid mid).base + KBASE = D.va mid mid := rfl
  have g1 : D.va mid mid + QSZ ≤ D.va mid mid + TRANSPORT := by omega
  have g2 : D.va mid mid + QSZ + QSZ ≤ D.va mid mid + TRANSPORT := by omega
  rw [va]
  rw [with_ok D mid false ⟨D.va mid mid, TRANSPORT, D.va mid mid⟩ s _ _
    g1 (init_false D mid 32 _ s), bind_ok]
  simp only
  rw [with_ok D mid false ⟨D.va mid mid, TRANSPORT, D.va mid mid + QSZ⟩ _ _ _
    g2
    (init_false D mid 32 _ s), bind_ok, pure_ok]
  unfold cliT
  rw [Nat.add_zero]

theorem sendOn_some (D : Devs) (m : Nat) (t : Transport) (vs : List (List UInt8)) (s : Store) :
    sendOn D m (some t) vs s = (push D m t.tx vs s >>= fun r =>
      Res.ok (if r.1 then Obs.sent else Obs.full, r.2)) := rfl

theorem recvOn_some (D : Devs) (m : Nat) (t : Transport) (bufs : List (List UInt8)) (s : Store) :
    recvOn D m (some t) bufs s = (pop D m t.rx bufs s >>= fun r =>
      Res.ok (match r.1 with
        | some (n, bufs') => Obs.received n bufs'
        | none => Obs.noData, r.2)) := rfl

/-- Sending through a transport whose sending queue holds the channel `ms`. -/
theorem send_chan {D : Devs} {m i o : Nat} (p : Place D m i o) (s : Store) (t : Transport)
    (ht : t.tx = Queue.at 32 (D.va m i + o)) {e d : Nat} {ms : List (List UInt8)}
    (c : Chan (s i) o e d ms) (vs : List (List UInt8)) :
    (Spec.send ms vs = (.panic, none) ∧ sendOn D m (some t) vs s = .panic) ∨
    ∃ ob q f', Spec.send ms vs = (ob, some q) ∧ sendOn D m (some t) vs s = .ok (ob, upd s i f') ∧
      (∃ e d, Chan f' o e d q) ∧ ∀ a, a < o ∨ o + QSZ ≤ a → f' a = s i a := by
  have hE := ENTRY_eq
  unfold Spec.send
  rw [sendOn_some, ht]
  by_cases h1 : vs.flatten.length > 8192
  · left
    rw [if_pos h1]
    refine ⟨rfl, ?_⟩
    unfold push
    simp only [totalLen_eq]
    rw [if_pos (by omega)]
    rfl
  · right
    rw [if_neg h1]
    by_cases h2 : vs.flatten = []
    · rw [if_pos h2]
      refine ⟨_, _, s i, rfl, ?_, ⟨e, d, c⟩, fun a _ => rfl⟩
      unfold push
      simp only [totalLen_eq, h2, List.length_nil]
      rw [if_neg (by omega), if_pos trivial, bind_ok, upd_self]
      rfl
    · rw [if_neg h2]
      by_cases h3 : ms.length = 32
      · rw [if_pos h3]
        refine ⟨_, _, s i, rfl, ?_, ⟨e, d, c⟩, fun a _ => rfl⟩
        rw [push_full p s c vs (by omega) h2 h3, bind_ok, upd_self]
        rfl
      · rw [if_neg h3]
        have h3' : ms.length < 32 := by have := c.cap; omega
        refine ⟨_, _, _, rfl, ?_, ⟨_, _, c.pushed _ (by omega) h2 h3'⟩, fun a ha => ?_⟩
        · rw [push_room p s c vs (by omega) h2 h3', bind_ok]
          rfl
        · have hk : e % 32 < 32 := Nat.mod_lt _ (by omega)
          have hs := slot_in _ hk
          exact pushed_other _ _ _ _ _ hk (by omega) a (by omega) (by omega)

/-- Receiving through a transport whose receiving queue holds the channel `ms`. -/
theorem recv_chan {D : Devs} {m i o : Nat} (p : Place D m i o) (s : Store) (t : Transport)
    (ht : t.rx = Queue.at 32 (D.va m i + o)) {e d : Nat} {ms : List (List UInt8)}
    (c : Chan (s i) o e d ms) (bufs : List (List UInt8)) :
    (Spec.recv ms bufs = (.panic, none) ∧ recvOn D m (some t) bufs s = .panic) ∨
    ∃ ob q f', Spec.recv ms bufs = (ob, some q) ∧
      recvOn D m (some t) bufs s = .ok (ob, upd s i f') ∧
      (∃ e d, Chan f' o e d q) ∧ ∀ a, a < o ∨ o + QSZ ≤ a → f' a = s i a := by
  unfold Spec.recv
  rw [recvOn_some, ht]
  by_cases h1 : bufs.flatten = []
  · right
    rw [if_pos h1]
    refine ⟨_, _, s i, rfl, ?_, ⟨e, d, c⟩, fun a _ => rfl⟩
    rw [pop_no_room _ _ _ _ _ h1, bind_ok, upd_self]
  · rw [if_neg h1]
    cases ms with
    | nil =>
      right
      refine ⟨_, _, s i, rfl, ?_, ⟨e, d, c⟩, fun a _ => rfl⟩
      rw [pop_empty p s c bufs h1, bind_ok, upd_self]
    | cons v ms =>
      simp only
      rw [pop_some p s c bufs h1]
      by_cases h2 : v.length > bufs.flatten.length
      · left
        rw [if_pos h2, if_pos h2]
        exact ⟨rfl, rfl⟩
      · right
        rw [if_neg h2, if_neg h2]
        refine ⟨_, _, _, rfl, ?_, ⟨_, _, c.popped⟩, fun a ha => ?_⟩
        · rw [bind_ok, deliver_eq]
        · have hk : d % 32 < 32 := Nat.mod_lt _ (by omega)
          have hs := slot_in _ hk
          exact popped_other _ _ _ _ hk a (by omega) (by omega)

/-! ## The rack -/

/-- Bytes of the shared memory of machine `mid` before the part that is there to be allocated:
2 MiB for a client. -/
def reserved (mid : Nat) : Nat := if mid = 0 then 0 else 2097152

/-- An event that the kernels produce: channels belong to clients, a client uses its channels
only after the controller has set them up, and memory accesses stay inside the memory that is
there to be allocated. -/
def LegalEv (D : Devs) (served : List Nat) : Ev → Prop
  | .serve mid => 0 < mid ∧ mid < D.n
  | .connect mid => 0 < mid ∧ mid < D.n
  | .ctlSend _ _ => True
  | .ctlRecv _ _ => True
  | .cliSend mid _ => mid ∈ served
  | .cliRecv mid _ => mid ∈ served
  | .write m mid off bytes => m < D.n ∧ mid < D.n ∧ bytes ≠ [] ∧
      off + bytes.length ≤ (D.view m mid).size - reserved mid
  | .read m mid off len => m < D.n ∧ mid < D.n ∧ 0 < len ∧
      off + len ≤ (D.view m mid).size - reserved mid

/-- The clients whose channels are set up by the controller after an event. -/
def servedAfter (served : List Nat) : Ev → List Nat
  | .serve mid => mid :: served
  | _ => served

/-- A history of such events. -/
def Legal (D : Devs) : List Nat → List Ev → Prop
  | _, [] => True
  | served, e :: es => LegalEv D served e ∧ Legal D (servedAfter served e) es

/-- The devices and transports represent a state of the specification. -/
structure Inv (D : Devs) (y : Sys) (sp : Spec.St) (S : List Nat) : Prop where
  range : ∀ mid ∈ S, 0 < mid ∧ mid < D.n
  out : ∀ mid ∈ S, ∃ e d, Chan (y.store mid) 0 e d (sp.toClient mid)
  inn : ∀ mid ∈ S, ∃ e d, Chan (y.store mid) QSZ e d (sp.toCtl mid)
  served : ∀ mid, sp.served mid = true ↔ mid ∈ S
  ctl : ∀ mid, y.ctl mid = if sp.served mid then some (ctlT D mid) else none
  conn : ∀ mid, sp.connected mid = true → 0 < mid ∧ mid < D.n
  cli : ∀ mid, y.cli mid = if sp.connected mid then some (cliT D mid) else none
  heap : ∀ mid a, sp.heap mid a = y.store mid (reserved mid + a)

/-- The invariant when the queue at `o` of the served client `mid` changes. -/
theorem Inv.out_upd {D : Devs} {y : Sys} {sp : Spec.St} {S : List Nat} (i : Inv D y sp S)
    {mid : Nat} (hm : mid ∈ S) {f' : Nat → UInt8} {q : List (List UInt8)}
    (hc : ∃ e d, Chan f' 0 e d q) (hf : ∀ a, a < 0 ∨ 0 + QSZ ≤ a → f' a = y.store mid a) :
    Inv D { y with store := upd y.store mid f' }
      { sp with toClient := Spec.set sp.toClient mid q } S := by
  have hQ := QSZ_eq
  have h0 := (i.range mid hm).1
  refine { i with out := ?_, inn := ?_, heap := ?_ }
  · intro k hk
    simp only [set_eq]
    by_cases e : k = mid
    · subst e; rw [upd_same, upd_same]; exact hc
    · rw [upd_other _ _ e, upd_other _ _ e]; exact i.out k hk
  · intro k hk
    simp only
    by_cases e : k = mid
    · subst e
      rw [upd_same]
      obtain ⟨e, d, c⟩ := i.inn k hk
      exact ⟨e, d, c.congr fun a h1 h2 => hf a (by omega)⟩
    · rw [upd_other _ _ e]; exact i.inn k hk
  · intro k a
    simp only
    by_cases e : k = mid
    · subst e
      rw [upd_same, i.heap, hf]
      unfold reserved
      rw [if_neg (by omega)]
      omega
    · rw [upd_other _ _ e]; exact i.heap k a

theorem Inv.inn_upd {D : Devs} {y : Sys} {sp : Spec.St} {S : List Nat} (i : Inv D y sp S)
    {mid : Nat} (hm : mid ∈ S) {f' : Nat → UInt8} {q : List (List UInt8)}
    (hc : ∃ e d, Chan f' QSZ e d q) (hf : ∀ a, a < QSZ ∨ QSZ + QSZ ≤ a → f' a = y.store mid a) :
    Inv D { y with store := upd y.store mid f' }
      { sp with toCtl := Spec.set sp.toCtl mid q } S := by
  have hQ := QSZ_eq
  have h0 := (i.range mid hm).1
  refine { i with out := ?_, inn := ?_, heap := ?_ }
  · intro k hk
    simp only
    by_cases e : k = mid
    · subst e
      rw [upd_same]
      obtain ⟨e, d, c⟩ := i.out k hk
      exact ⟨e, d, c.congr fun a h1 h2 => hf a (by omega)⟩
    · rw [upd_other _ _ e]; exact i.out k hk
  · intro k hk
    simp only [set_eq]
    by_cases e : k = mid
    · subst e; rw [upd_same, upd_same]; exact hc
    · rw [upd_other _ _ e, upd_other _ _ e]; exact i.inn k hk
  · intro k a
    simp only
    by_cases e : k = mid
    · subst e
      rw [upd_same, i.heap, hf]
      unfold reserved
      rw [if_neg (by omega)]
      omega
    · rw [upd_other _ _ e]; exact i.heap k a

theorem affinity_va (D : Devs) (m mid off : Nat) :
    (D.affinityShmem m mid).base + KBASE + off = D.va m mid + (reserved mid + off) := by
  have hT := TRANSPORT_eq
  unfold Devs.affinityShmem Devs.va reserved
  by_cases h : mid = 0
  · simp only [h, ne_eq, not_true_eq_false, if_false, if_true]; omega
  · simp only [h, ne_eq, not_false_eq_true, if_true, if_false]; omega

/-- One event. -/
theorem step_ok {D : Devs} (h : D.Ok) {y : Sys} {sp : Spec.St} {S : List Nat} (i : Inv D y sp S)
    (e : Ev) (he : LegalEv D S e) :
    (Spec.step sp e = (.panic, none) ∧ y.step D e = .panic) ∨
    ∃ ob sp' y', Spec.step sp e = (ob, some sp') ∧ y.step D e = .ok (ob, y') ∧
      Inv D y' sp' (servedAfter S e) := by
  have hT := TRANSPORT_eq
  have hQ := QSZ_eq
  cases e with
  | serve mid =>
    right
    obtain ⟨h0, h1⟩ := he
    obtain ⟨f', c1, c2, c3, c4⟩ := create_ctl h h0 h1 y.store
    refine ⟨_, _, _, rfl, by simp only [Sys.step]; rw [c1]; rfl, ?_⟩
    refine { range := ?_, out := ?_, inn := ?_, served := ?_, ctl := ?_, conn := i.conn,
             cli := i.cli, heap := ?_ }
    · intro k hk
      rcases List.mem_cons.1 hk with rfl | hk
      · exact ⟨h0, h1⟩
      · exact i.range k hk
    · intro k hk
      simp only [set_eq]
      by_cases e : k = mid
      · subst e; rw [upd_same, upd_same]; exact ⟨0, 0, c2⟩
      · rw [upd_other _ _ e, upd_other _ _ e]
        exact i.out k ((List.mem_cons.1 hk).resolve_left e)
    · intro k hk
      simp only [set_eq]
      by_cases e : k = mid
      · subst e; rw [upd_same, upd_same]; exact ⟨0, 0, c3⟩
      · rw [upd_other _ _ e, upd_other _ _ e]
        exact i.inn k ((List.mem_cons.1 hk).resolve_left e)
    · intro k
      simp only [set_eq, servedAfter, List.mem_cons]
      by_cases e : k = mid
      · subst e; rw [upd_same]; simp
      · rw [upd_other _ _ e, i.served]; simp [e]
    · intro k
      by_cases e : k = mid
      · subst e; simp [Spec.set]
      · simp only [Spec.set, upd, if_neg e]; exact i.ctl k
    · intro k a
      simp only
      by_cases e : k = mid
      · subst e
        rw [upd_same, i.heap, c4]
        unfold reserved
        rw [if_neg (by omega)]
        omega
      · rw [upd_other _ _ e]; exact i.heap k a
  | connect mid =>
    right
    obtain ⟨h0, h1⟩ := he
    refine ⟨_, _, _, rfl, by simp only [Sys.step]; rw [create_cli h h0 h1 y.store]; rfl, ?_⟩
    refine { i with conn := ?_, cli := ?_ }
    · intro k hk
      simp only [set_eq] at hk
      by_cases e : k = mid
      · subst e; exact ⟨h0, h1⟩
      · rw [upd_other _ _ e] at hk; exact i.conn k hk
    · intro k
      by_cases e : k = mid
      · subst e; simp [Spec.set]
      · simp only [Spec.set, upd, if_neg e]; exact i.cli k
  | ctlSend mid vs =>
    simp only [Spec.step, Sys.step, servedAfter]
    rw [i.ctl mid]
    by_cases hs : sp.served mid = true
    · have hm := (i.served mid).1 hs
      obtain ⟨h0, h1⟩ := i.range mid hm
      obtain ⟨e, d, c⟩ := i.out mid hm
      rw [if_pos hs, if_pos hs]
      rcases send_chan (place h (m := 0) (o := 0) (by omega) h0 h1 (by omega)) y.store
        (ctlT D mid) rfl c vs with ⟨a1, a2⟩ | ⟨ob, q, f', a1, a2, a3, a4⟩
      · left; rw [a1, a2]; exact ⟨rfl, rfl⟩
      · right
        rw [a1, a2]
        exact ⟨_, _, _, rfl, rfl, i.out_upd hm a3 a4⟩
    · right
      rw [if_neg hs, if_neg hs]
      exact ⟨_, _, _, rfl, rfl, i⟩
  | ctlRecv mid bufs =>
    simp only [Spec.step, Sys.step, servedAfter]
    rw [i.ctl mid]
    by_cases hs : sp.served mid = true
    · have hm := (i.served mid).1 hs
      obtain ⟨h0, h1⟩ := i.range mid hm
      obtain ⟨e, d, c⟩ := i.inn mid hm
      rw [if_pos hs, if_pos hs]
      rcases recv_chan (place h (m := 0) (o := QSZ) (by omega) h0 h1 (by omega)) y.store
        (ctlT D mid) rfl c bufs with ⟨a1, a2⟩ | ⟨ob, q, f', a1, a2, a3, a4⟩
      · left; rw [a1, a2]; exact ⟨rfl, rfl⟩
      · right
        rw [a1, a2]
        exact ⟨_, _, _, rfl, rfl, i.inn_upd hm a3 a4⟩
    · right
      rw [if_neg hs, if_neg hs]
      exact ⟨_, _, _, rfl, rfl, i⟩
  | cliSend mid vs =>
    simp only [Spec.step, Sys.step, servedAfter]
    rw [i.cli mid]
    have hm : mid ∈ S := he
    by_cases hs : sp.connected mid = true
    · obtain ⟨h0, h1⟩ := i.range mid hm
      obtain ⟨e, d, c⟩ := i.inn mid hm
      rw [if_pos hs, if_pos hs]
      rcases send_chan (place h (m := mid) (o := QSZ) (by omega) h0 h1 (by omega)) y.store
        (cliT D mid) rfl c vs with ⟨a1, a2⟩ | ⟨ob, q, f', a1, a2, a3, a4⟩
      · left; rw [a1, a2]; exact ⟨rfl, rfl⟩
      · right
        rw [a1, a2]
        exact ⟨_, _, _, rfl, rfl, i.inn_upd hm a3 a4⟩
    · right
      rw [if_neg hs, if_neg hs]
      exact ⟨_, _, _, rfl, rfl, i⟩
  | cliRecv mid bufs =>
    simp only [Spec.step, Sys.step, servedAfter]
    rw [i.cli mid]
    have hm : mid ∈ S := he
    by_cases hs : sp.connected mid = true
    · obtain ⟨h0, h1⟩ := i.range mid hm
      obtain ⟨e, d, c⟩ := i.out mid hm
      rw [if_pos hs, if_pos hs]
      rcases recv_chan (place h (m := mid) (o := 0) (by omega) h0 h1 (by omega)) y.store
        (cliT D mid) rfl c bufs with ⟨a1, a2⟩ | ⟨ob, q, f', a1, a2, a3, a4⟩
      · left; rw [a1, a2]; exact ⟨rfl, rfl⟩
      · right
        rw [a1, a2]
        exact ⟨_, _, _, rfl, rfl, i.out_upd hm a3 a4⟩
    · right
      rw [if_neg hs, if_neg hs]
      exact ⟨_, _, _, rfl, rfl, i⟩
  | write m mid off bytes =>
    right
    obtain ⟨hm, h1, hb, hr⟩ := he
    have hb' : 0 < bytes.length := List.length_pos_iff.2 hb
    simp only [Spec.step, Sys.step, servedAfter]
    rw [affinity_va, st_ok h y.store bytes hm h1 (by omega) (by omega), acc_some, bind_ok, pure_ok]
    refine ⟨_, _, _, rfl, rfl, ?_⟩
    have key : ∀ k ∈ S, ∀ a, a < QSZ + QSZ →
        upd y.store mid (wr (y.store mid) (reserved mid + off) bytes) k a = y.store k a := by
      intro k hk a ha
      by_cases e : k = mid
      · subst e
        rw [upd_same, wr_other]
        have := (i.range k hk).1
        unfold reserved
        rw [if_neg (by omega)]
        omega
      · rw [upd_other _ _ e]
    refine { i with out := ?_, inn := ?_, heap := ?_ }
    · intro k hk
      obtain ⟨e, d, c⟩ := i.out k hk
      exact ⟨e, d, c.congr fun a _ ha => key k hk a (by omega)⟩
    · intro k hk
      obtain ⟨e, d, c⟩ := i.inn k hk
      exact ⟨e, d, c.congr fun a _ ha => key k hk a (by omega)⟩
    · intro k a
      simp only [set_eq]
      by_cases e : k = mid
      · subst e
        rw [upd_same, upd_same]
        unfold wr
        by_cases hin : off ≤ a ∧ a < off + bytes.length
        · rw [if_pos hin, if_pos (by omega)]
          congr 1
          omega
        · rw [if_neg hin, if_neg (by omega)]
          exact i.heap k a
      · rw [upd_other _ _ e, upd_other _ _ e]; exact i.heap k a
  | read m mid off len =>
    right
    obtain ⟨hm, h1, hb, hr⟩ := he
    simp only [Spec.step, Sys.step, servedAfter]
    rw [affinity_va, ld_ok h y.store hm h1 (by omega) (by omega), acc_some, bind_ok, pure_ok]
    refine ⟨_, _, _, rfl, ?_, i⟩
    congr 3
    unfold rd
    apply List.map_congr_left
    intro x _
    rw [i.heap, Nat.add_assoc]

theorem run_ok {D : Devs} (h : D.Ok) (es : List Ev) : ∀ {y : Sys} {sp : Spec.St} {S : List Nat},
    Inv D y sp S → Legal D S es → y.run D es = Spec.run sp es := by
  induction es with
  | nil => intros; rfl
  | cons e es ih =>
    intro y sp S i hl
    simp only [Sys.run, Spec.run]
    rcases step_ok h i e hl.1 with ⟨a1, a2⟩ | ⟨ob, sp', y', a1, a2, a3⟩
    · rw [a1, a2]
    · rw [a1, a2]
      simp only
      rw [ih a3 hl.2]

/-- **C89** Whatever the shared memory contained at the start and wherever each machine maps it:
in every history, what all machines see is what they would see with two independent bounded
channels per client and plain memory beside them.  In particular no access leaves the mapped
devices, messages arrive unchanged, in order and once, at the right end, and neither messages nor
the memory that is there to be allocated disturb each other. -/
theorem c89_channels (D : Devs) (h : D.Ok) (s : Store) (es : List Ev) (hl : Legal D [] es) :
    (Sys.start s).run D es =
      Spec.run (Spec.start fun mid a => s mid (reserved mid + a)) es := by
  refine run_ok h es ?_ hl
  refine { range := nofun, out := nofun, inn := nofun, served := fun mid => ?_,
           ctl := fun mid => rfl, conn := nofun, cli := fun mid => rfl, heap := fun mid a => rfl }
  simp [Spec.start]

end NRK.Rack.Shm
