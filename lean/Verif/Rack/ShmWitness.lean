import Verif.Rack.ShmProps

/-!
# C89: a concrete rack, and what happens to a message sent too early
-/

namespace NRK.Rack.Shm

open NRK.Rpc (ENTRY ENTRY_eq totalLen totalLen_eq)
open Spec (Ev Obs)

/-- Three machines; machine `m` finds the device of machine `i` (16 MiB) at an address of its
own. -/
def rack3 : Devs where
  n := 3
  view m i := { base := 0x100000000 * (m + 1) + 0x1000000 * ((i + m) % 3), size := 0x1000000 }

theorem rack3_ok : rack3.Ok where
  same := fun _ _ _ _ => rfl
  apart := by
    intro m i j hm hi hj hij
    simp only [rack3] at *
    omega
  room := by
    intro i _ _
    rw [TRANSPORT_eq]
    simp only [rack3]
    omega

/-- Both clients and the controller at work; the last receive has too small a buffer. -/
def sampleHistory : List Ev :=
  [.serve 2, .connect 1, .serve 1, .connect 2, .write 1 1 0 [5, 6], .ctlRecv 1 [[0]],
   .cliSend 1 [[1, 2], [3]], .cliSend 2 [[9]], .cliSend 1 [[4]], .ctlSend 1 [[7], [], [8]],
   .ctlRecv 1 [[0, 0], [0, 0]], .ctlRecv 2 [[0, 0]], .cliRecv 1 [[0, 0, 0]], .cliRecv 2 [[0]],
   .read 0 1 1 1, .ctlSend 0 [[1]]] ++
  List.replicate 33 (.ctlSend 2 [[3, 3]]) ++ [.ctlRecv 1 [[0]], .cliRecv 2 [[0]]]

/-- What is seen. -/
def sampleSeen : List Obs :=
  [.done, .done, .done, .done, .done, .noData, .sent, .sent, .sent, .sent,
   .received 3 [[1, 2], [3, 0]], .received 1 [[9, 0]], .received 2 [[7, 8, 0]], .noData,
   .bytes [6], .absent] ++ List.replicate 32 .sent ++ [.full, .received 1 [[4]], .panic]

/-- Non-vacuity of `c89_channels`: the history is legal and has these observations, whatever the
memory contained before. -/
theorem sample89 (s : Store) :
    Legal rack3 [] sampleHistory ∧ (Sys.start s).run rack3 sampleHistory = sampleSeen := by
  have hl : Legal rack3 [] sampleHistory := by
    simp only [sampleHistory, List.replicate, List.cons_append, List.nil_append, Legal, LegalEv,
      servedAfter, rack3, reserved]
    simp
  refine ⟨hl, ?_⟩
  rw [c89_channels rack3 rack3_ok s _ hl]
  have key : ∀ hp : Nat → Nat → UInt8, Spec.run (Spec.start hp) sampleHistory = sampleSeen := by
    intro hp
    simp [sampleHistory, sampleSeen, List.replicate, Spec.run, Spec.step, Spec.start, Spec.set,
      Spec.send, Spec.recv, Spec.deliver, List.range, List.range.loop]
  exact key _

/-- **C89, the limit** Setting up the controller's end empties the channels: a message that a
client sent before (here on memory full of zeros, as a new device has it) is lost although the
send succeeded.  Nothing in the transport orders the two. -/
theorem c89_early_send_lost (D : Devs) (h : D.Ok) (mid : Nat) (h0 : 0 < mid) (h1 : mid < D.n)
    (d : List UInt8) (hd : d ≠ []) (hl : d.length ≤ 8192) (buf : List UInt8) (hb : buf ≠ []) :
    (Sys.start fun _ _ => 0).run D
        [.connect mid, .cliSend mid [d], .serve mid, .ctlRecv mid [buf]] =
      [.done, .sent, .done, .noData] := by
  have hE := ENTRY_eq
  have hQ := QSZ_eq
  have p := place h (m := mid) (o := QSZ) h1 h0 h1 (by omega)
  have p0 := place h (m := 0) (o := QSZ) (by omega) h0 h1 (by omega)
  have hz : ∀ o, dec (rd (fun _ => (0 : UInt8)) o 8) = 0 := by
    intro o
    simp [rd, List.range, List.range.loop, dec]
  have hd' : [d].flatten.length ≠ 0 := by
    simp only [List.flatten_cons, List.flatten_nil, List.append_nil]
    exact fun e => hd (List.length_eq_zero_iff.1 e)
  have hl' : [d].flatten.length ≤ ENTRY := by
    simp only [List.flatten_cons, List.flatten_nil, List.append_nil]
    omega
  have hs := slot_in 0 (by omega)
  have hW : diff 0 0 = 0 := by
    have := diff_same 0
    rwa [Nat.zero_mod] at this
  have hpush : push D mid (cliT D mid).tx [d] (fun _ _ => 0) =
      .ok (true, upd (fun _ _ => 0) mid
        (pushed (fun _ => 0) QSZ 0 0 [d].flatten)) := by
    unfold push
    simp only [totalLen_eq]
    rw [if_neg (by omega), if_neg hd']
    have e1 : D.ld (fun _ _ => 0) mid (cliT D mid).tx.enq 8 =
        some (rd (fun _ => (0 : UInt8)) (QSZ + 0) 8) := p.ld _ 0 8 (by omega) (by omega)
    rw [e1, acc_some, bind_ok, hz]
    have e0 : 0 &&& (cliT D mid).tx.mask = 0 := Nat.zero_and _
    rw [e0, if_pos (by show 0 < 32; omega)]
    have e2 : (cliT D mid).tx.node 0 = D.va mid mid + QSZ + slot 0 := at_node' _ 0
    rw [e2, p.ld _ (slot 0) 8 (by omega) (by omega), acc_some, bind_ok, hz, hW, if_pos rfl]
    have e3 : ∀ bs : List UInt8, bs.length = 8 → D.st (fun _ _ => 0) mid (cliT D mid).tx.enq bs =
        some (upd (fun _ _ => 0) mid (wr (fun _ => 0) (QSZ + 0) bs)) :=
      fun bs hb => p.st _ 0 bs (by omega) (by omega)
    rw [e3 _ (enc_length _ _), acc_some, bind_ok]
    have e4 : D.va mid mid + QSZ + slot 0 + 8 = D.va mid mid + QSZ + (slot 0 + 8) := by omega
    rw [e4, p.st _ _ _ (by omega) (by rw [enc_length]; omega), acc_some, bind_ok,
      copyIn_ok p 0 (by omega) [d] 0 _ (by omega), bind_ok,
      p.st _ _ _ (by omega) (by rw [enc_length]; omega), acc_some, bind_ok, pure_ok]
    simp only [upd_same, upd_upd_same, Nat.add_zero]
    rfl
  obtain ⟨f', c1, _, c3, _⟩ := create_ctl h h0 h1
    (upd (fun _ _ => 0) mid (pushed (fun _ => 0) QSZ 0 0 [d].flatten))
  have hbuf : [buf].flatten ≠ [] := by simpa using hb
  have hpop := pop_empty p0 (upd (upd (fun _ _ => 0) mid
    (pushed (fun _ => 0) QSZ 0 0 [d].flatten)) mid f') (e := 0) (d := 0)
    (by rw [upd_same]; exact c3) [buf] hbuf
  simp only [Sys.run, Sys.step, Sys.start]
  rw [create_cli h h0 h1, bind_ok, pure_ok]
  simp only
  rw [upd_same, sendOn_some, hpush, bind_ok, bind_ok, pure_ok]
  simp only
  rw [c1, bind_ok, pure_ok]
  simp only
  rw [upd_same, recvOn_some]
  have e5 : (ctlT D mid).rx = Queue.at 32 (D.va 0 mid + QSZ) := rfl
  rw [e5, hpop, bind_ok, bind_ok, pure_ok]
  rfl

end NRK.Rack.Shm
