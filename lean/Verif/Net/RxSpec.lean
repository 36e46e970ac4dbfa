import Verif.Net.RxModel

/-! # C75: specification -/

namespace NRK.Net

/-- The addresses of buffers lent to the device. -/
def lent (cs : List (Nat × Chain)) : List Nat := cs.flatMap (fun p => p.2.segs.map Seg.addr)

/-- The steps C75 speaks of: chains of two buffers of less than 16384 bytes, different from each other and from the
ones that are lent; the caller keeps the ring from filling up (one chain less than it would hold); the device
reports no packets of length 0. -/
def RxOk (s : RxSt) : RxAct → Prop
  | .enqueue c => ∃ a b, c.segs = [a, b] ∧ a.len < 2 ^ 14 ∧ b.len < 2 ^ 14 ∧
      (a.addr :: b.addr :: lent s.q.inflight).Nodup ∧ 2 * (s.q.inflight.length + 2) ≤ s.q.n
  | .devZero => False
  | _ => True

/-- What `dequeue` must give for a frame received into a chain: the same buffers, and in them the pieces of the
frame; buffers that were not needed keep their length.  For a frame with an error, all lengths are 0. -/
def Receives (c : Chain) (f : Frame) (g : RxGot) : Prop :=
  g.chain.segs.map Seg.addr = c.segs.map Seg.addr ∧
  (f.err = true → ∀ s ∈ g.chain.segs, s.len = 0) ∧
  (f.err = false → g.data = f.frags ∧ g.chain.segs.map Seg.len =
    f.frags.map List.length ++ (c.segs.map Seg.len).drop f.frags.length)

/-- A sequence of steps. -/
def RxSt.exec (s : RxSt) : List RxAct → Res RxSt
  | [] => .ok s
  | a :: as =>
    match s.step a with
    | .ok s' => s'.exec as
    | .panic => .panic
    | .off => .off

end NRK.Net
