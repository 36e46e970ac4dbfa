import Verif.Net.TxModel

/-! # C74: specification -/

namespace NRK.Net

/-- A packet the driver can express: 1 to 32 segments (`VMXNET3_TX_MAXSEGS`) of at most 16383 bytes
(`VMXNET3_TX_MAXSEGSIZE`). -/
def Chain.Proper (c : Chain) : Prop :=
  1 ≤ c.segs.length ∧ c.segs.length ≤ 32 ∧ ∀ s ∈ c.segs, s.len < 2 ^ 14

/-- The steps C74 speaks of: the caller sends proper packets only, and the device reports every packet (it does
not leave out the completions that were not requested). -/
def TxOk : TxAct → Prop
  | .enqueue c => c.Proper
  | .devSkip => False
  | _ => True

/-- Sizes for which the arithmetic of the queue is right. -/
def Pow2 (n : Nat) : Prop := ∃ k, n = 2 ^ k

/-- Number of segments of some chains. -/
def segCount (cs : List Chain) : Nat := (cs.map (fun c => c.segs.length)).sum

/-- The chains the driver has not yet seen a completion for. -/
def TxSt.outstanding (s : TxSt) : List Chain := s.accepted.drop (s.returned.length + s.q.processed.length)

/-- The steps of the device, and those of calls that look for completions. -/
def TxAct.internal : TxAct → Bool
  | .devRead => true
  | .devComp => true
  | .reap => true
  | _ => false

/-- Whatever device and driver do, after finitely many of these steps nothing is outstanding; until then one of
them can always do something. -/
inductive Drains : TxSt → Prop
  | done {s : TxSt} (h : s.outstanding = []) : Drains s
  | more {s : TxSt} (h : ∃ a s', a.internal = true ∧ s.step a = .ok s' ∧ s' ≠ s)
      (h' : ∀ a s', a.internal = true → s.step a = .ok s' → s' ≠ s → Drains s') : Drains s

/-- Number of writes a running `enqueue` has left. -/
def Writer.left : Writer → Nat
  | .idle => 0
  | .busy _ _ _ rest .addr => 3 * rest.length + 1
  | .busy _ _ _ rest .gen => 3 * rest.length
  | .busy _ _ _ rest .adv => 3 * rest.length - 1

/-- The chain a running `enqueue` was called with. -/
def Writer.chain : Writer → Option Chain
  | .idle => none
  | .busy c _ _ _ _ => some c

/-- A sequence of steps. -/
def TxSt.exec (s : TxSt) : List TxAct → Res TxSt
  | [] => .ok s
  | a :: as =>
    match s.step a with
    | .ok s' => s'.exec as
    | .panic => .panic
    | .off => .off

end NRK.Net
