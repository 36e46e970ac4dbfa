import Verif.Sync.ConqModel

/-!
# C87: what a sender and the receiver expect of the queue
-/

namespace NRK.Sync.Conq

variable {T : Type}

/-- Sender `p` is in a call `push(x)`. -/
def Pushing (s : St T) (p : Nat) (x : T) : Prop :=
  ∃ a, (∃ e, s.push p = .cas a e ∨ s.push p = .check a e) ∧ (s.heap a).bind Node.elem = some x

/-- The receiver is being dropped, or is gone. -/
def Ended (s : St T) : Prop := (∃ z h, s.recv = .close z h) ∨ (∃ h, s.recv = .free h) ∨ s.recv = .gone

/-- A step that does not read freed memory. -/
def Clean (s : St T) : Act T → Prop
  | .pcheck p _ => ∀ a b, s.push p = .check a (some b) → s.heap b ≠ none
  | _ => True

/-- States reached by executions that never read freed memory. -/
inductive CleanReach : St T → Prop
  | init : CleanReach .init
  | step {s s' : St T} (a : Act T) : CleanReach s → Clean s a → s.act a = .ok s' → CleanReach s'

/-- Executions, with the statement that the queue was empty at some moment since the current call of `pop` began. -/
inductive Seen : St T → Prop → Prop
  | init : Seen .init True
  | step {s s' : St T} {e : Prop} (a : Act T) : Seen s e → s.act a = .ok s' →
      Seen s' ((e ∧ (match a with | .pop => False | _ => True)) ∨ s'.popped = s'.pushed)

end NRK.Sync.Conq
