import Verif.Lineup.ParkModel

/-!
# What parking should do, in terms of the calls and returns so far (the latest first)
-/

namespace NRK.Lineup.Park

/-- `_lwp_unpark(i)` was called after the last return of `___lwp_park60` in thread `i`. -/
def pending (i : Nat) : List Ev → Bool
  | [] => false
  | .unpark j :: h => if j = i then true else pending i h
  | .parkRet j _ :: h => if j = i then false else pending i h
  | .otherWake _ :: h => pending i h

/-- How often `_lwp_unpark(i)` was called. -/
def unparks (i : Nat) : List Ev → Nat
  | [] => 0
  | .unpark j :: h => (if j = i then 1 else 0) + unparks i h
  | _ :: h => unparks i h

/-- How often `___lwp_park60` returned in thread `i`. -/
def returns (i : Nat) : List Ev → Nat
  | [] => 0
  | .parkRet j _ :: h => (if j = i then 1 else 0) + returns i h
  | _ :: h => returns i h

/-- How often something else put thread `i` in the queue. -/
def otherWakes (i : Nat) : List Ev → Nat
  | [] => 0
  | .otherWake j :: h => (if j = i then 1 else 0) + otherWakes i h
  | _ :: h => otherWakes i h

/-- Nobody unparks a thread before the call that created it has returned. -/
def Known (s : St) : Act → Prop
  | .unpark i => ∀ l, s.lwps i = some l → l.named = true
  | _ => True

/-- States reached by histories in which every thread is known before it is unparked. -/
inductive KReach : St → Prop where
  | init : KReach .init
  | step {s s'} (a : Act) : KReach s → Known s a → s.step a = some (.ok s') → KReach s'

/-- Moreover: nobody unparks a thread that has an unpark outstanding, a thread does not park with an
entry in the queue, and nothing else wakes a parked thread. -/
def Once (s : St) : Act → Prop
  | .unpark i => (∀ l, s.lwps i = some l → l.named = true) ∧ pending i s.hist = false
  | .park i _ => ∀ l, s.lwps i = some l → l.queued = 0
  | .otherWake i => ∀ l, s.lwps i = some l → l.pc ≠ .swapped ∧ l.pc ≠ .blocked
  | _ => True

inductive OReach : St → Prop where
  | init : OReach .init
  | step {s s'} (a : Act) : OReach s → Once s a → s.step a = some (.ok s') → OReach s'

end NRK.Lineup.Park
