import Verif.Rump.VcpuModel

/-!
# What a rump kernel expects of its host's hypercalls that wait (C101)
-/

namespace NRK.Rump.Vcpu.Spec

/-- The thread cannot go on by itself: another thread has to make it runnable, or time has to pass. -/
def Waits (a : Act) : Prop := a = .block ∨ a = .sleep

instance (a : Act) : Decidable (Waits a) := by unfold Waits; infer_instance

/-- The mutexes a thread has after a call that it makes while it has `l`. -/
def mutexes (l : List Nat) : Call → List Nat
  | .mutexEnter m _ _ => m.id :: l
  | .mutexEnterNowrap m _ => m.id :: l
  | .mutexTryEnter m held => if held then l else m.id :: l
  | .mutexExit m => l.erase m.id
  | .cvWait _ _ _ => l
  | .rwEnter _ access first _ _ => if first then access :: l else l
  | .rwExit access last => if last then l.erase access else l
  | .clockSleep _ _ => l

/-- The call is allowed: who leaves a mutex or waits on a condition variable has the mutex, a reader-writer lock has two
mutexes. -/
def Allowed (l : List Nat) : Call → Prop
  | .mutexExit m => m.id ∈ l
  | .cvWait m _ _ => m.id ∈ l
  | .rwEnter wait access _ _ _ => wait ≠ access
  | .rwExit access last => last = true → access ∈ l
  | _ => True

/-- The number of the first `n` threads that have a virtual CPU. -/
def running (s : Sys) (n : Nat) : Nat := ((List.range n).filter fun t => (s.th t).cpu.isSome).length

end NRK.Rump.Vcpu.Spec
