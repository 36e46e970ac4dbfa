/-!
# Shared outcome types

Rust `Result<T, KError>` values stay data; a Rust panic is a separate outcome so that
"the kernel does not panic" can be stated.
-/

namespace NRK

/-- The error values of `kernel/src/error.rs` (enum `KError`, lines 23-215) that the modelled
functions return.  Simplification: only the variants used by modelled code, without
their payload strings. -/
inductive KError where
  | outOfMemory
  | permissionError
  | invalidFile
  | invalidFileDescriptor
  | fileDescriptorTooLarge
  | alreadyPresent
  | invalidOffset
  | notSupported
  | noProcessFoundForPid
  | fileDescForPidAlreadyAdded
  | outOfPids
  | noExecutorForCore
  | coreAlreadyAllocated
  | coreNotAllocated
  | coreAllocatedToDifferentProcess
  | tooManyRegisteredFrames
  | invalidFrameId
  | frameStillMapped
  | executorCacheExhausted
  | noExecutorAllocated
  | cacheExhausted
  | cacheFull
  | invalidAffinityId
  | notMapped
  | invalidBase
  | invalidFrame
  | alreadyMapped (base : Nat)
  | invalidUserBufferArgs
  | userBufferTooLarge
  | pidMismatchInProcessArgument
  | notInRightAddressSpaceForReading
  | sliceLengthMismatchForWriting
  | invalidSyscallArgument1 (a : Nat)
  | invalidFileOperation (a : Nat)
  | invalidProcessOperation (a : Nat)
  | invalidVSpaceOperation (a : Nat)
  | invalidSystemOperation (a : Nat)
  | notAUserVAddr
  | processNotSet
  | userPtMissingReadAccess
  | userPtMissingWriteAccess
  | invalidCmdLineOptions
  | malformedCmdLine
  | badAddress
  | tryFromIntError
  | invalidSyscallTestArg2
  | invalidSyscallTestArg3
  | invalidSyscallTestArg4
  | unableToLoad
  | notAValidUtf8String
  | rpcMalformedRequest
  | rpcMalformedResponse
  | rpcExtraData
  | dcmError
  | dcmNotEnoughMemory
deriving DecidableEq, Repr

/-- Outcome of a modelled Rust function: `Ok`, `Err`, or a panic (`unwrap`/`expect` on
`None`, failed `assert!`, `unreachable!`, index out of bounds, checked subtraction
underflow).  Not a definition of the code base itself. -/
inductive Outcome (α : Type) where
  | ok (a : α)
  | err (e : KError)
  | panic
deriving DecidableEq, Repr

namespace Outcome

/-- Rust's `?` operator (with panics propagating). -/
def bind {α β : Type} (x : Outcome α) (f : α → Outcome β) : Outcome β :=
  match x with
  | ok a => f a
  | err e => err e
  | panic => panic

/-- `Result::map`. -/
def map {α β : Type} (f : α → β) (x : Outcome α) : Outcome β :=
  match x with
  | ok a => ok (f a)
  | err e => err e
  | panic => panic

/-- The computation finished without a panic. -/
def noPanic {α : Type} : Outcome α → Prop
  | panic => False
  | _ => True

@[simp] theorem noPanic_ok {α : Type} (a : α) : (ok a).noPanic := trivial
@[simp] theorem noPanic_err {α : Type} (e : KError) : (err e : Outcome α).noPanic := trivial
@[simp] theorem not_noPanic_panic {α : Type} : ¬ (panic : Outcome α).noPanic := id
theorem noPanic_iff {α : Type} (x : Outcome α) : x.noPanic ↔ x ≠ panic := by
  cases x <;> simp [noPanic]

end Outcome

end NRK

namespace NRK

/-- Point update of a map; hash maps of the code are modelled as functions (`insert`, `remove`
and `get_mut` are point updates). -/
def upd {α β : Type} [DecidableEq α] (f : α → β) (a : α) (b : β) : α → β :=
  fun x => if x = a then b else f x

@[simp] theorem upd_same {α β : Type} [DecidableEq α] (f : α → β) (a : α) (b : β) :
    upd f a b a = b := by simp [upd]

theorem upd_other {α β : Type} [DecidableEq α] (f : α → β) {a x : α} (b : β) (h : x ≠ a) :
    upd f a b x = f x := by simp [upd, h]

theorem upd_apply {α β : Type} [DecidableEq α] (f : α → β) (a x : α) (b : β) :
    upd f a b x = if x = a then b else f x := rfl

theorem upd_comm {α β : Type} [DecidableEq α] (f : α → β) {a c : α} (b d : β) (h : a ≠ c) :
    upd (upd f a b) c d = upd (upd f c d) a b := by
  funext x; simp only [upd]; split <;> split <;> simp_all

@[simp] theorem upd_upd {α β : Type} [DecidableEq α] (f : α → β) (a : α) (b d : β) :
    upd (upd f a b) a d = upd f a d := by
  funext x; simp only [upd]; split <;> rfl

@[simp] theorem upd_self {α β : Type} [DecidableEq α] (f : α → β) (a : α) :
    upd f a (f a) = f := by
  funext x; simp only [upd]; split <;> simp_all

end NRK
