import Verif.Fs.FioModel

/-!
# C83: what the sequences of calls leave out

The cases in which the reference is known to differ (each has a witness in `FioProps.lean`), in terms of the calls
and of the descriptors the program holds.
-/

namespace NRK.Fs

/-- Nothing is said about the directory `/`; a file is not opened for appending and truncating at once; there is a
free descriptor; a descriptor opened for appending is not read without an offset; a file that was opened for appending
is not appended to after it was deleted. -/
def TameCall (pid : Nat) (n : Node) : FioAction → Prop
  | .open name flags _ => name ≠ "/" ∧ ¬ (flags.append = true ∧ flags.truncate = true) ∧ ∃ fd, n.fd? pid fd = none
  | .delete name => name ≠ "/"
  | .read fd _ => ∀ e, n.fd? pid fd = some e → e.flags.append = true → e.flags.read = false
  | .write fd _ _ => ∀ e, n.fd? pid fd = some e → e.flags.append = true → n.fs.mnodes e.mnode ≠ none
  | _ => True

/-- Every call of the sequence is as above when it is made. -/
def Tame (nlogs pid : Nat) : Node → List FioAction → Prop
  | _, [] => True
  | n, a :: as => TameCall pid n a ∧ Tame nlogs pid (fioSys nlogs pid n a).2 as

end NRK.Fs
