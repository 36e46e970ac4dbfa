import Verif.Fs.RefModel

/-!
# Specification for C82
-/

namespace NRK.Fs

/-- Two results agree: they are equal, except that a read may report more bytes than the reference; the bytes
it reports are those of the reference, and zeros where the reference reports none. -/
def TestRes.agrees : TestRes → TestRes → Prop
  | .read (.ok (n, b)), .read (.ok (k, b')) =>
    k ≤ n ∧ b.take n = b'.take n ∧ ∀ i, k ≤ i → i < n → b[i]? = some 0
  | r, r' => r = r'

/-- Agreement of two lists of results. -/
def Agree : List TestRes → List TestRes → Prop
  | [], [] => True
  | r :: rs, r' :: rs' => r.agrees r' ∧ Agree rs rs'
  | _, _ => False

/-- What a caller sees of a result: of the buffer, the bytes that were read. -/
def TestRes.seen : TestRes → TestRes
  | .read (.ok (n, b)) => .read (.ok (n, b.take n))
  | r => r

/-- The size the file system reports for an inode, 0 if there is none. -/
def sizeOf' (fs : MlnrFS) (mn : Nat) : Nat :=
  match fs.fileInfo mn with
  | .ok (_, n) => n
  | _ => 0

/-- Every write begins within the file or at its end. -/
def NoHoles : MlnrFS → List TestAction → Prop
  | _, [] => True
  | fs, .write mn off pat len :: as =>
    off ≤ sizeOf' fs mn ∧ NoHoles (fsStep fs (.write mn off pat len)).2 as
  | fs, a :: as => NoHoles (fsStep fs a).2 as

end NRK.Fs
