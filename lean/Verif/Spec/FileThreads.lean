import Verif.Model.FileThreads

/-! # What calls that create folders may return -/

namespace Flut

open Fs

/-- The names of the folders that a call may say to have made. -/
def FsCall.names : FsCall → Str → Prop
  | .unique folder n, u => ∃ i : Nat, (i : Int) < n ∧ u = uniqueName folder i
  | .directories folder, u => u = folder

end Flut
