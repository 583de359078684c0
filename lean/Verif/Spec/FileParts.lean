import Verif.Model.FileParts

/-! # What may be read from a file that is being saved -/

namespace Flut.Spec

/-- Every character of a text is one that may stand at its place. -/
def AtPlaces (may : Nat → Byte → Prop) (text : Str) : Prop := ∀ (i : Nat) (c : Byte), text[i]? = some c → may i c

end Flut.Spec
