import Verif.Model.PropNode

/-! # Layers of settings: programs that merge several trees into one -/

namespace Flut

namespace PN

/-- A program that calls `merge_prop_nodes( pn, other, overwrite )` (/repo/flut/prop_node_tools.cpp:245-255) for each of some other
trees in turn. -/
def mergeAll (overwrite : Bool) : List PN → PN → PN
  | [], t => t
  | o :: os, t => mergeAll overwrite os (merge overwrite o t)

end PN

end Flut
