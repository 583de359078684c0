import Verif.Model.Path
import Verif.Model.PropNode

/-!
# Include resolution

Models /repo/flut/prop_node_tools.cpp:257-303. The file system enters as the function `load : Str → Res PN` from file
names to the result of `load_file` (lines 27-32). `asBool : Str → Bool` is `string_cast<bool>::from`
(/repo/flut/system/string_cast.hpp:10), which never throws. Access flags are not tracked here: nothing tests them before
`clear_accessed_recursively` (line 300) resets them all. `Res.diverges` stands for the first argument, which bounds the
number of loop iterations, being used up; `C26_terminates` shows that a large enough bound always exists.
-/

namespace Flut

namespace PN

/-- The parameters of include resolution: the file system, `string_cast<bool>`, and the include directive. -/
structure IncludeEnv where
  load : Str → Res PN
  asBool : Str → Bool
  directive : Str

/-- The loop of `resolve_include_files`, /repo/flut/prop_node_tools.cpp:259-291, at index `i` of the children `cs`.
`child` is `load_file_with_include( ..., level + 1 )` (line 266), `file` the argument `filename`.
Line 268, 276, 282: `included_props` is a local object, so its children are copied. -/
def resolveKids (env : IncludeEnv) (child : Str → Res PN) (file : Str) :
    Nat → Nat → List (Str × PN) → Res (List (Str × PN))
  | 0, _, _ => .diverges
  | fuel + 1, i, cs => match cs[i]? with
    | none => .ok cs
    | some (k, n) =>
      if k = env.directive then do
        let parent ← parentPath file
        let name ← getKeyed (fun c => .ok c.value) b!"file" n
        let mergeChildren ← getDef (fun c => .ok (env.asBool c.value)) b!"merge_children" false n
        let props ← child (join parent name.1)
        match props.children with
        | [(k', root)] =>
          let cs := cs.eraseIdx i
          if mergeChildren.1 then resolveKids env child file fuel 0 (mergeLoop false cs root.children)
          else resolveKids env child file fuel i (cs.take i ++ clearAll [(k', root)] ++ cs.drop i)
        | _ => .throws .flutError
      else do
        let cs' ← resolveKids env child file fuel 0 n.children
        resolveKids env child file fuel (i + 1) (cs.set i (k, .mk n.acc n.value cs'))

/-- `load_file_with_include`, /repo/flut/prop_node_tools.cpp:294-303, where `remaining` is `100 - level` (and 0 if
`level` is 100 or more). -/
def loadWithInclude (env : IncludeEnv) (fuel : Nat) : Nat → Str → Res PN
  | 0, _ => .throws .flutError
  | remaining + 1, file => do
    let n ← env.load file
    let cs ← resolveKids env (loadWithInclude env fuel remaining) file fuel 0 n.children
    .ok (clear (.mk n.acc n.value cs))

end PN

end Flut
