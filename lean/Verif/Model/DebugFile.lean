import Verif.Model.DataText
import Verif.Model.FileSystem
import Verif.Model.StreamReal

/-! # The file of `write_debug`: `flut/system/debug_storage.cpp` -/

namespace Flut

open Stream

/-- `constantsf::sentinel()` (flut/math/math.hpp:22): `float` is signed, so it is the lowest number. -/
def debugSentinel : Flt := .fin true Fmt.single.maxVal

/-- The calls a program can make (flut/system/debug_storage.hpp:8-9). -/
inductive DebugCall
  | output (filename : Str)
  | write (label : Str) (value : Flt)
deriving DecidableEq

/-- `auto_storage_writer< float, string >` (flut/system/debug_storage.cpp:23-24). -/
structure DebugWriter where
  filename : Str
  storage : Storage Flt Str
deriving DecidableEq

/-- `g_debug_storage_writer` (flut/system/debug_storage.cpp:27, :11) before the first call. -/
def debugStart : DebugWriter := ⟨b!"debug.txt", Storage.new [] 0 0 (.fin false 0)⟩

/-- `set_debug_output` and `write_debug` (flut/system/debug_storage.cpp:29-37). Values are compared with the sentinel only, which is neither
zero nor a value that is not a number, so that equality is that of `float`. -/
def debugCall (c : DebugCall) (w : DebugWriter) : Res DebugWriter :=
  match c with
  | .output p => .ok { w with filename := p }
  | .write l v => do
    let s ← debugWrite [] debugSentinel l v w.storage
    .ok { w with storage := s }

/-- A sequence of calls. -/
def debugCalls : List DebugCall → DebugWriter → Res DebugWriter
  | [], w => .ok w
  | c :: cs, w => do
    let w ← debugCall c w
    debugCalls cs w

/-- The destructor, which runs when the program ends (flut/system/debug_storage.cpp:12-15). Writing to a stream that did not open is
ignored. -/
def debugExit (fs : Fs) (w : DebugWriter) : Res Fs :=
  if w.storage.empty then .ok fs
  else
    match fs.openWrite w.filename with
    | none => .ok fs
    | some (l, fs) => do
      let t ← w.storage.text id realText
      .ok (fs.put l (.file t))

end Flut
