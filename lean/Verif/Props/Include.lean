import Verif.Proofs.Include
import Verif.Props.PropText

/-!
# C26: include resolution

Specifications are in `Spec/Include.lean`. `loadWithInclude env fuel (100 - level) file` models
`load_file_with_include( file, directive, level )`; `fuel` bounds the number of iterations of the loops.
-/

namespace Flut

open Spec PN

/-- Whatever the files contain, cyclic includes and all, loading ends, provided that loading each single file does: from
some number of iterations on the outcome is always the same and is not running out of iterations. -/
theorem C26_terminates (env : IncludeEnv) (hl : ∀ f, env.load f ≠ .diverges) (levels : Nat) (file : Str) :
    ∃ N x, x ≠ .diverges ∧ ∀ fuel, N ≤ fuel → loadWithInclude env fuel levels file = x :=
  loadWithInclude_settles env hl levels file

/-- Instance: a file system of prop files (a missing file makes `load_string` throw) whose texts are 7-bit and do not
end in a backslash (the condition of C16). -/
theorem C26_terminates_prop (fs : Str → Option Str) (asBool : Str → Bool) (directive : Str)
    (h : ∀ f s, fs f = some s → (∀ c ∈ cstr s, c.toNat < 128) ∧ (cstr s).getLast? ≠ some 92) (levels : Nat) (file : Str) :
    ∃ N x, x ≠ .diverges ∧ ∀ fuel, N ≤ fuel → loadWithInclude
      ⟨fun f => match fs f with | none => .throws .flutError | some s => parseProp s, asBool, directive⟩
      fuel levels file = x := by
  refine C26_terminates _ (fun f => ?_) levels file
  simp only
  cases hf : fs f with
  | none => simp
  | some s => rcases C16_total s (h f s hf).1 (h f s hf).2 with ⟨n, hn⟩ | hn <;> simp [hn]

/-- If it returns, no node of the result has the directive as its key, at any depth, and no access flag is set. -/
theorem C26_no_directive (env : IncludeEnv) (fuel levels : Nat) (file : Str) (t : PN)
    (h : loadWithInclude env fuel levels file = .ok t) :
    NoDirective env.directive t ∧ ∀ b ∈ flags t, b = false := by
  have := loadWithInclude_good env fuel levels file t h
  refine ⟨this.1, fun b hb => ?_⟩
  rw [← this.2, flags_clear] at hb
  obtain ⟨_, _, rfl⟩ := List.mem_map.1 hb
  rfl

/-- It never returns when there is a chain of as many includes as there are levels. -/
theorem C26_chain (env : IncludeEnv) (fuel levels : Nat) (file : Str)
    (h : IncludeChain env.load env.directive levels file) (t : PN) : loadWithInclude env fuel levels file ≠ .ok t :=
  fun ht => loadWithInclude_chain env fuel levels file t ht h

/-- In particular it never returns for a file that includes itself, and at level 100 or more it throws. -/
theorem C26_cycle (env : IncludeEnv) (file : Str) (t0 d : PN) (hl : env.load file = .ok t0)
    (hd : HasDirective env.directive t0 d) (hn : Names file d file) (fuel levels : Nat) (t : PN) :
    loadWithInclude env fuel levels file ≠ .ok t ∧ loadWithInclude env fuel 0 file = .throws .flutError := by
  refine ⟨C26_chain env fuel levels file ?_ t, rfl⟩
  induction levels with
  | zero => exact .zero
  | succ n ih => exact .succ hl hd hn ih

/-- It returns exactly the document in which every directive is replaced by the included content. -/
theorem C26_expansion (env : IncludeEnv) (levels : Nat) (file : Str) (t : PN) :
    (∃ fuel, loadWithInclude env fuel levels file = .ok t) ↔
      ExpandedFile env.load env.asBool env.directive levels file t := by
  constructor
  · rintro ⟨fuel, h⟩
    exact loadWithInclude_expanded env fuel levels file t h
  · intro h
    obtain ⟨N, hN⟩ := expanded_computed env levels file t h
    exact ⟨N, hN N (Nat.le_refl _)⟩

/-! A file system with an insertion, a merge and a cycle. -/

private def demoLoad (f : Str) : Res PN :=
  if f = b!"d/main" then .ok (.mk false [] [(b!"top", .mk false [] [
    (b!"INCLUDE", .mk false [] [(b!"file", leaf b!"sub")]), (b!"x", leaf b!"1"),
    (b!"INCLUDE", .mk false [] [(b!"file", leaf b!"sub"), (b!"merge_children", leaf b!"1")])])])
  else if f = b!"d/sub" then .ok (.mk false [] [(b!"inner", .mk false [] [(b!"x", leaf b!"2"), (b!"y", leaf b!"3")])])
  else if f = b!"d/loop" then .ok (.mk false [] [(b!"INCLUDE", .mk false [] [(b!"file", leaf b!"loop")])])
  else .throws .flutError

private def demoEnv : IncludeEnv := ⟨demoLoad, fun s => decide (s = b!"1"), b!"INCLUDE"⟩

example : (loadWithInclude demoEnv 20 100 b!"d/main").map (eqv (.mk false [] [(b!"top", .mk false [] [
    (b!"inner", .mk false [] [(b!"x", leaf b!"2"), (b!"y", leaf b!"3")]), (b!"x", leaf b!"1"), (b!"y", leaf b!"3")])]))
    = .ok true := by decide +kernel
example : ∀ f, demoEnv.load f ≠ .diverges := by
  intro f
  simp only [demoEnv, demoLoad]
  repeat' split
  all_goals simp
example : HasDirective b!"INCLUDE" (.mk false [] [(b!"INCLUDE", .mk false [] [(b!"file", leaf b!"loop")])])
    (.mk false [] [(b!"file", leaf b!"loop")]) ∧ Names b!"d/loop" (.mk false [] [(b!"file", leaf b!"loop")]) b!"d/loop" :=
  ⟨.here (by simp), b!"d", leaf b!"loop", by decide, rfl, by decide⟩

end Flut
