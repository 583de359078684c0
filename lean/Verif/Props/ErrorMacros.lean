import Verif.Model.ErrorMacros

/-!
# C169: errors in builds with and without exceptions

A call is a program for each of the two builds, with exceptions (`true`) and without (`false`).
-/

namespace Flut

namespace Macro

variable {α : Type}

/-- With exceptions, the call shows nothing and ends as described by the outcome. -/
def AsDescribed (call : Bool → List (Stmt α)) (r : Res α) : Prop := run (call true) = ([], some (End.of r))

/-- Without exceptions, a call that would have thrown shows its message and ends the program. -/
def ExitsOnError (call : Bool → List (Stmt α)) (message : Str) (r : Res α) : Prop :=
  r = .throws .flutError → run (call false) = ([message], some .exited)

/-- Without exceptions, a call that has nothing to complain about returns the same, and shows nothing. -/
def StillReturns (call : Bool → List (Stmt α)) (r : Res α) : Prop :=
  ∀ x, r = .ok x → run (call false) = ([], some (.returned (.ok x)))

/-- Without exceptions, a call that has nothing to complain about ends the program without a word. -/
def ExitsAnyway (call : Bool → List (Stmt α)) (r : Res α) : Prop :=
  ∀ x, r = .ok x → run (call false) = ([], some .exited)

/-- A call cannot do both. -/
theorem not_stillReturns {call : Bool → List (Stmt α)} {r : Res α} {x : α} (hr : r = .ok x) (h : ExitsAnyway call r) :
    ¬ StillReturns call r := by
  intro hs
  have := (hs x hr).symm.trans (h x hr)
  simp at this

/-- A check by `flut_error_if` before a `return`. -/
theorem run_check (exc c : Bool) (message : Str) (r : Res α) :
    run (errorIf exc c message ++ [.ret r]) =
      match exc, c with
      | true, true => ([], some (.thrown .flutError))
      | true, false => ([], some (End.of r))
      | false, true => ([message], some .exited)
      | false, false => ([], some .exited) := by
  cases exc <;> cases c <;> simp [errorIf, exception, run, Stmt.run]

/-- The three facts about a call with such a check. -/
theorem check_facts (call : Bool → List (Stmt α)) (c : Bool) (message : Str) (r r' : Res α)
    (hcall : ∀ exc, call exc = errorIf exc c message ++ [.ret r'])
    (hr : r = if c then .throws .flutError else r') (hr' : c = false → r' ≠ .throws .flutError) :
    AsDescribed call r ∧ ExitsOnError call message r ∧ ExitsAnyway call r := by
  unfold AsDescribed ExitsOnError ExitsAnyway
  rw [hcall, hcall, run_check, run_check, hr]
  cases c
  · refine ⟨by simp, fun h => absurd (by simpa using h) (hr' rfl), by simp⟩
  · exact ⟨by simp [End.of], by simp, by simp⟩

theorem mapAt_facts {K V : Type} [DecidableEq K] (toStr : K → Str) (key : K) (m : FlatMap K V) :
    AsDescribed (fun exc => mapAt exc toStr key m) (m.at' key) ∧
    ExitsOnError (fun exc => mapAt exc toStr key m) (b!"Could not find key: " ++ toStr key) (m.at' key) ∧
    ExitsAnyway (fun exc => mapAt exc toStr key m) (m.at' key) := by
  refine check_facts _ (m.find key).isNone _ _ _ (fun _ => rfl) ?_ ?_
  · unfold FlatMap.at'
    cases h : m.find key with
    | none => simp
    | some i => cases hi : m[i]? <;> simp [hi]
  · intro _
    split <;> simp

theorem dynAt_facts (h : Heap α) (a : DynArray) (n i : Nat) (hn : a.size = .ok n) :
    AsDescribed (fun exc => dynAt exc h a n i) (a.get' h i) ∧
    ExitsOnError (fun exc => dynAt exc h a n i) b!"dynarray index out of bounds" (a.get' h i) ∧
    ExitsAnyway (fun exc => dynAt exc h a n i) (a.get' h i) := by
  refine check_facts _ (decide (i ≥ n)) _ _ _ (fun _ => rfl) ?_ ?_
  · unfold DynArray.get'
    rw [hn]
    simp
  · intro _
    unfold DynArray.get
    repeat' split
    all_goals simp

theorem child_facts (key : Str) (n : PN) :
    AsDescribed (fun exc => child exc key n) (n.getChild key) ∧
    ExitsOnError (fun exc => child exc key n) (b!"Could not find key: " ++ key) (n.getChild key) ∧
    ExitsAnyway (fun exc => child exc key n) (n.getChild key) := by
  obtain ⟨f, v, cs⟩ := n
  refine check_facts _ (PN.findIdx key cs).isNone _ _ _ (fun _ => rfl) ?_ ?_
  · unfold PN.getChild
    cases h : PN.findIdx key cs <;> simp [h]
  · intro _
    split <;> simp

theorem create_facts {A T : Type} (name : Str) (args : A) (m : FlatMap Str (A → T)) :
    AsDescribed (fun exc => create exc name args m) (Factory.create name args m) ∧
    ExitsOnError (fun exc => create exc name args m) (b!"Unregistered type: " ++ name) (Factory.create name args m) ∧
    ExitsAnyway (fun exc => create exc name args m) (Factory.create name args m) := by
  refine check_facts _ (m.find name).isNone _ _ _ (fun _ => rfl) ?_ ?_
  · unfold Factory.create
    cases h : m.find name with
    | none => simp
    | some i => cases hi : m[i]? <;> simp [hi]
  · intro _
    split <;> simp

theorem elem_eq {T : Type} [DecidableEq T] (str : Str) (data : List (T × Str)) :
    Dictionary.elem str data = match data.find? fun p => decide (str = p.2) with | some p => .ok p.1 | none => .throws .flutError := by
  induction data with
  | nil => rfl
  | cons p r ih => by_cases h : str = p.2 <;> simp [Dictionary.elem, h, ih]

theorem name_eq {T : Type} [DecidableEq T] (e : T) (data : List (T × Str)) :
    Dictionary.name e data = match data.find? fun p => decide (e = p.1) with | some p => .ok p.2 | none => .throws .flutError := by
  induction data with
  | nil => rfl
  | cons p r ih => by_cases h : e = p.1 <;> simp [Dictionary.name, h, ih]

theorem dictElem_facts {T : Type} [DecidableEq T] (str : Str) (data : List (T × Str)) :
    AsDescribed (fun exc => dictElem exc str data) (Dictionary.elem str data) ∧
    ExitsOnError (fun exc => dictElem exc str data) (b!"Could not find element with name " ++ str) (Dictionary.elem str data) ∧
    ExitsAnyway (fun exc => dictElem exc str data) (Dictionary.elem str data) := by
  refine check_facts _ (data.find? fun p => decide (str = p.2)).isNone _ _ _ (fun _ => rfl) ?_ ?_
  · rw [elem_eq]
    cases h : data.find? fun p => decide (str = p.2) <;> simp
  · intro _
    split <;> simp

theorem dictName_facts {T : Type} [DecidableEq T] (toStr : T → Str) (e : T) (data : List (T × Str)) :
    AsDescribed (fun exc => dictName exc toStr e data) (Dictionary.name e data) ∧
    ExitsOnError (fun exc => dictName exc toStr e data) (b!"Could not find element " ++ toStr e) (Dictionary.name e data) ∧
    ExitsAnyway (fun exc => dictName exc toStr e data) (Dictionary.name e data) := by
  refine check_facts _ (data.find? fun p => decide (e = p.1)).isNone _ _ _ (fun _ => rfl) ?_ ?_
  · rw [name_eq]
    cases h : data.find? fun p => decide (e = p.1) <;> simp
  · intro _
    split <;> simp

/-- C169, with exceptions: the checks are the ones of the other models. -/
theorem C169_with_exceptions :
    (∀ (K V : Type) [DecidableEq K] (toStr : K → Str) (key : K) (m : FlatMap K V),
      AsDescribed (fun exc => mapAt exc toStr key m) (m.at' key)) ∧
    (∀ (α : Type) (h : Heap α) (a : DynArray) (n i : Nat), a.size = .ok n →
      AsDescribed (fun exc => dynAt exc h a n i) (a.get' h i)) ∧
    (∀ (key : Str) (n : PN), AsDescribed (fun exc => child exc key n) (n.getChild key)) ∧
    (∀ (A T : Type) (name : Str) (args : A) (m : FlatMap Str (A → T)),
      AsDescribed (fun exc => create exc name args m) (Factory.create name args m)) ∧
    (∀ (T : Type) [DecidableEq T] (toStr : T → Str) (str : Str) (e : T) (data : List (T × Str)),
      AsDescribed (fun exc => dictElem exc str data) (Dictionary.elem str data) ∧
      AsDescribed (fun exc => dictName exc toStr e data) (Dictionary.name e data)) :=
  ⟨fun _ _ _ t k m => (mapAt_facts t k m).1, fun _ h a n i hn => (dynAt_facts h a n i hn).1, fun k n => (child_facts k n).1,
    fun _ _ s x m => (create_facts s x m).1, fun _ _ t s e d => ⟨(dictElem_facts s d).1, (dictName_facts t e d).1⟩⟩

example : run (mapAt true id b!"b" [(b!"a", 1), (b!"b", 2)]) = ([], some (.returned (.ok 2))) := by decide

/-- C169, without exceptions: where a call would have thrown, the message is shown and the program ends. -/
theorem C169_fails :
    (∀ (K V : Type) [DecidableEq K] (toStr : K → Str) (key : K) (m : FlatMap K V),
      ExitsOnError (fun exc => mapAt exc toStr key m) (b!"Could not find key: " ++ toStr key) (m.at' key)) ∧
    (∀ (α : Type) (h : Heap α) (a : DynArray) (n i : Nat), a.size = .ok n →
      ExitsOnError (fun exc => dynAt exc h a n i) b!"dynarray index out of bounds" (a.get' h i)) ∧
    (∀ (key : Str) (n : PN), ExitsOnError (fun exc => child exc key n) (b!"Could not find key: " ++ key) (n.getChild key)) ∧
    (∀ (A T : Type) (name : Str) (args : A) (m : FlatMap Str (A → T)),
      ExitsOnError (fun exc => create exc name args m) (b!"Unregistered type: " ++ name) (Factory.create name args m)) ∧
    (∀ (T : Type) [DecidableEq T] (toStr : T → Str) (str : Str) (e : T) (data : List (T × Str)),
      ExitsOnError (fun exc => dictElem exc str data) (b!"Could not find element with name " ++ str) (Dictionary.elem str data) ∧
      ExitsOnError (fun exc => dictName exc toStr e data) (b!"Could not find element " ++ toStr e) (Dictionary.name e data)) :=
  ⟨fun _ _ _ t k m => (mapAt_facts t k m).2.1, fun _ h a n i hn => (dynAt_facts h a n i hn).2.1, fun k n => (child_facts k n).2.1,
    fun _ _ s x m => (create_facts s x m).2.1, fun _ _ t s e d => ⟨(dictElem_facts s d).2.1, (dictName_facts t e d).2.1⟩⟩

example : FlatMap.at' b!"c" [(b!"a", 1), (b!"b", 2)] = .throws .flutError ∧
    run (mapAt false id b!"c" [(b!"a", 1), (b!"b", 2)]) = ([b!"Could not find key: c"], some .exited) := by decide

/-- C169 is false of these calls where nothing is wrong: the `exit` behind the message is not under the condition. -/
theorem C169_exits_refuted :
    (∀ (K V : Type) [DecidableEq K] (toStr : K → Str) (key : K) (m : FlatMap K V),
      ExitsAnyway (fun exc => mapAt exc toStr key m) (m.at' key)) ∧
    (∀ (α : Type) (h : Heap α) (a : DynArray) (n i : Nat), a.size = .ok n →
      ExitsAnyway (fun exc => dynAt exc h a n i) (a.get' h i)) ∧
    (∀ (key : Str) (n : PN), ExitsAnyway (fun exc => child exc key n) (n.getChild key)) ∧
    (∀ (A T : Type) (name : Str) (args : A) (m : FlatMap Str (A → T)),
      ExitsAnyway (fun exc => create exc name args m) (Factory.create name args m)) ∧
    (∀ (T : Type) [DecidableEq T] (toStr : T → Str) (str : Str) (e : T) (data : List (T × Str)),
      ExitsAnyway (fun exc => dictElem exc str data) (Dictionary.elem str data) ∧
      ExitsAnyway (fun exc => dictName exc toStr e data) (Dictionary.name e data)) :=
  ⟨fun _ _ _ t k m => (mapAt_facts t k m).2.2, fun _ h a n i hn => (dynAt_facts h a n i hn).2.2, fun k n => (child_facts k n).2.2,
    fun _ _ s x m => (create_facts s x m).2.2, fun _ _ t s e d => ⟨(dictElem_facts s d).2.2, (dictName_facts t e d).2.2⟩⟩

/-- The property itself is false: a key that is there cannot be looked up. -/
theorem C169_refuted : ¬ ∀ (key : Str) (m : FlatMap Str Nat), StillReturns (fun exc => mapAt exc id key m) (m.at' key) := fun h =>
  not_stillReturns (x := 1) (by decide) (C169_exits_refuted.1 Str Nat id b!"a" [(b!"a", 1)]) (h b!"a" [(b!"a", 1)])

/-- `bounds` from a `prop_node`: with exceptions as in the model of bounds; without, every reading that succeeds ends the program without a
word, and a node without value and children does so with the message. -/
theorem C169_bounds_refuted (ofStr : Str → Res α) (lowest max : α) (n : PN) :
    AsDescribed (fun exc => boundsOf exc ofStr lowest max n) (Bounds.ofNode ofStr lowest max n) ∧
    ExitsAnyway (fun exc => boundsOf exc ofStr lowest max n) (Bounds.ofNode ofStr lowest max n) ∧
    (n.hasValue = false → n.size = 0 →
      run (boundsOf false ofStr lowest max n) = ([b!"Cannot read bounds from prop_node"], some .exited)) := by
  refine ⟨?_, ?_, ?_⟩
  · unfold AsDescribed boundsOf
    by_cases hc : (n.hasValue || decide (n.size > 0)) = true
    · cases hr : Bounds.ofNode ofStr lowest max n <;> simp [elseError, exception, run, Stmt.run, hc, Res.isOk]
    · have hr : Bounds.ofNode ofStr lowest max n = .throws .flutError := by
        simp only [Bool.or_eq_true, decide_eq_true_eq, not_or] at hc
        unfold Bounds.ofNode
        rw [if_neg hc.1, if_neg hc.2]
      simp [elseError, exception, run, Stmt.run, hc, hr, End.of]
  · intro x hr
    have hc : (n.hasValue || decide (n.size > 0)) = true := by
      by_contra hc
      simp only [Bool.or_eq_true, decide_eq_true_eq, not_or] at hc
      unfold Bounds.ofNode at hr
      rw [if_neg hc.1, if_neg hc.2] at hr
      cases hr
    simp [boundsOf, elseError, exception, run, Stmt.run, hc, hr, Res.isOk]
  · intro h1 h2
    simp [boundsOf, elseError, exception, run, Stmt.run, h1, h2]

example : run (boundsOf false (fun s => .ok s) [] [] (.mk false b!"1..2" [])) = ([], some .exited) := by decide +kernel

theorem run_lookup {T : Type} (exc : Bool) (value : Str) (table : List (Str × T)) :
    run (lookup exc value table) =
      match Dictionary.lookup value table with
      | .ok t => ([], some (.returned (.ok t)))
      | _ => if exc then ([], some (.thrown .flutError)) else ([b!"Could not find " ++ value], some .exited) := by
  induction table with
  | nil => cases exc <;> simp [lookup, Dictionary.lookup, exception, run, Stmt.run]
  | cons e r ih =>
    unfold lookup at ih ⊢
    by_cases h : value = e.1
    · simp [Dictionary.lookup, h, run, Stmt.run, End.of]
    · simp only [List.map_cons, List.cons_append, run, Stmt.run, Dictionary.lookup, h, decide_false, Bool.false_eq_true, if_false,
        List.nil_append]
      exact ih

theorem lookup_cases {T : Type} (value : Str) (table : List (Str × T)) :
    (∃ t, Dictionary.lookup value table = .ok t) ∨ Dictionary.lookup value table = .throws .flutError := by
  induction table with
  | nil => exact .inr rfl
  | cons e r ih =>
    by_cases h : value = e.1
    · exact .inl ⟨e.2, by simp [Dictionary.lookup, h]⟩
    · simpa [Dictionary.lookup, h] using ih

/-- C169 holds of `lookup`, whose error is not under a condition, and of `load_string`, whose error is between braces. -/
theorem C169_partial :
    (∀ (T : Type) (value : Str) (table : List (Str × T)),
      AsDescribed (fun exc => lookup exc value table) (Dictionary.lookup value table) ∧
      ExitsOnError (fun exc => lookup exc value table) (b!"Could not find " ++ value) (Dictionary.lookup value table) ∧
      StillReturns (fun exc => lookup exc value table) (Dictionary.lookup value table)) ∧
    (∀ (fs : Fs) (p : Str) (ec : Option Fs.ErrorCode),
      AsDescribed (fun exc => loadString exc fs p ec.isSome) (fs.loadString p ec).1 ∧
      ExitsOnError (fun exc => loadString exc fs p ec.isSome) (b!"Could not open " ++ p) (fs.loadString p ec).1 ∧
      StillReturns (fun exc => loadString exc fs p ec.isSome) (fs.loadString p ec).1) := by
  refine ⟨fun T value table => ?_, fun fs p ec => ?_⟩
  · unfold AsDescribed ExitsOnError StillReturns
    simp only [run_lookup]
    rcases lookup_cases value table with ⟨t, h⟩ | h <;> simp [h, End.of]
  · unfold AsDescribed ExitsOnError StillReturns loadString Fs.loadString
    cases fs.openRead p <;> cases ec <;> simp [elseError, exception, run, Stmt.run, End.of]

example : run (lookup false b!"b" [(b!"a", 1), (b!"b", 2)]) = ([], some (.returned (.ok 2))) ∧
    run (lookup false b!"c" [(b!"a", 1), (b!"b", 2)]) = ([b!"Could not find c"], some .exited) := by decide

end Macro

end Flut
