import Verif.Model.TypeName
import Verif.Spec.TypeName
import Verif.Proofs.StringLemmas
import Verif.Props.Containers

/-! # Property theorems: the names of types, and classes that are registered under them (C161) -/

namespace Flut

open Spec

/-- C161. What is returned is what comes after the last colon or space. -/
theorem C161_last (demangle : Str → Option Str) (raw str : Str) (h : demangle raw = some str) : ∃ pre r, cleanTypeName demangle raw = .ok r ∧ str = pre ++ r ∧
    Unqualified r ∧ (pre = [] ∨ ∃ p c, pre = p ++ [c] ∧ (c = c!":" ∨ c = c!" ")) := by
  unfold cleanTypeName
  rw [h]
  dsimp only
  cases hf : findLast (fun c => c == 58 || c == 32) str with
  | none =>
    rw [findLast_eq_none] at hf
    refine ⟨[], str, rfl, rfl, ?_, .inl rfl⟩
    intro c hc
    have := hf c hc
    simpa using this
  | some i =>
    obtain ⟨p, c, post, rfl, rfl, hc, hpost⟩ := findLast_eq_some.1 hf
    refine ⟨p ++ [c], post, ?_, by simp, ?_, .inr ⟨p, c, rfl, ?_⟩⟩
    · have := substr_append (pre := p ++ [c]) (post := post)
      simpa using this
    · intro d hd
      have := hpost d hd
      simpa using this
    · simpa using hc

theorem unqualified_split {pre pre' r r' : Str} (h : pre ++ r = pre' ++ r') (h1 : Unqualified r) (h1' : Unqualified r')
    (h2 : pre = [] ∨ ∃ p c, pre = p ++ [c] ∧ (c = c!":" ∨ c = c!" ")) (h2' : pre' = [] ∨ ∃ p c, pre' = p ++ [c] ∧ (c = c!":" ∨ c = c!" ")) : r = r' := by
  have key : ∀ {pre pre' r r' : Str}, pre ++ r = pre' ++ r' → Unqualified r → (pre' = [] ∨ ∃ p c, pre' = p ++ [c] ∧ (c = c!":" ∨ c = c!" ")) →
      pre.length < pre'.length → False := by
    intro pre pre' r r' h h1 h2 hlt
    rcases h2 with rfl | ⟨p, c, rfl, hc⟩
    · simp at hlt
    · have hm : c ∈ r := by
        rw [List.append_assoc] at h
        rcases List.append_eq_append_iff.1 h with ⟨a, ha, hb⟩ | ⟨a, ha, hb⟩
        · rw [hb]; simp
        · rw [ha] at hlt
          have : a = [] := by simpa using hlt
          subst this
          simp at hb
          rw [← hb]; simp
      rcases hc with rfl | rfl
      · exact (h1 _ hm).1 rfl
      · exact (h1 _ hm).2 rfl
  rcases Nat.lt_trichotomy pre.length pre'.length with hl | hl | hl
  · exact (key h h1 h2' hl).elim
  · exact (List.append_inj h hl).2
  · exact (key h.symm h1' h2 hl).elim

/-- C161. Of a class in any namespaces it is the name without them. -/
theorem C161_name (demangle : Str → Option Str) (raw : Str) (ns : List Str) (id : Str) (h : demangle raw = some (qualified ns id)) (hid : Unqualified id) :
    cleanTypeName demangle raw = .ok id := by
  obtain ⟨pre, r, h1, h2, h3, h4⟩ := C161_last demangle raw _ h
  rw [h1]
  congr 1
  refine unqualified_split (pre := pre) (pre' := (ns.map fun n => n ++ b!"::").flatten) h2.symm h3 hid h4 ?_
  rcases List.eq_nil_or_concat ns with rfl | ⟨l, n, rfl⟩
  · exact .inl rfl
  · refine .inr ⟨(l.map fun n => n ++ b!"::").flatten ++ n ++ b!":", c!":", ?_, .inl rfl⟩
    simp

/-- C161. After classes have been registered without a name, the name of a class makes an object of the class of that name that was registered last,
in whatever namespaces they are. -/
theorem C161_register {A T : Type} (demangle : Str → Option Str) (cs : List (Class A T)) (hd : ∀ c ∈ cs, demangle c.raw = some (qualified c.ns c.id))
    (hu : ∀ c ∈ cs, Unqualified c.id) : ∃ m, Factory.registerClasses demangle (cs.map fun c => (c.raw, c.make)) [] = .ok m ∧ ∀ name args,
      Factory.create name args m = match (cs.filter fun c => c.id = name).getLast? with
        | some c => .ok (c.make args)
        | none => .throws .flutError := by
  have key : ∀ (cs : List (Class A T)) (m : FlatMap Str (A → T)), (∀ c ∈ cs, demangle c.raw = some (qualified c.ns c.id)) → (∀ c ∈ cs, Unqualified c.id) →
      Factory.registerClasses demangle (cs.map fun c => (c.raw, c.make)) m = .ok ((cs.map fun c => (c.id, c.make)).foldl (fun m r => Factory.register r.1 r.2 m) m) := by
    intro cs
    induction cs with
    | nil => intro m _ _; rfl
    | cons c cs ih =>
      intro m hd hu
      simp only [List.map_cons, Factory.registerClasses, Factory.registerClass]
      rw [C161_name demangle c.raw c.ns c.id (hd c (by simp)) (hu c (by simp)), Res.bind_ok, Res.bind_ok,
        ih _ (fun c hc => hd c (by simp [hc])) fun c hc => hu c (by simp [hc])]
      rfl
  refine ⟨_, key cs [] hd hu, ?_⟩
  intro name args
  have h := (C31_factory (cs.map fun c => (c.id, c.make)) name args).1
  rw [show (cs.map fun c => (c.id, c.make)).foldl (fun m r => Factory.register r.1 r.2 m) [] = Factory.registerAll (cs.map fun c => (c.id, c.make)) from rfl]
  rw [h]
  unfold lastRegistered
  rw [List.filter_map, List.getLast?_map, Option.map_map]
  have e : ((fun r : Str × (A → T) => decide (r.1 = name)) ∘ fun c : Class A T => (c.id, c.make)) = fun c => decide (c.id = name) := rfl
  rw [e]
  cases (cs.filter fun c => c.id = name).getLast? <;> rfl

/-- C161. If no two of them have the same name, apart from the namespaces, each one can be made. -/
theorem C161_distinct {A T : Type} (demangle : Str → Option Str) (cs : List (Class A T)) (hd : ∀ c ∈ cs, demangle c.raw = some (qualified c.ns c.id))
    (hu : ∀ c ∈ cs, Unqualified c.id) (hne : cs.Pairwise fun a b => a.id ≠ b.id) :
    ∃ m, Factory.registerClasses demangle (cs.map fun c => (c.raw, c.make)) [] = .ok m ∧ ∀ c ∈ cs, ∀ args, Factory.create c.id args m = .ok (c.make args) := by
  obtain ⟨m, h1, h2⟩ := C161_register demangle cs hd hu
  refine ⟨m, h1, fun c hc args => ?_⟩
  have : cs.filter (fun x => x.id = c.id) = [c] := by
    clear h1 h2 hd hu
    induction cs with
    | nil => simp at hc
    | cons a cs ih =>
      rw [List.pairwise_cons] at hne
      rcases List.mem_cons.1 hc with rfl | hc
      · rw [List.filter_cons_of_pos (by simp)]
        have : cs.filter (fun x => x.id = c.id) = [] := by
          rw [List.filter_eq_nil_iff]
          intro x hx
          simpa using (hne.1 x hx).symm
        rw [this]
      · rw [List.filter_cons_of_neg (by simpa using hne.1 c hc)]
        exact ih hne.2 hc
  rw [h2, this]
  rfl

/-- C161 fails for classes of the same name in different namespaces: there is no name under which the first can be made. -/
theorem C161_namespaces_refuted : ∃ demangle : Str → Option Str, demangle b!"N1a6widgetE" = some (qualified [b!"a"] b!"widget") ∧
    demangle b!"N1b6widgetE" = some (qualified [b!"b"] b!"widget") ∧
    ∃ m, Factory.registerClasses demangle [(b!"N1a6widgetE", fun _ : Unit => 1), (b!"N1b6widgetE", fun _ : Unit => 2)] [] = .ok m ∧
      ∀ name, Factory.create name () m ≠ .ok 1 := by
  refine ⟨fun s => if s = b!"N1a6widgetE" then some (qualified [b!"a"] b!"widget") else if s = b!"N1b6widgetE" then some (qualified [b!"b"] b!"widget") else none,
    by decide, by decide, _, rfl, ?_⟩
  intro name h
  change Factory.create name () [(b!"widget", fun _ : Unit => 2)] = _ at h
  by_cases hn : b!"widget" = name
  · subst hn
    exact absurd h (by decide)
  · have e : Factory.create name () [(b!"widget", fun _ : Unit => 2)] = .throws .flutError := by
      simp [Factory.create, FlatMap.find, hn]
    rw [e] at h
    cases h

/-- C161 fails for classes made from templates: what is returned is part of an argument of the template. -/
theorem C161_template_refuted : ∃ demangle : Str → Option Str, demangle b!"St6vectorIiSaIiEE" = some b!"std::vector<int, std::allocator<int> >" ∧
    demangle b!"5rangeIN1a3keyEE" = some b!"range<a::key>" ∧ cleanTypeName demangle b!"St6vectorIiSaIiEE" = .ok b!">" ∧
    cleanTypeName demangle b!"5rangeIN1a3keyEE" = .ok b!"key>" :=
  ⟨fun s => if s = b!"St6vectorIiSaIiEE" then some b!"std::vector<int, std::allocator<int> >" else if s = b!"5rangeIN1a3keyEE" then some b!"range<a::key>" else none,
    by decide, by decide, by decide, by decide⟩

/-- C161. Text that is not the name the compiler gives to a type has no name: what happens is undefined. -/
theorem C161_text (demangle : Str → Option Str) (name : Str) : cleanTypeName demangle name = .ub ↔ demangle name = none := by
  constructor
  · intro h
    cases hd : demangle name with
    | none => rfl
    | some s =>
      obtain ⟨_, r, h1, -⟩ := C161_last demangle name s hd
      rw [h1] at h
      cases h
  · intro h
    unfold cleanTypeName
    rw [h]

/-- Two classes with different names in the same namespace. -/
example : ∃ demangle : Str → Option Str, let cs : List (Class Unit Nat) := [⟨b!"N1a3boxE", [b!"a"], b!"box", fun _ => 1⟩, ⟨b!"N1a3capE", [b!"a"], b!"cap", fun _ => 2⟩]
    (∀ c ∈ cs, demangle c.raw = some (qualified c.ns c.id)) ∧ (∀ c ∈ cs, Unqualified c.id) ∧ cs.Pairwise fun a b => a.id ≠ b.id := by
  refine ⟨fun s => if s = b!"N1a3boxE" then some b!"a::box" else some b!"a::cap", ?_, ?_, ?_⟩
  · intro c hc
    simp at hc
    rcases hc with rfl | rfl <;> decide
  · unfold Unqualified
    intro c hc
    simp at hc
    rcases hc with rfl | rfl <;> decide
  · simp

/-- A class within two namespaces. -/
example : cleanTypeName (fun _ => some (qualified [b!"flut", b!"math"] b!"vec3_<double>")) b!"N4flut4math5vec3_IdEE" = .ok b!"vec3_<double>" ∧
    Unqualified b!"vec3_<double>" ∧ qualified [b!"flut", b!"math"] b!"vec3_<double>" = b!"flut::math::vec3_<double>" := by
  refine ⟨by decide, ?_, by decide⟩
  unfold Unqualified
  decide

end Flut
