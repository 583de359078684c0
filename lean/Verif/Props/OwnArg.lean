import Verif.Model.OwnArg
import Verif.Props.Filter
import Verif.Props.DequeIter

/-!
# C166: objects that are given references to their own elements
-/

namespace Flut

/-! ### `iir_filter` -/

namespace Iir

variable {K : Type}

/-- Arguments that come from outside, or are the last input or the last output of the filter. -/
def Arg.Latest : Arg K → Prop
  | .value _ => True
  | .input i => i = 0
  | .output i => i = 0

theorem shiftLoop_zero (k : Nat) (v : Nat → K) : shiftLoop k v 0 = v 0 := by
  rw [shiftLoop_eq, if_neg (by omega)]

theorem read_shiftBoth (k : Nat) (f : Iir K) (r : Arg K) (h : r.Latest) : r.read (shiftBoth k f) = r.read f := by
  cases r with
  | value v => rfl
  | input i => cases h; exact shiftLoop_zero k f.x
  | output i => cases h; exact shiftLoop_zero k f.y

theorem stepRef_latest (sum : Iir K → K → K) (N : Nat) (f : Iir K) (r : Arg K) (h : r.Latest) :
    stepRef sum N f r = (sum f (r.read f), { f with x := setZero (shiftLoop (N - 1) f.x) (r.read f), y := setZero (shiftLoop (N - 1) f.y) (sum f (r.read f)) }) := by
  unfold stepRef
  dsimp only
  rw [read_shiftBoth _ _ _ h]
  rfl

theorem stepRef_exact [Field K] (N : Nat) (f : Iir K) (r : Arg K) (h : r.Latest) : stepRef (exactSum N) N f r = step N f (r.read f) :=
  stepRef_latest _ N f r h

theorem stepRef_float (m : Fmt) (N : Nat) (f : Iir Flt) (r : Arg Flt) (h : r.Latest) :
    stepRef (floatSum m N) N f r = FloatMath.iirStep m N f (r.read f) :=
  stepRef_latest _ N f r h

end Iir

open Iir in
/-- A filter can be given its last output, as in `f( f() )` and `f( f( x ) )`, and its last input, and outside values between them,
as often as one likes: it returns and remembers the same as a filter that is given copies of the values. -/
theorem C166_filter {K : Type} [Field K] (N : Nat) (rs : List (Iir.Arg K)) (vs : List K) (f : Iir K) (hr : ∀ r ∈ rs, r.Latest)
    (hv : vs.length = rs.length) (h : ∀ k (hk : k < rs.length), vs[k]? = some (rs[k].read (Iir.after N f (vs.take k)))) :
    Iir.runRef (Iir.exactSum N) N rs f = (Iir.run N f vs, Iir.after N f vs) := by
  induction rs generalizing vs f with
  | nil => cases vs with
    | nil => rfl
    | cons v vs => simp at hv
  | cons r rs ih => cases vs with
    | nil => simp at hv
    | cons v vs =>
      have h0 := h 0 (by simp)
      simp only [List.getElem?_cons_zero, List.getElem_cons_zero, List.take_zero, Iir.after, Option.some.injEq] at h0
      have e := stepRef_exact N f r (hr r (by simp))
      rw [← h0] at e
      have := ih vs (step N f v).2 (fun r hr' => hr r (by simp [hr'])) (by simpa using hv) (by
        intro k hk
        have := h (k + 1) (by simpa using hk)
        simpa [Iir.after] using this)
      simp only [runRef, e, this, Iir.run, Iir.after]

open Iir in
/-- The same for `float` and `double`, bit for bit. -/
theorem C166_filter_float (m : Fmt) (N : Nat) (rs : List (Iir.Arg Flt)) (vs : List Flt) (f : Iir Flt) (hr : ∀ r ∈ rs, r.Latest)
    (hv : vs.length = rs.length) (h : ∀ k (hk : k < rs.length), vs[k]? = some (rs[k].read (FloatMath.iirAfter m N f (vs.take k)))) :
    Iir.runRef (Iir.floatSum m N) N rs f = (FloatMath.iirRun m N f vs, FloatMath.iirAfter m N f vs) := by
  induction rs generalizing vs f with
  | nil => cases vs with
    | nil => rfl
    | cons v vs => simp at hv
  | cons r rs ih => cases vs with
    | nil => simp at hv
    | cons v vs =>
      have h0 := h 0 (by simp)
      simp only [List.getElem?_cons_zero, List.getElem_cons_zero, List.take_zero, FloatMath.iirAfter, Option.some.injEq] at h0
      have e := stepRef_float m N f r (hr r (by simp))
      rw [← h0] at e
      have := ih vs (FloatMath.iirStep m N f v).2 (fun r hr' => hr r (by simp [hr'])) (by simpa using hv) (by
        intro k hk
        have := h (k + 1) (by simpa using hk)
        simpa [FloatMath.iirAfter] using this)
      simp only [runRef, e, this, FloatMath.iirRun, FloatMath.iirAfter]

/-- A filter fed with its own output. -/
example : (Iir.runRef (Iir.exactSum 2) 2 [.value 1, .output 0, .output 0, .input 0] (Iir.new (2 : ℚ) (fun _ => 1) (fun _ => 1))).1 =
    Iir.run 2 (Iir.new (2 : ℚ) (fun _ => 1) (fun _ => 1)) [1, 2, 7, 7] := by
  rw [C166_filter 2 _ [1, 2, 7, 7] _ (by simp [Iir.Arg.Latest]) rfl (by decide +kernel)]

/-- An older output or input by reference is shifted before it is remembered: the value returned is right, but the filter remembers
the next newer value as its input. -/
theorem C166_filter_older {K : Type} (sum : Iir K → K → K) (N : Nat) (f : Iir K) (i : Nat) (hi : i + 1 < N) :
    ((Iir.stepRef sum N f (.output (i + 1))).1 = sum f (f.y (i + 1)) ∧ (Iir.stepRef sum N f (.output (i + 1))).2.x 0 = f.y i) ∧
    (Iir.stepRef sum N f (.input (i + 1))).1 = sum f (f.x (i + 1)) ∧ (Iir.stepRef sum N f (.input (i + 1))).2.x 0 = f.x i := by
  have e : ∀ v : Nat → K, Iir.shiftLoop (N - 1) v (i + 1) = v i := fun v => by
    rw [Iir.shiftLoop_eq, if_pos (by omega)]
    rfl
  exact ⟨⟨rfl, e f.y⟩, rfl, e f.x⟩

/-- So the outputs that follow can be wrong. -/
theorem C166_filter_older_refuted : ¬ ∀ (N i : Nat) (f : Iir ℚ) (v : ℚ), i < N →
    (Iir.runRef (Iir.exactSum N) N [.output i, .value v] f).1 = Iir.run N f [f.y i, v] := by
  intro h
  exact absurd (h 2 1 (Iir.after 2 (Iir.new 1 (fun _ => 1) (fun _ => 0)) [1, 2]) 0 (by omega)) (by decide +kernel)

/-! ### `circular_deque` -/

namespace CDeque

variable {α : Type}

theorem pushBackRef_eq (d : CDeque α) (r : Nat) (v : α) (h : d.buffer[r]? = some v) : d.pushBackRef r = d.pushBack v := by
  have e : (CDeque.mk d.front (d.size + 1) d.buffer).bufGet r = .ok v := by simp [bufGet, h]
  unfold pushBackRef pushBack
  dsimp only
  rw [e]
  simp only [Res.bind_ok]

theorem pushFrontRef_eq (d : CDeque α) (r : Nat) (v : α) (h : d.buffer[r]? = some v) : d.pushFrontRef r = d.pushFront v := by
  have e : ∀ i s, (CDeque.mk i s d.buffer).bufGet r = .ok v := by simp [bufGet, h]
  unfold pushFrontRef pushFront
  dsimp only
  rw [e]
  simp only [e, Res.bind_ok]

/-- One turn of a sequence: its first element goes to the end, or its last one to the front. -/
def turnSpec : List α → Bool → List α
  | l, true => l.rotate 1
  | l, false => l.rotate (l.length - 1)

theorem turnSpec_length (l : List α) (b : Bool) : (turnSpec l b).length = l.length := by
  cases b <;> simp [turnSpec]

theorem rotate_last (l : List α) (x : α) : (l ++ [x]).rotate ((l ++ [x]).length - 1) = x :: l := by
  have : (l ++ [x]).length - 1 = l.length := by simp
  rw [this, List.rotate_append_length_eq]
  rfl

theorem rep_turn (b : Bool) (d : CDeque α) (l : List α) (h : Rep d l) (hl : l ≠ []) :
    ∃ d', turn b d = .ok d' ∧ Rep d' (turnSpec l b) ∧ d'.buffer.length = d.buffer.length := by
  have hle := h.le
  have hf := h.front
  have hs := h.size
  have hpos : 0 < l.length := List.length_pos_iff.2 hl
  cases b with
  | true =>
    obtain ⟨x, l, rfl⟩ := List.exists_cons_of_ne_nil hl
    obtain ⟨d1, h1, h2⟩ := rep_popFront d x l h
    have hb : d1.buffer = d.buffer := by
      rw [popFront_eq, if_pos (by omega), modC_pos _ _ (by omega)] at h1
      cases h1
      rfl
    have hx : d1.buffer[d.front]? = some x := by
      have := h.elem 0 hpos
      rw [Nat.add_zero, Nat.mod_eq_of_lt (by omega)] at this
      rw [hb, this]
      rfl
    obtain ⟨d2, h3, h4, h5⟩ := rep_pushBack_room d1 x l h2 (by rw [hb]; simpa using hle)
    refine ⟨d2, ?_, by simpa [turnSpec] using h4, by rw [h5, hb]⟩
    simp only [turn, frontRef]
    rw [if_pos (by omega)]
    simp only [Res.bind_ok, h1]
    rw [pushBackRef_eq _ _ _ hx, h3]
  | false =>
    obtain ⟨l, x, rfl⟩ : ∃ m x, l = m ++ [x] := ⟨_, _, (List.dropLast_append_getLast hl).symm⟩
    obtain ⟨d1, h1, h2⟩ := rep_popBack d _ h hl
    rw [List.dropLast_concat] at h2
    have hb : d1.buffer = d.buffer := by
      unfold popBack at h1
      rw [if_pos (by omega)] at h1
      cases h1
      rfl
    have hx : d1.buffer[(d.front + d.size - 1) % d.buffer.length]? = some x := by
      have := h.elem l.length (by simp)
      rw [hb, show d.front + d.size - 1 = d.front + l.length by simp at hs; omega, this]
      simp
    obtain ⟨d2, h3, h4, h5⟩ := rep_pushFront_room d1 x l h2 (by rw [hb]; simp at hle; omega)
    refine ⟨d2, ?_, by rw [turnSpec, rotate_last]; exact h4, by rw [h5, hb]⟩
    simp only [turn, backRef]
    rw [if_pos (by omega), show d.capacity = d.buffer.length from rfl, modC_pos _ _ (by omega)]
    simp only [Res.bind_ok, h1]
    rw [pushFrontRef_eq _ _ _ hx, h3]

theorem rep_turns (bs : List Bool) (d : CDeque α) (l : List α) (h : Rep d l) (hl : l ≠ []) :
    ∃ d', turns bs d = .ok d' ∧ Rep d' (bs.foldl turnSpec l) ∧ d'.buffer.length = d.buffer.length := by
  induction bs generalizing d l with
  | nil => exact ⟨d, rfl, h, rfl⟩
  | cons b bs ih =>
    obtain ⟨d1, h1, h2, h3⟩ := rep_turn b d l h hl
    obtain ⟨d2, h4, h5, h6⟩ := ih d1 _ h2 (by
      rw [← List.length_pos_iff, turnSpec_length]
      exact List.length_pos_iff.2 hl)
    exact ⟨d2, by simp only [turns, h1, Res.bind_ok, h4], h5, h6.trans h3⟩

end CDeque

/-- After any history, `push_back( d[ i ] )` and `push_front( d[ i ] )` do what they do for a copy of the element; so they add it. -/
theorem C166_push {α : Type} (dflt : α) (cap : Nat) (ops : List (CDeque.Op α)) (l : List α) (d : CDeque α) (hs : DequeSpec.run ops [] = some l)
    (hr : CDeque.runAll ops (CDeque.new dflt cap) = .ok d) (i : Nat) (hi : i < l.length) :
    ∃ r, d.refAt i = .ok r ∧ d.pushBackRef r = d.pushBack l[i] ∧ (∀ d', d.pushBackRef r = .ok d' → DequeShows d' (l ++ [l[i]])) ∧
      ∃ d', d.pushFrontRef r = .ok d' ∧ DequeShows d' (l[i] :: l) := by
  have h := CDeque.rep_runAll_ok (CDeque.rep_new dflt cap) hs hr
  have hle := h.le
  have he := h.elem i hi
  rw [List.getElem?_eq_getElem hi] at he
  have e := CDeque.pushBackRef_eq d _ _ he
  refine ⟨_, CDeque.modC_pos _ _ (by omega), e, ?_, ?_⟩
  · intro d' hd
    rw [e] at hd
    exact (CDeque.rep_runAll_ok (ops := [.pushBack l[i]]) h rfl (by simp only [CDeque.runAll, CDeque.run, hd, Res.bind_ok])).shows
  · rw [CDeque.pushFrontRef_eq d _ _ he]
    rcases Nat.lt_or_ge l.length d.buffer.length with hlt | hge
    · obtain ⟨d', h1, h2, _⟩ := CDeque.rep_pushFront_room d l[i] l h hlt
      exact ⟨d', h1, h2.shows⟩
    · obtain ⟨d', h1, h2⟩ := CDeque.rep_pushFront_full d l[i] l h (by omega)
      exact ⟨d', h1, h2.shows⟩

/-- A deque that wraps around. -/
example : (do
    let d ← CDeque.runAll [.pushBack 1, .pushBack 2, .popFront, .pushBack 3] (CDeque.new 0 3)
    let r ← d.refAt 1
    let d ← d.pushBackRef r
    d.iterate) = .ok [2, 3, 3] := rfl

/-- After any history, a deque that is not empty can be turned in both directions by references to the elements that are popped, as
often as one likes, and also if it is full: it is never undefined, and needs no more memory. -/
theorem C166_turns {α : Type} (dflt : α) (cap : Nat) (ops : List (CDeque.Op α)) (l : List α) (d : CDeque α) (hs : DequeSpec.run ops [] = some l)
    (hr : CDeque.runAll ops (CDeque.new dflt cap) = .ok d) (hl : l ≠ []) (bs : List Bool) :
    ∃ d', CDeque.turns bs d = .ok d' ∧ DequeShows d' (bs.foldl (fun l b => if b then l.rotate 1 else l.rotate (l.length - 1)) l) ∧
      d'.capacity = d.capacity := by
  obtain ⟨d', h1, h2, h3⟩ := CDeque.rep_turns bs d l (CDeque.rep_runAll_ok (CDeque.rep_new dflt cap) hs hr) hl
  refine ⟨d', h1, ?_, h3⟩
  have e : (fun (l : List α) (b : Bool) => if b then l.rotate 1 else l.rotate (l.length - 1)) = CDeque.turnSpec := by
    funext l b
    cases b <;> rfl
  rw [e]
  exact h2.shows

/-- A full deque whose first element is not at the start of the buffer, where `push_back` alone is undefined. -/
example : (do
    let d ← CDeque.runAll [.pushBack 1, .pushBack 2, .popFront, .pushBack 3, .pushBack 4] (CDeque.new 0 3)
    let d ← CDeque.turns [true, true, false, true] d
    d.iterate) = .ok [4, 2, 3] := rfl

/-- A reference to a popped element still shows it, and after a `push_back` it does so unless the deque was full: then it shows the
new element. -/
theorem C166_popped {α : Type} (dflt : α) (cap : Nat) (ops : List (CDeque.Op α)) (x : α) (l : List α) (d : CDeque α)
    (hs : DequeSpec.run ops [] = some (x :: l)) (hr : CDeque.runAll ops (CDeque.new dflt cap) = .ok d) :
    ∃ r d1, d.frontRef = .ok r ∧ d.popFront = .ok d1 ∧ d1.bufGet r = .ok x ∧
      ∀ v, ∃ d2, d1.pushBack v = .ok d2 ∧ d2.bufGet r = .ok (if d.size = d.capacity then v else x) := by
  have h := CDeque.rep_runAll_ok (CDeque.rep_new dflt cap) hs hr
  have hle := h.le
  have hf := h.front
  have hsz := h.size
  simp only [List.length_cons] at hle hsz
  have hx := h.elem 0 (by simp)
  have hfl : d.front < d.buffer.length := by omega
  rw [Nat.add_zero, Nat.mod_eq_of_lt hfl] at hx
  change d.buffer[d.front]? = some x at hx
  refine ⟨d.front, ⟨(d.front + 1) % d.buffer.length, d.size - 1, d.buffer⟩, ?_, ?_, ?_, ?_⟩
  · unfold CDeque.frontRef
    rw [if_pos (by omega)]
  · rw [CDeque.popFront_eq, if_pos (by omega), CDeque.modC_pos _ _ (by omega)]
    rfl
  · simp [CDeque.bufGet, hx]
  · intro v
    have hm : ((d.front + 1) % d.buffer.length + (d.size - 1)) % d.buffer.length = (d.front + d.size) % d.buffer.length := by
      rw [Nat.mod_add_mod]
      congr 1
      omega
    have hlt : (d.front + d.size) % d.buffer.length < d.buffer.length := Nat.mod_lt _ (by omega)
    refine ⟨⟨(d.front + 1) % d.buffer.length, d.size - 1 + 1, d.buffer.set ((d.front + d.size) % d.buffer.length) v⟩, ?_, ?_⟩
    · rw [CDeque.pushBack_eq, if_neg (by simp only; omega), CDeque.modC_pos _ _ (by simp only; omega), Res.bind_ok]
      simp only [Nat.add_sub_assoc (Nat.le_add_left 1 (d.size - 1)), Nat.add_sub_cancel, hm]
      exact if_pos hlt
    · unfold CDeque.bufGet
      dsimp only
      change _ = Res.ok (if d.size = d.buffer.length then v else x)
      by_cases hfull : d.size = d.buffer.length
      · rw [if_pos hfull, hfull, Nat.add_mod_right, Nat.mod_eq_of_lt hfl, List.getElem?_set_self hfl]
      · rw [if_neg hfull, List.getElem?_set_ne, hx]
        rw [CDeque.mod_wrap _ _ _ hfl (by omega)]
        split <;> omega

/-- A deque that is not full. -/
example : (do
    let d ← CDeque.runAll [.pushBack 1, .pushBack 2] (CDeque.new 0 3)
    let r ← d.frontRef
    let d ← d.popFront
    let d ← d.pushBack 7
    d.bufGet r) = .ok 1 := rfl

/-- So a reference to a popped element does not keep its value. -/
theorem C166_popped_refuted : ∃ (ops : List (CDeque.Op Nat)) (d d1 d2 : CDeque Nat) (r : Nat),
    CDeque.runAll ops (CDeque.new 0 2) = .ok d ∧ d.frontRef = .ok r ∧ d.bufGet r = .ok 1 ∧ d.popFront = .ok d1 ∧ d1.pushBack 7 = .ok d2 ∧
      d2.bufGet r = .ok 7 :=
  ⟨[.pushBack 1, .pushBack 2], _, _, _, _, rfl, rfl, rfl, rfl, rfl, rfl⟩

/-! ### `dynarray` -/

namespace DynArray

variable {α : Type}

theorem fillLoop_ok (b : Nat) (st : Option (Nat × Nat)) (r : Nat) (v : α) (n : Nat) : ∀ (i : Nat) (h : Heap α) (xs : List (Option α)),
    h.cell b = some xs → i + n ≤ xs.length → xs[r]? = some (some v) →
    ∃ h' ys, fillLoop h ⟨some b, st⟩ r n i = .ok h' ∧ h'.cell b = some ys ∧ ys.length = xs.length ∧
      (∀ j, ys[j]? = if i ≤ j ∧ j < i + n then some (some v) else xs[j]?) ∧ ∀ c, c ≠ b → h'.cell c = h.cell c := by
  induction n with
  | zero =>
    intro i h xs hc hn hr
    refine ⟨h, xs, rfl, hc, rfl, ?_, fun _ _ => rfl⟩
    intro j
    rw [if_neg (by omega)]
  | succ n ih =>
    intro i h xs hc hn hr
    have hg : DynArray.get h ⟨some b, st⟩ r = .ok v := by simp [DynArray.get, hc, hr]
    have hset : DynArray.set h ⟨some b, st⟩ i v = .ok (h.write b (xs.set i (some v))) := by
      simp only [DynArray.set, hc]
      rw [if_pos (by omega)]
    obtain ⟨h', ys, h1, h2, h3, h4, h5⟩ := ih (i + 1) (h.write b (xs.set i (some v))) (xs.set i (some v)) (by simp [Heap.write]) (by simp; omega) (by
      by_cases e : i = r
      · rw [e, List.getElem?_set_self (by omega)]
      · rw [List.getElem?_set_ne e, hr])
    refine ⟨h', ys, ?_, h2, by simpa using h3, ?_, ?_⟩
    · simp only [fillLoop, hg, hset, Res.bind_ok, h1]
    · intro j
      rw [h4]
      by_cases e : i = j
      · subst e
        rw [if_neg (by omega), if_pos (by omega), List.getElem?_set_self (by omega)]
      · rw [List.getElem?_set_ne e]
        by_cases e' : i + 1 ≤ j ∧ j < i + 1 + n
        · rw [if_pos e', if_pos (by omega)]
        · rw [if_neg e', if_neg (by omega)]
    · intro c hc'
      rw [h5 c hc']
      simp [Heap.write, hc']

end DynArray

/-- `a.assign( a[ r ] )` sets all elements to what element `r` was, and changes nothing else. -/
theorem C166_assign {α : Type} (h : Heap α) (a : DynArray) (xs : List (Option α)) (r : Nat) (v : α) (hx : a.elements h = .ok xs)
    (hr : xs[r]? = some (some v)) :
    ∃ h', a.fillRef h r = .ok h' ∧ a.elements h' = .ok (List.replicate xs.length (some v)) ∧ ∀ b, a.data ≠ some b → h'.cell b = h.cell b := by
  obtain ⟨data, stop⟩ := a
  unfold DynArray.elements DynArray.size at hx
  rcases data with _ | b <;> rcases stop with _ | ⟨c, k⟩ <;> simp only [Res.bind_ok, Res.bind_ub] at hx
  · cases hx
    simp at hr
  · cases hx
  · cases hx
  · split at hx
    case isFalse => cases hx
    case isTrue e =>
      subst e
      simp only [Res.bind_ok] at hx
      cases hc : h.cell b with
      | none => rw [hc] at hx; cases hx
      | some ys =>
        rw [hc] at hx
        simp only at hx
        split at hx
        case isFalse => cases hx
        case isTrue hk =>
          cases hx
          have hrk : r < k := by
            have := (List.getElem?_eq_some_iff.1 hr).1
            simp at this
            omega
          rw [List.getElem?_take_of_lt hrk] at hr
          obtain ⟨h', zs, h1, h2, h3, h4, h5⟩ := DynArray.fillLoop_ok b (some (b, k)) r v k 0 h ys hc (by omega) hr
          refine ⟨h', ?_, ?_, ?_⟩
          · simp only [DynArray.fillRef, DynArray.size, if_true, Res.bind_ok]
            exact h1
          · simp only [DynArray.elements, DynArray.size, if_true, Res.bind_ok, h2]
            rw [if_pos (by omega)]
            congr 1
            apply List.ext_getElem?
            intro j
            rw [List.getElem?_take, h4, List.getElem?_replicate, List.length_take, Nat.min_eq_left hk]
            by_cases hj : j < k
            · rw [if_pos hj, if_pos (by omega), if_pos hj]
            · rw [if_neg hj, if_neg hj]
          · intro c hc'
            exact h5 c (fun e => hc' (by rw [e]))

example : ((DynArray.mk (some 0) (some (0, 3))).fillRef (α := Nat) { cell := fun b => if b = 0 then some [none, some 5, some 6] else none, next := 1 } 1 >>=
    fun h => (DynArray.mk (some 0) (some (0, 3))).elements h) = .ok [some 5, some 5, some 5] := rfl

end Flut
