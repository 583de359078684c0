import Verif.Model.Printf
import Verif.Spec.Printf
import Verif.Props.ReportText
import Verif.Proofs.PrintfReal

/-! # Lemmas on formatted text -/

namespace Flut

open Spec

/-! ## Reading a conversion -/

theorem split_while {p : Byte → Bool} {a b : Str} (ha : ∀ x ∈ a, p x = true) (hb : ∀ x ∈ b.head?, p x = false) :
    (a ++ b).takeWhile p = a ∧ (a ++ b).dropWhile p = b := by
  induction a with
  | nil =>
    cases b with
    | nil => simp
    | cons x b =>
      have := hb x (by simp)
      simp [this]
  | cons x a ih =>
    obtain ⟨h1, h2⟩ := ih (fun y hy => ha y (by simp [hy]))
    have := ha x (by simp)
    simp [this, h1, h2]

theorem number_eq (ds : Str) : PrintfConv.number ds = decValue ds := rfl

/-- The conversion as the program sees it. -/
def convOf (c : Conversion) : PrintfConv := ⟨c.flags, decValue c.width, c.prec.map decValue, c.len, c.kind⟩

theorem isDigit_true {x : Byte} (h : 48 ≤ x.toNat ∧ x.toNat ≤ 57) : PrintfConv.isDigit x = true := by
  unfold PrintfConv.isDigit; exact decide_eq_true h

theorem parse_source (c : Conversion) (h : c.Valid) (rest : Str) :
    PrintfConv.parse (c.flags ++ c.width ++ c.precText ++ c.len ++ [c.kind] ++ rest) = some (convOf c, rest) := by
  obtain ⟨hf, hw, hw0, hp, hl, hk⟩ := h
  have kflag : PrintfConv.isFlag c.kind = false ∧ PrintfConv.isDigit c.kind = false ∧ PrintfConv.isLen c.kind = false ∧ c.kind ≠ 46 := by
    have : ∀ k ∈ b!"diuoxXcsfFeEgG", PrintfConv.isFlag k = false ∧ PrintfConv.isDigit k = false ∧ PrintfConv.isLen k = false ∧ k ≠ 46 := by decide +kernel
    exact this _ hk
  -- from the length on
  have hlen : ∀ x ∈ (c.len ++ (c.kind :: rest)).head?, PrintfConv.isFlag x = false ∧ PrintfConv.isDigit x = false ∧ x ≠ 46 := by
    intro x hx
    rcases hl with e | e | e | e <;> rw [e] at hx <;> simp at hx <;> subst hx
    · exact ⟨kflag.1, kflag.2.1, kflag.2.2.2⟩
    all_goals decide
  have s3 := split_while (p := PrintfConv.isLen) (a := c.len) (b := c.kind :: rest)
    (by rcases hl with e | e | e | e <;> rw [e] <;> decide) (by intro x hx; simp at hx; subst hx; exact kflag.2.2.1)
  -- the flags
  have dflag : ∀ x : Byte, 48 ≤ x.toNat ∧ x.toNat ≤ 57 → x ≠ 48 → PrintfConv.isFlag x = false := by
    intro x
    have e : x = UInt8.ofNat x.toNat := by simp
    have hlt := x.toNat_lt
    generalize x.toNat = n at e hlt
    subst e
    revert n
    decide +kernel
  have s1 := split_while (p := PrintfConv.isFlag) (a := c.flags)
    (b := c.width ++ (c.precText ++ (c.len ++ (c.kind :: rest))))
    (by
      have : ∀ x ∈ b!"-0+ ", PrintfConv.isFlag x = true := by decide +kernel
      exact fun x hx => this x (hf x hx))
    (by
      intro x hx
      cases hcw : c.width with
      | cons y w =>
        rw [hcw] at hx
        simp at hx
        subst hx
        refine dflag _ (hw _ (by simp [hcw])) ?_
        rintro rfl
        rw [hcw] at hw0
        simp at hw0
      | nil =>
        rw [hcw, List.nil_append] at hx
        cases hcp : c.prec with
        | none => rw [show c.precText = [] by unfold Conversion.precText; rw [hcp], List.nil_append] at hx; exact (hlen x hx).1
        | some p => rw [show c.precText = c!"." :: p by unfold Conversion.precText; rw [hcp]] at hx; simp at hx; subst hx; decide)
  have s2 := split_while (p := PrintfConv.isDigit) (a := c.width)
    (b := c.precText ++ (c.len ++ (c.kind :: rest)))
    (fun x hx => isDigit_true (hw x hx))
    (by
      intro x hx
      cases hcp : c.prec with
      | none => rw [show c.precText = [] by unfold Conversion.precText; rw [hcp], List.nil_append] at hx; exact (hlen x hx).2.1
      | some p => rw [show c.precText = c!"." :: p by unfold Conversion.precText; rw [hcp]] at hx; simp at hx; subst hx; decide)
  unfold PrintfConv.parse
  simp only [List.append_assoc, List.singleton_append]
  rw [s1.1, s1.2, s2.1, s2.2]
  cases hcp : c.prec with
  | none =>
    rw [show c.precText = [] by unfold Conversion.precText; rw [hcp], List.nil_append]
    obtain ⟨x, r, hxr⟩ : ∃ x r, c.len ++ (c.kind :: rest) = x :: r := by
      cases c.len with
      | nil => exact ⟨_, _, rfl⟩
      | cons y l => exact ⟨_, _, rfl⟩
    have hx46 : x ≠ 46 := (hlen x (by rw [hxr]; simp)).2.2
    rw [hxr] at s3 ⊢
    simp only [if_neg hx46, s3.1, s3.2, convOf, hcp, number_eq, Option.map_none]
  | some p =>
    have s4 := split_while (p := PrintfConv.isDigit) (a := p) (b := c.len ++ (c.kind :: rest))
      (fun x hx => isDigit_true (hp p hcp x hx)) (fun x hx => (hlen x hx).2.1)
    rw [show c.precText = c!"." :: p by unfold Conversion.precText; rw [hcp]]
    simp only [List.cons_append, if_pos, s4.1, s4.2, s3.1, s3.2, convOf, hcp, number_eq, Option.map_some]

/-! ## Digits -/

theorem digitChar_eq (upper : Bool) {d : Nat} (h : d < 16) : PrintfConv.digitChar upper d = (digitSymbols upper).getD d 0 := by
  revert d upper
  decide +kernel

theorem baseStrF_spec {base : Nat} (upper : Bool) (hb : 2 ≤ base) (hb' : base ≤ 16) (fuel : Nat) : ∀ n, n < fuel →
    ∃ vs : List Nat, (∀ v ∈ vs, v < base) ∧ PrintfConv.baseStrF base upper fuel n = vs.map (fun v => (digitSymbols upper).getD v 0) ∧
      vs.foldl (fun a v => a * base + v) 0 = n ∧ 1 ≤ vs.length ∧ (vs.head? = some 0 → n = 0 ∧ vs.length = 1) := by
  induction fuel with
  | zero => intro n h; omega
  | succ fuel ih =>
    intro n h
    unfold PrintfConv.baseStrF
    by_cases hn : n < base
    · rw [if_pos hn, digitChar_eq upper (by omega)]
      exact ⟨[n], by simpa using hn, rfl, by simp, by simp, by simp⟩
    · rw [if_neg hn]
      have hdl : n / base < n := Nat.div_lt_self (by omega) (by omega)
      obtain ⟨vs, h1, h2, h3, h4, h5⟩ := ih (n / base) (by omega)
      have hm : n % base < base := Nat.mod_lt _ (by omega)
      refine ⟨vs ++ [n % base], ?_, ?_, ?_, by simp, ?_⟩
      · intro v hv
        rcases List.mem_append.1 hv with hv | hv
        · exact h1 v hv
        · simp at hv; omega
      · rw [h2, digitChar_eq upper (by omega)]; simp
      · rw [List.foldl_append, h3]
        simp only [List.foldl_cons, List.foldl_nil]
        exact Nat.div_add_mod' n base
      · intro hh
        rw [List.head?_append_of_ne_nil _ (by rintro rfl; simp at h4)] at hh
        have := (h5 hh).1
        have : 0 < n / base := Nat.div_pos (by omega) (by omega)
        omega

theorem foldl_zeros (base k a : Nat) : (List.replicate k 0).foldl (fun a v => a * base + v) a = a * base ^ k := by
  induction k generalizing a with
  | zero => simp
  | succ k ih => rw [List.replicate_succ, List.foldl_cons, ih]; ring

theorem digits_shows {base : Nat} (upper : Bool) (hb : 2 ≤ base) (hb' : base ≤ 16) (prec : Option Nat) (n : Nat) :
    ShowsNat base upper (prec.getD 1) n (PrintfConv.digits base upper prec n) := by
  have h0 : (digitSymbols upper).getD 0 0 = 48 := by cases upper <;> rfl
  -- the digits without the zeros
  obtain ⟨vs, h1, h2, h3, h4⟩ : ∃ vs : List Nat, (∀ v ∈ vs, v < base) ∧
      (if n = 0 ∧ prec = some 0 then [] else PrintfConv.baseStrF base upper (n + 1) n) = vs.map (fun v => (digitSymbols upper).getD v 0) ∧
      vs.foldl (fun a v => a * base + v) 0 = n ∧ (prec.getD 1 < vs.length → vs.head? ≠ some 0) := by
    by_cases hc : n = 0 ∧ prec = some 0
    · rw [if_pos hc]
      exact ⟨[], by simp, rfl, by simp [hc.1], by simp⟩
    · rw [if_neg hc]
      obtain ⟨vs, g1, g2, g3, g4, g5⟩ := baseStrF_spec upper hb hb' (n + 1) n (by omega)
      refine ⟨vs, g1, g2, g3, ?_⟩
      intro hl hh
      obtain ⟨e1, e2⟩ := g5 hh
      rw [e2] at hl
      cases prec with
      | none => simp at hl
      | some p =>
        simp at hl
        exact hc ⟨e1, by rw [hl]⟩
  refine ⟨List.replicate (prec.getD 1 - vs.length) 0 ++ vs, ?_, ?_, ?_, ?_, ?_⟩
  · intro v hv
    rcases List.mem_append.1 hv with hv | hv
    · have := (List.mem_replicate.1 hv).2; omega
    · exact h1 v hv
  · unfold PrintfConv.digits
    dsimp only
    rw [h2, List.length_map, List.map_append, List.map_replicate, h0]
  · rw [List.foldl_append, foldl_zeros, Nat.zero_mul, h3]
  · rw [List.length_append, List.length_replicate]; omega
  · rw [List.length_append, List.length_replicate]
    intro hl
    have e : prec.getD 1 - vs.length = 0 := by omega
    rw [e, List.replicate_zero, List.nil_append]
    exact h4 (by omega)

/-! ## One conversion -/

theorem field_spec (c : Conversion) (zeros : Bool) (Z : Prop) (hz : zeros = true ↔ Z) (sign body : Str) :
    c.Field Z sign body ((convOf c).field zeros sign body) := by
  refine ⟨decValue c.width - (sign.length + body.length), by omega, ?_, ?_, ?_⟩
  · intro h
    exact if_pos h
  · intro h h'
    unfold PrintfConv.field
    dsimp only
    rw [if_neg (by exact h), if_pos (by exact ⟨hz.2 h'.1, h'.2⟩)]
    rfl
  · intro h h'
    unfold PrintfConv.field
    dsimp only
    rw [if_neg (by exact h), if_neg (by exact fun hh => h' ⟨hz.1 hh.1, hh.2⟩)]
    rfl

theorem sign_spec (c : Conversion) (neg : Bool) : (convOf c).sign neg = c.signText neg := rfl

theorem least_spec (c : Conversion) : (convOf c).prec.getD 1 = c.least := by
  unfold convOf Conversion.least
  cases c.prec <;> rfl

theorem prec_isNone (c : Conversion) : (convOf c).prec.isNone = true ↔ c.prec = none := by
  unfold convOf
  cases c.prec <;> simp

theorem shows_signed (c : Conversion) (v : Int) :
    c.ShowsSigned v ((convOf c).field (convOf c).prec.isNone ((convOf c).sign (decide (v < 0))) (PrintfConv.digits 10 false (convOf c).prec v.natAbs)) := by
  refine ⟨PrintfConv.digits 10 false (convOf c).prec v.natAbs, ?_, ?_⟩
  · rw [← least_spec]
    exact digits_shows false (by omega) (by omega) _ _
  · rw [← sign_spec]
    exact field_spec c _ _ (prec_isNone c) _ _

theorem shows_unsigned (c : Conversion) (n base : Nat) (upper : Bool) (hb : base = c.base) (hu : upper = decide (c.kind = c!"X")) :
    c.ShowsUnsigned n ((convOf c).field (convOf c).prec.isNone [] (PrintfConv.digits base upper (convOf c).prec n)) := by
  refine ⟨_, ?_, field_spec c _ _ (prec_isNone c) _ _⟩
  rw [← least_spec, ← hb, ← hu]
  have : base = 8 ∨ base = 10 ∨ base = 16 := by
    rw [hb]; unfold Conversion.base; split <;> [skip; split] <;> simp
  exact digits_shows upper (by omega) (by omega) _ _

/-- The body of a finite number without its sign. -/
theorem shows_fixed (p : Nat) (m : ℚ) (hm : 0 ≤ m) : ShowsFixed p m (printfFixed p (.fin false m)) := by
  have hp : (0 : ℚ) < 10 ^ p := by positivity
  obtain ⟨n, hn⟩ : ∃ n, n = (roundEven (m * 10 ^ p)).toNat := ⟨_, rfl⟩
  have hnr : |(n : ℚ) - m * 10 ^ p| ≤ 1 / 2 := by
    have h1 := roundEven_nonneg (q := m * 10 ^ p) (by positivity)
    have : (((roundEven (m * 10 ^ p)).toNat : Int) : ℚ) = roundEven (m * 10 ^ p) := by rw [Int.toNat_of_nonneg h1]
    rw [hn, ← Int.cast_natCast, this]
    exact roundEven_near _
  obtain ⟨d1, d2⟩ := natStr_digits (n / 10 ^ p)
  obtain ⟨d3, d4⟩ := natStr_digits (n % 10 ^ p)
  have hmod : n % 10 ^ p < 10 ^ p := Nat.mod_lt _ (by positivity)
  have htext : printfFixed p (.fin false m) = natStr (n / 10 ^ p) ++
      (if p = 0 then [] else c!"." :: (List.replicate (p - (natStr (n % 10 ^ p)).length) (48 : Byte) ++ natStr (n % 10 ^ p))) := by
    unfold printfFixed
    rw [hn]
    simp
  obtain ⟨b, hb⟩ : ∃ b, b = if p = 0 then [] else List.replicate (p - (natStr (n % 10 ^ p)).length) (48 : Byte) ++ natStr (n % 10 ^ p) := ⟨_, rfl⟩
  have hbl : b.length = p := by
    rw [hb]
    split
    · simp [*]
    · have := natStr_length (n := n % 10 ^ p) (j := p) (by omega) hmod
      rw [List.length_append, List.length_replicate]
      omega
  have hbv : decValue b = n % 10 ^ p := by
    rw [hb]
    split
    · rename_i h0
      subst h0
      simp [decValue, Nat.mod_one]
    · rw [decValue_append', decValue_zeros, d4]; omega
  refine ⟨natStr (n / 10 ^ p), b, ?_, d1, natStr_zero_head _, ?_, hbl, ?_⟩
  · rw [htext]
    by_cases h0 : p = 0
    · simp [h0]
    · rw [if_neg h0, if_neg h0, hb, if_neg h0]
  · rw [hb]
    intro d hd
    split at hd
    · simp at hd
    · rcases List.mem_append.1 hd with h | h
      · rw [(List.mem_replicate.1 h).2]; decide
      · exact d3.2 d h
  · have hval : ((decValue (natStr (n / 10 ^ p) ++ b) : Nat) : ℚ) = n := by
      rw [decValue_append', d2, hbv, hbl]
      exact_mod_cast Nat.div_add_mod' n (10 ^ p)
    rw [hval, show (n : ℚ) / 10 ^ p - m = (n - m * 10 ^ p) / 10 ^ p by field_simp, abs_div, abs_of_pos hp, div_le_div_iff₀ hp (by positivity)]
    have := mul_le_mul_of_nonneg_right hnr (show (0 : ℚ) ≤ 2 * 10 ^ p by positivity)
    linarith

theorem shows_exponent (upper : Bool) (x : Int) : ShowsExponent upper x (PrintfConv.exponent upper x) := by
  refine ⟨PrintfConv.digits 10 false (some 2) x.natAbs, ?_, digits_shows false (by norm_num) (by norm_num) (some 2) _⟩
  have hd : PrintfConv.digits 10 false (some 2) x.natAbs = if x.natAbs < 10 then 48 :: natStr x.natAbs else natStr x.natAbs := by
    unfold PrintfConv.digits
    dsimp only
    rw [if_neg (by simp), natStr_base]
    have h1 : 1 ≤ (natStr x.natAbs).length := List.length_pos_iff.2 (natStr_digits x.natAbs).1.1
    split
    · rename_i h
      have := natStr_length (n := x.natAbs) (j := 1) le_rfl (by omega)
      rw [show (natStr x.natAbs).length = 1 by omega]
      rfl
    · rename_i h
      have h2 : 2 ≤ (natStr x.natAbs).length := by
        by_contra hc
        have hv := Stream.decValue_lt (natStr_digits x.natAbs).1.2
        rw [(natStr_digits x.natAbs).2, show (natStr x.natAbs).length = 1 by omega] at hv
        omega
      rw [show (some 2 : Option Nat).getD 1 - (natStr x.natAbs).length = 0 by simp; omega]
      rfl
  unfold PrintfConv.exponent Stream.expText
  rw [hd]

theorem shows_scientific (upper : Bool) (p : Nat) {m : ℚ} (h : 0 ≤ m) : ShowsScientific upper p m (PrintfConv.scientific upper p m) :=
  ⟨_, _, _, _, showsDigits p h, shows_exponent upper _, rfl⟩

theorem shows_general (upper : Bool) (p : Nat) {m : ℚ} (h : 0 ≤ m) : ShowsGeneral upper p m (PrintfConv.general upper p m) := by
  obtain ⟨r, hr⟩ : ∃ r, r = max p 1 := ⟨_, rfl⟩
  have hp : (if p = 0 then 1 else p) = r := by rw [hr]; split <;> omega
  unfold ShowsGeneral PrintfConv.general
  dsimp only
  rw [hp, ← hr]
  refine ⟨_, _, _, showsDigits (r - 1) h, ?_, ?_⟩
  · intro hc
    rw [if_pos hc]
    generalize (PrintfConv.sciDigits (r - 1) m).2 = e at hc
    obtain ⟨q, hq⟩ : ∃ q, q = ((r : Int) - 1 - e).toNat := ⟨_, rfl⟩
    rw [← hq]
    refine ⟨q, _, _, by omega, ?_, (lastDigits_spec _ _).1, ?_, withoutZeros _ _⟩
    · have := shows_fixed q m h
      unfold printfFixed at this
      convert this using 1
      simp only [Bool.false_eq_true, if_false, List.nil_append]
      congr 1
      by_cases h0 : q = 0
      · simp [h0]
      · rw [if_neg h0, if_neg h0]
        unfold PrintfConv.lastDigits
        rw [if_neg h0]
    · intro hm
      have := (natStr_digits _).1.2 _ hm
      revert this
      decide
  · intro hc
    rw [if_neg hc]
    exact ⟨_, _, withoutZeros _ _, shows_exponent upper _, rfl⟩

theorem shows_real (c : Conversion) (hk : c.kind ∈ b!"fFeEgG") {m : ℚ} (h : 0 ≤ m) : c.ShowsReal m ((convOf c).realBody m) := by
  have hp : (convOf c).prec.getD 6 = c.places := by
    show (c.prec.map decValue).getD 6 = _
    unfold Conversion.places
    cases c.prec <;> rfl
  have hkind : (convOf c).kind = c.kind := rfl
  unfold PrintfConv.realBody PrintfConv.upper Conversion.ShowsReal
  rw [hkind, hp]
  simp only [List.mem_cons, List.not_mem_nil, or_false] at hk
  rcases hk with e | e | e | e | e | e <;> rw [e] <;>
    refine ⟨fun hx => ?_, fun hx => ?_, fun hx => ?_⟩ <;>
    first
    | exact absurd hx (by decide)
    | exact shows_fixed _ m h
    | exact shows_scientific _ _ h
    | exact shows_general _ _ h

theorem signed_range32 {n : Nat} (h : n < 2 ^ 32) (v : Int) (hv : v = if n < 2 ^ 31 then (n : Int) else n - 2 ^ 32) :
    Conversion.SignedRange 32 v ∧ Conversion.SameBits 32 v n := by
  unfold Conversion.SignedRange Conversion.SameBits
  subst hv
  split
  · refine ⟨by omega, ?_⟩
    simp
  · refine ⟨by omega, -1, by ring⟩

theorem signed_range64 {n : Nat} (h : n < 2 ^ 64) (v : Int) (hv : v = if n < 2 ^ 63 then (n : Int) else n - 2 ^ 64) :
    Conversion.SignedRange 64 v ∧ Conversion.SameBits 64 v n := by
  unfold Conversion.SignedRange Conversion.SameBits
  subst hv
  split
  · refine ⟨by omega, ?_⟩
    simp
  · refine ⟨by omega, -1, by ring⟩

theorem sameBits_mod (bits : Nat) (v : Int) : (v % 2 ^ bits).toNat < 2 ^ bits ∧ Conversion.SameBits bits ((v % 2 ^ bits).toNat : Int) v := by
  have h0 : (0 : Int) < 2 ^ bits := by positivity
  have h1 := Int.emod_nonneg v (ne_of_gt h0)
  have h2 := Int.emod_lt_of_pos v h0
  refine ⟨?_, ?_⟩
  · have : ((v % 2 ^ bits).toNat : Int) < ((2 ^ bits : Nat) : Int) := by rw [Int.toNat_of_nonneg h1]; push_cast; exact h2
    exact_mod_cast this
  · unfold Conversion.SameBits
    rw [Int.toNat_of_nonneg h1]
    exact ⟨-(v / 2 ^ bits), by have := Int.emod_add_mul_ediv v (2 ^ bits); linarith⟩

theorem sameBits_refl (bits : Nat) (v : Int) : Conversion.SameBits bits v v := by unfold Conversion.SameBits; simp

/-- The unsigned conversions. -/
theorem render_unsigned (c : Conversion) (h : c.Valid) (hk : c.kind ∈ b!"uoxX") (a : PrintfArg) :
    (convOf c).render a = (PrintfConv.unsigned c.len a).map
      (fun n => (convOf c).field (convOf c).prec.isNone [] (PrintfConv.digits c.base (decide (c.kind = c!"X")) (convOf c).prec n)) := by
  have hl := h.len
  unfold PrintfConv.render
  rw [if_neg (by show ¬ (c.len ≠ [] ∧ c.len ≠ b!"l" ∧ c.len ≠ b!"ll" ∧ c.len ≠ b!"z"); tauto)]
  have hkind : (convOf c).kind = c.kind := rfl
  have hlen : (convOf c).len = c.len := rfl
  rw [hkind, hlen]
  unfold Conversion.base
  simp only [List.mem_cons, List.not_mem_nil, or_false] at hk
  rcases hk with e | e | e | e <;> rw [e] <;> rfl

theorem render_signed (c : Conversion) (h : c.Valid) (hk : c.kind ∈ b!"di") (a : PrintfArg) :
    (convOf c).render a = (PrintfConv.signed c.len a).map
      (fun v => (convOf c).field (convOf c).prec.isNone ((convOf c).sign (decide (v < 0))) (PrintfConv.digits 10 false (convOf c).prec v.natAbs)) := by
  have hl := h.len
  unfold PrintfConv.render
  rw [if_neg (by show ¬ (c.len ≠ [] ∧ c.len ≠ b!"l" ∧ c.len ≠ b!"ll" ∧ c.len ≠ b!"z"); tauto)]
  have hkind : (convOf c).kind = c.kind := rfl
  have hlen : (convOf c).len = c.len := rfl
  rw [hkind, hlen]
  simp only [List.mem_cons, List.not_mem_nil, or_false] at hk
  rcases hk with e | e <;> rw [e] <;> rfl

/-- A real number. -/
theorem render_real (c : Conversion) (h : c.Valid) (hf : c.kind ∈ b!"fFeEgG") (a : PrintfArg) (ha : ArgOk a) :
    (c.Fits a → ∃ t, (convOf c).render a = some t ∧ c.Shows a t) ∧ (¬ c.Fits a → (convOf c).render a = none) := by
  have hl := h.len
  have hfits : c.Fits a ↔ ((c.len = [] ∨ c.len = b!"l") ∧ ∃ v, a = .real v) := by
    have n1 : c.kind ∉ b!"diuoxX" ∧ c.kind ≠ c!"c" ∧ c.kind ≠ c!"s" := by
      have : ∀ k ∈ b!"fFeEgG", k ∉ b!"diuoxX" ∧ k ≠ c!"c" ∧ k ≠ c!"s" := by decide +kernel
      exact this _ hf
    constructor
    · rintro (h | h | h | h | h)
      · exact absurd h.1 n1.1
      · exact absurd h.1 n1.1
      · exact absurd h.1 n1.2.1
      · exact absurd h.1 n1.2.2
      · exact h.2
    · exact fun h => .inr (.inr (.inr (.inr ⟨hf, h⟩)))
  have hr : (convOf c).render a = match a with
      | .real x => if c.len = [] ∨ c.len = b!"l" then
          match x with
          | .fin neg m => some ((convOf c).field true ((convOf c).sign neg) ((convOf c).realBody m))
          | .inf neg => some ((convOf c).field false ((convOf c).sign neg) (if c.kind ∈ b!"FEG" then b!"INF" else b!"inf"))
          | .nan _ => some ((convOf c).field false ((convOf c).sign false) (if c.kind ∈ b!"FEG" then b!"NAN" else b!"nan")) else none
      | _ => none := by
    unfold PrintfConv.render
    rw [if_neg (by show ¬ (c.len ≠ [] ∧ c.len ≠ b!"l" ∧ c.len ≠ b!"ll" ∧ c.len ≠ b!"z"); tauto)]
    have n1 : ∀ k ∈ b!"fFeEgG", ¬ (k = c!"d" ∨ k = c!"i") ∧ k ≠ c!"u" ∧ k ≠ c!"o" ∧ k ≠ c!"x" ∧ k ≠ c!"X" ∧ k ≠ c!"c" ∧ k ≠ c!"s" := by decide +kernel
    obtain ⟨m1, m2, m3, m4, m5, m6, m7⟩ := n1 _ hf
    have hu : ∀ x y : Str, (if (convOf c).upper then x else y) = if c.kind ∈ b!"FEG" then x else y := by
      intro x y
      have : (convOf c).upper = true ↔ c.kind ∈ b!"FEG" := by
        show (c.kind == c!"F" || c.kind == c!"E" || c.kind == c!"G") = true ↔ _
        simp [or_assoc]
      by_cases hc : c.kind ∈ b!"FEG"
      · rw [if_pos hc, if_pos (this.2 hc)]
      · rw [if_neg hc, if_neg (fun hh => hc (this.1 hh))]
    have hkind : (convOf c).kind = c.kind := rfl
    rw [hkind, if_neg m1, if_neg m2, if_neg m3, if_neg m4, if_neg m5, if_neg m6, if_neg m7, if_pos hf, hu, hu]
    cases a with
    | real x => cases x <;> rfl
    | _ => rfl
  rw [hr, hfits]
  cases a with
  | real x =>
    refine ⟨fun hh => ?_, fun hh => if_neg (fun hg => hh ⟨hg, x, rfl⟩)⟩
    dsimp only
    rw [if_pos hh.1]
    cases x with
    | fin neg m =>
      refine ⟨_, rfl, _, ?_, field_spec c true True (by simp) _ _⟩
      exact shows_real c hf ha
    | inf neg => exact ⟨_, rfl, field_spec c false False (by simp) _ _⟩
    | nan neg => exact ⟨_, rfl, field_spec c false False (by simp) _ _⟩
  | uint n => exact ⟨fun ⟨_, v, hv⟩ => by simp at hv, fun _ => rfl⟩
  | long n => exact ⟨fun ⟨_, v, hv⟩ => by simp at hv, fun _ => rfl⟩
  | ulong n => exact ⟨fun ⟨_, v, hv⟩ => by simp at hv, fun _ => rfl⟩
  | int n => exact ⟨fun ⟨_, v, hv⟩ => by simp at hv, fun _ => rfl⟩
  | str n => exact ⟨fun ⟨_, v, hv⟩ => by simp at hv, fun _ => rfl⟩

theorem render_spec (c : Conversion) (h : c.Valid) (a : PrintfArg) (ha : ArgOk a) :
    (c.Fits a → ∃ t, (convOf c).render a = some t ∧ c.Shows a t) ∧ (¬ c.Fits a → (convOf c).render a = none) := by
  have hl := h.len
  have hk := h.kind
  have hsplit : c.kind ∈ b!"di" ∨ c.kind ∈ b!"uoxX" ∨ c.kind = c!"c" ∨ c.kind = c!"s" ∨ c.kind ∈ b!"fFeEgG" := by
    simp only [List.mem_cons, List.not_mem_nil, or_false] at hk ⊢
    tauto
  rcases hsplit with hd | hu | hc | hs | hf
  · -- signed
    rw [render_signed c h hd]
    have nu : ¬ c.kind ∈ b!"uoxX" := by
      have : ∀ k ∈ b!"di", k ∉ b!"uoxX" := by decide +kernel
      exact this _ hd
    have nc : c.kind ≠ c!"c" ∧ c.kind ≠ c!"s" ∧ c.kind ∉ b!"fFeEgG" ∧ c.kind ∈ b!"diuoxX" := by
      have : ∀ k ∈ b!"di", k ≠ c!"c" ∧ k ≠ c!"s" ∧ k ∉ b!"fFeEgG" ∧ k ∈ b!"diuoxX" := by decide +kernel
      exact this _ hd
    have go : ∀ bits (x v : Int), Conversion.SignedRange bits v → Conversion.SameBits bits v x → c.ShowsInteger bits x
        ((convOf c).field (convOf c).prec.isNone ((convOf c).sign (decide (v < 0))) (PrintfConv.digits 10 false (convOf c).prec v.natAbs)) :=
      fun bits x v h1 h2 => ⟨fun _ => ⟨v, h1, h2, shows_signed c v⟩, fun hu => absurd hu nu⟩
    cases a with
    | int v =>
      by_cases e : c.len = []
      · refine ⟨fun _ => ⟨_, by simp [PrintfConv.signed, e]; rfl, ?_⟩, fun hn => absurd (Or.inl ⟨nc.2.2.2, e, Or.inl ⟨v, rfl⟩⟩) hn⟩
        unfold Conversion.Shows
        dsimp only
        rw [if_neg nc.1]
        exact go 32 v v ha (sameBits_refl _ _)
      · refine ⟨?_, fun _ => by simp [PrintfConv.signed, e]⟩
        rintro (⟨-, e', -⟩ | ⟨-, -, ⟨x, hx⟩ | ⟨x, hx⟩⟩ | ⟨e', -⟩ | ⟨e', -⟩ | ⟨e', -⟩)
        · exact absurd e' e
        · simp at hx
        · simp at hx
        · exact absurd e' nc.1
        · exact absurd e' nc.2.1
        · exact absurd e' nc.2.2.1
    | uint n =>
      by_cases e : c.len = []
      · refine ⟨fun _ => ⟨_, by simp only [PrintfConv.signed, e, if_true, Option.map_some]; rfl, ?_⟩, fun hn => absurd (Or.inl ⟨nc.2.2.2, e, Or.inr ⟨n, rfl⟩⟩) hn⟩
        obtain ⟨h1, h2⟩ := signed_range32 ha _ rfl
        exact go 32 n _ h1 h2
      · refine ⟨?_, fun _ => by simp [PrintfConv.signed, e]⟩
        rintro (⟨-, e', -⟩ | ⟨-, -, ⟨x, hx⟩ | ⟨x, hx⟩⟩ | ⟨e', -⟩ | ⟨e', -⟩ | ⟨e', -⟩)
        · exact absurd e' e
        · simp at hx
        · simp at hx
        · exact absurd e' nc.1
        · exact absurd e' nc.2.1
        · exact absurd e' nc.2.2.1
    | long v =>
      by_cases e : c.len = []
      · refine ⟨?_, fun _ => by simp [PrintfConv.signed, e]⟩
        rintro (⟨-, -, ⟨x, hx⟩ | ⟨x, hx⟩⟩ | ⟨-, e', -⟩ | ⟨e', -⟩ | ⟨e', -⟩ | ⟨e', -⟩)
        · simp at hx
        · simp at hx
        · exact absurd e e'
        · exact absurd e' nc.1
        · exact absurd e' nc.2.1
        · exact absurd e' nc.2.2.1
      · refine ⟨fun _ => ⟨_, by simp only [PrintfConv.signed, e, if_false, Option.map_some]; rfl, ?_⟩, fun hn => absurd (Or.inr (Or.inl ⟨nc.2.2.2, e, Or.inl ⟨v, rfl⟩⟩)) hn⟩
        exact go 64 v v ha (sameBits_refl _ _)
    | ulong n =>
      by_cases e : c.len = []
      · refine ⟨?_, fun _ => by simp [PrintfConv.signed, e]⟩
        rintro (⟨-, -, ⟨x, hx⟩ | ⟨x, hx⟩⟩ | ⟨-, e', -⟩ | ⟨e', -⟩ | ⟨e', -⟩ | ⟨e', -⟩)
        · simp at hx
        · simp at hx
        · exact absurd e e'
        · exact absurd e' nc.1
        · exact absurd e' nc.2.1
        · exact absurd e' nc.2.2.1
      · refine ⟨fun _ => ⟨_, by simp only [PrintfConv.signed, e, if_false, Option.map_some]; rfl, ?_⟩, fun hn => absurd (Or.inr (Or.inl ⟨nc.2.2.2, e, Or.inr ⟨n, rfl⟩⟩)) hn⟩
        obtain ⟨h1, h2⟩ := signed_range64 ha _ rfl
        exact go 64 n _ h1 h2
    | str s =>
      refine ⟨?_, fun _ => rfl⟩
      rintro (⟨-, -, ⟨x, hx⟩ | ⟨x, hx⟩⟩ | ⟨-, -, ⟨x, hx⟩ | ⟨x, hx⟩⟩ | ⟨e', -⟩ | ⟨e', -⟩ | ⟨e', -⟩)
      · simp at hx
      · simp at hx
      · simp at hx
      · simp at hx
      · exact absurd e' nc.1
      · exact absurd e' nc.2.1
      · exact absurd e' nc.2.2.1
    | real s =>
      refine ⟨?_, fun _ => rfl⟩
      rintro (⟨-, -, ⟨x, hx⟩ | ⟨x, hx⟩⟩ | ⟨-, -, ⟨x, hx⟩ | ⟨x, hx⟩⟩ | ⟨e', -⟩ | ⟨e', -⟩ | ⟨e', -⟩)
      · simp at hx
      · simp at hx
      · simp at hx
      · simp at hx
      · exact absurd e' nc.1
      · exact absurd e' nc.2.1
      · exact absurd e' nc.2.2.1
  · -- unsigned
    rw [render_unsigned c h hu]
    have nu : ¬ c.kind ∈ b!"di" := by
      have : ∀ k ∈ b!"uoxX", k ∉ b!"di" := by decide +kernel
      exact this _ hu
    have nc : c.kind ≠ c!"c" ∧ c.kind ≠ c!"s" ∧ c.kind ∉ b!"fFeEgG" ∧ c.kind ∈ b!"diuoxX" := by
      have : ∀ k ∈ b!"uoxX", k ≠ c!"c" ∧ k ≠ c!"s" ∧ k ∉ b!"fFeEgG" ∧ k ∈ b!"diuoxX" := by decide +kernel
      exact this _ hu
    have go : ∀ bits (x : Int) (n : Nat), n < 2 ^ bits → Conversion.SameBits bits n x → c.ShowsInteger bits x
        ((convOf c).field (convOf c).prec.isNone [] (PrintfConv.digits c.base (decide (c.kind = c!"X")) (convOf c).prec n)) :=
      fun bits x n h1 h2 => ⟨fun hd => absurd hd nu, fun _ => ⟨n, h1, h2, shows_unsigned c n _ _ rfl rfl⟩⟩
    cases a with
    | int v =>
      by_cases e : c.len = []
      · refine ⟨fun _ => ⟨_, by simp only [PrintfConv.unsigned, e, if_true, Option.map_some]; rfl, ?_⟩, fun hn => absurd (Or.inl ⟨nc.2.2.2, e, Or.inl ⟨v, rfl⟩⟩) hn⟩
        unfold Conversion.Shows
        dsimp only
        rw [if_neg nc.1]
        obtain ⟨h1, h2⟩ := sameBits_mod 32 v
        exact go 32 v _ h1 h2
      · refine ⟨?_, fun _ => by simp [PrintfConv.unsigned, e]⟩
        rintro (⟨-, e', -⟩ | ⟨-, -, ⟨x, hx⟩ | ⟨x, hx⟩⟩ | ⟨e', -⟩ | ⟨e', -⟩ | ⟨e', -⟩)
        · exact absurd e' e
        · simp at hx
        · simp at hx
        · exact absurd e' nc.1
        · exact absurd e' nc.2.1
        · exact absurd e' nc.2.2.1
    | uint n =>
      by_cases e : c.len = []
      · refine ⟨fun _ => ⟨_, by simp only [PrintfConv.unsigned, e, if_true, Option.map_some]; rfl, ?_⟩, fun hn => absurd (Or.inl ⟨nc.2.2.2, e, Or.inr ⟨n, rfl⟩⟩) hn⟩
        exact go 32 n n ha (sameBits_refl _ _)
      · refine ⟨?_, fun _ => by simp [PrintfConv.unsigned, e]⟩
        rintro (⟨-, e', -⟩ | ⟨-, -, ⟨x, hx⟩ | ⟨x, hx⟩⟩ | ⟨e', -⟩ | ⟨e', -⟩ | ⟨e', -⟩)
        · exact absurd e' e
        · simp at hx
        · simp at hx
        · exact absurd e' nc.1
        · exact absurd e' nc.2.1
        · exact absurd e' nc.2.2.1
    | long v =>
      by_cases e : c.len = []
      · refine ⟨?_, fun _ => by simp [PrintfConv.unsigned, e]⟩
        rintro (⟨-, -, ⟨x, hx⟩ | ⟨x, hx⟩⟩ | ⟨-, e', -⟩ | ⟨e', -⟩ | ⟨e', -⟩ | ⟨e', -⟩)
        · simp at hx
        · simp at hx
        · exact absurd e e'
        · exact absurd e' nc.1
        · exact absurd e' nc.2.1
        · exact absurd e' nc.2.2.1
      · refine ⟨fun _ => ⟨_, by simp only [PrintfConv.unsigned, e, if_false, Option.map_some]; rfl, ?_⟩, fun hn => absurd (Or.inr (Or.inl ⟨nc.2.2.2, e, Or.inl ⟨v, rfl⟩⟩)) hn⟩
        obtain ⟨h1, h2⟩ := sameBits_mod 64 v
        exact go 64 v _ h1 h2
    | ulong n =>
      by_cases e : c.len = []
      · refine ⟨?_, fun _ => by simp [PrintfConv.unsigned, e]⟩
        rintro (⟨-, -, ⟨x, hx⟩ | ⟨x, hx⟩⟩ | ⟨-, e', -⟩ | ⟨e', -⟩ | ⟨e', -⟩ | ⟨e', -⟩)
        · simp at hx
        · simp at hx
        · exact absurd e e'
        · exact absurd e' nc.1
        · exact absurd e' nc.2.1
        · exact absurd e' nc.2.2.1
      · refine ⟨fun _ => ⟨_, by simp only [PrintfConv.unsigned, e, if_false, Option.map_some]; rfl, ?_⟩, fun hn => absurd (Or.inr (Or.inl ⟨nc.2.2.2, e, Or.inr ⟨n, rfl⟩⟩)) hn⟩
        exact go 64 n n ha (sameBits_refl _ _)
    | str s =>
      refine ⟨?_, fun _ => rfl⟩
      rintro (⟨-, -, ⟨x, hx⟩ | ⟨x, hx⟩⟩ | ⟨-, -, ⟨x, hx⟩ | ⟨x, hx⟩⟩ | ⟨e', -⟩ | ⟨e', -⟩ | ⟨e', -⟩)
      · simp at hx
      · simp at hx
      · simp at hx
      · simp at hx
      · exact absurd e' nc.1
      · exact absurd e' nc.2.1
      · exact absurd e' nc.2.2.1
    | real s =>
      refine ⟨?_, fun _ => rfl⟩
      rintro (⟨-, -, ⟨x, hx⟩ | ⟨x, hx⟩⟩ | ⟨-, -, ⟨x, hx⟩ | ⟨x, hx⟩⟩ | ⟨e', -⟩ | ⟨e', -⟩ | ⟨e', -⟩)
      · simp at hx
      · simp at hx
      · simp at hx
      · simp at hx
      · exact absurd e' nc.1
      · exact absurd e' nc.2.1
      · exact absurd e' nc.2.2.1
  · -- a character
    have hfits : c.Fits a ↔ (c.len = [] ∧ c.prec = none ∧ c!"0" ∉ c.flags ∧ ∃ v, a = .int v) := by
      unfold Conversion.Fits
      rw [hc]
      simp
    have hr : (convOf c).render a = match a with
        | .int v => if c.len = [] ∧ c.prec.map decValue = none ∧ c!"0" ∉ c.flags then some ((convOf c).field false [] [UInt8.ofInt v]) else none
        | _ => none := by
      unfold PrintfConv.render
      rw [if_neg (by show ¬ (c.len ≠ [] ∧ c.len ≠ b!"l" ∧ c.len ≠ b!"ll" ∧ c.len ≠ b!"z"); tauto)]
      have hkind : (convOf c).kind = c!"c" := hc
      rw [hkind]
      cases a <;> rfl
    rw [hr, hfits]
    cases a with
    | int v =>
      simp only [Option.map_eq_none_iff]
      refine ⟨fun hh => ⟨_, if_pos ⟨hh.1, hh.2.1, hh.2.2.1⟩, ?_⟩, fun hh => if_neg (fun hg => hh ⟨hg.1, hg.2.1, hg.2.2, v, rfl⟩)⟩
      unfold Conversion.Shows
      dsimp only
      rw [if_pos hc]
      exact field_spec c false False (by simp) _ _
    | uint n => exact ⟨fun ⟨_, _, _, v, hv⟩ => by simp at hv, fun _ => rfl⟩
    | long n => exact ⟨fun ⟨_, _, _, v, hv⟩ => by simp at hv, fun _ => rfl⟩
    | ulong n => exact ⟨fun ⟨_, _, _, v, hv⟩ => by simp at hv, fun _ => rfl⟩
    | str n => exact ⟨fun ⟨_, _, _, v, hv⟩ => by simp at hv, fun _ => rfl⟩
    | real n => exact ⟨fun ⟨_, _, _, v, hv⟩ => by simp at hv, fun _ => rfl⟩
  · -- a string
    have hfits : c.Fits a ↔ (c.len = [] ∧ c!"0" ∉ c.flags ∧ ∃ v, a = .str v) := by
      unfold Conversion.Fits
      rw [hs]
      simp
    have hr : (convOf c).render a = match a with
        | .str s => if c.len = [] ∧ c!"0" ∉ c.flags then
            some ((convOf c).field false [] (match c.prec.map decValue with | none => s | some p => s.take p)) else none
        | _ => none := by
      unfold PrintfConv.render
      rw [if_neg (by show ¬ (c.len ≠ [] ∧ c.len ≠ b!"l" ∧ c.len ≠ b!"ll" ∧ c.len ≠ b!"z"); tauto)]
      have hkind : (convOf c).kind = c!"s" := hs
      rw [hkind]
      cases a <;> rfl
    rw [hr, hfits]
    cases a with
    | str v =>
      refine ⟨fun hh => ⟨_, if_pos ⟨hh.1, hh.2.1⟩, ?_⟩, fun hh => if_neg (fun hg => hh ⟨hg.1, hg.2, v, rfl⟩)⟩
      unfold Conversion.Shows
      have : (match c.prec.map decValue with | none => v | some p => v.take p) = (match c.prec with | none => v | some p => v.take (decValue p)) := by
        cases c.prec <;> rfl
      rw [this]
      exact field_spec c false False (by simp) _ _
    | uint n => exact ⟨fun ⟨_, _, v, hv⟩ => by simp at hv, fun _ => rfl⟩
    | long n => exact ⟨fun ⟨_, _, v, hv⟩ => by simp at hv, fun _ => rfl⟩
    | ulong n => exact ⟨fun ⟨_, _, v, hv⟩ => by simp at hv, fun _ => rfl⟩
    | int n => exact ⟨fun ⟨_, _, v, hv⟩ => by simp at hv, fun _ => rfl⟩
    | real n => exact ⟨fun ⟨_, _, v, hv⟩ => by simp at hv, fun _ => rfl⟩
  · exact render_real c h hf a ha

/-! ## The whole format -/

theorem loop_text (s : Str) (hs : ∀ c ∈ s, c ≠ c!"%") (fmt : Str) (args : List PrintfArg) (n : Nat) :
    printfLoop (n + s.length) (s ++ fmt) args = (printfLoop n fmt args).map (s ++ ·) := by
  induction s with
  | nil => show printfLoop n fmt args = _; cases printfLoop n fmt args <;> simp [Res.map]
  | cons c s ih =>
    have h1 := ih (fun x hx => hs x (by simp [hx]))
    show printfLoop (n + s.length + 1) (c :: (s ++ fmt)) args = _
    rw [printfLoop, if_neg (hs c (by simp)), h1]
    cases printfLoop n fmt args <;> simp [Res.map]

theorem parse_percent (fmt : Str) : PrintfConv.parse (c!"%" :: fmt) = some (⟨[], 0, none, [], c!"%"⟩, fmt) := by
  unfold PrintfConv.parse
  simp [PrintfConv.isFlag, PrintfConv.isDigit, PrintfConv.isLen, PrintfConv.number]

theorem loop_pieces (ps : List Piece) (hps : ∀ p ∈ ps, p.Valid) (n : Nat) (hn : (formatOf ps).length < n) (as : List PrintfArg) (has : ∀ a ∈ as, ArgOk a) :
    (Enough ps as → ∃ out, Formats ps as out ∧ printfLoop n (formatOf ps) as = .ok out) ∧
    (¬ Enough ps as → printfLoop n (formatOf ps) as = .ub) := by
  induction ps generalizing n as with
  | nil =>
    obtain ⟨n, rfl⟩ : ∃ k, n = k + 1 := ⟨n - 1, by omega⟩
    exact ⟨fun _ => ⟨[], .nil as, rfl⟩, fun h => absurd trivial h⟩
  | cons p ps ih =>
    have hv := hps p (by simp)
    have ih := ih (fun q hq => hps q (by simp [hq]))
    have hf : formatOf (p :: ps) = p.source ++ formatOf ps := by simp [formatOf]
    rw [hf] at hn ⊢
    rw [List.length_append] at hn
    cases p with
    | text s =>
      have hs : (Piece.text s).source = s := rfl
      rw [hs] at hn ⊢
      obtain ⟨m, rfl⟩ : ∃ m, n = m + s.length := ⟨n - s.length, by omega⟩
      rw [loop_text s (fun c hc => (hv c hc).1)]
      obtain ⟨h1, h2⟩ := ih m (by omega) as has
      refine ⟨fun he => ?_, fun he => ?_⟩
      · obtain ⟨out, g1, g2⟩ := h1 he
        exact ⟨_, .text s g1, by rw [g2]; rfl⟩
      · rw [h2 he]; rfl
    | percent =>
      have hs : Piece.percent.source = [c!"%", c!"%"] := rfl
      rw [hs] at hn ⊢
      simp only [List.length_cons, List.length_nil] at hn
      obtain ⟨m, rfl⟩ : ∃ m, n = m + 1 := ⟨n - 1, by omega⟩
      obtain ⟨h1, h2⟩ := ih m (by omega) as has
      have e : printfLoop (m + 1) ([c!"%", c!"%"] ++ formatOf ps) as = (do let t ← printfLoop m (formatOf ps) as; .ok (c!"%" :: t)) := by
        show printfLoop (m + 1) (c!"%" :: (c!"%" :: formatOf ps)) as = _
        rw [printfLoop, if_pos rfl, parse_percent]
        rfl
      rw [e]
      refine ⟨fun he => ?_, fun he => ?_⟩
      · obtain ⟨out, g1, g2⟩ := h1 he
        exact ⟨_, .percent g1, by rw [g2]; rfl⟩
      · rw [h2 he]; rfl
    | conv c =>
      have hv : c.Valid := hv
      have hs : (Piece.conv c).source = c.source := rfl
      rw [hs] at hn ⊢
      have hlen : 1 ≤ c.source.length := by simp [Conversion.source]
      obtain ⟨m, rfl⟩ : ∃ m, n = m + 1 := ⟨n - 1, by omega⟩
      have hkind : (convOf c).kind ≠ c!"%" := by
        have : ∀ k ∈ b!"diuoxXcsfFeEgG", k ≠ c!"%" := by decide +kernel
        exact this _ hv.kind
      have e : printfLoop (m + 1) (c.source ++ formatOf ps) as =
          (match as with
          | [] => .ub
          | a :: as =>
            match (convOf c).render a with
            | none => .ub
            | some s => do
              let t ← printfLoop m (formatOf ps) as
              .ok (s ++ t)) := by
        have hp := parse_source c hv (formatOf ps)
        unfold Conversion.source
        rw [List.cons_append, printfLoop, if_pos rfl, hp]
        dsimp only
        rw [if_neg hkind]
        cases as with
        | nil => rfl
        | cons a as => cases hr : (convOf c).render a <;> simp only [hr]
      rw [e]
      cases as with
      | nil => exact ⟨fun he => absurd he (by simp [Enough]), fun _ => rfl⟩
      | cons a as =>
        obtain ⟨r1, r2⟩ := render_spec c hv a (has a (by simp))
        obtain ⟨h1, h2⟩ := ih m (by omega) as (fun x hx => has x (by simp [hx]))
        by_cases hfit : c.Fits a
        · obtain ⟨t, ht, hsh⟩ := r1 hfit
          dsimp only
          rw [ht]
          dsimp only
          refine ⟨fun he => ?_, fun he => ?_⟩
          · obtain ⟨out, g1, g2⟩ := h1 he.2
            exact ⟨_, .conv c hfit hsh g1, by rw [g2]; rfl⟩
          · rw [h2 (fun hh => he ⟨hfit, hh⟩)]; rfl
        · dsimp only
          rw [r2 hfit]
          exact ⟨fun he => absurd he.1 hfit, fun _ => rfl⟩

end Flut
