import Verif.Proofs.Printf
import Verif.Props.FileSystem

/-! # Property theorems: formatted text (C131) -/

namespace Flut

open Spec

theorem source_ne_zero (p : Piece) (h : p.Valid) : ∀ c ∈ p.source, c ≠ 0 := by
  cases p with
  | text s => exact fun c hc => (h c hc).2
  | percent => show ∀ c ∈ b!"%%", c ≠ 0; decide +kernel
  | conv c =>
    have hv : c.Valid := h
    have hdig : ∀ x : Byte, 48 ≤ x.toNat ∧ x.toNat ≤ 57 → x ≠ 0 := by
      rintro x ⟨h1, -⟩ rfl
      simp at h1
    intro x hx
    have hx : x ∈ c.source := hx
    unfold Conversion.source Conversion.precText at hx
    simp only [List.mem_cons, List.mem_append, List.not_mem_nil, or_false] at hx
    rcases hx with rfl | (((hx | hx) | hx) | hx) | rfl
    · decide
    · have : ∀ y ∈ b!"-0+ ", y ≠ 0 := by decide +kernel
      exact this x (hv.flags x hx)
    · exact hdig x (hv.width x hx)
    · cases hp : c.prec with
      | none => rw [hp] at hx; simp at hx
      | some p =>
        rw [hp] at hx
        rcases List.mem_cons.1 hx with rfl | hx
        · decide
        · exact hdig x (hv.prec p hp x hx)
    · rcases hv.len with e | e | e | e <;> rw [e] at hx
      · simp at hx
      all_goals
        simp only [List.mem_cons, List.not_mem_nil, or_false] at hx
        rcases hx with rfl | rfl <;> decide
    · have : ∀ y ∈ b!"diuoxXcsfFeEgG", y ≠ 0 := by decide +kernel
      exact this _ hv.kind

theorem cstr_formatOf (ps : List Piece) (hps : ∀ p ∈ ps, p.Valid) : cstr (formatOf ps) = formatOf ps := by
  refine cstr_of_ne_zero ?_
  intro c hc
  obtain ⟨p, hp, hc⟩ := List.mem_flatMap.1 hc
  exact source_ne_zero p (hps p hp) c hc

theorem printfText_pieces (ps : List Piece) (hps : ∀ p ∈ ps, p.Valid) (as : List PrintfArg) (has : ∀ a ∈ as, ArgOk a) :
    (Enough ps as → ∃ out, Formats ps as out ∧ printfText (formatOf ps) as = .ok out) ∧ (¬ Enough ps as → printfText (formatOf ps) as = .ub) := by
  unfold printfText
  rw [cstr_formatOf ps hps]
  exact loop_pieces ps hps _ (by omega) as has

/-- `stringf` with arguments that fit returns what the format expands to, up to 255 characters and up to the first NUL; a text that is not longer is
returned as it is. -/
theorem C131_stringf (ps : List Piece) (hps : ∀ p ∈ ps, p.Valid) (as : List PrintfArg) (has : ∀ a ∈ as, ArgOk a) (he : Enough ps as) :
    ∃ out, Formats ps as out ∧ (∃ t, stringf (formatOf ps) as = .ok t ∧ t <+: out.take 255 ∧ (∀ c ∈ t, c ≠ 0) ∧ (t.length < min out.length 255 → out[t.length]? = some 0)) ∧
      (out.length ≤ 255 → (∀ c ∈ out, c ≠ 0) → stringf (formatOf ps) as = .ok out) := by
  obtain ⟨out, h1, h2⟩ := (printfText_pieces ps hps as has).1 he
  have hs : stringf (formatOf ps) as = .ok (cstr (out.take 255)) := by unfold stringf; rw [h2]; rfl
  refine ⟨out, h1, ⟨_, hs, List.takeWhile_prefix _, ?_, ?_⟩, ?_⟩
  · intro c hc
    have := mem_takeWhile_true hc
    simpa using this
  · intro hl
    have key : ∀ l : Str, (cstr l).length < l.length → l[(cstr l).length]? = some 0 := by
      intro l
      induction l with
      | nil => simp
      | cons x l ih =>
        unfold cstr
        rw [List.takeWhile_cons]
        by_cases hx : x = 0
        · subst hx; simp
        · rw [if_pos (by simpa using hx)]
          intro hl
          simp only [List.length_cons, List.getElem?_cons_succ] at hl ⊢
          exact ih (by unfold cstr; omega)
    have := key (out.take 255) (by rw [List.length_take]; omega)
    rw [List.getElem?_take] at this
    rw [if_pos (by omega)] at this
    exact this
  · intro hl hc
    rw [hs, List.take_of_length_le hl, cstr_of_ne_zero hc]

/-- With too few arguments, or one of another type, the call is undefined. -/
theorem C131_arguments (ps : List Piece) (hps : ∀ p ∈ ps, p.Valid) (as : List PrintfArg) (has : ∀ a ∈ as, ArgOk a) (he : ¬ Enough ps as) :
    stringf (formatOf ps) as = .ub := by
  unfold stringf
  rw [(printfText_pieces ps hps as has).2 he]
  rfl

/-- `printf("%-6d|%05.1f|%x")` -/
def samplePieces : List Piece :=
  [.conv ⟨b!"-", b!"6", none, [], c!"d"⟩, .text b!"|", .conv ⟨b!"0", b!"5", some b!"1", [], c!"f"⟩, .percent, .conv ⟨[], [], none, b!"z", c!"x"⟩]

example : formatOf samplePieces = b!"%-6d|%05.1f%%%zx" ∧
    stringf (formatOf samplePieces) [.int (-42), .real (.fin true (5/4)), .ulong 48879] = .ok b!"-42   |-01.2%beef" ∧
    stringf (formatOf samplePieces) [.int (-42), .real (.fin true (5/4)), .int 48879] = .ub ∧
    stringf (formatOf samplePieces) [.int (-42)] = .ub := by decide +kernel

/-- The other ways to show real numbers. -/
example : stringf b!"%.3e|%G|%g|%g|%.0e|%F" [.real (.fin false 1234567), .real (.fin true (1 / 2 ^ 20)), .real (.fin false (5 / 2)), .real (.fin false 100),
      .real (.fin false (995 / 100)), .real (.inf true)] = .ok b!"1.235e+06|-9.53674E-07|2.5|100|1e+01|-INF" ∧
    stringf b!"%g|%.3g|%.0g|%010.2e|%g" [.real (.fin false 0), .real (.fin false 9999), .real (.fin false (1 / 3)), .real (.fin true (1 / 3)),
      .real (.fin false (1 / 10000))] = .ok b!"0|1e+04|0.3|-03.33e-01|0.0001" := by decide +kernel

theorem valid_sample : ∀ p ∈ samplePieces, p.Valid := by
  intro p hp
  simp only [samplePieces, List.mem_cons, List.not_mem_nil, or_false] at hp
  rcases hp with rfl | rfl | rfl | rfl | rfl
  · refine ⟨by decide +kernel, by decide +kernel, by decide +kernel, by simp, by simp, by decide +kernel⟩
  · show ∀ c ∈ b!"|", c ≠ c!"%" ∧ c ≠ 0
    decide +kernel
  · refine ⟨by decide +kernel, by decide +kernel, by decide +kernel, ?_, by simp, by decide +kernel⟩
    intro p hp
    simp only [Option.some.injEq] at hp
    subst hp
    decide +kernel
  · trivial
  · refine ⟨by decide +kernel, by decide +kernel, by decide +kernel, by simp, by simp, by decide +kernel⟩

example : Enough samplePieces [.int (-42), .real (.fin true (5/4)), .ulong 48879] := by
  refine ⟨Or.inl ⟨by decide +kernel, rfl, Or.inl ⟨_, rfl⟩⟩, Or.inr (Or.inr (Or.inr (Or.inr ⟨by decide +kernel, Or.inl rfl, _, rfl⟩))), ?_, trivial⟩
  exact Or.inr (Or.inl ⟨by decide +kernel, by decide +kernel, Or.inr ⟨_, rfl⟩⟩)

/-! ## Which formats are defined -/

theorem mem_of_takeWhile {p : Byte → Bool} {l : Str} {x : Byte} (h : x ∈ l.takeWhile p) : p x = true := mem_takeWhile_true h

/-- What a specification was read from. -/
theorem parse_from {s rest : Str} {c : PrintfConv} (h : PrintfConv.parse s = some (c, rest)) :
    ∃ k : Conversion, c!"%" :: s = k.source ++ rest ∧ k.flags = c.flags ∧ k.len = c.len ∧ k.kind = c.kind ∧ (k.prec = none ↔ c.prec = none) ∧
      (∀ x ∈ k.flags, x ∈ b!"-0+ ") ∧ (∀ x ∈ k.width, 48 ≤ x.toNat ∧ x.toNat ≤ 57) ∧ k.width.head? ≠ some c!"0" ∧
      (∀ p, k.prec = some p → ∀ x ∈ p, 48 ≤ x.toNat ∧ x.toNat ≤ 57) ∧ c.width = PrintfConv.number k.width := by
  unfold PrintfConv.parse at h
  have e1 := List.takeWhile_append_dropWhile (p := PrintfConv.isFlag) (l := s)
  have hf : ∀ x ∈ s.takeWhile PrintfConv.isFlag, x ∈ b!"-0+ " := by
    intro x hx
    have := mem_of_takeWhile hx
    simp only [PrintfConv.isFlag, Bool.or_eq_true, beq_iff_eq] at this
    rcases this with ((rfl | rfl) | rfl) | rfl <;> decide +kernel
  have hh : (s.dropWhile PrintfConv.isFlag).head? ≠ some c!"0" := by
    intro h0
    have := List.head?_dropWhile_not PrintfConv.isFlag s
    rw [h0] at this
    simp [PrintfConv.isFlag] at this
  generalize s.takeWhile PrintfConv.isFlag = fl at *
  generalize s.dropWhile PrintfConv.isFlag = s1 at *
  have e2 := List.takeWhile_append_dropWhile (p := PrintfConv.isDigit) (l := s1)
  have hw : ∀ x ∈ s1.takeWhile PrintfConv.isDigit, 48 ≤ x.toNat ∧ x.toNat ≤ 57 := fun x hx => by
    simpa [PrintfConv.isDigit] using mem_of_takeWhile hx
  have hw0 : (s1.takeWhile PrintfConv.isDigit).head? ≠ some c!"0" := by
    intro h0
    apply hh
    rw [← e2, List.head?_append, h0]
    rfl
  have main : ∀ (p : Option Str) (s3 : Str), s1.dropWhile PrintfConv.isDigit = (match p with | none => [] | some p => c!"." :: p) ++ s3 →
      (∀ q, p = some q → ∀ x ∈ q, 48 ≤ x.toNat ∧ x.toNat ≤ 57) →
      ∀ kd r, s3.dropWhile PrintfConv.isLen = kd :: r →
      (⟨fl, PrintfConv.number (s1.takeWhile PrintfConv.isDigit), p.map PrintfConv.number, s3.takeWhile PrintfConv.isLen, kd⟩ : PrintfConv) = c → r = rest →
      ∃ k : Conversion, c!"%" :: s = k.source ++ rest ∧ k.flags = c.flags ∧ k.len = c.len ∧ k.kind = c.kind ∧ (k.prec = none ↔ c.prec = none) ∧
      (∀ x ∈ k.flags, x ∈ b!"-0+ ") ∧ (∀ x ∈ k.width, 48 ≤ x.toNat ∧ x.toNat ≤ 57) ∧ k.width.head? ≠ some c!"0" ∧
      (∀ p, k.prec = some p → ∀ x ∈ p, 48 ≤ x.toNat ∧ x.toNat ≤ 57) ∧ c.width = PrintfConv.number k.width := by
    intro p s3 es hp kd r hd hc hr
    subst hc hr
    have e3 := List.takeWhile_append_dropWhile (p := PrintfConv.isLen) (l := s3)
    rw [hd] at e3
    refine ⟨⟨fl, s1.takeWhile PrintfConv.isDigit, p, s3.takeWhile PrintfConv.isLen, kd⟩, ?_, rfl, rfl, rfl, by cases p <;> simp, hf, hw, hw0, hp, rfl⟩
    rw [es, ← e3] at e2
    rw [← e1]
    conv => lhs; rw [← e2]
    simp only [Conversion.source, Conversion.precText]
    cases p <;> simp
  rcases es2 : s1.dropWhile PrintfConv.isDigit with _ | ⟨x, r⟩
  · simp [es2] at h
  · simp only [es2] at h main
    by_cases hx : x = c!"."
    · subst hx
      simp only [if_true] at h
      rcases es3 : (r.dropWhile PrintfConv.isDigit).dropWhile PrintfConv.isLen with _ | ⟨kd, r'⟩
      · simp [es3] at h
      · simp only [es3, Option.some.injEq, Prod.mk.injEq] at h
        refine main (some (r.takeWhile PrintfConv.isDigit)) (r.dropWhile PrintfConv.isDigit) (by simp) ?_ kd r' es3 h.1 h.2
        intro q hq y hy
        simp only [Option.some.injEq] at hq
        subst hq
        simpa [PrintfConv.isDigit] using mem_of_takeWhile hy
    · simp only [if_neg hx] at h
      rcases es3 : (x :: r).dropWhile PrintfConv.isLen with _ | ⟨kd, r'⟩
      · simp [es3] at h
      · simp only [es3, Option.some.injEq, Prod.mk.injEq] at h
        exact main none (x :: r) rfl (by simp) kd r' es3 h.1 h.2

/-- An argument that is shown fits a conversion that is written correctly. -/
theorem render_valid {c : PrintfConv} {k : Conversion} {a : PrintfArg} {t : Str} (h : c.render a = some t) (h1 : k.flags = c.flags) (h2 : k.len = c.len)
    (h3 : k.kind = c.kind) (h4 : k.prec = none ↔ c.prec = none) :
    (k.len = [] ∨ k.len = b!"l" ∨ k.len = b!"ll" ∨ k.len = b!"z") ∧ k.kind ∈ b!"diuoxXcsfFeEgG" ∧ k.Fits a := by
  unfold PrintfConv.render at h
  rw [← h2, ← h3, ← h1] at h
  have hl : k.len = [] ∨ k.len = b!"l" ∨ k.len = b!"ll" ∨ k.len = b!"z" := by
    by_cases e1 : k.len = []
    · exact Or.inl e1
    by_cases e2 : k.len = b!"l"
    · exact Or.inr (Or.inl e2)
    by_cases e3 : k.len = b!"ll"
    · exact Or.inr (Or.inr (Or.inl e3))
    by_cases e4 : k.len = b!"z"
    · exact Or.inr (Or.inr (Or.inr e4))
    rw [if_pos ⟨e1, e2, e3, e4⟩] at h
    cases h
  refine ⟨hl, ?_⟩
  have hsigned : ∀ {g : Int → Str}, (PrintfConv.signed k.len a).map g = some t → k.kind ∈ b!"diuoxX" → k.Fits a := by
    intro g hg hk
    cases a with
    | int v =>
      by_cases e : k.len = []
      · exact Or.inl ⟨hk, e, Or.inl ⟨v, rfl⟩⟩
      · simp [PrintfConv.signed, e] at hg
    | uint n =>
      by_cases e : k.len = []
      · exact Or.inl ⟨hk, e, Or.inr ⟨n, rfl⟩⟩
      · simp [PrintfConv.signed, e] at hg
    | long v =>
      by_cases e : k.len = []
      · simp [PrintfConv.signed, e] at hg
      · exact Or.inr (Or.inl ⟨hk, e, Or.inl ⟨v, rfl⟩⟩)
    | ulong n =>
      by_cases e : k.len = []
      · simp [PrintfConv.signed, e] at hg
      · exact Or.inr (Or.inl ⟨hk, e, Or.inr ⟨n, rfl⟩⟩)
    | _ => simp [PrintfConv.signed] at hg
  have hunsigned : ∀ {g : Nat → Str}, (PrintfConv.unsigned k.len a).map g = some t → k.kind ∈ b!"diuoxX" → k.Fits a := by
    intro g hg hk
    cases a with
    | int v =>
      by_cases e : k.len = []
      · exact Or.inl ⟨hk, e, Or.inl ⟨v, rfl⟩⟩
      · simp [PrintfConv.unsigned, e] at hg
    | uint n =>
      by_cases e : k.len = []
      · exact Or.inl ⟨hk, e, Or.inr ⟨n, rfl⟩⟩
      · simp [PrintfConv.unsigned, e] at hg
    | long v =>
      by_cases e : k.len = []
      · simp [PrintfConv.unsigned, e] at hg
      · exact Or.inr (Or.inl ⟨hk, e, Or.inl ⟨v, rfl⟩⟩)
    | ulong n =>
      by_cases e : k.len = []
      · simp [PrintfConv.unsigned, e] at hg
      · exact Or.inr (Or.inl ⟨hk, e, Or.inr ⟨n, rfl⟩⟩)
    | _ => simp [PrintfConv.unsigned] at hg
  by_cases e0 : k.len ≠ [] ∧ k.len ≠ b!"l" ∧ k.len ≠ b!"ll" ∧ k.len ≠ b!"z"
  · rw [if_pos e0] at h; cases h
  rw [if_neg e0] at h
  by_cases d : k.kind = c!"d" ∨ k.kind = c!"i"
  · rw [if_pos d] at h
    rcases d with d | d
    · exact ⟨by rw [d]; decide +kernel, hsigned h (by rw [d]; decide +kernel)⟩
    · exact ⟨by rw [d]; decide +kernel, hsigned h (by rw [d]; decide +kernel)⟩
  rw [if_neg d] at h
  by_cases d : k.kind = c!"u"
  · rw [if_pos d] at h
    exact ⟨by rw [d]; decide +kernel, hunsigned h (by rw [d]; decide +kernel)⟩
  rw [if_neg d] at h
  by_cases d : k.kind = c!"o"
  · rw [if_pos d] at h
    exact ⟨by rw [d]; decide +kernel, hunsigned h (by rw [d]; decide +kernel)⟩
  rw [if_neg d] at h
  by_cases d : k.kind = c!"x"
  · rw [if_pos d] at h
    exact ⟨by rw [d]; decide +kernel, hunsigned h (by rw [d]; decide +kernel)⟩
  rw [if_neg d] at h
  by_cases d : k.kind = c!"X"
  · rw [if_pos d] at h
    exact ⟨by rw [d]; decide +kernel, hunsigned h (by rw [d]; decide +kernel)⟩
  rw [if_neg d] at h
  by_cases d : k.kind = c!"c"
  · rw [if_pos d] at h
    refine ⟨by rw [d]; decide +kernel, ?_⟩
    cases a <;> simp only at h
    case int v =>
      split_ifs at h with e
      · exact Or.inr (Or.inr (Or.inl ⟨d, e.1, h4.2 e.2.1, e.2.2, v, rfl⟩))
    all_goals cases h
  rw [if_neg d] at h
  by_cases d : k.kind = c!"s"
  · rw [if_pos d] at h
    refine ⟨by rw [d]; decide +kernel, ?_⟩
    cases a <;> simp only at h
    case str s =>
      split_ifs at h with e
      · exact Or.inr (Or.inr (Or.inr (Or.inl ⟨d, e.1, e.2, s, rfl⟩)))
    all_goals cases h
  rw [if_neg d] at h
  by_cases d : k.kind ∈ b!"fFeEgG"
  · rw [if_pos d] at h
    refine ⟨(show ∀ x ∈ b!"fFeEgG", x ∈ b!"diuoxXcsfFeEgG" by decide +kernel) _ d, ?_⟩
    cases a <;> simp only at h
    case real x =>
      by_cases e : k.len = [] ∨ k.len = b!"l"
      · exact Or.inr (Or.inr (Or.inr (Or.inr ⟨d, e, x, rfl⟩)))
      · rw [if_neg e] at h
        cases h
    all_goals cases h
  rw [if_neg d] at h
  cases h

theorem loop_defined (n : Nat) : ∀ (fmt : Str) (as : List PrintfArg) (t : Str), (∀ c ∈ fmt, c ≠ 0) → printfLoop n fmt as = .ok t →
    ∃ ps : List Piece, (∀ p ∈ ps, p.Valid) ∧ formatOf ps = fmt ∧ Enough ps as := by
  induction n with
  | zero => intro fmt as t _ h; simp [printfLoop] at h
  | succ n ih =>
    intro fmt as t h0 h
    cases fmt with
    | nil => exact ⟨[], by simp, rfl, trivial⟩
    | cons c fmt =>
      simp only [printfLoop] at h
      by_cases hc : c = c!"%"
      · subst hc
        rw [if_pos rfl] at h
        cases hp : PrintfConv.parse fmt with
        | none => rw [hp] at h; cases h
        | some r =>
          obtain ⟨conv, rest⟩ := r
          rw [hp] at h
          simp only at h
          obtain ⟨k, ek, k1, k2, k3, k4, k5, k6, k7, k8, k9⟩ := parse_from hp
          have hrest : ∀ x ∈ rest, x ≠ 0 := fun x hx => h0 x (by rw [ek]; exact List.mem_append_right _ hx)
          by_cases hk : conv.kind = c!"%"
          · rw [if_pos hk] at h
            split_ifs at h with hz
            obtain ⟨z1, z2, z3, z4⟩ := hz
            obtain ⟨t', ht, _⟩ := Res.bind_eq_ok.1 h
            obtain ⟨ps, v, e, en⟩ := ih rest as t' hrest ht
            refine ⟨.percent :: ps, ?_, ?_, en⟩
            · intro p hp
              rcases List.mem_cons.1 hp with rfl | hp
              · trivial
              · exact v p hp
            · show b!"%%" ++ formatOf ps = _
              rw [e, ek]
              have kw : k.width = [] := by
                cases hw : k.width with
                | nil => rfl
                | cons d ds =>
                  exfalso
                  rw [k9] at z2
                  have hd := k6 d (by rw [hw]; simp)
                  have hd0 : d ≠ c!"0" := by
                    rintro rfl
                    rw [hw] at k7
                    simp at k7
                  have grow : ∀ (ds : Str) (a : Nat), a ≤ ds.foldl (fun n d => n * 10 + (d.toNat - 48)) a := by
                    intro ds
                    induction ds with
                    | nil => intro a; exact Nat.le_refl _
                    | cons d ds ih => intro a; exact Nat.le_trans (by simp only []; omega) (ih _)
                  rw [hw] at z2
                  have := grow ds (0 * 10 + (d.toNat - 48))
                  have z2' : ds.foldl (fun n d => n * 10 + (d.toNat - 48)) (0 * 10 + (d.toNat - 48)) = 0 := z2
                  rw [z2'] at this
                  exact hd0 (UInt8.toNat_inj.1 (by show d.toNat = 48; omega))
              have kp := k4.2 z3
              rw [z1] at k1
              rw [z4] at k2
              rw [hk] at k3
              simp [Conversion.source, Conversion.precText, kp, kw, k1, k2, k3]
          · rw [if_neg hk] at h
            cases as with
            | nil => cases h
            | cons a as =>
              simp only at h
              cases hr : conv.render a with
              | none => rw [hr] at h; cases h
              | some s =>
                rw [hr] at h
                simp only at h
                obtain ⟨t', ht, _⟩ := Res.bind_eq_ok.1 h
                obtain ⟨ps, v, e, en⟩ := ih rest as t' hrest ht
                obtain ⟨r1, r2, r3⟩ := render_valid hr k1 k2 k3 k4
                refine ⟨.conv k :: ps, ?_, ?_, r3, en⟩
                · intro p hp
                  rcases List.mem_cons.1 hp with rfl | hp
                  · exact ⟨k5, k6, k7, k8, r1, r2⟩
                  · exact v p hp
                · show k.source ++ formatOf ps = _
                  rw [e, ek]
      · rw [if_neg hc] at h
        obtain ⟨t', ht, _⟩ := Res.bind_eq_ok.1 h
        obtain ⟨ps, v, e, en⟩ := ih fmt as t' (fun x hx => h0 x (List.mem_cons_of_mem _ hx)) ht
        refine ⟨.text [c] :: ps, ?_, ?_, en⟩
        · intro p hp
          rcases List.mem_cons.1 hp with rfl | hp
          · intro x hx
            rw [List.mem_singleton.1 hx]
            exact ⟨hc, h0 c (by simp)⟩
          · exact v p hp
        · show [c] ++ formatOf ps = _
          rw [e]
          rfl

/-- Only these formats, with arguments that fit, are described: whenever `stringf` gives a text, the format is made of text, `%%` and conversions
written correctly, and there are enough arguments of the right types. -/
theorem C131_defined (fmt : Str) (as : List PrintfArg) (t : Str) (h : stringf fmt as = .ok t) :
    ∃ ps : List Piece, (∀ p ∈ ps, p.Valid) ∧ formatOf ps = cstr fmt ∧ Enough ps as := by
  obtain ⟨s, hs, _⟩ := Res.bind_eq_ok.1 h
  refine loop_defined _ _ _ s ?_ hs
  intro c hc
  simpa using mem_of_takeWhile hc

example : stringf b!"%5%" [] = .ub ∧ stringf b!"%-%" [] = .ub ∧ stringf b!"%.1%" [] = .ub ∧ stringf b!"%l%" [] = .ub ∧
    stringf b!"%d%%" [.int 7] = .ok b!"7%" := by decide +kernel

/-! ## Text -/

theorem valid_s : (Piece.conv ⟨[], [], none, [], c!"s"⟩).Valid :=
  ⟨by simp, by simp, by simp, by simp, by simp, by decide +kernel⟩

theorem printfText_s (s : Str) : printfText b!"%s" [.str s] = .ok s := by
  show (do let t ← Res.ok []; Res.ok (_ ++ t) : Res Str) = _
  rw [Res.bind_ok, List.append_nil]
  show Res.ok (PrintfConv.field ⟨[], 0, none, [], c!"s"⟩ false [] s) = _
  unfold PrintfConv.field
  simp

/-- Any text without a NUL of at most 255 characters is unharmed as an argument of `%s`. -/
theorem C131_text (s : Str) (h0 : ∀ c ∈ s, c ≠ 0) (hl : s.length ≤ 255) : stringf b!"%s" [.str s] = .ok s := by
  unfold stringf
  rw [printfText_s, Res.bind_ok, List.take_of_length_le hl, cstr_of_ne_zero h0]

example : stringf b!"%s" [.str b!"100% done"] = .ok b!"100% done" := by decide +kernel

/-- Longer texts are not returned whole. -/
theorem C131_long_refuted (s : Str) (h0 : ∀ c ∈ s, c ≠ 0) (hl : 255 < s.length) :
    stringf b!"%s" [.str s] = .ok (s.take 255) ∧ s.take 255 ≠ s := by
  refine ⟨?_, ?_⟩
  · unfold stringf
    rw [printfText_s, Res.bind_ok, cstr_of_ne_zero (fun c hc => h0 c (List.mem_of_mem_take hc))]
  · intro e
    have := congrArg List.length e
    rw [List.length_take] at this
    omega

example : ∃ s : Str, (∀ c ∈ s, c ≠ 0) ∧ 255 < s.length := ⟨List.replicate 256 97, fun c hc => by rw [(List.mem_replicate.1 hc).2]; decide, by rw [List.length_replicate]; omega⟩

/-- As the format itself, only text without `%` is safe: `stringf("100% done")` is undefined. -/
theorem C131_text_as_format (s : Str) (h0 : ∀ c ∈ s, c ≠ 0 ∧ c ≠ c!"%") (hl : s.length ≤ 255) (as : List PrintfArg) : stringf s as = .ok s := by
  unfold stringf printfText
  rw [cstr_of_ne_zero (fun c hc => (h0 c hc).1)]
  have := loop_text s (fun c hc => (h0 c hc).2) [] as 1
  rw [List.append_nil, Nat.add_comm] at this
  rw [this, show printfLoop 1 [] as = .ok [] from rfl, Res.map, Res.bind_ok, List.append_nil, List.take_of_length_le hl, cstr_of_ne_zero (fun c hc => (h0 c hc).1)]

theorem C131_text_as_format_refuted : stringf b!"100% done" [] = .ub ∧ stringf b!"100%" [] = .ub := by decide +kernel

example : stringf b!"done" [] = .ok b!"done" := by decide +kernel

/-! ## Its uses in the library -/

/-- `%d` shows an `int` as the rest of the model writes it. -/
theorem render_d (v : Int) : PrintfConv.render ⟨[], 0, none, [], c!"d"⟩ (.int v) = some (intStr v) := by
  show some (PrintfConv.field _ true _ (PrintfConv.digits 10 false none v.natAbs)) = _
  have h1 : PrintfConv.digits 10 false none v.natAbs = natStr v.natAbs := by
    unfold PrintfConv.digits
    have hl : 1 ≤ (natStr v.natAbs).length := by
      have := (natStr_digits v.natAbs).1.1
      cases h : natStr v.natAbs with
      | nil => exact absurd h this
      | cons => simp
    simp only [reduceCtorEq, and_false, if_false, natStr_base, Option.getD_none]
    rw [show 1 - (natStr v.natAbs).length = 0 by omega]
    rfl
  rw [h1]
  unfold PrintfConv.field PrintfConv.sign intStr
  by_cases hv : v < 0 <;> simp [hv]

theorem step_conv {n : Nat} {fmt rest : Str} {conv : PrintfConv} {a : PrintfArg} {as : List PrintfArg} {s t : Str}
    (hp : PrintfConv.parse fmt = some (conv, rest)) (hk : conv.kind ≠ c!"%") (hr : conv.render a = some s) (h : printfLoop n rest as = .ok t) :
    printfLoop (n + 1) (c!"%" :: fmt) (a :: as) = .ok (s ++ t) := by
  rw [printfLoop, if_pos rfl, hp]
  simp only [if_neg hk, hr, h]
  rfl

theorem step_percent {n : Nat} {fmt : Str} {as : List PrintfArg} {t : Str} (h : printfLoop n fmt as = .ok t) :
    printfLoop (n + 1) (c!"%" :: c!"%" :: fmt) as = .ok (c!"%" :: t) := by
  rw [printfLoop, if_pos rfl, parse_percent]
  simp only [if_true, and_self, h]
  rfl

theorem step_text {n : Nat} (s : Str) {fmt : Str} {as : List PrintfArg} {t : Str} (hs : ∀ c ∈ s, c ≠ c!"%") (h : printfLoop n fmt as = .ok t) :
    printfLoop (n + s.length) (s ++ fmt) as = .ok (s ++ t) := by
  rw [loop_text s hs, h]
  rfl

theorem intStr_plain (v : Int) : ∀ c ∈ intStr v, c ≠ 0 := by
  intro c hc
  unfold intStr at hc
  split at hc
  · rcases List.mem_cons.1 hc with rfl | hc
    · decide
    · exact (natStr_plain _ c hc).1
  · exact (natStr_plain _ c hc).1

theorem intStr_length {v : Int} (h : Conversion.SignedRange 32 v) : (intStr v).length ≤ 11 := by
  have hv : v.natAbs < 10 ^ 10 := by unfold Conversion.SignedRange at h; omega
  have := natStr_length (n := v.natAbs) (j := 10) (by omega) hv
  unfold intStr
  split
  · simp; omega
  · omega

theorem stringf_ok {fmt t : Str} {as : List PrintfArg} (h : printfText fmt as = .ok t) (hl : t.length ≤ 255) (h0 : ∀ c ∈ t, c ≠ 0) : stringf fmt as = .ok t := by
  unfold stringf
  rw [h, Res.bind_ok, List.take_of_length_le hl, cstr_of_ne_zero h0]

/-- The three numbers and the build number of a version. -/
theorem C131_version (a b c d : Int) (ha : Conversion.SignedRange 32 a) (hb : Conversion.SignedRange 32 b) (hc : Conversion.SignedRange 32 c)
    (hd : Conversion.SignedRange 32 d) (post : Str) :
    ∃ s t, stringf b!"%d.%d.%d" [.int a, .int b, .int c] = .ok s ∧ stringf b!".%d" [.int d] = .ok t ∧
      Version.toStr ⟨some a, some b, some c, some d, post⟩ =
        .ok (s ++ (if 0 < d then t else []) ++ (if post.isEmpty then [] else 32 :: post)) := by
  have la := intStr_length ha
  have lb := intStr_length hb
  have lc := intStr_length hc
  have ld := intStr_length hd
  refine ⟨intStr a ++ 46 :: intStr b ++ 46 :: intStr c, 46 :: intStr d, stringf_ok ?_ ?_ ?_, stringf_ok ?_ ?_ ?_, ?_⟩
  · have : printfText b!"%d.%d.%d" [.int a, .int b, .int c] = .ok (intStr a ++ (b!"." ++ (intStr b ++ (b!"." ++ (intStr c ++ []))))) := by
      show printfLoop 9 b!"%d.%d.%d" _ = _
      refine step_conv (n := 8) (rest := b!".%d.%d") (conv := ⟨[], 0, none, [], c!"d"⟩) rfl (by decide) (render_d a) ?_
      refine step_text (n := 7) b!"." (fmt := b!"%d.%d") (by decide) ?_
      refine step_conv (n := 6) (rest := b!".%d") (conv := ⟨[], 0, none, [], c!"d"⟩) rfl (by decide) (render_d b) ?_
      refine step_text (n := 5) b!"." (fmt := b!"%d") (by decide) ?_
      exact step_conv (n := 4) (rest := []) (conv := ⟨[], 0, none, [], c!"d"⟩) rfl (by decide) (render_d c) rfl
    rw [this]
    simp
  · simp only [List.length_append, List.length_cons]; omega
  · intro x hx
    simp only [List.append_assoc, List.mem_append, List.mem_cons, List.cons_append] at hx
    rcases hx with hx | rfl | hx | rfl | hx
    · exact intStr_plain a x hx
    · decide
    · exact intStr_plain b x hx
    · decide
    · exact intStr_plain c x hx
  · have : printfText b!".%d" [.int d] = .ok (b!"." ++ (intStr d ++ [])) := by
      show printfLoop 4 b!".%d" _ = _
      refine step_text (n := 3) b!"." (fmt := b!"%d") (by decide) ?_
      exact step_conv (n := 2) (rest := []) (conv := ⟨[], 0, none, [], c!"d"⟩) rfl (by decide) (render_d d) rfl
    rw [this]
    simp
  · simp only [List.length_cons]; omega
  · intro x hx
    rcases List.mem_cons.1 hx with rfl | hx
    · decide
    · exact intStr_plain d x hx
  · unfold Version.toStr
    simp only
    by_cases h1 : 0 < d <;> by_cases h2 : post = [] <;> simp [h1, h2]

example : stringf b!"%d.%d.%d" [.int 1, .int 20, .int (-3)] = .ok b!"1.20.-3" := by decide +kernel

/-- The names that `create_unique_folder` tries. -/
theorem C131_unique_folder (folder : Str) (i : Nat) (h0 : 0 < i) (hi : i < 2 ^ 31) :
    ∃ t, stringf b!" (%d)" [.int i] = .ok t ∧ Fs.uniqueName folder i = folder ++ t := by
  have li := intStr_length (v := (i : Int)) (by unfold Conversion.SignedRange; omega)
  have e : intStr (i : Int) = natStr i := by unfold intStr; rw [if_neg (by omega)]; simp
  refine ⟨b!" (" ++ intStr i ++ b!")", stringf_ok ?_ ?_ ?_, ?_⟩
  · have : printfText b!" (%d)" [.int i] = .ok (b!" (" ++ (intStr i ++ (b!")" ++ []))) := by
      show printfLoop 6 b!" (%d)" _ = _
      refine step_text (n := 4) b!" (" (fmt := b!"%d)") (by decide) ?_
      exact step_conv (n := 3) (rest := b!")") (conv := ⟨[], 0, none, [], c!"d"⟩) rfl (by decide) (render_d i) rfl
    rw [this]
    simp
  · simp only [List.length_append, List.length_cons, List.length_nil]; omega
  · intro x hx
    simp only [List.mem_append, List.mem_cons, List.not_mem_nil, or_false] at hx
    rcases hx with ((rfl | rfl) | hx) | rfl
    · decide
    · decide
    · exact intStr_plain _ x hx
    · decide
  · unfold Fs.uniqueName
    rw [if_pos h0, e]
    simp

/-- The escape sequences of `encode_char`. -/
theorem C131_escape (c : Byte) : stringf b!"\\%03o" [.int (schar c)] = .ok (92 :: printfOct3 (schar c)) := by
  have e : c = UInt8.ofNat c.toNat := by simp
  have hlt := c.toNat_lt
  generalize c.toNat = n at e hlt
  subst e
  revert n
  decide +kernel

example : stringf b!"\\%03o" [.int 7] = .ok b!"\\007" := by decide +kernel

/-- `%w.pf` as the model of the report writes it. -/
theorem render_f (w p : Nat) (x : Flt) : PrintfConv.render ⟨[], w, some p, [], c!"f"⟩ (.real x) = some (padLeft w (printfFixed p x)) := by
  unfold padLeft
  cases x with
  | fin neg m =>
    show some (PrintfConv.field _ true (PrintfConv.sign _ neg) (printfFixed p (.fin false m))) = _
    have : printfFixed p (.fin neg m) = (if neg then b!"-" else []) ++ printfFixed p (.fin false m) := by
      unfold printfFixed
      simp
    rw [this]
    unfold PrintfConv.field PrintfConv.sign
    cases neg
    · simp
    · simp [Nat.add_comm]
  | inf neg =>
    show some (PrintfConv.field _ false (PrintfConv.sign _ neg) b!"inf") = _
    unfold PrintfConv.field PrintfConv.sign printfFixed
    cases neg <;> simp
  | nan neg =>
    show some (PrintfConv.field _ false (PrintfConv.sign _ false) b!"nan") = _
    unfold PrintfConv.field PrintfConv.sign printfFixed
    simp

theorem printfFixed_plain (p : Nat) (x : Flt) : ∀ c ∈ printfFixed p x, c ≠ 0 := by
  cases x with
  | fin neg m =>
    intro c hc
    unfold printfFixed at hc
    simp only [List.mem_append] at hc
    rcases hc with (hc | hc) | hc
    · split at hc
      · simp at hc; subst hc; decide
      · simp at hc
    · exact (natStr_plain _ c hc).1
    · split at hc
      · simp at hc
      · simp only [List.mem_cons, List.mem_append] at hc
        rcases hc with rfl | hc | hc
        · decide
        · rw [(List.mem_replicate.1 hc).2]; decide
        · exact (natStr_plain _ c hc).1
  | inf neg =>
    have : ∀ neg : Bool, ∀ c ∈ (if neg then [45] else []) ++ b!"inf", c ≠ 0 := by decide
    exact this neg
  | nan neg =>
    have : ∀ c ∈ b!"nan", c ≠ 0 := by decide
    exact this

theorem padLeft_plain {w : Nat} {s : Str} (h : ∀ c ∈ s, c ≠ 0) : ∀ c ∈ padLeft w s, c ≠ 0 := by
  intro c hc
  unfold padLeft at hc
  rcases List.mem_append.1 hc with hc | hc
  · rw [(List.mem_replicate.1 hc).2]; decide
  · exact h c hc

/-- The lines of the profiler's report. -/
theorem C131_report (l : Profiler.Line) :
    stringf b!"%6.0fms %6.2f%% (%5.2f%% exclusive %5.2f%% overhead)" [.real (millis l.total), .real (percent (millis l.total) (millis l.root)),
      .real (percent (millis l.exclusive) (millis l.root)), .real (percent (millis l.overhead) (millis l.total))] = .ok (reportLine l) := by
  obtain ⟨a, ha⟩ : ∃ a, a = millis l.total := ⟨_, rfl⟩
  obtain ⟨b, hb⟩ : ∃ a, a = percent (millis l.total) (millis l.root) := ⟨_, rfl⟩
  obtain ⟨c, hc⟩ : ∃ a, a = percent (millis l.exclusive) (millis l.root) := ⟨_, rfl⟩
  obtain ⟨d, hd⟩ : ∃ a, a = percent (millis l.overhead) (millis l.total) := ⟨_, rfl⟩
  have hl : lineFormat l = padLeft 6 (printfFixed 0 a) ++ b!"ms " ++ padLeft 6 (printfFixed 2 b) ++ b!"% (" ++ padLeft 5 (printfFixed 2 c) ++
      b!"% exclusive " ++ padLeft 5 (printfFixed 2 d) ++ b!"% overhead)" := by
    rw [ha, hb, hc, hd]; rfl
  rw [← hb, ← hc, ← hd, ← ha]
  have key : printfText b!"%6.0fms %6.2f%% (%5.2f%% exclusive %5.2f%% overhead)" [.real a, .real b, .real c, .real d] =
      .ok (padLeft 6 (printfFixed 0 a) ++ (b!"ms " ++ (padLeft 6 (printfFixed 2 b) ++ (c!"%" :: (b!" (" ++ (padLeft 5 (printfFixed 2 c) ++ (c!"%" ::
        (b!" exclusive " ++ (padLeft 5 (printfFixed 2 d) ++ (c!"%" :: (b!" overhead)" ++ []))))))))))) := by
    unfold printfText
    rw [show cstr b!"%6.0fms %6.2f%% (%5.2f%% exclusive %5.2f%% overhead)" = b!"%6.0fms %6.2f%% (%5.2f%% exclusive %5.2f%% overhead)" by decide +kernel]
    show printfLoop 53 _ _ = _
    refine step_conv (n := 52) (rest := b!"ms %6.2f%% (%5.2f%% exclusive %5.2f%% overhead)") (conv := ⟨[], 6, some 0, [], c!"f"⟩) rfl (by decide) (render_f 6 0 a) ?_
    refine step_text (n := 49) b!"ms " (fmt := b!"%6.2f%% (%5.2f%% exclusive %5.2f%% overhead)") (by decide) ?_
    refine step_conv (n := 48) (rest := b!"%% (%5.2f%% exclusive %5.2f%% overhead)") (conv := ⟨[], 6, some 2, [], c!"f"⟩) rfl (by decide) (render_f 6 2 b) ?_
    refine step_percent (n := 47) (fmt := b!" (%5.2f%% exclusive %5.2f%% overhead)") ?_
    refine step_text (n := 45) b!" (" (fmt := b!"%5.2f%% exclusive %5.2f%% overhead)") (by decide) ?_
    refine step_conv (n := 44) (rest := b!"%% exclusive %5.2f%% overhead)") (conv := ⟨[], 5, some 2, [], c!"f"⟩) rfl (by decide) (render_f 5 2 c) ?_
    refine step_percent (n := 43) (fmt := b!" exclusive %5.2f%% overhead)") ?_
    refine step_text (n := 32) b!" exclusive " (fmt := b!"%5.2f%% overhead)") (by decide) ?_
    refine step_conv (n := 31) (rest := b!"%% overhead)") (conv := ⟨[], 5, some 2, [], c!"f"⟩) rfl (by decide) (render_f 5 2 d) ?_
    refine step_percent (n := 30) (fmt := b!" overhead)") ?_
    exact step_text (n := 20) b!" overhead)" (fmt := []) (by decide) rfl
  unfold stringf reportLine
  rw [key, Res.bind_ok, hl]
  have e : (padLeft 6 (printfFixed 0 a) ++ (b!"ms " ++ (padLeft 6 (printfFixed 2 b) ++ (c!"%" :: (b!" (" ++ (padLeft 5 (printfFixed 2 c) ++ (c!"%" ::
        (b!" exclusive " ++ (padLeft 5 (printfFixed 2 d) ++ (c!"%" :: (b!" overhead)" ++ [])))))))))) : Str) =
      padLeft 6 (printfFixed 0 a) ++ b!"ms " ++ padLeft 6 (printfFixed 2 b) ++ b!"% (" ++ padLeft 5 (printfFixed 2 c) ++
      b!"% exclusive " ++ padLeft 5 (printfFixed 2 d) ++ b!"% overhead)" := by simp
  rw [e, cstr_of_ne_zero]
  intro x hx
  have hx := List.mem_of_mem_take hx
  simp only [List.append_assoc] at hx
  have lit : ∀ s ∈ [b!"ms ", b!"% (", b!"% exclusive ", b!"% overhead)"], ∀ c ∈ s, c ≠ 0 := by decide +kernel
  rcases List.mem_append.1 hx with hx | hx
  · exact padLeft_plain (printfFixed_plain _ _) x hx
  rcases List.mem_append.1 hx with hx | hx
  · exact lit _ (by simp) x hx
  rcases List.mem_append.1 hx with hx | hx
  · exact padLeft_plain (printfFixed_plain _ _) x hx
  rcases List.mem_append.1 hx with hx | hx
  · exact lit _ (by simp) x hx
  rcases List.mem_append.1 hx with hx | hx
  · exact padLeft_plain (printfFixed_plain _ _) x hx
  rcases List.mem_append.1 hx with hx | hx
  · exact lit _ (by simp) x hx
  rcases List.mem_append.1 hx with hx | hx
  · exact padLeft_plain (printfFixed_plain _ _) x hx
  · exact lit _ (by simp) x hx

/-- `prop_node_cast< vector< T > >::to` passes a `size_t` to `%d`, which is undefined; with `%zu` it would be right. -/
theorem C131_item_refuted (i : Nat) : stringf b!"item%d" [.ulong i] = .ub := rfl

theorem C131_item (i : Nat) (hi : i < 2 ^ 64) : stringf b!"item%zu" [.ulong i] = .ok (PN.itemKey i) := by
  have li : (natStr i).length ≤ 20 := natStr_length (by omega) (by omega)
  have hr : PrintfConv.render ⟨[], 0, none, b!"z", c!"u"⟩ (.ulong i) = some (natStr i) := by
    show some (PrintfConv.field _ true [] (PrintfConv.digits 10 false none i)) = _
    have hl : 1 ≤ (natStr i).length := by
      have := (natStr_digits i).1.1
      cases h : natStr i with
      | nil => exact absurd h this
      | cons => simp
    unfold PrintfConv.digits PrintfConv.field
    simp only [reduceCtorEq, and_false, if_false, natStr_base, Option.getD_none]
    rw [show 1 - (natStr i).length = 0 by omega]
    simp
  refine stringf_ok ?_ ?_ ?_
  · have : printfText b!"item%zu" [.ulong i] = .ok (b!"item" ++ (natStr i ++ [])) := by
      show printfLoop 8 b!"item%zu" _ = _
      refine step_text (n := 4) b!"item" (fmt := b!"%zu") (by decide) ?_
      exact step_conv (n := 3) (rest := []) (conv := ⟨[], 0, none, b!"z", c!"u"⟩) rfl (by decide) hr rfl
    rw [this, List.append_nil]
    rfl
  · unfold PN.itemKey
    simp only [List.length_append, List.length_cons, List.length_nil]; omega
  · unfold PN.itemKey
    intro x hx
    rcases List.mem_append.1 hx with hx | hx
    · have : ∀ c ∈ b!"item", c ≠ 0 := by decide
      exact this x hx
    · exact (natStr_plain _ x hx).1

/-! ## Logging -/

/-- A formatted message goes where a message goes, cut after 1023 characters. -/
theorem C131_log (g : Log) (l : Nat) (ps : List Piece) (hps : ∀ p ∈ ps, p.Valid) (as : List PrintfArg) (has : ∀ a ∈ as, ArgOk a) (he : Enough ps as) :
    ∃ out, Formats ps as out ∧ ((∀ c ∈ out, c ≠ 0) → g.messageFormat l (formatOf ps) as = g.message l (out.take 1023)) := by
  obtain ⟨out, h1, h2⟩ := (printfText_pieces ps hps as has).1 he
  refine ⟨out, h1, fun h0 => ?_⟩
  unfold Log.messageFormat Log.message
  rw [h2, Res.bind_ok]
  unfold Log.messagef
  by_cases hl : g.testLevel l = true
  · rw [if_pos hl, if_pos hl, if_pos hl, cstr_of_ne_zero (fun c hc => h0 c (List.mem_of_mem_take hc))]
  · rw [if_neg hl, if_neg hl]

/-- A message whose level no sink has is not formatted at all, so wrong arguments go unnoticed until the level is lowered. -/
theorem C131_log_off (g : Log) (l : Nat) (h : g.testLevel l = false) (fmt : Str) (as : List PrintfArg) : g.messageFormat l fmt as = .ok [] := by
  unfold Log.messageFormat
  rw [h]
  rfl

theorem C131_log_on_refuted (g : Log) (l : Nat) (h : g.testLevel l = true) : g.messageFormat l b!"100% done" [] = .ub := by
  unfold Log.messageFormat
  rw [h]
  rfl

end Flut
