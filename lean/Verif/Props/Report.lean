import Verif.Proofs.Report

/-! # C88: the report of the profiler -/

namespace Flut

open Profiler

/-- For every history without an end too many, in which sections that are called from the same place and are different have
different names: the report has one node, for the root; each node shows the total time, the time without the calls made from
it and the time the profiler took, and has a node for each path entered directly from it, slowest first. The time of the root
is that since the reset. -/
theorem C88_report {N : Type} [DecidableEq N] (totalName : N) (t0 t : Int) (es : List (Event N)) (σ : CallSpec N)
    (hσ : CallSpec.run es CallSpec.init = .ok σ) (str : N → Str) (fmt : Line → Str)
    (sort : List (Section N) → List (Section N)) (hsort : SortsByTime sort)
    (hstr : ∀ m n q, m :: q ∈ σ.entered → n :: q ∈ σ.entered → str m = str n → m = n) :
    ∃ p a p' node, runAll es (reset totalName t0) = .ok p ∧
      p.report str fmt sort t = .ok (.mk a [] [(str totalName, node)], p') ∧ runAll (es ++ [.report t]) (reset totalName t0) = .ok p' ∧
      ReportOf str fmt σ (fun q => if q = [] then t - t0 else σ.totalOf q) [] node := by
  have h := rep_runAll_from es t0 (rep_reset totalName t0) ⟨_, rfl, rfl⟩
  have hnm : ∀ (es : List (Event N)) (a b : Profiler N) (σ : CallSpec N) ps, Rep a σ ps → runAll es a = .ok b →
      (∃ s, a.sections[0]? = some s ∧ s.epoch = some t0) → (∃ s, a.sections[0]? = some s ∧ s.name = totalName) →
      ∃ s, b.sections[0]? = some s ∧ s.name = totalName := by
    intro es
    induction es with
    | nil => intro a b _ _ _ hab _ hn; simp only [runAll] at hab; injection hab with hab; rw [← hab]; exact hn
    | cons ev es ih =>
      intro a b σ ps r hab he hn
      simp only [runAll] at hab
      rw [Res.bind_eq_ok] at hab
      obtain ⟨c, hc, hcb⟩ := hab
      have he' := rootEpoch_run r ev hc t0 he
      have hn' : ∃ s, c.sections[0]? = some s ∧ s.name = totalName := by
        obtain ⟨s, hs, hsn⟩ := hn
        have hpos := (List.getElem?_eq_some_iff.1 hs).1
        cases ev with
        | start m u u' =>
          simp only [run, start, acquire] at hc
          split at hc
          · cases hc
          · injection hc with hc
            subst hc
            simp only [getElem?_modify_eq]
            split
            · rw [hs]
              refine ⟨_, rfl, ?_⟩
              split <;> exact hsn
            · rw [List.getElem?_append_left hpos, hs]
              refine ⟨_, rfl, ?_⟩
              split <;> exact hsn
        | stop u =>
          simp only [run, end'] at hc
          split at hc
          · cases hc
          · split at hc
            · split at hc
              · injection hc with hc
                subst hc
                simp only [getElem?_modify_eq, hs]
                refine ⟨_, rfl, ?_⟩
                split <;> exact hsn
              · cases hc
            · cases hc
        | report u =>
          obtain ⟨secs, cur⟩ := a
          cases secs with
          | nil => simp at hs
          | cons s0 rest =>
            simp only [run, closeRoot] at hc
            split at hc
            · cases hc
            · injection hc with hc
              subst hc
              simp only [List.getElem?_cons_zero, Option.some.injEq] at hs
              subst hs
              exact ⟨_, rfl, hsn⟩
      have hr := rep_runAll_from [ev] t0 r he
      simp only [runAll, hc, Res.bind_ok] at hr
      cases hσ' : CallSpec.run [ev] σ with
      | ok σ' =>
        rw [hσ'] at hr
        obtain ⟨ps', r', _⟩ := (hr : ∃ ps, Rep c σ' ps ∧ _)
        exact ih c b σ' ps' r' hcb he' hn'
      | throws e => rw [hσ'] at hr; exact hr.elim
      | ub => rw [hσ'] at hr; exact hr.elim
      | diverges => rw [hσ'] at hr; exact hr.elim
  rw [hσ] at h
  cases hp : runAll es (reset totalName t0) with
  | throws e => rw [hp] at h; exact h.elim
  | ub => rw [hp] at h; exact h.elim
  | diverges => rw [hp] at h; exact h.elim
  | ok p =>
    rw [hp] at h
    obtain ⟨ps, r, s, hs, hse⟩ := (h : ∃ ps, Rep p σ ps ∧ ∃ s, p.sections[0]? = some s ∧ s.epoch = some t0)
    obtain ⟨sn, hsn, hname⟩ := hnm es _ p CallSpec.init _ (rep_reset totalName t0) hp ⟨_, rfl, rfl⟩ ⟨_, rfl, rfl⟩
    rw [hs] at hsn; injection hsn with hsn; subst hsn
    obtain ⟨p', h1, r'⟩ := rep_closeRoot r t ⟨s, t0, hs, hse⟩
    have hfirst : ∃ rest, p'.sections = { s with total := t - t0 } :: rest := by
      obtain ⟨secs, cur⟩ := p
      cases secs with
      | nil => simp at hs
      | cons s0 rest =>
        simp only [List.getElem?_cons_zero, Option.some.injEq] at hs
        subst hs
        simp only [closeRoot, hse, Res.ok.injEq] at h1
        subst h1
        exact ⟨rest, by simp [hse]⟩
    obtain ⟨rest, hrest⟩ := hfirst
    have htot : ∀ (i : Nat) s q, p'.sections[i]? = some s → ps[i]? = some q →
        s.total = (fun q => if q = [] then t - t0 else σ.totalOf q) q := by
      intro i s' q hs' hq
      by_cases he : q = []
      · subst he
        have : i = 0 := r'.index hq r'.root
        subst this
        rw [hrest] at hs'
        simp only [List.getElem?_cons_zero, Option.some.injEq] at hs'
        rw [← hs']
        simp
      · simp only [he, if_false]
        exact r'.total i s' q hs' hq he
    obtain ⟨node, h2, h3⟩ := report_eq r' (str := str) (fmt := fmt) hsort htot hstr (p'.sections.length + 1) 0
      { s with total := t - t0 } [] (by rw [hrest]; rfl) r'.root (by omega) false [] [] (by simp)
    refine ⟨p, true, p', node, rfl, ?_, ?_, h3⟩
    · unfold report
      rw [h1]
      simp only [Res.bind_ok, hrest]
      rw [hrest] at h2
      simp only [if_true, List.nil_append] at h2
      unfold PN.nil
      rw [h2]
      simp [hname]
    · have app : ∀ (a b : List (Event N)) (p : Profiler N), runAll (a ++ b) p = (runAll a p >>= runAll b) := by
        intro a b
        induction a with
        | nil => intro p; rfl
        | cons e a ih =>
          intro p
          simp only [List.cons_append, runAll]
          cases p.run e with
          | ok x => simp only [Res.bind_ok, ih]
          | throws => rfl
          | ub => rfl
          | diverges => rfl
      rw [app, hp]
      simp only [Res.bind_ok, runAll, run, h1]

/-- Insertion of a section before those that took less time. -/
def insertByTime {N : Type} (s : Section N) : List (Section N) → List (Section N)
  | [] => [s]
  | c :: cs => if c.total ≤ s.total then s :: c :: cs else c :: insertByTime s cs

/-- Insertion sort by time. -/
def sortByTime {N : Type} : List (Section N) → List (Section N)
  | [] => []
  | s :: ss => insertByTime s (sortByTime ss)

/-- Insertion sort keeps the promise of `std::sort`. -/
theorem sortsByTime_sortByTime {N : Type} : SortsByTime (sortByTime : List (Section N) → List (Section N)) := by
  have hp : ∀ (s : Section N) l, (insertByTime s l).Perm (s :: l) := by
    intro s l
    induction l with
    | nil => exact .refl _
    | cons c cs ih =>
      unfold insertByTime
      split
      · exact .refl _
      · exact (ih.cons c).trans (.swap _ _ _)
  intro l
  induction l with
  | nil => exact ⟨.refl _, .nil⟩
  | cons s ss ih =>
    refine ⟨(hp s _).trans (ih.1.cons s), ?_⟩
    have : ∀ l : List (Section N), l.Pairwise (fun a b => b.total ≤ a.total) →
        (insertByTime s l).Pairwise fun a b => b.total ≤ a.total := by
      intro l hl
      induction l with
      | nil => simp [insertByTime]
      | cons c cs ih =>
        unfold insertByTime
        rw [List.pairwise_cons] at hl
        split
        · rename_i hle
          refine List.pairwise_cons.2 ⟨?_, List.pairwise_cons.2 hl⟩
          intro d hd
          rcases List.mem_cons.1 hd with rfl | hd
          · exact hle
          · exact Int.le_trans (hl.1 d hd) hle
        · rename_i hle
          refine List.pairwise_cons.2 ⟨?_, ih hl.2⟩
          intro d hd
          rcases List.mem_cons.1 ((hp s cs).mem_iff.1 hd) with rfl | hd
          · omega
          · exact hl.1 d hd
    exact this _ ih.2

/-- The numbers of a line as text, for the examples. -/
def lineText (l : Line) : Str := [l.root, l.total, l.exclusive, l.overhead].map fun x => UInt8.ofNat x.toNat

example : (runAll [.start 1 0 1, .start 2 3 4, .stop 5, .stop 10, .start 3 11 11, .stop 40] (reset 0 0) >>= fun p =>
    (p.report (fun n => [UInt8.ofNat n + 65]) lineText sortByTime 50).map Prod.fst) =
      .ok (.mk true [] [(b!"A", .mk true [50, 50, 11, 2] [(b!"D", .mk false [50, 29, 29, 0] []),
        (b!"B", .mk true [50, 10, 8, 2] [(b!"C", .mk false [50, 2, 2, 1] [])])])]) := by rfl

/-- Names are compared as pointers: two sections with the same text at different addresses become one node of the report,
with the times of one of them, and the time of the other is nowhere. -/
theorem C88_same_text_refuted : (runAll [.start 1 0 0, .stop 5, .start 2 5 5, .stop 8] (reset 0 0) >>= fun p =>
    (p.report (fun n => if n = 0 then b!"TOTAL" else b!"work") lineText sortByTime 8).map Prod.fst) =
      .ok (.mk true [] [(b!"TOTAL", .mk true [8, 8, 0, 0] [(b!"work", .mk true [8, 3, 3, 0] [])])]) := by rfl

end Flut
