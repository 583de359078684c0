import Verif.Proofs.Profiler
import Verif.Proofs.PropApi
import Mathlib.Data.List.Perm.Basic
import Mathlib.Data.List.Pairwise
import Mathlib.Tactic.Linarith

/-! # Lemmas on the report of the profiler -/

namespace Flut
namespace Profiler

open PN

variable {N : Type} [DecidableEq N]

/-! ### Overhead -/

theorem foldlM_children {secs : List (Section N)} {i : Nat} {f : Section N → Res Int} {g : Section N → Int}
    (h : ∀ s ∈ secs, s.parent = some i → f s = .ok (g s)) (t : Int) :
    secs.foldlM (fun t cs => if cs.parent = some i then do
        let o ← f cs
        .ok (t + o)
      else .ok t) t = .ok (t + ((secs.filter (·.parent = some i)).map g).sum) := by
  induction secs generalizing t with
  | nil => simp
  | cons s ss ih =>
    rw [List.foldlM_cons]
    by_cases hp : s.parent = some i
    · rw [if_pos hp, h s (by simp) hp, List.filter_cons_of_pos (by simpa using hp)]
      simp only [Res.bind_ok, List.map_cons, List.sum_cons]
      rw [ih (fun s' hs' => h s' (List.mem_cons_of_mem _ hs'))]
      congr 1; ring
    · rw [if_neg hp, List.filter_cons_of_neg (by simpa using hp)]
      exact ih (fun s' hs' => h s' (List.mem_cons_of_mem _ hs')) t

/-- The sections called directly from section `i`. -/
theorem Rep.childrenOf {p : Profiler N} {σ : CallSpec N} {ps : List (List N)} (r : Rep p σ ps) {i : Nat} {q : List N}
    (hi : ps[i]? = some q) {c : Section N} (hc : c ∈ p.childrenOf i) :
    i < c.id ∧ p.sections[c.id]? = some c ∧ ps[c.id]? = some (c.name :: q) := by
  unfold Profiler.childrenOf at hc
  obtain ⟨h1, h2⟩ := List.mem_filter.1 hc
  simp only [decide_eq_true_eq] at h2
  obtain ⟨j, hj, rfl⟩ := List.getElem_of_mem h1
  have hget := List.getElem?_eq_getElem hj
  obtain ⟨h3, h4⟩ := r.node j _ hget
  have hpos : 0 < j := by
    rcases Nat.eq_zero_or_pos j with h0 | h0
    · subst h0; rw [r.rootSec _ hget] at h2; cases h2
    · exact h0
  obtain ⟨k, q', h5, h6, h7, h8⟩ := h4 hpos
  rw [h2] at h6; injection h6 with h6; subst h6
  rw [hi] at h7; injection h7 with h7; subst h7
  rw [h3]
  exact ⟨h5, hget, h8⟩

theorem Rep.childNames_mem {p : Profiler N} {σ : CallSpec N} {ps : List (List N)} (r : Rep p σ ps) {i : Nat} {q : List N}
    (hi : ps[i]? = some q) (n : N) : n ∈ (p.childrenOf i).map Section.name ↔ n :: q ∈ ps := by
  constructor
  · intro h
    obtain ⟨c, hc, rfl⟩ := List.mem_map.1 h
    exact List.mem_of_getElem? (r.childrenOf hi hc).2.2
  · intro h
    obtain ⟨j, hj, e⟩ := List.getElem_of_mem h
    have hj' : j < p.sections.length := by rw [← r.len]; exact hj
    have hpos : 0 < j := by
      rcases Nat.eq_zero_or_pos j with h0 | h0
      · subst h0
        have := r.root
        rw [List.getElem?_eq_getElem hj, e] at this; cases this
      · exact h0
    obtain ⟨k, q', _, h6, h7, h8⟩ := (r.node j _ (List.getElem?_eq_getElem hj')).2 hpos
    rw [List.getElem?_eq_getElem hj, e] at h8
    injection h8 with h8
    injection h8 with h9 h10
    subst h10
    have hk : k = i := r.index h7 hi
    subst hk
    rw [h9]
    exact List.mem_map_of_mem (List.mem_filter.2 ⟨List.getElem_mem hj', by simpa using h6⟩)

theorem Rep.childNames_nodup {p : Profiler N} {σ : CallSpec N} {ps : List (List N)} (r : Rep p σ ps) {i : Nat} {q : List N}
    (hi : ps[i]? = some q) : ((p.childrenOf i).map Section.name).Nodup := by
  have hnd : p.sections.Nodup := by
    rw [List.nodup_iff_injective_getElem]
    intro a b hab
    have h1 := (r.node a _ (List.getElem?_eq_getElem a.2)).1
    have h2 := (r.node b _ (List.getElem?_eq_getElem b.2)).1
    have hab' : p.sections[(a : Nat)] = p.sections[(b : Nat)] := hab
    exact Fin.ext (by rw [← h1, ← h2, hab'])
  refine (List.nodup_map_iff_inj_on (hnd.filter _)).2 ?_
  intro a ha b hb hab
  obtain ⟨_, h1, h2⟩ := r.childrenOf hi ha
  obtain ⟨_, h3, h4⟩ := r.childrenOf hi hb
  have : a.id = b.id := r.index h2 (by rw [hab]; exact h4)
  rw [this] at h1
  rw [h1] at h3
  injection h3

/-- Ancestors of a section have sections. -/
theorem Rep.ancestor {p : Profiler N} {σ : CallSpec N} {ps : List (List N)} (r : Rep p σ ps) {e : List N} (he : e ∈ ps)
    {q : List N} (hq : q <:+ e) : q ∈ ps := by
  induction e with
  | nil => rw [List.suffix_nil.1 hq]; exact he
  | cons n e ih =>
    rcases List.suffix_cons_iff.1 hq with rfl | h
    · exact he
    · refine ih ?_ h
      obtain ⟨j, hj, e'⟩ := List.getElem_of_mem he
      have hj' : j < p.sections.length := by rw [← r.len]; exact hj
      have hpos : 0 < j := by
        rcases Nat.eq_zero_or_pos j with h0 | h0
        · subst h0
          have := r.root
          rw [List.getElem?_eq_getElem hj, e'] at this; cases this
        · exact h0
      obtain ⟨k, q', _, _, h7, h8⟩ := (r.node j _ (List.getElem?_eq_getElem hj')).2 hpos
      rw [List.getElem?_eq_getElem hj, e'] at h8
      injection h8 with h8
      injection h8 with _ h10
      subst h10
      exact List.mem_of_getElem? h7

omit [DecidableEq N] in
theorem suffix_child {q e : List N} (h : q <:+ e) (hne : e ≠ q) : ∃ n, n :: q <:+ e := by
  obtain ⟨a, rfl⟩ := h
  have ha : a ≠ [] := by rintro rfl; exact hne rfl
  refine ⟨a.getLast ha, a.dropLast, ?_⟩
  rw [show a.getLast ha :: q = [a.getLast ha] ++ q from rfl, ← List.append_assoc, List.dropLast_append_getLast ha]

omit [DecidableEq N] in
theorem suffix_child_unique {q e : List N} {m n : N} (h1 : m :: q <:+ e) (h2 : n :: q <:+ e) : m = n := by
  have := List.suffix_of_suffix_length_le h1 h2 (by simp)
  have := this.eq_of_length (by simp)
  injection this

/-- A sum in which only one term can be non-zero. -/
theorem sum_single {names : List N} (hn : names.Nodup) {P : N → Prop} [DecidablePred P] (hu : ∀ m n, P m → P n → m = n) (x : Int) :
    (names.map fun n => if P n then x else 0).sum = if ∃ n ∈ names, P n then x else 0 := by
  induction names with
  | nil => simp
  | cons n ns ih =>
    simp only [List.nodup_cons] at hn
    rw [List.map_cons, List.sum_cons, ih hn.2]
    by_cases h : P n
    · have hno : ¬ ∃ m ∈ ns, P m := by
        rintro ⟨m, hm, hpm⟩
        rw [hu m n hpm h] at hm
        exact hn.1 hm
      rw [if_pos h, if_neg hno, if_pos ⟨n, by simp, h⟩, add_zero]
    · rw [if_neg h, zero_add]
      congr 1
      simp [h]

theorem overUnder_split {p : Profiler N} {σ : CallSpec N} {ps : List (List N)} (r : Rep p σ ps) {i : Nat} {q : List N}
    (hi : ps[i]? = some q) :
    σ.overUnder q = σ.overOf q + ((p.childrenOf i).map fun c => σ.overUnder (c.name :: q)).sum := by
  have key : ∀ (ds : List (List N × Int)), (∀ d ∈ ds, d.1 ∈ ps) →
      ((ds.filter (fun d => q <:+ d.1)).map Prod.snd).sum = ((ds.filter (·.1 = q)).map Prod.snd).sum +
        (((p.childrenOf i).map Section.name).map fun n => ((ds.filter (fun d => n :: q <:+ d.1)).map Prod.snd).sum).sum := by
    intro ds
    induction ds with
    | nil => intro _; simp [Function.comp_def]
    | cons d ds ih =>
      intro hd
      have ih := ih (fun d' h' => hd d' (List.mem_cons_of_mem _ h'))
      have one := sum_single (r.childNames_nodup hi) (P := fun n => n :: q <:+ d.1) (fun _ _ => suffix_child_unique) d.2
      have split : ∀ (P : List N × Int → Prop) [DecidablePred P],
          (((d :: ds).filter (fun d => P d)).map Prod.snd).sum = (if P d then d.2 else 0) + ((ds.filter (fun d => P d)).map Prod.snd).sum := by
        intro P _
        by_cases h : P d
        · rw [List.filter_cons_of_pos (by simpa using h), if_pos h]; simp
        · rw [List.filter_cons_of_neg (by simpa using h), if_neg h]; simp
      rw [split, split, ih]
      have : (((p.childrenOf i).map Section.name).map fun n => (((d :: ds).filter (fun d => n :: q <:+ d.1)).map Prod.snd).sum).sum
          = (((p.childrenOf i).map Section.name).map fun n => if n :: q <:+ d.1 then d.2 else 0).sum +
            (((p.childrenOf i).map Section.name).map fun n => ((ds.filter (fun d => n :: q <:+ d.1)).map Prod.snd).sum).sum := by
        rw [← List.sum_map_add]
        congr 1
        refine List.map_congr_left fun n _ => ?_
        exact split (fun d => n :: q <:+ d.1)
      rw [this, one]
      have hiff : (∃ n ∈ (p.childrenOf i).map Section.name, n :: q <:+ d.1) ↔ q <:+ d.1 ∧ d.1 ≠ q := by
        constructor
        · rintro ⟨n, _, h⟩
          refine ⟨(List.suffix_cons _ _).trans h, ?_⟩
          intro e
          rw [e] at h
          have := h.length_le
          simp at this
        · rintro ⟨h, hne⟩
          obtain ⟨n, hn⟩ := suffix_child h hne
          exact ⟨n, (r.childNames_mem hi n).2 (r.ancestor (hd d (by simp)) hn), hn⟩
      by_cases h1 : q <:+ d.1
      · by_cases h2 : d.1 = q
        · rw [if_pos h1, if_pos h2, if_neg (by rw [hiff]; exact fun h => h.2 h2)]; ring
        · rw [if_pos h1, if_neg h2, if_pos (hiff.2 ⟨h1, h2⟩)]; ring
      · have h2 : d.1 ≠ q := by rintro h; exact h1 (h ▸ List.suffix_refl _)
        rw [if_neg h1, if_neg h2, if_neg (by rw [hiff]; exact fun h => h1 h.1)]; ring
  have := key σ.over (fun d hd => (r.overIn d hd).1)
  rw [List.map_map] at this
  exact this

theorem totalOverhead_eq {p : Profiler N} {σ : CallSpec N} {ps : List (List N)} (r : Rep p σ ps) (k : Nat) :
    ∀ (i : Nat) (s : Section N) (q : List N), p.sections[i]? = some s → ps[i]? = some q → p.sections.length ≤ i + k →
      p.totalOverheadN (k + 1) s = .ok (σ.overUnder q) := by
  induction k with
  | zero =>
    intro i s q hs _ hk
    have := (List.getElem?_eq_some_iff.1 hs).1
    omega
  | succ k ih =>
    intro i s q hs hq hk
    have hid := (r.node i s hs).1
    unfold totalOverheadN
    rw [hid]
    rw [foldlM_children (g := fun c => σ.overUnder (c.name :: q))]
    · rw [overUnder_split r hq, r.over i s q hs hq]; rfl
    · intro c hc hp
      obtain ⟨h1, h2, h3⟩ := r.childrenOf hq (List.mem_filter.2 ⟨hc, by simpa using hp⟩ : c ∈ p.childrenOf i)
      exact ih c.id c _ h2 h3 (by omega)

/-! ### The report -/

omit [DecidableEq N] in
theorem atKey_new (key : Str) (f : PN → Res PN) (a : Bool) (v : Str) (cs : List (Str × PN)) (h : key ∉ cs.map Prod.fst)
    (c : PN) (hf : f .nil = .ok c) : atKey key f (.mk a v cs) = .ok (.mk true v (cs ++ [(key, c)])) := by
  unfold atKey
  rcases getOrAdd_cases key a v cs with ⟨_, h2⟩ | ⟨pre, n, post, rfl, _⟩
  · rw [h2]
    simp only [List.getElem?_append_right (Nat.le_refl _), Nat.sub_self, List.getElem?_cons_zero, hf, Res.bind_ok]
    congr 2
    exact modifyAt_at _ cs key .nil []
  · simp at h

omit [DecidableEq N] in
theorem atKey_last (key : Str) (f : PN → Res PN) (a : Bool) (v : Str) (cs : List (Str × PN)) (n : PN)
    (h : key ∉ cs.map Prod.fst) (c : PN) (hf : f n.access = .ok c) :
    atKey key f (.mk a v (cs ++ [(key, n)])) = .ok (.mk true v (cs ++ [(key, c)])) := by
  unfold atKey
  rcases getOrAdd_cases key a v (cs ++ [(key, n)]) with ⟨h1, _⟩ | ⟨pre, n', post, h1, h2, h3⟩
  · simp at h1
  · have : pre = cs ∧ n' = n ∧ post = [] := by
      clear h3
      induction cs generalizing pre with
      | nil =>
        cases pre with
        | nil => simp at h1; exact ⟨rfl, h1.1.symm, h1.2⟩
        | cons x pre => simp at h1
      | cons x cs ih =>
        cases pre with
        | nil =>
          simp only [List.cons_append, List.nil_append, List.cons.injEq] at h1
          rw [h1.1] at h; simp at h
        | cons y pre =>
          simp only [List.cons_append, List.cons.injEq] at h1
          simp only [List.map_cons, List.mem_cons, not_or] at h h2
          obtain ⟨g1, g2, g3⟩ := ih h.2 pre h1.2 h2.2
          exact ⟨by rw [g1, h1.1], g2, g3⟩
    obtain ⟨rfl, rfl, rfl⟩ := this
    rw [h3]
    simp only [List.getElem?_append_right (Nat.le_refl _), Nat.sub_self, List.getElem?_cons_zero, hf, Res.bind_ok]
    congr 2
    exact modifyAt_at _ pre key _ []

/-- The loop over the sections called from a section. -/
theorem report_loop {p : Profiler N} {σ : CallSpec N} {str : N → Str} {fmt : Line → Str}
    {sort : List (Section N) → List (Section N)} {tot : List N → Int} {root : Int} {k : Nat} {q : List N} (key v text : Str)
    (cs : List (Str × PN)) (hkey : key ∉ cs.map Prod.fst) (L : List (Section N))
    (ih : ∀ c ∈ L, ∀ a v cs, str c.name ∉ cs.map Prod.fst → ∃ node,
      p.reportN str fmt sort root k c (.mk a v cs) = .ok (.mk true v (cs ++ [(str c.name, node)])) ∧
      ReportOf str fmt σ tot (c.name :: q) node) (kids : List (Str × PN)) (b : Bool)
    (hn : (kids.map Prod.fst ++ L.map fun c => str c.name).Nodup) :
    ∃ b' new, L.foldlM (fun pn c => atKey key (p.reportN str fmt sort root k c) pn) (.mk true v (cs ++ [(key, .mk b text kids)]))
        = .ok (.mk true v (cs ++ [(key, .mk b' text (kids ++ new))])) ∧ new.map Prod.fst = L.map (fun c => str c.name) ∧
      ∀ (i : Nat) c x node, L[i]? = some c → new[i]? = some (x, node) → ReportOf str fmt σ tot (c.name :: q) node := by
  induction L generalizing kids b with
  | nil => exact ⟨b, [], by simp, rfl, by simp⟩
  | cons c L ihL =>
    have hc : str c.name ∉ kids.map Prod.fst := by
      rw [List.nodup_append] at hn
      intro h
      exact hn.2.2 _ h _ (by simp) rfl
    obtain ⟨node, h1, h2⟩ := ih c (by simp) true text kids hc
    obtain ⟨b', new, h3, h4, h5⟩ := ihL (fun c' hc' => ih c' (List.mem_cons_of_mem _ hc')) (kids ++ [(str c.name, node)]) true
      (by simpa using hn)
    refine ⟨b', (str c.name, node) :: new, ?_, by simp [h4], ?_⟩
    · rw [List.foldlM_cons, atKey_last key _ true v cs _ hkey _ h1]
      simp only [Res.bind_ok]
      rw [h3]
      simp
    · intro i c' x nd hi hx
      cases i with
      | zero =>
        simp only [List.getElem?_cons_zero, Option.some.injEq, Prod.mk.injEq] at hi hx
        rw [← hi, ← hx.2]
        exact h2
      | succ i => exact h5 i c' x nd hi hx

theorem report_eq {p : Profiler N} {σ : CallSpec N} {ps : List (List N)} (r : Rep p σ ps) {str : N → Str} {fmt : Line → Str}
    {sort : List (Section N) → List (Section N)} (hsort : SortsByTime sort) {tot : List N → Int}
    (htot : ∀ (i : Nat) s q, p.sections[i]? = some s → ps[i]? = some q → s.total = tot q)
    (hstr : ∀ m n q, m :: q ∈ σ.entered → n :: q ∈ σ.entered → str m = str n → m = n) (k : Nat) :
    ∀ (i : Nat) (s : Section N) (q : List N), p.sections[i]? = some s → ps[i]? = some q → p.sections.length ≤ i + k →
      ∀ a v cs, str s.name ∉ cs.map Prod.fst → ∃ node,
        p.reportN str fmt sort (tot []) k s (.mk a v cs) = .ok (.mk true v (cs ++ [(str s.name, node)])) ∧
        ReportOf str fmt σ tot q node := by
  induction k with
  | zero =>
    intro i s q hs _ hk
    have := (List.getElem?_eq_some_iff.1 hs).1
    omega
  | succ k ih =>
    intro i s q hs hq hk a v cs hcs
    have hid := (r.node i s hs).1
    obtain ⟨hperm, hsorted⟩ := hsort (p.childrenOf s.id)
    have hmem : ∀ c ∈ sort (p.childrenOf s.id), i < c.id ∧ p.sections[c.id]? = some c ∧ ps[c.id]? = some (c.name :: q) := by
      intro c hc
      have := hperm.mem_iff.1 hc
      rw [hid] at this
      exact r.childrenOf hq this
    have hent : ∀ n, n ∈ (sort (p.childrenOf s.id)).map Section.name ↔ n :: q ∈ σ.entered := by
      intro n
      rw [(hperm.map Section.name).mem_iff, hid, r.childNames_mem hq, ← r.entered _ (by simp)]
    have hnames : ((sort (p.childrenOf s.id)).map Section.name).Nodup := by
      rw [(hperm.map Section.name).nodup_iff, hid]
      exact r.childNames_nodup hq
    have hkeys : ((sort (p.childrenOf s.id)).map fun c => str c.name).Nodup := by
      have : ((sort (p.childrenOf s.id)).map fun c => str c.name) = ((sort (p.childrenOf s.id)).map Section.name).map str := by
        rw [List.map_map]; rfl
      rw [this]
      refine (List.nodup_map_iff_inj_on hnames).2 ?_
      intro m hm n hn
      exact hstr m n q ((hent m).1 hm) ((hent n).1 hn)
    have hover := totalOverhead_eq r p.sections.length i s q hs hq (by omega)
    have hex : p.exclusiveTime s = tot q - σ.innerOf q := by
      unfold exclusiveTime
      rw [exclusive_foldl, hid, r.inner i q hq, htot i s q hs hq]
    obtain ⟨b', new, h1, h2, h3⟩ := report_loop (p := p) (σ := σ) (str := str) (fmt := fmt) (sort := sort) (tot := tot)
      (root := tot []) (k := k) (q := q) (str s.name) v (fmt ⟨tot [], tot q, tot q - σ.innerOf q, σ.overUnder q⟩) cs hcs
      (sort (p.childrenOf s.id)) (by
        intro c hc a v cs hn
        obtain ⟨g1, g2, g3⟩ := hmem c hc
        exact ih c.id c _ g2 g3 (by omega) a v cs hn) [] false (by simpa using hkeys)
    refine ⟨.mk b' (fmt ⟨tot [], tot q, tot q - σ.innerOf q, σ.overUnder q⟩) new, ?_, ?_⟩
    · unfold reportN
      rw [hover]
      simp only [Res.bind_ok]
      rw [hex, htot i s q hs hq]
      rw [atKey_new (str s.name) (fun n => .ok (n.assign (.leaf (fmt ⟨tot [], tot q, tot q - σ.innerOf q, σ.overUnder q⟩)))) a v
        cs hcs (.mk false (fmt ⟨tot [], tot q, tot q - σ.innerOf q, σ.overUnder q⟩) []) rfl]
      simp only [Res.bind_ok]
      exact h1
    · refine .mk ((sort (p.childrenOf s.id)).map Section.name) rfl hnames hent ?_ ?_ ?_
      · rw [List.pairwise_map]
        refine hsorted.imp_of_mem ?_
        intro c d hc hd hle
        rw [← htot _ c _ (hmem c hc).2.1 (hmem c hc).2.2, ← htot _ d _ (hmem d hd).2.1 (hmem d hd).2.2]
        exact hle
      · rw [h2, List.map_map]; rfl
      · intro j n x c hj hx
        rw [List.getElem?_map, Option.map_eq_some_iff] at hj
        obtain ⟨sec, hsec, rfl⟩ := hj
        exact h3 j sec x c hsec hx

end Profiler
end Flut
