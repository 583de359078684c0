import Verif.Proofs.DataText
import Verif.Props.Data
import Mathlib.Algebra.Order.Floor.Ring
import Mathlib.Algebra.Order.Ring.Abs
import Mathlib.Data.Rat.Floor
import Mathlib.Tactic.Linarith
import Mathlib.Tactic.Ring
import Mathlib.Tactic.FieldSimp
import Mathlib.Tactic.NormNum

/-! # Property theorems for text output, named writes, values between frames and sampling: C84, C85, C86, C87 -/

namespace Flut

open Spec

/-! ## C84: tables as text -/

/-- The text of a storage, read as lines of tab-separated fields, is the line of labels followed by one line for every
frame, for every history of the storage that leaves it with a channel. -/
theorem C84_storage {α L : Type} [DecidableEq L] (dl : L) (dv : α) (frames channels : Nat) (value : α)
    (ops : List (Storage.Op α L)) (s : Storage α L) (m : Matrix α L) (shl : L → Str) (sh : α → Str)
    (hs : Storage.runAll dl dv ops (Storage.new dl frames channels value) = .ok s)
    (hm : Matrix.run dv ops (Matrix.init frames channels value) = .ok m) (hc : m.labels ≠ [])
    (hl : ∀ l ∈ m.labels, PlainField (shl (l.getD dl))) (hx : ∀ r ∈ m.rows, ∀ x ∈ r, PlainField (sh x)) :
    ∃ t, s.text shl sh = .ok t ∧ readTable t = (m.labels.map fun l => shl (l.getD dl)) :: m.rows.map (·.map sh) := by
  have r := Storage.rep_runAll dv ops (Storage.rep_new dl frames channels value)
  rw [hs, hm] at r
  have r : Storage.Rep dl s m := r
  have hpos := List.length_pos_iff.2 hc
  refine ⟨_, Storage.text_eq r shl sh hpos, readTable_lines _ ?_ ?_⟩
  · intro row hrow
    rw [← List.length_pos_iff]
    simp only [List.mem_cons, List.mem_map] at hrow
    rcases hrow with rfl | ⟨row, hrow, rfl⟩
    · simpa using hpos
    · rw [List.length_map, r.wf row hrow]; exact hpos
  · intro row hrow
    simp only [List.mem_cons, List.mem_map] at hrow
    rcases hrow with rfl | ⟨row, hrow, rfl⟩
    · intro x hx'
      obtain ⟨l, hl', rfl⟩ := List.mem_map.1 hx'
      exact hl l hl'
    · intro x hx'
      obtain ⟨y, hy, rfl⟩ := List.mem_map.1 hx'
      exact hx row hrow y hy

example : ((Storage.runAll b!"" b!"" [.addChannel b!"a" b!"1", .addFrame b!"2", .addChannel b!"b" b!"3", .addFrame b!"4"]
    (Storage.new b!"" 0 0 b!"")) >>= Storage.text id id) = .ok b!"a\tb\n2\t3\n4\t4\n" := by decide +kernel

example : readTable b!"a\tb\n2\t3\n4\t4\n" = [[b!"a", b!"b"], [b!"2", b!"3"], [b!"4", b!"4"]] := by decide +kernel

/-- A storage without channels is written as nothing, however many frames it has: frames cannot be recovered then. -/
theorem C84_no_channels_refuted : (Storage.new b!"" 0 0 0 : Storage Nat Str).text id (fun _ => []) =
    (Storage.new b!"" 5 0 0 : Storage Nat Str).text id (fun _ => []) := by decide +kernel

/-- A label with a tab makes two columns. -/
theorem C84_tab_refuted : ∃ s s' : Storage Nat Str, Storage.runAll b!"" 0 [.addChannel b!"a\tb" 0] (Storage.new b!"" 0 0 0) = .ok s ∧
    Storage.runAll b!"" 0 [.addChannel b!"a" 0, .addChannel b!"b" 0] (Storage.new b!"" 0 0 0) = .ok s' ∧
    s.channels ≠ s'.channels ∧ s.text id (fun _ => []) = s'.text id (fun _ => []) :=
  ⟨_, _, rfl, rfl, by decide, by decide⟩

/-- The text of a table is the line `Row` with the column labels, followed by one line for every row: its label and its
cells. -/
theorem C84_table_partial {α L : Type} [DecidableEq L] (dl : L) (dv : α) (rows cols : Nat) (ops : List (Table.Op α L))
    (h : ∀ l v, .addColumn l v ∈ ops → v = dv) (t : Table α L) (m : LMatrix α L) (shl : L → Str) (sh : α → Str)
    (ht : Table.runAll dl dv ops (Table.new dl dv rows cols) = .ok t)
    (hm : LMatrix.run ops (LMatrix.init rows cols dv) = .ok m)
    (hr : ∀ l ∈ m.rowLabels, PlainField (shl (l.getD dl))) (hc : ∀ l ∈ m.colLabels, PlainField (shl (l.getD dl)))
    (hx : ∀ r ∈ m.rows, ∀ x ∈ r, PlainField (sh x)) :
    ∃ txt, t.text shl sh = .ok txt ∧ readTable txt = (b!"Row" :: m.colLabels.map fun l => shl (l.getD dl)) ::
      (m.rowLabels.zip m.rows).map fun p => shl (p.1.getD dl) :: p.2.map sh := by
  have r := Table.rep_runAll dv ops (Table.rep_new dl dv rows cols) h
  rw [ht, hm] at r
  have r : Table.Rep dl t m := r
  refine ⟨_, Table.text_eq r shl sh, readTable_lines _ ?_ ?_⟩
  · intro row hrow
    simp only [List.mem_cons, List.mem_map] at hrow
    rcases hrow with rfl | ⟨p, _, rfl⟩ <;> simp
  · intro row hrow x hx'
    simp only [List.mem_cons, List.mem_map] at hrow
    rcases hrow with rfl | ⟨p, hp, rfl⟩
    · simp only [List.mem_cons, List.mem_map] at hx'
      rcases hx' with rfl | ⟨l, hl, rfl⟩
      · exact ⟨by decide, by decide⟩
      · exact hc l hl
    · simp only [List.mem_cons, List.mem_map] at hx'
      rcases hx' with rfl | ⟨y, hy, rfl⟩
      · exact hr _ (List.of_mem_zip hp).1
      · exact hx _ (List.of_mem_zip hp).2 y hy

example : (Table.runAll b!"" b!"" [.addRow b!"r" b!"", .addColumn b!"c" b!"", .put 0 0 b!"5", .addRow b!"s" b!"7"]
    (Table.new b!"" b!"" 0 0) >>= Table.text id id) = .ok b!"Row\tc\nr\t5\ns\t7\n" := by decide +kernel

/-- The text of a vector is one line with its elements. -/
theorem C84_vector {α : Type} (sh : α → Str) (xs : List α) (h : ∀ x ∈ xs, PlainField (sh x)) (hne : xs ≠ []) :
    readTable (vecText sh xs) = [xs.map sh] := by
  cases xs with
  | nil => exact absurd rfl hne
  | cons x xs =>
    have := readTable_lines [(x :: xs).map sh] (by simp) (by
      intro r hr y hy
      simp only [List.mem_singleton] at hr
      subst hr
      obtain ⟨z, hz, rfl⟩ := List.mem_map.1 hy
      exact h z hz)
    rw [← this]
    unfold vecText
    rw [vecTextLoop_eq]
    simp [line]

example : vecText id [b!"1", b!"", b!"3"] = b!"1\t\t3\n" := by decide

/-- An empty vector is written like one that holds an empty text. -/
theorem C84_vector_refuted : vecText id [] = vecText id [b!""] := rfl

/-! ## C85: writes by name -/

/-- `sto[label] = x` for any history of a storage with a frame: the value is found under that label in the last frame, no
other cell that existed changes, whether its column has a label or not, and no frame is added. The only label that can be
new is the one named; its column then has the default value in the earlier frames. Without a frame it throws. -/
theorem C85_label {α L : Type} [DecidableEq L] (dl : L) (dv : α) (frames channels : Nat) (value : α)
    (ops : List (Storage.Op α L)) (s : Storage α L) (m : Matrix α L) (l : L) (x : α)
    (hs : Storage.runAll dl dv ops (Storage.new dl frames channels value) = .ok s)
    (hm : Matrix.run dv ops (Matrix.init frames channels value) = .ok m) :
    (m.rows = [] → s.putLabel dl dv l x = .throws .assertion) ∧
    (m.rows ≠ [] → ∃ s' m', s.putLabel dl dv l x = .ok s' ∧ StorageShows dl s' m' ∧ m'.rows.length = m.rows.length ∧
      valueAt m' (m.rows.length - 1) l = some x ∧
      (∀ f l', some l' ∈ m.labels → ¬ (f = m.rows.length - 1 ∧ l' = l) → valueAt m' f l' = valueAt m f l') ∧
      m'.labels = (if some l ∈ m.labels then m.labels else m.labels ++ [some l]) ∧
      (∀ f c, c < m.labels.length → ¬ (f = m.rows.length - 1 ∧ m.labels[c]? = some (some l)) → cellAt m' f c = cellAt m f c) ∧
      (some l ∉ m.labels → ∀ f, f + 1 < m.rows.length → valueAt m' f l = some dv)) := by
  have r := Storage.rep_runAll dv ops (Storage.rep_new dl frames channels value)
  rw [hs, hm] at r
  have r : Storage.Rep dl s m := r
  refine ⟨Storage.putLabel_none r dv l x, fun hne => ?_⟩
  obtain ⟨s', m', h1, h2, h3, _, h5, h6, h7, h8, h9⟩ := Storage.rep_putLabel r dv l x (List.length_pos_iff.2 hne)
  exact ⟨s', m', h1, h2.shows, h3, h5, h6, h7, h8, h9⟩

/-- What a sequence of named writes leaves behind. -/
theorem rep_putLabels {α L : Type} [DecidableEq L] {dl : L} {dv : α} (ws : List (L × α)) {s : Storage α L} {m : Matrix α L}
    (r : Storage.Rep dl s m) (hf : 0 < m.rows.length) (hn : (ws.map Prod.fst).Nodup) :
    ∃ s' m', ws.foldlM (fun s w => s.putLabel dl dv w.1 w.2) s = .ok s' ∧ Storage.Rep dl s' m' ∧
      m'.rows.length = m.rows.length ∧ (∀ l, some l ∈ m.labels → some l ∈ m'.labels) ∧
      (∀ w ∈ ws, valueAt m' (m.rows.length - 1) w.1 = some w.2) ∧
      (∀ f l, some l ∈ m.labels → (f = m.rows.length - 1 → l ∉ ws.map Prod.fst) → valueAt m' f l = valueAt m f l) ∧
      (∃ new : List L, m'.labels = m.labels ++ new.map some ∧ ∀ l ∈ new, l ∈ ws.map Prod.fst) ∧
      ∀ f c, c < m.labels.length → (f = m.rows.length - 1 → ∀ l ∈ ws.map Prod.fst, m.labels[c]? ≠ some (some l)) →
        cellAt m' f c = cellAt m f c := by
  induction ws generalizing s m with
  | nil => exact ⟨s, m, rfl, r, rfl, fun _ h => h, by simp, fun _ _ _ _ => rfl, ⟨[], by simp, by simp⟩, fun _ _ _ _ => rfl⟩
  | cons w ws ih =>
    obtain ⟨s1, m1, h1, r1, e1, l1, v1, k1, g1, c1, _⟩ := Storage.rep_putLabel r dv w.1 w.2 hf
    simp only [List.map_cons, List.nodup_cons] at hn
    obtain ⟨s2, m2, h2, r2, e2, l2, v2, k2, ⟨new, g2, n2⟩, c2⟩ := ih r1 (by omega) hn.2
    have g1' : ∃ one : List L, m1.labels = m.labels ++ one.map some ∧ ∀ l ∈ one, l = w.1 := by
      split at g1
      · exact ⟨[], by simpa using g1, by simp⟩
      · exact ⟨[w.1], by simpa using g1, by simp⟩
    obtain ⟨one, g1', o1⟩ := g1'
    refine ⟨s2, m2, ?_, r2, by omega, fun l hl => l2 l ((l1 l).2 (Or.inl hl)), ?_, ?_, ⟨one ++ new, by simp [g2, g1'], ?_⟩, ?_⟩
    · rw [List.foldlM_cons, h1]
      exact h2
    · intro w' hw'
      rcases List.mem_cons.1 hw' with rfl | hw'
      · rw [k2 _ _ ((l1 _).2 (Or.inr rfl)) (fun _ => hn.1), v1]
      · rw [← v2 w' hw', e1]
    · intro f l hl hne
      rw [k2 f l ((l1 l).2 (Or.inl hl)) (fun he => fun hm => hne (by omega) (List.mem_cons_of_mem _ hm)),
        k1 f l hl (fun ⟨he, hl'⟩ => hne he (by simp [hl']))]
    · intro l hl
      rcases List.mem_append.1 hl with hl | hl
      · exact List.mem_cons.2 (Or.inl (o1 l hl))
      · exact List.mem_cons_of_mem _ (n2 l hl)
    · intro f c hc hne
      rw [c2 f c (by rw [g1']; simp; omega) (fun he l hl => by
          rw [g1', List.getElem?_append_left hc]
          exact hne (by omega) l (List.mem_cons_of_mem _ hl)),
        c1 f c hc (fun ⟨he, hl'⟩ => hne he w.1 (by simp) hl')]

/-- `write_storage` of a vector or a quaternion stores each component under the name with its suffix, in the last frame, and
changes nothing else that existed; no other labels are added. -/
theorem C85_vectors {K : Type} [Zero K] (frames channels : Nat) (value : K)
    (ops : List (Storage.Op K Str)) (s : Storage K Str) (m : Matrix K Str) (str : Str) (v : Vec3 K) (q : Quat K)
    (hs : Storage.runAll [] 0 ops (Storage.new [] frames channels value) = .ok s)
    (hm : Matrix.run 0 ops (Matrix.init frames channels value) = .ok m) (hf : m.rows ≠ []) :
    (∃ s' m', s.writeVec3 str v = .ok s' ∧ StorageShows [] s' m' ∧ m'.rows.length = m.rows.length ∧
      valueAt m' (m.rows.length - 1) (str ++ b!".x") = some v.x ∧
      valueAt m' (m.rows.length - 1) (str ++ b!".y") = some v.y ∧
      valueAt m' (m.rows.length - 1) (str ++ b!".z") = some v.z ∧
      (∀ f l, some l ∈ m.labels → (f = m.rows.length - 1 → l ∉ [str ++ b!".x", str ++ b!".y", str ++ b!".z"]) →
        valueAt m' f l = valueAt m f l) ∧
      (∃ new : List Str, m'.labels = m.labels ++ new.map some ∧ ∀ l ∈ new, l ∈ [str ++ b!".x", str ++ b!".y", str ++ b!".z"]) ∧
      ∀ f c, c < m.labels.length →
        (f = m.rows.length - 1 → ∀ l ∈ [str ++ b!".x", str ++ b!".y", str ++ b!".z"], m.labels[c]? ≠ some (some l)) →
        cellAt m' f c = cellAt m f c) ∧
    (∃ s' m', s.writeQuat str q = .ok s' ∧ StorageShows [] s' m' ∧ m'.rows.length = m.rows.length ∧
      valueAt m' (m.rows.length - 1) (str ++ b!".w") = some q.w ∧
      valueAt m' (m.rows.length - 1) (str ++ b!".x") = some q.x ∧
      valueAt m' (m.rows.length - 1) (str ++ b!".y") = some q.y ∧
      valueAt m' (m.rows.length - 1) (str ++ b!".z") = some q.z ∧
      (∀ f l, some l ∈ m.labels → (f = m.rows.length - 1 → l ∉ [str ++ b!".w", str ++ b!".x", str ++ b!".y", str ++ b!".z"]) →
        valueAt m' f l = valueAt m f l) ∧
      (∃ new : List Str, m'.labels = m.labels ++ new.map some ∧ ∀ l ∈ new, l ∈ [str ++ b!".w", str ++ b!".x", str ++ b!".y", str ++ b!".z"]) ∧
      ∀ f c, c < m.labels.length →
        (f = m.rows.length - 1 → ∀ l ∈ [str ++ b!".w", str ++ b!".x", str ++ b!".y", str ++ b!".z"], m.labels[c]? ≠ some (some l)) →
        cellAt m' f c = cellAt m f c) := by
  have r := Storage.rep_runAll 0 ops (Storage.rep_new [] frames channels value)
  rw [hs, hm] at r
  have r : Storage.Rep [] s m := r
  have hpos := List.length_pos_iff.2 hf
  constructor
  · obtain ⟨s', m', h1, r1, e1, _, v1, k1, g1, c1⟩ := rep_putLabels (dv := 0)
      [(str ++ b!".x", v.x), (str ++ b!".y", v.y), (str ++ b!".z", v.z)] r hpos (by simp)
    refine ⟨s', m', ?_, r1.shows, e1, v1 (_, v.x) (by simp), v1 (_, v.y) (by simp), v1 (_, v.z) (by simp), k1, g1, c1⟩
    rw [← h1]
    simp only [Storage.writeVec3, List.foldlM_cons, List.foldlM_nil]
    congr 1; funext a; congr 1; funext b
    cases b.putLabel [] 0 (str ++ b!".z") v.z <;> rfl
  · obtain ⟨s', m', h1, r1, e1, _, v1, k1, g1, c1⟩ := rep_putLabels (dv := 0)
      [(str ++ b!".w", q.w), (str ++ b!".x", q.x), (str ++ b!".y", q.y), (str ++ b!".z", q.z)] r hpos (by simp)
    refine ⟨s', m', ?_, r1.shows, e1, v1 (_, q.w) (by simp), v1 (_, q.x) (by simp), v1 (_, q.y) (by simp), v1 (_, q.z) (by simp),
      k1, g1, c1⟩
    rw [← h1]
    simp only [Storage.writeQuat, List.foldlM_cons, List.foldlM_nil]
    congr 1; funext a; congr 1; funext b; congr 1; funext c
    cases c.putLabel [] 0 (str ++ b!".z") q.z <;> rfl

example : ((Storage.runAll [] 0 [.addChannel b!"t" 1, .addFrame 5] (Storage.new [] 0 0 (0 : Int))) >>=
    Storage.writeVec3 b!"p" ⟨2, 3, 4⟩) =
    .ok ⟨1, ⟨[b!"t", b!"p.x", b!"p.y", b!"p.z"], [(b!"t", 0), (b!"p.x", 1), (b!"p.y", 2), (b!"p.z", 3)]⟩, [5, 2, 3, 4]⟩ := by
  decide +kernel

/-! ## C86: values between frames -/

section Interpolation
variable {K L : Type} [DecidableEq L] [Field K] [LinearOrder K] [IsStrictOrderedRing K] [FloorRing K]

/-- `get_interpolated_value` at frame `n + w`, for `0 ≤ w < 1` and frames `n` and `n + 1` of any history of a storage, is on
the line between the two cells; at a frame it is the cell. From the last frame on it throws. -/
theorem C86_interpolated_partial (dl : L) (frames channels : Nat) (value : K) (ops : List (Storage.Op K L))
    (s : Storage K L) (m : Matrix K L) (hs : Storage.runAll dl 0 ops (Storage.new dl frames channels value) = .ok s)
    (hm : Matrix.run 0 ops (Matrix.init frames channels value) = .ok m) (n c : Nat) (w : K) (hw : 0 ≤ w) (hw1 : w < 1)
    (hc : c < m.labels.length) :
    (n + 1 < m.rows.length → ∃ a b, m.rows[n]?.bind (·[c]?) = some a ∧ m.rows[n + 1]?.bind (·[c]?) = some b ∧
      s.interpolated (n + w) c = .ok (a + w * (b - a)) ∧ (w = 0 → s.interpolated (n : K) c = .ok a) ∧
      (a ≤ b → a ≤ a + w * (b - a) ∧ a + w * (b - a) ≤ b)) ∧
    (m.rows.length ≤ n + 1 → s.interpolated (n + w) c = .throws .assertion) := by
  have r := Storage.rep_runAll 0 ops (Storage.rep_new dl frames channels value)
  rw [hs, hm] at r
  have r : Storage.Rep dl s m := r
  have hfl : ⌊(n : K) + w⌋ = (n : Int) := by
    rw [Int.floor_eq_iff]
    constructor
    · push_cast; linarith
    · push_cast; linarith
  have hnn : ¬ ((n : Int) < 0) := by omega
  constructor
  · intro hn
    have hc0 : c < (m.rows[n]).length := by rw [r.wf _ (List.getElem_mem _)]; exact hc
    have hc1 : c < (m.rows[n + 1]).length := by rw [r.wf _ (List.getElem_mem _)]; exact hc
    obtain ⟨a, h1, h2⟩ := r.get n c (by omega) hc
    obtain ⟨b, h3, h4⟩ := r.get (n + 1) c hn hc
    unfold Storage.get at h2 h4
    have e : (n + 1) * s.channels + c = n * s.channels + c + s.channels := by ring
    rw [e] at h4
    have key : s.interpolated ((n : K) + w) c = .ok (a + w * (b - a)) := by
      unfold Storage.interpolated
      simp only [hfl, if_neg hnn, Int.toNat_natCast, r.frames, if_pos hn, h2, h4, Res.bind_ok]
      congr 1
      push_cast
      ring
    refine ⟨a, b, h1, h3, key, ?_, ?_⟩
    · rintro rfl
      rw [add_zero] at key
      rw [key]
      simp
    · intro hab
      have := sub_nonneg.2 hab
      constructor <;> nlinarith
  · intro hn
    unfold Storage.interpolated
    simp only [hfl, if_neg hnn, Int.toNat_natCast, r.frames, if_neg (not_lt.2 hn)]

omit [IsStrictOrderedRing K] in
/-- A negative frame is undefined. -/
theorem C86_negative (s : Storage K L) (c : Nat) (x : K) (h : x < 0) : s.interpolated x c = .ub := by
  unfold Storage.interpolated
  rw [if_pos (Int.floor_lt_zero.2 h)]

end Interpolation

example : (Storage.runAll [] 0 [.addChannel b!"a" 0, .addFrame 1, .addFrame 3, .addFrame 9] (Storage.new [] 0 0 (0 : ℚ)) >>=
    Storage.interpolated (1 + 1 / 3) 0) = .ok 5 := by decide +kernel

/-- The last frame exists, but its value cannot be had this way. -/
theorem C86_last_frame_refuted : ∃ s : Storage ℚ Str,
    Storage.runAll [] 0 [.addChannel b!"a" 0, .addFrame 1, .addFrame 3] (Storage.new [] 0 0 0) = .ok s ∧
    s.get 1 0 = .ok 3 ∧ s.interpolated 1 0 = .throws .assertion := ⟨_, rfl, by decide +kernel, by decide +kernel⟩

/-- The channel is not checked: asking for the channel after the last gives numbers of the next frame, or leaves the data. -/
theorem C86_channel_refuted : ∃ s : Storage ℚ Str,
    Storage.runAll [] 0 [.addChannel b!"a" 0, .addFrame 1, .addFrame 3, .addFrame 9] (Storage.new [] 0 0 0) = .ok s ∧
    s.channels = 1 ∧ s.interpolated 0 1 = .ok 3 ∧ s.interpolated 1 1 = .ub :=
  ⟨_, rfl, rfl, by decide +kernel, by decide +kernel⟩

/-! ## C87: sampling a function -/

section Sampling
variable {K : Type} [Field K] [LinearOrder K] [IsStrictOrderedRing K]

omit [LinearOrder K] [IsStrictOrderedRing K] in
theorem samplesLoop_get (lo hi : K) (f : K → K) (samples k i j : Nat) (hj : j < k) :
    (samplesLoop lo hi f samples k i)[j]? = some (samplePoint lo hi f samples (i + j)) := by
  induction k generalizing i j with
  | zero => omega
  | succ k ih =>
    unfold samplesLoop
    cases j with
    | zero => simp
    | succ j =>
      rw [List.getElem?_cons_succ, ih (i + 1) j (by omega)]
      congr 2
      omega

omit [LinearOrder K] [IsStrictOrderedRing K] in
theorem samplesLoop_length (lo hi : K) (f : K → K) (samples k i : Nat) :
    (samplesLoop lo hi f samples k i).length = k := by
  induction k generalizing i with
  | zero => rfl
  | succ k ih => simp [samplesLoop, ih]

/-- `output_function` with `n + 2` samples writes `n + 2` points: the first at `min`, the last at `max`, neighbours at equal
distances, each with the function's value, in increasing order if `min < max`. -/
theorem C87_samples (lo hi : K) (f : K → K) (n : Nat) :
    (outputFunction lo hi f (n + 2)).length = n + 2 ∧
    (outputFunction lo hi f (n + 2))[0]? = some (lo, f lo) ∧
    (outputFunction lo hi f (n + 2))[n + 1]? = some (hi, f hi) ∧
    (∀ p ∈ outputFunction lo hi f (n + 2), p.2 = f p.1) ∧
    (∀ i p q, (outputFunction lo hi f (n + 2))[i]? = some p → (outputFunction lo hi f (n + 2))[i + 1]? = some q →
      q.1 - p.1 = (hi - lo) / (n + 1)) ∧
    (lo < hi → (outputFunction lo hi f (n + 2)).Pairwise fun p q => p.1 < q.1) := by
  have hpos : (0 : K) < (n : K) + 1 := by positivity
  have hne : ((n + 2 : ℕ) : K) - 1 = (n : K) + 1 := by push_cast; ring
  have get : ∀ j, j < n + 2 → (outputFunction lo hi f (n + 2))[j]? = some (samplePoint lo hi f (n + 2) j) := by
    intro j hj
    unfold outputFunction
    rw [samplesLoop_get lo hi f (n + 2) (n + 2) 0 j hj, Nat.zero_add]
  have len : (outputFunction lo hi f (n + 2)).length = n + 2 := samplesLoop_length lo hi f _ _ _
  have pt : ∀ j, (samplePoint lo hi f (n + 2) j).1 = lo + j * ((hi - lo) / (n + 1)) := by
    intro j
    simp only [samplePoint, hne]
    ring
  refine ⟨len, ?_, ?_, ?_, ?_, ?_⟩
  · rw [get 0 (by omega)]
    simp [samplePoint]
  · rw [get (n + 1) (by omega)]
    have : lo + ((n + 1 : ℕ) : K) * (hi - lo) / (((n + 2 : ℕ) : K) - 1) = hi := by
      rw [hne]; push_cast; field_simp; ring
    simp only [samplePoint, this]
  · intro p hp
    obtain ⟨i, hi', rfl⟩ := List.mem_iff_getElem.1 hp
    have := get i (by omega)
    rw [List.getElem?_eq_getElem hi'] at this
    simp only [Option.some.injEq] at this
    rw [this]
    rfl
  · intro i p q hp hq
    have hi1 : i + 1 < n + 2 := by
      rw [← len]; exact (List.getElem?_eq_some_iff.1 hq).1
    rw [get i (by omega)] at hp
    rw [get (i + 1) hi1] at hq
    simp only [Option.some.injEq] at hp hq
    rw [← hp, ← hq, pt, pt]
    push_cast
    ring
  · intro hlt
    rw [List.pairwise_iff_getElem]
    intro i j hi' hj' hij
    have h1 := get i (by omega)
    have h2 := get j (by omega)
    rw [List.getElem?_eq_getElem hi'] at h1
    rw [List.getElem?_eq_getElem hj'] at h2
    simp only [Option.some.injEq] at h1 h2
    rw [h1, h2, pt, pt]
    have hs : 0 < (hi - lo) / ((n : K) + 1) := div_pos (by linarith) hpos
    have : (i : K) < j := by exact_mod_cast hij
    nlinarith

omit [Field K] [LinearOrder K] [IsStrictOrderedRing K] in
/-- The text that is written is read back as the table of those points and values. -/
theorem C87_text (sh : K → Str) (ps : List (K × K)) (h : ∀ x, PlainField (sh x)) :
    readTable (outputText sh ps) = ps.map fun p => [sh p.1, sh p.2] := by
  have e : outputText sh ps = ((ps.map fun p => [sh p.1, sh p.2]).map line).flatten := by
    induction ps with
    | nil => rfl
    | cons p ps ih =>
      obtain ⟨x, y⟩ := p
      simp only [outputText, List.map_cons, List.flatten_cons, ih, line, intercalate_cons_cons, intercalate_one]
      simp
  rw [e]
  refine readTable_lines _ ?_ ?_
  · intro r hr
    obtain ⟨p, _, rfl⟩ := List.mem_map.1 hr
    simp
  · intro r hr x hx
    obtain ⟨p, _, rfl⟩ := List.mem_map.1 hr
    simp only [List.mem_cons, List.not_mem_nil, or_false] at hx
    rcases hx with rfl | rfl <;> exact h _

end Sampling

example : outputFunction (0 : ℚ) 1 (fun x => x * x) 3 = [(0, 0), (1 / 2, 1 / 4), (1, 1)] := by decide +kernel

end Flut
