import Verif.Model.Mle
import Mathlib.Data.List.Basic
import Mathlib.Data.List.Nodup
import Mathlib.Tactic.Linarith
/-!
C132: the samples `MLE` is trained on.
-/
namespace Nilmtk

/-! ### Specification -/

/-- The runs of an appliance among its edges: each rise that is followed at once by a fall, with that fall. -/
def mleRuns : List MleRow → List (MleRow × MleRow)
  | a :: b :: rest => if 0 < a.2 ∧ b.2 < 0 then (a, b) :: mleRuns (b :: rest) else mleRuns (b :: rest)
  | _ => []

/-- The runs in the chunks of a meter. -/
def meterRuns (th : Rat) (chunks : List (List MleRow)) : List (MleRow × MleRow) := chunks.flatMap (fun c => mleRuns (mleEdges th c))

/-- The power of the appliance for a reading: readings below the threshold count as none. -/
def cleanedPower (th x : Rat) : Rat := if th ≤ x then x else 0

/-! ### The events of a chunk -/

theorem mleClean_eq (th : Rat) (rows : List MleRow) : mleClean th rows = rows.map (fun r => (r.1, cleanedPower th r.2)) := by
  unfold mleClean cleanedPower
  apply List.map_congr_left
  intro r _
  by_cases h : r.2 < th
  · rw [if_pos h, if_neg (not_le.2 h)]
  · rw [if_neg h, if_pos (not_lt.1 h)]

theorem mem_mleDelta (e : MleRow) : ∀ (r : MleRow) (rest : List MleRow),
    e ∈ List.zipWith (fun a b : MleRow => ((b.1, b.2 - a.2) : MleRow)) (r :: rest) rest ↔
      ∃ pre a b post, r :: rest = pre ++ a :: b :: post ∧ e = (b.1, b.2 - a.2)
  | r, [] => by
    constructor
    · intro h; cases h
    · rintro ⟨pre, a, b, post, h, -⟩
      have := congrArg List.length h
      simp at this
      omega
  | r, b :: rest => by
    rw [List.zipWith_cons_cons, List.mem_cons, mem_mleDelta e b rest]
    constructor
    · rintro (h | ⟨pre, x, y, post, h, h'⟩)
      · exact ⟨[], r, b, rest, rfl, h⟩
      · exact ⟨r :: pre, x, y, post, by rw [h]; rfl, h'⟩
    · rintro ⟨pre, x, y, post, h, h'⟩
      cases pre with
      | nil =>
        rw [List.nil_append] at h
        injection h with h1 h2
        injection h2 with h2 h3
        subst h1 h2
        exact .inl h'
      | cons z pre =>
        rw [List.cons_append] at h
        injection h with h1 h2
        exact .inr ⟨pre, x, y, post, h2, h'⟩

/-- C132. The edges of a chunk are the changes of the power by more than the threshold from one reading to the next, at the time of the second. -/
theorem C132_edges (th : Rat) (hth : 0 ≤ th) (chunk : List MleRow) (e : MleRow) : e ∈ mleEdges th chunk ↔
    ∃ pre a b post, chunk = pre ++ a :: b :: post ∧ e = (b.1, cleanedPower th b.2 - cleanedPower th a.2) ∧ th < |e.2| := by
  unfold mleEdges
  rw [List.mem_filter, decide_eq_true_iff, mleClean_eq]
  cases chunk with
  | nil =>
    constructor
    · rintro ⟨h, -⟩; cases h
    · rintro ⟨pre, a, b, post, h, -⟩
      have := congrArg List.length h
      simp at this
  | cons r rest =>
    rw [List.map_cons, mleDelta, List.mem_cons, mem_mleDelta, ← List.map_cons (f := fun r : MleRow => (r.1, cleanedPower th r.2))]
    constructor
    · rintro ⟨h | ⟨pre, a, b, post, h, h'⟩, ht⟩
      · rw [h] at ht
        simp at ht
        exact absurd ht (not_lt.2 hth)
      · obtain ⟨l1, l2, hl, rfl, h2⟩ := List.map_eq_append_iff.1 h
        obtain ⟨x, l3, rfl, rfl, h3⟩ := List.map_eq_cons_iff.1 h2
        obtain ⟨y, l4, rfl, rfl, h4⟩ := List.map_eq_cons_iff.1 h3
        exact ⟨l1, x, y, l4, hl, h', ht⟩
    · rintro ⟨pre, a, b, post, h, h', ht⟩
      refine ⟨.inr ⟨pre.map (fun r => (r.1, cleanedPower th r.2)), (a.1, cleanedPower th a.2), (b.1, cleanedPower th b.2),
        post.map (fun r => (r.1, cleanedPower th r.2)), ?_, h'⟩, ht⟩
      rw [h, List.map_append, List.map_cons, List.map_cons]

theorem mleSign_back (a b : Rat) : mleSign b - mleSign a = -2 ↔ 0 < a ∧ b < 0 := by
  unfold mleSign
  rcases lt_trichotomy a 0 with h | h | h <;> rcases lt_trichotomy b 0 with h' | h' | h' <;>
    simp [h, h', not_lt.2 h.le, not_lt.2 h'.le]

theorem mleSign_ahead (a b : Rat) : mleSign a - mleSign b = 2 ↔ 0 < a ∧ b < 0 := by
  rw [← mleSign_back a b]
  omega

theorem mleWhere_cons (a : MleRow) (edges : List MleRow) (d : Option Int) (diff : List (Option Int)) (x : Int) :
    mleWhere (a :: edges) (d :: diff) x = (if d = some x then [a] else []) ++ mleWhere edges diff x := by
  unfold mleWhere
  rw [List.zip_cons_cons, List.filter_cons]
  by_cases h : d = some x
  · simp [h]
  · simp [h]

theorem mleOff_runs : ∀ edges : List MleRow, mleOff edges = (mleRuns edges).map Prod.snd
  | [] => rfl
  | [a] => by simp [mleOff, mleDiffBack, mleWhere, mleRuns]
  | a :: b :: rest => by
    have ih := mleOff_runs (b :: rest)
    unfold mleOff mleDiffBack at ih ⊢
    rw [mleWhere_cons, if_neg (by simp), List.nil_append] at ih
    rw [mleWhere_cons, if_neg (by simp), List.nil_append]
    rw [List.tail_cons] at ih ⊢
    rw [List.zipWith_cons_cons, mleWhere_cons, ih, mleRuns]
    by_cases h : 0 < a.2 ∧ b.2 < 0
    · rw [if_pos h, if_pos (by rw [(mleSign_back a.2 b.2).2 h])]
      rfl
    · rw [if_neg h, if_neg (fun e => h ((mleSign_back a.2 b.2).1 (by injection e)))]
      rfl

theorem mleOn_runs : ∀ edges : List MleRow, mleOn edges = (mleRuns edges).map Prod.fst
  | [] => rfl
  | [a] => by simp [mleOn, mleDiffAhead, mleWhere, mleRuns]
  | a :: b :: rest => by
    have ih := mleOn_runs (b :: rest)
    unfold mleOn mleDiffAhead at ih ⊢
    rw [List.tail_cons] at ih ⊢
    rw [List.zipWith_cons_cons, List.cons_append, mleWhere_cons, ih, mleRuns]
    by_cases h : 0 < a.2 ∧ b.2 < 0
    · rw [if_pos h, if_pos (by rw [(mleSign_ahead a.2 b.2).2 h])]
      rfl
    · rw [if_neg h, if_neg (fun e => h ((mleSign_ahead a.2 b.2).1 (by injection e)))]
      rfl

theorem mleDuration_runs (edges : List MleRow) : mleDuration edges = (mleRuns edges).map (fun r => (r.2.1 - r.1.1) / 1000000000) := by
  unfold mleDuration
  rw [mleOff_runs, mleOn_runs]
  generalize mleRuns edges = l
  induction l with
  | nil => rfl
  | cons a l ih => rw [List.map_cons, List.map_cons, List.zipWith_cons_cons, ih, List.map_cons]

theorem mleRuns_short (edges : List MleRow) (h : ¬ edges.length > 1) : mleRuns edges = [] := by
  match edges, h with
  | [], _ => rfl
  | [a], _ => rfl
  | a :: b :: rest, h => simp at h

/-- C132. What a chunk adds: for each run the rise, the fall and, if it is shorter than 400 s, the time between them; and the number of runs to the
statistics of the meter. -/
theorem C132_chunk {ι : Type} [DecidableEq ι] (th : Rat) (s : MleState ι) (i : ι) (chunk : List MleRow) :
    (mleTrainChunk th s i chunk).on = s.on ++ (mleRuns (mleEdges th chunk)).map (fun r => r.1.2) ∧
    (mleTrainChunk th s i chunk).off = s.off ++ (mleRuns (mleEdges th chunk)).map (fun r => r.2.2) ∧
    (mleTrainChunk th s i chunk).duration =
      (s.duration ++ (mleRuns (mleEdges th chunk)).map (fun (r : MleRow × MleRow) => (r.2.1 - r.1.1) / 1000000000)).filter (fun d => decide (d < 400)) ∧
    (mleTrainChunk th s i chunk).stats = mleStat s.stats i (mleRuns (mleEdges th chunk)).length := by
  unfold mleTrainChunk
  by_cases h : (mleEdges th chunk).length > 1
  · simp only [if_pos h, mleOn_runs, mleOff_runs, mleDuration_runs, List.map_map, List.length_map]
    refine ⟨?_, ?_, ?_, ?_⟩ <;> first | trivial | rfl
  · simp [if_neg h, mleRuns_short _ h]

theorem mleRuns_mem : ∀ edges : List MleRow, ∀ r ∈ mleRuns edges, 0 < r.1.2 ∧ r.2.2 < 0 ∧ [r.1, r.2] <:+: edges
  | [], r, h => by cases h
  | [a], r, h => by cases h
  | a :: b :: rest, r, h => by
    have key : r ∈ mleRuns (b :: rest) → 0 < r.1.2 ∧ r.2.2 < 0 ∧ [r.1, r.2] <:+: a :: b :: rest := by
      intro h
      obtain ⟨h1, h2, h3⟩ := mleRuns_mem (b :: rest) r h
      exact ⟨h1, h2, h3.trans (List.infix_cons (List.infix_refl _))⟩
    rw [mleRuns] at h
    split at h
    · rename_i hc
      rcases List.mem_cons.1 h with rfl | h
      · exact ⟨hc.1, hc.2, [], rest, rfl⟩
      · exact key h
    · exact key h

theorem mleDelta_times (rows : List MleRow) : (mleDelta rows).map Prod.fst = rows.map Prod.fst := by
  cases rows with
  | nil => rfl
  | cons r rest =>
    rw [mleDelta, List.map_cons, List.map_cons]
    congr 1
    generalize r = a
    induction rest generalizing a with
    | nil => rfl
    | cons b rest ih => rw [List.zipWith_cons_cons, List.map_cons, ih, List.map_cons]

/-- C132. All rises are above the threshold, all falls below minus the threshold, and the fall comes after the rise, if the chunk is in order of time. -/
theorem C132_runs (th : Rat) (chunk : List MleRow) (horder : (chunk.map Prod.fst).Pairwise (· < ·)) (r : MleRow × MleRow)
    (hr : r ∈ mleRuns (mleEdges th chunk)) : th < r.1.2 ∧ r.2.2 < -th ∧ r.1.1 < r.2.1 := by
  obtain ⟨h1, h2, h3⟩ := mleRuns_mem _ r hr
  have m1 : r.1 ∈ mleEdges th chunk := h3.subset List.mem_cons_self
  have m2 : r.2 ∈ mleEdges th chunk := h3.subset (List.mem_cons_of_mem _ List.mem_cons_self)
  have e1 := of_decide_eq_true (List.mem_filter.1 m1).2
  have e2 := of_decide_eq_true (List.mem_filter.1 m2).2
  rw [abs_of_pos h1] at e1
  rw [abs_of_neg h2] at e2
  refine ⟨e1, by linarith, ?_⟩
  have hsub : List.Sublist ([r.1, r.2].map Prod.fst) (chunk.map Prod.fst) := by
    have t : (mleDelta (mleClean th chunk)).map Prod.fst = chunk.map Prod.fst := by
      rw [mleDelta_times]
      unfold mleClean
      rw [List.map_map]
      rfl
    rw [← t]
    exact (h3.sublist.trans List.filter_sublist).map _
  have := horder.sublist hsub
  simpa using this

/-! ### The samples of all meters -/

theorem mleStat_fresh {ι : Type} [DecidableEq ι] (stats : List (ι × Nat)) (i : ι) (n : Nat) (h : i ∉ stats.map Prod.fst) :
    mleStat stats i n = stats ++ [(i, n)] := by
  unfold mleStat
  rw [if_neg h]

theorem mleStat_last {ι : Type} [DecidableEq ι] (stats : List (ι × Nat)) (i : ι) (k n : Nat) (h : i ∉ stats.map Prod.fst) :
    mleStat (stats ++ [(i, k)]) i n = stats ++ [(i, k + n)] := by
  unfold mleStat
  rw [if_pos (by simp), List.map_append]
  congr 1
  · have : ∀ s ∈ stats, (if s.1 = i then (s.1, s.2 + n) else s) = s := by
      intro s hs
      rw [if_neg]
      intro e
      exact h (List.mem_map.2 ⟨s, hs, e⟩)
    rw [List.map_congr_left this, List.map_id']
  · simp

/-- The chunks of a meter after the first. -/
theorem mle_more {ι : Type} [DecidableEq ι] (th : Rat) (i : ι) (chunks : List (List MleRow)) : ∀ (s : MleState ι) (stats : List (ι × Nat)) (k : Nat),
    i ∉ stats.map Prod.fst → s.stats = stats ++ [(i, k)] →
    (chunks.foldl (fun s c => mleTrainChunk th s i c) s).on = s.on ++ (meterRuns th chunks).map (fun r => r.1.2) ∧
    (chunks.foldl (fun s c => mleTrainChunk th s i c) s).off = s.off ++ (meterRuns th chunks).map (fun r => r.2.2) ∧
    (chunks.foldl (fun s c => mleTrainChunk th s i c) s).stats = stats ++ [(i, k + (meterRuns th chunks).length)] := by
  induction chunks with
  | nil => intro s stats k _ hs; simp [meterRuns, hs]
  | cons c chunks ih =>
    intro s stats k hi hs
    obtain ⟨c1, c2, -, c4⟩ := C132_chunk th s i c
    rw [hs, mleStat_last _ _ _ _ hi] at c4
    obtain ⟨h1, h2, h3⟩ := ih (mleTrainChunk th s i c) stats _ hi c4
    rw [List.foldl_cons, h1, h2, h3, c1, c2]
    have : meterRuns th (c :: chunks) = mleRuns (mleEdges th c) ++ meterRuns th chunks := by
      unfold meterRuns
      rw [List.flatMap_cons]
    rw [this]
    simp [Nat.add_assoc]

theorem mle_meter {ι : Type} [DecidableEq ι] (th : Rat) (i : ι) (chunks : List (List MleRow)) (s : MleState ι) (hi : i ∉ s.stats.map Prod.fst) :
    (chunks.foldl (fun s c => mleTrainChunk th s i c) s).on = s.on ++ (meterRuns th chunks).map (fun r => r.1.2) ∧
    (chunks.foldl (fun s c => mleTrainChunk th s i c) s).off = s.off ++ (meterRuns th chunks).map (fun r => r.2.2) ∧
    (chunks.foldl (fun s c => mleTrainChunk th s i c) s).stats =
      s.stats ++ (if chunks = [] then [] else [(i, (meterRuns th chunks).length)]) := by
  cases chunks with
  | nil => simp [meterRuns]
  | cons c chunks =>
    obtain ⟨c1, c2, -, c4⟩ := C132_chunk th s i c
    rw [mleStat_fresh _ _ _ hi] at c4
    obtain ⟨h1, h2, h3⟩ := mle_more th i chunks (mleTrainChunk th s i c) s.stats _ hi c4
    rw [List.foldl_cons, h1, h2, h3, c1, c2]
    have : meterRuns th (c :: chunks) = mleRuns (mleEdges th c) ++ meterRuns th chunks := by
      unfold meterRuns
      rw [List.flatMap_cons]
    rw [this]
    simp

theorem edges_nil (th : Rat) : mleRuns (mleEdges th []) = [] := rfl

theorem meterRuns_filter (th : Rat) (chunks : List (List MleRow)) : meterRuns th (chunks.filter (fun c => !c.isEmpty)) = meterRuns th chunks := by
  induction chunks with
  | nil => rfl
  | cons c chunks ih =>
    unfold meterRuns at *
    cases c with
    | nil => rw [List.filter_cons_of_neg (by simp), ih, List.flatMap_cons, edges_nil, List.nil_append]
    | cons r c => rw [List.filter_cons_of_pos (by simp), List.flatMap_cons, ih, List.flatMap_cons]

theorem mle_train_from {ι : Type} [DecidableEq ι] (th : Rat) (meters : List (ι × List (List MleRow))) : ∀ s : MleState ι,
    (s.stats.map Prod.fst ++ meters.map Prod.fst).Nodup →
    ∃ entries : List (ι × Nat), entries.Sublist (meters.map (fun m => (m.1, (meterRuns th m.2).length))) ∧
      (∀ m ∈ meters, (∃ c ∈ m.2, c ≠ []) ↔ m.1 ∈ entries.map Prod.fst) ∧
      (entries.filter (fun e => decide (e.2 ≠ 0))) =
        (meters.map (fun m => (m.1, (meterRuns th m.2).length))).filter (fun e => decide (e.2 ≠ 0)) ∧
      (meters.foldl (fun s m => (m.2.filter (fun c => !c.isEmpty)).foldl (fun s c => mleTrainChunk th s m.1 c) s) s).on =
        s.on ++ meters.flatMap (fun m => (meterRuns th m.2).map (fun r => r.1.2)) ∧
      (meters.foldl (fun s m => (m.2.filter (fun c => !c.isEmpty)).foldl (fun s c => mleTrainChunk th s m.1 c) s) s).off =
        s.off ++ meters.flatMap (fun m => (meterRuns th m.2).map (fun r => r.2.2)) ∧
      (meters.foldl (fun s m => (m.2.filter (fun c => !c.isEmpty)).foldl (fun s c => mleTrainChunk th s m.1 c) s) s).stats = s.stats ++ entries := by
  induction meters with
  | nil => intro s _; exact ⟨[], by simp⟩
  | cons m meters ih =>
    intro s hn
    rw [List.map_cons] at hn
    have hn' := List.nodup_append.1 hn
    have hi : m.1 ∉ s.stats.map Prod.fst := fun h => hn'.2.2 _ h _ List.mem_cons_self rfl
    obtain ⟨h1, h2, h3⟩ := mle_meter th m.1 (m.2.filter (fun c => !c.isEmpty)) s hi
    rw [meterRuns_filter] at h1 h2 h3
    have hm : m.1 ∉ meters.map Prod.fst := (List.nodup_cons.1 hn'.2.1).1
    have hempty : m.2.filter (fun c => !c.isEmpty) = [] ↔ ¬ ∃ c ∈ m.2, c ≠ [] := by
      rw [List.filter_eq_nil_iff]
      constructor
      · rintro h ⟨c, hc, hc2⟩
        exact h c hc (by cases c with | nil => exact absurd rfl hc2 | cons => rfl)
      · intro h c hc hc2
        exact h ⟨c, hc, by rintro rfl; simp at hc2⟩
    have hnext : (((m.2.filter (fun c => !c.isEmpty)).foldl (fun s c => mleTrainChunk th s m.1 c) s).stats.map Prod.fst ++ meters.map Prod.fst).Nodup := by
      rw [h3]
      by_cases he : m.2.filter (fun c => !c.isEmpty) = []
      · rw [if_pos he, List.append_nil]
        exact hn.sublist ((List.Sublist.refl _).append (List.sublist_cons_self _ _))
      · rw [if_neg he]
        simpa using hn
    obtain ⟨entries, q1, q2, q3, q4, q5, q6⟩ := ih _ hnext
    have hout : m.1 ∉ entries.map Prod.fst := by
      intro h
      have := (q1.map Prod.fst).subset h
      rw [List.map_map] at this
      exact hm this
    refine ⟨(if m.2.filter (fun c => !c.isEmpty) = [] then [] else [(m.1, (meterRuns th m.2).length)]) ++ entries, ?_, ?_, ?_, ?_, ?_, ?_⟩
    · rw [List.map_cons]
      by_cases he : m.2.filter (fun c => !c.isEmpty) = []
      · rw [if_pos he, List.nil_append]
        exact q1.cons _
      · rw [if_neg he]
        exact q1.cons_cons _
    · intro x hx
      by_cases he : m.2.filter (fun c => !c.isEmpty) = []
      · rw [if_pos he, List.nil_append]
        rcases List.mem_cons.1 hx with rfl | hx
        · exact ⟨fun h => absurd h (hempty.1 he), fun h => absurd h hout⟩
        · exact q2 x hx
      · rw [if_neg he, List.singleton_append, List.map_cons, List.mem_cons]
        rcases List.mem_cons.1 hx with rfl | hx
        · exact ⟨fun _ => .inl rfl, fun _ => by by_contra hc; exact he (hempty.2 hc)⟩
        · rw [q2 x hx]
          constructor
          · exact .inr
          · rintro (h | h)
            · exact absurd (List.mem_map.2 ⟨x, hx, h⟩) hm
            · exact h
    · by_cases he : m.2.filter (fun c => !c.isEmpty) = []
      · have hz : (meterRuns th m.2).length = 0 := by
          rw [← meterRuns_filter, he]
          rfl
        rw [if_pos he, List.nil_append, List.map_cons, List.filter_cons_of_neg (by simp [hz]), q3]
      · rw [if_neg he, List.singleton_append, List.map_cons, List.filter_cons, List.filter_cons, q3]
    · rw [List.foldl_cons, q4, h1, List.flatMap_cons, List.append_assoc]
    · rw [List.foldl_cons, q5, h2, List.flatMap_cons, List.append_assoc]
    · rw [List.foldl_cons, q6, h3, List.append_assoc]

/-- C132. After training on meters of different names the samples of on and off power are those of all runs, meter after meter, and the statistics have
an entry for each meter that has readings, with the number of its runs, and no others. -/
theorem C132_counts {ι : Type} [DecidableEq ι] (th : Rat) (meters : List (ι × List (List MleRow))) (hn : (meters.map Prod.fst).Nodup) :
    (mleTrain th meters).on = meters.flatMap (fun m => (meterRuns th m.2).map (fun r => r.1.2)) ∧
    (mleTrain th meters).off = meters.flatMap (fun m => (meterRuns th m.2).map (fun r => r.2.2)) ∧
    ((mleTrain th meters).stats.map Prod.fst).Nodup ∧
    (∀ m ∈ meters, ∀ n, (m.1, n) ∈ (mleTrain th meters).stats ↔ (∃ c ∈ m.2, c ≠ []) ∧ n = (meterRuns th m.2).length) ∧
    ∀ e ∈ (mleTrain th meters).stats, ∃ m ∈ meters, m.1 = e.1 := by
  obtain ⟨entries, q1, q2, -, q4, q5, q6⟩ := mle_train_from th meters MleState.start (by simpa [MleState.start] using hn)
  have hs : (mleTrain th meters).stats = entries := by
    unfold mleTrain
    rw [q6]
    rfl
  have huniq : ∀ a ∈ meters, ∀ b ∈ meters, a.1 = b.1 → a = b := fun a ha b hb h => List.inj_on_of_nodup_map hn ha hb h
  refine ⟨q4, q5, ?_, ?_, ?_⟩
  · rw [hs]
    refine List.Nodup.sublist (q1.map Prod.fst) ?_
    rw [List.map_map]
    exact hn
  · intro m hm n
    rw [hs]
    have hmem : ∀ k, (m.1, k) ∈ entries → k = (meterRuns th m.2).length := by
      intro k hk
      obtain ⟨x, hx, hx2⟩ := List.mem_map.1 (q1.subset hk)
      injection hx2 with e1 e2
      rw [huniq x hx m hm e1] at e2
      exact e2.symm
    constructor
    · intro h
      exact ⟨(q2 m hm).2 (List.mem_map.2 ⟨_, h, rfl⟩), hmem n h⟩
    · rintro ⟨h, rfl⟩
      obtain ⟨⟨j, k⟩, hk, e⟩ := List.mem_map.1 ((q2 m hm).1 h)
      simp only at e
      subst e
      rw [← hmem k hk]
      exact hk
  · intro e he
    rw [hs] at he
    obtain ⟨x, hx, hx2⟩ := List.mem_map.1 (q1.subset he)
    exact ⟨x, hx, by rw [← hx2]⟩

/-- The duration of a run in whole seconds. -/
def runSeconds (r : MleRow × MleRow) : Int := (r.2.1 - r.1.1) / 1000000000

theorem mle_durations_meter {ι : Type} [DecidableEq ι] (th : Rat) (i : ι) (chunks : List (List MleRow)) : ∀ s : MleState ι, (∀ d ∈ s.duration, d < 400) →
    (chunks.foldl (fun s c => mleTrainChunk th s i c) s).duration =
      s.duration ++ ((meterRuns th chunks).map runSeconds).filter (fun d => decide (d < 400)) := by
  induction chunks with
  | nil => intro s _; simp [meterRuns]
  | cons c chunks ih =>
    intro s hs
    obtain ⟨-, -, c3, -⟩ := C132_chunk th s i c
    have hself : s.duration.filter (fun d => decide (d < 400)) = s.duration := List.filter_eq_self.2 (fun d hd => decide_eq_true (hs d hd))
    rw [List.filter_append, hself] at c3
    have hnext : ∀ d ∈ (mleTrainChunk th s i c).duration, d < 400 := by
      intro d hd
      rw [c3] at hd
      rcases List.mem_append.1 hd with h | h
      · exact hs d h
      · exact of_decide_eq_true (List.mem_filter.1 h).2
    rw [List.foldl_cons, ih _ hnext, c3]
    have : meterRuns th (c :: chunks) = mleRuns (mleEdges th c) ++ meterRuns th chunks := by
      unfold meterRuns
      rw [List.flatMap_cons]
    rw [this, List.map_append, List.filter_append, List.append_assoc]
    rfl

/-- C132. After training, the samples of durations are those of all runs shorter than 400 s, meter after meter. -/
theorem C132_durations {ι : Type} [DecidableEq ι] (th : Rat) (meters : List (ι × List (List MleRow))) :
    (mleTrain th meters).duration = (meters.flatMap (fun m => (meterRuns th m.2).map runSeconds)).filter (fun d => decide (d < 400)) := by
  have key : ∀ s : MleState ι, (∀ d ∈ s.duration, d < 400) →
      (meters.foldl (fun s m => (m.2.filter (fun c => !c.isEmpty)).foldl (fun s c => mleTrainChunk th s m.1 c) s) s).duration =
        s.duration ++ (meters.flatMap (fun m => (meterRuns th m.2).map runSeconds)).filter (fun d => decide (d < 400)) := by
    induction meters with
    | nil => intro s _; simp
    | cons m meters ih =>
      intro s hs
      have h1 := mle_durations_meter th m.1 (m.2.filter (fun c => !c.isEmpty)) s hs
      rw [meterRuns_filter] at h1
      rw [List.foldl_cons, ih, h1, List.flatMap_cons, List.filter_append, List.append_assoc]
      intro d hd
      rw [h1] at hd
      rcases List.mem_append.1 hd with h | h
      · exact hs d h
      · exact of_decide_eq_true (List.mem_filter.1 h).2
  have := key MleState.start (by intro d hd; cases hd)
  simpa [mleTrain, MleState.start] using this

/-! ### Cropping -/

theorem mleCrop_filter {α ι : Type} (samples : List α) (k : Nat) (stats : List (ι × Nat)) : ∀ start,
    mleCrop samples k start stats = mleCrop samples k start (stats.filter (fun e => decide (e.2 ≠ 0))) := by
  induction stats with
  | nil => intro start; rfl
  | cons e stats ih =>
    intro start
    obtain ⟨i, n⟩ := e
    by_cases h : n ≠ 0
    · rw [List.filter_cons_of_pos (by simpa using h), mleCrop, mleCrop, if_pos h, if_pos h, ih]
    · rw [List.filter_cons_of_neg (by simpa using h), mleCrop, if_neg h, ih]

theorem mleCrop_segments {α ι : Type} (k : Nat) (segs : List (ι × List α)) : ∀ pre : List α,
    mleCrop (pre ++ segs.flatMap Prod.snd) k pre.length (segs.map (fun g => (g.1, g.2.length))) = segs.flatMap (fun g => g.2.take k) := by
  induction segs with
  | nil => intro pre; rfl
  | cons g segs ih =>
    intro pre
    have h2 := ih (pre ++ g.2)
    rw [List.append_assoc, List.length_append] at h2
    rw [List.map_cons, mleCrop, List.flatMap_cons, List.flatMap_cons, h2]
    by_cases h : g.2.length ≠ 0
    · rw [if_pos h]
      congr 2
      rw [← List.append_assoc, List.take_left' (by rw [List.length_append]), List.drop_left' rfl]
    · rw [if_neg h]
      have hz : g.2 = [] := List.length_eq_zero_iff.1 (not_not.1 h)
      rw [hz] at h2 ⊢
      simpa using h2

theorem min?_mem_le (l : List Nat) (k : Nat) (h : l.min? = some k) : k ∈ l ∧ ∀ x ∈ l, k ≤ x := List.min?_eq_some_iff.1 h

/-- C132. `no_overfitting` after training on meters of different names: with no run at all there is a `ValueError`; otherwise, with `k` the smallest number
of runs of a meter that has any, the first `k` rises and the first `k` falls of each such meter are kept, and the statistics say so.
Missing: the durations, see `C132_duration_counterexample`. -/
theorem C132_crop_partial {ι : Type} [DecidableEq ι] (th : Rat) (meters : List (ι × List (List MleRow))) (hn : (meters.map Prod.fst).Nodup) :
    ((∀ m ∈ meters, meterRuns th m.2 = []) → mleNoOverfitting (mleTrain th meters) = .error .valueError) ∧
    ∀ k, (∃ m ∈ meters, (meterRuns th m.2).length = k ∧ k ≠ 0) → (∀ m ∈ meters, meterRuns th m.2 ≠ [] → k ≤ (meterRuns th m.2).length) →
      ∃ s, mleNoOverfitting (mleTrain th meters) = .ok s ∧
        s.on = meters.flatMap (fun m => ((meterRuns th m.2).take k).map (fun r => r.1.2)) ∧
        s.off = meters.flatMap (fun m => ((meterRuns th m.2).take k).map (fun r => r.2.2)) ∧
        ∀ m ∈ meters, meterRuns th m.2 ≠ [] → ∀ n, (m.1, n) ∈ s.stats ↔ n = k := by
  obtain ⟨entries, -, -, q3, q4, q5, q6⟩ := mle_train_from th meters MleState.start (by simpa [MleState.start] using hn)
  have hs : (mleTrain th meters).stats = entries := by
    unfold mleTrain
    rw [q6]
    rfl
  have hlens : ((mleTrain th meters).stats.map Prod.snd).filter (fun n => decide (n ≠ 0)) =
      (meters.map (fun m => (meterRuns th m.2).length)).filter (fun n => decide (n ≠ 0)) := by
    have e : ∀ l : List (ι × Nat), (l.map Prod.snd).filter (fun n => decide (n ≠ 0)) = (l.filter (fun e => decide (e.2 ≠ 0))).map Prod.snd := by
      intro l
      rw [List.filter_map]
      rfl
    rw [hs, e, q3, ← e, List.map_map]
    rfl
  have hcrop : ∀ (k : Nat) (f : MleRow × MleRow → Rat) (samples : List Rat),
      samples = meters.flatMap (fun m => (meterRuns th m.2).map f) →
      mleCrop samples k 0 (mleTrain th meters).stats = meters.flatMap (fun m => ((meterRuns th m.2).take k).map f) := by
    intro k f samples he
    have := mleCrop_segments k (meters.map (fun m => (m.1, (meterRuns th m.2).map f))) []
    rw [List.nil_append, List.map_map, List.flatMap_map, List.flatMap_map] at this
    simp only [← List.map_take] at this
    rw [mleCrop_filter, hs, q3, ← mleCrop_filter, he, ← this]
    simp [Function.comp_def]
  constructor
  · intro h
    unfold mleNoOverfitting
    rw [hlens]
    have : (meters.map (fun m => (meterRuns th m.2).length)).filter (fun n => decide (n ≠ 0)) = [] := by
      rw [List.filter_eq_nil_iff]
      intro x hx
      obtain ⟨m, hm, rfl⟩ := List.mem_map.1 hx
      simp [h m hm]
    rw [this]
    rfl
  · rintro k ⟨m0, hm0, hk, hk0⟩ hmin
    have hmin? : ((mleTrain th meters).stats.map Prod.snd |>.filter (fun n => decide (n ≠ 0))).min? = some k := by
      rw [hlens, List.min?_eq_some_iff]
      constructor
      · exact List.mem_filter.2 ⟨List.mem_map.2 ⟨m0, hm0, hk⟩, by simpa using hk0⟩
      · intro x hx
        obtain ⟨h1, h2⟩ := List.mem_filter.1 hx
        obtain ⟨m, hm, rfl⟩ := List.mem_map.1 h1
        exact hmin m hm (by intro e; rw [e] at h2; simp at h2)
    unfold mleNoOverfitting
    rw [hmin?]
    refine ⟨_, rfl, hcrop k _ _ q4, hcrop k _ _ q5, ?_⟩
    intro m hm hne n
    have hpos : (meterRuns th m.2).length ≠ 0 := fun e => hne (List.length_eq_zero_iff.1 e)
    have hread : ∃ c ∈ m.2, c ≠ [] := by
      by_contra hc
      apply hne
      unfold meterRuns
      rw [List.flatMap_eq_nil_iff]
      intro c hc2
      have : c = [] := by
        by_contra h
        exact hc ⟨c, hc2, h⟩
      rw [this]
      rfl
    obtain ⟨-, -, -, c4, -⟩ := C132_counts th meters hn
    simp only [List.mem_map]
    constructor
    · rintro ⟨⟨j, x⟩, hx, e⟩
      by_cases h0 : x ≠ 0
      · simp only [if_pos h0] at e
        injection e with _ e2
        exact e2.symm
      · simp only [if_neg h0] at e
        injection e with e1 e2
        rw [e1] at hx
        exact absurd ((c4 m hm x).1 hx).2 (by rw [not_not.1 h0]; exact fun e => hpos e.symm)
    · rintro rfl
      exact ⟨_, (c4 m hm _).2 ⟨hread, rfl⟩, by simp only [if_pos hpos]⟩

/-! ### Examples and counterexamples -/

/-- An appliance that is on twice, for 600 s and then for 60 s, and another that is on once, for 120 s. -/
def demoMle : List (Nat × List (List MleRow)) :=
  [(1, [[(0, 0), (10000000000, 100), (610000000000, 0), (620000000000, 100), (680000000000, 0)]]),
   (2, [[(0, 0), (60000000000, 50), (180000000000, 0)]])]

/-- C132. The durations are not cropped in step with the other samples: the duration of the long run was dropped, so the duration that is kept for the first
meter is that of its second run, and none is kept for the second meter. -/
theorem C132_duration_counterexample : (demoMle.map Prod.fst).Nodup ∧ (mleTrain 10 demoMle).duration = [60, 120] ∧
    ∃ s, mleNoOverfitting (mleTrain 10 demoMle) = .ok s ∧ s.on = [100, 50] ∧ s.off = [-100, -50] ∧ s.duration = [60] := by
  refine ⟨by decide, by decide +kernel, ?_⟩
  have h : (mleNoOverfitting (mleTrain 10 demoMle)).toOption.map (fun s => (s.on, s.off, s.duration)) = some ([100, 50], [-100, -50], [60]) := by
    decide +kernel
  cases hs : mleNoOverfitting (mleTrain 10 demoMle) with
  | error e => rw [hs] at h; cases h
  | ok s =>
    rw [hs] at h
    simp only [Except.toOption, Option.map_some, Option.some.injEq, Prod.mk.injEq] at h
    exact ⟨s, rfl, h.1, h.2.1, h.2.2⟩

/-- The hypotheses of `C132_crop_partial` are met, and those of `C132_runs`. -/
example : (demoMle.map Prod.fst).Nodup ∧ (∃ m ∈ demoMle, (meterRuns 10 m.2).length = 1 ∧ 1 ≠ 0) ∧
    (∀ m ∈ demoMle, ∀ c ∈ m.2, (c.map Prod.fst).Pairwise (· < ·)) := by
  refine ⟨by decide, ⟨(2, [[(0, 0), (60000000000, 50), (180000000000, 0)]]), by decide +kernel, by decide +kernel, by decide⟩, by decide +kernel⟩

end Nilmtk
