import Verif.Model.Histogram
import Mathlib.Tactic.Linarith
import Mathlib.Tactic.NormNum
import Mathlib.Tactic.FieldSimp
import Mathlib.Tactic.Ring
import Mathlib.Tactic.Positivity
/-!
C33: the histogram accumulated over chunks.
-/
namespace Nilmtk

theorem binCounts_append (es xs ys : List Rat) :
    List.zipWith (· + ·) (binCounts es xs) (binCounts es ys) = binCounts es (xs ++ ys) := by
  fun_induction binCounts es xs with
  | case1 a b c es xs ih => simp only [binCounts, List.zipWith_cons_cons, List.countP_append, ih]
  | case2 a b xs => simp [binCounts, List.countP_append]
  | case3 => simp [binCounts]
  | case4 => simp [binCounts]

theorem present_append (a b : List (Option Rat)) : present (a ++ b) = present a ++ present b := by
  simp [present]

theorem histLoop_edges (chunks : List (List (Option Rat))) (es : List Rat) (done : List Rat) (lo hi : Rat) :
    histLoop (some (binCounts es done)) (.edges es) (some (some lo, some hi)) chunks =
      .ok (some (binCounts es (done ++ present chunks.flatten)), .edges es) := by
  induction chunks generalizing done with
  | nil => simp [histLoop, present]
  | cons c cs ih =>
    simp only [histLoop, fillRange, fillBins, npHistogram]
    rw [binCounts_append, ih]
    rw [List.flatten_cons, present_append, List.append_assoc]

/-- C33. With an explicit range and number of bins, the counts accumulated over the chunks are the counts of
all the readings together. -/
theorem C33_chunked_equals_whole (n : Nat) (hn : 1 ≤ n) (lo hi : Rat) (h : lo ≤ hi)
    (c : List (Option Rat)) (cs : List (List (Option Rat))) :
    histogramFromGenerator (.count n) (some (some lo, some hi)) (c :: cs) =
      histogramFromGenerator (.count n) (some (some lo, some hi)) [(c :: cs).flatten] := by
  unfold histogramFromGenerator
  simp only [histLoop, fillRange, fillBins, npHistogram, if_neg (show ¬ n < 1 by omega),
    if_neg (show ¬ lo > hi by linarith)]
  rw [histLoop_edges, List.flatten_cons, present_append]

/-- C33. The counts: every bin holds the number of readings in it (the last bin includes its upper edge); the
edges are `n + 1` equidistant points from `lo` to `hi`. -/
theorem C33_counts (n : Nat) (hn : 1 ≤ n) (lo hi : Rat) (h : lo < hi)
    (c : List (Option Rat)) (cs : List (List (Option Rat))) :
    ∃ counts es, histogramFromGenerator (.count n) (some (some lo, some hi)) (c :: cs) = .ok (some counts, .edges es) ∧
      es.length = n + 1 ∧ counts.length = n ∧
      (∀ i, i ≤ n → es[i]? = some (lo + i * ((hi - lo) / n))) ∧
      (∀ i, i < n → counts[i]? = some (((c :: cs).flatten.filterMap id).countP (fun x =>
        decide (lo + i * ((hi - lo) / n) ≤ x ∧
          (x < lo + (i + 1) * ((hi - lo) / n) ∨ (i + 1 = n ∧ x = hi)))))) := by
  have hlen : ∀ es xs, (binCounts es xs).length = es.length - 1 := by
    intro es xs
    fun_induction binCounts es xs with
    | case1 a b c es xs ih => simp only [List.length_cons, ih]; omega
    | case2 => rfl
    | case3 => rfl
    | case4 => rfl
  have hget : ∀ (es xs : List Rat) (i : Nat) (a b : Rat), es[i]? = some a → es[i + 1]? = some b →
      (binCounts es xs)[i]? = some (xs.countP (fun x => decide (a ≤ x ∧ (x < b ∨ (i + 2 = es.length ∧ x = b))))) := by
    intro es xs
    fun_induction binCounts es xs with
    | case1 p q r es xs ih =>
      intro i a b ha hb
      cases i with
      | zero =>
        simp only [List.getElem?_cons_zero, Option.some.injEq, Nat.zero_add, List.getElem?_cons_succ] at ha hb
        subst ha; subst hb
        simp only [List.getElem?_cons_zero, List.length_cons]
        congr 2
        funext x
        congr 1
        simp only [eq_iff_iff]
        constructor
        · rintro ⟨h1, h2⟩; exact ⟨h1, Or.inl h2⟩
        · rintro ⟨h1, h2 | ⟨h2, _⟩⟩
          · exact ⟨h1, h2⟩
          · omega
      | succ i =>
        simp only [List.getElem?_cons_succ] at ha hb ⊢
        rw [ih i a b ha hb]
        congr 2
        funext x
        congr 1
        simp only [List.length_cons, eq_iff_iff]
        constructor <;> rintro ⟨h1, h2 | ⟨h2, h3⟩⟩
        · exact ⟨h1, Or.inl h2⟩
        · exact ⟨h1, Or.inr ⟨by omega, h3⟩⟩
        · exact ⟨h1, Or.inl h2⟩
        · exact ⟨h1, Or.inr ⟨by omega, h3⟩⟩
    | case2 p q xs =>
      intro i a b ha hb
      cases i with
      | zero =>
        simp only [List.getElem?_cons_zero, Option.some.injEq, Nat.zero_add, List.getElem?_cons_succ] at ha hb
        subst ha; subst hb
        simp only [List.getElem?_cons_zero, List.length_cons, List.length_nil]
        congr 2
        funext x
        congr 1
        simp only [eq_iff_iff]
        constructor
        · rintro ⟨h1, h2⟩
          rcases lt_or_eq_of_le h2 with h2 | h2
          · exact ⟨h1, Or.inl h2⟩
          · exact ⟨h1, Or.inr ⟨by simp, h2⟩⟩
        · rintro ⟨h1, h2 | ⟨_, h2⟩⟩
          · exact ⟨h1, le_of_lt h2⟩
          · exact ⟨h1, le_of_eq h2⟩
      | succ i => simp at hb
    | case3 => intro i a b ha hb; simp at hb
    | case4 => intro i a b ha hb; simp at hb
  have hn0 : (n : Rat) ≠ 0 := by
    have : n ≠ 0 := by omega
    exact_mod_cast this
  have hes : ∀ i, i ≤ n → (npEdges lo hi n)[i]? = some (lo + i * ((hi - lo) / n)) := by
    intro i hi'
    unfold npEdges
    simp only [if_neg (ne_of_lt h)]
    rw [List.getElem?_map, List.getElem?_range (by omega)]
    rfl
  have hel : (npEdges lo hi n).length = n + 1 := by simp [npEdges]
  refine ⟨binCounts (npEdges lo hi n) (present (c :: cs).flatten), npEdges lo hi n, ?_, hel, ?_, hes, ?_⟩
  · rw [C33_chunked_equals_whole n hn lo hi (le_of_lt h)]
    unfold histogramFromGenerator
    simp only [histLoop, fillRange, fillBins, npHistogram]
    rw [if_neg (by omega), if_neg (by linarith)]
  · rw [hlen, hel]; rfl
  · intro i hi'
    rw [hget _ _ i _ _ (hes i (by omega)) (hes (i + 1) (by omega)), hel]
    congr 2
    funext x
    congr 1
    push_cast
    simp only [eq_iff_iff]
    have hlast : i + 1 = n → lo + ((i : Rat) + 1) * ((hi - lo) / n) = hi := by
      intro hh
      have : (i : Rat) + 1 = n := by exact_mod_cast hh
      rw [this]
      field_simp
      ring
    constructor <;> rintro ⟨h1, h2 | ⟨h2, h3⟩⟩
    · exact ⟨h1, Or.inl h2⟩
    · exact ⟨h1, Or.inr ⟨by omega, by rw [h3]; exact hlast (by omega)⟩⟩
    · exact ⟨h1, Or.inl h2⟩
    · exact ⟨h1, Or.inr ⟨by omega, by rw [h3]; exact (hlast h2).symm⟩⟩

theorem binCounts_sum (es : List Rat) (xs : List Rat) (a b : Rat) (hs : es.Pairwise (· ≤ ·)) (hlen : 2 ≤ es.length)
    (ha : es.head? = some a) (hb : es.getLast? = some b) :
    (binCounts es xs).sum = xs.countP (fun x => decide (a ≤ x ∧ x ≤ b)) := by
  fun_induction binCounts es xs generalizing a with
  | case1 p q r es xs ih =>
    simp only [List.head?_cons, Option.some.injEq] at ha
    subst ha
    rw [List.getLast?_cons_cons] at hb
    rw [List.sum_cons, ih q hs.of_cons (by simp) rfl hb]
    have hpq : p ≤ q := (List.pairwise_cons.1 hs).1 q List.mem_cons_self
    have hqb : q ≤ b := by
      have hmem := List.mem_of_getLast? hb
      rcases List.mem_cons.1 hmem with rfl | hmem
      · exact le_refl _
      · exact (List.pairwise_cons.1 hs.of_cons).1 b hmem
    clear ih
    induction xs with
    | nil => rfl
    | cons x xs ih =>
      simp only [List.countP_cons]
      rw [← ih]
      have : ((if decide (p ≤ x ∧ x < q) then 1 else 0) + (if decide (q ≤ x ∧ x ≤ b) then 1 else 0) : Nat) =
          if decide (p ≤ x ∧ x ≤ b) then 1 else 0 := by
        simp only [decide_eq_true_eq]
        by_cases h1 : x < q
        · by_cases h2 : p ≤ x
          · rw [if_pos ⟨h2, h1⟩, if_neg (by rintro ⟨h, _⟩; linarith), if_pos ⟨h2, by linarith⟩]
          · rw [if_neg (by rintro ⟨h, _⟩; exact h2 h), if_neg (by rintro ⟨h, _⟩; linarith),
              if_neg (by rintro ⟨h, _⟩; exact h2 h)]
        · by_cases h2 : x ≤ b
          · rw [if_neg (by rintro ⟨_, h⟩; exact h1 h), if_pos ⟨by linarith, h2⟩, if_pos ⟨by linarith, h2⟩]
          · rw [if_neg (by rintro ⟨_, h⟩; exact h1 h), if_neg (by rintro ⟨_, h⟩; exact h2 h),
              if_neg (by rintro ⟨_, h⟩; exact h2 h)]
      omega
  | case2 p q xs =>
    simp only [List.head?_cons, Option.some.injEq, List.getLast?_cons_cons, List.getLast?_singleton] at ha hb
    subst ha; subst hb
    simp
  | case3 => simp at hlen
  | case4 => simp at hlen

/-- C33. No reading inside the range is lost or counted twice: the counts add up to the number of readings in
`[lo, hi]`. -/
theorem C33_total (n : Nat) (hn : 1 ≤ n) (lo hi : Rat) (h : lo < hi)
    (c : List (Option Rat)) (cs : List (List (Option Rat))) :
    ∃ counts es, histogramFromGenerator (.count n) (some (some lo, some hi)) (c :: cs) = .ok (some counts, .edges es) ∧
      counts.sum = ((c :: cs).flatten.filterMap id).countP (fun x => decide (lo ≤ x ∧ x ≤ hi)) := by
  have hn0 : (0 : Rat) < n := by
    have : 0 < n := by omega
    exact_mod_cast this
  refine ⟨binCounts (npEdges lo hi n) (present (c :: cs).flatten), npEdges lo hi n, ?_, ?_⟩
  · rw [C33_chunked_equals_whole n hn lo hi (le_of_lt h)]
    unfold histogramFromGenerator
    simp only [histLoop, fillRange, fillBins, npHistogram]
    rw [if_neg (by omega), if_neg (by linarith)]
  · apply binCounts_sum
    · unfold npEdges
      rw [List.pairwise_map]
      apply List.Pairwise.imp (R := fun a b => a < b) _ List.pairwise_lt_range
      intro i j hij
      simp only [if_neg (ne_of_lt h)]
      have h1 : (i : Rat) ≤ j := by exact_mod_cast le_of_lt hij
      have h2 : 0 ≤ (hi - lo) / n := le_of_lt (div_pos (by linarith) hn0)
      have := mul_le_mul_of_nonneg_right h1 h2
      linarith
    · simp [npEdges]; omega
    · simp [npEdges, List.range_succ_eq_map, if_neg (ne_of_lt h)]
    · simp only [npEdges, if_neg (ne_of_lt h), List.range_succ, List.map_append, List.map_cons, List.map_nil,
        List.getLast?_append, List.getLast?_singleton, Option.some_or, Option.some.injEq]
      field_simp
      ring

/-- C33. Without an explicit range, the range is that of the first chunk: later chunks cannot change it. -/
theorem C33_first_chunk_range (n : Nat) (c : List (Option Rat)) (cs : List (List (Option Rat))) (lo hi : Rat)
    (hlo : minOf (present c) = some lo) (hhi : maxOf (present c) = some hi) :
    histogramFromGenerator (.count n) none (c :: cs) =
      histogramFromGenerator (.count n) (some (some lo, some hi)) (c :: cs) ∧
    histogramFromGenerator .none none (c :: cs) =
      histogramFromGenerator (.count ⌊hi - lo⌋.toNat) (some (some lo, some hi)) (c :: cs) := by
  unfold histogramFromGenerator
  constructor <;> simp only [histLoop, fillRange, fillBins, hlo, hhi]

theorem minOf_least (l : List Rat) (x : Rat) : minOf l = some x ↔ x ∈ l ∧ ∀ y ∈ l, x ≤ y := by
  cases l with
  | nil => simp [minOf]
  | cons a l =>
    have h : l.foldl min a ∈ a :: l ∧ ∀ y ∈ a :: l, l.foldl min a ≤ y := by
      induction l generalizing a with
      | nil => simp
      | cons b l ih =>
        obtain ⟨h1, h2⟩ := ih (min a b)
        rw [List.foldl_cons]
        refine ⟨?_, ?_⟩
        · rcases List.mem_cons.1 h1 with h | h
          · rw [h]
            rcases min_choice a b with h | h <;> simp [h]
          · simp [h]
        · intro y hy
          rcases List.mem_cons.1 hy with rfl | hy
          · exact le_trans (h2 _ List.mem_cons_self) (min_le_left _ _)
          rcases List.mem_cons.1 hy with rfl | hy
          · exact le_trans (h2 _ List.mem_cons_self) (min_le_right _ _)
          · exact h2 y (List.mem_cons_of_mem _ hy)
    simp only [minOf, Option.some.injEq]
    constructor
    · rintro rfl; exact h
    · rintro ⟨h1, h2⟩
      exact le_antisymm (h.2 x h1) (h2 _ h.1)

theorem maxOf_greatest (l : List Rat) (x : Rat) : maxOf l = some x ↔ x ∈ l ∧ ∀ y ∈ l, y ≤ x := by
  cases l with
  | nil => simp [maxOf]
  | cons a l =>
    have h : l.foldl max a ∈ a :: l ∧ ∀ y ∈ a :: l, y ≤ l.foldl max a := by
      induction l generalizing a with
      | nil => simp
      | cons b l ih =>
        obtain ⟨h1, h2⟩ := ih (max a b)
        rw [List.foldl_cons]
        refine ⟨?_, ?_⟩
        · rcases List.mem_cons.1 h1 with h | h
          · rw [h]
            rcases max_choice a b with h | h <;> simp [h]
          · simp [h]
        · intro y hy
          rcases List.mem_cons.1 hy with rfl | hy
          · exact le_trans (le_max_left _ _) (h2 _ List.mem_cons_self)
          rcases List.mem_cons.1 hy with rfl | hy
          · exact le_trans (le_max_right _ _) (h2 _ List.mem_cons_self)
          · exact h2 y (List.mem_cons_of_mem _ hy)
    simp only [maxOf, Option.some.injEq]
    constructor
    · rintro rfl; exact h
    · rintro ⟨h1, h2⟩
      exact le_antisymm (h2 _ h.1) (h.2 x h1)

/-- C33. The default range, said without the code: if the least reading of the first chunk is `lo` and its greatest is `hi`, the
call without a range is the call with the range `(lo, hi)`; one limit can be given and the other left out. -/
theorem C33_default_range (n : Nat) (c : List (Option Rat)) (cs : List (List (Option Rat))) (lo hi : Rat)
    (hlo : some lo ∈ c) (hhi : some hi ∈ c) (hle : ∀ x, some x ∈ c → lo ≤ x ∧ x ≤ hi) (l h : Rat) :
    histogramFromGenerator (.count n) none (c :: cs) = histogramFromGenerator (.count n) (some (some lo, some hi)) (c :: cs) ∧
    histogramFromGenerator (.count n) (some (none, some h)) (c :: cs) =
      histogramFromGenerator (.count n) (some (some lo, some h)) (c :: cs) ∧
    histogramFromGenerator (.count n) (some (some l, none)) (c :: cs) =
      histogramFromGenerator (.count n) (some (some l, some hi)) (c :: cs) ∧
    histogramFromGenerator .none none (c :: cs) =
      histogramFromGenerator (.count ⌊hi - lo⌋.toNat) (some (some lo, some hi)) (c :: cs) := by
  have hmem : ∀ x, x ∈ present c ↔ some x ∈ c := by
    intro x
    simp [present, List.mem_filterMap]
  have h1 : minOf (present c) = some lo := (minOf_least _ _).2 ⟨(hmem lo).2 hlo, fun y hy => (hle y ((hmem y).1 hy)).1⟩
  have h2 : maxOf (present c) = some hi := (maxOf_greatest _ _).2 ⟨(hmem hi).2 hhi, fun y hy => (hle y ((hmem y).1 hy)).2⟩
  unfold histogramFromGenerator
  refine ⟨?_, ?_, ?_, ?_⟩ <;> simp only [histLoop, fillRange, fillBins, h1, h2]

/-- C33: so with the default range, readings of later chunks can be lost, and the result depends on the chunks. -/
theorem C33_default_range_counterexample :
    histogramFromGenerator (.count 1) none [[some 0, some 10], [some 20]] = .ok (some [2], .edges [0, 10]) ∧
    histogramFromGenerator (.count 1) none [[some 0, some 10, some 20]] = .ok (some [3], .edges [0, 20]) := by
  constructor <;> decide +kernel

/-- C33. Degenerate requests raise `ValueError`: no bins, an inverted range, or a default range on a first chunk
without readings. -/
theorem C33_errors (n : Nat) (lo hi : Rat) (c : List (Option Rat)) (cs : List (List (Option Rat))) (bins : Bins) :
    histogramFromGenerator (.count 0) (some (some lo, some hi)) (c :: cs) = .error .valueError ∧
    (hi < lo → histogramFromGenerator (.count n) (some (some lo, some hi)) (c :: cs) = .error .valueError) ∧
    (present c = [] → histogramFromGenerator bins none (c :: cs) = .error .valueError) := by
  unfold histogramFromGenerator
  refine ⟨by simp [histLoop, fillRange, fillBins, npHistogram], ?_, ?_⟩
  · intro h
    simp only [histLoop, fillRange, fillBins, npHistogram, if_pos (show lo > hi from h)]
    split <;> rename_i h' <;> split at h' <;> simp_all
  · intro h
    simp [histLoop, fillRange, h, minOf, maxOf]

example : histogramFromGenerator (.count 2) (some (some 0, some 4)) [[some 1, none], [some 2, some 4, some 9]] =
    .ok (some [1, 2], .edges [0, 2, 4]) := by decide +kernel

end Nilmtk
