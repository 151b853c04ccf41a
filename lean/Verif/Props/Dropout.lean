import Verif.Model.Dropout
import Verif.Props.Results
import Mathlib.Tactic.Linarith
import Mathlib.Tactic.FieldSimp
import Mathlib.Tactic.Ring
import Mathlib.Tactic.Positivity
import Mathlib.Algebra.Order.BigOperators.Group.List
import Mathlib.Tactic.NormNum
/-!
C25, C26, C27, C30: dropout rates, and unifying the results of several meters.
-/
namespace Nilmtk
open TF

/-! ### C25 -/

/-- Python's `round` returns a nearest integer. -/
theorem pyRound_nearest (x : Rat) : |x - pyRound x| ≤ 1 / 2 := by
  have h1 := Int.floor_le x
  have h2 := Int.lt_floor_add_one x
  unfold pyRound
  rw [abs_le]
  simp only
  split
  · constructor <;> linarith
  · split
    · push_cast; constructor <;> linarith
    · split
      · constructor <;> linarith
      · push_cast; constructor <;> linarith

theorem pyRound_int (k : Int) : pyRound (k : Rat) = k := by
  unfold pyRound
  simp

theorem pyRound_nonneg {x : Rat} (h : 0 ≤ x) : 0 ≤ pyRound x := by
  have h1 : 0 ≤ ⌊x⌋ := Int.floor_nonneg.2 h
  unfold pyRound
  simp only
  split
  · exact h1
  · split
    · omega
    · split <;> omega

theorem toSecs_pos {d : Int} (h : 0 < d) : 0 < toSecs d := by
  unfold toSecs
  have : (0 : Rat) < d := by exact_mod_cast h
  positivity

theorem dropout_eq (index : List Int) (sp : Rat) (hsp : 0 < sp) (hn : 5 ≤ index.length) (a b : Int)
    (ha : index.head? = some a) (hb : index.getLast? = some b) (hab : a < b) :
    getDropoutRate index sp =
      .ok (some (max 0 (1 - (index.length : Rat) / ((pyRound (toSecs (b - a) / sp) : Rat) + 1)))) ∧
    (0 : Rat) < (pyRound (toSecs (b - a) / sp) : Rat) + 1 := by
  have hpos : 0 ≤ pyRound (toSecs (b - a) / sp) :=
    pyRound_nonneg (le_of_lt (div_pos (toSecs_pos (by omega)) hsp))
  have hpos' : (0 : Rat) < (pyRound (toSecs (b - a) / sp) : Rat) + 1 := by
    have : (0 : Rat) ≤ (pyRound (toSecs (b - a) / sp) : Rat) := by exact_mod_cast hpos
    linarith
  refine ⟨?_, hpos'⟩
  have hlen : (0 : Rat) < index.length := by
    have : 0 < index.length := by omega
    exact_mod_cast this
  have hfrac : 0 < (index.length : Rat) / ((pyRound (toSecs (b - a) / sp) : Rat) + 1) := div_pos hlen hpos'
  unfold getDropoutRate
  rw [if_neg (by unfold minNSamples; omega), ha, hb]
  simp only
  rw [if_neg (by omega), if_neg (ne_of_gt hsp), if_neg (by omega)]
  push_cast
  by_cases h : 1 - (index.length : Rat) / ((pyRound (toSecs (b - a) / sp) : Rat) + 1) < 0
  · rw [if_pos h, if_pos (by norm_num), max_eq_left (le_of_lt h)]
  · rw [if_neg h, if_pos ⟨by linarith, by linarith⟩, max_eq_right (by linarith)]

/-- C25. With a positive sample period and at least five readings spanning a positive time, the dropout rate is
defined and lies in `[0, 1)`: it is `1 - n / (k + 1)`, raised to 0 if negative, where `k` is a nearest
integer to the number of sample periods spanned. -/
theorem C25_dropout_in_unit_interval (index : List Int) (sp : Rat) (hsp : 0 < sp) (hn : 5 ≤ index.length)
    (a b : Int) (ha : index.head? = some a) (hb : index.getLast? = some b) (hab : a < b) :
    ∃ (r : Rat) (k : Int), getDropoutRate index sp = .ok (some r) ∧ 0 ≤ r ∧ r < 1 ∧
      |toSecs (b - a) / sp - k| ≤ 1 / 2 ∧ r = max 0 (1 - (index.length : Rat) / (k + 1)) := by
  obtain ⟨h1, h2⟩ := dropout_eq index sp hsp hn a b ha hb hab
  have hlen : (0 : Rat) < index.length := by
    have : 0 < index.length := by omega
    exact_mod_cast this
  refine ⟨_, _, h1, le_max_left _ _, ?_, pyRound_nearest _, rfl⟩
  have : 0 < (index.length : Rat) / ((pyRound (toSecs (b - a) / sp) : Rat) + 1) := div_pos hlen h2
  rw [max_lt_iff]
  constructor <;> linarith

/-- C25. The result is NaN exactly when there are fewer than five readings. -/
theorem C25_nan_iff (index : List Int) (sp : Rat) :
    getDropoutRate index sp = .ok none ↔ index.length < 5 := by
  constructor
  · intro h
    by_contra hn
    unfold getDropoutRate at h
    rw [if_neg (by unfold minNSamples; omega)] at h
    split at h
    · split at h
      · cases h
      · split at h
        · cases h
        · simp only at h
          split at h
          · cases h
          · split at h <;> split at h <;> simp_all
    · cases h
  · intro h
    unfold getDropoutRate
    rw [if_pos (by unfold minNSamples; omega)]

/-- C25. Losing readings (other than the first and the last) never lowers the dropout rate. -/
theorem C25_losing_readings_raises (index index' : List Int) (sp : Rat) (hsp : 0 < sp)
    (hsub : index'.Sublist index) (hn : 5 ≤ index'.length) (a b : Int)
    (ha : index.head? = some a) (ha' : index'.head? = some a)
    (hb : index.getLast? = some b) (hb' : index'.getLast? = some b) (hab : a < b) :
    ∃ r r', getDropoutRate index sp = .ok (some r) ∧ getDropoutRate index' sp = .ok (some r') ∧ r ≤ r' := by
  have hl := hsub.length_le
  obtain ⟨h1, h2⟩ := dropout_eq index sp hsp (by omega) a b ha hb hab
  obtain ⟨h3, _⟩ := dropout_eq index' sp hsp hn a b ha' hb' hab
  refine ⟨_, _, h1, h3, ?_⟩
  apply max_le_max (le_refl _)
  have : (index'.length : Rat) ≤ index.length := by exact_mod_cast hl
  have : (index'.length : Rat) / ((pyRound (toSecs (b - a) / sp) : Rat) + 1) ≤
      (index.length : Rat) / ((pyRound (toSecs (b - a) / sp) : Rat) + 1) :=
    div_le_div_of_nonneg_right this (le_of_lt h2)
  linarith

/-- C25. If the meter samples every `d` nanoseconds, `N` samples were due, and the first and the last
arrived together with some others, the dropout rate is exactly the proportion of missing samples. -/
theorem C25_exact_proportion (N : Nat) (t0 d : Int) (hd : 0 < d) (index : List Int)
    (hsub : index.Sublist ((List.range N).map (fun i : Nat => t0 + d * (i : Int))))
    (hn : 5 ≤ index.length) (ha : index.head? = some t0) (hb : index.getLast? = some (t0 + d * ((N : Int) - 1))) :
    getDropoutRate index (toSecs d) = .ok (some (((N : Rat) - index.length) / N)) := by
  have hN : index.length ≤ N := by simpa using hsub.length_le
  have hN5 : (5 : Int) ≤ N := by omega
  have hlt : t0 < t0 + d * ((N : Int) - 1) := by
    have : 0 < d * ((N : Int) - 1) := Int.mul_pos hd (by omega)
    omega
  obtain ⟨h1, _⟩ := dropout_eq index (toSecs d) (toSecs_pos hd) hn _ _ ha hb hlt
  have hq : toSecs (t0 + d * ((N : Int) - 1) - t0) / toSecs d = (((N : Int) - 1 : Int) : Rat) := by
    have hd' : (d : Rat) ≠ 0 := by exact_mod_cast (ne_of_gt hd)
    unfold toSecs
    push_cast
    field_simp
    ring
  rw [h1, hq, pyRound_int]
  have hNpos : (0 : Rat) < N := by
    have : 0 < N := by omega
    exact_mod_cast this
  have hle : (index.length : Rat) ≤ N := by exact_mod_cast hN
  congr 2
  push_cast
  rw [max_eq_right]
  · rw [sub_add_cancel]; field_simp
  · have : (index.length : Rat) / ((N : Rat) - 1 + 1) ≤ 1 := by
      rw [sub_add_cancel]
      exact (div_le_one hNpos).2 hle
    linarith

example : getDropoutRate [0, 1000000000, 2000000000, 4000000000, 5000000000, 7000000000] (toSecs 1000000000) =
    .ok (some (1 / 4)) := by
  rw [C25_exact_proportion 8 0 1000000000 (by decide) _ (by decide) (by decide) rfl rfl]
  norm_num

/-! ### C26 -/

theorem nanMul_some (a b : Rat) : nanMul (some a) (some b) = some (a * b) := rfl
theorem nanMul_none_left (b : Option Rat) : nanMul none b = none := by cases b <;> rfl
theorem nanMul_none_right (b : Option Rat) : nanMul b none = none := by cases b <;> rfl

theorem skipSum_append (a b : List (Option Rat)) : skipSum (a ++ b) = skipSum a + skipSum b := by
  simp [skipSum]

theorem skipSum_cons_some (x : Rat) (l : List (Option Rat)) : skipSum (some x :: l) = x + skipSum l := by
  simp [skipSum]

theorem skipSum_cons_none (l : List (Option Rat)) : skipSum (none :: l) = skipSum l := by
  simp [skipSum]

theorem combined_aux (T : Nat) (hT : 0 < T) (rows : List DRow) :
    skipSum (rows.map (fun r => nanMul r.rate (if T = 0 then none else some ((r.n : Rat) / T)))) =
      ((rows.filter (fun r => r.rate.isSome)).map (fun r => r.rate.getD 0 * (r.n : Rat))).sum / T := by
  have hT' : (T : Rat) ≠ 0 := by exact_mod_cast (ne_of_gt hT)
  induction rows with
  | nil => simp [skipSum]
  | cons r rows ih =>
    obtain ⟨rate, n⟩ := r
    simp only [if_neg (show ¬ T = 0 by omega)] at ih
    cases rate with
    | none => simpa [nanMul_some, nanMul_none_left, nanMul_none_right, skipSum_cons_none, if_neg (show ¬ T = 0 by omega)] using ih
    | some x =>
      simp only [List.map_cons, nanMul_some, if_neg (show ¬ T = 0 by omega), skipSum_cons_some, ih,
        Option.isSome_some, List.filter_cons_of_pos, List.sum_cons, Option.getD_some]
      field_simp

/-- C26. Without NaN chunks, `combined()` is the mean of the chunk rates weighted by the number of samples. -/
theorem C26_weighted_mean (rows : List (Rat × Nat)) (hpos : 0 < (rows.map Prod.snd).sum) :
    dropoutCombined (rows.map (fun r => ⟨some r.1, r.2⟩)) =
      (rows.map (fun r => r.1 * (r.2 : Rat))).sum / ((rows.map Prod.snd).sum : Rat) := by
  have e : ((rows.map (fun r => (⟨some r.1, r.2⟩ : DRow))).map DRow.n) = rows.map Prod.snd := by
    rw [List.map_map]; rfl
  unfold dropoutCombined
  simp only [e]
  rw [combined_aux _ hpos]
  congr 1
  · rw [List.filter_eq_self.2 (by intro r hr; obtain ⟨q, _, rfl⟩ := List.mem_map.1 hr; rfl), List.map_map]
    rfl
/-- C26. The combined rate lies between any bounds on the chunk rates. -/
theorem C26_between_bounds (rows : List (Rat × Nat)) (hpos : 0 < (rows.map Prod.snd).sum) (lo hi : Rat)
    (hlo : ∀ r ∈ rows, lo ≤ r.1) (hhi : ∀ r ∈ rows, r.1 ≤ hi) :
    lo ≤ dropoutCombined (rows.map (fun r => ⟨some r.1, r.2⟩)) ∧
    dropoutCombined (rows.map (fun r => ⟨some r.1, r.2⟩)) ≤ hi := by
  rw [C26_weighted_mean rows hpos]
  have hpos' : (0 : Rat) < ((rows.map Prod.snd).sum : Rat) := by exact_mod_cast hpos
  have h1 : ∀ rows : List (Rat × Nat), (∀ r ∈ rows, lo ≤ r.1) →
      lo * ((rows.map Prod.snd).sum : Rat) ≤ (rows.map (fun r => r.1 * (r.2 : Rat))).sum := by
    intro rows h
    induction rows with
    | nil => simp
    | cons r rows ih =>
      have hr := h r List.mem_cons_self
      have ih := ih (fun r hr => h r (List.mem_cons_of_mem _ hr))
      have hn : (0 : Rat) ≤ r.2 := by positivity
      have := mul_le_mul_of_nonneg_right hr hn
      simp only [List.map_cons, List.sum_cons]
      push_cast
      rw [mul_add]
      linarith
  have h2 : ∀ rows : List (Rat × Nat), (∀ r ∈ rows, r.1 ≤ hi) →
      (rows.map (fun r => r.1 * (r.2 : Rat))).sum ≤ hi * ((rows.map Prod.snd).sum : Rat) := by
    intro rows h
    induction rows with
    | nil => simp
    | cons r rows ih =>
      have hr := h r List.mem_cons_self
      have ih := ih (fun r hr => h r (List.mem_cons_of_mem _ hr))
      have hn : (0 : Rat) ≤ r.2 := by positivity
      have := mul_le_mul_of_nonneg_right hr hn
      simp only [List.map_cons, List.sum_cons]
      push_cast
      rw [mul_add]
      linarith
  constructor
  · rw [le_div_iff₀ hpos']; exact h1 rows hlo
  · rw [div_le_iff₀ hpos']; exact h2 rows hhi

/-- C26. With NaN chunks: the weights still count the samples of the NaN chunks, so they act as chunks
with rate 0. -/
theorem C26_nan_counts_as_zero (rows : List DRow) :
    dropoutCombined rows = dropoutCombined (rows.map (fun r => ⟨some (r.rate.getD 0), r.n⟩)) := by
  have e : ((rows.map (fun r => (⟨some (r.rate.getD 0), r.n⟩ : DRow))).map DRow.n) = rows.map DRow.n := by
    rw [List.map_map]; rfl
  unfold dropoutCombined
  simp only [e]
  generalize (rows.map DRow.n).sum = T
  induction rows with
  | nil => rfl
  | cons r rows ih =>
    have ih := ih (by rw [List.map_map]; rfl)
    obtain ⟨rate, n⟩ := r
    simp only [List.map_cons, List.map_map] at ih ⊢
    by_cases hT : T = 0
    · simp only [if_pos hT] at ih ⊢
      simp only [nanMul_none_right, skipSum_cons_none] at ih ⊢
      exact ih
    · simp only [if_neg hT] at ih ⊢
      cases rate with
      | none =>
        simp only [nanMul_some, nanMul_none_left, skipSum_cons_none, skipSum_cons_some, Option.getD_none, zero_mul, zero_add]
        exact ih
      | some x =>
        simp only [nanMul_some, skipSum_cons_some, Option.getD_some]
        rw [ih]

/-- C26: a NaN chunk is not ignored; adding a chunk of 4 samples (NaN) to a chunk of 4 samples with rate 1/2
halves the result. -/
theorem C26_nan_counterexample :
    dropoutCombined [⟨some (1 / 2), 4⟩] = 1 / 2 ∧ dropoutCombined [⟨some (1 / 2), 4⟩, ⟨none, 4⟩] = 1 / 4 := by
  constructor <;> norm_num [dropoutCombined, skipSum, nanMul_some, nanMul_none_left, List.filterMap_cons]

/-- C26: the combined dropout rate depends on the chunk size. Ten samples of the sixteen due have arrived; as one
chunk the rate is 3/8, as two chunks it is 1/4, because nobody counts the sample missing between the chunks
and the weights are the samples received, not the samples due. -/
theorem C26_chunking_counterexample :
    let a : List Int := [0, 1000000000, 2000000000, 3000000000, 4000000000]
    let b : List Int := [6000000000, 9000000000, 12000000000, 14000000000, 15000000000]
    (∃ rows, dropoutRows 1 [a ++ b] = .ok rows ∧ dropoutCombined rows = 3 / 8) ∧
    (∃ rows, dropoutRows 1 [a, b] = .ok rows ∧ dropoutCombined rows = 1 / 4) := by
  intro a b
  have h1 := C25_exact_proportion 16 0 1000000000 (by decide) (a ++ b) (by decide) (by decide) rfl rfl
  have h2 := C25_exact_proportion 5 0 1000000000 (by decide) a (by decide) (by decide) rfl rfl
  have h3 := C25_exact_proportion 10 6000000000 1000000000 (by decide) b (by decide) (by decide) rfl rfl
  have e : toSecs 1000000000 = 1 := by norm_num [toSecs]
  rw [e] at h1 h2 h3
  refine ⟨⟨_, by simp only [dropoutRows, h1]; rfl, ?_⟩, ⟨_, by simp only [dropoutRows, h2, h3]; rfl, ?_⟩⟩
  · norm_num [dropoutCombined, skipSum, nanMul_some, List.filterMap_cons, a, b]
  · norm_num [dropoutCombined, skipSum, nanMul_some, List.filterMap_cons, a, b]

/-! ### Unifying tables with the same rows -/

/-- Two tables are about the same periods. -/
def SamePeriods {α β : Type} (a : List (RRow α)) (b : List (RRow β)) : Prop :=
  List.Forall₂ (fun x y => x.start = y.start ∧ x.stop = y.stop) a b

theorem loc_same {α : Type} (a b : List (RRow α)) (h : SamePeriods a b) (hnd : (a.map RRow.start).Nodup) :
    List.Forall₂ (fun x y => Results.loc b x.start = some y ∧ y.stop = x.stop) a b := by
  induction h with
  | nil => exact .nil
  | cons hxy hrest ih =>
    rename_i x y a b
    rw [List.map_cons, List.nodup_cons] at hnd
    refine .cons ⟨?_, hxy.2.symm⟩ ?_
    · simp [Results.loc, List.find?, hxy.1]
    · have ih := ih hnd.2
      have key : ∀ (a' b' : List (RRow α)), (∀ z ∈ a', z.start ≠ y.start) →
          List.Forall₂ (fun x y => Results.loc b x.start = some y ∧ y.stop = x.stop) a' b' →
          List.Forall₂ (fun x z => Results.loc (y :: b) x.start = some z ∧ z.stop = x.stop) a' b' := by
        intro a' b' hne hf
        induction hf with
        | nil => exact .nil
        | cons h _ ih2 =>
          rename_i p q a' b' _
          refine .cons ⟨?_, h.2⟩ (ih2 (fun z hz => hne z (List.mem_cons_of_mem _ hz)))
          have := hne p List.mem_cons_self
          rw [Results.loc, List.find?_cons_of_neg (by simpa using fun h => this h.symm)]
          exact h.1
      apply key a b _ ih
      intro z hz he
      exact hnd.1 (by rw [hxy.1, ← he]; exact List.mem_map_of_mem hz)

theorem unifyCheck_same {α : Type} (a b : List (RRow α)) (h : SamePeriods a b) (hnd : (a.map RRow.start).Nodup) :
    Results.unifyCheck a b = .ok () := by
  have hl := loc_same a b h hnd
  generalize hb : b = b' at hl
  rw [← hb]
  clear h hnd
  have hb' : b' = b := hb.symm
  have : ∀ a' c : List (RRow α),
      List.Forall₂ (fun x y => Results.loc b x.start = some y ∧ y.stop = x.stop) a' c →
      Results.unifyCheck a' b = .ok () := by
    intro a' c hf
    induction hf with
    | nil => rfl
    | cons h _ ih => simp only [Results.unifyCheck, h.1]; rw [if_neg (by simpa using h.2)]; exact ih
  subst hb
  exact this a b hl

theorem map_loc_same {α β : Type} (a b : List (RRow α)) (h : SamePeriods a b) (hnd : (a.map RRow.start).Nodup)
    (f : RRow α → Option (RRow α) → β) :
    a.map (fun r => f r (Results.loc b r.start)) = List.zipWith (fun r o => f r (some o)) a b := by
  have hl := loc_same a b h hnd
  have : ∀ a' c : List (RRow α),
      List.Forall₂ (fun x y => Results.loc b x.start = some y ∧ y.stop = x.stop) a' c →
      a'.map (fun r => f r (Results.loc b r.start)) = List.zipWith (fun r o => f r (some o)) a' c := by
    intro a' c hf
    induction hf with
    | nil => rfl
    | cons h _ ih => simp only [List.map_cons, List.zipWith_cons_cons, h.1, ih]
  exact this a b hl

/-! ### C27 -/

theorem dropoutUnify_same (a b : List (RRow DRow)) (h : SamePeriods a b) (hnd : (a.map RRow.start).Nodup) :
    dropoutUnify a b = .ok (List.zipWith (fun r o =>
      ⟨r.start, r.stop, ⟨halve (nanAdd r.val.rate o.val.rate), r.val.n + o.val.n⟩⟩) a b) := by
  unfold dropoutUnify
  rw [unifyCheck_same a b h hnd]
  simp only
  rw [map_loc_same a b h hnd dropoutUnifyRow]
  rfl

/-- C27. Unifying the dropout rates of two meters over the same periods gives, for every period, the mean of
the two rates (NaN if either is NaN) and the sum of the two sample counts. -/
theorem C27_two_meters (a b : List (RRow DRow)) (h : SamePeriods a b) (hnd : (a.map RRow.start).Nodup) :
    ∃ c, dropoutUnify a b = .ok c ∧ c.length = a.length ∧
      ∀ (i : Nat) (x y : RRow DRow), a[i]? = some x → b[i]? = some y →
        ∃ z, c[i]? = some z ∧ z.start = x.start ∧ z.stop = x.stop ∧ z.val.n = x.val.n + y.val.n ∧
          (∀ p q, x.val.rate = some p → y.val.rate = some q → z.val.rate = some ((p + q) / 2)) ∧
          (x.val.rate = none ∨ y.val.rate = none → z.val.rate = none) := by
  refine ⟨_, dropoutUnify_same a b h hnd, ?_, ?_⟩
  · rw [List.length_zipWith, h.length_eq, Nat.min_self]
  · intro i x y hx hy
    refine ⟨⟨x.start, x.stop, ⟨halve (nanAdd x.val.rate y.val.rate), x.val.n + y.val.n⟩⟩,
      by rw [List.getElem?_zipWith, hx, hy], rfl, rfl, rfl, ?_, ?_⟩
    · intro p q hp hq
      simp [hp, hq, nanAdd, halve]
    · rintro (h | h)
      · simp [h, nanAdd, halve]
      · rw [h]; cases x.val.rate <;> rfl

/-- C27. `unify` succeeds exactly when every period of `self` is in `other`, with the same end. -/
theorem C27_unify_iff (a b : List (RRow DRow)) (hnd : (b.map RRow.start).Nodup) :
    (∃ c, dropoutUnify a b = .ok c) ↔ ∀ r ∈ a, ∃ o ∈ b, o.start = r.start ∧ o.stop = r.stop := by
  have hloc : ∀ (b : List (RRow DRow)) (s : Int) (o : RRow DRow), (b.map RRow.start).Nodup →
      (Results.loc b s = some o ↔ o ∈ b ∧ o.start = s) := by
    intro b s o hnd
    induction b with
    | nil => simp [Results.loc]
    | cons q b ih =>
      rw [List.map_cons, List.nodup_cons] at hnd
      have ih := ih hnd.2
      by_cases hq : q.start = s
      · rw [Results.loc, List.find?_cons_of_pos (by simpa using hq)]
        constructor
        · rintro h; cases h; exact ⟨List.mem_cons_self, hq⟩
        · rintro ⟨h1, h2⟩
          rcases List.mem_cons.1 h1 with rfl | h1
          · rfl
          · exact absurd (by rw [hq, ← h2]; exact List.mem_map_of_mem h1) hnd.1
      · rw [Results.loc, List.find?_cons_of_neg (by simpa using hq)]
        rw [← Results.loc, ih]
        constructor
        · rintro ⟨h1, h2⟩; exact ⟨List.mem_cons_of_mem _ h1, h2⟩
        · rintro ⟨h1, h2⟩
          rcases List.mem_cons.1 h1 with rfl | h1
          · exact absurd h2 hq
          · exact ⟨h1, h2⟩
  have hcheck : ∀ a : List (RRow DRow), Results.unifyCheck a b = .ok () ↔
      ∀ r ∈ a, ∃ o ∈ b, o.start = r.start ∧ o.stop = r.stop := by
    intro a
    induction a with
    | nil => simp [Results.unifyCheck]
    | cons r a ih =>
      rw [List.forall_mem_cons, ← ih]
      cases hl : Results.loc b r.start with
      | none =>
        simp only [Results.unifyCheck, hl]
        constructor
        · intro h; cases h
        · rintro ⟨⟨o, ho, h1, _⟩, _⟩
          rw [(hloc b r.start o hnd).2 ⟨ho, h1⟩] at hl
          cases hl
      | some o =>
        simp only [Results.unifyCheck, hl]
        by_cases hs : o.stop = r.stop
        · rw [if_neg (by simpa using hs)]
          have := (hloc b r.start o hnd).1 hl
          exact ⟨fun h => ⟨⟨o, this.1, this.2, hs⟩, h⟩, fun h => h.2⟩
        · rw [if_pos hs]
          constructor
          · intro h; cases h
          · rintro ⟨⟨o', ho', h1, h2⟩, _⟩
            rw [(hloc b r.start o' hnd).2 ⟨ho', h1⟩] at hl
            cases hl
            exact absurd h2 hs
  rw [← hcheck]
  unfold dropoutUnify
  constructor
  · rintro ⟨c, h⟩
    split at h
    · cases h
    · assumption
  · intro h
    rw [h]
    exact ⟨_, rfl⟩

/-- C27. What is raised when the periods do not fit, decided by the first row without a partner: `KeyError` if the other results have no
row with that start, `RuntimeError` if they have one with another end. -/
theorem C27_unify_error (pre post b : List (RRow DRow)) (r : RRow DRow) (hnd : (b.map RRow.start).Nodup)
    (hpre : ∀ q ∈ pre, ∃ o ∈ b, o.start = q.start ∧ o.stop = q.stop) :
    ((∀ o ∈ b, o.start ≠ r.start) → dropoutUnify (pre ++ r :: post) b = .error .keyError) ∧
    (∀ o ∈ b, o.start = r.start → o.stop ≠ r.stop → dropoutUnify (pre ++ r :: post) b = .error .runtimeError) := by
  have hfind : ∀ o ∈ b, Results.loc b o.start = some o := by
    intro o ho
    unfold Results.loc
    clear hpre
    induction b with
    | nil => simp at ho
    | cons q b ih =>
      rw [List.map_cons, List.nodup_cons] at hnd
      rcases List.mem_cons.1 ho with rfl | ho
      · simp
      · have hne : q.start ≠ o.start := by
          intro hc
          exact hnd.1 (by rw [hc]; exact List.mem_map_of_mem ho)
        rw [List.find?_cons_of_neg (by simpa using hne)]
        exact ih hnd.2 ho
  have hskip : Results.unifyCheck (pre ++ r :: post) b = Results.unifyCheck (r :: post) b := by
    clear hnd
    induction pre with
    | nil => rfl
    | cons q pre ih =>
      obtain ⟨o, ho, h1, h2⟩ := hpre q List.mem_cons_self
      rw [List.cons_append, Results.unifyCheck, ← h1, hfind o ho]
      simp only [h2, ne_eq, not_true_eq_false, if_false]
      exact ih (fun x hx => hpre x (List.mem_cons_of_mem _ hx))
  constructor
  · intro h
    have : Results.loc b r.start = none := by
      unfold Results.loc
      rw [List.find?_eq_none]
      intro o ho
      simpa using h o ho
    unfold dropoutUnify
    rw [hskip, Results.unifyCheck, this]
  · intro o ho h1 h2
    unfold dropoutUnify
    rw [hskip, Results.unifyCheck, ← h1, hfind o ho]
    simp only [ne_eq, h2, not_false_eq_true, if_true]

theorem SamePeriods.trans_left {α β γ : Type} {a : List (RRow α)} {b : List (RRow β)} {c : List (RRow γ)}
    (h1 : SamePeriods a b) (h2 : SamePeriods a c) : SamePeriods b c := by
  induction h1 generalizing c with
  | nil => cases h2; exact .nil
  | cons h _ ih =>
    cases h2 with
    | cons h' hr => exact .cons ⟨h.1.symm.trans h'.1, h.2.symm.trans h'.2⟩ (ih hr)

theorem SamePeriods.starts {α β : Type} {a : List (RRow α)} {b : List (RRow β)} (h : SamePeriods a b) :
    a.map RRow.start = b.map RRow.start := by
  induction h with
  | nil => rfl
  | cons h _ ih => simp only [List.map_cons, h.1, ih]

theorem samePeriods_zipWith (f : DRow → DRow → DRow) (a b : List (RRow DRow)) (h : SamePeriods a b) :
    SamePeriods a (List.zipWith (fun r o => ⟨r.start, r.stop, f r.val o.val⟩) a b) := by
  induction h with
  | nil => exact .nil
  | cons _ _ ih => exact .cons ⟨rfl, rfl⟩ ih

/-- C27. For any number of meters over the same periods, with rates in `[lo, hi]`, the unified rate of every
period is in `[lo, hi]`. In particular meters that agree are reported unchanged. -/
theorem C27_many_meters_bounds (first : List (RRow DRow)) (others : List (List (RRow DRow)))
    (hnd : (first.map RRow.start).Nodup) (hsame : ∀ t ∈ others, SamePeriods first t) (lo hi : Rat)
    (hb : ∀ t ∈ first :: others, ∀ r ∈ t, ∃ x, r.val.rate = some x ∧ lo ≤ x ∧ x ≤ hi) :
    ∃ c, dropoutUnifyAll first others = .ok c ∧ SamePeriods first c ∧
      ∀ r ∈ c, ∃ x, r.val.rate = some x ∧ lo ≤ x ∧ x ≤ hi := by
  induction others generalizing first with
  | nil =>
    refine ⟨first, rfl, ?_, hb first List.mem_cons_self⟩
    clear hnd hsame hb
    induction first with
    | nil => exact .nil
    | cons r first ih => exact .cons ⟨rfl, rfl⟩ ih
  | cons t others ih =>
    have ht := hsame t List.mem_cons_self
    have hz := samePeriods_zipWith (fun r o => ⟨halve (nanAdd r.rate o.rate), r.n + o.n⟩) first t ht
    simp only [dropoutUnifyAll, dropoutUnify_same first t ht hnd]
    obtain ⟨c, h1, h2, h3⟩ := ih _ (by rw [← hz.starts]; exact hnd)
      (fun u hu => hz.trans_left (hsame u (List.mem_cons_of_mem _ hu))) (by
        intro u hu r hr
        rcases List.mem_cons.1 hu with rfl | hu
        · obtain ⟨i, hi'⟩ := List.mem_iff_getElem?.1 hr
          rw [List.getElem?_zipWith] at hi'
          cases hx : first[i]? with
          | none => rw [hx] at hi'; cases hi'
          | some x =>
            cases hy : t[i]? with
            | none => rw [hx, hy] at hi'; cases hi'
            | some y =>
              rw [hx, hy] at hi'
              cases hi'
              obtain ⟨p, hp, hp1, hp2⟩ := hb first List.mem_cons_self x (List.mem_of_getElem? hx)
              obtain ⟨q, hq, hq1, hq2⟩ :=
                hb t (List.mem_cons_of_mem _ List.mem_cons_self) y (List.mem_of_getElem? hy)
              refine ⟨(p + q) / 2, by simp [hp, hq, nanAdd, halve], ?_, ?_⟩ <;> linarith
        · exact hb u (List.mem_cons_of_mem _ (List.mem_cons_of_mem _ hu)) r hr)
    refine ⟨c, h1, ?_, h3⟩
    exact SamePeriods.trans_left (a := List.zipWith (fun r o =>
      (⟨r.start, r.stop, ⟨halve (nanAdd r.val.rate o.val.rate), r.val.n + o.val.n⟩⟩ : RRow DRow)) first t)
      (by
        clear h1 h2 h3 ih hb hsame hnd hz
        induction ht with
        | nil => exact .nil
        | cons _ _ ih => exact .cons ⟨rfl, rfl⟩ ih) h2

/-- C27: with three meters the result is neither the mean nor independent of the order of the meters. -/
theorem C27_order_counterexample :
    let m (r : Rat) : List (RRow DRow) := [⟨0, 10, ⟨some r, 10⟩⟩]
    dropoutUnifyAll (m 0) [m 0, m 1] = .ok [⟨0, 10, ⟨some (1 / 2), 30⟩⟩] ∧
    dropoutUnifyAll (m 1) [m 0, m 0] = .ok [⟨0, 10, ⟨some (1 / 4), 30⟩⟩] := by
  constructor <;> norm_num [dropoutUnifyAll, dropoutUnify, Results.unifyCheck, Results.loc, halve, nanAdd, dropoutUnifyRow]

example : ∃ c, dropoutUnify [⟨0, 10, ⟨some (1 / 2), 5⟩⟩, ⟨10, 20, ⟨none, 3⟩⟩]
    [⟨0, 10, ⟨some 0, 10⟩⟩, ⟨10, 20, ⟨some 0, 10⟩⟩] = .ok c ∧ c.length = 2 := by
  obtain ⟨c, h1, h2, _⟩ := C27_two_meters [⟨0, 10, ⟨some (1 / 2), 5⟩⟩, ⟨10, 20, ⟨none, 3⟩⟩]
    [⟨0, 10, ⟨some 0, 10⟩⟩, ⟨10, 20, ⟨some 0, 10⟩⟩]
    (.cons ⟨rfl, rfl⟩ (.cons ⟨rfl, rfl⟩ .nil)) (by decide)
  exact ⟨c, h1, h2⟩

/-! ### C30 -/

/-- The results object of a meter with columns `cols`, over the periods `P`, giving `v start ac` in each. -/
def energyTable (P : List (Int × Int)) (cols : List AC) (v : Int → AC → Option Rat) : TEResults :=
  ⟨cols, P.map (fun p => ⟨p.1, p.2, fun c => if c ∈ cols then v p.1 c else none⟩)⟩

theorem samePeriods_map {α β : Type} (P : List (Int × Int)) (f : Int × Int → α) (g : Int × Int → β) :
    SamePeriods (P.map (fun p => (⟨p.1, p.2, f p⟩ : RRow α))) (P.map (fun p => (⟨p.1, p.2, g p⟩ : RRow β))) := by
  induction P with
  | nil => exact .nil
  | cons p P ih => exact .cons ⟨rfl, rfl⟩ ih

/-- C30. Unifying two meters over the same periods adds their energies, period by period and column by
column (NaN if either is NaN), provided `other` has every column of `self`. Further columns of `other` are
dropped. -/
theorem C30_unify_adds (P : List (Int × Int)) (hP : (P.map Prod.fst).Nodup) (cols cols' : List AC)
    (hc : ∀ c ∈ cols, c ∈ cols') (v w : Int → AC → Option Rat) :
    (energyTable P cols v).unify (energyTable P cols' w) =
      .ok (energyTable P cols (fun s c => nanAdd (v s c) (w s c))) := by
  have hs : SamePeriods (energyTable P cols v).rows (energyTable P cols' w).rows := samePeriods_map _ _ _
  have hnd : ((energyTable P cols v).rows.map RRow.start).Nodup := by
    unfold energyTable; rw [List.map_map]; exact hP
  unfold TEResults.unify
  rw [unifyCheck_same _ _ hs hnd]
  simp only
  rw [if_neg (by rintro ⟨_, c, h1, h2⟩; exact h2 (hc c h1))]
  rw [map_loc_same _ _ hs hnd (teUnifyRow (energyTable P cols v).cols)]
  unfold energyTable teUnifyRow
  congr 2
  rw [List.zipWith_map_left, List.zipWith_map_right, List.zipWith_self]
  apply List.map_congr_left
  intro p _
  refine congrArg (RRow.mk p.1 p.2) ?_
  funext c
  by_cases h : c ∈ cols
  · simp [h, hc c h]
  · simp [h]

/-- The sum of the energies of several meters in one period and column. -/
def nanSum (l : List (Option Rat)) : Option Rat := l.foldr nanAdd (some 0)

theorem nanAdd_comm (a b : Option Rat) : nanAdd a b = nanAdd b a := by
  cases a <;> cases b <;> simp [nanAdd, add_comm]

theorem nanAdd_assoc (a b c : Option Rat) : nanAdd (nanAdd a b) c = nanAdd a (nanAdd b c) := by
  cases a <;> cases b <;> cases c <;> simp [nanAdd, add_assoc]

theorem nanAdd_zero (a : Option Rat) : nanAdd a (some 0) = a := by
  cases a <;> simp [nanAdd]

theorem nanSum_perm {l l' : List (Option Rat)} (h : l.Perm l') : nanSum l = nanSum l' := by
  unfold nanSum
  induction h with
  | nil => rfl
  | cons x _ ih => simp only [List.foldr_cons, ih]
  | swap x y l => simp only [List.foldr_cons]; rw [← nanAdd_assoc, nanAdd_comm y x, nanAdd_assoc]
  | trans _ _ h1 h2 => rw [h1, h2]

/-- C30. `MeterGroup.total_energy(full_results=True)` for any number of meters with the same columns over
the same periods: each period and column holds the sum over the meters. -/
theorem C30_many_meters (P : List (Int × Int)) (hP : (P.map Prod.fst).Nodup) (cols : List AC)
    (v : Int → AC → Option Rat) (vs : List (Int → AC → Option Rat)) :
    (energyTable P cols v).unifyAll (vs.map (energyTable P cols)) =
      .ok (energyTable P cols (fun s c => nanSum ((v :: vs).map (fun w => w s c)))) := by
  induction vs generalizing v with
  | nil =>
    simp only [List.map_nil, TEResults.unifyAll, List.map_cons, nanSum, List.foldr_cons, List.foldr_nil, nanAdd_zero]
  | cons w vs ih =>
    simp only [List.map_cons, TEResults.unifyAll]
    rw [C30_unify_adds P hP cols cols (fun c h => h)]
    simp only
    rw [ih]
    simp only [List.map_cons, nanSum, List.foldr_cons, nanAdd_assoc]

/-- C30. The order of the meters does not matter. -/
theorem C30_order_irrelevant (P : List (Int × Int)) (hP : (P.map Prod.fst).Nodup) (cols : List AC)
    (v w : Int → AC → Option Rat) (vs ws : List (Int → AC → Option Rat)) (h : (v :: vs).Perm (w :: ws)) :
    (energyTable P cols v).unifyAll (vs.map (energyTable P cols)) =
      (energyTable P cols w).unifyAll (ws.map (energyTable P cols)) := by
  rw [C30_many_meters P hP, C30_many_meters P hP]
  congr 2
  funext s c
  exact nanSum_perm (h.map _)

theorem skipSum_nanAdd (P : List (Int × Int)) (v w : Int → Rat) :
    skipSum (P.map (fun p => nanAdd (some (v p.1)) (some (w p.1)))) =
      skipSum (P.map (fun p => some (v p.1))) + skipSum (P.map (fun p => some (w p.1))) := by
  induction P with
  | nil => simp [skipSum]
  | cons p P ih =>
    simp only [nanAdd] at ih
    simp only [List.map_cons, nanAdd, skipSum_cons_some, ih]
    ring

/-- C30. Without NaN, the combined energy of the unified object is the sum of the combined energies. -/
theorem C30_combined_additive (P : List (Int × Int)) (hP : (P.map Prod.fst).Nodup) (cols : List AC)
    (v w : Int → AC → Rat) :
    ∃ c, (energyTable P cols (fun s a => some (v s a))).unify (energyTable P cols (fun s a => some (w s a))) = .ok c ∧
      c.combined = List.zipWith (fun p q => (p.1, p.2 + q.2))
        (energyTable P cols (fun s a => some (v s a))).combined (energyTable P cols (fun s a => some (w s a))).combined := by
  refine ⟨_, C30_unify_adds P hP cols cols (fun c h => h) _ _, ?_⟩
  unfold TEResults.combined energyTable
  simp only
  rw [List.zipWith_map_left, List.zipWith_map_right, List.zipWith_self]
  apply List.map_congr_left
  intro c hc
  simp only [List.map_map, Function.comp_def, if_pos hc]
  rw [skipSum_nanAdd P (fun s => v s c) (fun s => w s c)]

/-- C30: a NaN in one meter's row removes the other meter's energy of that period from the total. -/
theorem C30_nan_counterexample :
    let a := energyTable [(0, 10)] [.active] (fun _ _ => some 5)
    let b := energyTable [(0, 10)] [.active] (fun _ _ => none)
    a.combined = [(.active, 5)] ∧ b.combined = [(.active, 0)] ∧
    ∃ c, a.unify b = .ok c ∧ c.combined = [(.active, 0)] := by
  intro a b
  refine ⟨by norm_num [a, energyTable, TEResults.combined, skipSum, List.filterMap_cons],
    by norm_num [b, energyTable, TEResults.combined, skipSum, List.filterMap_cons],
    _, C30_unify_adds [(0, 10)] (by decide) [.active] [.active] (fun c h => h) _ _, ?_⟩
  norm_num [energyTable, TEResults.combined, skipSum, nanAdd, List.filterMap_cons]

/-- C30. A column of `self` missing in `other` raises `KeyError` (if there is any period). -/
theorem C30_missing_column (P : List (Int × Int)) (hP : (P.map Prod.fst).Nodup) (hne : P ≠ []) (cols cols' : List AC)
    (c : AC) (hc : c ∈ cols) (hc' : c ∉ cols') (v w : Int → AC → Option Rat) :
    (energyTable P cols v).unify (energyTable P cols' w) = .error .keyError := by
  have hs : SamePeriods (energyTable P cols v).rows (energyTable P cols' w).rows := samePeriods_map _ _ _
  have hnd : ((energyTable P cols v).rows.map RRow.start).Nodup := by
    unfold energyTable; rw [List.map_map]; exact hP
  unfold TEResults.unify
  rw [unifyCheck_same _ _ hs hnd]
  simp only
  rw [if_pos ⟨by simpa [energyTable] using hne, c, hc, hc'⟩]

/-- C30: so with different columns the order of the meters decides between a `KeyError` and a result that
silently lacks the reactive energy. -/
theorem C30_columns_counterexample (v w : Int → AC → Option Rat) :
    let a := energyTable [(0, 10)] [.active] v
    let b := energyTable [(0, 10)] [.active, .reactive] w
    b.unify a = .error .keyError ∧ ∃ c, a.unify b = .ok c ∧ c.cols = [.active] := by
  refine ⟨C30_missing_column _ (by decide) (by decide) _ _ .reactive (by decide) (by decide) _ _,
    _, C30_unify_adds _ (by decide) _ _ (by decide) _ _, rfl⟩

/-- C30. `MeterGroup.total_energy()` (without full results) for meters reporting the same AC types: per AC
type the sum over the meters. -/
theorem C30_simple_total (cols : List AC) (v : AC → Option Rat) (vs : List (AC → Option Rat)) :
    groupTotalEnergy ((v :: vs).map (fun w => cols.map (fun c => (c, w c)))) =
      some (cols.map (fun c => (c, nanSum ((v :: vs).map (fun w => w c))))) := by
  have hlook : ∀ (w : AC → Option Rat) (c : AC), c ∈ cols → (cols.map (fun c => (c, w c))).lookup c = some (w c) := by
    intro w c hc
    induction cols with
    | nil => cases hc
    | cons d cols ih =>
      rw [List.map_cons, List.lookup_cons]
      by_cases h : c = d
      · subst h; simp
      · rw [show (c == d) = false by simpa using h]
        exact ih ((List.mem_cons.1 hc).resolve_left h)
  simp only [List.map_cons, groupTotalEnergy, Option.some.injEq]
  induction vs generalizing v with
  | nil => simp [nanSum, nanAdd_zero]
  | cons w vs ih =>
    simp only [List.map_cons, List.foldl_cons]
    have : seriesIadd (cols.map (fun c => (c, v c))) (cols.map (fun c => (c, w c))) =
        cols.map (fun c => (c, nanAdd (v c) (w c))) := by
      unfold seriesIadd
      rw [List.map_map]
      apply List.map_congr_left
      intro c hc
      simp only [Function.comp, hlook w c hc, Option.getD_some]
    rw [this, ih (fun c => nanAdd (v c) (w c))]
    simp only [nanSum, List.foldr_cons, nanAdd_assoc]

/-- C30: with different AC types the simple total depends on the order of the meters, and an AC type one
meter lacks becomes NaN. -/
theorem C30_simple_counterexample :
    groupTotalEnergy [[(.active, some 1)], [(.active, some 2), (.reactive, some 3)]] = some [(.active, some 3)] ∧
    groupTotalEnergy [[(.active, some 2), (.reactive, some 3)], [(.active, some 1)]] =
      some [(.active, some 3), (.reactive, none)] := by
  constructor <;> decide +kernel

/-- C30. Exporting to the cache turns NaN into 0, which does not change the combined energy. -/
theorem C30_export_combined (t : TEResults) : t.exportToCache.combined = t.combined := by
  unfold TEResults.combined TEResults.exportToCache
  apply List.map_congr_left
  intro c hc
  congr 1
  simp only [List.map_map, Function.comp_def, if_pos hc]
  induction t.rows with
  | nil => rfl
  | cons r rows ih =>
    simp only [List.map_cons, skipSum_cons_some, ih]
    cases r.val c <;> simp [skipSum_cons_some, skipSum_cons_none]

/-- C30: but it does change what a later `unify` gives: after a round trip through the cache the NaN period no
longer hides the other meter's energy. -/
theorem C30_export_unify_counterexample :
    let a := energyTable [(0, 10)] [.active] (fun _ _ => some 5)
    let b := energyTable [(0, 10)] [.active] (fun _ _ => none)
    (∃ c, a.unify b = .ok c ∧ c.combined = [(.active, 0)]) ∧
    (∃ c, a.unify b.exportToCache = .ok c ∧ c.combined = [(.active, 5)]) := by
  intro a b
  constructor
  · exact C30_nan_counterexample.2.2
  · refine ⟨_, rfl, ?_⟩
    norm_num [a, b, energyTable, TEResults.combined, TEResults.exportToCache, skipSum, nanAdd, Results.loc, teUnifyRow, List.filterMap_cons]

example : (energyTable [(0, 10), (10, 20)] [.active] (fun s _ => some (s : Rat))).unify
    (energyTable [(0, 10), (10, 20)] [.active, .reactive] (fun _ _ => some 1)) =
      .ok (energyTable [(0, 10), (10, 20)] [.active] (fun s _ => some ((s : Rat) + 1))) :=
  C30_unify_adds _ (by decide) _ _ (by decide) _ _

/-- An energy table is well formed: proper periods, and NaN outside its columns. -/
def TEResults.WF (t : TEResults) : Prop := RowsOK t.rows ∧ ∀ r ∈ t.rows, ∀ c, c ∉ t.cols → r.val c = none

/-- C30. Appending the energies of a period that overlaps no stored one: the table gains one row with exactly the
given values (NaN in the columns not given) and the columns of the new values; the old rows keep their values. -/
theorem C30_append (t : TEResults) (hwf : t.WF) (tf : TF) (s e : Int) (hs : tf.start = some s) (he : tf.stop = some e)
    (hne : tf.empty = false) (hse : s < e) (hfree : ∀ r ∈ t.rows, r.stop ≤ s ∨ e ≤ r.start)
    (new : List (AC × Option Rat)) (hnew : ∀ p ∈ new, p.1 ∈ acTypes) :
    ∃ t' w, t.append tf new = .ok t' ∧ t'.WF ∧ t'.rows.Perm (⟨s, e, w⟩ :: t.rows) ∧
      (∀ c, c ∈ t'.cols ↔ c ∈ t.cols ∨ ∃ x, (c, x) ∈ new) ∧
      (∀ c x, (new.map Prod.fst).Nodup → (c, x) ∈ new → w c = x) ∧ (∀ c, (∀ x, (c, x) ∉ new) → w c = none) := by
  have hlook : ∀ (new : List (AC × Option Rat)) (c : AC), (∀ x, (c, x) ∉ new) → new.lookup c = none := by
    intro new c h
    induction new with
    | nil => rfl
    | cons p new ih =>
      rw [List.lookup_cons, show (c == p.1) = false by
        simp only [beq_eq_false_iff_ne, ne_eq]
        rintro rfl
        exact h p.2 List.mem_cons_self]
      exact ih (fun x hx => h x (List.mem_cons_of_mem _ hx))
  have hlook' : ∀ (new : List (AC × Option Rat)) (c : AC) (x : Option Rat), (new.map Prod.fst).Nodup → (c, x) ∈ new →
      new.lookup c = some x := by
    intro new c x hnd h
    induction new with
    | nil => cases h
    | cons p new ih =>
      rw [List.map_cons, List.nodup_cons] at hnd
      rw [List.lookup_cons]
      rcases List.mem_cons.1 h with rfl | h
      · simp
      · rw [show (c == p.1) = false by
          simp only [beq_eq_false_iff_ne, ne_eq]
          rintro rfl
          exact hnd.1 (List.mem_map.2 ⟨_, h, rfl⟩)]
        exact ih hnd.2 h
  obtain ⟨rows', h1, h2, h3⟩ := (C28_append t.rows hwf.1 tf s e hs he hne hse
    (fun c => (new.lookup c).getD none)).1 hfree
  have hcols : ∀ c, c ∈ t.cols ++ (new.map Prod.fst).filter (fun c => c ∉ t.cols) ↔ c ∈ t.cols ∨ ∃ x, (c, x) ∈ new := by
    intro c
    by_cases h : c ∈ t.cols <;> simp [h]
  refine ⟨⟨t.cols ++ (new.map Prod.fst).filter (fun c => c ∉ t.cols), rows'⟩, fun c => (new.lookup c).getD none,
    ?_, ⟨h2, ?_⟩, h3, hcols, ?_, ?_⟩
  · unfold TEResults.append
    rw [if_neg (by rintro ⟨p, hp, hn⟩; exact hn (hnew p hp)), h1]
  · intro r hr c hc
    rw [hcols] at hc
    push Not at hc
    rcases List.mem_cons.1 (h3.mem_iff.1 hr) with rfl | hr
    · simp [hlook new c hc.2]
    · exact hwf.2 r hr c hc.1
  · intro c x hnd hx
    simp [hlook' new c x hnd hx]
  · intro c h
    simp [hlook new c h]

/-- C30. A key that is no AC type is refused. -/
theorem C30_append_keyError (t : TEResults) (tf : TF) (new : List (AC × Option Rat)) (p : AC × Option Rat)
    (hp : p ∈ new) (hn : p.1 ∉ acTypes) : t.append tf new = .error .keyError := by
  unfold TEResults.append
  rw [if_pos ⟨p, hp, hn⟩]

example : ∃ t', (⟨[.active], [⟨0, 10, fun c => if c = .active then some 3 else none⟩]⟩ : TEResults).append
    ⟨some 10, some 20, true, false, false⟩ [(.active, some 1), (.reactive, some 2)] = .ok t' ∧
    ∀ c, c ∈ t'.cols ↔ c ∈ [AC.active] ∨ ∃ x, (c, x) ∈ [(AC.active, some (1 : Rat)), (.reactive, some 2)] := by
  obtain ⟨t', w, h1, _, _, h4, _⟩ := C30_append
    ⟨[.active], [⟨0, 10, fun c => if c = .active then some 3 else none⟩]⟩
    ⟨⟨by simp, by simp⟩, by
      intro r hr c hc
      simp only [List.mem_singleton] at hr hc
      subst hr
      simp [hc]⟩ ⟨some 10, some 20, true, false, false⟩ 10 20 rfl rfl rfl (by decide) (by simp)
    [(.active, some 1), (.reactive, some 2)] (by simp [acTypes])
  exact ⟨t', h1, h4⟩

end Nilmtk
