import Verif.Model.Losses
import Verif.Props.Metrics
import Verif.Props.Correlation
import Mathlib.Tactic.ByContra
import Mathlib.Tactic.Ring
import Mathlib.Tactic.NormNum
/-!
C73: the losses of the experiment API.
-/
namespace Nilmtk

/-! ### Specification -/

/-- A column without NaN. -/
def col (x : List Rat) : List (Option Rat) := x.map some

/-- The sum of the distances. -/
def l1 (x y : List Rat) : Rat := (List.zipWith (fun a b => abs (a - b)) x y).sum

/-- The sum of the squared distances. -/
def l2 (x y : List Rat) : Rat := (List.zipWith (fun a b => (a - b) ^ 2) x y).sum

/-! ### Lemmas -/

theorem fullPairs_col (x y : List Rat) : fullPairs (col x) (col y) = x.zip y := by
  unfold fullPairs col
  induction x generalizing y with
  | nil => rfl
  | cons a x ih =>
    cases y with
    | nil => rfl
    | cons b y => simp only [List.map_cons, List.zip_cons_cons, List.filterMap_cons, ih]

theorem checkTargets_col {x y : List Rat} (h : x.length = y.length) (hne : x ≠ []) :
    checkTargets (col x) (col y) = .ok (x.zip y) := by
  unfold checkTargets
  rw [if_neg, fullPairs_col]
  simp [col, h, hne]

theorem zip_sum {x y : List Rat} (f : Rat → Rat → Rat) :
    ((x.zip y).map (fun p => f p.1 p.2)).sum = (List.zipWith f x y).sum := by
  congr 1
  rw [List.zip, List.map_zipWith]

theorem zipLen {x y : List Rat} (h : x.length = y.length) : (x.zip y).length = x.length := by
  rw [List.length_zip, h, Nat.min_self]

theorem l1_nonneg (x y : List Rat) : 0 ≤ l1 x y :=
  List.sum_nonneg (by
    intro v hv
    rw [← List.map_uncurry_zip_eq_zipWith] at hv
    obtain ⟨p, _, rfl⟩ := List.mem_map.1 hv
    exact abs_nonneg _)

theorem l2_nonneg (x y : List Rat) : 0 ≤ l2 x y :=
  List.sum_nonneg (by
    intro v hv
    rw [← List.map_uncurry_zip_eq_zipWith] at hv
    obtain ⟨p, _, rfl⟩ := List.mem_map.1 hv
    exact sq_nonneg _)

theorem l1_eq_zero {x y : List Rat} (h : x.length = y.length) : l1 x y = 0 ↔ x = y := by
  induction x generalizing y with
  | nil => cases y with
    | nil => simp [l1]
    | cons b y => simp at h
  | cons a x ih =>
    cases y with
    | nil => simp at h
    | cons b y =>
      simp only [List.length_cons, Nat.add_right_cancel_iff] at h
      have h1 : l1 (a :: x) (b :: y) = abs (a - b) + l1 x y := by simp [l1]
      rw [h1, List.cons.injEq, ← ih h]
      have := abs_nonneg (a - b)
      have h2 := l1_nonneg x y
      constructor
      · intro h3
        have h4 : abs (a - b) = 0 := by linarith
        exact ⟨by rw [abs_eq_zero] at h4; linarith, by linarith⟩
      · rintro ⟨rfl, h3⟩
        simp [h3]

theorem l2_eq_zero {x y : List Rat} (h : x.length = y.length) : l2 x y = 0 ↔ x = y := by
  induction x generalizing y with
  | nil => cases y with
    | nil => simp [l2]
    | cons b y => simp at h
  | cons a x ih =>
    cases y with
    | nil => simp at h
    | cons b y =>
      simp only [List.length_cons, Nat.add_right_cancel_iff] at h
      have h1 : l2 (a :: x) (b :: y) = (a - b) ^ 2 + l2 x y := by simp [l2]
      rw [h1, List.cons.injEq, ← ih h]
      have := sq_nonneg (a - b)
      have h2 := l2_nonneg x y
      constructor
      · intro h3
        have h4 : (a - b) ^ 2 = 0 := by linarith
        exact ⟨by rw [sq_eq_zero_iff] at h4; linarith, by linarith⟩
      · rintro ⟨rfl, h3⟩
        simp [h3]

theorem l1_symm (x y : List Rat) : l1 x y = l1 y x := by
  unfold l1
  rw [List.zipWith_comm]
  congr 2
  funext a b
  exact abs_sub_comm _ _

theorem l1_triangle : ∀ (x y z : List Rat), x.length = y.length → y.length = z.length → l1 x z ≤ l1 x y + l1 y z := by
  intro x
  induction x with
  | nil => intro y z h1 h2; cases y <;> cases z <;> simp_all [l1]
  | cons a x ih =>
    intro y z h1 h2
    cases y with
    | nil => simp at h1
    | cons b y =>
      cases z with
      | nil => simp at h2
      | cons c z =>
        simp only [List.length_cons, Nat.add_right_cancel_iff] at h1 h2
        have e1 : l1 (a :: x) (c :: z) = abs (a - c) + l1 x z := by simp [l1]
        have e2 : l1 (a :: x) (b :: y) = abs (a - b) + l1 x y := by simp [l1]
        have e3 : l1 (b :: y) (c :: z) = abs (b - c) + l1 y z := by simp [l1]
        rw [e1, e2, e3]
        have := ih y z h1 h2
        have := abs_sub_le a b c
        linarith

/-- Cauchy-Schwarz: the squared mean distance is at most the mean squared distance. -/
theorem l1_sq_le (x y : List Rat) : l1 x y ^ 2 ≤ ((x.zip y).length : Nat) * l2 x y := by
  have h := cauchy_list ((x.zip y).map (fun p => (1, abs (p.1 - p.2))))
  simp only [List.map_map, Function.comp_def, one_mul, one_pow, sq_abs] at h
  rw [zip_sum (fun a b => abs (a - b)), zip_sum (fun a b => (a - b) ^ 2)] at h
  simpa [l1, l2] using h

/-! ### The theorems -/

/-- The mean absolute error is the mean distance: never negative, zero exactly for equal columns, symmetric, and subject to the
triangle inequality. -/
theorem C73_mae (x y z : List Rat) (hne : x ≠ []) (h : x.length = y.length) (h' : y.length = z.length) :
    ∃ a b c, maeLoss (col x) (col y) = .ok (.num a) ∧ maeLoss (col y) (col x) = .ok (.num a) ∧
      maeLoss (col y) (col z) = .ok (.num b) ∧ maeLoss (col x) (col z) = .ok (.num c) ∧
      a * (x.length : Nat) = l1 x y ∧ 0 ≤ a ∧ (a = 0 ↔ x = y) ∧ c ≤ a + b := by
  have hy : y ≠ [] := by rintro rfl; simp at h; exact hne h
  have hpos : (0 : Rat) < (x.length : Nat) := by
    have := List.length_pos_iff.2 hne
    exact_mod_cast this
  have e : ∀ u v : List Rat, u ≠ [] → u.length = v.length → maeLoss (col u) (col v) = .ok (.num (l1 u v / (u.length : Nat))) := by
    intro u v hu huv
    unfold maeLoss
    rw [checkTargets_col huv hu]
    simp only [zip_sum (fun a b => abs (a - b)), zipLen huv]
    rfl
  refine ⟨l1 x y / (x.length : Nat), l1 y z / (y.length : Nat), l1 x z / (x.length : Nat), e x y hne h, ?_, e y z hy h',
    e x z hne (h.trans h'), ?_, ?_, ?_, ?_⟩
  · rw [e y x hy h.symm, l1_symm y x, h]
  · field_simp
  · exact div_nonneg (l1_nonneg x y) hpos.le
  · rw [div_eq_zero_iff, l1_eq_zero h]
    constructor
    · rintro (h1 | h1)
      · exact h1
      · exact absurd h1 hpos.ne'
    · exact Or.inl
  · rw [← h, ← add_div]
    exact div_le_div_of_nonneg_right (l1_triangle x y z h h') hpos.le

/-- The root mean squared error: its square is the mean squared distance, it is zero exactly for equal columns and never below the
mean absolute error. -/
theorem C73_rmse (x y : List Rat) (hne : x ≠ []) (h : x.length = y.length) :
    ∃ r a, rmseLoss (col x) (col y) = .ok (.num r) ∧ maeLoss (col x) (col y) = .ok (.num a) ∧
      0 ≤ r ∧ r ^ 2 * (x.length : Nat) = ((l2 x y : Rat) : Real) ∧ (r = 0 ↔ x = y) ∧ ((a : Rat) : Real) ≤ r := by
  have hpos : (0 : Rat) < (x.length : Nat) := by
    have := List.length_pos_iff.2 hne
    exact_mod_cast this
  have hposR : (0 : Real) < (x.length : Nat) := by exact_mod_cast hpos
  have hms : mseLoss (col x) (col y) = .ok (.num (l2 x y / (x.length : Nat))) := by
    unfold mseLoss
    rw [checkTargets_col h hne]
    simp only [zip_sum (fun a b => (a - b) ^ 2), zipLen h]
    rfl
  have hma : maeLoss (col x) (col y) = .ok (.num (l1 x y / (x.length : Nat))) := by
    unfold maeLoss
    rw [checkTargets_col h hne]
    simp only [zip_sum (fun a b => abs (a - b)), zipLen h]
    rfl
  have hq : 0 ≤ l2 x y / (x.length : Nat) := div_nonneg (l2_nonneg x y) hpos.le
  have hqR : (0 : Real) ≤ ((l2 x y / (x.length : Nat) : Rat) : Real) := by exact_mod_cast hq
  refine ⟨Real.sqrt ((l2 x y / (x.length : Nat) : Rat) : Real), l1 x y / (x.length : Nat), ?_, hma, Real.sqrt_nonneg _, ?_, ?_, ?_⟩
  · unfold rmseLoss
    rw [hms]
    simp only [FVal.sqrt, if_neg (not_lt.2 hq)]
  · rw [Real.sq_sqrt hqR]
    push_cast
    field_simp
  · rw [Real.sqrt_eq_zero hqR]
    have : ((l2 x y / (x.length : Nat) : Rat) : Real) = 0 ↔ l2 x y / (x.length : Nat) = 0 := by exact_mod_cast Iff.rfl
    rw [this, div_eq_zero_iff, l2_eq_zero h]
    constructor
    · rintro (h1 | h1)
      · exact h1
      · exact absurd h1 hpos.ne'
    · exact Or.inl
  · apply Real.le_sqrt_of_sq_le
    have key : (l1 x y / (x.length : Nat)) ^ 2 ≤ l2 x y / (x.length : Nat) := by
      have := l1_sq_le x y
      rw [zipLen h] at this
      rw [div_pow, div_le_div_iff₀ (by positivity) hpos]
      nlinarith
    exact_mod_cast key

/-- Columns with a NaN, of different lengths or without rows are refused by the losses of scikit-learn. -/
theorem C73_refused (gt pred : List (Option Rat)) (h : none ∈ gt ∨ none ∈ pred ∨ gt.length ≠ pred.length ∨ gt = []) :
    maeLoss gt pred = .error .valueError ∧ rmseLoss gt pred = .error .valueError ∧ r2Loss gt pred = .error .valueError := by
  have hc : checkTargets gt pred = .error .valueError := by
    unfold checkTargets
    rw [if_pos]
    tauto
  simp only [maeLoss, rmseLoss, mseLoss, r2Loss, hc, and_self]

theorem somes_col (x : List Rat) : (col x).filterMap id = x := by
  simp [col]

theorem sumsq_eq (x : List Rat) : (x.map (fun v => v ^ 2)).sum = l2 x (x.map (fun _ => 0)) := by
  unfold l2
  congr 1
  induction x with
  | nil => rfl
  | cons a x ih => simp [ih]

theorem sumsq_zero (x : List Rat) : (x.map (fun v => v ^ 2)).sum = 0 ↔ ∀ v ∈ x, v = 0 := by
  induction x with
  | nil => simp
  | cons a x ih =>
    have h1 : 0 ≤ (x.map (fun v => v ^ 2)).sum :=
      List.sum_nonneg (by intro v hv; obtain ⟨w, _, rfl⟩ := List.mem_map.1 hv; exact sq_nonneg _)
    have h2 := sq_nonneg a
    simp only [List.map_cons, List.sum_cons, List.mem_cons, forall_eq_or_imp, ← ih]
    constructor
    · intro h
      have h3 : a ^ 2 = 0 := by linarith
      exact ⟨by rwa [sq_eq_zero_iff] at h3, by linarith⟩
    · rintro ⟨rfl, h⟩
      simp [h]

theorem sumsq_nonneg (x : List Rat) : 0 ≤ (x.map (fun v => v ^ 2)).sum :=
  List.sum_nonneg (by intro v hv; obtain ⟨w, _, rfl⟩ := List.mem_map.1 hv; exact sq_nonneg _)

theorem nde2_col (x y : List Rat) : nde2 (col x) (col y) = fdiv (l2 x y) ((x.map (fun v => v ^ 2)).sum) := by
  unfold nde2
  rw [fullPairs_col, somes_col, zip_sum (fun a b => (a - b) ^ 2)]
  rfl

/-- The normalised disaggregation error of a ground truth that is not all zero: zero exactly for a perfect prediction, one when the
prediction is always zero; its square times the energy of the ground truth is the squared distance. -/
theorem C73_nde (x y : List Rat) (h : x.length = y.length) (h0 : ∃ v ∈ x, v ≠ 0) :
    ∃ r, ndeLoss (col x) (col y) = .ok (.num r) ∧ 0 ≤ r ∧
      r ^ 2 * (((x.map (fun v => v ^ 2)).sum : Rat) : Real) = ((l2 x y : Rat) : Real) ∧ (r = 0 ↔ x = y) ∧
      ((∀ v ∈ y, v = 0) → r = 1) := by
  have hs : 0 < (x.map (fun v => v ^ 2)).sum := by
    rcases (sumsq_nonneg x).lt_or_eq with h1 | h1
    · exact h1
    · obtain ⟨v, hv, hv0⟩ := h0
      exact absurd ((sumsq_zero x).1 h1.symm v hv) hv0
  have hsR : (0 : Real) < (((x.map (fun v => v ^ 2)).sum : Rat) : Real) := by exact_mod_cast hs
  have hq : 0 ≤ l2 x y / (x.map (fun v => v ^ 2)).sum := div_nonneg (l2_nonneg x y) hs.le
  have hqR : (0 : Real) ≤ ((l2 x y / (x.map (fun v => v ^ 2)).sum : Rat) : Real) := by exact_mod_cast hq
  refine ⟨Real.sqrt ((l2 x y / (x.map (fun v => v ^ 2)).sum : Rat) : Real), ?_, Real.sqrt_nonneg _, ?_, ?_, ?_⟩
  · unfold ndeLoss
    rw [nde2_col, fdiv, if_neg hs.ne']
    simp only [FVal.sqrt, if_neg (not_lt.2 hq)]
  · rw [Real.sq_sqrt hqR, Rat.cast_div]
    field_simp
  · rw [Real.sqrt_eq_zero hqR]
    have : ((l2 x y / (x.map (fun v => v ^ 2)).sum : Rat) : Real) = 0 ↔ l2 x y / (x.map (fun v => v ^ 2)).sum = 0 := by
      exact_mod_cast Iff.rfl
    rw [this, div_eq_zero_iff, l2_eq_zero h]
    constructor
    · rintro (h1 | h1)
      · exact h1
      · exact absurd h1 hs.ne'
    · exact Or.inl
  · intro hy
    have : l2 x y = (x.map (fun v => v ^ 2)).sum := by
      rw [sumsq_eq]
      congr 1
      apply List.ext_getElem (by simp [h])
      intro i h1 h2
      rw [hy _ (List.getElem_mem h1)]
      simp
    rw [this, div_self hs.ne']
    simp

/-- When the appliance never used power: NaN for the perfect prediction, infinite for any other. -/
theorem C73_nde_off (x y : List Rat) (h : x.length = y.length) (h0 : ∀ v ∈ x, v = 0) :
    (x = y → ndeLoss (col x) (col y) = .ok .nan) ∧ (x ≠ y → ndeLoss (col x) (col y) = .ok .posInf) := by
  have hs : (x.map (fun v => v ^ 2)).sum = 0 := (sumsq_zero x).2 h0
  have h2 := l2_nonneg x y
  refine ⟨?_, ?_⟩
  · intro hxy
    unfold ndeLoss
    rw [nde2_col, fdiv, if_pos hs, if_pos ((l2_eq_zero h).2 hxy)]
    rfl
  · intro hxy
    have : l2 x y ≠ 0 := fun h' => hxy ((l2_eq_zero h).1 h')
    unfold ndeLoss
    rw [nde2_col, fdiv, if_pos hs, if_neg this, if_pos (lt_of_le_of_ne h2 this.symm)]
    rfl

/-- The normalised error in assigned power, for a ground truth with positive energy: the distance relative to the energy, zero
exactly for a perfect prediction. If in addition no reading is negative, one when the prediction is always zero. -/
theorem C73_nep (x y : List Rat) (h : x.length = y.length) (h0 : 0 < x.sum) :
    ∃ r, nepLoss (col x) (col y) = .ok (.num r) ∧ 0 ≤ r ∧ r * x.sum = l1 x y ∧ (r = 0 ↔ x = y) ∧
      ((∀ v ∈ x, 0 ≤ v) → (∀ v ∈ y, v = 0) → r = 1) := by
  refine ⟨l1 x y / x.sum, ?_, div_nonneg (l1_nonneg x y) h0.le, by field_simp, ?_, ?_⟩
  · unfold nepLoss
    rw [fullPairs_col, somes_col, zip_sum (fun a b => abs (a - b)), fdiv, if_neg h0.ne']
    rfl
  · rw [div_eq_zero_iff, l1_eq_zero h]
    constructor
    · rintro (h1 | h1)
      · exact h1
      · exact absurd h1 h0.ne'
    · exact Or.inl
  · intro hx hy
    have : l1 x y = x.sum := by
      unfold l1
      congr 1
      apply List.ext_getElem (by simp [h])
      intro i h1 h2
      rw [List.getElem_zipWith, hy _ (List.getElem_mem _), sub_zero, abs_of_nonneg (hx _ (List.getElem_mem _))]
    rw [this, div_self h0.ne']

/-- The relative error, for predictions that are not negative: not negative, and zero exactly for a perfect prediction. -/
theorem C73_relative_partial (x y : List Rat) (hne : x ≠ []) (h : x.length = y.length) (hy : ∀ v ∈ y, 0 ≤ v) :
    ∃ r, relativeLoss (col x) (col y) = .ok (.num r) ∧ 0 ≤ r ∧ (r = 0 ↔ x = y) ∧
      r * (x.length : Nat) = (List.zipWith (fun a b => abs (a - b) / (1 + b)) x y).sum := by
  have hpos : (0 : Rat) < (x.length : Nat) := by
    have := List.length_pos_iff.2 hne
    exact_mod_cast this
  have hyz : ∀ p ∈ x.zip y, 0 ≤ p.2 := by
    rintro ⟨a, b⟩ hp
    exact hy b (List.of_mem_zip hp).2
  have hfd : (x.zip y).map (fun p => fdiv (abs (p.1 - p.2)) (1 + p.2)) =
      ((x.zip y).map (fun p => abs (p.1 - p.2) / (1 + p.2))).map FVal.num := by
    rw [List.map_map]
    apply List.map_congr_left
    intro p hp
    have := hyz p hp
    rw [fdiv, if_neg (by linarith)]
    rfl
  have hfilter : ∀ l : List Rat, (l.map FVal.num).filter (fun v => decide (v ≠ FVal.nan)) = l.map FVal.num := by
    intro l
    rw [List.filter_eq_self]
    intro v hv
    obtain ⟨q, _, rfl⟩ := List.mem_map.1 hv
    simp
  have hmean : ∀ l : List Rat, l ≠ [] → meanFVal (l.map FVal.num) = .num (l.sum / (l.length : Nat)) := by
    intro l hl
    unfold meanFVal
    simp only [hfilter]
    rw [if_neg (by simpa using hl), if_neg (by simp), List.map_map]
    simp [Function.comp_def]
  have hzne : (x.zip y).map (fun p => abs (p.1 - p.2) / (1 + p.2)) ≠ [] := by
    intro h1
    have h2 : (x.zip y).length = 0 := by
      have := congrArg List.length h1
      simpa using this
    rw [zipLen h] at h2
    exact hne (List.length_eq_zero_iff.1 h2)
  have hS := zip_sum (x := x) (y := y) (fun a b => abs (a - b) / (1 + b))
  have hnn : ∀ v ∈ (x.zip y).map (fun p => abs (p.1 - p.2) / (1 + p.2)), 0 ≤ v := by
    intro v hv
    obtain ⟨p, hp, rfl⟩ := List.mem_map.1 hv
    have := hyz p hp
    exact div_nonneg (abs_nonneg _) (by linarith)
  refine ⟨((x.zip y).map (fun p => abs (p.1 - p.2) / (1 + p.2))).sum / (x.length : Nat), ?_, ?_, ?_, ?_⟩
  · unfold relativeLoss
    rw [fullPairs_col, hfd, hmean _ hzne, List.length_map, zipLen h]
  · exact div_nonneg (List.sum_nonneg hnn) hpos.le
  · rw [div_eq_zero_iff, hS, ← l1_eq_zero h]
    have hdom : (List.zipWith (fun a b => abs (a - b) / (1 + b)) x y).sum = 0 ↔ l1 x y = 0 := by
      rw [l1_eq_zero h]
      clear hS hzne hmean hfilter hfd hnn hne hpos hyz
      induction x generalizing y with
      | nil => cases y with
        | nil => simp
        | cons b y => simp at h
      | cons a x ih =>
        cases y with
        | nil => simp at h
        | cons b y =>
          simp only [List.length_cons, Nat.add_right_cancel_iff] at h
          have hb := hy b (by simp)
          have hy' : ∀ v ∈ y, 0 ≤ v := fun v hv => hy v (by simp [hv])
          have ih' := ih y h hy'
          simp only [List.zipWith_cons_cons, List.sum_cons, List.cons.injEq, ← ih']
          have h1 : 0 ≤ abs (a - b) / (1 + b) := div_nonneg (abs_nonneg _) (by linarith)
          have h2 : 0 ≤ (List.zipWith (fun a b => abs (a - b) / (1 + b)) x y).sum := by
            apply List.sum_nonneg
            intro v hv
            rw [← List.map_uncurry_zip_eq_zipWith] at hv
            obtain ⟨⟨u, w⟩, hp, rfl⟩ := List.mem_map.1 hv
            have := hy' w (List.of_mem_zip hp).2
            exact div_nonneg (abs_nonneg _) (by simp only; linarith)
          constructor
          · intro h3
            have h4 : abs (a - b) / (1 + b) = 0 := by linarith
            rw [div_eq_zero_iff, abs_eq_zero] at h4
            refine ⟨?_, by linarith⟩
            rcases h4 with h4 | h4 <;> linarith
          · rintro ⟨rfl, h3⟩
            simp [h3]
    rw [hdom]
    constructor
    · rintro (h1 | h1)
      · exact h1
      · exact absurd h1 hpos.ne'
    · exact Or.inl
  · rw [← hS]
    field_simp

/-- The mean of a column. -/
def colMean (x : List Rat) : Rat := x.sum / (x.length : Nat)

theorem l2_replicate (x : List Rat) (m : Rat) : (x.map (fun v => (v - m) ^ 2)).sum = l2 x (List.replicate x.length m) := by
  unfold l2
  congr 1
  induction x with
  | nil => rfl
  | cons a x ih => simp [List.replicate_succ, ih]

theorem r2_col {x y : List Rat} (hne : 2 ≤ x.length) (h : x.length = y.length) :
    r2Loss (col x) (col y) = if l2 x y = 0 then .ok (.num 1)
      else if l2 x (List.replicate x.length (colMean x)) = 0 then .ok (.num 0)
      else .ok (.num (1 - l2 x y / l2 x (List.replicate x.length (colMean x)))) := by
  have hx : x ≠ [] := by rintro rfl; simp at hne
  have hfst : (x.zip y).map Prod.fst = x := List.map_fst_zip h.le
  have hden : ((x.zip y).map (fun p => (p.1 - colMean x) ^ 2)).sum = l2 x (List.replicate x.length (colMean x)) := by
    rw [← l2_replicate]
    generalize colMean x = m
    conv_rhs => rw [← hfst, List.map_map]
    rfl
  have hnum : ((x.zip y).map (fun p => (p.1 - p.2) ^ 2)).sum = l2 x y := zip_sum (fun a b => (a - b) ^ 2)
  unfold r2Loss
  rw [checkTargets_col h hx]
  simp only [zipLen h, hfst, if_neg (not_lt.2 hne)]
  have hm : x.sum / (x.length : Nat) = colMean x := rfl
  simp only [hm, hden, hnum]

/-- The coefficient of determination of at least two rows: at most one, one exactly for a perfect prediction, and zero for an
imperfect prediction of a constant column. Otherwise the part below one is the squared distance relative to that of the constant
prediction of the mean; in particular that prediction scores zero. -/
theorem C73_r2 (x y : List Rat) (hne : 2 ≤ x.length) (h : x.length = y.length) :
    ∃ r, r2Loss (col x) (col y) = .ok (.num r) ∧ r ≤ 1 ∧ (r = 1 ↔ x = y) ∧
      (x = List.replicate x.length (colMean x) → x ≠ y → r = 0) ∧
      (x ≠ List.replicate x.length (colMean x) →
        (1 - r) * l2 x (List.replicate x.length (colMean x)) = l2 x y ∧
        (y = List.replicate x.length (colMean x) → r = 0)) := by
  have hd : l2 x (List.replicate x.length (colMean x)) = 0 ↔ x = List.replicate x.length (colMean x) := l2_eq_zero (by simp)
  have hn := l2_eq_zero h
  have h0 := l2_nonneg x y
  have h1 := l2_nonneg x (List.replicate x.length (colMean x))
  rw [r2_col hne h]
  by_cases hxy : x = y
  · rw [if_pos (hn.2 hxy)]
    refine ⟨1, rfl, le_refl _, by simp [hxy], fun _ hh => absurd hxy hh, fun hh => ⟨?_, ?_⟩⟩
    · rw [hn.2 hxy]; ring
    · intro hy
      exact absurd (hxy.trans hy) hh
  · have hn0 : l2 x y ≠ 0 := fun hh => hxy (hn.1 hh)
    rw [if_neg hn0]
    by_cases hc : x = List.replicate x.length (colMean x)
    · rw [if_pos (hd.2 hc)]
      refine ⟨0, rfl, by norm_num, by simp [hxy], fun _ _ => rfl, fun hh => absurd hc hh⟩
    · have hd0 : l2 x (List.replicate x.length (colMean x)) ≠ 0 := fun hh => hc (hd.1 hh)
      rw [if_neg hd0]
      refine ⟨_, rfl, ?_, ?_, fun hh => absurd hh hc, fun _ => ⟨?_, ?_⟩⟩
      · have := div_nonneg h0 h1
        linarith
      · constructor
        · intro hh
          have : l2 x y / l2 x (List.replicate x.length (colMean x)) = 0 := by linarith
          rcases div_eq_zero_iff.1 this with h2 | h2
          · exact absurd h2 hn0
          · exact absurd h2 hd0
        · intro hh
          exact absurd hh hxy
      · field_simp
        ring
      · intro hy
        rw [← hy, div_self hn0, sub_self]

/-- Of one row there is no coefficient of determination. -/
theorem C73_r2_single (a b : Rat) : r2Loss (col [a]) (col [b]) = .ok .nan := by
  unfold r2Loss
  rw [checkTargets_col (x := [a]) (y := [b]) rfl (by simp)]
  rfl

/-- When a reading counts as on. -/
def CountsOn (v : Option Rat) : Prop := ∀ x, v = some x → 10 ≤ x

theorem onState_iff (v : Option Rat) : onState v = 1 ↔ CountsOn v := by
  cases v with
  | none => simp [onState, CountsOn]
  | some x =>
    simp only [onState, CountsOn, Option.some.injEq, forall_eq']
    split <;> rename_i h
    · exact ⟨fun h' => by simp at h', fun h' => absurd h' (not_le.2 h)⟩
    · exact ⟨fun _ => not_lt.1 h, fun _ => rfl⟩

theorem onState_01 (v : Option Rat) : onState v = 0 ∨ onState v = 1 := by
  cases v with
  | none => exact Or.inr rfl
  | some x =>
    simp only [onState]
    split
    · exact Or.inl rfl
    · exact Or.inr rfl

theorem countP_states (p : Prop → Prop → Prop) [∀ a b, Decidable (p a b)] (gt pred : List (Option Rat)) (f : Int × Int → Bool)
    (hf : ∀ a b : Option Rat, f (onState b, onState a) = decide (p (CountsOn a) (CountsOn b))) :
    ((pred.map onState).zip (gt.map onState)).countP f =
      (gt.zip pred).countP (fun r => decide (p (CountsOn r.1) (CountsOn r.2))) := by
  induction gt generalizing pred with
  | nil => simp
  | cons a gt ih =>
    cases pred with
    | nil => simp
    | cons b pred =>
      simp only [List.map_cons, List.zip_cons_cons, List.countP_cons, ih, hf]

open Classical in
/-- The F1 score, in terms of the rows where both, only the prediction, or only the ground truth counts as on. -/
theorem C73_f1 (gt pred : List (Option Rat)) (h : gt.length = pred.length) :
    ∃ v tp fp fn, f1Loss gt pred = .ok (.num v) ∧
      tp = (gt.zip pred).countP (fun r => decide (CountsOn r.1 ∧ CountsOn r.2)) ∧
      fp = (gt.zip pred).countP (fun r => decide (¬ CountsOn r.1 ∧ CountsOn r.2)) ∧
      fn = (gt.zip pred).countP (fun r => decide (CountsOn r.1 ∧ ¬ CountsOn r.2)) ∧
      0 ≤ v ∧ v ≤ 1 ∧ (tp = 0 → v = 0) ∧ (tp ≠ 0 → v * (2 * tp + fp + fn : Nat) = (2 * tp : Nat)) ∧
      (v = 1 ↔ tp ≠ 0 ∧ fp = 0 ∧ fn = 0) := by
  refine ⟨f1 ((pred.map onState).zip (gt.map onState)), _, _, _, ?_, rfl, rfl, rfl, (f1_bounds _).1, (f1_bounds _).2, ?_⟩
  · unfold f1Loss
    rw [if_neg (by simp [h])]
  have e1 : truePos ((pred.map onState).zip (gt.map onState)) =
      (gt.zip pred).countP (fun r => decide (CountsOn r.1 ∧ CountsOn r.2)) := by
    unfold truePos
    exact countP_states (fun a b => a ∧ b) gt pred _ (fun a b => by
      rw [Bool.eq_iff_iff]; simp [onState_iff, and_comm])
  have e2 : falsePos ((pred.map onState).zip (gt.map onState)) =
      (gt.zip pred).countP (fun r => decide (¬ CountsOn r.1 ∧ CountsOn r.2)) := by
    unfold falsePos
    exact countP_states (fun a b => ¬ a ∧ b) gt pred _ (fun a b => by
      rw [Bool.eq_iff_iff]; simp [onState_iff, and_comm])
  have e3 : falseNeg ((pred.map onState).zip (gt.map onState)) =
      (gt.zip pred).countP (fun r => decide (CountsOn r.1 ∧ ¬ CountsOn r.2)) := by
    unfold falseNeg
    exact countP_states (fun a b => a ∧ ¬ b) gt pred _ (fun a b => by
      rw [Bool.eq_iff_iff]; simp [onState_iff, and_comm])
  rw [← e1, ← e2, ← e3, f1_counts]
  generalize truePos _ = tp
  generalize falsePos _ = fp
  generalize falseNeg _ = fn
  refine ⟨?_, ?_, ?_⟩
  · rintro rfl
    split <;> simp
  · intro htp
    have hp : 0 < 2 * tp + (fp + fn) := by omega
    rw [if_neg hp.ne', ← Nat.add_assoc]
    have : ((2 * tp + fp + fn : Nat) : Rat) ≠ 0 := by
      have : 2 * tp + fp + fn ≠ 0 := by omega
      exact_mod_cast this
    field_simp
  · split
    · rename_i h0
      constructor
      · intro h1; simp at h1
      · rintro ⟨h1, _, _⟩; omega
    · rename_i h0
      have h0' : ((2 * tp + (fp + fn) : Nat) : Rat) ≠ 0 := by exact_mod_cast h0
      rw [div_eq_one_iff_eq h0']
      constructor
      · intro h1
        have h2 : 2 * tp = 2 * tp + (fp + fn) := by exact_mod_cast h1
        omega
      · rintro ⟨_, rfl, rfl⟩
        simp

/-! ### Several stretches of data, and units -/

theorem l1_append {x y : List Rat} (x' y' : List Rat) (h : x.length = y.length) : l1 (x ++ x') (y ++ y') = l1 x y + l1 x' y' := by
  unfold l1
  rw [List.zipWith_append h, List.sum_append]

/-- The mean absolute error of two stretches of data is the mean of theirs, weighted by their lengths. -/
theorem C73_mae_append (x y x' y' : List Rat) (hne : x ≠ []) (hne' : x' ≠ []) (h : x.length = y.length)
    (h' : x'.length = y'.length) :
    ∃ a b c, maeLoss (col x) (col y) = .ok (.num a) ∧ maeLoss (col x') (col y') = .ok (.num b) ∧
      maeLoss (col (x ++ x')) (col (y ++ y')) = .ok (.num c) ∧
      c * ((x.length : Nat) + (x'.length : Nat)) = a * (x.length : Nat) + b * (x'.length : Nat) := by
  obtain ⟨a, _, _, ha, _, _, _, ha', _⟩ := C73_mae x y x hne h h.symm
  obtain ⟨b, _, _, hb, _, _, _, hb', _⟩ := C73_mae x' y' x' hne' h' h'.symm
  have hl : (x ++ x').length = (y ++ y').length := by simp [h, h']
  obtain ⟨c, _, _, hc, _, _, _, hc', _⟩ := C73_mae (x ++ x') (y ++ y') (x ++ x') (by simp [hne]) hl hl.symm
  refine ⟨a, b, c, ha, hb, hc, ?_⟩
  rw [ha', hb', ← l1_append _ _ h, ← hc', List.length_append]
  push_cast
  ring

theorem l1_scale (k : Rat) (x y : List Rat) : l1 (x.map (k * ·)) (y.map (k * ·)) = |k| * l1 x y := by
  unfold l1
  induction x generalizing y with
  | nil => simp
  | cons a x ih =>
    cases y with
    | nil => simp
    | cons b y =>
      simp only [List.map_cons, List.zipWith_cons_cons, List.sum_cons, ih, ← mul_sub, abs_mul, mul_add]

theorem l2_scale (k : Rat) (x y : List Rat) : l2 (x.map (k * ·)) (y.map (k * ·)) = k ^ 2 * l2 x y := by
  unfold l2
  induction x generalizing y with
  | nil => simp
  | cons a x ih =>
    cases y with
    | nil => simp
    | cons b y =>
      simp only [List.map_cons, List.zipWith_cons_cons, List.sum_cons, ih, mul_add]
      ring

theorem fdiv_scale {k : Rat} (hk : 0 < k) (a b : Rat) : fdiv (k * a) (k * b) = fdiv a b := by
  have h1 : k * b = 0 ↔ b = 0 := by simp [hk.ne']
  have h2 : k * a = 0 ↔ a = 0 := by simp [hk.ne']
  unfold fdiv
  simp only [h1, h2, mul_pos_iff_of_pos_left hk, mul_div_mul_left _ _ hk.ne']

/-- The normalised losses do not depend on the unit of power; the mean absolute error is in that unit. -/
theorem C73_unit (k : Rat) (hk : 0 < k) (x y : List Rat) :
    ndeLoss (col (x.map (k * ·))) (col (y.map (k * ·))) = ndeLoss (col x) (col y) ∧
    nepLoss (col (x.map (k * ·))) (col (y.map (k * ·))) = nepLoss (col x) (col y) ∧
    (x ≠ [] → x.length = y.length → ∃ a, maeLoss (col x) (col y) = .ok (.num a) ∧
      maeLoss (col (x.map (k * ·))) (col (y.map (k * ·))) = .ok (.num (k * a))) := by
  refine ⟨?_, ?_, ?_⟩
  · unfold ndeLoss
    rw [nde2_col, nde2_col, l2_scale]
    have : ((x.map (k * ·)).map (fun v => v ^ 2)).sum = k ^ 2 * (x.map (fun v => v ^ 2)).sum := by
      rw [← List.sum_map_mul_left, List.map_map]
      congr 2
      funext v
      simp only [Function.comp_apply]
      ring
    rw [this, fdiv_scale (by positivity)]
  · unfold nepLoss
    rw [fullPairs_col, fullPairs_col, somes_col, somes_col, zip_sum (fun a b => abs (a - b)), zip_sum (fun a b => abs (a - b))]
    have e := l1_scale k x y
    unfold l1 at e
    rw [e, abs_of_pos hk]
    have : (x.map (k * ·)).sum = k * x.sum := by
      simpa using List.sum_map_mul_left x id k
    rw [this, fdiv_scale hk]
  · intro hne h
    obtain ⟨a, _, _, ha, _, _, _, ha', _⟩ := C73_mae x y x hne h h.symm
    have hl : (x.map (k * ·)).length = (y.map (k * ·)).length := by simp [h]
    obtain ⟨b, _, _, hb, _, _, _, hb', _⟩ := C73_mae _ _ (x.map (k * ·)) (by simpa using hne) hl hl.symm
    refine ⟨a, ha, ?_⟩
    rw [hb]
    congr 2
    have hpos : (0 : Rat) < (x.length : Nat) := by
      have := List.length_pos_iff.2 hne
      exact_mod_cast this
    rw [l1_scale, abs_of_pos hk, ← ha', List.length_map] at hb'
    have : b * (x.length : Nat) = (k * a) * (x.length : Nat) := by rw [hb']; ring
    exact mul_right_cancel₀ hpos.ne' this

/-! ### Where the losses mislead -/

/-- A negative prediction can make the relative error negative: worse predictions then have a smaller loss than the perfect one. -/
theorem C73_relative_counterexample :
    ∃ x y : List Rat, x ≠ y ∧ relativeLoss (col x) (col y) = .ok (.num (-3)) ∧ relativeLoss (col x) (col x) = .ok (.num 0) :=
  ⟨[1], [-2], by decide +kernel, by decide +kernel, by decide +kernel⟩

/-- A negative sum of readings makes the normalised error in assigned power negative. -/
theorem C73_nep_counterexample :
    ∃ x y : List Rat, x ≠ y ∧ nepLoss (col x) (col y) = .ok (.num (-1)) :=
  ⟨[-2], [0], by decide +kernel, by decide +kernel⟩

/-- Rows predicted as NaN are left out of the numerators of the normalised losses only: a prediction without any reading scores as
well as the perfect one, whereas the mean absolute error refuses it. -/
theorem C73_missing_counterexample (x : List Rat) (h0 : 0 < x.sum) (hx : ∃ v ∈ x, v ≠ 0) :
    ndeLoss (col x) (x.map (fun _ => none)) = .ok (.num 0) ∧ nepLoss (col x) (x.map (fun _ => none)) = .ok (.num 0) ∧
      maeLoss (col x) (x.map (fun _ => none)) = .error .valueError := by
  have hp : fullPairs (col x) (x.map (fun _ => none)) = [] := by
    unfold fullPairs col
    rw [List.filterMap_eq_nil_iff]
    rintro ⟨a, b⟩ hab
    have := (List.of_mem_zip hab).2
    obtain ⟨_, _, rfl⟩ := List.mem_map.1 this
    cases a <;> rfl
  have hs : (x.map (fun v => v ^ 2)).sum ≠ 0 := by
    intro h1
    obtain ⟨v, hv, hv0⟩ := hx
    exact hv0 ((sumsq_zero x).1 h1 v hv)
  refine ⟨?_, ?_, ?_⟩
  · unfold ndeLoss nde2
    rw [hp, somes_col, fdiv, if_neg hs]
    simp [FVal.sqrt]
  · unfold nepLoss
    rw [hp, somes_col, fdiv, if_neg h0.ne']
    simp
  · refine (C73_refused _ _ (Or.inr (Or.inl ?_))).1
    obtain ⟨v, hv, _⟩ := hx
    exact List.mem_map.2 ⟨v, hv, rfl⟩

/-- The perfect prediction of an appliance that is never on has F1 score 0. -/
theorem C73_f1_off_counterexample (x : List Rat) (h : ∀ v ∈ x, v < 10) : f1Loss (col x) (col x) = .ok (.num 0) := by
  classical
  obtain ⟨v, tp, fp, fn, h1, h2, _, _, _, _, h3, _⟩ := C73_f1 (col x) (col x) rfl
  rw [h1, h3]
  rw [h2, List.countP_eq_zero]
  rintro ⟨a, b⟩ hab
  obtain ⟨w, hw, rfl⟩ := List.mem_map.1 (List.of_mem_zip hab).1
  simp only [decide_eq_true_eq, not_and]
  intro hon
  exact absurd (hon w rfl) (not_le.2 (h w hw))

/-- A NaN counts as on. -/
theorem C73_f1_nan_counterexample : f1Loss [some 100, none] [none, some 100] = .ok (.num 1) := by decide +kernel

/-! ### Examples -/

example : maeLoss (col [1, 2, 3]) (col [1, 4, 2]) = .ok (.num 1) := by decide +kernel
example : mseLoss (col [1, 2, 3]) (col [1, 4, 2]) = .ok (.num (5 / 3)) := by decide +kernel
example : ∃ a b c, maeLoss (col [1, 2]) (col [3, 2]) = .ok (.num a) ∧ maeLoss (col [3, 2]) (col [1, 2]) = .ok (.num a) ∧
    maeLoss (col [3, 2]) (col [0, 0]) = .ok (.num b) ∧ maeLoss (col [1, 2]) (col [0, 0]) = .ok (.num c) ∧ c ≤ a + b := by
  obtain ⟨a, b, c, h1, h2, h3, h4, _, _, _, h5⟩ := C73_mae [1, 2] [3, 2] [0, 0] (by simp) rfl rfl
  exact ⟨a, b, c, h1, h2, h3, h4, h5⟩
example : maeLoss [some 1, none] [some 1, some 2] = .error .valueError := (C73_refused _ _ (by simp)).1
example : nde2 (col [3, 4]) (col [0, 0]) = .num 1 := by decide +kernel
example : ∃ r, ndeLoss (col [3, 4]) (col [0, 0]) = .ok (.num r) ∧ r = 1 := by
  obtain ⟨r, h1, _, _, _, h2⟩ := C73_nde [3, 4] [0, 0] rfl ⟨3, by simp, by norm_num⟩
  exact ⟨r, h1, h2 (by simp)⟩
example : ndeLoss (col [0, 0]) (col [0, 1]) = .ok .posInf := (C73_nde_off [0, 0] [0, 1] rfl (by simp)).2 (by simp)
example : nepLoss (col [3, 4]) (col [4, 2]) = .ok (.num (3 / 7)) := by decide +kernel
example : relativeLoss (col [3, 4]) (col [4, 1]) = .ok (.num (17 / 20)) := by decide +kernel
example : r2Loss (col [1, 2, 3]) (col [1, 2, 4]) = .ok (.num (1 / 2)) := by decide +kernel
example : r2Loss (col [1, 2, 3]) (col [2, 2, 2]) = .ok (.num 0) := by decide +kernel
example : f1Loss (col [100, 0, 100]) (col [100, 100, 0]) = .ok (.num (1 / 2)) := by decide +kernel

end Nilmtk
