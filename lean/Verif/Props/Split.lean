import Verif.Model.Split
import Verif.Props.CO
import Verif.Props.Mean
import Mathlib.Tactic.Linarith
import Mathlib.Tactic.Positivity
import Mathlib.Tactic.FieldSimp
/-!
C56: the time at which `train_test_split` divides the data.
-/
namespace Nilmtk

/-! ### Specification -/

/-- The number of whole sample periods in a section. -/
def wholeRecords (period : Rat) (s : Section') : Int := ⌊((s.2 - s.1 : Int) : Rat) / (period * 1000000000)⌋

/-- The number of whole records in all sections. -/
def allRecords (period : Rat) (ss : List Section') : Int := (ss.map (wholeRecords period)).sum

/-- The good time before an instant, in nanoseconds. -/
def goodBefore (t : Int) (ss : List Section') : Int := (ss.map (fun s => max 0 (min (t - s.1) (s.2 - s.1)))).sum

/-- All the good time, in nanoseconds. -/
def goodTotal (ss : List Section') : Int := (ss.map (fun s => s.2 - s.1)).sum

/-- Sections that do not end before they start, in order and disjoint. -/
def SectionsOrdered (ss : List Section') : Prop :=
  (∀ s ∈ ss, s.1 ≤ s.2) ∧ ss.Pairwise (fun a b => a.2 ≤ b.1)

/-! ### Lemmas -/

theorem truncInt_nonneg_eq_floor (q : Rat) (h : 0 ≤ q) : truncInt q = ⌊q⌋ := by
  unfold truncInt
  rw [Rat.floor_def']
  exact Int.tdiv_eq_ediv_of_nonneg (Rat.num_nonneg.2 h)

theorem record_eq (period : Rat) (hp : 0 < period) (s : Section') (hs : s.1 ≤ s.2) :
    truncInt (totalSeconds s / period) = wholeRecords period s := by
  have h0 : (0 : Rat) ≤ ((s.2 - s.1 : Int) : Rat) := by exact_mod_cast sub_nonneg.2 hs
  rw [truncInt_nonneg_eq_floor _ (by unfold totalSeconds; positivity)]
  unfold wholeRecords totalSeconds
  rw [div_div, mul_comm]

theorem recordsOf_eq (period : Rat) (hp : 0 < period) (ss : List Section') (hs : ∀ s ∈ ss, s.1 ≤ s.2) :
    recordsOf period ss = ss.map (wholeRecords period) :=
  List.map_congr_left (fun s h => record_eq period hp s (hs s h))

theorem wholeRecords_nonneg (period : Rat) (hp : 0 < period) (s : Section') (hs : s.1 ≤ s.2) : 0 ≤ wholeRecords period s := by
  have h0 : (0 : Rat) ≤ ((s.2 - s.1 : Int) : Rat) := by exact_mod_cast sub_nonneg.2 hs
  exact Int.floor_nonneg.2 (by positivity)

theorem timedelta_close (x : Rat) : |((timedeltaNs x : Int) : Rat) - x * 1000000000| ≤ 500 := by
  have h := roundEven_near (x * 1000000)
  unfold timedeltaNs
  rw [abs_le] at h ⊢
  push_cast
  constructor <;> linarith [h.1, h.2]

theorem roundEven_int (n : Int) : roundEven (n : Rat) = n := by
  unfold roundEven
  rw [Int.floor_intCast]
  simp

theorem timedelta_int (n : Int) : timedeltaNs (n : Rat) = n * 1000000000 := by
  unfold timedeltaNs
  rw [show (n : Rat) * 1000000 = ((n * 1000000 : Int) : Rat) by push_cast; ring, roundEven_int]
  ring

theorem timedelta_nonneg (x : Rat) (h : 0 ≤ x) : 0 ≤ timedeltaNs x := by
  unfold timedeltaNs roundEven
  have : 0 ≤ ⌊x * 1000000⌋ := Int.floor_nonneg.2 (by positivity)
  split_ifs <;> omega

theorem pass_spec (period : Rat) (rest : List Section') : ∀ (done : List Section') (remaining : Rat), 0 < remaining →
    remaining < ((recordsOf period rest).sum : Int) →
    ∃ pre s post r, rest = pre ++ s :: post ∧
      splitPass (done ++ rest) period done.length remaining (recordsOf period rest) =
        .ok (.ok (s.1 + timedeltaNs (period * r))) ∧
      (((recordsOf period pre).sum : Int) : Rat) + r = remaining ∧ 0 ≤ r ∧
      (r = 0 ∨ r < ((truncInt (totalSeconds s / period) : Int) : Rat)) := by
  induction rest with
  | nil => intro done remaining h0 h1; simp [recordsOf] at h1; linarith
  | cons s rest ih =>
    intro done remaining h0 h1
    have hcons : recordsOf period (s :: rest) = truncInt (totalSeconds s / period) :: recordsOf period rest := rfl
    rw [hcons] at h1 ⊢
    rw [List.sum_cons] at h1
    generalize hn : truncInt (totalSeconds s / period) = n at *
    rw [splitPass]
    by_cases hlt : (n : Rat) < remaining
    · rw [if_pos hlt]
      obtain ⟨pre, s', post, r, e1, e2, e3, e4, e5⟩ := ih (done ++ [s]) (remaining - n) (by linarith)
        (by push_cast at h1; linarith)
      refine ⟨s :: pre, s', post, r, by rw [e1]; rfl, ?_, ?_, e4, e5⟩
      · rw [List.append_assoc, List.singleton_append, List.length_append] at e2
        exact e2
      · rw [show recordsOf period (s :: pre) = truncInt (totalSeconds s / period) :: recordsOf period pre from rfl, hn,
          List.sum_cons]
        push_cast
        linarith
    · rw [if_neg hlt]
      by_cases heq : remaining = n
      · rw [if_pos heq]
        cases rest with
        | nil => simp [recordsOf] at h1; linarith
        | cons s' rest' =>
          refine ⟨[s], s', rest', 0, rfl, ?_, ?_, le_refl _, Or.inl rfl⟩
          · have : (done ++ s :: s' :: rest')[done.length + 1]? = some s' := by simp
            rw [this]
            simp [timedeltaNs, roundEven]
          · simp [recordsOf, hn, heq]
      · rw [if_neg heq]
        refine ⟨[], s, rest, remaining, rfl, ?_, ?_, h0.le, Or.inr ?_⟩
        · have : (done ++ s :: rest)[done.length]? = some s := by simp
          rw [this]
        · simp [recordsOf]
        · rw [hn]
          exact lt_of_le_of_ne (not_lt.1 hlt) heq

theorem gb_append (t : Int) (a b : List Section') : goodBefore t (a ++ b) = goodBefore t a + goodBefore t b := by
  simp [goodBefore]

theorem gb_nonneg (t : Int) (l : List Section') : 0 ≤ goodBefore t l := by
  induction l with
  | nil => simp [goodBefore]
  | cons s l ih => simp only [goodBefore, List.map_cons, List.sum_cons] at ih ⊢; omega

theorem gb_all (t : Int) (l : List Section') (h : ∀ s ∈ l, s.1 ≤ s.2 ∧ s.2 ≤ t) : goodBefore t l = goodTotal l := by
  unfold goodBefore goodTotal
  congr 1
  apply List.map_congr_left
  intro s hs
  have := h s hs
  omega

theorem gb_zero (t : Int) (l : List Section') (h : ∀ s ∈ l, t ≤ s.1) : goodBefore t l = 0 := by
  induction l with
  | nil => rfl
  | cons s l ih =>
    have h1 := h s (by simp)
    have h2 := ih (fun x hx => h x (by simp [hx]))
    simp only [goodBefore, List.map_cons, List.sum_cons] at h2 ⊢
    omega

theorem gb_upper (t : Int) (l : List Section') : ∀ a, SectionsOrdered l → (∀ s ∈ l, a ≤ s.1) → a ≤ t → goodBefore t l ≤ t - a := by
  induction l with
  | nil => intro a _ _ h; simp [goodBefore]; omega
  | cons s l ih =>
    intro a ho ha hat
    have hs := ho.1 s (by simp)
    have hp := List.pairwise_cons.1 ho.2
    have h1 := ha s (by simp)
    have hol : SectionsOrdered l := ⟨fun x hx => ho.1 x (by simp [hx]), hp.2⟩
    rw [show s :: l = [s] ++ l from rfl, gb_append]
    have hone : goodBefore t [s] = max 0 (min (t - s.1) (s.2 - s.1)) := by simp [goodBefore]
    rw [hone]
    by_cases hle : t ≤ s.2
    · rw [gb_zero t l (fun x hx => hle.trans (hp.1 x hx))]
      omega
    · have := ih s.2 hol hp.1 (by omega)
      omega

theorem goodTotal_bounds (period : Rat) (hp : 0 < period) (l : List Section') :
    period * 1000000000 * (allRecords period l : Int) ≤ (goodTotal l : Int) ∧
    ((goodTotal l : Int) : Rat) ≤ period * 1000000000 * (allRecords period l : Int) + l.length * (period * 1000000000) := by
  have hP : 0 < period * 1000000000 := by positivity
  generalize hPe : period * 1000000000 = P at *
  induction l with
  | nil => simp [allRecords, goodTotal]
  | cons s l ih =>
    simp only [allRecords, goodTotal, List.map_cons, List.sum_cons, List.length_cons] at ih ⊢
    have h1 : ((wholeRecords period s : Int) : Rat) ≤ ((s.2 - s.1 : Int) : Rat) / P := by
      rw [← hPe]; exact Int.floor_le _
    have h2 : ((s.2 - s.1 : Int) : Rat) / P < ((wholeRecords period s : Int) : Rat) + 1 := by
      rw [← hPe]; exact Int.lt_floor_add_one _
    rw [le_div_iff₀ hP] at h1
    rw [div_lt_iff₀ hP] at h2
    push_cast at *
    constructor <;> nlinarith [ih.1, ih.2]

theorem goodTotal_exact (period : Rat) (hp : 0 < period) (l : List Section')
    (h : ∀ s ∈ l, ∃ n : Int, ((s.2 - s.1 : Int) : Rat) = n * (period * 1000000000)) :
    ((goodTotal l : Int) : Rat) = period * 1000000000 * (allRecords period l : Int) := by
  have hP : 0 < period * 1000000000 := by positivity
  induction l with
  | nil => simp [goodTotal, allRecords]
  | cons s l ih =>
    obtain ⟨n, hn⟩ := h s (by simp)
    have hw : wholeRecords period s = n := by
      unfold wholeRecords
      rw [hn, mul_div_assoc, div_self hP.ne', mul_one, Int.floor_intCast]
    have ih2 := ih (fun x hx => h x (by simp [hx]))
    simp only [allRecords, goodTotal, List.map_cons, List.sum_cons, hw] at ih2 ⊢
    push_cast at *
    rw [ih2, hn]
    ring

theorem allRecords_append (period : Rat) (a b : List Section') :
    allRecords period (a ++ b) = allRecords period a + allRecords period b := by simp [allRecords]

theorem allRecords_nonneg (period : Rat) (hp : 0 < period) (l : List Section') (h : ∀ s ∈ l, s.1 ≤ s.2) :
    0 ≤ allRecords period l := by
  unfold allRecords
  apply List.sum_nonneg
  intro x hx
  obtain ⟨s, hs, rfl⟩ := List.mem_map.1 hx
  exact wholeRecords_nonneg period hp s (h s hs)

/-! ### Theorems -/

/-- Several good sections with at least one record: the split time lies in the good section in which the wanted number of
records is reached (at its start when it is reached with the section before), at the time of the remaining records, to
the nearest microsecond. The loop makes a single pass. -/
theorem C56_split_point (fuel : Nat) (ss : List Section') (period fraction : Rat) (hp : 0 < period) (h0 : 0 < fraction)
    (h1 : fraction < 1) (hs : ∀ s ∈ ss, s.1 ≤ s.2) (hl : ss.length ≠ 1) (hr : 0 < allRecords period ss) :
    ∃ pre s post r t, ss = pre ++ s :: post ∧
      trainTestSplit (fuel + 1) (some (ss, period)) fraction = some (.ok (some t)) ∧
      (allRecords period pre : Int) + r = fraction * (allRecords period ss : Int) ∧ 0 ≤ r ∧
      (r = 0 ∨ r < (wholeRecords period s : Int)) ∧
      |(t : Rat) - (s.1 + r * period * 1000000000)| ≤ 500 ∧ s.1 ≤ t := by
  have hrec := recordsOf_eq period hp ss hs
  have hpos : (0 : Rat) < ((allRecords period ss : Int) : Rat) := by exact_mod_cast hr
  obtain ⟨pre, s, post, r, e1, e2, e3, e4, e5⟩ := pass_spec period ss [] (((recordsOf period ss).sum : Int) * fraction)
    (by rw [hrec]; exact mul_pos hpos h0) (by rw [hrec]; exact mul_lt_of_lt_one_right hpos h1)
  have hpre := recordsOf_eq period hp pre (fun x hx => hs x (by rw [e1]; simp [hx]))
  refine ⟨pre, s, post, r, s.1 + timedeltaNs (period * r), e1, ?_, ?_, e4, ?_, ?_, ?_⟩
  · have hne : ¬ (((recordsOf period ss).sum : Int) : Rat) * fraction = 0 := by
      rw [hrec]; exact (mul_pos hpos h0).ne'
    simp only [List.nil_append, List.length_nil] at e2
    unfold trainTestSplit
    rw [if_neg (by simp [h0, h1])]
    simp only
    rw [if_neg (by simp [hp.ne'])]
    split
    · simp at hl
    · rw [splitWhile, if_neg hne, e2]
  · rw [hpre, hrec] at e3
    rw [mul_comm fraction]
    exact e3
  · rwa [record_eq period hp s (hs s (by rw [e1]; simp))] at e5
  · have := timedelta_close (period * r)
    push_cast
    rw [show (s.1 : Rat) + (timedeltaNs (period * r) : Int) - (s.1 + r * period * 1000000000) =
      (timedeltaNs (period * r) : Int) - period * r * 1000000000 by ring]
    exact this
  · have := timedelta_nonneg (period * r) (by positivity)
    omega

theorem goodBefore_close (ss pre post : List Section') (s : Section') (r P : Rat) (t : Int) (ho : SectionsOrdered ss)
    (e : ss = pre ++ s :: post) (hr : r * P ≤ ((s.2 - s.1 : Int) : Rat))
    (hc : |(t : Rat) - (s.1 + r * P)| ≤ 500) (ht : s.1 ≤ t) :
    |((goodBefore t ss : Int) : Rat) - ((goodTotal pre : Int) + r * P)| ≤ 500 := by
  subst e
  have hpw := List.pairwise_append.1 ho.2
  have hpre : goodBefore t pre = goodTotal pre := gb_all t pre (fun x hx =>
    ⟨ho.1 x (by simp [hx]), (hpw.2.2 x hx s (by simp)).trans ht⟩)
  have hos : SectionsOrdered (s :: post) := ⟨fun x hx => ho.1 x (List.mem_append_right _ hx), hpw.2.1⟩
  have hup := gb_upper t (s :: post) s.1 hos (by
    intro x hx
    rcases List.mem_cons.1 hx with rfl | hx
    · exact le_refl _
    · exact (hos.1 s (by simp)).trans ((List.pairwise_cons.1 hos.2).1 x hx)) ht
  have hlow : min (t - s.1) (s.2 - s.1) ≤ goodBefore t (s :: post) := by
    rw [show s :: post = [s] ++ post from rfl, gb_append]
    have := gb_nonneg t post
    have hone : goodBefore t [s] = max 0 (min (t - s.1) (s.2 - s.1)) := by simp [goodBefore]
    omega
  rw [gb_append, hpre]
  rw [abs_le] at hc ⊢
  have hupq : ((goodBefore t (s :: post) : Int) : Rat) ≤ (t : Rat) - s.1 := by exact_mod_cast hup
  have hlowq : (t : Rat) - s.1 ≤ (goodBefore t (s :: post) : Int) ∨ ((s.2 - s.1 : Int) : Rat) ≤ (goodBefore t (s :: post) : Int) := by
    rcases min_le_iff.1 hlow with h | h
    · left; exact_mod_cast h
    · right; exact_mod_cast h
  push_cast at *
  constructor
  · rcases hlowq with h | h <;> linarith [hc.1, hc.2]
  · linarith [hc.1, hc.2]

/-- The good time before the split time is the wanted fraction of all the good time, up to one sample period per section
(records are whole) and half a microsecond. -/
theorem C56_fraction_of_time (fuel : Nat) (ss : List Section') (period fraction : Rat) (hp : 0 < period) (h0 : 0 < fraction)
    (h1 : fraction < 1) (ho : SectionsOrdered ss) (hl : ss.length ≠ 1) (hr : 0 < allRecords period ss) :
    ∃ t, trainTestSplit (fuel + 1) (some (ss, period)) fraction = some (.ok (some t)) ∧
      |((goodBefore t ss : Int) : Rat) - fraction * (goodTotal ss : Int)| ≤ ss.length * (period * 1000000000) + 500 ∧
      ((∀ s ∈ ss, ∃ n : Int, ((s.2 - s.1 : Int) : Rat) = n * (period * 1000000000)) →
        |((goodBefore t ss : Int) : Rat) - fraction * (goodTotal ss : Int)| ≤ 500) := by
  obtain ⟨pre, s, post, r, t, e1, e2, e3, e4, e5, e6, e7⟩ := C56_split_point fuel ss period fraction hp h0 h1 ho.1 hl hr
  have hPpos : 0 < period * 1000000000 := by positivity
  have hsle : s.1 ≤ s.2 := ho.1 s (by rw [e1]; simp)
  have hrs : r * (period * 1000000000) ≤ ((s.2 - s.1 : Int) : Rat) := by
    have h0' : (0 : Rat) ≤ ((s.2 - s.1 : Int) : Rat) := by exact_mod_cast sub_nonneg.2 hsle
    rcases e5 with rfl | h
    · simpa using h0'
    · have : ((wholeRecords period s : Int) : Rat) ≤ ((s.2 - s.1 : Int) : Rat) / (period * 1000000000) := Int.floor_le _
      rw [le_div_iff₀ hPpos] at this
      nlinarith
  have hclose := goodBefore_close ss pre post s r (period * 1000000000) t ho e1 hrs
    (by rw [← mul_assoc]; exact e6) e7
  have b1 := goodTotal_bounds period hp pre
  have b2 := goodTotal_bounds period hp ss
  have x1 := goodTotal_exact period hp pre
  have x2 := goodTotal_exact period hp ss
  generalize period * 1000000000 = P at *
  have hlen : (pre.length : Rat) ≤ ss.length := by
    have : pre.length ≤ ss.length := by rw [e1, List.length_append]; omega
    exact_mod_cast this
  refine ⟨t, e2, ?_, ?_⟩
  · rw [abs_le] at hclose ⊢
    have key : P * (((allRecords period pre : Int) : Rat) + r) = P * (fraction * (allRecords period ss : Int)) := by rw [e3]
    have hmul : (pre.length : Rat) * P ≤ ss.length * P := mul_le_mul_of_nonneg_right hlen hPpos.le
    have f1 : fraction * (P * (allRecords period ss : Int)) ≤ fraction * (goodTotal ss : Int) :=
      mul_le_mul_of_nonneg_left b2.1 h0.le
    have f2 : fraction * ((goodTotal ss : Int) - P * (allRecords period ss : Int)) ≤ 1 * (ss.length * P) := by
      apply mul_le_mul h1.le (by linarith [b2.2]) (by linarith [b2.1]) zero_le_one
    constructor <;> nlinarith [hclose.1, hclose.2, b1.1, b1.2]
  · intro hex
    have y1 := x1 (fun x hx => hex x (by rw [e1]; simp [hx]))
    have y2 := x2 hex
    rw [y2]
    rw [y1] at hclose
    have key : P * (((allRecords period pre : Int) : Rat) + r) = P * (fraction * (allRecords period ss : Int)) := by rw [e3]
    rw [show fraction * (P * ((allRecords period ss : Int) : Rat)) = P * (allRecords period pre : Int) + r * P by
      linarith]
    exact hclose

/-- One good section: whole seconds are counted from its start. The split time is in the section, and the good time before
it is the wanted fraction up to one sample period and one second. -/
theorem C56_single_section (fuel : Nat) (s : Section') (period fraction : Rat) (hp : 0 < period) (h0 : 0 < fraction)
    (h1 : fraction < 1) (hs : s.1 ≤ s.2) :
    ∃ t, trainTestSplit fuel (some ([s], period)) fraction = some (.ok (some t)) ∧ s.1 ≤ t ∧ t ≤ s.2 ∧
      (∃ n : Int, t - s.1 = n * 1000000000) ∧
      |((t - s.1 : Int) : Rat) - fraction * ((s.2 - s.1 : Int) : Rat)| < period * 1000000000 + 1000000000 := by
  have hPpos : 0 < period * 1000000000 := by positivity
  have hn := wholeRecords_nonneg period hp s hs
  have hn' : (0 : Rat) ≤ ((wholeRecords period s : Int) : Rat) := by exact_mod_cast hn
  have hrec : (recordsOf period [s]).sum = wholeRecords period s := by
    rw [recordsOf_eq period hp [s] (by simpa using hs)]; simp
  have hx : 0 ≤ ((wholeRecords period s : Int) : Rat) * fraction * period := by positivity
  obtain ⟨k, hk⟩ : ∃ k, k = ⌊((wholeRecords period s : Int) : Rat) * fraction * period⌋ := ⟨_, rfl⟩
  have hk0 : 0 ≤ k := by rw [hk]; exact Int.floor_nonneg.2 hx
  have hk1 : (k : Rat) ≤ ((wholeRecords period s : Int) : Rat) * fraction * period := by rw [hk]; exact Int.floor_le _
  have hk2 : ((wholeRecords period s : Int) : Rat) * fraction * period < k + 1 := by rw [hk]; exact Int.lt_floor_add_one _
  have g1 : ((wholeRecords period s : Int) : Rat) ≤ ((s.2 - s.1 : Int) : Rat) / (period * 1000000000) := Int.floor_le _
  have g2 : ((s.2 - s.1 : Int) : Rat) / (period * 1000000000) < ((wholeRecords period s : Int) : Rat) + 1 :=
    Int.lt_floor_add_one _
  rw [le_div_iff₀ hPpos] at g1
  rw [div_lt_iff₀ hPpos] at g2
  have hmono : ((wholeRecords period s : Int) : Rat) * fraction * period ≤ (wholeRecords period s : Int) * 1 * period := by
    apply mul_le_mul_of_nonneg_right _ hp.le
    exact mul_le_mul_of_nonneg_left h1.le hn'
  refine ⟨s.1 + k * 1000000000, ?_, by omega, ?_, ⟨k, by omega⟩, ?_⟩
  · unfold trainTestSplit
    rw [if_neg (by simp [h0, h1])]
    simp only
    rw [if_neg (by simp [hp.ne']), hrec, truncInt_nonneg_eq_floor _ hx, ← hk, timedelta_int]
  · have : ((k * 1000000000 : Int) : Rat) ≤ ((s.2 - s.1 : Int) : Rat) := by push_cast at *; linarith
    have : k * 1000000000 ≤ s.2 - s.1 := by exact_mod_cast this
    omega
  · rw [show s.1 + k * 1000000000 - s.1 = k * 1000000000 by ring]
    have f1 : fraction * ((wholeRecords period s : Int) * (period * 1000000000)) ≤ fraction * ((s.2 - s.1 : Int) : Rat) :=
      mul_le_mul_of_nonneg_left g1 h0.le
    have f2 : fraction * (((s.2 - s.1 : Int) : Rat) - (wholeRecords period s : Int) * (period * 1000000000)) ≤
        1 * (period * 1000000000) := mul_le_mul h1.le (by linarith) (by linarith) zero_le_one
    rw [abs_lt]
    push_cast at *
    constructor <;> nlinarith

/-- With no records in the good sections (or no good sections) there is no split time: `None` is returned. -/
theorem C56_no_records (fuel : Nat) (ss : List Section') (period fraction : Rat) (hp : 0 < period) (h0 : 0 < fraction)
    (h1 : fraction < 1) (hs : ∀ s ∈ ss, s.1 ≤ s.2) (hl : ss.length ≠ 1) (hr : allRecords period ss = 0) :
    trainTestSplit fuel (some (ss, period)) fraction = some (.ok none) := by
  have hrec : (recordsOf period ss).sum = 0 := by rw [recordsOf_eq period hp ss hs]; exact hr
  unfold trainTestSplit
  rw [if_neg (by simp [h0, h1])]
  simp only
  rw [if_neg (by simp [hp.ne'])]
  split
  · simp at hl
  · rw [hrec]
    cases fuel <;> simp [splitWhile]

/-- No other outcome: for a fraction between 0 and 1 nothing is raised (in particular no `IndexError`) and the loop ends
in its first pass; other fractions raise `AssertionError`. -/
theorem C56_outcomes (fuel : Nat) (ss : List Section') (period fraction : Rat) (hp : 0 < period)
    (hs : ∀ s ∈ ss, s.1 ≤ s.2) :
    (0 < fraction ∧ fraction < 1 → ∃ t, trainTestSplit (fuel + 1) (some (ss, period)) fraction = some (.ok t) ∧
      (t = none ↔ ss.length ≠ 1 ∧ allRecords period ss = 0)) ∧
    (fraction ≤ 0 ∨ 1 ≤ fraction →
      trainTestSplit fuel (some (ss, period)) fraction = some (.error .assertionError)) := by
  refine ⟨?_, ?_⟩
  · rintro ⟨h0, h1⟩
    by_cases hl : ss.length = 1
    · obtain ⟨s, rfl⟩ := List.length_eq_one_iff.1 hl
      obtain ⟨t, ht, -⟩ := C56_single_section (fuel + 1) s period fraction hp h0 h1 (hs s (by simp))
      exact ⟨some t, ht, by simp⟩
    · rcases (allRecords_nonneg period hp ss hs).lt_or_eq with h | h
      · obtain ⟨pre, s, post, r, t, -, ht, -⟩ := C56_split_point fuel ss period fraction hp h0 h1 hs hl h
        refine ⟨some t, ht, ?_⟩
        simp only [reduceCtorEq, false_iff]
        rintro ⟨-, h'⟩
        omega
      · exact ⟨none, C56_no_records (fuel + 1) ss period fraction hp h0 h1 hs hl h.symm, by simp [hl, h.symm]⟩
  · intro h
    unfold trainTestSplit
    rw [if_pos]
    rintro ⟨h0, h1⟩
    rcases h with h | h <;> linarith

/-- The training part can be empty although there are records in it: a single good section of 0.9 s with 10 readings a
second, split in the middle, is split at its start. -/
theorem C56_empty_training_counterexample :
    ∃ (s : Section') (period : Rat), allRecords period [s] = 9 ∧
      trainTestSplit 1 (some ([s], period)) (1 / 2) = some (.ok (some s.1)) := by
  refine ⟨(5, 900000005), 1 / 10, ?_, ?_⟩
  · decide +kernel
  · decide +kernel

example : trainTestSplit 1 (some ([(0, 10000000000), (20000000000, 30000000000), (50000000000, 60000000000)], 2)) (1 / 2) =
    some (.ok (some 25000000000)) := by decide +kernel
example : trainTestSplit 1 (some ([(0, 10000000000), (20000000000, 30000000000)], 2)) (1 / 2) =
    some (.ok (some 20000000000)) := by decide +kernel
example : SectionsOrdered [(0, 10000000000), (20000000000, 30000000000)] ∧
    0 < allRecords 2 [(0, 10000000000), (20000000000, 30000000000)] := by
  refine ⟨⟨by simp, by simp⟩, by decide +kernel⟩

end Nilmtk
