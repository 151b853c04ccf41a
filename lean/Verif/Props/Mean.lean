import Verif.Model.Mean
import Mathlib.Data.List.Dedup
import Mathlib.Tactic.Linarith
import Mathlib.Tactic.FieldSimp
import Mathlib.Tactic.Positivity
import Mathlib.Tactic.Ring
import Mathlib.Tactic.ByContra
/-!
C50: the mean disaggregator.
-/
namespace Nilmtk

abbrev MeanCall := List (String × List (List (Option Rat)))

/-- All training readings of one appliance in one call. -/
def readingsOf (name : String) (call : MeanCall) : List (List (Option Rat)) :=
  (call.filter (fun e => e.1 == name)).map (fun e => e.2.flatten)

/-- The sum of the readings that are present. -/
def sumPresent (vs : List (Option Rat)) : Rat := (vs.filterMap id).sum

theorem nanSumList_eq (vs : List (Option Rat)) : nanSumList vs = sumPresent vs := by
  unfold nanSumList sumPresent
  induction vs with
  | nil => rfl
  | cons v vs ih =>
    cases v with
    | none => simpa using ih
    | some x => simpa using ih

theorem lookup_set_self (m : MeanModel) (name : String) (s : MeanStat) : (m.set name s).lookup name = some s := by
  unfold MeanModel.set
  by_cases h : m.any (fun e => e.1 == name) = true
  · rw [if_pos h]
    induction m with
    | nil => simp at h
    | cons e m ih =>
      by_cases he : e.1 = name
      · simp [he]
      · have h' : m.any (fun e => e.1 == name) = true := by
          rw [List.any_cons] at h
          have : (e.1 == name) = false := by simp [he]
          rwa [this, Bool.false_or] at h
        have h1 : (e.1 == name) = false := by simp [he]
        have h2 : (name == e.1) = false := by simpa using fun c => he c.symm
        rw [List.map_cons, if_neg (by rw [h1]; decide), List.lookup_cons]
        simp only [h2]
        exact ih h'
  · rw [if_neg h]
    have : m.lookup name = none := by
      rw [List.lookup_eq_none_iff]
      intro p hp
      rw [Bool.not_eq_true, List.any_eq_false] at h
      have h3 := h p hp
      simp only [beq_iff_eq] at h3
      simpa using fun c => h3 c.symm
    rw [List.lookup_append, this]
    simp

theorem lookup_set_ne (m : MeanModel) (name other : String) (s : MeanStat) (hne : other ≠ name) :
    (m.set name s).lookup other = m.lookup other := by
  unfold MeanModel.set
  have h2 : (other == name) = false := by simpa using hne
  split
  · induction m with
    | nil => rfl
    | cons e m ih =>
      rename_i h
      rw [List.map_cons, List.lookup_cons, List.lookup_cons]
      by_cases he : e.1 = name
      · have h1 : (e.1 == name) = true := by simp [he]
        have h3 : (other == e.1) = false := by rw [he]; exact h2
        rw [if_pos h1]
        simp only [h2, h3]
        by_cases hm : m.any (fun e => e.1 == name) = true
        · exact ih hm
        · have : m.map (fun e => if (e.1 == name) = true then (name, s) else e) = m := by
            rw [Bool.not_eq_true, List.any_eq_false] at hm
            conv_rhs => rw [← List.map_id m]
            apply List.map_congr_left
            intro x hx
            rw [if_neg (hm x hx)]
            rfl
          rw [this]
      · have h1 : (e.1 == name) = false := by simp [he]
        rw [if_neg (by rw [h1]; decide)]
        cases hoe : (other == e.1) with
        | true => rfl
        | false =>
          have hm : m.any (fun e => e.1 == name) = true := by
            rw [List.any_cons, h1, Bool.false_or] at h; exact h
          exact ih hm
  · rw [List.lookup_append]
    have : ([(name, s)] : MeanModel).lookup other = none := by simp [List.lookup_cons, h2]
    rw [this]
    simp

/-- What is known about one appliance after training. -/
def statOf (m : MeanModel) (name : String) : MeanStat := (m.lookup name).getD ⟨0, 0⟩

theorem meanFit_stat (call : MeanCall) (m m' : MeanModel) (h : meanFit m call = .ok m') (name : String) :
    (statOf m' name).sum = (statOf m name).sum + ((readingsOf name call).map (fun vs => truncInt (sumPresent vs))).sum ∧
    (statOf m' name).nElem = (statOf m name).nElem + ((readingsOf name call).map List.length).sum := by
  induction call generalizing m with
  | nil => cases h; simp [readingsOf]
  | cons e rest ih =>
    obtain ⟨app, frames⟩ := e
    unfold meanFit meanFitOne at h
    by_cases hf : frames = []
    · rw [if_pos hf] at h; cases h
    · rw [if_neg hf] at h
      simp only [] at h
      obtain ⟨h1, h2⟩ := ih _ h
      rw [h1, h2]
      by_cases hn : app = name
      · have hb : (app == name) = true := by simp [hn]
        have hr : readingsOf name ((app, frames) :: rest) = frames.flatten :: readingsOf name rest := by
          unfold readingsOf
          rw [List.filter_cons, if_pos hb]
          rfl
        rw [hr]
        unfold statOf
        rw [hn, lookup_set_self]
        simp only [Option.getD_some, List.map_cons, List.sum_cons, nanSumList_eq]
        omega
      · have hb : (app == name) = false := by simp [hn]
        have hr : readingsOf name ((app, frames) :: rest) = readingsOf name rest := by
          unfold readingsOf
          rw [List.filter_cons, if_neg (by simp [hb])]
        rw [hr]
        unfold statOf
        rw [lookup_set_ne _ _ _ _ (fun c => hn c.symm)]
        exact ⟨rfl, rfl⟩

/-- All training readings of one appliance over several calls, one list per call and entry. -/
def readingsOfAll (name : String) (calls : List MeanCall) : List (List (Option Rat)) :=
  calls.flatMap (readingsOf name)

/-- After any history of training calls, what is stored for an appliance is the sum of the truncated chunk sums and the
number of rows seen, NaN or not. -/
theorem C50_history (calls : List MeanCall) (m : MeanModel) (h : meanFitAll [] calls = .ok m) (name : String) :
    (statOf m name).sum = ((readingsOfAll name calls).map (fun vs => truncInt (sumPresent vs))).sum ∧
    (statOf m name).nElem = ((readingsOfAll name calls).map List.length).sum := by
  have hgen : ∀ (calls : List MeanCall) (m0 m : MeanModel), meanFitAll m0 calls = .ok m →
      (statOf m name).sum = (statOf m0 name).sum + ((readingsOfAll name calls).map (fun vs => truncInt (sumPresent vs))).sum ∧
      (statOf m name).nElem = (statOf m0 name).nElem + ((readingsOfAll name calls).map List.length).sum := by
    intro calls
    induction calls with
    | nil => intro m0 m h; cases h; simp [readingsOfAll]
    | cons c cs ih =>
      intro m0 m h
      unfold meanFitAll at h
      cases hc : meanFit m0 c with
      | error e => rw [hc] at h; cases h
      | ok m1 =>
        rw [hc] at h
        obtain ⟨h1, h2⟩ := ih m1 m h
        obtain ⟨h3, h4⟩ := meanFit_stat c m0 m1 hc name
        rw [h1, h2, h3, h4]
        unfold readingsOfAll
        rw [List.flatMap_cons, List.map_append, List.map_append, List.sum_append, List.sum_append]
        omega
  have := hgen calls [] m h
  simpa [statOf] using this

theorem set_keys (m : MeanModel) (name : String) (s : MeanStat) :
    (m.set name s).map Prod.fst = if name ∈ m.map Prod.fst then m.map Prod.fst else m.map Prod.fst ++ [name] := by
  have hiff : (m.any (fun e => e.1 == name) = true) ↔ name ∈ m.map Prod.fst := by
    rw [List.any_eq_true, List.mem_map]
    simp only [beq_iff_eq]
  unfold MeanModel.set
  by_cases h : name ∈ m.map Prod.fst
  · rw [if_pos (hiff.2 h), if_pos h, List.map_map]
    apply List.map_congr_left
    intro e _
    by_cases he : e.1 = name
    · simp [he]
    · simp [he]
  · rw [if_neg (fun c => h (hiff.1 c)), if_neg h, List.map_append]
    rfl

theorem meanFit_keys (call : MeanCall) (m m' : MeanModel) (h : meanFit m call = .ok m') (seen : List String)
    (h1 : (m.map Prod.fst).Nodup) (h2 : (m.map Prod.fst).Sublist seen) (h3 : ∀ n, n ∈ m.map Prod.fst ↔ n ∈ seen) :
    (m'.map Prod.fst).Nodup ∧ (m'.map Prod.fst).Sublist (seen ++ call.map Prod.fst) ∧
      ∀ n, n ∈ m'.map Prod.fst ↔ n ∈ seen ++ call.map Prod.fst := by
  induction call generalizing m seen with
  | nil => cases h; simpa using ⟨h1, h2, by simpa using h3⟩
  | cons e rest ih =>
    obtain ⟨app, frames⟩ := e
    unfold meanFit meanFitOne at h
    by_cases hf : frames = []
    · rw [if_pos hf] at h; cases h
    · rw [if_neg hf] at h
      simp only [] at h
      have key := ih _ h (seen ++ [app]) ?_ ?_ ?_
      · simpa using key
      · rw [set_keys]
        split
        · exact h1
        · rename_i hn
          rw [List.nodup_append]
          refine ⟨h1, by simp, ?_⟩
          intro a ha b hb hab
          rw [List.mem_singleton.1 hb] at hab
          exact hn (hab ▸ ha)
      · rw [set_keys]
        split
        · exact h2.trans (List.sublist_append_left _ _)
        · exact h2.append (List.Sublist.refl _)
      · intro n
        rw [set_keys, List.mem_append, List.mem_singleton]
        split
        · rename_i hn
          rw [h3]
          constructor
          · exact Or.inl
          · rintro (h' | h')
            · exact h'
            · rw [h', ← h3]; exact hn
        · rw [List.mem_append, List.mem_singleton, h3]

/-- The trained appliances are exactly those named in some call, each once, in the order of training. -/
theorem C50_names (calls : List MeanCall) (m : MeanModel) (h : meanFitAll [] calls = .ok m) :
    (m.map Prod.fst).Nodup ∧ (m.map Prod.fst).Sublist (calls.flatMap (fun c => c.map Prod.fst)) ∧
      ∀ n, n ∈ m.map Prod.fst ↔ n ∈ calls.flatMap (fun c => c.map Prod.fst) := by
  have hgen : ∀ (calls : List MeanCall) (m0 m : MeanModel) (seen : List String), meanFitAll m0 calls = .ok m →
      (m0.map Prod.fst).Nodup → (m0.map Prod.fst).Sublist seen → (∀ n, n ∈ m0.map Prod.fst ↔ n ∈ seen) →
      (m.map Prod.fst).Nodup ∧ (m.map Prod.fst).Sublist (seen ++ calls.flatMap (fun c => c.map Prod.fst)) ∧
      ∀ n, n ∈ m.map Prod.fst ↔ n ∈ seen ++ calls.flatMap (fun c => c.map Prod.fst) := by
    intro calls
    induction calls with
    | nil => intro m0 m seen h h1 h2 h3; cases h; simpa using ⟨h1, h2, by simpa using h3⟩
    | cons c cs ih =>
      intro m0 m seen h h1 h2 h3
      unfold meanFitAll at h
      cases hc : meanFit m0 c with
      | error e => rw [hc] at h; cases h
      | ok m1 =>
        rw [hc] at h
        obtain ⟨k1, k2, k3⟩ := meanFit_keys c m0 m1 hc seen h1 h2 h3
        have := ih m1 m _ h k1 k2 k3
        rw [List.flatMap_cons, ← List.append_assoc]
        exact this
  have := hgen calls [] m [] h (by simp) (by simp) (by simp)
  simpa using this

theorem sumPresent_append (a b : List (Option Rat)) : sumPresent (a ++ b) = sumPresent a + sumPresent b := by
  unfold sumPresent; rw [List.filterMap_append, List.sum_append]

theorem sumPresent_flatten (l : List (List (Option Rat))) : sumPresent l.flatten = (l.map sumPresent).sum := by
  induction l with
  | nil => rfl
  | cons a l ih => rw [List.flatten_cons, sumPresent_append, ih, List.map_cons, List.sum_cons]

theorem truncInt_int (n : Int) : truncInt (n : Rat) = n := by
  unfold truncInt; simp

theorem sum_trunc_exact (l : List (List (Option Rat))) (h : ∀ vs ∈ l, ∃ n : Int, sumPresent vs = (n : Rat)) :
    (((l.map (fun vs => truncInt (sumPresent vs))).sum : Int) : Rat) = sumPresent l.flatten := by
  induction l with
  | nil => rfl
  | cons a l ih =>
    obtain ⟨n, hn⟩ := h a List.mem_cons_self
    rw [List.map_cons, List.sum_cons, List.flatten_cons, sumPresent_append, Int.cast_add,
      ih (fun vs hv => h vs (List.mem_cons_of_mem _ hv)), hn, truncInt_int]

/-- Training in chunks: two histories of training calls that give an appliance the same readings overall store the same
for it, provided every chunk sum is a whole number. -/
theorem C50_chunked_partial (calls calls' : List MeanCall) (m m' : MeanModel) (h : meanFitAll [] calls = .ok m)
    (h' : meanFitAll [] calls' = .ok m') (name : String)
    (hsame : (readingsOfAll name calls).flatten = (readingsOfAll name calls').flatten)
    (hint : ∀ vs ∈ readingsOfAll name calls, ∃ n : Int, sumPresent vs = (n : Rat))
    (hint' : ∀ vs ∈ readingsOfAll name calls', ∃ n : Int, sumPresent vs = (n : Rat)) :
    (m.lookup name).getD ⟨0, 0⟩ = (m'.lookup name).getD ⟨0, 0⟩ := by
  obtain ⟨a1, a2⟩ := C50_history calls m h name
  obtain ⟨b1, b2⟩ := C50_history calls' m' h' name
  have e1 : (statOf m name).sum = (statOf m' name).sum := by
    have : (((statOf m name).sum : Int) : Rat) = (((statOf m' name).sum : Int) : Rat) := by
      rw [a1, b1, sum_trunc_exact _ hint, sum_trunc_exact _ hint', hsame]
    exact_mod_cast this
  have e2 : (statOf m name).nElem = (statOf m' name).nElem := by
    rw [a2, b2, ← List.length_flatten, ← List.length_flatten, hsame]
  show statOf m name = statOf m' name
  generalize statOf m name = x at *
  generalize statOf m' name = y at *
  cases x; cases y
  simp_all

theorem meanFrame_ok (index : List Int) (m : MeanModel) (f : List (String × List (Int × Rat)))
    (h : meanFrame index m = .ok f) :
    List.Forall₂ (fun e c => c.1 = e.1 ∧ e.2.nElem ≠ 0 ∧
      c.2 = index.map (fun t => (t, (e.2.sum : Rat) / (e.2.nElem : Rat)))) m f := by
  induction m generalizing f with
  | nil => cases h; exact List.Forall₂.nil
  | cons e m ih =>
    obtain ⟨name, s⟩ := e
    unfold meanFrame meanColumn at h
    by_cases hz : s.nElem = 0
    · rw [if_pos hz] at h; cases h
    · rw [if_neg hz] at h
      simp only [] at h
      cases hr : meanFrame index m with
      | error e => rw [hr] at h; cases h
      | ok cs =>
        rw [hr] at h
        cases h
        exact List.Forall₂.cons ⟨rfl, hz, rfl⟩ (ih cs hr)

/-- A prediction has one frame per test frame, with the index of the test frame and one column per trained appliance, in
the order in which they were first trained; each column is constant. -/
theorem C50_prediction (m : MeanModel) (tests : List (List Int)) (fs : List (List (String × List (Int × Rat))))
    (h : meanPredict m tests = .ok fs) :
    List.Forall₂ (fun index f => List.Forall₂ (fun e c => c.1 = e.1 ∧ e.2.nElem ≠ 0 ∧
      c.2 = index.map (fun t => (t, (e.2.sum : Rat) / (e.2.nElem : Rat)))) m f) tests fs := by
  induction tests generalizing fs with
  | nil => cases h; exact List.Forall₂.nil
  | cons index tests ih =>
    unfold meanPredict at h
    cases hf : meanFrame index m with
    | error e => rw [hf] at h; cases h
    | ok f =>
      rw [hf] at h
      simp only [] at h
      cases hr : meanPredict m tests with
      | error e => rw [hr] at h; cases h
      | ok fs' =>
        rw [hr] at h
        cases h
        exact List.Forall₂.cons (meanFrame_ok index m f hf) (ih fs' hr)

theorem meanFrame_error (index : List Int) (m : MeanModel) (h : ∃ e ∈ m, e.2.nElem = 0) :
    meanFrame index m = .error .zeroDivisionError := by
  induction m with
  | nil => obtain ⟨e, he, _⟩ := h; cases he
  | cons e m ih =>
    obtain ⟨name, s⟩ := e
    unfold meanFrame meanColumn
    by_cases hz : s.nElem = 0
    · rw [if_pos hz]
    · rw [if_neg hz]
      have : ∃ e ∈ m, e.2.nElem = 0 := by
        obtain ⟨e, he, h0⟩ := h
        rcases List.mem_cons.1 he with he' | he'
        · rw [he'] at h0; exact absurd h0 hz
        · exact ⟨e, he', h0⟩
      rw [ih this]

/-- An appliance for which no row was ever seen makes every prediction raise `ZeroDivisionError`. -/
theorem C50_no_rows_raises (m : MeanModel) (index : List Int) (rest : List (List Int)) (h : ∃ e ∈ m, e.2.nElem = 0) :
    meanPredict m (index :: rest) = .error .zeroDivisionError := by
  unfold meanPredict
  rw [meanFrame_error index m h]

/-- Without NaN readings and with whole chunk sums, the value predicted for an appliance is the mean of its training
readings. -/
theorem C50_mean_partial (calls : List MeanCall) (m : MeanModel) (h : meanFitAll [] calls = .ok m) (name : String)
    (readings : List Rat) (hr : (readingsOfAll name calls).flatten = readings.map some)
    (hint : ∀ vs ∈ readingsOfAll name calls, ∃ n : Int, sumPresent vs = (n : Rat)) :
    ((statOf m name).sum : Rat) / ((statOf m name).nElem : Rat) = readings.sum / (readings.length : Rat) := by
  obtain ⟨a1, a2⟩ := C50_history calls m h name
  rw [a1, a2, sum_trunc_exact _ hint, ← List.length_flatten, hr, List.length_map]
  congr 1
  unfold sumPresent
  rw [List.filterMap_map]
  simp

theorem truncInt_close (q : Rat) : |((truncInt q : Int) : Rat) - q| < 1 := by
  have hd : (0 : Rat) < (q.den : Rat) := by exact_mod_cast q.den_pos
  have h1 := Int.mul_tdiv_add_tmod q.num (q.den : Int)
  have h2 : |(Int.tmod q.num (q.den : Int) : Int)| < (q.den : Int) := by
    have := Int.natAbs_tmod q.num (q.den : Int)
    have h3 : (Int.natAbs q.num) % (Int.natAbs (q.den : Int)) < Int.natAbs (q.den : Int) :=
      Nat.mod_lt _ (by simpa using q.den_pos)
    rw [← this] at h3
    rw [Int.abs_eq_natAbs]
    have h4 : Int.natAbs (q.den : Int) = q.den := Int.natAbs_natCast _
    rw [h4] at h3
    exact_mod_cast h3
  unfold truncInt
  have h5 : ((Int.tdiv q.num (q.den : Int) : Int) : Rat) - q = - ((Int.tmod q.num (q.den : Int) : Int) : Rat) / (q.den : Rat) := by
    rw [eq_div_iff (ne_of_gt hd), sub_mul]
    have h6 : q * (q.den : Rat) = (q.num : Rat) := Rat.mul_den_eq_num q
    rw [h6]
    have h7 : (q.num : Rat) = (q.den : Rat) * ((Int.tdiv q.num (q.den : Int) : Int) : Rat)
        + ((Int.tmod q.num (q.den : Int) : Int) : Rat) := by exact_mod_cast h1.symm
    rw [h7]; ring
  rw [h5, abs_div, abs_neg, abs_of_pos hd, div_lt_one hd]
  exact_mod_cast h2

/-- In general the stored sum differs from the sum of the readings by less than one per chunk. -/
theorem C50_truncation_bound (calls : List MeanCall) (m : MeanModel) (h : meanFitAll [] calls = .ok m) (name : String) :
    |((statOf m name).sum : Rat) - sumPresent (readingsOfAll name calls).flatten| ≤ (readingsOfAll name calls).length := by
  obtain ⟨a1, _⟩ := C50_history calls m h name
  rw [a1]
  generalize readingsOfAll name calls = l
  induction l with
  | nil => simp [sumPresent]
  | cons a l ih =>
    rw [List.map_cons, List.sum_cons, List.flatten_cons, sumPresent_append, Int.cast_add, List.length_cons]
    have h1 := truncInt_close (sumPresent a)
    rw [abs_lt] at h1
    rw [abs_le] at ih ⊢
    push_cast
    constructor <;> linarith [ih.1, ih.2, h1.1, h1.2]

example : meanFitAll [] [[("a", [[some 1, some 2], [some 3]])], [("a", [[some 4]]), ("b", [[some 9]])]]
    = .ok [("a", ⟨10, 4⟩), ("b", ⟨9, 1⟩)] := by decide +kernel
example : meanPredict [("a", ⟨10, 4⟩)] [[0, 1], []] = .ok [[("a", [(0, 5/2), (1, 5/2)])], [("a", [])]] := by
  decide +kernel

/-- Fractions are lost per chunk: the same two readings trained at once or one after the other. -/
theorem C50_fraction_counterexample :
    meanFitAll [] [[("a", [[some (1/2), some (1/2)]])]] = .ok [("a", ⟨1, 2⟩)] ∧
    meanFitAll [] [[("a", [[some (1/2)]])], [("a", [[some (1/2)]])]] = .ok [("a", ⟨0, 2⟩)] := by
  constructor <;> decide +kernel

/-- Missing readings are counted as rows, so the predicted power is below the mean of the readings. -/
theorem C50_nan_counterexample :
    ∃ m, meanFitAll [] [[("a", [[some 10, none]])]] = .ok m ∧ meanPredict m [[0]] = .ok [[("a", [(0, 5)])]] :=
  ⟨[("a", ⟨10, 2⟩)], by decide +kernel, by decide +kernel⟩

/-- `pd.concat` of no frames raises. -/
theorem C50_no_frames_raises (m : MeanModel) (name : String) (rest : MeanCall) :
    meanFit m ((name, []) :: rest) = .error .valueError := rfl

end Nilmtk
