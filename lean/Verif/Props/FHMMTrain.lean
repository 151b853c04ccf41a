import Verif.Model.FHMMTrain
import Verif.Props.FHMM
import Verif.Props.Experiment
/-!
C87: training and prediction of `FHMMExact`.
-/
namespace Nilmtk

/-! ### Specification -/

/-- The readings of an appliance, all frames together, without NaN. -/
def appReadings (a : String × List (List (Option Rat))) : List Rat := a.2.flatten.filterMap id

/-- The appliances that have a reading. -/
def withReadings (apps : List (String × List (List (Option Rat)))) : List (String × List (List (Option Rat))) :=
  apps.filter (fun a => decide (appReadings a ≠ []))

/-- The shape of a trained hidden Markov model. -/
def GoodHmm {γ : Type} (h : Hmm γ) : Prop :=
  h.means ≠ [] ∧ h.startprob.length = h.means.length ∧ h.covars.length = h.means.length ∧
    h.transmat.length = h.means.length ∧ ∀ r ∈ h.transmat, r.length = h.means.length

/-- What is expected of hmmlearn's `fit`. -/
def HmmLib.FitGood {γ : Type} (lib : HmmLib γ) : Prop := ∀ n X h, lib.fit n X = .ok h → GoodHmm h

/-- What is expected of hmmlearn's `predict`: a state of the model for every reading. -/
def HmmLib.PredictGood {γ : Type} (lib : HmmLib γ) : Prop :=
  ∀ c X ss, c.means ≠ [] → lib.predict c X = .ok ss → ss.length = X.length ∧ ∀ s ∈ ss, s < c.means.length

/-- Row `i` of a frame. -/
def FhmmFrame.row (f : FhmmFrame) (i : Nat) : List (Option Int) := f.columns.map (fun c => c.2[i]?)

/-! ### Training -/

theorem fhmm_mem_right {α β : Type} {R : α → β → Prop} {l : List α} {r : List β} (h : List.Forall₂ R l r) {b : β}
    (hb : b ∈ r) : ∃ a ∈ l, R a b := by
  induction h with
  | nil => simp at hb
  | cons h1 _ ih =>
    rcases List.mem_cons.1 hb with rfl | hb
    · exact ⟨_, List.mem_cons_self, h1⟩
    · obtain ⟨a, ha, hr⟩ := ih hb
      exact ⟨a, List.mem_cons_of_mem _ ha, hr⟩

theorem fhmmTrainLoop_ok {γ : Type} (lib : HmmLib γ) (num : Int) (k : Nat) (train : List (String × List (Option Rat))) :
    ∀ d r, fhmmTrainLoop lib num k d train = .ok r → (d.map Prod.fst ++ train.map Prod.fst).Nodup →
      ∃ t, r = d ++ t ∧ List.Forall₂ (fun (a : String × List (Option Rat)) (e : String × Hmm γ) => e.1 = a.1 ∧
        ∃ n, numTotalStates lib num k (a.2.filterMap id) = .ok n ∧ lib.fit n (a.2.filterMap id) = .ok e.2)
        (train.filter (fun a => decide (a.2.filterMap id ≠ []))) t := by
  induction train with
  | nil =>
    intro d r h _
    simp only [fhmmTrainLoop, Except.ok.injEq] at h
    exact ⟨[], by rw [h, List.append_nil], .nil⟩
  | cons a rest ih =>
    obtain ⟨name, xs⟩ := a
    intro d r h hnd
    rw [List.map_cons] at hnd
    simp only [fhmmTrainLoop] at h
    have hname : name ∉ d.map Prod.fst := by
      intro hm
      exact (List.nodup_append.1 hnd).2.2 name hm name List.mem_cons_self rfl
    by_cases hX : xs.filterMap id = []
    · rw [if_pos hX] at h
      rw [List.filter_cons_of_neg (by simpa using hX)]
      refine ih d r h ?_
      refine hnd.sublist ?_
      exact List.Sublist.append (List.Sublist.refl _) (List.sublist_cons_self _ _)
    · rw [if_neg hX] at h
      rw [List.filter_cons_of_pos (by simpa using hX)]
      split at h
      · cases h
      rename_i n hn
      split at h
      · cases h
      rename_i m hm
      rw [dictSet_new d name m hname] at h
      obtain ⟨t, rfl, ht⟩ := ih _ r h (by simpa using hnd)
      exact ⟨(name, m) :: t, by simp, .cons ⟨rfl, n, hn, hm⟩ ht⟩

theorem fhmmTrainLoop_total {γ : Type} (lib : HmmLib γ) (num : Int) (k : Nat) (train : List (String × List (Option Rat)))
    (hf : ∀ n X, ∃ h, lib.fit n X = .ok h) (hc : ∀ n X, ∃ h, lib.cluster n X = .ok h) :
    ∀ d, ∃ r, fhmmTrainLoop lib num k d train = .ok r := by
  induction train with
  | nil => exact fun d => ⟨d, rfl⟩
  | cons a rest ih =>
    obtain ⟨name, xs⟩ := a
    intro d
    simp only [fhmmTrainLoop]
    split
    · exact ih d
    · have : ∃ n, numTotalStates lib num k (xs.filterMap id) = .ok n := by
        unfold numTotalStates
        split
        · exact ⟨_, rfl⟩
        · exact hc _ _
      obtain ⟨n, hn⟩ := this
      obtain ⟨h, hh⟩ := hf n (xs.filterMap id)
      simp only [hn, hh]
      exact ih _

theorem fhmmTrain_eq {apps : List (String × List (List (Option Rat)))} {train : List (String × List (Option Rat))}
    (h : mapE (fun a : String × List (List (Option Rat)) => (fhmmConcat a.2).map (fun xs => (a.1, xs))) apps = .ok train) :
    train = apps.map (fun a => (a.1, a.2.flatten)) := by
  have h' := mapE_ok.1 h
  clear h
  induction h' with
  | nil => rfl
  | @cons a t apps train h1 h2 ih =>
    rw [List.map_cons, ← ih]
    congr 1
    unfold fhmmConcat at h1
    split at h1
    · cases h1
    · simp only [Except.map, Except.ok.injEq] at h1
      exact h1.symm

/-- Everything computed by a call of `partial_fit` that returns. -/
theorem fhmmPartialFit_ok {γ : Type} {lib : HmmLib γ} {num : Int} {self st : Fhmm γ} {main : List (List (Option Rat))}
    {apps : List (String × List (List (Option Rat)))} (h : fhmmPartialFit lib num self main apps = .ok st) :
    ∃ learnt c, fhmmTrainLoop lib num (fhmmMaxClusters apps.length) [] (apps.map (fun a => (a.1, a.2.flatten))) = .ok learnt ∧
      List.Forall₂ (fun l e => sortEntry l = .ok e) learnt st.individual ∧ createCombined st.individual = .ok c ∧
      st.model = some c ∧ st.appNames = self.appNames ++ apps.map Prod.fst := by
  unfold fhmmPartialFit at h
  split at h
  · cases h
  split at h
  · cases h
  rename_i train htrain
  have ht := fhmmTrain_eq htrain
  split at h
  · cases h
  rename_i learnt hl
  split at h
  · cases h
  rename_i ind hi
  split at h
  · cases h
  rename_i c hc
  cases h
  refine ⟨learnt, c, ?_, mapE_ok.1 hi, hc, rfl, rfl⟩
  rw [ht, List.length_map] at hl
  exact hl

theorem withReadings_map (apps : List (String × List (List (Option Rat)))) :
    (apps.map (fun a => (a.1, a.2.flatten))).filter (fun a => decide (a.2.filterMap id ≠ [])) =
      (withReadings apps).map (fun a => (a.1, a.2.flatten)) := by
  rw [List.filter_map]
  rfl

/-- The appliances of the trained model. -/
theorem fhmm_trained {γ : Type} {lib : HmmLib γ} {num : Int} {self st : Fhmm γ} {main : List (List (Option Rat))}
    {apps : List (String × List (List (Option Rat)))} (hnd : (apps.map Prod.fst).Nodup)
    (h : fhmmPartialFit lib num self main apps = .ok st) :
    List.Forall₂ (fun a (e : String × Hmm γ) => e.1 = a.1 ∧
        ∃ n h, numTotalStates lib num (fhmmMaxClusters apps.length) (appReadings a) = .ok n ∧
          lib.fit n (appReadings a) = .ok h ∧ sortLearnt h = .ok e.2)
      (withReadings apps) st.individual := by
  obtain ⟨learnt, c, h1, h2, _, _, _⟩ := fhmmPartialFit_ok h
  obtain ⟨t, rfl, ht⟩ := fhmmTrainLoop_ok lib num _ _ _ _ h1 (by simpa [Function.comp_def] using hnd)
  rw [withReadings_map, List.forall₂_map_left_iff] at ht
  clear h h1
  generalize withReadings apps = w at ht
  generalize st.individual = ind at h2
  induction ht generalizing ind with
  | nil => cases h2; exact .nil
  | @cons a l w t ha _ ih =>
    cases h2 with
    | @cons _ e _ ind he hrest =>
      refine .cons ?_ (ih _ hrest)
      obtain ⟨a1, n, a2, a3⟩ := ha
      unfold sortEntry at he
      split at he
      · cases he
      rename_i h' hs
      cases he
      exact ⟨a1, n, l.2, a2, a3, hs⟩

/-- C87. After training there is a model for exactly the appliances with a reading, in their order. The states of an appliance
are those fitted to its readings, in ascending order of their means; their number is the one asked for. -/
theorem C87_trained {γ : Type} (lib : HmmLib γ) (hfit : lib.FitGood) (num : Int) (self st : Fhmm γ)
    (main : List (List (Option Rat))) (apps : List (String × List (List (Option Rat)))) (hnd : (apps.map Prod.fst).Nodup)
    (h : fhmmPartialFit lib num self main apps = .ok st) :
    st.individual.map Prod.fst = (withReadings apps).map Prod.fst ∧
    List.Forall₂ (fun a (e : String × Hmm γ) => ∃ n h, lib.fit n (appReadings a) = .ok h ∧ (0 < num → (n : Int) = num) ∧
      (num ≤ 0 → lib.cluster (if 12 < apps.length then 2 else 3) (appReadings a) = .ok n) ∧
      e.2.means.Perm h.means ∧ e.2.means.Pairwise (· ≤ ·)) (withReadings apps) st.individual := by
  have ht := fhmm_trained hnd h
  constructor
  · clear h
    generalize withReadings apps = w at ht
    generalize st.individual = ind at ht
    induction ht with
    | nil => rfl
    | cons ha _ ih => rw [List.map_cons, List.map_cons, ih, ha.1]
  · refine ht.imp ?_
    rintro a e ⟨_, n, h, h1, h2, h3⟩
    obtain ⟨g1, g2, g3, g4, g5⟩ := hfit _ _ _ h2
    obtain ⟨h', σ, k1, k2, k3, _⟩ := C46_consistent h g2 g3 g4 g5
    rw [h3] at k1
    cases k1
    refine ⟨n, h, h2, ?_, ?_, k3, k2⟩
    · intro hn
      rw [numTotalStates, if_pos hn] at h1
      cases h1
      omega
    · intro hn
      rw [numTotalStates, if_neg (by omega)] at h1
      exact h1

theorem fhmm_shapes {γ : Type} {lib : HmmLib γ} (hfit : lib.FitGood) {num : Int} {self st : Fhmm γ}
    {main : List (List (Option Rat))} {apps : List (String × List (List (Option Rat)))} (hnd : (apps.map Prod.fst).Nodup)
    (h : fhmmPartialFit lib num self main apps = .ok st) : ∀ e ∈ st.individual, GoodHmm e.2 ∧ e.2.means.Pairwise (· ≤ ·) := by
  have ht := fhmm_trained hnd h
  intro e he
  obtain ⟨a, _, _, n, h, _, h2, h3⟩ := fhmm_mem_right ht he
  obtain ⟨g1, g2, g3, g4, g5⟩ := hfit _ _ _ h2
  obtain ⟨h', σ, k1, k2, k3, k4, k5, k6, k7, _⟩ := C46_consistent h g2 g3 g4 g5
  rw [h3] at k1
  cases k1
  have hl := k3.length_eq
  refine ⟨⟨?_, ?_, ?_, ?_, ?_⟩, k2⟩
  · intro h0
    rw [h0] at hl
    exact g1 (List.length_eq_zero_iff.1 hl.symm)
  all_goals rw [hl]
  · exact k4
  · exact k5
  · exact k6
  · exact k7

theorem createCombined_ok {γ : Type} {d : List (String × Hmm γ)} {c : Combined} (h : createCombined d = .ok c) :
    d ≠ [] ∧ computePi (d.map (fun e => e.2.startprob)) = .ok c.start ∧
      computeA (d.map (fun e => e.2.transmat)) = .ok c.trans ∧ c.means = computeMeans (d.map (fun e => e.2.means)) := by
  unfold createCombined at h
  split at h
  · cases h
  rename_i pi hpi
  split at h
  · cases h
  rename_i a ha
  cases h
  refine ⟨?_, hpi, ha, rfl⟩
  rintro rfl
  cases hpi

/-- C87. The combined model is that of independent appliances: a state for every combination of states, whose mean is the
sum of the means, and start and transition probabilities that are the products of those of the appliances. -/
theorem C87_combined {γ : Type} (lib : HmmLib γ) (hfit : lib.FitGood) (num : Int) (self st : Fhmm γ)
    (main : List (List (Option Rat))) (apps : List (String × List (List (Option Rat)))) (hnd : (apps.map Prod.fst).Nodup)
    (h : fhmmPartialFit lib num self main apps = .ok st) :
    ∃ c, st.model = some c ∧ c.means.length = (st.individual.map (fun e => e.2.means.length)).prod ∧
      ∀ ds, IsTuple (st.individual.map (fun e => e.2.means.length)) ds →
        ∃ s, s = encodeTuple (st.individual.map (fun e => e.2.means.length)) ds ∧ s < c.means.length ∧
          c.means[s]? = some (pick (st.individual.map (fun e => e.2.means)) ds 0).sum ∧
          c.start[s]? = some (pick (st.individual.map (fun e => e.2.startprob)) ds 0).prod ∧
          ∀ ds', IsTuple (st.individual.map (fun e => e.2.means.length)) ds' →
            matGet c.trans s (encodeTuple (st.individual.map (fun e => e.2.means.length)) ds') =
              some (pickMat (st.individual.map (fun e => e.2.transmat)) ds ds').prod := by
  obtain ⟨_, c, _, _, hc, hm, _⟩ := fhmmPartialFit_ok h
  have hg := fhmm_shapes hfit hnd h
  obtain ⟨hne, h1, h2, h3⟩ := createCombined_ok hc
  have e1 : (st.individual.map (fun e => e.2.means)).map List.length = st.individual.map (fun e => e.2.means.length) := by
    rw [List.map_map]; rfl
  have e2 : (st.individual.map (fun e => e.2.startprob)).map List.length = st.individual.map (fun e => e.2.means.length) := by
    rw [List.map_map]
    exact List.map_congr_left (fun e he => (hg e he).1.2.1)
  have e3 : (st.individual.map (fun e => e.2.transmat)).map List.length = st.individual.map (fun e => e.2.means.length) := by
    rw [List.map_map]
    exact List.map_congr_left (fun e he => (hg e he).1.2.2.2.1)
  have hpos : ∀ n ∈ st.individual.map (fun e => e.2.means.length), 0 < n := by
    intro n hn
    obtain ⟨e, he, rfl⟩ := List.mem_map.1 hn
    exact List.length_pos_of_ne_nil (hg e he).1.1
  have nonnil : ∀ {α : Type} (f : Hmm γ → List α), (∀ e ∈ st.individual, (f e.2).length = e.2.means.length) →
      ∀ p ∈ st.individual.map (fun e => f e.2), p ≠ [] := by
    intro α f hf p hp
    obtain ⟨e, he, rfl⟩ := List.mem_map.1 hp
    intro h0
    have := hf e he
    rw [h0] at this
    exact (hg e he).1.1 (List.length_eq_zero_iff.1 this.symm)
  obtain ⟨m1, m2⟩ := C44_means (st.individual.map (fun e => e.2.means)) (nonnil (fun h => h.means) (fun e _ => rfl))
  obtain ⟨r, r1, r2, r3⟩ := C44_start (st.individual.map (fun e => e.2.startprob)) (by simpa using hne)
    (nonnil (fun h => h.startprob) (fun e he => (hg e he).1.2.1))
  obtain ⟨A, a1, a2, a3⟩ := C44_transitions (st.individual.map (fun e => e.2.transmat)) (by simpa using hne)
    (nonnil (fun h => h.transmat) (fun e he => (hg e he).1.2.2.2.1)) (by
      intro a ha r hr
      obtain ⟨e, he, rfl⟩ := List.mem_map.1 ha
      rw [(hg e he).1.2.2.2.2 r hr, (hg e he).1.2.2.2.1])
  rw [h1] at r1
  cases r1
  rw [h2] at a1
  cases a1
  rw [e1] at m1 m2
  rw [e2] at r3
  rw [e3] at a3
  rw [← h3] at m1 m2
  refine ⟨c, hm, m1, ?_⟩
  intro ds hds
  obtain ⟨k1, k2⟩ := C44_encode _ hpos ds hds
  refine ⟨_, rfl, by rw [m1]; exact k1, ?_, ?_, ?_⟩
  · rw [m2 _ k1, k2]
  · rw [r3 _ k1, k2]
  · intro ds' hds'
    obtain ⟨k3, k4⟩ := C44_encode _ hpos ds' hds'
    rw [a3 _ _ k1 k3, k2, k4]

/-- C87. When the trained models are proper and the means of every appliance are distinct, the combined start probabilities
and every row of combined transition probabilities are distributions. Missing: equal means, see `C46_ties_counterexample`. -/
theorem C87_distributions_partial {γ : Type} (lib : HmmLib γ) (hfit : lib.FitGood) (num : Int) (self st : Fhmm γ)
    (main : List (List (Option Rat))) (apps : List (String × List (List (Option Rat)))) (hnd : (apps.map Prod.fst).Nodup)
    (h : fhmmPartialFit lib num self main apps = .ok st)
    (hd : ∀ n X h, lib.fit n X = .ok h → IsDistribution h.startprob ∧ (∀ r ∈ h.transmat, IsDistribution r) ∧ h.means.Nodup) :
    ∃ c, st.model = some c ∧ IsDistribution c.start ∧ ∀ r ∈ c.trans, IsDistribution r := by
  obtain ⟨_, c, _, _, hc, hm, _⟩ := fhmmPartialFit_ok h
  obtain ⟨hne, h1, h2, _⟩ := createCombined_ok hc
  have hdist : ∀ e ∈ st.individual, IsDistribution e.2.startprob ∧ ∀ r ∈ e.2.transmat, IsDistribution r := by
    intro e he
    obtain ⟨a, _, _, n, h, _, g2, g3⟩ := fhmm_mem_right (fhmm_trained hnd h) he
    obtain ⟨d1, d2, d3⟩ := hd _ _ _ g2
    obtain ⟨f1, f2, f3, f4, f5⟩ := hfit _ _ _ g2
    obtain ⟨h', σ, k1, _, _, k4, _, k6, k7, k8, k9⟩ := C46_consistent h f2 f3 f4 f5
    rw [g3] at k1
    cases k1
    have hinj := k9 d3
    have p1 := perm_of_positions h.startprob e.2.startprob _ f2 k4 σ (fun i hi => ⟨(k8 i hi).1, (k8 i hi).2.2.1⟩) hinj
    refine ⟨⟨fun x hx => d1.1 x (p1.mem_iff.1 hx), by rw [p1.sum_eq]; exact d1.2⟩, ?_⟩
    intro r hr
    obtain ⟨i, hi, rfl⟩ := List.getElem_of_mem hr
    have hin : i < h.means.length := by omega
    obtain ⟨s1, _, _, _, s5⟩ := k8 i hin
    have hσ : σ i < h.transmat.length := by omega
    have hp := perm_of_positions (h.transmat[σ i]) (e.2.transmat[i]) h.means.length (f5 _ (List.getElem_mem hσ)) (k7 _ hr) σ (by
      intro j hj
      refine ⟨(k8 j hj).1, ?_⟩
      have := s5 j hj
      unfold matGet at this
      rw [List.getElem?_eq_getElem hi, List.getElem?_eq_getElem hσ] at this
      simpa using this) hinj
    obtain ⟨q1, q2⟩ := d2 _ (List.getElem_mem hσ)
    exact ⟨fun x hx => q1 x (hp.mem_iff.1 hx), by rw [hp.sum_eq]; exact q2⟩
  obtain ⟨r, r1, r2⟩ := C45_start (st.individual.map (fun e => e.2.startprob)) (by simpa using hne) (by
    intro p hp
    obtain ⟨e, he, rfl⟩ := List.mem_map.1 hp
    exact (hdist e he).1)
  obtain ⟨A, a1, a2⟩ := C45_transitions (st.individual.map (fun e => e.2.transmat)) (by simpa using hne) (by
    intro p hp
    obtain ⟨e, he, rfl⟩ := List.mem_map.1 hp
    exact (hdist e he).2)
  rw [h1] at r1
  cases r1
  rw [h2] at a1
  cases a1
  exact ⟨c, hm, r2, a2⟩

/-! ### Prediction -/

theorem sum_round_near (l : List Rat) :
    |(((l.map roundEven).sum : Int) : Rat) - l.sum| ≤ (l.length : Rat) / 2 := by
  induction l with
  | nil => simp
  | cons x l ih =>
    have h1 := roundEven_near x
    rw [List.map_cons, List.sum_cons, List.sum_cons, List.length_cons]
    push_cast
    rw [abs_le] at h1 ih ⊢
    constructor <;> linarith [h1.1, h1.2, ih.1, ih.2]

/-- C87. After training, the prediction for a chunk of the mains has a column for every appliance with a trained model and a row for
every reading. In the row of a reading every appliance is in one of its states: the values are the rounded means of the states
that make up the combined state predicted for that reading, and add up to its mean up to one half per appliance. -/
theorem C87_prediction {γ : Type} (lib : HmmLib γ) (hfit : lib.FitGood) (hpred : lib.PredictGood) (num : Int) (self st : Fhmm γ)
    (main : List (List (Option Rat))) (apps : List (String × List (List (Option Rat)))) (hnd : (apps.map Prod.fst).Nodup)
    (h : fhmmPartialFit lib num self main apps = .ok st) (chunk : List (Int × Option Rat)) (hne : chunk ≠ []) (f : FhmmFrame)
    (hf : fhmmChunk lib st chunk = .ok f) :
    f.columns.map Prod.fst = (withReadings apps).map Prod.fst ∧ (∀ col ∈ f.columns, col.2.length = chunk.length) ∧
    f.index.length = chunk.length ∧
    ∃ c states, st.model = some c ∧ lib.predict c (chunk.map Prod.snd) = .ok states ∧
      ∀ (i : Nat) s, states[i]? = some s → ∃ ds vals, IsTuple (st.individual.map (fun e => e.2.means.length)) ds ∧
        encodeTuple (st.individual.map (fun e => e.2.means.length)) ds = s ∧ f.row i = vals.map some ∧
        vals = (pick (st.individual.map (fun e => e.2.means)) ds 0).map roundEven ∧
        ∃ mean, c.means[s]? = some mean ∧ |((vals.sum : Int) : Rat) - mean| ≤ (vals.length : Rat) / 2 := by
  obtain ⟨c, hc, hl, hcomb⟩ := C87_combined lib hfit num self st main apps hnd h
  have hg := fhmm_shapes hfit hnd h
  have hnames := (C87_trained lib hfit num self st main apps hnd h).1
  unfold fhmmChunk at hf
  rw [if_neg hne, hc] at hf
  simp only at hf
  split at hf
  · cases hf
  rename_i states hs
  cases hf
  have hcm : c.means ≠ [] := by
    have := prod_pos (st.individual.map (fun e => e.2.means.length)) (by
      intro n hn
      obtain ⟨e, he, rfl⟩ := List.mem_map.1 hn
      exact List.length_pos_of_ne_nil (hg e he).1.1)
    rw [← hl] at this
    exact List.ne_nil_of_length_pos this
  obtain ⟨p1, p2⟩ := hpred _ _ _ hcm hs
  rw [List.length_map] at p1
  refine ⟨?_, ?_, by simp [p1], c, states, hc, hs, ?_⟩
  · rw [← hnames, List.map_map]
    apply List.ext_getElem
    · simp
    · intro i h1 h2; simp
  · intro col hcol
    obtain ⟨e, _, rfl⟩ := List.mem_map.1 hcol
    simp [p1]
  · intro i s hi
    have hslt : s < c.means.length := p2 s (List.mem_of_getElem? hi)
    have e1 : (st.individual.map (fun e => e.2.means)).map List.length = st.individual.map (fun e => e.2.means.length) := by
      rw [List.map_map]; rfl
    have hpos : ∀ n ∈ st.individual.map (fun e => e.2.means.length), 0 < n := by
      intro n hn
      obtain ⟨e, he, rfl⟩ := List.mem_map.1 hn
      exact List.length_pos_of_ne_nil (hg e he).1.1
    obtain ⟨d1, d2⟩ := C44_decode _ hpos s (by rw [← hl]; exact hslt)
    have hpow := C44_power (st.individual.map (fun e => e.2.means)) (by
        intro m hm
        obtain ⟨e, he, rfl⟩ := List.mem_map.1 hm
        exact (hg e he).2) s (by
        intro m hm
        obtain ⟨e, he, rfl⟩ := List.mem_map.1 hm
        exact (hg e he).1.1) (by rw [e1, ← hl]; exact hslt)
    rw [e1] at hpow
    have hcent : (st.individual.map (fun e => e.2.means)).map roundedCentroids =
        st.individual.map (fun e => roundedCentroids e.2.means) := by rw [List.map_map]; rfl
    rw [hcent] at hpow
    obtain ⟨s', rfl', hs'lt, hmean, _, _⟩ := hcomb _ d1
    rw [d2] at rfl'
    rw [rfl'] at hmean
    clear rfl'
    refine ⟨_, _, d1, d2, ?_, rfl, _, hmean, ?_⟩
    · have hlen : (decodePower (st.individual.map (fun e => roundedCentroids e.2.means)) s).length = st.individual.length := by
        rw [hpow, List.length_map, pick, List.length_zipWith, ← d1.length_eq]
        simp
      rw [← hpow]
      unfold FhmmFrame.row
      apply List.ext_getElem
      · simp [hlen]
      · intro j h1 h2
        have hj : j < (decodePower (st.individual.map (fun e => roundedCentroids e.2.means)) s).length := by simpa using h2
        simp [hi, hj]
    · rw [List.length_map]
      exact sum_round_near _

/-- C87. What is returned for several chunks is what is returned for each of them: no state is carried over. -/
theorem C87_chunks {γ : Type} (lib : HmmLib γ) (st : Fhmm γ) (chunks : List (List (Int × Option Rat))) (fs : List FhmmFrame) :
    fhmmDisaggregate lib st chunks = .ok fs ↔ List.Forall₂ (fun c f => fhmmDisaggregate lib st [c] = .ok [f]) chunks fs := by
  have key : ∀ c f, fhmmDisaggregate lib st [c] = .ok [f] ↔ fhmmChunk lib st c = .ok f := by
    intro c f
    simp only [fhmmDisaggregate, mapE]
    cases fhmmChunk lib st c <;> simp
  unfold fhmmDisaggregate at *
  rw [mapE_ok]
  constructor
  · intro h; exact h.imp (fun c f hcf => (key c f).2 hcf)
  · intro h; exact h.imp (fun c f hcf => (key c f).1 hcf)

/-! ### Training again, and errors -/

/-- C87. Training replaces the model: what is predicted for non-empty chunks after training on other data and then on these
data is what is predicted after training on these data only. -/
theorem C87_training_replaces {γ : Type} (lib : HmmLib γ) (num : Int) (self self' st st' : Fhmm γ)
    (main : List (List (Option Rat))) (apps : List (String × List (List (Option Rat))))
    (h : fhmmPartialFit lib num self main apps = .ok st) (h' : fhmmPartialFit lib num self' main apps = .ok st')
    (chunks : List (List (Int × Option Rat))) (hne : ∀ c ∈ chunks, c ≠ []) :
    fhmmDisaggregate lib st chunks = fhmmDisaggregate lib st' chunks := by
  obtain ⟨l1, c1, a1, a2, a3, a4, _⟩ := fhmmPartialFit_ok h
  obtain ⟨l2, c2, b1, b2, b3, b4, _⟩ := fhmmPartialFit_ok h'
  rw [a1] at b1
  cases b1
  have hind : st.individual = st'.individual := by
    have x := mapE_ok.2 a2
    have y := mapE_ok.2 b2
    rw [x] at y
    exact Except.ok.inj y
  have hmod : st.model = st'.model := by
    rw [hind, b3] at a3
    cases a3
    rw [a4, b4]
  induction chunks with
  | nil => rfl
  | cons c chunks ih =>
    have ih := ih (fun x hx => hne x (List.mem_cons_of_mem _ hx))
    have : fhmmChunk lib st c = fhmmChunk lib st' c := by
      unfold fhmmChunk
      rw [if_neg (hne c List.mem_cons_self), if_neg (hne c List.mem_cons_self), hmod, hind]
    unfold fhmmDisaggregate at *
    simp only [mapE, this, ih]

/-- C87. `partial_fit` returns when there are data for the mains and for every appliance, the libraries succeed and some
appliance has a reading; without any reading it raises `IndexError`. -/
theorem C87_training_returns {γ : Type} (lib : HmmLib γ) (hfit : lib.FitGood) (num : Int) (self : Fhmm γ)
    (main : List (List (Option Rat))) (apps : List (String × List (List (Option Rat)))) (hnd : (apps.map Prod.fst).Nodup)
    (hmain : main ≠ []) (happs : ∀ a ∈ apps, a.2 ≠ []) (hf : ∀ n X, ∃ h, lib.fit n X = .ok h)
    (hc : ∀ n X, ∃ h, lib.cluster n X = .ok h) :
    ((∃ a ∈ apps, appReadings a ≠ []) → ∃ st, fhmmPartialFit lib num self main apps = .ok st) ∧
    ((∀ a ∈ apps, appReadings a = []) → fhmmPartialFit lib num self main apps = .error .indexError) := by
  obtain ⟨train, htrain⟩ := mapE_total (f := fun a : String × List (List (Option Rat)) =>
    (fhmmConcat a.2).map (fun xs => (a.1, xs))) (l := apps) (by
      intro a ha
      exact ⟨(a.1, a.2.flatten), by simp [fhmmConcat, happs a ha, Except.map]⟩)
  have ht := fhmmTrain_eq htrain
  obtain ⟨learnt, hl⟩ := fhmmTrainLoop_total lib num (fhmmMaxClusters train.length) train hf hc []
  have hl' := hl
  rw [ht] at hl'
  obtain ⟨t, hlt, hall⟩ := fhmmTrainLoop_ok lib num _ _ _ _ hl' (by simpa [Function.comp_def] using hnd)
  rw [List.nil_append] at hlt
  subst hlt
  rw [withReadings_map, List.forall₂_map_left_iff] at hall
  obtain ⟨ind, hind⟩ := mapE_total (f := sortEntry) (l := learnt) (by
    intro e he
    obtain ⟨a, _, _, n, _, g2⟩ := fhmm_mem_right hall he
    obtain ⟨f1, f2, f3, f4, f5⟩ := hfit _ _ _ g2
    obtain ⟨h', σ, k1, _⟩ := C46_consistent e.2 f2 f3 f4 f5
    exact ⟨(e.1, h'), by simp [sortEntry, k1]⟩)
  have hlen : ind.length = (withReadings apps).length := by
    rw [hall.length_eq]
    exact (mapE_ok.1 hind).length_eq.symm
  constructor
  · rintro ⟨a, ha, hr⟩
    have hne : ind ≠ [] := by
      rintro rfl
      have h0 : withReadings apps = [] := List.length_eq_zero_iff.1 hlen.symm
      have hm : a ∈ withReadings apps := List.mem_filter.2 ⟨ha, by simpa using hr⟩
      rw [h0] at hm
      simp at hm
    have h1 := computePi_eq (ind.map (fun e => e.2.startprob)) (by simpa using hne)
    have h2 := computeA_eq (ind.map (fun e => e.2.transmat)) (by simpa using hne)
    exact ⟨_, by simp only [fhmmPartialFit, fhmmConcat, hmain, if_false]; simp only [fhmmConcat] at htrain; rw [htrain]; simp only [hl, hind, createCombined, h1, h2]; rfl⟩
  · intro hno
    have h0 : withReadings apps = [] := by
      apply List.filter_eq_nil_iff.2
      intro a ha
      simp [hno a ha]
    rw [h0] at hlen
    have hi : ind = [] := List.length_eq_zero_iff.1 hlen
    subst hi
    unfold fhmmPartialFit
    rw [htrain]
    simp only [fhmmConcat, hmain, if_false, hl, hind]
    rfl

/-- C87. Before training, disaggregating a chunk with readings raises `AttributeError`. -/
theorem C87_untrained {γ : Type} (lib : HmmLib γ) (names : List String) (chunk : List (Int × Option Rat)) (h : chunk ≠ []) :
    fhmmDisaggregate lib (⟨names, [], none⟩ : Fhmm γ) [chunk] = .error .attributeError := by
  simp [fhmmDisaggregate, mapE, fhmmChunk, h]

/-! ### Counterexamples -/

/-- Libraries for the examples: a model with two states, 0 and the largest reading; always in state 0. -/
def toyLib : HmmLib Unit where
  fit _ X := .ok ⟨[1, 0], [0, X.foldl max 1], [(), ()], [[1, 0], [1, 0]]⟩
  cluster _ _ := .ok 2
  predict _ X := .ok (X.map (fun _ => 0))

/-- C87, counterexample. An appliance without readings has a column for an empty chunk, but none for the others. -/
theorem C87_columns_counterexample :
    ∃ (apps : List (String × List (List (Option Rat)))) (st : Fhmm Unit) (f g : FhmmFrame),
      fhmmPartialFit toyLib 2 ⟨[], [], none⟩ [[some 5]] apps = .ok st ∧
      fhmmDisaggregate toyLib st [[], [(0, some 5)]] = .ok [f, g] ∧
      "kettle" ∈ apps.map Prod.fst ∧ "kettle" ∈ f.columns.map Prod.fst ∧ "kettle" ∉ g.columns.map Prod.fst := by
  refine ⟨[("fridge", [[some 5]]), ("kettle", [[none]])], _, ⟨[], [("fridge", []), ("kettle", [])]⟩, ⟨[0], [("fridge", [0])]⟩, rfl, ?_, ?_⟩
  · decide +kernel
  · decide

/-- C87, counterexample. Training twice repeats the columns for an empty chunk. -/
theorem C87_names_counterexample :
    ∃ (st st' : Fhmm Unit) (f : FhmmFrame),
      fhmmPartialFit toyLib 2 ⟨[], [], none⟩ [[some 5]] [("fridge", [[some 5]])] = .ok st ∧
      fhmmPartialFit toyLib 2 st [[some 5]] [("fridge", [[some 5]])] = .ok st' ∧
      fhmmDisaggregate toyLib st' [[]] = .ok [f] ∧ ¬ (f.columns.map Prod.fst).Nodup := by
  refine ⟨_, _, ⟨[], [("fridge", []), ("fridge", [])]⟩, rfl, rfl, ?_, ?_⟩
  · decide +kernel
  · decide

/-- C87, counterexample. The rows of the prediction are not labelled with the times of the chunk. -/
theorem C87_index_counterexample :
    ∃ (st : Fhmm Unit) (chunk : List (Int × Option Rat)) (f : FhmmFrame),
      fhmmPartialFit toyLib 2 ⟨[], [], none⟩ [[some 5]] [("fridge", [[some 5]])] = .ok st ∧
      fhmmDisaggregate toyLib st [chunk] = .ok [f] ∧ f.index ≠ chunk.map Prod.fst := by
  refine ⟨_, [(60, some 5), (120, some 0)], ⟨[0, 1], [("fridge", [0, 0])]⟩, rfl, ?_, ?_⟩
  · decide +kernel
  · decide

/-! ### Examples -/

example : toyLib.FitGood ∧ toyLib.PredictGood := by
  constructor
  · intro n X h hh
    cases hh
    exact ⟨by simp, rfl, rfl, rfl, by simp⟩
  · intro c X ss hc hh
    cases hh
    refine ⟨by simp, ?_⟩
    intro s hs
    obtain ⟨x, _, rfl⟩ := List.mem_map.1 hs
    exact List.length_pos_of_ne_nil hc

example : (fhmmPartialFit toyLib 2 ⟨[], [], none⟩ [[some 7], [some 9]]
      [("fridge", [[some 2, none], [some 4]]), ("kettle", [[some 5], [some (13 / 2)]])]).bind (fun st =>
        fhmmDisaggregate { toyLib with predict := fun _ X => .ok (X.map (fun x => if x = some 7 then 3 else 1)) } st
          [[(0, some 7), (60, some 9)]]) = .ok [⟨[0, 1], [("fridge", [4, 0]), ("kettle", [6, 6])]⟩] := by
  decide +kernel

end Nilmtk
