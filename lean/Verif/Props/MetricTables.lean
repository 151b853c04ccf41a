import Verif.Model.MetricTables
import Verif.Props.Group
import Verif.Props.DataSet
import Verif.Props.DataportCsv
import Verif.Props.Metrics
import Mathlib.Data.List.Sort
/-!
C105: the tables of the metrics.
-/
namespace Nilmtk

/-- A table of a metric: one entry for each submeter of the predictions, in their order, which is the value for it and a counterpart of it
in the ground truth. -/
def MetricTableIs {κ ν : Type} (inst : Meter → κ) (metric : Meter → Meter → Except Err ν) (pred truth : List Meter) (dataset : String)
    (d : List (κ × ν)) : Prop :=
  List.Forall₂ (fun m e => e.1 = inst m ∧ ∃ s ∈ truth, Counterpart dataset m s ∧ metric m s = .ok e.2) (submeters pred) d

theorem forall₂_imp_left {α β : Type} {R S : α → β → Prop} {l : List α} {m : List β} (h : List.Forall₂ R l m)
    (f : ∀ a ∈ l, ∀ b, R a b → S a b) : List.Forall₂ S l m := by
  induction h with
  | nil => exact .nil
  | cons hab _ ih => exact .cons (f _ (by simp) _ hab) (ih (fun a ha => f a (List.mem_cons_of_mem _ ha)))

theorem meterMetricLoop_ok {κ ν : Type} [DecidableEq κ] (inst : Meter → κ) (metric : Meter → Meter → Except Err ν) :
    ∀ (ps : List (Meter × Meter)) (d r : List (κ × ν)), (d.map Prod.fst ++ ps.map (fun p => inst p.1)).Nodup →
      meterMetricLoop inst metric d ps = .ok r →
      ∃ new, r = d ++ new ∧ List.Forall₂ (fun p e => e.1 = inst p.1 ∧ metric p.1 p.2 = .ok e.2) ps new := by
  intro ps
  induction ps with
  | nil =>
    intro d r _ h
    simp only [meterMetricLoop, Except.ok.injEq] at h
    exact ⟨[], by simp [h], .nil⟩
  | cons p ps ih =>
    obtain ⟨p, g⟩ := p
    intro d r hn h
    unfold meterMetricLoop at h
    cases hm : metric p g with
    | error e => rw [hm] at h; cases h
    | ok v =>
      rw [hm] at h
      simp only at h
      have hnew : inst p ∉ d.map Prod.fst := by
        rw [List.nodup_append] at hn
        intro hh
        exact hn.2.2 _ hh (inst p) (by simp) rfl
      rw [orderedSet_new d (inst p) v hnew] at h
      obtain ⟨new, h1, h2⟩ := ih _ r (by rw [List.map_append]; simpa using hn) h
      exact ⟨(inst p, v) :: new, by simp [h1], .cons ⟨rfl, hm⟩ h2⟩

/-- The loop stops at the first pair whose metric raises, with its error. -/
theorem meterMetricLoop_error {κ ν : Type} [DecidableEq κ] (inst : Meter → κ) (metric : Meter → Meter → Except Err ν) :
    ∀ (ps : List (Meter × Meter)) (d : List (κ × ν)),
      (∀ e, meterMetricLoop inst metric d ps = .error e → ∃ p ∈ ps, metric p.1 p.2 = .error e) ∧
      ((∃ p ∈ ps, ∃ e, metric p.1 p.2 = .error e) → ∃ e, meterMetricLoop inst metric d ps = .error e) := by
  intro ps
  induction ps with
  | nil => intro d; simp [meterMetricLoop]
  | cons p ps ih =>
    obtain ⟨p, g⟩ := p
    intro d
    unfold meterMetricLoop
    cases hm : metric p g with
    | error x =>
      refine ⟨?_, fun _ => ⟨x, rfl⟩⟩
      intro e he
      simp only [Except.error.injEq] at he
      exact ⟨(p, g), by simp, by rw [hm, he]⟩
    | ok v =>
      simp only
      obtain ⟨i1, i2⟩ := ih (orderedSet d (inst p) v)
      refine ⟨fun e he => ?_, ?_⟩
      · obtain ⟨q, hq, hqe⟩ := i1 e he
        exact ⟨q, List.mem_cons_of_mem _ hq, hqe⟩
      · rintro ⟨q, hq, e, hqe⟩
        rcases List.mem_cons.1 hq with rfl | hq
        · rw [hm] at hqe; cases hqe
        · exact i2 ⟨q, hq, e, hqe⟩

/-- C105. When a metric returns and no two submeters of the predictions have the same instance, its table has exactly one entry per submeter
of the predictions, in order, each the value for that meter and its counterpart.
Missing: submeters that share an instance (see `C105_buildings_counterexample`). -/
theorem C105_table_partial {κ ν : Type} [DecidableEq κ] (inst : Meter → κ) (metric : Meter → Meter → Except Err ν) (pred truth : List Meter)
    (dataset : String) (hn : ((submeters pred).map inst).Nodup) (d : List (κ × ν))
    (h : meterMetrics inst metric pred truth dataset = some (.ok d)) : MetricTableIs inst metric pred truth dataset d := by
  unfold meterMetrics at h
  cases hp : pairSubmeters pred truth dataset with
  | none => rw [hp] at h; cases h
  | some r =>
    rw [hp] at h
    cases r with
    | error e => cases h
    | ok ps =>
      simp only [Option.some.injEq] at h
      obtain ⟨h1, h2⟩ := C64_pairs pred truth dataset ps hp
      obtain ⟨new, hd, hf⟩ := meterMetricLoop_ok inst metric ps [] d (by
        rw [← h1, List.map_map] at hn
        simpa [Function.comp_def] using hn) h
      rw [List.nil_append] at hd
      subst hd
      unfold MetricTableIs
      rw [← h1, List.forall₂_map_left_iff]
      refine forall₂_imp_left hf ?_
      intro p hpm e hpe
      exact ⟨hpe.1, p.2, (h2 p hpm).1, (h2 p hpm).2, hpe.2⟩

/-- C105. For plain numbered submeters with counterparts, a metric raises exactly if it raises for one of the pairs; with a missing
counterpart it is a `KeyError`. -/
theorem C105_raises {κ ν : Type} [DecidableEq κ] (inst : Meter → κ) (metric : Meter → Meter → Except Err ν) (pred truth : List Meter)
    (dataset : String) (hnum : ∀ m ∈ submeters pred, ∃ e i, m = .elec e ∧ e.id.inst = .one i ∧ i ≠ 0) :
    ((∃ m ∈ submeters pred, ∀ s ∈ truth, ¬ Counterpart dataset m s) → meterMetrics inst metric pred truth dataset = some (.error .keyError)) ∧
    ((∀ m ∈ submeters pred, ∃ s ∈ truth, Counterpart dataset m s) →
      (∀ m ∈ submeters pred, ∀ s ∈ truth, Counterpart dataset m s → ∃ v, metric m s = .ok v) →
      ∃ d, meterMetrics inst metric pred truth dataset = some (.ok d)) ∧
    ((∀ m ∈ submeters pred, ∃ s ∈ truth, Counterpart dataset m s) →
      (∃ m ∈ submeters pred, ∀ s ∈ truth, Counterpart dataset m s → ∃ e, metric m s = .error e) →
      ∃ e, meterMetrics inst metric pred truth dataset = some (.error e)) := by
  obtain ⟨hk, hok⟩ := C64_missing pred truth dataset hnum
  unfold meterMetrics
  refine ⟨?_, ?_, ?_⟩
  · intro h
    rw [hk.2 h]
  · intro h hm
    obtain ⟨ps, hps⟩ := hok h
    obtain ⟨h1, h2⟩ := C64_pairs pred truth dataset ps hps
    rw [hps]
    simp only
    cases hl : meterMetricLoop inst metric [] ps with
    | ok d => exact ⟨d, rfl⟩
    | error e =>
      obtain ⟨p, hp, hpe⟩ := (meterMetricLoop_error inst metric ps []).1 e hl
      obtain ⟨v, hv⟩ := hm p.1 (h1 ▸ List.mem_map_of_mem hp) p.2 (h2 p hp).1 (h2 p hp).2
      rw [hv] at hpe
      cases hpe
  · rintro h ⟨m, hm, hme⟩
    obtain ⟨ps, hps⟩ := hok h
    obtain ⟨h1, h2⟩ := C64_pairs pred truth dataset ps hps
    rw [hps]
    simp only
    rw [← h1] at hm
    obtain ⟨p, hp, rfl⟩ := List.mem_map.1 hm
    obtain ⟨e, he⟩ := hme p.2 (h2 p hp).1 (h2 p hp).2
    obtain ⟨e', he'⟩ := (meterMetricLoop_error inst metric ps []).2 ⟨p, hp, e, he⟩
    exact ⟨e', by rw [he']⟩

/-! ### The error in assigned energy -/

/-- The error in the energy of one AC type. -/
def EnergyErrorIs (t p e : EnergySeries) : Prop :=
  (∀ k, k ∈ e.map Prod.fst ↔ k ∈ t.map Prod.fst ∨ k ∈ p.map Prod.fst) ∧ (e.map Prod.fst).Nodup ∧
  ∀ k v, (k, v) ∈ e →
    (∀ a b, (k, some a) ∈ t → (k, some b) ∈ p → v = some |a - b|) ∧
    ((¬ ∃ a, (k, some a) ∈ t) ∨ (¬ ∃ b, (k, some b) ∈ p) → v = none)

theorem subIndex_mem (a b : EnergySeries) (k : String) : k ∈ subIndex a b ↔ k ∈ a.map Prod.fst ∨ k ∈ b.map Prod.fst := by
  unfold subIndex
  split
  · rename_i h
    rw [← h, or_self]
  · rw [(List.perm_insertionSort _ _).mem_iff, List.mem_dedup, List.mem_append]

theorem subIndex_nodup (a b : EnergySeries) (ha : (a.map Prod.fst).Nodup) : (subIndex a b).Nodup := by
  unfold subIndex
  split
  · exact ha
  · exact (List.perm_insertionSort _ _).nodup_iff.2 (List.nodup_dedup _)

theorem absSub_spec (t p : EnergySeries) (ht : (t.map Prod.fst).Nodup) (hp : (p.map Prod.fst).Nodup) : EnergyErrorIs t p (absSub t p) := by
  have hfst : (absSub t p).map Prod.fst = subIndex t p := by
    unfold absSub
    rw [List.map_map]
    exact List.map_id _
  have hnone : ∀ (s : EnergySeries) (k : String), (s.map Prod.fst).Nodup → (¬ ∃ a, (k, some a) ∈ s) → (s.lookup k).getD none = none := by
    intro s k hs hh
    cases hl : s.lookup k with
    | none => rfl
    | some o =>
      cases o with
      | none => rfl
      | some a => exact absurd ⟨a, (mem_iff_lookup hs k (some a)).2 hl⟩ hh
  refine ⟨fun k => by rw [hfst, subIndex_mem], by rw [hfst]; exact subIndex_nodup t p ht, ?_⟩
  intro k v hkv
  unfold absSub at hkv
  obtain ⟨k', _, hk⟩ := List.mem_map.1 hkv
  simp only [Prod.mk.injEq] at hk
  obtain ⟨rfl, rfl⟩ := hk
  constructor
  · intro a b ha hb
    rw [(mem_iff_lookup ht k' (some a)).1 ha, (mem_iff_lookup hp k' (some b)).1 hb]
    rfl
  · rintro (h | h)
    · rw [hnone t k' ht h]
      rfl
    · rw [hnone p k' hp h]
      cases (t.lookup k').getD none <;> rfl

/-- C105. Each entry of `error_in_assigned_energy` is, for every AC type that the prediction or the truth has, the absolute difference of
their energies over the good sections of the prediction, and NaN if one of them has no energy of that type. -/
theorem C105_energy_partial {κ σ : Type} [DecidableEq κ] (inst : Meter → κ) (sections : Meter → Except Err σ)
    (energy : Meter → σ → Except Err EnergySeries) (pred truth : List Meter) (dataset : String)
    (hn : ((submeters pred).map inst).Nodup) (hser : ∀ m s e, energy m s = .ok e → (e.map Prod.fst).Nodup) (d : List (κ × EnergySeries))
    (h : errorInAssignedEnergy inst sections energy pred truth dataset = some (.ok d)) :
    List.Forall₂ (fun m e => e.1 = inst m ∧ ∃ s ∈ truth, Counterpart dataset m s ∧
      ∃ good t p, sections m = .ok good ∧ energy s good = .ok t ∧ energy m good = .ok p ∧ EnergyErrorIs t p e.2) (submeters pred) d := by
  refine List.Forall₂.imp ?_ (C105_table_partial inst _ pred truth dataset hn d h)
  rintro m e ⟨h1, s, hs, hc, hv⟩
  refine ⟨h1, s, hs, hc, ?_⟩
  unfold assignedError at hv
  cases hg : sections m with
  | error x => rw [hg] at hv; cases hv
  | ok good =>
    rw [hg] at hv
    simp only at hv
    cases ht : energy s good with
    | error x => rw [ht] at hv; cases hv
    | ok t =>
      rw [ht] at hv
      simp only at hv
      cases hp : energy m good with
      | error x => rw [hp] at hv; cases hv
      | ok p =>
        rw [hp] at hv
        simp only [Except.ok.injEq] at hv
        refine ⟨good, t, p, rfl, ht, hp, ?_⟩
        rw [← hv]
        exact absSub_spec t p (hser _ _ _ ht) (hser _ _ _ hp)

/-- C105. With equal energies of the prediction and the truth, the errors are zero. -/
theorem C105_energy_zero {t p e : EnergySeries} (h : EnergyErrorIs t p e) (k : String) (a b : Rat) (ht : (k, some a) ∈ t)
    (hp : (k, some b) ∈ p) : ∃ v : Rat, (k, some v) ∈ e ∧ 0 ≤ v ∧ (v = 0 ↔ a = b) := by
  obtain ⟨h1, _, h3⟩ := h
  obtain ⟨⟨k', v⟩, hv, rfl⟩ := List.mem_map.1 ((h1 k).2 (Or.inl (List.mem_map_of_mem (f := Prod.fst) ht)))
  have := (h3 k' v hv).1 a b ht hp
  subst this
  exact ⟨_, hv, abs_nonneg _, by rw [abs_eq_zero, sub_eq_zero]⟩

/-! ### The metrics of power -/

theorem ofAligned_ok {ν : Type} {value : List AChunk → Except Err ν} {g : Gen AChunk} {v : ν} (h : ofAligned value g = .ok v) :
    g.err = none ∧ value g.out = .ok v := by
  unfold ofAligned at h
  cases he : g.err with
  | some e => rw [he] at h; cases h
  | none => rw [he] at h; exact ⟨rfl, h⟩

/-- C105. Each entry of `mean_normalized_error_power` is the sum of the absolute errors divided by the sum of the true power over all
chunks of the aligned meters (the formula of its documentation) when that sum is not zero. -/
theorem C105_mne_partial {κ : Type} [DecidableEq κ] (inst : Meter → κ) (aligned : Meter → Meter → Gen AChunk) (pred truth : List Meter)
    (dataset : String) (hn : ((submeters pred).map inst).Nodup) (d : List (κ × FloatVal))
    (h : mnePower inst aligned pred truth dataset = some (.ok d)) :
    List.Forall₂ (fun m e => e.1 = inst m ∧ ∃ s ∈ truth, Counterpart dataset m s ∧ (aligned m s).err = none ∧ (aligned m s).out ≠ [] ∧
      (((aligned m s).out.flatten.map rowTruth).sum ≠ 0 →
        e.2 = .fin (((aligned m s).out.flatten.map rowAbsError).sum / ((aligned m s).out.flatten.map rowTruth).sum))) (submeters pred) d := by
  refine List.Forall₂.imp ?_ (C105_table_partial inst _ pred truth dataset hn d h)
  rintro m e ⟨h1, s, hs, hc, hv⟩
  obtain ⟨h2, h3⟩ := ofAligned_ok hv
  have hv := C59_mne_value (aligned m s).out
  have hne : (aligned m s).out ≠ [] := by
    intro hh
    rw [hv.1 hh] at h3
    cases h3
  refine ⟨h1, s, hs, hc, h2, hne, fun h0 => ?_⟩
  rw [hv.2.1 hne h0] at h3
  simp only [Except.ok.injEq] at h3
  exact h3.symm

/-- C105. Each entry of `rms_error_power` is the root of the mean of the squared errors of all aligned rows with both readings. -/
theorem C105_rms_partial {κ : Type} [DecidableEq κ] (inst : Meter → κ) (aligned : Meter → Meter → Gen AChunk) (pred truth : List Meter)
    (dataset : String) (hn : ((submeters pred).map inst).Nodup) (d : List (κ × Option Real))
    (h : rmsPower inst aligned pred truth dataset = some (.ok d)) :
    List.Forall₂ (fun m e => e.1 = inst m ∧ ∃ s ∈ truth, Counterpart dataset m s ∧ (aligned m s).err = none ∧ (aligned m s).out ≠ [] ∧
      ((aligned m s).out.flatten.countP complete = 0 → e.2 = none) ∧
      ((aligned m s).out.flatten.countP complete ≠ 0 → ∃ v : Real, e.2 = some v ∧ 0 ≤ v ∧
        v * v * (aligned m s).out.flatten.countP complete = (((aligned m s).out.flatten.map rowSqError).sum : Rat))) (submeters pred) d := by
  refine List.Forall₂.imp ?_ (C105_table_partial inst _ pred truth dataset hn d h)
  rintro m e ⟨h1, s, hs, hc, hv⟩
  obtain ⟨h2, h3⟩ := ofAligned_ok hv
  have hv := C59_rms_value (aligned m s).out
  have hne : (aligned m s).out ≠ [] := by
    intro hh
    rw [hv.1 hh] at h3
    cases h3
  refine ⟨h1, s, hs, hc, h2, hne, fun h0 => ?_, fun h0 => ?_⟩
  · rw [hv.2.1 hne h0] at h3
    simp only [Except.ok.injEq] at h3
    exact h3.symm
  · obtain ⟨v, hv1, hv2, hv3⟩ := hv.2.2 h0
    rw [hv1] at h3
    simp only [Except.ok.injEq] at h3
    exact ⟨v, h3.symm, hv2, hv3⟩

/-- C105. Each entry of `f1_score` is the mean of the scores of the chunks, weighted by their numbers of rows with both states, between 0 and
1, and NaN without such rows. -/
theorem C105_f1_partial {κ : Type} [DecidableEq κ] (inst : Meter → κ) (aligned : Meter → Meter → Gen AChunk) (pred truth : List Meter)
    (dataset : String) (hn : ((submeters pred).map inst).Nodup) (d : List (κ × Option Rat))
    (h : f1Table inst aligned pred truth dataset = some (.ok d)) :
    List.Forall₂ (fun m e => e.1 = inst m ∧ ∃ s ∈ truth, Counterpart dataset m s ∧ (aligned m s).err = none ∧
      (e.2 = none ↔ ∀ c ∈ (aligned m s).out, intStates c = []) ∧
      (∀ v, e.2 = some v → 0 ≤ v ∧ v ≤ 1 ∧ v * (((aligned m s).out.map (fun c => (intStates c).length)).sum : Nat) =
        ((aligned m s).out.map (fun c => f1 (intStates c) * ((intStates c).length : Nat))).sum)) (submeters pred) d := by
  refine List.Forall₂.imp ?_ (C105_table_partial inst _ pred truth dataset hn d h)
  rintro m e ⟨h1, s, hs, hc, hv⟩
  obtain ⟨h2, h3⟩ := ofAligned_ok hv
  simp only [Except.ok.injEq] at h3
  have hv := C66_weighted_mean (aligned m s).out
  rw [h3] at hv
  exact ⟨h1, s, hs, hc, h2, hv.1, hv.2.1⟩

/-! ### Counterexamples and examples -/

/-- `instance()` of plain meters. -/
def plainInst : Meter → Inst
  | .elec e => e.id.inst
  | .group _ _ _ => .many []

/-- A submeter of a data set. -/
def tableMeter (i b : Int) (ds : String) : Meter := .elec ⟨⟨.one i, b, ds⟩, false, TF.mk' none none⟩

/-- C105. Submeters of two buildings that have the same instance share one entry, and the value of the first is lost. -/
theorem C105_buildings_counterexample :
    errorInAssignedEnergy plainInst (fun _ => (.ok () : Except Err Unit))
      (fun m _ => match m with
        | .elec e => .ok [("active", some (if e.id.dataset = "truth" ∧ e.id.building = 1 then 9 else 1))]
        | _ => .error .typeError)
      [tableMeter 2 1 "pred", tableMeter 2 2 "pred"] [tableMeter 2 1 "truth", tableMeter 2 2 "truth"] "truth" =
    some (.ok [(.one 2, [("active", some 0)])]) := by
  simp [errorInAssignedEnergy, meterMetrics, pairSubmeters, submeters, tableMeter, Meter.isSite, pairLoop, Meter.ident,
    Ident.replaceDataset, getItem, findMeter, Ident.beq, meterMetricLoop, assignedError, orderedSet, plainInst, absSub, subIndex, absDiff]

/-- C105. Energy outside the good sections of the prediction is not compared: a prediction that covers one hour in which it is right has no
error, although the truth goes on. -/
theorem C105_coverage_counterexample :
    ∃ (sections : Meter → Except Err Nat) (energy : Meter → Nat → Except Err EnergySeries) (m s : Meter),
      energy s 10 = .ok [("active", some 10)] ∧ energy m 10 = .ok [("active", some 1)] ∧
      errorInAssignedEnergy plainInst sections energy [m] [s] "truth" = some (.ok [(.one 2, [("active", some 0)])]) := by
  refine ⟨fun _ => .ok 1, fun m h => match m with
      | .elec e => .ok [("active", some (if e.id.dataset = "truth" then (h : Rat) else ((min h 1 : Nat) : Rat)))]
      | _ => .error .typeError, tableMeter 2 1 "pred", tableMeter 2 1 "truth", ?_, ?_, ?_⟩
  · simp [tableMeter]
  · simp [tableMeter]
  · simp [errorInAssignedEnergy, meterMetrics, pairSubmeters, submeters, tableMeter, Meter.isSite, pairLoop, Meter.ident,
      Ident.replaceDataset, getItem, findMeter, Ident.beq, meterMetricLoop, assignedError, orderedSet, plainInst, absSub, subIndex, absDiff]

/-- Two submeters of one building with their truth: the hypotheses of the theorems on tables hold. -/
example : ((submeters [tableMeter 2 1 "pred", tableMeter 3 1 "pred"]).map plainInst).Nodup ∧
    errorInAssignedEnergy plainInst (fun _ => (.ok () : Except Err Unit))
      (fun m _ => match m with
        | .elec e => .ok [("active", some (if e.id.dataset = "truth" then 9 else 1))]
        | _ => .error .typeError)
      [tableMeter 2 1 "pred", tableMeter 3 1 "pred"] [tableMeter 3 1 "truth", tableMeter 2 1 "truth"] "truth" =
    some (.ok [(.one 2, [("active", some 8)]), (.one 3, [("active", some 8)])]) := by
  constructor
  · simp [submeters, tableMeter, Meter.isSite, plainInst]
  · have : |(9 - 1 : Rat)| = 8 := by norm_num
    simp [errorInAssignedEnergy, meterMetrics, pairSubmeters, submeters, tableMeter, Meter.isSite, pairLoop, Meter.ident,
      Ident.replaceDataset, getItem, findMeter, Ident.beq, meterMetricLoop, assignedError, orderedSet, plainInst, absSub, subIndex, absDiff, this]

example : ∃ d, mnePower plainInst (fun _ _ => ⟨[[(0, some 5, some 4), (1, some 1, some 6)]], none⟩) [tableMeter 2 1 "pred"]
    [tableMeter 2 1 "truth"] "truth" = some (.ok d) ∧ d.length = 1 :=
  ⟨[(.one 2, .fin (6 / 10))], by
    have : mneForMeter [[(0, some 5, some 4), (1, some 1, some 6)]] = .ok (.fin (6 / 10)) := by decide +kernel
    simp [mnePower, ofAligned, meterMetrics, pairSubmeters, submeters, tableMeter, Meter.isSite, pairLoop, Meter.ident,
      Ident.replaceDataset, getItem, findMeter, Ident.beq, meterMetricLoop, orderedSet, plainInst, this], rfl⟩

/-- The same for the RMS error and the F1 score, whose tables come from `C105_raises`. -/
example : (∃ d, rmsPower plainInst (fun _ _ => ⟨[[(0, some 5, some 4)]], none⟩) [tableMeter 2 1 "pred"] [tableMeter 2 1 "truth"] "truth" =
      some (.ok d)) ∧
    ∃ d, f1Table plainInst (fun _ _ => ⟨[[(0, some 1, some 1)]], none⟩) [tableMeter 2 1 "pred"] [tableMeter 2 1 "truth"] "truth" =
      some (.ok d) := by
  have hnum : ∀ m ∈ submeters [tableMeter 2 1 "pred"], ∃ e i, m = .elec e ∧ e.id.inst = .one i ∧ i ≠ 0 := by
    intro m hm
    simp only [submeters, tableMeter, Meter.isSite, List.filter_cons, List.filter_nil] at hm
    simp only [Bool.not_false, if_true, List.mem_singleton] at hm
    exact ⟨_, 2, hm, rfl, by decide⟩
  have hc : ∀ m ∈ submeters [tableMeter 2 1 "pred"], ∃ s ∈ [tableMeter 2 1 "truth"], Counterpart "truth" m s := by
    intro m hm
    simp only [submeters, tableMeter, Meter.isSite, List.filter_cons, List.filter_nil] at hm
    simp only [Bool.not_false, if_true, List.mem_singleton] at hm
    subst hm
    exact ⟨tableMeter 2 1 "truth", by simp, _, rfl, rfl, rfl, rfl⟩
  refine ⟨(C105_raises plainInst _ _ _ "truth" hnum).2.1 hc (fun m _ s _ _ => ?_),
    (C105_raises plainInst _ _ _ "truth" hnum).2.1 hc (fun m _ s _ _ => ⟨_, rfl⟩)⟩
  obtain ⟨v, hv, _⟩ := (C59_rms_value [[(0, some 5, some 4)]]).2.2 (by decide +kernel)
  exact ⟨_, hv⟩

example : EnergyErrorIs [("active", some 3), ("reactive", some 1)] [("active", some 5)] [("active", some 2), ("reactive", none)] := by
  have := absSub_spec [("active", some 3), ("reactive", some 1)] [("active", some 5)] (by decide) (by decide)
  rwa [show absSub [("active", some 3), ("reactive", some 1)] [("active", some 5)] = [("active", some 2), ("reactive", none)] by decide +kernel] at this

end Nilmtk
