import Verif.Model.MleStore
import Verif.Props.MleDisag
import Verif.Props.LegacyDisag
/-!
C134: the data that `MLE.disaggregate` writes.
-/
namespace Nilmtk

/-! ### Specification -/

/-- `out` is a disaggregation of `rows`: it has their times, and its power is that of allowed runs that do not overlap, chosen by likelihood. -/
def MleOutput {υ : Type} (m : MleModel υ) (rows out : List MleRow) : Prop :=
  out.map Prod.fst = rows.map Prod.fst ∧
    ∃ chosen : List MleDet, (∀ d ∈ chosen, Allowed m rows d) ∧ chosen.Pairwise RunsApart ∧
      (∀ d, Allowed m rows d → d ∈ chosen ∨ ∃ k ∈ chosen, ¬ RunsApart k d ∧ d.likelihood ≤ k.likelihood) ∧
      ∀ r ∈ out, (∀ d ∈ chosen, d.Covers r.1 → r.2 = d.deltaOn) ∧ ((∀ d ∈ chosen, ¬ d.Covers r.1) → r.2 = 0)

/-- The model can be used on the chunk. -/
def RightUnits (m : MleModel (String × String)) (k : PowerChunk) : Prop := m.resistive = true ∨ k.measurement = m.units

/-- The order in which detections are tried: by likelihood, ties in any way. -/
def ByLikelihood (sort : List MleDet → List MleDet) : Prop :=
  ∀ l, (sort l).Perm l ∧ (sort l).Pairwise (fun a b => b.likelihood ≤ a.likelihood)

/-- The store has, beyond what it had, the chunks as meter 1 and the disaggregated power as meter 2 of the building, and all else as before. -/
def Wrote (building : Nat) (before after : DisagStore) (ks : List PowerChunk) (outs : List (List MleRow)) : Prop :=
  outRows after (outMeterKey building 1) = outRows before (outMeterKey building 1) ++ ks.flatMap PowerChunk.rows ∧
  outRows after (outMeterKey building 2) = outRows before (outMeterKey building 2) ++ outs.flatten.map (fun r => (r.1, some r.2)) ∧
  ∀ b n, ¬ (b = building ∧ (n = 1 ∨ n = 2)) → outRows after (outMeterKey b n) = outRows before (outMeterKey b n)

/-! ### Theorems -/

theorem outRows_append (store : DisagStore) (b n b' n' : Nat) (df : List (Row (Option Rat))) :
    outRows (hdfRun [.append (outMeterKey b n) df] store) (outMeterKey b' n') =
      outRows store (outMeterKey b' n') ++ (if b = b' ∧ n = n' then df else []) := by
  rw [outRows_run _ (by intro c hc; rw [List.mem_singleton.1 hc]; exact .inl ⟨b, n, df, rfl⟩)]
  congr 1
  simp only [List.map_cons, List.map_nil, List.flatten_cons, List.flatten_nil, List.append_nil, rowsAppended]
  by_cases h : b = b' ∧ n = n'
  · obtain ⟨rfl, rfl⟩ := h
    simp
  · rw [if_neg h, if_neg (fun hc => h (outMeterKey_inj hc))]

theorem mle_loop (sort : List MleDet → List MleDet) (hs : ByLikelihood sort) (m : MleModel (String × String)) (hn : 0 ≤ m.powerNoise)
    (resample : List (Row (Option Rat)) → List MleRow) (building : Nat) (rest : List PowerChunk) : ∀ (ks : List PowerChunk) (store : DisagStore),
    (∀ k ∈ ks, RightUnits m k) →
    ∃ outs after, List.Forall₂ (fun k out => MleOutput m (resample k.rows) out) ks outs ∧ Wrote building store after ks outs ∧
      mleStoreLoop sort m resample building (ks ++ rest) store = mleStoreLoop sort m resample building rest after
  | [], store, _ => ⟨[], store, .nil, ⟨by simp, by simp, fun _ _ _ => rfl⟩, rfl⟩
  | k :: ks, store, hu => by
    obtain ⟨out, o1, o2, o3⟩ := C133_disaggregate sort (fun l => (hs l).1) (fun l => (hs l).2) m hn k.measurement (hu k List.mem_cons_self) (resample k.rows)
    obtain ⟨outs, after, h1, ⟨w1, w2, w3⟩, h3⟩ := mle_loop sort hs m hn resample building rest ks
      (hdfRun [.append (outMeterKey building 1) k.rows] (hdfRun [.append (outMeterKey building 2) (out.map (fun r => (r.1, some r.2)))] store))
      (fun x hx => hu x (List.mem_cons_of_mem _ hx))
    refine ⟨out :: outs, after, .cons ⟨o2, o3⟩ h1, ⟨?_, ?_, ?_⟩, ?_⟩
    · rw [w1, outRows_append, outRows_append, List.flatMap_cons]
      simp
    · rw [w2, outRows_append, outRows_append, List.flatten_cons]
      simp
    · intro b n hb
      rw [w3 b n hb, outRows_append, outRows_append, if_neg, if_neg]
      · simp
      · rintro ⟨rfl, rfl⟩; exact hb ⟨rfl, .inl rfl⟩
      · rintro ⟨rfl, rfl⟩; exact hb ⟨rfl, .inr rfl⟩
    · rw [List.cons_append, mleStoreLoop, o1]
      simp only [run_one_append]
      exact h3

/-- C134. Disaggregation of mains with at least one chunk, all of the right units: nothing is raised, the chunks are stored as meter 1 of the building and
the power of the appliance, chunk by chunk, as meter 2; no other meter changes. -/
theorem C134_stored (sort : List MleDet → List MleDet) (hs : ByLikelihood sort) (m : MleModel (String × String)) (hn : 0 ≤ m.powerNoise)
    (resample : List (Row (Option Rat)) → List MleRow) (building : Nat) (mains : Gen PowerChunk) (herr : mains.err = none) (hne : mains.out ≠ [])
    (hu : ∀ k ∈ mains.out, RightUnits m k) (store : DisagStore) :
    ∃ outs after, mleMains sort m resample building mains store = (after, .ok ()) ∧
      List.Forall₂ (fun k out => MleOutput m (resample k.rows) out) mains.out outs ∧ Wrote building store after mains.out outs := by
  obtain ⟨outs, after, h1, h2, h3⟩ := mle_loop sort hs m hn resample building [] mains.out store hu
  rw [List.append_nil] at h3
  refine ⟨outs, after, ?_, h1, h2⟩
  unfold mleMains
  rw [h3, mleStoreLoop]
  simp only [herr, if_neg hne]

/-- C134. A chunk of other units, after chunks of the right ones, ends it with `UnboundLocalError`; what the chunks before it gave is stored. An exception of
the mains is raised likewise, with all chunks stored. -/
theorem C134_refused (sort : List MleDet → List MleDet) (hs : ByLikelihood sort) (m : MleModel (String × String)) (hn : 0 ≤ m.powerNoise)
    (resample : List (Row (Option Rat)) → List MleRow) (building : Nat) (ks : List PowerChunk) (hu : ∀ k ∈ ks, RightUnits m k) (store : DisagStore) :
    (∀ k rest err, ¬ RightUnits m k → ∃ outs after, mleMains sort m resample building ⟨ks ++ k :: rest, err⟩ store = (after, .error .unboundLocal) ∧
      List.Forall₂ (fun k out => MleOutput m (resample k.rows) out) ks outs ∧ Wrote building store after ks outs) ∧
    (∀ e, ∃ outs after, mleMains sort m resample building ⟨ks, some e⟩ store = (after, .error e) ∧
      List.Forall₂ (fun k out => MleOutput m (resample k.rows) out) ks outs ∧ Wrote building store after ks outs) := by
  constructor
  · intro k rest err hk
    obtain ⟨outs, after, h1, h2, h3⟩ := mle_loop sort hs m hn resample building (k :: rest) ks store hu
    refine ⟨outs, after, ?_, h1, h2⟩
    have hr : m.resistive = false := by
      cases h : m.resistive with
      | false => rfl
      | true => exact absurd (.inl h) hk
    unfold mleMains
    rw [h3, mleStoreLoop, C133_error sort m k.measurement (resample k.rows) hr (fun h => hk (.inr h))]
  · intro e
    obtain ⟨outs, after, h1, h2, h3⟩ := mle_loop sort hs m hn resample building [] ks store hu
    rw [List.append_nil] at h3
    refine ⟨outs, after, ?_, h1, h2⟩
    unfold mleMains
    simp only
    rw [h3, mleStoreLoop]

/-- C134. Mains without a chunk: `UnboundLocalError`, and nothing is stored. -/
theorem C134_no_data (sort : List MleDet → List MleDet) (m : MleModel (String × String)) (resample : List (Row (Option Rat)) → List MleRow)
    (building : Nat) (store : DisagStore) : mleMains sort m resample building ⟨[], none⟩ store = (store, .error .unboundLocal) := by
  unfold mleMains
  simp [mleStoreLoop]

/-- A model for power of the mains. -/
def demoMleMains : MleModel (String × String) := ⟨("power", "active"), false, 10, 20, 1000, 0, fun a b t => a + b + t⟩

/-- C134. A run that is found in one chunk is lost if a chunk ends within it: the power is then 0 throughout. -/
theorem C134_boundary_counterexample (first second whole : List MleRow) (h1 : MleOutput demoMleMains [(0, 0), (10, 100)] first)
    (h2 : MleOutput demoMleMains [(20, 100), (30, 0)] second)
    (h : MleOutput demoMleMains ([(0, 0), (10, 100)] ++ [(20, 100), (30, 0)]) whole) :
    first ++ second = [(0, 0), (10, 0), (20, 0), (30, 0)] ∧ whole = [(0, 0), (10, 100), (20, 100), (30, 0)] := by
  have none : ∀ rows : List MleRow, (mleDetections demoMleMains rows).filter (fun d => decide (demoMleMains.thLikelihood ≤ d.likelihood)) = [] →
      ∀ out, MleOutput demoMleMains rows out → out = rows.map (fun r => (r.1, 0)) := by
    rintro rows he out ⟨ht, chosen, c1, -, -, c4⟩
    have hc : ∀ d ∈ chosen, False := by
      intro d hd
      have := (mem_detections demoMleMains (by decide +kernel) rows d).2 (c1 d hd)
      rw [he] at this
      cases this
    have hz : out = out.map (fun r => (r.1, 0)) := by
      conv_lhs => rw [← List.map_id out]
      apply List.map_congr_left
      intro r hr
      have := (c4 r hr).2 (fun d hd => (hc d hd).elim)
      rw [← this]
      rfl
    rw [hz]
    have : ∀ l : List MleRow, l.map (fun r => ((r.1, 0) : MleRow)) = (l.map Prod.fst).map (fun t => (t, 0)) := by
      intro l
      rw [List.map_map]
      rfl
    rw [this, this, ht]
  have e1 := none _ (by decide +kernel) first h1
  have e2 := none _ (by decide +kernel) second h2
  refine ⟨by rw [e1, e2]; rfl, ?_⟩
  obtain ⟨ht, chosen, c1, -, c3, c4⟩ := h
  have hall : ∀ d, Allowed demoMleMains ([(0, 0), (10, 100)] ++ [(20, 100), (30, 0)]) d ↔ d = ⟨10, 30, 20, 100⟩ := by
    intro d
    rw [← mem_detections demoMleMains (by decide +kernel)]
    have : (mleDetections demoMleMains ([(0, 0), (10, 100)] ++ [(20, 100), (30, 0)])).filter
        (fun d => decide (demoMleMains.thLikelihood ≤ d.likelihood)) = [⟨10, 30, 20, 100⟩] := by decide +kernel
    rw [this, List.mem_singleton]
  have hd : (⟨10, 30, 20, 100⟩ : MleDet) ∈ chosen := by
    rcases c3 _ ((hall _).2 rfl) with h | ⟨k, hk, -, -⟩
    · exact h
    · rw [(hall k).1 (c1 k hk)] at hk
      exact hk
  have hval : ∀ r ∈ whole, r.2 = if 10 ≤ r.1 ∧ r.1 < 30 then 100 else 0 := by
    intro r hr
    by_cases h : 10 ≤ r.1 ∧ r.1 < 30
    · rw [if_pos h]
      exact (c4 r hr).1 _ hd h
    · rw [if_neg h]
      refine (c4 r hr).2 (fun d hd2 hc => h ?_)
      rw [(hall d).1 (c1 d hd2)] at hc
      exact hc
  have hw : whole = (whole.map Prod.fst).map (fun t => (t, if 10 ≤ t ∧ t < 30 then 100 else 0)) := by
    rw [List.map_map]
    conv_lhs => rw [← List.map_id whole]
    apply List.map_congr_left
    intro r hr
    have := hval r hr
    simp only [id, Function.comp_apply]
    rw [← this]
  rw [hw, ht]
  decide +kernel

/-- Sorting by likelihood. -/
theorem byLikelihood_mergeSort : ByLikelihood (fun l => l.mergeSort (fun a b => decide (b.likelihood ≤ a.likelihood))) := by
  refine fun l => ⟨List.mergeSort_perm l _, ?_⟩
  have := List.pairwise_mergeSort (le := fun a b : MleDet => decide (b.likelihood ≤ a.likelihood))
    (fun a b c h1 h2 => by simp only [decide_eq_true_eq] at *; exact le_trans h2 h1)
    (fun a b => by simp only [Bool.or_eq_true, decide_eq_true_eq]; exact le_total _ _) l
  exact this.imp (fun h => by simpa using h)

/-- Two chunks of the units of the model, the second with a run, and one of other units. -/
example : ∃ sort, ByLikelihood sort ∧ 0 ≤ demoMleMains.powerNoise ∧ ∃ k l x : PowerChunk, RightUnits demoMleMains k ∧ RightUnits demoMleMains l ∧
    ¬ RightUnits demoMleMains x ∧ k.rows ≠ [] ∧ ∃ d, Allowed demoMleMains (l.rows.map (fun r => (r.1, r.2.getD 0))) d := by
  refine ⟨_, byLikelihood_mergeSort, by decide +kernel, ⟨[(0, some 5)], ⟨none, none, true, false, false⟩, ("power", "active")⟩,
    ⟨[(10, some 0), (20, some 100), (30, some 0)], ⟨none, none, true, false, false⟩, ("power", "active")⟩, ⟨[(40, some 0)], ⟨none, none, true, false, false⟩, ("power", "apparent")⟩,
    .inr rfl, .inr rfl, ?_, by decide, ⟨20, 30, 10, 100⟩, ?_⟩
  · unfold RightUnits
    decide
  · rw [← mem_detections demoMleMains (by decide +kernel)]
    decide +kernel

/-- There are outputs as in the counterexample. -/
example : ∃ first second whole, MleOutput demoMleMains [(0, 0), (10, 100)] first ∧ MleOutput demoMleMains [(20, 100), (30, 0)] second ∧
    MleOutput demoMleMains ([(0, 0), (10, 100)] ++ [(20, 100), (30, 0)]) whole := by
  have h := fun rows => C133_disaggregate _ (fun l => (byLikelihood_mergeSort l).1) (fun l => (byLikelihood_mergeSort l).2) demoMleMains (by decide +kernel)
    ("power", "active") (.inr rfl) rows
  obtain ⟨a, -, a2⟩ := h [(0, 0), (10, 100)]
  obtain ⟨b, -, b2⟩ := h [(20, 100), (30, 0)]
  obtain ⟨c, -, c2⟩ := h ([(0, 0), (10, 100)] ++ [(20, 100), (30, 0)])
  exact ⟨a, b, c, a2, b2, c2⟩

end Nilmtk
