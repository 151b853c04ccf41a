import Verif.Model.NodeMetadata
import Verif.Props.Pipeline
/-!
C131: the metadata of a pipeline that was run, and what its dry run promised.
-/
namespace Nilmtk

/-! ### Specification -/

/-- The dictionaries that make up the metadata: the results from the last node to the first, and the metadata of the meter. -/
def metadataSources (meter : Dict) (nodes : List NodeRun) : List Dict := nodes.filterMap NodeRun.results ++ [meter]

/-- None of them has a dictionary where another has a plain value. -/
def ResultsFit (meter : Dict) (nodes : List NodeRun) : Prop :=
  ∀ d ∈ metadataSources meter nodes, ∀ e ∈ metadataSources meter nodes, SameKinds (.dict d) (.dict e)

/-- The value at a path is that of the last node whose results have one, or else that of the meter. -/
def metadataAt (meter : Dict) (nodes : List NodeRun) (p : List String) : Option (Option Atom) :=
  ((metadataSources meter nodes).map (fun d => shapeAt (.dict d) p)).foldr Option.or none

/-- The results have something wherever the postconditions have. -/
def KeepsPromise (n : NodeRun) : Prop := ∀ p, HasPath n.cls.postconditions p → p = [] ∨ ∃ r, n.results = some r ∧ HasPath r p

/-! ### Theorems -/

theorem getMetadata_spec (clash : Val → Val → Except Err Val) (meter : Dict) (hm : meter.WF) : ∀ nodes : List NodeRun,
    (∀ n ∈ nodes, ∀ r, n.results = some r → r.WF) → ResultsFit meter nodes →
    ∃ md, getMetadata clash meter nodes = .ok md ∧ md.WF ∧ ∀ p, shapeAt (.dict md) p = metadataAt meter nodes p := by
  intro nodes
  induction nodes with
  | nil =>
    intro _ _
    refine ⟨meter, rfl, hm, ?_⟩
    intro p
    simp [metadataAt, metadataSources]
  | cons n nodes ih =>
    intro hw hf
    cases hr : n.results with
    | none =>
      have hsrc : metadataSources meter (n :: nodes) = metadataSources meter nodes := by
        unfold metadataSources
        rw [List.filterMap_cons_none hr]
      unfold ResultsFit at hf
      rw [hsrc] at hf
      obtain ⟨md, h1, h2, h3⟩ := ih (fun x hx => hw x (List.mem_cons_of_mem _ hx)) hf
      refine ⟨md, ?_, h2, ?_⟩
      · rw [getMetadata, hr]
        exact h1
      · intro p
        unfold metadataAt at *
        rw [hsrc]
        exact h3 p
    | some r =>
      have hsrc : metadataSources meter (n :: nodes) = r :: metadataSources meter nodes := by
        unfold metadataSources
        rw [List.filterMap_cons_some hr, List.cons_append]
      unfold ResultsFit at hf
      rw [hsrc] at hf
      obtain ⟨md, h1, h2, h3⟩ := ih (fun x hx => hw x (List.mem_cons_of_mem _ hx))
        (fun d hd e he => hf d (List.mem_cons_of_mem _ hd) e (List.mem_cons_of_mem _ he))
      have hkinds : SameKinds (.dict md) (.dict r) := by
        intro p x y hx hy
        rw [h3] at hx
        obtain ⟨d, hd, hd2⟩ := List.mem_map.1 (foldr_or_mem _ _ hx)
        exact hf d (List.mem_cons_of_mem _ hd) r List.mem_cons_self p x y hd2 hy
      obtain ⟨m, m1, m2, m3⟩ := mergeDict_spec clash r (hw n List.mem_cons_self r hr) md h2 hkinds
      refine ⟨m, ?_, m2, ?_⟩
      · rw [getMetadata, hr]
        simp only [h1]
        exact m1
      · intro p
        rw [m3, h3]
        unfold metadataAt
        rw [hsrc, List.map_cons, List.foldr_cons]

/-- C131. The metadata of a pipeline that was run have at any path what the results of the last node have there that have anything, or else what the meter
has. In particular the results of the last node are there as they are, and what no node has results for is as the meter has it. -/
theorem C131_metadata (clash : Val → Val → Except Err Val) (meter : Dict) (hm : meter.WF) (nodes : List NodeRun)
    (hw : ∀ n ∈ nodes, ∀ r, n.results = some r → r.WF) (hf : ResultsFit meter nodes) :
    ∃ md, getMetadata clash meter nodes = .ok md ∧ (∀ p, shapeAt (.dict md) p = metadataAt meter nodes p) ∧
      (∀ n upstream r, nodes = n :: upstream → n.results = some r → ∀ p, HasPath r p → shapeAt (.dict md) p = shapeAt (.dict r) p) ∧
      (∀ p, (∀ n ∈ nodes, ∀ r, n.results = some r → ¬ HasPath r p) → shapeAt (.dict md) p = shapeAt (.dict meter) p) := by
  obtain ⟨md, h1, -, h3⟩ := getMetadata_spec clash meter hm nodes hw hf
  refine ⟨md, h1, h3, ?_, ?_⟩
  · rintro n upstream r rfl hr p hp
    rw [h3]
    unfold metadataAt metadataSources
    rw [List.filterMap_cons_some hr, List.cons_append, List.map_cons, List.foldr_cons]
    unfold HasPath at hp
    cases h : shapeAt (.dict r) p with
    | none => exact absurd h hp
    | some x => simp
  · intro p hp
    rw [h3]
    unfold metadataAt metadataSources
    rw [List.map_append, List.map_singleton, foldr_or_append]
    have : (List.map (fun d => shapeAt (.dict d) p) (nodes.filterMap NodeRun.results)).foldr Option.or none = none := by
      by_contra hne
      obtain ⟨x, hx, hx2⟩ := (foldr_or_isSome _).1 hne
      obtain ⟨r, hr, rfl⟩ := List.mem_map.1 hx
      obtain ⟨n, hn, hn2⟩ := List.mem_filterMap.1 hr
      exact hp n hn r hn2 hx2
    rw [this, Option.none_or]

theorem getMetadata_has (clash : Val → Val → Except Err Val) (meter : Dict) (hm : meter.WF) (nodes : List NodeRun)
    (hw : ∀ n ∈ nodes, ∀ r, n.results = some r → r.WF) (hf : ResultsFit meter nodes) :
    ∃ md, getMetadata clash meter nodes = .ok md ∧
      ∀ p, HasPath md p ↔ HasPath meter p ∨ ∃ n ∈ nodes, ∃ r, n.results = some r ∧ HasPath r p := by
  obtain ⟨md, h1, -, h3⟩ := getMetadata_spec clash meter hm nodes hw hf
  refine ⟨md, h1, ?_⟩
  intro p
  unfold HasPath
  rw [h3]
  unfold metadataAt metadataSources
  rw [foldr_or_isSome]
  constructor
  · rintro ⟨x, hx, hx2⟩
    obtain ⟨d, hd, rfl⟩ := List.mem_map.1 hx
    rcases List.mem_append.1 hd with h | h
    · obtain ⟨n, hn, hn2⟩ := List.mem_filterMap.1 h
      exact .inr ⟨n, hn, d, hn2, hx2⟩
    · rw [List.mem_singleton.1 h] at hx2
      exact .inl hx2
  · rintro (h | ⟨n, hn, r, hr, h⟩)
    · exact ⟨_, List.mem_map.2 ⟨meter, List.mem_append_right _ List.mem_cons_self, rfl⟩, h⟩
    · exact ⟨_, List.mem_map.2 ⟨r, List.mem_append_left _ (List.mem_filterMap.2 ⟨n, hn, hr⟩), rfl⟩, h⟩

/-- C131. What the dry run of a pipeline has, the metadata have after the run, if the results of each node have what its postconditions have.
Missing: `Clip` and `TotalEnergy` do not meet this, see `C131_clip_counterexample` and `C131_energy_counterexample`. -/
theorem C131_promise_partial (clash : Val → Val → Except Err Val) (meter : Dict) (hm : meter.WF) (nodes : List NodeRun)
    (hw : ∀ n ∈ nodes, n.cls.postconditions.WF ∧ ∀ r, n.results = some r → r.WF) (hf : ResultsFit meter nodes)
    (hf' : FitTogether meter (nodes.map NodeRun.cls)) (hk : ∀ n ∈ nodes, KeepsPromise n) :
    ∃ state md, dryRun clash meter (nodes.map NodeRun.cls) = .ok state ∧ getMetadata clash meter nodes = .ok md ∧
      ∀ p, HasPath state p → HasPath md p := by
  obtain ⟨md, h1, h2⟩ := getMetadata_has clash meter hm nodes (fun n hn => (hw n hn).2) hf
  obtain ⟨state, s1, s2⟩ := dryRun_has clash meter hm (nodes.map NodeRun.cls)
    (by intro c hc; obtain ⟨n, hn, rfl⟩ := List.mem_map.1 hc; exact (hw n hn).1) hf'
  refine ⟨state, md, s1, h1, ?_⟩
  intro p hp
  rcases (s2 p).1 hp with h | ⟨c, hc, h⟩
  · exact (h2 p).2 (.inl h)
  · obtain ⟨n, hn, rfl⟩ := List.mem_map.1 hc
    rcases hk n hn p h with rfl | ⟨r, hr, h'⟩
    · unfold HasPath
      rw [shapeAt_nil]
      simp
    · exact (h2 p).2 (.inr ⟨n, hn, r, hr, h'⟩)

theorem hasPath_stat (c : String) (a b : Atom) (p : List String) (h : HasPath (.one "statistics" (.dict (.one c (.atom a)))) p) :
    HasPath (.one "statistics" (.dict (.one c (.atom b)))) p := by
  unfold HasPath at *
  match p, h with
  | [], _ => rw [shapeAt_nil]; simp
  | k :: q, h =>
    rw [shapeAt_cons] at h ⊢
    simp only [Dict.one, Dict.get?] at h ⊢
    by_cases e : k = "statistics"
    · rw [if_pos e] at h ⊢
      match q, h with
      | [], _ => rw [Option.bind_some, shapeAt_nil]; simp
      | x :: r, h =>
        simp only [Option.bind_some, shapeAt_cons, Dict.get?] at h ⊢
        by_cases e2 : x = c
        · rw [if_pos e2] at h ⊢
          simp only [Option.bind_some, shapeAt_atom] at h ⊢
          by_cases e3 : r = []
          · rw [if_pos e3]; simp
          · rw [if_neg e3] at h; exact absurd rfl h
        · rw [if_neg e2] at h; exact absurd rfl h
    · rw [if_neg e] at h; exact absurd rfl h

/-- C131. `GoodSections` and `DropoutRate` have results for all of their postconditions, whatever they find. -/
theorem C131_statistics (sections rate : Atom) : KeepsPromise (goodSectionsRun sections) ∧ KeepsPromise (dropoutRateRun rate) :=
  ⟨fun p h => .inr ⟨_, rfl, hasPath_stat _ _ _ p h⟩, fun p h => .inr ⟨_, rfl, hasPath_stat _ _ _ p h⟩⟩

/-- C131. `Clip` does not: the dry run says that clipping was done, but the metadata after the run are those of the meter, whatever the meter. -/
theorem C131_clip_counterexample (clash : Val → Val → Except Err Val) (meter : Dict) (hm : meter.WF) (hf : FitTogether meter [clipNode])
    (hno : ¬ HasPath meter ["preprocessing_applied", "clip"]) :
    ∃ state md, dryRun clash meter [clipNode] = .ok state ∧ getMetadata clash meter [clipRun] = .ok md ∧
      HasPath state ["preprocessing_applied", "clip"] ∧ ¬ HasPath md ["preprocessing_applied", "clip"] := by
  obtain ⟨state, s1, s2⟩ := dryRun_has clash meter hm [clipNode]
    (by intro n hn; rw [List.mem_singleton.1 hn]; simp [clipNode, Dict.one, Dict.WF, Val.WF, Dict.keys]) hf
  refine ⟨state, meter, s1, rfl, ?_, hno⟩
  exact (s2 _).2 (.inr ⟨clipNode, List.mem_cons_self, by unfold HasPath; decide⟩)

/-- C131. `TotalEnergy` does not either: the dry run has the energy among the statistics, but the metadata after the run have it under `total_energy`. -/
theorem C131_energy_counterexample (clash : Val → Val → Except Err Val) (meter energies : Dict) (hm : meter.WF) (he : energies.WF)
    (hf : FitTogether meter [totalEnergyNode]) (hf' : ResultsFit meter [totalEnergyRun energies]) (hno : ¬ HasPath meter ["statistics", "energy"]) :
    ∃ state md, dryRun clash meter [totalEnergyNode] = .ok state ∧ getMetadata clash meter [totalEnergyRun energies] = .ok md ∧
      HasPath state ["statistics", "energy"] ∧ ¬ HasPath md ["statistics", "energy"] ∧
      ∀ k, HasPath energies [k] → shapeAt (.dict md) ["total_energy", k] = shapeAt (.dict energies) [k] := by
  obtain ⟨state, s1, s2⟩ := dryRun_has clash meter hm [totalEnergyNode]
    (by intro n hn; rw [List.mem_singleton.1 hn]; simp [totalEnergyNode, Dict.one, Dict.WF, Val.WF, Dict.keys]) hf
  have hw : ∀ n ∈ [totalEnergyRun energies], ∀ r, n.results = some r → r.WF := by
    intro n hn r hr
    rw [List.mem_singleton.1 hn] at hr
    cases hr
    simp [Dict.one, Dict.WF, Val.WF, Dict.keys, he]
  obtain ⟨md, h1, -, h3, h4⟩ := C131_metadata clash meter hm [totalEnergyRun energies] hw hf'
  refine ⟨state, md, s1, h1, ?_, ?_, ?_⟩
  · exact (s2 _).2 (.inr ⟨totalEnergyNode, List.mem_cons_self, by unfold HasPath; decide⟩)
  · unfold HasPath at hno ⊢
    rw [h4]
    · exact hno
    · intro n hn r hr
      rw [List.mem_singleton.1 hn] at hr
      cases hr
      unfold HasPath
      rw [shapeAt_cons, get?_one _ _ _ (by decide)]
      simp
  · intro k hk
    have e : shapeAt (.dict (Dict.one "total_energy" (.dict energies))) ["total_energy", k] = shapeAt (.dict energies) [k] := by
      rw [shapeAt_cons, Dict.one, Dict.get?, if_pos rfl, Option.bind_some]
    rw [h3 (totalEnergyRun energies) [] (Dict.one "total_energy" (.dict energies)) rfl rfl, e]
    unfold HasPath at *
    rw [e]
    exact hk

/-! ### Examples -/

/-- The hypotheses of `C131_energy_counterexample`, and so of `C131_metadata`, are met. -/
example : demoMeter.WF ∧ (Dict.one "active" (.atom (.other 3))).WF ∧ FitTogether demoMeter [totalEnergyNode] ∧
    ResultsFit demoMeter [totalEnergyRun (.one "active" (.atom (.other 3)))] ∧ ¬ HasPath demoMeter ["statistics", "energy"] := by
  refine ⟨by simp [demoMeter, Dict.one, Dict.WF, Val.WF, Dict.keys], by simp [Dict.one, Dict.WF, Val.WF, Dict.keys], ?_, ?_, by unfold HasPath; decide⟩
  · intro d hd e he
    simp only [List.map_cons, List.map_nil, List.mem_cons, List.not_mem_nil, or_false] at hd he
    rcases hd with rfl | rfl <;> rcases he with rfl | rfl <;>
      first
      | exact sameKinds_refl _
      | exact sameKinds_of_disjoint _ _ (disjoint_one _ _ _ _ (by decide))
  · intro d hd e he
    have hs : metadataSources demoMeter [totalEnergyRun (.one "active" (.atom (.other 3)))] =
      [.one "total_energy" (.dict (.one "active" (.atom (.other 3)))), demoMeter] := rfl
    rw [hs] at hd he
    simp only [List.mem_cons, List.not_mem_nil, or_false] at hd he
    rcases hd with rfl | rfl <;> rcases he with rfl | rfl <;>
      first
      | exact sameKinds_refl _
      | exact sameKinds_of_disjoint _ _ (disjoint_one _ _ _ _ (by decide))

/-- The hypotheses of `C131_clip_counterexample` are met. -/
example : FitTogether demoMeter [clipNode] ∧ ¬ HasPath demoMeter ["preprocessing_applied", "clip"] := ⟨demo_fits_clip, by unfold HasPath; decide⟩

/-- The hypotheses of `C131_promise_partial` are met by the dropout rate of that meter. -/
example : FitTogether demoMeter ([dropoutRateRun (.other 5)].map NodeRun.cls) ∧ ResultsFit demoMeter [dropoutRateRun (.other 5)] ∧
    KeepsPromise (dropoutRateRun (.other 5)) := by
  refine ⟨?_, ?_, (C131_statistics (.other 0) (.other 5)).2⟩
  · intro d hd e he
    simp only [List.map_cons, List.map_nil, List.mem_cons, List.not_mem_nil, or_false] at hd he
    rcases hd with rfl | rfl <;> rcases he with rfl | rfl <;>
      first
      | exact sameKinds_refl _
      | exact sameKinds_of_disjoint _ _ (disjoint_one _ _ _ _ (by decide))
  · intro d hd e he
    have hs : metadataSources demoMeter [dropoutRateRun (.other 5)] =
      [.one "statistics" (.dict (.one "dropout_rate" (.atom (.other 5)))), demoMeter] := rfl
    rw [hs] at hd he
    simp only [List.mem_cons, List.not_mem_nil, or_false] at hd he
    rcases hd with rfl | rfl <;> rcases he with rfl | rfl <;>
      first
      | exact sameKinds_refl _
      | exact sameKinds_of_disjoint _ _ (disjoint_one _ _ _ _ (by decide))

end Nilmtk
