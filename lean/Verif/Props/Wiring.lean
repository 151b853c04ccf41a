import Verif.Model.Wiring
import Verif.Props.Utils
import Verif.Props.Group
/-!
C78: the wiring of a building.
-/
namespace Nilmtk

/-! ### Specification -/

/-- Two meters of the same building of the same dataset. -/
def SameHouse (a b : Elec) : Prop := a.id.building = b.id.building ∧ a.id.dataset = b.id.dataset

/-- The metadata of `e` say that it is fed by meter `k` of its own building. -/
def FedBy (W : MeterId → Wire) (e : Elec) (k : Int) : Prop :=
  (W e.id).submeterOf = some k ∧ 0 ≤ k ∧ ((W e.id).inBuilding = none ∨ (W e.id).inBuilding = some e.id.building)

/-- The identifiers of the site meters known for the building of `e`. -/
def houseMains (glob : List Elec) (e : Elec) : List MeterId :=
  (glob.filter (fun g => decide (g.site = true ∧ g.id.building = e.id.building ∧ g.id.dataset = e.id.dataset))).map Elec.id

/-- `u` is upstream of `e`: the numbered meter it is a submeter of, or the mains of its building. -/
def HasUpstream (glob : List Elec) (W : MeterId → Wire) (e : Elec) : Option WNode → Prop
  | none => e.site = true ∨ (FedBy W e 0 ∧ (∃ g ∈ glob, SameHouse g e) ∧ houseMains glob e = [])
  | some (.elec id) => e.site = false ∧ ((∃ k, 0 < k ∧ FedBy W e k ∧ id = ⟨.one k, e.id.building, e.id.dataset⟩ ∧
      ∃ g ∈ glob, g.id = id) ∨ (FedBy W e 0 ∧ houseMains glob e = [id]))
  | some (.mains ids) => e.site = false ∧ FedBy W e 0 ∧ 2 ≤ ids.length ∧ houseMains glob e = ids

mutual
/-- The `ElecMeter`s of a meter or group, at any depth. -/
def Meter.elecs : Meter → List Elec
  | .elec e => [e]
  | .group _ ms _ => Meter.elecsOf ms
/-- The same for a list. -/
def Meter.elecsOf : List Meter → List Elec
  | [] => []
  | m :: ms => m.elecs ++ Meter.elecsOf ms
end

/-- `u` feeds a meter of the list. -/
def Feeds (glob : List Elec) (W : MeterId → Wire) (es : List Elec) (u v : WNode) : Prop :=
  ∃ e ∈ es, v = .elec e.id ∧ HasUpstream glob W e (some u)

/-- `u` feeds a meter and is itself fed by nothing. -/
def IsTop (glob : List Elec) (W : MeterId → Wire) (es : List Elec) (u : WNode) : Prop :=
  (∃ v, Feeds glob W es u v) ∧ ∀ p, ¬ Feeds glob W es p u

/-! ### One meter -/

theorem globalMains_house (glob : List Elec) (e : Elec) :
    ((glob.filter (fun g => decide (g.id.building = e.id.building ∧ g.id.dataset = e.id.dataset))).filter
      (fun g => g.site)).map Elec.id = houseMains glob e := by
  unfold houseMains
  rw [List.filter_filter]
  congr 1
  apply List.filter_congr
  intro g _
  cases g.site <;> simp

theorem globalMains_ok (glob : List Elec) (e : Elec) (r : Option WNode) :
    globalMains glob e.id.building e.id.dataset = .ok r ↔ (∃ g ∈ glob, SameHouse g e) ∧
      ((r = none ∧ houseMains glob e = []) ∨ (∃ id, r = some (.elec id) ∧ houseMains glob e = [id]) ∨
        ∃ ids, r = some (.mains ids) ∧ 2 ≤ ids.length ∧ houseMains glob e = ids) := by
  have hh := globalMains_house glob e
  have hm : (∃ g ∈ glob, SameHouse g e) ↔
      glob.filter (fun g => decide (g.id.building = e.id.building ∧ g.id.dataset = e.id.dataset)) ≠ [] := by
    rw [Ne, List.filter_eq_nil_iff]
    push Not
    simp only [decide_eq_true_eq, SameHouse]
  rw [hm]
  unfold globalMains
  generalize glob.filter (fun g => decide (g.id.building = e.id.building ∧ g.id.dataset = e.id.dataset)) = sel at hh
  rw [← hh]
  cases sel with
  | nil => simp
  | cons a l =>
    simp only
    generalize (a :: l).filter (fun g => g.site) = site
    match site with
    | [] =>
      simp only [Except.ok.injEq, List.map_nil, ne_eq, reduceCtorEq, not_false_eq_true, true_and, and_true]
      constructor
      · rintro rfl; exact .inl rfl
      · rintro (h | ⟨id, h, h2⟩ | ⟨ids, h, h2, h3⟩)
        · exact h.symm
        · cases h2
        · subst h3; simp at h2
    | [g] =>
      simp only [Except.ok.injEq, List.map_cons, List.map_nil, ne_eq, reduceCtorEq, not_false_eq_true, true_and, and_false,
        false_or, List.cons.injEq, and_true]
      constructor
      · rintro rfl; exact .inl ⟨g.id, rfl, rfl⟩
      · rintro (⟨id, h, h2⟩ | ⟨ids, h, h2, h3⟩)
        · rw [h, h2]
        · subst h3; simp at h2
    | g :: g' :: gs =>
      simp only [Except.ok.injEq, List.map_cons, ne_eq, reduceCtorEq, not_false_eq_true, true_and, and_false,
        false_or, List.cons.injEq, exists_false]
      constructor
      · rintro rfl; exact ⟨_, rfl, by simp, rfl⟩
      · rintro ⟨ids, h, h2, h3⟩
        rw [h, h3]

theorem globalMeter_ok (glob : List Elec) (id : MeterId) (r : Option WNode) :
    globalMeter glob id = .ok r ↔ r = some (.elec id) ∧ ∃ g ∈ glob, g.id = id := by
  unfold globalMeter
  cases hf : glob.find? (fun g => decide (g.id = id)) with
  | none =>
    rw [List.find?_eq_none] at hf
    simp only [reduceCtorEq, false_iff, not_and]
    rintro _ ⟨g, hg, h⟩
    exact hf g hg (by simpa using h)
  | some g =>
    have h1 := List.find?_some hf
    have h2 := List.mem_of_find?_eq_some hf
    simp only [decide_eq_true_eq] at h1
    simp only [Except.ok.injEq, h1]
    constructor
    · rintro rfl; exact ⟨rfl, g, h2, h1⟩
    · rintro ⟨rfl, _⟩; rfl

/-- C78. `upstream_meter` returns `r` exactly when `r` is upstream of the meter according to the metadata. -/
theorem C78_upstream (glob : List Elec) (W : MeterId → Wire) (e : Elec) (r : Option WNode) :
    upstreamMeter glob W e = .ok r ↔ HasUpstream glob W e r := by
  unfold upstreamMeter
  cases hs : e.site with
  | true =>
    simp only [if_true, Except.ok.injEq]
    match r with
    | none => simp [HasUpstream, hs]
    | some (.elec _) => simp [HasUpstream, hs]
    | some (.mains _) => simp [HasUpstream, hs]
  | false =>
    simp only [Bool.false_eq_true, if_false]
    cases hk : (W e.id).submeterOf with
    | none =>
      match r with
      | none => simp [HasUpstream, hs, FedBy, hk]
      | some (.elec _) => simp [HasUpstream, hs, FedBy, hk]
      | some (.mains _) => simp [HasUpstream, hs, FedBy, hk]
    | some k =>
      simp only
      have hfed : ∀ j, FedBy W e j ↔ j = k ∧ 0 ≤ k ∧
          ¬ ((W e.id).inBuilding ≠ none ∧ (W e.id).inBuilding ≠ some e.id.building) := by
        intro j
        unfold FedBy
        rw [hk]
        simp only [Option.some.injEq, ne_eq, not_and, not_not]
        constructor
        · rintro ⟨rfl, h1, h2⟩
          exact ⟨rfl, h1, fun h => h2.resolve_left h⟩
        · rintro ⟨rfl, h1, h2⟩
          exact ⟨rfl, h1, or_iff_not_imp_left.2 h2⟩
      split
      · rename_i hneg
        simp only [reduceCtorEq, false_iff]
        have : ¬ (0 ≤ k) := by omega
        match r with
        | none => simp [HasUpstream, hs, hfed, this]
        | some (.elec _) => simp [HasUpstream, hs, hfed, this]
        | some (.mains _) => simp [HasUpstream, hs, hfed, this]
      · rename_i hneg
        have hk0 : 0 ≤ k := by omega
        split
        · rename_i hb
          simp only [reduceCtorEq, false_iff]
          match r with
          | none => simp only [HasUpstream, hs, hfed]; simp [hb]
          | some (.elec _) => simp only [HasUpstream, hs, hfed]; simp [hb]
          | some (.mains _) => simp only [HasUpstream, hs, hfed]; simp [hb]
        · rename_i hb
          split
          · rename_i hz
            subst hz
            rw [globalMains_ok]
            have hin : ∀ id, houseMains glob e = [id] → ∃ g ∈ glob, SameHouse g e := by
              intro id h
              have : id ∈ houseMains glob e := by rw [h]; exact List.mem_cons_self
              unfold houseMains at this
              rw [List.mem_map] at this
              obtain ⟨g, hg, _⟩ := this
              rw [List.mem_filter, decide_eq_true_eq] at hg
              exact ⟨g, hg.1, hg.2.2⟩
            have hin2 : 2 ≤ (houseMains glob e).length → ∃ g ∈ glob, SameHouse g e := by
              intro h
              obtain ⟨id, hid⟩ := List.exists_mem_of_length_pos (l := houseMains glob e) (by omega)
              unfold houseMains at hid
              rw [List.mem_map] at hid
              obtain ⟨g, hg, _⟩ := hid
              rw [List.mem_filter, decide_eq_true_eq] at hg
              exact ⟨g, hg.1, hg.2.2⟩
            match r with
            | none => simp [HasUpstream, hs, hfed, hb]
            | some (.elec id) =>
              simp only [HasUpstream, hs, hfed, hb]
              constructor
              · rintro ⟨_, h | ⟨id', h1, h2⟩ | ⟨_, h, _⟩⟩
                · exact absurd h.1 (by simp)
                · simp only [Option.some.injEq, WNode.elec.injEq] at h1
                  subst h1
                  exact ⟨trivial, .inr ⟨⟨trivial, le_refl _, not_false⟩, h2⟩⟩
                · cases h
              · rintro ⟨_, ⟨j, h1, ⟨h2, _⟩, _⟩ | ⟨_, h⟩⟩
                · omega
                · exact ⟨hin id h, .inr (.inl ⟨id, rfl, h⟩)⟩
            | some (.mains ids) =>
              simp only [HasUpstream, hs, hfed, hb]
              constructor
              · rintro ⟨_, h | ⟨id', h1, h2⟩ | ⟨_, h, h2, h3⟩⟩
                · exact absurd h.1 (by simp)
                · cases h1
                · simp only [Option.some.injEq, WNode.mains.injEq] at h
                  subst h
                  exact ⟨trivial, ⟨trivial, le_refl _, not_false⟩, h2, h3⟩
              · rintro ⟨_, _, h2, h3⟩
                exact ⟨hin2 (by rw [h3]; exact h2), .inr (.inr ⟨ids, rfl, h2, h3⟩)⟩
          · rename_i hz
            rw [globalMeter_ok]
            have h0 : ¬ ((0 : Int) = k) := fun h => hz h.symm
            match r with
            | none => simp [HasUpstream, hs, hfed, h0]
            | some (.elec id) =>
              simp only [HasUpstream, hs, hfed, h0, false_and, or_false, true_and, Option.some.injEq, WNode.elec.injEq]
              constructor
              · rintro ⟨rfl, h⟩
                exact ⟨k, by omega, ⟨rfl, hk0, hb⟩, rfl, h⟩
              · rintro ⟨j, _, ⟨rfl, _⟩, h1, h2⟩
                subst h1
                exact ⟨rfl, h2⟩
            | some (.mains _) => simp [HasUpstream, hs, hfed, h0]

/-- C78. What is raised otherwise: `ValueError` for missing or negative metadata, `NotImplementedError` for another building,
`KeyError` when the meter named is not known. -/
theorem C78_upstream_error (glob : List Elec) (W : MeterId → Wire) (e : Elec) (err : Err)
    (h : upstreamMeter glob W e = .error err) :
    e.site = false ∧
      ((err = .valueError ∧ ∀ k, (W e.id).submeterOf = some k → k < 0) ∨
        ∃ k, (W e.id).submeterOf = some k ∧ 0 ≤ k ∧
          ((err = .notImplemented ∧ ∃ b, (W e.id).inBuilding = some b ∧ b ≠ e.id.building) ∨
            (err = .keyError ∧ k = 0 ∧ ∀ g ∈ glob, ¬ SameHouse g e) ∨
            (err = .keyError ∧ 0 < k ∧ ∀ g ∈ glob, g.id ≠ ⟨.one k, e.id.building, e.id.dataset⟩))) := by
  unfold upstreamMeter at h
  cases hs : e.site with
  | true => rw [hs] at h; cases h
  | false =>
    refine ⟨rfl, ?_⟩
    rw [hs] at h
    simp only [Bool.false_eq_true, if_false] at h
    cases hk : (W e.id).submeterOf with
    | none =>
      rw [hk] at h
      simp only [Except.error.injEq] at h
      exact .inl ⟨h.symm, by simp⟩
    | some k =>
      rw [hk] at h
      simp only at h
      split at h
      · rename_i hneg
        simp only [Except.error.injEq] at h
        exact .inl ⟨h.symm, by simpa using hneg⟩
      · rename_i hneg
        refine .inr ⟨k, rfl, by omega, ?_⟩
        split at h
        · rename_i hb
          simp only [Except.error.injEq] at h
          refine .inl ⟨h.symm, ?_⟩
          cases hw : (W e.id).inBuilding with
          | none => exact absurd hw hb.1
          | some b =>
            refine ⟨b, rfl, ?_⟩
            rintro rfl
            exact hb.2 hw
        · split at h
          · rename_i hz
            refine .inr (.inl ⟨?_, hz, ?_⟩)
            · unfold globalMains at h
              split at h
              · exact (Except.error.inj h).symm
              · split at h <;> cases h
            · intro g hg hsame
              unfold globalMains at h
              split at h
              · rename_i hnil
                rw [List.filter_eq_nil_iff] at hnil
                exact hnil g hg (by simpa [SameHouse] using hsame)
              · split at h <;> cases h
          · rename_i hz
            refine .inr (.inr ⟨?_, by omega, ?_⟩)
            · unfold globalMeter at h
              split at h
              · exact (Except.error.inj h).symm
              · cases h
            · intro g hg hid
              unfold globalMeter at h
              split at h
              · rename_i hnil
                rw [List.find?_eq_none] at hnil
                exact hnil g hg (by simpa using hid)
              · cases h

/-- C78. A meter has at most one upstream. -/
theorem C78_unique (glob : List Elec) (W : MeterId → Wire) (e : Elec) (r r' : Option WNode)
    (h : HasUpstream glob W e r) (h' : HasUpstream glob W e r') : r = r' := by
  rw [← C78_upstream] at h h'
  rw [h] at h'
  exact Except.ok.inj h'

/-! ### The global list of meters -/

/-- C78. Every meter ever created can be found, each identifier once; the first one created with it stays. -/
theorem C78_register (es : List Elec) :
    ((es.foldl register []).map Elec.id).Nodup ∧ (∀ g ∈ es.foldl register [], g ∈ es) ∧
      ∀ e ∈ es, ∃ g ∈ es.foldl register [], g.id = e.id := by
  suffices H : ∀ (es acc : List Elec), (acc.map Elec.id).Nodup →
      ((es.foldl register acc).map Elec.id).Nodup ∧ (∀ g ∈ es.foldl register acc, g ∈ acc ∨ g ∈ es) ∧
        (∀ g ∈ acc, g ∈ es.foldl register acc) ∧ ∀ e ∈ es, ∃ g ∈ es.foldl register acc, g.id = e.id by
    have := H es [] (by simp)
    exact ⟨this.1, fun g hg => (this.2.1 g hg).resolve_left (by simp), this.2.2.2⟩
  intro es
  induction es with
  | nil => intro acc h; exact ⟨h, fun g hg => .inl hg, fun g hg => hg, by simp⟩
  | cons e es ih =>
    intro acc h
    rw [List.foldl_cons]
    have hreg : ((register acc e).map Elec.id).Nodup ∧ (∀ g ∈ register acc e, g ∈ acc ∨ g = e) ∧
        (∀ g ∈ acc, g ∈ register acc e) ∧ ∃ g ∈ register acc e, g.id = e.id := by
      unfold register
      split
      · rename_i hany
        simp only [List.any_eq_true, decide_eq_true_eq] at hany
        exact ⟨h, fun g hg => .inl hg, fun g hg => hg, hany⟩
      · rename_i hany
        simp only [List.any_eq_true, decide_eq_true_eq, not_exists, not_and] at hany
        refine ⟨?_, by simp, fun g hg => List.mem_append_left _ hg, e, by simp, rfl⟩
        rw [List.map_append, List.nodup_append]
        refine ⟨h, by simp, ?_⟩
        intro a ha b hb
        rw [List.mem_map] at ha
        obtain ⟨g, hg, rfl⟩ := ha
        simp only [List.map_cons, List.map_nil, List.mem_singleton] at hb
        subst hb
        exact hany g hg
    obtain ⟨h1, h2, h3, h4⟩ := ih _ hreg.1
    refine ⟨h1, ?_, fun g hg => h3 g (hreg.2.2.1 g hg), ?_⟩
    · intro g hg
      rcases h2 g hg with hg | hg
      · rcases hreg.2.1 g hg with hg | rfl
        · exact .inl hg
        · exact .inr List.mem_cons_self
      · exact .inr (List.mem_cons_of_mem _ hg)
    · intro x hx
      rcases List.mem_cons.1 hx with rfl | hx
      · obtain ⟨g, hg, he⟩ := hreg.2.2.2
        exact ⟨g, h3 g hg, he⟩
      · exact h4 x hx

/-! ### The graph -/

/-- The nodes are the ends of the edges, everything once. -/
def Graph.WellFormed (g : Graph WNode) : Prop :=
  g.nodes.Nodup ∧ g.edges.Nodup ∧ ∀ n, n ∈ g.nodes ↔ ∃ m, (n, m) ∈ g.edges ∨ (m, n) ∈ g.edges

theorem addNode_mem (ns : List WNode) (n m : WNode) : m ∈ addNode ns n ↔ m ∈ ns ∨ m = n := by
  unfold addNode
  split
  · constructor
    · exact .inl
    · rintro (h | rfl) <;> assumption
  · simp

theorem addNode_nodup (ns : List WNode) (n : WNode) (h : ns.Nodup) : (addNode ns n).Nodup := by
  unfold addNode
  split
  · exact h
  · rename_i hn
    rw [List.nodup_append]
    exact ⟨h, by simp, by rintro a ha b hb rfl; exact hn (by simpa using (List.mem_singleton.1 hb) ▸ ha)⟩

theorem addEdge_mem (g : Graph WNode) (u v a b : WNode) :
    (a, b) ∈ (g.addEdge u v).edges ↔ (a, b) ∈ g.edges ∨ (a = u ∧ b = v) := by
  unfold Graph.addEdge
  simp only
  split
  · constructor
    · exact .inl
    · rintro (h | ⟨rfl, rfl⟩) <;> assumption
  · simp

theorem addEdge_wellFormed (g : Graph WNode) (u v : WNode) (h : g.WellFormed) : (g.addEdge u v).WellFormed := by
  refine ⟨?_, ?_, ?_⟩
  · exact addNode_nodup _ _ (addNode_nodup _ _ h.1)
  · unfold Graph.addEdge
    simp only
    split
    · exact h.2.1
    · rename_i hn
      rw [List.nodup_append]
      refine ⟨h.2.1, by simp, ?_⟩
      rintro a ha b hb rfl
      rw [List.mem_singleton] at hb
      subst hb
      exact hn ha
  · intro n
    simp only [addEdge_mem]
    show n ∈ addNode (addNode g.nodes u) v ↔ _
    rw [addNode_mem, addNode_mem, h.2.2]
    constructor
    · rintro ((⟨m, h | h⟩ | rfl) | rfl)
      · exact ⟨m, .inl (.inl h)⟩
      · exact ⟨m, .inr (.inl h)⟩
      · exact ⟨v, .inl (.inr ⟨rfl, rfl⟩)⟩
      · exact ⟨u, .inr (.inr ⟨rfl, rfl⟩)⟩
    · rintro ⟨m, (h | ⟨rfl, rfl⟩) | (h | ⟨rfl, rfl⟩)⟩
      · exact .inl (.inl ⟨m, .inl h⟩)
      · exact .inl (.inr rfl)
      · exact .inl (.inl ⟨m, .inr h⟩)
      · exact .inr rfl

theorem feeds_append (glob : List Elec) (W : MeterId → Wire) (a b : List Elec) (u v : WNode) :
    Feeds glob W (a ++ b) u v ↔ Feeds glob W a u v ∨ Feeds glob W b u v := by
  simp only [Feeds, List.mem_append]
  constructor
  · rintro ⟨e, h | h, h2⟩
    · exact .inl ⟨e, h, h2⟩
    · exact .inr ⟨e, h, h2⟩
  · rintro (⟨e, h, h2⟩ | ⟨e, h, h2⟩)
    · exact ⟨e, .inl h, h2⟩
    · exact ⟨e, .inr h, h2⟩

mutual
theorem wireMeter_spec (glob : List Elec) (W : MeterId → Wire) (g : Graph WNode) (hg : g.WellFormed) :
    (m : Meter) → (∀ g', wireMeter glob W g m = .ok g' →
      g'.WellFormed ∧ ∀ u v, (u, v) ∈ g'.edges ↔ (u, v) ∈ g.edges ∨ Feeds glob W m.elecs u v) ∧
      ((∃ g', wireMeter glob W g m = .ok g') ↔ ∀ e ∈ m.elecs, ∃ r, HasUpstream glob W e r)
  | .elec e => by
    simp only [wireMeter, Meter.elecs, List.mem_singleton, forall_eq]
    cases hu : upstreamMeter glob W e with
    | error err =>
      simp only [reduceCtorEq, false_implies, implies_true, exists_false, true_and, false_iff, not_exists]
      intro r hr
      rw [← C78_upstream, hu] at hr
      cases hr
    | ok r =>
      have hr := (C78_upstream glob W e r).1 hu
      cases r with
      | none =>
        simp only [Except.ok.injEq, exists_eq', true_iff]
        refine ⟨?_, none, hr⟩
        rintro g' rfl
        refine ⟨hg, fun u v => ?_⟩
        constructor
        · exact .inl
        · rintro (h | ⟨e', he, _, h⟩)
          · exact h
          · rw [List.mem_singleton] at he
            subst he
            exact absurd (C78_unique glob W e' _ _ hr h) (by simp)
      | some n =>
        simp only [Except.ok.injEq, exists_eq', true_iff]
        refine ⟨?_, some n, hr⟩
        rintro g' rfl
        refine ⟨addEdge_wellFormed _ _ _ hg, fun u v => ?_⟩
        rw [addEdge_mem]
        constructor
        · rintro (h | ⟨rfl, rfl⟩)
          · exact .inl h
          · exact .inr ⟨e, List.mem_singleton.2 rfl, rfl, hr⟩
        · rintro (h | ⟨e', he, hv, h⟩)
          · exact .inl h
          · rw [List.mem_singleton] at he
            subst he
            have := C78_unique glob W e' _ _ hr h
            simp only [Option.some.injEq] at this
            exact .inr ⟨this.symm, hv⟩
  | .group n ms ds => by
    simp only [wireMeter, Meter.elecs]
    exact wireMeters_spec glob W g hg ms
theorem wireMeters_spec (glob : List Elec) (W : MeterId → Wire) (g : Graph WNode) (hg : g.WellFormed) :
    (ms : List Meter) → (∀ g', wireMeters glob W g ms = .ok g' →
      g'.WellFormed ∧ ∀ u v, (u, v) ∈ g'.edges ↔ (u, v) ∈ g.edges ∨ Feeds glob W (Meter.elecsOf ms) u v) ∧
      ((∃ g', wireMeters glob W g ms = .ok g') ↔ ∀ e ∈ Meter.elecsOf ms, ∃ r, HasUpstream glob W e r)
  | [] => by
    simp only [wireMeters, Meter.elecsOf, Except.ok.injEq, exists_eq', List.not_mem_nil, false_implies, implies_true,
      and_true]
    rintro g' rfl
    refine ⟨hg, fun u v => ?_⟩
    simp [Feeds]
  | m :: ms => by
    obtain ⟨h1, h2⟩ := wireMeter_spec glob W g hg m
    simp only [wireMeters, Meter.elecsOf, List.mem_append]
    cases hm : wireMeter glob W g m with
    | error err =>
      simp only [reduceCtorEq, false_implies, implies_true, exists_false, true_and, false_iff]
      intro h
      rw [hm] at h2
      obtain ⟨g', hg'⟩ := h2.2 (fun e he => h e (.inl he))
      cases hg'
    | ok g1 =>
      obtain ⟨hw, he⟩ := h1 g1 hm
      obtain ⟨h3, h4⟩ := wireMeters_spec glob W g1 hw ms
      rw [hm] at h2
      simp only
      refine ⟨?_, ?_⟩
      · intro g' hg'
        obtain ⟨h5, h6⟩ := h3 g' hg'
        refine ⟨h5, fun u v => ?_⟩
        rw [h6, he, feeds_append, or_assoc]
      · rw [h4]
        constructor
        · rintro h e (h' | h')
          · exact h2.1 ⟨g1, rfl⟩ e h'
          · exact h e h'
        · exact fun h e h' => h e (.inr h')
end

/-- C78. The wiring graph exists exactly when the upstream of every `ElecMeter` of the group, at any depth, can be found. Its
edges are the pairs of a meter and the one upstream of it, its nodes the ends of the edges. -/
theorem C78_graph (glob : List Elec) (W : MeterId → Wire) (ms : List Meter) :
    ((∃ g, wiringGraph glob W ms = .ok g) ↔ ∀ e ∈ Meter.elecsOf ms, ∃ r, HasUpstream glob W e r) ∧
      ∀ g, wiringGraph glob W ms = .ok g → g.WellFormed ∧
        ∀ u v, (u, v) ∈ g.edges ↔ Feeds glob W (Meter.elecsOf ms) u v := by
  have := wireMeters_spec glob W ⟨[], []⟩ ⟨by simp, by simp, by simp⟩ ms
  refine ⟨this.2, fun g hg => ?_⟩
  obtain ⟨h1, h2⟩ := this.1 g hg
  exact ⟨h1, fun u v => by rw [h2]; simp⟩

/-- C78. No meter has two edges coming in, when an identifier stands for one meter. -/
theorem C78_one_parent (glob : List Elec) (W : MeterId → Wire) (ms : List Meter) (g : Graph WNode)
    (h : wiringGraph glob W ms = .ok g)
    (hid : ∀ a ∈ Meter.elecsOf ms, ∀ b ∈ Meter.elecsOf ms, a.id = b.id → a = b) (u u' v : WNode)
    (h1 : (u, v) ∈ g.edges) (h2 : (u', v) ∈ g.edges) : u = u' := by
  obtain ⟨_, he⟩ := (C78_graph glob W ms).2 g h
  obtain ⟨a, ha, rfl, hu⟩ := (he u v).1 h1
  obtain ⟨b, hb, hv, hu'⟩ := (he u' _).1 h2
  simp only [WNode.elec.injEq] at hv
  have := hid a ha b hb hv
  subst this
  simpa using C78_unique glob W a _ _ hu hu'

/-- C78. `meters_directly_downstream_of_mains` answers exactly when one thing feeds meters without being fed itself. It then
holds the `ElecMeter`s of the group, at any depth, that are fed by it, each once; otherwise `RuntimeError`. -/
theorem C78_direct (glob : List Elec) (W : MeterId → Wire) (ms : List Meter)
    (hup : ∀ e ∈ Meter.elecsOf ms, ∃ r, HasUpstream glob W e r) :
    (∀ r, IsTop glob W (Meter.elecsOf ms) r → (∀ r', IsTop glob W (Meter.elecsOf ms) r' → r' = r) →
      ∃ l, directlyDownstream glob W ms = .ok l ∧ l.Nodup ∧
        ∀ n, n ∈ l ↔ Feeds glob W (Meter.elecsOf ms) r n) ∧
    ((¬ ∃ r, IsTop glob W (Meter.elecsOf ms) r ∧ ∀ r', IsTop glob W (Meter.elecsOf ms) r' → r' = r) →
      directlyDownstream glob W ms = .error .runtimeError) := by
  obtain ⟨hex, hg⟩ := C78_graph glob W ms
  obtain ⟨g, hgok⟩ := hex.2 hup
  obtain ⟨⟨hn, hen, hnodes⟩, he⟩ := hg g hgok
  have htop : ∀ r, IsTop glob W (Meter.elecsOf ms) r ↔ r ∈ g.nodes ∧ ∀ p, (p, r) ∉ g.edges := by
    intro r
    unfold IsTop
    simp only [← he, hnodes]
    constructor
    · rintro ⟨⟨v, hv⟩, h⟩
      exact ⟨⟨v, .inl hv⟩, h⟩
    · rintro ⟨⟨m, hm | hm⟩, h⟩
      · exact ⟨⟨m, hm⟩, h⟩
      · exact absurd hm (h m)
  have hd : directlyDownstream glob W ms = nodesAdjacentToRoot g := by
    unfold directlyDownstream; rw [hgok]
  refine ⟨?_, ?_⟩
  · intro r hr hone
    have hroot : treeRoot g = .ok r := by
      rw [C58_root_iff g hn]
      exact ⟨(htop r).1 hr, fun n h1 h2 => hone n ((htop n).2 ⟨h1, h2⟩)⟩
    obtain ⟨l, hl, hmem⟩ := C58_adjacent g r hroot
    refine ⟨l, hd.trans hl, ?_, fun n => by rw [hmem, he]⟩
    unfold nodesAdjacentToRoot at hl
    rw [hroot] at hl
    simp only [Except.ok.injEq] at hl
    subst hl
    refine (hen.filter _).map_on ?_
    rintro ⟨a, b⟩ h1 ⟨c, d⟩ h2 h3
    rw [List.mem_filter, decide_eq_true_eq] at h1 h2
    simp only at h1 h2 h3
    rw [h1.2, h2.2, h3]
  · intro hno
    have : treeRoot g = .error .runtimeError := by
      rw [C58_error_iff g hn]
      rintro ⟨r, h1, h2⟩
      exact hno ⟨r, (htop r).2 h1, fun r' h' => h2 r' ((htop r').1 h').1 ((htop r').1 h').2⟩
    rw [hd]
    unfold nodesAdjacentToRoot
    rw [this]

/-- C78. In a building where every meter is a site meter, or is fed by the mains `root` or by a meter of the group that is not
a site meter, and something is fed by `root`, the result is what is fed by `root`. Missing: buildings where the mains can be
named in two ways, see the counterexamples. -/
theorem C78_house_partial (glob : List Elec) (W : MeterId → Wire) (ms : List Meter) (root : WNode)
    (hroot : ∀ e ∈ Meter.elecsOf ms, e.site = false → root ≠ .elec e.id)
    (hfed : ∀ e ∈ Meter.elecsOf ms, e.site = false → HasUpstream glob W e (some root) ∨
      ∃ f ∈ Meter.elecsOf ms, f.site = false ∧ HasUpstream glob W e (some (.elec f.id)))
    (hsome : ∃ e ∈ Meter.elecsOf ms, HasUpstream glob W e (some root)) :
    ∃ l, directlyDownstream glob W ms = .ok l ∧ l.Nodup ∧
      ∀ n, n ∈ l ↔ ∃ e ∈ Meter.elecsOf ms, n = .elec e.id ∧ HasUpstream glob W e (some root) := by
  have hnosite : ∀ e u, HasUpstream glob W e (some u) → e.site = false := by
    intro e u h
    cases u <;> exact h.1
  have hup : ∀ e ∈ Meter.elecsOf ms, ∃ r, HasUpstream glob W e r := by
    intro e he
    cases hs : e.site with
    | true => exact ⟨none, .inl hs⟩
    | false =>
      rcases hfed e he hs with h | ⟨f, _, _, h⟩
      · exact ⟨_, h⟩
      · exact ⟨_, h⟩
  refine (C78_direct glob W ms hup).1 root ?_ ?_
  · obtain ⟨e, he, h⟩ := hsome
    refine ⟨⟨.elec e.id, e, he, rfl, h⟩, ?_⟩
    rintro p ⟨f, hf, hr, hu⟩
    exact hroot f hf (hnosite f p hu) hr
  · rintro r ⟨⟨v, e, he, _, hu⟩, hno⟩
    rcases hfed e he (hnosite e r hu) with h | ⟨f, hf, hs, h⟩
    · simpa using C78_unique glob W e _ _ hu h
    · have : r = .elec f.id := by simpa using C78_unique glob W e _ _ hu h
      subst this
      rcases hfed f hf hs with h' | ⟨f', _, _, h'⟩
      · exact absurd ⟨f, hf, rfl, h'⟩ (hno _)
      · exact absurd ⟨f, hf, rfl, h'⟩ (hno _)

/-! ### The upstream meter of a group -/

theorem upstreams_ok (glob : List Elec) (W : MeterId → Wire) (ms : List Meter) (us : List (Option WNode)) :
    Meter.upstreams glob W ms = .ok us ↔ List.Forall₂ (fun m u => m.upstream glob W = .ok u) ms us := by
  induction ms generalizing us with
  | nil => cases us <;> simp [Meter.upstreams]
  | cons m ms ih =>
    rw [Meter.upstreams]
    cases hm : m.upstream glob W with
    | error err =>
      simp only [reduceCtorEq, false_iff]
      intro h
      cases h with
      | cons h _ => rw [hm] at h; cases h
    | ok u =>
      simp only
      cases hms : Meter.upstreams glob W ms with
      | error err =>
        simp only [reduceCtorEq, false_iff]
        intro h
        cases h with
        | cons _ h => rw [← ih, hms] at h; cases h
      | ok us' =>
        simp only [Except.ok.injEq]
        constructor
        · rintro rfl
          exact .cons hm ((ih us').1 hms)
        · intro h
          cases h with
          | cons h1 h2 =>
            rw [hm] at h1
            rw [← ih, hms] at h2
            cases h1; cases h2; rfl

theorem onlyUpstream_ok (us : List (Option WNode)) (r : Option WNode) :
    onlyUpstream us = .ok r ↔ us ≠ [] ∧ ∀ u ∈ us, u = r := by
  have hmem : ∀ u, u ∈ us.dedup ↔ u ∈ us := fun u => List.mem_dedup
  have hnd := List.nodup_dedup us
  unfold onlyUpstream
  generalize us.dedup = d at hmem hnd
  match d with
  | [] =>
    simp only [reduceCtorEq, false_iff, not_and]
    intro h
    obtain ⟨a, ha⟩ := List.exists_mem_of_ne_nil us h
    exact absurd ((hmem a).2 ha) (by simp)
  | [a] =>
    simp only [Except.ok.injEq]
    constructor
    · rintro rfl
      refine ⟨?_, fun u hu => by simpa using (hmem u).2 hu⟩
      rintro rfl
      exact absurd ((hmem a).1 List.mem_cons_self) (by simp)
    · rintro ⟨_, h⟩
      exact h a ((hmem a).1 List.mem_cons_self)
  | a :: b :: l =>
    simp only [reduceCtorEq, false_iff, not_and]
    intro _ h
    have ha := h a ((hmem a).1 List.mem_cons_self)
    have hb := h b ((hmem b).1 (List.mem_cons_of_mem _ List.mem_cons_self))
    rw [ha, hb] at hnd
    simp at hnd

/-- C78. `upstream_meter` of a group returns `r` exactly when the group is not empty and every meter of it has upstream `r`. -/
theorem C78_group (glob : List Elec) (W : MeterId → Wire) (n : String) (ms ds : List Meter) (r : Option WNode) :
    (Meter.group n ms ds).upstream glob W = .ok r ↔ ms ≠ [] ∧ ∀ m ∈ ms, m.upstream glob W = .ok r := by
  rw [Meter.upstream]
  cases hu : Meter.upstreams glob W ms with
  | error err =>
    simp only [reduceCtorEq, false_iff, not_and]
    intro hne h
    have : Meter.upstreams glob W ms = .ok (ms.map (fun _ => r)) := by
      rw [upstreams_ok]
      clear hu hne
      induction ms with
      | nil => exact .nil
      | cons m ms ih =>
        exact .cons (h m List.mem_cons_self) (ih (fun x hx => h x (List.mem_cons_of_mem _ hx)))
    rw [this] at hu
    cases hu
  | ok us =>
    simp only
    rw [onlyUpstream_ok]
    rw [upstreams_ok] at hu
    constructor
    · rintro ⟨h1, h2⟩
      refine ⟨?_, ?_⟩
      · rintro rfl
        cases hu
        exact h1 rfl
      · clear h1
        induction hu with
        | nil => simp
        | cons h _ ih =>
          rename_i a b l1 l2 _
          intro m hm
          have hb := h2 b List.mem_cons_self
          rcases List.mem_cons.1 hm with rfl | hm
          · rw [h, hb]
          · exact ih (fun u hu => h2 u (List.mem_cons_of_mem _ hu)) m hm
    · rintro ⟨h1, h2⟩
      refine ⟨?_, ?_⟩
      · rintro rfl
        cases hu
        exact h1 rfl
      · clear h1
        induction hu with
        | nil => simp
        | cons h _ ih =>
          rename_i a b l1 l2 _
          intro u hu'
          have hb := h2 a List.mem_cons_self
          rcases List.mem_cons.1 hu' with rfl | hu'
          · rw [h] at hb; exact Except.ok.inj hb
          · exact ih (fun u hu => h2 u (List.mem_cons_of_mem _ hu)) u hu'

/-- C78. `RuntimeError` when two meters of the group have different upstreams and every upstream is found; `IndexError` for an
empty group. -/
theorem C78_group_error (glob : List Elec) (W : MeterId → Wire) (n : String) (ms ds : List Meter) :
    (ms = [] → (Meter.group n ms ds).upstream glob W = .error .indexError) ∧
    ((∀ m ∈ ms, ∃ r, m.upstream glob W = .ok r) →
      (∃ a ∈ ms, ∃ b ∈ ms, a.upstream glob W ≠ b.upstream glob W) →
      (Meter.group n ms ds).upstream glob W = .error .runtimeError) := by
  refine ⟨?_, ?_⟩
  · rintro rfl
    rfl
  · rintro hok ⟨a, ha, b, hb, hab⟩
    have hus : ∃ us, Meter.upstreams glob W ms = .ok us := by
      simp only [upstreams_ok]
      clear ha hb hab
      induction ms with
      | nil => exact ⟨[], .nil⟩
      | cons m ms ih =>
        obtain ⟨r, hr⟩ := hok m List.mem_cons_self
        obtain ⟨us, h⟩ := ih (fun x hx => hok x (List.mem_cons_of_mem _ hx))
        exact ⟨r :: us, .cons hr h⟩
    obtain ⟨us, hus⟩ := hus
    have hno : ∀ r, (Meter.group n ms ds).upstream glob W ≠ .ok r := by
      intro r h
      rw [C78_group] at h
      exact hab ((h.2 a ha).trans (h.2 b hb).symm)
    rw [Meter.upstream, hus] at hno ⊢
    simp only at hno ⊢
    unfold onlyUpstream at hno ⊢
    split
    · rename_i hd
      rw [List.dedup_eq_nil] at hd
      subst hd
      rw [upstreams_ok] at hus
      cases hus
      cases ha
    · rename_i u hd
      rw [hd] at hno
      exact absurd rfl (hno u)
    · rfl

/-! ### Examples and counterexamples -/

/-- A meter of building 1. -/
def wMeter (i : Int) (site : Bool) : Elec := ⟨⟨.one i, 1, "REDD"⟩, site, TF.mk' none none⟩
/-- Meter 1 is the mains, 2 and 3 are fed by it, 4 by 3, and 5 by meter 1 given by its number. -/
def wWires (id : MeterId) : Wire :=
  if id.inst = .one 4 then ⟨some 3, none⟩ else if id.inst = .one 5 then ⟨some 1, none⟩ else ⟨some 0, none⟩
/-- The identifier of meter `i`. -/
def wId (i : Int) : MeterId := ⟨.one i, 1, "REDD"⟩

example : directlyDownstream [wMeter 1 true, wMeter 2 false, wMeter 3 false, wMeter 4 false, wMeter 5 false] wWires
    [.elec (wMeter 1 true), .group "" [.elec (wMeter 2 false), .elec (wMeter 3 false)] [], .elec (wMeter 4 false),
      .elec (wMeter 5 false)] = .ok [.elec (wId 2), .elec (wId 3), .elec (wId 5)] := by decide +kernel

example : (Meter.group "" [.elec (wMeter 2 false), .elec (wMeter 3 false)] []).upstream
    [wMeter 1 true, wMeter 2 false, wMeter 3 false] wWires = .ok (some (.elec (wId 1))) := by decide +kernel

example : ∃ l, directlyDownstream [wMeter 1 true, wMeter 3 false, wMeter 4 false] wWires
    [.elec (wMeter 1 true), .group "" [.elec (wMeter 3 false)] [], .elec (wMeter 4 false)] = .ok l ∧ l.Nodup ∧
      ∀ n, n ∈ l ↔ ∃ e ∈ [wMeter 1 true, wMeter 3 false, wMeter 4 false], n = .elec e.id ∧
        HasUpstream [wMeter 1 true, wMeter 3 false, wMeter 4 false] wWires e (some (.elec (wId 1))) := by
  refine C78_house_partial [wMeter 1 true, wMeter 3 false, wMeter 4 false] wWires
    [.elec (wMeter 1 true), .group "" [.elec (wMeter 3 false)] [], .elec (wMeter 4 false)] (.elec (wId 1)) ?_ ?_ ?_
  · show ∀ e ∈ [wMeter 1 true, wMeter 3 false, wMeter 4 false], _
    decide +kernel
  · show ∀ e ∈ [wMeter 1 true, wMeter 3 false, wMeter 4 false], _ → _ ∨
      ∃ f ∈ [wMeter 1 true, wMeter 3 false, wMeter 4 false], _
    simp only [← C78_upstream]
    decide +kernel
  · show ∃ e ∈ [wMeter 1 true, wMeter 3 false, wMeter 4 false], _
    simp only [← C78_upstream]
    decide +kernel

/-- With two site meters, a submeter of `0` is fed by the group of both and a submeter of `1` by the first: two roots, and
`meters_directly_downstream_of_mains` raises `RuntimeError`. -/
theorem C78_two_mains_counterexample :
    directlyDownstream [wMeter 1 true, wMeter 6 true, wMeter 2 false, wMeter 5 false] wWires
      [.elec (wMeter 1 true), .elec (wMeter 6 true), .elec (wMeter 2 false), .elec (wMeter 5 false)] =
      .error .runtimeError ∧
    upstreamMeter [wMeter 1 true, wMeter 6 true, wMeter 2 false, wMeter 5 false] wWires (wMeter 2 false) =
      .ok (some (.mains [wId 1, wId 6])) ∧
    upstreamMeter [wMeter 1 true, wMeter 6 true, wMeter 2 false, wMeter 5 false] wWires (wMeter 5 false) =
      .ok (some (.elec (wId 1))) := by
  decide +kernel

/-- A redundant site meter, disabled in the group of its building, still counts: the upstream of a submeter is the group of
both site meters, although `mains()` of the building is one meter. -/
theorem C78_disabled_counterexample :
    upstreamMeter [wMeter 1 true, wMeter 6 true, wMeter 2 false] wWires (wMeter 2 false) =
      .ok (some (.mains [wId 1, wId 6])) ∧
    mains [.elec (wMeter 6 true), .elec (wMeter 2 false)] = .ok (some (.elec (wMeter 6 true))) := by
  refine ⟨by decide +kernel, rfl⟩

/-- A building with nothing but mains, or without mains, has no root: `RuntimeError` and no empty group. -/
theorem C78_no_root_counterexample :
    directlyDownstream [wMeter 1 true] wWires [.elec (wMeter 1 true)] = .error .runtimeError ∧
    directlyDownstream [wMeter 2 false, wMeter 3 false] wWires [.elec (wMeter 2 false), .elec (wMeter 3 false)] =
      .error .runtimeError := by
  decide +kernel

end Nilmtk
