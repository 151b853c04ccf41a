import Verif.Lemmas.Group
import Verif.Lemmas.TimeFrame
import Mathlib.Data.List.Sort
import Mathlib.Tactic.ByContra
/-!
C52 (mains and submeters), C53 (equality and hashing), C54 (union), C55 (time frame of a group), C64 (pairing of
submeters).
-/
namespace Nilmtk
open TF

/-! ### Sample meters -/

/-- A meter with the given number, building and site flag. -/
def exMeter (i b : Int) (site : Bool) : Meter := .elec ⟨⟨.one i, b, "REDD"⟩, site, TF.mk' (some i) (some (i + 10))⟩

/-! ### C53 -/

/-- Hashes agree with equality one way: the same hash means the same meters. -/
theorem C53_same_hash_equal (a b : Meter) (h : a.hashKey = b.hashKey) : a.pyEq b = true := pyEq_of_hash a b h

/-- What `==` between two groups means: each lists the same set of meters, whatever the order, the repetitions, the
names and the disabled meters. (Two meters are the same member of a set when they hash alike.) -/
theorem C53_eq_iff (n n' : String) (ms ds ns ds' : List Meter) :
    (Meter.group n ms ds).pyEq (.group n' ns ds') = true ↔
      (∀ x ∈ ms, ∃ y ∈ ns, x.hashKey = y.hashKey) ∧ (∀ y ∈ ns, ∃ x ∈ ms, x.hashKey = y.hashKey) := by
  simp only [Meter.pyEq, Bool.and_eq_true, List.all_eq_true, allIn_iff, anyIs_iff]

/-- Two single meters are equal exactly when their identifiers are. -/
theorem C53_meter_eq_iff (a b : Elec) : (Meter.elec a).pyEq (.elec b) = true ↔ a.id = b.id := by simp [Meter.pyEq]

/-- A meter never equals a group. -/
theorem C53_meter_ne_group (a : Elec) (n : String) (ms ds : List Meter) :
    (Meter.elec a).pyEq (.group n ms ds) = false ∧ (Meter.group n ms ds).pyEq (.elec a) = false := by
  simp [Meter.pyEq]

/-- `==` is an equivalence relation. -/
theorem C53_equivalence : Equivalence (fun a b : Meter => a.pyEq b = true) :=
  ⟨pyEq_refl, fun {a b} h => pyEq_symm a b h, fun {a b c} h h' => pyEq_trans a b c h h'⟩

/-- `group` equals each group that lists the same meters in another order. -/
theorem C53_order_ignored (n n' : String) (ms ns ds ds' : List Meter) (h : ms.Perm ns) :
    (Meter.group n ms ds).pyEq (.group n' ns ds') = true := by
  rw [pyEq_group_iff]
  exact fun k => (h.map Meter.hashKey).mem_iff

/-- Equal groups need not have equal hashes: the order of the meters counts for the hash only. -/
theorem C53_agree_counterexample :
    ∃ a b : Meter, a.pyEq b = true ∧ a.hashKey ≠ b.hashKey := by
  refine ⟨mkGroup [exMeter 1 1 false, exMeter 2 1 false], mkGroup [exMeter 2 1 false, exMeter 1 1 false], ?_, ?_⟩
  · exact C53_order_ignored _ _ _ _ _ _ (List.Perm.swap _ _ _)
  · simp [mkGroup, Meter.hashKey, Meter.hashKeys, exMeter]

/-- Nor when only the disabled meters differ. -/
theorem C53_disabled_counterexample :
    ∃ ms ds : List Meter, (Meter.group "" ms ds).pyEq (.group "" ms []) = true ∧
      (Meter.group "" ms ds).hashKey ≠ (Meter.group "" ms []).hashKey := by
  refine ⟨[exMeter 1 1 false], [exMeter 2 1 false], ?_, ?_⟩
  · exact C53_order_ignored _ _ _ _ _ _ (List.Perm.refl _)
  · simp [Meter.hashKey, Meter.hashKeys, exMeter]

/-- What is left of the claim: equal groups with the same name and disabled meters, both listing their meters in a common
strict order of hashes, have equal hashes. Missing: groups listing their meters in different orders, see
`C53_agree_counterexample`. -/
theorem C53_agree_partial (lt : HKey → HKey → Prop) (hirr : ∀ a, ¬ lt a a) (htr : ∀ a b c, lt a b → lt b c → lt a c)
    (n : String) (ms ns ds : List Meter)
    (hm : (ms.map Meter.hashKey).Pairwise lt) (hn : (ns.map Meter.hashKey).Pairwise lt)
    (h : (Meter.group n ms ds).pyEq (.group n ns ds) = true) :
    (Meter.group n ms ds).hashKey = (Meter.group n ns ds).hashKey := by
  rw [pyEq_group_iff] at h
  have nd : ∀ l : List HKey, l.Pairwise lt → l.Nodup := fun l hl => by
    refine List.Pairwise.imp (R := lt) ?_ hl
    rintro a b hab rfl
    exact hirr a hab
  have hp : (ms.map Meter.hashKey).Perm (ns.map Meter.hashKey) := (List.perm_ext_iff_of_nodup (nd _ hm) (nd _ hn)).2 h
  have he : ms.map Meter.hashKey = ns.map Meter.hashKey := by
    apply hp.eq_of_pairwise (le := lt) ?_ hm hn
    intro a b _ _ hab hba
    exact absurd (htr _ _ _ hab hba) (hirr a)
  simp only [Meter.hashKey, hashKeys_eq, he]

example : ([exMeter 1 1 false, exMeter 2 1 true].map Meter.hashKey).Pairwise
    (fun a b => ∃ i j : Int, a = .meter ⟨.one i, 1, "REDD"⟩ ∧ b = .meter ⟨.one j, 1, "REDD"⟩ ∧ i < j) := by
  simp [exMeter, Meter.hashKey]

/-! ### C54 -/

/-- The meters of the union are those of both groups: every meter object of the result is one of theirs, and each of
their meters has an equal (same hash) meter in the result. -/
theorem C54_members (order : List Meter → List Meter) (ho : ∀ l, (order l).Perm l) (n n' : String)
    (ms ds ns ds' : List Meter) : ∃ us, groupUnion order (.group n ms ds) (.group n' ns ds') = .ok (mkGroup us) ∧
      (∀ m ∈ us, m ∈ ms ∨ m ∈ ns) ∧ (∀ m, m ∈ ms ∨ m ∈ ns → ∃ u ∈ us, u.hashKey = m.hashKey) := by
  refine ⟨_, rfl, ?_, ?_⟩
  · intro m hm
    have := (pySetFrom_spec (ms ++ ns) [] (by simp)).2.2.1 m ((ho _).mem_iff.1 hm)
    simpa using this
  · intro m hm
    have h2 := (pySetFrom_spec (ms ++ ns) [] (by simp)).2.1 m.hashKey
    have : m.hashKey ∈ (pySetFrom [] (ms ++ ns)).map Meter.hashKey :=
      h2.2 (Or.inr (List.mem_map_of_mem (List.mem_append.2 hm)))
    obtain ⟨u, hu, e⟩ := List.mem_map.1 this
    exact ⟨u, (ho _).mem_iff.2 hu, e⟩

/-- No two meters of the union hash alike; in particular no two single meters of the union are equal. -/
theorem C54_no_duplicates (order : List Meter → List Meter) (ho : ∀ l, (order l).Perm l) (n n' : String)
    (ms ds ns ds' us : List Meter) (h : groupUnion order (.group n ms ds) (.group n' ns ds') = .ok (mkGroup us)) :
    (us.map Meter.hashKey).Nodup ∧
      us.Pairwise (fun a b => ∀ e e', a = .elec e → b = .elec e' → a.pyEq b = false) := by
  have hu : us = order (pySetFrom [] (ms ++ ns)) := by
    simp only [groupUnion, mkGroup, Except.ok.injEq, Meter.group.injEq] at h
    exact h.2.1.symm
  have hn : (us.map Meter.hashKey).Nodup := by
    rw [hu]
    exact ((ho _).map Meter.hashKey).nodup_iff.2 (pySetFrom_spec (ms ++ ns) [] (by simp)).1
  refine ⟨hn, ?_⟩
  rw [List.Nodup, List.pairwise_map] at hn
  refine hn.imp ?_
  rintro a b hab e e' rfl rfl
  simp only [Meter.hashKey, ne_eq, HKey.meter.injEq] at hab
  simpa [Meter.pyEq] using hab

/-- With nested groups the union may list two equal members, because equal groups may hash differently. -/
theorem C54_duplicates_counterexample :
    ∃ a b x y : Meter, groupUnion id a b = .ok (mkGroup [x, y]) ∧ x.pyEq y = true := by
  let x := mkGroup [exMeter 1 1 false, exMeter 2 1 false]
  let y := mkGroup [exMeter 2 1 false, exMeter 1 1 false]
  refine ⟨mkGroup [x], mkGroup [y], x, y, ?_, ?_⟩
  · have : sameHash y x = false := by
      rw [Bool.eq_false_iff, ne_eq, sameHash_iff]
      simp [x, y, mkGroup, Meter.hashKey, Meter.hashKeys, exMeter]
    have e : pySetFrom [] ([x] ++ [y]) = [x, y] := by simp [pySetFrom, this]
    simp only [groupUnion, mkGroup, id, e]
  · exact C53_order_ignored _ _ _ _ _ _ (List.Perm.swap _ _ _)

/-- `a.union(b) == b.union(a)`. -/
theorem C54_commutative (order : List Meter → List Meter) (ho : ∀ l, (order l).Perm l) (n n' : String)
    (ms ds ns ds' : List Meter) (u v : Meter)
    (hu : groupUnion order (.group n ms ds) (.group n' ns ds') = .ok u)
    (hv : groupUnion order (.group n' ns ds') (.group n ms ds) = .ok v) : u.pyEq v = true := by
  simp only [groupUnion, Except.ok.injEq] at hu hv
  subst hu; subst hv
  rw [mkGroup, mkGroup, pyEq_group_iff]
  intro k
  rw [((ho _).map _).mem_iff, ((ho _).map _).mem_iff, (pySetFrom_spec (ms ++ ns) [] (by simp)).2.1,
    (pySetFrom_spec (ns ++ ms) [] (by simp)).2.1]
  simp only [List.map_append, List.mem_append]
  tauto

/-- `a.union(a) == a`. -/
theorem C54_idempotent (order : List Meter → List Meter) (ho : ∀ l, (order l).Perm l) (n : String)
    (ms ds : List Meter) (u : Meter) (hu : groupUnion order (.group n ms ds) (.group n ms ds) = .ok u) :
    u.pyEq (.group n ms ds) = true := by
  simp only [groupUnion, Except.ok.injEq] at hu
  subst hu
  rw [mkGroup, pyEq_group_iff]
  intro k
  rw [((ho _).map _).mem_iff, (pySetFrom_spec (ms ++ ms) [] (by simp)).2.1]
  simp

/-- `a.union(b).union(c) == a.union(b.union(c))`. -/
theorem C54_associative (order : List Meter → List Meter) (ho : ∀ l, (order l).Perm l) (n₁ n₂ n₃ : String)
    (a b c da db dc : List Meter) (u v x y : Meter)
    (hu : groupUnion order (.group n₁ a da) (.group n₂ b db) = .ok u) (hx : groupUnion order u (.group n₃ c dc) = .ok x)
    (hv : groupUnion order (.group n₂ b db) (.group n₃ c dc) = .ok v) (hy : groupUnion order (.group n₁ a da) v = .ok y) :
    x.pyEq y = true := by
  have key : ∀ l k, k ∈ (order (pySetFrom [] l)).map Meter.hashKey ↔ k ∈ l.map Meter.hashKey := by
    intro l k
    rw [((ho _).map _).mem_iff, (pySetFrom_spec l [] (by simp)).2.1]; simp
  simp only [groupUnion, Except.ok.injEq] at hu hv
  subst hu; subst hv
  simp only [groupUnion, mkGroup, Except.ok.injEq] at hx hy
  subst hx; subst hy
  rw [pyEq_group_iff]
  intro k
  rw [key, key, List.map_append, List.map_append, List.mem_append, List.mem_append, key, key, List.map_append,
    List.map_append, List.mem_append, List.mem_append, or_assoc]

/-- Equal operands give equal unions. -/
theorem C54_congruent (order : List Meter → List Meter) (ho : ∀ l, (order l).Perm l) (n₁ n₂ n₃ : String)
    (a b c da db dc : List Meter) (u v : Meter) (h : (Meter.group n₁ a da).pyEq (.group n₂ b db) = true)
    (hu : groupUnion order (.group n₁ a da) (.group n₃ c dc) = .ok u)
    (hv : groupUnion order (.group n₂ b db) (.group n₃ c dc) = .ok v) : u.pyEq v = true := by
  rw [pyEq_group_iff] at h
  simp only [groupUnion, Except.ok.injEq] at hu hv
  subst hu; subst hv
  rw [mkGroup, mkGroup, pyEq_group_iff]
  intro k
  rw [((ho _).map _).mem_iff, ((ho _).map _).mem_iff, (pySetFrom_spec (a ++ c) [] (by simp)).2.1,
    (pySetFrom_spec (b ++ c) [] (by simp)).2.1]
  simp only [List.map_append, List.mem_append, h k]

/-- A union with something that is not a group raises `TypeError`. -/
theorem C54_not_a_group (order : List Meter → List Meter) (n : String) (ms ds : List Meter) (e : Elec) :
    groupUnion order (.group n ms ds) (.elec e) = .error .typeError := rfl

/-- The union loses the disabled meters of its operands: it is not interchangeable with them although it compares
equal. -/
theorem C54_disabled_lost_counterexample :
    ∃ (ms ds us ds' : List Meter) (n : String), groupUnion id (.group "" ms ds) (.group "" ms ds) = .ok (.group n us ds') ∧
      (Meter.group n us ds').pyEq (.group "" ms ds) = true ∧ ds ≠ [] ∧ ds' = [] :=
  ⟨[exMeter 1 1 false], [exMeter 2 1 false], _, _, _, rfl,
    C54_idempotent id (fun l => List.Perm.refl l) "" [exMeter 1 1 false] [exMeter 2 1 false] _ rfl, by simp, rfl⟩

example : groupUnion id (mkGroup [exMeter 1 1 false, exMeter 2 1 false]) (mkGroup [exMeter 2 1 true, exMeter 3 1 false]) =
    .ok (mkGroup [exMeter 1 1 false, exMeter 2 1 false, exMeter 3 1 false]) := by
  simp [groupUnion, mkGroup, pySetFrom, sameHash, Meter.hashKey, HKey.beq, Meter.pyEq, exMeter]

/-! ### C52 -/

/-- A meter or group contains a site meter. -/
inductive HasSite : Meter → Prop where
  | elec (e : Elec) : e.site = true → HasSite (.elec e)
  | group (n : String) (ms ds : List Meter) (m : Meter) : m ∈ ms → HasSite m → HasSite (.group n ms ds)

mutual
theorem hasSite_of_isSite : ∀ m : Meter, m.isSite = true → HasSite m
  | .elec e, h => .elec e (by simpa [Meter.isSite] using h)
  | .group n ms ds, h => by
    obtain ⟨m, hm, hs⟩ := hasSite_of_anySite ms (by simpa [Meter.isSite] using h)
    exact .group n ms ds m hm hs
theorem hasSite_of_anySite : ∀ ms : List Meter, Meter.anySite ms = true → ∃ m ∈ ms, HasSite m
  | [], h => by simp [Meter.anySite] at h
  | m :: ms, h => by
    simp only [Meter.anySite, Bool.or_eq_true] at h
    rcases h with h | h
    · exact ⟨m, by simp, hasSite_of_isSite m h⟩
    · obtain ⟨x, hx, hs⟩ := hasSite_of_anySite ms h
      exact ⟨x, by simp [hx], hs⟩
end

theorem anySite_of_mem {ms : List Meter} {m : Meter} (hm : m ∈ ms) (h : m.isSite = true) : Meter.anySite ms = true := by
  induction ms with
  | nil => simp at hm
  | cons a l ih =>
    rcases List.mem_cons.1 hm with rfl | hm
    · simp [Meter.anySite, h]
    · simp [Meter.anySite, ih hm]

/-- `is_site_meter` answers whether the meter, or a meter of the group at any depth, is a site meter. -/
theorem C52_is_site_meter (m : Meter) : m.isSite = true ↔ HasSite m := by
  refine ⟨hasSite_of_isSite m, fun h => ?_⟩
  induction h with
  | elec e he => simpa [Meter.isSite] using he
  | group n ms ds m hm _ ih => simpa [Meter.isSite] using anySite_of_mem hm ih

/-- What `mains()` returns for given site meters: nothing, the only one, or a new group of them all. -/
def MainsOf (site : List Meter) (r : Option Meter) : Prop :=
  (site = [] ∧ r = none) ∨ (∃ m, site = [m] ∧ r = some m) ∨ (2 ≤ site.length ∧ r = some (.group "" site []))

theorem filter_perm (p : Meter → Bool) (ms : List Meter) :
    (ms.filter p ++ ms.filter (fun m => !p m)).Perm ms := by
  induction ms with
  | nil => simp
  | cons a l ih =>
    by_cases h : p a = true
    · simp only [List.filter_cons, h, if_pos, List.cons_append]
      simpa using ih.cons a
    · simp only [List.filter_cons, h]
      simp only [Bool.not_eq_true] at h
      simp only [Bool.not_false, if_pos, Bool.false_eq_true, if_false]
      exact List.perm_middle.trans (ih.cons a)

/-- Every meter of the group goes to exactly one side: what `mains()` returns is made of the meters containing a site
meter, `submeters()` has all the others, in the group's order. -/
theorem C52_partition (ms : List Meter) (r : Option Meter) (h : mains ms = .ok r) :
    ∃ site, MainsOf site r ∧ (site ++ submeters ms).Perm ms ∧ site.Sublist ms ∧ (submeters ms).Sublist ms ∧
      (∀ m ∈ site, HasSite m) ∧ (∀ m ∈ submeters ms, ¬ HasSite m) := by
  refine ⟨ms.filter (fun m => m.isSite), ?_, filter_perm _ ms, List.filter_sublist, List.filter_sublist, ?_, ?_⟩
  · unfold mains at h
    split at h
    · cases h
    · split at h
      · rename_i e; cases h; exact Or.inl ⟨e, rfl⟩
      · rename_i m e; cases h; exact Or.inr (Or.inl ⟨m, e, rfl⟩)
      · rename_i h1 h2
        cases h
        refine Or.inr (Or.inr ⟨?_, rfl⟩)
        generalize ms.filter (fun m => m.isSite) = s at *
        match s, h1, h2 with
        | [], h1, _ => exact absurd rfl h1
        | [x], _, h2 => exact absurd rfl (h2 x)
        | _ :: _ :: _, _, _ => simp
  · intro m hm
    exact (C52_is_site_meter m).1 (List.mem_filter.1 hm).2
  · intro m hm hs
    have := (List.mem_filter.1 hm).2
    rw [(C52_is_site_meter m).2 hs] at this
    cases this

example : mains [exMeter 1 1 true, exMeter 2 1 false, exMeter 3 1 true] =
    .ok (some (mkGroup [exMeter 1 1 true, exMeter 3 1 true])) := by
  simp [mains, multipleBuildings, mkGroup, Meter.building, Meter.buildings, bldSetFrom, Bld.beq, simplestTypeFor, exMeter,
    Meter.isSite, List.filter_cons]

/-- An enabled meter of a group, at any depth. -/
inductive Reads (e : Elec) : Meter → Prop where
  | self : Reads e (.elec e)
  | group (n : String) (ms ds : List Meter) (m : Meter) : m ∈ ms → Reads e m → Reads e (.group n ms ds)

/-- No nested group is without meters. -/
inductive NoEmptyGroup : Meter → Prop where
  | elec (e : Elec) : NoEmptyGroup (.elec e)
  | group (n : String) (ms ds : List Meter) : ms ≠ [] → (∀ m ∈ ms, NoEmptyGroup m) → NoEmptyGroup (.group n ms ds)

mutual
theorem Bld.beq_iff : ∀ a b : Bld, Bld.beq a b = true ↔ a = b
  | .none, .none => by simp [Bld.beq]
  | .one a, .one b => by simp [Bld.beq]
  | .many as, .many bs => by simp [Bld.beq, Bld.beqs_iff as bs]
  | .none, .one _ => by simp [Bld.beq]
  | .none, .many _ => by simp [Bld.beq]
  | .one _, .none => by simp [Bld.beq]
  | .one _, .many _ => by simp [Bld.beq]
  | .many _, .none => by simp [Bld.beq]
  | .many _, .one _ => by simp [Bld.beq]
theorem Bld.beqs_iff : ∀ as bs : List Bld, Bld.beqs as bs = true ↔ as = bs
  | [], [] => by simp [Bld.beqs]
  | a :: as, b :: bs => by simp [Bld.beqs, Bld.beq_iff a b, Bld.beqs_iff as bs]
  | [], _ :: _ => by simp [Bld.beqs]
  | _ :: _, [] => by simp [Bld.beqs]
end

theorem bldSetFrom_spec (xs : List Bld) : ∀ acc : List Bld, acc.Nodup →
    (bldSetFrom acc xs).Nodup ∧ ∀ k, k ∈ bldSetFrom acc xs ↔ k ∈ acc ∨ k ∈ xs := by
  induction xs with
  | nil => intro acc h; simp [bldSetFrom, h]
  | cons x xs ih =>
    intro acc hn
    have hf : acc.any (fun y => Bld.beq x y) = true ↔ x ∈ acc := by simp [List.any_eq_true, Bld.beq_iff]
    unfold bldSetFrom
    split
    · rename_i h
      rw [hf] at h
      obtain ⟨h1, h2⟩ := ih acc hn
      refine ⟨h1, fun k => ?_⟩
      rw [h2, List.mem_cons]
      constructor
      · rintro (h | h) <;> simp [h]
      · rintro (h' | rfl | h')
        · exact Or.inl h'
        · exact Or.inl h
        · exact Or.inr h'
    · rename_i h
      rw [hf] at h
      obtain ⟨h1, h2⟩ := ih (acc ++ [x]) (by
        rw [List.nodup_append]
        refine ⟨hn, by simp, ?_⟩
        intro a ha b hb e
        rw [List.mem_singleton] at hb
        subst hb; subst e; exact h ha)
      refine ⟨h1, fun k => ?_⟩
      rw [h2]; simp only [List.mem_append, List.mem_cons, List.not_mem_nil, or_false]; tauto

theorem buildings_eq (ms : List Meter) : Meter.buildings ms = ms.map Meter.building := by
  induction ms with
  | nil => simp [Meter.buildings]
  | cons m ms ih => simp [Meter.buildings, ih]

/-- The result of `building()` of a group, by the set of its members' results. -/
theorem building_group_cases (n : String) (ms ds : List Meter) :
    (ms = [] ∧ (Meter.group n ms ds).building = .none) ∨
    (∃ b, (∀ m ∈ ms, m.building = b) ∧ ms ≠ [] ∧ (Meter.group n ms ds).building = b) ∨
    (∃ bs, 2 ≤ bs.length ∧ (Meter.group n ms ds).building = .many bs ∧ ∃ m ∈ ms, ∃ m' ∈ ms, m.building ≠ m'.building) := by
  have hs := bldSetFrom_spec (Meter.buildings ms) [] (by simp)
  rw [Meter.building]
  rw [buildings_eq] at *
  generalize bldSetFrom [] (ms.map Meter.building) = l at *
  obtain ⟨hn, hk⟩ := hs
  match l, hn, hk with
  | [], _, hk =>
    left
    cases ms with
    | nil => simp [simplestTypeFor]
    | cons m ms => exact absurd ((hk m.building).2 (by simp)) (by simp)
  | [b], _, hk =>
    right; left
    refine ⟨b, ?_, ?_, by simp [simplestTypeFor]⟩
    · intro m hm
      have := (hk m.building).2 (Or.inr (List.mem_map_of_mem hm))
      simpa using this
    · rintro rfl
      have := (hk b).1 (by simp)
      simp at this
  | b :: c :: rest, hn, hk =>
    right; right
    refine ⟨b :: c :: rest, by simp, by simp [simplestTypeFor], ?_⟩
    have h1 := (hk b).1 (by simp)
    have h2 := (hk c).1 (by simp)
    simp only [List.not_mem_nil, false_or, List.mem_map] at h1 h2
    obtain ⟨m, hm, e⟩ := h1
    obtain ⟨m', hm', e'⟩ := h2
    refine ⟨m, hm, m', hm', ?_⟩
    rw [e, e']
    rintro rfl
    simp at hn

/-- What `building()` can be: `None` only without meters; one building only when all the meters are in it; otherwise a
tuple of at least two. -/
theorem building_sound : ∀ m : Meter,
    (m.building = .none ∧ ∀ e, ¬ Reads e m) ∨ (∃ b, m.building = .one b ∧ ∀ e, Reads e m → e.id.building = b) ∨
      (∃ bs, m.building = .many bs ∧ 2 ≤ bs.length)
  | .elec e => by
    right; left
    refine ⟨e.id.building, by simp [Meter.building], ?_⟩
    rintro e' ⟨⟩; rfl
  | .group n ms ds => by
    have ih : ∀ m ∈ ms, _ := fun m _hm => building_sound m
    rcases building_group_cases n ms ds with ⟨rfl, h⟩ | ⟨b, hb, hne, h⟩ | ⟨bs, hl, h, -⟩
    · left
      refine ⟨h, ?_⟩
      rintro e (_ | ⟨_, _, _, m, hm, _⟩)
      simp at hm
    · obtain ⟨m0, hm0⟩ := List.exists_mem_of_ne_nil ms hne
      rcases ih m0 hm0 with ⟨h0, -⟩ | ⟨b0, h0, -⟩ | ⟨bs, h0, hl⟩
      · have hbn : b = .none := by rw [← hb m0 hm0, h0]
        left
        refine ⟨by rw [h, hbn], ?_⟩
        rintro e (_ | ⟨_, _, _, m, hm, hr⟩)
        rcases ih m hm with ⟨-, h2⟩ | ⟨b2, h2, -⟩ | ⟨bs, h2, -⟩
        · exact h2 e hr
        · rw [hb m hm, hbn] at h2; cases h2
        · rw [hb m hm, hbn] at h2; cases h2
      · have hbn : b = .one b0 := by rw [← hb m0 hm0, h0]
        right; left
        refine ⟨b0, by rw [h, hbn], ?_⟩
        rintro e (_ | ⟨_, _, _, m, hm, hr⟩)
        rcases ih m hm with ⟨-, h2⟩ | ⟨b2, h2, h3⟩ | ⟨bs, h2, -⟩
        · exact absurd hr (h2 e)
        · rw [hb m hm, hbn] at h2; cases h2; exact h3 e hr
        · rw [hb m hm, hbn] at h2; cases h2
      · right; right
        exact ⟨bs, by rw [h, ← hb m0 hm0, h0], hl⟩
    · right; right
      exact ⟨bs, h, hl⟩
termination_by m => sizeOf m
decreasing_by
  have := List.sizeOf_lt_of_mem _hm
  simp only [Meter.group.sizeOf_spec]
  omega

theorem building_complete (b : Int) : ∀ m : Meter, NoEmptyGroup m → (∀ e, Reads e m → e.id.building = b) →
    m.building = .one b := by
  intro m hm
  induction hm with
  | elec e => intro h; simp [Meter.building, h e .self]
  | group n ms ds hne _ ih =>
    intro h
    have hall : ∀ m ∈ ms, m.building = .one b := fun m hm => ih m hm (fun e he => h e (.group n ms ds m hm he))
    rcases building_group_cases n ms ds with ⟨h0, -⟩ | ⟨c, hc, -, h1⟩ | ⟨bs, -, -, m, hm, m', hm', hne'⟩
    · exact absurd h0 hne
    · obtain ⟨m0, hm0⟩ := List.exists_mem_of_ne_nil ms hne
      rw [h1, ← hc m0 hm0, hall m0 hm0]
    · exact absurd ((hall m hm).trans (hall m' hm').symm) hne'

/-- `mains()` of a group with meters of two buildings raises `RuntimeError`. -/
theorem C52_two_buildings_raise (ms : List Meter) (a b : Elec) (ha : ∃ m ∈ ms, Reads a m) (hb : ∃ m ∈ ms, Reads b m)
    (h : a.id.building ≠ b.id.building) : mains ms = .error .runtimeError := by
  obtain ⟨m, hm, ha⟩ := ha
  obtain ⟨m', hm', hb⟩ := hb
  have ra : Reads a (mkGroup ms) := .group _ _ _ m hm ha
  have rb : Reads b (mkGroup ms) := .group _ _ _ m' hm' hb
  unfold mains
  rw [if_pos]
  unfold multipleBuildings
  rcases building_sound (mkGroup ms) with ⟨-, h0⟩ | ⟨c, -, h0⟩ | ⟨bs, h0, hl⟩
  · exact absurd ra (h0 a)
  · exact absurd ((h0 a ra).trans (h0 b rb).symm) h
  · rw [h0]; simp only [decide_eq_true_eq]; omega

example : mains [exMeter 1 1 true, mkGroup [exMeter 2 2 false]] = .error .runtimeError :=
  C52_two_buildings_raise _ ⟨⟨.one 1, 1, "REDD"⟩, true, TF.mk' (some 1) (some 11)⟩
    ⟨⟨.one 2, 2, "REDD"⟩, false, TF.mk' (some 2) (some 12)⟩ ⟨exMeter 1 1 true, by simp, .self⟩
    ⟨mkGroup [exMeter 2 2 false], by simp, .group _ _ _ (exMeter 2 2 false) (by simp) .self⟩ (by decide)

/-- `mains()` of a group whose meters are all in one building does not raise (unless a nested group has no meters at all).
-/
theorem C52_one_building_ok (ms : List Meter) (b : Int) (hne : ∀ m ∈ ms, NoEmptyGroup m)
    (h : ∀ m ∈ ms, ∀ e, Reads e m → e.id.building = b) : ∃ r, mains ms = .ok r := by
  have hm : multipleBuildings (mkGroup ms) = false := by
    by_cases h0 : ms = []
    · subst h0; simp [multipleBuildings, mkGroup, Meter.building, Meter.buildings, bldSetFrom, simplestTypeFor]
    · have := building_complete b (mkGroup ms) (.group _ _ _ h0 hne) (by
        rintro e (_ | ⟨_, _, _, m, hm, hr⟩); exact h m hm e hr)
      unfold multipleBuildings
      rw [this]
  unfold mains
  rw [hm]
  simp only [Bool.false_eq_true, if_false]
  split
  · exact ⟨_, rfl⟩
  · exact ⟨_, rfl⟩
  · exact ⟨_, rfl⟩

/-- `mains()` refuses a group of a single building when one of its nested groups has no meters. -/
theorem C52_empty_nested_counterexample :
    ∃ ms : List Meter, (∀ m ∈ ms, ∀ e, Reads e m → e.id.building = 1) ∧ mains ms = .error .runtimeError := by
  refine ⟨[exMeter 1 1 true, mkGroup []], ?_, ?_⟩
  · intro m hm e he
    simp only [List.mem_cons, List.not_mem_nil, or_false] at hm
    rcases hm with rfl | rfl
    · cases he; rfl
    · rcases he with _ | ⟨_, _, _, m, hm, _⟩; simp at hm
  · simp [mains, multipleBuildings, mkGroup, Meter.building, Meter.buildings, bldSetFrom, Bld.beq, simplestTypeFor, exMeter]

/-! #### `use_alternative_mains` -/

/-- The number of meters of a list that are equal to a given one. -/
def occurrences (z : Meter) (l : List Meter) : Nat := l.countP (fun m => z.pyEq m)

theorem pyRemove_ok (x : Meter) : ∀ l : List Meter, 0 < occurrences x l → ∃ r, pyRemove x l = .ok r ∧
    ∀ z, occurrences z l = occurrences z r + if z.pyEq x then 1 else 0 := by
  intro l
  induction l with
  | nil => intro h; simp [occurrences] at h
  | cons y ys ih =>
    intro h
    unfold pyRemove
    by_cases hy : y.pyEq x = true
    · refine ⟨ys, by simp [hy], fun z => ?_⟩
      unfold occurrences
      rw [List.countP_cons]
      congr 1
      have : z.pyEq y = z.pyEq x := by
        rw [Bool.eq_iff_iff]
        exact ⟨fun h => pyEq_trans _ _ _ h hy, fun h => pyEq_trans _ _ _ h (pyEq_symm _ _ hy)⟩
      rw [this]
    · have hxy : ¬ x.pyEq y = true := fun h => hy (pyEq_symm _ _ h)
      unfold occurrences at h
      rw [List.countP_cons, if_neg hxy] at h
      obtain ⟨r, hr, hc⟩ := ih h
      refine ⟨y :: r, by simp [hy, hr], fun z => ?_⟩
      have := hc z
      unfold occurrences at this ⊢
      rw [List.countP_cons, List.countP_cons, this]
      omega

theorem occurrences_append (z : Meter) (a b : List Meter) : occurrences z (a ++ b) = occurrences z a + occurrences z b :=
  List.countP_append

theorem occurrences_cons (z a : Meter) (l : List Meter) :
    occurrences z (a :: l) = occurrences z l + if z.pyEq a then 1 else 0 := List.countP_cons

theorem moveMeters_ok (moving : List Meter) : ∀ src dst, (∀ z, occurrences z moving ≤ occurrences z src) →
    ∃ s d, moveMeters moving src dst = .ok (s, d) ∧
      ∀ z, occurrences z src = occurrences z s + occurrences z moving ∧ occurrences z d = occurrences z dst + occurrences z moving := by
  induction moving with
  | nil => intro src dst _; exact ⟨src, dst, rfl, fun z => by simp [occurrences]⟩
  | cons m rest ih =>
    intro src dst h
    have h0 := h m
    rw [occurrences_cons, if_pos (pyEq_refl m)] at h0
    obtain ⟨r, hr, hc⟩ := pyRemove_ok m src (by omega)
    obtain ⟨s, d, hm, hz⟩ := ih r (dst ++ [m]) (fun z => by
      have := h z
      rw [occurrences_cons] at this
      rw [hc z] at this
      omega)
    refine ⟨s, d, by rw [moveMeters, hr]; exact hm, fun z => ?_⟩
    obtain ⟨a, b⟩ := hz z
    rw [occurrences_append] at b
    have hs : occurrences z [m] = if z.pyEq m then 1 else 0 := by
      rw [occurrences_cons]; simp [occurrences]
    have hcz := hc z
    constructor
    · rw [hcz, occurrences_cons, a]; omega
    · rw [occurrences_cons, b, hs]; omega

theorem occurrences_filter_le (z : Meter) (p : Meter → Bool) (l : List Meter) :
    occurrences z (l.filter p) ≤ occurrences z l := List.Sublist.countP_le List.filter_sublist

/-- `use_alternative_mains` raises `RuntimeError` exactly when no disabled meter is a site meter, and otherwise succeeds.
-/
theorem C52_alternative_raises (ms ds : List Meter) :
    useAlternativeMains ms ds = .error .runtimeError ↔ ∀ m ∈ ds, ¬ HasSite m := by
  have hf : (ds.filter (fun m => m.isSite)) = [] ↔ ∀ m ∈ ds, ¬ HasSite m := by
    simp only [List.filter_eq_nil_iff, C52_is_site_meter]
  rw [← hf]
  unfold useAlternativeMains
  constructor
  · intro h
    by_contra hne
    simp only [if_neg hne] at h
    obtain ⟨s, d, h1, hz⟩ := moveMeters_ok (ms.filter (fun m => m.isSite)) ms ds (fun z => occurrences_filter_le z _ ms)
    rw [h1] at h
    obtain ⟨s2, d2, h2, -⟩ := moveMeters_ok (ds.filter (fun m => m.isSite)) d s (fun z => by
      rw [(hz z).2]; exact le_trans (occurrences_filter_le z _ ds) (Nat.le_add_right _ _))
    simp [h2] at h
  · intro h; simp [h]

/-- `use_alternative_mains` neither loses nor duplicates a meter: whatever the lists, the enabled and disabled meters
together are the same as before, up to `==`. -/
theorem C52_alternative_total (ms ds : List Meter) (h : ∃ m ∈ ds, HasSite m) : ∃ ms' ds',
    useAlternativeMains ms ds = .ok (ms', ds') ∧ ∀ z, occurrences z (ms' ++ ds') = occurrences z (ms ++ ds) := by
  have hne : ¬ (ds.filter (fun m => m.isSite)) = [] := by
    obtain ⟨m, hm, hs⟩ := h
    intro he
    have := List.filter_eq_nil_iff.1 he m hm
    exact this ((C52_is_site_meter m).2 hs)
  obtain ⟨s, d, h1, hz⟩ := moveMeters_ok (ms.filter (fun m => m.isSite)) ms ds (fun z => occurrences_filter_le z _ ms)
  obtain ⟨s2, d2, h2, hz2⟩ := moveMeters_ok (ds.filter (fun m => m.isSite)) d s (fun z => by
    rw [(hz z).2]; exact le_trans (occurrences_filter_le z _ ds) (Nat.le_add_right _ _))
  refine ⟨d2, s2, by simp [useAlternativeMains, hne, h1, h2], fun z => ?_⟩
  rw [occurrences_append, occurrences_append]
  have := hz z
  have := hz2 z
  omega

theorem pyRemove_first (x : Meter) (pre post : List Meter) (h : ∀ y ∈ pre, y.pyEq x = false) :
    pyRemove x (pre ++ x :: post) = .ok (pre ++ post) := by
  induction pre with
  | nil => simp [pyRemove, pyEq_refl]
  | cons a l ih =>
    simp [pyRemove, h a (by simp), ih (fun y hy => h y (by simp [hy]))]

theorem moveMeters_exact (p : Meter → Bool) (l : List Meter) : ∀ (pre tail dst : List Meter),
    (pre ++ l).Pairwise (fun a b => a.pyEq b = false) →
    moveMeters (l.filter p) (pre ++ l ++ tail) dst = .ok (pre ++ l.filter (fun m => !p m) ++ tail, dst ++ l.filter p) := by
  induction l with
  | nil => intro pre tail dst _; simp [moveMeters]
  | cons a l ih =>
    intro pre tail dst hp
    by_cases ha : p a = true
    · have e : pyRemove a (pre ++ a :: l ++ tail) = .ok (pre ++ l ++ tail) := by
        rw [List.append_assoc, List.cons_append, pyRemove_first a pre (l ++ tail) (fun y hy => by
          exact (List.pairwise_append.1 hp).2.2 y hy a (by simp)), List.append_assoc]
      rw [List.filter_cons_of_pos ha, moveMeters, e]
      simp only
      rw [ih pre tail (dst ++ [a]) (by
        rw [List.pairwise_append] at hp ⊢
        exact ⟨hp.1, (List.pairwise_cons.1 hp.2.1).2, fun x hx y hy => hp.2.2 x hx y (by simp [hy])⟩)]
      simp [ha]
    · simp only [Bool.not_eq_true] at ha
      have := ih (pre ++ [a]) tail dst (by simpa using hp)
      simp only [List.filter_cons, ha, Bool.false_eq_true, if_false, Bool.not_false, if_true]
      simpa using this

/-- With no repeated meters, the result of `use_alternative_mains` exactly: the site meters change sides, everything
else stays, each list keeping its order with the newcomers at the end. -/
theorem C52_alternative_exact (ms ds : List Meter) (hm : ms.Pairwise (fun a b => a.pyEq b = false))
    (hd : ds.Pairwise (fun a b => a.pyEq b = false)) (h : ∃ m ∈ ds, HasSite m) :
    ∃ subs present others alternative, useAlternativeMains ms ds = .ok (subs ++ alternative, others ++ present) ∧
      (present ++ subs).Perm ms ∧ (alternative ++ others).Perm ds ∧
      (∀ m ∈ present, HasSite m) ∧ (∀ m ∈ alternative, HasSite m) ∧
      (∀ m ∈ subs, ¬ HasSite m) ∧ (∀ m ∈ others, ¬ HasSite m) ∧
      subs.Sublist ms ∧ present.Sublist ms ∧ others.Sublist ds ∧ alternative.Sublist ds := by
  have hne : ¬ (ds.filter (fun m => m.isSite)) = [] := by
    obtain ⟨m, hm, hs⟩ := h
    intro he
    have := List.filter_eq_nil_iff.1 he m hm
    exact this ((C52_is_site_meter m).2 hs)
  refine ⟨ms.filter (fun m => !m.isSite), ms.filter (fun m => m.isSite), ds.filter (fun m => !m.isSite),
    ds.filter (fun m => m.isSite), ?_, filter_perm _ ms, filter_perm _ ds, ?_, ?_, ?_, ?_, List.filter_sublist,
    List.filter_sublist, List.filter_sublist, List.filter_sublist⟩
  · have e1 := moveMeters_exact (fun m => m.isSite) ms [] [] ds (by simpa using hm)
    have e2 := moveMeters_exact (fun m => m.isSite) ds [] (ms.filter (fun m => m.isSite)) (ms.filter (fun m => !m.isSite))
      (by simpa using hd)
    simp only [List.nil_append, List.append_nil] at e1 e2
    simp [useAlternativeMains, hne, e1, e2]
  · exact fun m hm => (C52_is_site_meter m).1 (List.mem_filter.1 hm).2
  · exact fun m hm => (C52_is_site_meter m).1 (List.mem_filter.1 hm).2
  · intro m hm hs
    have := (List.mem_filter.1 hm).2
    rw [(C52_is_site_meter m).2 hs] at this
    cases this
  · intro m hm hs
    have := (List.mem_filter.1 hm).2
    rw [(C52_is_site_meter m).2 hs] at this
    cases this

theorem useAlt_eq (ms ds : List Meter) (hm : ms.Pairwise (fun a b => a.pyEq b = false))
    (hd : ds.Pairwise (fun a b => a.pyEq b = false)) (hne : ¬ (ds.filter (fun m => m.isSite)) = []) :
    useAlternativeMains ms ds = .ok (ms.filter (fun m => !m.isSite) ++ ds.filter (fun m => m.isSite),
      ds.filter (fun m => !m.isSite) ++ ms.filter (fun m => m.isSite)) := by
  have e1 := moveMeters_exact (fun m => m.isSite) ms [] [] ds (by simpa using hm)
  have e2 := moveMeters_exact (fun m => m.isSite) ds [] (ms.filter (fun m => m.isSite)) (ms.filter (fun m => !m.isSite))
    (by simpa using hd)
  simp only [List.nil_append, List.append_nil] at e1 e2
  simp [useAlternativeMains, hne, e1, e2]

/-- Swapping the mains twice restores both lists up to order. -/
theorem C52_alternative_twice (ms ds ms' ds' : List Meter) (hd : (ms ++ ds).Pairwise (fun a b => a.pyEq b = false))
    (hm : ∃ m ∈ ms, HasSite m) (h : useAlternativeMains ms ds = .ok (ms', ds')) :
    ∃ ms'' ds'', useAlternativeMains ms' ds' = .ok (ms'', ds'') ∧ ms''.Perm ms ∧ ds''.Perm ds := by
  have hp := List.pairwise_append.1 hd
  have hne : ¬ (ds.filter (fun m => m.isSite)) = [] := by
    intro he
    simp [useAlternativeMains, he] at h
  rw [useAlt_eq ms ds hp.1 hp.2.1 hne] at h
  simp only [Except.ok.injEq, Prod.mk.injEq] at h
  obtain ⟨rfl, rfl⟩ := h
  have sym : ∀ a b : Meter, a.pyEq b = false → b.pyEq a = false := by
    intro a b hab
    rw [Bool.eq_false_iff] at *
    exact fun hb => hab (pyEq_symm _ _ hb)
  have hne' : ¬ ((ds.filter (fun m => !m.isSite) ++ ms.filter (fun m => m.isSite)).filter (fun m => m.isSite)) = [] := by
    obtain ⟨m, hm, hs⟩ := hm
    intro he
    have := List.filter_eq_nil_iff.1 he m (List.mem_append.2 (Or.inr (List.mem_filter.2 ⟨hm, (C52_is_site_meter m).2 hs⟩)))
    exact this ((C52_is_site_meter m).2 hs)
  have p1 : (ms.filter (fun m => !m.isSite) ++ ds.filter (fun m => m.isSite)).Pairwise (fun a b => a.pyEq b = false) := by
    rw [List.pairwise_append]
    exact ⟨hp.1.filter _, hp.2.1.filter _, fun a ha b hb => hp.2.2 a (List.mem_filter.1 ha).1 b (List.mem_filter.1 hb).1⟩
  have p2 : (ds.filter (fun m => !m.isSite) ++ ms.filter (fun m => m.isSite)).Pairwise (fun a b => a.pyEq b = false) := by
    rw [List.pairwise_append]
    exact ⟨hp.2.1.filter _, hp.1.filter _, fun a ha b hb => sym _ _ (hp.2.2 b (List.mem_filter.1 hb).1 a (List.mem_filter.1 ha).1)⟩
  refine ⟨_, _, useAlt_eq _ _ p1 p2 hne', ?_, ?_⟩
  · simp only [List.filter_append, List.filter_filter, Bool.and_self, Bool.not_and_self, Bool.and_not_self, List.filter_false,
      List.nil_append, List.append_nil]
    exact List.perm_append_comm.trans (filter_perm _ ms)
  · simp only [List.filter_append, List.filter_filter, Bool.and_self, Bool.not_and_self, Bool.and_not_self, List.filter_false,
      List.nil_append, List.append_nil]
    exact List.perm_append_comm.trans (filter_perm _ ds)

example : useAlternativeMains [exMeter 1 1 true, exMeter 2 1 false] [exMeter 3 1 false, exMeter 4 1 true] =
    .ok ([exMeter 2 1 false, exMeter 4 1 true], [exMeter 3 1 false, exMeter 1 1 true]) := by
  simp [useAlternativeMains, exMeter, Meter.isSite, moveMeters, pyRemove, Meter.pyEq, List.filter_cons]

/-! ### C55 -/

/-- A frame with data: not empty, with both bounds in order. -/
def Bounded (f : TF) (s e : Int) : Prop := f.empty = false ∧ f.start = some s ∧ f.stop = some e ∧ s < e

/-- A single meter without data (its time frame is empty). -/
def NoData : Meter → Prop
  | .elec e => e.frame.empty = true
  | .group _ _ _ => False

/-- A meter with data, or a group whose first member has data at every level and whose other members have data or are
single meters without data. -/
inductive Readable : Meter → Prop where
  | elec (e : Elec) (s t : Int) : Bounded e.frame s t → Readable (.elec e)
  | group (n : String) (m : Meter) (ms ds : List Meter) : Readable m → (∀ x ∈ ms, ¬ NoData x → Readable x) →
      Readable (.group n (m :: ms) ds)

/-- `f` is the smallest frame around the meters of `m` that have data: it contains the frame of each of them, and its
bounds are bounds of such meters. -/
def IsHull (f : TF) (m : Meter) : Prop := ∃ s t, Bounded f s t ∧
  (∀ e, Reads e m → e.frame.empty = false → ∃ s' t', e.frame.start = some s' ∧ e.frame.stop = some t' ∧ s ≤ s' ∧ t' ≤ t) ∧
  (∃ e, Reads e m ∧ e.frame.empty = false ∧ e.frame.start = some s) ∧
  (∃ e, Reads e m ∧ e.frame.empty = false ∧ e.frame.stop = some t)

theorem union_bounded (a b : TF) (sa ea sb eb : Int) (ha : Bounded a sa ea) (hb : Bounded b sb eb) :
    ∃ u, a.union b = .ok u ∧ Bounded u (min sa sb) (max ea eb) := by
  obtain ⟨-, a1, a2, a3⟩ := ha
  obtain ⟨-, b1, b2, b3⟩ := hb
  refine ⟨TF.mk' (some (min sa sb)) (some (max ea eb)), ?_, ?_⟩
  · simp only [TF.union, a1, a2, b1, b2]
    apply ctor_ok
    intro x y hx hy
    cases hx; cases hy
    omega
  · refine ⟨rfl, rfl, rfl, by omega⟩

theorem loop_hull (ms : List Meter) : ∀ (acc : TF) (s t : Int), Bounded acc s t →
    (∀ x ∈ ms, ¬ NoData x → ∃ f, x.getTimeframe = .ok (some f) ∧ IsHull f x) →
    ∃ f s' t', Meter.timeframeLoop (some acc) ms = .ok (some f) ∧ Bounded f s' t' ∧ s' ≤ s ∧ t ≤ t' ∧
      (∀ x ∈ ms, ∀ e, Reads e x → e.frame.empty = false →
        ∃ s0 t0, e.frame.start = some s0 ∧ e.frame.stop = some t0 ∧ s' ≤ s0 ∧ t0 ≤ t') ∧
      (s' = s ∨ ∃ x ∈ ms, ∃ e, Reads e x ∧ e.frame.empty = false ∧ e.frame.start = some s') ∧
      (t' = t ∨ ∃ x ∈ ms, ∃ e, Reads e x ∧ e.frame.empty = false ∧ e.frame.stop = some t') := by
  induction ms with
  | nil =>
    intro acc s t h _
    exact ⟨acc, s, t, by simp [Meter.timeframeLoop], h, le_refl _, le_refl _, by simp, Or.inl rfl, Or.inl rfl⟩
  | cons x ms ih =>
    intro acc s t hacc hx
    by_cases hn : NoData x
    · cases x with
      | group n a b => exact absurd hn (by simp [NoData])
      | elec e =>
        simp only [NoData] at hn
        obtain ⟨f, s', t', h1, h2, h3, h4, h5, h6, h7⟩ := ih acc s t hacc (fun y hy => hx y (by simp [hy]))
        refine ⟨f, s', t', ?_, h2, h3, h4, ?_, ?_, ?_⟩
        · rw [Meter.timeframeLoop]
          simp only [Meter.getTimeframe, timeframeStep, hn, if_true]
          exact h1
        · intro y hy e' he' hne
          rcases List.mem_cons.1 hy with rfl | hy
          · cases he'; rw [hn] at hne; cases hne
          · exact h5 y hy e' he' hne
        · rcases h6 with h | ⟨y, hy, h⟩
          · exact Or.inl h
          · exact Or.inr ⟨y, by simp [hy], h⟩
        · rcases h7 with h | ⟨y, hy, h⟩
          · exact Or.inl h
          · exact Or.inr ⟨y, by simp [hy], h⟩
    · obtain ⟨g, hg, s0, t0, hb, hc, ⟨e1, r1, n1, q1⟩, ⟨e2, r2, n2, q2⟩⟩ := hx x (by simp) hn
      obtain ⟨u, hu, hub⟩ := union_bounded acc g s t s0 t0 hacc hb
      obtain ⟨f, s', t', h1, h2, h3, h4, h5, h6, h7⟩ := ih u _ _ hub (fun y hy => hx y (by simp [hy]))
      refine ⟨f, s', t', ?_, h2, by omega, by omega, ?_, ?_, ?_⟩
      · rw [Meter.timeframeLoop, hg]
        simp only [timeframeStep, hb.1, Bool.false_eq_true, if_false, hu]
        exact h1
      · intro y hy e' he' hne
        rcases List.mem_cons.1 hy with rfl | hy
        · obtain ⟨a, b, ha, hb', hl, hr⟩ := hc e' he' hne
          exact ⟨a, b, ha, hb', by omega, by omega⟩
        · exact h5 y hy e' he' hne
      · rcases h6 with h | ⟨y, hy, h⟩
        · rcases le_total s s0 with hs | hs
          · exact Or.inl (by omega)
          · have : s' = s0 := by omega
            exact Or.inr ⟨x, by simp, e1, r1, n1, by rw [this]; exact q1⟩
        · exact Or.inr ⟨y, by simp [hy], h⟩
      · rcases h7 with h | ⟨y, hy, h⟩
        · rcases le_total t0 t with hs | hs
          · exact Or.inl (by omega)
          · have : t' = t0 := by omega
            exact Or.inr ⟨x, by simp, e2, r2, n2, by rw [this]; exact q2⟩
        · exact Or.inr ⟨y, by simp [hy], h⟩

/-- The time frame of a group, nested groups included, is the smallest frame around the frames of its meters that have
data, provided the first member of each group has data. -/
theorem C55_hull_partial (m : Meter) (h : Readable m) : ∃ f, m.getTimeframe = .ok (some f) ∧ IsHull f m := by
  induction h with
  | elec e s t hb =>
    refine ⟨e.frame, by simp [Meter.getTimeframe], s, t, hb, ?_, ⟨e, .self, hb.1, hb.2.1⟩, ⟨e, .self, hb.1, hb.2.2.1⟩⟩
    rintro e' ⟨⟩ _
    exact ⟨s, t, hb.2.1, hb.2.2.1, le_refl _, le_refl _⟩
  | group n m ms ds _ _ ih1 ih2 =>
    obtain ⟨f, hf, s, t, hb, hc, ⟨e1, r1, n1, q1⟩, ⟨e2, r2, n2, q2⟩⟩ := ih1
    obtain ⟨g, s', t', h1, h2, h3, h4, h5, h6, h7⟩ := loop_hull ms f s t hb ih2
    refine ⟨g, ?_, s', t', h2, ?_, ?_, ?_⟩
    · rw [Meter.getTimeframe, Meter.timeframeLoop, hf]
      simp only [timeframeStep]
      exact h1
    · rintro e (_ | ⟨_, _, _, x, hx, hr⟩) hne
      rcases List.mem_cons.1 hx with rfl | hx
      · obtain ⟨a, b, ha, hb', hl, hr'⟩ := hc e hr hne
        exact ⟨a, b, ha, hb', by omega, by omega⟩
      · exact h5 x hx e hr hne
    · rcases h6 with h | ⟨x, hx, e, hr, he⟩
      · subst h
        exact ⟨e1, .group _ _ _ m (by simp) r1, n1, q1⟩
      · exact ⟨e, .group _ _ _ x (by simp [hx]) hr, he⟩
    · rcases h7 with h | ⟨x, hx, e, hr, he⟩
      · subst h
        exact ⟨e2, .group _ _ _ m (by simp) r2, n2, q2⟩
      · exact ⟨e, .group _ _ _ x (by simp [hx]) hr, he⟩

/-- Hence every instant of a meter's data lies in the group's frame. -/
theorem C55_covers_partial (m : Meter) (f : TF) (h : Readable m) (hf : m.getTimeframe = .ok (some f)) (e : Elec)
    (he : Reads e m) (i : Int) (hi : Mem i e.frame) : Mem i f ∨ e.frame.stop = some i := by
  obtain ⟨g, hg, s, t, hb, hc, -, -⟩ := C55_hull_partial m h
  rw [hf] at hg
  cases hg
  obtain ⟨s', t', h1, h2, h3, h4⟩ := hc e he hi.1
  have a := hi.2.1 s' h1
  rcases hi.2.2 t' h2 with b | ⟨-, b⟩
  · left
    refine ⟨hb.1, ?_, ?_⟩
    · intro x hx; rw [hb.2.1] at hx; cases hx; omega
    · intro x hx; rw [hb.2.2.1] at hx; cases hx; left; omega
  · right; rw [h2, b]

/-- The order of the meters does not matter (when each of them has data). -/
theorem C55_order (n n' : String) (ms ns ds ds' : List Meter) (f g : TF) (hp : ms.Perm ns) (hr : ∀ m ∈ ms, Readable m)
    (hf : (Meter.group n ms ds).getTimeframe = .ok (some f)) (hg : (Meter.group n' ns ds').getTimeframe = .ok (some g)) :
    f.start = g.start ∧ f.stop = g.stop := by
  have mk : ∀ (l d : List Meter) (nm : String) (u : TF), (∀ m ∈ l, Readable m) →
      (Meter.group nm l d).getTimeframe = .ok (some u) → IsHull u (.group nm l d) := by
    intro l d nm u hl hu
    cases l with
    | nil => simp [Meter.getTimeframe, Meter.timeframeLoop] at hu
    | cons a l =>
      obtain ⟨v, hv, hh⟩ := C55_hull_partial _ (.group nm a l d (hl a (by simp)) (fun x hx _ => hl x (by simp [hx])))
      rw [hv] at hu; cases hu; exact hh
  obtain ⟨s, t, hb, hc, ⟨e1, r1, n1, q1⟩, ⟨e2, r2, n2, q2⟩⟩ := mk ms ds n f hr hf
  obtain ⟨s', t', hb', hc', ⟨e3, r3, n3, q3⟩, ⟨e4, r4, n4, q4⟩⟩ := mk ns ds' n' g (fun m hm => hr m (hp.mem_iff.2 hm)) hg
  have tr : ∀ e, Reads e (Meter.group n ms ds) ↔ Reads e (Meter.group n' ns ds') := by
    intro e
    constructor
    · rintro (_ | ⟨_, _, _, x, hx, h⟩); exact .group _ _ _ x (hp.mem_iff.1 hx) h
    · rintro (_ | ⟨_, _, _, x, hx, h⟩); exact .group _ _ _ x (hp.mem_iff.2 hx) h
  obtain ⟨a1, b1, x1, y1, z1, w1⟩ := hc' e1 ((tr e1).1 r1) n1
  obtain ⟨a2, b2, x2, y2, z2, w2⟩ := hc' e2 ((tr e2).1 r2) n2
  obtain ⟨a3, b3, x3, y3, z3, w3⟩ := hc e3 ((tr e3).2 r3) n3
  obtain ⟨a4, b4, x4, y4, z4, w4⟩ := hc e4 ((tr e4).2 r4) n4
  rw [q1] at x1; rw [q2] at y2; rw [q3] at x3; rw [q4] at y4
  cases x1; cases y2; cases x3; cases y4
  rw [hb.2.1, hb.2.2.1, hb'.2.1, hb'.2.2.1]
  have : s = s' := by omega
  have : t = t' := by omega
  simp [*]

/-- When the first meter has no data but a later one has, `get_timeframe` raises `TypeError`. -/
theorem C55_first_without_data_raises (n : String) (e : Elec) (ms ds : List Meter)
    (hs : e.frame.start = none) (hflat : ∀ m ∈ ms, ∃ a, m = .elec a) (hlater : ∃ a, .elec a ∈ ms ∧ a.frame.empty = false) :
    (Meter.group n (.elec e :: ms) ds).getTimeframe = .error .typeError := by
  rw [Meter.getTimeframe, Meter.timeframeLoop]
  simp only [Meter.getTimeframe, timeframeStep]
  induction ms with
  | nil => simp at hlater
  | cons x ms ih =>
    obtain ⟨a, rfl⟩ := hflat x (by simp)
    rw [Meter.timeframeLoop]
    simp only [Meter.getTimeframe, timeframeStep]
    cases ha : a.frame.empty with
    | true =>
      simp only [if_true]
      refine ih (fun m hm => hflat m (by simp [hm])) ?_
      obtain ⟨b, hb, hb'⟩ := hlater
      rcases List.mem_cons.1 hb with h | h
      · cases h; rw [ha] at hb'; cases hb'
      · exact ⟨b, h, hb'⟩
    | false =>
      have : e.frame.union a.frame = .error .typeError := by
        simp only [TF.union, hs]
      simp only [Bool.false_eq_true, if_false, this]

/-- So the group's frame does depend on the order of the meters when one of them has no data. -/
theorem C55_order_counterexample : ∃ (a b : Meter) (f : TF), (mkGroup [a, b]).getTimeframe = .ok (some f) ∧
    (mkGroup [b, a]).getTimeframe = .error .typeError := by
  refine ⟨exMeter 1 1 false, .elec ⟨⟨.one 2, 1, "REDD"⟩, false, ⟨none, none, true, true, false⟩⟩,
    TF.mk' (some 1) (some 11), ?_, ?_⟩
  · simp [mkGroup, Meter.getTimeframe, Meter.timeframeLoop, exMeter, timeframeStep]
  · exact C55_first_without_data_raises _ _ _ _ rfl (by simp [exMeter]) ⟨_, List.mem_cons_self, rfl⟩

/-- A group without meters has no time frame; a group containing such a group in a later place raises
`AttributeError`. -/
theorem C55_no_meters (n n' : String) (m : Meter) (f : TF) (ms ds ds' : List Meter) (h : m.getTimeframe = .ok (some f)) :
    (Meter.group n [] ds).getTimeframe = .ok none ∧
    (Meter.group n' (m :: .group n [] ds :: ms) ds').getTimeframe = .error .attributeError := by
  constructor
  · simp [Meter.getTimeframe, Meter.timeframeLoop]
  · rw [Meter.getTimeframe, Meter.timeframeLoop, h]
    simp only [timeframeStep]
    rw [Meter.timeframeLoop]
    simp [Meter.getTimeframe, Meter.timeframeLoop, timeframeStep]

example : Readable (mkGroup [exMeter 5 1 true, mkGroup [exMeter 1 1 false, exMeter 7 1 false]]) := by
  have r : ∀ i, Readable (exMeter i 1 false) ∧ Readable (exMeter i 1 true) := fun i =>
    ⟨.elec _ i (i + 10) ⟨rfl, rfl, rfl, by omega⟩, .elec _ i (i + 10) ⟨rfl, rfl, rfl, by omega⟩⟩
  refine .group _ _ _ _ (r 5).2 (fun x hx _ => ?_)
  rw [List.mem_singleton] at hx
  subst hx
  refine .group _ _ _ _ (r 1).1 (fun x hx _ => ?_)
  rw [List.mem_singleton] at hx
  subst hx
  exact (r 7).1

/-! ### C64 -/

mutual
theorem Ident.beq_iff : ∀ a b : Ident, Ident.beq a b = true ↔ a = b
  | .meter a, .meter b => by simp [Ident.beq]
  | .group as, .group bs => by simp [Ident.beq, Ident.beqs_iff as bs]
  | .meter _, .group _ => by simp [Ident.beq]
  | .group _, .meter _ => by simp [Ident.beq]
theorem Ident.beqs_iff : ∀ as bs : List Ident, Ident.beqs as bs = true ↔ as = bs
  | [], [] => by simp [Ident.beqs]
  | a :: as, b :: bs => by simp [Ident.beqs, Ident.beq_iff a b, Ident.beqs_iff as bs]
  | [], _ :: _ => by simp [Ident.beqs]
  | _ :: _, [] => by simp [Ident.beqs]
end

theorem idents_eq (ms : List Meter) : Meter.idents ms = ms.map Meter.ident := by
  induction ms with
  | nil => simp [Meter.idents]
  | cons m ms ih => simp [Meter.idents, ih]

theorem replaceDatasets_eq (d : String) (is : List Ident) :
    Ident.replaceDatasets d is = is.map (Ident.replaceDataset d) := by
  induction is with
  | nil => simp [Ident.replaceDatasets]
  | cons i is ih => simp [Ident.replaceDatasets, ih]

theorem identSetEq_iff (as bs : List Ident) : identSetEq as bs = true ↔ ∀ i, i ∈ as ↔ i ∈ bs := by
  simp only [identSetEq, Bool.and_eq_true, List.all_eq_true, List.any_eq_true, Ident.beq_iff]
  constructor
  · rintro ⟨h1, h2⟩ i
    constructor
    · intro hi; obtain ⟨b, hb, rfl⟩ := h1 i hi; exact hb
    · intro hi; obtain ⟨b, hb, rfl⟩ := h2 i hi; exact hb
  · intro h
    exact ⟨fun a ha => ⟨a, (h a).1 ha, rfl⟩, fun b hb => ⟨b, (h b).2 hb, rfl⟩⟩

/-- `s` is the counterpart of `m` in the data set `d`: the meter with the same number and building, or the group of the
same meters. -/
def Counterpart (d : String) (m s : Meter) : Prop :=
  match m with
  | .elec e => ∃ e', s = .elec e' ∧ e'.id.inst = e.id.inst ∧ e'.id.building = e.id.building ∧ e'.id.dataset = d
  | .group _ ms _ => ∃ n ns ds, s = .group n ns ds ∧
      ∀ i, i ∈ ns.map Meter.ident ↔ i ∈ ms.map (fun m => Ident.replaceDataset d m.ident)

theorem findMeter_ok {id : MeterId} {ms : List Meter} {s : Meter} (h : findMeter id ms = .ok s) :
    s ∈ ms ∧ s.ident = .meter id := by
  induction ms with
  | nil => simp [findMeter] at h
  | cons m ms ih =>
    unfold findMeter at h
    split at h
    · rename_i hb
      cases h
      exact ⟨by simp, (Ident.beq_iff _ _).1 hb⟩
    · exact ⟨by simp [(ih h).1], (ih h).2⟩

theorem findMeter_error {id : MeterId} {ms : List Meter} {e : Err} (h : findMeter id ms = .error e) :
    e = .keyError ∧ ∀ s ∈ ms, s.ident ≠ .meter id := by
  induction ms with
  | nil => simp only [findMeter, Except.error.injEq] at h; exact ⟨h.symm, by simp⟩
  | cons m ms ih =>
    unfold findMeter at h
    split at h
    · cases h
    · rename_i hb
      refine ⟨(ih h).1, fun s hs => ?_⟩
      rcases List.mem_cons.1 hs with rfl | hs
      · exact fun he => hb ((Ident.beq_iff _ _).2 he)
      · exact (ih h).2 s hs

theorem findGroup_ok {ids : List Ident} {ms : List Meter} {s : Meter} (h : findGroup ids ms = .ok s) :
    s ∈ ms ∧ ∃ n ns ds, s = .group n ns ds ∧ ∀ i, i ∈ ns.map Meter.ident ↔ i ∈ ids := by
  induction ms with
  | nil => simp [findGroup] at h
  | cons m ms ih =>
    cases m with
    | elec e =>
      simp only [findGroup] at h
      exact ⟨by simp [(ih h).1], (ih h).2⟩
    | group n gs ds =>
      simp only [findGroup] at h
      split at h
      · rename_i hb
        cases h
        refine ⟨by simp, n, gs, ds, rfl, ?_⟩
        rw [identSetEq_iff, idents_eq] at hb
        exact hb
      · exact ⟨by simp [(ih h).1], (ih h).2⟩

theorem ident_meter {s : Meter} {id : MeterId} (h : s.ident = .meter id) : ∃ e, s = .elec e ∧ e.id = id := by
  cases s with
  | elec e => simp only [Meter.ident, Ident.meter.injEq] at h; exact ⟨e, rfl, h⟩
  | group n ms ds => simp [Meter.ident] at h

theorem getItem_ok {slave : List Meter} {d : String} {m s : Meter}
    (h : getItem slave (Ident.replaceDataset d m.ident) = some (.ok s)) : s ∈ slave ∧ Counterpart d m s := by
  cases m with
  | elec e =>
    simp only [Meter.ident, Ident.replaceDataset, getItem] at h
    split at h
    · cases h
    · split at h
      · simp only [Option.some.injEq] at h
        obtain ⟨h1, h2⟩ := findMeter_ok h
        obtain ⟨e', rfl, he⟩ := ident_meter h2
        exact ⟨h1, e', rfl, by rw [he], by rw [he], by rw [he]⟩
      · cases h
  | group n ms ds =>
    simp only [Meter.ident, Ident.replaceDataset, getItem, Option.some.injEq] at h
    obtain ⟨h1, n', ns, ds', rfl, h2⟩ := findGroup_ok h
    refine ⟨h1, n', ns, ds', rfl, fun i => ?_⟩
    rw [h2, replaceDatasets_eq, idents_eq, List.map_map]
    rfl

/-- The metrics compare each submeter of the predictions, in order and none omitted, with the meter of the ground truth
that has the same number and building (for a nested group: the group of the same meters). -/
theorem C64_pairs (master slave : List Meter) (d : String) (ps : List (Meter × Meter))
    (h : pairSubmeters master slave d = some (.ok ps)) :
    ps.map Prod.fst = submeters master ∧ ∀ p ∈ ps, p.2 ∈ slave ∧ Counterpart d p.1 p.2 := by
  unfold pairSubmeters at h
  generalize submeters master = l at h ⊢
  induction l generalizing ps with
  | nil => simp only [pairLoop, Option.some.injEq, Except.ok.injEq] at h; subst h; simp
  | cons m ms ih =>
    unfold pairLoop at h
    split at h
    · cases h
    · cases h
    · rename_i s hs
      split at h
      · cases h
      · cases h
      · rename_i r hr
        simp only [Option.some.injEq, Except.ok.injEq] at h
        subst h
        obtain ⟨h1, h2⟩ := ih r hr
        refine ⟨by simp [h1], fun p hp => ?_⟩
        rcases List.mem_cons.1 hp with rfl | hp
        · exact getItem_ok hs
        · exact h2 p hp

/-- For a group of plain numbered meters: `KeyError` exactly when some submeter has no counterpart, and otherwise the
pairing succeeds. -/
theorem C64_missing (master slave : List Meter) (d : String)
    (hn : ∀ m ∈ submeters master, ∃ e i, m = .elec e ∧ e.id.inst = .one i ∧ i ≠ 0) :
    (pairSubmeters master slave d = some (.error .keyError) ↔
      ∃ m ∈ submeters master, ∀ s ∈ slave, ¬ Counterpart d m s) ∧
    ((∀ m ∈ submeters master, ∃ s ∈ slave, Counterpart d m s) →
      ∃ ps, pairSubmeters master slave d = some (.ok ps)) := by
  unfold pairSubmeters
  generalize submeters master = l at hn
  have key : (∃ ps, pairLoop slave d l = some (.ok ps) ∧ ∀ m ∈ l, ∃ s ∈ slave, Counterpart d m s) ∨
      (pairLoop slave d l = some (.error .keyError) ∧ ∃ m ∈ l, ∀ s ∈ slave, ¬ Counterpart d m s) := by
    induction l with
    | nil => left; exact ⟨[], by simp [pairLoop], by simp⟩
    | cons m ms ih =>
      obtain ⟨e, i, rfl, hi, h0⟩ := hn m (by simp)
      have hg : getItem slave (Ident.replaceDataset d (Meter.elec e).ident) = some (findMeter { e.id with dataset := d } slave) := by
        simp [Meter.ident, Ident.replaceDataset, getItem, hi, h0]
      unfold pairLoop
      rw [hg]
      cases hf : findMeter { e.id with dataset := d } slave with
      | error er =>
        right
        obtain ⟨rfl, hne⟩ := findMeter_error hf
        refine ⟨rfl, _, List.mem_cons_self, fun s hs => ?_⟩
        rintro ⟨e', rfl, h1, h2, h3⟩
        apply hne _ hs
        simp only [Meter.ident, Ident.meter.injEq]
        rw [← h1, ← h2, ← h3]
      | ok s =>
        obtain ⟨hs, hsi⟩ := findMeter_ok hf
        rcases ih (fun m hm => hn m (by simp [hm])) with ⟨ps, hp, hall⟩ | ⟨hp, m, hm, hno⟩
        · left
          refine ⟨(.elec e, s) :: ps, by simp only [hp], fun m hm => ?_⟩
          rcases List.mem_cons.1 hm with rfl | hm
          · obtain ⟨e', rfl, he⟩ := ident_meter hsi
            exact ⟨_, hs, e', rfl, by rw [he], by rw [he], by rw [he]⟩
          · exact hall m hm
        · right
          exact ⟨by simp only [hp], m, by simp [hm], hno⟩
  rcases key with ⟨ps, hp, hall⟩ | ⟨hp, m, hm, hno⟩
  · refine ⟨Iff.intro (fun h => by rw [hp] at h; simp at h) ?_, fun _ => ⟨ps, hp⟩⟩
    rintro ⟨m, hm, hno⟩
    obtain ⟨s, hs, hc⟩ := hall m hm
    exact absurd hc (hno s hs)
  · refine ⟨⟨fun _ => ⟨m, hm, hno⟩, fun _ => hp⟩, fun h => ?_⟩
    obtain ⟨s, hs, hc⟩ := h m hm
    exact absurd hc (hno s hs)

example : ∃ ps, pairSubmeters [exMeter 1 1 true, exMeter 2 1 false]
    [.elec ⟨⟨.one 1, 1, "truth"⟩, true, TF.mk' none none⟩, .elec ⟨⟨.one 2, 1, "truth"⟩, false, TF.mk' none none⟩] "truth" =
    some (.ok ps) ∧ ps.length = 1 := by
  refine ⟨[(exMeter 2 1 false, .elec ⟨⟨.one 2, 1, "truth"⟩, false, TF.mk' none none⟩)], ?_, rfl⟩
  simp [pairSubmeters, submeters, exMeter, Meter.isSite, pairLoop, Meter.ident, Ident.replaceDataset, getItem,
    findMeter, Ident.beq]

end Nilmtk
