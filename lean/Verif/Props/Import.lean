import Verif.Model.Import
import Verif.Props.Group
import Verif.Props.Experiment
import Mathlib.Data.List.Nodup
import Mathlib.Data.List.Perm.Basic
import Mathlib.Tactic.ByContra
/-!
C74: the import of the metadata of a building.
-/
namespace Nilmtk

/-! ### Specification -/

mutual
/-- The identifiers of the `ElecMeter`s of a meter or group, at any depth. -/
def Meter.leaves : Meter → List MeterId
  | .elec e => [e.id]
  | .group _ ms _ => Meter.leavesOf ms
/-- The same for a list. -/
def Meter.leavesOf : List Meter → List MeterId
  | [] => []
  | m :: ms => m.leaves ++ Meter.leavesOf ms
end

/-! ### Conservation -/

theorem leavesOf_eq (ms : List Meter) : Meter.leavesOf ms = ms.flatMap Meter.leaves := by
  induction ms with
  | nil => rfl
  | cons m ms ih => simp [Meter.leavesOf, ih]

theorem leavesOf_append (a b : List Meter) : Meter.leavesOf (a ++ b) = Meter.leavesOf a ++ Meter.leavesOf b := by
  simp [leavesOf_eq]

theorem leavesOf_perm {a b : List Meter} (h : a.Perm b) : (Meter.leavesOf a).Perm (Meter.leavesOf b) := by
  rw [leavesOf_eq, leavesOf_eq]
  exact h.flatMap_right _

theorem leavesOf_sublist {a b : List Meter} (h : a.Sublist b) : (Meter.leavesOf a).Sublist (Meter.leavesOf b) := by
  induction h with
  | slnil => exact List.Sublist.slnil
  | cons x _ ih => exact ih.trans (List.sublist_append_right _ _)
  | cons_cons x _ ih => exact (List.Sublist.refl _).append ih

theorem leaves_sublist {m : Meter} {ms : List Meter} (h : m ∈ ms) : m.leaves.Sublist (Meter.leavesOf ms) := by
  have := leavesOf_sublist (List.singleton_sublist.2 h)
  simpa [Meter.leavesOf] using this

mutual
theorem leaves_of_hash : ∀ x y : Meter, x.hashKey = y.hashKey → x.leaves = y.leaves
  | .elec a, .elec b, h => by
    simp only [Meter.hashKey, HKey.meter.injEq] at h
    simp [Meter.leaves, h]
  | .elec a, .group _ _ _, h => by simp [Meter.hashKey] at h
  | .group _ _ _, .elec b, h => by simp [Meter.hashKey] at h
  | .group n ms ds, .group n' ns ds', h => by
    simp only [Meter.hashKey, HKey.group.injEq] at h
    simp only [Meter.leaves]
    exact leavesOf_of_hash ms ns h.2.1
theorem leavesOf_of_hash : ∀ ms ns : List Meter, Meter.hashKeys ms = Meter.hashKeys ns → Meter.leavesOf ms = Meter.leavesOf ns
  | [], [], _ => rfl
  | [], _ :: _, h => by simp [Meter.hashKeys] at h
  | _ :: _, [], h => by simp [Meter.hashKeys] at h
  | m :: ms, n :: ns, h => by
    simp only [Meter.hashKeys, List.cons.injEq] at h
    simp only [Meter.leavesOf, leaves_of_hash m n h.1, leavesOf_of_hash ms ns h.2]
end

theorem pyEq_leaves {x y : Meter} (h : x.pyEq y = true) (id : MeterId) : id ∈ x.leaves ↔ id ∈ y.leaves := by
  cases x with
  | elec a =>
    cases y with
    | elec b =>
      simp only [Meter.pyEq, decide_eq_true_eq] at h
      simp [Meter.leaves, h]
    | group n ms ds => simp [Meter.pyEq] at h
  | group n ms ds =>
    cases y with
    | elec b => simp [Meter.pyEq] at h
    | group n' ns ds' =>
      obtain ⟨h1, h2⟩ := (C53_eq_iff _ _ _ _ _ _).1 h
      simp only [Meter.leaves, leavesOf_eq, List.mem_flatMap]
      constructor
      · rintro ⟨m, hm, hi⟩
        obtain ⟨y, hy, e⟩ := h1 m hm
        exact ⟨y, hy, by rwa [← leaves_of_hash m y e]⟩
      · rintro ⟨y, hy, hi⟩
        obtain ⟨m, hm, e⟩ := h2 y hy
        exact ⟨m, hm, by rwa [leaves_of_hash m y e]⟩

theorem pyRemove_perm {x : Meter} {l r : List Meter} (h : pyRemove x l = .ok r) :
    ∃ y, y.pyEq x = true ∧ l.Perm (y :: r) := by
  induction l generalizing r with
  | nil => simp [pyRemove] at h
  | cons a l ih =>
    simp only [pyRemove] at h
    split at h
    · rename_i ha
      cases h
      exact ⟨a, ha, List.Perm.refl _⟩
    · split at h
      · cases h
      · rename_i r' hr
        cases h
        obtain ⟨y, hy, hp⟩ := ih hr
        exact ⟨y, hy, (hp.cons a).trans (List.Perm.swap _ _ _)⟩

/-- Removing a meter removes just its leaves. -/
theorem pyRemove_leaves {x : Meter} {l r : List Meter} (h : pyRemove x l = .ok r) (hx : x.leaves.Nodup)
    (hl : (Meter.leavesOf l).Nodup) : (Meter.leavesOf l).Perm (x.leaves ++ Meter.leavesOf r) := by
  obtain ⟨y, hy, hp⟩ := pyRemove_perm h
  have h1 := leavesOf_perm hp
  have h2 : (y.leaves ++ Meter.leavesOf r).Nodup := by
    have := h1.nodup_iff.1 hl
    simpa [Meter.leavesOf] using this
  have h3 : y.leaves.Perm x.leaves :=
    (List.perm_ext_iff_of_nodup (List.nodup_append.1 h2).1 hx).2 (pyEq_leaves hy)
  exact h1.trans (h3.append_right _)

theorem takeOut_leaves {α : Type} {a : α} {found : List (Option Meter)} : ∀ {st st' : ImportSt α},
    takeOut a st found = .ok st' → (∀ m, some m ∈ found → m.leaves.Nodup) → (Meter.leavesOf st.meters).Nodup →
    (Meter.leavesOf st.meters).Perm (Meter.leavesOf (found.filterMap id) ++ Meter.leavesOf st'.meters) := by
  induction found with
  | nil =>
    intro st st' h _ _
    simp only [takeOut, Except.ok.injEq] at h
    subst h
    simp [Meter.leavesOf]
  | cons x found ih =>
    intro st st' h hn hd
    cases x with
    | none => simp [takeOut] at h
    | some m =>
      simp only [takeOut] at h
      split at h
      · cases h
      · rename_i ms hms
        have h1 := pyRemove_leaves hms (hn m (by simp)) hd
        have hd' : (Meter.leavesOf ms).Nodup := (List.nodup_append.1 (h1.nodup_iff.1 hd)).2.1
        have h2 := ih h (fun m hm => hn m (by simp [hm])) hd'
        simp only [List.filterMap_cons, id, Meter.leavesOf]
        rw [List.append_assoc]
        exact h1.trans (h2.append_left _)

theorem mains_leaves {ms : List Meter} {m : Meter} (h : mains ms = .ok (some m)) : m.leaves.Sublist (Meter.leavesOf ms) := by
  obtain ⟨site, h1, _, h2, _⟩ := C52_partition ms _ h
  have h3 := leavesOf_sublist h2
  rcases h1 with ⟨_, h1⟩ | ⟨x, hs, h1⟩ | ⟨_, h1⟩
  · cases h1
  · cases h1
    subst hs
    simpa [Meter.leavesOf] using h3
  · cases h1
    exact h3

theorem importGet_leaves {b : Int} {d : String} {ms : List Meter} {i : Int} {m : Meter}
    (h : importGet b d ms i = .ok (some m)) : m.leaves.Sublist (Meter.leavesOf ms) := by
  unfold importGet at h
  split at h
  · split at h
    · cases h
    · exact (mains_leaves h).trans (leavesOf_sublist List.filter_sublist)
  · split at h
    · cases h
    · rename_i m' hm'
      cases h
      exact leaves_sublist (findMeter_ok hm').1

theorem importAppliance_leaves {α : Type} {b : Int} {d : String} {a : α × List Int} {st st' : ImportSt α}
    (h : importAppliance b d st a = .ok st') (hn : (Meter.leavesOf st.meters).Nodup) :
    (Meter.leavesOf st.meters).Perm (Meter.leavesOf st'.meters) := by
  unfold importAppliance at h
  split at h
  · split at h
    · cases h
    · cases h
    · cases h; exact List.Perm.refl _
    · cases h; exact List.Perm.refl _
  · split at h
    · cases h
    · rename_i found hf
      split at h
      · cases h
      · rename_i st1 h1
        cases h
        have hnod : ∀ m, some m ∈ found → m.leaves.Nodup := by
          intro m hm
          have := mapE_ok.1 hf
          obtain ⟨i, _, hi⟩ : ∃ i, i ∈ a.2 ∧ importGet b d st.meters i = .ok (some m) := by
            clear hf h1
            generalize a.2 = l at this
            induction this with
            | nil => simp at hm
            | cons hxy _ ih =>
              rcases List.mem_cons.1 hm with h2 | h2
              · exact ⟨_, List.mem_cons_self, by rw [hxy, h2]⟩
              · obtain ⟨i, hi, hi'⟩ := ih h2
                exact ⟨i, by simp [hi], hi'⟩
          exact (importGet_leaves hi).nodup hn
        have h2 := takeOut_leaves h1 hnod hn
        simp only [leavesOf_append]
        refine h2.trans ?_
        simp only [mkGroup, Meter.leavesOf, Meter.leaves, List.append_nil]
        exact List.perm_append_comm

theorem importAppliances_leaves {α : Type} {b : Int} {d : String} {as : List (α × List Int)} : ∀ {st st' : ImportSt α},
    importAppliances b d st as = .ok st' → (Meter.leavesOf st.meters).Nodup →
    (Meter.leavesOf st.meters).Perm (Meter.leavesOf st'.meters) := by
  induction as with
  | nil => intro st st' h _; cases h; exact List.Perm.refl _
  | cons a as ih =>
    intro st st' h hn
    simp only [importAppliances] at h
    split at h
    · cases h
    · rename_i st1 h1
      have h2 := importAppliance_leaves h1 hn
      exact h2.trans (ih h (h2.nodup_iff.1 hn))

theorem moveMeters_leaves {moving : List Meter} : ∀ {src dst s t : List Meter}, moveMeters moving src dst = .ok (s, t) →
    (∀ m ∈ moving, m.leaves.Nodup) → (Meter.leavesOf src).Nodup →
    (Meter.leavesOf src ++ Meter.leavesOf dst).Perm (Meter.leavesOf s ++ Meter.leavesOf t) := by
  induction moving with
  | nil => intro src dst s t h _ _; cases h; exact List.Perm.refl _
  | cons m rest ih =>
    intro src dst s t h hm hn
    simp only [moveMeters] at h
    split at h
    · cases h
    · rename_i src' hs
      have h1 := pyRemove_leaves hs (hm m (by simp)) hn
      have h2 := ih h (fun x hx => hm x (by simp [hx])) (List.nodup_append.1 (h1.nodup_iff.1 hn)).2.1
      refine List.Perm.trans ?_ h2
      rw [leavesOf_append]
      refine (h1.append_right _).trans ?_
      simp only [Meter.leavesOf, List.append_nil]
      rw [List.append_assoc]
      refine List.perm_append_comm.trans ?_
      rw [List.append_assoc]

theorem leavesOf_load (b : Int) (d : String) (elec : List (Int × MeterMeta)) :
    Meter.leavesOf (elec.map (mkElec b d)) = elec.map (fun p => ⟨.one p.1, b, d⟩) := by
  induction elec with
  | nil => rfl
  | cons p elec ih => simp [Meter.leavesOf, Meter.leaves, mkElec, ih]

theorem load_nodup (b : Int) (d : String) {elec : List (Int × MeterMeta)} (hk : (elec.map Prod.fst).Nodup) :
    (elec.map (fun p => (⟨.one p.1, b, d⟩ : MeterId))).Nodup := by
  have : elec.map (fun p => (⟨.one p.1, b, d⟩ : MeterId)) = (elec.map Prod.fst).map (fun i => ⟨.one i, b, d⟩) := by
    rw [List.map_map]; rfl
  rw [this]
  exact hk.map (fun i j h => by simpa using h)

/-- Whatever the metadata: when the import succeeds, every meter is in exactly one place, either directly among the meters, or in one
group, or disabled. -/
theorem C74_conserved {α : Type} (b : Int) (d : String) (elec : List (Int × MeterMeta)) (as : List (α × List Int))
    (ms ds : List Meter) (apps : MeterId → List α) (hk : (elec.map Prod.fst).Nodup)
    (h : importMetadata b d elec as = .ok (ms, ds, apps)) :
    (Meter.leavesOf ms ++ Meter.leavesOf ds).Perm (elec.map (fun p => ⟨.one p.1, b, d⟩)) := by
  unfold importMetadata at h
  split at h
  · cases h
  · rename_i st hst
    split at h
    · cases h
    · rename_i ms' ds' hm
      cases h
      have hn : (Meter.leavesOf (elec.map (mkElec b d))).Nodup := by rw [leavesOf_load]; exact load_nodup b d hk
      have h1 := importAppliances_leaves hst hn
      have hn1 := h1.nodup_iff.1 hn
      have h2 := moveMeters_leaves hm
        (fun m hm => (leaves_sublist (List.mem_filter.1 hm).1).nodup hn1) hn1
      rw [leavesOf_load] at h1
      simp only [Meter.leavesOf, List.append_nil] at h2
      exact h2.symm.trans h1.symm

/-! ### The result exactly -/

/-- The metadata `import_metadata` is made for: meters have distinct numbers other than 0; an appliance with several meters does not
list 0, the mains; and when some appliance lists the mains, no site meter belongs to an appliance with several meters. -/
structure Ordinary {α : Type} (elec : List (Int × MeterMeta)) (as : List (α × List Int)) : Prop where
  keys : (elec.map Prod.fst).Nodup
  nonzero : 0 ∉ elec.map Prod.fst
  several : ∀ a ∈ as, a.2.length ≠ 1 → 0 ∉ a.2
  mains : (∃ a ∈ as, 0 ∈ a.2) → ∀ a ∈ as, a.2.length ≠ 1 → ∀ p ∈ elec, p.1 ∈ a.2 → p.2.site = false

/-- The meter belongs to one of these appliances, which has several meters. -/
def Shared {α : Type} (pre : List (α × List Int)) (i : Int) : Prop := ∃ a ∈ pre, a.2.length ≠ 1 ∧ i ∈ a.2

instance {α : Type} (pre : List (α × List Int)) (i : Int) : Decidable (Shared pre i) :=
  inferInstanceAs (Decidable (∃ a ∈ pre, a.2.length ≠ 1 ∧ i ∈ a.2))

/-- An appliance that can be imported after the appliances `pre`: its meters exist, are listed once and do not belong to an earlier
appliance with several meters; the mains can be listed when there is a site meter. -/
def CanFollow {α : Type} (elec : List (Int × MeterMeta)) (pre : List (α × List Int)) (a : α × List Int) : Prop :=
  (∀ i ∈ a.2, (i ∈ elec.map Prod.fst ∧ ¬ Shared pre i) ∨ (i = 0 ∧ ∃ p ∈ elec, p.2.site = true)) ∧ a.2.Nodup

/-- The appliance lists the meter, or lists the mains and the meter is a site meter. -/
def Lists {α : Type} (elec : List (Int × MeterMeta)) (a : α × List Int) (i : Int) : Bool :=
  decide (i ∈ a.2) || (decide (0 ∈ a.2) && elec.any (fun p => decide (p.1 = i) && p.2.site))

/-- The meters with the given numbers. -/
def metersOf (b : Int) (d : String) (elec : List (Int × MeterMeta)) (is : List Int) : List Meter :=
  is.filterMap (fun i => (elec.find? (fun p => decide (p.1 = i))).map (mkElec b d))

/-- The groups of the appliances with several meters, in order. -/
def groupsOf {α : Type} (b : Int) (d : String) (elec : List (Int × MeterMeta)) (as : List (α × List Int)) : List Meter :=
  (as.filter (fun a => decide (a.2.length ≠ 1))).map (fun a => mkGroup (metersOf b d elec a.2))

theorem find_load (b : Int) (d : String) (T : List (Int × MeterMeta)) (G : List Meter) (hG : ∀ g ∈ G, ∃ ms, g = mkGroup ms)
    (i : Int) : findMeter ⟨.one i, b, d⟩ (T.map (mkElec b d) ++ G) =
      match T.find? (fun p => decide (p.1 = i)) with
      | some p => .ok (mkElec b d p)
      | none => .error .keyError := by
  induction T with
  | nil =>
    simp only [List.map_nil, List.nil_append, List.find?_nil]
    induction G with
    | nil => rfl
    | cons g G ih =>
      obtain ⟨ms, rfl⟩ := hG g (by simp)
      simp only [findMeter, mkGroup, Meter.ident, Ident.beq, Bool.false_eq_true, if_false]
      exact ih (fun x hx => hG x (by simp [hx]))
  | cons p T ih =>
    simp only [List.map_cons, List.cons_append, findMeter, List.find?_cons]
    by_cases hp : p.1 = i
    · simp [mkElec, Meter.ident, Ident.beq, hp]
    · simp only [hp, decide_false, mkElec, Meter.ident, Ident.beq, MeterId.mk.injEq, Inst.one.injEq, false_and, Bool.false_eq_true,
        if_false]
      exact ih

theorem remove_load (b : Int) (d : String) (T : List (Int × MeterMeta)) (G : List Meter) (hT : (T.map Prod.fst).Nodup)
    {p : Int × MeterMeta} (hp : p ∈ T) : pyRemove (mkElec b d p) (T.map (mkElec b d) ++ G) =
      .ok ((T.filter (fun q => decide (q.1 ≠ p.1))).map (mkElec b d) ++ G) := by
  induction T with
  | nil => simp at hp
  | cons q T ih =>
    simp only [List.map_cons, List.cons_append, pyRemove]
    simp only [List.map_cons, List.nodup_cons] at hT
    by_cases hq : q.1 = p.1
    · have : (mkElec b d q).pyEq (mkElec b d p) = true := by simp [mkElec, Meter.pyEq, hq]
      rw [if_pos this]
      have hfil : T.filter (fun q => decide (q.1 ≠ p.1)) = T := by
        rw [List.filter_eq_self]
        intro r hr
        simp only [decide_eq_true_eq]
        intro e
        exact hT.1 (List.mem_map.2 ⟨r, hr, by rw [e, hq]⟩)
      rw [List.filter_cons_of_neg (by simp [hq]), hfil]
    · have : (mkElec b d q).pyEq (mkElec b d p) = false := by simp [mkElec, Meter.pyEq, hq]
      have hpT : p ∈ T := by
        rcases List.mem_cons.1 hp with rfl | h
        · exact absurd rfl hq
        · exact h
      rw [this, ih hT.2 hpT, List.filter_cons_of_pos (by simp [hq])]
      simp

theorem remove_load_missing (b : Int) (d : String) (T : List (Int × MeterMeta)) (G : List Meter)
    (hG : ∀ g ∈ G, ∃ ms, g = mkGroup ms) {p : Int × MeterMeta} (hp : p.1 ∉ T.map Prod.fst) :
    pyRemove (mkElec b d p) (T.map (mkElec b d) ++ G) = .error .valueError := by
  induction T with
  | nil =>
    simp only [List.map_nil, List.nil_append]
    induction G with
    | nil => rfl
    | cons g G ih =>
      obtain ⟨ms, rfl⟩ := hG g (by simp)
      simp only [pyRemove, mkGroup, mkElec, Meter.pyEq, Bool.false_eq_true, if_false]
      have := ih (fun x hx => hG x (by simp [hx]))
      simp only [mkElec] at this
      rw [this]
  | cons q T ih =>
    simp only [List.map_cons, List.mem_cons, not_or] at hp
    have : (mkElec b d q).pyEq (mkElec b d p) = false := by simp [mkElec, Meter.pyEq, Ne.symm hp.1]
    simp only [List.map_cons, List.cons_append, pyRemove, this, Bool.false_eq_true, if_false, ih hp.2]

theorem filter_keys_nodup {T : List (Int × MeterMeta)} (f : Int × MeterMeta → Bool) (hT : (T.map Prod.fst).Nodup) :
    ((T.filter f).map Prod.fst).Nodup := (List.filter_sublist.map _).nodup hT

/-- Taking out the meters of an appliance: it succeeds when they are all different, and each of them gets the appliance. -/
theorem takeOut_load {α : Type} (b : Int) (d : String) (a : α) (G : List Meter) (hG : ∀ g ∈ G, ∃ ms, g = mkGroup ms)
    (ps : List (Int × MeterMeta)) : ∀ (T : List (Int × MeterMeta)) (apps : MeterId → List α), (T.map Prod.fst).Nodup →
    (∀ p ∈ ps, p ∈ T) →
    ((ps.map Prod.fst).Nodup → ∃ apps', takeOut a ⟨T.map (mkElec b d) ++ G, apps⟩ (ps.map (fun p => some (mkElec b d p))) =
      .ok ⟨(T.filter (fun q => decide (q.1 ∉ ps.map Prod.fst))).map (mkElec b d) ++ G, apps'⟩ ∧
      ∀ i, apps' ⟨.one i, b, d⟩ = apps ⟨.one i, b, d⟩ ++ if i ∈ ps.map Prod.fst then [a] else []) ∧
    (¬ (ps.map Prod.fst).Nodup → ∃ e, takeOut a ⟨T.map (mkElec b d) ++ G, apps⟩ (ps.map (fun p => some (mkElec b d p))) = .error e) := by
  induction ps with
  | nil =>
    intro T apps _ _
    refine ⟨fun _ => ⟨apps, by simp [takeOut], by simp⟩, fun h => by simp at h⟩
  | cons p ps ih =>
    intro T apps hT hps
    have hp := hps p (by simp)
    simp only [List.map_cons, takeOut, remove_load b d T G hT hp]
    by_cases hpp : p.1 ∈ ps.map Prod.fst
    · refine ⟨fun h => absurd hpp (List.nodup_cons.1 h).1, fun hnn => ?_⟩
      clear hnn
      obtain ⟨q, hq, hqe⟩ := List.mem_map.1 hpp
      have hqp : q = p := by
        have hq' := hps q (by simp [hq])
        exact List.inj_on_of_nodup_map hT hq' hp hqe
      subst hqp
      clear ih hpp hqe
      generalize hT' : T.filter (fun r => decide (r.1 ≠ q.1)) = T'
      have hm : q.1 ∉ T'.map Prod.fst := by
        rw [← hT']
        intro h
        obtain ⟨r, hr, he⟩ := List.mem_map.1 h
        have := (List.mem_filter.1 hr).2
        simp [he] at this
      have hN : (T'.map Prod.fst).Nodup := by rw [← hT']; exact filter_keys_nodup _ hT
      generalize attach a apps (mkElec b d q) = apps'
      clear hT' hps hp hT T apps
      induction ps generalizing T' apps' with
      | nil => simp at hq
      | cons r ps ih2 =>
        simp only [List.map_cons, takeOut]
        by_cases hr : r.1 ∈ T'.map Prod.fst
        · obtain ⟨r', hr', he⟩ := List.mem_map.1 hr
          have hqr : q ≠ r := by rintro rfl; exact hm hr
          have e1 : pyRemove (mkElec b d r) (T'.map (mkElec b d) ++ G) =
              pyRemove (mkElec b d r') (T'.map (mkElec b d) ++ G) := by
            have : ∀ (l : List Meter), pyRemove (mkElec b d r) l = pyRemove (mkElec b d r') l := by
              intro l
              induction l with
              | nil => rfl
              | cons m l ihl =>
                have : m.pyEq (mkElec b d r) = m.pyEq (mkElec b d r') := by
                  cases m <;> simp [mkElec, Meter.pyEq, he]
                simp only [pyRemove, this, ihl]
            exact this _
          rw [e1, remove_load b d T' G hN hr']
          simp only
          apply ih2
          · rcases List.mem_cons.1 hq with h | h
            · exact absurd h hqr
            · exact h
          · intro h
            obtain ⟨s, hs, hse⟩ := List.mem_map.1 h
            exact hm (List.mem_map.2 ⟨s, (List.mem_filter.1 hs).1, hse⟩)
          · exact filter_keys_nodup _ hN
        · rw [remove_load_missing b d T' G hG hr]
          exact ⟨_, rfl⟩
    · have hT' := filter_keys_nodup (fun q => decide (q.1 ≠ p.1)) hT
      have hsub : ∀ q ∈ ps, q ∈ T.filter (fun q => decide (q.1 ≠ p.1)) := by
        intro q hq
        refine List.mem_filter.2 ⟨hps q (by simp [hq]), ?_⟩
        simp only [decide_eq_true_eq]
        intro e
        exact hpp (List.mem_map.2 ⟨q, hq, e⟩)
      obtain ⟨h1, h2⟩ := ih _ (attach a apps (mkElec b d p)) hT' hsub
      constructor
      · intro hn
        obtain ⟨apps', h3, h4⟩ := h1 (List.nodup_cons.1 hn).2
        refine ⟨apps', ?_, ?_⟩
        · rw [h3, List.filter_filter]
          congr 5
          funext q
          rw [Bool.eq_iff_iff]
          simp only [Bool.and_eq_true, decide_eq_true_eq, List.mem_cons, not_or]
          exact and_comm
        · intro i
          have ea : attach a apps (mkElec b d p) ⟨.one i, b, d⟩ =
              if i = p.1 then apps ⟨.one i, b, d⟩ ++ [a] else apps ⟨.one i, b, d⟩ := by
            simp [attach, mkElec]
          rw [h4, ea]
          by_cases hi : i = p.1
          · subst hi
            rw [if_pos rfl, if_neg hpp, if_pos List.mem_cons_self, List.append_nil]
          · rw [if_neg hi]
            congr 1
            simp only [List.mem_cons, hi, false_or]
      · intro hn
        refine h2 (fun h => hn (List.nodup_cons.2 ⟨hpp, h⟩))

theorem find_of_mem {T : List (Int × MeterMeta)} (hT : (T.map Prod.fst).Nodup) {p : Int × MeterMeta} (hp : p ∈ T) :
    T.find? (fun q => decide (q.1 = p.1)) = some p := by
  induction T with
  | nil => simp at hp
  | cons q T ih =>
    simp only [List.map_cons, List.nodup_cons] at hT
    by_cases hq : q.1 = p.1
    · rw [List.find?_cons_of_pos (by simpa using hq)]
      rcases List.mem_cons.1 hp with h | h
      · rw [h]
      · exact absurd (List.mem_map.2 ⟨p, h, hq.symm⟩) hT.1
    · rw [List.find?_cons_of_neg (by simpa using hq)]
      rcases List.mem_cons.1 hp with h | h
      · exact absurd (by rw [h]) hq
      · exact ih hT.2 h

theorem find_none {T : List (Int × MeterMeta)} {i : Int} (h : i ∉ T.map Prod.fst) :
    T.find? (fun q => decide (q.1 = i)) = none := by
  rw [List.find?_eq_none]
  intro q hq
  simp only [decide_eq_true_eq]
  intro e
  exact h (List.mem_map.2 ⟨q, hq, e⟩)

theorem choose_meters {T : List (Int × MeterMeta)} {is : List Int} (h : ∀ i ∈ is, i ∈ T.map Prod.fst) :
    ∃ ps : List (Int × MeterMeta), ps.map Prod.fst = is ∧ ∀ p ∈ ps, p ∈ T := by
  induction is with
  | nil => exact ⟨[], rfl, by simp⟩
  | cons i is ih =>
    obtain ⟨ps, h1, h2⟩ := ih (fun j hj => h j (by simp [hj]))
    obtain ⟨p, hp, he⟩ := List.mem_map.1 (h i (by simp))
    exact ⟨p :: ps, by simp [h1, he], by simpa [hp] using h2⟩

theorem metersOf_eq (b : Int) (d : String) {elec ps : List (Int × MeterMeta)} (hk : (elec.map Prod.fst).Nodup)
    (h : ∀ p ∈ ps, p ∈ elec) : metersOf b d elec (ps.map Prod.fst) = ps.map (mkElec b d) := by
  unfold metersOf
  induction ps with
  | nil => rfl
  | cons p ps ih =>
    simp only [List.map_cons, List.filterMap_cons, find_of_mem hk (h p (by simp)), Option.map_some]
    rw [ih (fun q hq => h q (by simp [hq]))]

theorem attachAll_load {α : Type} (b : Int) (d : String) (a : α) (S : List (Int × MeterMeta)) :
    ∀ (apps : MeterId → List α), (S.map Prod.fst).Nodup → ∀ i : Int,
    attachAll a apps (S.map (mkElec b d)) ⟨.one i, b, d⟩ =
      apps ⟨.one i, b, d⟩ ++ if i ∈ S.map Prod.fst then [a] else [] := by
  induction S with
  | nil => intro apps _ i; simp [attachAll]
  | cons p S ih =>
    intro apps hS i
    simp only [List.map_cons, List.nodup_cons] at hS
    have h1 := ih (attach a apps (mkElec b d p)) hS.2 i
    have h2 : attachAll a apps ((p :: S).map (mkElec b d)) = attachAll a (attach a apps (mkElec b d p)) (S.map (mkElec b d)) := by
      simp [attachAll]
    have ea : attach a apps (mkElec b d p) ⟨.one i, b, d⟩ =
        if i = p.1 then apps ⟨.one i, b, d⟩ ++ [a] else apps ⟨.one i, b, d⟩ := by
      simp [attach, mkElec]
    rw [h2, h1, ea]
    by_cases hi : i = p.1
    · subst hi
      rw [if_pos rfl, if_neg hS.1, if_pos (by simp), List.append_nil]
    · rw [if_neg hi]
      congr 1
      simp only [List.map_cons, List.mem_cons, hi, false_or]

theorem mains_eq {ms : List Meter} {r : Option Meter} (h : mains ms = .ok r) :
    r = match ms.filter (fun m => m.isSite) with
      | [] => none
      | [m] => some m
      | site => some (mkGroup site) := by
  unfold mains at h
  split at h
  · cases h
  · split at h
    · rename_i h1; cases h; rw [h1]
    · rename_i h1; cases h; rw [h1]
    · rename_i h1 h2
      cases h
      split
      · rename_i h3; exact absurd h3 h1
      · rename_i h3; exact (h2 _ h3).elim
      · rfl

theorem importAppliance_several {α : Type} (b : Int) (d : String) (st : ImportSt α) {a : α × List Int} (h : a.2.length ≠ 1) :
    importAppliance b d st a =
      match mapE (importGet b d st.meters) a.2 with
      | .error e => .error e
      | .ok found =>
        match takeOut a.1 st found with
        | .error e => .error e
        | .ok st' => .ok { st' with meters := st'.meters ++ [mkGroup (found.filterMap id)] } := by
  obtain ⟨x, is⟩ := a
  unfold importAppliance
  match is, h with
  | [], _ => rfl
  | [i], h => simp at h
  | _ :: _ :: _, _ => rfl

theorem groupsOf_groups {α : Type} (b : Int) (d : String) (elec : List (Int × MeterMeta)) (pre : List (α × List Int)) :
    ∀ g ∈ groupsOf b d elec pre, ∃ ms, g = mkGroup ms := by
  intro g hg
  obtain ⟨a, _, rfl⟩ := List.mem_map.1 hg
  exact ⟨_, rfl⟩

theorem shared_append {α : Type} (pre : List (α × List Int)) (a : α × List Int) (i : Int) :
    Shared (pre ++ [a]) i ↔ Shared pre i ∨ (a.2.length ≠ 1 ∧ i ∈ a.2) := by
  unfold Shared
  simp only [List.mem_append, List.mem_singleton, or_and_right, exists_or, exists_eq_left]

/-- The state after the appliances `pre`. -/
def After {α : Type} (b : Int) (d : String) (elec : List (Int × MeterMeta)) (pre : List (α × List Int)) (st : ImportSt α) : Prop :=
  st.meters = (elec.filter (fun p => decide (¬ Shared pre p.1))).map (mkElec b d) ++ groupsOf b d elec pre ∧
  ∀ i ∈ elec.map Prod.fst, st.apps ⟨.one i, b, d⟩ = (pre.filter (fun a => Lists elec a i)).map Prod.fst

theorem mem_unshared {α : Type} {elec : List (Int × MeterMeta)} {pre : List (α × List Int)} {i : Int} :
    i ∈ (elec.filter (fun p => decide (¬ Shared pre p.1))).map Prod.fst ↔ i ∈ elec.map Prod.fst ∧ ¬ Shared pre i := by
  simp only [List.mem_map, List.mem_filter, decide_eq_true_eq]
  constructor
  · rintro ⟨p, ⟨h1, h2⟩, rfl⟩
    exact ⟨⟨p, h1, rfl⟩, h2⟩
  · rintro ⟨⟨p, h1, rfl⟩, h2⟩
    exact ⟨p, ⟨h1, h2⟩, rfl⟩

theorem importGet_after {α : Type} {b : Int} {d : String} {elec : List (Int × MeterMeta)} {pre : List (α × List Int)}
    {st : ImportSt α} (hs : After b d elec pre st) {i : Int} (hi : i ≠ 0) :
    importGet b d st.meters i =
      match (elec.filter (fun p => decide (¬ Shared pre p.1))).find? (fun p => decide (p.1 = i)) with
      | some p => .ok (some (mkElec b d p))
      | none => .error .keyError := by
  unfold importGet
  rw [if_neg hi, hs.1, find_load b d _ _ (groupsOf_groups b d elec pre)]
  cases (elec.filter (fun p => decide (¬ Shared pre p.1))).find? (fun p => decide (p.1 = i)) <;> rfl

/-- An appliance with one meter that is not the mains. -/
theorem step_single {α : Type} {b : Int} {d : String} {elec : List (Int × MeterMeta)} {pre : List (α × List Int)}
    {st : ImportSt α} (hk : (elec.map Prod.fst).Nodup) (hs : After b d elec pre st) (x : α) {i : Int} (hi : i ≠ 0) :
    (i ∈ elec.map Prod.fst ∧ ¬ Shared pre i → ∃ st', importAppliance b d st (x, [i]) = .ok st' ∧
      After b d elec (pre ++ [(x, [i])]) st') ∧
    (¬ (i ∈ elec.map Prod.fst ∧ ¬ Shared pre i) → ∃ e, importAppliance b d st (x, [i]) = .error e) := by
  have hT := filter_keys_nodup (fun p => decide (¬ Shared pre p.1)) hk
  constructor
  · intro h
    obtain ⟨p, hp, rfl⟩ := List.mem_map.1 (mem_unshared.2 h)
    refine ⟨{ st with apps := attach x st.apps (mkElec b d p) }, ?_, ?_, ?_⟩
    · simp only [importAppliance, importGet_after hs hi, find_of_mem hT hp]
      rfl
    · have e1 : ∀ j, Shared (pre ++ [(x, [p.1])]) j ↔ Shared pre j := by
        intro j
        rw [shared_append]
        simp
      simp only [hs.1, e1]
      congr 1
      unfold groupsOf
      rw [List.filter_append]
      simp
    · intro j hj
      have ea : attach x st.apps (mkElec b d p) ⟨.one j, b, d⟩ =
          if j = p.1 then st.apps ⟨.one j, b, d⟩ ++ [x] else st.apps ⟨.one j, b, d⟩ := by
        simp [attach, mkElec]
      have el : Lists elec (x, [p.1]) j = decide (j = p.1) := by
        simp [Lists, hi.symm]
      simp only [ea, hs.2 j hj, List.filter_append, List.map_append]
      by_cases hjp : j = p.1
      · rw [if_pos hjp, List.filter_cons_of_pos (by rw [el]; simpa using hjp)]
        rfl
      · rw [if_neg hjp, List.filter_cons_of_neg (by rw [el]; simpa using hjp)]
        simp
  · intro h
    refine ⟨.keyError, ?_⟩
    simp only [importAppliance, importGet_after hs hi, find_none (fun hh => h (mem_unshared.1 hh))]

/-- An appliance with several meters. -/
theorem step_several {α : Type} {b : Int} {d : String} {elec : List (Int × MeterMeta)} {pre : List (α × List Int)}
    {st : ImportSt α} (hk : (elec.map Prod.fst).Nodup) (hs : After b d elec pre st) (a : α × List Int) (ha : a.2.length ≠ 1)
    (h0 : 0 ∉ a.2) :
    ((∀ i ∈ a.2, i ∈ elec.map Prod.fst ∧ ¬ Shared pre i) ∧ a.2.Nodup → ∃ st', importAppliance b d st a = .ok st' ∧
      After b d elec (pre ++ [a]) st') ∧
    (¬ ((∀ i ∈ a.2, i ∈ elec.map Prod.fst ∧ ¬ Shared pre i) ∧ a.2.Nodup) → ∃ e, importAppliance b d st a = .error e) := by
  have hT := filter_keys_nodup (fun p => decide (¬ Shared pre p.1)) hk
  have hne : ∀ i ∈ a.2, i ≠ 0 := fun i hi e => h0 (e ▸ hi)
  rw [importAppliance_several b d st ha]
  by_cases hall : ∀ i ∈ a.2, i ∈ elec.map Prod.fst ∧ ¬ Shared pre i
  · obtain ⟨ps, hps, hpT⟩ := choose_meters (T := elec.filter (fun p => decide (¬ Shared pre p.1)))
      (fun i hi => mem_unshared.2 (hall i hi))
    have hfound : mapE (importGet b d st.meters) a.2 = .ok (ps.map (fun p => some (mkElec b d p))) := by
      rw [mapE_ok, ← hps]
      have hne' : ∀ p ∈ ps, p.1 ≠ 0 := fun p hp => hne p.1 (by rw [← hps]; exact List.mem_map_of_mem hp)
      clear hps
      induction ps with
      | nil => exact List.Forall₂.nil
      | cons p ps ih =>
        refine List.Forall₂.cons ?_ (ih (fun q hq => hpT q (by simp [hq])) (fun q hq => hne' q (by simp [hq])))
        rw [importGet_after hs (hne' p (by simp)), find_of_mem hT (hpT p (by simp))]
    have hfm : (ps.map (fun p => some (mkElec b d p))).filterMap id = ps.map (mkElec b d) := by
      rw [List.filterMap_map]
      simp
    obtain ⟨h1, h2⟩ := takeOut_load b d a.1 (groupsOf b d elec pre) (groupsOf_groups b d elec pre) ps _ st.apps hT hpT
    have hst : st = ⟨(elec.filter (fun p => decide (¬ Shared pre p.1))).map (mkElec b d) ++ groupsOf b d elec pre, st.apps⟩ := by
      rw [← hs.1]
    rw [hfound]
    simp only [hfm]
    constructor
    · rintro ⟨_, hnd⟩
      obtain ⟨apps', h3, h4⟩ := h1 (by rw [hps]; exact hnd)
      rw [← hst] at h3
      rw [h3]
      refine ⟨_, rfl, ?_, ?_⟩
      · simp only
        rw [List.filter_filter, List.append_assoc]
        congr 1
        · congr 2
          funext q
          rw [Bool.eq_iff_iff]
          simp only [Bool.and_eq_true, decide_eq_true_eq, shared_append, not_or, hps]
          constructor
          · rintro ⟨h5, h6⟩
            exact ⟨h6, fun h7 => h5 h7.2⟩
          · rintro ⟨h5, h6⟩
            exact ⟨fun h7 => h6 ⟨ha, h7⟩, h5⟩
        · unfold groupsOf
          rw [List.filter_append, List.map_append, List.filter_cons_of_pos (by simpa using ha)]
          congr 1
          simp only [List.filter_nil, List.map_cons, List.map_nil, List.cons.injEq, and_true]
          rw [← hps, metersOf_eq b d hk (fun p hp => (List.mem_filter.1 (hpT p hp)).1)]
      · intro j hj
        simp only
        rw [h4, hs.2 j hj, List.filter_append, List.map_append, hps]
        congr 1
        have el : Lists elec a j = decide (j ∈ a.2) := by
          simp [Lists, h0]
        by_cases hja : j ∈ a.2
        · rw [if_pos hja, List.filter_cons_of_pos (by simpa [el] using hja)]
          rfl
        · rw [if_neg hja, List.filter_cons_of_neg (by simpa [el] using hja)]
          rfl
    · intro hn
      have : ¬ (ps.map Prod.fst).Nodup := by
        rw [hps]
        exact fun h => hn ⟨hall, h⟩
      obtain ⟨e, he⟩ := h2 this
      rw [← hst] at he
      rw [he]
      exact ⟨e, rfl⟩
  · refine ⟨fun h => absurd h.1 hall, fun _ => ?_⟩
    cases hm : mapE (importGet b d st.meters) a.2 with
    | error e => exact ⟨e, rfl⟩
    | ok found =>
      exfalso
      apply hall
      intro i hi
      have hf := mapE_ok.1 hm
      obtain ⟨y, hy⟩ : ∃ y, importGet b d st.meters i = .ok y := by
        clear hm hall hs ha h0 hne
        generalize a.2 = l at hf hi
        induction hf with
        | nil => simp at hi
        | cons hxy _ ih =>
          rcases List.mem_cons.1 hi with h | h
          · exact ⟨_, by rw [h]; exact hxy⟩
          · exact ih h
      by_contra hcon
      rw [importGet_after hs (hne i hi), find_none (fun hh => hcon (mem_unshared.1 hh))] at hy
      cases hy

theorem inBuilding_elecs {b : Int} {d : String} {ps : List (Int × MeterMeta)} (h : ps ≠ []) :
    (mkGroup (ps.map (mkElec b d))).inBuilding = true := by
  cases ps with
  | nil => exact absurd rfl h
  | cons p ps => simp [mkGroup, Meter.inBuilding, Meter.anyInBuilding, mkElec]

theorem metersOf_elecs (b : Int) (d : String) (elec : List (Int × MeterMeta)) (is : List Int) :
    ∃ ps : List (Int × MeterMeta), metersOf b d elec is = ps.map (mkElec b d) ∧ ∀ p ∈ ps, p ∈ elec ∧ p.1 ∈ is := by
  unfold metersOf
  induction is with
  | nil => exact ⟨[], rfl, by simp⟩
  | cons i is ih =>
    obtain ⟨ps, h1, h2⟩ := ih
    simp only [List.filterMap_cons]
    cases hf : elec.find? (fun p => decide (p.1 = i)) with
    | none => exact ⟨ps, by simpa using h1, fun p hp => ⟨(h2 p hp).1, by simp [(h2 p hp).2]⟩⟩
    | some q =>
      refine ⟨q :: ps, by simp [h1], ?_⟩
      intro p hp
      rcases List.mem_cons.1 hp with rfl | hp
      · have h3 := List.find?_some hf
        simp only [decide_eq_true_eq] at h3
        exact ⟨List.mem_of_find?_eq_some hf, by simp [h3]⟩
      · exact ⟨(h2 p hp).1, by simp [(h2 p hp).2]⟩

/-- The appliance of the mains. -/
theorem step_mains {α : Type} {b : Int} {d : String} {elec : List (Int × MeterMeta)} {pre : List (α × List Int)}
    {st : ImportSt α} (hk : (elec.map Prod.fst).Nodup) (h0 : 0 ∉ elec.map Prod.fst) (hs : After b d elec pre st) (x : α)
    (hsite : ∀ a ∈ pre, a.2.length ≠ 1 → ∀ p ∈ elec, p.1 ∈ a.2 → p.2.site = false) :
    ((∃ p ∈ elec, p.2.site = true) → ∃ st', importAppliance b d st (x, [0]) = .ok st' ∧ After b d elec (pre ++ [(x, [0])]) st') ∧
    (¬ (∃ p ∈ elec, p.2.site = true) → ∃ e, importAppliance b d st (x, [0]) = .error e) := by
  -- groups are never site meters
  have hg : ∀ g ∈ groupsOf b d elec pre, g.isSite = false ∧ ∃ ps, g = mkGroup (List.map (mkElec b d) ps) := by
    intro g hgm
    obtain ⟨a, ha, rfl⟩ := List.mem_map.1 hgm
    obtain ⟨ps, h1, h2⟩ := metersOf_elecs b d elec a.2
    refine ⟨?_, ps, by rw [h1]⟩
    rw [h1, Bool.eq_false_iff]
    intro hh
    rw [C52_is_site_meter] at hh
    rcases hh with _ | ⟨_, _, _, m, hm, hms⟩
    obtain ⟨p, hp, rfl⟩ := List.mem_map.1 hm
    rcases hms with ⟨_, hms⟩ | _
    have := hsite a (List.mem_filter.1 ha).1 (by simpa using (List.mem_filter.1 ha).2) p (h2 p hp).1 (h2 p hp).2
    simp only at hms
    rw [this] at hms
    cases hms
  have hT := filter_keys_nodup (fun p => decide (¬ Shared pre p.1)) hk
  have hS := filter_keys_nodup (fun p => p.2.site) hk
  have hTS : (elec.filter (fun p => decide (¬ Shared pre p.1))).filter (fun p => p.2.site) = elec.filter (fun p => p.2.site) := by
    rw [List.filter_filter]
    apply List.filter_congr
    intro p hp
    by_cases hps : p.2.site = true
    · simp only [hps, Bool.true_and, decide_eq_true_eq]
      rintro ⟨a, ha, ha1, ha2⟩
      rw [hsite a ha ha1 p hp ha2] at hps
      cases hps
    · simp [hps]
  have hsel : ∃ G, (∀ g ∈ G, g ∈ groupsOf b d elec pre ∧ g.inBuilding = true) ∧ st.meters.filter Meter.inBuilding =
      (elec.filter (fun p => decide (¬ Shared pre p.1))).map (mkElec b d) ++ G := by
    refine ⟨(groupsOf b d elec pre).filter Meter.inBuilding, ?_, ?_⟩
    · intro g hgm
      exact List.mem_filter.1 hgm
    · rw [hs.1, List.filter_append]
      congr 1
      rw [List.filter_eq_self]
      intro m hm
      obtain ⟨p, _, rfl⟩ := List.mem_map.1 hm
      rfl
  obtain ⟨G, hG, hselG⟩ := hsel
  have hfs : (st.meters.filter Meter.inBuilding).filter (fun m => m.isSite) =
      (elec.filter (fun p => p.2.site)).map (mkElec b d) := by
    rw [hselG, List.filter_append]
    have e1 : G.filter (fun m => m.isSite) = [] := by
      rw [List.filter_eq_nil_iff]
      intro g hgm
      simp [(hg g (hG g hgm).1).1]
    rw [e1, List.append_nil, ← hTS, List.filter_map]
    rfl
  have hok : ∃ r, mains (st.meters.filter Meter.inBuilding) = .ok r := by
    rw [hselG]
    apply C52_one_building_ok _ b
    · intro m hm
      rcases List.mem_append.1 hm with hm | hm
      · obtain ⟨p, _, rfl⟩ := List.mem_map.1 hm
        exact .elec _
      · obtain ⟨h1, h2⟩ := hG m hm
        obtain ⟨_, ps, rfl⟩ := hg m h1
        refine .group _ _ _ ?_ ?_
        · intro e
          rw [mkGroup, e] at h2
          simp [Meter.inBuilding, Meter.anyInBuilding] at h2
        · intro y hy
          obtain ⟨p, _, rfl⟩ := List.mem_map.1 hy
          exact .elec _
    · intro m hm e he
      rcases List.mem_append.1 hm with hm | hm
      · obtain ⟨p, _, rfl⟩ := List.mem_map.1 hm
        cases he
        rfl
      · obtain ⟨_, ps, rfl⟩ := hg m (hG m hm).1
        rcases he with _ | ⟨_, _, _, y, hy, hye⟩
        obtain ⟨p, _, rfl⟩ := List.mem_map.1 hy
        cases hye
        rfl
  obtain ⟨r, hr⟩ := hok
  have hre := mains_eq hr
  rw [hfs] at hre
  constructor
  · rintro ⟨p0, hp0, hsp0⟩
    have hSne : elec.filter (fun p => p.2.site) ≠ [] := by
      intro e
      have : p0 ∈ elec.filter (fun p => p.2.site) := List.mem_filter.2 ⟨hp0, hsp0⟩
      rw [e] at this
      cases this
    have hget : importGet b d st.meters 0 = .ok r := by
      unfold importGet
      rw [if_pos rfl]
      split
      · rename_i e
        rw [e] at hfs
        simp only [List.filter_nil] at hfs
        exact absurd (List.map_eq_nil_iff.1 hfs.symm) hSne
      · exact hr
    have himp : importAppliance b d st (x, [0]) =
        .ok { st with apps := attachAll x st.apps ((elec.filter (fun p => p.2.site)).map (mkElec b d)) } := by
      simp only [importAppliance, hget]
      rw [hre]
      generalize elec.filter (fun p => p.2.site) = S at hSne
      match S, hSne with
      | [], h => exact absurd rfl h
      | [p], _ => rfl
      | _ :: _ :: _, _ => rfl
    refine ⟨_, himp, ?_, ?_⟩
    · have e1 : ∀ j, Shared (pre ++ [(x, [0])]) j ↔ Shared pre j := by
        intro j
        rw [shared_append]
        simp
      simp only [hs.1, e1]
      congr 1
      unfold groupsOf
      rw [List.filter_append]
      simp
    · intro j hj
      have hj0 : j ≠ 0 := fun e => h0 (e ▸ hj)
      simp only
      rw [attachAll_load b d x _ st.apps hS, hs.2 j hj, List.filter_append, List.map_append]
      congr 1
      have el : Lists elec (x, [0]) j = true ↔ j ∈ (elec.filter (fun p => p.2.site)).map Prod.fst := by
        simp only [Lists, List.mem_singleton, hj0, decide_false, decide_true, Bool.true_and, Bool.false_or, List.any_eq_true,
          Bool.and_eq_true, decide_eq_true_eq, List.mem_map, List.mem_filter]
        constructor
        · rintro ⟨p, h1, h2, h3⟩; exact ⟨p, ⟨h1, h3⟩, h2⟩
        · rintro ⟨p, ⟨h1, h3⟩, h2⟩; exact ⟨p, h1, h2, h3⟩
      by_cases hja : j ∈ (elec.filter (fun p => p.2.site)).map Prod.fst
      · rw [if_pos hja, List.filter_cons_of_pos (p := fun a => Lists elec a j) (el.2 hja)]
        rfl
      · rw [if_neg hja, List.filter_cons_of_neg (p := fun a => Lists elec a j) (fun h => hja (el.1 h))]
        rfl
  · intro hno
    have hnil : elec.filter (fun p => p.2.site) = [] := by
      rw [List.filter_eq_nil_iff]
      intro p hp hps
      exact hno ⟨p, hp, hps⟩
    rw [hnil] at hre
    simp only [List.map_nil] at hre
    simp only [importAppliance, importGet, if_pos]
    split <;> rename_i hx
    · exact ⟨_, rfl⟩
    · exact ⟨_, rfl⟩
    · exfalso
      split at hx
      · cases hx
      · rw [hr, hre] at hx; cases hx
    · exfalso
      split at hx
      · cases hx
      · rw [hr, hre] at hx; cases hx

/-- The loop over the appliances. -/
theorem loop_after {α : Type} {b : Int} {d : String} {elec : List (Int × MeterMeta)} {as : List (α × List Int)}
    (ho : Ordinary elec as) (post : List (α × List Int)) : ∀ (pre : List (α × List Int)) (st : ImportSt α), as = pre ++ post →
    After b d elec pre st →
    ((∀ pre' a post', post = pre' ++ a :: post' → CanFollow elec (pre ++ pre') a) →
      ∃ st', importAppliances b d st post = .ok st' ∧ After b d elec as st') ∧
    ((∃ pre' a post', post = pre' ++ a :: post' ∧ ¬ CanFollow elec (pre ++ pre') a) →
      ∃ e, importAppliances b d st post = .error e) := by
  induction post with
  | nil =>
    intro pre st e hs
    refine ⟨fun _ => ⟨st, rfl, by rw [e, List.append_nil]; exact hs⟩, ?_⟩
    rintro ⟨pre', a, post', h, _⟩
    simp at h
  | cons a post ih =>
    intro pre st e hs
    have ha : a ∈ as := by rw [e]; simp
    have hstep : (CanFollow elec pre a → ∃ st', importAppliance b d st a = .ok st' ∧ After b d elec (pre ++ [a]) st') ∧
        (¬ CanFollow elec pre a → ∃ e, importAppliance b d st a = .error e) := by
      by_cases hl : a.2.length = 1
      · obtain ⟨x, is⟩ := a
        match is, hl with
        | [i], _ =>
          by_cases hi : i = 0
          · subst hi
            have hc : CanFollow elec pre (x, [0]) ↔ ∃ p ∈ elec, p.2.site = true := by
              unfold CanFollow
              simp only [List.mem_singleton, forall_eq, List.nodup_singleton, and_true, true_and]
              constructor
              · rintro (⟨h, _⟩ | h)
                · exact absurd h ho.nonzero
                · exact h
              · exact Or.inr
            rw [hc]
            refine step_mains ho.keys ho.nonzero hs x ?_
            intro a' ha' h1 p hp hpa
            exact ho.mains ⟨_, ha, by simp⟩ a' (by rw [e]; simp [ha']) h1 p hp hpa
          · have hc : CanFollow elec pre (x, [i]) ↔ i ∈ elec.map Prod.fst ∧ ¬ Shared pre i := by
              unfold CanFollow
              simp only [List.mem_singleton, forall_eq, List.nodup_singleton, and_true, hi, false_and, or_false]
            rw [hc]
            exact step_single ho.keys hs x hi
      · have h0 := ho.several a ha hl
        have hc : CanFollow elec pre a ↔ (∀ i ∈ a.2, i ∈ elec.map Prod.fst ∧ ¬ Shared pre i) ∧ a.2.Nodup := by
          unfold CanFollow
          refine and_congr_left (fun _ => ?_)
          constructor
          · intro h i hi
            rcases h i hi with h | ⟨h, _⟩
            · exact h
            · exact absurd (h ▸ hi) h0
          · exact fun h i hi => Or.inl (h i hi)
        rw [hc]
        exact step_several ho.keys hs a hl h0
    constructor
    · intro hall
      obtain ⟨st1, h1, h2⟩ := hstep.1 (by simpa using hall [] a post rfl)
      obtain ⟨st2, h3, h4⟩ := (ih (pre ++ [a]) st1 (by simp [e]) h2).1 (by
        intro pre' a' post' h
        have := hall (a :: pre') a' post' (by simp [h])
        simpa using this)
      exact ⟨st2, by simp only [importAppliances, h1, h3], h4⟩
    · rintro ⟨pre', a', post', h, hn⟩
      simp only [importAppliances]
      by_cases hc : CanFollow elec pre a
      · obtain ⟨st1, h1, h2⟩ := hstep.1 hc
        rw [h1]
        refine (ih (pre ++ [a]) st1 (by simp [e]) h2).2 ?_
        cases pre' with
        | nil =>
          simp only [List.nil_append, List.cons.injEq] at h
          obtain ⟨rfl, _⟩ := h
          simp only [List.append_nil] at hn
          exact absurd hc hn
        | cons c pre' =>
          simp only [List.cons_append, List.cons.injEq] at h
          obtain ⟨rfl, h⟩ := h
          exact ⟨pre', a', post', h, by simpa using hn⟩
      · obtain ⟨e', h1⟩ := hstep.2 hc
        rw [h1]
        exact ⟨e', rfl⟩

theorem toDisable_elec {b : Int} {d : String} {elec : List (Int × MeterMeta)} (hk : (elec.map Prod.fst).Nodup)
    {p : Int × MeterMeta} (hp : p ∈ elec) : toDisable elec (mkElec b d p) = p.2.disabled := by
  simp only [toDisable, mkElec, Inst.one.injEq]
  rw [Bool.eq_iff_iff, List.any_eq_true]
  simp only [Bool.and_eq_true, decide_eq_true_eq]
  constructor
  · rintro ⟨q, hq, h1, h2⟩
    rw [List.inj_on_of_nodup_map hk hp hq h1]
    exact h2
  · intro h
    exact ⟨p, hp, rfl, h⟩

/-- The import of ordinary metadata succeeds exactly when every appliance lists existing meters, each once, none of which belongs to an
earlier appliance with several meters. The meters are then those not belonging to an appliance with several meters, without the
disabled ones, in the order of the metadata, followed by one group for each appliance with several meters, in the order of the
appliances; each meter has just the appliances that list it, or that list the mains if it is a site meter, in their order. -/
theorem C74_import {α : Type} (b : Int) (d : String) (elec : List (Int × MeterMeta)) (as : List (α × List Int))
    (ho : Ordinary elec as) :
    ((∀ pre a post, as = pre ++ a :: post → CanFollow elec pre a) → ∃ ms ds apps,
      importMetadata b d elec as = .ok (ms, ds, apps) ∧
      ms = (elec.filter (fun p => decide (¬ Shared as p.1 ∧ p.2.disabled = false))).map (mkElec b d) ++ groupsOf b d elec as ∧
      ds = (elec.filter (fun p => decide (¬ Shared as p.1 ∧ p.2.disabled = true))).map (mkElec b d) ∧
      ∀ i ∈ elec.map Prod.fst, apps ⟨.one i, b, d⟩ = (as.filter (fun a => Lists elec a i)).map Prod.fst) ∧
    ((∃ pre a post, as = pre ++ a :: post ∧ ¬ CanFollow elec pre a) → ∃ e, importMetadata b d elec as = .error e) := by
  have hs0 : After b d elec ([] : List (α × List Int)) ⟨elec.map (mkElec b d), fun _ => []⟩ := by
    refine ⟨?_, by simp⟩
    have : elec.filter (fun p => decide (¬ Shared ([] : List (α × List Int)) p.1)) = elec := by
      rw [List.filter_eq_self]
      intro p _
      simp [Shared]
    rw [this]
    simp [groupsOf]
  obtain ⟨h1, h2⟩ := loop_after ho as [] _ rfl hs0
  simp only [List.nil_append] at h1 h2
  constructor
  · intro hall
    obtain ⟨st, h3, h4⟩ := h1 hall
    have hT : ∀ f : Int × MeterMeta → Bool, (elec.filter f).map (mkElec b d) |>.Pairwise (fun x y => x.pyEq y = false) := by
      intro f
      have h5 := filter_keys_nodup f ho.keys
      rw [List.pairwise_map]
      rw [List.Nodup, List.pairwise_map] at h5
      refine h5.imp ?_
      intro p q hpq
      simp [mkElec, Meter.pyEq, hpq]
    have hgr : (groupsOf b d elec as).filter (toDisable elec) = [] := by
      rw [List.filter_eq_nil_iff]
      intro g hg
      obtain ⟨ms, rfl⟩ := groupsOf_groups b d elec as g hg
      simp [toDisable, mkGroup]
    have hfil : ∀ v : Bool, ((elec.filter (fun p => decide (¬ Shared as p.1))).map (mkElec b d)).filter
          (fun m => decide (toDisable elec m = v)) =
        (elec.filter (fun p => decide (¬ Shared as p.1 ∧ p.2.disabled = v))).map (mkElec b d) := by
      intro v
      rw [List.filter_map, List.filter_filter]
      congr 1
      apply List.filter_congr
      intro p hp
      rw [Bool.eq_iff_iff]
      simp only [Function.comp_apply, toDisable_elec ho.keys hp, Bool.and_eq_true, decide_eq_true_eq]
      exact and_comm
    have hmove := moveMeters_exact (toDisable elec) ((elec.filter (fun p => decide (¬ Shared as p.1))).map (mkElec b d)) []
      (groupsOf b d elec as) [] (by simpa using hT _)
    have e1 : ((elec.filter (fun p => decide (¬ Shared as p.1))).map (mkElec b d)).filter (toDisable elec) =
        (elec.filter (fun p => decide (¬ Shared as p.1 ∧ p.2.disabled = true))).map (mkElec b d) := by
      rw [← hfil true]
      congr 1
      funext m
      simp
    have e2 : ((elec.filter (fun p => decide (¬ Shared as p.1))).map (mkElec b d)).filter (fun m => !toDisable elec m) =
        (elec.filter (fun p => decide (¬ Shared as p.1 ∧ p.2.disabled = false))).map (mkElec b d) := by
      rw [← hfil false]
      congr 1
      funext m
      simp
    simp only [List.nil_append] at hmove
    rw [e1, e2] at hmove
    refine ⟨_, _, st.apps, ?_, rfl, rfl, h4.2⟩
    unfold importMetadata
    rw [h3]
    simp only [h4.1, List.filter_append, hgr, List.append_nil, e1, hmove]
  · intro hbad
    obtain ⟨e, h3⟩ := h2 hbad
    exact ⟨e, by unfold importMetadata; rw [h3]⟩

/-! ### What ordinary metadata leaves out, and surprises -/

/-- Sample metadata. -/
def exMeta (site disabled : Bool) : MeterMeta := ⟨site, disabled, TF.mk' (some 0) (some 10)⟩

/-- C74. An appliance with several meters, the first of them the mains, of a building without a site meter: `ValueError`. -/
theorem C74_no_mains {α : Type} (b : Int) (d : String) (st : ImportSt α) (a : α) (i : Int) (is : List Int) (found : List (Option Meter))
    (hsel : st.meters.filter Meter.inBuilding ≠ []) (hm : mains (st.meters.filter Meter.inBuilding) = .ok none)
    (hf : mapE (importGet b d st.meters) (i :: is) = .ok found) :
    importAppliance b d st (a, 0 :: i :: is) = .error .valueError := by
  have h0 : importGet b d st.meters 0 = .ok none := by
    unfold importGet
    rw [if_pos rfl]
    cases h : st.meters.filter Meter.inBuilding with
    | nil => exact absurd h hsel
    | cons x xs => rw [h] at hm; exact hm
  have hall : mapE (importGet b d st.meters) (0 :: i :: is) = .ok (none :: found) := by
    rw [mapE, h0, hf]
  unfold importAppliance
  simp only [hall, takeOut]

/-- The order of the appliances matters: a meter of an appliance with several meters can be listed by an earlier appliance but not by
a later one. -/
theorem C74_order_counterexample : ∃ (elec : List (Int × MeterMeta)) (a c : String × List Int) (r : List Meter × List Meter × (MeterId → List String)),
    importMetadata 1 "REDD" elec [a, c] = .ok r ∧ importMetadata 1 "REDD" elec [c, a] = .error .keyError := by
  refine ⟨[(1, exMeta false false), (2, exMeta false false)], ("lamp", [1]), ("oven", [1, 2]), _, rfl, rfl⟩

/-- A disabled meter that belongs to an appliance with several meters stays enabled. -/
theorem C74_disabled_counterexample : ∃ (elec : List (Int × MeterMeta)) (as : List (String × List Int)) (ms : List Meter)
    (apps : MeterId → List String) (p : Int × MeterMeta), p ∈ elec ∧ p.2.disabled = true ∧
    importMetadata 1 "REDD" elec as = .ok (ms, [], apps) ∧ ⟨.one p.1, 1, "REDD"⟩ ∈ Meter.leavesOf ms := by
  refine ⟨[(1, exMeta false true), (2, exMeta false false)], [("oven", [1, 2])], _, _, (1, exMeta false true), by simp, rfl, rfl, ?_⟩
  simp [Meter.leavesOf, mkGroup, Meter.leaves, mkElec]

/-- An appliance without meters adds an empty group, and then `mains()` of the building raises. -/
theorem C74_no_meters_counterexample : ∃ (elec : List (Int × MeterMeta)) (as : List (String × List Int)) (ms : List Meter)
    (apps : MeterId → List String), importMetadata 1 "REDD" elec as = .ok (ms, [], apps) ∧ mains ms = .error .runtimeError ∧
    (∀ p ∈ elec, p.2.site = true) := by
  refine ⟨[(1, exMeta true false)], [("lamp", [])], _, _, rfl, ?_, by simp [exMeta]⟩
  simp [mains, multipleBuildings, mkGroup, mkElec, Meter.building, Meter.buildings, bldSetFrom, Bld.beq, simplestTypeFor]

/-- When site meters are grouped, an appliance that lists the mains gets lost for them. -/
theorem C74_lost_counterexample : ∃ (elec : List (Int × MeterMeta)) (as : List (String × List Int)) (ms : List Meter)
    (apps : MeterId → List String), (∀ p ∈ elec, p.2.site = true) ∧ importMetadata 1 "REDD" elec as = .ok (ms, [], apps) ∧
    ("boiler", [0]) ∈ as ∧ apps ⟨.one 3, 1, "REDD"⟩ = ["boiler"] ∧ apps ⟨.one 1, 1, "REDD"⟩ = ["pump"] ∧
    apps ⟨.one 2, 1, "REDD"⟩ = ["pump"] := by
  refine ⟨[(1, exMeta true false), (2, exMeta true false), (3, exMeta true false)], [("pump", [1, 2]), ("boiler", [0])], _, _,
    by simp [exMeta], rfl, by simp, rfl, rfl, rfl⟩

/-- Sample metadata for the theorems. -/
def exElec : List (Int × MeterMeta) :=
  [(1, exMeta true false), (2, exMeta true true), (3, exMeta false false), (4, exMeta false false), (5, exMeta false true)]

def exApps : List (String × List Int) := [("oven", [3, 4]), ("lamp", [5]), ("boiler", [0])]

example : Ordinary exElec exApps := by
  refine ⟨by decide, by decide, ?_, ?_⟩
  · intro a ha h
    simp only [exApps, List.mem_cons, List.not_mem_nil, or_false] at ha
    rcases ha with rfl | rfl | rfl <;> simp_all
  · intro _ a ha h p hp hpa
    simp only [exApps, List.mem_cons, List.not_mem_nil, or_false] at ha
    simp only [exElec, List.mem_cons, List.not_mem_nil, or_false] at hp
    rcases ha with rfl | rfl | rfl <;> rcases hp with rfl | rfl | rfl | rfl | rfl <;> simp_all [exMeta]

example : ∃ apps, importMetadata 1 "REDD" exElec exApps = .ok
    ([mkElec 1 "REDD" (1, exMeta true false),
      mkGroup [mkElec 1 "REDD" (3, exMeta false false), mkElec 1 "REDD" (4, exMeta false false)]],
     [mkElec 1 "REDD" (2, exMeta true true), mkElec 1 "REDD" (5, exMeta false true)], apps) ∧
    apps ⟨.one 1, 1, "REDD"⟩ = ["boiler"] ∧ apps ⟨.one 2, 1, "REDD"⟩ = ["boiler"] ∧ apps ⟨.one 3, 1, "REDD"⟩ = ["oven"] ∧
    apps ⟨.one 5, 1, "REDD"⟩ = ["lamp"] := by
  exact ⟨_, rfl, rfl, rfl, rfl, rfl⟩

example : ∃ e, importMetadata 1 "REDD" exElec [("oven", [3, 3])] = .error e := ⟨.valueError, rfl⟩

end Nilmtk
