import Verif.Model.DataSet
import Verif.Props.HDF
import Verif.Props.Import
/-!
C89: opening a dataset gives one building for every building of the store, and the window set on it decides what is loaded.
-/
namespace Nilmtk
open TF

/-! ### Specification -/

/-- The building `b`, under the key `i`, is the one that the metadata in the store describe. -/
def Describes {α : Type} (dataset : String) (md : Option (BuildingMeta α)) (i : Int) (b : Bldg α) : Prop :=
  ∃ m, md = some m ∧ i = m.inst ∧ b.inst = m.inst ∧ b.dataset = m.dataset.getD dataset ∧
    importMetadata m.inst (m.dataset.getD dataset) m.elec m.appliances = .ok (b.meters, b.disabled, b.apps)

/-- The instances that the metadata name. -/
def instances {α ρ : Type} (st : DsStore α ρ) : List Int := st.children.filterMap (fun c => c.2.map BuildingMeta.inst)

/-- The import of a building raises `e`. -/
def Broken {α : Type} (dataset : String) (md : Option (BuildingMeta α)) (e : Err) : Prop :=
  (md = none ∧ e = .attributeError) ∨
  ∃ m, md = some m ∧ importMetadata m.inst (m.dataset.getD dataset) m.elec m.appliances = .error e

/-- The instant `t` is at or after `start`, if there is one, and before `stop`, if there is one, which are times on the clock
in the time zone `tz`. -/
def InWindow (tzdb : String → Int → Except Err Int) (tz : String) (start stop : Option Int) (t : Int) : Prop :=
  (∀ s, start = some s → ∃ u, tzdb tz s = .ok u ∧ u ≤ t) ∧ (∀ e, stop = some e → ∃ u, tzdb tz e = .ok u ∧ t < u)

/-! ### Opening -/

theorem importBuilding_ok {α : Type} {dataset : String} {md : Option (BuildingMeta α)} {b : Bldg α} :
    importBuilding dataset md = .ok b ↔ Describes dataset md b.inst b := by
  unfold importBuilding Describes
  constructor
  · intro h
    split at h
    · cases h
    · rename_i m
      split at h
      · cases h
      · rename_i ms ds apps hi
        cases h
        exact ⟨m, rfl, rfl, rfl, rfl, hi⟩
  · rintro ⟨m, rfl, h1, _, h3, h4⟩
    simp only [h4]
    obtain ⟨i, d, ms, ds, a⟩ := b
    simp only at h1 h3
    subst h1 h3
    rfl

theorem importBuilding_error {α : Type} {dataset : String} {md : Option (BuildingMeta α)} {e : Err} :
    importBuilding dataset md = .error e ↔ Broken dataset md e := by
  unfold importBuilding Broken
  constructor
  · intro h
    split at h
    · cases h; exact .inl ⟨rfl, rfl⟩
    · rename_i m
      split at h
      · rename_i e' he
        cases h
        exact .inr ⟨m, rfl, he⟩
      · cases h
  · rintro (⟨rfl, rfl⟩ | ⟨m, rfl, h⟩)
    · rfl
    · simp only [h]

theorem orderedSet_new {κ ν : Type} [DecidableEq κ] (d : List (κ × ν)) (k : κ) (v : ν) (h : k ∉ d.map Prod.fst) :
    orderedSet d k v = d ++ [(k, v)] := by
  unfold orderedSet
  rw [if_neg h]

theorem initLoop_ok {α : Type} (dataset : String) (cs : List (Str × Option (BuildingMeta α))) (d d' : List (Int × Bldg α))
    (hn : (d.map Prod.fst ++ cs.filterMap (fun c => c.2.map BuildingMeta.inst)).Nodup)
    (h : initLoop dataset cs d = (d', none)) :
    ∃ new, d' = d ++ new ∧ List.Forall₂ (fun c e => Describes dataset c.2 e.1 e.2) cs new := by
  induction cs generalizing d with
  | nil =>
    cases h
    exact ⟨[], by simp, .nil⟩
  | cons c cs ih =>
    rw [initLoop] at h
    split at h
    · cases h
    · rename_i b hb
      have hd := importBuilding_ok.1 hb
      obtain ⟨m, hm, hi, _⟩ := id hd
      rw [List.filterMap_cons, hm] at hn
      simp only [Option.map_some] at hn
      rw [← hi] at hn
      have hnew : b.inst ∉ d.map Prod.fst := by
        intro hx
        rw [List.nodup_append] at hn
        exact hn.2.2 _ hx _ List.mem_cons_self rfl
      rw [orderedSet_new _ _ _ hnew] at h
      obtain ⟨new, h1, h2⟩ := ih (d ++ [(b.inst, b)]) (by
        rw [List.map_append, List.map_cons, List.map_nil, List.append_assoc]
        exact hn) h
      exact ⟨(b.inst, b) :: new, by rw [h1]; simp, .cons hd h2⟩

theorem initLoop_error {α : Type} (dataset : String) (cs : List (Str × Option (BuildingMeta α))) (d : List (Int × Bldg α)) :
    ((∃ e, (initLoop dataset cs d).2 = some e) ↔ ∃ c ∈ cs, ∃ e, Broken dataset c.2 e) ∧
    (∀ e, (initLoop dataset cs d).2 = some e → ∃ c ∈ cs, Broken dataset c.2 e) := by
  induction cs generalizing d with
  | nil => simp [initLoop]
  | cons c cs ih =>
    rw [initLoop]
    cases hb : importBuilding dataset c.2 with
    | error e =>
      have := importBuilding_error.1 hb
      constructor
      · exact ⟨fun _ => ⟨c, List.mem_cons_self, e, this⟩, fun _ => ⟨e, rfl⟩⟩
      · intro e' he'
        cases he'
        exact ⟨c, List.mem_cons_self, this⟩
    | ok b =>
      simp only
      obtain ⟨i1, i2⟩ := ih (orderedSet d b.inst b)
      constructor
      · rw [i1]
        constructor
        · rintro ⟨c', hc', e, he⟩
          exact ⟨c', List.mem_cons_of_mem _ hc', e, he⟩
        · rintro ⟨c', hc', e, he⟩
          rcases List.mem_cons.1 hc' with rfl | hc'
          · rw [importBuilding_error.2 he] at hb
            cases hb
          · exact ⟨c', hc', e, he⟩
      · intro e he
        obtain ⟨c', hc', h'⟩ := i2 e he
        exact ⟨c', List.mem_cons_of_mem _ hc', h'⟩

theorem strLe_total (a b : Str) : strLe a b = true ∨ strLe b a = true := by
  induction a generalizing b with
  | nil => exact .inl (by simp [strLe])
  | cons c a ih =>
    cases b with
    | nil => exact .inr (by simp [strLe])
    | cons d b =>
      rw [strLe, strLe]
      by_cases h : c = d
      · subst h
        simp only [if_true]
        exact ih b
      · rw [if_neg h, if_neg (Ne.symm h)]
        have hne : c.toNat ≠ d.toNat := fun he => h (Char.toNat_inj.1 he)
        simp only [decide_eq_true_eq]
        omega

theorem strLe_trans {a b c : Str} (h1 : strLe a b = true) (h2 : strLe b c = true) : strLe a c = true := by
  induction a generalizing b c with
  | nil => simp [strLe]
  | cons x a ih =>
    cases b with
    | nil => simp [strLe] at h1
    | cons y b =>
      cases c with
      | nil => simp [strLe] at h2
      | cons z c =>
        rw [strLe] at h1 h2 ⊢
        by_cases hxy : x = y
        · subst hxy
          rw [if_pos rfl] at h1
          by_cases hxz : x = z
          · subst hxz
            rw [if_pos rfl] at h2 ⊢
            exact ih h1 h2
          · rw [if_neg hxz] at h2 ⊢
            exact h2
        · rw [if_neg hxy, decide_eq_true_eq] at h1
          by_cases hyz : y = z
          · subst hyz
            rw [if_neg hxy, decide_eq_true_eq]
            exact h1
          · rw [if_neg hyz, decide_eq_true_eq] at h2
            have hxz : x ≠ z := by rintro rfl; omega
            rw [if_neg hxz, decide_eq_true_eq]
            omega

/-- C89. A dataset whose buildings have different instances: opening it gives a dictionary with one entry for every building
of the store, under its instance, with the meters and appliances its metadata describe, in the alphabetical order of the names
in the store; the store is kept. -/
theorem C89_opened_partial {α ρ : Type} (st : DsStore α ρ) (hn : (instances st).Nodup) (d : DataSet α ρ)
    (h : DataSet.opened st = (d, none)) :
    d.store = some st ∧ (d.buildings.map Prod.fst).Perm (instances st) ∧
    ∃ cs, cs.Perm st.children ∧ cs.Pairwise (fun a b => strLe a.1 b.1 = true) ∧
      List.Forall₂ (fun c e => Describes st.name c.2 e.1 e.2) cs d.buildings := by
  unfold DataSet.opened DataSet.importMetadata DataSet.new at h
  simp only at h
  have hperm : (st.children.insertionSort (fun a b => strLe a.1 b.1 = true)).Perm st.children := List.perm_insertionSort _ _
  have hinst : ((st.children.insertionSort (fun a b => strLe a.1 b.1 = true)).filterMap
      (fun c => c.2.map BuildingMeta.inst)).Perm (instances st) := hperm.filterMap _
  cases hl : initLoop st.name (st.children.insertionSort (fun a b => strLe a.1 b.1 = true)) ([] : List (Int × Bldg α)) with
  | mk bs e =>
    rw [hl] at h
    simp only [Prod.mk.injEq] at h
    obtain ⟨rfl, rfl⟩ := h
    obtain ⟨new, h1, h2⟩ := initLoop_ok st.name _ [] bs (by simpa using hinst.nodup_iff.2 hn) hl
    rw [List.nil_append] at h1
    subst h1
    refine ⟨rfl, ?_, _, hperm, ?_, h2⟩
    · simp only
      refine List.Perm.trans ?_ hinst
      rw [show bs.map Prod.fst = (st.children.insertionSort (fun a b => strLe a.1 b.1 = true)).filterMap
          (fun c => c.2.map BuildingMeta.inst) from ?_]
      clear hl hperm hinst
      generalize st.children.insertionSort (fun a b => strLe a.1 b.1 = true) = cs at h2
      induction h2 with
      | nil => rfl
      | cons hd _ ih =>
        obtain ⟨m, hm, hi, _⟩ := hd
        rw [List.map_cons, List.filterMap_cons, hm, ih, hi]
        rfl
    · have : Std.Total (fun a b : Str × Option (BuildingMeta α) => strLe a.1 b.1 = true) := ⟨fun a b => strLe_total a.1 b.1⟩
      have : IsTrans (Str × Option (BuildingMeta α)) (fun a b => strLe a.1 b.1 = true) := ⟨fun _ _ _ => strLe_trans⟩
      exact List.pairwise_insertionSort (fun a b : Str × Option (BuildingMeta α) => strLe a.1 b.1 = true) _

/-- C89. Every meter of an open dataset is identified by its number, the instance of its building and the name of the dataset:
the meters of a building, enabled and disabled, are exactly those of its metadata. -/
theorem C89_meters_partial {α ρ : Type} (st : DsStore α ρ) (hn : (instances st).Nodup) (d : DataSet α ρ)
    (h : DataSet.opened st = (d, none)) (i : Int) (b : Bldg α) (hb : (i, b) ∈ d.buildings) :
    ∃ name m, (name, some m) ∈ st.children ∧ m.inst = i ∧ ((m.elec.map Prod.fst).Nodup →
      (Meter.leavesOf b.meters ++ Meter.leavesOf b.disabled).Perm
        (m.elec.map (fun p => ⟨.one p.1, i, m.dataset.getD st.name⟩))) := by
  obtain ⟨_, _, cs, h1, _, h3⟩ := C89_opened_partial st hn d h
  have : ∀ (cs : List (Str × Option (BuildingMeta α))) (bs : List (Int × Bldg α)),
      List.Forall₂ (fun c e => Describes st.name c.2 e.1 e.2) cs bs → ∀ e ∈ bs, ∃ c ∈ cs, Describes st.name c.2 e.1 e.2 := by
    intro cs bs hf
    induction hf with
    | nil => simp
    | cons hd _ ih =>
      intro e he
      rcases List.mem_cons.1 he with rfl | he
      · exact ⟨_, List.mem_cons_self, hd⟩
      · obtain ⟨c, hc, hx⟩ := ih e he
        exact ⟨c, List.mem_cons_of_mem _ hc, hx⟩
  obtain ⟨c, hc, m, hm, hi, _, _, hx⟩ := this cs _ h3 _ hb
  simp only at hi
  refine ⟨c.1, m, ?_, hi.symm, ?_⟩
  · rw [← hm]
    exact h1.mem_iff.1 hc
  · intro hk
    rw [hi]
    exact C74_conserved m.inst (m.dataset.getD st.name) m.elec m.appliances _ _ _ hk hx

/-- C89. Opening raises exactly if the import of one of the buildings does, and then with its error. -/
theorem C89_opening_fails {α ρ : Type} (st : DsStore α ρ) :
    ((∃ e, (DataSet.opened st).2 = some e) ↔ ∃ c ∈ st.children, ∃ e, Broken st.name c.2 e) ∧
    ∀ e, (DataSet.opened st).2 = some e → ∃ c ∈ st.children, Broken st.name c.2 e := by
  have hm : ∀ c, c ∈ st.children.insertionSort (fun a b => strLe a.1 b.1 = true) ↔ c ∈ st.children :=
    fun c => (List.perm_insertionSort _ _).mem_iff
  obtain ⟨h1, h2⟩ := initLoop_error st.name (st.children.insertionSort (fun a b => strLe a.1 b.1 = true)) []
  constructor
  · refine Iff.trans h1 ?_
    constructor
    · rintro ⟨c, hc, x⟩; exact ⟨c, (hm c).1 hc, x⟩
    · rintro ⟨c, hc, x⟩; exact ⟨c, (hm c).2 hc, x⟩
  · intro e he
    obtain ⟨c, hc, x⟩ := h2 e he
    exact ⟨c, (hm c).1 hc, x⟩

/-! ### The window -/

theorem setWindow_ok {α ρ : Type} {tzdb : String → Int → Except Err Int} {d d' : DataSet α ρ} {start stop : Option Stamp}
    (h : d.setWindow tzdb start stop = (d', none)) :
    ∃ st tz w, d.store = some st ∧ st.timezone = some tz ∧ windowFrame tzdb tz start stop = .ok w ∧
      d' = { d with store := some { st with window := w } } := by
  unfold DataSet.setWindow at h
  split at h
  · cases h
  · rename_i st hst
    split at h
    · cases h
    · rename_i tz htz
      split at h
      · cases h
      · rename_i w hw
        cases h
        exact ⟨st, tz, w, hst, htz, hw, rfl⟩

theorem localizeOpt_ok {tzdb : String → Int → Except Err Int} {tz : String} {s : Option Stamp} {u : Option Int}
    (h : localizeOpt tzdb tz s = .ok u) :
    (s = none ∧ u = none) ∨ ∃ t v, s = some (.naive t) ∧ u = some v ∧ tzdb tz t = .ok v := by
  unfold localizeOpt at h
  cases s with
  | none => cases h; exact .inl ⟨rfl, rfl⟩
  | some s =>
    cases s with
    | naive t =>
      simp only [Stamp.localize] at h
      split at h
      · cases h
      · rename_i v hv
        cases h
        exact .inr ⟨t, v, rfl, rfl, hv⟩
    | aware t => simp [Stamp.localize] at h

theorem windowFrame_ok {tzdb : String → Int → Except Err Int} {tz : String} {start stop : Option Stamp} {w : TF}
    (h : windowFrame tzdb tz start stop = .ok w) : ∃ s e, start = s.map .naive ∧ stop = e.map .naive ∧
      (∀ t, Mem t w ↔ InWindow tzdb tz s e t) ∧ w.includeEnd = false ∧ (∀ a b, s = some a → e = some b → a < b) := by
  unfold windowFrame at h
  simp only at h
  split at h
  · cases h
  · cases h
  · rename_i hord
    split at h
    · cases h
    · rename_i u hu
      split at h
      · cases h
      · rename_i v hv
        cases h
        have hmem : ∀ t, Mem t (mk' u v) ↔ (∀ x, u = some x → x ≤ t) ∧ (∀ x, v = some x → t < x) := by
          intro t
          simp [Mem, mk', TF.start, TF.stop]
        have hs : ∃ s : Option Int, start = s.map .naive ∧ ∀ t, (∀ x, u = some x → x ≤ t) ↔
            ∀ a, s = some a → ∃ x, tzdb tz a = .ok x ∧ x ≤ t := by
          rcases localizeOpt_ok hu with ⟨rfl, rfl⟩ | ⟨a, x, rfl, rfl, hx⟩
          · exact ⟨none, rfl, by simp⟩
          · refine ⟨some a, rfl, fun t => ?_⟩
            simp only [Option.some.injEq, forall_eq']
            simp [hx]
        have he : ∃ s : Option Int, stop = s.map .naive ∧ ∀ t, (∀ x, v = some x → t < x) ↔
            ∀ a, s = some a → ∃ x, tzdb tz a = .ok x ∧ t < x := by
          rcases localizeOpt_ok hv with ⟨rfl, rfl⟩ | ⟨a, x, rfl, rfl, hx⟩
          · exact ⟨none, rfl, by simp⟩
          · refine ⟨some a, rfl, fun t => ?_⟩
            simp only [Option.some.injEq, forall_eq']
            simp [hx]
        obtain ⟨s, hs1, hs2⟩ := hs
        obtain ⟨e, he1, he2⟩ := he
        refine ⟨s, e, hs1, he1, ?_, rfl, ?_⟩
        · intro t
          rw [hmem, hs2, he2]
          rfl
        · rintro a b rfl rfl
          rw [hs1, he1] at hord
          simp only [Option.map_some, Stamp.le, Except.ok.injEq, decide_eq_false_iff_not] at hord
          omega

/-- C89. `set_window` changes the window and nothing else, or raises and changes nothing. It raises `RuntimeError` without a
store or without a time zone in the metadata, `TypeError` if a time has a time zone, and `ValueError` if the start is not
before the end. -/
theorem C89_set_window {α ρ : Type} (tzdb : String → Int → Except Err Int) (d : DataSet α ρ) (start stop : Option Stamp) :
    (∀ d', d.setWindow tzdb start stop = (d', none) → d'.buildings = d.buildings ∧ ∃ st st', d.store = some st ∧
      d'.store = some st' ∧ st'.name = st.name ∧ st'.timezone = st.timezone ∧ st'.children = st.children ∧
      st'.tables = st.tables) ∧
    (∀ d' e, d.setWindow tzdb start stop = (d', some e) → d' = d) ∧
    (d.store = none → (d.setWindow tzdb start stop).2 = some .runtimeError) ∧
    (∀ st, d.store = some st → st.timezone = none → (d.setWindow tzdb start stop).2 = some .runtimeError) ∧
    (∀ st tz s e, d.store = some st → st.timezone = some tz → start = some (.naive s) → stop = some (.naive e) → e ≤ s →
      (d.setWindow tzdb start stop).2 = some .valueError) ∧
    (∀ st tz u, d.store = some st → st.timezone = some tz → start = some (.aware u) → stop = none →
      (d.setWindow tzdb start stop).2 = some .typeError) ∧
    (∀ st tz s u, d.store = some st → st.timezone = some tz → start = some (.naive s) → stop = some (.aware u) →
      (d.setWindow tzdb start stop).2 = some .typeError) := by
  refine ⟨?_, ?_, ?_, ?_, ?_, ?_, ?_⟩
  · intro d' h
    obtain ⟨st, tz, w, h1, _, _, rfl⟩ := setWindow_ok h
    exact ⟨rfl, st, _, h1, rfl, rfl, rfl, rfl, rfl⟩
  · intro d' e h
    unfold DataSet.setWindow at h
    split at h
    · cases h; rfl
    · split at h
      · cases h; rfl
      · split at h
        · cases h; rfl
        · cases h
  · intro h
    simp only [DataSet.setWindow, h]
  · intro st h1 h2
    simp only [DataSet.setWindow, h1, h2]
  · rintro st tz s e h1 h2 rfl rfl hle
    simp only [DataSet.setWindow, h1, h2, windowFrame, Stamp.le, decide_eq_true hle]
  · rintro st tz u h1 h2 rfl rfl
    simp only [DataSet.setWindow, h1, h2, windowFrame, localizeOpt, Stamp.localize]
  · rintro st tz s u h1 h2 rfl rfl
    simp only [DataSet.setWindow, h1, h2, windowFrame, Stamp.le]

/-- C89. What every load of a meter delivers after `set_window(start, end)`: exactly the rows at or after `start` and before
`end`, which are times on the clock in the time zone of the dataset, in every order and chunk size; no row if just one
qualifies (see C12). -/
theorem C89_window_decides_partial {α ρ : Type} (tzdb : String → Int → Except Err Int) (d d' : DataSet α ρ)
    (start stop : Option Stamp) (h : d.setWindow tzdb start stop = (d', none)) :
    ∃ st tz s e, d.store = some st ∧ st.timezone = some tz ∧ start = s.map .naive ∧ stop = e.map .naive ∧
      ∀ key table, st.tables key = some table → Increasing table → ∀ nLook cs : Int, 0 < cs → ∀ p : Int → Bool,
        (∀ t, p t = true ↔ InWindow tzdb tz s e t) →
        joinOverlapping ((d'.load key none nLook cs).out.map Chunk.rows) =
          if (table.filter (fun r => p r.1)).length = 1 then [] else table.filter (fun r => p r.1) := by
  obtain ⟨st, tz, w, h1, h2, h3, rfl⟩ := setWindow_ok h
  obtain ⟨s, e, w1, w2, w3, w4, _⟩ := windowFrame_ok h3
  refine ⟨st, tz, s, e, h1, h2, w1, w2, ?_⟩
  intro key table ht hinc nLook cs hcs p hp
  have hp' : ∀ t, p t = true ↔ Mem t (w.intersection TF.blank) := by
    intro t
    rw [hp, ← w3, C02_intersection_halfopen w TF.blank t w4 rfl]
    simp [Mem, TF.blank, TF.start, TF.stop]
  have hout : joinOverlapping ((DataSet.load ({ d with store := some { st with window := w } } : DataSet α ρ) key none nLook
      cs).out.map Chunk.rows) = joinOverlapping ((loadSection (some table) w nLook cs TF.blank).1.out.map Chunk.rows) := by
    unfold DataSet.load
    simp only [ht, hdfLoad, Option.getD_none, loadSections]
    cases hl : loadSection (some table) w nLook cs TF.blank with
    | mk g many =>
      simp only
      cases hg : g.err with
      | some e => rfl
      | none => simp [Gen.append, Gen.done, hg]
  rw [hout]
  split
  · rename_i hone
    exact (C12_single_row_lost table hinc w TF.blank nLook cs hcs p hp' hone).2
  · rename_i hone
    exact C12_section_rows_partial table hinc w TF.blank nLook cs hcs p hp' hone

/-- C89. The same with sections: of every section those rows are delivered that lie in the window too. -/
theorem C89_window_sections_partial {α ρ : Type} (tzdb : String → Int → Except Err Int) (d d' : DataSet α ρ)
    (start stop : Option Stamp) (h : d.setWindow tzdb start stop = (d', none)) :
    ∃ st tz s e, d.store = some st ∧ st.timezone = some tz ∧ start = s.map .naive ∧ stop = e.map .naive ∧
      ∀ key table, st.tables key = some table → Increasing table → ∀ secs : List TF, (∀ f ∈ secs, f.includeEnd = false) →
        ∀ nLook cs : Int, 0 < cs → ∀ p : TF → Int → Bool,
        (∀ f ∈ secs, ∀ t, p f t = true ↔ InWindow tzdb tz s e t ∧ Mem t f) →
        (∀ f ∈ secs, (table.filter (fun r => p f r.1)).length ≠ 1) →
        (d'.load key (some secs) nLook cs).err = none →
        ∃ parts : List (List (Chunk ρ)), (d'.load key (some secs) nLook cs).out = parts.flatten ∧
          List.Forall₂ (fun part f => joinOverlapping (part.map Chunk.rows) = table.filter (fun r => p f r.1)) parts secs := by
  obtain ⟨st, tz, w, h1, h2, h3, rfl⟩ := setWindow_ok h
  obtain ⟨s, e, w1, w2, w3, w4, _⟩ := windowFrame_ok h3
  refine ⟨st, tz, s, e, h1, h2, w1, w2, ?_⟩
  intro key table ht hinc secs hsecs nLook cs hcs p hp hone herr
  unfold DataSet.load at herr ⊢
  simp only [ht] at herr ⊢
  exact C12_load_rows_partial table hinc w secs nLook cs hcs p (fun f hf t => by
    rw [hp f hf, ← w3, C02_intersection_halfopen w f t w4 (hsecs f hf)]) hone herr

/-- C89. `set_window()` without times opens the window again: everything is loaded. -/
theorem C89_window_reset {α ρ : Type} (tzdb : String → Int → Except Err Int) (d : DataSet α ρ) (st : DsStore α ρ) (tz : String)
    (hs : d.store = some st) (htz : st.timezone = some tz) :
    ∃ d', d.setWindow tzdb none none = (d', none) ∧ ∀ key table, st.tables key = some table → Increasing table →
      ∀ nLook cs : Int, 0 < cs → table.length ≠ 1 →
        joinOverlapping ((d'.load key none nLook cs).out.map Chunk.rows) = table := by
  have hok : d.setWindow tzdb none none = (⟨some { st with window := mk' none none }, d.buildings⟩, none) := by
    simp only [DataSet.setWindow, hs, htz, windowFrame, localizeOpt]
  refine ⟨_, hok, ?_⟩
  intro key table ht hinc nLook cs hcs hlen
  obtain ⟨st', tz', s, e, a1, _, a3, a4, a5⟩ := C89_window_decides_partial tzdb d _ none none hok
  rw [hs] at a1
  cases a1
  have hsn : s = none := by cases s with | none => rfl | some _ => simp at a3
  have hen : e = none := by cases e with | none => rfl | some _ => simp at a4
  subst hsn hen
  rw [a5 key table ht hinc nLook cs hcs (fun _ => true) (by simp [InWindow])]
  rw [List.filter_eq_self.2 (by simp), if_neg hlen]

/-- C89. Only the last window counts. -/
theorem C89_last_window {α ρ : Type} (tzdb : String → Int → Except Err Int) (d d1 d2 : DataSet α ρ) (a b a' b' : Option Stamp)
    (h1 : d.setWindow tzdb a b = (d1, none)) (h2 : d1.setWindow tzdb a' b' = (d2, none)) :
    d.setWindow tzdb a' b' = (d2, none) := by
  obtain ⟨st, tz, w, s1, s2, _, rfl⟩ := setWindow_ok h1
  obtain ⟨st', tz', w', t1, t2, t3, rfl⟩ := setWindow_ok h2
  simp only [Option.some.injEq] at t1
  subst t1
  simp only at t2
  rw [s2] at t2
  cases t2
  simp only [DataSet.setWindow, s1, s2, t3]

/-! ### What fails, and examples -/

/-- A building with one meter. -/
def exBuilding (i : Int) : Option (BuildingMeta String) :=
  some ⟨i, none, [(1, ⟨true, false, TF.blank⟩)], [("fridge", [1])]⟩

/-- A store with the given buildings and one table. -/
def exDsStore (children : List (Str × Option (BuildingMeta String))) : DsStore String Nat :=
  ⟨"REDD", some "US/Eastern", children, fun k => if k = "/building1/elec/meter1".toList then some exTable else none, TF.blank⟩

/-- C89. Buildings are not in the order of their numbers, if there are ten or more. -/
theorem C89_order_counterexample :
    (DataSet.opened (exDsStore [("building2".toList, exBuilding 2), ("building10".toList, exBuilding 10)])).1.buildings.map
      Prod.fst = [10, 2] := by
  decide +kernel

/-- C89. Of two buildings with the same instance in their metadata only one is kept, without an error. -/
theorem C89_lost_counterexample :
    let r := DataSet.opened (exDsStore [("building1".toList, exBuilding 1), ("building2".toList, exBuilding 1)])
    r.2 = none ∧ r.1.buildings.length = 1 := by
  decide +kernel

/-- C89. A dataset that imports another store keeps the buildings of the first, of which the other store has no data. -/
theorem C89_import_twice_counterexample :
    let d := (DataSet.opened (exDsStore [("building1".toList, exBuilding 1)])).1
    let r := d.importMetadata (exDsStore [("building2".toList, exBuilding 2)])
    r.2 = none ∧ r.1.buildings.map Prod.fst = [1, 2] := by
  decide +kernel

/-- Clocks five hours behind. -/
def exTz (_ : String) (t : Int) : Except Err Int := .ok (t + 5)

example : (instances (exDsStore [("building2".toList, exBuilding 2), ("building1".toList, exBuilding 1)])).Nodup ∧
    (DataSet.opened (exDsStore [("building2".toList, exBuilding 2), ("building1".toList, exBuilding 1)])).2 = none ∧
    ((DataSet.opened (exDsStore [("building2".toList, exBuilding 2), ("building1".toList, exBuilding 1)])).1.elecs.map
      Prod.fst) = [1, 2] := by
  decide +kernel

example : let d := (DataSet.opened (exDsStore [("building1".toList, exBuilding 1)])).1
    let r := d.setWindow exTz (some (.naive 0)) (some (.naive 30))
    r.2 = none ∧ (r.1.load "/building1/elec/meter1".toList none 0 100).out.map Chunk.rows = [[(10, 8), (20, 9), (30, 5)]] ∧
    exTable.filter (fun r => decide (5 ≤ r.1 ∧ r.1 < 35)) = [(10, 8), (20, 9), (30, 5)] := by
  decide +kernel

end Nilmtk
