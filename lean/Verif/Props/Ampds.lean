import Verif.Model.Ampds
import Verif.Props.Greend
/-!
C125: what the conversions of AMPds and COMBED store.
-/
namespace Nilmtk

/-! ### Specification -/

/-- The names of the columns without spaces. -/
def cleanNames (f : AmpdsFile) : List Str := f.header.map (fun x => x.filter (fun c => decide (c ≠ ' ')))

/-- What a column of AMPds means. -/
inductive AmpdsMeans : Str → String × String → Prop
  | voltage : AmpdsMeans "V".toList ("voltage", "")
  | current : AmpdsMeans "I".toList ("current", "")
  | frequency : AmpdsMeans "f".toList ("frequency", "")
  | displacementFactor : AmpdsMeans "DPF".toList ("power factor", "real")
  | apparentFactor : AmpdsMeans "APF".toList ("power factor", "apparent")
  | activePower : AmpdsMeans "P".toList ("power", "active")
  | activeEnergy : AmpdsMeans "Pt".toList ("energy", "active")
  | reactivePower : AmpdsMeans "Q".toList ("power", "reactive")
  | reactiveEnergy : AmpdsMeans "Qt".toList ("energy", "reactive")
  | apparentPower : AmpdsMeans "S".toList ("power", "apparent")
  | apparentEnergy : AmpdsMeans "St".toList ("energy", "apparent")

/-- The table of a file: the columns in their order with their meaning, and the rows that have all values, in their order. -/
structure AmpdsGives (f : AmpdsFile) (t : RawTable (List Rat)) : Prop where
  once : (cleanNames f).count "TS".toList = 1
  columns : List.Forall₂ AmpdsMeans ((cleanNames f).filter (fun c => decide (c ≠ "TS".toList))) t.columns
  rows : t.rows.map (fun r => (r.1, r.2.map some)) = (f.rows.filter (fun r => decide (none ∉ r.2))).map (fun r => (r.1 * 1000000000, r.2))

/-- The error of a file. -/
def AmpdsRefused (f : AmpdsFile) (e : Err) : Prop :=
  ((cleanNames f).count "TS".toList = 0 ∧ e = .keyError) ∨ (1 < (cleanNames f).count "TS".toList ∧ e = .valueError) ∨
  ((cleanNames f).count "TS".toList = 1 ∧ (∃ c ∈ cleanNames f, c ≠ "TS".toList ∧ ∀ m, ¬ AmpdsMeans c m) ∧ e = .keyError)

/-- The CSV files of a directory. -/
def CsvFile (name : Str) : Prop := (∃ a b, name = a ++ ".csv".toList ++ b) ∧ ¬ ∃ a b, name = a ++ ".swp".toList ++ b

/-! ### AMPds -/

theorem ampds_means (c : Str) (m : String × String) : (c, m) ∈ ampdsMapping ↔ AmpdsMeans c m := by
  constructor
  · intro h
    unfold ampdsMapping at h
    simp only [List.mem_cons, List.not_mem_nil, or_false, Prod.mk.injEq] at h
    rcases h with ⟨rfl, rfl⟩ | ⟨rfl, rfl⟩ | ⟨rfl, rfl⟩ | ⟨rfl, rfl⟩ | ⟨rfl, rfl⟩ | ⟨rfl, rfl⟩ | ⟨rfl, rfl⟩ | ⟨rfl, rfl⟩ | ⟨rfl, rfl⟩ | ⟨rfl, rfl⟩ |
      ⟨rfl, rfl⟩ <;> constructor
  · intro h
    cases h <;> decide +kernel

theorem lookup_mem {α β : Type} [BEq α] [LawfulBEq α] {l : List (α × β)} {a : α} {b : β} (h : l.lookup a = some b) : (a, b) ∈ l := by
  induction l with
  | nil => cases h
  | cons x l ih =>
    obtain ⟨x1, x2⟩ := x
    rw [List.lookup_cons] at h
    by_cases hx : (a == x1) = true
    · rw [hx] at h
      simp only [Option.some.injEq] at h
      rw [eq_of_beq hx, h]
      exact List.mem_cons_self
    · rw [Bool.not_eq_true] at hx
      rw [hx] at h
      exact List.mem_cons_of_mem _ (ih h)

theorem lookup_none_mem {α β : Type} [BEq α] [LawfulBEq α] {l : List (α × β)} {a : α} (h : l.lookup a = none) (b : β) : (a, b) ∉ l := by
  induction l with
  | nil => exact List.not_mem_nil
  | cons x l ih =>
    obtain ⟨x1, x2⟩ := x
    rw [List.lookup_cons] at h
    by_cases hx : (a == x1) = true
    · rw [hx] at h; cases h
    · rw [Bool.not_eq_true] at hx
      rw [hx] at h
      intro hm
      rcases List.mem_cons.1 hm with he | hm
      · cases he
        simp at hx
      · exact ih h hm

theorem ampdsColumns_spec : ∀ cs : List Str,
    (∃ ms, ampdsColumns cs = .ok ms ∧ List.Forall₂ AmpdsMeans cs ms) ∨
    (ampdsColumns cs = .error .keyError ∧ ∃ c ∈ cs, ∀ m, ¬ AmpdsMeans c m) := by
  intro cs
  induction cs with
  | nil => exact .inl ⟨[], rfl, .nil⟩
  | cons c cs ih =>
    unfold ampdsColumns
    cases hl : ampdsMapping.lookup c with
    | none => exact .inr ⟨rfl, c, List.mem_cons_self, fun m hm => lookup_none_mem hl m ((ampds_means c m).2 hm)⟩
    | some m =>
      rcases ih with ⟨ms, h1, h2⟩ | ⟨h1, x, hx, h2⟩
      · exact .inl ⟨m :: ms, by rw [h1], .cons ((ampds_means c m).1 (lookup_mem hl)) h2⟩
      · exact .inr ⟨by rw [h1], x, List.mem_cons_of_mem _ hx, h2⟩

theorem filterMap_id_some {l : List (Option Rat)} (h : none ∉ l) : (l.filterMap id).map some = l := by
  induction l with
  | nil => rfl
  | cons a l ih =>
    cases a with
    | none => exact absurd List.mem_cons_self h
    | some v =>
      rw [List.filterMap_cons_some (f := id) rfl, List.map_cons, ih (fun hm => h (List.mem_cons_of_mem _ hm))]

theorem ampdsTable_spec (f : AmpdsFile) :
    (∃ t, ampdsTable f = .ok t ∧ AmpdsGives f t) ∨ ∃ e, ampdsTable f = .error e ∧ AmpdsRefused f e := by
  unfold ampdsTable
  rw [show f.header.map (fun x => x.filter (fun c => decide (c ≠ ' '))) = cleanNames f from rfl]
  simp only
  by_cases h0 : (cleanNames f).count "TS".toList = 0
  · rw [if_pos h0]
    exact .inr ⟨_, rfl, .inl ⟨h0, rfl⟩⟩
  · rw [if_neg h0]
    by_cases h1 : (cleanNames f).count "TS".toList = 1
    · rw [if_neg (by simpa using h1)]
      rcases ampdsColumns_spec ((cleanNames f).filter (fun c => decide (c ≠ "TS".toList))) with ⟨ms, k1, k2⟩ | ⟨k1, c, hc, k2⟩
      · rw [k1]
        refine .inl ⟨_, rfl, h1, k2, ?_⟩
        simp only
        have hfil : f.rows.filter (fun r => r.2.all Option.isSome) = f.rows.filter (fun r => decide (none ∉ r.2)) := by
          apply List.filter_congr
          intro r _
          rw [Bool.eq_iff_iff, List.all_eq_true, decide_eq_true_eq]
          constructor
          · intro h hn
            have := h none hn
            cases this
          · intro h x hx
            cases x with
            | none => exact absurd hx h
            | some v => rfl
        rw [hfil, List.map_map]
        apply List.map_congr_left
        intro r hr
        have := (List.mem_filter.1 hr).2
        rw [decide_eq_true_eq] at this
        simp only [Function.comp_apply]
        rw [filterMap_id_some this]
      · rw [k1]
        rw [List.mem_filter, decide_eq_true_eq] at hc
        exact .inr ⟨_, rfl, .inr (.inr ⟨h1, ⟨c, hc.1, hc.2, k2⟩, rfl⟩)⟩
    · rw [if_pos (by simpa using h1)]
      exact .inr ⟨_, rfl, .inr (.inl ⟨by omega, rfl⟩)⟩

theorem ampdsLoop_spec : ∀ (files : List (Str × AmpdsFile)) (n : Nat) (st : RawStore (List Rat)),
    ∃ (st' : RawStore (List Rat)) (err : Option Err) (tables : List (RawTable (List Rat))), ampdsLoop files n st = (st', err) ∧
      (∀ (i : Nat) t, tables[i]? = some t → st' (meterKey 1 (n + i + 1)) = some t ∧ ∃ f, files[i]? = some f ∧ AmpdsGives f.2 t) ∧
      (∀ k, (∀ i, i < tables.length → k ≠ meterKey 1 (n + i + 1)) → st' k = st k) ∧
      (err = none → tables.length = files.length) ∧
      (∀ e, err = some e → ∃ f, files[tables.length]? = some f ∧ AmpdsRefused f.2 e) := by
  intro files
  induction files with
  | nil =>
    intro n st
    exact ⟨st, none, [], rfl, fun i t h => by simp at h, fun k _ => rfl, fun _ => rfl, fun e h => by cases h⟩
  | cons f files ih =>
    intro n st
    obtain ⟨k1, k2⟩ := key_numbers 1 (n + 1) (by omega) (by omega)
    unfold ampdsLoop
    have k1' : Key.ofNumbers 1 (some ((n + 1 : Nat) : Int)) = .ok ⟨((1 : Nat) : Int), some ((n + 1 : Nat) : Int), none⟩ := k1
    rw [k1']
    simp only
    rcases ampdsTable_spec f.2 with ⟨t, h1, h2⟩ | ⟨e, h1, h2⟩
    · rw [h1]
      simp only
      rw [k2]
      simp only
      obtain ⟨st', err, tables, i1, i2, i4, i5, i6⟩ := ih (n + 1) (st.put (meterKey 1 (n + 1)) t)
      refine ⟨st', err, t :: tables, i1, ?_, ?_, ?_, ?_⟩
      · intro i t' ht
        cases i with
        | zero =>
          simp only [List.getElem?_cons_zero, Option.some.injEq] at ht ⊢
          refine ⟨?_, f, rfl, ht ▸ h2⟩
          rw [i4]
          · unfold RawStore.put
            rw [Nat.add_zero, if_pos rfl, ht]
          · intro j _ he
            have := (meterKey_inj (by omega) (by omega) (by omega) (by omega) he).2
            omega
        | succ i =>
          simp only [List.getElem?_cons_succ] at ht ⊢
          have := i2 i t' ht
          rwa [show n + 1 + i + 1 = n + (i + 1) + 1 by omega] at this
      · intro k hk
        rw [i4]
        · unfold RawStore.put
          rw [if_neg]
          have := hk 0 (by simp)
          rwa [Nat.add_zero] at this
        · intro i hi
          have := hk (i + 1) (by rw [List.length_cons]; omega)
          rwa [show n + (i + 1) + 1 = n + 1 + i + 1 by omega] at this
      · intro he
        rw [List.length_cons, List.length_cons, i5 he]
      · intro e he
        obtain ⟨x, hx⟩ := i6 e he
        exact ⟨x, by simpa using hx⟩
    · rw [h1]
      refine ⟨st, some e, [], rfl, fun i t h => by simp at h, fun k _ => rfl, fun h => (by cases h), ?_⟩
      intro e' he
      cases he
      exact ⟨f, rfl, h2⟩

theorem find_erase_perm {α : Type} (p : α → Bool) {l : List α} {a : α} (h : l.find? p = some a) : (a :: l.eraseP p).Perm l := by
  induction l with
  | nil => cases h
  | cons b l ih =>
    rw [List.find?_cons] at h
    cases hb : p b with
    | true =>
      rw [hb] at h
      simp only [Option.some.injEq] at h
      rw [List.eraseP_cons_of_pos hb, h]
    | false =>
      rw [hb] at h
      rw [List.eraseP_cons_of_neg (by simp [hb])]
      exact (List.Perm.swap b a _).trans ((ih h).cons b)

theorem csv_filter (name : Str) : (isIn ".csv".toList name && !isIn ".swp".toList name) = true ↔ CsvFile name := by
  have h : ∀ needle : Str, isIn needle name = true ↔ ∃ a b, name = a ++ needle ++ b := by
    intro needle
    rw [isIn_iff]
    constructor
    · rintro ⟨a, t, rfl, b, rfl⟩
      exact ⟨a, b, by rw [List.append_assoc]⟩
    · rintro ⟨a, b, rfl⟩
      exact ⟨a, needle ++ b, by rw [List.append_assoc], b, rfl⟩
  unfold CsvFile
  rw [Bool.and_eq_true, Bool.not_eq_true', h, ← h ".swp".toList, Bool.not_eq_true]

instance (name : Str) : Decidable (CsvFile name) := decidable_of_iff _ (csv_filter name)

instance : Std.Total (fun a b : Str × AmpdsFile => strLe a.1 b.1 = true) := ⟨fun a b => strLe_total a.1 b.1⟩
instance : IsTrans (Str × AmpdsFile) (fun a b => strLe a.1 b.1 = true) := ⟨fun _ _ _ h1 h2 => strLe_trans h1 h2⟩

/-- C125, AMPds. The file of the whole house is meter 1 of building 1, the other CSV files are meters 2, 3, ... in the order of their names. Each
meter has the columns of its file but the time, with their meaning, and the rows of the file that have all values. Nothing else is stored. The
conversion ends at the first file with an unknown column or without one column of times. -/
theorem C125_ampds (entries : List (Str × Option AmpdsFile)) (whole : AmpdsFile) (hwhole : ("WHE.csv".toList, some whole) ∈ entries) :
    ∃ (st : RawStore (List Rat)) (err : Option Err) (tables : List (RawTable (List Rat))) (first : AmpdsFile) (rest : List (Str × AmpdsFile)),
      convertAmpds (some entries) = (st, err) ∧
      (("WHE.csv".toList, first) :: rest).Perm ((entries.filterMap (fun e => e.2.map (fun f => (e.1, f)))).filter (fun f => decide (CsvFile f.1))) ∧
      rest.Pairwise (fun a b => strLe a.1 b.1 = true) ∧
      (∀ (i : Nat) t, tables[i]? = some t → st (meterKey 1 (i + 1)) = some t ∧
        ∃ f, (("WHE.csv".toList, first) :: rest)[i]? = some f ∧ AmpdsGives f.2 t) ∧
      (∀ k, (∀ i, i < tables.length → k ≠ meterKey 1 (i + 1)) → st k = none) ∧
      (err = none → tables.length = rest.length + 1) ∧
      (∀ e, err = some e → ∃ f, (("WHE.csv".toList, first) :: rest)[tables.length]? = some f ∧ AmpdsRefused f.2 e) := by
  have hfil : ((entries.filterMap (fun e => e.2.map (fun f => (e.1, f)))).filter (fun f => isIn ".csv".toList f.1 && !isIn ".swp".toList f.1)) =
      ((entries.filterMap (fun e => e.2.map (fun f => (e.1, f)))).filter (fun f => decide (CsvFile f.1))) := by
    apply List.filter_congr
    intro f _
    rw [Bool.eq_iff_iff, csv_filter, decide_eq_true_eq]
  unfold convertAmpds
  simp only
  rw [hfil]
  generalize hfiles : ((entries.filterMap (fun e => e.2.map (fun f => (e.1, f)))).filter (fun f => decide (CsvFile f.1))) = files
  have hmem : ("WHE.csv".toList, whole) ∈ files.insertionSort (fun a b => strLe a.1 b.1 = true) := by
    rw [(List.perm_insertionSort _ _).mem_iff, ← hfiles, List.mem_filter, List.mem_filterMap]
    have hcsv : CsvFile "WHE.csv".toList := by decide +kernel
    exact ⟨⟨_, hwhole, rfl⟩, decide_eq_true hcsv⟩
  cases hfind : (files.insertionSort (fun a b => strLe a.1 b.1 = true)).find? (fun f => f.1 == "WHE.csv".toList) with
  | none =>
    have := List.find?_eq_none.1 hfind _ hmem
    simp at this
  | some first =>
    have hname : first = ("WHE.csv".toList, first.2) := by
      have := List.find?_some hfind
      rw [beq_iff_eq] at this
      rw [← this]
    simp only
    obtain ⟨st', err, tables, i1, i2, i4, i5, i6⟩ := ampdsLoop_spec
      (first :: (files.insertionSort (fun a b => strLe a.1 b.1 = true)).eraseP (fun f => f.1 == "WHE.csv".toList)) 0 (fun _ => none)
    refine ⟨st', err, tables, first.2, (files.insertionSort (fun a b => strLe a.1 b.1 = true)).eraseP (fun f => f.1 == "WHE.csv".toList),
      i1, ?_, ?_, ?_, ?_, i5, ?_⟩
    · rw [← hname]
      exact (find_erase_perm _ hfind).trans (List.perm_insertionSort _ _)
    · exact (List.pairwise_insertionSort _ _).sublist List.eraseP_sublist
    · intro i t ht
      rw [← hname]
      have := i2 i t ht
      rwa [Nat.zero_add] at this
    · intro k hk
      apply i4
      intro i hi
      rw [Nat.zero_add]
      exact hk i hi
    · rw [← hname]
      exact i6

/-- C125, AMPds. Without a directory, or without the file of the whole house, nothing is stored and the conversion is an error. -/
theorem C125_ampds_refused (entries : List (Str × Option AmpdsFile)) (h : ∀ f, ("WHE.csv".toList, some f) ∉ entries) :
    convertAmpds (some entries) = (fun _ => none, some .valueError) ∧ convertAmpds none = (fun _ => none, some .fileNotFound) := by
  refine ⟨?_, rfl⟩
  unfold convertAmpds
  simp only
  rw [List.find?_eq_none.2]
  intro f hf
  rw [(List.perm_insertionSort _ _).mem_iff, List.mem_filter, List.mem_filterMap] at hf
  obtain ⟨⟨e, he, hm⟩, -⟩ := hf
  obtain ⟨x, hx, rfl⟩ := Option.map_eq_some_iff.1 hm
  rw [beq_iff_eq]
  intro hn
  refine h x ?_
  rw [← hx, ← hn]
  exact he

/-! ### COMBED -/

/-- The file of an attribute of a meter: in the directory, or in `iiitd` if it is not there. -/
def combedFileOf (files : CombedFiles) (m : String × Nat × String × String × Nat) (attr : String) : Option (List (Int × Option Rat)) :=
  (files false m.1 m.2.2.1 m.2.2.2.1 attr).or (files true m.1 m.2.2.1 m.2.2.2.1 attr)

/-- The columns of a meter for which there are files. -/
def combedColumns (files : CombedFiles) (m : String × Nat × String × String × Nat) : List ((String × String) × List (Int × Option Rat)) :=
  [("Power", ("power", "active")), ("Energy", ("energy", "active")), ("Current", ("current", ""))].filterMap
    (fun a => (combedFileOf files m a.1).map (fun f => (a.2, f)))

/-- The table of a meter: the columns for which there are files, one row for each time of any of them, with the values of the files at this time. -/
structure CombedGives (files : CombedFiles) (m : String × Nat × String × String × Nat) (t : RawTable (List (Option Rat))) : Prop where
  columns : t.columns = (combedColumns files m).map Prod.fst
  once : (t.rows.map Prod.fst).Nodup
  times : ∀ x, x ∈ t.rows.map Prod.fst ↔ ∃ f ∈ combedColumns files m, ∃ r ∈ f.2, x = r.1 * 1000000
  values : ∀ r ∈ t.rows, List.Forall₂ (fun f v => (∀ r' ∈ f.2, r'.1 * 1000000 = r.1 → v = r'.2) ∧ ((∀ r' ∈ f.2, r'.1 * 1000000 ≠ r.1) → v = none))
    (combedColumns files m) r.2

/-- No time is twice in a file of the meter. -/
def CombedDistinct (files : CombedFiles) (m : String × Nat × String × String × Nat) : Prop :=
  ∀ f ∈ combedColumns files m, (f.2.map Prod.fst).Nodup

theorem combedFind_eq (files : CombedFiles) (m : String × Nat × String × String × Nat) :
    combedFind files m.1 m.2.2.1 m.2.2.2.1 = combedFileOf files m := by
  funext a
  unfold combedFind combedFileOf
  cases files false m.1 m.2.2.1 m.2.2.2.1 a <;> rfl

theorem combedFrames_eq (files : CombedFiles) (m : String × Nat × String × String × Nat) :
    combedFrames (combedFileOf files m) combedAttributes [] none =
      ((combedColumns files m).map (fun f => (f.1, f.2.map (fun r => (r.1 * 1000000, r.2)))), some (combedFileOf files m "Current").isSome) := by
  unfold combedAttributes combedColumns
  simp only [combedFrames, List.filterMap_cons, List.filterMap_nil]
  cases combedFileOf files m "Power" <;> cases combedFileOf files m "Energy" <;> cases combedFileOf files m "Current" <;> rfl

theorem lookup_scaled {f : List (Int × Option Rat)} (hn : (f.map Prod.fst).Nodup) (t : Int) :
    (∀ r' ∈ f, r'.1 * 1000000 = t → ((f.map (fun r => (r.1 * 1000000, r.2))).lookup t).join = r'.2) ∧
    ((∀ r' ∈ f, r'.1 * 1000000 ≠ t) → ((f.map (fun r => (r.1 * 1000000, r.2))).lookup t).join = none) := by
  induction f with
  | nil => exact ⟨fun _ h => by simp at h, fun _ => rfl⟩
  | cons a f ih =>
    rw [List.map_cons, List.nodup_cons] at hn
    obtain ⟨i1, i2⟩ := ih hn.2
    rw [List.map_cons, List.lookup_cons]
    by_cases ha : t = a.1 * 1000000
    · rw [show (t == a.1 * 1000000) = true from beq_iff_eq.2 ha]
      simp only [Option.join_some]
      constructor
      · intro r' hr' he
        rcases List.mem_cons.1 hr' with rfl | hr'
        · rfl
        · exact absurd (List.mem_map.2 ⟨r', hr', by omega⟩) hn.1
      · intro h
        exact absurd ha.symm (h a List.mem_cons_self)
    · rw [show (t == a.1 * 1000000) = false from beq_eq_false_iff_ne.2 ha]
      simp only
      constructor
      · intro r' hr' he
        rcases List.mem_cons.1 hr' with rfl | hr'
        · exact absurd he.symm ha
        · exact i1 r' hr' he
      · intro h
        exact i2 (fun r' hr' => h r' (List.mem_cons_of_mem _ hr'))

/-- The union of indices has each time of them once. -/
def IsUnion (union : List (List Int) → List Int) : Prop :=
  ∀ l, (∀ t, t ∈ union l ↔ ∃ ix ∈ l, t ∈ ix) ∧ ((∀ ix ∈ l, ix.Nodup) → (union l).Nodup)

theorem scaled_nodup {f : List (Int × Option Rat)} (hn : (f.map Prod.fst).Nodup) :
    ((f.map (fun r => (r.1 * 1000000, r.2))).map Prod.fst).Nodup := by
  rw [List.map_map]
  rw [List.nodup_iff_pairwise_ne, List.pairwise_map] at hn ⊢
  refine hn.imp ?_
  intro a b h he
  apply h
  simp only [Function.comp_apply] at he
  omega

theorem combedTable_spec {union : List (List Int) → List Int} (hu : IsUnion union) (files : CombedFiles)
    (m : String × Nat × String × String × Nat) (hd : CombedDistinct files m) (hne : combedColumns files m ≠ []) :
    ∃ t, combedTable union ((combedColumns files m).map (fun f => (f.1, f.2.map (fun r => (r.1 * 1000000, r.2))))) = .ok t ∧
      CombedGives files m t := by
  unfold CombedDistinct at hd
  obtain ⟨dfs, hdfs⟩ : ∃ dfs, dfs = (combedColumns files m).map (fun f => (f.1, f.2.map (fun r => (r.1 * 1000000, r.2)))) := ⟨_, rfl⟩
  rw [← hdfs]
  obtain ⟨indices, hix⟩ : ∃ indices, indices = dfs.map (fun d => d.2.map Prod.fst) := ⟨_, rfl⟩
  have hnod : ∀ ix ∈ indices, ix.Nodup := by
    intro ix hi
    rw [hix] at hi
    obtain ⟨d, hdm, rfl⟩ := List.mem_map.1 hi
    rw [hdfs] at hdm
    obtain ⟨f, hf, rfl⟩ := List.mem_map.1 hdm
    exact scaled_nodup (hd f hf)
  have hine : indices ≠ [] := by
    rw [hix, hdfs]
    simpa using hne
  obtain ⟨index, hindex⟩ : ∃ index, index = (if indices.all (fun ix => ix == indices.headD []) then indices.headD [] else union indices) := ⟨_, rfl⟩
  have hindexspec : (∀ t, t ∈ index ↔ ∃ ix ∈ indices, t ∈ ix) ∧ index.Nodup := by
    by_cases hs : indices.all (fun ix => ix == indices.headD []) = true
    · rw [if_pos hs] at hindex
      have hhead : indices.headD [] ∈ indices := by
        cases indices with
        | nil => exact absurd rfl hine
        | cons a l => exact List.mem_cons_self
      rw [List.all_eq_true] at hs
      refine ⟨?_, hindex ▸ hnod _ hhead⟩
      intro t
      constructor
      · intro h
        exact ⟨_, hhead, hindex ▸ h⟩
      · rintro ⟨ix, hi, ht⟩
        rw [hindex, ← eq_of_beq (hs ix hi)]
        exact ht
    · rw [if_neg hs] at hindex
      rw [hindex]
      exact ⟨(hu indices).1, (hu indices).2 hnod⟩
  unfold combedTable
  simp only
  rw [← hix, ← hindex, if_neg, if_neg]
  · refine ⟨_, rfl, ?_, ?_, ?_, ?_⟩
    · rw [hdfs, List.map_map]
      rfl
    · simp only [List.map_map]
      have : (Prod.fst ∘ fun t => (t, dfs.map (fun d => (d.2.lookup t).join))) = (id : Int → Int) := rfl
      rw [this, List.map_id]
      exact hindexspec.2
    · intro x
      simp only [List.map_map]
      have : (Prod.fst ∘ fun t => (t, dfs.map (fun d => (d.2.lookup t).join))) = (id : Int → Int) := rfl
      rw [this, List.map_id, hindexspec.1, hix, hdfs]
      constructor
      · rintro ⟨ix, hi, hx⟩
        obtain ⟨d, hdm, rfl⟩ := List.mem_map.1 hi
        obtain ⟨f, hf, rfl⟩ := List.mem_map.1 hdm
        simp only [List.map_map, List.mem_map, Function.comp_apply] at hx
        obtain ⟨r, hr, rfl⟩ := hx
        exact ⟨f, hf, r, hr, rfl⟩
      · rintro ⟨f, hf, r, hr, rfl⟩
        refine ⟨_, List.mem_map.2 ⟨_, List.mem_map.2 ⟨f, hf, rfl⟩, rfl⟩, ?_⟩
        simp only [List.map_map, List.mem_map, Function.comp_apply]
        exact ⟨r, hr, rfl⟩
    · intro r hr
      obtain ⟨t, _, rfl⟩ := List.mem_map.1 hr
      simp only
      rw [hdfs, List.map_map]
      rw [List.forall₂_map_right_iff, List.forall₂_same]
      intro f hf
      exact lookup_scaled (hd f hf) t
  · simpa using hindexspec.2
  · rw [Bool.and_eq_true, not_and_or]
    right
    rw [List.any_eq_true]
    rintro ⟨ix, hi, h⟩
    have := hnod ix hi
    simp [this] at h

/-- The key of a meter. -/
def combedKey (m : String × Nat × String × String × Nat) : Str := meterKey m.2.1 m.2.2.2.2

theorem combedLoop_spec {union : List (List Int) → List Int} (hu : IsUnion union) (files : CombedFiles) :
    ∀ (ms : List (String × Nat × String × String × Nat)), (∀ m ∈ ms, 1 ≤ m.2.1 ∧ 1 ≤ m.2.2.2.2) →
    ms.Pairwise (fun a b => ¬ (a.2.1 = b.2.1 ∧ a.2.2.2.2 = b.2.2.2.2)) → (∀ m ∈ ms, CombedDistinct files m) →
    ∀ (st : RawStore (List (Option Rat))) (done : Bool), ∃ st', combedLoop union files ms st done =
        (st', none, done || ms.any (fun m => (combedFileOf files m "Current").isSome)) ∧
      (∀ m ∈ ms, (combedFileOf files m "Current").isSome = true → ∃ t, st' (combedKey m) = some t ∧ CombedGives files m t) ∧
      (∀ k, (∀ m ∈ ms, (combedFileOf files m "Current").isSome = true → k ≠ combedKey m) → st' k = st k) := by
  intro ms
  induction ms with
  | nil =>
    intro _ _ _ st done
    exact ⟨st, by simp [combedLoop], fun m h => by simp at h, fun k _ => rfl⟩
  | cons m ms ih =>
    intro hpos hpw hd st done
    rw [List.pairwise_cons] at hpw
    obtain ⟨p1, p2⟩ := hpos m List.mem_cons_self
    obtain ⟨k1, k2⟩ := key_numbers m.2.1 m.2.2.2.2 p1 p2
    unfold combedLoop
    rw [k1]
    simp only
    rw [combedFind_eq, combedFrames_eq]
    cases hc : combedFileOf files m "Current" with
    | none =>
      simp only [Option.isSome_none]
      obtain ⟨st', i1, i2, i3⟩ := ih (fun x hx => hpos x (List.mem_cons_of_mem _ hx)) hpw.2 (fun x hx => hd x (List.mem_cons_of_mem _ hx)) st done
      refine ⟨st', ?_, ?_, ?_⟩
      · rw [i1, List.any_cons, hc]
        rfl
      · intro x hx hs
        rcases List.mem_cons.1 hx with rfl | hx
        · rw [hc] at hs; cases hs
        · exact i2 x hx hs
      · intro k hk
        exact i3 k (fun x hx => hk x (List.mem_cons_of_mem _ hx))
    | some cur =>
      simp only [Option.isSome_some]
      have hne : combedColumns files m ≠ [] := by
        have : (("current", ""), cur) ∈ combedColumns files m := by
          unfold combedColumns
          rw [List.mem_filterMap]
          exact ⟨("Current", ("current", "")), by simp, by simp [hc]⟩
        intro he
        rw [he] at this
        exact List.not_mem_nil this
      obtain ⟨t, t1, t2⟩ := combedTable_spec hu files m (hd m List.mem_cons_self) hne
      rw [t1]
      simp only
      rw [k2]
      simp only
      obtain ⟨st', i1, i2, i3⟩ := ih (fun x hx => hpos x (List.mem_cons_of_mem _ hx)) hpw.2 (fun x hx => hd x (List.mem_cons_of_mem _ hx))
        (st.put (meterKey m.2.1 m.2.2.2.2) t) true
      refine ⟨st', ?_, ?_, ?_⟩
      · rw [i1, List.any_cons, hc]
        simp
      · intro x hx hs
        rcases List.mem_cons.1 hx with rfl | hx
        · refine ⟨t, ?_, t2⟩
          rw [i3]
          · unfold RawStore.put combedKey
            rw [if_pos rfl]
          · intro y hy _ he
            obtain ⟨q1, q2⟩ := hpos y (List.mem_cons_of_mem _ hy)
            exact hpw.1 y hy (meterKey_inj p1 p2 q1 q2 he)
        · exact i2 x hx hs
      · intro k hk
        rw [i3 k (fun x hx => hk x (List.mem_cons_of_mem _ hx))]
        unfold RawStore.put
        rw [if_neg]
        exact hk m List.mem_cons_self (by rw [hc]; rfl)

/-- C125, COMBED. If no file has a time twice, exactly the meters with a file of the current are stored, with the columns for which there are
files, one row for each time of any of them, and the values of the files. If there is no such meter, the conversion is a RuntimeError. -/
theorem C125_combed {union : List (List Int) → List Int} (hu : IsUnion union) (files : CombedFiles)
    (hd : ∀ m ∈ combedMeters, CombedDistinct files m) :
    ∃ st err, convertCombed union (some files) = (st, err) ∧
      (err = if ∃ m ∈ combedMeters, combedFileOf files m "Current" ≠ none then none else some .runtimeError) ∧
      (∀ m ∈ combedMeters, combedFileOf files m "Current" ≠ none → ∃ t, st (combedKey m) = some t ∧ CombedGives files m t) ∧
      (∀ m ∈ combedMeters, combedFileOf files m "Current" = none → st (combedKey m) = none) ∧
      (∀ k, (∀ m ∈ combedMeters, k ≠ combedKey m) → st k = none) := by
  have hpos : ∀ m ∈ combedMeters, 1 ≤ m.2.1 ∧ 1 ≤ m.2.2.2.2 := by decide
  have hpw : combedMeters.Pairwise (fun a b => ¬ (a.2.1 = b.2.1 ∧ a.2.2.2.2 = b.2.2.2.2)) := by decide +kernel
  have hinj : ∀ a ∈ combedMeters, ∀ b ∈ combedMeters, a.2.1 = b.2.1 ∧ a.2.2.2.2 = b.2.2.2.2 → a = b := by decide +kernel
  obtain ⟨st, h1, h2, h3⟩ := combedLoop_spec hu files combedMeters hpos hpw hd (fun _ => none) false
  have hst : ∀ err, convertCombed union (some files) = (st, err) →
      (∀ m ∈ combedMeters, combedFileOf files m "Current" ≠ none → ∃ t, st (combedKey m) = some t ∧ CombedGives files m t) ∧
      (∀ m ∈ combedMeters, combedFileOf files m "Current" = none → st (combedKey m) = none) ∧
      (∀ k, (∀ m ∈ combedMeters, k ≠ combedKey m) → st k = none) := by
    intro err _
    refine ⟨fun m hm hc => h2 m hm (Option.isSome_iff_ne_none.2 hc), ?_, fun k hk => h3 k (fun m hm _ => hk m hm)⟩
    intro m hm hc
    apply h3
    intro m' hm' hs he
    obtain ⟨p1, p2⟩ := hpos m hm
    obtain ⟨q1, q2⟩ := hpos m' hm'
    have := hinj m hm m' hm' (meterKey_inj p1 p2 q1 q2 he)
    rw [← this, hc] at hs
    cases hs
  by_cases hany : ∃ m ∈ combedMeters, combedFileOf files m "Current" ≠ none
  · have he : convertCombed union (some files) = (st, none) := by
      unfold convertCombed
      simp only
      rw [h1]
      have : combedMeters.any (fun m => (combedFileOf files m "Current").isSome) = true := by
        rw [List.any_eq_true]
        obtain ⟨m, hm, hc⟩ := hany
        exact ⟨m, hm, Option.isSome_iff_ne_none.2 hc⟩
      rw [this]
      rfl
    refine ⟨st, none, he, by rw [if_pos hany], hst _ he⟩
  · have he : convertCombed union (some files) = (st, some .runtimeError) := by
      unfold convertCombed
      simp only
      rw [h1]
      have : combedMeters.any (fun m => (combedFileOf files m "Current").isSome) = false := by
        rw [List.any_eq_false]
        intro m hm hs
        exact hany ⟨m, hm, Option.isSome_iff_ne_none.1 hs⟩
      rw [this]
      rfl
    refine ⟨st, _, he, by rw [if_neg hany], hst _ he⟩

theorem combedLoop_append (union : List (List Int) → List Int) (files : CombedFiles) (post : List (String × Nat × String × String × Nat)) :
    ∀ (pre : List (String × Nat × String × String × Nat)) (st st' : RawStore (List (Option Rat))) (done done' : Bool),
    combedLoop union files pre st done = (st', none, done') → combedLoop union files (pre ++ post) st done = combedLoop union files post st' done' := by
  intro pre
  induction pre with
  | nil =>
    intro st st' done done' h
    unfold combedLoop at h
    cases h
    rfl
  | cons m pre ih =>
    intro st st' done done' h
    rw [List.cons_append]
    unfold combedLoop at h
    conv_lhs => unfold combedLoop
    cases hk : Key.ofNumbers m.2.1 (some (m.2.2.2.2 : Int)) with
    | error e => rw [hk] at h; cases h
    | ok key =>
      rw [hk] at h
      simp only at h ⊢
      rcases hf : combedFrames (combedFind files m.1 m.2.2.1 m.2.2.2.1) combedAttributes [] none with ⟨dfs, ex⟩
      rw [hf] at h
      cases ex with
      | none => cases h
      | some b =>
        cases b with
        | false => exact ih st st' done done' h
        | true =>
          simp only at h ⊢
          cases ht : combedTable union dfs with
          | error e => rw [ht] at h; cases h
          | ok t =>
            rw [ht] at h
            simp only at h ⊢
            cases hr : key.repr with
            | error e => rw [hr] at h; cases h
            | ok text =>
              rw [hr] at h
              exact ih _ st' true done' h

/-- C125, COMBED. At the first meter that has a file with a time twice (and a file of the current), the conversion is an error; it stays in the
store what was stored before, and later meters are not stored. -/
theorem C125_combed_stops {union : List (List Int) → List Int} (hu : IsUnion union) (files : CombedFiles)
    (pre post : List (String × Nat × String × String × Nat)) (m : String × Nat × String × String × Nat) (hms : combedMeters = pre ++ m :: post)
    (hd : ∀ x ∈ pre, CombedDistinct files x) (hm : ¬ CombedDistinct files m) (hc : combedFileOf files m "Current" ≠ none) :
    ∃ st e, convertCombed union (some files) = (st, some e) ∧ (e = .assertionError ∨ e = .exception) ∧
      (∀ x ∈ pre, combedFileOf files x "Current" ≠ none → ∃ t, st (combedKey x) = some t ∧ CombedGives files x t) ∧
      (∀ k, (∀ x ∈ pre, k ≠ combedKey x) → st k = none) := by
  have hpos : ∀ m ∈ combedMeters, 1 ≤ m.2.1 ∧ 1 ≤ m.2.2.2.2 := by decide
  have hpw : combedMeters.Pairwise (fun a b => ¬ (a.2.1 = b.2.1 ∧ a.2.2.2.2 = b.2.2.2.2)) := by decide +kernel
  have hpre : ∀ x ∈ pre, x ∈ combedMeters := fun x hx => by rw [hms]; exact List.mem_append_left _ hx
  rw [hms, List.pairwise_append] at hpw
  obtain ⟨st, h1, h2, h3⟩ := combedLoop_spec hu files pre (fun x hx => hpos x (hpre x hx)) hpw.1 hd (fun _ => none) false
  obtain ⟨p1, p2⟩ := hpos m (by rw [hms]; simp)
  obtain ⟨k1, -⟩ := key_numbers m.2.1 m.2.2.2.2 p1 p2
  obtain ⟨dfs, hdfs⟩ : ∃ dfs, dfs = (combedColumns files m).map (fun f => (f.1, f.2.map (fun r => (r.1 * 1000000, r.2)))) := ⟨_, rfl⟩
  obtain ⟨e, he1, he2⟩ : ∃ e, combedTable union dfs = .error e ∧ (e = .assertionError ∨ e = .exception) := by
    unfold CombedDistinct at hm
    simp only [not_forall] at hm
    obtain ⟨f, hf, hn⟩ := hm
    have hbad : ∃ ix ∈ dfs.map (fun d => d.2.map Prod.fst), ¬ ix.Nodup := by
      refine ⟨_, List.mem_map.2 ⟨(f.1, f.2.map (fun r => (r.1 * 1000000, r.2))), by rw [hdfs]; exact List.mem_map.2 ⟨f, hf, rfl⟩, rfl⟩, ?_⟩
      intro h
      apply hn
      simp only [List.map_map] at h
      rw [List.nodup_iff_pairwise_ne, List.pairwise_map] at h ⊢
      refine h.imp ?_
      intro a b hab he
      apply hab
      simp only [Function.comp_apply]
      omega
    unfold combedTable
    simp only
    by_cases hs : (dfs.map (fun d => d.2.map Prod.fst)).all (fun ix => ix == (dfs.map (fun d => d.2.map Prod.fst)).headD []) = true
    · rw [hs]
      simp only [Bool.not_true, Bool.false_and, Bool.false_eq_true, if_false, if_true]
      obtain ⟨ix, hi, hb⟩ := hbad
      rw [List.all_eq_true] at hs
      have := eq_of_beq (hs ix hi)
      rw [← this, if_pos (by simpa using hb)]
      exact ⟨_, rfl, .inl rfl⟩
    · rw [Bool.not_eq_true] at hs
      rw [hs, if_pos]
      · exact ⟨_, rfl, .inr rfl⟩
      · rw [Bool.not_false, Bool.true_and, List.any_eq_true]
        obtain ⟨ix, hi, hb⟩ := hbad
        exact ⟨ix, hi, by simpa using hb⟩
  refine ⟨st, e, ?_, he2, ?_, ?_⟩
  · unfold convertCombed
    simp only
    rw [hms, combedLoop_append _ _ _ _ _ _ _ _ h1]
    unfold combedLoop
    rw [k1]
    simp only
    rw [combedFind_eq, combedFrames_eq, ← hdfs, Option.isSome_iff_ne_none.2 hc]
    simp only
    rw [he1]
  · intro x hx hcx
    exact h2 x hx (Option.isSome_iff_ne_none.2 hcx)
  · intro k hk
    exact h3 k (fun x hx _ => hk x hx)

/-- C125, COMBED. The meters of a building are numbered without gaps, no directory is read for two meters, and the mains are meter 1 of each building. -/
theorem C125_combed_numbers :
    (combedMeters.filter (fun m => m.1 == "Academic Block")).map (fun m => (m.2.1, m.2.2.2.2)) = (List.range 14).map (fun i => (1, i + 1)) ∧
    (combedMeters.filter (fun m => m.1 == "Lecture Block")).map (fun m => (m.2.1, m.2.2.2.2)) = (List.range 7).map (fun i => (2, i + 1)) ∧
    (∀ m ∈ combedMeters, m.1 = "Academic Block" ∨ m.1 = "Lecture Block") ∧
    (combedMeters.map (fun m => (m.1, m.2.2.1, m.2.2.2.1))).Nodup ∧
    (∀ m ∈ combedMeters, m.2.2.1 = "Building Total Mains" ↔ m.2.2.2.2 = 1) := by decide +kernel

/-! ### Examples -/

/-- A file of AMPds. -/
def ampdsExample : AmpdsFile := ⟨[" TS".toList, "  P".toList, "Pt".toList], [(5, [some 1, some 2]), (6, [none, some 3]), (7, [some 4, some 5])]⟩

example : ((convertAmpds (some [("B1E.csv".toList, some ampdsExample), ("WHE.csv".toList, some ampdsExample), ("x.csv".toList, none),
    ("A.txt".toList, some ampdsExample)])).1 (meterKey 1 2)) =
    some ⟨[("power", "active"), ("energy", "active")], [(5000000000, [1, 2]), (7000000000, [4, 5])]⟩ := by decide +kernel

example : AmpdsRefused ⟨["TS".toList, "W".toList], []⟩ .keyError := by
  refine .inr (.inr ⟨by decide +kernel, ⟨"W".toList, by decide +kernel, by decide +kernel, ?_⟩, rfl⟩)
  intro m hm
  have : "W".toList ∈ ampdsMapping.map Prod.fst := List.mem_map.2 ⟨_, (ampds_means _ _).2 hm, rfl⟩
  revert this
  decide +kernel

/-- Files of one meter: those attributes that are given. -/
def combedExample (attrs : List String) : CombedFiles := fun iiitd building load _ a =>
  if iiitd && building == "Academic Block" && load == "Lifts" && attrs.contains a then some [(1, some 5), (2, some 6)] else none

/-- A union: the times one after another, each once. -/
theorem dedup_union : IsUnion (fun l => l.flatten.dedup) := by
  intro l
  refine ⟨?_, fun _ => List.nodup_dedup _⟩
  intro t
  rw [List.mem_dedup, List.mem_flatten]

theorem combedExample_distinct (attrs : List String) (m : String × Nat × String × String × Nat) : CombedDistinct (combedExample attrs) m := by
  intro f hf
  unfold combedColumns at hf
  rw [List.mem_filterMap] at hf
  obtain ⟨a, _, ha⟩ := hf
  obtain ⟨g, hg, rfl⟩ := Option.map_eq_some_iff.1 ha
  have : g = [(1, some 5), (2, some 6)] := by
    unfold combedFileOf combedExample at hg
    simp only [Bool.false_and, Bool.false_eq_true, if_false, Option.none_or] at hg
    split at hg
    · cases hg; rfl
    · cases hg
  subst this
  simp

example : (convertCombed (fun l => l.flatten.dedup) (some (combedExample ["Power", "Current"]))).1 (meterKey 1 2) =
    some ⟨[("power", "active"), ("current", "")], [(1000000, [some 5, some 5]), (2000000, [some 6, some 6])]⟩ := by decide +kernel

/-- C125, COMBED. That the readings of power of a meter are stored is false: without a file of the current, nothing is stored of the meter. -/
theorem C125_combed_power_counterexample : ¬ ∀ (union : List (List Int) → List Int) (files : CombedFiles), IsUnion union →
    (∀ m ∈ combedMeters, CombedDistinct files m) → ∀ m ∈ combedMeters, combedFileOf files m "Power" ≠ none →
    (convertCombed union (some files)).1 (combedKey m) ≠ none := by
  intro h
  have := h _ (combedExample ["Power", "Energy"]) dedup_union (fun m _ => combedExample_distinct _ m) ("Academic Block", 1, "Lifts", "0", 2)
    (by decide) (by decide)
  revert this
  decide +kernel

/-- C125, COMBED. That a meter that is stored has power is false too. -/
theorem C125_combed_stored_counterexample : ¬ ∀ (union : List (List Int) → List Int) (files : CombedFiles), IsUnion union →
    (∀ m ∈ combedMeters, CombedDistinct files m) → ∀ m ∈ combedMeters, ∀ t, (convertCombed union (some files)).1 (combedKey m) = some t →
    ("power", "active") ∈ t.columns := by
  intro h
  have := h _ (combedExample ["Current"]) dedup_union (fun m _ => combedExample_distinct _ m) ("Academic Block", 1, "Lifts", "0", 2)
    (by decide) ⟨[("current", "")], [(1000000, [some 5]), (2000000, [some 6])]⟩ (by decide +kernel)
  revert this
  decide +kernel

/-- C125, COMBED. With files of power and current, the meter is stored with its power. -/
theorem C125_combed_power_partial {union : List (List Int) → List Int} (hu : IsUnion union) (files : CombedFiles)
    (hd : ∀ m ∈ combedMeters, CombedDistinct files m) (m : String × Nat × String × String × Nat) (hm : m ∈ combedMeters)
    (power : List (Int × Option Rat)) (hp : combedFileOf files m "Power" = some power) (hc : combedFileOf files m "Current" ≠ none) :
    ∃ t, (convertCombed union (some files)).1 (combedKey m) = some t ∧ t.columns.head? = some ("power", "active") ∧
      ∀ r ∈ power, ∃ r' ∈ t.rows, r'.1 = r.1 * 1000000 ∧ r'.2.head? = some r.2 := by
  obtain ⟨st, err, h1, -, h2, -⟩ := C125_combed hu files hd
  obtain ⟨t, t1, t2⟩ := h2 m hm hc
  rw [h1]
  have hcols : ∃ rest, combedColumns files m = (("power", "active"), power) :: rest := by
    unfold combedColumns
    rw [List.filterMap_cons_some (b := (("power", "active"), power)) (by simp [hp])]
    exact ⟨_, rfl⟩
  obtain ⟨rest, hcols⟩ := hcols
  refine ⟨t, t1, by rw [t2.columns, hcols]; rfl, ?_⟩
  intro r hr
  have := (t2.times (r.1 * 1000000)).2 ⟨_, by rw [hcols]; exact List.mem_cons_self, r, hr, rfl⟩
  obtain ⟨r', hr', he⟩ := List.mem_map.1 this
  refine ⟨r', hr', he, ?_⟩
  have hv := t2.values r' hr'
  rw [hcols] at hv
  generalize r'.2 = vs at hv ⊢
  cases hv with
  | cons hv _ =>
    rw [hv.1 r hr he.symm]
    rfl

end Nilmtk
