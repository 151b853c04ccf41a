import Mathlib.Algebra.Order.Ring.Abs
import Mathlib.Algebra.Order.Field.Rat
import Mathlib.Tactic.NormNum
import Verif.Model.Columns
import Verif.Props.Redd
/-!
C99: the converters of REFIT, DRED and HIPE.
-/
namespace Nilmtk

/-! ### One table per column -/

/-- The store `st'` is `st` with the tables of one building: one for every column, numbered from 1, with the rows `rows`. -/
structure ColumnsStored {α : Type} (acType : String) (building : Nat) (cols : List String) (rows : List (Int × (String → α)))
    (st st' : RawStore α) : Prop where
  tables : ∀ (i : Nat) (c : String), cols[i]? = some c →
    st' (meterKey building (i + 1)) = some ⟨[("power", acType)], rows.map (fun r => (r.1, r.2 c))⟩
  others : ∀ k, (∀ i, i < cols.length → k ≠ meterKey building (i + 1)) → st' k = st k

theorem key_numbers (b c : Nat) (hb : 1 ≤ b) (hc : 1 ≤ c) :
    Key.ofNumbers (b : Int) (some (c : Int)) = .ok ⟨b, some (c : Int), none⟩ ∧
      Key.repr ⟨b, some (c : Int), none⟩ = .ok (meterKey b c) := by
  have hk : Key.check ⟨b, some (c : Int), none⟩ = .ok () := by
    unfold Key.check
    rw [if_pos ⟨by simp only; omega, by intro m hm; cases hm; omega⟩]
  unfold Key.ofNumbers Key.repr
  rw [hk]
  exact ⟨rfl, by simp only [text_meterKey]⟩

theorem putColumns_spec {α : Type} (acType : String) (b : Nat) (hb : 1 ≤ b) (rows : List (Int × (String → α))) :
    ∀ (cols : List String) (chan : Nat) (st : RawStore α), 1 ≤ chan →
    ∃ st', putColumns acType b rows cols chan st = (st', none) ∧
      (∀ (i : Nat) (c : String), cols[i]? = some c →
        st' (meterKey b (chan + i)) = some ⟨[("power", acType)], rows.map (fun r => (r.1, r.2 c))⟩) ∧
      ∀ k, (∀ i, i < cols.length → k ≠ meterKey b (chan + i)) → st' k = st k := by
  intro cols
  induction cols with
  | nil =>
    intro chan st _
    exact ⟨st, rfl, fun i c h => by simp at h, fun k _ => rfl⟩
  | cons c cs ih =>
    intro chan st hc
    obtain ⟨h1, h2⟩ := key_numbers b chan hb hc
    obtain ⟨st', k1, k2, k3⟩ := ih (chan + 1)
      (st.put (meterKey b chan) ⟨[("power", acType)], rows.map (fun r => (r.1, r.2 c))⟩) (by omega)
    refine ⟨st', ?_, ?_, ?_⟩
    · unfold putColumns
      rw [h1]
      simp only
      rw [h2]
      exact k1
    · intro i x hx
      cases i with
      | zero =>
        simp only [List.getElem?_cons_zero, Option.some.injEq] at hx
        rw [k3]
        · unfold RawStore.put
          rw [Nat.add_zero, if_pos rfl, hx]
        · intro j _ he
          have := (meterKey_inj hb (by omega) hb (by omega) he).2
          omega
      | succ i =>
        rw [List.getElem?_cons_succ] at hx
        have := k2 i x hx
        rwa [show chan + 1 + i = chan + (i + 1) by omega] at this
    · intro k hk
      rw [k3]
      · unfold RawStore.put
        rw [if_neg]
        have := hk 0 (by simp)
        simpa using this
      · intro i hi
        have := hk (i + 1) (by simpa using hi)
        rwa [show chan + 1 + i = chan + (i + 1) by omega]

theorem columns_stored {α : Type} (acType : String) (b : Nat) (hb : 1 ≤ b) (rows : List (Int × (String → α))) (cols : List String)
    (st : RawStore α) : ∃ st', putColumns acType b rows cols 1 st = (st', none) ∧ ColumnsStored acType b cols rows st st' := by
  obtain ⟨st', h1, h2, h3⟩ := putColumns_spec acType b hb rows cols 1 st (by omega)
  refine ⟨st', h1, ?_, ?_⟩
  · intro i c h
    rw [Nat.add_comm i 1]
    exact h2 i c h
  · intro k hk
    apply h3
    intro i hi
    rw [Nat.add_comm 1 i]
    exact hk i hi

/-! ### REFIT -/

/-- The columns that a REFIT file must have. -/
def refitColumns : List String :=
  ["Aggregate", "Appliance1", "Appliance2", "Appliance3", "Appliance4", "Appliance5", "Appliance6", "Appliance7", "Appliance8", "Appliance9"]

/-- A file with the columns, in whatever order and with whatever others. -/
def RefitFile {α : Type} (f : WideFile α) : Prop :=
  f.header.Nodup ∧ "Unix" ∈ f.header ∧ ∀ c ∈ refitColumns, c ∈ f.header

/-- The wanted columns in the order of the file. -/
def InFileOrder {α : Type} (f : WideFile α) (cols : List String) : Prop :=
  cols.Perm refitColumns ∧ cols.Sublist f.header

/-- The rows to store: those of the file, times in nanoseconds, in the order of time. -/
def SortedRows {β : Type} (file out : List (Int × β)) : Prop :=
  out.Perm (file.map (fun r => (r.1 * 1000000000, r.2))) ∧ out.Pairwise (fun a b => a.1 ≤ b.1)

/-- The number of the building for a house: house 14 is left out. -/
def refitBuilding (house : Nat) : Nat := if house < 14 then house else house - 1

/-- The store `st'` is `st` with the tables of a house. -/
def RefitHouse {α : Type} (f : WideFile α) (building : Nat) (st st' : RawStore α) : Prop :=
  ∃ cols rows, InFileOrder f cols ∧ SortedRows f.rows rows ∧ ColumnsStored "active" building cols rows st st'

theorem refitLoad_ok {α : Type} (f : WideFile α) (h : RefitFile f) :
    ∃ cols, refitLoad f = .ok (cols, f.rows.map (fun r => (r.1 * 1000000000, r.2))) ∧ InFileOrder f cols := by
  obtain ⟨hn, hu, hc⟩ := h
  have hall : refitUsecols.all (fun c => f.header.contains c) = true := by
    rw [List.all_eq_true]
    intro c hmem
    rw [List.contains_iff_mem]
    rcases List.mem_cons.1 (show c ∈ "Unix" :: refitColumns from hmem) with rfl | hm
    · exact hu
    · exact hc c hm
  refine ⟨(f.header.filter (fun c => refitUsecols.contains c)).filter (fun c => c != "Unix"), ?_, ?_, ?_⟩
  · unfold refitLoad
    rw [if_pos hall]
  · rw [List.perm_ext_iff_of_nodup ((hn.filter _).filter _) (by decide)]
    intro c
    rw [List.mem_filter, List.mem_filter]
    simp only [bne_iff_ne, ne_eq, List.contains_iff_mem]
    constructor
    · rintro ⟨⟨_, h2⟩, h3⟩
      exact (List.mem_cons.1 (show c ∈ "Unix" :: refitColumns from h2)).resolve_left h3
    · intro hm
      refine ⟨⟨hc c hm, List.mem_cons_of_mem "Unix" hm⟩, ?_⟩
      rintro rfl
      revert hm
      decide
  · exact List.filter_sublist.trans List.filter_sublist

theorem refitLoad_bad {α : Type} (f : WideFile α) (h : "Unix" ∉ f.header ∨ ∃ c ∈ refitColumns, c ∉ f.header) :
    refitLoad f = .error .valueError := by
  have hall : ¬ (refitUsecols.all (fun c => f.header.contains c) = true) := by
    rw [List.all_eq_true]
    intro hx
    rcases h with h | ⟨c, h1, h2⟩
    · exact h (List.contains_iff_mem.1 (hx "Unix" (by decide)))
    · exact h2 (List.contains_iff_mem.1 (hx c (List.mem_cons_of_mem "Unix" h1)))
  unfold refitLoad
  rw [if_neg hall]

/-- Houses one after the other, as buildings `n + 1`, `n + 2` and so on. -/
def RefitDone {α : Type} (files : Str → Option (WideFile α)) (clean : Bool) : List Nat → Nat → RawStore α → RawStore α → Prop
  | [], _, st, st' => st' = st
  | h :: hs, n, st, st' =>
    ∃ f mid, files (refitName clean h) = some f ∧ RefitHouse f (n + 1) st mid ∧ RefitDone files clean hs (n + 1) mid st'

theorem refitLoop_done {α : Type} {sort : List (Int × (String → α)) → List (Int × (String → α))} (hs : SortsByTime sort)
    (files : Str → Option (WideFile α)) (clean : Bool) (rest : List Nat) : ∀ (houses : List Nat) (n : Nat) (version : Option Bool)
    (st : RawStore α), (∀ h ∈ houses, ∃ f, files (refitName clean h) = some f ∧ RefitFile f) →
    (version = some clean ∨ version = none ∧ ∃ h tl, houses ++ rest = h :: tl ∧ (clean = true ↔ files (refitName false h) = none)) →
    ∃ st' version', RefitDone files clean houses n st st' ∧
      refitLoop sort true files (houses ++ rest) n version st = refitLoop sort true files rest (n + houses.length) version' st' ∧
      (houses ≠ [] → version' = some clean) ∧ (houses = [] → version' = version) := by
  intro houses
  induction houses with
  | nil =>
    intro n version st _ _
    exact ⟨st, version, rfl, rfl, fun h => absurd rfl h, fun _ => rfl⟩
  | cons h houses ih =>
    intro n version st hall hv
    obtain ⟨f, hf, hgood⟩ := hall h List.mem_cons_self
    obtain ⟨cols, hload, horder⟩ := refitLoad_ok f hgood
    obtain ⟨mid, hput, hstored⟩ := columns_stored "active" (n + 1) (by omega)
      (sort (f.rows.map (fun r => (r.1 * 1000000000, r.2)))) cols st
    have hclean : version.getD ((files (refitName false h)).isNone) = clean := by
      rcases hv with hv | ⟨hv, h', tl, he, hiff⟩
      · rw [hv]; rfl
      · rw [List.cons_append, List.cons.injEq] at he
        rw [hv, Option.getD_none, he.1]
        cases hx : files (refitName false h') with
        | none => rw [hiff.2 hx]; rfl
        | some y =>
          cases clean with
          | false => rfl
          | true => rw [hiff.1 rfl] at hx; cases hx
    obtain ⟨st', version', g1, g2, g3, g4⟩ := ih (n + 1) (some clean) mid (fun x hx => hall x (List.mem_cons_of_mem _ hx)) (Or.inl rfl)
    refine ⟨st', version', ⟨f, mid, hf, ⟨cols, _, horder, ⟨hs.perm _, hs.sorted _⟩, hstored⟩, g1⟩, ?_, ?_, fun hz => by simp at hz⟩
    · rw [List.cons_append]
      conv_lhs => unfold refitLoop
      simp only [hclean, hf, hload, if_true, hput]
      rw [g2, List.length_cons, show n + 1 + houses.length = n + (houses.length + 1) by omega]
    · intro _
      by_cases hz : houses = []
      · exact g4 hz
      · exact g3 hz

/-- Which tables the houses leave. -/
theorem refitDone_tables {α : Type} {files : Str → Option (WideFile α)} {clean : Bool} : ∀ (houses : List Nat) (n : Nat)
    (st st' : RawStore α), RefitDone files clean houses n st st' →
    (∀ (j h : Nat), houses[j]? = some h → ∃ f cols rows, files (refitName clean h) = some f ∧ InFileOrder f cols ∧ SortedRows f.rows rows ∧
      ∀ (i : Nat) (c : String), cols[i]? = some c →
        st' (meterKey (n + 1 + j) (i + 1)) = some ⟨[("power", "active")], rows.map (fun r => (r.1, r.2 c))⟩) ∧
    ∀ k, (∀ j i, j < houses.length → i < 10 → k ≠ meterKey (n + 1 + j) (i + 1)) → st' k = st k := by
  intro houses
  induction houses with
  | nil =>
    intro n st st' h
    refine ⟨fun j h' hj => by simp at hj, fun k _ => by rw [show st' = st from h]⟩
  | cons h houses ih =>
    intro n st st' hd
    obtain ⟨f, mid, hf, ⟨cols, rows, ho, hr, hst⟩, hrest⟩ := hd
    obtain ⟨g1, g2⟩ := ih (n + 1) mid st' hrest
    have hlen : cols.length = 10 := by rw [ho.1.length_eq]; rfl
    constructor
    · intro j h' hj
      cases j with
      | zero =>
        simp only [List.getElem?_cons_zero, Option.some.injEq] at hj
        refine ⟨f, cols, rows, hj ▸ hf, ho, hr, ?_⟩
        intro i c hc
        rw [g2]
        · exact hst.tables i c hc
        · intro j' i' _ _ he
          have := (meterKey_inj (by omega) (by omega) (by omega) (by omega) he).1
          omega
      | succ j =>
        rw [List.getElem?_cons_succ] at hj
        obtain ⟨f', cols', rows', k1, k2, k3, k4⟩ := g1 j h' hj
        refine ⟨f', cols', rows', k1, k2, k3, ?_⟩
        intro i c hc
        rw [show n + 1 + (j + 1) = n + 1 + 1 + j by omega]
        exact k4 i c hc
    · intro k hk
      rw [g2, hst.others]
      · intro i hi
        have := hk 0 i (by simp) (by omega)
        simpa using this
      · intro j i hj hi
        have := hk (j + 1) i (by simpa using hj) hi
        rwa [show n + 1 + (j + 1) = n + 1 + 1 + j by omega] at this

/-- The decimal digits are those of Lean's own `toString`. -/
theorem formatNat_toString (n : Nat) : formatNat n = (toString n).toList := by
  show _ = n.repr.toList
  rw [Nat.toList_repr]
  induction n using Nat.strong_induction_on with
  | _ n ih =>
    have hd : ∀ d, d < 10 → digitChar d = d.digitChar := by decide
    unfold formatNat
    by_cases h : n < 10
    · rw [if_pos h, Nat.toDigits_of_lt_base h, hd n h]
    · rw [if_neg h, Nat.toDigits_of_base_le (by omega) (by omega), ih (n / 10) (by omega), hd _ (Nat.mod_lt _ (by omega))]

/-- The name of the file of a house: `House_3.csv`, or `CLEAN_House3.csv` in the cleaned version. -/
def houseFile (clean : Bool) (house : Nat) : Str :=
  if clean then ("CLEAN_House" ++ toString house ++ ".csv").toList else ("House_" ++ toString house ++ ".csv").toList

theorem refitName_eq (clean : Bool) (house : Nat) : refitName clean house = houseFile clean house := by
  unfold refitName houseFile
  rw [formatNat_toString]
  cases clean with
  | true => simp only [if_true, String.toList_append]
  | false => simp only [Bool.false_eq_true, if_false, String.toList_append]

/-- The files are all there under one of the two kinds of names: `clean` tells which. `House_1.csv` decides. -/
def RefitVersion {α : Type} (files : Str → Option (WideFile α)) (clean : Bool) : Prop :=
  (clean = true ↔ files "House_1.csv".toList = none)

theorem refitName_one : refitName false 1 = "House_1.csv".toList := by
  unfold refitName
  rw [formatNat_digit (by decide)]
  decide

/-- REFIT, all houses: house `h` becomes building `h`, or `h - 1` after the missing house 14; every building gets a meter for each of the
ten columns in the order of the file, with all its rows in the order of time; and no other table changes. -/
theorem C99_refit {α : Type} {sort : List (Int × (String → α)) → List (Int × (String → α))} (hs : SortsByTime sort)
    (files : Str → Option (WideFile α)) (clean : Bool) (hv : RefitVersion files clean)
    (hall : ∀ h, 1 ≤ h → h ≤ 21 → h ≠ 14 → ∃ f, files (houseFile clean h) = some f ∧ RefitFile f) (st : RawStore α) :
    ∃ st', convertRefit sort true (some files) st = (st', none) ∧
      (∀ h, 1 ≤ h → h ≤ 21 → h ≠ 14 → ∃ f cols rows, files (houseFile clean h) = some f ∧ InFileOrder f cols ∧ SortedRows f.rows rows ∧
        ∀ (i : Nat) (c : String), cols[i]? = some c →
          st' (meterKey (refitBuilding h) (i + 1)) = some ⟨[("power", "active")], rows.map (fun r => (r.1, r.2 c))⟩) ∧
      ∀ k, (∀ b m, 1 ≤ b → b ≤ 20 → 1 ≤ m → m ≤ 10 → k ≠ meterKey b m) → st' k = st k := by
  simp only [← refitName_eq] at hall ⊢
  have hmem : ∀ h ∈ refitHouses, 1 ≤ h ∧ h ≤ 21 ∧ h ≠ 14 := by decide
  obtain ⟨st', version', h1, h2, _, _⟩ := refitLoop_done hs files clean [] refitHouses 0 none st
    (fun h hh => hall h (hmem h hh).1 (hmem h hh).2.1 (hmem h hh).2.2)
    (Or.inr ⟨rfl, 1, refitHouses.tail, rfl, by rw [refitName_one]; exact hv⟩)
  rw [List.append_nil] at h2
  obtain ⟨g1, g2⟩ := refitDone_tables refitHouses 0 st st' h1
  refine ⟨st', ?_, ?_, ?_⟩
  · unfold convertRefit
    simp only
    rw [h2]
    rfl
  · intro h ha hb hc
    have hj : refitHouses[refitBuilding h - 1]? = some h ∧ 1 ≤ refitBuilding h := by
      have : ∀ h, h < 22 → 1 ≤ h → h ≠ 14 → refitHouses[refitBuilding h - 1]? = some h ∧ 1 ≤ refitBuilding h := by decide
      exact this h (by omega) ha hc
    obtain ⟨f, cols, rows, k1, k2, k3, k4⟩ := g1 (refitBuilding h - 1) h hj.1
    refine ⟨f, cols, rows, k1, k2, k3, ?_⟩
    intro i c hi
    have := k4 i c hi
    rwa [show 0 + 1 + (refitBuilding h - 1) = refitBuilding h by omega] at this
  · intro k hk
    apply g2
    intro j i hj hi
    have : j < 20 := hj
    exact hk _ _ (by omega) (by omega) (by omega) (by omega)

theorem usual_order {α : Type} {f : WideFile α} {cols : List String} (h : InFileOrder f cols) (hn : f.header.Nodup)
    (husual : refitColumns.Sublist f.header) : cols = refitColumns := by
  obtain ⟨h1, h2⟩ := h
  have key : ∀ (l a b : List String), l.Nodup → a.Sublist l → b.Sublist l → (∀ x, x ∈ a ↔ x ∈ b) → a = b := by
    intro l
    induction l with
    | nil =>
      intro a b _ ha hb _
      rw [List.sublist_nil.1 ha, List.sublist_nil.1 hb]
    | cons x l ih =>
      intro a b hnd ha hb hmem
      obtain ⟨hx, hnd'⟩ := List.nodup_cons.1 hnd
      rcases List.sublist_cons_iff.1 ha with ha' | ⟨a', rfl, ha'⟩
      · rcases List.sublist_cons_iff.1 hb with hb' | ⟨b', rfl, hb'⟩
        · exact ih a b hnd' ha' hb' hmem
        · exact absurd (ha'.subset ((hmem x).2 List.mem_cons_self)) hx
      · rcases List.sublist_cons_iff.1 hb with hb' | ⟨b', rfl, hb'⟩
        · exact absurd (hb'.subset ((hmem x).1 List.mem_cons_self)) hx
        · rw [ih a' b' hnd' ha' hb']
          intro y
          have hy := hmem y
          rw [List.mem_cons, List.mem_cons] at hy
          constructor
          · intro hya
            rcases hy.1 (Or.inr hya) with rfl | h'
            · exact absurd (ha'.subset hya) hx
            · exact h'
          · intro hyb
            rcases hy.2 (Or.inr hyb) with rfl | h'
            · exact absurd (hb'.subset hyb) hx
            · exact h'
  exact key f.header cols refitColumns hn h2 husual (fun x => h1.mem_iff)

/-- With the columns in the usual order meter 1 is the aggregate, and meter `k + 1` is appliance `k`. -/
theorem C99_refit_meters_partial {α : Type} {sort : List (Int × (String → α)) → List (Int × (String → α))} (hs : SortsByTime sort)
    (files : Str → Option (WideFile α)) (clean : Bool) (hv : RefitVersion files clean)
    (hall : ∀ h, 1 ≤ h → h ≤ 21 → h ≠ 14 →
      ∃ f, files (houseFile clean h) = some f ∧ RefitFile f ∧ refitColumns.Sublist f.header) (st : RawStore α) :
    ∃ st', convertRefit sort true (some files) st = (st', none) ∧
      ∀ h, 1 ≤ h → h ≤ 21 → h ≠ 14 → ∃ f rows, files (houseFile clean h) = some f ∧ SortedRows f.rows rows ∧
        st' (meterKey (refitBuilding h) 1) = some ⟨[("power", "active")], rows.map (fun r => (r.1, r.2 "Aggregate"))⟩ ∧
        ∀ (k : Nat) (c : String), ["Appliance1", "Appliance2", "Appliance3", "Appliance4", "Appliance5", "Appliance6", "Appliance7",
            "Appliance8", "Appliance9"][k]? = some c →
          st' (meterKey (refitBuilding h) (k + 2)) = some ⟨[("power", "active")], rows.map (fun r => (r.1, r.2 c))⟩ := by
  obtain ⟨st', h1, h2, _⟩ := C99_refit hs files clean hv
    (fun h ha hb hc => by obtain ⟨f, k1, k2, _⟩ := hall h ha hb hc; exact ⟨f, k1, k2⟩) st
  refine ⟨st', h1, ?_⟩
  intro h ha hb hc
  obtain ⟨f, cols, rows, k1, k2, k3, k4⟩ := h2 h ha hb hc
  obtain ⟨f', g1, g2, g3⟩ := hall h ha hb hc
  rw [k1, Option.some.injEq] at g1
  subst g1
  have hu := usual_order k2 g2.1 g3
  subst hu
  exact ⟨f, rows, k1, k3, k4 0 "Aggregate" rfl, fun k c hk => k4 (k + 1) c hk⟩

/-- REFIT, a house whose file is missing or has not all columns: the houses before it are stored, nothing is stored of it and of those
after it, and the exception tells which it was. -/
theorem C99_refit_stops {α : Type} {sort : List (Int × (String → α)) → List (Int × (String → α))} (hs : SortsByTime sort)
    (files : Str → Option (WideFile α)) (clean : Bool) (hv : RefitVersion files clean) (before : List Nat) (h : Nat) (after : List Nat)
    (hsplit : refitHouses = before ++ h :: after)
    (hall : ∀ x ∈ before, ∃ f, files (houseFile clean x) = some f ∧ RefitFile f) (st : RawStore α) (e : Err)
    (hbad : (files (houseFile clean h) = none ∧ e = .runtimeError) ∨
      (∃ f, files (houseFile clean h) = some f ∧ ("Unix" ∉ f.header ∨ ∃ c ∈ refitColumns, c ∉ f.header)) ∧ e = .valueError) :
    ∃ st', convertRefit sort true (some files) st = (st', some e) ∧
      (∀ (j x : Nat), before[j]? = some x → ∃ f cols rows, files (houseFile clean x) = some f ∧ InFileOrder f cols ∧
        SortedRows f.rows rows ∧ ∀ (i : Nat) (c : String), cols[i]? = some c →
          st' (meterKey (j + 1) (i + 1)) = some ⟨[("power", "active")], rows.map (fun r => (r.1, r.2 c))⟩) ∧
      ∀ k, (∀ b m, 1 ≤ b → b ≤ before.length → 1 ≤ m → m ≤ 10 → k ≠ meterKey b m) → st' k = st k := by
  simp only [← refitName_eq] at hall hbad ⊢
  have hfirst : ∃ h' tl, before ++ h :: after = h' :: tl ∧ (clean = true ↔ files (refitName false h') = none) := by
    rw [← hsplit]
    exact ⟨1, refitHouses.tail, rfl, by rw [refitName_one]; exact hv⟩
  obtain ⟨st', version', h1, h2, h3, h4⟩ := refitLoop_done hs files clean (h :: after) before 0 none st hall (Or.inr ⟨rfl, hfirst⟩)
  have hclean : version'.getD ((files (refitName false h)).isNone) = clean := by
    by_cases hz : before = []
    · rw [h4 hz, Option.getD_none]
      obtain ⟨h', tl, he, hiff⟩ := hfirst
      rw [hz, List.nil_append, List.cons.injEq] at he
      rw [he.1]
      cases hx : files (refitName false h') with
      | none => rw [hiff.2 hx]; rfl
      | some y =>
        cases hc : clean with
        | false => rfl
        | true => rw [hiff.1 hc] at hx; cases hx
    · rw [h3 hz]; rfl
  obtain ⟨g1, g2⟩ := refitDone_tables before 0 st st' h1
  refine ⟨st', ?_, ?_, ?_⟩
  · unfold convertRefit
    simp only
    rw [hsplit, h2]
    unfold refitLoop
    simp only [hclean]
    rcases hbad with ⟨hn, he⟩ | ⟨⟨f, hf, hcols⟩, he⟩
    · rw [hn, he]
    · rw [hf, he]
      simp only
      rw [refitLoad_bad f hcols]
  · intro j x hj
    obtain ⟨f, cols, rows, k1, k2, k3, k4⟩ := g1 j x hj
    refine ⟨f, cols, rows, k1, k2, k3, ?_⟩
    intro i c hi
    have := k4 i c hi
    rwa [show 0 + 1 + j = j + 1 by omega] at this
  · intro k hk
    apply g2
    intro j i hj hi
    exact hk _ _ (by omega) (by omega) (by omega) (by omega)

/-- A file with the columns in another order puts an appliance where the aggregate should be. -/
theorem C99_refit_order_counterexample :
    ∃ f : WideFile Int, RefitFile f ∧ ∃ cols, (∃ rows, refitLoad f = .ok (cols, rows)) ∧ cols[0]? = some "Appliance9" :=
  ⟨⟨"Unix" :: refitColumns.reverse, []⟩, ⟨by decide, by decide, by decide⟩, refitColumns.reverse, ⟨[], by rfl⟩, rfl⟩

/-! ### DRED -/

theorem dredRows_ok (rows : List (Int × List (Option Rat))) : dredRows (rows.map some) = .ok rows := by
  induction rows with
  | nil => rfl
  | cons r rs ih =>
    rw [List.map_cons, dredRows, ih]

theorem dredRows_bad (lines : List DredLine) (h : none ∈ lines) : dredRows lines = .error .valueError := by
  induction lines with
  | nil => cases h
  | cons l ls ih =>
    cases l with
    | none => rfl
    | some r =>
      rw [dredRows, ih ((List.mem_cons.1 h).resolve_left (by simp))]

theorem dred_idx : ∀ i, i < 13 → dredNames.idxOf (dredNames.getD i "") = i := by decide

/-- DRED: after three lines that are skipped, every row is stored in the order of time; meter `i` gets the field `i` after the time, NaN where a
line is too short; and no other table changes. -/
theorem C99_dred {sort : List (Int × (String → Option Rat)) → List (Int × (String → Option Rat))} (hs : SortsByTime sort)
    (skipped : List DredLine) (h3 : skipped.length = 3) (r : Int × List (Option Rat)) (rs : List (Int × List (Option Rat)))
    (hr : r.2.length = 13) (hrs : ∀ x ∈ rs, x.2.length ≤ 13) (st : RawStore (Option Rat)) :
    ∃ st', convertDred sort true (some (skipped ++ (r :: rs).map some)) st = (st', none) ∧
      (∀ i, i < 13 → ∃ rows, st' (meterKey 1 (i + 1)) = some ⟨[("power", "apparent")], rows⟩ ∧
        rows.Perm ((r :: rs).map (fun x => (x.1, x.2.getD i none))) ∧ rows.Pairwise (fun a b => a.1 ≤ b.1)) ∧
      ∀ k, (∀ m, 1 ≤ m → m ≤ 13 → k ≠ meterKey 1 m) → st' k = st k := by
  have hload : dredLoad (skipped ++ (r :: rs).map some) = .ok ((r :: rs).map (fun x => (x.1, dredCell x.2))) := by
    unfold dredLoad
    rw [← h3, List.drop_left, dredRows_ok]
    simp only
    rw [if_neg, if_pos (by rw [hr]; rfl)]
    rw [List.any_eq_true]
    rintro ⟨x, hx, hlt⟩
    rw [decide_eq_true_eq, hr] at hlt
    rcases List.mem_cons.1 hx with rfl | hx
    · omega
    · have := hrs x hx
      omega
  obtain ⟨st', hput, hstored⟩ := columns_stored "apparent" 1 (by omega)
    (sort ((r :: rs).map (fun x => (x.1, dredCell x.2)))) dredNames st
  refine ⟨st', ?_, ?_, ?_⟩
  · unfold convertDred
    simp only [hload, if_true]
    exact hput
  · intro i hi
    have hc : dredNames[i]? = some (dredNames.getD i "") := by
      rw [List.getD_eq_getElem?_getD, List.getElem?_eq_getElem (by exact hi)]
      rfl
    refine ⟨_, hstored.tables i _ hc, ?_, ?_⟩
    · have := (hs.perm ((r :: rs).map (fun x => (x.1, dredCell x.2)))).map (fun r => (r.1, r.2 (dredNames.getD i "")))
      rw [List.map_map] at this
      have hf : ((fun r : Int × (String → Option Rat) => (r.1, r.2 (dredNames.getD i ""))) ∘
          fun x : Int × List (Option Rat) => (x.1, dredCell x.2)) = fun x => (x.1, x.2.getD i none) := by
        funext x
        simp only [Function.comp, dredCell, dred_idx i hi]
      rw [hf] at this
      exact this
    · rw [List.pairwise_map]
      exact hs.sorted _
  · intro k hk
    apply hstored.others
    intro i hi
    exact hk (i + 1) (by omega) (by have : i < 13 := hi; omega)

/-- DRED, files that are refused: nothing is stored. -/
theorem C99_dred_refused (sort : List (Int × (String → Option Rat)) → List (Int × (String → Option Rat))) (file : List DredLine)
    (st : RawStore (Option Rat))
    (h : file.length ≤ 3 ∨ none ∈ file.drop 3 ∨
      ∃ r rs, file.drop 3 = some r :: rs ∧ (r.2.length ≠ 13 ∨ ∃ x, some x ∈ rs ∧ r.2.length < x.2.length)) :
    convertDred sort true (some file) st = (st, some .valueError) ∧ convertDred sort true none st = (st, some .fileNotFound) := by
  refine ⟨?_, rfl⟩
  have hload : dredLoad file = .error .valueError := by
    unfold dredLoad
    by_cases hn : none ∈ file.drop 3
    · rw [dredRows_bad _ hn]
    · rcases h with h | h | ⟨r, rs, hd, hbad⟩
      · rw [List.drop_eq_nil_of_le h]
        rfl
      · exact absurd h hn
      · rw [hd] at hn ⊢
        have hrows : ∃ rows, some r :: rs = (r :: rows).map some := by
          have : ∀ ls : List DredLine, none ∉ ls → ∃ rows : List (Int × List (Option Rat)), ls = rows.map some := by
            intro ls
            induction ls with
            | nil => intro _; exact ⟨[], rfl⟩
            | cons l ls ih =>
              intro hls
              obtain ⟨rows, hrows⟩ := ih (fun hm => hls (List.mem_cons_of_mem _ hm))
              cases l with
              | none => exact absurd List.mem_cons_self hls
              | some x => exact ⟨x :: rows, by rw [hrows]; rfl⟩
          obtain ⟨rows, hrows⟩ := this rs (fun hm => hn (List.mem_cons_of_mem _ hm))
          exact ⟨rows, by rw [hrows]; rfl⟩
        obtain ⟨rows, hrows⟩ := hrows
        rw [hrows, dredRows_ok]
        simp only
        rcases hbad with hw | ⟨x, hx, hlt⟩
        · split
          · rfl
          · rw [if_neg]
            exact hw
        · rw [if_pos]
          rw [List.any_eq_true]
          refine ⟨x, ?_, by simpa using hlt⟩
          have hx' : some x ∈ (r :: rows).map some := by
            rw [← hrows]
            exact List.mem_cons_of_mem _ hx
          obtain ⟨y, hy, he⟩ := List.mem_map.1 hx'
          rw [Option.some.injEq] at he
          rw [← he]
          exact hy
  unfold convertDred
  simp only [hload]

/-! ### HIPE -/

/-- A name that `<machine>*.csv` matches. -/
def MachineFile (machine : String) (name : Str) : Prop := ∃ s, name = machine.toList ++ s ++ ".csv".toList

/-- The first file of the machine in the directory. -/
def FirstFile (dir : List (Str × HipeFile)) (machine : String) (f : HipeFile) : Prop :=
  ∃ before name after, dir = before ++ (name, f) :: after ∧ MachineFile machine name ∧ ∀ e ∈ before, ¬ MachineFile machine e.1

theorem hipeGlob_iff (machine : String) (name : Str) :
    (machine.toList.isPrefixOf name && ".csv".toList.isSuffixOf (name.drop machine.toList.length)) = true ↔ MachineFile machine name := by
  rw [Bool.and_eq_true, List.isPrefixOf_iff_prefix, List.isSuffixOf_iff_suffix]
  unfold MachineFile
  constructor
  · rintro ⟨⟨s, rfl⟩, h⟩
    rw [List.drop_left] at h
    obtain ⟨t, rfl⟩ := h
    exact ⟨t, by rw [List.append_assoc]⟩
  · rintro ⟨s, rfl⟩
    rw [List.append_assoc]
    refine ⟨⟨s ++ ".csv".toList, rfl⟩, ?_⟩
    rw [List.drop_left]
    exact ⟨s, rfl⟩

theorem hipeGlob_first {dir : List (Str × HipeFile)} {machine : String} {f : HipeFile} (h : FirstFile dir machine f) :
    ∃ name rest, hipeGlob dir machine = (name, f) :: rest := by
  obtain ⟨before, name, after, rfl, h1, h2⟩ := h
  refine ⟨name, hipeGlob after machine, ?_⟩
  unfold hipeGlob
  rw [List.filter_append, List.filter_eq_nil_iff.2, List.nil_append, List.filter_cons_of_pos]
  · exact (hipeGlob_iff machine name).2 h1
  · intro e he hc
    exact h2 e he ((hipeGlob_iff machine e.1).1 hc)

theorem hipeGlob_none {dir : List (Str × HipeFile)} {machine : String} (h : ∀ e ∈ dir, ¬ MachineFile machine e.1) :
    hipeGlob dir machine = [] := by
  unfold hipeGlob
  rw [List.filter_eq_nil_iff]
  intro e he hc
  exact h e he ((hipeGlob_iff machine e.1).1 hc)

theorem hipeChannels_ok (dir : List (Str × HipeFile)) (file : Nat → HipeFile) : ∀ ms : List (Nat × String),
    (∀ e ∈ ms, FirstFile dir e.2 (file e.1)) → hipeChannels dir ms = .ok (ms.map (fun e => (e.1, file e.1))) := by
  intro ms
  induction ms with
  | nil => intro _; rfl
  | cons e ms ih =>
    intro h
    obtain ⟨name, rest, hg⟩ := hipeGlob_first (h e List.mem_cons_self)
    unfold hipeChannels
    rw [hg]
    simp only
    rw [ih (fun x hx => h x (List.mem_cons_of_mem _ hx))]
    rfl

theorem hipeChannels_missing (dir : List (Str × HipeFile)) : ∀ ms : List (Nat × String),
    (∃ e ∈ ms, ∀ x ∈ dir, ¬ MachineFile e.2 x.1) → hipeChannels dir ms = .error .indexError := by
  intro ms
  induction ms with
  | nil => rintro ⟨e, he, _⟩; cases he
  | cons e ms ih =>
    rintro ⟨x, hx, hno⟩
    unfold hipeChannels
    cases hg : hipeGlob dir e.2 with
    | nil => rfl
    | cons f fs =>
      simp only
      rw [ih ⟨x, ?_, hno⟩]
      rcases List.mem_cons.1 hx with rfl | hx
      · rw [hipeGlob_none hno] at hg
        cases hg
      · exact hx

/-- The machines, by the number of their meter less one. -/
def hipeMeters : List String :=
  ["MainTerminal", "ChipPress", "ChipSaw", "HighTemperatureOven", "PickAndPlaceUnit", "ScreenPrinter", "SolderingOven", "VacuumOven",
    "VacuumPump1", "VacuumPump2", "WashingMachine"]

theorem hipeMeters_get : ∀ e ∈ hipeMachines, ∃ k, e.1 = k + 1 ∧ hipeMeters[k]? = some e.2 := by
  have : ∀ e ∈ hipeMachines, e.1 = e.1 - 1 + 1 ∧ hipeMeters[e.1 - 1]? = some e.2 := by decide
  exact fun e he => ⟨e.1 - 1, this e he⟩

theorem hipeMeters_mem : ∀ m ∈ hipeMeters, ∃ e ∈ hipeMachines, e.2 = m := by decide

/-- What is stored of a file with the readings `rows` in kW: the power in W without its sign, in the order of time. -/
def HipeStored (meter : Nat) (rows : List (Int × Option Rat)) (table : RawTable (Option Rat)) : Prop :=
  table.columns = [("power", if meter = 1 then "apparent" else "active")] ∧
    table.rows.Perm (rows.map (fun r => (r.1, r.2.map (fun x => |x| * 1000)))) ∧ table.rows.Pairwise (fun a b => a.1 ≤ b.1)

theorem hipeLoad_ok {sort : List (Int × Option Rat) → List (Int × Option Rat)} (hs : SortsByTime sort) (k : Nat) (hk : 1 ≤ k)
    (rows : List (Int × Option Rat)) :
    ∃ table, hipeLoad sort (some rows) (hipeMapping k) true false = .ok table ∧ HipeStored k rows table := by
  refine ⟨_, rfl, ?_, ?_, ?_⟩
  · show [("power", hipeMapping k)] = _
    unfold hipeMapping
    by_cases h : k = 1
    · rw [if_pos (by omega), if_pos h]
    · rw [if_neg (by omega), if_neg h]
  · have h1 := (hs.perm (rows.map (fun r => (r.1, r.2.map (fun x => x * 1000))))).map (fun r => (r.1, r.2.map (fun x => |x|)))
    rw [List.map_map] at h1
    have hf : ((fun r : Int × Option Rat => (r.1, r.2.map (fun x => |x|))) ∘ fun r : Int × Option Rat => (r.1, r.2.map (fun x => x * 1000))) =
        fun r => (r.1, r.2.map (fun x => |x| * 1000)) := by
      funext r
      obtain ⟨t, v⟩ := r
      cases v with
      | none => rfl
      | some x =>
        simp only [Function.comp, Option.map_some]
        rw [abs_mul, abs_of_pos (by norm_num : (0 : Rat) < 1000)]
    rw [hf] at h1
    exact h1
  · show (List.map _ _).Pairwise _
    rw [List.pairwise_map]
    exact hs.sorted _

theorem hipeLoop_spec {sort : List (Int × Option Rat) → List (Int × Option Rat)} (hs : SortsByTime sort) :
    ∀ (cs : List (Nat × List (Int × Option Rat))) (rest : List (Nat × HipeFile)) (st : RawStore (Option Rat)),
    (cs.map Prod.fst).Nodup → (∀ c ∈ cs, 1 ≤ c.1) →
    ∃ st', hipeLoop sort true false (cs.map (fun c => (c.1, some c.2)) ++ rest) st = hipeLoop sort true false rest st' ∧
      (∀ c ∈ cs, ∃ table, st' (meterKey 1 c.1) = some table ∧ HipeStored c.1 c.2 table) ∧
      ∀ k, (∀ c ∈ cs, k ≠ meterKey 1 c.1) → st' k = st k := by
  intro cs
  induction cs with
  | nil => intro rest st _ _; exact ⟨st, rfl, (fun c hc => nomatch hc), fun _ _ => rfl⟩
  | cons c cs ih =>
    intro rest st hn hpos
    rw [List.map_cons, List.nodup_cons] at hn
    have hc := hpos c List.mem_cons_self
    obtain ⟨table, hload, hst⟩ := hipeLoad_ok hs c.1 hc c.2
    obtain ⟨hk1, hk2⟩ := key_numbers 1 c.1 (by omega) hc
    obtain ⟨st', g1, g2, g3⟩ := ih rest (st.put (meterKey 1 c.1) table) hn.2 (fun x hx => hpos x (List.mem_cons_of_mem _ hx))
    refine ⟨st', ?_, ?_, ?_⟩
    · rw [List.map_cons, List.cons_append]
      conv_lhs => unfold hipeLoop
      rw [show ((1 : Nat) : Int) = 1 from rfl] at hk1
      simp only [hk1, hload]
      rw [show ((1 : Nat) : Int) = 1 from rfl] at hk2
      rw [hk2]
      exact g1
    · intro x hx
      rcases List.mem_cons.1 hx with rfl | hx
      · refine ⟨table, ?_, hst⟩
        rw [g3]
        · unfold RawStore.put
          rw [if_pos rfl]
        · intro y hy he
          have := (meterKey_inj (by omega) hc (by omega) (hpos y (List.mem_cons_of_mem _ hy)) he).2
          exact hn.1 (this ▸ List.mem_map_of_mem hy)
      · exact g2 x hx
    · intro k hk
      rw [g3 k (fun y hy => hk y (List.mem_cons_of_mem _ hy))]
      unfold RawStore.put
      rw [if_neg (hk c List.mem_cons_self)]

/-- HIPE: with a file for each machine, meter `k` holds the readings of the first file of machine `k` in watts, without sign, in the order of
time; and no other table changes. -/
theorem C99_hipe {sort : List (Int × Option Rat) → List (Int × Option Rat)} (hs : SortsByTime sort) (dir : List (Str × HipeFile))
    (rows : Nat → List (Int × Option Rat)) (h : ∀ (k : Nat) (m : String), hipeMeters[k]? = some m → FirstFile dir m (some (rows (k + 1)))) (st : RawStore (Option Rat)) :
    ∃ st', convertHipe sort true false (some dir) st = (st', none) ∧
      (∀ k, 1 ≤ k → k ≤ 11 → ∃ table, st' (meterKey 1 k) = some table ∧ HipeStored k (rows k) table) ∧
      ∀ key, (∀ k, 1 ≤ k → k ≤ 11 → key ≠ meterKey 1 k) → st' key = st key := by
  have hc := hipeChannels_ok dir (fun k => some (rows k)) hipeMachines (fun e he => by
    obtain ⟨k, hk, hm⟩ := hipeMeters_get e he
    rw [hk]
    exact h k e.2 hm)
  have hshape : hipeMachines.map (fun e => (e.1, (some (rows e.1) : HipeFile))) =
      (hipeMachines.map (fun e => (e.1, rows e.1))).map (fun c => (c.1, some c.2)) ++ [] := rfl
  have hrange : ∀ e ∈ hipeMachines, 1 ≤ e.1 ∧ e.1 ≤ 11 := by decide
  have hmem : ∀ k, k < 12 → 1 ≤ k → ∃ e ∈ hipeMachines, e.1 = k := by decide
  obtain ⟨st', g1, g2, g3⟩ := hipeLoop_spec hs (hipeMachines.map (fun e => (e.1, rows e.1))) [] st
    (by rw [List.map_map]; exact (by decide : (hipeMachines.map Prod.fst).Nodup))
    (by intro c hc'; obtain ⟨e, he, rfl⟩ := List.mem_map.1 hc'; exact (hrange e he).1)
  refine ⟨st', ?_, ?_, ?_⟩
  · unfold convertHipe
    simp only [hc]
    rw [hshape, g1]
    rfl
  · intro k h1 h2
    obtain ⟨e, he, rfl⟩ := hmem k (by omega) h1
    exact g2 (e.1, rows e.1) (List.mem_map.2 ⟨e, he, rfl⟩)
  · intro key hk
    apply g3
    intro c hc'
    obtain ⟨e, he, rfl⟩ := List.mem_map.1 hc'
    exact hk e.1 (hrange e he).1 (hrange e he).2

/-- HIPE: if a machine has no file nothing is stored at all, and the exception is `IndexError`; a file without the two columns raises
`ValueError`, and the meters before it are stored. -/
theorem C99_hipe_stops {sort : List (Int × Option Rat) → List (Int × Option Rat)} (hs : SortsByTime sort) (dir : List (Str × HipeFile))
    (st : RawStore (Option Rat)) :
    ((∃ m ∈ hipeMeters, ∀ x ∈ dir, ¬ MachineFile m x.1) → convertHipe sort true false (some dir) st = (st, some .indexError)) ∧
    ∀ (file : Nat → HipeFile) (n : Nat),
      (∀ (k : Nat) (m : String), hipeMeters[k]? = some m → FirstFile dir m (file (k + 1))) → 1 ≤ n → n ≤ 11 → file n = none →
      (∀ k, 1 ≤ k → k < n → file k ≠ none) →
      ∃ st', convertHipe sort true false (some dir) st = (st', some .valueError) ∧
        (∀ k, 1 ≤ k → k < n → ∃ rows table, file k = some rows ∧ st' (meterKey 1 k) = some table ∧ HipeStored k rows table) ∧
        ∀ key, (∀ k, 1 ≤ k → k < n → key ≠ meterKey 1 k) → st' key = st key := by
  constructor
  · rintro ⟨m, hm, hno⟩
    obtain ⟨e, he, rfl⟩ := hipeMeters_mem m hm
    unfold convertHipe
    simp only [hipeChannels_missing dir hipeMachines ⟨e, he, hno⟩]
  · intro file n h hn1 hn2 hnone hbefore
    have hc := hipeChannels_ok dir file hipeMachines (fun e he => by
      obtain ⟨k, hk, hm⟩ := hipeMeters_get e he
      rw [hk]
      exact h k e.2 hm)
    have hsplit : hipeMachines.map (fun e => (e.1, file e.1)) =
        ((List.range' 1 (n - 1)).map (fun k => (k, (file k).getD []))).map (fun c => (c.1, some c.2)) ++
          (n, none) :: ((List.range' (n + 1) (11 - n)).map (fun k => (k, file k))) := by
      have h1 : hipeMachines.map (fun e => (e.1, file e.1)) = (List.range' 1 11).map (fun k => (k, file k)) := rfl
      rw [h1]
      have h2 : List.range' 1 11 = List.range' 1 (n - 1) ++ n :: List.range' (n + 1) (11 - n) := by
        have : ∀ n, n < 12 → 1 ≤ n → List.range' 1 11 = List.range' 1 (n - 1) ++ n :: List.range' (n + 1) (11 - n) := by decide
        exact this n (by omega) hn1
      rw [h2, List.map_append, List.map_cons, hnone, List.map_map]
      congr 1
      apply List.map_congr_left
      intro k hk
      rw [List.mem_range'_1] at hk
      cases hf : file k with
      | none => exact absurd hf (hbefore k (by omega) (by omega))
      | some rows => simp only [Function.comp, hf, Option.getD_some]
    obtain ⟨st', g1, g2, g3⟩ := hipeLoop_spec hs ((List.range' 1 (n - 1)).map (fun k => (k, (file k).getD [])))
      ((n, none) :: ((List.range' (n + 1) (11 - n)).map (fun k => (k, file k)))) st
      (by rw [List.map_map]
          have : (Prod.fst ∘ fun k => (k, (file k).getD [])) = (id : Nat → Nat) := rfl
          rw [this, List.map_id]
          exact List.nodup_range')
      (by intro c hc'
          obtain ⟨k, hk, rfl⟩ := List.mem_map.1 hc'
          rw [List.mem_range'_1] at hk
          exact hk.1)
    refine ⟨st', ?_, ?_, ?_⟩
    · unfold convertHipe
      simp only [hc]
      rw [hsplit, g1]
      unfold hipeLoop
      obtain ⟨hk1, _⟩ := key_numbers 1 n (by omega) hn1
      rw [show ((1 : Nat) : Int) = 1 from rfl] at hk1
      simp only [hk1]
      rfl
    · intro k h1 h2
      obtain ⟨table, t1, t2⟩ := g2 (k, (file k).getD []) (List.mem_map.2 ⟨k, by rw [List.mem_range'_1]; omega, rfl⟩)
      cases hf : file k with
      | none => exact absurd hf (hbefore k h1 h2)
      | some rows =>
        rw [hf] at t2
        exact ⟨rows, table, rfl, t1, t2⟩
    · intro key hk
      apply g3
      intro c hc'
      obtain ⟨k, hk', rfl⟩ := List.mem_map.1 hc'
      rw [List.mem_range'_1] at hk'
      exact hk k (by omega) (by omega)

/-- REFIT and HIPE, an input directory that does not exist: nothing is stored. -/
theorem C99_missing {α : Type} (sort : List (Int × (String → α)) → List (Int × (String → α))) (sort' : List (Int × Option Rat) → List (Int × Option Rat))
    (st : RawStore α) (st' : RawStore (Option Rat)) :
    convertRefit sort true none st = (st, some .fileNotFound) ∧
    convertHipe sort' true false none st' = (st', some .fileNotFound) :=
  ⟨rfl, rfl⟩

/-! ### Examples -/

example : RefitFile (⟨"Time" :: "Unix" :: refitColumns ++ ["Issues"], [(1381323977, fun _ => (523 : Int))]⟩ : WideFile Int) ∧
    refitColumns.Sublist ("Time" :: "Unix" :: refitColumns ++ ["Issues"]) :=
  ⟨⟨by decide, by decide, by decide⟩, by decide⟩

example : refitHouses = [1, 2] ++ 3 :: [4, 5, 6, 7, 8, 9, 10, 11, 12, 13, 15, 16, 17, 18, 19, 20, 21] := rfl

example : MachineFile "VacuumPump1" "VacuumPump1_PhaseCount_2.csv".toList := ⟨"_PhaseCount_2".toList, by decide⟩

example : HipeStored 2 [(5, some (-3/1000)), (2, none)] ⟨[("power", "active")], [(2, none), (5, some 3)]⟩ := by
  refine ⟨rfl, ?_, by decide⟩
  have : [((5 : Int), some (-3/1000 : Rat)), (2, none)].map (fun r => (r.1, r.2.map (fun x => |x| * 1000))) = [(5, some 3), (2, none)] := by
    decide +kernel
  rw [this]
  exact List.Perm.swap _ _ _

end Nilmtk
