import Verif.Props.Columns
import Verif.Props.MeterEnergy
/-!
C122: from the files of REFIT, DRED and HIPE to the energy of a meter.
-/
namespace Nilmtk
open TF

/-! ### Lemmas -/

theorem sorted_perm_eq {β : Type} {x y : List (Int × β)} (hp : x.Perm y) (hx : x.Pairwise (fun a b => a.1 ≤ b.1))
    (hy : y.Pairwise (fun a b => a.1 < b.1)) : x = y := by
  refine hp.eq_of_pairwise (le := fun x y => x.1 ≤ y.1) ?_ hx (hy.imp le_of_lt)
  intro u v hu hv h1 h2
  have hu' := hp.mem_iff.1 hu
  have heq : u.1 = v.1 := le_antisymm h1 h2
  by_contra hne
  have hno : ∀ l : List (Int × β), l.Pairwise (fun x y => x.1 < y.1) → u ∈ l → v ∈ l → False := by
    intro l hl m1 m2
    induction hl with
    | nil => cases m1
    | cons h _ ih =>
      rcases List.mem_cons.1 m1 with e1 | k1
      · rcases List.mem_cons.1 m2 with e2 | k2
        · exact hne (e1.trans e2.symm)
        · have := h _ k2; rw [← e1] at this; omega
      · rcases List.mem_cons.1 m2 with e2 | k2
        · have := h _ k1; rw [← e2] at this; omega
        · exact ih k1 k2
  exact hno _ hy hu' hv

theorem energy_of_sorted {ac : String} (hac : ac = "active" ∨ ac = "apparent" ∨ ac = "reactive") {rows : List (Int × Option Rat)}
    {order : List (Int × Rat)} (hp : rows.Perm (order.map (fun r => (r.1, some r.2)))) (hr : rows.Pairwise (fun x y => x.1 ≤ y.1))
    (hord : order.Pairwise (fun x y => x.1 < y.1)) (h2 : 2 ≤ order.length)
    (ms : List Measurement) (msp : Rat) (g : Rat → Rat) (hlim : LimitedBy ms ("power", ac) g) (x y : Option Int)
    (cs : Int) (hcs : 0 < cs) :
    meterTotalEnergy (some ⟨[("power", ac)], rows⟩) ms msp (mk' x y) none cs =
      .ok (if (order.filter (fun r => between x y r.1)).length < 2 then []
        else [(acNamed ac, kwhOf msp ((order.filter (fun r => between x y r.1)).map (fun r => (r.1, g r.2))))]) := by
  have hrows := sorted_perm_eq hp hr (by rw [List.pairwise_map]; exact hord)
  rw [hrows]
  exact C112_meter_partial ms msp ac hac g hlim order hord h2 x y cs hcs

/-! ### REFIT -/

/-- C122. From the files of REFIT to the energy: the energy of meter `i + 1` of the building of a house is that of the readings in column `i`
of the ten (`Aggregate`, `Appliance1`, ...) of the file of the house which are within the window, in the order of time, limited as the
device says; whatever the order of the lines, the other columns and the chunk size. `order` are the readings of the column with times in
seconds, in the order of time. -/
theorem C122_refit_partial {sort : List (Int × (String → Option Rat)) → List (Int × (String → Option Rat))} (hs : SortsByTime sort)
    (files : Str → Option (WideFile (Option Rat))) (clean : Bool) (hv : RefitVersion files clean)
    (hall : ∀ h, 1 ≤ h → h ≤ 21 → h ≠ 14 →
      ∃ f, files (houseFile clean h) = some f ∧ RefitFile f ∧ refitColumns.Sublist f.header) (st : RawStore (Option Rat))
    (h : Nat) (h1 : 1 ≤ h) (h21 : h ≤ 21) (h14 : h ≠ 14) (f : WideFile (Option Rat)) (hf : files (houseFile clean h) = some f)
    (i : Nat) (c : String) (hc : refitColumns[i]? = some c) (order : List (Int × Rat))
    (hp : (f.rows.map (fun r => (r.1, r.2 c))).Perm (order.map (fun r => (r.1, some r.2))))
    (hord : order.Pairwise (fun x y => x.1 < y.1)) (h2 : 2 ≤ order.length)
    (ms : List Measurement) (msp : Rat) (g : Rat → Rat) (hlim : LimitedBy ms ("power", "active") g) (x y : Option Int)
    (inside : List (Int × Rat)) (hin : inside = order.filter (fun r => between x y (r.1 * 1000000000))) (cs : Int) (hcs : 0 < cs) :
    ∃ st', convertRefit sort true (some files) st = (st', none) ∧
      meterTotalEnergy (st' (meterKey (if h < 14 then h else h - 1) (i + 1))) ms msp (mk' x y) none cs =
        .ok (if inside.length < 2 then [] else [(.active, kwhOfSeconds msp (inside.map (fun r => (r.1, g r.2))))]) := by
  obtain ⟨st', e1, e2⟩ := C99_refit_meters_partial hs files clean hv hall st
  refine ⟨st', e1, ?_⟩
  obtain ⟨f', rows, g1, g2, g3, g4⟩ := e2 h h1 h21 h14
  rw [hf] at g1
  cases g1
  have htab : st' (meterKey (refitBuilding h) (i + 1)) = some ⟨[("power", "active")], rows.map (fun r => (r.1, r.2 c))⟩ := by
    cases i with
    | zero =>
      rw [show refitColumns[0]? = some "Aggregate" from rfl, Option.some.injEq] at hc
      rw [← hc]; exact g3
    | succ k => exact g4 k c hc
  show meterTotalEnergy (st' (meterKey (refitBuilding h) (i + 1))) ms msp (mk' x y) none cs = _
  rw [htab]
  have hperm : (rows.map (fun r => (r.1, r.2 c))).Perm ((order.map (fun r => (r.1 * 1000000000, r.2))).map (fun r => (r.1, some r.2))) := by
    refine (g2.1.map _).trans ?_
    have := hp.map (fun r : Int × Option Rat => (r.1 * 1000000000, r.2))
    rw [List.map_map, List.map_map] at this ⊢
    exact this
  rw [energy_of_sorted (.inl rfl) hperm (by rw [List.pairwise_map]; exact g2.2)
    (by rw [List.pairwise_map]; exact hord.imp (fun h => by simp only; omega)) (by rw [List.length_map]; exact h2) ms msp g hlim x y cs hcs]
  have hfil : (order.map (fun r => (r.1 * 1000000000, r.2))).filter (fun r => between x y r.1) =
      inside.map (fun r => (r.1 * 1000000000, r.2)) := by
    rw [List.filter_map, hin]; rfl
  rw [hfil, List.length_map, ← kwh_seconds, List.map_map, List.map_map]
  rfl

/-! ### DRED -/

/-- C122. From the file of DRED to the energy: the energy of meter `i + 1` is that of field `i` after the time of the lines within the window,
in the order of time; of lines that are too short for the field nothing is known, so that `order` has none. -/
theorem C122_dred_partial {sort : List (Int × (String → Option Rat)) → List (Int × (String → Option Rat))} (hs : SortsByTime sort)
    (skipped : List DredLine) (h3 : skipped.length = 3) (r : Int × List (Option Rat)) (rs : List (Int × List (Option Rat)))
    (hr : r.2.length = 13) (hrs : ∀ x ∈ rs, x.2.length ≤ 13) (st : RawStore (Option Rat)) (i : Nat) (hi : i < 13)
    (order : List (Int × Rat)) (hp : ((r :: rs).map (fun x => (x.1, x.2[i]?.join))).Perm (order.map (fun r => (r.1, some r.2))))
    (hord : order.Pairwise (fun x y => x.1 < y.1)) (h2 : 2 ≤ order.length)
    (ms : List Measurement) (msp : Rat) (g : Rat → Rat) (hlim : LimitedBy ms ("power", "apparent") g) (x y : Option Int)
    (inside : List (Int × Rat)) (hin : inside = order.filter (fun r => between x y r.1)) (cs : Int) (hcs : 0 < cs) :
    ∃ st', convertDred sort true (some (skipped ++ (r :: rs).map some)) st = (st', none) ∧
      meterTotalEnergy (st' (meterKey 1 (i + 1))) ms msp (mk' x y) none cs =
        .ok (if inside.length < 2 then [] else [(.apparent, kwhOf msp (inside.map (fun r => (r.1, g r.2))))]) := by
  obtain ⟨st', e1, e2, -⟩ := C99_dred hs skipped h3 r rs hr hrs st
  refine ⟨st', e1, ?_⟩
  obtain ⟨rows, g1, g2, g3⟩ := e2 i hi
  have hcell : (fun x : Int × List (Option Rat) => (x.1, x.2.getD i none)) = fun x => (x.1, x.2[i]?.join) := by
    funext x
    rw [List.getD_eq_getElem?_getD]
    cases x.2[i]? <;> rfl
  rw [hcell] at g2
  rw [g1, hin]
  exact energy_of_sorted (.inr (.inl rfl)) (g2.trans hp) g3 hord h2 ms msp g hlim x y cs hcs

/-! ### HIPE -/

/-- C122. From the files of HIPE to the energy: the energy of a meter is that of the readings within the window in the first file of its machine,
times 1000 (the files are in kW) and without their sign; apparent energy for meter 1, active energy for the others. -/
theorem C122_hipe_partial {sort : List (Int × Option Rat) → List (Int × Option Rat)} (hs : SortsByTime sort) (dir : List (Str × HipeFile))
    (rows : Nat → List (Int × Option Rat)) (h : ∀ (k : Nat) (m : String), hipeMeters[k]? = some m → FirstFile dir m (some (rows (k + 1))))
    (st : RawStore (Option Rat)) (k : Nat) (hk1 : 1 ≤ k) (hk2 : k ≤ 11)
    (order : List (Int × Rat)) (hp : (rows k).Perm (order.map (fun r => (r.1, some r.2))))
    (hord : order.Pairwise (fun x y => x.1 < y.1)) (h2 : 2 ≤ order.length)
    (ms : List Measurement) (msp : Rat) (g : Rat → Rat) (hlim : LimitedBy ms ("power", if k = 1 then "apparent" else "active") g)
    (x y : Option Int) (inside : List (Int × Rat)) (hin : inside = order.filter (fun r => between x y r.1)) (cs : Int) (hcs : 0 < cs) :
    ∃ st', convertHipe sort true false (some dir) st = (st', none) ∧
      meterTotalEnergy (st' (meterKey 1 k)) ms msp (mk' x y) none cs =
        .ok (if inside.length < 2 then []
          else [(if k = 1 then .apparent else .active, kwhOf msp (inside.map (fun r => (r.1, g (|r.2| * 1000)))))]) := by
  obtain ⟨st', e1, e2, -⟩ := C99_hipe hs dir rows h st
  refine ⟨st', e1, ?_⟩
  obtain ⟨⟨tc, tr⟩, g1, g2, g3, g4⟩ := e2 k hk1 hk2
  simp only at g2 g3 g4
  rw [g1, g2]
  have hperm : tr.Perm ((order.map (fun r => (r.1, |r.2| * 1000))).map (fun r => (r.1, some r.2))) := by
    refine g3.trans ?_
    have := hp.map (fun r : Int × Option Rat => (r.1, r.2.map (fun x => |x| * 1000)))
    rw [List.map_map] at this ⊢
    exact this
  rw [energy_of_sorted (by by_cases hk : k = 1 <;> simp [hk]) hperm g4 (by rw [List.pairwise_map]; exact hord)
    (by rw [List.length_map]; exact h2) ms msp g hlim x y cs hcs]
  have hfil : (order.map (fun r => (r.1, |r.2| * 1000))).filter (fun r => between x y r.1) = inside.map (fun r => (r.1, |r.2| * 1000)) := by
    rw [List.filter_map, hin]; rfl
  rw [hfil, List.length_map, List.map_map, show acNamed (if k = 1 then "apparent" else "active") = if k = 1 then .apparent else .active by
    by_cases hk : k = 1 <;> simp [hk, acNamed]]
  rfl

/-! ### Examples and counterexamples -/

/-- Sorting by time that keeps the order of rows with the same time. -/
def sortWide {β : Type} (l : List (Int × β)) : List (Int × β) := l.insertionSort (fun a b => a.1 ≤ b.1)

theorem sortWide_sorts {β : Type} : SortsByTime (sortWide (β := β)) := by
  have ht : IsTrans (Int × β) (fun a b => a.1 ≤ b.1) := ⟨fun _ _ _ h1 h2 => le_trans h1 h2⟩
  have htot : Std.Total (fun a b : Int × β => a.1 ≤ b.1) := ⟨fun a b => le_total a.1 b.1⟩
  exact ⟨fun l => List.perm_insertionSort _ l, fun l => List.pairwise_insertionSort _ l,
    fun l h => List.Pairwise.insertionSort_eq h⟩

/-- A file in which house 15 draws 60 W from second 40 to second 100; its lines are not in the order of time. -/
def exampleHouse : WideFile (Option Rat) :=
  ⟨"Time" :: "Unix" :: refitColumns ++ ["Issues"], [(100, fun _ => some 7), (40, fun c => if c = "Aggregate" then some 60 else some 0)]⟩

example : ∃ st', convertRefit sortWide true (some (fun name => if name = "House_1.csv".toList then none else some exampleHouse)) (fun _ => none) =
      (st', none) ∧
    meterTotalEnergy (st' (meterKey 14 1)) [⟨"power", some "active", some 0, some 5000⟩] 120 (mk' none none) none 1000 =
      .ok [(.active, 1 / 1000)] := by
  have hname : ∀ h, houseFile true h ≠ "House_1.csv".toList := by
    intro h he
    rw [← refitName_eq] at he
    unfold refitName at he
    have := congrArg (fun l => l.head?) he
    simp at this
  obtain ⟨st', e1, e2⟩ := C122_refit_partial sortWide_sorts (fun name => if name = "House_1.csv".toList then none else some exampleHouse) true
    ⟨fun _ => if_pos rfl, fun _ => rfl⟩
    (fun h _ _ _ => ⟨exampleHouse, if_neg (hname h), ⟨by decide, by decide, by decide⟩, by decide⟩) (fun _ => none)
    15 (by decide) (by decide) (by decide) exampleHouse (if_neg (hname 15)) 0 "Aggregate" rfl [(40, 60), (100, 7)] (List.Perm.swap _ _ _)
    (by decide) (by decide) [⟨"power", some "active", some 0, some 5000⟩] 120 (fun v => max 0 (min v 5000))
    ⟨[], _, [], rfl, by simp, rfl, rfl, .inl ⟨0, 5000, rfl, rfl, by norm_num, fun _ => rfl⟩⟩ none none _ rfl 1000 (by decide)
  refine ⟨st', e1, e2.trans ?_⟩
  decide +kernel

example : ∃ st', convertDred sortWide true (some ([none, none, none] ++
      [(5000000000, List.replicate 13 (some (3 : Rat))), (4000000000, [some 36, some 1])].map some)) (fun _ => none) = (st', none) ∧
    meterTotalEnergy (st' (meterKey 1 1)) [⟨"power", some "apparent", none, none⟩] 1 (mk' none none) none 1000 =
      .ok [(.apparent, 1 / 100000)] := by
  obtain ⟨st', e1, e2⟩ := C122_dred_partial sortWide_sorts [none, none, none] rfl (5000000000, List.replicate 13 (some (3 : Rat)))
    [(4000000000, [some 36, some 1])] rfl (by decide) (fun _ => none) 0 (by decide) [(4000000000, 36), (5000000000, 3)]
    (List.Perm.swap _ _ _) (by decide) (by decide) [⟨"power", some "apparent", none, none⟩] 1 (fun v => v)
    ⟨[], _, [], rfl, by simp, rfl, rfl, .inr ⟨.inl rfl, fun _ => rfl⟩⟩ none none _ rfl 1000 (by decide)
  refine ⟨st', e1, e2.trans ?_⟩
  decide +kernel

/-- A directory of HIPE in which every machine draws 20 kW from second 0 to second 5. -/
def exampleFactory : List (Str × HipeFile) :=
  hipeMeters.map (fun m => (m.toList ++ "_PhaseCount_3.csv".toList, some [(5000000000, some (-20)), (0, some 20)]))

theorem exampleFactory_files (k : Nat) (m : String) (h : hipeMeters[k]? = some m) :
    FirstFile exampleFactory m (some [(5000000000, some (-20)), (0, some 20)]) := by
  have hk : k < 11 := (List.getElem?_eq_some_iff.1 h).1
  refine ⟨(hipeMeters.take k).map (fun m => (m.toList ++ "_PhaseCount_3.csv".toList, some [(5000000000, some (-20)), (0, some 20)])), _,
    (hipeMeters.drop (k + 1)).map (fun m => (m.toList ++ "_PhaseCount_3.csv".toList, some [(5000000000, some (-20)), (0, some 20)])), ?_,
    ⟨"_PhaseCount_3".toList, rfl⟩, ?_⟩
  · have hsplit : hipeMeters = hipeMeters.take k ++ m :: hipeMeters.drop (k + 1) := by
      conv => lhs; rw [← List.take_append_drop k hipeMeters]
      congr 1
      rw [List.drop_eq_getElem_cons hk]
      congr 1
      rw [List.getElem?_eq_getElem hk] at h
      exact Option.some.inj h
    unfold exampleFactory
    conv => lhs; rw [hsplit]
    rw [List.map_append, List.map_cons, List.append_assoc]
    rfl
  · intro e he
    rw [← hipeGlob_iff]
    obtain ⟨n, hn, rfl⟩ := List.mem_map.1 he
    have hall : ∀ k < 11, ∀ n ∈ hipeMeters.take k, ¬ ((hipeMeters.getD k "").toList.isPrefixOf (n.toList ++ "_PhaseCount_3.csv".toList) &&
        ".csv".toList.isSuffixOf ((n.toList ++ "_PhaseCount_3.csv".toList).drop (hipeMeters.getD k "").toList.length)) = true := by
      decide +kernel
    have := hall k hk n hn
    rw [List.getD_eq_getElem?_getD, h] at this
    exact this

/-- C122, negation for limits: the device that HIPE's metadata give to the mains of the factory (at most 5000 VA) makes 20 kW count
as 5 kW. -/
theorem C122_limit_counterexample : ∃ st', convertHipe sortWide true false (some exampleFactory) (fun _ => none) = (st', none) ∧
    meterTotalEnergy (st' (meterKey 1 1)) [⟨"power", some "apparent", some 0, some 5000⟩] 50 (mk' none none) none 1000 =
      .ok [(.apparent, 5000 * 5 / 3600000)] ∧ (5000 * 5 / 3600000 : Rat) ≠ 20000 * 5 / 3600000 := by
  obtain ⟨st', e1, e2⟩ := C122_hipe_partial sortWide_sorts exampleFactory (fun _ => [(5000000000, some (-20)), (0, some 20)]) exampleFactory_files
    (fun _ => none) 1 (by decide) (by decide) [(0, 20), (5000000000, -20)] (List.Perm.swap _ _ _) (by decide) (by decide)
    [⟨"power", some "apparent", some 0, some 5000⟩] 50 (fun v => max 0 (min v 5000))
    ⟨[], _, [], rfl, by simp, rfl, rfl, .inl ⟨0, 5000, rfl, rfl, by norm_num, fun _ => rfl⟩⟩ none none _ rfl 1000 (by decide)
  refine ⟨st', e1, e2.trans ?_, by norm_num⟩
  decide +kernel

end Nilmtk
