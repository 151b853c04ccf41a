import Verif.Props.Key
import Verif.Props.Resample
import Verif.Props.FHMMTrain
import Verif.Props.HartDisagg
import Verif.Props.Convert
import Verif.Props.Labels
import Verif.Props.Experiment
/-!
What is refused, and with which exception: keys (C37), resampling (C76), training the FHMM (C87), matching by Hart (C84), copying to
and from CSV (C39), labels (C107) and testing without ground truth (C71).
-/
namespace Nilmtk

/-! ### Keys -/

theorem splitSlash_head_prefix (s : Str) : (splitSlash s).headD [] <+: s := by
  induction s with
  | nil => exact List.prefix_refl _
  | cons c s ih =>
    rw [splitSlash]
    by_cases hc : c = '/'
    · rw [if_pos hc]; exact List.nil_prefix
    · rw [if_neg hc]
      cases hs : splitSlash s with
      | nil => exact absurd hs (splitSlash_ne_nil s)
      | cons p ps =>
        rw [hs] at ih
        simp only [List.headD_cons] at ih ⊢
        exact (List.cons_prefix_cons).2 ⟨rfl, ih⟩

theorem stripSlash_prefix (t : Str) (ht : t.head? ≠ some '/') : stripSlash t <+: t := by
  unfold stripSlash
  have h1 : t.dropWhile (· == '/') = t := by
    cases t with
    | nil => rfl
    | cons c t =>
      rw [List.dropWhile_cons_of_neg]
      simpa using ht
  rw [h1]
  conv => rhs; rw [← List.reverse_reverse t]
  rw [List.reverse_prefix]
  exact List.dropWhile_suffix _

/-- C37. A text that does not begin, behind any slashes, with `building` is an AssertionError. -/
theorem C37_rejects_building (n : Nat) (t : Str) (h : ¬ "building".toList <+: t) (hs : t.head? ≠ some '/') :
    Key.parse (List.replicate n '/' ++ t) = .error .assertionError := by
  have hst : stripSlash (List.replicate n '/' ++ t) = stripSlash t := by
    induction n with
    | zero => rfl
    | succ n ih => rw [List.replicate_succ, List.cons_append, stripSlash_cons, ih]
  unfold Key.parse
  simp only [hst]
  rw [if_neg]
  intro hp
  rw [List.isPrefixOf_iff_prefix] at hp
  exact h ((hp.trans (splitSlash_head_prefix _)).trans (stripSlash_prefix t hs))

/-- C37. A key of three parts `building<t>/<u>/<m>` where `t` is the number `n`: if `m` does not begin with `meter` it is an
AssertionError, if it is `meter` followed by no number a ValueError, and if it is followed by a number it is accepted exactly if both
numbers are at least 1 (otherwise an AssertionError). -/
theorem C37_three_parts (t u m : Str) (n : Int) (ht : '/' ∉ t) (hb : 'b' ∉ t) (hn : IntText t n) (hu : '/' ∉ u) (hm : '/' ∉ m) (hm0 : m ≠ []) :
    (¬ "meter".toList <+: m → Key.parse ("building".toList ++ t ++ '/' :: (u ++ '/' :: m)) = .error .assertionError) ∧
    (∀ w, m = "meter".toList ++ w → 'm' ∉ w →
      ((∀ k, ¬ IntText w k) → Key.parse ("building".toList ++ t ++ '/' :: (u ++ '/' :: m)) = .error .valueError) ∧
      (∀ k, IntText w k → (1 ≤ n ∧ 1 ≤ k → Key.parse ("building".toList ++ t ++ '/' :: (u ++ '/' :: m)) = .ok ⟨n, some k, some u⟩) ∧
        (¬ (1 ≤ n ∧ 1 ≤ k) → Key.parse ("building".toList ++ t ++ '/' :: (u ++ '/' :: m)) = .error .assertionError))) := by
  have hns : '/' ∉ "building".toList ++ t := by
    intro h
    rcases List.mem_append.1 h with h | h
    · exact absurd h (by decide)
    · exact ht h
  have hsplit : splitSlash (stripSlash ("building".toList ++ t ++ '/' :: (u ++ '/' :: m))) = ["building".toList ++ t, u, m] := by
    rw [stripSlash_eq_self, splitSlash_append, splitSlash_append, splitSlash_no_slash _ hns, splitSlash_no_slash _ hu, splitSlash_no_slash _ hm]
    · rfl
    · intro h; exact absurd (Option.some.inj h) (by decide)
    · intro h
      have : m.getLast? = some '/' := by
        rw [← h]
        rw [show "building".toList ++ t ++ '/' :: (u ++ '/' :: m) = ("building".toList ++ t ++ '/' :: (u ++ ['/'])) ++ m by simp,
          List.getLast?_append, List.getLast?_eq_some_getLast hm0]
        rfl
      exact hm (List.mem_of_getLast? this)
  have hrem : removeAll "building".toList ("building".toList ++ t) = t := by
    rw [show "building".toList = 'b' :: ['u', 'i', 'l', 'd', 'i', 'n', 'g'] from rfl, removeAll_prefix _ _ _ hb]
  have hpre : "building".toList.isPrefixOf ("building".toList ++ t) = true := by
    rw [List.isPrefixOf_iff_prefix]
    exact List.prefix_append _ _
  have hint := (C37_numbers t n).2 hn
  have hparse : Key.parse ("building".toList ++ t ++ '/' :: (u ++ '/' :: m)) =
      (match parseMeter ["building".toList ++ t, u, m] with
      | .error e => .error e
      | .ok m' =>
        match Key.check ⟨n, m', some u⟩ with
        | .error e => .error e
        | .ok () => .ok ⟨n, m', some u⟩) := by
    unfold Key.parse
    simp only [hsplit, List.headD_cons, hpre, if_true, hrem, hint]
    rfl
  refine ⟨fun h => ?_, fun w hw hmw => ?_⟩
  · rw [hparse, parseMeter, if_neg (by rw [List.isPrefixOf_iff_prefix]; exact h)]
  · have hpm : parseMeter ["building".toList ++ t, u, m] =
        (match pyInt w with
        | none => .error .valueError
        | some i => .ok (some i)) := by
      rw [parseMeter, if_pos (by rw [List.isPrefixOf_iff_prefix, hw]; exact List.prefix_append _ _), hw,
        show "meter".toList = 'm' :: ['e', 't', 'e', 'r'] from rfl, removeAll_prefix _ _ _ hmw]
      rfl
    rw [hparse, hpm]
    constructor
    · intro h
      cases hp : pyInt w with
      | none => rfl
      | some k => exact absurd ((C37_numbers w k).1 hp) (h k)
    · intro k hk
      rw [(C37_numbers w k).2 hk]
      simp only [Key.check, Option.some.injEq, forall_eq', ge_iff_le]
      constructor
      · intro h; rw [if_pos h]
      · intro h; rw [if_neg h]

/-- C37. `building` followed by something that is no number is a ValueError, and followed by a number below 1 an AssertionError. -/
theorem C37_rejects_number (t : Str) (ht : '/' ∉ t) (hb : 'b' ∉ t) :
    ((∀ n, ¬ IntText t n) → Key.parse ("building".toList ++ t) = .error .valueError) ∧
    (∀ n, IntText t n → n < 1 → Key.parse ("building".toList ++ t) = .error .assertionError) := by
  have hns : '/' ∉ "building".toList ++ t := by
    intro h
    rcases List.mem_append.1 h with h | h
    · exact absurd h (by decide)
    · exact ht h
  have hsplit : splitSlash (stripSlash ("building".toList ++ t)) = ["building".toList ++ t] := by
    rw [stripSlash_eq_self, splitSlash_no_slash _ hns]
    · intro h; exact hns (List.mem_of_head? h)
    · intro h; exact hns (List.mem_of_getLast? h)
  have hrem : removeAll "building".toList ("building".toList ++ t) = t := by
    rw [show "building".toList = 'b' :: ['u', 'i', 'l', 'd', 'i', 'n', 'g'] from rfl, removeAll_prefix _ _ _ hb]
  have hpre : "building".toList.isPrefixOf ("building".toList ++ t) = true := by
    rw [List.isPrefixOf_iff_prefix]
    exact List.prefix_append _ _
  constructor
  · intro h
    unfold Key.parse
    simp only [hsplit, List.headD_cons, hpre, if_true, hrem]
    cases hp : pyInt t with
    | none => rfl
    | some k => exact absurd ((C37_numbers t k).1 hp) (h k)
  · intro n hn h1
    unfold Key.parse
    simp only [hsplit, List.headD_cons, hpre, if_true, hrem, (C37_numbers t n).2 hn, parseMeter, Key.check]
    rw [if_neg (by simp; omega)]

example : Key.parse "//house1/elec/meter1".toList = .error .assertionError :=
  C37_rejects_building 2 "house1/elec/meter1".toList (by decide) (by decide)
example : Key.parse "building1/elec/cache".toList = .error .assertionError :=
  (C37_three_parts "1".toList "elec".toList "cache".toList 1 (by decide) (by decide) ((C37_numbers _ _).1 (by decide)) (by decide)
    (by decide) (by decide)).1 (by decide)
example : Key.parse "building1/elec/meterX".toList = .error .valueError := by decide +kernel
example : Key.parse "buildingX".toList = .error .valueError := by decide +kernel

/-! ### Resampling -/

/-- C76. What `load` refuses when it resamples: a sample period of 0 is a ZeroDivisionError, a limit that would be negative a
ValueError, and for rows that are not empty a rule that rounds to 0 or less and a limit of 0 with forward filling are ValueErrors. -/
theorem C76_refused (d : Device) (sp : Rat) (how : Option How) (rows : CorChunk) (hne : rows ≠ []) :
    (sp = 0 → loadColumn false d ⟨some sp, none, ⟨how, none, none⟩⟩ rows = .error .zeroDivisionError) ∧
    (sp ≠ 0 → d.maxSamplePeriod / sp ≤ -1 → loadColumn false d ⟨some sp, none, ⟨how, none, none⟩⟩ rows = .error .valueError) ∧
    (∀ fill limit, roundEven sp ≤ 0 → loadColumn false d ⟨some sp, none, ⟨how, fill, some limit⟩⟩ rows = .error .valueError) ∧
    (0 < roundEven sp → loadColumn false d ⟨some sp, none, ⟨how, none, some (some 0)⟩⟩ rows = .error .valueError) ∧
    (0 < roundEven sp → loadColumn false d ⟨some sp, none, ⟨how, some .ffill, some (some 0)⟩⟩ rows = .error .valueError) := by
  obtain ⟨p, rest, rfl⟩ := List.exists_cons_of_ne_nil hne
  have hk : keepFirst [] (p :: rest) = p :: keepFirst [p.1] rest := by
    rw [keepFirst, if_neg (by simp)]
  refine ⟨?_, ?_, ?_, ?_, ?_⟩
  · rintro rfl
    rfl
  · intro h0 h1
    have hc : ⌈d.maxSamplePeriod / sp⌉ < 0 := by
      have : ⌈d.maxSamplePeriod / sp⌉ ≤ -1 := Int.ceil_le.2 (by push_cast; exact h1)
      omega
    simp only [loadColumn, LoadKw.on, Option.isSome_some, if_true, fillDefaults, Option.getD_some, if_neg h0, if_pos hc]
  · intro fill limit h
    have hr : roundEven sp * 1000000000 ≤ 0 := by omega
    have hc : ∀ (k : LoadKw), k.samplePeriod = some sp → ∀ how fill limit p rest, resampleChain (k.rule d) how fill limit p rest = .error .valueError := by
      intro k hk' how fill limit p rest
      unfold resampleChain
      rw [if_pos (by unfold LoadKw.rule; rw [hk']; exact hr)]
    simp only [loadColumn, LoadKw.on, Option.isSome_some, if_true, fillDefaults, safeResample, hk, hc, Bool.false_eq_true, if_false]
  · intro h
    have hr : ¬ roundEven sp * 1000000000 ≤ 0 := by omega
    simp only [loadColumn, LoadKw.on, Option.isSome_some, if_true, fillDefaults, Option.getD_some, Option.getD_none, LoadKw.rule,
      safeResample, hk, resampleChain, if_neg hr, Bool.false_eq_true, if_false, fillGaps]
  · intro h
    have hr : ¬ roundEven sp * 1000000000 ≤ 0 := by omega
    simp only [loadColumn, LoadKw.on, Option.isSome_some, if_true, fillDefaults, Option.getD_some, LoadKw.rule,
      safeResample, hk, resampleChain, if_neg hr, Bool.false_eq_true, if_false, fillGaps]

example : loadColumn false ⟨1, 30⟩ ⟨some 0, none, ⟨none, none, none⟩⟩ [(0, some 5)] = .error .zeroDivisionError :=
  (C76_refused ⟨1, 30⟩ 0 none [(0, some 5)] (by decide)).1 rfl

/-! ### Training the FHMM -/

/-- C87. Training with no frame of the mains, or with an appliance that has no frame, is a ValueError. -/
theorem C87_no_frames {γ : Type} (lib : HmmLib γ) (num : Int) (self : Fhmm γ) (apps : List (String × List (List (Option Rat)))) :
    fhmmPartialFit lib num self [] apps = .error .valueError ∧
    ∀ main, (∃ a ∈ apps, a.2 = []) → fhmmPartialFit lib num self main apps = .error .valueError := by
  refine ⟨rfl, fun main h => ?_⟩
  have hm : mapE (fun a : String × List (List (Option Rat)) => (fhmmConcat a.2).map (fun xs => (a.1, xs))) apps = .error .valueError := by
    induction apps with
    | nil => obtain ⟨a, ha, _⟩ := h; exact absurd ha (by simp)
    | cons b apps ih =>
      obtain ⟨a, ha, hx⟩ := h
      rw [mapE]
      by_cases hb : b.2 = []
      · rw [hb]; rfl
      · have e : fhmmConcat b.2 = .ok b.2.flatten := by unfold fhmmConcat; rw [if_neg hb]
        rw [e]
        have := ih ⟨a, by
          rcases List.mem_cons.1 ha with rfl | ha
          · exact absurd hx hb
          · exact ha, hx⟩
        simp only [Except.map] at this ⊢
        rw [this]
  unfold fhmmPartialFit
  rw [hm]
  by_cases hx : main = []
  · rw [hx]; rfl
  · have e : fhmmConcat main = .ok main.flatten := by unfold fhmmConcat; rw [if_neg hx]
    rw [e]

/-! ### Hart -/

/-- C84. An appliance without readings, an empty signal and a model without devices are ValueErrors. -/
theorem C84_no_match (n : Nat) (traces : List (List Int)) (gt : List Rat) :
    minRmseColumn n traces [] = .error .valueError ∧ minRmseColumn 0 traces gt = .error .valueError ∧
    minRmseColumn n [] gt = .error .valueError := by
  have hnil : ∀ cs : List (List Int), (match allMse [] cs with
      | .error e => .error e
      | .ok l => idxMin l : Except Err Nat) = .error .valueError := by
    intro cs
    cases cs with
    | nil => rfl
    | cons c cs => simp only [allMse, traceMse, or_true, if_true]
  refine ⟨?_, ?_, ?_⟩
  · unfold minRmseColumn
    simp only [List.length_nil, Nat.not_lt_zero, if_false]
    exact hnil _
  · unfold minRmseColumn
    have : (if 0 < gt.length then gt.take 0 else gt) = [] := by
      split
      · rfl
      · exact List.length_eq_zero_iff.1 (by omega)
    simp only [this]
    exact hnil _
  · unfold minRmseColumn
    have : (if gt.length < n then ([] : List (List Int)).map (fun c => c.take gt.length) else []) = [] := by split <;> rfl
    simp only [this]
    rfl

/-- C84. A trace that is neither as long as the signal nor cut to the readings is a ValueError. -/
theorem C84_wrong_length (n : Nat) (c : List Int) (cs : List (List Int)) (gt : List Rat) (h1 : n ≤ gt.length) (h2 : c.length ≠ n) :
    minRmseColumn n (c :: cs) gt = .error .valueError := by
  unfold minRmseColumn
  rw [if_neg (by omega)]
  have hl : (if n < gt.length then gt.take n else gt).length = n := by
    split
    · rw [List.length_take]; omega
    · omega
  simp only [allMse]
  rw [traceMse, if_pos (.inl (by rw [hl]; exact h2))]

example : minRmseColumn 2 [[1, 2, 3]] [4, 5] = .error .valueError := C84_wrong_length 2 _ [] _ (by decide) (by decide)

/-! ### Copying to and from CSV -/

/-- C39. Copying a store whose metadata do not describe the meter devices to CSV is a KeyError, and nothing is written. -/
theorem C39_no_devices {M α : Type} (i : InStore M α) (hasDevices : M → Bool) (s : CsvOut M α) (m : M)
    (h1 : i.loadMetadata ['/'] = .ok m) (h2 : hasDevices m = false) :
    convertDatastore i (csvOut hasDevices) s = (s, some .keyError) := by
  unfold convertDatastore csvOut csvSaveMetadata
  simp only [h1, if_true, h2, Bool.false_eq_true, if_false]

/-- C39. From a CSV store whose directory has no directory with a name that begins with `building` only the metadata of the data set are
copied. -/
theorem C39_csv_no_building {σ M α : Type} (t : CsvTree M α) (o : OutStore σ M α) (s s' : σ) (m : M) (l : List Str)
    (h1 : t.metadata ['/'] = .ok m) (h2 : o.saveMetadata s ['/'] m = .ok s') (h3 : t.listing [] = some l)
    (h4 : ∀ d ∈ l, t.listing d = none ∨ ¬ "building".toList <+: d) :
    convertDatastore (csvIn t) o s = (s', none) := by
  have he : (csvIn t).elementsBelowKey ['/'] = .ok [] := by
    unfold csvIn csvElementsBelowKey
    simp only [if_true, h3, Option.getD_some]
    rw [List.filter_eq_nil_iff.2]
    intro d hd
    rcases h4 d hd with h | h
    · simp [h]
    · have : looksLikeBuilding d = false := by
        unfold looksLikeBuilding
        rw [Bool.eq_false_iff]
        intro hp
        exact h (List.isPrefixOf_iff_prefix.1 hp)
      simp [this]
  have hm : (csvIn t).loadMetadata ['/'] = .ok m := h1
  unfold convertDatastore
  simp only [hm, h2, he, convertBuildings]

example : convertDatastore (csvIn (⟨fun _ => .ok 7, fun d => if d = [] then some ["building1".toList, "data".toList] else
    if d = "data".toList then some [] else none, fun _ => ⟨[], none⟩⟩ : CsvTree Nat Nat)) hdfOut ⟨[], []⟩ = (⟨[(['/'], 7)], []⟩, none) :=
  C39_csv_no_building _ _ _ _ 7 _ rfl rfl rfl (by decide)

/-! ### Labels -/

/-- C107. The long label of a meter whose name is null is a TypeError, unless it is a site meter. -/
theorem C107_null_name (m : LabMeter) (hn : m.name = some none) :
    m.label (some false) = if m.site then .ok "SITE METER".toList else .error .typeError := by
  unfold LabMeter.label LabMeter.longLabel
  rw [hn]
  rfl

/-! ### Testing without ground truth -/

/-- C71. Without ground truth (`site_only`) the method gets the rows of the mains without NaN, or all rows if NaNs are kept: if it fails on
them, the test fails. -/
theorem C71_site_only_fails {ρ : Type} (cfg : ExpCfg ρ) (hs : cfg.siteOnly = true) (b : ExpBuilding) (hu : UniqueIndex b.mains)
    (name : String) (clf : Method) (rest : List (String × Method)) (hm : cfg.methods = (name, clf) :: rest) (st : ExpState ρ) (e : Err) :
    (cfg.dropAllNans = true → clf (b.mains.filter (fun r => decide (none ∉ r.2))) = .error e → testJointly cfg [b] st = .error e) ∧
    (cfg.dropAllNans = false → clf b.mains = .error e → testJointly cfg [b] st = .error e) := by
  have hcall : ∀ m, clf m = .error e → callPredict cfg b.key m st = .error e := by
    intro m h
    unfold callPredict
    rw [hm]
    simp only [predictAll, apiPredict, h]
  have hd : b.mains.filter (fun r => decide (none ∉ r.2)) = b.mains.dropna := by
    unfold RowFrame.dropna
    congr 1
    funext r
    rw [Bool.eq_iff_iff, decide_eq_true_iff, List.all_eq_true]
    constructor
    · intro h x hx
      cases x with
      | none => exact absurd hx h
      | some v => rfl
    · intro h hx
      exact absurd (h none hx) (by simp)
  constructor
  · intro h1 h2
    rw [hd] at h2
    have hdrop : apiDropna b.mains [] = .ok (b.mains.dropna, [], []) := by
      rw [apiDropna_eq b.mains [] hu]
      simp only [List.map_nil, intersectAll, loc_self (dropna_unique hu), locAll]
    simp only [testJointly, testBuilding, hs, h1, if_true, hdrop, hcall _ h2]
  · intro h1 h2
    simp only [testJointly, testBuilding, hs, h1, if_true, Bool.false_eq_true, if_false, hcall _ h2]

/-- A method that refuses NaN. -/
def refusesNan : Method := fun m => if m.all (fun r => r.2.all Option.isSome) then .ok [] else .error .valueError

example : testJointly (⟨["fridge"], [("A", refusesNan)], [], fun _ => none, false, false, true⟩ : ExpCfg Rat)
    [⟨"d_1", [(0, [some 1]), (5, [none])], fun _ => .error .keyError⟩] ⟨[], [], []⟩ = .error .valueError :=
  (C71_site_only_fails _ rfl _ (by unfold UniqueIndex; decide) "A" refusesNan [] rfl _ _).2 rfl (by decide +kernel)

end Nilmtk
