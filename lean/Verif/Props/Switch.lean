import Verif.Model.Switch
import Verif.Props.HDF
import Verif.Props.CSV
import Verif.Props.Group
/-!
C75: switch times are the places where successive readings differ by more than the threshold, for any chunk size of an HDF
store; simultaneous switches count the submeters that switch at the same instant.
-/
namespace Nilmtk
open TF

/-- Specification: readings `i` and `i + 1` both exist and differ by more than the threshold. -/
def jumpAt (threshold : Rat) (c : CorChunk) (i : Nat) : Bool :=
  match c[i]?, c[i + 1]? with
  | some (_, some v), some (_, some w) => decide (threshold < |w - v|)
  | _, _ => false

/-- Specification: the timestamps of the readings that differ from the one before by more than the threshold, in order. -/
def jumps (threshold : Rat) (c : CorChunk) : List Int :=
  ((List.range (c.length - 1)).filter (jumpAt threshold c)).map (fun i : Nat => (c.getD (i + 1) (0, none)).1)

/-- Whether the second of two rows is a switch. -/
def jump2 (threshold : Rat) (a b : Int × Option Rat) : List Int :=
  match a.2, b.2 with
  | some v, some w => if threshold < |w - v| then [b.1] else []
  | _, _ => []

theorem switches_cons2 (θ : Rat) (a b : Int × Option Rat) (c : CorChunk) :
    switchesInChunk θ (a :: b :: c) = jump2 θ a b ++ switchesInChunk θ (b :: c) := by
  obtain ⟨t, v⟩ := a
  obtain ⟨u, w⟩ := b
  cases v <;> cases w <;>
    simp [switchesInChunk, absSeries, diffPrev, overThreshold, jump2, List.filter_cons]
  split <;> simp

theorem switches_single (θ : Rat) (a : Int × Option Rat) : switchesInChunk θ [a] = [] := by
  obtain ⟨t, v⟩ := a
  cases v <;> simp [switchesInChunk, absSeries, diffPrev, overThreshold]

theorem jumps_cons2 (θ : Rat) (a b : Int × Option Rat) (c : CorChunk) :
    jumps θ (a :: b :: c) = jump2 θ a b ++ jumps θ (b :: c) := by
  have e : (a :: b :: c).length - 1 = (b :: c).length - 1 + 1 := by simp
  have e2 : (jumpAt θ (a :: b :: c)) ∘ Nat.succ = jumpAt θ (b :: c) := by
    funext i; simp [jumpAt]
  unfold jumps
  rw [e, List.range_succ_eq_map, List.filter_cons, List.filter_map, e2]
  obtain ⟨t, v⟩ := a
  obtain ⟨u, w⟩ := b
  have e3 : jumpAt θ ((t, v) :: (u, w) :: c) 0 = !(jump2 θ (t, v) (u, w)).isEmpty := by
    cases v <;> cases w <;> simp [jumpAt, jump2]
    split <;> simp_all
  rw [e3]
  cases v <;> cases w <;> simp [jump2, List.map_map, Function.comp_def]
  split <;> simp

/-- C75: within a chunk, the switches are exactly the jumps, in order. -/
theorem C75_chunk (threshold : Rat) (c : CorChunk) : switchesInChunk threshold c = jumps threshold c := by
  induction c with
  | nil => simp [switchesInChunk, absSeries, diffPrev, jumps]
  | cons a c ih =>
    cases c with
    | nil => rw [switches_single]; simp [jumps]
    | cons b c => rw [switches_cons2, jumps_cons2, ih]

theorem jumps_append (θ : Rat) (c : CorChunk) (r : Int × Option Rat) (d : CorChunk) :
    jumps θ (c ++ r :: d) = jumps θ (c ++ [r]) ++ jumps θ (r :: d) := by
  induction c with
  | nil => simp [jumps]
  | cons a c ih =>
    cases c with
    | nil =>
      simp only [List.cons_append, List.nil_append, jumps_cons2]
      rw [show jumps θ [r] = [] by simp [jumps]]; simp
    | cons b c =>
      simp only [List.cons_append] at ih ⊢
      rw [jumps_cons2, jumps_cons2, ih, List.append_assoc]

/-- C75: cutting a series into chunks that do not share a row loses the switch at the cut and nothing else. -/
theorem C75_cut (threshold : Rat) (c d : CorChunk) (a b : Int × Option Rat) :
    jumps threshold ((c ++ [a]) ++ (b :: d)) =
      jumps threshold (c ++ [a]) ++ jump2 threshold a b ++ jumps threshold (b :: d) := by
  rw [List.append_assoc, List.singleton_append, jumps_append, jumps_cons2, List.append_assoc]

/-- Specification: each chunk is not empty and starts with the last row of the chunk before. -/
def SharedRows (cs : List CorChunk) : Prop :=
  Consecutive (fun c d => ∃ r, c.getLast? = some r ∧ d.head? = some r) cs

/-- C75: when chunks share a row, the switches are those of the whole series. -/
theorem C75_overlap (threshold : Rat) (cs : List CorChunk) (h : SharedRows cs) (hne : ∀ c ∈ cs, c ≠ []) :
    switchTimes threshold cs = jumps threshold (joinOverlapping cs) := by
  unfold SharedRows at h
  induction h with
  | nil => simp [switchTimes, joinOverlapping, jumps]
  | single a => simp [switchTimes, joinOverlapping, C75_chunk]
  | cons a b l hab h ih =>
    have ih := ih (fun c hc => hne c (List.mem_cons_of_mem _ hc))
    obtain ⟨r, h1, h2⟩ := hab
    obtain ⟨c, hc⟩ : ∃ c, a = c ++ [r] := by
      have := List.dropLast_append_getLast? r h1
      exact ⟨_, this.symm⟩
    obtain ⟨d, hd⟩ : ∃ d, b = r :: d := by
      cases b with
      | nil => simp at h2
      | cons x d => simp at h2; exact ⟨d, by rw [h2]⟩
    subst hc hd
    have e : switchTimes threshold ((c ++ [r]) :: (r :: d) :: l) =
        switchesInChunk threshold (c ++ [r]) ++ switchTimes threshold ((r :: d) :: l) := by
      simp [switchTimes]
    rw [e, ih, C75_chunk]
    simp only [joinOverlapping, List.map_cons, List.tail_cons, List.flatten_cons, List.append_assoc, List.cons_append,
      List.nil_append]
    exact (jumps_append threshold c r _).symm

theorem jumps_short (θ : Rat) (c : CorChunk) (h : c.length ≤ 1) : jumps θ c = [] := by
  unfold jumps
  rw [show c.length - 1 = 0 by omega]; rfl

/-- C75: a section loaded from an HDF store, in chunks of any size: the switches of the section. -/
theorem C75_hdf (threshold : Rat) (table : CorChunk) (hinc : Increasing table) (window sec : TF) (nLook cs : Int)
    (hcs : 0 < cs) (p : Int → Bool) (hp : ∀ t, p t = true ↔ Mem t (window.intersection sec)) :
    switchTimes threshold ((loadSection (some table) window nLook cs sec).1.out.map Chunk.rows) =
      jumps threshold (table.filter (fun r => p r.1)) := by
  rcases Nat.lt_or_ge (table.filter (fun r => p r.1)).length 2 with h | h
  · rw [jumps_short _ _ (by omega)]
    rcases loadSection_cases table hinc window sec nLook cs hcs p hp with h' | h' | ⟨a, b, _, h3, h4, h5, _⟩
    · obtain ⟨_, tf, h⟩ := h'; rw [h]; simp [switchTimes, switchesInChunk, absSeries, diffPrev]
    · obtain ⟨_, _, _, h6, h7⟩ := h'
      generalize (loadSection (some table) window nLook cs sec).1.out = out at h6 h7
      match out, h6 with
      | [], _ => rfl
      | [c], _ =>
        simp [joinOverlapping] at h7
        simp [switchTimes, h7, switchesInChunk, absSeries, diffPrev]
    · rw [← h3, select_length] at h; omega
  · obtain ⟨_, h2, h3⟩ := C13_chunk_sizes_and_overlap table hinc window sec nLook cs hcs p hp h
    rw [← C12_section_rows_partial table hinc window sec nLook cs hcs p hp (by intro h'; rw [h'] at h; omega)]
    apply C75_overlap
    · generalize (loadSection (some table) window nLook cs sec).1.out = out at h3
      clear h2
      unfold SharedRows
      induction h3 with
      | nil => exact .nil
      | single a => exact .single _
      | cons a b l hab _ ih => exact .cons _ _ _ hab ih
    · intro c hc
      obtain ⟨d, hd, rfl⟩ := List.mem_map.1 hc
      have := (h2 d hd).1
      intro h; rw [h] at this; simp at this

/-- C75: several sections loaded from an HDF store: the switches within each section. -/
theorem C75_hdf_sections (threshold : Rat) (table : CorChunk) (hinc : Increasing table) (window : TF) (secs : List TF)
    (nLook cs : Int) (hcs : 0 < cs) (p : TF → Int → Bool)
    (hp : ∀ s ∈ secs, ∀ t, p s t = true ↔ Mem t (window.intersection s))
    (hne : (hdfLoad (some table) window (some secs) nLook cs).1.err = none) :
    switchTimes threshold ((hdfLoad (some table) window (some secs) nLook cs).1.out.map Chunk.rows) =
      (secs.map (fun s => jumps threshold (table.filter (fun r => p s r.1)))).flatten := by
  have h2 := (loadSections_spec (some table) window nLook cs secs true hne).1
  have h3 : (hdfLoad (some table) window (some secs) nLook cs).1.out =
      (secs.map (fun s => (loadSection (some table) window nLook cs s).1.out)).flatten := h2
  rw [h3]
  clear h2 h3 hne
  induction secs with
  | nil => rfl
  | cons s secs ih =>
    rw [List.map_cons, List.map_cons, List.flatten_cons, List.flatten_cons, ← ih (fun s hs => hp s (List.mem_cons_of_mem _ hs)),
      ← C75_hdf threshold table hinc window s nLook cs hcs (p s) (hp s (List.mem_cons_self ..))]
    simp [switchTimes]

/-- The timestamps of the jumps are among those after the first reading, in order. -/
theorem jumps_sublist (θ : Rat) (a : Int × Option Rat) (c : CorChunk) :
    (jumps θ (a :: c)).Sublist (c.map Prod.fst) := by
  induction c generalizing a with
  | nil => simp [jumps]
  | cons b c ih =>
    rw [jumps_cons2]
    have : (jump2 θ a b).Sublist [b.1] := by
      unfold jump2
      split
      · split <;> simp
      · simp
    simpa using this.append (ih b)

/-- C75: no switch is reported twice when the timestamps increase. -/
theorem C75_once (threshold : Rat) (c : CorChunk) (h : Increasing c) : (jumps threshold c).Nodup := by
  cases c with
  | nil => simp [jumps]
  | cons a c =>
    refine (jumps_sublist threshold a c).nodup ?_
    have := (List.pairwise_cons.1 h).2
    exact (List.pairwise_map.2 (this.imp (fun h => ne_of_lt h)))

/-- The count that a counter holds. -/
theorem counterAdd_mem (t : Int) (l : List (Int × Nat)) (h : (l.map Prod.fst).Nodup) :
    ((counterAdd t l).map Prod.fst).Nodup ∧
    (∀ s, s ∈ (counterAdd t l).map Prod.fst ↔ s = t ∨ s ∈ l.map Prod.fst) ∧
    ∀ s n, (s, n) ∈ counterAdd t l ↔ (s ≠ t ∧ (s, n) ∈ l) ∨ (s = t ∧ ((t ∉ l.map Prod.fst ∧ n = 1) ∨ ∃ k, (t, k) ∈ l ∧ n = k + 1)) := by
  induction l with
  | nil =>
    refine ⟨by simp [counterAdd], by simp [counterAdd], fun s n => ?_⟩
    simp [counterAdd]
  | cons x l ih =>
    obtain ⟨s0, n0⟩ := x
    simp only [List.map_cons, List.nodup_cons] at h
    obtain ⟨i1, i2, i3⟩ := ih h.2
    by_cases e : s0 = t
    · subst e
      simp only [counterAdd, if_true]
      refine ⟨by simpa using h, by simp, fun s n => ?_⟩
      have h0 : ∀ k, (s0, k) ∉ l := fun k hk => h.1 (List.mem_map.2 ⟨_, hk, rfl⟩)
      constructor
      · intro hm
        rcases List.mem_cons.1 hm with hm | hm
        · simp only [Prod.mk.injEq] at hm
          exact Or.inr ⟨hm.1, Or.inr ⟨n0, by simp, hm.2⟩⟩
        · refine Or.inl ⟨?_, List.mem_cons_of_mem _ hm⟩
          intro e; rw [e] at hm; exact h0 _ hm
      · rintro (⟨h1, h2⟩ | ⟨rfl, h2 | ⟨k, h2, rfl⟩⟩)
        · rcases List.mem_cons.1 h2 with h2 | h2
          · simp only [Prod.mk.injEq] at h2; exact absurd h2.1 h1
          · exact List.mem_cons_of_mem _ h2
        · simp at h2
        · rcases List.mem_cons.1 h2 with h2 | h2
          · simp only [Prod.mk.injEq] at h2; rw [h2.2]; simp
          · exact absurd h2 (h0 _)
    · simp only [counterAdd, if_neg e]
      refine ⟨?_, ?_, fun s n => ?_⟩
      · simp only [List.map_cons, List.nodup_cons]
        refine ⟨?_, i1⟩
        rw [i2]; push Not; exact ⟨e, h.1⟩
      · intro s; simp only [List.map_cons, List.mem_cons, i2]; tauto
      · simp only [List.mem_cons, i3, List.map_cons, Prod.mk.injEq]
        have e' : t ≠ s0 := fun h => e h.symm
        constructor
        · rintro (⟨rfl, rfl⟩ | ⟨h1, h2⟩ | ⟨rfl, h2⟩)
          · exact Or.inl ⟨e, Or.inl ⟨rfl, rfl⟩⟩
          · exact Or.inl ⟨h1, Or.inr h2⟩
          · refine Or.inr ⟨rfl, ?_⟩
            rcases h2 with ⟨h2, h3⟩ | ⟨k, h2, h3⟩
            · left; exact ⟨by tauto, h3⟩
            · right; exact ⟨k, Or.inr h2, h3⟩
        · rintro (⟨h1, ⟨rfl, rfl⟩ | h2⟩ | ⟨rfl, h2⟩)
          · left; exact ⟨rfl, rfl⟩
          · right; left; exact ⟨h1, h2⟩
          · right; right; refine ⟨rfl, ?_⟩
            rcases h2 with ⟨h2, h3⟩ | ⟨k, h2 | h2, h3⟩
            · left; exact ⟨by tauto, h3⟩
            · exact absurd h2.1 e'
            · right; exact ⟨k, h2, h3⟩

/-- A counter that holds the number of occurrences of each element of a list. -/
structure Counts (l : List Int) (count : List (Int × Nat)) : Prop where
  keys : (count.map Prod.fst).Nodup
  mem : ∀ t n, (t, n) ∈ count ↔ 0 < n ∧ n = l.count t

theorem Counts.key {l : List Int} {count : List (Int × Nat)} (h : Counts l count) (t : Int) :
    t ∈ count.map Prod.fst ↔ 0 < l.count t := by
  constructor
  · intro hm
    obtain ⟨⟨s, n⟩, h1, rfl⟩ := List.mem_map.1 hm
    have := (h.mem s n).1 h1
    rw [← this.2]; exact this.1
  · intro h1
    exact List.mem_map.2 ⟨(t, l.count t), (h.mem t _).2 ⟨h1, rfl⟩, rfl⟩

theorem Counts.add {l : List Int} {count : List (Int × Nat)} (h : Counts l count) (t : Int) :
    Counts (l ++ [t]) (counterAdd t count) := by
  obtain ⟨h1, h2, h3⟩ := counterAdd_mem t count h.keys
  refine ⟨h1, fun s n => ?_⟩
  rw [h3, List.count_append]
  by_cases e : s = t
  · subst e
    rw [h.key, List.count_singleton_self]
    constructor
    · rintro (⟨h4, _⟩ | ⟨_, ⟨h4, rfl⟩ | ⟨k, h4, rfl⟩⟩)
      · exact absurd rfl h4
      · omega
      · have := (h.mem s k).1 h4; omega
    · rintro ⟨h4, rfl⟩
      right; refine ⟨rfl, ?_⟩
      by_cases h5 : 0 < l.count s
      · right; exact ⟨l.count s, (h.mem s _).2 ⟨h5, rfl⟩, rfl⟩
      · left; exact ⟨h5, by omega⟩
  · rw [List.count_singleton, if_neg (by simpa using fun h => e h.symm), h.mem]
    simp only [Nat.add_zero]
    tauto

theorem Counts.addAll {l : List Int} {count : List (Int × Nat)} (h : Counts l count) (ts : List Int) :
    Counts (l ++ ts) (ts.foldl (fun c t => counterAdd t c) count) := by
  induction ts generalizing l count with
  | nil => simpa using h
  | cons t ts ih => simpa using ih (h.add t)

theorem countSwitches_counts (θ : Rat) (chunks : Meter → List CorChunk) (ms : List Meter) :
    Counts ((ms.map (fun m => switchTimes θ (chunks m))).flatten) (countSwitches θ chunks ms) := by
  have gen : ∀ (l : List Int) (count : List (Int × Nat)), Counts l count →
      Counts (l ++ (ms.map (fun m => switchTimes θ (chunks m))).flatten)
        (ms.foldl (fun count m => (switchTimes θ (chunks m)).foldl (fun c t => counterAdd t c) count) count) := by
    induction ms with
    | nil => intro l count h; simpa using h
    | cons m ms ih =>
      intro l count h
      have := ih _ _ (h.addAll (switchTimes θ (chunks m)))
      simpa using this
  have := gen [] [] ⟨by simp, fun t n => by simp; omega⟩
  simpa [countSwitches] using this

theorem count_flatten_nodup (ls : List (List Int)) (h : ∀ l ∈ ls, l.Nodup) (t : Int) :
    ls.flatten.count t = (ls.filter (fun l => decide (t ∈ l))).length := by
  induction ls with
  | nil => rfl
  | cons l ls ih =>
    rw [List.flatten_cons, List.count_append, ih (fun l hl => h l (List.mem_cons_of_mem _ hl)), List.filter_cons]
    by_cases e : t ∈ l
    · rw [List.count_eq_one_of_mem (h l (List.mem_cons_self ..)) e]
      simp [e, Nat.add_comm]
    · simp [e, List.count_eq_zero_of_not_mem e]

/-- C75: each timestamp at which at least two submeters switch is reported once, with the number of submeters that switch
then, and nothing else is; for submeters that report no switch twice. -/
theorem C75_simultaneous_partial (threshold : Rat) (chunks : Meter → List CorChunk) (ms : List Meter)
    (h : ∀ m ∈ ms, m.isSite = false → (switchTimes threshold (chunks m)).Nodup) :
    ((simultaneousSwitches threshold chunks ms).map Prod.fst).Nodup ∧
    ∀ t n, (t, n) ∈ simultaneousSwitches threshold chunks ms ↔
      2 ≤ n ∧ n = (ms.filter (fun m => !m.isSite && decide (t ∈ switchTimes threshold (chunks m)))).length := by
  have hc := countSwitches_counts threshold chunks (submeters ms)
  refine ⟨(List.filter_sublist.map Prod.fst).nodup hc.keys, fun t n => ?_⟩
  rw [simultaneousSwitches, List.mem_filter, hc.mem, count_flatten_nodup, List.filter_map, List.length_map, submeters,
    List.filter_filter]
  · have : (ms.filter (fun m => ((fun l => decide (t ∈ l)) ∘ fun m => switchTimes threshold (chunks m)) m && !m.isSite)) =
        ms.filter (fun m => !m.isSite && decide (t ∈ switchTimes threshold (chunks m))) := by
      congr 1; funext m; simp [Bool.and_comm]
    rw [this]
    simp only [decide_eq_true_eq]
    constructor
    · rintro ⟨⟨_, h1⟩, h2⟩; exact ⟨h2, h1⟩
    · rintro ⟨h1, h2⟩; exact ⟨⟨by omega, h2⟩, h1⟩
  · intro l hl
    obtain ⟨m, hm, rfl⟩ := List.mem_map.1 hl
    rw [submeters, List.mem_filter] at hm
    exact h m hm.1 (by simpa using hm.2)

/-- C75: in general the number reported is the number of reports of a switch at that timestamp. -/
theorem C75_reports (threshold : Rat) (chunks : Meter → List CorChunk) (ms : List Meter) (t : Int) (n : Nat) :
    (t, n) ∈ simultaneousSwitches threshold chunks ms ↔
      2 ≤ n ∧ n = (((ms.filter (fun m => !m.isSite)).map (fun m => switchTimes threshold (chunks m))).flatten).count t := by
  rw [simultaneousSwitches, List.mem_filter, (countSwitches_counts threshold chunks (submeters ms)).mem, submeters]
  simp only [decide_eq_true_eq]
  constructor
  · rintro ⟨⟨_, h1⟩, h2⟩; exact ⟨h2, h1⟩
  · rintro ⟨h1, h2⟩; exact ⟨⟨by omega, h2⟩, h1⟩

/-- A series with a switch at 20. -/
def exSwitch : CorChunk := [(0, some 0), (10, some 0), (20, some 100), (30, some 100)]

/-- C75: a CSV store cuts a series into chunks that share no row, and the switch at a cut is lost. -/
theorem C75_csv_counterexample :
    jumps 40 exSwitch = [20] ∧
    switchTimes 40 ((csvLoadSection (some exSwitch) true TF.blank 0 2 TF.blank).out.map Chunk.rows) = [] := by
  refine ⟨by decide +kernel, ?_⟩
  have : (csvLoadSection (some exSwitch) true TF.blank 0 2 TF.blank).out.map Chunk.rows =
      [[(0, some 0), (10, some 0)], [(20, some 100), (30, some 100)]] := by
    simp [csvLoadSection, csvPieces, csvLoop, exSwitch, csvMask, TF.blank, TF.intersection, interStart,
      interEnd, interInclude, built, TF.start, TF.stop, TF.ctor, TF.setStart, TF.setEnd, Gen.cons, Gen.done]
  rw [this]
  decide +kernel

/-- The hypotheses of `C75_hdf` hold for this series and a section that holds three of its rows, with a switch. -/
example : Increasing exSwitch ∧
    (∀ t, decide (5 ≤ t ∧ t < 35) = true ↔ Mem t (TF.blank.intersection (mk' (some 5) (some 35)))) ∧
    jumps 40 (exSwitch.filter (fun r => decide (5 ≤ r.1 ∧ r.1 < 35))) = [20] := by
  refine ⟨by simp [Increasing, exSwitch], fun t => ?_, by decide +kernel⟩
  simp [Mem, TF.intersection, TF.blank, mk', interStart, interEnd, TF.start, TF.stop, built, interInclude]

/-- The hypotheses of `C75_overlap` hold for the same series in two chunks. -/
example : SharedRows [exSwitch.take 3, exSwitch.drop 2] ∧ (∀ c ∈ [exSwitch.take 3, exSwitch.drop 2], c ≠ []) ∧
    switchTimes 40 [exSwitch.take 3, exSwitch.drop 2] = [20] :=
  ⟨.cons _ _ _ ⟨(20, some 100), rfl, rfl⟩ (.single _), by decide +kernel, by decide +kernel⟩

/-- Two of three submeters switch at 20; the site meter does not count. -/
example :
    let chunks : Meter → List CorChunk := fun m =>
      if sameHash m (exMeter 3 1 false) then [[(0, some 0), (10, some 50)]] else [exSwitch]
    let ms := [exMeter 1 1 true, exMeter 2 1 false, exMeter 3 1 false, exMeter 4 1 false]
    (∀ m ∈ ms, m.isSite = false → (switchTimes 40 (chunks m)).Nodup) ∧ simultaneousSwitches 40 chunks ms = [(20, 2)] := by
  refine ⟨?_, by decide +kernel⟩
  intro m hm _
  simp only [List.mem_cons, List.not_mem_nil, or_false] at hm
  rcases hm with rfl | rfl | rfl | rfl <;> decide +kernel

/-- C75: a missing reading hides the change across it. -/
theorem C75_missing_counterexample :
    switchTimes 40 [[(0, some 0), (10, none), (20, some 100)]] = [] ∧
    switchTimes 40 [[(0, some 0), (20, some 100)]] = [20] := by
  decide +kernel

/-- C75: a submeter with a repeated timestamp is reported as two submeters switching together. -/
theorem C75_repeat_counterexample :
    simultaneousSwitches 40 (fun _ => [[(0, some 0), (10, some 100), (10, some 0)]]) [exMeter 1 1 false] = [(10, 2)] := by
  decide +kernel

end Nilmtk
