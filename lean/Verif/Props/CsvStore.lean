import Verif.Model.CsvStore
import Verif.Props.Store
import Verif.Props.CSV
import Verif.Props.Experiment
/-!
C94: a CSV store gives back what was stored.
-/
namespace Nilmtk
open TF

/-! ### Specification -/

/-- The frames written to the file at the path `k` that are still there after a call: `put` starts anew, `append` adds a
frame, `remove` of the path or one above it takes all away. -/
def framesAfter {V α : Type} (k : List Str) (fs : List (DiskFrame α)) : CsvCall V α → List (DiskFrame α)
  | .put key df => if diskPath key = .ok k then [df] else fs
  | .append key df => if diskPath key = .ok k then fs ++ [df] else fs
  | .remove key =>
    match diskPath key with
    | .error _ => fs
    | .ok p => if p <+: k then [] else fs
  | _ => fs

/-- Tables are written only under keys of meters: if the key is valid, the path has three components, such as
`building1/elec/meter1.csv`. -/
def MeterCall {V α : Type} : CsvCall V α → Prop
  | .put key _ => ∀ p, diskPath key = .ok p → p.length = 3
  | .append key _ => ∀ p, diskPath key = .ok p → p.length = 3
  | _ => True

/-! ### Invariants of the directory -/

/-- Files are not directories and lie in directories; files have paths of three components. -/
structure GoodDisk {V α : Type} (d : CsvDisk V α) : Prop where
  above : ∀ p ∈ d.files.map Prod.fst, ∀ q, q <+: p → q ≠ p → q ∈ d.dirs
  files3 : ∀ p ∈ d.files.map Prod.fst, p.length = 3
  dirs2 : ∀ q ∈ d.dirs, q.length ≤ 2

theorem entry_keys {κ ν : Type} [DecidableEq κ] (k : κ) (v : ν) (l : List (κ × ν)) (x : κ) :
    x ∈ (setEntry k v l).map Prod.fst ↔ x = k ∨ x ∈ l.map Prod.fst := by
  induction l with
  | nil => simp [setEntry]
  | cons e l ih =>
    simp only [setEntry]
    split
    · rename_i h; subst h; simp
    · simp only [List.map_cons, List.mem_cons, ih]
      tauto

theorem entry_lookup {κ ν : Type} [DecidableEq κ] [BEq κ] [LawfulBEq κ] (k : κ) (v : ν) (l : List (κ × ν)) (x : κ) :
    (setEntry k v l).lookup x = if x = k then some v else l.lookup x := by
  have hb : ∀ (a b : κ), (a == b) = decide (a = b) := fun a b => by rw [Bool.eq_iff_iff]; simp
  induction l with
  | nil =>
    simp only [setEntry, List.lookup_cons, List.lookup_nil, hb]
    by_cases h : x = k <;> simp [h]
  | cons e l ih =>
    obtain ⟨a, w⟩ := e
    simp only [setEntry]
    by_cases he : a = k
    · rw [if_pos he]
      simp only [List.lookup_cons, hb]
      by_cases h : x = k
      · simp [h]
      · have : x ≠ a := by rw [he]; exact h
        simp [h, this]
    · rw [if_neg he]
      simp only [List.lookup_cons, hb, ih]
      by_cases h : x = a
      · have : x ≠ k := by rw [h]; exact he
        simp [h, he]
      · simp [h]

theorem filter_lookup {κ ν : Type} [DecidableEq κ] [BEq κ] [LawfulBEq κ] (f : κ → Bool) (l : List (κ × ν)) (x : κ) :
    (l.filter (fun e => f e.1)).lookup x = if f x then l.lookup x else none := by
  have hb : ∀ (a b : κ), (a == b) = decide (a = b) := fun a b => by rw [Bool.eq_iff_iff]; simp
  induction l with
  | nil => simp
  | cons e l ih =>
    obtain ⟨a, w⟩ := e
    by_cases hf : f a = true
    · rw [List.filter_cons_of_pos (by simpa using hf)]
      simp only [List.lookup_cons, hb, ih]
      by_cases h : x = a
      · subst h; simp [hf]
      · simp [h]
    · rw [List.filter_cons_of_neg (by simpa using hf), ih]
      simp only [List.lookup_cons, hb]
      by_cases h : x = a
      · subst h; simp [hf]
      · simp [h]

theorem lookup_none_keys {κ ν : Type} [DecidableEq κ] [BEq κ] [LawfulBEq κ] (l : List (κ × ν)) (x : κ) :
    l.lookup x = none ↔ x ∉ l.map Prod.fst := by
  have hb : ∀ (a b : κ), (a == b) = decide (a = b) := fun a b => by rw [Bool.eq_iff_iff]; simp
  induction l with
  | nil => simp
  | cons e l ih =>
    obtain ⟨a, w⟩ := e
    simp only [List.lookup_cons, hb]
    by_cases h : x = a
    · simp [h]
    · simp [h, ih]

theorem fresh_good {V α : Type} : GoodDisk (CsvDisk.fresh : CsvDisk V α) :=
  ⟨by simp [CsvDisk.fresh], by simp [CsvDisk.fresh], by simp [CsvDisk.fresh]⟩

theorem write_good {V α : Type} {d : CsvDisk V α} (hd : GoodDisk d) (key : Str)
    (f : List (DiskLine α) → List (DiskLine α)) {p : List Str} (hp : diskPath key = .ok p) (h3 : p.length = 3) :
    ∃ d', d.write key f = .ok d' ∧ GoodDisk d' ∧
      d'.files = setEntry p (f ((d.files.lookup p).getD [])) d.files ∧ d'.datasetYaml = d.datasetYaml ∧
      d'.devicesYaml = d.devicesYaml ∧ d'.buildingYaml = d.buildingYaml := by
  have h1 : p ≠ [] := by rintro rfl; simp at h3
  have h2 : d.blocked p = false := by
    unfold CsvDisk.blocked
    rw [List.any_eq_false]
    intro q hq hc
    rw [List.mem_inits] at hq
    have hq3 := hd.files3 q (by simpa using hc)
    have := hq.length_le
    rw [List.length_dropLast] at this
    omega
  have h4 : d.dirs.contains p = false := by
    rw [Bool.eq_false_iff]
    intro hc
    have := hd.dirs2 p (by simpa using hc)
    omega
  refine ⟨{ d with
      dirs := d.dirs ++ (p.dropLast.inits.filter (fun q => !d.dirs.contains q))
      files := setEntry p (f ((d.files.lookup p).getD [])) d.files }, ?_, ?_, rfl, rfl, rfl, rfl⟩
  · unfold CsvDisk.write
    simp only [hp]
    rw [if_neg (by simp [h1, h2]; simpa using h4)]
  · constructor
    · intro x hx q hq hne
      simp only [entry_keys] at hx
      simp only [List.mem_append, List.mem_filter]
      rcases hx with rfl | hx
      · by_cases hdq : q ∈ d.dirs
        · exact Or.inl hdq
        · right
          refine ⟨?_, by simpa using hdq⟩
          rw [List.mem_inits]
          have hlt : q.length < x.length := by
            rcases Nat.lt_or_ge q.length x.length with h | h
            · exact h
            · exact absurd (hq.eq_of_length (Nat.le_antisymm hq.length_le h)) hne
          rw [List.dropLast_eq_take]
          rw [List.prefix_iff_eq_take] at hq
          rw [List.prefix_take_iff]
          refine ⟨by rw [hq]; exact List.take_prefix _ _, by omega⟩
      · exact Or.inl (hd.above x hx q hq hne)
    · intro x hx
      simp only [entry_keys] at hx
      rcases hx with rfl | hx
      · exact h3
      · exact hd.files3 x hx
    · intro q hq
      simp only [List.mem_append, List.mem_filter, List.mem_inits] at hq
      rcases hq with hq | ⟨hq, _⟩
      · exact hd.dirs2 q hq
      · have := hq.length_le
        rw [List.length_dropLast] at this
        omega

theorem remove_good {V α : Type} {d : CsvDisk V α} (hd : GoodDisk d) (key : Str) (d' : CsvDisk V α)
    (h : csvRemove d key = .ok d') :
    GoodDisk d' ∧ ∃ p, diskPath key = .ok p ∧ ∀ k, d'.files.lookup k = if p <+: k then none else d.files.lookup k := by
  unfold csvRemove at h
  cases hp : diskPath key with
  | error e => rw [hp] at h; cases h
  | ok p =>
    rw [hp] at h
    simp only [] at h
    split at h
    · rename_i hc
      cases h
      have hpm : p ∈ d.files.map Prod.fst := by simpa using hc
      have hsub : ∀ x, x ∈ (d.files.filter (fun e => !(e.1 == p))).map Prod.fst → x ∈ d.files.map Prod.fst := by
        intro x hx
        obtain ⟨e, he, rfl⟩ := List.mem_map.1 hx
        exact List.mem_map.2 ⟨e, (List.mem_filter.1 he).1, rfl⟩
      refine ⟨⟨fun x hx => hd.above x (hsub x hx), fun x hx => hd.files3 x (hsub x hx), hd.dirs2⟩, p, rfl, ?_⟩
      intro k
      simp only []
      rw [filter_lookup (fun x => !(x == p))]
      by_cases hk : k = p
      · simp [hk]
      · have hkb : (!(k == p)) = true := by simpa using hk
        rw [hkb, if_pos rfl]
        split
        · rename_i hpre
          rw [lookup_none_keys]
          intro hkm
          have := hd.above k hkm p hpre (fun e => hk e.symm)
          have h1 := hd.dirs2 p this
          have h2 := hd.files3 p hpm
          omega
        · rfl
    · split at h
      · cases h
        have hsub : ∀ x, x ∈ (d.files.filter (fun e => !p.isPrefixOf e.1)).map Prod.fst →
            x ∈ d.files.map Prod.fst ∧ ¬ p <+: x := by
          intro x hx
          obtain ⟨e, he, rfl⟩ := List.mem_map.1 hx
          obtain ⟨h1, h2⟩ := List.mem_filter.1 he
          refine ⟨List.mem_map.2 ⟨e, h1, rfl⟩, ?_⟩
          intro hpre; rw [← List.isPrefixOf_iff_prefix] at hpre; rw [hpre] at h2; simp at h2
        refine ⟨⟨?_, fun x hx => hd.files3 x (hsub x hx).1, ?_⟩, p, rfl, ?_⟩
        · intro x hx q hq hne
          obtain ⟨h1, h2⟩ := hsub x hx
          refine List.mem_filter.2 ⟨hd.above x h1 q hq hne, ?_⟩
          have : ¬ p <+: q := fun h => h2 (h.trans hq)
          rw [← List.isPrefixOf_iff_prefix, Bool.not_eq_true] at this; rw [this]; rfl
        · intro q hq
          exact hd.dirs2 q (List.mem_filter.1 hq).1
        · intro k
          simp only []
          rw [filter_lookup (fun x => !p.isPrefixOf x)]
          by_cases hpre : p <+: k
          · have : (!p.isPrefixOf k) = false := by have h' := hpre; rw [← List.isPrefixOf_iff_prefix] at h'; simpa using h'
            rw [this]; simp [hpre]
          · have : (!p.isPrefixOf k) = true := by have h' := hpre; rw [← List.isPrefixOf_iff_prefix, Bool.not_eq_true] at h'; rw [h']; rfl
            rw [this]; simp [hpre]
      · cases h

/-- A remove that raises would have taken nothing away. -/
theorem remove_error {V α : Type} {d : CsvDisk V α} (hd : GoodDisk d) (key : Str) (e : Err)
    (h : csvRemove d key = .error e) {p : List Str} (hp : diskPath key = .ok p) (k : List Str) (hk : p <+: k) :
    d.files.lookup k = none := by
  unfold csvRemove at h
  rw [hp] at h
  simp only [] at h
  split at h
  · cases h
  · rename_i hc
    split at h
    · cases h
    · rename_i hdirs
      rw [lookup_none_keys]
      intro hkm
      by_cases hpk : p = k
      · rw [← hpk] at hkm
        exact hc (by simpa using hkm)
      · exact hdirs (by simpa using hd.above k hkm p hk hpk)

/-- The content of a file to which the frames were written one after another. -/
def written {α : Type} (fs : List (DiskFrame α)) : Option (List (DiskLine α)) :=
  if fs = [] then none else some (fs.map DiskFrame.dump).flatten

theorem written_getD {α : Type} (fs : List (DiskFrame α)) : (written fs).getD [] = (fs.map DiskFrame.dump).flatten := by
  unfold written
  split
  · rename_i h; subst h; rfl
  · rfl

/-- One call in a directory with meters only. -/
theorem call_written {V α : Type} (d : CsvDisk V α) (hd : GoodDisk d) (c : CsvCall V α) (hc : MeterCall c)
    (k : List Str) (fs : List (DiskFrame α)) (hfs : d.files.lookup k = written fs) :
    GoodDisk (match csvCall d c with | .error _ => d | .ok d' => d') ∧
    (match csvCall d c with | .error _ => d | .ok d' => d').files.lookup k = written (framesAfter k fs c) := by
  cases c with
  | put key df =>
    simp only [csvCall, csvPut, framesAfter]
    cases hp : diskPath key with
    | error e =>
      have : d.write key (fun _ => df.dump) = .error e := by simp [CsvDisk.write, hp]
      simp [this, hd, hfs]
    | ok p =>
      obtain ⟨d', h1, h2, h3, _⟩ := write_good hd key (fun _ => df.dump) hp (hc p hp)
      rw [h1]
      simp only []
      refine ⟨h2, ?_⟩
      rw [h3, entry_lookup]
      by_cases h : k = p
      · subst h; simp [written]
      · rw [if_neg h, hfs, if_neg]
        intro e; cases e; exact h rfl
  | append key df =>
    simp only [csvCall, csvAppend, framesAfter]
    cases hp : diskPath key with
    | error e =>
      have : d.write key (fun old => old ++ df.dump) = .error e := by simp [CsvDisk.write, hp]
      simp [this, hd, hfs]
    | ok p =>
      obtain ⟨d', h1, h2, h3, _⟩ := write_good hd key (fun old => old ++ df.dump) hp (hc p hp)
      rw [h1]
      simp only []
      refine ⟨h2, ?_⟩
      rw [h3, entry_lookup]
      by_cases h : k = p
      · subst h
        rw [if_pos rfl, if_pos rfl, hfs, written_getD]
        simp [written]
      · rw [if_neg h, hfs, if_neg]
        intro e; cases e; exact h rfl
  | remove key =>
    simp only [csvCall, framesAfter]
    cases hr : csvRemove d key with
    | error e =>
      simp only []
      refine ⟨hd, ?_⟩
      cases hp : diskPath key with
      | error e' => simpa using hfs
      | ok p =>
        simp only []
        split
        · rename_i hpre
          rw [remove_error hd key e hr hp k hpre]; rfl
        · exact hfs
    | ok d' =>
      obtain ⟨h1, p, hp, h2⟩ := remove_good hd key d' hr
      simp only []
      refine ⟨h1, ?_⟩
      rw [h2, hp]
      simp only []
      split
      · rfl
      · exact hfs
  | saveRoot m =>
    simp only [csvCall, csvSaveRoot, framesAfter]
    cases m.lookup "meter_devices" with
    | none => exact ⟨hd, hfs⟩
    | some v => exact ⟨⟨hd.above, hd.files3, hd.dirs2⟩, hfs⟩
  | saveBuilding key m =>
    simp only [csvCall, csvSaveBuilding, framesAfter]
    cases Key.parse key with
    | error e => exact ⟨hd, hfs⟩
    | ok kk =>
      simp only []
      cases kk.meter with
      | none => exact ⟨⟨hd.above, hd.files3, hd.dirs2⟩, hfs⟩
      | some v => exact ⟨hd, hfs⟩

theorem run_written {V α : Type} (cs : List (CsvCall V α)) :
    ∀ (d : CsvDisk V α) (_ : GoodDisk d) (_ : ∀ c ∈ cs, MeterCall c)
    (k : List Str) (fs : List (DiskFrame α)) (_ : d.files.lookup k = written fs),
    GoodDisk (csvRun cs d) ∧ (csvRun cs d).files.lookup k = written (cs.foldl (framesAfter k) fs) := by
  induction cs with
  | nil => intro d hd _ k fs hfs; exact ⟨hd, hfs⟩
  | cons c cs ih =>
    intro d hd hc k fs hfs
    obtain ⟨h1, h2⟩ := call_written d hd c (hc c List.mem_cons_self) k fs hfs
    rw [List.foldl_cons]
    simp only [csvRun]
    cases hcall : csvCall d c with
    | error e =>
      rw [hcall] at h1 h2
      exact ih d h1 (fun x hx => hc x (List.mem_cons_of_mem _ hx)) k _ h2
    | ok d' =>
      rw [hcall] at h1 h2
      exact ih d' h1 (fun x hx => hc x (List.mem_cons_of_mem _ hx)) k _ h2

/-! ### The theorems -/

/-- C94. After any history of calls on a new store that writes tables under keys of meters, the file at a path holds, one
after another, the frames written to it since it was last put or removed; there is no file if there are none. -/
theorem C94_history {V α : Type} (cs : List (CsvCall V α)) (hcs : ∀ c ∈ cs, MeterCall c) (k : List Str) :
    (csvRun cs CsvDisk.fresh).files.lookup k =
      (if cs.foldl (framesAfter k) [] = [] then none
        else some ((cs.foldl (framesAfter k) []).map DiskFrame.dump).flatten) :=
  (run_written cs _ fresh_good hcs k [] rfl).2

/-- C94. In such a history `put` and `append` under a valid key of a meter do not raise. -/
theorem C94_writes_total {V α : Type} (cs : List (CsvCall V α)) (hcs : ∀ c ∈ cs, MeterCall c) (key : Str)
    (p : List Str) (hp : diskPath key = .ok p) (h3 : p.length = 3) (df : DiskFrame α) :
    (∃ d, csvPut (csvRun cs CsvDisk.fresh) key df = .ok d) ∧
    (∃ d, csvAppend (csvRun cs CsvDisk.fresh) key df = .ok d) := by
  have hg := (run_written cs _ (fresh_good : GoodDisk (CsvDisk.fresh : CsvDisk V α)) hcs [] [] rfl).1
  obtain ⟨d₁, h1, _⟩ := write_good hg key (fun _ => df.dump) hp h3
  obtain ⟨d₂, h2, _⟩ := write_good hg key (fun old => old ++ df.dump) hp h3
  exact ⟨⟨d₁, h1⟩, d₂, h2⟩

theorem readHeader_dump {α : Type} (f : DiskFrame α) (rest : List (DiskLine α)) (h : rest.head? ≠ some .indexName) :
    readHeader (f.dump ++ rest) = f.rows.map .data ++ rest := by
  unfold readHeader DiskFrame.dump
  cases f.named with
  | true => simp
  | false =>
    simp only [Bool.false_eq_true, if_false, List.append_nil, List.cons_append, List.nil_append, List.drop_succ_cons,
      List.drop_zero]
    cases hr : f.rows with
    | nil =>
      simp only [List.map_nil, List.nil_append]
      cases rest with
      | nil => rfl
      | cons x xs => cases x <;> simp_all
    | cons r rs => rfl

theorem allRows_data {α : Type} (rows : List (Row α)) : allRows (rows.map DiskLine.data) = some rows := by
  induction rows with
  | nil => rfl
  | cons r rows ih => simp [allRows, DiskLine.row?, ih]

theorem allRows_header {α : Type} (rows : List (Row α)) (rest : List (DiskLine α)) :
    allRows (rows.map DiskLine.data ++ .level0 :: rest) = none := by
  induction rows with
  | nil => simp [allRows, DiskLine.row?]
  | cons r rows ih => simp [allRows, DiskLine.row?, ih]

/-- C94. A table can be read back exactly if one frame was written since the file was last put or removed: then its rows
are the rows of that frame. With a second frame (`append` to an existing file) the header is in the middle of the file
and is read as data. -/
theorem C94_read {V α : Type} (cs : List (CsvCall V α)) (hcs : ∀ c ∈ cs, MeterCall c) (key : Str)
    (p : List Str) (hp : diskPath key = .ok p) :
    csvTable (csvRun cs CsvDisk.fresh) key = .ok (match cs.foldl (framesAfter p) [] with
      | [] => none
      | [f] => some (some f.rows)
      | _ :: _ :: _ => some none) := by
  unfold csvTable
  rw [hp]
  simp only [C94_history cs hcs p]
  rcases cs.foldl (framesAfter p) [] with _ | ⟨f, _ | ⟨g, fs⟩⟩
  · rfl
  · have := readHeader_dump f [] (by simp)
    simp only [List.append_nil] at this
    simp [this, allRows_data]
  · have h1 : (DiskFrame.dump g ++ (fs.map DiskFrame.dump).flatten).head? ≠ some DiskLine.indexName := by
      simp [DiskFrame.dump]
    have := readHeader_dump f _ h1
    simp only [List.map_cons, List.flatten_cons, reduceCtorEq, if_false, Option.map_some, this]
    have h2 : DiskFrame.dump g ++ (fs.map DiskFrame.dump).flatten = .level0 :: (.level1 ::
        (if g.named then [.indexName] else []) ++ g.rows.map .data ++ (fs.map DiskFrame.dump).flatten) := by
      simp [DiskFrame.dump]
    rw [h2, allRows_header]

/-- C94. `store[key]` never gives the rows that were put: the second line of the header (and the name of the index) come as
rows before them. -/
theorem C94_getitem_counterexample {V α : Type} (cs : List (CsvCall V α)) (hcs : ∀ c ∈ cs, MeterCall c) (key : Str)
    (p : List Str) (hp : diskPath key = .ok p) (f : DiskFrame α) (h : cs.foldl (framesAfter p) [] = [f]) :
    csvGetItem (csvRun cs CsvDisk.fresh) key =
      .ok (.level1 :: (if f.named then [.indexName] else []) ++ f.rows.map .data) := by
  unfold csvGetItem
  rw [hp]
  simp only [C94_history cs hcs p, h]
  simp [DiskFrame.dump]

/-- C94. `store[key]` raises `KeyError` if there is no file. -/
theorem C94_getitem_missing {V α : Type} (cs : List (CsvCall V α)) (hcs : ∀ c ∈ cs, MeterCall c) (key : Str)
    (p : List Str) (hp : diskPath key = .ok p) (h : cs.foldl (framesAfter p) [] = []) :
    csvGetItem (csvRun cs CsvDisk.fresh) key = .error .keyError := by
  unfold csvGetItem
  rw [hp]
  simp only [C94_history cs hcs p, h]
  simp

/-- C94. Loading a table that was written by one call: the rows of the frame, in one chunk if the chunk size allows. -/
theorem C94_load_partial {V α : Type} (cs : List (CsvCall V α)) (hcs : ∀ c ∈ cs, MeterCall c) (key : Str)
    (p : List Str) (hp : diskPath key = .ok p) (f : DiskFrame α) (h : cs.foldl (framesAfter p) [] = [f])
    (hinc : Increasing f.rows) (h2 : 2 ≤ f.rows.length) (nLook chunksize : Int)
    (hsize : (f.rows.length : Int) ≤ chunksize) :
    ∃ rows, csvTable (csvRun cs CsvDisk.fresh) key = .ok (some (some rows)) ∧
      (csvLoadSection (some rows) f.named TF.blank nLook chunksize TF.blank).err = none ∧
      ((csvLoadSection (some rows) f.named TF.blank nLook chunksize TF.blank).out.map Chunk.rows).flatten = f.rows := by
  refine ⟨f.rows, by rw [C94_read cs hcs key p hp, h], ?_⟩
  have hpos : 0 < chunksize := by omega
  have hpieces : csvPieces chunksize.toNat (by omega) f.rows = [f.rows] := by
    rw [csvPieces, dif_neg (by rintro h; rw [h] at h2; simp at h2), List.take_of_length_le (by omega),
      List.drop_of_length_le (by omega), csvPieces, dif_pos rfl]
  have := C17_csv_load_partial f.rows hinc f.named TF.blank TF.blank rfl rfl nLook chunksize hpos (fun _ => true)
    (by intro t; simp [Mem, TF.blank, TF.start, TF.stop])
    (by
      intro q hq
      rw [hpieces, List.mem_singleton] at hq
      subst hq
      simp only [List.filter_true]
      omega)
  refine ⟨this.1, ?_⟩
  rw [this.2.1]
  simp

/-- C94. `get_timeframe` of a table written by one call: within the window, from the first row to the last. -/
theorem C94_timeframe {V α : Type} (d : CsvDisk V α) (window : TF) (hw : window.includeEnd = false) (key : Str)
    (a b : Row α) (mid : List (Row α)) (h : csvTable d key = .ok (some (some (a :: mid ++ [b])))) (hab : a.1 < b.1) :
    ∃ tf, csvTimeframe d window key = .ok tf ∧ ∀ t, Mem t tf ↔ Mem t window ∧ a.1 ≤ t ∧ t < b.1 := by
  refine ⟨window.intersection (mk' (some a.1) (some b.1)), ?_, ?_⟩
  · unfold csvTimeframe
    have hl : (a :: (mid ++ [b])).getLast? = some b := by
      rw [← List.cons_append]; exact List.getLast?_concat
    rw [h]
    simp only [List.cons_append, hl, List.head?_cons, ctor_two _ _ hab]
  · intro t
    rw [C02_intersection_halfopen _ _ _ hw rfl]
    simp [Mem, mk', TF.start, TF.stop]

/-- C94. `get_timeframe` of a key without a file is a `FileNotFoundError`, of a file without rows an `IndexError`, and of one with a
second header line a `ValueError`. -/
theorem C94_timeframe_errors {V α : Type} (d : CsvDisk V α) (window : TF) (key : Str) (p : List Str) (hp : diskPath key = .ok p) :
    (d.files.lookup p = none → csvTimeframe d window key = .error .fileNotFound) ∧
    ∀ lines, d.files.lookup p = some lines →
      (allRows (readHeader lines) = some [] → csvTimeframe d window key = .error .indexError) ∧
      (allRows (readHeader lines) = none → csvTimeframe d window key = .error .valueError) := by
  refine ⟨fun h => ?_, fun lines h => ⟨fun hr => ?_, fun hr => ?_⟩⟩
  · simp [csvTimeframe, csvTable, hp, h]
  · simp [csvTimeframe, csvTable, hp, h, hr]
  · simp [csvTimeframe, csvTable, hp, h, hr]

/-- C94. Dataset metadata with `meter_devices` are loaded as they were saved; without it saving raises `KeyError`. -/
theorem C94_root_metadata {V α : Type} (d : CsvDisk V α) (m : List (String × MetaVal V)) :
    (m.lookup "meter_devices" = none → csvSaveRoot d m = .error .keyError) ∧
    (m.lookup "meter_devices" ≠ none → ∃ d', csvSaveRoot d m = .ok d' ∧ d'.files = d.files ∧
      ∃ m', csvLoadRoot d' = .ok m' ∧ ∀ x, m'.lookup x = m.lookup x) := by
  constructor
  · intro h; simp [csvSaveRoot, h]
  · intro h
    obtain ⟨v, hv⟩ := Option.ne_none_iff_exists'.1 h
    refine ⟨{ d with
      datasetYaml := some (m.filter (fun e => e.1 ≠ "meter_devices"))
      devicesYaml := some v }, by simp [csvSaveRoot, hv], rfl, _, rfl, ?_⟩
    intro x
    rw [dictSet_lookup]
    by_cases hx : x = "meter_devices"
    · rw [if_pos hx, hx, hv]
    · rw [if_neg hx, filter_lookup (fun s => decide (s ≠ "meter_devices"))]
      simp [hx]

/-- C94. Metadata of a building are loaded as they were saved, except that `data_location` of every meter is the key of the
meter; metadata of other buildings and tables are not changed. -/
theorem C94_building_metadata {V α : Type} (d : CsvDisk V α) (key : Str) (k : Key) (hk : Key.parse key = .ok k)
    (hm : k.meter = none) (m : DiskBuilding V) (ms : List (Int × List (String × MetaVal V))) (hms : m.meters = some ms) :
    ∃ d', csvSaveBuilding d key m = .ok d' ∧ d'.files = d.files ∧
      (∀ key' k', Key.parse key' = .ok k' → k'.meter = none → k'.building ≠ k.building →
        csvLoadBuilding d' key' = csvLoadBuilding d key') ∧
      ∃ m' ms', csvLoadBuilding d' key = .ok m' ∧ m'.meters = some ms' ∧ m'.rest = m.rest ∧
        List.Forall₂ (fun e e' => e'.1 = e.1 ∧ (∀ x, x ≠ "data_location" → e'.2.lookup x = e.2.lookup x) ∧
          e'.2.lookup "data_location" = some (.text (dataLocation k.building e.1))) ms ms' := by
  refine ⟨{ d with buildingYaml := setEntry k.building m d.buildingYaml }, ?_, rfl, ?_, ?_⟩
  · simp [csvSaveBuilding, hk, hm]
  · intro key' k' hk' hm' hne
    simp only [csvLoadBuilding, hk', hm', entry_lookup, if_neg hne]
  · refine ⟨{ m with meters := some (ms.map (fun e => (e.1, dictSet e.2 "data_location" (.text (dataLocation k.building e.1))))) },
      _, ?_, rfl, rfl, ?_⟩
    · simp only [csvLoadBuilding, hk, hm, entry_lookup, if_true, hms]
    · rw [List.forall₂_map_right_iff, List.forall₂_same]
      intro e _
      refine ⟨rfl, ?_, ?_⟩
      · intro x hx
        simp only []
        rw [dictSet_lookup, if_neg hx]
      · simp only []
        rw [dictSet_lookup, if_pos rfl]

/-- C94. The file to which the `data_location` of a meter leads. -/
theorem C94_paths (b m : Nat) (hb : 1 ≤ b) (hm : 1 ≤ m) :
    diskPath (dataLocation b m) =
      .ok ["building".toList ++ formatNat b, "elec".toList, "meter".toList ++ formatNat m ++ ".csv".toList] := by
  have h1 : dataLocation b m = ('/' :: buildingName b ++ '/' :: "elec".toList) ++ '/' :: meterName m := by
    unfold dataLocation buildingName meterName
    simp
  have hpath : csvPath (dataLocation b m) =
      .ok (buildingName b ++ '/' :: "elec".toList ++ '/' :: meterName m ++ ".csv".toList) := by
    rw [h1]
    unfold csvPath
    rw [if_pos (by simp), parse_meter b m hb hm "elec".toList (by decide)]
    simp
  unfold diskPath
  rw [hpath]
  simp only []
  have hns : '/' ∉ buildingName b := by
    unfold buildingName
    rw [List.mem_append, not_or]
    exact ⟨by decide, formatNat_no_slash b⟩
  have hns2 : '/' ∉ meterName m ++ ".csv".toList := by
    unfold meterName
    rw [List.mem_append, List.mem_append, not_or, not_or]
    exact ⟨⟨by decide, formatNat_no_slash m⟩, by decide⟩
  rw [List.append_assoc, List.cons_append, (C93_key (buildingName b ++ '/' :: "elec".toList) _ [] (by simp)).1,
    (C93_key (buildingName b) _ [] (by simp)).1,
    (C93_key [] [] _ hns).2, (C93_key [] [] _ hns2).2, (C93_key [] [] "elec".toList (by decide)).2]
  have hc1 : buildingName b ≠ [] := by unfold buildingName; exact List.append_ne_nil_of_left_ne_nil (by decide) _
  have hc2 : meterName m ++ ".csv".toList ≠ [] := List.append_ne_nil_of_right_ne_nil _ (by decide)
  have hc3 : "elec".toList ≠ [] := by decide
  rw [if_neg hc1, if_neg hc2, if_neg hc3]
  rfl

/-- C94. Different meters have different files. -/
theorem C94_paths_injective (b m b' m' : Nat) (hb : 1 ≤ b) (hm : 1 ≤ m) (hb' : 1 ≤ b') (hm' : 1 ≤ m')
    (h : diskPath (dataLocation b m) = diskPath (dataLocation b' m')) : b = b' ∧ m = m' := by
  rw [C94_paths b m hb hm, C94_paths b' m' hb' hm'] at h
  injection h with h
  injection h with h1 h2
  injection h2 with h2 h3
  injection h3 with h3 h4
  exact ⟨formatNat_injective _ _ (List.append_cancel_left h1),
    formatNat_injective _ _ (List.append_cancel_left (List.append_cancel_right h3))⟩

/-! ### What is false -/

/-- C94: appending twice to a meter: the table cannot be read back. -/
theorem C94_append_counterexample :
    csvTable (csvRun [.append "/building1/elec/meter1".toList ⟨[(0, 5), (6, 7)], false⟩,
      .append "/building1/elec/meter1".toList ⟨[(12, 5), (18, 7)], false⟩] (CsvDisk.fresh : CsvDisk Unit Nat))
      "/building1/elec/meter1".toList = .ok (some none) := by
  decide +kernel

/-- C94: a slash at the end of a key does not matter to an HDF store, but leads to another file here. -/
theorem C94_slash_counterexample :
    csvTable (csvRun [.put "/building1/elec/meter1/".toList ⟨[(0, 5), (6, 7)], false⟩] (CsvDisk.fresh : CsvDisk Unit Nat))
      "/building1/elec/meter1".toList = .ok none ∧
    hdfGet (hdfRun [.put "/building1/elec/meter1/".toList [(0, 5), (6, 7)]] (HGroup.new : HGroup Unit Nat))
      "/building1/elec/meter1".toList = .ok [(0, 5), (6, 7)] := by
  constructor <;> decide +kernel

/-- C94: `data_location` in the metadata of a building is lost. -/
theorem C94_location_counterexample :
    csvLoadBuilding (csvRun [.saveBuilding "/building1".toList
        ⟨some [(3, [("data_location", .text "/building1/elec/meter7".toList)])], []⟩] (CsvDisk.fresh : CsvDisk Nat Nat))
      "/building1".toList =
        .ok ⟨some [(3, [("data_location", .text "/building1/elec/meter3".toList)])], []⟩ := by
  decide +kernel

/-- The hypotheses hold for a history with two meters, one of which is removed with its building. -/
example : (∀ c ∈ ([.put "/building1/elec/meter1".toList ⟨[(0, 5), (6, 7)], true⟩,
      .append "/building2/elec/meter1".toList ⟨[(0, 1)], false⟩, .remove "/building2".toList,
      .append "/building2/elec/meter1".toList ⟨[(3, 1)], false⟩] : List (CsvCall Unit Nat)), MeterCall c) ∧
    diskPath "/building2/elec/meter1".toList = .ok ["building2".toList, "elec".toList, "meter1.csv".toList] ∧
    csvTable (csvRun [.put "/building1/elec/meter1".toList ⟨[(0, 5), (6, 7)], true⟩,
      .append "/building2/elec/meter1".toList ⟨[(0, 1)], false⟩, .remove "/building2".toList,
      .append "/building2/elec/meter1".toList ⟨[(3, 1)], false⟩] (CsvDisk.fresh : CsvDisk Unit Nat))
      "/building2/elec/meter1".toList = .ok (some (some [(3, 1)])) := by
  have h1 : diskPath "/building1/elec/meter1".toList = .ok ["building1".toList, "elec".toList, "meter1.csv".toList] := by
    decide +kernel
  have h2 : diskPath "/building2/elec/meter1".toList = .ok ["building2".toList, "elec".toList, "meter1.csv".toList] := by
    decide +kernel
  refine ⟨?_, h2, by decide +kernel⟩
  intro c hc
  simp only [List.mem_cons, List.not_mem_nil, or_false] at hc
  rcases hc with rfl | rfl | rfl | rfl
  · intro p hp; rw [h1] at hp; cases hp; rfl
  · intro p hp; rw [h2] at hp; cases hp; rfl
  · trivial
  · intro p hp; rw [h2] at hp; cases hp; rfl

end Nilmtk
