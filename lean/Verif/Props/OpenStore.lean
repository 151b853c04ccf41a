import Verif.Model.OpenStore
/-!
C135: opening a data store.
-/
namespace Nilmtk

/-! ### Specification -/

/-- A format is not given. -/
def NoFormat (format : Option Str) : Prop := format = none ∨ format = some []

/-- The arguments ask for HDF5. -/
def WantsHdf (f : Str) (format : Option Str) : Prop := format = some ['H', 'D', 'F'] ∨ NoFormat format ∧ ∃ stem, f = stem ++ ['.', 'h', '5']

/-- The arguments ask for CSV. -/
def WantsCsv (f : Str) (format : Option Str) : Prop := format = some ['C', 'S', 'V'] ∨ NoFormat format ∧ ∃ stem, f = stem ++ ['.', 'c', 's', 'v']

/-! ### Theorems -/

theorem wants_disjoint (f : Str) (format : Option Str) (h : WantsHdf f format) (c : WantsCsv f format) : False := by
  rcases h with rfl | ⟨hn, s, hs⟩ <;> rcases c with h | ⟨cn, t, ht⟩
  · simp at h
  · rcases cn with h | h <;> simp at h
  · subst h; rcases hn with h | h <;> simp at h
  · have := congrArg List.getLast? (hs.symm.trans ht)
    simp [List.getLast?_append] at this

theorem infer_hdf (f : Str) (format : Option Str) (h : WantsHdf f format) : inferFormat (some f) format = .ok (some "HDF".toList) := by
  unfold inferFormat
  rcases h with rfl | ⟨hn, s, rfl⟩
  · simp
  · rw [if_pos (show format = none ∨ format = some [] from hn)]
    have : ".h5".toList.isSuffixOf (s ++ ['.', 'h', '5']) = true := List.isSuffixOf_iff_suffix.2 ⟨s, rfl⟩
    simp only [this, if_true]

theorem infer_csv (f : Str) (format : Option Str) (h : WantsCsv f format) : inferFormat (some f) format = .ok (some "CSV".toList) := by
  have hd := fun x => wants_disjoint f format x h
  unfold inferFormat
  rcases h with rfl | ⟨hn, s, rfl⟩
  · simp
  · rw [if_pos (show format = none ∨ format = some [] from hn)]
    have h1 : ¬ ".h5".toList.isSuffixOf (s ++ ['.', 'c', 's', 'v']) = true := by
      intro hx
      obtain ⟨t, ht⟩ := List.isSuffixOf_iff_suffix.1 hx
      exact hd (.inr ⟨hn, t, ht.symm⟩)
    have h2 : ".csv".toList.isSuffixOf (s ++ ['.', 'c', 's', 'v']) = true := List.isSuffixOf_iff_suffix.2 ⟨s, rfl⟩
    simp only [h1, h2, if_true]
    rfl

theorem infer_other (f : Str) (format : Option Str) (h : ¬ WantsHdf f format) (c : ¬ WantsCsv f format) :
    inferFormat (some f) format = .ok format := by
  unfold inferFormat
  by_cases hn : format = none ∨ format = some []
  · rw [if_pos hn]
    have h1 : ¬ ".h5".toList.isSuffixOf f = true := by
      intro hx
      obtain ⟨t, ht⟩ := List.isSuffixOf_iff_suffix.1 hx
      exact h (.inr ⟨hn, t, ht.symm⟩)
    have h2 : ¬ ".csv".toList.isSuffixOf f = true := by
      intro hx
      obtain ⟨t, ht⟩ := List.isSuffixOf_iff_suffix.1 hx
      exact c (.inr ⟨hn, t, ht.symm⟩)
    simp only [h1, h2]
    rfl
  · rw [if_neg hn]

theorem getDatastore_hdf {M V α : Type} (w : DiskWorld M V α) (f : Str) (format : Option Str) (mode : OpenMode) (h : WantsHdf f format) :
    getDatastore w (some f) format mode = openHdf w f mode := by
  unfold getDatastore
  rw [infer_hdf f format h]
  simp

theorem getDatastore_csv {M V α : Type} (w : DiskWorld M V α) (f : Str) (format : Option Str) (mode : OpenMode) (h : WantsCsv f format) :
    getDatastore w (some f) format mode = openCsv w f := by
  unfold getDatastore
  rw [infer_csv f format h]
  simp

/-- C135. HDF5 for reading or appending: an existing file is opened in that mode; for all else `OSError`. The disk stays as it is. -/
theorem C135_hdf_existing {M V α : Type} (w : DiskWorld M V α) (f : Str) (format : Option Str) (h : WantsHdf f format) (mode : OpenMode) (hm : mode ≠ .write) :
    (getDatastore w (some f) format mode).1 = w ∧
    ((∃ g, w f = some (.file g)) → (getDatastore w (some f) format mode).2 = .ok (some (.hdf f mode))) ∧
    ((¬ ∃ g, w f = some (.file g)) → (getDatastore w (some f) format mode).2 = .error .osError) := by
  rw [getDatastore_hdf w f format mode h]
  unfold openHdf
  cases mode with
  | write => exact absurd rfl hm
  | read =>
    rcases hw : w f with _ | ⟨g⟩ | d
    · simp
    · exact ⟨rfl, fun _ => rfl, fun hx => absurd ⟨g, rfl⟩ hx⟩
    · simp
  | append =>
    rcases hw : w f with _ | ⟨g⟩ | d
    · simp
    · exact ⟨rfl, fun _ => rfl, fun hx => absurd ⟨g, rfl⟩ hx⟩
    · simp

/-- C135. HDF5 for writing, where there is no directory: the name then stands for an empty file, whatever was in it, and no other name changes. -/
theorem C135_hdf_write {M V α : Type} (w : DiskWorld M V α) (f : Str) (format : Option Str) (h : WantsHdf f format) (hd : ∀ d, w f ≠ some (.directory d)) :
    ∃ w', getDatastore w (some f) format .write = (w', .ok (some (.hdf f .write))) ∧ w' f = some (.file (.mk none none [])) ∧ ∀ x, x ≠ f → w' x = w x := by
  refine ⟨w.set f (.file .new), ?_, by simp [DiskWorld.set, HGroup.new], fun x hx => by simp [DiskWorld.set, hx]⟩
  rw [getDatastore_hdf w f format .write h]
  unfold openHdf
  rcases hw : w f with _ | ⟨g⟩ | d
  · rfl
  · rfl
  · exact absurd hw (hd d)

/-- C135. CSV, whatever the mode: an existing directory is opened and stays as it is, where there is nothing an empty one is made, and a file gives
`OSError`. Missing of the claim that is expected: that reading needs an existing directory, and that writing begins with an empty one; see the
counterexamples. -/
theorem C135_csv_partial {M V α : Type} (w : DiskWorld M V α) (f : Str) (format : Option Str) (h : WantsCsv f format) (mode : OpenMode) :
    (∀ d, w f = some (.directory d) → getDatastore w (some f) format mode = (w, .ok (some (.csv f)))) ∧
    (∀ g, w f = some (.file g) → getDatastore w (some f) format mode = (w, .error .osError)) ∧
    (w f = none → ∃ w' d, getDatastore w (some f) format mode = (w', .ok (some (.csv f))) ∧ w' f = some (.directory d) ∧ d.files = [] ∧
      d.datasetYaml = none ∧ d.devicesYaml = none ∧ d.buildingYaml = [] ∧ ∀ x, x ≠ f → w' x = w x) := by
  rw [getDatastore_csv w f format mode h]
  unfold openCsv
  refine ⟨fun d hd => by rw [hd], fun g hg => by rw [hg], fun hn => ?_⟩
  rw [hn]
  exact ⟨_, .fresh, rfl, by simp [DiskWorld.set], rfl, rfl, rfl, rfl, fun x hx => by simp [DiskWorld.set, hx]⟩

/-- C135. Any other format, or a name without an ending that tells it, gives `ValueError`; no arguments ask for both. -/
theorem C135_refused {M V α : Type} (w : DiskWorld M V α) (f : Str) (format : Option Str) (mode : OpenMode) :
    ((getDatastore w (some f) format mode).2 = .error .valueError ↔ ¬ WantsHdf f format ∧ ¬ WantsCsv f format) ∧
    ((getDatastore w (some f) format mode).2 = .error .valueError → (getDatastore w (some f) format mode).1 = w) ∧
    ¬ (WantsHdf f format ∧ WantsCsv f format) := by
  have other : ¬ WantsHdf f format ∧ ¬ WantsCsv f format → getDatastore w (some f) format mode = (w, .error .valueError) := by
    rintro ⟨h, c⟩
    unfold getDatastore
    rw [infer_other f format h c]
    simp only
    rw [if_neg (show ¬ format = some "HDF".toList from fun e => h (.inl e)), if_neg (show ¬ format = some "CSV".toList from fun e => c (.inl e))]
  have key : (getDatastore w (some f) format mode).2 = .error .valueError → ¬ WantsHdf f format ∧ ¬ WantsCsv f format := by
    intro he
    constructor
    · intro h
      rw [getDatastore_hdf w f format mode h] at he
      unfold openHdf at he
      split at he <;> split at he <;> simp at he
    · intro h
      rw [getDatastore_csv w f format mode h] at he
      unfold openCsv at he
      split at he <;> simp at he
  exact ⟨⟨key, fun h => by rw [other h]⟩, fun he => by rw [other (key he)], fun h => wants_disjoint f format h.1 h.2⟩

/-- C135. Without a name: `AttributeError` if there is no format either, and otherwise `None`, for any format; never the `ValueError` of the code. -/
theorem C135_no_name {M V α : Type} (w : DiskWorld M V α) (format : Option Str) (mode : OpenMode) :
    (NoFormat format → getDatastore w none format mode = (w, .error .attributeError)) ∧
    (¬ NoFormat format → getDatastore w none format mode = (w, .ok none)) := by
  unfold getDatastore inferFormat
  exact ⟨fun h => by rw [if_pos (show format = none ∨ format = some [] from h)],
    fun h => by rw [if_neg (show ¬ (format = none ∨ format = some []) from h)]⟩

/-- C135. A `DataSet` of a name with the default format opens an existing HDF5 file for reading, raises `OSError` if there is none, whatever the ending of
the name, and changes nothing on the disk; without a name it opens nothing. -/
theorem C135_dataset {M V α : Type} (w : DiskWorld M V α) (f : Str) :
    (dataSetOpen w (some f)).1 = w ∧ ((∃ g, w f = some (.file g)) → (dataSetOpen w (some f)).2 = .ok (some (.hdf f .read))) ∧
    ((¬ ∃ g, w f = some (.file g)) → (dataSetOpen w (some f)).2 = .error .osError) ∧ dataSetOpen w none = (w, .ok none) := by
  have := C135_hdf_existing w f (some "HDF".toList) (.inl rfl) .read (by decide)
  exact ⟨this.1, this.2.1, this.2.2, rfl⟩

/-- What calls on the open store make of the file. -/
def fileAfter {M V α : Type} (cs : List (HCall M α)) : Option (DiskNode M V α) → Option (HGroup M α)
  | some (.file g) => some (hdfRun cs g)
  | _ => none

/-- C135. A conversion into HDF5 gives the file that it gives from an empty one, whatever was there: running it again changes nothing. -/
theorem C135_again {M V α : Type} (w : DiskWorld M V α) (f : Str) (format : Option Str) (h : WantsHdf f format) (hw : ∀ d, w f ≠ some (.directory d))
    (cs : List (HCall M α)) : fileAfter cs ((getDatastore w (some f) format .write).1 f) = some (hdfRun cs (.mk none none [])) := by
  obtain ⟨w', h1, h2, -⟩ := C135_hdf_write w f format h hw
  rw [h1]
  simp only [h2]
  rfl

/-- A disk with a directory of CSV files that has one file. -/
def demoDisk : DiskWorld Unit Unit Rat := fun f =>
  if f = "old".toList then some (.directory ⟨[[]], [(["building1".toList], [.level0, .level1, .data (0, 5)])], none, none, []⟩)
  else if f = "a.h5".toList then some (.file (.mk (some [(0, 1)]) none []))
  else none

/-- C135. CSV for writing does not begin with an empty store: what is in the directory stays. -/
theorem C135_csv_write_counterexample : ∃ d : CsvDisk Unit Rat, (getDatastore demoDisk (some "old".toList) (some "CSV".toList) .write).1 "old".toList =
    some (.directory d) ∧ d.files = [(["building1".toList], [.level0, .level1, .data (0, 5)])] :=
  ⟨_, by rw [((C135_csv_partial demoDisk "old".toList (some "CSV".toList) (.inl rfl) .write).1 _ rfl)]; rfl, rfl⟩

/-- C135. CSV for reading a name that stands for nothing raises nothing and makes a directory, also by `DataSet`. -/
theorem C135_csv_read_counterexample : demoDisk "new".toList = none ∧ (dataSetOpen demoDisk (some "new".toList) (some "CSV".toList)).2 = .ok (some (.csv "new".toList)) ∧
    ∃ d, (dataSetOpen demoDisk (some "new".toList) (some "CSV".toList)).1 "new".toList = some (.directory d) := by
  have hn : demoDisk "new".toList = none := by simp [demoDisk]
  obtain ⟨w', d, h1, h2, -⟩ := (C135_csv_partial demoDisk "new".toList (some "CSV".toList) (.inl rfl) .read).2.2 hn
  refine ⟨hn, ?_, d, ?_⟩
  · unfold dataSetOpen
    simp only
    rw [h1]
  · unfold dataSetOpen
    simp only
    rw [h1]
    exact h2

/-- A conversion that appends one row. -/
def demoConversion : List (CsvCall Unit Nat) := [.append "/building1/elec/meter1".toList ⟨[(0, 5)], false⟩]

/-- What calls on the open store make of the directory. -/
def directoryAfter {M V α : Type} (cs : List (CsvCall V α)) : Option (DiskNode M V α) → Option (CsvDisk V α)
  | some (.directory d) => some (csvRun cs d)
  | _ => none

/-- C135. A conversion into CSV that is run again does change the result: what it appends is there twice, with its header. -/
theorem C135_csv_again_counterexample : ∃ first second : CsvDisk Unit Nat,
    directoryAfter demoConversion ((getDatastore (M := Unit) (fun _ => none) (some "x".toList) (some "CSV".toList) .write).1 "x".toList) = some first ∧
    directoryAfter demoConversion ((getDatastore (M := Unit) (fun _ => some (.directory first)) (some "x".toList) (some "CSV".toList) .write).1 "x".toList) =
      some second ∧
    first.files.map Prod.snd = [[.level0, .level1, .data (0, 5)]] ∧
    second.files.map Prod.snd = [[.level0, .level1, .data (0, 5), .level0, .level1, .data (0, 5)]] := by
  refine ⟨csvRun demoConversion .fresh, csvRun demoConversion (csvRun demoConversion .fresh), rfl, ?_, ?_, ?_⟩
  · rw [(C135_csv_partial (fun _ => some (.directory (csvRun demoConversion .fresh))) "x".toList (some "CSV".toList) (.inl rfl) .write).1 _ rfl]
    rfl
  · decide +kernel
  · decide +kernel

/-- Names with endings, and an existing file. -/
example : WantsHdf "a.h5".toList none ∧ WantsHdf "a.csv".toList (some "HDF".toList) ∧ WantsCsv "b.csv".toList (some []) ∧
    ¬ WantsHdf "a".toList none ∧ (∃ g, demoDisk "a.h5".toList = some (.file g)) ∧ (∀ d, demoDisk "a.h5".toList ≠ some (.directory d)) := by
  refine ⟨.inr ⟨.inl rfl, "a".toList, rfl⟩, .inl rfl, .inr ⟨.inr rfl, "b".toList, rfl⟩, ?_, ⟨_, by simp [demoDisk]; rfl⟩, by simp [demoDisk]⟩
  rintro (h | ⟨-, s, hs⟩)
  · cases h
  · have := congrArg List.length hs
    simp at this

end Nilmtk
