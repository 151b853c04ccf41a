# Formal model of nilmtk: design

## Trusted base

* Lean 4.33.0's kernel.
* The standard axioms `propext`, `Classical.choice`, `Quot.sound` (checked with `#print axioms`,
  see `MANIFEST.json` / the audit of `vcheck`). No axiom is added, no `sorry`, `admit`,
  `native_decide`, `bv_decide`.
* The reading of `/repo` that produced the model. Every model definition cites the file and lines it mirrors
  and states its simplifications. The code is never run here.

## Conventions of the model

* Timestamps and durations are `Int` (nanoseconds; only order, addition and subtraction are used).
  Time zones are not modelled: every timestamp is an instant.
* Power/energy readings are rationals (`Rat`), `Option Rat` where NaN matters (`none` = NaN).
  IEEE rounding is **not** modelled.
* Python exceptions are values: `Except Err α`, `Err` naming the Python exception class.
* Generators are lists of yielded values, with a possible final error where the Python generator can raise midway.
* Pandas tables are lists of rows (timestamp, value), with the pandas calls used replaced by their documented meaning
  (`dropna`, `select(start, stop)`, `select_as_coordinates`, `concat`, `reindex`, `.loc`); pandas, numpy, PyTables, sklearn,
  hmmlearn, networkx themselves are outside the model.
* Python 3 semantics: `TimeFrame.__nonzero__` is never called (the Python 3 hook is `__bool__`), so a TimeFrame is always truthy.
* Layout: `Verif/Model/*` mirrors the code, `Verif/Spec/*` holds the small independent specifications,
  `Verif/Lemmas/*` helper lemmas, `Verif/Props/*` the property theorems (`Cnn_...`) with an `example` showing the hypotheses are satisfiable.

## Plan per property

| id | model | proof |
|---|---|---|
| C01 | `TF` record with setters as `Except` | invariant over operation lists; negation witness for assignments while disabled |
| C02–C04, C07–C09 | `TF.intersection`, `adjacent`, `union`, `to_dict`, `__eq__`, `__lt__` branch by branch | case analysis against the point-set specification `TF.Mem` |
| C05 | `split` as recursion on remaining duration | well-founded induction; tiling relation |
| C06 | `merge_timeframes` as left fold | induction on the list with a tail invariant |
| C10, C11 | group operations over lists | induction, reduction to C02 |
| C100 | partial_fit of CO from readings: joining the frames, `_transform_data`, clustering, the limit on the number of states | the clustering theorems of C62 with the data put in; induction over the appliances; predictions through C42 |
| C101 | the Dataport CSV converter: chunks, the cleaning of a chunk, the cache, the numbering of buildings, meters and appliances | induction over chunks, columns, files and buildings; the readings of a frame are compared with those of the rows |
| C102 | `GoodSectionsResults.unify` | through the theorems on intersections of groups (C10), row by row; induction over the meters |
| C103 | `convert_eco` | the loops as a list of tables to append (refinement, both directions), then that list against the tree of folders; the loss of folders with fewer than three plugs is a counterexample, the theorems ask for one of the two documented layouts |
| C104 | `compute_rmse` | the two loops by induction; the mean as a sum over the finite set of common times; names against a count of labels in the columns; the reliance on positions, the listing of all-NA columns and the loss of entries are counterexamples |
| C105 | `error_in_assigned_energy` and the tables of `mean_normalized_error_power`, `rms_error_power`, `f1_score` | the loop over pairs by induction, composed with the pairing of C64 and the values of C59 and C66; lost entries and uncompared energy are counterexamples |
| C106 | `convert_ideal` with `mains_plus_appliance_home_id`, `_find_all_houses_sensor`, `_load_csv` | parsing of names inverted on the format of the files; the two loops reduced to one over the files of valid homes, which puts one table per round; lost files and the documented folder name are counterexamples |
| C107 | `Appliance.label`, `ElecMeter.label`, `_pretty_label`, `MeterGroup.label`, `get_labels` | unique decoding of `repr` and of joined labels by induction on texts, once for plain and once for upper-case letters; clashes are counterexamples |
| C108 | `convert_smart` | frames are shown equal to lists of rows of named cells, by induction over the joins of a year and over the years; errors by the first home that fails; counterexamples by evaluation |
| C109 | old `Hart85`: `train`, `disaggregate`, `find_steady_states_transients` | per chunk the theorems on steady states, pairs and traces (C47, C48, C84) are lifted over the loop on chunks by induction; the store afterwards is a run of append calls (C93, C95); counterexamples by evaluation |
| C110 | `download_dataport`, `_dataport_dataframe_to_hdf` | induction over feeds, chunks, views and buildings with an invariant of tables and metadata; the chunks of time are shown to be adjacent spans, so that filtering ordered rows by them gives all rows; counterexamples by evaluation |
| C111 | `ElecMeter.meter_devices`, `nilmtk.global_meter_group` over a session | induction over the datasets opened: the last description of a model wins; registration commutes with the selection of one building, so that other files drop out; counterexamples by evaluation |
| C112 | `convert_redd` → `HDFDataStore` → `Clip` → `TotalEnergy` → `ElecMeter.total_energy` | composition of C88 (conversion), C14 (chunks tile the section), C34 (limits) and C19 (chunk energies add up) into one closed formula over the file; counterexamples by evaluation |
| C113 | `convert_redd` → `HDFDataStore` → `GoodSections` → `ElecMeter.good_sections` → `uptime` | composition of C88 (conversion), C14 (chunks), C23 (sections of one period, whatever the chunks) and C29 (update of an empty result); induction over the runs turns sections into a sum over pairs of readings; counterexamples by evaluation |
| C114 | `convert_redd` → `HDFDataStore.load` → `load_series` → `power_series_all_data` | composition of C88 (conversion), C36 (choice of columns), C14 (chunks) and C18 (removal of overlaps), which commutes with the sum of a row; the sum over the columns in the order asked for is that over the columns of the table by permutation; counterexamples by evaluation |
| C115 | `convert_redd` → `HDFDataStore.load` → `good_sections` → `DropoutRate` → `DropoutRateResults` | the rows of the chunks are pieces overlapping by one row (induction over the loop of `load`); composition with C25, C26, C28, C29, C88 and C113; the good sections are in order and apart, and what is loaded of a run is the run without its last reading (all but the last section); bounds and zero by induction over the pieces; counterexamples by evaluation |
| C116 | `convert_redd` → `total_energy`, `uptime` → `average_energy_per_period` | composition of C112, C113 and C79; the energy of a constant load by induction over the readings, with the number of gaps; bounds by comparing with constant loads; counterexamples by evaluation |
| C117 | `convert_redd` → `good_sections`, `total_energy(sections)` → `proportion_of_energy(_submetered)` | composition of C112, C115 and C79: each good section of the mains is read as one part of each table, so the energy is a sum over sections; induction over mains and meters; counterexamples by evaluation |
| C118 | `convert_redd` → group `total_energy`, `uptime`, `average_energy_per_period`, `describe` | composition of C112, C113 and C116 with an induction over the meters (energies as series with one AC type, time frames as unions); counterexamples by evaluation |
| C119 | `convert_redd` → `total_energy(ac_type='best')` → `fraction_per_meter`, `select_top_k` | composition of C112, C36 (best AC type) and C57 (fractions) with an induction over the meters; the order of the selection from any sorted permutation; counterexamples by evaluation |
| C120 | `convert_redd` → `ElecMeter.load(sample_period=...)` → `MeterGroup.load(sample_period=..., chunksize=...)` | composition of C01 (chunks of the store), C76 (resampling), C05 (splitting) and C51 (summation) with an induction over the meters for the time frame of the group; counterexamples by evaluation |
| C121 | tables → `next(elec.mains().load(...))`, `next(elec[name].load(...))` → `API.train_jointly` with `Mean` → `API.test_jointly` → errors | composition of C120 (loading), C71 (experiment) and C50 (Mean) with inductions over the buildings; errors by unfolding; counterexample by evaluation |
| C122 | files of REFIT, DRED and HIPE → converter → store → `ElecMeter.total_energy` | composition of C99 (conversion) and C112 (energy), with uniqueness of the sorted rows when no time is there twice; counterexample through the theorem |
| C123 | files of HES → `convert_hes` → store and appliances of the metadata | the nested loops as a fold over steps (chunk, house, code), an invariant of the state by induction over the steps, then the steps are sorted out by house and code; metadata by induction over the codes; counterexample by evaluation |
| C124 | lines of the files of GREEND → `_get_blocks` → `convert_greend` → store | lines are described one by one (header, data, skipped), the division into blocks is an inductive relation, the loop over lines computes it by induction over the relation; the loops over columns and houses by induction; counterexample by evaluation |
| C125 | directories of AMPds and COMBED → `convert_ampds`, `convert_combed` → store | the loops over files and meters by induction with the tables of the files as a relation; the join of the attributes by lookup in lists without repeated times; counterexamples by evaluation |
| C126 | files of iAWE → `convert_iawe`, `reindex_fill_na` → store | the means of the resampled table by the lemmas of C65, the median up to the order of the values, the table column by column, the loop over the files by induction; counterexample from the general theorem with a file without rows |
| C127 | a file of CAxE → `convert_caxe` → store | the minutes of the resampled table characterised by the rows before and after them, its values by the lemmas of C65 and C126; refusal and success decided by whether a minute has a complete row |
| C128 | `TimeFrame.slice`, with `intersection` and `split` | by cases on the bounds against the set of instants of a TimeFrame (`Mem`); consecutive TimeFrames by induction on `Tiles` of C05; counterexample with an open end |
| C129 | a table of a meter → `power_series_all_data` → `vampire_power` | the power of all rows by C114, the smallest of the readings that are there by the lemma of C33 on `min()`; windows compared by inclusion of their rows; counterexample with a lone row |
| C12–C16 | `HDFDataStore.load` over a list table | arithmetic of `range(start,end,chunksize)`; induction on the remaining rows |
| C130 | metadata of a meter → `dry_run_metadata` of each node → `check_requirements` of each node | nested dictionaries seen as functions of paths; mutual induction on the update of dictionaries; induction on the pipeline; requirements by C40 |
| C131 | metadata of a meter → `get_metadata` of each node, compared with `dry_run_metadata` | on top of the update of dictionaries of C130, induction on the pipeline; the promise by comparing paths; counterexamples for `Clip` and `TotalEnergy` on all meters |
| C132 | chunks of meters → `train` → samples and statistics → `no_overfitting` | the masks of pandas against a recursive definition of runs by induction on the edges; induction on chunks and meters; the running positions by induction on the segments; counterexample for durations |
| C133 | a chunk → events → detections → greedy choice → power of the appliance | detections against a definition by splitting the chunk; invariant of the loop: the output is the power of the runs chosen so far, which do not overlap; overlap of intervals is seen at a reading, since runs start at one |
| C134 | chunks of the mains → disaggregation (C133) → rows of meters 1 and 2 in the store | induction over the chunks with the store generalised; what an append does to the rows of a key is taken from the store of C93; a run over the end of a chunk by a witness |
| C135 | a disk, as a function from names to HDF5 files and directories of CSV files → the disk and the store or exception | cases, with endings of names as appended texts; for CSV the mode has no effect, so that only part holds, with witnesses against reading and writing |
| C136 | the store after the chunks (C134) → the metadata of data set and building | the metadata are those that C95 has for one fixed submeter; that the building is there follows from the rows that C134 gives |
| C17 | `CSVDataStore.load` over a list table | induction on chunks |
| C18 | `power_series_all_data` folded over loaded chunks | uses C12/C13 |
| C19–C21 | `get_total_energy` | induction over series; telescoping at shared row |
| C22–C24 | `get_good_sections`, `_process_chunk`, `combined` | run-decomposition specification, invariant over chunks; witness for C24 |
| C25–C27 | `get_dropout_rate`, `combined`, `unify` | rational arithmetic; witness for C27 |
| C28–C30 | `Results.append/update/unify/combined` | invariant over operation lists; witness for update |
| C31, C32 | cache read/compute/append | history invariant "every cached row equals the computed row"; witnesses |
| C33 | histogram accumulation | induction over chunks |
| C34–C36 | `Clip`, `select_best_ac_type`, column selection | case analysis, list lemmas |
| C37, C38 | `Key`, `join_key` over characters | string round trip lemmas |
| C39 | recursive copy of a tree store | tree induction |
| C40 | `find_unsatisfied_requirements` over nested dictionaries | structural induction |
| C41–C43 | `find_nearest`, `CO` | optimality by sortedness; history invariant |
| C44–C46 | kron / product / decode | mixed radix induction; sums of products |
| C47–C49 | Hart `PairBuffer`, `find_steady_states`, `assign_power_from_states` | invariants over operations; termination; witness |
| C50 | `Mean` | induction; witnesses |
| C51–C57 | `MeterGroup` operations | list/set lemmas, witnesses |
| C58 | `tree_root` over finite graphs | case analysis |
| C59 | metrics as sums over chunks | induction |
| C60 | `get_activations` | decomposition into on-periods, then pieces after smoothing; disjointness only for `border=0` (refuted otherwise) |
| C61 | `API.dropna` | list filters |
| C62 | `cluster` | reduction to sorted, deduplicated lists |
| C63 | `measurement_columns` | induction over the columns |
| C64 | pairing of two groups | induction over the submeters |
| C65 | `align_two_meters` | resampling specified by bins; induction over the chunks |
| C66 | `f1_score` | counting; weighted means |
| C67 | `Appliance.matches`, `ElecMeter.matches` | term by term against an inductive specification; `count` and `index` refuted |
| C68 | `select`, `select_using_appliances`, `MeterGroup.matches` | filter; lists of values by induction; repetition, nested groups and search by building refuted |
| C69 | `__getitem__` by dictionary, type and number | uniqueness; mutual induction over nested groups; double nesting and unknown types refuted |
| C70 | `correlation` | Cauchy-Schwarz over the aligned readings; real square roots; different lengths and NaNs refuted |
| C71 | `API.test_jointly` and what it calls | induction over buildings with the growing list of submeters as state; dictionary lemmas; key injectivity by splitting at underscores; pairing by position refuted |
| C72 | `API.test_chunk_wise` | the same per round; soundness in general, completeness when chunks cover the same periods; refuted for chunks as loaded from HDF |
| C73 | all of `losses.py` | sums of distances by induction; Cauchy-Schwarz for mae <= rmse; real square roots from Mathlib; F1 through the counts of C66; refutations with witnesses or whole families of columns |
| C74 | `MeterGroup.import_metadata` | multiset of leaves kept by every step (removal is by equality, so equal groups must have the same leaves); exact state after each prefix of the appliances by induction; refutations for disabled, order, empty lists, grouped mains |
| C75 | `Electric.switch_times`, `MeterGroup.simultaneous_switches` | jumps by position as spec; recursion on pairs; overlapping chunks joined with C12/C13; counter as multiset count; refutations for CSV chunks, missing readings, repeated timestamps |
| C76 | `ElecMeter.load` (resampling), `_prep_kwargs_for_sample_period_and_resample`, `safe_resample` | bins by position, aggregate characterised independently; forward fill characterised by induction; gaps by the last non-empty bin; refutations for rounding, sub-second periods, chunk boundaries, re-used dictionaries, ambiguous times |
| C77 | `Electric.activity_histogram`, `when_on`, `on_power_threshold`, `min_on_duration` | resampled chunks characterised by C76; the sum over rows of the reshaped matrix is a count over timestamps by phase (permutation of duplicate-free lists); refutations for short chunks, gaps, cut bins, long periods |
| C78 | `ElecMeter.upstream_meter`, `MeterGroup.upstream_meter`, `wiring_graph`, `meters_directly_downstream_of_mains`, global meter group | upstream characterised by a relation on metadata; graph edges by induction over nested groups; root by C58; refutations for several site meters, disabled mains, no submeters |
| C79 | `MeterGroup.total_energy`, `proportion_of_energy_submetered`, `Electric.proportion_of_energy`, `proportion_of_upstream`, `average_energy_per_period` | energies as association lists by AC type; group total by induction over the meters; proportions as means over shared keys; wiring from C78; refutations for mixed AC types |
| C80 | `GoodSectionsResults.import_from_cache`, `export_to_cache`, `ElecMeter._get_stat_from_cache_or_compute` for `good_sections` | table of the cache as a list of lines; round trip by uniqueness of sorted disjoint rows; transparency by an invariant of the table over histories of calls; refutations for adjacent periods, chunks, `include_end`, preprocessing |
| C81 | `MeterGroup.dataframe_of_meters` | rounds of `next` over the generators with fuel bounded by the number of chunks; characterisation of the rounds by index; soundness and completeness of cells, strictly increasing index for aligned chunks, exact condition of success; refutations for misaligned chunks, gaps, NaNs, missing columns |
| C82 | `MeterGroup.from_list`, `from_other_metergroup`, `select_top_k` | meaning of an identifier as an inductive relation; `from_list` succeeds exactly on lists of meaningful identifiers, by mutual induction on nested identifiers; `select_top_k` for any sorted order of the series; refutation of `from_other_metergroup` for all groups |
| C83 | `MeterGroup.pairwise`, `call_method_on_all_meters` | the frame as a function of pairs of identifiers, filled in the order of the nested loops; invariant over the pairs done; the mirrored pair precedes by lexicographic order; calls recorded and counted |
| C84 | `Hart85.partial_fit`, `disaggregate_chunk`, `min_rmse_column` | edges from the model of C48, pairs from C47, power from C49; invariant of the state table over the transients; argmin of the squared errors transferred to the roots; end-to-end theorem over training and prediction |
| C85 | `MeterGroup.load`, `normalise_timestamp`, `load_series`, `power_series` | tiling of sections by `split` (C05), grids of consecutive aligned pieces concatenate to the grid of the section; cells from C51, members from C76; identity of resampling on complete grids gives the exact totals |
| C86 | `energy_per_meter`, `dropout_rate`, `good_sections`, `available_ac_types`, `proportion_of_upstream_total_per_meter` of a group | loop invariant of filling a table by identifier; sums and unions by induction on the meters, with C79 and C27 for totals and unified results |
| C87 | `FHMMExact.partial_fit`, `create_combined_hmm`, `disaggregate_chunk`, given contracts for hmmlearn's `fit` and `predict` | invariant of the training loop (a dictionary of models), then C44, C45, C46 for the combined model and decoding |
| C88 | `_convert`, `_load_csv`, `_find_all_houses`, `_find_all_chans`, `_get_csv_filename`, `_matching_ints` of REDD, and the loops of UK-DALE, over directory trees | frame and completeness invariants of the loops, injectivity of keys (C37) |
| C89 | `DataSet.__init__`, `import_metadata`, `_init_buildings`, `set_window`, `elecs`, `Building.import_metadata`, `TimeFrame(start, end, tz)`, and the load of C12 through the shared store | invariant of the import loop, composed with C74; C02 and C12 for the window |
| C90 | `API.experiment`, `train_chunk_wise`, `train_jointly`, `store_classifier_instances`, with the methods as objects in a heap and any `partial_fit`; the third argument of `partial_fit` in `Mean`, `FHMMExact`, `Hart85` | runs of `partial_fit` as an inductive relation; C71, C72 for the reports; projection of the report to one method preserved by every step of testing |
| C91 | `groupby`, `values_for_appliance_metadata_key`, `dominant_appliances`, `dominant_appliance` of meters and groups, on top of the model of C67 and C68 | values related to the entries of the dominant appliances; members by C67; induction on the meters; partition for one appliance per meter |
| C92 | `DataSet.get_activity_script`, `Electric.get_activations` with the defaults from the metadata, on top of the model of C60 | C60 for every chunk; permutation and order of the sorted script; keys decoded from the end; the file as a dictionary, induction on the submeters |
| C93 | `HDFDataStore` as a tree of groups with tables and metadata; histories of calls | what is seen at one path before and after a call, specified without the tree; refinement by induction on the path, then on the history |
| C94 | `CSVDataStore` as a set of directories and of files of lines; histories of calls | the frames written to one path, specified without the directory; invariant of the directory (files lie in directories, paths of meters have three components), induction on the history |
| C95 | the legacy disaggregators writing into the HDF store of C93: training, the loop over the chunks, the metadata | the whole call is shown to be a list of appends and two metadata calls, what is seen afterwards follows from C93; invariant of the object over histories; the chosen states as in C42; the merged frames as in C06 |
| C96 | export_model and import_model of the legacy disaggregators over a heap of meter objects and a disk; failures of writing and opening are inputs | induction over the meters for the three loops; restoring undoes replacing; the pickle is followed through to the estimates of C95 |
| C97 | FHMM.disaggregate_across_buildings over a store, with the variables that outlive a building (`load_kwargs`, `cols`) | induction over the buildings; one building is the run of C95 with other estimates; keys of different buildings differ |
| C98 | Mean.__init__, partial_fit, save_model and load_model over a file system, with the text of the file; clear_model_checkpoints | the reader inverts the writer (induction over characters and items); reading is stable under more text, so a proper beginning is refused; induction over calls and sessions |
| C99 | the converters of REFIT, DRED and HIPE from the parsed files to the tables of the store | induction over columns, houses and machines; the sort is any function that returns a permutation in the order of time |

Properties that are false of the code are kept with the true part proved (`_partial`) and a theorem proving the negation from a concrete witness
(`_counterexample`).

## What is modelled, module by module

| Lean module | Python code | Left out |
|---|---|---|
| `Model/TimeFrame` | `timeframe.py`, `timeframegroup.py` | plotting, time zones, string parsing |
| `Model/HDF`, `Model/CSV` | `datastore/hdfdatastore.py`, `datastore/csvdatastore.py`: `load` and what it calls | PyTables / CSV parsing, memory estimate |
| `Model/Energy`, `Results`, `GoodSections`, `Dropout`, `Histogram` | `stats/*.py` and their results classes, `results.py` | plotting |
| `Model/Measurement`, `Key` | `measurement.py`, `datastore/key.py` | |
| `Model/Node`, `Utils`, `Convert` | `node.py`, `utils.py` (`find_nearest`, `tree_root`, ...), `datastore/datastore.py` (`convert_datastore`) | file system effects |
| `Model/CO`, `FHMM` | `combinatorial_optimisation.py`, `fhmm_exact.py` (decoding and combination), `feature_detectors/cluster.py` | k-means, HMM fitting and Viterbi are parameters |
| `Model/Hart` | `hart_85.py`: `PairBuffer`, `pair`, `assign_power_from_states` | `partial_fit`, `disaggregate_chunk`, mean shift |
| `Model/SteadyStates` | `feature_detectors/steady_states.py`: `find_steady_states` | NaN readings, printing |
| `Model/Mean` | `mean.py`: `partial_fit`, `disaggregate_chunk` | saving and loading |
| `Model/Group` | `metergroup.py`: `__eq__`, `__hash__`, `union`, `is_site_meter`, `mains`, `submeters`, `use_alternative_mains`, `get_timeframe`, `replace_dataset`, part of `__getitem__`, `iterate_through_submeters_of_two_metergroups`; `elecmeter.py` identities | hash collisions, tuple and zero instances as keys |
| `Model/Combine` | `metergroup.py`: `combine_chunks_from_generators` | several chunks per section, AC types of averaged quantities |
| `Model/Split` | `metergroup.py`: `train_test_split` | meters other than the mains; the loop bound is fuel shown sufficient |
| `Model/Metrics` | `electric.py`: `align_two_meters`; `metrics.py`: `mean_normalized_error_power`, `rms_error_power`, `f1_score` | sample periods that do not divide a day; sklearn's score is its formula |
| `Model/Fraction` | `metergroup.py`: `fraction_per_meter`; `metrics.py`: `fraction_energy_assigned_correctly` | computation of the energies (`Model/Energy`), negative energies, repeated instances |
| `Model/Activations` | `electric.py`: `get_activations` | negative `border`; the `resample` of the meter version (`Electric.activation_series` loads the power) |
| `Model/Cache` | `elecmeter.py`: `_get_stat_from_cache_or_compute`, `_compute_stat`, `key_for_cached_stat`, `clear_cache`; `results.py`: `import_from_cache`; for `total_energy` | loading of the data (each call is given the chunks it sees), other statistics, sections without bounds, the HDF table format |
| `Model/Select` | `appliance.py`: `matches`, `type`, `categories`; `elecmeter.py`: `matches`; `electric.py`: `matches_appliances`; `metergroup.py`: `matches`, `select`, `select_using_appliances`, `appliances`, `__getitem__` with a dictionary, a string or a number | values other than strings, numbers and lists of them; the order of the set of appliances; keys that are no dictionary (`TypeError`); `__getitem__` with identifiers is in `Model/Group` |
| `Model/ApiDropna` | `api.py`: `dropna` | repeated timestamps |
| `Model/Correlation` | `electric.py`: `correlation` | float rounding; repeated timestamps in a chunk; loading and resampling |
| `Model/Experiment` | `api.py`: `train_jointly`, `test_jointly`, `test_chunk_wise`, `call_predict`, `predict`, `compute_loss` | the methods and losses (arbitrary functions, without state); `train_chunk_wise`; loading; float32; plotting; addition of frames with different columns |
| `Model/Losses` | `losses.py`: `mae`, `rmse`, `f1score`, `relative_error`, `r2score`, `nde`, `nep`; the checks and conventions of the scikit-learn functions | rounding, overflow and signed zeros; frames with several columns; f1score of no rows |
| `Model/Import` | `metergroup.py`: `import_metadata` with look-up of meters and mains during the import | warnings, meter devices, the global meter group, appliances without the key `meters`, loading from the store |
| `Model/Switch` | `electric.py`: `switch_times`; `metergroup.py`: `simultaneous_switches` | column selection by `power_series`, order of the resulting series |
| `Model/Resample` | `elecmeter.py:418-443`, `electric.py:122-148`, `utils.py`: `safe_resample`; pandas `resample`, `mean`/`max`/`min`, `ffill` as definitions | time zones (only whether pandas raises `AmbiguousTimeError`), other aggregations and fill methods, several columns, warnings |
| `Model/Activity` | `electric.py`: `when_on`, `on_power_threshold`, `min_on_duration`, `activity_histogram`; `appliance.py`: `on_power_threshold` | time zones, calendar periods (week, month), column selection |
| `Model/Wiring` | `elecmeter.py`: `upstream_meter`, registration in the global group; `metergroup.py`: `upstream_meter`, `wiring_graph`, `meters_directly_downstream_of_mains` | warnings, drawing; the store behind a meter found in the global group |
| `Model/Proportion` | `metergroup.py`: `total_energy` (not `full_results`), `proportion_of_energy_submetered`; `electric.py`: `proportion_of_energy`, `proportion_of_upstream`, `average_energy_per_period` | energy of one meter (input), length of an offset alias (input), printing |
| `Model/GSCache` | `stats/goodsectionsresults.py`: `import_from_cache`, `export_to_cache`; `elecmeter.py`: `_get_stat_from_cache_or_compute`, `_compute_stat` for good sections, with the in-place edits of the discarded first `simple()` | conversion of the columns to numbers and timezones, key of the table, `full_results` |
| `Model/FrameOfMeters` | `metergroup.py`: `dataframe_of_meters` | defaults of keyword arguments and resampling (what `load` yields is a parameter), meters with equal identifiers, dtype of the cells |
| `Model/FromList` | `metergroup.py`: `from_list`, `from_other_metergroup`, `select_top_k` | look-up of mains (instance 0) and of tuple instances (a parameter), plain tuples inside a `MeterGroupID`, pandas index of tuples, the statistic ranked by |
| `Model/Pairwise` | `metergroup.py`: `call_method_on_all_meters`, `pairwise` | chained indexing of pandas, meters with equal identifiers, methods with side effects |
| `Model/HartDisagg` | `hart_85.py`: `partial_fit`, `disaggregate_chunk`, `min_rmse_column`; `cluster.py`: features of `hart85_means_shift_cluster` | `MeanShift` is an arbitrary function, mains with two columns, NaNs, chained assignment of pandas taken as effective |
| `Model/GroupLoad` | `metergroup.py`: `load`, `_convert_physical_quantity_and_ac_type_to_cols`, `sample_period`; `utils.py`: `normalise_timestamp`; `electric.py`: `load_series`, `power_series` | time zones, nested groups (only through what `load` asks of a member), pre-processing, a member whose piece needs more than one chunk of the store |
| `Model/GroupStats` | `metergroup.py`: `energy_per_meter`, `_energy_per_meter_with_remainder`, `_collect_stats_on_all_meters`, `dropout_rate`, `_check_kwargs_for_full_results_and_sections`, `good_sections`, `available_ac_types`, `available_physical_quantities`, `proportion_of_upstream_total_per_meter`; `utils.py`: `most_common` | labels as column names, printing and warnings, what pandas makes of labels that are tuples |
| `Model/FHMMTrain` | `disaggregate/fhmm_exact.py`: `FHMMExact.partial_fit`, `create_combined_hmm`, `FHMMExact.disaggregate_chunk` | hmmlearn's `fit` and `predict` and `cluster` (inputs with stated contracts), the object after a call that raised |
| `Model/Redd` | `dataset_converters/redd/convert_redd.py`, `dataset_converters/ukdale/convert_ukdale.py` | parsing of numbers in files, metadata (an input), `sort_index` (an input with a contract), time zones |
| `Model/DataSet` | `dataset.py`: `__init__`, `import_metadata`, `_init_buildings`, `set_window`, `elecs`; `building.py`: `import_metadata`, `identifier`; `timeframe.py`: constructor with time zone | the time zone database (an input), `describe`, plots, `save` |
| `Model/ExperimentRun` | `api.py`: `__init__` (after reading the parameters), `experiment`, `train_chunk_wise`, `store_classifier_instances`; signatures of `partial_fit` in `mean.py`, `fhmm_exact.py`, `hart_85.py` | printing, changes that `disaggregate_chunk` makes to a method |
| `Model/GroupBy` | `metergroup.py`: `groupby`, `values_for_appliance_metadata_key`, `dominant_appliances`, `dominant_appliance`; `elecmeter.py`: `dominant_appliance`; `utils.py`: `append_or_extend_list` | order of sets, nested dictionaries other than `categories`, warnings, the key `func` |
| `Model/Script` | `electric.py`: `on_power_threshold`, `min_on_duration`, `min_off_duration`, `_aggregate_metadata_attribute`, `Electric.get_activations`; `appliance.py`: `on_power_threshold`; `dataset.py`: `get_activity_script` | `power_series` (the chunks are inputs), the order of equal times in `sort_index`, the HDF5 file (a dictionary), printing |
| `Model/Store` | `hdfdatastore.py`: `put`, `append`, `remove`, `__getitem__`, `save_metadata`, `load_metadata`, `elements_below_key`, `get_timeframe`, `_nrows` | PyTables and the file itself, columns and dtypes (and their check in `append`), a table in the root group, keys with a component `table`, `open`/`close` |
| `Model/CsvStore` | `csvdatastore.py`: `put`, `append`, `remove`, `__getitem__`, `get_timeframe`, `save_metadata`, `load_metadata`, `_key_to_abs_path` | text below the level of lines, the columns, how pandas types the cells of a file with a header in the middle, YAML files as text, a missing `meter_devices.yaml` |
| `Model/LegacyDisag` | `legacy/disaggregate/combinatorial_optimisation.py`: `train`, `train_on_chunk`, `disaggregate`, `disaggregate_chunk`; `legacy/disaggregate/disaggregator.py`: `_pre_disaggregation_checks`, `_save_metadata_for_disaggregation`; `legacy/disaggregate/fhmm_exact.py`: `disaggregate`, `disaggregate_chunk` | `cluster`, `np.argsort` and `GaussianHMM.predict` (inputs), float32, the date, MeterGroups as submeters, `train` and `disaggregate_across_buildings` of FHMM |
| `Model/Export` | `export_model`, `import_model` of `legacy/disaggregate/{combinatorial_optimisation,fhmm_exact,hart_85}.py` | the format of pickles (a pickle holds the objects with their identities), why writing or opening fails (inputs) |
| `Model/Across` | `FHMM.disaggregate_across_buildings` in `legacy/disaggregate/fhmm_exact.py` | keyword arguments other than sample_period and sections; `good_sections`, `power_series`, `elec[i]` and `predict` are inputs |
| `Model/MeanSave` | `Mean.__init__/save_model/load_model` in `disaggregate/mean.py`, `clear_model_checkpoints` in `disaggregate/disaggregator.py`, and of Python's `json` what the file needs | JSON texts of other shapes (refused here); lone surrogates in names; failing `makedirs` and `open` |
| `Model/Columns` | `_convert` and `_load_csv` in `dataset_converters/refit/convert_refit.py`, `dred/convert_dred.py` and `hipe/convert_hipe.py` | the reading of numbers and times in the CSV text, time zones, the metadata that is added afterwards |
| `Model/COTrain` | `CO.partial_fit` and `_transform_data` on readings | frames with several columns; k-means, the silhouette score and the random indices are inputs with stated assumptions |
| `Model/DataportCsv` | `convert_dataport` of the CSV converter | the parsing of the files, rooms, the YAML files and the descriptive metadata; rows of a building with equal times in one chunk |
| `Model/Eco` | `convert_eco` | the reading of dates, the formula of the reactive power (inputs), 32-bit rounding, files with another number of columns, the metadata |
| `Model/Rmse.lean` | `compute_rmse` |
| `Model/MetricTables.lean` | the loops of `metrics.py` over pairs of meters |
| `Model/Ideal.lean` | the converter of the IDEAL dataset |
| `Model/Labels.lean` | labels of appliances, meters and groups; `repr` of texts, `capitalize`, `upper` for ASCII letters |
| `Model/Smart.lean` | the SMART* converter: selection of tables, joins with suffixes, concatenation of years, storing of columns |
| `Model/LegacyHart.lean` | the old `Hart85` over chunks: search for steps, training, writing estimates, mains and metadata |
| `Model/DataportDb.lean` | `download_dataport`: queries by chunks of ten days, feeds to meters, metadata |
| `Model/Session.lean` | what datasets opened in one session share: meter devices and the global meter group; `device`, `sample_period`, `available_columns`, `upstream_meter` |
| `Model/MeterEnergy.lean` | `ElecMeter.total_energy` of a meter in an HDF store, from the table to the result |
| `Model/MeterUptime.lean` | `ElecMeter.good_sections`, `uptime` and `proportion_uptime` of a meter in an HDF store, from the table to the result |
| `Model/MeterPower.lean` | `power_series` and `power_series_all_data` of a meter in an HDF store, with any columns, from the table to the result |
| `Model/MeterDropout.lean` | `dropout_rate` of a meter in an HDF store from the table to the result, with and without good sections |
| `Model/MeterAverage.lean` | `average_energy_per_period` of a meter in an HDF store from the table to the result |
| `Model/MeterProportion.lean` | `proportion_of_energy` and `proportion_of_energy_submetered` of meters in an HDF store from the tables to the result |
| `Model/Describe.lean` | `MeterGroup.total_energy`, `uptime`, `average_energy_per_period` and `describe(compute_expensive_stats=False)` of meters in an HDF store from the tables to the result |
| `Model/MeterShare.lean` | `ElecMeter.total_energy(ac_type='best')`, `fraction_per_meter` and `select_top_k` of meters in an HDF store from the tables to the result |
| `Model/StoredLoad.lean` | `ElecMeter.load(sample_period=...)` and `MeterGroup.load` of meters in an HDF store from the tables to the chunks |
| `Model/StoredExperiment.lean` | `API.experiment` with one method on buildings in HDF stores, from the tables to the errors; `Mean` as a method of the experiment |
| `Model/Hes.lean` | `convert_hes` and `_process_meter_in_chunk` of nilmtk/dataset_converters/hes/convert_hes.py: the loops over files, chunks, houses and codes, and the appliances of the metadata; without the list of houses (pandas before 2.0 only, not used), 32 bit rounding, dates and the YAML files |
| `Model/Greend.lean` | `_get_blocks`, `_get_houses` and the data part of `convert_greend` of nilmtk/dataset_converters/greend/convert_greend.py; what `pd.read_csv` makes of a block is an input; without time zones, 32 bit rounding and metadata |
| `Model/Ampds.lean` | the data parts of `convert_ampds` (nilmtk/dataset_converters/ampds/convert_ampds.py) and `convert_combed` (nilmtk/dataset_converters/combed/convert_combed.py), for pandas before 2.0; without text in columns, 32 bit rounding, time zones and metadata |
| `Model/Iawe.lean` | the data part of `convert_iawe` and `reindex_fill_na` of nilmtk/dataset_converters/iawe/convert_iawe.py, for pandas before 2.0; without files in which two columns have the same meaning, 32 bit rounding, time zones and metadata |
| `Model/Caxe.lean` | the data part of `convert_caxe` of nilmtk/dataset_converters/caxe/convert_caxe.py, for pandas before 2.0; without cells that are not numbers, times that are missing, 32 bit rounding, time zones and metadata |
| `Model/Slice.lean` | `TimeFrame.slice` of nilmtk/timeframe.py; without missing times and without comparing times with and without time zone |
| `Model/Vampire.lean` | `Electric.vampire_power` of a meter in an HDF store and `get_vampire_power` of nilmtk/electric.py, on top of `Model/MeterPower.lean` |
| `Model/Pipeline.lean` | `Node.dry_run_metadata` and the order of the checks of nilmtk/node.py, with the requirements and postconditions of the nodes; `recursively_update_dict` of nilm_metadata is external and modelled from its documentation (lists are replaced, and a dictionary against a plain value is an input) |
| `Model/NodeMetadata.lean` | `Node.get_metadata` of nilmtk/node.py and `to_dict` of the results of nilmtk/stats; that `to_dict` raises nothing is assumed |
| `Model/Mle.lean` | `train`, `train_on_chunk` and `no_overfitting` of nilmtk/legacy/disaggregate/maximum_likelihood_estimation.py, as for the versions of pandas that have `.ix`; resampling and the fit of distributions are not modelled, and chunks have no missing reading |
| `Model/MleDisag.lean` | `disaggregate_chunk` and `__physical_quantity` of nilmtk/legacy/disaggregate/maximum_likelihood_estimation.py; the likelihood is an input, as is the order of ties in `sort`; chunks have one column without missing readings |
| `Model/MleStore.lean` | `MLE.disaggregate` of nilmtk/legacy/disaggregate/maximum_likelihood_estimation.py up to the metadata; resampling is an input |
| `Model/OpenStore.lean` | `get_datastore` of nilmtk/utils.py, the constructors of `HDFDataStore` and `CSVDataStore`, and what `DataSet.__init__` opens; names within a directory of CSV files, other files and permissions are not modelled |
| `Model/MleMetadata.lean` | all of `MLE.disaggregate` of nilmtk/legacy/disaggregate/maximum_likelihood_estimation.py; names with the date in them and empty `preprocessing_applied` are left out |

Each definition cites the exact lines; what is not cited is not modelled.

## How the theorems are tested

Wrong programs are built in a copy outside this repository; `seeded/LOG.jsonl` has one line per attempt. An attempt counts only if
the edited model was really built: a build that fails without an error in a Lean file is not recorded.
