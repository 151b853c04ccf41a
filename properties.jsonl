{"id": "C01", "title": "A TimeFrame never ends before it starts", "statement": "After any sequence of constructing, setting start/end and clearing that does not raise, a TimeFrame whose start and end are both set has start < end; an assignment that would break this raises ValueError and leaves the frame unchanged. (False when start/end are assigned while `enabled` is False: the check is skipped, and re-enabling exposes a reversed frame.)", "quantifier": "every finite sequence of constructor/setter/clear/enable operations on one TimeFrame and every timestamp", "why_tests_cant": "the reversed frame only appears for particular operation orders (e.g. disable, assign, enable); tests try a few orders", "anchors": ["nilmtk/timeframe.py:TimeFrame.__init__", "nilmtk/timeframe.py:TimeFrame.start", "nilmtk/timeframe.py:TimeFrame.end", "nilmtk/timeframe.py:TimeFrame.clear"]}
{"id": "C02", "title": "Intersection of two TimeFrames is the set of instants in both", "statement": "For half-open frames an instant lies in a.intersection(b) exactly when it lies in a and in b, open ends count as infinite, and the result is flagged empty exactly when no instant is shared. With include_end frames this holds for every instant before the earlier end, but is false at the end point itself when both frames end together with different include_end flags, and when the frames share only a closed end point.", "quantifier": "every pair of TimeFrames (open-ended, empty, disabled, closed or half-open) and every instant", "why_tests_cant": "needs all relative positions of two intervals, all None combinations and all instants", "anchors": ["nilmtk/timeframe.py:TimeFrame.intersection"]}
{"id": "C03", "title": "Intersection is commutative, associative and idempotent", "statement": "Comparing with ==: a.intersection(b) == b.intersection(a); a.intersection(b).intersection(c) == a.intersection(b.intersection(c)); a.intersection(a) == a for a well-formed enabled frame; intersecting with None or an unbounded frame returns the frame; an empty operand gives an empty result. The include_end flag is not part of ==, and it is not commutative.", "quantifier": "all triples of TimeFrames", "why_tests_cant": "algebraic laws quantify over all triples including mixed open-ended and empty frames", "anchors": ["nilmtk/timeframe.py:TimeFrame.intersection", "nilmtk/timeframe.py:TimeFrame.__eq__"]}
{"id": "C04", "title": "Overlap check raises exactly on overlap", "statement": "check_for_overlap raises ValueError if and only if the two (half-open) frames have an instant in common; frames that merely touch do not raise.", "quantifier": "every pair of TimeFrames", "why_tests_cant": "requires every relative position including touching boundaries and open ends", "anchors": ["nilmtk/timeframe.py:TimeFrame.check_for_overlap"]}
{"id": "C05", "title": "split() partitions the frame into pieces no longer than the threshold", "statement": "For a bounded frame and a positive threshold, split(threshold) terminates; the pieces are in order, each piece starts where the previous one ended, the first starts at the frame's start, the last ends at the frame's end, every piece is non-empty and no longer than the threshold, and all but the last have exactly the threshold duration. A threshold <= 0 raises ValueError.", "quantifier": "every bounded TimeFrame and every duration threshold", "why_tests_cant": "termination and exact tiling must hold for every duration/threshold ratio", "anchors": ["nilmtk/timeframe.py:TimeFrame.split", "nilmtk/timeframe.py:split_timeframes"]}
{"id": "C06", "title": "merge_timeframes preserves coverage and separates the result", "statement": "For a sorted list of bounded, non-overlapping half-open frames and gap >= 0, every instant covered by the input is covered by the output, every additional instant lies in a hole of at most `gap` seconds, consecutive output frames are separated by more than `gap`, and merging again changes nothing. (Overlapping input frames are not merged.)", "quantifier": "every sorted list of frames of every length and every gap", "why_tests_cant": "list length and hole sizes are unbounded", "anchors": ["nilmtk/timeframe.py:merge_timeframes", "nilmtk/timeframe.py:TimeFrame.adjacent", "nilmtk/timeframe.py:TimeFrame.union"]}
{"id": "C07", "title": "union is the convex hull", "statement": "a.union(b) of two bounded frames contains every instant of both and is contained in every frame containing both; it raises TypeError when either is open-ended.", "quantifier": "every pair of TimeFrames", "why_tests_cant": "all relative positions and all None combinations", "anchors": ["nilmtk/timeframe.py:TimeFrame.union"]}
{"id": "C08", "title": "TimeFrame dictionary round trip", "statement": "TimeFrame.from_dict(tf.to_dict()) == tf for every enabled, non-empty frame, and the same for lists; an empty frame comes back as the unbounded frame (so the round trip is lossy exactly for empty frames).", "quantifier": "every TimeFrame; every list of TimeFrames", "why_tests_cant": "round trips must hold for every value", "anchors": ["nilmtk/timeframe.py:TimeFrame.to_dict", "nilmtk/timeframe.py:TimeFrame.from_dict", "nilmtk/timeframe.py:list_of_timeframe_dicts", "nilmtk/timeframe.py:list_of_timeframes_from_list_of_dicts"]}
{"id": "C09", "title": "TimeFrame equality, hashing and ordering", "statement": "== is an equivalence relation and equal frames have equal hashes; < is a strict weak order on frames with a start. (The operators supplied by total_ordering are not consistent: of two frames with the same start and different ends each is > and >= the other and neither is <= the other.)", "quantifier": "all pairs and triples of TimeFrames", "why_tests_cant": "relations quantify over all triples", "anchors": ["nilmtk/timeframe.py:TimeFrame.__eq__", "nilmtk/timeframe.py:TimeFrame.__lt__", "nilmtk/timeframe.py:TimeFrame.__hash__"]}
{"id": "C10", "title": "TimeFrameGroup intersection masks one group by another", "statement": "For groups of half-open frames an instant is covered by a.intersection(b) exactly when it is covered by a and by b; if both groups are sorted and disjoint so is the result, and its uptime is at most the uptime of either group.", "quantifier": "all pairs of TimeFrameGroups of any length and every instant", "why_tests_cant": "unbounded group lengths and all interval arrangements", "anchors": ["nilmtk/timeframegroup.py:TimeFrameGroup.intersection", "nilmtk/timeframegroup.py:TimeFrameGroup.uptime"]}
{"id": "C11", "title": "remove_shorter_than and uptime", "statement": "remove_shorter_than(t) keeps exactly the frames of duration >= t, in order; it is idempotent and applying two thresholds equals applying the larger; uptime is additive over concatenation, is independent of order, and for disjoint frames equals the measure of the covered set. uptime after splitting all frames is unchanged.", "quantifier": "every group and every threshold", "why_tests_cant": "unbounded groups", "anchors": ["nilmtk/timeframegroup.py:TimeFrameGroup.remove_shorter_than", "nilmtk/timeframegroup.py:TimeFrameGroup.uptime", "nilmtk/timeframe.py:split_timeframes"]}
{"id": "C12", "title": "HDF load returns every row of each section exactly once (after removing the one-row overlap)", "statement": "For every table with increasing timestamps, every store window, section and chunksize >= 1: concatenating the loaded chunks, dropping the first row of every chunk but the first, gives exactly the rows whose timestamp lies in window∩section, in order. False when exactly one row matches a bounded section (nothing is yielded) and when a one-row table is loaded unbounded (an empty frame is yielded).", "quantifier": "all tables, windows, sections and chunk sizes", "why_tests_cant": "off-by-one errors appear only for particular residues of the row count modulo the chunk size", "anchors": ["nilmtk/datastore/hdfdatastore.py:HDFDataStore.load"]}
{"id": "C13", "title": "HDF chunks have bounded size and share exactly one row", "statement": "For a section holding at least two rows: every chunk has between 2 and chunksize+1 rows and the last row of each chunk is the first row of the next. A section without rows is delivered as one empty frame.", "quantifier": "all tables, sections and chunk sizes", "why_tests_cant": "depends on all residues modulo the chunk size", "anchors": ["nilmtk/datastore/hdfdatastore.py:HDFDataStore.load"]}
{"id": "C14", "title": "HDF chunk timeframes tile the section", "statement": "Within a section holding at least two rows the first chunk's timeframe starts at the start of window∩section (or at the first row if open), each chunk's timeframe ends where the next begins, and the last one ends at the end of window∩section (or at the last row if open); so the timeframes do not overlap. Loading an unbounded section of a table whose row count is 1 modulo chunksize (and > 1) instead raises ValueError on the last chunk.", "quantifier": "all tables, sections and chunk sizes", "why_tests_cant": "the failing residue class is easy to miss in tests with fixed sizes", "anchors": ["nilmtk/datastore/hdfdatastore.py:HDFDataStore.load", "nilmtk/datastore/hdfdatastore.py:_timeframe_for_chunk"]}
{"id": "C15", "title": "HDF look-ahead rows are the rows that follow on disk", "statement": "With n_look_ahead_rows = n > 0, the look-ahead of a chunk is exactly the (at most n) rows stored immediately after the chunk's last row, crossing the section end and never repeating a row of the chunk.", "quantifier": "all tables, sections, chunk sizes and n", "why_tests_cant": "boundaries at chunk, section and table end", "anchors": ["nilmtk/datastore/hdfdatastore.py:HDFDataStore.load"]}
{"id": "C16", "title": "all_sections_smaller_than_chunksize reports truthfully", "statement": "After a load has been consumed, the flag is False exactly when some section was delivered in more than one chunk.", "quantifier": "all tables, section lists and chunk sizes", "why_tests_cant": "depends on every section of the list", "anchors": ["nilmtk/datastore/hdfdatastore.py:HDFDataStore.load"]}
{"id": "C17", "title": "CSV load returns every row of each section exactly once", "statement": "For every CSV table with increasing timestamps, section and chunksize, concatenating the loaded chunks gives exactly the rows with section.start <= t < section.end within the window, in order and without repetition. A chunk that contributes exactly one row raises ValueError instead, and rows at a closed section end are omitted although the HDF store returns them.", "quantifier": "all tables, windows, sections and chunk sizes", "why_tests_cant": "the failure depends on where chunk boundaries fall relative to the section", "anchors": ["nilmtk/datastore/csvdatastore.py:CSVDataStore.load"]}
{"id": "C18", "title": "power_series_all_data reassembles the whole series", "statement": "Joining the chunks of a loaded meter yields each timestamp once, in increasing order, with the same values, whatever the chunk size, for sections that follow one another; None is returned when there is no row. (A section holding exactly one row contributes nothing, and overlapping sections repeat timestamps.)", "quantifier": "all tables, lists of sections and chunk sizes", "why_tests_cant": "every chunk boundary", "anchors": ["nilmtk/electric.py:Electric.power_series_all_data", "nilmtk/datastore/hdfdatastore.py:HDFDataStore.load"]}
{"id": "C19", "title": "Total energy does not depend on the chunk size", "statement": "Adding the per-chunk energies of consecutive chunks that share one row equals the energy computed on the whole series, provided the shared rows are not NaN. (If the shared row is NaN the interval around it is dropped, so the total changes with the chunk size. For an `energy` column the shared row is counted twice, so the total also depends on the chunk size; cumulative energy telescopes.)", "quantifier": "every series, every chunking and every max_sample_period", "why_tests_cant": "every position of chunk boundaries relative to NaNs", "anchors": ["nilmtk/stats/totalenergy.py:get_total_energy", "nilmtk/stats/totalenergy.py:_energy_for_power_series"]}
{"id": "C20", "title": "Energy from power is bounded and monotone", "statement": "For non-negative power, energy from a power series is >= 0, is at most max_power x duration, never credits more than max_sample_period of time to one reading, is monotone in the readings and in max_sample_period, and scales linearly; a series with fewer than two readings gives 0.", "quantifier": "every series and max_sample_period", "why_tests_cant": "inequalities over all series", "anchors": ["nilmtk/stats/totalenergy.py:_energy_for_power_series"]}
{"id": "C21", "title": "Energy source preference", "statement": "For each AC type the energy is taken from cumulative energy if that column exists, otherwise from the energy column, otherwise from power; AC types with none of them do not appear in the result.", "quantifier": "every set of columns", "why_tests_cant": "all column subsets", "anchors": ["nilmtk/stats/totalenergy.py:get_total_energy"]}
{"id": "C22", "title": "Good sections are the maximal gap-free runs of readings", "statement": "For one chunk without look-ahead, a closed good section is reported exactly for every maximal run of at least two consecutive readings whose successive gaps are <= max_sample_period, from the first to the last reading of the run; sections are in order and disjoint.", "quantifier": "every list of timestamps and every max_sample_period", "why_tests_cant": "all patterns of gaps", "anchors": ["nilmtk/stats/goodsections.py:get_good_sections"]}
{"id": "C23", "title": "Good sections do not depend on the chunk size", "statement": "Computing good sections chunk by chunk (with look-ahead and the carried open-ended flag) and combining them gives the same sections as computing on the whole series.", "quantifier": "every series and every chunking into overlapping chunks", "why_tests_cant": "every position of chunk boundaries relative to gaps", "anchors": ["nilmtk/stats/goodsections.py:GoodSections._process_chunk", "nilmtk/stats/goodsections.py:get_good_sections", "nilmtk/stats/goodsectionsresults.py:GoodSectionsResults.combined"]}
{"id": "C24", "title": "Asking for combined good sections twice gives the same answer", "statement": "combined() is a query: calling it again returns the same sections. (False: combined() edits the stored sections in place.)", "quantifier": "every results object with at least one open-ended section", "why_tests_cant": "tests call it once", "anchors": ["nilmtk/stats/goodsectionsresults.py:GoodSectionsResults.combined"]}
{"id": "C25", "title": "Dropout rate is a proportion", "statement": "Whenever it is defined, get_dropout_rate returns a value in [0, 1); it is NaN exactly when there are fewer than five readings; removing readings (keeping first and last) never lowers it.", "quantifier": "every list of timestamps and every positive sample period", "why_tests_cant": "all sample counts and periods", "anchors": ["nilmtk/stats/dropoutrate.py:get_dropout_rate"]}
{"id": "C26", "title": "Combined dropout rate is the sample-weighted mean", "statement": "combined() equals sum(rate_i x n_i)/sum(n_i) and lies between the smallest and largest chunk rate when no chunk is NaN; a NaN chunk drags the result towards zero instead of being ignored.", "quantifier": "every list of chunk results", "why_tests_cant": "unbounded number of chunks", "anchors": ["nilmtk/stats/dropoutrateresults.py:DropoutRateResults.combined"]}
{"id": "C27", "title": "Unifying dropout rates over meters averages the meters", "statement": "For two meters unify gives the mean. For three or more, the result should be the mean and independent of the order of the meters. (False: successive halving weights the last meter by one half.)", "quantifier": "every list of meters' rates and every order", "why_tests_cant": "two-meter tests cannot see it", "anchors": ["nilmtk/stats/dropoutrateresults.py:DropoutRateResults.unify"]}
{"id": "C28", "title": "Results rows never overlap and failed appends change nothing", "statement": "After any sequence of appends, the stored rows are sorted by start and pairwise non-overlapping; an append that raises leaves the object unchanged.", "quantifier": "every finite sequence of append operations", "why_tests_cant": "histories are unbounded", "anchors": ["nilmtk/results.py:Results.append", "nilmtk/results.py:Results.check_for_overlap"]}
{"id": "C29", "title": "Results.update merges disjoint results", "statement": "update(other) succeeds exactly when the union of rows is non-overlapping, and then holds the sorted union of both. A failing update should leave the object unchanged. (False: the rows are replaced before the overlap check.)", "quantifier": "all pairs of Results", "why_tests_cant": "failure atomicity over all states", "anchors": ["nilmtk/results.py:Results.update"]}
{"id": "C30", "title": "Unifying total-energy results adds energies per AC type", "statement": "unify over meters with the same time rows gives row by row the sum of both, independent of order; combined() of the unified results equals the sum of the combined() results.", "quantifier": "every list of results with the same rows", "why_tests_cant": "unbounded", "anchors": ["nilmtk/stats/totalenergyresults.py:TotalEnergyResults.unify", "nilmtk/results.py:Results.combined", "nilmtk/results.py:Results.unify"]}
{"id": "C31", "title": "The statistics cache is transparent", "statement": "A statistic requested through the cache equals the statistic computed from the data, whatever statistics were requested before. (True while all calls on a meter see the same columns without preprocessing, and no requested section is one of several chunks of another; false across calls with different ac_type / physical_quantity, across datasets with the same building and meter numbers, and after chunked requests made twice.)", "quantifier": "every history of statistics requests", "why_tests_cant": "depends on the history of earlier requests", "anchors": ["nilmtk/elecmeter.py:ElecMeter._get_stat_from_cache_or_compute", "nilmtk/elecmeter.py:ElecMeter.key_for_cached_stat", "nilmtk/results.py:Results.import_from_cache", "nilmtk/results.py:Results.export_to_cache"]}
{"id": "C32", "title": "The cache import returns exactly the cached rows of the requested sections", "statement": "import_from_cache copies a cached row if and only if its start and end equal those of a requested section; exporting and importing the same sections reproduces the rows.", "quantifier": "every cached table and every list of sections", "why_tests_cant": "all tables and sections", "anchors": ["nilmtk/results.py:Results.import_from_cache", "nilmtk/results.py:Results.export_to_cache"]}
{"id": "C33", "title": "Histogram over chunks equals histogram of all data", "statement": "With an explicit range and bin count, the counts accumulated over chunks equal the counts of the concatenated data, so they do not depend on chunking; their total is the number of readings within the range.", "quantifier": "every list of chunks", "why_tests_cant": "every chunking", "anchors": ["nilmtk/stats/histogram.py:histogram_from_generator"]}
{"id": "C34", "title": "Clip bounds every reading and is idempotent", "statement": "With both limits known and lower <= upper, every non-NaN output lies within the limits, readings already within are unchanged, clipping twice equals clipping once and order is preserved; if either limit is missing nothing changes.", "quantifier": "every chunk and limits", "why_tests_cant": "all values", "anchors": ["nilmtk/preprocessing/clip.py:Clip.process", "nilmtk/preprocessing/clip.py:_find_limits"]}
{"id": "C35", "title": "Best AC type selection", "statement": "select_best_ac_type returns a type that is available, is mains-preferred first when given, otherwise the first of the preference order active, apparent, reactive; it raises KeyError exactly when no AC type is available.", "quantifier": "every list of available AC types and preferences", "why_tests_cant": "all subsets and orders", "anchors": ["nilmtk/measurement.py:select_best_ac_type"]}
{"id": "C36", "title": "Column selection returns only existing, matching columns", "statement": "Requesting a physical quantity / AC type returns exactly the available columns matching the request ('best' picks one per quantity), and raises MeasurementError exactly when none match.", "quantifier": "every set of available columns and every request", "why_tests_cant": "all combinations", "anchors": ["nilmtk/elecmeter.py:ElecMeter._convert_physical_quantity_and_ac_type_to_cols", "nilmtk/elecmeter.py:ElecMeter._ac_type_to_columns", "nilmtk/elecmeter.py:ElecMeter._physical_quantity_to_columns", "nilmtk/elecmeter.py:ElecMeter._get_columns_with_best_ac_type"]}
{"id": "C37", "title": "Key string round trip", "statement": "For every key k with building >= 1 and optional meter >= 1, Key(str(k)) has the same building and meter as k (Key defines no __eq__), keys with different building or meter have different texts, and str(Key(s)) is a fixed point: reading it again gives the same text.", "quantifier": "every key", "why_tests_cant": "all numbers", "anchors": ["nilmtk/datastore/key.py:Key"]}
{"id": "C38", "title": "join_key builds a normalised path", "statement": "join_key always returns a path with exactly one leading slash, no trailing slash and no doubled separators between parts; it ignores empty and root parts and is associative.", "quantifier": "every list of key parts", "why_tests_cant": "all strings and arities", "anchors": ["nilmtk/datastore/datastore.py:join_key"]}
{"id": "C39", "title": "convert_datastore copies everything", "statement": "After convert_datastore, the output store holds the same keys, the same rows in the same order and the same metadata as the input store.", "quantifier": "every hierarchical store", "why_tests_cant": "unbounded hierarchies", "anchors": ["nilmtk/datastore/datastore.py:convert_datastore"]}
{"id": "C40", "title": "Processing nodes run only when their requirements are met", "statement": "find_unsatisfied_requirements returns an empty list exactly when the metadata supplies every required key (recursively) with the required value, or any value where 'ANY VALUE' is asked.", "quantifier": "every pair of nested dictionaries", "why_tests_cant": "unbounded nesting", "anchors": ["nilmtk/node.py:find_unsatisfied_requirements", "nilmtk/node.py:Node.check_requirements"]}
{"id": "C41", "title": "find_nearest returns a closest array element", "statement": "For every query value the returned index points at an array element whose distance to the value is minimal, and the returned residual is value minus that element.", "quantifier": "every non-empty array (unsorted, with duplicates) and every list of query values", "why_tests_cant": "all arrays", "anchors": ["nilmtk/utils.py:find_nearest"]}
{"id": "C42", "title": "Combinatorial optimisation picks the best combination", "statement": "For appliances with distinct names: for each mains reading the predicted appliance powers are states of the respective appliances and no other combination of states has a total closer to the reading; one prediction is made per reading per appliance. A NaN reading is predicted as the combination with the largest total. (False when one training call names an appliance twice.)", "quantifier": "every set of appliance state lists and every mains series", "why_tests_cant": "exponential space of combinations", "anchors": ["nilmtk/disaggregate/combinatorial_optimisation.py:CO.disaggregate_chunk", "nilmtk/disaggregate/combinatorial_optimisation.py:CO._set_state_combinations_if_necessary"]}
{"id": "C43", "title": "The combination table is never stale", "statement": "After any sequence of training and disaggregation calls, disaggregation uses the combinations of exactly the appliances trained so far.", "quantifier": "every history of partial_fit / disaggregate_chunk calls", "why_tests_cant": "history dependent", "anchors": ["nilmtk/disaggregate/combinatorial_optimisation.py:CO.partial_fit", "nilmtk/disaggregate/combinatorial_optimisation.py:CO._set_state_combinations_if_necessary"]}
{"id": "C44", "title": "FHMM state encoding and decoding agree", "statement": "For every combined state the decoded per-appliance states are valid, the combined mean is the sum of the decoded appliance means, the combined start probability and transition probability are the products of the individual ones, and decoding is a bijection between combined states and tuples of appliance states.", "quantifier": "every list of appliances with any number of states and every combined state", "why_tests_cant": "mixed-radix arithmetic over all sizes", "anchors": ["nilmtk/disaggregate/fhmm_exact.py:decode_hmm", "nilmtk/disaggregate/fhmm_exact.py:compute_pi_fhmm", "nilmtk/disaggregate/fhmm_exact.py:compute_A_fhmm", "nilmtk/disaggregate/fhmm_exact.py:compute_means_fhmm"]}
{"id": "C45", "title": "The combined FHMM is a probability model", "statement": "If every appliance's start vector and transition rows are non-negative and sum to one, so do the combined start vector and transition rows.", "quantifier": "every list of appliance HMMs", "why_tests_cant": "unbounded sizes", "anchors": ["nilmtk/disaggregate/fhmm_exact.py:compute_pi_fhmm", "nilmtk/disaggregate/fhmm_exact.py:compute_A_fhmm"]}
{"id": "C46", "title": "Sorting HMM parameters by mean keeps the model", "statement": "sort_learnt_parameters permutes start probabilities and transitions consistently with the sorted means, so sums are preserved. (False when two states have the same mean: the mapping then repeats a state.)", "quantifier": "every list of means, start vector and matrix", "why_tests_cant": "ties are rare in tests", "anchors": ["nilmtk/disaggregate/fhmm_exact.py:sort_learnt_parameters", "nilmtk/disaggregate/fhmm_exact.py:return_sorting_mapping"]}
{"id": "C47", "title": "Hart pairing produces valid on/off pairs", "statement": "In every matched pair the first transition is earlier and positive, the two powers cancel within the tolerance, and no transition belongs to two pairs, over any sequence of transitions and any buffer size.", "quantifier": "every sequence of transitions and every parameter setting", "why_tests_cant": "history dependent with eviction", "anchors": ["nilmtk/disaggregate/hart_85.py:PairBuffer.pair_transitions", "nilmtk/disaggregate/hart_85.py:PairBuffer.clean_buffer", "nilmtk/disaggregate/hart_85.py:PairBuffer.add_transition", "nilmtk/disaggregate/hart_85.py:Hart85.pair"]}
{"id": "C48", "title": "Steady-state detection reports only significant transitions", "statement": "Every reported transition exceeds the noise level, timestamps of reported transitions are non-decreasing and taken from the data, steady states and transitions have equal length; on a signal with no significant event it should report nothing. (False: it raises IndexError.)", "quantifier": "every power series and thresholds", "why_tests_cant": "all signals", "anchors": ["nilmtk/feature_detectors/steady_states.py:find_steady_states"]}
{"id": "C49", "title": "Hart power assignment terminates and follows the states", "statement": "assign_power_from_states terminates for every state sequence, gives the appliance either 0 or its centroid at each sample, and gives the centroid between a switch-on and the following switch-off.", "quantifier": "every state sequence", "why_tests_cant": "termination for all inputs", "anchors": ["nilmtk/disaggregate/hart_85.py:Hart85.assign_power_from_states"]}
{"id": "C50", "title": "Mean disaggregator: training in chunks equals training at once", "statement": "Training on chunks one after another gives the same model as training on the concatenation, and the predicted power is the mean of the training readings. (False for fractional chunk sums, which are truncated per chunk, and in the presence of NaN readings, which are counted.)", "quantifier": "every list of training chunks", "why_tests_cant": "all chunkings", "anchors": ["nilmtk/disaggregate/mean.py:Mean.partial_fit", "nilmtk/disaggregate/mean.py:Mean.disaggregate_chunk"]}
{"id": "C51", "title": "Group power is the sum of the meters' power", "statement": "At every timestamp the loaded group power is the sum of the available meter readings, NaN exactly when all meters are NaN there, independent of meter order; quantities such as voltage are averaged over the meters that have a reading. (False for averaging when a meter's row is present but NaN.)", "quantifier": "every list of meters, timestamps and NaN patterns", "why_tests_cant": "all NaN patterns and meter orders", "anchors": ["nilmtk/metergroup.py:combine_chunks_from_generators"]}
{"id": "C52", "title": "Mains and submeters partition the group", "statement": "Every meter of a group is in exactly one of mains() and submeters(), and use_alternative_mains keeps the total set of meters (enabled plus disabled).", "quantifier": "every group", "why_tests_cant": "all groups", "anchors": ["nilmtk/metergroup.py:MeterGroup.mains", "nilmtk/metergroup.py:MeterGroup.submeters", "nilmtk/metergroup.py:MeterGroup.use_alternative_mains"]}
{"id": "C53", "title": "MeterGroup equality and hashing agree", "statement": "Groups that compare equal have equal hashes. (False: equality ignores meter order, the hash does not.)", "quantifier": "all pairs of groups", "why_tests_cant": "all permutations of meters", "anchors": ["nilmtk/metergroup.py:MeterGroup.__eq__", "nilmtk/metergroup.py:MeterGroup.__hash__"]}
{"id": "C54", "title": "MeterGroup union and membership", "statement": "a.union(b) contains exactly the meters of both, without duplicates, and is commutative and idempotent up to ==.", "quantifier": "all pairs of groups", "why_tests_cant": "all groups", "anchors": ["nilmtk/metergroup.py:MeterGroup.union", "nilmtk/metergroup.py:MeterGroup.__eq__"]}
{"id": "C55", "title": "Group timeframe is the hull of the meters' timeframes", "statement": "get_timeframe covers each meter's timeframe and is the smallest such frame. (Raises TypeError when the first meter has no data and a later one has; AttributeError when a nested group without meters is not the first.)", "quantifier": "every list of meters", "why_tests_cant": "all lists", "anchors": ["nilmtk/metergroup.py:MeterGroup.get_timeframe"]}
{"id": "C56", "title": "Train/test split time divides the good records", "statement": "train_test_split returns a time inside a good section of the mains such that the good records before it are the wanted fraction of all of them, up to the rounding of records to whole numbers; it raises AssertionError unless 0 < fraction < 1 and never IndexError.", "quantifier": "every group and fraction", "why_tests_cant": "all fractions", "anchors": ["nilmtk/metergroup.py:MeterGroup.train_test_split"]}
{"id": "C57", "title": "Per-meter energy fractions form a distribution", "statement": "fraction_per_meter values are non-negative and sum to one when total energy is positive; fraction_energy_assigned_correctly lies in [0,1] and equals 1 exactly when prediction and truth have the same fractions.", "quantifier": "every energy assignment", "why_tests_cant": "all real assignments", "anchors": ["nilmtk/metergroup.py:MeterGroup.fraction_per_meter", "nilmtk/metrics.py:fraction_energy_assigned_correctly"]}
{"id": "C58", "title": "The wiring tree has one root or an error", "statement": "tree_root returns the unique node without predecessors and raises RuntimeError exactly when there is no such node or more than one.", "quantifier": "every directed graph", "why_tests_cant": "all graphs", "anchors": ["nilmtk/utils.py:tree_root"]}
{"id": "C59", "title": "Error metrics do not depend on chunking", "statement": "mean_normalized_error_power and rms_error_power computed chunk by chunk equal the value on the concatenated aligned data; rms_error_power is >= 0, mean_normalized_error_power is >= 0 when the true power is not negative, and both are 0 exactly when prediction equals truth at every aligned sample where both have a reading.", "quantifier": "every list of aligned chunks", "why_tests_cant": "every chunking", "anchors": ["nilmtk/metrics.py:mean_normalized_error_power", "nilmtk/metrics.py:rms_error_power"]}
{"id": "C60", "title": "Activations are disjoint, long enough and separated", "statement": "get_activations returns disjoint, ordered slices of the series; each lasts at least min_on_duration, contains all above-threshold samples of its on-period; between two consecutive activations the series is off for at least min_off_duration.", "quantifier": "every series and every setting", "why_tests_cant": "all patterns of on/off", "anchors": ["nilmtk/electric.py:get_activations"]}
{"id": "C61", "title": "API.dropna aligns mains and appliances", "statement": "After dropna, mains and all appliances have the same index, containing exactly the timestamps present and non-NaN in all of them.", "quantifier": "every mains frame and list of appliance frames", "why_tests_cant": "all NaN patterns", "anchors": ["nilmtk/api.py:API.dropna"]}
{"id": "C62", "title": "Learnt appliance states are well formed", "statement": "cluster never raises whatever k-means does; the states are ascending without repetitions, contain the off state 0, are at most max_num_clusters many, and are the rounded centres of one of the clusterings tried, the one with the best silhouette score when scores are available.", "quantifier": "every behaviour of k-means and of the silhouette score, every maximum number of clusters >= 2", "why_tests_cant": "k-means is random and its failures are rare", "anchors": ["nilmtk/feature_detectors/cluster.py:cluster", "nilmtk/feature_detectors/cluster.py:_apply_clustering"]}
{"id": "C63", "title": "Column names are checked", "statement": "measurement_columns accepts a list of columns exactly when every physical quantity is known and every power or energy column has a known AC type; it returns the columns unchanged in order, and raises MeasurementError otherwise.", "quantifier": "every list of pairs of strings", "why_tests_cant": "all lists", "anchors": ["nilmtk/measurement.py:measurement_columns", "nilmtk/measurement.py:check_ac_type", "nilmtk/measurement.py:check_physical_quantity"]}
{"id": "C64", "title": "Metrics compare each submeter with its counterpart", "statement": "iterate_through_submeters_of_two_metergroups visits the submeters of the first group in order, each with a meter of the second group that has the same instance and building in the second group's dataset (for nested groups: the same set of meters); it raises KeyError when a submeter has no counterpart.", "quantifier": "all pairs of groups, nested groups included", "why_tests_cant": "all groups", "anchors": ["nilmtk/metergroup.py:iterate_through_submeters_of_two_metergroups", "nilmtk/metergroup.py:replace_dataset", "nilmtk/metergroup.py:MeterGroup.__getitem__"]}
{"id": "C65", "title": "Two meters are aligned sample by sample", "statement": "align_two_meters yields, for the chunks of the master meter, tables whose rows are the bins of the master's sample period in which the master has readings, holding the mean of the readings of each meter in that bin, restricted to the chunk's time; no row holds readings of another bin. It stops silently at the first master chunk with fewer than two readings.", "quantifier": "every sequence of chunks of both meters and every sample period", "why_tests_cant": "all gaps and offsets between the two meters", "anchors": ["nilmtk/electric.py:align_two_meters"]}
{"id": "C66", "title": "The F1 score is a weighted mean of harmonic means", "statement": "f1_score of a meter is, for each aligned chunk, the harmonic mean of precision and recall of the on state, combined over chunks as a mean weighted by chunk length; it lies in [0,1] and is 1 for a perfect prediction. (It depends on the chunking, unlike the error metrics.)", "quantifier": "every list of aligned chunks of states", "why_tests_cant": "every chunking, chunks without any on state", "anchors": ["nilmtk/metrics.py:f1_score"]}
{"id": "C67", "title": "Search terms mean what they say", "statement": "Appliance.matches and ElecMeter.matches, when they return, say whether every search term is true: of the identifier (with synonyms of the type), else of the metadata, else of the categories or of the appliance type or meter device, where a value also fits a list that has it. The order of the terms does not matter, more terms match less, and an unknown term raises KeyError.", "quantifier": "every appliance, meter, table of types and dictionary of search terms", "why_tests_cant": "all metadata", "anchors": ["nilmtk/appliance.py:Appliance.matches", "nilmtk/elecmeter.py:ElecMeter.matches"]}
{"id": "C68", "title": "select returns exactly the matching meters", "statement": "select and select_using_appliances return the matching meters in order, leaving out those for which a term is undefined, and raise KeyError exactly when none matches; terms are ANDed; a list of values selects for each value, with KeyError if one of them selects nothing, and each meter once.", "quantifier": "every group, nested groups included, and all search terms", "why_tests_cant": "all groups and metadata", "anchors": ["nilmtk/metergroup.py:MeterGroup.select", "nilmtk/metergroup.py:MeterGroup.select_using_appliances", "nilmtk/metergroup.py:MeterGroup.matches", "nilmtk/electric.py:Electric.matches_appliances"]}
{"id": "C69", "title": "Looking up a meter is unambiguous", "statement": "elec[...] with a dictionary or an appliance type returns the only meter with a matching appliance, and with a number the only meter with this instance, looking into nested groups (the meter, never the group); it raises KeyError if there is none and Exception if there are several.", "quantifier": "every group and key", "why_tests_cant": "all groups, nested groups", "anchors": ["nilmtk/metergroup.py:MeterGroup.__getitem__"]}
{"id": "C70", "title": "Correlation of two meters is Pearson's coefficient", "statement": "correlation lies in [-1, 1], is symmetric, is 1 for a meter with itself, equals Pearson's correlation coefficient of the paired readings, does not depend on the chunking, and is NaN exactly when a meter has fewer than two samples or is constant.", "quantifier": "all pairs of lists of chunks, with any gaps and NaNs", "why_tests_cant": "all chunkings, lengths and NaN patterns", "anchors": ["nilmtk/electric.py:Electric.correlation"]}
{"id": "C71", "title": "An experiment scores each building against its own readings", "statement": "After a joint test, errors and errors_keys have the same length and list, building by building and metric by metric (metrics that do not exist are left out), for every method and every appliance the loss between that appliance's readings in that building and the method's predictions for the same instants; the readings of earlier buildings, which stay in test_submeters, have no influence. Surplus predictions are ignored, too few or unknown ones raise. Each key determines the data set, the building and the metric. Training passes the same instants for mains and appliances. (Without DROP_ALL_NANS predictions and readings are paired by position, and may belong to different instants.)", "quantifier": "all lists of buildings, appliances, methods, losses, metrics and readings with any gaps; with or without artificial aggregate", "why_tests_cant": "the list of submeters grows over all buildings, so the effect depends on the whole history; names of data sets are arbitrary", "anchors": ["nilmtk/api.py:API.test_jointly", "nilmtk/api.py:API.train_jointly", "nilmtk/api.py:API.call_predict", "nilmtk/api.py:API.predict", "nilmtk/api.py:API.compute_loss"]}
{"id": "C72", "title": "Testing in chunks tests what a joint test would", "statement": "With chunk_size, every round compares mains and appliances at instants that a joint test would compare, and reports one entry per metric under a key that determines data set, building, chunk and metric; every instant of the joint test is compared in exactly one round.", "quantifier": "all lists of chunks of the mains and of every appliance", "why_tests_cant": "depends on how the gaps of all meters shift their chunks against each other", "anchors": ["nilmtk/api.py:API.test_chunk_wise"]}
{"id": "C73", "title": "The losses measure the distance between prediction and ground truth", "statement": "For columns without NaN: mae, rmse, nde, nep and relative_error are never negative and zero exactly for a perfect prediction; mae is symmetric and obeys the triangle inequality, is at most rmse, and over two stretches of data is the weighted mean; nde and nep are 1 for the prediction that is always 0 and do not depend on the unit of power; r2score is at most 1, 1 exactly for a perfect prediction and 0 for predicting the mean; f1score is between 0 and 1 and 1 exactly when the readings of at least 10 W agree and exist. mae, rmse and r2score refuse NaN, unequal lengths and empty columns. (False: relative_error with negative predictions, nep with negative readings, NaN predictions with nde and nep, f1score of an appliance that is never on.)", "quantifier": "all columns of readings and predictions", "why_tests_cant": "inequalities and 'exactly for' range over all columns; the failing cases are particular signs and NaNs", "anchors": ["nilmtk/losses.py:mae", "nilmtk/losses.py:rmse", "nilmtk/losses.py:f1score", "nilmtk/losses.py:relative_error", "nilmtk/losses.py:r2score", "nilmtk/losses.py:nde", "nilmtk/losses.py:nep"]}
{"id": "C74", "title": "Importing a building puts every meter in exactly one place and attaches its appliances", "statement": "When import_metadata succeeds, each meter of elec_meters is exactly once in meters, in a nested group of meters, or in disabled_meters, whatever the appliances. For ordinary metadata (meter numbers other than 0, no appliance with several meters lists the mains, no site meter is grouped while an appliance lists the mains) it succeeds exactly when every appliance lists existing meters, each once, none belonging to an earlier appliance with several meters; the enabled single meters come first in the order of the metadata, then one group per appliance with several meters with its meters in the listed order; each meter has exactly the appliances that list it (a site meter also those that list the mains, 0), in their order. Disabled meters are disabled. (False for meters of an appliance with several meters; the order of the appliances matters; an appliance with no meters makes mains() raise.)", "quantifier": "all metadata: any meters, flags and appliances with any lists of meters", "why_tests_cant": "each appliance changes the lists in which the next ones are looked up; the result depends on the whole sequence", "anchors": ["nilmtk/metergroup.py:MeterGroup.import_metadata", "nilmtk/metergroup.py:MeterGroup.__getitem__"]}
{"id": "C75", "title": "Switch times are the jumps between successive readings", "statement": "switch_times(threshold) lists, in order, the timestamp of every reading that differs from the one before it in the same section by more than the threshold, each once, whatever the chunk size of the HDF store; simultaneous_switches reports each timestamp at which at least two submeters switch, once, with the number of submeters that switch then, and nothing else. (False for a CSV store, whose chunks share no row: the switch at a cut is lost; a missing reading hides the change across it; a submeter with a repeated timestamp can count twice.)", "quantifier": "all tables with increasing timestamps, all sections and chunk sizes, all thresholds, all groups of meters", "why_tests_cant": "depends on where chunks are cut and on the counts over all submeters", "anchors": ["nilmtk/electric.py:Electric.switch_times", "nilmtk/metergroup.py:MeterGroup.simultaneous_switches"]}
{"id": "C76", "title": "Resampling delivers a regular series and fills only short gaps", "statement": "load(sample_period=m) delivers, for each chunk that is not empty, one row every m seconds, counted from the midnight before the first row, from the bin of the first row to the bin of the last. Each value is the mean of the readings in its bin (of rows with the same timestamp the first counts), or that of the last bin with a reading, carried no further than max_sample_period and one bin; when no gap is longer than max_sample_period nothing is missing; a series that is already regular is unchanged; without sample_period and resample the data are unchanged. (False for sample periods that are not whole seconds: the limit is computed before rounding, and half a second or less is refused; bins cut by a chunk boundary are delivered twice; a resample_kwargs dictionary used again keeps the limit of the first call; the work-around for ambiguous times always raises KeyError.)", "quantifier": "all chunks, all sample periods and limits, all ways to aggregate (mean, max, min)", "why_tests_cant": "gaps and bins can fall anywhere; a test tries a few", "anchors": ["nilmtk/elecmeter.py:ElecMeter.load", "nilmtk/electric.py:Electric._prep_kwargs_for_sample_period_and_resample", "nilmtk/utils.py:safe_resample"]}
{"id": "C77", "title": "The activity histogram counts the bins in which the appliance is on", "statement": "activity_histogram(period, bin_duration) is refused when the bins do not divide the period. Otherwise it has one entry per bin of the period: the number of bins of the resampled chunks, in that part of the period, that are on. A bin with readings is on exactly when one of its readings is at or above the threshold. The threshold of a meter is the least of those of its appliances (each its own, else its nominal power, else that of its type, else 10 W), 10 W without appliances; the minimum on duration is the greatest known one. (Only for periods that divide a day and chunks of at least five bins: shorter chunks are ignored and longer periods depend on the first day of a chunk; an hour without readings counts as on when the one before was on; an hour cut by a chunk boundary is counted twice.)", "quantifier": "all chunks, thresholds, bins and periods that divide a day, all appliances", "why_tests_cant": "activity can fall anywhere and be cut by chunks anywhere", "anchors": ["nilmtk/electric.py:Electric.activity_histogram", "nilmtk/electric.py:Electric.when_on", "nilmtk/electric.py:Electric.on_power_threshold", "nilmtk/electric.py:Electric.min_on_duration", "nilmtk/appliance.py:Appliance.on_power_threshold"]}
{"id": "C78", "title": "The wiring graph has one edge per submeter, from the meter its metadata name", "statement": "ElecMeter.upstream_meter returns None for a site meter, else the meter of the same building numbered by submeter_of, or for submeter_of 0 the site meter(s) of the building among all meters created so far; ValueError, NotImplementedError and KeyError exactly for missing or negative metadata, another building, and a meter that is not known. wiring_graph has exactly one edge into each submeter at any depth, from its upstream meter. meters_directly_downstream_of_mains is exactly the submeters fed by the mains, each once; RuntimeError when not exactly one meter feeds others without being fed. A group's upstream_meter is the common upstream of its meters, else RuntimeError. (The mains of a building with several site meters is a group, while submeter_of 1 names one of them: two roots and RuntimeError; disabled site meters count as mains too; a building with only mains raises.)", "quantifier": "all lists of meters and groups nested to any depth, all metadata, all lists of meters created so far", "why_tests_cant": "wirings are trees, cycles or broken references of any shape", "anchors": ["nilmtk/elecmeter.py:ElecMeter.upstream_meter", "nilmtk/elecmeter.py:ElecMeter.__init__", "nilmtk/metergroup.py:MeterGroup.wiring_graph", "nilmtk/metergroup.py:MeterGroup.upstream_meter", "nilmtk/metergroup.py:MeterGroup.meters_directly_downstream_of_mains", "nilmtk/utils.py:nodes_adjacent_to_root"]}
{"id": "C79", "title": "Proportions of energy are quotients of the meters' energies", "statement": "MeterGroup.total_energy is, for each AC type, the sum of the energies of its meters in whatever order. proportion_of_energy is the mean over the shared AC types of the quotients of the energies; it is c when the meter used the fraction c of the other, lies between 0 and 1 when it used no more than the other, and is NaN when the other used nothing. proportion_of_energy_submetered is the sum of the proportions, in the mains, of the meters directly downstream of the mains, leaving out NaNs: their energy over that of the mains. proportion_of_upstream is the quotient for the best AC type. average_energy_per_period is energy times period over uptime. (A group total has only the AC types of its first meter, and NaN for those not measured by all; without shared AC types a proportion can exceed 1; energies of different AC types that cancel give NaN; proportion_of_upstream is NaN when the upstream meter has a better AC type than the meter.)", "quantifier": "all energies, AC types, groups, wirings and periods", "why_tests_cant": "mixtures of AC types, NaNs and zero energies are unbounded", "anchors": ["nilmtk/metergroup.py:MeterGroup.total_energy", "nilmtk/metergroup.py:MeterGroup.proportion_of_energy_submetered", "nilmtk/electric.py:Electric.proportion_of_energy", "nilmtk/electric.py:Electric.proportion_of_upstream", "nilmtk/electric.py:Electric.average_energy_per_period"]}
{"id": "C80", "title": "Caching good sections does not change them", "statement": "Rows of good sections written to the statistics cache are read back with the same sections when their period is asked for. Whatever calls were made before, good_sections returns the sections that computing them afresh would give; a period is stored once, however often it is asked for. (False in general: adjacent periods crossed by a good section make the second identical call raise IndexError; include_end depends on what was cached; a period loaded in several chunks is never found in the cache and is stored again by every call, after which a request for one of the chunks returns its section twice; a call with preprocessing fills the cache used by calls without.)", "quantifier": "all tables, data and histories of requests", "why_tests_cant": "histories of requests and their overlap with the cached periods are unbounded", "anchors": ["nilmtk/stats/goodsectionsresults.py:GoodSectionsResults.import_from_cache", "nilmtk/stats/goodsectionsresults.py:GoodSectionsResults.export_to_cache", "nilmtk/elecmeter.py:ElecMeter._get_stat_from_cache_or_compute", "nilmtk/elecmeter.py:ElecMeter.good_sections"]}
{"id": "C81", "title": "dataframe_of_meters tabulates the readings of every meter", "statement": "Each number in the DataFrame returned by dataframe_of_meters is the reading (summed over its columns) of the meter of its column at the time of its row, and every reading of every meter is in it, with one row per time and NaN exactly where a meter has no reading. (False in general: meters whose chunks are not aligned give several rows for one time; the frame ends at the first round in which no meter has a non-empty chunk; a NaN reading becomes 0; a meter without readings has no column unless no meter has any. The call succeeds exactly if no meter raises in the rounds read and the chunks of a round have equal times or no repeated times.)", "quantifier": "all groups with distinct meters, all sequences of chunks of every length", "why_tests_cant": "the number of meters, of chunks, and how their times interleave are unbounded", "anchors": ["nilmtk/metergroup.py:MeterGroup.dataframe_of_meters", "nilmtk/metergroup.py:MeterGroup._meter_generators"]}
{"id": "C82", "title": "Groups are assembled from identifiers as asked", "statement": "from_list returns a group with one meter per distinct identifier, in order of first occurrence: the meter of the group with that identifier, the existing nested group of exactly the given meters, or a new nested group assembled from them; it raises KeyError exactly if an identifier has no meaning in the group, so a group is rebuilt from its own identifiers. select_top_k selects the k highest (or lowest) ranked meters, each once, NaN ranked last, and puts all others into one nested group on request. from_other_metergroup assembles the same meters for another data set. (False: from_other_metergroup looks the meters up in the new empty group and discards the result, so it raises for any group that has a meter and otherwise returns an empty group; the same nested group named with its meters in two orders is included twice; meters inside nested groups are not found.)", "quantifier": "all groups, nested to any depth, all lists of identifiers, all rankings and k", "why_tests_cant": "the nesting of groups and identifiers and their repetitions are unbounded", "anchors": ["nilmtk/metergroup.py:MeterGroup.from_list", "nilmtk/metergroup.py:MeterGroup.from_other_metergroup", "nilmtk/metergroup.py:MeterGroup.select_top_k", "nilmtk/metergroup.py:MeterGroup.__getitem__"]}
{"id": "C83", "title": "Pairwise statistics cover every pair of meters once", "statement": "pairwise(method), for a group whose meters have distinct identifiers and a symmetrical method (which its documentation assumes), returns a frame whose cell for any two meters, including a meter with itself, is the method called on these two meters; the frame is symmetric. The method is called exactly once for every unordered pair, in order, with the meter that comes first in the group as receiver, and an exception it raises is passed on. call_method_on_all_meters returns the method's result for every meter. (Without the assumption the mirrored cell repeats the value of the other order, so it may not be what the method would give.)", "quantifier": "all methods, all groups of every size", "why_tests_cant": "the number of meters is unbounded, and mirrored cells are read from the frame being filled", "anchors": ["nilmtk/metergroup.py:MeterGroup.pairwise", "nilmtk/metergroup.py:MeterGroup.call_method_on_all_meters", "nilmtk/metergroup.py:MeterGroup.pairwise_correlation", "nilmtk/metergroup.py:MeterGroup.pairwise_mutual_information"]}
{"id": "C84", "title": "Hart85 predicts the trace of the device that fits each appliance best", "statement": "After training on mains with one power column, each appliance is matched to the learnt device whose trace over the training data has the least root mean square error against the readings of the appliance (the first of several equally good ones). disaggregate_chunk returns, for one chunk with at least one detected step, one frame with the index of the chunk and a column for every appliance: the power of the matched device (without fraction) from a switch-on to the next switch-off, zero otherwise. Every step is attributed to the device whose power is nearest to the size of the step. (With several chunks the code returns one frame only, for the last chunk with the steps of the first; a device switched on at the very last sample is shown as running from the start; two appliances may share a device; a chunk without steps raises.)", "quantifier": "all mains, all appliances, all results of MeanShift, chunks of every length", "why_tests_cant": "chunks and numbers of devices are unbounded, and which device gets a step depends on all the others", "anchors": ["nilmtk/disaggregate/hart_85.py:Hart85.partial_fit", "nilmtk/disaggregate/hart_85.py:Hart85.disaggregate_chunk", "nilmtk/disaggregate/hart_85.py:Hart85.min_rmse_column", "nilmtk/disaggregate/hart_85.py:Hart85.assign_power_from_states", "nilmtk/feature_detectors/cluster.py:hart85_means_shift_cluster"]}
{"id": "C85", "title": "Loading a group in chunks gives every time of the grid once, with the readings of the meters added up", "statement": "MeterGroup.load(sample_period, sections, chunksize) yields chunks with the union of the columns of the meters. Put together, the chunks of a section have every multiple of the sample period in the section exactly once and in order, no chunk has more than chunksize rows, and every reading is the sum (for voltage etc. the mean) of the readings of the meters resampled to that time. When the meters have a reading at every time of the grid the result is the exact total and does not depend on the chunk size, and power_series yields the total power. load_series adds the columns of a physical quantity, with no value where one of them has none. (The code repeats times and exceeds chunksize for sections that do not start on the grid or sample periods that do not divide a day, does not carry readings over chunk boundaries, loses the last reading of the group when no sections are given, raises for empty sections and for periods below a second, rounds fractional periods differently from the meters, and adds different types of power.)", "quantifier": "all groups, all readings, all sections, sample periods and chunk sizes", "why_tests_cant": "the number of chunks and meters is unbounded and the claim relates all chunks of a section with each other", "anchors": ["nilmtk/metergroup.py:MeterGroup.load", "nilmtk/metergroup.py:MeterGroup._convert_physical_quantity_and_ac_type_to_cols", "nilmtk/metergroup.py:MeterGroup.sample_period", "nilmtk/utils.py:normalise_timestamp", "nilmtk/electric.py:Electric.load_series", "nilmtk/electric.py:Electric.power_series"]}
{"id": "C86", "title": "Statistics of a group are collected from all of its meters", "statement": "MeterGroup.energy_per_meter() has a column for every meter in their order and a row for every AC type; a cell is the energy of that type measured by the meter, NaN if it did not measure it, and a row adds up to total_energy() of the group. With per_period each cell is divided by the number of periods in the meter's time frame. mains= adds the remainder. dropout_rate() is the mean of the meters' rates and within [0, 1]; with full_results it needs sections when there is more than one meter and otherwise unifies the results. good_sections() are the times good for every meter. available_ac_types() and available_physical_quantities() are the unions over the meters, without repetitions. proportion_of_upstream_total_per_meter() lists every meter once, by falling proportion, NaN last. A call raises exactly if a meter does. (The code keeps rows without any energy, gives meters with the same identifier the energy of the last, always raises AttributeError with mains=, combines full results of three meters to something else than the mean, and takes the good sections of the first meter only.)", "quantifier": "all groups, all answers of the meters", "why_tests_cant": "the number of meters is unbounded and the claim relates what different calls return for the same group", "anchors": ["nilmtk/metergroup.py:MeterGroup.energy_per_meter", "nilmtk/metergroup.py:MeterGroup._energy_per_meter_with_remainder", "nilmtk/metergroup.py:MeterGroup.dropout_rate", "nilmtk/metergroup.py:MeterGroup._collect_stats_on_all_meters", "nilmtk/metergroup.py:MeterGroup._check_kwargs_for_full_results_and_sections", "nilmtk/metergroup.py:MeterGroup.good_sections", "nilmtk/metergroup.py:MeterGroup.available_ac_types", "nilmtk/metergroup.py:MeterGroup.available_physical_quantities", "nilmtk/metergroup.py:MeterGroup.proportion_of_upstream_total_per_meter", "nilmtk/utils.py:most_common"]}
{"id": "C87", "title": "FHMM predicts, for every reading, one state of every trained appliance", "statement": "FHMMExact.partial_fit trains a hidden Markov model for exactly the appliances that have a reading, from all of their readings, with the states in ascending order of their means, and combines them into the model of independent appliances: a state for every combination, whose mean is the sum of the means and whose start and transition probabilities are products and are proper distributions. disaggregate_chunk returns for each chunk a frame with a column for every trained appliance and a row for every reading; the values in a row are the rounded means of the appliance states that make up the state predicted for that reading, and add up to its mean up to 1/2 per appliance. The result does not depend on other chunks. Training again replaces the model, so nothing of the earlier training data is used. Without any reading IndexError is raised, before training AttributeError. (The code names appliances without readings, and appliances trained twice repeatedly, in the columns for empty chunks only, and labels the rows by number instead of by time. With equal means the probabilities are no distributions.)", "quantifier": "all training data, all chunks, all numbers of appliances and states", "why_tests_cant": "the number of appliances, states and readings is unbounded, and the claim relates training with every later prediction", "anchors": ["nilmtk/disaggregate/fhmm_exact.py:FHMMExact.partial_fit", "nilmtk/disaggregate/fhmm_exact.py:create_combined_hmm", "nilmtk/disaggregate/fhmm_exact.py:FHMMExact.disaggregate_chunk"]}
{"id": "C88", "title": "Conversion stores every channel file under the key of its house and channel, and nothing else", "statement": "convert_redd and convert_ukdale store the rows of every file house_<h>/channel_<c>.dat under the key of building h and meter c, and store nothing else; different files never share a key, and the result does not depend on the order in which the system lists the directories. REDD: all rows, sorted by time, of channels 1 and 2 as apparent and of the others as active power. UK-DALE: the rows in the order of the file, of equal times only the first, as power of the first kind in the metadata; a meter of active and apparent power gets the rows of mains.dat of its house. A directory as expected is converted without an error; a path that is no directory raises IOError and stores nothing. (The code leaves out houses with two digits and channels with three, raises AssertionError for names such as channel_01.dat or channel_1_dat, may keep another than the first of equal times when it also sorts, and stores UK-DALE files that are out of order as they are.)", "quantifier": "all directory trees, all listing orders, all files and rows, all metadata, all ways in which sorting treats equal times", "why_tests_cant": "the numbers of houses, files and rows are unbounded, and that nothing else is stored speaks of all keys", "anchors": ["nilmtk/dataset_converters/redd/convert_redd.py:_convert", "nilmtk/dataset_converters/redd/convert_redd.py:_load_csv", "nilmtk/dataset_converters/redd/convert_redd.py:_matching_ints", "nilmtk/dataset_converters/ukdale/convert_ukdale.py:convert_ukdale"]}
{"id": "C89", "title": "Opening a dataset gives one building per building of the store, and its window decides what every meter loads", "statement": "DataSet(filename) has one entry in buildings for every building in the store, under the instance its metadata name, with exactly the meters and appliances of its metadata, each meter identified by number, building and dataset; it raises exactly if the import of a building raises. set_window(start, end) sets the window of the store that all meters share, or raises (RuntimeError without store or time zone, TypeError for times with a time zone, ValueError if start is not before end) and changes nothing; afterwards every load, with any chunk size and sections, delivers exactly the rows at or after start and before end, taken as times on the clock in the time zone of the dataset. The last window counts, and set_window() removes it. (The code puts building 10 before building 2, silently keeps only one of two buildings with the same instance, keeps the buildings of an earlier store when another is imported, and delivers no row if just one lies in the window.)", "quantifier": "all stores, metadata, tables, windows, time zones, sections and chunk sizes", "why_tests_cant": "the buildings, tables and windows are unbounded, and the claim is about every later load of every meter", "anchors": ["nilmtk/dataset.py:DataSet.import_metadata", "nilmtk/dataset.py:DataSet._init_buildings", "nilmtk/dataset.py:DataSet.set_window", "nilmtk/building.py:Building.import_metadata", "nilmtk/timeframe.py:TimeFrame.__init__"]}
{"id": "C90", "title": "An experiment trains every method on exactly the prepared training data, and the methods do not influence each other", "statement": "After a successful API(params), a method with a pretrained model is unchanged; with chunk_size a method that trains in chunks has had one call of partial_fit per epoch, building and chunk of the mains, in order, with the readings of the mains and of every appliance at the instants at which all have one, and its n_epochs is 1; every other method has had one call with those readings of all buildings. The reports are the losses of the methods so trained. A method that runs together with others ends in the same state and has the same losses as when it runs alone, and an experiment of several methods fails exactly if one of them alone fails. (The code passes the number of the epoch as a third positional argument: with chunk_size, Mean and FHMMExact raise TypeError and Hart85 takes it for the size of its buffer and fails. One object under two names is trained twice.)", "quantifier": "all methods, objects, training and test data, chunk sizes and numbers of epochs", "why_tests_cant": "the claim compares runs with any set of methods, whose training is an arbitrary function", "anchors": ["nilmtk/api.py:API.__init__", "nilmtk/api.py:API.experiment", "nilmtk/api.py:API.train_chunk_wise", "nilmtk/api.py:API.train_jointly", "nilmtk/api.py:API.store_classifier_instances", "nilmtk/disaggregate/mean.py:Mean.partial_fit"]}
{"id": "C91", "title": "groupby divides the meters by a value of the metadata of their appliances", "statement": "dominant_appliance() of a meter is the first appliance marked as dominant, else the first, else None; of a group it is the one its members agree on. After groups = elec.groupby(key) there is one group for every value the key has among the dominant appliances (in their own metadata or in those of their type), each with another name; it is not empty, keeps the order of the meters, and each of its meters has an appliance with that value; a meter is in the group of every value its appliances have. If every meter has one appliance with a single value of its own, every meter is in exactly one group. If a meter has no appliance grouping raises. (The code takes the first fridges of two buildings for one appliance and drops a room; groupby('category'), the documented example, gives no group; a key that metadata override or give as a list raises KeyError; groups overlap through appliances that are not dominant and through synonyms; a meter whose first appliance lacks the key is left out.)", "quantifier": "all groups, nested groups, appliances, metadata, appliance types and keys", "why_tests_cant": "the claim relates two different traversals of metadata, with precedence rules, over arbitrary groups", "anchors": ["nilmtk/metergroup.py:MeterGroup.groupby", "nilmtk/metergroup.py:MeterGroup.values_for_appliance_metadata_key", "nilmtk/metergroup.py:MeterGroup.dominant_appliances", "nilmtk/metergroup.py:MeterGroup.dominant_appliance", "nilmtk/elecmeter.py:ElecMeter.dominant_appliance", "nilmtk/utils.py:append_or_extend_list", "nilmtk/hashable.py:Hashable"]}
{"id": "C92", "title": "The activity script records the start and the end of every activation of every submeter", "statement": "on_power_threshold() of a meter is the smallest threshold of its appliances (own metadata, else nominal power, else type, else 10 W) and 10 W without appliances; min_on_duration() and min_off_duration() are the largest that the types give, else 0. meter.get_activations() returns the activations of its chunks one after another, with these defaults for what is not given, and every activation begins before it ends. get_activity_script writes one table per submeter under a key that tells building, type and number of its dominant appliance; the table is sorted by time, has one True and one False per activation, at no instant have more activations ended than begun, and it alternates if activations do not overlap. It can be written exactly if every submeter has a dominant appliance. (In the code an activation that crosses from one chunk to the next is lost; durations in the metadata of an appliance itself are ignored; with the default border activations may overlap and the table does not alternate; of two submeters with the same dominant appliance only the last is kept; a submeter without appliance makes the export fail.)", "quantifier": "all appliances, metadata, chunks, activations, parameters, buildings and meters", "why_tests_cant": "the tables depend on arbitrary readings in arbitrary chunks, and on sets of meters of any size", "anchors": ["nilmtk/dataset.py:DataSet.get_activity_script", "nilmtk/electric.py:Electric.get_activations", "nilmtk/electric.py:Electric.on_power_threshold", "nilmtk/electric.py:Electric._aggregate_metadata_attribute", "nilmtk/appliance.py:Appliance.on_power_threshold"]}
{"id": "C93", "title": "An HDF store gives back what was stored, at that key and no other", "statement": "After any sequence of put, append, remove and save_metadata calls on an HDFDataStore, whether or not some of them raise, store[key] is the frame that was last put there followed by all frames appended to that key since, in order, unless the key or one above it was removed or replaced in between; calls for other keys do not change it. remove takes away the node with all that is below it and nothing else, and raises KeyError exactly if there is no such node; append raises for no key below the root; metadata are loaded as last saved until the node is taken away; elements_below_key lists exactly the nodes there are. get_timeframe spans from the first to the last row within the window, _nrows counts the rows within the window and the time frame, and load returns the rows. (In the code put of an empty frame leaves the old rows in place; put drops the metadata saved at the key; get_timeframe of a table with a single row raises, and load returns nothing for it.)", "quantifier": "all histories of calls, keys, frames, metadata, windows and time frames", "why_tests_cant": "a statement about arbitrary histories of calls on trees of any depth", "anchors": ["nilmtk/datastore/hdfdatastore.py:HDFDataStore.put", "nilmtk/datastore/hdfdatastore.py:HDFDataStore.append", "nilmtk/datastore/hdfdatastore.py:HDFDataStore.remove", "nilmtk/datastore/hdfdatastore.py:HDFDataStore.save_metadata", "nilmtk/datastore/hdfdatastore.py:HDFDataStore.get_timeframe", "nilmtk/datastore/hdfdatastore.py:HDFDataStore._nrows"]}
{"id": "C94", "title": "A CSV store gives back what was stored, at that key and no other", "statement": "After any sequence of put, append, remove and save_metadata calls on a new CSVDataStore in which tables are written under keys of meters, the file of a meter holds the frames written since it was last put or removed, one after another, and writing such tables never raises; calls for other meters do not change it and removing a building removes all its meters. A table written by one call is read back and loaded as its rows, get_timeframe spans from its first to its last row within the window, different meters have different files, and store[key] raises KeyError if there is none. Dataset metadata are loaded as saved (KeyError without meter_devices); metadata of a building are loaded as saved except for data_location, which is always the key of the meter. (In the code append to an existing file repeats the header in the middle, after which the table cannot be read; store[key] always returns a part of the header as a row; a slash at the end of a key leads to another file.)", "quantifier": "all histories of calls, keys, frames, metadata and windows", "why_tests_cant": "a statement about arbitrary histories of calls on directories with any number of files", "anchors": ["nilmtk/datastore/csvdatastore.py:CSVDataStore.put", "nilmtk/datastore/csvdatastore.py:CSVDataStore.append", "nilmtk/datastore/csvdatastore.py:CSVDataStore.remove", "nilmtk/datastore/csvdatastore.py:CSVDataStore.__getitem__", "nilmtk/datastore/csvdatastore.py:CSVDataStore.load_metadata", "nilmtk/datastore/csvdatastore.py:CSVDataStore.save_metadata", "nilmtk/datastore/csvdatastore.py:CSVDataStore.get_timeframe"]}
{"id": "C95", "title": "Disaggregating into a store leaves every appliance's estimates under its own meter", "statement": "After any history of training and disaggregating with the legacy CombinatorialOptimisation, disaggregate(mains, store) appends, for every chunk with at least MIN_CHUNK_LENGTH readings, one estimate per reading to the table of every trained meter and the readings themselves to meter 1; the estimates for a reading are one state of every appliance with a total as close to the reading as any. Shorter chunks leave nothing, no other node of the store changes, and a run without a long chunk changes nothing at all. Afterwards the metadata list the mains and every trained meter with the key of its table, every appliance with its meter, and the time from the start of the first to the end of the last chunk, which covers all rows. An exception from the mains is passed on after the rows before it are written, without metadata. Without a model RuntimeError is raised and nothing is written; no meter is ever trained twice, and train is refused after a train that failed half-way. The same writing holds for FHMM, at the times of the readings that are there. (In the code a submeter with instance 1 is mixed up with the mains, submeters of different buildings with the same instance share a table, and the time in the dataset metadata is that of the last call only.)", "quantifier": "all histories of calls, models, mains chunks, output stores and buildings", "why_tests_cant": "a statement about arbitrary histories, any number of chunks and appliances, and the whole content of the store", "anchors": ["nilmtk/legacy/disaggregate/combinatorial_optimisation.py:CombinatorialOptimisation.disaggregate", "nilmtk/legacy/disaggregate/combinatorial_optimisation.py:CombinatorialOptimisation.train", "nilmtk/legacy/disaggregate/combinatorial_optimisation.py:CombinatorialOptimisation.disaggregate_chunk", "nilmtk/legacy/disaggregate/disaggregator.py:Disaggregator._save_metadata_for_disaggregation", "nilmtk/legacy/disaggregate/disaggregator.py:Disaggregator._pre_disaggregation_checks", "nilmtk/legacy/disaggregate/fhmm_exact.py:FHMM.disaggregate"]}
{"id": "C96", "title": "An exported model comes back the same, and exporting leaves the meters alone", "statement": "export_model of a trained legacy CombinatorialOptimisation or FHMM whose meters are in HDF stores leaves the object and the store of every meter exactly as they were, whether writing works, pickling fails or the file cannot be opened; other files are not touched, and a file that cannot be opened keeps what it had. Importing the file into any object, in any process, gives the same states, combinations and minimal length (or the same hidden Markov models) for new meter objects equal to the old ones on the same files, hence the same output of disaggregate for all mains; objects that were there before are not changed. A missing or spoilt file raises and changes nothing; the first store that cannot be opened raises its exception. Hart85 comes back with everything disaggregation reads, and importing a model that was never trained raises KeyError. (In the code a meter without an HDF store stops the export half-way and leaves the meters before it with a file name for a store, and FHMM without its list of meters; an import that stops half-way leaves the new states with the old combinations.)", "quantifier": "all models, meters, heaps, files and ways in which writing or opening fails", "why_tests_cant": "needs every failure point of writing and opening and any number of meters, and the effect on objects shared with the rest of the program", "anchors": ["nilmtk/legacy/disaggregate/combinatorial_optimisation.py:CombinatorialOptimisation.export_model", "nilmtk/legacy/disaggregate/combinatorial_optimisation.py:CombinatorialOptimisation.import_model", "nilmtk/legacy/disaggregate/fhmm_exact.py:FHMM.export_model", "nilmtk/legacy/disaggregate/fhmm_exact.py:FHMM.import_model", "nilmtk/legacy/disaggregate/hart_85.py:Hart85.export_model", "nilmtk/legacy/disaggregate/hart_85.py:Hart85.import_model"]}
{"id": "C97", "title": "disaggregate_across_buildings writes for every building what that building would get alone", "statement": "For every list of different buildings, given sections, and buildings whose submeters have appliances and distinct instances other than 1: FHMM.disaggregate_across_buildings succeeds and for every building of the list the table of the first meter of each learnt appliance type gains the decoded estimates of that building's own chunks of at least 100 readings, at the times of its readings that are there, the table of the mains gains the mains readings, and the metadata of the building names the meters and the time from the first to the last chunk; tables and metadata of other buildings are not changed, whatever was in the store before. Building by building in order: a missing building raises KeyError, a submeter without appliances IndexError, an exception of good_sections or of the mains is passed on, and each leaves the buildings before it done and those after it not begun; without a model nothing is written. Without sections those of the first building are used for all. (So in the code a second building that was measured at another time is silently left out; a first building without any learnt appliance raises UnboundLocalError although the same building is fine later in the list; and the metadata can name a meter that has no table.)", "quantifier": "all models, lists of buildings, buildings, chunks, sample periods and stores", "why_tests_cant": "needs any number of buildings and chunks, and variables of the loop that leak from one building to the next show only in some orders", "anchors": ["nilmtk/legacy/disaggregate/fhmm_exact.py:FHMM.disaggregate_across_buildings", "nilmtk/legacy/disaggregate/disaggregator.py:Disaggregator._pre_disaggregation_checks", "nilmtk/legacy/disaggregate/disaggregator.py:Disaggregator._save_metadata_for_disaggregation"]}
{"id": "C98", "title": "A saved Mean model is read back exactly, training can be interrupted, and a cut-off file is refused", "statement": "For every trained Mean model, whatever characters the appliance names contain: the text that save_model writes to model.txt is printable ASCII, load_model reads the same model back from it in the same order, and every proper beginning of that text, and that text followed by anything but white space, is refused with ValueError. With 'save-model-path' every partial_fit that succeeds writes the model to that folder and to no other; training split into any number of sessions, each with a new object that loads the file with 'pretrained-model-path', ends with the model of uninterrupted training; a partial_fit that raises writes nothing, so a new object goes on as if it had not been called. A missing file raises FileNotFoundError; an empty path counts as none. CO, FHMMExact and Hart85 raise NotImplementedError when given a path to load. clear_model_checkpoints removes exactly the files that begin with the prefix and end with .h5, up to the first that cannot be removed. (In the code repeating a call that raised with the same object counts the appliances before the failure twice.)", "quantifier": "all models, appliance names, sequences of calls and sessions, file contents and directories", "why_tests_cant": "needs all Unicode names, all places where a file can be cut off and any number of sessions", "anchors": ["nilmtk/disaggregate/mean.py:Mean.save_model", "nilmtk/disaggregate/mean.py:Mean.load_model", "nilmtk/disaggregate/mean.py:Mean.partial_fit", "nilmtk/disaggregate/disaggregator.py:Disaggregator.load_model", "nilmtk/disaggregate/disaggregator.py:Disaggregator.clear_model_checkpoints"]}
{"id": "C99", "title": "Converting REFIT, DRED and HIPE puts every column under the right building and meter, in the order of time", "statement": "REFIT: with the files of all houses there (House_<n>.csv, or CLEAN_House<n>.csv when House_1.csv is missing), house h becomes building h, or h - 1 after the missing house 14; each building gets ten meters of active power, the columns Aggregate and Appliance1..9 in the order of the file, so that meter 1 is the aggregate; every meter has all rows of the file, sorted by time. DRED: after three lines that are skipped every row is stored; meter i of building 1 has field i as apparent power, NaN where a line ends early. HIPE: meter k of building 1 has the absolute power in watts of the first file of the k-th machine, apparent for meter 1 and active for the others. No other table changes. A missing or malformed file raises: REFIT leaves the houses before it and nothing of it or those after, DRED leaves nothing, HIPE leaves nothing if a machine has no file and the meters before it if a file lacks its columns. (In the code a REFIT file with its columns in another order makes another column meter 1.)", "quantifier": "all file contents, any number of rows in any order, all sets of files and directory listings, whatever the store held before", "why_tests_cant": "needs all contents of the files and all places where a conversion can stop", "anchors": ["nilmtk/dataset_converters/refit/convert_refit.py:_convert", "nilmtk/dataset_converters/refit/convert_refit.py:_load_csv", "nilmtk/dataset_converters/dred/convert_dred.py:_convert", "nilmtk/dataset_converters/dred/convert_dred.py:_load_csv", "nilmtk/dataset_converters/hipe/convert_hipe.py:_convert", "nilmtk/dataset_converters/hipe/convert_hipe.py:_load_csv"]}
{"id": "C100", "title": "Combinatorial optimisation learns a few plausible states for each appliance", "statement": "A partial_fit call of CO learns exactly the appliances of the call that were not learnt before, in their order, each from the readings of all its frames together; what was learnt before stays. The states learnt for an appliance are ascending and contain 0; every other state is at least 10 W and no more than some reading, rounded; there are at most three, or two if the call has more than 12 appliances; from fewer than 20 readings above 10 W only the state 0 is learnt. Hence after one call with n appliances there are at most 3^n combinations (2^n for n > 12), and every power predicted for an appliance is 0 or between 10 W and its highest training reading, rounded, whatever the mains are. A call without mains frames, or with an appliance without frames, raises ValueError and learns nothing. (In the code the appliances are counted for each call: trained in several calls, any number of appliances can have three states.)", "quantifier": "all readings, all numbers of frames and appliances, all states of the object, every k-means whose centres lie between values of the data, every random sample and every silhouette score", "why_tests_cant": "random sampling and clustering: tests see some of the outcomes only", "anchors": ["nilmtk/disaggregate/combinatorial_optimisation.py:CO.partial_fit", "nilmtk/feature_detectors/cluster.py:cluster", "nilmtk/feature_detectors/cluster.py:_transform_data", "nilmtk/disaggregate/combinatorial_optimisation.py:CO.disaggregate_chunk"]}
{"id": "C101", "title": "Converting Dataport CSV files keeps every reading of every building", "statement": "convert_dataport numbers the buildings that have usable readings 1, 2, ... in the order of metadata.csv and leaves out the others. A building whose readings lie in one file gets one meter for its consumption (grid plus what the panels give), if the grid is recorded, and one for every appliance column with a reading; the table of a meter holds exactly the readings of its column, in W, in the order of time; the metadata lists exactly these meters, the consumption as site meter, and one appliance of the right type for every other meter, appliances of a type having different instances; no other table is written. Neither the chunk size nor the cache of building lists changes anything. Panels whose grid is never recorded stop the conversion with KeyError, whatever the chunk size. (In the code this needs panels recorded in every row or none: otherwise the consumption of a row without a panel reading depends on where a chunk ends. And a building spread over several files gets its columns counted anew in each file, so one meter can hold the readings of two appliances, and appliances are listed once per file.)", "quantifier": "all files and rows, all orders of rows, all chunk sizes, all lists of buildings, all numbers of files", "why_tests_cant": "the result depends on where chunks end, on which columns are empty for a building and on what the cache holds", "anchors": ["nilmtk/dataset_converters/dataport/csv_converter.py:convert_dataport", "nilmtk/dataset_converters/dataport/csv_converter.py:extract_building_data", "nilmtk/dataset_converters/dataport/csv_converter.py:preprocess_chunk", "nilmtk/dataset_converters/dataport/csv_converter.py:write_meter_data"]}
{"id": "C102", "title": "Unifying the good sections of several meters keeps what is good for all of them", "statement": "For meters with results over the same periods, GoodSectionsResults.unify keeps the periods, and afterwards an instant is good in a period exactly if it was good in that period for every meter; no empty section is stored; the order of two meters does not matter, and any number of meters can be unified one after the other. A period that the other meter lacks raises KeyError and a period with another end RuntimeError, decided by the first row that does not fit.", "quantifier": "all numbers of meters, periods and sections, open-ended sections included", "why_tests_cant": "sections and periods are unbounded, and open-ended sections cross periods", "anchors": ["nilmtk/stats/goodsectionsresults.py:GoodSectionsResults.unify", "nilmtk/results.py:Results.unify", "nilmtk/timeframegroup.py:TimeFrameGroup.intersection"]}
{"id": "C103", "title": "Converting ECO stores every second of every phase and plug under its meter, except missing ones", "statement": "When convert_eco succeeds, meters 1 to 3 of a building hold exactly the readings of the three phases in the daily files of its smart meter (power, current, voltage, phase angle, reactive power at day + row seconds), meter 3 + i those of plug i, without the rows whose power is -1; nothing else is stored, and times increase when file names follow the days. It succeeds for every dataset with numbered folders and complete days that has a smart meter and a plug, and fails on a file with another number of rows than 86400, an unreadable day or a plug without files. A folder with one or two plugs directly in it is taken for the other layout, and these readings are lost without an error.", "quantifier": "all directory trees, files, buildings, plugs and rows; any length of a day", "why_tests_cant": "trees and files are unbounded, and the layout of folders varies", "anchors": ["nilmtk/dataset_converters/eco/convert_eco.py:convert_eco"]}
{"id": "C104", "title": "compute_rmse gives each column of the ground truth its RMS error, under a name that tells equal labels apart", "statement": "The result of compute_rmse(ground_truth, predictions) has one entry per column of ground_truth, in that order: the square root of the mean squared difference over the times of the ground truth at which both it and the prediction in the same position have a value, and NaN without such times. It is never negative and is zero exactly if the prediction is right at all common times. With pretty the names are the labels, followed by building and instance where a label occurs more than once; without it the columns themselves. Fewer columns of predictions are an IndexError, repeated labels without building and instance an AttributeError, predictions without rows give an empty result. Columns are matched by position, not by name; an all-NA prediction is listed although the documentation denies it; and one column without label() makes columns with equal labels overwrite each other.", "quantifier": "all numbers of columns, labels, names, indices and values including NaN", "why_tests_cant": "frames, values and collisions of labels are unbounded", "anchors": ["nilmtk/utils.py:compute_rmse"]}
{"id": "C105", "title": "The metrics report one value per submeter of the predictions, for it and its counterpart in the ground truth", "statement": "error_in_assigned_energy, mean_normalized_error_power, rms_error_power and f1_score return a table with one entry per submeter of the predictions, in their order and named by its instance, computed from that meter and the meter of the ground truth with the same instance and building: for each AC type the absolute difference of the energies over the good sections of the prediction (NaN if one has none), the summed absolute error over the summed true power, the root of the mean squared error, and the weighted mean of the F1 scores. A submeter without counterpart is a KeyError, and an error for one pair is an error of the metric. Submeters of several buildings with the same instance share an entry, and energy outside the good sections of the prediction is not compared.", "quantifier": "all groups of meters, instances, buildings, energies, sections and aligned chunks", "why_tests_cant": "the numbers of meters, AC types, sections and chunks are unbounded", "anchors": ["nilmtk/metrics.py:error_in_assigned_energy", "nilmtk/metrics.py:mean_normalized_error_power", "nilmtk/metrics.py:rms_error_power", "nilmtk/metrics.py:f1_score"]}
{"id": "C106", "title": "The IDEAL converter stores the electric sensors of the homes that are in both folders", "statement": "After convert_ideal, every electric-mains or electric-appliance file home<h>_<room>_sensor<s>_<category>_<subtype>.csv.gz of a home that has such files in both household_sensordata and rooms_appliance_sensordata is stored as meter s of building h (for mains of two sensors <s>c<m> the first number), as apparent power for mains and active power for appliances, with all its rows in the order of their times and each time rounded down to the second; nothing else is stored. A file without rows or with an unreadable time is a ValueError and a number 0 an AssertionError, after the files before it; a name that has not five parts is a ValueError and a missing folder an IndexError, before anything is stored. Two files of a home with the same number share a key and only the later is kept, and the folder name that the documentation gives is not recognised.", "quantifier": "all trees of folders, files, names, rows and times", "why_tests_cant": "the numbers of homes, files and rows are unbounded and names are arbitrary texts", "anchors": ["nilmtk/dataset_converters/ideal/convert_ideal.py:convert_ideal", "nilmtk/dataset_converters/ideal/convert_ideal.py:_convert", "nilmtk/dataset_converters/ideal/convert_ideal.py:mains_plus_appliance_home_id", "nilmtk/dataset_converters/ideal/convert_ideal.py:_find_all_houses_sensor", "nilmtk/dataset_converters/ideal/convert_ideal.py:_load_csv"]}
{"id": "C107", "title": "Labels tell what they are made of: the appliances of a meter, the meters of a group", "statement": "Appliance.label() of appliances of known type is equal only for equal type and instance, and label(pretty=True) only for types equal but for case and equal instance, if types have no digits. ElecMeter.label(pretty=False) of submeters without metadata name is equal only if their appliances have, in order, the same instances and the same types but for case (the same types if none is dominant). The pretty label is the name with a capital letter; else 'Site meter' for site meters; else the type of the first appliance marked dominant (of the first one if none is), '' without appliances, IndexError for an empty type. A group without name lists every distinct label of its meters once; a group with a name is labelled by it. MeterGroup.get_labels returns one label per identifier in order. Pretty labels of different meters may be equal, names can imitate labels, all site meters share one long label, and label() means pretty for meters but not for groups.", "quantifier": "all appliances, meters, nested groups, names and lists of identifiers", "why_tests_cant": "texts are arbitrary (quotes, backslashes, commas, digits) and the numbers of appliances and meters are unbounded", "anchors": ["nilmtk/appliance.py:Appliance.label", "nilmtk/elecmeter.py:ElecMeter.label", "nilmtk/elecmeter.py:ElecMeter._pretty_label", "nilmtk/metergroup.py:MeterGroup.label", "nilmtk/metergroup.py:MeterGroup.get_labels", "nilmtk/utils.py:capitalise_first_letter"]}
{"id": "C108", "title": "The SMART* converter stores the half-hourly columns of every home", "statement": "convert_smart with an absolute path and homes A, B, C as documented (in every year the first selected table has readable times and 'use [kW]' or 'Usage [kW]', and no appliance is in two tables) raises nothing; building 1, 2, 3 has meter 1 for the whole home and one meter per appliance column in order of first appearance over the years, each with the rows of the first tables of the years in the order of the directories, the times read as UTC, and the readings of its column by row number (NaN in years without it), as power active in the unit of the file. Tables are selected by '30' in the last but one line of their description. A missing home or table, a description of one line, no selected table, no column of the whole home and an unreadable time raise and leave the earlier homes stored and nothing of the others. Nothing but meters of buildings 1 to 3 is ever stored. A path that is not absolute stores nothing and raises. Rows are not sorted, readings of second tables get the times of the first, appliances in several tables get several meters or an error, homes without times get those of the home before: counterexamples.", "quantifier": "all trees of directories, tables, columns, readings and readings of times", "why_tests_cant": "directories, tables, columns and rows are unbounded and the order of listdir and glob is arbitrary", "anchors": ["nilmtk/dataset_converters/smart/convert_smart.py:_convert", "nilmtk/dataset_converters/smart/convert_smart.py:_preprocess_csv", "nilmtk/dataset_converters/smart/convert_smart.py:_find_all_csv_paths", "nilmtk/dataset_converters/smart/convert_smart.py:_find_year", "nilmtk/dataset_converters/smart/convert_smart.py:_find_all_houses"]}
{"id": "C109", "title": "The old Hart85 learns from and disaggregates mains chunk by chunk", "statement": "Training succeeds only if some chunk has a complete row and every chunk with complete rows has a step; the steps are those between steady runs of one chunk, in order of time, larger than the noise level; the powers learnt are what MeanShift makes of the mean sizes of valid pairs of steps, no step used twice. A single chunk with readings but without a step makes training and disaggregation raise IndexError before anything is learnt or stored. Disaggregating appends to meter m + 2 of the building exactly the trace of learnt device m at the times of all chunks, for every chunk what its own steps say, and to meter 1 the last chunk of mains.load; no other table or node changes; it returns the last chunk's traces and writes metadata with one unknown appliance per device. In a chunk without steps every device is estimated at zero. An untrained object raises RuntimeError; an empty chunk raises IndexError after the earlier chunks were stored. That steps and estimates do not depend on where chunks end, that all mains are stored, and that a failed training changes nothing are false: counterexamples.", "quantifier": "all chunks of readings, levels, results of MeanShift, stores and exceptions of the meters", "why_tests_cant": "the number of chunks, readings and devices is unbounded and chunk boundaries fall anywhere", "anchors": ["nilmtk/legacy/disaggregate/hart_85.py:train", "nilmtk/legacy/disaggregate/hart_85.py:disaggregate_chunk", "nilmtk/legacy/disaggregate/hart_85.py:disaggregate", "nilmtk/feature_detectors/steady_states.py:find_steady_states_transients"]}
{"id": "C110", "title": "Downloading Dataport stores what the database has, feed by feed", "statement": "For a known table and a dict of periods, download_dataport raises nothing if and only if, for every building recorded in the table, both ends of its period are given, all times fetched exist exactly once in the time zone, and every feed with readings in a chunk of ten days, apart from those without a type of appliance, is 'use' or in feed_mapping. Then meter j + 1 of the i-th building of the dict has, chunk after chunk, the rows of the feed at place j among those with readings in the chunk, in W for tables of real power and as they are for others; nothing else is stored; and the metadata of the building are those of its last chunk: one meter per feed, 'use' the site meter, every other an appliance whose instance counts those of its type. With times in whole seconds the chunks together have each row from the start until before the end exactly once, in order. If the feeds with readings are the same in all chunks and the table is part of the name of one view only, every meter has one feed. If it fails, no metadata are written. The default of all buildings and periods with an open end raise TypeError. An unknown table raises AssertionError and leaves the file. That every meter has the readings of one feed, that the metadata list the meters stored, that readings are stored once, and that the last reading is stored are false in general: counterexamples.", "quantifier": "all databases, tables, dicts of periods, time zones and files", "why_tests_cant": "the number of buildings, feeds, rows and chunks is unbounded, and which feeds have readings differs from chunk to chunk", "anchors": ["nilmtk/dataset_converters/dataport/download_dataport.py:download_dataport", "nilmtk/dataset_converters/dataport/download_dataport.py:_dataport_dataframe_to_hdf", "nilmtk/dataset_converters/dataport/download_dataport.py:database_assert"]}
{"id": "C111", "title": "What a meter says of itself is what its own dataset says", "statement": "Over any history of opening datasets (also with several buildings, with the same dataset again, with files without name or devices), the device of a meter is the description of its device model in the dataset opened last among those which describe that model and have a building, the empty device without a device model, and KeyError if none describes it. sample_period, available_columns and available_ac_types follow from the device: None for an empty device and KeyError for one without the entry; the sample period of a group is the longest of its meters'. So they are those of the meter's own dataset as long as no dataset opened later describes the same device model differently. upstream_meter gives the meter of the same building of the same file whose number is submeter_of, for 0 the site meter or the group of the site meters, reading from the same store, as long as no other file opened has a building with the same dataset name and number; it raises exactly for a missing or negative submeter_of (ValueError), another building (NotImplementedError), or a number that the building does not have (KeyError). Without these provisos it is false: opening a second dataset changes the sample period of the meters of the first (counterexample), and opening a dataset again leaves the list of meters as it is, so that upstream meters read from the store opened first (counterexample).", "quantifier": "all sequences of datasets opened, all metadata of buildings, meters and devices", "why_tests_cant": "what is shared depends on the whole history of datasets opened, tests open one", "anchors": ["nilmtk/elecmeter.py:ElecMeter.load_meter_devices", "nilmtk/elecmeter.py:ElecMeter.device", "nilmtk/elecmeter.py:ElecMeter.sample_period", "nilmtk/elecmeter.py:ElecMeter.upstream_meter", "nilmtk/elecmeter.py:ElecMeter.__init__", "nilmtk/metergroup.py:MeterGroup.import_metadata", "nilmtk/metergroup.py:MeterGroup.sample_period", "nilmtk/dataset.py:DataSet.import_metadata"]}
{"id": "C112", "title": "From the files of REDD to the energy of a meter", "statement": "After converting REDD, total_energy of a meter whose file has at least two readings, no time twice and no missing reading is one number, under apparent for channels 1 and 2 and under active for all others: the sum over consecutive readings within the window of the store (both ends included), in the order of time, of the power, limited as the first matching measurement of the device says, times the time to the next reading, at most max_sample_period, in kWh. It does not depend on the order of the lines in the file, nor on the chunk size. With fewer than two readings in the window there is no result (empty). A constant power without gaps gives power times time; dividing the window at a reading divides the energy into two parts that add up. With given sections (such as the good sections; in any order, empty and repeated ones left out) that share no instant, the energy is the sum of those of the readings in each section and in the window (ends excluded), and the time between sections counts nothing. A meter without table is a KeyError and a meter with a single reading a ValueError. Without the provisos it is false: a file with a repeated time gives an energy in one chunk and a ValueError in small chunks, windows divided between two readings lose the energy between them, and the reading at the end of the window is counted although loading the meter leaves it out; sections that overlap raise ValueError and sections that touch lose the interval across the border (counterexamples).", "quantifier": "all trees of files, houses, channels, readings, device limits, windows and chunk sizes", "why_tests_cant": "the composition of conversion, chunking, clipping and summation over arbitrary files, windows and chunk sizes cannot be enumerated", "anchors": ["nilmtk/elecmeter.py:ElecMeter.total_energy", "nilmtk/elecmeter.py:ElecMeter._get_stat_from_cache_or_compute", "nilmtk/elecmeter.py:ElecMeter._compute_stat", "nilmtk/stats/totalenergy.py:TotalEnergy.process", "nilmtk/preprocessing/clip.py:Clip.process", "nilmtk/datastore/hdfdatastore.py:HDFDataStore.get_timeframe", "nilmtk/dataset_converters/redd/convert_redd.py:convert_redd"]}
{"id": "C113", "title": "From the files of REDD to the uptime of a meter", "statement": "good_sections of a meter of an HDF store whose table has at least two readings, no time twice and no missing reading is one section per run of at least two readings in the window of the store, no two neighbours of which are further apart than max_sample_period, from the first to the last reading of the run; if the next reading after the window is near enough, the last section ends with the window. uptime is the sum, over successive readings not further apart than max_sample_period of which the first is in the window, of the time between them as far as it is in the window. After converting REDD, without a window, it is that sum over the lines of the file of the channel, in the order of time. None of this depends on the chunk size. A longer max_sample_period does not give a shorter uptime; dividing the window at a reading divides the uptime into parts that add up; proportion_uptime is between 0 and 1 and is 1 exactly if no gap is longer than max_sample_period. With fewer than two readings in the window the uptime is zero. Without the provisos it is false: a window that ends at a reading after a long gap and before a short one is a ValueError, and a window with a single reading has no uptime although the next reading is near (counterexamples).", "quantifier": "all trees of files, houses, channels, readings, windows, max_sample_periods and chunk sizes", "why_tests_cant": "the composition of conversion, chunking with look-ahead, section detection and merging over arbitrary files, windows and chunk sizes cannot be enumerated", "anchors": ["nilmtk/elecmeter.py:ElecMeter.good_sections", "nilmtk/elecmeter.py:ElecMeter._get_stat_from_cache_or_compute", "nilmtk/electric.py:Electric.uptime", "nilmtk/metergroup.py:MeterGroup.describe", "nilmtk/stats/goodsections.py:GoodSections.process", "nilmtk/stats/goodsectionsresults.py:GoodSectionsResults.combined", "nilmtk/timeframegroup.py:TimeFrameGroup.uptime", "nilmtk/dataset_converters/redd/convert_redd.py:convert_redd"]}
{"id": "C114", "title": "From the files of REDD to the power series of a meter", "statement": "power_series_all_data of a meter of an HDF store is, for a table with at least two rows in the window of the store (from its start until before its end) and no time twice, one value per row in the window, in the order of time, whatever the chunk size: the sum of the readings in those columns of the table which were asked for, missing if one of them is missing. By default that is the reading of the best AC type the device has for power. After converting REDD it is the reading in the file of the channel, in the order of time, whatever the order of the lines. With sections that are apart and in order it is the same for the rows in the sections, if no section has exactly one row. total_energy of a device without limits and a store without a window is the energy of that series. A device without a power measurement is a MeasurementError, a meter without a table a KeyError, nothing in the window is None. Without the provisos it is false: a lone row in the window is lost, without a window the load is a ValueError when the chunk size divides the number of rows less one, and if the table has none of the columns there are times without values (counterexamples).", "quantifier": "all trees of files, houses, channels, tables with any columns, requests, windows, sections and chunk sizes", "why_tests_cant": "the composition of conversion, column selection, chunking, summation and removal of overlaps over arbitrary tables, windows and chunk sizes cannot be enumerated", "anchors": ["nilmtk/electric.py:Electric.power_series_all_data", "nilmtk/electric.py:Electric.power_series", "nilmtk/electric.py:Electric.load_series", "nilmtk/elecmeter.py:ElecMeter.load", "nilmtk/elecmeter.py:ElecMeter._convert_physical_quantity_and_ac_type_to_cols", "nilmtk/datastore/hdfdatastore.py:HDFDataStore.load", "nilmtk/dataset_converters/redd/convert_redd.py:convert_redd"]}
{"id": "C115", "title": "From the files of REDD to the dropout rate of a meter", "statement": "dropout_rate of a meter of an HDF store whose table has no time twice and at least two readings in the window is the share of the readings lost: of those expected at every sample period between the first and the last reading, those that are missing. With ignore_gaps=False and the readings read in one chunk it is exactly that (zero for fewer than five readings). In general it is the mean, weighted with the number of readings, of the shares lost in the pieces the readings are read in; with sections given, over the pieces of all sections, in any order, whatever is given twice; and by default, when gaps are ignored, over the pieces of the good sections. It is at least zero and below one, and it is zero for a meter that lost nothing, whatever the chunk size and the window, whether or not gaps are ignored. After converting REDD it is that of the times in the file of the channel, whatever the order of the lines. A meter without a table, or without a good section, is a KeyError. Independence of the chunk size, and counting all readings of a good section, are false: a gap between two chunks is lost, and of each good section but the last one the last reading is not read (counterexamples). With full_results=True and gaps ignored (the default) the call never returns.", "quantifier": "all trees of files, houses, channels, tables, sample periods, windows, sections and chunk sizes", "why_tests_cant": "the composition of conversion, good sections, chunking and the weighted mean over arbitrary tables, windows and chunk sizes cannot be enumerated", "anchors": ["nilmtk/elecmeter.py:ElecMeter.dropout_rate", "nilmtk/elecmeter.py:ElecMeter.good_sections", "nilmtk/elecmeter.py:ElecMeter._get_stat_from_cache_or_compute", "nilmtk/stats/dropoutrate.py:DropoutRate.process", "nilmtk/stats/dropoutrate.py:get_dropout_rate", "nilmtk/stats/dropoutrateresults.py:DropoutRateResults.combined", "nilmtk/datastore/hdfdatastore.py:HDFDataStore.load", "nilmtk/dataset_converters/redd/convert_redd.py:convert_redd"]}
{"id": "C116", "title": "From the files of REDD to the average energy per period of a meter", "statement": "average_energy_per_period of a meter of an HDF store whose table has no time twice is the energy of its readings in the window (each counts until the next, for at most max_sample_period, limited as the device says) divided by the number of periods in the uptime (the time between successive readings not further apart than max_sample_period), or with use_uptime=False in the time frame from the first to the last reading, for the AC type of the table, whatever the chunk size. It is NaN without uptime or without a time frame; sections are refused (RuntimeError); a meter without a table is a KeyError, one with a single reading a ValueError. Without gaps both averages are the same, and between what the least and what the greatest power uses in a period; after converting REDD it is that of the lines of the file of the channel in whatever order. With gaps a constant load does not get the average it has: each gap adds the energy of one max_sample_period but no uptime, by the exact factor 1 + gaps * max_sample_period / uptime, and with a window that ends between two readings the uptime goes on to the end of the window but the energy does not (counterexamples).", "quantifier": "all trees of files, houses, channels, tables, device limits, windows, periods and chunk sizes", "why_tests_cant": "the composition of conversion, chunked energy, good sections and division over arbitrary tables and windows cannot be enumerated", "anchors": ["nilmtk/electric.py:Electric.average_energy_per_period", "nilmtk/electric.py:Electric.uptime", "nilmtk/elecmeter.py:ElecMeter.total_energy", "nilmtk/elecmeter.py:ElecMeter.good_sections", "nilmtk/utils.py:offset_alias_to_seconds", "nilmtk/datastore/hdfdatastore.py:HDFDataStore.load", "nilmtk/dataset_converters/redd/convert_redd.py:convert_redd"]}
{"id": "C117", "title": "From the files of REDD to the proportion of energy submetered", "statement": "proportion_of_energy of a meter of an HDF store (table without repeated times) with respect to the mains is the energy of its readings in the good sections of the mains (of the first of several) over that of the readings of all mains there (each reading counts until the next in the section, for at most max_sample_period, limited as the device says; the last reading of a section is only read in the last one or when the section is cut by the window), whatever the AC types of meter and mains, the window and the chunk size. proportion_of_energy_submetered is the sum over the meters directly downstream. Both are NaN if the mains used nothing or one of them has no two readings in any of the sections, the second also without such meters. Meters read at the times of the mains whose powers add up to c times that of the mains give c, and meters that never add up to more than the mains give a proportion between zero and one. After converting REDD it is that of the lines of the files in whatever order. No table is a KeyError (unless the mains used nothing), no mains an AttributeError. A load read more often than the mains can have a proportion above one, and a dead phase of the mains makes everything NaN (counterexamples).", "quantifier": "all trees of files, houses, channels, tables, device limits, numbers of meters and mains, windows and chunk sizes", "why_tests_cant": "the composition of conversion, good sections, chunked energy per section, sums over mains and division over arbitrary tables and windows cannot be enumerated", "anchors": ["nilmtk/electric.py:Electric.proportion_of_energy", "nilmtk/metergroup.py:MeterGroup.proportion_of_energy_submetered", "nilmtk/metergroup.py:MeterGroup.total_energy", "nilmtk/metergroup.py:MeterGroup.good_sections", "nilmtk/elecmeter.py:ElecMeter.total_energy", "nilmtk/elecmeter.py:ElecMeter.good_sections", "nilmtk/dataset_converters/redd/convert_redd.py:convert_redd"]}
{"id": "C118", "title": "From the files of REDD to the energy of groups and the description of a home", "statement": "total_energy of a group of meters of an HDF store is, for its single AC type, the energy of the readings of all meters in the window (each counts until the next, for at most max_sample_period, limited as the device says). average_energy_per_period is this energy times the period over the time which the readings of the first meter cover, or with use_uptime=False over the time from the first to the last reading of all meters; if all meters cover the same time it is the sum of the averages of the meters. describe() counts the meters with the disabled ones, gives the longest sample periods of mains and submeters, the first and last time of all readings, the time covered by the first mains meter, its share of the time frame (between 0 and 1; 1 exactly if this meter has the first and the last reading and no gap) and the daily energy of the mains. After converting REDD these are those of the lines of the files in whatever order. Meters of several AC types (such as a whole REDD home), or one meter without readings in the window, make the energy NaN; a first meter without readings leaves no energy at all; without mains describe() is an AttributeError, without submeters a ValueError, and a missing table a KeyError.", "quantifier": "all trees of files, houses, channels, tables, device limits, groups, windows, periods and chunk sizes", "why_tests_cant": "the composition of conversion, chunked energy, sums of series with different AC types, unions of time frames and gaps over arbitrary tables cannot be enumerated", "anchors": ["nilmtk/metergroup.py:MeterGroup.total_energy", "nilmtk/metergroup.py:MeterGroup.describe", "nilmtk/metergroup.py:MeterGroup.get_timeframe", "nilmtk/metergroup.py:MeterGroup.good_sections", "nilmtk/metergroup.py:MeterGroup.sample_period", "nilmtk/electric.py:Electric.average_energy_per_period", "nilmtk/electric.py:Electric.uptime", "nilmtk/dataset_converters/redd/convert_redd.py:convert_redd"]}
{"id": "C119", "title": "From the files of REDD to the share of each meter and the meters with the most energy", "statement": "fraction_per_meter() of a group of meters of an HDF store gives each meter the energy of its readings in the window (each counts until the next, for at most max_sample_period, limited as the device says; of the best AC type of the device) over that of all meters of the group. It is NaN for a meter without two readings in the window, and for all if there is no energy. If no reading is negative and some meter used energy the fractions are between 0 and 1 and add up to 1. select_top_k(k) selects k meters, or all if there are fewer, so that none left out used more energy (with asc=True: less) or has two readings while one selected has not. After converting REDD these are those of the lines of the files in order of time. A device without AC types raises MeasurementError, a missing table KeyError.", "quantifier": "all trees of files, houses, channels, tables, device limits, groups, windows, k, sort orders and chunk sizes", "why_tests_cant": "the composition of conversion, column selection, chunked energy, alignment of series with missing values and sorting with ties over arbitrary tables cannot be enumerated", "anchors": ["nilmtk/metergroup.py:MeterGroup.energy_per_meter", "nilmtk/metergroup.py:MeterGroup.fraction_per_meter", "nilmtk/metergroup.py:MeterGroup.select_top_k", "nilmtk/elecmeter.py:ElecMeter.total_energy", "nilmtk/elecmeter.py:ElecMeter._get_stat_from_cache_or_compute", "nilmtk/elecmeter.py:ElecMeter._convert_physical_quantity_and_ac_type_to_cols", "nilmtk/dataset_converters/redd/convert_redd.py:convert_redd"]}
{"id": "C120", "title": "From the files of REDD to resampled data", "statement": "After converting REDD, next(meter.load(physical_quantity='power', ac_type=..., sample_period=sp)) gives the readings of the channel's file in the window, in order of time and resampled: one row per sample period from that of the first reading to that of the last, each the mean of its readings, a period without readings repeating the last mean for at most max_sample_period. With no reading in the window it is an empty frame without columns; with exactly one in a bounded window there is no chunk at all. A group of meters yields one chunk for each of the pieces of at most chunksize sample periods which follow one another from when the first meter starts to when the last one ends; each has, per column and period, the sum of the resampled readings that the meters with that column have in the piece. A sample period of zero is a ZeroDivisionError, a missing table a KeyError, an empty group a ValueError, a first meter outside the window a TypeError.", "quantifier": "all trees of files, houses, channels, tables, devices, windows, sample periods, groups and chunk sizes", "why_tests_cant": "the composition of conversion, time queries, chunking, resampling, forward filling, splitting and summation over arbitrary tables cannot be enumerated", "anchors": ["nilmtk/elecmeter.py:ElecMeter.load", "nilmtk/electric.py:Electric._prep_kwargs_for_sample_period_and_resample", "nilmtk/preprocessing/apply.py:Apply.process", "nilmtk/datastore/hdfdatastore.py:HDFDataStore.load", "nilmtk/metergroup.py:MeterGroup.load", "nilmtk/metergroup.py:MeterGroup.get_timeframe", "nilmtk/utils.py:safe_resample", "nilmtk/dataset_converters/redd/convert_redd.py:convert_redd"]}
{"id": "C121", "title": "From the files to the errors of an experiment with Mean", "statement": "An API experiment with one method, Mean, without chunk_size: for each appliance Mean has learnt the sum, without its fraction, divided by the number, of the resampled readings which the appliance has in the training windows at those instants at which the mains and all appliances of the building have a reading (the mains being the site meter, or the sum of the site meters); the report has, for each building of the test in turn and each metric that exists, the loss of each appliance between its resampled readings at the common instants of the test window and that constant. Nothing is reported for a building without common instants. The experiment succeeds if the losses do and some training building has a common instant; with none, the first prediction is a ZeroDivisionError. A building without site meters is an AttributeError, a training window without readings an IndexError, one with a single reading a StopIteration.", "quantifier": "all stores, buildings, windows, appliances, sample periods, metrics and numbers of site meters; for REDD all trees of files", "why_tests_cant": "the composition of conversion, loading, resampling, summation, alignment, training, prediction and evaluation over arbitrary data cannot be enumerated", "anchors": ["nilmtk/api.py:API.experiment", "nilmtk/api.py:API.train_jointly", "nilmtk/api.py:API.test_jointly", "nilmtk/api.py:API.call_predict", "nilmtk/disaggregate/mean.py:Mean.partial_fit", "nilmtk/disaggregate/mean.py:Mean.disaggregate_chunk", "nilmtk/elecmeter.py:ElecMeter.load", "nilmtk/metergroup.py:MeterGroup.mains", "nilmtk/metergroup.py:MeterGroup.load", "nilmtk/dataset_converters/redd/convert_redd.py:convert_redd"]}
{"id": "C122", "title": "From the files of REFIT, DRED and HIPE to the energy of a meter", "statement": "After a conversion the energy of a meter in a window is the sum over its readings within the window of reading times the seconds until the next, at most max_sample_period, where the readings are those of the file that the meter stands for: for REFIT column Aggregate (meter 1) or Appliance i (meter i + 1) of the file of the house, house h being building h, or h - 1 after the missing house 14, active energy; for DRED field i of the lines, apparent energy; for HIPE the first file of the machine, kW times 1000 and without sign, apparent energy for meter 1 and active energy for the others. Readings are limited as the device says. The order of the lines, the other columns and the chunk size do not matter. (In the code the limits in the metadata are 5000 W, so that the mains of HIPE's factory above it count as 5000 W.)", "quantifier": "all file contents with no time twice and no missing value in the column, all orders of the lines, windows, chunk sizes, limits, maximal sample periods and sorting algorithms", "why_tests_cant": "file contents are unbounded, and a wrong unit, column or house gives a plausible energy", "anchors": ["nilmtk/dataset_converters/refit/convert_refit.py:_convert", "nilmtk/dataset_converters/dred/convert_dred.py:_convert", "nilmtk/dataset_converters/hipe/convert_hipe.py:_convert", "nilmtk/elecmeter.py:ElecMeter.total_energy"]}
{"id": "C123", "title": "Converting HES: houses and appliance codes become buildings and meters", "statement": "convert_hes reads the chunks of every file that can be opened, all or max_chunks of each. The houses become buildings 1, 2, ... in the order in which they first appear (ascending within a chunk), and a reading is stored times 10 at its time. A user expects each meter to have the readings of one appliance of the house, and the metadata to tell the mains. In the code each meter of a house stands for an appliance code, but it gets, for every chunk that has the house and the code, all readings of the house in that chunk: this is the reading of its own appliance only if chunks have one appliance each; appliances that are in the same chunks have the same table, and codes that only other houses have get a meter too. The metadata of a building list the meters of the appliance codes before the first code of mains, circuits or temperatures, numbered as in the store, with the names of the lookup and a number that counts the appliances of a type; mains are never among them, and a code that is not in the lookup is an IndexError.", "quantifier": "all files, chunks, rows, orders of rows, max_chunks, lookups, and sorting algorithms", "why_tests_cant": "the numbering depends on the whole sequence of chunks, and stored readings of another appliance look like readings", "anchors": ["nilmtk/dataset_converters/hes/convert_hes.py:convert_hes", "nilmtk/dataset_converters/hes/convert_hes.py:_process_meter_in_chunk", "nilmtk/datastore/hdfdatastore.py:HDFDataStore.append"]}
{"id": "C124", "title": "Converting GREEND: blocks of a file, and meters from columns", "statement": "A file of GREEND is many CSV blocks one after another, each with its own header. The converter divides a file into blocks: a block begins at a line with a header that is another than that before, even if the header comes after the rest of a cut line, a repeated header begins no new block, null characters at the ends of lines are dropped, and all other lines are data of their block, in this order; nothing is skipped but two known broken lines in two files. Data before any header are an AttributeError. In the store, the directories are buildings 1, 2, ... in the order of their names; the columns of all blocks of a house are meters 1, 2, ... of power active in the order in which they are first there; each meter has exactly one row for each time of any block, with increasing times, and the value of a row of a block at this time, or nothing where that block does not have the column; nothing else is stored. A house without blocks is a ValueError, and an error leaves what earlier houses stored. A user expects use_mp to change the speed only: this is so if the files are listed in the order of their names, otherwise meters get other numbers.", "quantifier": "all directories, files, lines, readers of a block and sorting algorithms, with and without multiprocessing", "why_tests_cant": "the order of a directory listing depends on the file system, and blocks, headers and cut lines can come in any order", "anchors": ["nilmtk/dataset_converters/greend/convert_greend.py:_get_blocks", "nilmtk/dataset_converters/greend/convert_greend.py:_get_houses", "nilmtk/dataset_converters/greend/convert_greend.py:convert_greend"]}
{"id": "C125", "title": "Converting AMPds and COMBED: files become meters", "statement": "AMPds: the file of the whole house (WHE.csv) is meter 1 of building 1, and the other CSV files of the directory are meters 2, 3, ... in the order of their names; each meter has the columns of its file but the time, with their meaning (P is active power, Pt active energy, and so on), and exactly the rows of the file that have all values, in their order and at their times. Without WHE.csv the conversion is a ValueError and nothing is stored; a file with an unknown column or without times is a KeyError and ends the conversion. COMBED: a user expects every meter of the two buildings whose files of power are there to be stored with its power. In the code only the last attribute decides: exactly the meters that have a file of the current (in the directory or in iiitd) are stored, with a column for each attribute whose file is there, one row for each time of any of them, and the values of the files; so a meter with power and energy but without current is lost silently, and a meter with current only is stored without power. If there is no such meter the conversion is a RuntimeError; a time that is twice in a file ends it with an error, and later meters are not stored.", "quantifier": "all directories, files, headers and rows with numbers or missing values, and every way of ordering the union of indices", "why_tests_cant": "which combination of files is there differs between downloads, and a meter that is left out silently shows in no test with complete files", "anchors": ["nilmtk/dataset_converters/ampds/convert_ampds.py:convert_ampds", "nilmtk/dataset_converters/combed/convert_combed.py:convert_combed"]}
{"id": "C126", "title": "Converting iAWE: one row per minute, and what is put where nothing was measured", "statement": "convert_iawe stores the files 1.csv to 11.csv as meters 1 to 11 of building 1, each with the columns of its file but the time, with their meaning (W is active power, and so on), and one row for each minute from 2013-07-13 to 2013-08-04, whatever the times of the file are. The value of a minute is the mean of the usable readings of the minute: of the first row of each time, if it has all values. A user expects what is stored to be measured; but where a minute has no usable reading, power is stored as 0 W and every other quantity as the median of the means of its minutes, so a file without rows gives a meter that is off all the time, and gaps in the data cannot be told from an appliance that is off. Readings outside these weeks count for the median only. The conversion ends with a KeyError at a file without times or with an unknown column, with an AssertionError at one with a quantity other than power that has no usable value, and with a FileNotFoundError at the first missing file; what was stored before stays.", "quantifier": "all files, headers, rows in any order with repeated times and missing values, and all sorting algorithms", "why_tests_cant": "a filled minute looks like a measured one, and which minutes have readings depends on all rows of a file", "anchors": ["nilmtk/dataset_converters/iawe/convert_iawe.py:convert_iawe", "nilmtk/dataset_converters/iawe/convert_iawe.py:reindex_fill_na"]}
{"id": "C127", "title": "Converting CAxE: the means of the minutes, and which files are refused", "statement": "convert_caxe stores a file as meter 1 of building 1 with the columns reactive power, apparent power, current, frequency, voltage and active power, in this order. The rows are consecutive minutes without a break, from the minute of the first complete row of the file (one that has all six values) to that of the last, whatever the order of the rows; each value is the mean of its column over all complete rows of the minute, rows of the same time included. Incomplete rows have no effect. Nothing else is stored. A file is refused, with nothing stored, if and only if it is empty (ValueError), its times have no time zone (TypeError), no row is complete (KeyError), or there is a whole minute between two complete rows in which there is none (AssertionError): a single missing minute makes a file unusable.", "quantifier": "all rows in any order with repeated times and missing values, and all sorting algorithms", "why_tests_cant": "whether a file is refused depends on the times of all its rows at once, and a mean on all rows of a minute wherever they are in the file", "anchors": ["nilmtk/dataset_converters/caxe/convert_caxe.py:convert_caxe"]}
{"id": "C128", "title": "Slicing a frame by a TimeFrame", "statement": "A user expects TimeFrame.slice(frame) to give exactly the rows whose times lie in the TimeFrame, in their order. This holds for a TimeFrame that is not empty and has both bounds: the start is included, the end only if include_end is set, and the TimeFrame is the attribute timeframe of the result. Slicing rows in order of time by consecutive TimeFrames, such as the pieces of split, neither loses nor repeats a row: the slices put together are the slice by the whole. Slicing twice by half-open TimeFrames that overlap is slicing by their intersection. It does not hold for the others: a TimeFrame without a start or an end, which everywhere else means no bound, is a TypeError, and an empty one an UnboundLocalError, so that slicing twice by TimeFrames that do not overlap gives no rows while slicing by their intersection fails.", "quantifier": "all TimeFrames, frames of any length in any order, and all ways to divide a period into consecutive TimeFrames", "why_tests_cant": "rows at the bounds are lost or repeated only for particular times, and the law for consecutive TimeFrames is about any number of them", "anchors": ["nilmtk/timeframe.py:TimeFrame.slice"]}
{"id": "C129", "title": "Vampire power of a meter", "statement": "meter.vampire_power() of a meter in an HDF store is the smallest power of the rows of its table in the window, whatever the chunk size; the power of a row is the sum of its readings in the columns chosen (by default the one of the best AC type), rows in which one of these is missing do not count, and it is NaN if no others are there. A larger window never gives a larger vampire power. A user expects a vampire power wherever there is a reading; but with fewer than two rows in the window there is none (AttributeError), without a window the load fails if the chunks leave one row, and if the table has none of the columns chosen the result is an empty series and no number. Unsuitable requests and a missing table are raised.", "quantifier": "all tables with rows in order of time, sets of measurements, AC types, windows and chunk sizes", "why_tests_cant": "the smallest reading can be in any chunk and next to missing ones, and the comparison of windows is about all pairs of them", "anchors": ["nilmtk/electric.py:Electric.vampire_power", "nilmtk/electric.py:get_vampire_power"]}
{"id": "C130", "title": "A pipeline of nodes is validated before data are read", "statement": "Metadata of the meter and postconditions of the nodes are said to fit together if none has a dictionary where another has a plain value. Then the dry run of any pipeline of nodes succeeds, and at any path it has what the meter has there, or else what the first node (seen from the meter) has that has anything there; metadata of the meter are never hidden. If the nodes ask for 'ANY VALUE' only, as all of the repository do, the checks of the pipeline pass if and only if all a node asks for is in the metadata of the meter or the postconditions of a node before it; adding nodes never makes a node refused that was accepted. TotalEnergy is accepted if and only if the maximum sample period is known and Clip comes before it or the metadata say that clipping was done. If something is missing, and no plain value stands where a dictionary is asked for, running the node raises UnsatisfiedRequirementsError.", "quantifier": "all metadata of a meter, pipelines of nodes of any length, requirements and postconditions", "why_tests_cant": "pipelines have any length and any order, and the nested dictionaries are of any depth; a test fixes one of them", "anchors": ["nilmtk/node.py:Node.dry_run_metadata", "nilmtk/node.py:Node.check_requirements", "nilmtk/elecmeter.py:ElecMeter.dry_run_metadata", "nilmtk/preprocessing/clip.py:Clip", "nilmtk/stats/totalenergy.py:TotalEnergy", "nilmtk/stats/goodsections.py:GoodSections", "nilmtk/stats/dropoutrate.py:DropoutRate"]}
{"id": "C131", "title": "Metadata after a pipeline was run", "statement": "get_metadata() of the last node of a pipeline that was run succeeds if no results and metadata have a dictionary where others have a plain value, and at any path it has what the results of the last node have there that have anything, or else what the meter has; so results are never hidden by older ones, and what no node has results for is as in the metadata of the meter. A user expects to find all that dry_run_metadata() of the pipeline announced; that holds of every pipeline whose nodes have results for all of their postconditions, as GoodSections and DropoutRate have. It is false of Clip, which leaves no trace in the metadata although the dry run says preprocessing_applied, and of TotalEnergy, which writes total_energy while the dry run announces energy under statistics.", "quantifier": "all metadata of a meter, pipelines of nodes of any length, and results of the nodes", "why_tests_cant": "the statement is about pipelines of any length and nested dictionaries of any depth; the difference between announced and actual metadata shows only when both are compared", "anchors": ["nilmtk/node.py:Node.get_metadata", "nilmtk/node.py:Node.dry_run_metadata", "nilmtk/elecmeter.py:ElecMeter.get_metadata", "nilmtk/stats/totalenergyresults.py:TotalEnergyResults.to_dict", "nilmtk/stats/goodsectionsresults.py:GoodSectionsResults.to_dict", "nilmtk/stats/dropoutrateresults.py:DropoutRateResults.to_dict"]}
{"id": "C132", "title": "Training samples of the maximum likelihood model", "statement": "The edges of a chunk are the changes of power by more than thDelta from one reading to the next, where readings below thDelta count as 0. Training of MLE on meters of different identifiers takes as a run each rise that is followed at once by a fall, in every chunk; the samples of on power and off power are the rises and falls of all runs, meter after meter, the samples of durations are those of the runs shorter than 400 s, and the statistics have one entry for each meter that has readings, with the number of its runs. Rises are above thDelta, falls below minus thDelta, and falls come after their rises. no_overfitting() raises ValueError if there is no run; otherwise it keeps, with k the smallest number of runs of a meter that has any, the rises and falls of the first k runs of every such meter, and the statistics then say k. A user expects the same of the durations; that is false, since the long ones were dropped before and the others are taken for those of other runs and meters.", "quantifier": "all meters, chunks in order of time, and thresholds that are not negative", "why_tests_cant": "the cut goes by running positions in tables of all meters, so that a mistake shows only with particular numbers of runs in particular meters", "anchors": ["nilmtk/legacy/disaggregate/maximum_likelihood_estimation.py:MLE.train", "nilmtk/legacy/disaggregate/maximum_likelihood_estimation.py:MLE.train_on_chunk", "nilmtk/legacy/disaggregate/maximum_likelihood_estimation.py:MLE.no_overfitting"]}
{"id": "C133", "title": "Disaggregation with the maximum likelihood model", "statement": "A run that a model of MLE allows in a chunk is a rise above powerNoise from one reading to the next and a later fall below minus powerNoise less than timeWindow after it, of sizes that differ by less than powerPair, with a likelihood of at least thLikelihood. disaggregate_chunk() of a chunk of the right units chooses some of the allowed runs, no two of which overlap; the power it gives at each reading is the rise of the chosen run that covers it, or 0; and an allowed run that is not chosen overlaps a chosen one that is at least as likely, whichever way ties are sorted. A chunk of other units is refused if and only if the appliance is not resistive; the error is then UnboundLocalError, and never the ValueError for which the code has a text.", "quantifier": "all chunks, models with a noise level that is not negative, likelihood functions, and orders of equally likely runs", "why_tests_cant": "the choice depends on all overlaps of all pairs of rises and falls, in the order of their likelihoods; tests show a few of them and no likelihood function is like another", "anchors": ["nilmtk/legacy/disaggregate/maximum_likelihood_estimation.py:MLE.disaggregate_chunk", "nilmtk/legacy/disaggregate/maximum_likelihood_estimation.py:MLE.__physical_quantity"]}
{"id": "C134", "title": "What disaggregation with the maximum likelihood model stores", "statement": "MLE.disaggregate(mains, store), for mains with at least one chunk, all of units that the model takes, raises nothing before the metadata; it appends the chunks of the mains, unchanged and in order, to meter 1 of the building and, chunk by chunk, a disaggregation of each resampled chunk to meter 2, and changes the data of no other meter. A chunk of other units ends it with UnboundLocalError, with the chunks before it stored in both meters and nothing of that chunk in either; an exception of the mains comes out after all chunks it gave are stored; mains without a chunk give UnboundLocalError and leave the store as it was. A run of the appliance within which a chunk ends can be lost: there are readings whose power is 0 throughout in two chunks, though in one chunk the run is found.", "quantifier": "all mains, chunks, stores and their previous data, buildings, models with a noise level that is not negative, likelihood functions, orders of equally likely runs, and ways to resample", "why_tests_cant": "what is stored after an exception depends on where in the chunks it occurs; the repository has no test of it, and a test would show one order of good and bad chunks and one previous store", "anchors": ["nilmtk/legacy/disaggregate/maximum_likelihood_estimation.py:MLE.disaggregate", "nilmtk/legacy/disaggregate/maximum_likelihood_estimation.py:MLE.disaggregate_chunk"]}
{"id": "C135", "title": "Opening a data store", "statement": "get_datastore(filename, format, mode) opens HDF5 if the format is 'HDF', or if none is given and the name ends with .h5, and CSV likewise with .csv; any other arguments with a name give ValueError and change nothing. HDF5 for reading or appending needs an existing file, else OSError, and changes nothing; for writing it begins with an empty file whatever was there, so that a conversion that is run again gives the same file, and changes no other name. The same is expected of CSV: reading needs existing data and writing begins with none. Without a name ValueError is expected. DataSet(filename) opens an existing HDF5 file, or raises OSError, whatever the ending of the name, and never changes the disk; DataSet() opens nothing.", "quantifier": "all disks, names, formats, modes, and sequences of calls on the store that is opened", "why_tests_cant": "all combinations of name, format, mode and what is on the disk count, and tests open files that exist in the one format that they have", "anchors": ["nilmtk/utils.py:get_datastore", "nilmtk/datastore/hdfdatastore.py:HDFDataStore.__init__", "nilmtk/datastore/csvdatastore.py:CSVDataStore.__init__", "nilmtk/dataset.py:DataSet.__init__"]}
{"id": "C136", "title": "Metadata of disaggregation with the maximum likelihood model", "statement": "After MLE.disaggregate(mains, store), for mains with data, whose chunks are of units that the model takes, sorted and do not overlap, the metadata of the store describe what was stored: the data set from the start of the first chunk to the end of the last, devices for the mains and the model that measure what the last chunk measures, the mains as site meter 1 and the appliance as meter 2, a submeter of it, at the keys where their data are, with the appliance and the sample period of the model. No other metadata change, and an exception of the mains or in a chunk leaves the store as the chunks before it left it, with all metadata as they were.", "quantifier": "all mains, chunks, stores, buildings, models with a noise level that is not negative, likelihood functions, and ways to resample", "why_tests_cant": "the metadata must fit the data for every division of the mains into chunks and every previous content of the store; the repository has no test of it", "anchors": ["nilmtk/legacy/disaggregate/maximum_likelihood_estimation.py:MLE.disaggregate"]}
