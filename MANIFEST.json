{
 "claims": [
  {
   "property": "C01",
   "status": "proved",
   "theorems": [
    "Verif.C01_split_range_balanced_partition",
    "Verif.C01_split_range_errors",
    "Verif.C01_empty_parts_last"
   ],
   "note": ""
  },
  {
   "property": "C02",
   "status": "proved",
   "theorems": [
    "Verif.C02_split_list_balanced_partition",
    "Verif.C02_split_list_empty"
   ],
   "note": ""
  },
  {
   "property": "C03",
   "status": "proved",
   "theorems": [
    "Verif.C03_series_indices_round_trip",
    "Verif.C03_images_indices_round_trip",
    "Verif.C03_written_files_distinct"
   ],
   "note": ""
  },
  {
   "property": "C04",
   "status": "proved",
   "theorems": [
    "Verif.C04_each_item_in_exactly_one_process",
    "Verif.C04_subproc_series",
    "Verif.C04_async_series",
    "Verif.C04_subproc_complete",
    "Verif.C04_async_complete",
    "Verif.C04_subproc_images",
    "Verif.C04_async_first_queue"
   ],
   "note": "text of str_subset for images is parsed by fluiddyn (external); the tuple of slices is modelled"
  },
  {
   "property": "C05",
   "status": "partial",
   "theorems": [
    "Verif.C05_new_dir_search_terminates",
    "Verif.C05_bad_mode_rejected",
    "Verif.C05_prepare_keeps_everything",
    "Verif.C05_new_dir_is_new",
    "Verif.C05_other_modes_return_base",
    "Verif.C05_new_dir_succeeds_partial",
    "Verif.C05_path_object_fails"
   ],
   "note": "Everything proved for paths given as texts or not given. False in mode new_dir for Path objects (C05_path_object_fails: TypeError), in particular for a second topology created with the same parameters, since the constructor stores a Path in params.saving.path."
  },
  {
   "property": "C06",
   "status": "partial",
   "theorems": [
    "Verif.C06_unaccepted_answers_never_decide",
    "Verif.C06_uppercase_answer_not_respected",
    "Verif.C06_lowercase_answer_decides_partial",
    "Verif.C06_no_question_when_free"
   ],
   "note": "false of the code for upper-case answers (C06_uppercase_answer_not_respected); proved for lower-case answers"
  },
  {
   "property": "C07",
   "status": "proved",
   "theorems": [
    "Verif.C07_exactly_the_missing",
    "Verif.C07_resumed_run_gives_expected_files",
    "Verif.C07_same_files_whatever_the_interruptions",
    "Verif.C07_nothing_left"
   ],
   "note": "for injective names of results (see C46 for the cases where names are not injective)"
  },
  {
   "property": "C08",
   "status": "proved",
   "theorems": [
    "Verif.C08_queue_refines_fifo_map",
    "Verif.C08_is_name_in_values_iff",
    "Verif.C08_copy_is_identical"
   ],
   "note": ""
  },
  {
   "property": "C09",
   "status": "proved",
   "theorems": [
    "Verif.C09_sequential_chain"
   ],
   "note": "chains of works of any length"
  },
  {
   "property": "C10",
   "status": "proved",
   "theorems": [
    "Verif.C10_async_schedule",
    "Verif.C10_async_like_sequential"
   ],
   "note": "chains of works; topologies with global works: see C23, C25"
  },
  {
   "property": "C11",
   "status": "proved",
   "theorems": [
    "Verif.C11_never_stops_early"
   ],
   "note": "every well-formed topology"
  },
  {
   "property": "C12",
   "status": "partial",
   "theorems": [
    "Verif.C12_piv_default_limits",
    "Verif.C12_async_finishes_chain",
    "Verif.C12_no_deadlock_chain",
    "Verif.C12_async_finishes_piv_partial",
    "Verif.C12_no_deadlock_piv_partial",
    "Verif.C12_async_finishes_preproc_partial",
    "Verif.C12_no_deadlock_preproc_partial",
    "Verif.C12_windows_waiting",
    "Verif.C12_async_finishes_piv_consecutive",
    "Verif.C12_async_finishes_preproc_windows",
    "Verif.C12_large_subset_never_finishes",
    "Verif.C12_im2im_deadlock"
   ],
   "note": "Proved: chains of works (fair termination, no deadlock); PIV and preprocessing topologies when all images fit in a queue, or without image-to-image function when few images wait (consecutive couples, sliding windows not larger than a queue). False in general: C12_large_subset_never_finishes, C12_im2im_deadlock."
  },
  {
   "property": "C13",
   "status": "partial",
   "theorems": [
    "Verif.C13_counters",
    "Verif.C13_worker_limit_exceeded",
    "Verif.C13_queue_limit_exceeded",
    "Verif.C13_workers_partial",
    "Verif.C13_queue_partial"
   ],
   "note": "false of the code (C13_worker_limit_exceeded, C13_queue_limit_exceeded); proved: exact counters and weaker bounds"
  },
  {
   "property": "C14",
   "status": "proved",
   "theorems": [
    "Verif.C14_other_items",
    "Verif.C14_failing_item",
    "Verif.C14_successful_item"
   ],
   "note": "chains of works, sequential and asynchronous"
  },
  {
   "property": "C15",
   "status": "proved",
   "theorems": [
    "Verif.C15_stop_if_error",
    "Verif.C15_stop_if_error_async"
   ],
   "note": "chains of works"
  },
  {
   "property": "C16",
   "status": "partial",
   "theorems": [
    "Verif.C16_item_lost",
    "Verif.C16_stops_early",
    "Verif.C16_no_early_stop_partial"
   ],
   "note": "The full statement is false (C16_item_lost, C16_stops_early): the flag can be set between the pop of an item and send_job. C16_no_early_stop_partial: when no item is in that window at the check, all items have been saved. send_job and well_done_thanks are taken as atomic."
  },
  {
   "property": "C17",
   "status": "partial",
   "theorems": [
    "Verif.C17_terminates",
    "Verif.C17_returns_after_all",
    "Verif.C17_codes",
    "Verif.C17_fails_iff",
    "Verif.C17_errors",
    "Verif.C17_final_seq_work_masks",
    "Verif.C17_final_once"
   ],
   "note": "Proved for every number of processes and every order of exits when final_seq_work does not raise; when it raises, its exception replaces the RuntimeError (C17_final_seq_work_masks), so 'exactly when' holds only without a raising final_seq_work. Assumes that every sub-process exits."
  },
  {
   "property": "C18",
   "status": "proved",
   "theorems": [
    "Verif.C18_files",
    "Verif.C18_last_save",
    "Verif.C18_crash",
    "Verif.C18_distinct_files",
    "Verif.C18_file_names",
    "Verif.C18_read_back"
   ],
   "note": "Results all of the same kind (strings, paths or other objects), as in all the topologies of the package; names without newline and without white space at the ends for the reading back."
  },
  {
   "property": "C19",
   "status": "partial",
   "theorems": [
    "Verif.C19_second_run",
    "Verif.C19_two_built",
    "Verif.C19_start_can_fail",
    "Verif.C19_lock_not_in_job_dir",
    "Verif.C19_log_is_file_fails",
    "Verif.C19_search_terminates",
    "Verif.C19_lock_iff_running",
    "Verif.C19_not_shared",
    "Verif.C19_no_stale_lock",
    "Verif.C19_release_twice",
    "Verif.C19_fresh_start_partial",
    "Verif.C19_multi_start_partial"
   ],
   "note": "Locks and directories are never shared and locks exist exactly while running, for all histories. Starting an executor can fail (C19_second_run, C19_two_built, C19_start_can_fail); it succeeds if no executor of the same process and second exists (C19_fresh_start_partial) and for multi-process executors launched one after the other (C19_multi_start_partial)."
  },
  {
   "property": "C20",
   "status": "partial",
   "theorems": [
    "Verif.C20_sequential_fails",
    "Verif.C20_sequential_partial",
    "Verif.C20_async",
    "Verif.C20_async_stops",
    "Verif.C20_multi"
   ],
   "note": "False for the sequential executor with topologies recording their results (C20_sequential_fails, AttributeError); true for the others (C20_sequential_partial, C20_async, C20_multi)."
  },
  {
   "property": "C21",
   "status": "proved",
   "theorems": [
    "Verif.C21_process_async",
    "Verif.C21_async_terminates",
    "Verif.C21_process_sequential",
    "Verif.C21_mean",
    "Verif.C21_unreadable_image_fails"
   ],
   "note": "Every schedule and splitting; unsigned integer pixels; the rounding of the final division is any monotone rounding exact on integers with relative error 2^-53. An image which can not be read crashes the computation (C21_unreadable_image_fails)."
  },
  {
   "property": "C22",
   "status": "proved",
   "theorems": [
    "Verif.C22_wraps",
    "Verif.C22_exact",
    "Verif.C22_overflow_fails"
   ],
   "note": "C22_wraps gives the result in all cases, C22_exact under the bound, C22_overflow_fails shows that the bound is needed."
  },
  {
   "property": "C23",
   "status": "proved",
   "theorems": [
    "Verif.C23_async",
    "Verif.C23_sequential",
    "Verif.C23_no_crash",
    "Verif.C23_make_couples",
    "Verif.C23_same_image_twice"
   ],
   "note": "PIV topology, with or without image-to-image function, asynchronous and sequential executors; couples of an image with itself crash the run (C23_same_image_twice)"
  },
  {
   "property": "C24",
   "status": "proved",
   "theorems": [
    "Verif.C24_make_couples",
    "Verif.C24_reachable",
    "Verif.C24_read_once"
   ],
   "note": ""
  },
  {
   "property": "C25",
   "status": "proved",
   "theorems": [
    "Verif.C25_async",
    "Verif.C25_sequential",
    "Verif.C25_no_crash",
    "Verif.C25_make_subsets",
    "Verif.C25_reachable"
   ],
   "note": "preprocessing topology, asynchronous and sequential executors"
  },
  {
   "property": "C26",
   "status": "partial",
   "theorems": [
    "Verif.C26_order_partial",
    "Verif.C26_disjoint",
    "Verif.C26_imagewise",
    "Verif.C26_order_fails",
    "Verif.C26_complete_partial",
    "Verif.C26_complete_one_by_one",
    "Verif.C26_empty_fails",
    "Verif.C26_crash_fails",
    "Verif.C26_complete_overlap_fails"
   ],
   "note": "Proved when the subsets that share an image agree on it (disjoint subsets, or image-by-image tools): any order and interleaving of the writes gives the same directory; completion after a crash between two results (or any crash point for the default one-image subsets). Negations: overlapping subsets with temporal filters (order dependent, and skipped when completing), crash in the middle of a subset."
  },
  {
   "property": "C27",
   "status": "partial",
   "theorems": [
    "Verif.C27_partial",
    "Verif.C27_even_fails",
    "Verif.C27_topology_fails"
   ],
   "note": "Proved for the slice of saved images when the index and number of series are given, for odd windows or one image per value; negations: even windows with several images per value, and the topology never gives the index so overlapping windows are saved several times."
  },
  {
   "property": "C28",
   "status": "partial",
   "theorems": [
    "Verif.C28_reference_excluded",
    "Verif.C28_other_reference",
    "Verif.C28_reference_in_subdirectory_fails",
    "Verif.C28_reference_of_integer",
    "Verif.C28_no_preproc_async_partial",
    "Verif.C28_no_preproc_sequential_partial",
    "Verif.C28_preproc_ignored_fails",
    "Verif.C28_preproc_never_ends_fails",
    "Verif.C28_preproc_sequential_fails"
   ],
   "note": "Which images are computed: proved (fixIndices) when the reference is in the directory of the serie or outside; fails for a reference in a sub-directory. Execution without image-to-image function: proved for both executors. With an image-to-image function the property is false of the code (bos.py:146 reads the raw arrays): C28_preproc_*_fails."
  },
  {
   "property": "C29",
   "status": "partial",
   "theorems": [
    "Verif.C29_subset_partial",
    "Verif.C29_subset_never_ends_fails",
    "Verif.C29_async_partial",
    "Verif.C29_order_partial",
    "Verif.C29_no_crash_partial",
    "Verif.C29_async_finishes_partial",
    "Verif.C29_no_deadlock_partial",
    "Verif.C29_sequential_partial",
    "Verif.C29_frame_calls_partial",
    "Verif.C29_complete_never_ends_fails",
    "Verif.C29_complete_sequential_fails",
    "Verif.C29_single_image_never_ends_fails",
    "Verif.C29_single_image_sequential_fails",
    "Verif.C29_sequential_small_queue_fails",
    "Verif.C29_deadlock_fails"
   ],
   "note": "Proved for every schedule, number of frames (except one) and functions: per-frame calls (specification: references = corrected previous frame), order of the corrections at any time and at the end, no crash, termination of the sequential executor, fair termination and absence of deadlock of the asynchronous one when the frames fit in nb_items_queue_max. The property fails, proved: mode 'complete' with one result present never ends; a single image never ends; deadlock with 9 frames and nb_items_queue_max = 8; sequential executor with nb_items_queue_max < 2. A subset of images with a step: the queues are those of the theorems when stop-1 is in the subset (C29_subset_partial); otherwise there is a couple whose second image is not in the subset and nothing ends (C29_subset_never_ends_fails)."
  },
  {
   "property": "C30",
   "status": "partial",
   "theorems": [
    "Verif.C30_correct_couple_partial",
    "Verif.C30_no_jump",
    "Verif.C30_jump",
    "Verif.C30_removes_multiples",
    "Verif.C30_huge_phase_fails",
    "Verif.C30_rounding_fails"
   ],
   "note": "Proved in exact arithmetic (C30_correct_couple_partial, C30_removes_multiples); the bound on the computed jump holds for any rounding (C30_jump). Termination is false in double precision: C30_rounding_fails (phase of 96 rad), C30_huge_phase_fails."
  },
  {
   "property": "C31",
   "status": "proved",
   "theorems": [
    "Verif.C31_grid",
    "Verif.C31_overlap",
    "Verif.C31_refused"
   ],
   "note": "positions, windows inside the image, steps and margins for all image, window and overlap; refusal of too small images"
  },
  {
   "property": "C32",
   "status": "partial",
   "theorems": [
    "Verif.C32_partial",
    "Verif.C32_first_pass",
    "Verif.C32_inside",
    "Verif.C32_wraps_around",
    "Verif.C32_reachable"
   ],
   "note": "windows exact for positions such that the slice bounds are not negative; otherwise false: negative bounds wrap around (C32_wraps_around), reachable from a grid position (C32_reachable)"
  },
  {
   "property": "C33",
   "status": "proved",
   "theorems": [
    "Verif.C33_windows",
    "Verif.C33_position",
    "Verif.C33_shift",
    "Verif.C33_windows_exist"
   ],
   "note": ""
  },
  {
   "property": "C34",
   "status": "partial",
   "theorems": [
    "Verif.C34_partial",
    "Verif.C34_input",
    "Verif.C34_one_vector",
    "Verif.C34_not_nan",
    "Verif.C34_escapes"
   ],
   "note": "results of each vector equal to those of the vector alone, for every list of vectors; false: the displacement of a rejected peak is not NaN (C34_not_nan) and an AssertionError of one vector interrupts all (C34_escapes)"
  },
  {
   "property": "C35",
   "status": "proved",
   "theorems": [
    "Verif.C35_inverse",
    "Verif.C35_centres"
   ],
   "note": "all classes derive from the same two functions; centre indices per class"
  },
  {
   "property": "C36",
   "status": "proved",
   "theorems": [
    "Verif.C36_nan_indices_max",
    "Verif.C36_fft_peak",
    "Verif.C36_displacement_max"
   ],
   "note": "values are rationals or NaN; sqrt exact"
  },
  {
   "property": "C37",
   "status": "partial",
   "theorems": [
    "Verif.C37_masked",
    "Verif.C37_partial",
    "Verif.C37_low_border",
    "Verif.C37_fails"
   ],
   "note": "true when the rejected peak is at least particle_radius away from the low borders; false otherwise: nothing is masked (C37_low_border, C37_fails)"
  },
  {
   "property": "C38",
   "status": "proved",
   "theorems": [
    "Verif.C38_shift",
    "Verif.C38_displacement",
    "Verif.C38_bijection",
    "Verif.C38_centre"
   ],
   "note": "for every array and any initial content of the temporary array"
  },
  {
   "property": "C39",
   "status": "partial",
   "theorems": [
    "Verif.C39_partial",
    "Verif.C39_class_partial",
    "Verif.C39_refused",
    "Verif.C39_odd_out_of_bounds",
    "Verif.C39_displacement_max_refused"
   ],
   "note": "for windows such that the sizes satisfy GoodSizes (all default cases with even or smaller second windows); false for equal odd shapes (C39_odd_out_of_bounds) and when displacement_max is given (C39_displacement_max_refused)"
  },
  {
   "property": "C40",
   "status": "partial",
   "theorems": [
    "Verif.C40_marks",
    "Verif.C40_no_threshold",
    "Verif.C40_one_line_fails",
    "Verif.C40_peaks_partial",
    "Verif.C40_peak_bound_partial",
    "Verif.C40_outlier_never_replaced",
    "Verif.C40_must_replace",
    "Verif.C40_no_threshold_peaks_fails",
    "Verif.C40_values_lost",
    "Verif.C40_peak_too_long",
    "Verif.C40_peak_refused"
   ],
   "note": "Proved for every grid of at least 2 x 2 points: without secondary peaks (default) exactly the outliers are set to NaN, their values are kept, the others are unchanged (C40_marks). With secondary peaks: a replaced vector satisfies the conditions on correlation and neighbours, and its previous value is kept (C40_peaks_partial); the displacement bound holds only if the maximum is at least 1 (C40_peak_bound_partial), because the code compares the square of the length with the maximum itself: C40_peak_too_long, C40_peak_refused are concrete violations. Without threshold the removed values are lost (C40_values_lost) or the work fails (C40_no_threshold_peaks_fails). On every grid with one row or one column the comparison with the neighbours raises IndexError as soon as one vector is not an outlier (C40_one_line_fails)."
  },
  {
   "property": "C41",
   "status": "partial",
   "theorems": [
    "Verif.C41_partial",
    "Verif.C41_nan_point",
    "Verif.C41_one_row",
    "Verif.C41_one_line_fails"
   ],
   "note": "Proved at every point with a vector of every array of at least 2 x 2 points (interior, edges, corners). The full property is false: at a point without vector (NaN) the result is always NaN even when all its neighbours have a vector (C41_nan_point), and on every array with one row or one column the function reads outside of the array as soon as one point has a vector (C41_one_row, C41_one_line_fails)."
  },
  {
   "property": "C42",
   "status": "proved",
   "theorems": [
    "Verif.C42_covered_iff",
    "Verif.C42_cover",
    "Verif.C42_numbers",
    "Verif.C42_no_buffer",
    "Verif.C42_line_fails",
    "Verif.C42_recombine",
    "Verif.C42_recombine_between",
    "Verif.C42_iterations",
    "Verif.C42_nb_fixed",
    "Verif.C42_eleven",
    "Verif.C42_no_threshold_fails",
    "Verif.C42_exact"
   ],
   "note": "For every set of points accepted by the constructor, every sub-domain size and every positive buffer: all points are covered (C42_cover), a new position is covered iff it is in the extended rectangle (C42_covered_iff), recombination is the mean with positive weights of the sub-domains containing the point (C42_recombine, C42_recombine_between, C42_exact), at most 11 solves (C42_iterations; the message of the code says 10, C42_eleven). Disagreements: points on a horizontal or vertical line make the constructor fail (C42_line_fails); without threshold the weights computation always fails (C42_no_threshold_fails); buffer 0 would leave points uncovered (C42_no_buffer)."
  },
  {
   "property": "C43",
   "status": "partial",
   "theorems": [
    "Verif.C43_text",
    "Verif.C43_roundtrip",
    "Verif.C43_offsets",
    "Verif.C43_negative_start_fails",
    "Verif.C43_step_fails",
    "Verif.C43_decreasing",
    "Verif.C43_upside_down_fails",
    "Verif.C43_rows_only_fails",
    "Verif.C43_mask_once"
   ],
   "note": "C43_roundtrip holds for every crop text. C43_offsets: exact for crops 'y0:y1, x0:x1' with bounds counted from the start of the image. Fails (proved) for starts counted from the end, for slices with a step and for crops of the rows only."
  },
  {
   "property": "C44",
   "status": "partial",
   "theorems": [
    "Verif.C44_partial",
    "Verif.C44_stable",
    "Verif.C44_eleven_fails",
    "Verif.C44_codes",
    "Verif.C44_codes_other"
   ],
   "note": "C44_partial: passes, arrays (to single precision), errors, wrong vectors for all inputs; TPS arrays in order for at most ten sub-domains. C44_eleven_fails proves the order is lost for every list of at least eleven different arrays."
  },
  {
   "property": "C45",
   "status": "partial",
   "theorems": [
    "Verif.C45_last",
    "Verif.C45_other_pass_fails",
    "Verif.C45_witness",
    "Verif.C45_last_index",
    "Verif.C45_file",
    "Verif.C45_file_ten",
    "Verif.C45_file_eleven_fails"
   ],
   "note": "Exact for the default last pass; proved false for every other index (y coordinates are the x coordinates). Reading a multi-pass file as light result: last pass for <= 10 passes, pass 9 for 11 to 90 passes."
  },
  {
   "property": "C46",
   "status": "partial",
   "theorems": [
    "Verif.C46_one_index",
    "Verif.C46_number_letter",
    "Verif.C46_two_numbers_fails",
    "Verif.C46_step_fails",
    "Verif.C46_bos",
    "Verif.C46_preproc",
    "Verif.C46_window_size",
    "Verif.C46_window_step_fails",
    "Verif.C46_stem"
   ],
   "note": "Unique for one index, for number+letter indices, for BOS names and for sliding preprocessing windows. Proved false for two numeric indices (no separator) and for subsets that differ by their step."
  },
  {
   "property": "C47",
   "status": "proved",
   "theorems": [
    "Verif.C47_rows",
    "Verif.C47_columns",
    "Verif.C47_one_row_fails"
   ],
   "note": "Both flattening orders, increasing and decreasing coordinates; grids with one row or column raise IndexError (outside the quantifier)."
  },
  {
   "property": "C48",
   "status": "proved",
   "theorems": [
    "Verif.C48_regular",
    "Verif.C48_constructor",
    "Verif.C48_field_operations",
    "Verif.C48_number_operations",
    "Verif.C48_other_grid",
    "Verif.C48_extract",
    "Verif.C48_truncate",
    "Verif.C48_extract_phys",
    "Verif.C48_regularize"
   ],
   "note": "For any value type (floats included); fields on ascending/descending axes with at least two points per direction; operations between fields on the same grid. The grid of the other operand is not checked and labels are reset (C48_other_grid)."
  },
  {
   "property": "C49",
   "status": "partial",
   "theorems": [
    "Verif.C49_partial",
    "Verif.C49_tall_fails",
    "Verif.C49_tall_witness"
   ],
   "note": "Proved for fields that are not taller than wide; for every field with at least two more rows than columns the result is not square (C49_tall_fails)."
  },
  {
   "property": "C50",
   "status": "proved",
   "theorems": [
    "Verif.C50_time_average",
    "Verif.C50_empty_fails"
   ],
   "note": "Exact arithmetic (rationals); objects in a heap, the existing ones are unchanged."
  },
  {
   "property": "C51",
   "status": "partial",
   "theorems": [
    "Verif.C51_half_mean_square_partial",
    "Verif.C51_documented_fails",
    "Verif.C51_omega",
    "Verif.C51_coefficients",
    "Verif.C51_energy_2d"
   ],
   "note": "The integral of the spectrum is half the mean square (1D and 2D, every complex signal); the documented normalisation (without the factor 1/2) fails for every non-zero signal. The pulsation axis and the meaning of the coefficients are proved."
  },
  {
   "property": "C52",
   "status": "partial",
   "theorems": [
    "Verif.C52_distance_partial",
    "Verif.C52_aspect_ratio_fails",
    "Verif.C52_displacement",
    "Verif.C52_equal_points"
   ],
   "note": "Displacements: proved. Distance: holds exactly when the pixels are square or the points are on a diagonal (equivalence proved); the code applies the aspect ratio to the wrong coordinate (C52_aspect_ratio_fails)."
  },
  {
   "property": "C53",
   "status": "partial",
   "theorems": [
    "Verif.C53_round_trip_partial",
    "Verif.C53_way_back_defined",
    "Verif.C53_tilted_fails",
    "Verif.C53_fourth_slice_fails",
    "Verif.C53_distortion_fails",
    "Verif.C53_tilted_refraction_fails",
    "Verif.C53_arguments_modified_fails"
   ],
   "note": "Proved for horizontal slices without distortion (with or without refraction). Fails with distortion, for tilted slices (UnboundLocalError without refraction, wrong z with refraction), for the fourth slice without angles (IndexError); the arrays of the caller are modified."
  },
  {
   "property": "C54",
   "status": "partial",
   "theorems": [
    "Verif.C54_base",
    "Verif.C54_plane",
    "Verif.C54_intersection",
    "Verif.C54_intersection_exists",
    "Verif.C54_common_grid_partial",
    "Verif.C54_common_grid_fails"
   ],
   "note": "Base, plane, intersection: proved. Common grid: the upper limit in y ignores the first camera (C54_common_grid_fails)."
  },
  {
   "property": "C55",
   "status": "partial",
   "theorems": [
    "Verif.C55_grid",
    "Verif.C55_grid_rows",
    "Verif.C55_axis_distinct",
    "Verif.C55_axis",
    "Verif.C55_projection_partial",
    "Verif.C55_array_partial",
    "Verif.C55_flat_volume_fails",
    "Verif.C55_limits_fails",
    "Verif.C55_limits_partial"
   ],
   "note": "grid enumerated exactly once, projection aligned for distinct heights (every array with zlims distinct); fails for a flat volume with several layers (ValueError); attribute ymin overwritten by zlims[0], zmin missing"
  },
  {
   "property": "C56",
   "status": "partial",
   "theorems": [
    "Verif.C56_sequence",
    "Verif.C56_default_sequence",
    "Verif.C56_nothing_enabled",
    "Verif.C56_threshold_partial",
    "Verif.C56_threshold_defined",
    "Verif.C56_threshold_fraction_fails",
    "Verif.C56_threshold_opencv_fails",
    "Verif.C56_sliding",
    "Verif.C56_sliding_minima",
    "Verif.C56_sliding_uniform",
    "Verif.C56_rank_values",
    "Verif.C56_integer_weight_fails",
    "Verif.C56_temporal_minima",
    "Verif.C56_temporal_median_fails",
    "Verif.C56_opencv_negative_fails",
    "Verif.C56_opencv_16bits_fails",
    "Verif.C56_iterate"
   ],
   "note": "order of the tools, threshold (floats or integer bounds), sliding filters proved; fails: fractional bounds with integer images, OpenCV backend (threshold, negative values, 16 bits), integer weights, temporal median not clipped"
  },
  {
   "property": "C57",
   "status": "partial",
   "theorems": [
    "Verif.C57_aligned",
    "Verif.C57_filters_partial",
    "Verif.C57_filters_no_bounds",
    "Verif.C57_zero_displacement_fails",
    "Verif.C57_bound_fails",
    "Verif.C57_lost_feature_fails",
    "Verif.C57_no_feature_fails",
    "Verif.C57_original_image",
    "Verif.C57_no_crop"
   ],
   "note": "positions and displacements aligned for the criterion of the code; the documented criterion only when no displacement is equal to a bound; zero displacements removed with only a maximum; lost features kept; no feature is an error"
  },
  {
   "property": "C58",
   "status": "partial",
   "theorems": [
    "Verif.C58_names",
    "Verif.C58_raises",
    "Verif.C58_rejected_work_added",
    "Verif.C58_partial",
    "Verif.C58_queues"
   ],
   "note": "Rejection and order proved (C58_names, C58_raises); 'leaves the topology unchanged' is false: the rejected work stays in the list of works (C58_rejected_work_added)"
  },
  {
   "property": "C59",
   "status": "partial",
   "theorems": [
    "Verif.C59_partial",
    "Verif.C59_never_boolean",
    "Verif.C59_false_is_true"
   ],
   "note": "False: values are never converted (C59_never_boolean, C59_false_is_true); proved: every option is returned with its text unchanged"
  },
  {
   "property": "C60",
   "status": "partial",
   "theorems": [
    "Verif.C60_handlers_left",
    "Verif.C60_handlers_remain",
    "Verif.C60_partial",
    "Verif.C60_fuel"
   ],
   "note": "False with two handlers or more: every second handler is left (C60_handlers_left, C60_handlers_remain)"
  },
  {
   "property": "C61",
   "status": "partial",
   "theorems": [
    "Verif.C61_hours_minutes_seconds",
    "Verif.C61_short_partial",
    "Verif.C61_rounded_up"
   ],
   "note": "Proved for durations of at least one minute; below, the text is rounded to a hundredth of second and can show 60.00 s (C61_rounded_up)"
  },
  {
   "property": "C62",
   "status": "partial",
   "theorems": [
    "Verif.C62_series_Di",
    "Verif.C62_pair",
    "Verif.C62_no_last",
    "Verif.C62_series_Dj_fails",
    "Verif.C62_series_Dj_refused",
    "Verif.C62_other_modes",
    "Verif.C62_paths",
    "Verif.C62_piv_params"
   ],
   "note": "Proved for the modes series(Di) and pair j1-j2; false in mode series(Dj) (C62_series_Dj_fails)"
  },
  {
   "property": "C63",
   "status": "partial",
   "theorems": [
    "Verif.C63_truncated_result_is_kept",
    "Verif.C63_other_results_are_right_partial"
   ],
   "note": "false of the code (C63_truncated_result_is_kept); proved: only the file being written can be wrong"
  },
  {
   "property": "C64",
   "status": "proved",
   "theorems": [
    "Verif.C64_bounded",
    "Verif.C64_no_subpix",
    "Verif.C64_nan_accepted"
   ],
   "note": "formulas of the fits are parameters (arbitrary functions); NaN results are returned without an error (C64_nan_accepted)"
  },
  {
   "property": "C65",
   "status": "proved",
   "theorems": [
    "Verif.C65_numpy",
    "Verif.C65_fftw"
   ],
   "note": "numpy: equality; fftw: equality up to the factor n0*n1 (transform not normalised; the norm has the same factor for even numbers of columns). Exact real arithmetic; the libraries are modelled by the definition of the discrete Fourier transform."
  },
  {
   "property": "C66",
   "status": "partial",
   "theorems": [
    "Verif.C66_norm_numpy",
    "Verif.C66_norm_fftw",
    "Verif.C66_bounded_partial",
    "Verif.C66_translation_partial",
    "Verif.C66_fftw_odd_fails"
   ],
   "note": "Proved for numpy (all shapes) and fftw with an even number of columns. With fftw and an odd number of columns the code counts the last modes once: C66_fftw_odd_fails (for all odd numbers of columns >= 3, an image correlated with itself has a coefficient larger than 1)."
  },
  {
   "property": "C67",
   "status": "partial",
   "theorems": [
    "Verif.C67_mean_std",
    "Verif.C67_reconstruction_partial",
    "Verif.C67_no_system_fails",
    "Verif.C67_same_cameras",
    "Verif.C67_cameras_in_a_plane_fails"
   ],
   "note": "Proved when the object can be created and one of the systems is used; the same camera given twice is refused (C67_same_cameras). Fails to create the object when the two cameras are in the plane y = 0 (C67_cameras_in_a_plane_fails), TypeError when no system is used (C67_no_system_fails)."
  },
  {
   "property": "C68",
   "status": "partial",
   "theorems": [
    "Verif.C68_image_partial",
    "Verif.C68_larger_target_fails",
    "Verif.C68_image_points",
    "Verif.C68_bits_fails",
    "Verif.C68_detected_order_partial",
    "Verif.C68_count",
    "Verif.C68_detected_order_fails",
    "Verif.C68_object_points_partial",
    "Verif.C68_object_points_fails",
    "Verif.C68_even_refused"
   ],
   "note": "Detected order right for lines near multiples of the step (C68_detected_order_partial), half-integer lines break the order (C68_detected_order_fails); object points right for square targets only, wrong for every nx != ny. From the image (Model/TargetDetect.lean): the points of a target centred on the origin are given and the points further than half the box plus one pixel are not (C68_image_partial, C68_image_points); for a larger well centred target the box contains the points of the next columns and rows, and the detection is refused (C68_larger_target_fails); the intensities of images of more than 8 bits are taken modulo 256 (C68_bits_fails). The detector of OpenCV is any function."
  },
  {
   "property": "C69",
   "status": "partial",
   "theorems": [
    "Verif.C69_geometric_mean",
    "Verif.C69_order",
    "Verif.C69_other_files",
    "Verif.C69_saved_partial",
    "Verif.C69_rerun_fails",
    "Verif.C69_blocks_partial",
    "Verif.C69_blocks_memory",
    "Verif.C69_blocks_fails"
   ],
   "note": "Geometric mean for every order, in memory and in a new file; the values do not depend on the blocks, which fit in the memory (C69_blocks_partial, C69_blocks_memory). False: running again with an existing file multiplies the intensities again (C69_rerun_fails); with less voxels than processors the size of the blocks is 0 and dask divides by zero (C69_blocks_fails)."
  },
  {
   "property": "C70",
   "status": "partial",
   "theorems": [
    "Verif.C70_temporal",
    "Verif.C70_single_image",
    "Verif.C70_windows_partial",
    "Verif.C70_window_of_one_image_fails",
    "Verif.C70_window_of_one_image_accepted",
    "Verif.C70_list_fails"
   ],
   "note": "values and windows proved; fails: window of one image as an integer, list of two integers"
  },
  {
   "property": "C71",
   "status": "partial",
   "theorems": [
    "Verif.C71_tanh_partial",
    "Verif.C71_black_image_fails",
    "Verif.C71_default_threshold_8bits_fails"
   ],
   "note": "given positive threshold and a positive pixel; fails: black image, default threshold with 8 bits"
  },
  {
   "property": "C72",
   "status": "proved",
   "theorems": [
    "Verif.C72_sequential",
    "Verif.C72_async",
    "Verif.C72_multi"
   ],
   "note": "chains of works (sequential, asynchronous); multi-process: start of the processes (their errors: C17)"
  },
  {
   "property": "C73",
   "status": "proved",
   "theorems": [
    "Verif.C73_load",
    "Verif.C73_balanced",
    "Verif.C73_limits",
    "Verif.C73_no_deadlock",
    "Verif.C73_terminates",
    "Verif.C73_ends_with_flag",
    "Verif.C73_saving_loop"
   ],
   "note": "same model as C16 (one CPU work followed by one I/O work); a task is a server job, functions are arbitrary"
  },
  {
   "property": "C74",
   "status": "partial",
   "theorems": [
    "Verif.C74_windows",
    "Verif.C74_number",
    "Verif.C74_accepted",
    "Verif.C74_refused",
    "Verif.C74_subpix",
    "Verif.C74_number_zero_fails",
    "Verif.C74_integer_zoom",
    "Verif.C74_chain",
    "Verif.C74_empty_window_fails"
   ],
   "note": "Construction, windows, accepted and refused parameters, sub-pixel refinement and chain of the passes proved. The code violates the property in two cases: number of passes of 0 or less is accepted, gives one pass and no sub-pixel refinement (C74_number_zero_fails); windows which become empty by the reductions are accepted and then no couple has a result (C74_empty_window_fails)."
  },
  {
   "property": "C75",
   "status": "partial",
   "theorems": [
    "Verif.C75_history_partial",
    "Verif.C75_first_grid_stays",
    "Verif.C75_other_shape_fails"
   ],
   "note": "Proved for couples of images of the same shape, errors included. The code violates the property for another shape: the grid of the first couple stays in the object (C75_first_grid_stays, C75_other_shape_fails)."
  },
  {
   "property": "C76",
   "status": "partial",
   "theorems": [
    "Verif.C76_grid_pixel_partial",
    "Verif.C76_crop_fails"
   ],
   "note": "Proved without crop. With a crop the code violates the property: the shape stored with the couple is the one before the crop and the origin of the crop is not added (C76_crop_fails)."
  },
  {
   "property": "C77",
   "status": "partial",
   "theorems": [
    "Verif.C77_restored_partial",
    "Verif.C77_history_partial",
    "Verif.C77_nothing_to_do_fails",
    "Verif.C77_error_fails",
    "Verif.C77_error_stays_fails",
    "Verif.C77_own_log",
    "Verif.C77_user_stream_fails",
    "Verif.C77_exit"
   ],
   "note": "Proved for every history of computations reaching their normal end (C77_restored_partial, C77_history_partial), and at exit of the interpreter without restriction (C77_exit). False when an exception stops the computation (C77_error_fails: streams not restored, log file open, lock file left; not repaired by later computations, C77_error_stays_fails) and for a multi executor with nothing to do (C77_nothing_to_do_fails)."
  },
  {
   "property": "C78",
   "status": "partial",
   "theorems": [
    "Verif.C78_executor_partial",
    "Verif.C78_object_fails",
    "Verif.C78_limits",
    "Verif.C78_positive_partial",
    "Verif.C78_limits_nat",
    "Verif.C78_zero_workers_fails",
    "Verif.C78_cores",
    "Verif.C78_cores_fails"
   ],
   "note": "Proved: choice of the executor by name and flag, order of the sources of the limits, positive limits by default. False: an executor object is ignored (C78_object_fails), zero workers is accepted and the asynchronous executor then never stops (C78_zero_workers_fails), the correction for hyperthreading depends on the number of sockets and is right only in the cases of C78_cores_fails."
  },
  {
   "property": "C79",
   "status": "partial",
   "theorems": [
    "Verif.C79_result",
    "Verif.C79_bounded",
    "Verif.C79_ends_partial",
    "Verif.C79_once_partial",
    "Verif.C79_twice_fails",
    "Verif.C79_death_fails",
    "Verif.C79_not_sendable_fails",
    "Verif.C79_after",
    "Verif.C79_not_started_fails"
   ],
   "note": "Proved for all interleavings: a received result is that of the function, at most 10 processes and 60 actions, end without death of a process, one execution without slow start. False: death of the process or a result which cannot be pickled blocks the parent forever (C79_death_fails, C79_not_sendable_fails), the function can be executed twice (C79_twice_fails), a process which cannot be started stops the whole computation (C79_not_started_fails)."
  },
  {
   "property": "C80",
   "status": "partial",
   "theorems": [
    "Verif.C80_read_partial",
    "Verif.C80_whole_partial",
    "Verif.C80_killed_partial",
    "Verif.C80_names",
    "Verif.C80_durations_partial",
    "Verif.C80_repeated_fails",
    "Verif.C80_spaces_fails",
    "Verif.C80_plot_fails",
    "Verif.C80_plot_all"
   ],
   "note": "Proved for keys without white space, any sequence of launches, ends and other lines (C80_read_partial), and for the durations when a key is done once (C80_durations_partial). False for keys with spaces (C80_spaces_fails), for works executed several times with the same key such as global works (C80_repeated_fails), and for the selection in plot_nb_workers (C80_plot_fails). The header of the file, the choice of the files and the number of workers are in C132."
  },
  {
   "property": "C81",
   "status": "partial",
   "theorems": [
    "Verif.C81_solvable",
    "Verif.C81_result",
    "Verif.C81_interpolation",
    "Verif.C81_affine",
    "Verif.C81_moments",
    "Verif.C81_linear",
    "Verif.C81_minimises",
    "Verif.C81_smoother",
    "Verif.C81_translation",
    "Verif.C81_gradient_partial",
    "Verif.C81_gradient_fails"
   ],
   "note": "All parts on the weights and the field are proved for real arithmetic. The part on the gradient is false: compute_tps_matrices_dxy takes DX from the coordinate of index 1 but puts the slope of the coordinate of index 0 in DMX, so the radial part and the affine part are derivatives along different axes (C81_gradient_fails: for affine fields the two components are exchanged; C81_gradient_partial gives the exact error). Squared curvature means the quadratic form of the radial weights; that it is the integral of the squared second derivatives is not proved. Rounding is not modelled."
  },
  {
   "property": "C82",
   "status": "partial",
   "theorems": [
    "Verif.C82_only_nan",
    "Verif.C82_nan_ignored",
    "Verif.C82_positions",
    "Verif.C82_stale_fails",
    "Verif.C82_griddata",
    "Verif.C82_griddata_total",
    "Verif.C82_tps_nan",
    "Verif.C82_fallback",
    "Verif.C82_no_smooth_fails",
    "Verif.C82_line_fails",
    "Verif.C82_use_tps",
    "Verif.C82_smooth",
    "Verif.C82_affine",
    "Verif.C82_nan_fails"
   ],
   "note": "Proved: selection, InterpError when nothing is usable, alignment of estimates and positions (griddata and splines), affine fields, smoothed arrays, exact condition of the fallback to griddata. False in the code: with the splines the positions far from the usable vectors get NaN (C82_nan_fails, exact condition C82_tps_nan); the positions are not updated by a second call on the same object (C82_stale_fails); the smoothed arrays are missing after the fallback (C82_no_smooth_fails); aligned vectors give another error than InterpError (C82_line_fails). SciPy and the solver are parameters."
  },
  {
   "property": "C83",
   "status": "partial",
   "theorems": [
    "Verif.C83_fails_iff",
    "Verif.C83_saved",
    "Verif.C83_recover",
    "Verif.C83_nan_fails",
    "Verif.C83_not_last_fails",
    "Verif.C83_subdomains_fails",
    "Verif.C83_smooth_partial",
    "Verif.C83_names",
    "Verif.C83_put"
   ],
   "note": "Proved for all passes: the seven variables of each pass, the flags and the recovery of the displacements; smoothed fields and weights when no vector is NaN and the sub-domains have equal sizes. The code violates the rest: a NaN vector, a pass before the last one or sub-domains of different sizes make the smoothed fields and the weights silently absent (C83_nan_fails, C83_not_last_fails, C83_subdomains_fails)."
  },
  {
   "property": "C84",
   "status": "partial",
   "theorems": [
    "Verif.C84_frame_partial",
    "Verif.C84_order_partial",
    "Verif.C84_light",
    "Verif.C84_zero_mean",
    "Verif.C84_again",
    "Verif.C84_integers",
    "Verif.C84_integers_fails",
    "Verif.C84_merged",
    "Verif.C84_crop_fails",
    "Verif.C84_eight_bits_fails",
    "Verif.C84_reference",
    "Verif.C84_no_reference_fails"
   ],
   "note": "Proved without crop_edge for images of floats: the phase is computed from the normalised window (C84_frame_partial), whatever the frames processed before (C84_order_partial), the light of each line (C84_light), a second call with the same array, which the first call changes (C84_again); mean reference frame (C84_reference). The code violates the property for images of integers: the division by the means is done in place in the array of integers, the window becomes binary (C84_integers, C84_integers_fails); with crop_edge: merge_cropped_frame and frame_normalize change self.ref, so the phase depends on the history (C84_merged, C84_crop_fails); without reference image: AttributeError instead of the announced default (C84_no_reference_fails)."
  },
  {
   "property": "C85",
   "status": "partial",
   "theorems": [
    "Verif.C85_height",
    "Verif.C85_zero",
    "Verif.C85_injective",
    "Verif.C85_correct_pos_fails",
    "Verif.C85_offset",
    "Verif.C85_phase",
    "Verif.C85_no_error",
    "Verif.C85_error_fails",
    "Verif.C85_no_number"
   ],
   "note": "Proved: inverse of the formula of the phases (C85_height), zeros and injectivity (C85_zero, C85_injective), offset of the reference (C85_offset), no exception for smooth phases (C85_no_error), the phase is used as given (C85_phase). The code violates the property: correct_pos has no effect, because all the displacements are set to zero (C85_correct_pos_fails); the detection of the jumps, the result of which is not used, raises for a difference of 0.95 pi or some NaN (C85_error_fails)."
  },
  {
   "property": "C86",
   "status": "partial",
   "theorems": [
    "Verif.C86_borders",
    "Verif.C86_threshold_fails",
    "Verif.C86_columns",
    "Verif.C86_zeros",
    "Verif.C86_no_borders_fails",
    "Verif.C86_identity_fails",
    "Verif.C86_left_fails"
   ],
   "note": "Proved: borders found by the medians (C86_borders), columns kept (C86_columns), null borders (C86_zeros). The code violates the property: threshold 300 never reached by 8-bit images (C86_threshold_fails), borders = 0 always raises (C86_no_borders_fails), the last column is lost and the others stretched without crop_edge (C86_identity_fails), negative index when the structure begins on the left of the window (C86_left_fails)."
  },
  {
   "property": "C87",
   "status": "partial",
   "theorems": [
    "Verif.C87_same_angle",
    "Verif.C87_recover",
    "Verif.C87_columns",
    "Verif.C87_first_line",
    "Verif.C87_lines_fails"
   ],
   "note": "Proved for all sizes and all angles: equality modulo 2\u03c0, recovery of any surface with steps less than \u03c0, steps at most \u03c0 in the columns and in the first line. The last sentence is false in the lines: the unwrapping of the columns, done after that of the lines, can leave steps of nearly 2\u03c0 between neighbours of a line (C87_lines_fails, angles around which the phase turns). np.unwrap is modelled after its code, with reals."
  },
  {
   "property": "C88",
   "status": "partial",
   "theorems": [
    "Verif.C88_contrast",
    "Verif.C88_reduction",
    "Verif.C88_response_partial",
    "Verif.C88_light_partial",
    "Verif.C88_light_odd_fails",
    "Verif.C88_wave_vector_partial",
    "Verif.C88_grid_partial",
    "Verif.C88_grid_odd_fails"
   ],
   "note": "For even sizes (and, for the response and the light, a whole number of periods in the width): proved. For an odd width, as with the default window 640 - 475 = 165, np.arange(-l/2, l/2) contains half-integers: all the frequencies of the filter are wrong by half of the resolution, so that a uniform light is not rejected (C88_light_odd_fails), and the wave vector of a grid is wrong by 1/2 when sur is odd (C88_grid_odd_fails for sur = 1). The contrast theorem has no restriction."
  },
  {
   "property": "C89",
   "status": "partial",
   "theorems": [
    "Verif.C89_divergence_partial",
    "Verif.C89_curl_partial",
    "Verif.C89_order1",
    "Verif.C89_identities",
    "Verif.C89_errors",
    "Verif.C89_tolerance_fails",
    "Verif.C89_spacing"
   ],
   "note": "Exact values at all points for quadratic (edge_order 2) and linear (edge_order 1) variations on exactly regular grids, discrete identities, and errors. Fails for grids with steps near 1e-8: the regularity test of the code has an absolute tolerance (C89_tolerance_fails), so an irregular grid is accepted and the divergence of vx = x is 3/2. Exact arithmetic."
  },
  {
   "property": "C90",
   "status": "partial",
   "theorems": [
    "Verif.C90_median",
    "Verif.C90_border",
    "Verif.C90_iterated",
    "Verif.C90_iterations_fails",
    "Verif.C90_gaussian_radius",
    "Verif.C90_gaussian_partial",
    "Verif.C90_gaussian_vz_fails"
   ],
   "note": "Proved for one iteration (median: all components; Gaussian: vx, vy) and, for any number of iterations, at the points far enough from the borders (C90_iterated). Fails in the code for niter >= 2, where valid=True removes no more points than for one iteration (C90_iterations_fails), and for an array vz, which the Gaussian filter leaves unfiltered (C90_gaussian_vz_fails). The functions median and weighted sum are parameters."
  },
  {
   "property": "C91",
   "status": "partial",
   "theorems": [
    "Verif.C91_new_array_partial",
    "Verif.C91_in_place_fails"
   ],
   "note": "Proved for functions which return a new array. Fails for functions which return their argument, modified in place or not: vx of the result is vy (C91_in_place_fails), because one buffer is used for the two components."
  },
  {
   "property": "C92",
   "status": "partial",
   "theorems": [
    "Verif.C92_round_trip_partial",
    "Verif.C92_without_z_fails",
    "Verif.C92_number_vz_fails"
   ],
   "note": "Proved for fields with a z: same coordinates, components, names, parameters. Fails without z (TypeError, an unreadable file is left; C92_without_z_fails) and for the usability of a loaded field with a number vz (C92_number_vz_fails): it becomes an array of dimension zero, for which median_filter and regularize_grid raise."
  },
  {
   "property": "C93",
   "status": "partial",
   "theorems": [
    "Verif.C93_progress",
    "Verif.C93_progress_bar",
    "Verif.C93_progress_end",
    "Verif.C93_progress_ends",
    "Verif.C93_monitor",
    "Verif.C93_monitor_end_partial",
    "Verif.C93_monitor_late",
    "Verif.C93_monitor_late_fails",
    "Verif.C93_monitor_decreases_fails",
    "Verif.C93_monitor_start_fails",
    "Verif.C93_monitor_deleted",
    "Verif.C93_job",
    "Verif.C93_job_found",
    "Verif.C93_same_second_fails",
    "Verif.C93_running_partial",
    "Verif.C93_running_fails"
   ],
   "note": "Proved for the progress bar of the multi-process executors (no failure, monotone, bounded by the results, exact at the end). The monitoring application is only proved not to fail and to be bounded; the code violates the rest: late processes are never counted, the number can decrease, it fails to start without file, two jobs of the same second share a directory, and a job is said to run while its file is_running exists or before it is created (_fails theorems)."
  },
  {
   "property": "C94",
   "status": "partial",
   "theorems": [
    "Verif.C94_exits_iff",
    "Verif.C94_blocked_fails",
    "Verif.C94_returns_partial",
    "Verif.C94_stdout_logged"
   ],
   "note": "The code violates the property: stdout and stderr are pipes which are not read while the child runs, so a child which writes more than the capacity of a pipe blocks and compute never returns (C94_blocked_fails, for all schedules). Proved: compute returns if the texts fit (C94_returns_partial), and the exact condition for a child to exit (C94_exits_iff)."
  },
  {
   "property": "C95",
   "status": "partial",
   "theorems": [
    "Verif.C95_string",
    "Verif.C95_string_no_dot",
    "Verif.C95_function",
    "Verif.C95_callable_fails",
    "Verif.C95_apply",
    "Verif.C95_apply_error",
    "Verif.C95_apply_none",
    "Verif.C95_display",
    "Verif.C95_process_1_image_fails",
    "Verif.C95_bos_argument_fails",
    "Verif.C95_topology_async",
    "Verif.C95_topology_sequential",
    "Verif.C95_topology_errors"
   ],
   "note": "Proved for functions, classes and names, apply_im2im_filter, display and the topology Image2Image (all schedules). The code violates the property for other callables (UnboundLocalError), process_1_image (arguments swapped) and the BOS topology (the second item is a couple) (_fails theorems)."
  },
  {
   "property": "C96",
   "status": "partial",
   "theorems": [
    "Verif.C96_images",
    "Verif.C96_shift",
    "Verif.C96_centred",
    "Verif.C96_domain",
    "Verif.C96_error",
    "Verif.C96_noise",
    "Verif.C96_centre_fails",
    "Verif.C96_centre_partial"
   ],
   "note": "Proved with exact arithmetic (the code uses 32-bit floats) and an abstract profile of the particles. The centring fails by one pixel, for the pixel n//2 used as centre by the PIV, when a size of the first image is even and the one of the second odd (C96_centre_fails)."
  },
  {
   "property": "C97",
   "status": "partial",
   "theorems": [
    "Verif.C97_set",
    "Verif.C97_compute_partial",
    "Verif.C97_first_fails",
    "Verif.C97_no_default_fails",
    "Verif.C97_init",
    "Verif.C97_init_fails",
    "Verif.C97_executor_fails"
   ],
   "note": "The code violates the property: default values of the constructor are shifted by one argument (logging_level=None, nb_max_workers not offered) and the first argument of compute (executor) is not offered (C97_init_fails, C97_executor_fails). Proved for the other arguments of compute, and the exact values received by the constructor (C97_init)."
  },
  {
   "property": "C98",
   "status": "partial",
   "theorems": [
    "Verif.C98_fluidimage",
    "Verif.C98_unknown_argument",
    "Verif.C98_launcher_fails",
    "Verif.C98_uvmat",
    "Verif.C98_mode",
    "Verif.C98_unknown",
    "Verif.C98_no_text_fails"
   ],
   "note": "Proved for topologies and uvmat actions. The code violates the property for launcher classes with compute_kwargs (TypeError) and for files without or with another text at the root (TypeError instead of the message)."
  },
  {
   "property": "C99",
   "status": "partial",
   "theorems": [
    "Verif.C99_answers",
    "Verif.C99_all_answered_partial",
    "Verif.C99_not_picklable_fails",
    "Verif.C99_dead_server_fails",
    "Verif.C99_stop_fails",
    "Verif.C99_stop_partial",
    "Verif.C99_continue"
   ],
   "note": "Proved for every schedule: the answers are a prefix of the jobs, in order, each with its own result; at most five steps per job, after which every job is answered if all results can be pickled. False otherwise: a result (or exception) which cannot be pickled kills the server, so this job and the following ones are never answered (C99_not_picklable_fails), and then the executor never sets its stop flag (C99_dead_server_fails). A server in a thread which has nothing to do never stops (C99_stop_fails)."
  },
  {
   "property": "C100",
   "status": "partial",
   "theorems": [
    "Verif.C100_shown_partial",
    "Verif.C100_limits_partial",
    "Verif.C100_same_image_fails",
    "Verif.C100_reload_fails",
    "Verif.C100_stuck_fails",
    "Verif.C100_limits_fails"
   ],
   "note": "Proved for every history without reload, with at least two readable files and numbers n between 1 and the number of files minus 1 (limits: with at most two decimals). False otherwise: a move by a multiple of the number of files (always with one file) makes the image disappear (C100_same_image_fails); after a reload another image than the one named can be shown (C100_reload_fails); after an error the viewer never changes image again (C100_stuck_fails); limits are rounded to two decimals for the next images (C100_limits_fails)."
  },
  {
   "property": "C101",
   "status": "partial",
   "theorems": [
    "Verif.C101_shown_partial",
    "Verif.C101_positions_fails",
    "Verif.C101_number_fails",
    "Verif.C101_unreadable_fails",
    "Verif.C101_last_pass_partial",
    "Verif.C101_last_pass_fails"
   ],
   "note": "Proved for every history when all files can be read and have the same positions, with termination of the mutual calls; last pass shown for at most ten passes. False otherwise: positions of the first file are kept (C101_positions_fails), title of one file and arrows of another one when the numbers of vectors differ (C101_number_fails), index of a file which cannot be read with the title of another one (C101_unreadable_fails), pass number 9 shown for 11 to 90 passes (C101_last_pass_fails)."
  },
  {
   "property": "C102",
   "status": "partial",
   "theorems": [
    "Verif.C102_rescale",
    "Verif.C102_rescale_uniform",
    "Verif.C102_rescale_twice",
    "Verif.C102_equalize",
    "Verif.C102_gamma_partial",
    "Verif.C102_gamma_integers_fails",
    "Verif.C102_gamma_order",
    "Verif.C102_adaptive_threshold_fails",
    "Verif.C102_sharpen",
    "Verif.C102_sharpen_value",
    "Verif.C102_equalize_input"
   ],
   "note": "Proved: rescale_intensity (affine, increasing, range reached, clipping of constant images, idempotence), range of the equalisations for every algorithm, gamma for images of floats, order for all, sharpen on constant images and homogeneity. False: gain * x ** gamma for images of integers (C102_gamma_integers_fails), binary image of adaptive_threshold (C102_adaptive_threshold_fails: it gives the threshold). Not modelled: conversion of the results to the integer types, the algorithms of scikit-image."
  },
  {
   "property": "C103",
   "status": "partial",
   "theorems": [
    "Verif.C103_same_directory_partial",
    "Verif.C103_new_dir_fails",
    "Verif.C103_ask_fails",
    "Verif.C103_servers_partial",
    "Verif.C103_servers_new_dir_fails"
   ],
   "note": "Proved for the modes recompute, complete and from_path_indices, whatever has been written on the disk meanwhile, and for the topologies created in servers in all modes but new_dir. False in mode new_dir (C103_new_dir_fails: each sub-process of multi_exec_subproc searches its own directory, as saving.how is still new_dir and the directory of the run exists; C103_servers_new_dir_fails: every server raises TypeError when it starts, and then never answers, see C99_dead_server_fails) and after an upper-case answer to the question (C103_ask_fails). How ParamContainer writes and reads the path in XML is external: both types are covered."
  },
  {
   "property": "C104",
   "status": "partial",
   "theorems": [
    "Verif.C104_no_deadlock",
    "Verif.C104_ends_chain",
    "Verif.C104_ends_piv",
    "Verif.C104_ends_preproc",
    "Verif.C104_right_chain",
    "Verif.C104_right_piv",
    "Verif.C104_right_preproc",
    "Verif.C104_computed_not_saved_fails",
    "Verif.C104_not_prompt_fails",
    "Verif.C104_ends_mean",
    "Verif.C104_mean_all_or_nothing",
    "Verif.C104_mean_ignores_images_fails"
   ],
   "note": "Proved: after the signal every execution has a bounded number of steps and can only stop when compute returns (chains, PIV, preprocessing, mean; no deadlock for every topology), and at any time the events of an item are a prefix of the specified ones. False in the code: results being computed when the signal arrives are lost (the launcher of the saving work has returned: C104_computed_not_saved_fails), new items may be started until the queues are empty (C104_not_prompt_fails), and a mean image computed by several processes silently ignores the images of the interrupted processes (C104_mean_ignores_images_fails). The sequential executor does not read the flag at all (its model has no flag: C09 describes it with or without signal). Not modelled: forwarding of the signal to the sub-processes, Ctrl+C."
  },
  {
   "property": "C105",
   "status": "partial",
   "theorems": [
    "Verif.C105_best_line",
    "Verif.C105_aligned",
    "Verif.C105_nan_fails",
    "Verif.C105_telecentric",
    "Verif.C105_nodes",
    "Verif.C105_errors"
   ],
   "note": "Proved: best line in the least squares sense through the mean of the points for pixels seen on all the planes, for every decomposition which meets the specification of the SVD (shown to exist); the line of the points if they are aligned; the exact path for cameras with parallel paths at all the pixels of the image; the fitted path at the nodes for every camera; errors. C105_nan_fails: for a pixel which is not seen on all the planes, the code takes the mean of Z over all the planes, so the path does not go through the (aligned) points which are seen. Not covered: accuracy of the interpolation between the nodes for other cameras, the exceptions of scipy for degenerate sets of points."
  },
  {
   "property": "C106",
   "status": "partial",
   "theorems": [
    "Verif.C106_numpy_partial",
    "Verif.C106_fftw_partial",
    "Verif.C106_large_fails",
    "Verif.C106_half_window_fails"
   ],
   "note": "Proved for numpy (all sizes) and fftw (displacement for all sizes, coefficient 1 for even numbers of columns) for displacements strictly inside the half of the window (C106_numpy_partial, C106_fftw_partial). The displacements n//2 - 1 and n//2 - n, which are indices of the correlation, are never returned (C106_large_fails); at half of the window a wrong displacement can be returned without error (C106_half_window_fails)."
  },
  {
   "property": "C107",
   "status": "partial",
   "theorems": [
    "Verif.C107_signal_same",
    "Verif.C107_signal_valid",
    "Verif.C107_ndimage",
    "Verif.C107_calls",
    "Verif.C107_parity_fails"
   ],
   "note": "C107_ndimage holds for all sizes; for scipy.signal the exact error is stated for all sizes (C107_signal_same, C107_signal_valid): one pixel when the sizes of the two windows do not have the same parity (C107_parity_fails). The functions of scipy are modelled from their documentation and C code."
  },
  {
   "property": "C108",
   "status": "partial",
   "theorems": [
    "Verif.C108_norm",
    "Verif.C108_valid",
    "Verif.C108_same_partial",
    "Verif.C108_same_fails",
    "Verif.C108_ndimage_fails",
    "Verif.C108_pythran_fails",
    "Verif.C108_bright_fails"
   ],
   "note": "Holds for scipy.signal in mode valid (C108_valid) and in mode same for windows of the same shape with a darkest pixel not brighter than the other window (C108_same_partial). Fails otherwise: C108_same_fails, C108_ndimage_fails, C108_pythran_fails, and a bright region is found instead of the exact window (C108_bright_fails)."
  },
  {
   "property": "C109",
   "status": "partial",
   "theorems": [
    "Verif.C109_gaussian",
    "Verif.C109_symmetric",
    "Verif.C109_centroid_fails",
    "Verif.C109_gaussian2_fails",
    "Verif.C109_gaussian2_partial",
    "Verif.C109_centroid_inside",
    "Verif.C109_found",
    "Verif.C109_lost_fails"
   ],
   "note": "Proved for 2d_gaussian (every nsubpix, with the pseudo-inverse of numpy described by the four Penrose conditions and proved to exist), for symmetric peaks with all the methods (exactly found or NaN, and exactly found if the values around the peak decrease from the centre to the corners, for the default method, or have a sum which is not zero, for the others: C109_found), and the centroid stays in its neighbourhood. The code violates it for centroid (C109_centroid_fails) and for the default 2d_gaussian2, which subtracts the minimum of the nine values before taking the logarithms (C109_gaussian2_fails: a peak at 1/4 is found at more than 2/5); 2d_gaussian2 is exact for the peaks which are Gaussian after this normalisation (C109_gaussian2_partial). A strict symmetric peak can be lost by the default method (C109_lost_fails). Real arithmetic."
  },
  {
   "property": "C110",
   "status": "partial",
   "theorems": [
    "Verif.C110_scale_partial",
    "Verif.C110_offset",
    "Verif.C110_gaussian_fails",
    "Verif.C110_centroid_fails"
   ],
   "note": "Proved for all the methods, with positive values for 2d_gaussian. The code violates it for 2d_gaussian when a value around the peak is not positive, because it is replaced by 1e-6 whatever the units (C110_gaussian_fails); adding a constant changes the centroid (C110_centroid_fails) but not 2d_gaussian2 (C110_offset)."
  },
  {
   "property": "C111",
   "status": "partial",
   "theorems": [
    "Verif.C111_not_last",
    "Verif.C111_last_partial",
    "Verif.C111_ends",
    "Verif.C111_estimates",
    "Verif.C111_next_pass_partial",
    "Verif.C111_next_pass_tps_partial",
    "Verif.C111_nan_fails"
   ],
   "note": "Proved before the sub-pixel refinement with the estimates of griddata (C111_not_last, C111_next_pass_partial), with those of the thin plate splines when the previous vectors are exact (C111_next_pass_tps_partial), and after the refinement for all the methods: exactly the displacement or NaN, without error, and exactly the displacement where the correlation of the pattern with itself meets the condition of C109_found (C111_last_partial). The code violates the claim with the centroid: a vector may be NaN without error although the images are the same (C111_nan_fails); with the splines, far positions have no estimate (C82_nan_fails)."
  },
  {
   "property": "C112",
   "status": "partial",
   "theorems": [
    "Verif.C112_reaches_partial",
    "Verif.C112_returned",
    "Verif.C112_no_deadlock",
    "Verif.C112_ends",
    "Verif.C112_raises_iff",
    "Verif.C112_late_fails",
    "Verif.C112_early_fails",
    "Verif.C112_young_spawn_fails",
    "Verif.C112_young_fork_fails",
    "Verif.C112_stranger_fails",
    "Verif.C112_after_fails"
   ],
   "note": "Proved: a signal received after the launch, when no process has been collected, is sent to each process which has not ended, without exception, and each process which has installed its handler is told to stop (C112_reaches_partial); compute returns only after the end of all the processes and reports exactly the exit codes different from zero (C112_returned); it never blocks (C112_no_deadlock) and returns in at most 2n+1 of its own steps after the end of the processes (C112_ends); the handler raises exactly when a process has been collected and its pid is free (C112_raises_iff). The full property is false of the code: after the first process has been found ended a signal raises ProcessLookupError, compute fails and the others go on (C112_late_fails) or another program which got the pid receives the signal (C112_stranger_fails); processes launched after the signal are not told (C112_early_fails); just after its launch a new interpreter is killed and reported as an error (C112_young_spawn_fails) and a forked process loses the signal (C112_young_fork_fails); the handler stays installed after the end of compute (C112_after_fails). Not modelled: what a told process does (C104); the sub-executors without asynchrony (multi_exec_sync, multi_exec_subproc_sync) never read the flag, so their processes go on to their end."
  },
  {
   "property": "C113",
   "status": "partial",
   "theorems": [
    "Verif.C113_mask",
    "Verif.C113_passes_partial",
    "Verif.C113_final_partial",
    "Verif.C113_final_tps_partial",
    "Verif.C113_whole_partial",
    "Verif.C113_single_partial",
    "Verif.C113_splines_partial",
    "Verif.C113_one_line_fails",
    "Verif.C113_first_positions",
    "Verif.C113_positions_partial"
   ],
   "note": "Proved for a computation from hypotheses on the images only, without the thin plate splines: with at least two passes it ends, all the vectors of the passes before the last one are exact, those of the last one are exact or NaN, without error, exact where the peak is not lost by the refinement (C109_found), and the final field is exact (C113_whole_partial); with one pass, the default number, the same for this pass (C113_single_partial). The positions of the vectors are those of the grid or the middles of the two windows (C113_first_positions, C113_positions_partial). With the splines (the default), the same for the vectors (C113_passes_partial), and the final field is exact at the positions which are not far from the vectors (C113_final_tps_partial); the computation ends if the splines of the vectors which are not NaN are defined, and fails if these vectors are on a horizontal or vertical line (C113_splines_partial), in particular for images so narrow that the grid has one line or one column, although all the vectors are right (C113_one_line_fails). Missing: first windows which are not displaced circularly (then it is assumed that the first pass is right within half a pixel), the vectors of the last pass whose peak is lost by the refinement, which are NaN (C111_nan_fails, C109_lost_fails), and the far positions with the splines (C82_nan_fails)."
  },
  {
   "property": "C114",
   "status": "partial",
   "theorems": [
    "Verif.C114_interpolated",
    "Verif.C114_secondary",
    "Verif.C114_vectors_partial",
    "Verif.C114_estimates",
    "Verif.C114_positions"
   ],
   "note": "Proved for every couple, every parameters and every vector: correlation, limits (with the parsing of the percentage), estimates and positions (C114_vectors_partial, C114_estimates, C114_positions). Missing: vectors replaced by a secondary peak can be longer than params.fix.displacement_max (C40_peak_too_long), grids with one row or column when neighbours are compared (the work fails: C40_one_line_fails), and vectors without error which are NaN in the last pass (C111_nan_fails)."
  },
  {
   "property": "C115",
   "status": "partial",
   "theorems": [
    "Verif.C115_sequential",
    "Verif.C115_async",
    "Verif.C115_default_index",
    "Verif.C115_im2im_sequential_partial",
    "Verif.C115_im2im_async_partial",
    "Verif.C115_from_arrays",
    "Verif.C115_from_two_arrays",
    "Verif.C115_names_fails",
    "Verif.C115_changed_series_fails",
    "Verif.C115_path_fails",
    "Verif.C115_preproc_fails",
    "Verif.C115_box_mask"
   ],
   "note": "Proved for every couple, schedule and history of trials without preprocessing (sequential and asynchronous executors), and with preprocessing for functions which do not use the directory of the path. The code violates the rest: apply_im2im_filter gives the path to the function while the computation gives the name of the file (C115_path_fails), process_1_serie ignores params.preproc (C115_preproc_fails), a changed params.series is ignored after the first trial (C115_changed_series_fails), calcul_from_arrays ignores its argument names (C115_names_fails). The mask has to be accepted by the images (otherwise the computation crashes, C23)."
  },
  {
   "property": "C116",
   "status": "partial",
   "theorems": [
    "Verif.C116_use_partial",
    "Verif.C116_entry_point",
    "Verif.C116_errors",
    "Verif.C116_default",
    "Verif.C116_names",
    "Verif.C116_nothing",
    "Verif.C116_two_packages_fails",
    "Verif.C116_stale_fails",
    "Verif.C116_builtin"
   ],
   "note": "Holds for names declared by one package, when nothing was installed since the start of the process or the last get_entry_points(reload=True). Not for a name declared by two packages: NameError (logging is not imported in executors/__init__.py) instead of a warning (C116_two_packages_fails); nor for a package installed after the first use, since compute never reloads (C116_stale_fails)."
  },
  {
   "property": "C117",
   "status": "partial",
   "theorems": [
    "Verif.C117_any_execution",
    "Verif.C117_recompute",
    "Verif.C117_same_files",
    "Verif.C117_complete_keeps",
    "Verif.C117_never_wrong",
    "Verif.C117_complete_again",
    "Verif.C117_ends",
    "Verif.C117_same_name_fails"
   ],
   "note": "Proved for every series whose couples have different result files. False when two couples have the same file (C117_same_name_fails; C46 shows series for which this happens): the file which stays depends on the schedule. A file is written at once (an interrupted write is the subject of C63). The result of the function of a work is supposed to depend only on its argument: true with the sequential and multi executors (C121_one_by_one), false with the threads of exec_async and fftw (C121_fftw_fails)."
  },
  {
   "property": "C118",
   "status": "proved",
   "theorems": [
    "Verif.C118_any_execution",
    "Verif.C118_recompute",
    "Verif.C118_same_files",
    "Verif.C118_complete_keeps",
    "Verif.C118_never_wrong",
    "Verif.C118_ends",
    "Verif.C118_im2im",
    "Verif.C118_bos"
   ],
   "note": "Chains of works (image to image, BOS without im2im; with im2im BOS violates C28). The function of the user is a pure function of the name and the image: an object with a state of its own is not modelled. A file is written at once (C63 for a write which is interrupted)."
  },
  {
   "property": "C119",
   "status": "partial",
   "theorems": [
    "Verif.C119_any_execution_partial",
    "Verif.C119_same_files_partial",
    "Verif.C119_recompute",
    "Verif.C119_one_by_one",
    "Verif.C119_never_wrong",
    "Verif.C119_again",
    "Verif.C119_ends",
    "Verif.C119_crash_fails",
    "Verif.C119_overlap_fails"
   ],
   "note": "Proved for subsets which do not share images when no previous computation was killed between two files of the same subset (C119_any_execution_partial, C119_same_files_partial); for any interruptions if the last computation is in mode 'recompute' (C119_recompute) or if each subset is one image (C119_one_by_one). False otherwise: in mode 'complete' only one file of a subset is looked for, and it is not the last one written, so a kill between the two leaves a subset which is never completed (C119_crash_fails); when two subsets give different contents to the same image the file which stays depends on the schedule (C119_overlap_fails)."
  },
  {
   "property": "C120",
   "status": "partial",
   "theorems": [
    "Verif.C120_splines_partial",
    "Verif.C120_series_partial",
    "Verif.C120_ends"
   ],
   "note": "Composition of C117 (all executions and histories) and C113 (all the passes of PIV, also one pass): for every couple displaced by (dx, dy), the file exists at the end and all its vectors are the displacement at the right positions, whatever the other couples are, without the splines (C120_series_partial) and with the splines in the last pass, the default (C120_splines_partial: if the splines are defined; there is no file if the vectors which are not NaN are on a line). Partial for the reasons of C113 (windows of the first pass displaced circularly, the vectors of the last pass whose peak is lost by the refinement are NaN, correlations without rounding errors), of C75 (one shape of images for the series) and of C121 (with exec_async, threads which share the object: the calls of the work are supposed not to overlap)."
  },
  {
   "property": "C121",
   "status": "partial",
   "theorems": [
    "Verif.C121_alone",
    "Verif.C121_one_by_one",
    "Verif.C121_threads_partial",
    "Verif.C121_after_first_partial",
    "Verif.C121_grid_fails",
    "Verif.C121_one_pass",
    "Verif.C121_fftw_fails"
   ],
   "note": "Proved for every schedule with the FFT of numpy when a first couple has been computed alone (C121_after_first_partial); without this, a thread has the right result or raises AttributeError (C121_threads_partial). False in general: a thread which starts between the last two lines of _prepare_with_image of another thread raises AttributeError (C121_grid_fails, for every computation), and with fftw (the default) the threads share the buffers of the FFT, so that the vectors of a couple can be computed with the correlations of another couple (C121_fftw_fails, for every computation in one pass). One couple after the other (sequential and multi executors): always right (C121_one_by_one)."
  },
  {
   "property": "C122",
   "status": "partial",
   "theorems": [
    "Verif.C122_unchanged_partial",
    "Verif.C122_changed_fails",
    "Verif.C122_twice_fails",
    "Verif.C122_arrows",
    "Verif.C122_removed",
    "Verif.C122_nan",
    "Verif.C122_pick_partial",
    "Verif.C122_pick_interp_partial",
    "Verif.C122_pick_removed_partial",
    "Verif.C122_pick_nan_partial",
    "Verif.C122_text_fails",
    "Verif.C122_first_fails",
    "Verif.C122_other_fails",
    "Verif.C122_marks",
    "Verif.C122_origin_fails",
    "Verif.C122_smooth_fails",
    "Verif.C122_approx_fails",
    "Verif.C122_hist_partial",
    "Verif.C122_hist_fails"
   ],
   "note": "Proved for all results: with images nothing is changed in the result (C122_unchanged_partial); one arrow per vector showing it, with and without images, for all values of show_interp (C122_arrows) and one per removed vector (C122_removed); the text of a picked arrow is that of its vector (C122_pick_partial, C122_pick_interp_partial, C122_pick_removed_partial) and the marks of the peaks are at the right places (C122_marks). False in the code: without images (they have been moved), deltays of the user's result is multiplied by -1 in place (C122_changed_fails), so that a second display draws the opposite arrows (C122_twice_fails) and the text has the opposite of V (C122_text_fails); the vector 0 cannot be picked first (C122_first_fails); picking something else raises AttributeError when there are no removed vectors in the window (C122_other_fails); the text is not that of the arrow with show_interp='smooth' (C122_smooth_fails) or with show_interp=True for a pass which is not the last one (C122_approx_fails: another displacement, or IndexError); the mark of 'no displacement' has its coordinates swapped (C122_origin_fails: right only if the two indices are equal). Not modelled: the drawing by matplotlib, the images, the histograms."
  },
  {
   "property": "C123",
   "status": "partial",
   "theorems": [
    "Verif.C123_any_execution_partial",
    "Verif.C123_same_files_partial",
    "Verif.C123_never_wrong_partial",
    "Verif.C123_restart_partial",
    "Verif.C123_ends_partial",
    "Verif.C123_error_spreads_fails",
    "Verif.C123_complete_mode_fails",
    "Verif.C123_default_executor_fails",
    "Verif.C123_single_image_fails",
    "Verif.C123_computes_partial"
   ],
   "note": "Proved for the sequential and the asynchronous executors, all limits, schedules, functions and contents of the directory, in mode recompute or without earlier result (different names, not exactly one image): a computation which ends has written exactly the heights of the images (specification: chain of corrected phases), the files are the same for all executions, a computation killed, stopped or crashed at any time leaves each file unchanged or right, a restart in mode recompute gives the same files, and ending computations exist. The property fails, proved: an unreadable image loses the files of all the following images; mode complete with one result present never ends; the default executor and both multi-executors raise ValueError (no Splitter); a single image never ends, or gives no file with the default executor. The functions on arrays are parameters (see C84 for crop_edge)."
  },
  {
   "property": "C124",
   "status": "partial",
   "theorems": [
    "Verif.C124_bright_partial",
    "Verif.C124_never_dark_fails",
    "Verif.C124_no_dark_voxel_fails",
    "Verif.C124_paths",
    "Verif.C124_round_trip_partial",
    "Verif.C124_save_default",
    "Verif.C124_limits_fails",
    "Verif.C124_none_path_fails",
    "Verif.C124_new",
    "Verif.C124_clear_partial",
    "Verif.C124_clear_fails",
    "Verif.C124_script_partial",
    "Verif.C124_tmp_fails",
    "Verif.C124_no_intensities",
    "Verif.C124_memory_mixes_fails",
    "Verif.C124_failed_block_fails",
    "Verif.C124_slices_fails",
    "Verif.C124_slices_partial",
    "Verif.C124_describe_fails",
    "Verif.C124_plot_partial",
    "Verif.C124_plot_dask_fails",
    "Verif.C124_plot_dark_fails",
    "Verif.C124_plot_sizes",
    "Verif.C124_whole_partial"
   ],
   "note": "Proved: a voxel projected in a bright pixel takes its value; one file per instant with the geometric mean over the cameras for the loops with save=True; save and load; clear with a numpy array. Negations proved: only the nonzero pixels are interpolated, so that no voxel is ever dark (a dark pixel takes the value of the nearest bright one); in memory the instants are multiplied together; a file with the name of the temporary copy (x_tmp.h5) is removed; limits and numbers of voxels are not loaded; h5file_path=None given explicitly leaves no intensities; clear does nothing for dask arrays and raises AttributeError without a path; a block which fails leaves zeros which stay for ever; plot_slices reshapes (nx, ny, nz) though the order of the voxels is (z, y, x); describe(vmin) raises ValueError; plot3d refuses dask arrays and gives markers without size when the largest intensity is 0. Proved: plot3d with a numpy array and a threshold which is not negative."
  },
  {
   "property": "C125",
   "status": "partial",
   "theorems": [
    "Verif.C125_between",
    "Verif.C125_plane_partial",
    "Verif.C125_inside_partial",
    "Verif.C125_outside_fails",
    "Verif.C125_one_plane_fails",
    "Verif.C125_projection_partial",
    "Verif.C125_voxel_outside_fails",
    "Verif.C125_save_load_partial",
    "Verif.C125_debug",
    "Verif.C125_second_fails",
    "Verif.C125_no_directory_fails"
   ],
   "note": "Proved: values at the planes and between two planes for every order of at least two planes of distinct heights, projection of every voxel between the planes for an exact calibration (with C55), save and load in a new file with a directory. The code violates the rest: NaN outside of the planes and for a single plane, without error; an existing file is not replaced, so the old calibration is loaded; with the default path (no directory) FileNotFoundError after the computation. OpenCV is a parameter; griddata of scipy in one dimension is modelled after its code."
  },
  {
   "property": "C126",
   "status": "partial",
   "theorems": [
    "Verif.C126_each_field",
    "Verif.C126_error",
    "Verif.C126_number",
    "Verif.C126_field",
    "Verif.C126_left_number",
    "Verif.C126_left_field_fails",
    "Verif.C126_two_series_fails",
    "Verif.C126_methods",
    "Verif.C126_sum",
    "Verif.C126_times",
    "Verif.C126_times_lost_fails",
    "Verif.C126_times_slice_fails",
    "Verif.C126_times_stale_fails",
    "Verif.C126_slice_indices",
    "Verif.C126_slice_step",
    "Verif.C126_slice_negative",
    "Verif.C126_slice_full",
    "Verif.C126_slice",
    "Verif.C126_regularize",
    "Verif.C126_shared",
    "Verif.C126_regularize_fails",
    "Verif.C126_temporal_partial",
    "Verif.C126_temporal_append_fails",
    "Verif.C126_temporal_times",
    "Verif.C126_filtered_fails"
   ],
   "note": "Operations field by field, sums, slices, sharing, regularisation and the meaning of the temporal Fourier transform are proved. Violations proved: the result of every operation, filter or slice has no times (its temporal transform raises RuntimeError); after append or del the times are those of the previous fields and the temporal transform silently gives more coefficients than pulsations; field + series, series + series and sum of series raise AttributeError; regularize_grid interrupted by an error leaves fields on different grids."
  },
  {
   "property": "C127",
   "status": "partial",
   "theorems": [
    "Verif.C127_arrows_partial",
    "Verif.C127_same_slice",
    "Verif.C127_all_drawn",
    "Verif.C127_skip_fails",
    "Verif.C127_skip_shape_fails",
    "Verif.C127_two_slices_fails",
    "Verif.C127_step_and_skip",
    "Verif.C127_series_fails",
    "Verif.C127_scroll_partial",
    "Verif.C127_scrolls_partial",
    "Verif.C127_no_times_fails",
    "Verif.C127_many_rows_fails"
   ],
   "note": "Arrows at their points for the default arguments, a step or equal slices; scrolling proved for skip=None, fewer than 50 rows and times set. Violations proved: with two different slices the arrows are at the positions of other vectors (or ValueError); series.display() with its default skip always raises TypeError (skip is given as step); without times or with 50 rows or more the wheel never changes the screen."
  },
  {
   "property": "C128",
   "status": "partial",
   "theorems": [
    "Verif.C128_both_partial",
    "Verif.C128_axis0_partial",
    "Verif.C128_axis1_partial",
    "Verif.C128_irregular_fails",
    "Verif.C128_axes_fails"
   ],
   "note": "Proved for every field on a regular grid, the three values of axes and all sizes (real arithmetic). Violations proved: on an irregular grid there is no error and the coefficients are not those of the wave numbers; other values of axes return None without an error."
  },
  {
   "property": "C129",
   "status": "partial",
   "theorems": [
    "Verif.C129_drawn_partial",
    "Verif.C129_kept_fails",
    "Verif.C129_others_kept",
    "Verif.C129_twice_fails",
    "Verif.C129_stretched_fails",
    "Verif.C129_switch",
    "Verif.C129_help_fails",
    "Verif.C129_function_partial",
    "Verif.C129_last_fails",
    "Verif.C129_in_place_fails",
    "Verif.C129_view_fails",
    "Verif.C129_preproc",
    "Verif.C129_last_subset_fails",
    "Verif.C129_indices_fails",
    "Verif.C129_sizes_refused"
   ],
   "note": "Proved: images which do not share their memory are drawn saturated at their percentile (C129_drawn_partial, C129_function_partial for a function which makes a new image, C129_preproc for every preprocessing), switching is right after every sequence of keys (C129_switch), other arrays are kept (C129_others_kept). The code violates the rest: the constructor saturates the arrays of the caller in place (C129_kept_fails, C129_twice_fails), a function which works in place or gives a view makes the left images wrong (C129_in_place_fails, C129_view_fails), the image 1 is stretched on the size of the image 0 (C129_stretched_fails), the last image or subset can not be displayed (C129_last_fails, C129_last_subset_fails), and the announced key alt+h does nothing (C129_help_fails)."
  },
  {
   "property": "C130",
   "status": "partial",
   "theorems": [
    "Verif.C130_one_file",
    "Verif.C130_directory_partial",
    "Verif.C130_directory_fails",
    "Verif.C130_file",
    "Verif.C130_current",
    "Verif.C130_load",
    "Verif.C130_save_again",
    "Verif.C130_save_back_fails",
    "Verif.C130_one_pass",
    "Verif.C130_one_pass_file_fails",
    "Verif.C130_one_pass_loaded_fails",
    "Verif.C130_kind_fails",
    "Verif.C130_names",
    "Verif.C130_light",
    "Verif.C130_light_fails",
    "Verif.C130_light_loaded_fails",
    "Verif.C130_light_arrays_fails"
   ],
   "note": "Proved for every disk: one file is written, which contains the result and is what is loaded from the returned path; places for files, directories without extension and the current directory; saving again a loaded result in its directory. False of the code, with proofs: a directory named like a file (x.h5) is an OSError; a loaded result saved without path goes in the current directory and not where it was; the result of one pass can not be saved in a chosen file (its name is appended to the path) and not at all when it has been loaded (AttributeError); an unknown out_format-like kind is a TypeError; the light results of x.h5 and x.nc share their file; light results which are loaded or come from arrays can not be saved."
  },
  {
   "property": "C131",
   "status": "partial",
   "theorems": [
    "Verif.C131_repr",
    "Verif.C131_loaded",
    "Verif.C131_images_partial",
    "Verif.C131_filtered_fails",
    "Verif.C131_display_without_files",
    "Verif.C131_display_arrays_fails"
   ],
   "note": "Proved: evaluation of repr gives back every tuple of texts over all characters, hence names, paths and shape of every couple; images of a computation from files, with the mask, when the files have not changed; display without the files. False of the code, with proofs: images which have been filtered before the computation are replaced by the raw images of the files; a result from arrays can not be displayed (TypeError)."
  },
  {
   "property": "C132",
   "status": "partial",
   "theorems": [
    "Verif.C132_workers",
    "Verif.C132_workers_cover",
    "Verif.C132_workers_log_partial",
    "Verif.C132_workers_repeated_fails",
    "Verif.C132_header",
    "Verif.C132_killed",
    "Verif.C132_nothing_fails",
    "Verif.C132_last_partial",
    "Verif.C132_named_log_fails",
    "Verif.C132_exceptions_fails",
    "Verif.C132_processes",
    "Verif.C132_process_names"
   ],
   "note": "Proved: number of works in execution on every piece of the line and covering of all times, for every order of equal times and works without end; header, launches, ends, duration for finished and killed executions; choice of the last execution; logs of all processes. False of the code, with proofs: works repeated with the same key (global works) give a wrong number of workers; a directory of results named log_... is taken for a directory of logs; the directory of exceptions of an execution with one process can not be analysed; the log of a computation with nothing to compute is an AttributeError."
  },
  {
   "property": "C133",
   "status": "partial",
   "theorems": [
    "Verif.C133_again_partial",
    "Verif.C133_subproc",
    "Verif.C133_multi_async_fails",
    "Verif.C133_images_fails",
    "Verif.C133_retry_fails",
    "Verif.C133_deleted_fails",
    "Verif.C133_announced",
    "Verif.C133_results_fails",
    "Verif.C133_no_process"
   ],
   "note": "Holds for every history of computations with the executors other than multi_exec_async and without removal of files (C133_again_partial), and with multi_exec_subproc also when files are removed (C133_subproc). The code violates the rest: multi_exec_async modifies the series and the list of works of the topology of the user through shallow copies, so the next computation executes at most half of the series without error (C133_multi_async_fails), raises NotImplementedError with images (C133_images_fails), or never retries items which failed (C133_retry_fails); in mode complete a removed file is never computed again after an in-process computation (C133_deleted_fails). The results which are announced accumulate (C133_announced, C133_results_fails)."
  },
  {
   "property": "C134",
   "status": "partial",
   "theorems": [
    "Verif.C134_finished",
    "Verif.C134_duration",
    "Verif.C134_clock_fails",
    "Verif.C134_running_partial",
    "Verif.C134_stops",
    "Verif.C134_total_fails",
    "Verif.C134_end_known",
    "Verif.C134_empty_fails",
    "Verif.C134_no_error_partial",
    "Verif.C134_killed_fails",
    "Verif.C134_cost"
   ],
   "note": "Proved: finished jobs (C134_finished, C134_duration), running jobs (C134_running_partial), the end is seen (C134_stops), cost (C134_cost), no failure outside of the writing of time_end.txt (C134_no_error_partial). The code violates the rest: a monitor opened while the job runs never shows the total duration (C134_total_fails), fails with ValueError if it reads time_end.txt when it is empty (C134_empty_fails), says for ever that a killed job runs (C134_killed_fails), and the durations are differences of naive local times (C134_clock_fails)."
  },
  {
   "property": "C135",
   "status": "partial",
   "theorems": [
    "Verif.C135_directory_partial",
    "Verif.C135_file_partial",
    "Verif.C135_here_partial",
    "Verif.C135_slashes_fails",
    "Verif.C135_extension_fails",
    "Verif.C135_brackets_fails",
    "Verif.C135_brackets_file_fails",
    "Verif.C135_piv_partial",
    "Verif.C135_piv_directory_partial",
    "Verif.C135_piv_none",
    "Verif.C135_piv_order_fails",
    "Verif.C135_piv_brackets_fails"
   ],
   "note": "Proved for paths without the characters * ? [: directories with any trailing slashes (C135_directory_partial), files given with one slash before the name (C135_file_partial) or by their name (C135_here_partial), files of vectors (C135_piv_partial) and directories with one series of them (C135_piv_directory_partial). The code violates the rest: brackets in the name of a directory make it show the images of another directory or fail (C135_brackets_fails, C135_brackets_file_fails), two slashes before the name give ValueError (C135_slashes_fails), as do extensions in upper case and hidden files (C135_extension_fails); with two series of vectors what is shown depends on the order of the listing (C135_piv_order_fails), and brackets in a base name give ValueError (C135_piv_brackets_fails)."
  },
  {
   "property": "C136",
   "status": "partial",
   "theorems": [
    "Verif.C136_minima_partial",
    "Verif.C136_backends_minima_partial",
    "Verif.C136_minima_16bits_fails",
    "Verif.C136_constant_fails",
    "Verif.C136_names_fails",
    "Verif.C136_backends_median_partial",
    "Verif.C136_backends_median3_partial",
    "Verif.C136_median_border_fails",
    "Verif.C136_median_even_fails",
    "Verif.C136_adaptive_partial",
    "Verif.C136_adaptive_16bits_fails"
   ],
   "note": "Proved for images of 8 bits: sliding_minima (C136_minima_partial) and its equality with the default backend for the corresponding borders (C136_backends_minima_partial), sliding_median up to the clipping (C136_backends_median_partial, C136_backends_median3_partial), adaptive_threshold (C136_adaptive_partial). The code violates the rest: images of more than 8 bits keep only their last 8 bits (C136_minima_16bits_fails, C136_adaptive_16bits_fails); the border constant does not mean the same thing (C136_constant_fails); the names of the borders and tuples of sizes are not accepted by both (C136_names_fails); the median differs at the edges (C136_median_border_fails) and even sizes are refused (C136_median_even_fails). The Gaussian mean of OpenCV is a parameter."
  },
  {
   "property": "C137",
   "status": "partial",
   "theorems": [
    "Verif.C137_slice",
    "Verif.C137_normal_unit",
    "Verif.C137_back_partial",
    "Verif.C137_distortion_fails",
    "Verif.C137_displacement",
    "Verif.C137_opposite",
    "Verif.C137_particle_partial",
    "Verif.C137_affine"
   ],
   "note": "Proved without distortion, for horizontal slices; with distortion C137_distortion_fails (a point at 1 cm comes back at 4 mm; see also C53_distortion_fails); slices with angles always raise an error in the code (C53_tilted_fails, C53_tilted_refraction_fails)."
  },
  {
   "property": "C138",
   "status": "partial",
   "theorems": [
    "Verif.C138_grid",
    "Verif.C138_decreasing_fails",
    "Verif.C138_not_full",
    "Verif.C138_derivatives_fails",
    "Verif.C138_derivatives_partial",
    "Verif.C138_methods_fails",
    "Verif.C138_rotational_fails",
    "Verif.C138_edge_order_fails",
    "Verif.C138_changed_fails",
    "Verif.C138_energy",
    "Verif.C138_norm_fails",
    "Verif.C138_average",
    "Verif.C138_series_fails",
    "Verif.C138_series_grid_fails"
   ],
   "note": "The code violates the property: the derivatives along x and y are exchanged (C138_derivatives_fails, C138_rotational_fails), the methods raise AttributeError since the steps are not known (C138_methods_fails), edge_order has no effect (C138_edge_order_fails), a rotational is kept when the field is changed (C138_changed_fails), compute_norm ignores its arguments (C138_norm_fails), rows by decreasing y are flipped (C138_decreasing_fails), a series can never be made (C138_series_fails, C138_series_grid_fails). Proved: the grid for increasing coordinates, the error for incomplete grids, the energy, the average, and the derivatives of arrays with x first (C138_derivatives_partial)."
  },
  {
   "property": "C139",
   "status": "partial",
   "theorems": [
    "Verif.C139_one_file_each_partial",
    "Verif.C139_shipped",
    "Verif.C139_finished_partial",
    "Verif.C139_several_processes",
    "Verif.C139_names_fails",
    "Verif.C139_spaces_fails",
    "Verif.C139_long_fails",
    "Verif.C139_slash_fails"
   ],
   "note": "Proved for unambiguous names of works (no name followed by '_' begins another one; true for all the topologies of fluidimage) and names of files which can be written, for every finished execution and every interleaving of processes. The code violates the full statement: two works of an accepted topology can share a file (C139_names_fails, C139_spaces_fails), and an item with a long name, or a work with '/' in its name, makes the recording raise, which stops the computation (C139_long_fails, C139_slash_fails)."
  },
  {
   "property": "C140",
   "status": "partial",
   "theorems": [
    "Verif.C140_same_partial",
    "Verif.C140_dimensions",
    "Verif.C140_float64",
    "Verif.C140_matrix",
    "Verif.C140_integers_fails"
   ],
   "note": "Proved for positions in float64 (and for every type whose differences and squares are exact), for every arithmetic; with real numbers the matrix is the one of C81. C140_integers_fails: for positions in small integers the version without extensions computes the squares with these integers and gives another matrix."
  },
  {
   "property": "C141",
   "status": "partial",
   "theorems": [
    "Verif.C141_nextpow2",
    "Verif.C141_tree",
    "Verif.C141_launch_partial",
    "Verif.C141_reduce_partial",
    "Verif.C141_products",
    "Verif.C141_value_partial",
    "Verif.C141_partial",
    "Verif.C141_call_fails",
    "Verif.C141_class_fails",
    "Verif.C141_race_fails",
    "Verif.C141_sizes_fails",
    "Verif.C141_uncovered",
    "Verif.C141_in_order",
    "Verif.C141_in_order_all"
   ],
   "note": "As written the function raises TypeError for every call with Python 3 (float number of blocks, C141_call_fails), and the class never gives a correlation (C141_class_fails). For an integer grid which covers the window, a number of pixels which is a power of two and launches without race, the correlation is the sum of the products for all orders (C141_partial, C141_value_partial, C141_products, C141_tree, C141_launch_partial, C141_reduce_partial); blocks in increasing order have no race (C141_in_order). Negations: the reduction in place has a race between blocks (C141_race_fails), the sum is wrong for the default windows of 48 x 48 pixels for all orders (C141_sizes_fails), elements outside of a grid rounded down are not computed (C141_uncovered)."
  },
  {
   "property": "C142",
   "status": "partial",
   "theorems": [
    "Verif.C142_graph_partial",
    "Verif.C142_file",
    "Verif.C142_list_fails",
    "Verif.C142_same_name_fails",
    "Verif.C142_two_queues_fails",
    "Verif.C142_quote_fails",
    "Verif.C142_legend_fails"
   ],
   "note": "Proved for all topologies with plain, different names and no lone list (a reader of graphviz files, written independently, gives back exactly the nodes, the links and the attributes), and for the name of the file and the other files in general. False of the code, with proved witnesses: a work whose input or output is a lone queue of kind list (no arrow, or AttributeError when the queue is not empty), a queue and a work with the same name, two queues with the same name, a name with a quotation mark, a queue named key (the legend declares the same node)."
  },
  {
   "property": "C143",
   "status": "partial",
   "theorems": [
    "Verif.C143_version",
    "Verif.C143_executor",
    "Verif.C143_unknown_executor",
    "Verif.C143_new_partial",
    "Verif.C143_existing_partial",
    "Verif.C143_overwrite_fails",
    "Verif.C143_complete_fails",
    "Verif.C143_dot_fails"
   ],
   "note": "C143_new_partial and C143_existing_partial give the mean, its place and everything which changes on the disk, for all the executors, splittings and schedules (hypothesis WorksDone, which is the conclusion of any execution by the executors of C21). Missing because false of the code: an image of the serie at the place of the result is silently overwritten (C143_overwrite_fails), the answer 'c' gives the mean of some of the images only (C143_complete_fails), -o . raises a ValueError after the computation (C143_dot_fails). 8 or 16 bits, paths in normal form."
  },
  {
   "property": "C144",
   "status": "proved",
   "theorems": [
    "Verif.C144_piv_never_wrong",
    "Verif.C144_piv",
    "Verif.C144_piv_keeps",
    "Verif.C144_images_never_wrong",
    "Verif.C144_images",
    "Verif.C144_images_keeps",
    "Verif.C144_piv_exists",
    "Verif.C144_piv_any_order",
    "Verif.C144_images_exists"
   ],
   "note": "For PIV (C144_piv, C144_piv_never_wrong, C144_piv_keeps) and images (C144_images, ...); the histories exist (C144_piv_exists, C144_images_exists) and in mode recompute all the orders of the writes are histories (C144_piv_any_order). For series whose couples have different files (C117_same_name_fails otherwise). A file is written at once: two overlapping writes of the same file by two computations are not modelled. The preprocessing is not included: C119_crash_fails already shows how a subset can be left incomplete."
  },
  {
   "property": "C145",
   "status": "partial",
   "theorems": [
    "Verif.C145_img",
    "Verif.C145_h5_partial",
    "Verif.C145_h5_overwrites_fails",
    "Verif.C145_h5_returned_fails",
    "Verif.C145_other",
    "Verif.C145_refused",
    "Verif.C145_hdf5_fails",
    "Verif.C145_other_subsets",
    "Verif.C145_only_results",
    "Verif.C145_results",
    "Verif.C145_complete_partial",
    "Verif.C145_complete_fails"
   ],
   "note": "Proved for the format img, for h5 when no two names differ only by their extensions, and for a format equal to the extension of the images. False otherwise, with proofs: h5 overwrites images whose names differ only by the extension (C145_h5_overwrites_fails); the recorded path of an h5 result is a file which is not written (C145_h5_returned_fails); with another format the mode complete computes everything again each time (C145_complete_fails); the documented format hdf5 is sent to the writer of PIL formats, and if it is refused there nothing is ever saved (C145_hdf5_fails). The functions imsave and imsave_h5 of fluiddyn are external: assumed to write one file at the given path (imsave_h5: with the extension .h5) or to raise and write nothing."
  },
  {
   "property": "C146",
   "status": "partial",
   "theorems": [
    "Verif.C146_async",
    "Verif.C146_sequential",
    "Verif.C146_no_crash",
    "Verif.C146_finishes",
    "Verif.C146_no_deadlock",
    "Verif.C146_stem",
    "Verif.C146_items",
    "Verif.C146_keys",
    "Verif.C146_all_partial",
    "Verif.C146_all_fails",
    "Verif.C146_saved",
    "Verif.C146_zero_fails"
   ],
   "note": "Proved for every directory, repetition, schedule, limits and failures, for every positive nloops (C146_async, C146_sequential, C146_no_crash, C146_finishes, C146_no_deadlock, C146_saved, C146_items, C146_keys). It does not hold when two file names have the same part before \".bmp\": only the last one is used (C146_all_fails; C146_all_partial when these parts are different), nor for nloops = 0: nothing is saved (C146_zero_fails). Negative nloops are not covered."
  },
  {
   "property": "C147",
   "status": "partial",
   "theorems": [
    "Verif.C147_existing",
    "Verif.C147_writes",
    "Verif.C147_downloaded",
    "Verif.C147_retry",
    "Verif.C147_missing_fails",
    "Verif.C147_no_permission",
    "Verif.C147_killed_fails",
    "Verif.C147_killed_part_fails",
    "Verif.C147_absolute_partial",
    "Verif.C147_default_place",
    "Verif.C147_empty_variable_fails"
   ],
   "note": "Proved: C147_existing (order of preference, nothing written), C147_downloaded (one complete download, then the same complete directory for all later calls), C147_retry (after any number of failed downloads), C147_writes (nothing is removed, nothing is created elsewhere), C147_no_permission, C147_default_place, C147_absolute_partial. The code disagrees: C147_missing_fails (without Mercurial and Git, or after a failed download, a path which does not exist is given, without exception), C147_killed_fails and C147_killed_part_fails (after a killed download no later call ever gives the samples, or all of them give an incomplete directory), C147_empty_variable_fails (empty XDG_DATA_HOME: download in the current directory)."
  },
  {
   "property": "C148",
   "status": "partial",
   "theorems": [
    "Verif.C148_each",
    "Verif.C148_refused",
    "Verif.C148_sizes",
    "Verif.C148_temporal",
    "Verif.C148_type_fails",
    "Verif.C148_colour_lines_fails",
    "Verif.C148_colour_fails"
   ],
   "note": "The series are proved for every tool (C148_each, C148_refused, C148_sizes, C148_temporal). The code disagrees for the type of the numbers (C148_type_fails) and for colour images (C148_colour_lines_fails: each line of a colour image is filtered alone, C148_colour_fails: the colours are mixed by the windows)."
  },
  {
   "property": "C149",
   "status": "partial",
   "theorems": [
    "Verif.C149_apply_partial",
    "Verif.C149_default",
    "Verif.C149_one",
    "Verif.C149_unknown",
    "Verif.C149_shared_fails",
    "Verif.C149_subclass_fails"
   ],
   "note": "Proved for all histories in which the list available_tools is not modified in place (C149_apply_partial, C149_default, C149_one, C149_unknown). The objects share the list __all__ of the module, so that they are not independent if it is modified in place (C149_shared_fails); apply looks for the functions in the dictionary of the class of the object, so that a subclass cannot apply the tools (C149_subclass_fails)."
  },
  {
   "property": "C150",
   "status": "partial",
   "theorems": [
    "Verif.C150_save_load_partial",
    "Verif.C150_name_fails",
    "Verif.C150_levels_fails",
    "Verif.C150_new",
    "Verif.C150_samples",
    "Verif.C150_small_checks_fails",
    "Verif.C150_curves",
    "Verif.C150_points",
    "Verif.C150_coeffs",
    "Verif.C150_checks",
    "Verif.C150_plane",
    "Verif.C150_small_image_fails",
    "Verif.C150_levels"
   ],
   "note": "Proved: save and load for the names ending with .npz after any sequence of other saves (C150_save_load_partial), sample pixels (C150_samples), content of the figures (C150_curves, C150_points, C150_coeffs, C150_levels), success of the checks of any computed calibration when number is not larger than the sizes (C150_checks), pixels of the plane of the camera (C150_plane). False in general: another name is not the name of the file which is written (C150_name_fails), the interpolations at the levels are not saved (C150_levels_fails), the checks fail for images with less pixels than number (C150_small_checks_fails) and the plane of the camera for images with less than 40 pixels in a direction (C150_small_image_fails)."
  },
  {
   "property": "C151",
   "status": "partial",
   "theorems": [
    "Verif.C151_read_partial",
    "Verif.C151_untilted_fails",
    "Verif.C151_missing_fails",
    "Verif.C151_no_number_fails",
    "Verif.C151_bad_text"
   ],
   "note": "Proved for every file with all the elements (C151_read_partial, with the slices read as C137 uses them), and which texts are refused (C151_bad_text). False in general: without angles the slices after the third one cannot be used (C151_untilted_fails); a file without one of the elements cannot be read, so that the default values of calib_tsai.py are never used (C151_missing_fails, C151_no_number_fails)."
  },
  {
   "property": "C152",
   "status": "partial",
   "theorems": [
    "Verif.C152_last_chosen_partial",
    "Verif.C152_entries",
    "Verif.C152_open_fails"
   ],
   "note": "Proved for all the histories: page shown and parameters run (C152_last_chosen_partial), text of the entries (C152_entries). False: File > Open fails for every file (C152_open_fails)."
  },
  {
   "property": "C153",
   "status": "partial",
   "theorems": [
    "Verif.C153_documented_partial",
    "Verif.C153_one_shot_partial",
    "Verif.C153_function_fails",
    "Verif.C153_text_fails",
    "Verif.C153_global_ready",
    "Verif.C153_no_input_fails"
   ],
   "note": "Proved for the documented kinds (C153_documented_partial), for the one shot works which are methods (C153_one_shot_partial), and when global works are called (C153_global_ready). False: a function or a class given as a one shot work makes the computation fail with AttributeError (C153_function_fails, because of work.func_or_cls.__func__); texts with several words are half understood (C153_text_fails); global works without input queue are called by the sequential executor only (C153_no_input_fails)."
  },
  {
   "property": "C154",
   "status": "partial",
   "theorems": [
    "Verif.C154_imread_partial",
    "Verif.C154_reason_fails",
    "Verif.C154_other_class_fails",
    "Verif.C154_memory_partial",
    "Verif.C154_memory_fails",
    "Verif.C154_short_partial",
    "Verif.C154_short_fails",
    "Verif.C154_colour"
   ],
   "note": "Proved: C154_imread_partial, C154_memory_partial, C154_short_partial, C154_colour. False: the reason of the error is lost (C154_reason_fails); the class and the path are lost for the exceptions whose constructor needs other arguments (C154_other_class_fails); the memory is announced as full when one of the two documented conditions holds (C154_memory_fails); str_short fails when the module of the object is None (C154_short_fails)."
  },
  {
   "property": "C155",
   "status": "partial",
   "theorems": [
    "Verif.C155_results",
    "Verif.C155_bos",
    "Verif.C155_cpu_partial",
    "Verif.C155_cpu_fails",
    "Verif.C155_nothing",
    "Verif.C155_no_executor_fails"
   ],
   "note": "False with exec_async_sequential, which computes on one core: its attribute nb_max_workers is by default the number of cores (plus two), and the time of CPU of one field is shown multiplied by the number of cores (C155_cpu_fails). Proved for the other executors (C155_cpu_partial), for the other topologies (C155_results, C155_bos) and without result (C155_nothing); a PIV topology with results but without executor has no text (C155_no_executor_fails). That the list of results can keep those of a previous call of compute is C133. Durations are exact rational numbers."
  },
  {
   "property": "C156",
   "status": "partial",
   "theorems": [
    "Verif.C156_docks_partial",
    "Verif.C156_docks_error",
    "Verif.C156_colour_fails",
    "Verif.C156_mouse_partial",
    "Verif.C156_border_fails",
    "Verif.C156_hover_fails",
    "Verif.C156_slideshow_partial",
    "Verif.C156_slideshow_fails"
   ],
   "note": "Proved for grey images: docks and titles in order (C156_docks_partial), errors (C156_docks_error), slideshow (C156_slideshow_partial), intensity over the image and nothing far from it (C156_mouse_partial). False: over the docks other than the last nothing is displayed, because only one signal proxy is kept (C156_hover_fails); at less than one pixel outside of the image, IndexError or the intensity of a pixel which is not there (C156_border_fails); a colour image is shown as one grey image per channel, because all the axes are reversed (C156_colour_fails); images of different sizes have no slideshow (C156_slideshow_fails). What pyqtgraph does is described in the model (it is not in the repository)."
  },
  {
   "property": "C157",
   "status": "partial",
   "theorems": [
    "Verif.C157_durations_partial",
    "Verif.C157_repeated_fails",
    "Verif.C157_memory_partial",
    "Verif.C157_memory_killed",
    "Verif.C157_memory_processes_fails"
   ],
   "note": "plot_durations: points, segments, mean and extent proved for all the logs in which a launch has at most one end (C157_durations_partial); with a key used twice both launches get the last duration and the mean is wrong (C157_repeated_fails). plot_memory: proved for logs of one process, ended or killed (C157_memory_partial, C157_memory_killed); with several processes the line goes back in time (C157_memory_processes_fails)."
  },
  {
   "property": "C158",
   "status": "partial",
   "theorems": [
    "Verif.C158_absolute",
    "Verif.C158_home",
    "Verif.C158_index",
    "Verif.C158_name_partial",
    "Verif.C158_name_fails",
    "Verif.C158_refused",
    "Verif.C158_processes",
    "Verif.C158_excluded_partial",
    "Verif.C158_relative_fails"
   ],
   "note": "Proved: absolute paths (C158_absolute), indices (C158_index), names without such a file in the current directory (C158_name_partial), same reference in the processes (C158_processes), reference excluded when it is given in one of these ways (C158_excluded_partial). False: a file of the current directory is used instead of the image of this name (C158_name_fails); an image of the serie given by a path relative to the current directory is computed with itself (C158_relative_fails); the error is TypeError and not ValueError (C158_refused). Assumed: the attribute path_dir of the serie (fluiddyn, not in the repository) is absolute in the theorems on the excluded reference."
  },
  {
   "property": "C159",
   "status": "partial",
   "theorems": [
    "Verif.C159_shown_partial",
    "Verif.C159_other_container_fails",
    "Verif.C159_selected"
   ],
   "note": "Proved when all the containers of the job exist in the default parameters of its topology, for trees of any depth. Otherwise the monitor does not start (AttributeError): C159_other_container_fails. ParamContainer (fluiddyn) and the widgets of Textual are not modelled."
  },
  {
   "property": "C160",
   "status": "partial",
   "theorems": [
    "Verif.C160_drawn_partial",
    "Verif.C160_stretched_fails",
    "Verif.C160_one_image_fails",
    "Verif.C160_switch",
    "Verif.C160_no_image_fails"
   ],
   "note": "Proved for two images of the same size. False in the code: a second image of another size is stretched on the first one (C160_stretched_fails), a window with only the first image is not opened (C160_one_image_fails), and without images the title still announces the image 0 (C160_no_image_fails). The keys count only with the mouse on the image. Not modelled: colours of matplotlib, nan."
  }
 ]
}