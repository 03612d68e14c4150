{"id": "C01", "title": "split_range is a balanced partition of the range", "statement": "Splitting range(start, stop, step) in n parts returns n (start, stop, step) triples such that the concatenation, in order, of the Python ranges they denote is exactly the original range (nothing lost, duplicated or reordered), the sizes of two parts differ by at most one, larger parts come first, and every empty part comes after every non-empty one.", "quantifier": "every integer start, stop, every non-zero step (positive or negative) and every number of parts n >= 1", "why_tests_cant": "The property ranges over all integers and all numbers of parts; boundary behaviour (negative steps, fewer elements than parts, remainders) cannot be enumerated.", "anchors": ["src/fluidimage/topologies/splitters.py:split_range", "src/fluidimage/topologies/splitters.py:SplitterFromSeries", "src/fluidimage/topologies/splitters.py:SplitterFromImages"]}
{"id": "C02", "title": "split_list is a balanced partition without empty parts", "statement": "Splitting a non-empty sequence in n parts returns min(n, len) non-empty contiguous slices whose concatenation is the sequence and whose sizes differ by at most one; an empty sequence gives n empty parts.", "quantifier": "every sequence and every n >= 1", "why_tests_cant": "All lengths and all part counts; slicing arithmetic errors only show for particular remainders.", "anchors": ["src/fluidimage/topologies/splitters.py:split_list", "src/fluidimage/executors/multi_exec_async.py:_start_multiprocess_first_queue"]}
{"id": "C03", "title": "Index files survive the round trip to a sub-process", "statement": "Whatever list of indices (integers for series, tuples of integers of any arity >= 1 for images) a splitter writes in indicesNNN.txt, the topology started with how='from_path_indices' reads back exactly the same list in the same order.", "quantifier": "every list of integers (of either sign) and every list of non-empty integer tuples, including 1-tuples whose Python text has a trailing comma", "why_tests_cant": "Infinite set of lists and texts; a test only checks particular numbers.", "anchors": ["src/fluidimage/topologies/splitters.py:SplitterCompleteAware.save_indices_files", "src/fluidimage/topologies/base.py:_tuple_ints_from_str", "src/fluidimage/topologies/base.py:TopologyBaseFromSeries.init_series", "src/fluidimage/topologies/base.py:TopologyBaseFromImages.fill_queue_paths"]}
{"id": "C04", "title": "Distributing a computation over processes computes each item exactly once", "statement": "For the multi-process executors, the items given to the sub-processes (index lists in 'complete' mode, index ranges otherwise, keys of the first queue for topologies without series) form a partition of the items the topology has to compute: no item is skipped, none is given to two processes, at most nb_max_workers processes are started, none of them with nothing to do, and process numbers are 0..k-1 without gaps.", "quantifier": "every list of items to be computed, every range, and every number of processes >= 1", "why_tests_cant": "Depends on arithmetic over all sizes and numbers of processes, and on the correspondence between file numbers and process numbers.", "anchors": ["src/fluidimage/executors/multi_exec_async.py:_start_multiprocess_series", "src/fluidimage/executors/multi_exec_async.py:_start_multiprocess_first_queue", "src/fluidimage/executors/multi_exec_subproc.py:_start_processes", "src/fluidimage/topologies/splitters.py:iter_over_new_params"]}
{"id": "C05", "title": "Result directory: no clobbering with new_dir, errors on bad modes", "statement": "Preparing the result directory rejects (ValueError) any mode that is not one of the five documented ones; in mode new_dir it never returns a directory that already existed, and returns base, base0, base1, ... the first free one; other modes return the base directory; afterwards the returned directory exists and all previously existing paths still exist.", "quantifier": "every finite set of existing paths, every base name, every mode string", "why_tests_cant": "All file-system contents; termination of the search for a free name is a liveness property.", "anchors": ["src/fluidimage/topologies/base.py:prepare_path_dir_result"]}
{"id": "C06", "title": "Result directory: the user's answer decides", "statement": "When the mode is 'ask' and the directory exists, any accepted answer (n, c, r, s in either case) selects the corresponding mode, s stops the program, unaccepted answers are asked again, and the mode returned is never 'ask'.", "quantifier": "every finite sequence of answers typed by the user", "why_tests_cant": "All answer histories; tests mock one answer.", "anchors": ["src/fluidimage/topologies/base.py:prepare_path_dir_result"]}
{"id": "C07", "title": "Complete mode computes exactly what is missing", "statement": "In mode 'complete' the indices to be computed are exactly, in order and without duplicates, those whose result file does not exist; running the missing ones and asking again yields nothing; after any interruption (any subset of result files written) a completed run leaves exactly the same set of result files as an uninterrupted run.", "quantifier": "every series of items, every naming of results that is injective, every set of already existing files and every crash point", "why_tests_cant": "Quantifies over every subset of files a crash may leave.", "anchors": ["src/fluidimage/topologies/base.py:TopologyBaseFromImages.compute_indices_to_be_computed", "src/fluidimage/topologies/piv.py:TopologyPIV.compute_indices_to_be_computed", "src/fluidimage/topologies/base.py:fill_queue_paths"]}
{"id": "C08", "title": "Queues are first-in first-out key/value maps", "statement": "A waiting queue behaves as an insertion-ordered map: storing under a new key appends, storing under an existing key replaces the value in place, pop_first_item removes and returns the oldest key, is_name_in_values tells exactly whether a name occurs in a stored tuple; no key is ever present twice.", "quantifier": "every sequence of set / pop / delete operations starting from an empty queue", "why_tests_cant": "All histories of operations.", "anchors": ["src/fluidimage/topologies/base.py:Queue"]}
{"id": "C09", "title": "Sequential executor: every item goes through the whole chain exactly once", "statement": "Executing a topology made of a chain of works sequentially terminates, and when it does every queue is empty and the side effects produced (saved files, results, exception reports) are, for every initial item, exactly those of applying the works one after the other to that item, and nothing else.", "quantifier": "every chain of works of any length, every work functions (including failing ones), every initial content of the first queue", "why_tests_cant": "All chain lengths, all data and all failure patterns.", "anchors": ["src/fluidimage/executors/exec_sequential.py:ExecutorSequential._run_works", "src/fluidimage/topologies/base.py:Work.check_exception", "src/fluidimage/topologies/image2image.py:TopologyImage2Image"]}
{"id": "C10", "title": "Asynchronous executor: results do not depend on the schedule", "statement": "For a chain of works, any execution of the asynchronous executor, whatever the interleaving of launchers, tasks, thread completions and stop checks, that reaches the stop flag has produced exactly the same multiset of side effects as the sequential executor: nothing lost, nothing done twice.", "quantifier": "every interleaving, every chain, every items, every nb_max_workers and nb_items_queue_max", "why_tests_cant": "All schedules of concurrent tasks.", "anchors": ["src/fluidimage/executors/exec_async.py:ExecutorAsync", "src/fluidimage/executors/exec_async_sequential.py:ExecutorAsyncSequential", "src/fluidimage/executors/exec_async_multiproc.py:ExecutorAsyncMultiproc"]}
{"id": "C11", "title": "Asynchronous executor: never stops early", "statement": "The stop flag set by the executor itself implies that all queues are empty and no task is running; from then on no task ever starts working on an item again.", "quantifier": "every reachable state of every topology under every schedule", "why_tests_cant": "A premature stop is a race visible only under particular interleavings.", "anchors": ["src/fluidimage/executors/exec_async.py:async_run_work_cpu, update_has_to_stop"]}
{"id": "C12", "title": "Asynchronous executor: always finishes", "statement": "From every reachable state in which the work is not finished, the executor can make progress (no deadlock), and there is no infinite sequence of working steps; hence compute() returns for every topology with nb_max_workers >= 1 whatever the schedule.", "quantifier": "every reachable state, every topology of the package (chains, couples, subsets), every series, every queue bound", "why_tests_cant": "Deadlock freedom and termination quantify over all states and schedules.", "anchors": ["src/fluidimage/executors/exec_async.py:def_async_func_work_io", "src/fluidimage/executors/exec_async_seq_for_multi.py:ExecutorAsyncSeqForMulti", "src/fluidimage/topologies/preproc.py:make_subsets", "src/fluidimage/topologies/piv.py:make_couples"]}
{"id": "C13", "title": "Asynchronous executor: concurrency limits", "statement": "At any time at most nb_max_workers I/O tasks and at most nb_max_workers CPU tasks are working, and an output queue of a non-global work never holds more than nb_items_queue_max items.", "quantifier": "every reachable state under every schedule", "why_tests_cant": "Check-then-act on a shared counter: only some interleavings show an overshoot.", "anchors": ["src/fluidimage/executors/exec_async.py:def_async_func_work_io", "src/fluidimage/executors/exec_async.py:async_run_work_io", "src/fluidimage/executors/exec_async.py:def_async_func_work_cpu"]}
{"id": "C14", "title": "An error on one item does not affect the others", "statement": "If a work raises for some items (and stop_if_error is False), the compute still terminates, every other item produces the same effects as if the failing item had not been there, the failing item produces exactly one exception report, naming the work that failed and its key, is not processed by later works, and ends as one 'can not be done' message.", "quantifier": "every subset of failing items, every chain, every schedule", "why_tests_cant": "All failure patterns and schedules.", "anchors": ["src/fluidimage/executors/base.py:ExecutorBase.log_exception", "src/fluidimage/topologies/base.py:Work.check_exception", "src/fluidimage/executors/exec_sequential.py:_run_works"]}
{"id": "C15", "title": "stop_if_error stops at the first error", "statement": "With stop_if_error=True the sequential executor raises the first error raised by a work; no later item is processed and the effects already done are those of a prefix of the non-stopping execution.", "quantifier": "every chain, items and failure patterns", "why_tests_cant": "All failure patterns.", "anchors": ["src/fluidimage/executors/exec_sequential.py:_run_works"]}
{"id": "C16", "title": "Servers executor: never stops early", "statement": "The executor based on servers sets its stop flag only when every popped item has been processed and its result stored.", "quantifier": "every interleaving of the trio loop and of the worker threads", "why_tests_cant": "Race between popping an item and marking the worker as occupied.", "anchors": ["src/fluidimage/executors/exec_async_servers.py:update_has_to_stop", "src/fluidimage/executors/exec_async_servers.py:async_run_work_cpu", "src/fluidimage/executors/servers.py:WorkerMultiprocessing"]}
{"id": "C17", "title": "A multi-process run fails iff a sub-process failed", "statement": "compute() of a multi-process executor returns only after all sub-processes have exited, raises RuntimeError exactly when at least one exit code is non zero, and each exit code is recorded once.", "quantifier": "every number of processes and every sequence of polls (any order in which processes finish)", "why_tests_cant": "All completion orders of the processes.", "anchors": ["src/fluidimage/executors/base.py:MultiExecutorBase.compute", "src/fluidimage/executors/base.py:MultiExecutorBase._finalize_compute"]}
{"id": "C18", "title": "Results files list exactly the results, in order, at any time", "statement": "After any number of saves interleaved with new results, results.txt contains the name of every result known at the last save, once, in order, one per line, and len_results.txt contains their number; if the process is killed between the two writes the names file holds a prefix of the results; the multi-process executor reads back exactly the union of the results of the sub-processes.", "quantifier": "every history of appended results and saves and every crash point", "why_tests_cant": "All histories and crash points.", "anchors": ["src/fluidimage/executors/base.py:ExecutorBase._save_results_names", "src/fluidimage/executors/base.py:MultiExecutorBase.compute", "src/fluidimage/gui/monitor.py"]}
{"id": "C19", "title": "Job directories and lock files are never shared", "statement": "Starting an executor in a result directory never fails because of earlier executors and gives it a fresh job directory with its own lock file; while a job runs its lock file exists and after it is finalized it does not, and the end time is then recorded; releasing twice is harmless.", "quantifier": "every sequence of starts and ends of executors in one result directory, in the same process and same second or not", "why_tests_cant": "All histories of starts, in particular several in the same second.", "anchors": ["src/fluidimage/executors/base.py:_init_log_path", "src/fluidimage/executors/base.py:_save_job_data", "src/fluidimage/executors/base.py:_save_lock_file", "src/fluidimage/executors/base.py:_release_lock"]}
{"id": "C20", "title": "A run with nothing to do succeeds", "statement": "When every result already exists (mode complete), compute() returns normally without computing anything.", "quantifier": "every executor and every topology whose results all exist", "why_tests_cant": "Needs to hold for each executor code path.", "anchors": ["src/fluidimage/executors/base.py:_init_compute", "src/fluidimage/executors/exec_sequential.py:compute", "src/fluidimage/executors/base.py:MultiExecutorBase.compute"]}
{"id": "C21", "title": "Mean image: exact mean whatever the schedule and the splitting", "statement": "TopologyMeanImage computes, for every pixel, floor(sum/number of images) of exactly all the images, independently of the order in which images are read, of how reductions are grouped and of how images are split over processes; every image contributes exactly once; the number of recorded results equals the number of images.", "quantifier": "every number of images >= 1, every splitting over processes, every arrival order and every interleaving of reductions, as long as the exact sums fit in 32 bits", "why_tests_cant": "All interleavings and reduction trees.", "anchors": ["src/fluidimage/topologies/mean.py:reduce_queue_tmp_arrays4", "src/fluidimage/topologies/mean.py:reduce_queue_tmp_arrays2", "src/fluidimage/topologies/mean.py:main", "src/fluidimage/topologies/mean.py:final_seq_work"]}
{"id": "C22", "title": "Mean image: 32-bit sums", "statement": "The mean image of n images of b-bit unsigned pixels is exact as long as n * (2^b - 1) < 2^32 (and wraps beyond).", "quantifier": "every n, b and pixel values", "why_tests_cant": "Overflow only for huge numbers of images.", "anchors": ["src/fluidimage/topologies/mean.py:main", "src/fluidimage/topologies/mean.py:final_seq_work"]}
{"id": "C23", "title": "PIV couples: each couple is made exactly once with the right images", "statement": "Whatever the order in which images are loaded and however often the couple-making step runs in between, every couple of the series is produced exactly once, with the images of its two names in the right order, as soon as both are loaded; a failed load yields the error of the first failed image for the couples that use it and only for them.", "quantifier": "every series of couples (overlapping or not), every arrival order of the images, every schedule", "why_tests_cant": "All arrival orders and schedules.", "anchors": ["src/fluidimage/topologies/piv.py:make_couples", "src/fluidimage/topologies/piv.py:fill_couples_of_names_and_paths"]}
{"id": "C24", "title": "PIV memory: images are dropped exactly when no longer needed", "statement": "After each couple-making step, a loaded image is kept if and only if a couple not yet made uses it; each image is loaded once even if it belongs to several couples; at the end no image is left and all queues are empty.", "quantifier": "every series of couples and every schedule", "why_tests_cant": "Leaks depend on arrival order and sharing pattern.", "anchors": ["src/fluidimage/topologies/piv.py:make_couples", "src/fluidimage/topologies/base.py:Queue.is_name_in_values"]}
{"id": "C25", "title": "Preprocessing subsets: each subset once, with its images in order", "statement": "Every subset of the series is produced exactly once, with the arrays of its names in the order of the names, when all its images are loaded; images are dropped exactly when no remaining subset uses them.", "quantifier": "every series of subsets of any sizes and any overlap, every arrival order", "why_tests_cant": "All overlaps and arrival orders.", "anchors": ["src/fluidimage/topologies/preproc.py:make_subsets", "src/fluidimage/topologies/preproc.py:fill_subsets_of_names_and_paths"]}
{"id": "C26", "title": "Preprocessing outputs do not depend on the schedule", "statement": "The content of every preprocessed image written by TopologyPreproc is determined by the inputs and parameters, not by the order in which subsets are processed, and completing an interrupted run gives the same files as an uninterrupted one.", "quantifier": "every order in which subsets are processed and every crash point", "why_tests_cant": "Overlapping subsets write the same file names; only some orders differ.", "anchors": ["src/fluidimage/topologies/preproc.py:make_subsets", "src/fluidimage/works/preproc/__init__.py:WorkPreproc._make_dict_to_save", "src/fluidimage/data_objects/preproc.py:ArraySerie", "src/fluidimage/data_objects/preproc.py:PreprocResults.save"]}
{"id": "C27", "title": "Sliding preprocessing saves every image exactly once", "statement": "When subsets are the windows of a sliding series and ind_serie/nb_series are provided, the images saved by the successive subsets cover every image of the series exactly once.", "quantifier": "every number of images, window size Ni >= 1 (and Nj images per index)", "why_tests_cant": "All window sizes and parities.", "anchors": ["src/fluidimage/data_objects/preproc.py:get_ind_middle", "src/fluidimage/data_objects/preproc.py:get_name_preproc", "src/fluidimage/works/preproc/__init__.py:_make_dict_to_save"]}
{"id": "C28", "title": "BOS: reference excluded, others processed once, terminates with any preprocessing", "statement": "The BOS topology computes every selected image except the reference exactly once, the image given to the computation is the one produced by the image-to-image function if one is given, and execution terminates.", "quantifier": "every serie, every reference, with or without image-to-image function", "why_tests_cant": "Termination of the executor loop for every configuration.", "anchors": ["src/fluidimage/topologies/bos.py:TopologyBOS", "src/fluidimage/topologies/bos.py:_fix_indices_images"]}
{"id": "C29", "title": "Surface tracking: frames are phase-corrected in order, each once", "statement": "Every frame is corrected with respect to the corrected previous frame, exactly once, in the order of the series whatever the order in which frames are ready, every frame is saved, and execution terminates, including in mode 'complete' with part of the results present.", "quantifier": "every number of frames, every arrival order, every set of existing results", "why_tests_cant": "All arrival orders; liveness in complete mode.", "anchors": ["src/fluidimage/topologies/surface_tracking.py:make_couples", "src/fluidimage/topologies/surface_tracking.py:fill_queue_paths"]}
{"id": "C30", "title": "Surface tracking: phase correction", "statement": "Correcting a couple of phase maps terminates and returns a map that differs from the input by one multiple of 2*pi, with a reference jump at most pi in absolute value.", "quantifier": "every pair of real phases", "why_tests_cant": "Termination for all reals.", "anchors": ["src/fluidimage/works/surface_tracking.py:correctcouple"]}
{"id": "C31", "title": "PIV grid: windows inside the image and no uncovered margin", "statement": "For every image at least one pixel larger than the interrogation window, the vector positions are strictly increasing, every interrogation window lies inside the image, consecutive positions are one step apart except possibly the last, and the uncovered margin at the high end is at most the documented fraction of the step.", "quantifier": "every image size, window size, and overlap", "why_tests_cant": "All sizes and overlaps; off-by-one errors depend on remainders.", "anchors": ["src/fluidimage/works/piv/singlepass.py:_prepare_with_image"]}
{"id": "C32", "title": "PIV windows: the cropped sub-image is centred on the requested point", "statement": "The sub-image used for a vector has exactly the interrogation-window shape, contains exactly the pixels of the padded image around the requested position, and a window that would leave the padded image is reported as an error for that vector, never silently replaced by other pixels.", "quantifier": "every position, image size, window size and (predicted) displacement, including negative coordinates", "why_tests_cant": "All displacements; wrong pixels give plausible results.", "anchors": ["src/fluidimage/works/piv/singlepass.py:_crop_im0", "src/fluidimage/works/piv/singlepass.py:_crop_im1", "src/fluidimage/works/piv/singlepass.py:_init_crop", "src/fluidimage/works/piv/singlepass.py:_pad_images"]}
{"id": "C33", "title": "PIV multipass: displaced windows are consistent with the estimate", "statement": "In passes after the first, the two windows of each vector are separated by exactly the integer estimated displacement, and the reported position is the mid-point; windows shifted to stay in the image keep this separation.", "quantifier": "every estimate, position and image size", "why_tests_cant": "All combinations of shifts.", "anchors": ["src/fluidimage/works/piv/singlepass.py:_calcul_positions_vectors_subimages"]}
{"id": "C34", "title": "PIV errors are confined to their vector", "statement": "A correlation failure for one vector gives NaN and an error entry for this vector only; every vector has exactly one displacement, one correlation maximum and one error status, with matching indices.", "quantifier": "every set of failing vectors", "why_tests_cant": "All subsets of failing vectors.", "anchors": ["src/fluidimage/works/piv/singlepass.py:_loop_vectors"]}
{"id": "C35", "title": "Correlation: index and displacement are inverse of each other", "statement": "compute_indices_from_displacement is the inverse of compute_displacement_from_indices, for all correlation classes and all displacements; zero displacement corresponds to the documented centre index for even and odd sizes.", "quantifier": "every index / displacement and every window shape", "why_tests_cant": "All shapes and parities.", "anchors": ["src/fluidimage/calcul/correl.py:compute_displacement_from_indices", "src/fluidimage/calcul/correl.py:compute_indices_from_displacement"]}
{"id": "C36", "title": "Correlation: the maximum found is the maximum inside the search area", "statement": "The index returned for the correlation peak is inside the allowed search area and no allowed position has a larger correlation; an error is raised iff the search area contains only NaN; positions outside of the search area never win.", "quantifier": "every correlation array (with NaN), shape and displacement_max", "why_tests_cant": "All arrays.", "anchors": ["src/fluidimage/calcul/correl.py:_compute_indices_max", "src/fluidimage/calcul/correl.py:nan_indices_max", "src/fluidimage/calcul/correl.py:CorrelFFTBase._finalize_init"]}
{"id": "C37", "title": "Correlation: second-chance peak masking", "statement": "When the best peak is rejected, the second-chance search masks the rejected neighbourhood so that the next peak returned is outside of it, wherever the first peak is.", "quantifier": "every peak position including those near the border", "why_tests_cant": "All positions near the low border.", "anchors": ["src/fluidimage/calcul/correl.py:compute_displacements_from_correl"]}
{"id": "C38", "title": "Correlation: shift of FFT output", "statement": "The rearrangement of FFT correlations is a bijection of the pixels equal to a circular shift of the reversed array, putting the zero displacement at the documented centre, for even and odd shapes.", "quantifier": "every array of every shape", "why_tests_cant": "All shapes.", "anchors": ["src/fluidimage/calcul/correl.py:_like_fftshift"]}
{"id": "C39", "title": "Direct correlation never reads out of bounds and equals its definition", "statement": "The direct correlation reads only valid indices of both images and each output value is the sum of products over the overlap region for the corresponding displacement.", "quantifier": "every image size and displacement_max", "why_tests_cant": "All sizes.", "anchors": ["src/fluidimage/calcul/correl.py:correl_numpy"]}
{"id": "C40", "title": "Outlier removal marks exactly the outliers", "statement": "The FIX work sets to NaN exactly the vectors whose correlation is below the threshold, whose displacement exceeds the maximum or which differ too much from their neighbours, keeps the removed values, and leaves every other vector unchanged; a secondary peak replaces a vector only if it satisfies the same displacement bound.", "quantifier": "every set of vectors, thresholds", "why_tests_cant": "All inputs.", "anchors": ["src/fluidimage/works/piv/fix.py:WorkFIX.calcul"]}
{"id": "C41", "title": "Neighbour mean", "statement": "mean_neighbors_xy returns for every grid point the mean of its non-NaN neighbours among the at most eight adjacent points, for interior, edge and corner points alike.", "quantifier": "every array of every shape with at least 2x2 points", "why_tests_cant": "All shapes; edges and corners are separate code paths.", "anchors": ["src/fluidimage/calcul/mean_neighbors.py:mean_neighbors_xy"]}
{"id": "C42", "title": "Thin-plate-spline sub-domains cover all points", "statement": "Every input point belongs to at least one sub-domain, the sub-domains' index lists are consistent with the interpolation/recombination weights, and the smoothing iteration performs at most a fixed number of solves.", "quantifier": "every set of points and sub-domain size", "why_tests_cant": "All point sets.", "anchors": ["src/fluidimage/calcul/interpolate/thin_plate_spline_subdom.py"]}
{"id": "C43", "title": "Masked coordinates round trip", "statement": "Converting coordinates from the masked/cropped image to the original image and back is the identity, and offsets are those of the crop.", "quantifier": "every crop string and coordinates", "why_tests_cant": "All offsets.", "anchors": ["src/fluidimage/works/with_mask.py", "src/fluidimage/data_objects/piv.py:get_slices_from_strcrop"]}
{"id": "C44", "title": "Saving and loading PIV results", "statement": "A multi-pass PIV result saved to a file and loaded again has the same vectors, the same error status per vector and the same thin-plate-spline data per sub-domain, in the same order.", "quantifier": "every number of passes, vectors, errors and sub-domains", "why_tests_cant": "Order of groups in the file depends on the number of sub-domains (>= 11).", "anchors": ["src/fluidimage/data_objects/piv.py:HeavyPIVResults._save_in_hdf5_object", "src/fluidimage/data_objects/piv.py:HeavyPIVResults._load_from_hdf5_object", "src/fluidimage/data_objects/piv.py:MultipassPIVResults"]}
{"id": "C45", "title": "Light PIV results keep the coordinates", "statement": "make_light_result keeps, for every pass, the x coordinates as x and the y coordinates as y.", "quantifier": "every pass index and every result", "why_tests_cant": "Tests use one shape and the last pass.", "anchors": ["src/fluidimage/data_objects/piv.py:MultipassPIVResults.make_light_result"]}
{"id": "C46", "title": "File names of results are unique", "statement": "Two different couples/subsets of the same serie never get the same result file name.", "quantifier": "every pair of series of the same serie of files", "why_tests_cant": "All index tuples.", "anchors": ["src/fluidimage/data_objects/piv.py:get_name_piv", "src/fluidimage/data_objects/preproc.py:get_name_preproc", "src/fluidimage/data_objects/piv.py:get_name_bos"]}
{"id": "C47", "title": "Grid reshaping keeps values at their positions", "statement": "Reshaping flat PIV vectors on a grid gives 2D arrays such that the value at row j, column i is the vector measured at (x_i, y_j), for increasing or decreasing coordinates and for both flattening orders.", "quantifier": "every grid with at least two columns and rows", "why_tests_cant": "All grid shapes and orderings.", "anchors": ["src/fluidimage/postproc/util.py:reshape_on_grid_final", "src/fluidimage/postproc/util.py:get_grid_from_ivecs_final"]}
{"id": "C48", "title": "Vector fields: constructor and elementwise operations keep positions", "statement": "Building a vector field from descending coordinates stores the same function (x, y) -> (vx, vy) on ascending coordinates; +, -, *, / act pointwise; extract and truncate return the restriction of the field to the requested rectangle.", "quantifier": "every field and every rectangle", "why_tests_cant": "All shapes and index ranges.", "anchors": ["src/fluidimage/postproc/vector_field.py:VectorFieldOnGrid"]}
{"id": "C49", "title": "Vector fields: extract_square returns a square", "statement": "extract_square returns the centred largest square region (after removing `cut` points) of the field.", "quantifier": "every field shape and cut", "why_tests_cant": "All shapes (tall and wide).", "anchors": ["src/fluidimage/postproc/vector_field.py:VectorFieldOnGrid.extract_square"]}
{"id": "C50", "title": "Vector fields: time average", "statement": "compute_time_average of an array of fields is the pointwise mean of the fields and leaves them unchanged.", "quantifier": "every non-empty list of fields", "why_tests_cant": "All lengths and values.", "anchors": ["src/fluidimage/postproc/vector_field.py:ArrayOfVectorFieldsOnGrid.compute_time_average"]}
{"id": "C51", "title": "Spectra satisfy Parseval", "statement": "The integral of the 1D spectrum equals the mean square of the signal as documented.", "quantifier": "every real signal", "why_tests_cant": "All signals.", "anchors": ["src/fluidimage/postproc/util.py:compute_1dspectrum"]}
{"id": "C52", "title": "Simple 2D calibration: calibration points are at the given distance", "statement": "With the scale computed from two points and their physical distance (and pixel aspect ratio), the physical distance between the two points is the given one; pixel displacements convert consistently with the conversion of points.", "quantifier": "every pair of distinct points, distance > 0 and aspect ratio > 0", "why_tests_cant": "All values.", "anchors": ["src/fluidimage/calibration/calib2d_simple.py:Calibration2DSimple"]}
{"id": "C53", "title": "Tsai calibration: pixel to physical and back", "statement": "For a plane z = constant, converting a pixel position to physical coordinates and back gives the same pixel (up to the documented change of the direction of y).", "quantifier": "every rotation matrix, translation, focal lengths, principal point and pixel where the conversion is defined", "why_tests_cant": "All parameters.", "anchors": ["src/fluidimage/calibration/calib_tsai.py:Calibration.pix2phys", "src/fluidimage/calibration/calib_tsai.py:Calibration.phys2pix"]}
{"id": "C54", "title": "Stereo reconstruction bases are orthonormal", "statement": "The change-of-base matrix computed from a normal vector is orthonormal with third vector the normal, and its returned inverse is its inverse; the intersection of an optical path with a plane lies on both; the common grid lies in the region seen by both cameras.", "quantifier": "every vector with non-zero z component and every plane not parallel to the line", "why_tests_cant": "All vectors.", "anchors": ["src/fluidimage/calibration/util.py:get_base_from_normal_vector", "src/fluidimage/calibration/util.py:get_plane_equation", "src/fluidimage/calibration/calib_direct.py:intersect_with_plane", "src/fluidimage/calibration/calib_direct.py:find_common_grid"]}
{"id": "C55", "title": "Tomography grid and pixel projection are aligned", "statement": "The flat list of voxels enumerates every grid point exactly once and the projection of row k is the projection of voxel k.", "quantifier": "every grid", "why_tests_cant": "All grid sizes.", "anchors": ["src/fluidimage/data_objects/tomo.py", "src/fluidimage/reconstruct/tomo/mlos.py:phys2pix"]}
{"id": "C56", "title": "Preprocessing tools are applied in the requested order and keep intensities in bounds", "statement": "Exactly the enabled tools are applied, once each, in the requested sequence; after global thresholding every pixel is in [minima, maxima] and pixels already in this interval are unchanged; background subtraction never gives negative pixels.", "quantifier": "every sequence of tools and every image", "why_tests_cant": "All sequences and images.", "anchors": ["src/fluidimage/works/preproc/toolbox.py", "src/fluidimage/works/preproc/__init__.py", "src/fluidimage/works/preproc/_toolbox_py.py:global_threshold"]}
{"id": "C57", "title": "Optical flow filters keep positions and displacements aligned", "statement": "Filtering keeps exactly the features that satisfy the criterion and each kept position keeps its own displacement.", "quantifier": "every list of features and thresholds", "why_tests_cant": "All lists.", "anchors": ["src/fluidimage/works/optical_flow.py"]}
{"id": "C58", "title": "Duplicate work names are rejected", "statement": "Adding a work whose name is already used raises ValueError and leaves the topology unchanged; otherwise works are kept in the order in which they were added.", "quantifier": "every sequence of additions", "why_tests_cant": "All histories.", "anchors": ["src/fluidimage/topologies/base.py:TopologyBase.add_work"]}
{"id": "C59", "title": "Configuration values are converted", "statement": "Booleans written in a configuration file are read as booleans.", "quantifier": "every capitalisation of true/false and every other value", "why_tests_cant": "All values.", "anchors": ["src/fluidimage/config.py:get_config"]}
{"id": "C60", "title": "Resetting the logger removes all handlers", "statement": "After reset_logger no handler is attached to the logger.", "quantifier": "every number of handlers", "why_tests_cant": "Mutation while iterating depends on the number of handlers.", "anchors": ["src/fluidimage/util/log.py:reset_logger"]}
{"id": "C61", "title": "Durations are formatted without loss", "statement": "The formatted duration determines the number of whole seconds, hours/minutes/seconds being in range.", "quantifier": "every non-negative duration", "why_tests_cant": "All values.", "anchors": ["src/fluidimage/util/util.py:format_time_in_seconds"]}
{"id": "C62", "title": "UVMAT instructions give the series the user asked for", "statement": "The converted series parameters select exactly the couples/images requested in the UVMAT file.", "quantifier": "every first/last/increment and every pair mode", "why_tests_cant": "All integer values.", "anchors": ["src/fluidimage/uvmat.py:set_params_series", "src/fluidimage/uvmat.py:tidy_uvmat_instructions"]}
{"id": "C63", "title": "A result interrupted during its write is recomputed", "statement": "If the program is killed in the middle of the write of a result file, a later run in mode 'complete' recomputes this result, so that all result files are right in the end.", "quantifier": "every item being written at the time of the crash and every partial content", "why_tests_cant": "tests do not kill the process in the middle of a write, and the property ranges over every crash point inside a write", "anchors": ["src/fluidimage/topologies/base.py:TopologyBaseFromImages.compute_indices_to_be_computed", "src/fluidimage/topologies/piv.py:TopologyPIV.compute_indices_to_be_computed", "src/fluidimage/data_objects/piv.py:HeavyPIVResults.save", "src/fluidimage/data_objects/preproc.py:PreprocResults.save"]}
{"id": "C64", "title": "Sub-pixel refinement is bounded", "statement": "The sub-pixel refinement changes a displacement by at most sqrt(2)(nsubpix + 1/2) pixels, or reports an error for this vector; it is refused exactly when the neighbourhood of the peak is not inside the correlation map; the method no_subpix changes nothing.", "quantifier": "every correlation map, peak, method, half size of the neighbourhood and whatever values the fit gives", "why_tests_cant": "All correlation maps, including the ones for which the fit is bad or gives NaN.", "anchors": ["src/fluidimage/calcul/subpix.py:SubPix.compute_subpix", "src/fluidimage/calcul/correl.py:CorrelBase.apply_subpix"]}
{"id": "C65", "title": "The FFT correlations are the circular cross-correlation of the fluctuations", "statement": "For any two windows of the same shape, the correlation returned by the methods based on FFT (numpy and fftw) has, at the position that is converted to the displacement (dx, dy), the sum over all the pixels (a, b) of (im0 - mean(im0))(a, b) * (im1 - mean(im1))((a + dy) mod n0, (b + dx) mod n1), up to a positive factor that depends only on the shape.", "quantifier": "all window shapes, all pairs of images, all displacements", "why_tests_cant": "the tests correlate a few synthetic images and look at the position of the maximum; the identity holds for all images and all shapes (odd and even)", "anchors": ["src/fluidimage/calcul/correl.py: CorrelFFTNumpy.__call__, CorrelFFTW.__call__, _like_fftshift", "src/fluidimage/calcul/fft.py: FFTW2DReal2Complex, NumpyFFT2DReal2Complex"]}
{"id": "C66", "title": "The correlation coefficient of the FFT methods is normalised", "statement": "For any two windows, the correlation coefficient (correlation divided by the norm) of the methods based on FFT is between -1 and 1 at all displacements, and when the second window is the first one translated circularly by a displacement the coefficient at this displacement is 1.", "quantifier": "all window shapes, all pairs of images, all displacements", "why_tests_cant": "the bound is over all images; the energy computed from half of the modes depends on the parity of the number of columns, that the tests (powers of 2) never change", "anchors": ["src/fluidimage/calcul/correl.py: CorrelFFTNumpy.__call__, CorrelFFTW.__call__, compute_displacement_from_indices", "src/fluidimage/calcul/fft.py: _compute_energy_from_fourier, NumpyFFT2DReal2Complex.compute_energy_from_fourier"]}
{"id": "C67", "title": "The stereo reconstruction recovers the three components of the displacement", "statement": "For two calibrated cameras with parallel optical paths and particles whose displacement is an affine function of the position in the laser plane, the displacement reconstructed from the pixel displacements measured by the two cameras is, at every point of the common grid where both measures can be interpolated, the real displacement (3 components) with a zero error.", "quantifier": "all directions of the cameras for which the object can be created, all planes, all affine displacement fields, all sets of measured vectors, all points of the grid", "why_tests_cant": "the tests run one reconstruction and look at the shapes; the property is about all geometries and fields", "anchors": ["src/fluidimage/calibration/calib_direct.py: DirectStereoReconstruction.__init__, project2cam, interp_on_common_grid, reconstruction", "src/fluidimage/calibration/calib_direct.py: CalibDirect.apply_calib, get_base_camera_plane"]}
{"id": "C68", "title": "Points of a calibration target are associated with the right object points", "statement": "For a target with nx columns and ny rows (odd numbers), the list of detected points and the list of object points are in the same order: the point of column i and row j of the target has the index j*nx+i in both lists, its object coordinates are ((i-(nx-1)/2)*ds, (j-(ny-1)/2)*ds, z), whatever the order in which the points are detected; a wrong number of detected points or an even number of rows or columns is refused.", "quantifier": "all numbers of rows and columns, all orders of detection, all small displacements of the points", "why_tests_cant": "the tests use one image of one square target", "anchors": ["src/fluidimage/calibration/calib_cv.py: SimpleCircleGrid.detect_grid, construct_object_points"]}
{"id": "C69", "title": "The MLOS reconstruction is the geometric mean over the cameras", "statement": "After the reconstruction with all the cameras, the intensity of each voxel is the product of the intensities interpolated in the images of the N cameras at the power 1/N, for every order of the cameras, in memory and in the saved file, and running the reconstruction again gives the same file.", "quantifier": "all numbers of voxels and cameras, all nonnegative images, all orders of the cameras, all previous contents of the directory", "why_tests_cant": "all orders and all previous runs", "anchors": ["src/fluidimage/reconstruct/tomo/mlos.py: TomoMLOSBase.reconstruct", "src/fluidimage/data_objects/tomo.py: ArrayTomoCV.__init__, ArrayTomoBase.save"]}
{"id": "C70", "title": "Windows of the temporal filters", "statement": "The temporal filters subtract from every pixel the weight times the requested rank statistic of the values in the window around the pixel; by default and for a window (ny, nx) given as a tuple or a list the window covers as many images as there are; requests without any temporal information (one image, or a window of one image) are refused with a ValueError.", "quantifier": "all series of images, all windows, all weights, the three statistics", "why_tests_cant": "the tests use one series and one window", "anchors": ["src/fluidimage/works/preproc/_toolbox_py.py: _calcul_windowshape, temporal_median, temporal_percentile, temporal_minima"]}
{"id": "C71", "title": "The tanh rescaling keeps the order and the maximum of the intensities", "statement": "For every image without negative pixels and every threshold (given or default), rescale_intensity_tanh gives finite integers, keeps the order of the intensities, gives no negative pixel and keeps the maximum of the image at the same pixels; the default threshold is twice the root mean square of the intensities.", "quantifier": "all images, types of images and thresholds", "why_tests_cant": "all images and types", "anchors": ["src/fluidimage/works/preproc/_toolbox_py.py: rescale_intensity_tanh"]}
{"id": "C72", "title": "compute raises exactly the errors it has to raise", "statement": "For a topology with something to compute, `compute` of the sequential and asynchronous executors returns normally only if `final_seq_work` has not raised and, with stop_if_error, no function of a work has raised; an exception which escapes is the one of final_seq_work or, with stop_if_error only, the exception of the last function called; without stop_if_error, errors of the functions of the works never escape. The multi-process executors start processes exactly when there is something to compute.", "quantifier": "all chains of works, functions, items, limits, values of stop_if_error, end-of-run functions and schedules", "why_tests_cant": "the number of items, the failing calls and the interleavings are unbounded", "anchors": ["src/fluidimage/executors/exec_sequential.py: ExecutorSequential.compute", "src/fluidimage/executors/exec_async.py: ExecutorAsync.compute", "src/fluidimage/executors/base.py: ExecutorBase._finalize_compute, MultiExecutorBase.compute"]}
{"id": "C73", "title": "Servers executor: bounded and balanced load, no deadlock, termination", "statement": "With the servers executor, a server never holds more than 4 unfinished items, there are never more saving tasks than the maximal number of workers, the output queue and the items in the servers are bounded together by the size of the queues plus 4 per server, an item is always given to an available server with the fewest unfinished items, as long as the stop flag is not set something can happen (no deadlock), an execution has a bounded number of steps besides the periodic checks, and an item whose result arrives before the saving loop returns is saved.", "quantifier": "all numbers of servers, items, limits (at least one worker and one slot in the queues) and all interleavings of the launcher, the threads, the answers of the servers, the saving tasks and the periodic checks", "why_tests_cant": "deadlocks and overloads depend on rare interleavings; the number of items and servers is unbounded", "anchors": ["src/fluidimage/executors/exec_async_servers.py: ExecutorAsyncServers.def_async_func_work_cpu, get_available_worker, async_run_work_cpu, update_has_to_stop", "src/fluidimage/executors/servers.py: Worker"]}
{"id": "C74", "title": "Multipass PIV: windows of the passes and chain of the passes", "statement": "With accepted parameters, there are `number` passes; the windows of pass i are the sizes given in the parameters divided by the product of the first i reduction coefficients (truncated); only the last pass does the sub-pixel refinement; parameters are refused exactly when the overlap is not smaller than 1, the sizes are not one or two numbers, the windows of the second images are larger, or the number of coefficients is not number - 1. For each couple, each pass uses the grid of its own windows, the first pass computes from the couple and each other pass from the fixed result of the previous one, one result is returned per pass, and an error in any pass means no result.", "quantifier": "all parameters (numbers of passes, integer or list coefficients, sizes, overlaps), all couples, whatever each pass and each fix compute or raise", "why_tests_cant": "the combinations of numbers of passes, coefficients and sizes are unbounded, and the chaining must hold whatever the passes compute", "anchors": ["src/fluidimage/works/piv/multipass.py: WorkPIV.__init__, WorkPIV.calcul", "src/fluidimage/works/piv/singlepass.py: BaseWorkPIV._init_shape_crop, FirstWorkPIV, WorkPIVFromDisplacement"]}
{"id": "C75", "title": "PIV results do not depend on the couples processed before", "statement": "The result (or the error) of a PIV computation for a couple is the same whatever couples have been processed before with the same object, with or without errors.", "quantifier": "all parameters, all histories of couples (any number, any shapes, failures included), whatever each pass computes", "why_tests_cant": "the histories are unbounded; a test processes one couple or a few couples of the same shape", "anchors": ["src/fluidimage/works/piv/singlepass.py: FirstWorkPIV.calcul, WorkPIVFromDisplacement.calcul, BaseWorkPIV._prepare_with_image", "src/fluidimage/works/piv/multipass.py: WorkPIV.calcul"]}
{"id": "C76", "title": "get_grid_pixel gives the positions of the vectors of a pass", "statement": "get_grid_pixel, called with the parameters of a computation and the shape of the images stored with its couple, gives for each pass (counted from the first or from the last) the positions along x and y of the grid whose points are the positions stored in the result.", "quantifier": "all parameters, image shapes, crops of the images, numbers of passes and indices of the pass", "why_tests_cant": "a test checks one file; the grids must be the same for all shapes, windows, overlaps and crops", "anchors": ["src/fluidimage/postproc/piv.py: get_grid_pixel", "src/fluidimage/data_objects/piv.py: ArrayCouple.shape_images, HeavyPIVResults.get_grid_pixel", "src/fluidimage/works/with_mask.py"]}
{"id": "C77", "title": "A computation leaves the process as it was", "statement": "After compute returns or raises, sys.stdout and sys.stderr are the streams from before, the log file of the executor is closed and its lock file is removed; whatever computations are done in a process, no lock file is left when the interpreter exits.", "quantifier": "all sequences of computations in one process, all executors (simple and multi), numbers of items (zero included) and ways to end (normal, error in the initialisation, in a work, in the final work, in a sub-process)", "why_tests_cant": "tests run one computation which ends normally; what stays in the process after failures, and how it adds up over a session, depends on the whole history", "anchors": ["src/fluidimage/executors/base.py: ExecutorBase.__init__, _init_compute, _release_lock, _save_job_data, _finalize_compute, _reset_std_as_default, MultiExecutorBase.compute", "src/fluidimage/executors/exec_sequential.py: compute", "src/fluidimage/executors/exec_async.py: compute"]}
{"id": "C78", "title": "compute uses the requested executor and limits", "statement": "compute uses the executor which is requested (by name, as an object, or with sequential=True) and refuses unknown or contradictory requests; the number of workers is the one given to compute, else to the topology, else in the configuration, else the number of physical cores (plus two below 16); limits with which no item could be processed are not accepted.", "quantifier": "all arguments of compute, topologies, configurations and machines (any number of sockets, cores and threads)", "why_tests_cant": "tests run on one machine with a few combinations of the arguments", "anchors": ["src/fluidimage/topologies/base.py: TopologyBase.compute", "src/fluidimage/executors/base.py: ExecutorBase.__init__", "src/fluidimage/topologies/nb_cpu_cores.py"]}
{"id": "C79", "title": "An item executed in a sub-process gives what the function gives", "statement": "With the executor exec_async_multiproc, each item ends with the value or the exception given by the function, which is executed once; if the process cannot be started or dies, the item fails with an error and the others are not affected.", "quantifier": "all functions, all interleavings of the parent and of the processes, all slow starts, all crash points of the processes", "why_tests_cant": "the interleavings, the timeouts and the crash points cannot be produced by a test", "anchors": ["src/fluidimage/executors/exec_async_multiproc.py: exec_work_and_comm, ExecutorAsyncMultiproc.async_run_work_cpu"]}
{"id": "C80", "title": "The analysis of the log files gives what the executors have written", "statement": "LogTopology reads every log file written by an executor and gives, for each work, its launches in order with their keys and times and with the duration of each of them (NaN if it has not ended); the plots can be restricted to some works.", "quantifier": "all topologies, names of works, keys, numbers of items, interleavings of launches and ends, and other lines printed by the works", "why_tests_cant": "a test parses one file; keys and lines are arbitrary", "anchors": ["src/fluidimage/topologies/log.py: DataLogFile, LogTopology, LogTopology.plot_nb_workers", "src/fluidimage/executors/base.py: log_in_file, log_in_file_memory_usage", "src/fluidimage/util/util.py: get_txt_memory_usage"]}
{"id": "C81", "title": "Thin plate spline smoothing", "statement": "compute_tps_weights(centers, values, smoothing_coef) with a coefficient that is not negative succeeds exactly when the centers lie in no hyperplane (in two dimensions: are not aligned) and are distinct or the coefficient is positive. Its result is the spline that minimises the squared difference from the data plus the coefficient times the squared curvature; without smoothing it passes through the values; it reproduces affine fields exactly at every position, keeps the mean and the first moments of the values, is linear in the values, does not depend on the origin of the coordinates, and a larger coefficient gives a smaller curvature. compute_gradient returns the derivatives of the field that compute_field returns.", "quantifier": "every number of centers, every positions, values, smoothing coefficient >= 0, new positions, and (except for the gradient) every space dimension", "why_tests_cant": "Existence of the weights for every configuration of centers is the conditional positive definiteness of the thin plate kernel, and optimality compares with every other spline: no finite set of configurations settles them.", "anchors": ["src/fluidimage/calcul/interpolate/thin_plate_spline.py:compute_tps_matrix_numpy", "src/fluidimage/calcul/interpolate/thin_plate_spline.py:compute_tps_matrix_pythran", "src/fluidimage/calcul/interpolate/thin_plate_spline.py:compute_tps_weights", "src/fluidimage/calcul/interpolate/thin_plate_spline.py:compute_tps_matrices_dxy", "src/fluidimage/calcul/interpolate/thin_plate_spline.py:ThinPlateSpline"]}
{"id": "C82", "title": "Interpolation of PIV results on the grid of a pass", "statement": "apply_interp(piv_results, last) uses exactly the vectors without NaN and raises InterpError exactly when there is none. Each estimated displacement is the interpolation at the position reported with it (in the original image, whatever the mask), every position of the grid gets an estimate, an affine displacement field is estimated exactly by the splines, and at the last pass with the splines the smoothed arrays hold, for each usable vector, its own position and smoothed displacement.", "quantifier": "every set of vectors with any NaN, every grid, mask offset, sub-domain size, threshold, value of use_tps, interpolation function and solver", "why_tests_cant": "Alignment of the estimates with the positions, and the fallback between the two methods, depend on which vectors are NaN and where they are.", "anchors": ["src/fluidimage/works/piv/singlepass.py:BaseWorkPIV.apply_interp", "src/fluidimage/calcul/interpolate/griddata.py:griddata", "src/fluidimage/calcul/interpolate/thin_plate_spline_subdom.py:ThinPlateSplineSubdom"]}
{"id": "C83", "title": "PIV results saved in the format of uvmat", "statement": "Saving a multipass result with out_format=\"uvmat\" always succeeds and the file contains, for each pass (numbered from 1), the positions, displacements (0 for NaN) and correlations of this pass, and a flag equal to 1 exactly for the vectors which are NaN, so that the displacements can be recovered; the names of different passes never collide; the smoothed displacements and the spline weights which have been computed are in the file.", "quantifier": "every number of passes, number of vectors, set of NaN vectors, number and sizes of sub-domains", "why_tests_cant": "All combinations of NaN vectors, sub-domains and passes; a field which is silently missing raises no error.", "anchors": ["src/fluidimage/data_objects/piv.py:MultipassPIVResults._save_as_uvmat", "src/fluidimage/data_objects/piv.py:MultipassPIVResults.save"]}
{"id": "C84", "title": "Surface tracking: the phase of a frame depends only on the frame", "statement": "WorkSurfaceTracking.process_frame_func(array) gives the phase computed from the window of the image, each line being divided by its mean (so that the intensity of the light on each line does not matter) and the mean being subtracted. The result depends neither on the frames processed before by the same object, nor on the order of the frames, nor on the type of the numbers of the image (8 or 16-bit integers, floats); with crop_edge, the pixels out of the structure are those of the mean reference frame. The reference is the mean of the normalised reference frames; without reference image the default wave number is used.", "quantifier": "for every window, image (size, type of numbers, values with non-null means of the lines), sequence of frames and set of reference frames", "why_tests_cant": "tests run one serie with one executor and check that files are produced; the dependence on the frames processed before and the loss of precision for integers show only by comparing histories and types of images", "anchors": ["src/fluidimage/works/surface_tracking.py: WorkSurfaceTracking.process_frame_func", "src/fluidimage/works/surface_tracking.py: WorkSurfaceTracking.frame_normalize", "src/fluidimage/works/surface_tracking.py: WorkSurfaceTracking.merge_cropped_frame", "src/fluidimage/works/surface_tracking.py: WorkSurfaceTracking.compute_kx"]}
{"id": "C85", "title": "Surface tracking: heights are those which give the phases", "statement": "WorkSurfaceTracking.calculheight_func gives, for each pixel, the height of the surface which gives its phase (fringe projection with the distances of the parameters): a null phase is a null height and different phases are different heights. With correct_pos the heights are moved to the positions of the points of the surface; with correct_height, a frame identical to the reference has everywhere the height offset. No exception is raised for phases which are numbers.", "quantifier": "for every map of phases, parameters (distances, wave length, pixel size, options) and interpolation function", "why_tests_cant": "tests check that the topology produces files; the formula for all phases and the effect of the options on all maps need a proof", "anchors": ["src/fluidimage/works/surface_tracking.py: WorkSurfaceTracking.calculheight_func", "src/fluidimage/works/surface_tracking.py: WorkSurfaceTracking.convphase", "src/fluidimage/works/surface_tracking.py: WorkSurfaceTracking.process_ref"]}
{"id": "C86", "title": "Surface tracking: borders of the structure", "statement": "With crop_edge, the borders of the structure are found in every image (when most of the lines have the same borders), the heights kept are those of the columns of the structure without `borders` columns on each side, the result has the shape of the reference with null heights in the `borders` columns on each side, for every value of borders. Without crop_edge (the structure is the whole window), the heights between the borders are those of the pixels.", "quantifier": "for every image, window, position of the structure, number of columns set to zero and resize function", "why_tests_cant": "the faults depend on the relation between the borders of the structure and the limits of the window, and on the range of the intensities of the images", "anchors": ["src/fluidimage/works/surface_tracking.py: WorkSurfaceTracking.get_borders", "src/fluidimage/works/surface_tracking.py: WorkSurfaceTracking.set_borders_zero_func"]}
{"id": "C87", "title": "Surface tracking: unwrapping recovers the phase of a smooth surface", "statement": "The phase returned for a frame is equal, modulo 2π, to the angle measured at each pixel. If the measured angles are those of a surface whose phase changes by less than π between neighbouring pixels (in both directions), the returned phase is the phase of this surface at all pixels, up to one common multiple of 2π. Two neighbouring pixels of the returned phase never differ by more than π.", "quantifier": "all sizes of frames, all arrays of angles, all smooth surfaces with any number of turns", "why_tests_cant": "the phase can turn any number of times over frames of any size; a test uses one frame", "anchors": ["src/fluidimage/works/surface_tracking.py: WorkSurfaceTracking.process_frame (446-451)"]}
{"id": "C88", "title": "Surface tracking: gain, filter and wave vector of the grid", "statement": "The wave vector computed from the reference is the number of periods of the grid in the width of the window (the frequency, with the resolution 1/sur, of the component with the largest amplitude). In the demodulated frame, a deformation with p and q periods is multiplied by the value of the filter at the frequencies p/l_x and q/l_y, and a uniform light has no effect. The contrast of the frame has no effect on the phase.", "quantifier": "all sizes of windows, all references, all grids, all deformations, all contrasts", "why_tests_cant": "the statement ranges over all sizes (in particular odd and even ones) and all frames; the default window has an odd width", "anchors": ["src/fluidimage/works/surface_tracking.py: WorkSurfaceTracking.set_gain_filter, rectify_frame, process_frame, wave_vector"]}
{"id": "C89", "title": "Divergence and curl of a vector field are the finite-difference derivatives of the right components along the right axes", "statement": "For a field on a regular grid, compute_divh and compute_rotz return, at every point of the grid (borders included), d(vx)/dx + d(vy)/dy and d(vy)/dx - d(vx)/dy: exactly for components quadratic along the differentiated axis (edge_order=2) or linear (edge_order=1); the divergence of a discrete stream-function field and the curl of a discrete gradient are exactly zero. A grid that is not regular, or too small, raises an error instead of giving values.", "quantifier": "every field on an exactly regular grid of any size, any steps, any quadratic/linear variation per line and column, any stream function or potential", "why_tests_cant": "a test checks a few analytic fields on one grid; sign, axis and border errors and the acceptance of nearly regular grids need all fields", "anchors": ["src/fluidimage/postproc/vector_field.py:VectorFieldOnGrid.compute_rotz", "src/fluidimage/postproc/vector_field.py:VectorFieldOnGrid.compute_divh", "src/fluidimage/postproc/util.py:compute_rot", "src/fluidimage/postproc/util.py:compute_div"]}
{"id": "C90", "title": "Filtering a vector field with valid=True returns only values free of border effects", "statement": "median_filter and gaussian_filter with valid=True return a field restricted to the points far enough from the border that every value is computed only from measured vectors: each value of each component is the median (weighted sum) of the vectors in the window centred on that point, at the same coordinates.", "quantifier": "every field, window sizes (sigma, truncate), number of iterations", "why_tests_cant": "depends on the position of each point relative to the border and on the number of iterations; a test on one field does not show which values depend on reflected data", "anchors": ["src/fluidimage/postproc/vector_field.py:VectorFieldOnGrid.median_filter", "src/fluidimage/postproc/vector_field.py:VectorFieldOnGrid.gaussian_filter"]}
{"id": "C91", "title": "A function applied to space-time data gives each component its own result", "statement": "ArrayOfVectorFieldsOnGrid.apply_function_to_spatiotemp_data(func) returns fields with vx = func(all vx)[it] and vy = func(all vy)[it], whatever func returns (a new array, its argument modified in place, or a view of it), and everything else unchanged.", "quantifier": "every non-empty array of fields and every function", "why_tests_cant": "aliasing between the buffer given to func and its result only shows for some functions", "anchors": ["src/fluidimage/postproc/vector_field.py:ArrayOfVectorFieldsOnGrid.apply_function_to_spatiotemp_data"]}
{"id": "C92", "title": "A saved vector field is loaded identical and usable", "statement": "A VectorFieldOnGrid saved with save and loaded with from_file has the same coordinates, components, names and parameters, and the operations that work on the original work on the loaded field.", "quantifier": "every field: with or without z, vz number or array, with or without parameters", "why_tests_cant": "the combinations of absent, scalar and array attributes are not covered by one round trip", "anchors": ["src/fluidimage/postproc/vector_field.py:VectorFieldOnGrid.save", "src/fluidimage/postproc/vector_field.py:VectorFieldOnGrid.from_file", "src/fluidimage/postproc/vector_field.py:VectorFieldOnGrid.__init__"]}
{"id": "C93", "title": "The number of results shown while a computation runs is right", "statement": "While a multi-process computation runs, the number of results shown by the progress bar and by fluidimage-monitor never makes these programs fail, never decreases, never exceeds the number of results computed so far, and equals it when all the processes have ended; fluidimage-monitor finds the latest job of the directory and says correctly whether it runs.", "quantifier": "every number of processes, every interleaving of the results, of the writings of the files and of the readings (including a reading between the truncation and the writing of a file)", "why_tests_cant": "a reading between the truncation of the file and the writing of the number, or a process which starts late, depends on the schedule", "anchors": ["src/fluidimage/executors/base.py:MultiExecutorBase._wait_for_all_processes", "src/fluidimage/executors/base.py:ExecutorBase._save_results_names", "src/fluidimage/gui/monitor.py:MonitorApp"]}
{"id": "C94", "title": "The multi-process executor returns whatever its sub-processes print", "statement": "With the executor multi_exec_subproc, compute returns once all the works have been done, whatever the amount of text printed by the works to the standard output and the standard error (warnings, progress, tracebacks).", "quantifier": "every number of processes, every sequence of printed texts, every schedule and every capacity of the pipes", "why_tests_cant": "tests print less than the capacity of a pipe (65536 bytes); a blocked process cannot be distinguished from a slow one by a test", "anchors": ["src/fluidimage/executors/multi_exec_subproc.py:MultiExecutorSubproc._start_processes", "src/fluidimage/executors/base.py:MultiExecutorBase._wait_for_all_processes"]}
{"id": "C95", "title": "A user-defined image-to-image function is applied to each image with the documented argument", "statement": "The parameter im2im (a callable, a class with a method calcul, or the dotted name of one of them) gives the function which is called with the couple (path, image) for each image, by apply_im2im_filter, by the methods of the work and by every topology which uses im2im; the topology Image2Image saves for each readable image exactly one file of the same name with the output of the function for this image.", "quantifier": "every function, every serie of images, every way to give the function, every schedule of the executor and every set of images which cannot be read or processed", "why_tests_cant": "the order of the argument and the pairing of names and outputs must hold for all functions, names and schedules", "anchors": ["src/fluidimage/works/image2image.py:init_im2im_function", "src/fluidimage/image2image.py:apply_im2im_filter", "src/fluidimage/works/__init__.py:BaseWorkFromImage", "src/fluidimage/topologies/image2image.py:TopologyImage2Image", "src/fluidimage/topologies/bos.py:TopologyBOS"]}
{"id": "C96", "title": "Synthetic image pairs show the requested displacement", "statement": "make_synthetic_images returns the image of randomly placed particles and the (central part of the) image of the same particles displaced by the requested displacement: with a whole number of pixels and no noise the second image is the first one shifted; its shape is the requested one, it is centred on the first one, the noise of each pixel is independent, and impossible shapes raise ValueError.", "quantifier": "every displacement, number of particles, shapes, noise level and sequence of random numbers", "why_tests_cant": "tests use a few displacements and shapes, and the random numbers differ in each run", "anchors": ["src/fluidimage/synthetic.py:make_synthetic_images"]}
{"id": "C97", "title": "A launcher offers the arguments of the topology with their default values", "statement": "The parameters created by a topology launcher contain each keyword argument of the constructor and of the method compute of the topology with its default value; running the launcher with these parameters, modified or not by the user, is the same as creating the topology and calling compute with these values.", "quantifier": "every signature of the constructor and of compute, and every sequence of modifications by the user", "why_tests_cant": "the alignment of names and default values depends on the signatures", "anchors": ["src/fluidimage/topologies/launcher.py:_get_args_bound_method", "src/fluidimage/topologies/launcher.py:TopologyLauncher", "src/fluidimage/topologies/piv.py:TopologyPIV.__init__", "src/fluidimage/topologies/base.py:TopologyBase.compute"]}
{"id": "C98", "title": "Running a parameter file runs what the file describes", "statement": "python -m fluidimage.run_from_xml file creates the class described in the file with its parameters, only changing saving.how with --mode, and calls compute with compute_kwargs; for uvmat files it runs the action; when the program or the action is unknown nothing is executed and the error says so.", "quantifier": "every parameter file, every class, mode and set of arguments for compute", "why_tests_cant": "two files are tested; the choice depends on the combination of optional parts of the file", "anchors": ["src/fluidimage/run_from_xml.py:main", "src/fluidimage/run_from_xml.py:modif_params_with_args", "src/fluidimage/uvmat.py:actions_classes"]}
{"id": "C99", "title": "A server answers every job, once and in order, and can be stopped", "statement": "With the executors based on servers, each job sent to a server is answered exactly once on its own connection with the result (or the exception) of the work for this job, in the order of the jobs; when all the jobs are answered the computation can end; and when the executor asks a server to stop, it stops.", "quantifier": "all sequences of jobs, all results (including results and exceptions which cannot be pickled), all interleavings of the tasks of the server, all executions of the executor after the death of a server", "why_tests_cant": "tests use a few jobs with results which can be pickled; the order of the answers depends on the schedule, and the behaviour of the executor when a server dies is not testable by waiting", "anchors": ["src/fluidimage/executors/servers.py: WorkerServerMultiprocessing.receive, launch_works, send, check_event_has_to_stop", "src/fluidimage/executors/exec_async_servers.py: ExecutorAsyncServers.async_run_work_cpu, update_has_to_stop"]}
{"id": "C100", "title": "The image viewer shows the image it names", "statement": "Whatever the user does in fluidimviewer (buttons +1, -1, +n, -n, number n, switch, reload, automatic and typed colour limits), exactly one image is visible, it is the image of the file whose name is the title, this file is the one asked for (moves add up, modulo the number of files), and it is drawn with the colour limits asked for.", "quantifier": "all numbers of files, all histories of events and typed texts, all contents of the files at the time of each event (files which cannot be read included)", "why_tests_cant": "there is no test of the interface, and the images kept in memory make what is visible depend on the whole history of events", "anchors": ["src/fluidimage/gui/imviewer.py: ImageViewer.change_im, loadim, reloadim, set_autoclim, _switch, _increase_ifile_n, _update_clim, _change_cmax, _change_cmin"]}
{"id": "C101", "title": "The vector field viewer shows the file it names", "statement": "Whatever the user does in fluidpivviewer (buttons +1 and -1, index typed in the box), the index is the one asked for (circular for the buttons, limited for the box), it is displayed in the box, the title is the name of this file, and the arrows are the vectors of the last pass of this file, at their positions.", "quantifier": "all numbers of files, all histories of events and typed texts, all files (different grids, numbers of passes, files which cannot be read)", "why_tests_cant": "there is no test of the interface; the box and the index call each other, so termination and consistency are properties of all histories", "anchors": ["src/fluidimage/gui/piv_viewer.py: VectorFieldsViewer._change_index_from_textbox, _set_textbox_value, _set_index, _update_fig, get_piv_data_from_path"]}
{"id": "C102", "title": "Brightness and contrast tools keep the ranges and orders they document", "statement": "rescale_intensity maps the intensities increasingly to the asked range, with both bounds reached; the histogram equalisations give images in the range of intensities of the input; gamma_correction gives gain * x ** gamma and refuses negative intensities; adaptive_threshold gives a binary image; sharpen does not change constant images.", "quantifier": "all images (constant, empty and negative ones included), all bounds, exponents, gains and offsets, all equalisation algorithms and smoothing filters", "why_tests_cant": "the tests run these tools on one image and only check that they run; ranges and orders are claims about every image", "anchors": ["src/fluidimage/works/preproc/_toolbox_py.py: adaptive_threshold, rescale_intensity, equalize_hist_adapt, equalize_hist_local, gamma_correction, sharpen"]}
{"id": "C103", "title": "All processes of a run save in the directory of the run", "statement": "When a computation is distributed over sub-processes or servers, all of them use the result directory prepared by the main process, without creating another directory and without asking the user again.", "quantifier": "all saving modes and answers of the user, all contents of the disk before the run and when the sub-processes start, all paths (text or Path)", "why_tests_cant": "the tests of the sub-process executor use one mode in a fresh directory; the claim is about all the contents of the disk and all the modes", "anchors": ["src/fluidimage/topologies/base.py: prepare_path_dir_result, TopologyBase._init_path_dir_result", "src/fluidimage/executors/multi_exec_subproc.py: MultiExecutorSubproc._init_num_expected_results", "src/fluidimage/topologies/splitters.py: SplitterCompleteAware._iter_over_new_params_from_indices_lists", "src/fluidimage/executors/servers.py: launch_server, WorkerServerMultiprocessing.__init__"]}
{"id": "C104", "title": "The stop signal of the clusters ends a computation properly", "statement": "When a process running a topology with an asynchronous executor receives the signal 12 (sent by clusters before the end of the allocated time), `compute` returns after finitely many steps whatever the schedule, even in situations which never end without signal; what has been done for each item is the beginning of what has to be done (right functions, right values, once); every item whose computation has been done is saved; no new item is started; and a result made from all the images (mean image) is not produced from some of them.", "quantifier": "for every topology, limits of workers and queues, set of items, time of the signal and schedule", "why_tests_cant": "the signal may arrive at any point of any interleaving of the tasks", "anchors": ["src/fluidimage/executors/base.py:ExecutorBase.__init__ (handler_signals)", "src/fluidimage/executors/exec_async.py:define_functions, def_async_func_work_io, def_async_func_work_cpu, update_has_to_stop, start_async_works", "src/fluidimage/topologies/mean.py:main, final_seq_work"]}
{"id": "C105", "title": "Optical path of a pixel given by the direct calibration", "statement": "CalibDirect gives for a pixel the straight line which fits best (least squares of the distances) the points seen by the pixel on the calibration planes: its direction has the norm 1 and does not go down, it goes through these points when they are aligned, and for a camera with parallel straight paths the interpolated path of every pixel of the image is NaN or exactly the path of the pixel. Pixels out of the image are a ValueError.", "quantifier": "every number of calibration planes and of points in the files, every pixel, every linear interpolation and every singular value decomposition of the libraries, every number of nodes", "why_tests_cant": "the tests use one set of calibration files with all the planes seen by all the pixels; the claim is about every set of planes, also with pixels which do not see all of them", "anchors": ["src/fluidimage/calibration/calib_direct.py: get_points, CalibDirect.compute_interpolents, compute_interpolents_pixel2line, pixel2line"]}
{"id": "C106", "title": "The displacement of translated windows is found exactly", "statement": "When the second window is the first one translated circularly by an integer displacement, less than half of the window, and no other translation gives the same window, the displacement returned by the correlation methods based on FFT is exactly this displacement, with a correlation of 1, for all numbers of peaks, radii and maximum displacements which allow it.", "quantifier": "all window shapes, all images, all displacements, all parameters of the search", "why_tests_cant": "the tests correlate a few synthetic images; the claim is over all images and all displacements, and the extreme displacements are never tried", "anchors": ["src/fluidimage/calcul/correl.py: CorrelFFTNumpy.__call__, CorrelFFTWithOperBase.__call__, CorrelFFTBase.compute_displacements_from_correl, nan_indices_max, _like_fftshift"]}
{"id": "C107", "title": "The scipy correlations announce the right displacement", "statement": "With the correlation methods scipy.signal (modes same and valid) and scipy.ndimage, the value of the correlation at the index announced for a displacement is the sum of the products of the pixels of the second window by the pixels of the first window displaced by it (windows with the same centre), for all sizes of the two windows.", "quantifier": "all shapes of the two windows (the second one not larger), all images, all displacements", "why_tests_cant": "the tests use a few even sizes; the index of no displacement depends on the parity of both sizes", "anchors": ["src/fluidimage/calcul/correl.py: CorrelScipySignal, CorrelScipyNdimage", "src/fluidimage/works/piv/singlepass.py: _init_shape_crop, _init_crop"]}
{"id": "C108", "title": "The correlation coefficient of the direct and scipy methods is normalised", "statement": "For any two windows, the correlation coefficient (correlation divided by the norm) of the methods which do not use FFT is at most 1, it is 1 for a window correlated with itself, and a window which is exactly present in the other one is found at its displacement.", "quantifier": "all window shapes, all pairs of images, all displacements", "why_tests_cant": "the bound is over all images", "anchors": ["src/fluidimage/calcul/correl.py: _norm_images, CorrelScipySignal.__call__, CorrelScipyNdimage.__call__, correl_numpy"]}
{"id": "C109", "title": "The sub-pixel position of a Gaussian peak is exact", "statement": "When the correlation around the detected maximum is a Gaussian of any height, widths and centre, the sub-pixel refinement returns the position of its centre; when the correlation around the maximum is symmetric, the refinement does not move it; with a correlation which is not negative, the position given by the centroid stays in the neighbourhood used for the refinement.", "quantifier": "all correlation maps, all positions of the maximum, all methods and all values of nsubpix, all heights, widths and centres of the peaks", "why_tests_cant": "The claim is about a continuum of real peaks and about every size of the neighbourhood; the tests compute a few displacements of synthetic images with a tolerance, which hides the bias of a method.", "anchors": ["src/fluidimage/calcul/subpix.py: SubPix.compute_subpix, SubPix.prepare_subpix, SubPix.__init__, compute_subpix_2d_gaussian2"]}
{"id": "C110", "title": "The sub-pixel position does not depend on the units of the correlation", "statement": "Multiplying the correlation by a positive number does not change the sub-pixel position (the raw correlation given to the refinement has the units of the square of the intensities of the images, so the position does not depend on the brightness); with the default method adding a constant does not change it either.", "quantifier": "all correlation maps, all positive factors and constants, all methods and all values of nsubpix", "why_tests_cant": "A relation between two executions for all the factors and maps; no test changes the units of the correlation.", "anchors": ["src/fluidimage/calcul/subpix.py: SubPix.compute_subpix, compute_subpix_2d_gaussian2", "src/fluidimage/calcul/correl.py: CorrelBase.apply_subpix"]}
{"id": "C111", "title": "A uniform displacement is kept by the passes with displaced windows", "statement": "When the second image is the first one moved by a whole number of pixels, and the displacement estimated for a vector by the previous pass is at less than half a pixel of it, the next pass finds exactly this displacement for this vector, with a correlation of 1 and without error, if the two displaced windows are inside the images and their pattern has no period; this is true before and after the sub-pixel refinement. So when the usable vectors of one pass are at less than half a pixel of the displacement, all the vectors of the next passes are exact.", "quantifier": "all images, all displacements, all grids and window sizes (at least 4 pixels), all estimates, the two fft methods, all the sub-pixel methods, all the maximum displacements which do not exclude the neighbours of the centre, all the functions of interpolation which stay between the extrema of the values", "why_tests_cant": "A relation between all the pairs of translated images and all the estimates; the tests compare the mean displacement of a few synthetic images with a tolerance.", "anchors": ["src/fluidimage/works/piv/singlepass.py: WorkPIVFromDisplacement.calcul, WorkPIVFromDisplacement._calcul_positions_vectors_subimages, BaseWorkPIV._crop_im0, BaseWorkPIV._crop_im1, BaseWorkPIV._loop_vectors, BaseWorkPIV.apply_interp", "src/fluidimage/calcul/correl.py: CorrelFFTNumpy, CorrelFFTW, CorrelBase.compute_displacements_from_correl, CorrelBase.apply_subpix"]}
{"id": "C112", "title": "A stop signal received by a multi executor stops all its processes", "statement": "When the main process of a computation with several processes receives the stop signal (number 12), every process which has not ended is told to stop, no exception is raised by the handler, no other process of the machine receives a signal, and compute returns when all the processes have ended; with or without signals compute never blocks once they have ended, and it reports as errors exactly the processes which ended with a code different from zero.", "quantifier": "all numbers of processes, all interleavings of the launch, the polling, the ends of the processes, the signals and their deliveries, the processes started by fork or with a new interpreter", "why_tests_cant": "The moment of the signal relative to the launch, to the imports in the processes and to their ends cannot be chosen by a test; the only test sends one signal after a fixed delay.", "anchors": ["src/fluidimage/executors/base.py: MultiExecutorBase.compute (handler_signals), MultiExecutorBase._poll_return_code", "src/fluidimage/executors/multi_exec_async.py: MultiExecutorAsync._start_processes, ExecutorAsyncForMulti", "src/fluidimage/executors/multi_exec_subproc.py: MultiExecutorSubproc._start_processes", "src/fluidimage/executors/exec_async.py: ExecutorAsync.compute (handler_signals)"]}
{"id": "C113", "title": "A whole computation of PIV finds a uniform displacement", "statement": "For two images in which the patterns are displaced by the same whole number of pixels everywhere, WorkPIV.calcul ends with one result per pass, all the vectors of the results are exactly this displacement and have no error, no vector is removed as a false vector, and the final field of the last result is exactly this displacement at all the positions of the grid, when the first pass finds the displacement within half a pixel (in particular when its windows are displaced circularly) and the patterns have no period in the windows.", "quantifier": "all images, displacements, masks, numbers of passes, coefficients of zoom, window sizes, overlaps, maximum displacements which allow it, parameters of the removal of false vectors which accept the displacement, the two fft methods, all the sub-pixel methods, all interpolations which stay between the extrema of the values", "why_tests_cant": "A relation between all the pairs of displaced images and all the results of the whole chain; the tests compare the mean displacement of a few synthetic images with a tolerance.", "anchors": ["src/fluidimage/works/piv/multipass.py: WorkPIV.__init__, WorkPIV.calcul", "src/fluidimage/works/piv/singlepass.py: FirstWorkPIV.calcul, WorkPIVFromDisplacement.calcul, BaseWorkPIV.apply_interp", "src/fluidimage/works/piv/fix.py: WorkFIX.calcul", "src/fluidimage/calcul/correl.py: parse_displacement_max"]}
{"id": "C114", "title": "Guarantees on every vector of a whole PIV computation", "statement": "For any couple of images, whenever WorkPIV.calcul returns results, in the result of each pass every vector is either NaN with an entry in `errors`, or has no error and then: its correlation is a number not smaller than params.fix.correl_min; its length is at most params.fix.displacement_max; its displacement differs from the estimate used for it (zero in the first pass, otherwise the value interpolated from the previous result rounded to a whole number of pixels) by at most params.piv0.displacement_max (a text \"p%\" is p percent of the largest side of the windows of that pass), plus the sub-pixel refinement in the last pass. The vector is placed at the point of the grid (first pass) or in the middle of the two displaced windows, in the coordinates of the images before the mask.", "quantifier": "all couples of images, all parameters (number of passes, sizes of windows, overlaps, masks, limits, thresholds, sub-pixel methods, numbers of peaks), all rounding functions with a bounded error, every pass and every vector", "why_tests_cant": "The guarantees are about every vector found in every pair of images, in particular noise and degenerate images; tests only look at a few synthetic displacements.", "anchors": ["src/fluidimage/works/piv/multipass.py: WorkPIV.calcul", "src/fluidimage/works/piv/singlepass.py: BaseWorkPIV._loop_vectors, _calcul_from_images, WorkPIVFromDisplacement.calcul, calcul_indices_vec", "src/fluidimage/works/piv/fix.py: WorkFIX.calcul", "src/fluidimage/calcul/correl.py: parse_displacement_max, CorrelFFTBase"]}
{"id": "C115", "title": "What a trial on one couple shows is what the computation saves", "statement": "The documentation advises to try the parameters on one couple of images with the work (`process_1_serie`, `get_serie` followed by `calcul`, `calcul_from_arrays`) before computing all the couples with the topology. For every couple of the series, `process_1_serie(index)` returns exactly the result which the topology made with the same parameters saves for this couple (same names, paths, shape, mask and vectors), whatever the executor, the schedule and the trials done before; if the trial raises, the computation saves nothing for this couple and reports it. Without index, the first couple is tried. With an image-to-image preprocessing, the same holds for `work.calcul(apply_im2im_filter(work.get_serie(index), im2im))`. `calcul_from_arrays` works on two images, gives what is computed with them and keeps the names given. When `params.series` is changed, the next trial uses the new series.", "quantifier": "all images, masks, series of couples (overlapping or not, readable or not), schedules and limits of the executors, histories of trials, image-to-image functions", "why_tests_cant": "the tests compare neither the trial with the computation nor the computations under all schedules; a difference appears only for some masks, missing files, preprocessing functions or after a change of the parameters", "anchors": ["src/fluidimage/works/__init__.py: BaseWorkFromSerie.get_serie, process_1_serie, calcul_from_arrays", "src/fluidimage/data_objects/piv.py: ArrayCouple", "src/fluidimage/works/piv/singlepass.py: BaseWorkPIV.calcul", "src/fluidimage/works/optical_flow.py: WorkOpticalFlow.calcul", "src/fluidimage/image2image.py: apply_im2im_filter", "src/fluidimage/topologies/piv.py: TopologyPIV"]}
{"id": "C116", "title": "The executors of the installed packages are found by their names", "statement": "The names given by get_executor_names() are the ones declared by the packages installed (fluidimage and others, through entry points), and topology.compute(executor=name) as well as import_executor_class(name) use the class Executor of the module declared under this name; the default and sequential=True are names of fluidimage which give the documented classes on every operating system; a name which is not declared is refused, and there is a RuntimeError when no executor is declared. This should stay true when packages are added during the session and when two packages declare the same name.", "quantifier": "every set of installed packages, every history of calls, installations, removals and reloads in a process, every name and every behaviour of the import of the modules", "why_tests_cant": "the tests run with fluidimage alone, in a fixed environment: the packages of other people, two packages with the same name, and installations during a session are not there.", "anchors": ["src/fluidimage/executors/__init__.py: supported_multi_executors, get_entry_points, get_executor_names, _get_module_fullname_from_name, import_executor_class", "src/fluidimage/topologies/base.py: TopologyBase.compute", "pyproject.toml: project.entry-points.fluidimage.executors"]}
{"id": "C117", "title": "The files of a PIV computation do not depend on how it is executed", "statement": "For a series whose couples of images have their own result files: after any number of computations of the series in the same directory which were interrupted (killed at any time, or stopped by the stop signal), each with any executor (sequential, asynchronous, several processes with either multi executor), any number of processes, any schedule and any mode (recompute or complete), a computation which reaches its end, with any executor, number of processes, schedule and mode, leaves in the directory for each couple exactly the result computed from its two (preprocessed and masked) images, and changes nothing else. So two such histories give the same directory; no file which is present is ever wrong; a computation in mode complete changes no existing file and, after a finished computation, changes nothing.", "quantifier": "all series, images, preprocessing functions, masks, velocity functions and failures of reading, computing and writing; all executors, numbers of processes, limits, schedules and interleavings of the writes of the processes; all histories of interrupted computations", "why_tests_cant": "the number of schedules, interleavings between processes and crash points is unbounded, and a test compares a few runs of one executor on one series", "anchors": ["src/fluidimage/topologies/piv.py: TopologyPIV.__init__, init_series, fill_couples_of_names_and_paths, save_piv_object", "src/fluidimage/executors/base.py: ExecutorBase", "src/fluidimage/executors/exec_sequential.py: ExecutorSequential", "src/fluidimage/executors/exec_async.py: ExecutorAsync", "src/fluidimage/executors/multi_exec_async.py: MultiExecutorAsync", "src/fluidimage/executors/multi_exec_subproc.py: MultiExecutorSubproc", "src/fluidimage/topologies/base.py: TopologyBase"]}
{"id": "C118", "title": "The files of a computation on images do not depend on how it is executed", "statement": "For a computation from images (image to image, or BOS without preprocessing function) in a directory: after any number of interrupted computations, with any executors, numbers of processes, schedules and modes (recompute or complete), a computation which reaches its end, with any executor, number of processes, schedule and mode, leaves exactly one file per image of the selection (without the BOS reference) whose works succeed, whose content is the result of this image alone; no other file is changed. In mode complete no existing file is changed, and at any time the files written are right.", "quantifier": "all selections of images (any number of slices), works, images which fail, executors, numbers of processes, schedules, interruptions, orders of the writes of the processes and files already in the directory", "why_tests_cant": "the interleavings of the processes and the points of interruption are unbounded; the tests run each executor once on four images", "anchors": ["src/fluidimage/topologies/base.py: TopologyBaseFromImages.compute_indices_to_be_computed, fill_queue_paths", "src/fluidimage/topologies/image2image.py: TopologyImage2Image", "src/fluidimage/topologies/bos.py: TopologyBOS, SplitterBos", "src/fluidimage/executors/multi_exec_async.py: MultiExecutorAsync._start_multiprocess_first_queue", "src/fluidimage/executors/multi_exec_subproc.py: MultiExecutorSubproc", "src/fluidimage/topologies/splitters.py: SplitterFromImages"]}
{"id": "C119", "title": "The files of a preprocessing do not depend on the executor, the schedule, the number of processes or the interruptions", "statement": "After any history of preprocessings of a series of subsets in a directory, interrupted at any moment, one TopologyPreproc.compute() which reaches its end, with any executor, any number of processes and any schedule, in mode 'complete' or 'recompute', leaves in the directory exactly one file for each image of each subset which can be computed, with the content given by the tools applied to the images of this subset, and changes no other file.", "quantifier": "all image files, tools, im2im functions, subsets, ranges of indices, executors, numbers of processes, schedules, histories of interrupted computations and initial directories", "why_tests_cant": "A test runs one executor with one schedule and no kill; the property ranges over all interleavings of the writes of several processes and over all the moments at which previous computations were killed.", "anchors": ["src/fluidimage/topologies/preproc.py: TopologyPreproc", "src/fluidimage/data_objects/preproc.py: PreprocResults.save, get_name_preproc", "src/fluidimage/works/preproc/__init__.py: WorkPreproc.calcul", "src/fluidimage/executors/multi_exec_async.py: MultiExecutorAsync", "src/fluidimage/executors/exec_async.py: ExecutorAsync", "src/fluidimage/executors/exec_sequential.py: ExecutorSequential"]}
{"id": "C120", "title": "From the files of the images to the files of the vectors", "statement": "When a series of couples of images is computed with a PIV topology, for every couple whose two images can be read and whose second image (after image2image and mask) is the first one displaced by (dx, dy) pixels, the directory of results finally contains the file of this couple, and in this file the vectors of all the passes are the displacement (dx, dy) (or NaN for some vectors of the last pass), at the points of the grids (the middles of the two windows) in the coordinates of the original images; with the thin plate splines of the last pass (the default), this holds when the splines of the vectors which are not NaN are defined. This holds whatever the executor, the number of processes, the schedule, the mode (recompute or complete), the earlier interrupted computations, and the other couples of the series (unreadable, impossible to compute).", "quantifier": "All images, displacements of the couples, numbers of passes and windows, series, executors, numbers of processes, schedules, modes and histories of interrupted computations", "why_tests_cant": "The tests run one executor with one schedule on a few synthetic couples and look at few numbers; the claim composes the numerical correctness for all the images with all the executions and crash histories.", "anchors": ["src/fluidimage/topologies/piv.py: TopologyPIV", "src/fluidimage/works/piv/multipass.py: WorkPIV.calcul", "src/fluidimage/works/piv/singlepass.py: FirstWorkPIV, BaseWorkPIV.calcul, WorkPIVFromDisplacement.calcul", "src/fluidimage/data_objects/piv.py: ArrayCouple, MultipassPIVResults.save", "src/fluidimage/executors/exec_async.py: ExecutorAsync", "src/fluidimage/executors/multi_exec_async.py: MultiExecutorAsync", "src/fluidimage/executors/exec_sequential.py: ExecutorSequential"]}
{"id": "C121", "title": "Several couples computed at the same time have the results they have alone", "statement": "When several couples of images are computed at the same time by the threads of one process with the same WorkPIV object (what the executor exec_async does), every couple gets exactly the result which it gets when it is computed alone with a WorkPIV which has just been built, whatever the order in which the steps of the threads happen.", "quantifier": "All numbers of threads, couples, windows and passes, all interleavings of the accesses of the threads to the attributes of the object and to the buffers of the FFT", "why_tests_cant": "A race between threads occurs for few interleavings; a test sees only those which the scheduler of the machine produces.", "anchors": ["src/fluidimage/executors/exec_async.py: ExecutorAsync.async_run_work_cpu", "src/fluidimage/works/piv/multipass.py: WorkPIV.calcul", "src/fluidimage/works/piv/singlepass.py: BaseWorkPIV._prepare_with_image, _pad_images, _loop_vectors, calcul", "src/fluidimage/calcul/fft.py: FFTW2DReal2Complex.fft, ifft, NumpyFFT2DReal2Complex", "src/fluidimage/calcul/correl.py: CorrelFFTWithOperBase.__call__"]}
{"id": "C122", "title": "Displaying a PIV result changes nothing in it and shows the data of the arrow which is picked", "statement": "Displaying a PIV result (`result.display(...)`) does not change the result. In the window there is one arrow for each vector, at its position and in its direction as seen on the images, and one red arrow for each removed vector, at its position and with the removed displacement. When an arrow is picked, the text gives the index, the position, the displacement (or the removed one), the correlation and the error of this vector, and the marks on the map of the correlation are at the places of their displacements.", "quantifier": "for every result (any number of vectors and of removed vectors, any pass), every value of show_interp, show_error and show_correl, with and without images, every vector and every sequence of picked arrows", "why_tests_cant": "The window is interactive: the tests only open it, for one result. That each index used in it is the index of the vector of the arrow, and that the arrays of the result are not modified in place, must hold for every result and for every arrow.", "anchors": ["src/fluidimage/data_objects/display_piv.py: DisplayPIV.__init__, onclick, onpick, select_arrow", "src/fluidimage/data_objects/piv.py: HeavyPIVResults.display", "src/fluidimage/calcul/correl.py: compute_indices_from_displacement"]}
{"id": "C123", "title": "The files of heights of a surface tracking do not depend on how it is executed", "statement": "When a serie of images is computed with TopologySurfaceTracking, the directory of results finally contains, for every image which can be read and processed, the heights computed from its phase corrected with respect to the corrected phase of the previous image (the first one with respect to itself), and no other file is changed. This holds whatever the executor, its limits, the schedule, the mode (recompute or complete) and the earlier interrupted computations; an image which cannot be read costs only its own file; at any time each file is absent (or as before) or right.", "quantifier": "for all images, functions (image2image, processing, correction, heights, saving, each of which can raise an exception), numbers of images, executors, limits, schedules, modes, instants of a kill, stop signals and contents of the directory", "why_tests_cant": "The tests track one short serie with one executor and one schedule and do not look at the files after an interruption or an error; each corrected phase depends on all the previous ones, so that a wrong order only appears for some schedules.", "anchors": ["src/fluidimage/topologies/surface_tracking.py: TopologySurfaceTracking", "src/fluidimage/works/surface_tracking.py: WorkSurfaceTracking", "src/fluidimage/executors/exec_async.py: ExecutorAsync", "src/fluidimage/executors/exec_sequential.py: ExecutorSequential", "src/fluidimage/executors/multi_exec_async.py: MultiExecutorAsync._start_multiprocess_series", "src/fluidimage/executors/multi_exec_subproc.py: MultiExecutorSubproc._init_num_expected_results", "src/fluidimage/topologies/base.py: TopologyBase.compute"]}
{"id": "C124", "title": "Tomography: a voxel seen dark is dark, and files and slices are those of their instant", "statement": "The intensity which a camera gives to a voxel is the one of the pixel in which the voxel is projected: the value of a pixel which is not dark, and 0 for a dark pixel (or out of the image). With the loops over the cameras and the instants of the documentation, each instant finally has its own file, which contains the geometric mean of the values of its own images, and no other file is changed; the same holds in memory. An array which is saved is loaded with the same axes, limits, voxels and intensities; clear starts again from 1 everywhere; an exception during a reconstruction does not make the next ones wrong; the slices which are displayed are the ones of the volume; the display in three dimensions shows the voxels whose intensities are above the threshold, at their positions, with markers in proportion to the intensities, and no other voxel.", "quantifier": "for all images, thresholds, projected positions, numbers of voxels, cameras, instants, names of files, contents of the disk and blocks which fail", "why_tests_cant": "The test reconstructs one volume with four cameras and only looks at the shapes; dark pixels, two instants, failing blocks and the order of the voxels in the slices are never checked.", "anchors": ["src/fluidimage/reconstruct/tomo/mlos.py: TomoMLOSBase.reconstruct, TomoMLOSNeighbour.get_interpolator", "src/fluidimage/data_objects/tomo.py: ArrayTomoBase, ArrayTomoCV"]}
{"id": "C125", "title": "A camera calibration is saved, loaded and interpolated without loss", "statement": "After CalibCV.calibrate, an object CalibCV made with the same path has the camera matrix, focal lengths, centre, distortion, rotations, translations and heights which have just been found. get_rotation and get_translate give, at the height of a plane of the target, the pose found for it, between two neighbouring planes the linear interpolation, whatever the order of the planes, and a pose for all the voxels; for an exact calibration all the voxels are projected with the pose of the camera.", "quantifier": "for all results of OpenCV, paths, contents of the disk, numbers, heights and orders of the planes, heights of the voxels and functions of projection", "why_tests_cant": "The tests read one calibration, call get_rotation and get_translate once without looking at the values, and never save; one plane, heights outside of the planes, existing files and paths without directory are not tested.", "anchors": ["src/fluidimage/calibration/calib_cv.py: CalibCV", "src/fluidimage/reconstruct/tomo/mlos.py: TomoMLOSCV.phys2pix"]}
{"id": "C126", "title": "A series of vector fields is a list of fields with their times", "statement": "An operation or a method of an ArrayOfVectorFieldsOnGrid (+, -, *, /, filters, extractions, slices, sum, regularize_grid, compute_temporal_fft) is the operation on each of its fields, in the same order, in new fields; the fields and series which existed are unchanged; the time of each field stays the one given by set_timestep, and the temporal Fourier transform gives the coefficients of the announced pulsations.", "quantifier": "every session (fields shared or not), every series, operand, slice, filter and time step", "why_tests_cant": "sharing of fields, lengths, slices and histories of operations are unbounded; the lost or stale times only show for some orders of the calls", "anchors": ["src/fluidimage/postproc/vector_field.py: ArrayOfVectorFieldsOnGrid, VectorFieldOnGrid.__add__/__radd__/__sub__/__mul__/__rmul__/__truediv__", "src/fluidimage/postproc/util.py: compute_1dspectrum"]}
{"id": "C127", "title": "The display of vector fields draws each vector at its position", "statement": "VectorFieldOnGrid.display draws vectors of the field, each at its own position, for every step or skip; ArrayOfVectorFieldsOnGrid.display opens a figure, and after any sequence of movements of the wheel it shows the field whose time has been printed last.", "quantifier": "every field, every step and pair of slices, every series and every sequence of events", "why_tests_cant": "all the slices and all the sequences of events", "anchors": ["src/fluidimage/postproc/vector_field.py: VectorFieldOnGrid.display, ArrayOfVectorFieldsOnGrid.display"]}
{"id": "C128", "title": "The spatial Fourier transform of a field gives the coefficients of the announced wave numbers", "statement": "compute_spatial_fft(axes) of a vector field returns coefficients and wave numbers such that the field at every position of its grid is the sum of the components, for axes (0, 1), 0 and 1, and raises an error when the transform is not defined (irregular grid, other axes).", "quantifier": "every field, every grid and every value of axes", "why_tests_cant": "all the sizes (odd and even), spacings and values; the association of axes and wave numbers", "anchors": ["src/fluidimage/postproc/vector_field.py: VectorFieldOnGrid.compute_spatial_fft", "src/fluidimage/postproc/util.py: compute_1dspectrum, compute_2dspectrum"]}
{"id": "C129", "title": "Trying a treatment of images shows the images and what they become, and changes nothing", "statement": "The window opened by `display(ind)` of a preprocessing or of an image-to-image work shows on the left the images ind and ind + 1 (for a preprocessing, the first images of the subsets ind and ind + 1) and on the right what the treatment gives for these images, each one at its size, with its 1 percent brightest pixels saturated at a common value and all other pixels unchanged. Whatever the keys which are pressed, both sides show the same image, alone, and its number is in the title. The arrays given to the window are not modified.", "quantifier": "all images (integers or floats, any sizes), all percentages, all functions of images and all preprocessing tools, all layouts of the arrays in memory (views), all sequences of keys", "why_tests_cant": "the tests only open the window on one series of images and check nothing of what is drawn; sharing of memory between the images and what a user function returns, and the sequences of keys, can not be enumerated", "anchors": ["src/fluidimage/data_objects/display_pre.py: DisplayPreProc", "src/fluidimage/works/preproc/__init__.py: WorkPreproc.display, WorkPreproc.calcul", "src/fluidimage/works/image2image.py: WorkImage2Image.display"]}
{"id": "C130", "title": "A PIV result is saved at the place which is asked", "statement": "`save(path)` of a PIV result writes exactly one file, whose path is returned and which contains the result: `path` itself if it is the path of a file (.h5 or .nc), the file with the name of the result in `path` if it is a directory, and in the current directory without path. No other file is changed, what is loaded from the returned path is what has been saved with the names of its images, a result which is loaded and saved again replaces its file, the result of each pass can be saved alone like the whole result, and a light result is saved beside the result under its own name.", "quantifier": "all disks (files and directories), all results (any number of passes, any data), all names, all paths, all kinds of results", "why_tests_cant": "a test saves one result in one directory; the place depends on the kind of path, of result and of how the result has been obtained (computed from arrays, from files, loaded), and what is not changed on the disk ranges over all files", "anchors": ["src/fluidimage/data_objects/piv.py: HeavyPIVResults.save, MultipassPIVResults.save, LightPIVResults.save, HeavyPIVResults._get_name, MultipassPIVResults._get_name, LightPIVResults._get_name, MultipassPIVResults._load, make_light_result"]}
{"id": "C131", "title": "The couple of images of a file of results is the couple which has been saved", "statement": "The couple of images of a PIV result which is loaded has the names of the images, their paths and their shape, whatever characters the names contain; if the files of the images have not changed, the images which it gives are those which have been used for the computation, and the result can be displayed even if the images are not there.", "quantifier": "all tuples of texts over all Unicode characters (quotes, backslashes, control characters, unprintable characters), all couples, all masks, all contents of the image files", "why_tests_cant": "the texts are written with repr and evaluated again when they are loaded: the claim is about the composition of an escaping function and a parser for every text", "anchors": ["src/fluidimage/data_objects/piv.py: ArrayCouple.save, ArrayCouple._load, ArrayCouple.get_arrays, ArrayCouple.read_images, HeavyPIVResults.display", "src/fluidimage/util/util.py: safe_eval"]}
{"id": "C132", "title": "The analysis of an execution shows what has been executed", "statement": "`LogTopology(path)` for a directory of results analyses the log of the last execution, with the logs of all its processes: it gives the topology, the executor and the limits which have been used, the launches and the ends of the works, the duration and the memories, whatever has been printed during the execution. The line drawn by `plot_nb_workers` is at every time the number of works which are being executed.", "quantifier": "all directories of results, all sequences of executions, executors, printed lines, launches, ends and times (equal times in any order, works which do not end)", "why_tests_cant": "the tests analyse one log of one executor; the number of workers is computed with cumulated sums over sorted times, with ties and NaN", "anchors": ["src/fluidimage/topologies/log.py: DataLogFile, LogTopology, LogTopology.plot_nb_workers", "src/fluidimage/executors/base.py: ExecutorBase._init_log_path, ExecutorBase._init_compute_log, MultiExecutorBase._init_log_path"]}
{"id": "C133", "title": "A topology object can be computed several times", "statement": "Calling compute several times on the same topology object (in a notebook, after failures, with the same executor or another one) executes each time exactly the items that have to be: all the items of the series in the modes recompute and new_dir, and in the mode complete those whose result is not on the disk at that moment, each once and in the order of the series. The number of results announced at the end of a computation is the number of results of that computation.", "quantifier": "all series and sets of images, all modes of saving, all initial contents of the directory of results, all histories of computations with any executor and number of processes, with any items failing, and of removals of files", "why_tests_cant": "a test calls compute once per topology object; what a computation leaves in the topology depends on the executor, the number of processes, the mode and the content of the disk, and shows up only in later computations", "anchors": ["src/fluidimage/topologies/base.py: TopologyBase.compute, TopologyBaseFromSeries.init_series, TopologyBaseFromImages.fill_queue_paths", "src/fluidimage/executors/base.py: _init_num_expected_results, MultiExecutorBase.compute", "src/fluidimage/executors/multi_exec_async.py: _start_multiprocess_series, _start_multiprocess_first_queue", "src/fluidimage/executors/multi_exec_subproc.py: _start_processes"]}
{"id": "C134", "title": "fluidimage-monitor tells correctly whether a job runs and how long it takes", "statement": "fluidimage-monitor never fails while a job runs or ends; as long as the job runs it says so and shows the time since its start; once the job has ended it says so and shows its total duration, which is the time between the start and the end of the computation; a job whose program has been killed is not said to be running; the number of s.CPU/result is the duration shown times the number of cores over the number of results shown.", "quantifier": "all interleavings of the operations of the program which computes (including its end and its being killed), of the clock (including changes of the local time) and of the readings of the monitor, for all numbers of updates", "why_tests_cant": "what is shown depends on the moment of each reading relatively to the few operations done at the end of a job; a test can not place a reading between the opening and the writing of a file", "anchors": ["src/fluidimage/gui/monitor.py: MonitorApp.__init__, compose, update_info, load_time_max, compute_times_str, check_is_running", "src/fluidimage/executors/base.py: ExecutorBase._release_lock, _save_lock_file"]}
{"id": "C135", "title": "The viewers open the files which are asked", "statement": "Given the path of an image, fluidimviewer shows this image first and lets the user go through all the images of its directory, sorted by name; given a directory it shows the images of this directory, from the first one, and says if there is none. Given a file of vectors, fluidpivviewer shows this file first and then the files of the same series; given a directory it shows its files of vectors.", "quantifier": "all trees of files, all names of directories and files (any characters), all ways of writing a path (relative, trailing and repeated slashes), all orders of the listings", "why_tests_cant": "what is shown depends on the names of all the entries of the directory and of its neighbours, and on the order of the listings given by the system; tests open a few paths", "anchors": ["src/fluidimage/gui/imviewer.py: ImageViewer.__init__, check_image, extensions", "src/fluidimage/gui/piv_viewer.py: VectorFieldsViewer.__init__, _init_name_files"]}
{"id": "C136", "title": "The tools of the OpenCV backend do what the tools of the default backend do", "statement": "sliding_minima of the OpenCV backend subtracts from each pixel the weight times the smallest pixel of the image in the window around it; sliding_minima and sliding_median give, for the same arguments, the same images with the two backends; adaptive_threshold gives an image with two values where the pixels brighter than their neighbourhood are marked.", "quantifier": "all images (any size and depth), all weights, all sizes of windows and all documented boundary conditions, at all the pixels including the edges", "why_tests_cant": "the tests apply the tools to one small image of 8 bits and look only at the shape; the differences are at the edges and for images of more than 8 bits", "anchors": ["src/fluidimage/works/preproc/_toolbox_cv.py: sliding_median, sliding_minima, adaptive_threshold", "src/fluidimage/works/preproc/_toolbox_py.py: sliding_median, sliding_minima"]}
{"id": "C137", "title": "Tsai calibration: slices and displacements", "statement": "A slice without angles is the horizontal plane at its height and a slice with angles is the plane through its point whose normal is the vertical rotated by these angles; a point of a slice converted to a pixel and back is the same point; a displacement in pixels at the middle of the two images of a particle which moves in the slice is converted to the physical displacement of the particle, no displacement to no displacement and the opposite displacement to the opposite one.", "quantifier": "all the calibrations (rotation, translation, focal lengths, principal point, refraction, distortion), all slices and angles, all points and displacements", "why_tests_cant": "identities between rational functions of about twenty real parameters; tests compare with stored values for one camera", "anchors": ["src/fluidimage/calibration/calib_tsai.py: Calibration.pix2phys_UV, pix2phys, phys2pix"]}
{"id": "C138", "title": "The post-processing functions of the module postproc.postproc give what their names announce", "statement": "PIV_Postproc puts each vector of a file at its position in the 2D arrays, or raises an error when the vectors do not fill a grid; the derivatives along x and y, the rotational, the divergence, the kinetic energy, the norm and the spatial average are those of the fields which are given; PIV_PostProc_serie gives one field per file.", "quantifier": "every file of vectors (any grid, any order of the rows, any displacements), every choice of the steps of the grid, of the order at the edges and of the components given to the methods, every list of files", "why_tests_cant": "there is no test of this module; the arrays must be right for all grids and all fields, and a test on one grid with equal steps, or on a field which does not depend on one direction, cannot show that the two directions are exchanged", "anchors": ["src/fluidimage/postproc/postproc.py: compute_grid, compute_derivatives, PIV_Postproc, PIV_PostProc_serie", "src/fluidimage/postproc/util.py: compute_rot, compute_div"]}
{"id": "C139", "title": "Every error of a computation is recorded in its own file", "statement": "When the function of a work raises for an item (and the computation goes on), the directory of the errors of the computation has a file named after this work and this item, whose text names the work, the item and has the traceback of this error; two different errors never share a file, no file exists without an error, and recording an error never stops the computation. Processes which share the directory do not change this.", "quantifier": "every topology (names of the works), every execution (executor, schedule, set of failing items), every name of item, every interleaving of the processes which share the directory", "why_tests_cant": "Collisions of names depend on the pairs of names of works and of items; a test records one error of one work.", "anchors": ["src/fluidimage/executors/base.py: ExecutorBase.log_exception, _init_log_path", "src/fluidimage/executors/exec_sequential.py: _run_works", "src/fluidimage/executors/exec_async.py: async_run_work_io, async_run_work_cpu", "src/fluidimage/executors/exec_async_seq_for_multi.py: _init_log_path", "src/fluidimage/topologies/base.py: Work.name_no_space"]}
{"id": "C140", "title": "The thin plate splines do not depend on whether the extensions are compiled", "statement": "compute_tps_matrix gives the same matrix (bit by bit) whether fluidimage has been installed with its compiled extensions or not: one line per center with the kernel of the distance, a line of ones and the lines of the coordinates of the new positions. Positions and centers with different numbers of coordinates are refused in both cases.", "quantifier": "every set of centers and of new positions, every number of dimensions, every arithmetic of the numbers (no law is assumed), every type of the positions", "why_tests_cant": "A test runs with one installation, and compares some matrices; the equality of explicit loops and of operations on arrays holds for all sizes and values or fails only for some types.", "anchors": ["src/fluidimage/calcul/interpolate/thin_plate_spline.py: compute_tps_matrix_pythran, compute_tps_matrix_numpy, compute_tps_matrix"]}
{"id": "C141", "title": "The correlation computed on a graphics card does not depend on the order in which the card runs its threads", "statement": "The correlation method \"pycuda\", called with two windows, returns for each displacement up to the maximum one the sum of the products of the pixels over the overlap of the windows (that of the method \"pythran\" without the division by the number of pixels), whatever the order in which the graphics card runs the threads of a block and the blocks of a launch, whatever the contents of its memory before the call, and for all sizes of windows.", "quantifier": "all pairs of windows, all sizes, all maximum displacements, all orders of the threads between two barriers, all orders of the loads and stores of the blocks of each launch, all previous contents of the memory of the card", "why_tests_cant": "the order of the blocks is chosen by the card at each launch; a test sees a few of the orders, on a card which may never use the others, and a few sizes of windows", "anchors": ["src/fluidimage/calcul/correl_pycuda.py: nextpow2, correl_pycuda", "src/fluidimage/calcul/correl.cu: cucorrelate", "src/fluidimage/calcul/reduction_kernel.cu: reduce1", "src/fluidimage/calcul/correl.py: CorrelPyCuda"]}
{"id": "C142", "title": "The graph of a topology shows its queues, its works and how they are connected", "statement": "topology.make_code_graphviz(name) writes the file name (with .dot added if it is missing) and no other file; read by graphviz, this file has one node per queue and one per work, an arrow from a queue to a work if and only if the queue is an input of the work, an arrow from a work to a queue if and only if it is an output, and no other arrow; the shape, the line and the colour of an arrow tell whether the work is global, one shot and doing input/output.", "quantifier": "every topology (any queues, works, kinds and names), every name of file and every content of the directory", "why_tests_cant": "the tests call the function for the topologies of the package and do not read the file; the claim is about every graph of works and queues and every name, and the text has to be read back with the rules of graphviz (quotation, records, identifiers shared between nodes and legend)", "anchors": ["src/fluidimage/topologies/base.py: TopologyBase.make_code_graphviz, TopologyBase.add_queue, TopologyBase.add_work, Queue, QueueList, Work"]}
{"id": "C143", "title": "fluidimage-mean writes the mean at the requested place, and only there", "statement": "The command fluidimage-mean writes the mean of all the images of the serie at the path given by -o with the extension .png (by default, the directory of the images with .mean.png), for every executor, number of processes and schedule; it creates nothing else than its result directory and changes no image of the user; if the result directory exists the user is asked and their answer is respected (another free path, same path, stop); -V does nothing else than printing the version.", "quantifier": "every content of the disk, serie of images, output path, sequence of answers, executor, splitting over processes and schedule", "why_tests_cant": "The tests run the command once in a fresh directory; the claim is about all the contents of the disk, all the answers and all the schedules.", "anchors": ["src/fluidimage/topologies/mean.py: main, parse_args, TopologyMeanImage.__init__, TopologyMeanImage.final_seq_work", "src/fluidimage/topologies/base.py: prepare_path_dir_result, TopologyBaseFromImages.fill_queue_paths, TopologyBase.compute"]}
{"id": "C144", "title": "Several computations at the same time in the same directory give the same files", "statement": "Any number of computations of the same series can be launched at any times in the same result directory (for example two jobs of a cluster), each one with its own executor, number of processes and mode (recompute or complete), and some of them can be killed at any time. If the couples (PIV) or the images (image to image, BOS) have their own result files, then at any time each file which is present is the right result and nothing else has changed in the directory; if at least one of the computations reaches its end, the directory has exactly the results, as after one computation alone; and if all of them are in mode complete no file which was there at the beginning is ever changed.", "quantifier": "all series and images, failures of reading, computing and writing; all numbers of computations, executors, modes, launching times, kill times, schedules and orders of the writes of all the processes (two writes of the same file do not overlap in time)", "why_tests_cant": "the results depend on the order of the looks at the directory and of the writes of processes of independent computations, which a test cannot enumerate", "anchors": ["src/fluidimage/topologies/base.py: TopologyBaseFromSeries.init_series, TopologyBaseFromImages.fill_queue_paths, compute_indices_to_be_computed", "src/fluidimage/topologies/piv.py: TopologyPIV.compute_indices_to_be_computed, save_piv_object", "src/fluidimage/topologies/image2image.py: TopologyImage2Image.save_image", "src/fluidimage/topologies/bos.py: TopologyBOS.save_bos_object", "src/fluidimage/executors/multi_exec_async.py: MultiExecutorAsync.start_processes"]}
{"id": "C145", "title": "Preprocessed images are saved in the format that is asked, and the mode \"complete\" finds them", "statement": "For every value of params.saving.format: each preprocessed image of a result is written in one file, in the format that is asked, and no other file of the directory changes; the path that is recorded in the results is the path of a written file; after a computation in mode \"complete\" nothing remains to be computed and a second computation changes nothing. The documented values 'img' and 'hdf5' both work.", "quantifier": "all formats, all results (names and images), all sets of subsets, all contents of the result directory, all numbers of successive computations", "why_tests_cant": "The file names depend on the format and on the extensions of all the images; the mode \"complete\" depends on the whole history of the directory, and the tests use only the format \"img\".", "anchors": ["src/fluidimage/data_objects/preproc.py: PreprocResults.save, get_name_preproc", "src/fluidimage/topologies/preproc.py: TopologyPreproc.save_preproc_object, compute_indices_to_be_computed, create_default_params"]}
{"id": "C146", "title": "The example topology reads, combines and saves each image once with every executor", "statement": "For every directory of images, every multiplicator_nb_images and every nloops: the computation ends, each image is read once per repetition, and its pixels to the power (nloops + 1)² (in uint8) are saved once in a file of its own; an image which can not be read, combined or saved is reported once and changes nothing for the other images; nothing is left in the queues.", "quantifier": "all directories (names of files), all results or exceptions of the functions reading and saving, all numbers of repetitions and of loops, all schedules, limits and executors", "why_tests_cant": "The test runs one directory of four images with one repetition and one loop; the order of the works, the failures and the names of the files are arbitrary.", "anchors": ["src/fluidimage/topologies/example.py: TopologyExample, fill_names, fill_couples_names, fill_couples_arrays, read_array, save, cpu1, cpu2, func1_for_partial, func2_for_partial"]}
{"id": "C147", "title": "The directory of the sample images exists and is complete", "statement": "get_path_image_samples() gives the path of a directory which exists and contains the sample images: the first directory of samples which exists, in a fixed order (development installation, home, directories of continuous integrations), without writing anything; otherwise the samples are downloaded once in the directory of the data of the user, and all later calls give this directory without downloading again. A download which failed is tried again by the next call; an interrupted download does not prevent the next calls from giving the samples; the directory of the user does not depend on the current directory. Nothing outside of the directory of the download is created or removed.", "quantifier": "for all sets of existing files, environments, platforms, available programs, contents of the repository, ends of each download (complete, failed, killed with any files written) and sequences of calls", "why_tests_cant": "the tests run in a development installation, where nothing is downloaded; the failures depend on the instant at which an earlier download was killed", "anchors": ["src/fluidimage/__init__.py: get_path_image_samples, _get_user_data_dir"]}
{"id": "C148", "title": "Preprocessing tools on series of images and on colour images", "statement": "A preprocessing tool of images gives, for a series of images (array of 3 dimensions, list or tuple), the array of what it gives for each image alone, in the same order; an image refused by the tool makes the call fail with the exception of the first such image, and images of different sizes are refused with ValueError. A temporal filter gives for a list (tuple) the list (tuple) of the images it gives for the array of these images. The type of the numbers does not depend on the way in which an image is given. A colour image is treated colour by colour: a region with one colour is treated as it would be in each colour.", "quantifier": "for all tools, numbers, sizes, types and contents of the images, containers, windows and colours", "why_tests_cant": "the tests call the tools with one grey image or an array of grey images of one size and check that there is no exception", "anchors": ["src/fluidimage/works/preproc/io.py: iterate_multiple_imgs, multiple_imgs_as_ndarray, _get_array_like_type, _replace_img_arg", "src/fluidimage/works/preproc/_toolbox_py.py: sliding_minima, temporal_median, global_threshold"]}
{"id": "C149", "title": "The parameters of the preprocessing tools are those of the functions, and are used as the user set them", "statement": "create_default_params gives, for each tool of the backend, the arguments of the function with their default values, and no enabled tool. Whatever is done before and with other parameter objects, preprocessing an image calls exactly the enabled tools, in the asked order, each one with the last value given to each of its parameters, or the default value of the function. An unknown parameter or tool is refused with AttributeError without any effect. Enabling a tool and changing nothing else is calling the tool with the image. Two parameter objects are independent of each other. A subclass of the class of the tools can apply the tools.", "quantifier": "for all backends (functions, signatures, default values), histories of creations of parameters and of changes of parameters of any of the objects, images and tools", "why_tests_cant": "the tests create one object of parameters, enable the tools one by one, and never modify the list of available tools or derive a class", "anchors": ["src/fluidimage/works/preproc/toolbox.py: PreprocToolsBase.create_default_params, PreprocToolsBase._complete_class_with_tools, PreprocToolsBase.apply, PreprocToolsPy"]}
{"id": "C150", "title": "A direct calibration can be saved, loaded and checked", "statement": "A calibration saved with CalibDirect.save and loaded with CalibDirect(path_file=...) gives the optical paths, the plane of the camera and the figures of the calibration which was saved, whatever is saved elsewhere in between. The figures of check_interp_levels, check_interp_lines and check_interp_lines_coeffs show, for a regular set of at least `number` pixels in each direction covering the whole image, the coordinates interpolated from the files, a part of the optical path of the pixel and its coefficients; they can be made for every image and every calibration which has been computed. The plane of the camera is computed with the pixels of the middle of the image.", "quantifier": "every object, path, content of the disk and sequence of calls of save, every size of image, every number of samples, every calibration computed from any files with any linear interpolation and singular value decomposition", "why_tests_cant": "the tests save one calibration under one name ending with the extension of numpy, for one large image, and only call the checks with one number; the property is about all names, sizes and numbers", "anchors": ["src/fluidimage/calibration/calib_direct.py: CalibDirect.__init__, save, load, get_base_camera_plane, check_interp_levels, check_interp_lines, check_interp_lines_coeffs"]}
{"id": "C151", "title": "The parameters of a Tsai calibration are those of the UVMAT file", "statement": "Calibration(path_file) has the focal lengths, centre, distortion, translation, rotation matrix, interface, refraction index and slices (point and angles of each of them) which are written in the calibration file of UVMAT, and can use each slice of the file; the elements which UVMAT does not write for some types of calibration get default values.", "quantifier": "all numbers, all numbers of slices, with or without angles, interface and refraction, all files", "why_tests_cant": "the test reads one file, with eleven tilted slices; the property is about all the files, in particular those with one slice, without slices, without angles or without some of the elements", "anchors": ["src/fluidimage/calibration/util.py: get_number_from_string, make_params_calibration", "src/fluidimage/calibration/calib_tsai.py: Calibration.__init__, Calibration.pix2phys"]}
{"id": "C152", "title": "The launcher window shows and runs the topology chosen last", "statement": "After any sequence of actions of the user in the window of fluidimage-launcher (choices in the menu Topologies, modifications of the parameters, openings of files), the window shows the parameters of the topology chosen last only, with the modifications done since this choice, and these are the topology and the parameters which are run; the parameters of a file opened with the menu File are shown.", "quantifier": "all sequences of actions, all parameters, all files", "why_tests_cant": "the test chooses each topology once; the property is about all the histories of the window", "anchors": ["src/fluidimage/gui/launcher/main.py: Program.__init__, Program.open_file, Program.init_topo", "src/fluidimage/gui/launcher/mainwindow.py: Ui_MainWindow.setupUi"]}
{"id": "C153", "title": "The works of a topology are executed as their kinds announce", "statement": "A work added to a topology with add_work is executed as its kind announces, with all the executors: once, before the others, in the order of the additions, for \"one shot\"; with its queues, each time that an input queue has an item, for \"global\"; for each item otherwise, in the class of the inputs and outputs for \"io\"; with the argument (key, value) for \"eat key value\".", "quantifier": "all kinds (none, texts, sequences), all lists of works, all functions, all queues, all executors", "why_tests_cant": "the tests use the topologies of the package, with their kinds and their methods; the property is about all the topologies which a user can write", "anchors": ["src/fluidimage/topologies/base.py: Work.__init__, Work.prepare_argument", "src/fluidimage/executors/base.py: ExecutorBase.__init__, exec_one_shot_works", "src/fluidimage/executors/exec_sequential.py: _run_works", "src/fluidimage/executors/exec_async.py: define_functions"]}
{"id": "C154", "title": "The utility functions do what they document", "statement": "fluidimage.util.imread returns the image, and when it cannot be read raises an exception of the class of the error which tells the file and the reason; is_memory_full is true when more than 90 % of the memory is used and less than 500 MB are available, and false otherwise; str_short gives a text for every object; cstring gives the texts separated by spaces in the colour.", "quantifier": "all files, all exceptions, all states of the memory, all objects, all texts and colours", "why_tests_cant": "the tests call the functions once, without looking at their results; the property is about all the errors, states of the memory and objects", "anchors": ["src/fluidimage/util/util.py: imread, is_memory_full, str_short, cstring"]}
{"id": "C155", "title": "The text at the end of a computation gives the number of results and their mean duration", "statement": "When a computation ends, the text which is printed gives its duration, the number of results of the topology, the mean duration of one result and the directory of the results; for a PIV computation it gives moreover the mean time of CPU of one field, i.e. the duration multiplied by the number of cores which could compute at the same time, divided by the number of fields. The numbers are rounded to the nearest hundredth. When no result has been saved, only the duration and the directory are given.", "quantifier": "for every duration, number of results, directory, number of cores, executor, number of workers asked (argument, configuration file or default) and number of processes started", "why_tests_cant": "the tests never look at this text; the number of cores used depends on the machine, the configuration file and the executor, and the rounding has to be right for every duration", "anchors": ["src/fluidimage/topologies/base.py: TopologyBase.make_text_at_exit, print_at_exit", "src/fluidimage/topologies/piv.py: TopologyPIV.make_text_at_exit", "src/fluidimage/topologies/bos.py: TopologyBOS.make_text_at_exit", "src/fluidimage/executors/base.py: ExecutorBase.__init__, MultiExecutorBase.compute", "src/fluidimage/executors/exec_sequential.py: ExecutorSequential._init_compute_log"]}
{"id": "C156", "title": "fluidimviewer-pg shows the images of the command and the intensity under the mouse", "statement": "fluidimviewer-pg opens every image of the command in its own dock, in the order of the command and with the name of its file as title (also when several files have the same name), or with the option -s as a slideshow whose frames are the images in this order; an image is shown with its columns horizontally. When the mouse is over an image, its position and the intensity of the pixel under it are displayed; outside of the images nothing is displayed. A directory is refused with ValueError.", "quantifier": "for every list of paths (repeated names included), every content of the images, every size and every position of the mouse", "why_tests_cant": "the tests of this viewer are commented out in the repository; what is shown depends on the order and the names of all the files, on the sizes, and on the position of the mouse, in particular at the borders of the images", "anchors": ["src/fluidimage/gui/pg_main.py: dock, slideshow, main", "src/fluidimage/gui/pg_wrapper.py: PGWrapper._add_dock, _win, view, _add_crosshair"]}
{"id": "C157", "title": "The figures of an execution show the durations of its works and the memory it used", "statement": "LogTopology(path).plot_durations() draws, for every name of work of the execution, one point (time of the launch, duration) and one segment from the start to the end per launch, nothing for a work which has not ended, and a line at the mean of the durations from the first launch to the last one. plot_memory() draws the memory at each launch as a line versus time, with a cross for the start of the execution and one for its end, if it has ended.", "quantifier": "for every list of launches and ends in the logs (any names, keys, times and durations, works which have not ended included), every log of an execution which has ended or has been killed, with one or several processes", "why_tests_cant": "the test calls the functions on one log without looking at the figures; the property is about all the logs, in particular those of killed executions, of repeated keys and of several processes", "anchors": ["src/fluidimage/topologies/log.py: LogTopology.plot_durations, LogTopology.plot_memory, LogTopology.__init__"]}
{"id": "C158", "title": "The reference of a BOS computation is the file which is asked, and it is not computed", "statement": "params.reference of a BOS computation is the absolute path of a file, the name of a file of the directory of the images, or the index of an image in the sorted list of the names: the reference image is this file, whatever the current directory is, in the main process as in the other ones; another value is refused with ValueError (IndexError for an index out of bounds). When the reference is one of the images of the serie, all the selected images are computed except this one.", "quantifier": "for every content of the disk, current directory, directory of the user, directory of images, list of names, reference and selection of images", "why_tests_cant": "the tests use one index from one directory; what is read depends on the files of the current directory and on how the path is written", "anchors": ["src/fluidimage/works/bos.py: WorkBOS._init_path_reference, init_from_input", "src/fluidimage/topologies/bos.py: SplitterBos, TopologyBOS._fix_indices_images"]}
{"id": "C159", "title": "fluidimage-monitor shows the parameters of the job with their documentation", "statement": "fluidimage-monitor shows, for any job directory, every container of the parameters of the job at its place in the tree, with the values of the job (not the default ones) and its sub-containers, and nothing else. Selecting a container shows the documentation which the default parameters of the topology of the job give for it, and selecting a value leaves the documentation unchanged.", "quantifier": "all trees of parameters of a job, all trees of default parameters, all sequences of selections", "why_tests_cant": "The trees have any depth and width, and the parameters of a saved job need not have the containers of the default parameters of the installed version; a test opens the monitor on one job of the same version.", "anchors": ["src/fluidimage/gui/monitor.py: build_branch, copy_doc, MonitorApp.__init__, MonitorApp.compose, MonitorApp.on_tree_node_selected"]}
{"id": "C160", "title": "The window of a PIV result shows its two images, one at a time, without modifying them", "statement": "Displaying a PIV result with its two images shows the first image alone, each image having its own pixels saturated at the chosen percentile, at their places in pixels; the images given by the caller are not modified, even if they share their memory. After any sequence of keys exactly one image is seen, its number is in the title, and alt+s on the image changes it.", "quantifier": "all images (sizes, types, arrays sharing memory), percentages, limits, sequences of key events inside and outside the image", "why_tests_cant": "The window is interactive: the images seen depend on the history of the keys, and the absence of modification is about every image and every way in which arrays share their memory.", "anchors": ["src/fluidimage/data_objects/display_piv.py: DisplayPIV.__init__, DisplayPIV.onclick, DisplayPIV.switch"]}
