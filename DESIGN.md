# Formal model of fluidimage in Lean 4: design

This file is assembled by `tools/design.py` from `tools/design_head.md` (hand-written) and from
`properties.jsonl`, `MANIFEST.json` and the Lean sources (tables).

## Layout

* `lean/Verif/Py/…`      – small library of Python notions used by the models (insertion-ordered dictionaries,
  `range`, slices, exceptions, decimal text of integers, `split`, `strip`…).
* `lean/Verif/Model/…`   – the model, function by function; every definition cites the file and lines of
  `/repo/src/fluidimage` it models and says where it simplifies.
* `lean/Verif/Spec/…`    – small specifications written without the helpers of the model (the other specifications
  are stated directly in the statement of the theorems or just above them in `Props/`).
* `lean/Verif/Exec/…`    – the theory of the executors (see below).
* `lean/Verif/Lemmas/…`  – helper lemmas.
* `lean/Verif/Props/…`   – the property theorems, named `Cxx_…`, one file per area, each with non-vacuity examples.
* `seeded/LOG.jsonl`     – the wrong programs tried against the theorems.
* `tools/`               – `design.py` (this file), `axioms.sh` (audit of the axioms).

Technique: shallow embedding.  Python functions are total computable Lean functions, exceptions are values
(`Except PyErr α`), loops are structural recursions or folds with the same order of effects as the code, objects with
history (queues, directories, lock files, executors, servers) are state machines.  Loops of the code that may not
terminate are modelled by relations or by functions with a number of rounds (`Option`), and "terminates" is then a
theorem and never a consequence of the encoding.

When the code violates the English property, the negation is proved with a concrete reachable witness or, better, for
all inputs of a class (suffix `_fails` or a telling name), the strongest true part is proved (`_partial` when it is
less than the property), and the disagreement is in the table below.  The statements of `properties.jsonl` are not
weakened to follow the code.

### The executors

`Model/Executor.lean` gives one notion of topology (`Topology`: item works with input queue, output queue and kind; global
works which transform all the queues) and the three executors that run it: `seqLoop` (exec_sequential.py), the labelled
transition system `astep` of `exec_async.py` and `exec_async_sequential.py` (pending `start_soon` tasks, running tasks,
counters of workers, launchers in their `while not self._has_to_stop` loops, stop flag, bounded queues).  A run is any
list of labels (`ARun`), so that a theorem about all runs is a theorem about all schedules.

* `Contract`, `Preserve`, `NoCrash`: a global work has a contract (invariant `J : queues → log → Prop`); an invariant of the
  works is an invariant of the executor for all schedules, with no crash of the launchers.
* `Flow`, `Bounds`, `Chain`, `ChainRun`: conservation ("effects done + effects due = constant") for chains of works.
* `Live`, `Labels`, `CanFinish`: absence of deadlock, fair termination (every infinite fair run would decrease a measure).
* `Groups`, `GroupMake`, `GroupDict`, `GroupRun`, `GroupEnd`, `GroupLive`, `GroupStuck`, `Windows`: topologies with a global
  work which groups images (PIV couples, preprocessing subsets) and, for the termination, the windows of images.
* `Tracking`, `TrackStep`, `TrackRun`, `TrackEnd`, `TrackTrap`: the global work of the surface tracking topology.
* `StopIfError`: runs with `stop_if_error`.
* `Trap`: a set of states that no label leaves and in which the run has not ended; used for all the "never ends" theorems.

## Trusted base

* The Lean 4.33.0 kernel.
* The axioms `propext`, `Classical.choice`, `Quot.sound` and no other: `tools/axioms.sh` prints the axioms of every theorem
  of `MANIFEST.json`; the result is the last table of this file.  No axiom is declared, there is no `sorry`, `native_decide`, `bv_decide`
  or `implemented_by` in the sources.
* The faithfulness of the model to the Python text: the code is read, not executed here.
* The behaviour of Python and of the libraries, as described in the comments of the models: insertion order of
  dictionaries, `range`, slices, `str(int)`, `np.arange`, `np.unique`, `np.lexsort`, `np.allclose`, negative indices of numpy
  arrays, `scipy.ndimage` border modes and rank filters, trio's cooperative scheduling (a task runs without interruption
  between two `await`), h5py's alphabetical order of groups and refusal of existing names, `fluiddyn`'s series of images.
* Numbers: floating-point numbers are idealised as integers, rationals, reals or elements of an arbitrary linear order
  with NaN as `none`, as said in each model.  Rounding is a parameter (`rnd`, `r32`: any function, or any monotone
  rounding) in `Mean`, `CorrectCouple`, `PivResults`; elsewhere it is not modelled.
* Discrete Fourier transforms of the libraries are modelled by the definition (finite sums over ℂ).

## What is modelled and what is not

Modelled: the files in the table of models below, for the lines cited in each definition.

Not modelled: the GUIs (`gui/*`, `data_objects/display_*.py`), plots, the theano / pycuda / skcuda correlations,
`logging` output, the parsing of XML parameters by fluiddyn, real time, memory in bytes and operating-system
scheduling; the numerical quality of interpolations, fits, FFTs and OpenCV routines (they are parameters of the
models: arbitrary functions, with hypotheses written in the theorems when one is needed).

### Models

| model | code | first lines of the model |
|---|---|---|
| `ApplyInterp` | calcul/interpolate/griddata.py, works/piv/singlepass.py | Model of the interpolation of PIV results on the grid of a pass `/repo/src/fluidimage/works/piv/singlepass.py` 409-563 (`BaseWorkPIV.apply_interp`) and `/repo/src/fluidimage/calcul/interpolate/griddata.py` 11-27. Simplifications. Numbers are rationals (`none` is NaN in a displacement). The arrays of a result have the same length: a result is a list of vectors. The change of coordinates of the mask is a translation … |
| `Bos` | topologies/base.py, topologies/bos.py, works/bos.py | Model of the topology for BOS (background oriented schlieren) `/repo/src/fluidimage/topologies/bos.py`, `/repo/src/fluidimage/topologies/base.py:597-658`, `/repo/src/fluidimage/works/bos.py:58-76`. |
| `BosReference` | topologies/bos.py, works/bos.py | Model of the choice of the reference of a BOS computation (`params.reference`) `/repo/src/fluidimage/works/bos.py:51-76` (`init_from_input`, `_init_path_reference`), `/repo/src/fluidimage/topologies/bos.py:22-33` (`SplitterBos`) and 170-189 (`_fix_indices_images`). A path of `pathlib` is a list of parts with a mark for the absolute paths; links and ".." are not followed. The class of the series is in fluiddyn, not … |
| `Brightness` | works/preproc/_toolbox_py.py | Model of the brightness and contrast tools `/repo/src/fluidimage/works/preproc/_toolbox_py.py` 292-328 (`adaptive_threshold`, `rescale_intensity`), 358-490 (`equalize_hist_*`, `gamma_correction`, `sharpen`), for one image. An image is the list of its pixels (real numbers). The functions of scikit-image are represented as follows: `exposure.rescale_intensity(img, out_range=(a, b))` with its default `in_range="image"` … |
| `Builder` | config.py, executors/base.py, topologies/base.py, util/log.py | Model of the creation of topologies, of the configuration file, of the logger and of the default limits `/repo/src/fluidimage/topologies/base.py:107-151` (`Work.__init__`), 300-334 (`add_queue`, `add_work`), `/repo/src/fluidimage/config.py`, `/repo/src/fluidimage/util/log.py:29-32`, `/repo/src/fluidimage/executors/base.py:150-180`. |
| `CalibCamera` | calibration/calib_cv.py, reconstruct/tomo/mlos.py | The calibration of a camera with OpenCV: file of the calibration and pose at a height `/repo/src/fluidimage/calibration/calib_cv.py` 196-239 (`CalibCV.__init__`, `save`, `get_rotation`, `get_translate`), 240-297 (`calibrate`); `/repo/src/fluidimage/reconstruct/tomo/mlos.py` 167-187 (`phys2pix`). `cv2.calibrateCamera` and `cv2.projectPoints` are parameters. Real numbers instead of floats; `none` is NaN. |
| `Calibration` | calibration/calib2d_simple.py | Model of the calibrations `/repo/src/fluidimage/calibration/calib2d_simple.py` (all), `calib_tsai.py` 39-216, `util.py` 17-65. Real numbers instead of floats. What numpy gives as `inf` or `nan` (divisions by zero) is the error `notFinite`. |
| `Chain` | topologies/base.py, topologies/bos.py, topologies/image2image.py | Topologies made of a chain of works |
| `Complete` | topologies/base.py, topologies/piv.py, topologies/preproc.py | Mode "complete": which items have to be computed Models `compute_indices_to_be_computed` of * `/repo/src/fluidimage/topologies/base.py:600-612` (topologies from images: Image2Image, BOS, surface tracking), * `/repo/src/fluidimage/topologies/piv.py:166-173` (PIV, optical flow), * `/repo/src/fluidimage/topologies/preproc.py:267-281` (preprocessing), which all have the same form: loop over the items of the serie(s), … |
| `Compute` | executors/exec_sequential.py | Model of the `compute` methods, around the loops over the works `/repo/src/fluidimage/executors/exec_sequential.py:18-25, 82-85`, `exec_async.py:85-97`, `base.py:210-217, 286-299, 482-489`. |
| `ComputeAgain` | executors/base.py, executors/multi_exec_async.py, executors/multi_exec_subproc.py, topologies/base.py, topologies/piv.py | Model of a topology object which is computed several times * `/repo/src/fluidimage/topologies/base.py:336-399` (`TopologyBase.compute`: a new executor each time, the same topology), 549-581 (`init_series`), 600-650 (`compute_indices_to_be_computed`, `fill_queue_paths`); * `/repo/src/fluidimage/executors/base.py:209-217, 345-378` (`_init_compute`, the number of expected results), 388-410 (the results which are … |
| `CorrectCouple` | works/surface_tracking.py | Model of the correction of a couple of phase maps `/repo/src/fluidimage/works/surface_tracking.py:670-681` `correctcouple`. |
| `Correl` | calcul/correl.py | Model of the correlation: search of the peaks `/repo/src/fluidimage/calcul/correl.py`: 64-65, 88-164, 187-281 (`CorrelBase`), 388-409 (`CorrelPythran`), 459-483 (`CorrelScipySignal`), 503-504 (`CorrelScipyNdimage`), 518-568 (`CorrelFFTBase`), 596-636 (`_like_fftshift`). A float is a rational number or NaN (`none`); infinite values and rounding errors are not modelled. |
| `CorrelCuda` | calcul/correl.py, calcul/correl_pycuda.py | Model of the correlation computed with CUDA `/repo/src/fluidimage/calcul/correl_pycuda.py` (19-311 `nextpow2`, `correl_pycuda`), the two kernels `/repo/src/fluidimage/calcul/correl.cu` (`cucorrelate`) and `/repo/src/fluidimage/calcul/reduction_kernel.cu` (19-46 `reduce1`), and `/repo/src/fluidimage/calcul/correl.py` 416-451 `CorrelPyCuda`. The threads of the graphics card run in any order: the order is an argument … |
| `CorrelDirect` | calcul/correl.py | Model of the direct correlation `/repo/src/fluidimage/calcul/correl.py`: 284-380 `correl_numpy` and 383-413 `CorrelPythran`. Numbers are rationals (the code uses `float32`). The norm (308), which is a square root, is not modelled. `IndexError` models a read outside of an array: this is the behaviour in Python; the function compiled by Pythran reads the memory after the array. |
| `CorrelFft` | calcul/correl.py, calcul/fft.py | Model of the correlations with FFT `/repo/src/fluidimage/calcul/fft.py`: 72-90 (`_compute_energy_from_fourier`), 100-121 (`OperatorFFTBase`), 236-244 (`FFTW2DReal2Complex`), 257-269 (`NumpyFFT2DReal2Complex`); `/repo/src/fluidimage/calcul/correl.py`: 648-685 (`__call__` of the classes). Real and complex numbers instead of floats. The libraries (numpy, fftw) are modelled by the definitions of their transforms. An … |
| `CorrelScipy` | calcul/correl.py | Model of the correlations with scipy `/repo/src/fluidimage/calcul/correl.py`: 454-495 (`CorrelScipySignal`), 498-510 (`CorrelScipyNdimage`), 571-593 (`_norm_images`). Rational numbers instead of floats. The functions of scipy are modelled from their documentation and their C code: `scipy.signal.correlate2d` (the output of mode "same" starts at `(m - 1) // 2` pixels before the window, `m` being the size of the second … |
| `CoupleFile` | data_objects/piv.py, util/util.py | Model of the couple of images which is written in a file of results `/repo/src/fluidimage/data_objects/piv.py` 127-135, 162-166 (`read_images`, `get_arrays`), 168-204 (`ArrayCouple.save`, `_load`), 320-340 (`HeavyPIVResults.get_images`, `display`), `/repo/src/fluidimage/util/util.py` 130-135 (`safe_eval`). The names and the paths are written as texts with `repr` and read with the evaluator of simpleeval. `repr` of a … |
| `Dft` |  | Discrete Fourier transforms of NumPy Definitions given in the documentation of `numpy.fft` (the algorithm of the fast transform and the rounding of floats are not modelled). |
| `DirectCalib` | calibration/calib_direct.py | Model of the determination of the optical paths of the pixels `/repo/src/fluidimage/calibration/calib_direct.py` 43-252 (`get_points`, `CalibDirect.compute_interpolents`, `compute_interpolents_pixel2line`, `pixel2line`). Simplifications. Real numbers instead of floats, `none` for NaN. The functions of the libraries are arguments: the linear interpolation of `scipy` (`LinearNDInterpolator` and `griddata`) and the … |
| `DirectFiles` | calibration/calib_direct.py | Model of the files and of the checks of a direct calibration `/repo/src/fluidimage/calibration/calib_direct.py`: 91-103 (`CalibDirect.__init__`), 254-270 (`save`, `load`), 299-309 (`get_base_camera_plane` with the default pixels), 311-403 (`check_interp_levels`, `check_interp_lines`, `check_interp_lines_coeffs`). Simplifications. Real numbers instead of floats, `none` for NaN. The object is what its methods read: … |
| `DisplayPiv` | data_objects/display_piv.py, data_objects/piv.py | Model of the window which displays the result of a PIV computation `/repo/src/fluidimage/data_objects/display_piv.py` 32-436 (`DisplayPIV`), `/repo/src/fluidimage/data_objects/piv.py` 320-350 (`HeavyPIVResults.display`). Modelled: which arrays are drawn, the arrows, what the constructor changes in the result, the arrows of the removed vectors, and what is shown when an arrow is picked (text and marks on the map of … |
| `DisplayPivHist` | data_objects/display_piv.py | Model of the histograms of the displacements in the window of a PIV result `/repo/src/fluidimage/data_objects/display_piv.py` 217-238 (`hist=True`). Not modelled: infinite displacements, the bins (matplotlib), and the histogram of the correlations. |
| `DisplayPivImages` | data_objects/display_piv.py | Model of the images in the window of a PIV result `/repo/src/fluidimage/data_objects/display_piv.py` 70-128 (the images in the constructor of `DisplayPIV`), 247-254 (`onclick`) and 437-447 (`switch`). The memory, the arrays, `np.percentile` and the pictures are those of `Verif.Model.DisplayPre`. The arrows are in `Verif.Model.DisplayPiv`. Not modelled: the colours of matplotlib, nan, and the limits chosen by … |
| `DisplayPre` | data_objects/display_pre.py, works/image2image.py, works/preproc/__init__.py | Model of the window in which a treatment of images is tried `/repo/src/fluidimage/data_objects/display_pre.py` 14-165 (`DisplayPreProc`), `/repo/src/fluidimage/works/preproc/__init__.py` 100-121 (`WorkPreproc.calcul` for a serie), 123-138 (`_make_dict_to_save`), 140-160 (`WorkPreproc.display`), `/repo/src/fluidimage/works/image2image.py` 86-103 (`WorkImage2Image.calcul` and `display`). The arrays are in a memory, … |
| `Distribution` | executors/multi_exec_async.py, executors/multi_exec_subproc.py, topologies/splitters.py | Distribution of a computation over processes `topologies/splitters.py`, `executors/multi_exec_subproc.py`, `executors/multi_exec_async.py`. A started process is represented by what it receives, paired with its number (`index_process`). |
| `ExampleTopology` | topologies/example.py | The example topology: every image is combined with itself and saved (`/repo/src/fluidimage/topologies/example.py`) |
| `ExceptionFiles` | executors/base.py, topologies/base.py, topologies/piv.py | Model of the files in which the errors of a computation are recorded `/repo/src/fluidimage/executors/base.py` 320-344 (`ExecutorBase.log_exception`), called by `exec_sequential.py` 62, `exec_async.py` 247, 300, `exec_async_sequential.py` 67 and `exec_async_multiproc.py` 125. The directory is `path_dir_exceptions` (base.py 101; for the processes of `multi_exec_async`, `exec_async_seq_for_multi.py` 73-74: the one of … |
| `Executor` | executors/exec_async.py, executors/exec_sequential.py, topologies/base.py | Model of the executors: works, queues, sequential and asynchronous execution Types: `κ` keys of the items, `α` values, `ε` Python exceptions raised by the functions of the works, `σ` state of the topology held outside of the dictionaries (`QueueList`, class `TopologyMeanImage`). An item of a queue is `Except ε α`: a Python value, or an exception object stored in the queue in place of the result … |
| `ExitText` | topologies/base.py | Model of the text printed at the end of a computation `/repo/src/fluidimage/topologies/base.py:401-419` (`make_text_at_exit`, `print_at_exit`), `topologies/bos.py:191-205`, `topologies/piv.py:235-255`; attributes `nb_max_workers` and `nb_processes` of the executors: `executors/base.py:158-176, 466, 508`, `exec_sequential.py:78-80`. Simplifications: a duration is a rational number which is not negative; the quotients … |
| `FieldOps` | postproc/util.py, postproc/vector_field.py | Model of the derivatives, filters and files of the vector fields `/repo/src/fluidimage/postproc/vector_field.py`: 177-265 (`save`, `from_file` for the files made by `save`), 408-467 (`median_filter`, `gaussian_filter`), 560-578 (`compute_rotz`, `compute_divh`), 752-770 (`apply_function_to_spatiotemp_data`), and `/repo/src/fluidimage/postproc/util.py`: 70-77. The values are exact (rationals for the derivatives, any … |
| `FieldSeries` | postproc/util.py, postproc/vector_field.py | Model of the series of vector fields and of their display `/repo/src/fluidimage/postproc/vector_field.py`: 270-327 (dispatch of the operators of Python), 329-405 (`display`), 541-560 (`compute_spatial_fft`), 606-813 (`ArrayOfVectorFieldsOnGrid`), with `/repo/src/fluidimage/postproc/util.py` 80-185 (spectra). The fields are objects in a heap (list of fields, an object is its index), so that a field which is in … |
| `Fix` | works/piv/fix.py | Model of the work removing the false vectors `/repo/src/fluidimage/works/piv/fix.py`: 66-243 `WorkFIX.calcul`. Simplifications: numbers are rationals and NaN is `none`; the two dictionaries `deltaxs_wrong` and `deltays_wrong` always have the same keys and are one dictionary of couples; an explanation is a list of reasons instead of a text; a square root is compared through its square; the arrays have `n0 * n1` … |
| `Graphviz` | topologies/base.py | Model of the graph of a topology `/repo/src/fluidimage/topologies/base.py:421-535` (`TopologyBase.make_code_graphviz`): the text of the file ".dot" given to graphviz. Strings are lists of characters. |
| `GridFinal` | postproc/util.py | Model of the reshaping of flat vectors on a 2D grid `/repo/src/fluidimage/postproc/util.py`: 20-44 (`get_grid_from_ivecs_final`), 47-67 (`reshape_on_grid_final`). Coordinates are rationals (the code only compares them and takes the sign of differences; no NaN). |
| `Groups` | data_objects/piv.py, data_objects/preproc.py, topologies/base.py, topologies/piv.py, topologies/preproc.py | Topologies making groups of images: PIV (couples) and preprocessing (subsets) Queues (numbers of the model): `0` groups of names, `1` paths, ..., `p + 1` images ready to be used (the queue "arrays", or "arrays1" when there is an image-to-image work), `p + 2` groups of arrays, ..., the input of the last work. `p` is the number of works applied to each image ("read array", and "image2image" when it is used). |
| `Im2Im` | image2image.py, topologies/image2image.py, works/__init__.py, works/image2image.py | Model of the user-defined "image to image" functions `/repo/src/fluidimage/works/image2image.py`, `/repo/src/fluidimage/image2image.py:73-110` (`apply_im2im_filter`), `/repo/src/fluidimage/works/__init__.py:184-232` (`BaseWorkFromImage`), `/repo/src/fluidimage/topologies/image2image.py`, and the way the other topologies call these functions (`topologies/base.py:173-177`, `topologies/bos.py:36-38, 117-141`). |
| `ImageSamples` | __init__.py | Model of `fluidimage.get_path_image_samples` `/repo/src/fluidimage/__init__.py` 44-101 (`_get_user_data_dir`, `get_path_image_samples`). The files are the set of the absolute paths which exist (lists of names); there are no links, and ".." is interpreted only in the path of the package (62). `hg clone` and `git clone` are programs which refuse a directory which is not empty and otherwise write the content of the … |
| `IndicesFiles` | topologies/base.py, topologies/splitters.py | Index files: `SplitterCompleteAware.save_indices_files` and their readers |
| `JobDir` | executors/base.py | Model of the job directories and lock files of the executors `/repo/src/fluidimage/executors/base.py:85-102` (`_init_log_path`), 244-278 (`_save_lock_file`, `_release_lock`, `_save_job_data`), 472-476 (`_init_log_path` of the multi-process executors; the executors based on servers have the same method, `exec_async_servers.py:48-52`). Paths are relative to the result directory, which exists. Only directories, lock … |
| `LaterPass` | works/piv/singlepass.py | Model of a PIV pass with displaced windows `/repo/src/fluidimage/works/piv/singlepass.py` 733-785 (`WorkPIVFromDisplacement.calcul`), with the FFT correlations (`Model/CorrelFft.lean`), the search of the peaks (`Model/Correl.lean`), the sub-pixel methods (`Model/Subpix.lean`), the windows (`Model/PivGrid.lean`) and the loop over the vectors (`Model/LoopVectors.lean`). Simplifications. The two windows have the same … |
| `Launch` | run_from_xml.py, topologies/launcher.py | Model of the launchers of the topologies and of the execution of a parameter file `/repo/src/fluidimage/topologies/launcher.py`, `/repo/src/fluidimage/run_from_xml.py`, with the signatures of `topologies/piv.py:80`, `topologies/preproc.py:170-172` and `topologies/base.py:336-344`. The values are of any type. `ParamContainer` (package fluiddyn) is represented by lists of attributes: an attribute which does not exist … |
| `LauncherWindow` | gui/launcher/main.py, gui/launcher/mainwindow.py | Model of the window which launches the topologies `/repo/src/fluidimage/gui/launcher/main.py` 30-97 (class `Program`) and `/repo/src/fluidimage/gui/launcher/mainwindow.py` 57-94 (`setupUi`: the layout is empty and the menu "Topologies" has no entry). Qt and the class `QtParamContainer` of fluiddyn are represented by what is used: a page is a widget which holds the parameters of a topology; a layout is a list of … |
| `LogDurations` | topologies/log.py | Model of two figures of the analysis of an execution: the durations of the works and the memory `/repo/src/fluidimage/topologies/log.py` 219-237 (`plot_memory`) and 239-263 (`plot_durations`). A figure is what is given to `ax.plot`; NaN is `none` (matplotlib does not draw a point with a coordinate NaN). Not modelled: the titles, the names of the axes, the colours, the legend and the rounding of the floats. |
| `LogFile` | executors/base.py, topologies/base.py, topologies/log.py, util/util.py | Model of the log files: lines written by the executors, and their analysis Writing: `/repo/src/fluidimage/executors/base.py` 301-307, `exec_sequential.py` 48-70, `exec_async.py` 137-150, 235-255, 288-308, `exec_async_multiproc.py` 67-71, 129-132, `servers.py` 251-274, `/repo/src/fluidimage/util/util.py` 70-90, and `/repo/src/fluidimage/topologies/base.py` 144 (`name_no_space`). Reading: … |
| `LogPlot` | executors/base.py, topologies/log.py | Model of the analysis of an execution: which log is read, its header, and the number of workers `/repo/src/fluidimage/topologies/log.py` 28-124 (`DataLogFile`, with the header 50-69), 127-221 (`LogTopology.__init__`), 263-313 (`plot_nb_workers`); writing of the header: `/repo/src/fluidimage/executors/base.py` 219-231 (`_init_compute_log`). The lines which are not those of the header are in `Model/LogFile.lean`. Not … |
| `LoopVectors` | calcul/correl.py, calcul/subpix.py, works/piv/singlepass.py | Model of the loop over the vectors of a PIV pass `/repo/src/fluidimage/works/piv/singlepass.py`: 262-361 `_loop_vectors`, and `/repo/src/fluidimage/calcul/subpix.py`: 105-218 `compute_subpix`, `/repo/src/fluidimage/calcul/correl.py`: 277-281 `apply_subpix`. Simplifications: the values are rationals or NaN (`none`); the correlation of two windows and the formulas of the sub-pixel methods are parameters; the maps are … |
| `Mask` | data_objects/piv.py, works/with_mask.py | Masks: cropping the images and the coordinates Model of `src/fluidimage/data_objects/piv.py` (`get_slices_from_strcrop`, lines 71-75; `ArrayCouple.apply_mask`, `_mask_array`, `_mask_arrays`, lines 137-160) and `src/fluidimage/works/with_mask.py` (lines 15-32). Simplifications: the coordinates are integers (the code adds or subtracts an integer to NumPy arrays of numbers, element by element); images are 2D; the two … |
| `Mean` | topologies/mean.py | Model of the computation of a mean image `/repo/src/fluidimage/topologies/mean.py`. An array is a function from the pixels to their values. Simplifications: all the images have the same shape (numpy raises otherwise) and unsigned integer pixels; file names and the HDF5 format of the temporary files are not modelled (a temporary file is the couple which is written in it). |
| `MeanCommand` |  | Model of the command `fluidimage-mean` (`topologies/mean.py:162-271`) The disk is the list of the existing paths (`ResultDir.FS`) with the images stored in some of them. Simplifications: the paths are texts in the normal form of `pathlib` (no final "/", no "/./", no "//"); the images have `b`-bit unsigned pixels (8 or 16: the PNG files contain exactly the array which has been saved); the files of the job (logs, … |
| `MeanNeighbors` | calcul/mean_neighbors.py | Model of the mean over the neighbours `/repo/src/fluidimage/calcul/mean_neighbors.py` Numbers are rationals, NaN is `none`. The number of points (at most 8) is a natural number (`uint8` in the code). |
| `Monitor` | executors/base.py, gui/monitor.py | Model of the counting of the results while a computation runs * the file `len_results*.txt` of an executor, as the other processes see it: `/repo/src/fluidimage/executors/base.py` lines 393-399 (`_save_results_names`) and `exec_async_seq_for_multi.py:76-82`. `open(path, "w")` first truncates the file (or creates it); the few characters of the number are then written at once, when the file is closed; * the loop of … |
| `MonitorParams` | gui/monitor.py | Model of the panel "Parameters" of `fluidimage-monitor` `/repo/src/fluidimage/gui/monitor.py` 39-46 (`build_branch`), 49-54 (`copy_doc`), 147-153 (end of `__init__`), 206-214 (`compose`) and 313-318 (`on_tree_node_selected`). A container of parameters is a tree: documentation, attributes (with the text of their values) and children with their tags. The class `ParamContainer` is in fluiddyn, not in the repository: … |
| `MonitorTimes` | executors/base.py, gui/monitor.py | Model of the times and of the state of the job shown by `fluidimage-monitor` * `/repo/src/fluidimage/executors/base.py:85-103` (the time of the start), 244-265 (`_save_lock_file`, `_release_lock`); * `/repo/src/fluidimage/gui/monitor.py:114-180` (`MonitorApp.__init__`, `check_is_running`), 181-215 (`compose`), 240-245 (the timer), 259-300 (`update_info`, `load_time_max`, `compute_times_str`). The files of the job … |
| `Multi` | executors/base.py | Model of the loop over the sub-processes of the multi-process executors `/repo/src/fluidimage/executors/base.py:482-601` (`MultiExecutorBase.compute`, after `_start_processes`), with `_poll_return_code` and `_join_processes` of the two multi-process executors. The outside world is a function `poll`: `poll r i` is what `_poll_return_code` returns for the process of index `i` in the `r`-th turn of the loop (`None`, or … |
| `MultiSignal` | executors/base.py, executors/multi_exec_async.py, executors/multi_exec_subproc.py | Model of the stop signal with the multi executors `/repo/src/fluidimage/executors/base.py` 481-568 (`MultiExecutorBase.compute` with its handler of the signal 12, 493-505), `/repo/src/fluidimage/executors/multi_exec_async.py` 160-188 (forked processes) and `/repo/src/fluidimage/executors/multi_exec_subproc.py` 74-115 (new interpreters). Simplifications. A standard signal is pending or not (it is not counted), as in … |
| `Multipass` | data_objects/piv.py, postproc/piv.py, works/piv/multipass.py, works/piv/singlepass.py | Model of the multipass PIV `/repo/src/fluidimage/works/piv/multipass.py` 107-198 (`WorkPIV.__init__`, `calcul`, `_prepare_with_image`), `/repo/src/fluidimage/works/piv/singlepass.py` 37-38, 52-87 (`_init_shape_crop`), 143-190 and 733-785 (`calcul` of the two kinds of pass: order of the operations and memory of the grid), 671-682, 716-731 (constructors), `/repo/src/fluidimage/postproc/piv.py` 65-109 … |
| `Multiproc` | executors/exec_async_multiproc.py | Model of the process of one item in the executor `exec_async_multiproc` `/repo/src/fluidimage/executors/exec_async_multiproc.py` 22-33 (`exec_work_and_comm`, executed in the sub-process) and 71-120 (`run_process`, executed in a thread of the parent). The rest of `async_run_work_cpu` (37-70, 121-136) is as in `exec_async.py` (`Model/Executor.lean`), with `run_process` instead of the function. The parent and the … |
| `Names` | data_objects/piv.py, data_objects/preproc.py | Names of the files of results Model of `get_name_piv`, `get_name_bos` (`src/fluidimage/data_objects/piv.py` lines 37-64) and of `get_Ni_Nj`, `get_ind_middle`, `get_name_preproc` (`src/fluidimage/data_objects/preproc.py` lines 25-81). A serie (class of the library fluiddyn, not in the repository) is known by its slicing tuples `(start,)`, `(start, stop)` or `(start, stop, step)`, by the text of an index in each … |
| `OldPostproc` | postproc/postproc.py | Model of the old post-processing functions `/repo/src/fluidimage/postproc/postproc.py` (a module which is announced as deprecated, and which can be imported and used). Simplifications. The numbers are rationals (no NaN, no rounding). A file which is loaded has the four arrays of `LightPIVResults` (`data_objects/piv.py` 885-901: they are saved together), all of one dimension and of one length. The functions of … |
| `OpticalFlow` | works/optical_flow.py, works/with_mask.py | Model of the optical flow `/repo/src/fluidimage/works/optical_flow.py` 30-69 (`optical_flow`), 194-230 (`WorkOpticalFlow.calcul`); `/repo/src/fluidimage/works/with_mask.py` 25-32. Real numbers instead of floats. The detection of the features and the tracking (OpenCV) are parameters of the model. |
| `PgViewer` | gui/pg_main.py, gui/pg_wrapper.py | Model of the image viewer `fluidimviewer-pg` `/repo/src/fluidimage/gui/pg_main.py:38-59, 81-94` (`dock`, `slideshow`, `main`) and `/repo/src/fluidimage/gui/pg_wrapper.py:41-48` (`_add_dock`), 71-80 (`_win`), 82-119 (`view`), 121-165 (`_add_crosshair` and the function called when the mouse moves). `pyqtgraph` is not in the repository. It is described as follows. * `DockArea.addDock` stores the dock in a dictionary … |
| `Pipes` | executors/multi_exec_subproc.py | Model of the pipes between a multi-process executor and its sub-processes `/repo/src/fluidimage/executors/multi_exec_subproc.py:100-113` starts the sub-processes with `stdout=subprocess.PIPE, stderr=subprocess.PIPE`; the parent only reads `stderr`, once the process has exited with an error (base.py:536-543), and never reads `stdout`. A pipe of the operating system holds a bounded number of bytes (65536 with Linux) … |
| `PivGrid` | works/piv/singlepass.py | Model of the grid of vectors and of the interrogation windows of the PIV `/repo/src/fluidimage/works/piv/singlepass.py`: 108-141 (`_prepare_with_image`), 196-208 (`_pad_images`), 248-260 and 822-870 (`_calcul_positions_vectors_subimages`), 363-389 (`_init_crop`), 391-407 (`_crop_im0`, `_crop_im1`). Positions are integers (the code has machine integers). Pixels are integers; `np.ascontiguousarray(.., float32)` (397, … |
| `PivResults` | data_objects/piv.py | Files of PIV results Model of `src/fluidimage/data_objects/piv.py`: `HeavyPIVResults` (lines 256-318, 382-507), `MultipassPIVResults` (541-639, `make_light_result` 716-742) and `LightPIVResults` (772-817, 855-901). The HDF5 library is modelled by groups whose names are enumerated in increasing order of their bytes, which is the order of `group.keys()` for files made with the default options of h5py. Simplifications: … |
| `Plugins` |  | Discovery of the executors Model of `executors/__init__.py` and of the lines 364-399 of `topologies/base.py` which use it, with the group of entry points of `pyproject.toml` 75-87. The packages installed in the environment are the list of the entry points of the group `fluidimage.executors`, in the order given by `importlib.metadata.entry_points`. The import of a module is a parameter: it gives a module or raises. … |
| `PreprocCv` | works/preproc/_toolbox_cv.py | Model of the preprocessing tools of the OpenCV backend `/repo/src/fluidimage/works/preproc/_toolbox_cv.py` 31-60 (`sliding_median`), 63-92 (`sliding_minima`), 118-144 (`adaptive_threshold`). The images are arrays of unsigned integers (their conversion to 8 bits keeps the last 8 bits). `cv2.erode`, `cv2.medianBlur` and `cv2.adaptiveThreshold` are modelled from the documentation and the sources of OpenCV; the Gaussian … |
| `PreprocFormat` | data_objects/preproc.py, topologies/preproc.py | Formats of the preprocessed images Model of `PreprocResults.save` (`src/fluidimage/data_objects/preproc.py` lines 154-171), of `get_name_preproc` (lines 63-81, in `Verif.Names.namePreproc`) and of `TopologyPreproc.compute_indices_to_be_computed` and `save_preproc_object` (`src/fluidimage/topologies/preproc.py` lines 262-281) for all the values of `params.saving.format`. The functions `imsave` and `imsave_h5` of … |
| `PreprocParams` | works/preproc/toolbox.py | Model of the parameters of the preprocessing tools `/repo/src/fluidimage/works/preproc/toolbox.py` 34-119: parameters made from the signatures of the functions of a backend, changed by the user, and used to call the tools. `ParamContainer` (fluiddyn) is modelled from its documentation: the values given to `_set_child` are stored without copy, an unknown name is refused with `AttributeError`. The documentations of … |
| `PreprocSave` | data_objects/preproc.py, topologies/preproc.py, works/preproc/__init__.py | Images saved by the preprocessing Model of `WorkPreproc.calcul` and `_make_dict_to_save` (`src/fluidimage/works/preproc/__init__.py` lines 100-138), of `ArraySerie.__init__` and `PreprocResults.save` (`src/fluidimage/data_objects/preproc.py` lines 85-115, 154-171) and of `TopologyPreproc.make_subsets`, `save_preproc_object`, `compute_indices_to_be_computed` (`src/fluidimage/topologies/preproc.py` lines 262-318), for … |
| `PreprocSeries` | works/preproc/io.py | Model of the decorators of the preprocessing tools, for the different ways to give images `/repo/src/fluidimage/works/preproc/io.py` 13-83. The decorators (package `decorator`) give all arguments by position, with the default values, so that 14-15 and 25-26 are never used (`img=...` is the first positional argument). The tools give images of the size of their argument, so that the assignment of line 62 does not … |
| `PreprocTools` | works/preproc/toolbox.py | Model of the preprocessing tools `/repo/src/fluidimage/works/preproc/toolbox.py` 92-119 (`apply`), `io.py` 46-64 (`iterate_multiple_imgs`), 67-83 (`multiple_imgs_as_ndarray`), `_toolbox_py.py` 65-256 (filters), 264-289 (`global_threshold`), 331-355 (`rescale_intensity_tanh`), `_toolbox_cv.py` 31-60 (`sliding_median`), 95-115 (`global_threshold`). Real numbers instead of floats (no NaN). The functions of scipy and of … |
| `Queue` | topologies/base.py | Model of `topologies/base.py`, class `Queue` |
| `ResultDir` | topologies/base.py | Model of `prepare_path_dir_result` (`topologies/base.py:46-104`) The file system is the finite list of the existing paths, each with a Boolean telling whether it is a directory. A path is a text (`List Char`). |
| `ResultsFiles` | executors/base.py | Model of the files listing the results (`results*.txt`, `len_results*.txt`) `/repo/src/fluidimage/executors/base.py:380-414` (`_init_results_log`, `_save_results_names`), 562-567 (the multi-process executor reads the names back), and `exec_async_seq_for_multi.py:76-100`. |
| `SavePiv` | data_objects/piv.py | Model of the places where the PIV results are saved `/repo/src/fluidimage/data_objects/piv.py`: `HeavyPIVResults._get_name`, `save`, `_load` (352-380, 457-460), `MultipassPIVResults._get_name`, `save`, `_load`, `make_light_result` (579-639, 716-742), `LightPIVResults._get_name`, `save`, `_load` (819-853, 872-883), `ArrayCouple._load` (185-204: only the names, the paths and the shape are read). What is written in a … |
| `ServerSide` | executors/servers.py | Model of a server of the executor based on servers `/repo/src/fluidimage/executors/servers.py:222-287` (`WorkerServerMultiprocessing.check_event_has_to_stop`, `receive`, `launch_works`, `send`): four tasks run concurrently by trio in the process (or the thread) of the server. Simplifications: a message sent through a pipe can be received at once; the message `__t_start__` and the logs are not represented; a job is … |
| `Servers` | executors/exec_async_servers.py, executors/servers.py | Model of the executor based on servers `/repo/src/fluidimage/executors/exec_async_servers.py` and the client side of `/repo/src/fluidimage/executors/servers.py`, for a topology with one CPU work followed by one I/O work (as "compute" and "save" of the topologies of the package). Only the keys of the items are represented: what the functions compute plays no role here. An exception raised in a server is a result like … |
| `Session` | executors/base.py, topologies/base.py, topologies/nb_cpu_cores.py | Model of what an executor does to the process which uses it `/repo/src/fluidimage/executors/base.py` 134-148 (redirection of the standard streams), 158-180 (limits), 210-217 (`_init_compute`), 244-265 (lock file), 267-278 (`_save_job_data`), 280-299 (`_finalize_compute`), 482-489, 568-601 (multi executors), `exec_sequential.py` 18-25, `exec_async.py` 85-97, `exec_async_servers.py` 106-119; … |
| `SpatialFft` | postproc/util.py, postproc/vector_field.py | Model of the spatial Fourier transform of a vector field `/repo/src/fluidimage/postproc/vector_field.py` 541-558 (`compute_spatial_fft`) with `/repo/src/fluidimage/postproc/util.py` 80-124 (`compute_1dspectrum` along one axis) and 127-185 (`compute_2dspectrum` with 1D coordinates). Real numbers instead of floats. The spectra `psd` are those of `Spectrum.lean`. |
| `Spectrum` | postproc/util.py | Model of the spectra `/repo/src/fluidimage/postproc/util.py`: 80-124 (`compute_1dspectrum`), 127-185 (`compute_2dspectrum`), for one signal (the other axes of the array are not modelled). Real numbers instead of floats. |
| `Splitters` | topologies/splitters.py | Model of `topologies/splitters.py` |
| `Stereo` | calibration/calib_direct.py | Model of the direct stereo reconstruction `/repo/src/fluidimage/calibration/calib_direct.py` 272-309 (`CalibDirect`), 405-680 (`DirectStereoReconstruction`). Real numbers instead of floats, `none` for NaN. The interpolation objects (scipy) are functions. The determination of the optical paths from the calibration images (107-252) is in `Model/DirectCalib.lean`. |
| `StopSignal` | executors/base.py, executors/exec_async.py | The end of the asynchronous executor, and the signal 12 `/repo/src/fluidimage/executors/base.py:182-193`: on signal 12 (sent by the clusters some time before the end of the allocated time), the handler only sets `_has_to_stop`. `/repo/src/fluidimage/executors/exec_async.py:126-203`: the launchers read this flag only in their waiting loops, and then return; `start_async_works` (98-105) returns when all the launchers … |
| `Subpix` | calcul/subpix.py | Model of the sub-pixel methods `/repo/src/fluidimage/calcul/subpix.py`: 16-61 `compute_subpix_2d_gaussian2`, 75-85 `SubPix.__init__`, 87-105 `prepare_subpix`, 107-218 `compute_subpix`. Simplifications: the values of the correlation are real numbers (no rounding); the arithmetic with infinite and NaN values is represented by the cases of `Depl`; `nsubpix` is a natural number; the arguments `method` and `nsubpix` of … |
| `SurfaceFrame` | works/surface_tracking.py | Model of the processing of one frame by the surface tracking `/repo/src/fluidimage/works/surface_tracking.py`: 245-277 `compute_kx` (the mean reference frame), 313-335 `get_borders`, 337-363 `merge_cropped_frame`, 387-405 `frame_normalize`, 407-451 `process_frame`, 453-486 `process_frame_func`. Numbers are rationals, `none` is a number which is not finite (or, in an array of integers, what the conversion of such a … |
| `SurfaceHeight` | works/surface_tracking.py | Model of the heights computed by the surface tracking `/repo/src/fluidimage/works/surface_tracking.py`: 488-569 `calculheight_func`, 571-601 `set_borders_zero_func`, 603-668 `convphase`, 702-715 `process_ref` (from the phase of the reference). Numbers are rationals, `none` is a number which is not finite (infinite phases are not distinguished from NaN); `pi` is the value of `np.pi`. `scipy.interpolate.griddata` and … |
| `SurfacePhase` | works/surface_tracking.py | Model of the phase of a frame in the surface tracking `/repo/src/fluidimage/works/surface_tracking.py`: 279-311 (`set_gain_filter`), 365-385 (`rectify_frame`), 446-451 (the end of `process_frame`, after the normalisation which is in `Verif.Model.SurfaceFrame`), 683-700 (`wave_vector`). Real numbers instead of floats. The frames have the shape `(l_y, l_x)` of the gain and of the filter (when the window is not inside … |
| `SurfaceSubset` | topologies/surface_tracking.py | Surface tracking of a subset of images given with a step `/repo/src/fluidimage/topologies/surface_tracking.py`: the serie of images and the series of couples are built from `params.images.str_subset` (lines 113-125), and the first queues are filled from them (lines 263-317). The classes `SerieOfArraysFromFiles` and `SeriesOfArrays` (package fluiddyn) are not in /repo: it is assumed, as the code of /repo does … |
| `SurfaceTracking` | topologies/surface_tracking.py | Surface tracking: `/repo/src/fluidimage/topologies/surface_tracking.py` Queues (numbers of the model): `0` "couples of names", `1` "paths", ..., `p + 1` "angles" (`p` is the number of works applied to each frame: "read_array", "image2image" when it is used, "process_frame"), `p + 2` "couples of corrected angles and angles", `p + 3` "corrected angles copy", `p + 4` "corrected angles", `p + 5` "heights and shapes", `p … |
| `Synthetic` | synthetic.py | Model of the production of synthetic images `/repo/src/fluidimage/synthetic.py`. Simplifications: the numbers are rational numbers (the code uses 32-bit floats); `gauss d2` is `exp(-(1 / part_size**2) * d2)`; `rand` and `randn` are the successive values of `np.random.rand()` and `np.random.randn()` (one stream for each). |
| `TargetDetect` | calibration/calib_cv.py | Model of the detection of the points of a calibration target in an image `/repo/src/fluidimage/calibration/calib_cv.py:71-95` (`SimpleCircleGrid.detect_all`) and 97-156 (`detect_grid`). The detector of OpenCV is any function from an image of bytes to a list of points. An image is a list of rows of integers (for an image of floats the conversion to bytes out of 0-255 depends on the machine). Not modelled: the figures … |
| `Threads` | calcul/correl.py, calcul/fft.py, executors/exec_async.py, topologies/piv.py, works/piv/multipass.py, works/piv/singlepass.py | Model of a work of PIV used by several threads The asynchronous executor runs a work in threads (`/repo/src/fluidimage/executors/exec_async.py` 245 and 298, `trio.to_thread.run_sync(work.func_or_cls, arg)`); the function is the method `calcul` of one object `WorkPIV` (`/repo/src/fluidimage/topologies/piv.py` 143-151), so that several couples are computed at the same time with the same object. … |
| `TimeFormat` | util/util.py | Model of the formatting of durations `/repo/src/fluidimage/util/util.py:138-144`. A duration is a rational number (every finite float is one); `divmod` is exact. |
| `Together` |  | Several computations at the same time in the same directory Nothing in the code prevents several computations of the same series in the same directory at the same time (for example two jobs of a cluster, or a computation launched in mode "complete" while the first one is still running): the topologies only look at the files which exist (topologies/base.py 543-586 and 600-650, piv.py 166-173), the results have no … |
| `Tomo` | calibration/calib_cv.py, data_objects/tomo.py, reconstruct/tomo/mlos.py | Model of the tomography `/repo/src/fluidimage/data_objects/tomo.py` 40-89 (`ArrayTomoBase`), 118-126 (`clear`), 282-297 (`ArrayTomoCV`); `/repo/src/fluidimage/reconstruct/tomo/mlos.py` 57-98 (`TomoMLOSBase`), 161-187 (`TomoMLOSCV.phys2pix`); `/repo/src/fluidimage/calibration/calib_cv.py` 122-156 (order of the detected points), 159-186 (`construct_object_points`). Real numbers instead of floats. |
| `TomoArray` | data_objects/tomo.py, reconstruct/tomo/mlos.py | The objects of the tomography: interpolation in the images, files, and what is displayed `/repo/src/fluidimage/reconstruct/tomo/mlos.py` 65-98 (`reconstruct`), 145-158 (`TomoMLOSNeighbour.get_interpolator`); `/repo/src/fluidimage/data_objects/tomo.py` (`ArrayTomoBase`, `ArrayTomoCV`). Real numbers instead of floats. The numbers computed by dask do not depend on the blocks; scipy's `NearestNDInterpolator` gives the … |
| `TomoBlocks` | reconstruct/tomo/mlos.py | Model of the blocks of a tomographic reconstruction `/repo/src/fluidimage/reconstruct/tomo/mlos.py`: 77-81 (the arrays of dask and `map_blocks`), 189-207 (`TomoMLOSCV.reconstruct`: the size of the blocks), 210-213 (`_estimate_max_array_size`). dask is represented by what it documents: `da.from_array(x, chunks=c)` cuts the array in blocks of `c` values, the last one being smaller when the length is not a multiple of … |
| `TomoPlot` | data_objects/tomo.py | Model of the display of a tomographic reconstruction in three dimensions `/repo/src/fluidimage/data_objects/tomo.py` 212-244 (`ArrayTomoBase.plot3d`), for `ArrayTomoCV` (the `except` of 232-240: no attributes `X`, `Y`, `Z`, the columns of `grid` are used) and `ArrayTomo` (the arrays `X`, `Y`, `Z` read in the same order as the intensities). Rational numbers instead of floats, no nan in the intensities. Not modelled: … |
| `Tps` | calcul/interpolate/thin_plate_spline_subdom.py | Model of the thin plate spline interpolation with sub-domains `/repo/src/fluidimage/calcul/interpolate/thin_plate_spline_subdom.py`: class `ThinPlateSplineSubdom`. Simplifications: numbers are rationals (exact arithmetic); the square roots appear only through their floor or ceiling; the normalisation of the smoothing coefficient (75-80) is not modelled; the solution of the linear systems (`compute_tps_weights`, … |
| `TpsLoops` | calcul/interpolate/thin_plate_spline.py | The two implementations of the matrix of the thin plate splines `/repo/src/fluidimage/calcul/interpolate/thin_plate_spline.py` 38-104 (`compute_tps_matrix_pythran`, explicit loops), 107-153 (`compute_tps_matrix_numpy`, operations on arrays), 156-165 (the one which is used depends on the installation). The arithmetic is a parameter, without any law, so that equal results are results which are equal bit by bit: `F` … |
| `TpsWeights` | calcul/interpolate/thin_plate_spline.py | Thin plate splines: matrices, weights, fields and gradients Models `/repo/src/fluidimage/calcul/interpolate/thin_plate_spline.py`. Numbers are real numbers (the code uses float64: rounding is not modelled). An array `[nb_dim, N]` of positions is a family of `N` points with `d` coordinates (the array is read by columns). A row or a column of length `N + 1 + nb_dim` is indexed by `Fin N ⊕ (Unit ⊕ Fin d)`: the centers, … |
| `TryWork` | data_objects/piv.py, image2image.py, topologies/piv.py, works/__init__.py, works/optical_flow.py, works/piv/singlepass.py | Model of the works used outside a topology: trial on one couple of images `/repo/src/fluidimage/works/__init__.py` 147-180 (`BaseWorkFromSerie`: `get_serie`, `process_1_serie`, `calcul_from_arrays`), `/repo/src/fluidimage/data_objects/piv.py` 76-166 (`ArrayCouple`), `/repo/src/fluidimage/works/piv/singlepass.py` 143-157 and `/repo/src/fluidimage/works/optical_flow.py` 194-205 (what `calcul` accepts), … |
| `TsaiField` | calibration/calib_tsai.py | Model of the conversion of a field of displacements with the Tsai calibration `/repo/src/fluidimage/calibration/calib_tsai.py` 13-37 (`Calibration.pix2phys_UV`), for numbers (the arrays are converted element by element). |
| `UtilFunctions` | util/util.py | Model of the utility functions `/repo/src/fluidimage/util/util.py`: 44-60 (`imread`), 81-92 (`cstring`), 102-121 (`is_memory_full`), 124-130 (`str_short`). The reading of the files (`fluiddyn.io.image.imread`), the system (`psutil`), the codes of the colours of the terminal and `IPython.lib.pretty.pretty` are given. Strings are lists of characters. |
| `Uvmat` | util/util.py, uvmat.py | Model of the UVMAT interface and of the formatting of durations `/repo/src/fluidimage/uvmat.py:25-45` (`tidy_uvmat_instructions`), 66-121 (`set_params_series`), 196-226 (`params_from_uvmat_xml`); `/repo/src/fluidimage/util/util.py:138-144` is in `Verif/Model/TimeFormat.lean`. The XML files are not modelled: an attribute which may be missing is an `Option`. |
| `UvmatCalib` | calibration/util.py | Model of the reading of a calibration made with UVMAT `/repo/src/fluidimage/calibration/util.py`: 13-14 (`get_number_from_string`), 68-150 (`make_params_calibration`). The container given by `fluiddyn` for the element `GeometryCalib` of the file is a function from the names of the attributes to their values. `fluiddyn` converts a text which is one number to a number, and an empty text to `None`. A text is the list … |
| `UvmatFile` | data_objects/piv.py | Model of the PIV results saved in the format of uvmat `/repo/src/fluidimage/data_objects/piv.py` 641-707 (`MultipassPIVResults._save_as_uvmat`). Simplifications. A file of `h5netcdf` is a list of dimensions and a list of variables. A variable is refused when its name is already used or when its data do not fit the dimensions which exist; the dimensions which do not exist are created from the data. Numbers are … |
| `VectorField` | postproc/vector_field.py | Model of the vector fields on a grid `/repo/src/fluidimage/postproc/vector_field.py`: 35-37 (`_is_regular`), 84-170 (constructor), 270-327 (operations), 469-535 (`extract`, `truncate`, `extract_square`), 580-603 (`regularize_grid`), 626-631 (`compute_time_average`). The components are 2D arrays of values in any type `α` with the operations of the code (so the theorems cover floats with their infinities and NaN). … |
| `Viewer` | gui/imviewer.py, gui/piv_viewer.py | Model of the viewers of images and of vector fields `/repo/src/fluidimage/gui/imviewer.py` (`ImageViewer`) and `/repo/src/fluidimage/gui/piv_viewer.py` (`VectorFieldsViewer`). The viewers are objects with a state, modified by the events of the user. What matplotlib does is represented as follows: a function called by an event may raise an exception, which is printed, and the application goes on; among the images … |
| `ViewerFiles` | gui/imviewer.py, gui/piv_viewer.py | Model of the choice of the files shown by the viewers * `/repo/src/fluidimage/gui/imviewer.py:24-37` (`extensions`, `check_image`), 77-101 (`ImageViewer.__init__`); * `/repo/src/fluidimage/gui/piv_viewer.py:96-146` (`VectorFieldsViewer.__init__`, `_init_name_files`). The functions of the standard library which decide: `glob.glob`, `fnmatch` and `os.path` (POSIX), modelled here. Simplifications: no `..` in the paths, … |
| `WholeImages` |  | A whole computation on images (image to image, BOS): executors, processes and directory of results As `Model/WholeRun.lean` for the topologies built on `TopologyBaseFromImages` (`topologies/base.py` 590-655) whose works are a chain: `topologies/image2image.py` and `topologies/bos.py` (without function "image to image", see C28 for the other case). Same simplifications. |
| `WholePiv` | calcul/correl.py, works/piv/multipass.py, works/piv/singlepass.py | Model of a whole computation of PIV `/repo/src/fluidimage/works/piv/multipass.py` 107-190 (`WorkPIV.__init__`, `calcul`): the passes of `Model/Multipass.lean` with the models of what they do: the mask (`Model/Mask.lean`), the windows (`Model/PivGrid.lean`), the correlations, the peaks and the loop over the vectors (`Model/LaterPass.lean`, `Model/LoopVectors.lean`), the removal of the false vectors (`Model/Fix.lean`) … |
| `WholePreproc` |  | A whole computation of preprocessing: executors, processes and directory of results As `Model/WholeRun.lean` for `topologies/preproc.py`, with the format of files "img". A result is several files (one by image of the subset), which are written one after the other: the saves of several subsets can be running at the same time (work of kind "io"), and a process can be killed between two files of a save. … |
| `WholeRun` |  | A whole computation of PIV: executors, processes and directory of results The pieces modelled elsewhere are put together: choice of what is computed (`topologies/piv.py` 166-189, `topologies/base.py`), distribution over the processes (`Model/Distribution.lean`), execution of the topology in each process (`Model/Executor.lean`, `Model/StopSignal.lean`, `Model/TryWork.lean`) and files written in the directory of the … |
| `WholeSeries` | topologies/piv.py, works/piv/multipass.py | A whole computation of PIV, from the files of the images to the files of the vectors `Model/WholeRun.lean` (executors, processes, files) with the velocity computed by `Model/WholePiv.lean` (the passes of PIV). `/repo/src/fluidimage/topologies/piv.py` 87-235, `/repo/src/fluidimage/works/piv/multipass.py` 107-190. Simplification: the couples of a process are computed by a new work, see C75 (all the images of the … |
| `WholeSurface` |  | A whole computation of surface tracking: executors and directory of the heights `topologies/surface_tracking.py`, with the numbers computed by the works given as parameters: they are the functions of C84 (`process_frame_func`, without `crop_edge`: with it, a frame depends on the previous calls), C30 (`correctcouple`), C85 (`calculheight_func`) and C86 (`set_borders_zero_func`). Simplifications: each file is written … |
| `WorkKinds` | executors/base.py, executors/exec_async.py, executors/exec_sequential.py, topologies/base.py, util/util.py | Model of the treatment of the works according to their kinds `/repo/src/fluidimage/topologies/base.py`: 120-151 (`Work.__init__`), 173-177 (`prepare_argument`); `/repo/src/fluidimage/executors/base.py`: 195-200 (the works executed by the executors), 309-318 (`exec_one_shot_works`); `/repo/src/fluidimage/executors/exec_sequential.py`: 28-44; `/repo/src/fluidimage/executors/exec_async.py`: 118-164 … |

## Properties: what is modelled, how it is proved, what is missing

Status of the 160 properties: 32 proved, 128 partial.

| id | property | status | files (`Props/`) | how it is proved | disagreements and limits |
|---|---|---|---|---|---|
| C01 | split_range is a balanced partition of the range | proved | Splitters | arithmetic of the parts, induction over the number of parts; specification `Spec/Splitters` |  |
| C02 | split_list is a balanced partition without empty parts | proved | Splitters | arithmetic of the parts, induction over the number of parts; specification `Spec/Splitters` |  |
| C03 | Index files survive the round trip to a sub-process | proved | IndicesFiles | round trip by induction over digits and items |  |
| C04 | Distributing a computation over processes computes each item exactly once | proved | Distribution | from C01/C02: concatenation of the parts, disjointness, numbering | text of str_subset for images is parsed by fluiddyn (external); the tuple of slices is modelled |
| C05 | Result directory: no clobbering with new_dir, errors on bad modes | partial | ResultDir | file system = set of paths, answers = list of texts; case analysis, the search of a free name terminates because the set is finite | Everything proved for paths given as texts or not given. False in mode new_dir for Path objects (C05_path_object_fails: TypeError), in particular for a second topology created with the same parameters, since the constructor stores a Path in params.saving.path. |
| C06 | Result directory: the user's answer decides | partial | ResultDir | file system = set of paths, answers = list of texts; case analysis, the search of a free name terminates because the set is finite | false of the code for upper-case answers (C06_uppercase_answer_not_respected); proved for lower-case answers |
| C07 | Complete mode computes exactly what is missing | proved | Complete | filter over the existing files, for every set of files (every crash point) | for injective names of results (see C46 for the cases where names are not injective) |
| C08 | Queues are first-in first-out key/value maps | proved | Queue | refinement to a FIFO map (`Spec/Fifo`) over all sequences of operations |  |
| C09 | Sequential executor: every item goes through the whole chain exactly once | proved | Executors | conservation invariants over all runs of the executors, measure for termination | chains of works of any length |
| C10 | Asynchronous executor: results do not depend on the schedule | proved | Executors | conservation invariants over all runs of the executors, measure for termination | chains of works; topologies with global works: see C23, C25 |
| C11 | Asynchronous executor: never stops early | proved | Executors | conservation invariants over all runs of the executors, measure for termination | every well-formed topology |
| C12 | Asynchronous executor: always finishes | partial | Builder, Executors, GroupsLive | fair termination by a measure; traps for the runs that never end | Proved: chains of works (fair termination, no deadlock); PIV and preprocessing topologies when all images fit in a queue, or without image-to-image function when few images wait (consecutive couples, sliding windows not larger than a queue). False in general: C12_large_subset_never_finishes, C12_im2im_deadlock. |
| C13 | Asynchronous executor: concurrency limits | partial | Executors | exact counters as invariants; concrete runs for the violations | false of the code (C13_worker_limit_exceeded, C13_queue_limit_exceeded); proved: exact counters and weaker bounds |
| C14 | An error on one item does not affect the others | proved | Executors | conservation invariants over all runs of the executors, measure for termination | chains of works, sequential and asynchronous |
| C15 | stop_if_error stops at the first error | proved | Executors | conservation invariants over all runs of the executors, measure for termination | chains of works |
| C16 | Servers executor: never stops early | partial | Servers | state machine with the thread boundary between `pop` and `send_job`; concrete schedule | The full statement is false (C16_item_lost, C16_stops_early): the flag can be set between the pop of an item and send_job. C16_no_early_stop_partial: when no item is in that window at the check, all items have been saved. send_job and well_done_thanks are taken as atomic. |
| C17 | A multi-process run fails iff a sub-process failed | partial | Multi | polling loop, results files, job directories as state machines; induction over histories | Proved for every number of processes and every order of exits when final_seq_work does not raise; when it raises, its exception replaces the RuntimeError (C17_final_seq_work_masks), so 'exactly when' holds only without a raising final_seq_work. Assumes that every sub-process exits. |
| C18 | Results files list exactly the results, in order, at any time | proved | ResultsFiles | polling loop, results files, job directories as state machines; induction over histories | Results all of the same kind (strings, paths or other objects), as in all the topologies of the package; names without newline and without white space at the ends for the reading back. |
| C19 | Job directories and lock files are never shared | partial | JobDir | polling loop, results files, job directories as state machines; induction over histories | Locks and directories are never shared and locks exist exactly while running, for all histories. Starting an executor can fail (C19_second_run, C19_two_built, C19_start_can_fail); it succeeds if no executor of the same process and second exists (C19_fresh_start_partial) and for multi-process executors launched one after the other (C19_multi_start_partial). |
| C20 | A run with nothing to do succeeds | partial | Compute | polling loop, results files, job directories as state machines; induction over histories | False for the sequential executor with topologies recording their results (C20_sequential_fails, AttributeError); true for the others (C20_sequential_partial, C20_async, C20_multi). |
| C21 | Mean image: exact mean whatever the schedule and the splitting | proved | Mean | conservation of (sum, count) modulo 2^32 for every schedule and splitting | Every schedule and splitting; unsigned integer pixels; the rounding of the final division is any monotone rounding exact on integers with relative error 2^-53. An image which can not be read crashes the computation (C21_unreadable_image_fails). |
| C22 | Mean image: 32-bit sums | proved | Mean | conservation of (sum, count) modulo 2^32 for every schedule and splitting | C22_wraps gives the result in all cases, C22_exact under the bound, C22_overflow_fails shows that the bound is needed. |
| C23 | PIV couples: each couple is made exactly once with the right images | proved | Piv | invariant of the grouping works over all arrival orders | PIV topology, with or without image-to-image function, asynchronous and sequential executors; couples of an image with itself crash the run (C23_same_image_twice) |
| C24 | PIV memory: images are dropped exactly when no longer needed | proved | Piv | invariant of the grouping works over all arrival orders |  |
| C25 | Preprocessing subsets: each subset once, with its images in order | proved | Preproc | invariant of the grouping works over all arrival orders | preprocessing topology, asynchronous and sequential executors |
| C26 | Preprocessing outputs do not depend on the schedule | partial | PreprocSave | writes as maps from names to contents, commutation; slices of the saved images | Proved when the subsets that share an image agree on it (disjoint subsets, or image-by-image tools): any order and interleaving of the writes gives the same directory; completion after a crash between two results (or any crash point for the default one-image subsets). Negations: overlapping subsets with temporal filters (order dependent, and skipped when completing), crash in the middle of a subset. |
| C27 | Sliding preprocessing saves every image exactly once | partial | PreprocSave | writes as maps from names to contents, commutation; slices of the saved images | Proved for the slice of saved images when the index and number of series are given, for odd windows or one image per value; negations: even windows with several images per value, and the topology never gives the index so overlapping windows are saved several times. |
| C28 | BOS: reference excluded, others processed once, terminates with any preprocessing | partial | Bos | instances of the executor theory; traps for the runs that never end | Which images are computed: proved (fixIndices) when the reference is in the directory of the serie or outside; fails for a reference in a sub-directory. Execution without image-to-image function: proved for both executors. With an image-to-image function the property is false of the code (bos.py:146 reads the raw arrays): C28_preproc_*_fails. |
| C29 | Surface tracking: frames are phase-corrected in order, each once | partial | SurfaceSubset, SurfaceTracking | instances of the executor theory; traps for the runs that never end | Proved for every schedule, number of frames (except one) and functions: per-frame calls (specification: references = corrected previous frame), order of the corrections at any time and at the end, no crash, termination of the sequential executor, fair termination and absence of deadlock of the asynchronous one when the frames fit in nb_items_queue_max. The property fails, proved: mode 'complete' with one result present never ends; a single image never ends; deadlock with 9 frames and nb_items_queue_max = 8; sequential executor with nb_items_queue_max < 2. A subset of images with a step: the queues are those of the theorems when stop-1 is in the subset (C29_subset_partial); otherwise there is a couple whose second image is not in the subset and nothing ends (C29_subset_never_ends_fails). |
| C30 | Surface tracking: phase correction | partial | CorrectCouple | measure on the jump; parametric rounding | Proved in exact arithmetic (C30_correct_couple_partial, C30_removes_multiples); the bound on the computed jump holds for any rounding (C30_jump). Termination is false in double precision: C30_rounding_fails (phase of 96 rad), C30_huge_phase_fails. |
| C31 | PIV grid: windows inside the image and no uncovered margin | proved | PivGrid | index arithmetic on integers, Python slices; induction over the list of vectors | positions, windows inside the image, steps and margins for all image, window and overlap; refusal of too small images |
| C32 | PIV windows: the cropped sub-image is centred on the requested point | partial | PivGrid | index arithmetic on integers, Python slices; induction over the list of vectors | windows exact for positions such that the slice bounds are not negative; otherwise false: negative bounds wrap around (C32_wraps_around), reachable from a grid position (C32_reachable) |
| C33 | PIV multipass: displaced windows are consistent with the estimate | proved | PivGrid | index arithmetic on integers, Python slices; induction over the list of vectors |  |
| C34 | PIV errors are confined to their vector | partial | LoopVectors | index arithmetic on integers, Python slices; induction over the list of vectors | results of each vector equal to those of the vector alone, for every list of vectors; false: the displacement of a rejected peak is not NaN (C34_not_nan) and an AssertionError of one vector interrupts all (C34_escapes) |
| C35 | Correlation: index and displacement are inverse of each other | proved | Correl | index algebra, induction over scans, maximum over an order with NaN | all classes derive from the same two functions; centre indices per class |
| C36 | Correlation: the maximum found is the maximum inside the search area | proved | Correl | index algebra, induction over scans, maximum over an order with NaN | values are rationals or NaN; sqrt exact |
| C37 | Correlation: second-chance peak masking | partial | Correl | index algebra, induction over scans, maximum over an order with NaN | true when the rejected peak is at least particle_radius away from the low borders; false otherwise: nothing is masked (C37_low_border, C37_fails) |
| C38 | Correlation: shift of FFT output | proved | Correl | index algebra, induction over scans, maximum over an order with NaN | for every array and any initial content of the temporary array |
| C39 | Direct correlation never reads out of bounds and equals its definition | partial | CorrelDirect | index algebra, induction over scans, maximum over an order with NaN | for windows such that the sizes satisfy GoodSizes (all default cases with even or smaller second windows); false for equal odd shapes (C39_odd_out_of_bounds) and when displacement_max is given (C39_displacement_max_refused) |
| C40 | Outlier removal marks exactly the outliers | partial | Fix | pointwise characterisation against a direct specification | Proved for every grid of at least 2 x 2 points: without secondary peaks (default) exactly the outliers are set to NaN, their values are kept, the others are unchanged (C40_marks). With secondary peaks: a replaced vector satisfies the conditions on correlation and neighbours, and its previous value is kept (C40_peaks_partial); the displacement bound holds only if the maximum is at least 1 (C40_peak_bound_partial), because the code compares the square of the length with the maximum itself: C40_peak_too_long, C40_peak_refused are concrete violations. Without threshold the removed values are lost (C40_values_lost) or the work fails (C40_no_threshold_peaks_fails). On every grid with one row or one column the comparison with the neighbours raises IndexError as soon as one vector is not an outlier (C40_one_line_fails). |
| C41 | Neighbour mean | partial | MeanNeighbors | pointwise characterisation against a direct specification | Proved at every point with a vector of every array of at least 2 x 2 points (interior, edges, corners). The full property is false: at a point without vector (NaN) the result is always NaN even when all its neighbours have a vector (C41_nan_point), and on every array with one row or one column the function reads outside of the array as soon as one point has a vector (C41_one_row, C41_one_line_fails). |
| C42 | Thin-plate-spline sub-domains cover all points | proved | Tps | coverage by rectangles, induction over sub-domains | For every set of points accepted by the constructor, every sub-domain size and every positive buffer: all points are covered (C42_cover), a new position is covered iff it is in the extended rectangle (C42_covered_iff), recombination is the mean with positive weights of the sub-domains containing the point (C42_recombine, C42_recombine_between, C42_exact), at most 11 solves (C42_iterations; the message of the code says 10, C42_eleven). Disagreements: points on a horizontal or vertical line make the constructor fail (C42_line_fails); without threshold the weights computation always fails (C42_no_threshold_fails); buffer 0 would leave points uncovered (C42_no_buffer). |
| C43 | Masked coordinates round trip | partial | Mask | round trip of offsets through the slices | C43_roundtrip holds for every crop text. C43_offsets: exact for crops 'y0:y1, x0:x1' with bounds counted from the start of the image. Fails (proved) for starts counted from the end, for slices with a step and for crops of the rows only. |
| C44 | Saving and loading PIV results | partial | PivResults | files as trees with names; order of the names; injectivity | C44_partial: passes, arrays (to single precision), errors, wrong vectors for all inputs; TPS arrays in order for at most ten sub-domains. C44_eleven_fails proves the order is lost for every list of at least eleven different arrays. |
| C45 | Light PIV results keep the coordinates | partial | PivResults | files as trees with names; order of the names; injectivity | Exact for the default last pass; proved false for every other index (y coordinates are the x coordinates). Reading a multi-pass file as light result: last pass for <= 10 passes, pass 9 for 11 to 90 passes. |
| C46 | File names of results are unique | partial | Names | files as trees with names; order of the names; injectivity | Unique for one index, for number+letter indices, for BOS names and for sliding preprocessing windows. Proved false for two numeric indices (no separator) and for subsets that differ by their step. |
| C47 | Grid reshaping keeps values at their positions | proved | GridFinal | pointwise equalities on index pairs; heap of objects for the average | Both flattening orders, increasing and decreasing coordinates; grids with one row or column raise IndexError (outside the quantifier). |
| C48 | Vector fields: constructor and elementwise operations keep positions | proved | VectorField | pointwise equalities on index pairs; heap of objects for the average | For any value type (floats included); fields on ascending/descending axes with at least two points per direction; operations between fields on the same grid. The grid of the other operand is not checked and labels are reset (C48_other_grid). |
| C49 | Vector fields: extract_square returns a square | partial | VectorField | pointwise equalities on index pairs; heap of objects for the average | Proved for fields that are not taller than wide; for every field with at least two more rows than columns the result is not square (C49_tall_fails). |
| C50 | Vector fields: time average | proved | VectorField | pointwise equalities on index pairs; heap of objects for the average | Exact arithmetic (rationals); objects in a heap, the existing ones are unchanged. |
| C51 | Spectra satisfy Parseval | partial | Spectrum | finite Fourier sums (`Lemmas/Dft`), Parseval | The integral of the spectrum is half the mean square (1D and 2D, every complex signal); the documented normalisation (without the factor 1/2) fails for every non-zero signal. The pulsation axis and the meaning of the coefficients are proved. |
| C52 | Simple 2D calibration: calibration points are at the given distance | partial | Calibration | algebra over ℝ, 3×3 matrices (`Lemmas/Mat3`) | Displacements: proved. Distance: holds exactly when the pixels are square or the points are on a diagonal (equivalence proved); the code applies the aspect ratio to the wrong coordinate (C52_aspect_ratio_fails). |
| C53 | Tsai calibration: pixel to physical and back | partial | Calibration | algebra over ℝ, 3×3 matrices (`Lemmas/Mat3`) | Proved for horizontal slices without distortion (with or without refraction). Fails with distortion, for tilted slices (UnboundLocalError without refraction, wrong z with refraction), for the fourth slice without angles (IndexError); the arrays of the caller are modified. |
| C54 | Stereo reconstruction bases are orthonormal | partial | Calibration, Stereo | algebra over ℝ, 3×3 matrices (`Lemmas/Mat3`) | Base, plane, intersection: proved. Common grid: the upper limit in y ignores the first camera (C54_common_grid_fails). |
| C55 | Tomography grid and pixel projection are aligned | partial | Tomo | enumeration of the grid, slices of the arrays, sorting, products over cameras | grid enumerated exactly once, projection aligned for distinct heights (every array with zlims distinct); fails for a flat volume with several layers (ValueError); attribute ymin overwritten by zlims[0], zmin missing |
| C56 | Preprocessing tools are applied in the requested order and keep intensities in bounds | partial | PreprocTools | list induction, rank filters on windows, monotonicity of tanh | order of the tools, threshold (floats or integer bounds), sliding filters proved; fails: fractional bounds with integer images, OpenCV backend (threshold, negative values, 16 bits), integer weights, temporal median not clipped |
| C57 | Optical flow filters keep positions and displacements aligned | partial | OpticalFlow | list induction, rank filters on windows, monotonicity of tanh | positions and displacements aligned for the criterion of the code; the documented criterion only when no displacement is equal to a bound; zero displacements removed with only a maximum; lost features kept; no feature is an error |
| C58 | Duplicate work names are rejected | partial | Builder | case analysis and induction over lists/text | Rejection and order proved (C58_names, C58_raises); 'leaves the topology unchanged' is false: the rejected work stays in the list of works (C58_rejected_work_added) |
| C59 | Configuration values are converted | partial | Builder | case analysis and induction over lists/text | False: values are never converted (C59_never_boolean, C59_false_is_true); proved: every option is returned with its text unchanged |
| C60 | Resetting the logger removes all handlers | partial | Builder | case analysis and induction over lists/text | False with two handlers or more: every second handler is left (C60_handlers_left, C60_handlers_remain) |
| C61 | Durations are formatted without loss | partial | TimeFormat | case analysis and induction over lists/text | Proved for durations of at least one minute; below, the text is rounded to a hundredth of second and can show 60.00 s (C61_rounded_up) |
| C62 | UVMAT instructions give the series the user asked for | partial | Uvmat | case analysis and induction over lists/text | Proved for the modes series(Di) and pair j1-j2; false in mode series(Dj) (C62_series_Dj_fails) |
| C63 | A result interrupted during its write is recomputed | partial | Complete | filter over the existing files, for every set of files (every crash point) | false of the code (C63_truncated_result_is_kept); proved: only the file being written can be wrong |
| C64 | Sub-pixel refinement is bounded | proved | LoopVectors | index arithmetic on integers, Python slices; induction over the list of vectors | formulas of the fits are parameters (arbitrary functions); NaN results are returned without an error (C64_nan_accepted) |
| C65 | The FFT correlations are the circular cross-correlation of the fluctuations | proved | CorrelFft | finite Fourier sums (`Lemmas/Dft`), Parseval | numpy: equality; fftw: equality up to the factor n0*n1 (transform not normalised; the norm has the same factor for even numbers of columns). Exact real arithmetic; the libraries are modelled by the definition of the discrete Fourier transform. |
| C66 | The correlation coefficient of the FFT methods is normalised | partial | CorrelFft | finite Fourier sums (`Lemmas/Dft`), Parseval | Proved for numpy (all shapes) and fftw with an even number of columns. With fftw and an odd number of columns the code counts the last modes once: C66_fftw_odd_fails (for all odd numbers of columns >= 3, an image correlated with itself has a coefficient larger than 1). |
| C67 | The stereo reconstruction recovers the three components of the displacement | partial | Stereo | algebra over ℝ, 3×3 matrices (`Lemmas/Mat3`) | Proved when the object can be created and one of the systems is used; the same camera given twice is refused (C67_same_cameras). Fails to create the object when the two cameras are in the plane y = 0 (C67_cameras_in_a_plane_fails), TypeError when no system is used (C67_no_system_fails). |
| C68 | Points of a calibration target are associated with the right object points | partial | TargetDetect, Tomo | enumeration of the grid, slices of the arrays, sorting, products over cameras | Detected order right for lines near multiples of the step (C68_detected_order_partial), half-integer lines break the order (C68_detected_order_fails); object points right for square targets only, wrong for every nx != ny. From the image (Model/TargetDetect.lean): the points of a target centred on the origin are given and the points further than half the box plus one pixel are not (C68_image_partial, C68_image_points); for a larger well centred target the box contains the points of the next columns and rows, and the detection is refused (C68_larger_target_fails); the intensities of images of more than 8 bits are taken modulo 256 (C68_bits_fails). The detector of OpenCV is any function. |
| C69 | The MLOS reconstruction is the geometric mean over the cameras | partial | Tomo, TomoBlocks | enumeration of the grid, slices of the arrays, sorting, products over cameras; induction over the blocks of dask (Model/TomoBlocks.lean) | Geometric mean for every order, in memory and in a new file; the values do not depend on the blocks, which fit in the memory (C69_blocks_partial, C69_blocks_memory). False: running again with an existing file multiplies the intensities again (C69_rerun_fails); with less voxels than processors the size of the blocks is 0 and dask divides by zero (C69_blocks_fails). |
| C70 | Windows of the temporal filters | partial | PreprocTools | list induction, rank filters on windows, monotonicity of tanh | values and windows proved; fails: window of one image as an integer, list of two integers |
| C71 | The tanh rescaling keeps the order and the maximum of the intensities | partial | PreprocTools | list induction, rank filters on windows, monotonicity of tanh | given positive threshold and a positive pixel; fails: black image, default threshold with 8 bits |
| C72 | compute raises exactly the errors it has to raise | proved | Compute | from C09, C15 and the end of compute, for every schedule | chains of works (sequential, asynchronous); multi-process: start of the processes (their errors: C17) |
| C73 | Servers executor: bounded and balanced load, no deadlock, termination | proved | ServersLive | invariants and measure over all interleavings of the servers model | same model as C16 (one CPU work followed by one I/O work); a task is a server job, functions are arbitrary |
| C74 | Multipass PIV: windows of the passes and chain of the passes | partial | Multipass | Model/Multipass.lean: the constructor (coefficients, sizes carried as rationals, truncation, errors) and calcul with arbitrary functions for what the passes, the fixes and the interpolations compute. Induction on the list of coefficients for the windows and on the list of works for the chain (equivalence with a specification by indices). | Construction, windows, accepted and refused parameters, sub-pixel refinement and chain of the passes proved. The code violates the property in two cases: number of passes of 0 or less is accepted, gives one pass and no sub-pixel refinement (C74_number_zero_fails); windows which become empty by the reductions are accepted and then no couple has a result (C74_empty_window_fails). |
| C75 | PIV results do not depend on the couples processed before | partial | Multipass | Same model, where each work keeps its grid between couples. Invariant: the memory of each work is empty or the grid for the common shape; the results depend on the works only through their parameters under this invariant. Negation with two shapes. | Proved for couples of images of the same shape, errors included. The code violates the property for another shape: the grid of the first couple stays in the object (C75_first_grid_stays, C75_other_shape_fails). |
| C76 | get_grid_pixel gives the positions of the vectors of a pass | partial | Multipass | Same model plus get_grid_pixel and Python indexing; from the chain theorem of C74. Negation for a concrete crop. | Proved without crop. With a crop the code violates the property: the shape stored with the couple is the one before the crop and the origin of the crop is not added (C76_crop_fails). |
| C77 | A computation leaves the process as it was | partial | Session | Model/Session.lean: process state (streams, open logs, locks, atexit), creation of an executor and compute, as functions; induction over the sequence of computations. | Proved for every history of computations reaching their normal end (C77_restored_partial, C77_history_partial), and at exit of the interpreter without restriction (C77_exit). False when an exception stops the computation (C77_error_fails: streams not restored, log file open, lock file left; not repaired by later computations, C77_error_stays_fails) and for a multi executor with nothing to do (C77_nothing_to_do_fails). |
| C78 | compute uses the requested executor and limits | partial | Session | Model/Session.lean: topologies/base.py compute, limits of executors/base.py, nb_cpu_cores.py; case analysis; induction over runs of the asynchronous executor for zero workers. | Proved: choice of the executor by name and flag, order of the sources of the limits, positive limits by default. False: an executor object is ignored (C78_object_fails), zero workers is accepted and the asynchronous executor then never stops (C78_zero_workers_fails), the correction for hyperthreading depends on the number of sockets and is right only in the cases of C78_cores_fails. |
| C79 | An item executed in a sub-process gives what the function gives | partial | Multiproc | Model/Multiproc.lean: state machine of the parent and of the processes of all the attempts; invariants by induction on the runs, weight decreasing at each action. | Proved for all interleavings: a received result is that of the function, at most 10 processes and 60 actions, end without death of a process, one execution without slow start. False: death of the process or a result which cannot be pickled blocks the parent forever (C79_death_fails, C79_not_sendable_fails), the function can be executed twice (C79_twice_fails), a process which cannot be started stops the whole computation (C79_not_started_fails). |
| C80 | The analysis of the log files gives what the executors have written | partial | LogFile | Model/LogFile.lean: the lines written by the executors and the parser, as functions on lists of characters; the words of the lines are computed, induction on the events. | Proved for keys without white space, any sequence of launches, ends and other lines (C80_read_partial), and for the durations when a key is done once (C80_durations_partial). False for keys with spaces (C80_spaces_fails), for works executed several times with the same key such as global works (C80_repeated_fails), and for the selection in plot_nb_workers (C80_plot_fails). The header of the file, the choice of the files and the number of workers are in C132. |
| C81 | Thin plate spline smoothing | partial | TpsWeights | Real matrices indexed by centers, constant and coordinates; det = 0 stands for LinAlgError. Lemmas/ThinPlate.lean proves that s log s of the squared distance is conditionally positive definite: the form of s log (s + l) decreases with l (its derivative is -l times the form of 1/(s+l), which is an integral of Gaussian forms) and tends to 0. Solvability, optimality and the effect of the coefficient follow; derivatives by HasDerivAt, including at the centers. | All parts on the weights and the field are proved for real arithmetic. The part on the gradient is false: compute_tps_matrices_dxy takes DX from the coordinate of index 1 but puts the slope of the coordinate of index 0 in DMX, so the radial part and the affine part are derivatives along different axes (C81_gradient_fails: for affine fields the two components are exchanged; C81_gradient_partial gives the exact error). Squared curvature means the quadratic form of the radial weights; that it is the integral of the squared second derivatives is not proved. Rounding is not modelled. |
| C82 | Interpolation of PIV results on the grid of a pass | partial | ApplyInterp | State of the result object before and after the call; solver, evaluation and SciPy are parameters with hypotheses that C81 justifies; reuse of the sub-domain theorems of C42; numpy mask assignment modelled and its elements characterised by induction. | Proved: selection, InterpError when nothing is usable, alignment of estimates and positions (griddata and splines), affine fields, smoothed arrays, exact condition of the fallback to griddata. False in the code: with the splines the positions far from the usable vectors get NaN (C82_nan_fails, exact condition C82_tps_nan); the positions are not updated by a second call on the same object (C82_stale_fails); the smoothed arrays are missing after the fallback (C82_no_smooth_fails); aligned vectors give another error than InterpError (C82_line_fails). SciPy and the solver are parameters. |
| C83 | PIV results saved in the format of uvmat | partial | UvmatFile | Model of the operations on the h5netcdf file (dimensions, variables, refused names), of the try block without exception type, and of the passes; invariant on the names used by the previous passes; injectivity of the names of variables and dimensions. | Proved for all passes: the seven variables of each pass, the flags and the recovery of the displacements; smoothed fields and weights when no vector is NaN and the sub-domains have equal sizes. The code violates the rest: a NaN vector, a pass before the last one or sub-domains of different sizes make the smoothed fields and the weights silently absent (C83_nan_fails, C83_not_last_fails, C83_subdomains_fails). |
| C84 | Surface tracking: the phase of a frame depends only on the frame | partial | SurfaceFrame | Model/SurfaceFrame.lean: process_frame_func with the in-place changes of the array and of self.ref, arrays with a type of numbers, the computation of the phase being a parameter. Exact sums of lists; induction on the sequence of frames; concrete witnesses for the violations. | Proved without crop_edge for images of floats: the phase is computed from the normalised window (C84_frame_partial), whatever the frames processed before (C84_order_partial), the light of each line (C84_light), a second call with the same array, which the first call changes (C84_again); mean reference frame (C84_reference). The code violates the property for images of integers: the division by the means is done in place in the array of integers, the window becomes binary (C84_integers, C84_integers_fails); with crop_edge: merge_cropped_frame and frame_normalize change self.ref, so the phase depends on the history (C84_merged, C84_crop_fails); without reference image: AttributeError instead of the announced default (C84_no_reference_fails). |
| C85 | Surface tracking: heights are those which give the phases | partial | SurfaceHeight | Model/SurfaceHeight.lean: the detection of the jumps (for its exceptions), the formula, the correction of positions with griddata as a parameter, the subtraction of the reference. Field arithmetic; lists of pixels in the order of reshape. | Proved: inverse of the formula of the phases (C85_height), zeros and injectivity (C85_zero, C85_injective), offset of the reference (C85_offset), no exception for smooth phases (C85_no_error), the phase is used as given (C85_phase). The code violates the property: correct_pos has no effect, because all the displacements are set to zero (C85_correct_pos_fails); the detection of the jumps, the result of which is not used, raises for a difference of 0.95 pi or some NaN (C85_error_fails). |
| C86 | Surface tracking: borders of the structure | partial | SurfaceHeight | Model/SurfaceFrame.lean (getBorders) and Model/SurfaceHeight.lean (setBordersZero, resize as a parameter). Median of a list with a majority by counting in the sorted list; Python slices with negative indices by omega. | Proved: borders found by the medians (C86_borders), columns kept (C86_columns), null borders (C86_zeros). The code violates the property: threshold 300 never reached by 8-bit images (C86_threshold_fails), borders = 0 always raises (C86_no_borders_fails), the last column is lost and the others stretched without crop_edge (C86_identity_fails), negative index when the structure begins on the left of the window (C86_left_fails). |
| C87 | Surface tracking: unwrapping recovers the phase of a smooth surface | partial | SurfacePhase | Model/SurfacePhase.lean models np.unwrap over the reals; induction on the index in a line, then on the line (Itoh's condition); counter-example with four angles. | Proved for all sizes and all angles: equality modulo 2π, recovery of any surface with steps less than π, steps at most π in the columns and in the first line. The last sentence is false in the lines: the unwrapping of the columns, done after that of the lines, can leave steps of nearly 2π between neighbours of a line (C87_lines_fails, angles around which the phase turns). np.unwrap is modelled after its code, with reals. |
| C88 | Surface tracking: gain, filter and wave vector of the grid | partial | SurfacePhase | Model/SurfacePhase.lean; the response to exponentials is computed from the orthogonality of the exponentials (Lemmas/Dft.lean); the frequencies of the shifted filter are computed for even and odd sizes; the argmax is characterised by induction. | For even sizes (and, for the response and the light, a whole number of periods in the width): proved. For an odd width, as with the default window 640 - 475 = 165, np.arange(-l/2, l/2) contains half-integers: all the frequencies of the filter are wrong by half of the resolution, so that a uniform light is not rejected (C88_light_odd_fails), and the wave vector of a grid is wrong by 1/2 when sur is odd (C88_grid_odd_fails for sur = 1). The contrast theorem has no restriction. |
| C89 | Divergence and curl of a vector field are the finite-difference derivatives of the right components along the right axes | partial | FieldOps | Model/FieldOps.lean: np.gradient on rationals; field_simp/ring for the stencils, commutation of the two derivatives for the identities. | Exact values at all points for quadratic (edge_order 2) and linear (edge_order 1) variations on exactly regular grids, discrete identities, and errors. Fails for grids with steps near 1e-8: the regularity test of the code has an absolute tolerance (C89_tolerance_fails), so an irregular grid is accepted and the divergence of vx = x is 3/2. Exact arithmetic. |
| C90 | Filtering a vector field with valid=True returns only values free of border effects | partial | FieldOps | Model/FieldOps.lean: windows with the reflect mode of SciPy; inside windows by arithmetic on indices, iterations by induction on the agreement region. | Proved for one iteration (median: all components; Gaussian: vx, vy) and, for any number of iterations, at the points far enough from the borders (C90_iterated). Fails in the code for niter >= 2, where valid=True removes no more points than for one iteration (C90_iterations_fails), and for an array vz, which the Gaussian filter leaves unfiltered (C90_gaussian_vz_fails). The functions median and weighted sum are parameters. |
| C91 | A function applied to space-time data gives each component its own result | partial | FieldOps | Model/FieldOps.lean: the result of the function is a new array or a reference to the shared buffer; induction on the list of fields. | Proved for functions which return a new array. Fails for functions which return their argument, modified in place or not: vx of the result is vy (C91_in_place_fails), because one buffer is used for the two components. |
| C92 | A saved vector field is loaded identical and usable | partial | FieldOps | Model/FieldOps.lean: a file is a list of datasets; save and fromFile branch by branch. | Proved for fields with a z: same coordinates, components, names, parameters. Fails without z (TypeError, an unreadable file is left; C92_without_z_fails) and for the usability of a loaded field with a number vz (C92_number_vz_fails): it becomes an array of dimension zero, for which median_filter and regularize_grid raise. |
| C93 | The number of results shown while a computation runs is right | partial | Monitor | Model/Monitor.lean: events of the processes (result, truncation, writing) interleaved with the readings of the parent and of the monitoring application; invariant on the content of the file, then induction on the turns of the loop. Props/Monitor.lean. | Proved for the progress bar of the multi-process executors (no failure, monotone, bounded by the results, exact at the end). The monitoring application is only proved not to fail and to be bounded; the code violates the rest: late processes are never counted, the number can decrease, it fails to start without file, two jobs of the same second share a directory, and a job is said to run while its file is_running exists or before it is created (_fails theorems). |
| C94 | The multi-process executor returns whatever its sub-processes print | partial | Pipes | Model/Pipes.lean: a child process as a sequence of writes into pipes of bounded capacity which nobody reads; conservation of the bytes and a decreasing measure give the exact condition of exit; combined with the loop of MultiExecutorBase (Model/Multi.lean). Props/Pipes.lean. | The code violates the property: stdout and stderr are pipes which are not read while the child runs, so a child which writes more than the capacity of a pipe blocks and compute never returns (C94_blocked_fails, for all schedules). Proved: compute returns if the texts fit (C94_returns_partial), and the exact condition for a child to exit (C94_exits_iff). |
| C95 | A user-defined image-to-image function is applied to each image with the documented argument | partial | Im2Im | Model/Im2Im.lean: parsing of the dotted name, choice of the function, apply_im2im_filter, methods of the work, the topology as a chain of works; uses the theorems on chains for all schedules (C09, C10). Props/Im2Im.lean. | Proved for functions, classes and names, apply_im2im_filter, display and the topology Image2Image (all schedules). The code violates the property for other callables (UnboundLocalError), process_1_image (arguments swapped) and the BOS topology (the second item is a couple) (_fails theorems). |
| C96 | Synthetic image pairs show the requested displacement | partial | Synthetic | Model/Synthetic.lean: the function with streams of random numbers and exact arithmetic; both images are expressed as images of the same particles. Props/Synthetic.lean. | Proved with exact arithmetic (the code uses 32-bit floats) and an abstract profile of the particles. The centring fails by one pixel, for the pixel n//2 used as centre by the PIV, when a size of the first image is even and the one of the second odd (C96_centre_fails). |
| C97 | A launcher offers the arguments of the topology with their default values | partial | Launch | Model/Launch.lean: Python signatures, getfullargspec, zip, binding of keyword arguments; induction on the signatures. Props/Launch.lean. | The code violates the property: default values of the constructor are shifted by one argument (logging_level=None, nb_max_workers not offered) and the first argument of compute (executor) is not offered (C97_init_fails, C97_executor_fails). Proved for the other arguments of compute, and the exact values received by the constructor (C97_init). |
| C98 | Running a parameter file runs what the file describes | partial | Launch | Model/Launch.lean: detection of the program, mode, construction and binding of the arguments of compute. Props/Launch.lean. | Proved for topologies and uvmat actions. The code violates the property for launcher classes with compute_kwargs (TypeError) and for files without or with another text at the root (TypeError instead of the message). |
| C99 | A server answers every job, once and in order, and can be stopped | partial | ServerSide | Model of the four tasks of a server as a transition system; invariant: the jobs are, in order, sent, being sent, to be sent, being executed, to be executed, in the pipe. The consequence for the executor uses the model and the invariant of C16. | Proved for every schedule: the answers are a prefix of the jobs, in order, each with its own result; at most five steps per job, after which every job is answered if all results can be pickled. False otherwise: a result (or exception) which cannot be pickled kills the server, so this job and the following ones are never answered (C99_not_picklable_fails), and then the executor never sets its stop flag (C99_dead_server_fails). A server in a thread which has nothing to do never stops (C99_stop_fails). |
| C100 | The image viewer shows the image it names | partial | Viewer | State machine of the viewer (images added to the axes, dictionary of the images, flags, boxes) with the events of the user; invariant: exactly one image visible, the one of the current file; induction over the history. | Proved for every history without reload, with at least two readable files and numbers n between 1 and the number of files minus 1 (limits: with at most two decimals). False otherwise: a move by a multiple of the number of files (always with one file) makes the image disappear (C100_same_image_fails); after a reload another image than the one named can be shown (C100_reload_fails); after an error the viewer never changes image again (C100_stuck_fails); limits are rounded to two decimals for the next images (C100_limits_fails). |
| C101 | The vector field viewer shows the file it names | partial | Viewer | State machine with a fuel for the mutual calls between the box and the index; invariant and induction over the history. | Proved for every history when all files can be read and have the same positions, with termination of the mutual calls; last pass shown for at most ten passes. False otherwise: positions of the first file are kept (C101_positions_fails), title of one file and arrows of another one when the numbers of vectors differ (C101_number_fails), index of a file which cannot be read with the title of another one (C101_unreadable_fails), pass number 9 shown for 11 to 90 passes (C101_last_pass_fails). |
| C102 | Brightness and contrast tools keep the ranges and orders they document | partial | Brightness | Images as lists of reals; minima and maxima by induction on the list, then order of affine maps and monotonicity of the real power; equalisation algorithms and filters are arbitrary functions. | Proved: rescale_intensity (affine, increasing, range reached, clipping of constant images, idempotence), range of the equalisations for every algorithm, gamma for images of floats, order for all, sharpen on constant images and homogeneity. False: gain * x ** gamma for images of integers (C102_gamma_integers_fails), binary image of adaptive_threshold (C102_adaptive_threshold_fails: it gives the threshold). Not modelled: conversion of the results to the integer types, the algorithms of scikit-image. |
| C103 | All processes of a run save in the directory of the run | partial | ResultDir | prepare_path_dir_result of the main process, then the same function with the parameters given to a sub-process, on any later file system which contains the directory; case analysis on the mode. | Proved for the modes recompute, complete and from_path_indices, whatever has been written on the disk meanwhile, and for the topologies created in servers in all modes but new_dir. False in mode new_dir (C103_new_dir_fails: each sub-process of multi_exec_subproc searches its own directory, as saving.how is still new_dir and the directory of the run exists; C103_servers_new_dir_fails: every server raises TypeError when it starts, and then never answers, see C99_dead_server_fails) and after an upper-case answer to the question (C103_ask_fails). How ParamContainer writes and reads the path in XML is external: both types are covered. |
| C104 | The stop signal of the clusters ends a computation properly | partial | StopSignal | executions with the signal and the return of the launchers (Model/StopSignal.lean); projection to the executions of the executor, potential decreasing at each step after the signal (Exec/Signal.lean) | Proved: after the signal every execution has a bounded number of steps and can only stop when compute returns (chains, PIV, preprocessing, mean; no deadlock for every topology), and at any time the events of an item are a prefix of the specified ones. False in the code: results being computed when the signal arrives are lost (the launcher of the saving work has returned: C104_computed_not_saved_fails), new items may be started until the queues are empty (C104_not_prompt_fails), and a mean image computed by several processes silently ignores the images of the interrupted processes (C104_mean_ignores_images_fails). The sequential executor does not read the flag at all (its model has no flag: C09 describes it with or without signal). Not modelled: forwarding of the signal to the sub-processes, Ctrl+C. |
| C105 | Optical path of a pixel given by the direct calibration | partial | DirectCalib | Model of get_points, pixel2line, the nodes, the filling of the NaN nodes and the interpolation of the grid; the SVD and the scipy interpolation are arguments with a specification; proof that the first singular vector is the best direction by the eigenvalue bound | Proved: best line in the least squares sense through the mean of the points for pixels seen on all the planes, for every decomposition which meets the specification of the SVD (shown to exist); the line of the points if they are aligned; the exact path for cameras with parallel paths at all the pixels of the image; the fitted path at the nodes for every camera; errors. C105_nan_fails: for a pixel which is not seen on all the planes, the code takes the mean of Z over all the planes, so the path does not go through the (aligned) points which are seen. Not covered: accuracy of the interpolation between the nodes for other cameras, the exceptions of scipy for degenerate sets of points. |
| C106 | The displacement of translated windows is found exactly | partial | Recover | Composition of C65 (values of the map), C66 (norm), equality case of Cauchy-Schwarz (sum of the squares of the differences) for the strict maximum, and of the specification of the search of the peaks (C36); converse from the rejection of the border of the map. | Proved for numpy (all sizes) and fftw (displacement for all sizes, coefficient 1 for even numbers of columns) for displacements strictly inside the half of the window (C106_numpy_partial, C106_fftw_partial). The displacements n//2 - 1 and n//2 - n, which are indices of the correlation, are never returned (C106_large_fails); at half of the window a wrong displacement can be returned without error (C106_half_window_fails). |
| C107 | The scipy correlations announce the right displacement | partial | CorrelScipy | Definition of the sums computed by scipy, specification of the correlation of two windows with the same centre; case analysis on the parities. | C107_ndimage holds for all sizes; for scipy.signal the exact error is stated for all sizes (C107_signal_same, C107_signal_valid): one pixel when the sizes of the two windows do not have the same parity (C107_parity_fails). The functions of scipy are modelled from their documentation and C code. |
| C108 | The correlation coefficient of the direct and scipy methods is normalised | partial | CorrelScipy | Cauchy-Schwarz inequality on the window; circular translation for the pixels outside; witnesses computed for the failures. | Holds for scipy.signal in mode valid (C108_valid) and in mode same for windows of the same shape with a darkest pixel not brighter than the other window (C108_same_partial). Fails otherwise: C108_same_fails, C108_ndimage_fails, C108_pythran_fails, and a bright region is found instead of the exact window (C108_bright_fails). |
| C109 | The sub-pixel position of a Gaussian peak is exact | partial | Subpix, SubpixPeaks | Real model of the three fits; the least squares with the pseudo-inverse (full column rank of the design matrix proved for every nsubpix); exactness by P M = 1; odd sums for the symmetric peaks; witnesses with logarithms of rationals. | Proved for 2d_gaussian (every nsubpix, with the pseudo-inverse of numpy described by the four Penrose conditions and proved to exist), for symmetric peaks with all the methods (exactly found or NaN, and exactly found if the values around the peak decrease from the centre to the corners, for the default method, or have a sum which is not zero, for the others: C109_found), and the centroid stays in its neighbourhood. The code violates it for centroid (C109_centroid_fails) and for the default 2d_gaussian2, which subtracts the minimum of the nine values before taking the logarithms (C109_gaussian2_fails: a peak at 1/4 is found at more than 2/5); 2d_gaussian2 is exact for the peaks which are Gaussian after this normalisation (C109_gaussian2_partial). A strict symmetric peak can be lost by the default method (C109_lost_fails). Real arithmetic. |
| C110 | The sub-pixel position does not depend on the units of the correlation | partial | Subpix | Homogeneity of the formulas; the logarithm of the factor is absorbed by the constant column of the design matrix. | Proved for all the methods, with positive values for 2d_gaussian. The code violates it for 2d_gaussian when a value around the peak is not positive, because it is replaced by 1e-6 whatever the units (C110_gaussian_fails); adding a constant changes the centroid (C110_centroid_fails) but not 2d_gaussian2 (C110_offset). |
| C111 | A uniform displacement is kept by the passes with displaced windows | partial | LaterPass | The displaced windows of translated images are equal up to a constant; C106 for the zero displacement of the windows, symmetry of the autocorrelation for the refinement (C109), then the sum with the rounded estimate (C34) and the bounds of the interpolation (C82). | Proved before the sub-pixel refinement with the estimates of griddata (C111_not_last, C111_next_pass_partial), with those of the thin plate splines when the previous vectors are exact (C111_next_pass_tps_partial), and after the refinement for all the methods: exactly the displacement or NaN, without error, and exactly the displacement where the correlation of the pattern with itself meets the condition of C109_found (C111_last_partial). The code violates the claim with the centroid: a vector may be NaN without error although the images are the same (C111_nan_fails); with the splines, far positions have no estimate (C82_nan_fails). |
| C112 | A stop signal received by a multi executor stops all its processes | partial | MultiSignal | Transition system of the main process (launch, polling, handler) and of n processes (not started, young, ready, ended, collected) with pending signals; invariants and a measure on runs of any length; witnesses of the violations as concrete runs closed under all continuations. | Proved: a signal received after the launch, when no process has been collected, is sent to each process which has not ended, without exception, and each process which has installed its handler is told to stop (C112_reaches_partial); compute returns only after the end of all the processes and reports exactly the exit codes different from zero (C112_returned); it never blocks (C112_no_deadlock) and returns in at most 2n+1 of its own steps after the end of the processes (C112_ends); the handler raises exactly when a process has been collected and its pid is free (C112_raises_iff). The full property is false of the code: after the first process has been found ended a signal raises ProcessLookupError, compute fails and the others go on (C112_late_fails) or another program which got the pid receives the signal (C112_stranger_fails); processes launched after the signal are not told (C112_early_fails); just after its launch a new interpreter is killed and reported as an error (C112_young_spawn_fails) and a forked process loses the signal (C112_young_fork_fails); the handler stays installed after the end of compute (C112_after_fails). Not modelled: what a told process does (C104); the sub-executors without asynchrony (multi_exec_sync, multi_exec_subproc_sync) never read the flag, so their processes go on to their end. |
| C113 | A whole computation of PIV finds a uniform displacement | partial | WholePiv, WholePivFirst, WholePivOne, WholePivTps, WholeSeries | Model/WholePiv.lean composes the models of the mask, grids, FFT correlation, peaks, loop, sub-pixel, fix and interpolation into WorkPIV.calcul. One step lemma for the first pass and one for a later pass with its fix; induction over the passes (C74_chain); liveness by induction on the list of works. | Proved for a computation from hypotheses on the images only, without the thin plate splines: with at least two passes it ends, all the vectors of the passes before the last one are exact, those of the last one are exact or NaN, without error, exact where the peak is not lost by the refinement (C109_found), and the final field is exact (C113_whole_partial); with one pass, the default number, the same for this pass (C113_single_partial). The positions of the vectors are those of the grid or the middles of the two windows (C113_first_positions, C113_positions_partial). With the splines (the default), the same for the vectors (C113_passes_partial), and the final field is exact at the positions which are not far from the vectors (C113_final_tps_partial); the computation ends if the splines of the vectors which are not NaN are defined, and fails if these vectors are on a horizontal or vertical line (C113_splines_partial), in particular for images so narrow that the grid has one line or one column, although all the vectors are right (C113_one_line_fails). Missing: first windows which are not displaced circularly (then it is assumed that the first pass is right within half a pixel), the vectors of the last pass whose peak is lost by the refinement, which are NaN (C111_nan_fails, C109_lost_fails), and the far positions with the splines (C82_nan_fails). |
| C114 | Guarantees on every vector of a whole PIV computation | partial | WholeReplaced, WholeVectors | Whole computation (Model/WholePiv.lean). One lemma per stage: the loop (peaks within the limit, refinement bounded), the fix (C40), and the chain of passes (C74_chain); no hypothesis on the images. | Proved for every couple, every parameters and every vector: correlation, limits (with the parsing of the percentage), estimates and positions (C114_vectors_partial, C114_estimates, C114_positions). Missing: vectors replaced by a secondary peak can be longer than params.fix.displacement_max (C40_peak_too_long), grids with one row or column when neighbours are compared (the work fails: C40_one_line_fails), and vectors without error which are NaN in the last pass (C111_nan_fails). |
| C115 | What a trial on one couple shows is what the computation saves | partial | TryWork | model of ArrayCouple, of the methods of BaseWorkFromSerie and of the functions of the works of TopologyPIV; the value saved for a couple is read in the events given by C23 and compared with the trial | Proved for every couple, schedule and history of trials without preprocessing (sequential and asynchronous executors), and with preprocessing for functions which do not use the directory of the path. The code violates the rest: apply_im2im_filter gives the path to the function while the computation gives the name of the file (C115_path_fails), process_1_serie ignores params.preproc (C115_preproc_fails), a changed params.series is ignored after the first trial (C115_changed_series_fails), calcul_from_arrays ignores its argument names (C115_names_fails). The mask has to be accepted by the images (otherwise the computation crashes, C23). |
| C116 | The executors of the installed packages are found by their names | partial | Plugins | Model/Plugins.lean: cache of the entry points, functions of executors/__init__.py, choice of the class by compute, table of pyproject.toml. Case analysis of the effect of each event on the cache, induction on the histories. | Holds for names declared by one package, when nothing was installed since the start of the process or the last get_entry_points(reload=True). Not for a name declared by two packages: NameError (logging is not imported in executors/__init__.py) instead of a warning (C116_two_packages_fails); nor for a package installed after the first use, since compute never reloads (C116_stale_fails). |
| C117 | The files of a PIV computation do not depend on how it is executed | partial | WholeRun | Composition of the models of the distribution, of the executors, of the PIV topology and of the directory (Model/WholeRun.lean): every write is an event of the log of a process, the log of a process at any time is the beginning of the specified events (C104, C23), and the writes of the processes are interleaved in any order; the final directory depends only on the set of the writes. | Proved for every series whose couples have different result files. False when two couples have the same file (C117_same_name_fails; C46 shows series for which this happens): the file which stays depends on the schedule. A file is written at once (an interrupted write is the subject of C63). The result of the function of a work is supposed to depend only on its argument: true with the sequential and multi executors (C121_one_by_one), false with the threads of exec_async and fftw (C121_fftw_fails). |
| C118 | The files of a computation on images do not depend on how it is executed | proved | WholeImages | Model/WholeImages.lean puts together selection, distribution (C04), chains (C09, C10, C104) and directory; an invariant on the files for any interleaving of the writes; instances for image to image and BOS. | Chains of works (image to image, BOS without im2im; with im2im BOS violates C28). The function of the user is a pure function of the name and the image: an object with a state of its own is not modelled. A file is written at once (C63 for a write which is interrupted). |
| C119 | The files of a preprocessing do not depend on the executor, the schedule, the number of processes or the interruptions | partial | WholePreproc | Model/WholePreproc.lean composes the model of the preprocessing topology with the asynchronous and sequential executors, the distribution over processes, the selection of mode complete and a directory of files; the log of each process is related to its subsets (C25, C104), then the interleaved writes to the directory; invariant 'whole' by induction on the history of interrupted computations. | Proved for subsets which do not share images when no previous computation was killed between two files of the same subset (C119_any_execution_partial, C119_same_files_partial); for any interruptions if the last computation is in mode 'recompute' (C119_recompute) or if each subset is one image (C119_one_by_one). False otherwise: in mode 'complete' only one file of a subset is looked for, and it is not the last one written, so a kill between the two leaves a subset which is never completed (C119_crash_fails); when two subsets give different contents to the same image the file which stays depends on the schedule (C119_overlap_fails). |
| C120 | From the files of the images to the files of the vectors | partial | WholePivTps, WholeSeries | compose C117_any_execution with C113_whole_partial and the positions of the vectors (C113_positions_partial): the velocity of the topology is the model of all the passes for a couple which is already masked | Composition of C117 (all executions and histories) and C113 (all the passes of PIV, also one pass): for every couple displaced by (dx, dy), the file exists at the end and all its vectors are the displacement at the right positions, whatever the other couples are, without the splines (C120_series_partial) and with the splines in the last pass, the default (C120_splines_partial: if the splines are defined; there is no file if the vectors which are not NaN are on a line). Partial for the reasons of C113 (windows of the first pass displaced circularly, the vectors of the last pass whose peak is lost by the refinement are NaN, correlations without rounding errors), of C75 (one shape of images for the series) and of C121 (with exec_async, threads which share the object: the calls of the work are supposed not to overlap). |
| C121 | Several couples computed at the same time have the results they have alone | partial | Threads | small-step model of the threads on a shared object (Model/Threads.lean); rely-guarantee invariant on the attributes for all the schedules; explicit schedules for the negations; equality with the model of the passes (C74, C75) when alone | Proved for every schedule with the FFT of numpy when a first couple has been computed alone (C121_after_first_partial); without this, a thread has the right result or raises AttributeError (C121_threads_partial). False in general: a thread which starts between the last two lines of _prepare_with_image of another thread raises AttributeError (C121_grid_fails, for every computation), and with fftw (the default) the threads share the buffers of the FFT, so that the vectors of a couple can be computed with the correlations of another couple (C121_fftw_fails, for every computation in one pass). One couple after the other (sequential and multi executors): always right (C121_one_by_one). |
| C122 | Displaying a PIV result changes nothing in it and shows the data of the arrow which is picked | partial | DisplayPiv, DisplayPivHist | Model of the constructor of the window (arrays chosen, in place change of sign, arrows, removed vectors) and of the events (Model/DisplayPiv.lean); lemmas on indexed lists give the arrow of every vector, and inversion of the function which describes a vector gives the text and the marks; the failures are proved for all results where possible. | Proved for all results: with images nothing is changed in the result (C122_unchanged_partial); one arrow per vector showing it, with and without images, for all values of show_interp (C122_arrows) and one per removed vector (C122_removed); the text of a picked arrow is that of its vector (C122_pick_partial, C122_pick_interp_partial, C122_pick_removed_partial) and the marks of the peaks are at the right places (C122_marks). False in the code: without images (they have been moved), deltays of the user's result is multiplied by -1 in place (C122_changed_fails), so that a second display draws the opposite arrows (C122_twice_fails) and the text has the opposite of V (C122_text_fails); the vector 0 cannot be picked first (C122_first_fails); picking something else raises AttributeError when there are no removed vectors in the window (C122_other_fails); the text is not that of the arrow with show_interp='smooth' (C122_smooth_fails) or with show_interp=True for a pass which is not the last one (C122_approx_fails: another displacement, or IndexError); the mark of 'no displacement' has its coordinates swapped (C122_origin_fails: right only if the two indices are equal). Not modelled: the drawing by matplotlib, the images, the histograms. |
| C123 | The files of heights of a surface tracking do not depend on how it is executed | partial | WholeSurface | Model/WholeSurface: files, works, executors and names composed into relations between the directory before and after; the log of any execution is a prefix of the history required by the specification (invariant of C29), from which the files written are computed; failures by the traps of C29. | Proved for the sequential and the asynchronous executors, all limits, schedules, functions and contents of the directory, in mode recompute or without earlier result (different names, not exactly one image): a computation which ends has written exactly the heights of the images (specification: chain of corrected phases), the files are the same for all executions, a computation killed, stopped or crashed at any time leaves each file unchanged or right, a restart in mode recompute gives the same files, and ending computations exist. The property fails, proved: an unreadable image loses the files of all the following images; mode complete with one result present never ends; the default executor and both multi-executors raise ValueError (no Splitter); a single image never ends, or gives no file with the default executor. The functions on arrays are parameters (see C84 for crop_edge). |
| C124 | Tomography: a voxel seen dark is dark, and files and slices are those of their instant | partial | TomoArray, TomoPlot, WholeTomo | Model/TomoArray.lean: threshold, nonzero entries, nearest value (any nearest entry, distances over the reals), paths, files as a function of their path, save/load/clear, blocks which fail, loops of the user. The files of the loops are computed by filtering the images of each file and folding; products of roots by Real.list_prod_map_rpow. | Proved: a voxel projected in a bright pixel takes its value; one file per instant with the geometric mean over the cameras for the loops with save=True; save and load; clear with a numpy array. Negations proved: only the nonzero pixels are interpolated, so that no voxel is ever dark (a dark pixel takes the value of the nearest bright one); in memory the instants are multiplied together; a file with the name of the temporary copy (x_tmp.h5) is removed; limits and numbers of voxels are not loaded; h5file_path=None given explicitly leaves no intensities; clear does nothing for dask arrays and raises AttributeError without a path; a block which fails leaves zeros which stay for ever; plot_slices reshapes (nx, ny, nz) though the order of the voxels is (z, y, x); describe(vmin) raises ValueError; plot3d refuses dask arrays and gives markers without size when the largest intensity is 0. Proved: plot3d with a numpy array and a threshold which is not negative. |
| C125 | A camera calibration is saved, loaded and interpolated without loss | partial | CalibCamera | Model/CalibCamera.lean: sort by merge sort, searchsorted as the number of smaller abscissae, clip, line through two points. Strictly sorted lists: position of the height by counting; bracket by Nat.find; composition with C55_array_partial. | Proved: values at the planes and between two planes for every order of at least two planes of distinct heights, projection of every voxel between the planes for an exact calibration (with C55), save and load in a new file with a directory. The code violates the rest: NaN outside of the planes and for a single plane, without error; an existing file is not replaced, so the old calibration is loaded; with the default path (no directory) FileNotFoundError after the computation. OpenCV is a parameter; griddata of scipy in one dimension is modelled after its code. |
| C126 | A series of vector fields is a list of fields with their times | partial | FieldSeries | Heap of fields and of series, dispatch of the operators of Python, slices of CPython; induction over the references of the series; temporal transform composed with C51. | Operations field by field, sums, slices, sharing, regularisation and the meaning of the temporal Fourier transform are proved. Violations proved: the result of every operation, filter or slice has no times (its temporal transform raises RuntimeError); after append or del the times are those of the previous fields and the temporal transform silently gives more coefficients than pulsations; field + series, series + series and sum of series raise AttributeError; regularize_grid interrupted by an error leaves fields on different grids. |
| C127 | The display of vector fields draws each vector at its position | partial | FieldDisplay | Slices of the coordinates and of the arrays, quiver of matplotlib as a total function, state machine of the wheel events; invariants over all the event sequences. | Arrows at their points for the default arguments, a step or equal slices; scrolling proved for skip=None, fewer than 50 rows and times set. Violations proved: with two different slices the arrows are at the positions of other vectors (or ValueError); series.display() with its default skip always raises TypeError (skip is given as step); without times or with 50 rows or more the wheel never changes the screen. |
| C128 | The spatial Fourier transform of a field gives the coefficients of the announced wave numbers | partial | SpatialFft | Discrete Fourier transforms of NumPy (Dft.lean) with fftshift and fftfreq; inversion in one and two dimensions from C51. | Proved for every field on a regular grid, the three values of axes and all sizes (real arithmetic). Violations proved: on an irregular grid there is no error and the coefficients are not those of the wave numbers; other values of axes return None without an error. |
| C129 | Trying a treatment of images shows the images and what they become, and changes nothing | partial | DisplayPre | Arrays in a memory with views (Model/DisplayPre.lean); the percentile is characterised by counting in the sorted list; the in-place saturation by frame lemmas on disjoint blocks; the keys by induction. | Proved: images which do not share their memory are drawn saturated at their percentile (C129_drawn_partial, C129_function_partial for a function which makes a new image, C129_preproc for every preprocessing), switching is right after every sequence of keys (C129_switch), other arrays are kept (C129_others_kept). The code violates the rest: the constructor saturates the arrays of the caller in place (C129_kept_fails, C129_twice_fails), a function which works in place or gives a view makes the left images wrong (C129_in_place_fails, C129_view_fails), the image 1 is stretched on the size of the image 0 (C129_stretched_fails), the last image or subset can not be displayed (C129_last_fails, C129_last_subset_fails), and the announced key alt+h does nothing (C129_help_fails). |
| C130 | A PIV result is saved at the place which is asked | partial | SavePiv | Model of the three save methods, of the names and of the loading over a disk with files and directories (Model/SavePiv.lean); theorems by case analysis on the kinds of paths, with path join and splitting of extensions for every name. | Proved for every disk: one file is written, which contains the result and is what is loaded from the returned path; places for files, directories without extension and the current directory; saving again a loaded result in its directory. False of the code, with proofs: a directory named like a file (x.h5) is an OSError; a loaded result saved without path goes in the current directory and not where it was; the result of one pass can not be saved in a chosen file (its name is appended to the path) and not at all when it has been loaded (AttributeError); an unknown out_format-like kind is a TypeError; the light results of x.h5 and x.nc share their file; light results which are loaded or come from arrays can not be saved. |
| C131 | The couple of images of a file of results is the couple which has been saved | partial | CoupleFile | Model of repr of tuples of texts and of the evaluation of literals as a state machine over characters (Model/CoupleFile.lean); induction on the texts, with the inverse of the hexadecimal escapes; composition with the model of the computation from a serie (TryWork). | Proved: evaluation of repr gives back every tuple of texts over all characters, hence names, paths and shape of every couple; images of a computation from files, with the mask, when the files have not changed; display without the files. False of the code, with proofs: images which have been filtered before the computation are replaced by the raw images of the files; a result from arrays can not be displayed (TypeError). |
| C132 | The analysis of an execution shows what has been executed | partial | LogPlot | Model of the header, of the choice of the files and of plot_nb_workers (Model/LogPlot.lean), composed with C80; the cumulated sum at a sorted position is rewritten, through the permutation, as a sum over the works of the indicators of start and end. | Proved: number of works in execution on every piece of the line and covering of all times, for every order of equal times and works without end; header, launches, ends, duration for finished and killed executions; choice of the last execution; logs of all processes. False of the code, with proofs: works repeated with the same key (global works) give a wrong number of workers; a directory of results named log_... is taken for a directory of logs; the directory of exceptions of an execution with one process can not be analysed; the log of a computation with nothing to compute is an AttributeError. |
| C133 | A topology object can be computed several times | partial | ComputeAgain | State machine of what stays in the topology between computations (range or indices of the series, first work, results) and of the files; invariant 'the topology still describes all the items' preserved by the executors other than multi_exec_async (induction on the history); the violations by invariants (source without first work, indices without an item) and by induction on the number of computations (each one divides the range by two). | Holds for every history of computations with the executors other than multi_exec_async and without removal of files (C133_again_partial), and with multi_exec_subproc also when files are removed (C133_subproc). The code violates the rest: multi_exec_async modifies the series and the list of works of the topology of the user through shallow copies, so the next computation executes at most half of the series without error (C133_multi_async_fails), raises NotImplementedError with images (C133_images_fails), or never retries items which failed (C133_retry_fails); in mode complete a removed file is never computed again after an in-process computation (C133_deleted_fails). The results which are announced accumulate (C133_announced, C133_results_fails). |
| C134 | fluidimage-monitor tells correctly whether a job runs and how long it takes | partial | MonitorTimes | Two processes as a transition system: the operations of _release_lock, the clock, the kills; each reading of the monitor sees a world which is later than the previous reading, with anything in between. Invariant linking the lock, time_end.txt and the state of the job; induction on the session of the monitor. | Proved: finished jobs (C134_finished, C134_duration), running jobs (C134_running_partial), the end is seen (C134_stops), cost (C134_cost), no failure outside of the writing of time_end.txt (C134_no_error_partial). The code violates the rest: a monitor opened while the job runs never shows the total duration (C134_total_fails), fails with ValueError if it reads time_end.txt when it is empty (C134_empty_fails), says for ever that a killed job runs (C134_killed_fails), and the durations are differences of naive local times (C134_clock_fails). |
| C135 | The viewers open the files which are asked | partial | ViewerFiles | A file system is a table from absolute paths to listings; glob, fnmatch, os.path.split and os.path.join are modelled on lists of characters. The patterns without special characters are shown to match exactly themselves, the star everything, and [c] exactly the character c; the lists shown are then computed for all listings. | Proved for paths without the characters * ? [: directories with any trailing slashes (C135_directory_partial), files given with one slash before the name (C135_file_partial) or by their name (C135_here_partial), files of vectors (C135_piv_partial) and directories with one series of them (C135_piv_directory_partial). The code violates the rest: brackets in the name of a directory make it show the images of another directory or fail (C135_brackets_fails, C135_brackets_file_fails), two slashes before the name give ValueError (C135_slashes_fails), as do extensions in upper case and hidden files (C135_extension_fails); with two series of vectors what is shown depends on the order of the listing (C135_piv_order_fails), and brackets in a base name give ValueError (C135_piv_brackets_fails). |
| C136 | The tools of the OpenCV backend do what the tools of the default backend do | partial | PreprocCv | Windows with the five kinds of borders are modelled as lists of indices; for each border but wrap the set of indices read is shown to be the part of the window which is in the image, for all sizes; the minimum is then compared with the one of the default backend (C56). | Proved for images of 8 bits: sliding_minima (C136_minima_partial) and its equality with the default backend for the corresponding borders (C136_backends_minima_partial), sliding_median up to the clipping (C136_backends_median_partial, C136_backends_median3_partial), adaptive_threshold (C136_adaptive_partial). The code violates the rest: images of more than 8 bits keep only their last 8 bits (C136_minima_16bits_fails, C136_adaptive_16bits_fails); the border constant does not mean the same thing (C136_constant_fails); the names of the borders and tuples of sizes are not accepted by both (C136_names_fails); the median differs at the edges (C136_median_border_fails) and even sizes are refused (C136_median_even_fails). The Gaussian mean of OpenCV is a parameter. |
| C137 | Tsai calibration: slices and displacements | partial | TsaiField | pix2phys_UV modelled on top of pix2phys of C53; rotation of the normal by matrix algebra over the reals; the displacement is half the difference of the two end points, by the round trip of C53. | Proved without distortion, for horizontal slices; with distortion C137_distortion_fails (a point at 1 cm comes back at 4 mm; see also C53_distortion_fails); slices with angles always raise an error in the code (C53_tilted_fails, C53_tilted_refraction_fails). |
| C138 | The post-processing functions of the module postproc.postproc give what their names announce | partial | OldPostproc | model of compute_grid, of np.gradient with two steps, of the methods with their attributes and of the constructor of the series; proofs on arbitrary grids and on all fields which are linear in the coordinates; negations for the exchanged directions and the series | The code violates the property: the derivatives along x and y are exchanged (C138_derivatives_fails, C138_rotational_fails), the methods raise AttributeError since the steps are not known (C138_methods_fails), edge_order has no effect (C138_edge_order_fails), a rotational is kept when the field is changed (C138_changed_fails), compute_norm ignores its arguments (C138_norm_fails), rows by decreasing y are flipped (C138_decreasing_fails), a series can never be made (C138_series_fails, C138_series_grid_fails). Proved: the grid for increasing coordinates, the error for incomplete grids, the energy, the average, and the derivatives of arrays with x first (C138_derivatives_partial). |
| C139 | Every error of a computation is recorded in its own file | partial | ExceptionFiles | Fold of log_exception over the events of the executors (Model/ExceptionFiles.lean); the injectivity of the file name is proved from the prefix condition on the names; combined with C14 for finished executions. | Proved for unambiguous names of works (no name followed by '_' begins another one; true for all the topologies of fluidimage) and names of files which can be written, for every finished execution and every interleaving of processes. The code violates the full statement: two works of an accepted topology can share a file (C139_names_fails, C139_spaces_fails), and an item with a long name, or a work with '/' in its name, makes the recording raise, which stops the computation (C139_long_fails, C139_slash_fails). |
| C140 | The thin plate splines do not depend on whether the extensions are compiled | partial | TpsLoops | The loops of the compiled function and the operations on arrays of the other one are modelled separately over an arithmetic without laws (Model/TpsLoops.lean); both are proved equal to one specification of the entries by induction on the loops. | Proved for positions in float64 (and for every type whose differences and squares are exact), for every arithmetic; with real numbers the matrix is the one of C81. C140_integers_fails: for positions in small integers the version without extensions computes the squares with these integers and gives another matrix. |
| C141 | The correlation computed on a graphics card does not depend on the order in which the card runs its threads | partial | CorrelCuda | Threads and blocks as events in an arbitrary order; tree reduction by an invariant on the power of two; launches by an invariant on the prefix of events; negations with concrete schedules. | As written the function raises TypeError for every call with Python 3 (float number of blocks, C141_call_fails), and the class never gives a correlation (C141_class_fails). For an integer grid which covers the window, a number of pixels which is a power of two and launches without race, the correlation is the sum of the products for all orders (C141_partial, C141_value_partial, C141_products, C141_tree, C141_launch_partial, C141_reduce_partial); blocks in increasing order have no race (C141_in_order). Negations: the reduction in place has a race between blocks (C141_race_fails), the sum is wrong for the default windows of 48 x 48 pixels for all orders (C141_sizes_fails), elements outside of a grid rounded down are not computed (C141_uncovered). |
| C142 | The graph of a topology shows its queues, its works and how they are connected | partial | Graphviz | Model of make_code_graphviz as a function from the works and queues to the text of the file; a separate reader of lines of graphviz (quoted identifiers, arrows, labels, attributes) is the specification, and reading the text back is proved to give the graph by induction over the queues, the works and their links. | Proved for all topologies with plain, different names and no lone list (a reader of graphviz files, written independently, gives back exactly the nodes, the links and the attributes), and for the name of the file and the other files in general. False of the code, with proved witnesses: a work whose input or output is a lone queue of kind list (no arrow, or AttributeError when the queue is not empty), a queue and a work with the same name, two queues with the same name, a name with a quotation mark, a queue named key (the legend declares the same node). |
| C143 | fluidimage-mean writes the mean at the requested place, and only there | partial | MeanCommand | Model of the command on a disk with directories and images (Verif/Model/MeanCommand.lean); reduction to C21 (any splitting and schedule) and C05/C06 (preparation of the directory). | C143_new_partial and C143_existing_partial give the mean, its place and everything which changes on the disk, for all the executors, splittings and schedules (hypothesis WorksDone, which is the conclusion of any execution by the executors of C21). Missing because false of the code: an image of the serie at the place of the result is silently overwritten (C143_overwrite_fails), the answer 'c' gives the mean of some of the images only (C143_complete_fails), -o . raises a ValueError after the computation (C143_dot_fails). 8 or 16 bits, paths in normal form. |
| C144 | Several computations at the same time in the same directory give the same files | proved | Together | Model/Together.lean: a history is the list of the writes of all the computations in the order of time; each computation looks at the directory at some time of the history and its processes start later. Every write is the result of its couple or image (as in C117, C118), so at any time the directory is clean, and what an ended computation does not write was there when it looked and stays right. | For PIV (C144_piv, C144_piv_never_wrong, C144_piv_keeps) and images (C144_images, ...); the histories exist (C144_piv_exists, C144_images_exists) and in mode recompute all the orders of the writes are histories (C144_piv_any_order). For series whose couples have different files (C117_same_name_fails otherwise). A file is written at once: two overlapping writes of the same file by two computations are not modelled. The preprocessing is not included: C119_crash_fails already shows how a subset can be left incomplete. |
| C145 | Preprocessed images are saved in the format that is asked, and the mode "complete" finds them | partial | PreprocFormat | Model of PreprocResults.save for all the formats with the external writers as parameters, and of the selection of the subsets in mode complete; induction on the images of a result, on the subsets and on the number of computations. | Proved for the format img, for h5 when no two names differ only by their extensions, and for a format equal to the extension of the images. False otherwise, with proofs: h5 overwrites images whose names differ only by the extension (C145_h5_overwrites_fails); the recorded path of an h5 result is a file which is not written (C145_h5_returned_fails); with another format the mode complete computes everything again each time (C145_complete_fails); the documented format hdf5 is sent to the writer of PIL formats, and if it is refused there nothing is ever saved (C145_hdf5_fails). The functions imsave and imsave_h5 of fluiddyn are external: assumed to write one file at the given path (imsave_h5: with the extension .h5) or to raise and write nothing. |
| C146 | The example topology reads, combines and saves each image once with every executor | partial | ExampleTopology | Model/ExampleTopology.lean: the functions of topologies/example.py and the topology as an instance of the topologies making groups (each key is a group of one image); the invariants of Exec/Groups.lean, generalised to a function which loops over any list of groups containing those which are ready; the keys by unicity of the last underscore; the powers by induction on the number of loops. Images are lists of rows of naturals modulo 256. | Proved for every directory, repetition, schedule, limits and failures, for every positive nloops (C146_async, C146_sequential, C146_no_crash, C146_finishes, C146_no_deadlock, C146_saved, C146_items, C146_keys). It does not hold when two file names have the same part before ".bmp": only the last one is used (C146_all_fails; C146_all_partial when these parts are different), nor for nloops = 0: nothing is saved (C146_zero_fails). Negative nloops are not covered. |
| C147 | The directory of the sample images exists and is complete | partial | ImageSamples | Model/ImageSamples.lean: get_path_image_samples on a set of existing paths, with hg/git clone as a program with three kinds of ends. One call is characterised by the first existing candidate; the histories of calls (function after) are treated by showing that the files are a fixed point of all calls, or by induction on the failed downloads. | Proved: C147_existing (order of preference, nothing written), C147_downloaded (one complete download, then the same complete directory for all later calls), C147_retry (after any number of failed downloads), C147_writes (nothing is removed, nothing is created elsewhere), C147_no_permission, C147_default_place, C147_absolute_partial. The code disagrees: C147_missing_fails (without Mercurial and Git, or after a failed download, a path which does not exist is given, without exception), C147_killed_fails and C147_killed_part_fails (after a killed download no later call ever gives the samples, or all of them give an incomplete directory), C147_empty_variable_fails (empty XDG_DATA_HOME: download in the current directory). |
| C148 | Preprocessing tools on series of images and on colour images | partial | PreprocSeries | the decorators are modelled for arrays of 2, 3 and 4 dimensions and for sequences; induction over the images; a colour image is an array (lines, columns, colours), for which the windows of the minimum filter are computed for all sizes. | The series are proved for every tool (C148_each, C148_refused, C148_sizes, C148_temporal). The code disagrees for the type of the numbers (C148_type_fails) and for colour images (C148_colour_lines_fails: each line of a colour image is filtered alone, C148_colour_fails: the colours are mixed by the windows). |
| C149 | The parameters of the preprocessing tools are those of the functions, and are used as the user set them | partial | PreprocParams | a process with the list of the module and all parameter objects; induction over the history with the exact dictionaries of parameters as invariant. | Proved for all histories in which the list available_tools is not modified in place (C149_apply_partial, C149_default, C149_one, C149_unknown). The objects share the list __all__ of the module, so that they are not independent if it is modified in place (C149_shared_fails); apply looks for the functions in the dictionary of the class of the object, so that a subclass cannot apply the tools (C149_subclass_fails). |
| C150 | A direct calibration can be saved, loaded and checked | partial | DirectFiles | The object, its file and its figures as functions (Model/DirectFiles.lean) on top of the model of the calibration; induction over the calls of save and over the pixels, bounds of the ranges with floor divisions. | Proved: save and load for the names ending with .npz after any sequence of other saves (C150_save_load_partial), sample pixels (C150_samples), content of the figures (C150_curves, C150_points, C150_coeffs, C150_levels), success of the checks of any computed calibration when number is not larger than the sizes (C150_checks), pixels of the plane of the camera (C150_plane). False in general: another name is not the name of the file which is written (C150_name_fails), the interpolations at the levels are not saved (C150_levels_fails), the checks fail for images with less pixels than number (C150_small_checks_fails) and the plane of the camera for images with less than 40 pixels in a direction (C150_small_image_fails). |
| C151 | The parameters of a Tsai calibration are those of the UVMAT file | partial | UvmatCalib | make_params_calibration as a function of the attributes given by fluiddyn (Model/UvmatCalib.lean); induction over the numbered slices; composed with the model of calib_tsai.py. | Proved for every file with all the elements (C151_read_partial, with the slices read as C137 uses them), and which texts are refused (C151_bad_text). False in general: without angles the slices after the third one cannot be used (C151_untilted_fails); a file without one of the elements cannot be read, so that the default values of calib_tsai.py are never used (C151_missing_fails, C151_no_number_fails). |
| C152 | The launcher window shows and runs the topology chosen last | partial | LauncherWindow | The window as a state machine with widgets, layout and parents (Model/LauncherWindow.lean); invariant: one widget in the layout and in the window, which is that of qt_params; induction over the actions. | Proved for all the histories: page shown and parameters run (C152_last_chosen_partial), text of the entries (C152_entries). False: File > Open fails for every file (C152_open_fails). |
| C153 | The works of a topology are executed as their kinds announce | partial | WorkKinds | Kinds as none, text or sequence with the meaning of in for each of them; exec_one_shot_works and define_functions as functions of the kind (Model/WorkKinds.lean); induction over the works. | Proved for the documented kinds (C153_documented_partial), for the one shot works which are methods (C153_one_shot_partial), and when global works are called (C153_global_ready). False: a function or a class given as a one shot work makes the computation fail with AttributeError (C153_function_fails, because of work.func_or_cls.__func__); texts with several words are half understood (C153_text_fails); global works without input queue are called by the sequential executor only (C153_no_input_fails). |
| C154 | The utility functions do what they document | partial | UtilFunctions | Functions of the outcome of the reading, of the state of the memory and of the attributes of the object (Model/UtilFunctions.lean); case analysis, induction for the join. | Proved: C154_imread_partial, C154_memory_partial, C154_short_partial, C154_colour. False: the reason of the error is lost (C154_reason_fails); the class and the path are lost for the exceptions whose constructor needs other arguments (C154_other_class_fails); the memory is announced as full when one of the two documented conditions holds (C154_memory_fails); str_short fails when the module of the object is None (C154_short_fails). |
| C155 | The text at the end of a computation gives the number of results and their mean duration | partial | ExitText | Model the three functions which make the text, with the format of two decimals (nearest, even), and the attributes of the executors they read; prove the whole text, with each number within half a hundredth of what it should be; prove the wrong time of CPU with exec_async_sequential. | False with exec_async_sequential, which computes on one core: its attribute nb_max_workers is by default the number of cores (plus two), and the time of CPU of one field is shown multiplied by the number of cores (C155_cpu_fails). Proved for the other executors (C155_cpu_partial), for the other topologies (C155_results, C155_bos) and without result (C155_nothing); a PIV topology with results but without executor has no text (C155_no_executor_fails). That the list of results can keep those of a previous call of compute is C133. Durations are exact rational numbers. |
| C156 | fluidimviewer-pg shows the images of the command and the intensity under the mouse | partial | PgViewer | Model the arrays of numpy (shape, transposition, stacking), what pyqtgraph displays for an array, the docks and their dictionary of titles, and the function called when the mouse moves; induction over the arguments for the docks and the frames; floors and ceilings for the position of the mouse. | Proved for grey images: docks and titles in order (C156_docks_partial), errors (C156_docks_error), slideshow (C156_slideshow_partial), intensity over the image and nothing far from it (C156_mouse_partial). False: over the docks other than the last nothing is displayed, because only one signal proxy is kept (C156_hover_fails); at less than one pixel outside of the image, IndexError or the intensity of a pixel which is not there (C156_border_fails); a colour image is shown as one grey image per channel, because all the axes are reversed (C156_colour_fails); images of different sizes have no slideshow (C156_slideshow_fails). What pyqtgraph does is described in the model (it is not in the repository). |
| C157 | The figures of an execution show the durations of its works and the memory it used | partial | LogDurations | Model/LogDurations.lean: what is given to matplotlib, from the launches and ends of Model/LogFile.lean and the analysis of Model/LogPlot.lean; proved by induction on the names and composition with C80 and C132. | plot_durations: points, segments, mean and extent proved for all the logs in which a launch has at most one end (C157_durations_partial); with a key used twice both launches get the last duration and the mean is wrong (C157_repeated_fails). plot_memory: proved for logs of one process, ended or killed (C157_memory_partial, C157_memory_killed); with several processes the line goes back in time (C157_memory_processes_fails). |
| C158 | The reference of a BOS computation is the file which is asked, and it is not computed | partial | BosReference | Model/BosReference.lean: paths of pathlib as parts with a mark for absolute paths, files of the computer as any function; branch by branch, and composition with C28 for the images which are computed. | Proved: absolute paths (C158_absolute), indices (C158_index), names without such a file in the current directory (C158_name_partial), same reference in the processes (C158_processes), reference excluded when it is given in one of these ways (C158_excluded_partial). False: a file of the current directory is used instead of the image of this name (C158_name_fails); an image of the serie given by a path relative to the current directory is computed with itself (C158_relative_fails); the error is TypeError and not ValueError (C158_refused). Assumed: the attribute path_dir of the serie (fluiddyn, not in the repository) is absolute in the theorems on the excluded reference. |
| C159 | fluidimage-monitor shows the parameters of the job with their documentation | partial | MonitorParams | Containers as trees; copy_doc and build_branch as mutual recursions; by induction on the path to a container, in both directions (container to branch and branch to container); selections by induction on their sequence. | Proved when all the containers of the job exist in the default parameters of its topology, for trees of any depth. Otherwise the monitor does not start (AttributeError): C159_other_container_fails. ParamContainer (fluiddyn) and the widgets of Textual are not modelled. |
| C160 | The window of a PIV result shows its two images, one at a time, without modifying them | partial | DisplayPivImages | Memory with shared blocks of Model/DisplayPre; copies are new blocks, so that the saturation does not reach the old ones; the keys by induction on their sequence. | Proved for two images of the same size. False in the code: a second image of another size is stretched on the first one (C160_stretched_fails), a window with only the first image is not opened (C160_one_image_fails), and without images the title still announces the image 0 (C160_no_image_fails). The keys count only with the mouse on the image. Not modelled: colours of matplotlib, nan. |

## Wrong programs

`seeded/LOG.jsonl` has one line for each wrong program tried (definition, edit, claim, theorems that fail, theorems
tightened afterwards): 2596 lines.

## Axioms of the theorems

* `none`: C17_final_once, C26_empty_fails, C49_tall_witness, C95_apply_none, C99_stop_partial, C124_describe_fails, C154_short_fails.
* `propext`: C01_split_range_errors, C02_split_list_empty, C07_exactly_the_missing, C18_last_save, C20_multi, C23_same_image_twice, C26_imagewise, C26_order_fails, C26_crash_fails, C26_complete_overlap_fails, C27_topology_fails, C28_reference_in_subdirectory_fails, C35_inverse, C44_stable, C45_other_pass_fails, C46_window_step_fails, C56_sequence, C56_default_sequence, C58_raises, C58_rejected_work_added, C59_never_boolean, C59_false_is_true, C72_multi, C77_own_log, C77_user_stream_fails, C79_twice_fails, C79_death_fails, C79_after, C82_use_tps, C91_new_array_partial, C93_monitor_late, C95_string_no_dot, C95_apply, C95_apply_error, C95_display, C95_process_1_image_fails, C95_bos_argument_fails, C99_continue, C112_stranger_fails, C112_after_fails, C115_default_index, C115_changed_series_fails, C116_entry_point, C122_hist_partial, C122_hist_fails, C126_error, C127_same_slice, C127_step_and_skip, C127_no_times_fails, C131_display_without_files, C140_dimensions, C143_executor, C153_no_input_fails, C154_short_partial, C158_absolute, C158_home, C158_name_partial.
* `propext, Quot.sound`: all the others (108 theorems).
* `propext, Classical.choice, Quot.sound`: all the others (984 theorems).
