{
"C01": "arithmetic of the parts, induction over the number of parts; specification `Spec/Splitters`",
"C02": "arithmetic of the parts, induction over the number of parts; specification `Spec/Splitters`",
"C03": "round trip by induction over digits and items",
"C04": "from C01/C02: concatenation of the parts, disjointness, numbering",
"C05": "file system = set of paths, answers = list of texts; case analysis, the search of a free name terminates because the set is finite",
"C06": "file system = set of paths, answers = list of texts; case analysis, the search of a free name terminates because the set is finite",
"C07": "filter over the existing files, for every set of files (every crash point)",
"C63": "filter over the existing files, for every set of files (every crash point)",
"C08": "refinement to a FIFO map (`Spec/Fifo`) over all sequences of operations",
"C09": "conservation invariants over all runs of the executors, measure for termination",
"C10": "conservation invariants over all runs of the executors, measure for termination",
"C11": "conservation invariants over all runs of the executors, measure for termination",
"C14": "conservation invariants over all runs of the executors, measure for termination",
"C15": "conservation invariants over all runs of the executors, measure for termination",
"C12": "fair termination by a measure; traps for the runs that never end",
"C13": "exact counters as invariants; concrete runs for the violations",
"C16": "state machine with the thread boundary between `pop` and `send_job`; concrete schedule",
"C17": "polling loop, results files, job directories as state machines; induction over histories",
"C18": "polling loop, results files, job directories as state machines; induction over histories",
"C19": "polling loop, results files, job directories as state machines; induction over histories",
"C20": "polling loop, results files, job directories as state machines; induction over histories",
"C21": "conservation of (sum, count) modulo 2^32 for every schedule and splitting",
"C22": "conservation of (sum, count) modulo 2^32 for every schedule and splitting",
"C23": "invariant of the grouping works over all arrival orders",
"C24": "invariant of the grouping works over all arrival orders",
"C25": "invariant of the grouping works over all arrival orders",
"C26": "writes as maps from names to contents, commutation; slices of the saved images",
"C27": "writes as maps from names to contents, commutation; slices of the saved images",
"C28": "instances of the executor theory; traps for the runs that never end",
"C29": "instances of the executor theory; traps for the runs that never end",
"C30": "measure on the jump; parametric rounding",
"C31": "index arithmetic on integers, Python slices; induction over the list of vectors",
"C32": "index arithmetic on integers, Python slices; induction over the list of vectors",
"C33": "index arithmetic on integers, Python slices; induction over the list of vectors",
"C34": "index arithmetic on integers, Python slices; induction over the list of vectors",
"C64": "index arithmetic on integers, Python slices; induction over the list of vectors",
"C35": "index algebra, induction over scans, maximum over an order with NaN",
"C36": "index algebra, induction over scans, maximum over an order with NaN",
"C37": "index algebra, induction over scans, maximum over an order with NaN",
"C38": "index algebra, induction over scans, maximum over an order with NaN",
"C39": "index algebra, induction over scans, maximum over an order with NaN",
"C40": "pointwise characterisation against a direct specification",
"C41": "pointwise characterisation against a direct specification",
"C42": "coverage by rectangles, induction over sub-domains",
"C43": "round trip of offsets through the slices",
"C44": "files as trees with names; order of the names; injectivity",
"C45": "files as trees with names; order of the names; injectivity",
"C46": "files as trees with names; order of the names; injectivity",
"C47": "pointwise equalities on index pairs; heap of objects for the average",
"C48": "pointwise equalities on index pairs; heap of objects for the average",
"C49": "pointwise equalities on index pairs; heap of objects for the average",
"C50": "pointwise equalities on index pairs; heap of objects for the average",
"C51": "finite Fourier sums (`Lemmas/Dft`), Parseval",
"C65": "finite Fourier sums (`Lemmas/Dft`), Parseval",
"C66": "finite Fourier sums (`Lemmas/Dft`), Parseval",
"C52": "algebra over ℝ, 3×3 matrices (`Lemmas/Mat3`)",
"C53": "algebra over ℝ, 3×3 matrices (`Lemmas/Mat3`)",
"C54": "algebra over ℝ, 3×3 matrices (`Lemmas/Mat3`)",
"C67": "algebra over ℝ, 3×3 matrices (`Lemmas/Mat3`)",
"C55": "enumeration of the grid, slices of the arrays, sorting, products over cameras",
"C68": "enumeration of the grid, slices of the arrays, sorting, products over cameras",
"C69": "enumeration of the grid, slices of the arrays, sorting, products over cameras; induction over the blocks of dask (Model/TomoBlocks.lean)",
"C56": "list induction, rank filters on windows, monotonicity of tanh",
"C57": "list induction, rank filters on windows, monotonicity of tanh",
"C70": "list induction, rank filters on windows, monotonicity of tanh",
"C71": "list induction, rank filters on windows, monotonicity of tanh",
"C58": "case analysis and induction over lists/text",
"C59": "case analysis and induction over lists/text",
"C60": "case analysis and induction over lists/text",
"C61": "case analysis and induction over lists/text",
"C62": "case analysis and induction over lists/text",
"C72": "from C09, C15 and the end of compute, for every schedule",
"C73": "invariants and measure over all interleavings of the servers model",
"C74": "Model/Multipass.lean: the constructor (coefficients, sizes carried as rationals, truncation, errors) and calcul with arbitrary functions for what the passes, the fixes and the interpolations compute. Induction on the list of coefficients for the windows and on the list of works for the chain (equivalence with a specification by indices).",
"C75": "Same model, where each work keeps its grid between couples. Invariant: the memory of each work is empty or the grid for the common shape; the results depend on the works only through their parameters under this invariant. Negation with two shapes.",
"C76": "Same model plus get_grid_pixel and Python indexing; from the chain theorem of C74. Negation for a concrete crop.",
"C77": "Model/Session.lean: process state (streams, open logs, locks, atexit), creation of an executor and compute, as functions; induction over the sequence of computations.",
"C78": "Model/Session.lean: topologies/base.py compute, limits of executors/base.py, nb_cpu_cores.py; case analysis; induction over runs of the asynchronous executor for zero workers.",
"C79": "Model/Multiproc.lean: state machine of the parent and of the processes of all the attempts; invariants by induction on the runs, weight decreasing at each action.",
"C80": "Model/LogFile.lean: the lines written by the executors and the parser, as functions on lists of characters; the words of the lines are computed, induction on the events.",
"C81": "Real matrices indexed by centers, constant and coordinates; det = 0 stands for LinAlgError. Lemmas/ThinPlate.lean proves that s log s of the squared distance is conditionally positive definite: the form of s log (s + l) decreases with l (its derivative is -l times the form of 1/(s+l), which is an integral of Gaussian forms) and tends to 0. Solvability, optimality and the effect of the coefficient follow; derivatives by HasDerivAt, including at the centers.",
"C82": "State of the result object before and after the call; solver, evaluation and SciPy are parameters with hypotheses that C81 justifies; reuse of the sub-domain theorems of C42; numpy mask assignment modelled and its elements characterised by induction.",
"C83": "Model of the operations on the h5netcdf file (dimensions, variables, refused names), of the try block without exception type, and of the passes; invariant on the names used by the previous passes; injectivity of the names of variables and dimensions.",
"C84": "Model/SurfaceFrame.lean: process_frame_func with the in-place changes of the array and of self.ref, arrays with a type of numbers, the computation of the phase being a parameter. Exact sums of lists; induction on the sequence of frames; concrete witnesses for the violations.",
"C85": "Model/SurfaceHeight.lean: the detection of the jumps (for its exceptions), the formula, the correction of positions with griddata as a parameter, the subtraction of the reference. Field arithmetic; lists of pixels in the order of reshape.",
"C86": "Model/SurfaceFrame.lean (getBorders) and Model/SurfaceHeight.lean (setBordersZero, resize as a parameter). Median of a list with a majority by counting in the sorted list; Python slices with negative indices by omega.",
"C87": "Model/SurfacePhase.lean models np.unwrap over the reals; induction on the index in a line, then on the line (Itoh's condition); counter-example with four angles.",
"C88": "Model/SurfacePhase.lean; the response to exponentials is computed from the orthogonality of the exponentials (Lemmas/Dft.lean); the frequencies of the shifted filter are computed for even and odd sizes; the argmax is characterised by induction.",
"C89": "Model/FieldOps.lean: np.gradient on rationals; field_simp/ring for the stencils, commutation of the two derivatives for the identities.",
"C90": "Model/FieldOps.lean: windows with the reflect mode of SciPy; inside windows by arithmetic on indices, iterations by induction on the agreement region.",
"C91": "Model/FieldOps.lean: the result of the function is a new array or a reference to the shared buffer; induction on the list of fields.",
"C92": "Model/FieldOps.lean: a file is a list of datasets; save and fromFile branch by branch.",
"C93": "Model/Monitor.lean: events of the processes (result, truncation, writing) interleaved with the readings of the parent and of the monitoring application; invariant on the content of the file, then induction on the turns of the loop. Props/Monitor.lean.",
"C94": "Model/Pipes.lean: a child process as a sequence of writes into pipes of bounded capacity which nobody reads; conservation of the bytes and a decreasing measure give the exact condition of exit; combined with the loop of MultiExecutorBase (Model/Multi.lean). Props/Pipes.lean.",
"C95": "Model/Im2Im.lean: parsing of the dotted name, choice of the function, apply_im2im_filter, methods of the work, the topology as a chain of works; uses the theorems on chains for all schedules (C09, C10). Props/Im2Im.lean.",
"C96": "Model/Synthetic.lean: the function with streams of random numbers and exact arithmetic; both images are expressed as images of the same particles. Props/Synthetic.lean.",
"C97": "Model/Launch.lean: Python signatures, getfullargspec, zip, binding of keyword arguments; induction on the signatures. Props/Launch.lean.",
"C98": "Model/Launch.lean: detection of the program, mode, construction and binding of the arguments of compute. Props/Launch.lean.",
"C99": "Model of the four tasks of a server as a transition system; invariant: the jobs are, in order, sent, being sent, to be sent, being executed, to be executed, in the pipe. The consequence for the executor uses the model and the invariant of C16.",
"C100": "State machine of the viewer (images added to the axes, dictionary of the images, flags, boxes) with the events of the user; invariant: exactly one image visible, the one of the current file; induction over the history.",
"C101": "State machine with a fuel for the mutual calls between the box and the index; invariant and induction over the history.",
"C102": "Images as lists of reals; minima and maxima by induction on the list, then order of affine maps and monotonicity of the real power; equalisation algorithms and filters are arbitrary functions.",
"C103": "prepare_path_dir_result of the main process, then the same function with the parameters given to a sub-process, on any later file system which contains the directory; case analysis on the mode.",
"C104": "executions with the signal and the return of the launchers (Model/StopSignal.lean); projection to the executions of the executor, potential decreasing at each step after the signal (Exec/Signal.lean)",
"C105": "Model of get_points, pixel2line, the nodes, the filling of the NaN nodes and the interpolation of the grid; the SVD and the scipy interpolation are arguments with a specification; proof that the first singular vector is the best direction by the eigenvalue bound",
"C106": "Composition of C65 (values of the map), C66 (norm), equality case of Cauchy-Schwarz (sum of the squares of the differences) for the strict maximum, and of the specification of the search of the peaks (C36); converse from the rejection of the border of the map.",
"C107": "Definition of the sums computed by scipy, specification of the correlation of two windows with the same centre; case analysis on the parities.",
"C108": "Cauchy-Schwarz inequality on the window; circular translation for the pixels outside; witnesses computed for the failures.",
"C109": "Real model of the three fits; the least squares with the pseudo-inverse (full column rank of the design matrix proved for every nsubpix); exactness by P M = 1; odd sums for the symmetric peaks; witnesses with logarithms of rationals.",
"C110": "Homogeneity of the formulas; the logarithm of the factor is absorbed by the constant column of the design matrix.",
"C111": "The displaced windows of translated images are equal up to a constant; C106 for the zero displacement of the windows, symmetry of the autocorrelation for the refinement (C109), then the sum with the rounded estimate (C34) and the bounds of the interpolation (C82).",
"C112": "Transition system of the main process (launch, polling, handler) and of n processes (not started, young, ready, ended, collected) with pending signals; invariants and a measure on runs of any length; witnesses of the violations as concrete runs closed under all continuations.",
"C113": "Model/WholePiv.lean composes the models of the mask, grids, FFT correlation, peaks, loop, sub-pixel, fix and interpolation into WorkPIV.calcul. One step lemma for the first pass and one for a later pass with its fix; induction over the passes (C74_chain); liveness by induction on the list of works.",
"C114": "Whole computation (Model/WholePiv.lean). One lemma per stage: the loop (peaks within the limit, refinement bounded), the fix (C40), and the chain of passes (C74_chain); no hypothesis on the images.",
"C115": "model of ArrayCouple, of the methods of BaseWorkFromSerie and of the functions of the works of TopologyPIV; the value saved for a couple is read in the events given by C23 and compared with the trial",
"C116": "Model/Plugins.lean: cache of the entry points, functions of executors/__init__.py, choice of the class by compute, table of pyproject.toml. Case analysis of the effect of each event on the cache, induction on the histories.",
"C117": "Composition of the models of the distribution, of the executors, of the PIV topology and of the directory (Model/WholeRun.lean): every write is an event of the log of a process, the log of a process at any time is the beginning of the specified events (C104, C23), and the writes of the processes are interleaved in any order; the final directory depends only on the set of the writes.",
"C118": "Model/WholeImages.lean puts together selection, distribution (C04), chains (C09, C10, C104) and directory; an invariant on the files for any interleaving of the writes; instances for image to image and BOS.",
"C119": "Model/WholePreproc.lean composes the model of the preprocessing topology with the asynchronous and sequential executors, the distribution over processes, the selection of mode complete and a directory of files; the log of each process is related to its subsets (C25, C104), then the interleaved writes to the directory; invariant 'whole' by induction on the history of interrupted computations.",
"C120": "compose C117_any_execution with C113_whole_partial and the positions of the vectors (C113_positions_partial): the velocity of the topology is the model of all the passes for a couple which is already masked",
"C121": "small-step model of the threads on a shared object (Model/Threads.lean); rely-guarantee invariant on the attributes for all the schedules; explicit schedules for the negations; equality with the model of the passes (C74, C75) when alone",
"C122": "Model of the constructor of the window (arrays chosen, in place change of sign, arrows, removed vectors) and of the events (Model/DisplayPiv.lean); lemmas on indexed lists give the arrow of every vector, and inversion of the function which describes a vector gives the text and the marks; the failures are proved for all results where possible.",
"C123": "Model/WholeSurface: files, works, executors and names composed into relations between the directory before and after; the log of any execution is a prefix of the history required by the specification (invariant of C29), from which the files written are computed; failures by the traps of C29.",
"C124": "Model/TomoArray.lean: threshold, nonzero entries, nearest value (any nearest entry, distances over the reals), paths, files as a function of their path, save/load/clear, blocks which fail, loops of the user. The files of the loops are computed by filtering the images of each file and folding; products of roots by Real.list_prod_map_rpow.",
"C125": "Model/CalibCamera.lean: sort by merge sort, searchsorted as the number of smaller abscissae, clip, line through two points. Strictly sorted lists: position of the height by counting; bracket by Nat.find; composition with C55_array_partial.",
"C126": "Heap of fields and of series, dispatch of the operators of Python, slices of CPython; induction over the references of the series; temporal transform composed with C51.",
"C127": "Slices of the coordinates and of the arrays, quiver of matplotlib as a total function, state machine of the wheel events; invariants over all the event sequences.",
"C128": "Discrete Fourier transforms of NumPy (Dft.lean) with fftshift and fftfreq; inversion in one and two dimensions from C51.",
"C129": "Arrays in a memory with views (Model/DisplayPre.lean); the percentile is characterised by counting in the sorted list; the in-place saturation by frame lemmas on disjoint blocks; the keys by induction.",
"C130": "Model of the three save methods, of the names and of the loading over a disk with files and directories (Model/SavePiv.lean); theorems by case analysis on the kinds of paths, with path join and splitting of extensions for every name.",
"C131": "Model of repr of tuples of texts and of the evaluation of literals as a state machine over characters (Model/CoupleFile.lean); induction on the texts, with the inverse of the hexadecimal escapes; composition with the model of the computation from a serie (TryWork).",
"C132": "Model of the header, of the choice of the files and of plot_nb_workers (Model/LogPlot.lean), composed with C80; the cumulated sum at a sorted position is rewritten, through the permutation, as a sum over the works of the indicators of start and end.",
"C133": "State machine of what stays in the topology between computations (range or indices of the series, first work, results) and of the files; invariant 'the topology still describes all the items' preserved by the executors other than multi_exec_async (induction on the history); the violations by invariants (source without first work, indices without an item) and by induction on the number of computations (each one divides the range by two).",
"C134": "Two processes as a transition system: the operations of _release_lock, the clock, the kills; each reading of the monitor sees a world which is later than the previous reading, with anything in between. Invariant linking the lock, time_end.txt and the state of the job; induction on the session of the monitor.",
"C135": "A file system is a table from absolute paths to listings; glob, fnmatch, os.path.split and os.path.join are modelled on lists of characters. The patterns without special characters are shown to match exactly themselves, the star everything, and [c] exactly the character c; the lists shown are then computed for all listings.",
"C136": "Windows with the five kinds of borders are modelled as lists of indices; for each border but wrap the set of indices read is shown to be the part of the window which is in the image, for all sizes; the minimum is then compared with the one of the default backend (C56).",
"C137": "pix2phys_UV modelled on top of pix2phys of C53; rotation of the normal by matrix algebra over the reals; the displacement is half the difference of the two end points, by the round trip of C53.",
"C138": "model of compute_grid, of np.gradient with two steps, of the methods with their attributes and of the constructor of the series; proofs on arbitrary grids and on all fields which are linear in the coordinates; negations for the exchanged directions and the series",
"C139": "Fold of log_exception over the events of the executors (Model/ExceptionFiles.lean); the injectivity of the file name is proved from the prefix condition on the names; combined with C14 for finished executions.",
"C140": "The loops of the compiled function and the operations on arrays of the other one are modelled separately over an arithmetic without laws (Model/TpsLoops.lean); both are proved equal to one specification of the entries by induction on the loops.",
"C141": "Threads and blocks as events in an arbitrary order; tree reduction by an invariant on the power of two; launches by an invariant on the prefix of events; negations with concrete schedules.",
"C142": "Model of make_code_graphviz as a function from the works and queues to the text of the file; a separate reader of lines of graphviz (quoted identifiers, arrows, labels, attributes) is the specification, and reading the text back is proved to give the graph by induction over the queues, the works and their links.",
"C143": "Model of the command on a disk with directories and images (Verif/Model/MeanCommand.lean); reduction to C21 (any splitting and schedule) and C05/C06 (preparation of the directory).",
"C144": "Model/Together.lean: a history is the list of the writes of all the computations in the order of time; each computation looks at the directory at some time of the history and its processes start later. Every write is the result of its couple or image (as in C117, C118), so at any time the directory is clean, and what an ended computation does not write was there when it looked and stays right.",
"C145": "Model of PreprocResults.save for all the formats with the external writers as parameters, and of the selection of the subsets in mode complete; induction on the images of a result, on the subsets and on the number of computations.",
"C146": "Model/ExampleTopology.lean: the functions of topologies/example.py and the topology as an instance of the topologies making groups (each key is a group of one image); the invariants of Exec/Groups.lean, generalised to a function which loops over any list of groups containing those which are ready; the keys by unicity of the last underscore; the powers by induction on the number of loops. Images are lists of rows of naturals modulo 256.",
"C147": "Model/ImageSamples.lean: get_path_image_samples on a set of existing paths, with hg/git clone as a program with three kinds of ends. One call is characterised by the first existing candidate; the histories of calls (function after) are treated by showing that the files are a fixed point of all calls, or by induction on the failed downloads.",
"C148": "the decorators are modelled for arrays of 2, 3 and 4 dimensions and for sequences; induction over the images; a colour image is an array (lines, columns, colours), for which the windows of the minimum filter are computed for all sizes.",
"C149": "a process with the list of the module and all parameter objects; induction over the history with the exact dictionaries of parameters as invariant.",
"C150": "The object, its file and its figures as functions (Model/DirectFiles.lean) on top of the model of the calibration; induction over the calls of save and over the pixels, bounds of the ranges with floor divisions.",
"C151": "make_params_calibration as a function of the attributes given by fluiddyn (Model/UvmatCalib.lean); induction over the numbered slices; composed with the model of calib_tsai.py.",
"C152": "The window as a state machine with widgets, layout and parents (Model/LauncherWindow.lean); invariant: one widget in the layout and in the window, which is that of qt_params; induction over the actions.",
"C153": "Kinds as none, text or sequence with the meaning of in for each of them; exec_one_shot_works and define_functions as functions of the kind (Model/WorkKinds.lean); induction over the works.",
"C154": "Functions of the outcome of the reading, of the state of the memory and of the attributes of the object (Model/UtilFunctions.lean); case analysis, induction for the join.",
"C155": "Model the three functions which make the text, with the format of two decimals (nearest, even), and the attributes of the executors they read; prove the whole text, with each number within half a hundredth of what it should be; prove the wrong time of CPU with exec_async_sequential.",
"C156": "Model the arrays of numpy (shape, transposition, stacking), what pyqtgraph displays for an array, the docks and their dictionary of titles, and the function called when the mouse moves; induction over the arguments for the docks and the frames; floors and ceilings for the position of the mouse.",
"C157": "Model/LogDurations.lean: what is given to matplotlib, from the launches and ends of Model/LogFile.lean and the analysis of Model/LogPlot.lean; proved by induction on the names and composition with C80 and C132.",
"C158": "Model/BosReference.lean: paths of pathlib as parts with a mark for absolute paths, files of the computer as any function; branch by branch, and composition with C28 for the images which are computed.",
"C159": "Containers as trees; copy_doc and build_branch as mutual recursions; by induction on the path to a container, in both directions (container to branch and branch to container); selections by induction on their sequence.",
"C160": "Memory with shared blocks of Model/DisplayPre; copies are new blocks, so that the saturation does not reach the old ones; the keys by induction on their sequence."
}