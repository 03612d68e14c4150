# Formal model of fluidimage in Lean 4: design

This file is assembled by `tools/design.py` from `tools/design_head.md` (hand-written) and from
`properties.jsonl`, `MANIFEST.json` and the Lean sources (tables).

## Layout

* `lean/Verif/Py/…`      – small library of Python notions used by the models (insertion-ordered dictionaries,
  `range`, slices, exceptions, decimal text of integers, `split`, `strip`…).
* `lean/Verif/Model/…`   – the model, function by function; every definition cites the file and lines of
  `/repo/src/fluidimage` it models and says where it simplifies.
* `lean/Verif/Spec/…`    – small specifications written without the helpers of the model (the other specifications
  are stated directly in the statement of the theorems or just above them in `Props/`).
* `lean/Verif/Exec/…`    – the theory of the executors (see below).
* `lean/Verif/Lemmas/…`  – helper lemmas.
* `lean/Verif/Props/…`   – the property theorems, named `Cxx_…`, one file per area, each with non-vacuity examples.
* `seeded/LOG.jsonl`     – the wrong programs tried against the theorems.
* `tools/`               – `design.py` (this file), `axioms.sh` (audit of the axioms).

Technique: shallow embedding.  Python functions are total computable Lean functions, exceptions are values
(`Except PyErr α`), loops are structural recursions or folds with the same order of effects as the code, objects with
history (queues, directories, lock files, executors, servers) are state machines.  Loops of the code that may not
terminate are modelled by relations or by functions with a number of rounds (`Option`), and "terminates" is then a
theorem and never a consequence of the encoding.

When the code violates the English property, the negation is proved with a concrete reachable witness or, better, for
all inputs of a class (suffix `_fails` or a telling name), the strongest true part is proved (`_partial` when it is
less than the property), and the disagreement is in the table below.  The statements of `properties.jsonl` are not
weakened to follow the code.

### The executors

`Model/Executor.lean` gives one notion of topology (`Topology`: item works with input queue, output queue and kind; global
works which transform all the queues) and the three executors that run it: `seqLoop` (exec_sequential.py), the labelled
transition system `astep` of `exec_async.py` and `exec_async_sequential.py` (pending `start_soon` tasks, running tasks,
counters of workers, launchers in their `while not self._has_to_stop` loops, stop flag, bounded queues).  A run is any
list of labels (`ARun`), so that a theorem about all runs is a theorem about all schedules.

* `Contract`, `Preserve`, `NoCrash`: a global work has a contract (invariant `J : queues → log → Prop`); an invariant of the
  works is an invariant of the executor for all schedules, with no crash of the launchers.
* `Flow`, `Bounds`, `Chain`, `ChainRun`: conservation ("effects done + effects due = constant") for chains of works.
* `Live`, `Labels`, `CanFinish`: absence of deadlock, fair termination (every infinite fair run would decrease a measure).
* `Groups`, `GroupMake`, `GroupDict`, `GroupRun`, `GroupEnd`, `GroupLive`, `GroupStuck`, `Windows`: topologies with a global
  work which groups images (PIV couples, preprocessing subsets) and, for the termination, the windows of images.
* `Tracking`, `TrackStep`, `TrackRun`, `TrackEnd`, `TrackTrap`: the global work of the surface tracking topology.
* `StopIfError`: runs with `stop_if_error`.
* `Trap`: a set of states that no label leaves and in which the run has not ended; used for all the "never ends" theorems.

## Trusted base

* The Lean 4.33.0 kernel.
* The axioms `propext`, `Classical.choice`, `Quot.sound` and no other: `tools/axioms.sh` prints the axioms of every theorem
  of `MANIFEST.json`; the result is the last table of this file.  No axiom is declared, there is no `sorry`, `native_decide`, `bv_decide`
  or `implemented_by` in the sources.
* The faithfulness of the model to the Python text: the code is read, not executed here.
* The behaviour of Python and of the libraries, as described in the comments of the models: insertion order of
  dictionaries, `range`, slices, `str(int)`, `np.arange`, `np.unique`, `np.lexsort`, `np.allclose`, negative indices of numpy
  arrays, `scipy.ndimage` border modes and rank filters, trio's cooperative scheduling (a task runs without interruption
  between two `await`), h5py's alphabetical order of groups and refusal of existing names, `fluiddyn`'s series of images.
* Numbers: floating-point numbers are idealised as integers, rationals, reals or elements of an arbitrary linear order
  with NaN as `none`, as said in each model.  Rounding is a parameter (`rnd`, `r32`: any function, or any monotone
  rounding) in `Mean`, `CorrectCouple`, `PivResults`; elsewhere it is not modelled.
* Discrete Fourier transforms of the libraries are modelled by the definition (finite sums over ℂ).

## What is modelled and what is not

Modelled: the files in the table of models below, for the lines cited in each definition.

Not modelled: the GUIs (`gui/*`, `data_objects/display_*.py`), plots, the theano / pycuda / skcuda correlations,
`logging` output, the parsing of XML parameters by fluiddyn, real time, memory in bytes and operating-system
scheduling; the numerical quality of interpolations, fits, FFTs and OpenCV routines (they are parameters of the
models: arbitrary functions, with hypotheses written in the theorems when one is needed).

