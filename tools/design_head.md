# A Lean 4 model of polycap

Source modelled: `/repo/src/*.c` at the pinned commit.  Lean modules: `lean/Verif/*.lean` (the model), `lean/Verif/Props/*.lean`
(specifications and property theorems, one file per area).  `properties.jsonl` lists the properties, `MANIFEST.json` maps them to
theorem names, `seeded/LOG.jsonl` records the wrong programs the theorems were tried against.

## 1. Trusted base

* Lean 4.33.0's kernel, and the statement of each theorem (with the definitions it mentions).
* Axioms: every theorem named in the manifest depends on a subset of `propext`, `Classical.choice`, `Quot.sound` (checked with
  `#print axioms` on all of them; no axiom is declared in this project, nothing is evaluated outside the kernel).
* The translation from C to Lean, done by hand, function by function; each definition cites the lines it models.  Where a
  definition simplifies, its comment says so; the simplifications are collected in section 4.
* Theorems are about the model's numbers: see section 2 for what that means for floating point.
* The translation was tested, not proved: `tools/conform/run.sh` executes the model (with `Float`) on the inputs of the project's unit
  tests of segment search, reflectivity, reflection, tracing, wall tracing, leaks and launch (`tests/capil.c`, `photon.c`, `leaks.c`)
  and compares with the values those tests assert – about 250 values including every coordinate, direction, weight and leak event; all
  agree (`tools/conform/result.txt`).  xraylib is not available here: its totals at 10 keV are taken from the tests, at the other
  energies approximate ones are used and weights compared to 1e-3.

## 2. Numbers

Model functions are written once, over an abstract number type `α` with a class `CNum α` of the C operations used (`+ - * /`,
Bool-valued comparisons, `sqrt exp sin cos tan atan acos fabs round`, literals).  Instances:

* `ℝ` – exact arithmetic.  Division by zero and square roots of negatives are totalised in Mathlib, so theorems at `ℝ` carry explicit
  non-degeneracy hypotheses; the degenerate points are treated separately at `XR`.
* `XR` = `nan | +inf | -inf | fin ℝ` – IEEE special values around an exact finite part, unsigned zero.  Used for guards and NaN findings.
* Control-flow, memory, concurrency and file theorems are stated for *every* `CNum α` with no law assumed, so they hold for IEEE
  doubles too.

Rounding of finite doubles is not modelled: geometric and optical theorems (C04, C05, C09, C12, C13, C15–C23, C28–C30, C33, C42–C44, C48, C51, and the parts about space, weights and limits of C80–C109)
speak about exact arithmetic.  Where the result of a simulation depends on the order of floating-point additions (the sums of exit
weights, C34) equality of the efficiencies is proved over `ℝ`; with doubles it holds up to rounding.

## 3. Memory, concurrency, external code

* `Heap`: addresses are naturals, `mem : addr → Option Block`; an oracle decides which `malloc` fails; reading, writing or freeing a
  dead address, a NULL dereference, reading uninitialised memory or an out-of-range index give the outcome *undefined behaviour*
  (`none` of the monad `CM`, `ub` of the monad `Out`).  Recursions whose C counterpart may not end take fuel; `fuel` is a third outcome
  and termination theorems bound it.
* OpenMP: the threads of the simulation are small-step programs (`Sim.lean`); a run is any sequence of steps of any threads, with the
  critical sections, the work-shared loop (any distribution of the slots over the threads) and the barriers as in the source.
* xraylib (`CS_Total`, `Fi`, `AtomicWeight`, atomic limits), gsl's polynomial fit, the random generators (one stream per thread), HDF5
  (every call may fail on its own), `atoi`, file systems: parameters, universally quantified.

## 4. What is modelled

| C function (file) | Lean | notes |
|---|---|---|
| polycap-error.c: all functions | `Err` | formatted messages: one opaque string; `vsnprintf` sizing (22-41) not modelled |
| polycap-profile.c: `polycap_profile_new`, `_new_from_arrays`, `_get_*`, `_free`, `_validate` | `Profile` | gsl fit = parameter |
| polycap-profile.c: `polycap_profile_new_from_file` | `ProfileFile` | files = first integer + list of numbers/other words; FILE handles are heap blocks |
| polycap-description.c: all functions | `Description`, `ReadLine` | |
| polycap-photon.c: `scatf`, `new`, `within_pc_boundary`, `pc_intersect`, `norm`, `scalar`, `launch` | `Geom`, `Photon` | value level; the error slot is in `LaunchErr`, memory and allocation failures in `LaunchMem` |
| polycap-photon.c: `leak_new`, `get_*leak_data`, `leak_free`, `photon_free` | `Memory` | heap level |
| polycap-capil.c: `segment`, `refl_polar`, `reflect`, `trace_wall`, `trace` | `Segment`, `Capil` | commented-out code (257-442) ignored; debug prints not modelled; error slot in `LaunchErr` |
| polycap-source.c: `get_photon`, `source_new`, `source_new_from_file`, `source_free`, `get_description` | `Source`, `SourceFile`, `SourceFileMem` (with memory) | file = list of tokens; numbers with a decimal point in integer fields are outside the model |
| polycap-source.c: `get_transmission_efficiencies` | `Sim`, `Memory` | counters are unbounded naturals (int64 overflow not modelled) except the 32-bit progress expression `j*100` |
| polycap-transmission-efficiencies.c: error tables, HDF5 writer | `H5Tables`, `Hdf5` | HDF5 = any failure pattern; files = association lists of datasets and attributes |
| polycap-transmission-efficiencies.c: getters, `_free` | `Getters`, `Memory` | |
| polycap-photon.c `launch`, `pc_intersect`, polycap-capil.c (all called from launch): the error slot | `LaunchErr` | error code only, the message is not modelled; proved to compute the same values as `Photon` |
| polycap-photon.c `launch`, `scatf`, `pc_intersect`, polycap-capil.c `reflect`, `trace`, `trace_wall`: allocation | `LaunchMem` | every malloc, realloc, free, each may fail; numbers outside arrays stay in the value `Photon`; the axis arrays' contents are not stored (they are functions); after a failed allocation deep in the tracing the photon value is left as it was; proved to compute the same values as `Photon` when memory suffices |
| polycap-source.c `get_transmission_efficiencies`, parallel region: allocation | `SimMem` | every malloc, realloc, free of a thread and of all it calls, each may fail; steps interleaved as in `Sim`; result arrays are values (their memory: `Memory`); a generator is one opaque block; proved to compute the same values as `Sim` when memory suffices |
| polycap-photon.c: `polycap_photon_new` with its error slot, getters | `PhotonObj` | value level; the block is in `Memory` and `Session` |
| polycap-rng.c | `Rng`; parameter streams in the rest of the model | the external generator (gsl, easyRNG) is a parameter; Windows seeding not modelled |
| main.c, polycap-aux.c | `MainProg` | `atoi` = parameter |
| the public API as a whole (include/polycap.h) | `Session` | histories of calls; photons and results as values plus the pointer they alias; allocations succeed |
| python/polycap.pyx: exception translation, Profile, Description, Source, Photon (constructors, launch), TransmissionEfficiencies (constructor, write) | `PyApi` | statements over the `Session` machine; exceptions are caught and the program goes on; numpy = buffer, first element, stride |
| python/polycap.pyx: properties of TransmissionEfficiencies, leak properties and `__dealloc__` of Photon | `PyResults` | numpy copies by value; read counts and lost blocks are counted, photon leaks on the block heap |
| tests, build system, Windows branches | not modelled | |

