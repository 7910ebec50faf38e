# A Lean 4 model of polycap

Source modelled: `/repo/src/*.c` at the pinned commit.  Lean modules: `lean/Verif/*.lean` (the model), `lean/Verif/Props/*.lean`
(specifications and property theorems, one file per area).  `properties.jsonl` lists the properties, `MANIFEST.json` maps them to
theorem names, `seeded/LOG.jsonl` records the wrong programs the theorems were tried against.

## 1. Trusted base

* Lean 4.33.0's kernel, and the statement of each theorem (with the definitions it mentions).
* Axioms: every theorem named in the manifest depends on a subset of `propext`, `Classical.choice`, `Quot.sound` (checked with
  `#print axioms` on all of them; no axiom is declared in this project, nothing is evaluated outside the kernel).
* The translation from C to Lean, done by hand, function by function; each definition cites the lines it models.  Where a
  definition simplifies, its comment says so; the simplifications are collected in section 4.
* Theorems are about the model's numbers: see section 2 for what that means for floating point.
* The translation was tested, not proved: `tools/conform/run.sh` executes the model (with `Float`) on the inputs of the project's unit
  tests of segment search, reflectivity, reflection, tracing, wall tracing, leaks and launch (`tests/capil.c`, `photon.c`, `leaks.c`)
  and compares with the values those tests assert – about 250 values including every coordinate, direction, weight and leak event; all
  agree (`tools/conform/result.txt`).  xraylib is not available here: its totals at 10 keV are taken from the tests, at the other
  energies approximate ones are used and weights compared to 1e-3.

## 2. Numbers

Model functions are written once, over an abstract number type `α` with a class `CNum α` of the C operations used (`+ - * /`,
Bool-valued comparisons, `sqrt exp sin cos tan atan acos fabs round`, literals).  Instances:

* `ℝ` – exact arithmetic.  Division by zero and square roots of negatives are totalised in Mathlib, so theorems at `ℝ` carry explicit
  non-degeneracy hypotheses; the degenerate points are treated separately at `XR`.
* `XR` = `nan | +inf | -inf | fin ℝ` – IEEE special values around an exact finite part, unsigned zero.  Used for guards and NaN findings.
* Control-flow, memory, concurrency and file theorems are stated for *every* `CNum α` with no law assumed, so they hold for IEEE
  doubles too.

Rounding of finite doubles is not modelled: geometric and optical theorems (C04, C05, C09, C12, C13, C15–C23, C28–C30, C33, C42–C44, C48, C51, and the parts about space, weights and limits of C80–C109)
speak about exact arithmetic.  Where the result of a simulation depends on the order of floating-point additions (the sums of exit
weights, C34) equality of the efficiencies is proved over `ℝ`; with doubles it holds up to rounding.

## 3. Memory, concurrency, external code

* `Heap`: addresses are naturals, `mem : addr → Option Block`; an oracle decides which `malloc` fails; reading, writing or freeing a
  dead address, a NULL dereference, reading uninitialised memory or an out-of-range index give the outcome *undefined behaviour*
  (`none` of the monad `CM`, `ub` of the monad `Out`).  Recursions whose C counterpart may not end take fuel; `fuel` is a third outcome
  and termination theorems bound it.
* OpenMP: the threads of the simulation are small-step programs (`Sim.lean`); a run is any sequence of steps of any threads, with the
  critical sections, the work-shared loop (any distribution of the slots over the threads) and the barriers as in the source.
* xraylib (`CS_Total`, `Fi`, `AtomicWeight`, atomic limits), gsl's polynomial fit, the random generators (one stream per thread), HDF5
  (every call may fail on its own), `atoi`, file systems: parameters, universally quantified.

## 4. What is modelled

| C function (file) | Lean | notes |
|---|---|---|
| polycap-error.c: all functions | `Err` | formatted messages: one opaque string; `vsnprintf` sizing (22-41) not modelled |
| polycap-profile.c: `polycap_profile_new`, `_new_from_arrays`, `_get_*`, `_free`, `_validate` | `Profile` | gsl fit = parameter |
| polycap-profile.c: `polycap_profile_new_from_file` | `ProfileFile` | files = first integer + list of numbers/other words; FILE handles are heap blocks |
| polycap-description.c: all functions | `Description`, `ReadLine` | |
| polycap-photon.c: `scatf`, `new`, `within_pc_boundary`, `pc_intersect`, `norm`, `scalar`, `launch` | `Geom`, `Photon` | value level; the error slot is in `LaunchErr`, memory and allocation failures in `LaunchMem` |
| polycap-photon.c: `leak_new`, `get_*leak_data`, `leak_free`, `photon_free` | `Memory` | heap level |
| polycap-capil.c: `segment`, `refl_polar`, `reflect`, `trace_wall`, `trace` | `Segment`, `Capil` | commented-out code (257-442) ignored; debug prints not modelled; error slot in `LaunchErr` |
| polycap-source.c: `get_photon`, `source_new`, `source_new_from_file`, `source_free`, `get_description` | `Source`, `SourceFile`, `SourceFileMem` (with memory) | file = list of tokens; numbers with a decimal point in integer fields are outside the model |
| polycap-source.c: `get_transmission_efficiencies` | `Sim`, `Memory` | counters are unbounded naturals (int64 overflow not modelled) except the 32-bit progress expression `j*100` |
| polycap-transmission-efficiencies.c: error tables, HDF5 writer | `H5Tables`, `Hdf5` | HDF5 = any failure pattern; files = association lists of datasets and attributes |
| polycap-transmission-efficiencies.c: getters, `_free` | `Getters`, `Memory` | |
| polycap-photon.c `launch`, `pc_intersect`, polycap-capil.c (all called from launch): the error slot | `LaunchErr` | error code only, the message is not modelled; proved to compute the same values as `Photon` |
| polycap-photon.c `launch`, `scatf`, `pc_intersect`, polycap-capil.c `reflect`, `trace`, `trace_wall`: allocation | `LaunchMem` | every malloc, realloc, free, each may fail; numbers outside arrays stay in the value `Photon`; the axis arrays' contents are not stored (they are functions); after a failed allocation deep in the tracing the photon value is left as it was; proved to compute the same values as `Photon` when memory suffices |
| polycap-source.c `get_transmission_efficiencies`, parallel region: allocation | `SimMem` | every malloc, realloc, free of a thread and of all it calls, each may fail; steps interleaved as in `Sim`; result arrays are values (their memory: `Memory`); a generator is one opaque block; proved to compute the same values as `Sim` when memory suffices |
| polycap-photon.c: `polycap_photon_new` with its error slot, getters | `PhotonObj` | value level; the block is in `Memory` and `Session` |
| polycap-rng.c | `Rng`; parameter streams in the rest of the model | the external generator (gsl, easyRNG) is a parameter; Windows seeding not modelled |
| main.c, polycap-aux.c | `MainProg` | `atoi` = parameter |
| the public API as a whole (include/polycap.h) | `Session` | histories of calls; photons and results as values plus the pointer they alias; allocations succeed |
| python/polycap.pyx: exception translation, Profile, Description, Source, Photon (constructors, launch), TransmissionEfficiencies (constructor, write) | `PyApi` | statements over the `Session` machine; exceptions are caught and the program goes on; numpy = buffer, first element, stride |
| python/polycap.pyx: properties of TransmissionEfficiencies, leak properties and `__dealloc__` of Photon | `PyResults` | numpy copies by value; read counts and lost blocks are counted, photon leaks on the block heap |
| tests, build system, Windows branches | not modelled | |

## 5. Per-property plan

Column *proof*: technique.  "finding" = the property is false of the code for some inputs; the negation is proved with a witness
and the part that holds is proved under an explicit condition (`_partial`).

| id | model | proof |
|----|-------|-------|
| C01, C02 | `Err`: error API on a heap; histories = lists of operations | refinement of every ownership-respecting history to a map of variables, induction on the history |
| C03, C06 | `Profile.profileNew` | case analysis, generic in the number type; exact domain over ℝ |
| C04 | conical branch | real algebra |
| C05 | ellipsoidal branch at `XR` | real algebra; case analysis on the sign of `s·L-2d` with IEEE special values gives an exact condition; findings |
| C07 | constructors on the heap with an allocation oracle | case split on every failing allocation, heap equality; findings |
| C08, C14 | constructors and getters on the heap | symbolic execution, independence = frame statement |
| C09, C51 | `validate` | exact iff with the geometric statement over all outer-shell capillaries; C51 finding, exact no-overlap condition for any two capillaries anywhere along the optic, and what a validated optic still guarantees |
| C10, C11, C12 | `descriptionNew`, `checkWeight` | exact domain; induction on weights; findings for C11, C12 |
| C13 | `nShells`, `nCapFull`, `openArea` | real algebra with square roots and rounding |
| C15 | `within_pc_boundary` | convex geometry over ℝ |
| C16, C17 | cube rounding of hexagonal coordinates | lattice argument; finding for C17 |
| C18, C19, C43 | `capil_segment` | quadratic equation over ℝ; at `XR` the NaN results characterised exactly |
| C20, C42 | `reflect`, `trace`, `launch` | induction over the trajectory |
| C21, C59 | `refl_polar` | complex numbers; C59: the index against a separate textbook specification (`Glass.index`), amplitudes; finding for p |
| C22, C23 | weights and leak budget | induction on the recursion of reflect / trace_wall / trace |
| C24, C25, C26, C53 | `photon_launch` | case analysis of the whole call; witnesses for the findings; at `XR` the fate of a photon parallel to its wall; termination by the bounded number of segments and reflections |
| C27–C31 | `source_new`, `get_photon` | domain iff; geometry over ℝ; stream consumption generic |
| C32–C36, C49, C52, C54 | threads as small-step programs | invariants over all reachable states of all schedules; termination measure; C36 finding |
| C37, C45, C47 | getters, leak copies, frees on the heap | symbolic execution, list lemmas; C37 finding |
| C38–C40 | HDF5 call sequence with a failure oracle, error tables | induction over the list of steps; finding for C39 |
| C41 | `read_input_line` over a byte stream | loop invariant; exact characterisation of undefined behaviour for any allocator |
| C44, C48 | `pc_intersect`, segment index | loop invariants; finding for C44 |
| C46 | `photon_scatf` | finite sums |
| C50, C58, C60 | `source_new_from_file` over token lists | symbolic execution; findings; outcome for a complete file cut anywhere or with a word put anywhere |
| C55 | `profile_new_from_file` with FILE objects on the heap | staged symbolic execution; findings |
| C56, C57 | `main`, string helpers | case analysis, induction on the string |
| C61, C62 | `Session`: all public objects on one heap, histories = lists of calls | refinement to a machine of plain values, induction on the history; footprint (ownership) invariant |
| C63 | same | finding: use after free and aliasing witnesses for every reachable state and on complete histories |
| C64 | `PyApi.setException` on the error heap | case analysis |
| C65, C66 | byte-level copy; arrays as buffer + offset + stride | list lemmas; findings |
| C67 | `PyApi.pyRun` over the session machine | simulation between two machines, invariant on program prefixes; C61 |
| C68 | same | finding: crashes from every reachable state and on a complete program |
| C69 | `PyApi` + `launch` over ℝ | C23-C26, C53; errors from `LaunchErr` (C79); findings |
| C70 | `PyResults` (lazy caches over the C getters) over `Get` | invariant over read sequences (which caches are filled); findings |
| C71 | `PyResults` on the `Memo` heap | invariant (cached blocks disjoint from old memory), framing; findings |
| C72 | `Rng` on a heap of generator objects | invariant over histories; findings |
| C73 | `reflect`, `trace`, `launch` over ℝ, getters | induction on the recursion depth (reflect/trace), invariant of the flight; composed with the simulation and the getters |
| C74 | `wallExit`, `traceWall`, `reflect`, `trace`, `launch` over ℝ | exact condition for the search to leave the arrays; induction on the recursion depth with an inductive light-ray specification; findings |
| C75 | `PyApi.pyStep` over any C machine | congruence in the machine: equal on fitting arguments ⇒ equal programs |
| C76 | `PhotonObj` over ℝ | case analysis; induction on the list of launches |
| C77 | `Sim`: progress counter of thread 0 | invariant: counter = number of saved photons; arithmetic of the period; construction of a run to the bad report |
| C78 | paraboloidal branch over ℝ, fit = any least-squares quadratic (specified by minimality) | normal equations from minimality; third divided difference; closed form for the symmetric nodes; findings |
| C79 | `LaunchErr`: every function launch calls with its error argument | erasure (values agree with `Photon`), monotonicity of the slot, case analysis over ℝ; findings |
| C80 | `launchE`, `trace`, `segment` over ℝ | induction over the remaining segments: every segment reports no hit; composition with the launch |
| C81 | `LaunchMem`: launch and all it calls on the heap, any allocation may fail | separation-style ownership (`Own`, `Frame`), simulation of the value model by the heap model through the recursion; exact final heap; findings by running the failing branch |
| C82 | `traceWall`, `reflect`, `trace`, `launch`, `attempt` and the leak getters over ℝ | invariant `OnCourse` through the mutual recursion of reflect and trace; wall tracing face by face; spec (`Passes`, `Emerges`, `ExtPlace`, `IntPlace`) independent of the model; finding with a witness |
| C83 | `SimMem`: the parallel region of the simulation on a shared heap, any interleaving, any allocation may fail | separation layer (`Piece`, `Sep`), step-by-step simulation of `Sim` in both directions, ownership per thread carried through every step; frame by replacing the other threads' pieces with their exact content; findings by running the failing branch |
| C84 | `launch`, `trace`, `segment` over ℝ | first-crossing property of the segment search by induction over the segments; continuity (first zero of distance² − radius² along the line) carried across the profile points; induction over the reflections; finding with a witness |
| C85 | `launch`, `trace`, `reflect` over ℝ with both values of the leak switch | two-run simulation: relation "equal but for the leak records", induction over the reflections; finding with a witness (thick-walled tube, wall met at the exit plane) |
| C86 | `launch`, `trace`, `reflect`, `reflEnergies`, `reflPolar` over ℝ | closed form of the energy loop (the electric vector does not depend on the energy; normalising twice is normalising once), two-run simulation over lists of channels, induction over the reflections; both cases exhibited in a rough tube |
| C87 | `traceSearch`, `traceHit`, `launchE` over ℝ | what a -3 of the search means, with the profile point passed last as an invariant of the loop; two straight tubes as counterexamples (general in radius and length) |
| C88 | `launch`, `traceWall`, `reflect`, `trace` over ℝ, loops and recursion with fuel | “there is a result every sufficient fuel gives”: the walk through glass advances by at least a tenth of the least radius, every reflection lies at least 1e-5 cm downstream of the previous one (measure for the recursion); finding: radius 0, the step is 0, for every fuel |
| C89 | `launch` with leak calculation over ℝ (`reflect`, `reflectLeak`, `traceLoop`, `launchWall`) | specification `Course`/`Fate`: what may become of light, as an inductive relation with the multiset of recorded weights, and its energy balance; the code refines it by induction over the recursion of leaking light; monocapillaries meet the hypothesis on bores below the exit plane; counterexample for a polycapillary; NaN finding at `XR` for light along the axis on the entrance glass (FrontNan) |
| C90 | `reflPolar` (`newE`), `reflect`, `trace`, `traceLoop`, `launch` over ℝ | the common factor of the three components pulled out of the root; invariant of the trace loop over the number of reflections; counterexample with the two-reflection zigzag of C24 |
| C91 | `launch`, `traceLoop`, `trace`, `traceSearch`, `segment`, `reflect`, `reflPolar` over ℝ | specification `Way` (inductive: out, absorbed, bounce) in terms of geometry only; the search finds the first wall (soundness and completeness of `segment`), one call of the tracing function is one leg, induction over the way |
| C92 | the same, straight profiles | the quadratic solved in closed form; chord and inclination are invariants of a reflection and the heights shift by one; induction over the number of reflections builds the `Way` of C91 |
| C93 | `attempt`, `startRec`, `exitRec`, `elecRound` (Sim) over ℝ, any interleaving | source polarisation theorem, electric vector of a launch (C90), rounding of components; transported to the slots of the result by the reports of the simulation |
| C94 | the whole launch over ℝ, monocapillary, no leaks | equivariance of every function under the sign changes of x and y, as a relation `Image` between photons, up to `launch`; counterexample by two launches in a straight tube computed with C92 |
| C95 | the whole simulation `Reach` with both values of the leak switch, real launches | forward simulation between the two transition systems, per-photon agreement from C85; finding with a witness (two complete simulations, all numbers given) |
| C96 | `sourceFromFileM`: `source_new_from_file` on the heap, `FILE` object and names as blocks, any allocator | simulation of the value reader with an explicit list of the blocks allocated so far; exact condition for the leaked `FILE`; `SourceFileProf`: the profile files themselves on the same memory, which proves the assumption made about them |
| C97 | `launchM` (LaunchMem) without leak calculation, any allocator; `tempNew` of the leak calculation | explicit list of the blocks requested since the start of the launch (`during`), induction over the tracing loop |
| C98 | `getPhoton` over the infinite product of uniform measures on [0,1) | change of variables with constant Jacobian on the four quarters of the ellipse, coupling of the drawn with the ideal point (M_PI against pi), renewal equation for the rejection loop, independence by splitting the stream |
| C99 | `launch` on two descriptions that differ in the roughness only | both launches in lockstep: same geometry, channels related by ≤; the roughness factor is antitone |
| C100 | `simCfg` runs over streams with the law `draws` (infinite product of uniform measures) | measurability of `attempt` by cutting its domain into countably many pieces (`PW`); independence of the bounds (`Upto`); strong Markov property of the stream (`Reader`), strong law of large numbers, ratio of the sums over the threads |
| C101 | `simCfg`, `openFraction` (areas of the parts of the face the launch treats as open and as glass) | limit of the ratio (strong law as C100) with the law of the start point (C98) and the front-face test of the launch; areas by cutting the entrance into unit cells of the stacking (translation invariance of Lebesgue measure), nearest-axis theorem for the assignment of bores |
| C102 | `reflTot`, `launch` along the ways of C91 | squared moduli of the two coefficients as differences over sums; square of `w` gives sign of its parts; induction along the way |
| C103 | `launch`, `trace`, `segment`, `hexRound` on mirror images | every function of the trace commutes with the mirroring; a start in a bore is assigned to the mirrored capillary (C16); reflections only decide whether the way goes on, induction over the trace loop of two runs side by side |
| C104 | `segment` (normal), `trace`, `launch`, `simCode` | the lateral part of the normal is a multiple of the vector from the axis; so both angular momentum and planes through the axis are kept by every flight and reflection; induction over the trace loop |
| C105 | `segment` (normal), `trace`, `launch`, `launchE` | the axial part of the normal has the sign of the taper, so reflections change the axial component of the direction one way; in a cone the wall through a point contains the line to the apex, so a reflection keeps the component towards the apex, and distance from the apex follows Pythagoras; induction over the trace loop and over `Path` |
| C106 | `launch`, `trace`, `segment` on images under an orthogonal 2x2 matrix | as C103; the search for the wall gives images of one another unless the hexagon ends one of the runs, which then does not get through; witness of the hexagon's effect |
| C107 | `simCfg`, `results` (start, exit and weight arrays) | `Reports` (C30) gives every slot the one exited photon, so sums over slots are sums over the exits of all threads; measurability of the rays by `PW`; limits of ratios as in C100/C101 with the exits as denominator |
| C108 | `simCfg` with `withEnergies`, `results` | a thread's photons with the two lists correspond one by one (`run_rel`, `attempt_same` from C86), so the histories agree up to weights; the efficiencies are sums over the histories (C33). Company: `attempt_company` pointwise for each stream, integrated, and the limits of C100 |
| C109 | `Descr.withRoughness`, `simCfg`, `results` | C99 for transmitted photons, the same induction along the trace for failing ones (`trace_fails`, `loop_fails`), so photon by photon delivery does not fall and counting does not rise (`smooth_photon`); integrated; limits of C100 |
| C110 | `simCfg`, `results` | runs of a thread from one stream are prefixes of one another (`run_nth`, `run_count`, by induction over `ThreadRun`); slots of the report by `Reports` (C30) |
| C111 | `simCfg`, `results` | a thread of the whole and the only thread of its part go through the same photons (`run_photons`); counts, leaks and sums of weights are sums over the photons of all threads (`Reports`, `sumW_total`), split by thread |
| C112 | `getPhoton`, `launch`, `simCfg`, `results` | `userLoop` (the two API calls repeated) gives the photons of a `ThreadRun` (induction); the exits of a thread are its slots in order (`exits_slots`); records and counts by `Reports` (C30) |
| C113 | `getPhoton`, `launch`, `userLoop`, `simCfg` | generation reads only the face of the optic (`photon_same`), launches keep the start (C26, C76) and do not touch the generator; induction over the rounds; simulations through `loop_thread` (C112); return codes at the entrance by C24 at z = 0 |
