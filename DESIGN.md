# Formal model of MAPLEAF - design

The code under study is the Python/Cython flight simulator in `/repo` (MAPLEAF). It is read as text; it is
never built or run here. The model is written in Lean 4 (`/verif/lean`). `properties.jsonl` lists the claims.

## Ground rules

* Models are shallow: each Python function becomes one Lean function with the same branches. Exceptions are
  values (`Except PyErr α` or a small error inductive, `none` where only "raises" matters). Mutation is returned
  as a new state. Every definition carries a comment `file:lines`.
* Numbers. Algorithms that only need field operations and order are written over an arbitrary linearly ordered
  field `K` (so they are computable at `ℚ` and the theorems hold over `ℝ`). Formulas with roots, trigonometry,
  exponentials or powers are written over `ℝ`. **Floating-point rounding, overflow, NaN and infinities are not
  modelled**, except where a property is about NaN (batch comparison), where a number is an `Option`.
* Text is `List Char`/`String`, dictionaries are association lists with insertion order (Python ≥ 3.7 dicts).
* External effects (file system, random numbers, scheduler, ray, serial port, user callbacks, aerodynamic force
  functions) are parameters or an explicit sequence of external events over which theorems quantify.
* Specifications live in their own definitions/statement files and do not call the model's helpers. Every theorem
  has a neighbouring `example` showing that its hypotheses are met by a concrete non-trivial case.
* Where the code violates the stated property, a `*_violated` theorem proves the negation on a concrete
  witness and a `*_partial` theorem proves the property on the inputs where it is true.

## Trusted base

* Lean's kernel; the axioms `propext`, `Classical.choice`, `Quot.sound` (no others; no `sorry`, no
  `native_decide`, no `bv_decide`). Mathlib definitions used in statements (`ℝ`, `ℚ`, `sqrt`, `sin`, `exp`, `List`, ...).
* The reading of the code: model functions were transcribed by hand from the cited lines.
* Python semantics assumed: dict insertion order, list semantics, `bisect`, `str` methods as transcribed.
* `scipy.stats.rv_histogram` is taken from its documentation: with bins of different widths the values are
  densities, and `ppf` interpolates the bin edges linearly over the cumulated, normalised values.

## Layout

| directory | models | code |
|-----------|--------|------|
| `Verif/Base` | ordered dictionaries, exceptions, string helpers | Python built-ins |
| `Verif/SimDef` | key functions, parser, writer, derived dictionaries, includes, value store, resampling | IO/SimDefinition.py, IO/subDictReader.py |
| `Verif/Log` | log tables and column expansion | IO/Logging.py |
| `Verif/Motion` | vectors, quaternions, rigid-body states, force systems, inertias, state lists, integrators, interpolation, caching | Motion/*, Utilities/* |
| `Verif/GNC` | PID, gain schedules, actuators, control timing, navigation | GNC/* |
| `Verif/ENV` | atmosphere, Earth models, launch rail, turbulence, mean wind, radiosonde files, wind roses, the environment wrapper and the initial state | ENV/* |
| `Verif/Rocket` | composites, events, motors, staging, recovery, aerodynamics, fins, body geometry, component construction, base drag, rocket set-up, separation | Rocket/* |
| `Verif/Run` | simulation loop, results folders, Monte Carlo, batch runs, flight summaries, HIL packets, convergence, optimisation | SimulationRunners/*, IO/rocketFlight.py, IO/HIL.py, IO/gridConvergenceFunctions.py |

`*Model.lean` files hold the transcription, `*Props.lean` files the statements and proofs.

## Plan and result per property

"exact" means an if-and-only-if or equational characterisation of the model function.

| id | what is modelled | how it is proved | result |
|----|------------------|------------------|--------|
| C01 | `writeToFile` line emission and `_parseDictionaryContents` on token lines | induction over the sorted key list, stack of open dictionaries as invariant | exact condition for the round trip; two witnesses where it fails |
| C02 | comment/blank stripping on character lists | equational lemmas on the stripper | holds except inside derived blocks (witness) |
| C03 | parser's key insertion | induction over the lines | duplicates rejected; includes and derived dictionaries overwrite silently (witnesses) |
| C04 | getValue/setValue/removeKey/setIfAbsent as a state machine | refinement to a map over operation lists | holds for trimmed keys; witnesses for untrimmed ones |
| C05 | key functions and list queries | characterisation by path-segment prefix | proved |
| C06 | `_parseDerivedDictionary` | characterisation of the derived key set | proved up to three witnesses (repeat, bracket, collision) |
| C07 | `_loadSubSimDefinition` on an arbitrary include graph | well-founded recursion on unused files | proved: error iff a cycle is reachable |
| C08 | `resampleProbabilisticValues` | induction over draws | no drift unless deviations are nested (witness) |
| C09 | `SubDictReader` getters | case analysis against a two-level lookup | proved |
| C10-C12 | `Log` class | invariant over operation lists; refinement to a table of rows | rectangular always; discard exact iff the right number of rows is deleted (witnesses) |
| C13 | Vector class, text parser | refinement to Mathlib inner-product space; string lemmas | proved up to a missing bracket (witness) |
| C14 | Quaternion class | refinement to Mathlib quaternions | proved |
| C15 | `slerp` and axis-angle functions | trigonometric identities | exact description; two defects (witnesses) |
| C16 | `interpolateRigidBodyStates` | algebra | orientation weight reversed (witness), rest proved |
| C17 | ForceMomentSystem | algebra, permutations | proved |
| C18 | Inertia | list induction, parallel-axis algebra | proved unless two equal inertias are added (witness) |
| C19 | StateList | list induction | see MANIFEST |
| C20 | Butcher tableaus and the stepping routine | exact rational arithmetic, polynomial exactness | see MANIFEST |
| C21-C22 | adaptive loop and limiter | well-founded recursion, invariants | see MANIFEST |
| C23-C24 | Interpolation.py | list induction, ordered-field algebra | see MANIFEST |
| C25 | `cacheLastResult` | invariant over call lists | stale results shown (witness) |
| C26 | AeroParameters caching with an explicit heap cell | state machine | mutation of the cached vector shown (witness) |
| C27 | event detector | invariants over step lists | see MANIFEST |
| C28 | time-step choice around events | case analysis | see MANIFEST |
| C29 | staging | list model of `_stageSeparation` and triggers | defects for three and more stages (witnesses) |
| C30 | CompositeObject | tree induction | see MANIFEST |
| C31 | TabulatedMotor | list induction, integrals of piecewise-linear data | see MANIFEST |
| C32 | RecoverySystem | state machine over interleavings | proved |
| C33-C35 | PID, actuators, control timing | invariants over histories, exponential algebra | see MANIFEST |
| C36 | LaunchRail | algebra, history induction | frame defect (witness) |
| C37 | USStandardAtmosphere | real analysis on layers | see MANIFEST |
| C38 | Earth models | trigonometry | see MANIFEST |
| C39-C40 | turbulence | state machine over query lists, trigonometric bounds | see MANIFEST |
| C41 | mean wind | monotonicity of real powers | see MANIFEST |
| C42 | damping moments and fin rates | power balance `τ·ω ≤ 0` | all components at all Mach numbers (between 0.8 and 1.4 fins at most three local chords long); very slender swept fins drive the roll at Mach 1.2, one configuration feeds pitching (witnesses) |
| C43 | drag correlations | real analysis | continuity fails at four joints (witnesses), bounds proved |
| C44 | nose cones, transitions, tubes, Barrowman helpers | integrals of solids of revolution | cone volume, widening transitions, ogive wetted area wrong (witnesses) |
| C45 | fin sets and slices | sums over directions, list induction | proved for the geometry; 5 to 8 fins raise (witness) |
| C46 | main loop and end detector for an arbitrary step function | induction on remaining steps | exact end for fixed steps; adaptive runs overshoot (witness) |
| C47 | results-folder creation, interleaved processes | invariant over interleavings | never shared; at most 50 processes never give up, 51 may (witness) |
| C48 | ray scheduling loop with an arbitrary scheduler | invariant over completion orders | proved |
| C49-C50 | batch verdicts, sweep refinement | case analysis, list induction | C50 proved; C49 with six witnesses |
| C51 | RocketFlight summaries | list induction | extrema proved; landing of unfinished flights wrong (witness) |
| C52 | HIL packets and send clock | arithmetic, list induction | framing proved; axes conversion is a mirror (witness) |
| C53 | radiosonde file handling | list lemmas | see MANIFEST |
| C54 | numbered file names | least-number argument | proved |
| C55 | grid convergence | real powers and logarithms | exact in the limiter range; RK4 outside it (witness) |
| C56 | parser's treatment of every line | parser machine invariant | stray bracket ends parsing (witness) |
| C57 | unused-key report | refinement to the set of unread keys | KeyError after removal (witness) |
| C58 | orientation update | norm preservation of exponential/quaternion steps | see MANIFEST |
| C59 | rigid-body derivative | Newton-Euler equations | see MANIFEST |
| C60 | first-same-as-last reuse | comparison with fresh evaluation | stale after discontinuities (witness) |
| C61 | variables, trial definitions and costs of Optimization.py for an arbitrary simulation and evaluator | list of writes semantics, relational specification of `!expr!` texts | proved single-threaded; nested optimisation wrong in two ways (witnesses) |
| C62 | starting positions, continuation files, best position | round trip through keys and texts | swarms with two or more variables cannot be continued (witness) |
| C63 | crash costs of the scipy runner | ordered-field algebra | fails for negative costs (witness) |
| C64 | component constructors over an abstract reader, stage overrides, build order, sorting by height | exact characterisation of every constructor, sortedness/permutation/stability | constant forces ignore the stage position, malformed inertia replaced (witnesses) |
| C65 | table loading and interpolation | columns located by name, interpolation componentwise | one key column proved; ragged tables accepted (witnesses) |
| C66 | `Env`: Earth model + atmosphere + wind + turbulence as one record; conditions, gravity | exact form of every reported value, pad airspeed | - |
| C67 | initial orientation, rail, CG shift, conversion to and from the global frame | exact forms, round trip | straight-down start, rail jump, angular rate after conversion (witnesses) |
| C68 | wind rose tables, `rv_histogram` as densities, sampling by inverse distribution | exact chance of every speed class and sector (`Chance`), averages | share per class, documented extremes, half-sector shift, unnormalised weights (witnesses) |
| C69 | the stages of a flying rocket, separation and the detached body | exact result of separation; mass balance; conservation when ignition times do not change masses | jump of both bodies to the combined CG, velocity jump, lost propellant, refuelled top stage (theorems for all stacks and witnesses) |
| C70 | components as class, place, length, diameters; the added boat tail and its log columns | exact effect, idempotence, drag coefficient of the whole rocket | wrong area, covered boat tails, log column clash, zero reference area (theorems for all rockets and witnesses) |
| C71 | sub-dictionaries, stage numbers, tubes, attributes of the rocket | exact set of stages and order, rank of the dropped stage | late rejection of equal numbers, lost attribute |
| C72 | the definition as a function from keys to text; `random` as a state with four operations; files as functions | exact relation (iff) between definition and environment, proved from the factories | unseeded ground winds, missing yearly roses, whole-number intensities (theorems for all such definitions) |
| C73 | quaternions over the reals, PID and actuator models of C33 and C34; interpolation in several dimensions and the scheduling parameters are arbitrary functions | relation per loop (iff), error angle from the quaternion of the difference, set-up as relation to the definition | sign of the quaternion, launch frame, boat tail without dictionary, restoring the time stepping (theorems for all such cases) |
| C74 | log model of C11 with vector and quaternion entries, any earth model, states of both kinds | flight as list of states, rotation as composition of three turns (no quaternion formulas), uniqueness | gimbal lock (`*_violated`), angles measured on the x axis |
| C75 | frames as association lists of columns, cells `Option ℝ` (`none`: not a number), names as lists of characters | rows: coefficients as quotients of dot products and lengths; names of added columns as pattern | body and global frame mixed, leftovers, path |
| C76 | the queries of C26 (one cell per memoised function), real vectors and quaternions | answers after any earlier queries; angles through cosine, sine and range, turned vectors instead of formulas | units and reference axis in the docstrings (`*_violated`) |
| C77 | files as function from paths to tables, regular expressions as a function, cache as ordered dictionary, plot as list of lines | membership of a line by columns and logs (no loops); reading with cache equals reading without | stale cache, `Time(s)` hit, row lost at the jump (`*_violated`) |
| C78 | POSIX paths as lists of names, file system as two predicates on texts | texts of paths (`d/v`), `List.find?` over the places | precedence of the places (`shadow_violated`, `directory_violated`) |
| C79 | jobs as data, reading and running as parameters | `Lookup` of C04, keys by their parts; each job by a condition on definition and options | exit status, options dropped (`*_violated`) |
| C80 | 3-DoF states as pairs of vectors, integrator of C20, bodies as data | closed formulas over `V3 ℝ` and numbers of steps; variables by name | components that fail, clash or contradict each other (`*_violated`) |
| C81 | definitions as in C04, conversions of text as parameters, force evaluations as the definitions they use | value of every entry; exact forms of ranges; closed formulas for figures | case names and files the code does not expect (`*_violated`) |
| C82 | flights as lists of times, states, deflections; drawing as points and colours | explicit interpolation formulas; lengths, angles and positions of drawn points | flights after an animation, dropped stages (`*_violated`) |
| C83 | loggers as lists of texts, a world of terminal, loggers and `sys.stdout` | exact texts of terminal and files; membership characterisation of the rows read | nested loggers, crashes, single runs, two dropped stages (`*_violated`) |
| C84 | composition of the coefficient functions (C43, C44) in the order of the code, over ℝ | exact force of each component (iff); telescoping over a stack; sign of every drag coefficient | equal diameters, Mach 1, flat fins, sonic thickness drag (`*_violated`) |
| C85 | one type of all value objects; `__eq__` with `NotImplemented` and the reflected call; constructors by kind of argument | all pairs of classes by cases (iff for True, False and raising); dictionaries by permutation | pairs that raise or answer wrongly (`*_violated`) |
| C86 | choice of definition, method, dependent variables (the regular expression as a search for the last match), batch cases, swarm parameters, the shipped cost function over a field; pyswarms and scipy not modelled | iff for every text by splitting at separators; folds over the cases with the overrides theorem of C81; sums by induction | names that are cut wrongly, unusable defaults (`*_violated`) |
| C87 | set-up, refinement loop, check of three positions and comparison tables; a simulation is an arbitrary partial function of the definition and a hidden state, and may change the definition; number formatting arbitrary, read back exactly only on the numbers written | an inductive relation for the runs (`Ran`), loop invariant for results and failures, explicit values of the checks over ℝ | flat flights, controlled rockets, early stopping, mixed schemes, figures (`*_violated`) |
| C88 | figure set-up, drawing, comparison data, choice of validation data, saving; a figure is the list of marks and settings handed to `matplotlib`, dictionaries are arbitrary readers, tables and matchers arbitrary functions | exact characterisation of each successful step (`*_ok_iff`), invariant over the logs (`Inv`), fold over the comparison dictionaries (`Adds`) | logs hit twice or without x, label numbering, saving with dots (`*_violated`) |
| C89 | entries, sweeps, cases, batch loop, summary, file name; simulations, figures, reading and writing of numbers are arbitrary functions (`World`); access trackers are dropped | exact outcome of each step; expected results occupy names no other reader looks at (`Same`, `prepareCase_same`, `readSweeps_same`); induction over entries (`flight_fold`, `sweep_fold`) and over cases (`Ran`) | refined sweeps, recorded values that are no numbers, default results, empty selections (`*_violated`) |
| C90 | force logs as tables in memory, component references to columns, the one memo cell of `getAppliedForce`, evaluation, discarding, separation, parachutes, new rockets, sweeps; component forces, environment and gravity are arbitrary functions | the log refines a table of rows (`LogOk`), kept by every event (`SimInv`); exact row of each kind of evaluation; sum of component columns by induction over stages and parts | repeated arguments, sweeps, discarding from other rockets (`repeat_violated`, `sweep_violated`, `discard_all_violated`) |
| C91 | lists of a rigid-body state and component values; `+=` on a list appends, `zip` truncates; the two integrators over an abstract arithmetic | list arithmetic is lawful for the fixed-step methods (`list_lawful`), closed form for each stage and result of the adaptive ones | all adaptive methods (`coast_adaptive_violated`), sample component (`sample_force_violated`) |
| C92 | rigid-body states with quaternion orientation, the two integrators over an abstract arithmetic, right-hand side of C59 | lawful arithmetic gives the Butcher equations (`rkStep_gen`); rotations about one axis add up (`turn_add`) | orientations of adaptive stages (`adaptive_stage_*_violated`) |
| C93 | the integrators and the stepping of C20 and C80 over a real normed space; explicit Runge-Kutta methods with coefficients as functions | errors add up (`march_error`); expansion of the exact solution and of the stages up to the fourth power of the step, uniformly along the motion (`exact_expansion`, `stage_expansion`), time as a further component of the state (`Motion.jet`); the replaced zeros as a perturbation (`rk_perturb`); code link (`classical_rk`, `flight_march`). Bounds with the replacement value `eps` of the zeros have a constant that does not depend on `eps`; a bound `C (h^4 + 1e-16 h)` with `C` chosen afterwards would say no more than first order | RK4, fourth order (`rk4_order_violated`); midpoint rule, exact limit (`midpoint_bias_violated`) |
| C94 | the 6-DoF step of C92 and C80, repeated (`flySteps`); states as vectors and a quaternion of a normed space (`enc`), a step as a product with an exponential (`advE`) | the error analysis of C93 for methods whose stages act on the state by a map instead of a sum (`Chart`, `turn_first_order`, `turn_second_order`); motions under smooth right-hand sides are smooth (`solution_smooth`); Newton-Euler motion stated without the code (`RigidMotion`), shown to be a solution (`rigid_setup`); the lower bound by expanding the stages of the 3/8 rule and the motion to the third power of the step (`ord_turn38`, `turns_taylor`) and adding up the defects (`errors_add`) | third and fourth order for tumbling bodies (`tumbling_order_violated`, `third_order_violated`) |
| C95 | `Craft`, `StageP`, `Part` put the component models (FinModel, PartAeroModel, PartModel, MotorModel, CompositeModel) together; `Craft.appliedForce`, `Craft.rhs`, `Craft.timeStep`, `fly` (AscentModel) | `Axial` forces are closed under sums and transfer along the axis, every part makes one; `Upright` states and `Straight` derivatives are closed under the operators of the integrators (`upright_keeps`), which every integrator lifts to its steps (`Body.Keeps.classicalStep`, `Body.Keeps.attempt`); induction over the steps (`fly_vertical`); the launch definition starts such a flight (`launch_vertical`) | parachutes |
| C96 | as C95; `Launch`, `launchFlight` (LaunchModel) | `Hom`: maps of states and derivatives that commute with the operators the integrators use commute with every integrator, including its error estimate and exceptions (`Hom.classicalStep`, `Hom.attempt`); turning by a unit quaternion and moving is such a map (`turn_hom`), the forces commute with it where the surroundings do (`Moved`, `applied_turn`); induction over the steps (`fly_turn`); flat ground and round earths are instances (`flat_moved`, `round_moved`). Whole simulations: the turn also commutes with 3-DoF states, parachutes, events, separation and the main loop (`TurnedMissionProps.lean`); step size controls read only time, step and error estimates, which the turn keeps (`estimate_swing`) | a launch direction turned by an angle also rolls the rocket by that angle about its axis, so turned flights are stated for the turned initial state; flights through the axis of the earth |
| C97 | as C95 | every part's force system is a side force at one height plus axial force and roll (`Part.acts_at`; opposite fins balance their drag, `FinSet.acts_at_cp`); sums (`Craft.tilt_sum`); Euler's equations without rotation (`Craft.turn_rate`) | rotation (damping is C42); odd numbers of fins have an extra drag moment (`FinSet.still_formula`, `FinSet.three_fins`) |
| C98 | `Verif/Rocket/BuildModel.lean`: all constructors, from a reader on the definition to the rocket of C95 | each constructor is inverted (`readPart_says`), then stages (`readStage_ok`, `sorted_ok`, `wait_ok`, `withTail_ok`, `stageFinish_says`) and the rocket (`craft_says`); inertias by the totals of C61 (`liftoff_inertia`); flight by C95 (`definition_flight`); `Toy` is a definition that is read | control systems, `TabulatedAeroForce`, `StatefulSample` (construction stops) |
| C99 | `Verif/Rocket/MissionModel.lean`: construction (C98), events (C27), separation, ignition, parachutes, both kinds of bodies, the main loop (C46) put together | an invariant of bodies (`Vessel.Fine`) kept by callbacks (`passLoop_inv`), steps of all methods (`integrate_above`) and the loop (`fine_mission`); `vessel_even` gives it from the definition; `mission_lands` reads it off; `Trip` is a definition that is read and flown to its end | control systems, logs |
| C100 | the separation of `Verif/Rocket/MissionModel.lean` with the inertia of C30 and the motors of C31 | `separation_inertia`: the parts of the rocket are those of the rest plus the lowest stage, lighting an unburned motor changes no mass; `first_drop` compares what construction with `stageToInitialize` builds with the lowest stage; `separation_conserves_partial` sums; `separation_lit`, `burnout_after`: which motor is lit and when it is taken to stop; `Trip.duo` is a two-stage definition with a burning lower motor | drag of the gap |
| C101 | the parachute phase of `Verif/Rocket/MissionModel.lean`; no new model | `Settle.step_near`: a Runge-Kutta step contracts towards a point to which the velocity field is drawn; `sink_pull`: quadratic drag in the wind is such a field; `three_methods` turns a step of the integrator into a Runge-Kutta map; `descent_settles_partial` is an induction over the steps of `Vessel.timeStep` | only steps below a bound that is shown to exist; adaptive methods; air constant over the altitudes flown |
| C102 | `Verif/Rocket/MotorFileModel.lean`: reading the text of a motor definition file (Propulsion.py:51-100) | `file_iff`, `row_iff`: exactly which texts are read as which numbers; `file_lines`, `comments_ignored`: what is dropped; `file_written`: writing then reading is the identity for every spacing; `file_thrust`: the motor built from the text | the file itself (opening, encoding); the header names are not checked by the code (`missing_header_violated`) |
| C103 | `Verif/Motion/AdaptFlightModel.lean`: calls of an adaptive integrator one after the other (Integration.py:331-357, RigidBodies.py:49-62); Runge-Kutta steps with a given first derivative in `CachedStepProps.lean` | `adapt_marchK`: a flight takes the steps of the method for the accepted sizes; `ideal_fit`, `code_near`: the tableaus are within 1e-16 of ones that satisfy the order conditions; `marchK_error`: kept derivatives cost at most eps; `adaptive_converges_partial` in the family eps, `adaptive_flies`: such flights exist | orders above 4; the step size controller (C22), for which the requested sizes are arbitrary; floating point |
| C104 | `Verif/Rocket/DrawModel.lean`: the lines and markers that reach `plt.plot` (noseCone.py:226-257, bodyTube.py:105-129, boatTail.py:101-125, Fins.py:392-428, stage.py:144-162, rocket.py:434-458) | the set of points of a line is the union of its segments (`trace`); `tube_drawn`, `trans_drawn`, `cone_drawn`: equal to the outline as a set; `ogive_drawn` by concavity of the profile; `fins_drawn_partial` against cos(2 pi k/n); `stage_outline` against the radius of the stage | colours, labels, legend, aspect, the window |
| C105 | `Verif/Motion/BodyFlyModel.lean`: the loop of attempts and the flight of a `RigidBody` with an adaptive integrator (Integration.py:331-357, RigidBodies.py:30-62) | a step is abstracted to stages that lie within N h of the start (`Loose`), enough for the first order with any spin; below one turn per second the rotation vector of a stage is Lipschitz in its rotation (`log_lip`), which puts the stages in the right place (`Near`) and excludes full turns (`attempt_runs`); errors add up by `flown_error` | step sizes requested are a parameter; real arithmetic |
| C106 | `Verif/Log/ShowModel.lean`: `_plotSimulationResults` (SingleSimulations.py:395-422), flight paths and scatter plots (Plotting.py:222-317, 700-720); a picture is the data handed to matplotlib or Mayavi | exact description of the pictures for every list of words (`shown_iff`, with any fresh log cache), counted per word (`picture_per_word`); limits of the axes against the largest coordinate difference (`Around`); failures by example flights |
| C107 | the whole rocket of `AscentModel.lean` | sign of the axial force of every component in every flow (`Part.brakes`), summed (`Craft.brakes`); derivative of an upright coasting rocket (`rhs_coast`); energy in the field of the flat earth along solutions (`coast_apogee`); the stages of the classical Runge-Kutta methods with their weights, none of them negative in sum (`stage_z`, `step_sinks`), by induction over flights (`fly_coast`) | adaptive methods; round earth; lateral wind |
| C108 | `Verif/Run/HilSessionModel.lean`: the interface of HIL.py with a trace of everything written, read and asked of the clock; clock and answers are arbitrary sequences (`World`), the time step of the rocket an arbitrary function | exact effect of one exchange (`perform_spec`), by induction over flights (`fly_spec`); a receiver of the sensor line written from the protocol (`receive`), which inverts the stream (`receive_frames`) | serial ports, a dropped stage's own interface |
| C109 | existing `FinModel.lean` (fin force with deflection) and `StateModel.lean` (rigid body) | exact rolling moment of a deflected fin (`cant_moment`), its sign from the sign of the air speed across each slice (`cant_set_partial`), then a barrier argument over all solutions of the roll equation (`cant_spin_partial`) | flow across the axis; step-by-step integration |
| C110 | existing `AscentModel.lean` and `MissionModel.lean` | the map "moved along with the wind" commutes with the right-hand sides (`rhs_carry`, `chuteRhs_carry`), the fixed-step methods (`classicalStep_carry`, any stage weights), events (`triggerEvents_same`), separation, parachutes and the main loop (`carried_mission`) | adaptive methods; the launch rail; round earth |
| C111 | `Verif/SimDef/UsageModel.lean` (the two usage reports and `__str__`) on top of `StoreModel.lean` | induction over the history: the set of used defaults is the set of default keys that answered a read (`history_records`), then sorting and formatting (`default_report`); the advice by evaluating the same read in the edited definition | lines printed before an exception |
| C112 | `Verif/Run/ConvPlotModel.lean` (gridConvergenceFunctions.py:56-322) on top of `ConvRunModel.lean` and `FigureModel.lean`; the spline is any function through the given points | algebra of power-law errors from C55 (`asymptotic_spec`, `richardson_exact`), then evaluation of the plotting code for lists of any length | styling of the marks; matplotlib's own drawing |

## Defects found in the code while modelling

Each of the entries marked (T) is a theorem `*_violated`; the others were noticed while reading and are
recorded here only.

* Configuration: `setIfAbsent`/`removeKey` do not strip keys (T); unused-key report raises after `removeKey`
  (T); nested deviations move the mean (T); `findKeysContaining` requires all substrings although documented as
  any; a stray `}` silently ends the file (T).
* Log: a quaternion column loses its fourth component when expanded (T); number fills in a vector column raise
  (T); adding a column in mid-row (T); an expanded name can overwrite a column (T).
* Motion: an unclosed vector text loses its last character (T); slerp returns only the delta rotation (T);
  orientation weight reversed in state interpolation (T); `a + a` of one inertia keeps a single mass (T);
  `combineInertias` appends to the caller's list; rotation axis of (-1,0,0,0) divides by zero.
* Integration: reused derivatives go stale after staging (T); rows discarded off by one with reuse (T); RK78
  cannot be logged (T); elementary controller divides by zero at zero error; target error of 500000 and above
  raises; a requested step below the minimum is replaced by the minimum.
* Guidance: `updateCoefficients` without a limit drops the integral limit; the first actuator target is
  reached without lag; restoring the time step fails when the controlled stage was dropped.
* Rocket: with three or more stages the top motor is ignited first (T); two burnout triggers drop two stages in
  one pass (T); a later stage's bad recovery trigger is only noticed in flight (T); 5 to 8 fins raise (T); the
  stall limit compares degrees with radians (T); cone volume four times too large (T); widening transitions get
  a negative volume (T); equal-diameter transitions raise; pressure drag at exactly Mach 1 raises (T);
  tail-first drag points forwards (T); constant and aerodynamic forces ignore the stage position although
  documented as relative to the stage tip (T); a malformed moment of inertia is replaced without notice (T);
  aerodynamic tables are not checked against their header (T); the documented header "Mach,Cd" is refused.
* Environment: rail force mixes frames (T); initial direction straight down has no rotation axis (T); the
  first rail step moves the rocket up by its CG distance (T); `convertStateToENUFrame` rotates a body-frame rate
  (T); an initial angular velocity is dropped on a rail; the pad velocity is taken at the tip, not the CG;
  sampled wind classes are weighted by width, extremes too rare, headings shifted by 5 degrees, unnormalised
  weights scale directions (T); density is 0 from 86 km;
  empty soundings raise; missing-data markers of -8888 are kept; 3D turbulence copies Y into Z.
* Runners: adaptive runs pass their end time (T); zero steps never end (T); the apogee condition fires on the
  pad (T); a process that lost 50 races raises although its folder exists (T); NaN passes against 0 (T);
  refined sweeps compare wrong points (T); the landing point of an unfinished flight is extrapolated (T);
  the HIL vector conversion is a mirror (T); fourth-order convergence is reported as second order (T);
  exactly converged results raise (T); nested optimisations use the outer cost function and are skipped in
  parallel runs (T); continuing a swarm with two or more variables raises (T); early crashes are rewarded when
  costs are negative (T); scipy runs are not given the bounds.
- Stage separation (`rocket.py:_stageSeparation`, `_dropStage`): the rocket and the dropped stage both keep the state of the combined
  CG, so each jumps by the distance of its own CG from it, and in a turning rocket their velocities are wrong accordingly
  (`split_place_violated`, `split_velocity_violated`).
- The motor of a dropped stage is set to have ignited 10^9 s ago, so propellant still in it disappears (`burning_stage_violated`).
- Separation ignites the top stage, not the stage above the dropped one, and does so again at every later separation, which refills it
  (`refuel_violated`).
- Base drag: when two stages have no boat tail and forces are logged (logging level 2, the default), the first separation raises
  "Column Auto-AddedZeroLengthBoatTailF(N) already exists" and ends the flight (`second_tail_violated`; the example `Staging.mapleaf`
  is such a rocket). The area used is that of the widest tube of the rocket on the pad (`base_area_violated`). Boat tails of upper
  stages have base drag while the stage below covers them (`stacked_tail_violated`). Without body tubes a separation leads to a
  division by zero (`no_tube_violated`).
- Stages with equal numbers are accepted on the pad and raise at the first separation (`same_number_violated`); a stage named like an
  attribute of the rocket deletes that attribute when dropped (`forget_own_violated`).
- Environment set-up: winds drawn from wind roses use the global random number generator, for which no key gives a seed
  (`ground_wind_unseeded_violated`). The month `Yearly`, the default, asks for `WindroseYearly<location>.txt`; no such file exists
  (`yearly_roses_violated`). Pink noise intensities must be whole numbers (`fractional_intensity_violated`). An unknown ground wind
  model of the Hellman profile ends in `UnboundLocalError` (`hellman_ground_violated`), as does a turbulence model such as
  `PinkNoise4D`. A seed for the soundings reseeds the global generator, so turbulence without seeds of its own is the same in every
  run of a Monte Carlo study (`sonde_repeatable`).
- Control: the orientation error depends on the sign of the orientation quaternion. After one full turn of the rocket (say, of roll)
  the same attitude has the opposite sign; the controller then asks for the rotation the long way round (`turned_once_violated`), and
  exactly on target it raises `ZeroDivisionError` (`turned_on_target_violated`).
- Control: `desiredFlightDirection` is meant relative to the launch site, but is compared with the orientation in the global frame. Over
  a turning earth the ideal controller with direction (0 0 1) turns the rocket parallel to the earth's axis
  (`launch_frame_violated`).
- Control: the search for the controlled component goes on through all stages after a hit and asks every component for its dictionary.
  The boat tail that the rocket adds itself has none: `AttributeError` when the controlled fins are in an upper stage, or when the path
  is misspelt (`upper_stage_violated`).
- Control: `restoreOriginalTimeStepping` uses `self.simDefinition`, `self.rocketDictReader` and `self.controlDctReaders`, none of which
  exist (`restore_violated`).
- Control: with `updateRate 0` and a PID controller the first loop has a time difference of 0 (`first_loop_violated`).
- Time step log: the Euler angles are undetermined when the rocket's x axis is vertical: rockets that lie flat and point in different
  directions get the same angles (`euler_gimbal_violated`, `angles_gimbal_violated`). For an upright rocket they are regular, but
  roll is pi and pitch 0 (`angles_upright`): the angles are measured on the x axis although the rocket's axis is z.
- Expanded force log: `Cd` and `Cl` take the dot product of a force in the rocket's frame with a velocity in the global frame. A
  rocket flying horizontally has `Cd` 0, whatever its drag (`drag_frame_violated`).
- Expanded force log: the result of `drop` is discarded, and the check for a file that was expanded before looks for `AeroCFX(N)`,
  which the function never writes (`expand_leftovers_violated`). `.csv` is replaced everywhere in the path (`expandedPath_violated`).
- Flow angles: `getTotalAOA` documents degrees and returns radians (`totalAOA_degrees_violated`); `getRollAngle` documents 0 for a
  normal force along y and 90 for one along x and returns 270 and 180 (`roll_reference_violated`). Angle of attack and sideslip raise
  `ZeroDivisionError` when the flow is exactly across the plane they are measured in (`aoa_iff`, `aoss_iff`).
- Plots: the log file cache is keyed by path and never invalidated: after a second run in the same process the plots show the first
  (`cache_stale_violated`). A definition such as `Time&AeroF` draws the times as a line and raises `UnboundLocalError` at the next log
  (`time_violated`). In text force logs the last row before the rows of a dropped stage is lost, `len + 1` instead of `len`
  (`force_rows_violated`).
- Command line: `main` drops the verdict of a batch, so `mapleaf` exits with 0 when cases fail (`status_violated`), and also when the
  definition file is not found (`missing_violated`). `--converge` and the comparisons are ignored for optimisations, Monte Carlo studies
  and batches (`converge_violated`). A definition without `Rocket` dictionary, even an empty one, is run as a batch of its dictionaries
  (`empty_violated`). `numberRuns 2.5` chooses a Monte Carlo study that then raises `ValueError` (`runs_violated`). `mapleaf Staging`
  prefers the example to `Staging.mapleaf` in the working directory (`shadow_violated`).
- Bodies with further variables: a component whose `getExtraParametersToIntegrate` fails with an `AttributeError` is passed over silently
  (`swallowed_violated`); two components with the same variable name both read the second (`sameName_violated`); mistakes in the lengths can
  cancel between components (`cancel_violated`). Opening the parachute drops all further variables, so components that read them fail
  (`dropped_violated`). The documented controller `constant` makes the integrator factory fail (`constant_violated`).
- Batch cases: without expected values six entries are set to "Record" only after the list of entries was read, so nothing is recorded
  (`default_recording_violated`). "Results" is looked for in the whole path, so a case named so has no parameters (`results_name_violated`). A
  column that does not match exactly once, or a case without definition file, ends the whole batch (`missing_column_violated`,
  `missing_file_violated`). The refinement default counts parameters, not points (`smooth_default_violated`). Validation errors are signed and
  cancel (`signed_violated`), a zero counts as 10000 % (`zero_value_violated`), and the most negative curve is taken for the closest
  (`closest_violated`). A sweep of a definition with logging level 0 writes nothing (`sweep_logs_violated`).
- Animation: the recorded flights are overwritten in place, so afterwards every stage reports the latest flight time
  (`flight_time_violated`) and the apogee can be lost (`apogee_violated`); targets are not resampled (`targets_violated`). The orientation shown
  is the next state's, after the end the one at the start (`shown_orientation_violated`, `landed_orientation_violated`). Rockets that dropped
  their canards, controlled systems without actuators and dropped stages without engine cannot be animated (`dropped_canards_violated`,
  `no_actuators_violated`, `unpowered_stage_violated`). The last frame is not shown, the file name is ignored, and the path may leave the box
  (`last_frame_violated`, `file_name_violated`, `box_violated`).
- Console output: a simulation's logger stays installed after it (`stdout_violated`) and hides the output from a logger installed before
  (`nested_violated`); `writeLine(message)` ends no line (`writeLine_violated`); the second simulation in a process logs no system
  information (`system_info_violated`); a crash leaves no stack trace in the log and exits with status 0 (`crash_trace_violated`,
  `exit_status_violated`); printing the definition puts every character on its own line (`dump_print_violated`). A Monte Carlo simulation of one
  run ends with an exception and without log (`single_run_violated`). Reading a log with two dropped stages also reads the rows of the
  first (`two_drops_violated`).
- Components: a transition between equal diameters cannot be built, or without length not be flown; a widening boat tail fails in flight
  (`straight_transition_violated`); nose cones cannot be evaluated at exactly Mach 1 (`sonic_nose_violated`); fins of zero thickness cannot
  be prepared (`flat_fin_violated`). The constant in the subsonic thickness drag of fins is raised to 2/3 where -2/3 would be needed:
  at Mach 1 the drag misses the sonic coefficient it is derived from (`sonic_match_iff`, `sonic_intended`) and jumps there
  (`thickness_violated`).
- Value objects: a quaternion or a force system compared with `None` (either order) raises `AttributeError` (`compare_none_violated`); a
  rigid body state equals every state list beginning with it but not the other way round (`asymmetric_violated`); state lists compare by
  their common prefix and equal the empty string (`stateList_violated`); 3-DoF states compare by identity (`threeDoF_violated`). The
  `ValueError` for an angular velocity without information is created but never raised: the result is zero (`angInit_silent_violated`).
  The size of a state derivative ignores translation (`derivAbs_blind_violated`); vector times angular velocity raises
  (`mixed_product_violated`).
- Setting up an optimisation: `method scipy.optimize.minimize` without a method is an `IndexError` (`default_scipy_violated`); the default
  of 20 particles is unreachable because the number is read without a default first (`particles_default_violated`); the greedy regular
  expression cuts a target that mentions `DependentVariables.` (`nested_name_violated`) and leaves targets found outside an
  `Optimization` dictionary unchanged (`outside_violated`); a nested optimisation in a batch optimisation reads the case's definition
  (`nested_batch_violated`).
- Transonic fins: the normal force between Mach 0.8 and 1.4 is a cubic whose slope at Mach 1.4 includes the change of the Mach cone
  correction; for a very slender swept fin the cubic changes sign and the fin drives the roll (`roll_transonic_violated`).
- Convergence studies: a coordinate that is zero or does not change between the two finest runs raises `ZeroDivisionError`, so vertical
  and planar flights cannot be studied (`planar_violated`); stopping at convergence returns the flight where the wall times are expected
  (`early_violated`); a control system of fixed rate replaces the step under study (`controlled_violated`) and makes target errors
  irrelevant (`controlled_adaptive_violated`); the classical comparison does not reset the target error (`mixed_violated`); figures are
  saved to two hard-coded personal folders (`figure_violated`). Not modelled: distribution sampling is disabled after the values were
  already sampled at construction, so a study is made of one random sample.
* C45: the fin aspect ratio is documented as that of the fin reflected about its root chord, but divides by the area of one fin only: it is twice that wing's, which halves the aspect ratio term of the stall angle and doubles the supersonic thickness drag (`aspect_ratio_violated`).
* C45: the mid-chord sweep is the mean of the angles of the two edges, not the angle of the line through the middles of the chords (`mid_chord_violated`).
- Figures of a batch: labels, formats and colours are numbered from the start in every log, so a curve from a second log gets the first label
  (`second_log_violated`); a specification hitting more columns than there are formats (`many_columns_violated`), a log without the x column
  (`missing_x_violated`), a plot dictionary without columns (`no_columns_violated`) or without a place to save (`no_location_violated`) raise
  and end the batch; a specification that hits the x column as well draws it as a curve and makes validation impossible (`twice_violated`);
  `xScale` sets the scale of the y axis (`xscale_violated`); a file name without extension in a directory whose path has a dot loses its
  name (`./plots/fig` becomes `.png`, `dot_directory_violated`); bare names are saved to the installation (`bare_name_violated`); files that
  were not written are reported as saved (`returned_violated`).
- Batch runs: a selection that matches nothing passes with OK (`nothing_selected_violated`); a recorded `nan` or `inf` never matches, not even
  the same simulation (`nan_violated`, `inf_violated`); recording a result whose column is missing or not unique ends the batch with
  `TypeError` and loses everything recorded so far (`missing_column_violated`); the results added to a flight without any are neither recorded
  nor written (`default_results_violated`); a definition not called `.mapleaf` is overwritten by its recorded results
  (`overwrites_violated`), and `.mapleaf` inside the name of a folder changes the folder (`folder_violated`).
- Force log: when forces are evaluated twice in a row with equal arguments (Runge-Kutta stages of a rocket held on its rail), the memo answers
  and the component columns of the second row stay zero while the aerodynamic force does not (`repeat_violated`). In parameter sweeps the
  components of every rocket but the first write to a log that is thrown away, so all rows but the first have zero component columns
  (`sweep_violated`, SingleSimulations.py:463-475). A rejected step deletes rows from the logs of all rockets, so steps rejected while a dropped
  stage is simulated eat up the end of the finished log of the main rocket (`discard_all_violated`, SingleSimulations.py:300-313).
- State variables of components: `StateList` defines `__add__` but not `__iadd__`, and the adaptive integrator sums with `+=`, which appends to a
  list. Later sums are truncated by `zip`, so only the first derivative counts, with its own weight: in a step of `dt` a coasting rocket moves by
  `35/384 dt v` with RK45 (`coast_adaptive_violated`, Integration.py:425-440, RigidBodyStates.py:299). The shipped example
  StatefulComponent.mapleaf uses RK45Adaptive. The sample component calls `rocket.appendToForceLogLine`, which does not exist
  (`sample_force_violated`).
- Adaptive methods for rotating bodies: the stage orientation is the part `dt` of the product of the rotations `exp(aᵢⱼ ωⱼ)` over a whole unit of
  time (Integration.py:425-432), so bodies that spin between one and two revolutions per second are turned backwards at the stages, a full turn
  divides by zero, and the axis is wrong when it changes (`adaptive_stage_reversed_violated`, `adaptive_stage_full_turn_violated`,
  `adaptive_stage_axes_violated`). The final sums are taken differently and do not suffer from this.
- Fixed-step methods for tumbling bodies: the stages add rotation vectors that belong to different orientations, without the correction terms that
  Runge-Kutta methods on rotation groups need. The fourth-order methods are therefore of second order only as soon as the axis of rotation changes:
  the error of a freely turning sphere under a constant moment across its angular velocity is at least a constant times `h²`
  (`tumbling_order_violated`, Integration.py:198-232, RigidBodyStates.py:110-117).
- RK4: the zeros of the tableau are replaced by `1e-16`, which makes the method formally of first order: with a constant acceleration `a` the position
  is off by `2/3 · 1e-16 · t · dt · a` (`rk4_order_violated`, Integration.py:50-54, 167-174).
- Launch rails that are not vertical: the rail force is resolved along the rail in the rocket's own axes (see C36), so it depends on the roll of the rocket and on
  the compass direction of the launch: turning a leaning rail and its rocket by half a turn gives a different force (`compass_rail_violated`). On the round
  earth a vertical rail on the equator cancels every force along the rocket's axis, so that the rocket never moves (`equator_rail_violated`,
  launchRail.py:37-56).
- Fins: the tolerance in the angle of attack of a fin (CythonFinFunctions.pyx:15-24) rounds to +90 degrees but not to -90 degrees, so in flow within 1e-7 rad of straight across
  opposite fins can get different drag (hypothesis of `FinSet.acts_at_cp`). The drag of every fin is applied out on its span, so with an odd number of fins the
  moment in a side wind is not that of a force at the logged centre of pressure of the fin set (`FinSet.three_fins`).
- Construction: of two motors in one upper stage only the one built last (`stage.motor`, Propulsion.py:35) is told to wait (rocket.py:355-356); the other burns from
  launch (`second_motor_violated`). The AttributeError raised for five to eight fins (`self.finNumber`, see above) is swallowed by rocket.py:413,
  so such a rocket is built and its flight fails at the first force evaluation for lack of `MACLength`.
- Whole flights: `rocket.recoverySystem` is the recovery system made last (Recovery.py:22), but every recovery system switches the rocket to a body without
  orientation when it opens (Recovery.py:79-82): if another one opens first, the rocket falls freely without drag (`other_chute_violated`). A stage
  dropped while the rocket hangs on a parachute is given a state without orientation for a body that needs one; its first step raises (`drop_under_chute_violated`).
  A dropped stage without motor raises at separation (rocket.py:361, `burnStages` in the model).
- Separation: `_stageSeparation` (rocket.py:461-487) and `createNewDetachedStage` (SingleSimulations.py:280-299) keep `rigidBody.state`, whose position is that of the
  centre of gravity (rocket.py:416-422). After a separation the centres of gravity of both bodies are at the place of the old common one: every point jumps by
  the rotated difference and the angular momentum of the relative motion is lost (`separation_place_violated`). A stage dropped before burnout loses its
  remaining propellant because its motor is relit at -1e9 s (rocket.py:358-361, `unburnt_violated`).
- Parachutes and step size: nothing limits the time step of a fixed-step method under a parachute, though the drag is stiff. One Euler step multiplies the error of the speed
  by `1 - h k (u + w)`; opening a large parachute at speed makes this less than -1 and the speed grows from step to step (`coarse_violated`).
- Motor files: the four header lines are read by position (Propulsion.py:67-70), their names and number are not checked. If one is missing, the first row of the thrust table is taken for
  the last header: its thrust becomes a position of the fuel and the row disappears, without an error (`missing_header_violated`). Numbers beyond the fourth before the parentheses are ignored.
- Adaptive integrators: the target error is compared with the difference of two formulas that use the same stages. A force that acts only between two stages, for example between 0.76 and 0.79
  of the step with any of the four methods, is not seen: the step is accepted at the first attempt with an estimated error of zero, however large the impulse (`target_error_violated`).
- Drawing (Fins.py:392-428): sets of two, five, six, ... fins are drawn as one single fin (`other_fins_violated`); the angle of the first fin is ignored, so that fin sets turned against each
  other look aligned (`fin_angle_violated`). Markers: `stage.plotShape` swallows the AttributeError of components that have no `plotShape`, so that masses and motors, which are most of the
  mass, have no "Subcomponent CG" marker (`mass_marker_violated`).
- C106: `Simulation.run` hands back the flights after plotting, and the animation - which is in the default value of `SimControl.plot` -
  replaces their times and states by 900 interpolated ones in place (Plotting.py:370-372). Apogee, maximum speed and flight time read from
  the flights of such a run are not those of the simulation (`flights_replaced_violated`, `apogee_handed_back_violated`).
- C106: plots of flight paths and of landing points are centred horizontally on the mean of the points with half the largest coordinate
  difference to each side, so points can lie outside and are not seen (`path_cut_off_violated`, `landing_cut_off_violated`).
- C106: `None` together with other words, and the second of two equal words `FlightPaths` or `FlightAnimation`, are looked up as column names
  (`odd_words_violated`).
- C107: `AeroFunctions.py` turns drag into axial force with a factor that is positive at every angle of attack, about 10.8 at 180 degrees. A
  rocket that falls tail first is pushed on by the air and falls faster than in a vacuum (`falls_faster_violated`, `Coast.dart_falls`).
- C108: hardware in the loop is open loop: `getCanardAngles` has no caller, so the flight does not depend on what the hardware answers
  (`hardware_ignored_violated`; HIL.py:98-101).
- C108: answers are read without emptying the line first, so after one late answer every canard has the angle of its neighbour for the rest
  of the flight (`late_answer_violated`; HIL.py:103-116).
- C108: `performHIL` sends the state before it waits for the clock (`sent_early_violated`), and raises AttributeError at the first
  orientation due after the switch to three degrees of freedom (`session_dies_violated`); it is called outside the `try` of the main loop, so
  that no results are saved (SingleSimulations.py:131-133).
- C109: the drag of a canted fin acts along its chord, not along the flow, and so has a rolling moment against the cant; with a large enough
  drag coefficient a positive `finCantAngle` spins the rocket in the positive sense (`cant_drag_violated`; Fins.py:538-542). The spanwise
  correction of the rolling moment is not scaled with the cosine of the cant, so that the moment of a canted fin depends on the assumed
  radius of the centre of pressure (`FinP.cant_moment`; Fins.py:533, 552).
- C111: the report of default values ends with the advice to add its lines to the definition. For a default that belongs to a class the line
  has the form `FinSet.numFins: 4`; an entry of that name in the definition is never read (simDefinition.py:761 looks only into the default
  dictionary), so the default stays in force (`advice_class_violated`).
- C111: values that `tryGet...` falls back to (subDictReader.py:52-80) are not in the report (`code_default_violated`).
- C112: gridConvergenceFunctions.py:290 creates the missing figure under a misspelt name, so plotConvergence with axes but no figure for the
  uncertainty plot cannot be saved (`save_axes_violated`).
- C112: with a single place the uncertainty is a number and not a list, and plotting it raises a TypeError (`single_place_violated`).
- C112: the uncertainty that convergence studies use (`uncertainty_GCI2g`) assumes second order: for first-order data and a ratio of 3 the band
  never contains the exact value (`study_first_order_violated`). An observed order below the limit has the same effect for `uncertainty_FS`
  (`slow_band_violated`).
- C112: `insetLoc` is ignored (the position is written into the code), and the order plotted is the local one even if the average is used.

## Testing the theorems

`seeded/LOG.jsonl` has one line per deliberate bug put into a scratch copy of the model: the definition, the
edit, the claim it breaks, the theorems that failed to build, and the theorems that were tightened when the bug
was not noticed. Most edits were generated mechanically (changed sign, comparison, constant, branch or
component in every definition of every model file), then every survivor was looked at by hand.

## Not modelled

Drawing (matplotlib) and animations, the command line parser, example data files, the minimisers themselves (pyswarms, scipy), ray itself, the single-precision encoding in HIL packets, `struct`, `numpy` spline
internals and floating-point rounding.
