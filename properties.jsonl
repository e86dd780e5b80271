{"id": "C01", "title": "Simulation definition survives a write/reload cycle", "statement": "Writing a loaded simulation definition to a .mapleaf file and loading that file again yields exactly the same set of keys with exactly the same values: nothing is lost, renamed, merged or moved to another sub-dictionary.", "quantifier": "every dictionary of dotted keys to values whose key segments and values are ones the file format can carry (no line breaks, comment or brace characters), of any size, any nesting depth and any mixture of levels", "why_tests_cant": "The space of dictionary shapes (sibling order, sub-dictionaries opening and closing at several levels at once, prefix-sharing names) is unbounded; example files exercise a handful of shapes.", "anchors": ["MAPLEAF/IO/simDefinition.py:SimDefinition.writeToFile", "MAPLEAF/IO/simDefinition.py:SimDefinition._parseDictionaryContents", "MAPLEAF/IO/simDefinition.py:SimDefinition._parseSimDefinitionFile"]}
{"id": "C02", "title": "Comments and blank lines never change what a file means", "statement": "Adding or removing comment text, whole comment lines, blank lines or leading/trailing whitespace in a .mapleaf file does not change the loaded definition; an escaped comment marker stays part of the value.", "quantifier": "every file text and every placement of comments and blank lines", "why_tests_cant": "Comment stripping is text rewriting; its interaction with escapes and with every line shape cannot be enumerated.", "anchors": ["MAPLEAF/IO/simDefinition.py:SimDefinition._parseSimDefinitionFile", "MAPLEAF/IO/simDefinition.py:SimDefinition._parseDictionaryContents"]}
{"id": "C03", "title": "A duplicated key is rejected, never silently overwritten", "statement": "If a definition file assigns the same fully-qualified key twice (not through the explicit override mechanisms), loading fails with an error; if loading succeeds, each key written in the file holds the value written for it.", "quantifier": "every sequence of lines in a file, at every nesting level", "why_tests_cant": "The two assignments may be arbitrarily far apart and in re-opened sub-dictionaries.", "anchors": ["MAPLEAF/IO/simDefinition.py:SimDefinition._parseDictionaryContents"]}
{"id": "C04", "title": "Value lookup precedence and read-only reads", "statement": "Reading a key returns the user's value if one was given or set, otherwise the default-dictionary value, otherwise the class-based default for the item the key belongs to, and otherwise raises KeyError; reads never change any later read's result, for every history of reads and writes the definition behaves like a map with the last write winning.", "quantifier": "every history of setValue / getValue / removeKey / setIfAbsent calls on every dictionary, with arbitrary keys including surrounding whitespace", "why_tests_cant": "Needs all interleavings of reads and writes; tests check one or two calls after a load.", "anchors": ["MAPLEAF/IO/simDefinition.py:SimDefinition.getValue", "MAPLEAF/IO/simDefinition.py:SimDefinition.setValue", "MAPLEAF/IO/simDefinition.py:SimDefinition.removeKey", "MAPLEAF/IO/simDefinition.py:SimDefinition.setIfAbsent", "MAPLEAF/IO/simDefinition.py:SimDefinition._getClassBasedDefaultValue"]}
{"id": "C05", "title": "Listing the contents of a sub-dictionary is exact", "statement": "Asking for the keys below a dictionary returns precisely the keys whose path has that dictionary as a proper ancestor (not keys that merely share a name prefix); immediate keys and immediate sub-dictionaries together account for every one of them, and sub-dictionaries are listed once each.", "quantifier": "every dictionary and every dictionary path, including the root", "why_tests_cant": "Prefix-sharing names (Stage1 / Stage10), root queries and arbitrary depth.", "anchors": ["MAPLEAF/IO/simDefinition.py:SimDefinition.getSubKeys", "MAPLEAF/IO/simDefinition.py:SimDefinition.getImmediateSubKeys", "MAPLEAF/IO/simDefinition.py:SimDefinition.getImmediateSubDicts", "MAPLEAF/IO/simDefinition.py:isSubKey", "MAPLEAF/IO/simDefinition.py:getImmediateSubKey"]}
{"id": "C06", "title": "Derived dictionaries copy their parent exactly, with the stated edits", "statement": "A dictionary derived from another contains every key of the parent dictionary re-rooted under the new name, with the parent's value, except where !removeKeysContaining or !replace or an explicit line says otherwise; the parent is unchanged and a derived key never overwrites an existing one.", "quantifier": "every parent dictionary, every derived name and every list of edit commands", "why_tests_cant": "The renaming is textual; keys in which the parent path occurs more than once are only found by quantifying over all keys.", "anchors": ["MAPLEAF/IO/simDefinition.py:SimDefinition._parseDerivedDictionary"]}
{"id": "C07", "title": "Loading always terminates: circular includes are detected", "statement": "Loading a definition that includes other definition files terminates for every include graph; a cyclic include raises an error instead of looping, and an acyclic include graph (including diamonds) is never rejected as circular.", "quantifier": "every finite graph of include files, including self-includes and diamonds", "why_tests_cant": "Termination over all graphs is not testable.", "anchors": ["MAPLEAF/IO/simDefinition.py:SimDefinition._loadSubSimDefinition", "MAPLEAF/IO/simDefinition.py:SimDefinition._parseDictionaryContents"]}
{"id": "C08", "title": "Monte Carlo resampling does not drift", "statement": "After any number of resamplings, every probabilistic parameter equals its original mean plus its standard deviation times the current draw; the mean used is the one in the file, keys without a standard deviation are untouched, and no keys other than the sampled one and its recorded mean change.", "quantifier": "every dictionary and every sequence (any length) of random draws", "why_tests_cant": "Drift only shows up over long histories of resampling.", "anchors": ["MAPLEAF/IO/simDefinition.py:SimDefinition.resampleProbabilisticValues", "MAPLEAF/SimulationRunners/MonteCarlo.py:_runSimulations_SingleThreaded"]}
{"id": "C09", "title": "Sub-dictionary readers: relative before absolute, default only when absent", "statement": "A sub-dictionary reader returns the value at the path relative to its dictionary if there is one, otherwise the value at the absolute path, otherwise fails; the try-variants return the caller's default exactly when both lookups find nothing, and never hide a malformed value behind the default.", "quantifier": "every dictionary, reader path, key and stored value", "why_tests_cant": "The interaction of two lookup levels, defaults and malformed values has unboundedly many cases.", "anchors": ["MAPLEAF/IO/subDictReader.py:SubDictReader.getString", "MAPLEAF/IO/subDictReader.py:SubDictReader.getFloat", "MAPLEAF/IO/subDictReader.py:SubDictReader.tryGetFloat", "MAPLEAF/IO/subDictReader.py:SubDictReader.tryGetString"]}
{"id": "C10", "title": "Log tables stay rectangular", "statement": "After any sequence of adding columns, starting rows, logging values, and completing the last row, every column has exactly one cell per row, so row i of every column refers to the time of row i; cells never logged hold that column's fill value.", "quantifier": "every history of log operations that does not end in an error", "why_tests_cant": "A shifted column appears only under particular interleavings of late columns, skipped cells and deleted rows.", "anchors": ["MAPLEAF/IO/CythonLog.pyx:Log"]}
{"id": "C11", "title": "Logged values are read back unchanged and times never go backwards", "statement": "A value logged in the current row is what a later lookup at that row returns; row times are non-decreasing for every accepted history, starting a row at an earlier time is refused and leaves the table unchanged, and looking up by time returns the first row at or after that time (error past the end).", "quantifier": "every history of log operations and every lookup", "why_tests_cant": "Requires all histories; binary-search behaviour with repeated times.", "anchors": ["MAPLEAF/IO/CythonLog.pyx:Log.newLogRow", "MAPLEAF/IO/CythonLog.pyx:Log.logValue", "MAPLEAF/IO/CythonLog.pyx:Log.getValue"]}
{"id": "C12", "title": "A discarded time step leaves no trace in the log", "statement": "Starting rows, logging any values in them, and then deleting those rows restores the table (as it will be written to CSV) to its state before the rows were started.", "quantifier": "every log state, every number of discarded rows and every choice of values logged in them", "why_tests_cant": "Adaptive integration discards data-dependent numbers of rows.", "anchors": ["MAPLEAF/IO/CythonLog.pyx:Log.deleteLastRow", "MAPLEAF/SimulationRunners/SingleSimulations.py:Simulation.discardForceLogsForPreviousTimeStep"]}
{"id": "C13", "title": "Vector text round-trip and vector algebra laws", "statement": "Vectors obey the usual laws (commutative/associative addition, bilinear dot and cross products, a x b orthogonal to both, Lagrange identity, |v| >= 0, triangle and Cauchy-Schwarz inequalities, normalised vector has length 1 unless zero), and parsing the text form of a vector gives the vector back in every accepted separator and bracket style.", "quantifier": "all real vectors; all accepted separator styles", "why_tests_cant": "Algebraic laws over the reals and string layouts cannot be exhausted.", "anchors": ["MAPLEAF/Motion/CythonVector.pyx:Vector"]}
{"id": "C14", "title": "Quaternion rotation is a proper rotation and composes", "statement": "Rotating vectors by any non-zero orientation preserves lengths, angles and handedness; rotating by a product equals rotating successively; rotating by the inverse undoes the rotation; scaling the quaternion does not change the rotation; an axis/angle quaternion fixes its axis and turns by its angle.", "quantifier": "all non-zero quaternions, all vectors, all products of any length", "why_tests_cant": "Continuous domain; composition over arbitrary sequences.", "anchors": ["MAPLEAF/Motion/CythonQuaternion.pyx:Quaternion.rotate", "MAPLEAF/Motion/CythonQuaternion.pyx:Quaternion.__mul__", "MAPLEAF/Motion/CythonQuaternion.pyx:Quaternion.inverse", "MAPLEAF/Motion/CythonQuaternion.pyx:Quaternion.__init__"]}
{"id": "C15", "title": "Spherical interpolation of orientations hits its end points", "statement": "Interpolating between two orientations with fraction 0 gives the first, fraction 1 gives the second, every intermediate result is a unit orientation, and the angle from the first grows in proportion to the fraction, taking the short way round.", "quantifier": "all pairs of unit quaternions and all fractions in [0,1]", "why_tests_cant": "Includes the more-than-180-degrees branch that samples rarely hit.", "anchors": ["MAPLEAF/Motion/CythonQuaternion.pyx:Quaternion.slerp"]}
{"id": "C16", "title": "State interpolation uses one weight for all state components", "statement": "Interpolating between two rigid-body states with a weight w for the first state gives the first state at w=1 and the second at w=0 in all of position, velocity, angular velocity and orientation.", "quantifier": "all pairs of states and all weights in [0,1]", "why_tests_cant": "Component-wise disagreement is invisible at w=1/2 or for identical orientations.", "anchors": ["MAPLEAF/Motion/RigidBodyStates.py:interpolateRigidBodyStates"]}
{"id": "C17", "title": "Force systems: moving and adding are consistent", "statement": "Transferring a force/moment system to another point preserves the force and its effect: transfers compose (path independent), a round trip is the identity, transfer is linear, the total moment about any fixed point of a sum of systems does not depend on the order or grouping of the summation nor on where each is expressed.", "quantifier": "all force systems, all points, all lists of systems in all orders and groupings", "why_tests_cant": "Continuous domain and arbitrary lists/permutations.", "anchors": ["MAPLEAF/Motion/forceMomentSystem.py:ForceMomentSystem"]}
{"id": "C18", "title": "Combining inertias conserves mass, first moment and is order independent", "statement": "The inertia of a combination has the total mass, the mass-weighted centre of gravity, and second moments about a point equal to the sum of the parts' second moments about it (parallel axis); the result does not depend on the order or grouping of the parts, also when several parts are identical.", "quantifier": "all finite lists of inertias (including repeated equal ones) and all reference points", "why_tests_cant": "Arbitrary list length, groupings and duplicates.", "anchors": ["MAPLEAF/Motion/inertia.py:Inertia.combineInertias", "MAPLEAF/Motion/inertia.py:Inertia.combineInertiasAboutPoint", "MAPLEAF/Motion/inertia.py:Inertia.__add__"]}
{"id": "C19", "title": "State lists behave as a vector space with named access", "statement": "Adding, scaling and reading by name on a combined rocket/actuator/propulsion state act component by component; every variable that was added can be read and assigned by its name without touching another variable, for any sequence of additions.", "quantifier": "all state lists (any number of variables) and all histories of addition/assignment", "why_tests_cant": "Any number of variables and any access history.", "anchors": ["MAPLEAF/Motion/RigidBodyStates.py:StateList"]}
{"id": "C20", "title": "Integration methods are consistent and have their advertised order", "statement": "Every built-in explicit Runge-Kutta method integrates polynomial-in-time right-hand sides up to its advertised order in one step of any size, follows the exponential series up to its order on linear systems, satisfies the order conditions of all rooted trees up to its order (each up to a relative 1e-14, because zero coefficients are replaced by 1e-16), and evaluates the right-hand side only at times inside the step; for the embedded pairs this holds for both results (for states that are numbers or vectors; orientations are C92, lists of component values C91).", "quantifier": "all built-in methods, all start times, all step sizes, all polynomials of the stated degree, all start states", "why_tests_cant": "Exactness for all step sizes/polynomials; a single mistyped coefficient may pass loose convergence tests.", "anchors": ["MAPLEAF/Motion/Integration.py:ClassicalIntegrator", "MAPLEAF/Motion/Integration.py:AdaptiveIntegrator", "MAPLEAF/Motion/Integration.py:checkButcherTableau"]}
{"id": "C21", "title": "Adaptive stepping terminates and only accepts admissible steps", "statement": "An adaptive step always terminates; the accepted step either has an error of at most 20 times the target or is at the minimum step size; every rejected attempt is reported exactly once through the discard callback, and the accepted step is never larger than the one requested unless the request was below the minimum.", "quantifier": "every right-hand side, start state, requested step, error target and error sequence", "why_tests_cant": "Termination and the accept/reject history depend on an arbitrary error function.", "anchors": ["MAPLEAF/Motion/Integration.py:AdaptiveIntegrator.__call__"]}
{"id": "C22", "title": "Step-size adaptation is bounded", "statement": "The factor by which the next step is scaled always lies between the configured minimum and maximum (after the safety factor), shrinks when the error is above target by more than the safety margin and never makes the step fall outside the configured minimum/maximum step lengths.", "quantifier": "all error histories and all controller gains", "why_tests_cant": "Histories of errors are unbounded and real valued.", "anchors": ["MAPLEAF/Motion/Integration.py:AdaptiveIntegrator._limitAdaptationFactor"]}
{"id": "C23", "title": "Table interpolation is exact at the data, bounded and clamped", "statement": "Interpolating a table at a tabulated abscissa returns the tabulated value, between abscissae the result lies between the neighbouring values (and is the straight line through them), and outside the table the end value is returned; the weight form gives weights that add to 1 and reproduce the same value.", "quantifier": "all strictly increasing tables of any length and all query points, including exactly the ends", "why_tests_cant": "Boundary indices for tables of every length.", "anchors": ["MAPLEAF/Motion/Interpolation.py:linInterp", "MAPLEAF/Motion/Interpolation.py:linInterpWeights"]}
{"id": "C24", "title": "Cubic interpolation reproduces data and cubics", "statement": "The cubic interpolant passes through its data points with the requested slopes and reproduces every cubic polynomial exactly.", "quantifier": "all pairs of distinct abscissae, all values and slopes", "why_tests_cant": "Continuous domain.", "anchors": ["MAPLEAF/Motion/Interpolation.py:cubicInterp", "MAPLEAF/Motion/Interpolation.py:calculateCubicInterpCoefficients"]}
{"id": "C25", "title": "Memoised results are indistinguishable from recomputation", "statement": "Functions memoised on their last arguments return, in every call sequence, what the unmemoised function would return for those arguments - including after the objects involved change.", "quantifier": "every pure function and every finite sequence of calls; every history of object changes in between", "why_tests_cant": "Staleness depends on call histories.", "anchors": ["MAPLEAF/Utilities.py:cacheLastResult", "MAPLEAF/Rocket/rocket.py:Rocket._dropStage"]}
{"id": "C26", "title": "Reading aerodynamic angles does not disturb later readings", "statement": "Angle of attack, sideslip, roll angle and local air velocity of a state are functions of the state and environment only: asking for them in any order, any number of times, gives the same answers.", "quantifier": "all states and all sequences of queries", "why_tests_cant": "Order-of-query dependence needs all interleavings.", "anchors": ["MAPLEAF/Motion/AeroParameters.py:getTotalAOA", "MAPLEAF/Motion/AeroParameters.py:getAOA", "MAPLEAF/Motion/AeroParameters.py:getAOSS"]}
{"id": "C27", "title": "Flight events fire exactly once, when due, in registration order", "statement": "Each registered flight event's callback is invoked at most once, only at a step at which its condition holds and the first such step after registration, and callbacks due at the same step run in registration order; the reported time to the next timed event is the smallest positive waiting time over pending timed events.", "quantifier": "every set of registered events and every sequence of observed states", "why_tests_cant": "All schedules of events and trigger orders, including callbacks registering further events.", "anchors": ["MAPLEAF/Rocket/simEventDetector.py:SimEventDetector.triggerEvents", "MAPLEAF/Rocket/simEventDetector.py:SimEventDetector.subscribeToEvent"]}
{"id": "C28", "title": "Timed events are never overshot by fixed-step integration", "statement": "With time-deterministic events pending, the step actually taken ends at or before the first pending event time (plus the documented tolerance), so no timed event is skipped or late.", "quantifier": "every step size, every set of event times", "why_tests_cant": "All relative positions of step grid and event times.", "anchors": ["MAPLEAF/Rocket/rocket.py:Rocket.timeStep", "MAPLEAF/Rocket/simEventDetector.py:SimEventDetector.triggerEvents"]}
{"id": "C29", "title": "Staging drops stages bottom-up, one at a time, and ignites the next bottom stage", "statement": "At each separation exactly the current bottom stage leaves the stack, the remaining stages keep their order, and the motor ignited is the one of the new bottom stage; after k separations exactly the top n-k stages remain.", "quantifier": "rockets with any number of stages and any sequence of separations", "why_tests_cant": "Number of stages is arbitrary; the two-stage example hides indexing mistakes.", "anchors": ["MAPLEAF/Rocket/rocket.py:Rocket._stageSeparation", "MAPLEAF/Rocket/rocket.py:Rocket._dropStage", "MAPLEAF/Rocket/rocket.py:Rocket._initializeStagingTriggers"]}
{"id": "C30", "title": "Composite objects sum their parts", "statement": "The force and moment on a composite object about any point is the sum over its components of their force and moment, independent of component order and nesting; its fixed-mass inertia is computed once and combined with the variable-mass parts to give the total mass.", "quantifier": "all trees of components", "why_tests_cant": "Arbitrary nesting and order.", "anchors": ["MAPLEAF/Rocket/CompositeObject.py:CompositeObject"]}
{"id": "C31", "title": "Motor thrust and propellant bookkeeping are consistent", "statement": "Thrust is zero after burnout and interpolates the thrust curve between ignition and burnout, the total impulse is scaled by exactly the impulse adjustment factor whatever the burn time factor, propellant mass is non-increasing in time, starts at the initial mass and ends at zero, and mass flow integrates to the propellant mass.", "quantifier": "all thrust curves of any length, all adjustment factors, all times", "why_tests_cant": "Curves of any length, continuous time.", "anchors": ["MAPLEAF/Rocket/Propulsion.py:TabulatedMotor"]}
{"id": "C32", "title": "Recovery system stages deploy once each, in order", "statement": "Chute stages deploy in the listed order, each exactly once, the active drag area always belongs to the last deployed stage (none before the first), and the rocket switches to the descent model exactly at the first deployment.", "quantifier": "any number of chute stages and any sequence of deployments", "why_tests_cant": "Arbitrary numbers of stages and event timing.", "anchors": ["MAPLEAF/Rocket/Recovery.py:RecoverySystem"]}
{"id": "C33", "title": "PID integral wind-up is bounded", "statement": "With a configured integral limit, the magnitude of the integral contribution never exceeds the limit after any sequence of updates, a constant error history yields the closed-form PID output, and changing gains does not remove the limit.", "quantifier": "all error/time-step histories, all gain schedules", "why_tests_cant": "Histories of updates.", "anchors": ["MAPLEAF/GNC/PID.py:PIDController.getNewSetPoint", "MAPLEAF/GNC/PID.py:PIDController.updateCoefficients"]}
{"id": "C34", "title": "Actuator deflections respect their limits and do not depend on how often they are sampled", "statement": "For any sequence of commanded targets and query times, the deflection stays within the mechanical limits, moves monotonically towards the limited target, and reading the deflection at additional intermediate times does not change later deflections.", "quantifier": "all command and query histories, all time constants", "why_tests_cant": "Histories of commands and sampling instants; exponential response.", "anchors": ["MAPLEAF/GNC/Actuators.py:FirstOrderActuator", "MAPLEAF/GNC/Actuators.py:FirstOrderSystem"]}
{"id": "C35", "title": "The control loop runs at its configured rate", "statement": "With the recommended step size the control loop executes exactly once every N simulation steps, the recommended step divides the control period, and the loop never runs more often than its period.", "quantifier": "all control rates, step sizes and step counts", "why_tests_cant": "Unbounded number of steps; accumulated drift.", "anchors": ["MAPLEAF/GNC/ControlSystems.py:RocketControlSystem.runControlLoopIfRequired", "MAPLEAF/GNC/ControlSystems.py:RocketControlSystem._checkSimTimeStepping"]}
{"id": "C36", "title": "Launch rail keeps the rocket on the rail until it leaves and never again afterwards", "statement": "While on the rail the resultant force is parallel to the rail and never pushes the rocket backwards below its rest position; position stays on the rail line at or above its foot; once the rocket has cleared the rail the rail has no further effect.", "quantifier": "all states, forces, rail directions, lengths, times and histories of states", "why_tests_cant": "Continuous states and histories; rotating-earth times.", "anchors": ["MAPLEAF/ENV/launchRail.py:LaunchRail", "MAPLEAF/ENV/environment.py:Environment.applyLaunchRailMotionConstraints"]}
{"id": "C37", "title": "Standard atmosphere is continuous, positive and monotone", "statement": "Temperature and pressure are continuous in altitude across all layer boundaries, pressure strictly decreases with altitude and is positive, density follows the gas law, and results do not depend on how many simulations were set up before.", "quantifier": "all altitudes, all numbers of earlier instances in the process", "why_tests_cant": "Continuous altitude and unbounded instance history.", "anchors": ["MAPLEAF/ENV/AtmosphereModelling.py:USStandardAtmosphere"]}
{"id": "C38", "title": "Earth models: coordinates round-trip and gravity points down", "statement": "Converting geodetic coordinates to cartesian and back returns the same latitude, longitude and height on the spherical earth, and on the WGS84 ellipsoid for all heights from 20 km below it up (longitude up to whole turns); local east/north/up axes are orthonormal, right handed and up is radial; gravity of the spherical earth points to its centre with magnitude falling with the square of distance, that of the WGS84 earth is the gradient of the J2 potential.", "quantifier": "all latitudes, longitudes, heights and positions off the polar axis", "why_tests_cant": "Continuous domain incl. all quadrants.", "anchors": ["MAPLEAF/ENV/EarthModelling.py:SphericalEarth", "MAPLEAF/ENV/EarthModelling.py:WGS84", "MAPLEAF/ENV/EarthModelling.py:FlatEarth"]}
{"id": "C39", "title": "Turbulence is a function of time and seed only", "statement": "For a given seed the gust at a given time does not depend on which other times were queried before (in particular on integrator step sizes or rejected steps); between samples it interpolates; independent directions get independent samples.", "quantifier": "all query histories", "why_tests_cant": "Adaptive integrators query times in data-dependent, non-monotone orders.", "anchors": ["MAPLEAF/ENV/TurbulenceModelling.py:PinkNoiseGenerator", "MAPLEAF/ENV/TurbulenceModelling.py:PinkNoise3D"]}
{"id": "C40", "title": "Sine gust is continuous, bounded and confined", "statement": "The sine gust adds a wind between zero and its magnitude along its direction, only inside its altitude band, with full magnitude over the constant part and continuous joins.", "quantifier": "all altitudes, band parameters and magnitudes", "why_tests_cant": "Continuous domain and branch boundaries.", "anchors": ["MAPLEAF/ENV/TurbulenceModelling.py:CustomSineGust"]}
{"id": "C41", "title": "Mean wind models behave at their boundaries", "statement": "The Hellman profile is monotone in altitude, equals the ground wind below 10 m and is constant above its limit; a wind heading maps to the horizontal unit vector blowing from that heading; interpolated wind profiles reproduce their data.", "quantifier": "all altitudes, headings, exponents and tables", "why_tests_cant": "Continuous domain.", "anchors": ["MAPLEAF/ENV/MeanWindModelling.py:Hellman", "MAPLEAF/ENV/MeanWindModelling.py:InterpolatedWind", "MAPLEAF/ENV/MeanWindModelling.py:_convertWindHeadingToXYPlaneWindDirection"]}
{"id": "C42", "title": "Aerodynamic damping removes energy", "statement": "Damping moments of body tubes, fins and fixed damping coefficients oppose the angular velocity: their power is never positive, whatever the geometry and flight condition.", "quantifier": "all angular velocities, geometries, coefficients and numbers of segments", "why_tests_cant": "Sign errors appear only for particular directions.", "anchors": ["MAPLEAF/Rocket/bodyTube.py:BodyTube._computeLongitudinalDampingMoments", "MAPLEAF/Rocket/AeroFunctions.py:getCylindricalSkinFrictionDragCoefficientAndRollDampingMoment"]}
{"id": "C43", "title": "Drag coefficient models are continuous and bounded", "statement": "Base drag and cross-flow drag coefficients and the skin friction compressibility correction are continuous in Mach number, positive and within their documented ranges; force conversion from drag/normal coefficients reproduces the requested components.", "quantifier": "all Mach numbers, Reynolds numbers and angles of attack in range", "why_tests_cant": "Continuous domain with several branches.", "anchors": ["MAPLEAF/Rocket/AeroFunctions.py:getBaseDragCoefficient", "MAPLEAF/Rocket/AeroFunctions.py:getCylinderCrossFlowCd_ZeroBaseDrag", "MAPLEAF/Rocket/AeroFunctions.py:getSkinFrictionCoefficient", "MAPLEAF/Rocket/AeroFunctions.py:forceFromCdCN"]}
{"id": "C44", "title": "Component geometry is consistent with its shape", "statement": "Nose cone, body tube and transition volumes, areas and centres of pressure are those of the geometric body: positive, within the component's axial extent, and consistent when a body is split in two.", "quantifier": "all lengths and diameters", "why_tests_cant": "Continuous domain; sign and factor mistakes invisible at special values.", "anchors": ["MAPLEAF/Rocket/noseCone.py:NoseCone._getVolume", "MAPLEAF/Rocket/boatTail.py:Transition._precomputeGeometry", "MAPLEAF/Rocket/bodyTube.py:BodyTube"]}
{"id": "C45", "title": "Fin sets are symmetric and slices tile the fin", "statement": "Fins are spaced evenly around the body so that identical radial contributions cancel, the spanwise slices of a fin have areas adding up to its planform area and lie inside the span, and every supported fin count can be simulated.", "quantifier": "any number of fins >= 2, any number of slices, any planform", "why_tests_cant": "Arbitrary fin counts and slice counts.", "anchors": ["MAPLEAF/Rocket/Fins.py:FinSet"]}
{"id": "C46", "title": "A simulation with an end time stops at that time", "statement": "With a time end condition and fixed steps the simulation stops after finitely many steps with final time equal to the requested end time (within the documented 1e-14), never later, for every step size; with apogee/altitude conditions it stops at the first step satisfying them.", "quantifier": "all step sizes, end times and trajectories", "why_tests_cant": "All step/end-time ratios; termination.", "anchors": ["MAPLEAF/SimulationRunners/SingleSimulations.py:Simulation.run", "MAPLEAF/SimulationRunners/SingleSimulations.py:Simulation._getEndDetectorFunction"]}
{"id": "C47", "title": "Concurrent simulations never share a results folder", "statement": "However many simulations start at the same time and however their file-system operations interleave, no two of them are given the same results directory, and each gets one unless it gives up with an error.", "quantifier": "all numbers of concurrent runs, all interleavings, all pre-existing files", "why_tests_cant": "Needs all interleavings.", "anchors": ["MAPLEAF/SimulationRunners/SingleSimulations.py:Simulation._logSimulationResults", "MAPLEAF/IO/Logging.py:findNextAvailableNumberedFileName"]}
{"id": "C48", "title": "Parallel Monte Carlo accounts for every run exactly once", "statement": "In a parallel Monte Carlo run every requested run is started and its result recorded exactly once, with never more than the configured number of jobs in flight, whatever the order in which jobs finish; the multiset of results equals that of the sequential version.", "quantifier": "all numbers of runs and processes, all completion orders", "why_tests_cant": "Completion orders are scheduler dependent.", "anchors": ["MAPLEAF/SimulationRunners/MonteCarlo.py:_runSimulations_Parallel", "MAPLEAF/SimulationRunners/MonteCarlo.py:_runSimulations_SingleThreaded"]}
{"id": "C49", "title": "Batch verdicts: a batch passes only if every comparison passes", "statement": "The batch exit code is 0 exactly when no case recorded a failure or error; a numeric comparison passes exactly when the absolute or the percentage error is within tolerance and both numbers are numbers; every expected value of a sweep is compared with the result at its own sweep point.", "quantifier": "all case lists, expected/observed values, tolerances and sweep lengths", "why_tests_cant": "Arbitrary numbers of cases and values including zero and NaN.", "anchors": ["MAPLEAF/SimulationRunners/Batch.py:_checkResult", "MAPLEAF/SimulationRunners/Batch.py:BatchRun.printResult", "MAPLEAF/SimulationRunners/Batch.py:_runParameterSweepCase"]}
{"id": "C50", "title": "Sweep refinement keeps the requested points", "statement": "Adding points for smooth curves keeps every requested sweep value at its place, puts equally spaced values between neighbours, and the number of points is the documented one.", "quantifier": "all sweep lengths and values, all refinement multiples", "why_tests_cant": "In-place list insertion with shifting indices.", "anchors": ["MAPLEAF/SimulationRunners/SingleSimulations.py:WindTunnelSimulation._addPoints"]}
{"id": "C51", "title": "Flight summary numbers are the true extrema", "statement": "Reported apogee, maximum speed and maximum horizontal velocity are attained at some recorded state and not exceeded at any; the landing location lies on the line through the last two positions at zero height, or is the last position.", "quantifier": "all recorded flights of any length", "why_tests_cant": "Any list of states.", "anchors": ["MAPLEAF/IO/rocketFlight.py:RocketFlight"]}
{"id": "C52", "title": "Hardware-in-the-loop packets are well formed", "statement": "Every packet sent has a checksum equal to the sum of all preceding bytes modulo nothing (it always fits 16 bits), a type byte encoding its register count, and data bytes in range; orientation components decode back to within the quantisation step.", "quantifier": "all orientations, positions and velocities representable", "why_tests_cant": "All byte contents.", "anchors": ["MAPLEAF/IO/HIL.py:packet", "MAPLEAF/IO/HIL.py:HILInterface.convertQuaternionComponent"]}
{"id": "C53", "title": "Radiosonde files: the selected profile is complete, sorted and belongs to one sounding", "statement": "The wind profile extracted from a radiosonde file for a chosen sounding contains exactly the data lines between that sounding's header and the next header of any month, one entry per line with that line's altitude above the site and wind, in increasing altitude; only soundings of the requested month can be selected.", "quantifier": "all file contents and all selections", "why_tests_cant": "Arbitrary file layouts.", "anchors": ["MAPLEAF/ENV/MeanWindModelling.py:_extractRadioSondeDataSet", "MAPLEAF/ENV/MeanWindModelling.py:_readRadioSondeDataFile", "MAPLEAF/ENV/MeanWindModelling.py:_parseRadioSondeData"]}
{"id": "C54", "title": "Numbered file names never collide with existing files", "statement": "The next numbered file name chosen is not an existing file, and is the smallest free number.", "quantifier": "all directory contents", "why_tests_cant": "Any set of existing names, with gaps.", "anchors": ["MAPLEAF/IO/Logging.py:findNextAvailableNumberedFileName"]}
{"id": "C55", "title": "Grid-convergence estimates are exact for power-law errors", "statement": "If the error of a quantity behaves like C*h^p within the limiter range, the observed order equals p, Richardson extrapolation returns the exact limit, and the time steps used are the initial step divided by powers of the refinement ratio.", "quantifier": "all C, h, p in the limiter range, all refinement ratios > 1", "why_tests_cant": "Continuous parameters.", "anchors": ["MAPLEAF/IO/gridConvergenceFunctions.py:orderOfConvergence", "MAPLEAF/IO/gridConvergenceFunctions.py:richardsonExtrap", "MAPLEAF/SimulationRunners/Convergence.py:ConvergenceSimRunner"]}
{"id": "C56", "title": "Every line of a configuration file counts", "statement": "Loading a configuration either fails, or every non-blank, non-comment line of the file has contributed: no part of the file is silently left unread.", "quantifier": "all file texts", "why_tests_cant": "Arbitrary nesting and misplaced brackets.", "anchors": ["MAPLEAF/IO/simDefinition.py:_parseSimDefinitionFile", "MAPLEAF/IO/simDefinition.py:_parseDictionaryContents"]}
{"id": "C57", "title": "The unused-key report lists exactly the values nobody read", "statement": "After any history of reads and edits, the report of unused keys can be produced and lists exactly the keys of the definition whose value no lookup has used.", "quantifier": "all definitions, default tables and histories of reads, writes and removals", "why_tests_cant": "Histories are unbounded; class-based defaults touch other keys.", "anchors": ["MAPLEAF/IO/simDefinition.py:printUnusedKeys", "MAPLEAF/IO/simDefinition.py:getValue", "MAPLEAF/IO/simDefinition.py:removeKey"]}
{"id": "C58", "title": "Integration keeps orientations unit quaternions", "statement": "Advancing a rigid-body state by any sequence of integrator updates (any derivatives, any weights and step sizes) keeps its orientation a unit quaternion, and an update rotates by the angular velocity times the step.", "quantifier": "all states with unit orientation, all derivatives, all sequences of updates", "why_tests_cant": "Drift accumulates over unbounded step sequences.", "anchors": ["MAPLEAF/Motion/RigidBodyStates.py:RigidBodyState", "MAPLEAF/Motion/RigidBodyStates.py:RigidBodyStateDerivative", "MAPLEAF/Motion/CythonAngularVelocity.pyx:AngularVelocity"]}
{"id": "C59", "title": "Rigid bodies obey the Newton-Euler equations", "statement": "The state derivative of a 6-DoF body is the one of a body with the given mass, principal moments of inertia, force and moment: m dv/dt = R F, I dw/dt = M - w x I w, position moves with velocity plus CG motion.", "quantifier": "all states, forces, moments, masses and moments of inertia", "why_tests_cant": "A sign error in a gyroscopic term passes tests about one axis.", "anchors": ["MAPLEAF/Motion/RigidBodies.py:RigidBody.getRigidBodyStateDerivative", "MAPLEAF/Motion/RigidBodies.py:RigidBody_3DoF.getRigidBodyStateDerivative"]}
{"id": "C60", "title": "Reusing the last derivative of the previous step is transparent", "statement": "Adaptive methods that reuse the last derivative evaluation of the previous step give the same result as if the derivative at the start of the step had been evaluated.", "quantifier": "all right-hand sides, states and sequences of steps, including state or right-hand-side changes between steps", "why_tests_cant": "Needs all histories; wrong only after events.", "anchors": ["MAPLEAF/Motion/Integration.py:AdaptiveIntegrator.__call__", "MAPLEAF/Motion/Integration.py:AdaptiveIntegrator._integrate"]}
{"id": "C61", "title": "An optimisation evaluates exactly the trial point it is given", "statement": "The cost returned for a trial point is the mean over all cases of the cost function applied to a simulation of that case in which the independent variables hold the trial values, the dependent variables hold their expressions evaluated at those values, and nothing else is changed. Trials do not influence each other, and parallel and single-threaded evaluation agree. A nested optimisation minimises its own cost function.", "quantifier": "all variable and dependent-variable definitions, all cases, all lists of trial points", "why_tests_cant": "Any history of trials could leak through shared definitions; expressions and keys are user-defined.", "anchors": ["MAPLEAF/SimulationRunners/Optimization.py:_computeCostFunctionValues_SingleThreaded", "MAPLEAF/SimulationRunners/Optimization.py:_computeCostFunctionValues_Parallel", "MAPLEAF/SimulationRunners/Optimization.py:_updateDependentVariableValues", "MAPLEAF/SimulationRunners/Optimization.py:_updateIndependentVariableValues"]}
{"id": "C62", "title": "An optimisation can be continued where it stopped", "statement": "Starting positions respect the bounds and any positions specified by the user; running the continuation file starts from the positions, best position and best cost with which the previous run ended.", "quantifier": "all numbers of particles and variables, all positions within bounds", "why_tests_cant": "Round trip through text for any number of particles and variables.", "anchors": ["MAPLEAF/SimulationRunners/Optimization.py:_loadInitialPositions", "MAPLEAF/SimulationRunners/Optimization.py:_createContinuationFile", "MAPLEAF/SimulationRunners/Optimization.py:_loadBestPosition", "MAPLEAF/SimulationRunners/Optimization.py:_createOptimizer"]}
{"id": "C63", "title": "A crashed trial never looks better than a successful one", "statement": "When a simulation crashes during a scipy optimisation the cost reported to the minimiser is at least as high as that of every trial so far; a crash on the first trial is reported to the user.", "quantifier": "all cost histories and outcomes", "why_tests_cant": "Depends on the sign and number of earlier costs.", "anchors": ["MAPLEAF/SimulationRunners/Optimization.py:_evaluateCostFunction"]}
{"id": "C64", "title": "Components sit where the definition puts them, relative to their stage", "statement": "A component's mass, centre of gravity, moment of inertia, constant force or constant aerodynamic coefficients are the values of its dictionary, with positions measured from the stage's tip; moving the stage moves its components rigidly. Components are built body parts first, each with the class its name selects, and then ordered from top to bottom. Components without mass or force leave the totals unchanged.", "quantifier": "all definitions, stage positions, component lists and class names", "why_tests_cant": "All combinations of present, absent and malformed values and all orders of components.", "anchors": ["MAPLEAF/Rocket/RocketComponents.py:FixedMass", "MAPLEAF/Rocket/RocketComponents.py:FixedForce", "MAPLEAF/Rocket/RocketComponents.py:AeroForce", "MAPLEAF/Rocket/RocketComponents.py:PlanarInterface.sortByZLocation", "MAPLEAF/Rocket/stage.py:initializeSubComponents"]}
{"id": "C65", "title": "Tabulated coefficients and inertias come from the column with their name", "statement": "A coefficient read from a table is the linear interpolation of the column carrying its name in the header, over the column carrying the key's name, clamped at the ends, and zero when the table has no such column; at a table point it is the tabulated value. A table that cannot be used is refused when it is loaded. Tabulated inertias interpolate their own columns over time.", "quantifier": "all headers, tables and conditions", "why_tests_cant": "Any order and subset of columns; tables are user data.", "anchors": ["MAPLEAF/Rocket/RocketComponents.py:TabulatedAeroForce._loadCoefficients", "MAPLEAF/Rocket/RocketComponents.py:TabulatedAeroForce._getAeroCoefficients", "MAPLEAF/Rocket/RocketComponents.py:TabulatedInertia", "MAPLEAF/Motion/Interpolation.py:linInterp"]}
{"id": "C66", "title": "The rocket meets the air and gravity of the place where it is", "statement": "The environmental conditions of a rocket are those of the altitude above the chosen Earth model: temperature, pressure, density and viscosity of the atmosphere there, the mean wind there plus turbulence, expressed in the simulation's global frame, plus the velocity of the ground's rotation on a turning Earth; gravity pulls with the model's acceleration times the mass. A rocket standing on the pad of a turning Earth feels exactly the wind. Turbulence is left out under a main chute.", "quantifier": "all Earth, atmosphere, wind and turbulence models, positions, times and chute states", "why_tests_cant": "All combinations of exchangeable models over all positions and times.", "anchors": ["MAPLEAF/ENV/environment.py:getAirProperties", "MAPLEAF/ENV/environment.py:getGravityForce", "MAPLEAF/ENV/EarthModelling.py:earthModelFactory", "MAPLEAF/Rocket/rocket.py:_getEnvironmentalConditions"]}
{"id": "C67", "title": "A rocket starts where and how the definition says", "statement": "The initial state has its CG at the given pad position offset by the CG location along the rocket's axis, the given velocity plus the ground's motion, the given orientation or direction, and the given angular velocity, all converted to the global frame; converting back to the launch frame returns the given values. With a launch rail the rocket starts aligned with the rail and stays on it.", "quantifier": "all initial directions, orientations, positions, velocities, rates and Earth models", "why_tests_cant": "All directions (including degenerate ones) and Earth models.", "anchors": ["MAPLEAF/Rocket/rocket.py:_initializeRigidBody", "MAPLEAF/Rocket/rocket.py:_moveStatePositionToCG", "MAPLEAF/ENV/environment.py:convertInitialStateToGlobalFrame", "MAPLEAF/ENV/environment.py:convertStateToENUFrame"]}
{"id": "C68", "title": "Sampled ground winds follow the wind rose", "statement": "A ground wind sampled from wind rose data has a speed and heading distributed as the rose says: the chance of each speed class is the rose's share of that class, the chance of each direction sector given the speed is the rose's share of that sector, and the wind blows from the sampled heading. Roses of several locations are averaged with the given weights.", "quantifier": "all wind roses, random draws, weights and numbers of locations", "why_tests_cant": "A statement about the whole distribution of draws, over user data.", "anchors": ["MAPLEAF/ENV/MeanWindModelling.py:WindRoseDataSampler.sampleWindRoses", "MAPLEAF/ENV/MeanWindModelling.py:_createWindSpeedCDF", "MAPLEAF/ENV/MeanWindModelling.py:_createHeadingCDF", "MAPLEAF/ENV/MeanWindModelling.py:_getAveragedWindRose", "MAPLEAF/ENV/MeanWindModelling.py:_readWindRose"]}
{"id": "C69", "title": "Stage separation conserves mass and momentum and leaves both bodies in place", "statement": "When a stage is dropped, the mass of the rocket before equals the mass of the rocket that goes on plus the mass of the dropped stage, their momentum is the rocket's momentum, and no part of either body jumps to another place or velocity at that instant.", "quantifier": "all rockets with any number of stages, propellant states and separation times", "why_tests_cant": "All stacks and separation times; tests check only that the stage list shrinks.", "anchors": ["MAPLEAF/Rocket/rocket.py:_stageSeparation", "MAPLEAF/Rocket/rocket.py:_dropStage", "MAPLEAF/SimulationRunners/SingleSimulations.py:createNewDetachedStage", "MAPLEAF/Rocket/CompositeObject.py:getInertia"]}
{"id": "C70", "title": "Base drag is counted once, with the area of the base", "statement": "A coasting rocket has exactly one base: unless it is switched off, the pressure drag includes the base drag coefficient times the area of the lower end of the lowest body component, once, on the pad and after every separation, and none while the engine of that stage burns. Accounting for it adds no mass and changes no other component.", "quantifier": "all rockets (any stages, components, diameters), logging on or off, any sequence of separations", "why_tests_cant": "All stacks of components and separations; the tests run the staged rocket without a force log.", "anchors": ["MAPLEAF/Rocket/rocket.py:_ensureBaseDragIsAccountedFor", "MAPLEAF/Rocket/rocket.py:_stageSeparation", "MAPLEAF/Rocket/boatTail.py:BoatTail.getAppliedForce", "MAPLEAF/Rocket/stage.py:getBottomInterfaceLocation", "MAPLEAF/Rocket/RocketComponentFactory.py:initializeForceLogging"]}
{"id": "C71", "title": "A rocket is made of the stages its definition lists, and a dropped stage is one of them", "statement": "Every sub-dictionary of Rocket that is not reserved becomes one stage. The reference area belongs to the widest body tube. A dropped stage is the one with the next stage number; definitions that cannot be flown are rejected when the rocket is built. Dropping a stage removes nothing but that stage.", "quantifier": "all definitions, stage names and stage numbers", "why_tests_cant": "All definitions; tests use the shipped examples.", "anchors": ["MAPLEAF/Rocket/rocket.py:_createStages", "MAPLEAF/Rocket/rocket.py:_getStageSubDicts", "MAPLEAF/Rocket/rocket.py:_getMaxBodyTubeDiameter", "MAPLEAF/Rocket/rocket.py:_initializeStagingTriggers", "MAPLEAF/Rocket/rocket.py:_dropStage"]}
{"id": "C72", "title": "The environment of a simulation is the one its definition asks for", "statement": "The wind, turbulence, atmosphere, earth model, launch site and launch rail are exactly those named by the keys of Environment, with the numbers given there; unknown names are refused. A wind drawn from soundings is that of one whole sounding of the wanted month at one of the listed locations. A given random seed makes the drawn winds repeatable.", "quantifier": "all definitions, wind tables, wind roses and sounding files, all states of the random number generator", "why_tests_cant": "All definitions and random states; tests load a handful of shipped definitions.", "anchors": ["MAPLEAF/ENV/environment.py:Environment", "MAPLEAF/ENV/MeanWindModelling.py:meanWindModelFactory", "MAPLEAF/ENV/MeanWindModelling.py:getRadioSondeWindProfile", "MAPLEAF/ENV/TurbulenceModelling.py:turbulenceModelFactory", "MAPLEAF/ENV/AtmosphereModelling.py:atmosphericModelFactory"]}
{"id": "C73", "title": "The control system steers the rocket towards the desired flight direction", "statement": "The target orientation points the rocket along desiredFlightDirection. At every due control loop the error is the rotation, in the rocket's axes, from its orientation to the target; the PID controllers of the three axes turn it into moments, the deflection table into one target per actuator, limited to the mechanical range; nothing jumps. The ideal controller puts the rocket on target at once. The controlled component, gains, tables, limits and time stepping are those of the definition, and dropping the controlled stage ends control.", "quantifier": "all orientations, gains, tables, histories of loops, definitions and sets of stages", "why_tests_cant": "Orientations, gains and histories range over the reals; tests fly one or two configured rockets.", "anchors": ["MAPLEAF/GNC/ControlSystems.py:RocketControlSystem", "MAPLEAF/GNC/MomentControllers.py:ConstantGainPIDRocketMomentController", "MAPLEAF/GNC/MomentControllers.py:ScheduledGainPIDRocketMomentController", "MAPLEAF/GNC/MomentControllers.py:IdealMomentController", "MAPLEAF/GNC/Navigation.py:Stabilizer", "MAPLEAF/GNC/Actuators.py:TableInterpolatingActuatorController", "MAPLEAF/Rocket/rocket.py:_runControlSystem"]}
{"id": "C74", "title": "The time step log has one line per state, with Euler angles that describe the attitude", "statement": "The written time step log of a flight has one line per logged state, in order, with its time, position, velocity and, for 6-DoF states, orientation, angular velocity and Euler angles. The angles are the roll, pitch and yaw that turn the north-east-down axes at the rocket's place into the rocket's axes, in the usual ranges.", "quantifier": "all flights, earth models, places, attitudes, log levels", "why_tests_cant": "Attitudes range over all rotations and flights over all sequences of states; a test logs a few.", "anchors": ["MAPLEAF/Rocket/rocket.py:_logState", "MAPLEAF/Motion/CythonQuaternion.pyx:toEulerAngles", "MAPLEAF/ENV/EarthModelling.py:getInertialToNEDFrameRotation"]}
{"id": "C75", "title": "The expanded derivative evaluation log holds the aerodynamic coefficients of its rows", "statement": "postProcessForceEvalLog keeps all columns and adds, in every row, the force coefficients F/(qA), the moment coefficients M/(qAL) and the drag, lift and normal force coefficients Cd, Cl, CN, with q half the density times the squared speed relative to the air; they are blank exactly when qA (or L) is 0. Intermediate columns are dropped and a file that was expanded before is refused.", "quantifier": "all logs with the needed columns, reference areas and lengths", "why_tests_cant": "Logs, rows and column names are unbounded; a test expands one file.", "anchors": ["MAPLEAF/IO/Logging.py:postProcessForceEvalLog"]}
{"id": "C76", "title": "Mach and Reynolds numbers, dynamic pressure, flow angles and roll angle have their physical meaning", "statement": "For every state and air: the air velocity is the wind minus the rocket's velocity along the rocket's axes; the Mach number is the speed relative to the air over sqrt(1.4*287*T); the Reynolds number and dynamic pressure are the usual products; total angle of attack, angle of attack and sideslip are the angles between the rocket's axis and its motion through the air; the normal direction is the unit vector of the flow across the axis, and the roll angle its direction in degrees, from 0 up to 360. Errors occur exactly in the named degenerate cases.", "quantifier": "all states, orientations, winds, temperatures, earlier queries", "why_tests_cant": "The quantities are functions of real vectors and rotations; a test evaluates a few attitudes.", "anchors": ["MAPLEAF/Motion/AeroParameters.py:getMachNumber", "MAPLEAF/Motion/AeroParameters.py:getReynoldsNumber", "MAPLEAF/Motion/AeroParameters.py:getTotalAOA", "MAPLEAF/Motion/AeroParameters.py:getAOA", "MAPLEAF/Motion/AeroParameters.py:getAOSS", "MAPLEAF/Motion/AeroParameters.py:getRollAngle", "MAPLEAF/Motion/AeroParameters.py:getNormalAeroForceDirection"]}
{"id": "C77", "title": "Plots show exactly the logged columns that were asked for", "statement": "For a plot definition and a list of logs, the plot has a line for every column whose name contains or matches a part of the definition, with the values of the file now, against the times of the same log; a column in several logs is drawn once. Rows of dropped stages are left out of text logs, all others are read.", "quantifier": "all files, numbers of logs, definitions, earlier plots in the process", "why_tests_cant": "Definitions, column names, files and histories are unbounded; tests draw one plot and look at none of its lines.", "anchors": ["MAPLEAF/IO/Plotting.py:plotFromLogFiles", "MAPLEAF/IO/Plotting.py:tryPlottingFromLog", "MAPLEAF/IO/Plotting.py:getLoggedColumns", "MAPLEAF/IO/Plotting.py:_getSkipRowsAndFooters_forceEvalLog"]}
{"id": "C78", "title": "File paths in a definition and on the command line mean the documented file", "statement": "A value naming a file becomes the path beside the definition file if that exists, else a MAPLEAF/... path becomes the one in the installation if that exists, else it stays; absolute paths and other values never change, so a definition that was read and written out can be moved. The definition run by the program is the first existing one among the given name, the installation and the examples, then the same with the ending .mapleaf.", "quantifier": "all file systems, installation directories, definitions, values and names", "why_tests_cant": "File systems and names are unbounded and the order of the places matters only when several exist; tests run inside the repository, where all places coincide.", "anchors": ["MAPLEAF/IO/simDefinition.py:getAbsoluteFilePath", "MAPLEAF/IO/simDefinition.py:_replaceRelativeFilePathsWithAbsolutePaths", "MAPLEAF/IO/simDefinition.py:isFileName", "MAPLEAF/IO/simDefinition.py:pathIsRelativeToRepository", "MAPLEAF/Main.py:findSimDefinitionFile"]}
{"id": "C79", "title": "The command line program runs the job that the definition and the options ask for", "statement": "A definition with a cost function is optimised, else one with more than one run is a Monte Carlo study, else --parallel is refused, else a definition without rocket is a batch, else the chosen convergence study or one simulation is run. --plotFromLog only plots. The optimiser is the one named by the definition, particle swarm by default.", "quantifier": "all definitions, defaults, options, numbers of processors, outcomes of reading and running", "why_tests_cant": "Definitions and combinations of options are unbounded; tests call main for a few example files and look at no dispatch.", "anchors": ["MAPLEAF/Main.py:main", "MAPLEAF/Main.py:isOptimizationProblem", "MAPLEAF/Main.py:isMonteCarloSimulation", "MAPLEAF/Main.py:isBatchSim", "MAPLEAF/SimulationRunners/Optimization.py:optimizationRunnerFactory"]}
{"id": "C80", "title": "Bodies are advanced by the laws of motion, with all variables their components ask for", "statement": "A step moves the time by the step taken and replaces the state by the integrator's. Under a constant force every fixed-step method gives velocity and position by known constants: exact for RK2Heun and RK4_3/8, within 1e-16 for RK2Midpoint and RK4, behind by n dt^2/2 a for Euler. Variables that components ask to be integrated are added in order, readable by name, each advanced with its own function; opening the parachute keeps time, position and velocity. The log files written follow the logging level.", "quantifier": "all states, forces, steps and numbers of steps, components and variables, logging levels", "why_tests_cant": "Flights have arbitrarily many steps and components arbitrary variables; tests integrate a few steps and compare with a tolerance.", "anchors": ["MAPLEAF/Motion/RigidBodies.py:timeStep", "MAPLEAF/Motion/RigidBodies.py:addStateVariable", "MAPLEAF/Motion/RigidBodyStates.py:RigidBodyState_3DoF", "MAPLEAF/Motion/Integration.py:integratorFactory", "MAPLEAF/Rocket/rocket.py:_switchToStatefulRigidBodyIfRequired", "MAPLEAF/Rocket/rocket.py:_switchTo3DoF", "MAPLEAF/Rocket/rocket.py:writeLogsToFile"]}
{"id": "C81", "title": "Batch cases are run with the overrides, sweeps and comparisons their definition asks for", "statement": "A case is run with its definition file's entries, except plots off, logging level at least 3, and every ParameterOverrides entry replacing or adding the named one; the batch definition is unchanged. It is a parameter sweep exactly when it has entries in ParameterSweep. Ranges first:count:last give equally spaced values including both ends, lists are split at commas. A sweep makes one force evaluation per value, in order, with every swept parameter at that value and all else unchanged. Validation records the mean relative difference in percent, bounded by the largest difference.", "quantifier": "all batch and simulation definitions, case names, overrides, ranges, sweeps with any number of parameters and points, and all curves", "why_tests_cant": "Definitions, overrides and curves are unbounded; tests run a few example cases and do not look at what is recorded or at error paths.", "anchors": ["MAPLEAF/SimulationRunners/Batch.py:_implementParameterOverrides", "MAPLEAF/SimulationRunners/Batch.py:_runCase", "MAPLEAF/SimulationRunners/Batch.py:_runParameterSweepCase", "MAPLEAF/SimulationRunners/Batch.py:_parseParameterSweepValues", "MAPLEAF/SimulationRunners/Batch.py:_setUpDefaultResultRecording", "MAPLEAF/SimulationRunners/Batch.py:_validate", "MAPLEAF/SimulationRunners/SingleSimulations.py:WindTunnelSimulation"]}
{"id": "C82", "title": "A flight is recorded step by step and its animation shows it as recorded", "statement": "Recording keeps one time, one state and, for a controlled rocket, one deflection and target per actuator for the start and every time step. The animation shows all flights at the same equally spaced times from 0 to the latest final time; positions, velocities and deflections are interpolated linearly, the first and last are held outside the flight, and between a 6-DoF and a 3-DoF state the nearer one is shown. Events fall on the first frame after them. Every rocket is drawn centred on its position, turned by its orientation, canards by their deflections, parachutes small until the main one opens; the box is 1.1 times the largest extent of the path.", "quantifier": "all flights of any number of stages and time steps, all frame counts, orientations, deflections, events, and frames", "why_tests_cant": "Flights and frames are unbounded and the result is a picture; tests only call the animation without looking at what is drawn.", "anchors": ["MAPLEAF/IO/Plotting.py:_keepNTimeSteps", "MAPLEAF/IO/Plotting.py:_get3DPlotSize", "MAPLEAF/IO/Plotting.py:_findEventTimeStepNumber", "MAPLEAF/IO/Plotting.py:_createReferenceVectors", "MAPLEAF/IO/Plotting.py:_getRocketPoints", "MAPLEAF/IO/Plotting.py:_update_plot", "MAPLEAF/IO/Plotting.py:flightAnimation", "MAPLEAF/SimulationRunners/SingleSimulations.py:cacheState", "MAPLEAF/SimulationRunners/SingleSimulations.py:_setUpCachingForFlightAnimation"]}
{"id": "C83", "title": "Console output reaches the terminal and the logs it should, and logs can be read back", "statement": "While a logger is installed everything printed goes to its log in order, to the terminal exactly if it is not silent, and to no other log; without one everything goes to the terminal. The console log of a simulation holds system information, the name of the definition file, definition, default values, heading, all output of the flight, and how it ended. Monte Carlo logs hold every entry with its line end, and for every requested quantity all runs in order with mean and sample standard deviation. From an old log exactly the heading and the data rows of the main flight are read. Palettes have as many different colours as asked for.", "quantifier": "all sequences of printed text, all simulations silent or not, timed or not, crashing or not, all results and numbers of runs, all log files", "why_tests_cant": "Texts and numbers of runs are unbounded; tests discard the console output and never read a log of two dropped stages or of a crash.", "anchors": ["MAPLEAF/IO/Logging.py:Logger", "MAPLEAF/IO/Logging.py:MonteCarloLogger", "MAPLEAF/IO/Logging.py:removeLogger", "MAPLEAF/IO/Logging.py:getSystemInfo", "MAPLEAF/IO/Logging.py:getSimDefinitionAndDefaultValueDictsForOutput", "MAPLEAF/SimulationRunners/SingleSimulations.py:_setUpConsoleLogging", "MAPLEAF/SimulationRunners/SingleSimulations.py:_handleSimulationCrash", "MAPLEAF/SimulationRunners/SingleSimulations.py:_postProcess", "MAPLEAF/IO/Plotting.py:plotAndSummarizeScalarResult", "MAPLEAF/IO/Plotting.py:plotAndSummarizeVectorResult", "MAPLEAF/IO/Plotting.py:_getSkipRowsAndFooters_mainSimLog", "MAPLEAF/IO/Plotting.py:getColorPalette", "MAPLEAF/SimulationRunners/MonteCarlo.py:_showResults"]}
{"id": "C84", "title": "Every outer component has the aerodynamic force its shape implies", "statement": "Nose cones, transitions and boat tails push with skin friction plus pressure drag along the axis and with 2 sin(AOA) times their change of cross section along the lateral wind, at their centre of pressure, with roll damping as only moment; boat tails have base drag exactly while the engine is off. Whatever the diameters in between, the normal force of a closed hull depends on its lower end only; flying straight there is drag only; flying nose first the air takes energy from the hull. The reported centre of pressure is the mean of the components' ones weighted with their normal forces. The drag coefficient of a fin is leading edge, trailing edge, thickness and friction drag and positive, and reaches its sonic value at Mach 1. Every component with sensible dimensions can be evaluated.", "quantifier": "all dimensions, shapes, roughnesses, reference areas, air velocities, densities, Mach and Reynolds numbers, roll rates, times, all stacks of components", "why_tests_cant": "Dimensions and flight conditions are continuous; tests evaluate a few components at a few Mach numbers and never at exactly Mach 1 or for flat fins and straight transitions.", "anchors": ["MAPLEAF/Rocket/noseCone.py:NoseCone.getAppliedForce", "MAPLEAF/Rocket/noseCone.py:_precomputeGeometry", "MAPLEAF/Rocket/boatTail.py:Transition.getAppliedForce", "MAPLEAF/Rocket/boatTail.py:BoatTail.getAppliedForce", "MAPLEAF/Rocket/Fins.py:_getPreComputedFinAeroData", "MAPLEAF/Rocket/Fins.py:_precomputeSubsonicFinThicknessDrag", "MAPLEAF/Rocket/Fins.py:FinSet.__init__", "MAPLEAF/Rocket/AeroFunctions.py:_getCPZ"]}
{"id": "C85", "title": "Comparing, constructing and multiplying value objects means what it says", "statement": "Comparing two vectors, quaternions, rigid body states, derivatives, inertias, force systems or simulation definitions with == yields True exactly when they hold the same data (for definitions: the same keys and values in any order) and False otherwise, also for None and for objects of other classes; every object equals itself, the order of the operands does not matter and equality is transitive. Quaternions and angular velocities are made from components, from axis and angle (rate) or from a list (rotation vector), with the length of the axis irrelevant, arguments left out of states and force systems are zero or the identity, and too little information is an error. Products of vectors, angular velocities, quaternions and numbers are the scalar product, the scaled object and the composed rotation.", "quantifier": "all pairs of objects of all these classes (and numbers, strings, None), all components, all combinations of constructor arguments", "why_tests_cant": "The number of pairs of classes is large and the components are continuous; tests compare equal objects of one class.", "anchors": ["MAPLEAF/Motion/CythonVector.pyx:__eq__", "MAPLEAF/Motion/CythonQuaternion.pyx:__init__", "MAPLEAF/Motion/CythonAngularVelocity.pyx:__init__", "MAPLEAF/Motion/RigidBodyStates.py:RigidBodyState.__eq__", "MAPLEAF/Motion/RigidBodyStates.py:StateList", "MAPLEAF/Motion/inertia.py:Inertia", "MAPLEAF/Motion/forceMomentSystem.py:ForceMomentSystem.__eq__", "MAPLEAF/IO/simDefinition.py:SimDefinition"]}
{"id": "C86", "title": "An optimisation is set up as its dictionary says", "statement": "An optimisation works on the definition it is given (or else the file), with plots switched off and nothing else changed. The particle swarm is used unless another method is named; scipy is used with the method named after it; anything else is rejected. Its dependent variables are exactly the entries below its DependentVariables dictionary, each setting the entry of that name. Without a batch file exactly this definition is simulated for every trial; with one, one definition per root-level dictionary of the batch file in alphabetical order, each being the file that dictionary names with its overrides. The parameters of the swarm are those of the dictionary and otherwise the documented defaults. The cost function is an expression, or, with a colon, a function of a module. The cost function shipped with the program is 100 times the summed time integral of the squared errors, with pitch and yaw counted half: never negative, and zero only for vanishing errors; it removes exactly the logs of the run.", "quantifier": "all definitions, batch files and nestings of optimisation dictionaries, all method, key and cost texts, all control system logs", "why_tests_cant": "Names and definitions are unbounded texts and the number of cases and rows is arbitrary; tests set up one optimisation of each kind.", "anchors": ["MAPLEAF/SimulationRunners/Optimization.py:optimizationRunnerFactory", "MAPLEAF/SimulationRunners/Optimization.py:OptimizingSimRunner._loadDependentVariables", "MAPLEAF/SimulationRunners/Optimization.py:OptimizingSimRunner._loadBatchOptimization", "MAPLEAF/SimulationRunners/Optimization.py:PSORunner._createOptimizer", "MAPLEAF/SimulationRunners/SingleSimulations.py:loadSimDefinition"]}
{"id": "C87", "title": "A convergence study refines only the step it reports", "statement": "A convergence study first makes the end condition a time (running one simulation if it is not) and switches plots off. Its k-th simulation (from 0) uses the definition with only the time step - or the target error, for adaptive methods - changed to its configured value divided by the k-th power of the ratio, and the recorded steps, final positions and wall times are those of these simulations in order. From the third on, the last three final positions are checked coordinate by coordinate. All simulations asked for are run, unless stopping at convergence was asked for and a check is asymptotic. A study works for every flight. A comparison of schemes studies each one from the configured value with one common end time and writes one row per step with final position and wall time of every scheme below their names.", "quantifier": "all definitions, simulations (arbitrary functions with hidden state), ratios other than zero (above one for the checks), numbers of simulations and lists of schemes", "why_tests_cant": "Flights are arbitrary real vectors and the number of simulations is unbounded; the tests study one flight with few steps.", "anchors": ["MAPLEAF/SimulationRunners/Convergence.py:ConvergenceSimRunner.convergeSimEndPosition", "MAPLEAF/SimulationRunners/Convergence.py:ConvergenceSimRunner.compareClassicalIntegrationSchemes", "MAPLEAF/SimulationRunners/Convergence.py:ConvergenceSimRunner.compareAdaptiveIntegrationSchemes", "MAPLEAF/SimulationRunners/Convergence.py:ConvergenceSimRunner._setUpConfigFileForConvergenceRun", "MAPLEAF/IO/gridConvergenceFunctions.py:checkConvergence"]}
{"id": "C88", "title": "Figures of a batch show the data asked for and are saved where asked for", "statement": "A figure shows every column of the result logs that one of its specifications hits, once, scaled and shifted as its dictionary says and over the x column of the same log, in the format, colour and under the label of its number. Each dictionary of comparison data adds its scaled columns or a warning; it is validated exactly when it is meant for validation, has data, and its name, its only column or the figure's only curve carries the name asked for; warnings add up and every validation error is reported under its dictionary. The figure is saved as image and document beside the name written, existing files being kept when overwriting is off, and the files saved are returned.", "quantifier": "all dictionaries, logs, comparison tables, regular expression matchers, file systems and validation targets", "why_tests_cant": "Specifications hit any number of columns in any number of logs; the tests draw a few fixed figures and look at the files only.", "anchors": ["MAPLEAF/SimulationRunners/Batch.py:_generatePlot", "MAPLEAF/SimulationRunners/Batch.py:_setUpFigure", "MAPLEAF/SimulationRunners/Batch.py:_plotComparisonData", "MAPLEAF/SimulationRunners/Batch.py:_plotData", "MAPLEAF/IO/gridConvergenceFunctions.py:saveFigureAndPrintNotification"]}
{"id": "C89", "title": "A batch reports on the selected cases and passes again on the results it recorded", "statement": "A batch runs the selected top-level dictionaries in order and lists as failed exactly those with a failed comparison or a crash; it returns 0 exactly when there are none. Expected results that read as numbers are compared, those that say 'record' (all of them when recording all) are replaced by the text of the value simulated, and nothing else of the definition changes; the new definition is written beside the old one exactly when something was recorded. Expected results influence neither what is simulated nor which points a sweep visits. A batch that passed passes again, without recording anything, on the definition it wrote, with the same cases, warnings and verdict.", "quantifier": "all batch definitions, simulations, tolerances, selections and ways of reading and writing numbers", "why_tests_cant": "The statement relates two runs of the whole program over arbitrary simulations and definitions; tests run a handful of definitions once and never run one against the file it wrote.", "anchors": ["MAPLEAF/SimulationRunners/Batch.py:BatchRun", "MAPLEAF/SimulationRunners/Batch.py:run", "MAPLEAF/SimulationRunners/Batch.py:_runCase", "MAPLEAF/SimulationRunners/Batch.py:_runFullFlightCase", "MAPLEAF/SimulationRunners/Batch.py:_runParameterSweepCase", "MAPLEAF/SimulationRunners/Batch.py:_checkSimResults"]}
{"id": "C90", "title": "Every row of the force log shows the forces of the components, and they add up to the aerodynamic force", "statement": "Every evaluation of a rocket's force adds one row to its force log: time, state, flow quantities, the force and moment of each component in the two columns named after it, the aerodynamic and the total force. In every row the component forces add up to the aerodynamic force, whatever the rocket, however often steps are rejected, stages dropped, boat tails added and parachutes deployed; rejecting a step removes the rows of that step and no others.", "quantifier": "all rockets with any components and stages, all histories of force evaluations, rejected steps, separations, deployments and new rockets, all parameter sweeps", "why_tests_cant": "The log is assembled by many components writing into shared columns during long flights; tests look at a few rows of one flight and never add the columns up.", "anchors": ["MAPLEAF/Rocket/rocket.py:_getAppliedForce", "MAPLEAF/Rocket/rocket.py:Rocket", "MAPLEAF/Rocket/CompositeObject.py:getAppliedForce", "MAPLEAF/Rocket/RocketComponentFactory.py:initializeForceLogging", "MAPLEAF/SimulationRunners/SingleSimulations.py:discardForceLogsForPreviousTimeStep", "MAPLEAF/SimulationRunners/SingleSimulations.py:runSweep", "MAPLEAF/Utilities.py:cacheLastResult"]}
{"id": "C91", "title": "State variables of components are integrated together with the rocket", "statement": "When components of a rocket have state variables of their own (a tank level), every integration step advances the rigid body and all these values together: each by the weighted sum of its own derivatives, which are all evaluated at the common stage states of the method. In particular a rocket that coasts at velocity v for a time step dt moves by dt v and a value with constant rate r changes by dt r, for every integration method.", "quantifier": "all rockets with any number of component values, all right-hand sides, all fixed-step and adaptive methods, all time steps and start states with unit orientation", "why_tests_cant": "Tests integrate lists of values with two fixed-step methods on one right-hand side; the adaptive methods, which are the default in the examples, are never run on lists of values.", "anchors": ["MAPLEAF/Motion/RigidBodyStates.py:StateList", "MAPLEAF/Motion/RigidBodies.py:StatefulRigidBody", "MAPLEAF/Motion/Integration.py:ClassicalIntegrator", "MAPLEAF/Motion/Integration.py:AdaptiveIntegrator", "MAPLEAF/Rocket/sampleStatefulRocketComponent.py:SampleStatefulComponent"]}
{"id": "C92", "title": "Six-degree-of-freedom motion is integrated by the stated method, orientations by rotating", "statement": "For a rigid body with orientation every step of every method evaluates the body's derivative at the stage times and at the states reached from the start by the stage changes, and ends in the state reached by the weighted sum of these derivatives. A change adds to position, velocity and angular velocity and turns the orientation by its rotation vector; the orientation stays a unit quaternion. A body spinning steadily about a principal axis turns by exactly the angle |w| dt per step, at any rate of spin, and its flight follows the exact parabola.", "quantifier": "all rigid bodies, force, moment and inertia functions, all fixed-step and adaptive methods, all time steps, all start states with unit orientation, any number of steps", "why_tests_cant": "Orientations do not form a vector space, so the textbook order conditions checked on numbers say nothing about them; tests spin slowly about one axis and compare with tolerance.", "anchors": ["MAPLEAF/Motion/RigidBodyStates.py:RigidBodyState", "MAPLEAF/Motion/RigidBodyStates.py:RigidBodyStateDerivative", "MAPLEAF/Motion/Integration.py:ClassicalIntegrator", "MAPLEAF/Motion/Integration.py:AdaptiveIntegrator", "MAPLEAF/Motion/RigidBodies.py:RigidBody"]}
{"id": "C93", "title": "Refining the time step converges to the true motion", "statement": "For every motion y' = f(t, y), a simulation from its start with steps of at most h ends within C h^p of the true state at the time reached, where p is 1 for Euler, 2 for Heun's and the midpoint rule and 4 for the two fourth-order methods; the constant C depends on the motion only, not on the number or the choice of the steps. If the right-hand side is only Lipschitz the error is at most C h. In particular positions and velocities of a 3-DoF body converge to the true trajectory when the time step is refined, which is what the convergence tool presumes.", "quantifier": "all smooth (C4) right-hand sides and their solutions, in any normed space; all sequences of steps, all fixed-step methods; Lipschitz right-hand sides for the first-order bound", "why_tests_cant": "Tests compare one equation at one or two step sizes with a tolerance; convergence is a statement about the limit, over all right-hand sides and step sequences.", "anchors": ["MAPLEAF/Motion/Integration.py:ClassicalIntegrator", "MAPLEAF/Motion/Integration.py:checkButcherTableau", "MAPLEAF/Motion/RigidBodies.py:RigidBody_3DoF", "MAPLEAF/SimulationRunners/Convergence.py:ConvergenceSimRunner"]}
{"id": "C94", "title": "Refining the time step of a six degree of freedom flight converges to the rigid-body motion", "statement": "For a rigid body whose forces, moments and inertia are twice continuously differentiable along its motion, a simulation from the start of the motion with fixed-step Runge-Kutta integration and steps of at most h runs without error and ends within C h^p of the motion that Newton's and Euler's laws describe, in position, velocity, angular velocity and orientation; p is 1 for Euler's method, 2 for Heun's, and what the tableau promises - 4 - for the fourth-order methods. C does not depend on the number or the choice of steps.", "quantifier": "all rigid bodies with smooth forces, moments and inertia, all their motions, all sequences of steps, all fixed-step methods", "why_tests_cant": "Tests integrate one body about one axis with a tolerance. Convergence and its order are statements about the limit over all motions, and bodies whose axis of rotation changes behave differently from those in the tests.", "anchors": ["MAPLEAF/Motion/Integration.py:ClassicalIntegrator", "MAPLEAF/Motion/RigidBodies.py:RigidBody", "MAPLEAF/Motion/RigidBodyStates.py:RigidBodyState", "MAPLEAF/Motion/RigidBodyStates.py:RigidBodyStateDerivative"]}
{"id": "C95", "title": "A symmetric rocket launched straight up without lateral wind flies straight up", "statement": "On a flat earth (or none) without lateral wind, a rocket made of parts symmetric about its axis - masses, hulls, fin sets of two or more equal fins turned together, motors, constant and tabulated axial forces, tabulated inertia - that is launched vertically, with or without launch rail, stays exactly above its launch position: position and velocity have no lateral component, the axis stays vertical and the angular velocity stays along it, with every integration method, fixed or adaptive, every sequence of time steps, and while the rocket changes during flight (burning motors, dropped stages, moving fins). Its centre of gravity stays on the axis. With straight fins and no initial spin it does not rotate at all: the orientation is the initial one.", "quantifier": "all symmetric rockets, all launch definitions along the vertical, all wind and atmosphere models without lateral wind, all integration methods, all sequences of steps and of changes of the rocket", "why_tests_cant": "Tests fly one or two rockets with one method and compare a few numbers within tolerances. That the symmetry survives every component force, the sums over parts and stages, the rail, all stages of all integrators and any number of steps is a statement about all of them together.", "anchors": ["MAPLEAF/Rocket/rocket.py:Rocket", "MAPLEAF/Rocket/CompositeObject.py:CompositeObject", "MAPLEAF/Rocket/Fins.py:FinSet", "MAPLEAF/Motion/RigidBodies.py:RigidBody", "MAPLEAF/Motion/Integration.py:AdaptiveIntegrator", "MAPLEAF/ENV/launchRail.py:LaunchRail"]}
{"id": "C96", "title": "Where the launch is and which way north is do not matter: flights turn and move with their surroundings", "statement": "On a flat earth (or none), turning the wind, the rocket and a vertical launch rail together by any angle about the vertical and moving them along the ground turns and moves the whole flight, and nothing else: time, position, velocity, orientation, angular velocity, rail and the derivative kept by the integrator after any number of steps of any integration method, fixed or adaptive, for every rocket (with any lack of symmetry), every atmosphere and turbulence; a flight that ends in an exception ends in the same exception. The same holds for whole simulations: stages that separate and fly on their own, events, parachutes, the step sizes chosen by error estimates, end conditions and the recorded flights of all bodies. Moving the launch position alone moves the whole flight for launches in any direction from any rail. On the round earth and the WGS84 ellipsoid a launch without rail d degrees further east, at any latitude between the poles, is the same flight turned by d degrees about the axis of the earth, as long as the flight does not pass through that axis.", "quantifier": "all rockets, all winds given by altitude, all launch definitions in the stated classes, all angles and distances, all integration methods, all sequences of steps", "why_tests_cant": "A test can launch from two places and compare within tolerances. That no component force, no integrator formula (which mixes scaled rotations, products of quaternions and error estimates) and no part of the environment has a preferred horizontal direction or origin is a statement about the whole code for all inputs; such a preference exists on launch rails that are not vertical, where a test that uses a vertical rail does not see it.", "anchors": ["MAPLEAF/Rocket/rocket.py:Rocket", "MAPLEAF/Motion/RigidBodies.py:RigidBody", "MAPLEAF/Motion/RigidBodyStates.py:RigidBodyState", "MAPLEAF/Motion/Integration.py:AdaptiveIntegrator", "MAPLEAF/Motion/AeroParameters.py", "MAPLEAF/ENV/launchRail.py:LaunchRail", "MAPLEAF/ENV/EarthModelling.py:SphericalEarth", "MAPLEAF/ENV/environment.py:Environment"]}
{"id": "C97", "title": "A rocket whose centre of pressure is behind its centre of gravity turns into the wind, one whose centre of pressure is ahead turns away", "statement": "For a rocket off the rail and not yet rotating, with equal lateral moments of inertia and its centre of gravity on the axis, made of nose cones, body tubes, transitions, boat tails, sets of an even number of straight fins, tabulated drag and lift, motors and masses, in any number of stages: the angular acceleration of its axis in the plane of the wind is the sum over the parts of side force times distance between the part's centre of pressure and the centre of gravity, divided by the moment of inertia; gravity and thrust do not enter. So if the side force is along the wind, the nose turns into the wind exactly when the side-force-weighted centre of pressure (the value logged as CPZ, when the side force is parallel to the wind) is below the centre of gravity, away from it exactly when it is above, and not at all when the two coincide. Nose cones, body tubes, widening transitions and fins push with the wind, narrowing ones against it. With an odd number of fins the drag of the fins adds a moment of its own, given exactly.", "quantifier": "all rockets in the stated class, all attitudes except within about a ten-millionth of a radian of broadside, all winds, speeds, Mach numbers and atmospheres", "why_tests_cant": "Tests compare logged moments of one or two rockets with stored numbers. A sign error in one lever arm, one normal direction or one cross product is invisible in a symmetric axial flow test and may leave the total of a particular rocket stable; the statement relates every component's moment to its place on the axis for every flow direction, and the sign of the turning to the order of two points on the axis.", "anchors": ["MAPLEAF/Rocket/rocket.py:Rocket", "MAPLEAF/Rocket/noseCone.py:NoseCone", "MAPLEAF/Rocket/bodyTube.py:BodyTube", "MAPLEAF/Rocket/boatTail.py:Transition", "MAPLEAF/Rocket/Fins.py:FinSet", "MAPLEAF/Rocket/AeroFunctions.py:forceFromCdCN", "MAPLEAF/Rocket/CompositeObject.py:CompositeObject", "MAPLEAF/Motion/forceMomentSystem.py", "MAPLEAF/Motion/RigidBodies.py:RigidBody"]}
{"id": "C98", "title": "The rocket that flies is the one in the definition", "statement": "If a rocket is built from a definition (without control system, tabulated aerodynamics or stateful components), then it has one stage per stage dictionary, ordered from top to bottom, and each stage has one component per component dictionary, of the class given there and with exactly the values given there: mass, position relative to the stage, centre of gravity relative to the component, moments of inertia (a hundredth of the mass each if they cannot be read), diameters, lengths, shape, roughness (the rocket's if not given), fin numbers and angles, edges, force and damping coefficients, tables, motor file and adjustment factors. Fins get the radius of the body component of their stage that encloses their height; reference area is that of the widest body tube; a boat tail without length is added to the lowest stage exactly when it has no boat tail at its end, base drag is asked for and there is a body tube; in every stage but the lowest exactly one motor waits, in the lowest none. Hence at lift-off mass, centre of gravity and second moments are those of all described bodies together unless a stage overrides them; and a definition that is symmetric about the axis, launched straight up in calm air, gives a vertical flight to the end of the simulation, through all stage separations and ignitions, without any rotation if neither cant nor rolling moments are described.", "quantifier": "all definitions (dictionaries, texts, float and int readings, motor and inertia files), all calm environments, all integration methods and step sequences", "why_tests_cant": "Tests build a handful of example rockets and compare a few attributes. Which dictionary key ends up in which attribute of which component, in which frame, for any number and order of stages and components, and what this means for the mass at lift-off and the flight as a whole, cannot be enumerated.", "anchors": ["MAPLEAF/Rocket/rocket.py:Rocket", "MAPLEAF/Rocket/stage.py:Stage", "MAPLEAF/Rocket/RocketComponents.py:FixedMass", "MAPLEAF/Rocket/noseCone.py:NoseCone", "MAPLEAF/Rocket/bodyTube.py:BodyTube", "MAPLEAF/Rocket/boatTail.py:BoatTail", "MAPLEAF/Rocket/Fins.py:FinSet", "MAPLEAF/Rocket/Propulsion.py:TabulatedMotor", "MAPLEAF/Rocket/RocketComponentFactory.py", "MAPLEAF/Rocket/CompositeObject.py:CompositeObject"]}
{"id": "C99", "title": "A whole simulation of a symmetric rocket launched straight up ends where it began", "statement": "Simulating a definition that is symmetric about the rocket's axis, launched straight up in calm air over flat ground, every body of the simulation (the rocket and every stage it drops) is, at every recorded moment, straight above the launch position and moves vertically, its axis vertical as long as it has an orientation, whatever stages separate, motors light and parachutes open on the way; every landing location reported is the launch position; without cant, rolling moments and spin no body ever turns. At a separation the rocket loses exactly its lowest stage and keeps position, velocity, orientation and clock, and the dropped stage starts with the same ones and is the stage numbered next in the definition. Under a parachute a body accelerates by its weight and the drag of the parachute opened last, in the wind, over its mass.", "quantifier": "all definitions, environments without wind, integration methods, step size controls, event timings, end conditions and lengths of the run", "why_tests_cant": "Tests run a few example flights and look at single numbers. That staging, ignition, parachute deployment, body switching and integration together never push a symmetric rocket aside, for any sequence and timing of events, is a statement about all executions of the simulation loop.", "anchors": ["MAPLEAF/SimulationRunners/SingleSimulations.py:Simulation", "MAPLEAF/Rocket/rocket.py:Rocket", "MAPLEAF/Rocket/Recovery.py:RecoverySystem", "MAPLEAF/Rocket/simEventDetector.py:SimEventDetector", "MAPLEAF/Motion/RigidBodies.py:RigidBody_3DoF", "MAPLEAF/Rocket/Propulsion.py:TabulatedMotor"]}
{"id": "C100", "title": "In a simulated flight, the rocket before a separation is the rocket after it and the stage it drops", "statement": "When a stage separates, the rocket before equals, in mass, centre of gravity and inertia, the rocket after together with the separated stage, provided the motor lit by the separation had not burned any propellant; the stage that is dropped is component by component the lowest stage of the rocket, with its motor burned out. If that motor had burned out before, total mass, first and second moments and linear momentum are conserved. Two things are not kept: both bodies keep the position of the old centre of gravity as the position of their own, so every point of either jumps by the shift of the centre of gravity and the transverse moment of inertia mu*d^2 is lost; and a stage dropped before burnout loses the propellant it still had.", "quantifier": "all rockets with numbered stages, all separation times, all states of motion", "why_tests_cant": "Tests look at a single staged example. That the mass, moments and momentum of the bodies after a separation sum to those before is a conservation law over all rockets and states, and its two exceptions are only visible by comparing two bodies that no test compares.", "anchors": ["MAPLEAF/Rocket/rocket.py:Rocket", "MAPLEAF/SimulationRunners/SingleSimulations.py:Simulation", "MAPLEAF/Rocket/Propulsion.py:TabulatedMotor", "MAPLEAF/Rocket/CompositeObject.py:CompositeObject", "MAPLEAF/Motion/inertia.py:Inertia"]}
{"id": "C101", "title": "Under a parachute a body settles into falling at its terminal speed and drifting with the wind", "statement": "Once a parachute is open and no event remains, in steady air the velocity of the simulated body tends to the wind plus a fall straight down at the terminal speed sqrt(2 m g / (rho Cd A)): for Euler and the four fixed-step Runge-Kutta methods, and all steps below a size that depends on the data, the distance from that velocity shrinks at least like exp(-k w t / 4), k = Cd A rho / 2m and w the terminal speed, up to 32/(k w) times the change of gravity over the altitudes flown. With longer steps it does not: a step h of Euler multiplies the error of the speed u by 1 - h k (u + w), so that the simulated speed runs away from the terminal speed without any error raised when h k (u + w) > 2.", "quantifier": "all masses, drag areas, winds, initial velocities, fixed-step methods, sequences of steps", "why_tests_cant": "A test compares one descent with one analytic number. That every descent converges, from every initial velocity, in every wind and with every method, and how small the step has to be, is a statement about all trajectories of the discrete dynamics.", "anchors": ["MAPLEAF/Rocket/Recovery.py:RecoverySystem", "MAPLEAF/Motion/RigidBodies.py:RigidBody_3DoF", "MAPLEAF/ENV/EarthModelling.py:FlatEarth", "MAPLEAF/Motion/Integration.py:ClassicalIntegrator", "MAPLEAF/Rocket/rocket.py:Rocket"]}
{"id": "C102", "title": "The motor that flies is the one written in the motor definition file", "statement": "Reading a motor definition file gives exactly the numbers written in it: comments and blank lines have no effect, the four header lines give the positions of the propellant, every further line gives one row of the thrust table with its two moments of inertia in parentheses, whatever the spacing, and a row with a missing or unreadable number raises an error instead of being skipped. The motor built from the file gives at every tabulated time the tabulated thrust times the impulse factor over the burn time factor, and has the impulse under the tabulated curve times the impulse factor.", "quantifier": "all motor files, all numbers, all spacings, comments and header names, all adjustment factors", "why_tests_cant": "A test reads one or two files. That no layout, comment or number changes what is read, and that no malformed row is taken in silence, is about all texts.", "anchors": ["MAPLEAF/Rocket/Propulsion.py:TabulatedMotor", "MAPLEAF/Motion/CythonVector.pyx:Vector"]}
{"id": "C103", "title": "Flights with the adaptive integrators converge to the true motion", "statement": "With any of the four adaptive integrators, including the default one, a simulated flight ends within C(h^p + eps) of the true motion, where h is the largest accepted time step and eps the rounding of the tableau, whatever the target error, the controller, the requested steps and the discarded attempts, and although a step may start with a derivative kept from the step before. Every sequence of requested steps is flown without error. For forces that are only Lipschitz the same holds with p = 1.", "quantifier": "all motions with a smooth (or Lipschitz) right-hand side, all settings, all sequences of requested steps, all error estimates, all states that are vectors (numbers, 3-DoF bodies)", "why_tests_cant": "A convergence test looks at one problem with a few settings. That no history of accepted and discarded steps and kept derivatives spoils the limit is a statement about all of them.", "anchors": ["MAPLEAF/Motion/Integration.py:AdaptiveIntegrator", "MAPLEAF/Motion/Integration.py:ClassicalIntegrator", "MAPLEAF/Motion/RigidBodies.py:RigidBody_3DoF"]}
{"id": "C104", "title": "The drawing of a rocket shows the rocket as it is", "statement": "The figure shows every body tube and every transition with its exact outline, a conical nose exactly, and a tangent ogive inside its true profile with 100 corners on it. Wherever a stage of tubes, transitions and conical noses has a radius, the figure shows that radius on both sides of the axis. Three or four fins appear as a side view of the fins the simulation uses. There is one marker at the centre of gravity of each component that can be drawn, in the order of the components, and one for the rocket with its mass; the drawing fails only if one of these cannot be computed.", "quantifier": "all dimensions, positions and numbers of components, all stages, all results of the mass computation", "why_tests_cant": "A test can compare a few points of one picture. That the outline coincides with the radius used by the aerodynamics everywhere, for all shapes, is a statement about all points and all rockets.", "anchors": ["MAPLEAF/Rocket/rocket.py:Rocket", "MAPLEAF/Rocket/stage.py:Stage", "MAPLEAF/Rocket/Fins.py:FinSet", "MAPLEAF/Rocket/noseCone.py:NoseCone", "MAPLEAF/Rocket/bodyTube.py:BodyTube", "MAPLEAF/Rocket/boatTail.py:Transition"]}
{"id": "C105", "title": "Simulated flights of rigid bodies with adaptive steps approach the true motion", "statement": "A rigid body under smooth forces, moments and inertia that turns less than once per second is flown without error by every adaptive integrator, with every positive smallest step, every target error below 500000 and all requested steps of at most h (h small enough), whatever attempts are discarded. Position, velocity, angular velocity and orientation at the end are within C (h^2 + eps) of the motion given by Newton's and Euler's equations, where eps is the distance of the coefficients from the exact ones (1e-16 in the code). With any spin, a flight that completes with steps of at most h ends within C (h + eps).", "quantifier": "all smooth forces, moments and inertia, all motions, all sequences of requested steps, all settings, all four methods", "why_tests_cant": "Convergence is a statement about all sufficiently small steps and all sequences of accepted and discarded attempts; a test flies a few. Whether a stage meets a full turn, which raises, depends on the motion.", "anchors": ["MAPLEAF/Motion/Integration.py:AdaptiveIntegrator", "MAPLEAF/Motion/RigidBodies.py:RigidBody", "MAPLEAF/Motion/RigidBodyStates.py:RigidBodyState"]}
{"id": "C106", "title": "After a simulation exactly the plots asked for are shown, and showing them changes no result", "statement": "Every word of SimControl.plot gives exactly one picture: FlightAnimation the animation, FlightPaths the flight paths (over the globe if the earth is round and Mayavi is installed), any other word the plot of the logged columns it names, or a message if there are none; None alone gives nothing. A plot of flight paths has one curve per flight through every recorded position, in a box with equal edges that contains them all, and so has the plot of landing points of a Monte Carlo study. The flights handed back are the ones that were flown, whatever was plotted.", "quantifier": "all values of SimControl.plot and EarthModel, all flights, logs and states of the log cache", "why_tests_cant": "Tests plot sample flights without looking at the pictures; which positions fall outside the axes, and what plotting does to the flights handed back, depends on the flight.", "anchors": ["MAPLEAF/SimulationRunners/SingleSimulations.py:_plotSimulationResults", "MAPLEAF/IO/Plotting.py:plotFlightPaths_NoEarth", "MAPLEAF/IO/Plotting.py:plotFlightPaths_FullEarth", "MAPLEAF/IO/Plotting.py:plotFromLogFiles", "MAPLEAF/IO/Plotting.py:plotAndSummarizeVectorResult", "MAPLEAF/IO/Plotting.py:_keepNTimeSteps"]}
{"id": "C107", "title": "The air slows a coasting rocket: it never rises above the height it would reach in a vacuum", "statement": "After burnout a rocket of ordinary shape that flies straight up is only ever pushed back by the air: in every flow the aerodynamic force of the whole rocket on its body axis points to the tail and is at least that of each component. So along the true motion its vertical speed never grows, its energy per mass never grows while it rises, and it stays below every height a body thrown upwards at the same speed does not reach in a vacuum. In a simulated coast with Euler, RK2Heun, RK4 or RK4_3/8 the vertical speed never grows from step to step, and the height gained is at most the speed at burnout times the time (for RK2Midpoint up to the factor 1 + 1e-16). A rocket that falls is slowed by the air as well.", "quantifier": "all rockets built from the component classes with symmetric layout, all states on the axis, flows, step sizes and numbers of steps", "why_tests_cant": "Tests compare single forces and one flight with reference values; the sign of the drag must hold for every shape, Mach number, Reynolds number and angle, and the bound on the apogee for every rocket.", "anchors": ["MAPLEAF/Rocket/rocket.py:_getAppliedForce", "MAPLEAF/Rocket/bodyTube.py:getAppliedForce", "MAPLEAF/Rocket/Fins.py:getAppliedForce", "MAPLEAF/Rocket/boatTail.py:getAppliedForce", "MAPLEAF/Rocket/noseCone.py:getAppliedForce", "MAPLEAF/Rocket/AeroFunctions.py:getDragToAxialForceFactor", "MAPLEAF/Rocket/AeroFunctions.py:forceFromCdCN", "MAPLEAF/Motion/RigidBodies.py:getRigidBodyStateDerivative", "MAPLEAF/Motion/Integration.py:_integrateByButcherTableau"]}
{"id": "C108", "title": "With hardware in the loop the hardware is told the state at the set rates, in real time, and the rocket flies with the angles it answers", "statement": "Setting up resets the controller, sends orientation, position and velocity on the pad and announces the launch. After every time step exactly the messages whose last one is more than an update period ago are sent, with the state after that step, and a receiver that follows the length in the type byte and the check sum reads exactly these from the whole stream of bytes. The angles are asked for when real time has reached the time of the simulation, at the first reading of the clock for which this holds; each canard then has the angle answered for it, or keeps the last one if there is no answer in time. The rocket flies with these angles, messages are not sent ahead of real time, and late answers and parachutes do no harm.", "quantifier": "all flights, clocks, answers of the hardware, rates and numbers of steps", "why_tests_cant": "The tests need the hardware and are skipped without it; interleavings of clock, answers and steps cannot be enumerated.", "anchors": ["MAPLEAF/IO/HIL.py:setupHIL", "MAPLEAF/IO/HIL.py:performHIL", "MAPLEAF/IO/HIL.py:sendIMUData", "MAPLEAF/IO/HIL.py:requestCanardAngles", "MAPLEAF/IO/HIL.py:getCanardAngles", "MAPLEAF/SimulationRunners/SingleSimulations.py:run", "MAPLEAF/Rocket/rocket.py:Rocket"]}
{"id": "C109", "title": "Canted fins spin the rocket the way the template says, and no faster than the air turns them", "statement": "finCantAngle positive gives a rolling moment about the negative z axis, negative about the positive one. In straight flight at speed V each slice of a fin meets the air at the cant angle plus atan(radius times roll rate over V); the set pushes towards the spin at which slices run free of the air, -(V / radius) tan(cant), never away from it. A rocket without roll therefore spins up in the promised direction, never in the other one, and its roll rate never exceeds the free rate of the innermost slice at the highest speed flown.", "quantifier": "all fin geometries, numbers and directions of fins, cants between -90 and 90 degrees, Mach numbers, speeds, roll rates and flights", "why_tests_cant": "A test looks at one cant, one speed and one rate; the bound on the roll rate is a statement about all solutions of the equations of motion.", "anchors": ["MAPLEAF/Rocket/Fins.py:_barrowmanAeroFunc", "MAPLEAF/Rocket/Fins.py:getAppliedForce", "MAPLEAF/Rocket/CythonFinFunctions.pyx:getFinSliceAngleOfAttack", "MAPLEAF/Motion/RigidBodies.py:getRigidBodyStateDerivative", "MAPLEAF/Rocket/Fins.py:FinSet"]}
{"id": "C110", "title": "A steady wind carries the flight along and does nothing else", "statement": "Over flat ground, let a second simulation have the same horizontal wind W added at every height, and let it start off the rail with velocity W more and any distance along the ground away. Then with a fixed-step integrator it is the same simulation, seen from the ground: the same bodies, the same steps, separations and parachutes at the same times and altitudes, the same attitude and spin, the same exception if it ends in one; every velocity is W more and every position is further by W times the time since the start.", "quantifier": "all rockets, stages and parachutes, winds, turbulence that does not depend on the mean wind, starting states, step sizes, fixed-step methods, end conditions and numbers of steps", "why_tests_cant": "A test compares a few landing points within a tolerance; that only the speed relative to the air enters the forces, the events and the end conditions is a statement about all pairs of flights.", "anchors": ["MAPLEAF/ENV/environment.py:getAirProperties", "MAPLEAF/Motion/AeroParameters.py:getLocalFrameAirVel", "MAPLEAF/Motion/Integration.py:ClassicalIntegrator", "MAPLEAF/Rocket/rocket.py:timeStep", "MAPLEAF/Rocket/rocket.py:_getAppliedForce", "MAPLEAF/Rocket/Recovery.py:getAppliedForce", "MAPLEAF/SimulationRunners/SingleSimulations.py:run"]}
{"id": "C111", "title": "The report of default values lists exactly the defaults that were used, and following its advice overrides them", "statement": "After a simulation printDefaultValuesUsed prints every default value that answered a read since the definition was loaded, once, in alphabetical order, with the value the defaults hold, and nothing else; it never fails, whatever was written to or removed from the definition meanwhile; it prints nothing if no default was used. A user who adds a reported line to the definition, with another value, gets that value. Values that the program falls back to are in the report. (False for the last two: the reported line of a class-based default has no effect, and defaults given in the code are never reported.)", "quantifier": "all definitions, default dictionaries, histories of reads, writes and removals, keys and values", "why_tests_cant": "Tests check the answer of single reads; which reads a whole run makes, and that the report is complete and can be acted upon for all of them, is a statement about all histories.", "anchors": ["MAPLEAF/IO/simDefinition.py:printDefaultValuesUsed", "MAPLEAF/IO/simDefinition.py:printUnusedKeys", "MAPLEAF/IO/simDefinition.py:getValue", "MAPLEAF/IO/simDefinition.py:_getClassBasedDefaultValue", "MAPLEAF/IO/simDefinition.py:_resetUsageTrackers", "MAPLEAF/IO/simDefinition.py:__str__", "MAPLEAF/IO/subDictReader.py:tryGetFloat", "MAPLEAF/SimulationRunners/SingleSimulations.py:_postProcess"]}
{"id": "C112", "title": "The uncertainty band of a convergence plot contains the exact values, and its extrapolated line goes through them", "statement": "For results of three step sizes whose error at every place is a power of the step, with an order within the allowed range, plotConvergence draws exactly the marks asked for and nothing else: the three given curves, a line through the exact values, the true local orders, and a band around the fine results that contains the exact values with a margin of at least 60 percent of the error; an order above the allowed range only widens the band. Figures asked for are saved. (False: with an order below the allowed range the band can miss the exact value; the uncertainty used by convergence studies contains the exact value exactly if r^2-1 <= 3(r^p-1); a single place fails with a TypeError; saving fails if axes but no figure are handed in for the uncertainty plot.)", "quantifier": "all refinement ratios above 1, orders, error constants, exact values, numbers of places (two or more), label prefixes and display options", "why_tests_cant": "That a band covers the exact answer is an inequality over all real data with this behaviour; tests compare single numbers with a tolerance, and the plots are not tested at all.", "anchors": ["MAPLEAF/IO/gridConvergenceFunctions.py:plotConvergence", "MAPLEAF/IO/gridConvergenceFunctions.py:checkConvergence", "MAPLEAF/IO/gridConvergenceFunctions.py:uncertainty_FS", "MAPLEAF/IO/gridConvergenceFunctions.py:uncertainty_GCIOR", "MAPLEAF/IO/gridConvergenceFunctions.py:uncertainty_GCI2g", "MAPLEAF/IO/gridConvergenceFunctions.py:uncertainty_GCIglb", "MAPLEAF/IO/gridConvergenceFunctions.py:orderOfConvergence", "MAPLEAF/IO/gridConvergenceFunctions.py:richardsonExtrap"]}
