# Formal model of GUNNS in Lean 4

Source: `/repo` (nasa/gunns at the pinned commit), read as text only.  Lean project: `lean/`,
modules `lean/Verif/*.lean`.

## Trusted base

* Lean 4.33.0's kernel, and Mathlib as installed (one-module imports).
* Axioms: only `propext`, `Classical.choice`, `Quot.sound` (checked with `#print axioms`, see
  "Axioms" below).  No axioms are added; no `sorry`, `native_decide`, `bv_decide`.
* The hand translation from C++ to Lean.  Each definition cites file and lines and states its
  simplifications.

## Modelling decisions common to all modules

* **Numbers.** `double` is modelled by an arbitrary linearly ordered field `K` (instantiated at `Rat`
  for the executable examples; `Real` where a transcendental function is needed).  Rounding, overflow,
  NaN and signed zero are *not* modelled, except where a module says so.  Every literal threshold
  of the code (1e-100, DBL_EPSILON, 1e15, ...) is kept, so branches on it are modelled.
* **`int`** is modelled by `Int` or `Nat`; where 32-bit overflow matters the statement carries the bound.
* **Memory.** Arrays allocated by the code are functions on indices or lists; an access outside of the
  bounds is a distinct outcome (`ub`) where the code does not guard it.
* **Exceptions** are a distinct outcome, and the state left behind by the throwing call is modelled
  when the caller can observe it.
* **Virtual calls** (link physics) are modelled as arbitrary functions/answers, universally
  quantified, unless the property is about a particular link.
* Log messages, timing statistics, GPU solvers and Trick memory bookkeeping are left out.

Model definitions live in `Verif/<Area>/Model.lean`-style files, the small independent vocabulary used by
the statements in `Spec` files, and the property theorems in `Verif/Props/*.lean`.

## Plan per property

| id | modelled | proof |
|----|----------|-------|
| C01 | `CholeskyLdu::Decompose` in place, with the sparse skip and the flush | loop invariants for the three nested loops; error term bounded; exact when nothing is flushed; counterexample for positive off-diagonals |
| C02 | same | induction on rows with Schur complements: off-diagonals <= 0 and positive row sums are kept, skipping only helps |
| C03 | same | throw iff a pivot of row >= 1 is <= 0; LDL^T with D>0 gives positive definiteness; witness for row 0 |
| C04 | `Solve` with both triangular substitutions in place | loop invariants; uniqueness by triangularity |
| C05 | composition of C01/C02/C04 | discrete maximum principle |
| C06 | `Invert` in place | loop invariants |
| C07 | `Sor::solve` | induction over sweeps |
| C08 | `buildAdmittanceMatrix`, `buildSourceVector`, `updateAdmittanceMap` | folds of additions; permutation invariance |
| C09 | `conditionAdmittanceMatrix` | row-wise; combined with C02 |
| C10 | `buildIslands`, `mergeIslands` | loop invariant: labels = components of the edges seen so far |
| C11 | SOLVE branch of `buildAndSolveSystem` | block decomposition |
| C12 | rebuild flag/matrix state machine | invariant for the good histories, witnesses for the bad ones |
| C13-C17 | `step`, `iterateMinorSteps`, `confirmSolutionAcceptance`, ... as a state machine over arbitrary link answers | induction over the minor steps |
| C18 | `initialize` & co. as decision logic | case analysis, histories |
| C19-C22 | `setPort` & co. over `Int` arguments, UB explicit | invariant over histories |
| C23-C26 | basic links and nodes | field algebra, telescoping, assembly |
| C27-C28 | fluid flow orchestrator | loop measure, invariants |
| C29 | jumper/socket/plug | invariant over histories |
| C30 | minor step log | refinement to a list |
| C31-C32 | mixtures and node contents | field algebra, induction over flow lists |
| C33-C34 | two-way buses, two sides and their channels | invariants over interleavings, convergence of endless runs |
| C35 | conductors, nodes and orchestrator together | invariant over the orchestrator's calls, sums over links |
| C36-C37 | linear, bilinear and reverse table interpolation with cached cells | cell search lemmas, invariant over calls |
| C38 | Brent's root finder, division by zero as an outcome | loop invariant, intermediate value theorem |
| C39 | protected switch: trip logic and switch state machine | exact transition conditions, invariants over histories |
| C40 | switches of a network under the solver's minor step loop | loop invariant over minor steps, for all other links |
| C41 | Euler angles, quaternions, rotation matrices of the dynamics aspect | real trigonometry, Mathlib quaternions and matrices as specification |
| C42 | state derivative of a rigid body, with the solver it runs | refinement to Newton and Euler in Mathlib's vectors, invariant over calls, witnesses |
| C43 | message queue: nodes, pointers, mutex, threads step by step | refinement to a list, invariant over interleavings, witness for every capacity |
| C44 | message filter: map, deques, settings | refinement to a filter with unbounded memory, invariant over messages |
| C45 | battery: cells, malfunctions, link terms | invariant over operations, charge balance over histories, closed form of runaway and sequence |
| C46 | segment against triangle, ball, ellipsoid, cylinder | refinement to sets of points (Mathlib segment) |
| C47 | network capacitances | refinement to the inverse matrix, maximum principle |
| C48 | thermal phase-change battery | invariant over runs, heat balance by induction, exact error of each phase change |
| C49 | PID controller | exact transition, induction over calls, closed forms |
| C50 | particle swarm optimizer | invariant over sequences of events, best-of specification, witnesses |
| C51 | gradient descent optimizer | invariant over sequences of events, step specification, witnesses |
| C52 | valve controllers | decision tables, invariants over histories, closed form over runs, refinement of toggle queues, witnesses |
| C53 | plugs go where they are asked, jumper ends follow their plugs | invariant over event histories, refinement of an update, two-round convergence |
| C54 | a converter takes in what it gives out plus its losses; bounded rejections | power balance of a pair of links, decision logic, potential function over event sequences |
| C55 | the links of a converter tell each other what is valid; deadlocks | invariants of the solver's loop over all networks hosting a converter |
| C56 | trace compounds are conserved by fluid nodes | balance for all lists of calls and histories, on top of C32 |
| C57 | chemical reactors consume and produce in proportion | extent of each reaction, balance of any quantity kept per mole by induction over reactions and histories |
| C58 | separators conserve every constituent | pass as a split in moles, telescoping over histories |
| C59 | times of the calendar subtract and print correctly | refinement to the rule for the next day of the calendar, order isomorphism, strings by the digits they show; failures by witnesses |
| C60 | sensors show the truth but for what they are given | decision logic by mode, error bound against an ideal sensor, invariants over histories of outside changes; failures by witnesses |
| C61 | unit conversions convert units | units by their definitions, relative error of each factor, commuting paths; failures by witnesses |
| C62 | Thermostats | Update as a record; induction over runs for the nominal command (since), closed loop with bounds on heating and errors for the band |
| C63 | Relief and regulator valves follow their hysteresis | refinement to a rate limited hysteresis operator by an invariant between state and position; the regulator valve by a mirror of pressures |
| C64 | conductors | law of the flow and its inverse over ℝ with real powers, histories with any user changes |
| C65 | check and three-way valves | rate-limited motion as one function of the elapsed time, monotone comparison of histories |
| C66 | conversions of mixtures | shares of amounts as spec; loops as finite sums; transformation by what each type receives |
| C67 | the distributed fluid interface | one composed transfer lemma (output, bus, input) for both directions; invariant over histories for the volume |
| C68 | thermal links | stamps of the links assembled into the two node equations, invariant over histories; interval integrals over the reals for the thermoelectric effect |
| C69 | heat between flows and walls | real analysis: bounds of the logarithms and powers for all arguments, the exponential law by induction over segments |
| C70 | diffusion through hatches | sums over any number of compounds; the flow as a common fraction of Fick's law |
| C71 | sorption beds | invariant over sorbates, offgas compounds and segments: a change of the stream with the compounds it writes; monotonicity of the isotherm over the reals |
| C72 | Laguerre's method | Horner invariant against Mathlib polynomials; backward error; search invariant by Cauchy-Schwarz on the reciprocals of the distances |
| C73 | fans, pumps, pressure heads | affinity laws over real powers; Laguerre's and Brent's theorems for the crossing; √x invariant for the cavitation; orthogonal invariance of the head |
| C74 | drive shafts, gas turbines, displacement pumps | induction over histories of steps; explicit solution of the linear recurrence; rational map bounds; round trip of the conductivity (C64) |
| C75 | Lambert's W function | residual of a Newton pass in the logarithm, invariant with a quadratic rate, induction over the passes |
| C76 | photovoltaic cells | algebra of Lambert's W, strict monotony and concavity of the circuit equation |
| C77 | strings of solar cells: bypass, maximum power point, loads on the curve, malfunction of the flux | algebra of the two lines, quadratic roots, induction over passes |
| C78 | the solar array: points, admittance and source of each side, confirmation, loads | folds over strings, algebra, node equation |
| C79 | Converting regulator of the solar array | `Props/PvRegConv`: a rank of state and latch that falls with every change, over any sequence of solutions; cases of the accepted state; the curve by the lines of C77 |
| C80 | the shunting solar regulator: order, least prefix, at most four rejections, what is accepted | Props/PvRegShunt |
| C81 | the internal power supply: selection, conductances, bounded switching, wrong totals | Props/Ips |
| C82 | adsorbers: capacity, books, stale source | invariant over runs; failures proved |
| C83 | adsorbers of several compounds | invariant over runs; trace failures proved |
| C84 | selective membrane | law and balance; failures proved |
| C85 | flow controllers | closed loop convergence by contraction; failures proved |
| C86 | metabolic links | the exchange constituent by constituent through the mixture model; transitions by induction over requests; failures proved |
| C87 | hydrogen cell | arithmetic; induction over passes for the latch |
| C88 | balloon | invariant over operations; the correction's quadratic over the reals |
| C89 | sublimator | invariant over passes; arithmetic of the books |
| C90 | fire source | exchange per joule by sums over the filled fluid; induction over passes |
| C91 | evaporation | closed form of the rate; inductions over passes for the pool and for two linked networks |
| C92 | spring accumulator | invariant over commands and passes by induction; balance of mass and heat of a pass; fraction of the pressure difference from the bound of the admittance |
| C93 | user loads and power bus | case analysis against a table of the demanded power; latching by induction over events; the cycle by induction on steps; the sum by induction on the loads |
| C94 | first switch utility | decision logic of the two updates; induction over events for the latch and over converged steps for the priority |
| C95 | Load switch and short | Series law, Ohm's law on the next pass, holding of an initial short by induction over voltages, override |
| C96 | Selector | Invariant over events: matrix is an outer product of one port's sign vector |
| C97 | External demand and supply | Induction over passes: halving of the filter error, geometric convergence of the estimate; list induction over queues |
| C98 | Island analyzers, flow integrator | Induction over the island from its end: the last greatest; sums over passes |
| C99 | Balanced pressure reducing valve | Ledger invariant over passes with the five-to-one bound; geometric convergence of the buffer |
| C100 | Simple rocket | the search's invariant (within two next moves of the root, at or above 5/4) over all steps; strict monotonicity of the area ratio by its logarithmic derivative |
| C101 | Multi-separator | sums over the lists of fluids by induction, telescoping of the buffers over the passes; concrete configurations for the failures |
| C102 | fluid shadow | round trip through the mixture conversions of C66; induction over passes |
| C103 | gas separator | invariant and ledger by induction over passes |
| C104 | pump motor controller | latches characterised by the history, by induction over passes |
| C105 | random numbers | arithmetic of the seed modulo the table; pigeonhole; first place by minimality |
| C106 | resistor with a power function | real powers and their derivative |
| C107 | constant power load | iteration on a source, contraction and invariants |
| C108 | diode with a voltage drop | the curve and the accepted solutions on a source |
| C109 | curve fits | values with poles as none, inverses, witnesses against the checks |
| C110 | the text file parser | lists; induction over the fields and lines, a strip relation and a first-occurrence relation as specification |
| C111 | the optical smoke detector | invariant of every update; induction over the updates of a recovery |
| C112 | saturation temperature and pressure | real functions; both branches of the quadratic, monotonicity between the limits, the table of fluids checked row by row |
| C113 | the liquid water sensor | the dew point against the saturation pressure through the two inverse curves; the curves of water in numbers |
| C114 | the heat of vaporization | real functions; a logarithm inequality for the fall; the tables checked row by row |

Properties found later are appended to `properties.jsonl` and to this table.

## What is modelled, file by file

| Lean | C++ | left out |
|------|-----|----------|
| LinAlg/Cholesky | `math/linear_algebra/CholeskyLdu` Decompose, Solve, Invert | rounding; the GPU classes |
| LinAlg/Sor | `math/linear_algebra/Sor` | rounding |
| Net/Assembly, Net/Islands | `core/Gunns.cpp` matrix and source assembly, conditioning, islands, SOLVE mode | GPU sizes, debug slices |
| Solver/Model, Frame, Init | `core/Gunns.cpp` initialize, step, iterateMinorSteps, solver states, convergence, decomposition limits | network capacitance requests, Norton links other than by their answers, timing |
| Link/Ports | `core/GunnsBasicLink.cpp`, `core/GunnsFluidLink.cpp`, `core/network/GunnsNetworkBase` port maps and restarts | Trick arrays |
| Link/Elements | `core/GunnsBasicConductor, Capacitor, Source, Potential, Node` | blockage and malfunctions except where they enter the conductance |
| Link/Jumper | `core/GunnsBasicJumper, JumperPlug, Socket` | the link physics of a jumper |
| Flow/Orchestrator | `core/GunnsFluidFlowOrchestrator`, `core/GunnsBasicFlowOrchestrator` | the physics behind each call |
| Log/MinorStepLog | `core/GunnsMinorStepLog` | file names, text layout other than the rows |
| Fluid/PolyFluid | `aspects/fluid/fluid/PolyFluid` amounts, fractions, mixing | property curves (as functions), trace compounds |
| Fluid/Node | `core/GunnsFluidNode`, `core/GunnsFluidUtils` | trace compounds (in Fluid/Trace), expansion term (as a function) |
| Fluid/Trace | `aspects/fluid/fluid/GunnsFluidTraceCompounds` and what `PolyFluid`, `GunnsFluidUtils::mixFluidMasses`, `GunnsFluidNode` do with it | `initialize`, `restart`, the named accessors |
| Fluid/Network | `core/GunnsFluidConductor`, `core/GunnsFluidLink` transportFluid, the flow part of `Gunns::step` | internal fluid of links, power |
| Math/Interp | `ms-utils/math/approximation/TsLinearInterpolator, TsBilinearInterpolator, TsBilinearInterpolatorReverse, TsApproximation` | null pointers given by the user, names, rounding |
| Math/Brent | `ms-utils/math/root_finding/BrentMethod` | state or exceptions of the virtual function, rounding |
| Elect/Switch, Network | `aspects/electrical/TripLogic/GunnsTripLogic`, `aspects/electrical/Switch/GunnsElectSwitchUtil2`, `confirmSolutionAcceptable` of `GunnsElectUserLoadSwitch2` | user loads, fuses, sensors (arbitrary readings), shorts |
| Dyn/Utils, Euler | `aspects/dynamics/GunnsDynUtils`, `GunnsDynEuler` (all six sequences) | rounding; aliasing of arguments (functions copy their inputs) |
| Dyn/Rigid | `GunnsDynSingleRigidStateDeriv` (initialize, update and what it calls), `GunnsDynSingleRigidMassProps` | the integration in `GunnsDynSingleRigidEom`; messages, names, a second initialize |
| Hs/Queue | `ms-utils/simulation/hs/TsHsMsgQueue`, each unprotected pointer read and each critical section a step | exhaustion of memory, overflow of counters, data races within one pointer |
| Hs/Filter | `ms-utils/simulation/hs/TsHsMsgFilter`, `TsHsMsgStdFilter` | overflow of counters, failure of a blocking lock |
| Elect/Battery | `aspects/electrical/Batt/GunnsElectBattery`, `GunnsElectBatteryCell` | the voltage table is a function (C36), names, restart, checkpoint |
| Geom/Intersect | ms-utils/math/intersect/LineSegmentIntersect.cpp: triangle, cylinder, sphere, spheroid | numbers are reals (any ordered field for the triangle), rounding is not modelled; JEOD's vector operations are those of their names; the point is always asked for; division by zero in sphere and spheroid is a distinct outcome |
| Solver/NetCap | `core/Gunns.cpp`: perturbNetworkCapacitances, computeNetworkCapacitances, the NORMAL branch of buildAndSolveSystem | islands (C11), GPU solvers |
| Thermal/PhaseChange | `aspects/thermal/GunnsThermalPhaseChangeBattery` | the node is seen through the potential; port re-mapping, restart, checkpoint |
| Control/Pid | `gunns-ts-models/common/controllers/generic/TsPidController` | names, checkpoint |
| Optim/Swarm | `core/optimization/GunnsOptimParticleSwarm`, part of `GunnsOptimMonteCarlo`, `GunnsOptimBase` and `GunnsOptimMonteCarloTypes` | files, printing, acceleration (only printed), random generator (numbers are arguments) |
| Optim/Descent | `core/optimization/GunnsOptimGradientDescent`, part of `GunnsOptimMonteCarlo` and `GunnsOptimBase` | files, printing; the run id -99.99 of states not run yet is an integer |
| Control/Valve | `gunns-ts-models/common/controllers/fluid/`: `TsValveController`, `TsPoweredValveController`, `TsOpenCloseValveController`, `TsSpeedValveController`, `TsPositionValveController`, `TsToggleValveCmd`, `TsToggleValveController`, `TsTValveController`, `TsDualSolenoidValveController` | names, messages, `mInitialized`; the initial data of the derived controllers |
| Plugs/Plugs | `core/GunnsBasicJumper`, `GunnsBasicJumperPlug`, `GunnsBasicSocket`; `setPort` of `GunnsBasicLink` | names, messages, pointer checks, conductance values, leak malfunction of the fluid classes |
| Elect/Converter, ConverterSpec, ConverterLemmas, ConverterRun | GunnsElectConverterInput/Output: minor step, power and voltage exchange, regulation sources, bias and limit states, trips, flows, reset | sensors are noiseless functions; float casts, user port commands, messages left out; both links in one network |
| Solver/Invariant, Elect/ConverterNet, ConverterNetLemmas | a network hosting a converter: the solver's calls act on the pair as in Elect/Converter | other links arbitrary but for not touching the converter |
| Fluid/Reactor | GunnsFluidReactor.cpp 383-477, 490-654, 711-742, 758-811; GunnsFluidHotReactor.cpp 195-206; ChemicalCompound.cpp 103-132; ChemicalReaction.cpp 90-130 | the internal fluid is given by its mass fractions; the temperature step of addRxnHeat (computeTemperature) is left out, its enthalpy kept; the conductance and configuration checks of the base class are left out |
| Fluid/Separator | GunnsFluidMultiSeparator.cpp 274-360, 571-581, 639-641, 678-746; GunnsFluidLink.cpp 370-382 | trace compounds, port commands, malfunctions, admittance and phases left out |
| Time/Utc | ms-utils/units/TS_sgmt_conversion.c, all functions; the constants of time of TS_conversions.c | `int` arithmetic is unbounded except for the conversion of a double to `int`; strings are lists of digits, colons and signs; the definition of TS_FLAG is not in the repository |
| Sensor/Analog | gunns-ts-models/common/sensors: SensorBase, SensorAnalog, SensorBooleanBi, SensorBooleanAi, SensorVlvOpenClose, TsLimitSwitch, TsLimitSwitchAnalog, TsNoise::getNoise | `float` is exact; the unit conversion is any function; the noise function is a stream and a count of calls; the conversion to `int` in MsMath::round is undefined out of its range |
| Units/Conversion | ms-utils/math/UnitConversion.cpp and .hh, all conversions and the constants that are ratios of units | doubles are real numbers and constants those written in the source; messages are left out |
| Units/TsConversion | ms-utils/units/TS_conversions.c, all functions and the constants that are ratios of units (angles left out) | as above |
| Control/Thermostat | Thermostat.cpp, HtrControl.cpp | Sensors are SensorAnalog of C60 with configured inputs; noise is a function; restarts and logging left out; an undefined sensor makes the update undefined |
| Fluid/ReliefValve | GunnsFluidPressureSensitiveValve, GunnsFluidReliefValve, GunnsFluidRegulatorValve: initialize, validate, derive, control pressure, valve state, position, effective conductivity | the two curves' coefficients are grouped; tuning, transport and heat flux left out; the predicted leak conductivity is an input |
| Fluid/Conductivity | computeAdmittance, predictConductivity, step of GunnsFluidConductor and GunnsFluidValve with tuning, leak and blockage | a fluid is density, weight and pressure; heat exchange left out; real numbers |
| Fluid/CheckValve | GunnsFluidCheckValve, GunnsFluid3WayValve, GunnsFluid3WayCheckValve: validate and updateState | a step sees pressure drops, time step and malfunctions; node assignment of the paths left out |
| Fluid/Mixture | GunnsFluidUtils: conversions of fractions, normalizeArray, mixFluidMasses, buildTransformMap, transformState | compositions and masses; pressure, temperature and trace compounds of the results left out |
| Interop/FluidIf | GunnsFluidDistributedIf: inputs, outputs, roles and volume, capacitance, admittance, flux; the volume edit of GunnsFluidCapacitor::step | fluids are mass fractions, trace fractions and an energy (temperature or enthalpy, taken as kept by PolyFluid's conversion); the node's inflow, flux and network capacitance are inputs; transport into the node and port directions are not modelled |
| Thermal/Links | GunnsThermalRadiation, GunnsThermalCapacitor, GunnsThermalCapacitorHeatQueues, GunnsThermalSource, GunnsThermalPanel, GunnsThermalMultiPanel, GunnsThermoelectricEffect, GunnsThermoelectricDevice: step, update and the checks of their configuration | the capacitance edit groups and the reading of the configuration are not modelled; infinity of a division by zero in the device's plates is modelled by its effect; a quotient 0/0 in a panel is a distinct outcome |
| Fluid/Heat | core/GunnsFluidUtils.cpp: computeFlowRegimeFactor to computeIsentropicTemperature and predictExpansionScaleFactor; GunnsFluidHeatExchanger, GunnsFluidHxDynHtc, GunnsFluidPipe: the heat of their segments | fluid properties are any functions of the temperature (density, viscosity, conductivity and Prandtl number are those of the inlet); checks of the configuration are not modelled; division by zero in the tuning is a distinct outcome |
| Fluid/Hatch | computeGasDiffusion, computeConductiveHeatFlux; GunnsFluidHatch: validate, updateFluid, transportFluid with GunnsFluidLink::transportFluid and PolyFluid::updateMass | a fluid is what the functions read of it; trace compounds are left out; the specific enthalpy of the diffusive fluid is the sum over its compounds |
| Fluid/Sorption | SorbateProperties and SorbantProperties; GunnsFluidSorptionBed: sorbates, segments, updateSegments, computeAdsorbOutputs (bulk masses), with PolyFluid::updateMass and updateMoleFractions of the trace compounds | the temperatures in and out of a segment and its convective heat are given; indices of -1 are none; the compound's molecular weight is that of its fluid |
| Math/Laguerre | LaguerreMethod::solve | complex numbers are exact; std::sqrt is the principal square root |
| Fluid/Fan | GunnsFluidPotential, GunnsGasFan, GunnsGasFanCurve, GunnsLiquidCentrifugalPump, GunnsPumpCavitation, GunnsFluidPressureHead | outflow pressures are the fluids' pressures; noise is an argument; heat of the fan and tuning by flow demand left out |
| Fluid/Shaft | GunnsDriveShaftSpotter, GunnsGasTurbine, GunnsFluidSource, GunnsGasDisplacementPump, GunnsLiquidDisplacementPump | no port on the vacuum node; heat of the walls and the shaft's powers by enthalpy left out; the exception for equal corrected speeds cannot come after validate |
| Math/LambertW | LambertW.cpp: all functions | real numbers; exception and NaN as outcomes |
| Elect/PvCell | GunnsElectPvString2.cpp: GunnsElectPvCellEquivCircuit2 | real numbers; the solvers of W as parameters; exception and NaN as outcomes |
| Elect/PvString | GunnsElectPvString (update, loads, inputs), the string part of GunnsElectPvString2, GunnsElectPvSection::updateEnvironment | division by zero is none; the shunted flag is left out |
| Elect/PvArray | GunnsElectPvArray (all but port commands and insolation) | a string is what the array asks of it; strings of all sections in one list |
| Elect/PvRegConv | GunnsElectPvRegConv.cpp/.hh, GunnsElectPvRegTrips | sensors and the cast to float are functions given to each call; the array's terminal is part of the state; a division by zero in the array is `none` |
| Elect/PvRegShunt | `GunnsElectPvRegShunt` | strings are what the regulator asks of them; OFF and REG only; sensors and casts are functions given to each call; port commands left out |
| Elect/Ips | `GunnsElectIps` | sources are numbers, INVALID_SOURCE is none; messages left out |
| Fluid/Adsorber | GunnsFluidAdsorber, GunnsFluidHotAdsorber: validate (numbers), updateFluid, adsorb, desorb, computeEfficiency | temperature, fractions and flows given per pass; the sorption fluid is pure gas |
| Fluid/MultiAdsorber | GunnsFluidAdsorptionCompound sorb, initialize (numbers); GunnsFluidMultiAdsorber updateFluid | averages and fractions given per pass; compounds at different positions have different indexes |
| Fluid/Membrane | GunnsFluidSelectiveMembrane.cpp: step, computeFlux, transportFlows; GunnsFluidLink.cpp: determineSourcePort, transportFluid | compound's properties are functions of temperature; contents of nodes by mole and mass fraction and temperature; conductance of the stream, scheduling of outflows and port directions left out |
| Fluid/FlowControl | GunnsBasicFlowController.cpp: updateState; GunnsBasicConductor.cpp: step, computeFlux; GunnsFluidFlowController.cpp: initialize, restartModel, updateState | tuning and port commands left out; the circuit of the closed loop is one source, one conductance and ground |
| Fluid/Crew | GunnsFluidMetabolic.cpp, GunnsFluidMetabolic2.cpp, GunnsFluidMetabolic3.cpp; GunnsFluidSource.cpp: step, transportFlows | port 0 on the vacuum node; trace compounds, volumetric flow and power left out |
| Fluid/H2Redox | GunnsFluidSimpleH2Redox: validate, step, buildSource, transportFlows | ordered field; partial pressures are inputs; temperature of the products left out |
| Fluid/Balloon | GunnsFluidBalloon: inflation, edits, wall capacitance, pressure correction | ordered field, reals for the correction; of the node only the volume; no shell, no partial pressure rate edits |
| Fluid/Sublimator | GunnsFluidSublimator: validate, step, computeFlows, transportFlows | ordered field with a function for sqrt; humidity, density, weights and saturation pressure are inputs |
| Fluid/FireSource | GunnsFluidFireSource.cpp: validate, step, calculateFlowRate, updateFluid, transport | port commands and port directions left out; partial pressure and temperature of the cabin are inputs |
| Fluid/Evaporation | GunnsFluidEvaporation.cpp: validate, step, updateVaporPotential, updateVaporRate, updatePower, transportFlows | power of the mass any function; saturation pressure and heat of vaporisation inputs; spring of the accumulator, ports and volumetric flow left out |
| Fluid/Accumulator | GunnsFluidAccum: validate, step, computeFlows, updateFluid and what they call | a liquid of one molecular weight whose density is a function of temperature and pressure; the pressurizer is its gas pressure per pass; restart, transport of the node's fluid mixture not modelled |
| Elect/UserLoad | UserLoadBase, ResistiveLoad, ConstantPowerLoad, GunnsElectUserLoad::stepDutyCycle, PowerBusElect, the fuse loop of GunnsElectUserLoadSwitch | a division by no voltage is an outcome; a thrown exception ends the step; derived classes' updateLoad and messages not modelled |
| Elect/SwitchUtil | GunnsElectSwitchUtil.cpp updateSwitchState, updateSwitchFlow, setters; SwitchElect.cpp confirmSolutionAcceptable | doubles an ordered field; flux and potentials of a solution are inputs; messages, initialization checks and the unused under-voltage data left out |
| Elect/LoadSwitch | GunnsElectUserLoadSwitch, GunnsShortUtil, GunnsBasicConductor step and flux | Loads that throw are not followed; potentials are inputs |
| Elect/Selector | GunnsElectSelector | The user's port command is not followed; potentials are inputs |
| Link/ExternalIf | GunnsBasicExternalDemand, GunnsFluidExternalDemand (filter), GunnsBasicExternalSupply, GunnsFluidExternalSupply (flows), SimBusQutils | Mixtures not followed; molecular weights are inputs |
| Link/Analyzers | GunnsBasicIslandAnalyzer, GunnsFluidIslandAnalyzer, GunnsFluidFlowIntegrator | Node readings are inputs; trace compounds are done as constituents |
| Fluid/BalancedPrv | GunnsFluidBalancedPrv | Potentials and molecular weight are inputs; volume flow and power not followed |
| Fluid/Rocket | GunnsFluidSimpleRocket.cpp: the search for the exit Mach number, the burning, the conductance, the thrust | the combustion model's answer, mixtures and the state of the nozzle's exit are inputs |
| Fluid/MultiSeparator | GunnsFluidMultiSeparator.cpp: validation of the types, sources, buffers, transport of fluids and trace compounds | fluids are molar flow rates per constituent; reading beyond the separated fluids is its own outcome; temperatures and the conductance are not followed |
| Fluid/Shadow | core/GunnsFluidShadow.cpp: processInputs, processOutputs (mixture), updateState, setInputs | the node has mass fractions only; temperatures, node mass, port rules and the null pointer left out |
| Fluid/SeparatorGas | GunnsFluidSeparatorGas.cpp: validate, derive, updateFluid | humidity and mass fraction are inputs; the power is a parameter; temperatures and the source vector in moles left out |
| Control/PumpMotor | TsPumpMotorController.cpp: step, determinePower, checkTrips, updateControlFilter, updateMotor, updatePowerLoad, getTotalPower | the motor is inputs; sine and turn are parameters; flags with their values are options |
| Math/Random, Math/RandomTable | ms-utils/math/TS_random.cpp | overflow of int is the outcome none; the loop of uniqueRandomDouble has fuel, and its end is stated for all of it |
| Elect/PowerResistor | GunnsResistorPowerFunction | real numbers; the flag of the matrix update is left out |
| Elect/PowerLoad | EpsConstantPowerLoad | the matrix is its first entry; the source circuit of the theorems is solved exactly |
| Elect/RealDiode | GunnsElectRealDiode | the matrix and source are their first entries |
| Math/CurveFit | TsApproximation and the fits in ms-utils/math/approximation | real numbers; division by zero and roots of negative numbers are none, powers of negative numbers too; polynomials are one fit |
| Math/ParseTool | ms-utils/parsing/ParseTool.cpp trim, splitLineByCharacter, parseLines with istream::getline | strings are lists; no i/o errors, no NUL characters, width at least one; loops with fuel whose end is a result of its own |
| Sensor/SmokeDetector | gunns-ts-models/common/sensors/TsOpticSmokeDetector.cpp update, validate, performBitTest | floats are exact; the two analog sensors and the voltages are left out |
| Fluid/Saturation | ms-utils/properties/FluidTsatFit, FluidProperties.hh getSaturationPressure and getSaturationTemperature, the coefficients in FluidProperties.cpp | real numbers; positive pressure limits only |
| Sensor/LiquidWater | aspects/fluid/conductor/GunnsFluidLiquidWaterSensor.cpp updateState, initialize | real numbers; partial pressure and temperature are inputs; the conductor is left out |
| Fluid/HeatOfVaporization | ms-utils/properties/FluidHvapFit, LinearFit evaluate, FluidProperties.hh getHeatOfVaporization, the coefficients in FluidProperties.cpp | real numbers |
| Interop/Bus, Elect | `ms-utils/interop/Distributed2WayBus*` | notifications, wrapping of frame counts |

Everything else in `/repo` is not modelled.

## Where the code and its documentation disagree

Each is proved as a theorem with a concrete witness, or for all cases of a kind.

* Decomposition does not test the first pivot, and accepts some indefinite matrices (C01, C03); islands OFF and SOLVE differ for
  that reason (C11).
* The last minor step number overruns by one (C13); in worst-case timing mode rejected solutions are accepted (C15).
* The matrix is stale after the decomposition limit, after DUMMY or SLAVE mode and after SOR (C12).
* Restart sets the init flag of a network that never initialised (C18).
* A refused port request of a fluid link writes outside of its arrays if the number does not exist (C20).
* Restart after an exchange of ports leaves them exchanged (C22).
* Conditioning adds a leak at every node without a conductance to ground (C25).
* The ground node is not integrated by the basic orchestrator (C26); the fluid orchestrator forces a link although no loop exists (C28).
* A locked jumper port stays although the plug says connected, a plug does not follow a moved socket, and a direct request for an
  occupied socket can connect elsewhere (C29).
* The log asks for a file after every step of a linear network, and a resize loses the waiting table (C30).
* Mixtures: tiny flows, stale constituent flows, wrong molecular weight after a tolerated initialisation, changes before a throw (C31).
* Fluid nodes: mass taken that is not there, small inflows, slow draining, heat created by overflowing nodes (C32).
* Fluid bus: both sides forced to demand and released stay so for ever, the first frame compares with capacitance 0, equal
  capacitances without master, zero pressure from a side forced to supply (C33).
* Electrical bus: equal voltages and equal initial roles are never sorted out (C34).
* Fluid conductors: fluxes between the thresholds for scheduling and transport, and forced transports, do not conserve mass (C35).
* Linear interpolation: the cached index survives another init, so a shorter table is read outside of its bounds (C36).
* Bilinear interpolation: decreasing variables with an even number of points, the greatest entry of the reverse interpolator,
  `isInitialized`, and the destructor after a refused table (C37).
* Brent's method: gives up on some bracketed roots after 100 iterations (C38).
* Protected switch (C39): a tripped switch that was failed closed for a while stays closed after the malfunction is over,
  still tripped, and over-current never opens it; an under-voltage limit above the over-voltage limit is accepted, both
  trips latch and the reset of one closes the switch; the inhibit malfunction is documented to reset a latched trip but
  the switch does not check a latched trip again; while the switch waits to trip one update ignores the open command; a
  zero reset limit does not switch off the automatic reset, since it is raised to the trip limit.
* Rigid body state derivative (C42): with the centre of mass off the origin the torque is summed about the centre of mass but
  the mass matrix is about the origin, so a push through the centre of mass turns the body; `CholeskyLdu::Decompose` keeps a
  product only if both factors are below `-1e-100` (the comment in the state derivative says SOLVE mode avoids this), so valid
  mass properties with offsets in two or three axes are solved wrongly or throw; after the exception the next call with the same
  mass properties does not rebuild the matrix and returns normally with garbage.
* Message queue (C43): documented as thread safe, and `TsHsStdMngr::freeze` and `shutdown` rely on it, but `removeMsg` tests for
  emptiness before it takes the mutex: two consumers can both take the last message.
* Message filter (C44): `purgeMessages` is documented to remove the oldest message, but `iter = ++oldest` skips the first entry,
  and with a history of 1 it erases `end()`; the type of a message is not part of what identifies it.
* Battery (C45): `updateCells` does nothing when no cell is above `DBL_EPSILON`, so an empty battery is never charged again; it divides the current by the cells that are not empty but gives it to all that are not failed, although the comment says the others ignore it; nothing takes the voltage away from an empty battery; `updateSoc` leaves the runaway power of a disconnected cell on; `updateState` takes a zero timer to mean that no malfunction was on.
* Segment intersection (C46): the cylinder test answers false for every segment that starts inside the tube around the axis (Ericson's algorithm, which it follows, treats that case first); at the end at p it tests k + 2t(mn + t nn) instead of k + t(2mn + t nn); EPSILON is compared with a product of four lengths (cylinder) or three (triangle), so small shapes are missed or wrongly hit; sphere divides by the length of the segment without a guard.
* Network capacitance (C47): a request is cleared by the first solution and the next solution without a request sets the capacitance to zero; `GunnsFluidExternalSupply` requests in `step` only, so in a network that takes more than one minor step its supply capacitance is always zero.
* Phase-change battery (C48): heat is not conserved when the phase changes. Entering the mixed phase converts only the excess heat of the material, not that of the structure; leaving it (fraction limited to [0, 1]) drops the excess heat.
* PID controller (C49): documented as a PID controller, but `update` adds the sum of the three terms to the output instead of setting it, so the proportional gain integrates and the integral gain integrates twice; there is no protection against windup.
* Particle swarm optimizer (C50): a particle's cost starts at zero and is not reset when the particle moves, and `update` does not wait for results. With runs done in parallel the last results of an epoch come back after the swarm has moved. In the first epoch this makes zero the best cost for ever; later it pairs the cost of one state with another. Constraints between inputs are evaluated on the model variables, which hold the state sent out last, not on the state being constrained.
* Gradient descent optimizer (C51): the step solves for zero cost, so it overshoots wherever the least cost is not zero, and no best state is kept. `updateMasterShutdown` calls `update` before `shutdown`, which moves the state once more, so `grad_state.csv` pairs a cost with a state that was never run. Trial steps of at most DBL_EPSILON are ignored, so an input that gets very near zero is stuck. `mNumVars` is not compared with the number of inputs. `assignCost` takes the difference of a trial's cost from whatever cost the state has at the time (the source says that runs are assumed to be in series). Constraints of inputs are ignored.
* Valve controllers (C52): `validate` accepts equal ends, which divides by zero. The open/close controller commands plus or minus one whatever the reference command, so it takes the transit time multiplied by the reference command and is reversed by a negative one. The position controller's limits are inverted by a negative scale, so it drives open whatever the target. The toggle controller scales its command with `mCmdScale` again, so it flips the valve only if the range is at least reference command times transit time. `TsToggleValveCmd::update` reads the enable queue at the indices of the toggle queue. Commands of at most DBL_EPSILON draw the hold power although they move the valve.
* Jumpers (C53): `checkPortDuplication` refuses a port the node of the other port, unless that is ground, and `updatePlugs` ignores the refusal and does not retry. So two plugs taken out into the same ambient node (or put into sockets with the same node) leave the second end where it was, and the jumper conducts between the node of a socket it is not in and the ambient node. Locked ports and moved sockets have the same effect. A request for a socket that does not exist is not cleared, so that `update` throws at every step, and the second plug of the jumper is not updated. A socket listed twice by a plug makes direct requests to its second entry unplug and plug at each step.
* Converters (C54): a partial blockage reduces the conductance of the output but not the one its channel loss is computed with, so that the input takes less power than the output's source gives. An input below 0.99 of its under-voltage limit that does not trip takes less power than the output is given. With the flips of a major step used up, a regulator accepts a solution with a reverse current, and reports a flux of zero. The change from over-voltage to under-voltage limiting ignores the flips limit (the number of rejections is bounded all the same).
* Converters in a network (C55): `resetLastMinorStep` of the output sets `mInputPowerValid` to false after every rejected solution; an input link that is polled before the output rejects the next solution if it is converged, which resets the flag again. The network escapes only if a solution differs from the saved one by more than the tolerance. A disabled (or tripped, or unavailable) output whose node is held above zero by another source rejects the first converged solution to go to reverse bias (its `mSourceVoltage` is zero), which changes nothing in the network, so that this and all further major steps fail. A link on the ground node always declares its voltage or power invalid, so the other link rejects all solutions, although both headers (lines 63-68) offer ground as a place for spares.
* Trace compounds (C56): `collectTc` on a node without volume adds to `mTcInflow`, which `integrateFlows` reads only for nodes with a volume. In a node that overflows, `mTcInflow` is added to the whole of the new contents, of which the through flow is then taken without removing it from them. `updateMoleFractions` zeroes masses of a mole fraction below `DBL_EPSILON`, also in the inflow while it is being collected.
* ChemicalCompound/ChemicalReaction (C57): the rounded molecular weights do not add up for three reactions (c57_mass_close: defects 4e-5, 2e-5 and 8e-5 g per mole), so reactors with them make mass (c57_mass_gained). addRxnHeat divides by the signed flow, so that with reversed flow the heat is taken from the fluid (c57_heat_reversed). transportFluid leaves mSourceVector as it was when the flow is within the limit (c57_stale_source).
* GunnsFluidMultiSeparator (C58): transportFlows goes by port number where step goes by mSepPort, so exits not in order get the fluid of another (c58_misrouted), constituents that share an exit are lost or not counted (c58_shared, c58_lost), and with more exits than constituents mSepFluid is read beyond its end (c58_beyond). If nothing is left of the flow, collectInflux with rate zero mixes the whole fluid in (c58_all_taken).
* TS_UTC_is_valid (C59): compares the seconds with TS_SEC_PER_HR instead of TS_SEC_PER_MIN, so it accepts up to 3600 s and the order of accepted times breaks (`c59_seconds_accepted`).
* TS_convert_yseconds2sgmt (C59): rounds after the check for the end of the year, and checks only once (`c59_year_end`, `c59_two_years`).
* TS_UTC_addition (C59): a stub that ignores the time to add and leaves `hour` uninitialised (`c59_addition`).
* SensorAnalog (C60): the drift is documented to be zeroed when the malfunction is removed, which happens only if the sensor senses then; the resolution converts to `int` before the range limits; SensorBooleanAi sets the truth only when it senses.
* Unit conversions (C61): `TS_convert_degR_to_degC` subtracts 459.67 instead of 491.67; SEC_PER_MSEC and MSEC_PER_SEC are interchanged and HP_PER_FTLBF_OVER_MIN is upside down, in both files; convertWToDbw gives 0 dBW, that is one watt, for no power (its comment says that this contributes nothing).
* HtrControl's malfunction to off (C62): documented to de-activate the malfunction to on if both are active; the code only gives it priority, so removing it turns the heater on (c62_off_keeps_on).
* GunnsFluidReliefValve.cpp:362-371, GunnsFluidRegulatorValve.cpp:363-372 (C63): a valve that starts partly open starts as OPENING with a previous pressure of 0, so that the first step moves it to the opening curve instead of holding its position.
* Tuning of conductors and leaks of valves (C64): the flow is tuned with the mean weight but transported with the source's; tuned at equal pressures the conductivity is 0 for good; the tuning of a valve ignores its position; a leak activated at equal pressures never leaks.
* Three-way check valve (C65): calculateValvePosition uses the open pressure of path A for path B too (line 307); with mMinPressureDiff 0 and mPositionPathB, equal pressures turn the position over in every step, as position is mirrored even if no branch has set it.
* Transformation of fluids (C66): buildTransformMap documents that moles are conserved, and transformState that mass and mole fractions could be used alike; the mass fractions moved to the type to convert to change the mole fractions of all compounds (oxygen 11/19 to 7/15 in the example of c66_moles_lost).
* Distributed fluid interface (C67): inputFluid sets the temperature from mWorkFluidState in both roles, so the supply side gives a flow back from the demand side its own last temperature and the energy sent is not used (c67_back_energy, c67_cold). processOutputsDemand sends the mixture of all the inflow of its node with the link's flow rate, so with a second flow into that node the supply is made to lose compounds it never sent (c67_mixed). Compounds not common to the networks are dropped and with them their part of the flow (c67_lost).
* Thermal links (C68): at temperatures equal within DBL_EPSILON a radiation link uses its bare conductivity, without the view factor and the cube of the temperature (c68_equal). External heat to a capacitor without capacitance or with an overridden temperature is dropped (c68_heat_lost). A source's fractions may sum to 0.99 (c68_source_lost); a panel with area or absorptivity 0 passes the checks and divides by it (c68_panel_nan). The thermoelectric effect leaves out the Thomson heat, so with a Seebeck coefficient that varies the device makes or destroys energy (c68_unbalanced); the end plates are only put in series with the constant term of the conductivity (c68_plates_exceeded); at equal temperatures the linear and quadratic terms are dropped (c68_jump).
* Heat between flows and walls (C69): computeDarcyFrictionFactor is documented to be Serghides' solution of the Colebrook equation within 0.14 percent, but its third logarithm has 10.04ab instead of -5.02b; at a Reynolds number of 120000 in a smooth pipe the factor is more than 14 percent low (c69_not_colebrook). computeNusseltNumber divides by zero at a Prandtl number below 1/2 in rough pipes and is negative below (c69_pole, c69_no_heat). mDeltaTemperature of a heat exchanger is taken against node 0 also in reversed flow (c69_delta_reversed). predictExpansionScaleFactor divides by zero at equal pressures (c69_tuned_equal).
* Diffusion (C70): the diffusive flow is handed to the nodes as a net mass flow with mass fractions, so if the masses that diffuse both ways are equal (within 100 DBL_EPSILON) nothing diffuses (c70_blind). It is not limited by what a node has (c70_unlimited). It has the temperature of the receiving node "so that node temperatures are not affected", but the node that loses mass is affected: a colder one gets colder (c70_colder). A negative length passes validate (c70_negative_length).
GunnsFluidSorptionBed (C71): an exponent of the isotherm that comes out negative turns it over (CO2 on silica gel above 782 K); the exponent of water on silica gel is pushed to 0.1 at all usual temperatures; the rate constant is not limited by the step; a blocking sorbate with zero equilibrium counts as full; offgas of the same compound by two sorbates is written once but counted twice in the flow; rates below DBL_EPSILON load the sorbant and leave the stream; a porosity of 1 divides by zero.
LaguerreMethod (C72): a value accepted as a root of a polynomial with a multiple root can be off by the square root of DBL_EPSILON, in the imaginary part too; GunnsGasFanCurve tests that part against DBL_EPSILON.
GunnsGasFan and pumps (C73): Brent's method is not tried when Laguerre's throws; the coefficients of the default axial curve sum to 0.989, not 1; conductance ignores the source pressure; power can be negative; a pump's check valve is set before cavitation; noise cuts off reversed sources.
GunnsDriveShaftSpotter, GunnsGasTurbine, GunnsGasDisplacementPump (C74): the nine failures named in the property; also, a turbine's power is not taken from the gas (only the scale factor of the isentropic expansion, 0 by default, cools it), and GunnsGasCooledTurbine gives its turbine the link's blockage, not the turbine's (GunnsGasCooledTurbine.cpp:352-353).
LambertW (C75): fastSolveW0 is not within the documented 0.5% between 0.1 and 100 (about 0.74% at 37.6) and drops at 0.01, 100 and 1e10; the header of fastSolveW1 says 1% or better while one of its ranges says 1.6%. The comment of improve says that it does not converge near -1/e; in exact arithmetic it does, on the principal branch at the same rate everywhere.
GunnsElectPvCellEquivCircuit2 (C76): the temperature coefficient of the current is added without the ratio of the light (GunnsElectPvString2.cpp:138-141); cold cells throw in update at run time; the fits of W make the current jump up with the voltage.
C77: a dark string whose bypass diodes take more than its cells give gets a positive maximum power (GunnsElectPvString.cpp:841, product of two negatives) with voltage DBL_EPSILON; the exposed fraction is in the flux (GunnsElectPvSection.cpp:415) and in the active cells (GunnsElectPvString.cpp:819), so the power goes with its square.
C78: GunnsElectPvArray::buildSourceVector uses admittance times corner voltage for the short circuit side; the short circuit current would be needed. Both sides are then confirmed for loads with 0 < G Vc - J <= Ic.
C79: in the state SHORT of GunnsElectPvRegConv the source is the array's short circuit current without the efficiency (GunnsElectPvRegConv.cpp:331 and 343), so that with an efficiency below one the input power can exceed the array's maximum; loadAtPower then clears the array's terminal and the solution is confirmed with output power and no input (`c79_conv_short_overdraw`).
- C80: the shunting regulator accepts a load when the array's predicted power covers it, but for unequal strings the array's two-line curve can lie above the sum of the strings (GunnsElectPvRegShunt.cpp:572, witness `c80_overdraw`: 700 W taken from 651 W). Back voltage in a converged solution is overwritten from REJECT to DELAY, or by a return to REG (lines 552-555 against 588-597, `c80_back_voltage`). Without power the waste heat keeps the last shunt power (lines 547 and 690, `c80_stale_waste`).
- C81: `GunnsElectIps::computeFlows` sums `mAdmittanceMatrix[i]` (the first row) in place of the diagonal, so mFlux and mPower count the first input only (GunnsElectIps.cpp:567, `c81_total_first`). With `mNumberOfVoltageSwitchesInASolution` used up, 0 by default, malfunctions and commandOff are ignored (616-632, `c81_used_up`).
- GunnsFluidAdsorber.cpp:393-414: mSourceVector keeps its last value when nothing is sorbed (GunnsFluidMultiAdsorber zeroes it) (c82_stale).
- GunnsFluidAdsorber.cpp:441: with reverse flow the trace compounds get a negative molar flow, adsorbed masses go down and the stream is unchanged (c82_trace_reverse).
- GunnsFluidMultiAdsorber.cpp:352-362: trace masses of the internal fluid are never refreshed from the stream, and are only taken when fluids are sorbed too (c83_trace_stale, c83_trace_only).
- GunnsFluidAdsorptionCompound.cpp:283-287: without flow a trace compound looks up a fluid's mass fraction by its trace index (c83_throw).
- GunnsFluidSelectiveMembrane.cpp:395-401: for flow into the stream the rate is negative, so the heat of the change of phase has the sign opposite to the one in the comment (c84_heat_reverse).
- GunnsFluidSelectiveMembrane.cpp:349-367: equal partial pressure upstream and in the vent falls into the branch for reverse flow, whose rate may be positive and is not limited by what the stream brings (c84_level, c84_grab).
- GunnsFluidSelectiveMembrane.cpp:332 and 493: the source vector uses the direction of the last flux, the transport that of the new one (c84_turn).
- GunnsFluidFlowController.cpp:228-235: the filter is applied after the blocking of back-flow, so that back-flow only fades (c85_back_flow).
- GunnsFluidFlowController.hh: the default gain of the filter is zero, with which the conductivity never changes (c85_no_gain, c85_restart).
- GunnsFluidSource.cpp:211-223 and 262-264: with port 0 on the vacuum node the molar flow is from the internal fluid's weight and the mass flow from the weight of the node at port 1, so that GunnsFluidMetabolic and GunnsFluidMetabolic2 give the cabin a multiple of what the crew makes (c86_second, c86_first, c86_weight, c86_second_over).
- GunnsFluidMetabolic.cpp:399-401: the oxygen there is limits each state by itself and not the sum (c86_first_over).
- GunnsFluidMetabolic.cpp:431, GunnsFluidMetabolic2.cpp:703 and 726, GunnsFluidMetabolic3.cpp:805 and 900: without a positive net mass there is no exchange or that of an old mixture, and no heat (c86_silent, c86_stale).
- FluidProperties.cpp:113-121 with GunnsFluidSimpleH2Redox.cpp:314-330: the weights leave 20 mg of mass for each kilomole of water (c87_gap).
- GunnsFluidSimpleH2Redox.cpp:297-308: a fully blocked fuel cell takes 2^52 times the ideal hydrogen (c87_full_blockage).
- GunnsFluidSimpleH2Redox.cpp:277-343: no limit by what is in the node (c87_no_limit).
- GunnsFluidSimpleH2Redox.cpp:285-294: no current counts as electrolysis, so an idle pass in dry hydrogen trips the cell for good (c87_dry_start).
- GunnsFluidBalloon.cpp:434-488: the correction does not depend on the node's, so the node's damping is lost (c88_undamped).
- GunnsFluidBalloon.cpp:367-388 with GunnsFluidTank.cpp:480-489: a pressure edit to zero sets the least volume while the tank keeps its pressure (c88_zero_edit).
- GunnsFluidBalloon.cpp:337-342: an edit of a stuck balloon is undone in the same pass (c88_stuck_edit).
- GunnsFluidSublimator.cpp:448, 471, 511: sublimation is divided by the feed's pressure but flows by the difference to the vent's (c89_short_feed).
- GunnsFluidSublimator.cpp:457-468: ice grows by the ratio of the heats times the feed, out of nothing (c89_ice_from_nothing).
- GunnsFluidSublimator.cpp:393-395: the sublimation of a step is not limited by the ice (c89_over).
- GunnsFluidSublimator.cpp:400, 460-462: sublimation and melting each use all the heat (c89_heat_twice).
- GunnsFluidSublimator.hh:21-23 against cpp:394: the document's positive heat balance does nothing (c89_sign).
- GunnsFluidFireSource.cpp:228-229: the check adds the oxygen rate where the flow (line 397) subtracts it (c90_accepted).
- GunnsFluidFireSource.cpp:259-285: when the fire goes out in the step, the flow of the pass before still makes the source vector (c90_stale).
- GunnsFluidFireSource.cpp:281: a negative molecular weight (mass and moles of opposite signs) is taken as none, so the network gets no moles (c90_source_opposite).
- GunnsFluidFireSource.cpp:269-275: a blockage reduces the bulk flows but not the heat or the trace compounds (c90_burning, c90_trace).
- GunnsFluidEvaporation.cpp:449-452: out of a solution the liquid loses the moles at its own molecular weight, so its mass is not the mass of the vapour (c91_exchange, c91_solution).
- GunnsFluidAccum.cpp:468-474: a mass that would fall below nothing is set to DBL_EPSILON though the node is given the whole flow (`c92_mass`, `c92_empty_drains`).
- GunnsFluidAccum.cpp:1026-1043: whether the accumulator fills or drains is judged on the node's potential before the solution, so an empty one opened for filling drains when the solution turns the flow (`c92_empty_drains`).
- GunnsFluidAccum.cpp:958-1005: with a quadratic spring the capacitance of the present position overshoots the node's pressure (`c92_overshoot`).
- GunnsFluidAccum.cpp:590-610 and 1230-1233: the pass in which the bellows gets stuck, and every held pass, give the network a flow that does not change the mass (`c92_stuck_leak`, `c92_hold_leak`).
- GunnsFluidAccum.cpp:1089-1096: rampValue limits mEffCondScaleOneWayRate in place, so it never grows back after a long step or a step of zero (`c92_one_way`).
- UserLoadBase.cpp:336-342: magic power is looked at before the fuse, so it feeds a load behind a blown fuse (`c93_magic`).
- GunnsElectUserLoad.cpp:126-136: the timer is reset to zero past the period and the load is on at zero, so the cycle is longer than the period and a fraction of zero is on once per cycle (`c93_duty`, `c93_duty_none`).
- GunnsElectUserLoadSwitch.cpp:321-323: `fuseTrips or updateFuse` skips the fuses after the first that trips (`c93_fuses`, `c93_one_fuse`).
- PowerBusElect.cpp:319-366: updateFuse is not called, and without voltage the conductance of constant power loads is kept (`c93_bus_fuse`, `c93_bus_stale`).
- PowerBusElect.cpp:343: a load of more than 1e8 ohm is left out, though an override current makes it so (`c93_small_override`).
- UserLoadBase.cpp:281-313: an under-voltage limit below zero is accepted (`c93_no_voltage`).
- GunnsElectSwitchUtil.cpp:411-415: the percentage of the resistance malfunction is divided by 100 in place, so one over 100 is divided again on the next pass (c94_percent_divides).
- GunnsElectSwitchUtil.cpp:399-403: the malfunction that ignores current trips clears mOverCurrentProtection and nothing in the class restores it (c94_ignore_sticks).
- GunnsElectSwitchUtil.cpp:421-439: a tripped switch keeps the closed position a malfunction gave it after the malfunction ends (c94_failed_closed_stays).
- GunnsElectSwitchUtil.cpp:519-577: an external trip counts as tripped before the flow update, so the switch opens without mJustTripped and the link confirms the solution (c94_external_confirms).
- GunnsElectUserLoadSwitch.cpp:223-229: with a blockage the loads are given the voltage behind the unblocked switch and take more current than flows (c95_blockage, c95_blockage_case).
- GunnsElectUserLoadSwitch.cpp:313-320: fuses are checked at the potential of the node, not at the loads' voltage: they blow early, and not at all under an override (c95_fuse_early, c95_fuse_overridden).
- GunnsElectUserLoadSwitch.cpp:268-282: after an override the base class sees no change while the switch is open, so the 1e8 from port 1 to ground stays in the matrix; the switch also stays commanded open (c95_override_remains).
- GunnsShortUtil.cpp:161-197: the previous value is kept with its sign and compared with the absolute value, so a negative initial power or current is taken anew every pass (c95_short_negative).
- GunnsElectUserLoadSwitch.cpp:250-256: a short behind a switch without user loads has no effect (c95_short_unloaded).
- GunnsElectSelector.cpp:279-312: when a port is dropped the matrix is cleared and mAdmittanceUpdate is not set, so the network is not told (c96_untold, c96_untold_case).
- GunnsBasicExternalDemand.cpp:231-234: a pass with no time step takes the share gain from the estimated capacitance (c97_pause).
- GunnsBasicExternalSupply.cpp:213-218: with queues that do not cover the supply's passes the total given differs from the total demanded (c97_jitter).
- GunnsBasicIslandAnalyzer.cpp:218-219: searches start at 1e15, so of potentials beyond it the lowest is missed (c98_far).
- GunnsFluidBalancedPrv.cpp:226-230: the latch is released against the setpoint and not the regulated pressure, which has the reference in it (c99_latch_reference, c99_latch_stays).
- GunnsFluidSimpleRocket.cpp:557-572: the search for the exit Mach number can step below one, where the ratio grows again towards zero, and is then lost: area ratios between one and that of 5/4 give a Mach number near zero (c100_lost).
- GunnsFluidMultiSeparator.cpp:686-692: the transport gives the k-th fluid to port k + 2 and not to the port assigned to it, which the source vector uses (c101_exit, c101_crossed); with more ports than fluids it reads beyond the arrays (c101_beyond, c101_traces_only).
- GunnsFluidMultiSeparator.cpp:580: the source of an exit port is assigned and not added to, so of two fluids on one port the first is lost (c101_shared, c101_unbalanced).
- GunnsFluidShadow.cpp:267-282: the inputs are converted in place with every pass, so inputs that are not set anew are converted twice and drift to the heaviest constituent (c102_again, c102_third).
- GunnsFluidSeparatorGas.cpp:277-280: the initial liquid is not checked against the capacity; an overfull separator loses the excess to nobody in its first condensing pass (c103_overfull).
- GunnsFluidSeparatorGas.cpp:406-422: rates up to 100 epsilon add liquid that no node loses (c103_free); c103_node bounds the sum.
- TsPumpMotorController.cpp:630-633: getTotalPower multiplies the current by mVoltage, though under the power override the current is that of the override voltage (c104_override).
- TS_random.cpp:251-255, 346: the least int as a seed and ranges wider than an int overflow (c105_cycle, c105_int).
- TS_random.cpp:362-365: uniqueRandomDouble never returns when all thousand values are taken, as with equal limits that are a given value (c105_unique, c105_unique_stuck).
- TS_random.cpp:348: more than a thousand integers cannot all come (c105_int_missing).
- GunnsResistorPowerFunction.cpp:252: the slope of the tangent mode lacks the factor G of the chain rule (c106_tangent_slope), and 253 gives the source the same sign for both directions (c106_tangent_backward).
- EpsConstantPowerLoad.cpp:214-218: the nominal potential is said to set the starting conductivity, which every step overwrites (c107_nominal); a load without voltage limit that starts at zero stays there (c107_stuck).
- GunnsElectRealDiode.hh:216-221: the bias turns at the drop for both biases, so that with a leak both are accepted over a range of the source (c108_both).
- RationalFit.cpp:86-100 and QuadLinInvFit.cpp:104-120 look for the zeros of another polynomial than the denominator (c109_rational, c109_quadLinInv); SutherlandFit.cpp:79 has the wrong sign at the upper limit (c109_sutherland); QuadraticRootFit.cpp:90 uses the members before they are set, and does not see a range on the wrong side (c109_root).
- ParseTool.cpp:317, 360, 375: maxLineWidth is documented as the most characters of a line, but one place goes to the terminating NUL and a line of exactly that many is refused (c110_long).
- TsOpticSmokeDetector.cpp:196-202, 308-318: the timer of the self test is put back only by an update outside of a test, so a test commanded in the update in which the last one ends has no recovery (c111_again).
- TsOpticSmokeDetector.cpp:270-320: the diagram has the scatter at its nominal value in the recovery and the end where the timer exceeds the recovery time; the code has it at its least value and ends later (c111_recovery).
- FluidTsatFit.cpp:83-126: the temperature curve is called exactly reversible, but nothing checks that the pressure curve falls; where it rises the other root is returned (c112_other). Limits below zero give no number in log10 and pass these checks.
- GunnsFluidLiquidWaterSensor.cpp:206-209: with a saturation pressure of no more than the double epsilon the humidity keeps its last value, so in the cold liquid is found, or not, as before (c113_stale, c113_cold).
- FluidProperties.cpp:620, 627, 634 with FluidProperties.hh:922-925: the lines of N2O4, N2H4 and CH3N2H3 have limits in kelvin but are asked at the reduced temperature, so their heat of vaporization is constant (c114_constant, c114_tetroxide).

## Axioms

`#print axioms` of the theorems named in `MANIFEST.json` gives a subset of `propext`, `Classical.choice`, `Quot.sound` for each.

## Tests of the theorems

`seeded/LOG.jsonl` has a line for each wrong program tried: the definition edited, the edit, the claim it breaks, the theorems whose
proofs failed, and the theorems tightened (or added) because nothing failed.
