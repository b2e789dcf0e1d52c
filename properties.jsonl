{"id": "C01", "title": "LDU decomposition multiplies back to the input matrix", "statement": "When CholeskyLdu::Decompose(A, n) returns without throwing on a symmetric matrix whose off-diagonal terms are all <= 0 (the sign pattern every GUNNS network produces), the unit-lower factor L and the diagonal D left in A satisfy A = L*D*L^T, up to an error bounded by the 1e-100 flush thresholds in the code, and exactly when no intermediate term falls strictly between -1e-100 and 1e-100. The strictly upper part holds L^T.", "quantifier": "every network size n, every symmetric matrix with non-positive off-diagonal terms", "why_tests_cant": "Unit tests compare a handful of fixed matrices; the claim is for all sizes and entries, including fill-in patterns where the sparse short-cut skips terms.", "anchors": ["ms-utils/math/linear_algebra/CholeskyLdu.cpp: CholeskyLdu::Decompose(double*,int)"]}
{"id": "C02", "title": "Decomposition never fails on a strictly diagonally dominant network matrix", "statement": "If every off-diagonal term is <= 0, the matrix is symmetric and every row sum is > 0, then Decompose never throws TsNumericalException and every pivot it leaves on the diagonal is > 0, in spite of the skipped and flushed terms.", "quantifier": "every n and every such matrix", "why_tests_cant": "Depends on an inductive property of all successive Schur complements; sampling cannot exclude a failing network.", "anchors": ["ms-utils/math/linear_algebra/CholeskyLdu.cpp: CholeskyLdu::Decompose"]}
{"id": "C03", "title": "Decompose reports exactly the non-positive pivots of rows 1..n-1", "statement": "Decompose throws if and only if some pivot computed for a row i >= 1 is <= 0. A user expects a successful return to mean that the matrix was positive definite; this is true when the first diagonal term is positive, and false in general because row 0 is never checked (a matrix with negative A[0][0] can be accepted).", "quantifier": "every symmetric matrix with non-positive off-diagonals, every n", "why_tests_cant": "Needs both directions over all matrices; tests only show single accepted/rejected matrices.", "anchors": ["ms-utils/math/linear_algebra/CholeskyLdu.cpp: CholeskyLdu::Decompose"]}
{"id": "C04", "title": "Solve returns the exact solution of the factored system", "statement": "After a decomposition with unit lower factor L and diagonal D (L^T above the diagonal), CholeskyLdu::Solve either throws, exactly when some diagonal term of D is zero, or returns x with (L*D*L^T) x = b; this x is the only solution.", "quantifier": "every n >= 1, every factor with arbitrary entries, every right-hand side", "why_tests_cant": "Universal over sizes and values; includes in-place forward/backward substitution aliasing.", "anchors": ["ms-utils/math/linear_algebra/CholeskyLdu.cpp: CholeskyLdu::Solve, SolveUnitLowerTriangular, SolveUnitUpperTriangular"]}
{"id": "C05", "title": "Network potentials are monotone in the sources", "statement": "For a symmetric strictly diagonally dominant matrix with non-positive off-diagonals, decompose+solve with a non-negative source vector gives non-negative potentials, and increasing any source can never lower any potential.", "quantifier": "every such matrix, every pair of source vectors", "why_tests_cant": "A maximum principle; holds for all real inputs or not at all.", "anchors": ["ms-utils/math/linear_algebra/CholeskyLdu.cpp: Decompose, Solve", "core/Gunns.cpp: solveCholesky"]}
{"id": "C06", "title": "Invert yields the inverse of the factored matrix", "statement": "CholeskyLdu::Invert applied to a factorisation with non-zero pivots leaves in place a symmetric matrix B with (L*D*L^T) B = I.", "quantifier": "every n and every unit-lower L, non-zero D", "why_tests_cant": "In-place overwriting order matters for every size; tests only check fixed small sizes.", "anchors": ["ms-utils/math/linear_algebra/CholeskyLdu.cpp: CholeskyLdu::Invert, InvertUnitLowerTriangular"]}
{"id": "C07", "title": "SOR answers are bounded and fixed points are solutions", "statement": "Sor::solve performs at most max-1 sweeps, returns either -1 or the sweep count (between 1 and max-1), returns a count only if the last sweep's accumulated change was below tolerance*n, and a vector unchanged by a sweep is a solution of A x = b whenever the diagonal and the weight are non-zero.", "quantifier": "every matrix, source, weight, tolerance and iteration limit", "why_tests_cant": "Requires reasoning on every iteration count and matrix.", "anchors": ["ms-utils/math/linear_algebra/Sor.cpp: Sor::solve, Sor::isPositiveDefinite"]}
{"id": "C08", "title": "Assembly of link contributions is additive, symmetric and ground-free", "statement": "The network admittance matrix and source vector built from any list of links equal, entry by entry, the sum over links of their port contributions mapped to nodes, with all contributions of ground ports left out; swapping the order of links does not change the result; if every link's own matrix is symmetric so is the network matrix, and if every link's matrix is a sum of two-port conductance stamps then off-diagonals are <= 0 and row sums are >= 0.", "quantifier": "every number of links, of ports and of nodes, every port map", "why_tests_cant": "Tests use fixed tiny networks; claim ranges over all topologies.", "anchors": ["core/Gunns.cpp: buildAdmittanceMatrix, buildSourceVector", "core/GunnsBasicLink.cpp: updateAdmittanceMap"]}
{"id": "C09", "title": "Conditioning makes every row sum strictly positive and changes nothing else", "statement": "After conditionAdmittanceMatrix, any matrix with row sums >= 0 and diagonals >= 0 has all row sums > 0; only diagonal terms of rows with a row sum smaller than machine epsilon are touched, each by max(diagonal, eps)*1e-15. Together with C02 no network of conductance-type links can fail to decompose.", "quantifier": "every network size and every set of conductance-type links, including disconnected and empty rows", "why_tests_cant": "Universal over topologies; a single missed zero row would crash a simulation.", "anchors": ["core/Gunns.cpp: conditionAdmittanceMatrix, buildAdmittanceMatrix, decompose"]}
{"id": "C10", "title": "Islands are exactly the connected components", "statement": "After buildIslands two nodes carry the same island number if and only if they are connected by a path of non-zero admittances; the island number is the smallest node index in the component; each node is in exactly one island vector, listed in increasing order; the island count and the maximum size are correct.", "quantifier": "every symmetric admittance matrix of every size", "why_tests_cant": "Graph connectivity over all graphs; in-place relabelling has subtle order dependence.", "anchors": ["core/Gunns.cpp: buildIslands, mergeIslands"]}
{"id": "C11", "title": "Island-wise solution equals the whole-network solution", "statement": "In island SOLVE mode (CPU solver) the factorisation stored and the potentials obtained are the same as with island mode OFF, for the same link contributions, and a failure is reported in one mode iff it is reported in the other (apart from one-node islands and the first row of an island whose pivot is never checked).", "quantifier": "every network, every partition in islands", "why_tests_cant": "Block structure proof over all matrices; tests use two or three islands.", "anchors": ["core/Gunns.cpp: buildAndSolveSystem, decompose, solveCholesky"]}
{"id": "C12", "title": "Each solve uses the current link contributions", "statement": "Whenever the solver in NORMAL mode computes potentials p, they satisfy A p = w for the matrix A and vector w assembled from the link contributions of that minor step. (False after a step aborted by the decomposition limit or by a failed decomposition, after admittance changes absorbed in DUMMY or SLAVE mode, and when SOR is switched off: the next solve can run on an un-decomposed or outdated matrix because the rebuild flag has already been cleared.)", "quantifier": "every history of steps, mode switches, link admittance changes and solver failures", "why_tests_cant": "Needs specific histories across steps; a unit test fixes one history.", "anchors": ["core/Gunns.cpp: buildAndSolveSystem, iterateMinorSteps, step"]}
{"id": "C13", "title": "Minor step iteration terminates within its limits", "statement": "A major step performs at most the configured minor step limit of minor steps (exactly one for a linear network or when not in NORMAL mode) and at most the configured decomposition limit of decompositions; counters reported to the user equal the number of steps and decompositions really done.", "quantifier": "every link behaviour (any sequence of CONFIRM/REJECT/DELAY answers, admittance updates), every limit, every history", "why_tests_cant": "Depends on arbitrary link behaviours; tests script only a few.", "anchors": ["core/Gunns.cpp: iterateMinorSteps, step, buildAndSolveSystem"]}
{"id": "C14", "title": "A major step that does not converge leaves the previous potentials", "statement": "If the network does not converge in a major step then, in the absence of link potential overrides, node potentials after the step are those of the previous major step, flows are not transported, link outputs are not processed, and the failure counter grows by one; if it converges, flows are transported exactly once and the failure counter does not change.", "quantifier": "every network, every link behaviour, every history of steps", "why_tests_cant": "Rollback must hold for every path through the iteration, including exceptions for decomposition limits.", "anchors": ["core/Gunns.cpp: step, resetToMajorPotentialVector, outputPotentialVector, saveMajorPotentialVector"]}
{"id": "C15", "title": "A non-linear solution is accepted only when converged and confirmed", "statement": "Outside worst-case-timing mode, a non-linear NORMAL-mode major step is accepted only on a minor step where either every node moved by no more than the tolerance since the last saved minor step or an earlier step of the same run of delays did, and every non-linear link answered something else than REJECT and DELAY. In worst-case-timing mode this guarantee is lost: a step can be accepted though its last minor step was rejected.", "quantifier": "every sequence of link answers and of solved potentials", "why_tests_cant": "Quantifies over all answer sequences.", "anchors": ["core/Gunns.cpp: iterateMinorSteps, checkSystemConvergence, confirmSolutionAcceptance"]}
{"id": "C16", "title": "REJECT dominates DELAY dominates CONFIRM whatever the link order", "statement": "The combined answer of the links is REJECT iff some non-linear link rejects, else DELAY iff the network has converged and some non-linear link delays, else CONFIRM; every non-linear link is polled exactly once and the answer does not depend on link order.", "quantifier": "every list of links and answers", "why_tests_cant": "All permutations and lengths.", "anchors": ["core/Gunns.cpp: confirmSolutionAcceptance"]}
{"id": "C17", "title": "Ground potential is zero and link and node potentials agree", "statement": "After any completed step not in DUMMY mode, the ground node has potential 0, each link port attached to ground reads 0, each other link port reads exactly the potential of the node it is attached to, and in PAUSE the step changes nothing.", "quantifier": "every history of steps, modes, overrides and port changes", "why_tests_cant": "Invariant over histories.", "anchors": ["core/Gunns.cpp: step, outputPotentialVector, overridePotential"]}
{"id": "C18", "title": "Solver initialisation succeeds only for complete, duplicate-free networks and only once", "statement": "Gunns::initialize succeeds only if each registered link is initialised, no link is registered twice, all nodes are initialised, the name, tolerance and limits are valid; a second attempt is refused; step before a successful initialisation is refused. (The last part is false when restart is called: it sets the init flag without looking at whether an initialisation succeeded, so a network whose initialisation threw can be stepped.)", "quantifier": "every set of links and nodes and every sequence of initialisation attempts", "why_tests_cant": "Quantifies over all registration lists and call histories.", "anchors": ["core/Gunns.cpp: initialize, validateConfigData, verifyLinkInitialization, verifyNodeInitialization, initializeNodes, checkStepInputs"]}
{"id": "C19", "title": "Port assignments always stay legal", "statement": "Whatever sequence of port set requests (from other objects or from the user panel, with any port and node numbers), a basic link after initialisation always has each port on an existing node of its network, no two ports on the same non-ground node, its matrix map consistent with its port map, and a change of port raises the admittance update flag exactly when the mapping changed. An illegal request is refused and leaves the map unchanged.", "quantifier": "every number of ports and nodes, every request sequence (any integers), with or without the lock", "why_tests_cant": "Invariant over unbounded histories with arbitrary integer arguments.", "anchors": ["core/GunnsBasicLink.cpp: setPort, checkPortRules, checkPortDuplication, updateAdmittanceMap, processUserPortCommand"]}
{"id": "C20", "title": "Invalid port requests are harmless on fluid links", "statement": "As C19 for fluid links, in particular a request with an invalid port number touches no memory outside the link. (False: the fluid link's override of the node pointer update does not check the port number, so any refused request with an out-of-range port, even a user GROUND command with the default selection -1, writes outside its arrays.)", "quantifier": "every request", "why_tests_cant": "A write outside an array need not show in any value a test compares, so tests that make invalid requests can pass although it happens.", "anchors": ["core/GunnsFluidLink.cpp: updateNodePointer", "core/GunnsBasicLink.cpp: setPort, processUserPortCommand"]}
{"id": "C21", "title": "User port panel always returns to a definite state", "statement": "After every processing of the user port command the control reads READY or FAILED (or unchanged if no command was given), a command is executed at most once, the selection is reset, and FAILED is reported iff the port map request was refused.", "quantifier": "every command, selection and link state", "why_tests_cant": "All combinations and histories.", "anchors": ["core/GunnsBasicLink.cpp: processUserPortCommand"]}
{"id": "C22", "title": "Restart restores the default port map", "statement": "Link restart returns every port to its default node. (True when no port currently occupies another port's default non-ground node and the map is unlocked; false in general: with two ports exchanged the duplication rule refuses each single move and restart silently leaves the exchanged map.)", "quantifier": "every reachable port map", "why_tests_cant": "Requires a particular history of port moves before restart.", "anchors": ["core/GunnsBasicLink.cpp: restart, registerNodes, setPort"]}
{"id": "C23", "title": "Conductors conserve flux, flow downhill and never create energy", "statement": "For every conductivity, blockage and pair of potentials, a basic conductor's contribution matrix is the symmetric two-port stamp with conductance limited to [0,1e15], the flux leaves the higher and enters the lower potential (or is zero), what leaves one node enters the other, and its reported power is never positive; a flux source moves its demand (less the blocked part) whatever the potentials, and a potential source moves its conductance times what its rise exceeds the potential difference by.", "quantifier": "every conductivity, blockage value, potential", "why_tests_cant": "Holds for all real inputs, including negative potentials and limit saturation.", "anchors": ["core/GunnsBasicConductor.cpp: step, buildConductance, computeFlux, computeFlows", "core/GunnsBasicLink.cpp: transportFlux", "core/GunnsBasicLink.hh: computePower"]}
{"id": "C24", "title": "Capacitors integrate exactly the flux they receive", "statement": "Over any sequence of steps the potential change of a basic capacitor times its capacitance equals the accumulated charge of the fluxes it reported (backward Euler), for constant capacitance and positive step; it contributes a conductance-type stamp and sources that cancel over its two ports.", "quantifier": "every sequence of solved potentials and time steps", "why_tests_cant": "Telescoping over unbounded number of steps.", "anchors": ["core/GunnsBasicCapacitor.cpp: step, buildCapacitance", "core/GunnsBasicCapacitor.hh: computeFlux"]}
{"id": "C25", "title": "Solved linear networks obey Kirchhoff's current law", "statement": "Every network of basic conductors, capacitors, flux sources and potential sources is decomposed and solved without error, and the potentials returned make the sum of the fluxes its links report zero at every non-ground node, up to three named terms: the conditioning conductance (1e-15 of the diagonal) times the node potential, present only at nodes whose direct conductance to ground is below 2^-52; the 1e-100 truncation of the factorisation; and the dead bands of conductors at the node.", "quantifier": "every topology, every set of parameters", "why_tests_cant": "End-to-end statement across assembly, solve and flux computation.", "anchors": ["core/Gunns.cpp: buildAdmittanceMatrix, buildSourceVector, solveCholesky", "core/GunnsBasicConductor.cpp", "core/GunnsBasicCapacitor.cpp", "core/GunnsBasicSource.cpp", "core/GunnsBasicPotential.cpp"]}
{"id": "C26", "title": "Flux bookkeeping of a node matches its links", "statement": "Per major step, the net flux a node reports equals the sum of fluxes transported into it minus those transported out, the through flux is the smaller of both, and summed over all nodes including ground the net flux is zero.", "quantifier": "every list of links and fluxes", "why_tests_cant": "Universally quantified over transport sequences.", "anchors": ["core/GunnsBasicNode.cpp: integrateFlows", "core/GunnsBasicNode.hh: collectInflux, collectOutflux, resetFlows", "core/GunnsBasicLink.cpp: transportFlux"]}
{"id": "C27", "title": "Fluid flow orchestration completes and handles each link and node once", "statement": "For every network (including cyclic ones with overflowing nodes) the fluid flow orchestrator's update loop terminates, each link's flows are computed once and transported exactly once, each node integrates exactly once and only after all links flowing into it were transported, and the internal 'failed to integrate all nodes' error is unreachable.", "quantifier": "every number of links and nodes, every pattern of sources, inputs and overflowing nodes", "why_tests_cant": "Termination and exactly-once over all graphs.", "anchors": ["core/GunnsFluidFlowOrchestrator.cpp: update, checkAllComplete, checkAllNodesComplete, getFirstIncompleteLink, linkSourceNodesReady, nodeInputLinksComplete, countIncompleteLinks"]}
{"id": "C28", "title": "Fluid leaves an overflowing node only after all its inflow arrived, when possible", "statement": "If the links flowing out of overflowing nodes form no cycle then no link transports out of an overflowing node before all the links into that node were transported. (False as the code stands: a first pass in which no link completes is treated as a loop and forces the first incomplete link; proved for updates in which the first pass completes at least one link.)", "quantifier": "every acyclic flow pattern and link order", "why_tests_cant": "Order property over all graphs and permutations of link list.", "anchors": ["core/GunnsFluidFlowOrchestrator.cpp: update, linkSourceNodesReady"]}
{"id": "C29", "title": "Jumper plugs and sockets stay exclusive", "statement": "Over every history of connection commands, no socket ever accepts two plugs, a plug holds at most one socket, and the user-visible connection state of a plug and the occupancy of its socket agree.", "quantifier": "every number of plugs and sockets, every sequence of user commands and updates", "why_tests_cant": "Invariant over unbounded histories.", "anchors": ["core/GunnsBasicJumperPlug.cpp", "core/GunnsBasicSocket.cpp", "core/GunnsBasicJumper.cpp"]}
{"id": "C30", "title": "The minor step log keeps exactly the last steps in order", "statement": "While recording, the log buffer holds, in chronological order, the last min(recorded, capacity) minor steps with the data recorded for each, and the printed table lists exactly these; no call reads or writes outside of the buffer; while not recording the solver's calls change nothing, and a file asked for shows the steps held when it was asked for (unless the capacity is changed before it is written: then it holds an error text). In the automatic mode a file is asked for exactly after major steps whose last minor step was not a success (every step of a linear network counts as such).", "quantifier": "every capacity and every sequence of steps, freezes and commands", "why_tests_cant": "Ring buffer refinement over all histories.", "anchors": ["core/GunnsMinorStepLog.cpp", "core/GunnsMinorStepLog.hh"]}
{"id": "C31", "title": "Fluid mixtures stay normalised and mixing conserves mass", "statement": "Adding flows one after the other to a reset mixture conserves the flow of each constituent, the total flow and the heat, gives a mixture with non-negative fractions that sum to one and a molecular weight that is the mole weighted mean, and does not depend on the order; and these properties of a mixture survive every history of settings of mass, moles, flow rate, fractions and constituent masses. Setters throw, changing nothing, exactly when the fractions given miss a sum of one by more than 1e-4. Limits: flows below DBL_EPSILON (or DBL_EPSILON squared for a constituent) are replaced by the source's own flow rate, updateMass leaves stale constituent flow rates, initialize with a sum off by more than FLT_EPSILON leaves a wrong molecular weight, and an addition that throws has already changed the flow rate.", "quantifier": "every mixture size, composition and sequence of additions", "why_tests_cant": "Conservation over unbounded sequences of real-valued operations.", "anchors": ["aspects/fluid/fluid/PolyFluid.cpp: addState, setMassAndMassFractions, updateMass, initialize"]}
{"id": "C32", "title": "Fluid node integration conserves mass", "statement": "In a step of a fluid node of non-zero volume the change of its contents of each constituent equals the transported inflows minus outflows times the step length, whatever the order of collected flows and over any number of steps; what links take at the molecular weight and composition of the node's outflow is what the node loses; the heat of the contents changes by the heat collected less that of what leaves (without damping and expansion); a node without volume passes its inflow on. Conditions: no more is asked for than contents and inflow hold, and amounts are zero or above the code's DBL_EPSILON limits. Limits: a shortage lets links take mass that is not there, an inflow of at most DBL_EPSILON kg does not change the composition, draining at less than DBL_EPSILON kg/s throws, and heating an overflowing node creates energy.", "quantifier": "every node state, list of inflows and outflows", "why_tests_cant": "Universally quantified over flow lists.", "anchors": ["core/GunnsFluidNode.cpp: collectInflux, collectOutflux, integrateFlows"]}
{"id": "C33", "title": "The two sides of a distributed fluid bus settle on one supply and one demand side", "statement": "Two sides of a Distributed2WayBusFluid exchange their data over channels with any delay and loss. Without forced roles: both sides demand only while one of them has not yet received data of the other's demand; once the capacitances stop changing (and differ, or exactly one side is the master) and data keep arriving, the roles become constant with exactly one side in demand, which is the side with the smaller capacitance if the other's is more than 5/4 of it; from the start, after one frame of each side without data, a side with the larger capacitance never demands and the other demands as soon as it has data. A forced role is taken in the same frame. Getters return the states the other side set exactly when the roles are complementary, and a side that changes to demand on capacitance sends a flow of zero. A flow within the demand limit neither increases nor reverses the pressure difference. Limits: sides forced to demand on both ends and then released stay in demand for ever; a side with data in its very first frame demands whatever its capacitance; equal capacitances without a master leave both sides supplying; a side forced to supply sends zero pressure when its capacitance is low.", "quantifier": "every history of frames of both sides, every delay, loss and sequence of capacitances", "why_tests_cant": "A distributed protocol: an invariant over all interleavings, and convergence of endless runs.", "anchors": ["ms-utils/interop/Distributed2WayBusFluid.cpp", "ms-utils/interop/Distributed2WayBusBase.cpp"]}
{"id": "C34", "title": "The two sides of a distributed electrical bus settle on the side with the higher available voltage", "statement": "Two sides of a Distributed2WayBusElect exchange their data over channels with any delay. The voltage the roles depend on is the highest available one. Whatever happened before, forced roles included, once the highest available voltages of the sides stay constant and differ, roles are not forced, and everything sent arrives, the side with the higher voltage ends supplying and the other demanding, for ever (given that the supplying side keeps the interface above the other's voltage). If the primary side always has at least the voltage of the other then it supplies and the other demands in all frames, whatever is delayed or lost. A forced role is taken in the same frame. A supplying side passes on its voltage and no load, a demanding side the highest voltage it could supply and its load. Limit: contrary to the comment at initialize, two sides initialised to the same role with the same available voltage both supply for ever.", "quantifier": "every history of frames of both sides, every delay, number of updates per frame and list of supplies", "why_tests_cant": "A distributed protocol: convergence of endless runs from any state reached.", "anchors": ["ms-utils/interop/Distributed2WayBusElect.cpp", "ms-utils/interop/Distributed2WayBusElect.hh", "ms-utils/interop/Distributed2WayBusBase.cpp"]}
{"id": "C35", "title": "A network of fluid conductors conserves the mass of each constituent", "statement": "In a step of a network of fluid conductors (flows reset, computed, transported and integrated in the order of the flow orchestrator) each node gains of each constituent what its links carry in less what they carry out, a link brings to one node exactly what the other loses, and so the mass of each constituent in the whole network changes only by what comes from ground and goes to ground: over any number of steps, with links of any settings in each step; without flows to or from ground it is constant. Conditions: no transport is forced, no more is asked of a node than it holds or gets, and fluxes and amounts are zero or above the code's thresholds. Limits: a flux above DBL_EPSILON whose mass flow is at most 100 DBL_EPSILON is taken but not brought; a flux of at most DBL_EPSILON of a fluid with a molecular weight above 100 is brought but not taken; and in a ring of overflowing nodes, where a transport is forced, mass is lost.", "quantifier": "every network, contents, flow directions and number of steps", "why_tests_cant": "A conservation law over all topologies, call orders and histories.", "anchors": ["core/GunnsFluidConductor.cpp: computeFlows, transportFlows, computeFlux", "core/GunnsFluidLink.cpp: transportFluid, determineSourcePort", "core/GunnsFluidFlowOrchestrator.cpp: update", "core/GunnsFluidNode.cpp: resetFlows, integrateFlows"]}
{"id": "C36", "title": "Linear table interpolation does not depend on the calls before", "statement": "A table given to TsLinearInterpolator is accepted exactly if the range is not empty, its points are strictly increasing or strictly decreasing (all but the last two at least DBL_EPSILON apart) and cover the range. Then, whatever sequence of get and getExceptional calls came before, with whatever cached cell index, get returns the value of the piecewise linear function through the user's points at the argument moved into the range, getExceptional the value at the argument or an exception outside of the range, and no access leaves the arrays. The value is unique, equals the table at its points, stays within the bounds of the table's values, and its slope within the bounds of the table's slopes. Limit: the cached index is not reset by another init, so an object initialised again with a shorter table reads outside of its arrays.", "quantifier": "every table, range and sequence of calls", "why_tests_cant": "The cached index makes each call depend on all calls before; the tables are unbounded.", "anchors": ["ms-utils/math/approximation/TsLinearInterpolator.cpp: init, validateOrdered, selectCell, evaluate", "ms-utils/math/approximation/TsApproximation.cpp"]}
{"id": "C37", "title": "Bilinear table interpolation and its inverse are those of the table", "statement": "Whatever calls came before, a TsBilinearInterpolator returns the value at the arguments (moved into the ranges by get, refused outside of them by getExceptional) of the function through the user's points that is linear in each variable in each cell; a TsBilinearInterpolatorReverse returns a point of the second variable at which this function, at the first argument, is closest to the value given, so one where it equals the value if it takes it. Where the code fails: for a decreasing variable with an even number of points the two rows in the middle are exchanged; the reverse interpolator misses the greatest value of a table if it is the first one stored, and then answers with the end of the table; isInitialized is false after every successful initialization; the destructor of an object that refused its table goes through a null pointer.", "quantifier": "every table, ranges and sequence of calls", "why_tests_cant": "The cached indices make each call depend on all calls before; the tables are unbounded.", "anchors": ["ms-utils/math/approximation/TsBilinearInterpolator.cpp: init, evaluate, cleanup", "ms-utils/math/approximation/TsBilinearInterpolatorReverse.cpp: init, evaluate, isBetween", "ms-utils/math/approximation/TsApproximation.cpp"]}
{"id": "C38", "title": "Brent's method brackets a root at every step and returns one within the tolerance", "statement": "BrentMethod::solve throws the bracketing exception exactly if the function has the same strict sign at both ends. Otherwise it never divides by zero, evaluates the function only inside of the interval given, and either returns after at most 100 iterations or throws the convergence exception. A result is in the interval; it is an exact root, or the function has the opposite sign at a point of the interval within tol + 4 DBL_EPSILON |x| at which its value is not smaller; so for a continuous function a root is that close. Each trial point is half way to the other end of the bracket, or the zero of the secant, or of the inverse quadratic interpolation through the last three points, this only if the step is shorter than half of the step before the last; a linear function is solved by the second iteration. Limit: 100 iterations do not suffice for every bracketed function.", "quantifier": "every function, interval and non-negative tolerance", "why_tests_cant": "An iteration on an arbitrary function; a loop invariant and the intermediate value theorem.", "anchors": ["ms-utils/math/root_finding/BrentMethod.cpp: solve"]}
{"id": "C39", "title": "A protected switch trips, latches and resets exactly as its limits say", "statement": "GunnsElectSwitchUtil2, after initialisation and any history of commands, malfunctions, limit changes and calls: a trip is latched exactly when a closed-commanded, unfailed, untripped switch sees the quantity beyond the limit (or is forced) and its priority equals the count of converged steps; a voltage trip resets by itself exactly when nothing else is latched and the voltage is back beyond the reset limit; the flags just-tripped and waiting say exactly whether something changed or is due; an over-current trip stays latched whatever happens until the reset command or an open command. Reset limits are kept on the safe side of the trip limits, so one voltage never trips and resets. An open command opens the switch after at most one more update. A tripped switch is open as long as it is not failed closed and the under-voltage limit is not above the over-voltage limit. Limits: a tripped switch that was failed closed for a while stays closed when the malfunction is over; with the under-voltage limit above the over-voltage limit, which initialisation accepts, both trips latch and the reset of one closes the switch; the open command is ignored by one update while the switch waits to trip.", "quantifier": "every history of operations, readings and limits", "why_tests_cant": "A state machine with unbounded histories; the claims are invariants and exact conditions on transitions.", "anchors": ["aspects/electrical/Switch/GunnsElectSwitchUtil2.cpp: updateState, updateTrips, applyConstraints, clearTrips", "aspects/electrical/TripLogic/GunnsTripLogic.cpp: checkForTrip"]}
{"id": "C40", "title": "Switches of a network trip in the order of their priorities", "statement": "In a step of a non-linear network with any number of GunnsElectUserLoadSwitch2 links among other links of any kind, a switch trips or resets only in the minor step whose count of converged steps equals its trip priority, and in that minor step all switches with a lower priority number have confirmed: of the switches that see a fault in one solution only those with the lowest number trip, and the network is solved again before any other does. A solution is accepted only if no switch has a reason to trip or to reset left. Conditions: no forced trips, readings that do not change between the polls of one solution, not in worst-case timing mode.", "quantifier": "every network, number of switches and minor steps, and all other links", "why_tests_cant": "A distributed protocol between links and solver, over all networks and numbers of minor steps.", "anchors": ["core/Gunns.cpp: iterateMinorSteps, confirmSolutionAcceptance", "aspects/electrical/Switch/GunnsElectUserLoadSwitch2.cpp: confirmSolutionAcceptable", "aspects/electrical/TripLogic/GunnsTripLogic.cpp: checkForTrip"]}
{"id": "C41", "title": "Attitudes survive conversion between Euler angles, quaternions and matrices", "statement": "For all six rotation sequences of GunnsDynEuler: the quaternion computed from three angles is a unit quaternion whose matrix is the turn about the first axis followed by those about the second and third; angles away from the singularity come back exactly, and for every unit quaternion the recovered angles are principal values with the same attitude, exactly away from and at the singularity and within a millionth per matrix element inside the tolerance band. Quaternions of at most unit magnitude, so all normalized ones, are never refused. The matrix of a unit quaternion is a rotation (orthogonal, determinant one) acting as conjugation; a quaternion is recovered from its matrix up to sign except for half turns, which are refused. Normalization scales by a positive factor to unit magnitude within the tolerance and divides by zero only for the zero quaternion; a vector is divided by its length unless that is below the tolerance. The factory makes the sequence asked for. The quaternion rate preserves the magnitude and turns the matrix at the given angular velocity. The array operations are those of linear algebra for every size.", "quantifier": "all sequences, angles, quaternions, matrices, vectors and array sizes", "why_tests_cant": "Real trigonometric identities over continuous angles and the neighbourhood of the singularity.", "anchors": ["aspects/dynamics/GunnsDynEulerFactory.cpp: create; aspects/dynamics/GunnsDynEulerBase.cpp: computeQuat, update, computeAngles", "aspects/dynamics/GunnsDynUtils.cpp: QtoM, MtoQ, Qdot, normalizeQ, multiplyMM, multiplyMV, multiplyMtV, skew, crossV3, dotV"]}
{"id": "C42", "title": "The rigid body state derivative solves the equations of motion", "statement": "GunnsDynSingleRigidStateDeriv::update, after any earlier calls without a numerical exception: mass properties failing a check are refused and change nothing; the result of a call depends only on its inputs. Every normal return satisfies Newton's law for the centre of mass, wherever it is in the body. With a positive definite inertia and the centre of mass at the origin the call returns normally with F = m a and Euler's equation for the sum of the active torques and moments (exactly for principal axes, otherwise with an inertia changed by at most 1e-15 on the diagonal and about 1e-100 off it). Where the code fails: with the centre of mass away from the origin the rotational equation has an extra term -c x (F - m w x (w x c)), so a push through the centre of mass turns the body; the decomposition drops products unless both factors are negative, so for many offsets mass properties that pass every check make the solver throw; and after such an exception the same call returns normally, with accelerations computed from the half decomposed matrix.", "quantifier": "all mass properties, angular velocities, lists of forces and torques, and histories of calls", "why_tests_cant": "The matrix is rebuilt only when the mass properties change, so a result could depend on any earlier call; the equations range over a continuum.", "anchors": ["aspects/dynamics/GunnsDynSingleRigidStateDeriv.cpp: update, buildAdmittanceMatrix, buildSourceVector, sumAppliedForces, sumAppliedTorques", "aspects/dynamics/GunnsDynSingleRigidMassProps.cpp: validate, operator ==", "core/Gunns.cpp: step", "ms-utils/math/linear_algebra/CholeskyLdu.cpp: Decompose"]}
{"id": "C43", "title": "The message queue is a bounded first-in first-out queue under every interleaving", "statement": "TsHsMsgQueue, seen from outside, is a list of at most its capacity of messages: messages come out in the order in which they were accepted, none twice and none that was not sent; every accepted message is received, still held, or counted as overwritten, and every refused one is counted; getSize, getCapacity and isEmpty agree with the list; initialize with another size keeps the newest messages that fit. This holds for every interleaving of any number of producers (waiting or not) with one consumer. With two consumers, which TsHsStdMngr lets overlap, it is false: both can find one message, the second receives a blank message and the empty queue then reports that it is full. A removal may return false although the queue was never empty during the call.", "quantifier": "all interleavings of producer, consumer and reconfiguration steps, all sizes and messages", "why_tests_cant": "Thread interleavings are unbounded and the emptiness test is made outside the mutex; a test sees one schedule.", "anchors": ["ms-utils/simulation/hs/TsHsMsgQueue.cpp: insertMsg, removeMsg, allocQueue, reallocQueue, initialize, getSize, getCapacity", "ms-utils/simulation/hs/TsHsMsgQueue.hh: isEmpty, isFull, setBlocking", "ms-utils/simulation/hs/TsHsStdMngr.cpp: freeze, shutdown"]}
{"id": "C44", "title": "The message filter lets through what it should", "statement": "TsHsMsgStdFilter, for messages with times that do not decrease: with at most history different messages, a message is suppressed as redundant exactly if count copies of it were displayed within the last interval seconds, so no window of that length has more than count displays; with any number of messages and history at least 2 none is suppressed wrongly, the map has at most history entries of at least one and at most count times, and no call is undefined. The counters count, setting one message type changes no other, and the settings stay positive. If file names and subsystems have no bar, messages taken for copies agree in file, line, subsystem and text. Where the code fails: the entry purged to make room is never the one with the smallest key, so not the oldest; with history 1 the second message erases the end of the map; messages of different types, or with bars, are taken for copies.", "quantifier": "all sequences of messages, settings and keys", "why_tests_cant": "The decision depends on an unbounded history of messages and on which entry was purged before.", "anchors": ["ms-utils/simulation/hs/TsHsMsgStdFilter.cpp: shouldSendMessage, purgeTimes, purgeMessages", "ms-utils/simulation/hs/TsHsMsgFilter.cpp: setTypeFilter, isTypeFiltered, setInterval, setCount, setHistory"]}
{"id": "C45", "title": "The state of charge of a battery accounts for the current it gives", "statement": "GunnsElectBattery with any number of cells, in series or parallel, after any sequence of steps, currents and malfunctions: the state of charge of every cell and of the battery stays in [0, 1], the link is a source of positive conductance, its voltage is the sum (series) or maximum (parallel) over the cells without failure, and the outputs are those of the cells. As long as all cells are disconnected or healthy and not empty, the stored charge changes by at most the current times the time, and by exactly that while no cell reaches an end of its range. A thermal runaway without load releases exactly the energy of the charge lost, with power growing linearly in time, and ends at the set duration to within one step; the battery's own malfunction sets the cells on fire in order, one per interval. Where the code fails: a battery run empty ignores every charging current for ever; the current is divided by the number of cells that are not empty but charges the empty ones too, so charge is created; an empty battery still gives current; a burning cell that is disconnected heats for ever without losing charge; removing the malfunction after a step in which the timer was reset leaves the cells burning.", "quantifier": "all numbers of cells, voltage tables, time steps, currents, malfunctions and lengths of history", "why_tests_cant": "State of charge integrates an unbounded history; the failures need a history that empties, repairs or disconnects cells at certain moments.", "anchors": ["aspects/electrical/Batt/GunnsElectBattery.cpp: initialize, updateState, updateCells, updateOutputs, computeParallelVoc, computeSeriesVoc, computeParallelResistance, computeSeriesResistance", "aspects/electrical/Batt/GunnsElectBatteryCell.cpp: updateSoc, getEffectiveSoc, getEffectiveCapacity, getEffectiveResistance, getEffectiveVoltage"]}
{"id": "C46", "title": "Segment intersection tests find the first common point, or say that there is none", "statement": "LineSegmentIntersect, in exact arithmetic: for a triangle that spans with the segment a determinant of at least EPSILON, the answer is a point exactly if that point is on the segment and in the triangle. For a ball, and for an ellipsoid whose half-axes are not zero, and a segment that is not a point, the answer is the first point of the solid on the way from p to q, or that there is none; for a point the ball test divides by zero. For a cylinder and a segment parallel to the axis, or a segment that starts outside of the tube around the axis and does not start and enter it beyond the end at p, the answer is again the first common point or that there is none; and for every segment that is not almost parallel an answer with a point is right. Where the code fails: smaller triangles are never hit; a segment that starts inside the tube, so also one that starts inside the cylinder, is never found to meet it; the test at the end at p counts a term twice and misses segments through the centre of that end; next to small cylinders all segments are taken as parallel, so points outside are answered.", "quantifier": "all segments and shapes over the reals (triangles: over every ordered field)", "why_tests_cant": "The set of segments and shapes is infinite, and the failures are regions of it that need special positions or sizes.", "anchors": ["ms-utils/math/intersect/LineSegmentIntersect.cpp: triangle, cylinder, sphere, spheroid"]}
{"id": "C47", "title": "The network capacitance of a node is the inverse of its response to flux", "statement": "When nodes request their network capacitance, the solution of the network is the same as without requests, and each requesting node gets the time step divided by the change of its potential per unit of flux (the diagonal term of the inverse of the factored matrix), whatever flux was requested, whatever the sources are and whoever else requests, provided its potential is not flushed to zero and the response is greater than DBL_EPSILON; the delta-potential array is the response of all nodes. For a network matrix this lies between the capacity to ground at the node and all that is connected to the node. A request of at most DBL_EPSILON gives zero and stays; an answered request is gone, so that in a network taking more than one minor step a request made once per major step (GunnsFluidExternalSupply) ends with zero.", "quantifier": "all network sizes, matrices, sources, requests and time steps", "why_tests_cant": "The claim is about the inverse of arbitrary matrices and about independence from all other requests; the loss needs a second minor step.", "anchors": ["core/Gunns.cpp: perturbNetworkCapacitances, computeNetworkCapacitances, buildAndSolveSystem", "core/GunnsBasicNode.hh: setNetworkCapacitanceRequest, getNetworkCapacitance"]}
{"id": "C48", "title": "The thermal phase-change battery accounts for the heat put into it", "statement": "GunnsThermalPhaseChangeBattery, for any run of network solutions: the hot fraction stays in [0, 1], the mass stays positive, and the mass lost is the reported leak; a leak takes only hot material, at the rate asked for unless that would take almost all of it, and leaves some. The link is a positive conductance to ground; with both phases the node is within a millionth of the heat flow (in watts) of the phase-change temperature. Without leak and override the heat content (sensible heat of mass and structure, and heat of the phase change) changes by exactly the heat put in as long as the phase stays the same; and the phase changes exactly when the temperature passes the phase-change temperature, or the heat put in exceeds what is left to change. Where the code fails: at each phase change heat is lost or made. Entering the mixed phase drops the heat of the structure, and leaving it drops the excess, so a battery can be brought back to its state in two steps having given any amount of heat.", "quantifier": "all configurations, lengths of run, time steps, network solutions, external heats and leaks", "why_tests_cant": "The balance is over unbounded runs; tests look at a finite number of steps.", "anchors": ["aspects/thermal/GunnsThermalPhaseChangeBattery.cpp: initialize, validate, step, updateState, computeCapacitance, computeFlows, computePower, updateFlux, updatePhaseFraction, updateMassLeak, sumExternalFluxes"]}
{"id": "C49", "title": "The PID controller updates on time and integrates the error", "statement": "TsPidController: a call updates the controller exactly if the time since the last update has reached the interval, otherwise it changes only the timer; several calls with the same input until the update are one call with the whole time; with constant steps it updates every k calls, k the least number of steps that last the interval, and in general the time between updates is at least the interval and exceeds it by less than a step. The integral is that of the error over the updates, up to DBL_EPSILON per update; the derivative is that since the last update; the output moves by the sum of the gains times these and is within its limits from the first update on. Where it is not a PID controller: the output is increased by, not set to, that sum, so that under the proportional gain alone a constant error drives the output to its limit; and the integral winds up while the output is at its limit, so that it stays there, against the sign of the error, until the error is integrated back.", "quantifier": "all gains, intervals, limits and sequences of calls", "why_tests_cant": "Integral, timer and output depend on the whole history; tests make a fixed number of updates.", "anchors": ["gunns-ts-models/common/controllers/generic/TsPidController.cpp: initialize, validate, update"]}
{"id": "C50", "title": "The particle swarm optimizer reports the best run", "statement": "GunnsOptimParticleSwarm under GunnsOptimMonteCarlo: start-up succeeds exactly for a usable configuration and places the swarm within bounds; run k belongs to particle k mod n and epoch k/n+1 and is given that particle's position; a result is accepted exactly if its run is one of the last n and goes to its particle. If the results of each epoch are all back, in any order, before the next epoch begins, nothing is thrown and the global best is the earliest of the cheapest of all runs of finished epochs, with its own state, cost and number, each personal best likewise over its particle's runs, and after the shutdown the global best is that of all n*maxEpoch runs. The best cost never rises. Free coordinates of states sent out stay within bounds and velocities within the greatest velocity, whatever random numbers are drawn, and the particles move as documented. Failures: results come back late when runs are done in parallel; if a run of the first epoch is out when the second begins, the best is for ever a state with a cost of zero that it never had; later, the best may be the state of one run with the cost of another. Constraints between inputs are taken on the state that was last sent out rather than on the state they should hold for, so they do not hold.", "quantifier": "all swarm sizes, numbers of inputs and epochs, random numbers, and orders of events", "why_tests_cant": "The order in which parallel runs return is unbounded; tests fix one order.", "anchors": ["core/optimization/GunnsOptimParticleSwarm.cpp: initialize, validate, initSwarm, update, updateBestStates, propagateSwarm, applyStateConstraints, assignCost", "core/optimization/GunnsOptimMonteCarlo.cpp: updateMasterPre, updateMasterPost, updateMasterShutdown", "core/optimization/GunnsOptimBase.cpp: validate, constrainInputs", "core/optimization/GunnsOptimMonteCarloTypes.hh: applyConstraints"]}
{"id": "C51", "title": "The gradient descent optimizer moves toward cheaper states", "statement": "GunnsOptimGradientDescent under GunnsOptimMonteCarlo: start-up succeeds exactly for a usable configuration. Each epoch runs the state, then for each input the state with the input increased and with it decreased, all else the same. A result is accepted exactly if its run is one of the last 2n+1. With results in time (always so when runs are done in series, for any cost function) nothing is thrown, and each input moves by gain/n times the way to where the line through the costs of the state and its better trial reaches zero, if that trial is cheaper, and is then moved into its bounds. So an input whose trials do not help stays, one that grows (falls) had a cheaper increase (decrease), all states stay in bounds, and for an affine cost away from bounds an epoch multiplies the cost by 1-gain. Failures: if the least cost is not zero the step overshoots and no best state is kept; the shutdown takes one more step, so the reported state was never run and its cost is not the reported one; an input within 1000 DBL_EPSILON of zero, but not zero, never moves again; trial results that precede the state's own are measured against a stale cost; with fewer variables than inputs the rest start at zero, outside their bounds, and the run count is wrong.", "quantifier": "all numbers of inputs and epochs, bounds, gains, cost functions and orders of events", "why_tests_cant": "The claims are about every cost function and unbounded sequences of runs; tests assign a few costs.", "anchors": ["core/optimization/GunnsOptimGradientDescent.cpp: initialize, validate, initState, update, propagateState, setGradientStates, assignCost, shutdown", "core/optimization/GunnsOptimGradientDescent.hh: getNumRuns, getState", "core/optimization/GunnsOptimMonteCarlo.cpp: updateMasterPre, updateMasterPost, updateMasterShutdown"]}
{"id": "C52", "title": "A valve controller keeps its valve between the ends and drives it as it is told", "statement": "TsValveController and its family: start-up succeeds exactly for data that describe a valve (and a drive), except that equal ends pass the checks and divide by zero. After any settings and updates, an update puts the valve where the first of stuck, failed, moved by hand, driven says, kept between the ends; the flow area fraction is the line through the configured ends kept in [0,1]; limit and stuck flags are exact. The drive takes its fail-to value, falls back to its normal end without power, or moves at the rate of one travel per transit time and reference command: under k times the reference command a full travel takes exactly the transit time over k. Power is nothing, hold, stuck or move exactly as documented, and power times resistance is the reference voltage squared. With truthful end switches, interruption at the ends changes the power but never the valve. Toggle commands count the rising edges among enabled samples, in whatever queues they come. The position controller reaches its target in the time the distance needs and never passes it. T-valve paths follow the last valid selection; dual solenoid valves are at an end, a latching one where the last single command left it. Failures: an open/close valve takes its transit time multiplied by the reference command; with a negative reference command it is reversed, or stuck open with end interruption, and the position controller always drives open; a toggle moves the valve to the other end only if the range is at least reference command times transit time, otherwise a closed valve never opens fully; an enable queue shorter than the toggle queue is read past its end.", "quantifier": "all configurations, settings, malfunctions, histories, command sequences and time steps", "why_tests_cant": "The claims hold over unbounded histories of settings, updates and samples; tests make finitely many updates with fixed configurations.", "anchors": ["gunns-ts-models/common/controllers/fluid/TsValveController.cpp: initialize, validate, update, updatePosition", "gunns-ts-models/common/controllers/fluid/TsPoweredValveController.cpp: initialize, validate, update, updatePower", "gunns-ts-models/common/controllers/fluid/TsOpenCloseValveController.cpp: update", "gunns-ts-models/common/controllers/fluid/TsSpeedValveController.cpp: update", "gunns-ts-models/common/controllers/fluid/TsPositionValveController.cpp: update", "gunns-ts-models/common/controllers/fluid/TsToggleValveCmd.cpp: update", "gunns-ts-models/common/controllers/fluid/TsToggleValveController.cpp: update", "gunns-ts-models/common/controllers/fluid/TsTValveController.cpp: update", "gunns-ts-models/common/controllers/fluid/TsDualSolenoidValveController.cpp: initialize, validate, update, calculateSolenoidLoad"]}
{"id": "C53", "title": "Plugs go where they are asked and the jumper's ends follow them", "statement": "GunnsBasicJumper, GunnsBasicJumperPlug and GunnsBasicSocket: after any history of initializations, requests (valid or not), steps, restarts, port moves and exceptions, no plug is in two sockets, plugs are only in sockets of their lists, and each plug's active connection is where it is. One update of a plug disturbs no other plug and takes it where a two-phase specification says: out of the socket it is asked out of, then into the socket asked for if that is free, a direct request coming first; requests are cleared. It throws exactly if a plug in no socket is asked for one that does not exist, or a plug is asked to leave for one that does not exist, and then throws for ever. A direct request puts the plug into a free socket, and otherwise out; any number of plugs directed to different sockets are there after two rounds in any order, even if they block one another in a circle. A restart moves no plug. If all sockets have the ground as ambient node and different nodes behind them, both ends of every jumper are always where their plugs are, and a restart brings them back. The jumper conducts exactly if its ends differ and self-sealing ends are plugged in. Where this fails: a port may not be at the node of the other port, unless that is ground, and a refused move is never tried again; so two plugs taken out into the same cabin leave the second end at the node of its old socket, and the jumper conducts from there to the cabin while both plugs are reported out.", "quantifier": "all numbers of plugs, sockets and jumpers, and all event histories", "why_tests_cant": "Exclusion and convergence are over unbounded histories of interleaved requests of any number of plugs; unit tests make a fixed sequence of requests on a fixed set-up.", "anchors": ["core/GunnsBasicJumperPlug.cpp: initialize, update, getSocket, processDirectConnectionRequest, processConnectionRequest, processDisconnectionRequest, updateActiveConnection", "core/GunnsBasicSocket.cpp: requestConnection, requestDisconnection, updateState", "core/GunnsBasicJumper.cpp: initialize, restartModel, updateState, updatePlugs", "core/GunnsBasicLink.cpp: setPort, checkPortRules, checkPortDuplication"]}
{"id": "C54", "title": "A converter takes in what it gives out plus its losses", "statement": "GunnsElectConverterInput and GunnsElectConverterOutput: an output that is disabled, tripped, without input or reverse biased gives no current. A voltage regulator that is on gives conductance times (target - potential); the power it asks of the input, times its efficiency, is target times current, and exceeds what it gives by the loss it reports, which is at least that in the conductance. Limiting over-current it gives at most the limit. It is a diode: a solution in which current flows back is rejected while changes to reverse bias are left. A power regulator whose load estimate has settled gives its setpoint, less the term of the small conductance put in for convergence. The input never gives current, takes none when off, and when on takes the power asked for plus the loss it reports. When a solution repeats itself, the power taken from the input node is the power given to the output node plus the two reported losses, whichever link comes first. A solution that is accepted is within the limits of the trips that are armed, and one beyond a limit makes its trip at the step of its priority and is rejected (trips on current only without limiting, those on voltage not in a current regulator that limits). In one major step, whatever the sequence of minor steps, solutions, polls and resets, the output rejects at most 5*flipsLimit+6 solutions on its own account and the input at most 3. Failures: under a partial blockage the loss is computed for the unblocked conductance, so the power asked for is short; below 0.99 of the under-voltage limit an input that does not trip takes less than the output gets; with its flips used up a regulator accepts a reverse current and reports none.", "quantifier": "all states, settings and sequences of events; doubles are an ordered field, the square root is any function with the property used", "why_tests_cant": "The balance involves two links, their order and the state left by earlier minor steps; the bound on rejections is over unbounded sequences. Unit tests check fixed states of a link.", "anchors": ["aspects/electrical/Converter/GunnsElectConverterInput.cpp: validate, step, minorStep, computeFlows, confirmSolutionAcceptable, resetLastMinorStep, computeInputVoltage", "aspects/electrical/Converter/GunnsElectConverterOutput.cpp: validate, step, minorStep, computeRegulationSources, computeFlows, confirmSolutionAcceptable, updateBias, rejectWithLimitState, updateLimitState, updateCurrentLimitState, updateVoltageLimitState, computeInputPower", "aspects/electrical/Converter/GunnsElectConverterOutput.hh: computeFlux, estimateLoad, applyBlockage, resetLastMinorStep"]}
{"id": "C55", "title": "The links of a converter tell each other what is valid", "statement": "A converter in a network under the solver: after a rejection the output declares its power invalid, and an input that comes first in the network rejects converged solutions while it is. So a converged solution that follows a rejected one is rejected, and an accepted solution never rests on the power put in after a rejection. Failures: as each rejection makes the power invalid again, a network whose solutions then stay within the tolerance of the saved ones rejects all of them, in this and all following steps. This is what happens to an output that is disabled while another source holds its node above zero: although it takes no part in the solution, it rejects the first converged one to go to reverse bias. And a converter with one link on ground, which is documented as a way to keep spares that do nothing, makes every step of the network fail once that link has been polled.", "quantifier": "all networks and all other links, all numbers of minor and major steps", "why_tests_cant": "The deadlocks need two links, the solver's loop and several minor steps; the unit tests check fixed states of a link.", "anchors": ["aspects/electrical/Converter/GunnsElectConverterInput.cpp: minorStep, confirmSolutionAcceptable, resetLastMinorStep", "aspects/electrical/Converter/GunnsElectConverterOutput.cpp: minorStep, confirmSolutionAcceptable, updateBias", "aspects/electrical/Converter/GunnsElectConverterOutput.hh: resetLastMinorStep", "core/Gunns.cpp: iterateMinorSteps, confirmSolutionAcceptance, resetLinksToMinorStep"]}
{"id": "C56", "title": "Trace compounds are neither made nor lost by fluid nodes", "statement": "Trace compounds ride on the fluids of a network and do not count in their mass. In a step of a node with a volume the mass of each of them changes by what came with the flows in (flux times mole fraction), plus what links gave on its own, less what links take (flux times the mole fraction of the node's outflow), and over any number of steps by the sums; the fluid does what it does without them; mass, mole fraction and the moles of the contents agree, and none is negative. Links that draw from a node before it integrates see the mole fractions its loss is counted with, if it holds enough, so that two nodes with a flow between them keep together what they held; the order of the links' calls does not matter. A node without volume holds none and passes on the mole fractions of its inflow. All this if no mole fraction on the way is below DBL_EPSILON without being zero, no more is removed than is there, and nothing is given on its own to a node that overflows or has no volume. Without these conditions it is not so: what is given on its own to a node without volume is lost, to one that overflows it is multiplied; what is diluted below DBL_EPSILON vanishes, so that the order of calls matters; a link that removes too much gets it all the same; and the trace compounds of a flow of at most DBL_EPSILON kg in a step do not count.", "quantifier": "all mixtures, all numbers of trace compounds, all lists of calls by links in a step, all histories", "why_tests_cant": "The balance is over arbitrary lists of calls and steps, and involves the split of the outflow between contents and through flow in three mixtures; tests check single calls.", "anchors": ["aspects/fluid/fluid/GunnsFluidTraceCompounds.cpp: updateMasses, updateMoleFractions, flowIn, flowOut, limitPositive", "aspects/fluid/fluid/PolyFluid.cpp: resetState, setState, addState, setMass", "core/GunnsFluidUtils.cpp: mixFluidMasses", "core/GunnsFluidNode.cpp: resetFlows, collectInflux, collectTc, integrateFlows"]}
{"id": "C57", "title": "Chemical reactors consume and produce in proportion", "statement": "A reactor of any compounds and reactions, in any order and sharing compounds: each reaction runs a number of times, not negative, limited by the efficiency's share of the reactant and by 99.99% of either compound, one of which is reached; the masses change by that number, the moles of the reaction and the weights, and the heat is that of these runs. So atoms of every element are neither made nor lost, in an update and over any number of updates; no compound becomes negative, no more of a fluid is consumed than flows in and no more of a solid than there is; over any number of updates a solid changes by what was produced of it, up to DBL_EPSILON for each reaction and update. The node downstream receives of each fluid what flowed in and what was produced, if the flows of products and reactants are above their limits. A reaction of the table is accepted exactly if its compounds are configured and the fluids among them are in the network, and then keeps the atoms of every element. Not so: mass, for three reactions of the table whose rounded weights do not add up (a Sabatier reactor makes mass, two millionths at most); with reversed flow, an exothermic reaction cools the fluid; and when the flow stops, the solver is still given the source of the last flow.", "quantifier": "all reactors, reactions, efficiencies and amounts, all flows in both directions, all histories", "why_tests_cant": "The balance is over arbitrary lists of reactions that feed each other and over histories; tests run a few reactors one step.", "anchors": ["aspects/fluid/source/GunnsFluidReactor.cpp: checkCompound, derive, updateFluid, inputFromAtmosphere, react, outputToAtmosphere, addRxnHeat, computeEfficiency, transportFluid", "aspects/fluid/source/GunnsFluidHotReactor.cpp: computeEfficiency", "ms-utils/properties/ChemicalCompound.cpp", "ms-utils/properties/ChemicalReaction.cpp"]}
{"id": "C58", "title": "Separators conserve every constituent", "statement": "A separator takes a fraction of some constituents out of the flow between two nodes, holds it for one step and gives it to exit nodes. For any number of separated constituents, any mixtures and fluxes in both directions: the node upstream loses the flux in its own composition, the node downstream receives of every constituent what is not separated (never negative), each exit receives what was held of its constituent, and what is held next is the given fraction of the constituent in the flow; so over any history of steps of the same length, what was taken of a constituent was given to some node or waits in the separator. With exits in the order of ports, the sources given to the solver add up to zero, and the exits' sources are what they receive. Configuration that is accepted makes such a separator, with pure fluids at the exits. This needs as many exits as constituents, and amounts above the guards against small numbers. Not so otherwise, although accepted: if exits are not assigned in order, the solver counts a constituent at another port than the one that receives it; of constituents that share an exit the solver counts only the last; constituents beyond the number of exits are lost; with more exits than constituents memory beyond an array is used; and if nothing is left of the flow, the mixture of the inflow downstream is changed by the fluid before separation.", "quantifier": "all numbers of ports and constituents, all mixtures and fluxes, all histories", "why_tests_cant": "The balance is over arbitrary lists of constituents and histories with a delay of one step; tests use fixed fluids and a finite number of steps.", "anchors": ["aspects/fluid/source/GunnsFluidMultiSeparator.cpp: validateSep, initializeFluids, step, computeFlows, transportFlows", "core/GunnsFluidLink.cpp: determineSourcePort", "core/GunnsFluidNode.cpp: collectInflux", "aspects/fluid/fluid/PolyFluid.cpp: setState, setMoleAndMoleFractions, addState"]}
{"id": "C59", "title": "Times of the calendar subtract and print correctly", "statement": "TS_sgmt_conversion: the difference of two UTC times is the time that passes between them on the Gregorian calendar, whose days follow each other by the lengths of the months and the leap year rule: 86400 s for each day from one date to the other, and the difference of the clocks. So it is negative exactly if the first time is earlier, zero exactly if they are the same, and differences add up. The days of a month are those of the calendar for the years 1970 to 2200. The seconds of a time of the year count the days from the first of January; printed, as a UTC time or as seconds of a year in either SGMT format, they show the year, the day of the year from 1, the hour, the minute and the nearest (or whole) second, with two or three digits each; seconds beyond the year show the time of the next one. Strings of hours, minutes and seconds, also negative, are counted in whole cycles, rounding down. Not so: the check of a UTC time accepts seconds up to 3600, and then an earlier time is no longer before a later one; the last half second of a year is printed as midnight of a day that the year does not have; seconds of two years or more also show a day that the year does not have; what is not a month counts as January; and the addition of seconds to a time ignores the seconds and never sets the hour.", "quantifier": "all years, dates and times, all seconds of a year, all strings of digits of the given form", "why_tests_cant": "The calendar is unbounded; tests sample dates.", "anchors": ["ms-utils/units/TS_sgmt_conversion.c: TS_convert_year2second, TS_convert_month2day, TS_convert_time_sgmt2second, TS_convert_time_sgmt2string, TS_convert_yseconds2sgmt, TS_is_leap_year, TS_convert_time_string_hms2count, TS_UTC_days_in_month, TS_UTC_is_valid, TS_UTC_subtraction, TS_UTC_addition", "ms-utils/units/TS_conversions.c", "ms-utils/units/TS_sgmt_conversion.h"]}
{"id": "C60", "title": "Sensors show the truth but for what they are given", "statement": "SensorAnalog, for all settings, malfunctions and inputs: a perfect sensor shows the input within its range; one that is off its off value; one failed to a value this value within the range; one that is stuck what it showed, over any history. Otherwise it shows scale and bias and drift applied to the input, limited to its range, within the amplitudes of the noises and half the resolution; without noise and resolution exactly, and with a resolution a whole multiple of it (nearest to the ideal value without noise), limited to the range. The two noises take different values of the noise function. What is shown is in the range after any history. The drift is the rate times the time in which the malfunction was active and the sensor sensed. The truth is reported whatever the malfunctions, and degradation exactly if there is one. A configuration is accepted exactly if the range is not empty and has the off value in it. Switches show the truth, within the tolerance of the target for analog input; a valve's switches never show open and closed at once if their targets are further apart than their tolerances; limit switches also trip beyond their target as seen from zero. TsNoise gives values in [-1, 1] and never divides by zero or takes the logarithm of zero. Not so: if the drift malfunction is removed while the sensor does not sense, the drift is kept and is there when it is put in again; a value of more than 2^31 resolutions is undefined behaviour although the range would limit it; and a switch with analog input reports a stale truth while it does not sense.", "quantifier": "all configurations, inputs, noise functions, unit conversions and histories; doubles are an ordered field", "why_tests_cant": "The claims are over all combinations of settings, over unbounded histories and all noise streams; tests check a few combinations.", "anchors": ["gunns-ts-models/common/sensors/SensorBase.hh", "gunns-ts-models/common/sensors/SensorAnalog.cpp: initialize, validate, update, sense, processInput, processOutput, applyScale, applyBias, applyDrift, applyNoise, applyResolution", "gunns-ts-models/common/sensors/SensorAnalog.hh: determineDegradation", "gunns-ts-models/common/sensors/SensorBooleanBi.cpp: update, sense", "gunns-ts-models/common/sensors/SensorBooleanAi.cpp: processInput, sense", "gunns-ts-models/common/sensors/SensorVlvOpenClose.cpp: sense", "gunns-ts-models/common/sensors/TsLimitSwitch.cpp: update", "gunns-ts-models/common/sensors/TsLimitSwitchAnalog.cpp: update", "gunns-ts-models/common/sensors/TsNoise.cpp: getNoise", "ms-utils/math/MsMath.hh: limitRange, round"]}
{"id": "C61", "title": "Unit conversions convert units", "statement": "UnitConversion::convert: a number that is none of the types throws, and a type's number never reads beyond the table of functions. Each type converts a value to the value of the same quantity in the unit it names, with the units by their definitions (the international foot and pound, standard gravity, melting ice and boiling water on the scales of temperature): exactly for prefixes, percent, temperatures, angles and inches of water, and within 3e-7 for the others (2e-3 for standard cubic feet, which are of air). A type and the one that converts back undo each other exactly, and between temperature scales it does not matter which way is taken. Decibels are ten times the common logarithm, of ratios from DBL_EPSILON on; products become sums. The constants named X_PER_Y are the number of X in a Y within 3e-7, those of TS_conversions.c within a thousandth, and the functions of TS_conversions.c agree with UnitConversion. Not so: in decibel watts no power shows as one watt, so that half a watt shows less than none; the constants of milliseconds are interchanged and that of horsepower is upside down; and TS_convert_degR_to_degC is wrong by 160/9 degrees, as it subtracts the Rankine value of zero Fahrenheit.", "quantifier": "all types and numbers, all real values; doubles are real numbers", "why_tests_cant": "The claims are over all values and all chains of conversions; unit tests check single values.", "anchors": ["ms-utils/math/UnitConversion.cpp: convertFunctions, convert, convertPrToDb, convertWToDbw", "ms-utils/math/UnitConversion.hh: Type, convertDegFToDegR, convertDbToPr, convertRadToDeg, convertToPercent", "ms-utils/units/TS_conversions.c"]}
{"id": "C62", "title": "Thermostats keep the temperature in the band", "statement": "Thermostat with any number of sensors: its nominal command is on exactly if at some update the sensors were cold (one below the low setpoint; all of them for AND logic) and at no update since then hot (all above the high one; one of them for AND logic), whatever malfunctions there were and however the setpoint is moved; the setpoints are the commanded temperature less and plus half their configured distance. Without malfunction of the setpoints the command is the nominal one, so that malfunctions leave no trace; with one, it obeys the same rule with the changed setpoints, and if these are in the wrong order the heater is on exactly up to the high one. The malfunction to off goes before that to on, this before the kill switch. In a closed loop in which a step warms by at most u while the heater is on, cools by at most d while it is off, and the sensors err by at most e: with one sensor or OR logic no temperature is ever below low-e-d and some is at most high+e+u, with AND logic none is ever above high+e+u and some is at least low-e-d. Configuration is accepted exactly if the setpoints are in order, there is a sensor, and logic for more than one. Not so: the malfunction to off is documented to de-activate the one to on, but when it is removed, the other is there.", "quantifier": "all numbers of sensors, readings, setpoints and malfunctions, all histories of any length", "why_tests_cant": "The claims are about histories of any length and closed loops with any number of sensors; tests check single updates.", "anchors": ["gunns-ts-models/aspects/signal/effectors/thermostat/HtrControl.cpp: initialize, validate, considerCommandMalfs", "gunns-ts-models/aspects/signal/effectors/thermostat/Thermostat.cpp: initialize, validate, update, readSensors, evaluateAgainstSetpoints, returnLoadModePrimary, returnLoadModeSecondary, setTemperatureSetpt, setCommandSetptBias"]}
{"id": "C63", "title": "Relief and regulator valves follow their hysteresis", "statement": "A relief valve opens along the broken line from the crack pressure over the pop position to the full open pressure, closes along the one that ends at the reseat pressure, and holds in between; the pressure is that between the sensing ports with all biases. Started closed or fully open, the valve's position is that of this hysteresis, limited in rate, for every history of pressures, biases and time steps without stuck or fail-to malfunction: the states of the code (opening, closing, transitioning ...) leave no other trace, and the valve stays closed while the pressure is at most the crack pressure. Whatever happened before, malfunctions included, one free step that the rate limit does not bind brings the valve between its two lines, and from then on it follows the hysteresis again. The position never leaves 0 to 1, no free step is faster than the rate limit, a stuck valve does not move and a failed one is at its commanded position. The conductivity is that of the position or of the leak, the larger, less the blocked fraction. A regulator valve does the same with pressures reversed. Configuration is accepted exactly if the pressures are in order and the data in range, and then nothing is divided by zero. Not so: the position of a valve that starts partly open is not held, the first step moves it to the opening line.", "quantifier": "all configurations, all pressures, biases, malfunctions and time steps, histories of any length", "why_tests_cant": "The hysteresis depends on the whole history of pressures and on the interplay of five states with the rate limit; tests drive a valve through fixed sequences.", "anchors": ["aspects/fluid/conductor/GunnsFluidPressureSensitiveValve.cpp: initialize, validate, step, updateState", "aspects/fluid/conductor/GunnsFluidReliefValve.cpp: initialize, validate, derive, updateState, updateValveState, updatePosition", "aspects/fluid/conductor/GunnsFluidRegulatorValve.cpp: initialize, validate, derive, updateState, updateValveState, updatePosition"]}
{"id": "C64", "title": "Fluid conductors pass the flow of their conductivity", "statement": "The conductance that a fluid conductor computes makes its mass flow, in the direction of the falling pressure, conductivity times (mean density times pressure drop in Pa) to the pressure exponent, less the blocked fraction and times the weight of the fluid that flows over the mean weight of the two; below the minimum pressure drop the flow is linear, and the order of the ports does not matter. The conductivity predicted for a flow is the inverse: it gives this flow, for all exponents. A conductor tuned to a mass flow, volume flow or standard volume flow passes this flow at once, loses its blockage and leaves tuning. A valve passes what a conductor with the conductivity times the position passes, nothing if closed; a leak put into it makes it pass the larger of its own flow and the leak. Over every history of fluids and changes by the user the admittance matrix is that of a conductance from 0 to the limit and the network is told of every change. Not so: if the weights differ, the tuned flow is missed by their ratio; tuned while the pressures are equal, a conductor is closed for good; a valve's tuning does not see its position, so that the flow is multiplied by the position from the second step on; a leak put in while the pressures are equal never leaks, whatever the pressures later.", "quantifier": "all conductivities, exponents from 1/2 to 1, fluids, pressures, blockages and positions, histories of any length", "why_tests_cant": "The law and its inverse hold for all real exponents and fluids, and the leak and tuning failures are about whole histories; unit tests compare single results with the same formula.", "anchors": ["core/GunnsFluidUtils.cpp: computeAdmittance, predictConductivity", "core/GunnsFluidConductor.cpp: step, linearizeConductance, buildConductance, computeFlux, transportFlows, tuneFlow", "aspects/fluid/conductor/GunnsFluidValve.cpp: updateState"]}
{"id": "C65", "title": "Check valves and three-way valves stand where their pressures put them", "statement": "A check valve goes, as fast as its rate limit lets it, to the position of its pressure drop: shut up to the close pressure, fully open from the open pressure on, on a line in between and never by a division by zero. With the drop held it goes there straight and stays, so that reversed flow shuts it once the time is enough for the way; more pressure drop at all times never leaves it less open; whatever the malfunctions, the position stays from 0 to 1; a stuck valve does not move, a failed one is at its value. The two paths of a three-way valve are open from 0 to 1 and add up to 1; with a non-mixing band they are never both open and both shut exactly while the position is in the band; at the ends one is fully open and the other shut; the flag for path B swaps them. A three-way check valve gives the path with the higher pressure its share, from half at the minimum difference to all at the open pressure, holds if both pressures are against the flow, and its paths always add up to 1. Not so: the open pressure of path B is not used, that of path A is used for both; with the default minimum difference of 0 and the position on path B, equal pressures turn the valve over in every step.", "quantifier": "all configurations that are accepted, all pressures, malfunctions and time steps, histories of any length", "why_tests_cant": "The claims compare whole histories and hold for all pressures; the tests of the three-way check valve use equal open pressures and do not see which one is used.", "anchors": ["aspects/fluid/conductor/GunnsFluidCheckValve.cpp: validate, updateState", "aspects/fluid/conductor/GunnsFluid3WayValve.cpp: validate, updateState", "aspects/fluid/conductor/GunnsFluid3WayCheckValve.cpp: validate, updateState, calculateValvePosition"]}
{"id": "C66", "title": "Mixtures are converted, mixed and transformed without loss", "statement": "GunnsFluidUtils, for any number of compounds: for any amounts in moles, convertMoleFractionToMassFraction takes the parts of the moles to the parts of the mass and convertMassFractionToMoleFraction takes them back, so that both round trips of a mixture are the identity and each conversion of a mixture is a mixture. Partial pressures sum to the pressure and convert to mole fractions and back. Nothing of everything leaves the output as it was. normalizeArray makes negative and tiny entries zero; if the rest sums to one within FLT_EPSILON it stays and the result is false, else the result is true and the rest is divided by its sum. Mixing masses conserves the mass of each compound and throws exactly if there is no mass. Transformation to a fluid of other compounds: the map is refused exactly if the type to convert to is unknown or nothing is mapped; each compound gets the mass fractions of its type, and the type to convert to those of all types the fluid does not have, in proportion; if all types are present, a mixture keeps every fraction whatever the order; without a type to convert to, the compounds in common keep the proportions of their moles. Not so: with a type to convert to, moles are documented to be conserved, but mass fractions are moved, so that the mole fractions of all other compounds change.", "quantifier": "all numbers of compounds, all molecular weights from DBL_EPSILON to its inverse, all mixtures, masses and types", "why_tests_cant": "The claims are algebraic laws over all mixtures and configurations; tests compare single mixtures.", "anchors": ["core/GunnsFluidUtils.cpp: convertMoleFractionToMassFraction, convertMassFractionToMoleFraction, convertPartialPressureToMoleFraction, convertMoleFractionToPartialPressure, normalizeArray, mixFluidMasses, buildTransformMap, transformState"]}
{"id": "C67", "title": "What crosses the interface between two fluid networks", "statement": "With the data of one side taken to the other: in the demand role, the node gets the supply node's temperature and pressure, and of the compounds and trace compounds that both networks and the interface have, the same proportions; its mass fractions add up to one. In the supply role, the flow of every compound and trace compound that all have is the opposite of the flow the demand side sent. With the same fluids everywhere both are equalities of the whole fluid and flow. Through any history of changes of role, forced or not, the node has its own volume in the supply role and none in the demand role. The admittance is within zero and its limit; a step takes no more than what brings the supply's pressure to the demand's, and without the option of less restriction the exchange does not bring the pressures past each other. The capacitance sent is not negative, at most that of the node without the link. As failures: the temperature of a flow back from the demand side is replaced by the supply's own; the mixture sent back is that of all flows into the demand side's node, so the supply can lose a compound it never sent; and the flow of compounds not in both networks is lost from the sum.", "quantifier": "all sizes of the networks and the interface, all fluids, pressures and flows, all histories of frames with any received data and forced roles, all capacitances, options, limits and blockages", "why_tests_cant": "The claims relate two links through conversions over all mixtures and sizes, and the volume over all histories of roles; tests run finitely many exchanges with fixed fluids.", "anchors": ["core/GunnsFluidDistributedIf.cpp: processInputs, inputFluid, processInputsSupply, processInputsDemand, processOutputs, outputFluid, processOutputsSupply, processOutputsDemand, outputCapacitance, step, computeFlows", "core/GunnsFluidCapacitor.cpp: step"]}
{"id": "C68", "title": "Thermal links keep energy and the direction of heat", "statement": "A radiation link passes, between temperatures that differ, view factor times conductivity times the difference of the fourth powers, less the blocked fraction; its conductance is not negative and does not depend on the order of the ports. Two capacitors to ground with a radiation link between them, through any number of steps with any views, blockages and external heat: the stored heat grows by exactly the external heat, and without external heat the hotter stays the hotter, the difference does not grow and no temperature leaves the first range. A capacitor stores all of its 15 external heats and what other links bring; queued fluxes give their energy. An accepted source gives its ports together its flux within 1.1 percent, exactly if the fractions sum to one; an override beats the blockage; a panel's first incident flux gives its configured heat back, a panel of several surfaces gathers from each. In a thermoelectric device the voltage is the integral of the Seebeck coefficient and the heat through it that of the conductivity; energy is kept for a constant coefficient; end plates are in series with a constant conductivity. Not so: at equal temperatures radiation has the bare conductivity, without view factor and temperature; heat to a capacitor without capacitance or with fixed temperature is lost; one percent of a source's flux can get lost; a panel without area is accepted and its flux is not a number; with a varying Seebeck coefficient a device makes energy; with a varying conductivity it conducts more than its end plates, and its conductance jumps at equal temperatures.", "quantifier": "all temperatures, capacitances, views, blockages, heats, coefficients and time steps of at least DBL_EPSILON, histories of any length", "why_tests_cant": "Conservation and the direction of heat are about whole histories with any inputs, and the device's law is an integral; tests compare single steps with the same formula.", "anchors": ["aspects/thermal/GunnsThermalRadiation.cpp: step", "aspects/thermal/GunnsThermalCapacitor.cpp: step, updateState, sumExternalHeatFluxes", "aspects/thermal/GunnsThermalCapacitorHeatQueues.cpp: step", "aspects/thermal/GunnsThermalSource.cpp: validate, step, buildSourceVector", "aspects/thermal/GunnsThermalPanel.cpp: initialize, validate, updateState", "aspects/thermal/GunnsThermalMultiPanel.cpp: updateState", "aspects/thermal/GunnsThermoelectricEffect.cpp: initialize, validate, update", "aspects/thermal/GunnsThermoelectricDevice.cpp: step"]}
{"id": "C69", "title": "Heat between flows and walls", "statement": "Up to a Reynolds number of 2300 the Darcy friction factor is 64 over it and the Nusselt number 3.66, from 4000 on they are those of turbulent flow and in between a blend; every logarithm of the friction factor is of a positive number, and the factor is positive and bounded, for all roughnesses. For Prandtl numbers from 1/2 on the Nusselt number is positive and nothing is divided by zero. A wall takes the temperature of a flow towards its own, never past it, by the factor of the exponential law of transfer units (at most 100), and gains exactly the enthalpy that the flow loses; heat goes from hot to cold. In an exchanger of any number of segments the total is the sum of the segments' gains and the enthalpy lost, the temperature stays in the range of the inlet and the walls, reversed flow is forward flow over the segments in reversed order, segments of one wall temperature act as one with the sum of their transfer units, and an overridden temperature is that of the outlet. Degradation leaves a coefficient from zero to its default, that of a segment going before that of the exchanger; coefficients that depend on the flow are within their limit, the same in both directions and grow with the flow, and shares of segments sum to the whole. A gas that expands gets colder, at most to the isentropic temperature, a liquid does not; the tuned scale factor gives the wanted fall of temperature, or all that is possible, in either direction. Not so: Serghides' formula is miscoded, so that in a smooth pipe at a Reynolds number of 120000 the friction factor is more than 14 percent below Colebrook's; in a rough pipe the Nusselt number is divided by zero at a Prandtl number below 1/2 and is negative further below, so that no heat passes; in reversed flow an exchanger that exchanges nothing can show a change of temperature, as it is taken against the wrong node; tuning the temperature at equal pressures divides by zero.", "quantifier": "all Reynolds numbers, roughnesses, flows, areas and wall temperatures, all numbers of segments; real numbers, with the real exponential, logarithm and powers", "why_tests_cant": "The claims are inequalities over all real arguments of transcendental functions and over any number of segments; tests compare single values with the same formula, so they repeat the miscoded one.", "anchors": ["core/GunnsFluidUtils.cpp: computeFlowRegimeFactor, computeDarcyFrictionFactor, computeNusseltNumber, computeConvectiveHeatTransferCoefficient, computeConvectiveHeatFlux, computeIsentropicTemperature, predictExpansionScaleFactor", "aspects/fluid/conductor/GunnsFluidHeatExchanger.cpp: initialize, updateFluid, updateSegments, applyTemperatureOverride, computeHeatTransferCoefficient", "aspects/fluid/conductor/GunnsFluidHxDynHtc.cpp: update, initialize, computeHeatTransferCoefficient", "aspects/fluid/conductor/GunnsFluidPipe.cpp: updateFluid"]}
{"id": "C70", "title": "Gas diffuses through hatches from high to low", "statement": "GunnsFluidHatch for any number of compounds: what one node loses of a compound by diffusion, the other gains; every compound goes from the higher to the lower mole fraction, by Fick's law up to a fraction common to all compounds, with the coefficient of the kinetic theory of gases; as many moles go one way as the other, and none between equal mixtures. The order of the ports does not matter. Bulk flow holds back what diffuses against it: as many moles less pass as the bulk flow has, until none. Heat is conducted from hot to cold. Both happen exactly between nodes with volume (diffusion only with small differences of pressure and temperature), and an accepted hatch never throws. Not so: if the masses that diffuse both ways are equal, nothing diffuses however different the mixtures, as the flow is carried by its net mass; nothing limits the flow, so that for every content of a node there is a hatch that takes more in a step; the gas that leaves has the temperature of the node it goes to, so that a colder node that loses mass gets colder still; a negative length is accepted, and then gas can diffuse from low to high.", "quantifier": "all numbers of compounds, molecular weights, mixtures, states, lengths, areas and bulk flows; real numbers", "why_tests_cant": "The law and its conservation are over all mixtures and numbers of compounds; tests compare the net mass flows of sampled gases with tabulated values.", "anchors": ["core/GunnsFluidUtils.cpp: computeGasDiffusion, computeConductiveHeatFlux", "aspects/fluid/conductor/GunnsFluidHatch.cpp: validate, updateFluid, transportFluid", "core/GunnsFluidLink.cpp: transportFluid", "aspects/fluid/fluid/PolyFluid.cpp: updateMass"]}
{"id": "C71", "title": "A sorption bed takes from the stream what it holds", "statement": "GunnsFluidSorptionBed with any number of segments, sorbates and offgas compounds, for flow in either direction. The equilibrium loading is zero in vacuum, grows with the partial pressure at every temperature, and while its exponent is positive stays below Henry's law and the capacity. The loading is never negative, changes by its rate times the step, moves towards equilibrium without passing it if the rate constant times the step is at most one, and closes the gap geometrically. Other sorbates only lower the equilibrium, each by a factor from 0 to 1. What a segment gains of a compound, bulk and trace together, is what the stream loses of it, at most 99% of what came in; a compound given off gains the given moles per mole adsorbed; all other compounds pass unchanged; the flow that leaves is the sum of its compounds. Through the bed, what leaves and what the segments take of each bulk compound is what came in. Failures: where the exponent is negative (CO2 on the silica gels above 782 K) the sorbant is full at the least pressures; for water on silica gel the exponent is 0.1 whatever the temperature; a rate constant above one over the step overshoots; when dry gas passes, the least residue of water blocks all CO2; when two sorbates give off the same compound the second write undoes the first, and the flow is not the sum of its compounds; a rate below DBL_EPSILON is loaded but not taken from the stream; a porosity of 1 is accepted and divides by zero.", "quantifier": "all numbers of segments, sorbates, blocking and offgas compounds, all streams that carry their flow, all steps and pressures; ordered fields, and real numbers for the isotherm", "why_tests_cant": "Conservation is over any number of segments and any mixture, and the isotherm over all pressures and temperatures; tests compare sampled sorbates and streams.", "anchors": ["aspects/fluid/source/GunnsFluidSorptionBed.cpp: registerInteractions, updateLoadingEquil, updateLoading, getMoleFraction, updateLoadedMass, update, exchangeFluid, validate, updateSegments, computeAdsorbOutputs", "ms-utils/properties/SorbantProperties.cpp: SorbateProperties, SorbantProperties, computeLoadingEquil", "aspects/fluid/fluid/PolyFluid.cpp: updateMass", "aspects/fluid/fluid/GunnsFluidTraceCompounds.cpp: updateMoleFractions"]}
{"id": "C72", "title": "Laguerre's method finds roots", "statement": "LaguerreMethod for polynomials of any order with complex coefficients, in exact arithmetic: its loop evaluates the polynomial and its first two derivatives; a root that it returns, after 1 to 80 iterations, is exactly a root of a polynomial whose coefficients differ from those given by at most (j + 1) DBL_EPSILON of their own size; an estimate that is a root is returned as it is. From any estimate, linear polynomials, quadratics and powers of a linear polynomial of any order are solved in one step. If all roots are real and the estimate is real and not greater (not less) than any, the result is real and between the estimate and the least (greatest) root: no step, whole or fractional, passes it. A constant other than zero ends in the exception. As a failure: multiple roots are placed no better than the square root of the rounding, so that of (x - 1)^2 a number with an imaginary part of 2^-26 is returned, which callers that test the imaginary part against DBL_EPSILON take for complex.", "quantifier": "all orders of at least one, all complex coefficients and estimates", "why_tests_cant": "The claims are over all orders, coefficients and starting points; tests solve a few polynomials with known roots.", "anchors": ["ms-utils/math/root_finding/LaguerreMethod.cpp: solve"]}
{"id": "C73", "title": "Fans, centrifugal pumps and pressure heads", "statement": "A potential link passes its conductance times the sum of the pressure drop and its source pressure, and takes at one port what it gives at the other. A fan's curve at any speed and density is that of the reference by the affinity laws; the source pressure is never negative, is zero at rest and in vacuum, and is on the curve at a flow that is the crossing with the filtered system curve within the root finders' tolerances. The curve made from a pressure and a flow at best efficiency is positive up to there, negative from 1.48 on, and gives there 98.9 to 100 percent of the pressure; its power is positive and that of the affinity laws at best efficiency; torque times speed is the power. The check valve is fully open or closed, and closed passes nothing. Of a centrifugal pump the cavitated fraction is always from 0 to 1, under full cavitation of duration T it reaches 1 within 5 T and not before 0.9 T for steps of any lengths, and without cause goes back to 0 within 5 T. The head of a column is density times acceleration along it, the same in all rotated frames, turns its sign with the column or the acceleration, and adds up to nothing around a closed loop. Failures: the conductance takes no account of the source pressure, so a fan between equal pressures makes more flow than the conductor passes under its pressure; power can be negative on the curve beyond the best efficiency, so the fan drives its shaft; the check valve of a pump is set before cavitation, so a cavitated pump lets flow back through its open check valve; with noise, a reversed source is cut off at zero by the least cavitation malfunction.", "quantifier": "all fluids, speeds, curves of order 5, conductors, accelerations, columns and rotations; cavitation histories of any length and step; real numbers with real powers and square roots", "why_tests_cant": "The claims are over all real curves and speeds and over histories of any number of steps; tests compare single values with the same formula.", "anchors": ["core/GunnsFluidPotential.cpp: step, buildPotential", "core/GunnsFluidPotential.hh: computeFlux", "aspects/fluid/potential/GunnsGasFan.cpp: initialize, updateState, updateFluid, computeSourcePressure", "aspects/fluid/potential/GunnsGasFanCurve.cpp: improveRoot, evaluate", "aspects/fluid/potential/GunnsLiquidCentrifugalPump.cpp: updateState", "aspects/fluid/potential/GunnsPumpCavitation.cpp: update", "aspects/fluid/potential/GunnsFluidPressureHead.cpp: stepPreSolver"]}
{"id": "C74", "title": "Drive shafts, gas turbines and displacement pumps", "statement": "The load of a shaft is the sum of the torques of all its turbines and fans; its angular momentum changes by the impulse of load and friction, or it has stopped at DBL_EPSILON, its least speed; the kinetic energy by the work of the torques and a term of the second order in the step. Under a constant torque the speed comes geometrically to where the friction holds it, for steps of any lengths up to the time constant; without driving torque the shaft stops in a time known from the start; at rest it starts exactly if its load is above the friction at the minimum speed. A turbine with its map's speeds in order is on a blend of its two curves; its flow is not negative, grows with the pressure drop, never passes the corrected maximum of its map, is zero in vacuum and for no pressure drop, and is what its conductance passes; efficiency is from 0 to 1, power at most that of the gas, torque times speed the power. A displacement pump moves the volume it displaces from the node it sucks from, none backwards through an active check valve; its torque times speed is the power against the pressure and always brakes; the cavitated fraction is missing of a liquid. Failures: the jam malfunction takes load, not speed, so a fully jammed shaft without friction turns for ever and a braked one is braked less or driven; steps over twice the time constant swing for ever between rest and four times the speed; a shaft that has come to rest never starts again whatever gas drives its turbines, as these give no torque below FLT_EPSILON; map speeds in the wrong order are accepted and leave one curve; a negative first coefficient is accepted and opens the turbine to its maximum; the speed is corrected by the temperature, the flow by its root, so that similar states are at different places on the map; a pump that the pressure drives takes power as if it pumped against it; the flow of a pump is converted by the weight of the last step's fluid, so that after a reversal it is off by the ratio of the weights.", "quantifier": "all accepted configurations, fluids, speeds, torques and numbers of turbines and fans, histories of any number of steps of any lengths; real numbers", "why_tests_cant": "The claims are about histories of any length with any torques and about maps over all pressures and speeds; tests make finitely many steps with fixed values.", "anchors": ["aspects/fluid/conductor/GunnsDriveShaftSpotter.cpp: validateConfig, validateInput, stepPreSolver, stepPostSolver", "aspects/fluid/conductor/GunnsGasTurbine.cpp: validate, updateState, updateFluid, computeFlowRate, interpolate", "core/GunnsFluidSource.cpp: step, transportFlows", "aspects/fluid/source/GunnsGasDisplacementPump.cpp: updateState, updateFluid", "aspects/fluid/source/GunnsLiquidDisplacementPump.cpp: applyCavitation"]}
{"id": "C75", "title": "Lambert's W function is solved on both branches", "statement": "LambertW in exact arithmetic. On the principal branch, for all inputs from DBL_EPSILON to 1e300 and all tolerances, the result is positive and not above W; with the default tolerance it is within 2^-1023 of W. For all negative inputs down to 1e-12 from -1/e the result is between -1 and 0, not below W, and the passes converge to a residual of at most 2e-1024 over the whole range, although a comment says that they do not near -1/e. On the other branch the result is below -1 and not above W, and for inputs above -0.008 the residual is at most 200^-512. With a tolerance, either that holds or the residual is at most the square of the relative change in the last pass. Both throw exactly below -1/e and above their limit and never compute something that is not a number; near -1/e they return -1, which solves the equation within 1e-12, and near zero the principal branch returns the input. The fast function of the principal branch is within 1.02% near zero, 2% from 0.01 to 0.1 and 3% above 1e10, and both fast functions throw on the same inputs and fall back on the solvers outside their ranges. Failures: between 0.1 and 100 the documented 0.5% is exceeded, as at the input whose W is 2.5; the fast function is not monotone, as it drops where its pieces meet at 0.01.", "quantifier": "all real inputs and tolerances; any real solution of the defining equation", "why_tests_cant": "The convergence and the bounds are over all inputs of each branch; tests sample a few inputs and compare with tabulated values.", "anchors": ["ms-utils/math/elementary_functions/LambertW.cpp: solveW0, solveW1, checkMinRange, improve, fastSolveW0, fastSolveW1"]}
{"id": "C76", "title": "The photovoltaic cell solves its circuit", "statement": "GunnsElectPvCellEquivCircuit2 with an exact W: the current at a voltage and the voltage at a current solve Kirchhoff's law of the single-diode circuit, the solution is unique and falls as the other quantity grows, and the two functions are inverse to each other. With the code's fits the current is off by the fraction by which W is off, times W, the thermal voltage and the conductance of the series resistance; for operands up to a tenth that is 2%. Whenever parameters are returned they are positive, and the open-circuit point is on the curve that neglects the saturation current beside the photo current; with an exact W the maximum power point of the data is on it too, no point of it has more power, and the computed curve gives at most the share of the saturation current more; the computed current is between zero and the short-circuit current over the whole range, and within the saturation current of the data at the open-circuit and the maximum power voltage. At the reference temperature the current is in proportion to the light at every voltage, whatever W is; at another the voltage and current shift by their coefficients and the fill factor stays; a dark cell gives nothing. Failures: the shift of the current with temperature takes no account of the light, so that a cold cell in dim light is dead and a hot one in the least light keeps the shift; cells colder than a limit in proportion to their voltage (14 K for 0.6 V) throw at run time; with the fits the current is not monotone in the voltage.", "quantifier": "all cells, voltages, currents, light, temperatures and degradations; real numbers", "why_tests_cant": "The claims are about all points of the curve and all cells; tests compare a few points with values from the same formulas.", "anchors": ["aspects/electrical/SolarArray/GunnsElectPvString2.cpp: GunnsElectPvCellEquivCircuit2 initialize, computeEfficiency, update, derive, computeCurrent, computeVoltage", "aspects/electrical/SolarArray/GunnsElectPvString.cpp: GunnsElectPvCellEquivCircuit clear"]}
{"id": "C77", "title": "A string of solar cells works on its curve", "statement": "GunnsElectPvString: the active cells are those of the groups that are wholly exposed, never fewer than none, and less at least the groups of a malfunction. If the source gives more than the shunt takes and the cells more than the diodes, the maximum power point solves the string's circuit, and short circuit, maximum power point and open circuit are in order. Then the predicted current is that of the two lines through the three points, falls with the voltage and stays between none and the short circuit current; a string put at a voltage, a conductance or a power is at the point of these lines with that voltage, conductance or power (and on the side asked for), with the other quantities to match; and the maximum power point has the most power of the curve exactly if it has at least half of the short circuit current and of the open circuit voltage. In the second model the points of the string are those of its cells, and a load by power is the maximum or nothing. The light on a section is at most that of the source, by the power of the cosine or sine, reduced on the back. A malfunction of the flux starts with the flux of the source, goes along its ramp, holds, and comes back within its duration, then it is off. Not so: a dark string whose diodes take more than its cells give reports power at its maximum power point, a product of two negative numbers, with a negative open circuit voltage; the shade counts twice, in the flux and in the active cells, so that a string makes the square of its exposed fraction.", "quantifier": "all configurations that are accepted, all fluxes, exposures, temperatures, malfunctions, voltages, conductances and powers; ordered fields, real numbers where there are roots, sines and powers; malfunctions of any number of passes", "why_tests_cant": "That every load is a point of one curve, and which strings have their maximum where they say, are claims over all strings and loads; tests compare sampled loads.", "anchors": ["aspects/electrical/SolarArray/GunnsElectPvString.cpp: applyOverrides, rampPhotoFlux, update, updateBypassedGroups, updateMpp, loadAtPower, loadAtVoltage, loadAtConductance, predictCurrentAtVoltage", "aspects/electrical/SolarArray/GunnsElectPvString2.cpp: update, updateMpp, loadAtPower, predictCurrentAtVoltage", "aspects/electrical/SolarArray/GunnsElectPvSection.cpp: updateEnvironment"]}
{"id": "C78", "title": "A solar array gives the network its curve on the open circuit side", "statement": "GunnsElectPvArray with any number of strings: the short circuit current is the sum of the strings', the open circuit voltage their greatest, and the corner is at the maximum power voltage of a string of the greatest power, with the current of all strings there; equal strings make one string of as many times the current. The maximum power point is on the curve and no point of the short circuit side has more power, nor any point if the corner is at half of the open circuit voltage or more. On the open circuit side the network gets the line of the curve. A solution is confirmed exactly if the voltage is on the side it was solved for, else the side changes; with a load of conductance and source at most one side is rejected, so no step is rejected twice. The load predicted at a voltage, and the point that an array is put at by a power, are on the curve. Not so: on the short circuit side the network gets the line less the current of the corner, as the source is the admittance times the corner voltage and not the short circuit current; for this reason both sides are confirmed for a range of loads, and the output depends on the side of the last step; with the corner below half of the open circuit voltage the maximum power point is not one.", "quantifier": "all numbers of strings and all strings, all voltages, powers, conductances and sources; ordered fields, real numbers where there are roots", "why_tests_cant": "The tests expect the admittance times the corner voltage as the source, so they repeat the failure; whether every load has one confirmed side is a claim over all loads.", "anchors": ["aspects/electrical/SolarArray/GunnsElectPvArray.cpp: updateArray, buildAdmittanceMatrix, confirmSolutionAcceptable, computeFlows, predictLoadAtVoltage, loadAtPower", "aspects/electrical/SolarArray/GunnsElectPvArray.hh: buildSourceVector"]}
{"id": "C79", "title": "The converting regulator of a solar array settles and takes what it gives", "statement": "GunnsElectPvRegConv. Whatever the potentials, the sensors and the counts of converged steps, after a step the regulator rejects at most seven solutions of the major step and one more for each trip that can still trip, so at most twelve. A converged solution that it accepts was computed for the state that it is in: when regulating, the output is not above the regulated voltage and the array, raised by the limit of the ratio, is; when sagging the array is beyond the corner of its curve, when limiting the current it is not, unless the one step up has been used; when off there is no flux and no power, for a known reason. With an array in order nothing is divided by zero. The output curve is the array's with voltage and current scaled by the limit of the ratio and the current at the corner reduced by the efficiency; a sagging regulator loads the array exactly at its voltage over the limit, on the array's curve; the waste heat is the lost part of the input. Failure: the current at a short circuit is not reduced by the efficiency, so a limiting regulator below an efficiency of one can ask for more than the maximum of the array, is accepted, puts out power, and the array gives none.", "quantifier": "all arrays, regulators, trips, sensors, potentials, and sequences of solutions of any length; real numbers", "why_tests_cant": "The bound is over sequences of any length of any potentials; tests call the function with chosen ones.", "anchors": ["aspects/electrical/SolarArray/GunnsElectPvRegConv.cpp: validate, step, minorStep, updateMaxOutputs, updateRegulatorState, confirmSolutionAcceptable, computeFlows", "aspects/electrical/SolarArray/GunnsElectPvRegConv.hh: updateRegulatedVoltage, buildAdmittanceMatrix, buildSourceVector", "aspects/electrical/SolarArray/GunnsElectPvRegTrips.cpp: resetTrips"]}
{"id": "C80", "title": "The shunting solar regulator loads a least prefix of its strings and settles in every step", "statement": "A load order that the shunting regulator accepts names every string of the array exactly once, as does the one that it makes itself. Whatever was loaded or shunted before in the step, asking the array for a power puts the strings of a first part of the order at the regulated voltage and shunts the rest; the first part is the least one whose power meets the demand, all strings if none does, and none for a negative demand, and the sums of power, conductance and shunted power are those of the parts. A step starts regulating exactly when the regulator is powered, enabled, not tripped, and the array has the minimum power. Within a step it rejects at most four solutions. A converged solution that it accepts was computed for the state it is in: when regulating the output is not above the regulated voltage and the power taken is within the strings' power or the array's predicted power; when off there is no flux and all strings are shunted. For equal strings the prediction is the strings' sum, so the power taken is within the input power. It fails in three places: for unequal strings the prediction can be above the sum, so that more is taken than the strings have (witness: 700 W from 651 W); back voltage in a converged solution is only delayed instead of rejected, and then returns to regulating; and a regulator without power keeps the old waste heat of its shunts.", "quantifier": "all numbers of sections and strings, all load orders, all string curves, all voltages, conductances, demands and trips, all sequences of solutions of the network", "why_tests_cant": "Unit tests check fixed demands on a fixed array. They cannot show the least prefix for every order and history of loading, nor a bound on rejections for every sequence of solutions.", "anchors": ["aspects/electrical/SolarArray/GunnsElectPvRegShunt.cpp:270-291", "aspects/electrical/SolarArray/GunnsElectPvRegShunt.cpp:345-397", "aspects/electrical/SolarArray/GunnsElectPvRegShunt.cpp:424-531", "aspects/electrical/SolarArray/GunnsElectPvRegShunt.cpp:541-732", "aspects/electrical/SolarArray/GunnsElectPvRegShunt.hh:397-450"]}
{"id": "C81", "title": "The internal power supply draws its load from the best usable source and switches boundedly often", "statement": "With back-up power, a usable primary source above the threshold is selected, the best up to the tolerance; failing that, one above the under-voltage limit, or the back-up source if it has more by the tolerance; failing that, the back-up source if it is within its range. Without back-up power the selected source is at or above the limit and the best up to the tolerance, the active one is kept while no other has more by the tolerance, and none is selected only when no usable one qualifies. Malfunctioning sources and a supply that is commanded off are never selected. A step puts the conductance on the active input that draws the whole load at the present voltage, and the small one on all others, up to the tolerance, and the admittance matrix stays diagonal. A converged solution is accepted exactly when the source is unchanged and no input is negative; the load is then drawn from it alone. Within a major step no more solutions with non-negative inputs are rejected than switches are allowed. It fails in two places: the total current and power are those of the first input only, because the sum goes along the first row of the matrix; and once the switches are used up (by default there are none) malfunctions and the command to turn off have no effect.", "quantifier": "all numbers of sources, all voltages, tolerances, limits, malfunctions and commands, all sequences of solutions of the network", "why_tests_cant": "Unit tests use fixed voltages. They cannot show optimality up to the tolerance for all voltages, nor the bound on rejections for all sequences.", "anchors": ["aspects/electrical/IPS/GunnsElectIps.cpp:312-484", "aspects/electrical/IPS/GunnsElectIps.cpp:489-588", "aspects/electrical/IPS/GunnsElectIps.cpp:609-664", "aspects/electrical/IPS/GunnsElectIps.hh:387-416"]}
{"id": "C82", "title": "An adsorber stores what it takes from the stream, within its capacity", "statement": "GunnsFluidAdsorber and GunnsFluidHotAdsorber. After any number of passes with any flows, steps, temperatures and malfunctions the adsorbed mass is not negative and at most the capacity, or the mass at the start if that was more. What is added to the bed is taken from the node at the exit, but for rates of at most 100 DBL_EPSILON, so over a run the books agree up to that rate times the time. An adsorbing pass with room stores the least of the efficiency of what comes in, the rate limit and the room, so never more than comes in; a desorbing pass gives off the lesser of what is there and the desorption rate times the efficiency. A hot adsorber desorbs exactly when its efficiency, from -1 to 1 and linear in the temperature, is negative. When the node is given a flow the source of that port is the molar rate. Of a trace compound with forward flow the bed stores the part of the stream that leaves less, and its free capacity shrinks geometrically. Failures: when nothing is sorbed the source vector of the last sorption stays, so that the solution goes on taking the molar flow of a bed that is full, for ever; with reverse flow the trace compounds in a clean bed become negative and the stream passes unchanged; any efficiency from 0 to 1 as malfunction stops desorption, and one above 1 takes more than comes in.", "quantifier": "all adsorbers, flows, steps, temperatures, efficiencies, malfunctions and trace compounds; runs of any number of passes; ordered fields", "why_tests_cant": "Capacity and books are over runs of any length with any inputs; the tests compare a few passes with the same formulas, and those of the two classes never look at the source vector.", "anchors": ["aspects/fluid/source/GunnsFluidAdsorber.cpp: validate, updateFluid, adsorb, desorb, computeEfficiency", "aspects/fluid/source/GunnsFluidHotAdsorber.cpp: computeEfficiency", "aspects/fluid/fluid/GunnsFluidTraceCompounds.cpp: updateMasses, updateMoleFractions", "aspects/fluid/fluid/PolyFluid.cpp: updateMass"]}
{"id": "C83", "title": "An adsorber of several compounds keeps its books for fluids and loses its trace compounds", "statement": "GunnsFluidMultiAdsorber and GunnsFluidAdsorptionCompound with any number of compounds. After any number of passes with any streams and malfunctions every compound is between none and its capacity and its filled fraction is that part; each pass changes it by its rate times the step, up to less than DBL_EPSILON. At or above its desorption pressure a compound adsorbs at most its efficiency of what passes and never desorbs; below it desorbs at most in proportion to the missing pressure and never adsorbs; with a negative efficiency above that pressure it does neither; without scaling these limits are the rates. The taper-off does not grow with the filled fraction and ends at full. When the rates of the fluids add up to more than 100 DBL_EPSILON the node at the exit is given each compound's rate and the source of the port is the molar sum, else both sources are zero; the wall gets the heat of all compounds. Failures: trace compounds adsorb from a mass in the internal fluid that is never refreshed from the stream, so over any number of passes the bed gains at most the step times the mass that was there at the start, and what leaves does not depend on what comes in; without a net rate of fluids, trace compounds are stored while the stream keeps them, and fluids of which one adsorbs what another desorbs are exchanged in the bed but not in the stream; without flow a trace compound looks up a fluid by its own index, which throws beyond the number of fluids; an empty compound that adsorbs less than DBL_EPSILON kg per pass stays empty.", "quantifier": "all numbers of compounds, all streams, steps, efficiencies, dependences and malfunctions; runs of any number of passes; real numbers", "why_tests_cant": "The capacity and the loss of trace compounds are over runs of any length; the tests check the trace masses after the first pass only, when the internal fluid still has the masses of the node that it was made from.", "anchors": ["aspects/fluid/source/GunnsFluidAdsorptionCompound.cpp: initialize, sorb", "aspects/fluid/source/GunnsFluidAdsorptionCompound.hh: updateFillFraction", "aspects/fluid/source/GunnsFluidMultiAdsorber.cpp: validate, updateFluid", "core/GunnsFluidConductor.cpp: transportFlows", "aspects/fluid/fluid/PolyFluid.cpp: setState, updateMass, getMassFraction", "aspects/fluid/fluid/GunnsFluidTraceCompounds.cpp: updateMoleFractions"]}
{"id": "C84", "title": "A selective membrane passes one compound from more to less and keeps the books", "statement": "GunnsFluidSelectiveMembrane. With more of the compound (by partial pressure) at both ends of the stream than in the vent it leaves the stream in proportion to the excess upstream, up to 99 % of what the stream brings; with less at both ends it enters in proportion to what the downstream end lacks; with more at one end and less at the other there is no flow; a degraded membrane passes its share of this. So with an upstream pressure other than the vent's the compound never flows from less to more. The source vector sums to zero, gives the vent the molar rate, takes what leaves the stream from the upstream port and gives what enters to the downstream port. Transport makes and loses neither mass nor compound, and the vent gets exactly the membrane's rate of the compound, unless it is within 100 DBL_EPSILON of zero; if the stream does not turn in between, the masses of the transport are those of the source vector, port by port. A compound that changes its phase on its way out of the stream gives off or takes the heat of vaporization, at the upstream temperature. Failures: into the stream that heat has the wrong sign, always; with equal partial pressure upstream and in the vent the downstream excess drives a flow that is taken from the upstream node without regard to what the stream brings, so a stream without any of the compound is made to lose it; if the stream turns between the step and the transport the moles leave one node and the mass another.", "quantifier": "all membranes, compounds, pressures, mole and mass fractions, temperatures, flows and malfunctions; ordered fields", "why_tests_cant": "The law, the balance and the sign of the heat are claims over all pressures and compositions; tests compare chosen cases.", "anchors": ["aspects/fluid/source/GunnsFluidSelectiveMembrane.cpp: validate, step, computeFlux, transportFlows", "aspects/fluid/source/GunnsFluidSelectiveMembrane.hh: computePortPartialP", "core/GunnsFluidLink.cpp: determineSourcePort, transportFluid"]}
{"id": "C85", "title": "A flow controller settles at the commanded flow", "statement": "GunnsBasicFlowController: at the potentials of its step it passes the command, or what it passes fully open if that is less, towards the lower potential, and backwards only with reverse control; a blocked one the rest of it. Behind a source of any potential and conductance, pass after pass, the flow goes to the command with an error that shrinks by at least the command over the short circuit flow of the source in each pass, if the source gives more than the command and the controller is big enough; asked for more than it passes fully open it is fully open after a number of passes that is given, and stays so. GunnsFluidFlowController: in steady conditions the distance to the conductivity of the command, at most the greatest, shrinks by one less the gain in each pass, and with that conductivity the conductance times pressure drop and mean weight is the command. Failures: with the default gain of zero it never moves, so it stays fully open, and after a restart shut, whatever the command; back-flow, that the code says is blocked without reverse control, only fades by one less the gain per pass, and flows until the conductivity is below DBL_EPSILON.", "quantifier": "all controllers, commands, malfunctions, potentials and fluids; all sources; any number of passes; ordered fields, real numbers for the fluid controller", "why_tests_cant": "The convergence is over runs of any length behind any source; tests make a fixed number of steps with fixed values.", "anchors": ["core/GunnsBasicFlowController.cpp: updateState", "core/GunnsBasicConductor.cpp: step, computeFlux", "core/GunnsFluidFlowController.cpp: initialize, restartModel, updateState", "core/GunnsFluidUtils.cpp: predictConductivity, computeAdmittance"]}
{"id": "C86", "title": "A metabolic link exchanges what the crew makes; two of the three get the amounts wrong", "statement": "GunnsFluidMetabolic, GunnsFluidMetabolic2 and GunnsFluidMetabolic3 with any states, rates, crews and bulk constituents. Under any requests to move crew members the numbers stay non-negative, a request moves what is asked for or all that are in the state they leave, a negative number is rejected, and requests between states keep the crew's number. When the crew adds mass to the cabin, the third link gives the cabin exactly the crew's carbon dioxide, water and other bulk constituents, takes the oxygen it needs or all there is in the step, nothing else, all less the blockage, and gives the heat; it never takes more oxygen than there is, in any pass, whatever it held before. Failures: the first two links give these amounts times the molecular weight of the cabin's fluid over that of the products of the pass before, which stays that of what the crew makes, so that in a steady cabin every amount is wrong by that ratio and oxygen is taken that is not there; the first limits the oxygen state by state, so that it asks for up to as many times what there is as there are states, and exactly that when every state could use it all; when the products do not outweigh the oxygen the second and third exchange nothing and give no heat, and the first moves the mixture left from an earlier pass and gives no heat.", "quantifier": "all crews, states, rates, cabins, constituents, blockages and steps; any sequence of requests; ordered fields", "why_tests_cant": "The amounts and the oxygen limit are claims over all crews and cabins and over the pass before; the test of the second link's exchange makes one pass, in which the internal fluid is still the copy of the cabin's and the ratio is one.", "anchors": ["aspects/fluid/source/GunnsFluidMetabolic.cpp: derive, updateState, updateFluid, transition", "aspects/fluid/source/GunnsFluidMetabolic2.cpp: updateState, updateFluid, transition", "aspects/fluid/source/GunnsFluidMetabolic3.cpp: step, transportFlows, updateFluid, transition", "core/GunnsFluidSource.cpp: step, transportFlows", "core/GunnsFluidLink.cpp: transportFluid, determineSourcePort", "aspects/fluid/fluid/PolyFluid.cpp: setMass, updateMass, resetState"]}
{"id": "C87", "title": "A hydrogen cell turns what its current asks for by the reaction's proportions", "statement": "GunnsFluidSimpleH2Redox as fuel cell and as electrolyser with any valid configuration, currents and blockage. In every pass two moles of hydrogen go with one of oxygen and two of water of opposite sign, the molar source of the hydrogen port is zero and that of the oxygen port the oxygen's; the mass put into the nodes is the water's moles times what the molecular weights leave over. Without a trip a fuel cell takes the ideal hydrogen over the efficiency and an electrolyser makes the ideal hydrogen times the efficiency, the efficiency being between DBL_EPSILON and one. The trip is set exactly when some pass lacked its reactants and stays; tripped, there are no flows, no voltage and no heat. Failures: the molecular weights of the code make 20 milligrams of mass for each kilomole of water; a fully blocked fuel cell takes 2^52 times the ideal hydrogen; for any amount of hydrogen there is a current that takes more than there is, though the comment says the check prevents it; one pass without current in dry hydrogen trips a fuel cell for good.", "quantifier": "all configurations, currents, blockages, pressures and sequences of passes; ordered fields", "why_tests_cant": "The proportions, the latch and the failures are claims over all currents and runs of any length; tests compare chosen cases.", "anchors": ["aspects/fluid/source/GunnsFluidSimpleH2Redox.cpp: validate, step, buildSource, transportFlows", "ms-utils/properties/FluidProperties.cpp:113-121"]}
{"id": "C88", "title": "A balloon keeps within its limits, and its corrected pressure is that of an ideal gas", "statement": "GunnsFluidBalloon with any valid configuration. Over any sequence of passes, volume edits and pressure edits, with any pressures and malfunctions, the volume is between the least and the greatest and the inflation between 0 and 1. After a pass with a free wall the volume is the inflatability times the pressure difference, limited, grows with the pressure, and the inflation is its part of the range; a stuck wall keeps both through any number of passes. The state is deflated or inflated exactly at the limits and in between follows the change of the volume. The pressure of a volume edit holds the edited volume, and a pressure edit within the limits comes back to its pressure. For a partly inflated free balloon with positive pressure, volume and contents the corrected pressure and the volume that goes with it are the positive ones whose product is the contents. Failures: the correction is the same whatever the node's is, as long as that is not zero, so the node's damping is lost; a pressure edit to zero gives the node the least volume while the tank keeps its present pressure; a volume edit of a stuck balloon is undone in the same pass; at the least volume the capacitance of the wall is still counted.", "quantifier": "all configurations, pressures, malfunctions and sequences of passes and edits, ordered fields; real numbers for the correction", "why_tests_cant": "The limits are an invariant over sequences of any length and the correction a claim over all real states; tests compare chosen cases.", "anchors": ["aspects/fluid/capacitor/GunnsFluidBalloon.cpp: validate, step, updateInflatability, updateInflation, processVolumeEdit, computePressureCorrection", "aspects/fluid/capacitor/GunnsFluidTank.cpp: updateFluid"]}
{"id": "C89", "title": "A sublimator keeps its ice within limits but not its water", "statement": "GunnsFluidSublimator with any valid configuration. Over passes of any number, heat, pressures, humidity, bias and blockage the ice is between none and the maximum and the thermal conductivity between none and its maximum. With ice and an unsaturated vent the heat of the vapour is the heat taken from the thermal network; without ice, with a saturated vent or without heat there is no vapour. The bias cannot make the feed flow back: the conductance is at least the least one and what is taken is never negative. Breakthrough is told exactly when feed meets a plate that is not covered with the vent saturated or at the saturation pressure. Without feed the ice falls by what sublimates. Failures: a covered plate takes the feed the comment speaks of only against vacuum, else it is short by the ratio of vent to feed pressure; ice grows by more than all the water that is fed; for any ice and no feed there is a heat that vents more in a step than there is ice; a plate at the saturation pressure uses the heat twice; the document assumes a positive heat balance, which neither sublimates nor melts.", "quantifier": "all valid configurations, heats, pressures, humidities, malfunctions and sequences of passes; ordered fields, any function for the square root", "why_tests_cant": "The limits are an invariant over sequences of any length, and the books of water and heat are claims over all states; tests compare chosen cases.", "anchors": ["aspects/fluid/source/GunnsFluidSublimator.cpp: validate, derive, step, computeFlows, transportFlows"]}
{"id": "C90", "title": "A fire exchanges what is configured while it is fed, and stays out once it is out", "statement": "GunnsFluidFireSource. While there is enough oxygen in a pass, a burning fire takes exactly the configured oxygen and gives the configured carbon dioxide and water per joule, less the blockage, nothing of other constituents, at the cabin's temperature, and burns on; this holds for net flows of either sign above the transport limit. In a second fed pass the network is given the moles that come with those masses. A pass without a fire or with too little oxygen gives no mass, no trace compounds and no heat, and over any number of later passes the fire stays out and gives nothing. Failures: a blockage reduces neither the heat nor the trace compounds; when the oxygen runs out the network is given moles of the pass before for one pass without any mass; a fire whose mass and moles have opposite signs gives the network no moles; the check of the configuration adds the oxygen where the flow subtracts it, so it accepts a fire of no net flow, which heats the cabin and exchanges nothing.", "quantifier": "all configurations, heats, blockages, partial pressures, fluids with any number of constituents and trace compounds, and sequences of passes; ordered fields", "why_tests_cant": "Staying out is a claim over sequences of passes of any length, and the exchange one over all configurations; tests compare chosen cases.", "anchors": ["aspects/fluid/source/GunnsFluidFireSource.cpp: validate, step, calculateFlowRate, updateFluid, setBulkMasses, setTCMasses, zeroGenValues, transportFlows, transportFluid", "aspects/fluid/source/GunnsFluidFireSource.hh: buildSource, computePower"]}
{"id": "C91", "title": "A pool evaporates no more than it has, and two linked networks lose nothing", "statement": "GunnsFluidEvaporation at a liquid node with a pool, for any configuration with a coefficient that is not negative. The rate is the potential drop (none if negative) times coefficient and power of the pool's mass, less the blockage, limited to the pool over the step; it is never negative, and none into a saturated gas, from a pool of next to nothing or through a full blockage; it does not fall with the drop. The network is given equal and opposite moles. Over any passes the pool does not fall below zero. With two links in two networks that send each other potential and rate, over any passes, steps, blockages, liquids and gases, what came to the gas and what is on its way is what left the liquid, if the liquid has the molecular weight of the gas. Failure: for another molecular weight (a solution) the liquid loses the mass times the ratio of the weights, so the masses differ.", "quantifier": "all configurations, pools, potentials, blockages, steps and sequences of passes; ordered fields, any non-negative function for the power", "why_tests_cant": "The pool and the balance of two networks are invariants over sequences of any length; tests compare chosen cases.", "anchors": ["aspects/fluid/source/GunnsFluidEvaporation.cpp: validate, step, updateVaporPotential, updateVaporRate, updatePower, transportFlows"]}
{"id": "C92", "title": "The spring accumulator keeps its bellows between the stops and its mass balanced", "statement": "Over any commands and passes the bellows of the accumulator stays between its stops, its position agrees with the volumes of liquid and pressurizer, whose sum stays the same, scale and conductivity stay within their limits, and so do temperature and pressure; the pressure after every pass is that of the spring at the bellows' position with head and gas. In passes without malfunction, edit, hold or override the mass changes by what is taken from the node, and the heat by what the flow brings, the flow takes and the housing gives. An empty bellows that is not being filled, a full one that is not being drained and a stuck one let nothing through. With a linear spring and a liquid of one density a pass brings the pressure towards the node's and not beyond. An edit approaches the limited target at the limited rate and ends when the target is reached and the time has run. The code fails in these cases: a mass that would be overdrawn is set to DBL_EPSILON while the node is given the flow; whether an empty bellows is being filled is judged on the pressure before the solution, so it can drain; a spring that grows stiffer is overshot; in the first pass of a stuck bellows and in every pass of a held one the network gets a flow that does not change the mass; and the rate of the one-way ramp is limited in place, so that a longer step lowers it, and one of zero takes it away, for good.", "quantifier": "all valid configurations, liquids, node pressures, commands and sequences of passes; ordered fields", "why_tests_cant": "The limits and the balance are invariants over sequences of any length, and the absence of overshoot is over all springs and steps; tests compare chosen cases.", "anchors": ["aspects/fluid/capacitor/GunnsFluidAccum.cpp: validate, step, computeFlows, updateFluid, updateLiqChamber, editLiqChamber, failLiqChamber, updateCapacitance, updateEffConductivityScale, updatePressure"]}
{"id": "C93", "title": "A user load draws the power its mode, override and fuse allow, and its bus takes that current from the node", "statement": "A resistive or constant power load draws nothing at or below its under-voltage limit, otherwise the current or power of an override, that of its mode, or nothing when off; its current, power and equivalent resistance satisfy Ohm's law at its voltage, and a negative override is refused with an exception. A fuse check blows the fuse exactly if the current at the given voltage is above the limit; a blown fuse stays blown until it is reset, and the load behind it draws nothing. With steps of one length a duty cycle lasts the first number of steps that is longer than the period. The bus takes from its node the sum of its loads' currents, up to twice DBL_EPSILON of conductance, the conductance of idle resistive loads and a small one of its own; its admittance stays within limits, and the network is told of every change. The code fails in these cases: magic power feeds a load behind a blown fuse; a duty cycle of no fraction leaves the load on in one step of each cycle; one check of a load switch blows at most one fuse; the bus checks no fuse at all and keeps the conductance of constant power loads when its voltage is gone; an override current below a hundred-millionth of the voltage is reported by the load and not taken from the bus; and an under-voltage limit below zero is accepted, with which a load without voltage divides by zero.", "quantifier": "all loads, modes, overrides, malfunctions, voltages, numbers of loads, sequences of events and passes; ordered fields", "why_tests_cant": "Latching and the bus's limits are invariants over sequences of any length, and the sum is over any number of loads; tests compare chosen cases.", "anchors": ["aspects/electrical/UserLoad/UserLoadBase.cpp: step, updateFuse", "aspects/electrical/UserLoad/ResistiveLoad.cpp: step, calculateResistiveLoad, computeActualPower", "aspects/electrical/UserLoad/ConstantPowerLoad.cpp: step, calculateConstantPowerLoad, computeActualPower", "aspects/electrical/UserLoad/GunnsElectUserLoad.cpp: stepDutyCycle", "aspects/electrical/PowerBus/PowerBusElect.cpp: step, checkResLoadConductance, checkCPLoadConductance, computeFlows", "aspects/electrical/Switch/GunnsElectUserLoadSwitch.cpp: confirmSolutionAcceptable"]}
{"id": "C94", "title": "The first switch utility trips in order, holds a trip and rejects what it trips on", "statement": "GunnsElectSwitchUtil and its link SwitchElect. A switch without power is open, with its command and trips cleared. A powered switch is closed when failed closed, else open when failed open, else as it is while tripped or waiting, else as commanded; its trips are cleared by a reset and by a command to open, and a tripped switch commanded open and closed again is closed on the second pass. A closed, protected switch over a limit opens at the converged step of its priority and not before, delaying the solution until then and rejecting the one it trips on; of two switches in a row with the same excessive current the one of the lower number opens first. A solution confirmed by a switch that was not tripped has the switch where it is left and the current within the limits. A tripped switch stays open through any passes and any currents until it is commanded open, reset, failed closed or without power. The heat is the square of the current times the resistance. Failures in the code: a resistance malfunction over 100 percent is divided by a hundred again on the next pass; the malfunction that ignores current trips removes the protection for good; a tripped switch that was failed closed stays closed after the failure is taken back; an external trip opens the switch with the solution confirmed; with a failed limit beyond zero an open switch trips on no current.", "quantifier": "all switches, currents, voltages, priorities, steps and sequences of updates, flows, commands and malfunctions", "why_tests_cant": "Tests run chosen sequences of commands and currents; that a trip holds through every sequence, that the order follows the priorities for every number of steps, and that no confirmed solution exceeds a limit are claims over all of them.", "anchors": ["aspects/electrical/Switch/GunnsElectSwitchUtil.cpp:380-584", "aspects/electrical/Switch/GunnsElectSwitchUtil.hh:300-338", "aspects/electrical/Switch/SwitchElect.cpp:153-200"]}
{"id": "C95", "title": "Load switch: switch, loads and short are a series circuit", "statement": "Behind a closed GunnsElectUserLoadSwitch without override the effective conductance is that of the switch in series with the sum of its loads and its short; at the flux of a solution the next pass gives the loads exactly the voltage behind the switch, at which they carry that flux, and the power splits into the loads' and the switch's heat. An open switch has no conductance and gives its loads no voltage; one without loads has the switch's conductance, and next to none if grounded. The matrix is that of the limited conductance and a change is told. A short of constant power, current or resistance takes exactly that, an initial power or current is turned into a conductance once and kept at all later voltages, and no short has a negative conductance. While overridden the loads have the override voltage and port 1 is tied to it through 1e8. After the first converged step no unblown fuse of a solution that is not rejected is over its limit at the node's voltage. Failures shown: a blockage leaves the loads the unblocked voltage; fuses are checked at the node's and not the loads' voltage, so they blow early and not at all under override; when an override ends the switch stays commanded open and 1e8 to ground stays in the matrix, untold, until the switch closes; a negative initial power acts as a constant one; a short without loads takes nothing.", "quantifier": "Every link, list of loads, short, voltages and sequence of voltages, over any ordered field.", "why_tests_cant": "Tests compare chosen cases; the circuit laws hold for all loads and voltages, and what remains after an override shows only over several passes.", "anchors": ["aspects/electrical/Switch/GunnsElectUserLoadSwitch.cpp:209-441", "aspects/electrical/resistive/GunnsShortUtil.cpp:151-197", "core/GunnsBasicConductor.cpp:196-259"]}
{"id": "C96", "title": "Selector: one conductance between port 0 and the selected port", "statement": "After any selections, conductance and blockage changes, restarts, flows and steps the next step of a GunnsElectSelector leaves exactly the matrix of one conductance between port 0 and the connected port, symmetric with zero row sums, and no conductance when none is connected; nothing of an earlier port remains. The connected port is the selected one if in range and otherwise none. The conductance is the default less the blockage within the limits. The flux runs down the potential and takes power out. A step that changes the matrix tells the network unless it leaves none after a change of port. Failure shown: when a port is dropped, its conductance is cleared from the matrix and the network is not told.", "quantifier": "Every number of ports, every sequence of events, conductance, blockage and potentials, over any ordered field.", "why_tests_cant": "Tests try a few selections of one link; nothing left of earlier ports is a statement about all sequences and sizes.", "anchors": ["aspects/electrical/Switch/GunnsElectSelector.cpp:207-358", "core/GunnsBasicLink.cpp:459-464"]}
{"id": "C97", "title": "External demand and supply: estimate of the other network, and what is exchanged", "statement": "An external demand never has less than its least conductivity unless the supply gives its capacitance, which then over the time step is the conductivity. When the supply is a capacitance drawn from by every flux of the demand, the error of the averages halves with every pass, and once it is gone the estimate closes in on that capacitance by the factor 1 - gain at every pass in which the pressure moves enough; the link's conductivity is then that capacitance over the time step. From a fresh start with pressure and outflow the estimate is negative and the link begins with its least conductivity. The fluid demand agrees with the basic one where nothing is all but zero. A basic supply whose queues cover its passes gives exactly what all fluxes of the demand took, for any sequence of queues; without a queue it holds the last flux. A fluid supply has no flow or a mass flow that is the molar flow times the molecular weight of the fluid that flows, moles before mass, and meets every demand of a size that counts. The ground is on port 1 of a supply and port 0 of a demand only. Failures shown: queues that do not cover the passes change the total; a pass of no time takes the share gain from the estimate.", "quantifier": "Every filter state, flux and pressure sequence, number of passes, list of queues and molecular weights, over any ordered field.", "why_tests_cant": "Tests run a pass or two; convergence of the estimate and conservation between simulations of different rates are statements about all numbers of passes.", "anchors": ["core/GunnsBasicExternalDemand.cpp:217-273", "core/GunnsFluidExternalDemand.cpp:404-442", "core/GunnsBasicExternalSupply.cpp:184-218", "core/GunnsFluidExternalSupply.cpp:300-369", "ms-utils/software/SimBus/SimBusQutils.cpp:49-78"]}
{"id": "C98", "title": "Island analyzers and flow integrator: exact sums and extremes", "statement": "On a node of the network with an island the basic analyzer reports exactly the nodes of the island, their number, the sum of their net fluxes, and the highest and lowest potential with the last node that has it; the fluid analyzer does the same for pressure, temperature and the mole fraction of every constituent, and sums volume, mass, energy and the masses of the constituents, which add up to the mass when the fractions of each node add up to one. Off the network or without an island the report is empty. Over any passes the flow integrator holds for each constituent the sum of flow rate times time times the fraction at the node the flow comes from, so all constituents together hold the integral of the flow rate, and what flows forth and back with one composition leaves no trace. Failure shown: of potentials beyond 1e15 the lowest is missed and no node is named.", "quantifier": "Every island, number of nodes and constituents, readings and sequence of passes, over any ordered field.", "why_tests_cant": "Tests use one small network; which node is named among equals and the sums are statements about all islands.", "anchors": ["core/GunnsBasicIslandAnalyzer.cpp:178-243", "core/GunnsFluidIslandAnalyzer.cpp:224-382", "core/GunnsFluidFlowIntegrator.cpp:178-221"]}
{"id": "C99", "title": "Balanced pressure reducing valve: droop, latch and mass ledger", "statement": "The regulated pressure is the setpoint above the reference with its bias, never more than the inlet has. An open valve's exit droops below it by exactly the configured droop times the mass flow; nothing flows backward, nor out of a valve that is cut off or above its regulated pressure. The back-pressure latch goes up when the exit has more than the inlet and stays up over all passes until the exit is below the setpoint and not above the inlet. Over any passes the buffer is not negative and is what has left at the exit less what has entered at the inlet, but for less than DBL_EPSILON a pass, while no inlet pressure is found above five times what it was. At steady pressure the inlet pays a fifth of the buffer per pass, so at a steady exit flow the buffer tends to five passes of it and the inlet flow to the exit flow by four fifths a pass. The nodes lose and gain these flows but for ones of no size. A changed matrix is told and only that. Failure shown: the latch is released against the setpoint without the reference, so a valve with a reference stays shut far below its regulated pressure.", "quantifier": "Every valve state, number of passes, pressures, time steps and molecular weights, over any ordered field.", "why_tests_cant": "Tests step a nominal valve; the ledger, the convergence of the inlet and the latch are statements about all sequences of passes.", "anchors": ["aspects/fluid/conductor/GunnsFluidBalancedPrv.cpp:220-364"]}
{"id": "C100", "title": "Simple rocket: nozzle search, burning and thrust", "statement": "The area ratio of a nozzle as the code computes it grows strictly with the Mach number from one on, where it is one. For a nozzle whose exit Mach number is between 5/4 and 20 the search ends within two ten-thousandths of it, for every adiabatic index above one; below 5/4 it is lost, and of a ratio of 51/50 at the index 7/5 it ends with a Mach number below a thousandth. Nothing burns without a flow; a rocket that needs ignition lights only with it, and once lit burns through every number of passes with a flow and a hot mixture; the count is that of the passes burned without a break. The conductance is within its limits, none against the flow, and past the first burning pass it lets the nozzle's mass flow through at the pressures it was found at. Thrust is the tuned product of mass flow and exit velocity while burning, and otherwise none.", "quantifier": "Every adiabatic index above one and Mach number (reals); every sequence of passes, flow rate and pressure, over any ordered field.", "why_tests_cant": "Tests compare chosen nozzles; that the search converges, and where it does not, is a statement about all area ratios and gases.", "anchors": ["aspects/fluid/conductor/GunnsFluidSimpleRocket.cpp:380-436", "aspects/fluid/conductor/GunnsFluidSimpleRocket.cpp:552-614", "aspects/fluid/conductor/GunnsFluidSimpleRocket.cpp:662-685"]}
{"id": "C101", "title": "Multi-separator: every constituent accounted for, on ports in order", "statement": "Of every constituent the node downstream is given what was taken upstream less what is removed into the buffers; each separated fluid loses its fraction and the others nothing. With a port for each fluid the sources give each port what the last pass removed, take exactly this from the port downstream, and sum to nothing. When the fluids' ports are in order and there are no others, the nodes of the exits have been given, over every number of passes, all that was removed but what is in the buffer. Trace compounds are conserved for every assignment of ports. The transport does not look at the assigned ports: fluid k goes to port k + 2, so fluids with each other's port are accepted and given to the other node than the network is told; of two fluids on one port the sources lose the first; and a link with more ports than fluids, such as one for trace compounds only, reads beyond its fluids.", "quantifier": "Every number of fluids, ports, trace compounds and passes, every flux and mixture, over any ordered field.", "why_tests_cant": "Tests use two fluids on ports 2 and 3; conservation over all passes and the effect of other assignments are statements about all configurations.", "anchors": ["aspects/fluid/source/GunnsFluidMultiSeparator.cpp:299-350", "aspects/fluid/source/GunnsFluidMultiSeparator.cpp:571-581", "aspects/fluid/source/GunnsFluidMultiSeparator.cpp:639-647", "aspects/fluid/source/GunnsFluidMultiSeparator.cpp:678-746"]}
{"id": "C102", "title": "A fluid shadow gives its node the mixture of the node it stands for, as long as the inputs are new", "statement": "A fluid shadow that takes the outputs of its partner in another simulation gives back the partner's mass fractions, whether the two exchange mass fractions, mole fractions or partial pressures, and an active one with the same fluids gives them and the pressure to its node. The first pass only notes that it was: the shadow is not active and nothing is converted, whichever side has the control. An inactive shadow conducts nothing and leaves the node alone. Inputs that are not set anew are however converted again, in place, with every pass: after k passes on the same mole fractions each constituent has the weight of its share times the k-th power of its molecular weight, and equal moles of hydrogen and oxygen are all but pure oxygen with the third.", "quantifier": "Every number of fluids, every mixture with positive molecular weights, every pressure above the tolerance and number of passes, over any ordered field.", "why_tests_cant": "Tests compare chosen mixtures after a pass with new inputs; the inverse for all mixtures and the result of many passes are statements about all of them.", "anchors": ["core/GunnsFluidShadow.cpp:256-303", "core/GunnsFluidShadow.cpp:309-356", "core/GunnsFluidShadow.cpp:399-416"]}
{"id": "C103", "title": "The liquid of a gas separator is what it condensed and did not transfer, and never more than it holds", "statement": "A pass of a gas separator in which time passes, the gas flows forward and is saturated fills up the liquid that the transfer left with what condenses, the smaller of the gas in the stream and what its speed allows, but not beyond what it holds, and it overflows just when more condenses than fits; every other pass only has the transfer. Over all passes the liquid is what was there and what was separated without what was transferred, and the error is what was transferred beyond what there was; it only grows, and only then. A separator that starts with no more than it holds stays between empty and full, and its node loses what the liquid gains but for rates under the tolerance, which come from nowhere. The pressure of the liquid is the reference when it is full at its reference speed, in proportion to speed, and not more with less liquid. A start with more than it holds is not refused: the first pass that condenses makes the rest vanish, to no node and not to the error.", "quantifier": "Every valid configuration, sequence of flows, humidities, fractions, transfers, speeds and time steps, over any ordered field and any monotone power.", "why_tests_cant": "Tests compare chosen passes; the balance over every sequence of passes and the range of the liquid are statements about all of them.", "anchors": ["aspects/fluid/source/GunnsFluidSeparatorGas.cpp:247-280", "aspects/fluid/source/GunnsFluidSeparatorGas.cpp:306-327", "aspects/fluid/source/GunnsFluidSeparatorGas.cpp:356-423"]}
{"id": "C104", "title": "A pump motor controller latches its temperature trip, bounds the voltage of the motor and ends its start-up once", "statement": "A pump motor controller has power when its voltage, or that of the power malfunction, is in its range and power has not failed, and gives power to the motor when it has, is enabled and not tripped. It is tripped just when some pass was too hot and since then power was never lost and the temperature never under the reset. The share of the voltage on the motor is always between none and all, and none with no motor to run. The start-up with its current limit is over just when some pass had the error within the cut-off and the motor was run in every pass since. Within the cut-off and without noise a slow motor gets no smaller share, a fast one no greater. The phase of the noise goes on by its frequency in whole turns less and stays a part of a turn. At the voltage that counts, a running controller draws its own power and that of its motor. The total power it reports is however taken with the voltage of the bus, and under the power malfunction is off by the ratio of the two voltages.", "quantifier": "Every configuration, sequence of inputs and number of passes, every sine and turn, over any ordered field with a floor.", "why_tests_cant": "Tests compare chosen passes; when a trip or a start-up is over after every sequence of passes is a statement about all of them.", "anchors": ["gunns-ts-models/common/controllers/fluid/TsPumpMotorController.cpp:431-507", "gunns-ts-models/common/controllers/fluid/TsPumpMotorController.cpp:517-565", "gunns-ts-models/common/controllers/fluid/TsPumpMotorController.cpp:574-633"]}
{"id": "C105", "title": "The random numbers go around their table once in a thousand calls and stay within their limits", "statement": "The table of random numbers has the thousand entries that are counted, all strictly between zero and one. From any seed but the least int, whose size overflows, the n-th number is the entry n places after the size of the seed, around the table, so that each entry comes just once in every thousand calls. A random double is strictly between its limits, in either order, and a random integer between its limits with both counting, as long as their range is an int; with one limit the other is zero. Only a thousand results exist: of more integers than that between the limits some never come, with any seed. A unique random double is the first from the seed on that is none of the given values to within the tolerance, and comes within a thousand draws, if there is one among the thousand; if there is none the call never returns, as with equal limits that are a given value.", "quantifier": "Every seed, every limits, every list of given values and number of draws, over any ordered field with a floor; the table is that of the code.", "why_tests_cant": "Tests compare chosen seeds and limits; the cycle, the limits for every seed and the loop that does not end cannot be settled by them.", "anchors": ["ms-utils/math/TS_random.cpp:32-275", "ms-utils/math/TS_random.cpp:290-349", "ms-utils/math/TS_random.cpp:354-384"]}
{"id": "C106", "title": "A resistor with a power function solves its power law by default, but its tangent mode has the wrong slope and flows backward the wrong way", "statement": "Within its limits and with a blockage that leaves its complement of the conductance, the default line of a power-function resistor carries at the potentials of its linearization just the current i down the potential with R |i|^x equal to the drop, so that potentials the minor steps no longer change solve the power law; under the least potential of the linearization it is the line from the origin to the curve there. A full blockage leaves no current, and what the link takes from one port it gives to the other. In the tangent mode the line goes through the curve for forward potentials, but its slope is R times the derivative of the curve and it is a tangent just for R = 1. Backward the flux is the current times 1 - 2 R / x, so that for R less than x / 2 it goes up the potential.", "quantifier": "Every resistance, exponent of either sign, blockage and potentials, over the real numbers.", "why_tests_cant": "Tests repeat the formula of the code at chosen potentials; that the formula is the derivative of the law is a statement about the curve, and false.", "anchors": ["aspects/electrical/resistive/GunnsResistorPowerFunction.cpp:170-183", "aspects/electrical/resistive/GunnsResistorPowerFunction.cpp:218-278", "aspects/electrical/resistive/GunnsResistorPowerFunction.cpp:297-330"]}
{"id": "C107", "title": "A constant power load on a source converges to its power where it can have it, settles where it cannot, and may never start", "statement": "A constant power load draws at the potentials of its last step just the power asked for with its bias, times the share a blockage leaves, from its least voltage on; under it it is the resistor with that power at the least voltage, and backward it draws nothing. On a source behind a conductance that can give the power at two voltages u < w, the minor steps go to w with a ratio under one and independent of the pass, whenever the least voltage of the load is over u and at most w or the first potential is; the load then draws its power. If the source can give the power at no voltage the passes settle after finitely many at a voltage under the least one. If the least voltage and the first potential are at most some r under u, the potential stays at most r for ever: without a voltage limit the load never starts from zero. The nominal potential that a caller gives along with a power to avoid this has no effect on any step.", "quantifier": "Every source, conductance, power, bias, least voltage, first potential and number of passes, over any ordered field.", "why_tests_cant": "Tests compare single steps with the formula; convergence, settling and being stuck are statements about every number of passes.", "anchors": ["aspects/electrical/ConstantPowerLoad/EpsConstantPowerLoad.cpp:157-243", "core/GunnsBasicConductor.cpp:196-259"]}
{"id": "C108", "title": "A diode with a voltage drop accepts only solutions on its curve and rejects at most once on a source, but is bistable with a leak", "statement": "A solution that a real diode accepts is on its curve: under the drop of the junction the reverse conductivity, from the drop on the forward one times what is over the drop; it then only takes power and has no backward current from the drop on. On a source behind a conductance each bias has one solution; forward is accepted just when the source has the drop, reverse just when the source is under the drop and what the leak at the drop takes over the conductance of the source. The diode rejects at most once, whatever its bias was. Between the two limits both solutions are accepted with different currents, so that the result depends on the bias before; there is such a range just when there are a leak and a drop.", "quantifier": "Every diode, blockage, source, conductance and bias before, over any ordered field.", "why_tests_cant": "Tests compare chosen potentials of the diode alone; which solutions of a circuit are accepted and that rejections end are statements about all circuits of the kind.", "anchors": ["aspects/electrical/Diode/GunnsElectRealDiode.cpp:158-229", "aspects/electrical/Diode/GunnsElectRealDiode.hh:216-221", "core/GunnsBasicPotential.hh:175-190"]}
{"id": "C109", "title": "A curve fit is used within its limits and has a value there, except that four checks for singularities are wrong", "statement": "The result of an accepted curve fit is that at the point of its range nearest to the arguments; the call with exceptions gives the same within the limits and throws just outside. Polynomials are the sum of coefficients times powers. Polynomials, products, inverses, quotients, exponentials, Shomate fits and powers of positive numbers have a value for all arguments once accepted: no division by zero in the range. The inverse fit of two variables undoes the fit in its second variable both ways, and the root fit solves its quadratic. The checks of the other four fits do not find their singularities: a rational fit is accepted with its pole in the range and rejected without one; so is the inverse of two variables accepted; a Sutherland fit with its pole in the range is accepted whenever the upper limit is more than its second coefficient; and a root fit made with the default constructor is accepted over any range, and with the other one over ranges where no argument has a root.", "quantifier": "Every coefficients, limits and arguments, over the real numbers.", "why_tests_cant": "Tests try chosen coefficients and ranges for the exception; that every accepted range has no singularity is a statement about all of them, and false.", "anchors": ["ms-utils/math/approximation/TsApproximation.hh:97-101", "ms-utils/math/approximation/TsApproximation.cpp:80-128", "ms-utils/math/approximation/RationalFit.cpp:78-110", "ms-utils/math/approximation/QuadLinInvFit.cpp:93-131", "ms-utils/math/approximation/SutherlandFit.cpp:69-88", "ms-utils/math/approximation/QuadraticRootFit.cpp:76-101"]}
{"id": "C110", "title": "A parsed text file holds exactly the meaningful part of each of its lines", "statement": "trim takes the unwanted characters out wherever they stand and the whitespace off the two ends, changes nothing else, and is idempotent. splitLineByCharacter undoes joining: any fields joined by a separator come back trimmed, in order, the empty ones too, and every line splits into one field more than it has separators. parseLines ends on every file. When every line is shorter than maxLineWidth the stored lines are, in order, what each line keeps: all of it, or what stands before the first occurrence of the whole comment marker, trimmed, and nothing when that is empty; no stored line is empty or has an unwanted character or a marker in it. Otherwise it throws with the number of the first line of maxLineWidth or more characters; a line of exactly maxLineWidth characters is refused although the documentation calls that the most a line may have.", "quantifier": "Every file, alphabet, set of unwanted characters, marker, width of at least one, and every list of fields.", "why_tests_cant": "Tests read a few sample files and strings; that splitting undoes joining, that the loops end, and that no marker survives are statements about all of them.", "anchors": ["ms-utils/parsing/ParseTool.cpp:204-233", "ms-utils/parsing/ParseTool.cpp:247-281", "ms-utils/parsing/ParseTool.cpp:332-424"]}
{"id": "C111", "title": "The smoke detector reports the smoke, and its self test ends by itself", "statement": "Whatever the state and the inputs, the obscuration and scatter percentages are within their limits. With power and no test the scatter is the straight line from its nominal value without smoke to its greatest at full smoke. A commanded test shows in the same update whatever the smoke; after the command is taken away the recovery goes on while the timer is within the recovery time and for one update more, and it always ends, after which the smoke is shown again. Without power the values for that are shown and a test stands still. The timer is only put back by an update outside of a test, so a test commanded before that has a shorter recovery or none at all.", "quantifier": "Every configuration that validates, every state, input, number of updates and time step; the end of the recovery for every positive time step.", "why_tests_cant": "Tests step through one test sequence; that every recovery ends, how long it lasts at each time step, and what a second test does to the timer are statements about all sequences.", "anchors": ["gunns-ts-models/common/sensors/TsOpticSmokeDetector.cpp:189-231", "gunns-ts-models/common/sensors/TsOpticSmokeDetector.cpp:236-269", "gunns-ts-models/common/sensors/TsOpticSmokeDetector.cpp:305-322"]}
{"id": "C112", "title": "The saturation temperature undoes the saturation pressure", "statement": "An accepted saturation temperature curve with positive pressure limits is defined at every pressure: the checks at the two limits are enough for the root and the division. It is positive and never falls as the pressure rises. Within the limits of both curves the pressure at the temperature of a pressure is that pressure, and where the pressure curve falls with the inverse temperature the temperature at the pressure of a temperature is that temperature. The curves of all the defined fluids fall over their whole range, so for each of them the two are inverse as documented. Nothing checks that a curve falls; where one rises, the temperature returned is that of the other root.", "quantifier": "Every coefficients, limits, pressures and temperatures over the real numbers; every row of the table of defined fluids.", "why_tests_cant": "Tests compare a few values to tolerances; that two checks at the ends suffice for all pressures between, and that the two curves are inverse, are statements about all real arguments.", "anchors": ["ms-utils/properties/FluidTsatFit.cpp:83-126", "ms-utils/properties/FluidTsatFit.hh:94-97", "ms-utils/properties/FluidProperties.hh:886-908", "ms-utils/properties/FluidProperties.cpp:387-830"]}
{"id": "C113", "title": "The liquid water sensor finds liquid exactly when the fluid is at or below its dew point", "statement": "Where the saturation pressure at the temperature of the fluid is over the double epsilon, the sensor finds liquid exactly when the partial pressure of water is at least that, whatever it found before, and the humidity is their share. Within the limits of the two saturation curves that is exactly when the temperature is at or below the dew point it reports; with the curves of water this holds from 100 K to the critical temperature. Where the saturation pressure is tinier the humidity stays as it was: at 100 K and below the sensor goes on finding liquid, or none, whatever the fluid.", "quantifier": "Every curve the checks accept, partial pressure, temperature and state of the sensor over the real numbers.", "why_tests_cant": "Tests look at chosen states of one fluid; that the two ways of telling saturation agree for all temperatures and pressures needs the curves to be inverse and monotone.", "anchors": ["aspects/fluid/conductor/GunnsFluidLiquidWaterSensor.cpp:195-210", "ms-utils/properties/FluidProperties.hh:886-908", "ms-utils/properties/FluidProperties.cpp:419-421"]}
{"id": "C114", "title": "The heat of vaporization falls to nothing at the critical temperature", "statement": "For the nineteen fluids with the vaporization fit the heat of vaporization is defined and not negative at every temperature, zero exactly from the critical temperature on, and, but for hydrogen and helium, never rises with the temperature. For the other three (nitrogen tetroxide, hydrazine and monomethylhydrazine) it fails: their line has its limits in kelvin but is asked at the share of the critical temperature, so the heat is the same at every temperature up to a hundred thousand kelvin, that at the lowest limit; at the critical temperature of nitrogen tetroxide it is over 490 kJ/kg where the line in kelvin is at nothing.", "quantifier": "Every temperature and every row of the two tables; the sign and the fall for every coefficients in range, over the real numbers.", "why_tests_cant": "Tests call it at chosen temperatures; that it is zero just from the critical temperature on, or constant, is a statement about all temperatures.", "anchors": ["ms-utils/properties/FluidHvapFit.hh:78-81", "ms-utils/properties/FluidHvapFit.cpp:74-100", "ms-utils/properties/FluidProperties.hh:922-925", "ms-utils/properties/FluidProperties.cpp:620", "ms-utils/properties/FluidProperties.cpp:627", "ms-utils/properties/FluidProperties.cpp:634", "ms-utils/properties/FluidProperties.cpp:389-830"]}
