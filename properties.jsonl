{"id": "C01", "title": "Nearest-neighbour query is exact", "statement": "After building a k-d tree from a non-empty point set, nearest(q) returns the index label of a point whose distance to q is minimal over all stored points, and distance() is that minimum.", "quantifier": "every dimension >= 1, every non-empty point list (duplicates and ties allowed), every admissible result of std::nth_element, every query point", "why_tests_cant": "pruning errors show up only for particular point/query geometries and tie patterns; the input space is infinite", "anchors": ["src/utils/kdtree.hpp: kdtree::make_tree, kdtree::nearest, point::distance"]}
{"id": "C02", "title": "Building the tree keeps exactly the given points", "statement": "finalize() neither loses, duplicates nor alters points: the multiset of nodes reachable from the root equals the multiset added; querying an empty tree throws instead of returning.", "quantifier": "every list of added nodes and every admissible nth_element permutation", "why_tests_cant": "loss of a point is only visible for specific sizes/partitions", "anchors": ["src/utils/kdtree.hpp: make_tree, nearest, empty, finalize"]}
{"id": "C03", "title": "Queries are independent of earlier queries", "statement": "The result of nearest(q) (label, distance, visited count) does not depend on any sequence of earlier queries on the same tree.", "quantifier": "every tree, every history of queries, every query", "why_tests_cant": "depends on all histories of mutable best_/visited_ state", "anchors": ["src/utils/kdtree.hpp: nearest (resets best_, visited_, best_dist_)"]}
{"id": "C04", "title": "A query visits each stored point at most once", "statement": "visited() after nearest(q) is between 1 and the number of stored points.", "quantifier": "every non-empty tree and query", "why_tests_cant": "the bound must hold for every tree shape and every query; a test sees the trees of a few point sets, and an occasional second visit does not change the answer it checks", "anchors": ["src/utils/kdtree.hpp: nearest, visited"]}
{"id": "C05", "title": "Adding nodes after finalize", "statement": "After finalize(), nodes added by add_node are not seen by nearest() until finalize() is called again, and if the vector has to grow the query dereferences dangling node pointers (undefined behaviour); calling finalize again restores correctness.", "quantifier": "every sequence of set_size/add_node/finalize/nearest calls", "why_tests_cant": "history property; UB is not reliably observable by a test", "anchors": ["src/utils/kdtree.hpp: set_size, add_node, finalize, nearest"]}
{"id": "C06", "title": "Bisection returns a bracketed root", "statement": "bisection(f,xl,xr,ftol,xtol,maxiter) throws if f(xl)f(xr)>0; whenever it returns normally the result x satisfies |f(x)|<=ftol or lies in a sign-changing sub-interval of [xl,xr] whose width is at most xtol, and x is in [xl,xr].", "quantifier": "every function (no continuity needed), interval, tolerances, iteration bound", "why_tests_cant": "quantifies over all functions and tolerances", "anchors": ["src/utils/utils.cpp: bisection"]}
{"id": "C07", "title": "Bisection halves and reports non-convergence exactly", "statement": "After k iterations the bracket has width (xr-xl)/2^k; bisection returns normally whenever convergence is reached within maxiter iterations (the code instead throws when convergence happens exactly at iteration maxiter).", "quantifier": "every function, interval, tolerances, iteration bound", "why_tests_cant": "boundary of the iteration count for all functions", "anchors": ["src/utils/utils.cpp: bisection"]}
{"id": "C08", "title": "Secant reports failure", "statement": "secant(f,x1,x2,ftol,xtol,maxiter) either returns x with |f(x)| <= ftol or last step <= xtol, or throws when maxiter is exhausted (the code's check can never fire so an unconverged value is silently returned).", "quantifier": "every function, start points, tolerances, maxiter", "why_tests_cant": "the non-convergent cases are an infinite family", "anchors": ["src/utils/utils.cpp: secant"]}
{"id": "C09", "title": "Quadratic interpolation hits the interpolant's stationary point", "statement": "quadInterp(x0,y0,d,x1,y1) returns the stationary point of the unique quadratic through (x0,y0) with slope d at x0 and through (x1,y1).", "quantifier": "all real data with x0 != x1 and non-zero curvature", "why_tests_cant": "an identity between rational functions of five reals: a wrong term vanishes on symmetric test data", "anchors": ["src/utils/utils.cpp: quadInterp"]}
{"id": "C10", "title": "Line search returns an Armijo point or zero", "statement": "BacktrackingLineSearch::search returns alpha>0 with phi(alpha) <= phi0 + mu*alpha*dphi0, or exactly 0 to signal failure.", "quantifier": "every function phi, phi0, dphi0, start step > 0, parameters 0<rho_lo<=rho_hi, mu, max_iter, interp_order", "why_tests_cant": "ranges over every objective function, including ones that never decrease or jump; a test supplies one smooth function", "anchors": ["src/common/linesearch.cpp: BacktrackingLineSearch::search"]}
{"id": "C11", "title": "Line search step shrinkage and evaluation budget", "statement": "Each trial step is between rho_lo and rho_hi times the previous one, so the k-th trial is in [rho_lo^k a, rho_hi^k a]; phi is evaluated at most max_iter+1 times, and a non-zero result is never larger than the initial step.", "quantifier": "every phi and parameters with 0<rho_lo<=rho_hi<1", "why_tests_cant": "all objective functions and iteration counts", "anchors": ["src/common/linesearch.cpp: BacktrackingLineSearch::search"]}
{"id": "C12", "title": "Line search interpolation formulas are minimisers", "statement": "quadratic_interp returns the stationary point of the quadratic with phi(0),phi'(0),phi(alpha); cubic_interp returns the local minimiser of the cubic through phi(0),phi'(0),phi(a1),phi(a2), also in the degenerate (zero cubic coefficient) case (the degenerate case has the wrong sign in the code).", "quantifier": "all interpolation data with distinct non-zero abscissae", "why_tests_cant": "identity over all reals; degenerate branch is measure zero", "anchors": ["src/common/linesearch.cpp: quadratic_interp, cubic_interp"]}
{"id": "C13", "title": "Relaxed Newton never increases the residual", "statement": "With the relaxed Newton solver in serial, if the search direction is a descent direction each accepted Newton step does not increase the residual norm; a zero step length stops the solver unconverged.", "quantifier": "every nonlinear operator, state, right-hand side and iteration count", "why_tests_cant": "all operators / all iterates", "anchors": ["src/common/relaxed_newton.cpp: ComputeScalingFactor", "src/common/linesearch.cpp: Phi"]}
{"id": "C14", "title": "All MPI ranks take the same line-search step", "statement": "Every rank obtains the same step length and performs the same number of (collective) residual evaluations in the relaxed Newton line search (the code uses rank-local norms and inner products, so it does not).", "quantifier": "every distribution of the residual over ranks", "why_tests_cant": "depends on the partition of the unknowns; data-dependent divergence/deadlock", "anchors": ["src/common/linesearch.cpp: Phi::Phi, Phi::operator()", "src/common/relaxed_newton.cpp"]}
{"id": "C15", "title": "Inexact Newton globalisation gives sufficient decrease", "statement": "InexactNewton::ComputeStepSize returns s in (0,1], with s in [theta_min^k, theta_max^k] after k reductions, eta never exceeding eta_max once reduced, and, when it returns normally, ||F(x-s c)-b|| <= (1-t(1-theta))||F(x)-b||; otherwise it aborts after max_iter+1 reductions.", "quantifier": "every operator, state, step, norm, parameters with 0<theta_min<=theta_max<1", "why_tests_cant": "all operators and all globalisation histories", "anchors": ["src/common/inexact_newton.cpp: InexactNewton::ComputeStepSize"]}
{"id": "C16", "title": "Inexact Newton uses the derivative of the merit function", "statement": "The slope supplied to the quadratic interpolation in InexactNewton::ComputeStepSize equals d/ds (1/2)||F(x-s c)||^2 at s=0, i.e. -(J c).r for every Jacobian J (the code computes -(J r).c, which is only correct for symmetric J).", "quantifier": "every Jacobian, residual and step", "why_tests_cant": "quantifies over all matrices", "anchors": ["src/common/inexact_newton.cpp: ComputeStepSize"]}
{"id": "C17", "title": "Newton convergence flag is truthful", "statement": "When InexactNewton::Mult terminates, converged=1 iff the final residual norm is <= max(rel_tol*initial norm, abs_tol), final_iter <= max_iter, and final_norm is the residual norm at the returned x.", "quantifier": "every operator, initial guess, tolerances, iteration limits", "why_tests_cant": "all operators and all iterations", "anchors": ["src/common/inexact_newton.cpp: InexactNewton::Mult"]}
{"id": "C18", "title": "Time loop terminates on or before its bounds", "statement": "solveForState on an unsteady problem performs at most max-iter steps; with exact-t-final, dt>0 and t_initial<t_final no step ends past t_final, and if stopped by the exit test t_final is reached to within 1e-14 dt.", "quantifier": "every dt, t_initial, t_final, max-iter, ODE step map", "why_tests_cant": "all step counts and time parameters", "anchors": ["src/common/abstract_solver.cpp: solveForState, calcStepSize, iterationExit"]}
{"id": "C19", "title": "Enough iterations reach t_final", "statement": "With exact-t-final and max-iter*dt >= t_final - t_initial > 0 the loop ends with t = t_final exactly (exact arithmetic), after ceil((t_final-t_initial)/dt) steps (up to the documented exit tolerance).", "quantifier": "every dt>0, interval and max-iter", "why_tests_cant": "the number of steps is unbounded and the property is about the last one, whose length depends on the remainder of every interval and dt", "anchors": ["src/common/abstract_solver.cpp: solveForState, calcStepSize, iterationExit"]}
{"id": "C20", "title": "Logged state snapshots carry their true time and are not overwritten", "statement": "Every state logged by an unsteady solve is labelled with the time at which it was the solution and no earlier-logged snapshot is overwritten by a later one (the code logs the initial state at time 0.0 rather than t-initial and reuses the last iteration number for the final state).", "quantifier": "every time-step option setting and logging option combination", "why_tests_cant": "history property over all loops", "anchors": ["src/common/abstract_solver.cpp: initialHook, iterationHook, terminalHook, solveForState"]}
{"id": "C21", "title": "Pseudo-transient step never shrinks", "statement": "For steady flow problems solved by pseudo-transient continuation the step size never decreases from one iteration to the next and is bounded below by its first value.", "quantifier": "every residual history, dt, exponent", "why_tests_cant": "ranges over all residual histories, including growing and stagnating ones a converging test run never produces", "anchors": ["src/physics/fluidflow/flow_solver.cpp: calcStepSize"]}
{"id": "C22", "title": "State file names are injective", "statement": "Two saved states of one logger use the same file name only if field name, timestep and rank all agree.", "quantifier": "all field names, timesteps, ranks", "why_tests_cant": "injectivity quantifies over pairs of arbitrary names, time steps and ranks; collisions arise only for particular digit patterns", "anchors": ["src/common/data_logging.hpp: ASCIILogger::saveState, BinaryLogger::saveState"]}
{"id": "C23", "title": "Binary state files round-trip", "statement": "readState after saveState with the same field, timestep and rank returns the same time and the same vector, bit for bit; saves to other files do not disturb it.", "quantifier": "all times, vectors of any size, all interleavings of saves", "why_tests_cant": "ranges over all bit patterns of the vector and all interleavings with other saves", "anchors": ["src/common/data_logging.hpp: BinaryLogger"]}
{"id": "C24", "title": "Inputs: absent keys leave values unchanged, wrong kinds throw", "statement": "setValueFromInput/setVectorFromInput leave the destination untouched (or throw when requested) if the key is absent, throw if the stored kind is wrong, and otherwise deliver exactly the supplied value.", "quantifier": "all input maps, keys, destinations", "why_tests_cant": "ranges over all dictionaries and all destinations; the failing combination is an absent or wrongly typed key no test supplies", "anchors": ["src/physics/miso_input.cpp: setValueFromInput, setVectorFromInput"]}
{"id": "C25", "title": "Vector inputs alias unless deep copied", "statement": "A vector obtained by setVectorFromInput without deep copy aliases the caller's memory (writes go both ways); with deep copy they are independent.", "quantifier": "all heaps, vectors and write sequences", "why_tests_cant": "aliasing is observable only through later writes, in any order, on either side", "anchors": ["src/physics/miso_input.cpp: setVectorFromInput"]}
{"id": "C26", "title": "Option merging keeps defaults for unspecified keys", "statement": "The options of a solver are the defaults overridden by user values: unspecified keys (recursively in sub-objects) keep defaults, specified leaves take the user value, null removes the key; applying the same user options twice changes nothing.", "quantifier": "all JSON documents", "why_tests_cant": "all JSON trees of any depth", "anchors": ["src/common/abstract_solver.cpp: AbstractSolver2 ctor (merge_patch)"]}
{"id": "C27", "title": "Boundary attribute arrays", "statement": "getMFEMBoundaryArray marks exactly the listed attributes (or all / none), throws on any other string or JSON kind, and is independent of the previous array contents; attributes outside 1..n are out-of-bounds writes.", "quantifier": "all JSON boundary specifications, all array sizes and prior contents", "why_tests_cant": "depends on the previous contents of a caller's array, which a test starts fresh", "anchors": ["src/utils/utils.cpp: getMFEMBoundaryArray, attrVecToArray"]}
{"id": "C28", "title": "Output registry", "statement": "createOutput throws for an existing name and otherwise adds only that name; evaluating an unknown output throws; size-1 results go through the scalar path; JVP accumulates and calcOutput overwrites.", "quantifier": "all histories of createOutput/calcOutput calls", "why_tests_cant": "ranges over all histories of creation and evaluation calls, including repeated and failing ones", "anchors": ["src/common/abstract_solver.cpp: createOutput, calcOutput, outputJacobianVectorProduct"]}
{"id": "C29", "title": "Quotient functionals are differentiated exactly", "statement": "For outputs defined as a ratio num/den (state average, IE aggregate, average magnitude of curl) the returned JVP is the directional derivative of the ratio and the VJP is its adjoint, accumulated into the result.", "quantifier": "all numerator/denominator values and derivatives with den != 0", "why_tests_cant": "identity over all reals / vectors", "anchors": ["src/physics/common_outputs.cpp", "src/physics/common_outputs.hpp"]}
{"id": "C30", "title": "SumOfOperators computes a*A+b*B", "statement": "SumOfOperators::Mult(x) returns a*A(x)+b*B(x) for all coefficients (false in the code when |a| or |b| <= 1e-16: stale work/result data is used).", "quantifier": "all operators, coefficients, vectors, previous contents of y", "why_tests_cant": "depends on stale memory contents", "anchors": ["src/common/matrix_operators.cpp: SumOfOperators::Mult"]}
{"id": "C31", "title": "Jacobian-free product", "statement": "JacobianFree::Mult returns scale * forward-difference directional derivative (+ explicit part), exact for affine residuals; zero-scale leaves the result zero (false in the code: stale data kept).", "quantifier": "all residuals, states, directions, previous contents of y", "why_tests_cant": "all operators and stale contents", "anchors": ["src/common/matrix_operators.cpp: JacobianFree::Mult"]}
{"id": "C32", "title": "Time-dependent residual and its Jacobian agree", "statement": "TimeDependentResidual evaluates M*k + R(state + dt*k) (R(state) when dt=0) and its Jacobian is M + dt*R'(state+dt*k), i.e. the exact derivative with respect to k.", "quantifier": "all dt, states, residuals and mass matrices", "why_tests_cant": "an identity between two operators at every state, step and operator; finite differences on one problem only approximate it", "anchors": ["src/common/ode.cpp", "src/common/ode.hpp"]}
{"id": "C33", "title": "Relaxation RK conserves entropy increments", "statement": "If the relaxation equation is solved, the RRK update changes entropy by exactly gamma*dt times the entropy production sum, advances time by gamma*dt, and the step is the gamma-scaled RK update.", "quantifier": "all ODEs, states, dt", "why_tests_cant": "must hold for every ODE, entropy function and step, with the solved relaxation parameter as a hypothesis rather than a computed number", "anchors": ["src/common/mfem_extensions.cpp: RRKImplicitMidpointSolver, RRK6Solver"]}
{"id": "C34", "title": "RRK6 tableau is consistent", "statement": "The embedded 6th order tableau satisfies the row-sum and low-order conditions to rounding of the printed coefficients.", "quantifier": "the whole finite coefficient table", "why_tests_cant": "finite table; checked completely in the kernel", "anchors": ["src/common/mfem_extensions.cpp: RRK6Solver a,b,c"]}
{"id": "C35", "title": "Block-Jacobi preconditioner is blockwise and linear", "statement": "BlockJacobiPreconditioner applies each block's preconditioner to its own segment, is independent of all other segments, and copies segments whose block has no preconditioner.", "quantifier": "all block partitions, operators, vectors", "why_tests_cant": "ranges over all block partitions, including empty and uneven blocks and blocks without a preconditioner", "anchors": ["src/common/mfem_extensions.cpp: BlockJacobiPreconditioner"]}
{"id": "C36", "title": "Essential dofs of the residual", "statement": "evaluate() of the nonlinear form returns, at essential dofs, zero (or state minus prescribed boundary value when such a field is supplied) and the assembled integrator sum elsewhere, independent of the calls made before.", "quantifier": "all states, essential dof lists, integrators", "why_tests_cant": "ranges over all states, all lists of essential dofs (also with repeated or no entries) and all integrators", "anchors": ["src/physics/miso_nonlinearform.cpp: evaluate"]}
{"id": "C37", "title": "Forward and reverse products are adjoint", "statement": "For every input wrt, res_bar . JVP(wrt_dot) = VJP(res_bar) . wrt_dot for the nonlinear form (fails in the code for scalar inputs when res_bar is non-zero on essential dofs).", "quantifier": "all directions, seeds, inputs, essential dof lists", "why_tests_cant": "a bilinear identity over all pairs of vectors; a random pair with accumulators starting at zero hides overwriting", "anchors": ["src/physics/miso_nonlinearform.cpp: jacobianVectorProduct, vectorJacobianProduct"]}
{"id": "C38", "title": "Products use the Jacobian at the current linearisation point", "statement": "After linearize(inputs), state products use the Jacobian at those inputs (the code's linearize does not recompute so a stale Jacobian from an earlier getJacobian call is used).", "quantifier": "all histories of linearize/getJacobian/product calls", "why_tests_cant": "a stale Jacobian shows only after a particular order of linearize and product calls", "anchors": ["src/physics/miso_nonlinearform.cpp: linearize, getJacobian, jacobianVectorProduct"]}
{"id": "C39", "title": "Adjoint boundary conditions", "statement": "setUpAdjointSystem yields an adjoint whose essential entries equal the prescribed seed handling, and the adjoint satisfies J^T psi = state_bar on free dofs.", "quantifier": "all Jacobians, seeds, essential dof lists", "why_tests_cant": "ranges over all Jacobians, seeds and lists of essential dofs; for a symmetric system a missing transpose is invisible", "anchors": ["src/physics/miso_nonlinearform.cpp: setUpAdjointSystem, finalizeAdjointSystem"]}
{"id": "C40", "title": "Attribute restricted integrators only act on their attributes", "statement": "An integrator added with an attribute list contributes only on elements with these attributes (false in the code for domain integrators: list ignored).", "quantifier": "all meshes, attribute lists", "why_tests_cant": "a mesh with one attribute cannot distinguish a restricted from an unrestricted integrator", "anchors": ["src/physics/miso_nonlinearform.hpp: addDomainIntegrator"]}
{"id": "C41", "title": "Current load is up to date", "statement": "addLoad subtracts the load assembled with the most recently set current densities and mesh coordinates, whatever sequence of setInputs/addLoad/derivative calls preceded.", "quantifier": "all call sequences", "why_tests_cant": "cache invalidation: the stale load is seen only after particular orders of setInputs, addLoad and derivative calls, all of which must be covered", "anchors": ["src/physics/electromagnetics/current_load.cpp"]}
{"id": "C42", "title": "Current density scalar derivative", "statement": "The derivative products with respect to a group's current density equal the derivative of the load with respect to that scalar and leave the stored densities unchanged afterwards.", "quantifier": "all groups, densities, seeds", "why_tests_cant": "ranges over all sets of groups and all histories; the saved densities are restored or lost depending on names and on the sources used", "anchors": ["src/physics/electromagnetics/current_load.cpp", "src/physics/electromagnetics/current_source_functions.cpp"]}
{"id": "C43", "title": "Residual derivative with magnets", "statement": "The magnetostatic residual's derivative with respect to a current density contains only the current contribution (false in the code when magnets are present: the whole linear form incl. magnetisation is used).", "quantifier": "all magnet loads, current densities, seeds", "why_tests_cant": "the spurious contribution is proportional to the magnet load, so it is invisible in any test without magnets", "anchors": ["src/physics/electromagnetics/magnetostatic_residual.cpp"]}
{"id": "C44", "title": "Thermal residual does not modify its inputs and its derivatives accumulate", "statement": "Setting inputs on the thermal residual leaves the caller's thermal load vector unchanged, and thermal-load products accumulate into the result and are adjoint to each other (both false in the code).", "quantifier": "all load vectors, essential dofs, seeds", "why_tests_cant": "the caller's vector and the accumulator are changed through aliases; a test that does not reuse them sees correct numbers", "anchors": ["src/physics/thermal/thermal_residual.cpp"]}
{"id": "C45", "title": "Mesh warper boundary conditions", "statement": "After warping, volume coordinates on the surface equal the prescribed surface coordinates, for any surface coordinates.", "quantifier": "all surface coordinates, meshes", "why_tests_cant": "ranges over all surface displacements and meshes; a test moves one surface by one field", "anchors": ["src/utils/mesh_warper/mesh_warper.cpp"]}
{"id": "C46", "title": "Python reverse mode of mesh warper", "statement": "The Python wrapper's reverse-mode product for the surface coordinates is the transpose of its forward-mode product (false: it calls the forward product).", "quantifier": "all seeds", "why_tests_cant": "a transposition identity over all seeds; with the square matrices and one seed of a test the two products may coincide in norm", "anchors": ["miso/mesh_warper.py"]}
{"id": "C47", "title": "Irrotational/divergence-free projection", "statement": "The projector splits x into irrotational part P x and x - P x; given exact solves the divergence-free part has zero weak divergence, both projections are idempotent, divergence-free fields pass unchanged and interior gradients vanish; the reverse product is the transpose of the projection; after the mesh coordinates are updated through the inputs, no stale operator is ever used.", "quantifier": "all vectors, exact inner solves", "why_tests_cant": "identities between linear operators (projection, complement, self-adjointness) over all vectors", "anchors": ["src/utils/irrotational_projector.cpp", "src/utils/div_free_projector.cpp"]}
{"id": "C48", "title": "PUMI library handle reference counting", "statement": "The PUMI communication library is up whenever a mesh is loaded, used or destroyed, is initialised/finalised alternately, and is left alone when another component owns it, for every interleaving of mesh construction, move, destruction and foreign use.", "quantifier": "all construction/destruction histories", "why_tests_cant": "reference counts go wrong only for particular interleavings of construction, copy, destruction and external initialisation", "anchors": ["src/physics/pde_solver.cpp: PDESolver"]}
{"id": "C49", "title": "Surface extraction renumbering", "statement": "Surface construction maps boundary vertices to 0..n-1 bijectively (in volume-vertex order), keeps one element per selected boundary element with its attribute, each surface element refers to the right vertex coordinates, and the copied curvature nodes belong to the right element whatever subset of the boundary is selected.", "quantifier": "all boundary element lists", "why_tests_cant": "a renumbering must be a bijection for every list of boundary elements, including shared vertices and several attributes", "anchors": ["src/common/surface_def.hpp: Surface ctor"]}
{"id": "C50", "title": "Vandermonde columns enumerate the total-degree basis", "statement": "The SBP Vandermonde construction uses exactly the (d+1)(d+2)/2 index pairs (resp. (d+1)(d+2)(d+3)/6 triples), each once, with the documented ordering.", "quantifier": "every degree", "why_tests_cant": "an enumeration must be complete and duplicate-free for every degree; a test can only try some degrees", "anchors": ["src/common/orthopoly.cpp: getVandermondeForTri, getVandermondeForTet"]}
{"id": "C51", "title": "Jacobi polynomials", "statement": "jacobiPoly evaluates the orthonormal Jacobi polynomial of the given degree (degree 1 uses alpha+beta where alpha-beta is required; correct when beta=0).", "quantifier": "every degree, alpha, beta, point", "why_tests_cant": "ranges over all degrees, both parameters and all points; the shipped calls have beta = 0, for which the wrong coefficient is invisible", "anchors": ["src/common/orthopoly.cpp: jacobiPoly"]}
{"id": "C52", "title": "Free-stream state", "statement": "getFreeStreamQ yields density 1, speed = Mach in the chosen direction and pressure 1/gamma for every Mach number and angle of attack with distinct valid axes.", "quantifier": "all Mach numbers, angles, axis choices, dimensions", "why_tests_cant": "an identity over all Mach numbers, angles and choices of axes; a test uses a few of them", "anchors": ["src/physics/fluidflow/euler_fluxes.hpp: getFreeStreamQ"]}
{"id": "C53", "title": "Entropy/conservative variable round trip", "statement": "Converting conservative variables to entropy variables and back returns the original state for every state with positive density and pressure (and vice versa).", "quantifier": "all admissible states in 1-3D", "why_tests_cant": "a pair of mutually inverse nonlinear maps on an open set of states; sampling cannot exclude an exceptional set", "anchors": ["src/physics/fluidflow/euler_fluxes.hpp: calcEntropyVars, calcConservativeVars"]}
{"id": "C54", "title": "Two-point flux symmetric and consistent", "statement": "The Ismail-Roe flux is symmetric in its arguments and reduces to the Euler flux for equal states.", "quantifier": "all admissible state pairs, directions", "why_tests_cant": "an identity in pairs of states and a limit at equal states, where the logarithmic mean switches formula", "anchors": ["src/physics/fluidflow/euler_fluxes.hpp: calcIsmailRoeFlux, logavg"]}
{"id": "C55", "title": "Two-point flux conserves entropy", "statement": "(w_L - w_R).f(q_L,q_R) equals the jump of the entropy potential for all admissible states, exactly when the logarithmic mean is evaluated by its exact branch, and in every branch up to 1e-16 times the mass flux.", "quantifier": "all admissible state pairs", "why_tests_cant": "an exact identity on pairs of states, including pairs so close that the code switches to a series; random samples do not hit the switch", "anchors": ["src/physics/fluidflow/euler_fluxes.hpp: calcIsmailRoeFlux"]}
{"id": "C56", "title": "Boundary fluxes are consistent", "statement": "calcBoundaryFlux(dir,q,q), calcRoeFaceFlux(q,q), and both far-field fluxes with q = boundary state return the Euler flux; the Roe flux is conservative (antisymmetric under exchange); at supersonic outflow the boundary flux is the interior Euler flux, at supersonic inflow it is the interior flux minus its linearisation; each characteristic wave is damped with its own speed.", "quantifier": "all admissible states, directions", "why_tests_cant": "consistency at every state and direction, including the eigenvalue limiter's branches", "anchors": ["src/physics/fluidflow/euler_fluxes.hpp: calcBoundaryFlux, calcRoeFaceFlux, calcFarFieldFlux"]}
{"id": "C57", "title": "Entropy-conservative boundary flux identity", "statement": "calcBoundaryFluxEC returns a flux whose inner product with the entropy variables equals the prescribed entropy flux plus potential for all data.", "quantifier": "all states and prescribed entropy fluxes", "why_tests_cant": "an identity over all states and prescribed fluxes, with a division that degenerates on a thin set", "anchors": ["src/physics/fluidflow/euler_fluxes.hpp: calcBoundaryFluxEC"]}
{"id": "C58", "title": "dq/dw is symmetric positive definite", "statement": "The product computed by calcdQdWProduct is symmetric and positive definite for every admissible state.", "quantifier": "all admissible states, vectors", "why_tests_cant": "positive definiteness quantifies over all vectors at every state; a test evaluates a few quadratic forms", "anchors": ["src/physics/fluidflow/euler_fluxes.hpp: calcdQdWProduct"]}
{"id": "C59", "title": "Slip wall", "statement": "Wall projection removes exactly the wall-normal momentum (idempotent, keeps tangential part, density and energy); the slip-wall flux carries no mass or energy.", "quantifier": "all states and normals", "why_tests_cant": "idempotence and orthogonality for every normal, not only unit or axis-aligned ones", "anchors": ["src/physics/fluidflow/euler_fluxes.hpp: projectStateOntoWall, calcSlipWallFlux"]}
{"id": "C60", "title": "Hashin-Shtrikman bounds", "statement": "For positive constituents, listed in either order, the Hashin-Shtrikman coefficient lies between them for every fill factor in [0,1], equals the smaller one at 0 and the larger one at 1, increases strictly with the fill factor, and the companion derivative coefficient is its exact derivative with respect to the fill factor.", "quantifier": "all positive constituent values, all fill factors in [0,1], all input dictionaries", "why_tests_cant": "bounds, monotonicity and exactness of a derivative over a continuum of values", "anchors": ["src/common/coefficient.cpp: HashinShtrikmanWeightedCoefficient, dHashinShtrikmanWeightedCoefficient"]}
{"id": "C61", "title": "Weighted average coefficient", "statement": "The weighted-average coefficient lies between its two constituents for every fill factor in [0,1], the fill factor weights the first listed constituent (false in the code: it always weights the larger one), and the companion derivative coefficient is its exact derivative with respect to the fill factor.", "quantifier": "all constituent values, all fill factors in [0,1], all input dictionaries", "why_tests_cant": "holds for a continuum of values and both listing orders", "anchors": ["src/common/coefficient.cpp: WeightedAverageCoefficient, dWeightedAverageCoefficient"]}
{"id": "C62", "title": "Mesh-dependent coefficient dispatch", "statement": "Registering coefficients fails exactly when an attribute is given twice; otherwise a mesh-dependent coefficient evaluates the coefficient registered for the element's attribute, else the default, else zero, and the state derivative, second derivative and mesh sensitivity use the same selection.  Evaluation without a state is evaluation at state zero, at every nesting depth.", "quantifier": "all registration histories, attributes, nestings and states", "why_tests_cant": "quantifies over unbounded registration histories and nesting depths", "anchors": ["src/common/coefficient.cpp: MeshDependentCoefficient", "src/common/coefficient.hpp: addCoefficient"]}
{"id": "C63", "title": "Material default values", "statement": "A coefficient built from the component and material options evaluates, on every attribute of a component, to the material's number or the requested mixture, and to the caller's default value when the material lacks the property (false in the code: zero is used and the default is ignored).", "quantifier": "all component lists and material option maps", "why_tests_cant": "ranges over option maps of every size and nesting and all material libraries", "anchors": ["src/common/coefficient.cpp: constructMaterialCoefficient, constructMaterialTwoStateCoefficient"]}
{"id": "C64", "title": "Product coefficient rules", "statement": "ScalarVectorProductCoefficient evaluates scalar times vector, its state derivative is the derivative of that product, and its reverse mode adds exactly the gradient, with respect to the mesh nodes, of the seeded product, for every nesting of products and mesh-dependent coefficients.", "quantifier": "all coefficient trees with exact leaves, states, seeds and nodes", "why_tests_cant": "derivative identities over all coefficient trees and points", "anchors": ["src/common/coefficient.cpp: ScalarVectorProductCoefficient, VectorMeshDependentStateCoefficient"]}
{"id": "C65", "title": "Open-loop control setting is respected", "statement": "After the user sets closed-loop=false, subsequent residual evaluations of the controller and of the coupled flow-control problem stay open loop (false in the code: the flag is reset by the next input update and the coupled evaluation ignores it).", "quantifier": "all call histories", "why_tests_cant": "a flag that is overwritten only by a later call of another component; ranges over all call histories", "anchors": ["src/physics/fluidflow/flow_control_residual.cpp"]}
{"id": "C66", "title": "Controller Jacobian is exact", "statement": "The controller residual is affine in its state and getJacobian returns its exact matrix; block extraction and assembly are inverse.", "quantifier": "all states, dt, entropy inputs", "why_tests_cant": "an affine map is determined by infinitely many values, and the two block operations must be inverse for all sizes", "anchors": ["src/physics/fluidflow/flow_control_residual.cpp: ControlResidual"]}
{"id": "C67", "title": "Controller test ODE conserves energy", "statement": "In test mode the energy x.x/2 of the coupled controller ODE changes only at the rate velocity times boundary entropy, and is conserved when uncoupled.", "quantifier": "all states", "why_tests_cant": "an identity of a rate at every state; an integration in a test adds time-stepping error of the same size", "anchors": ["src/physics/fluidflow/flow_control_residual.cpp: ControlResidual"]}
{"id": "C68", "title": "Lp error of a state", "statement": "calcLpError returns the p-th root of the quadrature of |state-exact|^p (the maximum for p = infinity): it does not depend on the partition over ranks nor on the sign of the difference, is zero iff they agree at every positively weighted point, obeys the triangle inequality, and calcL2Error is the case p = 2 (false in the code for a single entry of a vector state: the absolute value is missing).", "quantifier": "all states, exact solutions, orders p, partitions, entries", "why_tests_cant": "all functions, partitions and real orders p", "anchors": ["src/physics/finite_element_state.cpp: calcLpError, calcL2Error"]}
{"id": "C69", "title": "ASCII state files round-trip", "statement": "Reading a state that was saved in ASCII returns the printed (17 significant digit) values of every entry and the saved vector size; values that print as nan or inf break the reader.", "quantifier": "all vectors, sizes and file-system histories", "why_tests_cant": "ranges over all vectors and all file-system histories, including files of another length and values that print alike", "anchors": ["src/common/data_logging.hpp: ASCIILogger"]}
{"id": "C70", "title": "Induced-exponential aggregate", "statement": "The induced-exponential aggregate of a state lies between the minimum and maximum of the sampled values, is unaffected by the overflow-avoiding shift, and its returned gradient is its exact derivative; the shift is taken per call so partitioning over ranks changes numerator and denominator separately.", "quantifier": "all sampled values, weights, aggregation parameters", "why_tests_cant": "bounds and shift invariance for all samples, weights and parameters, including those for which the exponentials overflow", "anchors": ["src/physics/mfem_common_integ.cpp: IEAggregateIntegratorNumerator, IEAggregateIntegratorDenominator"]}
{"id": "C71", "title": "Pseudo-transient step is backward Euler", "statement": "One pseudo-transient step computes the backward Euler update, and a state is stationary for it exactly when the steady residual vanishes.", "quantifier": "all residuals, mass matrices, dt", "why_tests_cant": "a fixed-point equivalence (both directions) for every residual, mass matrix and step", "anchors": ["src/common/mfem_extensions.cpp: PseudoTransientSolver"]}
{"id": "C72", "title": "Controller Lyapunov property", "statement": "With the documented solution P, the open-loop controller's Lyapunov function is exactly dissipated; a rejected P input leaves the stored matrix already overwritten.", "quantifier": "all states and P inputs", "why_tests_cant": "a matrix identity over all gains, and the partial update is seen only after a rejected input", "anchors": ["src/physics/fluidflow/flow_control_residual.cpp: ControlResidual"]}
{"id": "C73", "title": "Distance to a surface", "statement": "The distance query returns the distance from the query point to the nearest point of the surface, for every surface and point.", "quantifier": "all surfaces, query points, tolerances", "why_tests_cant": "the nearest point over every surface and query, including points equidistant from several elements and points beyond edges", "anchors": ["src/common/surface_def.hpp: calcDistance, solveDistance"]}
{"id": "C74", "title": "Lobatto nodes and weights", "statement": "The Lobatto routine returns nodes symmetric about 0 with end nodes exactly -1 and 1 and symmetric non-negative weights with end weights 2/(n(n-1)) after however many sweeps, and a converged node is a root of x P_d - P_{d-1}.", "quantifier": "every number of nodes >= 2 and of Newton sweeps", "why_tests_cant": "ranges over all orders and over the number of Newton iterations the routine happens to take", "anchors": ["src/common/orthopoly.cpp: getLobattoQuadrature"]}
{"id": "C75", "title": "Entropy function, its gradient and its minimiser", "statement": "entropy(q) equals -rho*ln(p/rho^gamma)/(gamma-1) and its entropy-variable overload agrees with it; the entropy variables are its gradient; the affinely shifted entropy(q,qe) is non-negative for all admissible q, qe and vanishes only at q = qe.", "quantifier": "all admissible states and directions, every dimension", "why_tests_cant": "equality of real functions over a continuum and a global minimum", "anchors": ["src/physics/fluidflow/euler_fluxes.hpp: entropy, calcEntropyVars"]}
{"id": "C76", "title": "Dissipative fluxes never produce entropy", "statement": "For every admissible pair of states and every non-negative coefficient, the Ismail-Roe face flux with dissipation satisfies (wL-wR).f >= psiL-psiR (up to 1e-16 relative to the mass flux), is consistent, agrees with its entropy-variable variant; the LPS scaling operator is positive semi-definite.", "quantifier": "all admissible state pairs, directions, coefficients", "why_tests_cant": "inequality over a continuum of state pairs", "anchors": ["src/physics/fluidflow/euler_fluxes.hpp: calcIsmailRoeFaceFluxWithDiss, applyLPSScaling"]}
{"id": "C77", "title": "Control boundary flux entropy balance", "statement": "The control flux injects exactly U*S(q) of entropy with U = -vel*|n|, reduces to the slip wall for zero control velocity and to the Euler flux when the control velocity equals the inflow velocity.", "quantifier": "all admissible states, directions, control velocities", "why_tests_cant": "an entropy identity over all states, directions and control velocities; a sign error cancels for the symmetric states of a test", "anchors": ["src/physics/fluidflow/euler_fluxes.hpp: calcControlFlux"]}
{"id": "C78", "title": "Spectral radius", "statement": "calcSpectralRadius returns the modulus of the largest eigenvalue of the flux Jacobian: it is attained by an eigenvector and no real eigenvalue exceeds it; the entropy-variable variant agrees.", "quantifier": "all admissible states and non-zero directions, every dimension", "why_tests_cant": "no eigenvalue may be larger: a universal statement over eigenpairs at every state", "anchors": ["src/physics/fluidflow/euler_fluxes.hpp: calcSpectralRadius"]}
{"id": "C79", "title": "Isentropic vortex is an exact steady solution", "statement": "In the right half plane outside the vacuum core, the vortex state is admissible, tangential and homentropic, and the divergence of the Euler flux of the vortex vanishes identically (in the left half plane the returned velocity is not tangential).", "quantifier": "all points of the half plane", "why_tests_cant": "a differential identity at every point", "anchors": ["src/physics/fluidflow/euler_fluxes.hpp: calcIsentropicVortexState"]}
{"id": "C80", "title": "Coefficient derivatives are exact at every nesting", "statement": "For every tree of mesh-dependent, continuation, weighted and user coefficients whose user-supplied leaves report exact derivatives, EvalStateDeriv is the derivative of Eval with respect to the state, EvalState2ndDeriv the derivative of that (false in the code below a continuation coefficient) and EvalRevDiff adds the exact gradient with respect to the mesh nodes.", "quantifier": "all coefficient trees, states, nodes and seeds", "why_tests_cant": "derivative identities for all trees of unbounded depth", "anchors": ["src/common/coefficient.cpp: MeshDependentCoefficient, ParameterContinuationCoefficient"]}
{"id": "C81", "title": "Inputs reach every material", "statement": "After setInputs on a mesh-dependent coefficient every registered coefficient and the default have received the inputs; doing it twice is the same as once (false in the code below a continuation coefficient, which does not forward inputs).", "quantifier": "all coefficient trees and input dictionaries", "why_tests_cant": "ranges over all nestings of coefficients and all dictionaries; a test has one level and one material", "anchors": ["src/common/coefficient.cpp: setInputs"]}
{"id": "C82", "title": "Coupled residual uses the control state it is given", "statement": "Evaluating the coupled flow-control residual evaluates the flow residual with exactly the control velocity the control law gives for the control part of the state being evaluated, the current gains and the current boundary entropy (not for a previously stored control state), and the control law pushes against the entropy error.", "quantifier": "all gains, states, boundary entropies and input dictionaries", "why_tests_cant": "the control velocity is set by side effect, so the property ranges over what earlier evaluations left behind", "anchors": ["src/physics/fluidflow/flow_control_residual.cpp: FlowControlResidual::evaluate, ControlResidual::getControlVelocity"]}
{"id": "C83", "title": "Polynomial bases are orthonormal", "statement": "The normalised Jacobi values (beta = 0, natural alpha) are orthonormal on [-1,1] for the weight (1-x)^alpha, and the functions filling the columns of the triangle and tetrahedron Vandermonde matrices are orthonormal over the reference triangle and tetrahedron, for all pairs of column indices.", "quantifier": "all degrees and pairs of columns", "why_tests_cant": "integrals over a continuum, all degrees", "anchors": ["src/common/orthopoly.cpp: jacobiPoly, prorioPoly, getVandermondeForTri, getVandermondeForTet"]}
{"id": "C84", "title": "Vandermonde columns are polynomials", "statement": "On the reference triangle and tetrahedron, including the vertices and edges where the collapsed coordinates are undefined, the column function of index (i,j) or (i,j,k) is a polynomial of total degree at most the sum of its indices.", "quantifier": "all indices, all points of the element", "why_tests_cant": "all degrees, every point of the element", "anchors": ["src/common/orthopoly.cpp: prorioPoly"]}
{"id": "C85", "title": "SBP derivative interfaces are one operator", "statement": "On every SBP element all interfaces (strong and weak matrices, rows, single entries, matrix-vector products, transposed or not) apply the same derivative operator; the weak operator and its transpose are adjoint, discrete integration by parts holds exactly up to the boundary operator Q+Q^T, skew entries are skew under exchanging nodes, and the reverse mode of the skew entry is exact.  The shape-function gradient at a node is the derivative row (false in the code: CalcDShape divides entry j by the weight of node j, not of the evaluation node).", "quantifier": "all SBP elements (node counts, operators, weights), vectors, directions, mapping Jacobians", "why_tests_cant": "operator identities for every vector and every operator table", "anchors": ["src/common/sbp_fe.cpp: multWeakOperator, getStrongOperator, getWeakOperator, getSkewEntry, getQEntry, getSkewEntryRevDiff, CalcDShape"]}
{"id": "C86", "title": "SBP projection operator", "statement": "The matrix, entry and product forms of the LPS projection agree and the transposed product is their transpose; when the Vandermonde matrix is orthonormal in the element norm the projection annihilates every polynomial of the element's degree, is idempotent, self-adjoint and a contraction in the element norm, and its transposed form conserves the element sum.", "quantifier": "all SBP elements, all vectors", "why_tests_cant": "identities and inequalities for every vector", "anchors": ["src/common/sbp_fe.cpp: getProjOperator, getProjOperatorEntry, multProjOperator"]}
{"id": "C87", "title": "SBP shape functions away from nodes", "statement": "Evaluating an SBP element at a point that is not one of its nodes reproduces every polynomial of the element's degree exactly (holds on triangles and tetrahedra; false in the code on segments, where the value is off by a factor sqrt 2 for constants); at a stored node it returns the nodal value of every solution.", "quantifier": "all points of the element, all polynomials up to the degree", "why_tests_cant": "exactness for every polynomial at every point of the element, not at the nodes and monomials of a test", "anchors": ["src/common/sbp_fe.cpp: CalcShape"]}
{"id": "C88", "title": "SBP node lookup", "statement": "Looking up an integration point returns the first node within the tolerance and throws exactly when no node is that close; looking up a node returns it provided no earlier node is within the tolerance. Derivative evaluation uses the same node whenever one is that close (false in the code: on triangles and tetrahedra its tolerance is 1e-6, and away from all nodes it reads outside the operator instead of throwing).", "quantifier": "all elements and points", "why_tests_cant": "ranges over all node sets and tolerances, including points within the tolerance of several nodes", "anchors": ["src/common/sbp_fe.cpp: getIntegrationPointIndex"]}
{"id": "C89", "title": "Shipped SBP tables are accurate", "statement": "With the operator tables shipped in the code, for every polynomial up to the element's degree the derivative operator is exact up to 2e-15 times the sum of the absolute coefficients, the quadrature integrates every polynomial of the advertised degree up to rounding, all weights are positive and the boundary operator is exactly diagonal (false in the code for the degree-0 triangle).", "quantifier": "all polynomials up to the degree, every node, every shipped triangle and tetrahedron element", "why_tests_cant": "every polynomial, not a sample", "anchors": ["src/common/sbp_fe.cpp: SBPTriangleElement, SBPTetrahedronElement, SBPSegmentElement"]}
{"id": "C90", "title": "Weak-form flux integrator", "statement": "The element functional is alpha times the quadrature sum of the point values; the weak-form element residual is alpha times the transposed derivative operator applied to the nodal fluxes; its components sum to zero over the element for constant test functions up to the boundary operator; and the assembled element gradient is the exact Jacobian of the residual (false in the code when the number of states differs from dimension + 2).", "quantifier": "all elements, states, fluxes with exact Jacobian, mappings", "why_tests_cant": "identities over all SBP operators, states and fluxes; a test has one element and one flux", "anchors": ["src/physics/fluidflow/inviscid_integ_def.hpp: InviscidIntegrator"]}
{"id": "C91", "title": "Two-point flux integrator conserves and balances entropy", "statement": "For every symmetric two-point flux the element residual is the flux-difference form of the skew operator, sums to zero in each state, vanishes for a uniform state up to the boundary operator, and if the two-point flux satisfies the entropy shuffle condition, testing with the entropy variables leaves only the boundary terms of the potential.", "quantifier": "all elements, states, symmetric fluxes, mappings", "why_tests_cant": "identities for every state and operator", "anchors": ["src/physics/fluidflow/inviscid_integ_def.hpp: DyadicFluxIntegrator::AssembleElementVector"]}
{"id": "C92", "title": "Two-point flux integrator gradient", "statement": "The element gradient assembled from the left and right flux Jacobians is the exact Jacobian of the two-point flux residual.", "quantifier": "all elements, states, fluxes with exact Jacobians", "why_tests_cant": "a derivative identity at every state; finite differences on one random state see it only to truncation error", "anchors": ["src/physics/fluidflow/inviscid_integ_def.hpp: DyadicFluxIntegrator::AssembleElementGrad"]}
{"id": "C93", "title": "Local projection stabilisation", "statement": "The LPS residual tested with the converted variables is a weighted sum of scaled quadratic forms of the projected variables, hence non-negative for a positive semi-definite scaling; it conserves the element sum, vanishes when the converted variables are polynomials of the element's degree, and its gradient is the exact Jacobian of the residual (false in the code: the gradient ignores the LPS coefficient unless it is 1).", "quantifier": "all elements, states, scalings, coefficients", "why_tests_cant": "inequality and derivative identity for every state", "anchors": ["src/physics/fluidflow/inviscid_integ_def.hpp: LPSIntegrator"]}
{"id": "C94", "title": "Boundary flux integrator", "statement": "The boundary face residual places alpha times weight times flux at the matching nodes and nothing elsewhere, its total is the quadrature of the flux, testing with the entropy variables gives the face functional of the tested flux, and its gradient is the exact Jacobian.", "quantifier": "all faces, states, boundary fluxes", "why_tests_cant": "every face, node matching and state", "anchors": ["src/physics/fluidflow/inviscid_integ_def.hpp: InviscidBoundaryIntegrator"]}
{"id": "C95", "title": "Interior face integrator", "statement": "The interior face residual is conservative (the two elements receive opposite contributions), testing it with the entropy variables gives alpha times the face functional of the jump, and its gradient is the exact Jacobian (false in the code for negative alpha; the face functional itself ignores alpha).", "quantifier": "all faces, states, face fluxes", "why_tests_cant": "every face, node matching and state", "anchors": ["src/physics/fluidflow/inviscid_integ_def.hpp: InviscidFaceIntegrator"]}
{"id": "C96", "title": "Nonlinear mass integrator", "statement": "The mass residual at each node is alpha times the quadrature weight times the converted state, and its gradient is the exact Jacobian.", "quantifier": "all elements, states, conversions", "why_tests_cant": "a derivative identity at every state and for every conversion of variables", "anchors": ["src/physics/fluidflow/inviscid_integ_def.hpp: NonlinearMassIntegrator"]}
{"id": "C97", "title": "Euler volume term: entropy balance, conservation, free stream", "statement": "On every SBP element and for physical nodal states in either variable set, the Ismail-Roe volume integrator's reported entropy change equals the assembled residual tested with the entropy variables; it reduces to the boundary terms of the entropy potential; mass, momentum and energy change only through the boundary operator; a uniform flow gives no residual when the metric identities hold; and conservative and entropy variables give the same residual.", "quantifier": "all elements, mappings, physical states, both variable sets, every dimension", "why_tests_cant": "identities for every state and operator table", "anchors": ["src/physics/fluidflow/euler_integ_def.hpp: IsmailRoeIntegrator", "src/physics/fluidflow/inviscid_integ_def.hpp: DyadicFluxIntegrator::GetElementEnergy"]}
{"id": "C98", "title": "Euler stabilisation is entropy dissipative", "statement": "The entropy-stable LPS term never produces entropy, its reported entropy change is the residual tested with the entropy variables, it conserves mass, momentum and energy, leaves a uniform flow untouched, and scales by the average spectral radius over the rows of the adjugate (false in the code for sheared mappings: the untransposed adjugate is passed, so columns are used).", "quantifier": "all elements, mappings, physical states, coefficients", "why_tests_cant": "inequality over a continuum of states", "anchors": ["src/physics/fluidflow/euler_integ_def.hpp: EntStableLPSIntegrator", "src/physics/fluidflow/inviscid_integ_def.hpp: LPSIntegrator"]}
{"id": "C99", "title": "Entropy exchanged by Euler boundary conditions", "statement": "Tested with the entropy variables, the slip wall gives exactly the entropy potential, the control boundary the potential minus control times scale times |n| times the entropy, and the time-dependent entropy-conserving boundary exactly the entropy carried by the boundary state (although the functional's flux is computed in storage shared with the boundary state); each face functional is the face residual tested with the entropy variables.", "quantifier": "all physical states, normals, boundary states and control values", "why_tests_cant": "identities over a continuum", "anchors": ["src/physics/fluidflow/euler_integ_def.hpp: SlipWallBC, ControlBC, EntropyConserveBC, calcBndryFun"]}
{"id": "C100", "title": "Euler functionals", "statement": "The pressure force is p(n.e); the entropy output integrates -rho s/(gamma-1) in either variable set; the boundary-entropy functional gives the same value in either variable set (false in the code: the pressure is computed from entropy variables as if conservative); the far-field supply rate is the entropy exchanged by the far-field condition (false in the code: it uses a different flux, and throws in entropy variables); the control supply rate is minus control times boundary entropy (false in the code when the wall pressure differs from the reference).", "quantifier": "all physical states, normals, far-field states", "why_tests_cant": "identities over a continuum", "anchors": ["src/physics/fluidflow/euler_integ_def.hpp: PressureForce, EntropyIntegrator, BoundaryEntropy, FarFieldBC::calcBndryFun"]}
{"id": "C101", "title": "Interior faces never produce entropy", "statement": "For every pair of physical states the interface functional is at least the jump of the entropy potential up to 1e-16 relative to the mass flux, equals it within that bound without dissipation, vanishes when the states agree, and is the assembled face residual tested with the entropy variables.", "quantifier": "all physical state pairs, normals, non-negative coefficients, both variable sets", "why_tests_cant": "inequality over a continuum of state pairs", "anchors": ["src/physics/fluidflow/euler_integ_def.hpp: InterfaceIntegrator"]}
{"id": "C102", "title": "Semi-discrete entropy stability of the whole flow discretisation", "statement": "On every conforming mesh of SBP elements (any number of elements, any connectivity), the entropy change reported by the flow residual for a discontinuous discretisation is at least the entropy supplied through the boundary minus 1e-16 times the flow masses; with stabilisation and dissipation off it equals it within that bound; continuous discretisations likewise; with slip walls all around nothing is supplied, and with control boundaries exactly the control's entropy.", "quantifier": "all conforming meshes, physical states, boundary conditions, both variable sets, dsbp and csbp", "why_tests_cant": "all meshes of every size and all states", "anchors": ["src/physics/fluidflow/flow_residual.cpp: addFlowIntegrators, addFlowDomainIntegrators, addFlowInterfaceIntegrators, calcEntropyChange"]}
{"id": "C103", "title": "Viscous flux is the Navier-Stokes flux", "statement": "Applied to the gradient of the entropy variables of any differentiable physical flow field, the viscous scaling returns the compressible Navier-Stokes viscous flux: no mass, the Newtonian stress with the Stokes hypothesis, and its work plus Fourier heat conduction with conductivity gamma mu/((gamma-1) Pr).", "quantifier": "all dimensions, flow fields, points, viscosities and Prandtl numbers", "why_tests_cant": "an identity between derivatives at every state and gradient", "anchors": ["src/physics/fluidflow/navier_stokes_fluxes.hpp: applyCijMatrix, applyViscousScaling"]}
{"id": "C104", "title": "Viscous terms are symmetric and never produce entropy", "statement": "The diffusion matrices satisfy C_ij^T = C_ji, and for every physical state and every gradient of the entropy variables in at most three dimensions the quadratic form is non-negative, equal to viscosity times squared deviatoric strain plus conductivity times squared temperature gradient, and zero only for strain-free isothermal gradients.", "quantifier": "all physical states, gradients, non-negative viscosities, dim <= 3", "why_tests_cant": "definiteness over a continuum of states and gradients", "anchors": ["src/physics/fluidflow/navier_stokes_fluxes.hpp: applyCijMatrix"]}
{"id": "C105", "title": "Sutherland viscosity", "statement": "The viscosity is Sutherland's law in the temperature ratio: positive, strictly increasing with temperature, and equal to 1 in the free stream for every Mach number and angle of attack.", "quantifier": "all physical states, all free streams", "why_tests_cant": "monotonicity and positivity over the whole range of temperatures", "anchors": ["src/physics/fluidflow/navier_stokes_fluxes.hpp: calcSutherlandViscosity"]}
{"id": "C106", "title": "No-slip adiabatic wall is entropy stable", "statement": "For every physical state and gradient the no-slip adiabatic wall flux, tested with the entropy variables, is at least the entropy potential, with equality exactly when there is no slip; it carries no mass, no energy at a state without slip, reduces to the viscous flux when the normal temperature derivative vanishes, and the dual-consistency term is the exact adjoint of the wall flux.", "quantifier": "all physical states, gradients, wall normals, reference states, viscosities", "why_tests_cant": "stability for all states and gradients", "anchors": ["src/physics/fluidflow/navier_stokes_fluxes.hpp: calcAdiabaticWallFlux, calcNoSlipPenaltyFlux, calcNoSlipDualFlux", "src/physics/fluidflow/navier_stokes_integ_def.hpp: NoSlipAdiabaticWallBC::calcFlux"]}
{"id": "C107", "title": "Other viscous boundary fluxes", "statement": "The viscous slip wall exchanges exactly the entropy potential; inflow, outflow and far field reduce to the inviscid flux at their own state; the control boundary exchanges at least the entropy of the inviscid control and is the no-slip wall when switched off far from the actuator; the control penalty vanishes exactly at the control velocity; the exact-solution boundary is consistent with the exact flux (false in the code when the solution has a normal derivative, which is removed).", "quantifier": "all physical states, gradients, normals, controls", "why_tests_cant": "identities over all states, gradients and normals; a test evaluates each flux at one state", "anchors": ["src/physics/fluidflow/navier_stokes_integ_def.hpp: ViscousSlipWallBC, ViscousInflowBC, ViscousOutflowBC, ViscousExactBC, ViscousControlBC calcFlux", "src/physics/fluidflow/navier_stokes_fluxes.hpp: setZeroNormalDeriv, calcControlPenaltyFlux"]}
{"id": "C108", "title": "Surface force is pressure plus friction", "statement": "The surface-force functional is the projection of the momentum part of the wall flux used by the residual, and for a flow field without slip at the wall it equals pressure minus viscous traction along the force direction.", "quantifier": "all flow fields, walls, directions", "why_tests_cant": "relates two separately coded formulas for every flow field without slip", "anchors": ["src/physics/fluidflow/navier_stokes_integ_def.hpp: SurfaceForce::calcBndryFun"]}
{"id": "C109", "title": "Nodal gradient of the converted variables", "statement": "The gradient the viscous integrators use at a node is the mapped SBP derivative of the converted variables; it vanishes for a uniform state when the metric identities hold; and on an affine element it is exact whenever the converted variables are linear in space and the element differentiates linear functions exactly.", "quantifier": "all SBP elements, mappings, variable conversions, states, nodes", "why_tests_cant": "all operator tables, mappings and states", "anchors": ["src/physics/fluidflow/viscous_integ_def.hpp: SymmetricViscousIntegrator, ViscousBoundaryIntegrator"]}
{"id": "C110", "title": "Symmetric viscous volume term", "statement": "The residual of the symmetric viscous integrator tested with any function is alpha times the quadrature of the test gradient against the scaled gradient; its reported entropy change is the residual tested with the entropy variables, equals the quadrature of the dissipation and is non-negative whenever the pointwise form is; it conserves every component; vanishes for a uniform state; and its gradient is the exact Jacobian.", "quantifier": "all SBP elements, mappings, conversions, scalings, states, alpha", "why_tests_cant": "identities for every state, operator table and test function", "anchors": ["src/physics/fluidflow/viscous_integ_def.hpp: SymmetricViscousIntegrator::GetElementEnergy, AssembleElementVector, AssembleElementGrad"]}
{"id": "C111", "title": "Viscous boundary term", "statement": "The boundary functional is the face quadrature; the boundary residual tested with any function is the quadrature of the tested flux plus the dual flux against the test gradient; without a dual flux testing with the entropy variables gives the functional; and the gradient is the exact Jacobian for every alpha (false in the code for alpha different from 1: the residual scales the flux by alpha, the gradient does not).", "quantifier": "all faces, elements, fluxes, states", "why_tests_cant": "identities for every state, face and flux", "anchors": ["src/physics/fluidflow/viscous_integ_def.hpp: ViscousBoundaryIntegrator"]}
{"id": "C112", "title": "Gradient of the surface force functional", "statement": "The vector assembled as derivative of the surface-force functional is its exact gradient with respect to the state (false in the code for alpha different from 1: the functional is scaled by alpha, its derivative is not).", "quantifier": "all faces, elements, functionals, states", "why_tests_cant": "the gradient at every state; the wrong factor is invisible whenever alpha is 1", "anchors": ["src/physics/fluidflow/navier_stokes_integ_def.hpp: SurfaceForce::AssembleFaceVector"]}
{"id": "C113", "title": "Viscous volume term of the flow residual", "statement": "On every SBP element the viscous term of the flow residual, tested with any field v, is the quadrature of the SBP gradient of v against the viscous fluxes computed from the SBP gradient of the entropy variables; the entropy change it reports is the (non-negative) viscous dissipation, it diffuses no mass, conserves momentum and energy element-wise, vanishes on uniform flow, and reproduces the exact Navier-Stokes flux for flows linear in entropy variables. This should hold in conservative and entropy variables alike.", "quantifier": "all elements with diagonal boundary operators, mappings, admissible states, viscosities (constant or Sutherland), Reynolds and Prandtl numbers, test fields", "why_tests_cant": "the weak form and the sign of the dissipation range over all states, meshes and test functions", "anchors": ["src/physics/fluidflow/navier_stokes_integ.hpp:ESViscousIntegrator", "src/physics/fluidflow/viscous_integ_def.hpp", "src/physics/fluidflow/flow_residual.cpp:172-175"]}
{"id": "C114", "title": "Entropy stability of the Navier-Stokes discretisation", "statement": "The entropy change reported by the viscous flow residual is at least the viscous dissipation plus what the boundary conditions supply (nothing at slip and no-slip walls; the blowing rate times the wall entropy at control boundaries), so a box closed by walls can never gain mathematical entropy beyond rounding.", "quantifier": "all conforming meshes, continuous admissible states, viscosities, Re, Pr > 0 and combinations of slip, no-slip, far-field, exact and control boundaries", "why_tests_cant": "needs every mesh and every state; a run samples one trajectory", "anchors": ["src/physics/fluidflow/flow_residual.cpp:139-190,308-374,445-459", "src/physics/fluidflow/navier_stokes_integ_def.hpp"]}
{"id": "C115", "title": "Constant-CFL time step", "statement": "With const-cfl the step size is the largest dt such that, at every node of every element, the distance to every other node of that element divided by the fastest wave speed towards it (|u.n| plus sound speed) times the CFL number is not exceeded; it is positive, independent of the partition into ranks and of the working variables, and is computed from the current state; a run of solveForState ends exactly at t-final.", "quantifier": "all meshes, states, CFL numbers, partitions, working variables, time-step functions, initial and final times", "why_tests_cant": "a minimum over all node pairs and all trajectories; a test checks one mesh, and a stale state or an overshoot is invisible in a steady run", "anchors": ["src/physics/fluidflow/flow_residual.cpp:572-630", "src/physics/fluidflow/flow_solver.cpp:135-190", "src/physics/fluidflow/flow_control_solver.cpp:346-357", "src/physics/pde_solver.cpp:535"]}
{"id": "C116", "title": "Drag and lift directions", "statement": "Drag and lift coefficients are the components of the wall force along two orthonormal directions, rotated by the angle of attack in the plane of the roll and pitch axes and divided by Mach squared; together they determine an in-plane force; every accepted choice of axes is usable.", "quantifier": "all dimensions, angles of attack, Mach numbers and accepted roll/pitch axes", "why_tests_cant": "orthogonality must hold for every angle; an out-of-range axis corrupts memory silently", "anchors": ["src/physics/fluidflow/flow_residual.cpp:395-419,703-760"]}
{"id": "C117", "title": "Boundary conditions and options of the flow residual", "statement": "Every boundary condition in the options is applied exactly once to exactly its attributes or set-up fails with a diagnostic; the order of keys is irrelevant; unsupported combinations (entropy variables with unsteady runs or non-IR flux, DG with viscosity) are rejected; the pump boundary supplies a full physical state moving with the piston in every dimension.", "quantifier": "all option trees, dimensions, working variables, times", "why_tests_cant": "any combination of keys is possible; tests exercise the few used in regressions", "anchors": ["src/physics/fluidflow/flow_residual.cpp:139-376", "src/physics/fluidflow/flow_solver.cpp:20-60"]}
{"id": "C118", "title": "Conservative-variable error norm", "statement": "calcConservativeVarsL2Error is a norm of the difference of the conservative states: its square is the quadrature of the squared differences, the full error collects the entries, it vanishes exactly when the states agree at every node, obeys the triangle inequality and does not depend on the working variables.", "quantifier": "all meshes with positive weights, discrete and exact states, entries, working variables", "why_tests_cant": "norm axioms quantify over all states", "anchors": ["src/physics/fluidflow/flow_residual.cpp:633-700"]}
{"id": "C119", "title": "Diagonal SBP mass matrix", "statement": "The element mass matrix couples neither nodes nor states, is positive definite on uninverted elements, integrates constants to the volume, and with a space-varying time step scales each weight by J^(-1/dim).", "quantifier": "all numbers of states and nodes, cubature weights, element Jacobians, dimensions", "why_tests_cant": "all layouts and Jacobians; a wrong stride only shows for several states", "anchors": ["src/physics/diag_mass_integ.cpp:8-38"]}
{"id": "C120", "title": "Control footprint", "statement": "The blowing profile of control boundaries and outputs is exp(-|x-xc|^2/len^2): in (0,1], one exactly at the centre, decreasing with distance, and defined in every dimension the solver supports.", "quantifier": "all points, centres, widths, dimensions", "why_tests_cant": "a continuum of points; the size mismatch is undefined behaviour", "anchors": ["src/utils/utils.cpp:51-55", "src/physics/fluidflow/flow_residual.cpp:280-298,355-373,785-800"]}
{"id": "C121", "title": "Nonlinear diffusion element: weak form, conservation, dissipation, monotonicity, exact symmetric Jacobian, stored energy", "statement": "The element residual of the nonlinear diffusion operator (heat conduction, two-dimensional magnetostatics) tested with any function is the quadrature of nu(|grad u|) grad u . grad psi over the mapped element; it annihilates constants and its entries sum to zero; with positive coefficient it dissipates (u.R(u) >= 0, zero only for vanishing gradients) and with non-decreasing flux it is monotone; the assembled Jacobian is the derivative of the residual in every direction (also where the gradient vanishes), is symmetric, and positive semidefinite when nu + s nu' >= 0; the residual is the gradient of the stored energy. Below the 1e-14 guard the Jacobian is not the derivative.", "quantifier": "all element types (shape functions, mappings with positive determinant, quadrature rules, any dimension), all coefficient functions with derivatives, all states and directions", "why_tests_cant": "Each statement is about all states, coefficients and mappings; a finite-difference test fixes a few.", "anchors": ["src/physics/electromagnetics/electromag_integ.cpp: NonlinearDiffusionIntegrator::AssembleElementVector, AssembleElementGrad"]}
{"id": "C122", "title": "Mesh sensitivity of the nonlinear diffusion element is the derivative under every node motion", "statement": "The vector assembled by the mesh-sensitivity integrator of the nonlinear diffusion element, multiplied with any motion of the mesh nodes, equals the derivative of the adjoint-weighted residual under that motion, whenever residual and sensitivity use the same quadrature points and MFEM's reverse-differentiated Jacobian routines are the adjoints of the forward ones; on refined tensor-product elements the two use different quadrature rules.", "quantifier": "all elements, mesh motions, states, adjoints, coefficient functions, quadrature rules", "why_tests_cant": "The identity must hold for every direction of motion and every state.", "anchors": ["src/physics/electromagnetics/electromag_integ.cpp: NonlinearDiffusionIntegratorMeshRevSens::AssembleRHSElementVect"]}
{"id": "C123", "title": "Magnetic energy density: reported first and second derivatives, constitutive law, positivity", "statement": "The reported derivative (and second derivative) of the magnetic energy density with respect to the flux magnitude is the derivative of the reported density for every rule and differentiable reluctivity; for polynomial reluctivities within the rule's exactness the density is the integral of nu(b) b and its derivative is the field intensity nu(B) B; the density is zero without field and positive otherwise.", "quantifier": "all flux magnitudes, differentiable reluctivities, segment rules", "why_tests_cant": "Holds for every flux value and material curve.", "anchors": ["src/physics/electromagnetics/electromag_integ.cpp: calcMagneticEnergy, calcMagneticEnergyDot, calcMagneticEnergyDoubleDot"]}
{"id": "C124", "title": "Weakly imposed boundary values of the nonlinear diffusion operator: weak form, consistency, stability, Jacobian", "statement": "Tested with any function, the boundary-face residual is the quadrature of nu(|grad u|) (-d_n u psi - (u-g) d_n psi + mu |n|^2/det (u-g) psi); if u has the imposed value only the physical flux remains for every penalty; the entries sum to flux plus penalty; with zero data and positive coefficients u.R(u) is bounded below by minus the squared normal derivative over the penalty; the assembled face Jacobian is the derivative of the residual and symmetric for gradient-independent diffusivities. It is not the derivative for diffusivities that vary in space: their derivative is evaluated with the face point's coordinates instead of the element's.", "quantifier": "all boundary faces, elements, rules, diffusivities, boundary data, penalties, states, test functions, directions", "why_tests_cant": "The identities quantify over all states, test functions, directions and geometries.", "anchors": ["src/physics/electromagnetics/electromag_integ.cpp: NonlinearDGDiffusionIntegrator::AssembleFaceVector, AssembleFaceGrad"]}
{"id": "C125", "title": "Interface terms of the discontinuous nonlinear diffusion operator: interior-penalty weak form, conservation, consistency, orientation, Jacobian", "statement": "Tested with any pair of functions, the interface residual is the quadrature of -{nu d_n u}[psi] - [u]{nu d_n psi} + sigma [u][psi]; what one element loses the other gains; a continuous function feels no penalty and a common constant nothing at all; the penalty bounds u.R(u) from below; exchanging the two elements and reversing the normal exchanges the two parts; the assembled face Jacobian is the derivative of both parts with respect to both states (for diffusivities with space-independent derivative) and is symmetric for gradient-independent diffusivities.", "quantifier": "all interfaces, pairs of elements, rules, diffusivities, penalties, states, test functions, directions", "why_tests_cant": "The identities quantify over all states, test functions, directions and geometries.", "anchors": ["src/physics/electromagnetics/electromag_integ.cpp: DGInteriorFaceDiffusionIntegrator::AssembleFaceVector, AssembleFaceGrad"]}
{"id": "C126", "title": "Mesh sensitivities of the face terms of the discontinuous diffusion operator are derivatives under every node motion", "statement": "The vectors assembled by the mesh-sensitivity integrators of boundary and interface diffusion terms, multiplied with any motion of the mesh nodes (the face nodes moving with their element), equal the derivative of the adjoint-weighted residual. For interfaces this holds also where the gradient vanishes; for boundary faces a vanishing gradient at a face point makes the whole sensitivity not a number, and on tensor-product elements residual and sensitivity use rules of different order.", "quantifier": "all faces, node motions, states, adjoints, diffusivities, rules", "why_tests_cant": "The identity must hold for every direction of motion and every state, including states with vanishing gradient.", "anchors": ["src/physics/electromagnetics/electromag_integ.cpp: NonlinearDGDiffusionIntegratorMeshRevSens::AssembleRHSElementVect, DGInteriorFaceDiffusionIntegratorMeshRevSens::AssembleRHSElementVect"]}
{"id": "C127", "title": "DC winding loss: value, forward and reverse derivatives", "statement": "The DC loss output is sqrt(2) I^2 rho L/(pi r^2 n V); its forward derivative with respect to wire length, current, strand radius, strands in hand, mesh and temperature is the derivative of that value, its reverse derivative is the transpose of the forward one and is added to the vector passed in, for every input name that begins with a documented name; other names have zero derivatives.", "quantifier": "all windings, resistivity and volume functionals with correct derivatives, directions, input names", "why_tests_cant": "The identities quantify over all real inputs, directions and names.", "anchors": ["src/physics/electromagnetics/electromag_outputs.cpp: calcOutput/jacobianVectorProduct/vectorJacobianProduct(DCLossFunctional)"]}
{"id": "C128", "title": "AC winding loss: value, forward and reverse derivatives", "statement": "The AC loss output is 2nNS L pi r^4 (2 pi f)^2 int(sigma B^2)/(8V); its reverse derivatives with respect to all scalar inputs, the mesh, the peak flux and the temperature are its derivatives, and so are the forward ones except that with respect to the frequency, which uses the third instead of the fourth power of the strand radius and is therefore wrong by the factor 1/r.", "quantifier": "all windings, integrals with correct derivatives, directions, input names", "why_tests_cant": "The identities quantify over all real inputs, directions and names; a test with radius one would pass.", "anchors": ["src/physics/electromagnetics/electromag_outputs.cpp: calcOutput/jacobianVectorProduct/vectorJacobianProduct(ACLossFunctional)"]}
{"id": "C129", "title": "Element integrals of the winding losses and their sensitivities", "statement": "The element integrals of the loss functionals are the quadratures of 1/sigma(T) and sigma(T) B^2, and their temperature, peak-flux and mesh sensitivities are their derivatives, including the motion of the conductivity and the flux shape functions.", "quantifier": "all elements, rules, conductivities, temperatures, fluxes, directions, mesh motions", "why_tests_cant": "Derivative identities over all states and directions.", "anchors": ["src/physics/electromagnetics/electromag_integ.cpp: DCLossFunctionalIntegrator, ACLossFunctionalIntegrator and their MeshSens, TemperatureSens, PeakFluxSens"]}
{"id": "C130", "title": "Winding heat distributions and their reverse sensitivities", "statement": "The heat distributions handed to the thermal solver are the quadratures of the DC and AC loss densities against the temperature shape functions; all scalar, temperature and peak-flux reverse sensitivities are derivatives of the adjoint-weighted load, the mesh sensitivity too if conductivity and flux shape functions do not move with the mesh (false otherwise), and the output's mesh derivative adds the part through the winding volume.", "quantifier": "all elements, rules, conductivities, states, adjoints, inputs, directions, mesh motions", "why_tests_cant": "Derivative identities over all states, inputs and directions.", "anchors": ["src/physics/electromagnetics/electromag_integ.cpp: DCLossDistributionIntegrator*, ACLossDistributionIntegrator*", "src/physics/electromagnetics/electromag_outputs.cpp: vectorJacobianProduct(DCLossDistribution), vectorJacobianProduct(ACLossDistribution)"]}
{"id": "C131", "title": "Winding heat adds up to the winding loss", "statement": "Summed over the whole winding, the DC and AC heat distributions equal the corresponding loss outputs divided by the stack length if both use the same quadrature points; the default rules coincide for the DC loss on equal elements but differ for the AC loss on simplices.", "quantifier": "all meshes, elements with a partition of unity, inputs", "why_tests_cant": "All meshes and states; an energy balance.", "anchors": ["src/physics/electromagnetics/electromag_integ.cpp: DCLossDistributionIntegrator::AssembleRHSElementVect, ACLossDistributionIntegrator::AssembleRHSElementVect", "src/physics/electromagnetics/electromag_outputs.cpp: calcOutput(DCLossFunctional), calcOutput(ACLossFunctional)"]}
{"id": "C132", "title": "Force and torque outputs obey the virtual-work principle", "statement": "The force (torque) contribution of an element equals minus the derivative of its magnetic energy (quadrature of the energy density of the flux magnitude over the mapped element) along the virtual displacement of its nodes, at fixed potential coefficients, in two and three dimensions.  Displacements below 1e-14 count as zero and a point of zero flux density makes the code divide by zero, so the theorem covers positively oriented elements with non-zero flux at the quadrature points.", "quantifier": "all elements, node positions, virtual displacements, states, energy densities, quadrature rules", "why_tests_cant": "The identity is a derivative statement for every field, mesh and displacement; a finite-difference test fixes one of each.", "anchors": ["src/physics/electromagnetics/electromag_integ.cpp: ForceIntegrator3::GetElementEnergy"]}
{"id": "C133", "title": "State gradient of force and torque", "statement": "The vector assembled as the state derivative of the force (torque) is the gradient of the computed force with respect to the state coefficients, in two and three dimensions, also for body elements and ignored displacements, whenever the flux density is non-zero at every quadrature point.", "quantifier": "all elements, states, directions, displacements, energy densities", "why_tests_cant": "Adjoint solves need the exact gradient at every state.", "anchors": ["src/physics/electromagnetics/electromag_integ.cpp: ForceIntegrator3::AssembleElementVector"]}
{"id": "C134", "title": "Mesh sensitivity of force and torque", "statement": "The vector assembled as the mesh sensitivity of the force (torque), multiplied with any motion of the mesh nodes, is the derivative of the computed force under that motion with state and virtual displacement held fixed, given MFEM's reverse-differentiated mappings, whenever the flux density is non-zero at every quadrature point.", "quantifier": "all elements, mesh motions, states, displacements, energy densities", "why_tests_cant": "The identity must hold for every direction of motion.", "anchors": ["src/physics/electromagnetics/electromag_integ.cpp: ForceIntegratorMeshSens3::AssembleRHSElementVect"]}
{"id": "C135", "title": "Virtual displacements: linearity, rigid motion, torque field", "statement": "The force is linear in the virtual displacement (above the 1e-14 threshold); elements that move rigidly contribute nothing, so that leaving out the elements of the body is exact; elements that do not move contribute nothing; the torque field is the velocity of a rotation about the axis (perpendicular to axis and lever arm, right-handed, zero on the axis, independent of the length of the axis vector) and the displacement is the prescribed field at exactly the nodes of the listed attributes and zero elsewhere.", "quantifier": "all displacements, axes, pivots, meshes, attribute lists", "why_tests_cant": "A statement about all displacement fields and element positions.", "anchors": ["src/physics/electromagnetics/electromag_integ.cpp: ForceIntegrator3::GetElementEnergy", "src/physics/electromagnetics/electromag_outputs.cpp: setOptions(ForceFunctional&), setOptions(TorqueFunctional&)"]}
{"id": "C136", "title": "Curl-curl element: weak form, gauge invariance, energy", "statement": "On three-dimensional meshes the element residual of the magnetostatic problem tested with any field psi is the quadrature of nu(|B|) B.curl(psi) with B = curl A; it does not change when a curl-free field is added to A and is orthogonal to every curl-free field; it is the derivative of the stored magnetic energy in every direction; with positive reluctivity A.R(A) is non-negative and zero only for zero flux density; with non-decreasing H(B) it is monotone.", "quantifier": "all elements of positive orientation, quadrature rules, reluctivity curves, states and test fields", "why_tests_cant": "identities and inequalities over all states and shapes", "anchors": ["src/physics/electromagnetics/electromag_integ.cpp:CurlCurlNLFIntegrator::AssembleElementVector", "src/physics/electromagnetics/magnetostatic_residual.cpp:MagnetostaticResidual"]}
{"id": "C137", "title": "Curl-curl element: Jacobian and sensitivities", "statement": "The element matrix is the derivative of the element residual in every direction, is symmetric, positive semidefinite for non-negative differential reluctivity, and annihilates curl-free fields; the forward state sensitivity is its product with a direction and the reverse one the transposed product; the mesh sensitivity multiplied with any motion of the nodes is the derivative of the adjoint-weighted residual (false in the code for alpha other than 1; undefined where the flux density vanishes).", "quantifier": "all states, directions, adjoints, node motions", "why_tests_cant": "derivative identities over all states; tests probe one state with finite differences", "anchors": ["src/physics/electromagnetics/electromag_integ.cpp:CurlCurlNLFIntegrator::AssembleElementGrad", "src/physics/electromagnetics/electromag_integ.cpp:CurlCurlNLFIntegratorStateRevSens", "src/physics/electromagnetics/electromag_integ.cpp:CurlCurlNLFIntegratorStateFwdSens", "src/physics/electromagnetics/electromag_integ.cpp:CurlCurlNLFIntegratorMeshRevSens"]}
{"id": "C138", "title": "Magnetic energy output", "statement": "The energy output is the quadrature of the energy density over the mesh; its state gradient is the gradient with respect to the potential and coincides with the magnetostatic residual on the same quadrature points; its mesh sensitivity is the derivative under node motion; the force output is minus its derivative along the virtual displacement (the default quadrature rules of residual and energy differ on simplices).", "quantifier": "all elements, states, reluctivities, node motions", "why_tests_cant": "consistency of independently coded integrators at every state", "anchors": ["src/physics/electromagnetics/electromag_integ.cpp:MagneticEnergyIntegrator", "src/physics/electromagnetics/electromag_integ.cpp:MagneticEnergyIntegratorMeshSens"]}
{"id": "C139", "title": "Permanent-magnet source in two dimensions", "statement": "The magnet source tested with psi is minus the integral of M(T).curl(psi), injects no net current, and its mesh and temperature sensitivities are the derivatives of the adjoint-weighted source; with a constant reluctivity in the magnet the whole residual is the integral of nu (B-M).curl(psi) (false in the code for a flux-dependent reluctivity, which the source evaluates at the temperature).", "quantifier": "all elements, temperatures, magnetisations, adjoints, node motions", "why_tests_cant": "derivatives and identities at all inputs; the reluctivity error is invisible with linear magnets", "anchors": ["src/physics/electromagnetics/electromag_integ.cpp:MagnetizationSource2DIntegrator", "src/physics/electromagnetics/electromag_integ.cpp:MagnetizationSource2DIntegratorMeshRevSens", "src/physics/electromagnetics/electromag_integ.cpp:MagnetizationSource2DIntegratorTemperatureSens", "src/common/coefficient.cpp:ScalarVectorProductCoefficient::Eval"]}
{"id": "C140", "title": "CAL2 core-loss coefficients", "statement": "A CAL2 coefficient (kh or ke) interpolates linearly in temperature between the two fitted polynomials of the peak flux density, is nonnegative for nonnegative fits inside the temperature range, and the returned temperature, frequency, flux and second derivatives are the derivatives of the value, for every temperature, frequency and flux density (false in the code at zero flux density, where the flux derivative is not a number, and, for a fit without constant term, the value too).", "quantifier": "all fits, temperatures, frequencies, flux densities", "why_tests_cant": "derivatives at a continuum of inputs; the singularity at zero flux hides from sampled states", "anchors": ["src/physics/electromagnetics/cal2_kh_coefficient.cpp:CAL2khCoefficient", "src/physics/electromagnetics/cal2_ke_coefficient.cpp:CAL2keCoefficient"]}
{"id": "C141", "title": "Permanent-magnet demagnetization constraint", "statement": "The constraint at a flux density and temperature is the distance between the two branches of the demagnetization curve, positive exactly above the knee; its first and second derivatives are exact.", "quantifier": "all magnets, flux densities, temperatures at which the curve is defined", "why_tests_cant": "sign and derivatives over a continuum of inputs", "anchors": ["src/physics/electromagnetics/pm_demag_constraint_coeff.cpp:PMDemagConstraintCoefficient"]}
{"id": "C142", "title": "Temperature laws of conductivity and magnet fluxes", "statement": "The conductivity has an affine resistivity law, is positive and decreasing in its range, remnant and knee flux are affine in the temperature and agree with the demagnetization constraint; each option takes its given value or documented default independently; derivatives are exact.", "quantifier": "all parameters and temperatures", "why_tests_cant": "laws over continua of inputs and all option subsets", "anchors": ["src/physics/electromagnetics/conductivity_coefficient.cpp", "src/physics/electromagnetics/remnant_flux_coefficient.cpp", "src/physics/electromagnetics/demag_flux_coefficient.cpp"]}
{"id": "C143", "title": "Nonlinear reluctivity models", "statement": "The spline reluctivity models are positive, reproduce the fitted curve and tend to the reluctivity of vacuum, are continuous, have exact derivatives, and give a field strength nondecreasing in the flux density (so that the residual is monotone) - false in the code at the last knot for fits that do not end at vacuum reluctivity.", "quantifier": "all fits and flux densities", "why_tests_cant": "monotonicity and derivatives for every fit and every flux density", "anchors": ["src/physics/electromagnetics/reluctivity_coefficient.cpp:logNuBBHReluctivityCoefficient", "src/physics/electromagnetics/reluctivity_coefficient.cpp:BHBSplineReluctivityCoefficient"]}
{"id": "C144", "title": "Construction of material coefficients from options", "statement": "Each attribute named by a component receives that component's model and no other attribute is changed, a component's own parameter overrides the library's, and naming a single attribute with attr or with attrs is equivalent (false in the code for the CAL2, knee flux and demagnetization coefficients, where attr can never succeed).", "quantifier": "all option trees, libraries and component lists", "why_tests_cant": "ranges over all nestings of the options, all libraries and all lists of components", "anchors": ["src/physics/electromagnetics/cal2_kh_coefficient.cpp:constructCAL2_khCoeff", "src/physics/electromagnetics/conductivity_coefficient.cpp:constructConductivityCoeff", "src/physics/electromagnetics/pm_demag_constraint_coeff.cpp", "src/common/coefficient.hpp:MeshDependentCoefficientBase"]}
{"id": "C145", "title": "Core-loss integral and its sensitivities", "statement": "The core-loss functional is the quadrature of rho (kh f B^2 + ke f^2 B^2), nonnegative for nonnegative data; its frequency, temperature, peak-flux and mesh sensitivities are its derivatives for every state (the peak-flux one is not a number in the code when the flux density vanishes at a quadrature point).", "quantifier": "all elements, states, frequencies, material fits, node motions", "why_tests_cant": "gradients for all inputs; the singular case needs an exact zero", "anchors": ["src/physics/electromagnetics/electromag_integ.cpp:CAL2CoreLossIntegrator", "src/physics/electromagnetics/electromag_integ.cpp:CAL2CoreLossIntegratorFreqSens", "src/physics/electromagnetics/electromag_integ.cpp:CAL2CoreLossIntegratorPeakFluxSens", "src/physics/electromagnetics/electromag_integ.cpp:CAL2CoreLossIntegratorTemperatureSens", "src/physics/electromagnetics/electromag_integ.cpp:CAL2CoreLossIntegratorMeshSens"]}
{"id": "C146", "title": "Core-loss heat distribution", "statement": "The core-loss heat load adds up to the core-loss functional on the same points, its reverse sensitivities are the derivatives of the adjoint-weighted load, and the combined heat source and its products are the sums of the DC, AC and core parts.", "quantifier": "all elements, states, adjoints, frequencies, node motions", "why_tests_cant": "conservation and adjoint identities for all states", "anchors": ["src/physics/electromagnetics/electromag_integ.cpp:CAL2CoreLossDistributionIntegrator", "src/physics/electromagnetics/electromag_integ.cpp:CAL2CoreLossDistributionIntegratorFrequencyRevSens", "src/physics/electromagnetics/electromag_outputs.cpp:EMHeatSourceOutput"]}
{"id": "C147", "title": "Demagnetization output", "statement": "The demagnetization output is minus the integral of the demagnetization constraint and its state gradient is the gradient of that value (false in the code for every rule with more than one point, where signs alternate, and for the gradient).", "quantifier": "all meshes, rules, fluxes, temperatures", "why_tests_cant": "cancellation depends on the number of points and the data", "anchors": ["src/physics/electromagnetics/electromag_integ.cpp:PMDemagIntegrator", "src/physics/electromagnetics/electromag_outputs.cpp:PMDemagOutput"]}
{"id": "C148", "title": "Functional outputs: value and products", "statement": "An output's value is that of its form at the supplied state, fields and scalars, independent of earlier calls whenever everything it uses is supplied, and inputs not supplied keep the last supplied value; forward and reverse products are adjoint to each other and are the derivative of the value with respect to the named input (false in the code when the state input is omitted after a derivative call, for products with respect to the state of an output whose state has another name, and for a forward product with a one-entry field).", "quantifier": "all forms, histories of calls, inputs, directions", "why_tests_cant": "All call histories and inputs: stale buffers only show up in particular sequences of calls.", "anchors": ["src/common/functional_output.cpp: calcOutput, jacobianVectorProduct, vectorJacobianProduct, setInputs"]}
{"id": "C149", "title": "Loads: application and products", "statement": "Adding a load changes exactly the degrees of freedom without essential conditions, by the assembled load; the reverse product with respect to a field adds the gradient of the seed-weighted applied load, also at essential degrees of freedom; the reverse product with respect to a scalar and the forward products are derivatives of the applied load (false in the code: the scalar product ignores essential conditions, the forward products return zero).", "quantifier": "all loads, seeds, essential sets, inputs", "why_tests_cant": "All seeds and essential sets; adjoint identities in every direction.", "anchors": ["src/common/miso_linearform.cpp: addLoad, jacobianVectorProduct, vectorJacobianProduct"]}
{"id": "C150", "title": "Thermal interface and boundary conditions are the stated heat exchanges", "statement": "The contact-resistance term tested with (psi1,psi2) is alpha * integral of h (T1-T2)(psi1-psi2): heat leaving one side enters the other, the term dissipates and vanishes exactly when the temperatures agree. Internal convection is alpha * integral of h((T1-theta)psi1+(T2-theta)psi2): each side only sees the fluid, and it dissipates the excess over the fluid temperature. The convection boundary condition is alpha * integral of h(T-theta)psi, monotone; a field at the fluid temperature gives zero residual; an outflux condition integrates to flux times area whatever the state. On a marked interface the perfect-contact terms of the discontinuous discretization are cancelled exactly, in residual and Jacobian.", "quantifier": "all numbers of degrees of freedom on each side, all rules, all states, test fields, coefficients and, for the cancellation, all nonlinear conductivities", "why_tests_cant": "a test samples one mesh and one temperature; the balance and sign statements are about every state, and the cancellation is an identity between two integrators at every nonlinear state", "anchors": ["src/physics/thermal/thermal_integ.cpp:ThermalContactResistanceIntegrator", "src/physics/thermal/thermal_integ.cpp:InternalConvectionInterfaceIntegrator", "src/physics/thermal/thermal_integ.cpp:ConvectionBCIntegrator", "src/physics/thermal/thermal_integ.cpp:OutfluxBCIntegrator", "src/physics/thermal/thermal_residual.cpp:ThermalResidual"]}
{"id": "C151", "title": "Thermal interface and boundary Jacobians are the derivatives of the residuals", "statement": "The matrix assembled for a contact resistance, an internal convection interface, a convection or an outflux boundary condition is the directional derivative of the assembled residual in every direction; contact and boundary-convection Jacobians are symmetric and positive semidefinite. (False for internal convection on curved faces: the residual uses a quadrature rule of order 2p+OrderW, the Jacobian one of order 2p; on a cubic edge with linear elements 11/24 is assembled where the derivative is 7/15.)", "quantifier": "all states, directions, coefficients, rules and numbers of degrees of freedom", "why_tests_cant": "finite-difference tests on straight meshes use the same rule for both and cannot see the mismatch on curved faces; exactness in every direction is a universal statement", "anchors": ["src/physics/thermal/thermal_integ.cpp:AssembleFaceGrad", "src/physics/thermal/thermal_integ.cpp:InternalConvectionInterfaceIntegrator::AssembleFaceVector"]}
{"id": "C152", "title": "Sensitivities of the thermal interface and boundary terms are exact", "statement": "The sensitivity of the adjoint-weighted term to h, to the fluid temperature and to the mesh nodes is the derivative of the adjoint-weighted residual, for every motion of the nodes. (False on curved faces for the h sensitivity of a contact and for the mesh sensitivity of an internal convection interface, which use a rule of another order than the residual.)", "quantifier": "all states, adjoints, coefficients, rules, mesh motions for which the reverse-mode face weight meets its contract", "why_tests_cant": "an adjoint test compares one random direction on a straight mesh", "anchors": ["src/physics/thermal/thermal_integ.cpp:ThermalContactResistanceIntegratorMeshRevSens", "src/physics/thermal/thermal_integ.cpp:ThermalContactResistanceIntegratorHRevSens", "src/physics/thermal/thermal_integ.cpp:InternalConvectionInterfaceIntegratorMeshRevSens", "src/physics/thermal/thermal_integ.cpp:ConvectionBCIntegratorMeshRevSens", "src/physics/thermal/thermal_integ.cpp:OutfluxBCIntegratorMeshRevSens"]}
{"id": "C153", "title": "Integral, average and aggregate of the flux density magnitude", "statement": "The integral of |B| is a gauge-invariant seminorm of the potential, the aggregate of |B| lies between the smallest and the largest sampled magnitude, and the derivatives of numerator and denominator with respect to the state and to the mesh nodes are exact. (Only where the flux density is not zero at any quadrature point: otherwise every entry is NaN.)", "quantifier": "all elements in two and three dimensions, meshes, states, directions, motions of the mesh nodes", "why_tests_cant": "a finite-difference test uses one state without zeros of the field", "anchors": ["src/physics/mfem_common_integ.cpp: MagnitudeCurlStateIntegrator, IECurlMagnitudeAggregateIntegratorNumerator/Denominator and their MeshSens classes", "src/physics/common_outputs.cpp: AverageMagnitudeCurlState, IECurlMagnitudeAggregateFunctional"]}
{"id": "C154", "title": "The aggregate is a smooth maximum", "statement": "The induced-exponential aggregate grows with its parameter rho, equals the average for rho = 0, stays below the largest sampled value and approaches it at least like 1/rho, is shifted by a constant added to the state, and its numerator and denominator have exact mesh sensitivities", "quantifier": "all quadratures with positive weights, states, parameters, constants, motions of the mesh nodes", "why_tests_cant": "monotonicity and convergence in rho are statements about all states and all parameters", "anchors": ["src/physics/mfem_common_integ.cpp: IEAggregateIntegratorNumerator/Denominator and MeshSens", "src/physics/common_outputs.hpp: IEAggregateFunctional"]}
{"id": "C155", "title": "Volume and mass", "statement": "The volume and mass functionals are the quadratures of 1 and of the density; their derivatives with respect to the mesh nodes and to the fill factor are exact. (False: forward mode with respect to the fill factor returns the mass, resp. the volume, times the direction; a pointer to a null coefficient gives a zero mesh sensitivity.)", "quantifier": "all meshes, densities, fill factors, motions of the mesh nodes", "why_tests_cant": "the forward product is not compared with differences for every functional and input", "anchors": ["src/physics/mfem_common_integ.cpp: VolumeIntegrator, VolumeIntegratorMeshSens, VolumeIntegratorFillFactorSens", "src/physics/common_outputs.cpp: MassFunctional, VolumeFunctional"]}
{"id": "C156", "title": "Averages of the state", "statement": "The state integral has exact derivatives with respect to state and mesh; the state average lies between bounds of the sampled state, so a constant averages to itself. (False for the average of |B|: on curved elements numerator and volume use rules that disagree on the area, so a constant magnitude is not reproduced.)", "quantifier": "all meshes, states, elements, quadrature rules", "why_tests_cant": "on meshes with straight edges the missing geometric term is zero", "anchors": ["src/physics/mfem_common_integ.cpp: StateIntegrator, StateIntegratorMeshSens, MagnitudeCurlStateIntegrator, VolumeIntegrator", "src/physics/common_outputs.hpp: StateAverageFunctional, AverageMagnitudeCurlState"]}
{"id": "C157", "title": "Normal heat flux through a boundary", "statement": "The heat flux functional is the quadrature of minus conductivity times the normal temperature gradient; it is linear, its assembled derivative is exact, and a uniform temperature gives no flux", "quantifier": "all boundary faces, temperatures, conductivities, directions", "why_tests_cant": "must hold for every temperature field", "anchors": ["src/physics/mfem_common_integ.cpp: BoundaryNormalIntegrator"]}
{"id": "C158", "title": "Flux density fields are the flux density at the output nodes", "statement": "The field outputs flux_density and flux_magnitude contain, at every node of every element of the discontinuous output field, the flux density (its magnitude) of the state there; the identity transfers copy the state; a field that the output space can represent is transferred exactly at every point. Fails: in two dimensions flux_density is minus the flux density, a shared node of a continuous output field gets the sum over its elements, and flux_magnitude cannot be created unless the user declared the field", "quantifier": "all meshes, elements, output spaces with nodal bases, states, nodes", "why_tests_cant": "the sign, the nodes and the shared dofs depend on the element type and on the mesh", "anchors": ["src/utils/l2_transfer_operator.cpp: L2TransferOperator::apply, L2CurlProjection, L2CurlMagnitudeProjection, L2IdentityProjection", "src/physics/electromagnetics/magnetostatic.cpp: MagnetostaticSolver::addOutput"]}
{"id": "C159", "title": "Reverse products of the field transfers are exact", "statement": "The reverse product of a transferred field with respect to the state, and to the mesh coordinates, is added to the given vector, and its product with any change of the state (motion of the mesh nodes) is the derivative of the weighted field in that direction. For the magnitude this holds only where the flux density is not zero at any node; a single zero makes the whole product NaN", "quantifier": "all meshes, elements, states, weights, directions, motions of the mesh nodes", "why_tests_cant": "a finite-difference test uses one state, without zeros of the field", "anchors": ["src/utils/l2_transfer_operator.cpp: vectorJacobianProduct, apply_state_bar, apply_mesh_coords_bar"]}
{"id": "C160", "title": "Solving, solving the adjoint and taking the reverse product gives the total derivative of an output", "statement": "For a steady problem: after solveForState has returned a solution, solveForAdjoint with the output's derivative with respect to the state, followed by vectorJacobianProduct with minus the adjoint accumulated onto the output's partial derivative, yields the derivative of the output along the family of solutions for the perturbed parameters. This holds after linearize on a solver that holds no Jacobian yet, and for problems whose Jacobian does not depend on the state. It fails for nonlinear problems (the Jacobian used is the one before the last Newton step), for warm starts (exception, or the Jacobian of the previous design).", "quantifier": "all residuals with partial derivatives, outputs, parameters, perturbation directions, solution branches, boundary conditions, initial guesses, solver histories and exact linear solvers", "why_tests_cant": "a finite-difference test on one linear problem from one cold start cannot reveal which iterate's or which design's Jacobian the adjoint uses", "anchors": ["src/common/abstract_solver.cpp: solveForState, solveForAdjoint, linearize, vectorJacobianProduct", "src/physics/miso_nonlinearform.cpp: setUpAdjointSystem, getJacobian, getJacobianTranspose"]}
{"id": "C161", "title": "A steady solve ends at a state that satisfies the equations", "statement": "When Newton's method converges, calcResidualNorm of the returned state is within the requested tolerance; a linear problem with exact linear solves needs one iteration if the initial guess meets the boundary values and two otherwise; a solve that iterates ends with the registered boundary values on the essential dofs. It fails that a solve which does not converge is reported: solveForState returns normally whatever the residual is.", "quantifier": "all problems, Newton settings, initial guesses, boundary values, parameters and solver histories", "why_tests_cant": "non-convergence depends on the problem and on the initial guess; the two-cycle of Newton's method shows it for every iteration limit", "anchors": ["src/common/abstract_solver.cpp: solveForState, calcResidualNorm", "src/common/mfem_extensions.cpp: constructNonlinearSolver", "src/common/default_options.cpp: nonlin-solver.abort"]}
{"id": "C162", "title": "The files written by a session of steady solves are those of the last solves", "statement": "After any sequence of solveForState and solveForAdjoint calls, including calls that throw, the logged file of the state at timestep 1 holds the state returned last, the adjoint file holds the adjoint returned last, and the state file at timestep 0 the last initial guess if initial states are logged. It fails that switching the option final_state off suppresses the final state.", "quantifier": "all call sequences, results, exceptions and logging options", "why_tests_cant": "the property ranges over histories of calls of any length", "anchors": ["src/common/abstract_solver.cpp: solveForState, solveForAdjoint, initialHook", "src/physics/pde_solver.cpp: PDESolver::initialHook", "src/common/data_logging.hpp: LoggingOptions"]}
{"id": "C163", "title": "setState puts the same values in the caller's vector, the state field and the Dirichlet values", "statement": "When the state is set from a function or coefficient that is projected, the caller's vector, the solver's state field and the Dirichlet values all hold the projection. It fails for a function that fills a vector: it is called twice and neither field changes; and objects of other types are ignored silently.", "quantifier": "all functions, previous field contents and vectors", "why_tests_cant": "the values left in the fields depend on what they held before", "anchors": ["src/physics/pde_solver.cpp: PDESolver::setState_", "src/common/abstract_solver.cpp: AbstractSolver2::setState_", "src/common/abstract_solver.hpp: setState"]}
{"id": "C164", "title": "Magnetization directions follow the geometry of the machine", "statement": "A \"north\" magnet is magnetized radially outwards and a \"south\" magnet inwards, the tangential options give directions perpendicular to the radius, all of unit length, in the plane of rotation and independent of the axial position; rotating a point rotates its magnetization. (The code names the two tangential directions the wrong way round, and all four are not-a-number on the axis.)", "quantifier": "every point of space and every rotation angle", "why_tests_cant": "a test samples points; the statement is about every point and every angle, and it fails on a line no mesh test hits", "anchors": ["src/physics/electromagnetics/magnetic_source_functions.cpp: north_magnetization, south_magnetization, cw_magnetization, ccw_magnetization"]}
{"id": "C165", "title": "Source directions have exact shape derivatives", "statement": "For every magnetization and current direction, the reverse pass returns the transposed derivative of the direction with respect to the position, for every weight and every displacement.", "quantifier": "every point (off the axis where the direction needs it), every weight vector and every displacement direction", "why_tests_cant": "a finite-difference test samples a few points and weights with a tolerance", "anchors": ["src/physics/electromagnetics/magnetic_source_functions.cpp: northMagnetizationSourceRevDiff, southMagnetizationSourceRevDiff, cwMagnetizationSourceRevDiff, ccwMagnetizationSourceRevDiff, xAxisMagnetizationSourceRevDiff", "src/physics/electromagnetics/current_source_functions.cpp: ringCurrentSourceRevDiff, box1CurrentSourceRevDiff, box2CurrentSourceRevDiff, team13CurrentSourceRevDiff"]}
{"id": "C166", "title": "Prescribed currents conserve charge and have the prescribed magnitude", "statement": "The divergence of every prescribed current direction vanishes and its length is one (the box currents excepted, which are affine in y), so the current density has the magnitude the user sets; for the racetrack coil this holds in its straight parts and in its corners.", "quantifier": "every point of space at which the direction is smooth", "why_tests_cant": "the divergence at every point cannot be sampled; a solve on one mesh only sees its quadrature points", "anchors": ["src/physics/electromagnetics/current_source_functions.cpp: x_axis_current, y_axis_current, z_axis_current, ring_current, box1_current, box2_current, team13_current"]}
{"id": "C167", "title": "Stator windings: geometry, periodicity, charge conservation", "statement": "For any number of slots and any stack length, in cylindrical coordinates about the slot's middle the winding current runs down on one side and up on the other in the body and turns around the slot's radial axis in the end windings; it is unit length, divergence free, with an exact reverse pass wherever smooth, continuous across both end planes and with continuous normal component across the planes between slots; it repeats from slot to slot and \"cwStator\" is its reversal. (On the middle plane of each slot the code returns the zero vector.)", "quantifier": "every number of slots, stack length and point inside a slot", "why_tests_cant": "the slot is found by rounding an angle with a branch cut; tests with one slot count and a few points do not reach the cut or the ties", "anchors": ["src/physics/electromagnetics/current_source_functions.cpp: cw_stator_current, ccw_stator_current, cwStatorCurrentSourceRevDiff, ccwStatorCurrentSourceRevDiff"]}
{"id": "C168", "title": "The magnetization coefficient realises the `magnets` option", "statement": "The option is accepted exactly when no attribute is given to two magnets; on every element the magnetization is then the remnant flux of the listed material at the local temperature times the listed direction, zero elsewhere, and its temperature derivative is exact. (A misspelt direction is silently dropped, and the three-dimensional load evaluates the flux at temperature zero.)", "quantifier": "every nesting of materials, directions and attributes in the options, every attribute, point and temperature", "why_tests_cant": "there are unboundedly many option trees; a test checks a few", "anchors": ["src/physics/electromagnetics/magnetic_source_functions.cpp: MagnetizationCoefficient", "src/common/coefficient.cpp: VectorMeshDependentStateCoefficient, ScalarVectorProductCoefficient", "src/physics/electromagnetics/magnetic_load.cpp"]}
{"id": "C169", "title": "Python dictionaries arrive in C++ unchanged", "statement": "A dictionary of Python floats, ints and one-dimensional contiguous float64 arrays is accepted; every entry arrives under its key \u2014 numbers and length-one arrays by value, other arrays as the user's own live memory \u2014 and nothing else does; arrays of the wrong dimension or layout and numpy scalars raise. (Lists, tuples and arrays of another dtype arrive as a dangling pointer; a one-dof field arrives as a number and is then rejected.)", "quantifier": "every dictionary of any size, every array length, every memory contents and later write", "why_tests_cant": "use after free of a converted temporary usually reads the right numbers in a test; the set of dictionaries is unbounded", "anchors": ["miso/pyMISO/py_miso_utils.hpp: pyDictToMISOInputs, npBufferToMFEMVector, npBufferToDoubleArray", "src/physics/miso_input.hpp"]}
{"id": "C170", "title": "Vectors passed for output receive the result", "statement": "A call that fills a vector (solveForState, calcResidual, solveForAdjoint, calcOutput, the products) writes the result into the caller's float64 array and changes no other memory, and rejects objects that cannot hold it. (An object of another type is converted to a temporary: the call succeeds and the result is lost.)", "quantifier": "every array, every result, every other block of memory", "why_tests_cant": "a test uses float64 arrays; the silent loss concerns every other type", "anchors": ["miso/pyMISO/misoSolver.cpp", "miso/pyMISO/py_miso_utils.hpp: npBufferToMFEMVector"]}
{"id": "C171", "title": "Products through the bindings are the solver's products", "statement": "jacobianVectorProduct and vectorJacobianProduct with respect to the state add the products of the solver's residual or throw. (False for a solver with one dof, where nothing is added, and for the forward derivative with respect to a scalar, which is silently zero.)", "quantifier": "every residual, direction and accumulator", "why_tests_cant": "a missing contribution looks like a zero derivative; dispatch depends on sizes a test fixes", "anchors": ["miso/pyMISO/misoSolver.cpp: jacobianVectorProduct, vectorJacobianProduct", "src/physics/miso_nonlinearform.cpp"]}
{"id": "C172", "title": "A state component has no memory", "statement": "After any sequence of component calls, apply_nonlinear returns the residual of exactly the inputs and outputs it is given, and solve_nonlinear returns a state that depends on the inputs and initial guess only; an inverted mesh is an exception that leaves the outputs alone.", "quantifier": "every history of apply_nonlinear, solve_nonlinear, linearize and solve_linear calls", "why_tests_cant": "a property of all call sequences", "anchors": ["miso/miso_state.py: apply_nonlinear, solve_nonlinear, linearize, solve_linear", "src/common/abstract_solver.cpp"]}
{"id": "C173", "title": "solve_linear returns the adjoint of the linearisation point", "statement": "After linearize, solve_linear in reverse mode leaves in d_residuals the adjoint for the seed in d_outputs. (False for a zero seed, where stale contents stay; in forward mode; and if the component is evaluated in between, when the new inputs are put in force.)", "quantifier": "every problem with regular Jacobian, every seed and initial contents", "why_tests_cant": "OpenMDAO usually passes zeroed vectors and calls in one order, so tests do not see the stale cases", "anchors": ["miso/miso_state.py: linearize, solve_linear", "src/common/abstract_solver.cpp: solveForAdjoint"]}
{"id": "C174", "title": "Forward and reverse apply_linear are adjoint", "statement": "The two modes of apply_linear add y(d) and t with \u27e8bar, y(d)\u27e9 = \u27e8t, d\u27e9 over the state and all inputs, in spite of the shortcuts for zero seeds, when the solver's products add. (False for thermal_load, whose product overwrites the state's contribution, and with check_partials, which drops every input after an unimplemented one.)", "quantifier": "every number and size of inputs, every Jacobian, direction and accumulator", "why_tests_cant": "check_partials perturbs one input at a time and cannot see contributions overwritten by another", "anchors": ["miso/miso_state.py: apply_linear", "src/physics/thermal/thermal_residual.cpp: jacobianVectorProduct"]}
{"id": "C175", "title": "Functional derivatives do not depend on the number of ranks", "statement": "The forward product of a functional is the directional derivative on every rank and the reverse product its adjoint. (False on several ranks for scalar inputs, whose derivative is multiplied by the number of ranks, and for vector outputs, which get the sum over the ranks.)", "quantifier": "every number of ranks, inputs and partition of the dofs", "why_tests_cant": "on one rank the reduction is skipped, so serial tests cannot see it", "anchors": ["miso/miso_output.py: compute_jacvec_product", "src/common/functional_output.cpp"]}
{"id": "C176", "title": "A scenario is set up exactly when it makes sense", "statement": "The outputs of a scenario are set up if and only if the functionals asked for are distinct and known, each with its own options; groups of one scenario use the same variable names and different physics different ones. (One functional cannot appear under two aliases; a misspelt input becomes an ignored number.)", "quantifier": "every list of outputs and options, every name", "why_tests_cant": "unboundedly many configurations", "anchors": ["miso/mphys/miso_builder.py", "miso/miso_output.py: setup", "miso/miso_state.py: setup", "src/common/abstract_solver.cpp: createOutput"]}
{"id": "C177", "title": "The time derivative of a stage solves M k + R(u + dt k) = 0", "statement": "FirstOrderODE::ImplicitSolve(dt, u, k) and Mult(u, k) (dt = 0) leave u unchanged and, if the nonlinear solver converges, deliver a k with ||M k + R(u + dt k)|| within its tolerance, although the residual reads the registered vectors and never the vector it is called with; the result does not depend on what k held before; an explicit stage with exact linear solves returns M k = -R(u) for every residual, an implicit one is exact for affine residuals. With the option relaxednewton this fails: the line search evaluates the residual at trial points the residual does not look at, so every unsteady solve returns k = 0.", "quantifier": "all residuals, mass matrices, states, steps, tolerances, iteration limits, previous contents of k", "why_tests_cant": "the aliasing between the registered pointers and Newton's iterate holds for every iteration of every solve; a test sees one solver on one problem", "anchors": ["src/common/ode.cpp: setInputs, evaluate, getJacobian, FirstOrderODE::solve", "src/common/ode.hpp", "src/common/miso_residual.hpp: Mult, GetGradient", "src/common/linesearch.cpp: Phi"]}
{"id": "C178", "title": "Each time stepper advances the semi-discrete equations by its own formula", "statement": "With exact solves, RK1 gives M(x'-x) = -dt R(x), RK4 the classical fourth-order step for u' = -M^-1 R(u), MIDPOINT M(x'-x) = -dt R((x+x')/2) and PTC M(x'-x) = -dt R(x') (the implicit ones for affine residuals); time advances by dt. With relaxednewton every one of them returns the initial condition after any number of steps while time advances.", "quantifier": "all residuals, mass matrices, states, times, steps, numbers of steps", "why_tests_cant": "a convergence test samples one equation; the formula must hold for every residual and state", "anchors": ["src/common/ode.cpp: setTimestepper, FirstOrderODE", "src/common/mfem_extensions.cpp: PseudoTransientSolver", "src/common/relaxed_newton.cpp"]}
{"id": "C179", "title": "The 'steady' time stepper returns a solution of the steady equations", "statement": "A step of the 'steady' stepper is meant to solve R(x') = 0 from the guess x. It does not: its new state satisfies M x' + R(x + dt x') = 0, so a steady state is left again. The option value selects the stepper, every unknown or deprecated value is an exception.", "quantifier": "all residuals, states and steps; all option strings", "why_tests_cant": "tests of this stepper check only that it runs", "anchors": ["src/common/mfem_extensions.cpp: SteadyODESolver::Step", "src/common/ode.cpp: setTimestepper, solve"]}
{"id": "C180", "title": "The evolver's implicit system and its gradient belong together", "statement": "With a linear mass form the system operator of MISOEvolver is M k + R(x + dt k) + load on free dofs and zero on essential ones, and its GetGradient is the derivative (identity on essential rows); likewise for a nonlinear mass form. Without any mass form the gradient lacks the factor dt.", "quantifier": "all forms with exact gradients, states, slopes, steps, essential sets", "why_tests_cant": "a finite-difference test samples directions and states", "anchors": ["src/common/evolver.cpp: SystemOperator::Mult, SystemOperator::GetGradient"]}
{"id": "C181", "title": "The evolver's ImplicitSolve delivers the slope of the implicit stage", "statement": "ImplicitSolve either aborts (only if requested and not converged) or returns a slope that, if converged, solves the stage equation to the tolerance; the result does not depend on the previous contents of k, the solver's mode is restored, and with exact linear solves essential dofs keep their values. With a nonlinear mass form the stage equation is the wrong one (the stage step is never passed): correct only for affine mass; for (u^2)' = 3 the call always aborts although the backward Euler step exists.", "quantifier": "all forms, Newton solvers, states, steps, previous contents of k", "why_tests_cant": "the claim ranges over all problems and solver settings; the nonlinear-mass path has no test", "anchors": ["src/common/evolver.cpp: MISOEvolver::ImplicitSolve, setOperParameters", "src/common/evolver.hpp"]}
{"id": "C182", "title": "The evolver's explicit operator returns -M^-1 (R(x) + K x + load)", "statement": "Mult solves M y = -(R(x) + K x + load) whatever was computed before, given a residual form and no essential boundaries; constructor and entropy functions throw exactly for the unsupported combinations. It fails otherwise: essential dofs are not kept (the mass matrix is eliminated with an empty list and the eliminated stiffness acts as identity), without a residual form results accumulate from call to call, and the stiffness form is ignored by implicit stages.", "quantifier": "all forms, states, numbers of earlier calls", "why_tests_cant": "history dependence and boundary handling cannot be excluded by single calls", "anchors": ["src/common/evolver.cpp: MISOEvolver::MISOEvolver, Mult, Entropy, EntropyChange"]}
{"id": "C183", "title": "Mesh sensitivities of the projector's and the current load's forms are exact", "statement": "The vectors assembled by the diffusion, weak-divergence and vector-mass mesh-sensitivity integrators, multiplied with any motion of the mesh nodes, are the derivatives of psi^T D phi = int grad phi . grad psi, psi^T W x = -int x . grad psi and psi^T M x = int x . psi at the same quadrature points. The mass version is wrong for any factor alpha other than 1, and the projector assembles the sensitivities with other quadrature orders than the forms.", "quantifier": "all elements, quadrature rules, states, adjoints and node motions with nonzero Jacobian; all orders", "why_tests_cant": "finite-difference tests sample a few meshes and directions, with affine elements on which the rule mismatch is invisible and alpha = 1", "anchors": ["src/physics/mfem_common_integ.cpp: DiffusionIntegratorMeshSens, VectorFEWeakDivergenceIntegratorMeshSens, VectorFEMassIntegratorMeshSens", "src/utils/irrotational_projector.cpp: IrrotationalProjector::IrrotationalProjector"]}
{"id": "C184", "title": "Mesh sensitivities of the loads are exact", "statement": "The mesh-sensitivity vectors of the vector load alpha int F.psi, the curl load alpha int F.curl psi and the scalar load alpha int F psi, multiplied with any motion of the nodes, are the derivatives of the loads, including the coefficient's dependence on position. The scalar load's sensitivity uses another rule than the load on tensor-product elements.", "quantifier": "all elements, rules, coefficients with exact EvalRevDiff, factors alpha, adjoints and node motions", "why_tests_cant": "finite-difference tests sample meshes, coefficients and directions", "anchors": ["src/physics/mfem_common_integ.cpp: VectorFEDomainLFIntegratorMeshSens, VectorFEDomainLFCurlIntegratorMeshSens, DomainLFIntegratorMeshRevSens", "src/physics/mfem_common_integ.hpp: DomainLFIntegrator"]}
{"id": "C185", "title": "The projectors' product with respect to the mesh coordinates is the derivative of the projection", "statement": "With exact solves and exact element sensitivities, vectorJacobianProduct(x, pbar, \"mesh_coords\", wbar) of the irrotational and the divergence-free projector adds to wbar the vector whose product with any mesh motion is d/dt pbar . P(x); the assembled element sensitivities meet the requirement on meshes of any size when the rules agree.", "quantifier": "all meshes, motions, fields, weights, essential sets, numbers of elements and dofs", "why_tests_cant": "a finite-difference test of the composition samples one mesh, field and direction", "anchors": ["src/utils/irrotational_projector.cpp: IrrotationalProjector::vectorJacobianProduct", "src/utils/div_free_projector.cpp: DivergenceFreeProjector::vectorJacobianProduct"]}
{"id": "C186", "title": "The current load's product with respect to the mesh coordinates is the derivative of what addLoad contributes", "statement": "With exact solves and exact element sensitivities, vectorJacobianProduct(load, lbar, \"mesh_coords\", wbar) adds to wbar the vector whose product with any mesh motion is d/dt lbar . (tv - load), the load (mass solve, linear form, projection, mass product, zeroed essential dofs) being recomputed on the moved mesh.", "quantifier": "all meshes, motions, current densities, weights, essential dof sets, numbers of elements and dofs", "why_tests_cant": "the chain of two solves and a projection is only sampled by finite-difference tests", "anchors": ["src/physics/electromagnetics/current_load.cpp: vectorJacobianProduct, CurrentLoad::assembleLoad, addLoad"]}
{"id": "C187", "title": "The space of a field is the one its options ask for", "statement": "A field built from space options has the kind of finite element space the `basis-type` names (CSBP, DSBP, ND, RT, H1/CG, L2/DG and their documented spellings), of the requested degree and number of components; Galerkin difference selects the discontinuous SBP space; incomplete options are refused. It fails for names that are not a known spelling: they are accepted and silently give a continuous H1 space.", "quantifier": "all option values, degrees, dimensions and component counts", "why_tests_cant": "every spelling, degree and dimension, and every string that is not a spelling", "anchors": ["src/physics/finite_element_vector.cpp:FiniteElementVector", "src/physics/finite_element_vector.hpp"]}
{"id": "C188", "title": "A copied space equals the original", "statement": "A field created on the space of another field (mesh coordinates, thermal load) has the same kind of space, degree, dimension and number of components; for SBP spaces this requires that degree and dimension are read back correctly from the collection's name.", "quantifier": "all kinds of spaces, all degrees (any number of digits), all one-digit dimensions", "why_tests_cant": "all degrees, including those with several digits", "anchors": ["src/physics/finite_element_vector.cpp:copyFEColl", "src/common/sbp_fe.cpp:SBPCollection", "src/common/sbp_fe.cpp:DSBPCollection"]}
{"id": "C189", "title": "Shared degrees of freedom of states and residuals", "statement": "Sending a true vector to a field and reading it back returns it, for states and for duals; all ranks then agree on shared values of a state; assembling a dual vector loses no rank's contribution and counts none twice: it does the same work on every state as the local vectors. (The local parts of a dual vector cannot be recovered from the assembled one.)", "quantifier": "all partitions of the dofs among ranks, all orientation signs, all vectors", "why_tests_cant": "ranges over every partition of every mesh over any number of ranks", "anchors": ["src/physics/finite_element_state.hpp:distributeSharedDofs", "src/physics/finite_element_state.hpp:setTrueVec", "src/physics/finite_element_dual.hpp:distributeSharedDofs", "src/physics/finite_element_dual.hpp:setTrueVec"]}
{"id": "C190", "title": "Materials of a solver", "statement": "The material data a solver works with is the library's, overridden by what its components set inline: a value set by a component is used unless a later component sets it for the same material, everything else stays as in the library. It fails per component (two components cannot hold different values for one material name) and for solvers whose number of states depends on the mesh (component materials are ignored).", "quantifier": "all libraries, all lists of components, all paths into the material data", "why_tests_cant": "all libraries, component lists and nesting depths", "anchors": ["src/physics/pde_solver.cpp:PDESolver", "src/common/material_library.cpp"]}
{"id": "C191", "title": "Fields of a solver", "statement": "Every solver has state, Dirichlet values and adjoint on the space of `space-dis` and the mesh coordinates on the mesh's space; every declared external field exists with the space its own options ask for; nothing else exists; and getFieldSize reports the size of each, zero for unknown names. It fails for external fields that use one of the solver's own names: their options are silently ignored.", "quantifier": "all options, all lists of external fields, all names", "why_tests_cant": "all lists of external fields and all names", "anchors": ["src/physics/pde_solver.cpp:setUpExternalFields", "src/physics/pde_solver.cpp:getFieldSize", "src/common/abstract_solver.cpp:getFieldSize"]}
{"id": "C192", "title": "Where the mesh comes from", "statement": "Without a mesh from the caller, the ending of the mesh file's name selects the reader (`mesh`: MFEM, `smb` and `ugrid`: PUMI) and every other ending is refused; a mesh handed over by the caller is used. It fails when the file name in the options has no ending: the caller's mesh is refused although the file is not needed.", "quantifier": "all file names", "why_tests_cant": "ranges over all file names, including ones without a dot or with several", "anchors": ["src/physics/pde_solver.cpp:constructMesh"]}
{"id": "C193", "title": "Error of a state", "statement": "calcStateError against a vector, or a function filling one, is the Euclidean norm of the difference and vanishes exactly for the right state; a vector of the wrong length is refused. It fails in parallel: each rank returns the norm of its own part instead of the norm of the whole difference.", "quantifier": "all states, vectors, and partitions among ranks", "why_tests_cant": "ranges over all vectors and all partitions over ranks", "anchors": ["src/common/abstract_solver.cpp:calcStateError_", "src/physics/pde_solver.cpp:calcStateError_"]}
{"id": "C194", "title": "Linear solver options are honoured", "statement": "A supported linear solver type gives a solver of that method with the relative tolerance, iteration limit, absolute tolerance, restart length, print level and preconditioner asked for; unsupported types, and Hypre solvers with a preconditioner that is not Hypre's, are refused. It fails for the default solver `hyprefgmres`, which ignores the absolute tolerance.", "quantifier": "all option values, all preconditioners", "why_tests_cant": "all option values and combinations with preconditioners", "anchors": ["src/common/mfem_extensions.cpp:constructLinearSolver"]}
{"id": "C195", "title": "Preconditioner options are honoured", "statement": "The flow residual builds the preconditioner its options name and refuses other names. For magnetostatics and heat conduction only the multigrid names work: `hypreilu` (the default) and unknown names silently give no preconditioner; the mesh warper ignores the name; `adj-prec` is ignored by every adjoint solve.", "quantifier": "all option values", "why_tests_cant": "ranges over all option values, including misspelt ones, which must be refused", "anchors": ["src/physics/electromagnetics/magnetostatic_residual.cpp:constructPreconditioner", "src/physics/thermal/thermal_residual.hpp:constructPreconditioner", "src/physics/fluidflow/flow_residual.cpp:constructPreconditioner", "src/utils/mesh_warper/mesh_warper.cpp:constructPreconditioner"]}
{"id": "C196", "title": "Nonlinear and adjoint solver options are honoured", "statement": "The nonlinear solver has the kind, tolerances and iteration limit of its options and unknown kinds are refused; the adjoint solver is built from the options of the first adjoint solve and kept. It fails for `none`, which crashes the construction of every solver, and for `abort`, which has no effect.", "quantifier": "all option values, all sequences of adjoint solves", "why_tests_cant": "ranges over all option values and over what earlier solver sessions left behind", "anchors": ["src/common/mfem_extensions.cpp:constructNonlinearSolver", "src/common/abstract_solver.cpp:solveForAdjoint", "src/physics/electromagnetics/magnetostatic.cpp"]}
{"id": "C197", "title": "Two-dimensional viscous manufactured solution", "statement": "With viscous-mms in two dimensions and viscosity option 1, the source the solver subtracts is, at every point, exactly the divergence of the flux (Euler minus viscous) of the exact solution it imposes on the boundary, in each of the four equations, and that exact solution is a physical state everywhere. With any other viscosity it is not.", "quantifier": "every point of the plane, every Reynolds and Prandtl number, every viscosity", "why_tests_cant": "An order-of-convergence test at a few meshes only samples points and one Reynolds number, and an error in a small term hides below the discretisation error.", "anchors": ["src/physics/fluidflow/navier_stokes_fluxes.hpp:viscousMMSExact", "src/physics/fluidflow/navier_stokes_fluxes.hpp:calcViscousMMS", "src/physics/fluidflow/navier_stokes_integ.hpp:NavierStokesMMSIntegrator"]}
{"id": "C198", "title": "Three-dimensional viscous manufactured solution", "statement": "In three dimensions the viscous manufactured source is the divergence of the flux of the manufactured exact solution at every point. (False: the exact solution reads a fourth coordinate that does not exist, and the energy source belongs to a different velocity; mass and momentum sources are right once the third coordinate is read.)", "quantifier": "every point of space, every viscosity and Prandtl number, whatever stands in memory behind a point", "why_tests_cant": "A run only shows a slower convergence; the value read past the end differs from run to run.", "anchors": ["src/physics/fluidflow/navier_stokes_fluxes.hpp:viscousMMSExact", "src/physics/fluidflow/navier_stokes_fluxes.hpp:calcViscousMMS"]}
{"id": "C199", "title": "Inviscid manufactured solution", "statement": "The inviscid manufactured source is the divergence of the Euler flux of the inviscid exact solution at every point. (False: the source belongs to the solution with squared sines, the exact solution has the square inside the sine; in two dimensions there is no solution at all.)", "quantifier": "every point", "why_tests_cant": "The two agree at isolated points and on the coordinate planes, so point tests can pass.", "anchors": ["src/physics/fluidflow/euler_fluxes.hpp:InviscidMMSExact", "src/physics/fluidflow/euler_fluxes.hpp:calcInviscidMMS"]}
{"id": "C200", "title": "Source integrator", "statement": "A manufactured source enters the residual of each element as minus its quadrature over the nodes, whatever the state; its element matrix is the derivative of its element vector.", "quantifier": "every element, source, state, number of nodes and of equations", "why_tests_cant": "Tests compare one element with one source.", "anchors": ["src/physics/fluidflow/mms_integ_def.hpp:AssembleElementVector", "src/physics/fluidflow/mms_integ_def.hpp:AssembleElementGrad", "src/physics/fluidflow/flow_residual.cpp"]}
{"id": "C201", "title": "Materials described by functions of two or three states", "statement": "A coefficient of several states (magnet demagnetization constraint, CAL2 core-loss coefficients) registered material by material gives on every element the value of the material of that element's attribute, or the default, or zero; registering an attribute twice is refused; each of its first and second derivative methods is the derivative it names wherever that is true of the material; in reverse mode only the material of the element contributes.", "quantifier": "all lists of registered materials, all attributes, points and states", "why_tests_cant": "There are eighteen derivative methods written by hand per arity and arbitrarily many material assignments; tests try one material at one state.", "anchors": ["src/common/coefficient.hpp:MeshDependentTwoStateCoefficient", "src/common/coefficient.cpp:MeshDependentThreeStateCoefficient", "src/physics/electromagnetics/pm_demag_constraint_coeff.cpp", "src/physics/electromagnetics/cal2_kh_coefficient.cpp"]}
{"id": "C202", "title": "Heat source over a session", "statement": "The heat source evaluated on a mesh is that of the mesh (winding losses over the winding volume, plus core losses) whatever was called before, and its reverse mesh derivative adds the gradient of that function. The derivative fails on a mesh on which the output has not been evaluated since the last change (the winding volume of the last evaluation is used), when the winding volume is supplied by the user, and in forward mode, which silently adds nothing.", "quantifier": "all histories of calls, meshes, inputs, seeds and directions", "why_tests_cant": "The error depends on the order of calls; tests evaluate before they differentiate.", "anchors": ["src/physics/electromagnetics/electromag_outputs.cpp:EMHeatSourceOutput", "src/physics/electromagnetics/electromag_outputs.cpp:DCLossDistribution", "src/physics/electromagnetics/electromag_outputs.cpp:ACLossDistribution", "src/common/abstract_solver.cpp:outputVectorJacobianProduct"]}
{"id": "C203", "title": "Outputs of one solver do not disturb each other", "statement": "An output is recognised by the beginning of its name and no name can mean two outputs; unknown and repeated names are refused; a created output computes what its options say, and creating, evaluating or re-configuring other outputs does not change it. It fails for forces and torques: two torques share one motion field, a suffixed name throws after half creating the output, and new options leave the old attributes in place.", "quantifier": "all output names, all option sets, all histories of createOutput, setOutputOptions and calcOutput", "why_tests_cant": "All interleavings of calls and all names; a test creates one output of each kind.", "anchors": ["src/physics/electromagnetics/magnetostatic.cpp:addOutput", "src/physics/thermal/thermal.cpp:addOutput", "src/physics/electromagnetics/electromag_outputs.hpp:ForceFunctional", "src/physics/electromagnetics/electromag_outputs.hpp:TorqueFunctional", "src/common/abstract_solver.cpp:createOutput", "src/common/abstract_solver.cpp:setOutputOptions"]}
{"id": "C204", "title": "The thermal residual is the heat equation the options describe", "statement": "The residual built from any options, tested with any field, is conduction in the elements plus, on each face, exactly the law the options put there: perfect contact inside (discontinuous basis), contact resistance or a fluid channel on named interfaces, convection, outflux and imposed temperatures on the boundary; its entries add up to the heat leaving through the boundary and into channels. It fails when two interfaces name the same face (heat flows from cold to hot), for contact resistances with a continuous basis (no effect), and for entries of unknown kind or type (dropped without an error).", "quantifier": "all options, meshes, conductivities, temperature fields and test fields", "why_tests_cant": "Combinations of options and meshes are unbounded; a test fixes one mesh and one set of conditions.", "anchors": ["src/physics/thermal/thermal_residual.cpp:ThermalResidual", "src/physics/miso_nonlinearform.hpp:addInternalBoundaryFaceIntegrator", "src/physics/thermal/thermal_integ.cpp"]}
{"id": "C205", "title": "Thermal inputs act as options and heat flows from hot to cold", "statement": "Giving film coefficients, fluid temperatures or outfluxes as inputs leaves the residual that options with these values would give; a value for one interface does not reach an interface of another name (but contact resistances and channels share one name space); with a continuous basis and non-negative film coefficients the residual is monotone in the temperature.", "quantifier": "all options, inputs, interface names and pairs of temperature fields", "why_tests_cant": "All option sets and all pairs of fields.", "anchors": ["src/physics/thermal/thermal_integ.cpp:setInputs", "src/physics/thermal/thermal_integ.hpp:setInputs", "src/physics/thermal/thermal_residual.cpp:ThermalResidual"]}
{"id": "C206", "title": "The continuous SBP space is continuous: shared degrees of freedom sit at one physical point", "statement": "An SBP collection can be constructed exactly for degrees 0-4 in up to two dimensions and 0-1 in three (discontinuous: degrees 0-4, two dimensions). On any straight-sided triangulation, if a node of one triangle and a node of another are the same degree of freedom, both are at the same physical point (to the digits printed in the node tables), whatever the local directions in which the two triangles see their common edge; two triangles sharing an edge share all the degrees of freedom on it; the nodes of one triangle are distinct degrees of freedom in range and at distinct points inside the closed triangle. The same holds for tetrahedra sharing a vertex, edge or face in any rotation. In the discontinuous space no two triangles share a degree of freedom and the element has the same nodes.", "quantifier": "all supported degrees, all triangulations and vertex positions, all pairs of elements and nodes, all edge orientations; all tetrahedra", "why_tests_cant": "The reversed edge orders are hand-written permutations that have to match hand-entered node tables on all three local edges in both directions; a wrong entry only shows on meshes where the two neighbours see the edge in opposite directions at that degree.", "anchors": ["src/common/sbp_fe.cpp: SBPCollection::SBPCollection, SBPCollection::DofOrderForOrientation, DSBPCollection::DSBPCollection, SBPTriangleElement, SBPTetrahedronElement", "src/common/sbp_fe.hpp: SBPCollection, DSBPCollection"]}
{"id": "C207", "title": "Boundary segments see the degrees of freedom where the adjacent triangle puts them", "statement": "The segment element is documented to have an 'ordering consistent with SBPTriangleElement's edges': for a boundary segment along an edge of a triangle, the segment node and the triangle node that are the same degree of freedom are at the same point. This holds for degrees 0, 1 and 2. It is false for degrees 3 and 4: the segment lists its inner Lobatto nodes from the outside in with the midpoint last, the triangle tables list them the other way round, so for any increasing Lobatto points some shared degree of freedom is more than a tenth of the edge away.", "quantifier": "all triangulations, edges, orientations and vertex positions; degrees 0-2 (positive part), all admissible Lobatto points for degrees 3-4 (negative part)", "why_tests_cant": "Interior integrators find face nodes by position, so the mismatch does not show in residual tests; it only shows when something is projected or integrated on boundary elements at degree 3 or 4.", "anchors": ["src/common/sbp_fe.cpp: SBPSegmentElement::SBPSegmentElement, SBPCollection::SBPCollection", "src/common/sbp_fe.hpp: SBPCollection::FiniteElementForGeometry"]}
{"id": "C208", "title": "Magnetisation curves of the shipped steels, and of monotone user data, are admissible", "statement": "For the material library's Hiperco 50, with either reluctivity model ('lognu' or 'bh'), the spline can be constructed, the reluctivity is positive, the field strength nu(B)*B never decreases with the flux density on the whole half line (also where two of the bh control points decrease), the derivative the Newton matrix uses is the derivative, and therefore the magnetostatic residual of an element is a monotone operator that vanishes only without flux. For user data accepted by the spline library with non-decreasing control points and simple inner knots, the curve does not decrease, and with clamped knots it starts at the first and ends at the last control point. Not true: the shipped lognu curve is continuous (it jumps by up to 0.3 per cent at its last knot 3.5 T); the library's team13 curve can be used (control points and knots are interchanged, the spline library rejects the data).", "quantifier": "all flux densities (real numbers), all element potentials and quadrature data with positive Jacobians and weights, all spline data", "why_tests_cant": "A fit of 30 pieces can lose monotonicity on a small interval between sampled flux densities; the sign must be established on every interval.", "anchors": ["src/common/material_library.cpp", "src/physics/electromagnetics/reluctivity_coefficient.cpp: logNuNuCoefficient, BHNuCoefficient, constructNuCoefficient"]}
{"id": "C209", "title": "The Newton matrix of every Euler term is exact off its switches", "statement": "The element, face and boundary matrices assembled from automatic differentiation of the Euler kernels (two-point volume flux, projection stabilisation, mass, slip wall, far field, vortex, entropy-conservative and actuated walls, interior faces, pressure force) equal the derivatives of the corresponding residuals in every direction of state change, in conservative or entropy variables, at every physically admissible state where the logarithmic mean is not exactly at its series threshold and, for the two dissipative terms, the fluid is not exactly at rest relative to the direction; at rest the stabilisation has no derivative, so no matrix can be exact.", "quantifier": "all dimensions, elements, faces, mappings, admissible states and directions of change", "why_tests_cant": "Finite-difference checks sample random states and never meet the switching states.", "anchors": ["src/physics/fluidflow/euler_integ_def.hpp: calcFluxJacStates, convertVarsJacState, applyScalingJacState, applyScalingJacV, calcFluxJacState", "src/physics/fluidflow/inviscid_integ_def.hpp: AssembleElementGrad, AssembleFaceGrad"]}
{"id": "C210", "title": "Exact Jacobians of the viscous terms", "statement": "The Newton matrix that a viscous flow residual assembles from automatically differentiated kernels is the true Jacobian of the viscous residual: for the volume term and for every viscous boundary condition the residual can attach (slip wall, adiabatic no-slip wall, exact solution, blowing/suction control), with constant viscosity or Sutherland's law, at every field of physical states, including the dependence of a wall flux on all the states of the adjacent element through the reconstructed gradient. The reported derivative of the surface force is its true gradient in the same sense.", "quantifier": "every element, mapping, face, boundary condition, viscosity law, Reynolds and Prandtl number, and field of physical states", "why_tests_cant": "Newton convergence and every adjoint-based gradient of a viscous run rest on this matrix; a finite-difference test compares a few directions at a few states and the result depends on the step size.", "anchors": ["src/physics/fluidflow/navier_stokes_integ_def.hpp:ESViscousIntegrator::applyScalingJacState", "src/physics/fluidflow/navier_stokes_integ_def.hpp:ESViscousIntegrator::applyScalingJacDw", "src/physics/fluidflow/navier_stokes_integ_def.hpp:NoSlipAdiabaticWallBC::calcFluxJacDw", "src/physics/fluidflow/navier_stokes_integ_def.hpp:SurfaceForce::calcBndryFunJacDw", "src/physics/fluidflow/euler_fluxes.hpp:convertVarsJac"]}
{"id": "C211", "title": "Text logs of the flow solvers over histories of solves", "statement": "With option entropy-log, after any sequence of completed solves of one flow solver, the file entropy-log.txt holds exactly the rows of the last solve: one per visited state in order, from the initial time and state to the returned one, consecutive states one step of the time marcher apart, times strictly increasing when the method advances time; a solve cut short before iteration k leaves exactly the first k of these rows. The claim fails after an aborted solve: the next completed solve deletes the file and writes none (the stream is still open, reopening it fails), the one after works again. The per-output files of the flow-control solver are right for the first solve only: each later solve of the same object erases the earlier log and leaves an empty file. A steady problem is refused before any file is touched, different outputs write different files, and only the output named entropy sees the control state.", "quantifier": "every value type, every history of completed and aborted solves, every cut point, every method, every file left by an earlier process", "why_tests_cant": "A test runs one solve in a clean directory; the defects need a second solve or an earlier abort in the same process.", "anchors": ["src/physics/fluidflow/flow_solver.cpp: derivedPDEInitialHook, derivedPDEIterationHook, derivedPDETerminalHook", "src/physics/fluidflow/flow_control_solver.cpp: initialHook, iterationHook, terminalHook", "src/common/abstract_solver.cpp: AbstractSolver2::solveForState"]}
{"id": "C212", "title": "Integrals of the flux-density magnitude and their gradients", "statement": "The element integral of the flux magnitude is the quadrature of |B| (and of |B|\u00b2 for the squared version), with B the physical curl of the potential: non-negative, zero exactly for a curl-free state, and Cauchy\u2013Schwarz holds between the two; in 2D and 3D the state gradient, and in 3D the mesh gradient, is the exact derivative whenever no quadrature point has zero flux, and is not finite otherwise (for instance at the zero initial state). The reluctivity-weighted integrals are not volume integrals: the reluctivity is taken at |B| times the Jacobian determinant and the volume factor is missing, which is right only on elements of unit determinant, while their state and mesh gradients are the exact derivatives of what is computed. The heat-source chain-rule vector is the gradient of the adjoint-weighted heat load.", "quantifier": "every element dimension, quadrature rule, state, material law with its derivative, mesh motion", "why_tests_cant": "Finite-difference tests on one unit-size element at a random state cannot see a missing volume factor in the value nor the undefined gradient at zero flux.", "anchors": ["src/physics/electromagnetics/electromag_integ.cpp: BNormIntegrator, BNormSquaredIntegrator, BNormdJdx, nuBNormIntegrator, nuBNormdJdx, nuFuncIntegrator, ThermalSensIntegrator"]}
{"id": "C213", "title": "Steinmetz core loss and its heat distribution", "statement": "The Steinmetz element loss is the quadrature of \u03c1 k_s f^\u03b1 B^\u03b2 at the current frequency and peak flux: non-negative and, for non-negative exponents, increasing in both; a frequency scaled by s scales it by s^\u03b1; the frequency, peak-flux and mesh sensitivities are its exact derivatives, also when all four coefficients vary in space; the heat load tested with any function is the quadrature of the loss density times that function and, with the same rule, adds up to the loss (the default rules agree on tensor-product elements only). Inputs given are used, missing ones keep the current value, an integrator with a name reads its own peak-flux key and two names never share one; the stack length is accepted but has no effect on the heat load.", "quantifier": "every material field, element, positive frequency and flux, mesh motion, set of inputs", "why_tests_cant": "Tests use one material, one frequency and a finite-difference tolerance.", "anchors": ["src/physics/electromagnetics/electromag_integ.cpp: SteinmetzLossIntegrator, SteinmetzLossIntegratorFreqSens, SteinmetzLossIntegratorMaxFluxSens, SteinmetzLossIntegratorMeshSens, SteinmetzLossDistributionIntegrator, setInputs"]}
{"id": "C214", "title": "Coupling of flow and boundary controller", "statement": "Evaluating the coupled residual measures the boundary entropy of the given flow state at the actuator position in force, feeds it to the control law with the gains in force, and evaluates the flow with exactly that velocity at the same position and the controller with the same entropy. The entropy is the flow's plus the controller's energy, the entropy change is the flow's at the control-law velocity and new time plus the controller's, and right after an evaluation it uses the velocity and position of that evaluation; the supply rate depends on the flow state only; Jacobian blocks other than 0 and 1 are refused. An actuator position once given stays in force. (Not so for a position never given: the residual then overwrites the documented default by an empty vector and reads past its end; and gains or positions handed to the entropy change are ignored.)", "quantifier": "every flow discipline, controller, state, sequence of inputs", "why_tests_cant": "The one unit test always supplies an actuator position and evaluates a single random state, so neither the missing default nor the ignored inputs can show.", "anchors": ["src/physics/fluidflow/flow_control_residual.cpp: FlowControlResidual::setInputs_, evaluate_, calcEntropy_, calcEntropyChange_, calcSupplyRate_, getJacobianBlock_", "src/physics/fluidflow/euler_integ.hpp: ControlBC, BoundaryEntropy setInputs"]}
{"id": "C215", "title": "Set-up of the flow-control solver", "statement": "A flow-control solver is constructed exactly when a mesh is available, its dimension and the state variables match the solver, entropy variables are asked for in steady problems only, and the control boundary is present and equals that of the boundary-entropy output; conservative solvers start exactly in unsteady problems. The mesh handed in is used, otherwise a .mesh file is read, a name without extension is refused. Five outputs are offered, entropy for the compound state and the others for the flow part. Setting the state by a pair of functions sets flow unknowns on every rank and control unknowns on rank 0 without overwriting each other. (Entropy-variable solvers can be constructed but never run; another mesh extension ends in a null dereference instead of an exception.)", "quantifier": "every option set, mesh, rank, state", "why_tests_cant": "Tests construct a handful of valid configurations; the combinations that can never run are not exercised.", "anchors": ["src/physics/fluidflow/flow_control_solver.cpp: FlowControlSolver constructor, constructMesh, setState_, initialHook, addOutput", "src/physics/fluidflow/flow_control_residual.cpp: FlowControlResidual constructor, constructOutput"]}
{"id": "C216", "title": "Mesh sensitivities of the flow residual", "statement": "The mesh-sensitivity integrators of the Euler residual return exactly the derivative of the adjoint-weighted residual with respect to the mesh nodes: for every state, adjoint, operator and straight-line motion of the mesh nodes, the derivative of psi^T R(u, x) along the motion equals the returned vector times the direction, both for the Ismail-Roe volume term and for the slip-wall boundary term.", "quantifier": "all SBP elements, numbers of nodes and dimensions, states, adjoints, scale factors and directions of mesh motion (MFEM's reverse-mode geometry calls are assumed to be adjoints of the forward ones)", "why_tests_cant": "a finite-difference test checks one mesh, one state and one random direction to a tolerance", "anchors": ["src/physics/fluidflow/mesh_sens_integ_def.hpp: DyadicMeshSensIntegrator, BoundaryMeshSensIntegrator", "src/physics/fluidflow/euler_sens_integ_def.hpp: IsmailRoeMeshSensIntegrator, SlipWallBCMeshSens", "src/common/sbp_fe.cpp: getSkewEntryRevDiff"]}
{"id": "C217", "title": "Quarter-annulus mesh", "statement": "The quarter-annulus mesh stays in the documented domain r in [1,3], theta in [0, pi/2] for every degree and every random perturbation of at most one cell; its boundary nodes lie exactly on the two arcs and the two axes whatever the draws; perturbations below a quarter of a cell never invert an element of the parameter mesh (and a quarter is sharp); the unperturbed straight-sided elements have positive area and their total area is 4 n sin(pi/(2n)), below 2 pi and within pi^3/(12 n^2) of it.", "quantifier": "all numbers of cells, mapping degrees, node positions, perturbation sizes and outcomes of the random draws", "why_tests_cant": "the perturbation is drawn from random_device: a test run sees one draw", "anchors": ["src/utils/utils.cpp: buildQuarterAnnulusMesh", "src/utils/utils.hpp: buildQuarterAnnulusMesh"]}
{"id": "C218", "title": "Patch reconstruction operators are exact on polynomials and optimal", "statement": "Whenever the element centres of a patch determine the polynomials of the requested degree, the minimum-norm operator (`buildInterpolation`, 1-D and 2-D) gives at every quadrature point weights that reproduce every polynomial up to that degree and have the least Euclidean norm among all weights that do; the least-squares operator (`buildLSInterpolation`, 1-D to 3-D) gives, for arbitrary centre data, the values of the one polynomial of that degree that fits the data best, so it too reproduces polynomials; the rows of both sum to one. The rows the code fills are exactly those it allocates; other dimensions raise; the LAPACK call is legal exactly when there are at least as many centres as basis functions, which determining centres always provide.", "quantifier": "all degrees, dimensions, numbers and positions of centres and quadrature points, all data, and every LAPACK least-squares solver meeting its documented contract", "why_tests_cant": "exactness is a statement about every polynomial and every patch geometry, and optimality compares with every other weight vector", "anchors": ["src/utils/utils.cpp: buildInterpolation (436-534), buildLSInterpolation (537-735)"]}
{"id": "C219", "title": "The shipped material data are admissible over their operating range", "statement": "Selecting the library data of a shipped material and overriding nothing gives physically admissible coefficients over the operating range. Core loss of Hiperco 50: the hysteresis coefficient is finite and positive for every peak flux up to 2.5 T between 20 and 200 degC, the loss density is positive up to 16 kHz; but the eddy-current coefficient is negative at 20 degC below 0.05 T (loss negative at 20 kHz) and not a number at one flux density in (0.05, 0.054) T at every temperature. Nd2Fe14B: the demagnetization constraint has its documented sign (positive exactly above the knee) from 53 to 188 degC, the opposite sign from -11 to 51 degC, and divides by zero at one temperature below the magnet's maximum temperature. Wires: the linear conductivity of all five shipped wires is positive and decreasing from 117 K on; it agrees with the constant model at 20 degC for all but copper. A component that merely names its material gets the constant 1 for both core-loss coefficients.", "quantifier": "all flux densities, temperatures and frequencies in the stated ranges, all components", "why_tests_cant": "positivity must hold at every point of a three-parameter continuum; the exceptional point where the coefficient is not a number is irrational and a test would not hit it", "anchors": ["src/common/material_library.cpp: 109-138, 200-210, 243-494", "cal2_kh_coefficient.cpp", "cal2_ke_coefficient.cpp", "pm_demag_constraint_coeff.cpp: Eval", "conductivity_coefficient.cpp", "electromag_integ.cpp: CAL2CoreLossIntegrator"]}
{"id": "C220", "title": "Which outputs and solvers have which derivatives", "statement": "Through createOutput / getOutputSize / calcOutput / calcOutputPartial / the two output products: a scalar output writes its value into a one-entry vector and refuses other lengths, a field output runs its own evaluation; forward products exist for all scalar outputs and the heat source, reverse products with respect to fields for all, with respect to a number for energy/thermal flux, mass and the losses; whatever is missing throws and leaves the caller's vector as it was, never a silent zero. Linearisation, adjoint solves and residual products run for the magnetostatic and thermal solvers and the mesh warper and always throw for flow. (False for: a field with one local entry gives NaN; the flow entropy reports the state's size and then refuses it, and its partials are silently zero.)", "quantifier": "all output types, names, inputs, vector lengths, implementations of the types' own functions", "why_tests_cant": "the function run is chosen by C++ overload resolution (own overload, template, base class) and by the vector's length at run time; tests exercise a few outputs at one length", "anchors": ["src/common/miso_output.hpp", "src/common/miso_residual.hpp:10-129", "src/common/abstract_solver.cpp:229-520", "src/physics/common_outputs.hpp", "src/physics/electromagnetics/electromag_outputs.hpp", "src/utils/l2_transfer_operator.hpp", "miso/pyMISO/exceptions.cpp"]}
{"id": "C221", "title": "The current density is the one asked for, in two and three dimensions", "statement": "The options are accepted exactly when no attribute is given to two known sources.  After any sequence of setInputs the coefficient on an element is the density last given to its group under current_density:<group> (1 before any) times the direction of its source at the point, with a minus sign in two dimensions, so that the two-dimensional coefficient is minus the axial component of the three-dimensional one; elements not listed carry nothing.  The reverse pass is the exact derivative with respect to the mesh nodes.  Violation: a source that two-dimensional problems do not have is silently dropped although its elements stay in the load.", "quantifier": "all option objects, histories of input updates, elements, points, node motions", "why_tests_cant": "all histories and all points; a test uses one option file", "anchors": ["src/physics/electromagnetics/current_source_functions.cpp: CurrentDensityCoefficient, CurrentDensityCoefficient2D", "src/common/coefficient.cpp: MeshDependentCoefficient, VectorMeshDependentCoefficient"]}
{"id": "C222", "title": "Gradients in an optimisation loop", "statement": "At every design an optimiser visits, whatever was solved, evaluated, linearised or differentiated before, the gradient that OpenMDAO assembles from the state component (solve_nonlinear, linearize, solve_linear in reverse mode, reverse apply_linear) is the total derivative of the output with respect to all inputs, numbers and fields, along the solutions of the residual equation.", "quantifier": "all histories of calls of the component, all designs, initial guesses, layouts of inputs, outputs and directions", "why_tests_cant": "Whether the gradient is right depends on what the object holds from earlier designs: a test that builds a solver, solves once and differences cannot see a Jacobian left over from another design.", "anchors": ["miso/miso_state.py", "miso/pyMISO/misoSolver.cpp", "src/common/abstract_solver.cpp", "src/physics/miso_nonlinearform.cpp"]}
{"id": "C223", "title": "Options written in Python arrive unchanged", "statement": "For every tree of options built from None, booleans, integers, floats, strings, lists, tuples and dictionaries, C++ reads at every path (key or list position at every step) exactly what Python wrote, with its type, and nothing where nothing was written; the options are refused with an exception exactly if somewhere inside is an object of another class or an integer that does not fit 64 bits; and getOptions returns the same values. (Whole floats come back as integers, tuples as lists; infinite floats and whole floats beyond 64 bits cannot be read back; two keys with the same text collide.)", "quantifier": "all finite option trees of any depth and size, all paths", "why_tests_cant": "Trees, keys, paths and numbers are unbounded.", "anchors": ["miso/pyMISO/pybind11_json.hpp: to_json, from_json, type_caster<nl::json>"]}
{"id": "C224", "title": "Building a solver from Python", "statement": "PDESolver(type, options) builds a solver exactly if the type is 'magnetostatic' or 'thermal', given as a string or under 'type' in a dictionary, and the options are None or a dictionary of supported objects; the class is the one named; the solver's options agree with the ones written at every path outside 'solver-type', and there with the type given. (A 'solver-type' already among the options is replaced.)", "quantifier": "all types and option trees, all paths", "why_tests_cant": "Type objects and option trees are unbounded.", "anchors": ["miso/pyMISO/pdeSolver.cpp: initSolver, initPDESolver"]}
{"id": "C225", "title": "Python functions as states and exact solutions", "statement": "setState with a Python function of the coordinates sets the caller's vector, the named field and, for the state, the Dirichlet values to the function's values at the nodes; if the function raises or returns no number, or the name is unknown, it raises; a vector-valued function (point, vector to fill) sets the state likewise, and calcStateError returns the error against a Python function. (The last two fail: every callable is taken by the first overload, and vectors cannot be passed to Python.)", "quantifier": "all Python callables, meshes, fields and states", "why_tests_cant": "Functions, meshes and states are unbounded.", "anchors": ["miso/pyMISO/misoSolver.cpp: setState, calcStateError", "miso/pyMISO/pyMISO.cpp: PYBIND11_MODULE", "src/physics/pde_solver.cpp: PDESolver::setState_", "src/physics/finite_element_state.hpp: project"]}
{"id": "C226", "title": "L2 projection residual", "statement": "Tested with psi the L2-projection residual is alpha times the quadrature of (u - g) psi, it is the gradient of alpha/2 times the squared distance, and it vanishes exactly at the states closest to the desired field g; its Jacobian is its derivative, symmetric and positive semidefinite; its mesh sensitivity is the derivative for every motion of the nodes, including the motion of g; likewise for the test boundary term.", "quantifier": "all elements, quadrature rules, states, adjoints, desired fields and mesh motions", "why_tests_cant": "Elements, rules, states and motions are unbounded and real-valued.", "anchors": ["src/physics/thermal/thermal_integ.cpp: L2ProjectionIntegrator, L2ProjectionIntegratorMeshRevSens, TestBCIntegrator, TestBCIntegratorMeshRevSens"]}
{"id": "C227", "title": "The demagnetisation aggregate bounds the worst point", "statement": "The pair of demagnetisation integrators gives, as a quotient, the mean over all quadrature points of all elements of the margin (knee flux density at the local temperature minus the component of the flux density along the magnetisation), weighted by w exp(rho margin): independent of the offset true_max, between the smallest and the largest margin, growing with rho, depending on the magnetisation by its direction only. If it is at most -gap, with gap at least the total weight over rho times a point's weight, no quadrature point is demagnetised. Without a temperature 100 C is used, without a flux density 99 T. A point without magnetisation makes the whole aggregate NaN.", "quantifier": "Every mesh, set of quadrature points with positive weights, temperature and flux density fields (present or not), knee and magnetisation laws, rho and true_max.", "why_tests_cant": "A test evaluates one magnet and one field; the guarantee is about every point of every mesh.", "anchors": ["src/physics/mfem_common_integ.cpp:IEAggregateDemagIntegratorNumerator::GetElementEnergy", "src/physics/mfem_common_integ.cpp:IEAggregateDemagIntegratorDenominator::GetElementEnergy", "src/physics/common_outputs.hpp:IEAggregateFunctional"]}
{"id": "C228", "title": "Every region gets the reluctivity its component asks for", "statement": "After a successful construction of the reluctivity every mesh attribute named by a component has the law that component asks for: 1/(mu_r mu_0) for a material given by name, without a reluctivity block or with the model linear (mu_r of the library, 1 if missing; positive, and at most the vacuum's for mu_r at least 1), or a lognu or bh spline whose control points, knots and degree come each from the component, else from the library's block of that model, else degree 3. All other attributes have the reluctivity of the vacuum. A component with another model, or without data for its spline, makes the construction fail as a whole. The team13 law cannot be selected, and the default degree is not reached for a material without a block in the library.", "quantifier": "Every list of components and attributes, material library and flux density.", "why_tests_cant": "A test builds a few libraries; the claim is about every combination of components, overrides and library entries.", "anchors": ["src/physics/electromagnetics/reluctivity_coefficient.cpp:constructReluctivityCoeff", "src/physics/electromagnetics/reluctivity_coefficient.cpp:getCpsKnotsAndDegree", "src/physics/electromagnetics/reluctivity_coefficient.cpp:ReluctivityCoefficient"]}
{"id": "C229", "title": "An output component has no memory", "statement": "After its set-up, whatever its new buffers hold, and after every history of evaluations and derivative products with all declared inputs (whose lengths may change from call to call), the next evaluation of a MISOFunctional gives the solver's output for exactly the inputs of that call, a derivative product is taken at the inputs of that call, and no call fails - provided the solver ignores an entry named like the output itself. Without that the claim fails: the output buffer is passed as an input of that name, so uninitialised memory and the previous result enter.", "quantifier": "Every set of declared inputs, content of uninitialised buffers, history of calls, inputs and solver.", "why_tests_cant": "A test makes one or two calls; the claim is about every history.", "anchors": ["miso/miso_output.py:MISOFunctional"]}
{"id": "C230", "title": "Mass matrix of the flow solver", "statement": "For an SBP basis the mass matrix is the diagonal matrix of lumped node weights of the mesh it is assembled on, positive definite on uninverted meshes and adding up to the volume times the number of states; a solver is set up exactly if the basis is SBP and time-dis.steady is a boolean. The matrix is that of the mesh at construction whatever is passed in later; steady states are not affected. (False: after new mesh coordinates an explicit stage gives the slope of the equations on the mesh in use; it is off by the ratio of the volumes.)", "quantifier": "all spaces, meshes, bases, options, histories of mesh updates and requests, residuals, states", "why_tests_cant": "the stale matrix only shows after a mesh update, which the unit tests do not perform before marching in time", "anchors": ["src/physics/fluidflow/flow_residual.cpp", "src/physics/fluidflow/flow_solver.cpp", "src/common/ode.cpp", "src/physics/diag_mass_integ.cpp"]}
{"id": "C231", "title": "MPhys scenario wiring", "statement": "A scenario built by MISOBuilder sets up exactly for known physics, MISO's own warper or none, solver inputs and functionals without clashing names; then solver and all functionals share the warped volume mesh and the solver's state, and every other input keeps its name, reading the functional shown under it or a value from outside. (False: without a warper the solver computes on its own mesh; it is handed coordinates that are all 1.)", "quantifier": "all physics types, input lists, warpers, dictionaries of outputs with any dependences", "why_tests_cant": "a wiring mistake shows only as a wrong number in one configuration; tests cover a few configurations", "anchors": ["miso/mphys/miso_builder.py", "miso/miso_state.py", "miso/miso_output.py", "miso/mesh_warper.py"]}
{"id": "C232", "title": "Older force integrator and magnetisation source", "statement": "The public ForceIntegrator computes minus the derivative of the element's magnetic energy along the virtual displacement (the value and state gradient of the integrator the force outputs use); this holds in three dimensions, and in two dimensions it is off by \u03a3 w J (1 - J) dB/ds dW/dB. MagnetizationIntegrator adds \u03b1 w \u03bd (curl N_r \u00b7 M), with \u03bd taken at the flux density times the Jacobian determinant, and its gradient (the zero matrix) is exact for constant reluctivity but not in general.", "quantifier": "all elements with positive Jacobian and non-vanishing field, all smooth materials, displacements, states and quadratures", "why_tests_cant": "The identity must hold for every element, displacement and material; a test samples one mesh, and a unit-Jacobian mesh hides the two-dimensional factor.", "anchors": ["src/physics/electromagnetics/electromag_integ.cpp", "src/physics/electromagnetics/electromag_integ.hpp"]}
{"id": "C233", "title": "Older mesh-sensitivity integrators", "statement": "Multiplied with any motion of the mesh nodes, the vectors assembled by DomainResIntegrator, MassResIntegrator, DiffusionResIntegrator and BoundaryNormalResIntegrator are the derivatives of the adjoint-weighted load, mass, diffusion and boundary-normal residuals (for mass, diffusion and boundary only if the coefficient does not change along the motion), and TestLFMeshSensIntegrator that of TestLFIntegrator when both use the same rule (elements of order four only).", "quantifier": "all element maps, motions, quadratures, states, adjoints and coefficients", "why_tests_cant": "The identity must hold along every motion of every element; a finite-difference test tries a few directions on one mesh.", "anchors": ["src/physics/mfem_common_integ.cpp", "src/physics/mfem_common_integ.hpp"]}
{"id": "C234", "title": "Printed Jacobian and re-targeted sums of operators", "statement": "The file a matrix-free Jacobian prints has one line per state variable holding the difference quotient along that variable: for affine residuals exactly the product of the operator with that unit vector (so the file is the transpose of the operator's matrix, not the matrix), for smooth residuals within curvature times half the step. A sum of operators rejects operators of different sizes on construction, but not when re-targeted.", "quantifier": "all residuals, explicit parts, scales, baselines, file contents and operator sizes", "why_tests_cant": "Lines and columns only differ for unsymmetric operators, and the entries must be right at every baseline and scale.", "anchors": ["src/common/matrix_operators.cpp", "src/common/matrix_operators.hpp"]}
{"id": "C235", "title": "Mesh sensitivity of the older force integrator", "statement": "For the older three-dimensional force integrator, the vector assembled by its mesh-sensitivity integrator, multiplied with any motion of the mesh nodes, is the derivative of the element's force contribution under that motion, and agrees with what the current force integrator assembles.", "quantifier": "every mesh motion, element map, magnetisation law with smooth energy, state, virtual displacement and number of quadrature points, wherever the flux density is not zero", "why_tests_cant": "tests compare one finite difference on one mesh", "anchors": ["src/physics/electromagnetics/electromag_integ.cpp: ForceIntegratorMeshSens"]}
{"id": "C236", "title": "Checked boundary and interface terms and their mesh sensitivities", "statement": "The checked boundary and interface terms equal the stated weak forms, and the vectors assembled by their mesh-sensitivity integrators (face-node plus element-node vectors on a boundary face, the two element vectors on an interface), multiplied with any motion of the mesh nodes, give the derivative of the term's pairing with the adjoint. The boundary sensitivity uses the same quadrature rule as the term it differentiates (true on simplices only).", "quantifier": "every mesh motion, state, adjoint, face geometry and number of quadrature points; the rule clause over element shapes and orders", "why_tests_cant": "tests compare one finite difference on one mesh of one element type", "anchors": ["src/physics/electromagnetics/electromag_integ.cpp: TestBoundaryIntegrator, TestInteriorFaceIntegrator"]}
{"id": "C237", "title": "Mapping a surface mesh to a new body fills the caller's array", "statement": "Given the nodes of a body's tessellation before and after a change of the body, mapSurfaceMesh puts every node's displacement into the caller's array, node by node with all components of a node together, for two or three components per node, and changes nothing else in the array (true for contiguous one-dimensional arrays of doubles; other types are accepted and left unfilled, slices are filled in the wrong places). Arrays of several dimensions, failing EGADS calls and builds without EGADS are reported as errors; too short arrays are written past their end.", "quantifier": "every array type, stride, size and content, every number of nodes and every pair of tessellations", "why_tests_cant": "a test maps one body with one array made by numpy.zeros", "anchors": ["miso/pyMISO/meshMotion.cpp: mapSurfaceMesh", "src/utils/EGADS/miso_egads.cpp: mapSurfaceMesh"]}
{"id": "C238", "title": "Transferring a solution to another mesh evaluates it at the other mesh's nodes", "statement": "transferSolution leaves in the output, for every node of the new mesh, the old field's value at that node's position, whatever layout the new mesh's nodes are stored in, and leaves later entries alone (true for nodes stored by component, MFEM's byNODES, and in one dimension; for byVDIM the points read are not the nodes). A shorter output is written out of bounds; a build without GSLIB throws.", "quantifier": "every number of nodes, dimension, node layout, node position and field", "why_tests_cant": "a test uses one mesh with one ordering", "anchors": ["src/utils/utils.cpp: transferSolution"]}
{"id": "C239", "title": "The SBP advection integrators conserve and are energy stable", "statement": "The advection element matrix is the weak form of the advection term, its contributions sum to zero over each element for every field and velocity, and for constant reference-space velocity the element's energy changes only through the boundary; the local-projection stabilisation is symmetric, its energy is the speed-weighted square of what the projection leaves of the field, it takes nothing from polynomials of the element's degree, and with a nonnegative coefficient it only dissipates.", "quantifier": "every element operator (sizes, norms, Q matrices, Vandermonde bases), velocity field, Jacobian and field", "why_tests_cant": "a test checks one manufactured velocity on one mesh", "anchors": ["src/physics/fluidflow/advection.cpp: AdvectionIntegrator, AdvectLPSIntegrator, AdvectionSolver"]}
{"id": "C240", "title": "The fields a magnetostatic or thermal solver owns", "statement": "After construction a magnetostatic solver has every field its options declare, on the declared space, and besides a temperature (linear continuous, 273.15 everywhere), flux magnitude and peak flux (discontinuous of the state's degree, zero) unless declared; a thermal solver has every declared field and a thermal load on the state's own space, zero (a declared thermal load keeps its own space, which need not be the state's).", "quantifier": "every options file, list of external fields and mesh space", "why_tests_cant": "a test builds a solver from one options file", "anchors": ["src/physics/electromagnetics/magnetostatic.cpp: MagnetostaticSolver", "src/physics/thermal/thermal.cpp: ThermalSolver"]}
{"id": "C241", "title": "Jacobians of the Euler fluxes with respect to the direction", "statement": "calcFluxJacDir of the Euler flux, of every boundary condition and of the interface flux returns the Jacobian of that flux with respect to the direction: along every differentiable curve of directions the flux changes at the rate the matrix gives; and the Euler flux's calcFluxJacState does so for the state. (True for the Euler flux and the slip wall always, for the actuated wall at every nonzero normal, for far field, entropy-conservative and vortex conditions where no wave speed of the prescribed state vanishes, and for the interface flux where the normal is not perpendicular to the mean momentum; elsewhere the far-field flux has no Jacobian.)", "quantifier": "every direction, position, physical state, prescribed state, dissipation coefficient and dimension, in conservative and entropy variables", "why_tests_cant": "a test compares with finite differences at one state and one direction", "anchors": ["src/physics/fluidflow/euler_integ_def.hpp: calcFluxJacDir", "src/physics/fluidflow/euler_integ.hpp"]}
