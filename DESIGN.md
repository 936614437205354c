# DESIGN — formal model of OptimalDesignLab/MISO in Lean 4

## Approach

The model lives in `lean/Verif/`.  Each area of the code has two files: `<Area>.lean` (the
model: small total functions, each with a `/repo` file:line citation) and `<Area>Props.lean`
(an independent specification plus the property theorems and non-vacuity examples).
Helper lemmas sit in `<Area>.lean` or `<Area>Lemmas.lean`, never between the property theorems.

* `double` is modelled by an arbitrary linearly ordered field `K` (executable on the rationals
  for the witnesses) or by the reals where `sqrt`, `log`, `exp`, `pow` occur.  Rounding, NaN
  and infinities are *not* modelled.
* A function that mutates through a reference becomes one that returns the new value; aliasing,
  where the property is about aliasing, is modelled by an explicit heap.
* Exceptions, `mfem_error` aborts and undefined behaviour are distinct outcomes of the model.
* External calls (MFEM assembly, hypre solves, `std::nth_element`, MPI reductions) are
  parameters; whatever is assumed about them is an explicit hypothesis of the theorem.
* Not modelled, and represented only by such parameters or by the documented behaviour stated in
  the comment of the definition: MFEM's meshes, element geometry, quadrature and finite-element
  tables, hypre and PETSc, Adept (its differentiation is taken to be exact), tinyspline, LAPACK,
  GSLIB's point search, EGADS, `std::ofstream`, pybind11, OpenMDAO and MPhys.
* Where the code violates the English property, the negation is proved with a concrete
  witness, and the strongest part that does hold is proved under the suffix `_partial`.

## Trusted base

* Lean 4.33.0's kernel, and the standard axioms `propext`, `Classical.choice`, `Quot.sound`
  only (`#print axioms` on every property theorem).  No axioms added; no compiled-code tactics.
* Mathlib definitions used in the statements (`List.Perm`, ordered fields, `Real.log`, ...).
* The reading of the C++ recorded in the citation comment of every definition.  The code
  is not executed here; nothing checks the model against the binary.

## Per-property plan

* **C01 Nearest-neighbour query is exact** — binary-tree model with nondeterministic nth_element (any list satisfying its postcondition); induction on the tree with the kd invariant. Stated in `KDTreeProps.lean`.
  * `C01_nearest_exact` — Right after `finalize`, whatever the previous history, whatever permutation `nth_element` produced, a query returns the label of one of the added nodes, at minimal distance, and the reported (squared) distance is that minimum
* **C02 Building the tree keeps exactly the given points** — `make_tree` as a relation over all nth_element results; `Perm` by induction. Stated in `KDTreeProps.lean`.
  * `C02_finalize_keeps_points` — a)** `finalize` keeps exactly the added nodes: the nodes reachable from the root are a permutation of the nodes added (no loss, duplication or alteration)
  * `C02_query_empty_throws` — b)** Querying throws exactly when nothing had been added at the last `finalize` (in particular when `finalize` was never called), and leaves the object unchanged
* **C03 Queries are independent of earlier queries** — query is a function of tree and point; state machine with stale best_/visited_ fields. Stated in `KDTreeProps.lean`.
  * `C03_history_independent` — A query's full answer (label, distance, visited count, or exception) is the same whatever queries were issued on the object before
* **C04 A query visits each stored point at most once** — induction on the tree. Stated in `KDTreeProps.lean`.
  * `C04_visited_bounds` — A successful query visits at least one and at most all stored points
* **C05 Adding nodes after finalize** — state machine with vector capacity; UB outcome when the stored root refers to a reallocated buffer. Stated in `KDTreeProps.lean`.
  * `C05_added_later_not_seen` — a)** After `finalize`, nodes added while capacity remains are simply not seen by queries: the answer is the nearest among the nodes present at the last `finalize`
  * `C05_growth_is_ub` — b)** If adding a node after a non-trivial `finalize` forces the vector to grow, the next query is undefined behaviour
  * `C05_refinalize_restores` — c)** Calling `finalize` again after any such additions restores exact answers over all nodes added so far
* **C06 Bisection returns a bracketed root** — fuel-free loop on maxiter; loop invariant on the bracket. Stated in `RootFindProps.lean`.
  * `C06_same_sign_throws` — throw)** `bisection` throws whenever the end values have the same strict sign
  * `C06_bisection_result_partial` — partial)** Whenever `bisection` returns normally and neither end point is itself a root, the result is the midpoint of a sign-changing sub-interval reached by `k < maxiter` halvings, and the function value is within `ftol` or the sub-interval width within `xtol`
  * `C06_false_endpoint_root` — is violated by the code** when an end point is an exact root: for `f x = x` on `[0,1]` with zero tolerances `bisection` silently returns `1/2`, where `f` is not zero
* **C07 Bisection halves and reports non-convergence exactly** — same loop; width invariant, negation witness for the boundary. Stated in `RootFindProps.lean`.
  * `C07_bisection_terminates_partial` — partial)** If `j < maxiter` halvings make the interval narrower than `xtol`, `bisection` returns normally, for every function (continuous or not) with a strict sign change
  * `C07_false_at_limit` — is violated by the code at the boundary**: for `f x = x - 1/4` on `[0,1]` and `maxiter = 1` the first halving lands exactly on the root, yet `bisection` throws; with `maxiter = 2` it returns that very point after that one iteration
* **C08 Secant reports failure** — loop on maxiter; negation witness; partial: when it converges early the result meets the tolerance. Stated in `RootFindProps.lean`.
  * `C08_false_never_throws` — is violated by the code**: for a non-negative iteration limit `secant` never throws, whatever the function, even if the limit is exhausted
  * `C08_false_witness` — witness**: `f x = x² + 1` has no root, every value is at least 1, yet `secant` with tolerance `1/2` and `maxiter = 2` returns normally
  * `C08_secant_early_return_partial` — partial)** If `secant` returns before exhausting `maxiter`, the returned point meets `ftol` or was reached by a secant step shorter than `xtol`
  * `C08_secant_affine_exact` — affine)** On an affine function with non-zero slope and distinct start points `secant` returns the exact root, or a point already within `ftol`, using at most one iteration, provided `maxiter ≥ 2`
* **C09 Quadratic interpolation hits the interpolant's stationary point** — field identity. Stated in `RootFindProps.lean`.
  * `C09_quadInterp_stationary` — `quadInterp` returns the stationary point of the quadratic `a t² + b t + c` that matches value and slope at `x0` and value at `x1`
* **C10 Line search returns an Armijo point or zero** — loop invariant. Stated in `LineSearchProps.lean`.
  * `C10_armijo_or_zero` — The value returned by the backtracking search is either exactly `0`, in which case *every* trial step violated the Armijo condition and all `maxIter + 1` evaluations were spent, or a positive step that satisfies the Armijo condition, namely the first trial that does
* **C11 Line search step shrinkage and evaluation budget** — loop invariant with powers. Stated in `LineSearchProps.lean`.
  * `C11_trial_bounds` — The `k`-th trial step lies between `rhoLo^k` and `rhoHi^k` times the initial step; `phi` is evaluated at most `maxIter + 1` times; hence (for `rhoHi ≤ 1`) the returned step never exceeds the initial step and a non-zero result is at least `rhoLo^maxIter` times it
* **C12 Line search interpolation formulas are minimisers** — field identities over the reals; negation for the degenerate branch. Stated in `LineSearchProps.lean`.
  * `C12_quadratic_interp` — quadratic)** `quadratic_interp` returns the stationary point of the quadratic `a t² + dphi0 t + phi0`; for a failing Armijo trial with `dphi0 < 0`, `mu ≤ 1` it is its unique minimiser (positive curvature)
  * `C12_quadratic_interp_minimiser` — quadratic, as used)** When the search calls it — the Armijo test with `mu ≤ 1` just failed at `alpha > 0` along a descent direction — the interpolating quadratic is strictly convex and the returned point is its strict global minimiser
  * `C12_cubic_interp_partial` — cubic, partial)** Away from the degenerate branch (`|A| ≥ eps`) and when the cubic `A t³ + B t² + dphi0 t + phi0` has stationary points, `cubic_interp` returns its local minimiser: first derivative zero, second derivative non-negative
  * `C12_false_degenerate_cubic` — is violated by the code in the degenerate branch**: when the interpolant is exactly quadratic (`A = 0`) with non-zero slope at 0, the returned point is never stationary (the sign is wrong): its derivative there is `2 * dphi0`
* **C13 Relaxed Newton never increases the residual** — corollary of C10 over the Newton loop model. Stated in `LineSearchProps.lean`.
  * `C13_step_no_increase` — one step)** Along a descent direction (`dphi0 ≤ 0`), the step length chosen by the relaxed Newton solver is `0` or lies in `(0,1]` and does not increase the residual norm; it decreases it strictly when `dphi0 < 0` and `mu > 0`
  * `C13_newton_monotone` — Over the whole Newton iteration the residual norms form a non-increasing sequence, the convergence flag is set iff the last norm meets the goal, the iteration limit is respected and the last recorded norm belongs to the returned state
* **C14 All MPI ranks take the same line-search step** — two-rank model; negation witness; partial on one rank. Stated in `LineSearchProps.lean`.
  * `C14_false_ranks_diverge` — is violated by the code**: two ranks with valid local data (each rank's `phi(0)` equals its `phi0`, both slopes are exact Newton slopes `-phi0`) perform different numbers of collective evaluations, so the parallel line search deadlocks
  * `C14_full_step_agrees_partial` — partial)** If on every rank the full step satisfies the rank-local Armijo test, all ranks return the same step after one evaluation
* **C15 Inexact Newton globalisation gives sufficient decrease** — loop invariant. Stated in `InexactNewtonProps.lean`.
  * `C15_globalisation` — When the globalisation returns normally after `k` reductions: `k ≤ maxIter`; the step satisfies `thetaMin^k ≤ s ≤ thetaMax^k` and lies in `(0,1]`; if any reduction happened `eta ≤ etaMax`; and the residual at the new point satisfies the sufficient decrease test with the last `theta` (0 if no reduction), hence for `0 ≤ t` and a non-negative norm it does not exceed the old one
  * `C15_no_abort` — no spurious abort)** If all sufficiently short steps (`0 < s ≤ thetaMax^j` for some `1 ≤ j ≤ maxIter`) pass the sufficient decrease test, the globalisation does not abort
  * `C15_full_step` — full step kept)** If the full step already reduces the residual sufficiently, it is taken unchanged and `eta` is not touched
* **C16 Inexact Newton uses the derivative of the merit function** — negation witness + symmetric partial. Stated in `InexactNewtonProps.lean`.
  * `C16_slope_symmetric_partial` — partial)** For a symmetric bilinear `dot` and a Jacobian that is symmetric with respect to it, the slope used by `ComputeStepSize` is the slope of the merit function
  * `C16_false_nonsymmetric` — is violated by the code** for non-symmetric Jacobians: for `F(x,y) = (x+y, y)` at `(1,1)` with the exact Newton step, no quadratic with the code's slope matches the merit function (the step is an exact Newton step, first conjunct)
* **C17 Newton convergence flag is truthful** — loop model. Stated in `InexactNewtonProps.lean`.
  * `C17_flag_truthful` — Whenever `InexactNewton::Mult` terminates without aborting, the reported final norm is the residual norm of the returned state, `converged` is set iff that norm is at most `max(rel_tol * initial norm, abs_tol)`, and at most `max_iter` iterations were taken
  * `C17_no_increase` — monotone)** With well-formed parameters and non-negative `t`, a terminated solve never ends with a larger residual norm than it started with
  * `C17_exact_step` — one exact step)** If the preconditioned step from `x0` lands on a solution of `oper x = b` and `t ≤ 1`, and at least one iteration is allowed, the solver reports convergence to that solution after one iteration (none if the initial guess already passes the test)
* **C18 Time loop terminates on or before its bounds** — loop model with abstract step. Stated in `TimeLoopProps.lean`.
  * `C18_time_loop_bounds` — With `exact-t-final`, `dt > 0`, `t_initial < t_final` and a conventional stepper: at most `max-iter` steps are made, every step is positive, at most `dt` and ends no later than `t_final`; and if the loop was left through the exit test, `t_final` is reached to within `1e-14 dt`
  * `C18_overshoot_bounded` — Without `exact-t-final` the final time overshoots by less than one step
  * `C18_false_for_relaxation` — limitation**: with a relaxation stepper (`gamma > 1`) even `exact-t-final` overshoots
* **C19 Enough iterations reach t_final** — arithmetic on the loop. Stated in `TimeLoopProps.lean`.
  * `C19_reaches_t_final` — If `max-iter * dt ≥ t_final - t_initial`, the loop is left through the exit test, the final time is `t_final` to within the exit tolerance (exactly `t_final` unless the last regular step landed inside the tolerance), and the number `n` of steps is minimal: `(n-1) dt < t_final - t_initial`
* **C20 Logged state snapshots carry their true time and are not overwritten** — log trace model; negation; partial. Stated in `TimeLoopProps.lean`.
  * `C20_log_times_partial` — partial)** Every logged snapshot other than the initial one carries its true time; the initial one does too if `t-initial = 0`
  * `C20_false_initial_time` — is violated by the code (time stamp)**: a solve from `t-initial = 5` to `7` logs a snapshot with a time stamp at which there was no solution
  * `C20_false_overwrite` — is violated by the code (overwriting)**: whenever each-timestep and final-state logging are both on and the loop is left through the exit test, the snapshot taken at the start of the last iteration is lost — its file now holds the final state
  * `C20_kept_when_exhausted_partial` — kept when not exiting early)** If the loop runs out of iterations instead, the final state gets its own file and every per-iteration snapshot is kept
* **C21 Pseudo-transient step never shrinks** — max recursion. Stated in `TimeLoopProps.lean`.
  * `C21_ptc_monotone` — Along any pseudo-transient solve, whatever the residual history, the step sizes handed to the stepper never decrease; and the `k`-th is the largest of `dt * ratio_j`, `j ≤ k` (and of the initial `dt_old = 0`), where `ratio_j = (r_0 / r_j)^exponent` at the `j`-th iterate
  * `C21_ptc_exit_iff` — exit)** The steady solve is left early exactly when the residual norm meets the absolute tolerance or the tolerance relative to the initial norm
* **C22 State file names are injective** — string model; characterise clashes. Stated in `StateFilesProps.lean`.
  * `C22_filenames_injective` — Two saves use the same file name only if they come from the same logger and agree in field name, timestep and rank — for every field name, including names containing underscores, digits or slashes, and for negative timesteps
* **C23 Binary state files round-trip** — byte-level encode/decode, file-system map. Stated in `StateFilesProps.lean`.
  * `C23_read_returns_last_save` — After any history of `saveState` calls (on any fields, timesteps, ranks), `readState` delivers bit for bit the time and vector of the last save with the same field, timestep and rank, whatever the destination held before (`size` fits in an `int`, as MFEM vectors guarantee)
  * `C23_other_keys_undisturbed` — A save disturbs no other file: reading another key gives the same result before and after
  * `C23_missing_file_silent` — Reading a state that was never saved does not fail: it silently keeps the caller's time and returns an empty vector
* **C24 Inputs: absent keys leave values unchanged, wrong kinds throw** — map model. Stated in `InputsProps.lean`.
  * `C24_value` — Scalars: an absent key leaves the destination unchanged or, if an error was requested, throws; a key holding a vector throws; a key holding a number delivers that number
  * `C24_vector` — Vectors: an absent key changes neither memory nor the destination or, if requested, throws; a key holding a number throws; a key holding a vector whose memory is valid, and is not memory the destination itself owns, never fails and leaves the destination with exactly the supplied size and entries, deep copy or not
* **C25 Vector inputs alias unless deep copied** — heap model. Stated in `InputsProps.lean`.
  * `C25_shallow_aliases` — Without deep copy the destination aliases the caller's memory: after any sequence of writes through either handle, both read the same everywhere, and a write through the destination is visible to the caller
  * `C25_shallow_never_frees` — Without deep copy the caller keeps ownership: whatever the destination is set from next (shallow or deep, any size, wherever new memory comes from), the caller's block is not freed
  * `C25_deep_independent` — With deep copy into a vector that was not already an alias of the source, the two are independent: any writes through one leave the other's contents as they were right after the copy, and memory the destination had to acquire belongs to it
  * `C25_false_deep_copy_into_alias` — violated)** "Deep copy gives an independent vector" fails when the destination was filled before without deep copy: the copy is written into the first caller's memory
  * `C25_false_self_input_dangles` — hazard)** Passing a vector that owns its data as an input to itself without deep copy frees the memory the input refers to: any later access is to freed memory
* **C26 Option merging keeps defaults for unspecified keys** — JSON tree and merge_patch; recursion. Stated in `OptionsProps.lean`.
  * `C26_lookup` — What the merged options hold at a top-level key: the default if the user does not mention it, nothing if the user sets `null`, else the merge of the default there with the user's value
  * `C26_unspecified_kept` — Anything the user's document does not mention, at any depth, keeps its default (including being absent)
  * `C26_specified_wins` — A value (not an object, not `null`) given by the user at any depth is what the solver sees
  * `C26_null_removes` — A `null` given by the user at any (nonempty) path removes the key, default or not
  * `C26_idempotent` — Applying the same user document a second time changes nothing observable
* **C27 Boundary attribute arrays** — list update. Stated in `BoundaryProps.lean`.
  * `C27_list_marks_exactly` — A list of attributes within `1..n` marks exactly those attributes, whatever the array held before
  * `C27_all_none` — `"all"` marks every attribute and `"none"` no attribute
  * `C27_rejects` — Every other string and every JSON value that is neither string nor array throws a `MISOException`; an array with a non-numeric element throws nlohmann's type error
  * `C27_independent_of_prior` — The result never depends on what the array held, only on its length
  * `C27_out_of_range_is_ub` — An attribute outside `1..n` anywhere in the list is an out-of-bounds write: nothing is checked
* **C28 Output registry** — state machine over registry. Stated in `RegistryProps.lean`.
  * `C28_registered_iff_created` — After any history of calls starting from an empty registry, exactly the names whose construction succeeded at some point are registered
  * `C28_other_outputs_untouched` — A call concerning one output never changes any other registered output
  * `C28_duplicate_throws` — Creating an output under an existing name throws and changes nothing
  * `C28_unknown_throws` — Any operation other than creation on an unknown output throws and changes nothing
  * `C28_dispatch` — With a result vector of size one the scalar forms are used: evaluation overwrites the entry, Jacobian-vector and vector-Jacobian products add to it; with any other size the vector forms get the vector
  * `C28_scalar_results` — A scalar evaluation returns the output's value (at the object that has received the inputs), and a scalar partial is added to what the caller passed in; the vector partial gets the caller's vector
  * `C28_errors_reported` — Every failure other than `std::out_of_range` reaches the caller: of setting inputs or options, and of each evaluation
  * `C28_false_failure_swallowed` — violated: errors are reported)** If evaluating an output fails with `std::out_of_range` — as when a derivative is requested with respect to an input the output does not know — the call returns normally and a one-entry result vector keeps its old content; a scalar evaluation returns NaN
  * `C28_false_input_failure_swallowed` — violated: errors are reported)** The same if *setting the inputs* fails with `std::out_of_range`: NaN, or an unchanged result vector, and no exception
* **C29 Quotient functionals are differentiated exactly** — derivative identity. Stated in `QuotientProps.lean`.
  * `C29_jvp_is_derivative` — If numerator and denominator differentiate correctly and the denominator is not zero, the Jacobian-vector product of the ratio is the directional derivative of the ratio
  * `C29_vjp_adjoint` — The vector-Jacobian product adds to the given vector exactly `out_bar` times the transpose of the Jacobian-vector product: forward and reverse mode agree for every direction, seed and prior content
* **C30 SumOfOperators computes a*A+b*B** — Models src/common/matrix_operators.cpp: SumOfOperators::Mult. Stated in `OperatorsProps.lean`.
  * `C30_sum_partial` — part)** If neither coefficient is negligible, the result is `a'·A(x) + b'·B(x)` with coefficients within `1e-16` of the given ones (exactly the given ones unless they are within `1e-16` of 1), independent of the previous contents of the work and result vectors
  * `C30_false_stale_work` — violated)** With a negligible first coefficient the result contains whatever the work vector held: a second product with `a = 0` adds the previous call's `A(x)`
  * `C30_false_stale_result` — violated)** With a negligible second coefficient the result contains the previous content of the result vector
* **C31 Jacobian-free product** — Models src/common/matrix_operators.cpp: JacobianFree::Mult. Stated in `OperatorsProps.lean`.
  * `C31_step_bounded` — The finite-difference perturbation is never zero and never large: the perturbation `eps·x` has Euclidean norm at most `1e-5` for every direction
  * `C31_affine_exact_partial` — For an affine residual `R(u) = A u + c` the product is exact: `scale·A x` plus the explicit part, for every baseline, direction and prior content of the result (if `scale` is not negligible)
  * `C31_forward_difference_partial` — For a general residual with Jacobian `J` at the baseline and curvature at most `C` along the direction, the unscaled product differs from `J x` by at most `C·eps/2` in every component
  * `C31_false_zero_scale` — violated)** With scale 0 the product is not `0 + explicit part`: the previous content of the result vector survives
* **C32 Time-dependent residual and its Jacobian agree** — Models src/common/ode.cpp; src/common/ode.hpp. Stated in `OperatorsProps.lean`.
  * `C32_residual_formula` — The time-dependent residual is `M k + R(u + dt k)`, also for `dt = 0`
  * `C32_assembled_jacobian_exact` — With an assembled Jacobian of a supported kind, the operator returned is the exact derivative of the residual with respect to `k`, for every `dt` (including 0), state and slope, and whatever the Jacobian storage held before
  * `C32_constructed_jacobian_exact` — The same for the operator as constructed, at its first use: for the supported kinds the constructor allocates storage for which the returned operator is the exact derivative, whatever fresh memory holds
  * `C32_jacobian_free_affine` — With a block mass matrix the operator returned is Jacobian-free; for an affine spatial residual (and `dt` not negligible, nor within `1e-16` of 1) its product is the exact derivative applied to the direction
  * `C32_false_unsupported_kinds` — violated for other combinations)** If mass matrix and spatial Jacobian are of any other combination of kinds the returned matrix is whatever the storage held before — in particular, right after construction with a hypre mass matrix and a spatial Jacobian of another kind, the mass matrix alone
  * `C32_false_dense_mass_is_ub` — hazard)** A mass matrix that is neither hypre, identity nor block leaves the Jacobian unallocated: an implicit step dereferences a null pointer
* **C33 Relaxation RK conserves entropy increments** — Models src/common/mfem_extensions.cpp: RRKImplicitMidpointSolver, RRK6Solver. Stated in `OdeProps.lean`.
  * `C33_midpoint_step_partial` — implicit midpoint)** A normal return of the relaxed implicit midpoint step advances state and time by the same relaxed step along the midpoint slope, and the entropy balance is met unless the scalar iteration was exhausted
  * `C33_explicit_step_partial` — explicit)** For any tableau with `s ≥ 1` stages: the step uses the slopes of that tableau and advances state and time by the same relaxed step along `Σ b_i k_i`, with the entropy balance taken against the `b`-weighted stage rates
  * `C33_midpoint_quadratic_entropy` — full, quadratic entropy)** With a quadratic entropy `½ B(x,x)` and the entropy-change rate `-B(y,k)` of the controller (`flow_control_residual.cpp:196-239`), the relaxed implicit midpoint step always returns; the relaxation is within 1% of 1, at most 7 scalar iterations are used, and the entropy balance over the relaxed step holds to `1e-12` or `gamma` is 1 to `1e-12` (where the balance is exact at 1)
  * `C33_false_no_progress` — violated)** `gamma = 0` always solves the relaxation equation, and nothing excludes it: the relaxed forward Euler step from `u = 1`, `dt = 1` "converges" to a step of less than `2e-6 * dt` — the state and the time practically do not advance
* **C34 RRK6 tableau is consistent** — Models src/common/mfem_extensions.cpp: RRK6Solver a,b,c. Stated in `OdeProps.lean`.
  * `C34_order_six` — The `RRK6Solver` coefficients satisfy the order condition of *every* rooted tree with at most 6 vertices to `1e-34` (they are 40-digit decimals), i.e
  * `C34_row_sums` — Row sums of the tableau are the abscissae, for every stage (again to the precision of the literals)
* **C35 Block-Jacobi preconditioner is blockwise and linear** — Models src/common/mfem_extensions.cpp: BlockJacobiPreconditioner. Stated in `BlockJacobiProps.lean`.
  * `C35_mult_blockwise` — `Mult` applies each block's solver to its own segment, and copies the segment where no solver is set; each result segment depends on the same segment of `x` only
  * `C35_multTranspose_blockwise` — Same for `MultTranspose`
  * `C35_linear` — If every block's solver is linear, so is the preconditioner
  * `C35_transpose_adjoint` — If each block's transpose solver is adjoint to its solver on that block's segment, `MultTranspose` is adjoint to `Mult`
  * `C35_set_operator` — `SetOperator` rebuilds exactly the blocks that have a solver, each from its own diagonal block; unsupported operators throw; `SetDiagonalBlock` changes one block only
  * `C35_jacobian_free_blocks` — The diagonal blocks handed over by a Jacobian-free operator are `scale * J_ii + M_ii` (for an operator with explicit part `M`), the diagonal blocks of the operator it represents; unsupported kinds throw
* **C36 Essential dofs of the residual** — Models src/physics/miso_nonlinearform.cpp: evaluate. Stated in `NonlinearFormProps.lean`.
  * `C36_evaluate_after_any_history` — After *any* history of calls, evaluating returns the residual of the specification for the parameters set last: the assembled residual on free dofs, and on essential dofs the mismatch with the registered boundary values (0 if none are registered)
  * `C36_zero_at_essential` — In particular, without registered boundary values the essential entries are zero
* **C37 Forward and reverse products are adjoint** — Models src/physics/miso_nonlinearform.cpp: jacobianVectorProduct, vectorJacobianProduct. Stated in `NonlinearFormProps.lean`.
  * `C37_state_products_adjoint` — state)** After any history of calls, the forward and reverse state products either both throw (no Jacobian was ever assembled) or both accumulate, and what they add satisfies `res_bar · JVP(w) = VJP(res_bar) · w` for all seeds
  * `C37_jvp_exact_partial` — partial: no registered boundary values)** Right after `getJacobian` at the current parameters and state the forward product is the exact derivative of `evaluate`
  * `C37_false_dirichlet_rows` — violated with registered boundary values)** With a `dirichlet_bc` field the residual is `u - bc` on essential dofs, with derivative 1 there, but the forward product returns 0
  * `C37_field_reverse` — fields)** The reverse product with respect to a field adds the transpose of the derivative of the constrained residual (no registered boundary values)
  * `C37_false_scalar_reverse` — violated for scalars)** The reverse product with respect to a scalar does not zero the seed on essential dofs: for any seed that is nonzero on one, some residual derivative gives a wrong value
  * `C37_scalar_reverse_partial` — partial, scalars)** It is correct for seeds vanishing on essential dofs
* **C38 Products use the Jacobian at the current linearisation point** — Models src/physics/miso_nonlinearform.cpp: linearize, getJacobian, jacobianVectorProduct. Stated in `NonlinearFormProps.lean`.
  * `C38_linearize_fresh_partial` — partial)** On a form with no Jacobian yet, `linearize` makes products use the Jacobian at its inputs; a `getJacobian` call always does so
  * `C38_false_linearize_stale` — violated)** On any form that already holds a Jacobian — assembled at whatever inputs — `linearize` at new inputs keeps using the old one
* **C39 Adjoint boundary conditions** — Models src/physics/miso_nonlinearform.cpp: setUpAdjointSystem, finalizeAdjointSystem. Stated in `NonlinearFormProps.lean`.
  * `C39_adjoint_on_free_dofs` — After `getJacobian` and `setUpAdjointSystem`, an exact solve with the operator and right-hand side handed to the solver yields an adjoint that is zero on essential dofs and satisfies `(Jᵀψ)_j = state_bar_j` on free dofs, whatever initial adjoint guess and scratch contents
  * `C39_finalized_adjoint` — Followed by `finalizeAdjointSystem` (under non-aliased arithmetic) the *negative* of the result solves the full adjoint system of the residual `[R_free ; u_ess - bc]`: `Jᵀψ` on free rows plus `ψ` itself on essential rows equals the original `state_bar`
  * `C39_false_uses_stored_jacobian` — hazard)** Setting up the adjoint system before any Jacobian was assembled throws, and after a history the operator is that of the Jacobian assembled last, not of the inputs passed
* **C40 Attribute restricted integrators only act on their attributes** — Models src/physics/miso_nonlinearform.hpp: addDomainIntegrator. Stated in `NonlinearFormProps.lean`.
  * `C40_boundary_restricted` — boundary)** A boundary integrator added with an attribute list (attributes in range) contributes on exactly the boundary elements with those attributes
  * `C40_false_domain_unrestricted` — violated for domain integrators)** A domain integrator added with an attribute list contributes on *all* domain elements
  * `C40_false_witness` — A concrete violation: one integrator with value 1 restricted to attribute 1 on a mesh with elements of attributes 1 and 2 assembles 2 instead of 1; and an attribute larger than the largest *boundary* attribute is an out-of-bounds write
* **C41 Current load is up to date** — Models src/physics/electromagnetics/current_load.cpp. Stated in `LoadsProps.lean`.
  * `C41_addLoad_fresh_partial` — partial)
  * `C41_false_after_caught_exception` — is false when the client catches an exception: the first group's density has been stored but the load is not marked out of date, so later calls keep subtracting the old load (10 + 1 = 11 instead of 10 + 3 = 13)
  * `C41_false_after_unmarking` — is false when options remove a dof from the essential list: its load entry was zeroed in place and is not reassembled
  * `C41_false_stator_undefined` — With a stator source every assembly is undefined behaviour (the source's lambda holds references to dead locals)
* **C42 Current density scalar derivative** — Models src/physics/electromagnetics/current_load.cpp; src/physics/electromagnetics/current_source_functions.cpp. Stated in `LoadsProps.lean`.
  * `C42_density_derivative_partial` — D load)
  * `C42_false_stator_key` — is false for a load with a stator source listed (even with no element using it): restoring the densities throws `std::out_of_range` because the slot count is stored among the cached densities; the exception leaves the load not marked out of date, so later additions use the *unit* load
  * `C42_false_prefixed_group` — is false for a group whose plain name is another group's input key: the derivative call overwrites its density with 1
* **C43 Residual derivative with magnets** — Models src/physics/electromagnetics/magnetostatic_residual.cpp. Stated in `LoadsProps.lean`.
  * `C43_current_only_partial` — partial: no magnets, planar meshes)
  * `C43_products_adjoint` — The two products are adjoint to each other even with magnets
  * `C43_false_with_magnets` — is false with magnets: the "derivative" also contains the magnetisation load
  * `C43_false_volume_null` — On volume meshes the residual has no current coefficient of its own, and both products dereference a null pointer
* **C44 Thermal residual does not modify its inputs and its derivatives accumulate** — Models src/physics/thermal/thermal_residual.cpp. Stated in `ThermalProps.lean`.
  * `C44_load_subtracted_partial` — what holds): passing a load of the residual's size and evaluating subtracts that load, with the essential entries dropped
  * `C44_false_caller_vector_modified` — fails: setting inputs writes into the caller's load vector — it is left with its essential entries zeroed — for every load and every essential list
  * `C44_false_dangling` — fails: the residual keeps pointing at the caller's vector; if the caller has released it, the next input update that does not mention the load is undefined behaviour
  * `C44_products_adjoint` — The two load products are adjoint to each other, whatever the result vectors held before
  * `C44_free_dofs_partial` — On dofs that are not essential the forward product, started from zero, is the exact change of the residual under a change of the load
  * `C44_false_products` — fails: on an essential dof the residual does not depend on the load at all, but the product reports `-wrt_dot`; and the old content of the result is lost instead of being accumulated into
* **C45 Mesh warper boundary conditions** — Models src/utils/mesh_warper/mesh_warper.cpp. Stated in `WarperProps.lean`.
  * `C45_residual_rows` — The residual with prescribed surface coordinates is `state - surface` on the surface and the form's residual elsewhere
  * `C45_surface_prescribed_partial` — If the essential dofs of the elasticity form contain the surface dofs, then after any number of Newton iterations (with any step scaling, exact linear solves, any elasticity operator) the volume coordinates on the surface are exactly the surface coordinates the client prescribed
  * `C45_false_without_essential` — Without the `bcs/essential` option the form has no essential dofs and the warp moves the surface: the property is false in general
  * `C45_surface_jvp_exact` — The forward product with respect to the surface coordinates is the exact change of the residual, accumulated
  * `C45_surface_products_adjoint` — The C++ forward and reverse products are adjoint
* **C46 Python reverse mode of mesh warper** — Models miso/mesh_warper.py. Stated in `WarperProps.lean`.
  * `C46_false_out_of_bounds` — is false: with surface dof 2 of a 3-dof volume the reverse mode accesses memory outside the input buffer
  * `C46_false_general` — In general: the reverse mode leaves the buffer whenever some surface index is not smaller than the number of surface dofs
  * `C46_false_values` — Even when every access stays inside, the values are wrong: surface indices `[1, 0]` of a 2-dof volume, where the reverse mode would be right only for a symmetric map
* **C47 Irrotational/divergence-free projection** — Models src/utils/irrotational_projector.cpp; src/utils/div_free_projector.cpp. Stated in `ProjectorProps.lean`.
  * `C47_split` — The two projectors split the input: their results add up to `x` (for every solver, exact or not)
  * `C47_irrotational` — The irrotational part is the discrete gradient of a potential vanishing on the boundary
  * `C47_weak_divergence_zero` — The divergence-free part has zero weak divergence against every interior H1 test function
  * `C47_idempotent` — Both projectors are idempotent (exact solves, nonsingular Laplacian)
  * `C47_fixes_divfree_kills_gradients` — A divergence-free input (zero weak divergence on the interior) passes through unchanged, and a gradient of a potential vanishing on the boundary is removed entirely
  * `C47_vjp_is_transpose` — The reverse product with respect to the input is the exact transpose of the (linear) projection, accumulated onto the caller's vector
  * `C47_never_stale` — Under any history obeying the protocol, an application uses the forms of the current mesh, never stale ones
  * `C47_false_unannounced_motion` — The protocol is necessary: a mesh motion that is not announced leaves the projector using the old forms
* **C48 PUMI library handle reference counting** — Models src/physics/pde_solver.cpp: PDESolver. Stated in `PcuProps.lean`.
  * `C48_legal_trace_partial` — If nobody else uses the library, then for every history of constructions, moves, loads and destructions of mesh objects: the library is initialised only when down and finalised only when up, every mesh is loaded while it is up, and at the end it is up exactly when some object is alive
  * `C48_leaves_foreign_library_alone_partial` — If another user brought the library up first and keeps it up, MISO never initialises or finalises it
  * `C48_false_sticky_flag` — The property is false when another user brings the library up and later takes it down: the flag `PCU_previously_initialized` is never cleared, so MISO does not initialise the library for the next mesh and loads it with the library down
  * `C48_false_mesh_outlives_library` — Nor does the library outlive the meshes: the last object's PUMI mesh is destroyed after `PCU_Comm_Free`
* **C49 Surface extraction renumbering** — Models src/common/surface_def.hpp: Surface ctor. Stated in `SurfaceMeshProps.lean`.
  * `C49_elements_and_coordinates` — The surface mesh has one element per selected boundary element, in order, with the same attribute; and the `j`-th vertex of the surface element has the coordinates of the `j`-th vertex of the boundary element it came from
  * `C49_renumbering_bijective` — The renumbering is a bijection between the volume vertices used by selected elements and the surface vertices: used vertices get a valid index, unused ones none, distinct vertices distinct indices, and every surface vertex comes from a used volume vertex
  * `C49_order_preserved` — Vertices keep their relative order (the numbering is by volume vertex number, not by first appearance)
  * `C49_nodes_partial` — nodes)
  * `C49_nodes_defined_iff` — nodes)
  * `C49_nodes_false` — Two elements, only the second selected: the copy runs out of bounds
* **C50 Vandermonde columns enumerate the total-degree basis** — Models src/common/orthopoly.cpp: getVandermondeForTri, getVandermondeForTet. Stated in `OrthoPolyProps.lean`.
  * `C50_triangle` — triangle)
  * `C50_tetrahedron` — tetrahedron)
  * `C50_segment` — segment)
* **C51 Jacobi polynomials** — Models src/common/orthopoly.cpp: jacobiPoly. Stated in `OrthoPolyProps.lean`.
  * `C51_jacobi_orthonormal_partial` — For `β = 0` (every use in the code) and every `α > -1`, degree and point, `jacobiPoly` is the classical Jacobi polynomial divided by its norm
  * `C51_false_beta` — is false for `β ≠ 0`: the degree-1 value differs from the orthonormal polynomial at every point
* **C52 Free-stream state** — Models src/physics/fluidflow/euler_fluxes.hpp: getFreeStreamQ. Stated in `EulerFluxesProps.lean`, `EulerMoreProps.lean`.
  * `C52_freestream`
  * `C52_freestream_1d`
  * `C52_equal_axes_wrong` — If both axes are the same index (the option parser does not forbid it) the speed is wrong and the energy no longer matches pressure `1/γ`
  * `C52_pressure_gradient` — `dpressdq` is the gradient of the pressure: it gives the derivative of the physical pressure in every direction
* **C53 Entropy/conservative variable round trip** — Models src/physics/fluidflow/euler_fluxes.hpp: calcEntropyVars, calcConservativeVars. Stated in `EulerFluxesProps.lean`.
  * `C53_entvars_range`
  * `C53_roundtrip_cons`
  * `C53_cons_admissible`
  * `C53_roundtrip_ent`
* **C54 Two-point flux symmetric and consistent** — Models src/physics/fluidflow/euler_fluxes.hpp: calcIsmailRoeFlux, logavg. Stated in `EulerFluxesProps.lean`.
  * `C54_euler_flux`
  * `C54_face_symmetric`
  * `C54_coord_symmetric`
  * `C54_face_homogeneous`
  * `C54_coord_eq_face` — The coordinate flux is the face flux in the unit direction
  * `C54_consistent`
  * `C54_coord_consistent`
  * `C54_entvars_face`
  * `C54_entvars_coord`
* **C55 Two-point flux conserves entropy** — Models src/physics/fluidflow/euler_fluxes.hpp: calcIsmailRoeFlux. Stated in `EulerEntropyProps.lean`.
  * `C55_production_identity` — Exact value of the entropy production of the face flux for all admissible pairs: the mass flux times the error of the logarithmic means
  * `C55_entropy_conservative_exact` — With both logarithmic means in their exact branch the flux is exactly entropy conservative
  * `C55_entropy_conservative` — For every admissible pair, whatever branches are taken, the entropy production is at most `1e-16` times the mass flux
  * `C55_entropy_conservative_coord` — Coordinate-direction version
  * `C55_entropy_conservative_entvars` — Entropy-variable version
* **C56 Boundary fluxes are consistent** — Models src/physics/fluidflow/euler_fluxes.hpp: calcBoundaryFlux, calcRoeFaceFlux, calcFarFieldFlux. Stated in `EulerBoundaryProps.lean`, `EulerMoreProps.lean`.
  * `C56_boundary_consistent` — `calcBoundaryFlux(dir, q, q) = F(q)·dir`
  * `C56_roe_consistent`
  * `C56_farfield_consistent`
  * `C56_farfield2_consistent`
  * `C56_roe_antisymmetric` — Swapping the two states and reversing the direction negates the Roe flux: the flux leaving one element is the flux entering its neighbour (conservation)
  * `C56_supersonic_outflow` — Supersonic outflow (normal Mach number of the boundary state at least one): the boundary data has no influence, the flux is the Euler flux of the interior state
  * `C56_jacobian` — `eulerJac` is the directional derivative of the flux computed by `calcEulerFlux`
  * `C56_supersonic_inflow` — Supersonic inflow: the flux is `F(q) - F'(q_bnd)(q - q_bnd)`, i.e
  * `C56_acoustic_wave` — The characteristic decomposition: the perturbations carried with speeds `u·n ± c|n|` (right eigenvectors of `F'(q_bnd)`) are damped by `(|λ| - λ)/2`, their own wave speed
  * `C56_convective_wave` — Entropy and shear perturbations (no change of pressure and of normal velocity) travel with `u·n` and are damped by `(|u·n| - u·n)/2`
  * `C56_variants_agree` — The far-field and vortex fluxes take the interior state in entropy variables as well: both variants agree
  * `C56_farfield_supersonic_outflow` — Far-field flux at a supersonic outflow: the far-field data has no influence, in both sets of variables
  * `C56_farfield_supersonic_inflow` — Far-field flux at a supersonic inflow: `F(q) - F'(q_bnd)(q - q_bnd)`
  * `C56_farfield2_upwind` — The convective far-field flux takes mass, momentum and total enthalpy from the upwind side (decided by the far-field velocity) and the pressure force from the interior
* **C57 Entropy-conservative boundary flux identity** — Models src/physics/fluidflow/euler_fluxes.hpp: calcBoundaryFluxEC. Stated in `EulerStabilityProps.lean`.
  * `C57_prescribed_entropy_flux` — The flux returned by `calcBoundaryFluxEC` satisfies `w·f = ψ(q) + entflux` for every direction, boundary state, interior state and prescribed entropy flux
* **C58 dq/dw is symmetric positive definite** — Models src/physics/fluidflow/euler_fluxes.hpp: calcdQdWProduct. Stated in `EulerStabilityProps.lean`.
  * `C58_symmetric`
  * `C58_positive_definite`
  * `C58_is_derivative` — `calcdQdWProduct` is the derivative of the map entropy variables → conservative variables
* **C59 Slip wall** — Models src/physics/fluidflow/euler_fluxes.hpp: projectStateOntoWall, calcSlipWallFlux. Stated in `EulerStabilityProps.lean`.
  * `C59_projection` — The projection removes exactly the wall-normal momentum
  * `C59_slipwall` — The slip-wall flux carries no mass and no energy, and its momentum part is `p n`
  * `C59_slipwall_tangential` — It coincides with the Euler flux of any state without normal velocity
  * `C59_slipwall_entropy` — The wall produces no entropy
  * `C59_slipwall_entvars` — The entropy-variable version computes the same flux
* **C60 Hashin-Shtrikman bounds** — Models src/common/coefficient.cpp: HashinShtrikmanWeightedCoefficient, dHashinShtrikmanWeightedCoefficient. Stated in `CoefficientsProps.lean`.
  * `C60_hashin_shtrikman_bounds` — for positive constituents (given in either order) and a fill factor `w ∈ [0,1]` the Hashin–Shtrikman coefficient lies between the constituents; at `w = 0` it is the smaller, at `w = 1` the larger one
  * `C60_hashin_shtrikman_monotone` — a larger fill factor never lowers the conductivity, and raises it if the constituents differ
  * `C60_constituent_order_irrelevant` — the order in which the two constituents are listed is immaterial — also for the weighted average and the two derivative coefficients
  * `C60_fill_factor_default` — before any input is set the fill factor is one half; the input must be a number
  * `C60_hashin_shtrikman_derivative` — the derivative coefficient evaluates to the derivative of the Hashin–Shtrikman coefficient with respect to the fill factor
* **C61 Weighted average coefficient** — Models src/common/coefficient.cpp: WeightedAverageCoefficient, dWeightedAverageCoefficient. Stated in `CoefficientsProps.lean`.
  * `C61_weighted_average_bounds` — for any constituents (either order, any sign) and fill factor `w ∈ [0,1]` the weighted average lies between them: it is `w·max + (1-w)·min`
  * `C61_false_weight_of_first_listed` — the fill factor always belongs to the *larger* constituent: a user who lists `[light, heavy]` with `fill_factor = 1` gets `heavy`, so "the weight of the first listed material" is not what the coefficient computes
  * `C61_weighted_average_derivative` — the derivative coefficient evaluates to the derivative of the weighted average with respect to the fill factor
* **C62 Mesh-dependent coefficient dispatch** — Models src/common/coefficient.cpp: MeshDependentCoefficient; src/common/coefficient.hpp: addCoefficient. Stated in `CoefficientsProps.lean`.
  * `C62_dispatch` — registering coefficients succeeds exactly when no attribute is given twice; then the coefficient evaluates, for every attribute, the one registered for it, else the default, else 0 — and the state derivative, second derivative and reverse mode use the same selection
  * `C62_stateless_eval_is_state_zero` — the two-argument evaluation is the evaluation at state 0, at every depth of nesting
* **C63 Material default values** — Models src/common/coefficient.cpp: constructMaterialCoefficient, constructMaterialTwoStateCoefficient. Stated in `CoefficientsMaterialProps.lean`.
  * `C63_material_values_partial` — partial: the default is not honoured, see below): when the coefficient of property `name` is built, every attribute of a component whose material has a numeric value evaluates to that value; for a composite material it evaluates to the requested mixture of the two constituents' values at fill factor 1/2
  * `C63_missing_property_is_zero` — an attribute whose components' materials lack the property (or for which there is no component at all) evaluates to 0
  * `C63_default_value_ignored` — the caller's default value has no influence at all
  * `C63_false_default_value_used` — is false as stated: a material without the property does not get the default
  * `C63_composite_errors` — a composite whose `materials` entry is not a list is refused with an exception, and an unknown `weight` silently registers nothing, so the material evaluates to 0
  * `C63_overlapping_components_abort` — two components that register the property for a common attribute end the program
  * `C63_two_state_default_used` — the two- and three-state constructors do honour the default: an attribute evaluates to the material's value, or to the default when the material lacks the property
* **C64 Product coefficient rules** — Models src/common/coefficient.cpp: ScalarVectorProductCoefficient, VectorMeshDependentStateCoefficient. Stated in `CoefficientsDerivProps.lean`.
  * `C64_product_value` — the product coefficient evaluates `scalar · vector`, with and without a state
  * `C64_state_derivative_exact` — the state derivative of a product (and of any nesting of products and mesh dependent vector coefficients) is the derivative of its value
  * `C64_stateless_eval_is_state_zero` — The two-argument vector evaluation is the evaluation at state 0
  * `C64_reverse_mode_exact` — the reverse mode of a product — accumulating `a·v_bar` through the vector and `v_bar·b` through the scalar into the same `PointMat_bar` — adds exactly `Σ v_bar_i ∂(a·b_i)/∂nodes`; the same holds for every nesting of products and mesh dependent vector coefficients
* **C65 Open-loop control setting is respected** — Models src/physics/fluidflow/flow_control_residual.cpp. Stated in `ControlProps.lean`.
  * `C65_standalone_partial` — partial)** A stand-alone controller evaluated with `"closed-loop" = 0` *in that same call* uses the open-loop law; with a non-zero value or without the key it adds the feedback
  * `C65_false_coupled_ignores_setting` — violated)** In the coupled flow-control residual the setting is never respected: whatever was set before and whatever the evaluation's own inputs say, the evaluation ends in closed-loop mode and its result does not depend on the `"closed-loop"` input
  * `C65_false_reset` — violated)** Also stand-alone: `setInputs({"closed-loop", 0})` followed by an evaluation whose inputs lack the key is closed-loop again, for every controller state
* **C66 Controller Jacobian is exact** — Models src/physics/fluidflow/flow_control_residual.cpp: ControlResidual. Stated in `ControlProps.lean`.
  * `C66_jacobian_exact` — The controller residual is affine in its state with exactly the matrix returned by `getJacobian`, in both modes and both laws, for all states and increments
  * `C66_jacobian_constant` — The Jacobian does not depend on the state, the boundary entropy, the target or the loop mode
  * `C66_extract_states` — Splitting a coupled vector into control and flow parts loses nothing and puts the first `numControl` entries in the control part
* **C67 Controller test ODE conserves energy** — Models src/physics/fluidflow/flow_control_residual.cpp: ControlResidual. Stated in `ControlProps.lean`.
  * `C67_energy_exchange` — In test mode `x · res` is the product of the control velocity and the boundary entropy, so the controller energy `½ x·x` changes only through the exchange with the flow …
  * `C67_conserves_uncoupled` — and is conserved exactly when uncoupled
* **C68 Lp error of a state** — Models src/physics/finite_element_state.cpp: calcLpError, calcL2Error. Stated in `LpErrorProps.lean`.
  * `C68_lp_error_value` — for a finite order `p > 0` the error is the signed `p`-th root of the quadrature of `|state - exact|^p` over all points — however the elements are distributed over the ranks
  * `C68_partition_independent` — so the result does not depend on the partition into ranks and elements
  * `C68_sign_independent` — exchanging state and exact solution (the sign of the difference) changes nothing, for every order
  * `C68_zero_iff_agree` — with non-negative quadrature weights the error is non-negative, and zero exactly when state and exact solution agree at every point of positive weight
  * `C68_vector_length_value` — the length version for vector states has the same value, with the Euclidean length
  * `C68_vector_entry_partial` — partial): the error of one entry of a vector state is the scalar error of that entry if the entry's differences are non-negative everywhere
  * `C68_false_vector_entry` — is false for one entry of a vector state: with `p = 1` errors `+1` and `-1` cancel and the L1 error of a state that disagrees everywhere is 0
  * `C68_false_vector_entry_max` — is false for one entry in the maximum norm as well: a state below the exact solution everywhere has error 0
  * `C68_max_error_value` — the maximum-norm error is the largest pointwise difference over all ranks (0 if there are no points), so it is zero exactly when state and exact solution agree at all points
  * `C68_l2_error_is_lp_error` — `calcL2Error` is `calcLpError` with `p = 2`
  * `C68_l2_vector_entry` — the L2 error of one entry of a vector state is right (unlike `calcLpError`'s): it is the scalar error of that entry; and with no entry it is the error in the Euclidean length
  * `C68_triangle_inequality` — for `p ≥ 1` and non-negative weights the errors obey the triangle inequality
* **C69 ASCII state files round-trip** — Models src/common/data_logging.hpp: ASCIILogger. Stated in `AsciiFilesProps.lean`.
  * `C69_ascii_roundtrip_partial` — A text state file whose time and entries are all finite reads back exactly, whatever the destination held, for every tie-breaking rule of the conversions
  * `C69_ascii_readable` — reading succeeds)** Such a file can always be read: the reader never gets stuck, so the previous theorem describes the actual outcome
  * `C69_false_nonfinite_time` — violated for non-finite values)** If the saved time is infinite or NaN the file never reads back: the time becomes 0 and the state is empty
  * `C69_false_nonfinite_entry` — violated for non-finite values)** After the first non-finite entry every later entry is lost: the vector keeps there whatever memory `SetSize` left
* **C70 Induced-exponential aggregate** — Models src/physics/mfem_common_integ.cpp: IEAggregateIntegratorNumerator, IEAggregateIntegratorDenominator. Stated in `QuotientProps.lean`.
  * `C70_numerator_gradient` — The hand-written gradient of the numerator integrand is the exact derivative of the numerator, for every quadrature rule, state and direction
  * `C70_denominator_gradient` — Likewise for the denominator
  * `C70_shift_invariant` — The aggregate does not depend on the shift `true_max` as long as the same shift is used everywhere
  * `C70_between_min_and_max` — With positive weights the aggregate lies between the smallest and the largest sampled value
  * `C70_partition_independent_partial` — part)** If all ranks happen to use the same shift, the parallel result equals the serial one for every partition
  * `C70_false_partition` — violated in parallel)** Each rank shifts by the maximum of its own entries, so the aggregate depends on how the mesh is partitioned: two points with values 0 and 1 give 1/2 on two ranks but 1/(1+e⁻¹) on one
* **C71 Pseudo-transient step is backward Euler** — Models src/common/mfem_extensions.cpp: PseudoTransientSolver. Stated in `OdeProps.lean`.
  * `C71_backward_euler` — A pseudo-transient step with an exact solve is a backward-Euler step: `M (x' - x) = -dt R(x')`, `t' = t + dt`, whatever the solver's work vector held
  * `C71_stationary_is_steady` — A stationary pseudo-transient step (`x' = x`, `dt ≠ 0`) means the steady residual vanishes
  * `C71_steady_is_kept` — Conversely a steady state is kept, provided the implicit equation has only one solution
  * `C71_steady_step` — The steady stepper: if the implicit solve delivers a zero of the steady residual (from the given guess), the step returns that zero and advances the time by `dt`; and the solve starts from the current state
* **C72 Controller Lyapunov property** — Models src/physics/fluidflow/flow_control_residual.cpp: ControlResidual. Stated in `ControlProps.lean`.
  * `C72_open_loop_lyapunov` — With the documented `P` and positive gains the controller entropy is positive definite, and under the open-loop law it decays: the rate `xᵀP res` is `½ s (x₀² + x₁²/q)`
  * `C72_p_matrix_symmetric` — The `P-matrix` input is stored as a symmetric matrix; an asymmetric one raises an exception, but is stored (symmetrised from its upper triangle) all the same
* **C73 Distance to a surface** — Models src/common/surface_def.hpp: calcDistance, solveDistance. Stated in `SurfaceDistProps.lean`.
  * `C73_distance_to_a_point_of_the_element` — For every element (straight or curved), whatever is returned is the distance from `x` to some point of the element
  * `C73_exact_on_straight_elements_partial` — For a straight element that `LinearSolve` does not regard as singular, the result is the distance to the element: never more than the distance to any of its points, up to `tol / length` (which is the stopping tolerance)
  * `C73_never_underestimates` — `calcDistance` never underestimates: it returns the distance to some point of the surface
  * `C73_false_wrong_element` — The property "`calcDistance` is the distance to the surface" is false: two straight elements `(0,0)-(1,0)` and `(1,0)-(1,10)` sharing the node `(1,0)`, which is the node nearest to `(2,2)`; the shared node belongs to the first element in MFEM's dof-to-element table, so the code returns the distance to the first element, at least `√5`, while the point `(1,2)` of the second element is at distance 1
  * `C73_false_short_elements` — On short elements (squared length at most the pivot tolerance of `LinearSolve`) the search throws whenever the centre is not already optimal
* **C74 Lobatto nodes and weights** — Models src/common/orthopoly.cpp: getLobattoQuadrature. Stated in `OrthoPolyProps.lean`.
  * `C74_nodes_symmetric` — After every number of sweeps the nodes are symmetric about 0
  * `C74_end_nodes` — The end nodes are exactly -1 and 1 after every number of sweeps
  * `C74_weights` — The weights are symmetric, never negative, and those of the end nodes are `2 / (n (n-1))`, `n = d + 1` nodes
  * `C74_fixed_points` — A node the iteration leaves unchanged (the loop's exit condition, in exact arithmetic) is a root of `x P_d - P_{d-1}`, that is of `(1 - x²) P_d'`: a Legendre-Gauss-Lobatto node
* **C75 Entropy function, its gradient and its minimiser** — Models src/physics/fluidflow/euler_fluxes.hpp: entropy, calcEntropyVars. Stated in `EulerStabilityProps.lean`.
  * `C75_entropy_value`
  * `C75_entropy_entvars` — `entropy<entvar=true>` on the entropy variables agrees with `entropy` on the state
  * `C75_gradient` — The entropy variables are the gradient of the entropy
  * `C75_relative_entropy` — The affinely transformed entropy `entropy(q, qe)` is non-negative, and zero only at `qe`: `qe` is its unique minimiser over the admissible states
* **C76 Dissipative fluxes never produce entropy** — Models src/physics/fluidflow/euler_fluxes.hpp: calcIsmailRoeFaceFluxWithDiss, applyLPSScaling. Stated in `EulerStabilityProps.lean`.
  * `C76_dissipative` — For a non-negative coefficient the face flux with dissipation never produces entropy, up to the `1e-16` relative error of the logarithmic mean
  * `C76_entvars` — Entropy-variable and conservative versions agree
  * `C76_consistent` — Consistency with the Euler flux
  * `C76_lps` — Projection dissipation (LPS): the scaled operator is symmetric positive semi-definite, so its contribution `vᵀ (λ A₀) v` to the entropy balance is never negative; both variants agree
* **C77 Control boundary flux entropy balance** — Models src/physics/fluidflow/euler_fluxes.hpp: calcControlFlux. Stated in `EulerStabilityProps.lean`.
  * `C77_control_entropy` — The control boundary flux injects exactly the entropy transported by the control velocity: `w·f - ψ = U S(q)` with `U = -vel |n|`
  * `C77_control_zero` — With zero control velocity the boundary is a slip wall
  * `C77_control_consistent` — If the control velocity matches the inward normal velocity the flux is the Euler flux
* **C78 Spectral radius** — Models src/physics/fluidflow/euler_fluxes.hpp: calcSpectralRadius. Stated in `EulerStabilityProps.lean`.
  * `C78_spectral_radius` — `calcSpectralRadius` is the modulus of the largest eigenvalue of the flux Jacobian: it is attained by an eigenvector, and every real eigenvalue is bounded by it
  * `C78_entvars`
* **C79 Isentropic vortex is an exact steady solution** — Models src/physics/fluidflow/euler_fluxes.hpp: calcIsentropicVortexState. Stated in `EulerMoreProps.lean`, `EulerVortexProps.lean`.
  * `C79_variants_agree`
  * `C79_boundary_flux_consistent` — On the exact solution the vortex boundary flux is the physical flux of the vortex, in both sets of variables
  * `C79_vortex_state` — In the half plane `x₀ > 1e-15`, outside the vacuum core, the vortex state is admissible, tangential and homentropic
  * `C79_vortex_steady` — The vortex is an exact steady solution: the divergence of the Euler flux computed by `calcEulerFlux` vanishes in every component at every point of the half plane outside the core
  * `C79_left_half_wrong` — Left half plane: the polar angle is computed with `atan`/`π/2`, so at `(-2, 0)` the velocity is radial, not tangential
* **C80 Coefficient derivatives are exact at every nesting** — Models src/common/coefficient.cpp: MeshDependentCoefficient, ParameterContinuationCoefficient. Stated in `CoefficientsDerivProps.lean`.
  * `C80_state_derivative_exact` — for every nesting of mesh dependent, continuation, weighted and user coefficients whose user supplied leaves report exact derivatives, `EvalStateDeriv` is the derivative of `Eval` with respect to the state
  * `C80_second_state_derivative_partial` — second state derivatives are exact for every nesting *without* a continuation coefficient
  * `C80_false_second_derivative_continuation` — the second derivative reported by a continuation coefficient is wrong: 0 although the coefficient is `λ·state²`
  * `C80_reverse_mode_exact` — for every nesting of coefficients whose user leaves have an exact reverse mode, the reverse mode with respect to the mesh nodes is exact whenever it does not abort
* **C81 Inputs reach every material** — Models src/common/coefficient.cpp: setInputs. Stated in `CoefficientsDerivProps.lean`.
  * `C81_inputs_reach_every_material` — after `setInputs` succeeds on a mesh dependent coefficient, the coefficient of every attribute (and the default) has received the inputs
  * `C81_set_inputs_idempotent` — setting the same scalar inputs twice is the same as setting them once
  * `C81_false_continuation_forwards` — a continuation coefficient does *not* forward inputs to the coefficients it blends, so a weighted material inside one keeps its old fill factor
* **C82 Coupled residual uses the control state it is given** — Models src/physics/fluidflow/flow_control_residual.cpp: FlowControlResidual::evaluate, ControlResidual::getControlVelocity. Stated in `ControlProps.lean`.
  * `C82_coupled_uses_given_state` — A successful evaluation of the coupled residual applies to the flow exactly the control-law velocity for the control state handed in and the boundary entropy of the flow state handed in, with each gain taken from the inputs if present and otherwise from the last one set; the controller part is the closed-loop law for the same data
  * `C82_feedback_direction` — Lowering the boundary entropy below the target raises the control velocity and vice versa (positive gains, outside the test mode)
* **C83 Polynomial bases are orthonormal** — Models src/common/orthopoly.cpp: jacobiPoly, prorioPoly, getVandermondeForTri, getVandermondeForTet. Stated in `OrthoPolyIntProps.lean`, `SbpBasisProps.lean`.
  * `C83_jacobi_orthonormal` — segment)
  * `C83_triangle_orthonormal` — triangle)
  * `C83_tetrahedron_orthonormal` — tetrahedron)
  * `C83_unit_segment` — On the segment `[0,1]` the functions in the columns of the segment element's Vandermonde matrix are orthonormal
  * `C83_unit_triangle` — The functions in the columns of the triangle element's Vandermonde matrix (scaled by two) are orthonormal on the unit triangle, whichever columns `p`, `q` of the basis of degree `d` they are
  * `C83_unit_tetrahedron` — The functions in the columns of the tetrahedron element's Vandermonde matrix (scaled by `2 √2`) are orthonormal on the unit tetrahedron
* **C84 Vandermonde columns are polynomials** — Models src/common/orthopoly.cpp: prorioPoly. Stated in `OrthoPolyDegProps.lean`.
  * `C84_triangle_polynomial` — triangle)
  * `C84_tetrahedron_polynomial` — tetrahedron)
* **C85 SBP derivative interfaces are one operator** — Models src/common/sbp_fe.cpp: multWeakOperator, getStrongOperator, getWeakOperator, getSkewEntry, getQEntry, getSkewEntryRevDiff, CalcDShape. Stated in `SbpProps.lean`.
  * `C85_mult_weak` — `multWeakOperator` adds `Q u`, state by state
  * `C85_mult_weak_trans` — With `trans` it adds `-Q^T u` -- **minus** the transposed operator
  * `C85_trans_is_transpose`
  * `C85_interfaces_agree` — Entry, one-node and strong-form interfaces agree with the matrix
  * `C85_norm_inverse` — `multNormMatrix` and `multNormMatrixInv` are mutually inverse
  * `C85_adjoint` — Discrete adjointness: pairing `v` with `Q u` equals minus pairing the `trans` product of `v` with `u`
  * `C85_summation_by_parts` — Summation by parts: if `Q + Q^T = E` then `(v, D u)_H + (D v, u)_H = v^T E u` for all `u`, `v`, with `D` the strong operator
  * `C85_dshape_false` — **Violation.** `CalcDShape` is documented to return row `ip` of the derivative operator, but it divides entry `j` by `H(j)` rather than by `H(ip)`: on the degree-1 segment element it does not even give derivative 1 for `x ↦ x` at the left end (it gives 1/2)
  * `C85_dshape_linear_false`
  * `C85_dshape_equal_weights_partial` — What does hold: `CalcDShape` is right for elements whose weights are all equal (degree 0)
  * `C85_dshape_value_partial` — What `CalcDShape` computes in general: the true row times `H(ip)/H(j)`
  * `C85_skew` — `getSkewEntry` is skew-symmetric under exchanging the two nodes
  * `C85_skew_value` — It is the physical-space `Q - Q^T`: `Σ_k adjJ_i(k,di) Q_k(i,j) - adjJ_j(k,di) Q_k(j,i)`
  * `C85_qentry` — `getQEntry` returns the physical-space weak operator `½ Σ_k (adjJ_i + adjJ_j)(k,di) Q_k(i,j)` for every element whose boundary operator is diagonal (`Q_k(i,j) = -Q_k(j,i)` off the diagonal)
  * `C85_skew_rev_diff` — The reverse-mode derivative of `getSkewEntry`: adding `Sbar * ∂S/∂adjJ` to the two adjoints, i.e
* **C86 SBP projection operator** — Models src/common/sbp_fe.cpp: getProjOperator, getProjOperatorEntry, multProjOperator. Stated in `SbpProps.lean`.
  * `C86_entry_eq_matrix`
  * `C86_mult` — Applying the operator, the matrix and the entries all agree, in both directions
  * `C86_adjoint` — The transposed product is the adjoint
  * `C86_annihilates` — Polynomials (combinations of the columns of `V`) are annihilated
  * `C86_idempotent` — Projecting twice is projecting once
  * `C86_self_adjoint` — `H P = P^T H`: applying the norm and then the transposed projection is the same as projecting and then applying the norm
  * `C86_conserves` — The transposed projection of anything sums to zero when constants are in the span of `V`: the stabilisation cannot create or destroy conserved quantities
  * `C86_contraction` — The projection does not increase the `H` norm
* **C87 SBP shape functions away from nodes** — Models src/common/sbp_fe.cpp: CalcShape. Stated in `SbpShapeProps.lean`.
  * `C87_triangle` — On a triangle, evaluating a polynomial solution (given by its nodal values) at **any** point that is not a node returns the polynomial's value there
  * `C87_tetrahedron` — The same on a tetrahedron
  * `C87_segment_value_partial` — On a segment the value is off by the factor `√2`: the shape function scales the basis by 2 although `V` was scaled by `√2`
  * `C87_segment_false` — **Violation.** On the degree-0 segment element the constant solution 1 evaluates to `√2` at every interior point
  * `C87_at_stored_node` — At a stored node (identified by its address) the solution evaluates to its nodal value, for **every** nodal vector
  * `C87_triangle_copy_agrees` — On a triangle, a copy of a stored node (same coordinates, different address) gives the same value as the node for polynomial solutions
  * `C87_segment_copy_false` — **Violation**: on the degree-0 segment element a copy of the stored left end node evaluates the constant solution 1 to `√2`, the stored node itself to 1
* **C88 SBP node lookup** — Models src/common/sbp_fe.cpp: getIntegrationPointIndex. Stated in `SbpShapeProps.lean`.
  * `C88_lookup_first` — The lookup returns exactly the first node within `1e-12` of the point
  * `C88_lookup_throws` — It throws exactly when no node is within the tolerance
  * `C88_lookup_node` — At a node of an element whose nodes are pairwise at least `1e-12` apart, the lookup returns that node
  * `C88_derivative_lookup_partial` — The derivative evaluation at a point that is not a stored node uses the first node within distance `1e-12` on a segment, but within distance `1e-6` on triangles and tetrahedra
  * `C88_derivative_at_node` — A stored node (by address) or a point within `1e-12` of exactly one node: the derivative matrix is the one of that node
  * `C88_derivative_off_node_false` — **Violation**: at any point away from the nodes the derivative evaluation reads column `-1` of the operator (no exception, no value)
* **C89 Shipped SBP tables are accurate** — Models src/common/sbp_fe.cpp: SBPTriangleElement, SBPTetrahedronElement, SBPSegmentElement. Stated in `SbpDataProps.lean`.
  * `C89_derivative` — **Derivative accuracy.** On every shipped triangle and tetrahedron element, for every polynomial up to the element's degree, every direction and every node, the weak operator gives `H` times the exact derivative up to `2e-15` times the sum of the absolute coefficients
  * `C89_derivative_tri0` — The degree-0 triangle is in fact exact for linear functions
  * `C89_row_sums` — Constants are differentiated to zero (row sums), the condition for conservation
  * `C89_weights_positive` — Weights are positive on every shipped element
  * `C89_diagonal_boundary` — The off-diagonal part of every shipped operator except the degree-0 triangle's is **exactly** skew-symmetric, i.e
  * `C89_tri0_false` — **Violation.** The degree-0 triangle's `Q + Q^T` has off-diagonal entries (about 1/6), so on the reference element itself (identity mapping) `getQEntry` does not return the operator: entry (2, 0) of the x operator is about -1/6 but `getQEntry` returns about -1/12
  * `C89_segment` — Segment operators: for every shipped degree the off-diagonal part is exactly skew-symmetric, the diagonal is `-1/2` at the left end node (index 0), `1/2` at the right end node (index 1) and 0 inside, and constants are differentiated to zero, each up to `2e-14`
  * `C89_quadrature` — **Quadrature accuracy.** On every shipped triangle and tetrahedron element, the nodes and weights integrate every polynomial of degree up to twice the element's degree over the reference element, up to `1e-15` times the sum of the absolute coefficients
* **C90 Weak-form flux integrator** — Models src/physics/fluidflow/inviscid_integ_def.hpp: InviscidIntegrator. Stated in `InviscidIntegProps.lean`.
  * `C90_residual` — The residual is `-alpha Σ_di Q_diᵀ f_di`, the weak form of the divergence
  * `C90_functional` — The element functional is `alpha` times the quadrature sum of the point values: node weight times mapping weight, each node once
  * `C90_functional_measure` — A functional equal to 1 everywhere returns `alpha` times the element's measure
  * `C90_conservation` — Conservation: if the derivative of a constant is zero, the residual of every equation sums to zero over the element, whatever the flux function and the state
  * `C90_gradient_partial` — The assembled matrix is the exact Jacobian of the assembled residual when there are `dim + 2` states (the only case instantiated by the compressible-flow code)
  * `C90_gradient_any_states_false` — The full property, for any number of states, is false: with one state in one dimension the loops of the gradient run over three states and so touch entries outside the `num_states*num_nodes` square matrix (here row 2 of a 2 x 2 matrix), which the exact Jacobian never has
  * `C90_gradient_more_states_false` — With more than `dim + 2` states the coupling to the extra states is missing
* **C91 Two-point flux integrator conserves and balances entropy** — Models src/physics/fluidflow/inviscid_integ_def.hpp: DyadicFluxIntegrator::AssembleElementVector. Stated in `InviscidIntegProps.lean`.
  * `C91_residual` — The residual is `alpha Σ_di Σ_j S_di(i,j) F_di(u_i, u_j)` for every two-point flux that is symmetric at the node pairs of the element
  * `C91_conservation` — Conservation: every equation's residual sums to zero over the element, for every flux function (symmetric or not), operator, mapping and state
  * `C91_tested` — Testing with any variables `w` (the entropy variables): only differences between nodes matter
  * `C91_entropy_balance` — **Entropy balance.** Let `w` be node values of entropy variables and `psi` of the potential
  * `C91_entropy_conservation` — With an exactly entropy-conservative flux (Tadmor's condition at the element's node pairs) the element conserves entropy up to the boundary potential
  * `C91_uniform` — Free-stream preservation: on a uniform state the residual of any two-point flux is the boundary term only (zero in the interior where `Q + Qᵀ` vanishes)
* **C92 Two-point flux integrator gradient** — Models src/physics/fluidflow/inviscid_integ_def.hpp: DyadicFluxIntegrator::AssembleElementGrad. Stated in `InviscidIntegProps.lean`.
  * `C92_gradient` — The assembled matrix is the exact Jacobian of the assembled residual, for every two-point flux with exact Jacobians at the element's node pairs
* **C93 Local projection stabilisation** — Models src/physics/fluidflow/inviscid_integ_def.hpp: LPSIntegrator. Stated in `InviscidStabProps.lean`.
  * `C93_projected` — The projected variables are `w - Σ V (Vᵀ H w)` at every node
  * `C93_tested` — Testing the stabilisation with the converted variables gives the weighted sum of the quadratic forms of the scaling matrices at the projected variables
  * `C93_dissipation` — **Dissipation.** With non-negative coefficients and weights and positive semi-definite scaling, the stabilisation tested with the converted variables is non-negative: it can only remove (mathematical) entropy
  * `C93_conservation` — **Conservation.** When constants are in the span of the polynomial basis the stabilisation sums to zero for every equation
  * `C93_consistency` — **Consistency.** If the converted variables are polynomials of the element's degree, the stabilisation vanishes (for any scaling that maps zero to zero)
  * `C93_gradient_value` — The matrix, multiplied by the LPS coefficient, is the exact Jacobian of the residual
  * `C93_gradient_partial` — Hence the matrix is the exact Jacobian when the LPS coefficient is 1 
  * `C93_gradient_false` — ... **but not otherwise**: the residual is multiplied by the LPS coefficient and the matrix is not, so for `lps-coeff = 2` (option `space-dis / lps-coeff` of the Euler solver) Newton's method is given half the true Jacobian
* **C94 Boundary flux integrator** — Models src/physics/fluidflow/inviscid_integ_def.hpp: InviscidBoundaryIntegrator. Stated in `InviscidStabProps.lean`.
  * `C94_residual` — The residual at element node `a` is the quadrature of the flux over the face nodes that lie on `a`; other entries are zero
  * `C94_total_flux` — The residual of equation `n` sums to the quadrature of flux component `n` over the face
  * `C94_energy` — The face functional is the quadrature of the point functional, and equals the residual tested with `wv` whenever the point functional is `wv(q) · flux(q)` at the face nodes
  * `C94_gradient` — The boundary matrix is the exact Jacobian of the boundary residual
* **C95 Interior face integrator** — Models src/physics/fluidflow/inviscid_integ_def.hpp: InviscidFaceIntegrator. Stated in `InviscidStabProps.lean`.
  * `C95_conservation` — Conservation across a face: what leaves the left element enters the right one, for every equation, flux function and state
  * `C95_tested`
  * `C95_energy` — The face functional ignores `alpha`: it is the tested residual divided by `alpha`
  * `C95_gradient_partial` — The face matrix is the exact Jacobian of the face residual for `alpha ≥ 0` and every flux that is positively homogeneous in the normal
  * `C95_gradient_negative_alpha_false` — **Violation for negative factors.** The residual is `alpha * flux(n)` but the matrix is the Jacobian of `flux(alpha * n)`: with `alpha = -1` and a dissipative (positively homogeneous) flux `|n| (a - b)` they have opposite signs
* **C96 Nonlinear mass integrator** — Models src/physics/fluidflow/inviscid_integ_def.hpp: NonlinearMassIntegrator. Stated in `InviscidStabProps.lean`.
  * `C96_residual`
  * `C96_gradient` — The mass matrix is the exact Jacobian of the mass residual, and is block diagonal in the nodes
* **C97 Euler volume term: entropy balance, conservation, free stream** — Models src/physics/fluidflow/euler_integ_def.hpp: IsmailRoeIntegrator; src/physics/fluidflow/inviscid_integ_def.hpp: DyadicFluxIntegrator::GetElementEnergy. Stated in `EulerIntegProps.lean`.
  * `C97_energy_is_tested_residual` — The element's reported entropy change is the residual tested with the entropy variables of the nodal states
  * `C97_entropy_balance` — **Element entropy balance.** On every element with exact constants and metric identities and for all physical states, the entropy change reported by the volume integrator is the flux of the entropy potential through the element boundary, up to `1e-16` relative to the mass fluxes
  * `C97_conservation` — Mass, momentum and energy are conserved exactly by the volume term
  * `C97_variables_agree` — The residual is the same whether the state is stored in conservative or in entropy variables
  * `C97_freestream` — On a uniform flow the volume residual is exactly the Euler flux through the area vectors
* **C98 Euler stabilisation is entropy dissipative** — Models src/physics/fluidflow/euler_integ_def.hpp: EntStableLPSIntegrator; src/physics/fluidflow/inviscid_integ_def.hpp: LPSIntegrator. Stated in `EulerStableProps.lean`.
  * `C98_dissipation` — The stabilisation never produces entropy: for all physical states, non-negative coefficients and weights, the reported entropy change (which enters `dS/dt` with a minus sign) is non-negative
  * `C98_energy_is_tested_residual` — The reported entropy change is the residual tested with the entropy variables
  * `C98_conservation` — Mass, momentum and energy are conserved when constants are in the element's polynomial space
  * `C98_freestream` — A uniform flow is not touched by the stabilisation (constants in the polynomial space)
  * `C98_scaling_rows_partial` — For a symmetric adjugate the scaling is the documented one
  * `C98_scaling_rows_false` — For a sheared mapping it is not: the integrator passes the untransposed adjugate, so the spectral radii are taken over its columns
* **C99 Entropy exchanged by Euler boundary conditions** — Models src/physics/fluidflow/euler_integ_def.hpp: SlipWallBC, ControlBC, EntropyConserveBC, calcBndryFun. Stated in `EulerStableProps.lean`.
  * `C99_slipwall` — The slip wall adds exactly the entropy potential: no entropy is produced at the wall
  * `C99_control` — The control boundary injects the entropy transported by the control velocity
  * `C99_entropy_conservative` — The time-dependent entropy-conservative boundary injects exactly the entropy carried by the boundary state; the point functional returns that value although it computes the flux into the storage that also holds the boundary state
  * `C99_aliased_flux_differs` — The flux that the functional computes in aliased storage is nevertheless not the flux the residual uses: only its entropy content is right
  * `C99_energy` — Each boundary condition's face functional is the assembled residual tested with the entropy variables of the nodal states
* **C100 Euler functionals** — Models src/physics/fluidflow/euler_integ_def.hpp: PressureForce, EntropyIntegrator, BoundaryEntropy, FarFieldBC::calcBndryFun. Stated in `EulerStableProps.lean`.
  * `C100_pressure_force` — The pressure force is `p (n · e)` at every wall point
  * `C100_entropy` — The entropy output integrates the mathematical entropy `-ρ s/(γ-1)` whatever the variables
  * `C100_boundary_entropy_partial` — In conservative variables the boundary-entropy functional is the scaled entropy plus the scaled relative pressure
  * `C100_boundary_entropy_false` — In entropy variables it is wrong: the pressure is computed as if the entropy variables were conservative, so the same flow gives a different value
  * `C100_supply_rate` — The far-field supply rate is defined for conservative variables only (it throws otherwise) and is then minus the entropy production of the upwind flux
  * `C100_supply_rate_false` — It is not the entropy the far-field boundary condition actually exchanges: the boundary condition uses a different flux
  * `C100_control_supply_partial` — The entropy the control boundary injects is the control value times the boundary-entropy functional, except for the reference-pressure term the functional adds
  * `C100_control_supply_false` — So the supply-rate identity `dS = -control * boundary-entropy` is false whenever the wall pressure differs from the reference
* **C101 Interior faces never produce entropy** — Models src/physics/fluidflow/euler_integ_def.hpp: InterfaceIntegrator. Stated in `EulerGlobalProps.lean`.
  * `C101_dissipative` — With a non-negative dissipation coefficient an interface never produces entropy: the reported value is at least the jump of the potential, up to `1e-16` of the mass flux
  * `C101_conservative` — Without dissipation an interface is entropy conservative (same tolerance)
  * `C101_no_jump` — Interface terms vanish in the entropy balance where the two sides carry the same state
  * `C101_energy` — The face functional times `alpha` is the assembled face residual tested with the entropy variables of both elements
* **C102 Semi-discrete entropy stability of the whole flow discretisation** — Models src/physics/fluidflow/flow_residual.cpp: addFlowIntegrators, addFlowDomainIntegrators, addFlowInterfaceIntegrators, calcEntropyChange. Stated in `EulerGlobalProps.lean`.
  * `C102_entropy_stability` — **Entropy stability, discontinuous elements.** For every conforming mesh, every physical state (in either set of variables), non-negative coefficients and every choice of boundary conditions, the entropy change reported by the flow residual is at least what the boundary conditions supply, up to `1e-16` of the mass fluxes
  * `C102_entropy_conservation` — **Entropy conservation.** Without interface dissipation and local projection the same inequality holds in both directions
  * `C102_continuous` — **Entropy stability, continuous elements** (no interface terms): if the two elements of every interior face carry the same states at matching face nodes, the same bound holds with the volume mass fluxes only, with equality up to rounding when there is no local projection
  * `C102_walls` — Solid walls all around: the flow's total entropy cannot grow (beyond rounding)
  * `C102_control` — With control boundaries the supplied entropy is the control velocity times the entropy at the wall, integrated with the control's scale function
* **C103 Viscous flux is the Navier-Stokes flux** — Models src/physics/fluidflow/navier_stokes_fluxes.hpp: applyCijMatrix, applyViscousScaling. Stated in `ViscousProps.lean`.
  * `C103_navier_stokes_flux` — Applied to the gradient of the entropy variables of any differentiable admissible flow field, the viscous scaling is the Navier–Stokes viscous flux, in every dimension
* **C104 Viscous terms are symmetric and never produce entropy** — Models src/physics/fluidflow/navier_stokes_fluxes.hpp: applyCijMatrix. Stated in `ViscousProps.lean`.
  * `C104_blocks_symmetric` — The blocks returned by `applyCijMatrix` satisfy `C_ijᵀ = C_ji`
  * `C104_symmetric` — The whole diffusion tensor is symmetric
  * `C104_dissipation` — Exact value of the dissipation: `μT` times the squared deviatoric strain plus the squared temperature gradient (all in entropy variables), in every dimension
  * `C104_dissipative` — In one, two and three dimensions the viscous terms never produce entropy: the quadratic form is nonnegative for every admissible state and every gradient
  * `C104_null` — Conversely, for positive viscosity in three dimensions the dissipation vanishes only for deviatorically strain-free, isothermal gradients
* **C105 Sutherland viscosity** — Models src/physics/fluidflow/navier_stokes_fluxes.hpp: calcSutherlandViscosity. Stated in `ViscousProps.lean`.
  * `C105_sutherland`
  * `C105_freestream` — The viscosity of the free stream is 1
  * `C105_positive` — The viscosity is positive and strictly increasing with the temperature
  * `C105_monotone`
  * `C105_ratio` — The constant is the documented ratio
* **C106 No-slip adiabatic wall is entropy stable** — Models src/physics/fluidflow/navier_stokes_fluxes.hpp: calcAdiabaticWallFlux, calcNoSlipPenaltyFlux, calcNoSlipDualFlux; src/physics/fluidflow/navier_stokes_integ_def.hpp: NoSlipAdiabaticWallBC::calcFlux. Stated in `ViscousWallProps.lean`.
  * `C106_adiabatic_no_mass` — The adiabatic wall flux carries no mass
  * `C106_adiabatic_entropy_free` — The viscous part of the wall flux produces no entropy, whatever the gradient at the wall
  * `C106_adiabatic_consistent` — If the wall-normal derivative of the last entropy variable (the temperature) is zero, the adiabatic flux is the viscous flux through the wall
  * `C106_penalty_value` — The no-slip penalty is proportional to the wall momentum: mass and energy untouched
  * `C106_penalty_dissipative` — The penalty dissipates entropy, and vanishes exactly when there is no slip
  * `C106_wall_entropy_stable` — The whole no-slip adiabatic wall flux is entropy stable: `w·f ≥ ψ`, with equality exactly for states without slip, for any gradient at the wall
  * `C106_wall_impermeable` — The flux carries no mass and, at a state without slip and without wall-normal temperature gradient, no energy: the wall is impermeable and adiabatic
  * `C106_wall_adiabatic`
  * `C106_dual_consistent` — The term for dual consistency is the exact adjoint of the adiabatic flux: testing the gradients with it is testing `w - w_bc` with the wall flux of those gradients
* **C107 Other viscous boundary fluxes** — Models src/physics/fluidflow/navier_stokes_integ_def.hpp: ViscousSlipWallBC, ViscousInflowBC, ViscousOutflowBC, ViscousExactBC, ViscousControlBC calcFlux; src/physics/fluidflow/navier_stokes_fluxes.hpp: setZeroNormalDeriv, calcControlPenaltyFlux. Stated in `ViscousWallProps.lean`.
  * `C107_zero_normal_derivative` — Removing the normal derivative: afterwards the normal derivative of every component is zero, the tangential derivatives are unchanged, and doing it twice changes nothing more
  * `C107_viscous_slip_wall` — The viscous slip wall is exactly entropy conservative: `w·f = ψ` for every gradient
  * `C107_inviscid_boundaries` — Inflow, outflow and far field: at the boundary state itself the flux is the inviscid flux
  * `C107_exact_boundary_partial` — The exact-solution boundary is consistent when the normal derivatives of the solution vanish: at the exact state the flux is the inviscid flux minus the viscous one
  * `C107_exact_supersonic_outflow` — Where the imposed state leaves supersonically the imposed state has no influence on the exact-solution boundary flux: it is the flux of the interior state
  * `C107_exact_boundary_false` — **Violation**: with a normal derivative the "exact" boundary flux is *not* the exact normal flux
  * `C107_control_entropy` — The control boundary: near the actuator the entropy balance is that of the inviscid control flux; far from it there is in addition the (nonnegative) no-slip penalty
  * `C107_control_off` — With the actuator off and far away, the control boundary is the no-slip wall
  * `C107_control_penalty` — The control penalty vanishes exactly when the wall velocity is the control velocity along the unit normal, and dissipates the difference of entropy variables otherwise
* **C108 Surface force is pressure plus friction** — Models src/physics/fluidflow/navier_stokes_integ_def.hpp: SurfaceForce::calcBndryFun. Stated in `ViscousWallProps.lean`.
  * `C108_force_is_wall_momentum` — The surface-force functional is the projection on the force direction of the momentum part of the no-slip wall flux that the residual uses (so functional and residual are consistent)
  * `C108_force_physical` — For a flow field that satisfies no slip at the wall point, it is pressure minus viscous traction: `f · (p n - τ n)`
* **C109 Nodal gradient of the converted variables** — Models src/physics/fluidflow/viscous_integ_def.hpp: SymmetricViscousIntegrator, ViscousBoundaryIntegrator. Stated in `ViscousIntegProps.lean`.
  * `C109_gradient_value` — The gradient handed to the viscous flux functions is the SBP derivative of the converted variables, for every state, curved mapping and number of nodes
  * `C109_uniform` — A uniform state has zero gradient at every node, on every mapping that satisfies the metric identities
  * `C109_linear_exact` — On an affine element the gradient is exact whenever the converted variables are linear in the physical coordinates: the reference operators differentiate the reference coordinates `xi l` exactly, the mapping is `x_m = b_m + Σ_l J(m,l) xi_l`, the adjugate satisfies `J adj = det I` and `Weight()` is the determinant
* **C110 Symmetric viscous volume term** — Models src/physics/fluidflow/viscous_integ_def.hpp: SymmetricViscousIntegrator::GetElementEnergy, AssembleElementVector, AssembleElementGrad. Stated in `ViscousIntegProps.lean`.
  * `C110_weak_form` — **Weak form.** Testing the residual with any nodal vector `v` gives `alpha` times the quadrature of `Σ_d (D_d v) · C_d(u, Dw)`
  * `C110_energy_is_tested_residual` — The element's entropy change is its residual tested with the converted variables
  * `C110_dissipation` — **Dissipation.** The entropy change is `alpha` times the quadrature of `Σ_d Dw_d · C_d(u, Dw)`
  * `C110_stable` — **Entropy stability.** If the point-wise quadratic form is non-negative (for the Navier-Stokes scaling: C104), so is the element's entropy change, for every state and every mapping with positive weights
  * `C110_conservation` — **Conservation.** On a mapping that satisfies the metric identities the residual of every equation sums to zero over the element's nodes, whatever the state and the scaling
  * `C110_uniform` — A uniform flow has no viscous residual, provided the scaling maps a zero gradient to zero
  * `C110_gradient` — **Gradient.** The assembled matrix is the exact Jacobian of the assembled residual whenever the point-wise Jacobians (computed by Adept) are exact
* **C111 Viscous boundary term** — Models src/physics/fluidflow/viscous_integ_def.hpp: ViscousBoundaryIntegrator. Stated in `ViscousIntegProps.lean`.
  * `C111_functional` — The boundary functional is the weighted sum of the point functional over the face nodes, with the state and gradient of the element node that carries each face node
  * `C111_weak_form` — **Weak form on the boundary.** The residual tested with `v` is the face quadrature of `alpha v · F + Σ_d (D_d v) · G_d`: note that `alpha` does not multiply the second term
  * `C111_energy_is_tested_residual` — When the boundary function is the flux tested with the converted variables and there is no derivative-tested flux (all the boundary conditions of the code), the functional is the residual tested with the converted variables
  * `C111_gradient_partial` — **Boundary gradient, `alpha = 1`.** The assembled matrix is the exact Jacobian of the assembled boundary residual when `alpha = 1` (the value used by every caller)
  * `C111_gradient_alpha_false` — The full property, for every `alpha`, is false: the matrix ignores `alpha`
* **C112 Gradient of the surface force functional** — Models src/physics/fluidflow/navier_stokes_integ_def.hpp: SurfaceForce::AssembleFaceVector. Stated in `ViscousIntegProps.lean`.
  * `C112_gradient_partial` — With `alpha = 1` the assembled vector is the exact gradient of the surface-force functional with respect to every nodal state (through the wall state and through the gradient)
  * `C112_gradient_alpha_false` — For other values of `alpha` (the constructor takes any) it is not: only one of the two terms is scaled
* **C113 Viscous volume term of the flow residual** — Models src/physics/fluidflow/navier_stokes_integ.hpp:ESViscousIntegrator; src/physics/fluidflow/viscous_integ_def.hpp; src/physics/fluidflow/flow_residual.cpp:172-175. Stated in `NavierStokesIntegProps.lean`.
  * `C113_weak_form` — **Weak form.** Testing the viscous residual with any nodal field `v` gives the quadrature of the SBP gradient of `v` against the viscous fluxes computed from the SBP gradient of the entropy variables
  * `C113_energy` — The entropy change of the element is its residual tested with the entropy variables
  * `C113_dissipation` — **Dissipation.** The entropy change reported by the viscous term is the quadrature of the viscous dissipation of the discrete gradient: `μT` times the squared deviatoric strain plus the squared temperature gradient (in entropy variables)
  * `C113_entropy_stable` — **Entropy stability.** For constant non-negative viscosity as well as Sutherland's law (negative `mu`), every Reynolds and Prandtl number, in one, two or three dimensions, on every element with positive weights, the viscous term never produces entropy
  * `C113_no_mass_diffusion` — No mass diffusion: the continuity equation's entries of the viscous residual all vanish
  * `C113_conservation` — **Conservation.** On a mapping satisfying the metric identities the viscous residual conserves momentum and energy on the element: every component sums to zero over the nodes
  * `C113_uniform` — **Uniform flow.** A uniform flow has no viscous residual
  * `C113_exact_flux` — **Consistency.** On an affine element whose operators differentiate the coordinates exactly, for a flow whose entropy variables are linear in space, the tested residual is the quadrature of the test gradient against the exact Navier–Stokes viscous flux of the flow at the nodes
  * `C113_entropy_variables_false` — **Entropy variables: refuted.** When the residual's variables are the entropy variables the viscous term should be that of the same flow
* **C114 Entropy stability of the Navier-Stokes discretisation** — Models src/physics/fluidflow/flow_residual.cpp:139-190,308-374,445-459; src/physics/fluidflow/navier_stokes_integ_def.hpp. Stated in `NavierStokesIntegProps.lean`.
  * `C114_farfield_energy` — The energy of a far-field face in either set of variables: the entropy variables of the nodal state (the stored values themselves if the solver works in entropy variables) tested with the boundary flux of the conservative state
  * `C114_entropy_stability` — **Entropy stability of the Navier–Stokes discretisation.** For every conforming mesh of diagonal-norm elements, every admissible continuous state in conservative variables, constant positive viscosity or Sutherland's law, positive Reynolds and Prandtl numbers, and every combination of the boundary conditions: the entropy change reported by the flow residual is at least the viscous dissipation of the discrete gradients (which is non-negative) plus what the boundary conditions supply, up to `1e-16` of the mass fluxes
  * `C114_walls` — **Closed box.** With slip and no-slip walls only, the total entropy change reported is non-negative (up to rounding): the flow cannot gain mathematical entropy
* **C115 Constant-CFL time step** — Models src/physics/fluidflow/flow_residual.cpp:572-630; src/physics/fluidflow/flow_solver.cpp:135-190; src/physics/fluidflow/flow_control_solver.cpp:346-357; src/physics/pde_solver.cpp:535. Stated in `FlowSetupProps.lean`.
  * `C115_cfl_condition` — **CFL condition.** In every element, between any two distinct nodes, the fastest wave at the first node covers at most `cfl` times the distance in one step of the returned size
  * `C115_largest` — **Largest such step.** Any step (up to the cap `1e100`) satisfying the CFL condition everywhere is no larger than the returned one
  * `C115_positive` — The step is positive, so time advances
  * `C115_partition` — **Parallel runs.** The step does not depend on how the elements are distributed over the ranks: if rank `r` owns the elements `own r 0, ..., own r (n r - 1)` and every element is owned by some rank, the reduced step is the serial one
  * `C115_entvars` — Conservative and entropy variables give the same step
  * `C115_step_from_last_evaluation` — **What the flow solver does.** With constant CFL, the first step size is that of the initial state; every later one is that of the state at which the residual was last evaluated during the previous step, not of the current state
  * `C115_control_solver` — **Constant CFL, full property (coupled flow-control solver).** Every step is the CFL step of the state it starts from
  * `C115_overshoot_bounded` — **Overshoot bound.** With constant CFL the final time exceeds `t-final` by less than the last step
  * `C115_current_state_false` — **Refuted for the flow solver.** With forward Euler the second step ignores that the gas has become twice as fast: it is twice the CFL step of the state it starts from
  * `C115_exact_final_time_false` — **Refuted: `t-final` is not respected** (nor `exact-t-final`, which is not consulted): a run to time `3/2` with CFL step 1 ends at time 2
* **C116 Drag and lift directions** — Models src/physics/fluidflow/flow_residual.cpp:395-419,703-760. Stated in `FlowSetupProps.lean`.
  * `C116_wind_axes` — **Wind axes.** In two and three dimensions, for accepted axes that exist in the mesh, drag and lift directions are defined, drag is along the free stream, lift is normal to both the free stream and the drag, both have length `1/M²`, and neither has a component outside the roll–pitch plane
  * `C116_recovers_force` — **Two dimensions: nothing is lost.** Drag and lift coefficients of a force determine it
  * `C116_axes_checked_false` — **Refuted: accepted axes exist.** The option check allows axis 2 in two dimensions, and the drag direction is then written outside its vector
  * `C116_axes_checked_3d` — In three dimensions the check is exactly right
* **C117 Boundary conditions and options of the flow residual** — Models src/physics/fluidflow/flow_residual.cpp:139-376; src/physics/fluidflow/flow_solver.cpp:20-60. Stated in `FlowReportProps.lean`.
  * `C117_attached` — **What is attached.** Whenever set-up does not throw, the integrators attached to the residual are exactly those of the recognised keys present in `"bcs"`, each once, on exactly the listed attributes
  * `C117_rejected_iff` — The only rejected input: an inviscid flow with a vortex boundary that is not two-dimensional
  * `C117_order_irrelevant` — **Order of keys does not matter.**
  * `C117_all_applied_false` — **Refuted: every boundary condition asked for is applied, or set-up fails.** A condition that exists only for the other flow model (or a misspelt key) is dropped without a diagnostic, and its boundary gets no integrator
  * `C117_all_applied_viscous_false` — The converse direction for the viscous solver
  * `C117_solver_accepts` — **Solver construction.** The solver is constructed exactly when the mesh dimension and the state variables match the template and entropy variables are only used for steady problems
  * `C117_integrators_accepted` — **Integrators.** Entropy variables need the Ismail-Roe flux; viscous terms need a continuous basis; nothing else is rejected - in particular any other flux name is taken without complaint
  * `C117_unknown_flux_false`
  * `C117_pump_state_2d` — **Pump state, two dimensions.** At every time the pump boundary supplies a full, physical state: the gas compressed isentropically (`p = ρ^γ`, `ρ (1 - x_L(t)) = 1`) and moving with the piston `x_L(t) = 0.05 (1 - cos t)`
  * `C117_pump_state_false` — **Refuted in one and three dimensions.** The pump lambda always writes entries 0..3: out of bounds for `dim = 1`, and for `dim = 3` the energy is left unset while the third momentum gets the energy
* **C118 Conservative-variable error norm** — Models src/physics/fluidflow/flow_residual.cpp:633-700. Stated in `FlowReportProps.lean`.
  * `C118_value` — **Value.** With nonnegative weights the reported error is nonnegative and its square is the quadrature of the squared distance between the *conservative* states, whatever the working variables
  * `C118_entry` — **One entry.** The square of the error of entry `e` is the quadrature of the squared difference of that conserved variable (0: density, `1..dim`: momentum, `dim+1`: energy)
  * `C118_sum_of_entries` — **Full error and entries.** The squared full error is the sum of the squared errors of the entries
  * `C118_zero_iff` — **Zero error.** With positive weights the error vanishes exactly when the conservative states agree at every node
  * `C118_entvars` — **The working variables do not matter.** A solution and a reference given in entropy variables have the same error as their conservative counterparts
  * `C118_triangle` — **Triangle inequality.**
* **C119 Diagonal SBP mass matrix** — Models src/physics/diag_mass_integ.cpp:8-38. Stated in `FlowReportProps.lean`.
  * `C119_entries` — **Entries.** Row `i + k nn`, column `j + l nn` (state `k` at node `i`, state `l` at node `j`) of the element mass matrix is the node's weight on the diagonal and zero elsewhere: no coupling between nodes or states
  * `C119_quadratic_form` — **Energy.** The quadratic form of the mass matrix is the weighted sum of squares of the nodal states
  * `C119_positive_definite` — **Positive definite.** With positive cubature weights and an uninverted element the mass matrix is positive definite
  * `C119_volume` — **Integrates constants.** Tested with the constant one in state `k` the mass matrix returns the volume of the element, whenever the cubature is exact for it
  * `C119_local_step` — **Local pseudo-time step.** With `space_vary_dt` every weight is the cubature weight times `J^(1 - 1/dim)`: dividing the residual by it is a step proportional to the local length `J^(1/dim)`
* **C120 Control footprint** — Models src/utils/utils.cpp:51-55; src/physics/fluidflow/flow_residual.cpp:280-298,355-373,785-800. Stated in `FlowReportProps.lean`.
  * `C120_gaussian` — **Value and range.** For a centre of the right dimension the scale is `exp(-|x - xc|² / len²)`, positive, at most one, and one exactly at the centre
  * `C120_decreasing` — **Monotone.** The scale is smaller the farther the point is from the centre
  * `C120_control_2d` — The control boundary in two dimensions: a bump of width `0.1` around `(1/2, 0)`
  * `C120_every_dim_false` — **Refuted: the control boundary works in every supported dimension.** Its centre has two coordinates whatever the mesh dimension
  * `C120_defined_iff` — It works exactly in two dimensions
* **C121 Nonlinear diffusion element: weak form, conservation, dissipation, monotonicity, exact symmetric Jacobian, stored energy** — Models src/physics/electromagnetics/electromag_integ.cpp: NonlinearDiffusionIntegrator::AssembleElementVector, AssembleElementGrad. Stated in `DiffusionProps.lean`.
  * `C121_weak_form` — **Weak form.** The element residual tested with `ψ` is the quadrature of `ν(|∇u|) ∇u·∇ψ`
  * `C121_constants` — **No flux for constants.** If the shape functions sum to one (so their derivatives sum to zero), a constant field has zero residual, and every residual sums to zero: the element neither creates nor destroys heat
  * `C121_coercive` — **Dissipation.** With positive weights and a positive diffusivity `u·R(u)` is non-negative and vanishes exactly when the gradient vanishes at every quadrature point
  * `C121_monotone` — **Monotone.** For a non-negative diffusivity with non-decreasing flux the residual is a monotone operator: `(u - v)·(R(u) - R(v)) ≥ 0`
  * `C121_jacobian_partial` — **Jacobian.** The matrix `AssembleElementGrad` returns is the derivative of the residual in every direction, at every state whose gradient is zero or not tiny (`> 1e-14` before the mapping) at each quadrature point
  * `C121_symmetric` — **Symmetric.**
  * `C121_jacobian_psd` — **Positive semidefinite.** If the diffusivity and the derivative `ν + s ν'` of the flux are non-negative, so is the Jacobian
  * `C121_energy` — **Energy.** The residual is the derivative of the stored energy: if `E_i' (s) = ν_i(s) s` then `R(u)·δ` is the derivative of the quadrature of `E(|∇u|)` in direction `δ` - at every state, also where the gradient vanishes
  * `C121_jacobian_small_false` — The Jacobian is not the derivative where the gradient is nonzero but below the guard
* **C122 Mesh sensitivity of the nonlinear diffusion element is the derivative under every node motion** — Models src/physics/electromagnetics/electromag_integ.cpp: NonlinearDiffusionIntegratorMeshRevSens::AssembleRHSElementVect. Stated in `DiffusionSensProps.lean`.
  * `C122_mesh_sensitivity_partial` — **Mesh sensitivity.** Provided residual and sensitivity use the same quadrature points, the vector the mesh-sensitivity integrator assembles, multiplied with any motion of the mesh nodes, is the derivative of the adjoint-weighted residual under that motion - at every state whose gradient is zero or not tiny at each quadrature point
  * `C122_same_rule` — The residual and its mesh sensitivity use the same quadrature rule for every space but the refined tensor-product one
  * `C122_rule_false` — **Violation.** On refined tensor-product (`rQk`) elements the mesh sensitivity is assembled with a different rule than the residual
* **C123 Magnetic energy density: reported first and second derivatives, constitutive law, positivity** — Models src/physics/electromagnetics/electromag_integ.cpp: calcMagneticEnergy, calcMagneticEnergyDot, calcMagneticEnergyDoubleDot. Stated in `DiffusionSensProps.lean`.
  * `C123_first_derivative` — **First derivative.** `calcMagneticEnergyDot` is the derivative of `calcMagneticEnergy` in the flux magnitude, for every segment rule and every differentiable reluctivity
  * `C123_second_derivative` — **Second derivative.**
  * `C123_field_intensity` — **Constitutive law.** If the reluctivity is a polynomial of degree `d` and the rule is exact to degree `d + 1` (the rule used is exact to degree 20) then the energy is the integral of `ν(b) b` from `0` to `B`; its reported derivative is the field intensity `ν(B) B` - so the linear case gives `ν B²/2`
  * `C123_positive` — **No energy without field, and a positive energy otherwise**, for rules with positive weights and points inside the segment
* **C124 Weakly imposed boundary values of the nonlinear diffusion operator: weak form, consistency, stability, Jacobian** — Models src/physics/electromagnetics/electromag_integ.cpp: NonlinearDGDiffusionIntegrator::AssembleFaceVector, AssembleFaceGrad. Stated in `DGDiffusionProps.lean`.
  * `C124_weak_form` — **Weak form (Nitsche).** Tested with `ψ`, the boundary residual is the quadrature of `ν (-∂ₙu ψ - (u - g) ∂ₙψ + μ |n|²/det (u - g) ψ)`
  * `C124_consistent` — **Consistency.** Where the function has the imposed boundary value, only the physical flux `-ν ∂ₙu ψ` remains: no penalty and no spurious term, for every penalty coefficient
  * `C124_total` — **Heat through the boundary.** With shape functions summing to one, the entries of the residual sum to the physical flux plus the penalty
  * `C124_lower_bound` — **The penalty controls the boundary term.** With zero boundary value, positive weights and coefficient, `u·R(u)` is bounded below by minus the weighted square of the normal derivative divided by the penalty
  * `C124_jacobian_partial` — **Jacobian.** The matrix returned by `AssembleFaceGrad` is the derivative of the residual in every direction, for diffusivities whose derivative is the same at the face point (where the code evaluates it) as at the element point
  * `C124_jacobian_false` — For a diffusivity that depends on position the Jacobian is wrong: the code evaluates the derivative of the model at the coordinates of the face point, interpreted in the element
  * `C124_symmetric` — **Symmetric** for a diffusivity that does not depend on the gradient
* **C125 Interface terms of the discontinuous nonlinear diffusion operator: interior-penalty weak form, conservation, consistency, orientation, Jacobian** — Models src/physics/electromagnetics/electromag_integ.cpp: DGInteriorFaceDiffusionIntegrator::AssembleFaceVector, AssembleFaceGrad. Stated in `DGDiffusionProps.lean`.
  * `C125_weak_form` — **Weak form (symmetric interior penalty).** Tested with `(ψ₁, ψ₂)` the interface residual is the quadrature of `-{ν ∂ₙu}[ψ] - [u]{ν ∂ₙψ} + σ [u][ψ]`
  * `C125_conservative` — **Conservation.** What one element loses through the interface the other gains
  * `C125_consistent` — **Consistency.** A function continuous across the face feels no penalty: only the mean physical flux acts, with opposite sign on the two elements; a common constant gives nothing at all
  * `C125_constants`
  * `C125_lower_bound` — **The penalty controls the interface terms**, for coefficients that are positive
  * `C125_orientation` — **Independent of the numbering of the two elements.** Exchanging the elements and reversing the normal exchanges the two parts of the residual
  * `C125_jacobian_partial` — **Jacobian.** The matrix `AssembleFaceGrad` returns is the derivative of both parts of the interface residual with respect to both elements' states, in every direction, for diffusivities whose derivative is the same at the face point (where the code evaluates it) as at the element points
  * `C125_symmetric` — **Symmetric** for a diffusivity that does not depend on the gradient
  * `C125_jacobian_false` — For a diffusivity that depends on position the interface Jacobian is wrong: the code evaluates the derivative of the model at the coordinates of the face point
* **C126 Mesh sensitivities of the face terms of the discontinuous diffusion operator are derivatives under every node motion** — Models src/physics/electromagnetics/electromag_integ.cpp: NonlinearDGDiffusionIntegratorMeshRevSens::AssembleRHSElementVect, DGInteriorFaceDiffusionIntegratorMeshRevSens::AssembleRHSElementVect. Stated in `DGDiffusionSensProps.lean`.
  * `C126_boundary_partial` — **Mesh sensitivity of the boundary terms.** For a constant boundary value and a diffusivity that does not depend on position, if the gradient does not vanish at any face point, the assembled vector multiplied with any motion of the mesh nodes is the derivative of the adjoint-weighted residual
  * `C126_boundary_zero_gradient_false` — **Violation.** Where the gradient vanishes at a face point (for instance in a uniform state) the mesh sensitivity of the boundary terms is not a number: the division by the norm is not guarded
  * `C126_rule_partial` — The boundary sensitivity uses the residual's quadrature rule on simplices only
  * `C126_rule_false` — **Violation**: on tensor-product elements residual and mesh sensitivity use rules of different order
  * `C126_interior` — **Mesh sensitivity of the interface terms.** If the gradients are regular, the two assembled vectors multiplied with any motion of the nodes of the two elements (the face moving with the first) are the derivative of the adjoint-weighted interface residual
* **C127 DC winding loss: value, forward and reverse derivatives** — Models src/physics/electromagnetics/electromag_outputs.cpp: calcOutput/jacobianVectorProduct/vectorJacobianProduct(DCLossFunctional). Stated in `LossesProps.lean`.
  * `C127_value` — The value is the loss formula
  * `C127_forward_scalar` — For every scalar input and every name that begins with it, the forward derivative is the derivative of the loss
  * `C127_reverse_scalar` — The scalar reverse derivative is `out_bar` times the forward one
  * `C127_forward_mesh` — The forward derivative along a motion of the mesh is the directional derivative of the loss, if those of the resistivity and volume functionals are
  * `C127_reverse_mesh` — The reverse derivative with respect to the mesh adds the transpose of the forward one
  * `C127_forward_temperature` — The forward derivative along a change of the temperature
  * `C127_reverse_temperature` — The reverse derivative with respect to the temperature
  * `C127_other` — An input the loss does not depend on (no documented name is a prefix of it) has zero derivatives in all three calls
* **C128 AC winding loss: value, forward and reverse derivatives** — Models src/physics/electromagnetics/electromag_outputs.cpp: calcOutput/jacobianVectorProduct/vectorJacobianProduct(ACLossFunctional). Stated in `LossesProps.lean`.
  * `C128_value` — The value is the loss formula
  * `C128_reverse_scalar` — The scalar reverse derivative is `out_bar` times the derivative of the loss, for every scalar input
  * `C128_forward_scalar_partial` — partial) The forward derivative with respect to every scalar input other than the frequency is the derivative of the loss
  * `C128_forward_frequency_partial` — The forward derivative with respect to the frequency is too large by the factor `1 / r`: multiplied by the strand radius it is the derivative of the loss
  * `C128_forward_frequency_false` — negation) So the forward derivative with respect to the frequency is *not* the derivative of the loss whenever the radius is not one and the loss does not vanish
  * `C128_forward_mesh` — The forward derivative along a motion of the mesh
  * `C128_reverse_mesh` — The reverse derivative with respect to the mesh
  * `C128_forward_field` — The forward derivative along a change of the peak flux or of the temperature
  * `C128_reverse_field` — The reverse derivative with respect to the peak flux or the temperature
* **C129 Element integrals of the winding losses and their sensitivities** — Models src/physics/electromagnetics/electromag_integ.cpp: DCLossFunctionalIntegrator, ACLossFunctionalIntegrator and their MeshSens, TemperatureSens, PeakFluxSens. Stated in `LossesIntegProps.lean`.
  * `C129_dc_value` — The DC element integral is `∫ 1/σ(T)` by quadrature
  * `C129_dc_temperature` — Its temperature sensitivity is its gradient with respect to the element temperatures
  * `C129_dc_mesh` — Its mesh sensitivity is its derivative along every motion of the mesh, including the change of the conductivity that `sigma.EvalRevDiff` reports
  * `C129_ac_value` — The AC element integral is `∫ σ(T) B²` by quadrature
  * `C129_ac_temperature` — Its temperature sensitivity is its gradient with respect to the element temperatures
  * `C129_ac_flux` — Its peak-flux sensitivity is its gradient with respect to the element fluxes
  * `C129_ac_mesh` — Its mesh sensitivity is its derivative along every motion of the mesh, including the changes of the conductivity and of the flux shape functions
* **C130 Winding heat distributions and their reverse sensitivities** — Models src/physics/electromagnetics/electromag_integ.cpp: DCLossDistributionIntegrator*, ACLossDistributionIntegrator*; src/physics/electromagnetics/electromag_outputs.cpp: vectorJacobianProduct(DCLossDistribution), vectorJacobianProduct(ACLossDistribution). Stated in `LossesIntegProps.lean`.
  * `C130_dc_value` — The load is the quadrature of the loss density against the temperature shape functions
  * `C130_dc_scalar` — The six scalar reverse sensitivities of the DC loss distribution are the derivatives of the adjoint-weighted load
  * `C130_dc_temperature` — The temperature reverse sensitivity of the DC loss distribution is the gradient of the adjoint-weighted load
  * `C130_dc_mesh_partial` — partial) The mesh reverse sensitivity of the DC loss distribution is the derivative of the adjoint-weighted load if the conductivity does not depend on the position of the mesh nodes
  * `C130_ac_value` — The load is the quadrature of the loss density against the temperature shape functions
  * `C130_ac_scalar` — The six scalar reverse sensitivities of the AC loss distribution are the derivatives of the adjoint-weighted load
  * `C130_ac_temperature` — The temperature reverse sensitivity of the AC loss distribution
  * `C130_ac_flux` — The peak-flux reverse sensitivity of the AC loss distribution
  * `C130_ac_mesh_partial` — partial) The mesh reverse sensitivity of the AC loss distribution is the derivative of the adjoint-weighted load if neither the conductivity nor the flux shape functions depend on the position of the mesh nodes
  * `C130_dc_mesh_false` — negation) If the conductivity does change with the mesh, the mesh sensitivities of the distributions are wrong: with one point whose Jacobian stays 1 while the conductivity grows, the reverse sensitivity is zero but the load changes
  * `C130_output_mesh` — The reverse mesh derivative of the distribution outputs: as both loads are of the form `F(X, V) = G(X) / V` (`ddVec_volume`, `adVec_volume`) with the winding volume `V` itself a function of the mesh, the part through the load (`G.grad / V`) and the part through the winding volume add up to the derivative of the whole, added to what was in the vector
* **C131 Winding heat adds up to the winding loss** — Models src/physics/electromagnetics/electromag_integ.cpp: DCLossDistributionIntegrator::AssembleRHSElementVect, ACLossDistributionIntegrator::AssembleRHSElementVect; src/physics/electromagnetics/electromag_outputs.cpp: calcOutput(DCLossFunctional), calcOutput(ACLossFunctional). Stated in `LossesIntegProps.lean`.
  * `C131_dc_total` — The total heat of the DC distribution over the winding is the value of the DC loss functional divided by the stack length, for any mesh, if both use the same quadrature points
  * `C131_ac_total` — The total heat of the AC distribution over the winding is the value of the AC loss functional divided by the stack length, for any mesh, if both use the same quadrature points
  * `C131_rules` — The default rules: the DC functional and distribution use the same rule if the state and the temperature have elements of the same order and kind; the AC functional uses a rule of lower order than the AC distribution on triangles and tetrahedra of every positive order
* **C132 Force and torque outputs obey the virtual-work principle** — Models src/physics/electromagnetics/electromag_integ.cpp: ForceIntegrator3::GetElementEnergy. Stated in `ForceProps.lean`, `ForceZeroProps.lean`.
  * `C132_virtual_work_2d_partial` — On a two-dimensional element of positive orientation, with non-zero flux density at every quadrature point, the value computed is minus the derivative of the element's magnetic energy along the virtual displacement of its nodes, at fixed potential coefficients
  * `C132_virtual_work_3d_partial` — The same in three dimensions
  * `C132_finite` — Where the flux density vanishes at no quadrature point the result is a finite number: the value the virtual-work theorem speaks about
  * `C132_zero_flux` — Outside the body and where the virtual displacement counts, a single quadrature point without flux makes the element's contribution - hence the whole force or torque - not a number
  * `C132_zero_flux_false` — is false as stated: in the field-free state the magnetic energy does not depend on the displacement - its derivative is zero - but the force the code computes is not a number, for every element outside the body with at least one quadrature point and every virtual displacement that counts
* **C133 State gradient of force and torque** — Models src/physics/electromagnetics/electromag_integ.cpp: ForceIntegrator3::AssembleElementVector. Stated in `ForceProps.lean`.
  * `C133_state_gradient_partial` — The assembled state derivative is the gradient of the element's force contribution with respect to the state coefficients - in two and three dimensions, for body elements, ignored displacements, and all others with non-zero flux density at every quadrature point
* **C134 Mesh sensitivity of force and torque** — Models src/physics/electromagnetics/electromag_integ.cpp: ForceIntegratorMeshSens3::AssembleRHSElementVect. Stated in `ForceMeshProps.lean`.
  * `C134_mesh_sensitivity_partial` — The assembled mesh sensitivity, multiplied with any motion of the mesh nodes, is the derivative of the element's force contribution under that motion (virtual displacement and state held fixed) - in two and three dimensions
* **C135 Virtual displacements: linearity, rigid motion, torque field** — Models src/physics/electromagnetics/electromag_integ.cpp: ForceIntegrator3::GetElementEnergy; src/physics/electromagnetics/electromag_outputs.cpp: setOptions(ForceFunctional&), setOptions(TorqueFunctional&). Stated in `ForceMeshProps.lean`.
  * `C135_linear` — The force is linear in the virtual displacement, as long as none of the displacements is below the `1e-14` threshold
  * `C135_rigid_2d` — An element that moves rigidly contributes nothing, in two dimensions: leaving out the elements of the body itself, which move with it, does not change the force or torque
  * `C135_rigid_3d` — The same in three dimensions
  * `C135_torque_field` — The torque field is the velocity of a rotation about the axis: perpendicular to the axis and to the lever arm, of magnitude axis length times distance to the axis, and zero on the axis
  * `C135_torque_plane` — It is right-handed: rotating about the `z` axis moves a point on the `x` axis towards `y`, and the two-dimensional field is the planar restriction of the three-dimensional one
  * `C135_axis_direction` — The length of the axis given to the torque output does not matter, only its direction; the axis used has length one
  * `C135_torque_rigid_3d` — The torque field is a rigid motion of the nodes, in three dimensions (about a fixed axis) 
  * `C135_torque_rigid_2d` — and in two
  * `C135_projection` — The virtual displacement is the prescribed field at exactly the nodes of the listed attributes, and zero at all others
  * `C135_still` — An element none of whose nodes moves contributes nothing
* **C136 Curl-curl element: weak form, gauge invariance, energy** — Models src/physics/electromagnetics/electromag_integ.cpp:CurlCurlNLFIntegrator::AssembleElementVector; src/physics/electromagnetics/magnetostatic_residual.cpp:MagnetostaticResidual. Stated in `CurlCurlProps.lean`.
  * `C136_weak_form` — Weak form: the element residual tested with `ψ` is the quadrature of `ν(|B|) B·curl ψ` with `B = curl A`
  * `C136_gauge` — Gauge invariance: adding a curl-free field to the potential does not change the residual, and the residual is orthogonal to every curl-free field (the discrete statement that `div J = 0` is required of the load)
  * `C136_coercive` — With positive weights and reluctivity, `A·R(A) ≥ 0`, with equality exactly when the flux density vanishes at every quadrature point
  * `C136_monotone` — For a non-negative reluctivity with non-decreasing `H(B) = ν(B) B` the residual is monotone
  * `C136_energy` — The residual is the derivative of the magnetic energy: if `E_i'(s) = ν_i(s) s`, then `R(A)·δ` is the derivative of the quadrature of `E(|curl A|)` in direction `δ` - at every state
* **C137 Curl-curl element: Jacobian and sensitivities** — Models src/physics/electromagnetics/electromag_integ.cpp:CurlCurlNLFIntegrator::AssembleElementGrad; src/physics/electromagnetics/electromag_integ.cpp:CurlCurlNLFIntegratorStateRevSens; src/physics/electromagnetics/electromag_integ.cpp:CurlCurlNLFIntegratorStateFwdSens; src/physics/electromagnetics/electromag_integ.cpp:CurlCurlNLFIntegratorMeshRevSens. Stated in `CurlCurlProps.lean`.
  * `C137_jacobian_partial` — The element matrix is the derivative of the element residual in every direction, at every state whose flux density at each quadrature point is zero or above `1e-14` in magnitude
  * `C137_symmetric` — The element matrix is symmetric
  * `C137_jacobian_psd` — If `ν` and the differential reluctivity `ν + s ν'` are non-negative, the element matrix is positive semidefinite
  * `C137_nullspace` — The curl-free fields are in the null space of the element matrix: without the boundary conditions and regularisation the matrix is singular
  * `C137_state_sens_partial` — The forward state sensitivity is the directional derivative of the residual; the reverse one is its transpose
  * `C137_mesh_sensitivity_partial` — Mesh sensitivity: with `alpha = 1` (the only value the residual uses), at every state with non-zero flux density at each quadrature point, the assembled vector multiplied with any motion of the mesh nodes is the derivative of the adjoint-weighted residual under that motion
  * `C137_mesh_alpha_false` — violation** The mesh sensitivity ignores `alpha`: for `alpha = 2` it is not the derivative of the adjoint-weighted residual
* **C138 Magnetic energy output** — Models src/physics/electromagnetics/electromag_integ.cpp:MagneticEnergyIntegrator; src/physics/electromagnetics/electromag_integ.cpp:MagneticEnergyIntegratorMeshSens. Stated in `MagSourceProps.lean`.
  * `C138_value_2d` — The output is the quadrature of the energy density `e(|B|)` over the element, in two dimensions; `energy2` is the energy whose derivative C132 relates to the force
  * `C138_value_3d` — The same in three dimensions
  * `C138_state_gradient_partial` — The state gradient is the gradient of the energy with respect to the potential, at every state with non-zero flux density at each quadrature point (where it is zero the code divides by zero)
  * `C138_residual_is_gradient_2d` — The state gradient of the energy is the residual of the two-dimensional magnetostatic problem on the same quadrature points, if the derivative of the energy density is the field intensity `ν(B) B` (C123): a stationary point of the energy is a solution
  * `C138_residual_is_gradient_3d` — The same in three dimensions, with the curl-curl element
  * `C138_mesh_sensitivity_partial` — Multiplied with any motion of the mesh nodes, the mesh sensitivity is the derivative of the energy under that motion (two and three dimensions, non-zero flux density at each point)
  * `C138_force_is_energy_derivative_partial` — The force output is minus the derivative of the energy output along the virtual displacement of the nodes, on the same quadrature points
  * `C138_rule_false` — violation** Residual and energy are assembled with different default quadrature rules on triangles (and the same or different ones elsewhere), so that the residual assembled by the code is not in general the gradient of the energy output
* **C139 Permanent-magnet source in two dimensions** — Models src/physics/electromagnetics/electromag_integ.cpp:MagnetizationSource2DIntegrator; src/physics/electromagnetics/electromag_integ.cpp:MagnetizationSource2DIntegratorMeshRevSens; src/physics/electromagnetics/electromag_integ.cpp:MagnetizationSource2DIntegratorTemperatureSens; src/common/coefficient.cpp:ScalarVectorProductCoefficient::Eval. Stated in `MagSourceProps.lean`.
  * `C139_weak_form` — Weak form: tested with `ψ` the source is `-∫ M·curl ψ`, with `M` at the local temperature
  * `C139_no_net_current` — The source injects no net current: its entries sum to zero
  * `C139_total_weak_form` — Together with the diffusion element the residual of a magnet region is `∫ (ν(|B|) B - s)·curl ψ` where `s` is the source coefficient: the field `H = ν B - s` has no curl in the weak sense
  * `C139_magnet_constant_reluctivity` — With a constant reluctivity `ν₀` in the magnet the coefficient the residual builds is `ν₀ M(T)`, so that the residual is `∫ ν₀ (B - M)·curl ψ`: it vanishes when the flux density equals the remanent one
  * `C139_magnet_reluctivity_false` — violation** With a reluctivity that depends on the flux density the residual of a magnet is not `∫ ν(|B|) (B - M)·curl ψ`: the code evaluates the reluctivity in the source at the temperature instead of the flux density
  * `C139_temperature_sensitivity` — Temperature sensitivity: the derivative of the adjoint-weighted source with respect to the element temperatures
  * `C139_coefficient_derivative` — The state derivative of the product coefficient is the derivative of what its evaluation returns
  * `C139_mesh_sensitivity` — Mesh sensitivity: multiplied with any motion of the mesh nodes it is the derivative of the adjoint-weighted source, including the dependence of the magnetisation on position
* **C140 CAL2 core-loss coefficients** — Models src/physics/electromagnetics/cal2_kh_coefficient.cpp:CAL2khCoefficient; src/physics/electromagnetics/cal2_ke_coefficient.cpp:CAL2keCoefficient. Stated in `MatCoeffProps.lean`.
  * `C140_value` — Where it is finite, a CAL2 coefficient interpolates linearly in the temperature between the two fitted polynomials of the flux density; it does not depend on the frequency
  * `C140_finite_iff` — It is finite exactly if the two temperatures differ and the first polynomial does not vanish
  * `C140_reference_values` — At the reference temperatures it is the fitted polynomial
  * `C140_nonneg` — Between the reference temperatures, with nonnegative fit coefficients and flux density, it is nonnegative
  * `C140_temperature_derivative` — `EvalDerivS1` is the derivative with respect to the temperature, wherever the coefficient is finite
  * `C140_frequency_derivative` — `EvalDerivS2` is the derivative with respect to the frequency
  * `C140_flux_derivative_partial` — partial) `EvalDerivS3` is the derivative with respect to the flux density - for a nonzero flux density
  * `C140_flux_derivative_false` — counterexample) At zero flux density the flux derivative of every CAL2 coefficient is not finite (`0 * pow(0, -1)`), although the coefficient is a polynomial there: the property that `EvalDerivS3` is the derivative of `Eval` for every flux density is false
  * `C140_zero_flux_value_false` — counterexample) A fit without constant term has no finite value at zero flux density
  * `C140_second_derivatives_partial` — partial) The second derivatives are the derivatives of the first ones, for a nonzero flux density: temperature-temperature, flux-flux, and the mixed one from both sides
* **C141 Permanent-magnet demagnetization constraint** — Models src/physics/electromagnetics/pm_demag_constraint_coeff.cpp:PMDemagConstraintCoefficient. Stated in `MatCoeffProps.lean`.
  * `C141_value` — The constraint value is the horizontal distance between the two branches of the demagnetization curve at the flux density `B`; it vanishes at the knee
  * `C141_sign` — As documented: if the upper branch is the steeper one (in `H` over `B`), the constraint is positive above the knee (reversible) and negative below it (irreversible demagnetization)
  * `C141_derivatives` — The derivatives of the constraint with respect to the flux density and the temperature, and the second derivatives, are exact wherever the constraint is defined
* **C142 Temperature laws of conductivity and magnet fluxes** — Models src/physics/electromagnetics/conductivity_coefficient.cpp; src/physics/electromagnetics/remnant_flux_coefficient.cpp; src/physics/electromagnetics/demag_flux_coefficient.cpp. Stated in `MatCoeffProps.lean`.
  * `C142_conductivity` — The conductivity model: the resistivity is affine in the temperature with value `1/σ_ref` at the reference temperature and relative slope `α`; the returned derivatives are exact
  * `C142_conductivity_decreasing` — With a positive temperature coefficient the conductivity is positive and decreases with the temperature, as long as `1 + α (T - T_ref)` is positive
  * `C142_fluxes` — Remnant flux and knee flux: affine in the temperature; the remnant flux changes by `α` percent of its reference value per degree; the returned derivatives are exact
  * `C142_consistent_with_constraint` — The knee flux coefficient is the knee flux of the demagnetization constraint, and the remnant flux coefficient its remnant flux, for equal parameters
  * `C142_remnant_defaults` — The remnant flux takes each option that is given and the documented default for each that is not, independently
* **C143 Nonlinear reluctivity models** — Models src/physics/electromagnetics/reluctivity_coefficient.cpp:logNuBBHReluctivityCoefficient; src/physics/electromagnetics/reluctivity_coefficient.cpp:BHBSplineReluctivityCoefficient. Stated in `MatCoeffProps.lean`.
  * `C143_lognu_positive` — The `lognu` model: the reluctivity is positive everywhere and that of vacuum above the last knot
  * `C143_lognu_derivative_partial` — partial) The returned first and second derivatives of the `lognu` reluctivity are exact away from the last knot, given that the spline library differentiates correctly
  * `C143_lognu_continuous_iff` — The `lognu` reluctivity is continuous at the last knot exactly if the fit ends at the reluctivity of vacuum
  * `C143_lognu_monotone_partial` — partial) The `lognu` field strength `H = ν(B) B` does not decrease with `B` if `1 + B (log ν)' ≥ 0` up to the last knot and the fit ends at or below the reluctivity of vacuum; the magnetostatic residual is then a monotone operator
  * `C143_lognu_false` — counterexample) A `lognu` fit that ends above the reluctivity of vacuum - constant `log ν`, so all spline derivatives are exact - has a jump at the last knot and a field strength that decreases with the flux density there
  * `C143_bh_curve` — The `bh` model reproduces the fitted curve: `ν(B) B = H(B)` up to the last knot, and `H_max + ν₀ (B - B_max)` above it
  * `C143_bh_derivative_partial` — partial) The returned derivative of the `bh` reluctivity is exact for every flux density above `1e-14` except at the last knot
  * `C143_bh_monotone_partial` — partial) Above `1e-14` the `bh` field strength does not decrease with the flux density, across the last knot too, if the fit does not decrease and ends at its last control point
  * `C143_bh_derivative_false` — counterexample) The `bh` derivative is not finite at zero flux density, and below `1e-14` it is not the derivative of the returned reluctivity (here `H(t) = t²`, `B_max = 1`)
* **C144 Construction of material coefficients from options** — Models src/physics/electromagnetics/cal2_kh_coefficient.cpp:constructCAL2_khCoeff; src/physics/electromagnetics/conductivity_coefficient.cpp:constructConductivityCoeff; src/physics/electromagnetics/pm_demag_constraint_coeff.cpp; src/common/coefficient.hpp:MeshDependentCoefficientBase. Stated in `MatCoeffProps.lean`.
  * `C144_plain_construction` — A successful construction of a conductivity (or reluctivity) gives each attribute the coefficient of the last component naming it - in fact of the only one - and leaves the others at the default; whether a component names one attribute with `attr` or the same one with `attrs` makes no difference
  * `C144_attr_form_false` — counterexample) The CAL2, knee flux and demagnetization coefficients cannot be constructed if any component names its attribute with `attr`: the attempt ends in a JSON type error, a MISO exception or an abort - while the same components with `attrs` work
  * `C144_attrs_form_partial` — partial) With `attrs` throughout, the successful construction of these coefficients gives each attribute the coefficient of its component
  * `C144_override` — Every CAL2 parameter is taken from the component if it is given there, else from the library
  * `C144_override_linear` — The same for the parameters of the knee flux density and of the linear conductivity
  * `C144_library_ignored_false` — fails for magnets given by the name of their material only: the knee flux density and the demagnetisation constraint are the constant 0, whatever the library says about the material
* **C145 Core-loss integral and its sensitivities** — Models src/physics/electromagnetics/electromag_integ.cpp:CAL2CoreLossIntegrator; src/physics/electromagnetics/electromag_integ.cpp:CAL2CoreLossIntegratorFreqSens; src/physics/electromagnetics/electromag_integ.cpp:CAL2CoreLossIntegratorPeakFluxSens; src/physics/electromagnetics/electromag_integ.cpp:CAL2CoreLossIntegratorTemperatureSens; src/physics/electromagnetics/electromag_integ.cpp:CAL2CoreLossIntegratorMeshSens. Stated in `CoreLossProps.lean`.
  * `C145_value` — The element integral is the quadrature of the core losses per volume
  * `C145_nonneg` — With nonnegative density, coefficients and frequency and a mesh of positive orientation the losses are not negative
  * `C145_frequency` — The frequency sensitivity is the derivative of the integral
  * `C145_temperature` — The temperature sensitivity is the gradient of the integral with respect to the element temperatures
  * `C145_flux` — The peak-flux sensitivity is the gradient of the integral with respect to the element fluxes, where the coefficients have the derivatives they report
  * `C145_mesh_partial` — partial) The mesh sensitivity is the derivative of the integral along every motion of the mesh, if neither the shape functions nor the material depend on the position of the mesh nodes
  * `C145_zero_flux_false` — counterexample) With CAL2 coefficients, the peak-flux sensitivity of an element is not finite as soon as the flux density vanishes at one point, for every nonempty hysteresis fit
  * `C145_cal2` — For CAL2 coefficients the frequency and temperature sensitivities are exact wherever the coefficients are finite, and the flux sensitivity is where in addition no point has zero flux density
  * `C145_mesh_false` — negation) For a flux element whose shape functions are mapped with the Jacobian (map type INTEGRAL, shape `1 / J`) the mesh sensitivity has the wrong sign: stretching the element lowers its losses at the rate 1, and the reverse sensitivity is `+1`, because it leaves out the change of the shape functions
* **C146 Core-loss heat distribution** — Models src/physics/electromagnetics/electromag_integ.cpp:CAL2CoreLossDistributionIntegrator; src/physics/electromagnetics/electromag_integ.cpp:CAL2CoreLossDistributionIntegratorFrequencyRevSens; src/physics/electromagnetics/electromag_outputs.cpp:EMHeatSourceOutput. Stated in `CoreLossProps.lean`.
  * `C146_value` — The load is the quadrature of the core losses per volume against the temperature shape functions
  * `C146_total` — The heat put into an element adds up to the value of the core-loss integral over it, if both use the same quadrature points and the temperature shape functions add up to one; the default rules coincide exactly if the two elements have the same kind and order (or a rule of the same order)
  * `C146_rules` — The default rules of functional and distribution
  * `C146_frequency` — The frequency reverse sensitivity is the derivative of the tested load
  * `C146_temperature` — The temperature reverse sensitivity is the gradient of the tested load
  * `C146_flux` — The peak-flux reverse sensitivity is the gradient of the tested load
  * `C146_mesh_partial` — partial) The mesh reverse sensitivity is the derivative of the tested load along every motion of the mesh, if neither the shape functions nor the material depend on the position of the mesh nodes
  * `C146_heat_source` — The combined heat source is the sum of the three distributions, its reverse products the sums of theirs: if each part reports the derivative of its tested load, the combination reports that of the tested sum
  * `C146_mesh_false` — negation) In the same element the mesh reverse sensitivity of the heat distribution is `+1` while the tested load changes at the rate `-1`
* **C147 Demagnetization output** — Models src/physics/electromagnetics/electromag_integ.cpp:PMDemagIntegrator; src/physics/electromagnetics/electromag_outputs.cpp:PMDemagOutput. Stated in `CoreLossProps.lean`.
  * `C147_alternating` — What the demagnetization output computes: the contributions with signs that alternate from point to point, the last one negated
  * `C147_value_partial` — partial) With a one-point rule (the default on linear triangles) the output is minus the integral of the constraint, as documented
  * `C147_value_false` — counterexample) With an even number of points of equal weight a uniform constraint gives zero, whatever its value - a magnet demagnetized everywhere is reported like one at the limit; so the output is not minus the integral of the constraint
  * `C147_vector` — The vector the integrator assembles for the state gradient is the load of the constraint
  * `C147_gradient_false` — counterexample) It is not the gradient of the output: for a constraint that does not depend on the flux the gradient is zero, the vector is not
* **C148 Functional outputs: value and products** — Models src/common/functional_output.cpp: calcOutput, jacobianVectorProduct, vectorJacobianProduct, setInputs. Stated in `OutputFormProps.lean`.
  * `C148_value` — The value is that of the form at the supplied state, with the supplied fields and scalars
  * `C148_history` — The value does not depend on the history of the object if the inputs supply the state, all registered fields, and the scalars the form uses
  * `C148_sticky` — Inputs that are not supplied keep the value of the last call that supplied them
  * `C148_adjoint_partial` — partial) Forward and reverse products are adjoint to each other - for `state`, and for every other field with more than one degree of freedom
  * `C148_one_dof_false` — counterexample) For a field with a single degree of freedom the forward product looks for a scalar of that name: the reverse product works, the forward one throws
  * `C148_scalar` — Forward and reverse products with respect to a scalar agree
  * `C148_state_derivative_partial` — partial) After the value has been computed, the product with respect to `state` is the derivative of the value with respect to the supplied state - for outputs whose state is called `state`
  * `C148_field_derivative` — After the value has been computed, the product with respect to a field other than the state is the derivative of the value with respect to the supplied field
  * `C148_state_name_false` — counterexample) For an output whose state has another name (the AC losses: `peak_flux`) the product with respect to `state` evaluates the gradient at the field `state`, which the value does not depend on: the value does not change with the input `state`, the reported derivative is not zero
  * `C148_missing_state_false` — counterexample) Without a state among the inputs the value is not that of the state supplied last: after a derivative has been requested it is the value at the gradient
* **C149 Loads: application and products** — Models src/common/miso_linearform.cpp: addLoad, jacobianVectorProduct, vectorJacobianProduct. Stated in `OutputFormProps.lean`.
  * `C149_load` — Adding a load changes exactly the free degrees of freedom, by the assembled load; degrees of freedom with essential conditions are left alone
  * `C149_reverse` — The reverse product with respect to a field adds the gradient of the seed-weighted load that `addLoad` adds, essential degrees of freedom included
  * `C149_reverse_scalar_partial` — partial) The reverse product with respect to a scalar is the derivative of the seed-weighted load if the seed vanishes at the essential degrees of freedom
  * `C149_reverse_scalar_false` — counterexample) With a nonzero seed at an essential degree of freedom the scalar reverse product reports a derivative of a load that is not applied: here the load vector never changes
  * `C149_forward_false` — counterexample) The forward products of a load never report a derivative: whenever they return, the result vector is unchanged and the scalar product zero - so they are wrong for every load with a nonzero derivative
* **C150 Thermal interface and boundary conditions are the stated heat exchanges** — Models src/physics/thermal/thermal_integ.cpp:ThermalContactResistanceIntegrator; src/physics/thermal/thermal_integ.cpp:InternalConvectionInterfaceIntegrator; src/physics/thermal/thermal_integ.cpp:ConvectionBCIntegrator; src/physics/thermal/thermal_integ.cpp:OutfluxBCIntegrator; src/physics/thermal/thermal_residual.cpp:ThermalResidual. Stated in `ThermalFaceProps.lean`.
  * `C150_contact_weak_form` — **Contact resistance.** Tested with `(ψ₁, ψ₂)` the residual is `α ∫ h (T₁ - T₂)(ψ₁ - ψ₂)`
  * `C150_contact_conservative` — **Heat is conserved across a contact**: what leaves one side enters the other
  * `C150_contact_dissipates` — **A contact dissipates**: with `α h > 0` the residual tested with the state is nonnegative, and zero exactly when the two temperatures agree at every point, in which case nothing is exchanged
  * `C150_convection_weak_form` — **Internal convection.** Tested with `(ψ₁, ψ₂)` the residual is `α ∫ h ((T₁ - θ) ψ₁ + (T₂ - θ) ψ₂)`: the two sides do not feel each other
  * `C150_convection_dissipates` — **Internal convection cools towards the fluid.** With `α h > 0` the residual tested with the excess over the fluid temperature is nonnegative and vanishes exactly when both sides are at the fluid temperature on the face
  * `C150_boundary_weak_form` — **Convection boundary condition.** Tested with `ψ` the residual is `α ∫ h (T - θ) ψ`
  * `C150_boundary_monotone` — **Convection boundary conditions are monotone**: for two states the difference of the residuals tested with the difference of the states is `α h ∫ (T - T')² ≥ 0`
  * `C150_equilibrium` — **Equilibrium.** A field at the fluid temperature produces no convection residual, on interfaces and boundaries
  * `C150_outflux` — **Outflux.** Tested with `ψ` the residual is `α ∫ q ψ`, whatever the state; its total is `α` times the flux times the area of the face
  * `C150_interface_replaces` — **An interface condition replaces the perfect contact of the discontinuous discretization**: the interface terms added with weight `-1` on the marked faces (thermal_residual.cpp:319-322, 346-349) cancel those the interior faces contribute with weight `1` (thermal_residual.cpp:194-195), in the residual and in the Jacobian, for every state and diffusivity
* **C151 Thermal interface and boundary Jacobians are the derivatives of the residuals** — Models src/physics/thermal/thermal_integ.cpp:AssembleFaceGrad; src/physics/thermal/thermal_integ.cpp:InternalConvectionInterfaceIntegrator::AssembleFaceVector. Stated in `ThermalFaceProps.lean`.
  * `C151_contact` — **Jacobian of the contact resistance.** The assembled matrix is the derivative of both parts of the residual in every direction
  * `C151_contact_spd` — **The contact Jacobian is symmetric and positive semidefinite** for `α h ≥ 0`
  * `C151_convection_partial` — **Jacobian of the internal convection**, partial: it is the derivative of the residual on faces whose mapping adds nothing to the order of the rule (`ow = 0`, straight faces), because the residual and the Jacobian then use the same rule
  * `C151_convection_false` — **Jacobian of the internal convection on curved faces is not the derivative of the residual**: the residual uses the rule of order `2 p + OrderW`, the Jacobian the one of order `2 p`
  * `C151_boundary` — **Jacobian of the convection boundary condition** is the derivative of its residual, symmetric, and positive semidefinite for `α h ≥ 0`; the outflux residual has derivative zero, as assembled
* **C152 Sensitivities of the thermal interface and boundary terms are exact** — Models src/physics/thermal/thermal_integ.cpp:ThermalContactResistanceIntegratorMeshRevSens; src/physics/thermal/thermal_integ.cpp:ThermalContactResistanceIntegratorHRevSens; src/physics/thermal/thermal_integ.cpp:InternalConvectionInterfaceIntegratorMeshRevSens; src/physics/thermal/thermal_integ.cpp:ConvectionBCIntegratorMeshRevSens; src/physics/thermal/thermal_integ.cpp:OutfluxBCIntegratorMeshRevSens. Stated in `ThermalFaceProps.lean`.
  * `C152_contact_h_partial` — **Sensitivity of the contact residual to `h`**, partial: exact on straight faces (`ow = 0`)
  * `C152_contact_h_false` — **Sensitivity of the contact residual to `h` on curved faces is not exact**: it uses the rule of order `2 p + OrderW` and the residual the one of order `2 p`
  * `C152_convection_inputs` — **Sensitivities of the internal convection to `h` and to the fluid temperature** are exact, on curved faces too
  * `C152_boundary_inputs` — **Sensitivities of the convection boundary condition to `h` and to the fluid temperature** are exact
  * `C152_contact_mesh` — **Mesh sensitivity of the contact residual** is exact for every motion of the nodes, the face moving with element 1 (into whose vector the code inserts it)
  * `C152_convection_mesh_partial` — **Mesh sensitivity of the internal convection**, partial: exact on straight faces (`ow = 0`)
  * `C152_convection_mesh_false` — **Mesh sensitivity of the internal convection on curved faces is not exact**: stretching the cubic edge changes the tested residual at the rate 7/15 and the sensitivity says 11/24
  * `C152_boundary_mesh` — **Mesh sensitivities of the boundary conditions** are exact for every motion of the nodes of the face
* **C153 Integral, average and aggregate of the flux density magnitude** — Models src/physics/mfem_common_integ.cpp: MagnitudeCurlStateIntegrator, IECurlMagnitudeAggregateIntegratorNumerator/Denominator and their MeshSens classes; src/physics/common_outputs.cpp: AverageMagnitudeCurlState, IECurlMagnitudeAggregateFunctional. Stated in `CurlMagProps.lean`.
  * `C153_values` — The three element integrals are the quadratures of `|B|`, `|B| e^{ρ|B|/M}` and `e^{ρ|B|/M}`
  * `C153_seminorm` — The integral of `|B|` is a seminorm of the potential: non-negative, absolutely homogeneous and subadditive; it vanishes exactly when `B` does at every quadrature point
  * `C153_gauge` — All three integrals are gauge invariant: a field without flux density does not change them
  * `C153_gradient_partial` — Derivative with respect to the potential: when the flux density is not zero at any quadrature point, the assembled vectors of the three functionals are the exact derivatives, in every direction
  * `C153_gradient_zero_flux_false` — One point with zero flux density - for instance the zero state every solve starts from - makes the whole vector NaN, for each of the three functionals
  * `C153_mesh_sensitivity_partial` — Mesh sensitivity: when the flux density is not zero at any quadrature point, the assembled vectors multiplied with any motion of the mesh nodes are the derivatives of the three integrals under that motion
  * `C153_mesh_zero_flux_false` — One point with zero flux density makes the mesh sensitivities NaN as well
  * `C153_aggregate_bounds` — With positive weights the aggregate lies between the smallest and the largest sampled `|B|`
* **C154 The aggregate is a smooth maximum** — Models src/physics/mfem_common_integ.cpp: IEAggregateIntegratorNumerator/Denominator and MeshSens; src/physics/common_outputs.hpp: IEAggregateFunctional. Stated in `CommonIntegProps.lean`.
  * `C154_monotone` — The aggregate of a scalar state increases with the parameter `ρ`
  * `C154_above_average` — For `ρ ≥ 0` it is at least the average of the state by the same quadrature, with equality for `ρ = 0`
  * `C154_gap` — It approaches the largest sampled value like `1/ρ`: the gap is at most `Σ w / (ρ w_j)`, where `j` is a point at which the state is largest
  * `C154_shift` — Adding a constant to the state adds it to the aggregate (nodal basis: the shape functions add up to one)
  * `C154_curl_aggregate` — The aggregate of `|B|` increases with `ρ / M` as well, and is at most `Σ w J M / (ρ w_j J_j)` below the magnitude at any point `j`
  * `C154_mesh_sensitivity` — Mesh sensitivities of numerator and denominator of the scalar aggregate: the assembled vectors multiplied with any motion of the mesh nodes are the derivatives of the integrals under that motion
* **C155 Volume and mass** — Models src/physics/mfem_common_integ.cpp: VolumeIntegrator, VolumeIntegratorMeshSens, VolumeIntegratorFillFactorSens; src/physics/common_outputs.cpp: MassFunctional, VolumeFunctional. Stated in `CommonIntegProps.lean`.
  * `C155_value` — The volume integral is the quadrature of 1, the mass integral that of the density
  * `C155_mesh_sensitivity_partial` — Mesh sensitivity: for the volume (null pointer) and for a density, also one that depends on position (`s i t` after the motion; `sRev` returns the adjoint of its derivative), the assembled vector multiplied with any motion of the mesh nodes is the derivative of the integral
  * `C155_null_coefficient_false` — With a pointer to a null coefficient the value is the volume but the sensitivity is zero: moving a vertex of the unit triangle changes its area at rate 1/2
  * `C155_fill_factor_vjp` — Fill factor, reverse mode: if the density at every point is `ρ(f)` with derivative `dρ` - what the two coefficients are - the product is `out_bar` times the derivative of the mass, and afterwards the functional uses the density again
  * `C155_fill_factor_jvp_false` — Fill factor, forward mode: the result is the mass times the direction, not the derivative of the mass; for the volume, which does not depend on the fill factor, it is the volume times the direction
* **C156 Averages of the state** — Models src/physics/mfem_common_integ.cpp: StateIntegrator, StateIntegratorMeshSens, MagnitudeCurlStateIntegrator, VolumeIntegrator; src/physics/common_outputs.hpp: StateAverageFunctional, AverageMagnitudeCurlState. Stated in `CommonIntegProps.lean`.
  * `C156_state_integral` — The state integral is the quadrature of the state; its derivative is the assembled vector, at every state
  * `C156_mesh_sensitivity` — Mesh sensitivity of the state integral
  * `C156_state_average` — The state average lies between bounds of the sampled values, provided the two rules agree on the volume of every element (the rule of order `OrderW` and that of order `2p + OrderW` both integrate the Jacobian determinant exactly); so the average of a constant is that constant
  * `C156_state_rules` — The rules of the two integrals of the state average both have at least the order `OrderW`, and the rule of the numerator has at least the degree of the square of the state times the Jacobian
  * `C156_curl_average_partial` — The average of `|B|` on one element: where `|B|` has the value `c` at every point, the average is `c` exactly if the two rules agree on the volume of the element
  * `C156_curl_average_false` — On curved elements the average of `|B|` is wrong even where `|B|` is constant: a linear state on a quadratic element uses the one-point rule for the numerator (order `2p - 2 = 0`), which overestimates the area by 1/24 - whatever rule computes the area `4/3` exactly for the denominator (order `OrderW = 2`)
* **C157 Normal heat flux through a boundary** — Models src/physics/mfem_common_integ.cpp: BoundaryNormalIntegrator. Stated in `CommonIntegProps.lean`.
  * `C157_value` — The functional is the quadrature of `-κ ∇T·n` over the boundary (`n` has the length of the area element)
  * `C157_gradient` — It is linear in the temperature, the assembled vector is its derivative, and a uniform temperature (nodal basis) gives no flux
  * `C157_rule` — The rule has at least the degree of the gradient (`order - 1`) times a conductivity of degree one times the Jacobian (`OrderW`)
* **C158 Flux density fields are the flux density at the output nodes** — Models src/utils/l2_transfer_operator.cpp: L2TransferOperator::apply, L2CurlProjection, L2CurlMagnitudeProjection, L2IdentityProjection; src/physics/electromagnetics/magnetostatic.cpp: MagnetostaticSolver::addOutput. Stated in `L2TransferProps.lean`.
  * `C158_flux_density_3d` — Three dimensions: the entry of the transferred field at every node of every element is the component of the flux density there
  * `C158_flux_density_2d_partial` — Two dimensions: the entry is the component of the curl of `A_z e_z` with the opposite sign - right up to the direction
  * `C158_flux_magnitude` — The magnitude output is the magnitude of the flux density, in two and three dimensions
  * `C158_identity` — The identity transfers copy the field: each entry is the value of the state at the node
  * `C158_exact_when_representable` — The transferred field interpolates: wherever a component of the field is a combination of the output shape functions on an element (`c` the coefficients, `φ x` the shape functions at `x`, `val x` the field), the transferred field is that component at every point of the element
  * `C158_direction_2d_false` — violation** In two dimensions the output `flux_density` points against the flux density: here is an element of a magnet with remanent flux density `(4, -3)` whose residual vanishes for every test function - the flux density equals the remanent one, C139 - and whose reported flux density is `(-4, 3)`
  * `C158_shared_nodes_false` — violation** The class accepts any output field
  * `C158_creation_false` — violation** `createOutput("flux_density...")` makes the field it needs; `createOutput("flux_magnitude...")` throws unless a field of the same name is declared among the external fields
* **C159 Reverse products of the field transfers are exact** — Models src/utils/l2_transfer_operator.cpp: vectorJacobianProduct, apply_state_bar, apply_mesh_coords_bar. Stated in `L2TransferRevProps.lean`.
  * `C159_state_flux_density` — Reverse product of the flux density with respect to the state: it is added to the given vector, and its product with any change of the state is the derivative of the weighted output in that direction
  * `C159_state_identity` — The same for the identity transfers
  * `C159_state_magnitude_partial` — The same for the magnitude, when the flux density is not zero at any node
  * `C159_magnitude_zero_flux_false` — violation** One node with zero flux density makes the reverse products of the magnitude NaN, with respect to the state and to the mesh
  * `C159_mesh_flux_density` — Reverse product of the flux density with respect to the mesh coordinates: it is added to the given vector, and its product with any motion of the mesh nodes is the derivative of the weighted output under that motion - whatever the uninitialised work vector of the code contains
  * `C159_mesh_magnitude_partial` — The same for the magnitude, when the flux density is not zero at any node
  * `C159_mesh_identity` — The same for the identity transfers
* **C160 Solving, solving the adjoint and taking the reverse product gives the total derivative of an output** — Models src/common/abstract_solver.cpp: solveForState, solveForAdjoint, linearize, vectorJacobianProduct; src/physics/miso_nonlinearform.cpp: setUpAdjointSystem, getJacobian, getJacobianTranspose. Stated in `SteadySolveProps.lean`.
  * `C160_linearized` — Whatever the history of the solver: once a Jacobian is not held yet, `linearize` at a solution `(p, u)` followed by `solveForAdjoint` and the reverse product with minus the adjoint, accumulated onto the output's own partial derivative, gives the total derivative of the output along the solutions for the parameters `p + t δ`
  * `C160_linear_problems` — Problems whose gradient does not depend on the state (all linear problems): after a solve that took at least one Newton step, from any solver history and any initial guess, the adjoint solve gives the total derivative
  * `C160_last_step_partial` — partial)** In general the adjoint after a converged solve is that of the gradient at the iterate *before* the last Newton step: `solveForAdjoint` does not assemble a Jacobian
  * `C160_warm_start_false` — violation** Warm start: if the initial guess already solves the problem, a solver that holds no Jacobian returns from `solveForState` without assembling one, and `solveForAdjoint` throws
  * `C160_nonlinear_false` — violation** Nonlinear problems: for `u³ - 4u = p` at `p = 0`, Newton's method from `u = -1` converges in one step to the exact solution `u = 2`, where `du/dp = 1/8`
  * `C160_previous_design_false` — violation** The adjoint belongs to whatever problem was linearised last
* **C161 A steady solve ends at a state that satisfies the equations** — Models src/common/abstract_solver.cpp: solveForState, calcResidualNorm; src/common/mfem_extensions.cpp: constructNonlinearSolver; src/common/default_options.cpp: nonlin-solver.abort. Stated in `SteadySolveProps.lean`.
  * `C161_converged` — If Newton's method reports convergence, the residual norm that the user can query after the solve is within the tolerance: the absolute one, or the relative one times the residual norm of the initial guess
  * `C161_linear_one_step` — Linear problems, exact linear solver, initial guess meeting the boundary values: one Newton iteration gives zero residual (so the boundary values hold and the equation holds on every free dof), and the solver reports convergence
  * `C161_linear_two_steps` — Linear problems, exact linear solver: from *any* initial guess two Newton iterations are enough
  * `C161_boundary` — Any problem, exact linear solves, unit step: a solve that iterates at all ends with the registered boundary values on the essential dofs; if none are registered, the essential entries of the initial guess are kept
  * `C161_one_iteration_false` — violation** One iteration is not enough for a linear problem if the initial guess misses the boundary values: the Jacobian has lost its essential columns, so the correction ignores the change of the boundary values
  * `C161_silent_failure_false` — violation** A solve whose Newton iteration does not converge is not reported: for `u³ - 2u + 2 = 0` from `u = 0`, exact linear solves, absolute tolerance 1/2 and *any* iteration limit, `solveForState` returns normally (the option `nonlin-solver.abort` is read nowhere), and the residual norm of what it returns is at least 1
* **C162 The files written by a session of steady solves are those of the last solves** — Models src/common/abstract_solver.cpp: solveForState, solveForAdjoint, initialHook; src/physics/pde_solver.cpp: PDESolver::initialHook; src/common/data_logging.hpp: LoggingOptions. Stated in `SteadySolveProps.lean`.
  * `C162_session_files` — After any sequence of state and adjoint solves, with any exceptions in between: the file of the state at timestep 1 holds the state returned last, that of the adjoint holds the adjoint returned last, and that of the state at timestep 0 holds the last initial guess if initial states are logged and what it held before otherwise
  * `C162_final_state_false` — violation** The logging option `final_state` has no effect on a steady solve: with it switched off the final state is written all the same
* **C163 setState puts the same values in the caller's vector, the state field and the Dirichlet values** — Models src/physics/pde_solver.cpp: PDESolver::setState_; src/common/abstract_solver.cpp: AbstractSolver2::setState_; src/common/abstract_solver.hpp: setState. Stated in `SteadySolveProps.lean`.
  * `C163_projected` — A function or coefficient that is projected: afterwards the solver's state field, the field holding the Dirichlet values and the vector the caller passed all hold the projection, whatever they held before
  * `C163_fill_false` — violation** A function that fills the vector: it is called twice, and neither the state field nor the Dirichlet values of the solver change
  * `C163_other_false` — violation** An object of any other type is ignored without an error
* **C164 Magnetization directions follow the geometry of the machine** — Models src/physics/electromagnetics/magnetic_source_functions.cpp: north_magnetization, south_magnetization, cw_magnetization, ccw_magnetization. Stated in `SourceFieldProps.lean`.
  * `C164_directions` — North magnets point radially outwards and south magnets inwards; the tangential ones are perpendicular to the radius; all have unit length, lie in the plane of rotation and do not depend on the axial position
  * `C164_rotation` — Rotating the machine rotates the magnetization: for every angle, each radial or tangential magnetization of the rotated point is the rotated magnetization (in particular both are undefined together)
  * `C164_axis_false` — violation** On the axis of rotation the four of them are not a number
  * `C164_clockwise_false` — violation** The names of the two tangential magnetizations are exchanged: "cw" turns counter-clockwise about the z axis (like the "ring" current), "ccw" clockwise, at every point
* **C165 Source directions have exact shape derivatives** — Models src/physics/electromagnetics/magnetic_source_functions.cpp: northMagnetizationSourceRevDiff, southMagnetizationSourceRevDiff, cwMagnetizationSourceRevDiff, ccwMagnetizationSourceRevDiff, xAxisMagnetizationSourceRevDiff; src/physics/electromagnetics/current_source_functions.cpp: ringCurrentSourceRevDiff, box1CurrentSourceRevDiff, box2CurrentSourceRevDiff, team13CurrentSourceRevDiff. Stated in `SourceFieldProps.lean`.
  * `C165_reverse` — Away from the axis, the reverse pass of every radial or tangential magnetization and of the ring current is the transposed derivative; the axis-aligned and the box sources have exact reverse passes everywhere
  * `C165_radial` — The reverse pass cannot see a displacement along the radius: it is orthogonal to it
* **C166 Prescribed currents conserve charge and have the prescribed magnitude** — Models src/physics/electromagnetics/current_source_functions.cpp: x_axis_current, y_axis_current, z_axis_current, ring_current, box1_current, box2_current, team13_current. Stated in `SourceFieldProps.lean`.
  * `C166_divergence_free` — Every current source conserves charge: the divergence of the axis-aligned and the box sources vanishes everywhere, that of the ring current everywhere off the axis
  * `C166_unit` — All of them except the box sources have unit length wherever they are defined, so the magnitude of the current density is the value the user sets for the group; and the two z directions are opposite
  * `C166_ring_axis_false` — violation** The ring current is not a number on the axis
  * `C166_racetrack` — The current of the racetrack coil has unit length, conserves charge and has an exact reverse pass at every point off the edges between its straight parts and corners
* **C167 Stator windings: geometry, periodicity, charge conservation** — Models src/physics/electromagnetics/current_source_functions.cpp: cw_stator_current, ccw_stator_current, cwStatorCurrentSourceRevDiff, ccwStatorCurrentSourceRevDiff. Stated in `SourceStatorProps.lean`.
  * `C167_field` — The winding current in cylindrical coordinates
  * `C167_reversed` — The "cwStator" current is the "ccwStator" current reversed, at every point
  * `C167_smooth` — At every point inside a slot (away from its middle plane in the body, and from the two end planes), both winding currents have unit length, conserve charge and have exact reverse passes
  * `C167_periodic` — The windings repeat: turning the machine by any number of slots turns the current with it
  * `C167_continuous` — Across the two end planes of the body the current is continuous: approaching either from the end winding, inside one half of a slot, the current tends to the one in the body (so what flows along the slot continues in the end winding, with no charge created at the interface)
  * `C167_between_slots` — The component of the current across the plane between two slots is the same on both sides: at mirror points (the same distance from the plane) the tangential components agree, and the other two are opposite
  * `C167_middle_false` — violation** On the middle plane of every slot the body carries no current at all: the direction is the zero vector, not a unit vector
* **C168 The magnetization coefficient realises the `magnets` option** — Models src/physics/electromagnetics/magnetic_source_functions.cpp: MagnetizationCoefficient; src/common/coefficient.cpp: VectorMeshDependentStateCoefficient, ScalarVectorProductCoefficient; src/physics/electromagnetics/magnetic_load.cpp. Stated in `SourceAssemblyProps.lean`.
  * `C168_accept` — The options are accepted exactly when no attribute is given to two (known) magnets
  * `C168_value` — When they are accepted, on every element the magnetization is the one the options ask for: the remnant flux of the listed material at the local temperature, in the listed direction at the local point; it is zero on every other element
  * `C168_derivative` — Its derivative with respect to the temperature is exact on every element
  * `C168_misspelt_false` — violation** A misspelt direction is not reported: the magnet is silently left out, although its elements are still among those the load is integrated over
  * `C168_stateless_false` — violation** The load of the three-dimensional problem evaluates the magnetization without the temperature field, i.e
* **C169 Python dictionaries arrive in C++ unchanged** — Models miso/pyMISO/py_miso_utils.hpp: pyDictToMISOInputs, npBufferToMFEMVector, npBufferToDoubleArray; src/physics/miso_input.hpp. Stated in `PyLayerProps.lean`.
  * `C169_native` — A dictionary of native entries is accepted whatever its size; no memory changes; every entry arrives — numbers by value, arrays of another length than one as the user's own memory — and nothing else does
  * `C169_alias` — The view is live in both directions: what is written to the array later is what C++ reads, and conversely
  * `C169_rejected` — Arrays of the wrong dimension or layout and zero-dimensional objects end the call with an exception, wherever they stand in the dictionary
  * `C169_dangling_false` — is false for converted objects**: a list or an array of another type (of a length other than one) arrives as the address of memory that was released before the solver is called
  * `C169_one_dof_field_false` — is false for fields of one dof**: an array of length one arrives as a number, which the code reading a field rejects
  * `C169_numpy_scalar_false` — is false for numpy scalars**: they are rejected though the Python number of the same value is accepted
* **C170 Vectors passed for output receive the result** — Models miso/pyMISO/misoSolver.cpp; miso/pyMISO/py_miso_utils.hpp: npBufferToMFEMVector. Stated in `PyLayerProps.lean`.
  * `C170_result_arrives` — A live contiguous array of doubles receives the result; no other memory changes
  * `C170_rejected` — Objects that are neither one-dimensional arrays nor convertible to one are rejected, before anything is computed
  * `C170_lost_false` — is false for converted objects**: the call succeeds, and the user's object keeps its contents whatever was computed
* **C171 Products through the bindings are the solver's products** — Models miso/pyMISO/misoSolver.cpp: jacobianVectorProduct, vectorJacobianProduct; src/physics/miso_nonlinearform.cpp. Stated in `PyLayerProps.lean`.
  * `C171_state_partial` — With more than one dof the products with respect to the state are those of the form: they add `L w` and `Lᵀ r` for one and the same `L`, or throw together
  * `C171_one_dof_false` — is false for one dof**: the products with respect to the state add nothing, without an error, though the form's own products add `J w`
  * `C171_one_dof_witness_false` — … concretely `u ↦ 3u`: the derivative in direction 1 is 3, the product stays 0
  * `C171_scalar_forward_false` — is false for scalars**: with more than one dof, the forward derivative with respect to a registered scalar is silently zero; with respect to a field it throws
* **C172 A state component has no memory** — Models miso/miso_state.py: apply_nonlinear, solve_nonlinear, linearize, solve_linear; src/common/abstract_solver.cpp. Stated in `PyLayerProps.lean`.
  * `C172_residual` — `apply_nonlinear` returns the residual of the inputs and outputs it is given, whatever was called before
  * `C172_solve` — The state `solve_nonlinear` returns depends on the inputs and the initial guess only, not on earlier calls
  * `C172_inverted` — A solve that meets an inverted mesh is an exception and leaves the outputs as they were, after any history
* **C173 solve_linear returns the adjoint of the linearisation point** — Models miso/miso_state.py: linearize, solve_linear; src/common/abstract_solver.cpp: solveForAdjoint. Stated in `PyLayerProps.lean`.
  * `C173_adjoint_partial` — `linearize` on a solver that has not assembled a Jacobian, then a non-zero seed: `d_residuals` becomes the adjoint of the linearised problem, whatever it held before
  * `C173_zero_seed_false` — is false for a zero seed**: `d_residuals` keeps whatever it held, in every state of the component; the adjoint is 0
  * `C173_forward_false` — is false in forward mode**: an exception, or with `check_partials` `d_outputs` unchanged, whatever the linear system
  * `C173_cached_inputs_false` — is false if the component is evaluated between `linearize` and `solve_linear`**: the cached inputs are references to the buffers, so the adjoint solve, while it uses the Jacobian of the old design, puts the *new* inputs in force: the products that follow are those of the new design
* **C174 Forward and reverse apply_linear are adjoint** — Models miso/miso_state.py: apply_linear; src/physics/thermal/thermal_residual.cpp: jacobianVectorProduct. Stated in `PyLayerProps.lean`.
  * `C174_adjoint_partial` — If every product is implemented and adds, then — in spite of the shortcuts for zero seeds — the forward mode adds `y(d)` to `d_residuals`, the reverse mode adds `t` to the derivatives of state and inputs, and `⟨bar, y(d)⟩ = ⟨t, d⟩`: the two modes are adjoint, for any number of inputs of any sizes
  * `C174_thermal_load_false` — is false for the thermal solver**: the product with respect to the load overwrites the accumulator, so in forward mode the contribution of the state is lost, for every Jacobian and all directions
  * `C174_swallowed_false` — is false with `check_partials`**: an input whose product is not implemented ends the loop, and the contributions of the inputs after it are missing although theirs are implemented
* **C175 Functional derivatives do not depend on the number of ranks** — Models miso/miso_output.py: compute_jacvec_product; src/common/functional_output.cpp. Stated in `PyLayerProps.lean`, `PyLayerRevProps.lean`.
  * `C175_forward_partial` — The forward product of a functional whose inputs are distributed is the directional derivative, on every rank and for any number of ranks and inputs
  * `C175_forward_one_rank` — On one rank the same holds for all inputs, numbers included
  * `C175_scalar_false` — is false for numbers on several ranks**: the forward product is the number of ranks times the derivative
  * `C175_reverse_partial` — The reverse mode is the adjoint of the forward mode for distributed inputs: the increments on all ranks paired with a direction give the total seed times the directional derivative
  * `C175_vector_false` — is false for vector outputs on several ranks** (each rank has its own entries): every rank gets the sum over the ranks, which is right exactly where the other ranks' parts cancel
  * `C175_vector_witness_false` — … two ranks with different entries
  * `C175_scalar_reverse` — For a number, every rank adds the whole derivative times the sum of the seeds: with the same seed on every rank the increment on each rank is the number of ranks times what it should be
  * `C175_scalar_reverse_false` — is false for numbers in reverse mode on several ranks**: with the seed `b` on each of at least two ranks the increment is not the derivative times the seed
* **C176 A scenario is set up exactly when it makes sense** — Models miso/mphys/miso_builder.py; miso/miso_output.py: setup; miso/miso_state.py: setup; src/common/abstract_solver.cpp: createOutput. Stated in `PyLayerProps.lean`.
  * `C176_setup` — The outputs of a scenario are set up if and only if the *functionals* asked for are pairwise different and known to the solver; then each is registered once with its own options
  * `C176_alias_false` — is false for aliases**: one functional cannot be shown under two names, with different options, in one model
  * `C176_names` — The groups of a scenario agree: the names are defined for exactly the known solver types, and two solver types get the same name (of the state, of the volume coordinates, of the surface coordinates) if and only if they solve the same physics
  * `C176_names_only` — Every other type is refused
  * `C176_names_distinct` — Within one scenario the four names of a physics are different
  * `C176_field_shape` — An input that is a field of the solver gets that field's size, …
  * `C176_misspelt_false` — … **but is false for misspelt names**: a name the solver does not know becomes an input of one number without complaint, and no integrator receives it
* **C177 The time derivative of a stage solves M k + R(u + dt k) = 0** — Models src/common/ode.cpp: setInputs, evaluate, getJacobian, FirstOrderODE::solve; src/common/ode.hpp; src/common/miso_residual.hpp: Mult, GetGradient; src/common/linesearch.cpp: Phi. Stated in `UnsteadyProps.lean`.
  * `C177_equation` — `ImplicitSolve` and `Mult` run on the equation `M k + R(u + dt k) = 0` although the residual never looks at the vector it is called with: the state is not changed, and if the solver converges, that equation is solved to the tolerance
  * `C177_history` — What the slope vector held before the call does not matter (`iterative_mode` is off for all steppers but "steady")
  * `C177_explicit` — Explicit stage: `Mult(x, k)` returns the solution of `M k = -R(x)`, for every spatial residual
  * `C177_implicit` — Implicit stage of a problem with affine spatial residual: `ImplicitSolve(dt, x, k)` returns the solution of `M k + R(x + dt k) = 0`
  * `C177_relaxed_false` — With option "relaxednewton" no unsteady solve ever moves off its initial guess: the trial residuals do not depend on the trial point, so no step satisfies the decrease condition and the search returns 0. `ImplicitSolve` and `Mult` return `k = 0` (and report non-convergence unless `R(x)` itself meets the tolerance)
* **C178 Each time stepper advances the semi-discrete equations by its own formula** — Models src/common/ode.cpp: setTimestepper, FirstOrderODE; src/common/mfem_extensions.cpp: PseudoTransientSolver; src/common/relaxed_newton.cpp. Stated in `UnsteadyProps.lean`.
  * `C178_forward_euler` — Option "RK1": `M (x' - x) = -dt R(x)`
  * `C178_rk4` — Option "RK4": one step is the classical fourth-order method for `u' = -M⁻¹ R(u)`
  * `C178_midpoint_partial` — Option "MIDPOINT" on an affine problem: `M (x' - x) = -dt R((x + x')/2)`
  * `C178_ptc_partial` — Option "PTC" on an affine problem: backward Euler, `M (x' - x) = -dt R(x')`
  * `C178_relaxed_false` — Hence with "relaxednewton" every time stepper returns the initial condition after any number of steps, the time advancing as if it had been integrated
* **C179 The 'steady' time stepper returns a solution of the steady equations** — Models src/common/mfem_extensions.cpp: SteadyODESolver::Step; src/common/ode.cpp: setTimestepper, solve. Stated in `UnsteadyProps.lean`.
  * `C179_steady_equation_partial` — What the "steady" stepper solves: on an affine problem its new state `x'` satisfies `M x' + R(x + dt x') = 0`
  * `C179_steady_residual_partial` — With a converged solve of an arbitrary problem, to the tolerance
  * `C179_steady_false` — So the "steady" stepper does not deliver a steady state, and leaves one it is given: `u' = 1 - u` from its steady state `u = 1` with `dt = 1` moves to `0`, where the residual is `-1`
  * `C179_dispatch` — The option value selects the stepper; anything else, and the deprecated key, is an exception
* **C180 The evolver's implicit system and its gradient belong together** — Models src/common/evolver.cpp: SystemOperator::Mult, SystemOperator::GetGradient. Stated in `EvolverProps.lean`.
  * `C180_system` — With a linear mass form the system operator is `M k + R(x + dt k) + load` on the free dofs and zero on the essential ones
  * `C180_gradient_linear` — `GetGradient` is the derivative of the system operator on the free dofs, for a linear mass form …
  * `C180_gradient_nonlinear` — and for a nonlinear one, with any nonzero stage step
  * `C180_gradient_false` — Without a mass form the gradient is not the derivative: it lacks the factor `dt`
* **C181 The evolver's ImplicitSolve delivers the slope of the implicit stage** — Models src/common/evolver.cpp: MISOEvolver::ImplicitSolve, setOperParameters; src/common/evolver.hpp. Stated in `EvolverProps.lean`.
  * `C181_implicit_linear` — `ImplicitSolve` with a linear mass form
  * `C181_essential_kept` — With exact linear solves the slope vanishes on the essential dofs, so an implicit step (`x + dt k`) keeps the prescribed values, converged or not
  * `C181_crash` — Without a residual form the call dereferences a null pointer
  * `C181_nonlinear_mass_false` — With a nonlinear mass form the implicit stage is not backward Euler: the stage step is never passed, so the mass term is `N(x) - N(x - k)` whatever `dt`
  * `C181_nonlinear_mass_partial` — What is true with a nonlinear mass form: when `N` is affine, the stage step does not matter and the system is the backward Euler one
* **C182 The evolver's explicit operator returns -M^-1 (R(x) + K x + load)** — Models src/common/evolver.cpp: MISOEvolver::MISOEvolver, Mult, Entropy, EntropyChange. Stated in `EvolverProps.lean`.
  * `C182_constructor` — The constructor refuses exactly the combination of a linear and a nonlinear mass form
  * `C182_explicit_partial` — `Mult` with a residual form, without essential boundaries: `M y = -(R(x) + K x + load)`, whatever was computed before
  * `C182_essential_false` — Essential dofs are not kept by the explicit operator: with mass and stiffness and no load the slope at an essential dof is minus the state there (identity mass matrix), so the prescribed value decays
  * `C182_history_false` — Without a residual form the work vector is never cleared: after `q` calls at the same state it holds `junk + q (K x + load)`, so the result depends on the number of earlier calls (and on uninitialised memory)
  * `C182_stiffness_false` — The stiffness form plays no part in implicit stages
  * `C182_exceptions` — Explicit evaluation with a nonlinear mass form is an exception; the entropy functions are exceptions exactly when no entropy form was given, and the entropy change is the residual form's energy at `x + dt k`
* **C183 Mesh sensitivities of the projector's and the current load's forms are exact** — Models src/physics/mfem_common_integ.cpp: DiffusionIntegratorMeshSens, VectorFEWeakDivergenceIntegratorMeshSens, VectorFEMassIntegratorMeshSens; src/utils/irrotational_projector.cpp: IrrotationalProjector::IrrotationalProjector. Stated in `ProjIntegProps.lean`.
  * `C183_diffusion` — The diffusion sensitivity is the derivative of `ψᵀ D φ = ∫ ∇φ·∇ψ` under every motion of the nodes
  * `C183_weak_divergence` — The weak-divergence sensitivity is the derivative of `ψᵀ W x = -∫ x·∇ψ`
  * `C183_mass_partial` — The mass sensitivity, as the current load constructs it (`alpha = 1`), is the derivative of `ψᵀ M x = ∫ x·ψ`
  * `C183_mass_alpha_false` — violation** With any other factor than `1` the mass sensitivity is wrong: on a growing triangle `alpha ∫ x·ψ` of fields mapped by `J⁻ᵀ` does not change in two dimensions, but the sensitivity reports `2 alpha - 2` (the weight term lacks the factor)
  * `C183_rule_false` — violation** The projector sets its quadrature rule on the two forms but not on their sensitivities: the orders differ for every degree, on simplices and (in three dimensions, on meshes of degree at least two) on tensor-product elements, so the product with respect to the mesh coordinates is that of forms integrated by another rule
  * `C183_mass_same_rule` — The mass matrix and its sensitivity are integrated with the same rule
* **C184 Mesh sensitivities of the loads are exact** — Models src/physics/mfem_common_integ.cpp: VectorFEDomainLFIntegratorMeshSens, VectorFEDomainLFCurlIntegratorMeshSens, DomainLFIntegratorMeshRevSens; src/physics/mfem_common_integ.hpp: DomainLFIntegrator. Stated in `ProjIntegProps.lean`.
  * `C184_vector_load` — Vector load: the sensitivity is the derivative of `alpha ∫ F·ψ` under every motion of the nodes, including the dependence of the coefficient on position (`F.EvalRevDiff` being its adjoint)
  * `C184_curl_load` — Curl load (magnets in three dimensions): the sensitivity is the derivative of `alpha ∫ F·curl ψ`; `C t i` are the physical curls of the shape functions and `CalcPhysCurlShapeRevDiff` is the adjoint of their derivative
  * `C184_scalar_load` — Scalar load (currents in two dimensions): the sensitivity is the derivative of `alpha ∫ F ψ`, with position-dependent coefficient and basis (the latter constant for H1 elements: `S'` zero)
  * `C184_scalar_same_rule` — On simplices the scalar load and its sensitivity use the same rule
  * `C184_scalar_rule_false` — violation** ...but not on tensor-product elements (in any dimension)
* **C185 The projectors' product with respect to the mesh coordinates is the derivative of the projection** — Models src/utils/irrotational_projector.cpp: IrrotationalProjector::vectorJacobianProduct; src/utils/div_free_projector.cpp: DivergenceFreeProjector::vectorJacobianProduct. Stated in `ProjChainProps.lean`.
  * `C185_irrotational_mesh` — The product of `IrrotationalProjector` with respect to the mesh coordinates, times any motion `δ` of the mesh, is the derivative of `p̄·P(x)` under that motion, added to the caller's vector
  * `C185_divergence_free_mesh` — The same for the divergence-free projector
  * `C185_assembled_sensitivities` — On a mesh of any number of elements the two sensitivities the projector assembles are exact for its two forms (when both are integrated with the same points): the hypotheses `SensOf` of the other theorems hold
* **C186 The current load's product with respect to the mesh coordinates is the derivative of what addLoad contributes** — Models src/physics/electromagnetics/current_load.cpp: vectorJacobianProduct, CurrentLoad::assembleLoad, addLoad. Stated in `ProjChainProps.lean`.
  * `C186_current_load_mesh` — The product of `CurrentLoad` with respect to the mesh coordinates, times any motion `δ` of the mesh, is the derivative of `l̄·(tv - load)` - what `addLoad` leaves in the residual - with the load recomputed on the moved mesh (mass matrix, linear form, projection)
  * `C186_assembled_sensitivities` — The mass and linear-form sensitivities the current load assembles are exact on a mesh of any number of elements: its hypotheses hold
* **C187 The space of a field is the one its options ask for** — Models src/physics/finite_element_vector.cpp:FiniteElementVector; src/physics/finite_element_vector.hpp. Stated in `PdeSetupProps.lean`.
  * `C187_selected` — A field whose options name a basis type by one of its spellings, without Galerkin difference, gets exactly that kind of space, of the requested degree, the dimension of the mesh and the requested number of components
  * `C187_galerkin_difference` — With Galerkin difference switched on, every basis type except the continuous SBP one gives the discontinuous SBP space
  * `C187_unknown_false` — fails for other names: a basis type that is no known spelling is not rejected, the field is silently built on a continuous H1 space
  * `C187_incomplete` — Without a degree or a basis type no field is built
* **C188 A copied space equals the original** — Models src/physics/finite_element_vector.cpp:copyFEColl; src/common/sbp_fe.cpp:SBPCollection; src/common/sbp_fe.cpp:DSBPCollection. Stated in `PdeSetupProps.lean`.
  * `C188_copy` — A field built on the space of another field (the mesh coordinates, the thermal load) has the same kind of space, of the same degree and dimension and with the same number of components: the degree and dimension read back from the collection's name are the original ones, for every degree and every dimension with one digit
* **C189 Shared degrees of freedom of states and residuals** — Models src/physics/finite_element_state.hpp:distributeSharedDofs; src/physics/finite_element_state.hpp:setTrueVec; src/physics/finite_element_dual.hpp:distributeSharedDofs; src/physics/finite_element_dual.hpp:setTrueVec. Stated in `PdeSetupProps.lean`.
  * `C189_state_roundtrip` — Sending a true vector to a state field and reading it back gives the same vector
  * `C189_dual_roundtrip` — The same holds for dual (residual) vectors
  * `C189_copies_agree` — After a true vector has been sent to a state, all ranks hold the same value of a shared dof (up to its orientation)
  * `C189_work` — A local dual vector and its assembled true vector do the same work on every state: nothing contributed by any rank is lost and nothing counted twice
  * `C189_work_distributed` — Likewise for a true dual vector sent to the ranks, paired with any local state
  * `C189_local_dual_false` — fails in the other direction for duals: distributing the assembled vector does not restore the ranks' contributions
* **C190 Materials of a solver** — Models src/physics/pde_solver.cpp:PDESolver; src/common/material_library.cpp. Stated in `PdeSetupProps.lean`.
  * `C190_library` — A material property that no component sets is the library's
  * `C190_component` — A material property set inside a component is what the solver uses, provided no later component sets it for the same material
  * `C190_own_value_false` — fails for each component on its own: materials are kept per material name, so a component's value is lost when a later component gives another value for the same material
  * `C190_flow_false` — fails for solvers whose number of states depends on the mesh (the flow solvers): whatever their components say, their materials are the library's
* **C191 Fields of a solver** — Models src/physics/pde_solver.cpp:setUpExternalFields; src/physics/pde_solver.cpp:getFieldSize; src/common/abstract_solver.cpp:getFieldSize. Stated in `PdeSetupProps.lean`.
  * `C191_own_fields` — Every solver has its state, its Dirichlet values and its adjoint on the space of "space-dis" and the mesh coordinates on the mesh's own space, whatever external fields are declared
  * `C191_external` — A declared external field exists, with the space its own options ask for, unless its name is one of the solver's own or was already declared; and nothing else exists
  * `C191_no_others` — Nothing but the solver's own and the declared fields exists
  * `C191_reserved_false` — fails for the solver's own names: declaring an external field called, say, "adjoint" is accepted and its options are silently ignored
  * `C191_sizes` — The size of a field: the residual's size for state, residual and adjoint; for any other existing field the number of its true dofs; zero for names that do not exist
* **C192 Where the mesh comes from** — Models src/physics/pde_solver.cpp:constructMesh. Stated in `PdeSetupProps.lean`.
  * `C192_by_extension` — Without a mesh from the caller, a file named `stem.mesh` is read by MFEM, `stem.smb` and `stem.ugrid` by PUMI, whatever the stem; every other ending is refused
  * `C192_given_partial` — A mesh handed over by the caller is used, whatever file the options name, as long as that name contains a dot
  * `C192_given_false` — fails for names without a dot: the options' file name is checked even though it is not used
* **C193 Error of a state** — Models src/common/abstract_solver.cpp:calcStateError_; src/physics/pde_solver.cpp:calcStateError_. Stated in `PdeSetupProps.lean`.
  * `C193_value` — The error of a state against a vector, or against a function that fills one, is the Euclidean norm of the difference of the entries this rank holds; a vector of the wrong length is refused; an object of an unknown kind gives NaN. The result does not depend on earlier calls
  * `C193_zero_iff` — It vanishes exactly for the right state
  * `C193_over_ranks_partial` — holds per rank only: the root of the sum of the squares of the ranks' results is the norm of the whole difference
  * `C193_parallel_false` — fails in parallel: with two ranks off by 3 and by 4, each rank returns its own part, none the norm 5 of the whole difference (the L2 error of a field, in contrast, is the same on all ranks)
* **C194 Linear solver options are honoured** — Models src/common/mfem_extensions.cpp:constructLinearSolver. Stated in `SolverSetupProps.lean`.
  * `C194_configured` — A supported solver type gives a solver of that method with the relative tolerance and iteration limit of the options and the given preconditioner attached; it fails only when a Hypre solver is combined with a preconditioner that is not from Hypre
  * `C194_rest` — The absolute tolerance is honoured by every solver except "hyprefgmres"; the restart length by the GMRES variants; the print level by all but "fgmres", where it only switches printing on
  * `C194_unsupported` — Every other type is refused
  * `C194_abstol_false` — fails for the default solver: "hyprefgmres" ignores the absolute tolerance, whatever the options say
* **C195 Preconditioner options are honoured** — Models src/physics/electromagnetics/magnetostatic_residual.cpp:constructPreconditioner; src/physics/thermal/thermal_residual.hpp:constructPreconditioner; src/physics/fluidflow/flow_residual.cpp:constructPreconditioner; src/utils/mesh_warper/mesh_warper.cpp:constructPreconditioner. Stated in `SolverSetupProps.lean`.
  * `C195_flow` — The flow residual builds the preconditioner the options name, with the options' parameters, and refuses every other name
  * `C195_multigrid_partial` — For magnetostatics and heat conduction only the multigrid names work
  * `C195_no_preconditioner_false` — fails for "hypreilu" (the default) and for unknown names: magnetostatics and heat conduction silently solve without a preconditioner
  * `C195_warper_false` — fails for the mesh warper: it ignores the requested type
  * `C195_adjoint_false` — fails for adjoint solves: "adj-prec" has no influence, the adjoint solver uses the preconditioner of the forward solve
* **C196 Nonlinear and adjoint solver options are honoured** — Models src/common/mfem_extensions.cpp:constructNonlinearSolver; src/common/abstract_solver.cpp:solveForAdjoint; src/physics/electromagnetics/magnetostatic.cpp. Stated in `SolverSetupProps.lean`.
  * `C196_configured` — The nonlinear solver has the kind, tolerances and iteration limit of the options and works with the given linear solver; unknown kinds are refused
  * `C196_none_false` — fails for "none", which is documented to skip the nonlinear solver: the null pointer is used while the solver is being built
  * `C196_abort_false` — fails for "abort": the option has no effect
  * `C196_adjoint_once` — The adjoint solver is built once, from the options of the first adjoint solve; every later adjoint solve uses the same one
* **C197 Two-dimensional viscous manufactured solution** — Models src/physics/fluidflow/navier_stokes_fluxes.hpp:viscousMMSExact; src/physics/fluidflow/navier_stokes_fluxes.hpp:calcViscousMMS; src/physics/fluidflow/navier_stokes_integ.hpp:NavierStokesMMSIntegrator. Stated in `MmsMoreProps.lean`, `MmsProps.lean`.
  * `C197_viscosity_must_match` — The source built with one viscosity is not the divergence of the flux with another one: with `viscous-mms` the option `mu` has to be 1
  * `C197_exact_admissible` — The flow the two-dimensional viscous manufactured solution describes is physical everywhere
  * `C197_source_is_divergence` — At every point, the two-dimensional viscous source is the divergence of the flow flux (Euler flux minus viscous flux) of the two-dimensional exact solution, for every viscosity and Prandtl number
  * `C197_integrator_consistent` — With the viscosity option at 1 the integrators see one and the same viscosity: the source of the integrator is the divergence of the flux with the viscosity the viscous integrator uses
* **C198 Three-dimensional viscous manufactured solution** — Models src/physics/fluidflow/navier_stokes_fluxes.hpp:viscousMMSExact; src/physics/fluidflow/navier_stokes_fluxes.hpp:calcViscousMMS. Stated in `MmsMoreProps.lean`.
  * `C198_exact_reads_past_end_false` — The exact solution reads a fourth coordinate: at one and the same point it takes different values, depending on what stands in memory behind the point
  * `C198_mass_momentum_partial` — With the third coordinate in the place the code reads, the mass and momentum sources are the divergence of the flow flux, at every point and for every viscosity, whatever stands behind the array the source is called with
  * `C198_energy_false` — The energy source is not the divergence of the energy flux, whatever the viscosity and Prandtl number (the velocity component in the third direction was replaced by the third coordinate when the expression was generated)
* **C199 Inviscid manufactured solution** — Models src/physics/fluidflow/euler_fluxes.hpp:InviscidMMSExact; src/physics/fluidflow/euler_fluxes.hpp:calcInviscidMMS. Stated in `MmsMoreProps.lean`.
  * `C199_inviscid3_partial` — At every point, the three-dimensional inviscid source is the divergence of the Euler flux of the solution with squared sines
  * `C199_inviscid3_false` — The three-dimensional inviscid source is not the divergence of the Euler flux of the exact solution in the code, which has the square inside the sine
  * `C199_inviscid2_false` — In two dimensions the inviscid source is zero and the exact solution is the vacuum: there is no manufactured solution
* **C200 Source integrator** — Models src/physics/fluidflow/mms_integ_def.hpp:AssembleElementVector; src/physics/fluidflow/mms_integ_def.hpp:AssembleElementGrad; src/physics/fluidflow/flow_residual.cpp. Stated in `MmsMoreProps.lean`.
  * `C200_vector` — The integrator adds the source at the nodes, times minus the quadrature weight, to the residual, whatever the state
  * `C200_quadrature` — Tested with a field, the contribution is minus the quadrature of the field times the source; with the field 1 in one equation, minus the quadrature of that source component
  * `C200_jacobian` — The assembled element matrix is the derivative of the element vector with respect to every entry of the state
* **C201 Materials described by functions of two or three states** — Models src/common/coefficient.hpp:MeshDependentTwoStateCoefficient; src/common/coefficient.cpp:MeshDependentThreeStateCoefficient; src/physics/electromagnetics/pm_demag_constraint_coeff.cpp; src/physics/electromagnetics/cal2_kh_coefficient.cpp. Stated in `MultiStateProps.lean`.
  * `C201_duplicates` — Registering succeeds exactly when no attribute is registered twice
  * `C201_value` — On every element the coefficient is that of the material registered for the element's attribute, or the default; without either it is zero
  * `C201_no_states` — `Eval` without states is `Eval` at zero states, provided this holds for the materials
  * `C201_two_derivatives` — Every derivative method of the mesh dependent two-state coefficient is the derivative it names of the coefficient's value, wherever this is true of the material of the element
  * `C201_three_derivatives` — The same for three states and the twelve derivative methods
  * `C201_wrappers` — The wrapping classes (demagnetization constraint, CAL2 coefficients) behave as the mesh dependent coefficient they own
  * `C201_reverse` — Reverse mode: only the material of the element contributes to the node derivatives, and without a material they are left alone
  * `C201_demag` — For the demagnetization constraint of a machine with magnets of any materials, all derivatives are exact on every element where the constraint is defined
* **C202 Heat source over a session** — Models src/physics/electromagnetics/electromag_outputs.cpp:EMHeatSourceOutput; src/physics/electromagnetics/electromag_outputs.cpp:DCLossDistribution; src/physics/electromagnetics/electromag_outputs.cpp:ACLossDistribution; src/common/abstract_solver.cpp:outputVectorJacobianProduct. Stated in `HeatSessionProps.lean`.
  * `C202_value` — After any history of calls, the heat source computed with the mesh `u` among the inputs is the heat source of the mesh `u`; nothing of the history is left in it
  * `C202_value_override` — A winding volume among the inputs replaces the computed ones in both parts
  * `C202_mesh_partial` — partial)** If the last `calcOutput` was made on the mesh `u` and no call since then has moved the mesh or set the winding volume, the reverse mesh derivative adds the gradient of the heat source to the vector, for every seed and in every direction, after any history
  * `C202_volume` — The derivative with respect to the winding volume itself: with the volume `v ≠ 0` among the inputs, the scalar reverse call adds the derivative of the seeded output by `v`, after any history
  * `C202_stale_false` — false in general)** The reverse mesh derivative on a mesh given only to the derivative call is wrong: the heat source is evaluated on the mesh `1`, then its derivative is asked for on the mesh `2`, with the mesh among the inputs of the call
  * `C202_override_false` — false in general)** With the winding volume given by the user the output does not move with the mesh, but the reverse mesh derivative still contains the part through the volume
  * `C202_forward_false` — false in general)** The forward mesh derivative of the heat source adds nothing, on any mesh and in any direction, without an error, though the output moves: forward and reverse modes disagree
* **C203 Outputs of one solver do not disturb each other** — Models src/physics/electromagnetics/magnetostatic.cpp:addOutput; src/physics/thermal/thermal.cpp:addOutput; src/physics/electromagnetics/electromag_outputs.hpp:ForceFunctional; src/physics/electromagnetics/electromag_outputs.hpp:TorqueFunctional; src/common/abstract_solver.cpp:createOutput; src/common/abstract_solver.cpp:setOutputOptions. Stated in `EMOutputProps.lean`.
  * `C203_names` — A name denotes the output whose documented prefix it starts with, whatever follows it and in whatever order the prefixes are tried: no prefix is a prefix of another
  * `C203_thermal_names` — The same for the thermal solver
  * `C203_refused` — An unsupported name is refused and nothing changes; so is a name that exists
  * `C203_fresh` — Directly after it has been created, every output has the value its own options describe; the losses in the windings are taken over the attributes listed under `current`, whatever `attributes` says
  * `C203_independent_partial` — partial** Creating outputs and setting their options, successfully or not, does not change the value of an output of another name, unless both are forces or both are torques
  * `C203_session_partial` — partial** Over a whole session: an output keeps the value its own options describe until its options are set anew, or another force (torque) is created or set
  * `C203_second_torque_false` — violation** A second torque output silently changes the value of the first: both read the one field that the construction of the second has projected anew
  * `C203_suffix_false` — violation** A torque or force whose name has a suffix cannot be created before the one without: whatever its options, the call throws, no output results, and an unused field stays behind
  * `C203_new_options_false` — violation** Setting new options on a force does not give the value of a force with those options: the integrator keeps the attributes of the construction
  * `C203_new_options_partial` — partial** Setting new options with the attributes it was created with gives the value of an output with the new options
  * `C203_thermal` — The thermal solver: an output of a supported name is registered with its options, provided the field whose maximum or average it takes is known; everything else is left alone
* **C204 The thermal residual is the heat equation the options describe** — Models src/physics/thermal/thermal_residual.cpp:ThermalResidual; src/physics/miso_nonlinearform.hpp:addInternalBoundaryFaceIntegrator; src/physics/thermal/thermal_integ.cpp. Stated in `ThermalAssemblyProps.lean`.
  * `C204_weak_form` — The residual built from any options, tested with any field, is the sum of: conduction in the elements; on every interior face perfect contact (counted once for a discontinuous basis and once less for every interface naming the face) and the exchange laws of the interfaces naming it; on every boundary face the convection, the outflux and the imposed temperature of the options that name it
  * `C204_interfaces_partial` — partial)** Discontinuous basis, every face named by at most one interface: on a face named by none the elements are in perfect contact; on a face named by one, its law replaces the perfect contact
  * `C204_balance` — Heat balance
  * `C204_continuous_contact_false` — false in general)** With a continuous basis a contact resistance has no effect: the options are accepted, and the residual is the same, for every temperature field, as without any contact resistances
  * `C204_refused` — Which options are refused: a weak condition that is not an array of attributes, or, for a discontinuous basis, an essential one
  * `C204_penalty` — The penalty is the one of the options if that is not negative, and otherwise `(p + 1)²` for degree `p`; it is positive whenever the default is used with a degree that is not `-1`
  * `C204_unknown_false` — false in general)** Entries the constructor does not understand are dropped without an error: an interface of another kind, and a convection or outflux condition that is neither an array nor an object (such as `"all"`)
  * `C204_overlap_false` — false in general)** If two interfaces name the same face, the perfect contact is subtracted twice: heat then flows from cold to hot
* **C205 Thermal inputs act as options and heat flows from hot to cold** — Models src/physics/thermal/thermal_integ.cpp:setInputs; src/physics/thermal/thermal_integ.hpp:setInputs; src/physics/thermal/thermal_residual.cpp:ThermalResidual. Stated in `ThermalAssemblyProps.lean`.
  * `C205_inputs_are_options` — Inputs act as options: giving values as inputs to the residual built from any options leaves the same integrators as building it from options that contain these values
  * `C205_names` — Interfaces do not hear each other: two sets of inputs that differ only in the value for the interface `a` give every interface of another name the same values
  * `C205_shared_name_false` — false in general)** The names of the two kinds of interfaces are one name space: a value meant for the contact resistance `gap` also changes the fluid channel `gap`
  * `C205_monotone` — Heat flows from hot to cold
* **C206 The continuous SBP space is continuous: shared degrees of freedom sit at one physical point** — Models src/common/sbp_fe.cpp: SBPCollection::SBPCollection, SBPCollection::DofOrderForOrientation, DSBPCollection::DSBPCollection, SBPTriangleElement, SBPTetrahedronElement; src/common/sbp_fe.hpp: SBPCollection, DSBPCollection. Stated in `SbpCollectionProps.lean`.
  * `C206_constructible` — An aborting constructor is exactly one with unsupported arguments
  * `C206_single_valued` — Continuous SBP space of any supported degree on any triangulation with straight edges: whenever node `l` of triangle `e` and node `l'` of triangle `e'` are the same degree of freedom, they are at the same physical point, up to `10^-15` of the extent of the two triangles (the digits printed in the tables); vertex nodes coincide exactly
  * `C206_conforming` — Two triangles that share an edge share every degree of freedom on it: each node of the first triangle on the edge is a node of the second one on that edge
  * `C206_element` — Within one triangle different nodes are different degrees of freedom, every degree of freedom is in range, and the element has as many nodes as its operators have rows
  * `C206_discontinuous` — Discontinuous space: the element has the same nodes, but triangles never share a degree of freedom, and each triangle has a block of its own
  * `C206_nodes` — Different nodes of an element are at different places: their reference coordinates differ by at least `0.05`; all nodes lie in the reference triangle, the interior ones off its boundary
  * `C206_tet_owner` — Tetrahedra, both supported degrees: every node is at the average of the vertices of the entity that owns it (vertex, edge or face), up to `10^-15` of the extent of the element
  * `C206_tet_single_valued` — Hence two tetrahedra that share a vertex, an edge or a face -- with any relative orientation or rotation -- have the node owned by it at the same place
  * `C206_tet_sizes` — Sizes in three dimensions: the tetrahedron has as many nodes as its operators have rows, no node is strictly interior, its faces are the triangles of the two-dimensional collection, and the orientation of an edge or a face does not matter (one dof at most on each)
* **C207 Boundary segments see the degrees of freedom where the adjacent triangle puts them** — Models src/common/sbp_fe.cpp: SBPSegmentElement::SBPSegmentElement, SBPCollection::SBPCollection; src/common/sbp_fe.hpp: SBPCollection::FiniteElementForGeometry. Stated in `SbpCollectionProps.lean`.
  * `C207_boundary_partial` — the documented claim, sbp_fe.cpp:340-341: the segment element has an "ordering consistent with SBPTriangleElement's edges")
  * `C207_boundary_false` — fails for degrees 3 and 4. Whatever the (increasing) Lobatto points are, there is a boundary segment of the reference triangle with a node whose degree of freedom sits somewhere else -- more than a tenth of the edge away -- in the triangle
* **C208 Magnetisation curves of the shipped steels, and of monotone user data, are admissible** — Models src/common/material_library.cpp; src/physics/electromagnetics/reluctivity_coefficient.cpp: logNuNuCoefficient, BHNuCoefficient, constructNuCoefficient. Stated in `BSplineProps.lean`.
  * `C208_hiperco50_lognu` — The `lognu` coefficient of the shipped steel (`hiperco50`) can be built; its reluctivity is positive, the field strength `ν(B) B` does not decrease with `B ≥ 0` on the whole half line, the returned derivative is the derivative everywhere but at the last knot `3.5`, and the differential reluctivity `ν + B ν'` is positive
  * `C208_lognu_continuous_false` — violation)
  * `C208_hiperco50_bh` — The `bh` coefficient of the shipped steel can be built although two of its control points decrease; its reluctivity is positive, the field strength does not decrease with `B ≥ 0` on the whole half line (strictly increasing below the last knot, `2.5`), it is continuous at the last knot, the derivative spline is its derivative, and the differential reluctivity is positive above `1e-14`
  * `C208_residual_monotone` — Hence the magnetostatic residual of an element of the shipped steel (either model) is a monotone operator, and zero only without flux: `(A - A')·(R(A) - R(A')) ≥ 0` for all potentials, and `A·R(A) = 0` exactly if the flux density vanishes at all quadrature points
  * `C208_team13_false` — violation)
  * `C208_monotone_data` — any spline data tinyspline accepts (degree at least 1, simple inner knots): if the control points do not decrease, the curve does not decrease between the first and the last proper knot
  * `C208_end_points` — With clamped knots the curve starts at the first control point and ends at the last
  * `C208_bh_user_partial` — user data for the `bh` model: non-decreasing control points on clamped knots with simple inner knots, starting at `B = 0`, give a field strength that does not decrease with the flux density above `1e-14`
* **C209 The Newton matrix of every Euler term is exact off its switches** — Models src/physics/fluidflow/euler_integ_def.hpp: calcFluxJacStates, convertVarsJacState, applyScalingJacState, applyScalingJacV, calcFluxJacState; src/physics/fluidflow/inviscid_integ_def.hpp: AssembleElementGrad, AssembleFaceGrad. Stated in `AdJacobianProps.lean`.
  * `C209_volume` — volume term
  * `C209_stabilisation` — stabilisation (as the flow residual adds it, with LPS coefficient 1)
  * `C209_mass` — mass term: the matrix is the Jacobian of the conservative variables' mass, everywhere
  * `C209_boundary` — boundary terms
  * `C209_interface` — interior faces (the flow residual uses `alpha = 1`): the face matrix is the Jacobian of the face residual at every pair of physical traces off the switch of the logarithmic mean and whose mean velocity is not exactly tangential to the face
  * `C209_pressure_force` — surface force: the reverse-mode gradient is the gradient of the pressure force
  * `C209_stagnation_false` — At a stagnation point the stabilisation's scaling kernel has no Jacobian at all, so no matrix, whatever Adept returns, is its Jacobian: the hypothesis `NotStagnant` of `C209_stabilisation` cannot be dropped
* **C210 Exact Jacobians of the viscous terms** — Models src/physics/fluidflow/navier_stokes_integ_def.hpp:ESViscousIntegrator::applyScalingJacState; src/physics/fluidflow/navier_stokes_integ_def.hpp:ESViscousIntegrator::applyScalingJacDw; src/physics/fluidflow/navier_stokes_integ_def.hpp:NoSlipAdiabaticWallBC::calcFluxJacDw; src/physics/fluidflow/navier_stokes_integ_def.hpp:SurfaceForce::calcBndryFunJacDw; src/physics/fluidflow/euler_fluxes.hpp:convertVarsJac. Stated in `AdViscousProps.lean`.
  * `C210_volume` — volume term
  * `C210_boundary` — boundary terms
  * `C210_surface_force` — surface force
  * `C210_momentum_entry` — The recorded Jacobian is not trivial: in one dimension, at rest with unit density, pressure and viscosity, the viscous momentum flux is `4/3` of the gradient of the momentum entropy variable
* **C211 Text logs of the flow solvers over histories of solves** — Models src/physics/fluidflow/flow_solver.cpp: derivedPDEInitialHook, derivedPDEIterationHook, derivedPDETerminalHook; src/physics/fluidflow/flow_control_solver.cpp: initialHook, iterationHook, terminalHook; src/common/abstract_solver.cpp: AbstractSolver2::solveForState. Stated in `TextLogsProps.lean`.
  * `C211_entropy_log_run` — A call on a closed stream: the file holds exactly what that call wrote, whatever was there before, and the stream is closed iff the call ended normally
  * `C211_entropy_log_history` — After any history of completed solves, one more (completed or cut short) leaves exactly its own rows
  * `C211_entropy_log_after_abort_false` — FALSE without "completed": after an aborted solve, the next one removes the file and cannot reopen the stream, so there is no log at all; the one after works again
  * `C211_control_first_partial` — The first solve of a flow-control solver logs correctly, also when it is cut short
  * `C211_control_later_false` — FALSE for every later solve: it wipes the log of the earlier one and leaves an empty file
  * `C211_control_steady` — A steady problem is refused before any file is touched
  * `C211_rows` — The log of a complete solve: one row per visited state in order, starting at the initial time and state, ending at the state the solve returns, consecutive states one step of the method apart
  * `C211_times` — Times in the log strictly increase when the method strictly advances time
  * `C211_crash` — A solve cut short before the hook of iteration `k`, after any completed solves: the file is the first `k` rows of the log the complete solve would have written
  * `C211_control_value` — Only the output called "entropy" depends on the control state
  * `C211_control_files` — Different outputs of a run write different files
* **C212 Integrals of the flux-density magnitude and their gradients** — Models src/physics/electromagnetics/electromag_integ.cpp: BNormIntegrator, BNormSquaredIntegrator, BNormdJdx, nuBNormIntegrator, nuBNormdJdx, nuFuncIntegrator, ThermalSensIntegrator. Stated in `FluxNormProps.lean`.
  * `C212_flux_is_curl` — In three dimensions this is the physical curl of the potential
  * `C212_norm_value`
  * `C212_square_value`
  * `C212_nu_norm_value` — What `nuBNormIntegrator` computes: the reluctivity is taken at `|B|` times the Jacobian determinant, and the volume factor is missing
  * `C212_nu_norm_value_partial` — On an element of unit Jacobian it is the integral of `ν(|B|) |B|`
  * `C212_nu_value_partial` — What `nuFuncIntegrator` computes: the point weights are divided by the Jacobian determinant
  * `C212_nu_values_false` — FALSE in general for both: already for constant reluctivity on an element of determinant two
  * `C212_norm_nonneg` — Both values are non-negative for positive weights, and scale with the field as they should
  * `C212_norm_le` — Cauchy–Schwarz between the two: the squared integral of `|B|` is at most the volume times that of `|B|²`
  * `C212_norm_state_partial` — State gradient of `∫|B|`: exact in every direction as soon as no quadrature point has zero flux
  * `C212_nu_norm_state_partial` — State gradient of `nuBNormIntegrator`: exact for what that integrator computes
  * `C212_state_false` — FALSE at a point of zero flux: neither gradient is finite there, for instance at the zero initial state
  * `C212_norm_mesh_partial` — Mesh sensitivity of `∫|B|`
  * `C212_nu_norm_mesh_partial` — Mesh sensitivity of `nuBNormIntegrator`, for what that integrator computes
  * `C212_nu_mesh_partial` — Mesh sensitivity of `nuFuncIntegrator`, for what that integrator computes
  * `C212_thermal_sens` — `ThermalSensIntegrator`: with `V` the derivative of the source density with respect to the potential, the vector is the gradient of the adjoint-weighted heat load
* **C213 Steinmetz core loss and its heat distribution** — Models src/physics/electromagnetics/electromag_integ.cpp: SteinmetzLossIntegrator, SteinmetzLossIntegratorFreqSens, SteinmetzLossIntegratorMaxFluxSens, SteinmetzLossIntegratorMeshSens, SteinmetzLossDistributionIntegrator, setInputs. Stated in `SteinmetzProps.lean`.
  * `C213_value` — The loss is the quadrature of Steinmetz's formula at the current frequency and peak flux
  * `C213_nonneg` — It is positive for positive data and non-negative data give a non-negative loss
  * `C213_monotone` — For non-negative exponents it grows with frequency and with peak flux
  * `C213_frequency` — The frequency sensitivity is the derivative of the loss
  * `C213_flux` — The peak-flux sensitivity is the derivative of the loss
  * `C213_mesh` — The mesh sensitivity is the derivative of the loss along every motion of the mesh nodes, also when all four coefficients vary in space
  * `C213_distribution` — The heat load tested with any function is the quadrature of loss density times that function
  * `C213_total` — With shape functions that sum to one and the same rule, the heat load adds up to the loss
  * `C213_rules` — The default rules differ on simplices, agree on tensor-product elements
  * `C213_stack_length` — The stack length is accepted as input and has no effect on the heat load
  * `C213_power_law` — Scaling the frequency scales loss and heat load of a uniform material by the power law
  * `C213_inputs` — A given input is used, a missing one leaves the current value; a named integrator reads its own key only
  * `C213_inputs_agree` — The distribution reads the same frequency and peak flux as the loss, so one set of inputs keeps them consistent
  * `C213_stack_length_input` — The distribution also remembers the stack length: a given value replaces it, no value leaves it, and nothing else is touched
  * `C213_keys` — Integrators with different names never share a peak flux
* **C214 Coupling of flow and boundary controller** — Models src/physics/fluidflow/flow_control_residual.cpp: FlowControlResidual::setInputs_, evaluate_, calcEntropy_, calcEntropyChange_, calcSupplyRate_, getJacobianBlock_; src/physics/fluidflow/euler_integ.hpp: ControlBC, BoundaryEntropy setInputs. Stated in `FlowControlProps.lean`.
  * `C214_evaluate` — A successful evaluation: there is a boundary entropy `e`, measured at the actuator position in force on the flow part of the given state; the flow residual is evaluated with the control-law velocity for `e` and the given control state, *at the same position*; and afterwards the control boundary holds exactly that velocity and position
  * `C214_evaluate_control` — and its controller part is the closed-loop law for the same boundary entropy and the given control state
  * `C214_entropy` — The coupled entropy is the flow entropy of the flow part plus the controller's energy of the control part (with the matrix in force; outside the test mode)
  * `C214_entropy_change` — The entropy change: flow part with the control-law velocity for the given control state and the boundary entropy of the given flow state, at time `t + dt`, plus the controller's `−ẋᵀPx`; all gains and the position are the ones in force
  * `C214_change_matches_evaluate` — Residual and entropy change agree on the coupling: the entropy change requested right after an evaluation at the same state is the flow's at exactly the control value and position the evaluation used
  * `C214_false_change_ignores_parameters` — Gains, boundary entropy, actuator position and control value handed to the entropy change are ignored: only the state, its rate, time and `dt` count
  * `C214_supply_rate` — The supply rate depends on the flow part of the state only
  * `C214_jacobian_block` — Blocks of the Jacobian: 0 is the controller's, 1 the flow's at the control value and position the *inputs or the last call* left, anything else is refused
  * `C214_initial_jacobian` — Until a control value or an actuator position is supplied, the flow block of the Jacobian of a newly built coupled residual is taken at control zero and at the default position `(0.5, 0)`; supplied values replace them
  * `C214_false_default_actuator` — If the caller never supplies an actuator position, every evaluation and entropy change of a newly built coupled residual reads past the end of an empty vector: the default position `(0.5, 0)` of its integrators is overwritten by the residual's own empty one
  * `C214_actuator_kept_partial` — Once supplied, an actuator position stays in force for all later evaluations that do not supply another
* **C215 Set-up of the flow-control solver** — Models src/physics/fluidflow/flow_control_solver.cpp: FlowControlSolver constructor, constructMesh, setState_, initialHook, addOutput; src/physics/fluidflow/flow_control_residual.cpp: FlowControlResidual constructor, constructOutput. Stated in `FlowControlProps.lean`.
  * `C215_construct_iff` — The construction succeeds exactly when a mesh is available, its dimension matches, the state variables match, entropy variables are only asked for in steady problems, and the control boundary is given and coincides with that of the boundary-entropy output
  * `C215_false_entropy_variables` — A flow-control solver in entropy variables can be constructed but never run: the constructor requires a steady problem, the start of every solve refuses steady problems
  * `C215_conservative_start_partial` — In conservative variables every unsteady configuration that can be constructed can be started, and only those
  * `C215_mesh` — Where the mesh comes from: a mesh handed in is used, otherwise a `.mesh` file is read; a name without a dot is refused even if a mesh is handed in; any other extension without a mesh handed in ends in a null dereference instead of an exception
  * `C215_outputs` — The outputs of the coupled solver: four are outputs of the flow part, `entropy` is that of the compound state, every other name is refused (in particular those the flow solver offers beyond these)
  * `C215_set_state` — Setting the state from a pair of functions: the flow unknowns are the flow function's on every rank, the control unknowns the control function's on rank 0 and untouched elsewhere; neither overwrites the other and no entry is lost
* **C216 Mesh sensitivities of the flow residual** — Models src/physics/fluidflow/mesh_sens_integ_def.hpp: DyadicMeshSensIntegrator, BoundaryMeshSensIntegrator; src/physics/fluidflow/euler_sens_integ_def.hpp: IsmailRoeMeshSensIntegrator, SlipWallBCMeshSens; src/common/sbp_fe.cpp: getSkewEntryRevDiff. Stated in `MeshSensProps.lean`.
  * `C216_volume_any_flux` — The mesh sensitivity of the two-point volume term, for every flux, operator, state and motion
  * `C216_volume` — `IsmailRoeMeshSensIntegrator` returns the derivative of the tested Ismail-Roe residual
  * `C216_slip_wall_flux_bar` — `calcFluxBar` is the transpose of the (linear) dependence of the slip-wall flux on the normal
  * `C216_slip_wall` — `SlipWallBCMeshSens` returns the derivative of the tested slip-wall boundary residual, for every state (no admissibility is needed) and every motion of the mesh
* **C217 Quarter-annulus mesh** — Models src/utils/utils.cpp: buildQuarterAnnulusMesh; src/utils/utils.hpp: buildQuarterAnnulusMesh. Stated in `QuarterAnnulusProps.lean`.
  * `C217_domain` — Every node of the mesh, of any degree, lies in the closed quarter annulus with radii 1 and 3: the documented domain
  * `C217_boundary_vertices` — The perturbation leaves the boundary where it is: boundary vertices lie exactly on the two arcs and the two coordinate axes, whatever the draws
  * `C217_boundary_nodes` — The nodes of the inner-arc edges lie exactly on the inner arc, of any degree; likewise on the outer arc
  * `C217_orientation` — With a perturbation below a quarter of a cell no triangle of the parameter mesh is inverted, whatever the draws
  * `C217_orientation_sharp` — A quarter is sharp: for every larger `pert` some draws invert a triangle of the 3 by 3 mesh
  * `C217_elements_positive` — No element of the unperturbed straight-sided mesh is inverted or degenerate
  * `C217_area` — The area of the straight-sided mesh is that of the inscribed polygonal annulus: it does not depend on the number of radial cells, never exceeds the exact area `2π`, and converges to it quadratically
* **C218 Patch reconstruction operators are exact on polynomials and optimal** — Models src/utils/utils.cpp: buildInterpolation (436-534), buildLSInterpolation (537-735). Stated in `ReconstructProps.lean`.
  * `C218_rows` — The running index of the code visits exactly the rows it allocated: no entry of the work matrices is written out of range and none is left zero
  * `C218_minimum_norm` — `buildInterpolation` in one and two dimensions: at every quadrature point the weights reproduce every polynomial up to the degree, and among all weights that do, they have the least norm
  * `C218_dimensions` — `buildInterpolation` serves one and two dimensions and raises for all others
  * `C218_least_squares` — `buildLSInterpolation` in one, two and three dimensions: for any data on the centres the result at every quadrature point is the value of one polynomial of the degree, the least-squares fit of the data
  * `C218_least_squares_exact` — In particular the least-squares reconstruction reproduces every polynomial up to the degree
  * `C218_partition_of_unity` — Either operator preserves constants: its rows sum to one
  * `C218_enough_centres` — The LAPACK call of either function is legal exactly when there are at least as many centres as basis functions; otherwise it solves nothing (and the error flag is only looked at in debug builds)
  * `C218_unisolvent_enough` — Unisolvent centres are always enough
* **C219 The shipped material data are admissible over their operating range** — Models src/common/material_library.cpp: 109-138, 200-210, 243-494; cal2_kh_coefficient.cpp; cal2_ke_coefficient.cpp; pm_demag_constraint_coeff.cpp: Eval; conductivity_coefficient.cpp; electromag_integ.cpp: CAL2CoreLossIntegrator. Stated in `LibDataProps.lean`.
  * `C219_hysteresis` — The hysteresis coefficient of Hiperco 50 is finite and positive for every flux density up to 2.5 T between the reference temperatures
  * `C219_eddy_partial` — Its eddy-current coefficient is finite and positive only from 0.054 T on
  * `C219_eddy_false` — Below that the property fails: at 20 °C the coefficient is negative for all flux densities up to 0.05 T (a negative loss), and between 0.05 T and 0.054 T there is a flux density at which, at every temperature, it is not a number
  * `C219_loss_partial` — The loss density of Hiperco 50 is positive wherever it is a number, for flux densities up to 2.5 T, temperatures between the references and frequencies up to 16 kHz
  * `C219_loss_false` — Beyond, it is not: at 20 kHz, 20 °C and 1 mT the density is negative
  * `C219_name_only` — A component that only names the material does not get these data: both coefficients are the constant 1
  * `C219_magnet_partial` — From 53 °C to 188 °C the shipped magnet's constraint has its documented sign: positive exactly above the knee, negative exactly below
  * `C219_magnet_false` — From -11 °C to 51 °C it has the opposite sign: negative above the knee, where the magnet is safe, and positive below it
  * `C219_magnet_singular` — Below the magnet's maximum temperature there is a temperature at which the constraint divides by zero (knee and remnant flux coincide), and another one near -11 °C (the knee flux vanishes)
  * `C219_wires` — With the linear model every shipped wire has a positive conductivity that decreases with the temperature, from 117 K on
  * `C219_constant_model` — The constant model and the linear model agree at 20 °C for every wire but copper
* **C220 Which outputs and solvers have which derivatives** — Models src/common/miso_output.hpp; src/common/miso_residual.hpp:10-129; src/common/abstract_solver.cpp:229-520; src/physics/common_outputs.hpp; src/physics/electromagnetics/electromag_outputs.hpp; src/utils/l2_transfer_operator.hpp; miso/pyMISO/exceptions.cpp. Stated in `OutputCapsProps.lean`.
  * `C220_well_formed` — Every call compiles: for every output type each operation finds a function
  * `C220_resolution` — A type's own function is always preferred, and what an operation does when the type has none is: nothing for options, the base class's NaN for the value of the two projections, an exception for everything else
  * `C220_value` — values.** A scalar-valued output evaluated into a vector of one entry writes its value there, and a field output evaluated into a vector of any other length runs its own field evaluation on that vector
  * `C220_false_field_of_one` — is false for fields with one entry on this process** (one element of degree zero, or a small partition): the value written is NaN and no exception is thrown, whatever the field
  * `C220_scalar_refuses_vectors` — Scalar outputs refuse to be evaluated into a vector whose length is not one
  * `C220_size` — Every output except the flow entropy reports the size its own evaluation accepts: one for numbers
  * `C220_false_entropy_size` — is false for the flow entropy**: a caller who asks for its size and evaluates into a vector of that size — as the Python layer does — gets an exception for every state of more than one unknown
  * `C220_entropy_number` — Evaluated into a single number, the flow entropy is the entropy
  * `C220_false_entropy_partials` — is false for the partials of the flow entropy**: they are reported as zero, silently, although the entropy depends on the state; its products throw
  * `C220_forward` — forward products.** Every scalar output but the entropy adds its own product to a one-entry result; the heat source runs its own product on longer results; the flux projections refuse, whatever the length, and so does every output given a result of the wrong kind
  * `C220_reverse` — reverse products.** With respect to a field every output but the entropy runs its own product; with respect to a single number exactly the listed outputs do, the others (force, torque, volume, the averages, the aggregates, the flux projections) refuse — also for numbers they do not depend on, where the product would be zero
  * `C220_partials` — partials.** The explicit partials exist for the functional, force and torque outputs; all others but the entropy refuse and leave the caller's number or vector as it was
  * `C220_options` — Options sent to the flux projections after creation are ignored without an exception; every other output but the entropy receives them
  * `C220_names` — What the solvers register can always be evaluated by its size, except the flow entropy: for the magnetostatic and thermal solvers no name gives an entropy, for the flow solvers only `"entropy"` does
  * `C220_classes` — Every magnetostatic output is computed by its own class, and the three thermal outputs by theirs: a request for a maximum is never answered by an average, one for the flux density's maximum never by the state's
  * `C220_solver_products` — solvers.** Linearisation, adjoint solves and residual products run for the magnetostatic solver, the thermal solver and the mesh warper
  * `C220_python_errors` — solvers.** Python sees `NotImplementedError` exactly for an operation the library says it does not implement, `RuntimeError` exactly for its other exceptions
* **C221 The current density is the one asked for, in two and three dimensions** — Models src/physics/electromagnetics/current_source_functions.cpp: CurrentDensityCoefficient, CurrentDensityCoefficient2D; src/common/coefficient.cpp: MeshDependentCoefficient, VectorMeshDependentCoefficient. Stated in `CurrentFieldProps.lean`.
  * `C221_accept` — The two- and the three-dimensional coefficient accept the options exactly when no attribute is given to two of the sources they know
  * `C221_plane` — Two dimensions: after any sequence of input updates, on an element listed under a group the coefficient is minus the axial direction of its source times the density last given to that group under `current_density:<group>` (1 if none was); on elements not listed under a known source it is zero
  * `C221_space` — Three dimensions: the same for the sources that do not depend on stator parameters: the density last given to the group times the direction field of the source at the point
  * `C221_consistent` — The two-dimensional coefficient is minus the axial component of the three-dimensional one: with the options both accept and after the same updates, on every element whose source is one of the four two-dimensional ones
  * `C221_mesh_derivative` — The reverse pass of the two-dimensional coefficient is the derivative with respect to the mesh nodes: for every element, every motion of its nodes and every weight (the caller clears `x_bar` before it calls the source's reverse function)
  * `C221_stator_parameters` — The coefficient has the two stator parameters (24 slots, stack length 0.345) exactly if some group has a stator winding of either sense
  * `C221_ignored_false` — violation** A source that exists in three dimensions only (or a misspelt one) is not reported by the two-dimensional coefficient: the elements, among those the load is integrated over, carry no current, whatever density is set
* **C222 Gradients in an optimisation loop** — Models miso/miso_state.py; miso/pyMISO/misoSolver.cpp; src/common/abstract_solver.cpp; src/physics/miso_nonlinearform.cpp. Stated in `OptLoopProps.lean`.
  * `C222_accumulates` — Products with respect to the inputs are added to what the accumulator holds, entry by entry
  * `C222_error_partial` — exact error** After any history, a solve at a new design that takes at least one Newton step, `linearize`, and any number of further calls at that design: the gradient OpenMDAO assembles for an output differs from its derivative along the solutions by exactly `ψ · (J(p, v) - J(p, u)) U'`, where `v` is the iterate before the last step, `u` the state, `U'` the derivative of the state and `ψ` the adjoint of the problem linearised at `v`
  * `C222_gradient_partial` — If the Jacobian does not depend on the state (linear problems, for every value of the parameters), the gradient is the exact total derivative of the output with respect to all inputs, numbers and fields, at every design of the loop that takes a Newton step, whatever happened before and however many outputs were differentiated before at this design
  * `C222_stale_false` — is false if the guess already solves the next design**: no Newton step is taken, `linearize` keeps the Jacobian of the previous design, and the gradient is the one with that adjoint: for every problem, every component that holds a Jacobian `A`, and every design `q` whose guess meets the tolerance
  * `C222_stale_witness_false` — violation, concretely**: two designs of a loop that starts with a fresh component and uses the last state as guess, exact Newton steps and tolerances zero
  * `C222_one_dof_field_false` — is false for a field with one dof**: it arrives at the overload for numbers, where its name is not known, and its part of the gradient is missing
* **C223 Options written in Python arrive unchanged** — Models miso/pyMISO/pybind11_json.hpp: to_json, from_json, type_caster<nl::json>. Stated in `PyJsonProps.lean`.
  * `C223_arrives` — What Python wrote is what C++ reads, at every path (missing stays missing): if no dictionary has two keys with the same text
  * `C223_rejected` — Options are refused exactly if somewhere inside there is an object of an unsupported class or an integer that does not fit a `long`: nothing is dropped silently
  * `C223_integers` — An integer is accepted exactly from −9223372036854775808 to 9223372036854775807, unchanged
  * `C223_round_trip_partial` — Reading the options back gives the same value at every path, provided no dictionary has two keys of the same text and every float inside is finite or NaN and, if whole, fits a `long`
  * `C223_types_false` — fails for the type of a number and of a tuple: every whole float that fits comes back as an integer, every tuple as a list
  * `C223_large_false` — fails for large numbers: an infinite float, or a whole one from `2^63` on, is accepted and stored, and reading the options back is then undefined
  * `C223_same_text_false` — fails if two keys have the same text, as `1` and `"1"` have: only the later value arrives
* **C224 Building a solver from Python** — Models miso/pyMISO/pdeSolver.cpp: initSolver, initPDESolver. Stated in `PyJsonProps.lean`.
  * `C224_by_name` — `PDESolver(name, options)` builds a solver exactly if the name is one of the two known ones and the options are `None` or a dictionary without unsupported objects; its class is the one named
  * `C224_name_or_dict` — A name and a dictionary with that name under `"type"` do the same
  * `C224_by_dict` — A `type` that is no string must be a dictionary whose `"type"` is one of the two names, else no solver is built
  * `C224_options` — The solver gets the options that were written, at every path that does not start with `"solver-type"`, and there the type that was given
  * `C224_replaced_false` — fails for a `"solver-type"` the user already put among the options: it is replaced without a word
* **C225 Python functions as states and exact solutions** — Models miso/pyMISO/misoSolver.cpp: setState, calcStateError; miso/pyMISO/pyMISO.cpp: PYBIND11_MODULE; src/physics/pde_solver.cpp: PDESolver::setState_; src/physics/finite_element_state.hpp: project. Stated in `PyFunctionsProps.lean`.
  * `C225_scalar` — A Python function of one array that returns a number at every node sets the caller's vector, the named field and, for the field `state`, the Dirichlet values to its values at the nodes, in the order of the nodes; other fields keep theirs
  * `C225_fails` — If at some node the function raises or returns something that is no number, or the name is no field, `setState` raises (and then, as `Outcome.raised` carries no new state, the caller's vector is as before)
  * `C225_vector_false` — fails for vector-valued states: a Python function of a point and a vector to fill, which cannot be called with one argument, is not used as one; the call raises
  * `C225_error_false` — fails for `calcStateError`: whatever Python object is given as the exact solution, no error is returned
  * `C225_not_callable` — An object that is neither callable nor `None` is a type error, `None` raises at the first node
* **C226 L2 projection residual** — Models src/physics/thermal/thermal_integ.cpp: L2ProjectionIntegrator, L2ProjectionIntegratorMeshRevSens, TestBCIntegrator, TestBCIntegratorMeshRevSens. Stated in `ProjectionIntegProps.lean`.
  * `C226_weak_form` — Tested with `ψ` the residual is `α ∫ (u - g) ψ`; the boundary term is `∫ u ψ`
  * `C226_gradient` — The residual is the gradient of `α/2 ∫ (u - g)²`: its product with any direction is the derivative along it
  * `C226_best` — With positive weights and `α ≠ 0`, a state annuls the residual exactly if no other is closer to the desired values
  * `C226_jacobian` — The Jacobian is the derivative of the residual, symmetric, and positive semidefinite for `α ≥ 0`
  * `C226_mesh` — The mesh sensitivities are exact for every motion of the mesh nodes, including the motion of the desired values
* **C227 The demagnetisation aggregate bounds the worst point** — Models src/physics/mfem_common_integ.cpp:IEAggregateDemagIntegratorNumerator::GetElementEnergy; src/physics/mfem_common_integ.cpp:IEAggregateDemagIntegratorDenominator::GetElementEnergy; src/physics/common_outputs.hpp:IEAggregateFunctional. Stated in `DemagAggProps.lean`.
  * `C227_mean` — The aggregate is the mean of the margins of all quadrature points, weighted by `w e^{ρ margin}`; the offset `true_max` only scales numerator and denominator and drops out
  * `C227_between` — It is between the smallest and the largest margin, and grows with `ρ`
  * `C227_constraint` — What a constraint on the aggregate guarantees: if it is at most `-gap`, with `gap` at least `W / (ρ w)` at every point (`W` the total weight), then at every quadrature point the flux density along the magnetisation is at least the knee: no point is demagnetised
  * `C227_direction` — Only the direction of the magnetisation counts: scaling it by a positive factor, different from point to point, changes no margin
  * `C227_fields` — With fields the temperature and the flux density are those of the fields at the point, the `y` coefficients following the `x` coefficients; without a temperature 100 °C is used; without a flux density 99 T in both directions, so that the margin reports no risk for any magnet with a magnetisation in the first quadrant and a knee below 99 T
  * `C227_unmagnetised_false` — negation) One point without magnetisation (a temperature at which the magnet has lost it, or an element that is no magnet) makes the aggregate not a number, whatever the rest of the mesh is
* **C228 Every region gets the reluctivity its component asks for** — Models src/physics/electromagnetics/reluctivity_coefficient.cpp:constructReluctivityCoeff; src/physics/electromagnetics/reluctivity_coefficient.cpp:getCpsKnotsAndDegree; src/physics/electromagnetics/reluctivity_coefficient.cpp:ReluctivityCoefficient. Stated in `NuBuildProps.lean`.
  * `C228_degree` — A degree that is not an integer is cut off towards zero
  * `C228_laws` — After a successful construction every attribute a component names has the law that component asks for, and every attribute with an entry is named by a component with that law; elements of all other attributes have the reluctivity of the vacuum
  * `C228_linear` — A region of a material given by its name, without a reluctivity block, or with the model `linear`, has the constant reluctivity `1 / (mu_r mu_0)` for every flux density, with the library's `mu_r`, 1 if it has none: it is positive for a positive `mu_r`, and at most that of the vacuum for `mu_r ≥ 1`
  * `C228_refused` — Options are never silently reinterpreted: if any component that names an attribute asks for a model other than `linear`, `lognu` and `bh`, for a model that is not a string, or for a spline whose control points or knots are neither in the component nor in the library, no coefficient is made at all
  * `C228_team13_false` — negation) The law for the TEAM 13 steel is in the code, but cannot be asked for: its options are always refused
  * `C228_own_spline_false` — negation) A component that brings its own control points and knots for a material without such a block in the library is not given the default degree 3: reading the default fails
* **C229 An output component has no memory** — Models miso/miso_output.py:MISOFunctional. Stated in `FuncCompProps.lean`.
  * `C229_memoryless` — What the component computes, and what derivatives it takes, is the solver's output (or product) for exactly the inputs of this call: not of an earlier one, whatever its buffers hold and however the lengths of the inputs changed; it never fails, and is ready for the next call
  * `C229_history` — For a component after `setup` (whatever the new buffers hold) and every history of proper calls: no call fails, and the next evaluation gives what a new component would give
  * `C229_own_name_false` — negation) Without the assumption that the solver ignores an entry named like the output, it fails: the buffer of the output is handed over as an input of that name
* **C230 Mass matrix of the flow solver** — Models src/physics/fluidflow/flow_residual.cpp; src/physics/fluidflow/flow_solver.cpp; src/common/ode.cpp; src/physics/diag_mass_integ.cpp. Stated in `FlowMassProps.lean`.
  * `C230_assembled` — What the mass matrix is: for an SBP basis the diagonal matrix of the lumped masses of the mesh it is assembled on — no coupling between dofs
  * `C230_positive_and_volume` — Positive definite on uninverted meshes; and (unsteady weighting) the masses of all dofs add up to the number of states times the volume of the mesh
  * `C230_construct` — Which configurations give a mass matrix at all (two or more states, as every flow problem has): the solver is set up exactly if the basis is an SBP one and `time-dis.steady` is a boolean; a missing or non-boolean entry is a type error, and any other basis makes the assembly read element matrices out of bounds
  * `C230_cached` — Whatever mesh coordinates are passed in after construction, and however often the mass matrix is requested: the residual's matrix and the one the time-marching residual uses stay the matrix of the mesh at construction, while the spatial residual sees the last mesh passed in
  * `C230_unmoved_partial` — partial: the claim that the mass matrix is that of the current mesh fails once the mesh moves, see `C230_follows_mesh_false`.) If the last mesh passed in is the one the solver was built on, an explicit stage of an unsteady problem gives the slope of the semi-discrete equations on that mesh: every dof's lumped mass times its slope is minus its residual
  * `C230_stale_factor` — The size of the error: if an unsteady problem's mesh is moved to one whose volumes are `c` times those at construction, every explicit slope is `c` times the slope of the semi-discrete equations on the mesh in use
  * `C230_steady_unaffected` — Steady problems do not suffer: whatever was done before, a state is a rest point of the implicit pseudo-time equation (slope zero) exactly if the spatial residual on the current mesh vanishes there
  * `C230_follows_mesh_false` — The full claim is false: "after new mesh coordinates are passed in, an explicit stage gives the slope of the semi-discrete equations on the mesh in use" fails — a one-element mesh whose volume is doubled, residual 1
* **C231 MPhys scenario wiring** — Models miso/mphys/miso_builder.py; miso/miso_state.py; miso/miso_output.py; miso/mesh_warper.py. Stated in `MphysProps.lean`.
  * `C231_setup` — Exactly which builders give a scenario that sets up: known physics, a warper that is MISO's or switched off, solver inputs without repetition and without `mesh_coords` and `state`, functionals shown under distinct names different from those of the state (and of the volume mesh, if warped), and no functional that repeats an input or depends on itself
  * `C231_mesh` — One mesh for all: with MISO's warper the `mesh_coords` of the solver and of every functional is the warped volume mesh
  * `C231_state` — One state for all: the `state` every functional reads is the one the solver computes
  * `C231_other` — Every other input `v` of the solver or of a functional keeps its name, so all components that use it share it: if a functional is shown under that name it is what they read, and otherwise (the name being neither the volume mesh's nor the state's) the value comes from outside the scenario, or is 1 in every entry if nothing outside provides it
  * `C231_unwarped` — With the warper switched off nothing in the scenario feeds `mesh_coords` (unless a functional is shown under the volume mesh's name): solver and functionals are handed a mesh whose coordinates are all 1
  * `C231_mesh_group` — The mesh group: it provides the initial surface coordinates exactly for known physics with MISO's warper; with the warper off, or with "idwarp", asking for it raises
  * `C231_own_mesh_false` — The claim "without a warper the solver computes on its own mesh" is false
* **C232 Older force integrator and magnetisation source** — Models src/physics/electromagnetics/electromag_integ.cpp; src/physics/electromagnetics/electromag_integ.hpp. Stated in `LegacyForceProps.lean`.
  * `C232_same_in_3d` — In three dimensions the older integrator computes, and differentiates with respect to the state, exactly as the one the outputs use: same value, same gradient vector, for body elements, ignored displacements and all others
  * `C232_virtual_work_3d_partial` — Hence in three dimensions its value is minus the derivative of the element's magnetic energy along the virtual displacement, and its gradient is exact
  * `C232_two_dimensions` — In two dimensions the change of the flux density is counted `det J` times: the value exceeds the virtual work by `Σ w J (1 - J) dB/ds dW/dB`
  * `C232_two_dimensions_false` — The claim that the older integrator gives the virtual work is false in two dimensions (an element with Jacobian `2 I` stretched in the direction of the field's gradient, linear material)
  * `C232_magnetisation_value` — What `MagnetizationIntegrator` adds up: `α w ν(|J| |B|) (curl N_r · M)`, with `B` the flux density and `curl N_r` the physical curl — the reluctivity is taken at the flux density times the Jacobian determinant
  * `C232_magnetisation_gradient_partial` — partial: constant reluctivity only, see `C232_magnetisation_gradient_false`.) With a reluctivity that does not depend on the field the residual does not depend on the state and the zero matrix is its Jacobian
  * `C232_magnetisation_gradient_false` — For a reluctivity that varies with the field the assembled gradient is wrong: it is zero although the residual changes
* **C233 Older mesh-sensitivity integrators** — Models src/physics/mfem_common_integ.cpp; src/physics/mfem_common_integ.hpp. Stated in `LegacyMeshProps.lean`.
  * `C233_load` — The load integrator's mesh sensitivity is the derivative of the adjoint-weighted load along every motion of the mesh, including the part that comes from the coefficient's dependence on position
  * `C233_mass_partial` — partial: coefficients that do not change along the motion; see `C233_coefficient_false`.) Mass
  * `C233_diffusion_partial` — partial: coefficients that do not change along the motion; elements of full dimension.) Diffusion
  * `C233_boundary_normal_partial` — partial: vector coefficients that do not change along the motion.) The boundary integrator: derivative of `∫ ψ Q·n dΓ` over the faces of an element, in two and three dimensions
  * `C233_test_load` — The test load: derivative of `Σ w Q`, if both are integrated with the same rule …
  * `C233_test_rules` — which is the case for elements of order four and no others
  * `C233_coefficient_false` — For a coefficient that depends on the position the mass sensitivity is wrong (`Q = x` on a triangle shifted along `x`; the comment in the code says it must be tailored to the coefficient)
  * `C233_rule_partial` — partial: objects made with the two numbers; see `C233_rule_false`.) The load sensitivity is integrated with a rule of order `a · order + b` for the `a` and `b` the caller gave, for elements of every order
  * `C233_rule_false` — is false for objects made with an integration rule**: for elements of every order there is a rule that, given to the constructor, is not the one used
* **C234 Printed Jacobian and re-targeted sums of operators** — Models src/common/matrix_operators.cpp; src/common/matrix_operators.hpp. Stated in `JFPrintProps.lean`.
  * `C234_file` — The file has `n` lines of `n` numbers; line `j` holds the `j`-th difference quotient, whatever the file held before
  * `C234_affine` — For an affine residual `A u + c` and a linear explicit part `E`, line `j` entry `i` is `scale A(i,j) + E(i,j)`: the file is the transpose of the operator's matrix, for every baseline and scale (also zero, where products themselves are wrong, C31)
  * `C234_lines_are_products` — Line `j` is the product of the operator with the `j`-th unit vector (affine residual, scale not negligible)
  * `C234_forward_difference` — For a general residual with curvature at most `C` along the coordinate directions every printed entry is within `C eps / 2` of the entry of the Jacobian (no explicit part, scale one)
  * `C234_layout_false` — The claim that line `i`, entry `j` is the operator's entry `(i, j)` is false: lines and columns are swapped
  * `C234_sum_sizes` — Constructing a sum of operators rejects operators of different sizes …
  * `C234_retarget_false` — but re-targeting an existing sum accepts anything: operators of different sizes, and a work vector of the wrong size
  * `C234_retarget_work_false` — for every sum and every new pair of operators: the sizes are taken over unchecked and the work vector keeps the size of the operators the sum was made from
* **C235 Mesh sensitivity of the older force integrator** — Models src/physics/electromagnetics/electromag_integ.cpp: ForceIntegratorMeshSens. Stated in `LegacyForceMeshProps.lean`.
  * `C235_mesh_sensitivity_partial` — In three dimensions the mesh sensitivity of the older force integrator, multiplied with any motion of the mesh nodes, is the derivative of the element's force contribution under that motion (virtual displacement and state held fixed)
  * `C235_same_as_current` — In three dimensions the older and the current integrator give the same directional derivative with respect to the mesh
* **C236 Checked boundary and interface terms and their mesh sensitivities** — Models src/physics/electromagnetics/electromag_integ.cpp: TestBoundaryIntegrator, TestInteriorFaceIntegrator. Stated in `FaceTestProps.lean`.
  * `C236_boundary_form` — The boundary term, tested with any function: minus the normal derivative times the test function, its transpose, and the product of the traces weighted with the squared normal
  * `C236_boundary_symmetric` — The boundary term is symmetric
  * `C236_interior_form` — The interface terms, tested with any pair of functions
  * `C236_boundary_sensitivity` — The two vectors assembled for a boundary face — one on the nodes of the face, one on the nodes of the element — multiplied with the same motion of the mesh, add up to the derivative of the tested boundary term (same quadrature rule; `inv` is the adjugate)
  * `C236_rule_partial` — Residual and sensitivity of the boundary term use the same rule on simplices
  * `C236_rule_false` — violation** On tensor-product elements they do not, in any positive dimension: the sensitivity is that of another sum
  * `C236_interior_sensitivity` — The two vectors assembled for an interface, multiplied with any motion of the nodes of the two elements (the face moving with the first), add up to the derivative of the tested interface terms
* **C237 Mapping a surface mesh to a new body fills the caller's array** — Models miso/pyMISO/meshMotion.cpp: mapSurfaceMesh; src/utils/EGADS/miso_egads.cpp: mapSurfaceMesh. Stated in `TransferMapProps.lean`.
  * `C237_displacements_partial` — Given a contiguous array of doubles with two or three entries per node, and no failure of EGADS, every entry becomes the displacement of its node
  * `C237_sizes` — A contiguous array of doubles of another size is written past its end exactly if it has fewer than three entries per node (and not two): no size is refused
  * `C237_errors` — An array of more than one dimension, a failing call of EGADS, and a build without EGADS are reported, and nothing is written
  * `C237_other_types` — An array that does not hold doubles is accepted, and left as it is
  * `C237_types_false` — So the displacements do not always arrive: not in an array of integers or single-precision numbers, …
  * `C237_slices_false` — and not in a slice of an array: the entries of every second position of an array of six, for one node
* **C238 Transferring a solution to another mesh evaluates it at the other mesh's nodes** — Models src/utils/utils.cpp: transferSolution. Stated in `TransferMapProps.lean`.
  * `C238_nodes_partial` — With GSLIB, and an output with room for the nodes of the new mesh, the output holds the field's value at every node and is otherwise as before, if the nodes are stored `byNODES`
  * `C238_one_dimension` — On a mesh in one dimension the layout does not matter
  * `C238_errors` — An output shorter than the number of nodes is written out of bounds, and a build without GSLIB throws
  * `C238_layout_false` — Where the nodes are stored `byVDIM`, the layout MFEM itself gives a mesh, the values are those of other points: on two nodes (0,0) and (1,2) in the plane, the field `x` comes out as (0, 0), not as (0, 1)
* **C239 The SBP advection integrators conserve and are energy stable** — Models src/physics/fluidflow/advection.cpp: AdvectionIntegrator, AdvectLPSIntegrator, AdvectionSolver. Stated in `AdvectionProps.lean`.
  * `C239_weak_form` — The advection matrix is the weak form: `vᵀ A u = -α ∫ (∇̂v · λ̂) u`, the integral being the element's norm and the gradient its strong operator
  * `C239_conserves` — Each element conserves: the contributions of the advection matrix sum to zero, whatever the field, the velocity and the mapping
  * `C239_energy` — Where the velocity in reference space is constant, the energy of an element changes only through its boundary: `uᵀ A u = -α/2 Σ_d λ̂_d uᵀ E_d u`, with `E` the boundary operator of the element
  * `C239_lps` — The stabilisation is symmetric, and its energy is the speed-weighted square of what the projection leaves of the field
  * `C239_lps_dissipates` — With a nonnegative coefficient the stabilisation that the solver adds takes energy out of the element, none out of a polynomial of the element's degree, and conserves
  * `C239_stiffness` — Both terms together, as `AdvectionSolver` adds them: with a constant velocity in reference space the energy of an element grows by no more than what its boundary lets in
  * `C239_constant_false` — The matrix is the volume term only: a constant field in a constant velocity has no rate of change, but the two nodes of an element on the segment get `-1` and `1`
* **C240 The fields a magnetostatic or thermal solver owns** — Models src/physics/electromagnetics/magnetostatic.cpp: MagnetostaticSolver; src/physics/thermal/thermal.cpp: ThermalSolver. Stated in `SolverFieldsProps.lean`.
  * `C240_magnetostatic_fields` — A magnetostatic solver has all the fields its options ask for, and besides a temperature (linear and continuous) and two discontinuous fields of the state's degree for the flux; where the options declare one of these three, the declared space is kept
  * `C240_values` — After construction the temperature is 273.15 in every dof, the flux fields, the state, the adjoint and every other declared field are zero
  * `C240_thermal_fields_partial` — A thermal solver has all the fields its options ask for and a load on the state's own space
  * `C240_load_space_false` — A declared "thermal_load" keeps its own space, which need not be the state's: the load of a solver with linear states can have three components
* **C241 Jacobians of the Euler fluxes with respect to the direction** — Models src/physics/fluidflow/euler_integ_def.hpp: calcFluxJacDir; src/physics/fluidflow/euler_integ.hpp. Stated in `AdJacDirProps.lean`.
  * `C241_euler` — The two Jacobians of the Euler flux are exact, for every direction and every state of nonzero density
  * `C241_boundary_state` — The free function's Jacobian of the boundary flux by the state is exact, for every direction, prescribed state and state of nonzero density: the wave speeds are those of the prescribed state, so there are no switches
  * `C241_slip_wall` — The slip wall's Jacobian with respect to the normal is exact, for every normal and state
  * `C241_control` — The actuated wall's: exact for every nonzero normal
  * `C241_boundary_partial` — partial: normals in which no wave speed of the prescribed state vanishes; see `C241_stagnant_false`.) The far field's, the entropy-conservative condition's and the vortex's Jacobians with respect to the normal are exact
  * `C241_interface_partial` — partial: normals not perpendicular to the mean momentum.) The interface flux's Jacobian with respect to the normal, in either set of variables, with any dissipation coefficient
  * `C241_stagnant_false` — is false at normals perpendicular to the prescribed stream**: the far-field flux, as a function of the normal, has no Jacobian there, so none of the matrices Adept may return is one

## What is modelled

| Part of `/repo/src` | Lean modules |
|---|---|
| `utils/kdtree.hpp`, `utils/utils.cpp` (bisection, secant, quadratic interpolation, boundary arrays) | `KDTree*`, `RootFind*`, `Boundary*` |
| `linesearch`, `relaxed_newton`, `inexact_newton` | `LineSearch*`, `InexactNewton*` |
| `abstract_solver.cpp` (time loop, option merging, output registry), `pde_solver.cpp` (PUMI/PCU life time) | `TimeLoop*`, `Options*`, `Registry*`, `Pcu*` |
| `data_logging.hpp` | `StateFiles*`, `AsciiFiles*` |
| `miso_input.*` | `Inputs*` |
| `matrix_operators`, `ode.*`, `mfem_extensions` (RRK, block Jacobi) | `Operators*`, `Ode*`, `BlockJacobi*` |
| `miso_nonlinearform.*`, `miso_linearform`, loads of the electromagnetic residual, thermal residual, mesh warper, projectors | `NonlinearForm*`, `Loads*`, `Thermal*`, `Warper*`, `Projector*` |
| quotient functionals and aggregates, Lp errors | `Quotient*`, `LpError*` |
| material and state coefficients | `Coefficients*` |
| `surface.hpp`, `surface_def.hpp` | `SurfaceMesh*`, `SurfaceDist*` |
| `orthopoly.cpp`, `sbp_fe.cpp`, `sbp_operators.hpp` (every shipped table, as exact decimal integers generated by `tools/gen_sbp_data.py`) | `OrthoPoly*`, `Sbp*` |
| Euler and Navier–Stokes point fluxes, inviscid and viscous integrators, boundary conditions, functionals, the assembly of the flow residual and its entropy change | `EulerFluxes*`, `EulerEntropyProps` …, `InviscidInteg*`, `EulerInteg*`, `EulerStableProps`, `EulerGlobalProps`, `Viscous*`, `NavierStokes*` |
| flow control residual | `Control*` |

## What is not modelled, and what is assumed instead

* **Floating point.** `double` is an ordered field or ℝ.  No rounding, overflow, NaN (except where
  NaN is itself an outcome: `Registry`, `AsciiFiles`).
* **MFEM** (meshes, finite element spaces, assembly loops, `GetEnergy` summing element, interior face
  and boundary face contributions, `EliminateRowsCols`, quadrature rules, `LinearSolve`): appears as
  parameters or as the small functions whose comment says "(MFEM)".
* **hypre / Krylov solvers**: the result of a linear solve is a parameter; where a theorem needs the
  solve to be exact that is a hypothesis.
* **MPI**: ranks are list elements, reductions are sums or maxima; message passing is not modelled.
* **Adept** (automatic differentiation): the point Jacobians it returns are parameters, and "exact
  Jacobian" theorems about integrators assume them exact at the point in question.
* **nlohmann::json**: the fragment in `Options` and `Boundary`.
* **C++ object model**: memory is modelled only in the properties about aliasing and life time
  (`Inputs`, `KDTree` C05, `Thermal`, `Loads`, `Pcu`).
* EGADS/PUMI geometry, Python bindings, ParaView output, the test and sandbox directories are not
  modelled.

Every `_false` theorem is a defect of the code as read: the negation of the English property, proved
on a concrete witness.  The manifest lists such properties as `partial`.
